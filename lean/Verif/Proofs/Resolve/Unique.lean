import Verif.Proofs.Resolve.Slots
import Verif.Proofs.Resolve.Top
/-! The locations in a resolved program are determined by the program without them. -/
namespace Ws
open Spec

/-- No scope has a name twice. -/
def Distinct (Γ : Names) : Prop := ∀ s ∈ Γ, s.Nodup

theorem wf_distinct {rs : Resolver} (h : Wf rs) : Distinct rs.names := by
  intro s hs
  obtain ⟨t, ht, rfl⟩ := List.mem_map.mp hs
  exact (h.scope t ht).nodup

theorem use_unique {Γ x} {c c' : VarLoc} (hd : Distinct Γ) (h : EventOk Γ (.use x c)) (h' : EventOk Γ (.use x c')) :
    c = c' := by
  rcases c with ⟨d, i⟩
  rcases c' with ⟨d', i'⟩
  rcases h with ⟨k, ⟨⟨s, h1, h2⟩, h3⟩, h4⟩ | ⟨h1, g, h2, h3, h4⟩ <;>
    rcases h' with ⟨k', ⟨⟨s', h1', h2'⟩, h3'⟩, h4'⟩ | ⟨h1', g', h2', h3', h4'⟩
  · dsimp only at *
    have e : d = d' := by
      rcases Nat.lt_trichotomy d d' with l | l | l
      · exact absurd (List.mem_of_getElem? h2) (h3' d l s h1)
      · exact l
      · exact absurd (List.mem_of_getElem? h2') (h3 d' l s' h1')
    subst e
    rw [h1, Option.some.injEq] at h1'
    subst h1'
    have := (List.getElem?_inj (List.getElem?_eq_some_iff.mp h2).1 (hd s (List.mem_of_getElem? h1))).mp (h2.trans h2'.symm)
    rw [h4, h4', this]
  · exact absurd (List.mem_of_getElem? h2) (h1' s (List.mem_of_getElem? h1))
  · exact absurd (List.mem_of_getElem? h2') (h1 s' (List.mem_of_getElem? h1'))
  · dsimp only at *
    rw [h2, Option.some.injEq] at h2'
    subst h2'
    rw [h3, h4, h3', h4']

theorem declare_unique {Γ x} {c c' : SlotIndex} (hd : Distinct Γ) (h : EventOk Γ (.declare x (some c)))
    (h' : EventOk Γ (.declare x (some c'))) : c = c' := by
  rcases c with ⟨i⟩
  rcases c' with ⟨i'⟩
  obtain ⟨s, k, h1, h2, h3⟩ := h
  obtain ⟨s', k', h1', h2', h3'⟩ := h'
  cases Γ with
  | nil => simp [namesAfter, Event.after] at h1
  | cons t Γ =>
    simp only [namesAfter, List.foldl_cons, List.foldl_nil, Event.after, List.head?_cons, Option.some.injEq] at h1 h1'
    subst h1 h1'
    have := (List.getElem?_inj (List.getElem?_eq_some_iff.mp h2).1 (addName_nodup (hd t (by simp)))).mp (h2.trans h2'.symm)
    dsimp only at h3 h3'
    rw [h3, h3', this]

theorem atEach_left {P Γ a b} (h : AtEach P Γ (a ++ b)) : AtEach P Γ a := by
  rintro u e w rfl
  exact h u e (w ++ b) (by simp)

theorem atEach_right {P Γ a b} (h : AtEach P Γ (a ++ b)) : AtEach P (namesAfter Γ a) b := by
  rintro u e w rfl
  rw [← namesAfter_append]
  exact h (a ++ u) e w (by simp)

theorem atEach_head {P Γ e b} (h : AtEach P Γ (e :: b)) : P Γ e := h [] e b rfl

theorem atEach_tail {P Γ e b} (h : AtEach P Γ (e :: b)) : AtEach P (Event.after Γ e) b :=
  atEach_right (a := [e]) h

theorem alike_symm {n n' : Node} (h : Alike n n') : Alike n' n := by
  cases h with
  | literalMap h => exact .literalMap h.symm
  | «if» h => exact .if h.symm
  | _ => constructor

theorem map_expr_inj {a b : List Expr} (h : a.map Node.expr = b.map Node.expr) : a = b :=
  List.map_inj_right (fun _ _ h => Node.expr.inj h) |>.mp h

theorem entries_inj {a b : List MapEntry} (hk : a.map MapEntry.key = b.map MapEntry.key)
    (hv : (a.map fun m => Node.expr m.value) = b.map fun m => Node.expr m.value) : a = b := by
  induction a generalizing b with
  | nil =>
    cases b with
    | nil => rfl
    | cons y b => simp at hk
  | cons x a ih =>
    cases b with
    | nil => simp at hk
    | cons y b =>
      simp only [List.map_cons, List.cons.injEq, Node.expr.injEq] at hk hv
      obtain ⟨k, v⟩ := x
      obtain ⟨k', v'⟩ := y
      obtain ⟨rfl, hk⟩ := hk
      obtain ⟨rfl, hv⟩ := hv
      rw [ih hk hv]
      rfl

theorem alike_inj {n n' : Node} (h : Alike n n') (hp : n.parts = n'.parts) : n = n' := by
  cases h with
  | literalMap h =>
    simp only [Node.parts, exprParts] at hp
    rw [entries_inj h hp]
  | literalArray =>
    simp only [Node.parts, exprParts] at hp
    rw [map_expr_inj hp]
  | call =>
    simp only [Node.parts, exprParts, List.cons.injEq, Node.expr.injEq] at hp
    rw [hp.1, map_expr_inj hp.2]
  | @«if» c a b c' a' b' h =>
    cases b <;> cases b' <;> simp_all [Node.parts, stmtParts]
  | _ => simp_all [Node.parts, exprParts, stmtParts]

/-- An item whose locations are right already is not changed by the resolver. -/
theorem resolved_same {a b rs rs'} (h : Resolved a b rs rs') :
    Wf rs → AtEach EventOk rs.names (itemEvents a) → a = b := by
  induction h with
  | nil => exact fun _ _ => rfl
  | methods_nil => exact fun _ _ => rfl
  | cons h1 _ i1 i2 =>
    intro hw ho
    have s := resolved_steps h1 hw
    cases i1 hw (atEach_left ho)
    have := atEach_right ho
    rw [show nodeEvents _ = itemEvents (.node _) from rfl, ← s.names] at this
    cases i2 s.wf this
    rfl
  | methods_cons h1 _ i1 i2 =>
    intro hw ho
    have s := resolved_steps h1 hw
    simp only [itemEvents, methodsEvents] at ho s
    cases i1 hw (atEach_left ho)
    have := atEach_right ho
    rw [← s.names] at this
    cases i2 s.wf this
    rfl
  | plain h _ i =>
    intro hw ho
    rw [show itemEvents (.node _) = _ from alike_events (alike_symm h)] at ho
    have := i hw ho
    rw [alike_inj h (Item.nodes.inj this)]
  | function _ i =>
    intro hw ho
    simp only [itemEvents, nodeEvents, exprEvents] at ho
    cases i hw ho
    rfl
  | assign h h' i =>
    intro hw ho
    simp only [itemEvents, nodeEvents, exprEvents] at ho
    have s := resolved_steps h hw
    cases i hw (atEach_left ho)
    have s' := local_steps h' s.wf
    have := atEach_right ho
    rw [show exprEvents _ = itemEvents (.node (.expr _)) from rfl, ← s.names] at this
    cases use_unique (wf_distinct s.wf) (atEach_head this) (atEach_head s'.ok)
    rfl
  | «variable» h =>
    intro hw ho
    simp only [itemEvents, nodeEvents, exprEvents] at ho
    cases use_unique (wf_distinct hw) (atEach_head ho) (atEach_head (local_steps (variable_ok h hw.nonempty).1 hw).ok)
    rfl
  | super h =>
    intro hw ho
    simp only [itemEvents, nodeEvents, exprEvents] at ho
    cases use_unique (wf_distinct hw) (atEach_head ho) (atEach_head (local_steps (super_ok h).1 hw).ok)
    rfl
  | block hl h i =>
    intro hw ho
    simp only [itemEvents, nodeEvents, stmtEvents] at ho
    have h1 := enter_steps hw hl
    have := atEach_left (atEach_tail ho)
    rw [stmtsEvents_eq] at this
    cases map_stmt_inj (Item.nodes.inj (i h1.wf (by rw [h1.names]; exact this)))
    rfl
  | «return» h _ i =>
    intro hw ho
    cases (return_ok h).1
    simp only [itemEvents, nodeEvents, stmtEvents] at ho
    cases i hw ho
    rfl
  | var h _ _ i =>
    intro hw ho
    simp only [itemEvents, nodeEvents, stmtEvents] at ho
    have h1 := declare_steps h hw
    cases declare_unique (wf_distinct hw) (atEach_head ho) (atEach_head h1.ok)
    have := atEach_tail ho
    cases i h1.wf (by rw [h1.names]; exact this)
    rfl
  | «fun» h _ i =>
    intro hw ho
    simp only [itemEvents, nodeEvents, stmtEvents] at ho
    have h1 := define_steps h hw
    have := atEach_tail ho
    cases i h1.wf (by rw [h1.names]; exact this)
    rfl
  | «class» h hl h' hm i =>
    intro hw ho
    simp only [itemEvents, nodeEvents, stmtEvents] at ho
    have h1 := define_steps h (wf_types hw ..)
    have h2 := enter_define_steps h' h1.wf hl
    have := atEach_left (atEach_tail (atEach_tail ho))
    cases i h2.wf (by rw [h2.names, h1.names]; exact this)
    rfl
  | subclass h _ he hl h' hl' h'' hm i i' =>
    intro hw ho
    simp only [itemEvents, nodeEvents, stmtEvents] at ho
    have h1 := define_steps h (wf_types hw ..)
    have h2 := resolved_steps he h1.wf
    have h3 := enter_define_steps h' h2.wf hl
    have h4 := enter_define_steps h'' h3.wf hl'
    have ho1 := atEach_tail ho
    cases i h1.wf (by rw [h1.names]; exact atEach_left ho1)
    have ho2 := atEach_left (atEach_tail (atEach_tail (atEach_right ho1)))
    cases i' h4.wf (by rw [h4.names, h3.names, h2.names, h1.names]; exact ho2)
    rfl
  | fn hl h hb i =>
    intro hw ho
    simp only [itemEvents, funEvents] at ho
    have h1 := enter_steps hw hl
    have h2 := params_steps h (wf_types h1.wf ..)
    have := atEach_right (atEach_left (atEach_tail ho))
    rw [stmtsEvents_eq] at this
    have hn : (_ : Names) = _ := h2.names
    cases map_stmt_inj (Item.nodes.inj (i h2.wf (by rw [hn]; exact this)))
    rfl

end Ws
