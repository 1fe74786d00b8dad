import Verif.Proofs.Resolve.Trace
/-! Every part of a resolved program was resolved. -/
namespace Ws
open Ws.Spec

/-- `x` is in an item. -/
def InItem (x : Node) : Item → Prop
  | .nodes ns => ∃ n ∈ ns, Within x n
  | .node n => Within x n
  | .fn _ d => Within x (.fn d)
  | .methods ms => ∃ m ∈ ms, Within x (.fn m.funDef)

/-- `x` is the item. -/
def IsItem (x : Node) : Item → Prop
  | .node n => n = x
  | .fn _ d => .fn d = x
  | _ => False

theorem within_inv {x n : Node} (h : Within x n) : x = n ∨ ∃ c ∈ n.parts, Within x c := by
  cases h with
  | refl => exact .inl rfl
  | step hc h => exact .inr ⟨_, hc, h⟩

/-- `x` was resolved, at a depth of at least `n` scopes. -/
def WasResolved (x : Node) (n : Nat) : Prop :=
  ∃ a b rs rs', Resolved a b rs rs' ∧ Wf rs ∧ IsItem x b ∧ n ≤ rs.scopes.length

theorem WasResolved.mono {x n m} (h : WasResolved x n) (hm : m ≤ n) : WasResolved x m := by
  obtain ⟨a, b, rs, rs', h1, h2, h3, h4⟩ := h
  exact ⟨a, b, rs, rs', h1, h2, h3, Nat.le_trans hm h4⟩

theorem inItem_nodes_stmt {x : Node} {b : List Stmt} {c : Node} (hc : c ∈ b.map Node.stmt) (h : Within x c) :
    InItem x (.nodes (b.map .stmt)) := ⟨c, hc, h⟩

theorem resolved_sub {a b rs rs'} (h : Resolved a b rs rs') :
    Wf rs → ∀ x, InItem x b → WasResolved x rs.scopes.length := by
  induction h with
  | nil => rintro _ x ⟨n, hn, _⟩; simp at hn
  | methods_nil => rintro _ x ⟨n, hn, _⟩; simp at hn
  | cons h h' i i' =>
    rintro hw x ⟨n, hn, hx⟩
    rcases List.mem_cons.mp hn with rfl | hn
    · exact i hw x hx
    · exact (i' (resolved_steps h hw).wf x ⟨n, hn, hx⟩).mono (by rw [(resolved_shape h hw.nonempty).length]; exact Nat.le_refl _)
  | methods_cons h h' i i' =>
    rintro hw x ⟨n, hn, hx⟩
    rcases List.mem_cons.mp hn with rfl | hn
    · exact i hw x hx
    · exact (i' (resolved_steps h hw).wf x ⟨n, hn, hx⟩).mono (by rw [(resolved_shape h hw.nonempty).length]; exact Nat.le_refl _)
  | plain ha h i =>
    intro hw x hx
    rcases within_inv hx with rfl | ⟨c, hc, hx⟩
    · exact ⟨_, _, _, _, .plain ha h, hw, rfl, Nat.le_refl _⟩
    · exact i hw x ⟨c, hc, hx⟩
  | function h i =>
    intro hw x hx
    rcases within_inv hx with rfl | ⟨c, hc, hx⟩
    · exact ⟨_, _, _, _, .function h, hw, rfl, Nat.le_refl _⟩
    · simp only [Node.parts, exprParts, List.mem_singleton] at hc
      subst hc
      exact i hw x hx
  | assign h h' i =>
    intro hw x hx
    rcases within_inv hx with rfl | ⟨c, hc, hx⟩
    · exact ⟨_, _, _, _, .assign (c := .placeholder) h h', hw, rfl, Nat.le_refl _⟩
    · simp only [Node.parts, exprParts, List.mem_singleton] at hc
      subst hc
      exact i hw x hx
  | «variable» h =>
    intro hw x hx
    rcases within_inv hx with rfl | ⟨c, hc, hx⟩
    · exact ⟨_, _, _, _, .variable (c := .placeholder) h, hw, rfl, Nat.le_refl _⟩
    · simp [Node.parts, exprParts] at hc
  | super h =>
    intro hw x hx
    rcases within_inv hx with rfl | ⟨c, hc, hx⟩
    · exact ⟨_, _, _, _, .super (c := .placeholder) h, hw, rfl, Nat.le_refl _⟩
    · simp [Node.parts, exprParts] at hc
  | block hl h i =>
    intro hw x hx
    rcases within_inv hx with rfl | ⟨c, hc, hx⟩
    · exact ⟨_, _, _, _, .block hl h, hw, rfl, Nat.le_refl _⟩
    · exact (i (enter_steps hw hl).wf x ⟨c, hc, hx⟩).mono (by simp [Resolver.enter])
  | «return» h h' i =>
    intro hw x hx
    rcases within_inv hx with rfl | ⟨c, hc, hx⟩
    · exact ⟨_, _, _, _, .return h h', hw, rfl, Nat.le_refl _⟩
    · simp only [Node.parts, stmtParts, List.mem_singleton] at hc
      subst hc
      cases (return_ok h).1
      exact i hw x hx
  | var h h' h'' i =>
    intro hw x hx
    rcases within_inv hx with rfl | ⟨c, hc, hx⟩
    · exact ⟨_, _, _, _, .var (c := .placeholder) h h' h'', hw, rfl, Nat.le_refl _⟩
    · simp only [Node.parts, stmtParts, List.mem_singleton] at hc
      subst hc
      exact (i (declare_steps h hw).wf x hx).mono (by rw [(declare_shape h hw.nonempty).length]; exact Nat.le_refl _)
  | «fun» h h' i =>
    intro hw x hx
    rcases within_inv hx with rfl | ⟨c, hc, hx⟩
    · exact ⟨_, _, _, _, .fun h h', hw, rfl, Nat.le_refl _⟩
    · simp only [Node.parts, stmtParts, List.mem_singleton] at hc
      subst hc
      exact (i (define_steps h hw).wf x hx).mono (by rw [(define_shape h hw.nonempty).length]; exact Nat.le_refl _)
  | «class» h hl h' hm i =>
    intro hw x hx
    rcases within_inv hx with rfl | ⟨c, hc, hx⟩
    · exact ⟨_, _, _, _, .class h hl h' hm, hw, rfl, Nat.le_refl _⟩
    · simp only [Node.parts, stmtParts, Option.toList_none, List.map_nil, List.nil_append, List.mem_map] at hc
      obtain ⟨m, hm, rfl⟩ := hc
      have w1 := (define_steps h (wf_types hw ..)).wf
      refine (i (enter_define_steps h' w1 hl).wf x ⟨m, hm, hx⟩).mono ?_
      rw [(define_shape h' (enter_nonempty _)).length, Resolver.enter, List.length_cons,
        (define_shape h hw.nonempty).length]
      exact Nat.le_succ _
  | subclass h hs he hl h' hl' h'' hm i i' =>
    intro hw x hx
    rcases within_inv hx with rfl | ⟨c, hc, hx⟩
    · exact ⟨_, _, _, _, .subclass h hs he hl h' hl' h'' hm, hw, rfl, Nat.le_refl _⟩
    · have w1 := (define_steps h (wf_types hw ..)).wf
      have l1 : (_ : Nat) = _ := (define_shape h hw.nonempty).length
      dsimp only at l1
      simp only [Node.parts, stmtParts, Option.toList_some, List.map_cons, List.map_nil, List.cons_append,
        List.nil_append, List.mem_cons, List.mem_map] at hc
      rcases hc with rfl | ⟨m, hm, rfl⟩
      · exact (i w1 x hx).mono (by omega)
      · have w2 := (resolved_steps he w1).wf
        have w3 := (enter_define_steps h' w2 hl).wf
        refine (i' (enter_define_steps h'' w3 hl').wf x ⟨m, hm, hx⟩).mono ?_
        have l2 := (resolved_shape he w1.nonempty).length
        have l3 := (define_shape h' (enter_nonempty _)).length
        have l4 := (define_shape h'' (enter_nonempty _)).length
        simp only [Resolver.enter, List.length_cons] at l3 l4
        omega
  | fn hl h hb i =>
    intro hw x hx
    rcases within_inv hx with rfl | ⟨c, hc, hx⟩
    · exact ⟨_, _, _, _, .fn hl h hb, hw, rfl, Nat.le_refl _⟩
    · have w1 := (enter_steps hw hl).wf
      have l1 : (_ : Nat) = _ := (params_shape h (by simp [Resolver.enter])).length
      simp only [Resolver.enter, List.length_cons] at l1
      exact (i (params_steps h (wf_types w1 ..)).wf x ⟨c, hc, hx⟩).mono (by omega)

/-! ### Functions -/

/-- `x` is in an item, but not in a function in it. -/
def DirectItem (x : Node) : Item → Prop
  | .nodes ns => ∃ n ∈ ns, n.isFn = false ∧ Direct x n
  | .node n => Direct x n
  | .fn _ d => ∃ n ∈ d.body.map Node.stmt, Direct x n
  | .methods _ => False

/-- The function type inside an item. -/
def innerType (ft : FnType) : Item → FnType
  | .fn ft' _ => ft'
  | _ => ft

/-- `x` was resolved inside a function of type `ft`. -/
def ResolvedIn (x : Node) (ft : FnType) : Prop :=
  ∃ a rs rs', Resolved a (.node x) rs rs' ∧ Wf rs ∧ rs.functionType = ft

theorem direct_inv {x n : Node} (h : Direct x n) : x = n ∨ ∃ c ∈ n.parts, c.isFn = false ∧ Direct x c := by
  cases h with
  | refl => exact .inl rfl
  | step hc hf h => exact .inr ⟨_, hc, hf, h⟩

theorem stmt_not_fn {b : List Stmt} {c : Node} (h : c ∈ b.map Node.stmt) : c.isFn = false := by
  obtain ⟨s, _, rfl⟩ := List.mem_map.mp h
  rfl

theorem resolved_direct {a b rs rs'} (h : Resolved a b rs rs') :
    Wf rs → ∀ x, DirectItem x b → ResolvedIn x (innerType rs.functionType b) := by
  induction h with
  | nil => rintro _ x ⟨n, hn, _⟩; simp at hn
  | methods_nil => exact fun _ x h => h.elim
  | methods_cons => exact fun _ x h => h.elim
  | cons h h' i i' =>
    rintro hw x ⟨n, hn, hf, hx⟩
    rcases List.mem_cons.mp hn with rfl | hn
    · exact i hw x hx
    · have := i' (resolved_steps h hw).wf x ⟨n, hn, hf, hx⟩
      rw [(resolved_shape h hw.nonempty).functionType] at this
      exact this
  | plain ha h i =>
    intro hw x hx
    rcases direct_inv hx with rfl | ⟨c, hc, hf, hx⟩
    · exact ⟨_, _, _, .plain ha h, hw, rfl⟩
    · exact i hw x ⟨c, hc, hf, hx⟩
  | function h i =>
    intro hw x hx
    rcases direct_inv hx with rfl | ⟨c, hc, hf, hx⟩
    · exact ⟨_, _, _, .function h, hw, rfl⟩
    · simp only [Node.parts, exprParts, List.mem_singleton] at hc
      subst hc
      simp [Node.isFn] at hf
  | assign h h' i =>
    intro hw x hx
    rcases direct_inv hx with rfl | ⟨c, hc, hf, hx⟩
    · exact ⟨_, _, _, .assign (c := .placeholder) h h', hw, rfl⟩
    · simp only [Node.parts, exprParts, List.mem_singleton] at hc
      subst hc
      exact i hw x hx
  | «variable» h =>
    intro hw x hx
    rcases direct_inv hx with rfl | ⟨c, hc, hf, hx⟩
    · exact ⟨_, _, _, .variable (c := .placeholder) h, hw, rfl⟩
    · simp [Node.parts, exprParts] at hc
  | super h =>
    intro hw x hx
    rcases direct_inv hx with rfl | ⟨c, hc, hf, hx⟩
    · exact ⟨_, _, _, .super (c := .placeholder) h, hw, rfl⟩
    · simp [Node.parts, exprParts] at hc
  | block hl h i =>
    intro hw x hx
    rcases direct_inv hx with rfl | ⟨c, hc, hf, hx⟩
    · exact ⟨_, _, _, .block hl h, hw, rfl⟩
    · exact i (enter_steps hw hl).wf x ⟨c, hc, hf, hx⟩
  | «return» h h' i =>
    intro hw x hx
    rcases direct_inv hx with rfl | ⟨c, hc, hf, hx⟩
    · exact ⟨_, _, _, .return h h', hw, rfl⟩
    · simp only [Node.parts, stmtParts, List.mem_singleton] at hc
      subst hc
      cases (return_ok h).1
      exact i hw x hx
  | var h h' h'' i =>
    intro hw x hx
    rcases direct_inv hx with rfl | ⟨c, hc, hf, hx⟩
    · exact ⟨_, _, _, .var (c := .placeholder) h h' h'', hw, rfl⟩
    · simp only [Node.parts, stmtParts, List.mem_singleton] at hc
      subst hc
      have := i (declare_steps h hw).wf x hx
      rw [(declare_shape h hw.nonempty).functionType] at this
      exact this
  | «fun» h h' i =>
    intro hw x hx
    rcases direct_inv hx with rfl | ⟨c, hc, hf, hx⟩
    · exact ⟨_, _, _, .fun h h', hw, rfl⟩
    · simp only [Node.parts, stmtParts, List.mem_singleton] at hc
      subst hc
      simp [Node.isFn] at hf
  | «class» h hl h' hm i =>
    intro hw x hx
    rcases direct_inv hx with rfl | ⟨c, hc, hf, hx⟩
    · exact ⟨_, _, _, .class h hl h' hm, hw, rfl⟩
    · simp only [Node.parts, stmtParts, Option.toList_none, List.map_nil, List.nil_append, List.mem_map] at hc
      obtain ⟨m, hm, rfl⟩ := hc
      simp [Node.isFn] at hf
  | subclass h hs he hl h' hl' h'' hm i i' =>
    intro hw x hx
    rcases direct_inv hx with rfl | ⟨c, hc, hf, hx⟩
    · exact ⟨_, _, _, .subclass h hs he hl h' hl' h'' hm, hw, rfl⟩
    · have w1 := (define_steps h (wf_types hw ..)).wf
      simp only [Node.parts, stmtParts, Option.toList_some, List.map_cons, List.map_nil, List.cons_append,
        List.nil_append, List.mem_cons, List.mem_map] at hc
      rcases hc with rfl | ⟨m, hm, rfl⟩
      · have := i w1 x hx
        rw [(define_shape h hw.nonempty).functionType] at this
        exact this
      · simp [Node.isFn] at hf
  | fn hl h hb i =>
    rintro hw x ⟨n, hn, hx⟩
    have w1 := (enter_steps hw hl).wf
    have := i (params_steps h (wf_types w1 ..)).wf x ⟨n, hn, stmt_not_fn hn, hx⟩
    rw [(params_shape h (by simp [Resolver.enter])).functionType] at this
    exact this

end Ws
