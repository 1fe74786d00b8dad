import Verif.Proofs.Resolve.Trace
import Verif.Spec.Slots
/-! Slots of different names, and of the same name. -/
namespace Ws
open Ws.Spec

/-! ### Scopes begin without duplicates -/

/-- If the event begins a scope, the names in it are different. -/
def FreshIds : Event → Prop
  | .enter ns => ns.Nodup
  | _ => True

def AllFresh (es : List Event) : Prop := ∀ e ∈ es, FreshIds e

theorem allFresh_append {a b} : AllFresh (a ++ b) ↔ AllFresh a ∧ AllFresh b := by
  unfold AllFresh
  simp only [List.mem_append]
  exact ⟨fun h => ⟨fun e he => h e (.inl he), fun e he => h e (.inr he)⟩, fun h e he => he.elim (h.1 e) (h.2 e)⟩

theorem allFresh_cons {e es} : AllFresh (e :: es) ↔ FreshIds e ∧ AllFresh es := by
  unfold AllFresh
  simp

theorem allFresh_nil : AllFresh [] := by
  intro e he
  simp at he

theorem allFresh_params (ps : List Parameter) : AllFresh (ps.map fun p => .declare p.name none) := by
  intro e he
  obtain ⟨p, _, rfl⟩ := List.mem_map.mp he
  trivial

mutual
theorem fresh_stmt : ∀ s, AllFresh (stmtEvents s)
  | .block b => by simp [stmtEvents, allFresh_append, allFresh_cons, allFresh_nil, FreshIds, fresh_stmts b]
  | .break loc => by simp [stmtEvents, allFresh_nil]
  | .continue loc => by simp [stmtEvents, allFresh_nil]
  | .class x none ms loc => by
    simp [stmtEvents, allFresh_append, allFresh_cons, allFresh_nil, FreshIds, fresh_methods ms]
  | .class x (some e) ms loc => by
    simp [stmtEvents, allFresh_append, allFresh_cons, allFresh_nil, FreshIds, fresh_methods ms, fresh_expr e]
  | .expression e => by simp [stmtEvents, fresh_expr e]
  | .print e => by simp [stmtEvents, fresh_expr e]
  | .fun (.mk x d) => by simp [stmtEvents, allFresh_cons, FreshIds, fresh_fn d]
  | .if c a none => by simp [stmtEvents, allFresh_append, fresh_expr c, fresh_stmt a]
  | .if c a (some b) => by simp [stmtEvents, allFresh_append, fresh_expr c, fresh_stmt a, fresh_stmt b]
  | .return e loc => by simp [stmtEvents, fresh_expr e]
  | .var x c e loc => by simp [stmtEvents, allFresh_cons, FreshIds, fresh_expr e]
  | .while c b => by simp [stmtEvents, allFresh_append, fresh_expr c, fresh_stmt b]
  | .whileIncrement c b i => by simp [stmtEvents, allFresh_append, fresh_expr c, fresh_stmt b, fresh_expr i]

theorem fresh_stmts : ∀ ss, AllFresh (stmtsEvents ss)
  | [] => by simp [stmtsEvents, allFresh_nil]
  | s :: ss => by simp [stmtsEvents, allFresh_append, fresh_stmt s, fresh_stmts ss]

theorem fresh_expr : ∀ e, AllFresh (exprEvents e)
  | .assign x c r loc => by simp [exprEvents, allFresh_append, allFresh_cons, allFresh_nil, FreshIds, fresh_expr r]
  | .call f args loc => by simp [exprEvents, allFresh_append, fresh_expr f, fresh_exprs args]
  | .binary a op b loc => by simp [exprEvents, allFresh_append, fresh_expr a, fresh_expr b]
  | .function d => by simp [exprEvents, fresh_fn d]
  | .get o n loc => by simp [exprEvents, fresh_expr o]
  | .getIndex a i loc => by simp [exprEvents, allFresh_append, fresh_expr a, fresh_expr i]
  | .grouping e => by simp [exprEvents, fresh_expr e]
  | .literalArray es => by simp [exprEvents, fresh_exprs es]
  | .literalBool b => by simp [exprEvents, allFresh_nil]
  | .literalMap ms => by simp [exprEvents, fresh_entries ms]
  | .literalNil => by simp [exprEvents, allFresh_nil]
  | .literalNumber x => by simp [exprEvents, allFresh_nil]
  | .literalString x => by simp [exprEvents, allFresh_nil]
  | .logical a op b => by simp [exprEvents, allFresh_append, fresh_expr a, fresh_expr b]
  | .set o n b loc => by simp [exprEvents, allFresh_append, fresh_expr o, fresh_expr b]
  | .setIndex a b c loc => by simp [exprEvents, allFresh_append, fresh_expr a, fresh_expr b, fresh_expr c]
  | .super c n loc => by simp [exprEvents, allFresh_cons, allFresh_nil, FreshIds]
  | .unary op e loc => by simp [exprEvents, fresh_expr e]
  | .variable x c loc => by simp [exprEvents, allFresh_cons, allFresh_nil, FreshIds]

theorem fresh_exprs : ∀ es, AllFresh (exprsEvents es)
  | [] => by simp [exprsEvents, allFresh_nil]
  | e :: es => by simp [exprsEvents, allFresh_append, fresh_expr e, fresh_exprs es]

theorem fresh_entries : ∀ ms, AllFresh (entriesEvents ms)
  | [] => by simp [entriesEvents, allFresh_nil]
  | .mk k v :: ms => by simp [entriesEvents, allFresh_append, fresh_expr v, fresh_entries ms]

theorem fresh_methods : ∀ ms, AllFresh (methodsEvents ms)
  | [] => by simp [methodsEvents, allFresh_nil]
  | .mk k d :: ms => by simp [methodsEvents, allFresh_append, fresh_fn d, fresh_methods ms]

theorem fresh_fn : ∀ d, AllFresh (funEvents d)
  | .mk ps b k loc => by
    simp [funEvents, allFresh_append, allFresh_cons, allFresh_nil, FreshIds, fresh_stmts b, allFresh_params]
end

/-! ### Scopes end as they begin -/

/-- Every scope that begins ends. -/
def Balanced (es : List Event) : Prop := ∀ next ids, ∃ next', openAfter next ids es = (next', ids)

theorem openAfter_append : ∀ (a b : List Event) (next : Nat) (ids : List Nat),
    openAfter next ids (a ++ b) = openAfter (openAfter next ids a).1 (openAfter next ids a).2 b
  | [], b, next, ids => rfl
  | .enter _ :: a, b, next, ids => by simp only [List.cons_append, openAfter, openAfter_append a b]
  | .leave :: a, b, next, ids => by simp only [List.cons_append, openAfter, openAfter_append a b]
  | .declare _ _ :: a, b, next, ids => by simp only [List.cons_append, openAfter, openAfter_append a b]
  | .use _ _ :: a, b, next, ids => by simp only [List.cons_append, openAfter, openAfter_append a b]

theorem balanced_nil : Balanced [] := fun next _ => ⟨next, rfl⟩

theorem balanced_append {a b} (h : Balanced a) (h' : Balanced b) : Balanced (a ++ b) := by
  intro next ids
  rw [openAfter_append]
  obtain ⟨n, e⟩ := h next ids
  rw [e]
  exact h' n ids

theorem balanced_scope {ns a} (h : Balanced a) : Balanced (.enter ns :: (a ++ [.leave])) := by
  intro next ids
  simp only [openAfter]
  rw [openAfter_append]
  obtain ⟨n, e⟩ := h (next + 1) (next :: ids)
  rw [e]
  exact ⟨n, rfl⟩

theorem balanced_declare {x c a} (h : Balanced a) : Balanced (.declare x c :: a) := fun next ids => h next ids

theorem balanced_use {x c} : Balanced [.use x c] := fun next _ => ⟨next, rfl⟩

theorem balanced_params : ∀ (ps : List Parameter), Balanced (ps.map fun p => .declare p.name none)
  | [] => balanced_nil
  | _ :: ps => balanced_declare (balanced_params ps)

mutual
theorem balanced_stmt : ∀ s, Balanced (stmtEvents s)
  | .block b => by simp only [stmtEvents]; exact balanced_scope (balanced_stmts b)
  | .break loc => by simp only [stmtEvents]; exact balanced_nil
  | .continue loc => by simp only [stmtEvents]; exact balanced_nil
  | .class x none ms loc => by
    simp only [stmtEvents]
    exact balanced_declare (balanced_scope (balanced_methods ms))
  | .class x (some e) ms loc => by
    simp only [stmtEvents]
    refine balanced_declare (balanced_append (balanced_expr e) ?_)
    have := balanced_scope (ns := [c!"super"]) (balanced_scope (ns := [c!"this"]) (balanced_methods ms))
    simpa using this
  | .expression e => by simp only [stmtEvents]; exact balanced_expr e
  | .print e => by simp only [stmtEvents]; exact balanced_expr e
  | .fun (.mk x d) => by simp only [stmtEvents]; exact balanced_declare (balanced_fn d)
  | .if c a none => by simp only [stmtEvents]; exact balanced_append (balanced_expr c) (balanced_stmt a)
  | .if c a (some b) => by
    simp only [stmtEvents]
    exact balanced_append (balanced_append (balanced_expr c) (balanced_stmt a)) (balanced_stmt b)
  | .return e loc => by simp only [stmtEvents]; exact balanced_expr e
  | .var x c e loc => by simp only [stmtEvents]; exact balanced_declare (balanced_expr e)
  | .while c b => by simp only [stmtEvents]; exact balanced_append (balanced_expr c) (balanced_stmt b)
  | .whileIncrement c b i => by
    simp only [stmtEvents]
    exact balanced_append (balanced_append (balanced_expr c) (balanced_stmt b)) (balanced_expr i)

theorem balanced_stmts : ∀ ss, Balanced (stmtsEvents ss)
  | [] => by simp only [stmtsEvents]; exact balanced_nil
  | s :: ss => by simp only [stmtsEvents]; exact balanced_append (balanced_stmt s) (balanced_stmts ss)

theorem balanced_expr : ∀ e, Balanced (exprEvents e)
  | .assign x c r loc => by simp only [exprEvents]; exact balanced_append (balanced_expr r) balanced_use
  | .call f args loc => by simp only [exprEvents]; exact balanced_append (balanced_expr f) (balanced_exprs args)
  | .binary a op b loc => by simp only [exprEvents]; exact balanced_append (balanced_expr a) (balanced_expr b)
  | .function d => by simp only [exprEvents]; exact balanced_fn d
  | .get o n loc => by simp only [exprEvents]; exact balanced_expr o
  | .getIndex a i loc => by simp only [exprEvents]; exact balanced_append (balanced_expr a) (balanced_expr i)
  | .grouping e => by simp only [exprEvents]; exact balanced_expr e
  | .literalArray es => by simp only [exprEvents]; exact balanced_exprs es
  | .literalBool b => by simp only [exprEvents]; exact balanced_nil
  | .literalMap ms => by simp only [exprEvents]; exact balanced_entries ms
  | .literalNil => by simp only [exprEvents]; exact balanced_nil
  | .literalNumber x => by simp only [exprEvents]; exact balanced_nil
  | .literalString x => by simp only [exprEvents]; exact balanced_nil
  | .logical a op b => by simp only [exprEvents]; exact balanced_append (balanced_expr a) (balanced_expr b)
  | .set o n b loc => by simp only [exprEvents]; exact balanced_append (balanced_expr o) (balanced_expr b)
  | .setIndex a b c loc => by
    simp only [exprEvents]
    exact balanced_append (balanced_append (balanced_expr a) (balanced_expr b)) (balanced_expr c)
  | .super c n loc => by simp only [exprEvents]; exact balanced_use
  | .unary op e loc => by simp only [exprEvents]; exact balanced_expr e
  | .variable x c loc => by simp only [exprEvents]; exact balanced_use

theorem balanced_exprs : ∀ es, Balanced (exprsEvents es)
  | [] => by simp only [exprsEvents]; exact balanced_nil
  | e :: es => by simp only [exprsEvents]; exact balanced_append (balanced_expr e) (balanced_exprs es)

theorem balanced_entries : ∀ ms, Balanced (entriesEvents ms)
  | [] => by simp only [entriesEvents]; exact balanced_nil
  | .mk k v :: ms => by simp only [entriesEvents]; exact balanced_append (balanced_expr v) (balanced_entries ms)

theorem balanced_methods : ∀ ms, Balanced (methodsEvents ms)
  | [] => by simp only [methodsEvents]; exact balanced_nil
  | .mk k d :: ms => by simp only [methodsEvents]; exact balanced_append (balanced_fn d) (balanced_methods ms)

theorem balanced_fn : ∀ d, Balanced (funEvents d)
  | .mk ps b k loc => by
    simp only [funEvents]
    exact balanced_scope (balanced_append (balanced_params ps) (balanced_stmts b))
end

/-- Scopes that are open at the end are open now or begin later. -/
theorem openAfter_mem : ∀ (es : List Event) (next : Nat) (ids : List Nat) (i : Nat), i ∈ (openAfter next ids es).2 →
    i ∈ ids ∨ next ≤ i
  | [], _, _, _, h => .inl h
  | .enter _ :: es, next, ids, i, h => by
    rcases openAfter_mem es (next + 1) (next :: ids) i h with h | h
    · rcases List.mem_cons.mp h with rfl | h
      · exact .inr (Nat.le_refl _)
      · exact .inl h
    · exact .inr (by omega)
  | .leave :: es, next, ids, i, h => (openAfter_mem es next ids.tail i h).imp_left List.mem_of_mem_tail
  | .declare _ _ :: es, next, ids, i, h => openAfter_mem es next ids i h
  | .use _ _ :: es, next, ids, i, h => openAfter_mem es next ids i h

/-! ### The names of every scope at its end -/

theorem addName_prefix (x : Str) (s : List Str) : s <+: addName x s := by
  unfold addName
  split
  · exact List.prefix_rfl
  · exact List.prefix_append _ _

theorem addName_nodup {x : Str} {s : List Str} (h : s.Nodup) : (addName x s).Nodup := by
  unfold addName
  split
  · exact h
  · rename_i hx
    rw [List.nodup_append]
    refine ⟨h, by simp, ?_⟩
    intro a ha b hb e
    simp only [List.mem_singleton] at hb
    subst hb
    subst e
    exact hx ha

/-- Scopes grow, one by one. -/
structure NamesGrow (Γ Γ' : Names) : Prop where
  length : Γ'.length = Γ.length
  pre : ∀ (d : Nat) s s', Γ[d]? = some s → Γ'[d]? = some s' → s <+: s'
  nodup : (∀ s ∈ Γ, s.Nodup) → ∀ s ∈ Γ', s.Nodup

theorem NamesGrow.refl {Γ} : NamesGrow Γ Γ :=
  ⟨rfl, fun d s s' h h' => by rw [h] at h'; cases h'; exact List.prefix_rfl, id⟩

theorem addGlobal_grow (x : Str) : ∀ Γ, NamesGrow Γ (addGlobal x Γ)
  | [] => .refl
  | [g] => by
    refine ⟨rfl, ?_, ?_⟩
    · intro d s s' h h'
      cases d with
      | zero =>
        simp only [addGlobal, List.getElem?_cons_zero, Option.some.injEq] at h h'
        subst h; subst h'
        exact addName_prefix ..
      | succ d => simp at h
    · intro h s hs
      simp only [addGlobal, List.mem_singleton] at hs
      subst hs
      exact addName_nodup (h g (by simp))
  | s0 :: s1 :: ss => by
    have ih := addGlobal_grow x (s1 :: ss)
    have e : addGlobal x (s0 :: s1 :: ss) = s0 :: addGlobal x (s1 :: ss) := by rw [addGlobal]; simp
    rw [e]
    refine ⟨by simp [ih.length], ?_, ?_⟩
    · intro d s s' h h'
      cases d with
      | zero =>
        simp only [List.getElem?_cons_zero, Option.some.injEq] at h h'
        subst h; subst h'
        exact List.prefix_rfl
      | succ d => exact ih.pre d s s' h h'
    · intro h s hs
      rcases List.mem_cons.mp hs with rfl | hs
      · exact h _ (by simp)
      · exact ih.nodup (fun t ht => h t (by simp only [List.mem_cons] at ht ⊢; exact .inr ht)) s hs

theorem declare_grow (x : Str) (c : Option SlotIndex) (Γ : Names) : NamesGrow Γ (Event.after Γ (.declare x c)) := by
  cases Γ with
  | nil => exact .refl
  | cons s0 ss =>
    refine ⟨rfl, ?_, ?_⟩
    · intro d s s' h h'
      cases d with
      | zero =>
        simp only [Event.after, List.getElem?_cons_zero, Option.some.injEq] at h h'
        subst h; subst h'
        exact addName_prefix ..
      | succ d =>
        simp only [Event.after, List.getElem?_cons_succ] at h h'
        rw [h] at h'
        cases h'
        exact List.prefix_rfl
    · intro h s hs
      simp only [Event.after] at hs
      rcases List.mem_cons.mp hs with rfl | hs
      · exact addName_nodup (h _ (by simp))
      · exact h s (by simp [hs])

theorem use_grow (x : Str) (c : VarLoc) (Γ : Names) : NamesGrow Γ (Event.after Γ (.use x c)) := by
  rw [Event.after]
  split
  · exact .refl
  · exact addGlobal_grow x Γ

theorem atEach_cons {P Γ e es} (h : AtEach P Γ (e :: es)) : P Γ e ∧ AtEach P (Event.after Γ e) es :=
  ⟨h [] e es rfl, fun b e' a he => h (e :: b) e' a (by rw [he]; rfl)⟩

theorem smallScopes_cons {Γ e es} (h : SmallScopes Γ (e :: es)) :
    (∀ s ∈ Γ, s.length ≤ 256) ∧ SmallScopes (Event.after Γ e) es :=
  ⟨h [] (e :: es) rfl, fun b a he => h (e :: b) a (by rw [he]; rfl)⟩

/-- References are to scopes that are open now or begin later. -/
theorem refs_scope : ∀ (es : List Event) (next : Nat) (ids : List Nat) (r : Ref) (i : Nat), r ∈ refs next ids es →
    r.scope = some i → i ∈ ids ∨ next ≤ i
  | [], _, _, _, _, h, _ => by simp [refs] at h
  | .enter _ :: es, next, ids, r, i, h, hi => by
    simp only [refs] at h
    rcases refs_scope es _ _ r i h hi with h | h
    · rcases List.mem_cons.mp h with rfl | h
      · exact .inr (Nat.le_refl _)
      · exact .inl h
    · exact .inr (by omega)
  | .leave :: es, next, ids, r, i, h, hi => by
    simp only [refs] at h
    exact (refs_scope es _ _ r i h hi).imp_left List.mem_of_mem_tail
  | .declare _ none :: es, next, ids, r, i, h, hi => by
    simp only [refs] at h
    exact refs_scope es _ _ r i h hi
  | .declare x (some c) :: es, next, ids, r, i, h, hi => by
    simp only [refs] at h
    rcases List.mem_cons.mp h with rfl | h
    · exact .inl (List.mem_of_getElem? hi)
    · exact refs_scope es _ _ r i h hi
  | .use x c :: es, next, ids, r, i, h, hi => by
    simp only [refs] at h
    rcases List.mem_cons.mp h with rfl | h
    · exact .inl (List.mem_of_getElem? hi)
    · exact refs_scope es _ _ r i h hi

/-- What the names of every scope are at its end, and that references are positions in them. -/
structure Final (next : Nat) (ids : List Nat) (Γ : Names) (es : List Event) (final : Nat → List Str) : Prop where
  pre : ∀ (d : Nat) s i, Γ[d]? = some s → ids[d]? = some i → s <+: final i
  nodup : ∀ i, (final i).Nodup
  ref : ∀ r ∈ refs next ids es, ∃ i, r.scope = some i ∧ ∃ k : Nat, (final i)[k]? = some r.name ∧ r.slot = k % 256
  small : SmallScopes Γ es → ∀ i, (final i).length ≤ 256
  last : ∀ (d : Nat) s i, (namesAfter Γ es)[d]? = some s → (openAfter next ids es).2[d]? = some i → s = final i

theorem prefix_get {a b : List Str} (h : a <+: b) {k : Nat} {x : Str} (hk : a[k]? = some x) : b[k]? = some x := by
  obtain ⟨t, rfl⟩ := h
  rw [List.getElem?_append_left (List.getElem?_eq_some_iff.mp hk).1]
  exact hk

theorem addGlobal_last {x : Str} : ∀ {Γ : Names} {g}, Γ.getLast? = some g → x ∉ g →
    (addGlobal x Γ)[Γ.length - 1]? = some (g ++ [x])
  | [], g, h, _ => by simp at h
  | [g'], g, h, hx => by
    simp only [List.getLast?_singleton, Option.some.injEq] at h
    subst h
    simp [addGlobal, addName, hx]
  | s0 :: s1 :: ss, g, h, hx => by
    have e : addGlobal x (s0 :: s1 :: ss) = s0 :: addGlobal x (s1 :: ss) := by rw [addGlobal]; simp
    rw [e]
    have := addGlobal_last (Γ := s1 :: ss) (g := g) h hx
    simpa using this

theorem exists_id {ids : List Nat} {Γ : Names} {d : Nat} {s} (hl : ids.length = Γ.length) (h : Γ[d]? = some s) :
    ∃ i, ids[d]? = some i := by
  have : d < ids.length := by
    rw [hl]
    exact (List.getElem?_eq_some_iff.mp h).1
  exact ⟨ids[d], List.getElem?_eq_getElem this⟩

theorem final_grow {next ids Γ Γ' es final} (hf : Final next ids Γ' es final) (hg : NamesGrow Γ Γ')
    {d : Nat} {s i} (hs : Γ[d]? = some s) (hi : ids[d]? = some i) : s <+: final i := by
  have : d < Γ'.length := by
    rw [hg.length]
    exact (List.getElem?_eq_some_iff.mp hs).1
  have e := List.getElem?_eq_getElem this
  exact (hg.pre d s _ hs e).trans (hf.pre d _ i e hi)

theorem exists_final : ∀ (es : List Event) (next : Nat) (ids : List Nat) (Γ : Names), ids.length = Γ.length →
    ids.Nodup → (∀ i ∈ ids, i < next) → (∀ s ∈ Γ, s.Nodup) → AllFresh es → AtEach EventOk Γ es →
    ∃ final, Final next ids Γ es final
  | [], next, ids, Γ, hl, hn, hi, hΓ, _, _ => by
    refine ⟨fun i => (Γ[ids.idxOf i]?).getD [], ?_, ?_, by simp [refs], ?_, ?_⟩
    · intro d s i hs hi
      have hd := (List.getElem?_eq_some_iff.mp hi)
      have : ids.idxOf i = d := by
        obtain ⟨h1, h2⟩ := hd
        subst h2
        exact List.Nodup.idxOf_getElem hn d h1
      simp only [this, hs, Option.getD_some]
      exact List.prefix_rfl
    · intro i
      cases h : Γ[ids.idxOf i]? with
      | none => simp
      | some s => exact hΓ s (List.mem_of_getElem? h)
    · intro hsm i
      have := hsm [] [] rfl
      cases h : Γ[ids.idxOf i]? with
      | none => simp
      | some s => exact this s (List.mem_of_getElem? h)
    · intro d s i hs hi
      have : ids.idxOf i = d := by
        obtain ⟨h1, h2⟩ := (List.getElem?_eq_some_iff.mp hi)
        subst h2
        exact List.Nodup.idxOf_getElem hn d h1
      rw [namesAfter_nil] at hs
      simp only [this, hs, Option.getD_some]
  | .enter ns :: es, next, ids, Γ, hl, hn, hi, hΓ, hf, ho => by
    obtain ⟨hf1, hf⟩ := allFresh_cons.mp hf
    obtain ⟨-, ho⟩ := atEach_cons ho
    obtain ⟨final, h⟩ := exists_final es (next + 1) (next :: ids) (ns :: Γ) (by simp [hl])
      (List.nodup_cons.mpr ⟨fun h => absurd (hi _ h) (by omega), hn⟩)
      (by
        intro i hm
        rcases List.mem_cons.mp hm with rfl | hm
        · omega
        · have := hi i hm; omega)
      (by
        intro s hs
        rcases List.mem_cons.mp hs with rfl | hs
        · exact hf1
        · exact hΓ s hs) hf ho
    refine ⟨final, fun d s i hs hd => h.pre (d + 1) s i hs hd, h.nodup, ?_, fun hs => h.small (smallScopes_cons hs).2, h.last⟩
    simp only [refs]
    exact h.ref
  | .leave :: es, next, ids, Γ, hl, hn, hi, hΓ, hf, ho => by
    obtain ⟨-, hf⟩ := allFresh_cons.mp hf
    obtain ⟨-, ho⟩ := atEach_cons ho
    obtain ⟨final, h⟩ := exists_final es next ids.tail Γ.tail (by simp [hl])
      (hn.sublist (List.tail_sublist _)) (fun i hm => hi i (List.mem_of_mem_tail hm))
      (fun s hs => hΓ s (List.mem_of_mem_tail hs)) hf ho
    cases ids with
    | nil =>
      refine ⟨final, by simp, h.nodup, ?_, fun hs => h.small (smallScopes_cons hs).2, h.last⟩
      simp only [refs]
      exact h.ref
    | cons i0 ids =>
      cases Γ with
      | nil => simp at hl
      | cons s0 Γ =>
        obtain ⟨hi0, hn⟩ := List.nodup_cons.mp hn
        refine ⟨fun i => if i = i0 then s0 else final i, ?_, ?_, ?_, ?_, ?_⟩
        · intro d s i hs hd
          cases d with
          | zero =>
            simp only [List.getElem?_cons_zero, Option.some.injEq] at hs hd
            subst hs; subst hd
            simp
          | succ d =>
            simp only [List.getElem?_cons_succ] at hs hd
            have : i ≠ i0 := by
              rintro rfl
              exact hi0 (List.mem_of_getElem? hd)
            simp only [if_neg this]
            exact h.pre d s i hs hd
        · intro i
          split
          · exact hΓ s0 (by simp)
          · exact h.nodup i
        · intro r hr
          simp only [refs, List.tail_cons] at hr
          obtain ⟨i, h1, h2⟩ := h.ref r hr
          refine ⟨i, h1, ?_⟩
          have : i ≠ i0 := by
            rintro rfl
            rcases refs_scope es _ _ r i hr h1 with h | h
            · exact hi0 h
            · have := hi i (by simp)
              omega
          simp only [if_neg this]
          exact h2
        · intro hs i
          obtain ⟨h1, h2⟩ := smallScopes_cons hs
          split
          · exact h1 s0 (by simp)
          · exact h.small h2 i
        · intro d s i hs hd
          have : i ≠ i0 := by
            rintro rfl
            rcases openAfter_mem es next ids i (List.mem_of_getElem? hd) with h | h
            · exact hi0 h
            · have := hi i (by simp)
              omega
          simp only [if_neg this]
          exact h.last d s i hs hd
  | .declare x none :: es, next, ids, Γ, hl, hn, hi, hΓ, hf, ho => by
    obtain ⟨-, hf⟩ := allFresh_cons.mp hf
    obtain ⟨-, ho⟩ := atEach_cons ho
    have g := declare_grow x none Γ
    obtain ⟨final, h⟩ := exists_final es next ids _ (by rw [g.length, hl]) hn hi (g.nodup hΓ) hf ho
    refine ⟨final, fun d s i hs hd => final_grow h g hs hd, h.nodup, ?_, fun hs => h.small (smallScopes_cons hs).2, h.last⟩
    simp only [refs]
    exact h.ref
  | .declare x (some c) :: es, next, ids, Γ, hl, hn, hi, hΓ, hf, ho => by
    obtain ⟨-, hf⟩ := allFresh_cons.mp hf
    obtain ⟨ho1, ho⟩ := atEach_cons ho
    have g := declare_grow x (some c) Γ
    obtain ⟨final, h⟩ := exists_final es next ids _ (by rw [g.length, hl]) hn hi (g.nodup hΓ) hf ho
    refine ⟨final, fun d s i hs hd => final_grow h g hs hd, h.nodup, ?_, fun hs => h.small (smallScopes_cons hs).2, h.last⟩
    intro r hr
    simp only [refs] at hr
    rcases List.mem_cons.mp hr with rfl | hr
    · obtain ⟨s, k, h1, h2, h3⟩ := ho1
      change (Event.after Γ (.declare x (some c))).head? = some s at h1
      rw [List.head?_eq_getElem?] at h1
      obtain ⟨i, hi⟩ := exists_id (ids := ids) (by rw [g.length, hl]) h1
      exact ⟨i, hi, k, prefix_get (h.pre 0 s i h1 hi) h2, h3⟩
    · exact h.ref r hr
  | .use x c :: es, next, ids, Γ, hl, hn, hi, hΓ, hf, ho => by
    obtain ⟨-, hf⟩ := allFresh_cons.mp hf
    obtain ⟨ho1, ho⟩ := atEach_cons ho
    have g := use_grow x c Γ
    obtain ⟨final, h⟩ := exists_final es next ids _ (by rw [g.length, hl]) hn hi (g.nodup hΓ) hf ho
    refine ⟨final, fun d s i hs hd => final_grow h g hs hd, h.nodup, ?_, fun hs => h.small (smallScopes_cons hs).2, h.last⟩
    intro r hr
    simp only [refs] at hr
    rcases List.mem_cons.mp hr with rfl | hr
    · rcases ho1 with ⟨k, ⟨⟨s, h1, h2⟩, _⟩, h3⟩ | ⟨hu, gl, h1, h2, h3⟩
      · obtain ⟨i, hi⟩ := exists_id hl h1
        exact ⟨i, hi, k, prefix_get (final_grow h g h1 hi) h2, h3⟩
      · have hx : x ∉ gl := hu gl (List.mem_of_getLast? h1)
        have e := addGlobal_last (x := x) h1 hx
        have hnu : ¬ ∃ s ∈ Γ, x ∈ s := fun ⟨s, hs, hx⟩ => hu s hs hx
        have ha : Event.after Γ (.use x c) = addGlobal x Γ := by rw [Event.after, if_neg hnu]
        rw [← ha] at e
        obtain ⟨i, hi⟩ := exists_id (ids := ids) (by rw [g.length, hl]) e
        refine ⟨i, by rw [h2]; exact hi, gl.length, prefix_get (h.pre _ _ i e hi) (by simp), h3⟩
    · exact h.ref r hr

/-- Two references to variables of the same scope. -/
theorem refs_slots {es next ids Γ} (hl : ids.length = Γ.length) (hn : ids.Nodup) (hi : ∀ i ∈ ids, i < next)
    (hΓ : ∀ s ∈ Γ, s.Nodup) (hf : AllFresh es) (ho : AtEach EventOk Γ es) {r r' : Ref} (h : r ∈ refs next ids es)
    (h' : r' ∈ refs next ids es) (hs : r.scope = r'.scope) :
    r.scope.isSome ∧ (r.name = r'.name → r.slot = r'.slot) ∧ (SmallScopes Γ es → r.slot = r'.slot → r.name = r'.name) := by
  obtain ⟨final, F⟩ := exists_final es next ids Γ hl hn hi hΓ hf ho
  obtain ⟨i, h1, k, h2, h3⟩ := F.ref r h
  obtain ⟨i', h1', k', h2', h3'⟩ := F.ref r' h'
  have : i' = i := by
    rw [h1, h1'] at hs
    cases hs; rfl
  subst this
  refine ⟨by rw [h1]; rfl, ?_, ?_⟩
  · intro e
    rw [e] at h2
    have a := (List.getElem?_eq_some_iff.mp h2).1
    have : k = k' := (List.getElem?_inj a (F.nodup i')).mp (h2.trans h2'.symm)
    rw [h3, h3', this]
  · intro hsm e
    have l := F.small hsm i'
    have a := (List.getElem?_eq_some_iff.mp h2).1
    have a' := (List.getElem?_eq_some_iff.mp h2').1
    rw [h3, h3', Nat.mod_eq_of_lt (by omega), Nat.mod_eq_of_lt (by omega)] at e
    subst e
    rw [h2] at h2'
    exact Option.some.inj h2'

/-- The references of a program to the variables of the global scope: their slots are positions in the
names at the end. -/
theorem refs_global {sts : List Stmt} {g g' : List Str} (hg : g.Nodup) (ho : AtEach EventOk [g] (stmtsEvents sts))
    (hend : namesAfter [g] (stmtsEvents sts) = [g']) {r : Ref} (h : r ∈ programRefs sts) (hs : r.scope = some 0) :
    ∃ k : Nat, g'[k]? = some r.name ∧ r.slot = k % 256 := by
  obtain ⟨final, F⟩ := exists_final (stmtsEvents sts) 1 [0] [g] rfl (by simp) (by simp) (by simpa using hg)
    (fresh_stmts sts) ho
  obtain ⟨i, h1, k, h2, h3⟩ := F.ref r h
  have : i = 0 := by rw [h1] at hs; cases hs; rfl
  subst this
  obtain ⟨n, e⟩ := balanced_stmts sts 1 [0]
  have := F.last 0 g' 0 (by rw [hend]; rfl) (by rw [e]; rfl)
  rw [← this] at h2
  exact ⟨k, h2, h3⟩

end Ws
