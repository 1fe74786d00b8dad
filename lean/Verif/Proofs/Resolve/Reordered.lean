import Verif.Proofs.Resolve.Separate
import Verif.Spec.Reordered
/-! The order of methods, arguments, elements and entries does not matter. -/
namespace Ws
open Ws.Spec

/-- What is known of a global, but for whether it was only used. -/
def begun : Option DefinedState → Option DefinedState
  | some .undefinedVar => none
  | o => o

/-- The global scopes differ in the names that were only used. -/
def NearScope (g g' : Scope) : Prop := ∀ x, begun (g.stateOf x) = begun (g'.stateOf x)

/-- The scopes differ in the global scope only. -/
inductive NearScopes : List Scope → List Scope → Prop
  | nil : NearScopes [] []
  | one {g g'} : NearScope g g' → NearScopes [g] [g']
  | cons (s) {ss ss'} : NearScopes ss ss' → NearScopes (s :: ss) (s :: ss')

theorem NearScopes.length_eq {ss ss' : List Scope} (h : NearScopes ss ss') : ss.length = ss'.length := by
  induction h with
  | nil => rfl
  | one _ => rfl
  | cons _ _ ih => simp [ih]

theorem NearScopes.refl (ss : List Scope) : NearScopes ss ss := by
  induction ss with
  | nil => exact .nil
  | cons s ss ih => exact .cons s ih

theorem NearScopes.symm {ss ss' : List Scope} (h : NearScopes ss ss') : NearScopes ss' ss := by
  induction h with
  | nil => exact .nil
  | one h => exact .one fun x => (h x).symm
  | cons s _ ih => exact .cons s ih

theorem NearScopes.trans {ss ss' ss'' : List Scope} (h : NearScopes ss ss') (h' : NearScopes ss' ss'') : NearScopes ss ss'' := by
  induction h generalizing ss'' with
  | nil => exact h'
  | one h =>
    cases h' with
    | one h' => exact .one fun x => (h x).trans (h' x)
    | cons _ h' => cases h'; exact .one h
  | cons s h ih =>
    cases h' with
    | one h' => cases h; exact .one h'
    | cons _ h' => exact .cons s (ih h')

theorem NearScopes.tail {ss ss' : List Scope} (h : NearScopes ss ss') : NearScopes ss.tail ss'.tail := by
  cases h with
  | nil => exact .nil
  | one _ => exact .nil
  | cons _ h => exact h

/-- The resolvers differ in the globals that were only used. -/
structure Nearby (rs rs' : Resolver) : Prop where
  scopes : NearScopes rs.scopes rs'.scopes
  fn : rs.functionType = rs'.functionType
  cls : rs.classType = rs'.classType

theorem Nearby.refl (rs : Resolver) : Nearby rs rs := ⟨.refl _, rfl, rfl⟩
theorem Nearby.symm {rs rs' : Resolver} (h : Nearby rs rs') : Nearby rs' rs := ⟨h.scopes.symm, h.fn.symm, h.cls.symm⟩
theorem Nearby.trans {rs rs' rs'' : Resolver} (h : Nearby rs rs') (h' : Nearby rs' rs'') : Nearby rs rs'' :=
  ⟨h.scopes.trans h'.scopes, h.fn.trans h'.fn, h.cls.trans h'.cls⟩

/-- If the first run succeeds, so does the second, or there are too many names in a scope. -/
def Imp {α β : Type} (V : α → β → Prop) (x : R α) (x' : R β) : Prop :=
  ∀ rs rs', Nearby rs rs' → ∀ a t, x rs = .ok a t →
    (∃ a' t', x' rs' = .ok a' t' ∧ V a a' ∧ Nearby t t') ∨ ∃ e t', x' rs' = .err e t' ∧ isTooMany e

variable {α β γ δ : Type}

theorem imp_pure {V : α → β → Prop} {a : α} {b : β} (h : V a b) : Imp V (pure a) (pure b) := by
  intro rs rs' hp c t e
  obtain ⟨rfl, rfl⟩ := pure_ok.mp e
  exact .inl ⟨b, rs', rfl, h, hp⟩

theorem imp_bind {V : α → β → Prop} {W : γ → δ → Prop} {x : R α} {x' : R β} {k : α → R γ} {k' : β → R δ}
    (h : Imp V x x') (hk : ∀ a a', V a a' → Imp W (k a) (k' a')) : Imp W (x >>= k) (x' >>= k') := by
  intro rs rs' hp b t e
  obtain ⟨a, t1, e1, e2⟩ := bind_ok.mp e
  show (∃ b' t', M.bind x' k' rs' = .ok b' t' ∧ _) ∨ ∃ e t', M.bind x' k' rs' = .err e t' ∧ _
  unfold M.bind
  rcases h rs rs' hp a t1 e1 with ⟨a', t1', e1', hv, hp1⟩ | ⟨c, t1', e1', hc⟩
  · rw [e1']
    exact hk a a' hv t1 t1' hp1 b t e2
  · rw [e1']
    exact .inr ⟨c, t1', rfl, hc⟩

theorem imp_finally {V : α → β → Prop} {x : R α} {x' : R β} {f f' : Resolver → Resolver} {rs rs' s s' : Resolver}
    (hp : Nearby s s') (h : Imp V x x') (hs : rs = s) (hs' : rs' = s')
    (hf : ∀ t t', Nearby t t' → Nearby (f t) (f' t')) : ∀ a t, andFinally x f rs = .ok a t →
    (∃ a' t', andFinally x' f' rs' = .ok a' t' ∧ V a a' ∧ Nearby t t') ∨ ∃ e t', andFinally x' f' rs' = .err e t' ∧ isTooMany e := by
  subst hs hs'
  intro a t e
  obtain ⟨t1, e1, rfl⟩ := andFinally_ok.mp e
  unfold andFinally
  rcases h rs rs' hp a t1 e1 with ⟨a', t1', e1', hv, hp1⟩ | ⟨c, t1', e1', hc⟩
  · rw [e1']; exact .inl ⟨a', _, rfl, hv, hf _ _ hp1⟩
  · rw [e1']; exact .inr ⟨c, _, rfl, hc⟩

theorem imp_scope {V : α → β → Prop} {x : R α} {x' : R β} (h : Imp V x x') : Imp V (inNewScope x) (inNewScope x') := by
  refine imp_bind (V := fun _ _ => True) ?_ ?_
  · intro rs rs' hp a t e
    unfold beginScope at e ⊢
    rw [← hp.scopes.length_eq]
    split at e
    · cases e
    · cases e
      rename_i hl
      rw [if_neg hl]
      exact .inl ⟨(), _, rfl, trivial, .cons _ hp.scopes, hp.fn, hp.cls⟩
  · intro _ _ _ rs rs' hp
    exact imp_finally hp h rfl rfl fun t t' ht => ⟨ht.scopes.tail, ht.fn, ht.cls⟩

theorem imp_function {V : α → β → Prop} {x : R α} {x' : R β} (ft) (h : Imp V x x') :
    Imp V (withFunctionType ft x) (withFunctionType ft x') :=
  fun rs rs' hp => imp_finally (s := { rs with functionType := ft }) (s' := { rs' with functionType := ft })
    ⟨hp.scopes, rfl, hp.cls⟩ h rfl rfl fun _ _ ht => ⟨ht.scopes, hp.fn, ht.cls⟩

theorem imp_class {V : α → β → Prop} {x : R α} {x' : R β} (ct) (h : Imp V x x') :
    Imp V (withClassType ct x) (withClassType ct x') :=
  fun rs rs' hp => imp_finally (s := { rs with classType := ct }) (s' := { rs' with classType := ct })
    ⟨hp.scopes, hp.fn, rfl⟩ h rfl rfl fun _ _ ht => ⟨ht.scopes, ht.fn, hp.cls⟩

theorem NearScope.change {g g' h h' : Scope} {x : Str} {o o'} (hg : NearScope g g')
    (e : ∀ y, h.stateOf y = if y = x then o else g.stateOf y) (e' : ∀ y, h'.stateOf y = if y = x then o' else g'.stateOf y)
    (ho : begun o = begun o') : NearScope h h' := by
  intro y
  rw [e, e']
  split
  · exact ho
  · exact hg y

theorem define_global (x loc) (s : Scope) (ft ct) (hl : ¬ s.length > varLocMaxDistance) :
    ∃ t : Scope, (∀ y, t.stateOf y = if y = x then some .definedVar else s.stateOf y) ∧
      define x loc ⟨[s], ft, ct⟩ = .ok () ⟨[t], ft, ct⟩ := by
  rw [define_by, if_neg hl]
  cases hx : s.get x with
  | none => exact ⟨_, stateOf_insert hx, rfl⟩
  | some v =>
    dsimp only
    cases hd : v.definedState with
    | undefinedVar => exact ⟨_, stateOf_set hx, rfl⟩
    | declaredVar => exact ⟨_, stateOf_set hx, rfl⟩
    | definedVar => exact ⟨s, fun y => by have := stateOf_keep hx y; rw [hd] at this; exact this, rfl⟩

theorem define_over (x loc) (s : Scope) (ss ft ct) (hl : s.length > varLocMaxDistance) :
    ∃ e t, define x loc ⟨s :: ss, ft, ct⟩ = .err e t ∧ isTooMany e := by
  rw [define_by, if_pos hl]
  exact ⟨_, _, rfl, rfl⟩

theorem imp_define (x loc loc') : Imp (fun _ _ => True) (define x loc) (define x loc') := by
  rintro ⟨scopes, ft, ct⟩ ⟨scopes', ft', ct'⟩ ⟨h1, h2, h3⟩ a t e
  dsimp only at h1 h2 h3
  subst h2 h3
  cases h1 with
  | nil => cases e
  | @cons s ss ss' h =>
    rw [define_by] at e ⊢
    rw [← h.length_eq]
    split at e
    · cases e
    · rename_i hl
      rw [if_neg hl]
      cases hx : s.get x with
      | none => rw [hx] at e; cases e; exact .inl ⟨(), _, rfl, trivial, .cons _ h, rfl, rfl⟩
      | some v =>
        rw [hx] at e
        dsimp only at e ⊢
        cases hd : v.definedState with
        | undefinedVar => rw [hd] at e; cases e; exact .inl ⟨(), _, rfl, trivial, .cons _ h, rfl, rfl⟩
        | declaredVar => rw [hd] at e; cases e; exact .inl ⟨(), _, rfl, trivial, .cons _ h, rfl, rfl⟩
        | definedVar =>
          rw [hd] at e
          dsimp only at e ⊢
          split at e
          · rename_i hz
            cases e
            rw [if_pos hz]
            exact .inl ⟨(), _, rfl, trivial, .cons _ h, rfl, rfl⟩
          · cases e
  | @one g g' h =>
    by_cases l1 : g.length > varLocMaxDistance
    · obtain ⟨_, _, e', _⟩ := define_over x loc g [] ft ct l1
      rw [e] at e'; cases e'
    by_cases l2 : g'.length > varLocMaxDistance
    · exact .inr (define_over x loc' g' [] ft ct l2)
    obtain ⟨t1, k1, k2⟩ := define_global x loc g ft ct l1
    obtain ⟨t2, k1', k2'⟩ := define_global x loc' g' ft ct l2
    rw [e] at k2; cases k2
    exact .inl ⟨(), _, k2', trivial, .one (h.change k1 k1' rfl), rfl, rfl⟩

theorem declare_global (x loc) (s : Scope) (ft ct) (hl : ¬ s.length > varLocMaxDistance) :
    ∃ (t : Scope) (c : SlotIndex),
      (∀ y, t.stateOf y = if y = x then some (if begun (s.stateOf x) = some .definedVar then .definedVar else .declaredVar) else s.stateOf y) ∧
      declare x loc ⟨[s], ft, ct⟩ = .ok c ⟨[t], ft, ct⟩ := by
  rw [declare_by, if_neg hl]
  cases hx : s.get x with
  | none =>
    refine ⟨_, _, fun y => ?_, rfl⟩
    rw [stateOf_insert hx, show s.stateOf x = none by unfold Scope.stateOf; rw [hx]; rfl]
    rfl
  | some v =>
    have hs : s.stateOf x = some v.definedState := by unfold Scope.stateOf; rw [hx]; rfl
    dsimp only
    cases hd : v.definedState with
    | undefinedVar => refine ⟨_, _, fun y => ?_, rfl⟩; rw [stateOf_set hx, hs, hd]; rfl
    | declaredVar => refine ⟨s, _, fun y => ?_, rfl⟩; rw [hs, hd]; have := stateOf_keep hx y; rw [hd] at this; exact this
    | definedVar => refine ⟨s, _, fun y => ?_, rfl⟩; rw [hs, hd]; have := stateOf_keep hx y; rw [hd] at this; exact this

theorem declare_over (x loc) (s : Scope) (ss ft ct) (hl : s.length > varLocMaxDistance) :
    ∃ e t, declare x loc ⟨s :: ss, ft, ct⟩ = .err e t ∧ isTooMany e := by
  rw [declare_by, if_pos hl]
  exact ⟨_, _, rfl, rfl⟩

theorem imp_declare (x loc loc') : Imp (fun _ _ => True) (declare x loc) (declare x loc') := by
  rintro ⟨scopes, ft, ct⟩ ⟨scopes', ft', ct'⟩ ⟨h1, h2, h3⟩ a t e
  dsimp only at h1 h2 h3
  subst h2 h3
  cases h1 with
  | nil => cases e
  | @cons s ss ss' h =>
    rw [declare_by] at e ⊢
    rw [← h.length_eq]
    split at e
    · cases e
    · rename_i hl
      rw [if_neg hl]
      cases hx : s.get x with
      | none => rw [hx] at e; cases e; exact .inl ⟨_, _, rfl, trivial, .cons _ h, rfl, rfl⟩
      | some v =>
        rw [hx] at e
        dsimp only at e ⊢
        cases hd : v.definedState with
        | undefinedVar => rw [hd] at e; cases e; exact .inl ⟨_, _, rfl, trivial, .cons _ h, rfl, rfl⟩
        | declaredVar =>
          rw [hd] at e
          dsimp only at e ⊢
          split at e
          · rename_i hz
            cases e
            rw [if_pos hz]
            exact .inl ⟨_, _, rfl, trivial, .cons _ h, rfl, rfl⟩
          · cases e
        | definedVar =>
          rw [hd] at e
          dsimp only at e ⊢
          split at e
          · rename_i hz
            cases e
            rw [if_pos hz]
            exact .inl ⟨_, _, rfl, trivial, .cons _ h, rfl, rfl⟩
          · cases e
  | @one g g' h =>
    by_cases l1 : g.length > varLocMaxDistance
    · obtain ⟨_, _, e', _⟩ := declare_over x loc g [] ft ct l1
      rw [e] at e'; cases e'
    by_cases l2 : g'.length > varLocMaxDistance
    · exact .inr (declare_over x loc' g' [] ft ct l2)
    obtain ⟨t1, c1, k1, k2⟩ := declare_global x loc g ft ct l1
    obtain ⟨t2, c2, k1', k2'⟩ := declare_global x loc' g' ft ct l2
    rw [e] at k2; cases k2
    exact .inl ⟨_, _, k2', trivial, .one (h.change k1 k1' (by rw [h x])), rfl, rfl⟩

/-- Where a name is found: at the same distance, or in the global scope of only one. -/
theorem near_find (x : Str) {ss ss' : List Scope} (h : NearScopes ss ss') (d : Nat) :
    (findVar x ss d = none ∧ findVar x ss' d = none) ∨
      (∃ k v v', findVar x ss d = some (k, v) ∧ findVar x ss' d = some (k, v')) ∨
      (findVar x ss d = none ∧ ∃ k v', findVar x ss' d = some (k, v') ∧ k + 1 = d + ss'.length ∧
        ∃ g', ss'.getLast? = some g' ∧ g'.stateOf x = some .undefinedVar) ∨
      (findVar x ss' d = none ∧ ∃ k v, findVar x ss d = some (k, v) ∧ k + 1 = d + ss.length ∧
        ∃ g, ss.getLast? = some g ∧ g.stateOf x = some .undefinedVar) := by
  induction h generalizing d with
  | nil => exact .inl ⟨rfl, rfl⟩
  | @one g g' h =>
    simp only [findVar, List.length_cons, List.length_nil]
    have hx := h x
    unfold Scope.stateOf at hx
    cases h1 : g.get x <;> cases h2 : g'.get x <;> rw [h1, h2] at hx <;> simp only [Option.map] at hx
    · exact .inl ⟨rfl, rfl⟩
    · rename_i v
      refine .inr (.inr (.inl ⟨rfl, _, _, rfl, rfl, g', rfl, ?_⟩))
      unfold Scope.stateOf
      rw [h2]
      show some v.definedState = _
      cases hd : v.definedState <;> rw [hd] at hx <;> first | rfl | cases hx
    · rename_i v
      refine .inr (.inr (.inr ⟨rfl, _, _, rfl, rfl, g, rfl, ?_⟩))
      unfold Scope.stateOf
      rw [h1]
      show some v.definedState = _
      cases hd : v.definedState <;> rw [hd] at hx <;> first | rfl | cases hx
    · exact .inr (.inl ⟨_, _, _, rfl, rfl⟩)
  | @cons s ss ss' h ih =>
    simp only [findVar, List.length_cons]
    cases hs : s.get x with
    | some v => exact .inr (.inl ⟨_, _, _, rfl, rfl⟩)
    | none =>
      dsimp only
      rcases ih (d + 1) with a | a | ⟨a, k, v', b, c, g, e1, e2⟩ | ⟨a, k, v', b, c, g, e1, e2⟩
      · exact .inl a
      · exact .inr (.inl a)
      · exact .inr (.inr (.inl ⟨a, k, v', b, by omega, g, by simp [List.getLast?_cons, e1], e2⟩))
      · exact .inr (.inr (.inr ⟨a, k, v', b, by omega, g, by simp [List.getLast?_cons, e1], e2⟩))

theorem near_last {ss ss' : List Scope} (h : NearScopes ss ss') :
    (ss = [] ∧ ss' = []) ∨ ∃ g g', ss.getLast? = some g ∧ ss'.getLast? = some g' ∧ NearScope g g' ∧
      ∀ t t', NearScope t t' → NearScopes (setGlobal ss t) (setGlobal ss' t') := by
  induction h with
  | nil => exact .inl ⟨rfl, rfl⟩
  | one h => exact .inr ⟨_, _, rfl, rfl, h, fun _ _ h => .one h⟩
  | @cons s ss ss' h ih =>
    right
    rcases ih with ⟨rfl, rfl⟩ | ⟨g, g', e1, e2, hg, hs⟩
    · exact ⟨s, s, rfl, rfl, fun _ => rfl, fun _ _ h => .one h⟩
    · refine ⟨g, g', by simp [List.getLast?_cons, e1], by simp [List.getLast?_cons, e2], hg, fun t t' ht => ?_⟩
      have := hs t t' ht
      cases h with
      | nil => cases e1
      | one _ => exact .cons s this
      | cons _ _ => exact .cons s this

/-- Reserving a global changes nothing that matters. -/
theorem reserved_near {ss : List Scope} {g : Scope} {x : Str} {n : Nat} (h : ss.getLast? = some g) (hx : g.get x = none) :
    NearScopes ss (setGlobal ss (g.insertNew x ⟨n, .undefinedVar⟩)) := by
  rcases near_last (.refl ss) with ⟨rfl, _⟩ | ⟨a, b, e1, e2, hg, hs⟩
  · cases h
  · have := hs g (g.insertNew x ⟨n, .undefinedVar⟩) (fun y => by
      rw [stateOf_insert hx]
      split
      · rename_i e
        subst e
        unfold Scope.stateOf
        rw [hx]
        rfl
      · rfl)
    rw [setGlobal_last h] at this
    exact this

theorem local_none {x : Str} {loc} {rs rs' : Resolver} {c} (h : resolveLocalVariable x loc rs = .ok c rs') : rs.scopes ≠ [] := by
  intro hs
  have e1 : findVar x rs.scopes 0 = none := by rw [hs]; rfl
  unfold resolveLocalVariable at h
  simp only [bind, M.bind, M.get, e1] at h
  unfold forwardReserveGlobalVar at h
  simp only [bind, M.bind, M.get, hs, List.getLast?_nil] at h
  cases h

theorem local_near {x : Str} {loc} {rs rs' : Resolver} {c} (h : resolveLocalVariable x loc rs = .ok c rs') : Nearby rs rs' := by
  cases e : findVar x rs.scopes 0 with
  | some kv =>
    obtain ⟨k, v⟩ := kv
    rw [local_found e] at h
    cases h
    exact .refl _
  | none =>
    cases hl : rs.scopes.getLast? with
    | none => exact absurd (List.getLast?_eq_none_iff.mp hl) (local_none h)
    | some g =>
      rw [local_reserved e hl] at h
      split at h
      · cases h
      · cases h
        exact ⟨reserved_near hl (find_none e g (List.mem_of_getLast? hl)), rfl, rfl⟩

theorem imp_local (x loc loc') : Imp SameDistance (resolveLocalVariable x loc) (resolveLocalVariable x loc') := by
  intro rs rs' hp a t h
  have hn := local_none h
  have ht := local_near h
  have go : ∀ d, (∃ a' t', resolveLocalVariable x loc' rs' = .ok a' t' ∧ a'.distance = d) → a.distance = d →
      (∃ a' t', resolveLocalVariable x loc' rs' = .ok a' t' ∧ SameDistance a a' ∧ Nearby t t') ∨
        ∃ e t', resolveLocalVariable x loc' rs' = .err e t' ∧ isTooMany e := by
    rintro d ⟨a', t', h', e⟩ e'
    exact .inl ⟨a', t', h', e'.trans e.symm, ht.symm.trans (hp.trans (local_near h'))⟩
  rcases near_last hp.scopes with ⟨n1, _⟩ | ⟨g, g', g1, g2, hg, hs⟩
  · exact absurd n1 hn
  have res : findVar x rs'.scopes 0 = none → (∃ e t', resolveLocalVariable x loc' rs' = .err e t' ∧ isTooMany e) ∨
      ∃ a' t', resolveLocalVariable x loc' rs' = .ok a' t' ∧ a'.distance = (rs.scopes.length - 1) % 65536 := by
    intro e2
    rw [local_reserved e2 g2]
    split
    · exact .inl ⟨_, _, rfl, rfl⟩
    · refine .inr ⟨_, _, rfl, ?_⟩
      rw [hp.scopes.length_eq]
  have own : findVar x rs.scopes 0 = none → a.distance = (rs.scopes.length - 1) % 65536 := by
    intro e1
    rw [local_reserved e1 g1] at h
    split at h
    · cases h
    · cases h; rfl
  rcases near_find x hp.scopes 0 with ⟨e1, e2⟩ | ⟨k, v, v', e1, e2⟩ | ⟨e1, k, v', e2, hk, _⟩ | ⟨e2, k, v', e1, hk, _⟩
  · rcases res e2 with r | r
    · exact .inr r
    · exact go _ r (own e1)
  · refine go _ ⟨_, _, local_found e2, rfl⟩ ?_
    rw [local_found e1] at h
    cases h
    rfl
  · refine go _ ⟨_, _, local_found e2, rfl⟩ ?_
    rw [own e1, hp.scopes.length_eq]
    show _ = k % 65536
    congr 1
    omega
  · rcases res e2 with r | r
    · exact .inr r
    · refine go _ r ?_
      rw [local_found e1] at h
      cases h
      show k % 65536 = _
      congr 1
      omega

theorem imp_variable (x loc loc') : Imp SameDistance (resolveVariable x loc) (resolveVariable x loc') := by
  rintro ⟨scopes, ft, ct⟩ ⟨scopes', ft', ct'⟩ hp a t h
  obtain ⟨h1, h2, h3⟩ := id hp
  dsimp only at h1 h2 h3
  subst h2 h3
  unfold resolveVariable at h ⊢
  simp only [bind, M.bind, M.get] at h ⊢
  split at h
  · cases h
  · rename_i hc
    rw [if_neg hc]
    cases h1 with
    | nil => cases h
    | cons s h1 =>
      dsimp only at h ⊢
      split at h
      · cases h
      · rename_i hd
        rw [if_neg hd]
        exact imp_local x loc loc' _ _ hp a t h
    | @one g g' h1 =>
      dsimp only at h ⊢
      have hx := h1 x
      unfold Scope.stateOf at hx
      split at h
      · cases h
      · rename_i hd
        rw [if_neg]
        · exact imp_local x loc loc' _ _ hp a t h
        · intro e
          rw [e] at hx
          revert hx hd
          generalize Option.map _ _ = o
          intro hx hd
          cases o with
          | none => cases hx
          | some o => cases o <;> first | exact hd rfl | cases hx

theorem imp_super (loc loc') : Imp SameDistance (resolveSuper loc) (resolveSuper loc') := by
  intro rs rs' hp a t h
  unfold resolveSuper at h ⊢
  simp only [bind, M.bind, M.get] at h ⊢
  rw [← hp.cls]
  cases hc : rs.classType with
  | noClass => rw [hc] at h; cases h
  | plainClass => rw [hc] at h; cases h
  | subclass => rw [hc] at h; exact imp_local _ loc loc' rs rs' hp a t h

theorem imp_params {ps ps' : List Parameter} (h : ps.map Parameter.name = ps'.map Parameter.name) :
    Imp (fun _ _ => True) (defineParams ps) (defineParams ps') := by
  induction ps generalizing ps' with
  | nil =>
    cases ps' with
    | nil => exact imp_pure trivial
    | cons _ _ => cases h
  | cons p ps ih =>
    cases ps' with
    | nil => cases h
    | cons p' ps' =>
      simp only [List.map_cons, List.cons.injEq] at h
      unfold defineParams
      rw [h.1]
      exact imp_bind (imp_define _ _ _) fun _ _ _ => ih h.2

/-! ### What a run leaves as it was -/

/-- The resolvers differ in the innermost scope, and in the globals that were only used. -/
structure NearTail (rs rs' : Resolver) : Prop where
  scopes : NearScopes rs.scopes.tail rs'.scopes.tail
  fn : rs.functionType = rs'.functionType
  cls : rs.classType = rs'.classType

theorem Nearby.tail {rs rs' : Resolver} (h : Nearby rs rs') : NearTail rs rs' := ⟨h.scopes.tail, h.fn, h.cls⟩
theorem NearTail.trans {rs rs' rs'' : Resolver} (h : NearTail rs rs') (h' : NearTail rs' rs'') : NearTail rs rs'' :=
  ⟨h.scopes.trans h'.scopes, h.fn.trans h'.fn, h.cls.trans h'.cls⟩

theorem define_nonempty {x loc} {rs rs' : Resolver} (h : define x loc rs = .ok () rs') : rs.scopes ≠ [] := by
  obtain ⟨scopes, ft, ct⟩ := rs
  rintro (rfl : scopes = [])
  cases h

theorem declare_nonempty {x loc c} {rs rs' : Resolver} (h : declare x loc rs = .ok c rs') : rs.scopes ≠ [] := by
  obtain ⟨scopes, ft, ct⟩ := rs
  rintro (rfl : scopes = [])
  cases h

theorem define_tail {x loc} {rs rs' : Resolver} (h : define x loc rs = .ok () rs') : NearTail rs rs' := by
  obtain ⟨s, s', ss, e, rfl, _⟩ := define_ok h (define_nonempty h)
  exact ⟨by rw [e]; exact .refl _, rfl, rfl⟩

theorem declare_tail {x loc c} {rs rs' : Resolver} (h : declare x loc rs = .ok c rs') : NearTail rs rs' := by
  obtain ⟨s, s', ss, _, e, _, rfl, _⟩ := declare_ok h (declare_nonempty h)
  exact ⟨by rw [e]; exact .refl _, rfl, rfl⟩

theorem params_tail {ps} {rs rs' : Resolver} (h : defineParams ps rs = .ok () rs') : NearTail rs rs' := by
  induction ps generalizing rs with
  | nil =>
    cases (pure_ok.mp h).2
    exact (Nearby.refl _).tail
  | cons p ps ih =>
    obtain ⟨_, t, h1, h2⟩ := bind_ok.mp h
    exact (define_tail h1).trans (ih h2)

theorem variable_local {x : Str} {loc} {rs rs' : Resolver} {c} (h : resolveVariable x loc rs = .ok c rs') :
    resolveLocalVariable x loc rs = .ok c rs' := by
  refine (variable_ok h ?_).1
  obtain ⟨scopes, ft, ct⟩ := rs
  rintro (rfl : scopes = [])
  unfold resolveVariable at h
  simp only [bind, M.bind, M.get] at h
  split at h <;> cases h

/-- Items that declare nothing where they stand. -/
def Item.inner : Item → Prop
  | .nodes ns => ∀ n ∈ ns, ∃ e, n = .expr e
  | .node n => ∃ e, n = .expr e
  | .fn _ _ => True
  | .methods _ => True

theorem resolved_near {a b rs rs'} (h : Resolved a b rs rs') : NearTail rs rs' ∧ (a.inner → Nearby rs rs') := by
  have stmt : ∀ {n : Stmt} {rs rs' : Resolver}, NearTail rs rs' → NearTail rs rs' ∧ ((Item.node (.stmt n)).inner → Nearby rs rs') :=
    fun h => ⟨h, fun ⟨_, e⟩ => by cases e⟩
  have near : ∀ {P : Prop} {rs rs' : Resolver}, Nearby rs rs' → NearTail rs rs' ∧ (P → Nearby rs rs') :=
    fun h => ⟨h.tail, fun _ => h⟩
  induction h with
  | nil => exact near (.refl _)
  | methods_nil => exact near (.refl _)
  | cons _ _ i1 i2 =>
    exact ⟨i1.1.trans i2.1, fun h => (i1.2 (h _ (by simp))).trans (i2.2 fun n hn => h n (by simp [hn]))⟩
  | methods_cons _ _ i1 i2 => exact near ((i1.2 trivial).trans (i2.2 trivial))
  | plain ha _ i =>
    refine ⟨i.1, fun h => i.2 ?_⟩
    obtain ⟨e, rfl⟩ := h
    intro n hn
    cases ha <;> simp [Node.parts, exprParts] at hn
    case call =>
      rcases hn with rfl | ⟨e, _, rfl⟩
      · exact ⟨_, rfl⟩
      · exact ⟨_, rfl⟩
    case literalArray => obtain ⟨e, _, rfl⟩ := hn; exact ⟨_, rfl⟩
    case literalMap => obtain ⟨e, _, rfl⟩ := hn; exact ⟨_, rfl⟩
    all_goals first
      | exact ⟨_, hn⟩
      | (rcases hn with hn | hn <;> exact ⟨_, hn⟩)
      | (rcases hn with hn | hn | hn <;> exact ⟨_, hn⟩)
  | function _ i => exact near (i.2 trivial)
  | assign _ h i => exact near ((i.2 ⟨_, rfl⟩).trans (local_near h))
  | «variable» h => exact near (local_near (variable_local h))
  | super h => exact near (local_near (super_ok h).1)
  | block _ _ i => exact stmt (Nearby.tail ⟨i.1.scopes, i.1.fn, i.1.cls⟩)
  | «return» h _ i =>
    cases (return_ok h).1
    exact stmt i.1
  | var h _ h' i => exact stmt (((declare_tail h).trans i.1).trans (define_tail h'))
  | «fun» h _ i => exact stmt ((define_tail h).trans i.1)
  | «class» h _ h' _ i =>
    have a := define_tail h
    have b := (define_tail h').trans i.1
    exact stmt ⟨a.scopes.trans (NearScopes.tail b.scopes), a.fn.trans b.fn, rfl⟩
  | subclass h _ _ _ h' _ h'' _ i i' =>
    have a := (define_tail h).trans i.1
    have b := define_tail h'
    have c := (define_tail h'').trans i'.1
    exact stmt ⟨a.scopes.trans (NearScopes.tail (NearScopes.trans b.scopes (NearScopes.tail c.scopes))),
      a.fn.trans (b.fn.trans c.fn), rfl⟩
  | fn _ h _ i =>
    have a := (params_tail h).trans i.1
    exact near ⟨a.scopes, rfl, a.cls⟩

/-! ### Lists in any order -/

/-- The lists correspond, in any order. -/
inductive Shuffled {α β : Type} (V : α → β → Prop) : List α → List β → Prop
  | nil : Shuffled V [] []
  | ins {a b as bs as' bs'} : V a b → Shuffled V (as ++ bs) (as' ++ bs') → Shuffled V (as ++ a :: bs) (as' ++ b :: bs')

/-- Run on every element in turn. -/
def runAll (f : α → R β) : List α → R (List β)
  | [] => pure []
  | a :: as => do
    let b ← f a
    let bs ← runAll f as
    pure (b :: bs)

/-- The lists correspond in order. -/
inductive EachIn {α β : Type} (V : α → β → Prop) : List α → List β → Prop
  | nil : EachIn V [] []
  | cons {a b as bs} : V a b → EachIn V as bs → EachIn V (a :: as) (b :: bs)

theorem EachIn.append {V : α → β → Prop} {as : List α} {a : α} {bs : List α} {cs : List β} (h : EachIn V (as ++ a :: bs) cs) :
    ∃ xs x ys, cs = xs ++ x :: ys ∧ V a x ∧ EachIn V (as ++ bs) (xs ++ ys) ∧ xs.length = as.length := by
  induction as generalizing cs with
  | nil => cases h with | cons h1 h2 => exact ⟨[], _, _, rfl, h1, h2, rfl⟩
  | cons a' as ih =>
    cases h with
    | cons h1 h2 =>
      obtain ⟨xs, x, ys, rfl, hv, he, hl⟩ := ih h2
      exact ⟨_ :: xs, x, ys, rfl, hv, .cons h1 he, by simp [hl]⟩

theorem EachIn.insert {V : α → β → Prop} {as bs : List α} {xs : List β} (h : EachIn V (as ++ bs) xs) {a : α} {x : β} (hv : V a x) :
    EachIn V (as ++ a :: bs) (xs.take as.length ++ x :: xs.drop as.length) := by
  induction as generalizing xs with
  | nil => exact .cons hv h
  | cons a' as ih => cases h with | cons h1 h2 => exact .cons h1 (ih h2)

/-- The first run on an element succeeds somewhere near. -/
def RanOk (f : α → R α) (rs : Resolver) (a b : α) : Prop := ∃ s t, Nearby rs s ∧ f a s = .ok b t

/-- The second run on an element gives what corresponds, anywhere near. -/
def WillRun (V : α → α → Prop) (f : α → R α) (rs : Resolver) (a b : α) : Prop :=
  ∀ s, Nearby rs s → (∃ b' t, f a s = .ok b' t ∧ V b b' ∧ Nearby rs t) ∨ ∃ e t, f a s = .err e t ∧ isTooMany e

theorem ran_all {f : α → R α} (hf : ∀ a s b t, f a s = .ok b t → Nearby s t) {as bs : List α} {rs0 rs rs' : Resolver}
    (h0 : Nearby rs0 rs) (h : runAll f as rs = .ok bs rs') : EachIn (RanOk f rs0) as bs ∧ Nearby rs0 rs' := by
  induction as generalizing bs rs with
  | nil =>
    obtain ⟨rfl, rfl⟩ := pure_ok.mp h
    exact ⟨.nil, h0⟩
  | cons a as ih =>
    simp only [runAll, bind_ok, pure_ok] at h
    obtain ⟨b, t, h1, bs', t', h2, rfl, rfl⟩ := h
    obtain ⟨i1, i2⟩ := ih (h0.trans (hf _ _ _ _ h1)) h2
    exact ⟨.cons ⟨_, _, h0, h1⟩ i1, i2⟩

theorem shuffle_run {V : α → α → Prop} {f : α → R α} (hf : ∀ a s b t, f a s = .ok b t → Nearby s t) {rs : Resolver} {as as' bs : List α}
    (hs : Shuffled (fun a a' => Imp V (f a) (f a')) as as') (h : EachIn (RanOk f rs) as bs) :
    ∃ bs', EachIn (WillRun V f rs) as' bs' ∧ Shuffled Eq bs bs' := by
  induction hs generalizing bs with
  | nil => cases h; exact ⟨[], .nil, .nil⟩
  | @ins a a' xs ys xs' ys' hv _ ih =>
    obtain ⟨bs1, b, bs2, rfl, ⟨s, t, hn, hr⟩, he, _⟩ := h.append
    obtain ⟨cs, c1, c2⟩ := ih he
    refine ⟨_, c1.insert (x := b) ?_, ?_⟩
    · intro s' hs'
      have hp := hn.symm.trans hs'
      rcases hv s s' hp b t hr with ⟨b', t', e1, e2, _⟩ | e
      · exact .inl ⟨b', t', e1, e2, hs'.trans (hf _ _ _ _ e1)⟩
      · exact .inr e
    · rw [← List.take_append_drop xs'.length cs] at c2
      exact .ins rfl c2

theorem will_all {V : α → α → Prop} {f : α → R α} {rs rs' : Resolver} {as bs : List α} (h : EachIn (WillRun V f rs) as bs)
    (hn : Nearby rs rs') : (∃ bs' t, runAll f as rs' = .ok bs' t ∧ EachIn V bs bs' ∧ Nearby rs t) ∨
      ∃ e t, runAll f as rs' = .err e t ∧ isTooMany e := by
  induction h generalizing rs' with
  | nil => exact .inl ⟨[], rs', rfl, .nil, hn⟩
  | @cons a b as bs h1 h2 ih =>
    simp only [runAll, bind, M.bind]
    rcases h1 rs' hn with ⟨b', t, e1, e2, e3⟩ | ⟨e, t, e1, e2⟩
    · rw [e1]
      dsimp only
      rcases ih e3 with ⟨bs', t', i1, i2, i3⟩ | ⟨e, t', i1, i2⟩
      · rw [i1]
        exact .inl ⟨_, _, rfl, .cons e2 i2, i3⟩
      · rw [i1]
        exact .inr ⟨_, _, rfl, i2⟩
    · rw [e1]
      exact .inr ⟨_, _, rfl, e2⟩

theorem shuffled_each {V : α → β → Prop} {as as' : List α} {bs : List β} (h : Shuffled Eq as as') (he : EachIn V as' bs) : Shuffled V as bs := by
  induction h generalizing bs with
  | nil => cases he; exact .nil
  | ins e _ ih =>
    subst e
    obtain ⟨xs, x, ys, rfl, hv, h1, _⟩ := he.append
    exact .ins hv (ih h1)

/-- Elements are resolved in any order. -/
theorem imp_all {V : α → α → Prop} {f : α → R α} (hf : ∀ a s b t, f a s = .ok b t → Nearby s t) {as as' : List α}
    (hs : Shuffled (fun a a' => Imp V (f a) (f a')) as as') : Imp (Shuffled V) (runAll f as) (runAll f as') := by
  intro rs rs' hp bs t h
  obtain ⟨h1, h2⟩ := ran_all hf (.refl rs) h
  obtain ⟨cs, c1, c2⟩ := shuffle_run hf hs h1
  rcases will_all c1 hp with ⟨bs', t', e1, e2, e3⟩ | e
  · exact .inl ⟨bs', t', e1, shuffled_each c2 e2, h2.symm.trans e3⟩
  · exact .inr e

theorem exprs_all (es : List Expr) : resolveExprs es = runAll resolveExpr es := by
  induction es with
  | nil => rfl
  | cons e es ih => simp only [resolveExprs, runAll, ih]

/-- An entry of a map. -/
def resolveEntry : MapEntry → R MapEntry
  | .mk k e => do
    let e ← resolveExpr e
    pure (.mk k e)

/-- A method of a class. -/
def resolveMethod : NamedFun → R NamedFun
  | .mk x d => do
    let d ← resolveFunction (if x = c!"init" then .initializer else .method) d
    pure (.mk x d)

theorem bind_pure_bind {x : R α} {f : α → β} {k : β → R γ} : ((do let a ← x; pure (f a)) >>= k) = (x >>= fun a => k (f a)) := by
  funext rs
  simp only [bind, M.bind]
  cases x rs <;> rfl

theorem entries_all (es : List MapEntry) : resolveEntries es = runAll resolveEntry es := by
  induction es with
  | nil => rfl
  | cons e es ih => cases e; simp only [resolveEntries, runAll, ih, resolveEntry, bind_pure_bind]

theorem methods_all (ms : List NamedFun) : resolveMethods ms = runAll resolveMethod ms := by
  induction ms with
  | nil => rfl
  | cons m ms ih => cases m; simp only [resolveMethods, runAll, ih, resolveMethod, bind_pure_bind]

theorem expr_near (e : Expr) (s b t) (h : resolveExpr e s = .ok b t) : Nearby s t := (resolved_near (resolved_expr e h)).2 ⟨_, rfl⟩

theorem entry_near (e : MapEntry) (s b t) (h : resolveEntry e s = .ok b t) : Nearby s t := by
  cases e
  simp only [resolveEntry, bind_ok, pure_ok] at h
  obtain ⟨_, _, h, _, rfl⟩ := h
  exact expr_near _ _ _ _ h

theorem method_near (m : NamedFun) (s b t) (h : resolveMethod m s = .ok b t) : Nearby s t := by
  cases m
  simp only [resolveMethod, bind_ok, pure_ok] at h
  obtain ⟨_, _, h, _, rfl⟩ := h
  exact (resolved_near (resolved_fn _ h)).2 trivial

/-! ### Reordered programs -/

theorem Spec.Reordered.symm {a b : Fragment} (h : Reordered a b) : Reordered b a := by
  induction h with
  | binarySwap _ _ i1 i2 => exact .binarySwap i2 i1
  | logicalSwap _ _ i1 i2 => exact .logicalSwap i2 i1
  | _ => constructor <;> first | assumption | (symm; assumption)

abbrev LikeExpr (e e' : Expr) : Prop := Reordered (.expr e) (.expr e')
def LikeEntry (e e' : MapEntry) : Prop := e.key = e'.key ∧ Reordered (.expr e.value) (.expr e'.value)
def LikeMethod (m m' : NamedFun) : Prop := m.name = m'.name ∧ Reordered (.fn m.funDef) (.fn m'.funDef)

theorem shuffled_exprs {es es'} (h : Shuffled LikeExpr es es') : Reordered (.exprs es) (.exprs es') := by
  induction h with
  | nil => exact .exprs_nil
  | ins h _ ih => exact .exprs h ih

theorem shuffled_entries {es es'} (h : Shuffled LikeEntry es es') : Reordered (.entries es) (.entries es') := by
  induction h with
  | nil => exact .entries_nil
  | @ins a b _ _ _ _ h _ ih =>
    obtain ⟨k, e⟩ := a
    obtain ⟨k', e'⟩ := b
    obtain ⟨h1, h2⟩ := h
    cases (h1 : k = k')
    exact .entries h2 ih

theorem shuffled_methods {es es'} (h : Shuffled LikeMethod es es') : Reordered (.methods es) (.methods es') := by
  induction h with
  | nil => exact .methods_nil
  | @ins a b _ _ _ _ h _ ih =>
    obtain ⟨k, e⟩ := a
    obtain ⟨k', e'⟩ := b
    obtain ⟨h1, h2⟩ := h
    cases (h1 : k = k')
    exact .methods h2 ih

/-- The run_like on corresponding trees. -/
def RunLike : Fragment → Fragment → Prop
  | .expr e, .expr e' => Imp LikeExpr (resolveExpr e) (resolveExpr e')
  | .exprs es, .exprs es' => Shuffled (fun e e' => Imp LikeExpr (resolveExpr e) (resolveExpr e')) es es'
  | .entries es, .entries es' => Shuffled (fun e e' => Imp LikeEntry (resolveEntry e) (resolveEntry e')) es es'
  | .fn d, .fn d' => ∀ ft, Imp (fun d d' => Reordered (.fn d) (.fn d')) (resolveFunction ft d) (resolveFunction ft d')
  | .methods ms, .methods ms' => Shuffled (fun e e' => Imp LikeMethod (resolveMethod e) (resolveMethod e')) ms ms'
  | .stmt s, .stmt s' => Imp (fun s s' => Reordered (.stmt s) (.stmt s')) (resolveStmt s) (resolveStmt s')
  | .stmts ss, .stmts ss' => Imp (fun s s' => Reordered (.stmts s) (.stmts s')) (resolveStmts ss) (resolveStmts ss')
  | _, _ => False

/-- Two operands are resolved in any order. -/
theorem imp_swap {a a' b b' : Expr} {γ : Type} {W : γ → γ → Prop} {f g : Expr → Expr → γ} (i1 : Imp LikeExpr (resolveExpr a) (resolveExpr a'))
    (i2 : Imp LikeExpr (resolveExpr b) (resolveExpr b')) (hw : ∀ x x' y y', LikeExpr x x' → LikeExpr y y' → W (f x y) (g y' x')) :
    Imp W (do let a ← resolveExpr a; let b ← resolveExpr b; pure (f a b))
      (do let b ← resolveExpr b'; let a ← resolveExpr a'; pure (g b a)) := by
  intro rs rs' hp z t h
  simp only [bind_ok, pure_ok] at h
  obtain ⟨x, t1, h1, y, t2, h2, rfl, rfl⟩ := h
  have n1 := expr_near _ _ _ _ h1
  have n2 := expr_near _ _ _ _ h2
  simp only [bind, M.bind]
  rcases i2 t1 rs' (n1.symm.trans hp) y _ h2 with ⟨y', t1', e1, e2, e3⟩ | ⟨e, t', e1, e2⟩
  · rw [e1]
    dsimp only
    rcases i1 rs t1' (hp.trans (expr_near _ _ _ _ e1)) x _ h1 with ⟨x', t2', e4, e5, e6⟩ | ⟨e, t', e4, e5⟩
    · rw [e4]
      exact .inl ⟨_, _, rfl, hw _ _ _ _ e5 e2, n2.symm.trans e6⟩
    · rw [e4]
      exact .inr ⟨_, _, rfl, e5⟩
  · rw [e1]
    exact .inr ⟨_, _, rfl, e2⟩

theorem imp_return {e e' : Expr} (h : Reordered (.expr e) (.expr e')) (loc loc') :
    Imp (fun _ _ => True) (checkReturn e loc) (checkReturn e' loc') := by
  intro rs rs' hp a t hr
  unfold checkReturn at hr ⊢
  simp only [bind, M.bind, M.get] at hr ⊢
  rw [← hp.fn]
  cases hf : rs.functionType with
  | noFunction => rw [hf] at hr; cases hr
  | plain => rw [hf] at hr; cases hr; exact .inl ⟨_, _, rfl, trivial, hp⟩
  | method => rw [hf] at hr; cases hr; exact .inl ⟨_, _, rfl, trivial, hp⟩
  | initializer =>
    rw [hf] at hr
    cases h <;> first | (cases hr; exact .inl ⟨_, _, rfl, trivial, hp⟩) | cases hr

theorem imp_superclass {e e' : Expr} (h : Reordered (.expr e) (.expr e')) (x) :
    Imp (fun _ _ => True) (checkSuperclass x (some e)) (checkSuperclass x (some e')) := by
  intro rs rs' hp a t hr
  cases h <;> first
    | (cases hr; exact .inl ⟨_, _, rfl, trivial, hp⟩)
    | (simp only [checkSuperclass] at hr ⊢
       split at hr
       · cases hr
       · rename_i hx
         cases hr
         rw [if_neg hx]
         exact .inl ⟨_, _, rfl, trivial, hp⟩)

theorem run_like {a b : Fragment} (h : Reordered a b) : RunLike a b := by
  induction h with
  | exprs_nil => exact .nil
  | exprs _ _ i1 i2 => exact .ins i1 i2
  | entries_nil => exact .nil
  | entries _ _ i1 i2 => exact .ins (imp_bind i1 fun _ _ h => imp_pure ⟨rfl, h⟩) i2
  | methods_nil => exact .nil
  | methods _ _ i1 i2 => exact .ins (imp_bind (i1 _) fun _ _ h => imp_pure ⟨rfl, h⟩) i2
  | stmts_nil => exact imp_pure .stmts_nil
  | stmts _ _ i1 i2 => exact imp_bind i1 fun _ _ h1 => imp_bind i2 fun _ _ h2 => imp_pure (.stmts h1 h2)
  | fn hp _ i =>
    intro ft
    exact imp_bind (imp_function ft (imp_scope (imp_bind (imp_params hp) fun _ _ _ => i))) fun _ _ h => imp_pure (.fn hp h)
  | assign _ _ i => exact imp_bind i fun _ _ h1 => imp_bind (imp_local _ _ _) fun _ _ h2 => imp_pure (.assign h2 h1)
  | call _ _ i1 i2 =>
    refine imp_bind i1 fun _ _ h1 => imp_bind ?_ fun _ _ h2 => imp_pure (.call h1 (shuffled_exprs h2))
    rw [exprs_all, exprs_all]
    exact imp_all expr_near i2
  | binary _ _ i1 i2 => exact imp_bind i1 fun _ _ h1 => imp_bind i2 fun _ _ h2 => imp_pure (.binary h1 h2)
  | binarySwap _ _ i1 i2 => exact imp_swap i1 i2 fun _ _ _ _ h1 h2 => .binarySwap h1 h2
  | function _ i => exact imp_bind (i _) fun _ _ h => imp_pure (.function h)
  | get _ i => exact imp_bind i fun _ _ h => imp_pure (.get h)
  | getIndex _ _ i1 i2 => exact imp_bind i1 fun _ _ h1 => imp_bind i2 fun _ _ h2 => imp_pure (.getIndex h1 h2)
  | grouping _ i => exact imp_bind i fun _ _ h => imp_pure (.grouping h)
  | literalArray _ i =>
    refine imp_bind ?_ fun _ _ h2 => imp_pure (.literalArray (shuffled_exprs h2))
    rw [exprs_all, exprs_all]
    exact imp_all expr_near i
  | literalBool b => exact imp_pure (.literalBool b)
  | literalMap _ i =>
    refine imp_bind ?_ fun _ _ h2 => imp_pure (.literalMap (shuffled_entries h2))
    rw [entries_all, entries_all]
    exact imp_all entry_near i
  | literalNumber n => exact imp_pure (.literalNumber n)
  | literalNil => exact imp_pure .literalNil
  | literalString s => exact imp_pure (.literalString s)
  | logical _ _ i1 i2 => exact imp_bind i1 fun _ _ h1 => imp_bind i2 fun _ _ h2 => imp_pure (.logical h1 h2)
  | logicalSwap _ _ i1 i2 => exact imp_swap i1 i2 fun _ _ _ _ h1 h2 => .logicalSwap h1 h2
  | set _ _ i1 i2 => exact imp_bind i1 fun _ _ h1 => imp_bind i2 fun _ _ h2 => imp_pure (.set h1 h2)
  | setIndex _ _ _ i1 i2 i3 =>
    exact imp_bind i1 fun _ _ h1 => imp_bind i2 fun _ _ h2 => imp_bind i3 fun _ _ h3 => imp_pure (.setIndex h1 h2 h3)
  | super _ => exact imp_bind (imp_super _ _) fun _ _ h => imp_pure (.super h)
  | «variable» _ => exact imp_bind (imp_variable _ _ _) fun _ _ h => imp_pure (.variable h)
  | unary _ i => exact imp_bind i fun _ _ h => imp_pure (.unary h)
  | block _ i => exact imp_bind (imp_scope i) fun _ _ h => imp_pure (.block h)
  | «break» => exact imp_pure .break
  | @«class» x ms ms' loc loc' _ i =>
    refine imp_class _ (imp_bind (imp_define _ _ _) fun _ _ _ => imp_bind (V := fun _ _ => True) (imp_pure trivial) fun _ _ _ => ?_)
    refine imp_bind (imp_scope (imp_bind (imp_define _ _ _) fun _ _ _ => ?_)) fun _ _ h2 => imp_pure (.class (shuffled_methods h2))
    rw [methods_all, methods_all]
    exact imp_all method_near i
  | subclass he _ i1 i2 =>
    refine imp_class _ (imp_bind (imp_define _ _ _) fun _ _ _ => imp_bind (imp_superclass he _) fun _ _ _ => ?_)
    refine imp_bind i1 fun _ _ h1 => imp_bind (imp_scope (imp_bind (imp_define _ _ _) fun _ _ _ =>
      imp_scope (imp_bind (imp_define _ _ _) fun _ _ _ => ?_))) fun _ _ h2 => imp_pure (.subclass h1 (shuffled_methods h2))
    rw [methods_all, methods_all]
    exact imp_all method_near i2
  | «continue» => exact imp_pure .continue
  | expression _ i => exact imp_bind i fun _ _ h => imp_pure (.expression h)
  | «fun» _ i => exact imp_bind (imp_define _ _ _) fun _ _ _ => imp_bind (i _) fun _ _ h => imp_pure (.fun h)
  | «if» _ _ i1 i2 => exact imp_bind i1 fun _ _ h1 => imp_bind i2 fun _ _ h2 => imp_pure (.if h1 h2)
  | ifElse _ _ _ i1 i2 i3 =>
    exact imp_bind i1 fun _ _ h1 => imp_bind i2 fun _ _ h2 => imp_bind i3 fun _ _ h3 => imp_pure (.ifElse h1 h2 h3)
  | print _ i => exact imp_bind i fun _ _ h => imp_pure (.print h)
  | «return» he i => exact imp_bind (imp_return he _ _) fun _ _ _ => imp_bind i fun _ _ h => imp_pure (.return h)
  | var _ i =>
    exact imp_bind (imp_declare _ _ _) fun _ _ _ => imp_bind i fun _ _ h => imp_bind (imp_define _ _ _) fun _ _ _ => imp_pure (.var h)
  | «while» _ _ i1 i2 => exact imp_bind i1 fun _ _ h1 => imp_bind i2 fun _ _ h2 => imp_pure (.while h1 h2)
  | whileIncrement _ _ _ i1 i2 i3 =>
    exact imp_bind i1 fun _ _ h1 => imp_bind i2 fun _ _ h2 => imp_bind i3 fun _ _ h3 => imp_pure (.whileIncrement h1 h2 h3)

end Ws
