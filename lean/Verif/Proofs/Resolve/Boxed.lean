import Verif.Proofs.Resolve.Separate
import Verif.Spec.Boxed
/-! Resolving a program with blocks around the statements after `if`, `else` and `while`. -/
namespace Ws
open Ws.Spec

/-! ### Declarations that have begun -/

/-- A name whose declaration has begun and not ended in a scope of the second list is one in the first. -/
inductive NoNew : List Scope → List Scope → Prop
  | nil : NoNew [] []
  | cons {s s' ss ss'} : (∀ y, s'.stateOf y = some .declaredVar → s.stateOf y = some .declaredVar) → NoNew ss ss' →
      NoNew (s :: ss) (s' :: ss')

theorem NoNew.refl : ∀ ss, NoNew ss ss
  | [] => .nil
  | _ :: ss => .cons (fun _ h => h) (.refl ss)

theorem NoNew.trans {a b c : List Scope} (h : NoNew a b) (h' : NoNew b c) : NoNew a c := by
  induction h generalizing c with
  | nil => exact h'
  | cons h _ ih =>
    cases h' with
    | cons h1 h2 => exact .cons (fun y hy => h y (h1 y hy)) (ih h2)

theorem NoNew.tail {a b : List Scope} (h : NoNew a b) : NoNew a.tail b.tail := by
  cases h with
  | nil => exact .nil
  | cons _ h => exact h

theorem NoNew.append {a b c d : List Scope} (h : NoNew a b) (h' : NoNew c d) : NoNew (a ++ c) (b ++ d) := by
  induction h with
  | nil => exact h'
  | cons h _ ih => exact .cons h ih

theorem define_noNew {x loc} {rs rs' : Resolver} (h : define x loc rs = .ok () rs') (hn : rs.scopes ≠ []) : NoNew rs.scopes rs'.scopes := by
  obtain ⟨s, s', ss, e, rfl, ht, hd, _⟩ := define_ok h hn
  rw [e]
  refine .cons (fun y hy => ?_) (.refl ss)
  have hx : y ≠ x := by
    rintro rfl
    change s'.stateOf y = _ at hd
    rw [hd] at hy
    cases hy
  rw [← touched_state ht hx]
  exact hy

theorem local_noNew {x loc c} {rs rs' : Resolver} (h : resolveLocalVariable x loc rs = .ok c rs') (hn : rs.scopes ≠ []) :
    NoNew rs.scopes rs'.scopes := by
  rcases local_ok h hn with ⟨b, s, a, v, e, _, _, _, rfl⟩ | ⟨b, g, e, hu, _, _, rfl⟩
  · exact .refl _
  · have hx : g.get x = none := hu g (by rw [e]; simp)
    rw [e]
    refine .append (.refl b) (.cons (fun y hy => ?_) .nil)
    rw [stateOf_insert hx] at hy
    split at hy
    · cases hy
    · exact hy

theorem params_noNew : ∀ {ps} {rs rs' : Resolver}, defineParams ps rs = .ok () rs' → rs.scopes ≠ [] → NoNew rs.scopes rs'.scopes
  | [], rs, rs', h, _ => by
    cases (pure_ok.mp h).2
    exact .refl _
  | p :: ps, rs, rs', h, hn => by
    obtain ⟨_, t, h1, h2⟩ := bind_ok.mp h
    exact (define_noNew h1 hn).trans (params_noNew h2 (define_shape h1 hn).nonempty)

theorem resolved_noNew {a b rs rs'} (h : Resolved a b rs rs') : rs.scopes ≠ [] → NoNew rs.scopes rs'.scopes := by
  induction h with
  | nil => exact fun _ => .refl _
  | methods_nil => exact fun _ => .refl _
  | cons h _ i1 i2 => exact fun hn => (i1 hn).trans (i2 (resolved_shape h hn).nonempty)
  | methods_cons h _ i1 i2 => exact fun hn => (i1 hn).trans (i2 (resolved_shape h hn).nonempty)
  | plain _ _ i => exact i
  | function _ i => exact i
  | assign h h' i => exact fun hn => (i hn).trans (local_noNew h' (resolved_shape h hn).nonempty)
  | «variable» h => exact fun hn => local_noNew (variable_ok h hn).1 hn
  | super h => exact fun hn => local_noNew (super_ok h).1 hn
  | block _ h i => exact fun hn => (i (enter_nonempty _)).tail
  | «return» h _ i =>
    intro hn
    cases (return_ok h).1
    exact i hn
  | @var x c c' e e' loc rs rs1 rs2 rs3 h h' h'' i =>
    intro hn
    have s1 := declare_shape h hn
    have s2 := resolved_shape h' s1.nonempty
    have n2 := i s1.nonempty
    obtain ⟨s, s', ss, v, e, _, rfl, ht, _⟩ := declare_ok h hn
    obtain ⟨t, t', ts, e', rfl, ht', hd, _⟩ := define_ok h'' s2.nonempty
    dsimp only at n2
    rw [e'] at n2
    rw [e]
    cases n2 with
    | cons m1 m2 =>
      refine .cons (fun y hy => ?_) m2
      have hx : y ≠ x := by
        rintro rfl
        change t'.stateOf y = _ at hd
        rw [hd] at hy
        cases hy
      rw [← touched_state ht hx]
      exact m1 y (by rw [← touched_state ht' hx]; exact hy)
  | «fun» h _ i => exact fun hn => (define_noNew h hn).trans (i (define_shape h hn).nonempty)
  | «class» h _ h' h'' i =>
    intro hn
    have s2 := define_shape h' (enter_nonempty _)
    exact (define_noNew h hn).trans ((define_noNew h' (enter_nonempty _)).trans (i s2.nonempty)).tail
  | subclass h _ he _ h' _ h'' hm i i' =>
    intro hn
    have s1 := define_shape h hn
    have s4 := define_shape h'' (enter_nonempty _)
    exact (define_noNew h hn).trans ((i s1.nonempty).trans ((define_noNew h' (enter_nonempty _)).trans
      ((define_noNew h'' (enter_nonempty _)).trans (i' s4.nonempty)).tail).tail)
  | fn _ h h' i =>
    intro hn
    have s1 := params_shape h (by simp [Resolver.enter])
    exact ((params_noNew h (by simp [Resolver.enter])).trans (i s1.nonempty)).tail

/-- No declaration has begun and not ended in the innermost scope. -/
def InnerClean (ss : List Scope) : Prop := ∀ s, ss.head? = some s → ∀ y, s.stateOf y ≠ some .declaredVar

theorem NoNew.clean {a b : List Scope} (h : NoNew a b) (hc : InnerClean a) : InnerClean b := by
  cases h with
  | nil => exact hc
  | cons h _ =>
    intro s hs y hy
    cases hs
    exact hc _ rfl y (h y hy)

theorem clean_enter (ss : List Scope) : InnerClean ([] :: ss) := by
  intro s hs y hy
  cases hs
  cases hy

/-! ### Scopes -/

/-- The scopes of the program, and of the program with blocks. -/
inductive Wide : List Bool → List Scope → List Scope → Prop
  | base {ss} : ss ≠ [] → Wide [] ss ss
  | real (s) {m ss ss'} : Wide m ss ss' → Wide (false :: m) (s :: ss) (s :: ss')
  | extra {m ss ss'} : Wide m ss ss' → InnerClean ss → Wide (true :: m) ss ([] :: ss')

theorem Wide.nonempty {m} {ss ss' : List Scope} (h : Wide m ss ss') : ss ≠ [] ∧ ss' ≠ [] := by
  induction h with
  | base h => exact ⟨h, h⟩
  | real _ _ _ => exact ⟨by simp, by simp⟩
  | extra _ _ ih => exact ⟨ih.1, by simp⟩

theorem Wide.length_le {m} {ss ss' : List Scope} (h : Wide m ss ss') : ss.length ≤ ss'.length := by
  induction h with
  | base h => exact Nat.le_refl _
  | real _ _ ih => simp only [List.length_cons]; omega
  | extra _ _ ih => simp only [List.length_cons]; omega

theorem Wide.last {m} {ss ss' : List Scope} (h : Wide m ss ss') : ss.getLast? = ss'.getLast? := by
  induction h with
  | base h => rfl
  | real s _ ih => simp [List.getLast?_cons, ih]
  | @extra m ss ss' h _ ih =>
    rw [List.getLast?_cons, ih]
    cases hs : ss'.getLast? with
    | none => exact absurd (List.getLast?_eq_none_iff.mp hs) h.nonempty.2
    | some g => rfl

theorem Wide.widen_length {m} {ss ss' : List Scope} (h : Wide m ss ss') : widen m (ss.length - 1) = ss'.length - 1 := by
  induction h with
  | base h => rfl
  | @real s m ss ss' h ih =>
    have := List.length_pos_iff.mpr h.nonempty.1
    have := List.length_pos_iff.mpr h.nonempty.2
    simp only [List.length_cons, Nat.add_sub_cancel]
    obtain ⟨k, hk⟩ : ∃ k, ss.length = k + 1 := ⟨ss.length - 1, by omega⟩
    rw [hk, widen]
    rw [hk, Nat.add_sub_cancel] at ih
    omega
  | @extra m ss ss' h _ ih =>
    have := List.length_pos_iff.mpr h.nonempty.2
    simp only [List.length_cons, Nat.add_sub_cancel, widen]
    omega

theorem Wide.find (x : Str) {m} {ss ss' : List Scope} (h : Wide m ss ss') (d d' : Nat) :
    (findVar x ss d = none ∧ findVar x ss' d' = none) ∨
      ∃ k v, findVar x ss d = some (d + k, v) ∧ findVar x ss' d' = some (d' + widen m k, v) ∧ k < ss.length ∧ widen m k < ss'.length := by
  induction h generalizing d d' with
  | @base ss h =>
    clear h
    induction ss generalizing d d' with
    | nil => exact .inl ⟨rfl, rfl⟩
    | cons s ss ih =>
      simp only [findVar]
      cases s.get x with
      | some v => exact .inr ⟨0, v, rfl, rfl, by simp, by simp [widen]⟩
      | none =>
        rcases ih (d + 1) (d' + 1) with h | ⟨k, v, h1, h2, h3, h4⟩
        · exact .inl h
        · refine .inr ⟨k + 1, v, ?_, ?_, by simp only [List.length_cons]; omega, by simp only [widen, List.length_cons]; omega⟩
          · simp only [h1]; congr 2; omega
          · simp only [h2, widen]; congr 2; omega
  | real s h ih =>
    simp only [findVar]
    cases s.get x with
    | some v => exact .inr ⟨0, v, rfl, rfl, by simp, by simp [widen]⟩
    | none =>
      rcases ih (d + 1) (d' + 1) with h | ⟨k, v, h1, h2, h3, h4⟩
      · exact .inl h
      · refine .inr ⟨k + 1, v, ?_, ?_, by simp only [List.length_cons]; omega, by simp only [widen, List.length_cons]; omega⟩
        · simp only [h1]; congr 2; omega
        · simp only [h2, widen]; congr 2; omega
  | extra h _ ih =>
    have e : ∀ ss', findVar x ([] :: ss') d' = findVar x ss' (d' + 1) := fun _ => rfl
    rw [e]
    rcases ih d (d' + 1) with h | ⟨k, v, h1, h2, h3, h4⟩
    · exact .inl h
    · refine .inr ⟨k, v, h1, ?_, h3, by simp only [widen, List.length_cons]; omega⟩
      simp only [h2, widen]; congr 2; omega

theorem setGlobal_cons {s : Scope} {ss : List Scope} (h : ss ≠ []) (g) : setGlobal (s :: ss) g = s :: setGlobal ss g := by
  cases ss with
  | nil => exact absurd rfl h
  | cons a b => rfl

theorem setGlobal_length : ∀ (ss : List Scope) (g), (setGlobal ss g).length = ss.length
  | [], _ => rfl
  | [_], _ => rfl
  | a :: b :: ss, g => by rw [setGlobal_cons (by simp), List.length_cons, setGlobal_length]; rfl

/-- A global that is used before its declaration. -/
theorem Wide.global {m} {ss ss' : List Scope} (h : Wide m ss ss') {g g1 : Scope} (hg : ss.getLast? = some g)
    (h1 : ∀ y, g1.stateOf y = some .declaredVar → g.stateOf y = some .declaredVar) : Wide m (setGlobal ss g1) (setGlobal ss' g1) := by
  induction h with
  | base h =>
    refine .base fun h0 => h ?_
    have := congrArg List.length h0
    rw [setGlobal_length] at this
    exact List.length_eq_zero_iff.mp this
  | @real s m ss ss' h ih =>
    rw [setGlobal_cons h.nonempty.1, setGlobal_cons h.nonempty.2]
    refine .real s (ih ?_)
    cases ss with
    | nil => exact absurd rfl h.nonempty.1
    | cons a b => rw [List.getLast?_cons_cons] at hg; exact hg
  | @extra m ss ss' h hc ih =>
    rw [setGlobal_cons h.nonempty.2]
    refine .extra (ih hg) ?_
    cases ss with
    | nil => exact absurd rfl h.nonempty.1
    | cons a b =>
      cases b with
      | nil =>
        cases hg
        intro s hs y hy
        cases hs
        exact hc _ rfl y (h1 y hy)
      | cons b c =>
        intro s hs
        exact hc s hs

/-- The innermost scope, if it is not one of the further scopes. -/
theorem Wide.head {m} {ss ss' : List Scope} (h : Wide m ss ss') (hm : m.head? ≠ some true) :
    ∃ s t t', ss = s :: t ∧ ss' = s :: t' ∧ (t.length = 0 ↔ t'.length = 0) ∧ ∀ s1, Wide m (s1 :: t) (s1 :: t') := by
  cases h with
  | base h =>
    cases ss with
    | nil => exact absurd rfl h
    | cons s t => exact ⟨s, t, t, rfl, rfl, Iff.rfl, fun s1 => .base (by simp)⟩
  | real s h =>
    refine ⟨s, _, _, rfl, rfl, ?_, fun s1 => .real s1 h⟩
    have := List.length_pos_iff.mpr h.nonempty.1
    have := List.length_pos_iff.mpr h.nonempty.2
    omega
  | extra _ _ => exact absurd rfl hm

/-- The resolver of the program, and of the program with blocks. -/
structure WideR (m : List Bool) (rs rs' : Resolver) : Prop where
  scopes : Wide m rs.scopes rs'.scopes
  fn : rs.functionType = rs'.functionType
  cls : rs.classType = rs'.classType
  len : rs'.scopes.length ≤ varLocMaxDistance

/-- The results. -/
inductive BoxRes (m : List Bool) {α : Type} (V : α → α → Prop) : Res Resolver Cause α → Res Resolver Cause α → Prop
  | ok {a a' rs rs'} : V a a' → WideR m rs rs' → BoxRes m V (.ok a rs) (.ok a' rs')
  | err (e) {rs rs'} : WideR m rs rs' → BoxRes m V (.err e rs) (.err e rs')
  | panic (r msg) : BoxRes m V r (.panic msg)
  | diverge : BoxRes m V .diverge .diverge

/-- The runs, for expressions. -/
def BoxE (m : List Bool) {α : Type} (V : α → α → Prop) (x x' : R α) : Prop :=
  ∀ rs rs', WideR m rs rs' → BoxRes m V (x rs) (x' rs')

/-- The runs, for statements. -/
def BoxS (m : List Bool) {α : Type} (V : α → α → Prop) (x x' : R α) : Prop :=
  ∀ rs rs', WideR m rs rs' → InnerClean rs.scopes → BoxRes m V (x rs) (x' rs')

/-- A success leaves no declaration begun. -/
def Cleans {α : Type} (x : R α) : Prop := ∀ rs a t, rs.scopes ≠ [] → x rs = .ok a t → NoNew rs.scopes t.scopes

variable {m : List Bool} {α β : Type}

theorem BoxE.stmt {V : α → α → Prop} {x x' : R α} (h : BoxE m V x x') : BoxS m V x x' := fun rs rs' hw _ => h rs rs' hw

theorem boxE_pure {V : α → α → Prop} {a b : α} (h : V a b) : BoxE m V (pure a) (pure b) := fun _ _ hp => .ok h hp

theorem boxE_bind {V : α → α → Prop} {W : β → β → Prop} {x x' : R α} {k k' : α → R β}
    (h : BoxE m V x x') (hk : ∀ a a', V a a' → BoxE m W (k a) (k' a')) : BoxE m W (x >>= k) (x' >>= k') := by
  intro rs rs' hp
  have h1 := h rs rs' hp
  show BoxRes m W (M.bind x k rs) (M.bind x' k' rs')
  unfold M.bind
  revert h1
  generalize x rs = r
  generalize x' rs' = r'
  intro h1
  cases h1 with
  | ok hv hp1 => exact hk _ _ hv _ _ hp1
  | err e hp1 => exact .err e hp1
  | panic _ m => exact .panic _ m
  | diverge => exact .diverge

theorem boxS_bind {V : α → α → Prop} {W : β → β → Prop} {x x' : R α} {k k' : α → R β}
    (h : BoxS m V x x') (hx : Cleans x) (hk : ∀ a a', (∃ rs t, x rs = .ok a t) → V a a' → BoxS m W (k a) (k' a')) :
    BoxS m W (x >>= k) (x' >>= k') := by
  intro rs rs' hp hc
  have h1 := h rs rs' hp hc
  show BoxRes m W (M.bind x k rs) (M.bind x' k' rs')
  unfold M.bind
  have hx1 := hx rs
  have hk1 := fun a a' t (h : x rs = .ok a t) => hk a a' ⟨rs, t, h⟩
  revert h1 hx1 hk1
  generalize x rs = r
  generalize x' rs' = r'
  intro h1 hx1 hk1
  cases h1 with
  | ok hv hp1 => exact hk1 _ _ _ rfl hv _ _ hp1 ((hx1 _ _ hp.scopes.nonempty.1 rfl).clean hc)
  | err e hp1 => exact .err e hp1
  | panic _ m => exact .panic _ m
  | diverge => exact .diverge

theorem box_finally {m'} {V : α → α → Prop} {x x' : R α} {e e' : Resolver → Resolver} {rs rs' : Resolver}
    (h : BoxRes m V (x rs) (x' rs')) (he : ∀ t t', WideR m t t' → WideR m' (e t) (e' t')) :
    BoxRes m' V (andFinally x e rs) (andFinally x' e' rs') := by
  unfold andFinally
  revert h
  generalize x rs = r
  generalize x' rs' = r'
  intro h1
  cases h1 with
  | ok hv hp => exact .ok hv (he _ _ hp)
  | err c hp => exact .err c (he _ _ hp)
  | panic _ m => exact .panic _ m
  | diverge => exact .diverge

/-- A scope of the program. -/
theorem box_scope {V : α → α → Prop} {x x' : R α} (h : BoxS (false :: m) V x x') : BoxE m V (inNewScope x) (inNewScope x') := by
  intro rs rs' hp
  show BoxRes m V (M.bind beginScope _ rs) (M.bind beginScope _ rs')
  unfold M.bind beginScope
  by_cases hl' : rs'.scopes.length ≥ varLocMaxDistance
  · simp only [hl', if_true]
    exact .panic _ _
  · have hl : ¬ rs.scopes.length ≥ varLocMaxDistance := by have := hp.scopes.length_le; omega
    simp only [hl, hl', if_false]
    refine box_finally (h _ _ ⟨.real [] hp.scopes, hp.fn, hp.cls, by simp only [List.length_cons]; omega⟩ (clean_enter _))
      fun t t' ht => ⟨?_, ht.fn, ht.cls, ?_⟩
    · show Wide m t.scopes.tail t'.scopes.tail
      have := ht.scopes
      revert this
      generalize t.scopes = a
      generalize t'.scopes = b
      intro this
      cases this with
      | real _ h => exact h
    · have := ht.len
      simp only [Resolver.endScope, List.length_tail]
      omega

/-- A further scope. -/
theorem box_extra {V W : α → α → Prop} {f : α → α} {x x' : R α} (h : BoxS (true :: m) V x x') (hf : ∀ a b, V a b → W a (f b)) :
    BoxS m W x (inNewScope x' >>= fun b => pure (f b)) := by
  intro rs rs' hp hc
  show BoxRes m W (x rs) (M.bind (M.bind beginScope _) _ rs')
  unfold M.bind beginScope
  by_cases hl' : rs'.scopes.length ≥ varLocMaxDistance
  · simp only [hl', if_true]
    exact .panic _ _
  · simp only [hl', if_false]
    have h1 := h rs { rs' with scopes := [] :: rs'.scopes } ⟨.extra hp.scopes hc, hp.fn, hp.cls, by simp only [List.length_cons]; omega⟩ hc
    have hl : ∀ t t', WideR (true :: m) t t' → WideR m t t'.endScope := by
      intro t t' ht
      refine ⟨?_, ht.fn, ht.cls, ?_⟩
      · show Wide m t.scopes t'.scopes.tail
        have := ht.scopes
        revert this
        generalize t.scopes = a
        generalize t'.scopes = b
        intro this
        cases this with
        | extra h _ => exact h
      · have := ht.len
        simp only [Resolver.endScope, List.length_tail]
        omega
    unfold andFinally
    revert h1
    generalize x rs = r
    generalize x' _ = r'
    intro h1
    cases h1 with
    | ok hv hp => exact .ok (hf _ _ hv) (hl _ _ hp)
    | err c hp => exact .err c (hl _ _ hp)
    | panic _ m => exact .panic _ m
    | diverge => exact .diverge

theorem box_function {V : α → α → Prop} {x x' : R α} (ft) (h : BoxE m V x x') :
    BoxE m V (withFunctionType ft x) (withFunctionType ft x') :=
  fun rs rs' hp => box_finally (h { rs with functionType := ft } { rs' with functionType := ft } ⟨hp.scopes, rfl, hp.cls, hp.len⟩)
    fun _ _ ht => ⟨ht.scopes, hp.fn, ht.cls, ht.len⟩

theorem box_class {V : α → α → Prop} {x x' : R α} (ct) (h : BoxE m V x x') :
    BoxE m V (withClassType ct x) (withClassType ct x') :=
  fun rs rs' hp => box_finally (h { rs with classType := ct } { rs' with classType := ct } ⟨hp.scopes, hp.fn, rfl, hp.len⟩)
    fun _ _ ht => ⟨ht.scopes, ht.fn, hp.cls, ht.len⟩

theorem box_define (x loc) (hm : m.head? ≠ some true) : BoxE m (fun _ _ => True) (define x loc) (define x loc) := by
  rintro ⟨scopes, ft, ct⟩ ⟨scopes', ft', ct'⟩ ⟨h1, h2, h3, h4⟩
  dsimp only at h1 h2 h3 h4
  obtain ⟨s, t, t', rfl, rfl, hl, hw⟩ := h1.head hm
  rw [define_by, define_by]
  simp only [hl]
  split
  · exact .err _ ⟨hw _, h2, h3, h4⟩
  · split
    · exact .ok trivial ⟨hw _, h2, h3, h4⟩
    · split
      · exact .ok trivial ⟨hw _, h2, h3, h4⟩
      · exact .ok trivial ⟨hw _, h2, h3, h4⟩
      · split
        · exact .ok trivial ⟨hw _, h2, h3, h4⟩
        · exact .err _ ⟨hw _, h2, h3, h4⟩

theorem box_declare (x loc) (hm : m.head? ≠ some true) : BoxE m (fun c c' => c' = c) (declare x loc) (declare x loc) := by
  rintro ⟨scopes, ft, ct⟩ ⟨scopes', ft', ct'⟩ ⟨h1, h2, h3, h4⟩
  dsimp only at h1 h2 h3 h4
  obtain ⟨s, t, t', rfl, rfl, hl, hw⟩ := h1.head hm
  rw [declare_by, declare_by]
  simp only [hl]
  split
  · exact .err _ ⟨hw _, h2, h3, h4⟩
  · split
    · exact .ok rfl ⟨hw _, h2, h3, h4⟩
    · split
      · exact .ok rfl ⟨hw _, h2, h3, h4⟩
      · split
        · exact .ok rfl ⟨hw _, h2, h3, h4⟩
        · exact .err _ ⟨hw _, h2, h3, h4⟩
      · split
        · exact .ok rfl ⟨hw _, h2, h3, h4⟩
        · exact .err _ ⟨hw _, h2, h3, h4⟩

/-- The locations. -/
abbrev WideLoc (m : List Bool) (c c' : VarLoc) : Prop := c' = widenLoc m c

theorem box_local (x loc) : BoxE m (WideLoc m) (resolveLocalVariable x loc) (resolveLocalVariable x loc) := by
  intro rs rs' hp
  have hl := hp.len
  have hle := hp.scopes.length_le
  have small : varLocMaxDistance < 65536 := by decide
  rcases hp.scopes.find x 0 0 with ⟨e1, e2⟩ | ⟨k, v, e1, e2, k1, k2⟩
  · cases hg : rs.scopes.getLast? with
    | none => exact absurd (List.getLast?_eq_none_iff.mp hg) hp.scopes.nonempty.1
    | some g =>
      rw [local_reserved e1 hg, local_reserved e2 (hp.scopes.last ▸ hg)]
      have hx := find_none e1 g (List.mem_of_getLast? hg)
      split
      · exact .err _ hp
      · refine .ok ?_ ⟨hp.scopes.global hg fun y hy => ?_, hp.fn, hp.cls, by dsimp only; rw [setGlobal_length]; exact hl⟩
        · unfold WideLoc widenLoc
          have w := hp.scopes.widen_length
          rw [Nat.mod_eq_of_lt (a := rs.scopes.length - 1) (by omega), Nat.mod_eq_of_lt (a := rs'.scopes.length - 1) (by omega), w]
        · rw [stateOf_insert hx] at hy
          split at hy
          · cases hy
          · exact hy
  · rw [local_found e1, local_found e2]
    refine .ok ?_ hp
    unfold WideLoc widenLoc
    simp only [Nat.zero_add]
    rw [Nat.mod_eq_of_lt (a := k) (by omega), Nat.mod_eq_of_lt (a := widen m k) (by omega)]

theorem box_variable (x loc) : BoxE m (WideLoc m) (resolveVariable x loc) (resolveVariable x loc) := by
  intro rs rs' hp
  unfold resolveVariable
  simp only [bind, M.bind, M.get]
  rw [hp.cls]
  split
  · exact .err _ hp
  · have hloc := box_local x loc rs rs' hp
    have hs := hp.scopes
    revert hs
    generalize ha : rs.scopes = a
    generalize hb : rs'.scopes = b
    intro hs
    cases hs with
    | base hn =>
      cases a with
      | nil => exact absurd rfl hn
      | cons s ss =>
        dsimp only
        split
        · exact .err _ hp
        · exact hloc
    | real s _ =>
      dsimp only
      split
      · exact .err _ hp
      · exact hloc
    | extra h hc =>
      cases a with
      | nil => exact absurd rfl h.nonempty.1
      | cons s ss =>
        dsimp only
        rw [if_neg (show ¬ Option.map (·.definedState) (s.get x) = some DefinedState.declaredVar from hc s rfl x), if_neg]
        · exact hloc
        · intro h; cases h

theorem box_super (loc) : BoxE m (WideLoc m) (resolveSuper loc) (resolveSuper loc) := by
  intro rs rs' hp
  unfold resolveSuper
  show BoxRes m _ (M.bind M.get _ rs) (M.bind M.get _ rs')
  simp only [M.bind, M.get]
  rw [hp.cls]
  cases rs'.classType with
  | noClass => exact .err _ hp
  | plainClass => exact .err _ hp
  | subclass => exact box_local _ loc rs rs' hp

theorem box_return (f) (e loc) : BoxE m (fun _ _ => True) (checkReturn e loc) (checkReturn (boxExpr f m e) loc) := by
  intro rs rs' hp
  unfold checkReturn
  show BoxRes m _ (M.bind M.get _ rs) (M.bind M.get _ rs')
  simp only [M.bind, M.get]
  rw [hp.fn]
  cases rs'.functionType with
  | noFunction => exact .err _ hp
  | plain => exact .ok trivial hp
  | method => exact .ok trivial hp
  | initializer => cases e <;> simp only [boxExpr] <;> first | exact .err _ hp | exact .ok trivial hp

theorem box_superclass (f) (x e) : BoxE m (fun _ _ => True) (checkSuperclass x (some e)) (checkSuperclass x (some (boxExpr f m e))) := by
  intro rs rs' hp
  unfold checkSuperclass
  cases e <;> simp only [boxExpr] <;> first | exact .ok trivial hp | skip
  split
  · exact .err _ hp
  · exact .ok trivial hp

theorem box_params (hm : m.head? ≠ some true) : ∀ ps : List Parameter, BoxE m (fun _ _ => True) (defineParams ps) (defineParams ps)
  | [] => boxE_pure trivial
  | p :: ps => boxE_bind (box_define p.name p.loc hm) fun _ _ _ => box_params hm ps

theorem cleans_expr (e : Expr) : Cleans (resolveExpr e) := fun _ _ _ hn h => resolved_noNew (resolved_expr e h) hn
theorem cleans_stmt (s : Stmt) : Cleans (resolveStmt s) := fun _ _ _ hn h => resolved_noNew (resolved_stmt s h) hn

/-- What a statement declares does not change. -/
theorem same_boxable : ∀ (s : Stmt) {rs s' rs'}, resolveStmt s rs = .ok s' rs' → declaredBy s' = declaredBy s ∧ boxable s' = boxable s
  | .block b, rs, s', rs', h => by
    simp only [resolveStmt, bind_ok, pure_ok] at h
    obtain ⟨b', _, _, rfl, rfl⟩ := h
    exact ⟨rfl, rfl⟩
  | .break loc, rs, s', rs', h => by
    simp only [resolveStmt, pure_ok] at h
    obtain ⟨rfl, rfl⟩ := h
    exact ⟨rfl, rfl⟩
  | .continue loc, rs, s', rs', h => by
    simp only [resolveStmt, pure_ok] at h
    obtain ⟨rfl, rfl⟩ := h
    exact ⟨rfl, rfl⟩
  | .class x none ms loc, rs, s', rs', h => by
    simp only [resolveStmt, withClassType_ok, bind_ok, pure_ok, inNewScope_ok] at h
    obtain ⟨t, ⟨_, rs1, hd, _, _, hc, ms', _, _, rfl, rfl⟩, rfl⟩ := h
    exact ⟨rfl, rfl⟩
  | .class x (some e) ms loc, rs, s', rs', h => by
    simp only [resolveStmt, withClassType_ok, bind_ok, pure_ok, inNewScope_ok] at h
    obtain ⟨t, ⟨_, rs1, hd, _, _, hc, e', rs2, he, ms', _, _, rfl, rfl⟩, rfl⟩ := h
    exact ⟨rfl, rfl⟩
  | .expression e, rs, s', rs', h => by
    simp only [resolveStmt, bind_ok, pure_ok] at h
    obtain ⟨e', _, he, rfl, rfl⟩ := h
    exact ⟨rfl, rfl⟩
  | .print e, rs, s', rs', h => by
    simp only [resolveStmt, bind_ok, pure_ok] at h
    obtain ⟨e', _, he, rfl, rfl⟩ := h
    exact ⟨rfl, rfl⟩
  | .fun (.mk x d), rs, s', rs', h => by
    simp only [resolveStmt, bind_ok, pure_ok] at h
    obtain ⟨_, _, hd, d', _, hf, rfl, rfl⟩ := h
    exact ⟨rfl, rfl⟩
  | .if c a none, rs, s', rs', h => by
    simp only [resolveStmt, bind_ok, pure_ok] at h
    obtain ⟨c', _, hc, a', _, ha, rfl, rfl⟩ := h
    simp only [boxable, declaredBy, (same_boxable a ha).1, and_self]
  | .if c a (some b), rs, s', rs', h => by
    simp only [resolveStmt, bind_ok, pure_ok] at h
    obtain ⟨c', _, hc, a', _, ha, b', _, hb, rfl, rfl⟩ := h
    simp only [boxable, declaredBy, (same_boxable a ha).1, (same_boxable b hb).1, and_self]
  | .return e loc, rs, s', rs', h => by
    simp only [resolveStmt, bind_ok, pure_ok] at h
    obtain ⟨_, _, hc, e', _, he, rfl, rfl⟩ := h
    exact ⟨rfl, rfl⟩
  | .var x c e loc, rs, s', rs', h => by
    simp only [resolveStmt, bind_ok, pure_ok] at h
    obtain ⟨c', _, hd, e', _, he, _, _, hf, rfl, rfl⟩ := h
    exact ⟨rfl, rfl⟩
  | .while c b, rs, s', rs', h => by
    simp only [resolveStmt, bind_ok, pure_ok] at h
    obtain ⟨c', _, hc, b', _, hb, rfl, rfl⟩ := h
    simp only [boxable, declaredBy, (same_boxable b hb).1, and_self]
  | .whileIncrement c b i, rs, s', rs', h => by
    simp only [resolveStmt, bind_ok, pure_ok] at h
    obtain ⟨c', _, hc, b', _, hb, i', _, hi, rfl, rfl⟩ := h
    simp only [boxable, declaredBy, (same_boxable b hb).1, and_self]

/-! ### Programs -/

abbrev BoxedExpr (m : List Bool) (e e' : Expr) : Prop := e' = boxExpr widenLoc m e
abbrev BoxedExprs (m : List Bool) (e e' : List Expr) : Prop := e' = boxExprs widenLoc m e
abbrev BoxedEntries (m : List Bool) (e e' : List MapEntry) : Prop := e' = boxEntries widenLoc m e
abbrev BoxedFun (m : List Bool) (e e' : FunDef) : Prop := e' = boxFun widenLoc m e
abbrev BoxedMethods (m : List Bool) (e e' : List NamedFun) : Prop := e' = boxMethods widenLoc m e
abbrev BoxedStmt (m : List Bool) (e e' : Stmt) : Prop := e' = boxStmt widenLoc m e
abbrev BoxedStmts (m : List Bool) (e e' : List Stmt) : Prop := e' = boxStmts widenLoc m e
/-- A statement after `if`, `else` or `while`. -/
abbrev boxBody (f : List Bool → VarLoc → VarLoc) (m : List Bool) (b : Stmt) : Stmt := if boxable b then .block [boxStmt f (true :: m) b] else boxStmt f m b
abbrev BoxedBody (m : List Bool) (e e' : Stmt) : Prop := e' = boxBody widenLoc m e

local macro "bv" "[" ts:Lean.Parser.Tactic.simpLemma,* "]" : tactic =>
  `(tactic| simp only [BoxedExpr, BoxedExprs, BoxedEntries, BoxedFun, BoxedMethods, BoxedStmt, BoxedStmts, BoxedBody, boxBody,
    boxExpr, boxExprs, boxEntries, boxFun, boxMethods, boxStmt, boxStmts, $ts,*])

/-- The statement declares nothing if the innermost scope is one of the further scopes. -/
abbrev FitsIn (m : List Bool) (s : Stmt) : Prop := m.head? = some true → declaredBy s = []

theorem fits_real (s : Stmt) : FitsIn (false :: m) s := fun h => by cases h

theorem fits_head {s : Stmt} (h : FitsIn m s) (hs : declaredBy s ≠ []) : m.head? ≠ some true := fun h' => hs (h h')

theorem boxable_declares {b : Stmt} (h : boxable b = true) : declaredBy b = [] := by
  unfold boxable at h
  split at h
  · cases h
  · exact List.isEmpty_iff.mp h

theorem box_body {f} {b : Stmt} (hb : ∀ m, FitsIn m b → BoxS m (BoxedStmt m) (resolveStmt b) (resolveStmt (boxStmt f m b))) (hm : FitsIn m b) :
    BoxS m (fun a a' => boxable a = boxable b → BoxedBody m a a') (resolveStmt b) (resolveStmt (boxBody f m b)) := by
  unfold boxBody
  by_cases h : boxable b = true
  · rw [if_pos h]
    have h1 := hb (true :: m) fun _ => boxable_declares h
    have h2 : resolveStmt (.block [boxStmt f (true :: m) b]) = inNewScope (resolveStmt (boxStmt f (true :: m) b) >>= fun s => pure [s]) >>= fun l => pure (.block l) := by
      simp only [resolveStmt, resolveStmts]
      rfl
    rw [h2]
    intro rs rs' hp hc
    have := box_extra (W := fun a a' => boxable a = boxable b → BoxedBody m a a') (f := fun s => Stmt.block [s]) h1 (by
      rintro a _ rfl hab
      rw [BoxedBody, boxBody, hab, if_pos h]) rs rs' hp hc
    have e : (inNewScope (resolveStmt (boxStmt f (true :: m) b) >>= fun s => pure [s]) >>= fun l => pure (Stmt.block l)) rs' =
        (inNewScope (resolveStmt (boxStmt f (true :: m) b)) >>= fun s => pure (Stmt.block [s])) rs' := by
      simp only [inNewScope, bind, M.bind]
      cases beginScope rs' with
      | ok _ t => simp only [andFinally, M.bind]; cases resolveStmt (boxStmt f (true :: m) b) t <;> rfl
      | _ => rfl
    rw [e]
    exact this
  · rw [if_neg h]
    intro rs rs' hp hc
    have := hb m hm rs rs' hp hc
    revert this
    generalize resolveStmt b rs = r
    generalize resolveStmt (boxStmt f m b) rs' = r'
    intro h1
    cases h1 with
    | ok hv hp => exact .ok (fun hab => by rw [BoxedBody, boxBody, hab, if_neg h]; exact hv) hp
    | err e hp => exact .err e hp
    | panic _ _ => exact .panic _ _
    | diverge => exact .diverge

theorem bodied {b a : Stmt} (h : ∃ rs t, resolveStmt b rs = .ok a t) : boxable a = boxable b := by
  obtain ⟨rs, t, h⟩ := h
  exact (same_boxable b h).2

variable (f : List Bool → VarLoc → VarLoc)

mutual
theorem box_stmt : ∀ (m : List Bool) (s : Stmt), FitsIn m s → BoxS m (BoxedStmt m) (resolveStmt s) (resolveStmt (boxStmt f m s))
  | m, .block b, _ => by
    simp only [boxStmt, resolveStmt]
    exact (boxE_bind (box_scope (box_stmts m b)) fun _ _ h1 => boxE_pure (by bv [h1])).stmt
  | m, .break loc, _ => by
    simp only [boxStmt, resolveStmt]
    exact (boxE_pure (by bv [])).stmt
  | m, .continue loc, _ => by
    simp only [boxStmt, resolveStmt]
    exact (boxE_pure (by bv [])).stmt
  | m, .class x none ms loc, hm => by
    simp only [boxStmt, resolveStmt]
    have hd : m.head? ≠ some true := fits_head hm (by simp [declaredBy])
    exact (box_class _ (boxE_bind (box_define x loc hd) fun _ _ _ => boxE_bind (V := fun _ _ => True) (boxE_pure trivial) fun _ _ _ =>
      boxE_bind (V := BoxedMethods (false :: m)) (box_scope (boxE_bind (box_define _ loc (by simp)) fun _ _ _ => box_methods (false :: m) ms).stmt) fun _ _ h1 =>
      boxE_pure (by bv [h1]))).stmt
  | m, .class x (some e) ms loc, hm => by
    simp only [boxStmt, resolveStmt]
    have hd : m.head? ≠ some true := fits_head hm (by simp [declaredBy])
    exact (box_class _ (boxE_bind (box_define x loc hd) fun _ _ _ => boxE_bind (box_superclass f x e) fun _ _ _ =>
      boxE_bind (box_expr m e) fun _ _ h1 =>
      boxE_bind (V := BoxedMethods (false :: false :: m)) (box_scope (boxE_bind (box_define _ loc (by simp)) fun _ _ _ =>
        box_scope (boxE_bind (box_define _ loc (by simp)) fun _ _ _ => box_methods (false :: false :: m) ms).stmt).stmt) fun _ _ h2 =>
      boxE_pure (by bv [h1, h2]))).stmt
  | m, .expression e, _ => by
    simp only [boxStmt, resolveStmt]
    exact (boxE_bind (box_expr m e) fun _ _ h1 => boxE_pure (by bv [h1])).stmt
  | m, .print e, _ => by
    simp only [boxStmt, resolveStmt]
    exact (boxE_bind (box_expr m e) fun _ _ h1 => boxE_pure (by bv [h1])).stmt
  | m, .fun (.mk x d), hm => by
    obtain ⟨ps, b, k, loc⟩ := d
    simp only [boxStmt, resolveStmt]
    have hd : m.head? ≠ some true := fits_head hm (by simp [declaredBy])
    have := box_fn m .plain (.mk ps b k loc)
    exact (boxE_bind (box_define x loc hd) fun _ _ _ => boxE_bind this fun _ _ h2 => boxE_pure (by bv [h2])).stmt
  | m, .if e a none, hm => by
    simp only [boxStmt, resolveStmt]
    exact boxS_bind (box_expr m e).stmt (cleans_expr e) fun _ _ _ h1 =>
      boxS_bind (box_body (fun m => box_stmt m a) fun h => by have := hm h; simpa [declaredBy] using this) (cleans_stmt a) fun _ _ k2 h2 =>
      (boxE_pure (by bv [h1, h2 (bodied k2)])).stmt
  | m, .if e a (some b), hm => by
    simp only [boxStmt, resolveStmt]
    exact boxS_bind (box_expr m e).stmt (cleans_expr e) fun _ _ _ h1 =>
      boxS_bind (box_body (fun m => box_stmt m a) fun h => by have := hm h; simp [declaredBy] at this; exact this.1) (cleans_stmt a) fun _ _ k2 h2 =>
      boxS_bind (box_body (fun m => box_stmt m b) fun h => by have := hm h; simp [declaredBy] at this; exact this.2) (cleans_stmt b) fun _ _ k3 h3 =>
      (boxE_pure (by bv [h1, h2 (bodied k2), h3 (bodied k3)])).stmt
  | m, .return e loc, _ => by
    simp only [boxStmt, resolveStmt]
    exact (boxE_bind (box_return f e loc) fun _ _ _ => boxE_bind (box_expr m e) fun _ _ h2 => boxE_pure (by bv [h2])).stmt
  | m, .var x c e loc, hm => by
    simp only [boxStmt, resolveStmt]
    have hd : m.head? ≠ some true := fits_head hm (by simp [declaredBy])
    exact (boxE_bind (box_declare x loc hd) fun _ _ h1 => boxE_bind (box_expr m e) fun _ _ h2 =>
      boxE_bind (box_define x loc hd) fun _ _ _ => boxE_pure (by bv [h1, h2])).stmt
  | m, .while e b, hm => by
    simp only [boxStmt, resolveStmt]
    exact boxS_bind (box_expr m e).stmt (cleans_expr e) fun _ _ _ h1 =>
      boxS_bind (box_body (fun m => box_stmt m b) fun h => by have := hm h; simpa [declaredBy] using this) (cleans_stmt b) fun _ _ k2 h2 =>
      (boxE_pure (by bv [h1, h2 (bodied k2)])).stmt
  | m, .whileIncrement e b i, hm => by
    simp only [boxStmt, resolveStmt]
    exact boxS_bind (box_expr m e).stmt (cleans_expr e) fun _ _ _ h1 =>
      boxS_bind (box_body (fun m => box_stmt m b) fun h => by have := hm h; simpa [declaredBy] using this) (cleans_stmt b) fun _ _ k2 h2 =>
      (boxE_bind (box_expr m i) fun _ _ h3 => boxE_pure (by bv [h1, h2 (bodied k2), h3])).stmt
termination_by _ s => sizeOf s

theorem box_stmts : ∀ (m : List Bool) (l : List Stmt), BoxS (false :: m) (BoxedStmts (false :: m)) (resolveStmts l) (resolveStmts (boxStmts f (false :: m) l))
  | m, [] => by
    simp only [boxStmts, resolveStmts]
    exact (boxE_pure (by bv [])).stmt
  | m, s :: l => by
    simp only [boxStmts, resolveStmts]
    exact boxS_bind (box_stmt (false :: m) s (fits_real s)) (cleans_stmt s) fun _ _ _ h1 =>
      boxS_bind (box_stmts m l) (fun _ _ _ hn h => resolved_noNew (resolved_stmts l h) hn) fun _ _ _ h2 => (boxE_pure (by bv [h1, h2])).stmt
termination_by _ l => sizeOf l

theorem box_expr : ∀ (m : List Bool) (e : Expr), BoxE m (BoxedExpr m) (resolveExpr e) (resolveExpr (boxExpr f m e))
  | m, .assign x c r loc => by
    simp only [boxExpr, resolveExpr]
    exact boxE_bind (box_expr m r) fun _ _ h1 => boxE_bind (box_local x loc) fun _ _ h2 => boxE_pure (by bv [h1, h2])
  | m, .binary a op b loc => by
    simp only [boxExpr, resolveExpr]
    exact boxE_bind (box_expr m a) fun _ _ h1 => boxE_bind (box_expr m b) fun _ _ h2 => boxE_pure (by bv [h1, h2])
  | m, .call e es loc => by
    simp only [boxExpr, resolveExpr]
    exact boxE_bind (box_expr m e) fun _ _ h1 => boxE_bind (box_exprs m es) fun _ _ h2 => boxE_pure (by bv [h1, h2])
  | m, .function d => by
    simp only [boxExpr, resolveExpr]
    exact boxE_bind (box_fn m _ d) fun _ _ h1 => boxE_pure (by bv [h1])
  | m, .get o n loc => by
    simp only [boxExpr, resolveExpr]
    exact boxE_bind (box_expr m o) fun _ _ h1 => boxE_pure (by bv [h1])
  | m, .getIndex a b loc => by
    simp only [boxExpr, resolveExpr]
    exact boxE_bind (box_expr m a) fun _ _ h1 => boxE_bind (box_expr m b) fun _ _ h2 => boxE_pure (by bv [h1, h2])
  | m, .grouping e => by
    simp only [boxExpr, resolveExpr]
    exact boxE_bind (box_expr m e) fun _ _ h1 => boxE_pure (by bv [h1])
  | m, .literalArray es => by
    simp only [boxExpr, resolveExpr]
    exact boxE_bind (box_exprs m es) fun _ _ h1 => boxE_pure (by bv [h1])
  | m, .literalBool b => by
    simp only [boxExpr, resolveExpr]
    exact boxE_pure (by bv [])
  | m, .literalMap ms => by
    simp only [boxExpr, resolveExpr]
    exact boxE_bind (box_entries m ms) fun _ _ h1 => boxE_pure (by bv [h1])
  | m, .literalNil => by
    simp only [boxExpr, resolveExpr]
    exact boxE_pure (by bv [])
  | m, .literalNumber x => by
    simp only [boxExpr, resolveExpr]
    exact boxE_pure (by bv [])
  | m, .literalString x => by
    simp only [boxExpr, resolveExpr]
    exact boxE_pure (by bv [])
  | m, .logical a op b => by
    simp only [boxExpr, resolveExpr]
    exact boxE_bind (box_expr m a) fun _ _ h1 => boxE_bind (box_expr m b) fun _ _ h2 => boxE_pure (by bv [h1, h2])
  | m, .set a n b loc => by
    simp only [boxExpr, resolveExpr]
    exact boxE_bind (box_expr m a) fun _ _ h1 => boxE_bind (box_expr m b) fun _ _ h2 => boxE_pure (by bv [h1, h2])
  | m, .setIndex a b d loc => by
    simp only [boxExpr, resolveExpr]
    exact boxE_bind (box_expr m a) fun _ _ h1 => boxE_bind (box_expr m b) fun _ _ h2 => boxE_bind (box_expr m d) fun _ _ h3 => boxE_pure (by bv [h1, h2, h3])
  | m, .super c n loc => by
    simp only [boxExpr, resolveExpr]
    exact boxE_bind (box_super loc) fun _ _ h1 => boxE_pure (by bv [h1])
  | m, .unary op e loc => by
    simp only [boxExpr, resolveExpr]
    exact boxE_bind (box_expr m e) fun _ _ h1 => boxE_pure (by bv [h1])
  | m, .variable x c loc => by
    simp only [boxExpr, resolveExpr]
    exact boxE_bind (box_variable x loc) fun _ _ h1 => boxE_pure (by bv [h1])
termination_by _ e => sizeOf e

theorem box_exprs : ∀ (m : List Bool) (l : List Expr), BoxE m (BoxedExprs m) (resolveExprs l) (resolveExprs (boxExprs f m l))
  | m, [] => by
    simp only [boxExprs, resolveExprs]
    exact boxE_pure rfl
  | m, e :: l => by
    simp only [boxExprs, resolveExprs]
    exact boxE_bind (box_expr m e) fun _ _ h1 => boxE_bind (box_exprs m l) fun _ _ h2 => boxE_pure (by bv [h1, h2])
termination_by _ l => sizeOf l

theorem box_entries : ∀ (m : List Bool) (l : List MapEntry), BoxE m (BoxedEntries m) (resolveEntries l) (resolveEntries (boxEntries f m l))
  | m, [] => by
    simp only [boxEntries, resolveEntries]
    exact boxE_pure rfl
  | m, .mk k v :: l => by
    simp only [boxEntries, resolveEntries]
    exact boxE_bind (box_expr m v) fun _ _ h1 => boxE_bind (box_entries m l) fun _ _ h2 => boxE_pure (by bv [h1, h2])
termination_by _ l => sizeOf l

theorem box_methods : ∀ (m : List Bool) (l : List NamedFun), BoxE m (BoxedMethods m) (resolveMethods l) (resolveMethods (boxMethods f m l))
  | m, [] => by
    simp only [boxMethods, resolveMethods]
    exact boxE_pure rfl
  | m, .mk k d :: l => by
    simp only [boxMethods, resolveMethods]
    exact boxE_bind (box_fn m _ d) fun _ _ h1 => boxE_bind (box_methods m l) fun _ _ h2 => boxE_pure (by bv [h1, h2])
termination_by _ l => sizeOf l

theorem box_fn : ∀ (m : List Bool) (ft : FnType) (d : FunDef), BoxE m (BoxedFun m) (resolveFunction ft d) (resolveFunction ft (boxFun f m d))
  | m, ft, .mk ps b k loc => by
    simp only [boxFun, resolveFunction]
    exact boxE_bind (box_function _ (box_scope (boxS_bind (box_params (m := false :: m) (by simp) ps).stmt
      (fun _ _ _ hn h => params_noNew h hn) fun _ _ _ _ => box_stmts m b))) fun _ _ h1 => boxE_pure (by bv [h1])
termination_by _ _ d => sizeOf d
end

end Ws
