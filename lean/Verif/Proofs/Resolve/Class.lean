import Verif.Proofs.Resolve.Settled
import Verif.Spec.Resolved
/-! `this`, `super`, and initializers of local variables. -/
namespace Ws
open Ws.Spec

/-! ### Initializers -/

/-- The item is not a function. -/
def NotFn : Item → Prop
  | .nodes _ | .node _ => True
  | _ => False

theorem resolved_direct_expr {a b rs rs'} (h : Resolved a b rs rs') :
    Wf rs → Quiet b → NotFn b → ∀ x, DirectItem x b →
      ∃ a1 rs1 rs2, Resolved a1 (.node x) rs1 rs2 ∧ Wf rs1 ∧ rs1.scopes.dropLast = rs.scopes.dropLast := by
  induction h with
  | nil => rintro _ _ _ x ⟨n, hn, _⟩; simp at hn
  | methods_nil => exact fun _ _ h => h.elim
  | methods_cons => exact fun _ _ h => h.elim
  | fn => exact fun _ _ h => h.elim
  | cons h h' i i' =>
    rintro hw hq _ x ⟨n, hn, hf, hx⟩
    rcases List.mem_cons.mp hn with rfl | hn
    · exact i hw (hq _ (List.mem_cons_self ..)) trivial x hx
    · obtain ⟨a1, rs1, rs2, h1, h2, h3⟩ := i' (resolved_steps h hw).wf (fun n hn => hq n (List.mem_cons_of_mem _ hn))
        trivial x ⟨n, hn, hf, hx⟩
      refine ⟨a1, rs1, rs2, h1, h2, h3.trans ?_⟩
      exact (resolved_dropLast h hw.nonempty).1 (hq _ (List.mem_cons_self ..))
  | plain ha h i =>
    rintro hw ⟨e, he⟩ _ x hx
    rcases direct_inv hx with rfl | ⟨c, hc, hf, hx⟩
    · exact ⟨_, _, _, .plain ha h, hw, rfl⟩
    · exact i hw (alike_quiet ha he) trivial x ⟨c, hc, hf, hx⟩
  | function h i =>
    intro hw _ _ x hx
    rcases direct_inv hx with rfl | ⟨c, hc, hf, hx⟩
    · exact ⟨_, _, _, .function h, hw, rfl⟩
    · simp only [Node.parts, exprParts, List.mem_singleton] at hc
      subst hc
      simp [Node.isFn] at hf
  | assign h h' i =>
    intro hw _ _ x hx
    rcases direct_inv hx with rfl | ⟨c, hc, hf, hx⟩
    · exact ⟨_, _, _, .assign (c := .placeholder) h h', hw, rfl⟩
    · simp only [Node.parts, exprParts, List.mem_singleton] at hc
      subst hc
      exact i hw ⟨_, rfl⟩ trivial x hx
  | «variable» h =>
    intro hw _ _ x hx
    rcases direct_inv hx with rfl | ⟨c, hc, hf, hx⟩
    · exact ⟨_, _, _, .variable (c := .placeholder) h, hw, rfl⟩
    · simp [Node.parts, exprParts] at hc
  | super h =>
    intro hw _ _ x hx
    rcases direct_inv hx with rfl | ⟨c, hc, hf, hx⟩
    · exact ⟨_, _, _, .super (c := .placeholder) h, hw, rfl⟩
    · simp [Node.parts, exprParts] at hc
  | _ => rintro _ ⟨e, he⟩; cases he

theorem var_inv {a x c e loc rs rs'} (h : Resolved a (.node (.stmt (.var x c e loc))) rs rs') :
    ∃ a' rs1 rs2, declare x loc rs = .ok c rs1 ∧ Resolved a' (.node (.expr e)) rs1 rs2 := by
  generalize hb : Item.node (.stmt (.var x c e loc)) = b at h
  cases h with
  | plain ha _ => cases hb; cases ha
  | var h h' _ => cases hb; exact ⟨_, _, _, h, h'⟩
  | _ => cases hb

theorem variable_inv {a x c loc rs rs'} (h : Resolved a (.node (.expr (.variable x c loc))) rs rs') :
    resolveVariable x loc rs = .ok c rs' := by
  generalize hb : Item.node (.expr (.variable x c loc)) = b at h
  cases h with
  | plain ha _ => cases hb; cases ha
  | «variable» h => cases hb; exact h
  | _ => cases hb

/-- The initializer of a local variable does not read it. -/
theorem var_not_own {a x c e loc rs rs'} (h : Resolved a (.node (.stmt (.var x c e loc))) rs rs') (hw : Wf rs)
    (hl : 2 ≤ rs.scopes.length) : NotOwnInitializer (.stmt (.var x c e loc)) := by
  intro c' loc' hd
  obtain ⟨a', rs1, rs2, h1, h2⟩ := var_inv h
  have st := declare_steps h1 hw
  obtain ⟨_, rs3, rs4, h3, hw3, h4⟩ := resolved_direct_expr h2 st.wf ⟨_, rfl⟩ trivial _ hd
  obtain ⟨s, s', ss, v, e, rfl, rfl, ht, hv, hx⟩ := declare_ok h1 hw.nonempty
  have hss : ss ≠ [] := by
    rintro rfl
    rw [e] at hl
    simp at hl
  have hv' : v.definedState = .declaredVar := by
    rcases hx with ⟨hx, _⟩ | ⟨hx, _⟩
    · exact hx
    · exact absurd hx hss
  have := (variable_ok (variable_inv h3) hw3.nonempty).2.2
  cases hs : rs3.scopes with
  | nil => exact absurd hs hw3.nonempty
  | cons t ts =>
    rw [hs] at h4
    cases ss with
    | nil => exact absurd rfl hss
    | cons s2 ss =>
      cases ts with
      | nil => simp at h4
      | cons t2 ts =>
        simp only [List.dropLast_cons_cons, List.cons.injEq] at h4
        have h5 := h4.1
        subst h5
        exact this t (t2 :: ts) v hs hv hv'

/-! ### `this` and `super` -/

/-- The scope has neither `this` nor `super`. -/
def Clean (s : List Str) : Prop := c!"this" ∉ s ∧ c!"super" ∉ s

theorem clean_nil : Clean [] := ⟨List.not_mem_nil, List.not_mem_nil⟩

/-- The class type agrees with the scopes. -/
structure ClassCtx (ct : ClassType) (Γ : Names) : Prop where
  global : ∀ (i : Nat) g, Γ.length = i + 1 → Γ[i]? = some g → Clean g
  cls : ct ≠ .noClass → ∃ d : Nat, Γ[d]? = some [c!"this"] ∧ (∀ d' < d, ∀ s, Γ[d']? = some s → Clean s) ∧
    (ct = .subclass → Γ[d + 1]? = some [c!"super"])

/-- Only scopes without `this` and `super` change, and they do not get them. -/
structure Mild (Γ Γ' : Names) : Prop where
  length : Γ'.length = Γ.length
  scope : ∀ (i : Nat) s s', Γ[i]? = some s → Γ'[i]? = some s' → s = s' ∨ Clean s ∧ Clean s'

theorem Mild.refl {Γ} : Mild Γ Γ := ⟨rfl, fun i s s' h h' => .inl (by rw [h] at h'; cases h'; rfl)⟩

theorem Mild.trans {Γ Γ' Γ''} (h : Mild Γ Γ') (h' : Mild Γ' Γ'') : Mild Γ Γ'' := by
  refine ⟨h'.length.trans h.length, ?_⟩
  intro i s s'' hs hs''
  obtain ⟨s', hs'⟩ : ∃ s', Γ'[i]? = some s' := by
    have : i < Γ'.length := by
      rw [h.length]
      exact (List.getElem?_eq_some_iff.mp hs).1
    exact ⟨Γ'[i], List.getElem?_eq_getElem this⟩
  rcases h.scope i s s' hs hs' with rfl | ⟨a, b⟩
  · exact h'.scope i s s'' hs' hs''
  · rcases h'.scope i s' s'' hs' hs'' with rfl | ⟨_, c⟩
    · exact .inr ⟨a, b⟩
    · exact .inr ⟨a, c⟩

theorem Mild.tail {Γ Γ'} (h : Mild Γ Γ') : Mild Γ.tail Γ'.tail := by
  refine ⟨by simp [h.length], ?_⟩
  intro i s s' hs hs'
  rw [List.getElem?_tail] at hs hs'
  exact h.scope _ s s' hs hs'

theorem Mild.get {Γ Γ'} (h : Mild Γ Γ') {i : Nat} {s'} (hs : Γ'[i]? = some s') :
    ∃ s, Γ[i]? = some s ∧ (s = s' ∨ Clean s ∧ Clean s') := by
  have : i < Γ.length := by
    rw [← h.length]
    exact (List.getElem?_eq_some_iff.mp hs).1
  exact ⟨Γ[i], List.getElem?_eq_getElem this, h.scope i _ s' (List.getElem?_eq_getElem this) hs⟩

theorem Mild.get' {Γ Γ'} (h : Mild Γ Γ') {i : Nat} {s} (hs : Γ[i]? = some s) :
    ∃ s', Γ'[i]? = some s' ∧ (s = s' ∨ Clean s ∧ Clean s') := by
  have : i < Γ'.length := by
    rw [h.length]
    exact (List.getElem?_eq_some_iff.mp hs).1
  exact ⟨Γ'[i], List.getElem?_eq_getElem this, h.scope i s _ hs (List.getElem?_eq_getElem this)⟩

theorem not_clean_this : ¬ Clean [c!"this"] := fun h => h.1 (by simp)
theorem not_clean_super : ¬ Clean [c!"super"] := fun h => h.2 (by simp)

theorem ClassCtx.mild {ct Γ Γ'} (h : ClassCtx ct Γ) (hm : Mild Γ Γ') : ClassCtx ct Γ' where
  global i g hl hg := by
    obtain ⟨s, hs, e⟩ := hm.get hg
    rcases e with rfl | ⟨_, e⟩
    · exact h.global i s (by rw [← hm.length, hl]) hs
    · exact e
  cls hc := by
    obtain ⟨d, h1, h2, h3⟩ := h.cls hc
    refine ⟨d, ?_, ?_, ?_⟩
    · obtain ⟨s, hs, e⟩ := hm.get' h1
      rcases e with rfl | ⟨e, _⟩
      · exact hs
      · exact absurd e not_clean_this
    · intro d' hd s hs
      obtain ⟨t, ht, e⟩ := hm.get hs
      rcases e with rfl | ⟨_, e⟩
      · exact h2 d' hd t ht
      · exact e
    · intro hsub
      obtain ⟨s, hs, e⟩ := hm.get' (h3 hsub)
      rcases e with rfl | ⟨e, _⟩
      · exact hs
      · exact absurd e not_clean_super

/-- The innermost scope has neither `this` nor `super`. -/
def HeadClean (Γ : Names) : Prop := ∀ s, Γ[0]? = some s → Clean s

theorem HeadClean.mild {Γ Γ'} (h : HeadClean Γ) (hm : Mild Γ Γ') : HeadClean Γ' := by
  intro s hs
  obtain ⟨t, ht, e⟩ := hm.get hs
  rcases e with rfl | ⟨_, e⟩
  · exact h t ht
  · exact e

theorem ClassCtx.push {ct ct' Γ} (h : ClassCtx ct Γ) (hΓ : Γ ≠ []) (s : List Str)
    (hc : ct' ≠ .noClass → ∃ d : Nat, (s :: Γ)[d]? = some [c!"this"] ∧
      (∀ d' < d, ∀ t, (s :: Γ)[d']? = some t → Clean t) ∧ (ct' = .subclass → (s :: Γ)[d + 1]? = some [c!"super"])) :
    ClassCtx ct' (s :: Γ) where
  global i g hl hg := by
    cases i with
    | zero => simp only [List.length_cons, Nat.zero_add, Nat.add_eq_right, List.length_eq_zero_iff] at hl; exact absurd hl hΓ
    | succ i => exact h.global i g (by simpa using hl) hg
  cls := hc

/-- Inside a block or a function. -/
theorem ClassCtx.enter {ct Γ} (h : ClassCtx ct Γ) (hΓ : Γ ≠ []) : ClassCtx ct ([] :: Γ) := by
  refine h.push hΓ [] ?_
  intro hc
  obtain ⟨d, h1, h2, h3⟩ := h.cls hc
  refine ⟨d + 1, h1, ?_, h3⟩
  intro d' hd t ht
  cases d' with
  | zero => cases ht; exact ⟨by simp, by simp⟩
  | succ d' => exact h2 d' (by omega) t ht

/-- A name other than `this` and `super`. -/
def Plain (x : Str) : Prop := x ≠ c!"this" ∧ x ≠ c!"super"

theorem clean_addName {x : Str} {s : List Str} (hx : Plain x) (hs : Clean s) : Clean (addName x s) := by
  unfold addName
  split
  · exact hs
  · constructor
    · simp only [List.mem_append, List.mem_singleton, not_or]
      exact ⟨hs.1, hx.1.symm⟩
    · simp only [List.mem_append, List.mem_singleton, not_or]
      exact ⟨hs.2, hx.2.symm⟩

theorem declare_mild {x c Γ} (hx : Plain x) (hh : HeadClean Γ) : Mild Γ (Event.after Γ (.declare x c)) := by
  cases Γ with
  | nil => exact .refl
  | cons s ss =>
    refine ⟨rfl, ?_⟩
    intro i t t' ht ht'
    cases i with
    | zero =>
      cases ht; cases ht'
      exact .inr ⟨hh s rfl, clean_addName hx (hh s rfl)⟩
    | succ i =>
      simp only [Event.after, List.getElem?_cons_succ] at ht ht'
      rw [ht] at ht'
      cases ht'
      exact .inl rfl

theorem addGlobal_mild {x Γ} (hx : Plain x) (hg : ∀ (i : Nat) g, Γ.length = i + 1 → Γ[i]? = some g → Clean g) :
    Mild Γ (addGlobal x Γ) := by
  induction Γ with
  | nil => exact .refl
  | cons s ss ih =>
    cases ss with
    | nil =>
      refine ⟨rfl, ?_⟩
      intro i t t' ht ht'
      cases i with
      | zero =>
        cases ht; cases ht'
        exact .inr ⟨hg 0 s rfl rfl, clean_addName hx (hg 0 s rfl rfl)⟩
      | succ i => simp at ht
    | cons s2 ss =>
      rw [show addGlobal x (s :: s2 :: ss) = s :: addGlobal x (s2 :: ss) from by rw [addGlobal]; simp]
      have := ih (fun i g hl h => hg (i + 1) g (by simpa using hl) h)
      refine ⟨by simp [this.length], ?_⟩
      intro i t t' ht ht'
      cases i with
      | zero => cases ht; cases ht'; exact .inl rfl
      | succ i => exact this.scope i t t' ht ht'

theorem use_mild {x c ct Γ} (hx : Plain x) (h : ClassCtx ct Γ) : Mild Γ (Event.after Γ (.use x c)) := by
  rw [Event.after]
  split
  · exact .refl
  · exact addGlobal_mild hx h.global

theorem classUse_plain {x c Γ} (hx : Plain x) : ClassUse Γ (.use x c) :=
  ⟨fun e => absurd e hx.1, fun e => absurd e hx.2⟩

/-- A use of a name that is bound. -/
theorem use_bound {x c Γ s} {d : Nat} (h : EventOk Γ (.use x c)) (hd : Γ[d]? = some s) (hx : x ∈ s)
    (hb : ∀ d' < d, ∀ t, Γ[d']? = some t → x ∉ t) : c.distance = d ∧ ∃ i : Nat, s[i]? = some x ∧ c.index = i % 256 := by
  rcases h with ⟨i, ⟨⟨t, ht, hi⟩, hb'⟩, hc⟩ | ⟨hu, _⟩
  · have : c.distance = d := by
      rcases Nat.lt_trichotomy c.distance d with h | h | h
      · exact absurd (List.mem_of_getElem? hi) (hb _ h t ht)
      · exact h
      · exact absurd hx (hb' d h s hd)
    refine ⟨this, i, ?_, hc⟩
    rw [this, hd] at ht
    cases ht
    exact hi
  · exact absurd hx (hu s (List.mem_of_getElem? hd))

theorem use_this {c ct Γ} (h : EventOk Γ (.use c!"this" c)) (hc : ClassCtx ct Γ) (hct : ct ≠ .noClass) :
    ClassUse Γ (.use c!"this" c) ∧ Mild Γ (Event.after Γ (.use c!"this" c)) := by
  obtain ⟨d, h1, h2, _⟩ := hc.cls hct
  obtain ⟨e, i, hi, hix⟩ := use_bound h h1 (by simp) (fun d' hd t ht => (h2 d' hd t ht).1)
  have hi0 : i = 0 := by
    cases i with
    | zero => rfl
    | succ i => simp at hi
  refine ⟨⟨fun _ => ⟨?_, by rw [hix, hi0], ?_⟩, fun e => by simp at e⟩, ?_⟩
  · rw [e]; exact h1
  · intro d' hd t ht
    exact (h2 d' (by omega) t ht).1
  · rw [Event.after, if_pos ⟨_, List.mem_of_getElem? h1, by simp⟩]
    exact .refl

theorem use_super {c Γ} (h : EventOk Γ (.use c!"super" c)) (hc : ClassCtx .subclass Γ) :
    ClassUse Γ (.use c!"super" c) ∧ Mild Γ (Event.after Γ (.use c!"super" c)) := by
  obtain ⟨d, h1, h2, h3⟩ := hc.cls (by simp)
  obtain ⟨e, i, hi, hix⟩ := use_bound h (h3 rfl) (by simp) (by
    intro d' hd t ht
    rcases Nat.lt_or_eq_of_le (Nat.le_of_lt_succ hd) with hd | rfl
    · exact (h2 d' hd t ht).2
    · rw [h1] at ht
      cases ht
      simp)
  have hi0 : i = 0 := by
    cases i with
    | zero => rfl
    | succ i => simp at hi
  refine ⟨⟨fun e => by simp at e, fun _ => ⟨d, e, by rw [hix, hi0], h1, h3 rfl, ?_⟩⟩, ?_⟩
  · intro d' hd t ht
    exact (h2 d' hd t ht).1
  · rw [Event.after, if_pos ⟨_, List.mem_of_getElem? (h3 rfl), by simp⟩]
    exact .refl

/-- What one item does to the classes. -/
structure ClassOk (es : List Event) (rs rs' : Resolver) : Prop where
  use : AtEach ClassUse rs.names es
  mild : Mild rs.names rs'.names

theorem ClassOk.trans {es es' rs rs1 rs2} (h : ClassOk es rs rs1) (hs : Steps es rs rs1) (h' : ClassOk es' rs1 rs2) :
    ClassOk (es ++ es') rs rs2 :=
  ⟨atEach_append h.use (by rw [← hs.names]; exact h'.use), h.mild.trans h'.mild⟩

theorem local_class {x loc c} {rs rs' : Resolver} (h : resolveLocalVariable x loc rs = .ok c rs') (hw : Wf rs)
    (hx : Plain x) (hc : ClassCtx rs.classType rs.names) : ClassOk [.use x c] rs rs' := by
  have st := local_steps h hw
  refine ⟨atEach_one (classUse_plain hx), ?_⟩
  rw [st.names]
  exact use_mild (c := c) hx hc

theorem variable_class {x loc c} {rs rs' : Resolver} (h : resolveVariable x loc rs = .ok c rs') (hw : Wf rs)
    (hx : x ≠ c!"super") (hc : ClassCtx rs.classType rs.names) : ClassOk [.use x c] rs rs' := by
  obtain ⟨h1, h2, _⟩ := variable_ok h hw.nonempty
  by_cases hth : x = c!"this"
  · subst hth
    have st := local_steps h1 hw
    have := use_this (st.ok [] _ [] rfl) hc (h2 rfl)
    refine ⟨atEach_one this.1, ?_⟩
    rw [st.names]
    exact this.2
  · exact local_class h1 hw ⟨hth, hx⟩ hc

theorem super_class {loc c} {rs rs' : Resolver} (h : resolveSuper loc rs = .ok c rs') (hw : Wf rs)
    (hc : ClassCtx rs.classType rs.names) : ClassOk [.use c!"super" c] rs rs' := by
  obtain ⟨h1, h2⟩ := super_ok h
  have st := local_steps h1 hw
  rw [h2] at hc
  have := use_super (st.ok [] _ [] rfl) hc
  refine ⟨atEach_one this.1, ?_⟩
  rw [st.names]
  exact this.2

theorem define_class {x loc} {rs rs' : Resolver} (h : define x loc rs = .ok () rs') (hw : Wf rs)
    (hx : Plain x) (hh : HeadClean rs.names) : ClassOk [.declare x none] rs rs' := by
  refine ⟨atEach_one trivial, ?_⟩
  rw [(define_steps h hw).names]
  exact declare_mild (c := none) hx hh

theorem declare_class {x loc c} {rs rs' : Resolver} (h : declare x loc rs = .ok c rs') (hw : Wf rs)
    (hx : Plain x) (hh : HeadClean rs.names) : ClassOk [.declare x (some c)] rs rs' := by
  refine ⟨atEach_one trivial, ?_⟩
  rw [(declare_steps h hw).names]
  exact declare_mild (c := some c) hx hh

theorem params_class {ps} {rs rs' : Resolver} (h : defineParams ps rs = .ok () rs') (hw : Wf rs)
    (hx : ∀ p ∈ ps, Plain p.name) (hh : HeadClean rs.names) :
    ClassOk (ps.map fun p => .declare p.name none) rs rs' := by
  induction ps generalizing rs with
  | nil =>
    cases (pure_ok.mp h).2
    exact ⟨atEach_nil, .refl⟩
  | cons p ps ih =>
    obtain ⟨_, t, h1, h2⟩ := bind_ok.mp h
    have s1 := define_steps h1 hw
    have c1 := define_class h1 hw (hx p (by simp)) hh
    exact c1.trans s1 (ih h2 s1.wf (fun q hq => hx q (by simp [hq])) (hh.mild c1.mild))

theorem names_ne {rs : Resolver} (hw : Wf rs) : rs.names ≠ [] := by
  intro h
  exact hw.nonempty (List.map_eq_nil_iff.mp h)

theorem endScope_names (rs : Resolver) : rs.endScope.names = rs.names.tail := by
  simp [Resolver.names, Resolver.endScope, List.map_tail]

theorem resolved_class {a b rs rs'} (h : Resolved a b rs rs') :
    Wf rs → (∀ x, InItem x b → Ordinary x) → ClassCtx rs.classType rs.names → (Quiet b ∨ HeadClean rs.names) →
      ClassOk (itemEvents b) rs rs' := by
  induction h with
  | nil => exact fun _ _ _ _ => ⟨atEach_nil, .refl⟩
  | methods_nil =>
    intro _ _ _ _
    simp only [itemEvents, methodsEvents]
    exact ⟨atEach_nil, .refl⟩
  | cons h h' i i' =>
    intro hw ho hc hq
    have c1 := i hw (fun x hx => ho x ⟨_, List.mem_cons_self .., hx⟩) hc
      (hq.imp (fun q => q _ (List.mem_cons_self ..)) id)
    have s1 := resolved_steps h hw
    refine c1.trans s1 (i' s1.wf ?_ ?_ ?_)
    · rintro x ⟨n, hn, hx⟩
      exact ho x ⟨n, List.mem_cons_of_mem _ hn, hx⟩
    · rw [(resolved_shape h hw.nonempty).classType]
      exact hc.mild c1.mild
    · exact hq.imp (fun q n hn => q n (List.mem_cons_of_mem _ hn)) (fun q => q.mild c1.mild)
  | methods_cons h h' i i' =>
    intro hw ho hc hq
    simp only [itemEvents, methodsEvents]
    have c1 := i hw (fun x hx => ho x ⟨_, List.mem_cons_self .., hx⟩) hc (.inl trivial)
    have s1 := resolved_steps h hw
    refine c1.trans s1 (i' s1.wf ?_ ?_ (.inl trivial))
    · rintro x ⟨n, hn, hx⟩
      exact ho x ⟨n, List.mem_cons_of_mem _ hn, hx⟩
    · rw [(resolved_shape h hw.nonempty).classType]
      exact hc.mild c1.mild
  | plain ha _ i =>
    intro hw ho hc hq
    rw [show itemEvents (.node _) = _ from alike_events ha]
    refine i hw ?_ hc ?_
    · rintro x ⟨n, hn, hx⟩
      exact ho x (.step hn hx)
    · rcases hq with ⟨e, he⟩ | hq
      · exact .inl (alike_quiet ha he)
      · exact .inr hq
  | function _ i =>
    intro hw ho hc _
    simp only [itemEvents, nodeEvents, exprEvents]
    refine i hw (fun x hx => ho x (.step ?_ hx)) hc (.inl trivial)
    simp [Node.parts, exprParts]
  | @assign x c c' r r' loc rs rs1 rs2 h h' i =>
    intro hw ho hc _
    simp only [itemEvents, nodeEvents, exprEvents]
    have c1 := i hw (fun x hx => ho x (.step (by simp [Node.parts, exprParts]) hx)) hc (.inl ⟨_, rfl⟩)
    have s1 := resolved_steps h hw
    have ho' := ho _ .refl
    refine c1.trans s1 (local_class h' s1.wf ho' ?_)
    rw [(resolved_shape h hw.nonempty).classType]
    exact hc.mild c1.mild
  | «variable» h =>
    intro hw ho hc _
    simp only [itemEvents, nodeEvents, exprEvents]
    exact variable_class h hw (ho _ .refl) hc
  | super h =>
    intro hw ho hc _
    simp only [itemEvents, nodeEvents, exprEvents]
    exact super_class h hw hc
  | @block b b' rs rs1 hl h i =>
    intro hw ho hc _
    simp only [itemEvents, nodeEvents, stmtEvents]
    have h1 := enter_steps hw hl
    have c2 := i h1.wf (fun x ⟨n, hn, hx⟩ => ho x (.step hn hx)) (hc.enter (names_ne hw))
      (.inr (fun s hs => by cases hs; exact clean_nil))
    rw [stmtsEvents_eq]
    refine ⟨?_, ?_⟩
    · refine atEach_append (a := [_]) (atEach_one trivial) (atEach_append c2.use (atEach_one trivial))
    · have := c2.mild.tail
      rw [endScope_names]
      exact this
  | «return» h _ i =>
    intro hw ho hc _
    cases (return_ok h).1
    simp only [itemEvents, nodeEvents, stmtEvents]
    exact i hw (fun x hx => ho x (.step (by simp [Node.parts, stmtParts]) hx)) hc (.inl ⟨_, rfl⟩)
  | @var x c c' e e' loc rs rs1 rs2 rs3 h h' h'' i =>
    intro hw ho hc hq
    have hq := hq.resolve_left (by rintro ⟨_, q⟩; cases q)
    have hx : Plain x := ho _ .refl
    simp only [itemEvents, nodeEvents, stmtEvents]
    have s1 := declare_steps h hw
    have c1 := declare_class h hw hx hq
    have hc1 := hc.mild c1.mild
    rw [← (declare_shape h hw.nonempty).classType] at hc1
    have c2 := i s1.wf (fun x hx => ho x (.step (by simp [Node.parts, stmtParts]) hx)) hc1 (.inl ⟨_, rfl⟩)
    have s2 := resolved_steps h' s1.wf
    have c3 := define_class h'' s2.wf hx ((hq.mild c1.mild).mild c2.mild)
    refine ⟨(c1.trans s1 c2).use, (c1.mild.trans c2.mild).trans c3.mild⟩
  | @«fun» x d d' rs rs1 rs2 h h' i =>
    intro hw ho hc hq
    have hq := hq.resolve_left (by rintro ⟨_, q⟩; cases q)
    have hx : Plain x := ho _ .refl
    simp only [itemEvents, nodeEvents, stmtEvents]
    have s1 := define_steps h hw
    have c1 := define_class h hw hx hq
    have hc1 := hc.mild c1.mild
    rw [← (define_shape h hw.nonempty).classType] at hc1
    exact c1.trans s1 (i s1.wf (fun x hx => ho x (.step (by simp [Node.parts, stmtParts, NamedFun.funDef]) hx)) hc1 (.inl trivial))
  | @«class» x ms ms' loc rs rs1 rs2 rs3 h hl h' hm i =>
    intro hw ho hc hq
    have hq := hq.resolve_left (by rintro ⟨_, q⟩; cases q)
    have hx : Plain x := ⟨(ho _ .refl).1, (ho _ .refl).2.1⟩
    simp only [itemEvents, nodeEvents, stmtEvents]
    have s1 := define_steps h (wf_types hw ..)
    have c1 := define_class h (wf_types hw ..) hx hq
    have s2 := enter_define_steps h' s1.wf hl
    have hc1 : ClassCtx rs.classType rs1.names := hc.mild c1.mild
    have e2 : rs2.names = [c!"this"] :: rs1.names := s2.names
    have ct2 : rs2.classType = .plainClass :=
      (define_shape h' (enter_nonempty _)).classType.trans (define_shape h hw.nonempty).classType
    have hc2 : ClassCtx rs2.classType rs2.names := by
      rw [e2, ct2]
      refine hc1.push (names_ne s1.wf) _ (fun _ => ⟨0, rfl, ?_, ?_⟩)
      · intro d hd
        omega
      · intro hh
        cases hh
    have c3 := i s2.wf (fun x ⟨m, hm, hx⟩ => ho x (.step (by
      simp only [Node.parts, stmtParts, Option.toList_none, List.map_nil, List.nil_append, List.mem_map]
      exact ⟨m, hm, rfl⟩) hx)) hc2 (.inl trivial)
    have s3 := resolved_steps hm s2.wf
    refine ⟨?_, ?_⟩
    · refine atEach_append (a := [_]) (atEach_one trivial) ?_
      refine atEach_append (a := [_]) (atEach_one trivial) ?_
      refine atEach_append ?_ (atEach_one trivial)
      have := c3.use
      rw [s2.names, s1.names] at this
      exact this
    · have := c3.mild.tail
      rw [e2, ← endScope_names] at this
      exact c1.mild.trans this
  | @subclass x e e' ms ms' loc rs rs1 rs2 rs3 rs4 rs5 h _ he hl h' hl' h'' hm i i' =>
    intro hw ho hc hq
    have hq := hq.resolve_left (by rintro ⟨_, q⟩; cases q)
    have hx : Plain x := ⟨(ho _ .refl).1, (ho _ .refl).2.1⟩
    simp only [itemEvents, nodeEvents, stmtEvents]
    have s1 := define_steps h (wf_types hw ..)
    have c1 := define_class h (wf_types hw ..) hx hq
    have hc1 : ClassCtx rs.classType rs1.names := hc.mild c1.mild
    have s2 := resolved_steps he s1.wf
    have c2 : ClassOk (exprEvents e') rs1 rs2 := by
      obtain ⟨y, c, loc', rfl, hy⟩ := (ho _ .refl).2.2 e' rfl
      have hv := variable_inv he
      simp only [exprEvents]
      have hl := (variable_ok hv s1.wf.nonempty).1
      have hys : y ≠ c!"super" := ho (.expr (.variable y c loc')) (.step (by simp [Node.parts, stmtParts]) .refl)
      have st := local_steps hl s1.wf
      refine ⟨atEach_one (classUse_plain ⟨hy, hys⟩), ?_⟩
      rw [st.names]
      exact use_mild (c := c) ⟨hy, hys⟩ hc1
    have s3 := enter_define_steps h' s2.wf hl
    have s4 := enter_define_steps h'' s3.wf hl'
    have hc2 := hc1.mild c2.mild
    have e3 : rs3.names = [c!"super"] :: rs2.names := s3.names
    have e4 : rs4.names = [c!"this"] :: rs3.names := s4.names
    have ct4 : rs4.classType = .subclass := by
      rw [(define_shape h'' (enter_nonempty _)).classType]
      show rs3.classType = _
      rw [(define_shape h' (enter_nonempty _)).classType]
      show rs2.classType = _
      rw [(resolved_shape he s1.wf.nonempty).classType, (define_shape h hw.nonempty).classType]
    have hc4 : ClassCtx rs4.classType rs4.names := by
      rw [e4, ct4, e3]
      have : ClassCtx .noClass ([c!"super"] :: rs2.names) := hc2.push (names_ne s2.wf) _ (fun hh => absurd rfl hh)
      refine this.push (by simp) _ (fun _ => ⟨0, rfl, ?_, fun _ => rfl⟩)
      intro d hd
      omega
    have c5 := i' s4.wf (fun x ⟨m, hm, hx⟩ => ho x (.step (by
      simp only [Node.parts, stmtParts, Option.toList_some, List.map_cons, List.map_nil, List.cons_append,
        List.nil_append, List.mem_cons, List.mem_map]
      exact .inr ⟨m, hm, rfl⟩) hx)) hc4 (.inl trivial)
    refine ⟨?_, ?_⟩
    · refine atEach_append (a := [_]) (atEach_one trivial) ?_
      have e1 : rs1.names = namesAfter rs.names [.declare x none] := s1.names
      rw [← e1]
      refine atEach_append c2.use ?_
      have e2 : rs2.names = namesAfter rs1.names (exprEvents e') := s2.names
      rw [← e2]
      refine atEach_append (a := [_]) (atEach_one trivial) ?_
      refine atEach_append (a := [_]) (atEach_one trivial) ?_
      have := c5.use
      rw [e4, e3] at this
      refine atEach_append this ?_
      exact atEach_append (a := [_]) (atEach_one trivial) (atEach_one trivial)
    · have := c5.mild.tail.tail
      rw [e4, e3, ← endScope_names, ← endScope_names] at this
      exact (c1.mild.trans c2.mild).trans this
  | @fn ft ps b b' k loc rs rs1 rs2 hl h hb i =>
    intro hw ho hc _
    simp only [itemEvents, funEvents]
    have s1 := enter_steps hw hl
    have hh : HeadClean rs.enter.names := fun s hs => by cases hs; exact clean_nil
    have c2 := params_class h (wf_types s1.wf ..) (ho _ .refl) hh
    have s2 := params_steps h (wf_types s1.wf ..)
    have hc1 : ClassCtx rs.classType rs.enter.names := hc.enter (names_ne hw)
    have hc2 : ClassCtx rs.classType rs1.names := hc1.mild c2.mild
    have ct : rs1.classType = rs.classType := (params_shape h (by simp [Resolver.enter])).classType
    rw [← ct] at hc2
    have c3 := i s2.wf (fun x ⟨n, hn, hx⟩ => ho x (.step hn hx)) hc2 (.inr (hh.mild c2.mild))
    rw [stmtsEvents_eq]
    refine ⟨?_, ?_⟩
    · refine atEach_append (a := [_]) (atEach_one trivial) ?_
      refine atEach_append ?_ (atEach_one trivial)
      exact (c2.trans s2 c3).use
    · have := (c2.mild.trans c3.mild).tail
      show Mild _ rs2.endScope.names
      rw [endScope_names]
      exact this

end Ws
