import Verif.Proofs.Resolve.State
/-! The resolver follows the events of the program. -/
namespace Ws
open Ws.Spec

theorem define_ok {x loc} {rs rs' : Resolver} (h : define x loc rs = .ok () rs') (hn : rs.scopes ≠ []) :
    ∃ s s' ss, rs.scopes = s :: ss ∧ rs' = { rs with scopes := s' :: ss } ∧ Touched x s s' ∧
      (s'.get x).map (·.definedState) = some .definedVar ∧
      ((s.get x).map (·.definedState) = some .definedVar → ss = []) := by
  rcases define_spec x loc rs hn with ⟨_, h'⟩ | ⟨s, s', ss, h1, h2, h3⟩
  · rw [h] at h'; cases h'
  · rw [h] at h2
    cases h2
    exact ⟨s, s', ss, h1, rfl, h3⟩

theorem declare_ok {x loc c} {rs rs' : Resolver} (h : declare x loc rs = .ok c rs') (hn : rs.scopes ≠ []) :
    ∃ s s' ss v, rs.scopes = s :: ss ∧ c = ⟨v.slotIndex % 256⟩ ∧ rs' = { rs with scopes := s' :: ss } ∧
      Touched x s s' ∧ s'.get x = some v ∧
      ((v.definedState = .declaredVar ∧ (∀ w, s.get x = some w → w.definedState = .undefinedVar)) ∨
        ss = [] ∧ s' = s ∧ v.definedState ≠ .undefinedVar) := by
  rcases declare_spec x loc rs hn with ⟨_, h'⟩ | ⟨s, s', ss, v, h1, h2, h3⟩
  · rw [h] at h'; cases h'
  · rw [h] at h2
    cases h2
    exact ⟨s, s', ss, v, h1, rfl, rfl, h3⟩

theorem local_ok {x loc c} {rs rs' : Resolver} (h : resolveLocalVariable x loc rs = .ok c rs') (hn : rs.scopes ≠ []) :
    (∃ before s after v, rs.scopes = before ++ s :: after ∧ Unbound x before ∧ s.get x = some v ∧
      c = ⟨before.length % 65536, v.slotIndex % 256⟩ ∧ rs' = rs) ∨
    (∃ before g, rs.scopes = before ++ [g] ∧ Unbound x rs.scopes ∧ g.length ≤ varLocMaxDistance ∧
      c = ⟨before.length % 65536, g.length % 256⟩ ∧
      rs' = { rs with scopes := before ++ [g.insertNew x ⟨g.length, .undefinedVar⟩] }) := by
  rcases local_spec x loc rs hn with ⟨_, h'⟩ | ⟨b, s, a, v, h1, h2, h3, h4⟩ | ⟨b, g, h1, h2, h3, h4⟩
  · rw [h] at h'; cases h'
  · rw [h] at h4
    cases h4
    exact .inl ⟨b, s, a, v, h1, h2, h3, rfl, rfl⟩
  · rw [h] at h4
    cases h4
    exact .inr ⟨b, g, h1, h2, h3, rfl, rfl⟩

theorem variable_ok {x loc c} {rs rs' : Resolver} (h : resolveVariable x loc rs = .ok c rs') (hn : rs.scopes ≠ []) :
    resolveLocalVariable x loc rs = .ok c rs' ∧ (x = c!"this" → rs.classType ≠ .noClass) ∧
      ∀ s ss v, rs.scopes = s :: ss → s.get x = some v → v.definedState ≠ .declaredVar := by
  rcases variable_spec x loc rs hn with ⟨_, h'⟩ | ⟨h', h''⟩
  · rw [h] at h'; cases h'
  · rw [← h']
    exact ⟨h, h''⟩

theorem super_ok {loc c} {rs rs' : Resolver} (h : resolveSuper loc rs = .ok c rs') :
    resolveLocalVariable c!"super" loc rs = .ok c rs' ∧ rs.classType = .subclass := by
  rcases super_spec loc rs with ⟨_, h'⟩ | ⟨h', h''⟩
  · rw [h] at h'; cases h'
  · rw [← h']
    exact ⟨h, h''⟩

theorem return_ok {e loc} {rs rs' : Resolver} (h : checkReturn e loc rs = .ok () rs') :
    rs' = rs ∧ rs.functionType ≠ .noFunction ∧ (rs.functionType = .initializer → e = .literalNil) := by
  rcases return_spec e loc rs with ⟨_, h'⟩ | ⟨h', h''⟩
  · rw [h] at h'; cases h'
  · rw [h] at h'
    cases h'
    exact ⟨rfl, h''⟩

/-- The states have the same types and the same number of scopes, of which there is at least one. -/
structure SameShape (rs rs' : Resolver) : Prop where
  functionType : rs'.functionType = rs.functionType
  classType : rs'.classType = rs.classType
  length : rs'.scopes.length = rs.scopes.length
  nonempty : rs'.scopes ≠ []

theorem SameShape.trans {a b c : Resolver} (h : SameShape a b) (h' : SameShape b c) : SameShape a c :=
  ⟨h'.1.trans h.1, h'.2.trans h.2, h'.3.trans h.3, h'.4⟩

theorem define_shape {x loc} {rs rs' : Resolver} (h : define x loc rs = .ok () rs') (hn : rs.scopes ≠ []) :
    SameShape rs rs' := by
  obtain ⟨s, s', ss, e, rfl, _⟩ := define_ok h hn
  exact ⟨rfl, rfl, by simp [e], by simp⟩

theorem declare_shape {x loc c} {rs rs' : Resolver} (h : declare x loc rs = .ok c rs') (hn : rs.scopes ≠ []) :
    SameShape rs rs' := by
  obtain ⟨s, s', ss, v, e, rfl, rfl, _⟩ := declare_ok h hn
  exact ⟨rfl, rfl, by simp [e], by simp⟩

theorem local_shape {x loc c} {rs rs' : Resolver} (h : resolveLocalVariable x loc rs = .ok c rs') (hn : rs.scopes ≠ []) :
    SameShape rs rs' := by
  rcases local_ok h hn with ⟨b, s, a, v, e, _, _, rfl, rfl⟩ | ⟨b, g, e, _, _, rfl, rfl⟩
  · exact ⟨rfl, rfl, rfl, hn⟩
  · exact ⟨rfl, rfl, by simp [e], by simp⟩

theorem params_shape {ps} {rs rs' : Resolver} (h : defineParams ps rs = .ok () rs') (hn : rs.scopes ≠ []) :
    SameShape rs rs' := by
  induction ps generalizing rs with
  | nil =>
    cases (pure_ok.mp h).2
    exact ⟨rfl, rfl, rfl, hn⟩
  | cons p ps ih =>
    obtain ⟨_, t, h1, h2⟩ := bind_ok.mp h
    have s1 := define_shape h1 hn
    exact s1.trans (ih h2 s1.nonempty)

theorem enter_nonempty (rs : Resolver) : rs.enter.scopes ≠ [] := by simp [Resolver.enter]

/-- Resolving keeps the types and the number of scopes. -/
theorem resolved_shape {a b rs rs'} (h : Resolved a b rs rs') : rs.scopes ≠ [] → SameShape rs rs' := by
  induction h with
  | nil => exact fun hn => ⟨rfl, rfl, rfl, hn⟩
  | methods_nil => exact fun hn => ⟨rfl, rfl, rfl, hn⟩
  | cons _ _ i1 i2 => exact fun hn => (i1 hn).trans (i2 (i1 hn).nonempty)
  | methods_cons _ _ i1 i2 => exact fun hn => (i1 hn).trans (i2 (i1 hn).nonempty)
  | plain _ _ i => exact i
  | function _ i => exact i
  | assign _ h i => exact fun hn => (i hn).trans (local_shape h (i hn).nonempty)
  | «variable» h => exact fun hn => local_shape (variable_ok h hn).1 hn
  | super h => exact fun hn => local_shape (super_ok h).1 hn
  | block _ _ i =>
    intro hn
    have := i (enter_nonempty _)
    refine ⟨this.1, this.2, ?_, ?_⟩
    · simp [Resolver.endScope, this.length, Resolver.enter]
    · intro e
      have h := this.length
      simp only [Resolver.endScope] at e
      rw [← List.length_eq_zero_iff, List.length_tail, h] at e
      simp [Resolver.enter, hn] at e
  | «return» h _ i =>
    intro hn
    cases (return_ok h).1
    exact i hn
  | var h _ h' i =>
    intro hn
    have a := declare_shape h hn
    have b := i a.nonempty
    exact (a.trans b).trans (define_shape h' b.nonempty)
  | «fun» h _ i =>
    intro hn
    have a := define_shape h hn
    exact a.trans (i a.nonempty)
  | «class» h _ h' _ i =>
    intro hn
    have a := define_shape h hn
    have b := define_shape h' (enter_nonempty _)
    have c := i b.nonempty
    refine ⟨?_, rfl, ?_, ?_⟩
    · exact c.1.trans (b.1.trans a.1)
    · have := c.length.trans b.length
      simp only [Resolver.endScope, List.length_tail, this]
      simp [Resolver.enter, a.length]
    · intro e
      have := c.length.trans b.length
      simp only [Resolver.endScope] at e
      rw [← List.length_eq_zero_iff, List.length_tail, this] at e
      simp [Resolver.enter, a.nonempty] at e
  | subclass h _ _ _ h' _ h'' _ i i' =>
    intro hn
    have a := define_shape h hn
    have b := i a.nonempty
    have c := define_shape h' (enter_nonempty _)
    have d := define_shape h'' (enter_nonempty _)
    have e := i' d.nonempty
    have l : (_ : Nat) = _ := e.length.trans d.length
    simp only [Resolver.enter, List.length_cons] at l
    rw [c.length] at l
    simp only [Resolver.enter, List.length_cons] at l
    refine ⟨?_, rfl, ?_, ?_⟩
    · exact e.1.trans (d.1.trans (c.1.trans (b.1.trans a.1)))
    · simp only [Resolver.endScope, List.length_tail, l, b.length, a.length]
      omega
    · intro z
      simp only [Resolver.endScope] at z
      rw [← List.length_eq_zero_iff, List.length_tail, List.length_tail, l] at z
      simp [b.nonempty] at z
  | fn _ h _ i =>
    intro hn
    have a := params_shape h (by simp [Resolver.enter])
    have b := i a.nonempty
    have l : (_ : Nat) = _ := b.length.trans a.length
    simp only [Resolver.enter, List.length_cons] at l
    refine ⟨rfl, b.2.trans a.2, ?_, ?_⟩
    · simp only [Resolver.endScope, List.length_tail, l]
      omega
    · intro z
      simp only [Resolver.endScope] at z
      rw [← List.length_eq_zero_iff, List.length_tail, l] at z
      simp [hn] at z

/-! ### Events -/

/-- The events of a node. -/
def nodeEvents : Node → List Event
  | .expr e => exprEvents e
  | .stmt s => stmtEvents s
  | .fn d => funEvents d

/-- The events of nodes, in order. -/
def nodesEvents : List Node → List Event
  | [] => []
  | n :: ns => nodeEvents n ++ nodesEvents ns

/-- The events of an item. -/
def itemEvents : Item → List Event
  | .nodes ns => nodesEvents ns
  | .node n => nodeEvents n
  | .fn _ d => funEvents d
  | .methods ms => methodsEvents ms

theorem exprsEvents_eq (es : List Expr) : exprsEvents es = nodesEvents (es.map .expr) := by
  induction es with
  | nil => simp [exprsEvents, nodesEvents]
  | cons e es ih => simp [exprsEvents, nodesEvents, nodeEvents, ih]

theorem stmtsEvents_eq (es : List Stmt) : stmtsEvents es = nodesEvents (es.map .stmt) := by
  induction es with
  | nil => simp [stmtsEvents, nodesEvents]
  | cons e es ih => simp [stmtsEvents, nodesEvents, nodeEvents, ih]

theorem entriesEvents_eq (es : List MapEntry) : entriesEvents es = nodesEvents (es.map fun m => .expr m.value) := by
  induction es with
  | nil => simp [entriesEvents, nodesEvents]
  | cons e es ih =>
    cases e
    simp [entriesEvents, nodesEvents, nodeEvents, ih, MapEntry.value]

/-- The events of a node that is resolved part by part are those of its parts. -/
theorem alike_events {n n' : Node} (h : Alike n n') : nodeEvents n' = nodesEvents n'.parts := by
  cases h with
  | @«if» _ _ _ _ _ b' _ =>
    cases b' <;> simp [nodeEvents, nodesEvents, Node.parts, stmtParts, stmtEvents]
  | _ => simp [nodeEvents, nodesEvents, Node.parts, exprParts, stmtParts, exprEvents, stmtEvents, exprsEvents_eq,
      entriesEvents_eq]

theorem namesAfter_nil {Γ} : namesAfter Γ [] = Γ := rfl

theorem namesAfter_append {Γ a b} : namesAfter Γ (a ++ b) = namesAfter (namesAfter Γ a) b := by
  simp [namesAfter]

theorem namesAfter_cons {Γ e b} : namesAfter Γ (e :: b) = namesAfter (Event.after Γ e) b := rfl

theorem atEach_nil {P Γ} : AtEach P Γ [] := by
  intro a e b h
  simp at h

theorem atEach_one {P Γ e} (h : P Γ e) : AtEach P Γ [e] := by
  intro a e' b h'
  cases a with
  | nil => cases h'; exact h
  | cons x a => simp at h'

theorem atEach_append {P Γ a b} (h : AtEach P Γ a) (h' : AtEach P (namesAfter Γ a) b) : AtEach P Γ (a ++ b) := by
  intro u e w hw
  rcases List.append_eq_append_iff.mp hw with ⟨z, rfl, hz⟩ | ⟨z, ha, hz⟩
  · rw [namesAfter_append]
    exact h' z e w hz
  · cases z with
    | nil =>
      simp only [List.append_nil] at ha
      subst ha
      have := h' [] e w hz.symm
      exact this
    | cons y z =>
      simp only [List.cons_append, List.cons.injEq] at hz
      obtain ⟨rfl, rfl⟩ := hz
      exact h u e z ha

/-- The resolver follows events, all of which are correct. -/
structure Steps (es : List Event) (rs rs' : Resolver) : Prop where
  wf : Wf rs'
  names : rs'.names = namesAfter rs.names es
  ok : AtEach EventOk rs.names es

theorem Steps.nil {rs : Resolver} (h : Wf rs) : Steps [] rs rs := ⟨h, rfl, atEach_nil⟩

theorem Steps.trans {es es' rs rs1 rs2} (h : Steps es rs rs1) (h' : Steps es' rs1 rs2) : Steps (es ++ es') rs rs2 :=
  ⟨h'.wf, by rw [namesAfter_append, ← h.names, h'.names], atEach_append h.ok (by rw [← h.names]; exact h'.ok)⟩

theorem Steps.cons {e es rs rs1 rs2} (h : Steps [e] rs rs1) (h' : Steps es rs1 rs2) : Steps (e :: es) rs rs2 :=
  h.trans h'

/-- The names do not depend on the types. -/
theorem Steps.types {es rs rs'} (h : Steps es rs rs') (f c f' c') :
    Steps es { rs with functionType := f, classType := c } { rs' with functionType := f', classType := c' } :=
  ⟨⟨h.wf.1, h.wf.2, h.wf.3⟩, h.names, h.ok⟩

theorem wf_cons {s s' ss} {rs : Resolver} (h : Wf rs) (e : rs.scopes = s :: ss) (hs : ScopeWf s → ScopeWf s') :
    Wf { rs with scopes := s' :: ss } where
  nonempty := by simp
  depth := by have := h.depth; rw [e] at this; exact this
  scope t ht := by
    rcases List.mem_cons.mp ht with rfl | ht
    · exact hs (h.scope s (by rw [e]; simp))
    · exact h.scope t (by rw [e]; simp [ht])

theorem define_steps {x loc} {rs rs' : Resolver} (h : define x loc rs = .ok () rs') (hw : Wf rs) :
    Steps [.declare x none] rs rs' := by
  obtain ⟨s, s', ss, e, rfl, ht, _⟩ := define_ok h hw.nonempty
  refine ⟨wf_cons hw e ht.wf, ?_, atEach_one trivial⟩
  simp only [Resolver.names, List.map_cons, ht.names, e, namesAfter_cons, namesAfter_nil, Event.after]

theorem declare_steps {x loc c} {rs rs' : Resolver} (h : declare x loc rs = .ok c rs') (hw : Wf rs) :
    Steps [.declare x (some c)] rs rs' := by
  obtain ⟨s, s', ss, v, e, rfl, rfl, ht, hv, _⟩ := declare_ok h hw.nonempty
  have hs' := ht.wf (hw.scope s (by rw [e]; simp))
  refine ⟨wf_cons hw e ht.wf, ?_, atEach_one ⟨s'.names, v.slotIndex, ?_, scope_get_slot hs' hv, rfl⟩⟩
  · simp only [Resolver.names, List.map_cons, ht.names, e, namesAfter_cons, namesAfter_nil, Event.after]
  · simp only [Resolver.names, List.map_cons, ht.names, e, namesAfter_cons, namesAfter_nil, Event.after, List.head?_cons]

/-- Defining a variable again changes no names. -/
theorem define_again {x loc} {rs rs' : Resolver} (h : define x loc rs = .ok () rs') (hw : Wf rs)
    (hx : ∀ s ss, rs.names = s :: ss → x ∈ s) : Steps [] rs rs' := by
  have hs := define_steps h hw
  refine ⟨hs.wf, ?_, atEach_nil⟩
  rw [hs.names]
  cases hn : rs.names with
  | nil => rfl
  | cons s ss => simp [namesAfter_cons, namesAfter_nil, Event.after, addName, hx s ss hn]

theorem addGlobal_append {x : Str} {ss : Names} {g : List Str} (hg : x ∉ g) :
    addGlobal x (ss ++ [g]) = ss ++ [g ++ [x]] := by
  induction ss with
  | nil => simp [addGlobal, addName, hg]
  | cons s ss ih =>
    cases ss with
    | nil =>
      rw [show [s] ++ [g] = s :: [g] from rfl, addGlobal]
      · simp [addGlobal, addName, hg]
      · simp
    | cons t ss =>
      simp only [List.cons_append] at ih ⊢
      rw [addGlobal]
      · rw [ih]
      · simp

theorem unbound_names {x : Str} {scopes : List Scope} :
    Unbound x scopes ↔ ∀ s ∈ scopes.map Scope.names, x ∉ s := by
  simp only [Unbound, List.mem_map, forall_exists_index, and_imp, forall_apply_eq_imp_iff₂, scope_get_none]

theorem local_steps {x loc c} {rs rs' : Resolver} (h : resolveLocalVariable x loc rs = .ok c rs') (hw : Wf rs) :
    Steps [.use x c] rs rs' := by
  rcases local_ok h hw.nonempty with ⟨b, s, a, v, e, hu, hv, rfl, rfl⟩ | ⟨b, g, e, hu, hl, rfl, rfl⟩
  · have hlen : b.length < 65535 := by
      have : rs'.scopes.length ≤ 65535 := hw.depth
      rw [e] at this
      simp only [List.length_append, List.length_cons] at this
      omega
    have hs := hw.scope s (by rw [e]; simp)
    refine ⟨hw, ?_, atEach_one (.inl ⟨v.slotIndex, ⟨⟨s.names, ?_, scope_get_slot hs hv⟩, ?_⟩, rfl⟩)⟩
    · rw [namesAfter_cons, namesAfter_nil, Event.after, if_pos]
      exact ⟨s.names, by simp [Resolver.names, e], scope_get_mem hv⟩
    · simp only [Resolver.names, e, List.map_append, List.map_cons]
      rw [List.getElem?_append_right (by simp; omega)]
      simp [Nat.mod_eq_of_lt (show b.length < 65536 by omega)]
    · intro d hd t ht
      simp only [Nat.mod_eq_of_lt (show b.length < 65536 by omega)] at hd
      simp only [Resolver.names, e, List.map_append, List.map_cons] at ht
      rw [List.getElem?_append_left (by simpa using hd)] at ht
      exact unbound_names.mp hu t (List.mem_of_getElem? ht)
  · have hlen : b.length < 65535 := by
      have : rs.scopes.length ≤ 65535 := hw.depth
      rw [e] at this
      simp only [List.length_append, List.length_cons] at this
      omega
    have hg : g.get x = none := hu g (by rw [e]; simp)
    have hn := unbound_names.mp hu
    refine ⟨⟨by simp, ?_, ?_⟩, ?_, atEach_one (.inr ⟨hn, g.names, ?_, ?_, ?_⟩)⟩
    · have := hw.depth
      rw [e] at this
      simpa using this
    · intro t ht
      rcases List.mem_append.mp ht with ht | ht
      · exact hw.scope t (by rw [e]; simp [ht])
      · rw [List.mem_singleton] at ht
        subst ht
        exact insertNew_wf (hw.scope g (by rw [e]; simp)) hg
    · rw [namesAfter_cons, namesAfter_nil, Event.after, if_neg]
      · simp only [Resolver.names, e, List.map_append, List.map_cons, List.map_nil]
        rw [addGlobal_append (scope_get_none.mp hg), insertNew_names]
      · rintro ⟨s, hs, hx⟩
        exact hn s hs hx
    · simp [Resolver.names, e]
    · simp [Resolver.names, e, Nat.mod_eq_of_lt (show b.length < 65536 by omega)]
    · simp [Scope.names]

theorem params_steps {ps} {rs rs' : Resolver} (h : defineParams ps rs = .ok () rs') (hw : Wf rs) :
    Steps (ps.map fun p => .declare p.name none) rs rs' := by
  induction ps generalizing rs with
  | nil =>
    cases (pure_ok.mp h).2
    exact .nil hw
  | cons p ps ih =>
    obtain ⟨_, t, h1, h2⟩ := bind_ok.mp h
    have s1 := define_steps h1 hw
    exact s1.cons (ih h2 s1.wf)

theorem scopeWf_nil : ScopeWf [] := ⟨by simp, by simp [Scope.names]⟩

theorem enter_steps {rs : Resolver} (hw : Wf rs) (hl : rs.scopes.length < varLocMaxDistance) :
    Steps [.enter []] rs rs.enter := by
  refine ⟨⟨by simp [Resolver.enter], by simp only [Resolver.enter, List.length_cons]; omega, ?_⟩, rfl, atEach_one trivial⟩
  intro t ht
  rcases List.mem_cons.mp ht with rfl | ht
  · exact scopeWf_nil
  · exact hw.scope t ht

theorem enter_define_steps {x loc} {rs rs' : Resolver} (h : define x loc rs.enter = .ok () rs') (hw : Wf rs)
    (hl : rs.scopes.length < varLocMaxDistance) : Steps [.enter [x]] rs rs' := by
  have h1 := enter_steps hw hl
  have h2 := define_steps h h1.wf
  refine ⟨h2.wf, ?_, atEach_one trivial⟩
  rw [h2.names, h1.names]
  rfl

theorem leave_steps {rs : Resolver} (hw : Wf rs) (hl : 1 < rs.scopes.length) : Steps [.leave] rs rs.endScope := by
  refine ⟨⟨?_, ?_, ?_⟩, ?_, atEach_one trivial⟩
  · intro e
    simp only [Resolver.endScope] at e
    rw [← List.length_eq_zero_iff, List.length_tail] at e
    omega
  · have := hw.depth
    simp only [Resolver.endScope, List.length_tail]
    omega
  · intro t ht
    exact hw.scope t (List.mem_of_mem_tail ht)
  · simp [Resolver.names, Resolver.endScope, namesAfter_cons, namesAfter_nil, Event.after, List.map_tail]

theorem wf_types {rs : Resolver} (h : Wf rs) (f c) : Wf { rs with functionType := f, classType := c } :=
  ⟨h.1, h.2, h.3⟩

theorem addName_mem (x : Str) (s : List Str) : x ∈ addName x s := by
  unfold addName
  split
  · assumption
  · simp

/-- No scope loses or reorders names. -/
def Grows (a b : List Scope) : Prop :=
  ∀ (i : Nat) (s : Scope), a[i]? = some s → ∃ s' : Scope, b[i]? = some s' ∧ s.names <+: s'.names

theorem Grows.refl {a} : Grows a a := fun _ s h => ⟨s, h, List.prefix_rfl⟩

theorem Grows.trans {a b c} (h : Grows a b) (h' : Grows b c) : Grows a c := by
  intro i s hs
  obtain ⟨t, ht, p⟩ := h i s hs
  obtain ⟨u, hu, q⟩ := h' i t ht
  exact ⟨u, hu, p.trans q⟩

theorem Grows.tail {a b} (h : Grows a b) : Grows a.tail b.tail := by
  intro i s hs
  rw [List.getElem?_tail] at hs ⊢
  exact h _ s hs

theorem Touched.grows {x s s' ss} (h : Touched x s s') : Grows (s :: ss) (s' :: ss) := by
  intro i t ht
  cases i with
  | zero =>
    simp only [List.getElem?_cons_zero, Option.some.injEq] at ht
    subst ht
    refine ⟨s', rfl, ?_⟩
    rw [h.names, addName]
    split
    · exact List.prefix_rfl
    · exact List.prefix_append ..
  | succ i => exact ⟨t, ht, List.prefix_rfl⟩

theorem define_grows {x loc} {rs rs' : Resolver} (h : define x loc rs = .ok () rs') (hn : rs.scopes ≠ []) :
    Grows rs.scopes rs'.scopes := by
  obtain ⟨s, s', ss, e, rfl, ht, _⟩ := define_ok h hn
  rw [e]
  exact ht.grows

theorem declare_grows {x loc c} {rs rs' : Resolver} (h : declare x loc rs = .ok c rs') (hn : rs.scopes ≠ []) :
    Grows rs.scopes rs'.scopes := by
  obtain ⟨s, s', ss, v, e, rfl, rfl, ht, _⟩ := declare_ok h hn
  rw [e]
  exact ht.grows

theorem local_grows {x loc c} {rs rs' : Resolver} (h : resolveLocalVariable x loc rs = .ok c rs') (hn : rs.scopes ≠ []) :
    Grows rs.scopes rs'.scopes := by
  rcases local_ok h hn with ⟨b, s, a, v, e, _, _, rfl, rfl⟩ | ⟨b, g, e, _, _, rfl, rfl⟩
  · exact .refl
  · rw [e]
    intro i t ht
    rw [List.getElem?_append] at ht
    split at ht
    · rename_i hi
      exact ⟨t, by rw [List.getElem?_append_left hi]; exact ht, List.prefix_rfl⟩
    · have := List.mem_of_getElem? ht
      rw [List.mem_singleton] at this
      subst this
      rename_i hi
      rw [List.getElem?_append_right (by omega)]
      have : i - b.length = 0 := by
        rcases Nat.eq_zero_or_pos (i - b.length) with h0 | h0
        · exact h0
        · rw [List.getElem?_eq_none (by simp; omega)] at ht
          simp at ht
      rw [this]
      refine ⟨_, rfl, ?_⟩
      rw [insertNew_names]
      exact List.prefix_append ..

theorem params_grows {ps} {rs rs' : Resolver} (h : defineParams ps rs = .ok () rs') (hn : rs.scopes ≠ []) :
    Grows rs.scopes rs'.scopes := by
  induction ps generalizing rs with
  | nil =>
    cases (pure_ok.mp h).2
    exact .refl
  | cons p ps ih =>
    obtain ⟨_, t, h1, h2⟩ := bind_ok.mp h
    exact (define_grows h1 hn).trans (ih h2 (define_shape h1 hn).nonempty)

/-- Resolving keeps names. -/
theorem resolved_grows {a b rs rs'} (h : Resolved a b rs rs') : rs.scopes ≠ [] → Grows rs.scopes rs'.scopes := by
  induction h with
  | nil => exact fun _ => .refl
  | methods_nil => exact fun _ => .refl
  | cons h _ i1 i2 => exact fun hn => (i1 hn).trans (i2 (resolved_shape h hn).nonempty)
  | methods_cons h _ i1 i2 => exact fun hn => (i1 hn).trans (i2 (resolved_shape h hn).nonempty)
  | plain _ _ i => exact i
  | function _ i => exact i
  | assign h h' i => exact fun hn => (i hn).trans (local_grows h' (resolved_shape h hn).nonempty)
  | «variable» h => exact fun hn => local_grows (variable_ok h hn).1 hn
  | super h => exact fun hn => local_grows (super_ok h).1 hn
  | block _ _ i => exact fun _ => (i (enter_nonempty _)).tail
  | «return» h _ i =>
    intro hn
    cases (return_ok h).1
    exact i hn
  | var h h' h'' i =>
    intro hn
    have a := (declare_shape h hn).nonempty
    exact ((declare_grows h hn).trans (i a)).trans (define_grows h'' (resolved_shape h' a).nonempty)
  | «fun» h _ i => exact fun hn => (define_grows h hn).trans (i (define_shape h hn).nonempty)
  | «class» h _ h' _ i =>
    intro hn
    refine (define_grows h hn).trans ?_
    exact ((define_grows h' (enter_nonempty _)).trans (i (define_shape h' (enter_nonempty _)).nonempty)).tail
  | subclass h _ _ _ h' _ h'' _ i i' =>
    intro hn
    refine ((define_grows h hn).trans (i (define_shape h hn).nonempty)).trans ?_
    have b := ((define_grows h'' (enter_nonempty _)).trans (i' (define_shape h'' (enter_nonempty _)).nonempty)).tail
    exact ((define_grows h' (enter_nonempty _)).trans b).tail
  | fn _ h _ i =>
    intro _
    have a := params_grows h (by simp [Resolver.enter])
    exact (a.trans (i (params_shape h (by simp [Resolver.enter])).nonempty)).tail

/-- The resolver follows the events of what it returns. -/
theorem resolved_steps {a b rs rs'} (h : Resolved a b rs rs') : Wf rs → Steps (itemEvents b) rs rs' := by
  induction h with
  | nil => exact fun hw => .nil hw
  | methods_nil =>
    intro hw
    simp only [itemEvents, methodsEvents]
    exact .nil hw
  | cons _ _ i1 i2 => exact fun hw => (i1 hw).trans (i2 (i1 hw).wf)
  | methods_cons _ _ i1 i2 =>
    intro hw
    simp only [itemEvents, methodsEvents]
    exact (i1 hw).trans (i2 (i1 hw).wf)
  | plain h _ i =>
    intro hw
    rw [show itemEvents (.node _) = _ from alike_events h]
    exact i hw
  | function _ i =>
    intro hw
    simp only [itemEvents, nodeEvents, exprEvents]
    exact i hw
  | assign _ h i =>
    intro hw
    simp only [itemEvents, nodeEvents, exprEvents]
    exact (i hw).trans (local_steps h (i hw).wf)
  | «variable» h =>
    intro hw
    simp only [itemEvents, nodeEvents, exprEvents]
    exact local_steps (variable_ok h hw.nonempty).1 hw
  | super h =>
    intro hw
    simp only [itemEvents, nodeEvents, exprEvents]
    exact local_steps (super_ok h).1 hw
  | block hl h i =>
    intro hw
    simp only [itemEvents, nodeEvents, stmtEvents]
    have h1 := enter_steps hw hl
    have h2 := i h1.wf
    have hn := List.length_pos_iff.mpr hw.nonempty
    have l : (_ : Nat) = _ := (resolved_shape h (enter_nonempty _)).length
    simp only [Resolver.enter, List.length_cons] at l
    rw [stmtsEvents_eq]
    exact h1.cons (h2.trans (leave_steps h2.wf (by omega)))
  | «return» h _ i =>
    intro hw
    cases (return_ok h).1
    simp only [itemEvents, nodeEvents, stmtEvents]
    exact i hw
  | @var x c c' e e' loc rs rs1 rs2 rs3 h h' h'' i =>
    intro hw
    simp only [itemEvents, nodeEvents, stmtEvents]
    have h1 := declare_steps h hw
    have h2 := i h1.wf
    have h3 : Steps [] rs2 rs3 := by
      refine define_again h'' h2.wf ?_
      intro s ss hs
      have hg := resolved_grows h' h1.wf.nonempty
      obtain ⟨s0, s1, ss0, v, e0, rfl, rfl, ht, hv, _⟩ := declare_ok h hw.nonempty
      obtain ⟨t, ht', p⟩ := hg 0 s1 rfl
      have : s = t.names := by
        rw [Resolver.names] at hs
        cases hr : rs2.scopes with
        | nil => simp [hr] at hs
        | cons a b =>
          rw [hr] at hs ht'
          simp only [List.map_cons, List.cons.injEq] at hs
          simp only [List.getElem?_cons_zero, Option.some.injEq] at ht'
          rw [← hs.1, ht']
      rw [this]
      exact p.subset (scope_get_mem hv)
    have := h1.cons (h2.trans h3)
    rwa [List.append_nil] at this
  | «fun» h _ i =>
    intro hw
    simp only [itemEvents, nodeEvents, stmtEvents]
    have h1 := define_steps h hw
    exact h1.cons (i h1.wf)
  | @«class» x ms ms' loc rs rs1 rs2 rs3 h hl h' hm i =>
    intro hw
    simp only [itemEvents, nodeEvents, stmtEvents]
    have h1 := define_steps h (wf_types hw ..)
    have h2 := enter_define_steps h' h1.wf hl
    have h3 := i h2.wf
    have hn := List.length_pos_iff.mpr h1.wf.nonempty
    have l : (_ : Nat) = _ := (resolved_shape hm h2.wf.nonempty).length.trans (define_shape h' (enter_nonempty _)).length
    simp only [Resolver.enter, List.length_cons] at l
    have := h1.cons (h2.cons (h3.trans (leave_steps h3.wf (by omega))))
    exact this.types rs.functionType rs.classType rs3.endScope.functionType rs.classType
  | @subclass x e e' ms ms' loc rs rs1 rs2 rs3 rs4 rs5 h _ he hl h' hl' h'' hm i i' =>
    intro hw
    simp only [itemEvents, nodeEvents, stmtEvents]
    have h1 := define_steps h (wf_types hw ..)
    have h2 := i h1.wf
    have h3 := enter_define_steps h' h2.wf hl
    have h4 := enter_define_steps h'' h3.wf hl'
    have h5 := i' h4.wf
    have hn := List.length_pos_iff.mpr h2.wf.nonempty
    have l : (_ : Nat) = _ := (resolved_shape hm h4.wf.nonempty).length.trans (define_shape h'' (enter_nonempty _)).length
    have l' : (_ : Nat) = _ := (define_shape h' (enter_nonempty _)).length
    simp only [Resolver.enter, List.length_cons] at l l'
    have h6 := leave_steps h5.wf (by omega)
    have h7 := leave_steps h6.wf (by simp only [Resolver.endScope, List.length_tail]; omega)
    have := h1.cons (h2.trans (h3.cons (h4.cons (h5.trans (h6.cons h7)))))
    exact this.types rs.functionType rs.classType rs5.endScope.endScope.functionType rs.classType
  | @fn ft ps b b' k loc rs rs1 rs2 hl h hb i =>
    intro hw
    simp only [itemEvents, funEvents]
    have h1 := enter_steps hw hl
    have h2 := params_steps h (wf_types h1.wf ..)
    have h3 := i h2.wf
    have hn := List.length_pos_iff.mpr hw.nonempty
    have l : (_ : Nat) = _ := (resolved_shape hb h2.wf.nonempty).length.trans (params_shape h (by simp [Resolver.enter])).length
    simp only [Resolver.enter, List.length_cons] at l
    have h4 := leave_steps h3.wf (by omega)
    have h1' := h1.types rs.functionType rs.classType ft rs.classType
    have := h1'.cons ((h2.trans h3).trans h4)
    rw [stmtsEvents_eq]
    exact this.types rs.functionType rs.classType rs.functionType rs2.endScope.classType

end Ws
