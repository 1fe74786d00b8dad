import Verif.Proofs.Resolve.Parts
/-! Declarations in local scopes. -/
namespace Ws
open Ws.Spec

/-- Only expressions and functions. -/
def Quiet : Item → Prop
  | .nodes ns => ∀ n ∈ ns, ∃ e, n = .expr e
  | .node n => ∃ e, n = .expr e
  | .fn _ _ => True
  | .methods _ => True

theorem define_dropLast {x loc} {rs rs' : Resolver} (h : define x loc rs = .ok () rs') (hn : rs.scopes ≠ []) :
    rs'.scopes.tail = rs.scopes.tail := by
  obtain ⟨s, s', ss, e, rfl, _⟩ := define_ok h hn
  rw [e]
  rfl

theorem declare_dropLast {x loc c} {rs rs' : Resolver} (h : declare x loc rs = .ok c rs') (hn : rs.scopes ≠ []) :
    rs'.scopes.tail = rs.scopes.tail := by
  obtain ⟨s, s', ss, v, e, rfl, rfl, _⟩ := declare_ok h hn
  rw [e]
  rfl

theorem local_dropLast {x loc c} {rs rs' : Resolver} (h : resolveLocalVariable x loc rs = .ok c rs') (hn : rs.scopes ≠ []) :
    rs'.scopes.dropLast = rs.scopes.dropLast := by
  rcases local_ok h hn with ⟨b, s, a, v, e, _, _, rfl, rfl⟩ | ⟨b, g, e, _, _, rfl, rfl⟩
  · rfl
  · simp [e]

theorem params_dropLast {ps} {rs rs' : Resolver} (h : defineParams ps rs = .ok () rs') (hn : rs.scopes ≠ []) :
    rs'.scopes.tail = rs.scopes.tail := by
  induction ps generalizing rs with
  | nil => cases (pure_ok.mp h).2; rfl
  | cons p ps ih =>
    obtain ⟨_, t, h1, h2⟩ := bind_ok.mp h
    rw [ih h2 (define_shape h1 hn).nonempty, define_dropLast h1 hn]

theorem alike_quiet {n n' : Node} (h : Alike n n') {e} (he : n' = .expr e) : ∀ c ∈ n'.parts, ∃ e, c = .expr e := by
  cases h <;> cases he <;> simp [Node.parts, exprParts]

theorem tail_dropLast {α} (l : List α) : l.dropLast.tail = l.tail.dropLast := by
  cases l with
  | nil => rfl
  | cons a l => cases l <;> rfl

/-- Expressions change no scope but the global one; statements no others but the innermost. -/
theorem resolved_dropLast {a b rs rs'} (h : Resolved a b rs rs') :
    rs.scopes ≠ [] → (Quiet b → rs'.scopes.dropLast = rs.scopes.dropLast) ∧
      rs'.scopes.dropLast.tail = rs.scopes.dropLast.tail := by
  have lift : ∀ {Q : Prop} {a b : List Scope}, a.dropLast = b.dropLast →
      (Q → a.dropLast = b.dropLast) ∧ a.dropLast.tail = b.dropLast.tail := fun h => ⟨fun _ => h, by rw [h]⟩
  induction h with
  | nil => exact fun _ => ⟨fun _ => rfl, rfl⟩
  | methods_nil => exact fun _ => ⟨fun _ => rfl, rfl⟩
  | cons h _ i1 i2 =>
    intro hn
    have a := i1 hn
    have b := i2 (resolved_shape h hn).nonempty
    refine ⟨fun q => ?_, b.2.trans a.2⟩
    exact (b.1 (fun n hn => q n (List.mem_cons_of_mem _ hn))).trans (a.1 (q _ (List.mem_cons_self ..)))
  | methods_cons h _ i1 i2 =>
    intro hn
    have a := i1 hn
    have b := i2 (resolved_shape h hn).nonempty
    exact ⟨fun q => (b.1 trivial).trans (a.1 trivial), b.2.trans a.2⟩
  | plain h _ i =>
    intro hn
    refine ⟨?_, (i hn).2⟩
    rintro ⟨e, he⟩
    exact (i hn).1 (alike_quiet h he)
  | function _ i => exact fun hn => ⟨fun _ => (i hn).1 trivial, (i hn).2⟩
  | assign h h' i =>
    intro hn
    have a := (i hn).1 ⟨_, rfl⟩
    exact lift ((local_dropLast h' (resolved_shape h hn).nonempty).trans a)
  | «variable» h => exact fun hn => lift (local_dropLast (variable_ok h hn).1 hn)
  | super h => exact fun hn => lift (local_dropLast (super_ok h).1 hn)
  | @block b b' rs rs' _ h i =>
    intro hn
    have a := (i (enter_nonempty _)).2
    simp only [tail_dropLast, Resolver.enter, List.tail_cons] at a
    exact lift a
  | «return» h _ i =>
    intro hn
    cases (return_ok h).1
    have a := (i hn).1 ⟨_, rfl⟩
    exact lift a
  | var h h' h'' i =>
    intro hn
    have n1 := (declare_shape h hn).nonempty
    refine ⟨(by rintro ⟨e, he⟩; cases he), ?_⟩
    have e1 := declare_dropLast h hn
    have e2 := (i n1).1 ⟨_, rfl⟩
    have e3 := define_dropLast h'' (resolved_shape h' n1).nonempty
    rw [tail_dropLast, e3, ← tail_dropLast, e2, tail_dropLast, e1, tail_dropLast]
  | «fun» h _ i =>
    intro hn
    refine ⟨(by rintro ⟨e, he⟩; cases he), ?_⟩
    rw [(i (define_shape h hn).nonempty).2, tail_dropLast, define_dropLast h hn, tail_dropLast]
  | @«class» x ms ms' loc rs rs1 rs2 rs3 h _ h' _ i =>
    intro hn
    refine ⟨(by rintro ⟨e, he⟩; cases he), ?_⟩
    have n1 := (define_shape h' (enter_nonempty _)).nonempty
    have e1 := define_dropLast h hn
    have e2 := define_dropLast h' (enter_nonempty _)
    have e3 := (i n1).2
    simp only [tail_dropLast, e2, Resolver.enter, List.tail_cons] at e3
    simp only [Resolver.endScope, tail_dropLast]
    rw [← tail_dropLast, e3, tail_dropLast, e1]
  | @subclass x e e' ms ms' loc rs rs1 rs2 rs3 rs4 rs5 h _ he _ h' _ h'' _ i i' =>
    intro hn
    refine ⟨(by rintro ⟨e, he⟩; cases he), ?_⟩
    have n1 := (define_shape h hn).nonempty
    have n4 := (define_shape h'' (enter_nonempty _)).nonempty
    have e1 := define_dropLast h hn
    have e2 := (i n1).1 ⟨_, rfl⟩
    have e3 := define_dropLast h' (enter_nonempty _)
    have e4 := define_dropLast h'' (enter_nonempty _)
    have e5 := (i' n4).2
    simp only [tail_dropLast, e4, Resolver.enter, List.tail_cons] at e5
    simp only [Resolver.enter, List.tail_cons] at e3
    simp only [Resolver.endScope]
    rw [tail_dropLast, ← tail_dropLast, ← tail_dropLast, e5, tail_dropLast, e3, e2, tail_dropLast, e1, tail_dropLast]
  | @fn ft ps b b' k loc rs rs1 rs2 _ h _ i =>
    intro hn
    have e1 := params_dropLast h (by simp [Resolver.enter])
    have e2 := (i (params_shape h (by simp [Resolver.enter])).nonempty).2
    simp only [tail_dropLast, e1, Resolver.enter, List.tail_cons] at e2
    exact lift e2

/-- All names of a scope but `x` are defined. -/
def DefinedBut (x : Option Str) (s : Scope) : Prop :=
  ∀ k v, (k, v) ∈ s → some k ≠ x → v.definedState = .definedVar

/-- All names of the innermost scope are defined, unless it is the global scope. -/
def Settled (scopes : List Scope) : Prop := ∀ s ss, scopes = s :: ss → ss ≠ [] → DefinedBut none s

theorem setState_mem {s : Scope} {x k : Str} {st : DefinedState} {v : VarState} (h : (k, v) ∈ s.setState x st)
    (hk : k ≠ x) : (k, v) ∈ s := by
  induction s with
  | nil => simp [Scope.setState] at h
  | cons a s ih =>
    obtain ⟨k', v'⟩ := a
    simp only [Scope.setState] at h
    split at h
    · rename_i e
      have e : x = k' := by simpa using e
      rcases List.mem_cons.mp h with h | h
      · cases h
        exact absurd e.symm hk
      · exact List.mem_cons_of_mem _ h
    · rcases List.mem_cons.mp h with h | h
      · rw [h]; exact List.mem_cons_self ..
      · exact List.mem_cons_of_mem _ (ih h)

theorem Touched.mem {x s s'} (h : Touched x s s') {k v} (hm : (k, v) ∈ s') (hk : k ≠ x) : (k, v) ∈ s := by
  cases h with
  | same h => exact hm
  | state h => exact setState_mem hm hk
  | new h =>
    rcases List.mem_append.mp hm with hm | hm
    · exact hm
    · rw [List.mem_singleton] at hm
      cases hm
      exact absurd rfl hk

theorem get_of_mem {s : Scope} (hs : s.names.Nodup) {x : Str} {v : VarState} (h : (x, v) ∈ s) : s.get x = some v := by
  induction s with
  | nil => simp at h
  | cons a s ih =>
    obtain ⟨k, w⟩ := a
    simp only [Scope.names, List.map_cons, List.nodup_cons] at hs
    simp only [Scope.get, List.lookup_cons]
    rcases List.mem_cons.mp h with h' | h'
    · cases h'
      simp
    · have : x ≠ k := by
        rintro rfl
        exact hs.1 (List.mem_map.mpr ⟨(x, v), h', rfl⟩)
      rw [show (x == k) = false by simpa using this]
      exact ih hs.2 h'

theorem mem_of_get {s : Scope} {x : Str} {v : VarState} (h : s.get x = some v) : (x, v) ∈ s := by
  obtain ⟨i, hi⟩ := scope_get_some h
  exact List.mem_of_getElem? hi

/-- Defining a name in a scope that is settled but for it settles the scope. -/
theorem define_settles {x loc} {rs rs' : Resolver} (h : define x loc rs = .ok () rs') (hw : Wf rs)
    (hs : ∀ s ss, rs.scopes = s :: ss → ss ≠ [] → DefinedBut (some x) s) : Settled rs'.scopes := by
  obtain ⟨s, s', ss, e, rfl, ht, hx, _⟩ := define_ok h hw.nonempty
  rintro t ts ⟨⟩ hts k v hm _
  by_cases hk : k = x
  · subst hk
    have := get_of_mem (ht.wf (hw.scope s (by rw [e]; simp))).nodup hm
    rw [this] at hx
    simpa using hx
  · exact hs s ss e hts k v (ht.mem hm hk) (by simpa using hk)

theorem settled_but {scopes} (h : Settled scopes) (x : Str) (s : Scope) (ss) (e : scopes = s :: ss) (hss : ss ≠ []) :
    DefinedBut (some x) s := fun k v hm _ => h s ss e hss k v hm (by simp)

/-- A settled scope does not have a name that can be defined in it. -/
theorem define_notAgain {x loc c} {rs rs' : Resolver} (h : define x loc rs = .ok () rs') (hn : rs.scopes ≠ [])
    (hs : Settled rs.scopes) : NotAgain rs.names (.declare x c) := by
  obtain ⟨s, s', ss, e, rfl, ht, _, hx⟩ := define_ok h hn
  intro t ts e' hts hm
  simp only [Resolver.names, e, List.map_cons, List.cons.injEq] at e'
  obtain ⟨rfl, rfl⟩ := e'
  have hss : ss ≠ [] := by rintro rfl; exact hts rfl
  cases hg : s.get x with
  | none => exact scope_get_none.mp hg hm
  | some v =>
    have := hs s ss e hss x v (mem_of_get hg) (by simp)
    exact hss (hx (by rw [hg]; simp [this]))

theorem declare_notAgain {x loc c c'} {rs rs' : Resolver} (h : declare x loc rs = .ok c rs') (hn : rs.scopes ≠ [])
    (hs : Settled rs.scopes) : NotAgain rs.names (.declare x c') := by
  obtain ⟨s, s', ss, v, e, rfl, rfl, ht, _, hx⟩ := declare_ok h hn
  intro t ts e' hts hm
  simp only [Resolver.names, e, List.map_cons, List.cons.injEq] at e'
  obtain ⟨rfl, rfl⟩ := e'
  have hss : ss ≠ [] := by rintro rfl; exact hts rfl
  cases hg : s.get x with
  | none => exact scope_get_none.mp hg hm
  | some w =>
    have := hs s ss e hss x w (mem_of_get hg) (by simp)
    rcases hx with ⟨_, hx⟩ | ⟨hx, _⟩
    · rw [hx w hg] at this
      cases this
    · exact hss hx

theorem declare_but {x loc c} {rs rs' : Resolver} (h : declare x loc rs = .ok c rs') (hn : rs.scopes ≠ [])
    (hs : Settled rs.scopes) : ∀ s ss, rs'.scopes = s :: ss → ss ≠ [] → DefinedBut (some x) s := by
  obtain ⟨s, s', ss, v, e, rfl, rfl, ht, _, hx⟩ := declare_ok h hn
  rintro t ts ⟨⟩ hts k v hm hk
  exact hs s ss e hts k v (ht.mem hm (by simpa using hk)) (by simp)

theorem settled_enter {rs : Resolver} : Settled rs.enter.scopes := by
  rintro s ss ⟨⟩ _ k v hm
  simp at hm

theorem params_notAgain {ps} {rs rs' : Resolver} (h : defineParams ps rs = .ok () rs') (hw : Wf rs)
    (hs : Settled rs.scopes) :
    AtEach NotAgain rs.names (ps.map fun p => .declare p.name none) ∧ Settled rs'.scopes := by
  induction ps generalizing rs with
  | nil =>
    cases (pure_ok.mp h).2
    exact ⟨atEach_nil, hs⟩
  | cons p ps ih =>
    obtain ⟨_, t, h1, h2⟩ := bind_ok.mp h
    have st := define_steps h1 hw
    have := ih h2 st.wf (define_settles h1 hw (settled_but hs p.name))
    refine ⟨?_, this.2⟩
    refine atEach_append (a := [_]) (atEach_one (define_notAgain h1 hw.nonempty hs)) ?_
    rw [← st.names]
    exact this.1

/-- Only the innermost scope matters. -/
theorem settled_of_dropLast {a b : List Scope} (h : b.dropLast = a.dropLast) (hs : Settled a) : Settled b := by
  intro s ss e hss
  subst e
  cases ss with
  | nil => exact absurd rfl hss
  | cons t ss =>
    cases a with
    | nil => simp at h
    | cons s' a =>
      cases a with
      | nil => simp at h
      | cons t' a =>
        simp only [List.dropLast_cons_cons, List.cons.injEq] at h
        rw [h.1]
        exact hs s' (t' :: a) rfl (by simp)

/-- In resolved programs no local scope declares a name twice. -/
theorem resolved_notAgain {a b rs rs'} (h : Resolved a b rs rs') :
    Wf rs → (Quiet b ∨ Settled rs.scopes) →
      AtEach NotAgain rs.names (itemEvents b) ∧ (Settled rs.scopes → Settled rs'.scopes) := by
  have one : ∀ {Γ x c}, AtEach NotAgain Γ [.use x c] := fun {_ _ _} => atEach_one trivial
  induction h with
  | nil => exact fun _ _ => ⟨atEach_nil, id⟩
  | methods_nil =>
    intro _ _
    simp only [itemEvents, methodsEvents]
    exact ⟨atEach_nil, id⟩
  | @cons n n' ns ns' rs rs1 rs2 h h' i i' =>
    intro hw hq
    have st := resolved_steps h hw
    have q1 : Quiet (.node n') ∨ Settled rs.scopes :=
      hq.imp (fun q => q _ (List.mem_cons_self ..)) id
    have a := i hw q1
    have q2 : Quiet (.nodes ns') ∨ Settled rs1.scopes := hq.imp (fun q n hn => q n (List.mem_cons_of_mem _ hn)) a.2
    have b := i' st.wf q2
    refine ⟨atEach_append a.1 ?_, fun s => b.2 (a.2 s)⟩
    have := b.1
    rw [st.names] at this
    exact this
  | methods_cons h h' i i' =>
    intro hw hq
    have st := resolved_steps h hw
    have a := i hw (.inl trivial)
    have b := i' st.wf (.inl trivial)
    simp only [itemEvents, methodsEvents]
    refine ⟨atEach_append a.1 ?_, fun s => b.2 (a.2 s)⟩
    have := b.1
    rw [st.names] at this
    exact this
  | plain h _ i =>
    intro hw hq
    rw [show itemEvents (.node _) = _ from alike_events h]
    exact i hw (hq.imp (fun ⟨e, he⟩ => alike_quiet h he) id)
  | function _ i =>
    intro hw hq
    simp only [itemEvents, nodeEvents, exprEvents]
    exact i hw (.inl trivial)
  | assign h h' i =>
    intro hw hq
    simp only [itemEvents, nodeEvents, exprEvents]
    have a := i hw (.inl ⟨_, rfl⟩)
    have st := resolved_steps h hw
    refine ⟨atEach_append a.1 one, fun s => ?_⟩
    exact settled_of_dropLast (local_dropLast h' st.wf.nonempty) (a.2 s)
  | «variable» h =>
    intro hw hq
    simp only [itemEvents, nodeEvents, exprEvents]
    exact ⟨one, settled_of_dropLast (local_dropLast (variable_ok h hw.nonempty).1 hw.nonempty)⟩
  | super h =>
    intro hw hq
    simp only [itemEvents, nodeEvents, exprEvents]
    exact ⟨one, settled_of_dropLast (local_dropLast (super_ok h).1 hw.nonempty)⟩
  | @block b b' rs rs' hl h i =>
    intro hw hq
    simp only [itemEvents, nodeEvents, stmtEvents]
    have st := enter_steps hw hl
    have a := i st.wf (.inr settled_enter)
    refine ⟨?_, fun s => settled_of_dropLast ?_ s⟩
    · refine atEach_append (a := [_]) (atEach_one trivial) (atEach_append ?_ (atEach_one trivial))
      rw [← st.names, stmtsEvents_eq]
      exact a.1
    · have := (resolved_dropLast h (enter_nonempty _)).2
      simp only [tail_dropLast, Resolver.enter, List.tail_cons] at this
      exact this
  | «return» h _ i =>
    intro hw hq
    cases (return_ok h).1
    simp only [itemEvents, nodeEvents, stmtEvents]
    exact i hw (.inl ⟨_, rfl⟩)
  | @var x c c' e e' loc rs rs1 rs2 rs3 h h' h'' i =>
    intro hw hq
    have hs : Settled _ := hq.resolve_left (by rintro ⟨e, he⟩; cases he)
    simp only [itemEvents, nodeEvents, stmtEvents]
    have st := declare_steps h hw
    have st' := resolved_steps h' st.wf
    have a := i st.wf (.inl ⟨_, rfl⟩)
    refine ⟨?_, fun _ => ?_⟩
    · refine atEach_append (a := [_]) (atEach_one (declare_notAgain h hw.nonempty hs)) ?_
      rw [← st.names]
      exact a.1
    · refine define_settles h'' st'.wf ?_
      intro s ss e hss
      have d := (resolved_dropLast h' st.wf.nonempty).1 ⟨_, rfl⟩
      have b := declare_but h hw.nonempty hs
      rw [e] at d
      cases ss with
      | nil => exact absurd rfl hss
      | cons t ss =>
        cases hr : rs1.scopes with
        | nil => exact absurd hr st.wf.nonempty
        | cons s' r =>
          rw [hr] at d
          cases r with
          | nil => simp at d
          | cons t' r =>
            simp only [List.dropLast_cons_cons, List.cons.injEq] at d
            rw [d.1]
            exact b s' (t' :: r) hr (by simp)
  | «fun» h h' i =>
    intro hw hq
    have hs : Settled _ := hq.resolve_left (by rintro ⟨e, he⟩; cases he)
    simp only [itemEvents, nodeEvents, stmtEvents]
    have st := define_steps h hw
    have a := i st.wf (.inl trivial)
    have s1 := define_settles h hw (settled_but hs _)
    refine ⟨?_, fun _ => a.2 s1⟩
    refine atEach_append (a := [_]) (atEach_one (define_notAgain h hw.nonempty hs)) ?_
    rw [← st.names]
    exact a.1
  | @«class» x ms ms' loc rs rs1 rs2 rs3 h hl h' hm i =>
    intro hw hq
    have hs : Settled _ := hq.resolve_left (by rintro ⟨e, he⟩; cases he)
    simp only [itemEvents, nodeEvents, stmtEvents]
    have st := define_steps h (wf_types hw ..)
    have s1 := define_settles h (wf_types hw ..) (settled_but hs x)
    have st' := enter_define_steps h' st.wf hl
    have a := i st'.wf (.inl trivial)
    refine ⟨?_, fun _ => settled_of_dropLast ?_ s1⟩
    · refine atEach_append (a := [_]) (atEach_one (show NotAgain (Resolver.names { rs with classType := .plainClass }) _ from
        define_notAgain h hw.nonempty hs)) ?_
      refine atEach_append (a := [_]) (atEach_one trivial) (atEach_append ?_ (atEach_one trivial))
      have := a.1
      rw [st'.names, st.names] at this
      exact this
    · have e2 := define_dropLast h' (enter_nonempty _)
      have e3 := (resolved_dropLast hm st'.wf.nonempty).2
      simp only [tail_dropLast, e2, Resolver.enter, List.tail_cons] at e3
      exact e3
  | @subclass x e e' ms ms' loc rs rs1 rs2 rs3 rs4 rs5 h _ he hl h' hl' h'' hm i i' =>
    intro hw hq
    have hs : Settled _ := hq.resolve_left (by rintro ⟨e, he⟩; cases he)
    simp only [itemEvents, nodeEvents, stmtEvents]
    have st := define_steps h (wf_types hw ..)
    have s1 := define_settles h (wf_types hw ..) (settled_but hs x)
    have a := i st.wf (.inl ⟨_, rfl⟩)
    have st1 := resolved_steps he st.wf
    have st2 := enter_define_steps h' st1.wf hl
    have st3 := enter_define_steps h'' st2.wf hl'
    have b := i' st3.wf (.inl trivial)
    refine ⟨?_, fun _ => settled_of_dropLast ?_ (a.2 s1)⟩
    · refine atEach_append (a := [_]) (atEach_one (show NotAgain (Resolver.names { rs with classType := .subclass }) _ from
        define_notAgain h hw.nonempty hs)) (atEach_append ?_ ?_)
      · have := a.1
        rw [st.names] at this
        exact this
      · refine atEach_append (a := [_]) (atEach_one trivial) (atEach_append (a := [_]) (atEach_one trivial)
          (atEach_append ?_ (atEach_append (a := [_]) (atEach_one trivial) (atEach_one trivial))))
        have := b.1
        rw [st3.names, st2.names, st1.names, st.names] at this
        exact this
    · have e3 := define_dropLast h' (enter_nonempty _)
      have e4 := define_dropLast h'' (enter_nonempty _)
      have e5 := (resolved_dropLast hm st3.wf.nonempty).2
      simp only [tail_dropLast, e4, Resolver.enter, List.tail_cons] at e5
      simp only [Resolver.enter, List.tail_cons] at e3
      simp only [Resolver.endScope]
      rw [← tail_dropLast, e5, tail_dropLast, e3]
  | @fn ft ps b b' k loc rs rs1 rs2 hl h hb i =>
    intro hw hq
    simp only [itemEvents, funEvents]
    have st := enter_steps hw hl
    have w1 := wf_types st.wf ft rs.classType
    have p := params_notAgain h w1 settled_enter
    have st1 := params_steps h w1
    have a := i st1.wf (.inr p.2)
    refine ⟨?_, fun s => settled_of_dropLast ?_ s⟩
    · refine atEach_append (a := [_]) (atEach_one trivial) (atEach_append (atEach_append p.1 ?_) (atEach_one trivial))
      have := a.1
      rw [st1.names] at this
      rw [stmtsEvents_eq]
      exact this
    · have e1 := params_dropLast h (by simp [Resolver.enter])
      have e2 := (resolved_dropLast hb st1.wf.nonempty).2
      simp only [tail_dropLast, e1, Resolver.enter, List.tail_cons] at e2
      exact e2

end Ws
