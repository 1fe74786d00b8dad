import Verif.Spec.Acts
import Verif.Proofs.Resolve.Closed
import Verif.Proofs.Resolve.Settled
import Verif.Proofs.Resolve.Top
/-! The resolver reports exactly the faults of `Spec/Acts.lean`. -/
namespace Ws
open Ws.Spec

def DefinedState.status : DefinedState → Status
  | .undefinedVar => .used
  | .declaredVar => .begun
  | .definedVar => .declared

/-- The names of a scope, with their status. -/
def Scope.bindings (s : Scope) : List (Str × Status) := s.map fun p => (p.1, p.2.definedState.status)

/-- The names of the resolver. -/
def Resolver.bindings (rs : Resolver) : Bindings := rs.scopes.map Scope.bindings

def FunctionAround.Is : FunctionAround → FnType → Prop
  | .nowhere, t => t = .noFunction
  | .plain, t => t = .plain ∨ t = .method
  | .initializer, t => t = .initializer

def ClassAround.Is : ClassAround → ClassType → Prop
  | .nowhere, t => t = .noClass
  | .plain, t => t = .plainClass
  | .subclass, t => t = .subclass

theorem bindings_fst (s : Scope) : s.bindings.map Prod.fst = s.names := by
  simp [Scope.bindings, Scope.names]

theorem bindings_length (s : Scope) : s.bindings.length = s.length := by simp [Scope.bindings]

theorem mem_bindings {s : Scope} (hs : ScopeWf s) {x : Str} {st : Status} :
    (x, st) ∈ s.bindings ↔ ∃ v, s.get x = some v ∧ v.definedState.status = st := by
  simp only [Scope.bindings, List.mem_map, Prod.mk.injEq]
  constructor
  · rintro ⟨⟨k, v⟩, hm, rfl, rfl⟩
    exact ⟨v, get_of_mem hs.nodup hm, rfl⟩
  · rintro ⟨v, hv, rfl⟩
    exact ⟨_, mem_of_get hv, rfl, rfl⟩

theorem bindings_setState {s : Scope} (hs : ScopeWf s) {x : Str} {v : VarState} (h : s.get x = some v) (d : DefinedState) :
    (s.setState x d).bindings = put x d.status s.bindings := by
  rw [put, if_pos (by rw [bindings_fst]; exact scope_get_mem h)]
  have hn := hs.nodup
  clear hs h
  induction s with
  | nil => rfl
  | cons a s ih =>
    obtain ⟨k, w⟩ := a
    simp only [Scope.names, List.map_cons, List.nodup_cons] at hn
    simp only [Scope.setState, Scope.bindings, List.map_cons]
    by_cases hk : x = k
    · subst hk
      simp only [beq_self_eq_true, if_true, List.map_cons, List.cons.injEq, true_and]
      symm
      rw [List.map_map]
      apply List.map_congr_left
      rintro ⟨k, u⟩ hm
      have : k ≠ x := fun e => hn.1 (List.mem_map.mpr ⟨_, hm, e⟩)
      simp [this]
    · rw [show (x == k) = false by simpa using hk]
      simp only [Bool.false_eq_true, if_false, List.map_cons, if_neg (Ne.symm hk), List.cons.injEq, true_and]
      exact ih hn.2

theorem bindings_insertNew {s : Scope} {x : Str} {i : Nat} (h : s.get x = none) (d : DefinedState) :
    (s.insertNew x ⟨i, d⟩).bindings = put x d.status s.bindings := by
  rw [put, if_neg (by rw [bindings_fst]; exact scope_get_none.mp h)]
  simp [Scope.insertNew, Scope.bindings]

theorem isBound_bindings (rs : Resolver) (x : Str) : IsBound rs.bindings x ↔ ¬ Unbound x rs.scopes := by
  have : (∃ s ∈ rs.bindings, x ∈ s.map Prod.fst) ↔ ∃ s ∈ rs.scopes, x ∈ s.names := by
    constructor
    · rintro ⟨_, hs, hx⟩
      obtain ⟨s, hm, rfl⟩ := List.mem_map.mp hs
      exact ⟨s, hm, bindings_fst s ▸ hx⟩
    · rintro ⟨s, hs, hx⟩
      exact ⟨_, List.mem_map_of_mem hs, by rwa [bindings_fst]⟩
  rw [IsBound, this]
  simp [Unbound, scope_get_none]

theorem put_same {s : Scope} (hs : ScopeWf s) {x : Str} {v : VarState} (h : s.get x = some v) :
    put x v.definedState.status s.bindings = s.bindings := by
  rw [put, if_pos (by rw [bindings_fst]; exact scope_get_mem h)]
  conv => rhs; rw [← List.map_id s.bindings]
  apply List.map_congr_left
  rintro ⟨k, st⟩ hm
  obtain ⟨w, hw, rfl⟩ := (mem_bindings hs).mp hm
  by_cases e : k = x
  · subst e
    rw [h] at hw
    cases hw
    simp
  · simp [e]

/-- `x` does what the acts say. -/
def Performs {α : Type} (f : FunctionAround) (c : ClassAround) (as : List Act) (x : R α) : Prop :=
  ∀ rs, Wf rs → FunctionAround.Is f rs.functionType → ClassAround.Is c rs.classType →
    match perform rs.bindings as with
    | .fine b => ∃ a rs', x rs = .ok a rs' ∧ rs'.bindings = b ∧ SameShape rs rs' ∧ Wf rs'
    | .fault e b => ∃ rs', x rs = .err e rs' ∧ rs'.bindings = b.drop (b.length - rs.scopes.length) ∧
        SameShape rs rs' ∧ Wf rs'
    | .tooDeep => x rs = .panic "Too many nested lexical scopes"

variable {α β : Type} {f : FunctionAround} {c : ClassAround} {as bs : List Act}

theorem perform_append (b : Bindings) (as bs : List Act) : perform b (as ++ bs) =
    match perform b as with
    | .fine b' => perform b' bs
    | r => r := by
  induction as generalizing b with
  | nil => rfl
  | cons a as ih =>
    simp only [List.cons_append, perform]
    cases a.fault b with
    | some c => rfl
    | none =>
      dsimp only
      split
      · rfl
      · exact ih _

theorem sameShape_refl {rs : Resolver} (h : Wf rs) : SameShape rs rs := (Kept.refl h).shape

theorem performs_pure (a : α) : Performs f c [] (pure a) := fun rs hw _ _ =>
  ⟨a, rs, rfl, rfl, sameShape_refl hw, hw⟩

theorem performs_bind {x : R α} {k : α → R β} (h : Performs f c as x) (hk : ∀ a, Performs f c bs (k a)) :
    Performs f c (as ++ bs) (x >>= k) := by
  intro rs hw hf hc
  have h1 := h rs hw hf hc
  rw [perform_append]
  simp only [bind, M.bind]
  cases hp : perform rs.bindings as with
  | fine b =>
    rw [hp] at h1
    obtain ⟨a, rs', e, rfl, hsh, hw'⟩ := h1
    have h2 := hk a rs' hw' (hsh.functionType ▸ hf) (hsh.classType ▸ hc)
    rw [e]
    dsimp only at h2 ⊢
    cases hp2 : perform rs'.bindings bs with
    | fine b =>
      rw [hp2] at h2
      obtain ⟨a', rs'', e', hb, hsh', hw''⟩ := h2
      exact ⟨a', rs'', e', hb, hsh.trans hsh', hw''⟩
    | fault e b =>
      rw [hp2] at h2
      obtain ⟨rs'', e', hb, hsh', hw''⟩ := h2
      rw [hsh.length] at hb
      exact ⟨rs'', e', hb, hsh.trans hsh', hw''⟩
    | tooDeep =>
      rw [hp2] at h2
      exact h2
  | fault e b =>
    rw [hp] at h1
    obtain ⟨rs', e', hb⟩ := h1
    exact ⟨rs', by rw [e'], hb⟩
  | tooDeep =>
    rw [hp] at h1
    dsimp only at h1 ⊢
    rw [h1]

theorem performs_map {x : R α} {g : α → β} (h : Performs f c as x) : Performs f c as (x >>= fun a => pure (g a)) := by
  have := performs_bind (bs := []) h fun a => performs_pure (g a)
  rwa [List.append_nil] at this

theorem performs_scope {x : R α} (h : Performs f c as x) :
    Performs f c (.enter :: (as ++ [.leave])) (inNewScope x) := by
  intro rs hw hf hc
  have hl : rs.bindings.length = rs.scopes.length := by simp [Resolver.bindings]
  simp only [perform, Act.fault, Act.tooDeep, hl, decide_eq_true_eq, Act.after, inNewScope, bind, M.bind, beginScope,
    varLocMaxDistance]
  by_cases hd : 65535 ≤ rs.scopes.length
  · simp only [if_pos hd, if_pos (show rs.scopes.length ≥ 65535 from hd)]
  · simp only [if_neg hd, if_neg (show ¬ rs.scopes.length ≥ 65535 from hd)]
    have hwe : Wf rs.enter := (enter_steps hw (by simp only [varLocMaxDistance]; omega)).wf
    have h1 := h rs.enter hwe hf hc
    have hb : ([] : List (Str × Status)) :: rs.bindings = rs.enter.bindings := rfl
    rw [perform_append, hb]
    have hsh : ∀ {rs'}, SameShape rs.enter rs' → SameShape rs rs'.endScope := by
      intro rs' hs
      have hlen := hs.length
      simp only [Resolver.enter, List.length_cons] at hlen
      refine ⟨hs.functionType, hs.classType, by simp [Resolver.endScope, hlen], ?_⟩
      intro e
      have : rs.scopes.length = 0 := by
        have h := congrArg List.length e
        simp [Resolver.endScope, hlen] at h
        exact h ▸ rfl
      exact hw.nonempty (List.length_eq_zero_iff.mp this)
    have hwf : ∀ {rs'}, SameShape rs.enter rs' → Wf rs' → Wf rs'.endScope := by
      intro rs' hs hw'
      refine (leave_steps hw' ?_).wf
      have hlen := hs.length
      simp only [Resolver.enter, List.length_cons] at hlen
      have := List.length_pos_iff.mpr hw.nonempty
      omega
    have hr : rs.enter.scopes.length = rs.scopes.length + 1 := by simp [Resolver.enter]
    cases hp : perform rs.enter.bindings as with
    | fine b =>
      rw [hp] at h1
      obtain ⟨a, rs', e, rfl, hs, hw'⟩ := h1
      simp only [perform, Act.fault, Act.tooDeep, Act.after, Bool.false_eq_true, if_false]
      refine ⟨a, rs'.endScope, ?_, ?_, hsh hs, hwf hs hw'⟩
      · change andFinally x _ rs.enter = _
        rw [andFinally, e]
      · simp [Resolver.bindings, Resolver.endScope, List.map_tail]
    | fault e b =>
      rw [hp] at h1
      obtain ⟨rs', e', hb', hs, hw'⟩ := h1
      refine ⟨rs'.endScope, ?_, ?_, hsh hs, hwf hs hw'⟩
      · change andFinally x _ rs.enter = _
        rw [andFinally, e']
      · have : rs'.endScope.bindings = rs'.bindings.tail := by simp [Resolver.bindings, Resolver.endScope, List.map_tail]
        rw [this, hb', List.tail_drop]
        have hlen := congrArg List.length hb'
        have h2 := hs.length
        simp only [Resolver.bindings, List.length_map, List.length_drop] at hlen
        congr 1
        omega
    | tooDeep =>
      rw [hp] at h1
      dsimp only at h1 ⊢
      change andFinally x _ rs.enter = _
      rw [andFinally, h1]

theorem performs_function {x : R α} {f' : FunctionAround} {ft : FnType} (hft : FunctionAround.Is f' ft) (h : Performs f' c as x) :
    Performs f c as (withFunctionType ft x) := by
  intro rs hw hf hc
  have h1 := h { rs with functionType := ft } (wf_types hw _ _) hft hc
  have hb : Resolver.bindings { rs with functionType := ft } = rs.bindings := rfl
  rw [hb] at h1
  unfold withFunctionType
  simp only [andFinally]
  cases hp : perform rs.bindings as with
  | fine b =>
    rw [hp] at h1
    obtain ⟨a, rs', e, rfl, hs, hw'⟩ := h1
    rw [e]
    exact ⟨a, _, rfl, rfl, ⟨rfl, hs.classType, hs.length, hs.nonempty⟩, wf_types hw' _ _⟩
  | fault e b =>
    rw [hp] at h1
    obtain ⟨rs', e', hb', hs, hw'⟩ := h1
    rw [e']
    exact ⟨_, rfl, hb', ⟨rfl, hs.classType, hs.length, hs.nonempty⟩, wf_types hw' _ _⟩
  | tooDeep =>
    rw [hp] at h1
    dsimp only at h1 ⊢
    rw [h1]

theorem performs_class {x : R α} {c' : ClassAround} {ct : ClassType} (hct : ClassAround.Is c' ct) (h : Performs f c' as x) :
    Performs f c as (withClassType ct x) := by
  intro rs hw hf hc
  have h1 := h { rs with classType := ct } (wf_types hw _ _) hf hct
  have hb : Resolver.bindings { rs with classType := ct } = rs.bindings := rfl
  rw [hb] at h1
  unfold withClassType
  simp only [andFinally]
  cases hp : perform rs.bindings as with
  | fine b =>
    rw [hp] at h1
    obtain ⟨a, rs', e, rfl, hs, hw'⟩ := h1
    rw [e]
    exact ⟨a, _, rfl, rfl, ⟨hs.functionType, rfl, hs.length, hs.nonempty⟩, wf_types hw' _ _⟩
  | fault e b =>
    rw [hp] at h1
    obtain ⟨rs', e', hb', hs, hw'⟩ := h1
    rw [e']
    exact ⟨_, rfl, hb', ⟨hs.functionType, rfl, hs.length, hs.nonempty⟩, wf_types hw' _ _⟩
  | tooDeep =>
    rw [hp] at h1
    dsimp only at h1 ⊢
    rw [h1]

/-! ### Primitive operations -/

/-- An operation that is one act. -/
theorem performs_one {a : Act} {x : R α} (hd : ∀ b, a.tooDeep b = false)
    (h : ∀ rs, Wf rs → FunctionAround.Is f rs.functionType → ClassAround.Is c rs.classType →
      match a.fault rs.bindings with
      | some e => x rs = .err e rs
      | none => ∃ r ss, x rs = .ok r { rs with scopes := ss } ∧ Resolver.bindings { rs with scopes := ss } = a.after rs.bindings ∧
          ss.length = rs.scopes.length ∧ Wf { rs with scopes := ss }) :
    Performs f c [a] x := by
  intro rs hw hf hc
  have h1 := h rs hw hf hc
  simp only [perform, hd, Bool.false_eq_true, if_false]
  cases hp : a.fault rs.bindings with
  | some e =>
    rw [hp] at h1
    exact ⟨rs, h1, by simp [Resolver.bindings], sameShape_refl hw, hw⟩
  | none =>
    rw [hp] at h1
    obtain ⟨r, ss, e, hb, hl, hw'⟩ := h1
    exact ⟨r, _, e, hb, ⟨rfl, rfl, hl, hw'.nonempty⟩, hw'⟩

theorem performs_wrong {x : R α} {e : Cause} (h : ∀ rs, FunctionAround.Is f rs.functionType → ClassAround.Is c rs.classType → x rs = .err e rs) :
    Performs f c [.wrong e] x :=
  performs_one (fun _ => rfl) fun rs _ hf hc => h rs hf hc

theorem performs_define (x : Str) (loc : SourceLoc) : Performs f c [.declare x loc] (define x loc) := by
  refine performs_one (fun _ => rfl) fun rs hw hf hc => ?_
  obtain ⟨scopes, ft, ct⟩ := rs
  cases scopes with
  | nil => exact absurd rfl hw.nonempty
  | cons s ss =>
    have hs := hw.scope s (by simp)
    simp only [Act.fault, Resolver.bindings, List.map_cons, List.head?_cons, Option.getD_some, bindings_length, mem_bindings hs,
      List.length_cons, List.length_map, define, ensureScopeIndexLimit, bind, M.bind, M.get, varLocMaxDistance, Act.after]
    by_cases hl : 65535 < s.length
    · simp only [hl, if_true, gt_iff_lt, M.throw]
      rfl
    · simp only [hl, gt_iff_lt, if_false, pure, M.pure]
      cases hg : s.get x with
      | none =>
        simp only [Option.some.injEq, reduceCtorEq, false_and, exists_false, if_false]
        exact ⟨(), _, rfl, by rw [← show DefinedState.definedVar.status = .declared from rfl, ← bindings_insertNew hg]; rfl, rfl, wf_cons hw rfl fun h => insertNew_wf h hg⟩
      | some v =>
        obtain ⟨i, d⟩ := v
        cases d with
        | undefinedVar =>
          simp only [Option.some.injEq, exists_eq_left', DefinedState.status, reduceCtorEq, false_and, if_false]
          exact ⟨(), _, rfl, by rw [← show DefinedState.definedVar.status = .declared from rfl, ← bindings_setState hs hg]; rfl, rfl, wf_cons hw rfl fun h => setState_wf h _ _⟩
        | declaredVar =>
          simp only [Option.some.injEq, exists_eq_left', DefinedState.status, reduceCtorEq, false_and, if_false]
          exact ⟨(), _, rfl, by rw [← show DefinedState.definedVar.status = .declared from rfl, ← bindings_setState hs hg]; rfl, rfl, wf_cons hw rfl fun h => setState_wf h _ _⟩
        | definedVar =>
          simp only [Option.some.injEq, exists_eq_left', DefinedState.status, true_and, Resolver.isInGlobalScope, List.length_cons]
          cases ss with
          | nil =>
            simp only [List.length_nil, Nat.lt_irrefl, Nat.zero_add, if_false, List.map_nil]
            refine ⟨(), _, rfl, ?_, rfl, hw⟩
            have := put_same hs hg
            simp only [DefinedState.status] at this
            rw [this]
            rfl
          | cons s2 ss =>
            simp [M.throw]
            rfl

theorem performs_declare (x : Str) (loc : SourceLoc) : Performs f c [.begin x loc] (declare x loc) := by
  refine performs_one (fun _ => rfl) fun rs hw hf hc => ?_
  obtain ⟨scopes, ft, ct⟩ := rs
  cases scopes with
  | nil => exact absurd rfl hw.nonempty
  | cons s ss =>
    have hs := hw.scope s (by simp)
    simp only [Act.fault, Resolver.bindings, List.map_cons, List.head?_cons, Option.getD_some, bindings_length, mem_bindings hs,
      List.length_cons, List.length_map, declare, ensureScopeIndexLimit, bind, M.bind, M.get, varLocMaxDistance, Act.after]
    by_cases hl : 65535 < s.length
    · simp only [hl, if_true, gt_iff_lt, M.throw]
      rfl
    · simp only [hl, gt_iff_lt, if_false, pure, M.pure]
      cases hg : s.get x with
      | none =>
        simp only [Option.some.injEq, reduceCtorEq, false_and, exists_false, if_false, or_self]
        exact ⟨_, _, rfl, by rw [← show DefinedState.declaredVar.status = .begun from rfl, ← bindings_insertNew hg]; rfl, rfl, wf_cons hw rfl fun h => insertNew_wf h hg⟩
      | some v =>
        obtain ⟨i, d⟩ := v
        cases d with
        | undefinedVar =>
          simp only [Option.some.injEq, exists_eq_left', DefinedState.status, reduceCtorEq, false_and, if_false, or_self]
          exact ⟨_, _, rfl, by rw [← show DefinedState.declaredVar.status = .begun from rfl, ← bindings_setState hs hg]; rfl, rfl, wf_cons hw rfl fun h => setState_wf h _ _⟩
        | declaredVar =>
          simp only [Option.some.injEq, exists_eq_left', DefinedState.status, true_and, Resolver.isInGlobalScope, List.length_cons,
            true_or]
          cases ss with
          | nil =>
            simp only [List.length_nil, Nat.lt_irrefl, Nat.zero_add, if_false, if_true, List.map_nil]
            exact ⟨_, _, rfl, rfl, rfl, hw⟩
          | cons s2 ss =>
            simp [M.throw]
            rfl
        | definedVar =>
          simp only [Option.some.injEq, exists_eq_left', DefinedState.status, true_and, Resolver.isInGlobalScope, List.length_cons,
            or_true]
          cases ss with
          | nil =>
            simp only [List.length_nil, Nat.lt_irrefl, Nat.zero_add, if_false, if_true, List.map_nil]
            exact ⟨_, _, rfl, rfl, rfl, hw⟩
          | cons s2 ss =>
            simp [M.throw]
            rfl

theorem putGlobal_append (x : Str) (b : Bindings) (g : List (Str × Status)) :
    putGlobal x (b ++ [g]) = b ++ [g ++ [(x, .used)]] := by
  induction b with
  | nil => rfl
  | cons s ss ih =>
    cases ss with
    | nil => rfl
    | cons t ss =>
      simp only [List.cons_append] at ih ⊢
      rw [putGlobal, ih]
      simp

/-- A use of a name, as an act. -/
theorem local_act (x : Str) (loc : SourceLoc) (rs : Resolver) (hw : Wf rs) :
    match useFault rs.bindings x loc with
    | some e => resolveLocalVariable x loc rs = .err e rs
    | none => ∃ r ss, resolveLocalVariable x loc rs = .ok r { rs with scopes := ss } ∧
        Resolver.bindings { rs with scopes := ss } = (if IsBound rs.bindings x then rs.bindings else putGlobal x rs.bindings) ∧
        ss.length = rs.scopes.length ∧ Wf { rs with scopes := ss } := by
  have hn := hw.nonempty
  obtain ⟨before, g, e⟩ : ∃ before g, rs.scopes = before ++ [g] :=
    ⟨rs.scopes.dropLast, rs.scopes.getLast hn, (List.dropLast_concat_getLast hn).symm⟩
  have hlast : rs.bindings.getLast?.getD [] = g.bindings := by simp [Resolver.bindings, e]
  simp only [useFault, hlast, bindings_length]
  unfold resolveLocalVariable
  simp only [bind, M.bind, M.get]
  rcases findVar_spec x rs.scopes 0 with ⟨h, hu⟩ | ⟨before', s, after, v, e', hu, hv, h⟩
  · have hb : ¬ IsBound rs.bindings x := by rw [isBound_bindings]; exact fun h => h hu
    have hg : g.get x = none := hu g (by rw [e]; simp)
    rw [h]
    simp only [hb, not_false_eq_true, true_and, if_false, forwardReserveGlobalVar, bind, M.bind, M.get, e,
      List.getLast?_append, List.getLast?_singleton, Option.some_or, ensureScopeIndexLimit, varLocMaxDistance]
    by_cases hl : 65535 < g.length
    · simp only [hl, gt_iff_lt, if_true, M.throw]
      rfl
    · simp only [hl, gt_iff_lt, if_false, pure, M.pure, hg]
      unfold M.modify M.bind
      simp only [e, setGlobal_append]
      refine ⟨⟨before.length % 65536, g.length % 256⟩, before ++ [g.insertNew x ⟨g.length, .undefinedVar⟩], ?_, ?_, by simp, ?_⟩
      · simp
        rfl
      · have : rs.bindings = before.map Scope.bindings ++ [g.bindings] := by simp [Resolver.bindings, e]
        rw [this, putGlobal_append]
        simp [Resolver.bindings, Scope.insertNew, Scope.bindings, DefinedState.status]
      · refine ⟨by simp, by have := hw.depth; rw [e] at this; simpa using this, ?_⟩
        intro s hs
        simp only [List.mem_append, List.mem_singleton] at hs
        rcases hs with hs | rfl
        · exact hw.scope s (by rw [e]; simp [hs])
        · exact insertNew_wf (hw.scope g (by rw [e]; simp)) hg
  · have hb : IsBound rs.bindings x := by
      rw [isBound_bindings]
      intro hu'
      rw [hu' s (by rw [e']; simp)] at hv
      cases hv
    rw [h]
    simp only [hb, not_true_eq_false, false_and, if_false, if_true]
    exact ⟨_, rs.scopes, rfl, rfl, rfl, hw⟩

theorem performs_local (x : Str) (loc : SourceLoc) : Performs f c [.use x loc] (resolveLocalVariable x loc) :=
  performs_one (fun _ => rfl) fun rs hw _ _ => local_act x loc rs hw

theorem performs_variable (x : Str) (loc : SourceLoc) : Performs f c (readActs c x loc) (resolveVariable x loc) := by
  unfold readActs
  split
  · rename_i h
    obtain ⟨rfl, rfl⟩ := h
    refine performs_wrong fun rs _ hc => ?_
    simp only [ClassAround.Is] at hc
    simp [resolveVariable, bind, M.bind, M.get, hc, M.throw]
    rfl
  · rename_i h
    refine performs_one (fun _ => rfl) fun rs hw _ hc => ?_
    have hn : ¬ (rs.classType = .noClass ∧ x = c!"this") := by
      rintro ⟨h1, h2⟩
      refine h ⟨h2, ?_⟩
      cases c <;> simp_all [ClassAround.Is]
    have hl := local_act x loc rs hw
    simp only [resolveVariable, bind, M.bind, M.get, if_neg hn, Act.fault]
    cases hs : rs.scopes with
    | nil => exact absurd hs hw.nonempty
    | cons s ss =>
      have hsw := hw.scope s (by rw [hs]; simp)
      have hh : rs.bindings.head?.getD [] = s.bindings := by simp [Resolver.bindings, hs]
      rw [hh]
      simp only [mem_bindings hsw]
      by_cases hd : (s.get x).map (·.definedState) = some .declaredVar
      · have : ∃ v, s.get x = some v ∧ v.definedState.status = .begun := by
          obtain ⟨v, h1, h2⟩ := Option.map_eq_some_iff.mp hd
          exact ⟨v, h1, by rw [h2]; rfl⟩
        rw [if_pos this, if_pos hd]
        rfl
      · have : ¬ ∃ v, s.get x = some v ∧ v.definedState.status = .begun := by
          rintro ⟨v, h1, h2⟩
          apply hd
          rw [h1]
          cases hv : v.definedState <;> simp_all [DefinedState.status]
        rw [if_neg this, if_neg hd, ← hs]
        exact hl

theorem performs_super (loc : SourceLoc) : Performs f c (superActs loc c) (resolveSuper loc) := by
  cases c with
  | nowhere => exact performs_wrong fun rs _ hc => by simp only [ClassAround.Is] at hc; simp [resolveSuper, bind, M.bind, M.get, hc, M.throw]; rfl
  | plain => exact performs_wrong fun rs _ hc => by simp only [ClassAround.Is] at hc; simp [resolveSuper, bind, M.bind, M.get, hc, M.throw]; rfl
  | subclass =>
    refine performs_one (fun _ => rfl) fun rs hw _ hc => ?_
    simp only [ClassAround.Is] at hc
    have hl := local_act c!"super" loc rs hw
    have : resolveSuper loc rs = resolveLocalVariable c!"super" loc rs := by simp only [resolveSuper, bind, M.bind, M.get, hc]
    rw [this]
    exact hl

theorem performs_return (e : Expr) (loc : SourceLoc) : Performs f c (returnActs e loc f) (checkReturn e loc) := by
  cases f with
  | nowhere => exact performs_wrong fun rs hf _ => by simp only [FunctionAround.Is] at hf; simp [checkReturn, bind, M.bind, M.get, hf, M.throw]; rfl
  | plain =>
    intro rs hw hf hc
    refine ⟨(), rs, ?_, rfl, sameShape_refl hw, hw⟩
    rcases hf with hf | hf <;> simp [checkReturn, bind, M.bind, M.get, hf, pure, M.pure]
  | initializer =>
    cases e with
    | literalNil =>
      intro rs hw hf hc
      refine ⟨(), rs, ?_, rfl, sameShape_refl hw, hw⟩
      simp only [FunctionAround.Is] at hf
      simp [checkReturn, bind, M.bind, M.get, hf, pure, M.pure]
    | _ => exact performs_wrong fun rs hf _ => by simp only [FunctionAround.Is] at hf; simp [checkReturn, bind, M.bind, M.get, hf, M.throw]; rfl

theorem performs_superclass (x : Str) (e : Expr) : Performs f c (superclassActs x e) (checkSuperclass x (some e)) := by
  cases e with
  | «variable» y v loc =>
    simp only [superclassActs, checkSuperclass]
    split
    · exact performs_wrong fun _ _ _ => rfl
    · exact performs_pure _
  | _ => exact performs_pure _

theorem performs_cons {a : Act} {x : R α} {k : α → R β} (h : Performs f c [a] x) (hk : ∀ a, Performs f c bs (k a)) :
    Performs f c (a :: bs) (x >>= k) := performs_bind h hk

theorem performs_params : ∀ ps : List Parameter, Performs f c (paramActs ps) (defineParams ps)
  | [] => performs_pure _
  | p :: ps => performs_cons (performs_define _ _) fun _ => performs_params ps

mutual
theorem performs_stmt : ∀ (s : Stmt) (f : FunctionAround) (c : ClassAround), Performs f c (stmtActs f c s) (resolveStmt s)
  | .block b, f, c => by
    simp only [resolveStmt, stmtActs]
    exact performs_map (performs_scope (performs_stmts b f c))
  | .break loc, f, c => by
    simp only [resolveStmt, stmtActs]
    exact performs_pure _
  | .continue loc, f, c => by
    simp only [resolveStmt, stmtActs]
    exact performs_pure _
  | .class x none ms loc, f, c => by
    simp only [resolveStmt, stmtActs, Option.isSome, Bool.false_eq_true, if_false]
    refine performs_class (c' := .plain) rfl (performs_cons (performs_define _ _) fun _ => ?_)
    refine performs_bind (as := []) (performs_pure _) fun _ => performs_map (performs_scope (performs_cons (performs_define _ _) fun _ => ?_))
    exact performs_methods ms f .plain
  | .class x (some e) ms loc, f, c => by
    simp only [resolveStmt, stmtActs, Option.isSome, if_true]
    refine performs_class (c' := .subclass) rfl (performs_cons (performs_define _ _) fun _ => ?_)
    refine performs_bind (performs_superclass _ _) fun _ => performs_bind (performs_expr e f .subclass) fun _ => ?_
    refine performs_map (performs_scope (performs_cons (performs_define _ _) fun _ => performs_scope (performs_cons (performs_define _ _) fun _ => ?_)))
    exact performs_methods ms f .subclass
  | .expression e, f, c => by
    simp only [resolveStmt, stmtActs]
    exact performs_map (performs_expr e f c)
  | .print e, f, c => by
    simp only [resolveStmt, stmtActs]
    exact performs_map (performs_expr e f c)
  | .fun (.mk x d), f, c => by
    simp only [resolveStmt, stmtActs]
    exact performs_cons (performs_define _ _) fun _ => performs_map (performs_fn d _ f .plain c (.inl rfl))
  | .if e a none, f, c => by
    simp only [resolveStmt, stmtActs]
    exact performs_bind (performs_expr e f c) fun _ => performs_map (performs_stmt a f c)
  | .if e a (some b), f, c => by
    simp only [resolveStmt, stmtActs]
    exact performs_bind (performs_expr e f c) fun _ => performs_bind (performs_stmt a f c) fun _ => performs_map (performs_stmt b f c)
  | .return e loc, f, c => by
    simp only [resolveStmt, stmtActs]
    exact performs_bind (performs_return _ _) fun _ => performs_map (performs_expr e f c)
  | .var x _ e loc, f, c => by
    simp only [resolveStmt, stmtActs]
    exact performs_cons (performs_declare _ _) fun _ => performs_bind (performs_expr e f c) fun _ => performs_map (performs_define _ _)
  | .while e b, f, c => by
    simp only [resolveStmt, stmtActs]
    exact performs_bind (performs_expr e f c) fun _ => performs_map (performs_stmt b f c)
  | .whileIncrement e b i, f, c => by
    simp only [resolveStmt, stmtActs]
    exact performs_bind (performs_expr e f c) fun _ => performs_bind (performs_stmt b f c) fun _ => performs_map (performs_expr i f c)

theorem performs_stmts : ∀ (ss : List Stmt) (f : FunctionAround) (c : ClassAround), Performs f c (stmtsActs f c ss) (resolveStmts ss)
  | [], f, c => by
    simp only [resolveStmts, stmtsActs]
    exact performs_pure _
  | s :: ss, f, c => by
    simp only [resolveStmts, stmtsActs]
    exact performs_bind (performs_stmt s f c) fun _ => performs_map (performs_stmts ss f c)

theorem performs_expr : ∀ (e : Expr) (f : FunctionAround) (c : ClassAround), Performs f c (exprActs f c e) (resolveExpr e)
  | .assign x _ r loc, f, c => by
    simp only [resolveExpr, exprActs]
    exact performs_bind (performs_expr r f c) fun _ => performs_map (performs_local _ _)
  | .call g args loc, f, c => by
    simp only [resolveExpr, exprActs]
    exact performs_bind (performs_expr g f c) fun _ => performs_map (performs_exprs args f c)
  | .binary a op b loc, f, c => by
    simp only [resolveExpr, exprActs]
    exact performs_bind (performs_expr a f c) fun _ => performs_map (performs_expr b f c)
  | .function d, f, c => by
    simp only [resolveExpr, exprActs]
    exact performs_map (performs_fn d _ f .plain c (.inl rfl))
  | .get o n loc, f, c => by
    simp only [resolveExpr, exprActs]
    exact performs_map (performs_expr o f c)
  | .getIndex a i loc, f, c => by
    simp only [resolveExpr, exprActs]
    exact performs_bind (performs_expr a f c) fun _ => performs_map (performs_expr i f c)
  | .grouping e, f, c => by
    simp only [resolveExpr, exprActs]
    exact performs_map (performs_expr e f c)
  | .literalArray es, f, c => by
    simp only [resolveExpr, exprActs]
    exact performs_map (performs_exprs es f c)
  | .literalBool b, f, c => by
    simp only [resolveExpr, exprActs]
    exact performs_pure _
  | .literalMap ms, f, c => by
    simp only [resolveExpr, exprActs]
    exact performs_map (performs_entries ms f c)
  | .literalNil, f, c => by
    simp only [resolveExpr, exprActs]
    exact performs_pure _
  | .literalNumber x, f, c => by
    simp only [resolveExpr, exprActs]
    exact performs_pure _
  | .literalString x, f, c => by
    simp only [resolveExpr, exprActs]
    exact performs_pure _
  | .logical a op b, f, c => by
    simp only [resolveExpr, exprActs]
    exact performs_bind (performs_expr a f c) fun _ => performs_map (performs_expr b f c)
  | .set o n v loc, f, c => by
    simp only [resolveExpr, exprActs]
    exact performs_bind (performs_expr o f c) fun _ => performs_map (performs_expr v f c)
  | .setIndex a i v loc, f, c => by
    simp only [resolveExpr, exprActs]
    exact performs_bind (performs_expr a f c) fun _ => performs_bind (performs_expr i f c) fun _ => performs_map (performs_expr v f c)
  | .super _ n loc, f, c => by
    simp only [resolveExpr, exprActs]
    exact performs_map (performs_super _)
  | .unary op e loc, f, c => by
    simp only [resolveExpr, exprActs]
    exact performs_map (performs_expr e f c)
  | .variable x _ loc, f, c => by
    simp only [resolveExpr, exprActs]
    exact performs_map (performs_variable _ _)

theorem performs_exprs : ∀ (es : List Expr) (f : FunctionAround) (c : ClassAround), Performs f c (exprsActs f c es) (resolveExprs es)
  | [], f, c => by
    simp only [resolveExprs, exprsActs]
    exact performs_pure _
  | e :: es, f, c => by
    simp only [resolveExprs, exprsActs]
    exact performs_bind (performs_expr e f c) fun _ => performs_map (performs_exprs es f c)

theorem performs_entries : ∀ (ms : List MapEntry) (f : FunctionAround) (c : ClassAround), Performs f c (entriesActs f c ms) (resolveEntries ms)
  | [], f, c => by
    simp only [resolveEntries, entriesActs]
    exact performs_pure _
  | .mk k v :: ms, f, c => by
    simp only [resolveEntries, entriesActs]
    exact performs_bind (performs_expr v f c) fun _ => performs_map (performs_entries ms f c)

theorem performs_methods : ∀ (ms : List NamedFun) (f : FunctionAround) (c : ClassAround), Performs f c (methodsActs c ms) (resolveMethods ms)
  | [], f, c => by
    simp only [resolveMethods, methodsActs]
    exact performs_pure _
  | .mk x d :: ms, f, c => by
    simp only [resolveMethods, methodsActs]
    refine performs_bind (performs_fn d _ f _ c ?_) fun _ => performs_map (performs_methods ms f c)
    by_cases h : x = c!"init"
    · rw [if_pos h, if_pos h]; rfl
    · rw [if_neg h, if_neg h]; exact .inr rfl

theorem performs_fn : ∀ (d : FunDef) (ft : FnType) (f f' : FunctionAround) (c : ClassAround), FunctionAround.Is f' ft →
    Performs f c (funActs f' c d) (resolveFunction ft d)
  | .mk ps b k loc, ft, f, f', c, h => by
    simp only [resolveFunction, funActs]
    exact performs_map (performs_function h (performs_scope (performs_bind (performs_params ps) fun _ => performs_stmts b f' c)))
end

theorem loop_faults : ∀ (sts : List Stmt) (rs : Resolver), Wf rs → rs.scopes.length = 1 → rs.functionType = .noFunction →
    rs.classType = .noClass →
    match programFaults rs.bindings sts with
    | none => resolveLoop sts rs = .panic "Too many nested lexical scopes"
    | some (es, b) => ∃ sts' rs', resolveLoop sts rs = .done (sts', es, rs') ∧ rs'.bindings = b
  | [], rs, _, _, _, _ => ⟨[], rs, rfl, rfl⟩
  | s :: ss, rs, hw, hl, hf, hc => by
    have h := performs_stmt s .nowhere .nowhere rs hw hf hc
    simp only [programFaults, resolveLoop]
    cases hp : perform rs.bindings (stmtActs .nowhere .nowhere s) with
    | fine b =>
      rw [hp] at h
      obtain ⟨s', rs', e, rfl, hsh, hw'⟩ := h
      have ih := loop_faults ss rs' hw' (hsh.length.trans hl) (hsh.functionType.trans hf) (hsh.classType.trans hc)
      rw [e]
      dsimp only at ih ⊢
      cases hq : programFaults rs'.bindings ss with
      | none =>
        rw [hq] at ih
        simp [ih, bind, Outcome.bind]
      | some r =>
        rw [hq] at ih
        obtain ⟨sts', rs'', e', hb⟩ := ih
        exact ⟨_, rs'', by simp [e', bind, Outcome.bind]; rfl, hb⟩
    | fault e b =>
      rw [hp] at h
      obtain ⟨rs', e', hb, hsh, hw'⟩ := h
      have ih := loop_faults ss rs' hw' (hsh.length.trans hl) (hsh.functionType.trans hf) (hsh.classType.trans hc)
      rw [hl] at hb
      rw [hb] at ih
      rw [e']
      dsimp only at ih ⊢
      cases hq : programFaults (b.drop (b.length - 1)) ss with
      | none =>
        rw [hq] at ih
        simp [ih, bind, Outcome.bind]
      | some r =>
        rw [hq] at ih
        obtain ⟨sts', rs'', e'', hb'⟩ := ih
        exact ⟨_, rs'', by simp [e'', bind, Outcome.bind]; rfl, hb'⟩
    | tooDeep =>
      rw [hp] at h
      dsimp only at h ⊢
      rw [h]

theorem resolve_faults {sts : List Stmt} {rs : Resolver} (hw : Wf rs) (hl : rs.scopes.length = 1)
    (hf : rs.functionType = .noFunction) (hc : rs.classType = .noClass) :
    match programFaults rs.bindings sts with
    | none => rs.resolve sts = .panic "Too many nested lexical scopes"
    | some (es, b) => ∃ r rs', rs.resolve sts = .done (r, rs') ∧ rs'.bindings = b ∧
        if es = [] then ∃ sts', r = .ok sts' else r = .error es := by
  have h := loop_faults sts rs hw hl hf hc
  rw [resolve_loop]
  cases hp : programFaults rs.bindings sts with
  | none =>
    rw [hp] at h
    dsimp only at h ⊢
    rw [h]
  | some p =>
    obtain ⟨es, b⟩ := p
    rw [hp] at h
    obtain ⟨sts', rs', e, hb⟩ := h
    rw [e]
    cases es with
    | nil => exact ⟨_, rs', rfl, hb, by simp⟩
    | cons x es => exact ⟨_, rs', rfl, hb, by simp⟩

end Ws
