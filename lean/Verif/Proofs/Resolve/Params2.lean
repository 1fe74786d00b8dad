import Verif.Proofs.Resolve.Params
/-! Resolving a program in which the parameters of functions are renamed. -/
namespace Ws
open Ws.Spec

/-- The second result is that of the program with other parameters. -/
inductive CRes (P : Resolver → Prop) {α β : Type} (V : α → β → Prop) : Res Resolver Cause α → Res Resolver Cause β → Prop
  | ok {a b rs} : V a b → P rs → CRes P V (.ok a rs) (.ok b rs)
  | err {c c' rs} : c'.loc = c.loc → c'.message = c.message → P rs → CRes P V (.err c rs) (.err c' rs)
  | panic (m) : CRes P V (.panic m) (.panic m)
  | diverge : CRes P V .diverge .diverge

/-- The number of scopes stays the same. -/
def CE {α β : Type} (V : α → β → Prop) (x : R α) (x' : R β) : Prop :=
  ∀ rs, rs.scopes ≠ [] → CRes (fun t => t.scopes.length = rs.scopes.length) V (x rs) (x' rs)

theorem cres_trans {α β γ : Type} {P Q : Resolver → Prop} {V : α → β → Prop} {W : β → γ → Prop} {U : α → γ → Prop} {r1 r2 r3}
    (h : CRes P V r1 r2) (h' : CRes Q W r2 r3) (hu : ∀ {a b c}, V a b → W b c → U a c) : CRes P U r1 r3 := by
  cases h with
  | ok hv hp => cases h' with | ok hw _ => exact .ok (hu hv hw) hp
  | err h1 h2 hp => cases h' with | err h3 h4 _ => exact .err (h3.trans h1) (h4.trans h2) hp
  | panic m => cases h'; exact .panic m
  | diverge => cases h'; exact .diverge

theorem ce_pure {α β : Type} {V : α → β → Prop} {a : α} {b : β} (h : V a b) : CE V (pure a) (pure b) :=
  fun _ _ => .ok h rfl

theorem ne_of_length {A B : List Scope} (h : A.length = B.length) (hb : B ≠ []) : A ≠ [] := by
  intro e
  subst e
  exact hb (List.length_eq_zero_iff.mp h.symm)

theorem ce_bind {α β γ δ : Type} {V : α → β → Prop} {W : γ → δ → Prop} {x : R α} {x' : R β} {k : α → R γ} {k' : β → R δ}
    (h : CE V x x') (hk : ∀ a b, V a b → CE W (k a) (k' b)) : CE W (x >>= k) (x' >>= k') := by
  intro rs hn
  have h1 := h rs hn
  show CRes _ W (M.bind x k rs) (M.bind x' k' rs)
  unfold M.bind
  revert h1
  generalize x rs = r
  generalize x' rs = r'
  intro h1
  cases h1 with
  | ok hv hp =>
    have := hk _ _ hv _ (ne_of_length hp hn)
    rw [hp] at this
    exact this
  | err h1 h2 hp => exact .err h1 h2 hp
  | panic m => exact .panic m
  | diverge => exact .diverge

theorem ce_finally {α β : Type} {V : α → β → Prop} {x : R α} {x' : R β} {e : Resolver → Resolver} {rs rs' : Resolver} {P Q : Resolver → Prop}
    (h : CRes P V (x rs) (x' rs')) (he : ∀ t, P t → Q (e t)) : CRes Q V (andFinally x e rs) (andFinally x' e rs') := by
  unfold andFinally
  revert h
  generalize x rs = r
  generalize x' rs' = r'
  intro h1
  cases h1 with
  | ok hv hp => exact .ok hv (he _ hp)
  | err h1 h2 hp => exact .err h1 h2 (he _ hp)
  | panic m => exact .panic m
  | diverge => exact .diverge

theorem ce_scope {α β : Type} {V : α → β → Prop} {x : R α} {x' : R β} (h : CE V x x') : CE V (inNewScope x) (inNewScope x') := by
  intro rs hn
  unfold inNewScope
  show CRes _ V (M.bind beginScope _ rs) (M.bind beginScope _ rs)
  unfold M.bind beginScope
  by_cases hl : rs.scopes.length ≥ varLocMaxDistance
  · simp only [hl, if_true]
    exact .panic _
  · simp only [hl, if_false]
    refine ce_finally (h ⟨[] :: rs.scopes, rs.functionType, rs.classType⟩ (by simp)) ?_
    intro t ht
    simp only [List.length_cons] at ht
    simp only [Resolver.endScope, List.length_tail, ht]
    omega

theorem ce_function {α β : Type} {V : α → β → Prop} {x : R α} {x' : R β} (ft) (h : CE V x x') :
    CE V (withFunctionType ft x) (withFunctionType ft x') :=
  fun rs hn => ce_finally (h { rs with functionType := ft } hn) fun _ h => h

theorem ce_class {α β : Type} {V : α → β → Prop} {x : R α} {x' : R β} (ct) (h : CE V x x') :
    CE V (withClassType ct x) (withClassType ct x') :=
  fun rs hn => ce_finally (h { rs with classType := ct } hn) fun _ h => h

/-- The operation keeps the number of scopes. -/
def KeepsScopes {α : Type} (x : R α) : Prop := CE (α := α) (β := α) Eq x x

theorem ce_same {α : Type} {x : R α} (h : KeepsScopes x) : CE Eq x x := h

theorem keep_define (x loc) : KeepsScopes (define x loc) := by
  intro rs hn
  rcases define_spec x loc rs hn with ⟨msg, h⟩ | ⟨s, s', ss, e, h, _⟩
  · rw [h]; exact .err rfl rfl rfl
  · rw [h]; exact .ok rfl (by simp [e])

theorem keep_declare (x loc) : KeepsScopes (declare x loc) := by
  intro rs hn
  rcases declare_spec x loc rs hn with ⟨msg, h⟩ | ⟨s, s', ss, v, e, h, _⟩
  · rw [h]; exact .err rfl rfl rfl
  · rw [h]; exact .ok rfl (by simp [e])

theorem keep_local (x loc) : KeepsScopes (resolveLocalVariable x loc) := by
  intro rs hn
  rcases local_spec x loc rs hn with ⟨msg, h⟩ | ⟨b, s, a, v, e, _, _, h⟩ | ⟨b, g, e, _, _, h⟩
  · rw [h]; exact .err rfl rfl rfl
  · rw [h]; exact .ok rfl rfl
  · rw [h]; exact .ok rfl (by simp [e])

theorem keep_variable (x loc) : KeepsScopes (resolveVariable x loc) := by
  intro rs hn
  rcases variable_spec x loc rs hn with ⟨msg, h⟩ | ⟨h, _⟩
  · rw [h]; exact .err rfl rfl rfl
  · rw [h]; exact keep_local x loc rs hn

theorem keep_super (loc) : KeepsScopes (resolveSuper loc) := by
  intro rs hn
  rcases super_spec loc rs with ⟨msg, h⟩ | ⟨h, _⟩
  · rw [h]; exact .err rfl rfl rfl
  · rw [h]; exact keep_local _ loc rs hn

theorem keep_superclass (x e) : KeepsScopes (checkSuperclass x e) := by
  intro rs hn
  rcases superclass_spec x e rs with ⟨_, _, msg, _, h⟩ | ⟨h, _⟩
  · rw [h]; exact .err rfl rfl rfl
  · rw [h]; exact .ok rfl rfl

theorem keep_params : ∀ ps, KeepsScopes (defineParams ps)
  | [] => ce_pure rfl
  | p :: ps => ce_bind (keep_define p.name p.loc) fun _ _ _ => keep_params ps

/-- The same slots and locations. -/
abbrev VE (e e' : Expr) : Prop := (exprEvents e').map Event.nameless = (exprEvents e).map Event.nameless
abbrev VEs (e e' : List Expr) : Prop := (exprsEvents e').map Event.nameless = (exprsEvents e).map Event.nameless
abbrev VM (e e' : List MapEntry) : Prop := (entriesEvents e').map Event.nameless = (entriesEvents e).map Event.nameless
abbrev VN (e e' : List NamedFun) : Prop := (methodsEvents e').map Event.nameless = (methodsEvents e).map Event.nameless
abbrev VF (e e' : FunDef) : Prop := (funEvents e').map Event.nameless = (funEvents e).map Event.nameless
abbrev VS (e e' : Stmt) : Prop := (stmtEvents e').map Event.nameless = (stmtEvents e).map Event.nameless
abbrev VSs (e e' : List Stmt) : Prop := (stmtsEvents e').map Event.nameless = (stmtsEvents e).map Event.nameless

macro "va" : tactic => `(tactic| simp_all [VE, VEs, VM, VN, VF, VS, VSs, exprEvents, exprsEvents, entriesEvents, methodsEvents, funEvents, stmtEvents,
  stmtsEvents, Event.nameless])

/-! ### The function -/

mutual
theorem nr_expr (σ) : ∀ e, VE e (renameExpr σ e)
  | .assign x c r loc => by simp only [renameExpr]; have := nr_expr σ r; va
  | .call f args loc => by simp only [renameExpr]; have := nr_expr σ f; have := nr_exprs σ args; va
  | .binary a op b loc => by simp only [renameExpr]; have := nr_expr σ a; have := nr_expr σ b; va
  | .function d => by simp only [renameExpr]; have := nr_fun σ d; va
  | .get o x loc => by simp only [renameExpr]; have := nr_expr σ o; va
  | .getIndex a i loc => by simp only [renameExpr]; have := nr_expr σ a; have := nr_expr σ i; va
  | .grouping e => by simp only [renameExpr]; have := nr_expr σ e; va
  | .literalArray es => by simp only [renameExpr]; have := nr_exprs σ es; va
  | .literalMap ms => by simp only [renameExpr]; have := nr_entries σ ms; va
  | .logical a op b => by simp only [renameExpr]; have := nr_expr σ a; have := nr_expr σ b; va
  | .set o x v loc => by simp only [renameExpr]; have := nr_expr σ o; have := nr_expr σ v; va
  | .setIndex a i v loc => by simp only [renameExpr]; have := nr_expr σ a; have := nr_expr σ i; have := nr_expr σ v; va
  | .super c x loc => by simp only [renameExpr]
  | .variable x c loc => by simp only [renameExpr]; va
  | .unary op e loc => by simp only [renameExpr]; have := nr_expr σ e; va
  | .literalBool b => by simp only [renameExpr]
  | .literalNumber x => by simp only [renameExpr]
  | .literalNil => by simp only [renameExpr]
  | .literalString s => by simp only [renameExpr]
theorem nr_exprs (σ) : ∀ es, VEs es (renameExprs σ es)
  | [] => by simp only [renameExprs]
  | e :: es => by simp only [renameExprs]; have := nr_expr σ e; have := nr_exprs σ es; va
theorem nr_entries (σ) : ∀ ms, VM ms (renameEntries σ ms)
  | [] => by simp only [renameEntries]
  | .mk k v :: ms => by simp only [renameEntries]; have := nr_expr σ v; have := nr_entries σ ms; va
theorem nr_methods (σ) : ∀ ms, VN ms (renameMethods σ ms)
  | [] => by simp only [renameMethods]
  | .mk k d :: ms => by simp only [renameMethods]; have := nr_fun σ d; have := nr_methods σ ms; va
theorem nr_fun (σ) : ∀ d, VF d (renameFun σ d)
  | .mk ps b k loc => by simp only [renameFun]; have := nr_stmts σ b; va
theorem nr_stmt (σ) : ∀ s, VS s (renameStmt σ s)
  | .block b => by simp only [renameStmt]; have := nr_stmts σ b; va
  | .break loc => by simp only [renameStmt]
  | .continue loc => by simp only [renameStmt]
  | .class x none ms loc => by simp only [renameStmt]; have := nr_methods σ ms; va
  | .class x (some e) ms loc => by simp only [renameStmt]; have := nr_expr σ e; have := nr_methods σ ms; va
  | .expression e => by simp only [renameStmt]; have := nr_expr σ e; va
  | .fun (.mk x d) => by simp only [renameStmt]; have := nr_fun σ d; va
  | .if c a none => by simp only [renameStmt]; have := nr_expr σ c; have := nr_stmt σ a; va
  | .if c a (some b) => by simp only [renameStmt]; have := nr_expr σ c; have := nr_stmt σ a; have := nr_stmt σ b; va
  | .print e => by simp only [renameStmt]; have := nr_expr σ e; va
  | .return e loc => by simp only [renameStmt]; have := nr_expr σ e; va
  | .var x c e loc => by simp only [renameStmt]; have := nr_expr σ e; va
  | .while c b => by simp only [renameStmt]; have := nr_expr σ c; have := nr_stmt σ b; va
  | .whileIncrement c b i => by simp only [renameStmt]; have := nr_expr σ c; have := nr_stmt σ b; have := nr_expr σ i; va
theorem nr_stmts (σ) : ∀ ss, VSs ss (renameStmts σ ss)
  | [] => by simp only [renameStmts]
  | s :: ss => by simp only [renameStmts]; have := nr_stmt σ s; have := nr_stmts σ ss; va
end

variable {σ : Str → Str} {Qs : List Str}

/-- After a definition the name is known. -/
theorem grow_define (hσ : Renaming σ) {x loc rs rs'} (h : InFunR σ Qs 0 rs rs') :
    ARes σ (x :: Qs) 0 id (define x loc rs) (define (σ x) loc rs') := by
  have hn : rs.scopes ≠ [] := by
    have := h.scopes.length
    intro e
    rw [e] at this
    simp at this
  have h1 := ar_define hσ x loc 0 rs rs' h
  have h2 : ∀ t, define x loc rs = .ok () t → ∃ s ss, t.scopes = s :: ss ∧ (s.get x).isSome := by
    intro t ht
    rcases define_spec x loc rs hn with ⟨msg, h⟩ | ⟨s, s', ss, e, h, _, h3, _⟩
    · rw [h] at ht; cases ht
    · rw [h] at ht
      cases ht
      refine ⟨s', ss, rfl, ?_⟩
      cases hg : s'.get x with
      | none => rw [hg] at h3; cases h3
      | some v => rfl
  revert h1 h2
  generalize define x loc rs = r
  generalize define (σ x) loc rs' = r'
  intro h1 h2
  cases h1 with
  | @ok a t t' hr =>
    obtain ⟨s, ss, e, hs⟩ := h2 t rfl
    refine .ok () ⟨?_, hr.fn, hr.cls⟩
    have := hr.scopes
    revert this
    rw [e]
    generalize t'.scopes = B
    intro this
    cases this with
    | fn h1 h2 =>
      refine .fn h1 fun p hp => ?_
      rcases List.mem_cons.mp hp with rfl | hp
      · exact hs
      · exact h2 p hp
  | err h1 h => exact .err h1 h
  | panic m => exact .panic m
  | diverge => exact .diverge

theorem grow_bind {Ps : List Str} {α β γ δ : Type} {f : α → β} {g : γ → δ} {x : R α} {x' : R β} {k : α → R γ} {k' : β → R δ} {n rs rs'}
    (h : ARes σ Qs n f (x rs) (x' rs')) (hk : ∀ a t t', InFunR σ Qs n t t' → ARes σ Ps n g (k a t) (k' (f a) t')) :
    ARes σ Ps n g ((x >>= k) rs) ((x' >>= k') rs') := by
  show ARes σ Ps n g (M.bind x k rs) (M.bind x' k' rs')
  unfold M.bind
  revert h
  generalize x rs = r
  generalize x' rs' = r'
  intro h1
  cases h1 with
  | ok a h => exact hk a _ _ h
  | err h1 h => exact .err h1 h
  | panic m => exact .panic m
  | diverge => exact .diverge

theorem grow_params (hσ : Renaming σ) : ∀ (ps : List Parameter) (Qs : List Str) (rs rs'), InFunR σ Qs 0 rs rs' →
    ARes σ (ps.map (·.name)) 0 id (defineParams ps rs) (defineParams (ps.map fun p => { p with name := σ p.name }) rs') := by
  suffices key : ∀ (ps : List Parameter) (Qs Rs : List Str) (rs rs'), InFunR σ Qs 0 rs rs' → (∀ p ∈ Rs, p ∈ Qs ∨ p ∈ ps.map (·.name)) →
      ARes σ Rs 0 id (defineParams ps rs) (defineParams (ps.map fun p => { p with name := σ p.name }) rs') from
    fun ps Qs rs rs' h => key ps Qs _ rs rs' h fun p hp => .inr hp
  intro ps
  induction ps with
  | nil => exact fun Qs Rs rs rs' h hr => .ok () (h.weaken fun p hp => by simpa using hr p hp)
  | cons p ps ih =>
    intro Qs Rs rs rs' h hr
    refine grow_bind (grow_define hσ h) fun _ t t' ht => ih _ Rs t t' ht ?_
    intro q hq
    have := hr q hq
    simp only [List.map_cons, List.mem_cons] at this ⊢
    rcases this with h | h | h
    · exact .inl (.inr h)
    · exact .inl (.inl h)
    · exact .inr h

/-- Leaving the function. -/
theorem fn_close {Ps : List Str} {α β : Type} {f : α → β} {x : R α} {x' : R β} {rs : Resolver} {ft}
    (h : ARes σ Ps 0 f (x ⟨[] :: rs.scopes, ft, rs.classType⟩) (x' ⟨[] :: rs.scopes, ft, rs.classType⟩)) :
    CRes (fun _ => True) (fun a b => b = f a) (withFunctionType ft (inNewScope x) rs) (withFunctionType ft (inNewScope x') rs) := by
  have key : ∀ {Qs t t'}, InFunR σ Qs 0 t t' → Resolver.endScope t = Resolver.endScope t' := by
    rintro Qs ⟨A, b, c⟩ ⟨B, b', c'⟩ ⟨h1, h2, h3⟩
    dsimp only at h1 h2 h3
    subst h2 h3
    cases h1
    rfl
  unfold withFunctionType
  simp only [andFinally, inNewScope, bind, M.bind, beginScope]
  by_cases hl : rs.scopes.length ≥ varLocMaxDistance
  · simp only [hl, if_true]
    exact .panic _
  · simp only [hl, if_false]
    revert h
    generalize x _ = r
    generalize x' _ = r'
    intro h
    cases h with
    | ok a h => dsimp only; rw [key h]; exact .ok rfl trivial
    | err h1 h => dsimp only; rw [key h1]; exact .err h.loc h.message trivial
    | panic m => exact .panic m
    | diverge => exact .diverge

theorem fn_renamed (ft) {d : FunDef} (h : RenamesParams σ d) (rs : Resolver) (hn : rs.scopes ≠ []) :
    CRes (fun _ => True) VF (resolveFunction ft d rs) (resolveFunction ft (renameFun σ d) rs) := by
  obtain ⟨ps, b, k, loc⟩ := d
  have hb : ∀ ev ∈ stmtsEvents b, Known σ (ps.map (·.name)) ev := by
    intro ev hev
    have key : ∀ x, ev.mentions x = true → x ∈ ps.map (·.name) ∨ σ x = x := by
      intro x hx
      by_cases hp : x ∈ ps.map (·.name)
      · exact .inl hp
      · exact .inr (h.others x (List.any_eq_true.mpr ⟨ev, by simp [funEvents, hev], hx⟩) hp)
    cases ev with
    | enter ns => trivial
    | leave => trivial
    | declare x c => exact key x (by simp [Event.mentions])
    | use x c => exact key x (by simp [Event.mentions])
  have h1 := grow_bind (x := defineParams ps) (k := fun _ => resolveStmts b) (k' := fun _ => resolveStmts (renameStmts σ b)) (n := 0)
    (rs := ⟨[] :: rs.scopes, ft, rs.classType⟩) (rs' := ⟨[] :: rs.scopes, ft, rs.classType⟩)
    (grow_params h.toRenaming ps [] _ _ ⟨.fn hn (fun p hp => by cases hp), rfl, rfl⟩)
    (fun _ t t' ht => ar_stmts h.toRenaming b hb 0 t t' ht)
  have h2 := fn_close h1
  simp only [renameFun, resolveFunction]
  show CRes _ VF (M.bind (withFunctionType ft _) _ rs) (M.bind (withFunctionType ft _) _ rs)
  unfold M.bind
  revert h2
  generalize withFunctionType ft (inNewScope (defineParams ps >>= _)) rs = r
  generalize withFunctionType ft (inNewScope (defineParams (ps.map _) >>= _)) rs = r'
  intro h2
  cases h2 with
  | ok hv _ =>
    subst hv
    refine .ok ?_ trivial
    have := nr_stmts σ ‹_›
    va
  | err h1 h2 _ => exact .err h1 h2 trivial
  | panic m => exact .panic m
  | diverge => exact .diverge

variable (choose : FunDef → Str → Str)

theorem alphaFun_loc (d : FunDef) : (alphaFun choose d).loc = d.loc := by
  cases d; simp only [alphaFun, renameFun_loc]; rfl

theorem ce_return (e loc) : CE Eq (checkReturn e loc) (checkReturn (alphaExpr choose e) loc) := by
  intro rs hn
  have : checkReturn (alphaExpr choose e) loc rs = checkReturn e loc rs := by
    unfold checkReturn
    simp only [bind, M.bind, M.get]
    cases rs.functionType with
    | initializer => cases e <;> simp only [alphaExpr]
    | _ => rfl
  rw [this]
  rcases return_spec e loc rs with ⟨msg, h⟩ | ⟨h, _⟩
  · rw [h]; exact .err rfl rfl rfl
  · rw [h]; exact .ok rfl rfl

theorem ce_superclass (x e) : CE Eq (checkSuperclass x (some e)) (checkSuperclass x (some (alphaExpr choose e))) := by
  have : checkSuperclass x (some (alphaExpr choose e)) = checkSuperclass x (some e) := by
    unfold checkSuperclass
    cases e <;> simp only [alphaExpr]
  rw [this]
  exact keep_superclass x (some e)

variable (hc : ∀ d, RenamesParams (choose d) d)
include hc
set_option linter.unusedSectionVars false

mutual
theorem al_stmt : ∀ s, CE VS (resolveStmt s) (resolveStmt (alphaStmt choose s))
  | .block b => by
    simp only [resolveStmt, alphaStmt]
    exact ce_bind (ce_scope (al_stmts b)) fun _ _ h1 => ce_pure (by va)
  | .break loc => by
    simp only [resolveStmt, alphaStmt]
    exact ce_pure (by va)
  | .continue loc => by
    simp only [resolveStmt, alphaStmt]
    exact ce_pure (by va)
  | .class x none ms loc => by
    simp only [resolveStmt, alphaStmt]
    exact ce_class _ (ce_bind (ce_same (keep_define x loc)) fun _ _ _ => ce_bind (ce_same (keep_superclass x none)) fun _ _ _ =>
      ce_bind (ce_scope (ce_bind (ce_same (keep_define c!"this" loc)) fun _ _ _ => al_methods ms)) fun _ _ h1 => ce_pure (by va))
  | .class x (some e) ms loc => by
    simp only [resolveStmt, alphaStmt]
    exact ce_class _ (ce_bind (ce_same (keep_define x loc)) fun _ _ _ => ce_bind (ce_superclass choose x e) fun _ _ _ =>
      ce_bind (al_expr e) fun _ _ h1 =>
      ce_bind (ce_scope (ce_bind (ce_same (keep_define c!"super" loc)) fun _ _ _ =>
        ce_scope (ce_bind (ce_same (keep_define c!"this" loc)) fun _ _ _ => al_methods ms))) fun _ _ h2 => ce_pure (by va))
  | .expression e => by
    simp only [resolveStmt, alphaStmt]
    exact ce_bind (al_expr e) fun _ _ h1 => ce_pure (by va)
  | .print e => by
    simp only [resolveStmt, alphaStmt]
    exact ce_bind (al_expr e) fun _ _ h1 => ce_pure (by va)
  | .fun (.mk x d) => by
    simp only [resolveStmt, alphaStmt, alphaFun_loc]
    exact ce_bind (ce_same (keep_define x d.loc)) fun _ _ h1 => ce_bind (al_fn _ d) fun _ _ h2 => ce_pure (by va)
  | .if c a none => by
    simp only [resolveStmt, alphaStmt]
    exact ce_bind (al_expr c) fun _ _ h1 => ce_bind (al_stmt a) fun _ _ h2 => ce_pure (by va)
  | .if c a (some b) => by
    simp only [resolveStmt, alphaStmt]
    exact ce_bind (al_expr c) fun _ _ h1 => ce_bind (al_stmt a) fun _ _ h2 =>
      ce_bind (al_stmt b) fun _ _ h3 => ce_pure (by va)
  | .return e loc => by
    simp only [resolveStmt, alphaStmt]
    exact ce_bind (ce_return choose e loc) fun _ _ h1 => ce_bind (al_expr e) fun _ _ h2 => ce_pure (by va)
  | .var x c e loc => by
    simp only [resolveStmt, alphaStmt]
    exact ce_bind (ce_same (keep_declare x loc)) fun _ _ h1 => ce_bind (al_expr e) fun _ _ h2 =>
      ce_bind (ce_same (keep_define x loc)) fun _ _ h3 => ce_pure (by va)
  | .while c b => by
    simp only [resolveStmt, alphaStmt]
    exact ce_bind (al_expr c) fun _ _ h1 => ce_bind (al_stmt b) fun _ _ h2 => ce_pure (by va)
  | .whileIncrement c b i => by
    simp only [resolveStmt, alphaStmt]
    exact ce_bind (al_expr c) fun _ _ h1 => ce_bind (al_stmt b) fun _ _ h2 =>
      ce_bind (al_expr i) fun _ _ h3 => ce_pure (by va)

theorem al_stmts : ∀ ss, CE VSs (resolveStmts ss) (resolveStmts (alphaStmts choose ss))
  | [] => by
    simp only [resolveStmts, alphaStmts]
    exact ce_pure (by va)
  | s :: ss => by
    simp only [resolveStmts, alphaStmts]
    exact ce_bind (al_stmt s) fun _ _ h1 => ce_bind (al_stmts ss) fun _ _ h2 => ce_pure (by va)

theorem al_expr : ∀ e, CE VE (resolveExpr e) (resolveExpr (alphaExpr choose e))
  | .assign x c r loc => by
    simp only [resolveExpr, alphaExpr]
    exact ce_bind (al_expr r) fun _ _ h1 => ce_bind (ce_same (keep_local x loc)) fun _ _ h2 => ce_pure (by va)
  | .binary a op b loc => by
    simp only [resolveExpr, alphaExpr]
    exact ce_bind (al_expr a) fun _ _ h1 => ce_bind (al_expr b) fun _ _ h2 => ce_pure (by va)
  | .call f args loc => by
    simp only [resolveExpr, alphaExpr]
    exact ce_bind (al_expr f) fun _ _ h1 => ce_bind (al_exprs args) fun _ _ h2 => ce_pure (by va)
  | .function d => by
    simp only [resolveExpr, alphaExpr]
    exact ce_bind (al_fn _ d) fun _ _ h1 => ce_pure (by va)
  | .get o n loc => by
    simp only [resolveExpr, alphaExpr]
    exact ce_bind (al_expr o) fun _ _ h1 => ce_pure (by va)
  | .getIndex a b loc => by
    simp only [resolveExpr, alphaExpr]
    exact ce_bind (al_expr a) fun _ _ h1 => ce_bind (al_expr b) fun _ _ h2 => ce_pure (by va)
  | .grouping e => by
    simp only [resolveExpr, alphaExpr]
    exact ce_bind (al_expr e) fun _ _ h1 => ce_pure (by va)
  | .literalArray es => by
    simp only [resolveExpr, alphaExpr]
    exact ce_bind (al_exprs es) fun _ _ h1 => ce_pure (by va)
  | .literalBool b => by
    simp only [resolveExpr, alphaExpr]
    exact ce_pure (by va)
  | .literalMap ms => by
    simp only [resolveExpr, alphaExpr]
    exact ce_bind (al_entries ms) fun _ _ h1 => ce_pure (by va)
  | .literalNil => by
    simp only [resolveExpr, alphaExpr]
    exact ce_pure (by va)
  | .literalNumber x => by
    simp only [resolveExpr, alphaExpr]
    exact ce_pure (by va)
  | .literalString x => by
    simp only [resolveExpr, alphaExpr]
    exact ce_pure (by va)
  | .logical a op b => by
    simp only [resolveExpr, alphaExpr]
    exact ce_bind (al_expr a) fun _ _ h1 => ce_bind (al_expr b) fun _ _ h2 => ce_pure (by va)
  | .set a n b loc => by
    simp only [resolveExpr, alphaExpr]
    exact ce_bind (al_expr a) fun _ _ h1 => ce_bind (al_expr b) fun _ _ h2 => ce_pure (by va)
  | .setIndex a b c loc => by
    simp only [resolveExpr, alphaExpr]
    exact ce_bind (al_expr a) fun _ _ h1 => ce_bind (al_expr b) fun _ _ h2 =>
      ce_bind (al_expr c) fun _ _ h3 => ce_pure (by va)
  | .super c n loc => by
    simp only [resolveExpr, alphaExpr]
    exact ce_bind (ce_same (keep_super loc)) fun _ _ h1 => ce_pure (by va)
  | .unary op e loc => by
    simp only [resolveExpr, alphaExpr]
    exact ce_bind (al_expr e) fun _ _ h1 => ce_pure (by va)
  | .variable x c loc => by
    simp only [resolveExpr, alphaExpr]
    exact ce_bind (ce_same (keep_variable x loc)) fun _ _ h1 => ce_pure (by va)

theorem al_exprs : ∀ es, CE VEs (resolveExprs es) (resolveExprs (alphaExprs choose es))
  | [] => by
    simp only [resolveExprs, alphaExprs]
    exact ce_pure (by va)
  | s :: ss => by
    simp only [resolveExprs, alphaExprs]
    exact ce_bind (al_expr s) fun _ _ h1 => ce_bind (al_exprs ss) fun _ _ h2 => ce_pure (by va)

theorem al_entries : ∀ ms, CE VM (resolveEntries ms) (resolveEntries (alphaEntries choose ms))
  | [] => by
    simp only [resolveEntries, alphaEntries]
    exact ce_pure (by va)
  | .mk k v :: ms => by
    simp only [resolveEntries, alphaEntries]
    exact ce_bind (al_expr v) fun _ _ h1 => ce_bind (al_entries ms) fun _ _ h2 => ce_pure (by va)

theorem al_methods : ∀ ms, CE VN (resolveMethods ms) (resolveMethods (alphaMethods choose ms))
  | [] => by
    simp only [resolveMethods, alphaMethods]
    exact ce_pure (by va)
  | .mk k d :: ms => by
    simp only [resolveMethods, alphaMethods]
    exact ce_bind (al_fn _ d) fun _ _ h1 => ce_bind (al_methods ms) fun _ _ h2 => ce_pure (by va)

theorem al_fn : ∀ ft d, CE VF (resolveFunction ft d) (resolveFunction ft (alphaFun choose d))
  | ft, .mk ps b k loc => by
    have h1 : CE VF (resolveFunction ft (.mk ps b k loc)) (resolveFunction ft (.mk ps (alphaStmts choose b) k loc)) := by
      simp only [resolveFunction]
      exact ce_bind (ce_function _ (ce_scope (ce_bind (ce_same (keep_params ps)) fun _ _ _ => al_stmts b))) fun _ _ h1 => ce_pure (by va)
    intro rs hn
    have h2 := fn_renamed ft (hc (.mk ps (alphaStmts choose b) k loc)) rs hn
    simp only [alphaFun]
    exact cres_trans (h1 rs hn) h2 fun h h' => h'.trans h
end

end Ws
