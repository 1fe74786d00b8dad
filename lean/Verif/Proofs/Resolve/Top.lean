import Verif.Proofs.Resolve.Failed
import Verif.Proofs.Resolve.Erase
import Verif.Proofs.Resolve.Rename
import Verif.Proofs.Resolve.Slots
/-! Resolving whole programs. -/
namespace Ws
open Ws.Spec

/-! ### Programs that are accepted -/

theorem loop_ok : ∀ (sts : List Stmt) {rs sts' rs'}, resolveLoop sts rs = .done (sts', [], rs') →
    Resolved (.nodes (sts.map .stmt)) (.nodes (sts'.map .stmt)) rs rs'
  | [], rs, sts', rs', h => by
    cases h
    exact .nil
  | s :: ss, rs, sts', rs', h => by
    unfold resolveLoop at h
    cases hs : resolveStmt s rs with
    | ok s' rs1 =>
      simp only [hs, bind, Outcome.bind] at h
      cases hl : resolveLoop ss rs1 with
      | done r =>
        obtain ⟨ss', es, rs2⟩ := r
        rw [hl] at h
        cases h
        exact .cons (resolved_stmt s hs) (loop_ok ss hl)
      | panic m => rw [hl] at h; cases h
      | diverge => rw [hl] at h; cases h
    | err e rs1 =>
      simp only [hs, bind, Outcome.bind] at h
      cases hl : resolveLoop ss rs1 with
      | done r =>
        obtain ⟨ss', es, rs2⟩ := r
        rw [hl] at h
        cases h
      | panic m => rw [hl] at h; cases h
      | diverge => rw [hl] at h; cases h
    | panic m => simp [hs] at h
    | diverge => simp [hs] at h

/-- A resolver's result comes from its loop. -/
theorem resolve_done {sts : List Stmt} {rs rs' : Resolver} {r} (h : rs.resolve sts = .done (r, rs')) :
    ∃ sts' es, resolveLoop sts rs = .done (sts', es, rs') ∧ r = if es.isEmpty then .ok sts' else .error es := by
  unfold Resolver.resolve at h
  simp only [bind, Outcome.bind] at h
  cases hl : resolveLoop sts rs with
  | done q =>
    obtain ⟨sts', es, rs1⟩ := q
    rw [hl] at h
    dsimp only at h
    split at h
    · rename_i he
      cases h
      exact ⟨sts', es, rfl, by rw [if_pos he]⟩
    · rename_i he
      cases h
      exact ⟨sts', es, rfl, by rw [if_neg he]⟩
  | panic m => rw [hl] at h; cases h
  | diverge => rw [hl] at h; cases h

theorem resolve_loop {sts : List Stmt} {rs : Resolver} : rs.resolve sts =
    match resolveLoop sts rs with
    | .done (sts', es, rs') => .done (if es.isEmpty then .ok sts' else .error es, rs')
    | .panic m => .panic m
    | .diverge => .diverge := by
  unfold Resolver.resolve
  simp only [bind, Outcome.bind]
  cases resolveLoop sts rs with
  | done q =>
    obtain ⟨sts', es, rs1⟩ := q
    dsimp only
    split <;> rfl
  | panic m => rfl
  | diverge => rfl

theorem resolve_ok {sts sts' : List Stmt} {rs rs' : Resolver} (h : rs.resolve sts = .done (.ok sts', rs')) :
    Resolved (.nodes (sts.map .stmt)) (.nodes (sts'.map .stmt)) rs rs' := by
  obtain ⟨sts2, es, hl, e⟩ := resolve_done h
  split at e
  · rename_i he
    cases e
    cases es with
    | nil => exact loop_ok sts hl
    | cons => simp at he
  · cases e

/-! ### All programs -/

/-- The end of a loop. -/
def LoopEnds (sts : List Stmt) (rs : Resolver) : Outcome (List Stmt × List Cause × Resolver) → Prop
  | .done (_, _, rs') => Kept rs rs'
  | .panic m => m = "Too many nested lexical scopes" ∧ varLocMaxDistance < rs.scopes.length + stmtsDepth sts
  | .diverge => False

theorem loop_ends : ∀ (sts : List Stmt) (rs : Resolver), Wf rs → LoopEnds sts rs (resolveLoop sts rs)
  | [], rs, hw => Kept.refl hw
  | s :: ss, rs, hw => by
    have h1 : Ends (stmtDepth s) rs (resolveStmt s rs) := closed_stmt good_closed s rs hw
    unfold resolveLoop
    have key : ∀ rs1 (f : List Stmt × List Cause × Resolver → List Stmt × List Cause × Resolver),
        (∀ x, (f x).2.2 = x.2.2) → Kept rs rs1 →
        LoopEnds (s :: ss) rs (do let x ← resolveLoop ss rs1; .done (f x)) := by
      intro rs1 f hf hk
      have h2 := loop_ends ss rs1 hk.wf
      simp only [bind, Outcome.bind]
      cases hl : resolveLoop ss rs1 with
      | done q =>
        rw [hl] at h2
        obtain ⟨a, b, c⟩ := q
        have e := hf (a, b, c)
        show LoopEnds (s :: ss) rs (.done (f (a, b, c)))
        generalize f (a, b, c) = y at e
        obtain ⟨a', b', c'⟩ := y
        dsimp only at e
        subst e
        exact hk.trans h2
      | panic m =>
        rw [hl] at h2
        refine ⟨h2.1, ?_⟩
        have := h2.2
        rw [hk.shape.length] at this
        simp only [stmtsDepth]
        omega
      | diverge => rw [hl] at h2; exact h2
    revert h1
    cases resolveStmt s rs with
    | ok s' rs1 => exact fun h1 => key rs1 (fun x => (s' :: x.1, x.2.1, x.2.2)) (fun _ => rfl) h1
    | err e rs1 => exact fun h1 => key rs1 (fun x => (s :: x.1, e :: x.2.1, x.2.2)) (fun _ => rfl) h1
    | panic m =>
      intro h1
      refine ⟨h1.1, ?_⟩
      have := h1.2
      simp only [stmtsDepth]
      omega
    | diverge => exact fun h1 => h1.elim

theorem resolve_kept {sts : List Stmt} {rs rs' : Resolver} {r} (hw : Wf rs) (h : rs.resolve sts = .done (r, rs')) :
    Kept rs rs' := by
  obtain ⟨_, _, hl, _⟩ := resolve_done h
  have := loop_ends sts rs hw
  rw [hl] at this
  exact this

theorem resolve_panic {sts : List Stmt} {rs : Resolver} {m} (hw : Wf rs) (h : rs.resolve sts = .panic m) :
    m = "Too many nested lexical scopes" ∧ varLocMaxDistance < rs.scopes.length + stmtsDepth sts := by
  rw [resolve_loop] at h
  have := loop_ends sts rs hw
  revert this
  cases hl : resolveLoop sts rs with
  | done q => rw [hl] at h; cases h
  | panic m => rw [hl] at h; cases h; exact id
  | diverge => rw [hl] at h; cases h

theorem resolve_not_diverge {sts : List Stmt} {rs : Resolver} (hw : Wf rs) : rs.resolve sts ≠ .diverge := by
  rw [resolve_loop]
  have := loop_ends sts rs hw
  revert this
  cases hl : resolveLoop sts rs with
  | done q => simp
  | panic m => simp
  | diverge => exact fun h => h.elim

theorem loop_clean : ∀ (sts : List Stmt) (rs : Resolver), Wf rs → GlobalClean rs → Bound rs →
    (∀ s ∈ sts, AllOrdinary (.stmt s)) → ∀ sts' es rs', resolveLoop sts rs = .done (sts', es, rs') → GlobalClean rs'
  | [], rs, _, hg, _, _, _, _, _, h => by
    cases h
    exact hg
  | s :: ss, rs, hw, hg, hb, ho, sts', es, rs', h => by
    have h1 := safe_stmt s (ho s (by simp)) rs hw hg hb
    unfold resolveLoop at h
    have key : ∀ rs1, Kept rs rs1 → GlobalClean rs1 → ∀ sts' es rs', resolveLoop ss rs1 = .done (sts', es, rs') → GlobalClean rs' :=
      fun rs1 k hg1 => loop_clean ss rs1 k.wf hg1 (bound_stable _ _ k hb) fun t ht => ho t (by simp [ht])
    cases hs : resolveStmt s rs with
    | ok s' rs1 =>
      rw [hs] at h1
      simp only [hs, bind, Outcome.bind] at h
      cases hl : resolveLoop ss rs1 with
      | done r =>
        obtain ⟨ss', es, rs2⟩ := r
        rw [hl] at h
        cases h
        exact key rs1 h1.1 h1.2.1 _ _ _ hl
      | panic m => rw [hl] at h; cases h
      | diverge => rw [hl] at h; cases h
    | err e rs1 =>
      rw [hs] at h1
      simp only [hs, bind, Outcome.bind] at h
      cases hl : resolveLoop ss rs1 with
      | done r =>
        obtain ⟨ss', es, rs2⟩ := r
        rw [hl] at h
        cases h
        exact key rs1 h1.1 h1.2 _ _ _ hl
      | panic m => rw [hl] at h; cases h
      | diverge => rw [hl] at h; cases h
    | panic m => simp [hs] at h
    | diverge => simp [hs] at h

/-! ### Annotations -/

/-- The results of resolving programs that differ in their annotations: the statements are the same if
there are no errors. -/
def SameResult : Outcome (List Stmt × List Cause × Resolver) → Outcome (List Stmt × List Cause × Resolver) → Prop
  | .done (sts, es, rs), .done (sts', es', rs') => es = es' ∧ rs = rs' ∧ (es = [] → sts = sts')
  | .panic m, .panic m' => m = m'
  | .diverge, .diverge => True
  | _, _ => False

theorem SameResult.refl : ∀ r, SameResult r r
  | .done (_, _, _) => ⟨rfl, rfl, fun _ => rfl⟩
  | .panic _ => rfl
  | .diverge => trivial

theorem loop_same : ∀ (sts sts' : List Stmt) (rs : Resolver), eraseStmts sts = eraseStmts sts' →
    SameResult (resolveLoop sts rs) (resolveLoop sts' rs)
  | [], [], rs, _ => ⟨rfl, rfl, fun _ => rfl⟩
  | [], s' :: ss', rs, h => by simp [eraseStmts] at h
  | s :: ss, [], rs, h => by simp [eraseStmts] at h
  | s :: ss, s' :: ss', rs, h => by
    simp only [eraseStmts, List.cons.injEq] at h
    have e : resolveStmt s' rs = resolveStmt s rs := by
      rw [← resolveStmt_erase s', ← resolveStmt_erase s, h.1]
    unfold resolveLoop
    rw [e]
    cases resolveStmt s rs with
    | ok t rs1 =>
      have := loop_same ss ss' rs1 h.2
      simp only [bind, Outcome.bind]
      revert this
      cases resolveLoop ss rs1 with
      | done q =>
        cases resolveLoop ss' rs1 with
        | done q' =>
          obtain ⟨a, b, c⟩ := q
          obtain ⟨a', b', c'⟩ := q'
          exact fun h => ⟨h.1, h.2.1, fun e => by rw [h.2.2 e]⟩
        | _ => exact id
      | panic m => cases resolveLoop ss' rs1 <;> exact id
      | diverge => cases resolveLoop ss' rs1 <;> exact id
    | err c rs1 =>
      have := loop_same ss ss' rs1 h.2
      simp only [bind, Outcome.bind]
      revert this
      cases resolveLoop ss rs1 with
      | done q =>
        cases resolveLoop ss' rs1 with
        | done q' =>
          obtain ⟨a, b, c⟩ := q
          obtain ⟨a', b', c'⟩ := q'
          exact fun h => ⟨by rw [h.1], h.2.1, fun e => by cases e⟩
        | _ => exact id
      | panic m => cases resolveLoop ss' rs1 <;> exact id
      | diverge => cases resolveLoop ss' rs1 <;> exact id
    | panic m => rfl
    | diverge => trivial

theorem resolve_same {sts sts' : List Stmt} {rs : Resolver} (h : eraseStmts sts = eraseStmts sts') :
    rs.resolve sts = rs.resolve sts' := by
  rw [resolve_loop, resolve_loop]
  have := loop_same sts sts' rs h
  revert this
  cases resolveLoop sts rs with
  | done q =>
    cases resolveLoop sts' rs with
    | done q' =>
      obtain ⟨a, b, c⟩ := q
      obtain ⟨a', b', c'⟩ := q'
      rintro ⟨rfl, rfl, h⟩
      dsimp only
      cases b with
      | nil => rw [h rfl]
      | cons => rfl
    | _ => exact fun h => h.elim
  | panic m =>
    cases resolveLoop sts' rs with
    | panic m' =>
      intro h
      cases h
      rfl
    | _ => exact fun h => h.elim
  | diverge =>
    cases resolveLoop sts' rs with
    | diverge => exact fun _ => rfl
    | _ => exact fun h => h.elim

theorem map_stmt_inj : ∀ {a b : List Stmt}, a.map Node.stmt = b.map Node.stmt → a = b
  | [], [], _ => rfl
  | [], _ :: _, h => by simp at h
  | _ :: _, [], h => by simp at h
  | x :: a, y :: b, h => by
    simp only [List.map_cons, List.cons.injEq, Node.stmt.injEq] at h
    rw [h.1, map_stmt_inj h.2]

theorem resolve_erase {sts sts' : List Stmt} {rs rs' : Resolver} (h : rs.resolve sts = .done (.ok sts', rs')) :
    eraseStmts sts' = eraseStmts sts := by
  have := resolved_erase (resolve_ok h)
  simp only [eraseItem, Item.nodes.injEq, List.map_map] at this
  rw [eraseStmts_eq, eraseStmts_eq]
  refine map_stmt_inj ?_
  rw [List.map_map, List.map_map]
  exact this.symm

/-! ### Renaming -/

/-- The results of resolving a program and the renamed program. -/
inductive RenLoop (σ : Str → Str) : Outcome (List Stmt × List Cause × Resolver) → Outcome (List Stmt × List Cause × Resolver) → Prop
  | done (sts es es' rs) : RenamedCauses σ es es' →
      RenLoop σ (.done (sts, es, rs)) (.done (renameStmts σ sts, es', rs.rename σ))
  | panic (m) : RenLoop σ (.panic m) (.panic m)
  | diverge : RenLoop σ .diverge .diverge

theorem loop_rename {σ} (hσ : Renaming σ) : ∀ (sts : List Stmt) (rs : Resolver),
    RenLoop σ (resolveLoop sts rs) (resolveLoop (renameStmts σ sts) (rs.rename σ))
  | [], rs => by
    simp only [renameStmts, resolveLoop]
    have := RenLoop.done (σ := σ) [] [] [] rs .nil
    simpa only [renameStmts] using this
  | s :: ss, rs => by
    simp only [renameStmts, resolveLoop]
    have h := ren_stmt hσ s rs
    revert h
    generalize resolveStmt s rs = r
    generalize resolveStmt (renameStmt σ s) (rs.rename σ) = r'
    intro h
    cases h with
    | ok a rs1 =>
      have := loop_rename hσ ss rs1
      simp only [bind, Outcome.bind]
      revert this
      generalize resolveLoop ss rs1 = q
      generalize resolveLoop (renameStmts σ ss) (rs1.rename σ) = q'
      intro h
      cases h with
      | done sts es es' rs2 h =>
        have := RenLoop.done (a :: sts) es es' rs2 h
        simpa only [renameStmts] using this
      | panic m => exact .panic m
      | diverge => exact .diverge
    | @err c c' rs1 hc =>
      have := loop_rename hσ ss rs1
      simp only [bind, Outcome.bind]
      revert this
      generalize resolveLoop ss rs1 = q
      generalize resolveLoop (renameStmts σ ss) (rs1.rename σ) = q'
      intro h
      cases h with
      | done sts es es' rs2 h =>
        have := RenLoop.done (s :: sts) (c :: es) (c' :: es') rs2 (.cons hc h)
        simpa only [renameStmts] using this
      | panic m => exact .panic m
      | diverge => exact .diverge
    | panic m => exact .panic m
    | diverge => exact .diverge

/-! ### Parts of a program and of the resolved program -/

theorem eraseMethods_eq (ms : List NamedFun) : eraseMethods ms = ms.map fun m => .mk m.name (eraseFun m.funDef) := by
  induction ms with
  | nil => simp [eraseMethods]
  | cons m ms ih =>
    cases m
    simp [eraseMethods, ih, NamedFun.name, NamedFun.funDef]

theorem eraseNode_parts (n : Node) : (eraseNode n).parts = n.parts.map eraseNode := by
  cases n with
  | expr e =>
    cases e <;> simp [eraseNode, Node.parts, exprParts, eraseExpr, eraseExprs_eq, eraseEntries_eq, MapEntry.value, Function.comp_def]
  | stmt s =>
    cases s with
    | «class» x e ms loc =>
      cases e <;> simp [eraseNode, Node.parts, stmtParts, eraseStmt, eraseMethods_eq, Function.comp_def, NamedFun.funDef]
    | «if» c a b => cases b <;> simp [eraseNode, Node.parts, stmtParts, eraseStmt]
    | «fun» f => cases f; simp [eraseNode, Node.parts, stmtParts, eraseStmt, NamedFun.funDef]
    | _ => simp [eraseNode, Node.parts, stmtParts, eraseStmt, eraseStmts_eq, Function.comp_def]
  | fn d =>
    cases d
    simp [eraseNode, Node.parts, eraseFun, FunDef.body, eraseStmts_eq, Function.comp_def]

theorem within_erase {x n : Node} (h : Within x n) : Within (eraseNode x) (eraseNode n) := by
  induction h with
  | refl => exact .refl
  | step hc _ ih => exact .step (by rw [eraseNode_parts]; exact List.mem_map_of_mem hc) ih

theorem within_of_erase {y m : Node} (h : Within y m) : ∀ n, m = eraseNode n → ∃ x, Within x n ∧ y = eraseNode x := by
  induction h with
  | refl => exact fun n e => ⟨n, .refl, e⟩
  | step hc _ ih =>
    rintro n rfl
    rw [eraseNode_parts] at hc
    obtain ⟨c, hc', rfl⟩ := List.mem_map.mp hc
    obtain ⟨x, hx, e⟩ := ih c rfl
    exact ⟨x, .step hc' hx, e⟩

theorem ordinary_erase (n : Node) : Ordinary (eraseNode n) ↔ Ordinary n := by
  cases n with
  | expr e => cases e <;> simp [eraseNode, eraseExpr, Ordinary]
  | stmt s =>
    cases s with
    | «class» x e ms loc =>
      cases e with
      | none => simp [eraseNode, eraseStmt, Ordinary]
      | some e => cases e <;> simp [eraseNode, eraseStmt, eraseExpr, Ordinary]
    | «if» c a b => cases b <;> simp [eraseNode, eraseStmt, Ordinary]
    | «fun» f => cases f; simp [eraseNode, eraseStmt, Ordinary, NamedFun.name]
    | _ => simp [eraseNode, eraseStmt, Ordinary]
  | fn d =>
    cases d
    simp [eraseNode, eraseFun, Ordinary, FunDef.params]

/-- If all parts of a program are ordinary, so are those of the resolved program. -/
theorem ordinary_resolved {sts sts' : List Stmt} (he : eraseStmts sts' = eraseStmts sts)
    (h : ∀ s ∈ sts, AllOrdinary (.stmt s)) : ∀ s ∈ sts', AllOrdinary (.stmt s) := by
  intro s' hs' x hx
  rw [eraseStmts_eq, eraseStmts_eq] at he
  have : eraseStmt s' ∈ sts.map eraseStmt := by rw [← he]; exact List.mem_map_of_mem hs'
  obtain ⟨s, hs, e⟩ := List.mem_map.mp this
  obtain ⟨y, hy, e'⟩ := within_of_erase (within_erase hx) (.stmt s) (by simp only [eraseNode, e])
  rw [← ordinary_erase, e', ordinary_erase]
  exact h s hs y hy

/-! ### Inversions -/

theorem class_inv {a x e ms loc rs rs'} (h : Resolved a (.node (.stmt (.class x (some e) ms loc))) rs rs') :
    ∃ e0 rs1 rs2, checkSuperclass x (some e0) rs1 = .ok () rs1 ∧ Resolved (.node (.expr e0)) (.node (.expr e)) rs1 rs2 := by
  generalize hb : Item.node (.stmt (.class x (some e) ms loc)) = b at h
  cases h with
  | plain ha _ => cases hb; cases ha
  | subclass h h1 h2 => cases hb; exact ⟨_, _, _, h1, h2⟩
  | _ => cases hb

theorem variable_back {a x c loc rs rs'} (h : Resolved (.node (.expr a)) (.node (.expr (.variable x c loc))) rs rs') :
    ∃ c0, a = .variable x c0 loc := by
  generalize hb : Item.node (.expr (.variable x c loc)) = b at h
  generalize ha : Item.node (.expr a) = b' at h
  cases h with
  | plain h _ => cases hb; cases h
  | «variable» h => cases hb; cases ha; exact ⟨_, rfl⟩
  | _ => cases hb

theorem class_not_own {a x e ms loc rs rs'} (h : Resolved a (.node (.stmt (.class x e ms loc))) rs rs') :
    NotOwnSuperclass (.stmt (.class x e ms loc)) := by
  cases e with
  | none => trivial
  | some e =>
    cases e with
    | «variable» y c l =>
      obtain ⟨e0, rs1, rs2, h1, h2⟩ := class_inv h
      obtain ⟨c0, rfl⟩ := variable_back h2
      show x ≠ y
      rintro rfl
      simp [checkSuperclass, M.throw] at h1
    | _ => trivial

theorem return_inv {a e loc rs rs'} (h : Resolved a (.node (.stmt (.return e loc))) rs rs') :
    rs.functionType ≠ .noFunction ∧ (rs.functionType = .initializer → e = .literalNil) := by
  generalize hb : Item.node (.stmt (.return e loc)) = b at h
  cases h with
  | plain ha _ => cases hb; cases ha
  | «return» h h' =>
    cases hb
    obtain ⟨_, h1, h2⟩ := return_ok h
    refine ⟨h1, fun hi => ?_⟩
    cases h2 hi
    generalize ha : Item.node (.expr .literalNil) = a at h'
    generalize hb : Item.node (.expr e) = b at h'
    cases h' with
    | plain h _ => cases ha; cases h; cases hb; rfl
    | _ => cases ha
  | _ => cases hb

theorem methods_inv {a ms rs rs'} (h : Resolved a (.methods ms) rs rs') (hw : Wf rs) {m : NamedFun} (hm : m ∈ ms) :
    ∃ a1 rs1 rs2, Wf rs1 ∧ Resolved a1 (.fn (methodType m.name) m.funDef) rs1 rs2 := by
  generalize hb : Item.methods ms = b at h
  induction h generalizing ms with
  | methods_nil => cases hb; simp at hm
  | @methods_cons x d d' ms0 ms' rs rs1 rs2 h1 h2 _ i =>
    cases hb
    rcases List.mem_cons.mp hm with rfl | hm
    · exact ⟨_, _, _, hw, h1⟩
    · exact i (resolved_steps h1 hw).wf hm rfl
  | _ => cases hb

theorem class_methods {a x e ms loc rs rs'} (h : Resolved a (.node (.stmt (.class x e ms loc))) rs rs') (hw : Wf rs) :
    ∃ a1 rs1 rs2, Wf rs1 ∧ Resolved a1 (.methods ms) rs1 rs2 := by
  generalize hb : Item.node (.stmt (.class x e ms loc)) = b at h
  cases h with
  | plain ha _ => cases hb; cases ha
  | «class» h hl h' hm =>
    cases hb
    have w1 := (define_steps h (wf_types hw ..)).wf
    exact ⟨_, _, _, (enter_define_steps h' w1 hl).wf, hm⟩
  | subclass h hs he hl h' hl' h'' hm =>
    cases hb
    have w1 := (define_steps h (wf_types hw ..)).wf
    have w2 := (resolved_steps he w1).wf
    have w3 := (enter_define_steps h' w2 hl).wf
    exact ⟨_, _, _, (enter_define_steps h'' w3 hl').wf, hm⟩
  | _ => cases hb

theorem class_initReturns {a x e ms loc rs rs'} (h : Resolved a (.node (.stmt (.class x e ms loc))) rs rs') (hw : Wf rs) :
    InitReturnsNil (.stmt (.class x e ms loc)) := by
  intro m hm hn e' loc' hd
  obtain ⟨a1, rs1, rs2, hw1, h1⟩ := class_methods h hw
  obtain ⟨a2, rs3, rs4, hw3, h3⟩ := methods_inv h1 hw1 hm
  rcases direct_inv hd with hd | ⟨c, hc, hf, hd⟩
  · cases hd
  · obtain ⟨a4, rs5, rs6, h5, _, hft⟩ := resolved_direct h3 hw3 (.stmt (.return e' loc')) ⟨c, hc, hd⟩
    refine (return_inv h5).2 ?_
    rw [hft]
    simp [innerType, methodType, hn]

theorem was_inv {x : Node} {n} (h : WasResolved x n) :
    (∃ a rs rs', Resolved a (.node x) rs rs' ∧ Wf rs ∧ n ≤ rs.scopes.length) ∨
      ∃ a ft d rs rs', x = .fn d ∧ Resolved a (.fn ft d) rs rs' ∧ Wf rs ∧ n ≤ rs.scopes.length := by
  obtain ⟨a, b, rs, rs', h1, h2, h3, h4⟩ := h
  cases b with
  | node n => cases h3; exact .inl ⟨_, _, _, h1, h2, h4⟩
  | fn ft d => cases h3; exact .inr ⟨_, _, _, _, _, rfl, h1, h2, h4⟩
  | nodes _ => exact h3.elim
  | methods _ => exact h3.elim

/-- The parts of a block or function were resolved one scope further in. -/
theorem opens_inv {b : Node} {n} (h : WasResolved b n) (hb : b.opensScope = true) :
    ∃ a ns rs rs', Resolved a (.nodes ns) rs rs' ∧ Wf rs ∧ n + 1 ≤ rs.scopes.length ∧ b.parts = ns := by
  rcases was_inv h with ⟨a, rs, rs', h, hw, hn⟩ | ⟨a, ft, d, rs, rs', rfl, h, hw, hn⟩
  · generalize hc : Item.node b = c at h
    cases h with
    | block hl h1 =>
      cases hc
      exact ⟨_, _, _, _, h1, (enter_steps hw hl).wf, by simp [Resolver.enter]; exact hn, rfl⟩
    | plain ha _ => cases hc; cases ha <;> simp [Node.opensScope] at hb
    | _ => cases hc <;> simp [Node.opensScope] at hb
  · generalize hc : Item.fn ft d = c at h
    cases h with
    | fn hl h1 h' =>
      cases hc
      have w1 := (enter_steps hw hl).wf
      refine ⟨_, _, _, _, h', (params_steps h1 (wf_types w1 ..)).wf, ?_, rfl⟩
      have l1 : (_ : Nat) = _ := (params_shape h1 (by simp [Resolver.enter])).length
      simp only [Resolver.enter, List.length_cons] at l1
      omega
    | _ => cases hc

end Ws
