import Verif.Proofs.Resolve.Unused
import Verif.Properties.Join
/-! Property C84: declarations that nothing uses are harmless. -/
namespace Ws.Properties
open Ws Spec

variable {F : List Str} {rs rs1 : Resolver} {sts : List Stmt} {r : Except ParseError (List Stmt)}

theorem session_padded (hs : Session rs) (hg : ∀ x ∈ F, x ∉ globals rs) : Padded F rs rs := by
  obtain ⟨g, h1, h2, _⟩ := session_scopes hs
  refine padded_self fun s hm x hx => ?_
  rw [h1, List.mem_singleton] at hm
  subst hm
  rw [scope_get_none, ← h2]
  exact hg x hx

theorem resolve_by_loop {r : Except ParseError (List Stmt)} (h : rs.resolve sts = .done (r, rs1)) :
    ∃ sts' es, resolveLoop sts rs = .done (sts', es, rs1) ∧ r = if es.isEmpty then .ok sts' else .error es := by
  unfold Resolver.resolve at h
  cases h1 : resolveLoop sts rs with
  | done x =>
    obtain ⟨a, b, c⟩ := x
    simp only [h1, bind, Outcome.bind] at h
    split at h
    · cases h
      rename_i hb
      exact ⟨a, b, rfl, by rw [if_pos hb]⟩
    · cases h
      rename_i hb
      exact ⟨a, b, rfl, by rw [if_neg hb]⟩
  | panic m => simp only [h1, bind, Outcome.bind] at h; cases h
  | diverge => simp only [h1, bind, Outcome.bind] at h; cases h

theorem loop_resolve {sts' : List Stmt} {es : List Cause} (h : resolveLoop sts rs = .done (sts', es, rs1)) :
    rs.resolve sts = .done (if es.isEmpty then .ok sts' else .error es, rs1) := by
  unfold Resolver.resolve
  simp only [h, bind, Outcome.bind]
  split <;> rfl

theorem about_excuses : Excuses (AboutDeclared F) := fun _ _ => .inr rfl

theorem resolve_padded {rs' : Resolver} (hp : Padded F rs rs') (hu : Unused F sts) (h : rs'.resolve sts = .done (r, rs1))
    (he : ∀ es, r = .error es → ∀ e ∈ es, ¬ AboutDeclared F e) :
    ∃ r' rs2, rs.resolve (dropStmts F sts) = .done (r', rs2) ∧ SameButUnused F r r' ∧ Padded F rs2 rs1 := by
  obtain ⟨sts', es, h1, h2⟩ := resolve_by_loop h
  have he' : ∀ e ∈ es, ¬ AboutDeclared F e := by
    intro e hm
    refine he es ?_ e hm
    rw [h2, if_neg]
    intro h0
    rw [List.isEmpty_iff.mp h0] at hm
    cases hm
  obtain ⟨out, t, g1, g2, g3⟩ := loop_padded about_excuses (fun x hx => ⟨hx, fun _ _ => .inl ⟨x, hx, rfl⟩⟩) hu.1 hu.2.1 sts hu.2.2 hp h1 he'
  refine ⟨_, t, loop_resolve g1, ?_, g2⟩
  rw [h2]
  cases es with
  | nil => exact g3 rfl
  | cons e es => exact rfl

/-- C84: the program without the declarations of some variables that it does not use otherwise is resolved
as the program with them: both have the same errors, or both are accepted, and every other variable is
found at the same distance. (The errors of the program with the declarations must not be about them: a
variable that is declared twice in a scope, or a scope with more than 65535 names.) -/
theorem unused_declarations (hs : Session rs) (hg : ∀ x ∈ F, x ∉ globals rs) (hu : Unused F sts)
    (h : rs.resolve sts = .done (r, rs1)) (he : ∀ es, r = .error es → ∀ e ∈ es, ¬ AboutDeclared F e) :
    ∃ r' rs2, rs.resolve (dropStmts F sts) = .done (r', rs2) ∧ SameButUnused F r r' := by
  obtain ⟨r', rs2, h1, h2, _⟩ := resolve_padded (session_padded hs hg) hu h he
  exact ⟨r', rs2, h1, h2⟩

/-- A function with a variable that nothing uses. -/
def spareVar (slot : Nat) (c c' : VarLoc) : List Stmt :=
  [.fun (.mk c!"f" (.mk [⟨c!"x", ⟨1, 7⟩⟩]
    [.var c!"spare" ⟨slot⟩ .literalNil ⟨2, 7⟩,
      .block [.var c!"y" ⟨0⟩ (.variable c!"x" c ⟨4, 13⟩) ⟨4, 9⟩],
      .var c!"z" ⟨slot + 1⟩ .literalNil ⟨5, 7⟩,
      .return (.variable c!"z" c' ⟨6, 10⟩) ⟨6, 3⟩] .plainFunction ⟨1, 5⟩))]
/-- The function without the variable. -/
def sparedVar (slot : Nat) (c c' : VarLoc) : List Stmt :=
  [.fun (.mk c!"f" (.mk [⟨c!"x", ⟨1, 7⟩⟩]
    [.block [.var c!"y" ⟨0⟩ (.variable c!"x" c ⟨4, 13⟩) ⟨4, 9⟩],
      .var c!"z" ⟨slot⟩ .literalNil ⟨5, 7⟩,
      .return (.variable c!"z" c' ⟨6, 10⟩) ⟨6, 3⟩] .plainFunction ⟨1, 5⟩))]
theorem spare_unused : Unused [c!"spare"] (spareVar 1 ⟨1, 0⟩ ⟨0, 2⟩) := by
  simp [Unused, Unnamed, spareVar, dropStmts, dropStmt, dropFun, dropExpr, declaresOneOf, isLiteral, stmtsActs, stmtActs, funActs,
    paramActs, returnActs, exprActs, readActs, Act.name]
example : Session .new ∧ Unused [c!"spare"] (spareVar 1 ⟨1, 0⟩ ⟨0, 2⟩) ∧
    resolve (spareVar 1 ⟨1, 0⟩ ⟨0, 2⟩) = .done (.ok (spareVar 1 ⟨1, 0⟩ ⟨0, 2⟩)) ∧
    dropStmts [c!"spare"] (spareVar 1 ⟨1, 0⟩ ⟨0, 2⟩) = sparedVar 2 ⟨1, 0⟩ ⟨0, 2⟩ ∧
    resolve (sparedVar 2 ⟨1, 0⟩ ⟨0, 2⟩) = .done (.ok (sparedVar 1 ⟨1, 0⟩ ⟨0, 1⟩)) :=
  ⟨.new, spare_unused, by by_kernel, by by_kernel, by by_kernel⟩
/-- Two declarations in a scope are an error that is about the declarations. -/
example : resolve [.block [.var c!"spare" ⟨0⟩ .literalNil ⟨2, 7⟩, .var c!"spare" ⟨0⟩ .literalNil ⟨3, 7⟩]] =
      .done (.error [⟨⟨3, 7⟩, some c!"spare", "Variable with this name already declared in this scope."⟩]) ∧
    AboutDeclared [c!"spare"] ⟨⟨3, 7⟩, some c!"spare", "Variable with this name already declared in this scope."⟩ :=
  ⟨by by_kernel, .inl ⟨_, by simp, rfl⟩⟩
/-- A declaration that a function reads is not unused: without it, `a` is another variable. -/
example : ¬ Unused [c!"a"] [.block [.var c!"a" ⟨0⟩ .literalNil ⟨2, 7⟩, .print (.variable c!"a" ⟨0, 0⟩ ⟨3, 9⟩)]] := by
  simp [Unused, Unnamed, dropStmts, dropStmt, dropExpr, declaresOneOf, isLiteral, stmtsActs, stmtActs, exprActs, readActs, Act.name]

/-- The results of programs that are resolved one after the other. -/
def resolveEach (rs : Resolver) : List (List Stmt) → Outcome (List (Except ParseError (List Stmt)))
  | [] => .done []
  | sts :: rest => do
    let (r, rs') ← rs.resolve sts
    let rs ← resolveEach rs' rest
    .done (r :: rs)

/-- Results in pairs. -/
inductive EachSameButUnused (F : List Str) : List (Except ParseError (List Stmt)) → List (Except ParseError (List Stmt)) → Prop
  | nil : EachSameButUnused F [] []
  | cons {r r' rs rs'} : SameButUnused F r r' → EachSameButUnused F rs rs' → EachSameButUnused F (r :: rs) (r' :: rs')

theorem each_padded : ∀ {programs : List (List Stmt)} {rs rs' : Resolver} {results}, Padded F rs rs' →
    (∀ sts ∈ programs, Unused F sts) → resolveEach rs' programs = .done results →
    (∀ es, Except.error es ∈ results → ∀ e ∈ es, ¬ AboutDeclared F e) →
    ∃ results', resolveEach rs (programs.map (dropStmts F)) = .done results' ∧ EachSameButUnused F results results'
  | [], _, _, _, _, _, h, _ => by cases h; exact ⟨[], rfl, .nil⟩
  | sts :: programs, rs, rs', results, hp, hu, h, he => by
    rw [resolveEach] at h
    cases h1 : rs'.resolve sts with
    | done x =>
      obtain ⟨r, t⟩ := x
      simp only [h1, bind, Outcome.bind] at h
      cases h2 : resolveEach t programs with
      | done rest =>
        simp only [h2] at h
        cases h
        obtain ⟨r', u, g1, g2, g3⟩ := resolve_padded hp (hu sts (by simp)) h1 (fun es e => he es (by simp [e]))
        obtain ⟨rest', k1, k2⟩ := each_padded g3 (fun p hp => hu p (by simp [hp])) h2 (fun es hm => he es (by simp [hm]))
        refine ⟨r' :: rest', ?_, .cons g2 k2⟩
        rw [List.map_cons, resolveEach]
        simp only [g1, bind, Outcome.bind, k1]
      | panic m => simp only [h2] at h; cases h
      | diverge => simp only [h2] at h; cases h
    | panic m => simp only [h1, bind, Outcome.bind] at h; cases h
    | diverge => simp only [h1, bind, Outcome.bind] at h; cases h

/-- C84, for the programs of a session: without declarations that no program uses, every program is
resolved as before. -/
theorem unused_in_session {programs : List (List Stmt)} {results} (hu : ∀ sts ∈ programs, Unused F sts)
    (h : resolveEach .new programs = .done results)
    (he : ∀ es, Except.error es ∈ results → ∀ e ∈ es, ¬ AboutDeclared F e) :
    ∃ results', resolveEach .new (programs.map (dropStmts F)) = .done results' ∧ EachSameButUnused F results results' :=
  each_padded (padded_self fun s hm x _ => by simp only [Resolver.new, List.mem_singleton] at hm; subst hm; rfl) hu h he

/-- The second program of a session has an error, with the first program or without it. -/
example : (∀ sts ∈ [[Stmt.var c!"spare" ⟨0⟩ .literalNil ⟨1, 5⟩], [.return .literalNil ⟨1, 1⟩], [.print (.variable c!"a" ⟨0, 1⟩ ⟨1, 7⟩)]],
      Unused [c!"spare"] sts) ∧
    resolveEach .new [[.var c!"spare" ⟨0⟩ .literalNil ⟨1, 5⟩], [.return .literalNil ⟨1, 1⟩], [.print (.variable c!"a" ⟨0, 1⟩ ⟨1, 7⟩)]] =
      .done [.ok [.var c!"spare" ⟨0⟩ .literalNil ⟨1, 5⟩],
        .error [⟨⟨1, 1⟩, some c!"return", "Cannot return from top-level code."⟩], .ok [.print (.variable c!"a" ⟨0, 1⟩ ⟨1, 7⟩)]] ∧
    resolveEach .new [[], [.return .literalNil ⟨1, 1⟩], [.print (.variable c!"a" ⟨0, 1⟩ ⟨1, 7⟩)]] =
      .done [.ok [], .error [⟨⟨1, 1⟩, some c!"return", "Cannot return from top-level code."⟩],
        .ok [.print (.variable c!"a" ⟨0, 0⟩ ⟨1, 7⟩)]] :=
  ⟨by simp [Unused, Unnamed, dropStmts, dropStmt, dropExpr, declaresOneOf, isLiteral, stmtsActs, stmtActs, returnActs, exprActs,
    readActs, Act.name], by by_kernel, by by_kernel⟩

/-- There are more than 65535 names in a scope. -/
def TooMany (e : Cause) : Prop := e.message = "Too many local variables in function."

theorem slotlessStmts_append : ∀ a b : List Stmt, slotlessStmts (a ++ b) = slotlessStmts a ++ slotlessStmts b
  | [], b => by simp only [List.nil_append, slotlessStmts]
  | s :: a, b => by simp only [List.cons_append, slotlessStmts, slotlessStmts_append a b]

theorem slotless_literal {e : Expr} (h : isLiteral e = true) : slotlessExpr e = e := by
  cases e <;> simp only [isLiteral, Bool.false_eq_true] at h <;> simp only [slotlessExpr]

theorem loop_length : ∀ {sts sts' : List Stmt} {rs rs1 : Resolver} {es : List Cause},
    resolveLoop sts rs = .done (sts', es, rs1) → sts'.length = sts.length
  | [], _, _, _, _, h => by cases h; rfl
  | s :: ss, sts', rs, rs1, es, h => by
    simp only [resolveLoop] at h
    cases h1 : resolveStmt s rs with
    | ok s1 t =>
      simp only [h1, bind, Outcome.bind] at h
      cases h2 : resolveLoop ss t with
      | done x => simp only [h2] at h; cases h; simp [loop_length h2]
      | panic m => simp only [h2] at h; cases h
      | diverge => simp only [h2] at h; cases h
    | err s1 t =>
      simp only [h1, bind, Outcome.bind] at h
      cases h2 : resolveLoop ss t with
      | done x => simp only [h2] at h; cases h; simp [loop_length h2]
      | panic m => simp only [h2] at h; cases h
      | diverge => simp only [h2] at h; cases h
    | panic m => rw [h1] at h; cases h
    | diverge => rw [h1] at h; cases h

/-- C84, for a global variable: a declaration of a name that is not used anywhere can be added at any place
at the top level. The errors remain the same, unless there are too many names. All other variables are
found at the same distance. -/
theorem unused_global (hs : Session rs) {before after : List Stmt} {x : Str} {slot : SlotIndex} {e : Expr} {loc : SourceLoc}
    (hg : x ∉ globals rs) (ht : x ≠ c!"this") (hsup : x ≠ c!"super") (hl : isLiteral e = true)
    (hb : Unnamed [x] (stmtsActs .nowhere .nowhere before)) (ha : Unnamed [x] (stmtsActs .nowhere .nowhere after))
    (h : rs.resolve (before ++ .var x slot e loc :: after) = .done (r, rs1)) :
    (∃ es, r = .error es ∧ ∃ e ∈ es, TooMany e) ∨
      (∃ es rs2, r = .error es ∧ rs.resolve (before ++ after) = .done (.error es, rs2)) ∨
      ∃ sts b a rs2, r = .ok sts ∧ rs.resolve (before ++ after) = .done (.ok (b ++ a), rs2) ∧ b.length = before.length ∧
        slotlessStmts sts = slotlessStmts b ++ .var x ⟨0⟩ e loc :: slotlessStmts a := by
  obtain ⟨sts', es, h1, h2⟩ := resolve_by_loop h
  by_cases hT : ∃ c ∈ es, TooMany c
  · obtain ⟨c, hc, hc'⟩ := hT
    refine .inl ⟨es, ?_, c, hc, hc'⟩
    rw [h2, if_neg]
    intro h0
    rw [List.isEmpty_iff.mp h0] at hc
    cases hc
  right
  have hT : ∀ c ∈ es, ¬ TooMany c := fun c hc h => hT ⟨c, hc, h⟩
  rw [resolveLoop_append] at h1
  cases hb1 : resolveLoop before rs with
  | panic m => simp only [hb1, Outcome.bind] at h1; cases h1
  | diverge => simp only [hb1, Outcome.bind] at h1; cases h1
  | done xb =>
    obtain ⟨b, eb, tb⟩ := xb
    simp only [hb1, Outcome.bind] at h1
    have hXT : Excuses TooMany := fun _ _ => rfl
    have hD : ∀ y ∈ ([] : List Str), y ∈ [x] ∧ ∀ loc msg, TooMany (.newWithLocation loc y msg) := by simp
    have ht' : c!"this" ∉ [x] := by simpa using ht.symm
    have hs' : c!"super" ∉ [x] := by simpa using hsup.symm
    have hbs : Session tb := .next hs (loop_resolve hb1)
    have hdb : dropStmts [] before = before := dn_stmts before
    have hda : dropStmts [] after = after := dn_stmts after
    have hlen : b.length = before.length := loop_length hb1
    cases hd1 : resolveLoop (.var x slot e loc :: after) tb with
    | panic m => simp only [hd1] at h1; cases h1
    | diverge => simp only [hd1] at h1; cases h1
    | done xd =>
    obtain ⟨d, ed, td⟩ := xd
    simp only [hd1] at h1
    cases h1
    have hp : Padded [x] tb tb := by
      obtain ⟨_, t, g1, g2, _⟩ := loop_padded hXT hD ht' hs' before (by rw [hdb]; exact hb)
        (session_padded hs (by simpa using hg)) hb1 (fun c hc => hT c (by simp [hc]))
      rw [hdb, hb1] at g1
      cases g1
      exact g2
    simp only [resolveLoop] at hd1
    rcases pad_dropped hXT (slot := slot) (loc := loc) (List.mem_singleton.mpr rfl) hl hp (.inl (state_restored hbs).1) with
      ⟨c, t, e1, e2⟩ | ⟨m, e1⟩ | ⟨slot', t, e1, e2⟩
    · rw [e1] at hd1
      cases h3 : resolveLoop after t with
      | done x3 =>
        simp only [h3, bind, Outcome.bind] at hd1
        cases hd1
        exact absurd e2 (hT c (by simp))
      | panic m => simp only [h3, bind, Outcome.bind] at hd1; cases hd1
      | diverge => simp only [h3, bind, Outcome.bind] at hd1; cases hd1
    · rw [e1] at hd1
      cases hd1
    · rw [e1] at hd1
      cases h3 : resolveLoop after t with
      | panic m => simp only [h3, bind, Outcome.bind] at hd1; cases hd1
      | diverge => simp only [h3, bind, Outcome.bind] at hd1; cases hd1
      | done x3 =>
        obtain ⟨a, ea, ta⟩ := x3
        simp only [h3, bind, Outcome.bind] at hd1
        cases hd1
        obtain ⟨out, u, g1, g2, g3⟩ := loop_padded hXT hD ht' hs' after (by rw [hda]; exact ha) e2 h3 (fun c hc => hT c (by simp [hc]))
        rw [hda] at g1
        have h4 : resolveLoop (before ++ after) rs = .done (b ++ out, eb ++ ed, u) := by
          rw [resolveLoop_append, hb1]
          simp only [Outcome.bind, g1]
        have h5 := loop_resolve h4
        by_cases h0 : (eb ++ ed).isEmpty = true
        · rw [if_pos h0] at h5 h2
          refine .inr ⟨_, b, out, u, h2, h5, hlen, ?_⟩
          have h6 : eb = [] ∧ ed = [] := by simpa using h0
          have := g3 h6.2
          rw [PadStmts, dn_stmts] at this
          rw [slotlessStmts_append, slotlessStmts, slotlessStmt, slotless_literal hl, this]
        · rw [if_neg h0] at h5 h2
          exact .inl ⟨_, u, h2, h5⟩

/-- `print a`, an unused global, `print b`. -/
example : Unnamed [c!"spare"] (stmtsActs .nowhere .nowhere [.print (.variable c!"a" ⟨0, 0⟩ ⟨1, 7⟩)]) ∧
    Unnamed [c!"spare"] (stmtsActs .nowhere .nowhere [.print (.variable c!"b" ⟨0, 2⟩ ⟨3, 7⟩)]) ∧
    resolve [.print (.variable c!"a" ⟨0, 0⟩ ⟨1, 7⟩), .var c!"spare" ⟨1⟩ .literalNil ⟨2, 5⟩, .print (.variable c!"b" ⟨0, 2⟩ ⟨3, 7⟩)] =
      .done (.ok [.print (.variable c!"a" ⟨0, 0⟩ ⟨1, 7⟩), .var c!"spare" ⟨1⟩ .literalNil ⟨2, 5⟩, .print (.variable c!"b" ⟨0, 2⟩ ⟨3, 7⟩)]) ∧
    resolve [.print (.variable c!"a" ⟨0, 0⟩ ⟨1, 7⟩), .print (.variable c!"b" ⟨0, 2⟩ ⟨3, 7⟩)] =
      .done (.ok [.print (.variable c!"a" ⟨0, 0⟩ ⟨1, 7⟩), .print (.variable c!"b" ⟨0, 1⟩ ⟨3, 7⟩)]) :=
  ⟨by simp [Unnamed, stmtsActs, stmtActs, exprActs, readActs, Act.name], by simp [Unnamed, stmtsActs, stmtActs, exprActs, readActs, Act.name],
    by by_kernel, by by_kernel⟩

end Ws.Properties
