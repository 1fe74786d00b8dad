import Verif.Properties.Format
import Verif.Proofs.Scan.Join
import Verif.Proofs.Parse.Join
import Verif.Spec.Join
/-! Property C77: programs one after the other. -/
namespace Ws.Properties
open Ws Spec

variable {env : Env} {a b : Str} {repl : Bool} {rs rs' rs'' : Resolver} {as bs : List Stmt} {ta tb : List Token} {ea eb : Token}

theorem fits_of_scan {source : Str} {ts : List Token} (h : scanTokens env source = .done (.ok ts)) (hl : ts.length ≤ env.usizeMax) :
    Fits env source := by
  intro ts' h'
  rw [h] at h'
  cases h'
  exact hl

theorem each_length' {α β : Type} {r : α → β → Prop} : ∀ {x : List α} {y : List β}, Each r x y → x.length = y.length
  | _, _, .nil => rfl
  | _, _, .cons _ h => congrArg (· + 1) (each_length' h)

/-- C77: the tokens of a source after complete lines are those of the lines and those of the source. -/
theorem joined_scan (hE : EnvLaws env) (hs : env.segment (a ++ b) = env.segment a ++ env.segment b)
    (hc : CompleteLines env (env.segment a)) (hl : AtLeft (env.segment b))
    (ha : scanTokens env a = .done (.ok (ta ++ [ea]))) (hb : scanTokens env b = .done (.ok (tb ++ [eb]))) :
    ∃ ts, scanTokens env (a ++ b) = .done (.ok ts) ∧ Each SameToken ts (ta ++ tb ++ [eb]) := by
  show ∃ ts, scanClusters env (env.segment (a ++ b)) = _ ∧ _
  rw [hs]
  exact join_scan hE.toAsciiLaws (hE.nonempty a) hc hl ha hb

/-- C77: a program after a program that consists of complete lines is the program with the statements of
both, if it begins at the left margin and does not look like the entry of a map. -/
theorem joined_accepted (hE : EnvLaws env) (hF : Fits env (a ++ b)) (hs : env.segment (a ++ b) = env.segment a ++ env.segment b)
    (hc : CompleteLines env (env.segment a)) (hl : AtLeft (env.segment b))
    (ha : scanTokens env a = .done (.ok (ta ++ [ea]))) (hb : scanTokens env b = .done (.ok (tb ++ [eb])))
    (hk : ¬ KeyColon tb) (hj : EndsWithNewline ta ∨ ¬ EndsWithVar as)
    (pa : Accepts env false a as) (pb : Accepts env repl b bs) :
    ∃ sts, Accepts env repl (a ++ b) sts ∧ SameProgram sts (as ++ bs) := by
  obtain ⟨ts, h, hsame⟩ := joined_scan hE hs hc hl ha hb
  have hlen := hF ts h
  rw [each_length' hsame] at hlen
  simp only [List.length_append, List.length_cons, List.length_nil] at hlen
  have fa : Fits env a := fits_of_scan ha (by simp only [List.length_append, List.length_cons, List.length_nil]; omega)
  have fb : Fits env b := fits_of_scan hb (by simp only [List.length_append, List.length_cons, List.length_nil]; omega)
  obtain ⟨o', e', db, ho'⟩ := (accepted_iff_derived hE fb hb).1 pb
  -- the derivation of a file is one of the REPL, too
  obtain ⟨o, e, da, ho, hu⟩ : ∃ o e, Spec.Plain repl false o e .declarations ta (.stmts as) ∧ o ≠ .brace ∧ o ≠ .unfinished := by
    obtain ⟨o, e, d, h1⟩ := (accepted_iff_derived hE fa ha).1 pa
    exact ⟨o, e, plain_repl d, h1, fun hu => absurd (unfinished_repl d hu) (by decide)⟩
  have hp : o.Precedes tb := by
    refine ⟨ho, hu, fun _ => hk, fun hcall => ?_⟩
    subst hcall
    obtain ⟨⟨u, t, e1, ht⟩, ss, s, e2, hv⟩ := declarations_call da
    rcases hj with ⟨u', t', e3, ht'⟩ | hj
    · rw [e1] at e3
      have := (List.append_inj' e3 rfl).2
      simp only [List.cons.injEq, and_true] at this
      rw [this] at ht
      exact absurd ht' ht
    · refine absurd ?_ hj
      cases s <;> first | (cases hv; done) | skip
      cases e2
      exact ⟨_, _, _, _, List.getLast?_concat⟩
  have hT : TokensOk (ta ++ tb ++ [eb]) := by
    have h1 := scan_tokensOk hE ha
    have h2 := scan_tokensOk hE hb
    have e1 := tokensOk_snoc h1
    have e2 := tokensOk_snoc h2
    have mem : ∀ t ∈ ta ++ tb ++ [eb], t ∈ ta ++ [ea] ∨ t ∈ tb ++ [eb] := by
      intro t ht
      simp only [List.mem_append, List.mem_singleton] at ht ⊢
      rcases ht with (ht | ht) | ht
      · exact .inl (.inl ht)
      · exact .inr (.inl ht)
      · exact .inr (.inr ht)
    refine ⟨⟨ta ++ tb, eb, rfl, e2.1, fun t ht => ?_⟩, fun t ht => ?_, fun t ht => ?_, fun t ht => ?_⟩
    · rcases List.mem_append.1 ht with ht | ht
      · exact e1.2 t ht
      · exact e2.2 t ht
    · rcases mem t ht with ht | ht
      · exact h1.number t ht
      · exact h2.number t ht
    · rcases mem t ht with ht | ht
      · exact h1.string t ht
      · exact h2.string t ht
    · rcases mem t ht with ht | ht
      · exact h1.equal t ht
      · exact h2.equal t ht
  have hparse : parseTokens env (ta ++ tb ++ [eb]) repl = .done (.ok (as ++ bs)) := by
    have hbd : (ta ++ tb ++ [eb]).length ≤ env.usizeMax := by
      simp only [List.length_append, List.length_cons, List.length_nil]; omega
    rcases plain_append da hp db with ⟨rfl, rfl⟩ | hd
    · rw [List.append_nil] at hT hbd ⊢
      rw [List.append_nil]
      exact parseTokens_complete hT hbd da ho
    · exact parseTokens_complete hT hbd hd ho'
  obtain ⟨sts, hsts, hprog⟩ := parse_sameTokens hsame hparse
  refine ⟨sts, ?_, hprog⟩
  unfold Accepts
  rw [parseIn_ok h, hsts]

theorem resolveLoop_append (as bs : List Stmt) (rs : Resolver) :
    resolveLoop (as ++ bs) rs = (resolveLoop as rs).bind fun x => (resolveLoop bs x.2.2).bind fun y =>
      .done (x.1 ++ y.1, x.2.1 ++ y.2.1, y.2.2) := by
  induction as generalizing rs with
  | nil =>
    show resolveLoop bs rs = (resolveLoop bs rs).bind _
    cases resolveLoop bs rs <;> rfl
  | cons s as ih =>
    simp only [List.cons_append, resolveLoop]
    cases resolveStmt s rs with
    | ok s' rs' =>
      simp only [ih]
      cases resolveLoop as rs' with
      | done x =>
        simp only [bind, Outcome.bind]
        cases resolveLoop bs x.2.2 <;> rfl
      | panic m => rfl
      | diverge => rfl
    | err e rs' =>
      simp only [ih]
      cases resolveLoop as rs' with
      | done x =>
        simp only [bind, Outcome.bind]
        cases resolveLoop bs x.2.2 <;> rfl
      | panic m => rfl
      | diverge => rfl
    | panic m => rfl
    | diverge => rfl

theorem resolve_append {ra rb : Except ParseError (List Stmt)} (ha : rs.resolve as = .done (ra, rs')) (hb : rs'.resolve bs = .done (rb, rs'')) :
    rs.resolve (as ++ bs) = .done (bothResults ra rb, rs'') := by
  rw [resolve_loop] at ha hb ⊢
  rw [resolveLoop_append]
  cases h : resolveLoop as rs with
  | panic m => rw [h] at ha; cases ha
  | diverge => rw [h] at ha; cases ha
  | done x =>
    obtain ⟨xs, es, r1⟩ := x
    rw [h] at ha
    simp only [Outcome.done.injEq, Prod.mk.injEq] at ha
    obtain ⟨ha, rfl⟩ := ha
    simp only [Outcome.bind]
    cases h' : resolveLoop bs r1 with
    | panic m => rw [h'] at hb; cases hb
    | diverge => rw [h'] at hb; cases hb
    | done y =>
      obtain ⟨ys, es', r2⟩ := y
      rw [h'] at hb
      simp only [Outcome.done.injEq, Prod.mk.injEq] at hb
      obtain ⟨hb, rfl⟩ := hb
      subst ha hb
      cases es <;> cases es' <;> simp [bothResults]

/-- C77: running it is running one after the other. -/
theorem joined_run {ra rb : Except ParseError (List Stmt)} (hE : EnvLaws env) (hF : Fits env (a ++ b))
    (hs : env.segment (a ++ b) = env.segment a ++ env.segment b)
    (hc : CompleteLines env (env.segment a)) (hl : AtLeft (env.segment b))
    (ha : scanTokens env a = .done (.ok (ta ++ [ea]))) (hb : scanTokens env b = .done (.ok (tb ++ [eb])))
    (hk : ¬ KeyColon tb) (hj : EndsWithNewline ta ∨ ¬ EndsWithVar as)
    (pa : Accepts env false a as) (pb : Accepts env repl b bs)
    (ra_eq : run env rs a false = .done (ra, rs')) (rb_eq : run env rs' b repl = .done (rb, rs'')) :
    SameRun (run env rs (a ++ b) repl) (.done (bothResults ra rb, rs'')) := by
  obtain ⟨sts, hsts, hsame⟩ := joined_accepted hE hF hs hc hl ha hb hk hj pa pb
  unfold Accepts at pa pb hsts
  rw [run_eq, pa] at ra_eq
  rw [run_eq, pb] at rb_eq
  have h := resolve_append ra_eq rb_eq
  rw [← h]
  unfold SameRun movedRun
  rw [run_eq, hsts]
  show mapOutcome _ (rs.resolve sts) = _
  rw [← resolve_moved, ← resolve_moved, hsame]

/-! ### Examples -/

/-- A function with an open block, -/
def withBlock : Str := c!"fun f(x)\n  return x\n"
def withBlockTokens : List Token :=
  [⟨.fun, c!"fun", none, none, 1, 1⟩, ⟨.identifier, c!"f", none, none, 1, 5⟩, ⟨.leftParenAbutting, c!"(", none, none, 1, 6⟩,
    ⟨.identifier, c!"x", none, none, 1, 7⟩, ⟨.rightParen, c!")", none, none, 1, 8⟩, ⟨.terminator, c!"\n", none, none, 1, 9⟩,
    ⟨.indent, c!"r", none, none, 2, 3⟩, ⟨.return, c!"return", none, none, 2, 3⟩, ⟨.identifier, c!"x", none, none, 2, 10⟩,
    ⟨.terminator, c!"\n", none, none, 2, 11⟩, ⟨.outdent, [], none, none, 3, 1⟩]
def withBlockTree : List Stmt := [.fun (.mk c!"f" (.mk [⟨c!"x", ⟨1, 7⟩⟩] [.return (v c!"x" 2 10) ⟨2, 3⟩] .plainFunction ⟨1, 5⟩))]
/-- and its use. -/
def itsUse : Str := c!"print f\n"
def itsUseTokens : List Token :=
  [⟨.print, c!"print", none, none, 1, 1⟩, ⟨.identifier, c!"f", none, none, 1, 7⟩, ⟨.terminator, c!"\n", none, none, 1, 8⟩]

theorem not_var {sts : List Stmt} {s : Stmt} (e : sts.getLast? = some s) (h : isVar s = Bool.false) : ¬ EndsWithVar sts := by
  rintro ⟨x, slot, i, loc, e'⟩
  rw [e] at e'
  cases e'
  cases h

/-- All hypotheses of `joined_scan` and `joined_accepted` hold. -/
example : EnvLaws asciiEnv ∧ Fits asciiEnv (withBlock ++ itsUse) ∧
    asciiEnv.segment (withBlock ++ itsUse) = asciiEnv.segment withBlock ++ asciiEnv.segment itsUse ∧
    CompleteLines asciiEnv (asciiEnv.segment withBlock) ∧ AtLeft (asciiEnv.segment itsUse) ∧
    scanTokens asciiEnv withBlock = .done (.ok (withBlockTokens ++ [⟨.eof, [], none, none, 3, 1⟩])) ∧
    scanTokens asciiEnv itsUse = .done (.ok (itsUseTokens ++ [⟨.eof, [], none, none, 2, 1⟩])) ∧
    ¬ KeyColon itsUseTokens ∧ ¬ EndsWithNewline withBlockTokens ∧ ¬ EndsWithVar withBlockTree ∧
    Accepts asciiEnv false withBlock withBlockTree ∧ Accepts asciiEnv false itsUse [.print (v c!"f" 1 7)] := by
  refine ⟨asciiEnv_laws, fits_of_small (by by_kernel), by by_kernel, .inr ⟨(asciiEnv.segment withBlock).dropLast,
      withBlockTokens.take 9 ++ [⟨.outdent, [], none, none, 2, 11⟩, ⟨.eof, [], none, none, 2, 11⟩], by by_kernel, by by_kernel⟩,
    ⟨c!"p", (asciiEnv.segment itsUse).tail, by by_kernel, by decide⟩, by by_kernel, by by_kernel, ?_, ?_, not_var rfl rfl,
    by unfold Accepts; by_kernel, by unfold Accepts; by_kernel⟩
  · rintro ⟨t, c, r, e, h, -⟩
    cases e
    rcases h with h | h <;> cases h
  · rintro ⟨u, t, e, h⟩
    have e := congrArg List.getLast? e
    rw [List.getLast?_concat] at e
    cases e
    cases h

/-- The same together. -/
example : Accepts asciiEnv false (withBlock ++ itsUse) (withBlockTree ++ [.print (v c!"f" 3 7)]) := by unfold Accepts; by_kernel

/-- What begins like the entry of a map can belong to a map before it: two programs, and one program
when they are put together. -/
theorem keyColon_matters : Accepts asciiEnv false c!"print a: b\n" [.print (.literalMap [.mk c!"a" (v c!"b" 1 10)])] ∧
    Accepts asciiEnv false c!"c: d\n" [.expression (.literalMap [.mk c!"c" (v c!"d" 1 4)])] ∧
    Accepts asciiEnv false c!"print a: b\nc: d\n" [.print (.literalMap [.mk c!"a" (v c!"b" 1 10), .mk c!"c" (v c!"d" 2 4)])] :=
  ⟨by unfold Accepts; by_kernel, by unfold Accepts; by_kernel, by unfold Accepts; by_kernel⟩

/-- An expression can belong to a variable before it that has no newline of its own. -/
theorem var_matters : Accepts asciiEnv false c!"var x = {} a,\n// c\n    b\n" [.var c!"x" .placeholder
      (.call (.literalMap []) [v c!"a" 1 12, v c!"b" 3 5] ⟨1, 12⟩) ⟨1, 5⟩] ∧
    Accepts asciiEnv false c!"y\n" [.expression (v c!"y" 1 1)] ∧
    Accepts asciiEnv false c!"var x = {} a,\n// c\n    b\ny\n" [.var c!"x" .placeholder (.call
      (.call (.literalMap []) [v c!"a" 1 12, v c!"b" 3 5] ⟨1, 12⟩) [v c!"y" 4 1] ⟨4, 1⟩) ⟨1, 5⟩] :=
  ⟨by unfold Accepts; by_kernel, by unfold Accepts; by_kernel, by unfold Accepts; by_kernel⟩

/-- Not the other way around: lines of a program need not be programs. -/
theorem else_matters : Accepts asciiEnv false c!"if (x) y\nelse z\n"
      [.if (v c!"x" 1 5) (.expression (v c!"y" 1 8)) (some (.expression (v c!"z" 2 6)))] ∧
    parse asciiEnv c!"else z\n" = .done (.error [.newWithLocation ⟨1, 1⟩ c!"else" "Expect expression."]) :=
  ⟨by unfold Accepts; by_kernel, by by_kernel⟩

/-! ### Lines -/

theorem each_split {α β : Type} {r : α → β → Prop} : ∀ {y : List β} {z : β} {x : List α}, Each r x (y ++ [z]) →
    ∃ x' c, x = x' ++ [c] ∧ Each r x' y
  | [], _, _, .cons _ .nil => ⟨[], _, rfl, .nil⟩
  | _ :: _, _, _, .cons h t => by
    obtain ⟨x', c, rfl, h'⟩ := each_split t
    exact ⟨_ :: x', c, rfl, .cons h h'⟩

theorem keyColon_same {w w' : List Token} (h : Each SameToken w w') (hk : KeyColon w) : KeyColon w' := by
  obtain ⟨t, c, r, rfl, ht, hc⟩ := hk
  cases h with
  | cons h1 h => cases h with
    | cons h2 _ => exact ⟨_, _, _, rfl, by rw [h1.tokenType]; exact ht, by rw [h2.tokenType]; exact hc⟩

theorem keyColon_line {w w' : List Token} (h : EndsWithNewline w) (hk : KeyColon (w ++ w')) : KeyColon w := by
  obtain ⟨u, n, rfl, hn⟩ := h
  obtain ⟨t, c, r, e, ht, hc⟩ := hk
  match u with
  | [] =>
    simp only [List.nil_append, List.cons_append, List.cons.injEq] at e
    rw [← e.1, hn] at ht
    rcases ht with ht | ht <;> cases ht
  | [x] =>
    simp only [List.nil_append, List.cons_append, List.cons.injEq] at e
    exact ⟨t, n, [], by rw [e.1]; rfl, ht, by rw [e.2.1]; exact hc⟩
  | x :: y :: u =>
    simp only [List.cons_append, List.cons.injEq] at e
    exact ⟨t, c, u ++ [n], by rw [e.1, e.2.1]; rfl, ht, hc⟩

theorem atLeft_append {x y : List Str} (h : AtLeft x) : AtLeft (x ++ y) := by
  obtain ⟨g, r, rfl, h⟩ := h
  exact ⟨g, r ++ y, rfl, h⟩

theorem lines_scan (hE : EnvLaws env) : ∀ {ls : List Str}, ls ≠ [] → (∀ l ∈ ls, WholeLine env l) →
    ∃ t e, scanTokens env ls.flatten = .done (.ok (t ++ [e])) ∧ AtLeft (env.segment ls.flatten) ∧ ¬ KeyColon t
  | [], h, _ => absurd rfl h
  | [l], _, h => by
    have hl := h l (by simp)
    obtain ⟨w, e, hw, -, hk⟩ := hl.tokens
    rw [show [l].flatten = l by simp]
    exact ⟨w, e, hw, hl.left, hk⟩
  | l :: l' :: ls, _, h => by
    have hl := h l (by simp)
    obtain ⟨w, e, hw, hn, hk⟩ := hl.tokens
    obtain ⟨t, e', ht, hat, hk'⟩ := lines_scan hE (ls := l' :: ls) (by simp) fun x hx => h x (by simp only [List.mem_cons] at hx ⊢; exact .inr hx)
    rw [List.flatten_cons]
    obtain ⟨ts, hts, hsame⟩ := joined_scan hE (hl.separate _) hl.complete hat hw ht
    obtain ⟨ts', c, rfl, hs⟩ := each_split hsame
    exact ⟨ts', c, hts, by rw [hl.separate]; exact atLeft_append hl.left, fun hk₀ => hk (keyColon_line hn (keyColon_same hs hk₀))⟩

theorem lines_fit (hE : EnvLaws env) {l : Str} {ls : List Str} (hn : ls ≠ []) (h : ∀ x ∈ l :: ls, WholeLine env x)
    (hF : Fits env (l :: ls).flatten) : Fits env ls.flatten := by
  have hl := h l (by simp)
  obtain ⟨w, e, hw, -, -⟩ := hl.tokens
  obtain ⟨t, e', ht, hat, -⟩ := lines_scan hE hn fun x hx => h x (by simp [hx])
  rw [List.flatten_cons] at hF
  obtain ⟨ts, hts, hsame⟩ := joined_scan hE (hl.separate _) hl.complete hat hw ht
  have := hF ts hts
  rw [each_length' hsame] at this
  refine fits_of_scan ht ?_
  simp only [List.length_append, List.length_cons, List.length_nil] at this ⊢
  omega

/-- C77: whole lines, each of which is a program, are a program. -/
theorem lines_accepted (hE : EnvLaws env) : ∀ {ls : List Str}, ls ≠ [] → (∀ l ∈ ls, WholeLine env l) → Fits env ls.flatten →
    ∃ sts, Accepts env false ls.flatten sts
  | [], h, _, _ => absurd rfl h
  | [l], _, h, _ => by
    rw [show [l].flatten = l by simp]
    exact (h l (by simp)).program
  | l :: l' :: ls, _, h, hF => by
    have hl := h l (by simp)
    obtain ⟨w, e, hw, hn, hk⟩ := hl.tokens
    obtain ⟨as, ha⟩ := hl.program
    have hrest : ∀ x ∈ l' :: ls, WholeLine env x := fun x hx => h x (by simp only [List.mem_cons] at hx ⊢; exact .inr hx)
    obtain ⟨t, e', ht, hat, hk'⟩ := lines_scan hE (ls := l' :: ls) (by simp) hrest
    obtain ⟨bs, hb⟩ := lines_accepted hE (ls := l' :: ls) (by simp) hrest (lines_fit hE (by simp) h hF)
    rw [List.flatten_cons] at hF ⊢
    obtain ⟨sts, hs, -⟩ := joined_accepted hE hF (hl.separate _) hl.complete hat hw ht hk' (.inl hn) ha hb
    exact ⟨sts, hs⟩

theorem run_repl_line {l : Str} {sts : List Stmt} (h : Accepts env false l sts) : run env rs l true = run env rs l false := by
  have h' := repl_conservative h
  unfold Accepts at h h'
  rw [run_eq, run_eq, h, h']

theorem bothResults_nil (r : Except ParseError (List Stmt)) : bothResults r (.ok []) = r := by
  cases r <;> simp [bothResults]

theorem moveStmts_append (g : SourceLoc → SourceLoc) (xs ys : List Stmt) : moveStmts g (xs ++ ys) = moveStmts g xs ++ moveStmts g ys := by
  induction xs with
  | nil => rfl
  | cons x xs ih => simp only [List.cons_append, moveStmts, ih]

theorem bothResults_moved (g : SourceLoc → SourceLoc) {r x y : Except ParseError (List Stmt)} (h : moveResult g (moveStmts g) x = moveResult g (moveStmts g) y) :
    moveResult g (moveStmts g) (bothResults r x) = moveResult g (moveStmts g) (bothResults r y) := by
  cases r <;> cases x <;> cases y <;> simp_all [bothResults, moveResult, moveStmts_append]

/-- C77: a file of whole lines gives what a session of the REPL with these lines gives. -/
theorem session_run (hE : EnvLaws env) : ∀ {ls : List Str} {results : List (Except ParseError (List Stmt))} {rs : Resolver}, ls ≠ [] →
    (∀ l ∈ ls, WholeLine env l) → Fits env ls.flatten → LineByLine env rs ls results rs' →
    SameRun (run env rs ls.flatten false) (.done (allResults results, rs'))
  | [], _, _, h, _, _, _ => absurd rfl h
  | [l], _, rs, _, h, _, .cons h1 .nil => by
    obtain ⟨as, ha⟩ := (h l (by simp)).program
    rw [run_repl_line ha] at h1
    rw [show [l].flatten = l by simp, h1]
    show SameRun _ (.done (bothResults _ (.ok []), _))
    rw [bothResults_nil]
    rfl
  | l :: l' :: ls, _, rs, _, h, hF, .cons (r := r) (rs₁ := rs₁) (results := results) h1 h2 => by
    have hl := h l (by simp)
    obtain ⟨w, e, hw, hn, hk⟩ := hl.tokens
    obtain ⟨as, ha⟩ := hl.program
    have hrest : ∀ x ∈ l' :: ls, WholeLine env x := fun x hx => h x (by simp only [List.mem_cons] at hx ⊢; exact .inr hx)
    obtain ⟨t, e', ht, hat, hk'⟩ := lines_scan hE (ls := l' :: ls) (by simp) hrest
    have hF' := lines_fit hE (by simp) h hF
    obtain ⟨bs, hb⟩ := lines_accepted hE (ls := l' :: ls) (by simp) hrest hF'
    have hrun := session_run hE (by simp) hrest hF' h2
    rw [run_repl_line ha] at h1
    rw [List.flatten_cons] at hF ⊢
    generalize hx : run env rs₁ (l' :: ls).flatten false = x at hrun
    cases x with
    | panic m => cases hrun
    | diverge => cases hrun
    | done x =>
      obtain ⟨rb, rs₂⟩ := x
      simp only [SameRun, movedRun, mapOutcome, Outcome.done.injEq, Prod.mk.injEq] at hrun
      obtain ⟨hrb, rfl⟩ := hrun
      have := joined_run hE hF (hl.separate _) hl.complete hat hw ht hk' (.inl hn) ha hb h1 hx
      unfold SameRun at this ⊢
      rw [this]
      simp only [movedRun, mapOutcome, Outcome.done.injEq, Prod.mk.injEq, and_true]
      exact bothResults_moved _ hrb

theorem after_ended (env : Env) (st : ReplStatus) (hst : st ≠ .running) : ∀ (n : Nat) (rs : Resolver) (stdin : Stdin) (p : List Printed),
    Repl.after env n ⟨rs, stdin, p, st⟩ = ⟨rs, stdin, p, st⟩
  | 0, _, _, _ => rfl
  | n + 1, rs, stdin, p => by
    have : Repl.step env ⟨rs, stdin, p, st⟩ = ⟨rs, stdin, p, st⟩ := by
      unfold Repl.step
      cases st <;> first | rfl | exact absurd rfl hst
    rw [Repl.after, this, after_ended env st hst n]

/-- What the REPL prints for lines. -/
theorem repl_lines : ∀ {ls : List Str} {rs : Resolver} {p : List Printed},
    (Repl.after env ls.length ⟨rs, ls.map some, p, .running⟩).status = .running →
    ∃ results rs', LineByLine env rs ls results rs' ∧ Repl.after env ls.length ⟨rs, ls.map some, p, .running⟩ =
      ⟨rs', [], p ++ results.flatMap fun r => [.prompt, printResult r], .running⟩
  | [], rs, p, _ => ⟨[], rs, .nil, by simp [Repl.after]⟩
  | l :: ls, rs, p, h => by
    simp only [List.length_cons, List.map_cons, Repl.after] at h ⊢
    cases hr : run env rs l true with
    | panic m =>
      simp only [Repl.step, readLine, hr] at h
      rw [after_ended env _ (by simp)] at h
      cases h
    | diverge =>
      simp only [Repl.step, readLine, hr] at h
      rw [after_ended env _ (by simp)] at h
      cases h
    | done x =>
      obtain ⟨r, rs₁⟩ := x
      simp only [Repl.step, readLine, hr] at h ⊢
      obtain ⟨results, rs', h1, h2⟩ := repl_lines h
      exact ⟨r :: results, rs', .cons hr h1, by rw [h2]; simp⟩

theorem sameOutput_of_moved {x y : Except ParseError (List Stmt)}
    (h : moveResult nowhere (moveStmts nowhere) x = moveResult nowhere (moveStmts nowhere) y) : SameOutput x y := by
  cases x <;> cases y <;> simp only [moveResult, Except.ok.injEq, Except.error.injEq, reduceCtorEq] at h <;> exact h

/-- C77: if the REPL gets through whole lines, it prints the results of the lines, and a file with the
lines gives all these results together: all statements if there is no error, or else all errors. -/
theorem session_file (hE : EnvLaws env) {ls : List Str} (hn : ls ≠ []) (h : ∀ l ∈ ls, WholeLine env l) (hF : Fits env ls.flatten)
    (hr : (Repl.after env ls.length (.start (ls.map some))).status = .running) :
    ∃ results out, (Repl.after env ls.length (.start (ls.map some))).printed = results.flatMap (fun r => [.prompt, printResult r]) ∧
      SameOutput (allResults results) out ∧
      runFile env ls.flatten = .done (printResult out, .code (match out with | .ok _ => 0 | .error _ => 65)) := by
  obtain ⟨results, rs', h1, h2⟩ := repl_lines hr
  have := session_run hE hn h hF h1
  generalize hx : run env .new ls.flatten false = x at this
  cases x with
  | panic m => cases this
  | diverge => cases this
  | done x =>
    obtain ⟨out, rs₁⟩ := x
    simp only [SameRun, movedRun, mapOutcome, Outcome.done.injEq, Prod.mk.injEq] at this
    refine ⟨results, out, ?_, sameOutput_of_moved this.1.symm, ?_⟩
    · rw [show Repl.start (ls.map some) = ⟨Resolver.new, ls.map some, [], .running⟩ from rfl, h2]
      simp
    · unfold runFile
      rw [hx]
      cases out <;> rfl

theorem ascii_separate (after : Str) : ∀ x : Str, asciiSegment (x ++ '\n' :: after) = asciiSegment (x ++ ['\n']) ++ asciiSegment after := by
  intro x
  induction x using asciiSegment.induct with
  | case1 => rfl
  | case2 rest ih => simp [asciiSegment, ih]
  | case3 c rest h ih =>
    cases rest with
    | nil =>
      by_cases hc : c = '\r'
      · subst hc; rfl
      · simp [asciiSegment, hc]
    | cons d rest =>
      have : ∀ y, asciiSegment (c :: d :: y) = [c] :: asciiSegment (d :: y) := by
        intro y
        rw [asciiSegment]
        rintro _ rfl e
        cases e
        exact h rest rfl rfl
      simp only [List.cons_append] at ih ⊢
      rw [this, this, ih]
      rfl

/-- A declaration, an error of the resolver, and a use of the variable. -/
def threeLines : List Str := [c!"var a = b\n", c!"print this\n", c!"a = a\n"]

theorem wholeLine_of {l x : Str} {g : Str} {sts : List Stmt} {r : List Str} {w : List Token} {t n eof : Token} {ts : List Token}
    (hx : l = x ++ ['\n']) (h1 : scanClusters asciiEnv (asciiEnv.segment x) = .done (.ok ts))
    (h2 : asciiEnv.segment l = asciiEnv.segment x ++ newline) (h3 : asciiEnv.segment l = g :: r) (h4 : g ∉ [[' '], ['\t'], ['\r'], ['\n'], ['\\']])
    (h5 : scanTokens asciiEnv l = .done (.ok ((t :: w ++ [n]) ++ [eof]))) (h6 : n.tokenType = .terminator)
    (h7 : (w ++ [n]).head?.map Token.tokenType ≠ some .colon) (h8 : parse asciiEnv l = .done (.ok sts)) : WholeLine asciiEnv l where
  complete := .inr ⟨_, _, h2, h1⟩
  left := ⟨g, r, h3, h4⟩
  tokens := ⟨_, eof, h5, ⟨_, n, rfl, h6⟩, by
    rintro ⟨t', c, r, e, -, hc⟩
    simp only [List.cons_append, List.cons.injEq] at e
    rw [e.2] at h7
    exact h7 (by simp [hc])⟩
  program := ⟨sts, h8⟩
  separate := by
    intro after
    subst hx
    rw [List.append_assoc]
    exact ascii_separate after x

theorem threeLines_whole : ∀ l ∈ threeLines, WholeLine asciiEnv l := by
  intro l hl
  simp only [threeLines, List.mem_cons, List.not_mem_nil, or_false] at hl
  rcases hl with rfl | rfl | rfl
  · exact wholeLine_of (x := c!"var a = b") (g := c!"v") (r := (asciiEnv.segment c!"var a = b\n").tail)
      (ts := [⟨.var, c!"var", none, none, 1, 1⟩, ⟨.identifier, c!"a", none, none, 1, 5⟩, ⟨.equal, c!"=", none, none, 1, 7⟩,
        ⟨.identifier, c!"b", none, none, 1, 9⟩, ⟨.eof, [], none, none, 1, 10⟩])
      (t := ⟨.var, c!"var", none, none, 1, 1⟩)
      (w := [⟨.identifier, c!"a", none, none, 1, 5⟩, ⟨.equal, c!"=", none, none, 1, 7⟩, ⟨.identifier, c!"b", none, none, 1, 9⟩])
      (n := ⟨.terminator, c!"\n", none, none, 1, 10⟩) (eof := ⟨.eof, [], none, none, 2, 1⟩)
      (sts := [.var c!"a" .placeholder (v c!"b" 1 9) ⟨1, 5⟩])
      rfl (by by_kernel) (by by_kernel) (by by_kernel) (by decide) (by by_kernel) rfl (by decide) (by by_kernel)
  · exact wholeLine_of (x := c!"print this") (g := c!"p") (r := (asciiEnv.segment c!"print this\n").tail)
      (ts := [⟨.print, c!"print", none, none, 1, 1⟩, ⟨.this, c!"this", none, none, 1, 7⟩, ⟨.eof, [], none, none, 1, 11⟩])
      (t := ⟨.print, c!"print", none, none, 1, 1⟩) (w := [⟨.this, c!"this", none, none, 1, 7⟩])
      (n := ⟨.terminator, c!"\n", none, none, 1, 11⟩) (eof := ⟨.eof, [], none, none, 2, 1⟩)
      (sts := [.print (v c!"this" 1 7)])
      rfl (by by_kernel) (by by_kernel) (by by_kernel) (by decide) (by by_kernel) rfl (by decide) (by by_kernel)
  · exact wholeLine_of (x := c!"a = a") (g := c!"a") (r := (asciiEnv.segment c!"a = a\n").tail)
      (ts := [⟨.identifier, c!"a", none, none, 1, 1⟩, ⟨.equal, c!"=", none, none, 1, 3⟩, ⟨.identifier, c!"a", none, none, 1, 5⟩,
        ⟨.eof, [], none, none, 1, 6⟩])
      (t := ⟨.identifier, c!"a", none, none, 1, 1⟩) (w := [⟨.equal, c!"=", none, none, 1, 3⟩, ⟨.identifier, c!"a", none, none, 1, 5⟩])
      (n := ⟨.terminator, c!"\n", none, none, 1, 6⟩) (eof := ⟨.eof, [], none, none, 2, 1⟩)
      (sts := [.expression (.assign c!"a" .placeholder (v c!"a" 1 5) ⟨1, 3⟩)])
      rfl (by by_kernel) (by by_kernel) (by by_kernel) (by decide) (by by_kernel) rfl (by decide) (by by_kernel)

/-- All hypotheses of `session_file` hold for these lines, and also for the first and the last of them,
which are without an error. -/
example : EnvLaws asciiEnv ∧ threeLines ≠ [] ∧ (∀ l ∈ threeLines, WholeLine asciiEnv l) ∧ Fits asciiEnv threeLines.flatten ∧
    (Repl.after asciiEnv threeLines.length (.start (threeLines.map some))).status = .running ∧
    (Repl.after asciiEnv threeLines.length (.start (threeLines.map some))).printed =
      [.prompt, .statements [.var c!"a" ⟨0⟩ (u c!"b" 0 1 1 9) ⟨1, 5⟩],
        .prompt, .errors ["[line 1:7] Error at 'this': Cannot use 'this' outside of a class."],
        .prompt, .statements [.expression (.assign c!"a" ⟨0, 0⟩ (u c!"a" 0 0 1 5) ⟨1, 3⟩)]] ∧
    runFile asciiEnv threeLines.flatten =
      .done (.errors ["[line 2:7] Error at 'this': Cannot use 'this' outside of a class."], .code 65) ∧
    runFile asciiEnv (threeLines.eraseIdx 1).flatten =
      .done (.statements [.var c!"a" ⟨0⟩ (u c!"b" 0 1 1 9) ⟨1, 5⟩, .expression (.assign c!"a" ⟨0, 0⟩ (u c!"a" 0 0 2 5) ⟨2, 3⟩)], .code 0) :=
  ⟨asciiEnv_laws, by decide, threeLines_whole, fits_of_small (by by_kernel), by by_kernel, by by_kernel, by by_kernel, by by_kernel⟩

end Ws.Properties
