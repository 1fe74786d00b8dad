import Verif.Properties.Positions
import Verif.Proofs.Parse.Relabel
import Verif.Proofs.Resolve.Relabel
import Verif.Proofs.Scan.Respell
import Verif.Properties.Reading
/-! Properties C71 and C72: names, strings and numbers are not looked into. -/
namespace Ws.Properties
open Ws Spec

variable {env : Env} {source source' : Str} {repl : Bool} {rs : Resolver} {ρ : Relabelling} {ts ts' : List Token}

/-! ### C71 -/

/-- C71: for tokens with other names, strings and numbers, the parser gives the program with the other
names, strings and numbers, or the same errors at the same places. Different names, and different keys
of maps, must stay different. -/
theorem relabelled_parse (hρ : ρ.Faithful) (h : Each (RelabelledToken ρ) ts ts') (hk : KeysAgree ρ ts) :
    Relabelled (relabelStmts ρ) (parseTokens env ts repl) (parseTokens env ts' repl) :=
  parseTokens_relabelled ⟨ρ, ts, ts', hρ, h, hk⟩ repl

/-- C71: the same for a single expression. -/
theorem relabelled_expression (hρ : ρ.Faithful) (h : Each (RelabelledToken ρ) ts ts') (hk : KeysAgree ρ ts) :
    Relabelled (relabelExpr ρ) (parseExpressionTokens env ts) (parseExpressionTokens env ts') :=
  parseExpressionTokens_relabelled ⟨ρ, ts, ts', hρ, h, hk⟩

theorem renamed_each {σ : Str → Str} {es es'} (h : RenamedCauses σ es es') : Each SameComplaint es es' := by
  induction h with
  | nil => exact .nil
  | cons h _ ih => exact .cons ⟨h.loc, h.message⟩ ih

/-- C71: the same for the resolver. -/
theorem relabelled_resolve (hρ : ρ.Faithful) (sts : List Stmt) :
    RelabelledRun ρ (rs.resolve sts) ((renamedState ρ.name rs).resolve (relabelStmts ρ sts)) := by
  have h := loop_relabel hρ sts rs
  rw [show rs.rename ρ.name = renamedState ρ.name rs from rfl] at h
  simp only [resolve_loop]
  revert h
  generalize resolveLoop sts rs = r
  generalize resolveLoop (relabelStmts ρ sts) (renamedState ρ.name rs) = r'
  intro h
  cases h with
  | done ss es es' rs he =>
    cases he with
    | nil => exact .ok ss rs
    | cons hc hcs => exact .error rs (renamed_each (.cons hc hcs))
  | panic m => exact .panic m
  | diverge => exact .diverge

/-- What happens to the tokens. -/
theorem relabelled_tokens (hρ : ρ.Faithful) (h : Each (RelabelledToken ρ) ts ts') (hk : KeysAgree ρ ts) :
    RelabelledRun ρ
      ((parseTokens env ts repl).bind fun | .error e => .done (.error e, rs) | .ok ast => rs.resolve ast)
      ((parseTokens env ts' repl).bind fun
        | .error e => .done (.error e, renamedState ρ.name rs) | .ok ast => (renamedState ρ.name rs).resolve ast) := by
  have h := relabelled_parse (env := env) (repl := repl) hρ h hk
  revert h
  generalize parseTokens env ts repl = x
  generalize parseTokens env ts' repl = x'
  intro h
  cases h with
  | ok sts => exact relabelled_resolve hρ sts
  | error h => exact .error rs h
  | panic m => exact .panic m
  | diverge => exact .diverge

/-- C71: for a source whose tokens have other names, strings and numbers, a run gives the program with
the other names, strings and numbers, or the same errors at the same places, and leaves the resolver
with the other names. -/
theorem relabelled_run (hρ : ρ.Faithful) (hs : scanTokens env source = .done (.ok ts))
    (hs' : scanTokens env source' = .done (.ok ts')) (h : Each (RelabelledToken ρ) ts ts') (hk : KeysAgree ρ ts) :
    RelabelledRun ρ (run env rs source repl) (run env (renamedState ρ.name rs) source' repl) := by
  rw [run_scan, run_scan, hs, hs']
  exact relabelled_tokens hρ h hk

/-- Exchanges the names and keys `a` and `bc`, and makes every string empty and every number 20.5. -/
def swapped : Relabelling where
  name x := if x = c!"a" then c!"bc" else if x = c!"bc" then c!"a" else x
  key x := if x = c!"a" then c!"bc" else if x = c!"bc" then c!"a" else x
  string _ := []
  number x := (asciiEnv.parseF64 c!"20.5").getD x

theorem swap_injective {a b x y : Str}
    (h : (if x = a then b else if x = b then a else x) = if y = a then b else if y = b then a else y) : x = y := by
  by_cases h1 : x = a <;> by_cases h2 : x = b <;> by_cases h3 : y = a <;> by_cases h4 : y = b <;> simp_all

theorem swapped_faithful : swapped.Faithful := by
  have h : ∀ x y : Str, swapped.name x = swapped.name y → x = y := by
    exact fun x y h => swap_injective h
  exact ⟨h, h, rfl, rfl, rfl⟩

/-- The tokens of `{a: a}` and of `{bc: bc}` meet the conditions of C71. -/
example : ∃ ts ts', scanTokens asciiEnv c!"{a: a}" = .done (.ok ts) ∧ scanTokens asciiEnv c!"{bc: bc}" = .done (.ok ts') ∧
    Each (RelabelledToken swapped) (ts.map (moveToken nowhere)) (ts'.map (moveToken nowhere)) ∧ KeysAgree swapped ts := by
  have h1 : scanTokens asciiEnv c!"{a: a}" = .done (.ok
      [⟨.leftBrace, c!"{", none, none, 1, 1⟩, ⟨.identifier, c!"a", none, none, 1, 2⟩, ⟨.colon, c!":", none, none, 1, 3⟩,
        ⟨.identifier, c!"a", none, none, 1, 5⟩, ⟨.rightBrace, c!"}", none, none, 1, 6⟩,
        ⟨.eof, [], none, none, 1, 7⟩]) := by by_kernel
  have h2 : scanTokens asciiEnv c!"{bc: bc}" = .done (.ok
      [⟨.leftBrace, c!"{", none, none, 1, 1⟩, ⟨.identifier, c!"bc", none, none, 1, 2⟩, ⟨.colon, c!":", none, none, 1, 4⟩,
        ⟨.identifier, c!"bc", none, none, 1, 6⟩, ⟨.rightBrace, c!"}", none, none, 1, 8⟩,
        ⟨.eof, [], none, none, 1, 9⟩]) := by by_kernel
  refine ⟨_, _, h1, h2, ?_, ?_⟩
  · repeat' first
      | exact .nil
      | refine .cons ⟨rfl, rfl, rfl, ?_, ?_, ?_, ?_⟩ ?_
      | (intro h; first | exact absurd h (by decide) | exact (by decide))
  · intro before t colon after e hc
    have hm : t ∈ [(⟨.leftBrace, c!"{", none, none, 1, 1⟩ : Token), ⟨.identifier, c!"a", none, none, 1, 2⟩,
        ⟨.colon, c!":", none, none, 1, 3⟩, ⟨.identifier, c!"a", none, none, 1, 5⟩, ⟨.rightBrace, c!"}", none, none, 1, 6⟩,
        ⟨.eof, [], none, none, 1, 7⟩] := by rw [e]; simp
    refine ⟨fun _ => rfl, fun h => ?_⟩
    simp only [List.mem_cons, List.not_mem_nil, or_false] at hm
    rcases hm with rfl | rfl | rfl | rfl | rfl | rfl <;> exact absurd h (by decide)

/-- The keys must agree: with `x` and `"y"` the keys of a map are different, but with `y` and `"y"` they
are not, though different names stay different and strings stay what they are. -/
example : (∃ sts rs, run asciiEnv .new c!"var m = {x: 1, \"y\": 2}" false = .done (.ok sts, rs)) ∧
    ∃ es rs, run asciiEnv .new c!"var m = {y: 1, \"y\": 2}" false = .done (.error es, rs) := by
  have h1 : (match run asciiEnv .new c!"var m = {x: 1, \"y\": 2}" false with
      | .done (.ok _, _) => true | _ => false) = true := by by_kernel
  have h2 : (match run asciiEnv .new c!"var m = {y: 1, \"y\": 2}" false with
      | .done (.error _, _) => true | _ => false) = true := by by_kernel
  revert h1 h2
  generalize run asciiEnv .new c!"var m = {x: 1, \"y\": 2}" false = r
  generalize run asciiEnv .new c!"var m = {y: 1, \"y\": 2}" false = r'
  intro h1 h2
  constructor
  · split at h1
    · exact ⟨_, _, rfl⟩
    · cases h1
  · split at h2
    · exact ⟨_, _, rfl⟩
    · cases h2

/-! ### C72 -/

theorem each_map {α β γ δ : Type} {r : α → β → Prop} {q : γ → δ → Prop} {f : α → γ} {g : β → δ}
    (hfg : ∀ a b, r a b → q (f a) (g b)) : ∀ {as bs}, Each r as bs → Each q (as.map f) (bs.map g)
  | _, _, .nil => .nil
  | _, _, .cons h hs => .cons (hfg _ _ h) (each_map hfg hs)

theorem keysAgree_moved (h : KeysAgree ρ ts) : KeysAgree ρ (ts.map (moveToken nowhere)) := by
  intro before t colon after e hc
  obtain ⟨b, r, rfl, rfl, e1⟩ := List.map_eq_append_iff.1 e
  obtain ⟨t, r, rfl, rfl, e2⟩ := List.map_eq_cons_iff.1 e1
  obtain ⟨c, r, rfl, rfl, rfl⟩ := List.map_eq_cons_iff.1 e2
  exact h b t c r rfl hc

theorem keysAgree_closing {steps : List Spec.Step} (h : KeysAgree ρ (tokensOf steps)) :
    KeysAgree ρ (tokensOf steps ++ closing steps) := by
  intro before t colon after e hc
  have hn : ∀ x ∈ closing steps, x.tokenType ≠ .colon := by
    intro x hx
    simp only [closing, List.mem_append, List.mem_replicate, List.mem_singleton] at hx
    rcases hx with ⟨-, rfl⟩ | rfl <;> simp
  rcases List.append_eq_append_iff.1 e with ⟨x, rfl, ex⟩ | ⟨x, ex, ex'⟩
  · exact absurd hc (hn colon (by rw [ex]; simp))
  · cases x with
    | nil => exact absurd hc (hn colon (by rw [List.nil_append] at ex'; rw [← ex']; simp))
    | cons y x =>
      simp only [List.cons_append, List.cons.injEq] at ex'
      obtain ⟨rfl, ex'⟩ := ex'
      cases x with
      | nil => exact absurd hc (hn colon (by rw [List.nil_append] at ex'; rw [← ex']; simp))
      | cons z x =>
        simp only [List.cons_append, List.cons.injEq] at ex'
        obtain ⟨rfl, -⟩ := ex'
        exact h before t colon x ex hc

variable {steps : List Spec.Step} {ls : List (List Str)}

/-- C72: for a source that has a reading, and another source that has other names, strings, numbers
and comments in the place of those of the first one, the scanner gives the tokens with the other names,
strings and numbers, or the same errors. -/
theorem respelled_scan (hE : EnvLaws env) (hL : LetterLaw env) (hρ : ρ.Faithful)
    (hr : Reading env steps []) (ht : textOf steps = env.segment source)
    (h : Each (Respelled env ρ) (pieces steps) ls) (ht' : env.segment source' = ls.flatten) :
    (∃ ts ts', scanTokens env source = .done (.ok ts) ∧ scanTokens env source' = .done (.ok ts') ∧
        ts = tokensOf steps ++ closing steps ∧
        Each (RelabelledToken ρ) (ts.map (moveToken nowhere)) (ts'.map (moveToken nowhere))) ∨
      ∃ es es', scanTokens env source = .done (.error es) ∧ scanTokens env source' = .done (.error es') ∧
        Each SameComplaint (es.map (moveCause nowhere)) (es'.map (moveCause nowhere)) := by
  obtain ⟨steps', hl, hx, hr'⟩ := respell_steps hE.toAsciiLaws hL hρ (b := steps) (a := []) (a' := [])
    (fun x s y e => by have := hr x s y e; simpa using this) h .nil
  have hr' : Reading env steps' [] := fun x s y e => by have := hr' x s y e; simpa using this
  have hx : textOf steps' = env.segment source' := hx.trans ht'.symm
  have hc := causes_like hl
  by_cases he : causesOf steps = []
  · have he' : causesOf steps' = [] := by
      rw [he] at hc
      generalize causesOf steps' = cs at hc
      cases hc
      rfl
    exact .inl ⟨_, _, (scan_accepts_iff hE _).2 ⟨steps, ht, hr, he, rfl⟩,
      (scan_accepts_iff hE _).2 ⟨steps', hx, hr', he', rfl⟩, rfl,
      each_map (r := TokLike ρ) (f := moveToken nowhere) (g := moveToken nowhere) (fun _ _ h => h) (each_append (tokens_like hl) (closing_like hl))⟩
  · have he' : causesOf steps' ≠ [] := by
      intro e
      rw [e] at hc
      generalize causesOf steps = cs at hc he
      cases hc
      exact he rfl
    exact .inr ⟨_, _, (scan_rejects_iff hE _).2 ⟨steps, ht, hr, rfl, he⟩,
      (scan_rejects_iff hE _).2 ⟨steps', hx, hr', rfl, he'⟩, each_map (fun _ _ h => ⟨rfl, h⟩) hc⟩

/-- C72: and a run gives the program with the other names, strings and numbers, or the same errors, at
whatever positions, and leaves the resolver with the other names. -/
theorem respelled_run (hE : EnvLaws env) (hL : LetterLaw env) (hρ : ρ.Faithful)
    (hr : Reading env steps []) (ht : textOf steps = env.segment source)
    (h : Each (Respelled env ρ) (pieces steps) ls) (ht' : env.segment source' = ls.flatten)
    (hk : KeysAgree ρ (tokensOf steps)) :
    RelabelledRun ρ (movedRun nowhere (run env rs source repl))
      (movedRun nowhere (run env (renamedState ρ.name rs) source' repl)) := by
  rw [run_nowhere, run_nowhere]
  obtain ⟨ts, ts', e, e', rfl, hts⟩ | ⟨es, es', e, e', hes⟩ := respelled_scan hE hL hρ hr ht h ht'
  · rw [e, e']
    exact relabelled_tokens hρ hts (keysAgree_moved (keysAgree_closing hk))
  · rw [e, e']
    exact .error rs hes

/-- The reading of `a+1//x`. -/
def sumSteps : List Spec.Step :=
  [⟨[], [], .token ⟨.identifier, c!"a", none, none, 1, 1⟩ [c!"a"]⟩,
    ⟨[], [], .token ⟨.plus, c!"+", none, none, 1, 2⟩ [c!"+"]⟩,
    ⟨[], [], .token ⟨.number, c!"1", none, asciiEnv.parseF64 c!"1", 1, 3⟩ [c!"1"]⟩,
    ⟨[], [], .comment [c!"x"]⟩]

theorem sumSteps_reading : Reading asciiEnv sumSteps [] := by
  have h0 : Reading asciiEnv [] ([] ++ textOf sumSteps) := by intro a s b e; simp at e
  have h1 := (reading_snoc (done := []) (s := ⟨[], [], .token ⟨.identifier, c!"a", none, none, 1, 1⟩ [c!"a"]⟩)
      (rest := [c!"+", c!"1", c!"/", c!"/", c!"x"])).2 ⟨h0, by
    refine ⟨⟨⟨rfl, ⟨rfl, rfl⟩, .inr (.inl ⟨⟨_, _, rfl, ⟨_, _, rfl, .inl rfl⟩, by simp⟩, ?_, .inr ⟨rfl, ?_⟩, rfl, rfl⟩)⟩,
      by simp, by simp, by simp, by simp⟩, fun _ => ⟨_, _, rfl, .same _ (by by_kernel)⟩, fun _ => ⟨rfl, rfl⟩⟩
    · rintro g e ⟨c, r, rfl, h⟩
      cases e
      revert h; decide
    · intro k; cases k <;> decide⟩
  have h2 := (reading_snoc (done := [] ++ [⟨[], [], .token ⟨.identifier, c!"a", none, none, 1, 1⟩ [c!"a"]⟩])
      (s := ⟨[], [], .token ⟨.plus, c!"+", none, none, 1, 2⟩ [c!"+"]⟩)
      (rest := [c!"1", c!"/", c!"/", c!"x"])).2 ⟨h1, by
    refine ⟨⟨⟨rfl, ⟨rfl, rfl⟩, .inl ⟨rfl, rfl, rfl, rfl, ?_, ?_⟩⟩, by simp, by simp, by simp, by simp⟩, ?_, fun _ => ⟨rfl, rfl⟩⟩
    · intro h; exact absurd h (by decide)
    · intro h; exact absurd h (by decide)
    · rintro ⟨-, h⟩
      exact absurd ⟨_, List.mem_singleton.2 rfl, rfl⟩ h⟩
  have h3 := (reading_snoc (done := [] ++ [⟨[], [], .token ⟨.identifier, c!"a", none, none, 1, 1⟩ [c!"a"]⟩] ++
        [⟨[], [], .token ⟨.plus, c!"+", none, none, 1, 2⟩ [c!"+"]⟩])
      (s := ⟨[], [], .token ⟨.number, c!"1", none, asciiEnv.parseF64 c!"1", 1, 3⟩ [c!"1"]⟩)
      (rest := [c!"/", c!"/", c!"x"])).2 ⟨h2, by
    refine ⟨⟨⟨rfl, ⟨rfl, rfl⟩, .inr (.inr (.inl ⟨rfl, ⟨[c!"1"], [], by simp, by decide, by simp, .inl ⟨rfl, rfl, by simp⟩⟩,
      ?_, rfl, ?_, rfl⟩))⟩, by simp, by simp, by simp, by simp⟩, ?_, fun _ => ⟨rfl, rfl⟩⟩
    · intro g e; cases e; decide
    · intro h
      have hs : (asciiEnv.parseF64 c!"1").isSome = true := by by_kernel
      rw [show asciiEnv.parseF64 c!"1" = none from h] at hs
      cases hs
    · rintro ⟨-, h⟩
      exact absurd ⟨_, List.mem_cons_self, rfl⟩ h⟩
  exact (reading_snoc (s := ⟨[], [], .comment [c!"x"]⟩) (rest := [])).2 ⟨h3, by
    refine ⟨⟨⟨by decide, .inl rfl⟩, by simp, by simp, by simp, by simp⟩, ?_, fun _ => ⟨rfl, rfl⟩⟩
    rintro ⟨-, h⟩
    exact absurd ⟨_, List.mem_cons_self, rfl⟩ h⟩

/-- `a+1//x` and `bc+20.5//` meet the conditions of C72. -/
example : RelabelledRun swapped (movedRun nowhere (run asciiEnv .new c!"a+1//x" false))
    (movedRun nowhere (run asciiEnv (renamedState swapped.name .new) c!"bc+20.5//" false)) := by
  have hL : LetterLaw asciiEnv := by
    intro c h
    show c.isAlphanum = true
    rw [Char.isAlphanum, show c.isAlpha = true from h, Bool.true_or]
  refine respelled_run (steps := sumSteps)
    (ls := [[c!"b", c!"c"], [c!"+"], [c!"2", c!"0", c!".", c!"5"], [c!"/", c!"/"]])
    asciiEnv_laws hL swapped_faithful sumSteps_reading (by by_kernel) ?_ (by by_kernel) ?_
  · refine .cons (.name _ _ _ _ rfl ⟨_, _, rfl, by decide⟩ ?_ ?_ rfl) (.cons (.same _ rfl)
      (.cons (.fraction _ _ [c!"2", c!"0"] [c!"5"] rfl (by simp) (by simp) (by decide) ?_) (.cons (.comment _ [] (by simp)) .nil)))
    · intro h hh
      simp only [List.mem_singleton] at hh
      subst hh
      exact ⟨_, _, rfl, by decide⟩
    · intro k; cases k <;> decide
    · by_kernel
  · intro before t colon after e hc
    have hm : colon ∈ tokensOf sumSteps := by rw [e]; simp
    simp only [sumSteps, tokensOf, List.flatMap_cons, List.flatMap_nil, Spec.Step.toks, Piece.tok, List.nil_append,
      List.append_nil, List.cons_append, List.mem_cons, List.not_mem_nil, or_false] at hm
    rcases hm with rfl | rfl | rfl <;> cases hc

end Ws.Properties
