import Verif.Proofs.Scan.Space
import Verif.Spec.Reindent
/-! Other amounts of indentation. -/
namespace Ws
open Spec Scanner

/-! ### Walking through a line -/

/-- A place inside a line. -/
def Spec.Where.inside : Where → Bool
  | .margin _ => false
  | _ => true

theorem reindent_inside {f : Nat → Nat} {w : Where} (hw : w.inside = true) (g : Str) (cs : List Str) :
    reindent f w (g :: cs) = g :: reindent f (w.after g) cs := by
  cases w <;> first | (cases hw; done) | rfl

theorem margins_inside {w : Where} (hw : w.inside = true) (g : Str) (cs : List Str) :
    margins w (g :: cs) = margins (w.after g) cs := by
  cases w <;> first | (cases hw; done) | rfl

theorem reindent_nil {f : Nat → Nat} {w : Where} (hw : w.inside = true) : reindent f w [] = [] := by
  cases w <;> first | (cases hw; done) | rfl

theorem reindent_head {f : Nat → Nat} {w : Where} (hw : w.inside = true) (cs : List Str) :
    (reindent f w cs).head? = cs.head? := by
  cases cs with
  | nil => rw [reindent_nil hw]
  | cons g cs => rw [reindent_inside hw]; rfl

/-- A cluster of the code that is none of those that lead elsewhere. -/
structure Common (g : Str) : Prop where
  newline : g ≠ ['\n']
  quote : g ≠ ['"']
  slash : g ≠ ['/']

theorem after_common {g : Str} (h : Common g) : Where.code.after g = .code := by
  simp only [Where.after, h.newline, h.quote, h.slash, if_false]

/-- The clusters of a class, at the beginning of a text in which one stays where one is. -/
theorem walk {f : Nat → Nat} {P : Str → Bool} {w : Where} (hw : w.inside = true) (h : ∀ g, P g = true → w.after g = w)
    (cs : List Str) :
    (reindent f w cs).takeWhile P = cs.takeWhile P ∧
      (reindent f w cs).dropWhile P = reindent f w (cs.dropWhile P) ∧ margins w cs = margins w (cs.dropWhile P) := by
  induction cs with
  | nil => rw [reindent_nil hw]; exact ⟨rfl, (reindent_nil hw).symm, rfl⟩
  | cons g cs ih =>
    by_cases hg : P g = true
    · rw [reindent_inside hw, margins_inside hw, h g hg]
      simp only [List.takeWhile_cons, List.dropWhile_cons, hg, if_true, ih, true_and]
    · rw [reindent_inside hw]
      simp only [List.takeWhile_cons, List.dropWhile_cons, hg, if_false, Bool.false_eq_true, reindent_inside hw]
      trivial

theorem drop_taken {α : Type} (P : α → Bool) (l : List α) : l.drop (l.takeWhile P).length = l.dropWhile P := by
  induction l with
  | nil => rfl
  | cons a l ih =>
    by_cases h : P a = true
    · simp only [List.takeWhile_cons, List.dropWhile_cons, h, if_true, List.length_cons, List.drop_succ_cons, ih]
    · simp only [List.takeWhile_cons, List.dropWhile_cons, h, if_false, Bool.false_eq_true]; rfl

/-! ### Lexemes -/

/-- How many clusters a lexeme has that begins a text with `cs` after its first cluster. -/
def Kind.width (cs : List Str) : Kind → Nat
  | .tok _ _ | .unexpected | .tab | .space | .cr | .newline => 1
  | .two _ _ _ => 2
  | .num taken | .ident taken | .comment taken | .backslash taken _ => taken.length + 1
  | .str taken => taken.length + 2
  | .unterminated => cs.length + 1

/-- After the lexeme a line begins. -/
def Kind.ends : Kind → Bool
  | .newline => true
  | .backslash _ nl => nl
  | _ => false

/-- Where one is after a lexeme. -/
def Kind.then (k : Kind) : Where := if k.ends then .margin 0 else .code

/-- The lexeme is the same, and the text after it is indented otherwise. -/
structure LexedAgain (env : Env) (f : Nat → Nat) (a : Bool) (g : Str) (cs : List Str) : Prop where
  same : lexeme env a g (reindent f (Where.code.after g) cs) = lexeme env a g cs
  rest : (g :: reindent f (Where.code.after g) cs).drop ((lexeme env a g cs).width cs) =
    reindent f (lexeme env a g cs).then ((g :: cs).drop ((lexeme env a g cs).width cs))
  lines : margins (Where.code.after g) cs =
    margins (lexeme env a g cs).then ((g :: cs).drop ((lexeme env a g cs).width cs))
  whole : lexeme env a g cs = .unterminated → reindent f (Where.code.after g) cs = cs

/-- What is wanted of a lexeme of the kind `k`. -/
theorem lexedAgain {env : Env} {f : Nat → Nat} {a : Bool} {g : Str} {cs cs' : List Str} {ms : List (Nat × Str)} {k : Kind}
    (h' : reindent f (Where.code.after g) cs = cs') (hm : margins (Where.code.after g) cs = ms)
    (h1 : lexeme env a g cs = k) (h2 : lexeme env a g cs' = k)
    (h3 : (g :: cs').drop (k.width cs) = reindent f k.then ((g :: cs).drop (k.width cs)))
    (h4 : ms = margins k.then ((g :: cs).drop (k.width cs))) (h5 : k = .unterminated → cs' = cs) :
    LexedAgain env f a g cs := by
  subst h' hm
  rw [← h1] at h3 h4 h5
  exact ⟨h2.trans h1.symm, h3, h4, h5⟩

theorem alnum_common {env : Env} (hA : AsciiLaws env) {g : Str} (h : isAlnum env g = true) : Common g := by
  refine ⟨?_, ?_, ?_⟩ <;> rintro rfl <;> simp only [isAlnum] at h
  · rw [hA.alphanumeric '\n' (by decide)] at h; revert h; decide
  · rw [hA.alphanumeric '"' (by decide)] at h; revert h; decide
  · rw [hA.alphanumeric '/' (by decide)] at h; revert h; decide

theorem digit_common {g : Str} (h : isDigit g = true) : Common g := by
  refine ⟨?_, ?_, ?_⟩ <;> rintro rfl <;> revert h <;> decide

theorem walk_code {f : Nat → Nat} {P : Str → Bool} (h : ∀ g, P g = true → Common g) (cs : List Str) :
    (reindent f .code cs).takeWhile P = cs.takeWhile P ∧
      (reindent f .code cs).dropWhile P = reindent f .code (cs.dropWhile P) ∧
      margins .code cs = margins .code (cs.dropWhile P) :=
  walk rfl (fun g hg => after_common (h g hg)) cs

/-- A lexeme of one cluster. -/
theorem lexed_one {env : Env} {f : Nat → Nat} {a : Bool} {g : Str} {cs : List Str} {k : Kind} (hg : Common g)
    (hw : k.width cs = 1) (he : k.ends = false) (h : ∀ cs', cs'.head? = cs.head? → lexeme env a g cs' = k) :
    LexedAgain env f a g cs := by
  have hc : Kind.then k = .code := by simp only [Kind.then, he]; rfl
  refine lexedAgain (by rw [after_common hg]) (by rw [after_common hg]) (h _ rfl) (h _ (reindent_head rfl cs)) ?_ ?_ ?_
  · rw [hw, hc]; rfl
  · rw [hw, hc]; rfl
  · rintro rfl
    have : cs.length + 1 = 1 := hw
    have : cs = [] := by cases cs <;> simp_all
    subst this; rfl

theorem fraction_reindent {f : Nat → Nat} (r : List Str) :
    fraction (reindent f .code r) = fraction r ∧
      (reindent f .code r).drop (fraction r).length = reindent f .code (r.drop (fraction r).length) ∧
      margins .code r = margins .code (r.drop (fraction r).length) := by
  match r with
  | [] => exact ⟨rfl, rfl, rfl⟩
  | [d] =>
    by_cases hd : d = ['.']
    · subst hd; exact ⟨rfl, rfl, rfl⟩
    · have e : reindent f .code [d] = d :: reindent f (Where.code.after d) [] := rfl
      have ef : ∀ x, fraction (d :: x) = [] := fun x => by cases x <;> simp only [fraction, hd, if_false]
      rw [e, ef, ef]
      exact ⟨rfl, rfl, rfl⟩
  | d :: c :: cs =>
    by_cases hd : d = ['.']
    · subst hd
      by_cases hc : isDigit c = true
      · have e : reindent f .code (['.'] :: c :: cs) = ['.'] :: reindent f .code (c :: cs) := rfl
        have em : margins .code (['.'] :: c :: cs) = margins .code (c :: cs) := rfl
        obtain ⟨h1, h2, h3⟩ := walk_code (f := f) (P := isDigit) (fun g => digit_common) (c :: cs)
        have hcc : reindent f .code (c :: cs) = c :: reindent f (Where.code.after c) cs := rfl
        have ef : fraction (['.'] :: c :: cs) = ['.'] :: (c :: cs).takeWhile isDigit := by
          simp only [fraction, if_true, hc]
        have ef' : fraction (['.'] :: reindent f .code (c :: cs)) = ['.'] :: (c :: cs).takeWhile isDigit := by
          rw [← h1, hcc]
          simp only [fraction, if_true, hc]
        rw [e, ef', ef]
        simp only [List.length_cons, List.drop_succ_cons, drop_taken]
        refine ⟨trivial, ?_, em.trans h3⟩
        rw [← h1, drop_taken, h2]
      · have e : reindent f .code (['.'] :: c :: cs) = ['.'] :: c :: reindent f (Where.code.after c) cs := rfl
        have ef : ∀ x, fraction (['.'] :: c :: x) = [] := fun x => by simp only [fraction, if_true, hc]; rfl
        rw [e, ef, ef]
        exact ⟨rfl, rfl, rfl⟩
    · have e : reindent f .code (d :: c :: cs) = d :: reindent f (Where.code.after d) (c :: cs) := rfl
      have ef : ∀ x, fraction (d :: x) = [] := fun x => by cases x <;> simp only [fraction, hd, if_false]
      rw [e, ef, ef]
      exact ⟨rfl, rfl, rfl⟩

theorem backslash_reindent {f : Nat → Nat} (cs : List Str) :
    backslashTaken (reindent f .code cs) = backslashTaken cs ∧
      (reindent f .code cs).drop (backslashTaken cs).1.length =
        reindent f (if (backslashTaken cs).2 then .margin 0 else .code) (cs.drop (backslashTaken cs).1.length) ∧
      margins .code cs =
        margins (if (backslashTaken cs).2 then .margin 0 else .code) (cs.drop (backslashTaken cs).1.length) := by
  have hP : ∀ g : Str, (g == [' ']) = true → Common g := by
    intro g hg
    obtain rfl : g = [' '] := by simpa using hg
    exact ⟨by decide, by decide, by decide⟩
  obtain ⟨h1, h2, h3⟩ := walk_code (f := f) hP cs
  have hd := drop_taken (fun g : Str => g == [' ']) cs
  have hd' := drop_taken (fun g : Str => g == [' ']) (reindent f .code cs)
  rw [h1, h2] at hd'
  have hcr : ∀ r : List Str, optCr (reindent f .code r) = optCr r ∧
      (reindent f .code r).drop (optCr r).length = reindent f .code (r.drop (optCr r).length) ∧
      margins .code r = margins .code (r.drop (optCr r).length) := by
    intro r
    cases r with
    | nil => exact ⟨rfl, rfl, rfl⟩
    | cons g r =>
      have e : reindent f .code (g :: r) = g :: reindent f (Where.code.after g) r := rfl
      by_cases hg : g = ['\r']
      · subst hg; exact ⟨rfl, rfl, rfl⟩
      · have ef : ∀ x, optCr (g :: x) = [] := fun x => by simp only [optCr, hg, if_false]
        rw [e, ef, ef]
        exact ⟨rfl, rfl, rfl⟩
  have hb : ∀ x : List Str, backslashTaken x =
      if ((x.dropWhile (· == [' '])).drop (optCr (x.dropWhile (· == [' ']))).length).head? = some ['\n'] then
        (x.takeWhile (· == [' ']) ++ optCr (x.dropWhile (· == [' '])) ++ [['\n']], true)
      else (x.takeWhile (· == [' ']) ++ optCr (x.dropWhile (· == [' '])), false) := fun _ => rfl
  obtain ⟨c1, c2, c3⟩ := hcr (cs.dropWhile (· == [' ']))
  have hb' := hb (reindent f .code cs)
  rw [h1, h2, c1, c2, reindent_head rfl] at hb'
  have hsame : backslashTaken (reindent f .code cs) = backslashTaken cs := hb'.trans (hb cs).symm
  refine ⟨hsame, ?_⟩
  by_cases hn : ((cs.dropWhile (· == [' '])).drop (optCr (cs.dropWhile (· == [' ']))).length).head? = some ['\n']
  · rw [hb cs, if_pos hn]
    simp only [List.length_append, ← List.drop_drop, hd, hd', c2, if_true]
    rw [h3, c3]
    cases hr : (cs.dropWhile (· == [' '])).drop (optCr (cs.dropWhile (· == [' ']))).length with
    | nil => rw [hr] at hn; cases hn
    | cons g y =>
      rw [hr] at hn
      cases hn
      exact ⟨rfl, rfl⟩
  · rw [hb cs, if_neg hn]
    simp only [List.length_append, ← List.drop_drop, hd, hd', c2, Bool.false_eq_true, if_false, true_and]
    exact h3.trans c3

theorem lexed_again {env : Env} (hA : AsciiLaws env) (f : Nat → Nat) (a : Bool) (g : Str) (cs : List Str) :
    LexedAgain env f a g cs := by
  cases hp : punct g with
  | some tc =>
    obtain ⟨t, c⟩ := tc
    have hc : Common g := by
      refine ⟨?_, ?_, ?_⟩ <;> rintro rfl <;> simp [punct] at hp
    exact lexed_one (k := .tok t c) hc rfl rfl (fun cs' _ => by simp only [lexeme, hp])
  | none =>
  cases hq : eqPunct g with
  | some tc =>
    obtain ⟨tEq, t, c⟩ := tc
    have hc : Common g := by
      refine ⟨?_, ?_, ?_⟩ <;> rintro rfl <;> simp [eqPunct] at hq
    by_cases hh : cs.head? = some ['=']
    · obtain ⟨x, rfl⟩ : ∃ x, cs = ['='] :: x := by
        cases cs with
        | nil => cases hh
        | cons b x => cases hh; exact ⟨x, rfl⟩
      refine lexedAgain (cs' := ['='] :: reindent f .code x) (ms := margins .code x) (k := .two tEq ['='] c) ?_ ?_ ?_ ?_ rfl rfl nofun
      · rw [after_common hc]; rfl
      · rw [after_common hc]; rfl
      · simp only [lexeme, hp, hq, List.head?_cons, if_true]
      · simp only [lexeme, hp, hq, List.head?_cons, if_true]
    · exact lexed_one (k := .tok t c) hc rfl rfl (fun cs' e => by simp only [lexeme, hp, hq, e, hh, if_false])
  | none =>
  by_cases h1 : g = ['(']
  · subst h1
    exact lexed_one (k := .tok (if a then .leftParenAbutting else .leftParen) true) ⟨by decide, by decide, by decide⟩ rfl rfl
      (fun cs' _ => by simp only [lexeme, hp, hq, if_true])
  by_cases h2 : g = ['/']
  · subst h2
    by_cases hh : cs.head? = some ['/']
    · obtain ⟨x, rfl⟩ : ∃ x, cs = ['/'] :: x := by
        cases cs with
        | nil => cases hh
        | cons b x => cases hh; exact ⟨x, rfl⟩
      obtain ⟨w1, w2, w3⟩ := walk (f := f) (P := fun g => !(g == ['\n'])) (w := .comment) rfl (fun g hg => by
        have : g ≠ ['\n'] := by simpa using hg
        simp only [Where.after, this, if_false]) x
      have hlast : ∀ r : List Str, (∀ g, r.head? = some g → g = ['\n']) →
          reindent f .comment r = reindent f .code r ∧ margins .comment r = margins .code r := by
        intro r hr
        cases r with
        | nil => exact ⟨rfl, rfl⟩
        | cons g r => cases hr g rfl; exact ⟨rfl, rfl⟩
      have hl := hlast (x.dropWhile (fun g => !(g == ['\n']))) (fun g hg => by simpa using dropWhile_head _ _ g hg)
      refine lexedAgain (cs' := ['/'] :: reindent f .comment x) (ms := margins .comment x)
        (k := .comment (['/'] :: x.takeWhile (fun g => !(g == ['\n'])))) rfl rfl ?_ ?_ ?_ ?_ nofun
      · simp [lexeme, punct, eqPunct]
      · simp [lexeme, punct, eqPunct, w1]
      · simp only [Kind.width, List.length_cons, List.drop_succ_cons, drop_taken, Kind.then, Kind.ends, Bool.false_eq_true, if_false]
        rw [← hl.1, ← w2, ← w1, drop_taken]
      · simp only [Kind.width, List.length_cons, List.drop_succ_cons, drop_taken, Kind.then, Kind.ends, Bool.false_eq_true, if_false]
        rw [← hl.2, w3]
    · have hlast : reindent f .slash cs = reindent f .code cs ∧ margins .slash cs = margins .code cs := by
        cases cs with
        | nil => exact ⟨rfl, rfl⟩
        | cons g r =>
          have hg : g ≠ ['/'] := fun e => hh (by rw [e]; rfl)
          rw [reindent_inside rfl, reindent_inside rfl, margins_inside rfl, margins_inside rfl]
          simp only [Where.after, hg, if_false, and_self]
      refine lexedAgain (cs' := reindent f .code cs) (ms := margins .code cs) (k := .tok .slash true) hlast.1 hlast.2 ?_ ?_ rfl rfl nofun
      · simp only [lexeme, hp, hq, hh, h1, if_true, if_false]
      · simp only [lexeme, hp, hq, reindent_head (show Where.code.inside = true from rfl), hh, h1, if_true, if_false]
  by_cases h3 : g = ['\\']
  · subst h3
    obtain ⟨b1, b2, b3⟩ := backslash_reindent (f := f) cs
    refine lexedAgain (cs' := reindent f .code cs) (ms := margins .code cs)
      (k := .backslash (backslashTaken cs).1 (backslashTaken cs).2) rfl rfl ?_ ?_ b2 b3 nofun
    · simp [lexeme, punct, eqPunct]
    · simp [lexeme, punct, eqPunct, b1]
  by_cases h4 : g = ['\t']
  · subst h4
    exact lexed_one (k := .tab) ⟨by decide, by decide, by decide⟩ rfl rfl (fun cs' _ => by simp [lexeme, punct, eqPunct])
  by_cases h5 : g = [' ']
  · subst h5
    exact lexed_one (k := .space) ⟨by decide, by decide, by decide⟩ rfl rfl (fun cs' _ => by simp [lexeme, punct, eqPunct])
  by_cases h6 : g = ['\r']
  · subst h6
    exact lexed_one (k := .cr) ⟨by decide, by decide, by decide⟩ rfl rfl (fun cs' _ => by simp [lexeme, punct, eqPunct])
  by_cases h7 : g = ['\n']
  · subst h7
    exact lexedAgain (k := .newline) rfl rfl (lexeme_newline _ _ _) (lexeme_newline _ _ _) rfl rfl nofun
  by_cases h8 : g = ['"']
  · subst h8
    obtain ⟨w1, w2, w3⟩ := walk (f := f) (P := fun g => !(g == ['"'])) (w := .string) rfl (fun g hg => by
      have : g ≠ ['"'] := by simpa using hg
      simp only [Where.after, this, if_false]) cs
    have hnone : ∀ r : List Str, r.any (· == ['"']) = false → reindent f .string r = r ∧ margins .string r = [] := by
      intro r
      induction r with
      | nil => exact fun _ => ⟨rfl, rfl⟩
      | cons g r ih =>
        intro h
        simp only [List.any_cons, Bool.or_eq_false_iff] at h
        have hg : g ≠ ['"'] := by simpa using h.1
        obtain ⟨i1, i2⟩ := ih h.2
        rw [reindent_inside rfl, margins_inside rfl]
        simp only [Where.after, hg, if_false, i1, i2, and_self]
    have hany : ∀ r : List Str, r.any (· == ['"']) = true → ∃ x, r.dropWhile (fun g => !(g == ['"'])) = ['"'] :: x := by
      intro r
      induction r with
      | nil => intro h; cases h
      | cons g r ih =>
        intro h
        by_cases hg : g = ['"']
        · subst hg; exact ⟨r, rfl⟩
        · have hg' : (g == ['"']) = false := by simpa using hg
          rw [List.any_cons, hg', Bool.false_or] at h
          obtain ⟨x, hx⟩ := ih h
          exact ⟨x, by rw [List.dropWhile_cons, hg']; exact hx⟩
    have hsame : ∀ r : List Str, (reindent f .string r).any (· == ['"']) = r.any (· == ['"']) := by
      intro r
      induction r with
      | nil => rfl
      | cons g r ih =>
        rw [reindent_inside rfl, List.any_cons, List.any_cons]
        by_cases hg : g = ['"']
        · subst hg; rfl
        · have ha : Where.string.after g = .string := by simp only [Where.after, hg, if_false]
          rw [ha, ih]
    cases hq : cs.any (· == ['"']) with
    | true =>
      obtain ⟨x, hx⟩ := hany cs hq
      refine lexedAgain (cs' := reindent f .string cs) (ms := margins .string cs)
        (k := .str (cs.takeWhile (fun g => !(g == ['"'])))) rfl rfl ?_ ?_ ?_ ?_ nofun
      · simp [lexeme, punct, eqPunct, hq]
      · have := hsame cs
        rw [hq] at this
        simp [lexeme, punct, eqPunct, this, w1]
      · simp only [Kind.width, List.drop_succ_cons, ← List.drop_drop, drop_taken, Kind.then, Kind.ends, Bool.false_eq_true, if_false]
        rw [← w1, drop_taken, w2, hx]
        rfl
      · simp only [Kind.width, List.drop_succ_cons, ← List.drop_drop, drop_taken, Kind.then, Kind.ends, Bool.false_eq_true, if_false]
        rw [w3, hx]
        rfl
    | false =>
      obtain ⟨n1, n2⟩ := hnone cs hq
      refine lexedAgain (cs' := cs) (ms := []) (k := .unterminated) n1 n2 ?_ ?_ ?_ ?_ (fun _ => rfl)
      · simp [lexeme, punct, eqPunct, hq]
      · simp [lexeme, punct, eqPunct, hq]
      · simp only [Kind.width, List.drop_succ_cons, List.drop_length, Kind.then, Kind.ends, Bool.false_eq_true, if_false]
        rfl
      · simp only [Kind.width, List.drop_succ_cons, List.drop_length, Kind.then, Kind.ends, Bool.false_eq_true, if_false]
        rfl
  have hl : ∀ cs', lexeme env a g cs' = if isDigit g then .num (cs'.takeWhile isDigit ++ fraction (cs'.dropWhile isDigit))
      else if isAlpha env g then .ident (cs'.takeWhile (isAlnum env)) else .unexpected := by
    intro cs'
    simp only [lexeme, hp, hq, h1, h2, h3, h4, h5, h6, h7, h8, if_false]
  have hc : Common g := ⟨h7, h8, h2⟩
  by_cases h9 : isDigit g = true
  · obtain ⟨w1, w2, w3⟩ := walk_code (f := f) (P := isDigit) (fun g => digit_common) cs
    obtain ⟨f1, f2, f3⟩ := fraction_reindent (f := f) (cs.dropWhile isDigit)
    refine lexedAgain (cs' := reindent f .code cs) (ms := margins .code cs)
      (k := .num (cs.takeWhile isDigit ++ fraction (cs.dropWhile isDigit))) (by rw [after_common hc]) (by rw [after_common hc]) ?_ ?_ ?_ ?_ nofun
    · simp only [hl, h9, if_true]
    · simp only [hl, h9, if_true, w1, w2, f1]
    · simp only [Kind.width, List.drop_succ_cons, List.length_append, ← List.drop_drop, drop_taken, Kind.then, Kind.ends, Bool.false_eq_true, if_false]
      rw [← f2, ← w2, ← w1, drop_taken]
    · simp only [Kind.width, List.drop_succ_cons, List.length_append, ← List.drop_drop, drop_taken, Kind.then, Kind.ends, Bool.false_eq_true, if_false]
      rw [w3, f3]
  by_cases h10 : isAlpha env g = true
  · obtain ⟨w1, w2, w3⟩ := walk_code (f := f) (P := isAlnum env) (fun g => alnum_common hA) cs
    refine lexedAgain (cs' := reindent f .code cs) (ms := margins .code cs)
      (k := .ident (cs.takeWhile (isAlnum env))) (by rw [after_common hc]) (by rw [after_common hc]) ?_ ?_ ?_ ?_ nofun
    · simp only [hl, h9, h10, if_true, if_false, Bool.false_eq_true]
    · simp only [hl, h9, h10, if_true, if_false, w1, Bool.false_eq_true]
    · simp only [Kind.width, List.drop_succ_cons, drop_taken, Kind.then, Kind.ends, Bool.false_eq_true, if_false]
      rw [← w2, ← w1, drop_taken]
    · simp only [Kind.width, List.drop_succ_cons, drop_taken, Kind.then, Kind.ends, Bool.false_eq_true, if_false]
      rw [w3]
  · exact lexed_one (k := .unexpected) hc rfl rfl (fun cs' _ => by simp only [hl, h9, h10, if_false, Bool.false_eq_true])

/-! ### States -/

/-- `f` keeps the order of the numbers in `P`. -/
structure Ordered (f : Nat → Nat) (P : Nat → Prop) : Prop where
  zero : f 0 = 0
  zero_in : P 0
  lt : ∀ {a b}, P a → P b → a < b → f a < f b

theorem Ordered.eq {f : Nat → Nat} {P : Nat → Prop} (h : Ordered f P) {a b : Nat} (ha : P a) (hb : P b) : f a = f b ↔ a = b := by
  refine ⟨fun e => ?_, fun e => by rw [e]⟩
  rcases Nat.lt_trichotomy a b with hl | hl | hl
  · have := h.lt ha hb hl; omega
  · exact hl
  · have := h.lt hb ha hl; omega

theorem Ordered.iff {f : Nat → Nat} {P : Nat → Prop} (h : Ordered f P) {a b : Nat} (ha : P a) (hb : P b) : f a < f b ↔ a < b := by
  refine ⟨fun e => ?_, h.lt ha hb⟩
  rcases Nat.lt_trichotomy a b with hl | hl | hl
  · exact hl
  · rw [hl] at e; omega
  · have := h.lt hb ha hl; omega

/-- A line that can be indented otherwise. -/
structure Movable (f : Nat → Nat) (P : Nat → Prop) (a : Nat × Str) : Prop where
  known : P a.1
  zero : f a.1 = 0 ↔ a.1 = 0
  begins : a.2 ∉ [['\t'], ['\r'], ['\\']]
  width : a.1 ≤ u16Max
  width' : f a.1 ≤ u16Max

/-- The states in the middle of a line, apart from the text that follows. -/
structure ReIn (f : Nat → Nat) (P : Nat → Prop) (v v' : V) : Prop where
  tokens : SameTokens v.tokens v'.tokens
  errors : SameErrors v.errors v'.errors
  stack : v'.stack = v.stack.map f
  levels : ∀ l ∈ v.stack, P l
  isBol : v.isBol = false
  isBol' : v'.isBol = false
  onlyComment : v'.onlyComment = v.onlyComment

/-- The states before a lexeme that is not a space at the beginning of a line. -/
structure Mid (f : Nat → Nat) (P : Nat → Prop) (v v' : V) : Prop where
  rest : v'.rest = reindent f .code v.rest
  lines : ∀ a ∈ margins .code v.rest, Movable f P a
  tokens : SameTokens v.tokens v'.tokens
  errors : SameErrors v.errors v'.errors
  stack : v'.stack = v.stack.map f
  levels : ∀ l ∈ v.stack, P l
  isBol : v'.isBol = v.isBol
  margin : v.isBol = true → v.rest.head? ≠ some ['\n'] → v.rest ≠ [] → P v.bolSpaces ∧ v'.bolSpaces = f v.bolSpaces
  begins : v.isBol = true → ∀ g, v.rest.head? = some g → g ∉ [[' '], ['\t'], ['\r'], ['\\']]
  isCont : v.isBol = true → v'.isCont = v.isCont
  onlyComment : v'.onlyComment = v.onlyComment
  followCont : v.isBol = false → v'.followCont = v.followCont
  abut : v.rest.head? = some ['('] → v'.abut = v.abut

/-- The states at the beginning of a line. -/
structure Start (f : Nat → Nat) (P : Nat → Prop) (v v' : V) : Prop where
  rest : v'.rest = reindent f (.margin 0) v.rest
  lines : ∀ a ∈ margins (.margin 0) v.rest, Movable f P a
  tokens : SameTokens v.tokens v'.tokens
  errors : SameErrors v.errors v'.errors
  stack : v'.stack = v.stack.map f
  levels : ∀ l ∈ v.stack, P l
  isBol : v.isBol = true
  isBol' : v'.isBol = true
  bolSpaces : v.bolSpaces = 0
  bolSpaces' : v'.bolSpaces = 0
  isCont : v'.isCont = v.isCont
  onlyComment : v'.onlyComment = v.onlyComment
  abut : v'.abut = v.abut

inductive OReIn (f : Nat → Nat) (P : Nat → Prop) : Outcome V → Outcome V → Prop
  | done {v v' : V} : ReIn f P v v' → OReIn f P (.done v) (.done v')
  | panic (m : String) : OReIn f P (.panic m) (.panic m)
  | diverge : OReIn f P .diverge .diverge

inductive ONext (f : Nat → Nat) (P : Nat → Prop) : Outcome V → Outcome V → Prop
  | mid {v v' : V} : Mid f P v v' → ONext f P (.done v) (.done v')
  | start {v v' : V} : Start f P v v' → ONext f P (.done v) (.done v')
  | panic (m : String) : ONext f P (.panic m) (.panic m)
  | diverge : ONext f P .diverge .diverge

theorem outdents_map {f : Nat → Nat} {P : Nat → Prop} (h : Ordered f P) {k : Nat} (hk : P k) {st : List Nat} (hs : ∀ l ∈ st, P l) :
    match outdents k st with
    | .done (n, found, r) => outdents (f k) (st.map f) = .done (n, found, r.map f) ∧ ∀ l ∈ r, P l
    | .panic m => outdents (f k) (st.map f) = .panic m
    | .diverge => outdents (f k) (st.map f) = .diverge := by
  induction st with
  | nil => exact ⟨rfl, nofun⟩
  | cons a st ih =>
    have ha := hs a (by simp)
    have ih := ih (fun l hl => hs l (by simp [hl]))
    simp only [outdents, List.map_cons, h.eq ha hk, gt_iff_lt, h.iff hk ha]
    by_cases h1 : a = k
    · simp only [h1, if_true]
      exact ⟨by rw [List.map_cons], by rw [← h1]; exact hs⟩
    · simp only [h1, if_false]
      by_cases h2 : k < a
      · simp only [h2, if_true]
        generalize outdents k st = o at ih
        cases o with
        | done x => obtain ⟨n, fd, r⟩ := x; simp only at ih ⊢; rw [ih.1]; exact ⟨rfl, ih.2⟩
        | panic m => simp only at ih ⊢; rw [ih]
        | diverge => simp only at ih ⊢; rw [ih]
      · simp only [h2, if_false]

theorem Mid.bol {f : Nat → Nat} {P : Nat → Prop} (ho : Ordered f P) {v v' : V} (h : Mid f P v v') {g : Str} {cs : List Str}
    (hr : v.rest = g :: cs) (hg : g ≠ ['\n']) : OReIn f P (v.bol g) (v'.bol g) := by
  simp only [V.bol, h.isBol]
  cases hb : v.isBol with
  | false =>
    simp only [Bool.not_false, if_true]
    exact .done ⟨h.tokens, h.errors, h.stack, h.levels, hb, h.isBol.trans hb, h.onlyComment⟩
  | true =>
    obtain ⟨hk, hk'⟩ := h.margin hb (by rw [hr]; exact fun e => hg (Option.some.inj e)) (by rw [hr]; simp)
    have htop : P (v.stack.head?.getD 0) ∧ v'.stack.head?.getD 0 = f (v.stack.head?.getD 0) := by
      rw [h.stack]
      cases hst : v.stack with
      | nil => exact ⟨ho.zero_in, ho.zero.symm⟩
      | cons a st => exact ⟨h.levels a (by simp [hst]), rfl⟩
    simp only [Bool.not_true, Bool.false_eq_true, if_false, hk', h.isCont hb, htop.2, ho.eq hk htop.1, gt_iff_lt, ho.iff htop.1 hk]
    split
    · exact .done ⟨h.tokens, h.errors, h.stack, h.levels, rfl, rfl, h.onlyComment⟩
    split
    · split
      · refine .done ⟨h.tokens.append (by exact rfl), h.errors, ?_, ?_, rfl, rfl, h.onlyComment⟩
        · simp only [List.map_cons, h.stack]
        · intro l hl
          rcases List.mem_cons.mp hl with rfl | hl
          · exact hk
          · exact h.levels l hl
      · exact .done ⟨h.tokens, h.errors, h.stack, h.levels, rfl, rfl, h.onlyComment⟩
    · have hm := outdents_map ho hk h.levels
      rw [h.stack]
      cases hout : outdents v.bolSpaces v.stack with
      | done x =>
        obtain ⟨n, fd, r⟩ := x
        rw [hout] at hm
        simp only at hm ⊢
        rw [hm.1]
        refine .done ⟨h.tokens.append ?_, h.errors.append ?_, rfl, hm.2, rfl, rfl, h.onlyComment⟩
        · simp [SameTokens, moveToken, V.layoutTok, nowhere]
        · have hz : (0 < f v.bolSpaces) = (0 < v.bolSpaces) := by
            have := ho.iff ho.zero_in hk
            rw [ho.zero] at this
            exact propext this
          simp only [hz]
          split
          · rfl
          · rfl
      | panic m => rw [hout] at hm; simp only at hm ⊢; rw [hm]; exact .panic m
      | diverge => rw [hout] at hm; simp only at hm ⊢; rw [hm]; exact .diverge

theorem OReIn.bind {f : Nat → Nat} {P : Nat → Prop} {v v' : V} {g : Str} {k k' : V → Outcome V} (h : OReIn f P (v.bol g) (v'.bol g))
    (hk : ∀ w w', w.rest = v.rest → w'.rest = v'.rest → ReIn f P w w' → ONext f P (k w) (k' w')) :
    ONext f P (v.bol g >>= k) (v'.bol g >>= k') := by
  cases h1 : v.bol g with
  | done w =>
    rw [h1] at h
    cases h2 : v'.bol g with
    | done w' =>
      rw [h2] at h
      cases h with
      | done h => exact hk _ _ (bol_fields h1).2.1 (bol_fields h2).2.1 h
    | panic m => rw [h2] at h; cases h
    | diverge => rw [h2] at h; cases h
  | panic m =>
    rw [h1] at h
    generalize v'.bol g = o at h
    cases h
    exact .panic m
  | diverge =>
    rw [h1] at h
    generalize v'.bol g = o at h
    cases h
    exact .diverge

/-- In the middle of a line, before the next lexeme. -/
theorem ReIn.mid {f : Nat → Nat} {P : Nat → Prop} {w w' u u' : V} (h : ReIn f P w w') {ts ts' : List Token} {es es' : List Cause}
    (hr : u'.rest = reindent f .code u.rest) (hl : ∀ a ∈ margins .code u.rest, Movable f P a)
    (ht : u.tokens = w.tokens ++ ts) (ht' : u'.tokens = w'.tokens ++ ts') (hts : SameTokens ts ts')
    (he : u.errors = w.errors ++ es) (he' : u'.errors = w'.errors ++ es') (hes : SameErrors es es')
    (hs : u.stack = w.stack) (hs' : u'.stack = w'.stack) (hb : u.isBol = w.isBol) (hb' : u'.isBol = w'.isBol)
    (ho : u'.onlyComment = u.onlyComment) (hf : u'.followCont = u.followCont) (ha : u'.abut = u.abut) : Mid f P u u' := by
  have hb0 := hb.trans h.isBol
  refine ⟨hr, hl, ?_, ?_, ?_, ?_, ?_, fun e => ?_, fun e => ?_, fun e => ?_, ho, fun _ => hf, fun _ => ha⟩
  · rw [ht, ht']; exact h.tokens.append hts
  · rw [he, he']; exact h.errors.append hes
  · rw [hs, hs', h.stack]
  · rw [hs]; exact h.levels
  · rw [hb0, hb', h.isBol']
  all_goals (rw [hb0] at e; cases e)

theorem same_nil_tokens : SameTokens [] [] := rfl
theorem same_nil_errors : SameErrors [] [] := rfl

theorem Mid.step {env : Env} (hA : AsciiLaws env) {f : Nat → Nat} {P : Nat → Prop} (ho : Ordered f P) {v v' : V} (h : Mid f P v v')
    {g : Str} {cs : List Str} (hr : v.rest = g :: cs) : ONext f P (vstep env v) (vstep env v') := by
  obtain ⟨l1, l2, l3, l4⟩ := lexed_again hA f v.abut g cs
  have hr' : v'.rest = g :: reindent f (Where.code.after g) cs := by rw [h.rest, hr]; rfl
  have hlines : margins .code v.rest = margins (Where.code.after g) cs := by rw [hr]; rfl
  have hl : lexeme env v'.abut g (reindent f (Where.code.after g) cs) = lexeme env v.abut g cs := by
    rw [← l1]
    by_cases hg : g = ['(']
    · rw [h.abut (by rw [hr, hg]; rfl)]
    · exact lexeme_abut hg _ _ _
  have hnl : lexeme env v.abut g cs = .newline ↔ g = ['\n'] :=
    ⟨lexeme_newline_inv, fun e => by rw [e]; exact lexeme_newline _ _ _⟩
  have hbs := lexeme_tail (env := env) (abut := v.abut) (g := g) (cs := cs)
  have hbol : ∀ x, g = x → x ∈ [[' '], ['\t'], ['\r'], ['\\']] → v.isBol = false := by
    intro x e hx
    cases hb : v.isBol with
    | false => rfl
    | true => exact absurd (e ▸ hx) (h.begins hb g (by rw [hr]; rfl))
  have hL := h.lines
  rw [hlines, l3] at hL
  simp only [vstep, hr, hr', hl]
  generalize lexeme env v.abut g cs = k at *
  have hmid : k.ends = false → ∀ u u' : V, u.rest = (g :: cs).drop (k.width cs) →
      u'.rest = (g :: reindent f (Where.code.after g) cs).drop (k.width cs) →
      u'.rest = reindent f .code u.rest ∧ ∀ a ∈ margins .code u.rest, Movable f P a := by
    intro he u u' hu hu'
    have ht : Kind.then k = .code := by simp only [Kind.then, he]; rfl
    rw [ht] at l2 hL
    rw [hu, hu', l2]
    exact ⟨rfl, hL⟩
  have hb : k ≠ .newline → OReIn f P (v.bol g) (v'.bol g) := fun e => h.bol ho hr (fun e' => e (hnl.mpr e'))
  cases k with
  | tok t c =>
    refine (hb nofun).bind fun w w' e e' hw => ?_
    obtain ⟨m1, m2⟩ := hmid rfl (w.skip [g]) (w'.skip [g]) (by simp only [V.skip, e, hr]; rfl) (by simp only [V.skip, e', hr']; rfl)
    exact .mid (hw.mid m1 m2 rfl rfl (by exact rfl) (List.append_nil _).symm (List.append_nil _).symm same_nil_errors rfl rfl rfl rfl hw.onlyComment rfl rfl)
  | two t second c =>
    refine (hb nofun).bind fun w w' e e' hw => ?_
    obtain ⟨m1, m2⟩ := hmid rfl (w.skip [g, second]) (w'.skip [g, second]) (by simp only [V.skip, e, hr]; rfl) (by simp only [V.skip, e', hr']; rfl)
    exact .mid (hw.mid m1 m2 rfl rfl (by exact rfl) (List.append_nil _).symm (List.append_nil _).symm same_nil_errors rfl rfl rfl rfl hw.onlyComment rfl rfl)
  | num taken =>
    refine (hb nofun).bind fun w w' e e' hw => ?_
    obtain ⟨m1, m2⟩ := hmid rfl (w.skip (g :: taken)) (w'.skip (g :: taken)) (by simp only [V.skip, e, hr]; rfl) (by simp only [V.skip, e', hr']; rfl)
    split
    · exact .mid (hw.mid m1 m2 rfl rfl (by exact rfl) (List.append_nil _).symm (List.append_nil _).symm same_nil_errors rfl rfl rfl rfl hw.onlyComment rfl rfl)
    · exact .panic _
  | ident taken =>
    refine (hb nofun).bind fun w w' e e' hw => ?_
    obtain ⟨m1, m2⟩ := hmid rfl (w.skip (g :: taken)) (w'.skip (g :: taken)) (by simp only [V.skip, e, hr]; rfl) (by simp only [V.skip, e', hr']; rfl)
    exact .mid (hw.mid m1 m2 rfl rfl (by exact rfl) (List.append_nil _).symm (List.append_nil _).symm same_nil_errors rfl rfl rfl rfl hw.onlyComment rfl rfl)
  | str taken =>
    refine (hb nofun).bind fun w w' e e' hw => ?_
    obtain ⟨m1, m2⟩ := hmid rfl (((w.skip [g]).skipLines taken).skip [['"']]) (((w'.skip [g]).skipLines taken).skip [['"']])
      (by simp only [V.skip, V.skipLines, e, hr, Kind.width, List.drop_drop, List.length_cons, List.length_nil]; congr 1; omega)
      (by simp only [V.skip, V.skipLines, e', hr', Kind.width, List.drop_drop, List.length_cons, List.length_nil]; congr 1; omega)
    exact .mid (hw.mid m1 m2 rfl rfl (by exact rfl) (List.append_nil _).symm (List.append_nil _).symm same_nil_errors rfl rfl rfl rfl hw.onlyComment rfl rfl)
  | unterminated =>
    have hcs := l4 rfl
    rw [hcs] at hr' hmid ⊢
    refine (hb nofun).bind fun w w' e e' hw => ?_
    obtain ⟨m1, m2⟩ := hmid rfl ((w.skip [g]).skipLines cs) ((w'.skip [g]).skipLines cs)
      (by simp only [V.skip, V.skipLines, e, hr, Kind.width, List.drop_drop, List.length_cons, List.length_nil]; congr 1; omega)
      (by simp only [V.skip, V.skipLines, e', hr', Kind.width, List.drop_drop, List.length_cons, List.length_nil]; congr 1; omega)
    exact .mid (hw.mid m1 m2 (List.append_nil _).symm (List.append_nil _).symm same_nil_tokens rfl rfl (by exact rfl) rfl rfl rfl rfl hw.onlyComment rfl rfl)
  | unexpected =>
    refine (hb nofun).bind fun w w' e e' hw => ?_
    obtain ⟨m1, m2⟩ := hmid rfl (w.skip [g]) (w'.skip [g]) (by simp only [V.skip, e, hr]; rfl) (by simp only [V.skip, e', hr']; rfl)
    exact .mid (hw.mid m1 m2 (List.append_nil _).symm (List.append_nil _).symm same_nil_tokens rfl rfl (by exact rfl) rfl rfl rfl rfl hw.onlyComment rfl rfl)
  | comment taken =>
    refine (hb nofun).bind fun w w' e e' hw => ?_
    obtain ⟨m1, m2⟩ := hmid rfl (w.skip (g :: taken)) (w'.skip (g :: taken)) (by simp only [V.skip, e, hr]; rfl) (by simp only [V.skip, e', hr']; rfl)
    exact .mid (hw.mid m1 m2 (List.append_nil _).symm (List.append_nil _).symm same_nil_tokens (List.append_nil _).symm (List.append_nil _).symm same_nil_errors rfl rfl rfl rfl h.isBol rfl rfl)
  | backslash taken nl =>
    have hv := hbol _ hbs.1 (by simp)
    have hv' := h.isBol.trans hv
    have hin : ReIn f P v v' := ⟨h.tokens, h.errors, h.stack, h.levels, hv, hv', h.onlyComment⟩
    cases nl with
    | false =>
      obtain ⟨m1, m2⟩ := hmid rfl (v.skip (g :: taken)) (v'.skip (g :: taken)) (by simp only [V.skip, hr]; rfl) (by simp only [V.skip, hr']; rfl)
      exact .mid (hin.mid m1 m2 (List.append_nil _).symm (List.append_nil _).symm same_nil_tokens rfl rfl (by exact rfl) rfl rfl rfl rfl h.onlyComment rfl rfl)
    | true =>
      refine .start ⟨?_, ?_, h.tokens, h.errors, h.stack, h.levels, rfl, rfl, rfl, rfl, rfl, rfl, rfl⟩
      · simp only [V.flags, V.resetLine, V.skip, hr, hr']
        exact l2
      · simp only [V.flags, V.resetLine, V.skip, hr]
        exact hL
  | tab =>
    have hv := hbol _ hbs (by simp)
    have hv' := h.isBol.trans hv
    have hin : ReIn f P v v' := ⟨h.tokens, h.errors, h.stack, h.levels, hv, hv', h.onlyComment⟩
    obtain ⟨m1, m2⟩ := hmid rfl (v.skip [g]) (v'.skip [g]) (by simp only [V.skip, hr]; rfl) (by simp only [V.skip, hr']; rfl)
    exact .mid (hin.mid m1 m2 (List.append_nil _).symm (List.append_nil _).symm same_nil_tokens rfl rfl (by exact rfl) rfl rfl rfl rfl h.onlyComment rfl rfl)
  | space =>
    have hv := hbol _ hbs (by simp)
    have hv' := h.isBol.trans hv
    have hin : ReIn f P v v' := ⟨h.tokens, h.errors, h.stack, h.levels, hv, hv', h.onlyComment⟩
    obtain ⟨m1, m2⟩ := hmid rfl (v.skip [g]) (v'.skip [g]) (by simp only [V.skip, hr]; rfl) (by simp only [V.skip, hr']; rfl)
    exact .mid (hin.mid m1 m2 (List.append_nil _).symm (List.append_nil _).symm same_nil_tokens (List.append_nil _).symm (List.append_nil _).symm same_nil_errors rfl rfl rfl rfl h.onlyComment rfl rfl)
  | cr =>
    have hv := hbol _ hbs (by simp)
    have hv' := h.isBol.trans hv
    have hin : ReIn f P v v' := ⟨h.tokens, h.errors, h.stack, h.levels, hv, hv', h.onlyComment⟩
    obtain ⟨m1, m2⟩ := hmid rfl (v.skip [g]) (v'.skip [g]) (by simp only [V.skip, hr]; rfl) (by simp only [V.skip, hr']; rfl)
    exact .mid (hin.mid m1 m2 (List.append_nil _).symm (List.append_nil _).symm same_nil_tokens (List.append_nil _).symm (List.append_nil _).symm same_nil_errors rfl rfl rfl rfl h.onlyComment rfl rfl)
  | newline =>
    obtain rfl := hnl.mp rfl
    have e1 := vstep_nl (env := env) hr
    have e2 := vstep_nl (env := env) hr'
    simp only [vstep, hr, lexeme_newline] at e1
    simp only [vstep, hr', lexeme_newline] at e2
    rw [e1, e2]
    refine .start ⟨?_, hL, ?_, h.errors, h.stack, h.levels, rfl, rfl, rfl, rfl, ?_, rfl, rfl⟩
    · exact l2
    · simp only [V.afterNl, h.isBol, h.onlyComment]
      cases hb : v.isBol with
      | true => exact h.tokens
      | false =>
        rw [h.followCont hb]
        split
        · exact h.tokens.append (by exact rfl)
        · exact h.tokens
    · simp only [V.afterNl, h.isBol]
      cases hb : v.isBol with
      | true => simp only [if_true, h.isCont hb]
      | false => simp only [h.followCont hb, Bool.false_eq_true, if_false]

/-- The spaces at the beginning of a line. -/
theorem outcome_margin {env : Env} {v : V} (n : Nat) (r : List Str) (hr : v.rest = spaces n ++ r) (hb : v.isBol = true) :
    ∃ w, outcome env v = outcome env w ∧ w.rest = r ∧ w.tokens = v.tokens ∧ w.errors = v.errors ∧ w.stack = v.stack ∧
      w.isBol = true ∧ w.bolSpaces = addCol v.bolSpaces n ∧ w.isCont = v.isCont ∧ w.onlyComment = v.onlyComment ∧
      w.abut = if n = 0 then v.abut else false := by
  induction n generalizing v with
  | zero => exact ⟨v, rfl, hr, rfl, rfl, rfl, hb, rfl, rfl, rfl, rfl⟩
  | succ n ih =>
    have hr' : v.rest = [' '] :: (spaces n ++ r) := hr
    have hs : vstep env v = .done ({ v.skip [[' ']] with bolSpaces := satInc16 v.bolSpaces }.flags true false) := by
      simp only [vstep, hr', lexeme_sp, hb, if_true]
    obtain ⟨w, h1, h2, h3, h4, h5, h6, h7, h8, h9, h10⟩ := ih (v := { v.skip [[' ']] with bolSpaces := satInc16 v.bolSpaces }.flags true false)
      (by simp only [V.flags, V.skip, hr']; rfl) hb
    refine ⟨w, (outcome_next (by simp [hr']) hs).trans h1, h2, h3, h4, h5, h6, h7, h8, h9, ?_⟩
    rw [h10, if_neg (show ¬ n + 1 = 0 by omega)]
    simp [V.flags]

/-- The text after the spaces at the beginning of a line. -/
theorem split_spaces (cs : List Str) : ∃ n r, cs = spaces n ++ r ∧ r.head? ≠ some [' '] := by
  induction cs with
  | nil => exact ⟨0, [], rfl, nofun⟩
  | cons g cs ih =>
    by_cases hg : g = [' ']
    · obtain ⟨n, r, e, h⟩ := ih
      exact ⟨n + 1, r, by rw [hg, e]; rfl, h⟩
    · exact ⟨0, g :: cs, rfl, fun e => hg (Option.some.inj e)⟩

/-- The lines of a text after `n` spaces at the beginning of a line. -/
def marginsAfter (n : Nat) : List Str → List (Nat × Str)
  | [] => []
  | g :: cs => if g = ['\n'] then margins (.margin 0) cs else (n, g) :: margins (Where.code.after g) cs

theorem reindent_spaces {f : Nat → Nat} (m n : Nat) {r : List Str} (hr : r.head? ≠ some [' ']) :
    reindent f (.margin m) (spaces n ++ r) = spaces (f (m + n)) ++ reindent f .code r ∧
      margins (.margin m) (spaces n ++ r) = marginsAfter (m + n) r := by
  induction n generalizing m with
  | zero =>
    cases r with
    | nil => exact ⟨(List.append_nil _).symm, rfl⟩
    | cons g cs =>
      have hg : g ≠ [' '] := fun e => hr (by rw [e]; rfl)
      refine ⟨?_, ?_⟩
      · show (if g = [' '] then _ else _) = _
        rw [if_neg hg]
        rfl
      · show (if g = [' '] then _ else _) = _
        rw [if_neg hg]
        rfl
  | succ n ih =>
    have := ih (m + 1)
    rw [show m + 1 + n = m + (n + 1) by omega] at this
    exact this

theorem Start.enter {env : Env} {f : Nat → Nat} {P : Nat → Prop} {v v' : V} (h : Start f P v v') :
    ∃ w w', outcome env v = outcome env w ∧ outcome env v' = outcome env w' ∧ Mid f P w w' ∧ w.rest.length ≤ v.rest.length := by
  obtain ⟨n, r, e, hr⟩ := split_spaces v.rest
  obtain ⟨e1, e2⟩ := reindent_spaces (f := f) 0 n hr
  rw [Nat.zero_add] at e1 e2
  have e' : v'.rest = spaces (f n) ++ reindent f .code r := by rw [h.rest, e, e1]
  have hL := h.lines
  rw [e, e2] at hL
  obtain ⟨w, a1, a2, a3, a4, a5, a6, a7, a8, a9, a10⟩ := outcome_margin (env := env) n r e h.isBol
  obtain ⟨w', b1, b2, b3, b4, b5, b6, b7, b8, b9, b10⟩ := outcome_margin (env := env) (f n) _ e' h.isBol'
  rw [h.bolSpaces, addCol_zero] at a7
  rw [h.bolSpaces', addCol_zero] at b7
  have hmov : ∀ g cs, r = g :: cs → g ≠ ['\n'] → Movable f P (n, g) := by
    intro g cs er hg
    rw [er] at hL
    simp only [marginsAfter, hg, if_false] at hL
    exact hL _ (by simp)
  refine ⟨w, w', a1, b1, ⟨by rw [a2, b2], ?_, by rw [a3, b3]; exact h.tokens, by rw [a4, b4]; exact h.errors, by rw [a5, b5]; exact h.stack,
    by rw [a5]; exact h.levels, by rw [a6, b6], fun _ hn h0 => ?_, fun _ g hg => ?_, fun _ => by rw [a8, b8, h.isCont],
    by rw [a9, b9, h.onlyComment], fun hb => ?_, fun hg => ?_⟩, by rw [a2, e]; simp⟩
  · rw [a2]
    cases r with
    | nil => nofun
    | cons g cs =>
      show ∀ a ∈ margins (Where.code.after g) cs, _
      by_cases hg : g = ['\n']
      · subst hg; exact hL
      · simp only [marginsAfter, hg, if_false] at hL
        exact fun a ha => hL a (by simp [ha])
  · rw [a2] at hn h0
    obtain ⟨g, cs, er⟩ := List.exists_cons_of_ne_nil h0
    have hm := hmov g cs er (fun e => hn (by rw [er, e]; rfl))
    rw [a7, b7, Nat.min_eq_left hm.width, Nat.min_eq_left hm.width']
    exact ⟨hm.known, rfl⟩
  · rw [a2] at hg
    intro hmem
    rcases List.mem_cons.mp hmem with rfl | hmem
    · exact hr hg
    cases hrr : r with
    | nil => rw [hrr] at hg; cases hg
    | cons g' cs =>
      rw [hrr] at hg
      cases hg
      exact (hmov g cs hrr (by rintro rfl; revert hmem; decide)).begins hmem
  · rw [a6] at hb; cases hb
  · rw [a2] at hg
    cases hrr : r with
    | nil => rw [hrr] at hg; cases hg
    | cons g' cs =>
      rw [hrr] at hg
      cases hg
      have hm := hmov ['('] cs hrr (by decide)
      rw [a10, b10, h.abut]
      by_cases hz : n = 0
      · rw [if_pos hz, if_pos (hm.zero.mpr hz)]
      · rw [if_neg hz, if_neg (fun e => hz (hm.zero.mp e))]

/-- The results of both scans, before the end. -/
inductive OEnd (f : Nat → Nat) (P : Nat → Prop) : Outcome V → Outcome V → Prop
  | done {v v' : V} : SameTokens v.tokens v'.tokens → SameErrors v.errors v'.errors → v'.stack.length = v.stack.length →
    OEnd f P (.done v) (.done v')
  | panic (m : String) : OEnd f P (.panic m) (.panic m)
  | diverge : OEnd f P .diverge .diverge

theorem Mid.outcome {env : Env} (hA : AsciiLaws env) {f : Nat → Nat} {P : Nat → Prop} (ho : Ordered f P) {v v' : V} (h : Mid f P v v') :
    OEnd f P (Ws.outcome env v) (Ws.outcome env v') := by
  generalize hn : v.rest.length = n
  induction n using Nat.strongRecOn generalizing v v' with
  | ind n ih =>
    cases hr : v.rest with
    | nil =>
      rw [outcome_nil hr, outcome_nil (by rw [h.rest, hr]; rfl)]
      exact .done h.tokens h.errors (by rw [h.stack, List.length_map])
    | cons g cs =>
      have hne : v.rest ≠ [] := by rw [hr]; simp
      have hne' : v'.rest ≠ [] := by rw [h.rest, hr]; exact List.cons_ne_nil _ _
      rw [outcome_step hne, outcome_step hne']
      have hs := h.step (env := env) hA ho hr
      cases hv : vstep env v with
      | done w =>
        have hlt : w.rest.length < n := by rw [← hn]; exact vstep_length hne hv
        rw [hv] at hs
        generalize vstep env v' = o' at hs
        cases hs with
        | mid hw => exact ih _ hlt hw rfl
        | start hw =>
          obtain ⟨x, x', e1, e2, hx, hl⟩ := hw.enter (env := env)
          show OEnd f P (Ws.outcome env _) (Ws.outcome env _)
          rw [e1, e2]
          exact ih _ (by omega) hx rfl
      | panic m =>
        rw [hv] at hs
        generalize vstep env v' = o' at hs
        cases hs
        exact .panic m
      | diverge =>
        rw [hv] at hs
        generalize vstep env v' = o' at hs
        cases hs
        exact .diverge

/-- Both scans. -/
theorem reindent_scan {env : Env} (hA : AsciiLaws env) {f : Nat → Nat} {cs : List Str} (h : KeepsOrder f (margins (.margin 0) cs)) :
    SameScan (scanClusters env (reindent f (.margin 0) cs)) (scanClusters env cs) := by
  let P : Nat → Prop := fun n => n = 0 ∨ ∃ a ∈ margins (.margin 0) cs, a.1 = n
  have ho : Ordered f P := by
    refine ⟨h.zero, .inl rfl, ?_⟩
    rintro a b (rfl | ⟨x, hx, rfl⟩) (rfl | ⟨y, hy, rfl⟩) hl
    · omega
    · rw [h.zero]; exact h.indented y hy hl
    · omega
    · exact h.order x hx y hy hl
  have hs : Start f P (V.init cs) (V.init (reindent f (.margin 0) cs)) := by
    refine ⟨rfl, fun a ha => ⟨.inr ⟨a, ha, rfl⟩, ?_, h.begins a ha, (h.width a ha).1, (h.width a ha).2⟩, rfl, rfl, rfl, nofun,
      rfl, rfl, rfl, rfl, rfl, rfl, rfl⟩
    have := h.indented a ha
    have := h.zero
    constructor
    · intro e; omega
    · intro e; rw [e]; exact h.zero
  obtain ⟨w, w', e1, e2, hm, -⟩ := hs.enter (env := env)
  rw [scan_finish, scan_finish, e1, e2]
  have hE := hm.outcome (env := env) hA ho
  generalize Ws.outcome env w = o at hE
  generalize Ws.outcome env w' = o' at hE
  cases hE with
  | panic m => rfl
  | diverge => rfl
  | @done u u' ht he hl =>
    have hem : u'.errors.isEmpty = u.errors.isEmpty := by
      have := congrArg List.isEmpty he
      simpa using this.symm
    show SameScan (if _ then _ else _) (if _ then _ else _)
    rw [hem]
    split
    · simp only [SameScan, movedScan, mapOutcome, moveResult]
      congr 2
      refine Eq.symm (SameTokens.append ht ?_)
      simp [SameTokens, V.closing, moveToken, nowhere, hl]
    · simp only [SameScan, movedScan, mapOutcome, moveResult]
      congr 2
      exact he.symm

end Ws
