import Verif.Proofs.AsciiLaws
import Verif.Proofs.Scan.Errors
import Verif.Proofs.Scan.Where
import Verif.Tests.RepoTests
/-! Properties C01, C03–C13, C16 and C17 of the scanner. Every theorem is about
`Scanner::new(source).scan_tokens()` (`scanTokens`) for an arbitrary source. -/
namespace Ws.Properties
open Ws Spec

variable {env : Env} {source : Str} {ts : List Token}

/-- A source for the examples: two levels of blocks, a string over two lines, a number, comments, a
line continued by an operator, and one continued by a backslash. -/
def sample : Str :=
  c!"class A // c\n  init(x)\n    this.x = \"a\n b\" +\n      12.5\n\n  // d\nvar y = A \\\n  (3)\n"

/-- The tokens of the sample. -/
def sampleTokens : List Token :=
  match scanTokens asciiEnv sample with
  | .done (.ok ts) => ts
  | _ => []

/-- The sample is accepted: it meets the hypotheses of the theorems below. -/
theorem sample_ok : EnvLaws asciiEnv ∧ scanTokens asciiEnv sample = .done (.ok sampleTokens) :=
  ⟨asciiEnv_laws, by by_kernel⟩
example : sampleTokens.map (·.tokenType) =
    [.class, .identifier, .terminator, .indent, .identifier, .leftParenAbutting, .identifier,
      .rightParen, .terminator, .indent, .this, .dot, .identifier, .equal, .string, .plus, .number,
      .terminator, .outdent, .outdent, .var, .identifier, .equal, .identifier, .leftParen, .number,
      .rightParen, .terminator, .eof] := by by_kernel

/-! ### C01 -/

/-- C01: scanning never panics, whatever the clusters of the source are. -/
theorem scan_never_panics (hE : NumberLaw env) (clusters : List Str) (msg : String) :
    scanClusters env clusters ≠ .panic msg :=
  scan_panic_free hE clusters msg

example : NumberLaw asciiEnv := asciiEnv_laws.number

/-! ### C03 -/

/-- C03: the tokens of an accepted source end in Eof, and no other token is Eof. -/
theorem one_eof (hE : EnvLaws env) (h : scanTokens env source = .done (.ok ts)) :
    ∃ front eof, ts = front ++ [eof] ∧ eof.tokenType = .eof ∧ ∀ t ∈ front, t.tokenType ≠ .eof := by
  obtain ⟨w, hw, hr, he, ht⟩ := scan_ok h
  have hi := hw.sinv hE.toAsciiLaws (hE.nonempty source) he
  refine ⟨w.tokens ++ List.replicate w.stack.length _, _, by rw [ht, V.closing, ← List.append_assoc], rfl, ?_⟩
  intro t ht
  rcases List.mem_append.mp ht with ht | ht
  · exact hi.noEof t ht
  · rw [List.eq_of_mem_replicate ht]; simp

/-! ### C04 -/

/-- C04: Indents and Outdents are balanced. -/
theorem blocks_balanced (hE : EnvLaws env) (h : scanTokens env source = .done (.ok ts)) :
    (∀ a b, ts = a ++ b →
      (a.map Token.tokenType).count .outdent ≤ (a.map Token.tokenType).count .indent) ∧
    (ts.map Token.tokenType).count .outdent = (ts.map Token.tokenType).count .indent := by
  obtain ⟨w, hw, hr, he, ht⟩ := scan_ok h
  have hi := hw.sinv hE.toAsciiLaws (hE.nonempty source) he
  have hb := (Balance.outdents (n := 0) (m := w.stack.length) (by rw [Nat.zero_add]; exact hi.balance)
    (t := ⟨.outdent, [], none, none, w.line, satInc16 w.column - 1⟩) rfl).other
      (t := ⟨.eof, [], none, none, w.line, satInc16 w.column - 1⟩) (by simp) (by simp)
  rw [List.append_assoc] at hb
  rw [ht]
  exact ⟨hb.pre, hb.total.symm⟩

/-! ### C05 -/

/-- C05: the source of an accepted scan is the concatenation, in order, of pieces, each of which is
the text of one token or is blank space, a comment, or a line continuation (`Reads`, `PieceOK`). The
tokens are those of the pieces, followed by Outdents and Eof. -/
theorem lossless (hE : EnvLaws env) (h : scanTokens env source = .done (.ok ts)) :
    ∃ ps, Reads env (env.segment source) ps ts ∧ (text ps).flatten = source := by
  obtain ⟨ps, hp, -⟩ := scan_reading hE.toAsciiLaws (hE.nonempty source) h
  exact ⟨ps, hp, by rw [hp.text]; exact hE.joined source⟩

/-! ### C06 -/

/-- A token of an accepted source, other than those of the layout and the end, has a piece. -/
theorem token_piece {cs : List Str} {ps : List Piece} (hp : Reads env cs ps ts) {t : Token}
    (ht : t ∈ ts) (hk : t.tokenType ∉ [.indent, .outdent, .eof]) :
    ∃ a l b, ps = a ++ .token t l :: b ∧ PieceOK env (text a) (.token t l) (text b) := by
  obtain ⟨c, e, n, o, eof, ec, ho, he⟩ := hp.tokens
  simp only [List.mem_cons, List.not_mem_nil, or_false, not_or] at hk
  rw [e] at ht
  rcases List.mem_append.mp ht with ht | ht
  · obtain ⟨p, hpm, hpt⟩ := List.mem_flatMap.mp ht
    obtain ⟨a, b, rfl⟩ := List.append_of_mem hpm
    have hok := hp.pieces a p b rfl
    cases p with
    | layout q =>
      simp only [Piece.tok, List.mem_singleton] at hpt
      subst hpt
      rcases hok.1 with h | h
      · exact absurd h hk.1
      · exact absurd h hk.2.1
    | token q l =>
      simp only [Piece.tok, List.mem_singleton] at hpt
      subst hpt
      exact ⟨a, l, b, rfl, hok⟩
    | _ => simp [Piece.tok] at hpt
  · rw [ec] at ht
    rcases List.mem_append.mp ht with ht | ht
    · rw [List.eq_of_mem_replicate ht] at hk; exact absurd ho hk.2.1
    · rw [List.mem_singleton.mp ht] at hk; exact absurd he hk.2.2

/-- C06: a token, other than Indent, Outdent and Eof, is spelled by consecutive clusters of the
source, and carries the line and column of the first of them. -/
theorem token_location (hE : EnvLaws env) (h : scanTokens env source = .done (.ok ts)) {t : Token}
    (ht : t ∈ ts) (hk : t.tokenType ∉ [.indent, .outdent, .eof]) :
    ∃ before spelling after, env.segment source = before ++ spelling ++ after ∧
      t.lexeme = spelling.flatten ∧ t.lexeme ≠ [] ∧
      t.line = min (1 + before.count ['\n']) 4294967295 ∧
      t.column = min (1 + (before.reverse.takeWhile (· ≠ ['\n'])).length) 65535 := by
  obtain ⟨ps, hp, -⟩ := lossless hE h
  obtain ⟨a, l, b, rfl, hok⟩ := token_piece hp ht hk
  refine ⟨text a, l, text b, ?_, hok.1, ?_, hok.2.1.1, hok.2.1.2⟩
  · rw [← hp.text]; simp [Spec.text, Piece.text]
  · rw [hok.1]
    have hl : l ≠ [] := by
      rcases hok.2.2 with h | h | h | h | h
      · have := h.spelling
        rw [h.chars]
        intro hn
        rw [List.map_eq_nil_iff] at hn
        rw [hn] at this
        have : ∀ k, operator k ≠ some [] := by intro k; cases k <;> simp [operator]
        exact this _ (by assumption)
      · obtain ⟨g, r, rfl, -⟩ := h.start; simp
      · obtain ⟨w, f, hw, -, -, h | h⟩ := h.shape
        · rw [h.1]; exact hw
        · rw [h.1]; simp
      · obtain ⟨body, rfl, -⟩ := h.shape; simp
      · rw [h.shape]; simp
    obtain ⟨g, r, rfl⟩ := List.exists_cons_of_ne_nil hl
    have hg : g ∈ env.segment source := by
      rw [← hp.text]; simp [Spec.text, Piece.text]
    have := hE.nonempty source g hg
    simp [this]

/-- C06, for the whole list: the tokens, other than those of the layout and the end, lie in the source
in the order of the list. -/
theorem tokens_in_order (hE : EnvLaws env) (h : scanTokens env source = .done (.ok ts)) :
    ∃ ps, Reads env (env.segment source) ps ts ∧
      ∀ a t l b, ps = a ++ .token t l :: b →
        t.lexeme = l.flatten ∧ t.line = lineAfter (text a) ∧ t.column = columnAfter (text a) := by
  obtain ⟨ps, hp, -⟩ := lossless hE h
  exact ⟨ps, hp, fun a t l b e => ⟨(hp.pieces a _ b e).1, (hp.pieces a _ b e).2.1⟩⟩

/-- C06, Eof: it has the location just after the source (at a column below 65535). -/
theorem eof_location (hE : EnvLaws env) (h : scanTokens env source = .done (.ok ts)) :
    ∃ front eof, ts = front ++ [eof] ∧ eof.tokenType = .eof ∧ eof.lexeme = [] ∧
      eof.line = lineAfter (env.segment source) ∧
      eof.column = min (columnAfter (env.segment source)) 65534 := by
  obtain ⟨w, hw, hr, he, ht⟩ := scan_ok h
  have hpos := (hw.pos hE.toAsciiLaws).2 (.inl he)
  have := hw.pre_rest
  rw [hr, List.append_nil] at this
  refine ⟨w.tokens ++ List.replicate w.stack.length _, _, by rw [ht, V.closing, ← List.append_assoc], rfl, rfl,
    by rw [← this]; exact hpos.1, ?_⟩
  rw [← this, ← hpos.2]
  have hle : w.column ≤ u16Max := by rw [hpos.2, columnAfter]; omega
  simp only [satInc16, u16Max] at hle ⊢
  split <;> omega

/-! ### C07 -/

/-- C07: a token has the type of a keyword exactly if it is spelled like it. -/
theorem keyword_iff (hE : EnvLaws env) (h : scanTokens env source = .done (.ok ts)) {t : Token}
    (ht : t ∈ ts) (hk : t.tokenType ∉ [.indent, .outdent]) {k : TokenType} {w : Str}
    (hw : keyword k = some w) : t.tokenType = k ↔ t.lexeme = w := by
  obtain ⟨ps, hp, -⟩ := lossless hE h
  have inj : ∀ k' w', keyword k' = some w' → (k' = k ↔ w' = w) := by
    intro k' w' h'
    constructor
    · rintro rfl; rw [hw] at h'; exact (Option.some.inj h').symm
    · intro e
      rw [e, ← hw] at h'
      revert h'; revert hw
      cases k <;> simp only [keyword, Option.some.injEq, reduceCtorEq, false_implies] <;>
        (intro hw; cases k' <;> simp [keyword])
  by_cases heof : t.tokenType = .eof
  · obtain ⟨front, eof, e, h1, h2, -⟩ := eof_location hE h
    obtain ⟨front', eof', e', -, h4⟩ := one_eof hE h
    have hte : t = eof := by
      rw [e] at e'
      obtain ⟨rfl, e''⟩ := List.append_inj' e' rfl
      rw [e] at ht
      rcases List.mem_append.mp ht with ht | ht
      · exact absurd heof (h4 t ht)
      · exact List.mem_singleton.mp ht
    rw [heof, hte, h2]
    revert hw; cases k <;> simp only [keyword, Option.some.injEq, reduceCtorEq, false_implies] <;>
      (intro hw; simp [← hw])
  obtain ⟨a, l, b, -, hok⟩ := token_piece hp ht (by
    simp only [List.mem_cons, List.not_mem_nil, or_false, not_or] at hk ⊢
    exact ⟨hk.1, hk.2, heof⟩)
  -- the first character of a keyword is a letter
  have hfirst : ∃ c r, w = c :: r ∧ c.isAlpha = true ∧ c ≠ '"' ∧ c ≠ '\n' := by
    revert hw
    cases k <;> simp only [keyword, Option.some.injEq, reduceCtorEq, false_implies] <;>
      (intro hw; subst hw; exact ⟨_, _, rfl, by decide, by decide, by decide⟩)
  obtain ⟨c, r, rfl, hal, hq, hn⟩ := hfirst
  have hkk : ∀ ty, (ty = k → ∃ x, keyword ty = some x) := by
    rintro ty rfl; exact ⟨_, hw⟩
  rcases hok.2.2 with h | h | h | h | h
  · -- operator
    have hsp := h.spelling
    constructor
    · intro e; rw [e] at hsp; exfalso; revert hsp hw
      cases k <;> simp [keyword, operator]
    · intro e; exfalso
      rw [e] at hsp
      have key : ∀ ty s, operator ty = some s → ∀ x ∈ s, x.isAlpha = false := by
        intro ty s hs
        cases ty <;> simp only [operator, Option.some.injEq, reduceCtorEq] at hs <;> subst hs <;> decide
      have := key _ _ hsp c (by simp)
      rw [hal] at this; cases this
  · rcases h.kind with h | ⟨h1, h2⟩
    · exact inj _ _ h
    · rw [h1]
      constructor
      · intro e; rw [← e] at hw; cases hw
      · intro e; exact absurd (e ▸ hw) (h2 k)
  · -- number
    rw [h.kind]
    constructor
    · intro e; rw [← e] at hw; cases hw
    · intro e; exfalso
      rw [hok.1] at e
      obtain ⟨whole, frac, hwn, hwd, -, hl⟩ := h.shape
      obtain ⟨d, wr, rfl⟩ := List.exists_cons_of_ne_nil hwn
      have hd := hwd d (by simp)
      have : ∃ x, d = [x] ∧ x.isAlpha = false := by
        simp only [Digit, List.mem_cons, List.not_mem_nil, or_false] at hd
        rcases hd with rfl | rfl | rfl | rfl | rfl | rfl | rfl | rfl | rfl | rfl <;>
          exact ⟨_, rfl, by decide⟩
      obtain ⟨x, rfl, hx⟩ := this
      rcases hl with ⟨rfl, -⟩ | ⟨rfl, -⟩ <;>
        · simp at e
          rw [e.1, hal] at hx; cases hx
  · rw [h.kind]
    constructor
    · intro e; rw [← e] at hw; cases hw
    · intro e; exfalso
      obtain ⟨body, hl, -⟩ := h.shape
      rw [hok.1, hl] at e
      simp at e
      exact hq e.1.symm
  · rw [h.kind]
    constructor
    · intro e; rw [← e] at hw; cases hw
    · intro e; exfalso
      rw [hok.1, h.shape] at e
      simp at e
      exact hn e.1.symm

/-- C07: an Identifier is not a keyword, starts with a letter or underscore, goes on with letters,
digits and underscores, and is as long as possible. -/
theorem identifier_text (hE : EnvLaws env) (h : scanTokens env source = .done (.ok ts)) {t : Token}
    (ht : t ∈ ts) (hk : t.tokenType = .identifier) :
    (∀ k, keyword k ≠ some t.lexeme) ∧
    ∃ before g r after, env.segment source = before ++ (g :: r) ++ after ∧
      t.lexeme = (g :: r).flatten ∧ WordStart env g ∧ (∀ x ∈ r, WordPart env x) ∧
      ∀ x, after.head? = some x → ¬ WordPart env x := by
  obtain ⟨ps, hp, -⟩ := lossless hE h
  obtain ⟨a, l, b, rfl, hok⟩ := token_piece hp ht (by simp [hk])
  rcases hok.2.2 with h | h | h | h | h
  · have := h.spelling; rw [hk] at this; cases this
  · obtain ⟨g, r, rfl, hg, hr⟩ := h.start
    refine ⟨?_, text a, g, r, text b, by rw [← hp.text]; simp [Spec.text, Piece.text], hok.1, hg, hr, h.munch⟩
    rcases h.kind with h | h
    · rw [hk] at h; cases h
    · exact h.2
  · have := h.kind; rw [hk] at this; cases this
  · have := h.kind; rw [hk] at this; cases this
  · have := h.kind; rw [hk] at this; cases this

/-- C07: an operator is spelled as in the table `operator`, and `!`, `=`, `<`, `>` and `/` are not
followed by the character that would make another operator or a comment. -/
theorem operator_text (hE : EnvLaws env) (h : scanTokens env source = .done (.ok ts)) {t : Token}
    (ht : t ∈ ts) {s : Str} (hs : operator t.tokenType = some s) :
    t.lexeme = s ∧ ∃ before after, env.segment source = before ++ s.map ([·]) ++ after ∧
      (s ∈ [c!"!", c!"=", c!"<", c!">"] → after.head? ≠ some ['=']) ∧
      (s = c!"/" → after.head? ≠ some ['/']) := by
  obtain ⟨ps, hp, -⟩ := lossless hE h
  obtain ⟨a, l, b, rfl, hok⟩ := token_piece hp ht (by
    simp only [List.mem_cons, List.not_mem_nil, or_false, not_or]
    refine ⟨?_, ?_, ?_⟩ <;> (intro e; rw [e] at hs; cases hs))
  rcases hok.2.2 with h | h | h | h | h
  · have hsp := h.spelling
    rw [hs] at hsp
    cases hsp
    refine ⟨rfl, text a, text b, ?_, ?_, ?_⟩
    · rw [← hp.text, ← h.chars]; simp [Spec.text, Piece.text]
    · intro hm
      apply h.munch
      revert hm hs
      generalize t.lexeme = x
      cases t.tokenType <;> simp only [operator, Option.some.injEq, reduceCtorEq, false_implies] <;>
        (intro hs; subst hs; simp)
    · intro hm
      apply h.noComment
      revert hm hs
      generalize t.lexeme = x
      cases t.tokenType <;> simp only [operator, Option.some.injEq, reduceCtorEq, false_implies] <;>
        (intro hs; subst hs; simp)
  · exfalso
    rcases h.kind with h | ⟨h, -⟩
    · revert h hs
      cases t.tokenType <;> simp [operator, keyword]
    · rw [h] at hs; cases hs
  · rw [h.kind] at hs; cases hs
  · rw [h.kind] at hs; cases hs
  · rw [h.kind] at hs; cases hs

/-! ### C08 -/

/-- C08: the value of a String is the text between its quotes. -/
theorem string_value (hE : EnvLaws env) (h : scanTokens env source = .done (.ok ts)) {t : Token}
    (ht : t ∈ ts) (hk : t.tokenType = .string) :
    ∃ before body after, env.segment source = before ++ ['"'] :: body ++ ['"'] :: after ∧
      ['"'] ∉ body ∧ t.stringLiteral = some body.flatten ∧ t.lexeme = '"' :: (body.flatten ++ ['"']) := by
  obtain ⟨ps, hp, -⟩ := lossless hE h
  obtain ⟨a, l, b, rfl, hok⟩ := token_piece hp ht (by simp [hk])
  rcases hok.2.2 with h | h | h | h | h
  · have := h.spelling; rw [hk] at this; cases this
  · rcases h.kind with h | ⟨h, -⟩ <;> rw [hk] at h <;> cases h
  · have := h.kind; rw [hk] at this; cases this
  · obtain ⟨body, rfl, hq, hv⟩ := h.shape
    refine ⟨text a, body, text b, by rw [← hp.text]; simp [Spec.text, Piece.text], hq, hv, ?_⟩
    rw [hok.1]; simp
  · have := h.kind; rw [hk] at this; cases this

/-- The cluster after `x` lies in a String or in a comment. -/
def InStringOrComment (ps : List Piece) (x : List Str) : Prop :=
  ∃ a p b, ps = a ++ p :: b ∧ (text a).length ≤ x.length ∧ x.length < (text a).length + p.text.length ∧
    ((∃ t l, p = .token t l ∧ IsString t l) ∨ ∃ body, p = .comment body)

theorem in_string_or_comment (hE : EnvLaws env) (h : scanTokens env source = .done (.ok ts)) {g : Str}
    (hg : g ∈ [['"'], ['\t'], ['\r', '\n']]) :
    ∃ ps, Reads env (env.segment source) ps ts ∧
      ∀ x y, env.segment source = x ++ g :: y → InStringOrComment ps x := by
  obtain ⟨ps, hp, -⟩ := lossless hE h
  refine ⟨ps, hp, ?_⟩
  intro x y e
  obtain ⟨a, p, b, u, w, rfl, hu, hx, -⟩ := piece_at (hp.text.trans e)
  refine ⟨a, p, b, rfl, by rw [hx]; simp, by rw [hx, hu]; simp, ?_⟩
  exact only_in_string_or_comment hE.toAsciiLaws (hp.pieces a p b rfl) (by rw [hu]; simp) hg

/-- C08: in an accepted source every quote belongs to a (closed) String or to a comment. -/
theorem quotes_closed (hE : EnvLaws env) (h : scanTokens env source = .done (.ok ts)) :
    ∃ ps, Reads env (env.segment source) ps ts ∧
      ∀ x y, env.segment source = x ++ ['"'] :: y → InStringOrComment ps x :=
  in_string_or_comment hE h (by simp)

/-! ### C09 -/

/-- C09: a Number is spelled by digits, or digits, a dot and digits; it is as long as possible; and
its value is the `f64` that its text denotes. -/
theorem number_value (hE : EnvLaws env) (h : scanTokens env source = .done (.ok ts)) {t : Token}
    (ht : t ∈ ts) (hk : t.tokenType = .number) :
    ∃ before whole frac after, whole ≠ [] ∧ (∀ g ∈ whole, Digit g) ∧ (∀ g ∈ frac, Digit g) ∧
      t.floatLiteral = env.parseF64 t.lexeme ∧ t.floatLiteral ≠ none ∧
      (∀ g, after.head? = some g → ¬ Digit g) ∧
      (env.segment source = before ++ whole ++ after ∧ t.lexeme = whole.flatten ∧
          (∀ g r, after ≠ ['.'] :: g :: r ∨ ¬ Digit g) ∨
        env.segment source = before ++ whole ++ ['.'] :: frac ++ after ∧
          t.lexeme = whole.flatten ++ '.' :: frac.flatten ∧ frac ≠ []) := by
  obtain ⟨ps, hp, -⟩ := lossless hE h
  obtain ⟨a, l, b, rfl, hok⟩ := token_piece hp ht (by simp [hk])
  rcases hok.2.2 with h | h | h | h | h
  · have := h.spelling; rw [hk] at this; cases this
  · rcases h.kind with h | ⟨h, -⟩ <;> rw [hk] at h <;> cases h
  · obtain ⟨whole, frac, hw, hwd, hfd, hl⟩ := h.shape
    refine ⟨text a, whole, frac, text b, hw, hwd, hfd, h.value, h.valid, h.munch, ?_⟩
    rcases hl with ⟨rfl, -, hd⟩ | ⟨rfl, hf⟩
    · refine .inl ⟨by rw [← hp.text]; simp [Spec.text, Piece.text], hok.1, ?_⟩
      intro g r
      by_cases e : text b = ['.'] :: g :: r
      · exact .inr (hd (g :: r) e g rfl)
      · exact .inl e
    · exact .inr ⟨by rw [← hp.text]; simp [Spec.text, Piece.text], by rw [hok.1]; simp, hf⟩
  · have := h.kind; rw [hk] at this; cases this
  · have := h.kind; rw [hk] at this; cases this

/-! ### C10 -/

/-- C10: in an accepted source every tab is in a String or in a comment. -/
theorem tabs_illegal (hE : EnvLaws env) (h : scanTokens env source = .done (.ok ts)) :
    ∃ ps, Reads env (env.segment source) ps ts ∧
      ∀ x y, env.segment source = x ++ ['\t'] :: y → InStringOrComment ps x :=
  in_string_or_comment hE h (by simp)

/-! ### C12 -/

/-- C12: a Terminator is spelled by a newline and directly preceded by a token of a statement. -/
theorem terminator_after_proper (hE : EnvLaws env) (h : scanTokens env source = .done (.ok ts))
    {a b : List Token} {t : Token} (e : ts = a ++ t :: b) (hk : t.tokenType = .terminator) :
    t.lexeme = ['\n'] ∧ ∃ a' x, a = a' ++ [x] ∧
      x.tokenType ∉ [.indent, .outdent, .terminator, .eof] := by
  obtain ⟨w, hw, hr, he, hts⟩ := scan_ok h
  have hi := hw.sinv hE.toAsciiLaws (hE.nonempty source) he
  rw [hts] at e
  rcases List.append_eq_append_iff.mp e with ⟨u, h1, h2⟩ | ⟨u, h1, h2⟩
  · exfalso
    have : t ∈ w.closing := by rw [h2]; simp
    rcases List.mem_append.mp this with h | h
    · rw [List.eq_of_mem_replicate h] at hk; cases hk
    · rw [List.mem_singleton.mp h] at hk; cases hk
  · cases u with
    | nil =>
      exfalso
      have : t ∈ w.closing := by rw [show w.closing = t :: b by simpa using h2.symm]; simp
      rcases List.mem_append.mp this with h | h
      · rw [List.eq_of_mem_replicate h] at hk; cases hk
      · rw [List.mem_singleton.mp h] at hk; cases hk
    | cons y u =>
      simp only [List.cons_append, List.cons.injEq] at h2
      obtain ⟨rfl, -⟩ := h2
      exact hi.terms a t u h1 hk

/-- C12: exactly when a newline ends a logical line. A newline between the tokens is a Terminator if
its line has a token and the last thing before the newline is not a token after which the line goes
on; else it is blank space. So lines that are blank or only a comment have no Terminator, and all
others do. -/
theorem terminator_iff (hE : EnvLaws env) (h : scanTokens env source = .done (.ok ts)) :
    ∃ ps, Reads env (env.segment source) ps ts ∧
      (∀ a t l b, ps = a ++ .token t l :: b → t.tokenType = .terminator →
        HasToken a ∧ ¬ EndsContinuing a) ∧
      (∀ a b, ps = a ++ .blank ['\n'] :: b → ¬ (HasToken a ∧ ¬ EndsContinuing a)) := by
  obtain ⟨ps, hp, hf, -⟩ := scan_reading hE.toAsciiLaws (hE.nonempty source) h
  refine ⟨ps, hp, fun a t l b e hk => (hf a _ b e).1 hk, ?_⟩
  rintro a b e ⟨h1, h2⟩
  rcases hf a _ b e rfl with h | h
  · exact h h1
  · exact h2 h

/-! ### C11 -/

/-- The columns of open blocks increase inwards (below the limit 65535 of columns). -/
def IncreasingInwards (cols : List Nat) : Prop :=
  cols.Pairwise fun inner outer => outer < inner ∨ inner = 65535

/-- C11, for sources without carriage returns between tokens, in which every line continued by a
backslash has a token. A token that is directly preceded by an Indent, an Outdent or a Terminator, or
that is the first, starts in the column of the innermost open Indent, or in column 1 if none is open;
and the columns of open Indents increase inwards. What is missing: the excluded sources, of which it
is false (`statement_column_false`). -/
theorem statement_column_partial (hE : EnvLaws env) (h : scanTokens env source = .done (.ok ts)) :
    ∃ ps, Reads env (env.segment source) ps ts ∧ (PlainLines ps →
      ∀ a t b, ts = a ++ t :: b → Proper t →
        IncreasingInwards (openColumns [] a) ∧
        (¬ EndsProper a → t.column = (openColumns [] a).head?.getD 1)) := by
  obtain ⟨ps, hp, -, hc⟩ := scan_reading hE.toAsciiLaws (hE.nonempty source) h
  refine ⟨ps, hp, fun hpl a t b e ht => ?_⟩
  obtain ⟨c, ec, n, o, eof, rfl, ho, heof⟩ := hp.tokens
  rw [ec] at e
  have key : ∃ b', toks ps = a ++ t :: b' := by
    have hnot : t ∉ List.replicate n o ++ [eof] := by
      intro h
      rcases List.mem_append.mp h with h | h
      · rw [List.eq_of_mem_replicate h] at ht; simp [Proper, ho] at ht
      · rw [List.mem_singleton.mp h] at ht; simp [Proper, heof] at ht
    rcases List.append_eq_append_iff.mp e with ⟨u, h1, h2⟩ | ⟨u, h1, h2⟩
    · exact absurd (by rw [h2]; simp) hnot
    · cases u with
      | nil => exact absurd (by rw [List.nil_append] at h2; rw [← h2]; simp) hnot
      | cons y u =>
        simp only [List.cons_append, List.cons.injEq] at h2
        exact ⟨u, by rw [h1, h2.1]⟩
  obtain ⟨b', e'⟩ := key
  obtain ⟨h1, h2⟩ := hc hpl a (t :: b') e'
  exact ⟨h1, fun hn => h2 t b' rfl ht hn⟩

/-- C11 for sources without carriage returns and backslashes. -/
theorem statement_column_plain_partial (hE : EnvLaws env)
    (h : scanTokens env source = .done (.ok ts))
    (hr : ['\r'] ∉ env.segment source) (hb : ['\\'] ∉ env.segment source)
    {a b : List Token} {t : Token} (e : ts = a ++ t :: b) (ht : Proper t) :
    IncreasingInwards (openColumns [] a) ∧
    (¬ EndsProper a → t.column = (openColumns [] a).head?.getD 1) := by
  obtain ⟨ps, hp, hc⟩ := statement_column_partial hE h
  refine hc ⟨?_, ?_⟩ a t b e ht
  · intro hm
    apply hr
    rw [← hp.text]
    exact List.mem_flatMap.mpr ⟨_, hm, by simp [Piece.text]⟩
  · intro x mid y e
    exfalso
    apply hb
    rw [← hp.text, e]
    simp [Spec.text, Piece.text]

/-- C11 is false for a carriage return before the first token of a line, and for a backslash on a line
without tokens: the last token directly follows a Terminator, in another column than its block. -/
theorem statement_column_false :
    (∃ ts a t u b, scanTokens asciiEnv c!"a\n  \\\n  b" = .done (.ok ts) ∧
      ts = a ++ [t, u] ++ b ∧ t.tokenType = .terminator ∧ openColumns [] (a ++ [t]) = [] ∧
      u.column = 3) ∧
    (∃ ts a t u v w b, scanTokens asciiEnv c!"a\n  b\n\r  c" = .done (.ok ts) ∧
      ts = a ++ [t, u, v, w] ++ b ∧ t.tokenType = .indent ∧ v.tokenType = .terminator ∧
      openColumns [] (a ++ [t, u, v]) = [3] ∧ w.column = 4) := by
  refine ⟨⟨_, [⟨.identifier, c!"a", none, none, 1, 1⟩], ⟨.terminator, c!"\n", none, none, 1, 2⟩,
    ⟨.identifier, c!"b", none, none, 3, 3⟩, [⟨.eof, [], none, none, 3, 4⟩], ?_, rfl, rfl, rfl, rfl⟩,
    ⟨_, [⟨.identifier, c!"a", none, none, 1, 1⟩, ⟨.terminator, c!"\n", none, none, 1, 2⟩],
      ⟨.indent, c!"b", none, none, 2, 3⟩,  ⟨.identifier, c!"b", none, none, 2, 3⟩,
      ⟨.terminator, c!"\n", none, none, 2, 4⟩, ⟨.identifier, c!"c", none, none, 3, 4⟩,
      [⟨.outdent, [], none, none, 3, 5⟩, ⟨.eof, [], none, none, 3, 5⟩], ?_, rfl, rfl, rfl, rfl, rfl⟩⟩
  · by_kernel
  · by_kernel

/-! ### C13 -/

/-- C13, for a newline directly after the operator: the newline is not a Terminator, and the
following line does not open a block. What is missing: the same with blank space or a comment between
the operator and the newline, of which it is false (`trailing_operator_false`). -/
theorem trailing_operator_partial (hE : EnvLaws env) (h : scanTokens env source = .done (.ok ts)) :
    ∃ ps, Reads env (env.segment source) ps ts ∧
      (∀ a op l b, ps = a ++ .token op l :: b → continues op.tokenType = true →
        (text b).head? = some ['\n'] → ∃ b', b = .blank ['\n'] :: b') ∧
      (∀ a q b, ps = a ++ .layout q :: b → Continued a → q.tokenType = .outdent) := by
  obtain ⟨ps, hp, hf, -⟩ := scan_reading hE.toAsciiLaws (hE.nonempty source) h
  refine ⟨ps, hp, ?_, ?_⟩
  · intro a op l b e hc hn
    cases b with
    | nil => simp [Spec.text] at hn
    | cons p b =>
      have e' : ps = (a ++ [.token op l]) ++ p :: b := by rw [e]; simp
      have hok := hp.pieces _ p b e'
      have hft := hf _ p b e'
      have hl : lastVisible (a ++ [.token op l]) = some (.token op l) := lastVisible_snoc _ _ (by simp)
      cases p with
      | layout t =>
        exfalso
        have h1 := hok.2.2.1
        have h2 := hok.2.2.2
        simp only [Spec.text, List.flatMap_cons, Piece.text, List.nil_append] at hn h1
        rw [hn] at h1
        rw [← Option.some.inj h1] at h2
        simp at h2
      | blank g =>
        simp only [Spec.text, List.flatMap_cons, Piece.text, List.cons_append, List.head?_cons,
          Option.some.injEq] at hn
        exact ⟨b, by rw [hn]⟩
      | comment body => simp [Spec.text, Piece.text] at hn
      | continuation mid => simp [Spec.text, Piece.text] at hn
      | fault c l => exact hok.elim
      | token t l' =>
        exfalso
        by_cases hk : t.tokenType = .terminator
        · exact (hft.1 hk).2 ⟨op, l, hl, hc⟩
        · simp only [Spec.text, List.flatMap_cons, Piece.text] at hn
          have hne : ∀ x, x ∈ l'.head? → x ≠ ['\n'] := by
            intro x hx
            rcases hok.2.2 with h | h | h | h | h
            · have hsp := h.spelling
              have hch := h.chars
              rw [hch] at hx
              have key : ∀ ty s, operator ty = some s → ∀ x ∈ s, x ≠ '\n' := by
                intro ty s hs
                cases ty <;> simp only [operator, Option.some.injEq, reduceCtorEq] at hs <;> subst hs <;> decide
              rw [List.head?_map, Option.mem_def, Option.map_eq_some_iff] at hx
              obtain ⟨c, hc, rfl⟩ := hx
              have := key _ _ hsp c (List.mem_of_mem_head? hc)
              simpa using this
            · obtain ⟨g, r, rfl, ⟨c, r', rfl, hg⟩, -⟩ := h.start
              cases hx
              rintro ⟨rfl, -⟩
              rw [hE.alphabetic _ (by decide)] at hg
              revert hg; decide
            · obtain ⟨whole, frac, hw, hwd, -, hl'⟩ := h.shape
              obtain ⟨d, wr, rfl⟩ := List.exists_cons_of_ne_nil hw
              have hd := hwd d (by simp)
              rcases hl' with ⟨rfl, -⟩ | ⟨rfl, -⟩ <;>
                · cases hx; rintro rfl; revert hd; decide
            · obtain ⟨body, rfl, -⟩ := h.shape; cases hx; simp
            · exact absurd h.kind hk
          cases l' with
          | nil =>
            have := hok.1
            rcases hok.2.2 with h | h | h | h | h
            · have hsp := h.spelling
              rw [this] at hsp
              have : ∀ k, operator k ≠ some [] := by intro k; cases k <;> simp [operator]
              exact this _ hsp
            · obtain ⟨g, r, h, -⟩ := h.start; cases h
            · obtain ⟨w, f, hw, -, -, h | h⟩ := h.shape
              · exact hw h.1.symm
              · simp at h
            · obtain ⟨body, h, -⟩ := h.shape; cases h
            · exact hk h.kind
          | cons x l' =>
            simp only [List.cons_append, List.head?_cons, Option.some.injEq] at hn
            exact hne x rfl hn
  · intro a q b e hc
    rcases (hp.pieces a _ b e).1 with h | h
    · exact absurd h (hf a _ b e hc)
    · exact h

/-- C13 is false after a space or a comment: `1 + ⏎ 2` with a space, or a comment, before the newline
has a Terminator after the operator. -/
theorem trailing_operator_false :
    (∃ ts a op t b, scanTokens asciiEnv c!"1 + \n2" = .done (.ok ts) ∧ ts = a ++ [op, t] ++ b ∧
      op.tokenType = .plus ∧ t.tokenType = .terminator) ∧
    (∃ ts a op t b, scanTokens asciiEnv c!"1 +// c\n2" = .done (.ok ts) ∧ ts = a ++ [op, t] ++ b ∧
      op.tokenType = .plus ∧ t.tokenType = .terminator) := by
  have h1 : scanTokens asciiEnv c!"1 + \n2" = .done (.ok
      ([⟨.number, c!"1", none, some 4607182418800017408, 1, 1⟩] ++
      [⟨.plus, c!"+", none, none, 1, 3⟩, ⟨.terminator, c!"\n", none, none, 1, 5⟩] ++
      [⟨.number, c!"2", none, some 4611686018427387904, 2, 1⟩, ⟨.eof, [], none, none, 2, 2⟩])) := by by_kernel
  have h2 : scanTokens asciiEnv c!"1 +// c\n2" = .done (.ok
      ([⟨.number, c!"1", none, some 4607182418800017408, 1, 1⟩] ++
      [⟨.plus, c!"+", none, none, 1, 3⟩, ⟨.terminator, c!"\n", none, none, 1, 8⟩] ++
      [⟨.number, c!"2", none, some 4611686018427387904, 2, 1⟩, ⟨.eof, [], none, none, 2, 2⟩])) := by by_kernel
  exact ⟨⟨_, _, _, _, _, h1, rfl, rfl, rfl⟩, ⟨_, _, _, _, _, h2, rfl, rfl, rfl⟩⟩

/-! ### C51 -/

/-- C51: a `(` is a call parenthesis (LeftParenAbutting) exactly if what precedes it, without blank
space in between, is a token of a statement, a comment or a backslash continuation. -/
theorem paren_abutting_iff (hE : EnvLaws env) (h : scanTokens env source = .done (.ok ts)) :
    ∃ ps, Reads env (env.segment source) ps ts ∧
      ∀ a t b, ps = a ++ .token t [['(']] :: b →
        (t.tokenType = .leftParenAbutting ∨ t.tokenType = .leftParen) ∧
        (t.tokenType = .leftParenAbutting ↔ ∃ p, lastVisible a = some p ∧ Solid p) := by
  obtain ⟨ps, hp, hf, -⟩ := scan_reading hE.toAsciiLaws (hE.nonempty source) h
  refine ⟨ps, hp, fun a t b e => ?_⟩
  have hok := hp.pieces a _ b e
  have hft := hf a _ b e
  have hk : t.tokenType = .leftParenAbutting ∨ t.tokenType = .leftParen := by
    rcases hok.2.2 with h | h | h | h | h
    · have h1 := h.spelling
      rw [hok.1] at h1
      revert h1
      cases t.tokenType <;> simp [operator]
    · obtain ⟨g, r, e, ⟨c, r', rfl, hg⟩, -⟩ := h.start
      simp only [List.cons.injEq] at e
      obtain ⟨⟨rfl, -⟩, -⟩ := e
      rw [hE.alphabetic _ (by decide)] at hg
      exfalso; revert hg; decide
    · obtain ⟨whole, frac, hw, hwd, -, hl⟩ := h.shape
      obtain ⟨d, wr, rfl⟩ := List.exists_cons_of_ne_nil hw
      have hd := hwd d (by simp)
      rcases hl with ⟨hl, -⟩ | ⟨hl, -⟩ <;>
        · simp only [List.cons_append, List.cons.injEq] at hl
          rw [← hl.1] at hd; exfalso; revert hd; decide
    · obtain ⟨body, hb, -⟩ := h.shape; simp at hb
    · have := h.shape; simp at this
  refine ⟨hk, hft.2.1, ?_⟩
  rintro ⟨p, hp1, hp2⟩
  rcases hk with hk | hk
  · exact hk
  · exact absurd hp2 (hft.2.2 hk p hp1)

/-! ### C16 -/

/-- C16: in an accepted source every CR LF cluster is in a String or in a comment. What is missing:
the claim that such sources scan like those with LF, which is false (`crlf_false`). -/
theorem crlf_partial (hE : EnvLaws env) (h : scanTokens env source = .done (.ok ts)) :
    ∃ ps, Reads env (env.segment source) ps ts ∧
      ∀ x y, env.segment source = x ++ ['\r', '\n'] :: y → InStringOrComment ps x :=
  in_string_or_comment hE h (by simp)

/-- C16 is false: a CR LF after a statement is rejected, where LF is accepted. -/
theorem crlf_false :
    (∃ ts, scanTokens asciiEnv c!"a\nb" = .done (.ok ts)) ∧
    ∀ ts, scanTokens asciiEnv c!"a\r\nb" ≠ .done (.ok ts) := by
  have h1 : (scanTokens asciiEnv c!"a\nb").isOk = true := by by_kernel
  have h2 : (scanTokens asciiEnv c!"a\r\nb").isOk = false := by by_kernel
  constructor
  · revert h1
    cases scanTokens asciiEnv c!"a\nb" with
    | done r => cases r <;> simp [Outcome.isOk]
    | _ => simp [Outcome.isOk]
  · intro ts h; rw [h] at h2; cases h2

/-! ### C17 -/

/-- C17: a rejected source has at least one error; every error has a line of the source; and the
errors are in the order of their lines. -/
theorem errors_located (hE : EnvLaws env) {es : ParseError}
    (h : scanTokens env source = .done (.error es)) :
    es ≠ [] ∧ (∀ e ∈ es, 1 ≤ e.loc.line ∧ e.loc.line ≤ 1 + (env.segment source).count ['\n']) ∧
      (es.map (·.loc.line)).Pairwise (· ≤ ·) := by
  obtain ⟨h1, h2⟩ := scan_err_lines hE.toAsciiLaws h
  refine ⟨h1, fun e he => ⟨(h2.2 e he).1, ?_⟩, h2.1⟩
  have := (h2.2 e he).2
  simp only [lineAfter] at this
  omega

example : ∃ es, scanTokens asciiEnv c!"a ^\n\"b\nc" = .done (.error es) ∧
    es.map (·.loc.line) = [1, 3] := by
  have h : scanTokens asciiEnv c!"a ^\n\"b\nc" = .done (.error
    [⟨⟨1, 4⟩, none, "Unexpected token: ^"⟩, ⟨⟨3, 2⟩, none, "Unterminated string."⟩]) := by by_kernel
  exact ⟨_, h, rfl⟩

end Ws.Properties
