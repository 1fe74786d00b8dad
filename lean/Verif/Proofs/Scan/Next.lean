import Verif.Spec.Scan
import Verif.Spec.EnvLaws
import Verif.Proofs.Scan.Stuck
/-! The next piece of the source is the one of the next lexeme. -/
namespace Ws
open Spec Scanner

/-- A newline would end a statement. -/
def V.loud (v : V) : Bool := !v.isBol && !v.followCont && !v.onlyComment

/-- The piece of a lexeme. -/
def Kind.piece (env : Env) (v : V) (g : Str) (cs : List Str) : Kind → Piece
  | .tok t _ => .token ⟨t, g, none, none, v.line, v.column⟩ [g]
  | .two t second _ => .token ⟨t, g ++ second, none, none, v.line, v.column⟩ [g, second]
  | .num taken =>
    .token ⟨.number, (g :: taken).flatten, none, env.parseF64 (g :: taken).flatten, v.line, v.column⟩
      (g :: taken)
  | .ident taken =>
    .token ⟨keywordType (g :: taken).flatten, (g :: taken).flatten, none, none, v.line, v.column⟩
      (g :: taken)
  | .str taken =>
    .token ⟨.string, (g :: (taken ++ [['"']])).flatten, some taken.flatten, none, v.line, v.column⟩
      (g :: (taken ++ [['"']]))
  | .unterminated =>
    .fault (.new ⟨(posThrough (v.line, satInc16 v.column) cs).1,
      satInc16 (posThrough (v.line, satInc16 v.column) cs).2 - 1⟩ "Unterminated string.") (g :: cs)
  | .unexpected =>
    .fault (.new ⟨v.line, satInc16 v.column⟩ ("Unexpected token: " ++ String.ofList g)) [g]
  | .comment taken => .comment taken.tail
  | .backslash taken nl =>
    if nl then .continuation taken.dropLast
    else .fault (.new ⟨v.line, v.column⟩ "Unexpected character: '\\'") (g :: taken)
  | .tab =>
    .fault (.new ⟨v.line, satInc16 v.column⟩ "Illegal tab character; all whitespace must be spaces") [g]
  | .space | .cr => .blank g
  | .newline => if v.loud then .token ⟨.terminator, g, none, none, v.line, v.column⟩ [g] else .blank g

/-- `PieceAt`, with the context taken from the state. -/
structure VPieceAt (env : Env) (v : V) (p : Piece) (rest : List Str) : Prop where
  ok : match p with
    | .layout _ => False
    | .fault c l => FaultOK env v.pre rest c l
    | p => PieceOK env v.pre p rest
  newline : p = .blank ['\n'] → v.loud = false
  terminator : ∀ t l, p = .token t l → t.tokenType = .terminator → v.loud = true
  attached : ∀ t l, p = .token t l → t.tokenType = .leftParenAbutting → v.abut = true
  detached : ∀ t l, p = .token t l → t.tokenType = .leftParen → v.abut = false

theorem punct_operator {g : Str} (h : ∀ t c, operator t = some [c] → g ≠ [c]) : punct g = none := by
  cases hp : punct g with
  | none => rfl
  | some tc =>
    obtain ⟨⟨ch, e⟩, hop, -⟩ := punct_spec hp
    exact absurd e (h _ ch (e ▸ hop))

theorem eqPunct_operator {g : Str} (h : ∀ t c, operator t = some [c] → g ≠ [c]) : eqPunct g = none := by
  cases hp : eqPunct g with
  | none => rfl
  | some tc =>
    obtain ⟨⟨ch, e⟩, -, hop, -⟩ := eqPunct_spec hp
    exact absurd e (h _ ch (e ▸ hop))

/-- The lexemes that do not begin with a sign. -/
theorem lexeme_plain {env : Env} {abut : Bool} {g : Str} {cs : List Str} (h : ∀ t c, operator t = some [c] → g ≠ [c])
    (hn : g ∉ [[' '], ['\t'], ['\r'], ['\n'], ['\\'], ['"']]) :
    lexeme env abut g cs =
      if isDigit g then .num (cs.takeWhile isDigit ++ fraction (cs.dropWhile isDigit))
      else if isAlpha env g then .ident (cs.takeWhile (isAlnum env)) else .unexpected := by
  have h1 : g ≠ ['('] := h .leftParen '(' rfl
  have h2 : g ≠ ['/'] := h .slash '/' rfl
  simp only [List.mem_cons, List.not_mem_nil, or_false, not_or] at hn
  obtain ⟨n1, n2, n3, n4, n5, n6⟩ := hn
  simp only [lexeme, punct_operator h, eqPunct_operator h, if_neg h1, if_neg h2, if_neg n1, if_neg n2,
    if_neg n3, if_neg n4, if_neg n5, if_neg n6]

theorem digit_plain {g : Str} (hd : Digit g) : (∀ t c, operator t = some [c] → g ≠ [c]) ∧
    g ∉ [[' '], ['\t'], ['\r'], ['\n'], ['\\'], ['"']] := by
  simp only [Digit, List.mem_cons, List.not_mem_nil, or_false] at hd
  rcases hd with rfl | rfl | rfl | rfl | rfl | rfl | rfl | rfl | rfl | rfl <;>
    exact ⟨fun t c ht e => by cases e; cases t <;> simp [operator] at ht, by decide⟩

/-- A cluster of one ASCII character that is not a letter does not begin a word. -/
theorem wordStart_ascii {env : Env} (hA : AsciiLaws env) {c : Char} {r : Str} (h : WordStart env (c :: r))
    (hc : c.toNat < 128) : c.isAlpha = true ∨ c = '_' := by
  obtain ⟨c', r', e, h⟩ := h
  cases e
  rwa [hA.alphabetic _ hc] at h

theorem word_plain {env : Env} (hA : AsciiLaws env) {g : Str} (hw : WordStart env g) :
    ((∀ t c, operator t = some [c] → g ≠ [c]) ∧ g ∉ [[' '], ['\t'], ['\r'], ['\n'], ['\\'], ['"']]) ∧ ¬ Digit g := by
  obtain ⟨c, r, rfl, hc⟩ := id hw
  have key : c.toNat < 128 → c.isAlpha = true ∨ c = '_' := wordStart_ascii hA hw
  refine ⟨⟨fun t c' ht e => ?_, fun hm => ?_⟩, fun hd => ?_⟩
  · rw [← e] at ht
    cases t <;> simp only [operator, Option.some.injEq, List.cons.injEq, reduceCtorEq] at ht <;>
      obtain ⟨rfl, -⟩ := ht <;> exact absurd (key (by decide)) (by decide)
  · simp only [List.mem_cons, List.not_mem_nil, or_false, List.cons.injEq] at hm
    rcases hm with ⟨rfl, -⟩ | ⟨rfl, -⟩ | ⟨rfl, -⟩ | ⟨rfl, -⟩ | ⟨rfl, -⟩ | ⟨rfl, -⟩ <;>
      exact absurd (key (by decide)) (by decide)
  · simp only [Digit, List.mem_cons, List.not_mem_nil, or_false, List.cons.injEq] at hd
    rcases hd with ⟨rfl, -⟩ | ⟨rfl, -⟩ | ⟨rfl, -⟩ | ⟨rfl, -⟩ | ⟨rfl, -⟩ | ⟨rfl, -⟩ | ⟨rfl, -⟩ | ⟨rfl, -⟩ |
      ⟨rfl, -⟩ | ⟨rfl, -⟩ <;> exact absurd (key (by decide)) (by decide)

theorem takeWhile_exact {α : Type} {p : α → Bool} {l rest : List α} (hl : ∀ x ∈ l, p x = true)
    (hr : ∀ x, rest.head? = some x → p x = false) :
    (l ++ rest).takeWhile p = l ∧ (l ++ rest).dropWhile p = rest := by
  induction l with
  | nil =>
    cases rest with
    | nil => simp
    | cons x rest => simp [hr x rfl]
  | cons a l ih =>
    have ha := hl a (by simp)
    have := ih (fun x hx => hl x (by simp [hx]))
    simp [ha, this]

theorem keywordType_eq {t : TokenType} {s : Str}
    (h : keyword t = some s ∨ t = .identifier ∧ ∀ k, keyword k ≠ some s) : keywordType s = t := by
  rcases h with h | ⟨rfl, h⟩
  · cases t <;> simp only [keyword, Option.some.injEq, reduceCtorEq] at h <;> subst h <;> rfl
  · rcases keywordType_spec s with h' | h'
    · exact absurd h' (h _)
    · exact h'.1

theorem backslashTaken_exact {n : Nat} {cr rest : List Str}
    (hcr : cr = [] ∧ rest.head? ≠ some [' '] ∧ rest.head? ≠ some ['\r'] ∨ cr = [['\r']]) :
    backslashTaken (List.replicate n [' '] ++ (cr ++ rest)) =
      if rest.head? = some ['\n'] then (List.replicate n [' '] ++ cr ++ [['\n']], true)
      else (List.replicate n [' '] ++ cr, false) := by
  have hh : ∀ x, (cr ++ rest).head? = some x → (x == [' ']) = false := by
    intro x hx
    rcases hcr with ⟨rfl, h, -⟩ | rfl
    · simp only [List.nil_append] at hx
      rw [hx] at h
      simpa using h
    · simp only [List.cons_append, List.head?_cons, Option.some.injEq] at hx
      subst hx; rfl
  obtain ⟨h1, h2⟩ := takeWhile_exact (p := (· == [' '])) (l := List.replicate n [' '])
    (fun x hx => by simpa using List.eq_of_mem_replicate hx) hh
  have h3 : optCr (cr ++ rest) = cr := by
    rcases hcr with ⟨rfl, -, h⟩ | rfl
    · cases rest with
      | nil => rfl
      | cons a rest =>
        simp only [List.head?_cons, ne_eq, Option.some.injEq] at h
        simp [optCr, h]
    · simp [optCr]
  simp only [backslashTaken, h1, h2, h3, List.drop_left]

theorem ne_of_mem_of_not_mem {α : Type} {l : List α} {x y : α} (hx : x ∈ l) (hy : y ∉ l) : x ≠ y :=
  fun e => hy (e ▸ hx)

/-- The column of the end of the source. -/
theorem column_last (pre : List Str) :
    satInc16 (columnAfter pre) - 1 = min (columnAfter pre) (u16Max - 1) := by
  simp only [columnAfter]
  rw [satInc16_min]
  generalize u16Max = m
  omega

/-! ### Uniqueness -/

theorem next_unique {env : Env} (hA : AsciiLaws env) {v : V} (hne : ∀ h ∈ v.rest, h ≠ [])
    (hpos : v.PosOK) {p : Piece} {rest : List Str} (hp : VPieceAt env v p rest)
    (hr : v.rest = p.text ++ rest) :
    ∃ g cs, v.rest = g :: cs ∧ p = (lexeme env v.abut g cs).piece env v g cs := by
  cases p with
  | layout t => exact hp.ok.elim
  | blank g =>
    refine ⟨g, rest, hr, ?_⟩
    have := hp.ok
    simp only [PieceOK] at this
    rcases this with rfl | rfl | rfl
    · simp [lexeme, punct, eqPunct, Kind.piece]
    · simp [lexeme, punct, eqPunct, Kind.piece]
    · simp [lexeme, punct, eqPunct, Kind.piece, hp.newline rfl]
  | comment body =>
    refine ⟨['/'], ['/'] :: (body ++ rest), hr, ?_⟩
    obtain ⟨hb, hrest⟩ := hp.ok
    have := (takeWhile_exact (p := fun g => !(g == ['\n'])) (l := body) (rest := rest)
      (fun x hx => by simpa using ne_of_mem_of_not_mem hx hb)
      (fun x hx => by rcases hrest with rfl | h <;> simp_all)).1
    simp [lexeme, punct, eqPunct, Kind.piece, this]
  | continuation mid =>
    refine ⟨['\\'], mid ++ ['\n'] :: rest, by rw [hr]; simp [Piece.text], ?_⟩
    obtain ⟨n, hm⟩ := hp.ok
    have : backslashTaken (mid ++ ['\n'] :: rest) = (mid ++ [['\n']], true) := by
      rcases hm with rfl | rfl
      · have := backslashTaken_exact (n := n) (cr := []) (rest := ['\n'] :: rest)
          (.inl ⟨rfl, by simp, by simp⟩)
        simpa using this
      · have := backslashTaken_exact (n := n) (cr := [['\r']]) (rest := ['\n'] :: rest) (.inr rfl)
        simpa using this
    simp [lexeme, punct, eqPunct, Kind.piece, this]
  | fault c l =>
    have hl := hpos.1
    have hc := hpos.2
    cases hp.ok with
    | tab =>
      refine ⟨['\t'], rest, hr, ?_⟩
      have h2 := columnAfter_snoc v.pre ['\t']
      simp [lexeme, punct, eqPunct, Kind.piece, Cause.new, hl, hc, h2]
    | backslash n cr h1 h2 =>
      refine ⟨['\\'], List.replicate n [' '] ++ (cr ++ rest), by rw [hr]; simp [Piece.text], ?_⟩
      have := backslashTaken_exact h1 (n := n)
      rw [if_neg h2] at this
      simp [lexeme, punct, eqPunct, Kind.piece, this, Cause.new, hl, hc]
    | unexpected g hg =>
      refine ⟨g, rest, hr, ?_⟩
      obtain ⟨h1, h2, h3, h4⟩ := hg
      have hne' : g ≠ [] := hne g (by rw [hr]; simp [Piece.text])
      have hnl : g ≠ ['\n'] := fun e => h1 (by simp [e])
      have h5 : isDigit g ≠ true := fun e => h2 ((isDigit_iff g).mp e)
      have h6 : isAlpha env g ≠ true := fun e => h3 ((isAlpha_iff env hne').mp e)
      rw [lexeme_plain h4 h1, if_neg h5, if_neg h6]
      have h2 := columnAfter_snoc v.pre g
      simp [Kind.piece, Cause.new, hl, hc, h2, hnl]
    | unterminated body h1 h2 =>
      subst h2
      refine ⟨['"'], body, by rw [hr]; simp [Piece.text], ?_⟩
      have h3 : body.any (· == ['"']) = false := by
        simpa using fun x hx => ne_of_mem_of_not_mem hx h1
      have h4 := columnAfter_snoc v.pre ['"']
      have h5 := lineAfter_snoc v.pre ['"']
      rw [if_neg (by decide)] at h4 h5
      have h6 := posThrough_after (v.pre ++ [['"']]) body
      rw [h4, h5, ← hl, ← hc] at h6
      have h8 := column_last (v.pre ++ [['"']] ++ body)
      simp only [lexeme, punct, eqPunct]
      simp only [List.append_assoc, List.singleton_append] at h6 h8
      simp [h3, Kind.piece, Cause.new, h6, h8]
  | token t l =>
    obtain ⟨hlex, ⟨hl, hc⟩, h⟩ := hp.ok
    rw [← hpos.1] at hl
    rw [← hpos.2] at hc
    obtain ⟨ty, lex, sl, fl, ln, col⟩ := t
    simp only at hl hc hlex
    subst hl hc
    rcases h with h | h | h | h | h
    · have hat := hp.attached _ _ rfl
      have hde := hp.detached _ _ rfl
      have h1 := h.spelling
      have h2 := h.chars
      have h3 := h.noString
      have h4 := h.noFloat
      have h5 := h.munch
      have h6 := h.noComment
      simp only at h1 h2 h3 h4 h5 h6 hat hde
      subst h3 h4
      clear hp h hlex hpos hne
      cases ty <;> simp only [operator, Option.some.injEq, reduceCtorEq] at h1 <;> subst h1 <;>
        simp only [List.map_cons, List.map_nil] at h2 <;> subst h2 <;> refine ⟨_, _, hr, ?_⟩ <;>
        simp at h5 h6 hat hde <;> simp [lexeme, punct, eqPunct, Kind.piece, h5, h6, hat, hde]
    · obtain ⟨g, r, rfl, hg, hw⟩ := h.start
      refine ⟨g, r ++ rest, by rw [hr]; rfl, ?_⟩
      obtain ⟨⟨h1, h2⟩, h3⟩ := word_plain hA hg
      have hgne : g ≠ [] := hne g (by rw [hr]; simp [Piece.text])
      have hn : ∀ x ∈ r ++ rest, x ≠ [] := fun x hx => hne x (by rw [hr]; simp only [Piece.text, List.cons_append]; exact List.mem_cons_of_mem _ hx)
      have h4 : isDigit g ≠ true := fun e => h3 ((isDigit_iff g).mp e)
      have h5 := (takeWhile_exact (p := isAlnum env) (l := r) (rest := rest)
        (fun x hx => (isAlnum_iff env (hn x (by simp [hx]))).mpr (hw x hx))
        (fun x hx => by
          have h6 := h.munch x hx
          rw [← isAlnum_iff env (hn x (by simp [List.mem_of_mem_head? hx]))] at h6
          simpa using h6)).1
      rw [lexeme_plain h1 h2, if_neg h4, if_pos ((isAlpha_iff env hgne).mpr hg), h5]
      have h6 := keywordType_eq h.kind
      have h7 := h.noString
      have h8 := h.noFloat
      simp only at h6 h7 h8
      subst h7 h8 hlex
      simp only [Kind.piece, h6]
    · obtain ⟨whole, frac, hw0, hw, hf, hs⟩ := h.shape
      have h7 := h.kind
      have h8 := h.noString
      have h9 := h.value
      simp only at h7 h8 h9
      subst h7 h8 h9 hlex
      cases whole with
      | nil => exact absurd rfl hw0
      | cons g whole =>
      obtain ⟨h1, h2⟩ := digit_plain (hw g (by simp))
      have h3 : isDigit g = true := (isDigit_iff g).mpr (hw g (by simp))
      have hwh : ∀ x ∈ whole, isDigit x = true := fun x hx => (isDigit_iff x).mpr (hw x (by simp [hx]))
      have hmun : ∀ x, rest.head? = some x → isDigit x = false := by
        intro x hx
        have := h.munch x hx
        rw [← isDigit_iff] at this
        simpa using this
      rcases hs with ⟨rfl, rfl, hfr⟩ | ⟨rfl, hf0⟩
      · refine ⟨g, whole ++ rest, hr, ?_⟩
        obtain ⟨h4, h5⟩ := takeWhile_exact hwh hmun
        have h6 : fraction rest = [] := by
          match rest with
          | [] => rfl
          | [d] => rfl
          | d :: c :: r =>
            simp only [fraction]
            split
            · next hd =>
              subst hd
              have := hfr _ rfl c rfl
              rw [← isDigit_iff] at this
              rw [if_neg this]
            · rfl
        rw [lexeme_plain h1 h2, if_pos h3, h4, h5, h6, List.append_nil]
        rfl
      · refine ⟨g, whole ++ (['.'] :: frac ++ rest), by rw [hr]; simp [Piece.text], ?_⟩
        obtain ⟨h4, h5⟩ := takeWhile_exact (rest := ['.'] :: frac ++ rest) hwh
          (by intro x hx; simp at hx; subst hx; rfl)
        have h6 : fraction (['.'] :: frac ++ rest) = ['.'] :: frac := by
          cases frac with
          | nil => exact absurd rfl hf0
          | cons c frac =>
            have hc : isDigit c = true := (isDigit_iff c).mpr (hf c (by simp))
            have := (takeWhile_exact (p := isDigit) (l := c :: frac) (rest := rest)
              (fun x hx => (isDigit_iff x).mpr (hf x hx)) hmun).1
            simp only [List.cons_append] at this
            simp [fraction, hc, this]
        rw [lexeme_plain h1 h2, if_pos h3, h4, h5, h6]
        rfl
    · obtain ⟨body, rfl, hb, hv⟩ := h.shape
      have h7 := h.kind
      have h8 := h.noFloat
      simp only at h7 h8 hv
      subst h7 h8 hv hlex
      refine ⟨['"'], body ++ (['"'] :: rest), by rw [hr]; simp [Piece.text], ?_⟩
      have h1 := (takeWhile_exact (p := fun g => !(g == ['"'])) (l := body) (rest := ['"'] :: rest)
        (fun x hx => by simpa using ne_of_mem_of_not_mem hx hb) (fun x hx => by simp at hx; subst hx; rfl)).1
      have h2 : (body ++ (['"'] :: rest)).any (· == ['"']) = true := by simp
      simp only [lexeme, punct, eqPunct]
      simp only [h1, h2]
      simp [Kind.piece]
    · have h1 := h.kind
      have h2 := h.shape
      have h3 := h.noString
      have h4 := h.noFloat
      simp only at h1 h2 h3 h4
      subst h1 h2 h3 h4 hlex
      refine ⟨['\n'], rest, hr, ?_⟩
      simp [lexeme, punct, eqPunct, Kind.piece, hp.terminator _ _ rfl rfl]

/-! ### Existence -/

theorem next_exists {env : Env} {v : V} {g : Str} {cs : List Str} (hr : v.rest = g :: cs)
    (hne : ∀ h ∈ v.rest, h ≠ []) (hpos : v.PosOK)
    (hN : ∀ taken, lexeme env v.abut g cs = .num taken → env.parseF64 (g :: taken).flatten ≠ none) :
    ∃ rest, v.rest = ((lexeme env v.abut g cs).piece env v g cs).text ++ rest ∧
      VPieceAt env v ((lexeme env v.abut g cs).piece env v g cs) rest := by
  have hgne : g ≠ [] := hne g (by simp [hr])
  have hloc : ∀ (tt : TokenType) (l : Str) (s : Option Str) (f : Option F64),
      LocatedAfter ⟨tt, l, s, f, v.line, v.column⟩ v.pre := fun _ _ _ _ => hpos
  have hl := hpos.1
  have hc := hpos.2
  have tokStep : ∀ (t : TokenType) (c : Bool), lexeme env v.abut g cs = .tok t c →
      (∃ ch, g = [ch]) → operator t = some g →
      (t ∈ [.bang, .equal, .greater, .less] → cs.head? ≠ some ['=']) →
      (t = .slash → cs.head? ≠ some ['/']) →
      ((t = .leftParenAbutting → v.abut = true) ∧ (t = .leftParen → v.abut = false)) →
      ∃ rest, v.rest = ((lexeme env v.abut g cs).piece env v g cs).text ++ rest ∧
        VPieceAt env v ((lexeme env v.abut g cs).piece env v g cs) rest := by
    intro t c hk hch hop hm hs hparen
    rw [hk]
    refine ⟨cs, hr, ⟨⟨by simp, hloc _ _ _ _, .inl ?_⟩, nofun, ?_, ?_, ?_⟩⟩
    · obtain ⟨ch, rfl⟩ := hch
      exact ⟨hop, by simp, rfl, rfl, hm, hs⟩
    · rintro _ _ ⟨rfl, rfl⟩ e; simp only at e; rw [e] at hop; simp [operator] at hop
    · rintro _ _ ⟨rfl, rfl⟩ e; exact hparen.1 e
    · rintro _ _ ⟨rfl, rfl⟩ e; exact hparen.2 e
  cases hp : punct g with
  | some tc =>
    obtain ⟨t, c⟩ := tc
    obtain ⟨hch, hop, hcont, hn, hg⟩ := punct_spec hp
    refine tokStep t c (by simp [lexeme, hp]) hch hop ?_ ?_ ?_
    · intro hm; simp at hn hm; rcases hm with rfl | rfl | rfl | rfl <;> simp at hn
    · rintro rfl; simp at hn
    · constructor <;> (rintro rfl; simp [operator] at hop; subst hop; simp [punct] at hp)
  | none =>
  cases hq : eqPunct g with
  | some tc =>
    obtain ⟨tEq, t, c⟩ := tc
    obtain ⟨⟨ch, hch⟩, hop, hop', hcont, hcont', hn, hs, hg⟩ := eqPunct_spec hq
    by_cases hh : cs.head? = some ['=']
    · have hk : lexeme env v.abut g cs = .two tEq ['='] c := by simp [lexeme, hp, hq, hh]
      rw [hk]
      obtain ⟨cs', rfl⟩ : ∃ cs', cs = ['='] :: cs' := by cases cs <;> simp_all
      have hop2 : ∀ ty, operator ty = some (g ++ ['=']) →
          ty ≠ .terminator ∧ ty ≠ .leftParenAbutting ∧ ty ≠ .leftParen := by
        subst hch
        intro ty hty
        cases ty <;> simp [operator] at hty <;> simp
      have ho := hop2 _ hop
      refine ⟨cs', hr, ⟨⟨by simp, hloc _ _ _ _, .inl ?_⟩, nofun, ?_, ?_, ?_⟩⟩
      · subst hch
        refine ⟨hop, by simp, rfl, rfl, ?_, ?_⟩
        · intro hm; simp at hn hm; rcases hm with rfl | rfl | rfl | rfl <;> simp at hn
        · rintro rfl; simp at hn
      · rintro _ _ ⟨rfl, rfl⟩ e; exact absurd e ho.1
      · rintro _ _ ⟨rfl, rfl⟩ e; exact absurd e ho.2.1
      · rintro _ _ ⟨rfl, rfl⟩ e; exact absurd e ho.2.2
    · refine tokStep t c (by simp [lexeme, hp, hq, hh]) ⟨ch, hch⟩ hop' (fun _ => hh)
        (fun e => absurd e hs) ?_
      constructor <;> (rintro rfl; simp [operator] at hop'; subst hop'; simp [eqPunct] at hq)
  | none =>
  have hop : g ≠ ['('] → g ≠ ['/'] → ∀ t c, operator t = some [c] → g ≠ [c] := by
    intro h1 h2 t c ht e
    rw [← e] at ht
    cases t <;> simp only [operator, Option.some.injEq, reduceCtorEq] at ht <;> subst ht <;>
      first | exact h1 rfl | exact h2 rfl | (simp [punct] at hp; done) | (simp [eqPunct] at hq; done) |
        (simp at e; done)
  by_cases h1 : g = ['(']
  · refine tokStep (if v.abut then .leftParenAbutting else .leftParen) true
      (by simp [lexeme, h1, punct, eqPunct]) ⟨_, h1⟩ ?_ ?_ ?_ ?_ <;>
      cases v.abut <;> simp [operator, h1]
  by_cases h2 : g = ['/']
  · subst h2
    by_cases hh : cs.head? = some ['/']
    · have hk : lexeme env v.abut ['/'] cs =
          .comment (['/'] :: cs.tail.takeWhile (fun g => !(g == ['\n']))) := by
        simp [lexeme, hp, hq, hh]
      obtain ⟨cs', rfl⟩ : ∃ cs', cs = ['/'] :: cs' := by cases cs <;> simp_all
      rw [hk]
      refine ⟨cs'.dropWhile (fun g => !(g == ['\n'])), ?_, ⟨⟨?_, ?_⟩, nofun, nofun, nofun, nofun⟩⟩
      · rw [hr]; simp [Kind.piece, Piece.text, List.takeWhile_append_dropWhile]
      · intro hm
        have := takeWhile_all _ _ _ hm
        simp at this
      · cases hd : cs'.dropWhile (fun g => !(g == ['\n'])) with
        | nil => left; rfl
        | cons a r =>
          right
          have := dropWhile_head _ _ a (by rw [hd]; rfl)
          simpa using this
    · exact tokStep .slash true (by simp [lexeme, hp, hq, hh]) ⟨_, rfl⟩ rfl (by simp)
        (fun _ => hh) (by simp)
  have hop := hop h1 h2
  by_cases h3 : g = ['\\']
  · subst h3
    have hk : lexeme env v.abut ['\\'] cs = .backslash (backslashTaken cs).1 (backslashTaken cs).2 := by
      simp [lexeme, hp, hq]
    rw [hk]
    generalize hn : (cs.takeWhile (· == [' '])).length = n
    have hsp : cs.takeWhile (· == [' ']) = List.replicate n [' '] := by
      rw [← hn]
      apply List.eq_replicate_of_mem
      intro b hb
      simpa using takeWhile_all _ _ b hb
    have hd := dropWhile_head (· == [' ']) cs
    have hcs := List.takeWhile_append_dropWhile (p := (· == [' '])) (l := cs)
    rw [hsp] at hcs
    generalize cs.dropWhile (· == [' ']) = r at hd hcs
    subst hcs
    obtain ⟨cr, rest, rfl, hcr⟩ : ∃ cr rest, r = cr ++ rest ∧
        (cr = [] ∧ rest.head? ≠ some [' '] ∧ rest.head? ≠ some ['\r'] ∨ cr = [['\r']]) := by
      by_cases hh : r.head? = some ['\r']
      · obtain ⟨r', rfl⟩ : ∃ r', r = ['\r'] :: r' := by cases r <;> simp_all
        exact ⟨[['\r']], r', rfl, .inr rfl⟩
      · refine ⟨[], r, rfl, .inl ⟨rfl, fun e => ?_, hh⟩⟩
        have := hd _ e
        simp at this
    rw [backslashTaken_exact hcr]
    split
    · next hnl =>
      obtain ⟨rest', rfl⟩ : ∃ r', rest = ['\n'] :: r' := by cases rest <;> simp_all
      refine ⟨rest', ?_, ⟨?_, ?_, ?_, ?_, ?_⟩⟩
      · rw [hr]; simp [Kind.piece, Piece.text]
      · simp only [Kind.piece, if_true, PieceOK, List.dropLast_concat]
        refine ⟨n, ?_⟩
        rcases hcr with ⟨rfl, -⟩ | rfl
        · simp
        · simp
      all_goals simp [Kind.piece]
    · next hnl =>
      refine ⟨rest, ?_, ⟨?_, ?_, ?_, ?_, ?_⟩⟩
      · rw [hr]; simp [Kind.piece, Piece.text]
      · simp only [Kind.piece, Bool.false_eq_true, if_false, Cause.new, hl, hc]
        exact .backslash n cr hcr hnl
      all_goals simp [Kind.piece]
  by_cases h4 : g = ['\t']
  · subst h4
    have hk : lexeme env v.abut ['\t'] cs = .tab := by simp [lexeme, hp, hq]
    rw [hk]
    refine ⟨cs, hr, ⟨?_, nofun, nofun, nofun, nofun⟩⟩
    have h2 := columnAfter_snoc v.pre ['\t']
    rw [if_neg (by decide)] at h2
    simp only [Kind.piece, Cause.new, hl, hc, ← h2]
    exact .tab
  by_cases h5 : g = [' ']
  · subst h5
    have hk : lexeme env v.abut [' '] cs = .space := by simp [lexeme, hp, hq]
    rw [hk]
    exact ⟨cs, hr, ⟨.inl rfl, by simp [Kind.piece], nofun, nofun, nofun⟩⟩
  by_cases h6 : g = ['\r']
  · subst h6
    have hk : lexeme env v.abut ['\r'] cs = .cr := by simp [lexeme, hp, hq]
    rw [hk]
    exact ⟨cs, hr, ⟨.inr (.inl rfl), by simp [Kind.piece], nofun, nofun, nofun⟩⟩
  by_cases h7 : g = ['\n']
  · subst h7
    have hk : lexeme env v.abut ['\n'] cs = .newline := by simp [lexeme, hp, hq]
    rw [hk]
    cases hlo : v.loud with
    | true =>
      refine ⟨cs, by simp [hr, Kind.piece, hlo, Piece.text], ?_⟩
      simp only [Kind.piece, hlo, if_true]
      exact ⟨⟨by simp, hpos, .inr (.inr (.inr (.inr ⟨rfl, rfl, rfl, rfl⟩)))⟩, nofun,
        fun _ _ _ _ => hlo, by simp, by simp⟩
    | false =>
      refine ⟨cs, by simp [hr, Kind.piece, hlo, Piece.text], ?_⟩
      simp only [Kind.piece, hlo, Bool.false_eq_true, if_false]
      exact ⟨.inr (.inr rfl), fun _ => hlo, nofun, nofun, nofun⟩
  by_cases h8 : g = ['"']
  · subst h8
    cases hh : cs.any (· == ['"']) with
    | true =>
      have hk : lexeme env v.abut ['"'] cs = .str (cs.takeWhile (fun g => !(g == ['"']))) := by
        simp only [lexeme, hp, hq]; simp [hh]
      rw [hk]
      obtain ⟨r, hcs⟩ := dropWhile_quote cs hh
      refine ⟨r, by rw [hr]; conv => lhs; rw [hcs]
                    simp [Kind.piece, Piece.text],
        ⟨⟨rfl, hloc _ _ _ _, .inr (.inr (.inr (.inl ⟨rfl, ⟨_, rfl, ?_, rfl⟩, rfl⟩)))⟩, nofun, ?_, ?_, ?_⟩⟩
      · intro hm
        have := takeWhile_all _ _ _ hm
        simp at this
      all_goals rintro _ _ ⟨rfl, rfl⟩ e; cases e
    | false =>
      have hk : lexeme env v.abut ['"'] cs = .unterminated := by
        simp only [lexeme, hp, hq]; simp [hh]
      rw [hk]
      refine ⟨[], by rw [hr]; simp [Kind.piece, Piece.text], ⟨?_, nofun, nofun, nofun, nofun⟩⟩
      have h4 := columnAfter_snoc v.pre ['"']
      have h5 := lineAfter_snoc v.pre ['"']
      rw [if_neg (by decide)] at h4 h5
      have h6 := posThrough_after (v.pre ++ [['"']]) cs
      rw [h4, h5, ← hl, ← hc] at h6
      have h8 := column_last (v.pre ++ [['"']] ++ cs)
      simp only [List.append_assoc, List.singleton_append] at h6 h8
      simp only [Kind.piece, Cause.new, h6, h8]
      refine .unterminated cs (fun hm => ?_) rfl
      have : cs.any (· == ['"']) = true := List.any_eq_true.mpr ⟨_, hm, by simp⟩
      rw [hh] at this
      cases this
  have hpl : g ∉ [[' '], ['\t'], ['\r'], ['\n'], ['\\'], ['"']] := by simp [h3, h4, h5, h6, h7, h8]
  have hlx := lexeme_plain (env := env) (abut := v.abut) (cs := cs) hop hpl
  by_cases h9 : isDigit g = true
  · rw [if_pos h9] at hlx
    have hpn := hN _ hlx
    rw [hlx]
    have hwhole : ∀ x ∈ g :: cs.takeWhile isDigit, Digit x := by
      intro x hx
      rw [← isDigit_iff]
      rcases List.mem_cons.mp hx with rfl | hx
      · exact h9
      · exact takeWhile_all _ _ x hx
    have hshape := fraction_spec (cs.dropWhile isDigit)
    obtain ⟨rest, hrest⟩ := fraction_prefix (cs.dropWhile isDigit)
    have hwr : rest = (cs.dropWhile isDigit).drop (fraction (cs.dropWhile isDigit)).length := by
      have := congrArg (List.drop (fraction (cs.dropWhile isDigit)).length) hrest
      simpa using this.symm
    refine ⟨rest, ?_, ⟨⟨rfl, hloc _ _ _ _, .inr (.inr (.inl ⟨rfl, ?_, ?_, rfl, hpn, rfl⟩))⟩, nofun, ?_, ?_, ?_⟩⟩
    · rw [hr]
      conv => lhs; rw [← List.takeWhile_append_dropWhile (p := isDigit) (l := cs), hrest]
      simp [Kind.piece, Piece.text]
    · rcases hshape with ⟨e, hf⟩ | ⟨frac, e, hf, hd, -⟩
      · refine ⟨g :: cs.takeWhile isDigit, [], by simp, hwhole, by simp, .inl ⟨by simp [e], rfl, ?_⟩⟩
        rw [hwr, e]; exact hf
      · exact ⟨g :: cs.takeWhile isDigit, frac, by simp, hwhole, hd, .inr ⟨by simp [e], hf⟩⟩
    · rw [hwr]
      intro x hx
      rcases hshape with ⟨e, -⟩ | ⟨frac, -, -, -, hlast⟩
      · rw [e] at hx
        have := dropWhile_head isDigit cs x hx
        rw [← isDigit_iff]; simp [this]
      · exact hlast x hx
    all_goals rintro _ _ ⟨rfl, rfl⟩ e; cases e
  rw [if_neg h9] at hlx
  by_cases h10 : isAlpha env g = true
  · rw [if_pos h10] at hlx
    rw [hlx]
    have hkp := keywordType_proper (g :: cs.takeWhile (isAlnum env)).flatten
    refine ⟨cs.dropWhile (isAlnum env), ?_, ⟨⟨rfl, hloc _ _ _ _, .inr (.inl
        ⟨⟨g, _, rfl, (isAlpha_iff env hgne).mp h10, ?_⟩, ?_, keywordType_spec _, rfl, rfl⟩)⟩, nofun, ?_, ?_, ?_⟩⟩
    · rw [hr]; simp [Kind.piece, Piece.text, List.takeWhile_append_dropWhile]
    · intro x hx
      exact (isAlnum_iff env (hne x (by rw [hr]; exact List.mem_cons_of_mem _ (takeWhile_subset _ _ _ hx)))).mp
        (takeWhile_all _ _ x hx)
    · intro x hx
      have := dropWhile_head _ cs x hx
      have hx' : x ∈ cs := by
        have := List.mem_of_mem_head? hx
        exact (List.dropWhile_subset _) this
      rw [← isAlnum_iff env (hne x (by rw [hr]; exact List.mem_cons_of_mem _ hx'))]
      simp [this]
    · rintro _ _ ⟨rfl, rfl⟩ e; rw [show keywordType _ = .terminator from e] at hkp; simp at hkp
    · rintro _ _ ⟨rfl, rfl⟩ e; exact absurd e hkp.2.2.1
    · rintro _ _ ⟨rfl, rfl⟩ e; exact absurd e hkp.2.2.2
  · rw [if_neg h10] at hlx
    rw [hlx]
    refine ⟨cs, by rw [hr]; rfl, ⟨?_, nofun, nofun, nofun, nofun⟩⟩
    have h2 := columnAfter_snoc v.pre g
    rw [if_neg h7] at h2
    simp only [Kind.piece, Cause.new, hl, hc, ← h2]
    exact .unexpected g ⟨hpl, fun e => h9 ((isDigit_iff g).mpr e),
      fun e => h10 ((isAlpha_iff env hgne).mpr e), hop⟩

end Ws
