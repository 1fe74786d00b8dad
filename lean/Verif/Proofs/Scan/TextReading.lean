import Verif.Proofs.Parse.TextTokens
import Verif.Proofs.Scan.Respell
/-! The text of tokens on lines has a reading with those tokens. -/
namespace Ws.Writing
open Spec

variable {env : Env} {num : F64 → Str}

/-! ### A token -/

/-- Nothing is renamed. -/
def same : Relabelling := ⟨id, id, id, id⟩

/-- What comes after a token: nothing, a space, a newline, or a parenthesis. -/
def RestOK (rest : List Str) : Prop := ∀ g, rest.head? = some g → g = [' '] ∨ g = ['\n'] ∨ g = ['(']

theorem RestOK.noPart (hA : AsciiLaws env) {rest : List Str} (h : RestOK rest) : ∀ g, rest.head? = some g → ¬ WordPart env g := by
  intro g hg ⟨c, r, e, hc⟩
  rcases h g hg with rfl | rfl | rfl <;> cases e <;> rw [hA.alphanumeric _ (by decide)] at hc <;> revert hc <;> decide

theorem RestOK.noDigit {rest : List Str} (h : RestOK rest) : ∀ g, rest.head? = some g → ¬ Digit g := by
  intro g hg
  rcases h g hg with rfl | rfl | rfl <;> decide

theorem RestOK.ne {rest : List Str} (h : RestOK rest) {c : Char} (hc : c ∉ [' ', '\n', '(']) : rest.head? ≠ some [c] := by
  intro hg
  rcases h _ hg with e | e | e <;> cases e <;> simp at hc

theorem flatten_chars (s : Str) : (s.map ([·])).flatten = s := by
  induction s with
  | nil => rfl
  | cons c s ih => simp [ih]

theorem digit_char {c : Char} (h : '0' ≤ c ∧ c ≤ '9') : Digit [c] := by
  have h1 : 48 ≤ c.toNat := h.1
  have h2 : c.toNat ≤ 57 := h.2
  have h3 : c = Char.ofNat c.toNat := (Char.ofNat_toNat c).symm
  generalize c.toNat = n at h1 h2 h3
  subst h3
  have : n = 48 ∨ n = 49 ∨ n = 50 ∨ n = 51 ∨ n = 52 ∨ n = 53 ∨ n = 54 ∨ n = 55 ∨ n = 56 ∨ n = 57 := by omega
  rcases this with rfl | rfl | rfl | rfl | rfl | rfl | rfl | rfl | rfl | rfl <;> decide

theorem letters_word (hA : AsciiLaws env) {s : Str} (hs : s ≠ []) (h : s.all (fun c => decide (c.toNat < 128) && c.isAlpha) = true) :
    ∃ g r, s.map ([·]) = g :: r ∧ WordStart env g ∧ ∀ h ∈ r, WordPart env h := by
  rw [List.all_eq_true] at h
  cases s with
  | nil => exact absurd rfl hs
  | cons c s =>
    have key : ∀ x ∈ c :: s, x.toNat < 128 ∧ x.isAlpha = true := fun x hx => by simpa using h x hx
    refine ⟨[c], s.map ([·]), rfl, ⟨c, [], rfl, .inl ?_⟩, fun g hg => ?_⟩
    · rw [hA.alphabetic c (key c (by simp)).1]; exact (key c (by simp)).2
    · obtain ⟨x, hx, rfl⟩ := List.mem_map.1 hg
      refine ⟨x, [], rfl, .inl ?_⟩
      rw [hA.alphanumeric x (key x (by simp [hx])).1]
      simp [Char.isAlphanum, (key x (by simp [hx])).2]

theorem tokLike_same {t t' : Token} (h1 : t'.tokenType = t.tokenType) (h2 : t.tokenType = .identifier ∨ t.tokenType = .this → t'.lexeme = t.lexeme)
    (h3 : t.tokenType = .string → t'.stringLiteral = t.stringLiteral) (h4 : t.tokenType = .number → t'.floatLiteral = t.floatLiteral) :
    TokLike same t t' :=
  ⟨h1, rfl, rfl, fun h => h2 (.inl h), fun h => h2 (.inr h), fun h => by simpa [moveToken, same] using h3 h,
    fun h => by simpa [moveToken, same] using h4 h⟩

/-- A token of a line, spelled. -/
theorem token_piece (hE : EnvLaws env) {t : Token} (hw : Written t) (hs : Spellable env num t)
    (ho : Ordinary t.tokenType ∨ t.tokenType = .leftParenAbutting) (before : List Str) {rest : List Str} (hr : RestOK rest) :
    ∃ t', PieceOK env before (.token t' (spell env num t)) rest ∧ TokLike same t t' ∧ t'.tokenType = t.tokenType ∧
      spell env num t ≠ [] ∧ (t.tokenType = .leftParenAbutting → spell env num t = [['(']]) := by
  have hA := hE.toAsciiLaws
  cases hw with
  | fixed h =>
    rename_i tt s loc
    rcases h with h | h
    · have hl : spell env num (tok tt s loc) = s.map ([·]) := by
        cases tt <;> first | rfl | (simp [operator] at h)
      refine ⟨⟨tt, s, none, none, lineAfter before, columnAfter before⟩, ?_, ?_, rfl, ?_, ?_⟩
      · rw [hl]
        refine ⟨(flatten_chars s).symm, ⟨rfl, rfl⟩, .inl ⟨h, rfl, rfl, rfl, fun _ => hr.ne (by decide), fun _ => hr.ne (by decide)⟩⟩
      · exact tokLike_same rfl (fun _ => rfl) (fun h' => absurd h (by simp only [tok] at h'; simp [h', operator]))
          (fun h' => absurd h (by simp only [tok] at h'; simp [h', operator]))
      · rw [hl]
        intro e
        rw [List.map_eq_nil_iff] at e
        subst e
        cases tt <;> simp [operator] at h
      · intro h'
        rw [hl]
        simp only [tok] at h'
        subst h'
        simp only [operator, Option.some.injEq] at h
        subst h
        rfl
    · have hl : spell env num (tok tt s loc) = s.map ([·]) := by
        cases tt <;> first | rfl | (simp [keyword] at h)
      have hword : s ≠ [] ∧ s.all (fun c => decide (c.toNat < 128) && c.isAlpha) = true := by
        cases tt <;> simp only [keyword, Option.some.injEq, reduceCtorEq] at h <;> subst h <;> decide
      refine ⟨⟨tt, s, none, none, lineAfter before, columnAfter before⟩, ?_, ?_, rfl, ?_, ?_⟩
      · rw [hl]
        refine ⟨(flatten_chars s).symm, ⟨rfl, rfl⟩, .inr (.inl ⟨letters_word hA hword.1 hword.2, hr.noPart hA, .inl h, rfl, rfl⟩)⟩
      · exact tokLike_same rfl (fun _ => rfl) (fun h' => absurd h (by simp only [tok] at h'; simp [h', keyword]))
          (fun h' => absurd h (by simp only [tok] at h'; simp [h', keyword]))
      · rw [hl]
        simpa using hword.1
      · intro h'
        simp only [tok] at h'
        subst h'
        simp [keyword] at h
  | name =>
    rename_i s loc
    obtain ⟨⟨g, r, h1, h2, h3⟩, h4⟩ := hs.name rfl
    have hl : spell env num (name s loc) = env.segment s := rfl
    refine ⟨⟨.identifier, s, none, none, lineAfter before, columnAfter before⟩, ?_, ?_, rfl, ?_, by simp [name, tok]⟩
    · rw [hl]
      exact ⟨(hE.joined s).symm, ⟨rfl, rfl⟩, .inr (.inl ⟨⟨g, r, h1, h2, h3⟩, hr.noPart hA, .inr ⟨rfl, h4⟩, rfl, rfl⟩)⟩
    · exact tokLike_same rfl (fun _ => rfl) (by simp [name, tok]) (by simp [name, tok])
    · rw [hl]
      show env.segment s ≠ []
      have h1 : env.segment s = g :: r := h1
      rw [h1]; simp
  | string =>
    rename_i s
    have hq : ['"'] ∉ env.segment s := hs.string rfl s rfl
    have hl : spell env num (stringTok s) = ['"'] :: (env.segment s ++ [['"']]) := rfl
    refine ⟨⟨.string, (spell env num (stringTok s)).flatten, some s, none, lineAfter before, columnAfter before⟩, ?_, ?_, rfl, ?_, by simp [stringTok]⟩
    · exact ⟨rfl, ⟨rfl, rfl⟩, .inr (.inr (.inr (.inl ⟨rfl, ⟨env.segment s, hl, hq, by rw [hE.joined]⟩, rfl⟩)))⟩
    · exact tokLike_same rfl (by simp [stringTok]) (fun _ => rfl) (by simp [stringTok])
    · rw [hl]; simp
  | number =>
    rename_i x
    obtain ⟨⟨whole, frac, h1, h2, h3, h4⟩, h5⟩ := hs.number rfl x rfl
    have hl : spell env num (numberTok x) = (num x).map ([·]) := rfl
    have hd : ∀ {a : Str}, (∀ c ∈ a, '0' ≤ c ∧ c ≤ '9') → ∀ g ∈ a.map ([·]), Digit g := by
      intro a ha g hg
      obtain ⟨c, hc, rfl⟩ := List.mem_map.1 hg
      exact digit_char (ha c hc)
    refine ⟨⟨.number, num x, none, some x, lineAfter before, columnAfter before⟩, ?_, ?_, rfl, ?_, by simp [numberTok]⟩
    · rw [hl]
      refine ⟨(flatten_chars _).symm, ⟨rfl, rfl⟩, .inr (.inr (.inl ⟨rfl, ?_, hr.noDigit, h5.symm, by simp, rfl⟩))⟩
      rcases h4 with h4 | ⟨h4, h6⟩
      · refine ⟨whole.map ([·]), [], by simpa using h1, hd h2, by simp, .inl ⟨by rw [h4], rfl, ?_⟩⟩
        intro r e
        exact absurd (by rw [e]; rfl) (hr.ne (c := '.') (by decide))
      · exact ⟨whole.map ([·]), frac.map ([·]), by simpa using h1, hd h2, hd h3, .inr ⟨by rw [h4]; simp, by simpa using h6⟩⟩
    · exact tokLike_same rfl (by simp [numberTok]) (by simp [numberTok]) (fun _ => rfl)
    · rw [hl]
      rcases h4 with h4 | ⟨h4, -⟩ <;> rw [h4]
      · simpa using h1
      · simp
  | line => exact absurd ho (by simp [lineEnd, tok, Ordinary])
  | indent => exact absurd ho (by simp [tok, Ordinary])
  | outdent => exact absurd ho (by simp [tok, Ordinary])

/-! ### Lines -/

/-- The columns of the open blocks. -/
def lv : Nat → List Nat
  | 0 => []
  | n + 1 => 2 * (n + 1) :: lv n

theorem lv_head (n : Nat) : (lv n).head?.getD 0 = 2 * n := by cases n <;> rfl

theorem lv_add (d : Nat) : ∀ k, ∃ closed, lv (d + k) = closed ++ lv d ∧ closed.length = k ∧ ∀ l ∈ closed, 2 * d < l
  | 0 => ⟨[], rfl, rfl, by simp⟩
  | k + 1 => by
    obtain ⟨c, h1, h2, h3⟩ := lv_add d k
    refine ⟨2 * (d + k + 1) :: c, ?_, by simp [h2], ?_⟩
    · rw [show d + (k + 1) = d + k + 1 by omega, lv, h1]; rfl
    · intro l hl
      rcases List.mem_cons.1 hl with rfl | hl
      · omega
      · exact h3 l hl

/-- The next line has not begun. -/
def Fresh (ps : List Piece) : Prop :=
  ps = [] ∨ ∃ a t l, ps = a ++ [.token t l] ∧ t.tokenType = .terminator ∧ LineBegun a

/-- There are `n` spaces on the line so far. -/
structure AtMargin (n : Nat) (ps : List Piece) : Prop where
  spaces : spacesOf ps = n
  begun : ¬ LineBegun ps
  joined : ¬ Joined ps
  loose : ∀ q, lastVisible ps = some q → ¬ Solid q

theorem Fresh.margin {ps : List Piece} (h : Fresh ps) : AtMargin 0 ps := by
  rcases h with rfl | ⟨a, t, l, rfl, ht, hb⟩
  · refine ⟨rfl, ?_, ?_, ?_⟩
    · rintro ⟨p, hp, -⟩; simp [thisLine] at hp
    · rintro ⟨a, p, b, h, -⟩; simp at h
    · simp [lastVisible]
  · refine ⟨?_, ?_, ?_, ?_⟩
    · rw [spaces_snoc]; simp [Piece.endsLine, ht]
    · rw [begun_snoc]; simp [Piece.endsLine, ht]
    · rw [joined_snoc]
      have := begun_not_joined hb
      simp [Piece.isContinuation, this]
    · intro q hq
      rw [lastVisible_snoc _ _ (by simp)] at hq
      cases hq
      simp [Solid, ht]

theorem AtMargin.space {n : Nat} {ps : List Piece} (h : AtMargin n ps) (hn : n < u16Max) : AtMargin (n + 1) (ps ++ [.blank [' ']]) := by
  refine ⟨?_, ?_, ?_, ?_⟩
  · rw [spaces_snoc]
    simp only [Piece.endsLine, Piece.isSpace, h.spaces]
    simp [satInc16]
    omega
  · rw [begun_snoc]; simp [Piece.endsLine, Piece.begins, h.begun]
  · rw [joined_snoc]; simp [Piece.isContinuation, h.joined]
  · intro q hq
    rw [lastVisible_snoc _ _ (by simp)] at hq
    cases hq
    simp [Solid]

theorem blank_step {done : List Spec.Step} {rest : List Str} (h : Reading env done ([' '] :: rest)) :
    Reading env (done ++ [⟨[], [], .blank [' ']⟩]) rest := by
  refine reading_snoc.2 ⟨h, ⟨⟨.inl rfl, by simp, by simp, by simp, by simp⟩, fun h => ?_, fun _ => ⟨rfl, rfl⟩⟩⟩
  exact absurd h.1 (by simp [Piece.begins])

/-- The spaces at the beginning of a line. -/
theorem margin_steps {done : List Spec.Step} {rest : List Str} (hd : Fresh (pieces done)) : ∀ n, n ≤ u16Max →
    Reading env done (List.replicate n [' '] ++ rest) →
    ∃ bs, Reading env (done ++ bs) rest ∧ AtMargin n (pieces (done ++ bs)) ∧ textOf bs = List.replicate n [' '] ∧ tokensOf bs = [] ∧
      causesOf bs = [] ∧ levels (done ++ bs) = levels done := by
  intro n
  induction n generalizing rest with
  | zero => exact fun _ h => ⟨[], by simpa using h, by simpa using hd.margin, rfl, rfl, rfl, by simp⟩
  | succ n ih =>
    intro hn h
    rw [List.replicate_succ', List.append_assoc] at h
    obtain ⟨bs, h1, h2, h3, h4, h5, h6⟩ := ih (by omega) h
    refine ⟨bs ++ [⟨[], [], .blank [' ']⟩], ?_, ?_, ?_, ?_, ?_, ?_⟩
    · rw [← List.append_assoc]; exact blank_step h1
    · rw [← List.append_assoc, steps_snoc]; exact h2.space (by omega)
    · rw [textOf_snoc, h3, List.replicate_succ']; rfl
    · simp [tokensOf, Step.toks, Piece.tok] at h4 ⊢; exact h4
    · simp [causesOf, Step.causes, Piece.causes] at h5 ⊢; exact h5
    · rw [← List.append_assoc, levels_snoc]; simpa using h6

/-! ### The reading -/

/-- The open blocks that are on the stack of the scanner. -/
def Spot.blocks (d : Nat) : Spot → Nat
  | .opened => d - 1
  | .closed k => d + k
  | _ => d

/-- A line begins. -/
def Spot.fresh : Spot → Bool
  | .mid _ => false
  | _ => true

/-- The layout tokens that come before the next token. -/
def Pending : Spot → List Token → Prop
  | .opened, ts => ∃ t, ts = [t] ∧ t.tokenType = .indent
  | .closed k, ts => ts.length = k ∧ ∀ t ∈ ts, t.tokenType = .outdent
  | _, ts => ts = []

/-- What is known at a spot. -/
structure AtSpot (p : Spot) (d : Nat) (done : List Spec.Step) : Prop where
  levels : levels done = lv (p.blocks d)
  fresh : p.fresh = true → Fresh (pieces done)
  mid : ∀ k, p = .mid k → k ≠ .terminator ∧ ∃ a t l, pieces done = a ++ [.token t l] ∧ t.tokenType = k
  opened : p = .opened → 0 < d
  closed : ∀ k, p = .closed k → 0 < k

theorem layout_rest (k : TokenType) {d ts q e} (h : Lay (.mid k) d ts q e) (hw : AllWr ts) : RestOK (layout env num d false ts) := by
  cases h with
  | nil => intro g hg; simp [layout] at hg
  | terminator h1 _ _ =>
    intro g hg
    rw [layout, h1] at hg
    simp at hg
    exact .inr (.inl hg.symm)
  | attached h1 _ =>
    rename_i t ts _
    intro g hg
    have hs : t.lexeme = c!"(" := by
      have := hw t (by simp)
      cases this with
      | fixed h =>
        simp only [tok] at h1 ⊢
        subst h1
        rcases h with h | h <;> simp only [operator, keyword, Option.some.injEq, reduceCtorEq] at h
        exact h.symm
      | _ => simp [name, tok, stringTok, numberTok, lineEnd] at h1
    rw [layout, h1] at hg
    simp [spell, h1, hs] at hg
    exact .inr (.inr hg.symm)
  | token h1 _ =>
    rename_i t ts _
    intro g hg
    unfold layout at hg
    split at hg <;> first
      | (exfalso; rename_i h; simp [Ordinary, h] at h1; done)
      | skip
    have : ¬ t.tokenType = .leftParenAbutting := by intro h; simp [Ordinary, h] at h1
    simp [this] at hg
    exact .inl hg.symm

/-- What the reading of the rest of the text gives. -/
def Reads (env : Env) (num : F64 → Str) (d : Nat) (p : Spot) (done : List Spec.Step) (orig ts : List Token) (q : Spot) (e : Nat) : Prop :=
  ∃ steps o₁ o₂, Reading env steps [] ∧ textOf steps = textOf done ++ layout env num d p.fresh ts ∧ causesOf steps = [] ∧
    orig ++ ts = o₁ ++ o₂ ∧ Each (TokLike same) o₁ (tokensOf steps) ∧ Pending q o₂ ∧ AtSpot q e steps

/-- The blocks that are open, for each part of the tokens, fit. -/
def Shallow (d : Nat) (ts : List Token) : Prop :=
  ∀ a b, ts = a ++ b → d + a.countP (·.tokenType == .indent) - a.countP (·.tokenType == .outdent) ≤ 32767

theorem Shallow.tail {d : Nat} {t : Token} {ts : List Token} (h : Shallow d (t :: ts)) {d' : Nat}
    (h' : d' + (if t.tokenType = .outdent then 1 else 0) = d + if t.tokenType = .indent then 1 else 0) : Shallow d' ts := by
  intro a b e
  have := h (t :: a) b (by rw [e]; rfl)
  simp only [List.countP_cons, beq_iff_eq] at this
  omega

theorem layout_indent {d : Nat} {f : Bool} {t : Token} {ts : List Token} (h : t.tokenType = .indent) :
    layout env num d f (t :: ts) = layout env num (d + 1) f ts := by rw [layout, h]
theorem layout_outdent {d : Nat} {f : Bool} {t : Token} {ts : List Token} (h : t.tokenType = .outdent) :
    layout env num d f (t :: ts) = layout env num (d - 1) f ts := by rw [layout, h]
theorem layout_terminator {d : Nat} {f : Bool} {t : Token} {ts : List Token} (h : t.tokenType = .terminator) :
    layout env num d f (t :: ts) = ['\n'] :: layout env num d true ts := by rw [layout, h]
theorem layout_token {d : Nat} {f : Bool} {t : Token} {ts : List Token}
    (h : t.tokenType ≠ .indent ∧ t.tokenType ≠ .outdent ∧ t.tokenType ≠ .terminator) :
    layout env num d f (t :: ts) =
      (if f then List.replicate (2 * d) [' '] else if t.tokenType = .leftParenAbutting then [] else [[' ']]) ++
        (spell env num t ++ layout env num d false ts) := by
  conv => lhs; unfold layout
  split <;> first | (rename_i h'; simp [h'] at h; done) | rfl

/-- After a token. -/
theorem atSpot_mid {d : Nat} {done : List Spec.Step} {ly : List Token} {t : Token} {l : List Str}
    (hl : levels (done ++ [⟨ly, [], .token t l⟩]) = lv d) (ht : t.tokenType ≠ .terminator) :
    AtSpot (.mid t.tokenType) d (done ++ [⟨ly, [], .token t l⟩]) := by
  refine ⟨hl, by simp [Spot.fresh], ?_, by simp, by simp⟩
  intro k hk
  cases hk
  exact ⟨ht, pieces done, t, l, steps_snoc _ _, rfl⟩

theorem begun_of_mid {done : List Spec.Step} {a : List Piece} {t : Token} {l : List Str} (h : pieces done = a ++ [.token t l])
    (ht : t.tokenType ≠ .terminator) : LineBegun (pieces done) ∧ Content (pieces done) := by
  rw [h, begun_snoc, content_snoc]
  simp [Piece.endsLine, Piece.begins, Piece.isComment, ht]

/-- The step of an ordinary token at the beginning of a line. -/
theorem fresh_token {p : Spot} {d : Nat} {done : List Spec.Step} {o : List Token} {t : Token} {l rest : List Str}
    (hs : AtSpot p d done) (hf : p.fresh = true) (hd : d ≤ 32767) (hp : Pending p o) (ht : Ordinary t.tokenType) (hl : l ≠ [])
    (hr : Reading env done (List.replicate (2 * d) [' '] ++ (l ++ rest)))
    (hk : ∀ before, before = textOf done ++ List.replicate (2 * d) [' '] → PieceOK env before (.token t l) rest) :
    ∃ steps, Reading env (done ++ steps) rest ∧ textOf steps = List.replicate (2 * d) [' '] ++ l ∧ causesOf steps = [] ∧
      (∃ o', tokensOf steps = o' ++ [t] ∧ Each (TokLike same) o o') ∧ AtSpot (.mid t.tokenType) d (done ++ steps) := by
  obtain ⟨bs, h1, h2, h3, h4, h5, h6⟩ := margin_steps (hs.fresh hf) (2 * d) (by unfold u16Max; omega) hr
  have hterm : t.tokenType ≠ .terminator := by intro h; simp [Ordinary, h] at ht
  have habut : t.tokenType ≠ .leftParenAbutting := by intro h; simp [Ordinary, h] at ht
  have hat : PieceAt env (pieces (done ++ bs)) (.token t l) rest := by
    refine ⟨hk _ ?_, by simp, ?_, ?_, ?_⟩
    · rw [← h3, ← textOf_append]; rfl
    · intro t' l' e h'; cases e; exact absurd h' hterm
    · intro t' l' e h'; cases e; exact absurd h' habut
    · intro t' l' e h' q hq; exact h2.loose q hq
  have hfirst : Spec.First (pieces (done ++ bs)) (.token t l) := ⟨by simp [Piece.begins, hterm], h2.begun⟩
  obtain ⟨g, r, rfl⟩ := List.exists_cons_of_ne_nil hl
  -- the layout tokens
  have hm : ∃ ly, Margin (lineAfter (textOf (done ++ bs))) (columnAfter (textOf (done ++ bs))) g (spacesOf (pieces (done ++ bs)))
      (Joined (pieces (done ++ bs))) (levels (done ++ bs)) ly [] ∧ Each (TokLike same) o ly ∧
      levels (done ++ bs ++ [⟨ly, [], .token t (g :: r)⟩]) = lv d := by
    rw [h2.spaces, h6, hs.levels]
    cases p with
    | mid k => simp [Spot.fresh] at hf
    | start =>
      have ho : o = [] := hp
      subst ho
      refine ⟨[], .same _ (lv_head _).symm, .nil, ?_⟩
      rw [levels_snoc, h6, hs.levels]; rfl
    | opened =>
      obtain ⟨x, rfl, hx⟩ := hp
      have hpos := hs.opened rfl
      obtain ⟨d, rfl⟩ : ∃ d', d = d' + 1 := ⟨d - 1, by omega⟩
      refine ⟨_, .indent _ ?_ h2.joined, .cons ?_ .nil, ?_⟩
      · rw [lv_head]; simp [Spot.blocks]
      · exact tokLike_same hx.symm (by simp [hx]) (by simp [hx]) (by simp [hx])
      · rw [levels_snoc, h6, hs.levels, h2.spaces]
        simp [Spot.blocks, lv]
    | closed k =>
      obtain ⟨hlen, hx⟩ := hp
      have hpos := hs.closed k rfl
      obtain ⟨c, hc1, hc2, hc3⟩ := lv_add d k
      have hb : Spot.blocks d (.closed k) = d + k := rfl
      rw [hb, hc1]
      refine ⟨_, .outdent c (lv d) (by intro e; subst e; simp at hc2; omega) hc3 (lv_head d), ?_, ?_⟩
      · rw [hc2, ← hlen]
        clear hlen hc2 hc1 hb hs
        induction o with
        | nil => exact .nil
        | cons x o ih =>
          rw [List.length_cons, List.replicate_succ]
          have hx' := hx x (by simp)
          exact .cons (tokLike_same hx'.symm (by simp [hx']) (by simp [hx']) (by simp [hx'])) (ih fun t ht => hx t (by simp [ht]))
      · rw [levels_snoc, h6, hs.levels, hb, hc1]
        simp
  obtain ⟨ly, hm1, hm2, hm3⟩ := hm
  refine ⟨bs ++ [⟨ly, [], .token t (g :: r)⟩], ?_, ?_, ?_, ⟨ly, ?_, hm2⟩, ?_⟩
  · rw [← List.append_assoc]
    exact reading_snoc.2 ⟨h1, hat, fun _ => ⟨g, r, rfl, hm1⟩, fun h => absurd hfirst h⟩
  · rw [textOf_snoc, h3]; rfl
  · simp [causesOf, Step.causes, Piece.causes] at h5 ⊢; exact h5
  · simp [tokensOf, Step.toks, Piece.tok] at h4 ⊢; exact h4
  · rw [← List.append_assoc]
    exact atSpot_mid hm3 hterm

/-- The text of the tokens has a reading. -/
theorem layout_reads (hE : EnvLaws env) {p d ts q e} (h : Lay p d ts q e) : AllWr ts → (∀ t ∈ ts, Spellable env num t) → Shallow d ts →
    ∀ {done orig o₁ o₂}, AtSpot p d done → Reading env done (layout env num d p.fresh ts) → causesOf done = [] → orig = o₁ ++ o₂ →
    Each (TokLike same) o₁ (tokensOf done) → Pending p o₂ → Reads env num d p done orig ts q e := by
  induction h with
  | nil =>
    intro _ _ _ done orig o₁ o₂ hs hr hc ho h1 h2
    exact ⟨_, o₁, o₂, hr, by simp [layout], hc, by simp [ho], h1, h2, hs⟩
  | @indent d t ts q e h1 _ ih =>
    intro hw hsp hsh done orig o₁ o₂ hs hr hc ho h2 h3
    have h3 : o₂ = [] := h3
    subst h3
    obtain ⟨steps, x, y, g1, g2, g3, g4, g5⟩ := ih (wr_cons.1 hw).2 (fun t ht => hsp t (by simp [ht])) (hsh.tail (by simp [h1]))
      (done := done) (orig := orig ++ [t]) (o₁ := o₁) (o₂ := [t])
      ⟨hs.levels, fun _ => hs.fresh rfl, by simp, by simp, by simp⟩ (by rw [layout_indent h1] at hr; exact hr) hc (by simp [ho]) h2
      ⟨t, rfl, h1⟩
    exact ⟨steps, x, y, g1, by rw [g2, layout_indent h1]; rfl, g3, by simpa using g4, g5⟩
  | @outdent d t ts q e h1 _ ih =>
    intro hw hsp hsh done orig o₁ o₂ hs hr hc ho h2 h3
    have h3 : o₂ = [] := h3
    subst h3
    obtain ⟨steps, x, y, g1, g2, g3, g4, g5⟩ := ih (wr_cons.1 hw).2 (fun t ht => hsp t (by simp [ht])) (hsh.tail (by simp [h1]))
      (done := done) (orig := orig ++ [t]) (o₁ := o₁) (o₂ := [t])
      ⟨hs.levels, fun _ => hs.fresh rfl, by simp, by simp, by intro k hk; cases hk; omega⟩ (by rw [layout_outdent h1] at hr; exact hr) hc
      (by simp [ho]) h2 ⟨rfl, by simpa using h1⟩
    exact ⟨steps, x, y, g1, by rw [g2, layout_outdent h1]; rfl, g3, by simpa using g4, g5⟩
  | @outdents k d t ts q e h1 _ ih =>
    intro hw hsp hsh done orig o₁ o₂ hs hr hc ho h2 h3
    obtain ⟨h3, h4⟩ := h3
    obtain ⟨steps, x, y, g1, g2, g3, g4, g5⟩ := ih (wr_cons.1 hw).2 (fun t ht => hsp t (by simp [ht])) (hsh.tail (by simp [h1]))
      (done := done) (orig := orig ++ [t]) (o₁ := o₁) (o₂ := o₂ ++ [t])
      ⟨by rw [hs.levels]; simp only [Spot.blocks]; congr 1; omega, fun _ => hs.fresh rfl, by simp, by simp, by intro k hk; cases hk; omega⟩
      (by rw [layout_outdent h1] at hr; exact hr) hc (by simp [ho]) h2 ⟨by simp [h3], by
        intro x hx
        rcases List.mem_append.1 hx with hx | hx
        · exact h4 x hx
        · rw [List.mem_singleton.1 hx]; exact h1⟩
    exact ⟨steps, x, y, g1, by rw [g2, layout_outdent h1]; rfl, g3, by simpa using g4, g5⟩
  | @terminator k d t ts q e h1 hk _ ih =>
    intro hw hsp hsh done orig o₁ o₂ hs hr hc ho h2 h3
    have h3 : o₂ = [] := h3
    subst h3
    obtain ⟨hk', a, x, l, hx, hxk⟩ := hs.mid k rfl
    have hb := begun_of_mid hx (by rw [hxk]; exact hk')
    rw [layout_terminator h1] at hr
    let t' : Token := ⟨.terminator, ['\n'], none, none, lineAfter (textOf done), columnAfter (textOf done)⟩
    have hdone : StatementDone (pieces done) := by
      refine ⟨hb.2, ?_⟩
      rw [hx, endsContinuing_snoc (by simp)]
      simp [Piece.follow, hxk, hk]
    have hr' : Reading env (done ++ [⟨[], [], .token t' [['\n']]⟩]) (layout env num d true ts) := by
      refine reading_snoc.2 ⟨hr, ⟨⟨rfl, ⟨rfl, rfl⟩, .inr (.inr (.inr (.inr ⟨rfl, rfl, rfl, rfl⟩)))⟩, by simp, fun _ _ _ _ => hdone, ?_, ?_⟩,
        fun h => ?_, fun _ => ⟨rfl, rfl⟩⟩
      · intro _ _ e h'; cases e; simp [t'] at h'
      · intro _ _ e h'; cases e; simp [t'] at h'
      · exact absurd h.1 (by simp [Piece.begins, t'])
    obtain ⟨steps, x', y, g1, g2, g3, g4, g5⟩ := ih (wr_cons.1 hw).2 (fun t ht => hsp t (by simp [ht])) (hsh.tail (by simp [h1]))
      (done := done ++ [⟨[], [], .token t' [['\n']]⟩]) (orig := orig ++ [t]) (o₁ := o₁ ++ [t]) (o₂ := [])
      ⟨by rw [levels_snoc]; simpa [Spot.blocks] using hs.levels, fun _ => .inr ⟨pieces done, t', [['\n']], steps_snoc _ _, rfl, hb.1⟩,
        by simp, by simp, by simp⟩ hr' (by simpa [causesOf, Step.causes, Piece.causes] using hc) (by simp [ho])
      (by
        have : tokensOf (done ++ [⟨[], [], .token t' [['\n']]⟩]) = tokensOf done ++ [t'] := by simp [tokensOf, Step.toks, Piece.tok]
        rw [this]
        exact each_append h2 (.cons (tokLike_same h1.symm (by simp [h1]) (by simp [h1]) (by simp [h1])) .nil)) rfl
    refine ⟨steps, x', y, g1, ?_, g3, by simpa using g4, g5⟩
    rw [g2, textOf_snoc, layout_terminator h1]
    simp [Spot.fresh, Piece.text]
  | @attached k d t ts q e h1 hl ih =>
    intro hw hsp hsh done orig o₁ o₂ hs hr hc ho h2 h3
    have h3 : o₂ = [] := h3
    subst h3
    obtain ⟨hk', a, x, l, hx, hxk⟩ := hs.mid k rfl
    have hb := begun_of_mid hx (by rw [hxk]; exact hk')
    have hrest : RestOK (layout env num d false ts) := layout_rest _ hl (wr_cons.1 hw).2
    obtain ⟨t', p1, p2, p3, p4, p5⟩ := token_piece hE (wr_cons.1 hw).1 (hsp t (by simp)) (.inr h1) (textOf done) hrest
    have hly : layout env num d false (t :: ts) = spell env num t ++ layout env num d false ts := by
      rw [layout_token (by simp [h1])]; simp [h1]
    have hr' : Reading env (done ++ [⟨[], [], .token t' (spell env num t)⟩]) (layout env num d false ts) := by
      refine reading_snoc.2 ⟨?_, ⟨p1, by simp, ?_, ?_, ?_⟩, fun h => absurd hb.1 h.2, fun _ => ⟨rfl, rfl⟩⟩
      · show Reading env done (spell env num t ++ layout env num d false ts)
        rw [← hly]; exact hr
      · intro _ _ e h'; cases e; rw [p3, h1] at h'; cases h'
      · intro _ _ e h'
        exact ⟨_, by rw [hx, lastVisible_snoc _ _ (by simp)], by simp only [Solid, hxk]; exact hk'⟩
      · intro _ _ e h'; cases e; rw [p3, h1] at h'; cases h'
    obtain ⟨steps, x', y, g1, g2, g3, g4, g5⟩ := ih (wr_cons.1 hw).2 (fun t ht => hsp t (by simp [ht])) (hsh.tail (by simp [h1]))
      (done := done ++ [⟨[], [], .token t' (spell env num t)⟩]) (orig := orig ++ [t]) (o₁ := o₁ ++ [t]) (o₂ := [])
      (by
        rw [← p3]
        exact atSpot_mid (by rw [levels_snoc]; simpa [Spot.blocks] using hs.levels) (by rw [p3, h1]; decide))
      hr' (by simpa [causesOf, Step.causes, Piece.causes] using hc) (by simp [ho])
      (by
        have : tokensOf (done ++ [⟨[], [], .token t' (spell env num t)⟩]) = tokensOf done ++ [t'] := by simp [tokensOf, Step.toks, Piece.tok]
        rw [this]
        exact each_append h2 (.cons p2 .nil)) rfl
    refine ⟨steps, x', y, g1, ?_, g3, by simpa using g4, g5⟩
    rw [g2, textOf_snoc]
    simp only [Spot.fresh, Piece.text]
    rw [hly, List.append_assoc]
  | @token p d t ts q e h1 hl ih =>
    intro hw hsp hsh done orig o₁ o₂ hs hr hc ho h2 h3
    have hrest : RestOK (layout env num d false ts) := layout_rest _ hl (wr_cons.1 hw).2
    have hterm : t.tokenType ≠ .terminator := by intro h; simp [Ordinary, h] at h1
    have habut : t.tokenType ≠ .leftParenAbutting := by intro h; simp [Ordinary, h] at h1
    have hty : t.tokenType ≠ .indent ∧ t.tokenType ≠ .outdent ∧ t.tokenType ≠ .terminator :=
      ⟨by intro h; simp [Ordinary, h] at h1, by intro h; simp [Ordinary, h] at h1, hterm⟩
    have hd : d ≤ 32767 := by simpa using hsh [] (t :: ts) rfl
    -- the steps up to the token
    have key : ∃ new o' t', Reading env (done ++ new) (layout env num d false ts) ∧ textOf new ++ layout env num d false ts =
        layout env num d p.fresh (t :: ts) ∧ causesOf new = [] ∧ tokensOf new = o' ++ [t'] ∧ Each (TokLike same) o₂ o' ∧ TokLike same t t' ∧
        AtSpot (.mid t.tokenType) d (done ++ new) := by
      cases hf : p.fresh with
      | true =>
        rw [layout_token hty] at hr ⊢
        rw [hf] at hr
        simp only [if_true] at hr ⊢
        obtain ⟨t', p1, p2, p3, p4, p5⟩ := token_piece hE (wr_cons.1 hw).1 (hsp t (by simp)) (.inl h1)
          (textOf done ++ List.replicate (2 * d) [' ']) hrest
        obtain ⟨new, n1, n2, n3, ⟨o', n4, n5⟩, n6⟩ := fresh_token hs hf hd h3 (by rw [p3]; exact h1) p4 hr (by rintro _ rfl; exact p1)
        exact ⟨new, o', t', n1, by rw [n2]; simp, n3, n4, n5, p2, by rw [← p3]; exact n6⟩
      | false =>
        obtain ⟨k, rfl⟩ : ∃ k, p = .mid k := by cases p <;> simp [Spot.fresh] at hf; exact ⟨_, rfl⟩
        have h3 : o₂ = [] := h3
        subst h3
        obtain ⟨hk', a, x, l, hx, hxk⟩ := hs.mid k rfl
        have hb := begun_of_mid hx (by rw [hxk]; exact hk')
        rw [layout_token hty] at hr ⊢
        rw [hf] at hr
        simp only [habut, if_false, Bool.false_eq_true] at hr ⊢
        obtain ⟨t', p1, p2, p3, p4, p5⟩ := token_piece hE (wr_cons.1 hw).1 (hsp t (by simp)) (.inl h1)
          (textOf (done ++ [⟨[], [], .blank [' ']⟩])) hrest
        have hr1 : Reading env (done ++ [⟨[], [], .blank [' ']⟩]) (spell env num t ++ layout env num d false ts) := blank_step hr
        have hb' : LineBegun (pieces (done ++ [⟨[], [], .blank [' ']⟩])) := by
          rw [steps_snoc, begun_snoc]; exact ⟨rfl, .inl hb.1⟩
        have hr2 : Reading env (done ++ [⟨[], [], .blank [' ']⟩] ++ [⟨[], [], .token t' (spell env num t)⟩]) (layout env num d false ts) := by
          refine reading_snoc.2 ⟨hr1, ⟨p1, by simp, ?_, ?_, ?_⟩, fun h => absurd hb' h.2, fun _ => ⟨rfl, rfl⟩⟩
          · intro _ _ e h'; cases e; rw [p3] at h'; exact absurd h' hterm
          · intro _ _ e h'; cases e; rw [p3] at h'; exact absurd h' habut
          · intro _ _ e h' q hq
            rw [steps_snoc, lastVisible_snoc _ _ (by simp)] at hq
            cases hq
            simp [Solid]
        refine ⟨[⟨[], [], .blank [' ']⟩, ⟨[], [], .token t' (spell env num t)⟩], [], t', by simpa using hr2, ?_, rfl, rfl, .nil, p2, ?_⟩
        · simp [textOf, pieces, Spec.text, Piece.text]
        · have := atSpot_mid (d := d) (done := done ++ [⟨[], [], .blank [' ']⟩]) (ly := []) (t := t') (l := spell env num t)
            (by rw [levels_snoc, levels_snoc]; simpa [Spot.blocks] using hs.levels) (by rw [p3]; exact hterm)
          rw [p3] at this
          simpa using this
    obtain ⟨new, o', t', n1, n2, n3, n4, n5, n6, n7⟩ := key
    obtain ⟨steps, x', y, g1, g2, g3, g4, g5⟩ := ih (wr_cons.1 hw).2 (fun t ht => hsp t (by simp [ht])) (hsh.tail (by simp [hty.1, hty.2.1]))
      (done := done ++ new) (orig := orig ++ [t]) (o₁ := o₁ ++ o₂ ++ [t]) (o₂ := []) n7 n1
      (by have : causesOf (done ++ new) = causesOf done ++ causesOf new := by simp [causesOf]
          rw [this, hc, n3]; rfl)
      (by simp [ho])
      (by
        have : tokensOf (done ++ new) = tokensOf done ++ o' ++ [t'] := by
          rw [List.append_assoc, ← n4]; simp [tokensOf]
        rw [this]
        exact each_append (each_append h2 n5) (.cons n6 .nil)) rfl
    refine ⟨steps, x', y, g1, ?_, g3, by simpa using g4, g5⟩
    rw [g2, textOf_append, List.append_assoc]
    congr 1

/-! ### Nothing is renamed -/

theorem same_faithful : same.Faithful := ⟨fun _ _ h => h, fun _ _ h => h, rfl, rfl, rfl⟩

theorem same_name (x) : same.name x = x := rfl
theorem same_key (x) : same.key x = x := rfl
theorem same_string (x) : same.string x = x := rfl
theorem same_number (x) : same.number x = x := rfl

mutual
theorem relabelExpr_same : ∀ e, relabelExpr same e = e
  | .assign x cell r loc => by simp [relabelExpr, relabelExpr_same r, same_name, same_key, same_string, same_number]
  | .call f args loc => by simp [relabelExpr, relabelExpr_same f, relabelExprs_same args]
  | .binary a op b loc => by simp [relabelExpr, relabelExpr_same a, relabelExpr_same b]
  | .function d => by simp [relabelExpr, relabelFun_same d]
  | .get o x loc => by simp [relabelExpr, relabelExpr_same o, same_name, same_key, same_string, same_number]
  | .getIndex a i loc => by simp [relabelExpr, relabelExpr_same a, relabelExpr_same i]
  | .grouping e => by simp [relabelExpr, relabelExpr_same e]
  | .literalArray es => by simp [relabelExpr, relabelExprs_same es]
  | .literalMap ms => by simp [relabelExpr, relabelEntries_same ms]
  | .logical a op b => by simp [relabelExpr, relabelExpr_same a, relabelExpr_same b]
  | .set o x v loc => by simp [relabelExpr, relabelExpr_same o, relabelExpr_same v, same_name, same_key, same_string, same_number]
  | .setIndex a i v loc => by simp [relabelExpr, relabelExpr_same a, relabelExpr_same i, relabelExpr_same v]
  | .super cell x loc => by simp [relabelExpr, same_name, same_key, same_string, same_number]
  | .variable x cell loc => by simp [relabelExpr, same_name, same_key, same_string, same_number]
  | .unary op e loc => by simp [relabelExpr, relabelExpr_same e]
  | .literalBool b => by simp [relabelExpr]
  | .literalNumber x => by simp [relabelExpr, same_name, same_key, same_string, same_number]
  | .literalNil => by simp [relabelExpr]
  | .literalString s => by simp [relabelExpr, same_name, same_key, same_string, same_number]

theorem relabelExprs_same : ∀ es, relabelExprs same es = es
  | [] => by simp [relabelExprs]
  | e :: es => by simp [relabelExprs, relabelExpr_same e, relabelExprs_same es]

theorem relabelEntries_same : ∀ ms, relabelEntries same ms = ms
  | [] => by simp [relabelEntries]
  | .mk k v :: ms => by simp [relabelEntries, relabelExpr_same v, relabelEntries_same ms, same_name, same_key, same_string, same_number]

theorem relabelFun_same : ∀ d, relabelFun same d = d
  | .mk ps body k loc => by simp [relabelFun, relabelStmts_same body, same_name, same_key, same_string, same_number]

theorem relabelMethods_same : ∀ ms, relabelMethods same ms = ms
  | [] => by simp [relabelMethods]
  | .mk x d :: ms => by simp [relabelMethods, relabelFun_same d, relabelMethods_same ms, same_name, same_key, same_string, same_number]

theorem relabelStmt_same : ∀ s, relabelStmt same s = s
  | .block body => by simp [relabelStmt, relabelStmts_same body]
  | .break loc => by simp [relabelStmt]
  | .continue loc => by simp [relabelStmt]
  | .class x none ms loc => by simp [relabelStmt, relabelMethods_same ms, same_name, same_key, same_string, same_number]
  | .class x (some e) ms loc => by simp [relabelStmt, relabelMethods_same ms, relabelExpr_same e, same_name, same_key, same_string, same_number]
  | .expression e => by simp [relabelStmt, relabelExpr_same e]
  | .fun (.mk x d) => by simp [relabelStmt, relabelFun_same d, same_name, same_key, same_string, same_number]
  | .if c a none => by simp [relabelStmt, relabelExpr_same c, relabelStmt_same a]
  | .if c a (some b) => by simp [relabelStmt, relabelExpr_same c, relabelStmt_same a, relabelStmt_same b]
  | .print e => by simp [relabelStmt, relabelExpr_same e]
  | .return e loc => by simp [relabelStmt, relabelExpr_same e]
  | .var x slot e loc => by simp [relabelStmt, relabelExpr_same e, same_name, same_key, same_string, same_number]
  | .while c b => by simp [relabelStmt, relabelExpr_same c, relabelStmt_same b]
  | .whileIncrement c b i => by simp [relabelStmt, relabelExpr_same c, relabelStmt_same b, relabelExpr_same i]

theorem relabelStmts_same : ∀ ss, relabelStmts same ss = ss
  | [] => by simp [relabelStmts]
  | s :: ss => by simp [relabelStmts, relabelStmt_same s, relabelStmts_same ss]
end

end Ws.Writing
