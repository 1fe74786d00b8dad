import Verif.Proofs.Scan.Next
import Verif.Proofs.Scan.Invariant
/-! The scanner reads every source as `Spec/Scan.lean` says. -/
namespace Ws
open Spec Scanner

/-! ### One lexeme, in terms of its piece -/

/-- What follows `p` on the line. -/
def Piece.follow : Piece → Bool
  | .token t _ => continues t.tokenType
  | _ => false

def Piece.solid : Piece → Bool
  | .token t _ => t.tokenType != .terminator
  | .comment _ => true
  | .continuation _ => true
  | .fault _ l => l != [['\t']]
  | _ => false

theorem Piece.solid_iff (p : Piece) : Piece.solid p = true ↔ Solid p := by
  cases p <;> simp [Piece.solid, Solid]

def Piece.isComment : Piece → Bool
  | .comment _ => true
  | _ => false

def Piece.isContinuation : Piece → Bool
  | .continuation _ => true
  | _ => false

/-- The state after the piece `p`; `w` is the state after the layout tokens. -/
structure AfterPiece (v w : V) (p : Piece) (u : V) : Prop where
  pre : u.pre = v.pre ++ p.text
  tokens : u.tokens = w.tokens ++ p.tok
  errors : u.errors = w.errors ++ p.causes
  stack : u.stack = w.stack
  isBol : u.isBol = (p.endsLine || (v.isBol && !p.begins))
  bolSpaces : u.bolSpaces =
    if p.endsLine then 0 else if p.isSpace && v.isBol then satInc16 v.bolSpaces else v.bolSpaces
  onlyComment : u.onlyComment =
    if p.endsLine then false else if Piece.isComment p then v.isBol else v.onlyComment
  isCont : u.isCont =
    if Piece.isContinuation p then true
    else if p.endsLine then (if v.isBol then v.isCont else v.followCont) else v.isCont
  followCont : u.followCont = Piece.follow p
  abut : u.abut = Piece.solid p

theorem lexeme_tail {env : Env} {abut : Bool} {g : Str} {cs : List Str} :
    match lexeme env abut g cs with
    | .tok t c => continues t = c ∧ t ≠ .terminator
    | .two t _ c => continues t = c ∧ t ≠ .terminator
    | .comment taken => g = ['/'] ∧ ∃ r, taken = ['/'] :: r
    | .unexpected => g ≠ ['\t'] ∧ g ≠ ['\\']
    | .unterminated => g = ['"']
    | .tab => g = ['\t']
    | .space => g = [' ']
    | .cr => g = ['\r']
    | .newline => g = ['\n']
    | .backslash taken nl => g = ['\\'] ∧ (nl = true → ∃ mid, taken = mid ++ [['\n']])
    | _ => True := by
  have hop : ∀ t, (∃ g, operator t = some g) → t ≠ .terminator := by
    rintro _ ⟨g, hg⟩ rfl; simp [operator] at hg
  simp only [lexeme]
  cases hp : punct g with
  | some tc =>
    obtain ⟨t, c⟩ := tc
    obtain ⟨-, h1, h2, -⟩ := punct_spec hp
    exact ⟨h2, hop _ ⟨_, h1⟩⟩
  | none =>
    cases hq : eqPunct g with
    | some tc =>
      obtain ⟨tEq, t, c⟩ := tc
      obtain ⟨-, h1, h2, h3, h4, -⟩ := eqPunct_spec hq
      simp only
      by_cases hh : cs.head? = some ['=']
      · simp only [hh, if_true]; exact ⟨h3, hop _ ⟨_, h1⟩⟩
      · simp only [hh, if_false]; exact ⟨h4, hop _ ⟨_, h2⟩⟩
    | none =>
      simp only
      by_cases h1 : g = ['(']
      · simp only [h1, if_true]; cases abut <;> simp [continues]
      simp only [h1, if_false]
      by_cases h2 : g = ['/']
      · simp only [h2, if_true]
        by_cases hh : cs.head? = some ['/'] <;> simp [hh, continues]
      simp only [h2, if_false]
      by_cases h3 : g = ['\\']
      · simp only [h3, if_true, true_and]
        intro hb
        obtain ⟨mid, hm, -⟩ := backslashTaken_spec cs hb
        exact ⟨mid, hm⟩
      simp only [h3, if_false]
      by_cases h4 : g = ['\t']
      · simp only [h4, if_true]
      simp only [h4, if_false]
      by_cases h5 : g = [' ']
      · simp only [h5, if_true]
      simp only [h5, if_false]
      by_cases h6 : g = ['\r']
      · simp only [h6, if_true]
      simp only [h6, if_false]
      by_cases h7 : g = ['\n']
      · simp only [h7, if_true]
      simp only [h7, if_false]
      by_cases h8 : g = ['"']
      · simp only [h8, if_true]
        cases cs.any (· == ['"']) <;> simp only [Bool.false_eq_true, if_true, if_false]
      simp only [h8, if_false]
      by_cases h9 : isDigit g = true
      · simp only [h9, if_true]
      simp only [h9, if_false, Bool.false_eq_true]
      by_cases h10 : isAlpha env g = true
      · simp only [h10, if_true]
      · simp only [h10, Bool.false_eq_true, if_false]; exact ⟨h4, h3⟩

theorem vstep_after {env : Env} {v u : V} {g : Str} {cs : List Str} (hr : v.rest = g :: cs)
    (h : vstep env v = .done u) :
    ∃ w, (if ((lexeme env v.abut g cs).piece env v g cs).begins then v.bol g else .done v) = .done w ∧
      AfterPiece v w ((lexeme env v.abut g cs).piece env v g cs) u := by
  have hmv := (vstep_moves hr h).1
  have ht := lexeme_tail (env := env) (abut := v.abut) (g := g) (cs := cs)
  simp only [vstep, hr] at h
  generalize lexeme env v.abut g cs = k at h hmv ht ⊢
  cases k with
  | tok t c =>
    obtain ⟨w, hb, h⟩ := Outcome.bind_done h
    obtain ⟨h1, h2, -, -, h6, h7, h3, h4, h8, h5⟩ := bol_fields hb
    cases h
    refine ⟨w, by simpa [Kind.piece, Piece.begins, ht.2] using hb, ⟨hmv, rfl, ?_, rfl, ?_, ?_, ?_, ?_, ?_, ?_⟩⟩
    all_goals simp [Kind.piece, Piece.causes, V.flags, V.push, V.skip, Piece.endsLine, Piece.begins, ht,
      h1, h2, h3, h4, h5, h6, h7, h8, Piece.isSpace, Piece.isComment, Piece.isContinuation, Piece.follow,
      Piece.solid]
  | two t s c =>
    obtain ⟨w, hb, h⟩ := Outcome.bind_done h
    obtain ⟨h1, h2, -, -, h6, h7, h3, h4, h8, h5⟩ := bol_fields hb
    cases h
    refine ⟨w, by simpa [Kind.piece, Piece.begins, ht.2] using hb, ⟨hmv, rfl, ?_, rfl, ?_, ?_, ?_, ?_, ?_, ?_⟩⟩
    all_goals simp [Kind.piece, Piece.causes, V.flags, V.push, V.skip, Piece.endsLine, Piece.begins, ht,
      h1, h2, h3, h4, h5, h6, h7, h8, Piece.isSpace, Piece.isComment, Piece.isContinuation, Piece.follow,
      Piece.solid]
  | num taken =>
    obtain ⟨w, hb, h⟩ := Outcome.bind_done h
    obtain ⟨h1, h2, -, -, h6, h7, h3, h4, h8, h5⟩ := bol_fields hb
    split at h
    · next x hx =>
      cases h
      refine ⟨w, by simpa [Kind.piece, Piece.begins] using hb, ⟨hmv, ?_, ?_, rfl, ?_, ?_, ?_, ?_, ?_, ?_⟩⟩
      all_goals simp [Kind.piece, Piece.causes, V.flags, V.push, V.skip, Piece.endsLine, Piece.begins,
        h1, h2, h3, h4, h5, h6, h7, h8, Piece.isSpace, Piece.isComment, Piece.isContinuation, Piece.follow,
        Piece.solid, continues, Piece.tok]
      simpa using hx.symm
    · cases h
  | ident taken =>
    obtain ⟨w, hb, h⟩ := Outcome.bind_done h
    obtain ⟨h1, h2, -, -, h6, h7, h3, h4, h8, h5⟩ := bol_fields hb
    obtain ⟨hk, hk2, -⟩ := keywordType_proper (g :: taken).flatten
    have hk : keywordType (g ++ taken.flatten) ≠ .terminator := fun e => by
      rw [List.flatten_cons, e] at hk; simp at hk
    rw [List.flatten_cons] at hk2
    cases h
    refine ⟨w, by simpa [Kind.piece, Piece.begins, hk] using hb, ⟨hmv, rfl, ?_, rfl, ?_, ?_, ?_, ?_, ?_, ?_⟩⟩
    all_goals simp [Kind.piece, Piece.causes, V.flags, V.push, V.skip, Piece.endsLine, Piece.begins,
      h1, h2, h3, h4, h5, h6, h7, h8, Piece.isSpace, Piece.isComment, Piece.isContinuation, Piece.follow,
      Piece.solid, hk, hk2]
  | str taken =>
    obtain ⟨w, hb, h⟩ := Outcome.bind_done h
    obtain ⟨h1, h2, -, -, h6, h7, h3, h4, h8, h5⟩ := bol_fields hb
    cases h
    refine ⟨w, by simpa [Kind.piece, Piece.begins] using hb, ⟨hmv, rfl, ?_, rfl, ?_, ?_, ?_, ?_, ?_, ?_⟩⟩
    all_goals simp [Kind.piece, Piece.causes, V.flags, V.push, V.skip, V.skipLines, Piece.endsLine, Piece.begins,
      h1, h2, h3, h4, h5, h6, h7, h8, Piece.isSpace, Piece.isComment, Piece.isContinuation, Piece.follow,
      Piece.solid, continues]
  | unterminated =>
    obtain ⟨w, hb, h⟩ := Outcome.bind_done h
    obtain ⟨h1, h2, h9, h10, h6, h7, h3, h4, h8, h5⟩ := bol_fields hb
    subst ht
    cases h
    refine ⟨w, by simpa [Kind.piece, Piece.begins] using hb, ⟨hmv, ?_, ?_, rfl, ?_, ?_, ?_, ?_, ?_, ?_⟩⟩
    all_goals simp [Kind.piece, Piece.causes, V.flags, V.err, V.skip, V.skipLines, Piece.endsLine, Piece.begins,
      h1, h2, h3, h4, h5, h6, h7, h8, h9, h10, Piece.isSpace, Piece.isComment, Piece.isContinuation, Piece.follow,
      Piece.solid, continues, Piece.tok, addCol]
  | unexpected =>
    obtain ⟨w, hb, h⟩ := Outcome.bind_done h
    obtain ⟨h1, h2, h9, h10, h6, h7, h3, h4, h8, h5⟩ := bol_fields hb
    cases h
    refine ⟨w, by simpa [Kind.piece, Piece.begins, ht] using hb, ⟨hmv, ?_, ?_, rfl, ?_, ?_, ?_, ?_, ?_, ?_⟩⟩
    all_goals simp [Kind.piece, Piece.causes, V.flags, V.err, V.skip, Piece.endsLine, Piece.begins, ht,
      h1, h2, h3, h4, h5, h6, h7, h8, h9, h10, Piece.isSpace, Piece.isComment, Piece.isContinuation, Piece.follow,
      Piece.solid, continues, Piece.tok]
  | comment taken =>
    obtain ⟨w, hb, h⟩ := Outcome.bind_done h
    obtain ⟨h1, h2, h9, h10, h6, h7, h3, h4, h8, h5⟩ := bol_fields hb
    obtain ⟨rfl, r, rfl⟩ := ht
    cases h
    refine ⟨w, by simpa [Kind.piece, Piece.begins] using hb, ⟨hmv, ?_, ?_, rfl, ?_, ?_, ?_, ?_, ?_, ?_⟩⟩
    all_goals simp [Kind.piece, Piece.causes, V.flags, V.skip, Piece.endsLine, Piece.begins,
      h1, h2, h3, h4, h5, h6, h7, h8, h9, h10, Piece.isSpace, Piece.isComment, Piece.isContinuation, Piece.follow,
      Piece.solid, Piece.tok]
  | backslash taken nl =>
    obtain ⟨rfl, hn⟩ := ht
    simp only at h
    cases nl with
    | true =>
      obtain ⟨mid, rfl⟩ := hn rfl
      cases h
      refine ⟨v, by simp [Kind.piece, Piece.begins], ⟨?_, ?_, ?_, rfl, ?_, ?_, ?_, ?_, ?_, ?_⟩⟩
      · rw [hmv]; simp [Kind.clusters, Kind.piece, Piece.text]
      all_goals simp [Kind.piece, Piece.causes, V.flags, V.skip, V.resetLine, Piece.endsLine, 
        Piece.isContinuation, Piece.follow, Piece.solid, Piece.tok]
    | false =>
      cases h
      refine ⟨v, by simp [Kind.piece, Piece.begins], ⟨hmv, ?_, ?_, rfl, ?_, ?_, ?_, ?_, ?_, ?_⟩⟩
      all_goals simp [Kind.piece, Piece.causes, V.flags, V.err, V.skip, Piece.endsLine, Piece.begins,
        Piece.isSpace, Piece.isComment, Piece.isContinuation, Piece.follow, Piece.solid, Piece.tok]
  | tab =>
    subst ht
    cases h
    refine ⟨v, by simp [Kind.piece, Piece.begins], ⟨hmv, ?_, ?_, rfl, ?_, ?_, ?_, ?_, ?_, ?_⟩⟩
    all_goals simp [Kind.piece, Piece.causes, V.flags, V.err, V.skip, Piece.endsLine, Piece.begins,
      Piece.isSpace, Piece.isComment, Piece.isContinuation, Piece.follow, Piece.solid, Piece.tok]
  | space =>
    subst ht
    cases h
    refine ⟨v, by simp [Kind.piece, Piece.begins], ⟨hmv, ?_, ?_, rfl, ?_, ?_, ?_, ?_, ?_, ?_⟩⟩
    all_goals simp [Kind.piece, Piece.causes, V.flags, V.skip, Piece.endsLine, Piece.begins,
      Piece.isSpace, Piece.isComment, Piece.isContinuation, Piece.follow, Piece.solid, Piece.tok]
  | cr =>
    subst ht
    cases h
    refine ⟨v, by simp [Kind.piece, Piece.begins], ⟨hmv, ?_, ?_, rfl, ?_, ?_, ?_, ?_, ?_, ?_⟩⟩
    all_goals simp [Kind.piece, Piece.causes, V.flags, V.skip, Piece.endsLine, Piece.begins,
      Piece.isSpace, Piece.isComment, Piece.isContinuation, Piece.follow, Piece.solid, Piece.tok]
  | newline =>
    subst ht
    simp only at h
    have hlo : (!v.isBol && !v.followCont && !v.onlyComment) = v.loud := rfl
    rw [hlo] at h
    cases hv : v.loud with
    | true =>
      rw [hv, if_pos rfl] at h
      cases h
      refine ⟨v, by simp [Kind.piece, Piece.begins, hv], ⟨?_, ?_, ?_, rfl, ?_, ?_, ?_, ?_, ?_, ?_⟩⟩
      · rw [hmv]; simp [Kind.clusters, Kind.piece, Piece.text, hv]
      all_goals simp [Kind.piece, Piece.causes, V.flags, V.skip, V.push, V.resetLine, Piece.endsLine, Piece.begins,
        Piece.isContinuation, Piece.follow, Piece.solid, Piece.tok, hv,
        continues]
    | false =>
      rw [hv, if_neg (by decide)] at h
      cases h
      refine ⟨v, by simp [Kind.piece, Piece.begins, hv], ⟨?_, ?_, ?_, rfl, ?_, ?_, ?_, ?_, ?_, ?_⟩⟩
      · rw [hmv]; simp [Kind.clusters, Kind.piece, Piece.text, hv]
      all_goals simp [Kind.piece, Piece.causes, V.flags, V.skip, V.resetLine, Piece.endsLine, Piece.begins,
        Piece.isContinuation, Piece.follow, Piece.solid, Piece.tok, hv]

theorem vstep_diverge_iff {env : Env} {v : V} {g : Str} {cs : List Str} (hr : v.rest = g :: cs) :
    vstep env v = .diverge ↔
      ((lexeme env v.abut g cs).piece env v g cs).begins = true ∧ v.bol g = .diverge := by
  have ht := lexeme_tail (env := env) (abut := v.abut) (g := g) (cs := cs)
  simp only [vstep, hr]
  have hbind : ∀ (o : Outcome V) (f : V → Outcome V), (∀ w, f w ≠ .diverge) →
      ((o >>= f) = .diverge ↔ o = .diverge) := by
    intro o f hf
    constructor
    · intro h
      rcases bind_diverge h with h | ⟨a, -, h⟩
      · exact h
      · exact absurd h (hf a)
    · rintro rfl; rfl
  generalize lexeme env v.abut g cs = k at ht ⊢
  cases k with
  | tok t c =>
    simp only [Kind.piece, Piece.begins]
    rw [hbind _ _ (fun w => by simp)]
    simp [ht]
  | two t s c =>
    simp only [Kind.piece, Piece.begins]
    rw [hbind _ _ (fun w => by simp)]
    simp [ht]
  | num taken =>
    simp only [Kind.piece, Piece.begins]
    rw [hbind _ _ (fun w => by split <;> simp)]
    simp
  | ident taken =>
    obtain ⟨hk, -⟩ := keywordType_proper (g :: taken).flatten
    have hk : keywordType (g ++ taken.flatten) ≠ .terminator := fun e => by
      rw [List.flatten_cons, e] at hk; simp at hk
    simp only [Kind.piece, Piece.begins]
    rw [hbind _ _ (fun w => by simp)]
    simp [hk]
  | str taken | comment taken =>
    simp only [Kind.piece, Piece.begins]
    rw [hbind _ _ (fun w => by simp)]
    simp
  | unterminated =>
    subst ht
    simp only [Kind.piece, Piece.begins]
    rw [hbind _ _ (fun w => by simp)]
    simp
  | unexpected =>
    simp only [Kind.piece, Piece.begins]
    rw [hbind _ _ (fun w => by simp)]
    simp [ht]
  | backslash taken nl =>
    obtain ⟨rfl, hn⟩ := ht
    cases nl <;> simp [Kind.piece, Piece.begins]
  | tab => subst ht; simp [Kind.piece, Piece.begins]
  | space => simp [Kind.piece, Piece.begins]
  | cr => simp [Kind.piece, Piece.begins]
  | newline =>
    cases hv : v.loud <;> simp [Kind.piece, Piece.begins, hv]

/-! ### The margin -/

theorem outdents_closed {k : Nat} {closed below : List Nat} (hc : ∀ l ∈ closed, k < l)
    (hb : below = [] ∨ below.head? = some k) :
    outdents k (closed ++ below) = .done (closed.length, !below.isEmpty, below) := by
  induction closed with
  | nil =>
    rcases hb with rfl | hb
    · rfl
    · cases below with
      | nil => cases hb
      | cons b below =>
        simp only [List.head?_cons, Option.some.injEq] at hb
        subst hb
        simp [outdents]
  | cons a closed ih =>
    have ha := hc a (by simp)
    have := ih (fun l hl => hc l (by simp [hl]))
    simp only [List.cons_append, outdents, this, if_neg (show ¬ a = k by omega), if_pos ha, List.length_cons]

theorem outdents_between {k l : Nat} {closed below : List Nat} (hc : ∀ l ∈ closed, k < l) (hl : l < k) :
    outdents k (closed ++ l :: below) = .diverge := by
  induction closed with
  | nil => simp only [List.nil_append, outdents, if_neg (show ¬ l = k by omega), if_neg (show ¬ l > k by omega)]
  | cons a closed ih =>
    have ha := hc a (by simp)
    have := ih (fun l hl => hc l (by simp [hl]))
    simp only [List.cons_append, outdents, this, if_neg (show ¬ a = k by omega), if_pos ha]

theorem split_levels (k : Nat) (st : List Nat) :
    ∃ closed below, st = closed ++ below ∧ (∀ l ∈ closed, k < l) ∧ ∀ b, below.head? = some b → b ≤ k := by
  induction st with
  | nil => exact ⟨[], [], rfl, nofun, nofun⟩
  | cons a st ih =>
    by_cases ha : k < a
    · obtain ⟨closed, below, rfl, h1, h2⟩ := ih
      refine ⟨a :: closed, below, rfl, ?_, h2⟩
      rintro l (_ | ⟨_, h⟩)
      · exact ha
      · exact h1 l h
    · refine ⟨[], a :: st, rfl, nofun, ?_⟩
      simp only [List.head?_cons, Option.some.injEq]
      omega

/-- The state after the layout tokens of a line. -/
def V.margin (v : V) (lay : List Token) (mis : List Cause) : V :=
  { v with
    isBol := false, tokens := v.tokens ++ lay, errors := v.errors ++ mis
    stack := if lay.any (·.tokenType == .indent) then v.bolSpaces :: v.stack else v.stack.drop lay.length }

theorem satInc16_eq (n : Nat) : satInc16 n = min (n + 1) u16Max := by
  simp only [satInc16]; split <;> omega

theorem margin_bol {v : V} {g : Str} {lay : List Token} {mis : List Cause} (hb : v.isBol = true)
    (h : Margin v.line v.column g v.bolSpaces (v.isCont = true) v.stack lay mis) :
    v.bol g = .done (v.margin lay mis) := by
  have hk : ∀ {closed below : List Nat}, closed ≠ [] → (∀ l ∈ closed, v.bolSpaces < l) →
      v.bolSpaces < ((closed ++ below).head?.getD 0) := by
    intro closed below h0 hc
    cases closed with
    | nil => exact absurd rfl h0
    | cons a closed => exact hc a (by simp)
  obtain ⟨pre, rest, tokens, errors, stack, line, column, bolSpaces, isBol, onlyComment, isCont, followCont,
    abut⟩ := v
  simp only at h hb hk
  subst hb
  cases h with
  | same _ h => simp [V.bol, V.margin, ← h]
  | joined _ h h' =>
    subst h'
    simp only [V.bol, V.margin]
    rw [if_neg (by simp), if_neg (by omega), if_pos h]
    simp
  | indent _ h h' =>
    simp only [Bool.not_eq_true] at h'
    subst h'
    simp only [V.bol, V.margin]
    rw [if_neg (by simp), if_neg (by omega), if_pos h]
    simp [V.layoutTok]
  | outdent closed below h0 hc hb =>
    have hlt := hk (below := below) h0 hc
    have hfound : outdents bolSpaces (closed ++ below) = .done (closed.length, !below.isEmpty, below) ∧
        ((!(!below.isEmpty) && decide (bolSpaces > 0)) = false) := by
      cases below with
      | nil =>
        simp only [List.head?_nil, Option.getD_none] at hb
        exact ⟨outdents_closed hc (.inl rfl), by simp [← hb]⟩
      | cons b below =>
        simp only [List.head?_cons, Option.getD_some] at hb
        exact ⟨outdents_closed hc (.inr (by simp [hb])), by simp⟩
    simp only [V.bol, V.margin, hfound.1]
    rw [if_neg (by simp), if_neg (by omega), if_neg (by omega), if_neg (by rw [hfound.2]; simp)]
    simp [V.layoutTok]
  | misfit _ h0 hc hpos =>
    have hlt := hk (below := []) h0 hc
    rw [List.append_nil] at hlt
    have hfound := outdents_closed (below := []) hc (.inl rfl)
    rw [List.append_nil] at hfound
    simp only [V.bol, V.margin, hfound]
    rw [if_neg (by simp), if_neg (by omega), if_neg (by omega), if_pos (by simp [hpos])]
    simp [V.layoutTok, outdentError, Cause.new, satInc16_eq]

theorem between_bol {v : V} {g : Str} (hb : v.isBol = true) (h : BetweenLevels v.bolSpaces v.stack) :
    v.bol g = .diverge := by
  obtain ⟨closed, l, below, e, h0, hc, hl⟩ := h
  have hlt : v.bolSpaces < v.stack.head?.getD 0 := by
    rw [e]
    cases closed with
    | nil => exact absurd rfl h0
    | cons a closed => exact hc a (by simp)
  have := outdents_between (below := below) hc hl
  rw [← e] at this
  simp only [V.bol, hb, this]
  rw [if_neg (by simp), if_neg (by omega), if_neg (by omega)]

theorem margin_cases (line column : Nat) (g : Str) (k : Nat) (joined : Prop) (st : List Nat) :
    (∃ lay mis, Margin line column g k joined st lay mis) ∨ BetweenLevels k st := by
  by_cases h1 : k = st.head?.getD 0
  · exact .inl ⟨_, _, .same _ h1⟩
  by_cases h2 : st.head?.getD 0 < k
  · by_cases h3 : joined
    · exact .inl ⟨_, _, .joined _ h2 h3⟩
    · exact .inl ⟨_, _, .indent _ h2 h3⟩
  obtain ⟨closed, below, rfl, hc, hb⟩ := split_levels k st
  have h0 : closed ≠ [] := by
    rintro rfl
    cases below with
    | nil => simp only [List.nil_append, List.head?_nil, Option.getD_none] at h1 h2; omega
    | cons b below =>
      have := hb b rfl
      simp only [List.nil_append, List.head?_cons, Option.getD_some] at h1 h2
      omega
  cases below with
  | nil =>
    by_cases hk : k = 0
    · exact .inl ⟨_, _, .outdent closed [] h0 hc (by simp [hk])⟩
    · rw [List.append_nil]
      exact .inl ⟨_, _, .misfit closed h0 hc (by omega)⟩
  | cons b below =>
    have := hb b rfl
    by_cases hk : b = k
    · exact .inl ⟨_, _, .outdent closed (b :: below) h0 hc (by simp [hk])⟩
    · exact .inr ⟨closed, b, below, rfl, h0, hc, by omega⟩

/-! ### Readings and states -/

/-- The line has more than a comment. -/
def Content (ps : List Piece) : Prop := ∃ p ∈ thisLine ps, p.begins = true ∧ ∀ body, p ≠ .comment body

/-- The state after the steps `done`. -/
structure At (done : List Step) (v : V) : Prop where
  pre : v.pre = textOf done
  tokens : v.tokens = tokensOf done
  errors : v.errors = causesOf done
  stack : v.stack = levels done
  isBol : v.isBol = false ↔ LineBegun (pieces done)
  bolSpaces : v.isBol = true → v.bolSpaces = spacesOf (pieces done)
  isCont : v.isBol = true → (v.isCont = true ↔ Joined (pieces done))
  followCont : v.followCont = true ↔ EndsContinuing (pieces done)
  abut : v.abut = true ↔ ∃ q, lastVisible (pieces done) = some q ∧ Solid q
  content : v.isBol = false → (v.onlyComment = false ↔ Content (pieces done))
  fresh : v.isBol = true → v.onlyComment = false
  comment : v.onlyComment = true → v.rest = [] ∨ v.rest.head? = some ['\n']

theorem begins_endsLine {p : Piece} (h : p.begins = true) : p.endsLine = false := by
  cases p <;> simp_all [Piece.begins, Piece.endsLine]

theorem begun_snoc (ps : List Piece) (p : Piece) :
    LineBegun (ps ++ [p]) ↔ p.endsLine = false ∧ (LineBegun ps ∨ p.begins = true) := by
  simp only [LineBegun, thisLine_snoc]
  cases p.endsLine <;> simp [or_and_right, exists_or]

theorem content_snoc (ps : List Piece) (p : Piece) :
    Content (ps ++ [p]) ↔
      p.endsLine = false ∧ (Content ps ∨ p.begins = true ∧ Piece.isComment p = false) := by
  have hc : (∀ body, p ≠ .comment body) ↔ Piece.isComment p = false := by
    cases p <;> simp [Piece.isComment]
  simp only [Content, thisLine_snoc, ← hc]
  cases p.endsLine <;> simp [or_and_right, exists_or]

theorem spaces_snoc (ps : List Piece) (p : Piece) :
    spacesOf (ps ++ [p]) =
      if p.endsLine then 0 else if p.isSpace then satInc16 (spacesOf ps) else spacesOf ps := by
  simp only [spacesOf, thisLine_snoc]
  cases p.endsLine
  · simp only [Bool.false_eq_true, if_false, List.countP_append]
    cases hs : p.isSpace
    · simp [hs]
    · simp [hs, satInc16_min]
  · simp

theorem joined_snoc (ps : List Piece) (p : Piece) :
    Joined (ps ++ [p]) ↔
      (Piece.isContinuation p = true ∨ p = .blank ['\n'] ∧ EndsContinuing ps) ∨
        p.begins = false ∧ Joined ps := by
  have hc : (∃ mid, p = .continuation mid) ↔ Piece.isContinuation p = true := by
    cases p <;> simp [Piece.isContinuation]
  rw [← hc]
  constructor
  · rintro ⟨a, q, b, e, h1, h2⟩
    rcases split_snoc e with ⟨rfl, rfl, rfl⟩ | ⟨b', rfl, rfl⟩
    · exact .inl h1
    · exact .inr ⟨h2 p (by simp), a, q, b', rfl, h1, fun x hx => h2 x (by simp [hx])⟩
  · rintro (h | ⟨h, a, q, b, rfl, h1, h2⟩)
    · exact ⟨ps, p, [], rfl, h, nofun⟩
    · refine ⟨a, q, b ++ [p], by simp, h1, fun x hx => ?_⟩
      rcases List.mem_append.mp hx with hx | hx
      · exact h2 x hx
      · rw [List.mem_singleton.mp hx]; exact h

theorem endsContinuing_snoc {ps : List Piece} {p : Piece} (hp : ∀ t, p ≠ .layout t) :
    EndsContinuing (ps ++ [p]) ↔ Piece.follow p = true := by
  simp only [EndsContinuing, lastVisible_snoc ps p hp, Option.some.injEq]
  constructor
  · rintro ⟨t, l, rfl, h⟩; exact h
  · intro h
    cases p with
    | token t l => exact ⟨t, l, rfl, h⟩
    | _ => simp [Piece.follow] at h

theorem begun_not_joined {ps : List Piece} (h : LineBegun ps) : ¬ Joined ps := by
  induction ps using snocInd with
  | nil => obtain ⟨p, hp, -⟩ := h; simp [thisLine] at hp
  | snoc ps p ih =>
    obtain ⟨h1, h2⟩ := (begun_snoc ps p).mp h
    rintro hj
    rcases (joined_snoc ps p).mp hj with (h3 | ⟨rfl, -⟩) | ⟨h3, h4⟩
    · cases p <;> simp [Piece.isContinuation] at h3
      simp [Piece.endsLine] at h1
    · simp [Piece.endsLine] at h1
    · rcases h2 with h2 | h2
      · exact ih h2 h4
      · rw [h2] at h3; cases h3

end Ws
