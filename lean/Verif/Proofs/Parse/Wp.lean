import Verif.Model.Parser
import Verif.Spec.Grammar
import Verif.Spec.Tokens
/-! Weakest preconditions for the parser, and the specifications of its elementary functions. -/
namespace Ws
open Spec

variable {α β σ : Type} {env : Env}

/-- `x` started in `p` returns or throws, and then `Q` or `E` holds. -/
def wp (x : P α) (Q : α → Parser → Prop) (E : Cause → Parser → Prop) (p : Parser) : Prop :=
  match x p with
  | .ok a p' => Q a p'
  | .err e p' => E e p'
  | .panic _ => False
  | .diverge => False

theorem wp_mono {x : P α} {Q Q' : α → Parser → Prop} {E E' : Cause → Parser → Prop} {p : Parser}
    (h : wp x Q E p) (hq : ∀ a p', Q a p' → Q' a p') (he : ∀ e p', E e p' → E' e p') : wp x Q' E' p := by
  unfold wp at *
  split <;> simp_all

theorem wp_bind {x : P α} {f : α → P β} {Q : β → Parser → Prop} {E : Cause → Parser → Prop} {p : Parser}
    (h : wp x (fun a p' => wp (f a) Q E p') E p) : wp (x >>= f) Q E p := by
  unfold wp at h
  show (match (M.bind x f) p with
    | .ok a p' => Q a p'
    | .err e p' => E e p'
    | .panic _ => False
    | .diverge => False)
  unfold M.bind
  cases hx : x p with
  | ok a p' => rw [hx] at h; exact h
  | err e p' => rw [hx] at h; exact h
  | panic m => rw [hx] at h; exact h
  | diverge => rw [hx] at h; exact h

theorem wp_seq {x : P α} {f : α → P β} {Q : β → Parser → Prop} {E : Cause → Parser → Prop} {p : Parser}
    (Q₁ : α → Parser → Prop) (h₁ : wp x Q₁ E p) (h₂ : ∀ a p', Q₁ a p' → wp (f a) Q E p') : wp (x >>= f) Q E p :=
  wp_bind (wp_mono h₁ h₂ (fun _ _ h => h))

theorem wp_pure {a : α} {Q : α → Parser → Prop} {E : Cause → Parser → Prop} {p : Parser} (h : Q a p) :
    wp (pure a) Q E p := h

theorem wp_query {f : Parser → α} {Q : α → Parser → Prop} {E : Cause → Parser → Prop} {p : Parser}
    (h : Q (f p) p) : wp (query f) Q E p := h

theorem wp_throw {c : Cause} {Q : α → Parser → Prop} {E : Cause → Parser → Prop} {p : Parser} (h : E c p) :
    wp (M.throw c) Q E p := h

namespace Parser

/-- The tokens not consumed yet. -/
def rest (p : Parser) : List Token := p.tokens.drop p.current

/-- The first token an error can be about. -/
def low (p : Parser) : Nat := if p.isAtEnd then p.current - 1 else p.current

theorem peek_eq (p : Parser) : p.peek = p.rest.head? := by simp [peek, rest, List.head?_drop]
theorem peekNext_eq (p : Parser) : p.peekNext = p.rest[1]? := by simp [peekNext, rest, List.getElem?_drop]
theorem peekNextNext_eq (p : Parser) : p.peekNextNext = p.rest[2]? := by
  simp [peekNextNext, rest, List.getElem?_drop]

end Parser

/-- States in which the parser can be. -/
structure Ready (env : Env) (p : Parser) : Prop where
  wf : TokensOk p.tokens
  bound : p.tokens.length ≤ env.usizeMax
  inb : p.current < p.tokens.length
  loops : p.inLoops ≤ p.current
  safe : 0 < p.current ∨ p.isAtEnd = false

/-- `p'` is `p` after consuming `w`. -/
structure Moves (p : Parser) (w : List Token) (p' : Parser) : Prop where
  eq : p' = { p with current := p.current + w.length }
  rest : p.rest = w ++ p'.rest
  noEof : ∀ t ∈ w, t.tokenType ≠ .eof

/-- The parser is at `this :`, which it takes for an empty map without consuming it. -/
def Stuck (p : Parser) : Prop :=
  ∃ t c r, p.rest = t :: c :: r ∧ t.tokenType = .this ∧ c.tokenType = .colon

/-- `p'` is the state after an error `e` of a function called in `p`. -/
structure Err (p : Parser) (e : Cause) (p' : Parser) : Prop where
  tokens : p'.tokens = p.tokens
  allow : p'.allowTrailing = p.allowTrailing
  cur : p.current ≤ p'.current
  inb : p'.current < p.tokens.length
  loops : p.inLoops ≤ p'.inLoops
  loops' : p'.inLoops ≤ p'.current
  located : ∃ i t, p.low ≤ i ∧ i ≤ p'.current ∧ p.tokens[i]? = some t ∧ Reports t e

/-- The grammar, with the flags of a parser state. -/
abbrev D (p : Parser) (nt : NT) (w : List Token) (v : Tree) : Prop :=
  Grammar p.allowTrailing (decide (0 < p.inLoops)) nt w v

variable {p p₀ p' p'' : Parser} {w w' : List Token}

theorem Moves.refl (p : Parser) : Moves p [] p := ⟨rfl, rfl, by simp⟩

theorem Moves.trans (h : Moves p w p') (h' : Moves p' w' p'') : Moves p (w ++ w') p'' := by
  refine ⟨?_, ?_, ?_⟩
  · rw [h'.eq, h.eq]; simp [Nat.add_assoc]
  · rw [h.rest, h'.rest, List.append_assoc]
  · intro t ht
    rcases List.mem_append.1 ht with ht | ht
    · exact h.noEof t ht
    · exact h'.noEof t ht

theorem Moves.tokens (h : Moves p w p') : p'.tokens = p.tokens := by rw [h.eq]
theorem Moves.inLoops (h : Moves p w p') : p'.inLoops = p.inLoops := by rw [h.eq]
theorem Moves.allow (h : Moves p w p') : p'.allowTrailing = p.allowTrailing := by rw [h.eq]
theorem Moves.current (h : Moves p w p') : p'.current = p.current + w.length := by rw [h.eq]

theorem Moves.D_eq (h : Moves p w p') : D p' = D p := by
  unfold D; rw [h.allow, h.inLoops]

theorem Moves.length (h : Moves p w p') : p.rest.length = w.length + p'.rest.length := by
  rw [h.rest, List.length_append]

/-- The tokens left contain the Eof. -/
theorem Ready.rest (g : Ready env p) : ∃ ws e, p.rest = ws ++ [e] ∧ e.tokenType = .eof ∧ ∀ t ∈ ws, t.tokenType ≠ .eof := by
  obtain ⟨ws, e, h, he, hw⟩ := g.wf.eof
  have := g.inb
  refine ⟨ws.drop p.current, e, ?_, he, fun t ht => hw t (List.mem_of_mem_drop ht)⟩
  unfold Parser.rest
  rw [h] at this ⊢
  rw [List.drop_append_of_le_length (by simp at this; omega)]

theorem Ready.cons (g : Ready env p) : ∃ t r, p.rest = t :: r := by
  obtain ⟨ws, e, h, -⟩ := g.rest
  cases ws with
  | nil => exact ⟨e, [], h⟩
  | cons t r => exact ⟨t, r ++ [e], h⟩

theorem Ready.mem (g : Ready env p) {t : Token} {r : List Token} (h : p.rest = t :: r) : t ∈ p.tokens := by
  have : t ∈ p.rest := by rw [h]; simp
  exact List.mem_of_mem_drop this

theorem isAtEnd_cons {t : Token} {r : List Token} (h : p.rest = t :: r) :
    p.isAtEnd = (t.tokenType == .eof) := by
  simp [Parser.isAtEnd, Parser.peek_eq, h]

theorem Ready.eofLast (g : Ready env p) {t : Token} {r : List Token} (h : p.rest = t :: r) (ht : t.tokenType = .eof) :
    r = [] := by
  obtain ⟨ws, e, h', he, hw⟩ := g.rest
  rw [h] at h'
  cases ws with
  | nil => simp at h'; exact h'.2
  | cons a ws =>
    simp only [List.cons_append, List.cons.injEq] at h'
    exact absurd ht (hw t (by rw [h'.1]; simp))

theorem Ready.notEofNext (g : Ready env p) {t : Token} {r : List Token} (h : p.rest = t :: r) (ht : t.tokenType ≠ .eof) :
    r ≠ [] := by
  rintro rfl
  obtain ⟨ws, e, h', he, hw⟩ := g.rest
  rw [h] at h'
  cases ws with
  | nil => simp at h'; rw [h'] at ht; exact ht he
  | cons a ws => simp at h'

theorem Moves.good (m : Moves p w p') (g : Ready env p) : Ready env p' := by
  obtain ⟨ws, e, h, he, hw⟩ := g.rest
  have hr : p'.rest ≠ [] := by
    intro h0
    have := m.rest
    rw [h0, List.append_nil, h] at this
    exact m.noEof e (by rw [← this]; simp) he
  refine ⟨by rw [m.tokens]; exact g.wf, by rw [m.tokens]; exact g.bound, ?_, ?_, ?_⟩
  · unfold Parser.rest at hr
    rcases Nat.lt_or_ge p'.current p'.tokens.length with h | h
    · exact h
    · exact absurd (List.drop_eq_nil_of_le h) hr
  · rw [m.inLoops, m.current]; have := g.loops; omega
  · cases w with
    | nil =>
      have : p' = p := by rw [m.eq]; rfl
      rw [this]; exact g.safe
    | cons t w => left; rw [m.current]; simp only [List.length_cons]; omega

theorem low_le (p : Parser) : p.low ≤ p.current := by unfold Parser.low; split <;> omega

theorem Moves.low (m : Moves p w p') : p.low ≤ p'.low := by
  cases w with
  | nil =>
    have : p' = p := by rw [m.eq]; rfl
    rw [this]; exact Nat.le_refl _
  | cons t w =>
    have h1 := low_le p
    have h2 := m.current
    unfold Parser.low at *
    simp only [List.length_cons] at h2
    split <;> split <;> omega

theorem Err.trans {e : Cause} (m : Moves p w p') (h : Err p' e p'') : Err p e p'' := by
  have ht := m.tokens
  refine ⟨by rw [h.tokens, ht], by rw [h.allow, m.allow], ?_, by rw [← ht]; exact h.inb, ?_, h.loops', ?_⟩
  · have := h.cur; have := m.current; omega
  · rw [← m.inLoops]; exact h.loops
  · obtain ⟨i, t, h1, h2, h3, h4⟩ := h.located
    exact ⟨i, t, Nat.le_trans m.low h1, h2, by rw [← ht]; exact h3, h4⟩

theorem wp_err {x : P α} {Q : α → Parser → Prop} (m : Moves p₀ w p) (h : wp x Q (Err p) p) : wp x Q (Err p₀) p :=
  wp_mono h (fun _ _ h => h) (fun _ _ h => h.trans m)

theorem getElem?_rest {t : Token} {r : List Token} (h : p.rest = t :: r) : p.tokens[p.current]? = some t := by
  have := congrArg List.head? h
  simpa [Parser.rest, List.head?_drop] using this

/-- An error about the next token. -/
theorem Ready.err_peek (g : Ready env p) {t : Token} {r : List Token} (h : p.rest = t :: r) {c : Cause} (hc : Reports t c) :
    Err p c p :=
  ⟨rfl, rfl, Nat.le_refl _, g.inb, Nat.le_refl _, g.loops, p.current, t, low_le p, Nat.le_refl _, getElem?_rest h, hc⟩

/-- An error about a token consumed before. -/
theorem Moves.err (m : Moves p w p') (g : Ready env p) {t : Token} (ht : t ∈ w) {c : Cause} (hc : Reports t c) :
    Err p c p' := by
  obtain ⟨n, hn, hn'⟩ := List.mem_iff_getElem.1 ht
  have g' := m.good g
  refine ⟨m.tokens, m.allow, by rw [m.current]; omega, by rw [← m.tokens]; exact g'.inb, by rw [m.inLoops]; omega,
    g'.loops, p.current + n, t, ?_, ?_, ?_, hc⟩
  · have := low_le p; omega
  · rw [m.current]; omega
  · have : p.rest[n]? = some t := by
      rw [m.rest, List.getElem?_append_left hn, List.getElem?_eq_getElem hn, hn']
    rwa [Parser.rest, List.getElem?_drop] at this

theorem reports_lexeme (t : Token) (message : String) : Reports t (.newWithLocation t.loc t.lexeme message) :=
  ⟨rfl, .inl rfl⟩

theorem advance_moves {t : Token} {r : List Token} (h : p.rest = t :: r) (ht : t.tokenType ≠ .eof) :
    Moves p [t] p.advance ∧ p.advance.rest = r := by
  have ha : p.advance = { p with current := p.current + 1 } := by
    unfold Parser.advance
    rw [isAtEnd_cons h]
    simp [ht]
  have hr : p.advance.rest = r := by
    rw [ha]
    unfold Parser.rest at *
    show p.tokens.drop (p.current + 1) = r
    rw [← List.drop_drop, h]; rfl
  exact ⟨⟨ha, by rw [hr, h]; rfl, by simpa using ht⟩, hr⟩

theorem advance_eof {t : Token} {r : List Token} (h : p.rest = t :: r) (ht : t.tokenType = .eof) : p.advance = p := by
  unfold Parser.advance
  rw [isAtEnd_cons h]
  simp [ht]

theorem check_cons {t : Token} {r : List Token} (h : p.rest = t :: r) (tt : TokenType) :
    p.check tt = (t.tokenType != .eof && t.tokenType == tt) := by
  simp only [Parser.check, isAtEnd_cons h, Parser.peek_eq, h, List.head?_cons]
  rfl

theorem checkNext_cons {t : Token} {r : List Token} (h : p.rest = t :: r) (tt : TokenType) :
    p.checkNext tt = (t.tokenType != .eof && match r.head? with
      | none => false
      | some t' => t'.tokenType == tt) := by
  simp only [Parser.checkNext, isAtEnd_cons h, Parser.peekNext_eq, h, List.getElem?_cons_succ, List.head?_eq_getElem?]
  rfl

theorem checkAnyOf_cons {t : Token} {r : List Token} (h : p.rest = t :: r) (tts : List TokenType) :
    p.checkAnyOf tts = (t.tokenType != .eof && tts.contains t.tokenType) := by
  simp only [Parser.checkAnyOf, isAtEnd_cons h, Parser.peek_eq, h, List.head?_cons]
  rfl

theorem Stuck.ne (h : Stuck p) {t : Token} {r : List Token} (hr : p.rest = t :: r) : t.tokenType = .this := by
  obtain ⟨a, b, c, h1, h2, -⟩ := h
  rw [h1] at hr
  simp at hr
  rw [← hr.1]; exact h2

theorem Stuck.next (h : Stuck p) {t : Token} {r : List Token} (hr : p.rest = t :: r) : ∃ c r', r = c :: r' ∧ c.tokenType = .colon := by
  obtain ⟨a, b, c, h1, -, h3⟩ := h
  rw [h1] at hr
  simp at hr
  exact ⟨b, c, hr.2.symm, h3⟩

/-! ### Elementary functions -/

theorem wp_matchToken {tt : TokenType} {Q : Bool → Parser → Prop} {E : Cause → Parser → Prop} (g : Ready env p)
    (h1 : ∀ t p', t.tokenType = tt → p.rest = t :: p'.rest → Moves p [t] p' → Q true p')
    (h2 : ∀ t r, p.rest = t :: r → (t.tokenType = .eof ∨ t.tokenType ≠ tt) → Q false p) :
    wp (matchToken tt) Q E p := by
  obtain ⟨t, r, hr⟩ := g.cons
  unfold wp matchToken
  rw [check_cons hr]
  by_cases ht : t.tokenType = .eof
  · simp [ht]; exact h2 t r hr (.inl ht)
  · by_cases htt : t.tokenType = tt
    · obtain ⟨hm, hrest⟩ := advance_moves hr ht
      have hx : (t.tokenType != .eof && t.tokenType == tt) = true := by simp [htt]; rw [← htt]; exact ht
      rw [hx]
      exact h1 t _ htt (by rw [hrest]; exact hr) hm
    · have hx : (t.tokenType != .eof && t.tokenType == tt) = false := by simp [htt]
      rw [hx]
      exact h2 t r hr (.inr htt)

theorem wp_matchesAny {tts : List TokenType} {Q : Option (TokenType × SourceLoc) → Parser → Prop}
    {E : Cause → Parser → Prop} (g : Ready env p) (hne : TokenType.eof ∉ tts)
    (h1 : ∀ t p', t.tokenType ∈ tts → p.rest = t :: p'.rest → Moves p [t] p' → Q (some (t.tokenType, t.loc)) p')
    (h2 : ∀ t r, p.rest = t :: r → t.tokenType ∉ tts → Q none p) :
    wp (matchesAny tts) Q E p := by
  obtain ⟨t, r, hr⟩ := g.cons
  unfold wp matchesAny
  rw [Parser.peek_eq, hr]
  by_cases ht : t.tokenType ∈ tts
  · have hc : tts.contains t.tokenType = true := by simpa using ht
    simp only [List.head?_cons, hc, if_true]
    have hx : t.tokenType ≠ .eof := fun h => hne (h ▸ ht)
    obtain ⟨hm, hrest⟩ := advance_moves hr hx
    exact h1 t _ ht (by rw [hrest]; exact hr) hm
  · have hc : tts.contains t.tokenType = false := by simpa using ht
    simp only [List.head?_cons, hc, Bool.false_eq_true, if_false]
    exact h2 t r hr ht

theorem wp_errorFromPeek {message : String} {Q : α → Parser → Prop} (g : Ready env p) :
    wp (errorFromPeek env message : P α) Q (Err p) p := by
  obtain ⟨t, r, hr⟩ := g.cons
  have h : (errorFromPeek env message : P α) p = .err (.newWithLocation t.loc t.lexeme message) p := by
    show (match ((query Parser.peek : P _) p) with
      | _ => _) = _
    simp only [errorFromPeek, peekSourceLoc, bind, M.bind, query, Parser.peek_eq, hr, List.head?_cons, pure, M.pure,
      M.throw]
  unfold wp
  rw [h]
  exact g.err_peek hr (reports_lexeme _ _)

/-- An error about the last token, which was consumed since `p₀`. -/
theorem wp_errorFromLast {message : String} {Q : α → Parser → Prop} {t : Token} (g : Ready env p₀) (m : Moves p₀ (w ++ [t]) p) :
    wp (errorFromLast env message : P α) Q (Err p₀) p := by
  have hc : p.current = p₀.current + w.length + 1 := by rw [m.current]; simp [Nat.add_assoc]
  have ht : p.tokens[p.current - 1]? = some t := by
    have h := m.rest
    have : p₀.rest[w.length]? = some t := by rw [h]; simp
    rw [Parser.rest, List.getElem?_drop] at this
    rw [m.tokens, hc]; exact this
  have h : (errorFromLast env message : P α) p = .err (.newWithLocation t.loc t.lexeme message) p := by
    have hp : previous env p = .ok p.tokens[p.current - 1]? p := by unfold previous; rw [if_neg (by omega)]
    simp only [errorFromLast, previousSourceLoc, bind, M.bind, hp, ht, pure, M.pure, M.throw]
  unfold wp
  rw [h]
  exact m.err g (by simp) (reports_lexeme _ _)

/-- An error about the token before the Eof. -/
theorem wp_errorFromLast_eof {message : String} {Q : α → Parser → Prop} (g : Ready env p) (he : p.isAtEnd = true) :
    wp (errorFromLast env message : P α) Q (Err p) p := by
  have hs : 0 < p.current := by
    rcases g.safe with h | h
    · exact h
    · rw [he] at h; cases h
  have hi := g.inb
  have ht : p.tokens[p.current - 1]? = some p.tokens[p.current - 1] := List.getElem?_eq_getElem (by omega)
  have h : (errorFromLast env message : P α) p =
      .err (.newWithLocation (p.tokens[p.current - 1]).loc (p.tokens[p.current - 1]).lexeme message) p := by
    have hp : previous env p = .ok p.tokens[p.current - 1]? p := by unfold previous; rw [if_neg (by omega)]
    simp only [errorFromLast, previousSourceLoc, bind, M.bind, hp, ht, pure, M.pure, M.throw]
  unfold wp
  rw [h]
  refine ⟨rfl, rfl, Nat.le_refl _, hi, Nat.le_refl _, g.loops, p.current - 1, _, ?_, by omega, ht, reports_lexeme _ _⟩
  unfold Parser.low; rw [he]; simp

theorem wp_consumeAnyOf {tts : List TokenType} {message : String} {Q : Unit → Parser → Prop} (g : Ready env p₀)
    (m : Moves p₀ w p) (hne : TokenType.eof ∉ tts)
    (h : ∀ t p', t.tokenType ∈ tts → p.rest = t :: p'.rest → Moves p₀ (w ++ [t]) p' → Q () p') :
    wp (consumeAnyOf env tts message) Q (Err p₀) p := by
  unfold consumeAnyOf
  have g' := m.good g
  refine wp_bind (wp_matchesAny g' hne ?_ ?_)
  · intro t p' ht hr m'
    exact wp_pure (h t p' ht hr (m.trans m'))
  · intro t r hr ht
    exact wp_err m (wp_errorFromPeek g')

/-- Consuming a token after something that may have got stuck. -/
theorem wp_consume {tt : TokenType} {message : String} {Q : Unit → Parser → Prop} {d : Prop} (g : Ready env p₀)
    (m : Moves p₀ w p) (hd : d ∨ Stuck p) (hne : tt ≠ .eof) (hth : tt ≠ .this)
    (h : d → ∀ t p', t.tokenType = tt → p.rest = t :: p'.rest → Moves p₀ (w ++ [t]) p' → Q () p') :
    wp (consume env tt message) Q (Err p₀) p := by
  refine wp_consumeAnyOf g m (by simpa using hne.symm) ?_
  intro t p' ht hr m'
  simp only [List.mem_cons, List.not_mem_nil, or_false] at ht
  rcases hd with hd | hs
  · exact h hd t p' ht hr m'
  · exact absurd (ht.symm.trans (hs.ne hr)) hth

theorem wp_consumeIdentifier {message : String} {Q : Str × SourceLoc → Parser → Prop} (g : Ready env p₀)
    (m : Moves p₀ w p)
    (h : ∀ t p', t.tokenType = .identifier → p.rest = t :: p'.rest → Moves p₀ (w ++ [t]) p' → Q (t.lexeme, t.loc) p') :
    wp (consumeIdentifier env message) Q (Err p₀) p := by
  have g' := m.good g
  obtain ⟨t, r, hr⟩ := g'.cons
  unfold consumeIdentifier
  refine wp_bind (wp_query ?_)
  rw [Parser.peek_eq, hr]
  show wp (if t.tokenType = .identifier then _ else _) Q (Err p₀) p
  split
  · rename_i ht
    obtain ⟨hm, hrest⟩ := advance_moves hr (by rw [ht]; decide)
    exact h t _ ht (by rw [hrest]; exact hr) (m.trans hm)
  · exact wp_err m (wp_errorFromPeek g')

/-- The tokens that begin and end a block. -/
def BlockTokens (w : List Token) (endBlock : TokenType) : Prop :=
  (∃ o, o.tokenType = .leftBrace ∧ w = [o] ∧ endBlock = .rightBrace) ∨
  (∃ t i, t.tokenType = .terminator ∧ i.tokenType = .indent ∧ w = [t, i] ∧ endBlock = .outdent)

theorem wp_consumeBeginBlock {message : String} {Q : TokenType → Parser → Prop} (g : Ready env p₀) (m : Moves p₀ w p)
    (h : ∀ w' endBlock p', BlockTokens w' endBlock → (∃ t r, p.rest = t :: r ∧ t ∈ w') →
      Moves p₀ (w ++ w') p' → Q endBlock p') :
    wp (consumeBeginBlock env message) Q (Err p₀) p := by
  have g' := m.good g
  unfold consumeBeginBlock
  refine wp_bind (wp_matchesAny g' (by decide) ?_ ?_)
  · intro t p' ht hr m'
    simp only [List.mem_cons, List.not_mem_nil, or_false] at ht
    rcases ht with ht | ht
    · rw [ht]
      refine wp_bind (wp_consume g (m.trans m') (.inl trivial) (by decide) (by decide) ?_)
      intro _ i p'' hi hr' m''
      refine wp_pure (h [t, i] .outdent p'' (.inr ⟨t, i, ht, hi, rfl, rfl⟩) ⟨t, _, hr, by simp⟩ ?_)
      simpa using m''
    · rw [ht]
      exact wp_pure (h [t] .rightBrace p' (.inl ⟨t, ht, rfl, rfl⟩) ⟨t, _, hr, by simp⟩ (m.trans m'))
  · intro t r hr ht
    exact wp_err m (wp_errorFromPeek g')

theorem wp_consumeEndBlock {endBlock : TokenType} {after : String} {Q : Unit → Parser → Prop} {d : Prop} (g : Ready env p₀)
    (m : Moves p₀ w p) (hd : d ∨ Stuck p) (he : endBlock = .rightBrace ∨ endBlock = .outdent)
    (h : d → ∀ t p', t.tokenType = endBlock → Moves p₀ (w ++ [t]) p' → Q () p') :
    wp (consumeEndBlock env endBlock after) Q (Err p₀) p := by
  have g' := m.good g
  unfold consumeEndBlock
  refine wp_bind (wp_matchesAny g' (by rcases he with rfl | rfl <;> decide) ?_ ?_)
  · intro t p' ht hr m'
    simp only [List.mem_cons, List.not_mem_nil, or_false] at ht
    rcases hd with hd | hs
    · exact wp_pure (h hd t p' ht (m.trans m'))
    · have := hs.ne hr
      rw [ht] at this
      rcases he with rfl | rfl <;> cases this
  · intro t r hr ht
    rcases he with rfl | rfl
    · exact wp_err m (wp_errorFromPeek g')
    · exact wp_err m (wp_errorFromPeek g')

/-- Loops that consume a token per iteration. -/
theorem wp_loop {body : σ → P (Step σ β)} {Q : β → Parser → Prop} {E : Cause → Parser → Prop} {a : σ}
    (I : σ → Parser → Prop)
    (h : ∀ a p, I a p → wp (body a) (fun s p' => match s with
      | .next a' => I a' p' ∧ p'.rest.length < p.rest.length
      | .stop b => Q b p') E p) (hi : I a p) : wp (loop body a) Q E p := by
  have key : ∀ n a p, I a p → p.rest.length < n → wp (loopFuel body n a) Q E p := by
    intro n
    induction n with
    | zero => intro a p _ h; omega
    | succ n ih =>
      intro a p hi hn
      unfold loopFuel
      refine wp_bind (wp_mono (h a p hi) ?_ (fun _ _ h => h))
      intro s p' hs
      cases s with
      | next a' => exact ih a' p' hs.1 (by have := hs.2; omega)
      | stop b => exact wp_pure hs
  unfold loop
  show wp (loopFuel body (p.tokens.length + 1) a) Q E p
  refine key _ a p hi ?_
  unfold Parser.rest
  simp
  omega

end Ws
