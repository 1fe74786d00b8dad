import Verif.Proofs.Parse.Sound
import Verif.Spec.Loose
/-! Running the parser forwards on known tokens. Panics and running out of fuel are allowed everywhere, as they
are excluded for the parser as a whole. -/
namespace Ws
open Spec

variable {α β σ : Type} {env : Env} {p q p' p'' : Parser} {w w' s : List Token} {v v₁ v' : List Cause}

/-- `x` started in `p` panics or runs out of fuel. -/
def Dies (x : P α) (p : Parser) : Prop := x p = .diverge ∨ ∃ m, x p = .panic m

/-- Before `x` there are the faults `v` to come, after it `v'`: if there are none in between, `x` started in
`p` returns `a` and ends in `p'`, and otherwise it fails with the first of them; or it dies. -/
def Does (v : List Cause) (x : P α) (p : Parser) (a : α) (p' : Parser) (v' : List Cause) : Prop :=
  v' <:+ v ∧ (Dies x p ∨ (v = v' ∧ x p = .ok a p') ∨ ∃ c vs q, v = c :: vs ∧ v ≠ v' ∧ x p = .err c q)

/-- Likewise, but it reaches the head of a loop with loop variables `a` in `p'`. -/
def Reaches (v : List Cause) (x : P β) (p : Parser) (body : σ → P (Step σ β)) (a : σ) (p' : Parser) (v' : List Cause) : Prop :=
  v' <:+ v ∧ (Dies x p ∨ (v = v' ∧ ∃ m, x p = loopFuel body m a p') ∨ ∃ c vs q, v = c :: vs ∧ v ≠ v' ∧ x p = .err c q)

theorem does_ok {x : P α} {a : α} (h : x p = .ok a p') : Does v x p a p' v := ⟨List.suffix_refl _, .inr (.inl ⟨rfl, h⟩)⟩

theorem does_pure {a : α} : Does v (pure a : P α) p a p v := does_ok rfl

theorem does_fuel {x : P α} {a : α} {vs : List Cause} (h : x p = .diverge) : Does (vs ++ v) x p a p' v :=
  ⟨List.suffix_append _ _, .inl (.inl h)⟩

theorem does_throw {a : α} {c : Cause} : Does (c :: v) (M.throw c : P α) p a p' v :=
  ⟨List.suffix_cons _ _, .inr (.inr ⟨c, v, p, rfl, fun h => by simpa using congrArg List.length h, rfl⟩)⟩

theorem does_throw_of {a : α} {c : Cause} (h : v' <:+ v) : Does (c :: v) (M.throw c : P α) p a p' v' :=
  ⟨h.trans (List.suffix_cons _ _), .inr (.inr ⟨c, v, p, rfl, fun h' => by
    have := h.length_le
    rw [← h'] at this
    simp at this
    omega, rfl⟩)⟩

theorem suffix_ne {v v₁ v' : List Cause} (h1 : v₁ <:+ v) (h2 : v' <:+ v₁) (h : v ≠ v₁) : v ≠ v' := by
  rintro rfl
  exact h (h2.eq_of_length (Nat.le_antisymm h2.length_le h1.length_le))

theorem dies_bind {x : P α} {k : α → P β} (h : Dies x p) : Dies (x >>= k) p := by
  unfold Dies
  show M.bind x k p = _ ∨ ∃ m, M.bind x k p = _
  unfold M.bind
  rcases h with h | ⟨m, h⟩ <;> rw [h]
  · exact .inl rfl
  · exact .inr ⟨m, rfl⟩

theorem err_bind {x : P α} {k : α → P β} {c : Cause} (h : x p = .err c q) : (x >>= k) p = .err c q := by
  show M.bind x k p = _
  unfold M.bind
  rw [h]

theorem ok_bind {x : P α} {k : α → P β} {a : α} (h : x p = .ok a q) : (x >>= k) p = k a q := by
  show M.bind x k p = _
  unfold M.bind
  rw [h]

theorem does_bind {x : P α} {k : α → P β} {a : α} {b : β} (h1 : Does v x p a q v₁) (h2 : Does v₁ (k a) q b p' v') :
    Does v (x >>= k) p b p' v' := by
  obtain ⟨s1, h1⟩ := h1
  obtain ⟨s2, h2⟩ := h2
  refine ⟨s2.trans s1, ?_⟩
  rcases h1 with h | ⟨rfl, h⟩ | ⟨c, vs, q', rfl, hne, h⟩
  · exact .inl (dies_bind h)
  · unfold Dies
    rw [ok_bind h]
    exact h2
  · exact .inr (.inr ⟨c, vs, q', rfl, suffix_ne s1 s2 hne, err_bind h⟩)

theorem does_bind' {x : P α} {k : α → P β} {a : α} {b : β} (h1 : x p = .ok a q) (h2 : Does v (k a) q b p' v') :
    Does v (x >>= k) p b p' v' := does_bind (does_ok h1) h2

theorem does_query {f : Parser → α} {k : α → P β} {b : β} (h : Does v (k (f p)) p b p' v') : Does v (query f >>= k) p b p' v' :=
  does_bind (does_ok rfl) h

theorem reaches_bind {x : P α} {k : α → P β} {body : σ → P (Step σ β)} {a : α} {c : σ}
    (h1 : Does v x p a q v₁) (h2 : Reaches v₁ (k a) q body c p' v') : Reaches v (x >>= k) p body c p' v' := by
  obtain ⟨s1, h1⟩ := h1
  obtain ⟨s2, h2⟩ := h2
  refine ⟨s2.trans s1, ?_⟩
  rcases h1 with h | ⟨rfl, h⟩ | ⟨c, vs, q', rfl, hne, h⟩
  · exact .inl (dies_bind h)
  · unfold Dies
    rw [ok_bind h]
    exact h2
  · exact .inr (.inr ⟨c, vs, q', rfl, suffix_ne s1 s2 hne, err_bind h⟩)

theorem reaches_query {f : Parser → α} {k : α → P β} {body : σ → P (Step σ β)} {c : σ} (h : Reaches v (k (f p)) p body c p' v') :
    Reaches v (query f >>= k) p body c p' v' := reaches_bind (does_ok rfl) h

theorem reaches_loop {body : σ → P (Step σ β)} {a : σ} : Reaches v (loop body a) p body a p v :=
  ⟨List.suffix_refl _, .inr (.inl ⟨rfl, _, rfl⟩)⟩

theorem reaches_next {x : P β} {body : σ → P (Step σ β)} {a a' : σ} (h : Reaches v x p body a q v₁)
    (hb : Does v₁ (body a) q (.next a') p' v') : Reaches v x p body a' p' v' := by
  obtain ⟨s1, h⟩ := h
  obtain ⟨s2, hb⟩ := hb
  refine ⟨s2.trans s1, ?_⟩
  rcases h with h | ⟨rfl, m, h⟩ | ⟨c, vs, q', rfl, hne, h⟩
  · exact .inl h
  · cases m with
    | zero => exact .inl (.inl h)
    | succ m =>
      unfold loopFuel at h
      rcases hb with hb | ⟨rfl, hb⟩ | ⟨c, vs, q', rfl, hne, hb⟩
      · left
        unfold Dies
        rw [h]
        exact dies_bind hb
      · rw [ok_bind hb] at h
        exact .inr (.inl ⟨rfl, m, h⟩)
      · rw [err_bind hb] at h
        exact .inr (.inr ⟨c, vs, q', rfl, hne, h⟩)
  · exact .inr (.inr ⟨c, vs, q', rfl, suffix_ne s1 s2 hne, h⟩)

theorem reaches_stop {x : P β} {body : σ → P (Step σ β)} {a : σ} {b : β} (h : Reaches v x p body a q v₁)
    (hb : Does v₁ (body a) q (.stop b) p' v') : Does v x p b p' v' := by
  obtain ⟨s1, h⟩ := h
  obtain ⟨s2, hb⟩ := hb
  refine ⟨s2.trans s1, ?_⟩
  rcases h with h | ⟨rfl, m, h⟩ | ⟨c, vs, q', rfl, hne, h⟩
  · exact .inl h
  · cases m with
    | zero => exact .inl (.inl h)
    | succ m =>
      unfold loopFuel at h
      rcases hb with hb | ⟨rfl, hb⟩ | ⟨c, vs, q', rfl, hne, hb⟩
      · left
        unfold Dies
        rw [h]
        exact dies_bind hb
      · rw [ok_bind hb] at h
        exact .inr (.inl ⟨rfl, h⟩)
      · rw [err_bind hb] at h
        exact .inr (.inr ⟨c, vs, q', rfl, hne, h⟩)
  · exact .inr (.inr ⟨c, vs, q', rfl, suffix_ne s1 s2 hne, h⟩)

/-! ### Moving -/

theorem Moves.split (m : Moves p (w ++ w') p') : ∃ q, Moves p w q ∧ Moves q w' p' := by
  refine ⟨{ p with current := p.current + w.length }, ?_, ?_⟩
  · refine ⟨rfl, ?_, fun t ht => m.noEof t (by simp [ht])⟩
    have := m.rest
    unfold Parser.rest at *
    show _ = w ++ List.drop (p.current + w.length) p.tokens
    rw [← List.drop_drop, this]
    simp
  · refine ⟨?_, ?_, fun t ht => m.noEof t (by simp [ht])⟩
    · rw [m.eq]; simp [Nat.add_assoc]
    · have := m.rest
      unfold Parser.rest at *
      show List.drop (p.current + w.length) p.tokens = _
      rw [← List.drop_drop, this]
      simp

theorem Moves.uncons {t : Token} (m : Moves p (t :: w) p') : ∃ q, Moves p [t] q ∧ Moves q w p' :=
  Moves.split (w := [t]) m

theorem Moves.head {t : Token} (m : Moves p (t :: w) p') : p.rest = t :: (w ++ p'.rest) := m.rest

/-- The parser inside one more loop. -/
def Parser.deeper (p : Parser) : Parser := { p with inLoops := p.inLoops + 1 }

theorem Moves.deeper (m : Moves p w p') : Moves p.deeper w p'.deeper :=
  ⟨by rw [m.eq]; rfl, m.rest, m.noEof⟩

/-- Loops are entered by tokens, and there are not too many tokens. -/
structure Room (env : Env) (p : Parser) : Prop where
  bound : p.tokens.length ≤ env.usizeMax
  loops : p.inLoops ≤ p.current

theorem Room.moves (h : Room env p) (m : Moves p w p') : Room env p' :=
  ⟨by rw [m.tokens]; exact h.bound, by rw [m.inLoops, m.current]; have := h.loops; omega⟩

/-! ### Elementary functions -/

theorem match_yes {t : Token} {tt : TokenType} (m : Moves p [t] p') (h : t.tokenType = tt) : matchToken tt p = .ok true p' := by
  have hr := m.head
  have he := m.noEof t (by simp)
  unfold matchToken
  rw [check_cons hr]
  have : (t.tokenType != .eof && t.tokenType == tt) = true := by simp [h]; rw [← h]; exact he
  rw [this, if_pos rfl]
  obtain ⟨m', -⟩ := advance_moves hr he
  rw [m'.eq, m.eq]

theorem match_no {t : Token} {r : List Token} {tt : TokenType} (hr : p.rest = t :: r) (h : t.tokenType ≠ tt) :
    matchToken tt p = .ok false p := by
  unfold matchToken
  rw [check_cons hr]
  simp [h]

theorem matches_yes {t : Token} {tts : List TokenType} (m : Moves p [t] p') (h : t.tokenType ∈ tts) :
    matchesAny tts p = .ok (some (t.tokenType, t.loc)) p' := by
  have hr := m.head
  have he := m.noEof t (by simp)
  unfold matchesAny
  rw [Parser.peek_eq, hr]
  have hc : tts.contains t.tokenType = true := by simpa using h
  simp only [List.head?_cons, hc, if_true]
  obtain ⟨m', -⟩ := advance_moves hr he
  rw [m'.eq, m.eq]

theorem matches_no {t : Token} {r : List Token} {tts : List TokenType} (hr : p.rest = t :: r) (h : t.tokenType ∉ tts) :
    matchesAny tts p = .ok none p := by
  unfold matchesAny
  rw [Parser.peek_eq, hr]
  have hc : tts.contains t.tokenType = false := by simpa using h
  simp only [List.head?_cons, hc, Bool.false_eq_true, if_false]

theorem consumeAny_yes {t : Token} {tts : List TokenType} {message : String} (m : Moves p [t] p') (h : t.tokenType ∈ tts) :
    consumeAnyOf env tts message p = .ok () p' := by
  show M.bind (matchesAny tts) _ p = _
  unfold M.bind
  rw [matches_yes m h]
  rfl

theorem consume_yes {t : Token} {tt : TokenType} {message : String} (m : Moves p [t] p') (h : t.tokenType = tt) :
    consume env tt message p = .ok () p' := consumeAny_yes m (by simp [h])

theorem advance_yes {t : Token} (m : Moves p [t] p') : advanceP p = .ok () p' := by
  obtain ⟨m', -⟩ := advance_moves m.head (m.noEof t (by simp))
  show Res.ok () p.advance = _
  rw [m'.eq, m.eq]

theorem identifier_yes {t : Token} {message : String} (m : Moves p [t] p') (h : t.tokenType = .identifier) :
    Does v (consumeIdentifier env message) p (t.lexeme, t.loc) p' v := by
  unfold consumeIdentifier
  refine does_query ?_
  rw [Parser.peek_eq, m.head]
  simp only [List.head?_cons, h, if_true]
  exact does_bind' (advance_yes m) does_pure

theorem peek_head {t : Token} {r : List Token} (hr : p.rest = t :: r) : p.peek = some t := by
  rw [Parser.peek_eq, hr]; rfl

theorem check_no {t : Token} {r : List Token} {tt : TokenType} (hr : p.rest = t :: r) (h : t.tokenType ≠ tt) :
    p.check tt = false := by
  rw [check_cons hr]; simp [h]

theorem check_yes {t : Token} {r : List Token} {tt : TokenType} (hr : p.rest = t :: r) (h : t.tokenType = tt) (he : tt ≠ .eof) :
    p.check tt = true := by
  rw [check_cons hr]; simp [h, he]

/-! ### How derivations start -/

/-- Starts with one of these tokens; `fun` is followed by a parenthesis. -/
def ExprHead (ts : List TokenType) (w : List Token) : Prop :=
  ∃ t r, w = t :: r ∧ t.tokenType ∈ ts ∧ (t.tokenType = .fun → ∃ u r', r = u :: r' ∧ IsParen u)

/-- Starts with one of these tokens. -/
def DeclHead (ts : List TokenType) (w : List Token) : Prop :=
  ∃ t r, w = t :: r ∧ t.tokenType ∈ ts

def primaryTs : List TokenType :=
  [.false, .true, .nil, .number, .string, .identifier, .this, .fun, .leftParen, .leftParenAbutting, .leftBrace,
    .leftBracket, .super]
def unaryTs : List TokenType := .bang :: .minus :: primaryTs
def exprTs : List TokenType := .indent :: unaryTs
def stmtTs : List TokenType := [.break, .continue, .print, .return, .if, .while, .for] ++ exprTs
def declTs : List TokenType := [.class, .var] ++ stmtTs

theorem ExprHead.append {ts : List TokenType} {v : List Token} (h : ExprHead ts w) : ExprHead ts (w ++ v) := by
  obtain ⟨t, r, rfl, ht, hf⟩ := h
  refine ⟨t, r ++ v, rfl, ht, fun h => ?_⟩
  obtain ⟨u, r', rfl, hu⟩ := hf h
  exact ⟨u, r' ++ v, rfl, hu⟩

theorem ExprHead.mono {ts ts' : List TokenType} (h : ExprHead ts w) (hs : ∀ t ∈ ts, t ∈ ts') : ExprHead ts' w := by
  obtain ⟨t, r, rfl, ht, hf⟩ := h
  exact ⟨t, r, rfl, hs _ ht, hf⟩

theorem unaryTs_expr : ∀ t ∈ unaryTs, t ∈ exprTs := by decide
theorem primaryTs_unary : ∀ t ∈ primaryTs, t ∈ unaryTs := by decide
theorem primaryTs_expr : ∀ t ∈ primaryTs, t ∈ exprTs := by decide

theorem exprHead_of {t : Token} {tt : TokenType} {ts : List TokenType} {r : List Token} (h : t.tokenType = tt) (hm : tt ∈ ts) (hf : tt ≠ .fun) :
    ExprHead ts (t :: r) := ⟨t, r, rfl, h ▸ hm, fun h' => absurd (h.symm.trans h') hf⟩

theorem declHead_of {t : Token} {tt : TokenType} {ts : List TokenType} {r : List Token} (h : t.tokenType = tt) (hm : tt ∈ ts) :
    DeclHead ts (t :: r) := ⟨t, r, rfl, h ▸ hm⟩

theorem ExprHead.stmt {v : List Token} (h : ExprHead exprTs w) : ExprHead stmtTs (w ++ v) :=
  (h.mono fun t ht => by unfold stmtTs; simp [ht]).append

theorem KeyColon.head {ts : List TokenType} (h : KeyColon w) (h1 : TokenType.identifier ∈ ts) (h2 : TokenType.string ∈ ts) :
    ExprHead ts w := by
  obtain ⟨t, c, r, rfl, ht, -⟩ := h
  rcases ht with ht | ht
  · exact exprHead_of ht h1 (by decide)
  · exact exprHead_of ht h2 (by decide)

theorem KeyColon.append {v : List Token} (h : KeyColon w) : KeyColon (w ++ v) := by
  obtain ⟨t, c, r, rfl, ht⟩ := h
  exact ⟨t, c, r ++ v, rfl, ht⟩

theorem keyColon_of {t c : Token} {k : Str} {r : List Token} (h : IsKey t k) (hc : c.tokenType = .colon) : KeyColon (t :: c :: r) :=
  ⟨t, c, r, rfl, h.imp And.left And.left, hc⟩

/-- How the tokens of a nonterminal start. -/
def First : Sym → List Token → Prop
  | .expression, w | .target, w | .arguments, w => ExprHead exprTs w
  | .binary _, w | .unary, w => ExprHead unaryTs w
  | .call, w | .primary, w => ExprHead primaryTs w
  | .before, w | .forCondition, w | .forIncrement, w => w = [] ∨ ExprHead exprTs w
  | .entriesBefore, w => w = [] ∨ KeyColon w
  | .entries, w => KeyColon w
  | .parametersBefore, w => w = [] ∨ ExprHead [.identifier] w
  | .function _, w => ∃ t r, w = t :: r ∧ IsParen t
  | .named, w => ExprHead [.identifier] w
  | .methods, w => w = [] ∨ ExprHead [.identifier, .class] w
  | .block, w => DeclHead [.leftBrace, .terminator] w
  | .body, _ | .forInit, _ => True
  | .statement, w => ExprHead stmtTs w
  | .declaration, w => DeclHead declTs w
  | .declarations, w => w = [] ∨ DeclHead declTs w

theorem first_next {p : Prec} (h : First p.next w) : ExprHead unaryTs w := by
  cases p <;> exact h

theorem first_or_append {ts : List TokenType} {w w' : List Token} (h : w = [] ∨ ExprHead ts w) (h' : ExprHead ts w') :
    ExprHead ts (w ++ w') := by
  rcases h with rfl | h
  · exact h'
  · exact h.append

theorem DeclHead.append {ts : List TokenType} {v : List Token} (h : DeclHead ts w) : DeclHead ts (w ++ v) := by
  obtain ⟨t, r, rfl, ht⟩ := h
  exact ⟨t, r ++ v, rfl, ht⟩

theorem repeatedKey_nil {ms : List MapEntry} {t : Token} {k : Str} (h : k ∉ ms.map MapEntry.key) : repeatedKey ms t k = [] := if_neg h

theorem excess_nil {ps : List Parameter} {t : Token} (h : ps.length < 255) : excess ps t = [] := if_pos h

/-- The grammar without faults is the unambiguous grammar. -/
theorem plain_loose {repl l e : Bool} {o : Ends} {sym : Sym} {x : Tree} (h : Plain repl l o e sym w x) : Loose repl l o e sym w x [] := by
  induction h with
  | target_plain _ i0 => exact .target_plain i0
  | target_indented h0 _ h2 h3 h4 i1 => exact .target_indented h0 i1 h2 h3 h4
  | expression _ i0 => exact .expression i0
  | assignment _ h1 h2 _ h4 i0 i3 => exact .assignment i0 h1 h2 i3 h4
  | operand _ i0 => exact .operand i0
  | operator _ h1 h2 _ i0 i3 => exact .operator i0 h1 h2 i3
  | call _ i0 => exact .call i0
  | «prefix» h0 _ i1 => exact .«prefix» h0 i1
  | primary _ i0 => exact .primary i0
  | property _ h1 h2 h3 i0 => exact .property i0 h1 h2 h3
  | call_empty _ h1 h2 h3 i0 => exact .call_empty i0 h1 h2 h3
  | call_args _ h1 h2 _ h4 h5 i0 i3 => exact .call_args i0 h1 h2 i3 h4 h5
  | call_bare _ h1 h2 h3 _ i0 i4 => exact .call_bare i0 h1 h2 h3 i4
  | index _ h1 h2 _ h4 h5 i0 i3 => exact .index i0 h1 h2 i3 h4 h5
  | before_nil => exact .before_nil
  | before _ _ h2 h3 i0 i1 => exact .before i0 i1 h2 h3
  | arguments _ h1 _ i0 i2 => exact .arguments i0 h1 i2
  | entries_nil => exact .entries_nil
  | entries_comma _ h1 h2 _ h4 h5 h6 i0 i3 =>
    have := Loose.entries_comma i0 h1 h2 i3 h4 h6
    rwa [repeatedKey_nil h5] at this
  | entries_line _ h1 h2 _ h4 h5 h6 h7 i0 i3 =>
    have := Loose.entries_line i0 h1 h2 i3 h4 h5 h7
    rwa [repeatedKey_nil h6] at this
  | entries _ h1 h2 _ h4 i0 i3 =>
    have := Loose.entries i0 h1 h2 i3
    rwa [repeatedKey_nil h4] at this
  | «false» h0 => exact .«false» h0
  | «true» h0 => exact .«true» h0
  | nil h0 => exact .nil h0
  | number h0 h1 => exact .number h0 h1
  | string h0 h1 => exact .string h0 h1
  | «variable» h0 => exact .«variable» h0
  | map_bare _ i0 => exact .map_bare i0
  | map_open _ h1 i0 => exact .map_open i0 h1
  | map_braces h0 _ h2 i1 => exact .map_braces h0 i1 h2
  | map_trailing h0 _ h2 i1 => exact .map_trailing h0 i1 h2
  | function_literal h0 _ i1 => exact .function_literal h0 i1
  | grouping h0 _ h2 h3 i1 => exact .grouping h0 i1 h2 h3
  | array h0 _ _ h3 h4 i1 i2 => exact .array h0 i1 i2 h3 h4
  | array_trailing h0 _ h2 i1 => exact .array_trailing h0 i1 h2
  | «super» h0 h1 h2 => exact .«super» h0 h1 h2
  | parameters_nil => exact .parameters_nil
  | parameters _ h1 h2 h3 i0 =>
    have := Loose.parameters i0 h2 h3
    rwa [excess_nil h1] at this
  | function_empty h0 h1 _ i2 => exact .function_empty h0 h1 i2
  | «function» h0 _ h2 h3 h4 _ i1 i5 =>
    rename_i loc _ _ _ _ _ _ _ _ _
    have := Loose.function (loc := loc) h0 i1 h3 h4 i5
    rwa [excess_nil h2] at this
  | block_braces h0 _ h2 h3 h4 i1 => exact .block_braces h0 i1 h2 h3 h4
  | block_indented h0 h1 _ h3 h4 h5 i2 => exact .block_indented h0 h1 i2 h3 h4 h5
  | named h0 _ i1 => exact .named h0 i1
  | methods_nil => exact .methods_nil
  | method _ _ i0 i1 => exact .method i0 i1
  | class_method _ h1 _ i0 i2 => exact .class_method i0 h1 i2
  | declarations_nil => exact .declarations_nil
  | declarations _ _ h2 i0 i1 => exact .declarations i0 i1 h2
  | declaration _ i0 => exact .declaration i0
  | fun_decl h0 _ i1 => exact .fun_decl h0 i1
  | class_braces h0 h1 h2 _ h4 i3 => exact .class_braces h0 h1 h2 i3 h4
  | class_indented h0 h1 h2 h3 _ h5 i4 => exact .class_indented h0 h1 h2 h3 i4 h5
  | subclass_braces h0 h1 h2 h3 h4 _ h6 i5 => exact .subclass_braces h0 h1 h2 h3 h4 i5 h6
  | subclass_indented h0 h1 h2 h3 h4 h5 _ h7 i6 => exact .subclass_indented h0 h1 h2 h3 h4 h5 i6 h7
  | var h0 h1 h2 => exact .var h0 h1 h2
  | var_init h0 h1 h2 h3 _ h5 h6 i4 => exact .var_init h0 h1 h2 h3 i4 h5 h6
  | var_open h0 h1 h2 h3 _ h5 i4 => exact .var_open h0 h1 h2 h3 i4 h5
  | expression_statement _ h1 h2 h3 i0 => exact .expression_statement i0 h1 h2 h3
  | expression_last _ h1 h2 h3 i0 => exact .expression_last i0 h1 h2 h3
  | «break» h0 h1 => exact .«break» h0 h1
  | «continue» h0 h1 => exact .«continue» h0 h1
  | print h0 _ h2 h3 i1 => exact .print h0 i1 h2 h3
  | return_nil h0 h1 => exact .return_nil h0 h1
  | «return» h0 _ h2 h3 i1 => exact .«return» h0 i1 h2 h3
  | braces h0 _ h2 h3 h4 i1 => exact .braces h0 i1 h2 h3 h4
  | «if» h0 h1 _ h3 h4 _ i2 i5 => exact .«if» h0 h1 i2 h3 h4 i5
  | if_else h0 h1 _ h3 h4 _ h6 h7 h8 _ i2 i5 i9 => exact .if_else h0 h1 i2 h3 h4 i5 h6 h7 h8 i9
  | «while» h0 h1 _ h3 h4 _ i2 i5 => exact .«while» h0 h1 i2 h3 h4 i5
  | «for» h0 h1 _ _ h4 h5 _ h7 _ i2 i3 i6 i8 => exact .«for» h0 h1 i2 i3 h4 h5 i6 h7 i8
  | for_none h0 => exact .for_none h0
  | for_var h0 h1 h2 => exact .for_var h0 h1 h2
  | for_var_init h0 h1 h2 h3 _ h5 h6 i4 => exact .for_var_init h0 h1 h2 h3 i4 h5 h6
  | for_expression _ h1 h2 i0 => exact .for_expression i0 h1 h2
  | condition_none => exact .condition_none
  | condition _ h1 i0 => exact .condition i0 h1
  | increment_none => exact .increment_none
  | increment _ h1 i0 => exact .increment i0 h1
  | body_block _ i0 => exact .body_block i0
  | body _ h1 i0 => exact .body i0 h1

theorem entriesBefore_empty {repl l e : Bool} {o : Ends} {x : Tree} (h : Loose repl l o e .entriesBefore [] x v) : o = .closed := by
  generalize hw : ([] : List Token) = w at h
  cases h with
  | entries_nil => rfl
  | entries_comma => simp at hw
  | entries_line => simp at hw

theorem loose_first {repl l e : Bool} {o : Ends} {sym : Sym} {x : Tree} (h : Loose repl l o e sym w x v) : First sym w := by
  induction h with
  | target_plain _ ih => exact ExprHead.mono ih unaryTs_expr
  | target_indented h => exact exprHead_of h (by decide) (by decide)
  | expression _ ih => exact ih
  | assignment _ _ _ _ _ ih => exact ExprHead.append ih
  | assignment_fault _ _ _ _ _ ih => exact ExprHead.append ih
  | operand _ ih => exact first_next ih
  | operator _ _ _ _ ih => exact ExprHead.append ih
  | call _ ih => exact ExprHead.mono ih primaryTs_unary
  | «prefix» h =>
    refine ⟨_, _, rfl, ?_, fun h' => ?_⟩
    · unfold prefixNode at h; split at h <;> first | cases h | skip
      all_goals simp_all [unaryTs]
    · rw [h'] at h; cases h
  | primary _ ih => exact ih
  | property _ _ _ _ ih => exact ExprHead.append ih
  | call_empty _ _ _ _ ih => exact ExprHead.append ih
  | call_args _ _ _ _ _ _ ih => rw [List.append_assoc]; exact ExprHead.append ih
  | call_bare _ _ _ _ _ ih => exact ExprHead.append ih
  | index _ _ _ _ _ _ ih => rw [List.append_assoc]; exact ExprHead.append ih
  | before_nil => exact .inl rfl
  | before _ _ _ _ ih ih' => exact .inr (ExprHead.append (first_or_append ih ih'))
  | arguments _ _ _ ih ih' => exact first_or_append ih ih'
  | arguments_fault _ _ _ ih ih' => exact first_or_append ih ih'
  | entries_nil => exact .inl rfl
  | entries_comma _ hk hc _ _ _ ih =>
    right
    rcases ih with rfl | ih
    · exact keyColon_of hk hc
    · rw [List.append_assoc]; exact KeyColon.append ih
  | entries_line _ hk hc _ _ _ _ ih =>
    right
    rcases ih with rfl | ih
    · exact keyColon_of hk hc
    · rw [List.append_assoc]; exact KeyColon.append ih
  | entries _ hk hc _ ih =>
    rcases ih with rfl | ih
    · exact keyColon_of hk hc
    · exact KeyColon.append ih
  | «false» h | «true» h | nil h | number h | string h => exact exprHead_of h (by decide) (by decide)
  | «variable» h =>
    rcases h with h | h
    · exact exprHead_of h (by decide) (by decide)
    · exact exprHead_of h (by decide) (by decide)
  | map_bare _ ih => exact KeyColon.head ih (by decide) (by decide)
  | map_open h h1 ih =>
    rcases ih with rfl | ih
    · exact absurd (entriesBefore_empty h) h1
    · exact KeyColon.head ih (by decide) (by decide)
  | map_braces h => exact exprHead_of h (by decide) (by decide)
  | map_trailing h => exact exprHead_of h (by decide) (by decide)
  | function_literal h _ ih =>
    obtain ⟨u, r, rfl, hu⟩ := ih
    exact ⟨_, _, rfl, h ▸ by decide, fun _ => ⟨u, r, rfl, hu⟩⟩
  | grouping h =>
    rcases h with h | h
    · exact exprHead_of h (by decide) (by decide)
    · exact exprHead_of h (by decide) (by decide)
  | array h => exact exprHead_of h (by decide) (by decide)
  | array_trailing h => exact exprHead_of h (by decide) (by decide)
  | super h => exact exprHead_of h (by decide) (by decide)
  | parameters_nil => exact .inl rfl
  | parameters _ h _ ih =>
    right
    rcases ih with rfl | ih
    · exact exprHead_of h (by decide) (by decide)
    · exact ih.append
  | function_empty h => exact ⟨_, _, rfl, h⟩
  | function h => exact ⟨_, _, rfl, h⟩
  | block_braces h => exact declHead_of h (by decide)
  | block_indented h => exact declHead_of h (by decide)
  | named h => exact exprHead_of h (by decide) (by decide)
  | methods_nil => exact .inl rfl
  | method _ _ ih ih' =>
    exact .inr (first_or_append ih (ExprHead.mono ih' (by decide)))
  | class_method _ h _ ih => exact .inr (first_or_append ih (exprHead_of h (by decide) (by decide)))
  | declarations_nil => exact .inl rfl
  | declarations _ _ _ ih ih' =>
    right
    rcases ih with rfl | ih
    · exact ih'
    · exact DeclHead.append ih
  | declaration _ ih =>
    obtain ⟨t, r, rfl, ht, -⟩ := ih
    exact ⟨t, r, rfl, by unfold declTs; simp [ht]⟩
  | fun_decl h => exact declHead_of h (by decide)
  | class_braces h => exact declHead_of h (by decide)
  | class_indented h => exact declHead_of h (by decide)
  | subclass_braces h => exact declHead_of h (by decide)
  | subclass_indented h => exact declHead_of h (by decide)
  | var h => exact declHead_of h (by decide)
  | var_init h => exact declHead_of h (by decide)
  | var_open h => exact declHead_of h (by decide)
  | expression_statement _ _ _ _ ih => exact ExprHead.stmt ih
  | expression_last _ _ _ _ ih =>
    have := ExprHead.stmt (v := []) ih
    rwa [List.append_nil] at this
  | «break» h | break_fault h | continue_fault h => exact exprHead_of h (by decide) (by decide)
  | «continue» h => exact exprHead_of h (by decide) (by decide)
  | print h => exact exprHead_of h (by decide) (by decide)
  | return_nil h => exact exprHead_of h (by decide) (by decide)
  | «return» h => exact exprHead_of h (by decide) (by decide)
  | braces h => exact exprHead_of h (by decide) (by decide)
  | «if» h => exact exprHead_of h (by decide) (by decide)
  | if_else h => exact exprHead_of h (by decide) (by decide)
  | «while» h => exact exprHead_of h (by decide) (by decide)
  | «for» h => exact exprHead_of h (by decide) (by decide)
  | for_none | for_var | for_var_init | for_expression | body_block | body => trivial
  | condition_none => exact .inl rfl
  | condition _ _ ih => exact .inr ih
  | increment_none => exact .inl rfl
  | increment _ _ ih => exact .inr ih

/-- How the phrases of a nonterminal can end. -/
def Spec.Sym.ends : Sym → List Ends
  | .primary | .call => [.closed, .call, .map, .callOutdent, .mapOutdent, .comma, .brace]
  | .unary | .binary _ => [.closed, .call, .map, .callOutdent, .mapOutdent, .brace]
  | .target | .expression | .arguments | .entries => [.closed, .call, .map, .outdent, .brace]
  | .entriesBefore => [.closed, .comma, .brace]
  | .forInit => [.closed, .map]
  | .statement | .body => [.closed, .map, .unfinished]
  | .declaration | .declarations => [.closed, .map, .call, .brace, .unfinished]
  | _ => [.closed]

theorem next_ends {p : Prec} {o : Ends} (h : o ∈ p.next.ends) : o ∈ (Sym.binary p).ends := by
  cases p <;> exact h

theorem loose_ends {repl l e : Bool} {o : Ends} {sym : Sym} {x : Tree} (h : Loose repl l o e sym w x v) : o ∈ sym.ends := by
  induction h with
  | target_plain _ ih =>
    have : ∀ o ∈ (Sym.binary .or).ends, o.target ∈ Sym.target.ends := by decide
    exact this _ ih
  | operand _ ih => exact next_ends ih
  | operator _ _ _ _ _ ih => exact next_ends ih
  | call _ ih =>
    have : ∀ o ∈ Sym.call.ends, o.unary ∈ Sym.unary.ends := by decide
    exact this _ ih
  | call_bare _ _ _ _ _ _ ih =>
    have : ∀ o ∈ Sym.arguments.ends, o.bare ∈ Sym.call.ends := by decide
    exact this _ ih
  | map_bare _ ih =>
    have : ∀ o ∈ Sym.entries.ends, o.bareMap ∈ Sym.primary.ends := by decide
    exact this _ ih
  | map_open _ _ ih =>
    have : ∀ o ∈ Sym.entriesBefore.ends, o ∈ Sym.primary.ends := by decide
    exact this _ ih
  | declaration _ ih =>
    have : ∀ o ∈ Sym.statement.ends, o ∈ Sym.declaration.ends := by decide
    exact this _ ih
  | var_init _ _ _ _ _ _ _ ih =>
    have : ∀ o ∈ Sym.expression.ends, o.line ∈ Sym.declaration.ends := by decide
    exact this _ ih
  | var_open _ _ _ _ _ _ ih =>
    have : ∀ o ∈ Sym.expression.ends, o.opened ∈ Sym.declaration.ends := by decide
    exact this _ ih
  | expression_statement _ _ _ _ ih =>
    have : ∀ o ∈ Sym.expression.ends, o.line ∈ Sym.statement.ends := by decide
    exact this _ ih
  | print _ _ _ _ ih =>
    have : ∀ o ∈ Sym.expression.ends, o.line ∈ Sym.statement.ends := by decide
    exact this _ ih
  | «return» _ _ _ _ ih =>
    have : ∀ o ∈ Sym.expression.ends, o.line ∈ Sym.statement.ends := by decide
    exact this _ ih
  | for_expression _ _ _ ih =>
    have : ∀ o ∈ Sym.expression.ends, o.line ∈ Sym.forInit.ends := by decide
    exact this _ ih
  | expression _ ih | «prefix» _ _ ih | body _ _ ih | primary _ ih => exact ih
  | «if» _ _ _ _ _ _ _ ih | «while» _ _ _ _ _ _ _ ih => exact ih
  | assignment _ _ _ _ _ _ ih | arguments _ _ _ _ ih | entries _ _ _ _ _ ih => exact ih
  | assignment_fault _ _ _ _ _ _ ih | arguments_fault _ _ _ _ ih => exact ih
  | if_else _ _ _ _ _ _ _ _ _ _ _ _ ih => exact ih
  | «for» _ _ _ _ _ _ _ _ _ _ _ _ ih => exact ih
  | declarations _ _ _ _ ih => exact ih
  | _ => first | exact .head _ | decide

theorem entriesBefore_nil {repl l e : Bool} {o : Ends} {x : Tree} (h : Plain repl l o e .entriesBefore [] x) : o = .closed :=
  entriesBefore_empty (plain_loose h)

theorem plain_first {repl l e : Bool} {o : Ends} {sym : Sym} {x : Tree} (h : Plain repl l o e sym w x) : First sym w :=
  loose_first (plain_loose h)

theorem plain_ends {repl l e : Bool} {o : Ends} {sym : Sym} {x : Tree} (h : Plain repl l o e sym w x) : o ∈ sym.ends :=
  loose_ends (plain_loose h)

end Ws
