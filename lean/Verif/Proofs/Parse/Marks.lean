import Verif.Proofs.Parse.Continue
import Verif.Spec.Viable
/-! What was consumed before an error can be continued: the rules. -/
namespace Ws
open Spec

variable {α β σ : Type} {env : Env} {T : List Token} {p p₀ p1 p' p'' : Parser} {w w' u v s : List Token} {r : Rec} {n k : Nat} {sym sym' : Sym}
  {B B' : Nat → Prop}

/-- The parser is at a token of `T`. -/
structure On (env : Env) (T : List Token) (p : Parser) : Prop where
  ready : Ready env p
  tokens : p.tokens = T

theorem Moves.on (m : Moves p w p') (g : On env T p) : On env T p' := ⟨m.good g.ready, by rw [m.tokens]; exact g.tokens⟩

/-- If `x` started in `p` returns, then `Q` holds. If it fails, the error is found at a position where `B` holds, at most one
token past it. -/
def Marks (T : List Token) (x : P α) (Q : α → Parser → Prop) (B : Nat → Prop) (p : Parser) : Prop :=
  match x p with
  | .ok a p' => Q a p'
  | .err e p' => ∃ k, Points T k e ∧ B k ∧ p'.current ≤ k + 1
  | .panic _ => True
  | .diverge => True

theorem marks_of_wp {x : P α} {Q : α → Parser → Prop} (h : wp x Q (fun _ _ => False) p) : Marks T x Q B p := by
  unfold wp at h
  unfold Marks
  split <;> rename_i hx <;> rw [hx] at h
  · exact h
  · exact h.elim
  · trivial
  · trivial

theorem marks_mono {x : P α} {Q Q' : α → Parser → Prop} (h : Marks T x Q B p) (hq : ∀ a p', Q a p' → Q' a p') (hb : ∀ k, B k → B' k) :
    Marks T x Q' B' p := by
  unfold Marks at *
  split <;> rename_i hx <;> rw [hx] at h
  · exact hq _ _ h
  · obtain ⟨k, h1, h2, h3⟩ := h
    exact ⟨k, h1, hb k h2, h3⟩
  · trivial
  · trivial

/-- With what is already known of the results. -/
theorem marks_with {x : P α} {Q Q₁ : α → Parser → Prop} (hg : Gives x Q₁ p) (h : Marks T x Q B p) : Marks T x (fun a p' => Q₁ a p' ∧ Q a p') B p := by
  unfold Marks at *
  split <;> rename_i hx <;> rw [hx] at h
  · exact ⟨hg _ _ hx, h⟩
  · exact h
  · trivial
  · trivial

theorem marks_bind {x : P α} {f : α → P β} {Q : β → Parser → Prop} (h : Marks T x (fun a p' => Marks T (f a) Q B p') B p) :
    Marks T (x >>= f) Q B p := by
  unfold Marks at h
  unfold Marks
  show match M.bind x f p with
    | .ok a p' => Q a p'
    | .err e p' => ∃ k, Points T k e ∧ B k ∧ p'.current ≤ k + 1
    | .panic _ => True
    | .diverge => True
  unfold M.bind
  cases hx : x p with
  | ok a q => rw [hx] at h; exact h
  | err e q => rw [hx] at h; exact h
  | panic m => trivial
  | diverge => trivial

theorem marks_seq {x : P α} {f : α → P β} {Q : β → Parser → Prop} (Q₁ : α → Parser → Prop) (h : Marks T x Q₁ B p)
    (hf : ∀ a p', Q₁ a p' → Marks T (f a) Q B p') : Marks T (x >>= f) Q B p := marks_bind (marks_mono h hf fun _ h => h)

/-- A part of which both theorems are known. -/
theorem marks_run {x : P α} {f : α → P β} {Q Q₁ : α → Parser → Prop} {Q₂ : β → Parser → Prop} (hg : Gives x Q₁ p)
    (h : Marks T x Q B' p) (hb : ∀ k, B' k → B k) (hf : ∀ a p', Q₁ a p' → Q a p' → Marks T (f a) Q₂ B p') : Marks T (x >>= f) Q₂ B p :=
  marks_bind (marks_mono (marks_with hg h) (fun a p' h => hf a p' h.1 h.2) hb)

theorem marks_pure {a : α} {Q : α → Parser → Prop} (h : Q a p) : Marks T (pure a) Q B p := h

theorem marks_query {f : Parser → α} {g : α → P β} {Q : β → Parser → Prop} (h : Marks T (g (f p)) Q B p) : Marks T (query f >>= g) Q B p :=
  marks_bind h

theorem marks_throw {c : Cause} {Q : α → Parser → Prop} (h : Points T k c) (hb : B k) (hc : p.current ≤ k + 1) :
    Marks T (M.throw c) Q B p := ⟨k, h, hb, hc⟩

theorem marks_panic {m : String} {Q : α → Parser → Prop} : Marks T (M.panic m) Q B p := trivial

theorem marks_loop {body : σ → P (Step σ β)} {Q : β → Parser → Prop} {a : σ} (I : σ → Parser → Prop)
    (h : ∀ a p, I a p → Marks T (body a) (fun s p' => match s with
      | .next a' => I a' p'
      | .stop b => Q b p') B p) (hi : I a p) : Marks T (loop body a) Q B p := by
  have key : ∀ n a p, I a p → Marks T (loopFuel body n a) Q B p := by
    intro n
    induction n with
    | zero => intro a p _; trivial
    | succ n ih =>
      intro a p hi
      unfold loopFuel
      refine marks_seq _ (h a p hi) ?_
      intro s p' hs
      cases s with
      | next a' => exact ih a' p' hs
      | stop b => exact marks_pure hs
  exact key _ a p hi

/-! ### Elementary functions -/

theorem marks_errorFromPeek {message : String} {Q : α → Parser → Prop} (g : On env T p) (hb : B p.current) :
    Marks T (errorFromPeek env message) Q B p := by
  obtain ⟨t, r, hr⟩ := g.ready.cons
  have hp : p.peek = some t := by rw [Parser.peek_eq, hr]; rfl
  unfold Marks
  rw [errorFromPeek_some hp]
  refine ⟨p.current, .here ⟨t, ?_, rfl, rfl⟩, hb, Nat.le_succ _⟩
  rw [← g.tokens]
  exact hp

/-- An error about the last token. -/
theorem marks_errorFromLast {message : String} {Q : α → Parser → Prop} {t : Token} (g : On env T p₀) (m : Moves p₀ (w ++ [t]) p)
    (hb : B (p₀.current + w.length)) : Marks T (errorFromLast env message) Q B p := by
  have hc : p.current = p₀.current + w.length + 1 := by rw [m.current]; simp [Nat.add_assoc]
  have ht : p₀.tokens[p₀.current + w.length]? = some t := by
    have h := m.rest
    have : p₀.rest[w.length]? = some t := by rw [h]; simp
    rwa [Parser.rest, List.getElem?_drop] at this
  unfold Marks
  rw [errorFromLast_eq, if_neg (by omega)]
  have : p.tokens[p.current - 1]? = some t := by rw [m.tokens, hc]; exact ht
  rw [this]
  exact ⟨_, .here ⟨t, by rw [← g.tokens]; exact ht, rfl, rfl⟩, hb, by omega⟩

theorem marks_match {tt : TokenType} {Q : Bool → Parser → Prop} (g : On env T p)
    (h1 : ∀ t p', t.tokenType = tt → p.rest = t :: p'.rest → Moves p [t] p' → Q true p')
    (h2 : ∀ t r, p.rest = t :: r → (t.tokenType = .eof ∨ t.tokenType ≠ tt) → Q false p) : Marks T (matchToken tt) Q B p :=
  marks_of_wp (wp_matchToken g.ready h1 h2)

theorem marks_matches {tts : List TokenType} {Q : Option (TokenType × SourceLoc) → Parser → Prop} (g : On env T p) (hne : TokenType.eof ∉ tts)
    (h1 : ∀ t p', t.tokenType ∈ tts → p.rest = t :: p'.rest → Moves p [t] p' → Q (some (t.tokenType, t.loc)) p')
    (h2 : ∀ t r, p.rest = t :: r → t.tokenType ∉ tts → Q none p) : Marks T (matchesAny tts) Q B p :=
  marks_of_wp (wp_matchesAny g.ready hne h1 h2)

theorem marks_advance {t : Token} {r' : List Token} {Q : Unit → Parser → Prop} (hr : p.rest = t :: r') (ht : t.tokenType ≠ .eof)
    (h : ∀ p', Moves p [t] p' → p'.rest = r' → Q () p') : Marks T advanceP Q B p :=
  marks_of_wp (wp_advanceP hr ht fun p' m hr' => h p' m (by rw [hr] at hr'; exact (List.cons.inj hr').2.symm))

theorem marks_consumeAny {tts : List TokenType} {message : String} {Q : Unit → Parser → Prop} (g : On env T p) (hne : TokenType.eof ∉ tts)
    (hb : B p.current) (h : ∀ t p', t.tokenType ∈ tts → p.rest = t :: p'.rest → Moves p [t] p' → Q () p') :
    Marks T (consumeAnyOf env tts message) Q B p := by
  unfold consumeAnyOf
  refine marks_bind (marks_matches g hne ?_ ?_)
  · intro t p' ht hr m
    exact marks_pure (h t p' ht hr m)
  · intro t r hr ht
    exact marks_errorFromPeek g hb

theorem marks_consume {tt : TokenType} {message : String} {Q : Unit → Parser → Prop} (g : On env T p) (hne : tt ≠ .eof) (hb : B p.current)
    (h : ∀ t p', t.tokenType = tt → p.rest = t :: p'.rest → Moves p [t] p' → Q () p') : Marks T (consume env tt message) Q B p :=
  marks_consumeAny g (by simpa using hne.symm) hb fun t p' ht => h t p' (by simpa using ht)

theorem marks_identifier {message : String} {Q : Str × SourceLoc → Parser → Prop} (g : On env T p) (hb : B p.current)
    (h : ∀ t p', t.tokenType = .identifier → p.rest = t :: p'.rest → Moves p [t] p' → Q (t.lexeme, t.loc) p') :
    Marks T (consumeIdentifier env message) Q B p := by
  obtain ⟨t, r, hr⟩ := g.ready.cons
  unfold consumeIdentifier
  refine marks_query ?_
  rw [Parser.peek_eq, hr]
  show Marks T (if t.tokenType = .identifier then _ else _) Q B p
  split
  · rename_i ht
    obtain ⟨hm, hrest⟩ := advance_moves hr (by rw [ht]; decide)
    exact marks_bind (marks_of_wp (h t _ ht (by rw [hrest]; exact hr) hm))
  · exact marks_errorFromPeek g hb

theorem marks_beginBlock {message : String} {Q : TokenType → Parser → Prop} (g : On env T p) (hb : B p.current)
    (hb' : ∀ t p', t.tokenType = .terminator → Moves p [t] p' → B p'.current)
    (h : ∀ w endBlock p', BlockTokens w endBlock → Moves p w p' → Q endBlock p') : Marks T (consumeBeginBlock env message) Q B p := by
  unfold consumeBeginBlock
  refine marks_bind (marks_matches g (by decide) ?_ ?_)
  · intro t p' ht hr m'
    simp only [List.mem_cons, List.not_mem_nil, or_false] at ht
    rcases ht with ht | ht
    · rw [ht]
      refine marks_bind (marks_consume (m'.on g) (by decide) (hb' t p' ht m') ?_)
      intro i p'' hi hr' m''
      exact marks_pure (h [t, i] .outdent p'' (.inr ⟨t, i, ht, hi, rfl, rfl⟩) (m'.trans m''))
    · rw [ht]
      exact marks_pure (h [t] .rightBrace p' (.inl ⟨t, ht, rfl, rfl⟩) m')
  · intro t r hr ht
    exact marks_errorFromPeek g hb

theorem marks_endBlock {endBlock : TokenType} {after : String} {Q : Unit → Parser → Prop} (g : On env T p)
    (he : endBlock = .rightBrace ∨ endBlock = .outdent) (hb : B p.current)
    (h : ∀ t p', t.tokenType = endBlock → p.rest = t :: p'.rest → Moves p [t] p' → Q () p') :
    Marks T (consumeEndBlock env endBlock after) Q B p := by
  unfold consumeEndBlock
  refine marks_bind (marks_matches g (by rcases he with rfl | rfl <;> decide) ?_ ?_)
  · intro t p' ht hr m'
    exact marks_pure (h t p' (by simpa using ht) hr m')
  · intro t r hr ht
    rcases he with rfl | rfl
    · exact marks_errorFromPeek g hb
    · exact marks_errorFromPeek g hb

/-! ### Beginnings of phrases -/

/-- The tokens of `R`, which start at the position `c`, can be continued to a phrase from the position `k` on. -/
def Can (repl l : Bool) (R : List Token) (c : Nat) (sym : Sym) (k : Nat) : Prop :=
  ∃ w s v o, R = w ++ s ∧ k = c + w.length ∧ Forms repl l o sym (w ++ v) ∧ o.Good ∧ Fills v ∧ (KeyColon (w ++ v) → KeyColon R)

/-- The tokens from the current one on can be continued to a phrase from the position `k` on. -/
abbrev Live (p : Parser) (sym : Sym) (k : Nat) : Prop :=
  Can p.allowTrailing (decide (0 < p.inLoops)) p.rest p.current sym k

/-- Tokens that may be added at the end of a phrase. -/
def Tail (w : List Token) : Prop := ∀ t ∈ w, t.tokenType ≠ .colon ∧ t.tokenType ≠ .eof ∧ t.tokenType ≠ .number ∧ t.tokenType ≠ .string ∧ t.tokenType ≠ .equal

theorem tail_blanks {tts : List TokenType} (h : tts.all (fun t => t ∉ [TokenType.colon, .eof, .number, .string, .equal]) = true) :
    Tail (tts.map blank) := by
  intro t ht
  obtain ⟨tt, htt, rfl⟩ := List.mem_map.1 ht
  have := List.all_eq_true.1 h tt htt
  simpa [blank] using this

theorem tail_nil : Tail [] := by intro t h; cases h

theorem Tail.safe (h : Tail w) : Fills w := fun t ht => (h t ht).2

/-- Whether tokens start like a map entry does not change at their end. -/
theorem keyColon_tail (ht : Tail w') (h : KeyColon (w ++ w')) : KeyColon w := by
  obtain ⟨a, c, r, h1, h2, h3⟩ := h
  cases w with
  | nil => exact absurd h3 (ht c (by rw [show w' = a :: c :: r by simpa using h1]; simp)).1
  | cons b w =>
    cases w with
    | nil =>
      cases w' with
      | nil => simp at h1
      | cons d w' =>
        simp only [List.cons_append, List.nil_append, List.cons.injEq] at h1
        exact absurd (h1.2.1 ▸ h3) (ht d (by simp)).1
    | cons d w =>
      simp only [List.cons_append, List.cons.injEq] at h1
      exact ⟨b, d, w, rfl, h1.1 ▸ h2, h1.2.1 ▸ h3⟩

theorem keyColon_two (hw : 2 ≤ w.length) (h : KeyColon (w ++ w')) : KeyColon w := by
  obtain ⟨t, c, r, h1, h2, h3⟩ := h
  cases w with
  | nil => simp at hw
  | cons a w =>
    cases w with
    | nil => simp at hw
    | cons b w =>
      simp only [List.cons_append, List.cons.injEq] at h1
      exact ⟨a, b, w, rfl, h1.1 ▸ h2, h1.2.1 ▸ h3⟩

/-- No phrase that follows something starts with a colon. -/
theorem first_colon (h : First sym w) (h1 : sym ≠ .body) (h2 : sym ≠ .forInit) : ∀ t r, w = t :: r → t.tokenType ≠ .colon := by
  have e : ∀ ts, TokenType.colon ∉ ts → ExprHead ts w → ∀ t r, w = t :: r → t.tokenType ≠ .colon := by
    rintro ts hts ⟨t, r, rfl, ht, -⟩ _ _ hs hc
    cases hs
    exact hts (hc ▸ ht)
  have d : ∀ ts, TokenType.colon ∉ ts → DeclHead ts w → ∀ t r, w = t :: r → t.tokenType ≠ .colon := by
    rintro ts hts ⟨t, r, rfl, ht⟩ _ _ hs hc
    cases hs
    exact hts (hc ▸ ht)
  have k : KeyColon w → ∀ t r, w = t :: r → t.tokenType ≠ .colon := by
    rintro ⟨t, c, r, rfl, ht, -⟩ _ _ hs hc
    cases hs
    rw [hc] at ht
    rcases ht with ht | ht <;> cases ht
  have nil : w = [] → ∀ t r, w = t :: r → t.tokenType ≠ .colon := by
    rintro rfl _ _ hs
    cases hs
  cases sym with
  | body => exact absurd rfl h1
  | forInit => exact absurd rfl h2
  | function loc =>
    obtain ⟨t, r, rfl, ht⟩ := h
    rintro _ _ hs hc
    cases hs
    rcases ht with ht | ht <;> rw [ht] at hc <;> cases hc
  | expression | target | arguments | binary | unary | call | primary | named | statement => exact e _ (by decide) h
  | before | forCondition | forIncrement | parametersBefore | methods => exact h.elim nil (e _ (by decide))
  | entriesBefore => exact h.elim nil k
  | entries => exact k h
  | block | declaration => exact d _ (by decide) h
  | declarations => exact h.elim nil (d _ (by decide))

theorem live_start {o : Ends} (hf : Forms p.allowTrailing (decide (0 < p.inLoops)) o sym v) (ho : o.Good) (ht : Tail v) :
    Live p sym p.current :=
  ⟨[], p.rest, v, o, rfl, rfl, hf, ho, ht.safe, fun h => by
    obtain ⟨_, _, _, h, -⟩ := keyColon_tail (w := []) ht h
    cases h⟩

/-- Whatever was parsed can be continued. -/
theorem live_of {o : Ends} {e : Bool} {x : Tree} (m : Moves p w p') (h : PL p o e sym w x) (hs : sym ≠ .entriesBefore) :
    Live p sym p'.current := by
  obtain ⟨v, o', h1, h2, h3, h4⟩ := completes h hs
  exact ⟨w, p'.rest, v, o', m.rest, m.current, h1, h2, h3, fun h => by rw [m.rest]; exact KeyColon.append (h4 h)⟩

/-- A part of a phrase. -/
theorem live_wrap {l : Bool} (m : Moves p₀ u p1) (hu : u = [] ∨ (sym' ≠ .body ∧ sym' ≠ .forInit) ∨ 2 ≤ u.length)
    (h : ∀ w s v o, p1.rest = w ++ s → k = p1.current + w.length → Forms p₀.allowTrailing l o sym' (w ++ v) → o.Good →
      (KeyColon (w ++ v) → KeyColon p1.rest) →
      ∃ tail o', Forms p₀.allowTrailing (decide (0 < p₀.inLoops)) o' sym (u ++ (w ++ v) ++ tail) ∧ o'.Good ∧ Tail tail)
    (hl : Can p1.allowTrailing l p1.rest p1.current sym' k) : Live p₀ sym k := by
  obtain ⟨w, s, v, o, h1, h2, h3, h4, h5, h6⟩ := hl
  rw [m.allow] at h3
  obtain ⟨tail, o', h7, h8, h9⟩ := h w s v o h1 h2 h3 h4 h6
  refine ⟨u ++ w, s, v ++ tail, o', by rw [m.rest, h1, List.append_assoc], ?_, by simpa using h7, h8, h5.append h9.safe, fun hk => ?_⟩
  · rw [h2, m.current]; simp [Nat.add_assoc]
  · have hk : KeyColon (u ++ (w ++ v)) := keyColon_tail h9 (by simpa using hk)
    rw [m.rest]
    rcases hu with rfl | hu | hu
    · exact h6 hk
    · cases u with
      | nil => exact h6 hk
      | cons a u =>
        by_cases hu' : u = []
        · subst hu'
          obtain ⟨b, c, r, hs, -, hc⟩ := hk
          simp only [List.cons_append, List.nil_append, List.cons.injEq] at hs
          exact absurd hc (first_colon h3.first hu.1 hu.2 c r hs.2)
        · exact KeyColon.append (keyColon_two (Nat.succ_le_succ (List.length_pos_iff.2 hu')) hk)
    · exact KeyColon.append (keyColon_two hu hk)

theorem Live.wrap (m : Moves p₀ u p1) (hu : u = [] ∨ (sym' ≠ .body ∧ sym' ≠ .forInit) ∨ 2 ≤ u.length)
    (h : ∀ w o, Forms p₀.allowTrailing (decide (0 < p₀.inLoops)) o sym' w → o.Good →
      ∃ tail o', Forms p₀.allowTrailing (decide (0 < p₀.inLoops)) o' sym (u ++ w ++ tail) ∧ o'.Good ∧ Tail tail)
    (hl : Live p1 sym' k) : Live p₀ sym k :=
  live_wrap m hu (fun w _ v o _ _ hf ho _ => h (w ++ v) o hf ho) (by rw [← m.inLoops]; exact hl)

/-- A part of a phrase that matters only once it has tokens. -/
theorem Live.wrap_ne (m : Moves p₀ u p1) (hu : u = [] ∨ (sym' ≠ .body ∧ sym' ≠ .forInit) ∨ 2 ≤ u.length) (h0 : Live p₀ sym p1.current)
    (h : ∀ t w s v o, p1.rest = t :: w ++ s → Forms p₀.allowTrailing (decide (0 < p₀.inLoops)) o sym' (t :: w ++ v) → o.Good →
      (KeyColon (t :: w ++ v) → KeyColon p1.rest) →
      ∃ tail o', Forms p₀.allowTrailing (decide (0 < p₀.inLoops)) o' sym (u ++ (t :: w ++ v) ++ tail) ∧ o'.Good ∧ Tail tail)
    (hl : Live p1 sym' k) : Live p₀ sym k := by
  by_cases hk : k = p1.current
  · rw [hk]; exact h0
  · refine live_wrap (l := decide (0 < p₀.inLoops)) m hu ?_ (by rw [← m.inLoops]; exact hl)
    intro w s v o h1 h2 h3 h4 h5
    cases w with
    | nil => exact absurd h2 hk
    | cons t w => exact h t w s v o h1 h3 h4 h5

theorem Live.down (h : ∀ w o, Forms p.allowTrailing (decide (0 < p.inLoops)) o sym' w → o.Good →
      ∃ o', Forms p.allowTrailing (decide (0 < p.inLoops)) o' sym w ∧ o'.Good) (hl : Live p sym' k) : Live p sym k := by
  obtain ⟨w, s, v, o, h1, h2, h3, h4, h5, h6⟩ := hl
  obtain ⟨o', h7, h8⟩ := h _ _ h3 h4
  exact ⟨w, s, v, o', h1, h2, h7, h8, h5, h6⟩

/-- What was consumed is the beginning of a phrase. -/
theorem live_then {o : Ends} (m : Moves p w p') (hf : Forms p.allowTrailing (decide (0 < p.inLoops)) o sym (w ++ v)) (ho : o.Good) (ht : Tail v) :
    Live p sym p'.current :=
  ⟨w, p'.rest, v, o, m.rest, m.current, hf, ho, ht.safe, fun h => by rw [m.rest]; exact KeyColon.append (keyColon_tail ht h)⟩

theorem On.at {t : Token} (g : On env T p) (hr : p.rest = t :: s) : T[p.current]? = some t := by
  have : p.peek = some t := by rw [Parser.peek_eq, hr]; rfl
  rw [← g.tokens]
  exact this

end Ws
