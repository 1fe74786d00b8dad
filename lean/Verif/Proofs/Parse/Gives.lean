import Verif.Proofs.Parse.Complete
/-! What the parser has consumed when it returns, and what it has looked at. -/
namespace Ws
open Spec

variable {α β σ : Type} {env : Env} {p p₀ p' p'' : Parser} {w w' s : List Token} {r : Rec} {n : Nat}

/-- If `x` started in `p` returns, then `Q` holds. -/
def Gives (x : P α) (Q : α → Parser → Prop) (p : Parser) : Prop := ∀ a p', x p = .ok a p' → Q a p'

theorem gives_of_wp {x : P α} {Q : α → Parser → Prop} {E : Cause → Parser → Prop} (h : wp x Q E p) : Gives x Q p := by
  intro a p' hx
  unfold wp at h
  rw [hx] at h
  exact h

theorem gives_mono {x : P α} {Q Q' : α → Parser → Prop} (h : Gives x Q p) (hq : ∀ a p', Q a p' → Q' a p') : Gives x Q' p :=
  fun a p' hx => hq a p' (h a p' hx)

theorem gives_bind {x : P α} {f : α → P β} {Q : β → Parser → Prop} (h : Gives x (fun a p' => Gives (f a) Q p') p) :
    Gives (x >>= f) Q p := by
  intro b p' hx
  change M.bind x f p = _ at hx
  unfold M.bind at hx
  cases h1 : x p with
  | ok a q => rw [h1] at hx; exact h a q h1 b p' hx
  | err e q => rw [h1] at hx; cases hx
  | panic m => rw [h1] at hx; cases hx
  | diverge => rw [h1] at hx; cases hx

theorem gives_seq {x : P α} {f : α → P β} {Q : β → Parser → Prop} (Q₁ : α → Parser → Prop) (h : Gives x Q₁ p)
    (hf : ∀ a p', Q₁ a p' → Gives (f a) Q p') : Gives (x >>= f) Q p := gives_bind (gives_mono h hf)

theorem gives_pure {a : α} {Q : α → Parser → Prop} (h : Q a p) : Gives (pure a) Q p := by
  intro b p' hx
  cases hx
  exact h

theorem gives_query {f : Parser → α} {k : α → P β} {Q : β → Parser → Prop} (h : Gives (k (f p)) Q p) : Gives (query f >>= k) Q p := by
  refine gives_bind ?_
  intro b p' hx
  cases hx
  exact h

theorem gives_throw {c : Cause} {Q : α → Parser → Prop} : Gives (M.throw c) Q p := by
  intro a p' hx; cases hx

theorem gives_panic {m : String} {Q : α → Parser → Prop} : Gives (M.panic m) Q p := by
  intro a p' hx; cases hx

theorem gives_loop {body : σ → P (Step σ β)} {Q : β → Parser → Prop} {a : σ} (I : σ → Parser → Prop)
    (h : ∀ a p, I a p → Gives (body a) (fun s p' => match s with
      | .next a' => I a' p'
      | .stop b => Q b p') p) (hi : I a p) : Gives (loop body a) Q p := by
  have key : ∀ n a p, I a p → Gives (loopFuel body n a) Q p := by
    intro n
    induction n with
    | zero => intro a p _ b p' hx; cases hx
    | succ n ih =>
      intro a p hi
      unfold loopFuel
      refine gives_seq _ (h a p hi) ?_
      intro s p' hs
      cases s with
      | next a' => exact ih a' p' hs
      | stop b => exact gives_pure hs
  exact key _ a p hi

theorem gives_errorFromPeek {message : String} {Q : α → Parser → Prop} (g : Ready env p) : Gives (errorFromPeek env message) Q p :=
  gives_of_wp (wp_errorFromPeek g)

theorem gives_errorFromLast {message : String} {Q : α → Parser → Prop} : Gives (errorFromLast env message) Q p := by
  unfold errorFromLast
  refine gives_seq (fun _ _ => True) (fun _ _ _ => trivial) ?_
  intro t q _
  split <;> exact gives_seq (fun _ _ => True) (fun _ _ _ => trivial) fun _ _ _ => gives_throw

theorem gives_match {tt : TokenType} {Q : Bool → Parser → Prop} (g : Ready env p)
    (h1 : ∀ t p', t.tokenType = tt → p.rest = t :: p'.rest → Moves p [t] p' → Q true p')
    (h2 : ∀ t r, p.rest = t :: r → (t.tokenType = .eof ∨ t.tokenType ≠ tt) → Q false p) : Gives (matchToken tt) Q p :=
  gives_of_wp (E := fun _ _ => True) (wp_matchToken g h1 h2)

theorem gives_matches {tts : List TokenType} {Q : Option (TokenType × SourceLoc) → Parser → Prop} (g : Ready env p) (hne : TokenType.eof ∉ tts)
    (h1 : ∀ t p', t.tokenType ∈ tts → p.rest = t :: p'.rest → Moves p [t] p' → Q (some (t.tokenType, t.loc)) p')
    (h2 : ∀ t r, p.rest = t :: r → t.tokenType ∉ tts → Q none p) : Gives (matchesAny tts) Q p :=
  gives_of_wp (E := fun _ _ => True) (wp_matchesAny g hne h1 h2)

theorem gives_consumeAny {tts : List TokenType} {message : String} {Q : Unit → Parser → Prop} (g : Ready env p) (hne : TokenType.eof ∉ tts)
    (h : ∀ t p', t.tokenType ∈ tts → p.rest = t :: p'.rest → Moves p [t] p' → Q () p') :
    Gives (consumeAnyOf env tts message) Q p :=
  gives_of_wp (wp_consumeAnyOf g (Moves.refl p) hne h)

theorem gives_consume {tt : TokenType} {message : String} {Q : Unit → Parser → Prop} (g : Ready env p) (hne : tt ≠ .eof)
    (h : ∀ t p', t.tokenType = tt → p.rest = t :: p'.rest → Moves p [t] p' → Q () p') : Gives (consume env tt message) Q p :=
  gives_consumeAny g (by simpa using hne.symm) fun t p' ht => h t p' (by simpa using ht)

theorem gives_identifier {message : String} {Q : Str × SourceLoc → Parser → Prop} (g : Ready env p)
    (h : ∀ t p', t.tokenType = .identifier → p.rest = t :: p'.rest → Moves p [t] p' → Q (t.lexeme, t.loc) p') :
    Gives (consumeIdentifier env message) Q p :=
  gives_of_wp (wp_consumeIdentifier g (Moves.refl p) h)

theorem gives_beginBlock {message : String} {Q : TokenType → Parser → Prop} (g : Ready env p)
    (h : ∀ w endBlock p', BlockTokens w endBlock → Moves p w p' → Q endBlock p') : Gives (consumeBeginBlock env message) Q p :=
  gives_of_wp (wp_consumeBeginBlock g (Moves.refl p) fun w eb p' hb _ m => h w eb p' hb m)

theorem gives_endBlock {endBlock : TokenType} {after : String} {Q : Unit → Parser → Prop} (g : Ready env p)
    (he : endBlock = .rightBrace ∨ endBlock = .outdent)
    (h : ∀ t p', t.tokenType = endBlock → p.rest = t :: p'.rest → Moves p [t] p' → Q () p') :
    Gives (consumeEndBlock env endBlock after) Q p :=
  gives_of_wp (wp_consumeEndBlock g (Moves.refl p) (.inl trivial) he fun _ t p' ht m => h t p' ht m.head m)

theorem gives_advance {t : Token} {r' : List Token} {Q : Unit → Parser → Prop} (hr : p.rest = t :: r') (ht : t.tokenType ≠ .eof)
    (h : ∀ p', Moves p [t] p' → p'.rest = r' → Q () p') : Gives advanceP Q p :=
  gives_of_wp (E := fun _ _ => True) (wp_advanceP hr ht fun p' m hr' => h p' m (by rw [hr] at hr'; exact (List.cons.inj hr').2.symm))

/-! ### What follows an expression -/

/-- `reach`, but a colon does not continue an expression. -/
def rank : TokenType → Nat
  | .comma => 1
  | .equal => 2
  | .or => 3
  | .and => 4
  | .bangEqual | .equalEqual => 5
  | .less | .greater | .lessEqual | .greaterEqual => 6
  | .minus | .plus => 7
  | .slash | .star => 8
  | .dot | .leftParenAbutting | .leftBracket => 10
  | .false | .true | .nil | .number | .string | .identifier | .fun | .leftParen | .leftBrace | .super => 10
  | _ => 0

theorem rank_le (t : TokenType) : rank t ≤ 10 := by cases t <;> decide

/-- The tokens do not continue an expression that ends like `o`, at a level above `b`. -/
structure Halt (o : Ends) (b : Nat) (s : List Token) : Prop where
  le : o ≠ .outdent ∨ 2 < b → ∀ t r, s = t :: r → rank t.tokenType ≤ b
  eq : o = .outdent → ∀ t r, s = t :: r → rank t.tokenType = 2 → 2 ≤ b
  zero : o = .call ∨ o = .map ∨ o = .brace → ∀ t r, s = t :: r → rank t.tokenType = 0
  skip : o = .callOutdent ∨ o = .mapOutdent → ∀ t r, s = t :: r → rank t.tokenType ≠ 1 ∧ rank t.tokenType ≠ 2
  map : o = .map ∨ o = .mapOutdent → ¬ MapOn s
  key : o = .comma → ¬ KeyColon s
  brace : o = .brace → ∀ t r, s = t :: r → t.tokenType = .rightBrace

variable {o o' : Ends} {b b' : Nat}

theorem halt_closed (hs : ∀ t r, s = t :: r → rank t.tokenType ≤ b) : Halt .closed b s :=
  ⟨fun _ => hs, by simp, by simp, by simp, by simp, by simp, by simp⟩

theorem Halt.whole {t : Token} (h : Halt o b (t :: s)) (ho : o ∈ Sym.call.ends) (ht : rank t.tokenType ≠ 0) : o.whole := by
  have h1 := h.zero
  have : ¬ (o = .call ∨ o = .map ∨ o = .brace) := fun h' => ht (h1 h' t s rfl)
  revert ho this
  cases o <;> simp [Ends.whole, Sym.ends]

theorem Halt.item {t : Token} (h : Halt o b (t :: s)) (ho : o ∈ Sym.expression.ends) (ht : rank t.tokenType ≠ 0) : o.item := by
  have h1 := h.zero
  have : ¬ (o = .call ∨ o = .map ∨ o = .brace) := fun h' => ht (h1 h' t s rfl)
  revert ho this
  cases o <;> simp [Ends.item, Sym.ends]

theorem Halt.not_brace {t : Token} {tt : TokenType} (h : Halt o b (t :: s)) (ht : t.tokenType = tt) (hn : tt ≠ .rightBrace) : o ≠ .brace :=
  fun ho => hn (ht.symm.trans (h.brace ho t s rfl))

/-- A level of operators ends. -/
theorem Halt.down (h : Halt o (b + 1) s) (hb : 2 ≤ b) (ht : ∀ t r, s = t :: r → rank t.tokenType ≠ b + 1) : Halt o b s := by
  refine ⟨fun _ t r hs => ?_, fun ho t r hs h2 => by omega, h.zero, h.skip, h.map, h.key, h.brace⟩
  have := h.le (.inr (by omega)) t r hs
  have := ht t r hs
  omega

theorem Halt.unary (h : Halt o 10 s) (ht : ∀ t r, s = t :: r → rank t.tokenType ≠ 10) : Halt o.unary 8 s := by
  have hle : ∀ t r, s = t :: r → rank t.tokenType ≤ 8 := by
    intro t r hs
    have := ht t r hs
    revert this
    cases t.tokenType <;> simp [rank]
  by_cases ho : o = .comma
  · subst ho; exact halt_closed hle
  · have : o.unary = o := by cases o <;> first | rfl | exact absurd rfl ho
    rw [this]
    exact ⟨fun _ => hle, fun _ _ _ _ _ => by decide, h.zero, h.skip, h.map, h.key, h.brace⟩

theorem Halt.target (h : Halt o 2 s) (ho : o ≠ .outdent) : Halt o.target 2 s := by
  by_cases ho' : o = .callOutdent ∨ o = .mapOutdent
  · have h0 : ∀ t r, s = t :: r → rank t.tokenType = 0 := by
      intro t r hs
      have h1 := h.skip ho' t r hs
      have h2 := h.le (.inl ho) t r hs
      omega
    have hm : o.target = .map → ¬ MapOn s := by
      intro h'
      refine h.map (.inr ?_)
      rcases ho' with rfl | rfl
      · cases h'
      · rfl
    refine ⟨fun _ t r hs => by rw [h0 t r hs]; decide, fun _ t r hs h2 => absurd h2 (by rw [h0 t r hs]; decide), fun _ => h0,
      fun _ t r hs => by rw [h0 t r hs]; decide, ?_, ?_, ?_⟩
    · rintro (h' | h')
      · exact hm h'
      · rcases ho' with rfl | rfl <;> cases h'
    · intro h'; rcases ho' with rfl | rfl <;> cases h'
    · intro h'; rcases ho' with rfl | rfl <;> cases h'
  · have : o.target = o := by cases o <;> first | rfl | simp at ho'
    rwa [this]

theorem halt_outdent : Halt .outdent 2 s :=
  ⟨by simp, fun _ _ _ _ _ => Nat.le_refl _, by simp, by simp, by simp, by simp, by simp⟩

theorem Halt.expression (h : Halt o 2 s) (ht : ∀ t r, s = t :: r → rank t.tokenType ≠ 2) : Halt o 1 s := by
  refine ⟨fun ho t r hs => ?_, fun ho t r hs h2 => absurd h2 (ht t r hs), h.zero, h.skip, h.map, h.key, h.brace⟩
  have := h.le (.inl (ho.resolve_right (by decide))) t r hs
  have := ht t r hs
  omega

theorem Halt.last (h : Halt o 1 s) (ht : ∀ t r, s = t :: r → rank t.tokenType ≠ 1) (ho : o ≠ .outdent) :
    ∀ t r, s = t :: r → rank t.tokenType = 0 := by
  intro t r hs
  have := h.le (.inl ho) t r hs
  have := ht t r hs
  omega

theorem Halt.bare (h : Halt o 1 s) (ho : o ∈ Sym.arguments.ends) (ht : ∀ t r, s = t :: r → rank t.tokenType ≠ 1) : Halt o.bare 10 s := by
  refine ⟨fun _ t _ _ => rank_le _, fun _ _ _ _ _ => by decide, ?_, ?_, ?_, ?_, ?_⟩
  · intro h'
    refine h.last ht ?_
    rintro rfl
    simp [Ends.bare] at h'
  · intro h' t r hs
    have : o = .outdent := by revert h' ho; cases o <;> simp [Ends.bare, Sym.ends]
    subst this
    exact ⟨ht t r hs, fun h2 => absurd (h.eq rfl t r hs h2) (by decide)⟩
  · intro h'
    refine h.map (.inl ?_)
    revert h' ho; cases o <;> simp [Ends.bare, Sym.ends]
  · intro h'
    revert h' ho; cases o <;> simp [Ends.bare]
  · intro h'
    refine h.brace ?_
    revert h' ho; cases o <;> simp [Ends.bare, Sym.ends]

theorem Halt.bareMap (h : Halt o 1 s) (ho : o ∈ Sym.entries.ends) (ht : ∀ t r, s = t :: r → rank t.tokenType ≠ 1) (hm : ¬ MapOn s) :
    Halt o.bareMap 10 s := by
  refine ⟨fun _ t _ _ => rank_le _, fun _ _ _ _ _ => by decide, ?_, ?_, fun _ => hm, ?_, ?_⟩
  · intro h'
    refine h.last ht ?_
    rintro rfl
    simp [Ends.bareMap] at h'
  · intro h' t r hs
    have : o = .outdent := by revert h' ho; cases o <;> simp [Ends.bareMap, Sym.ends]
    subst this
    exact ⟨ht t r hs, fun h2 => absurd (h.eq rfl t r hs h2) (by decide)⟩
  · intro h'
    revert h' ho; cases o <;> simp [Ends.bareMap]
  · intro h'
    refine h.brace ?_
    revert h' ho; cases o <;> simp [Ends.bareMap, Sym.ends]

theorem halt_comma (h : ¬ KeyColon s) : Halt .comma 10 s :=
  ⟨fun _ t _ _ => rank_le _, by simp, by simp, by simp, by simp, fun _ => h, by simp⟩

theorem halt_brace (h : ∀ t r, s = t :: r → t.tokenType = .rightBrace) : Halt .brace 10 s :=
  ⟨fun _ t _ _ => rank_le _, by simp, fun _ t r hs => by rw [h t r hs]; rfl, by simp, by simp, by simp, fun _ => h⟩

end Ws
