import Verif.Proofs.Parse.Complete
/-! What the unambiguous grammar derives is parsed to the tree it is derived as: functions, classes and
statements. -/
namespace Ws
open Spec

variable {α β σ : Type} {env : Env} {p q p' p'' : Parser} {w w' s : List Token} {r : Rec} {n : Nat}
  {repl l e : Bool} {o : Ends} {x : Expr} {v v₁ v' vs vs₁ vs₂ vs₃ vs₄ : List Cause}

theorem paren_any {b : Token} (h : IsParen b) : b.tokenType ∈ [TokenType.leftParen, .leftParenAbutting] := by
  rcases h with h | h <;> simp [h]

/-! ### Functions and classes -/

theorem runs_parameters_nil : Runs env repl l .closed false .parametersBefore [] (.params []) [] := by
  intro v p p' m hc
  rw [m.eq_nil]
  exact reaches_loop

theorem runs_parameters {ps : List Parameter} {t c : Token} (ih : Runs env repl l .closed false .parametersBefore w (.params ps) vs)
    (ht : t.tokenType = .identifier) (hcm : c.tokenType = .comma) :
    Runs env repl l .closed false .parametersBefore (w ++ [t, c]) (.params (ps ++ [⟨t.lexeme, t.loc⟩])) (vs ++ excess ps t) := by
  intro v p p' m hc
  rw [List.append_assoc]
  obtain ⟨q1, m1, m⟩ := m.split
  obtain ⟨q2, m2, m3⟩ := m.uncons
  refine reaches_next (ih p q1 m1 hc) ?_
  unfold parameterBody
  refine does_bind (identifier_yes m2 ht) ?_
  unfold excess
  by_cases hlen : ps.length < 255
  · rw [if_pos hlen]
    dsimp only
    rw [if_neg (by omega)]
    exact does_bind' (match_yes m3 hcm) does_pure
  · rw [if_neg hlen]
    dsimp only
    rw [if_pos (by omega)]
    exact does_throw

theorem runs_function_empty {loc : SourceLoc} {b c : Token} {body : List Stmt} (hb : IsParen b) (hr : c.tokenType = .rightParen)
    (ih : Runs env repl l .closed false .block w (.stmts body) vs) :
    Runs env repl l .closed false (.function loc) (b :: c :: w) (.fn (.mk [] body .plainFunction loc)) vs := by
  intro v p p' m hc n
  obtain ⟨q1, m1, m⟩ := m.uncons
  obtain ⟨q2, m2, m3⟩ := m.uncons
  unfold functionDefinition
  refine does_bind' (consumeAny_yes m1 (paren_any hb)) (does_bind (q := q1) (a := []) (v₁ := vs ++ v) ?_ (does_bind' (consume_yes m2 hr) ?_))
  · rw [parameterList_eq]
    refine does_query ?_
    rw [check_yes m2.head hr (by decide)]
    exact does_pure
  · obtain ⟨eb, pm, h1, h2⟩ := ih (v := v) q2 p' m3 ((hc.moves m1).moves m2)
    exact does_bind (h1 _ _) (does_bind (h2 n) does_pure)

theorem runs_function {loc : SourceLoc} {b t c : Token} {ps : List Parameter} {w₁ : List Token} {body : List Stmt} (hb : IsParen b)
    (ih : Runs env repl l .closed false .parametersBefore w₁ (.params ps) vs₁) (hf : w₁ = [] ∨ ExprHead [.identifier] w₁)
    (ht : t.tokenType = .identifier) (hr : c.tokenType = .rightParen)
    (ih' : Runs env repl l .closed false .block w (.stmts body) vs₂) :
    Runs env repl l .closed false (.function loc) (b :: w₁ ++ t :: c :: w)
      (.fn (.mk (ps ++ [⟨t.lexeme, t.loc⟩]) body .plainFunction loc)) (vs₁ ++ excess ps t ++ vs₂) := by
  intro v p p' m hc n
  simp only [List.append_assoc]
  obtain ⟨q2, m, m'⟩ := m.split
  obtain ⟨q1, m1, m2⟩ := m.uncons
  obtain ⟨q3, m3, m'⟩ := m'.uncons
  obtain ⟨q4, m4, m5⟩ := m'.uncons
  unfold functionDefinition
  refine does_bind' (consumeAny_yes m1 (paren_any hb)) (does_bind (q := q3) (a := ps ++ [⟨t.lexeme, t.loc⟩]) (v₁ := vs₂ ++ v) ?_
    (does_bind' (consume_yes m4 hr) ?_))
  · rw [parameterList_eq]
    refine does_query ?_
    obtain ⟨t1, rt1, h1, ht1⟩ := (first_or_append hf (exprHead_of (r := q3.rest) ht (List.mem_singleton.2 rfl) (by decide))).cons (v := [])
    have hr1 : q1.rest = t1 :: rt1 := by rw [m2.rest, m3.head, ← h1]; simp
    rw [check_no hr1 (fun h => by rw [h] at ht1; revert ht1; decide)]
    simp only [Bool.not_false, if_true]
    refine reaches_stop (ih q1 q2 m2 (hc.moves m1)) ?_
    unfold parameterBody
    refine does_bind (identifier_yes m3 ht) ?_
    unfold excess
    by_cases hlen : ps.length < 255
    · rw [if_pos hlen]
      dsimp only
      rw [if_neg (by omega)]
      exact does_bind' (match_no m4.head (by rw [hr]; decide)) does_pure
    · rw [if_neg hlen]
      dsimp only
      rw [if_pos (by omega)]
      exact does_throw
  · obtain ⟨eb, pm, h1, h2⟩ := ih' (v := v) q4 p' m5 ((((hc.moves m1).moves m2).moves m3).moves m4)
    exact does_bind (h1 _ _) (does_bind (h2 n) does_pure)

theorem after_of {t : Token} {tt : TokenType} (ht : t.tokenType = tt)
    (h1 : tt ≠ .terminator ∧ tt ≠ .equal ∧ tt ≠ .colon ∧ tt ≠ .else ∧ reach tt = 0) (h2 : o = .map → tt ≠ .rightBrace)
    (h3 : o = .brace → tt = .rightBrace) (h4 : o = .unfinished → tt = .eof) : After o e (t :: s) := by
  subst ht
  refine ⟨⟨t, s, rfl⟩, ?_, ?_, fun ho => ⟨not_keyColon (by rw [h1.2.2.2.2]; decide), ?_⟩, ?_, ?_, ?_⟩
  · intro _ _ hs; cases hs; exact ⟨h1.1, h1.2.1, h1.2.2.1⟩
  · intro _ _ _ hs; cases hs; exact h1.2.2.2.1
  · intro _ _ hs; cases hs; exact h2 ho
  · intro _ _ _ hs; cases hs; exact h1.2.2.2.2
  · intro ho _ _ hs; cases hs; exact h3 ho
  · intro ho _ _ hs; cases hs; exact h4 ho

/-- The end of a block. -/
theorem finish_does {eb : TokenType} {c : Token} {ss : List Stmt} (heb : eb = .rightBrace ∨ eb = .outdent)
    (h : Reaches v (loop (blockBody (recN env n) eb) []) p (blockBody (recN env n) eb) ss q v') (m : Moves q [c] p')
    (hr : c.tokenType = eb) : Does v (finishBlock env (recN env n) eb) p ss p' v' := by
  rw [finishBlock_eq]
  refine does_bind (a := ss) (q := q) (v₁ := v') (reaches_stop h ?_) ?_
  · unfold blockBody
    refine does_query ?_
    rw [check_yes m.head hr (by rcases heb with rfl | rfl <;> decide)]
    exact does_pure
  · refine does_bind (a := ()) (q := p') ?_ does_pure
    unfold consumeEndBlock
    exact does_bind' (matches_yes m (by simp [hr])) does_pure

theorem begin_braces {b : Token} {message : String} (m : Moves p [b] p') (h : b.tokenType = .leftBrace) :
    Does v (consumeBeginBlock env message) p .rightBrace p' v := by
  unfold consumeBeginBlock
  refine does_bind' (matches_yes m (by simp [h])) ?_
  simp only [h]
  exact does_pure

theorem begin_indented {b i : Token} {message : String} (m : Moves p [b, i] p') (h : b.tokenType = .terminator) (hi : i.tokenType = .indent) :
    Does v (consumeBeginBlock env message) p .outdent p' v := by
  obtain ⟨q1, m1, m2⟩ := m.uncons
  unfold consumeBeginBlock
  refine does_bind' (matches_yes m1 (by simp [h])) ?_
  simp only [h]
  exact does_bind' (consume_yes m2 hi) does_pure

theorem braces_does {b c : Token} {ss : List Stmt} (hb : b.tokenType = .leftBrace) (ih : Runs env repl l o false .declarations w (.stmts ss) vs)
    (ho : o ≠ .map) (ho' : o ≠ .unfinished) (hr : c.tokenType = .rightBrace) (m : Moves p (b :: w ++ [c]) p') (hc : Spot env repl l p) :
    ∃ q1, Moves p [b] q1 ∧ ∀ n, Does (vs ++ v) (finishBlock env (recN env n) .rightBrace) q1 ss p' v := by
  obtain ⟨q2, m, m3⟩ := m.split
  obtain ⟨q1, m1, m2⟩ := m.uncons
  refine ⟨q1, m1, fun n => ?_⟩
  refine finish_does (.inl rfl) ((ih q1 q2 m2 (hc.moves m1) ?_ n).1 _ (.inl rfl)) m3 hr
  rw [m3.head]
  exact after_of hr (by decide) (fun h => absurd h ho) (fun _ => rfl) fun h => absurd h ho'

theorem runs_block_braces {b c : Token} {ss : List Stmt} (hb : b.tokenType = .leftBrace)
    (ih : Runs env repl l o false .declarations w (.stmts ss) vs) (ho : o ≠ .map) (ho' : o ≠ .unfinished) (hr : c.tokenType = .rightBrace) :
    Runs env repl l .closed false .block (b :: w ++ [c]) (.stmts ss) vs := by
  intro v p p' m hc
  obtain ⟨q1, m1, h⟩ := braces_does hb ih ho ho' hr m hc
  exact ⟨.rightBrace, q1, fun _ _ => begin_braces m1 hb, h⟩

theorem runs_block_indented {t i d : Token} {ss : List Stmt} (ht : t.tokenType = .terminator) (hi : i.tokenType = .indent)
    (ih : Runs env repl l o false .declarations w (.stmts ss) vs) (ho : o ≠ .brace) (ho' : o ≠ .unfinished) (hd : d.tokenType = .outdent) :
    Runs env repl l .closed false .block (t :: i :: w ++ [d]) (.stmts ss) vs := by
  intro v p p' m hc
  obtain ⟨q2, m, m3⟩ := m.split
  obtain ⟨q1, m1, m2⟩ := m.split (w := [t, i])
  refine ⟨.outdent, q1, fun _ _ => begin_indented m1 ht hi, fun n => ?_⟩
  refine finish_does (.inr rfl) ((ih q1 q2 m2 (hc.moves m1) ?_ n).1 _ (.inr rfl)) m3 hd
  rw [m3.head]
  exact after_of hd (by decide) (fun _ => by decide) (fun h => absurd h ho) fun h => absurd h ho'

theorem runs_named {t : Token} {d : FunDef} (ht : t.tokenType = .identifier)
    (ih : Runs env repl l .closed false (.function t.loc) w (.fn d) vs) :
    Runs env repl l .closed false .named (t :: w) (.named (.mk t.lexeme d)) vs := by
  intro v p p' m hc n
  obtain ⟨q1, m1, m2⟩ := m.uncons
  unfold finishFunDeclaration
  exact does_bind (identifier_yes m1 ht) (does_bind (ih q1 p' m2 (hc.moves m1) n) does_pure)

theorem runs_methods_nil : Runs env repl l .closed false .methods [] (.nameds []) [] := by
  intro v p p' m hc _ _ _
  rw [m.eq_nil]
  exact reaches_loop

theorem methodGuard {t : Token} {rt : List Token} {eb : TokenType} (hr : p.rest = t :: rt) (ht : t.tokenType ≠ eb) (he : t.tokenType ≠ .eof) :
    (!p.check eb && !p.isAtEnd) = true := by
  rw [check_no hr ht, isAtEnd_cons hr]
  simp [he]

theorem runs_method {fs : List NamedFun} {name : Str} {ps : List Parameter} {body : List Stmt} {k : FunctionType} {loc : SourceLoc}
    (ih : Runs env repl l .closed false .methods w (.nameds fs) vs₁)
    (ih' : Runs env repl l .closed false .named w' (.named (.mk name (.mk ps body k loc))) vs₂) (hf : ExprHead [.identifier] w') :
    Runs env repl l .closed false .methods (w ++ w') (.nameds (fs ++ [.mk name (.mk ps body (methodKind false name) loc)])) (vs₁ ++ vs₂) := by
  intro v p p' m hc n eb heb
  rw [List.append_assoc]
  obtain ⟨q1, m1, m2⟩ := m.split
  refine reaches_next (ih p q1 m1 hc n eb heb) ?_
  obtain ⟨t, rt, hr, ht⟩ := hf.cons (v := p'.rest)
  have ht : t.tokenType = .identifier := List.mem_singleton.1 ht
  rw [← m2.rest] at hr
  unfold methodBody
  refine does_query ?_
  rw [methodGuard hr (by rcases heb with rfl | rfl <;> rw [ht] <;> decide) (by rw [ht]; decide)]
  simp only [if_true]
  refine does_bind' (match_no hr (by rw [ht]; decide)) (does_bind (ih' q1 p' m2 (hc.moves m1) n) ?_)
  exact does_pure

theorem runs_class_method {fs : List NamedFun} {t : Token} {name : Str} {ps : List Parameter} {body : List Stmt} {k : FunctionType}
    {loc : SourceLoc} (ih : Runs env repl l .closed false .methods w (.nameds fs) vs₁) (ht : t.tokenType = .class)
    (ih' : Runs env repl l .closed false .named w' (.named (.mk name (.mk ps body k loc))) vs₂) :
    Runs env repl l .closed false .methods (w ++ t :: w') (.nameds (fs ++ [.mk name (.mk ps body (methodKind true name) loc)])) (vs₁ ++ vs₂) := by
  intro v p p' m hc n eb heb
  rw [List.append_assoc]
  obtain ⟨q1, m1, m⟩ := m.split
  obtain ⟨q2, m2, m3⟩ := m.uncons
  refine reaches_next (ih p q1 m1 hc n eb heb) ?_
  unfold methodBody
  refine does_query ?_
  rw [methodGuard m2.head (by rcases heb with rfl | rfl <;> rw [ht] <;> decide) (by rw [ht]; decide)]
  simp only [if_true]
  refine does_bind' (match_yes m2 ht) (does_bind (ih' q2 p' m3 ((hc.moves m1).moves m2) n) ?_)
  exact does_pure

/-- The methods of a class, to the end of the class. -/
theorem class_does {eb : TokenType} {c : Token} {fs : List NamedFun} {m' : String} (heb : eb = .rightBrace ∨ eb = .outdent)
    (ih : Runs env repl l .closed false .methods w (.nameds fs) vs) (m : Moves p (w ++ [c]) p') (hc : Spot env repl l p) (hr : c.tokenType = eb)
    {st : Stmt} {k : List NamedFun → Stmt} (hk : k fs = st) :
    Does (vs ++ v) (do
      let methods ← classMethods env (recN env n) eb
      consumeEndBlock env eb m'
      pure (k methods)) p st p' v := by
  obtain ⟨q1, m1, m2⟩ := m.split
  refine does_bind (a := fs) (q := q1) (v₁ := v) ?_ ?_
  · rw [classMethods_eq]
    refine reaches_stop (ih p q1 m1 hc n eb heb) ?_
    unfold methodBody
    refine does_query ?_
    rw [check_yes m2.head hr (by rcases heb with rfl | rfl <;> decide)]
    exact does_pure
  · subst hk
    refine does_bind (a := ()) (q := p') ?_ does_pure
    unfold consumeEndBlock
    exact does_bind' (matches_yes m2 (by simp [hr])) does_pure

theorem declaration_does {st : Stmt} (h : ∀ n, Does v (declarationBody env (recN env n)) p st p' v') (n : Nat) :
    Does v (recN env n).declaration p st p' v' := by
  cases n with
  | zero => exact ⟨(h 0).1, .inl (.inl rfl)⟩
  | succ n => exact h n

theorem statement_does {st : Stmt} (h : ∀ n, Does v (statementBody env (recN env n)) p st p' v') (n : Nat) :
    Does v (recN env n).statement p st p' v' := by
  cases n with
  | zero => exact ⟨(h 0).1, .inl (.inl rfl)⟩
  | succ n => exact h n

theorem superclass_none {t : Token} {rt : List Token} (hr : p.rest = t :: rt) (ht : t.tokenType ≠ .less) :
    Does v (superclassClause env) p none p v := by
  unfold superclassClause
  exact does_bind' (match_no hr ht) does_pure

theorem superclass_some {lt sup : Token} (m : Moves p [lt, sup] p') (h1 : lt.tokenType = .less) (h2 : sup.tokenType = .identifier) :
    Does v (superclassClause env) p (some (.variable sup.lexeme .placeholder sup.loc)) p' v := by
  obtain ⟨q1, m1, m2⟩ := m.uncons
  unfold superclassClause
  exact does_bind' (match_yes m1 h1) (does_bind (identifier_yes m2 h2) does_pure)

theorem runs_class_braces {t nm b c : Token} {fs : List NamedFun} (ht : t.tokenType = .class) (hn : nm.tokenType = .identifier)
    (hb : b.tokenType = .leftBrace) (ih : Runs env repl l .closed false .methods w (.nameds fs) vs) (hr : c.tokenType = .rightBrace) :
    Runs env repl l .closed false .declaration (t :: nm :: b :: w ++ [c]) (.stmt (.class nm.lexeme none fs nm.loc)) vs := by
  intro v p p' m hc _
  obtain ⟨q1, m1, m⟩ := m.uncons
  obtain ⟨q2, m2, m⟩ := m.uncons
  obtain ⟨q3, m3, m4⟩ := m.uncons
  refine declaration_does fun n => ?_
  unfold declarationBody
  refine does_bind' (match_yes m1 ht) ?_
  simp only [if_true]
  unfold finishClassDeclaration
  refine does_bind (identifier_yes m2 hn) (does_bind (superclass_none m3.head (by rw [hb]; decide)) (does_bind (begin_braces m3 hb) ?_))
  exact class_does (.inl rfl) ih m4 (((hc.moves m1).moves m2).moves m3) hr (k := fun ms => .class nm.lexeme none ms nm.loc) rfl

theorem runs_class_indented {t nm b i c : Token} {fs : List NamedFun} (ht : t.tokenType = .class) (hn : nm.tokenType = .identifier)
    (hb : b.tokenType = .terminator) (hi : i.tokenType = .indent) (ih : Runs env repl l .closed false .methods w (.nameds fs) vs)
    (hr : c.tokenType = .outdent) :
    Runs env repl l .closed false .declaration (t :: nm :: b :: i :: w ++ [c]) (.stmt (.class nm.lexeme none fs nm.loc)) vs := by
  intro v p p' m hc _
  obtain ⟨q1, m1, m⟩ := m.uncons
  obtain ⟨q2, m2, m⟩ := m.uncons
  obtain ⟨q3, m3, m4⟩ := Moves.split (w := [b, i]) m
  refine declaration_does fun n => ?_
  unfold declarationBody
  refine does_bind' (match_yes m1 ht) ?_
  simp only [if_true]
  unfold finishClassDeclaration
  refine does_bind (identifier_yes m2 hn) (does_bind (superclass_none m3.head (by rw [hb]; decide)) (does_bind (begin_indented m3 hb hi) ?_))
  exact class_does (.inr rfl) ih m4 (((hc.moves m1).moves m2).moves m3) hr (k := fun ms => .class nm.lexeme none ms nm.loc) rfl

theorem runs_subclass_braces {t nm lt sup b c : Token} {fs : List NamedFun} (ht : t.tokenType = .class) (hn : nm.tokenType = .identifier)
    (hlt : lt.tokenType = .less) (hsup : sup.tokenType = .identifier)
    (hb : b.tokenType = .leftBrace) (ih : Runs env repl l .closed false .methods w (.nameds fs) vs) (hr : c.tokenType = .rightBrace) :
    Runs env repl l .closed false .declaration (t :: nm :: lt :: sup :: b :: w ++ [c])
      (.stmt (.class nm.lexeme (some (.variable sup.lexeme .placeholder sup.loc)) fs nm.loc)) vs := by
  intro v p p' m hc _
  obtain ⟨q1, m1, m⟩ := m.uncons
  obtain ⟨q2, m2, m⟩ := m.uncons
  obtain ⟨q3, m3, m⟩ := Moves.split (w := [lt, sup]) m
  obtain ⟨q4, m4, m5⟩ := m.uncons
  refine declaration_does fun n => ?_
  unfold declarationBody
  refine does_bind' (match_yes m1 ht) ?_
  simp only [if_true]
  unfold finishClassDeclaration
  refine does_bind (identifier_yes m2 hn) (does_bind (superclass_some m3 hlt hsup) (does_bind (begin_braces m4 hb) ?_))
  exact class_does (.inl rfl) ih m5 ((((hc.moves m1).moves m2).moves m3).moves m4) hr
    (k := fun ms => .class nm.lexeme (some (.variable sup.lexeme .placeholder sup.loc)) ms nm.loc) rfl

theorem runs_subclass_indented {t nm lt sup b i c : Token} {fs : List NamedFun} (ht : t.tokenType = .class) (hn : nm.tokenType = .identifier)
    (hlt : lt.tokenType = .less) (hsup : sup.tokenType = .identifier)
    (hb : b.tokenType = .terminator) (hi : i.tokenType = .indent) (ih : Runs env repl l .closed false .methods w (.nameds fs) vs)
    (hr : c.tokenType = .outdent) :
    Runs env repl l .closed false .declaration (t :: nm :: lt :: sup :: b :: i :: w ++ [c])
      (.stmt (.class nm.lexeme (some (.variable sup.lexeme .placeholder sup.loc)) fs nm.loc)) vs := by
  intro v p p' m hc _
  obtain ⟨q1, m1, m⟩ := m.uncons
  obtain ⟨q2, m2, m⟩ := m.uncons
  obtain ⟨q3, m3, m⟩ := Moves.split (w := [lt, sup]) m
  obtain ⟨q4, m4, m5⟩ := Moves.split (w := [b, i]) m
  refine declaration_does fun n => ?_
  unfold declarationBody
  refine does_bind' (match_yes m1 ht) ?_
  simp only [if_true]
  unfold finishClassDeclaration
  refine does_bind (identifier_yes m2 hn) (does_bind (superclass_some m3 hlt hsup) (does_bind (begin_indented m4 hb hi) ?_))
  exact class_does (.inr rfl) ih m5 ((((hc.moves m1).moves m2).moves m3).moves m4) hr
    (k := fun ms => .class nm.lexeme (some (.variable sup.lexeme .placeholder sup.loc)) ms nm.loc) rfl

/-! ### Declarations -/

/-- It returns, panics or runs out of fuel. -/
def NoErr (x : P α) : Prop := ∀ p c q, x p ≠ .err c q

theorem noErr_bind {x : P α} {k : α → P β} (h : NoErr x) (hk : ∀ a, NoErr (k a)) : NoErr (x >>= k) := by
  intro p c q
  show M.bind x k p ≠ _
  unfold M.bind
  cases hx : x p with
  | ok a p' => exact hk a p' c q
  | err e p' => exact absurd hx (h p e p')
  | panic m => exact fun h => by cases h
  | diverge => exact fun h => by cases h

theorem noErr_pure {a : α} : NoErr (pure a : P α) := fun _ _ _ h => by cases h

theorem noErr_loop {body : σ → P (Step σ β)} (h : ∀ a, NoErr (body a)) (m : Nat) : ∀ a, NoErr (loopFuel body m a) := by
  induction m with
  | zero => exact fun _ _ _ _ h => by cases h
  | succ m ih =>
    intro a
    unfold loopFuel
    refine noErr_bind (h a) fun s => ?_
    cases s with
    | next a' => exact ih a'
    | stop b => exact noErr_pure

theorem noErr_advance : NoErr advanceP := by
  intro p c q
  unfold advanceP
  exact fun h => by cases h

theorem synchronize_noErr : NoErr (synchronize env) := by
  unfold synchronize
  refine noErr_bind noErr_advance fun _ => ?_
  intro p
  refine noErr_loop (fun _ => ?_) _ () p
  refine noErr_bind (fun _ _ _ h => by cases h) fun b => ?_
  split
  · refine noErr_bind (fun p c q => ?_) fun t => ?_
    · unfold previous
      split
      · split <;> exact fun h => by cases h
      · exact fun h => by cases h
    · split
      · split
        · exact noErr_pure
        · exact noErr_bind noErr_advance fun _ => noErr_pure
      · exact noErr_bind noErr_advance fun _ => noErr_pure
  · exact noErr_pure

theorem collects_next {y : P (List Stmt × List Cause)} {ss : List Stmt} {st : Stmt} {t : Token} {rt : List Token}
    (h : Collects v y p (parseStep env (recN env n)) ss q v₁) (hr : q.rest = t :: rt) (ht : t.tokenType ≠ .eof)
    (h2 : Does v₁ (recN env n).declaration q st p' v') : Collects v y p (parseStep env (recN env n)) (ss ++ [st]) p' v' := by
  obtain ⟨s1, h⟩ := h
  obtain ⟨s2, h2⟩ := h2
  refine ⟨s2.trans s1, ?_⟩
  rcases h with h | ⟨rfl, m, h⟩ | ⟨c, vs, ss', cs, q', m, rfl, hne, h⟩
  · exact .inl h
  · cases m with
    | zero => exact .inl (.inl h)
    | succ m =>
      unfold loopFuel at h
      have he : q.isAtEnd = false := by rw [isAtEnd_cons hr]; simp [ht]
      have hstep : ∀ z, (match (recN env n).declaration q with
          | .ok st p' => .ok (.next (ss ++ [st], [])) p'
          | .err e p' =>
            match synchronize env p' with
            | .ok _ p'' => .ok (.next (ss, [e])) p''
            | .err e' p'' => .err e' p''
            | .panic m => .panic m
            | .diverge => .diverge
          | .panic m => .panic m
          | .diverge => .diverge) = z → parseStep env (recN env n) (ss, []) q = z := by
        intro z hz
        unfold parseStep
        rw [he, ← hz]
        rfl
      rcases h2 with (h2 | ⟨m', h2⟩) | ⟨rfl, h2⟩ | ⟨c, vs, q', rfl, hne, h2⟩
      · left
        unfold Dies
        rw [h]
        exact dies_bind (.inl (hstep _ (by rw [h2])))
      · left
        unfold Dies
        rw [h]
        exact dies_bind (.inr ⟨m', hstep _ (by rw [h2])⟩)
      · rw [ok_bind (hstep (.ok (.next (ss ++ [st], [])) p') (by rw [h2]))] at h
        exact .inr (.inl ⟨rfl, m, h⟩)
      · cases hz : synchronize env q' with
        | ok a p'' =>
          rw [ok_bind (hstep (.ok (.next (ss, [c])) p'') (by rw [h2]; dsimp only; rw [hz]))] at h
          exact .inr (.inr ⟨c, vs, ss, [], p'', m, rfl, hne, h⟩)
        | err e p'' => exact absurd hz (synchronize_noErr _ _ _)
        | panic m' =>
          left
          unfold Dies
          rw [h]
          exact dies_bind (.inr ⟨m', hstep _ (by rw [h2]; dsimp only; rw [hz])⟩)
        | diverge =>
          left
          unfold Dies
          rw [h]
          exact dies_bind (.inl (hstep _ (by rw [h2]; dsimp only; rw [hz])))
  · exact .inr (.inr ⟨c, vs, ss', cs, q', m, rfl, suffix_ne s1 s2 hne, h⟩)

theorem runs_declarations_nil : Runs env repl l .closed false .declarations [] (.stmts []) [] := by
  intro v p p' m hc _ n
  rw [m.eq_nil]
  exact ⟨fun _ _ => reaches_loop, List.suffix_refl _, .inr (.inl ⟨rfl, _, rfl⟩)⟩

theorem After.of_decl {e e' : Bool} {o' : Ends} (h : DeclHead declTs w) (hk : o.Precedes w) (ha : After o' e' s) : After o e (w ++ s) := by
  obtain ⟨t, r, rfl, ht⟩ := h
  have key : ∀ tt, tt ∈ declTs → tt ≠ .terminator ∧ tt ≠ .equal ∧ tt ≠ .colon ∧ tt ≠ .else ∧ tt ≠ .rightBrace ∧ (¬ Joins tt → reach tt = 0) := by
    unfold Joins startsArgument; decide
  obtain ⟨h1, h2, h3, h4, h5, h6⟩ := key _ ht
  obtain ⟨k1, k2, k3, k4⟩ := hk
  refine ⟨⟨t, r ++ s, rfl⟩, ?_, ?_, fun ho => ⟨?_, ?_⟩, ?_, fun ho => absurd ho k1, fun ho => absurd ho k2⟩
  · intro _ _ hs; cases hs; exact ⟨h1, h2, h3⟩
  · intro _ _ _ hs; cases hs; exact h4
  · rintro ⟨a, c, rt, hs, hk1, hk2⟩
    cases r with
    | nil =>
      simp only [List.cons_append, List.nil_append, List.cons.injEq] at hs
      obtain ⟨-, hs⟩ := hs
      exact (ha.head _ _ hs).2.2 hk2
    | cons u r =>
      simp only [List.cons_append, List.cons.injEq] at hs
      obtain ⟨rfl, rfl, -⟩ := hs
      exact k3 ho ⟨_, _, _, rfl, hk1, hk2⟩
  · intro _ _ hs; cases hs; exact h5
  · intro ho _ _ hs; cases hs; exact h6 (k4 ho _ _ rfl)

theorem runs_declarations {o' : Ends} {ss : List Stmt} {st : Stmt} (ih : Runs env repl l o false .declarations w (.stmts ss) vs₁)
    (ih' : Runs env repl l o' e .declaration w' (.stmt st) vs₂) (hf : DeclHead declTs w') (hk : o.Precedes w') :
    Runs env repl l o' false .declarations (w ++ w') (.stmts (ss ++ [st])) (vs₁ ++ vs₂) := by
  intro v p p' m hc ha n
  rw [List.append_assoc]
  obtain ⟨q1, m1, m2⟩ := m.split
  have h1 := ih (v := vs₂ ++ v) p q1 m1 hc (by rw [m2.rest]; exact After.of_decl hf hk ha) n
  have h2 := ih' (v := v) q1 p' m2 (hc.moves m1) (ha.weaken fun _ => rfl) n
  obtain ⟨t, r, rfl, ht⟩ := hf
  have key : ∀ tt, tt ∈ declTs → tt ≠ .eof ∧ tt ≠ .rightBrace ∧ tt ≠ .outdent := by decide
  obtain ⟨k1, k2, k3⟩ := key _ ht
  refine ⟨fun eb heb => reaches_next (h1.1 eb heb) ?_, collects_next h1.2 m2.head k1 h2⟩
  · unfold blockBody
    refine does_query ?_
    rw [methodGuard m2.head (by rcases heb with rfl | rfl <;> assumption) k1]
    exact does_bind h2 does_pure

theorem runs_declaration {st : Stmt} (ih : Runs env repl l o e .statement w (.stmt st) vs) (hf : ExprHead stmtTs w) :
    Runs env repl l o e .declaration w (.stmt st) vs := by
  intro v p p' m hc ha
  refine declaration_does fun n => ?_
  have h := ih (v := v) p p' m hc ha n
  obtain ⟨t, r, rfl, ht, hu⟩ := hf
  have key : ∀ tt, tt ∈ stmtTs → tt ≠ .class ∧ tt ≠ .var := by decide
  obtain ⟨k1, k2⟩ := key _ ht
  unfold declarationBody
  refine does_bind' (match_no m.head k1) ?_
  simp only [Bool.false_eq_true, if_false]
  refine does_query ?_
  have hfun : (p.check .fun && p.checkNext .identifier) = false := by
    rw [check_cons m.head, checkNext_cons m.head]
    by_cases hft : t.tokenType = .fun
    · obtain ⟨u, r', rfl, hu'⟩ := hu hft
      rcases hu' with h | h <;> simp [h]
    · simp [hft]
  rw [hfun]
  simp only [Bool.false_eq_true, if_false]
  exact does_bind' (match_no m.head k2) h

theorem runs_fun_decl {t : Token} {f : NamedFun} (ht : t.tokenType = .fun) (ih : Runs env repl l .closed false .named w (.named f) vs)
    (hf : ExprHead [.identifier] w) : Runs env repl l .closed false .declaration (t :: w) (.stmt (.fun f)) vs := by
  intro v p p' m hc _
  refine declaration_does fun n => ?_
  obtain ⟨q1, m1, m2⟩ := m.uncons
  have h := ih (v := v) q1 p' m2 (hc.moves m1) n
  obtain ⟨u, r, rfl, hu, -⟩ := hf
  have hu : u.tokenType = .identifier := List.mem_singleton.1 hu
  unfold declarationBody
  refine does_bind' (match_no m1.head (by rw [ht]; decide)) ?_
  simp only [Bool.false_eq_true, if_false]
  refine does_query ?_
  have hfun : (p.check .fun && p.checkNext .identifier) = true := by
    rw [check_cons m1.head, checkNext_cons m1.head, m2.head]
    simp [ht, hu]
  rw [hfun]
  simp only [if_true]
  exact does_bind' (consume_yes m1 ht) (does_bind h does_pure)

theorem var_decl_does {t : Token} {st : Stmt} (ht : t.tokenType = .var) (m : Moves p [t] q)
    (h : ∀ n, Does v (finishVarDeclaration env (recN env n) false) q st p' v') (n : Nat) :
    Does v (declarationBody env (recN env n)) p st p' v' := by
  unfold declarationBody
  refine does_bind' (match_no m.head (by rw [ht]; decide)) ?_
  simp only [Bool.false_eq_true, if_false]
  refine does_query ?_
  rw [check_no m.head (by rw [ht]; decide)]
  simp only [Bool.false_and, Bool.false_eq_true, if_false]
  exact does_bind' (match_yes m ht) (h n)

theorem end_var_term {t : Token} {b : Bool} (m : Moves p [t] p') (ht : t.tokenType = .terminator) :
    Does v (endVarDeclaration env false b) p () p' v := by
  unfold endVarDeclaration
  simp only [Bool.false_eq_true, if_false]
  cases b
  · exact does_bind' (match_yes m ht) does_pure
  · exact does_ok (consume_yes m ht)

theorem end_var_semi {t : Token} {b : Bool} (m : Moves p [t] p') (ht : t.tokenType = .semicolon) :
    Does v (endVarDeclaration env true b) p () p' v := by
  unfold endVarDeclaration
  exact does_ok (consume_yes m ht)

theorem var_none {nm term : Token} {f : Bool} (hn : nm.tokenType = .identifier) (m1 : Moves p [nm] q) (m2 : Moves q [term] p')
    (hne : term.tokenType ≠ .equal) (hend : Does v (endVarDeclaration env f true) q () p' v) :
    Does v (finishVarDeclaration env (recN env n) f) p (.var nm.lexeme .placeholder .literalNil nm.loc) p' v := by
  unfold finishVarDeclaration
  refine does_bind (identifier_yes m1 hn) (does_bind (a := (Expr.literalNil, true)) (q := q) (v₁ := v) ?_ (does_bind hend does_pure))
  unfold varInitializer
  exact does_bind' (matches_no m2.head (by simp [hne])) does_pure

/-- The tokens start an expression. -/
theorem ExprHead.not_terminator {v : List Token} (hf : ExprHead exprTs w) : ∃ t rt, w ++ v = t :: rt ∧ t.tokenType ≠ .terminator := by
  obtain ⟨t, rt, h, ht⟩ := hf.cons (v := v)
  exact ⟨t, rt, h, fun h => by rw [h] at ht; revert ht; decide⟩

theorem var_some {nm eq : Token} {term : List Token} {f : Bool} {q1 q2 : Parser} (hn : nm.tokenType = .identifier) (heq : eq.tokenType = .equal)
    (ho : Optional .terminator term) (m1 : Moves p [nm, eq] q1) (m2 : Moves q1 term q2) (hf : ∃ t rt, q2.rest = t :: rt ∧ t.tokenType ≠ .terminator)
    (hx : Does v (recN env n).assignment q2 x q v')
    (hend : Does v' (endVarDeclaration env f (!q2.check .indent && !q2.check .leftBrace)) q () p' v') :
    Does v (finishVarDeclaration env (recN env n) f) p (.var nm.lexeme .placeholder x nm.loc) p' v' := by
  obtain ⟨q0, m0, m1⟩ := m1.uncons
  unfold finishVarDeclaration
  refine does_bind (identifier_yes m0 hn) (does_bind (a := (x, _)) (q := q) (v₁ := v') ?_ (does_bind hend does_pure))
  unfold varInitializer
  refine does_bind' (matches_yes m1 (by simp [heq])) ?_
  obtain ⟨t, rt, hr, ht⟩ := hf
  exact optional_yes ho m2 hr ht fun _ => does_query (does_bind hx does_pure)

theorem runs_var {t nm term : Token} (ht : t.tokenType = .var) (hn : nm.tokenType = .identifier) (hterm : term.tokenType = .terminator) :
    Runs env repl l .closed false .declaration [t, nm, term] (.stmt (.var nm.lexeme .placeholder .literalNil nm.loc)) [] := by
  intro v p p' m hc _
  obtain ⟨q1, m1, m⟩ := m.uncons
  obtain ⟨q2, m2, m3⟩ := m.uncons
  exact declaration_does (var_decl_does ht m1 fun n => var_none hn m2 m3 (by rw [hterm]; decide) (end_var_term m3 hterm))

theorem runs_var_init {t nm eq term' : Token} {term : List Token} (ht : t.tokenType = .var) (hn : nm.tokenType = .identifier)
    (heq : eq.tokenType = .equal) (ho : Optional .terminator term) (ih : Runs env repl l o false .expression w (.expr x) vs)
    (hf : ExprHead exprTs w) (hb : o ≠ .brace) (hterm : term'.tokenType = .terminator) :
    Runs env repl l o.line false .declaration (t :: nm :: eq :: term ++ w ++ [term']) (.stmt (.var nm.lexeme .placeholder x nm.loc)) vs := by
  intro v p p' m hc ha
  obtain ⟨q4, m, m5⟩ := m.split
  obtain ⟨q3, m, m4⟩ := m.split
  obtain ⟨q1, m1, m⟩ := m.uncons
  obtain ⟨q2, m2, m3⟩ := Moves.split (w := [nm, eq]) m
  refine declaration_does (var_decl_does ht m1 fun n => ?_)
  refine var_some hn heq ho m2 m3 (by rw [m4.rest]; exact hf.not_terminator)
    (ih q3 q4 m4 (((hc.moves m1).moves m2).moves m3) ?_ n) (end_var_term m5 hterm)
  rw [m5.head]
  exact ha.line hterm hb

theorem runs_var_open {t nm eq h : Token} {term : List Token} (ht : t.tokenType = .var) (hn : nm.tokenType = .identifier)
    (heq : eq.tokenType = .equal) (ho : Optional .terminator term) (ih : Runs env repl l o false .expression (h :: w) (.expr x) vs)
    (hh : h.tokenType = .indent ∨ h.tokenType = .leftBrace) :
    Runs env repl l o.opened false .declaration (t :: nm :: eq :: term ++ h :: w) (.stmt (.var nm.lexeme .placeholder x nm.loc)) vs := by
  intro v p p' m hc ha
  obtain ⟨q3, m, m4⟩ := m.split
  obtain ⟨q1, m1, m⟩ := m.uncons
  obtain ⟨q2, m2, m3⟩ := Moves.split (w := [nm, eq]) m
  obtain ⟨ta, ra, hra⟩ := ha.ne
  refine declaration_does (var_decl_does ht m1 fun n => ?_)
  refine var_some hn heq ho m2 m3 ⟨h, _, m4.head, by rcases hh with hh | hh <;> rw [hh] <;> decide⟩
    (ih q3 p' m4 (((hc.moves m1).moves m2).moves m3) ha.opened n) ?_
  have : (!q3.check .indent && !q3.check .leftBrace) = false := by
    rcases hh with hh | hh
    · rw [check_yes m4.head hh (by decide)]; rfl
    · rw [check_yes m4.head hh (by decide), Bool.and_comm]; rfl
  rw [this]
  unfold endVarDeclaration
  exact does_bind' (match_no hra (ha.head ta ra hra).1) does_pure

/-! ### Statements -/

def stmtKeywords : List TokenType := [.break, .continue, .for, .if, .leftBrace, .print, .return, .while]

theorem end_expression {t : Token} (m : Moves p [t] p') (ht : t.tokenType = .terminator) : Does v (endExpressionStatement env) p () p' v := by
  unfold endExpressionStatement
  refine does_query ?_
  rw [check_yes m.head ht (by decide)]
  simp only [Bool.or_true, if_true]
  exact does_ok (consume_yes m ht)

theorem runs_expression_statement {h term : Token} (ih : Runs env repl l o false .expression (h :: w) (.expr x) vs)
    (hf : ExprHead exprTs (h :: w)) (hh : h.tokenType ≠ .leftBrace) (hb : o ≠ .brace) (hterm : term.tokenType = .terminator) :
    Runs env repl l o.line false .statement (h :: w ++ [term]) (.stmt (.expression x)) vs := by
  intro v p p' m hc ha
  refine statement_does fun n => ?_
  obtain ⟨q1, m1, m2⟩ := m.split
  unfold statementBody
  obtain ⟨_, _, h1, h2, -⟩ := hf
  cases h1
  refine does_bind' (matches_no m1.head fun h3 => ?_) ?_
  · have key : ∀ tt, tt ∈ exprTs → tt ∈ stmtKeywords → tt = .leftBrace := by decide
    exact hh (key _ h2 h3)
  · refine does_bind (ih p q1 m1 hc ?_ n) (does_bind (end_expression m2 hterm) does_pure)
    rw [m2.head]
    exact ha.line hterm hb

theorem runs_expression_last {h : Token} (ih : Runs env true l o false .expression (h :: w) (.expr x) vs)
    (hf : ExprHead exprTs (h :: w)) (hh : h.tokenType ≠ .leftBrace) (hb : o ≠ .brace) :
    Runs env true l .unfinished false .statement (h :: w) (.stmt (.expression x)) vs := by
  intro v p p' m hc ha
  refine statement_does fun n => ?_
  unfold statementBody
  obtain ⟨_, _, h1, h2, -⟩ := hf
  cases h1
  obtain ⟨ta, ra, hra⟩ := ha.ne
  have he := ha.unfinished rfl ta ra hra
  refine does_bind' (matches_no m.head fun h3 => ?_) ?_
  · have key : ∀ tt, tt ∈ exprTs → tt ∈ stmtKeywords → tt = .leftBrace := by decide
    exact hh (key _ h2 h3)
  · refine does_bind (ih p p' m hc ?_ n) (does_bind (a := ()) (q := p') ?_ does_pure)
    · rw [hra]; exact stop_of he rfl (by decide) fun h => absurd h hb
    · unfold endExpressionStatement
      refine does_query ?_
      rw [(hc.moves m).trailing rfl, isAtEnd_cons hra, he, check_no hra (by rw [he]; decide)]
      exact does_pure

theorem runs_break {t term : Token} (ht : t.tokenType = .break) (hterm : term.tokenType = .terminator) :
    Runs env repl true .closed false .statement [t, term] (.stmt (.break t.loc)) [] := by
  intro v p p' m hc _
  refine statement_does fun n => ?_
  obtain ⟨q1, m1, m2⟩ := m.uncons
  unfold statementBody
  refine does_bind' (matches_yes m1 (by simp [ht])) ?_
  simp only [ht]
  unfold finishBreakStatement
  refine does_query ?_
  have := (hc.moves m1).loops.1 rfl
  rw [if_neg (by simp; omega)]
  exact does_bind' (consume_yes m2 hterm) does_pure

theorem runs_continue {t term : Token} (ht : t.tokenType = .continue) (hterm : term.tokenType = .terminator) :
    Runs env repl true .closed false .statement [t, term] (.stmt (.continue t.loc)) [] := by
  intro v p p' m hc _
  refine statement_does fun n => ?_
  obtain ⟨q1, m1, m2⟩ := m.uncons
  unfold statementBody
  refine does_bind' (matches_yes m1 (by simp [ht])) ?_
  simp only [ht]
  unfold finishContinueStatement
  refine does_query ?_
  have := (hc.moves m1).loops.1 rfl
  rw [if_neg (by simp; omega)]
  exact does_bind' (consume_yes m2 hterm) does_pure

theorem last_throw {t : Token} {message : String} {a : α} (m : Moves p [t] q) (h : v' <:+ v) :
    Does (⟨t.loc, some t.lexeme, message⟩ :: v) (errorFromLast env message) q a p' v' := by
  have hp : previous env q = .ok (some t) q := by
    unfold previous
    have h1 := m.current
    have h2 := m.tokens
    have h3 := m.head
    unfold Parser.rest at h3
    simp only [List.length_singleton] at h1
    rw [if_neg (by omega), h1, h2]
    simp only [Nat.add_sub_cancel]
    rw [← List.head?_drop, h3]
    rfl
  unfold errorFromLast previousSourceLoc
  refine does_bind' hp ?_
  dsimp only
  exact does_bind (a := t.loc) (q := q) (does_bind' hp does_pure) (does_throw_of h)

theorem runs_break_fault {t term : Token} (ht : t.tokenType = .break) (_ : term.tokenType = .terminator) :
    Runs env repl false .closed false .statement [t, term] (.stmt (.break t.loc)) [breakOutside t] := by
  intro v p p' m hc _
  refine statement_does fun n => ?_
  obtain ⟨q1, m1, m2⟩ := m.uncons
  unfold statementBody
  refine does_bind' (matches_yes m1 (by simp [ht])) ?_
  simp only [ht]
  unfold finishBreakStatement
  refine does_query ?_
  have h0 : ¬ 0 < q1.inLoops := fun h => by cases (hc.moves m1).loops.2 h
  rw [if_pos (by simp; omega)]
  exact last_throw m1 (List.suffix_refl _)

theorem runs_continue_fault {t term : Token} (ht : t.tokenType = .continue) (_ : term.tokenType = .terminator) :
    Runs env repl false .closed false .statement [t, term] (.stmt (.continue t.loc)) [continueOutside t] := by
  intro v p p' m hc _
  refine statement_does fun n => ?_
  obtain ⟨q1, m1, m2⟩ := m.uncons
  unfold statementBody
  refine does_bind' (matches_yes m1 (by simp [ht])) ?_
  simp only [ht]
  unfold finishContinueStatement
  refine does_query ?_
  have h0 : ¬ 0 < q1.inLoops := fun h => by cases (hc.moves m1).loops.2 h
  rw [if_pos (by simp; omega)]
  exact last_throw m1 (List.suffix_refl _)

theorem runs_print {t term : Token} (ht : t.tokenType = .print) (ih : Runs env repl l o false .expression w (.expr x) vs) (hb : o ≠ .brace)
    (hterm : term.tokenType = .terminator) : Runs env repl l o.line false .statement (t :: w ++ [term]) (.stmt (.print x)) vs := by
  intro v p p' m hc ha
  refine statement_does fun n => ?_
  obtain ⟨q2, m, m3⟩ := m.split
  obtain ⟨q1, m1, m2⟩ := m.uncons
  unfold statementBody
  refine does_bind' (matches_yes m1 (by simp [ht])) ?_
  simp only [ht]
  unfold finishPrintStatement
  refine does_bind (ih q1 q2 m2 (hc.moves m1) ?_ n) (does_bind' (consume_yes m3 hterm) does_pure)
  rw [m3.head]
  exact ha.line hterm hb

theorem runs_return_nil {t term : Token} (ht : t.tokenType = .return) (hterm : term.tokenType = .terminator) :
    Runs env repl l .closed false .statement [t, term] (.stmt (.return .literalNil t.loc)) [] := by
  intro v p p' m hc ha
  refine statement_does fun n => ?_
  obtain ⟨q1, m1, m2⟩ := m.uncons
  unfold statementBody
  refine does_bind' (matches_yes m1 (by simp [ht])) ?_
  simp only [ht]
  unfold finishReturnStatement
  refine does_bind (a := .literalNil) (q := q1) ?_ (does_bind' (consume_yes m2 hterm) does_pure)
  unfold returnValue
  refine does_query ?_
  rw [check_yes m2.head hterm (by decide)]
  exact does_pure

theorem runs_return {t term : Token} (ht : t.tokenType = .return) (ih : Runs env repl l o false .expression w (.expr x) vs)
    (hf : ExprHead exprTs w) (hb : o ≠ .brace) (hterm : term.tokenType = .terminator) :
    Runs env repl l o.line false .statement (t :: w ++ [term]) (.stmt (.return x t.loc)) vs := by
  intro v p p' m hc ha
  refine statement_does fun n => ?_
  obtain ⟨q2, m, m3⟩ := m.split
  obtain ⟨q1, m1, m2⟩ := m.uncons
  unfold statementBody
  refine does_bind' (matches_yes m1 (by simp [ht])) ?_
  simp only [ht]
  unfold finishReturnStatement
  refine does_bind (a := x) (q := q2) (v₁ := v) ?_ (does_bind' (consume_yes m3 hterm) does_pure)
  unfold returnValue
  refine does_query ?_
  obtain ⟨u, ru, hu, hut⟩ := hf.not_terminator (v := q2.rest)
  rw [check_no (m2.rest.trans hu) hut]
  refine ih q1 q2 m2 (hc.moves m1) ?_ n
  rw [m3.head]
  exact ha.line hterm hb

theorem runs_braces {b c : Token} {ss : List Stmt} (hb : b.tokenType = .leftBrace)
    (ih : Runs env repl l o false .declarations w (.stmts ss) vs) (ho : o ≠ .map) (ho' : o ≠ .unfinished) (hr : c.tokenType = .rightBrace) :
    Runs env repl l .closed false .statement (b :: w ++ [c]) (.stmt (.block ss)) vs := by
  intro v p p' m hc ha
  refine statement_does fun n => ?_
  obtain ⟨q1, m1, h⟩ := braces_does hb ih ho ho' hr m hc
  unfold statementBody
  refine does_bind' (matches_yes m1 (by simp [hb])) ?_
  simp only [hb]
  exact does_bind (h n) does_pure

theorem no_begin {t : Token} {rt : List Token} {message : String} (hr : p.rest = t :: rt) (h1 : t.tokenType ≠ .terminator) (h2 : t.tokenType ≠ .leftBrace) :
    Does v (beginBlockIfAny env message) p none p v := by
  unfold beginBlockIfAny
  refine does_query ?_
  rw [check_no hr h1, check_no hr h2]
  exact does_pure

theorem runs_body_block {ss : List Stmt} (ih : Runs env repl l .closed false .block w (.stmts ss) vs) (hf : DeclHead [.leftBrace, .terminator] w) :
    Runs env repl l .closed false .body w (.stmt (.block ss)) vs := by
  intro v p p' m hc ha
  obtain ⟨eb, pm, h1, h2⟩ := ih (v := v) p p' m hc
  obtain ⟨t, rt, rfl, ht⟩ := hf
  refine ⟨some eb, pm, fun message v => ?_, fun n => does_bind (h2 n) does_pure⟩
  unfold beginBlockIfAny
  refine does_query ?_
  have : (p.check .terminator || p.check .leftBrace) = true := by
    rw [check_cons m.head, check_cons m.head]
    simp at ht
    rcases ht with ht | ht <;> simp [ht]
  rw [this]
  exact does_bind (h1 message v) does_pure

theorem runs_body {h : Token} {st : Stmt} (ih : Runs env repl l o e .statement (h :: w) (.stmt st) vs) (hf : ExprHead stmtTs (h :: w))
    (hh : h.tokenType ≠ .leftBrace) : Runs env repl l o e .body (h :: w) (.stmt st) vs := by
  intro v p p' m hc ha
  refine ⟨none, p, fun message v => no_begin m.head ?_ hh, fun n => ih p p' m hc ha n⟩
  obtain ⟨_, _, h1, h2, -⟩ := hf
  cases h1
  intro h3
  rw [h3] at h2
  revert h2; decide

theorem runs_if {o' : Ends} {t b c : Token} {w₁ w₂ : List Token} {st : Stmt} (ht : t.tokenType = .if) (hb : IsParen b)
    (ih : Runs env repl l o' false .expression w₁ (.expr x) vs₁) (ho : o' ≠ .brace) (hr : c.tokenType = .rightParen)
    (ih' : Runs env repl l o e .body w₂ (.stmt st) vs₂) :
    Runs env repl l o true .statement (t :: b :: w₁ ++ c :: w₂) (.stmt (.if x st none)) (vs₁ ++ vs₂) := by
  intro v p p' m hc ha
  rw [List.append_assoc]
  refine statement_does fun n => ?_
  obtain ⟨q3, m, m'⟩ := m.split
  obtain ⟨q1, m1, m⟩ := m.uncons
  obtain ⟨q2, m2, m3⟩ := m.uncons
  obtain ⟨q4, m4, m5⟩ := m'.uncons
  have c3 := ((hc.moves m1).moves m2).moves m3
  unfold statementBody
  refine does_bind' (matches_yes m1 (by simp [ht])) ?_
  simp only [ht]
  unfold finishIfStatement
  refine does_bind' (consumeAny_yes m2 (paren_any hb)) (does_bind (ih q2 q3 m3 ((hc.moves m1).moves m2) ?_ n)
    (does_bind' (consume_yes m4 hr) ?_))
  · rw [m4.head]; exact stop_of hr rfl (by decide) fun h => absurd h ho
  · obtain ⟨ob, pm, h1, h2⟩ := ih' (v := v) q4 p' m5 (c3.moves m4) (ha.weaken fun _ => rfl)
    refine does_bind (h1 _ _) (does_bind (h2 n) ?_)
    obtain ⟨ta, ra, hra⟩ := ha.ne
    exact does_bind' (match_no hra (ha.els rfl ta ra hra)) does_pure

theorem runs_if_else {o₀ o₁ : Ends} {t b c el : Token} {w₁ w₂ w₃ : List Token} {s₁ s₂ : Stmt} (ht : t.tokenType = .if) (hb : IsParen b)
    (ih : Runs env repl l o₀ false .expression w₁ (.expr x) vs₁) (ho : o₀ ≠ .brace) (hr : c.tokenType = .rightParen)
    (ih1 : Runs env repl l o₁ false .body w₂ (.stmt s₁) vs₂) (ho₁ : o₁ ≠ .brace) (ho₁' : o₁ ≠ .unfinished) (hel : el.tokenType = .else) (ih2 : Runs env repl l o e .statement w₃ (.stmt s₂) vs₃) :
    Runs env repl l o e .statement (t :: b :: w₁ ++ c :: w₂ ++ el :: w₃) (.stmt (.if x s₁ (some s₂))) (vs₁ ++ vs₂ ++ vs₃) := by
  intro v p p' m hc ha
  simp only [List.append_assoc]
  refine statement_does fun n => ?_
  obtain ⟨q5, m, m''⟩ := m.split
  obtain ⟨q3, m, m'⟩ := m.split
  obtain ⟨q1, m1, m⟩ := m.uncons
  obtain ⟨q2, m2, m3⟩ := m.uncons
  obtain ⟨q4, m4, m5⟩ := m'.uncons
  obtain ⟨q6, m6, m7⟩ := m''.uncons
  have c3 := ((hc.moves m1).moves m2).moves m3
  have c5 := (c3.moves m4).moves m5
  unfold statementBody
  refine does_bind' (matches_yes m1 (by simp [ht])) ?_
  simp only [ht]
  unfold finishIfStatement
  refine does_bind' (consumeAny_yes m2 (paren_any hb)) (does_bind (ih q2 q3 m3 ((hc.moves m1).moves m2) ?_ n)
    (does_bind' (consume_yes m4 hr) ?_))
  · rw [m4.head]; exact stop_of hr rfl (by decide) fun h => absurd h ho
  · obtain ⟨ob, pm, h1, h2⟩ := ih1 (v := vs₃ ++ v) q4 q5 m5 (c3.moves m4) (by
      rw [m6.head]
      refine ⟨⟨_, _, rfl⟩, ?_, fun h => (by cases h), fun _ => ⟨not_keyColon (by rw [hel]; decide), ?_⟩, ?_,
        fun h => absurd h ho₁, fun h => absurd h ho₁'⟩
      · intro _ _ hs; cases hs; rw [hel]; decide
      · intro _ _ hs; cases hs; rw [hel]; decide
      · intro _ _ _ hs; cases hs; rw [hel]; rfl)
    refine does_bind (h1 _ _) (does_bind (h2 n) ?_)
    exact does_bind' (match_yes m6 hel) (does_bind (ih2 q6 p' m7 (c5.moves m6) ha n) does_pure)

theorem does_leave {y : P α} {a : α} (h : Does v y p a p'.deeper v') : Does v (thenLeaveLoop env y) p a p' v' := by
  obtain ⟨hs, h⟩ := h
  refine ⟨hs, ?_⟩
  unfold Dies thenLeaveLoop
  rcases h with (h | ⟨m, h⟩) | ⟨rfl, h⟩ | ⟨c, vs, q, rfl, hne, h⟩ <;> rw [h]
  · exact .inl (.inl rfl)
  · exact .inl (.inr ⟨m, rfl⟩)
  · refine .inr (.inl ⟨rfl, ?_⟩)
    dsimp only
    rw [if_neg (by unfold Parser.deeper; simp)]
    rfl
  · dsimp only
    split
    · split
      · exact .inl (.inr ⟨_, rfl⟩)
      · exact .inr (.inr ⟨c, vs, _, rfl, hne, rfl⟩)
    · exact .inr (.inr ⟨c, vs, _, rfl, hne, rfl⟩)

/-- The body of a loop. -/
theorem loop_does {t b : Token} {st : Stmt} {u : List Token} (ih : Runs env repl true o e .body w (.stmt st) vs) (m : Moves q w p')
    (m0 : Moves p (t :: u) q) (_hb : b = t) (hc : Spot env repl l p) (ha : After o e p'.rest) (n : Nat) :
    Does (vs ++ v) (loopBodyStatement env (recN env n)) q st p' v := by
  have hcq := hc.moves m0
  have h1 : q.inLoops < q.current := by
    have := hc.room.loops
    rw [m0.inLoops, m0.current]
    simp only [List.length_cons]
    omega
  have h2 : q.current < q.tokens.length := by
    obtain ⟨ta, ra, hra⟩ := ha.ne
    have hl := m.length
    rw [hra] at hl
    unfold Parser.rest at hl
    simp only [List.length_drop, List.length_cons] at hl
    omega
  have h3 := hcq.room.bound
  unfold loopBodyStatement
  refine does_bind' (a := ()) (q := q.deeper) ?_ ?_
  · unfold enterLoop
    rw [if_neg (by omega)]
    rfl
  · obtain ⟨ob, pm, k1, k2⟩ := ih (v := v) q.deeper p'.deeper m.deeper ⟨⟨h3, h1⟩, hcq.trailing, by simp [Parser.deeper]⟩ ha
    refine does_bind (k1 _ _) ?_
    exact does_leave (k2 n)

theorem runs_while {o' : Ends} {t b c : Token} {w₁ w₂ : List Token} {st : Stmt} (ht : t.tokenType = .while) (hb : IsParen b)
    (ih : Runs env repl l o' false .expression w₁ (.expr x) vs₁) (ho : o' ≠ .brace) (hr : c.tokenType = .rightParen)
    (ih' : Runs env repl true o e .body w₂ (.stmt st) vs₂) :
    Runs env repl l o e .statement (t :: b :: w₁ ++ c :: w₂) (.stmt (.while x st)) (vs₁ ++ vs₂) := by
  intro v p p' m hc ha
  rw [List.append_assoc]
  refine statement_does fun n => ?_
  obtain ⟨q3, m, m'⟩ := m.split
  have m0 := m
  obtain ⟨q1, m1, m⟩ := m.uncons
  obtain ⟨q2, m2, m3⟩ := m.uncons
  obtain ⟨q4, m4, m5⟩ := m'.uncons
  unfold statementBody
  refine does_bind' (matches_yes m1 (by simp [ht])) ?_
  simp only [ht]
  unfold finishWhileStatement
  refine does_bind' (consumeAny_yes m2 (paren_any hb)) (does_bind (ih q2 q3 m3 ((hc.moves m1).moves m2) ?_ n)
    (does_bind' (consume_yes m4 hr) ?_))
  · rw [m4.head]; exact stop_of hr rfl (by decide) fun h => absurd h ho
  · exact does_bind (loop_does ih' m5 (m0.trans m4) rfl hc ha n) does_pure

theorem runs_for {o₀ : Ends} {t b semi c : Token} {w₀ w₁ w₂ w₃ : List Token} {init : Option Stmt} {cond : Expr} {inc : Option Expr} {st : Stmt}
    (ht : t.tokenType = .for) (hb : IsParen b)
    (ih0 : Runs env repl l o₀ false .forInit w₀ (.optStmt init) vs₁) (ih1 : Runs env repl l .closed false .forCondition w₁ (.expr cond) vs₂)
    (hk : o₀ = .map → ¬ KeyColon w₁) (hf : w₁ = [] ∨ ExprHead exprTs w₁)
    (hsemi : semi.tokenType = .semicolon) (ih2 : Runs env repl l .closed false .forIncrement w₂ (.optExpr inc) vs₃)
    (hr : c.tokenType = .rightParen) (ih3 : Runs env repl true o e .body w₃ (.stmt st) vs₄) :
    Runs env repl l o e .statement (t :: b :: w₀ ++ w₁ ++ semi :: w₂ ++ c :: w₃) (.stmt (forLoop init cond inc st)) (vs₁ ++ vs₂ ++ vs₃ ++ vs₄) := by
  intro v p p' m hc ha
  simp only [List.append_assoc]
  refine statement_does fun n => ?_
  obtain ⟨q6, m, mc⟩ := m.split
  have m0 := m
  obtain ⟨q4, m, ms⟩ := m.split
  obtain ⟨q3, m, m4⟩ := m.split
  obtain ⟨q1, m1, m⟩ := m.uncons
  obtain ⟨q2, m2, m3⟩ := m.uncons
  obtain ⟨q5, m5, m6⟩ := ms.uncons
  obtain ⟨q7, m7, m8⟩ := mc.uncons
  have c2 := (hc.moves m1).moves m2
  have c3 := c2.moves m3
  have c5 := (c3.moves m4).moves m5
  unfold statementBody
  refine does_bind' (matches_yes m1 (by simp [ht])) ?_
  simp only [ht]
  unfold finishForStatement
  have hm : o₀ = .map → ¬ KeyColon q3.rest ∧ ∀ t rt, q3.rest = t :: rt → t.tokenType ≠ .rightBrace := by
    intro ho
    rw [m4.rest, m5.head]
    rcases hf with rfl | ⟨t', r', rfl, ht', -⟩
    · refine ⟨not_keyColon (by rw [hsemi]; decide), fun _ _ hs => ?_⟩
      cases hs; rw [hsemi]; decide
    · refine ⟨?_, fun _ _ hs => ?_⟩
      · rintro ⟨a, d, rt, hs, hk1, hk2⟩
        cases r' with
        | nil =>
          simp only [List.cons_append, List.nil_append, List.cons.injEq] at hs
          obtain ⟨-, rfl, -⟩ := hs
          rw [hsemi] at hk2; cases hk2
        | cons u r =>
          simp only [List.cons_append, List.cons.injEq] at hs
          obtain ⟨rfl, rfl, -⟩ := hs
          exact hk ho ⟨_, _, _, rfl, hk1, hk2⟩
      · cases hs
        intro h; rw [h] at ht'; revert ht'; decide
  refine does_bind' (consumeAny_yes m2 (paren_any hb)) (does_bind (ih0 q2 q3 m3 c2 hm n) (does_bind (ih1 q3 q4 m4 c3 ⟨_, _, m5.head, hsemi⟩ n)
    (does_bind' (consume_yes m5 hsemi) (does_bind (ih2 q5 q6 m6 c5 ⟨_, _, m7.head, hr⟩ n) (does_bind' (consume_yes m7 hr)
      (does_bind (loop_does ih3 m8 (m0.trans m7) rfl hc ha n) ?_))))))
  cases init <;> cases inc <;> exact does_pure

theorem runs_for_none {semi : Token} (h : semi.tokenType = .semicolon) : Runs env repl l .closed false .forInit [semi] (.optStmt none) [] := by
  intro v p p' m hc _ n
  unfold forInitializer
  exact does_bind' (match_yes m h) does_pure

theorem for_var_does {t : Token} {st : Stmt} (ht : t.tokenType = .var) (m : Moves p [t] q)
    (h : Does v (finishVarDeclaration env (recN env n) true) q st p' v') : Does v (forInitializer env (recN env n)) p (some st) p' v' := by
  unfold forInitializer
  refine does_bind' (match_no m.head (by rw [ht]; decide)) ?_
  simp only [Bool.false_eq_true, if_false]
  exact does_bind' (match_yes m ht) (does_bind h does_pure)

theorem runs_for_var {t nm semi : Token} (ht : t.tokenType = .var) (hn : nm.tokenType = .identifier) (hsemi : semi.tokenType = .semicolon) :
    Runs env repl l .closed false .forInit [t, nm, semi] (.optStmt (some (.var nm.lexeme .placeholder .literalNil nm.loc))) [] := by
  intro v p p' m hc _ n
  obtain ⟨q1, m1, m⟩ := m.uncons
  obtain ⟨q2, m2, m3⟩ := m.uncons
  exact for_var_does ht m1 (var_none hn m2 m3 (by rw [hsemi]; decide) (end_var_semi m3 hsemi))

theorem runs_for_var_init {t nm eq semi : Token} {term : List Token} (ht : t.tokenType = .var) (hn : nm.tokenType = .identifier)
    (heq : eq.tokenType = .equal) (ho : Optional .terminator term) (ih : Runs env repl l o false .expression w (.expr x) vs)
    (hf : ExprHead exprTs w) (hb : o ≠ .brace) (hsemi : semi.tokenType = .semicolon) :
    Runs env repl l .closed false .forInit (t :: nm :: eq :: term ++ w ++ [semi])
      (.optStmt (some (.var nm.lexeme .placeholder x nm.loc))) vs := by
  intro v p p' m hc _ n
  obtain ⟨q4, m, m5⟩ := m.split
  obtain ⟨q3, m, m4⟩ := m.split
  obtain ⟨q1, m1, m⟩ := m.uncons
  obtain ⟨q2, m2, m3⟩ := Moves.split (w := [nm, eq]) m
  refine for_var_does ht m1 (var_some hn heq ho m2 m3 (by rw [m4.rest]; exact hf.not_terminator)
    (ih q3 q4 m4 (((hc.moves m1).moves m2).moves m3) ?_ n) (end_var_semi m5 hsemi))
  rw [m5.head]
  exact stop_of hsemi rfl (by decide) fun h => absurd h hb

theorem runs_for_expression {term : Token} (ih : Runs env repl l o false .expression w (.expr x) vs) (hf : ExprHead exprTs w) (hb : o ≠ .brace)
    (hterm : term.tokenType = .terminator) : Runs env repl l o.line false .forInit (w ++ [term]) (.optStmt (some (.expression x))) vs := by
  intro v p p' m hc hm n
  obtain ⟨q1, m1, m2⟩ := m.split
  have h := ih (v := v) p q1 m1 hc (by
    rw [m2.head]
    refine stop_zero (by rw [hterm]; rfl) (fun ho => ?_) fun h => absurd h hb
    obtain ⟨h1, h2⟩ := hm (by rcases ho with rfl | rfl <;> rfl)
    rintro ⟨_, _, hs, -, hk⟩
    cases hs
    rcases hk with hk | ⟨u, r', hu, hu'⟩
    · exact h1 hk
    · exact h2 _ _ hu hu') n
  obtain ⟨t, rt, rfl, ht, -⟩ := hf
  unfold forInitializer
  refine does_bind' (match_no m1.head (fun h => by rw [h] at ht; revert ht; decide)) ?_
  simp only [Bool.false_eq_true, if_false]
  refine does_bind' (match_no m1.head (fun h => by rw [h] at ht; revert ht; decide)) ?_
  simp only [Bool.false_eq_true, if_false]
  exact does_bind (does_bind h (does_bind (end_expression m2 hterm) does_pure)) does_pure

theorem runs_condition_none : Runs env repl l .closed false .forCondition [] (.expr (.literalBool true)) [] := by
  intro v p p' m hc hs n
  rw [m.eq_nil] at hs ⊢
  obtain ⟨t, rt, hr, ht⟩ := hs
  unfold forCondition
  refine does_query ?_
  rw [check_yes hr ht (by decide)]
  exact does_pure

theorem runs_condition (ih : Runs env repl l o false .expression w (.expr x) vs) (hf : ExprHead exprTs w) (hb : o ≠ .brace) :
    Runs env repl l .closed false .forCondition w (.expr x) vs := by
  intro v p p' m hc hs n
  obtain ⟨t, rt, hr, ht⟩ := hs
  have h := ih (v := v) p p' m hc (by rw [hr]; exact stop_of ht rfl (by decide) fun h => absurd h hb) n
  obtain ⟨u, ru, hu, hut⟩ := hf.cons (v := p'.rest)
  unfold forCondition
  refine does_query ?_
  rw [check_no (m.rest.trans hu) (fun h => by rw [h] at hut; revert hut; decide)]
  exact h

theorem runs_increment_none : Runs env repl l .closed false .forIncrement [] (.optExpr none) [] := by
  intro v p p' m hc hs n
  rw [m.eq_nil] at hs ⊢
  obtain ⟨t, rt, hr, ht⟩ := hs
  unfold forIncrement
  refine does_query ?_
  rw [check_yes hr ht (by decide)]
  exact does_pure

theorem runs_increment (ih : Runs env repl l o false .expression w (.expr x) vs) (hf : ExprHead exprTs w) (hb : o ≠ .brace) :
    Runs env repl l .closed false .forIncrement w (.optExpr (some x)) vs := by
  intro v p p' m hc hs n
  obtain ⟨t, rt, hr, ht⟩ := hs
  have h := ih (v := v) p p' m hc (by rw [hr]; exact stop_of ht rfl (by decide) fun h => absurd h hb) n
  obtain ⟨u, ru, hu, hut⟩ := hf.cons (v := p'.rest)
  unfold forIncrement
  refine does_query ?_
  rw [check_no (m.rest.trans hu) (fun h => by rw [h] at hut; revert hut; decide)]
  exact does_bind h does_pure

/-! ### Everything -/

theorem before_empty {xs : List Expr} (h : Loose repl l o e .before w (.exprs xs) vs) : w = [] ∧ xs = [] ∧ vs = [] ∨ ExprHead exprTs w ∧ xs ≠ [] := by
  have hf : First .before w := loose_first h
  cases h with
  | before_nil => exact .inl ⟨rfl, rfl, rfl⟩
  | before =>
    rcases hf with hf | hf
    · simp at hf
    · exact .inr ⟨hf, by simp⟩

theorem loose_runs {sym : Sym} {x : Tree} (h : Loose repl l o e sym w x vs) : Runs env repl l o e sym w x vs := by
  induction h with
  | target_plain h ih => exact runs_target_plain ih (fun h' => by have := loose_ends h; rw [h'] at this; revert this; decide) (loose_first h)
  | target_indented h1 h h2 h3 h4 ih =>
    exact runs_target_indented h1 ih (fun h' => by have := loose_ends h; rw [h'] at this; revert this; decide) h2 h3 h4
  | expression _ ih => exact runs_expression ih
  | assignment _ h0 h1 _ h2 ih1 ih2 => exact runs_assignment ih1 h0 h1 ih2 h2
  | assignment_fault _ h0 h1 _ h2 ih1 ih2 => exact runs_assignment_fault ih1 h0 h1 ih2 h2
  | operand _ ih => exact runs_operand ih
  | operator _ h0 h1 _ ih1 ih2 => exact runs_operator ih1 h0 h1 ih2
  | call h ih => exact runs_call ih (loose_first h)
  | «prefix» h _ ih => exact runs_prefix h ih
  | primary _ ih => exact runs_primary ih
  | property _ h0 h1 h2 ih => exact runs_property ih h0 h1 h2
  | call_empty _ h0 h1 h2 ih => exact runs_call_empty ih h0 h1 h2
  | call_args _ h0 h1 h h3 h2 ih1 ih2 => exact runs_call_args ih1 h0 h1 ih2 h3 (loose_first h) h2
  | call_bare _ h0 h1 h2 _ ih1 ih2 => exact runs_call_bare ih1 h0 h1 h2 ih2
  | index _ h0 h1 _ h3 h2 ih1 ih2 => exact runs_index ih1 h0 h1 ih2 h3 h2
  | before_nil => exact runs_before_nil
  | before _ h h0 h1 ih1 ih2 => exact runs_before ih1 ih2 h0 (loose_first h) h1
  | arguments _ h1 _ ih1 ih2 => exact runs_arguments ih1 h1 ih2
  | arguments_fault _ h1 _ ih1 ih2 => exact runs_arguments_fault ih1 h1 ih2
  | entries_nil => exact runs_entries_nil
  | entries_comma _ h1 h2 _ h0 h4 ih1 ih2 => exact runs_entries_next ih1 h1 h2 ih2 (.inl ⟨h4, h0⟩)
  | entries_line _ h1 h2 h h3 h4 h6 ih1 ih2 =>
    exact runs_entries_next ih1 h1 h2 ih2
      (.inr ⟨h6, ⟨h3, fun h' => by have := loose_ends h; rw [h'] at this; revert this; decide, h4⟩, rfl⟩)
  | entries _ h1 h2 _ ih1 ih2 => exact runs_entries ih1 h1 h2 ih2
  | «false» ht | «true» ht | nil ht =>
    refine runs_word fun v p p' m _ n => primary_does m.head ht ?_
    simp only [ht]
    exact does_bind' (advance_yes m) does_pure
  | number ht hx =>
    refine runs_word fun v p p' m _ n => primary_does m.head ht ?_
    simp only [ht, hx]
    exact does_bind' (advance_yes m) does_pure
  | string ht hx =>
    refine runs_word fun v p p' m hc n => primary_does m.head ht ?_
    simp only [ht]
    refine does_query ?_
    rw [noColon_check m hc]
    simp only [hx, Bool.false_eq_true, if_false]
    exact does_bind' (advance_yes m) does_pure
  | «variable» ht =>
    refine runs_word fun v p p' m hc n => primary_does m.head rfl ?_
    rcases ht with ht | ht
    all_goals
      simp only [ht]
      refine does_query ?_
      rw [noColon_check m hc]
      exact does_bind' (advance_yes m) does_pure
  | map_bare h ih => exact runs_map_bare ih (loose_first h)
  | map_open h h1 ih =>
    refine runs_map_open ih ?_ ?_
    · have := loose_ends h
      simpa [Sym.ends, h1] using this
    · rcases (loose_first h : _ = [] ∨ _) with rfl | hf
      · exact absurd (entriesBefore_empty h) h1
      · exact hf
  | map_braces h1 _ h2 ih => exact runs_map_braces h1 ih h2
  | map_trailing h1 _ h2 ih => exact runs_map_trailing h1 ih h2
  | function_literal h1 h ih => exact runs_function_literal h1 ih (loose_first h)
  | grouping h1 _ h0 h2 ih => exact runs_grouping h1 ih h0 h2
  | array h1 h h' h0 h2 ih1 ih2 => exact runs_array h1 ih1 (loose_first h) ih2 h0 (loose_first h') h2
  | array_trailing h1 h h2 ih => exact runs_array_trailing h1 ih (before_empty h) h2
  | super h1 h2 h3 => exact runs_super h1 h2 h3
  | parameters_nil => exact runs_parameters_nil
  | parameters _ h1 h2 ih => exact runs_parameters ih h1 h2
  | function_empty h1 h2 _ ih => exact runs_function_empty h1 h2 ih
  | function h1 h h3 h4 _ ih1 ih2 => exact runs_function h1 ih1 (loose_first h) h3 h4 ih2
  | block_braces h1 _ h2 h3 h4 ih => exact runs_block_braces h1 ih h2 h3 h4
  | block_indented h1 h2 _ h3 h4 h5 ih => exact runs_block_indented h1 h2 ih h3 h4 h5
  | named h1 _ ih => exact runs_named h1 ih
  | methods_nil => exact runs_methods_nil
  | method _ h ih1 ih2 => exact runs_method ih1 ih2 (loose_first h)
  | class_method _ h1 _ ih1 ih2 => exact runs_class_method ih1 h1 ih2
  | declarations_nil => exact runs_declarations_nil
  | declarations _ h h1 ih1 ih2 => exact runs_declarations ih1 ih2 (loose_first h) h1
  | declaration h ih => exact runs_declaration ih (loose_first h)
  | fun_decl h1 h ih => exact runs_fun_decl h1 ih (loose_first h)
  | class_braces h1 h2 h3 _ h4 ih => exact runs_class_braces h1 h2 h3 ih h4
  | class_indented h1 h2 h3 h4 _ h5 ih => exact runs_class_indented h1 h2 h3 h4 ih h5
  | subclass_braces h1 h2 h3 h4 h5 _ h6 ih => exact runs_subclass_braces h1 h2 h3 h4 h5 ih h6
  | subclass_indented h1 h2 h3 h4 h5 h6 _ h7 ih => exact runs_subclass_indented h1 h2 h3 h4 h5 h6 ih h7
  | var h1 h2 h3 => exact runs_var h1 h2 h3
  | var_init h1 h2 h3 h4 h h5 h6 ih => exact runs_var_init h1 h2 h3 h4 ih (loose_first h) h5 h6
  | var_open h1 h2 h3 h4 _ h5 ih => exact runs_var_open h1 h2 h3 h4 ih h5
  | expression_statement h h1 h2 h3 ih => exact runs_expression_statement ih (loose_first h) h1 h2 h3
  | expression_last h h1 h2 h3 ih =>
    subst h3
    exact runs_expression_last ih (loose_first h) h1 h2
  | «break» h1 h2 => exact runs_break h1 h2
  | «continue» h1 h2 => exact runs_continue h1 h2
  | break_fault h1 h2 => exact runs_break_fault h1 h2
  | continue_fault h1 h2 => exact runs_continue_fault h1 h2
  | print h1 _ h2 h3 ih => exact runs_print h1 ih h2 h3
  | return_nil h1 h2 => exact runs_return_nil h1 h2
  | «return» h1 h h2 h3 ih => exact runs_return h1 ih (loose_first h) h2 h3
  | braces h1 _ h2 h3 h4 ih => exact runs_braces h1 ih h2 h3 h4
  | «if» h1 h2 _ h3 h4 _ ih1 ih2 => exact runs_if h1 h2 ih1 h3 h4 ih2
  | if_else h1 h2 _ h3 h4 _ h5 h6 h7 _ ih1 ih2 ih3 => exact runs_if_else h1 h2 ih1 h3 h4 ih2 h5 h6 h7 ih3
  | «while» h1 h2 _ h3 h4 _ ih1 ih2 => exact runs_while h1 h2 ih1 h3 h4 ih2
  | «for» h1 h2 _ h h0 h3 _ h4 _ ih0 ih1 ih2 ih3 => exact runs_for h1 h2 ih0 ih1 h0 (loose_first h) h3 ih2 h4 ih3
  | for_none h1 => exact runs_for_none h1
  | for_var h1 h2 h3 => exact runs_for_var h1 h2 h3
  | for_var_init h1 h2 h3 h4 h h5 h6 ih => exact runs_for_var_init h1 h2 h3 h4 ih (loose_first h) h5 h6
  | for_expression h h1 h2 ih => exact runs_for_expression ih (loose_first h) h1 h2
  | condition_none => exact runs_condition_none
  | condition h h1 ih => exact runs_condition ih (loose_first h) h1
  | increment_none => exact runs_increment_none
  | increment h h1 ih => exact runs_increment ih (loose_first h) h1
  | body_block h ih => exact runs_body_block ih (loose_first h)
  | body h h1 ih => exact runs_body ih (loose_first h) h1

end Ws
