import Verif.Proofs.Parse.Faults
import Verif.Properties.Grammar
/-! Property C55 of the parser, and the rest of C23, C24 and C26: which error is reported. -/
namespace Ws.Properties
open Ws Spec

-- check the long examples one after the other, which needs less memory
set_option Elab.async false

variable {env : Env} {source : Str} {repl : Bool} {sts : List Stmt} {x f : Expr} {w wf : List Token} {b c t eof : Token}
  {o o₁ : Ends} {e : Bool} {vs : List Cause}

/-! ### C55 -/

/-- C55: if the grammar with faults derives the tokens of a source with the first fault `cause`, then the
source is rejected and the first error is that fault. -/
theorem first_fault (hE : EnvLaws env) (hS : Fits env source) (hs : scanTokens env source = .done (.ok (w ++ [eof]))) {cause : Cause}
    (h : Spec.Loose repl false o e .declarations w (.stmts sts) (cause :: vs)) (ho : o ≠ .brace) :
    ∃ more, parseIn env repl source = .done (.error (cause :: more)) := by
  rw [parseIn_ok hs]
  exact parseTokens_fault (scan_tokensOk hE hs) (hS _ hs) h ho

/-- C55: a source is accepted exactly if the grammar with faults derives its tokens without a fault. -/
theorem accepted_iff_faultless (hE : EnvLaws env) (hS : Fits env source) (hs : scanTokens env source = .done (.ok (w ++ [eof]))) :
    Accepts env repl source sts ↔ ∃ o e, Spec.Loose repl false o e .declarations w (.stmts sts) [] ∧ o ≠ .brace := by
  rw [accepted_iff_derived hE hS hs]
  exact ⟨fun ⟨o, e, h, ho⟩ => ⟨o, e, plain_loose h, ho⟩, fun ⟨o, e, h, ho⟩ => ⟨o, e, loose_plain h rfl, ho⟩⟩

/-- C55, for `parse_expression`, which reports nothing but the first fault. -/
theorem expression_faults (hE : EnvLaws env) (hS : Fits env source) (hs : scanTokens env source = .done (.ok (w ++ [eof])))
    (h : Spec.Loose false false o e .expression w (.expr x) vs) (ho : o ≠ .brace) :
    parseExpression env source = .done (match (generalizing := false) vs with | [] => .ok x | cause :: _ => .error [cause]) := by
  show (scanTokens env source).bind _ = _
  rw [hs]
  exact expression_top (scan_tokensOk hE hs) (hS _ hs) h ho

/-- `1 = {a: 2, a: 3}` and then a stray `break`: the repeated key shows first, the bad target second, the
`break` last. -/
def faulty : Str := c!"nil = {a: x, a: y}\nbreak\n"
def faultyTokens : List Token :=
  [⟨.nil, c!"nil", none, none, 1, 1⟩, ⟨.equal, c!"=", none, none, 1, 5⟩, ⟨.leftBrace, c!"{", none, none, 1, 7⟩,
    ⟨.identifier, c!"a", none, none, 1, 8⟩, ⟨.colon, c!":", none, none, 1, 9⟩, ⟨.identifier, c!"x", none, none, 1, 11⟩,
    ⟨.comma, c!",", none, none, 1, 12⟩, ⟨.identifier, c!"a", none, none, 1, 14⟩, ⟨.colon, c!":", none, none, 1, 15⟩,
    ⟨.identifier, c!"y", none, none, 1, 17⟩, ⟨.rightBrace, c!"}", none, none, 1, 18⟩, ⟨.terminator, c!"\n", none, none, 1, 19⟩,
    ⟨.break, c!"break", none, none, 2, 1⟩, ⟨.terminator, c!"\n", none, none, 2, 6⟩]
def faultyCauses : List Cause :=
  [⟨⟨1, 14⟩, some c!"a", "Duplicate key in literal map."⟩, ⟨⟨1, 5⟩, some c!"=", "Invalid assignment target."⟩,
    ⟨⟨2, 1⟩, some c!"break", "Found break statement outside of loop body"⟩]

theorem faulty_derived : ∃ sts, Spec.Loose repl false .closed false .declarations faultyTokens (.stmts sts) faultyCauses := by
  have hb : Spec.Loose repl false .comma false .entriesBefore (faultyTokens.drop 3 |>.take 4) (.entries [.mk c!"a" (v c!"x" 1 11)]) [] :=
    .entries_comma (w := []) (c := ⟨.colon, c!":", none, none, 1, 9⟩) (w' := [⟨.identifier, c!"x", none, none, 1, 11⟩]) .entries_nil
      (.inl ⟨rfl, rfl⟩) rfl (plain_loose (plain_name rfl)) (.inl rfl) rfl
  have he : Spec.Loose repl false .closed false .entries (faultyTokens.drop 3 |>.take 7)
      (.entries [.mk c!"a" (v c!"x" 1 11), .mk c!"a" (v c!"y" 1 17)]) (faultyCauses.take 1) :=
    .entries hb (.inl ⟨rfl, rfl⟩) rfl (plain_loose (plain_name rfl))
  have hm : Spec.Loose repl false .closed false .expression (faultyTokens.drop 2 |>.take 9)
      (.expr (.literalMap [.mk c!"a" (v c!"x" 1 11), .mk c!"a" (v c!"y" 1 17)])) (faultyCauses.take 1) :=
    .expression (.target_plain (.operand (.operand (.operand (.operand (.operand (.operand (.call (.primary
      (.map_braces (b := ⟨.leftBrace, c!"{", none, none, 1, 7⟩) rfl he rfl))))))))))
  have ht : Spec.Loose repl false .closed false .expression (faultyTokens.take 11) (.expr .literalNil) (faultyCauses.take 2) :=
    .assignment_fault (w₁ := [⟨.nil, c!"nil", none, none, 1, 1⟩]) (.target_plain (o := .closed) (.operand (.operand (.operand (.operand
      (.operand (.operand (.call (.primary (.nil rfl)))))))))) (.inl rfl) rfl hm (by intro x h; cases h)
  exact ⟨_, .declarations (.declarations .declarations_nil (.declaration (.expression_statement ht (by decide) (by decide) rfl))
    ⟨by decide, by decide, by simp, by simp⟩) (.declaration (.break_fault rfl rfl)) ⟨by decide, by decide, nofun, nofun⟩⟩

example : EnvLaws asciiEnv ∧ Fits asciiEnv faulty ∧
    scanTokens asciiEnv faulty = .done (.ok (faultyTokens ++ [⟨.eof, c!"", none, none, 3, 1⟩])) ∧
    ∃ sts, Spec.Loose repl false .closed false .declarations faultyTokens (.stmts sts) faultyCauses :=
  ⟨asciiEnv_laws, fits_of_small (by by_kernel), by by_kernel, faulty_derived⟩

/-! ### C23 -/

variable {items : List Item} {last : List Token}

/-- C23: a call with at most 255 arguments is accepted. -/
theorem call_within_limit (hE : EnvLaws env) (hS : Fits env source)
    (hs : scanTokens env source = .done (.ok (wf ++ b :: (items.flatMap Item.all ++ last) ++ [c] ++ [eof])))
    (hf : Plain false false o₁ false .call wf (.expr f)) (ho₁ : o₁.whole) (hb : b.tokenType = .leftParenAbutting)
    (hi : ∀ i ∈ items, i.Ok false false) (hl : Plain false false o false .expression last (.expr x)) (ho : o ≠ .brace)
    (hc : c.tokenType = .rightParen) (hn : items.length + 1 ≤ 255) :
    parseExpression env source = .done (.ok (.call f (items.map Item.tree ++ [x]) b.loc)) :=
  expression_faults hE hS hs (.expression (.target_plain (.operand (.operand (.operand (.operand (.operand (.operand (.call
    (.call_args (plain_loose hf) ho₁ hb (arguments_items hi hl hn) ho hc)))))))))) (by decide)

/-- C23: a call with more than 255 arguments is rejected, and the 256th is reported. -/
theorem call_beyond_limit (hE : EnvLaws env) (hS : Fits env source)
    (hs : scanTokens env source = .done (.ok (wf ++ b :: (items.flatMap Item.all ++ last) ++ [c] ++ [eof])))
    (hf : Plain false false o₁ false .call wf (.expr f)) (ho₁ : o₁.whole) (hb : b.tokenType = .leftParenAbutting)
    (hi : ∀ i ∈ items, i.Ok false false) (hl : Plain false false o false .expression last (.expr x)) (ho : o ≠ .brace)
    (hc : c.tokenType = .rightParen) {argument : List Token} (hn : (items.map Item.tokens ++ [last])[255]? = some argument)
    (ht : argument.head? = some t) :
    parseExpression env source = .done (.error [⟨t.loc, some t.lexeme, "Cannot have more than 255 arguments."⟩]) := by
  obtain ⟨vs, h, hv⟩ := arguments_items_fault _ (Nat.le_refl _) hi hl
  obtain ⟨vs', rfl⟩ := hv t (by rw [hn]; exact ht)
  exact expression_faults hE hS hs (.expression (.target_plain (.operand (.operand (.operand (.operand (.operand (.operand (.call
    (.call_args (plain_loose hf) ho₁ hb h ho hc)))))))))) (by decide)

/-- C23, for calls without parentheses. -/
theorem bare_call_within_limit (hE : EnvLaws env) (hS : Fits env source) (hw : items.flatMap Item.all ++ last = t :: w)
    (hs : scanTokens env source = .done (.ok (wf ++ t :: w ++ [eof])))
    (hf : Plain false false o₁ false .call wf (.expr f)) (ho₁ : o₁ = .closed) (hb : startsArgument t.tokenType)
    (hi : ∀ i ∈ items, i.Ok false false) (hl : Plain false false o false .expression last (.expr x)) (ho : o ≠ .brace)
    (hn : items.length + 1 ≤ 255) :
    parseExpression env source = .done (.ok (.call f (items.map Item.tree ++ [x]) t.loc)) := by
  have h := arguments_items hi hl hn
  rw [hw] at h
  exact expression_faults hE hS hs (.expression (.target_plain (.operand (.operand (.operand (.operand (.operand (.operand (.call
    (.call_bare (plain_loose hf) (.inl ho₁) hb (by rw [ho₁]; nofun) h)))))))))) (by revert ho; cases o <;> decide)

/-- C23, for calls without parentheses. -/
theorem bare_call_beyond_limit (hE : EnvLaws env) (hS : Fits env source) (hw : items.flatMap Item.all ++ last = t :: w)
    (hs : scanTokens env source = .done (.ok (wf ++ t :: w ++ [eof])))
    (hf : Plain false false o₁ false .call wf (.expr f)) (ho₁ : o₁ = .closed) (hb : startsArgument t.tokenType)
    (hi : ∀ i ∈ items, i.Ok false false) (hl : Plain false false o false .expression last (.expr x)) (ho : o ≠ .brace)
    {argument : List Token} {t' : Token} (hn : (items.map Item.tokens ++ [last])[255]? = some argument) (ht : argument.head? = some t') :
    parseExpression env source = .done (.error [⟨t'.loc, some t'.lexeme, "Cannot have more than 255 arguments."⟩]) := by
  obtain ⟨vs, h, hv⟩ := arguments_items_fault _ (Nat.le_refl _) hi hl
  obtain ⟨vs', rfl⟩ := hv t' (by rw [hn]; exact ht)
  rw [hw] at h
  exact expression_faults hE hS hs (.expression (.target_plain (.operand (.operand (.operand (.operand (.operand (.operand (.call
    (.call_bare (plain_loose hf) (.inl ho₁) hb (by rw [ho₁]; nofun) h)))))))))) (by revert ho; cases o <;> decide)

/-- C23: a function with at most 255 parameters is accepted. -/
theorem function_within_limit (hE : EnvLaws env) (hS : Fits env source) {fn p : Token} {ps : List (Token × Token)} {body : List Stmt}
    (hs : scanTokens env source = .done (.ok (fn :: (b :: (ps.flatMap fun p => [p.1, p.2]) ++ p :: c :: w) ++ [eof])))
    (hf : fn.tokenType = .fun) (hb : IsParen b) (hp : ∀ p ∈ ps, p.1.tokenType = .identifier ∧ p.2.tokenType = .comma)
    (hp' : p.tokenType = .identifier) (hc : c.tokenType = .rightParen)
    (hw : Plain false false .closed false .block w (.stmts body)) (hn : ps.length + 1 ≤ 255) :
    parseExpression env source = .done (.ok (.function
      (.mk ((ps.map fun p => ⟨p.1.lexeme, p.1.loc⟩) ++ [⟨p.lexeme, p.loc⟩]) body .plainFunction fn.loc))) := by
  obtain ⟨vs, h, hv, -⟩ := parameters_items (repl := false) (l := false) hp
  cases hv (by omega)
  have h' := Spec.Loose.function (loc := fn.loc) hb h hp' hc (plain_loose hw)
  rw [excess_nil (by simp; omega)] at h'
  exact expression_faults hE hS hs (.expression (.target_plain (.operand (.operand (.operand (.operand (.operand (.operand (.call
    (.primary (.function_literal hf h'))))))))))) (by decide)

/-- C23: a function with more than 255 parameters is rejected, and the 256th is reported. -/
theorem function_beyond_limit (hE : EnvLaws env) (hS : Fits env source) {fn p : Token} {ps : List (Token × Token)} {body : List Stmt}
    (hs : scanTokens env source = .done (.ok (fn :: (b :: (ps.flatMap fun p => [p.1, p.2]) ++ p :: c :: w) ++ [eof])))
    (hf : fn.tokenType = .fun) (hb : IsParen b) (hp : ∀ p ∈ ps, p.1.tokenType = .identifier ∧ p.2.tokenType = .comma)
    (hp' : p.tokenType = .identifier) (hc : c.tokenType = .rightParen)
    (hw : Plain false false .closed false .block w (.stmts body)) (hn : (ps.map Prod.fst ++ [p])[255]? = some t) :
    parseExpression env source = .done (.error [⟨t.loc, some t.lexeme, "Cannot have more than 255 parameters."⟩]) := by
  obtain ⟨vs, h, hv, hv'⟩ := parameters_items (repl := false) (l := false) hp
  have h' := Spec.Loose.function (loc := fn.loc) hb h hp' hc (plain_loose hw)
  obtain ⟨vs', he⟩ : ∃ vs', vs ++ excess (ps.map fun p => ⟨p.1.lexeme, p.1.loc⟩) p ++ [] = tooManyParameters t :: vs' := by
    rcases Nat.lt_trichotomy ps.length 255 with hl | hl | hl
    · rw [List.getElem?_eq_none (by simp; omega)] at hn
      cases hn
    · rw [List.getElem?_append_right (by simp; omega)] at hn
      simp only [List.length_map, hl, Nat.sub_self, List.getElem?_cons_zero, Option.some.injEq] at hn
      subst hn
      rw [hv (by omega)]
      exact ⟨[], by simp [excess, hl]⟩
    · rw [List.getElem?_append_left (by simpa using hl), List.getElem?_map] at hn
      obtain ⟨q, hq, rfl⟩ := Option.map_eq_some_iff.1 hn
      obtain ⟨vs', rfl⟩ := hv' q hq
      exact ⟨_, rfl⟩
  rw [he] at h'
  exact expression_faults hE hS hs (.expression (.target_plain (.operand (.operand (.operand (.operand (.operand (.operand (.call
    (.primary (.function_literal hf h'))))))))))) (by decide)

/-- A call with 256 arguments and a function with 256 parameters. -/
def manyItems (n : Nat) : List Item :=
  (List.range n).map fun i => ⟨[⟨.identifier, c!"a", none, none, 1, 2 * i + 3⟩], v c!"a" 1 (2 * i + 3), ⟨.comma, c!",", none, none, 1, 2 * i + 4⟩⟩
def manyArguments (n : Nat) : Str := c!"f(" ++ (List.replicate n c!"a,").flatten ++ c!"a)"

theorem name_closed {l : Bool} {t : Token} (h : t.tokenType = .identifier) :
    Plain repl l .closed false .call [t] (.expr (.variable t.lexeme .placeholder t.loc)) := .primary (.variable (.inl h))

theorem manyItems_ok {n : Nat} {l : Bool} : ∀ i ∈ manyItems n, i.Ok repl l := by
  simp only [manyItems, List.mem_map]
  rintro _ ⟨k, -, rfl⟩
  exact ⟨.closed, plain_name rfl, .inl rfl, rfl⟩

example : EnvLaws asciiEnv ∧ Fits asciiEnv (manyArguments 255) ∧
    scanTokens asciiEnv (manyArguments 255) = .done (.ok ([⟨.identifier, c!"f", none, none, 1, 1⟩] ++ ⟨.leftParenAbutting, c!"(", none, none, 1, 2⟩ ::
      ((manyItems 255).flatMap Item.all ++ [⟨.identifier, c!"a", none, none, 1, 513⟩]) ++ [⟨.rightParen, c!")", none, none, 1, 514⟩] ++
      [⟨.eof, c!"", none, none, 1, 515⟩])) ∧
    (∀ i ∈ manyItems 255, i.Ok false false) ∧
    ((manyItems 255).map Item.tokens ++ [[⟨.identifier, c!"a", none, none, 1, 513⟩]])[255]? = some [⟨.identifier, c!"a", none, none, 1, 513⟩] :=
  ⟨asciiEnv_laws, fits_of_small (by by_kernel), by by_kernel, manyItems_ok, by by_kernel⟩

/-- The same without parentheses, and one argument fewer. -/
example : EnvLaws asciiEnv ∧ Fits asciiEnv (c!"f " ++ (manyArguments 254 |>.drop 2).dropLast) ∧
    (manyItems 254).flatMap Item.all ++ [⟨.identifier, c!"a", none, none, 1, 511⟩] =
      ⟨.identifier, c!"a", none, none, 1, 3⟩ :: ((manyItems 254).flatMap Item.all ++ [(⟨.identifier, c!"a", none, none, 1, 511⟩ : Token)]).tail ∧
    scanTokens asciiEnv (c!"f " ++ (manyArguments 254 |>.drop 2).dropLast) = .done (.ok ([⟨.identifier, c!"f", none, none, 1, 1⟩] ++
      ⟨.identifier, c!"a", none, none, 1, 3⟩ :: ((manyItems 254).flatMap Item.all ++ [(⟨.identifier, c!"a", none, none, 1, 511⟩ : Token)]).tail ++
      [⟨.eof, c!"", none, none, 1, 512⟩])) ∧ (manyItems 254).length + 1 ≤ 255 :=
  ⟨asciiEnv_laws, fits_of_small (by by_kernel), by by_kernel, by by_kernel, by simp [manyItems]⟩

def manyParameters (n : Nat) : List (Token × Token) :=
  (List.range n).map fun i => (⟨.identifier, c!"a", none, none, 1, 2 * i + 5⟩, ⟨.comma, c!",", none, none, 1, 2 * i + 6⟩)
def emptyBody : List Token := [⟨.leftBrace, c!"{", none, none, 1, 517⟩, ⟨.rightBrace, c!"}", none, none, 1, 518⟩]

example : EnvLaws asciiEnv ∧ Fits asciiEnv (c!"fun" ++ (manyArguments 255).tail ++ c!"{}") ∧
    scanTokens asciiEnv (c!"fun" ++ (manyArguments 255).tail ++ c!"{}") = .done (.ok (⟨.fun, c!"fun", none, none, 1, 1⟩ ::
      (⟨.leftParenAbutting, c!"(", none, none, 1, 4⟩ :: ((manyParameters 255).flatMap fun p => [p.1, p.2]) ++
        ⟨.identifier, c!"a", none, none, 1, 515⟩ :: ⟨.rightParen, c!")", none, none, 1, 516⟩ :: emptyBody) ++ [⟨.eof, c!"", none, none, 1, 519⟩])) ∧
    (∀ p ∈ manyParameters 255, p.1.tokenType = .identifier ∧ p.2.tokenType = .comma) ∧
    Plain false false .closed false .block emptyBody (.stmts []) ∧
    ((manyParameters 255).map Prod.fst ++ [⟨.identifier, c!"a", none, none, 1, 515⟩])[255]? = some ⟨.identifier, c!"a", none, none, 1, 515⟩ := by
  refine ⟨asciiEnv_laws, fits_of_small (by by_kernel), by by_kernel, ?_, .block_braces (w := []) rfl .declarations_nil (by decide) (by decide) rfl, by by_kernel⟩
  simp only [manyParameters, List.mem_map]
  rintro _ ⟨k, -, rfl⟩
  exact ⟨rfl, rfl⟩

/-! ### C24 -/

variable {es before after : List Entry} {en : Entry}

theorem map_items (hb : b.tokenType = .leftBrace) (hi : ∀ e ∈ es, e.Ok false false) (hc : c.tokenType = .rightBrace)
    (hw : w = es.flatMap Entry.all ∨ w = (es.flatMap Entry.all).dropLast) :
    ∃ vs, Spec.Loose false false .closed false .expression (b :: w ++ [c]) (.expr (.literalMap (es.map Entry.tree))) vs ∧
      ((es.map Entry.name).Nodup → vs = []) ∧
      ∀ before e after, es = before ++ e :: after → (before.map Entry.name).Nodup → e.name ∈ before.map Entry.name →
        ∃ vs', vs = duplicateKey e.key e.name :: vs' := by
  suffices h : ∃ vs, Spec.Loose false false .closed false .primary (b :: w ++ [c]) (.expr (.literalMap (es.map Entry.tree))) vs ∧ _ by
    obtain ⟨vs, h, h'⟩ := h
    exact ⟨vs, .expression (.target_plain (.operand (.operand (.operand (.operand (.operand (.operand (.call (.primary h))))))))), h'⟩
  obtain ⟨vs, ⟨o, h⟩, hl, h'⟩ := entries_items hi
  rcases hw with rfl | rfl
  · exact ⟨vs, .map_trailing hb h hc, h'⟩
  · rcases List.eq_nil_or_concat es with rfl | ⟨es', e, rfl⟩
    · exact ⟨vs, .map_trailing hb h hc, h'⟩
    · have hx : ((es'.concat e).flatMap Entry.all).dropLast = es'.flatMap Entry.all ++ e.key :: e.colon :: e.tokens := by
        rw [List.concat_eq_append, List.flatMap_append, List.flatMap_singleton, Entry.all, List.dropLast_append_of_ne_nil (by simp)]
        rw [List.dropLast_concat]
      obtain ⟨o', hl⟩ := hl es' e (by simp)
      exact ⟨vs, by rw [hx]; exact .map_braces hb hl hc, h'⟩

/-- C24: a map in braces whose keys are distinct is accepted, with its entries in source order. The last
entry need not be followed by a comma. -/
theorem map_distinct (hE : EnvLaws env) (hS : Fits env source) (hs : scanTokens env source = .done (.ok (b :: w ++ [c] ++ [eof])))
    (hb : b.tokenType = .leftBrace) (hi : ∀ e ∈ es, e.Ok false false) (hc : c.tokenType = .rightBrace)
    (hw : w = es.flatMap Entry.all ∨ w = (es.flatMap Entry.all).dropLast) (hk : (es.map Entry.name).Nodup) :
    parseExpression env source = .done (.ok (.literalMap (es.map Entry.tree))) := by
  obtain ⟨vs, h, hv, -⟩ := map_items hb hi hc hw
  cases hv hk
  exact expression_faults hE hS hs h (by decide)

/-- C24: a map in braces with a repeated key is rejected, and the first key that occurs before is reported. -/
theorem map_repeated (hE : EnvLaws env) (hS : Fits env source) (hs : scanTokens env source = .done (.ok (b :: w ++ [c] ++ [eof])))
    (hb : b.tokenType = .leftBrace) (hi : ∀ e ∈ before ++ en :: after, e.Ok false false) (hc : c.tokenType = .rightBrace)
    (hw : w = (before ++ en :: after).flatMap Entry.all ∨ w = ((before ++ en :: after).flatMap Entry.all).dropLast)
    (hk : (before.map Entry.name).Nodup) (hr : en.name ∈ before.map Entry.name) :
    parseExpression env source = .done (.error [⟨en.key.loc, some en.name, "Duplicate key in literal map."⟩]) := by
  obtain ⟨vs, h, -, hv⟩ := map_items hb hi hc hw
  obtain ⟨vs', rfl⟩ := hv before en after rfl hk hr
  exact expression_faults hE hS hs h (by decide)

/-- A map with the keys `a`, `b` and `"a"`, in braces. -/
def repeatedEntries : List Entry :=
  [⟨⟨.identifier, c!"a", none, none, 1, 2⟩, c!"a", ⟨.colon, c!":", none, none, 1, 3⟩, [⟨.identifier, c!"x", none, none, 1, 5⟩], v c!"x" 1 5,
      ⟨.comma, c!",", none, none, 1, 6⟩⟩,
    ⟨⟨.identifier, c!"b", none, none, 1, 8⟩, c!"b", ⟨.colon, c!":", none, none, 1, 9⟩, [⟨.identifier, c!"y", none, none, 1, 11⟩], v c!"y" 1 11,
      ⟨.comma, c!",", none, none, 1, 12⟩⟩,
    ⟨⟨.string, c!"\"a\"", some c!"a", none, 1, 14⟩, c!"a", ⟨.colon, c!":", none, none, 1, 17⟩, [⟨.identifier, c!"z", none, none, 1, 19⟩], v c!"z" 1 19,
      ⟨.comma, c!",", none, none, 1, 20⟩⟩]

theorem repeatedEntries_ok : ∀ e ∈ repeatedEntries, e.Ok false false := by
  simp only [repeatedEntries, List.mem_cons, List.not_mem_nil, or_false]
  rintro _ (rfl | rfl | rfl)
  · exact ⟨.inl ⟨rfl, rfl⟩, rfl, .closed, plain_name rfl, .inl ⟨.inl rfl, rfl⟩⟩
  · exact ⟨.inl ⟨rfl, rfl⟩, rfl, .closed, plain_name rfl, .inl ⟨.inl rfl, rfl⟩⟩
  · exact ⟨.inr ⟨rfl, rfl⟩, rfl, .closed, plain_name rfl, .inl ⟨.inl rfl, rfl⟩⟩

example : EnvLaws asciiEnv ∧ Fits asciiEnv c!"{a: x, b: y, \"a\": z}" ∧
    scanTokens asciiEnv c!"{a: x, b: y, \"a\": z}" = .done (.ok (⟨.leftBrace, c!"{", none, none, 1, 1⟩ ::
      (repeatedEntries.flatMap Entry.all).dropLast ++ [⟨.rightBrace, c!"}", none, none, 1, 20⟩] ++ [⟨.eof, c!"", none, none, 1, 21⟩])) ∧
    (∀ e ∈ repeatedEntries, e.Ok false false) ∧ ((repeatedEntries.take 2).map Entry.name).Nodup ∧
    ∃ en, repeatedEntries = repeatedEntries.take 2 ++ en :: [] ∧ en.name ∈ (repeatedEntries.take 2).map Entry.name :=
  ⟨asciiEnv_laws, fits_of_small (by by_kernel), by by_kernel, repeatedEntries_ok, by decide, _, rfl, by decide⟩

/-! ### C26 -/

/-- What may stand to the left of `=`. -/
def Assignable : Expr → Prop
  | .variable n _ _ => n ≠ c!"this"
  | .get .. | .getIndex .. => True
  | _ => False

/-- C26: an assignment is accepted exactly if its target is a variable other than `this`, a property or an
index. -/
theorem assignment_accepted (hE : EnvLaws env) (hS : Fits env source) {target value : Expr} {w' : List Token}
    (hs : scanTokens env source = .done (.ok (w ++ t :: w' ++ [eof])))
    (hw : Plain false false o₁ false .target w (.expr target)) (ho₁ : o₁.item) (ht : t.tokenType = .equal)
    (hw' : Plain false false o false .expression w' (.expr value)) (ho : o ≠ .brace) (ha : Assignable target) :
    ∃ x, parseExpression env source = .done (.ok x) ∧ Assigns value t.loc target x := by
  obtain ⟨x, hx⟩ : ∃ x, Assigns value t.loc target x := by
    cases target <;> simp only [Assignable] at ha
    · exact ⟨_, .property ..⟩
    · exact ⟨_, .index ..⟩
    · exact ⟨_, .variable _ _ _ ha⟩
  exact ⟨x, expression_faults hE hS hs (.assignment (plain_loose hw) ho₁ ht (plain_loose hw') hx) ho, hx⟩

/-- C26: an assignment to anything else is rejected, and the `=` is reported. -/
theorem assignment_rejected (hE : EnvLaws env) (hS : Fits env source) {target value : Expr} {w' : List Token}
    (hs : scanTokens env source = .done (.ok (w ++ t :: w' ++ [eof])))
    (hw : Plain false false o₁ false .target w (.expr target)) (ho₁ : o₁.item) (ht : t.tokenType = .equal)
    (hw' : Plain false false o false .expression w' (.expr value)) (ho : o ≠ .brace) (ha : ¬ Assignable target) :
    parseExpression env source = .done (.error [⟨t.loc, some c!"=", "Invalid assignment target."⟩]) := by
  refine expression_faults hE hS hs (.assignment_fault (plain_loose hw) ho₁ ht (plain_loose hw') fun x hx => ha ?_) ho
  cases hx with
  | «variable» _ _ _ h => exact h
  | property => trivial
  | index => trivial

/-- `f(x) = y`, whose target is a call. -/
def callTarget : List Token :=
  [⟨.identifier, c!"f", none, none, 1, 1⟩, ⟨.leftParenAbutting, c!"(", none, none, 1, 2⟩, ⟨.identifier, c!"x", none, none, 1, 3⟩,
    ⟨.rightParen, c!")", none, none, 1, 4⟩]
example : EnvLaws asciiEnv ∧ Fits asciiEnv c!"f(x) = y" ∧
    scanTokens asciiEnv c!"f(x) = y" = .done (.ok (callTarget ++ ⟨.equal, c!"=", none, none, 1, 6⟩ :: [⟨.identifier, c!"y", none, none, 1, 8⟩] ++
      [⟨.eof, c!"", none, none, 1, 9⟩])) ∧
    Plain false false .closed false .target callTarget (.expr (.call (v c!"f" 1 1) [v c!"x" 1 3] ⟨1, 2⟩)) ∧
    ¬ Assignable (.call (v c!"f" 1 1) [v c!"x" 1 3] ⟨1, 2⟩) ∧
    Assignable (.get (.call (v c!"f" 1 1) [v c!"x" 1 3] ⟨1, 2⟩) c!"g" ⟨1, 5⟩) :=
  ⟨asciiEnv_laws, fits_of_small (by by_kernel), by by_kernel,
    .target_plain (o := .closed) (.operand (.operand (.operand (.operand (.operand (.operand (.call (o := .closed)
      (.call_args (w := callTarget.take 1) (name_closed rfl) (.inl rfl) rfl
        (.arguments (w := []) (w' := [⟨.identifier, c!"x", none, none, 1, 3⟩]) .before_nil (by simp) (plain_name rfl)) (by decide) rfl)))))))),
    nofun, trivial⟩

end Ws.Properties
