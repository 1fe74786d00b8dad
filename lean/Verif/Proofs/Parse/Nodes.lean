import Verif.Proofs.Parse.All
import Verif.Spec.Shape
/-! What derived trees look like, by induction on derivations. -/
namespace Ws
open Spec

/-! ### Limits -/

/-- What `Limits` needs of lists. -/
def auxLimits : NT → Tree → Prop
  | .arguments, .exprs es => es.length ≤ 255
  | .parameters, .params ps => ps.length ≤ 255
  | _, _ => True

variable {repl l : Bool} {nt : NT} {w : List Token} {v : Tree}

theorem grammar_limits (h : Grammar repl l nt w v) : AllT Limits v ∧ auxLimits nt v := by
  induction h
  case assignment h1 h2 h3 h4 ih1 ih2 => cases h4 <;> simp_all [AllT, Limits, auxLimits]
  case operator h1 h2 h3 ih1 ih2 =>
    rcases Prec.node_cases h2 with ⟨op, h⟩ | ⟨op, h⟩ <;> simp_all [AllT, Limits, auxLimits]
  case «for» l t o w₀ init w₁ cond semi w₂ inc c w₃ s _ _ _ _ _ _ _ _ _ _ _ _ =>
    cases init <;> cases inc <;> simp_all [AllT, Limits, auxLimits, forLoop]
  all_goals try simp_all [AllT, Limits, auxLimits, FunDef.params, MapEntry.value, NamedFun.funDef, or_imp, forall_and]
  all_goals omega

/-! ### Map keys -/

/-- What `DistinctKeys` needs of lists. -/
def auxKeys : Tree → Prop
  | .entries ms => (ms.map MapEntry.key).Nodup
  | _ => True

theorem grammar_keys (h : Grammar repl l nt w v) : AllT DistinctKeys v ∧ auxKeys v := by
  induction h
  case assignment h1 h2 h3 h4 ih1 ih2 => cases h4 <;> simp_all [AllT, DistinctKeys, auxKeys]
  case operator h1 h2 h3 ih1 ih2 =>
    rcases Prec.node_cases h2 with ⟨op, h⟩ | ⟨op, h⟩ <;> simp_all [AllT, DistinctKeys, auxKeys]
  case «for» l t o w₀ init w₁ cond semi w₂ inc c w₃ s _ _ _ _ _ _ _ _ _ _ _ _ =>
    cases init <;> cases inc <;> simp_all [AllT, DistinctKeys, auxKeys, forLoop]
  case entries hk ih1 ih2 =>
    refine ⟨?_, ?_⟩
    · simp_all [AllT, MapEntry.value, or_imp, forall_and]
    · simp only [auxKeys, List.map_append, List.map_cons, List.map_nil] at *
      rw [List.nodup_append]
      refine ⟨ih1.2, by simp, ?_⟩
      rintro a ha b hb rfl
      simp only [List.mem_cons, List.not_mem_nil, or_false, MapEntry.key] at hb
      subst hb
      exact hk ha
  all_goals simp_all [AllT, DistinctKeys, auxKeys, FunDef.params, MapEntry.value, NamedFun.funDef, or_imp, forall_and]

/-! ### Assignment targets -/

theorem grammar_notThis (h : Grammar repl l nt w v) : AllT NotThis v := by
  induction h
  case assignment h1 h2 h3 h4 ih1 ih2 => cases h4 <;> simp_all [AllT, NotThis]
  case operator h1 h2 h3 ih1 ih2 =>
    rcases Prec.node_cases h2 with ⟨op, h⟩ | ⟨op, h⟩ <;> simp_all [AllT, NotThis]
  case «for» l t o w₀ init w₁ cond semi w₂ inc c w₃ s _ _ _ _ _ _ _ _ _ _ _ _ =>
    cases init <;> cases inc <;> simp_all [AllT, NotThis, forLoop]
  all_goals simp_all [AllT, NotThis, FunDef.params, MapEntry.value, NamedFun.funDef, or_imp, forall_and]

/-! ### Precedence -/

/-- The tightness of a binary level. -/
def _root_.Ws.Spec.Prec.tight : Prec → Nat
  | .or => 1 | .and => 2 | .equality => 3 | .comparison => 4 | .addition => 5 | .multiplication => 6

/-- The least tightness of the expressions of a nonterminal. -/
def _root_.Ws.Spec.NT.tight : NT → Nat
  | .target => 1
  | .binary p => p.tight
  | .unary => 7
  | .call | .primary => 8
  | _ => 0

theorem _root_.Ws.Spec.Prec.node_tight {p : Prec} {t : TokenType} {build} (h : p.node t = some build) (a b : Expr) (loc : SourceLoc) :
    tightness (build a b loc) = p.tight := by
  cases p <;> cases t <;> simp [Prec.node] at h <;> subst h <;> rfl

theorem _root_.Ws.Spec.Prec.above_tight (p : Prec) : p.above.tight = p.tight + 1 := by cases p <;> rfl

section
theorem tight_assign {n c e loc} : tightness (.assign n c e loc) = 0 := rfl
theorem tight_set {o n v loc} : tightness (.set o n v loc) = 0 := rfl
theorem tight_setIndex {a i v loc} : tightness (.setIndex a i v loc) = 0 := rfl
theorem tight_unary {op e loc} : tightness (.unary op e loc) = 7 := rfl
theorem tight_call {f a loc} : tightness (.call f a loc) = 8 := rfl
theorem tight_get {o n loc} : tightness (.get o n loc) = 8 := rfl
theorem tight_getIndex {a i loc} : tightness (.getIndex a i loc) = 8 := rfl
theorem tight_grouping {e} : tightness (.grouping e) = 8 := rfl
theorem tight_array {es} : tightness (.literalArray es) = 8 := rfl
theorem tight_map {es} : tightness (.literalMap es) = 8 := rfl
theorem tight_bool {b} : tightness (.literalBool b) = 8 := rfl
theorem tight_number {b} : tightness (.literalNumber b) = 8 := rfl
theorem tight_string {b} : tightness (.literalString b) = 8 := rfl
theorem tight_nil : tightness .literalNil = 8 := rfl
theorem tight_super {c n l} : tightness (.super c n l) = 8 := rfl
theorem tight_variable {c n l} : tightness (.variable c n l) = 8 := rfl
theorem tight_function {d} : tightness (.function d) = 8 := rfl
end

/-- What `Precedence` needs of the parts. -/
def auxTight : NT → Tree → Prop
  | nt, .expr e => nt.tight ≤ tightness e
  | _, _ => True

theorem grammar_precedence (h : Grammar repl l nt w v) : AllT Precedence v ∧ auxTight nt v := by
  induction h
  case assignment h1 h2 h3 h4 ih1 ih2 => cases h4 <;> simp_all [AllT, Precedence, auxTight, NT.tight, Prec.tight, tight_assign, tight_set, tight_setIndex, tight_get, tight_getIndex, tight_variable]
  case operator l p w₁ a t w₂ b build h1 h2 h3 ih1 ih2 =>
    have ht := Prec.node_tight h2 a b t.loc
    have hb : p.tight + 1 ≤ tightness b := by rw [← Prec.above_tight]; exact ih2.2
    have ha : p.tight ≤ tightness a := ih1.2
    refine ⟨?_, Nat.le_of_eq ht.symm⟩
    rcases Prec.node_cases h2 with ⟨op, h⟩ | ⟨op, h⟩ <;> rw [h] at ht ⊢ <;>
      simp_all [AllT, Precedence] <;> omega
  case operand l p w e h ih =>
    refine ⟨ih.1, ?_⟩
    have : p.tight + 1 ≤ tightness e := by rw [← Prec.above_tight]; exact ih.2
    show p.tight ≤ tightness e
    omega
  case «for» l t o w₀ init w₁ cond semi w₂ inc c w₃ s _ _ _ _ _ _ _ _ _ _ _ _ =>
    cases init <;> cases inc <;> simp_all [AllT, Precedence, auxTight, NT.tight, forLoop]
  all_goals try simp_all [AllT, Precedence, auxTight, NT.tight, Prec.tight, tight_assign, tight_set, tight_setIndex, tight_unary, tight_call, tight_get, tight_getIndex, tight_grouping,
    tight_array, tight_map, tight_bool, tight_number, tight_string, tight_nil, tight_super, tight_variable, tight_function, FunDef.params, MapEntry.value, NamedFun.funDef, or_imp, forall_and]
  all_goals omega

/-! ### Kinds of functions -/

/-- What `Kinds` needs of the parts. -/
def auxKinds : Tree → Prop
  | .fn d => d.funType = .plainFunction
  | .named f => f.funDef.funType = .plainFunction
  | .nameds fs => ∀ m ∈ fs, m.funDef.funType = .classMethod ∨
      m.funDef.funType = if m.name = c!"init" then .initializer else .method
  | _ => True

theorem grammar_kinds (h : Grammar repl l nt w v) : AllT Kinds v ∧ auxKinds v := by
  induction h
  case assignment h1 h2 h3 h4 ih1 ih2 => cases h4 <;> simp_all [AllT, Kinds, auxKinds]
  case operator h1 h2 h3 ih1 ih2 =>
    rcases Prec.node_cases h2 with ⟨op, h⟩ | ⟨op, h⟩ <;> simp_all [AllT, Kinds, auxKinds]
  case «for» l t o w₀ init w₁ cond semi w₂ inc c w₃ s _ _ _ _ _ _ _ _ _ _ _ _ =>
    cases init <;> cases inc <;> simp_all [AllT, Kinds, auxKinds, forLoop]
  all_goals simp_all [AllT, Kinds, auxKinds, FunDef.params, FunDef.funType, MapEntry.value, NamedFun.funDef, NamedFun.name, methodKind, or_imp, forall_and]

/-! ### Names and locations -/

/-- What `FromTokens` needs of the parts. -/
def auxTokens (T : List Token) : NT → Tree → Prop
  | _, .entries ms => ∀ m ∈ ms, ∃ t ∈ T,
      t.tokenType = .identifier ∧ t.lexeme = m.key ∨ t.tokenType = .string ∧ t.stringLiteral = some m.key
  | _, .params ps => ∀ p ∈ ps, SpelledAt T p.name p.loc
  | .function loc, .fn d => d.loc = loc ∧ ∀ p ∈ d.params, SpelledAt T p.name p.loc
  | _, .named f => SpelledAt T f.name f.funDef.loc
  | _, .nameds fs => ∀ m ∈ fs, SpelledAt T m.name m.funDef.loc
  | _, _ => True

theorem occurs_loc {T : List Token} {t : Token} (h : t ∈ T) : Occurs T t.loc := ⟨t, h, rfl⟩
theorem spelled_lexeme {T : List Token} {t : Token} (h : t ∈ T) (ht : t.tokenType = .identifier) : Spelled T t.lexeme :=
  ⟨t, h, ht, rfl⟩
theorem spelledAt_lexeme {T : List Token} {t : Token} (h : t ∈ T) (ht : t.tokenType = .identifier) :
    SpelledAt T t.lexeme t.loc := ⟨t, h, ht, rfl, rfl⟩
theorem exists_loc {T : List Token} {t : Token} {k : TokenType} (h : t ∈ T) (ht : t.tokenType = k) :
    ∃ t', t' ∈ T ∧ t'.tokenType = k ∧ t'.loc = t.loc := ⟨t, h, ht, rfl⟩
theorem exists_number {T : List Token} {t : Token} {x : F64} (h : t ∈ T) (ht : t.tokenType = .number) (hx : t.floatLiteral = some x) :
    ∃ t', t' ∈ T ∧ t'.tokenType = .number ∧ t'.floatLiteral = some x := ⟨t, h, ht, hx⟩
theorem exists_string {T : List Token} {t : Token} {x : Str} (h : t ∈ T) (ht : t.tokenType = .string) (hx : t.stringLiteral = some x) :
    ∃ t', t' ∈ T ∧ t'.tokenType = .string ∧ t'.stringLiteral = some x := ⟨t, h, ht, hx⟩
theorem exists_key {T : List Token} {t : Token} {k : Str} (h : t ∈ T) (hk : IsKey t k) :
    ∃ t', t' ∈ T ∧ (t'.tokenType = .identifier ∧ t'.lexeme = k ∨ t'.tokenType = .string ∧ t'.stringLiteral = some k) :=
  ⟨t, h, hk.imp (fun h => ⟨h.1, h.2.symm⟩) id⟩

theorem grammar_tokens {T : List Token} (hthis : ∀ t ∈ T, t.tokenType = .this → t.lexeme = c!"this")
    (h : Grammar repl l nt w v) (hw : ∀ t ∈ w, t ∈ T)
    (hf : ∀ loc, nt = .function loc → Occurs T loc) : AllT (FromTokens T) v ∧ auxTokens T nt v := by
  induction h
  case assignment t w₂ e₂ e h1 h2 h3 h4 ih1 ih2 =>
    have ih1 := ih1 (fun x hx => hw x (by simp [hx])) (by simp)
    have ih2 := ih2 (fun x hx => hw x (by simp [hx])) (by simp)
    have ht : Occurs T t.loc := ⟨t, hw t (by simp), rfl⟩
    cases h4 <;> simp_all [AllT, FromTokens, auxTokens]
    rcases ih1 with ⟨x, h1, h2, h3, h4⟩ | ⟨x, h1, h2, h3, h4⟩
    · exact ⟨x, h1, h2, h3⟩
    · have := hthis x h1 h2
      rw [h3] at this
      contradiction
  case operator l p w₁ a t w₂ b build h1 h2 h3 ih1 ih2 =>
    have ht : Occurs T t.loc := ⟨t, hw t (by simp), rfl⟩
    have ih2 := ih2 (fun x hx => hw x (by simp [hx])) (by cases p <;> simp [Prec.above])
    rcases Prec.node_cases h2 with ⟨op, h⟩ | ⟨op, h⟩ <;>
      simp_all [AllT, FromTokens, auxTokens, or_imp, forall_and]
  case operand l p w e h ih =>
    exact ih hw (by cases p <;> simp [Prec.above])
  case «for» l t o w₀ init w₁ cond semi w₂ inc c w₃ s _ _ _ _ _ _ _ _ _ _ _ _ =>
    cases init <;> cases inc <;> simp_all [AllT, FromTokens, auxTokens, forLoop, or_imp, forall_and]
  case «variable» l t h =>
    have ht := hw t (by simp)
    refine ⟨?_, trivial⟩
    simp only [AllT, All_variable, FromTokens]
    exact h.imp (spelledAt_lexeme ht) (fun h => ⟨t, ht, h, rfl, rfl⟩)
  case function_literal l t w d h1 h2 ih =>
    have ht := hw t (by simp)
    have := ih (fun x hx => hw x (by simp [hx])) (by rintro loc h; cases h; exact occurs_loc ht)
    exact ⟨by simp only [AllT, All_function, FromTokens]; exact ⟨trivial, this.1⟩, trivial⟩
  case named l t w d h1 h2 ih =>
    have ht := hw t (by simp)
    have := ih (fun x hx => hw x (by simp [hx])) (by rintro loc h; cases h; exact occurs_loc ht)
    refine ⟨this.1, ?_⟩
    show SpelledAt T t.lexeme d.loc
    rw [show d.loc = t.loc from this.2.1]
    exact spelledAt_lexeme ht h1
  all_goals simp_all [AllT, FromTokens, SuperclassName, auxTokens, FunDef.params, MapEntry.value, NamedFun.funDef, NamedFun.name, FunDef.loc,
    MapEntry.key, or_imp, forall_and, occurs_loc, spelled_lexeme, spelledAt_lexeme, exists_loc]
  case entry hk _ _ _ => exact exists_key hw.1 hk
  case entries hk _ _ _ _ _ => exact exists_key hw.2.2.1 hk
  case number h => exact exists_number hw ‹_› h
  case string h => exact exists_string hw ‹_› h

/-! ### Loops -/

/-- A break or continue that is not in the body of a loop. -/
inductive Loose : Node → Prop
  | break (loc) : Loose (.stmt (.break loc))
  | continue (loc) : Loose (.stmt (.continue loc))
  | part {c n} : c ∈ n.parts → (∀ b, loopBody n = some b → c ≠ .stmt b) → Loose c → Loose n

/-- No break or continue is loose. -/
def Snug (n : Node) : Prop := ¬ Loose n

theorem Snug_iff {n : Node} : Snug n ↔ (∀ loc, n ≠ .stmt (.break loc)) ∧ (∀ loc, n ≠ .stmt (.continue loc)) ∧
    ∀ c ∈ n.parts, (∀ b, loopBody n = some b → c ≠ .stmt b) → Snug c := by
  constructor
  · intro h
    exact ⟨fun loc e => h (e ▸ .break loc), fun loc e => h (e ▸ .continue loc), fun c hc hb hl => h (.part hc hb hl)⟩
  · rintro ⟨h1, h2, h3⟩ h
    cases h with
    | «break» loc => exact h1 loc rfl
    | «continue» loc => exact h2 loc rfl
    | part hc hb hl => exact h3 _ hc hb hl

section
local macro "snug" : tactic => `(tactic| (rw [Snug_iff]; simp [Node.parts, exprParts, stmtParts, loopBody, FunDef.body]))
local macro "snug_loop" : tactic => `(tactic| (rw [Snug_iff]; simp [Node.parts, exprParts, stmtParts, loopBody]))

@[simp] theorem Snug_assign {n c rhs loc} : Snug (.expr (.assign n c rhs loc)) ↔ Snug (.expr rhs) := by snug
@[simp] theorem Snug_call {f args loc} : Snug (.expr (.call f args loc)) ↔ Snug (.expr f) ∧ ∀ a ∈ args, Snug (.expr a) := by snug
@[simp] theorem Snug_binary {a op b loc} : Snug (.expr (.binary a op b loc)) ↔ Snug (.expr a) ∧ Snug (.expr b) := by snug
@[simp] theorem Snug_logical {a op b} : Snug (.expr (.logical a op b)) ↔ Snug (.expr a) ∧ Snug (.expr b) := by snug
@[simp] theorem Snug_function {d} : Snug (.expr (.function d)) ↔ Snug (.fn d) := by snug
@[simp] theorem Snug_get {o n l} : Snug (.expr (.get o n l)) ↔ Snug (.expr o) := by snug
@[simp] theorem Snug_getIndex {a i l} : Snug (.expr (.getIndex a i l)) ↔ Snug (.expr a) ∧ Snug (.expr i) := by snug
@[simp] theorem Snug_grouping {e} : Snug (.expr (.grouping e)) ↔ Snug (.expr e) := by snug
@[simp] theorem Snug_array {es} : Snug (.expr (.literalArray es)) ↔ ∀ e ∈ es, Snug (.expr e) := by snug
@[simp] theorem Snug_map {ms} : Snug (.expr (.literalMap ms)) ↔ ∀ m ∈ ms, Snug (.expr m.value) := by snug
@[simp] theorem Snug_set {o n v l} : Snug (.expr (.set o n v l)) ↔ Snug (.expr o) ∧ Snug (.expr v) := by snug
@[simp] theorem Snug_setIndex {a i v l} : Snug (.expr (.setIndex a i v l)) ↔ Snug (.expr a) ∧ Snug (.expr i) ∧ Snug (.expr v) := by snug
@[simp] theorem Snug_unary {op e l} : Snug (.expr (.unary op e l)) ↔ Snug (.expr e) := by snug
@[simp] theorem Snug_bool {b} : Snug (.expr (.literalBool b)) ↔ True := by snug
@[simp] theorem Snug_number {b} : Snug (.expr (.literalNumber b)) ↔ True := by snug
@[simp] theorem Snug_nil  : Snug (.expr .literalNil) ↔ True := by snug
@[simp] theorem Snug_string {b} : Snug (.expr (.literalString b)) ↔ True := by snug
@[simp] theorem Snug_super {c n l} : Snug (.expr (.super c n l)) ↔ True := by snug
@[simp] theorem Snug_variable {c n l} : Snug (.expr (.variable c n l)) ↔ True := by snug
@[simp] theorem Snug_fn {ps body k loc} : Snug (.fn (.mk ps body k loc)) ↔ ∀ s ∈ body, Snug (.stmt s) := by snug
@[simp] theorem Snug_block {ss} : Snug (.stmt (.block ss)) ↔ ∀ s ∈ ss, Snug (.stmt s) := by snug
@[simp] theorem Snug_class_none {n ms l} : Snug (.stmt (.class n none ms l)) ↔ ∀ m ∈ ms, Snug (.fn m.funDef) := by snug
@[simp] theorem Snug_class_some {n s ms l} : Snug (.stmt (.class n (some s) ms l)) ↔ Snug (.expr s) ∧ ∀ m ∈ ms, Snug (.fn m.funDef) := by snug
@[simp] theorem Snug_expression {e} : Snug (.stmt (.expression e)) ↔ Snug (.expr e) := by snug
@[simp] theorem Snug_fun {f} : Snug (.stmt (.fun f)) ↔ Snug (.fn f.funDef) := by snug
@[simp] theorem Snug_if_none {c a} : Snug (.stmt (.if c a none)) ↔ Snug (.expr c) ∧ Snug (.stmt a) := by snug
@[simp] theorem Snug_if_some {c a b} : Snug (.stmt (.if c a (some b))) ↔ Snug (.expr c) ∧ Snug (.stmt a) ∧ Snug (.stmt b) := by snug
@[simp] theorem Snug_print {e} : Snug (.stmt (.print e)) ↔ Snug (.expr e) := by snug
@[simp] theorem Snug_return {e l} : Snug (.stmt (.return e l)) ↔ Snug (.expr e) := by snug
@[simp] theorem Snug_var {n s e l} : Snug (.stmt (.var n s e l)) ↔ Snug (.expr e) := by snug
@[simp] theorem Snug_while {c b} : Snug (.stmt (.while c b)) ↔ Snug (.expr c) := by
  snug_loop
@[simp] theorem Snug_whileIncrement {c b i} : Snug (.stmt (.whileIncrement c b i)) ↔ Snug (.expr c) ∧ Snug (.expr i) := by
  snug_loop
end

/-- No break or continue of a tree is loose. -/
def SnugT : Tree → Prop
  | .expr e => Snug (.expr e)
  | .exprs es => ∀ e ∈ es, Snug (.expr e)
  | .entries ms => ∀ m ∈ ms, Snug (.expr m.value)
  | .params _ => True
  | .stmt s => Snug (.stmt s)
  | .stmts ss => ∀ s ∈ ss, Snug (.stmt s)
  | .fn d => Snug (.fn d)
  | .named f => Snug (.fn f.funDef)
  | .nameds fs => ∀ f ∈ fs, Snug (.fn f.funDef)
  | .optStmt s => ∀ x, s = some x → Snug (.stmt x)
  | .optExpr e => ∀ x, e = some x → Snug (.expr x)

theorem grammar_snug (h : Grammar repl l nt w v) (hl : l = false) : SnugT v := by
  induction h
  case assignment h1 h2 h3 h4 ih1 ih2 => cases h4 <;> simp_all [SnugT]
  case operator h1 h2 h3 ih1 ih2 =>
    rcases Prec.node_cases h2 with ⟨op, h⟩ | ⟨op, h⟩ <;> simp_all [SnugT]
  case «for» l t o w₀ init w₁ cond semi w₂ inc c w₃ s _ _ _ _ _ _ _ _ _ _ _ _ =>
    cases init <;> cases inc <;> simp_all [SnugT, forLoop]
  all_goals simp_all [SnugT, MapEntry.value, NamedFun.funDef, or_imp, forall_and]

theorem not_loose_within {n x : Node} (hx : Within x n) (hl : Loose x) :
    Loose n ∨ ∃ y b, Within y n ∧ loopBody y = some b ∧ Within x (.stmt b) := by
  induction hx with
  | refl => exact .inl hl
  | @step c n hc hw ih =>
    rcases ih with h | ⟨s, b, h1, h2, h3⟩
    · by_cases hb : ∃ b, loopBody n = some b ∧ c = .stmt b
      · obtain ⟨b, h2, rfl⟩ := hb
        exact .inr ⟨n, b, .refl, h2, hw⟩
      · exact .inl (.part hc (fun b e1 e2 => hb ⟨b, e1, e2⟩) h)
    · exact .inr ⟨s, b, .step hc h1, h2, h3⟩

/-! ### Class methods -/

/-- Finds a list in a concatenation. -/
syntax "infix_search" : tactic
macro_rules | `(tactic| infix_search) => `(tactic| first
  | exact List.infix_rfl
  | (refine List.IsInfix.trans ?_ (List.suffix_cons _ _).isInfix; infix_search)
  | (refine List.IsInfix.trans ?_ (List.prefix_append _ _).isInfix; infix_search)
  | (refine List.IsInfix.trans ?_ (List.suffix_append _ _).isInfix; infix_search))

theorem named_tokens {n d} (h : Grammar repl l .named w (.named (.mk n d))) :
    ∃ t r, w = t :: r ∧ t.tokenType = .identifier ∧ t.lexeme = n ∧ d.loc = t.loc := by
  cases h with
  | named h1 h2 =>
    refine ⟨_, _, rfl, h1, rfl, ?_⟩
    cases h2 <;> rfl

theorem methods_tokens (h : Grammar repl l nt w v) : ∀ fs, nt = .methods → v = .nameds fs →
    ∃ parts : List (List Token), parts.flatten = w ∧ parts.length = fs.length ∧ ∀ x ∈ parts.zip fs, MethodTokens x.1 x.2 := by
  induction h <;> intro fs hnt hv <;> cases hnt <;> cases hv
  case methods_nil => exact ⟨[], rfl, rfl, by simp⟩
  case method w fs w' n ps body k loc h1 h2 ih1 ih2 =>
    obtain ⟨parts, rfl, h4, h5⟩ := ih1 _ rfl rfl
    refine ⟨parts ++ [w'], by simp, by simp [h4], ?_⟩
    rw [List.zip_append h4]
    intro x hx
    rcases List.mem_append.1 hx with hx | hx
    · exact h5 x hx
    · simp only [List.zip_cons_cons, List.zip_nil_right, List.mem_singleton] at hx
      subst hx
      obtain ⟨t, r, rfl, a, b, c⟩ := named_tokens h2
      exact .inr ⟨t, r, rfl, a, b, c, rfl⟩
  case class_method w fs t w' n ps body k loc h1 ht h2 ih1 ih2 =>
    obtain ⟨parts, rfl, h4, h5⟩ := ih1 _ rfl rfl
    refine ⟨parts ++ [t :: w'], by simp, by simp [h4], ?_⟩
    rw [List.zip_append h4]
    intro x hx
    rcases List.mem_append.1 hx with hx | hx
    · exact h5 x hx
    · simp only [List.zip_cons_cons, List.zip_nil_right, List.mem_singleton] at hx
      subst hx
      obtain ⟨t', r, rfl, a, b, c⟩ := named_tokens h2
      exact .inl ⟨t, t', r, rfl, ht, a, b, c, rfl⟩

theorem grammar_marked {T : List Token} (h : Grammar repl l nt w v) : w <:+: T → AllT (MarkedKinds T) v := by
  have down : ∀ {u w : List Token}, w <:+: T → u <:+: w → u <:+: T := fun h1 h2 => h2.trans h1
  induction h
  case assignment h1 h2 h3 h4 ih1 ih2 =>
    intro hT
    have a := ih1 (down hT (by infix_search))
    have b := ih2 (down hT (by infix_search))
    clear ih1 ih2
    cases h4 <;> simp_all [AllT, MarkedKinds]
  case operator h1 h2 h3 ih1 ih2 =>
    intro hT
    have a := ih1 (down hT (by infix_search))
    have b := ih2 (down hT (by infix_search))
    clear ih1 ih2
    rcases Prec.node_cases h2 with ⟨op, h⟩ | ⟨op, h⟩ <;> simp_all [AllT, MarkedKinds]
  case «for» l t o w₀ init w₁ cond semi w₂ inc c w₃ s _ _ _ _ _ _ _ _ ih1 ih2 ih3 ih4 =>
    intro hT
    have a := ih1 (down hT (by infix_search))
    have b := ih2 (down hT (by infix_search))
    have c := ih3 (down hT (by infix_search))
    have d := ih4 (down hT (by infix_search))
    clear ih1 ih2 ih3 ih4
    cases init <;> cases inc <;> simp_all [AllT, MarkedKinds, forLoop]
  all_goals intro hT
  all_goals try (have hM := methods_tokens ‹Grammar _ _ .methods _ _› _ rfl rfl)
  all_goals repeat
    (rename _ <:+: T → AllT _ _ => ih
     have := ih (down hT (by infix_search))
     clear ih)
  all_goals clear down
  all_goals try simp_all [AllT, MarkedKinds, FunDef.params, MapEntry.value, NamedFun.funDef, or_imp, forall_and]
  all_goals
    obtain ⟨parts, rfl, h1, h2⟩ := hM
    exact ⟨parts, List.IsInfix.trans (by infix_search) hT, h1, h2⟩

end Ws
