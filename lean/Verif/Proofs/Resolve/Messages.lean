import Verif.Spec.Acts
import Verif.Spec.Messages
/-! The messages of the errors of the resolver. -/
namespace Ws
open Spec

/-- Acts that are wrong have known messages. -/
def WrongKnown (as : List Act) : Prop := ∀ c, .wrong c ∈ as → c.message ∈ resolverMessages

theorem wrong_nil : WrongKnown [] := by intro c h; cases h
theorem wrong_append {as bs : List Act} (ha : WrongKnown as) (hb : WrongKnown bs) : WrongKnown (as ++ bs) := by
  intro c h
  rcases List.mem_append.mp h with h | h
  · exact ha c h
  · exact hb c h
theorem wrong_cons {a : Act} {as : List Act} (ha : ∀ c, a ≠ .wrong c) (hb : WrongKnown as) : WrongKnown (a :: as) := by
  intro c h
  rcases List.mem_cons.mp h with h | h
  · exact absurd h.symm (ha c)
  · exact hb c h
theorem wrong_super {loc c} : WrongKnown (superActs loc c) := by
  cases c <;> simp [WrongKnown, superActs, resolverMessages]
theorem wrong_read {c x loc} : WrongKnown (readActs c x loc) := by
  unfold readActs
  split <;> simp [WrongKnown, resolverMessages]
theorem wrong_return {e loc f} : WrongKnown (returnActs e loc f) := by
  unfold returnActs
  split
  · simp [WrongKnown, resolverMessages]
  · simp [WrongKnown]
  · split <;> simp [WrongKnown, resolverMessages]
theorem wrong_superclass {x e} : WrongKnown (superclassActs x e) := by
  unfold superclassActs
  split
  · split <;> simp [WrongKnown, resolverMessages]
  · exact wrong_nil
theorem wrong_params {ps} : WrongKnown (paramActs ps) := by
  intro c h
  simp [paramActs] at h

local macro "wrong" : tactic => `(tactic| repeat' (first
  | assumption | exact wrong_nil | exact wrong_super | exact wrong_read | exact wrong_return | exact wrong_superclass
  | exact wrong_params | apply wrong_append | (apply wrong_cons (by intro c h; cases h))))

mutual
theorem exprWrong (f : FunctionAround) (c : ClassAround) : (e : Expr) → WrongKnown (exprActs f c e)
  | .assign x _ rhs loc => by rw [exprActs]; have := exprWrong f c rhs; wrong
  | .call callee args _ => by rw [exprActs]; have := exprWrong f c callee; have := exprsWrong f c args; wrong
  | .binary a _ b _ => by rw [exprActs]; have := exprWrong f c a; have := exprWrong f c b; wrong
  | .function d => by rw [exprActs]; exact funWrong .plain c d
  | .get o _ _ => by rw [exprActs]; exact exprWrong f c o
  | .getIndex a i _ => by rw [exprActs]; have := exprWrong f c a; have := exprWrong f c i; wrong
  | .grouping e => by rw [exprActs]; exact exprWrong f c e
  | .literalArray es => by rw [exprActs]; exact exprsWrong f c es
  | .literalMap ms => by rw [exprActs]; exact entriesWrong f c ms
  | .logical a _ b => by rw [exprActs]; have := exprWrong f c a; have := exprWrong f c b; wrong
  | .set o _ v _ => by rw [exprActs]; have := exprWrong f c o; have := exprWrong f c v; wrong
  | .setIndex a i v _ => by
    rw [exprActs]; have := exprWrong f c a; have := exprWrong f c i; have := exprWrong f c v; wrong
  | .super _ _ loc => by rw [exprActs]; wrong
  | .variable x _ loc => by rw [exprActs]; wrong
  | .unary _ e _ => by rw [exprActs]; exact exprWrong f c e
  | .literalBool _ => by rw [exprActs]; wrong
  | .literalNumber _ => by rw [exprActs]; wrong
  | .literalNil => by rw [exprActs]; wrong
  | .literalString _ => by rw [exprActs]; wrong
theorem exprsWrong (f : FunctionAround) (c : ClassAround) : (es : List Expr) → WrongKnown (exprsActs f c es)
  | [] => by rw [exprsActs]; wrong
  | e :: es => by rw [exprsActs]; have := exprWrong f c e; have := exprsWrong f c es; wrong
theorem entriesWrong (f : FunctionAround) (c : ClassAround) : (ms : List MapEntry) → WrongKnown (entriesActs f c ms)
  | [] => by rw [entriesActs]; wrong
  | .mk _ v :: ms => by rw [entriesActs]; have := exprWrong f c v; have := entriesWrong f c ms; wrong
theorem funWrong (f : FunctionAround) (c : ClassAround) : (d : FunDef) → WrongKnown (funActs f c d)
  | .mk _ body _ _ => by rw [funActs]; have := stmtsWrong f c body; wrong
theorem methodsWrong (c : ClassAround) : (ms : List NamedFun) → WrongKnown (methodsActs c ms)
  | [] => by rw [methodsActs]; wrong
  | .mk x d :: ms => by
    rw [methodsActs]
    have := funWrong (if x = c!"init" then .initializer else .plain) c d; have := methodsWrong c ms; wrong
theorem stmtWrong (f : FunctionAround) (c : ClassAround) : (s : Stmt) → WrongKnown (stmtActs f c s)
  | .block body => by rw [stmtActs]; have := stmtsWrong f c body; wrong
  | .break _ => by rw [stmtActs]; wrong
  | .continue _ => by rw [stmtActs]; wrong
  | .class x none methods loc => by rw [stmtActs]; have := methodsWrong .plain methods; wrong
  | .class x (some e) methods loc => by
    rw [stmtActs]; have := methodsWrong .subclass methods; have := exprWrong f .subclass e; wrong
  | .expression e => by rw [stmtActs]; exact exprWrong f c e
  | .fun (.mk x d) => by rw [stmtActs]; have := funWrong .plain c d; wrong
  | .if e a none => by rw [stmtActs]; have := exprWrong f c e; have := stmtWrong f c a; wrong
  | .if e a (some b) => by
    rw [stmtActs]; have := exprWrong f c e; have := stmtWrong f c a; have := stmtWrong f c b; wrong
  | .print e => by rw [stmtActs]; exact exprWrong f c e
  | .return e loc => by rw [stmtActs]; have := exprWrong f c e; wrong
  | .var x _ e loc => by rw [stmtActs]; have := exprWrong f c e; wrong
  | .while e b => by rw [stmtActs]; have := exprWrong f c e; have := stmtWrong f c b; wrong
  | .whileIncrement e b i => by
    rw [stmtActs]; have := exprWrong f c e; have := stmtWrong f c b; have := exprWrong f c i; wrong
theorem stmtsWrong (f : FunctionAround) (c : ClassAround) : (ss : List Stmt) → WrongKnown (stmtsActs f c ss)
  | [] => by rw [stmtsActs]; wrong
  | s :: ss => by rw [stmtsActs]; have := stmtWrong f c s; have := stmtsWrong f c ss; wrong
end

theorem fault_known {b : Bindings} {a : Act} {c : Cause} (ha : ∀ c, a = .wrong c → c.message ∈ resolverMessages)
    (h : a.fault b = some c) : c.message ∈ resolverMessages := by
  have hu : ∀ x loc, useFault b x loc = some c → c.message ∈ resolverMessages := by
    intro x loc h
    unfold useFault at h
    split at h <;> cases h
    simp [tooManyNames, resolverMessages]
  cases a with
  | wrong c' => cases h; exact ha _ rfl
  | declare x loc =>
    simp only [Act.fault] at h
    split at h
    · cases h; simp [tooManyNames, resolverMessages]
    · split at h <;> cases h
      simp [declaredAgain, resolverMessages]
  | begin x loc =>
    simp only [Act.fault] at h
    split at h
    · cases h; simp [tooManyNames, resolverMessages]
    · split at h <;> cases h
      simp [declaredAgain, resolverMessages]
  | read x loc =>
    simp only [Act.fault] at h
    split at h
    · cases h; simp [ownInitializer, resolverMessages]
    · exact hu x loc h
  | use x loc => exact hu x loc h
  | enter => cases h
  | leave => cases h

theorem perform_known {as : List Act} (hw : WrongKnown as) : ∀ {b b' : Bindings} {c : Cause}, perform b as = .fault c b' →
    c.message ∈ resolverMessages := by
  induction as with
  | nil => intro b b' c h; cases h
  | cons a as ih =>
    intro b b' c h
    rw [perform] at h
    cases hf : a.fault b with
    | some c' =>
      rw [hf] at h
      cases h
      exact fault_known (fun c e => hw c (by rw [e]; simp)) hf
    | none =>
      rw [hf] at h
      simp only at h
      split at h
      · cases h
      · exact ih (fun c hc => hw c (by simp [hc])) h

theorem faults_known : ∀ {sts : List Stmt} {b b' : Bindings} {es : List Cause}, programFaults b sts = some (es, b') →
    ∀ c ∈ es, c.message ∈ resolverMessages
  | [], _, _, _, h => by cases h; simp
  | s :: ss, b, b', es, h => by
    rw [programFaults] at h
    cases hp : perform b (stmtActs .nowhere .nowhere s) with
    | fine b1 => rw [hp] at h; exact faults_known h
    | fault c b1 =>
      rw [hp] at h
      simp only [Option.map_eq_some_iff] at h
      obtain ⟨⟨es', b2⟩, h1, h2⟩ := h
      cases h2
      intro x hx
      rcases List.mem_cons.mp hx with rfl | hx
      · exact perform_known (stmtWrong _ _ s) hp
      · exact faults_known h1 x hx
    | tooDeep => rw [hp] at h; cases h

end Ws
