import Verif.Model.Resolver
import Verif.Spec.Subtree
/-! Successful runs of the resolver, as an inductive relation. -/
namespace Ws
open Ws.Spec

theorem bind_ok {σ ε α β : Type} {x : M σ ε α} {f : α → M σ ε β} {s : σ} {b : β} {s' : σ} :
    (x >>= f) s = .ok b s' ↔ ∃ a t, x s = .ok a t ∧ f a t = .ok b s' := by
  show M.bind x f s = _ ↔ _
  unfold M.bind
  cases x s with
  | ok a t => exact ⟨fun h => ⟨a, t, rfl, h⟩, fun ⟨_, _, h, h'⟩ => by cases h; exact h'⟩
  | _ => simp

theorem pure_ok {σ ε α : Type} {a b : α} {s s' : σ} :
    (pure a : M σ ε α) s = .ok b s' ↔ a = b ∧ s = s' := by
  show Res.ok a s = _ ↔ _
  simp

theorem andFinally_ok {α : Type} {x : R α} {f : Resolver → Resolver} {rs : Resolver} {a : α} {rs' : Resolver} :
    andFinally x f rs = .ok a rs' ↔ ∃ t, x rs = .ok a t ∧ rs' = f t := by
  unfold andFinally
  cases x rs with
  | ok a t =>
    exact ⟨fun h => by cases h; exact ⟨t, rfl, rfl⟩, fun ⟨_, h, h'⟩ => by cases h; rw [h']⟩
  | _ => simp

/-- The resolver in a new scope. -/
def Resolver.enter (rs : Resolver) : Resolver := { rs with scopes := [] :: rs.scopes }

theorem inNewScope_ok {α : Type} {x : R α} {rs : Resolver} {a : α} {rs' : Resolver} :
    inNewScope x rs = .ok a rs' ↔
      rs.scopes.length < varLocMaxDistance ∧ ∃ t, x rs.enter = .ok a t ∧ rs' = t.endScope := by
  unfold inNewScope
  rw [bind_ok]
  simp only [beginScope, andFinally_ok]
  by_cases h : rs.scopes.length ≥ varLocMaxDistance
  · simp [h, Nat.not_lt.mpr h]
  · rw [if_neg h]
    simp only [Res.ok.injEq]
    constructor
    · rintro ⟨_, _, ⟨_, rfl⟩, t, ht, rfl⟩
      exact ⟨Nat.lt_of_not_le h, t, ht, rfl⟩
    · rintro ⟨_, t, ht, rfl⟩
      exact ⟨(), _, ⟨trivial, rfl⟩, t, ht, rfl⟩

theorem withFunctionType_ok {α : Type} {ft : FnType} {x : R α} {rs : Resolver} {a : α} {rs' : Resolver} :
    withFunctionType ft x rs = .ok a rs' ↔
      ∃ t, x { rs with functionType := ft } = .ok a t ∧ rs' = { t with functionType := rs.functionType } := by
  unfold withFunctionType
  exact andFinally_ok

theorem withClassType_ok {α : Type} {ct : ClassType} {x : R α} {rs : Resolver} {a : α} {rs' : Resolver} :
    withClassType ct x rs = .ok a rs' ↔
      ∃ t, x { rs with classType := ct } = .ok a t ∧ rs' = { t with classType := rs.classType } := by
  unfold withClassType
  exact andFinally_ok

/-- Nodes that are resolved by resolving their parts in order: they agree but for their parts. -/
inductive Alike : Node → Node → Prop
  | call {f args f' args' loc} : Alike (.expr (.call f args loc)) (.expr (.call f' args' loc))
  | binary {a op b a' b' loc} : Alike (.expr (.binary a op b loc)) (.expr (.binary a' op b' loc))
  | get {o n o' loc} : Alike (.expr (.get o n loc)) (.expr (.get o' n loc))
  | getIndex {a i a' i' loc} : Alike (.expr (.getIndex a i loc)) (.expr (.getIndex a' i' loc))
  | grouping {e e'} : Alike (.expr (.grouping e)) (.expr (.grouping e'))
  | literalArray {es es'} : Alike (.expr (.literalArray es)) (.expr (.literalArray es'))
  | literalMap {ms ms'} : ms.map MapEntry.key = ms'.map MapEntry.key →
      Alike (.expr (.literalMap ms)) (.expr (.literalMap ms'))
  | literalBool {b} : Alike (.expr (.literalBool b)) (.expr (.literalBool b))
  | literalNumber {x} : Alike (.expr (.literalNumber x)) (.expr (.literalNumber x))
  | literalNil : Alike (.expr .literalNil) (.expr .literalNil)
  | literalString {s} : Alike (.expr (.literalString s)) (.expr (.literalString s))
  | logical {a op b a' b'} : Alike (.expr (.logical a op b)) (.expr (.logical a' op b'))
  | set {o n v o' v' loc} : Alike (.expr (.set o n v loc)) (.expr (.set o' n v' loc))
  | setIndex {a i v a' i' v' loc} : Alike (.expr (.setIndex a i v loc)) (.expr (.setIndex a' i' v' loc))
  | unary {op e e' loc} : Alike (.expr (.unary op e loc)) (.expr (.unary op e' loc))
  | break {loc} : Alike (.stmt (.break loc)) (.stmt (.break loc))
  | continue {loc} : Alike (.stmt (.continue loc)) (.stmt (.continue loc))
  | expression {e e'} : Alike (.stmt (.expression e)) (.stmt (.expression e'))
  | print {e e'} : Alike (.stmt (.print e)) (.stmt (.print e'))
  | if {c a b c' a' b'} : b.isSome = b'.isSome → Alike (.stmt (.if c a b)) (.stmt (.if c' a' b'))
  | while {c b c' b'} : Alike (.stmt (.while c b)) (.stmt (.while c' b'))
  | whileIncrement {c b i c' b' i'} : Alike (.stmt (.whileIncrement c b i)) (.stmt (.whileIncrement c' b' i'))

/-- What is resolved. -/
inductive Item where
  | nodes (ns : List Node)
  | node (n : Node)
  | fn (ft : FnType) (d : FunDef)
  | methods (ms : List NamedFun)

/-- The type of a method for the resolver. -/
def methodType (name : Str) : FnType := if name = c!"init" then .initializer else .method

/-- Resolving the first item succeeds and gives the second, changing the resolver's state. -/
inductive Resolved : Item → Item → Resolver → Resolver → Prop
  | nil {rs} : Resolved (.nodes []) (.nodes []) rs rs
  | cons {n n' ns ns' rs rs1 rs2} : Resolved (.node n) (.node n') rs rs1 →
      Resolved (.nodes ns) (.nodes ns') rs1 rs2 → Resolved (.nodes (n :: ns)) (.nodes (n' :: ns')) rs rs2
  | plain {n n' rs rs'} : Alike n n' → Resolved (.nodes n.parts) (.nodes n'.parts) rs rs' →
      Resolved (.node n) (.node n') rs rs'
  | assign {x c c' r r' loc rs rs1 rs2} : Resolved (.node (.expr r)) (.node (.expr r')) rs rs1 →
      resolveLocalVariable x loc rs1 = .ok c' rs2 →
      Resolved (.node (.expr (.assign x c r loc))) (.node (.expr (.assign x c' r' loc))) rs rs2
  | variable {x c c' loc rs rs'} : resolveVariable x loc rs = .ok c' rs' →
      Resolved (.node (.expr (.variable x c loc))) (.node (.expr (.variable x c' loc))) rs rs'
  | super {x c c' loc rs rs'} : resolveSuper loc rs = .ok c' rs' →
      Resolved (.node (.expr (.super c x loc))) (.node (.expr (.super c' x loc))) rs rs'
  | function {d d' rs rs'} : Resolved (.fn .plain d) (.fn .plain d') rs rs' →
      Resolved (.node (.expr (.function d))) (.node (.expr (.function d'))) rs rs'
  | block {b b' rs rs'} : rs.scopes.length < varLocMaxDistance →
      Resolved (.nodes (b.map .stmt)) (.nodes (b'.map .stmt)) rs.enter rs' →
      Resolved (.node (.stmt (.block b))) (.node (.stmt (.block b'))) rs rs'.endScope
  | return {e e' loc rs rs1 rs'} : checkReturn e loc rs = .ok () rs1 →
      Resolved (.node (.expr e)) (.node (.expr e')) rs1 rs' →
      Resolved (.node (.stmt (.return e loc))) (.node (.stmt (.return e' loc))) rs rs'
  | var {x c c' e e' loc rs rs1 rs2 rs3} : declare x loc rs = .ok c' rs1 →
      Resolved (.node (.expr e)) (.node (.expr e')) rs1 rs2 → define x loc rs2 = .ok () rs3 →
      Resolved (.node (.stmt (.var x c e loc))) (.node (.stmt (.var x c' e' loc))) rs rs3
  | fun {x d d' rs rs1 rs2} : define x d.loc rs = .ok () rs1 →
      Resolved (.fn .plain d) (.fn .plain d') rs1 rs2 →
      Resolved (.node (.stmt (.fun (.mk x d)))) (.node (.stmt (.fun (.mk x d')))) rs rs2
  | class {x ms ms' loc rs rs1 rs2 rs3} : define x loc { rs with classType := .plainClass } = .ok () rs1 →
      rs1.scopes.length < varLocMaxDistance → define c!"this" loc rs1.enter = .ok () rs2 →
      Resolved (.methods ms) (.methods ms') rs2 rs3 →
      Resolved (.node (.stmt (.class x none ms loc))) (.node (.stmt (.class x none ms' loc))) rs
        { rs3.endScope with classType := rs.classType }
  | subclass {x e e' ms ms' loc rs rs1 rs2 rs3 rs4 rs5} :
      define x loc { rs with classType := .subclass } = .ok () rs1 →
      checkSuperclass x (some e) rs1 = .ok () rs1 →
      Resolved (.node (.expr e)) (.node (.expr e')) rs1 rs2 →
      rs2.scopes.length < varLocMaxDistance → define c!"super" loc rs2.enter = .ok () rs3 →
      rs3.scopes.length < varLocMaxDistance → define c!"this" loc rs3.enter = .ok () rs4 →
      Resolved (.methods ms) (.methods ms') rs4 rs5 →
      Resolved (.node (.stmt (.class x (some e) ms loc))) (.node (.stmt (.class x (some e') ms' loc))) rs
        { rs5.endScope.endScope with classType := rs.classType }
  | methods_nil {rs} : Resolved (.methods []) (.methods []) rs rs
  | methods_cons {x d d' ms ms' rs rs1 rs2} :
      Resolved (.fn (methodType x) d) (.fn (methodType x) d') rs rs1 →
      Resolved (.methods ms) (.methods ms') rs1 rs2 →
      Resolved (.methods (.mk x d :: ms)) (.methods (.mk x d' :: ms')) rs rs2
  | fn {ft ps b b' k loc rs rs1 rs2} : rs.scopes.length < varLocMaxDistance →
      defineParams ps { rs.enter with functionType := ft } = .ok () rs1 →
      Resolved (.nodes (b.map .stmt)) (.nodes (b'.map .stmt)) rs1 rs2 →
      Resolved (.fn ft (.mk ps b k loc)) (.fn ft (.mk ps b' k loc)) rs
        { rs2.endScope with functionType := rs.functionType }

theorem checkSuperclass_ok {x e} {rs rs' : Resolver} (h : checkSuperclass x e rs = .ok () rs') : rs' = rs := by
  unfold checkSuperclass at h
  split at h
  · split at h
    · simp [M.throw] at h
    · exact (pure_ok.mp h).2.symm
  · exact (pure_ok.mp h).2.symm

theorem resolved_one {n n' rs rs'} (h : Resolved (.node n) (.node n') rs rs') :
    Resolved (.nodes [n]) (.nodes [n']) rs rs' := .cons h .nil

mutual
theorem resolved_stmt : ∀ (s : Stmt) {rs s' rs'}, resolveStmt s rs = .ok s' rs' →
    Resolved (.node (.stmt s)) (.node (.stmt s')) rs rs'
  | .block b, rs, s', rs', h => by
    simp only [resolveStmt, bind_ok, pure_ok, inNewScope_ok] at h
    obtain ⟨b', _, ⟨hl, t, ht, rfl⟩, rfl, rfl⟩ := h
    exact .block hl (resolved_stmts b ht)
  | .break loc, rs, s', rs', h => by
    simp only [resolveStmt, pure_ok] at h
    obtain ⟨rfl, rfl⟩ := h
    exact .plain .break .nil
  | .continue loc, rs, s', rs', h => by
    simp only [resolveStmt, pure_ok] at h
    obtain ⟨rfl, rfl⟩ := h
    exact .plain .continue .nil
  | .class x none ms loc, rs, s', rs', h => by
    simp only [resolveStmt, withClassType_ok, bind_ok, pure_ok, inNewScope_ok] at h
    obtain ⟨t, ⟨_, rs1, hd, _, _, hc, ms', _, ⟨hl, t1, ⟨_, _, hth, hm⟩, rfl⟩, rfl, rfl⟩, rfl⟩ := h
    cases checkSuperclass_ok hc
    exact .class hd hl hth (resolved_methods ms hm)
  | .class x (some e) ms loc, rs, s', rs', h => by
    simp only [resolveStmt, withClassType_ok, bind_ok, pure_ok, inNewScope_ok] at h
    obtain ⟨t, ⟨_, rs1, hd, _, _, hc, e', rs2, he, ms', _, ⟨hl, t1, ⟨_, rs3, hsu, hl', t2, ⟨_, rs4, hth, hm⟩, rfl⟩, rfl⟩,
      rfl, rfl⟩, rfl⟩ := h
    cases checkSuperclass_ok hc
    exact .subclass hd hc (resolved_expr e he) hl hsu hl' hth (resolved_methods ms hm)
  | .expression e, rs, s', rs', h => by
    simp only [resolveStmt, bind_ok, pure_ok] at h
    obtain ⟨e', _, he, rfl, rfl⟩ := h
    exact .plain .expression (resolved_one (resolved_expr e he))
  | .print e, rs, s', rs', h => by
    simp only [resolveStmt, bind_ok, pure_ok] at h
    obtain ⟨e', _, he, rfl, rfl⟩ := h
    exact .plain .print (resolved_one (resolved_expr e he))
  | .fun (.mk x d), rs, s', rs', h => by
    simp only [resolveStmt, bind_ok, pure_ok] at h
    obtain ⟨_, _, hd, d', _, hf, rfl, rfl⟩ := h
    exact .fun hd (resolved_fn d hf)
  | .if c a none, rs, s', rs', h => by
    simp only [resolveStmt, bind_ok, pure_ok] at h
    obtain ⟨c', _, hc, a', _, ha, rfl, rfl⟩ := h
    exact .plain (.if rfl) (.cons (resolved_expr c hc) (resolved_one (resolved_stmt a ha)))
  | .if c a (some b), rs, s', rs', h => by
    simp only [resolveStmt, bind_ok, pure_ok] at h
    obtain ⟨c', _, hc, a', _, ha, b', _, hb, rfl, rfl⟩ := h
    exact .plain (.if rfl) (.cons (resolved_expr c hc) (.cons (resolved_stmt a ha) (resolved_one (resolved_stmt b hb))))
  | .return e loc, rs, s', rs', h => by
    simp only [resolveStmt, bind_ok, pure_ok] at h
    obtain ⟨_, _, hc, e', _, he, rfl, rfl⟩ := h
    exact .return hc (resolved_expr e he)
  | .var x c e loc, rs, s', rs', h => by
    simp only [resolveStmt, bind_ok, pure_ok] at h
    obtain ⟨c', _, hd, e', _, he, _, _, hf, rfl, rfl⟩ := h
    exact .var hd (resolved_expr e he) hf
  | .while c b, rs, s', rs', h => by
    simp only [resolveStmt, bind_ok, pure_ok] at h
    obtain ⟨c', _, hc, b', _, hb, rfl, rfl⟩ := h
    exact .plain .while (.cons (resolved_expr c hc) (resolved_one (resolved_stmt b hb)))
  | .whileIncrement c b i, rs, s', rs', h => by
    simp only [resolveStmt, bind_ok, pure_ok] at h
    obtain ⟨c', _, hc, b', _, hb, i', _, hi, rfl, rfl⟩ := h
    exact .plain .whileIncrement (.cons (resolved_expr c hc) (.cons (resolved_stmt b hb) (resolved_one (resolved_expr i hi))))

theorem resolved_stmts : ∀ (ss : List Stmt) {rs ss' rs'}, resolveStmts ss rs = .ok ss' rs' →
    Resolved (.nodes (ss.map .stmt)) (.nodes (ss'.map .stmt)) rs rs'
  | [], rs, s', rs', h => by
    simp only [resolveStmts, pure_ok] at h
    obtain ⟨rfl, rfl⟩ := h
    exact .nil
  | s :: ss, rs, s', rs', h => by
    simp only [resolveStmts, bind_ok, pure_ok] at h
    obtain ⟨s1, _, h1, ss1, _, h2, rfl, rfl⟩ := h
    exact .cons (resolved_stmt s h1) (resolved_stmts ss h2)

theorem resolved_expr : ∀ (e : Expr) {rs e' rs'}, resolveExpr e rs = .ok e' rs' →
    Resolved (.node (.expr e)) (.node (.expr e')) rs rs'
  | .assign x c r loc, rs, s', rs', h => by
    simp only [resolveExpr, bind_ok, pure_ok] at h
    obtain ⟨r', _, hr, c', _, hc, rfl, rfl⟩ := h
    exact .assign (resolved_expr r hr) hc
  | .binary a op b loc, rs, s', rs', h => by
    simp only [resolveExpr, bind_ok, pure_ok] at h
    obtain ⟨a', _, ha, b', _, hb, rfl, rfl⟩ := h
    exact .plain .binary (.cons (resolved_expr a ha) (resolved_one (resolved_expr b hb)))
  | .call f args loc, rs, s', rs', h => by
    simp only [resolveExpr, bind_ok, pure_ok] at h
    obtain ⟨a', _, ha, b', _, hb, rfl, rfl⟩ := h
    exact .plain .call (.cons (resolved_expr f ha) (resolved_exprs args hb))
  | .function d, rs, s', rs', h => by
    simp only [resolveExpr, bind_ok, pure_ok] at h
    obtain ⟨a', _, ha, rfl, rfl⟩ := h
    exact .function (resolved_fn d ha)
  | .get o n loc, rs, s', rs', h => by
    simp only [resolveExpr, bind_ok, pure_ok] at h
    obtain ⟨a', _, ha, rfl, rfl⟩ := h
    exact .plain .get (resolved_one (resolved_expr o ha))
  | .getIndex a b loc, rs, s', rs', h => by
    simp only [resolveExpr, bind_ok, pure_ok] at h
    obtain ⟨a', _, ha, b', _, hb, rfl, rfl⟩ := h
    exact .plain .getIndex (.cons (resolved_expr a ha) (resolved_one (resolved_expr b hb)))
  | .grouping e, rs, s', rs', h => by
    simp only [resolveExpr, bind_ok, pure_ok] at h
    obtain ⟨a', _, ha, rfl, rfl⟩ := h
    exact .plain .grouping (resolved_one (resolved_expr e ha))
  | .literalArray es, rs, s', rs', h => by
    simp only [resolveExpr, bind_ok, pure_ok] at h
    obtain ⟨a', _, ha, rfl, rfl⟩ := h
    exact .plain .literalArray (resolved_exprs es ha)
  | .literalBool b, rs, s', rs', h => by
    simp only [resolveExpr, pure_ok] at h
    obtain ⟨rfl, rfl⟩ := h
    exact .plain .literalBool .nil
  | .literalMap ms, rs, s', rs', h => by
    simp only [resolveExpr, bind_ok, pure_ok] at h
    obtain ⟨a', _, ha, rfl, rfl⟩ := h
    have := resolved_entries ms ha
    exact .plain (.literalMap this.1) this.2
  | .literalNil, rs, s', rs', h => by
    simp only [resolveExpr, pure_ok] at h
    obtain ⟨rfl, rfl⟩ := h
    exact .plain .literalNil .nil
  | .literalNumber x, rs, s', rs', h => by
    simp only [resolveExpr, pure_ok] at h
    obtain ⟨rfl, rfl⟩ := h
    exact .plain .literalNumber .nil
  | .literalString x, rs, s', rs', h => by
    simp only [resolveExpr, pure_ok] at h
    obtain ⟨rfl, rfl⟩ := h
    exact .plain .literalString .nil
  | .logical a op b, rs, s', rs', h => by
    simp only [resolveExpr, bind_ok, pure_ok] at h
    obtain ⟨a', _, ha, b', _, hb, rfl, rfl⟩ := h
    exact .plain .logical (.cons (resolved_expr a ha) (resolved_one (resolved_expr b hb)))
  | .set a n b loc, rs, s', rs', h => by
    simp only [resolveExpr, bind_ok, pure_ok] at h
    obtain ⟨a', _, ha, b', _, hb, rfl, rfl⟩ := h
    exact .plain .set (.cons (resolved_expr a ha) (resolved_one (resolved_expr b hb)))
  | .setIndex a b c loc, rs, s', rs', h => by
    simp only [resolveExpr, bind_ok, pure_ok] at h
    obtain ⟨a', _, ha, b', _, hb, c', _, hc, rfl, rfl⟩ := h
    exact .plain .setIndex (.cons (resolved_expr a ha) (.cons (resolved_expr b hb) (resolved_one (resolved_expr c hc))))
  | .super c n loc, rs, s', rs', h => by
    simp only [resolveExpr, bind_ok, pure_ok] at h
    obtain ⟨a', _, ha, rfl, rfl⟩ := h
    exact .super ha
  | .unary op e loc, rs, s', rs', h => by
    simp only [resolveExpr, bind_ok, pure_ok] at h
    obtain ⟨a', _, ha, rfl, rfl⟩ := h
    exact .plain .unary (resolved_one (resolved_expr e ha))
  | .variable x c loc, rs, s', rs', h => by
    simp only [resolveExpr, bind_ok, pure_ok] at h
    obtain ⟨a', _, ha, rfl, rfl⟩ := h
    exact .variable ha

theorem resolved_exprs : ∀ (es : List Expr) {rs es' rs'}, resolveExprs es rs = .ok es' rs' →
    Resolved (.nodes (es.map .expr)) (.nodes (es'.map .expr)) rs rs'
  | [], rs, s', rs', h => by
    simp only [resolveExprs, pure_ok] at h
    obtain ⟨rfl, rfl⟩ := h
    exact .nil
  | s :: ss, rs, s', rs', h => by
    simp only [resolveExprs, bind_ok, pure_ok] at h
    obtain ⟨s1, _, h1, ss1, _, h2, rfl, rfl⟩ := h
    exact .cons (resolved_expr s h1) (resolved_exprs ss h2)

theorem resolved_entries : ∀ (ms : List MapEntry) {rs ms' rs'}, resolveEntries ms rs = .ok ms' rs' →
    ms.map MapEntry.key = ms'.map MapEntry.key ∧
    Resolved (.nodes (ms.map fun m => .expr m.value)) (.nodes (ms'.map fun m => .expr m.value)) rs rs'
  | [], rs, s', rs', h => by
    simp only [resolveEntries, pure_ok] at h
    obtain ⟨rfl, rfl⟩ := h
    exact ⟨rfl, .nil⟩
  | .mk k e :: ss, rs, s', rs', h => by
    simp only [resolveEntries, bind_ok, pure_ok] at h
    obtain ⟨s1, _, h1, ss1, _, h2, rfl, rfl⟩ := h
    have := resolved_entries ss h2
    refine ⟨?_, .cons (resolved_expr e h1) this.2⟩
    simp [this.1, MapEntry.key]

theorem resolved_methods : ∀ (ms : List NamedFun) {rs ms' rs'}, resolveMethods ms rs = .ok ms' rs' →
    Resolved (.methods ms) (.methods ms') rs rs'
  | [], rs, s', rs', h => by
    simp only [resolveMethods, pure_ok] at h
    obtain ⟨rfl, rfl⟩ := h
    exact .methods_nil
  | .mk x d :: ss, rs, s', rs', h => by
    simp only [resolveMethods, bind_ok, pure_ok] at h
    obtain ⟨s1, _, h1, ss1, _, h2, rfl, rfl⟩ := h
    exact .methods_cons (resolved_fn d h1) (resolved_methods ss h2)

theorem resolved_fn : ∀ (d : FunDef) {ft rs d' rs'}, resolveFunction ft d rs = .ok d' rs' →
    Resolved (.fn ft d) (.fn ft d') rs rs'
  | .mk ps b k loc, ft, rs, s', rs', h => by
    simp only [resolveFunction, bind_ok, pure_ok, withFunctionType_ok, inNewScope_ok] at h
    obtain ⟨b', _, ⟨t, ⟨hl, t1, ⟨_, rs1, hp, hb⟩, rfl⟩, rfl⟩, rfl, rfl⟩ := h
    exact .fn hl hp (resolved_stmts b hb)
end

end Ws
