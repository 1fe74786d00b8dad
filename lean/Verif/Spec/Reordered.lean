import Verif.Model.Ast
/-! Programs that differ in the order of methods, arguments, elements, entries and operands. -/
namespace Ws.Spec

/-- The parts of a program. -/
inductive Fragment where
  | expr (e : Expr)
  | exprs (es : List Expr)
  | entries (es : List MapEntry)
  | fn (d : FunDef)
  | methods (ms : List NamedFun)
  | stmt (s : Stmt)
  | stmts (ss : List Stmt)

/-- The parts differ in the order of the methods of classes, of the arguments of calls, of the elements of
arrays, of the entries of maps and of the operands of operators (`a < b` can also become `b > a`), in the
positions in the source, and in the slots of variables. Every variable is at the same distance in both. -/
inductive Reordered : Fragment → Fragment → Prop
  | exprs_nil : Reordered (.exprs []) (.exprs [])
  | exprs {e e' as bs as' bs'} : Reordered (.expr e) (.expr e') → Reordered (.exprs (as ++ bs)) (.exprs (as' ++ bs')) →
      Reordered (.exprs (as ++ e :: bs)) (.exprs (as' ++ e' :: bs'))
  | entries_nil : Reordered (.entries []) (.entries [])
  | entries {k e e' as bs as' bs'} : Reordered (.expr e) (.expr e') →
      Reordered (.entries (as ++ bs)) (.entries (as' ++ bs')) →
      Reordered (.entries (as ++ .mk k e :: bs)) (.entries (as' ++ .mk k e' :: bs'))
  | methods_nil : Reordered (.methods []) (.methods [])
  | methods {x d d' as bs as' bs'} : Reordered (.fn d) (.fn d') →
      Reordered (.methods (as ++ bs)) (.methods (as' ++ bs')) →
      Reordered (.methods (as ++ .mk x d :: bs)) (.methods (as' ++ .mk x d' :: bs'))
  | stmts_nil : Reordered (.stmts []) (.stmts [])
  | stmts {s s' ss ss'} : Reordered (.stmt s) (.stmt s') → Reordered (.stmts ss) (.stmts ss') →
      Reordered (.stmts (s :: ss)) (.stmts (s' :: ss'))
  | fn {ps ps' b b' k loc loc'} : ps.map Parameter.name = ps'.map Parameter.name → Reordered (.stmts b) (.stmts b') →
      Reordered (.fn (.mk ps b k loc)) (.fn (.mk ps' b' k loc'))
  | assign {x c c' e e' loc loc'} : c.distance = c'.distance → Reordered (.expr e) (.expr e') →
      Reordered (.expr (.assign x c e loc)) (.expr (.assign x c' e' loc'))
  | call {f f' es es' loc loc'} : Reordered (.expr f) (.expr f') → Reordered (.exprs es) (.exprs es') →
      Reordered (.expr (.call f es loc)) (.expr (.call f' es' loc'))
  | binary {a a' op b b' loc loc'} : Reordered (.expr a) (.expr a') → Reordered (.expr b) (.expr b') →
      Reordered (.expr (.binary a op b loc)) (.expr (.binary a' op b' loc'))
  | binarySwap {a a' op op' b b' loc loc'} : Reordered (.expr a) (.expr a') → Reordered (.expr b) (.expr b') →
      Reordered (.expr (.binary a op b loc)) (.expr (.binary b' op' a' loc'))
  | function {d d'} : Reordered (.fn d) (.fn d') → Reordered (.expr (.function d)) (.expr (.function d'))
  | get {e e' x loc loc'} : Reordered (.expr e) (.expr e') → Reordered (.expr (.get e x loc)) (.expr (.get e' x loc'))
  | getIndex {a a' b b' loc loc'} : Reordered (.expr a) (.expr a') → Reordered (.expr b) (.expr b') →
      Reordered (.expr (.getIndex a b loc)) (.expr (.getIndex a' b' loc'))
  | grouping {e e'} : Reordered (.expr e) (.expr e') → Reordered (.expr (.grouping e)) (.expr (.grouping e'))
  | literalArray {es es'} : Reordered (.exprs es) (.exprs es') →
      Reordered (.expr (.literalArray es)) (.expr (.literalArray es'))
  | literalBool (b) : Reordered (.expr (.literalBool b)) (.expr (.literalBool b))
  | literalMap {es es'} : Reordered (.entries es) (.entries es') →
      Reordered (.expr (.literalMap es)) (.expr (.literalMap es'))
  | literalNumber (n) : Reordered (.expr (.literalNumber n)) (.expr (.literalNumber n))
  | literalNil : Reordered (.expr .literalNil) (.expr .literalNil)
  | literalString (s) : Reordered (.expr (.literalString s)) (.expr (.literalString s))
  | logical {a a' op b b'} : Reordered (.expr a) (.expr a') → Reordered (.expr b) (.expr b') →
      Reordered (.expr (.logical a op b)) (.expr (.logical a' op b'))
  | logicalSwap {a a' op b b'} : Reordered (.expr a) (.expr a') → Reordered (.expr b) (.expr b') →
      Reordered (.expr (.logical a op b)) (.expr (.logical b' op a'))
  | set {a a' x b b' loc loc'} : Reordered (.expr a) (.expr a') → Reordered (.expr b) (.expr b') →
      Reordered (.expr (.set a x b loc)) (.expr (.set a' x b' loc'))
  | setIndex {a a' b b' c c' loc loc'} : Reordered (.expr a) (.expr a') → Reordered (.expr b) (.expr b') →
      Reordered (.expr c) (.expr c') → Reordered (.expr (.setIndex a b c loc)) (.expr (.setIndex a' b' c' loc'))
  | super {c c' x loc loc'} : c.distance = c'.distance → Reordered (.expr (.super c x loc)) (.expr (.super c' x loc'))
  | variable {x c c' loc loc'} : c.distance = c'.distance →
      Reordered (.expr (.variable x c loc)) (.expr (.variable x c' loc'))
  | unary {op e e' loc loc'} : Reordered (.expr e) (.expr e') →
      Reordered (.expr (.unary op e loc)) (.expr (.unary op e' loc'))
  | block {b b'} : Reordered (.stmts b) (.stmts b') → Reordered (.stmt (.block b)) (.stmt (.block b'))
  | break {loc loc'} : Reordered (.stmt (.break loc)) (.stmt (.break loc'))
  | class {x ms ms' loc loc'} : Reordered (.methods ms) (.methods ms') →
      Reordered (.stmt (.class x none ms loc)) (.stmt (.class x none ms' loc'))
  | subclass {x e e' ms ms' loc loc'} : Reordered (.expr e) (.expr e') → Reordered (.methods ms) (.methods ms') →
      Reordered (.stmt (.class x (some e) ms loc)) (.stmt (.class x (some e') ms' loc'))
  | continue {loc loc'} : Reordered (.stmt (.continue loc)) (.stmt (.continue loc'))
  | expression {e e'} : Reordered (.expr e) (.expr e') → Reordered (.stmt (.expression e)) (.stmt (.expression e'))
  | fun {x d d'} : Reordered (.fn d) (.fn d') → Reordered (.stmt (.fun (.mk x d))) (.stmt (.fun (.mk x d')))
  | if {e e' a a'} : Reordered (.expr e) (.expr e') → Reordered (.stmt a) (.stmt a') →
      Reordered (.stmt (.if e a none)) (.stmt (.if e' a' none))
  | ifElse {e e' a a' b b'} : Reordered (.expr e) (.expr e') → Reordered (.stmt a) (.stmt a') →
      Reordered (.stmt b) (.stmt b') → Reordered (.stmt (.if e a (some b))) (.stmt (.if e' a' (some b')))
  | print {e e'} : Reordered (.expr e) (.expr e') → Reordered (.stmt (.print e)) (.stmt (.print e'))
  | return {e e' loc loc'} : Reordered (.expr e) (.expr e') →
      Reordered (.stmt (.return e loc)) (.stmt (.return e' loc'))
  | var {x c c' e e' loc loc'} : Reordered (.expr e) (.expr e') →
      Reordered (.stmt (.var x c e loc)) (.stmt (.var x c' e' loc'))
  | while {e e' b b'} : Reordered (.expr e) (.expr e') → Reordered (.stmt b) (.stmt b') →
      Reordered (.stmt (.while e b)) (.stmt (.while e' b'))
  | whileIncrement {e e' b b' i i'} : Reordered (.expr e) (.expr e') → Reordered (.stmt b) (.stmt b') →
      Reordered (.expr i) (.expr i') → Reordered (.stmt (.whileIncrement e b i)) (.stmt (.whileIncrement e' b' i'))

end Ws.Spec
