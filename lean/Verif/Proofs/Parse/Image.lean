import Verif.Spec.Plain
import Verif.Spec.Write
/-! What is derived can be written. -/
namespace Ws.Writing
open Ws Spec

/-- No identifier is `this`. -/
def NoThis (w : List Token) : Prop := ∀ t ∈ w, t.tokenType = .identifier → t.lexeme ≠ c!"this"

theorem noThis_append {a b : List Token} : NoThis (a ++ b) ↔ NoThis a ∧ NoThis b := by
  simp only [NoThis, List.mem_append]
  exact ⟨fun h => ⟨fun t ht => h t (.inl ht), fun t ht => h t (.inr ht)⟩, fun h t ht => ht.elim (h.1 t) (h.2 t)⟩

theorem noThis_cons {t : Token} {b : List Token} : NoThis (t :: b) ↔ (t.tokenType = .identifier → t.lexeme ≠ c!"this") ∧ NoThis b := by
  simp only [NoThis, List.mem_cons, forall_eq_or_imp]

theorem noThis_nil : NoThis [] := by simp [NoThis]

/-- How tightly the operands of a level bind. -/
def precLevel : Prec → Nat
  | .or => 1 | .and => 2 | .equality => 3 | .comparison => 4 | .addition => 5 | .multiplication => 6

def WritableFun (l : Bool) : FunDef → Prop
  | .mk ps body k _ => ps.length ≤ 255 ∧ k = .plainFunction ∧ WritableStmts l body

def WritableTree (l : Bool) (e : Bool) : Sym → Tree → Prop
  | .target, .expr x => 1 ≤ tightness x ∧ Writable l x
  | .binary p, .expr x => precLevel p ≤ tightness x ∧ Writable l x
  | .unary, .expr x => 7 ≤ tightness x ∧ Writable l x
  | .call, .expr x => 8 ≤ tightness x ∧ Writable l x
  | .primary, .expr x => 8 ≤ tightness x ∧ Writable l x
  | _, .expr x => Writable l x
  | .arguments, .exprs xs => xs.length ≤ 255 ∧ WritableExprs l xs
  | _, .exprs xs => WritableExprs l xs
  | _, .entries ms => (ms.map MapEntry.key).Nodup ∧ WritableEntries l ms
  | _, .params ps => ps.length ≤ 255
  | _, .fn d => WritableFun l d
  | _, .named (.mk _ d) => WritableFun l d
  | _, .nameds fs => WritableMethods l fs
  | .declaration, .stmt s => WritableStmt l s
  | _, .stmt s => isStatement s = true ∧ (opensElse s = true → e = true) ∧ WritableStmt l s
  | _, .stmts ss => WritableStmts l ss
  | _, .optStmt none => True
  | _, .optStmt (some s) => WritableStmt l s
  | _, .optExpr none => True
  | _, .optExpr (some x) => Writable l x

theorem writableExprs_append {l} : ∀ xs ys, WritableExprs l (xs ++ ys) ↔ WritableExprs l xs ∧ WritableExprs l ys
  | [], ys => by simp [WritableExprs]
  | x :: xs, ys => by simp [WritableExprs, writableExprs_append xs ys, and_assoc]

theorem writableEntries_append {l} : ∀ xs ys, WritableEntries l (xs ++ ys) ↔ WritableEntries l xs ∧ WritableEntries l ys
  | [], ys => by simp [WritableEntries]
  | .mk k v :: xs, ys => by simp [WritableEntries, writableEntries_append xs ys, and_assoc]

theorem writableMethods_append {l} : ∀ xs ys, WritableMethods l (xs ++ ys) ↔ WritableMethods l xs ∧ WritableMethods l ys
  | [], ys => by simp [WritableMethods]
  | .mk x (.mk ps body k loc) :: xs, ys => by simp [WritableMethods, writableMethods_append xs ys, and_assoc]

theorem writableStmts_append {l} : ∀ xs ys, WritableStmts l (xs ++ ys) ↔ WritableStmts l xs ∧ WritableStmts l ys
  | [], ys => by simp [WritableStmts]
  | s :: xs, ys => by simp [WritableStmts, writableStmts_append xs ys, and_assoc]

theorem node_writable {l : Bool} {p : Prec} {k : TokenType} {build} {a b : Expr} {loc : SourceLoc} (hp : p.node k = some build)
    (ha : precLevel p ≤ tightness a ∧ Writable l a) (hb : precLevel p < tightness b ∧ Writable l b) :
    precLevel p ≤ tightness (build a b loc) ∧ Writable l (build a b loc) := by
  cases p <;> cases k <;> simp [Prec.node] at hp <;> subst hp <;> simp_all [precLevel, Writable, tightness]

theorem next_writable {l e : Bool} {p : Prec} {x} (h : WritableTree l e p.next (.expr x)) : precLevel p < tightness x ∧ Writable l x := by
  cases p <;> simp [Prec.next, WritableTree, precLevel] at h ⊢ <;> exact ⟨by omega, h.2⟩

theorem forLoop_writable {l e : Bool} {init cond inc s} (hi : ∀ i, init = some i → WritableStmt l i) (hc : Writable l cond)
    (hn : ∀ x, inc = some x → Writable l x) (hs : isStatement s = true ∧ (opensElse s = true → e = true) ∧ WritableStmt true s) :
    isStatement (forLoop init cond inc s) = true ∧ (opensElse (forLoop init cond inc s) = true → e = true) ∧
      WritableStmt l (forLoop init cond inc s) := by
  cases init <;> cases inc <;> simp_all [forLoop, isStatement, opensElse, WritableStmt, WritableStmts]

theorem plain_writable {repl l o e sym w v} (h : Plain repl l o e sym w v) (hw : NoThis w) : WritableTree l e sym v := by
  induction h with
  | assignment _ _ _ _ ha ih1 ih2 =>
    rw [noThis_append, noThis_cons] at hw
    have h1 := ih1 hw.1
    have h2 := ih2 hw.2.2
    cases ha <;> simp_all [WritableTree, Writable]
  | operator _ _ hp _ ih1 ih2 =>
    rw [noThis_append, noThis_cons] at hw
    exact node_writable hp (ih1 hw.1) (next_writable (ih2 hw.2.2))
  | operand _ ih => exact ⟨Nat.le_of_lt (next_writable (ih hw)).1, (next_writable (ih hw)).2⟩
  | «for» _ _ _ _ _ _ _ _ _ ih1 ih2 ih3 ih4 =>
    simp only [noThis_append, noThis_cons, List.append_assoc, List.cons_append] at hw
    refine forLoop_writable ?_ (ih2 hw.2.2.2.1) ?_ (ih4 hw.2.2.2.2.2.2.2)
    · rintro i rfl; exact ih1 hw.2.2.1
    · rintro i rfl; exact ih3 hw.2.2.2.2.2.1
  | @function_literal l t w d _ _ ih =>
    rw [noThis_cons] at hw
    obtain ⟨ps, body, k, loc⟩ := d
    exact ⟨by simp [tightness], ih hw.2⟩
  | @fun_decl l t w f _ _ ih =>
    rw [noThis_cons] at hw
    obtain ⟨x, ⟨ps, body, k, loc⟩⟩ := f
    exact ih hw.2
  | _ =>
    simp_all [noThis_append, noThis_cons, noThis_nil, WritableTree, Writable, WritableExprs, WritableEntries, WritableStmts, WritableStmt, WritableFun, WritableMethods, tightness, writableExprs_append, writableEntries_append, writableMethods_append, writableStmts_append, isStatement, opensElse, IsSuperclass, methodKind, precLevel, List.nodup_append, MapEntry.key] <;> try omega

/-! ### Where names, strings and numbers come from -/

/-- The names, strings and numbers of a token satisfy these. -/
structure Leaf (N S : Str → Prop) (F : F64 → Prop) (t : Token) : Prop where
  name : t.tokenType = .identifier → N t.lexeme
  string : t.tokenType = .string → ∀ s, t.stringLiteral = some s → S s
  number : t.tokenType = .number → ∀ x, t.floatLiteral = some x → F x

/-- And names can be strings. -/
structure Source (N S : Str → Prop) (F : F64 → Prop) (t : Token) : Prop extends Leaf N S F t where
  key : t.tokenType = .identifier → S t.lexeme
  this : t.tokenType = .this → t.lexeme = c!"this"

variable {N S : Str → Prop} {F : F64 → Prop} {P : Token → Prop}

def AllTok (P : Token → Prop) (w : List Token) : Prop := ∀ t ∈ w, P t

theorem allTok_append {a b} : AllTok P (a ++ b) ↔ AllTok P a ∧ AllTok P b := by
  simp only [AllTok, List.mem_append]
  exact ⟨fun h => ⟨fun t ht => h t (.inl ht), fun t ht => h t (.inr ht)⟩, fun h t ht => ht.elim (h.1 t) (h.2 t)⟩
theorem allTok_cons {t b} : AllTok P (t :: b) ↔ P t ∧ AllTok P b := by simp only [AllTok, List.mem_cons, forall_eq_or_imp]
theorem allTok_nil : AllTok P [] := by simp [AllTok]

theorem leaf_tok {k : TokenType} {s loc} : Leaf N S F (tok k s loc) ↔ (k = .identifier → N s) :=
  ⟨fun h => h.name, fun h => ⟨h, (fun _ _ e => nomatch e), (fun _ _ e => nomatch e)⟩⟩
theorem leaf_string {s} : Leaf N S F (stringTok s) ↔ S s :=
  ⟨fun h => h.string rfl s rfl, fun h => ⟨(nomatch ·), fun _ _ e => (Option.some.inj e) ▸ h, (nomatch ·)⟩⟩
theorem leaf_number {x} : Leaf N S F (numberTok x) ↔ F x :=
  ⟨fun h => h.number rfl x rfl, fun h => ⟨(nomatch ·), (nomatch ·), fun _ _ e => (Option.some.inj e) ▸ h⟩⟩
theorem leaf_variable {x loc} : Leaf N S F (variableTok x loc) ↔ (x ≠ c!"this" → N x) := by
  unfold variableTok
  split <;> simp_all [leaf_tok, Spec.name]
theorem leaf_binary {op loc} : Leaf N S F (binaryTok op loc) := by cases op <;> simp [binaryTok, leaf_tok]
theorem leaf_logical {op} : Leaf N S F (logicalTok op) := by cases op <;> simp [logicalTok, leaf_tok]
theorem leaf_unary {op loc} : Leaf N S F (unaryTok op loc) := by cases op <;> simp [unaryTok, leaf_tok]

theorem leaf_params : ∀ ps, AllTok (Leaf N S F) (writeParams ps) ↔ ∀ p ∈ ps, N p.name
  | [] => by simp [writeParams, allTok_nil]
  | [p] => by simp [writeParams, allTok_nil, allTok_cons, leaf_tok, Spec.name]
  | p :: q :: ps => by
    have := leaf_params (q :: ps)
    simp_all [writeParams, allTok_cons, leaf_tok, Spec.name, comma]

theorem leaf_exprs : ∀ xs, AllTok (Leaf N S F) (writeExprs xs) ↔ ∀ x ∈ xs, AllTok (Leaf N S F) (writeExpr x)
  | [] => by simp [writeExprs, allTok_nil]
  | [p] => by simp [writeExprs]
  | p :: q :: ps => by
    have := leaf_exprs (q :: ps)
    simp_all [writeExprs, allTok_append, allTok_cons, leaf_tok, comma]

def EntryLeaf (N S : Str → Prop) (F : F64 → Prop) : MapEntry → Prop
  | .mk k v => S k ∧ AllTok (Leaf N S F) (writeExpr v)

theorem leaf_entries : ∀ ms, AllTok (Leaf N S F) (writeEntries ms) ↔ ∀ m ∈ ms, EntryLeaf N S F m
  | [] => by simp [writeEntries, allTok_nil]
  | [.mk k v] => by simp [writeEntries, EntryLeaf, allTok_cons, leaf_tok, leaf_string]
  | .mk k v :: q :: ps => by
    have := leaf_entries (q :: ps)
    simp_all [writeEntries, allTok_append, allTok_cons, leaf_tok, comma, leaf_string, EntryLeaf, and_assoc]

def FunLeaf (N S : Str → Prop) (F : F64 → Prop) : FunDef → Prop
  | .mk ps body _ _ => (∀ p ∈ ps, N p.name) ∧ AllTok (Leaf N S F) (writeStmts body)

def NamedLeaf (N S : Str → Prop) (F : F64 → Prop) : NamedFun → Prop
  | .mk x d => N x ∧ FunLeaf N S F d

theorem leaf_methods : ∀ ms, AllTok (Leaf N S F) (writeMethods ms) ↔ ∀ m ∈ ms, NamedLeaf N S F m
  | [] => by simp [writeMethods, allTok_nil]
  | .mk x (.mk ps body k loc) :: ms => by
    have := leaf_methods ms
    by_cases hk : k = .classMethod <;>
    simp_all [writeMethods, allTok_append, allTok_cons, leaf_tok, Spec.name, openParen, closeParen, openBrace, closeBrace, leaf_params, NamedLeaf, FunLeaf, and_assoc]

theorem leaf_expression : ∀ x, AllTok (Leaf N S F) (writeStmt (.expression x)) ↔ AllTok (Leaf N S F) (writeExpr x) := by
  intro x
  cases x <;> simp only [writeStmt, writeExpr] <;> (try split) <;>
    simp [allTok_append, allTok_cons, allTok_nil, leaf_tok, lineEnd, Spec.name]

theorem leaf_stmts : ∀ ss, AllTok (Leaf N S F) (writeStmts ss) ↔ ∀ s ∈ ss, AllTok (Leaf N S F) (writeStmt s)
  | [] => by simp [writeStmts, allTok_nil]
  | s :: ss => by simp [writeStmts, allTok_append, leaf_stmts ss]

def TreeLeaf (N S : Str → Prop) (F : F64 → Prop) : Tree → Prop
  | .expr x => AllTok (Leaf N S F) (writeExpr x)
  | .exprs xs => ∀ x ∈ xs, AllTok (Leaf N S F) (writeExpr x)
  | .entries ms => ∀ m ∈ ms, EntryLeaf N S F m
  | .params ps => ∀ p ∈ ps, N p.name
  | .stmt s => AllTok (Leaf N S F) (writeStmt s)
  | .stmts ss => ∀ s ∈ ss, AllTok (Leaf N S F) (writeStmt s)
  | .fn d => FunLeaf N S F d
  | .named f => NamedLeaf N S F f
  | .nameds fs => ∀ f ∈ fs, NamedLeaf N S F f
  | .optStmt s => ∀ x, s = some x → AllTok (Leaf N S F) (writeStmt x)
  | .optExpr s => ∀ x, s = some x → AllTok (Leaf N S F) (writeExpr x)

theorem source_iff {t : Token} : Source N S F t ↔ (t.tokenType = .identifier → N t.lexeme) ∧
    (t.tokenType = .string → ∀ s, t.stringLiteral = some s → S s) ∧ (t.tokenType = .number → ∀ x, t.floatLiteral = some x → F x) ∧
    (t.tokenType = .identifier → S t.lexeme) ∧ (t.tokenType = .this → t.lexeme = c!"this") :=
  ⟨fun h => ⟨h.name, h.string, h.number, h.key, h.this⟩, fun h => ⟨⟨h.1, h.2.1, h.2.2.1⟩, h.2.2.2.1, h.2.2.2.2⟩⟩

theorem source_key {t : Token} {k} (hs : Source N S F t) (h : IsKey t k) : S k := by
  rcases h with ⟨h, rfl⟩ | ⟨h, e⟩
  · exact hs.key h
  · exact hs.string h _ e

theorem node_leaf {p : Prec} {k : TokenType} {build} {a b : Expr} {loc : SourceLoc} (hp : p.node k = some build)
    (ha : AllTok (Leaf N S F) (writeExpr a)) (hb : AllTok (Leaf N S F) (writeExpr b)) :
    AllTok (Leaf N S F) (writeExpr (build a b loc)) := by
  cases p <;> cases k <;> simp [Prec.node] at hp <;> subst hp <;>
    simp_all [writeExpr, allTok_append, allTok_cons, leaf_binary, leaf_logical]

theorem forLoop_leaf {init cond inc s} (hi : ∀ i, init = some i → AllTok (Leaf N S F) (writeStmt i)) (hc : AllTok (Leaf N S F) (writeExpr cond))
    (hn : ∀ x, inc = some x → AllTok (Leaf N S F) (writeExpr x)) (hs : AllTok (Leaf N S F) (writeStmt s)) :
    AllTok (Leaf N S F) (writeStmt (forLoop init cond inc s)) := by
  cases init <;> cases inc <;>
    simp_all [forLoop, writeStmt, writeStmts, allTok_append, allTok_cons, allTok_nil, leaf_tok, openParen, closeParen, openBrace, closeBrace]

theorem plain_leaf {repl l o e sym w v} (h : Plain repl l o e sym w v) (hw : AllTok (Source N S F) w) : TreeLeaf N S F v := by
  induction h with
  | assignment _ _ _ _ ha ih1 ih2 =>
    rw [allTok_append, allTok_cons] at hw
    have h1 := ih1 hw.1
    have h2 := ih2 hw.2.2
    cases ha <;> simp_all [TreeLeaf, writeExpr, allTok_append, allTok_cons, allTok_nil, leaf_tok, leaf_variable, Spec.name]
  | operator _ _ hp _ ih1 ih2 =>
    rw [allTok_append, allTok_cons] at hw
    exact node_leaf hp (ih1 hw.1) (ih2 hw.2.2)
  | «for» _ _ _ _ _ _ _ _ _ ih1 ih2 ih3 ih4 =>
    simp only [allTok_append, allTok_cons, List.append_assoc, List.cons_append] at hw
    exact forLoop_leaf (ih1 hw.2.2.1) (ih2 hw.2.2.2.1) (ih3 hw.2.2.2.2.2.1) (ih4 hw.2.2.2.2.2.2.2)
  | @function_literal l t w d _ _ ih =>
    rw [allTok_cons] at hw
    obtain ⟨ps, body, k, loc⟩ := d
    have := ih hw.2
    simp_all [TreeLeaf, FunLeaf, writeExpr, allTok_append, allTok_cons, allTok_nil, leaf_tok, leaf_params, openParen, closeParen, openBrace, closeBrace]
  | @fun_decl l t w f _ _ ih =>
    rw [allTok_cons] at hw
    obtain ⟨x, ⟨ps, body, k, loc⟩⟩ := f
    have := ih hw.2
    simp_all [TreeLeaf, NamedLeaf, FunLeaf, writeStmt, Spec.name, allTok_append, allTok_cons, allTok_nil, leaf_tok, leaf_params, openParen, closeParen, openBrace, closeBrace]
  | entries_comma _ hk _ _ _ _ _ ih1 ih2 | entries_line _ hk _ _ _ _ _ _ ih1 ih2 =>
    simp only [allTok_append, allTok_cons, List.append_assoc, List.cons_append] at hw
    simp only [TreeLeaf, List.mem_append, List.mem_singleton]
    rintro m (hm | rfl)
    · exact ih1 hw.1 m hm
    · exact ⟨source_key hw.2.1 hk, ih2 hw.2.2.2.1⟩
  | entries _ hk _ _ _ ih1 ih2 =>
    simp only [allTok_append, allTok_cons] at hw
    simp only [TreeLeaf, List.mem_append, List.mem_singleton]
    rintro m (hm | rfl)
    · exact ih1 hw.1 m hm
    · exact ⟨source_key hw.2.1 hk, ih2 hw.2.2.2⟩
  | number h hx => exact allTok_cons.2 ⟨leaf_number.2 ((hw _ (by simp)).number h _ hx), allTok_nil⟩
  | string h hx => exact allTok_cons.2 ⟨leaf_string.2 ((hw _ (by simp)).string h _ hx), allTok_nil⟩
  | «variable» h =>
    have hw := (allTok_cons.1 hw).1
    refine allTok_cons.2 ⟨leaf_variable.2 fun hn => ?_, allTok_nil⟩
    rcases h with h | h
    · exact hw.name h
    · exact absurd (hw.this h) hn
  | super _ _ h =>
    simp only [allTok_cons] at hw
    have hw := hw.2.2.1.name h
    simp_all [TreeLeaf, writeExpr, allTok_cons, allTok_nil, leaf_tok, Spec.name]
  | _ =>
    simp_all [source_iff, allTok_append, allTok_cons, allTok_nil, TreeLeaf, writeExpr, writeStmt, leaf_variable, leaf_tok, leaf_params, leaf_exprs, leaf_entries, leaf_methods, leaf_stmts, leaf_expression, leaf_binary, leaf_logical, leaf_unary, Spec.name, openParen, closeParen, openBrace, closeBrace, lineEnd, FunLeaf, NamedLeaf, or_imp, forall_and]

end Ws.Writing
