import Verif.Spec.Write
import Verif.Proofs.Parse.Does
/-! The tokens of a syntax tree are derived by the unambiguous grammar as that tree. -/
namespace Ws.Writing
open Spec

variable {l : Bool} {w : List Token} {x : Expr}

/-- The nonterminal of the expressions that bind this tightly. -/
def tightSym : Nat → Sym
  | 0 => .expression
  | 1 => .binary .or
  | 2 => .binary .and
  | 3 => .binary .equality
  | 4 => .binary .comparison
  | 5 => .binary .addition
  | 6 => .binary .multiplication
  | 7 => .unary
  | _ => .call

theorem tight_pred {n : Nat} (hn : n < 8) (h : Plain false l .closed false (tightSym (n + 1)) w (.expr x)) :
    Plain false l .closed false (tightSym n) w (.expr x) := by
  match n, hn with
  | 0, _ => exact .expression (.target_plain h)
  | 1, _ => exact .operand (p := .or) h
  | 2, _ => exact .operand (p := .and) h
  | 3, _ => exact .operand (p := .equality) h
  | 4, _ => exact .operand (p := .comparison) h
  | 5, _ => exact .operand (p := .addition) h
  | 6, _ => exact .operand (p := .multiplication) h
  | 7, _ => exact .call h

theorem tight_le {n k : Nat} (hn : n ≤ 8) (hk : k ≤ n) (h : Plain false l .closed false (tightSym n) w (.expr x)) :
    Plain false l .closed false (tightSym k) w (.expr x) := by
  induction n with
  | zero => obtain rfl : k = 0 := by omega
            exact h
  | succ n ih =>
    rcases Nat.lt_or_ge n k with hk' | hk'
    · obtain rfl : k = n + 1 := by omega
      exact h
    · exact ih (by omega) hk' (tight_pred (by omega) h)

theorem tightness_le (x : Expr) : tightness x ≤ 8 := by
  unfold tightness
  split <;> decide

/-- `w` is derived as `x`, at its level. -/
def Ok (l : Bool) (w : List Token) (x : Expr) : Prop := Plain false l .closed false (tightSym (tightness x)) w (.expr x)

theorem Ok.at (h : Ok l w x) {k : Nat} (hk : k ≤ tightness x) : Plain false l .closed false (tightSym k) w (.expr x) :=
  tight_le (tightness_le x) hk h

theorem Ok.expr (h : Ok l w x) : Plain false l .closed false .expression w (.expr x) := h.at (Nat.zero_le _)

theorem Ok.call (h : Ok l w x) (hk : 8 ≤ tightness x) : Plain false l .closed false .call w (.expr x) := h.at hk

theorem Ok.target (h : Ok l w x) (hk : 1 ≤ tightness x) : Plain false l .closed false .target w (.expr x) := .target_plain (h.at hk)

@[simp] theorem tok_loc {tt : TokenType} {s : Str} {loc : SourceLoc} : (tok tt s loc).loc = loc := rfl

theorem ok_primary (h : Plain false l .closed false .primary w (.expr x)) (hx : tightness x = 8) : Ok l w x := by
  unfold Ok; rw [hx]; exact .primary h

theorem ok_call (h : Plain false l .closed false .call w (.expr x)) (hx : tightness x = 8) : Ok l w x := by
  unfold Ok; rw [hx]; exact h

theorem binary_ok {a b : Expr} {op : BinaryOperator} {loc : SourceLoc} {w₁ w₂ : List Token} (ha : Ok l w₁ a) (hb : Ok l w₂ b)
    (h1 : tightness (.binary a op b loc) ≤ tightness a) (h2 : tightness (.binary a op b loc) < tightness b) :
    Ok l (w₁ ++ binaryTok op loc :: w₂) (.binary a op b loc) := by
  cases op
  case plus => exact .operator (p := .addition) (t := tok .plus c!"+" loc) (ha.at (k := 5) h1) (.inl rfl) (build := fun a b loc => .binary a .plus b loc) rfl (hb.at (k := 6) h2)
  case minus => exact .operator (p := .addition) (t := tok .minus c!"-" loc) (ha.at (k := 5) h1) (.inl rfl) (build := fun a b loc => .binary a .minus b loc) rfl (hb.at (k := 6) h2)
  case multiply => exact .operator (p := .multiplication) (t := tok .star c!"*" loc) (ha.at (k := 6) h1) (.inl rfl) (build := fun a b loc => .binary a .multiply b loc) rfl (hb.at (k := 7) h2)
  case divide => exact .operator (p := .multiplication) (t := tok .slash c!"/" loc) (ha.at (k := 6) h1) (.inl rfl) (build := fun a b loc => .binary a .divide b loc) rfl (hb.at (k := 7) h2)
  case equal => exact .operator (p := .equality) (t := tok .equalEqual c!"==" loc) (ha.at (k := 3) h1) (.inl rfl) (build := fun a b loc => .binary a .equal b loc) rfl (hb.at (k := 4) h2)
  case notEqual => exact .operator (p := .equality) (t := tok .bangEqual c!"!=" loc) (ha.at (k := 3) h1) (.inl rfl) (build := fun a b loc => .binary a .notEqual b loc) rfl (hb.at (k := 4) h2)
  case less => exact .operator (p := .comparison) (t := tok .less c!"<" loc) (ha.at (k := 4) h1) (.inl rfl) (build := fun a b loc => .binary a .less b loc) rfl (hb.at (k := 5) h2)
  case lessEqual => exact .operator (p := .comparison) (t := tok .lessEqual c!"<=" loc) (ha.at (k := 4) h1) (.inl rfl) (build := fun a b loc => .binary a .lessEqual b loc) rfl (hb.at (k := 5) h2)
  case greater => exact .operator (p := .comparison) (t := tok .greater c!">" loc) (ha.at (k := 4) h1) (.inl rfl) (build := fun a b loc => .binary a .greater b loc) rfl (hb.at (k := 5) h2)
  case greaterEqual => exact .operator (p := .comparison) (t := tok .greaterEqual c!">=" loc) (ha.at (k := 4) h1) (.inl rfl) (build := fun a b loc => .binary a .greaterEqual b loc) rfl (hb.at (k := 5) h2)

theorem logical_ok {a b : Expr} {op : LogicalOperator} {w₁ w₂ : List Token} (ha : Ok l w₁ a) (hb : Ok l w₂ b)
    (h1 : tightness (.logical a op b) ≤ tightness a) (h2 : tightness (.logical a op b) < tightness b) :
    Ok l (w₁ ++ logicalTok op :: w₂) (.logical a op b) := by
  cases op
  case and => exact .operator (p := .and) (t := tok .and c!"and") (ha.at (k := 2) h1) (.inl rfl) (build := fun a b _ => .logical a .and b) rfl (hb.at (k := 3) h2)
  case or => exact .operator (p := .or) (t := tok .or c!"or") (ha.at (k := 1) h1) (.inl rfl) (build := fun a b _ => .logical a .or b) rfl (hb.at (k := 2) h2)

theorem unary_ok {e : Expr} {op : UnaryOperator} {loc : SourceLoc} (h : Ok l w e) (h1 : 7 ≤ tightness e) :
    Ok l (unaryTok op loc :: w) (.unary op e loc) := by
  cases op
  · exact .prefix (t := tok .minus c!"-" loc) rfl (h.at h1)
  · exact .prefix (t := tok .bang c!"!" loc) rfl (h.at h1)

theorem variable_ok {n : Str} {loc : SourceLoc} : Ok l [variableTok n loc] (.variable n .placeholder loc) := by
  have h : variableTok n loc = tok .this n loc ∨ variableTok n loc = tok .identifier n loc := by
    unfold variableTok
    split
    · exact .inl rfl
    · exact .inr rfl
  rcases h with h | h <;> rw [h]
  · exact ok_primary (.variable (t := tok .this n loc) (.inr rfl)) rfl
  · exact ok_primary (.variable (t := tok .identifier n loc) (.inl rfl)) rfl

/-- Expressions separated by commas: all but the last, and the last. -/
theorem last_expr {ys : List Expr} : ∀ (xs : List Expr) (x : Expr) {w : List Token},
    Plain false l .closed false .before w (.exprs ys) → (∀ y ∈ x :: xs, Ok l (writeExpr y) y) →
    ∃ w₁ w₂ zs z, w ++ writeExprs (x :: xs) = w₁ ++ w₂ ∧ ys ++ x :: xs = zs ++ [z] ∧
      Plain false l .closed false .before w₁ (.exprs zs) ∧ Plain false l .closed false .expression w₂ (.expr z) := by
  intro xs
  induction xs generalizing ys with
  | nil =>
    intro x w h hx
    exact ⟨w, writeExpr x, ys, x, by simp [writeExprs], rfl, h, (hx x (by simp)).expr⟩
  | cons y xs ih =>
    intro x w h hx
    have h' : Plain false l .closed false .before (w ++ writeExpr x ++ [comma]) (.exprs (ys ++ [x])) :=
      .before h (hx x (by simp)).expr (.inl rfl) rfl
    obtain ⟨w₁, w₂, zs, z, h1, h2, h3, h4⟩ := ih y h' fun z hz => hx z (by simp at hz ⊢; exact .inr hz)
    refine ⟨w₁, w₂, zs, z, ?_, by rw [← h2]; simp, h3, h4⟩
    rw [← h1]
    simp [writeExprs]

theorem call_ok {f : Expr} {args : List Expr} {loc : SourceLoc} (hf : Ok l w f) (h8 : 8 ≤ tightness f) (hlen : args.length ≤ 255)
    (ha : ∀ y ∈ args, Ok l (writeExpr y) y) :
    Ok l (w ++ tok .leftParenAbutting c!"(" loc :: writeExprs args ++ [closeParen]) (.call f args loc) := by
  cases args with
  | nil =>
    refine ok_call ?_ rfl
    have := Plain.call_empty (b := tok .leftParenAbutting c!"(" loc) (c := closeParen) (hf.call h8) (.inl rfl) rfl rfl
    simpa [writeExprs] using this
  | cons x xs =>
    obtain ⟨w₁, w₂, zs, z, h1, h2, h3, h4⟩ := last_expr xs x (.before_nil (l := l)) ha
    simp only [List.nil_append] at h1 h2
    rw [h1, h2]
    rw [h2] at hlen
    simp at hlen
    exact ok_call (.call_args (b := tok .leftParenAbutting c!"(" loc) (hf.call h8) (.inl rfl) rfl (.arguments h3 (by omega) h4) (by decide) rfl) rfl

theorem array_ok {es : List Expr} (ha : ∀ y ∈ es, Ok l (writeExpr y) y) :
    Ok l (tok .leftBracket c!"[" :: writeExprs es ++ [tok .rightBracket c!"]"]) (.literalArray es) := by
  cases es with
  | nil => exact ok_primary (.array_trailing (b := tok .leftBracket c!"[") (w := []) rfl .before_nil rfl) rfl
  | cons x xs =>
    obtain ⟨w₁, w₂, zs, z, h1, h2, h3, h4⟩ := last_expr xs x (.before_nil (l := l)) ha
    simp only [List.nil_append] at h1 h2
    rw [h1, h2]
    have := Plain.array (b := tok .leftBracket c!"[") (c := tok .rightBracket c!"]") rfl h3 h4 (by decide) rfl
    exact ok_primary (by simpa using this) rfl

theorem isKey_string (k : Str) : IsKey (stringTok k) k := .inr ⟨rfl, rfl⟩

/-- Map entries separated by commas. -/
theorem entries_ok {o : Ends} {ys : List MapEntry} : ∀ (xs : List MapEntry) (x : MapEntry) {w : List Token},
    Plain false l o false .entriesBefore w (.entries ys) → (∀ y ∈ x :: xs, Ok l (writeExpr y.value) y.value) →
    ((ys ++ x :: xs).map MapEntry.key).Nodup →
    Plain false l .closed false .entries (w ++ writeEntries (x :: xs)) (.entries (ys ++ x :: xs)) := by
  intro xs
  induction xs generalizing ys o with
  | nil =>
    rintro ⟨k, v⟩ w h hx hd
    have hk : k ∉ ys.map MapEntry.key := by
      intro hk
      rw [List.map_append, List.nodup_append] at hd
      exact hd.2.2 k hk k (by simp [MapEntry.key]) rfl
    have := Plain.entries (c := tok .colon c!":") h (isKey_string k) rfl (show Ok l (writeExpr v) v from hx (.mk k v) (by simp)).expr hk
    simpa [writeEntries] using this
  | cons y xs ih =>
    rintro ⟨k, v⟩ w h hx hd
    have hk : k ∉ ys.map MapEntry.key := by
      intro hk
      rw [List.map_append, List.nodup_append] at hd
      exact hd.2.2 k hk k (by simp [MapEntry.key]) rfl
    have h' := Plain.entries_comma (c := tok .colon c!":") (s := comma) h (isKey_string k) rfl (show Ok l (writeExpr v) v from hx (.mk k v) (by simp)).expr (.inl rfl) hk rfl
    have := ih y h' (fun z hz => hx z (by simp at hz ⊢; exact .inr hz)) (by simpa using hd)
    simpa [writeEntries, MapEntry.value] using this

theorem map_ok {ms : List MapEntry} (hd : (ms.map MapEntry.key).Nodup) (ha : ∀ y ∈ ms, Ok l (writeExpr y.value) y.value) :
    Ok l (openBrace :: writeEntries ms ++ [closeBrace]) (.literalMap ms) := by
  cases ms with
  | nil => exact ok_primary (.map_trailing (b := openBrace) (w := []) rfl .entries_nil rfl) rfl
  | cons x xs =>
    have h := entries_ok xs x (.entries_nil (l := l)) ha hd
    exact ok_primary (.map_braces (b := openBrace) rfl h rfl) rfl

theorem params_ok {ys : List Parameter} : ∀ (ps : List Parameter) (p : Parameter) {w : List Token},
    Plain false l .closed false .parametersBefore w (.params ys) → (ys ++ p :: ps).length ≤ 255 →
    ∃ w₁ qs q, w ++ writeParams (p :: ps) = w₁ ++ [name q.name q.loc] ∧ ys ++ p :: ps = qs ++ [q] ∧
      Plain false l .closed false .parametersBefore w₁ (.params qs) := by
  intro ps
  induction ps generalizing ys with
  | nil => intro p w h _; exact ⟨w, ys, p, rfl, rfl, h⟩
  | cons q ps ih =>
    intro p w h hlen
    simp only [List.length_append, List.length_cons] at hlen
    obtain ⟨w₁, qs, r, h1, h2, h3⟩ := ih q (.parameters (t := name p.name p.loc) (c := comma) h (by omega) rfl rfl)
      (by simp only [List.length_append, List.length_cons, List.length_nil]; omega)
    refine ⟨w₁, qs, r, ?_, by rw [← h2]; simp [name, tok, Token.loc], h3⟩
    rw [← h1]
    simp [writeParams]

theorem function_ok {loc : SourceLoc} {ps : List Parameter} {body : List Stmt} {ws : List Token} (hlen : ps.length ≤ 255)
    (hb : Plain false l .closed false .declarations ws (.stmts body)) :
    Plain false l .closed false (.function loc) (openParen :: writeParams ps ++ closeParen :: openBrace :: ws ++ [closeBrace])
      (.fn (.mk ps body .plainFunction loc)) := by
  have hblock : Plain false l .closed false .block (openBrace :: ws ++ [closeBrace]) (.stmts body) := .block_braces rfl hb (by decide) (by decide) rfl
  cases ps with
  | nil => simpa [writeParams] using Plain.function_empty (b := openParen) (c := closeParen) (.inl rfl) rfl hblock
  | cons p ps =>
    obtain ⟨w₁, qs, q, h1, h2, h3⟩ := params_ok ps p (.parameters_nil (l := l)) hlen
    simp only [List.nil_append] at h1 h2
    rw [h1, h2]
    rw [h2] at hlen
    simp at hlen
    have := Plain.function (loc := loc) (b := openParen) (t := name q.name q.loc) (c := closeParen) (.inl rfl) h3 (by omega) rfl rfl hblock
    simpa [name, tok, Token.loc] using this

theorem fn_literal_ok {loc : SourceLoc} {ps : List Parameter} {body : List Stmt} {ws : List Token} (hlen : ps.length ≤ 255)
    (hb : Plain false l .closed false .declarations ws (.stmts body)) :
    Ok l (tok .fun c!"fun" loc :: openParen :: writeParams ps ++ closeParen :: openBrace :: ws ++ [closeBrace])
      (.function (.mk ps body .plainFunction loc)) :=
  ok_primary (.function_literal (t := tok .fun c!"fun" loc) rfl (function_ok hlen hb)) rfl

theorem named_ok {n : Str} {loc : SourceLoc} {ps : List Parameter} {body : List Stmt} {ws : List Token} (hlen : ps.length ≤ 255)
    (hb : Plain false l .closed false .declarations ws (.stmts body)) :
    Plain false l .closed false .named (name n loc :: openParen :: writeParams ps ++ closeParen :: openBrace :: ws ++ [closeBrace])
      (.named (.mk n (.mk ps body .plainFunction loc))) :=
  .named (t := name n loc) rfl (function_ok hlen hb)

/-! ### Statements -/

/-- The first token. -/
def headType (w : List Token) : Option TokenType := (w.head?).map Token.tokenType

theorem headType_append {w w' : List Token} (h : w ≠ []) : headType (w ++ w') = headType w := by
  cases w with
  | nil => exact absurd rfl h
  | cons t w => rfl

theorem writeExpr_ne : ∀ x, writeExpr x ≠ []
  | .literalBool true => by simp [writeExpr]
  | .literalBool false => by simp [writeExpr]
  | .assign .. => by simp [writeExpr]
  | .call .. => by simp [writeExpr]
  | .binary .. => by simp [writeExpr]
  | .function (.mk ..) => by simp [writeExpr]
  | .get .. => by simp [writeExpr]
  | .getIndex .. => by simp [writeExpr]
  | .grouping .. => by simp [writeExpr]
  | .literalArray .. => by simp [writeExpr]
  | .literalMap .. => by simp [writeExpr]
  | .literalNumber .. => by simp [writeExpr]
  | .literalNil => by simp [writeExpr]
  | .literalString .. => by simp [writeExpr]
  | .logical .. => by simp [writeExpr]
  | .set .. => by simp [writeExpr]
  | .setIndex .. => by simp [writeExpr]
  | .super .. => by simp [writeExpr]
  | .variable .. => by simp [writeExpr]
  | .unary .. => by simp [writeExpr]

theorem headType_cons {t : Token} : headType (t :: w) = some t.tokenType := rfl

theorem not_brace : ∀ x, startsMap x = false → headType (writeExpr x) ≠ some .leftBrace
  | .literalMap _, h => by simp [startsMap] at h
  | .call f _ _, h => by
    simp only [writeExpr, List.append_assoc]
    rw [headType_append (writeExpr_ne f)]
    exact not_brace f h
  | .get o _ _, h => by
    simp only [writeExpr]
    rw [headType_append (writeExpr_ne o)]
    exact not_brace o h
  | .getIndex a _ _, h => by
    simp only [writeExpr, List.append_assoc]
    rw [headType_append (writeExpr_ne a)]
    exact not_brace a h
  | .set o _ _ _, h => by
    simp only [writeExpr]
    rw [headType_append (writeExpr_ne o)]
    exact not_brace o h
  | .setIndex a _ _ _, h => by
    simp only [writeExpr, List.append_assoc]
    rw [headType_append (writeExpr_ne a)]
    exact not_brace a h
  | .binary a _ _ _, h => by
    simp only [writeExpr]
    rw [headType_append (writeExpr_ne a)]
    exact not_brace a h
  | .logical a _ _, h => by
    simp only [writeExpr]
    rw [headType_append (writeExpr_ne a)]
    exact not_brace a h
  | .literalBool true, _ => by simp [writeExpr, headType, tok]
  | .literalBool false, _ => by simp [writeExpr, headType, tok]
  | .assign .., _ => by simp [writeExpr, headType, tok, name]
  | .function (.mk ..), _ => by simp [writeExpr, headType, tok]
  | .grouping .., _ => by simp [writeExpr, headType, tok, openParen]
  | .literalArray .., _ => by simp [writeExpr, headType, tok]
  | .literalNumber .., _ => by simp [writeExpr, headType, numberTok]
  | .literalNil, _ => by simp [writeExpr, headType, tok]
  | .literalString .., _ => by simp [writeExpr, headType, stringTok]
  | .super .., _ => by simp [writeExpr, headType, tok]
  | .variable .., _ => by
    simp only [writeExpr, headType, variableTok]
    split <;> simp [tok, name]
  | .unary op _ _, _ => by cases op <;> simp [writeExpr, headType, unaryTok, tok]

theorem line_ok {o : Ends} {w : List Token} (h : Plain false l o false .expression w (.expr x)) (ho : o.item) (hw : w ≠ []) (hh : headType w ≠ some .leftBrace) :
    Plain false l .closed false .statement (w ++ [lineEnd]) (.stmt (.expression x)) := by
  cases w with
  | nil => exact absurd rfl hw
  | cons t w =>
    have hl : o.line = .closed := by rcases ho with rfl | rfl <;> rfl
    rw [← hl]
    exact .expression_statement h (fun h' => hh (by rw [headType_cons, h'])) (by rcases ho with rfl | rfl <;> decide) rfl

theorem indented_ok {w : List Token} (h : Plain false l .closed false (.binary .or) w (.expr x)) :
    Plain false l .outdent false .target (tok .indent [] :: w ++ [tok .outdent []]) (.expr x) := by
  have := Plain.target_indented (i := tok .indent []) (d := tok .outdent []) rfl h (by decide) (.inl rfl) rfl
  simpa using this

theorem get_ok {o : Expr} {n : Str} {loc : SourceLoc} (ho : Ok l w o) (h8 : 8 ≤ tightness o) :
    Ok l (w ++ [tok .dot c!"." loc, name n]) (.get o n loc) :=
  ok_call (.property (d := tok .dot c!"." loc) (i := name n) (ho.call h8) (.inl rfl) rfl rfl) rfl

theorem getIndex_ok {a i : Expr} {wi : List Token} {loc : SourceLoc} (ha : Ok l w a) (h8 : 8 ≤ tightness a) (hi : Ok l wi i) :
    Ok l (w ++ tok .leftBracket c!"[" loc :: wi ++ [tok .rightBracket c!"]"]) (.getIndex a i loc) :=
  ok_call (.index (b := tok .leftBracket c!"[" loc) (ha.call h8) (.inl rfl) rfl hi.expr (by decide) rfl) rfl

/-- A statement is a declaration, or can be used as the body of another. -/
def OkStmt (l : Bool) (s : Stmt) : Prop :=
  Plain false l .closed (opensElse s) .declaration (writeStmt s) (.stmt s) ∧
  (isStatement s = true → Plain false l .closed (opensElse s) .statement (writeStmt s) (.stmt s) ∧
    Plain false l .closed (opensElse s) .body (writeStmt s) (.stmt s))

theorem okStmt_of {s : Stmt} (h : Plain false l .closed (opensElse s) .statement (writeStmt s) (.stmt s))
    (hh : headType (writeStmt s) ≠ some .leftBrace) : OkStmt l s := by
  refine ⟨.declaration h, fun _ => ⟨h, ?_⟩⟩
  generalize writeStmt s = w at *
  cases w with
  | nil =>
    obtain ⟨_, _, h1, -⟩ := (plain_first h : ExprHead stmtTs [])
    cases h1
  | cons t w => exact .body h (fun h' => hh (by rw [headType_cons, h']))

theorem okStmt_block {ss : List Stmt} (h : Plain false l .closed false .declarations (writeStmts ss) (.stmts ss)) : OkStmt l (.block ss) := by
  have h1 : Plain false l .closed false .statement (writeStmt (.block ss)) (.stmt (.block ss)) := by
    simp only [writeStmt]
    exact .braces rfl h (by decide) (by decide) rfl
  refine ⟨.declaration h1, fun _ => ⟨h1, ?_⟩⟩
  simp only [writeStmt]
  exact .body_block (.block_braces rfl h (by decide) (by decide) rfl)

theorem okStmt_decl {s : Stmt} (h : Plain false l .closed (opensElse s) .declaration (writeStmt s) (.stmt s)) (hs : isStatement s = false) :
    OkStmt l s := ⟨h, fun h' => by rw [hs] at h'; cases h'⟩

/-- A line that is not started by a map. -/
theorem okStmt_line {o : Ends} {x : Expr} (h : Plain false l o false .expression w (.expr x)) (ho : o.item) (hw : w ≠ []) (hh : headType w ≠ some .leftBrace)
    (he : writeStmt (.expression x) = w ++ [lineEnd]) : OkStmt l (.expression x) := by
  refine okStmt_of ?_ ?_ <;> rw [he]
  · exact line_ok h ho hw hh
  · rwa [headType_append hw]

theorem okStmt_set {o v : Expr} {n : Str} {loc : SourceLoc} (h8 : 8 ≤ tightness o) (ho : Ok l (writeExpr o) o) (hv : Ok l (writeExpr v) v) :
    OkStmt l (.expression (.set o n v loc)) := by
  have hg : Ok l (writeExpr o ++ [tok .dot c!".", name n]) (.get o n .default) := get_ok ho h8
  by_cases hm : startsMap o = true
  · refine okStmt_line (.assignment (t := tok .equal c!"=" loc) (indented_ok (hg.at (k := 1) (by simp [tightness]))) (.inr rfl) rfl hv.expr
      (.property _ _ _)) (.inl rfl) (by simp) (by simp [headType, tok]) ?_
    simp [writeStmt, hm]
  · refine okStmt_line (.assignment (t := tok .equal c!"=" loc) (hg.target (by simp [tightness])) (.inl rfl) rfl hv.expr
      (.property _ _ _)) (.inl rfl) (by simp) ?_ ?_
    · rw [List.append_assoc, headType_append (writeExpr_ne o)]
      exact not_brace o (by simpa using hm)
    · simp [writeStmt, hm]

theorem okStmt_setIndex {a i v : Expr} {loc : SourceLoc} (h8 : 8 ≤ tightness a) (ha : Ok l (writeExpr a) a) (hi : Ok l (writeExpr i) i)
    (hv : Ok l (writeExpr v) v) : OkStmt l (.expression (.setIndex a i v loc)) := by
  have hg : Ok l (writeExpr a ++ tok .leftBracket c!"[" :: writeExpr i ++ [tok .rightBracket c!"]"]) (.getIndex a i .default) :=
    getIndex_ok ha h8 hi
  by_cases hm : startsMap a = true
  · refine okStmt_line (.assignment (t := tok .equal c!"=" loc) (indented_ok (hg.at (k := 1) (by simp [tightness]))) (.inr rfl) rfl hv.expr
      (.index _ _ _)) (.inl rfl) (by simp) (by simp [headType, tok]) ?_
    simp [writeStmt, hm]
  · refine okStmt_line (.assignment (t := tok .equal c!"=" loc) (hg.target (by simp [tightness])) (.inl rfl) rfl hv.expr
      (.index _ _ _)) (.inl rfl) (by simp) ?_ ?_
    · simp only [List.append_assoc]
      rw [headType_append (writeExpr_ne a)]
      exact not_brace a (by simpa using hm)
    · simp [writeStmt, hm]

theorem okStmt_other {e : Expr} (h : Ok l (writeExpr e) e) (h1 : startsMap e = true → 1 ≤ tightness e)
    (he : writeStmt (.expression e) = if startsMap e then tok .indent [] :: writeExpr e ++ [tok .outdent [], lineEnd]
      else writeExpr e ++ [lineEnd]) : OkStmt l (.expression e) := by
  by_cases hm : startsMap e = true
  · refine okStmt_line (.expression (indented_ok (h.at (k := 1) (h1 hm)))) (.inr rfl) (by simp) (by simp [headType, tok]) ?_
    rw [he, if_pos hm]
    simp
  · refine okStmt_line h.expr (.inl rfl) (writeExpr_ne e) (not_brace e (by simpa using hm)) ?_
    rw [he, if_neg hm]

theorem okStmt_binary {a b : Expr} {op : BinaryOperator} {loc : SourceLoc} (h : Ok l (writeExpr (.binary a op b loc)) (.binary a op b loc)) :
    OkStmt l (.expression (.binary a op b loc)) :=
  okStmt_other h (fun _ => by cases op <;> simp [tightness]) (by simp [writeStmt])

theorem okStmt_logical {a b : Expr} {op : LogicalOperator} (h : Ok l (writeExpr (.logical a op b)) (.logical a op b)) :
    OkStmt l (.expression (.logical a op b)) :=
  okStmt_other h (fun _ => by cases op <;> simp [tightness]) (by simp [writeStmt])

/-! ### Everything -/

theorem before_stmts {ss : List Stmt} {w : List Token} (h : Plain false l .closed false .declarations w (.stmts ss)) : ∀ ts : List Stmt,
    (∀ s ∈ ts, OkStmt l s) → Plain false l .closed false .declarations (w ++ writeStmts ts) (.stmts (ss ++ ts)) := by
  intro ts
  induction ts generalizing ss w with
  | nil => intro _; simpa [writeStmts] using h
  | cons s ts ih =>
    intro hs
    have := ih (.declarations h (hs s (by simp)).1 ⟨by decide, by decide, by simp, by simp⟩) fun s hs' => hs s (by simp [hs'])
    simpa [writeStmts] using this

theorem stmts_ok {ts : List Stmt} (h : ∀ s ∈ ts, OkStmt l s) : Plain false l .closed false .declarations (writeStmts ts) (.stmts ts) :=
  before_stmts .declarations_nil ts h

theorem superclass_ok {e : Expr} (h : IsSuperclass e) : ∃ n loc, e = .variable n .placeholder loc ∧ writeExpr e = [name n loc] := by
  cases e with
  | «variable» n c loc =>
    obtain ⟨h1, rfl⟩ := h
    exact ⟨n, loc, rfl, by simp [writeExpr, variableTok, h1]⟩
  | _ => exact h.elim

theorem class_ok {n : Str} {loc : SourceLoc} {ms : List NamedFun} {superclass : Option Expr} (hs : ∀ e ∈ superclass, IsSuperclass e)
    (h : Plain false l .closed false .methods (writeMethods ms) (.nameds ms)) : OkStmt l (.class n superclass ms loc) := by
  refine okStmt_decl ?_ rfl
  cases superclass with
  | none =>
    simp only [writeStmt, opensElse]
    exact .class_braces (t := tok .class c!"class") (n := name n loc) (b := openBrace) rfl rfl rfl h rfl
  | some e =>
    obtain ⟨m, loc', rfl, h2⟩ := superclass_ok (hs e rfl)
    simp only [writeStmt, opensElse, h2]
    exact .subclass_braces (t := tok .class c!"class") (n := name n loc) (lt := tok .less c!"<") (s := name m loc') (b := openBrace)
      rfl rfl rfl rfl rfl h rfl

theorem fun_ok {n : Str} {loc : SourceLoc} {ps : List Parameter} {body : List Stmt} (hlen : ps.length ≤ 255)
    (hb : Plain false l .closed false .declarations (writeStmts body) (.stmts body)) :
    OkStmt l (.fun (.mk n (.mk ps body .plainFunction loc))) := by
  refine okStmt_decl ?_ rfl
  simp only [writeStmt, opensElse]
  exact .fun_decl (t := tok .fun c!"fun") rfl (named_ok hlen hb)

theorem if_ok {c : Expr} {a : Stmt} (hc : Ok l (writeExpr c) c) (hs : isStatement a = true) (ha : OkStmt l a) : OkStmt l (.if c a none) := by
  refine okStmt_of ?_ ?_ <;> simp only [writeStmt, opensElse]
  · exact .if (t := tok .if c!"if") (b := openParen) rfl (.inl rfl) hc.expr (by decide) rfl (ha.2 hs).2
  · simp [headType, tok]

theorem if_else_ok {c : Expr} {a b : Stmt} (hc : Ok l (writeExpr c) c) (hs : isStatement a = true) (ho : opensElse a = false)
    (ha : OkStmt l a) (hs' : isStatement b = true) (hb : OkStmt l b) : OkStmt l (.if c a (some b)) := by
  refine okStmt_of ?_ ?_ <;> simp only [writeStmt, opensElse]
  · exact .if_else (t := tok .if c!"if") (b := openParen) rfl (.inl rfl) hc.expr (by decide) rfl (by have := (ha.2 hs).2; rwa [ho] at this) (by decide) (by decide) rfl (hb.2 hs').1
  · simp [headType, tok]

theorem while_ok {c : Expr} {a : Stmt} (hc : Ok l (writeExpr c) c) (hs : isStatement a = true) (ha : OkStmt true a) : OkStmt l (.while c a) := by
  refine okStmt_of ?_ ?_ <;> simp only [writeStmt, opensElse]
  · exact .while (t := tok .while c!"while") (b := openParen) rfl (.inl rfl) hc.expr (by decide) rfl (ha.2 hs).2
  · simp [headType, tok]

theorem whileIncrement_ok {c i : Expr} {a : Stmt} (hc : Ok l (writeExpr c) c) (hi : Ok l (writeExpr i) i) (hs : isStatement a = true)
    (ha : OkStmt true a) : OkStmt l (.whileIncrement c a i) := by
  refine okStmt_of ?_ ?_ <;> simp only [writeStmt, opensElse]
  · have := Plain.for (t := tok .for c!"for") (b := openParen) (semi := tok .semicolon c!";") (c := closeParen) rfl (.inl rfl)
      (.for_none (semi := tok .semicolon c!";") rfl) (.condition hc.expr (by decide)) (by simp) rfl (.increment hi.expr (by decide)) rfl (ha.2 hs).2
    simpa [forLoop] using this
  · simp [headType, tok]

theorem methods_cons {n : Str} {loc : SourceLoc} {ps : List Parameter} {body : List Stmt} {k : FunctionType} {fs : List NamedFun}
    {w : List Token} (h : Plain false l .closed false .methods w (.nameds fs)) (hlen : ps.length ≤ 255)
    (hk : k = .classMethod ∨ k = if n = c!"init" then .initializer else .method)
    (hb : Plain false l .closed false .declarations (writeStmts body) (.stmts body)) :
    Plain false l .closed false .methods (w ++ ((if k = .classMethod then [tok .class c!"class"] else []) ++
      name n loc :: openParen :: writeParams ps ++ closeParen :: openBrace :: writeStmts body ++ [closeBrace]))
      (.nameds (fs ++ [.mk n (.mk ps body k loc)])) := by
  have hn := named_ok (n := n) (loc := loc) hlen hb
  rcases hk with rfl | rfl
  · have := Plain.class_method (t := tok .class c!"class") h rfl hn
    simpa [methodKind] using this
  · have := Plain.method h hn
    have hne : ¬ (if n = c!"init" then FunctionType.initializer else .method) = .classMethod := by split <;> decide
    rw [if_neg hne]
    simpa [methodKind] using this

/-- The body of a function. -/
def bodyOf : NamedFun → List Stmt
  | .mk _ (.mk _ body _ _) => body

theorem before_methods {fs : List NamedFun} {w : List Token} (h : Plain false l .closed false .methods w (.nameds fs)) : ∀ ms : List NamedFun,
    WritableMethods l ms → (∀ m ∈ ms, Plain false l .closed false .declarations (writeStmts (bodyOf m)) (.stmts (bodyOf m))) →
    Plain false l .closed false .methods (w ++ writeMethods ms) (.nameds (fs ++ ms)) := by
  intro ms
  induction ms generalizing fs w with
  | nil => intro _ _; simpa [writeMethods] using h
  | cons m ms ih =>
    obtain ⟨n, ⟨ps, body, k, loc⟩⟩ := m
    intro hw hb
    obtain ⟨h1, h2, -, h4⟩ := hw
    have := ih (methods_cons (loc := loc) (body := body) h h1 h2 (hb _ List.mem_cons_self)) h4 fun m hm => hb m (List.mem_cons_of_mem _ hm)
    simpa [writeMethods] using this

mutual
theorem write_expr : ∀ {l : Bool} (e : Expr), Writable l e → Ok l (writeExpr e) e
  | l, .assign x c r loc, h => by
    obtain ⟨h1, rfl, h2⟩ := h
    simp only [writeExpr]
    have hv : Ok l [name x] (.variable x .placeholder .default) := ok_primary (.variable (t := name x) (.inl rfl)) rfl
    exact .assignment (t := tok .equal c!"=" loc) (hv.target (by simp [tightness])) (.inl rfl) rfl (write_expr r h2).expr (.variable _ _ _ h1)
  | l, .call f args loc, h => by
    obtain ⟨h1, h2, h3, h4⟩ := h
    simp only [writeExpr]
    exact call_ok (write_expr f h2) h1 h3 (write_exprs args h4)
  | l, .binary a op b loc, h => by
    obtain ⟨h1, h2, h3, h4⟩ := h
    simp only [writeExpr]
    exact binary_ok (write_expr a h3) (write_expr b h4) h1 h2
  | l, .function (.mk ps body k loc), h => by
    obtain ⟨h1, rfl, h2⟩ := h
    simp only [writeExpr]
    exact fn_literal_ok h1 (stmts_ok (write_stmts body h2))
  | l, .get o x loc, h => by
    obtain ⟨h1, h2⟩ := h
    simp only [writeExpr]
    exact get_ok (write_expr o h2) h1
  | l, .getIndex a i loc, h => by
    obtain ⟨h1, h2, h3⟩ := h
    simp only [writeExpr]
    exact getIndex_ok (write_expr a h2) h1 (write_expr i h3)
  | l, .grouping e, h => by
    simp only [writeExpr]
    exact ok_primary (.grouping (b := openParen) (.inl rfl) (write_expr e h).expr (by decide) rfl) rfl
  | l, .literalArray es, h => by
    simp only [writeExpr]
    exact array_ok (write_exprs es h)
  | l, .literalMap ms, h => by
    obtain ⟨h1, h2⟩ := h
    simp only [writeExpr]
    exact map_ok h1 (write_entries ms h2)
  | l, .logical a op b, h => by
    obtain ⟨h1, h2, h3, h4⟩ := h
    simp only [writeExpr]
    exact logical_ok (write_expr a h3) (write_expr b h4) h1 h2
  | l, .set o x v loc, h => by
    obtain ⟨h1, h2, h3⟩ := h
    have hg : Ok l (writeExpr o ++ [tok .dot c!".", name x]) (.get o x .default) := get_ok (write_expr o h2) h1
    have : Ok l _ (.set o x v loc) := Plain.assignment (t := tok .equal c!"=" loc) (hg.target (by simp [tightness])) (.inl rfl) rfl
      (write_expr v h3).expr (.property _ _ _)
    simpa [writeExpr] using this
  | l, .setIndex a i v loc, h => by
    obtain ⟨h1, h2, h3, h4⟩ := h
    have hg : Ok l (writeExpr a ++ tok .leftBracket c!"[" :: writeExpr i ++ [tok .rightBracket c!"]"]) (.getIndex a i .default) :=
      getIndex_ok (write_expr a h2) h1 (write_expr i h3)
    have : Ok l _ (.setIndex a i v loc) := Plain.assignment (t := tok .equal c!"=" loc) (hg.target (by simp [tightness])) (.inl rfl) rfl
      (write_expr v h4).expr (.index _ _ _)
    simpa [writeExpr] using this
  | l, .super c x loc, h => by
    obtain rfl : c = .placeholder := h
    simp only [writeExpr]
    exact ok_primary (.super (t := tok .super c!"super" loc) (d := tok .dot c!".") (i := name x) rfl rfl rfl) rfl
  | l, .variable x c loc, h => by
    obtain rfl : c = .placeholder := h
    simp only [writeExpr]
    exact variable_ok
  | l, .unary op e loc, h => by
    obtain ⟨h1, h2⟩ := h
    simp only [writeExpr]
    exact unary_ok (write_expr e h2) h1
  | l, .literalBool true, _ => by simp only [writeExpr]; exact ok_primary (.true rfl) rfl
  | l, .literalBool false, _ => by simp only [writeExpr]; exact ok_primary (.false rfl) rfl
  | l, .literalNumber x, _ => by simp only [writeExpr]; exact ok_primary (.number rfl rfl) rfl
  | l, .literalNil, _ => by simp only [writeExpr]; exact ok_primary (.nil rfl) rfl
  | l, .literalString s, _ => by simp only [writeExpr]; exact ok_primary (.string rfl rfl) rfl

theorem write_exprs : ∀ {l : Bool} (es : List Expr), WritableExprs l es → ∀ y ∈ es, Ok l (writeExpr y) y
  | _, [], _ => fun _ hy => nomatch hy
  | _, e :: es, h => fun y hy => by
    rcases List.mem_cons.1 hy with h' | h'
    · rw [h']; exact write_expr e h.1
    · exact write_exprs es h.2 y h'

theorem write_entries : ∀ {l : Bool} (ms : List MapEntry), WritableEntries l ms → ∀ y ∈ ms, Ok l (writeExpr y.value) y.value
  | _, [], _ => fun _ hy => nomatch hy
  | _, .mk k v :: ms, h => fun y hy => by
    rcases List.mem_cons.1 hy with h' | h'
    · rw [h']; exact write_expr v h.1
    · exact write_entries ms h.2 y h'

theorem write_methods : ∀ {l : Bool} (ms : List NamedFun), WritableMethods l ms →
    ∀ m ∈ ms, Plain false l .closed false .declarations (writeStmts (bodyOf m)) (.stmts (bodyOf m))
  | _, [], _ => fun _ hy => nomatch hy
  | _, .mk x (.mk ps body k loc) :: ms, h => fun y hy => by
    rcases List.mem_cons.1 hy with h' | h'
    · rw [h']; exact stmts_ok (write_stmts body h.2.2.1)
    · exact write_methods ms h.2.2.2 y h'

theorem write_stmt : ∀ {l : Bool} (s : Stmt), WritableStmt l s → OkStmt l s
  | l, .block body, h => okStmt_block (stmts_ok (write_stmts body h))
  | l, .break loc, h => by
    obtain rfl : l = true := h
    refine okStmt_of ?_ ?_ <;> simp only [writeStmt, opensElse]
    · exact .break (t := tok .break c!"break" loc) rfl rfl
    · simp [headType, tok]
  | l, .continue loc, h => by
    obtain rfl : l = true := h
    refine okStmt_of ?_ ?_ <;> simp only [writeStmt, opensElse]
    · exact .continue (t := tok .continue c!"continue" loc) rfl rfl
    · simp [headType, tok]
  | l, .class n none ms loc, h => class_ok (by simp) (before_methods .methods_nil ms h (write_methods ms h))
  | l, .class n (some e) ms loc, h => class_ok (fun e' he => by cases he; exact h.1) (before_methods .methods_nil ms h.2 (write_methods ms h.2))
  | l, .expression (.set o x v loc), h => okStmt_set h.1 (write_expr o h.2.1) (write_expr v h.2.2)
  | l, .expression (.setIndex a i v loc), h => okStmt_setIndex h.1 (write_expr a h.2.1) (write_expr i h.2.2.1) (write_expr v h.2.2.2)
  | l, .expression (.assign x c r loc), h => okStmt_other (write_expr (.assign x c r loc) h) (by simp [tightness, startsMap]) (by simp [writeStmt])
  | l, .expression (.call f args loc), h => okStmt_other (write_expr (.call f args loc) h) (by simp [tightness, startsMap]) (by simp [writeStmt])
  | l, .expression (.function d), h => okStmt_other (write_expr (.function d) h) (by simp [tightness, startsMap]) (by simp [writeStmt])
  | l, .expression (.get o x loc), h => okStmt_other (write_expr (.get o x loc) h) (by simp [tightness, startsMap]) (by simp [writeStmt])
  | l, .expression (.getIndex a i loc), h => okStmt_other (write_expr (.getIndex a i loc) h) (by simp [tightness, startsMap]) (by simp [writeStmt])
  | l, .expression (.grouping e), h => okStmt_other (write_expr (.grouping e) h) (by simp [tightness, startsMap]) (by simp [writeStmt])
  | l, .expression (.literalArray es), h => okStmt_other (write_expr (.literalArray es) h) (by simp [tightness, startsMap]) (by simp [writeStmt])
  | l, .expression (.literalMap ms), h => okStmt_other (write_expr (.literalMap ms) h) (by simp [tightness, startsMap]) (by simp [writeStmt])
  | l, .expression (.super c x loc), h => okStmt_other (write_expr (.super c x loc) h) (by simp [tightness, startsMap]) (by simp [writeStmt])
  | l, .expression (.variable x c loc), h => okStmt_other (write_expr (.variable x c loc) h) (by simp [tightness, startsMap]) (by simp [writeStmt])
  | l, .expression (.unary op e loc), h => okStmt_other (write_expr (.unary op e loc) h) (by simp [tightness, startsMap]) (by simp [writeStmt])
  | l, .expression (.literalBool b), h => okStmt_other (write_expr (.literalBool b) h) (by simp [tightness, startsMap]) (by simp [writeStmt])
  | l, .expression (.literalNumber x), h => okStmt_other (write_expr (.literalNumber x) h) (by simp [tightness, startsMap]) (by simp [writeStmt])
  | l, .expression .literalNil, h => okStmt_other (write_expr .literalNil h) (by simp [tightness, startsMap]) (by simp [writeStmt])
  | l, .expression (.literalString s), h => okStmt_other (write_expr (.literalString s) h) (by simp [tightness, startsMap]) (by simp [writeStmt])
  | l, .expression (.binary a op b loc), h => okStmt_binary (write_expr (.binary a op b loc) h)
  | l, .expression (.logical a op b), h => okStmt_logical (write_expr (.logical a op b) h)
  | l, .fun (.mk n (.mk ps body k loc)), h => by
    obtain ⟨h1, rfl, h2⟩ := h
    exact fun_ok h1 (stmts_ok (write_stmts body h2))
  | l, .if c a none, h => if_ok (write_expr c h.1) h.2.1 (write_stmt a h.2.2)
  | l, .if c a (some b), h => if_else_ok (write_expr c h.1) h.2.1 h.2.2.1 (write_stmt a h.2.2.2.1) h.2.2.2.2.1 (write_stmt b h.2.2.2.2.2)
  | l, .print e, h => by
    refine okStmt_of ?_ ?_ <;> simp only [writeStmt, opensElse]
    · exact .print (o := .closed) (t := tok .print c!"print") rfl (write_expr e h).expr (by decide) rfl
    · simp [headType, tok]
  | l, .return e loc, h => by
    refine okStmt_of ?_ ?_ <;> simp only [writeStmt, opensElse]
    · exact .return (o := .closed) (t := tok .return c!"return" loc) rfl (write_expr e h).expr (by decide) rfl
    · simp [headType, tok]
  | l, .var n s e loc, h => by
    obtain ⟨rfl, h⟩ := h
    refine okStmt_decl ?_ rfl
    simp only [writeStmt, opensElse]
    exact .var_init (o := .closed) (t := tok .var c!"var") (n := name n loc) (q := tok .equal c!"=") rfl rfl rfl (.inl rfl)
      (write_expr e h).expr (by decide) rfl
  | l, .while c b, h => while_ok (write_expr c h.1) h.2.1 (write_stmt b h.2.2)
  | l, .whileIncrement c b i, h => whileIncrement_ok (write_expr c h.1) (write_expr i h.2.1) h.2.2.1 (write_stmt b h.2.2.2)

theorem write_stmts : ∀ {l : Bool} (ss : List Stmt), WritableStmts l ss → ∀ s ∈ ss, OkStmt l s
  | _, [], _ => fun _ hy => nomatch hy
  | _, t :: ts, h => fun s hs => by
    rcases List.mem_cons.1 hs with h' | h'
    · rw [h']; exact write_stmt t h.1
    · exact write_stmts ts h.2 s h'
end

end Ws.Writing
