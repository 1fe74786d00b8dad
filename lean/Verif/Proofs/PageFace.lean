import Verif.Proofs.Page
import Verif.Proofs.Js.Inj
import Verif.Proofs.Print.Fine
import Verif.Spec.Face
/-! Programs whose values look alike on the demo page look alike themselves (C91). -/
set_option linter.unusedSimpArgs false
set_option linter.unusedSectionVars false
namespace Ws
open Spec

variable {showNumber : F64 → Str} {W : F64 → Prop}

theorem shown_array {es es' : List JsValue} : Shown showNumber (.array es) (.array es') ↔ ShownAll showNumber es es' :=
  ⟨fun h => (by
    cases h with
    | array h => exact h
    | braces h => cases h), .array⟩
theorem shown_string {s s' : Str} : Shown showNumber (.string s) (.string s') ↔ s = s' :=
  ⟨fun h => (by
    cases h with
    | string => rfl
    | braces h => cases h), fun h => h ▸ .string s⟩
theorem shown_number {x y : F64} : Shown showNumber (.number x) (.number y) ↔ showNumber x = showNumber y :=
  ⟨fun h => (by
    cases h with
    | number h => exact h
    | braces h => cases h), .number⟩
theorem shown_object {fs fs' : List JsField} : Shown showNumber (.object fs) (.object fs') ↔ ShownFields showNumber fs fs' :=
  ⟨fun h => (by
    cases h with
    | braces h h' hf => cases h; cases h'; exact hf), .braces rfl rfl⟩
theorem shown_map {fs fs' : List JsField} : Shown showNumber (.map fs) (.map fs') ↔ ShownFields showNumber fs fs' :=
  ⟨fun h => (by
    cases h with
    | braces h h' hf => cases h; cases h'; exact hf), .braces rfl rfl⟩
theorem shownAll_cons {e e' : JsValue} {es es' : List JsValue} :
    ShownAll showNumber (e :: es) (e' :: es') ↔ Shown showNumber e e' ∧ ShownAll showNumber es es' :=
  ⟨fun h => (by
    cases h with
    | cons h hs => exact ⟨h, hs⟩), fun h => .cons h.1 h.2⟩
theorem shownAll_nil : ShownAll showNumber [] [] ↔ True := ⟨fun _ => trivial, fun _ => .nil⟩
theorem shownFields_cons {k k' : Str} {v v' : JsValue} {fs fs' : List JsField} :
    ShownFields showNumber (.mk k v :: fs) (.mk k' v' :: fs') ↔ (k = k' ∧ Shown showNumber v v') ∧ ShownFields showNumber fs fs' :=
  ⟨fun h => (by
    cases h with
    | cons h hs => exact ⟨⟨rfl, h⟩, hs⟩), fun ⟨⟨e, h⟩, hs⟩ => e ▸ .cons h hs⟩
theorem shownFields_nil : ShownFields showNumber [] [] ↔ True := ⟨fun _ => trivial, fun _ => .nil⟩

theorem shown_nothing : Shown showNumber .undefined .undefined ↔ True := ⟨fun _ => trivial, fun _ => .undefined⟩

theorem shown_tagged {n n' : Str} {a a' : JsValue} (h : Shown showNumber (tagged n a) (tagged n' a')) : n = n' ∧ Shown showNumber a a' := by
  simp only [tagged, shown_object, shownFields_cons, shownFields_nil, shown_string, true_and, and_true] at h
  exact h

theorem shown_first {v w : JsValue} {s s' : Str} (h : Shown showNumber v w) (hv : firstOf v = some s) (hw : firstOf w = some s') : s = s' := by
  unfold firstOf at hv hw
  split at hv
  · split at hw
    · cases hv; cases hw
      rw [shown_object, shownFields_cons, shown_string] at h
      exact h.1.2
    · cases hw
  · cases hv
theorem exprJs_look {e e' : Expr} (h : Shown showNumber (exprJs e) (exprJs e')) : exprName e = exprName e' :=
  shown_first h (exprJs_name e) (exprJs_name e')
theorem stmtJs_look {s s' : Stmt} (h : Shown showNumber (stmtJs s) (stmtJs s')) : stmtName s = stmtName s' :=
  shown_first h (stmtJs_name s) (stmtJs_name s')

theorem shown_undefined {v : JsValue} (h : Shown showNumber v .undefined) : v = .undefined := by
  cases h with
  | undefined => rfl
  | braces _ h' => cases h'
theorem undefined_shown {v : JsValue} (h : Shown showNumber .undefined v) : v = .undefined := by
  cases h with
  | undefined => rfl
  | braces h => cases h
theorem expr_undefined {e : Expr} {p : Prop} (h : Shown showNumber (exprJs e) .undefined) : p :=
  absurd (shown_undefined h) (exprJs_defined e)
theorem undefined_expr {e : Expr} {p : Prop} (h : Shown showNumber .undefined (exprJs e)) : p :=
  absurd (undefined_shown h) (exprJs_defined e)
theorem stmt_undefined {s : Stmt} {p : Prop} (h : Shown showNumber (stmtJs s) .undefined) : p :=
  absurd (shown_undefined h) (stmtJs_defined s)
theorem undefined_stmt {s : Stmt} {p : Prop} (h : Shown showNumber .undefined (stmtJs s)) : p :=
  absurd (undefined_shown h) (stmtJs_defined s)

theorem natJs_face (hI : ShowInts showNumber) {n m : Nat} (hn : n < 2 ^ 53) (hm : m < 2 ^ 53) (h : Shown showNumber (natJs n) (natJs m)) :
    n = m := hI n m hn hm (shown_number.mp h)

theorem locJs_face (hI : ShowInts showNumber) {l l' : SourceLoc} (hl : LocFits l) (hl' : LocFits l')
    (h : Shown showNumber (locJs l) (locJs l')) : l = l' := by
  obtain ⟨a, b⟩ := l
  obtain ⟨a', b'⟩ := l'
  simp only [LocFits] at hl hl'
  simp only [locJs, shown_object, shownFields_cons, shownFields_nil, true_and, and_true] at h
  rw [natJs_face hI (by omega) (by omega) h.1, natJs_face hI (by omega) (by omega) h.2]

theorem funTypeJs_face {a b : FunctionType} (h : Shown showNumber (funTypeJs a) (funTypeJs b)) : a = b := by
  cases a <;> cases b <;> first | rfl | (simp [funTypeJs, shown_string] at h)
theorem unaryJs_face {a b : UnaryOperator} (h : Shown showNumber (unaryJs a) (unaryJs b)) : a = b := by
  cases a <;> cases b <;> first | rfl | (simp [unaryJs, shown_string] at h)
theorem binaryJs_face {a b : BinaryOperator} (h : Shown showNumber (binaryJs a) (binaryJs b)) : a = b := by
  cases a <;> cases b <;> first | rfl | (simp [binaryJs, shown_string] at h)
theorem logicalJs_face {a b : LogicalOperator} (h : Shown showNumber (logicalJs a) (logicalJs b)) : a = b := by
  cases a <;> cases b <;> first | rfl | (simp [logicalJs, shown_string] at h)

theorem paramsJs_face (hI : ShowInts showNumber) : ∀ (ps ps' : List Parameter), (∀ p ∈ ps, LocFits p.loc) → (∀ p ∈ ps', LocFits p.loc) →
    ShownAll showNumber (ps.map paramJs) (ps'.map paramJs) → ps = ps'
  | [], [], _, _, _ => rfl
  | [], _ :: _, _, _, h => by simp only [List.map_cons, List.map_nil] at h; cases h
  | _ :: _, [], _, _, h => by simp only [List.map_cons, List.map_nil] at h; cases h
  | ⟨x, l⟩ :: ps, ⟨x', l'⟩ :: ps', hp, hp', h => by
    simp only [List.map_cons, paramJs, shownAll_cons, shown_object, shownFields_cons, shownFields_nil, shown_string,
      true_and, and_true] at h
    obtain ⟨⟨rfl, h2⟩, h3⟩ := h
    have hl : l = l' := locJs_face hI (hp ⟨x, l⟩ (by simp)) (hp' ⟨x, l'⟩ (by simp)) h2
    rw [hl, paramsJs_face hI ps ps' (fun p h => hp p (by simp [h])) (fun p h => hp' p (by simp [h])) h3]

/-- A node whose parts have locations that fit, maps with distinct keys, and numbers that are wanted. -/
def AllSeen (W : F64 → Prop) (n : Node) : Prop := AllFit n ∧ AllNum W n

theorem AllSeen.part {n c : Node} (h : AllSeen W n) (hc : c ∈ n.parts) : AllSeen W c := ⟨h.1.part hc, h.2.part hc⟩
theorem AllSeen.self {n : Node} (h : AllSeen W n) : Fit n ∧ DistinctKeys n := h.1.self
theorem AllSeen.num {x : F64} (h : AllSeen W (.expr (.literalNumber x))) : W x := h.2.self

-- The induction follows that of `Proofs/Js/Inj.lean`.
variable (hI : ShowInts showNumber) (hN : ∀ x y, W x → W y → showNumber x = showNumber y → x = y)
include hI hN

mutual
theorem exprJs_face : ∀ (e e' : Expr), AllSeen W (.expr e) → AllSeen W (.expr e') → Shown showNumber (exprJs e) (exprJs e') → eraseExpr (truthExpr e) = eraseExpr (truthExpr e')
  | .assign x c r l, e', hf, hf', h => by
    have hn := exprJs_look h
    cases e' <;> first | (exfalso; revert hn; simp only [exprName]; decide) | skip
    rename_i x' c' r' l'
    simp only [exprJs] at h
    have h0 := (shown_tagged h).2
    simp only [shown_array, shownAll_cons, shownAll_nil, shownFields_cons, shownFields_nil, shown_nothing, and_true] at h0
    obtain ⟨h1, h2, h3, h4⟩ := h0
    have e_x := shown_string.mp h1
    have e_r := exprJs_face r r' (hf.part (by simp [Node.parts, exprParts])) (hf'.part (by simp [Node.parts, exprParts])) h3
    have e_l := locJs_face hI hf.self.1 hf'.self.1 h4
    simp only [truthExpr, eraseExpr, e_x, e_r, e_l]
  | .call f a l, e', hf, hf', h => by
    have hn := exprJs_look h
    cases e' <;> first | (exfalso; revert hn; simp only [exprName]; decide) | skip
    rename_i f' a' l'
    simp only [exprJs] at h
    have h0 := (shown_tagged h).2
    simp only [shown_array, shownAll_cons, shownAll_nil, shownFields_cons, shownFields_nil, shown_nothing, and_true] at h0
    obtain ⟨h1, h2, h3⟩ := h0
    have e_f := exprJs_face f f' (hf.part (by simp [Node.parts, exprParts])) (hf'.part (by simp [Node.parts, exprParts])) h1
    have e_a := exprsJs_face a a' (fun y hy => hf.part (by simp [Node.parts, exprParts, hy])) (fun y hy => hf'.part (by simp [Node.parts, exprParts, hy])) h2
    have e_l := locJs_face hI hf.self.1 hf'.self.1 h3
    simp only [truthExpr, eraseExpr, e_f, e_a, e_l]
  | .binary a o b l, e', hf, hf', h => by
    have hn := exprJs_look h
    cases e' <;> first | (exfalso; revert hn; simp only [exprName]; decide) | skip
    rename_i a' o' b' l'
    simp only [exprJs] at h
    have h0 := (shown_tagged h).2
    simp only [shown_array, shownAll_cons, shownAll_nil, shownFields_cons, shownFields_nil, shown_nothing, and_true] at h0
    obtain ⟨h1, h2, h3, h4⟩ := h0
    have e_a := exprJs_face a a' (hf.part (by simp [Node.parts, exprParts])) (hf'.part (by simp [Node.parts, exprParts])) h1
    have e_o := binaryJs_face h2
    have e_b := exprJs_face b b' (hf.part (by simp [Node.parts, exprParts])) (hf'.part (by simp [Node.parts, exprParts])) h3
    have e_l := locJs_face hI hf.self.1 hf'.self.1 h4
    simp only [truthExpr, eraseExpr, e_a, e_o, e_b, e_l]
  | .function d, e', hf, hf', h => by
    have hn := exprJs_look h
    cases e' <;> first | (exfalso; revert hn; simp only [exprName]; decide) | skip
    rename_i d'
    simp only [exprJs] at h
    have h1 := (shown_tagged h).2
    have e_d := funJs_face d d' (hf.part (by simp [Node.parts, exprParts])) (hf'.part (by simp [Node.parts, exprParts])) h1
    simp only [truthExpr, eraseExpr, e_d]
  | .get o x l, e', hf, hf', h => by
    have hn := exprJs_look h
    cases e' <;> first | (exfalso; revert hn; simp only [exprName]; decide) | skip
    rename_i o' x' l'
    simp only [exprJs] at h
    have h0 := (shown_tagged h).2
    simp only [shown_array, shownAll_cons, shownAll_nil, shownFields_cons, shownFields_nil, shown_nothing, and_true] at h0
    obtain ⟨h1, h2, h3⟩ := h0
    have e_o := exprJs_face o o' (hf.part (by simp [Node.parts, exprParts])) (hf'.part (by simp [Node.parts, exprParts])) h1
    have e_x := shown_string.mp h2
    have e_l := locJs_face hI hf.self.1 hf'.self.1 h3
    simp only [truthExpr, eraseExpr, e_o, e_x, e_l]
  | .getIndex a i l, e', hf, hf', h => by
    have hn := exprJs_look h
    cases e' <;> first | (exfalso; revert hn; simp only [exprName]; decide) | skip
    rename_i a' i' l'
    simp only [exprJs] at h
    have h0 := (shown_tagged h).2
    simp only [shown_array, shownAll_cons, shownAll_nil, shownFields_cons, shownFields_nil, shown_nothing, and_true] at h0
    obtain ⟨h1, h2, h3⟩ := h0
    have e_a := exprJs_face a a' (hf.part (by simp [Node.parts, exprParts])) (hf'.part (by simp [Node.parts, exprParts])) h1
    have e_i := exprJs_face i i' (hf.part (by simp [Node.parts, exprParts])) (hf'.part (by simp [Node.parts, exprParts])) h2
    have e_l := locJs_face hI hf.self.1 hf'.self.1 h3
    simp only [truthExpr, eraseExpr, e_a, e_i, e_l]
  | .grouping a, e', hf, hf', h => by
    have hn := exprJs_look h
    cases e' <;> first | (exfalso; revert hn; simp only [exprName]; decide) | skip
    rename_i a'
    simp only [exprJs] at h
    have h1 := (shown_tagged h).2
    have e_a := exprJs_face a a' (hf.part (by simp [Node.parts, exprParts])) (hf'.part (by simp [Node.parts, exprParts])) h1
    simp only [truthExpr, eraseExpr, e_a]
  | .literalArray es, e', hf, hf', h => by
    have hn := exprJs_look h
    cases e' <;> first | (exfalso; revert hn; simp only [exprName]; decide) | skip
    rename_i es'
    simp only [exprJs] at h
    have h1 := (shown_tagged h).2
    have e_es := exprsJs_face es es' (fun y hy => hf.part (by simp [Node.parts, exprParts, hy])) (fun y hy => hf'.part (by simp [Node.parts, exprParts, hy])) (shown_array.mp h1)
    simp only [truthExpr, eraseExpr, e_es]
  | .literalBool b, e', hf, hf', h => by
    have hn := exprJs_look h
    cases e' <;> first | (exfalso; revert hn; simp only [exprName]; decide) | skip
    rename_i b'
    simp only [exprJs] at h
    have h1 := (shown_tagged h).2
    rfl
  | .literalMap ms, e', hf, hf', h => by
    have hn := exprJs_look h
    cases e' <;> first | (exfalso; revert hn; simp only [exprName]; decide) | skip
    rename_i ms'
    simp only [exprJs] at h
    have h1 := (shown_tagged h).2
    rw [map_entries hf.self.2, map_entries hf'.self.2] at h1
    have e_ms := entriesJs_face ms ms' (fun y hy => hf.part (by simp only [Node.parts, exprParts]; exact List.mem_map_of_mem hy)) (fun y hy => hf'.part (by simp only [Node.parts, exprParts]; exact List.mem_map_of_mem hy)) (shown_map.mp h1)
    simp only [truthExpr, eraseExpr, e_ms]
  | .literalNumber n, e', hf, hf', h => by
    have hn := exprJs_look h
    cases e' <;> first | (exfalso; revert hn; simp only [exprName]; decide) | skip
    rename_i n'
    simp only [exprJs] at h
    have h1 := (shown_tagged h).2
    have e_n := hN _ _ hf.num hf'.num (shown_number.mp h1)
    simp only [truthExpr, eraseExpr, e_n]
  | .literalNil, e', hf, hf', h => by
    have hn := exprJs_look h
    cases e' <;> first | (exfalso; revert hn; simp only [exprName]; decide) | skip
    rfl
  | .literalString s, e', hf, hf', h => by
    have hn := exprJs_look h
    cases e' <;> first | (exfalso; revert hn; simp only [exprName]; decide) | skip
    rename_i s'
    simp only [exprJs] at h
    have h1 := (shown_tagged h).2
    have e_s := shown_string.mp h1
    simp only [truthExpr, eraseExpr, e_s]
  | .logical a o b, e', hf, hf', h => by
    have hn := exprJs_look h
    cases e' <;> first | (exfalso; revert hn; simp only [exprName]; decide) | skip
    rename_i a' o' b'
    simp only [exprJs] at h
    have h0 := (shown_tagged h).2
    simp only [shown_array, shownAll_cons, shownAll_nil, shownFields_cons, shownFields_nil, shown_nothing, and_true] at h0
    obtain ⟨h1, h2, h3⟩ := h0
    have e_a := exprJs_face a a' (hf.part (by simp [Node.parts, exprParts])) (hf'.part (by simp [Node.parts, exprParts])) h1
    have e_o := logicalJs_face h2
    have e_b := exprJs_face b b' (hf.part (by simp [Node.parts, exprParts])) (hf'.part (by simp [Node.parts, exprParts])) h3
    simp only [truthExpr, eraseExpr, e_a, e_o, e_b]
  | .«set» o x v l, e', hf, hf', h => by
    have hn := exprJs_look h
    cases e' <;> first | (exfalso; revert hn; simp only [exprName]; decide) | skip
    rename_i o' x' v' l'
    simp only [exprJs] at h
    have h0 := (shown_tagged h).2
    simp only [shown_array, shownAll_cons, shownAll_nil, shownFields_cons, shownFields_nil, shown_nothing, and_true] at h0
    obtain ⟨h1, h2, h3, h4⟩ := h0
    have e_o := exprJs_face o o' (hf.part (by simp [Node.parts, exprParts])) (hf'.part (by simp [Node.parts, exprParts])) h1
    have e_x := shown_string.mp h2
    have e_v := exprJs_face v v' (hf.part (by simp [Node.parts, exprParts])) (hf'.part (by simp [Node.parts, exprParts])) h3
    have e_l := locJs_face hI hf.self.1 hf'.self.1 h4
    simp only [truthExpr, eraseExpr, e_o, e_x, e_v, e_l]
  | .setIndex a i v l, e', hf, hf', h => by
    have hn := exprJs_look h
    cases e' <;> first | (exfalso; revert hn; simp only [exprName]; decide) | skip
    rename_i a' i' v' l'
    simp only [exprJs] at h
    have h0 := (shown_tagged h).2
    simp only [shown_array, shownAll_cons, shownAll_nil, shownFields_cons, shownFields_nil, shown_nothing, and_true] at h0
    obtain ⟨h1, h2, h3, h4⟩ := h0
    have e_a := exprJs_face a a' (hf.part (by simp [Node.parts, exprParts])) (hf'.part (by simp [Node.parts, exprParts])) h1
    have e_i := exprJs_face i i' (hf.part (by simp [Node.parts, exprParts])) (hf'.part (by simp [Node.parts, exprParts])) h2
    have e_v := exprJs_face v v' (hf.part (by simp [Node.parts, exprParts])) (hf'.part (by simp [Node.parts, exprParts])) h3
    have e_l := locJs_face hI hf.self.1 hf'.self.1 h4
    simp only [truthExpr, eraseExpr, e_a, e_i, e_v, e_l]
  | .«super» c x l, e', hf, hf', h => by
    have hn := exprJs_look h
    cases e' <;> first | (exfalso; revert hn; simp only [exprName]; decide) | skip
    rename_i c' x' l'
    simp only [exprJs] at h
    have h0 := (shown_tagged h).2
    simp only [shown_array, shownAll_cons, shownAll_nil, shownFields_cons, shownFields_nil, shown_nothing, and_true] at h0
    obtain ⟨h1, h2, h3⟩ := h0
    have e_x := shown_string.mp h2
    have e_l := locJs_face hI hf.self.1 hf'.self.1 h3
    simp only [truthExpr, eraseExpr, e_x, e_l]
  | .variable x c l, e', hf, hf', h => by
    have hn := exprJs_look h
    cases e' <;> first | (exfalso; revert hn; simp only [exprName]; decide) | skip
    rename_i x' c' l'
    simp only [exprJs] at h
    have h0 := (shown_tagged h).2
    simp only [shown_array, shownAll_cons, shownAll_nil, shownFields_cons, shownFields_nil, shown_nothing, and_true] at h0
    obtain ⟨h1, h2, h3⟩ := h0
    have e_x := shown_string.mp h1
    have e_l := locJs_face hI hf.self.1 hf'.self.1 h3
    simp only [truthExpr, eraseExpr, e_x, e_l]
  | .unary o e l, e', hf, hf', h => by
    have hn := exprJs_look h
    cases e' <;> first | (exfalso; revert hn; simp only [exprName]; decide) | skip
    rename_i o' e' l'
    simp only [exprJs] at h
    have h0 := (shown_tagged h).2
    simp only [shown_array, shownAll_cons, shownAll_nil, shownFields_cons, shownFields_nil, shown_nothing, and_true] at h0
    obtain ⟨h1, h2, h3⟩ := h0
    have e_o := unaryJs_face h1
    have e_e := exprJs_face e e' (hf.part (by simp [Node.parts, exprParts])) (hf'.part (by simp [Node.parts, exprParts])) h2
    have e_l := locJs_face hI hf.self.1 hf'.self.1 h3
    simp only [truthExpr, eraseExpr, e_o, e_e, e_l]
theorem exprsJs_face : ∀ (es es' : List Expr), (∀ e ∈ es, AllSeen W (.expr e)) → (∀ e ∈ es', AllSeen W (.expr e)) →
    ShownAll showNumber (exprsJs es) (exprsJs es') → eraseExprs (truthExprs es) = eraseExprs (truthExprs es')
  | [], [], _, _, _ => rfl
  | [], _ :: _, _, _, h => by simp only [exprsJs] at h; cases h
  | _ :: _, [], _, _, h => by simp only [exprsJs] at h; cases h
  | e :: es, e' :: es', hf, hf', h => by
    simp only [exprsJs, shownAll_cons, shownAll_nil, shownFields_cons, shownFields_nil, shown_nothing] at h
    simp only [truthExprs, eraseExprs]
    rw [exprJs_face e e' (hf e (by simp)) (hf' e' (by simp)) h.1,
      exprsJs_face es es' (fun y hy => hf y (by simp [hy])) (fun y hy => hf' y (by simp [hy])) h.2]
theorem entriesJs_face : ∀ (ms ms' : List MapEntry), (∀ m ∈ ms, AllSeen W (.expr m.value)) → (∀ m ∈ ms', AllSeen W (.expr m.value)) →
    ShownFields showNumber (entriesJs ms) (entriesJs ms') → eraseEntries (truthEntries ms) = eraseEntries (truthEntries ms')
  | [], [], _, _, _ => rfl
  | [], .mk _ _ :: _, _, _, h => by simp only [entriesJs] at h; cases h
  | .mk _ _ :: _, [], _, _, h => by simp only [entriesJs] at h; cases h
  | .mk k v :: ms, .mk k' v' :: ms', hf, hf', h => by
    simp only [entriesJs, shownAll_cons, shownAll_nil, shownFields_cons, shownFields_nil, shown_nothing] at h
    simp only [truthEntries, eraseEntries]
    rw [h.1.1, exprJs_face v v' (hf (.mk k v) (by simp)) (hf' (.mk k' v') (by simp)) h.1.2,
      entriesJs_face ms ms' (fun y hy => hf y (by simp [hy])) (fun y hy => hf' y (by simp [hy])) h.2]
theorem funJs_face : ∀ (d d' : FunDef), AllSeen W (.fn d) → AllSeen W (.fn d') → Shown showNumber (funJs d) (funJs d') → eraseFun (truthFun d) = eraseFun (truthFun d')
  | .mk ps b t l, .mk ps' b' t' l', hf, hf', h => by
    simp only [funJs, shown_object, shownAll_cons, shownAll_nil, shownFields_cons, shownFields_nil, shown_nothing, shown_array, true_and, and_true] at h
    obtain ⟨h1, h2, h3, h4⟩ := h
    simp only [truthFun, eraseFun]
    rw [paramsJs_face hI ps ps' hf.self.1.2 hf'.self.1.2 h1, funTypeJs_face h3,
      show l = l' from locJs_face hI hf.self.1.1 hf'.self.1.1 h4,
      stmtsJs_face b b' (fun y hy => hf.part (List.mem_map_of_mem (f := Node.stmt) hy)) (fun y hy => hf'.part (List.mem_map_of_mem (f := Node.stmt) hy)) h2]
theorem namedJs_face : ∀ (m m' : NamedFun), AllSeen W (.fn m.funDef) → AllSeen W (.fn m'.funDef) → Shown showNumber (namedJs m) (namedJs m') →
    m.name = m'.name ∧ eraseFun (truthFun m.funDef) = eraseFun (truthFun m'.funDef)
  | .mk x d, .mk x' d', hf, hf', h => by
    simp only [namedJs, shown_object, shownAll_cons, shownAll_nil, shownFields_cons, shownFields_nil, shown_nothing, shown_string, true_and, and_true] at h
    exact ⟨h.1, funJs_face d d' hf hf' h.2⟩
theorem methodsJs_face : ∀ (ms ms' : List NamedFun), (∀ m ∈ ms, AllSeen W (.fn m.funDef)) → (∀ m ∈ ms', AllSeen W (.fn m.funDef)) →
    ShownAll showNumber (methodsJs ms) (methodsJs ms') → eraseMethods (truthMethods ms) = eraseMethods (truthMethods ms')
  | [], [], _, _, _ => rfl
  | [], _ :: _, _, _, h => by simp only [methodsJs] at h; cases h
  | _ :: _, [], _, _, h => by simp only [methodsJs] at h; cases h
  | .mk x d :: ms, .mk x' d' :: ms', hf, hf', h => by
    simp only [methodsJs, shownAll_cons, shownAll_nil, shownFields_cons, shownFields_nil, shown_nothing] at h
    have := namedJs_face (.mk x d) (.mk x' d') (hf _ (by simp)) (hf' _ (by simp)) h.1
    simp only [NamedFun.name, NamedFun.funDef] at this
    simp only [truthMethods, eraseMethods]
    rw [this.1, this.2, methodsJs_face ms ms' (fun y hy => hf y (by simp [hy])) (fun y hy => hf' y (by simp [hy])) h.2]
theorem stmtJs_face : ∀ (s s' : Stmt), AllSeen W (.stmt s) → AllSeen W (.stmt s') → Shown showNumber (stmtJs s) (stmtJs s') → eraseStmt (truthStmt s) = eraseStmt (truthStmt s')
  | .block b, e', hf, hf', h => by
    have hn := stmtJs_look h
    cases e' <;> first | (exfalso; revert hn; simp only [stmtName]; decide) | skip
    rename_i b'
    simp only [stmtJs] at h
    have h1 := (shown_tagged h).2
    have e_b := stmtsJs_face b b' (fun y hy => hf.part (by simp [Node.parts, stmtParts, hy])) (fun y hy => hf'.part (by simp [Node.parts, stmtParts, hy])) (shown_array.mp h1)
    simp only [truthStmt, eraseStmt, e_b]
  | .«break» l, e', hf, hf', h => by
    have hn := stmtJs_look h
    cases e' <;> first | (exfalso; revert hn; simp only [stmtName]; decide) | skip
    rename_i l'
    simp only [stmtJs] at h
    have h1 := (shown_tagged h).2
    have e_l := locJs_face hI hf.self.1 hf'.self.1 h1
    simp only [truthStmt, eraseStmt, e_l]
  | .«continue» l, e', hf, hf', h => by
    have hn := stmtJs_look h
    cases e' <;> first | (exfalso; revert hn; simp only [stmtName]; decide) | skip
    rename_i l'
    simp only [stmtJs] at h
    have h1 := (shown_tagged h).2
    have e_l := locJs_face hI hf.self.1 hf'.self.1 h1
    simp only [truthStmt, eraseStmt, e_l]
  | .expression a, e', hf, hf', h => by
    have hn := stmtJs_look h
    cases e' <;> first | (exfalso; revert hn; simp only [stmtName]; decide) | skip
    rename_i a'
    simp only [stmtJs] at h
    have h1 := (shown_tagged h).2
    have e_a := exprJs_face a a' (hf.part (by simp [Node.parts, stmtParts])) (hf'.part (by simp [Node.parts, stmtParts])) h1
    simp only [truthStmt, eraseStmt, e_a]
  | .«fun» f, e', hf, hf', h => by
    have hn := stmtJs_look h
    cases e' <;> first | (exfalso; revert hn; simp only [stmtName]; decide) | skip
    rename_i f'
    simp only [stmtJs] at h
    have h1 := (shown_tagged h).2
    have e_f := namedJs_face f f' (hf.part (by simp [Node.parts, stmtParts])) (hf'.part (by simp [Node.parts, stmtParts])) h1
    cases f; cases f'
    simp only [truthStmt, eraseStmt]
    simp only [NamedFun.name, NamedFun.funDef] at e_f
    rw [e_f.1, e_f.2]
  | .print a, e', hf, hf', h => by
    have hn := stmtJs_look h
    cases e' <;> first | (exfalso; revert hn; simp only [stmtName]; decide) | skip
    rename_i a'
    simp only [stmtJs] at h
    have h1 := (shown_tagged h).2
    have e_a := exprJs_face a a' (hf.part (by simp [Node.parts, stmtParts])) (hf'.part (by simp [Node.parts, stmtParts])) h1
    simp only [truthStmt, eraseStmt, e_a]
  | .«return» a l, e', hf, hf', h => by
    have hn := stmtJs_look h
    cases e' <;> first | (exfalso; revert hn; simp only [stmtName]; decide) | skip
    rename_i a' l'
    simp only [stmtJs] at h
    have h0 := (shown_tagged h).2
    simp only [shown_array, shownAll_cons, shownAll_nil, shownFields_cons, shownFields_nil, shown_nothing, and_true] at h0
    obtain ⟨h1, h2⟩ := h0
    have e_a := exprJs_face a a' (hf.part (by simp [Node.parts, stmtParts])) (hf'.part (by simp [Node.parts, stmtParts])) h1
    have e_l := locJs_face hI hf.self.1 hf'.self.1 h2
    simp only [truthStmt, eraseStmt, e_a, e_l]
  | .var x c a l, e', hf, hf', h => by
    have hn := stmtJs_look h
    cases e' <;> first | (exfalso; revert hn; simp only [stmtName]; decide) | skip
    rename_i x' c' a' l'
    simp only [stmtJs] at h
    have h0 := (shown_tagged h).2
    simp only [shown_array, shownAll_cons, shownAll_nil, shownFields_cons, shownFields_nil, shown_nothing, and_true] at h0
    obtain ⟨h1, h2, h3, h4⟩ := h0
    have e_x := shown_string.mp h1
    have e_a := exprJs_face a a' (hf.part (by simp [Node.parts, stmtParts])) (hf'.part (by simp [Node.parts, stmtParts])) h3
    have e_l := locJs_face hI hf.self.1 hf'.self.1 h4
    simp only [truthStmt, eraseStmt, e_x, e_a, e_l]
  | .«while» a b, e', hf, hf', h => by
    have hn := stmtJs_look h
    cases e' <;> first | (exfalso; revert hn; simp only [stmtName]; decide) | skip
    rename_i a' b'
    simp only [stmtJs] at h
    have h0 := (shown_tagged h).2
    simp only [shown_array, shownAll_cons, shownAll_nil, shownFields_cons, shownFields_nil, shown_nothing, and_true] at h0
    obtain ⟨h1, h2⟩ := h0
    have e_a := exprJs_face a a' (hf.part (by simp [Node.parts, stmtParts])) (hf'.part (by simp [Node.parts, stmtParts])) h1
    have e_b := stmtJs_face b b' (hf.part (by simp [Node.parts, stmtParts])) (hf'.part (by simp [Node.parts, stmtParts])) h2
    simp only [truthStmt, eraseStmt, e_a, e_b]
  | .whileIncrement a b i, e', hf, hf', h => by
    have hn := stmtJs_look h
    cases e' <;> first | (exfalso; revert hn; simp only [stmtName]; decide) | skip
    rename_i a' b' i'
    simp only [stmtJs] at h
    have h0 := (shown_tagged h).2
    simp only [shown_array, shownAll_cons, shownAll_nil, shownFields_cons, shownFields_nil, shown_nothing, and_true] at h0
    obtain ⟨h1, h2, h3⟩ := h0
    have e_a := exprJs_face a a' (hf.part (by simp [Node.parts, stmtParts])) (hf'.part (by simp [Node.parts, stmtParts])) h1
    have e_b := stmtJs_face b b' (hf.part (by simp [Node.parts, stmtParts])) (hf'.part (by simp [Node.parts, stmtParts])) h2
    have e_i := exprJs_face i i' (hf.part (by simp [Node.parts, stmtParts])) (hf'.part (by simp [Node.parts, stmtParts])) h3
    simp only [truthStmt, eraseStmt, e_a, e_b, e_i]
  | .«class» x none ms l, e', hf, hf', h => by
    have hn := stmtJs_look h
    cases e' <;> first | (exfalso; revert hn; simp only [stmtName]; decide) | skip
    rename_i x' p' ms' l'
    cases p' with
    | none =>
      simp only [stmtJs] at h
      have h0 := (shown_tagged h).2
      simp only [shown_object, shownAll_cons, shownAll_nil, shownFields_cons, shownFields_nil, shown_nothing, shown_string, shown_array, true_and, and_true] at h0
      obtain ⟨h1, h2, h3⟩ := h0
      have e_l := locJs_face hI hf.self.1 hf'.self.1 h3
      have e_ms := methodsJs_face ms ms' (fun y hy => hf.part (by simp only [Node.parts, stmtParts, List.mem_append]; exact .inr (List.mem_map_of_mem (f := fun m => Node.fn m.funDef) hy)))
        (fun y hy => hf'.part (by simp only [Node.parts, stmtParts, List.mem_append]; exact .inr (List.mem_map_of_mem (f := fun m => Node.fn m.funDef) hy))) h2
      simp only [truthStmt, eraseStmt, h1, e_ms, e_l]
    | some p' =>
      simp only [stmtJs] at h
      have h0 := (shown_tagged h).2
      simp only [shown_object, shownAll_cons, shownAll_nil, shownFields_cons, shownFields_nil, shown_nothing] at h0
      exact undefined_expr h0.2.1.2
  | .«class» x (some p) ms l, e', hf, hf', h => by
    have hn := stmtJs_look h
    cases e' <;> first | (exfalso; revert hn; simp only [stmtName]; decide) | skip
    rename_i x' p' ms' l'
    cases p' with
    | none =>
      simp only [stmtJs] at h
      have h0 := (shown_tagged h).2
      simp only [shown_object, shownAll_cons, shownAll_nil, shownFields_cons, shownFields_nil, shown_nothing] at h0
      exact expr_undefined h0.2.1.2
    | some p' =>
      simp only [stmtJs] at h
      have h0 := (shown_tagged h).2
      simp only [shown_object, shownAll_cons, shownAll_nil, shownFields_cons, shownFields_nil, shown_nothing, shown_string, shown_array, true_and, and_true] at h0
      obtain ⟨h1, hp, h2, h3⟩ := h0
      have e_l := locJs_face hI hf.self.1 hf'.self.1 h3
      have e_p := exprJs_face p p' (hf.part (by simp [Node.parts, stmtParts])) (hf'.part (by simp [Node.parts, stmtParts])) hp
      have e_ms := methodsJs_face ms ms' (fun y hy => hf.part (by simp only [Node.parts, stmtParts, List.mem_append]; exact .inr (List.mem_map_of_mem (f := fun m => Node.fn m.funDef) hy)))
        (fun y hy => hf'.part (by simp only [Node.parts, stmtParts, List.mem_append]; exact .inr (List.mem_map_of_mem (f := fun m => Node.fn m.funDef) hy))) h2
      simp only [truthStmt, eraseStmt, h1, e_p, e_ms, e_l]
  | .«if» c a none, e', hf, hf', h => by
    have hn := stmtJs_look h
    cases e' <;> first | (exfalso; revert hn; simp only [stmtName]; decide) | skip
    rename_i c' a' b'
    cases b' with
    | none =>
      simp only [stmtJs] at h
      have h0 := (shown_tagged h).2
      simp only [shown_array, shownAll_cons, shownAll_nil, shownFields_cons, shownFields_nil, shown_nothing, and_true] at h0
      have e_c := exprJs_face c c' (hf.part (by simp [Node.parts, stmtParts])) (hf'.part (by simp [Node.parts, stmtParts])) h0.1
      have e_a := stmtJs_face a a' (hf.part (by simp [Node.parts, stmtParts])) (hf'.part (by simp [Node.parts, stmtParts])) h0.2
      simp only [truthStmt, eraseStmt, e_c, e_a]
    | some b' =>
      simp only [stmtJs] at h
      have h0 := (shown_tagged h).2
      simp only [shown_array, shownAll_cons, shownAll_nil, shownFields_cons, shownFields_nil, shown_nothing, and_true] at h0
      exact undefined_stmt h0.2.2
  | .«if» c a (some b), e', hf, hf', h => by
    have hn := stmtJs_look h
    cases e' <;> first | (exfalso; revert hn; simp only [stmtName]; decide) | skip
    rename_i c' a' b'
    cases b' with
    | none =>
      simp only [stmtJs] at h
      have h0 := (shown_tagged h).2
      simp only [shown_array, shownAll_cons, shownAll_nil, shownFields_cons, shownFields_nil, shown_nothing, and_true] at h0
      exact stmt_undefined h0.2.2
    | some b' =>
      simp only [stmtJs] at h
      have h0 := (shown_tagged h).2
      simp only [shown_array, shownAll_cons, shownAll_nil, shownFields_cons, shownFields_nil, shown_nothing, and_true] at h0
      have e_c := exprJs_face c c' (hf.part (by simp [Node.parts, stmtParts])) (hf'.part (by simp [Node.parts, stmtParts])) h0.1
      have e_a := stmtJs_face a a' (hf.part (by simp [Node.parts, stmtParts])) (hf'.part (by simp [Node.parts, stmtParts])) h0.2.1
      have e_b := stmtJs_face b b' (hf.part (by simp [Node.parts, stmtParts])) (hf'.part (by simp [Node.parts, stmtParts])) h0.2.2
      simp only [truthStmt, eraseStmt, e_c, e_a, e_b]
theorem stmtsJs_face : ∀ (ss ss' : List Stmt), (∀ s ∈ ss, AllSeen W (.stmt s)) → (∀ s ∈ ss', AllSeen W (.stmt s)) →
    ShownAll showNumber (stmtsJs ss) (stmtsJs ss') → eraseStmts (truthStmts ss) = eraseStmts (truthStmts ss')
  | [], [], _, _, _ => rfl
  | [], _ :: _, _, _, h => by simp only [stmtsJs] at h; cases h
  | _ :: _, [], _, _, h => by simp only [stmtsJs] at h; cases h
  | s :: ss, s' :: ss', hf, hf', h => by
    simp only [stmtsJs, shownAll_cons, shownAll_nil, shownFields_cons, shownFields_nil, shown_nothing] at h
    simp only [truthStmts, eraseStmts]
    rw [stmtJs_face s s' (hf s (by simp)) (hf' s' (by simp)) h.1,
      stmtsJs_face ss ss' (fun y hy => hf y (by simp [hy])) (fun y hy => hf' y (by simp [hy])) h.2]
end

end Ws
