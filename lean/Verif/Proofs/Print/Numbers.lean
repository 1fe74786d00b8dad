import Verif.Proofs.Print.Fine
import Verif.Proofs.Print.Tree
import Verif.Properties.Messages
/-! The numbers of an accepted program are those of its text; what is printed of it determines it. -/
namespace Ws
open Spec Properties

variable {env : Env} {source : Str} {repl : Bool} {sts sts' : List Stmt} {rs rs' : Resolver} {st : Style}

theorem token_written (hE : EnvLaws env) {ts : List Token} (h : scanTokens env source = .done (.ok ts)) {t : Token} (ht : t ∈ ts)
    (hk : t.tokenType = .number) {x : F64} (hx : t.floatLiteral = some x) : Written env x := by
  obtain ⟨_, whole, frac, _, h1, h2, h3, h4, _, _, h5⟩ := number_value hE h ht hk
  refine ⟨t.lexeme, ?_, by rw [← h4, hx]⟩
  rcases h5 with ⟨_, h5, _⟩ | ⟨_, h5, h6⟩
  · exact ⟨_, frac.flatten, (digits_flatten h2).2 h1, (digits_flatten h2).1, (digits_flatten h3).1, .inl h5⟩
  · exact ⟨_, _, (digits_flatten h2).2 h1, (digits_flatten h2).1, (digits_flatten h3).1, .inr ⟨h5, (digits_flatten h3).2 h6⟩⟩

theorem run_numbers (hE : EnvLaws env) (hS : Fits env source) (h : run env rs source repl = .done (.ok sts, rs')) :
    ∀ s ∈ sts, AllNum (Written env) (.stmt s) := by
  have h := run_stages.mp h
  generalize hr : Except.ok sts = r at h
  cases h with
  | scan _ => cases hr
  | parse _ _ => cases hr
  | @resolve ts ast _ _ h1 h2 h3 =>
    subst hr
    have ha : Accepts env repl source ast := by rw [Accepts, parseIn_ok h1, h2]
    intro s hs x hx
    have he := only_locations h3
    rw [eraseStmts_eq, eraseStmts_eq] at he
    have : eraseStmt s ∈ ast.map eraseStmt := by rw [← he]; exact List.mem_map_of_mem hs
    obtain ⟨s0, hs0, e⟩ := List.mem_map.mp this
    obtain ⟨y, hy, e'⟩ := within_of_erase (within_erase hx) (.stmt s0) (by simp only [eraseNode, e])
    have hy' : y = .expr (.literalNumber x) := by
      cases y with
      | expr y => cases y <;> simp [eraseNode, eraseExpr] at e' ⊢; exact e'.symm
      | stmt y => simp [eraseNode] at e'
      | fn y => simp [eraseNode] at e'
    subst hy'
    obtain ⟨t, ht, hk, hx⟩ := names_from_tokens hE hS ha h1 ⟨s0, hs0, hy⟩
    exact token_written hE h1 ht hk hx

theorem style_floats (hst : StyleLaws env st) : OkFloats st (Written env) where
  text := fun x ⟨s, h1, h2⟩ => hst.number s x h1 h2
  differ := fun x y ⟨s, h1, h2⟩ ⟨s', h1', h2'⟩ h => hst.differ s x s' y h1 h2 h1' h2' h

theorem statements_cut (hst : StyleLaws env st) (h : ∀ s ∈ sts, AllNum (Written env) (.stmt s))
    (h' : ∀ s ∈ sts', AllNum (Written env) (.stmt s)) {r r' : Str}
    (e : (Dbg.list (stmtsDbg sts)).text st ++ '\n' :: r = (Dbg.list (stmtsDbg sts')).text st ++ '\n' :: r') :
    sts = sts' ∧ r = r' := by
  obtain ⟨h1, _, h2⟩ := text_cut (style_floats hst) (.list (stmtsDbg sts)) (.list (stmtsDbg sts')) (stmtsDbg_fine sts h) (stmtsDbg_fine sts' h')
    (.inr rfl) (.inr rfl) e
  exact ⟨stmtsDbg_inj _ _ (Dbg.list.inj h1), h2⟩

theorem statements_start (st : Style) (sts : List Stmt) : ∃ r, (Dbg.list (stmtsDbg sts)).text st = '[' :: r := by
  cases stmtsDbg sts <;> exact ⟨_, by rw [Dbg.text]; first | done | rfl⟩

/-! ### Lines of errors -/

/-- At most one newline, at the end. -/
def OneLine (m : Str) : Prop := ∃ x e, m = x ++ e ∧ (∀ c ∈ x, c ≠ '\n') ∧ (e = [] ∨ e = ['\n'])

theorem line_cut {m m' r r' : Str} (hm : OneLine m) (hm' : OneLine m') (hr : r.head? ≠ some '\n') (hr' : r'.head? ≠ some '\n')
    (h : m ++ '\n' :: r = m' ++ '\n' :: r') : m = m' ∧ r = r' := by
  obtain ⟨x, e, rfl, hx, he⟩ := hm
  obtain ⟨x', e', rfl, hx', he'⟩ := hm'
  rcases he with rfl | rfl <;> rcases he' with rfl | rfl <;> simp only [List.append_nil, List.append_assoc, List.cons_append, List.nil_append] at h ⊢
  · obtain ⟨h1, _, h2⟩ := span_unique hx hx' (by simp) (by simp) h
    exact ⟨h1, h2⟩
  · obtain ⟨h1, _, h2⟩ := span_unique hx hx' (by simp) (by simp) h
    rw [h2] at hr
    simp at hr
  · obtain ⟨h1, _, h2⟩ := span_unique hx hx' (by simp) (by simp) h
    rw [← h2] at hr'
    simp at hr'
  · obtain ⟨h1, _, h2⟩ := span_unique hx hx' (by simp) (by simp) h
    exact ⟨by rw [h1], (List.cons.inj h2).2⟩

/-- The line of an error, as characters. -/
def lineText (c : Cause) : Str :=
  match c.token with
  | none => c!"[line " ++ decimal c.loc.line ++ ':' :: (decimal c.loc.column ++ c!"] Error: " ++ c.message.toList)
  | some t => c!"[line " ++ decimal c.loc.line ++ ':' :: (decimal c.loc.column ++ c!"] Error at '" ++ t ++ '\'' :: ':' :: ' ' :: c.message.toList)

theorem digits_decimal (n : Nat) : Nat.toDigits 10 n = decimal n := by
  induction n using decimal.induct with
  | case1 n h =>
    rw [Nat.toDigits_of_lt_base h, decimal_small h]
    have : n = 0 ∨ n = 1 ∨ n = 2 ∨ n = 3 ∨ n = 4 ∨ n = 5 ∨ n = 6 ∨ n = 7 ∨ n = 8 ∨ n = 9 := by omega
    rcases this with rfl | rfl | rfl | rfl | rfl | rfl | rfl | rfl | rfl | rfl <;> rfl
  | case2 n h ih =>
    rw [Nat.toDigits_of_base_le (by omega) (by omega), ih, decimal_big h]
    have : ∀ k, k < 10 → Nat.digitChar k = Char.ofNat (48 + k) := by decide
    rw [this _ (Nat.mod_lt _ (by omega))]

theorem reportError_text (c : Cause) : (reportError c).toList = lineText c := by
  unfold reportError lineText
  have hs : ∀ s : String, toString s = s := fun _ => rfl
  cases c.token <;> simp [String.toList_append, digits_decimal, hs]

/-- All lines. -/
def linesText (es : ParseError) : Str := es.flatMap fun c => lineText c ++ c!"\n"

theorem lines_head (es : ParseError) : (linesText es).head? ≠ some '\n' := by
  cases es with
  | nil => simp [linesText]
  | cons c es =>
    rw [linesText, List.flatMap_cons, lineText]
    split <;> simp

theorem bracket_dec : ¬ DecDigit ']' := by unfold DecDigit; decide

theorem error_line_cut {c c' : Cause} {r r' : Str} (hm : OneLine c.message.toList) (hm' : OneLine c'.message.toList)
    (ht : ∀ t, c.token = some t → '\'' ∉ t) (ht' : ∀ t, c'.token = some t → '\'' ∉ t)
    (hr : r.head? ≠ some '\n') (hr' : r'.head? ≠ some '\n')
    (h : lineText c ++ '\n' :: r = lineText c' ++ '\n' :: r') : c = c' ∧ r = r' := by
  obtain ⟨⟨l, k⟩, t, m⟩ := c
  obtain ⟨⟨l', k'⟩, t', m'⟩ := c'
  have hx : ∀ {m m' : String} {l k l' k' : Nat} {t t' : Option Str} {r r' : Str}, l = l' → k = k' → t = t' →
      m.toList = m'.toList ∧ r = r' → (⟨⟨l, k⟩, t, m⟩ : Cause) = ⟨⟨l', k'⟩, t', m'⟩ ∧ r = r' := by
    rintro m m' l k l' k' t t' r r' rfl rfl rfl ⟨h, rfl⟩
    rw [String.toList_inj.mp h]
    exact ⟨rfl, rfl⟩
  cases t with
  | none =>
    cases t' with
    | none =>
      simp only [lineText, List.append_assoc, List.cons_append, List.nil_append, List.cons.injEq, true_and] at h
      obtain ⟨h1, _, h⟩ := decimal_cut colon_dec colon_dec h
      obtain ⟨h2, _, h⟩ := decimal_cut bracket_dec bracket_dec h
      simp only [List.cons.injEq, true_and] at h
      exact hx h1 h2 rfl (line_cut hm hm' hr hr' h)
    | some t' =>
      simp only [lineText, List.append_assoc, List.cons_append, List.nil_append, List.cons.injEq, true_and] at h
      obtain ⟨h1, _, h⟩ := decimal_cut colon_dec colon_dec h
      obtain ⟨h2, _, h⟩ := decimal_cut bracket_dec bracket_dec h
      simp at h
  | some t =>
    cases t' with
    | none =>
      simp only [lineText, List.append_assoc, List.cons_append, List.nil_append, List.cons.injEq, true_and] at h
      obtain ⟨h1, _, h⟩ := decimal_cut colon_dec colon_dec h
      obtain ⟨h2, _, h⟩ := decimal_cut bracket_dec bracket_dec h
      simp at h
    | some t' =>
      simp only [lineText, List.append_assoc, List.cons_append, List.nil_append, List.cons.injEq, true_and] at h
      obtain ⟨h1, _, h⟩ := decimal_cut colon_dec colon_dec h
      obtain ⟨h2, _, h⟩ := decimal_cut bracket_dec bracket_dec h
      simp only [List.cons.injEq, true_and] at h
      have ht := ht t rfl
      have ht' := ht' t' rfl
      obtain ⟨h3, _, h⟩ := span_unique (P := fun c => c ≠ '\'') (fun c hc e => ht (e ▸ hc)) (fun c hc e => ht' (e ▸ hc)) (by simp) (by simp) h
      simp only [List.cons.injEq, true_and] at h
      exact hx h1 h2 (by rw [h3]) (line_cut hm hm' hr hr' h)

theorem linesText_inj : ∀ {es es' : ParseError}, (∀ c ∈ es, OneLine c.message.toList ∧ ∀ t, c.token = some t → '\'' ∉ t) →
    (∀ c ∈ es', OneLine c.message.toList ∧ ∀ t, c.token = some t → '\'' ∉ t) → linesText es = linesText es' → es = es'
  | [], [], _, _, _ => rfl
  | [], c :: es, _, _, h => by
    unfold linesText lineText at h
    rw [List.flatMap_cons] at h
    split at h <;> simp at h
  | c :: es, [], _, _, h => by
    unfold linesText lineText at h
    rw [List.flatMap_cons] at h
    split at h <;> simp at h
  | c :: es, c' :: es', hm, hm', h => by
    have e : ∀ c (es : ParseError), linesText (c :: es) = lineText c ++ '\n' :: linesText es := by
      intro c es
      rw [linesText, List.flatMap_cons]
      simp [linesText]
    rw [e, e] at h
    obtain ⟨h1, h2⟩ := error_line_cut (hm c (by simp)).1 (hm' c' (by simp)).1 (hm c (by simp)).2 (hm' c' (by simp)).2
      (lines_head es) (lines_head es') h
    rw [h1, linesText_inj (fun x hx => hm x (by simp [hx])) (fun x hx => hm' x (by simp [hx])) h2]

end Ws
