import Verif.Model.Js
/-! Errors with the same text are the same. -/
namespace Ws

/-- Two ways of reading characters with `P` up to one without. -/
theorem span_unique {α : Type} {P : α → Prop} : ∀ {a a' : List α} {c c' : α} {r r' : List α}, (∀ x ∈ a, P x) → (∀ x ∈ a', P x) →
    ¬ P c → ¬ P c' → a ++ c :: r = a' ++ c' :: r' → a = a' ∧ c = c' ∧ r = r'
  | [], [], c, c', r, r', _, _, _, _, h => by simpa using h
  | [], x :: a', c, c', r, r', _, h2, h3, _, h => by
    simp only [List.nil_append, List.cons_append, List.cons.injEq] at h
    exact absurd (h2 x (by simp)) (h.1 ▸ h3)
  | x :: a, [], c, c', r, r', h1, _, _, h4, h => by
    simp only [List.nil_append, List.cons_append, List.cons.injEq] at h
    exact absurd (h1 x (by simp)) (h.1 ▸ h4)
  | x :: a, y :: a', c, c', r, r', h1, h2, h3, h4, h => by
    simp only [List.cons_append, List.cons.injEq] at h
    obtain ⟨h0, h⟩ := h
    obtain ⟨h6, h5⟩ := span_unique (fun x hx => h1 x (by simp [hx])) (fun x hx => h2 x (by simp [hx])) h3 h4 h
    exact ⟨by rw [h0, h6], h5⟩

/-! ### Numbers -/

theorem digit_char {n : Nat} (h : n < 10) : (Char.ofNat (48 + n)).toNat = 48 + n := by
  have : n = 0 ∨ n = 1 ∨ n = 2 ∨ n = 3 ∨ n = 4 ∨ n = 5 ∨ n = 6 ∨ n = 7 ∨ n = 8 ∨ n = 9 := by omega
  rcases this with rfl | rfl | rfl | rfl | rfl | rfl | rfl | rfl | rfl | rfl <;> rfl

/-- A decimal digit. -/
def DecDigit (c : Char) : Prop := 48 ≤ c.toNat ∧ c.toNat ≤ 57

theorem digit_dec {n : Nat} (h : n < 10) : DecDigit (Char.ofNat (48 + n)) := by
  unfold DecDigit
  rw [digit_char h]
  omega

theorem decimal_digits (n : Nat) : ∀ c ∈ decimal n, DecDigit c := by
  induction n using decimal.induct with
  | case1 n h =>
    rw [decimal, if_pos h]
    simpa using digit_dec h
  | case2 n h ih =>
    rw [decimal, if_neg h]
    intro c hc
    rcases List.mem_append.mp hc with hc | hc
    · exact ih c hc
    · rw [List.mem_singleton.mp hc]
      exact digit_dec (by omega)

theorem decimal_head (n : Nat) : ∃ c r, decimal n = c :: r ∧ DecDigit c := by
  cases h : decimal n with
  | nil =>
    rw [decimal] at h
    split at h <;> simp at h
  | cons c r => exact ⟨c, r, rfl, decimal_digits n c (by rw [h]; simp)⟩

theorem decimal_small {n : Nat} (h : n < 10) : decimal n = [Char.ofNat (48 + n)] := by rw [decimal, if_pos h]
theorem decimal_big {n : Nat} (h : ¬ n < 10) : decimal n = decimal (n / 10) ++ [Char.ofNat (48 + n % 10)] := by
  rw [decimal, if_neg h]

theorem decimal_inj {n m : Nat} (h : decimal n = decimal m) : n = m := by
  induction n using decimal.induct generalizing m with
  | case1 n hn =>
    rw [decimal_small hn] at h
    by_cases hm : m < 10
    · rw [decimal_small hm] at h
      have := congrArg Char.toNat (List.cons.inj h).1
      rw [digit_char hn, digit_char hm] at this
      omega
    · rw [decimal_big hm] at h
      obtain ⟨c, r, hd, _⟩ := decimal_head (m / 10)
      rw [hd] at h
      simp at h
  | case2 n hn ih =>
    rw [decimal_big hn] at h
    by_cases hm : m < 10
    · rw [decimal_small hm] at h
      obtain ⟨c, r, hd, _⟩ := decimal_head (n / 10)
      rw [hd] at h
      simp at h
    · rw [decimal_big hm] at h
      obtain ⟨h1, h2⟩ := List.append_inj' h rfl
      have := congrArg Char.toNat (List.cons.inj h2).1
      rw [digit_char (by omega), digit_char (by omega)] at this
      have := ih h1
      omega

theorem decimal_cut {n m : Nat} {c c' : Char} {r r' : Str} (hc : ¬ DecDigit c) (hc' : ¬ DecDigit c')
    (h : decimal n ++ c :: r = decimal m ++ c' :: r') : n = m ∧ c = c' ∧ r = r' := by
  obtain ⟨h1, h2⟩ := span_unique (decimal_digits n) (decimal_digits m) hc hc' h
  exact ⟨decimal_inj h1, h2⟩

theorem hexDigit_toNat {n : Nat} (h : n < 16) : (hexDigit n).toNat = if n < 10 then 48 + n else 87 + n := by
  have : n = 0 ∨ n = 1 ∨ n = 2 ∨ n = 3 ∨ n = 4 ∨ n = 5 ∨ n = 6 ∨ n = 7 ∨ n = 8 ∨ n = 9 ∨ n = 10 ∨ n = 11 ∨ n = 12 ∨ n = 13 ∨
    n = 14 ∨ n = 15 := by omega
  rcases this with rfl | rfl | rfl | rfl | rfl | rfl | rfl | rfl | rfl | rfl | rfl | rfl | rfl | rfl | rfl | rfl <;> rfl

theorem hexDigit_inj {n m : Nat} (hn : n < 16) (hm : m < 16) (h : hexDigit n = hexDigit m) : n = m := by
  have := congrArg Char.toNat h
  rw [hexDigit_toNat hn, hexDigit_toNat hm] at this
  split at this <;> split at this <;> omega

theorem hexDigit_brace {n : Nat} (h : n < 16) : hexDigit n ≠ '}' := by
  intro e
  have := congrArg Char.toNat e
  rw [hexDigit_toNat h, show ('}' : Char).toNat = 125 from rfl] at this
  split at this <;> omega

theorem hex_digits (n : Nat) : ∀ c ∈ hex n, c ≠ '}' := by
  induction n using hex.induct with
  | case1 n h =>
    rw [hex, if_pos h]
    simpa using hexDigit_brace h
  | case2 n h ih =>
    rw [hex, if_neg h]
    intro c hc
    rcases List.mem_append.mp hc with hc | hc
    · exact ih c hc
    · rw [List.mem_singleton.mp hc]
      exact hexDigit_brace (by omega)

theorem hex_ne_nil (n : Nat) : hex n ≠ [] := by
  rw [hex]
  split <;> simp

theorem hex_small {n : Nat} (h : n < 16) : hex n = [hexDigit n] := by rw [hex, if_pos h]
theorem hex_big {n : Nat} (h : ¬ n < 16) : hex n = hex (n / 16) ++ [hexDigit (n % 16)] := by rw [hex, if_neg h]

theorem hex_inj {n m : Nat} (h : hex n = hex m) : n = m := by
  induction n using hex.induct generalizing m with
  | case1 n hn =>
    rw [hex_small hn] at h
    by_cases hm : m < 16
    · rw [hex_small hm] at h
      exact hexDigit_inj hn hm (List.cons.inj h).1
    · rw [hex_big hm] at h
      have h1 := congrArg List.length h
      have h2 := List.length_pos_iff.mpr (hex_ne_nil (m / 16))
      simp only [List.length_append, List.length_singleton] at h1
      omega
  | case2 n hn ih =>
    rw [hex_big hn] at h
    by_cases hm : m < 16
    · rw [hex_small hm] at h
      have h1 := congrArg List.length h
      have h2 := List.length_pos_iff.mpr (hex_ne_nil (n / 16))
      simp only [List.length_append, List.length_singleton] at h1
      omega
    · rw [hex_big hm] at h
      obtain ⟨h1, h2⟩ := List.append_inj' h rfl
      have := hexDigit_inj (Nat.mod_lt _ (by omega)) (Nat.mod_lt _ (by omega)) (List.cons.inj h2).1
      have := ih h1
      omega

/-! ### Quoted text -/

variable {escaped : Char → Bool}

/-- What stands for a character, as one of three kinds. -/
inductive Quoted : Char → Str → Prop
  | plain (c : Char) : c ≠ '"' → c ≠ '\\' → Quoted c [c]
  | short (c d : Char) : (c, d) ∈ [('\x00', '0'), ('\t', 't'), ('\r', 'r'), ('\n', 'n'), ('"', '"'), ('\\', '\\')] → Quoted c ['\\', d]
  | code (c : Char) : Quoted c ('\\' :: 'u' :: '{' :: (hex c.toNat ++ ['}']))

theorem debugChar_quoted (c : Char) : Quoted c (debugChar escaped c) := by
  unfold debugChar
  split
  · rename_i h; subst h; exact .short _ _ (by simp)
  split
  · rename_i h; subst h; exact .short _ _ (by simp)
  split
  · rename_i h; subst h; exact .short _ _ (by simp)
  split
  · rename_i h; subst h; exact .short _ _ (by simp)
  split
  · rename_i h; subst h; exact .short _ _ (by simp)
  split
  · rename_i h; subst h; exact .short _ _ (by simp)
  split
  · exact .code c
  · exact .plain c (by assumption) (by assumption)

theorem quoted_cut {c c' : Char} {s s' r r' : Str} (h : Quoted c s) (h' : Quoted c' s') (e : s ++ r = s' ++ r') :
    c = c' ∧ r = r' := by
  cases h with
  | plain h1 h2 =>
    cases h' with
    | plain h3 h4 => simpa using e
    | short d hd => simp only [List.cons_append, List.cons.injEq] at e; exact absurd e.1 h2
    | code => simp only [List.cons_append, List.cons.injEq] at e; exact absurd e.1 h2
  | short d hd =>
    cases h' with
    | plain h3 h4 => simp only [List.cons_append, List.cons.injEq] at e; exact absurd e.1.symm h4
    | short d' hd' =>
      simp only [List.cons_append, List.cons.injEq, true_and, List.nil_append] at e
      obtain ⟨rfl, rfl⟩ := e
      refine ⟨?_, rfl⟩
      simp only [List.mem_cons, Prod.mk.injEq, List.not_mem_nil, or_false] at hd hd'
      rcases hd with ⟨rfl, rfl⟩ | ⟨rfl, rfl⟩ | ⟨rfl, rfl⟩ | ⟨rfl, rfl⟩ | ⟨rfl, rfl⟩ | ⟨rfl, rfl⟩ <;>
        (symm; simpa using hd')
    | code =>
      simp only [List.cons_append, List.cons.injEq, true_and] at e
      rw [e.1] at hd
      simp at hd
  | code =>
    cases h' with
    | plain h3 h4 => simp only [List.cons_append, List.cons.injEq] at e; exact absurd e.1.symm h4
    | short d' hd' =>
      simp only [List.cons_append, List.cons.injEq, true_and] at e
      rw [← e.1] at hd'
      simp at hd'
    | code =>
      simp only [List.cons_append, List.cons.injEq, true_and, List.append_assoc, List.nil_append] at e
      obtain ⟨h1, _, h2⟩ := span_unique (hex_digits _) (hex_digits _) (by simp) (by simp) e
      exact ⟨Char.toNat_inj.mp (hex_inj h1), h2⟩

theorem quoted_start {c : Char} {s r : Str} (h : Quoted c s) {x : Char} {t : Str} (e : s ++ r = x :: t) : x ≠ '"' := by
  cases h with
  | plain h1 h2 =>
    simp only [List.cons_append, List.cons.injEq] at e
    exact e.1 ▸ h1
  | short d hd =>
    simp only [List.cons_append, List.cons.injEq] at e
    rw [← e.1]
    decide
  | code =>
    simp only [List.cons_append, List.cons.injEq] at e
    rw [← e.1]
    decide

theorem debugChars_cut : ∀ {s s' r r' : Str}, s.flatMap (debugChar escaped) ++ '"' :: r = s'.flatMap (debugChar escaped) ++ '"' :: r' →
    s = s' ∧ r = r'
  | [], [], r, r', h => by simpa using h
  | [], c :: s', r, r', h => by
    rw [List.flatMap_nil, List.nil_append, List.flatMap_cons, List.append_assoc] at h
    exact absurd rfl (quoted_start (debugChar_quoted c) h.symm)
  | c :: s, [], r, r', h => by
    rw [List.flatMap_nil, List.nil_append, List.flatMap_cons, List.append_assoc] at h
    exact absurd rfl (quoted_start (debugChar_quoted c) h)
  | c :: s, c' :: s', r, r', h => by
    rw [List.flatMap_cons, List.flatMap_cons, List.append_assoc, List.append_assoc] at h
    obtain ⟨h1, h2⟩ := quoted_cut (debugChar_quoted c) (debugChar_quoted c') h
    obtain ⟨h3, h4⟩ := debugChars_cut h2
    exact ⟨by rw [h1, h3], h4⟩

/-! ### Errors -/

/-- A text without an empty line. -/
def OneBlock (m : Str) : Prop := ∀ a b, m ≠ a ++ '\n' :: '\n' :: b

theorem block_cut {m m' r r' : Str} (hm : OneBlock m) (hm' : OneBlock m') (hr : r.head? ≠ some '\n') (hr' : r'.head? ≠ some '\n')
    (h : m ++ '\n' :: '\n' :: r = m' ++ '\n' :: '\n' :: r') : m = m' ∧ r = r' := by
  induction m generalizing m' with
  | nil =>
    match m' with
    | [] => simpa using h
    | [c] =>
      simp only [List.nil_append, List.cons_append, List.cons.injEq, true_and] at h
      rw [h.2] at hr
      simp at hr
    | c :: d :: m'' =>
      simp only [List.nil_append, List.cons_append, List.cons.injEq] at h
      obtain ⟨rfl, rfl, _⟩ := h
      exact absurd rfl (hm' [] m'')
  | cons c m ih =>
    match m' with
    | [] =>
      match m with
      | [] =>
        simp only [List.nil_append, List.cons_append, List.cons.injEq, true_and] at h
        rw [← h.2] at hr'
        simp at hr'
      | d :: m'' =>
        simp only [List.nil_append, List.cons_append, List.cons.injEq] at h
        obtain ⟨rfl, rfl, _⟩ := h
        exact absurd rfl (hm [] m'')
    | c' :: m' =>
      simp only [List.cons_append, List.cons.injEq] at h
      obtain ⟨h0, h1⟩ := h
      obtain ⟨h2, h3⟩ := ih (fun a b e => hm (c :: a) b (by rw [e]; rfl)) (fun a b e => hm' (c' :: a) b (by rw [e]; rfl)) h1
      exact ⟨by rw [h0, h2], h3⟩

theorem colon_dec : ¬ DecDigit ':' := by unfold DecDigit; decide
theorem space_dec : ¬ DecDigit ' ' := by unfold DecDigit; decide
theorem newline_dec : ¬ DecDigit '\n' := by unfold DecDigit; decide

theorem display_head (es : ParseError) : (displayError escaped es).head? ≠ some '\n' := by
  cases es with
  | nil => simp [displayError]
  | cons c es =>
    obtain ⟨d, r, hd, hdig⟩ := decimal_head c.loc.line
    have : ∃ x, displayError escaped (c :: es) = d :: x := by
      unfold displayError displayCause
      rw [List.flatMap_cons]
      split <;> simp [hd]
    obtain ⟨x, hx⟩ := this
    rw [hx]
    simp only [List.head?_cons, ne_eq, Option.some.injEq]
    rintro rfl
    exact newline_dec hdig

theorem cause_cut {c c' : Cause} {r r' : Str} (hm : OneBlock c.message.toList) (hm' : OneBlock c'.message.toList)
    (hr : r.head? ≠ some '\n') (hr' : r'.head? ≠ some '\n')
    (h : displayCause escaped c ++ c!"\n" ++ r = displayCause escaped c' ++ c!"\n" ++ r') : c = c' ∧ r = r' := by
  obtain ⟨⟨l, k⟩, t, m⟩ := c
  obtain ⟨⟨l', k'⟩, t', m'⟩ := c'
  have hx : ∀ {m m' : String} {l k l' k' : Nat} {t t' : Option Str} {r r' : Str}, l = l' → k = k' → t = t' →
      m.toList = m'.toList ∧ r = r' → (⟨⟨l, k⟩, t, m⟩ : Cause) = ⟨⟨l', k'⟩, t', m'⟩ ∧ r = r' := by
    rintro m m' l k l' k' t t' r r' rfl rfl rfl ⟨h, rfl⟩
    rw [String.toList_inj.mp h]
    exact ⟨rfl, rfl⟩
  cases t with
  | none =>
    cases t' with
    | none =>
      simp only [displayCause, List.append_assoc, List.cons_append, List.nil_append] at h
      obtain ⟨h1, _, h⟩ := decimal_cut colon_dec colon_dec h
      obtain ⟨h2, _, h⟩ := decimal_cut colon_dec colon_dec h
      exact hx h1 h2 rfl (block_cut hm hm' hr hr' (List.cons.inj h).2)
    | some t' =>
      simp only [displayCause, List.append_assoc, List.cons_append, List.nil_append] at h
      obtain ⟨h1, _, h⟩ := decimal_cut colon_dec colon_dec h
      obtain ⟨h2, h, _⟩ := decimal_cut colon_dec space_dec h
      cases h
  | some t =>
    cases t' with
    | none =>
      simp only [displayCause, List.append_assoc, List.cons_append, List.nil_append] at h
      obtain ⟨h1, _, h⟩ := decimal_cut colon_dec colon_dec h
      obtain ⟨h2, h, _⟩ := decimal_cut space_dec colon_dec h
      cases h
    | some t' =>
      simp only [displayCause, debugStr, List.append_assoc, List.cons_append, List.nil_append] at h
      obtain ⟨h1, _, h⟩ := decimal_cut colon_dec colon_dec h
      obtain ⟨h2, _, h⟩ := decimal_cut space_dec space_dec h
      simp only [List.cons.injEq, true_and] at h
      obtain ⟨h3, h⟩ := debugChars_cut h
      simp only [List.cons.injEq, true_and] at h
      exact hx h1 h2 (by rw [h3]) (block_cut hm hm' hr hr' h)

theorem displayError_inj : ∀ {es es' : ParseError}, (∀ c ∈ es, OneBlock c.message.toList) → (∀ c ∈ es', OneBlock c.message.toList) →
    displayError escaped es = displayError escaped es' → es = es'
  | [], [], _, _, _ => rfl
  | [], c :: es, _, _, h => by
    unfold displayError displayCause at h
    rw [List.flatMap_cons] at h
    split at h <;> simp at h
  | c :: es, [], _, _, h => by
    unfold displayError displayCause at h
    rw [List.flatMap_cons] at h
    split at h <;> simp at h
  | c :: es, c' :: es', hm, hm', h => by
    have h : displayCause escaped c ++ c!"\n" ++ displayError escaped es = displayCause escaped c' ++ c!"\n" ++ displayError escaped es' := h
    obtain ⟨h1, h2⟩ := cause_cut (hm c (by simp)) (hm' c' (by simp)) (display_head es) (display_head es') h
    rw [h1, displayError_inj (fun x hx => hm x (by simp [hx])) (fun x hx => hm' x (by simp [hx])) h2]

end Ws
