import Verif.Proofs.Js.Message
import Verif.Spec.Page
/-! The text of a value on the demo page determines the value, up to what is true and false (C91). -/
namespace Ws
open Spec

variable {showNumber : F64 → Str}

/-! ### Strings and keys -/

theorem jsonChar_cases (c : Char) :
    (∃ k ∈ [('"', '"'), ('\\', '\\'), ('\x08', 'b'), ('\x0c', 'f'), ('\n', 'n'), ('\r', 'r'), ('\t', 't')],
        c = k.1 ∧ jsonChar c = ['\\', k.2]) ∨
      (c.toNat < 32 ∧ jsonChar c = ['\\', 'u', '0', '0', hexDigit (c.toNat / 16), hexDigit (c.toNat % 16)]) ∨
      (c ≠ '"' ∧ c ≠ '\\' ∧ jsonChar c = [c]) := by
  by_cases h1 : c = '"'
  · subst h1; exact .inl ⟨('"', '"'), by simp, rfl, rfl⟩
  by_cases h2 : c = '\\'
  · subst h2; exact .inl ⟨('\\', '\\'), by simp, rfl, rfl⟩
  by_cases h3 : c = '\x08'
  · subst h3; exact .inl ⟨('\x08', 'b'), by simp, rfl, rfl⟩
  by_cases h4 : c = '\x0c'
  · subst h4; exact .inl ⟨('\x0c', 'f'), by simp, rfl, rfl⟩
  by_cases h5 : c = '\n'
  · subst h5; exact .inl ⟨('\n', 'n'), by simp, rfl, rfl⟩
  by_cases h6 : c = '\r'
  · subst h6; exact .inl ⟨('\r', 'r'), by simp, rfl, rfl⟩
  by_cases h7 : c = '\t'
  · subst h7; exact .inl ⟨('\t', 't'), by simp, rfl, rfl⟩
  by_cases h8 : c.toNat < 32
  · refine .inr (.inl ⟨h8, ?_⟩)
    simp [jsonChar, h1, h2, h3, h4, h5, h6, h7, h8]
  · refine .inr (.inr ⟨h1, h2, ?_⟩)
    simp [jsonChar, h1, h2, h3, h4, h5, h6, h7, h8]

theorem jsonChar_head {c x : Char} {r t : Str} (h : jsonChar c ++ r = x :: t) : x ≠ '"' := by
  rcases jsonChar_cases c with ⟨k, -, -, e⟩ | ⟨-, e⟩ | ⟨h1, -, e⟩ <;> rw [e] at h <;> cases h
  · decide
  · decide
  · exact h1

theorem jsonChar_cut {c d : Char} {r t : Str} (h : jsonChar c ++ r = jsonChar d ++ t) : c = d ∧ r = t := by
  rcases jsonChar_cases c with ⟨k, hk, rfl, e⟩ | ⟨hc, e⟩ | ⟨h1, h2, e⟩ <;>
    rcases jsonChar_cases d with ⟨k', hk', rfl, e'⟩ | ⟨hd, e'⟩ | ⟨h1', h2', e'⟩ <;> rw [e, e'] at h <;>
    simp only [List.cons_append, List.nil_append, List.cons.injEq, true_and] at h
  · refine ⟨?_, h.2⟩
    have h := h.1
    simp only [List.mem_cons, List.not_mem_nil, or_false] at hk hk'
    rcases hk with rfl | rfl | rfl | rfl | rfl | rfl | rfl <;>
      rcases hk' with rfl | rfl | rfl | rfl | rfl | rfl | rfl <;> first | rfl | (revert h; decide)
  · exfalso
    have h := h.1
    simp only [List.mem_cons, List.not_mem_nil, or_false] at hk
    rcases hk with rfl | rfl | rfl | rfl | rfl | rfl | rfl <;> revert h <;> decide
  · exact absurd h.1.symm h2'
  · exfalso
    have h := h.1
    simp only [List.mem_cons, List.not_mem_nil, or_false] at hk'
    rcases hk' with rfl | rfl | rfl | rfl | rfl | rfl | rfl <;> revert h <;> decide
  · obtain ⟨ha, hb, hr⟩ := h
    have e1 := hexDigit_inj (by omega) (by omega) ha
    have e2 := hexDigit_inj (by omega) (by omega) hb
    refine ⟨Char.toNat_inj.mp (by omega), hr⟩
  · exact absurd h.1.symm h2'
  · exact absurd h.1 h2
  · exact absurd h.1 h2
  · exact h

theorem json_cut : ∀ {s s' r r' : Str}, s.flatMap jsonChar ++ '"' :: r = s'.flatMap jsonChar ++ '"' :: r' → s = s' ∧ r = r'
  | [], [], _, _, h => by simpa using h
  | [], c :: s', r, r', h => by
    simp only [List.flatMap_nil, List.nil_append, List.flatMap_cons, List.append_assoc] at h
    exact absurd rfl (jsonChar_head h.symm)
  | c :: s, [], r, r', h => by
    simp only [List.flatMap_nil, List.nil_append, List.flatMap_cons, List.append_assoc] at h
    exact absurd rfl (jsonChar_head h)
  | c :: s, d :: s', r, r', h => by
    simp only [List.flatMap_cons, List.append_assoc] at h
    obtain ⟨e, h'⟩ := jsonChar_cut h
    obtain ⟨e1, e2⟩ := json_cut h'
    exact ⟨by rw [e, e1], e2⟩

theorem escapeString_cut {s s' r r' : Str} (h : escapeString s ++ r = escapeString s' ++ r') : s = s' ∧ r = r' := by
  simp only [escapeString, List.cons_append, List.append_assoc, List.cons.injEq, true_and, List.nil_append] at h
  exact json_cut h

theorem identifier_chars {s : Str} (h : jsIdentifier s = true) : ∀ c ∈ s, c ≠ ':' ∧ c ≠ '"' := by
  have key : ∀ c : Char, (jsLetter c || c.isDigit) = true → c ≠ ':' ∧ c ≠ '"' := by
    rintro c hc
    constructor <;> rintro rfl <;> revert hc <;> decide
  cases s with
  | nil => simp
  | cons c s =>
    simp only [jsIdentifier, Bool.and_eq_true, List.all_eq_true] at h
    intro d hd
    rcases List.mem_cons.mp hd with rfl | hd
    · exact key _ (by rw [h.1]; rfl)
    · exact key _ (h.2 d hd)

theorem key_cut {k k' r r' : Str} (h : escapeMapKey k ++ ':' :: r = escapeMapKey k' ++ ':' :: r') : k = k' ∧ r = r' := by
  have bare : ∀ {k : Str}, (jsIdentifier k && !jsReserved.contains k) = true → ∀ c ∈ k, c ≠ ':' ∧ c ≠ '"' := by
    intro k h
    rw [Bool.and_eq_true] at h
    exact identifier_chars h.1
  have mixed : ∀ {k k' r r' : Str}, (jsIdentifier k && !jsReserved.contains k) = true → k ++ ':' :: r ≠ escapeString k' ++ r' := by
    intro k k' r r' hk e
    cases k with
    | nil => simp [jsIdentifier] at hk
    | cons c k =>
      simp only [escapeString, List.cons_append, List.cons.injEq] at e
      exact (bare hk c (by simp)).2 e.1
  unfold escapeMapKey at h
  split at h <;> rename_i h1 <;> split at h <;> rename_i h2
  · obtain ⟨h3, -, h4⟩ := span_unique (P := (· ≠ ':')) (fun c hc => (bare h1 c hc).1) (fun c hc => (bare h2 c hc).1)
      (by simp) (by simp) h
    exact ⟨h3, h4⟩
  · exact absurd h (mixed h1)
  · exact absurd h.symm (mixed h2)
  · obtain ⟨h3, h4⟩ := escapeString_cut h
    simp only [List.cons.injEq, true_and] at h4
    exact ⟨h3, h4⟩

/-! ### Values -/

/-- A value is followed by a comma or nothing. -/
def Delim (r : Str) : Prop := r = [] ∨ ∃ t, r = ',' :: t

/-- How the text of a value begins. -/
inductive Look where
  | word | number | string | array | braces

def lookOf : JsValue → Look
  | .undefined => .word
  | .number _ => .number
  | .string _ => .string
  | .array _ => .array
  | .bool _ | .object _ | .map _ => .braces

theorem pretty_braces {pre : Str} {v : JsValue} {fs : List JsField} (h : shownFields v = some fs) :
    pretty showNumber pre v = '\n' :: pre ++ '{' :: (prettyFields showNumber pre fs ++ '\n' :: pre ++ ['}']) := by
  cases v <;> simp only [shownFields, Option.some.injEq, reduceCtorEq] at h <;> subst h <;> simp [pretty, prettyFields]

theorem sort_braces {v : JsValue} (h : lookOf v = .braces) : ∃ fs, shownFields v = some fs := by
  cases v <;> first | (cases h; done) | exact ⟨_, rfl⟩

theorem sort_first (hs : ShowLaws showNumber) (pre r : Str) (v : JsValue) :
    match lookOf v with
    | .word => ∃ t, pretty showNumber pre v ++ r = 'u' :: t
    | .number => ∃ c t, pretty showNumber pre v ++ r = c :: t ∧ c ∉ ['"', '\n', 'u']
    | .string => ∃ t, pretty showNumber pre v ++ r = '"' :: t
    | .array => ∃ t, pretty showNumber pre v ++ r = '\n' :: (pre ++ '[' :: t)
    | .braces => ∃ t, pretty showNumber pre v ++ r = '\n' :: (pre ++ '{' :: t) := by
  cases v with
  | undefined => exact ⟨_, rfl⟩
  | number x =>
    obtain ⟨c, t, e, h⟩ := hs.first x
    exact ⟨c, t ++ r, by simp [pretty, e], h⟩
  | string s => exact ⟨_, rfl⟩
  | array es => exact ⟨prettyItems showNumber pre es ++ '\n' :: pre ++ [']'] ++ r, by simp [pretty]⟩
  | map fs => exact ⟨prettyFields showNumber pre fs ++ '\n' :: pre ++ ['}'] ++ r, by simp [pretty]⟩
  | object fs => exact ⟨prettyFields showNumber pre fs ++ '\n' :: pre ++ ['}'] ++ r, by simp [pretty]⟩
  | bool b => exact ⟨'\n' :: pre ++ ['}'] ++ r, by simp [pretty]⟩

theorem sort_same (hs : ShowLaws showNumber) {pre r r' : Str} {v w : JsValue} (h : pretty showNumber pre v ++ r = pretty showNumber pre w ++ r') :
    lookOf v = lookOf w := by
  have h1 := sort_first hs pre r v
  have h2 := sort_first hs pre r' w
  rw [← h] at h2
  generalize pretty showNumber pre v ++ r = x at h1 h2
  generalize lookOf v = a at h1 ⊢
  generalize lookOf w = b at h2 ⊢
  cases a <;> cases b <;> first
    | rfl
    | (exfalso
       simp only at h1 h2
       first
         | (obtain ⟨t, rfl⟩ := h1; obtain ⟨t', e⟩ := h2; simp at e; done)
         | (obtain ⟨t, rfl⟩ := h1; obtain ⟨c, t', e, hc⟩ := h2; cases e; revert hc; simp; done)
         | (obtain ⟨c, t, rfl, hc⟩ := h1; obtain ⟨t', e⟩ := h2; cases e; revert hc; simp; done))

theorem number_cut (hs : ShowLaws showNumber) {x y : F64} {r r' : Str} (hr : Delim r) (hr' : Delim r') (h : showNumber x ++ r = showNumber y ++ r') :
    showNumber x = showNumber y ∧ r = r' := by
  have key : ∀ {a b t : Str}, ',' ∉ b → a ++ ',' :: t ≠ b := by rintro a b t hb rfl; exact hb (by simp)
  rcases hr with rfl | ⟨t, rfl⟩ <;> rcases hr' with rfl | ⟨t', rfl⟩
  · simp only [List.append_nil] at h; exact ⟨h, rfl⟩
  · simp only [List.append_nil] at h; exact absurd h.symm (key (hs.comma _))
  · simp only [List.append_nil] at h; exact absurd h (key (hs.comma _))
  · obtain ⟨h1, -, h2⟩ := span_unique (P := (· ≠ ',')) (fun c hc e => hs.comma x (e ▸ hc)) (fun c hc e => hs.comma y (e ▸ hc))
      (by simp) (by simp) h
    exact ⟨h1, by rw [h2]⟩

mutual
theorem pretty_cut (hs : ShowLaws showNumber) : ∀ (v w : JsValue) (pre r r' : Str), Delim r → Delim r' →
    pretty showNumber pre v ++ r = pretty showNumber pre w ++ r' → Shown showNumber v w ∧ r = r'
  | .undefined, w, pre, r, r', hr, hr', h => by
    have := sort_same hs h
    cases w <;> first | (cases this; done) | skip
    exact ⟨.undefined, by simpa [pretty] using h⟩
  | .number x, w, pre, r, r', hr, hr', h => by
    have := sort_same hs h
    cases w <;> first | (cases this; done) | skip
    rename_i y
    obtain ⟨h1, h2⟩ := number_cut hs hr hr' (by simpa [pretty] using h)
    exact ⟨.number h1, h2⟩
  | .string s, w, pre, r, r', hr, hr', h => by
    have := sort_same hs h
    cases w <;> first | (cases this; done) | skip
    rename_i s'
    obtain ⟨rfl, h2⟩ := escapeString_cut (by simpa [pretty] using h)
    exact ⟨.string _, h2⟩
  | .array es, w, pre, r, r', hr, hr', h => by
    have := sort_same hs h
    cases w <;> first | (cases this; done) | skip
    rename_i es'
    simp only [pretty, List.cons_append, List.append_assoc, List.cons.injEq, true_and, List.append_cancel_left_eq] at h
    obtain ⟨h1, h2⟩ := prettyItems_cut hs es es' pre r r' (by simpa using h)
    exact ⟨.array h1, h2⟩
  | .map fs, w, pre, r, r', hr, hr', h => by
    obtain ⟨fs', hw⟩ := sort_braces (sort_same hs h).symm
    rw [pretty_braces hw] at h
    simp only [pretty, List.cons_append, List.append_assoc, List.cons.injEq, true_and, List.append_cancel_left_eq] at h
    obtain ⟨h1, h2⟩ := prettyFields_cut hs fs fs' pre r r' (by simpa using h)
    exact ⟨.braces rfl hw h1, h2⟩
  | .object fs, w, pre, r, r', hr, hr', h => by
    obtain ⟨fs', hw⟩ := sort_braces (sort_same hs h).symm
    rw [pretty_braces hw] at h
    simp only [pretty, List.cons_append, List.append_assoc, List.cons.injEq, true_and, List.append_cancel_left_eq] at h
    obtain ⟨h1, h2⟩ := prettyFields_cut hs fs fs' pre r r' (by simpa using h)
    exact ⟨.braces rfl hw h1, h2⟩
  | .bool b, w, pre, r, r', hr, hr', h => by
    obtain ⟨fs', hw⟩ := sort_braces (sort_same hs h).symm
    rw [pretty_braces hw] at h
    simp only [pretty, List.cons_append, List.append_assoc, List.cons.injEq, true_and, List.append_cancel_left_eq] at h
    cases fs' with
    | nil => 
      simp only [prettyFields, List.nil_append, List.cons.injEq, true_and, List.append_cancel_left_eq] at h
      exact ⟨.braces rfl hw .nil, h⟩
    | cons f fs' =>
      obtain ⟨k, v⟩ := f
      simp [prettyFields] at h
theorem prettyItems_cut (hs : ShowLaws showNumber) : ∀ (es es' : List JsValue) (pre r r' : Str),
    prettyItems showNumber pre es ++ '\n' :: (pre ++ ']' :: r) = prettyItems showNumber pre es' ++ '\n' :: (pre ++ ']' :: r') →
    ShownAll showNumber es es' ∧ r = r'
  | [], [], pre, r, r', h => by
    simp [prettyItems] at h
    exact ⟨.nil, h⟩
  | [], e' :: es', pre, r, r', h => by simp [prettyItems] at h
  | e :: es, [], pre, r, r', h => by simp [prettyItems] at h
  | e :: es, e' :: es', pre, r, r', h => by
    simp only [prettyItems, List.cons_append, List.append_assoc, List.cons.injEq, true_and, List.append_cancel_left_eq] at h
    obtain ⟨h1, h2⟩ := pretty_cut hs e e' _ _ _ (.inr ⟨_, rfl⟩) (.inr ⟨_, rfl⟩) (by simpa using h)
    simp only [List.cons.injEq, true_and] at h2
    obtain ⟨h3, h4⟩ := prettyItems_cut hs es es' pre r r' h2
    exact ⟨.cons h1 h3, h4⟩
theorem prettyFields_cut (hs : ShowLaws showNumber) : ∀ (fs fs' : List JsField) (pre r r' : Str),
    prettyFields showNumber pre fs ++ '\n' :: (pre ++ '}' :: r) = prettyFields showNumber pre fs' ++ '\n' :: (pre ++ '}' :: r') →
    ShownFields showNumber fs fs' ∧ r = r'
  | [], [], pre, r, r', h => by
    simp [prettyFields] at h
    exact ⟨.nil, h⟩
  | [], .mk k' v' :: fs', pre, r, r', h => by simp [prettyFields] at h
  | .mk k v :: fs, [], pre, r, r', h => by simp [prettyFields] at h
  | .mk k v :: fs, .mk k' v' :: fs', pre, r, r', h => by
    simp only [prettyFields, List.cons_append, List.append_assoc, List.cons.injEq, true_and, List.append_cancel_left_eq] at h
    obtain ⟨rfl, hv⟩ := key_cut (r := ' ' :: (pretty showNumber (pre ++ c!"  ") v ++ ',' :: (prettyFields showNumber pre fs ++ '\n' :: (pre ++ '}' :: r))))
      (r' := ' ' :: (pretty showNumber (pre ++ c!"  ") v' ++ ',' :: (prettyFields showNumber pre fs' ++ '\n' :: (pre ++ '}' :: r')))) (by simpa using h)
    simp only [List.cons.injEq, true_and] at hv
    obtain ⟨h1, h2⟩ := pretty_cut hs v v' _ _ _ (.inr ⟨_, rfl⟩) (.inr ⟨_, rfl⟩) hv
    simp only [List.cons.injEq, true_and] at h2
    obtain ⟨h3, h4⟩ := prettyFields_cut hs fs fs' pre r r' h2
    exact ⟨.cons h1 h3, h4⟩
end

mutual
theorem alike_pretty : ∀ {v w : JsValue}, Shown showNumber v w → ∀ pre, pretty showNumber pre v = pretty showNumber pre w
  | _, _, .undefined, _ => rfl
  | _, _, .number h, _ => by simp [pretty, h]
  | _, _, .string _, _ => rfl
  | _, _, .array h, pre => by simp [pretty, alike_items h pre]
  | _, _, .braces h h' hf, pre => by rw [pretty_braces h, pretty_braces h', alike_fields hf pre]
theorem alike_items : ∀ {es es' : List JsValue}, ShownAll showNumber es es' → ∀ pre, prettyItems showNumber pre es = prettyItems showNumber pre es'
  | _, _, .nil, _ => rfl
  | _, _, .cons h hs, pre => by simp [prettyItems, alike_pretty h, alike_items hs pre]
theorem alike_fields : ∀ {fs fs' : List JsField}, ShownFields showNumber fs fs' → ∀ pre, prettyFields showNumber pre fs = prettyFields showNumber pre fs'
  | _, _, .nil, _ => rfl
  | _, _, .cons h hs, pre => by simp [prettyFields, alike_pretty h, alike_fields hs pre]
end

end Ws
