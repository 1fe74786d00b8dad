import Verif.Spec.Style
import Verif.Proofs.Js.Message
/-! What is printed with the same text is the same. -/
namespace Ws
open Spec

/-! ### Indentation -/

/-- Nothing, or whole lines. -/
def Whole (s : Str) : Prop := ∀ c, s.getLast? = some c → c = '\n'

theorem pad_append (x s : Str) : ∀ b, padFrom b (x ++ '\n' :: s) = padFrom b (x ++ ['\n']) ++ padFrom true s := by
  induction x with
  | nil => intro b; cases b <;> simp [padFrom]
  | cons c x ih => intro b; cases b <;> simp [padFrom, ih]

theorem pad_cut : ∀ {a a' : Str} {b : Bool} {c c' : Char} {r r' : Str}, Whole a → Whole a' → c ≠ ' ' → c' ≠ ' ' →
    (b = false → a ≠ [] ∧ a' ≠ []) → padFrom b a ++ c :: r = padFrom b a' ++ c' :: r' → a = a' ∧ c = c' ∧ r = r'
  | [], [], b, c, c', r, r', _, _, _, _, _, h => by cases b <;> simpa [padFrom] using h
  | [], x :: s, b, c, c', r, r', _, _, hc, _, hb, h => by
    cases b with
    | false => exact absurd rfl (hb rfl).1
    | true =>
      simp only [padFrom, List.nil_append, List.cons_append, List.cons.injEq] at h
      exact absurd h.1 hc
  | x :: s, [], b, c, c', r, r', _, _, _, hc, hb, h => by
    cases b with
    | false => exact absurd rfl (hb rfl).2
    | true =>
      simp only [padFrom, List.nil_append, List.cons_append, List.cons.injEq] at h
      exact absurd h.1.symm hc
  | x :: s, y :: s', b, c, c', r, r', ha, ha', hc, hc', _, h => by
    have h' : x = y ∧ padFrom (x == '\n') s ++ c :: r = padFrom (y == '\n') s' ++ c' :: r' := by
      cases b <;> simpa [padFrom] using h
    obtain ⟨rfl, h'⟩ := h'
    have tail : ∀ {s : Str}, Whole (x :: s) → Whole s ∧ ((x == '\n') = false → s ≠ []) := by
      intro s hs
      constructor
      · intro c hc
        cases s with
        | nil => simp at hc
        | cons d s => exact hs c (by rw [List.getLast?_cons_cons]; exact hc)
      · rintro hx rfl
        have := hs x (by simp)
        simp [this] at hx
    obtain ⟨h1, h2⟩ := tail ha
    obtain ⟨h3, h4⟩ := tail ha'
    obtain ⟨h5, h6⟩ := pad_cut h1 h3 hc hc' (fun e => ⟨h2 e, h4 e⟩) h'
    exact ⟨by rw [h5], h6⟩

/-! ### Words -/

/-- The characters of numbers and names. -/
def wordChar (c : Char) : Bool := c.isAlphanum || c == '.' || c == '-' || c == '_'

/-- A name. -/
def Named (s : Str) : Prop := s.all wordChar = true

theorem Named.mem {s : Str} (h : Named s) : ∀ c ∈ s, wordChar c = true := by simpa [Named] using h

/-- Written as is, and not like a float. -/
def Worded (s : Str) : Prop := Named s ∧ ¬ FloatText s

theorem digit_word {c : Char} (h : c.isDigit = true) : wordChar c = true := by simp [wordChar, Char.isAlphanum, h]

theorem float_named {s : Str} (h : FloatText s) : Named s := by
  rcases h with rfl | ⟨h, _⟩
  · rfl
  · rw [Named, List.all_eq_true]
    intro c hc
    rcases h c hc with h | h
    · exact digit_word h
    · simp only [List.mem_cons, List.not_mem_nil, or_false] at h
      rcases h with rfl | rfl | rfl <;> decide

/-- A word that begins with something other than a digit is not a float. -/
theorem worded_name {s : Str} (h : (s.all wordChar && s != c!"inf" && !(s.head?.any Char.isDigit)) = true) : Worded s := by
  simp only [Bool.and_eq_true, bne_iff_ne, ne_eq, Bool.not_eq_true'] at h
  obtain ⟨⟨h1, h2⟩, h3⟩ := h
  refine ⟨h1, ?_⟩
  rintro (h | ⟨_, ⟨d, r, rfl, hd⟩, _⟩)
  · exact h2 h
  · simp [hd] at h3

theorem dec_isDigit {c : Char} (h : DecDigit c) : c.isDigit = true := by
  obtain ⟨h1, h2⟩ := h
  simp only [Char.isDigit, Bool.and_eq_true, decide_eq_true_eq]
  exact ⟨h1, h2⟩

theorem worded_decimal (n : Nat) : Worded (decimal n) := by
  have hd : ∀ c ∈ decimal n, c.isDigit = true := fun c hc => dec_isDigit (decimal_digits n c hc)
  refine ⟨?_, ?_⟩
  · rw [Named, List.all_eq_true]
    exact fun c hc => digit_word (hd c hc)
  · rintro (h | ⟨_, _, h | h⟩)
    · have := hd 'i' (by rw [h]; simp)
      revert this
      decide
    · have := hd _ h
      revert this
      decide
    · have := hd _ h
      revert this
      decide

/-! ### Values -/

mutual
/-- Names are names, and numbers are among those wanted. -/
def Dbg.Fine (ok : F64 → Prop) : Dbg → Prop
  | .word s => Worded s
  | .float x => ok x
  | .str _ => True
  | .tuple name fields => Named name ∧ fields ≠ [] ∧ FineAll ok fields
  | .struct name fields => Named name ∧ fields ≠ [] ∧ FineFields ok fields
  | .list elements => FineAll ok elements
  | .map entries => FineEntries ok entries
def FineAll (ok : F64 → Prop) : List Dbg → Prop
  | [] => True
  | d :: ds => d.Fine ok ∧ FineAll ok ds
def FineFields (ok : F64 → Prop) : List DbgField → Prop
  | [] => True
  | .mk name d :: ds => Named name ∧ d.Fine ok ∧ FineFields ok ds
def FineEntries (ok : F64 → Prop) : List DbgField → Prop
  | [] => True
  | .mk _ d :: ds => d.Fine ok ∧ FineEntries ok ds
end

variable {st : Style}

/-- What is indented in a tuple or a list. -/
def elementsBody (st : Style) : List Dbg → Str
  | [] => []
  | d :: ds => d.text st ++ ',' :: '\n' :: elementsBody st ds
def fieldsBody (st : Style) : List DbgField → Str
  | [] => []
  | .mk name d :: ds => name ++ ':' :: ' ' :: (d.text st ++ ',' :: '\n' :: fieldsBody st ds)
def entriesBody (st : Style) : List DbgField → Str
  | [] => []
  | .mk key d :: ds => debugStr st.escaped key ++ ':' :: ' ' :: (d.text st ++ ',' :: '\n' :: entriesBody st ds)

theorem whole_append {x s : Str} (h : Whole s) : Whole (x ++ '\n' :: s) := by
  intro c hc
  cases s with
  | nil => simpa using hc.symm
  | cons d s =>
    rw [List.getLast?_append, List.getLast?_cons_cons, List.getLast?_cons] at hc
    exact h c (by rw [List.getLast?_cons]; simpa using hc)

theorem elements_pad : ∀ ds, elementsText st ds = padFrom true (elementsBody st ds) ∧ Whole (elementsBody st ds)
  | [] => ⟨by simp [elementsText, elementsBody, padFrom], by simp [Whole, elementsBody]⟩
  | d :: ds => by
    obtain ⟨h1, h2⟩ := elements_pad ds
    have e : elementsBody st (d :: ds) = (d.text st ++ [',']) ++ '\n' :: elementsBody st ds := by simp [elementsBody]
    rw [e]
    refine ⟨?_, whole_append h2⟩
    rw [pad_append, elementsText, h1]
    simp

theorem fields_pad : ∀ ds, fieldsText st ds = padFrom true (fieldsBody st ds) ∧ Whole (fieldsBody st ds)
  | [] => ⟨by simp [fieldsText, fieldsBody, padFrom], by simp [Whole, fieldsBody]⟩
  | .mk x d :: ds => by
    obtain ⟨h1, h2⟩ := fields_pad ds
    have e : fieldsBody st (.mk x d :: ds) = (x ++ ':' :: ' ' :: (d.text st ++ [','])) ++ '\n' :: fieldsBody st ds := by
      simp [fieldsBody]
    rw [e]
    refine ⟨?_, whole_append h2⟩
    rw [pad_append, fieldsText, h1]
    simp

theorem entries_pad : ∀ ds, entriesText st ds = padFrom true (entriesBody st ds) ∧ Whole (entriesBody st ds)
  | [] => ⟨by simp [entriesText, entriesBody, padFrom], by simp [Whole, entriesBody]⟩
  | .mk x d :: ds => by
    obtain ⟨h1, h2⟩ := entries_pad ds
    have e : entriesBody st (.mk x d :: ds) =
        (debugStr st.escaped x ++ ':' :: ' ' :: (d.text st ++ [','])) ++ '\n' :: entriesBody st ds := by
      simp [entriesBody]
    rw [e]
    refine ⟨?_, whole_append h2⟩
    rw [pad_append, entriesText, h1]
    simp

theorem elements_cut {ds ds' : List Dbg} {c c' : Char} {r r' : Str} (hc : c ≠ ' ') (hc' : c' ≠ ' ')
    (h : elementsText st ds ++ c :: r = elementsText st ds' ++ c' :: r') : elementsBody st ds = elementsBody st ds' ∧ c = c' ∧ r = r' := by
  rw [(elements_pad ds).1, (elements_pad ds').1] at h
  exact pad_cut (elements_pad ds).2 (elements_pad ds').2 hc hc' (by simp) h

theorem fields_cut {ds ds' : List DbgField} {c c' : Char} {r r' : Str} (hc : c ≠ ' ') (hc' : c' ≠ ' ')
    (h : fieldsText st ds ++ c :: r = fieldsText st ds' ++ c' :: r') : fieldsBody st ds = fieldsBody st ds' ∧ c = c' ∧ r = r' := by
  rw [(fields_pad ds).1, (fields_pad ds').1] at h
  exact pad_cut (fields_pad ds).2 (fields_pad ds').2 hc hc' (by simp) h

theorem entries_cut {ds ds' : List DbgField} {c c' : Char} {r r' : Str} (hc : c ≠ ' ') (hc' : c' ≠ ' ')
    (h : entriesText st ds ++ c :: r = entriesText st ds' ++ c' :: r') : entriesBody st ds = entriesBody st ds' ∧ c = c' ∧ r = r' := by
  rw [(entries_pad ds).1, (entries_pad ds').1] at h
  exact pad_cut (entries_pad ds).2 (entries_pad ds').2 hc hc' (by simp) h

/-! ### How a text begins -/

/-- The word that a text begins with, -/
def leadWord (st : Style) : Dbg → Str
  | .word s => s
  | .float x => st.float x
  | .tuple name _ => name
  | .struct name _ => name
  | _ => []
/-- the character after it, where `c` follows, -/
def leadChar (c : Char) : Dbg → Char
  | .word _ | .float _ => c
  | .str _ => '"'
  | .tuple _ _ => '('
  | .struct _ _ => ' '
  | .list _ => '['
  | .map _ => '{'
/-- and the rest. -/
def leadRest (st : Style) (c : Char) (r : Str) : Dbg → Str
  | .word _ | .float _ => r
  | .str s => s.flatMap (debugChar st.escaped) ++ '"' :: c :: r
  | .tuple _ fs => '\n' :: (elementsText st fs ++ ')' :: c :: r)
  | .struct _ fs => '{' :: '\n' :: (fieldsText st fs ++ '}' :: c :: r)
  | .list [] => ']' :: c :: r
  | .list (x :: xs) => '\n' :: (elementsText st (x :: xs) ++ ']' :: c :: r)
  | .map [] => '}' :: c :: r
  | .map (e :: es) => '\n' :: (entriesText st (e :: es) ++ '}' :: c :: r)

/-- What follows a value. -/
def Closes (c : Char) : Prop := c = ',' ∨ c = '\n'

theorem text_lead {ok : F64 → Prop} {d : Dbg} (hd : d.Fine ok) (c : Char) (r : Str) :
    d.text st ++ c :: r = leadWord st d ++ leadChar c d :: leadRest st c r d := by
  cases d with
  | word s => rw [Dbg.text]; rfl
  | float x => rw [Dbg.text]; rfl
  | str s => simp [Dbg.text, debugStr, leadWord, leadChar, leadRest]
  | tuple name fs =>
    cases fs with
    | nil => exact absurd rfl hd.2.1
    | cons f fs => simp [Dbg.text, leadWord, leadChar, leadRest]
  | struct name fs =>
    cases fs with
    | nil => exact absurd rfl hd.2.1
    | cons f fs => simp [Dbg.text, leadWord, leadChar, leadRest]
  | list xs => cases xs <;> simp [Dbg.text, leadWord, leadChar, leadRest]
  | map es => cases es <;> simp [Dbg.text, leadWord, leadChar, leadRest]

/-- What is needed of the floats. -/
structure OkFloats (st : Style) (ok : F64 → Prop) : Prop where
  text : ∀ x, ok x → FloatText (st.float x)
  differ : ∀ x y, ok x → ok y → st.float x = st.float y → x = y

variable {ok : F64 → Prop}

theorem lead_named (hk : OkFloats st ok) {d : Dbg} (hd : d.Fine ok) : Named (leadWord st d) := by
  cases d with
  | word s => exact hd.1
  | float x => exact float_named (hk.text x hd)
  | tuple name fs => exact hd.1
  | struct name fs => exact hd.1
  | _ => rfl

theorem lead_other {c : Char} (hc : Closes c) (d : Dbg) : ¬ wordChar (leadChar c d) = true := by
  cases d <;> simp only [leadChar] <;> first | decide | (rcases hc with rfl | rfl <;> decide)

theorem lead_cut (hk : OkFloats st ok) {d d' : Dbg} (hd : d.Fine ok) (hd' : d'.Fine ok) {c c' : Char} {r r' : Str}
    (hc : Closes c) (hc' : Closes c') (h : d.text st ++ c :: r = d'.text st ++ c' :: r') :
    leadWord st d = leadWord st d' ∧ leadChar c d = leadChar c' d' ∧ leadRest st c r d = leadRest st c' r' d' := by
  rw [text_lead hd, text_lead hd'] at h
  exact span_unique (lead_named hk hd).mem (lead_named hk hd').mem (lead_other hc d) (lead_other hc' d') h

theorem colon_word : ¬ wordChar ':' = true := by decide

theorem quoted_rest {s s' r r' : Str} (h : debugStr st.escaped s ++ r = debugStr st.escaped s' ++ r') : s = s' ∧ r = r' := by
  simp only [debugStr, List.cons_append, List.append_assoc, List.nil_append, List.cons.injEq, true_and] at h
  exact debugChars_cut h

/-- Nothing is written like a closing character alone. -/
theorem body_nil {d : Dbg} {ds : List Dbg} : elementsBody st (d :: ds) ≠ [] := by simp [elementsBody]

mutual
theorem text_cut (hk : OkFloats st ok) : ∀ (d d' : Dbg), d.Fine ok → d'.Fine ok → ∀ {c c' : Char} {r r' : Str}, Closes c → Closes c' →
    d.text st ++ c :: r = d'.text st ++ c' :: r' → d = d' ∧ c = c' ∧ r = r'
  | .word s, d', hd, hd', c, c', r, r', hc, hc', h => by
    obtain ⟨h1, h2, h3⟩ := lead_cut hk hd hd' hc hc' h
    cases d' <;> simp only [leadWord, leadChar, leadRest] at h1 h2 h3 <;>
      first | (exfalso; rcases hc with rfl | rfl <;> revert h2 <;> decide) | skip
    · exact ⟨by rw [h1], h2, h3⟩
    · exact absurd (h1 ▸ hk.text _ hd') hd.2
  | .float x, d', hd, hd', c, c', r, r', hc, hc', h => by
    obtain ⟨h1, h2, h3⟩ := lead_cut hk hd hd' hc hc' h
    cases d' <;> simp only [leadWord, leadChar, leadRest] at h1 h2 h3 <;>
      first | (exfalso; rcases hc with rfl | rfl <;> revert h2 <;> decide) | skip
    · exact absurd (h1 ▸ hk.text _ hd) hd'.2
    · exact ⟨by rw [hk.differ _ _ hd hd' h1], h2, h3⟩
  | .str s, d', hd, hd', c, c', r, r', hc, hc', h => by
    obtain ⟨h1, h2, h3⟩ := lead_cut hk hd hd' hc hc' h
    cases d' <;> simp only [leadWord, leadChar, leadRest] at h1 h2 h3 <;>
      first | (exfalso; rcases hc' with rfl | rfl <;> revert h2 <;> decide) | (exfalso; revert h2; decide) | skip
    obtain ⟨h4, h5⟩ := debugChars_cut h3
    simp only [List.cons.injEq] at h5
    exact ⟨by rw [h4], h5⟩
  | .tuple n fs, d', hd, hd', c, c', r, r', hc, hc', h => by
    obtain ⟨h1, h2, h3⟩ := lead_cut hk hd hd' hc hc' h
    cases d' <;> simp only [leadWord, leadChar, leadRest] at h1 h2 h3 <;>
      first | (exfalso; rcases hc' with rfl | rfl <;> revert h2 <;> decide) | (exfalso; revert h2; decide) | skip
    obtain ⟨h4, _, h5⟩ := elements_cut (by decide) (by decide) (List.cons.inj h3).2
    simp only [List.cons.injEq] at h5
    exact ⟨by rw [h1, elements_body hk fs _ hd.2.2 hd'.2.2 h4], h5⟩
  | .struct n fs, d', hd, hd', c, c', r, r', hc, hc', h => by
    obtain ⟨h1, h2, h3⟩ := lead_cut hk hd hd' hc hc' h
    cases d' <;> simp only [leadWord, leadChar, leadRest] at h1 h2 h3 <;>
      first | (exfalso; rcases hc' with rfl | rfl <;> revert h2 <;> decide) | (exfalso; revert h2; decide) | skip
    simp only [List.cons.injEq, true_and] at h3
    obtain ⟨h4, _, h5⟩ := fields_cut (by decide) (by decide) h3
    simp only [List.cons.injEq] at h5
    exact ⟨by rw [h1, fields_body hk fs _ hd.2.2 hd'.2.2 h4], h5⟩
  | .list xs, d', hd, hd', c, c', r, r', hc, hc', h => by
    obtain ⟨h1, h2, h3⟩ := lead_cut hk hd hd' hc hc' h
    cases d' <;> simp only [leadWord, leadChar] at h1 h2 <;>
      first | (exfalso; rcases hc' with rfl | rfl <;> revert h2 <;> decide) | (exfalso; revert h2; decide) | skip
    rename_i xs'
    have key := elements_body hk xs xs' hd hd'
    match xs, xs' with
    | [], [] => simp only [leadRest, List.cons.injEq, true_and] at h3; exact ⟨rfl, h3⟩
    | [], _ :: _ => simp [leadRest] at h3
    | _ :: _, [] => simp [leadRest] at h3
    | x :: xs, x' :: xs' =>
      simp only [leadRest, List.cons.injEq, true_and] at h3
      obtain ⟨h4, _, h5⟩ := elements_cut (by decide) (by decide) h3
      simp only [List.cons.injEq] at h5
      exact ⟨by rw [key h4], h5⟩
  | .map es, d', hd, hd', c, c', r, r', hc, hc', h => by
    obtain ⟨h1, h2, h3⟩ := lead_cut hk hd hd' hc hc' h
    cases d' <;> simp only [leadWord, leadChar] at h1 h2 <;>
      first | (exfalso; rcases hc' with rfl | rfl <;> revert h2 <;> decide) | (exfalso; revert h2; decide) | skip
    rename_i es'
    have key := entries_body hk es es' hd hd'
    match es, es' with
    | [], [] => simp only [leadRest, List.cons.injEq, true_and] at h3; exact ⟨rfl, h3⟩
    | [], _ :: _ => simp [leadRest] at h3
    | _ :: _, [] => simp [leadRest] at h3
    | e :: es, e' :: es' =>
      simp only [leadRest, List.cons.injEq, true_and] at h3
      obtain ⟨h4, _, h5⟩ := entries_cut (by decide) (by decide) h3
      simp only [List.cons.injEq] at h5
      exact ⟨by rw [key h4], h5⟩
theorem elements_body (hk : OkFloats st ok) : ∀ (ds ds' : List Dbg), FineAll ok ds → FineAll ok ds' →
    elementsBody st ds = elementsBody st ds' → ds = ds'
  | [], [], _, _, _ => rfl
  | [], _ :: _, _, _, h => by simp [elementsBody] at h
  | _ :: _, [], _, _, h => by simp [elementsBody] at h
  | d :: ds, d' :: ds', hd, hd', h => by
    simp only [elementsBody] at h
    obtain ⟨h1, _, h2⟩ := text_cut hk d d' hd.1 hd'.1 (.inl rfl) (.inl rfl) h
    rw [h1, elements_body hk ds ds' hd.2 hd'.2 (List.cons.inj h2).2]
theorem fields_body (hk : OkFloats st ok) : ∀ (ds ds' : List DbgField), FineFields ok ds → FineFields ok ds' →
    fieldsBody st ds = fieldsBody st ds' → ds = ds'
  | [], [], _, _, _ => rfl
  | [], .mk _ _ :: _, _, _, h => by simp [fieldsBody] at h
  | .mk _ _ :: _, [], _, _, h => by simp [fieldsBody] at h
  | .mk x d :: ds, .mk x' d' :: ds', hd, hd', h => by
    simp only [fieldsBody] at h
    obtain ⟨h0, _, h⟩ := span_unique hd.1.mem hd'.1.mem colon_word colon_word h
    obtain ⟨h1, _, h2⟩ := text_cut hk d d' hd.2.1 hd'.2.1 (.inl rfl) (.inl rfl) (List.cons.inj h).2
    rw [h0, h1, fields_body hk ds ds' hd.2.2 hd'.2.2 (List.cons.inj h2).2]
theorem entries_body (hk : OkFloats st ok) : ∀ (ds ds' : List DbgField), FineEntries ok ds → FineEntries ok ds' →
    entriesBody st ds = entriesBody st ds' → ds = ds'
  | [], [], _, _, _ => rfl
  | [], .mk _ _ :: _, _, _, h => by simp [entriesBody] at h
  | .mk _ _ :: _, [], _, _, h => by simp [entriesBody] at h
  | .mk x d :: ds, .mk x' d' :: ds', hd, hd', h => by
    simp only [entriesBody] at h
    obtain ⟨h0, h⟩ := quoted_rest h
    simp only [List.cons.injEq, true_and] at h
    obtain ⟨h1, _, h2⟩ := text_cut hk d d' hd.1 hd'.1 (.inl rfl) (.inl rfl) h
    rw [h0, h1, entries_body hk ds ds' hd.2 hd'.2 (List.cons.inj h2).2]
end

end Ws
