import Verif.Model.Js
import Verif.Spec.Erase
import Verif.Spec.Shape
import Verif.Spec.Subtree
/-! Trees with the same JavaScript value are the same, but for locations of variables. -/
namespace Ws
open Spec

/-- The bit pattern as a number. -/
def bitsOf (n : Nat) : Nat := f64OfNat n

theorem f64_parts {n : Nat} (h0 : n ≠ 0) (hn : n < 2 ^ 53) :
    bitsOf n / 2 ^ 52 = 1023 + n.log2 ∧ bitsOf n % 2 ^ 52 = (n - 2 ^ n.log2) * 2 ^ (52 - n.log2) := by
  have hl : n.log2 ≤ 52 := by
    have := (Nat.log2_lt h0).mpr hn
    omega
  have h1 : n < 2 ^ (n.log2 + 1) := Nat.lt_log2_self
  have hlt : (n - 2 ^ n.log2) * 2 ^ (52 - n.log2) < 2 ^ 52 := by
    have h2 : n - 2 ^ n.log2 < 2 ^ n.log2 := by rw [Nat.pow_succ] at h1; omega
    have h3 : (2 : Nat) ^ 52 = 2 ^ n.log2 * 2 ^ (52 - n.log2) := by rw [← Nat.pow_add]; congr 1; omega
    rw [h3]
    exact Nat.mul_lt_mul_of_pos_right h2 (Nat.two_pow_pos _)
  have hb : bitsOf n = (1023 + n.log2) * 2 ^ 52 + (n - 2 ^ n.log2) * 2 ^ (52 - n.log2) := by
    unfold bitsOf f64OfNat
    rw [if_neg h0]
  rw [hb]
  generalize (n - 2 ^ n.log2) * 2 ^ (52 - n.log2) = r at hlt ⊢
  omega

theorem f64OfNat_inj {n m : Nat} (hn : n < 2 ^ 53) (hm : m < 2 ^ 53) (h : f64OfNat n = f64OfNat m) : n = m := by
  have h : bitsOf n = bitsOf m := h
  have h0 : bitsOf 0 = 0 := rfl
  by_cases hn0 : n = 0
  · by_cases hm0 : m = 0
    · omega
    · have := (f64_parts hm0 hm).1
      rw [← h, hn0] at this
      rw [h0] at this
      omega
  · by_cases hm0 : m = 0
    · have := (f64_parts hn0 hn).1
      rw [h, hm0] at this
      rw [h0] at this
      omega
    · obtain ⟨a1, a2⟩ := f64_parts hn0 hn
      obtain ⟨b1, b2⟩ := f64_parts hm0 hm
      rw [h] at a1 a2
      have hl : n.log2 = m.log2 := by omega
      rw [a2, hl] at b2
      have hn1 := Nat.log2_self_le hn0
      have hm1 := Nat.log2_self_le hm0
      have := Nat.eq_of_mul_eq_mul_right (Nat.two_pow_pos _) b2
      rw [hl] at hn1
      omega

/-- A location fits its fields. -/
def LocFits (l : SourceLoc) : Prop := l.line < 2 ^ 32 ∧ l.column < 2 ^ 16

theorem natJs_inj {n m : Nat} (hn : n < 2 ^ 53) (hm : m < 2 ^ 53) (h : natJs n = natJs m) : n = m :=
  f64OfNat_inj hn hm (by unfold natJs at h; exact JsValue.number.inj h)

theorem locJs_inj {l l' : SourceLoc} (hl : LocFits l) (hl' : LocFits l') (h : locJs l = locJs l') : l = l' := by
  obtain ⟨a, b⟩ := l
  obtain ⟨a', b'⟩ := l'
  simp only [LocFits] at hl hl'
  simp only [locJs, JsValue.object.injEq, List.cons.injEq, JsField.mk.injEq, true_and, and_true] at h
  rw [natJs_inj (by omega) (by omega) h.1, natJs_inj (by omega) (by omega) h.2]

theorem funTypeJs_inj {a b : FunctionType} (h : funTypeJs a = funTypeJs b) : a = b := by
  cases a <;> cases b <;> first | rfl | (simp [funTypeJs] at h)
theorem unaryJs_inj {a b : UnaryOperator} (h : unaryJs a = unaryJs b) : a = b := by
  cases a <;> cases b <;> first | rfl | (simp [unaryJs] at h)
theorem binaryJs_inj {a b : BinaryOperator} (h : binaryJs a = binaryJs b) : a = b := by
  cases a <;> cases b <;> first | rfl | (simp [binaryJs] at h)
theorem logicalJs_inj {a b : LogicalOperator} (h : logicalJs a = logicalJs b) : a = b := by
  cases a <;> cases b <;> first | rfl | (simp [logicalJs] at h)

theorem tagged_inj {n n' : Str} {a a' : JsValue} (h : tagged n a = tagged n' a') : n = n' ∧ a = a' := by
  simp only [tagged, JsValue.object.injEq, List.cons.injEq, JsField.mk.injEq, JsValue.string.injEq, true_and, and_true] at h
  exact h

/-- Locations in the node itself, and not in its parts. -/
def Fit : Node → Prop
  | .expr (.assign _ _ _ l) | .expr (.call _ _ l) | .expr (.binary _ _ _ l) | .expr (.get _ _ l) | .expr (.getIndex _ _ l)
  | .expr (.set _ _ _ l) | .expr (.setIndex _ _ _ l) | .expr (.super _ _ l) | .expr (.variable _ _ l)
  | .expr (.unary _ _ l) => LocFits l
  | .expr _ => True
  | .fn d => LocFits d.loc ∧ ∀ p ∈ d.params, LocFits p.loc
  | .stmt (.break l) | .stmt (.continue l) | .stmt (.class _ _ _ l) | .stmt (.return _ l) | .stmt (.var _ _ _ l) => LocFits l
  | .stmt _ => True

/-- A node whose parts have locations that fit and maps with distinct keys. -/
def AllFit (n : Node) : Prop := ∀ x, Within x n → Fit x ∧ DistinctKeys x

theorem AllFit.part {n c : Node} (h : AllFit n) (hc : c ∈ n.parts) : AllFit c := fun x hx => h x (.step hc hx)
theorem AllFit.self {n : Node} (h : AllFit n) : Fit n ∧ DistinctKeys n := h n .refl

theorem mapSet_new {m : List JsField} {f : JsField} (h : f.key ∉ m.map JsField.key) : mapSet m f = m ++ [f] := by
  unfold mapSet
  rw [if_neg]
  rw [List.any_eq_true]
  rintro ⟨g, hg, he⟩
  exact h (by rw [← eq_of_beq he]; exact List.mem_map_of_mem hg)

theorem mapSet_all (fs m : List JsField) (h : ((m ++ fs).map JsField.key).Nodup) : fs.foldl mapSet m = m ++ fs := by
  induction fs generalizing m with
  | nil => simp
  | cons f fs ih =>
    rw [List.foldl_cons, mapSet_new, ih _ (by simpa using h), List.append_assoc]
    · rfl
    · intro hm
      rw [List.map_append, List.nodup_append] at h
      exact h.2.2 _ hm _ (by simp) rfl

theorem entries_keys (ms : List MapEntry) : (entriesJs ms).map JsField.key = ms.map MapEntry.key := by
  induction ms with
  | nil => simp [entriesJs]
  | cons m ms ih => cases m; simp [entriesJs, ih, JsField.key, MapEntry.key]

theorem map_entries {ms : List MapEntry} (h : DistinctKeys (.expr (.literalMap ms))) :
    (entriesJs ms).foldl mapSet [] = entriesJs ms := by
  rw [mapSet_all]
  · simp
  · rw [List.nil_append, entries_keys]
    exact h

theorem paramsJs_inj : ∀ (ps ps' : List Parameter), (∀ p ∈ ps, LocFits p.loc) → (∀ p ∈ ps', LocFits p.loc) →
    ps.map paramJs = ps'.map paramJs → ps = ps'
  | [], [], _, _, _ => rfl
  | [], _ :: _, _, _, h => by simp at h
  | _ :: _, [], _, _, h => by simp at h
  | ⟨x, l⟩ :: ps, ⟨x', l'⟩ :: ps', hp, hp', h => by
    simp only [List.map_cons, paramJs, List.cons.injEq, JsValue.object.injEq, JsField.mk.injEq, JsValue.string.injEq,
      true_and, and_true] at h
    obtain ⟨⟨rfl, h2⟩, h3⟩ := h
    have hl : l = l' := locJs_inj (hp ⟨x, l⟩ (by simp)) (hp' ⟨x, l'⟩ (by simp)) h2
    rw [hl, paramsJs_inj ps ps' (fun p h => hp p (by simp [h])) (fun p h => hp' p (by simp [h])) h3]

end Ws
