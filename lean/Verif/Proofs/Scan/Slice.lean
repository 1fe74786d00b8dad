import Verif.Model.Scanner
/-! Byte offsets and slices. -/
namespace Ws

theorem utf8Size_pos' (c : Char) : 0 < c.utf8Size := Char.utf8Size_pos c

@[simp] theorem byteLen_append (a b : Str) : byteLen (a ++ b) = byteLen a + byteLen b := by
  induction a with
  | nil => simp [byteLen]
  | cons c a ih => simp [byteLen, ih, Nat.add_assoc]

theorem dropBytes_zero (s : Str) : dropBytes s 0 = some s := by
  cases s <;> simp [dropBytes]

theorem takeBytes_zero (s : Str) : takeBytes s 0 = some [] := by
  cases s <;> simp [takeBytes]

theorem dropBytes_append (a b : Str) : dropBytes (a ++ b) (byteLen a) = some b := by
  induction a with
  | nil => simp [byteLen, dropBytes_zero]
  | cons c a ih =>
    have hc := utf8Size_pos' c
    have : byteLen (c :: a) = c.utf8Size + byteLen a := rfl
    obtain ⟨n, hn⟩ : ∃ n, byteLen (c :: a) = n + 1 := ⟨byteLen (c :: a) - 1, by omega⟩
    rw [List.cons_append, hn, dropBytes]
    · rw [← hn, this, if_pos (by omega), Nat.add_sub_cancel_left, ih]
    · omega

theorem takeBytes_append (a b : Str) : takeBytes (a ++ b) (byteLen a) = some a := by
  induction a with
  | nil => simp [byteLen, takeBytes_zero]
  | cons c a ih =>
    have hc := utf8Size_pos' c
    have : byteLen (c :: a) = c.utf8Size + byteLen a := rfl
    obtain ⟨n, hn⟩ : ∃ n, byteLen (c :: a) = n + 1 := ⟨byteLen (c :: a) - 1, by omega⟩
    rw [List.cons_append, hn, takeBytes]
    · rw [← hn, this, if_pos (by omega), Nat.add_sub_cancel_left, ih]
      rfl
    · omega

theorem sliceBytes_append (a b c : Str) :
    sliceBytes (a ++ (b ++ c)) (byteLen a) (byteLen (a ++ b)) = .done b := by
  rw [sliceBytes, if_pos (by simp), dropBytes_append]
  have : byteLen (a ++ b) - byteLen a = byteLen b := by simp
  rw [this]
  simp [takeBytes_append]

end Ws
