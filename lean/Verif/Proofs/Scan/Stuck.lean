import Verif.Proofs.Scan.Run
import Verif.Spec.EnvLaws
/-! How a scan can fail to return. -/
namespace Ws
open Spec Scanner

theorem vloop_stuck {env : Env} {cs : List Str} (n : Nat) {v : V} (hv : Reach env cs v) :
    (∀ m, vloop env n v = .panic m → ∃ u, Reach env cs u ∧ u.rest ≠ [] ∧ vstep env u = .panic m) ∧
    (v.rest.length < n → vloop env n v = .diverge →
      ∃ u, Reach env cs u ∧ u.rest ≠ [] ∧ vstep env u = .diverge) := by
  induction n generalizing v with
  | zero => exact ⟨fun m h => (by cases h), fun h => absurd h (by omega)⟩
  | succ n ih =>
    simp only [vloop]
    split
    · exact ⟨fun m h => (by cases h), fun _ h => (by cases h)⟩
    · next hr =>
      cases hs : vstep env v with
      | panic m => exact ⟨fun m' h => ⟨v, hv, hr, by cases h; exact hs⟩, fun _ h => by cases h⟩
      | diverge => exact ⟨fun m' h => (by cases h), fun _ h => ⟨v, hv, hr, hs⟩⟩
      | done w =>
        have hl := vstep_length hr hs
        have := ih (.step hv hr hs)
        exact ⟨this.1, fun h => this.2 (by omega)⟩

theorem outdents_no_panic (k : Nat) (st : List Nat) : ∀ m, outdents k st ≠ .panic m := by
  induction st with
  | nil => simp [outdents]
  | cons a st ih =>
    intro m
    simp only [outdents]
    split
    · simp
    · split
      · split
        · simp
        · next h => exact absurd h (ih _)
        · simp
      · simp

theorem bol_no_panic (v : V) (g : Str) (m : String) : v.bol g ≠ .panic m := by
  simp only [V.bol]
  split
  · simp
  split
  · simp
  split
  · split <;> simp
  · split
    · simp
    · next h => exact absurd h (outdents_no_panic _ _ _)
    · simp

theorem bind_panic {α β : Type} {x : Outcome α} {f : α → Outcome β} {m : String}
    (h : (x >>= f) = .panic m) : x = .panic m ∨ ∃ a, x = .done a ∧ f a = .panic m := by
  cases x with
  | done a => exact .inr ⟨a, rfl, h⟩
  | panic m' => left; cases h; rfl
  | diverge => cases h

theorem bind_diverge {α β : Type} {x : Outcome α} {f : α → Outcome β}
    (h : (x >>= f) = .diverge) : x = .diverge ∨ ∃ a, x = .done a ∧ f a = .diverge := by
  cases x with
  | done a => exact .inr ⟨a, rfl, h⟩
  | panic m' => cases h
  | diverge => exact .inl rfl

theorem lexeme_num {env : Env} {abut : Bool} {g : Str} {cs taken : List Str}
    (h : lexeme env abut g cs = .num taken) :
    isDigit g = true ∧ taken = cs.takeWhile isDigit ++ fraction (cs.dropWhile isDigit) := by
  simp only [lexeme] at h
  repeat' split at h
  all_goals cases h
  exact ⟨by assumption, rfl⟩

theorem vstep_panic {env : Env} {v : V} {m : String} (h : vstep env v = .panic m) :
    ∃ g cs taken, v.rest = g :: cs ∧ lexeme env v.abut g cs = .num taken ∧
      env.parseF64 (g :: taken).flatten = none := by
  cases hr : v.rest with
  | nil => simp only [vstep, hr] at h; cases h
  | cons g cs =>
    simp only [vstep, hr] at h
    refine ⟨g, cs, ?_⟩
    generalize lexeme env v.abut g cs = k at h ⊢
    cases k with
    | num taken =>
      rcases bind_panic h with h | ⟨a, -, h⟩
      · exact absurd h (bol_no_panic _ _ _)
      · split at h
        · cases h
        · next hn => exact ⟨taken, rfl, rfl, hn⟩
    | backslash taken nl => simp only at h; split at h <;> cases h
    | tab | space | cr => cases h
    | newline => cases h
    | _ =>
      rcases bind_panic h with h | ⟨a, -, h⟩
      · exact absurd h (bol_no_panic _ _ _)
      · cases h

theorem vstep_diverge {env : Env} {v : V} (h : vstep env v = .diverge) :
    ∃ g cs, v.rest = g :: cs ∧ g ∉ [[' '], ['\r'], ['\n'], ['\t'], ['\\']] ∧ v.bol g = .diverge := by
  cases hr : v.rest with
  | nil => simp only [vstep, hr] at h; cases h
  | cons g cs =>
    simp only [vstep, hr] at h
    refine ⟨g, cs, rfl, ?_⟩
    have hg : g ∈ [[' '], ['\r'], ['\n'], ['\t'], ['\\']] →
        lexeme env v.abut g cs ∈ [.space, .cr, .newline, .tab,
          .backslash (backslashTaken cs).1 (backslashTaken cs).2] := by
      intro hg
      simp only [List.mem_cons, List.not_mem_nil, or_false] at hg
      rcases hg with rfl | rfl | rfl | rfl | rfl <;> simp [lexeme, punct, eqPunct]
    generalize lexeme env v.abut g cs = k at h hg
    cases k with
    | backslash taken nl => simp only at h; split at h <;> cases h
    | tab | space | cr => cases h
    | newline => cases h
    | num taken =>
      rcases bind_diverge h with h | ⟨a, -, h⟩
      · exact ⟨fun hm => by simpa using hg hm, h⟩
      · split at h <;> cases h
    | _ =>
      rcases bind_diverge h with h | ⟨a, -, h⟩
      · exact ⟨fun hm => by simpa using hg hm, h⟩
      · cases h

/-! ### Numbers parse -/

theorem digits_flatten {l : List Str} (h : ∀ g ∈ l, Digit g) :
    (∀ c ∈ l.flatten, '0' ≤ c ∧ c ≤ '9') ∧ (l ≠ [] → l.flatten ≠ []) := by
  have hd : ∀ g, Digit g → (∀ c ∈ g, '0' ≤ c ∧ c ≤ '9') ∧ g ≠ [] := by
    intro g hg
    simp only [Digit, List.mem_cons, List.not_mem_nil, or_false] at hg
    rcases hg with rfl | rfl | rfl | rfl | rfl | rfl | rfl | rfl | rfl | rfl <;>
      exact ⟨fun c hc => by rw [List.mem_singleton.mp hc]; decide, by simp⟩
  constructor
  · intro c hc
    obtain ⟨g, hg, hc⟩ := List.mem_flatten.mp hc
    exact (hd g (h g hg)).1 c hc
  · intro hl
    obtain ⟨g, l', rfl⟩ := List.exists_cons_of_ne_nil hl
    simp [(hd g (h g (by simp))).2]

theorem lexeme_num_text {env : Env} {abut : Bool} {g : Str} {cs taken : List Str}
    (h : lexeme env abut g cs = .num taken) : NumberText (g :: taken).flatten := by
  obtain ⟨hg, ht⟩ := lexeme_num h
  have hw : ∀ x ∈ g :: cs.takeWhile isDigit, Digit x := by
    intro x hx
    rcases List.mem_cons.mp hx with rfl | hx
    · exact (isDigit_iff _).mp hg
    · exact (isDigit_iff _).mp (takeWhile_all _ _ x hx)
  rcases fraction_spec (cs.dropWhile isDigit) with ⟨hf, -⟩ | ⟨frac, hf, hne, hd, -⟩
  · rw [hf, List.append_nil] at ht
    rw [ht]
    exact ⟨_, [], (digits_flatten hw).2 (by simp), (digits_flatten hw).1, by simp, .inl rfl⟩
  · rw [hf] at ht
    rw [ht]
    refine ⟨_, frac.flatten, (digits_flatten hw).2 (by simp), (digits_flatten hw).1, (digits_flatten hd).1,
      .inr ⟨?_, (digits_flatten hd).2 hne⟩⟩
    simp

theorem scan_panic_free {env : Env} (hN : NumberLaw env) (cs : List Str) (m : String) :
    scanClusters env cs ≠ .panic m := by
  rw [scanClusters_eq]
  intro h
  simp only [vscan] at h
  split at h
  · split at h <;> cases h
  · next m' hm =>
    obtain ⟨u, -, -, hu⟩ := (vloop_stuck _ .init).1 _ hm
    obtain ⟨g, r, taken, -, hl, hp⟩ := vstep_panic hu
    exact hN _ (lexeme_num_text hl) hp
  · cases h

end Ws
