import Verif.Proofs.Resolve.Slots
import Verif.Spec.ScopeNames
/-! The slots of a program are places among the names of its scopes. -/
namespace Ws
open Ws.Spec

theorem scopeNames_final : ∀ (es : List Event) (next : Nat) (ids : List Nat) (Γ : Names), ids.length = Γ.length →
    ids.Nodup → (∀ i ∈ ids, i < next) → (∀ s ∈ Γ, s.Nodup) → AllFresh es → AtEach EventOk Γ es →
    Final next ids Γ es (scopeNames next ids Γ es)
  | [], next, ids, Γ, hl, hn, hi, hΓ, _, _ => by
    refine ⟨?_, ?_, by simp [refs], ?_, ?_⟩
    · intro d s i hs hi
      have hd := (List.getElem?_eq_some_iff.mp hi)
      have : ids.idxOf i = d := by
        obtain ⟨h1, h2⟩ := hd
        subst h2
        exact List.Nodup.idxOf_getElem hn d h1
      simp only [scopeNames, this, hs, Option.getD_some]
      exact List.prefix_rfl
    · intro i
      simp only [scopeNames]
      cases h : Γ[ids.idxOf i]? with
      | none => simp
      | some s => exact hΓ s (List.mem_of_getElem? h)
    · intro hsm i
      have := hsm [] [] rfl
      simp only [scopeNames]
      cases h : Γ[ids.idxOf i]? with
      | none => simp
      | some s => exact this s (List.mem_of_getElem? h)
    · intro d s i hs hi
      have : ids.idxOf i = d := by
        obtain ⟨h1, h2⟩ := (List.getElem?_eq_some_iff.mp hi)
        subst h2
        exact List.Nodup.idxOf_getElem hn d h1
      rw [namesAfter_nil] at hs
      simp only [scopeNames, this, hs, Option.getD_some]
  | .enter ns :: es, next, ids, Γ, hl, hn, hi, hΓ, hf, ho => by
    obtain ⟨hf1, hf⟩ := allFresh_cons.mp hf
    obtain ⟨-, ho⟩ := atEach_cons ho
    have h := scopeNames_final es (next + 1) (next :: ids) (ns :: Γ) (by simp [hl])
      (List.nodup_cons.mpr ⟨fun h => absurd (hi _ h) (by omega), hn⟩)
      (by
        intro i hm
        rcases List.mem_cons.mp hm with rfl | hm
        · omega
        · have := hi i hm; omega)
      (by
        intro s hs
        rcases List.mem_cons.mp hs with rfl | hs
        · exact hf1
        · exact hΓ s hs) hf ho
    have e : scopeNames next ids Γ (.enter ns :: es) = scopeNames (next + 1) (next :: ids) (ns :: Γ) es := by
      funext i; rfl
    rw [e]
    refine ⟨fun d s i hs hd => h.pre (d + 1) s i hs hd, h.nodup, ?_, fun hs => h.small (smallScopes_cons hs).2, h.last⟩
    simp only [refs]
    exact h.ref
  | .leave :: es, next, ids, Γ, hl, hn, hi, hΓ, hf, ho => by
    obtain ⟨-, hf⟩ := allFresh_cons.mp hf
    obtain ⟨-, ho⟩ := atEach_cons ho
    have h := scopeNames_final es next ids.tail Γ.tail (by simp [hl])
      (hn.sublist (List.tail_sublist _)) (fun i hm => hi i (List.mem_of_mem_tail hm))
      (fun s hs => hΓ s (List.mem_of_mem_tail hs)) hf ho
    cases ids with
    | nil =>
      have e : scopeNames next [] Γ (.leave :: es) = scopeNames next [] Γ.tail es := by
        funext i; simp [scopeNames]
      rw [e]
      refine ⟨by simp, h.nodup, ?_, fun hs => h.small (smallScopes_cons hs).2, h.last⟩
      simp only [refs]
      exact h.ref
    | cons i0 ids =>
      cases Γ with
      | nil => simp at hl
      | cons s0 Γ =>
        obtain ⟨hi0, hn⟩ := List.nodup_cons.mp hn
        have e : scopeNames next (i0 :: ids) (s0 :: Γ) (.leave :: es) =
            fun i => if i = i0 then s0 else scopeNames next ids Γ es i := by
          funext i
          simp only [scopeNames, List.head?_cons, Option.some.injEq, List.tail_cons, Option.getD_some, eq_comm]
        rw [e]
        refine ⟨?_, ?_, ?_, ?_, ?_⟩
        · intro d s i hs hd
          cases d with
          | zero =>
            simp only [List.getElem?_cons_zero, Option.some.injEq] at hs hd
            subst hs; subst hd
            simp
          | succ d =>
            simp only [List.getElem?_cons_succ] at hs hd
            have : i ≠ i0 := by
              rintro rfl
              exact hi0 (List.mem_of_getElem? hd)
            simp only [if_neg this]
            exact h.pre d s i hs hd
        · intro i
          split
          · exact hΓ s0 (by simp)
          · exact h.nodup i
        · intro r hr
          simp only [refs, List.tail_cons] at hr
          obtain ⟨i, h1, h2⟩ := h.ref r hr
          refine ⟨i, h1, ?_⟩
          have : i ≠ i0 := by
            rintro rfl
            rcases refs_scope es _ _ r i hr h1 with h | h
            · exact hi0 h
            · have := hi i (by simp)
              omega
          simp only [if_neg this]
          exact h2
        · intro hs i
          obtain ⟨h1, h2⟩ := smallScopes_cons hs
          split
          · exact h1 s0 (by simp)
          · exact h.small h2 i
        · intro d s i hs hd
          have : i ≠ i0 := by
            rintro rfl
            rcases openAfter_mem es next ids i (List.mem_of_getElem? hd) with h | h
            · exact hi0 h
            · have := hi i (by simp)
              omega
          simp only [if_neg this]
          exact h.last d s i hs hd
  | .declare x c :: es, next, ids, Γ, hl, hn, hi, hΓ, hf, ho => by
    obtain ⟨-, hf⟩ := allFresh_cons.mp hf
    obtain ⟨ho1, ho⟩ := atEach_cons ho
    have g := declare_grow x c Γ
    have h := scopeNames_final es next ids _ (by rw [g.length, hl]) hn hi (g.nodup hΓ) hf ho
    have e : scopeNames next ids Γ (.declare x c :: es) = scopeNames next ids (Event.after Γ (.declare x c)) es := by
      funext i; rfl
    rw [e]
    refine ⟨fun d s i hs hd => final_grow h g hs hd, h.nodup, ?_, fun hs => h.small (smallScopes_cons hs).2, ?_⟩
    · cases c with
      | none =>
        simp only [refs]
        exact h.ref
      | some c =>
        intro r hr
        simp only [refs] at hr
        rcases List.mem_cons.mp hr with rfl | hr
        · obtain ⟨s, k, h1, h2, h3⟩ := ho1
          change (Event.after Γ (.declare x (some c))).head? = some s at h1
          rw [List.head?_eq_getElem?] at h1
          obtain ⟨i, hi⟩ := exists_id (ids := ids) (by rw [g.length, hl]) h1
          exact ⟨i, hi, k, prefix_get (h.pre 0 s i h1 hi) h2, h3⟩
        · exact h.ref r hr
    · cases c <;> exact h.last
  | .use x c :: es, next, ids, Γ, hl, hn, hi, hΓ, hf, ho => by
    obtain ⟨-, hf⟩ := allFresh_cons.mp hf
    obtain ⟨ho1, ho⟩ := atEach_cons ho
    have g := use_grow x c Γ
    have h := scopeNames_final es next ids _ (by rw [g.length, hl]) hn hi (g.nodup hΓ) hf ho
    have e : scopeNames next ids Γ (.use x c :: es) = scopeNames next ids (Event.after Γ (.use x c)) es := by
      funext i; rfl
    rw [e]
    refine ⟨fun d s i hs hd => final_grow h g hs hd, h.nodup, ?_, fun hs => h.small (smallScopes_cons hs).2, h.last⟩
    intro r hr
    simp only [refs] at hr
    rcases List.mem_cons.mp hr with rfl | hr
    · rcases ho1 with ⟨k, ⟨⟨s, h1, h2⟩, _⟩, h3⟩ | ⟨hu, gl, h1, h2, h3⟩
      · obtain ⟨i, hi⟩ := exists_id hl h1
        exact ⟨i, hi, k, prefix_get (final_grow h g h1 hi) h2, h3⟩
      · have hx : x ∉ gl := hu gl (List.mem_of_getLast? h1)
        have e := addGlobal_last (x := x) h1 hx
        have hnu : ¬ ∃ s ∈ Γ, x ∈ s := fun ⟨s, hs, hx⟩ => hu s hs hx
        have ha : Event.after Γ (.use x c) = addGlobal x Γ := by rw [Event.after, if_neg hnu]
        rw [← ha] at e
        obtain ⟨i, hi⟩ := exists_id (ids := ids) (by rw [g.length, hl]) e
        refine ⟨i, by rw [h2]; exact hi, gl.length, prefix_get (h.pre _ _ i e hi) (by simp), h3⟩
    · exact h.ref r hr

end Ws
