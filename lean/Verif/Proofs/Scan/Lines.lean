import Verif.Proofs.Scan.Ext
import Verif.Proofs.Scan.Errors
/-! Runs over whole lines. -/
namespace Ws
open Spec Scanner

/-! ### The lines of tokens and errors of a run -/

structure Between (v w : V) : Prop where
  tokens : ∃ new, w.tokens = v.tokens ++ new ∧ ∀ t ∈ new, v.line ≤ t.line ∧ t.line ≤ w.line
  errors : ∃ new, w.errors = v.errors ++ new ∧ ∀ t ∈ new, v.line ≤ t.loc.line ∧ t.loc.line ≤ w.line
  line : v.line ≤ w.line
  max : w.line ≤ u32Max

theorem Between.refl {v : V} (h : v.line ≤ u32Max) : Between v v :=
  ⟨⟨[], by simp⟩, ⟨[], by simp⟩, Nat.le_refl _, h⟩

theorem Between.trans {u v w : V} (h1 : Between u v) (h2 : Between v w) : Between u w := by
  obtain ⟨a, ha, ha'⟩ := h1.tokens
  obtain ⟨b, hb, hb'⟩ := h2.tokens
  obtain ⟨c, hc, hc'⟩ := h1.errors
  obtain ⟨e, he, he'⟩ := h2.errors
  have := h1.line; have := h2.line
  refine ⟨⟨a ++ b, by rw [hb, ha, List.append_assoc], ?_⟩, ⟨c ++ e, by rw [he, hc, List.append_assoc], ?_⟩,
    by omega, h2.max⟩
  · intro t ht
    rcases List.mem_append.mp ht with ht | ht
    · have := ha' t ht; omega
    · have := hb' t ht; omega
  · intro t ht
    rcases List.mem_append.mp ht with ht | ht
    · have := hc' t ht; omega
    · have := he' t ht; omega

theorem satInc32_le {n : Nat} (h : n ≤ u32Max) : n ≤ satInc32 n ∧ satInc32 n ≤ u32Max := by
  simp only [satInc32]; split <;> omega

theorem posThrough_le (cs : List Str) {l c : Nat} (h : l ≤ u32Max) :
    l ≤ (posThrough (l, c) cs).1 ∧ (posThrough (l, c) cs).1 ≤ u32Max := by
  induction cs generalizing l c with
  | nil => exact ⟨Nat.le_refl _, h⟩
  | cons g cs ih =>
    simp only [posThrough]
    have := satInc32_le h
    split
    · have := ih (l := satInc32 l) (c := 1) this.2; omega
    · exact ih h

theorem Between.of {v w : V} (h : v.line ≤ u32Max) {new : List Token} {es : List Cause} {l : Nat}
    (h1 : w.tokens = v.tokens ++ new) (h2 : w.errors = v.errors ++ es) (h3 : w.line = l)
    (h4 : v.line ≤ l) (h5 : l ≤ u32Max) (h6 : ∀ t ∈ new, v.line ≤ t.line ∧ t.line ≤ l)
    (h7 : ∀ t ∈ es, v.line ≤ t.loc.line ∧ t.loc.line ≤ l) : Between v w := by
  subst h3
  exact ⟨⟨new, h1, h6⟩, ⟨es, h2, h7⟩, h4, h5⟩

theorem bol_between {v w : V} {g : Str} (h : v.bol g = .done w) (hl : v.line ≤ u32Max) :
    Between v w ∧ w.line = v.line := by
  have self : ∀ t : Token, t.line = v.line → v.line ≤ t.line ∧ t.line ≤ v.line := by
    intro t h; omega
  simp only [V.bol] at h
  split at h
  · cases h; exact ⟨.refl hl, rfl⟩
  split at h
  · cases h; exact ⟨.of hl (new := []) (es := []) (by simp) (by simp) rfl (Nat.le_refl _) hl (by simp) (by simp), rfl⟩
  split at h
  · split at h <;> cases h
    · exact ⟨.of hl (es := []) rfl (by simp) rfl (Nat.le_refl _) hl (by simp [V.layoutTok]) (by simp), rfl⟩
    · exact ⟨.of hl (new := []) (es := []) (by simp) (by simp) rfl (Nat.le_refl _) hl (by simp) (by simp), rfl⟩
  · split at h
    · cases h
      refine ⟨.of hl rfl rfl rfl (Nat.le_refl _) hl ?_ ?_, rfl⟩
      · intro t ht
        rw [List.eq_of_mem_replicate ht]
        exact ⟨Nat.le_refl _, Nat.le_refl _⟩
      · split
        · simp [outdentError, Cause.new]
        · simp
    · cases h
    · cases h

theorem vstep_between {env : Env} {v w : V} (h : vstep env v = .done w) (hl : v.line ≤ u32Max) : Between v w := by
  have rr := Nat.le_refl v.line
  cases hr : v.rest with
  | nil => simp only [vstep, hr] at h; cases h; exact .refl hl
  | cons g cs =>
    simp only [vstep, hr] at h
    generalize lexeme env v.abut g cs = k at h
    have push : ∀ {w0 : V} {w : V} (t : Token), v.bol g = .done w0 → t.line = v.line →
        w.tokens = w0.tokens ++ [t] → w.errors = w0.errors → w0.line ≤ w.line → w.line ≤ u32Max → Between v w := by
      intro w0 w t hb ht h1 h2 h3 h4
      obtain ⟨hbt, hbl⟩ := bol_between hb hl
      refine hbt.trans ⟨⟨[t], h1, ?_⟩, ⟨[], by simp [h2], by simp⟩, h3, h4⟩
      simp [ht]; omega
    have err : ∀ {w0 : V} {w : V} (t : Cause), v.bol g = .done w0 → v.line ≤ t.loc.line → t.loc.line ≤ w.line →
        w.tokens = w0.tokens → w.errors = w0.errors ++ [t] → w0.line ≤ w.line → w.line ≤ u32Max → Between v w := by
      intro w0 w t hb ht ht2 h1 h2 h3 h4
      obtain ⟨hbt, hbl⟩ := bol_between hb hl
      refine hbt.trans ⟨⟨[], by simp [h1], by simp⟩, ⟨[t], h2, ?_⟩, h3, h4⟩
      simp [ht2]; omega
    cases k with
    | backslash taken nl =>
      have := satInc32_le hl
      simp only at h
      split at h <;> cases h
      · exact .of hl (new := []) (es := []) (by simp [V.flags, V.resetLine, V.skip]) (by simp [V.flags, V.resetLine, V.skip]) rfl
          this.1 this.2 (by simp) (by simp)
      · exact .of hl (new := []) (by simp [V.flags, V.resetLine, V.skip, V.err]) rfl rfl rr hl (by simp)
          (by simp only [List.mem_singleton, forall_eq]; exact ⟨rr, rr⟩)
    | tab =>
      cases h
      exact .of hl (new := []) (by simp [V.flags, V.resetLine, V.skip, V.err]) rfl rfl rr hl (by simp)
          (by simp only [List.mem_singleton, forall_eq]; exact ⟨rr, rr⟩)
    | space | cr =>
      cases h
      exact .of hl (new := []) (es := []) (by simp [V.flags, V.skip]) (by simp [V.flags, V.skip]) rfl rr hl (by simp) (by simp)
    | newline =>
      have := satInc32_le hl
      simp only at h
      split at h <;> cases h
      · exact .of hl (es := []) rfl (by simp [V.flags, V.resetLine, V.skip, V.push]) rfl
          this.1 this.2 (by simp only [List.mem_singleton, forall_eq]; exact ⟨rr, this.1⟩) (by simp)
      · exact .of hl (new := []) (es := []) (by simp [V.flags, V.resetLine, V.skip]) (by simp [V.flags, V.resetLine, V.skip]) rfl
          this.1 this.2 (by simp) (by simp)
    | num taken =>
      obtain ⟨w0, hb, h⟩ := Outcome.bind_done h
      have hb2 := bol_between hb hl
      split at h
      · cases h; exact push _ hb rfl rfl rfl (Nat.le_refl _) hb2.1.max
      · cases h
    | str taken =>
      obtain ⟨w0, hb, h⟩ := Outcome.bind_done h
      have hb2 := bol_between hb hl
      cases h
      have := posThrough_le taken (c := (w0.skip [g]).column) hb2.1.max
      exact push _ hb rfl rfl rfl this.1 this.2
    | unterminated =>
      obtain ⟨w0, hb, h⟩ := Outcome.bind_done h
      have hb2 := bol_between hb hl
      cases h
      have := posThrough_le cs (c := (w0.skip [g]).column) hb2.1.max
      exact err _ hb (by rw [← hb2.2]; exact this.1) (Nat.le_refl _) rfl rfl this.1 this.2
    | unexpected =>
      obtain ⟨w0, hb, h⟩ := Outcome.bind_done h
      have hb2 := bol_between hb hl
      cases h
      exact err _ hb (Nat.le_refl _) (Nat.le_of_eq hb2.2.symm) rfl rfl (Nat.le_refl _) hb2.1.max
    | comment taken =>
      obtain ⟨w0, hb, h⟩ := Outcome.bind_done h
      have hb2 := bol_between hb hl
      cases h
      exact hb2.1.trans (.of hb2.1.max (new := []) (es := []) (by simp [V.flags, V.skip]) (by simp [V.flags, V.skip]) rfl
        (Nat.le_refl _) hb2.1.max (by simp) (by simp))
    | _ =>
      obtain ⟨w0, hb, h⟩ := Outcome.bind_done h
      have hb2 := bol_between hb hl
      cases h
      exact push _ hb rfl rfl rfl (Nat.le_refl _) hb2.1.max

theorem outcome_between {env : Env} {v w : V} (h : outcome env v = .done w) (hl : v.line ≤ u32Max) : Between v w := by
  generalize hn : v.rest.length = n
  induction n using Nat.strongRecOn generalizing v with
  | ind n ih =>
    cases hr : v.rest with
    | nil => rw [outcome_nil hr] at h; cases h; exact .refl hl
    | cons g cs =>
      have hne : v.rest ≠ [] := by simp [hr]
      rw [outcome_step hne] at h
      obtain ⟨u, hu, h⟩ := Outcome.bind_done h
      have h1 := vstep_between hu hl
      exact h1.trans (ih _ (by rw [← hn]; exact vstep_length hne hu) h h1.max rfl)

/-! ### The start of a line -/

/-- The state at the start of a line. -/
structure Fresh (s : V) : Prop where
  isBol : s.isBol = true
  bolSpaces : s.bolSpaces = 0
  column : s.column = 1
  onlyComment : s.onlyComment = false
  followCont : s.followCont = false
  abut : s.abut = false
  errors : s.errors = []
  line : s.line ≤ u32Max

abbrev sp (n : Nat) : List Str := List.replicate n [' ']

/-- The state after `n` spaces at the start of a line. -/
def V.indented (s : V) (n : Nat) (r : List Str) : V :=
  { s with pre := s.pre ++ sp n, rest := r, column := addCol 1 n, bolSpaces := addCol 0 n }

theorem lexeme_sp (env : Env) (abut : Bool) (cs : List Str) : lexeme env abut [' '] cs = .space := by
  simp [lexeme, punct, eqPunct]

theorem addCol_succ (c n : Nat) : addCol c (n + 1) = satInc16 (addCol c n) := by
  rw [addCol_add]; rfl

theorem outcome_indented {env : Env} {s : V} (h : Fresh s) (n : Nat) (r : List Str) (hr : s.rest = sp n ++ r) :
    outcome env s = outcome env (s.indented n r) := by
  suffices ∀ m k, m + k = n →
      outcome env (s.indented m (sp k ++ r)) = outcome env (s.indented n r) by
    rw [← this 0 n (Nat.zero_add n)]
    congr 1
    cases s
    simp_all [V.indented, addCol, Fresh.bolSpaces h, Fresh.column h]
    exact ⟨h.column, h.bolSpaces⟩
  intro m k
  induction k generalizing m with
  | zero => rintro rfl; simp
  | succ k ih =>
    intro e
    rw [← ih (m + 1) (by omega)]
    refine outcome_next (by simp [V.indented, sp, List.replicate_succ]) ?_
    have hrest : (s.indented m (sp (k + 1) ++ r)).rest = [' '] :: (sp k ++ r) := by
      simp [V.indented, sp, List.replicate_succ]
    simp only [vstep, hrest, lexeme_sp]
    have e1 : sp (m + 1) = sp m ++ [[' ']] := List.replicate_succ'
    have e2 : sp (k + 1) = [' '] :: sp k := rfl
    simp only [V.indented, V.skip, V.flags, h.isBol, addCol_succ, e1, e2, ← List.append_assoc,
      h.abut, h.followCont]
    simp [addCol]

theorem fresh_init (cs : List Str) : Fresh (V.init cs) := ⟨rfl, rfl, rfl, rfl, rfl, rfl, rfl, by simp [V.init, u32Max]⟩

/-- The state after a newline. -/
def V.afterNl (v : V) (r : List Str) : V :=
  { v with
    pre := v.pre ++ [['\n']], rest := r
    tokens := if !v.isBol && !v.followCont && !v.onlyComment then
        v.tokens ++ [⟨.terminator, ['\n'], none, none, v.line, v.column⟩] else v.tokens
    line := satInc32 v.line, column := 1, bolSpaces := 0, isBol := true, onlyComment := false
    isCont := if v.isBol then v.isCont else v.followCont
    followCont := false, abut := false }

theorem vstep_nl {env : Env} {v : V} {r : List Str} (h : v.rest = ['\n'] :: r) :
    vstep env v = .done (v.afterNl r) := by
  simp only [vstep, h, lexeme_newline]
  by_cases hc : (!v.isBol && !v.followCont && !v.onlyComment) = true
  · simp [hc, V.afterNl, V.flags, V.resetLine, V.push, V.skip, h]
  · simp only [Bool.not_eq_true] at hc
    simp [hc, V.afterNl, V.flags, V.resetLine, V.skip, h]

theorem outcome_nl {env : Env} {v : V} {r : List Str} (h : v.rest = ['\n'] :: r) :
    outcome env v = outcome env (v.afterNl r) := outcome_next (by simp [h]) (vstep_nl h)

theorem fresh_afterNl {v : V} (r : List Str) (he : v.errors = []) (hl : v.line ≤ u32Max) : Fresh (v.afterNl r) :=
  ⟨rfl, rfl, rfl, rfl, rfl, rfl, he, (satInc32_le hl).2⟩

/-! ### What follows does not matter -/

/-- The parameters of a scan with more clusters at the end. -/
def Par.more (z : List Str) : Par := ⟨z, id, fun _ => rfl, [], [], [], []⟩

theorem moveTok_id : moveTok id = id := rfl
theorem moveErr_id : moveErr id = id := rfl

theorem Rel.more {z : List Str} {v v' : V} (h : Rel (.more z) v v') :
    v' = { v with pre := v'.pre, rest := v.rest ++ z } := by
  obtain ⟨a, ha, ha'⟩ := h.tokens
  obtain ⟨b, hb, hb'⟩ := h.errors
  have h1 := h.rest; have h2 := h.stack; have h3 := h.line; have h4 := h.column; have h5 := h.bolSpaces
  have h6 := h.isBol; have h7 := h.onlyComment; have h8 := h.isCont; have h9 := h.followCont; have h10 := h.abut
  cases v; cases v'
  simp_all [Par.more, moveTok_id, moveErr_id]

theorem rel_more (z : List Str) (v : V) (p : List Str) :
    Rel (.more z) v { v with pre := p, rest := v.rest ++ z } :=
  ⟨rfl, ⟨v.tokens, rfl, by simp [Par.more, moveTok_id]⟩, ⟨v.errors, rfl, by simp [Par.more, moveErr_id]⟩,
    rfl, rfl, rfl, rfl, rfl, rfl, rfl, rfl, rfl⟩

theorem scan_ok_outcome {env : Env} {x : List Str} {ts : List Token} (h : scanClusters env x = .done (.ok ts)) :
    ∃ w, outcome env (V.init x) = .done w ∧ w.rest = [] ∧ w.errors = [] ∧ ts = w.tokens ++ w.closing := by
  rw [scan_finish] at h
  obtain ⟨w, hw, h⟩ := Outcome.bind_done h
  split at h
  · next he => cases h; exact ⟨w, hw, outcome_rest hw, List.isEmpty_iff.mp he, rfl⟩
  · cases h

/-- After an accepted prefix, the scan of a longer source goes on from the state after the prefix if
a newline follows. -/
theorem outcome_append {env : Env} (hA : AsciiLaws env) {x : List Str} {w : V}
    (hw : outcome env (V.init x) = .done w) (he : w.errors = []) (y : List Str) :
    ∃ p, outcome env (V.init (x ++ ['\n'] :: y)) = outcome env { w with pre := p, rest := ['\n'] :: y } := by
  have hrest := outcome_rest hw
  rcases ext_last hA hw he with e | ⟨u, h1, h2, h3⟩
  · refine ⟨[], ?_⟩
    congr 1
    rw [← e]
    have : x = [] := by have := congrArg V.rest e; rw [hrest] at this; exact this
    simp [V.init, this]
  · obtain ⟨u', hu, ho⟩ := h3 (.more (['\n'] :: y)) ['\n'] y (V.init (x ++ ['\n'] :: y)) rfl (.inr (.inl rfl))
      (rel_more _ (V.init x) _)
    obtain ⟨w', hw', hrel⟩ := ext_step hA (d := .more (['\n'] :: y)) rfl (.inr (.inl rfl)) hu h1 h2 he (.inr (.inr rfl))
    refine ⟨w'.pre, ?_⟩
    rw [ho, outcome_next (by rw [hu.rest]; simp [h1]) hw']
    rw [hrel.more, hrest]
    rfl

/-- The state after an accepted prefix and a newline. -/
theorem outcome_line {env : Env} (hA : AsciiLaws env) {x : List Str} {ts : List Token}
    (h : scanClusters env x = .done (.ok ts)) :
    ∃ s : V, Fresh s ∧ s.line = lineAfter (x ++ [['\n']]) ∧ (∀ t ∈ s.tokens, t.line ≤ lineAfter x) ∧
      ∀ y, ∃ p, outcome env (V.init (x ++ ['\n'] :: y)) = outcome env { s with pre := p, rest := y } := by
  obtain ⟨w, hw, hr, he, -⟩ := scan_ok_outcome h
  have hb := outcome_between hw (by simp [V.init, u32Max])
  have hline : w.line = lineAfter x := by
    have : Reach env x w := (vloop_reach _ .init hw).1
    rw [(this.pos hA).1]
    have := this.pre_rest
    rw [hr, List.append_nil] at this
    rw [this]
  refine ⟨w.afterNl [], fresh_afterNl [] he hb.max, ?_, ?_, fun y => ?_⟩
  · show satInc32 w.line = _
    rw [hline, lineAfter_snoc]; simp
  · intro t ht
    have : t ∈ w.tokens ∨ t.line = w.line := by
      simp only [V.afterNl] at ht
      split at ht
      · rcases List.mem_append.mp ht with ht | ht
        · exact .inl ht
        · right; simp at ht; rw [ht]
      · exact .inl ht
    rcases this with ht | ht
    · obtain ⟨new, hn, hn'⟩ := hb.tokens
      rw [hn] at ht
      have := hn' t ht
      omega
    · omega
  · obtain ⟨p, hp⟩ := outcome_append hA hw he y
    refine ⟨p ++ [['\n']], ?_⟩
    rw [hp, outcome_nl (r := y) rfl]
    rfl

end Ws
