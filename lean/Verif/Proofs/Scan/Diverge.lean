import Verif.Proofs.Scan.Stuck
import Verif.Spec.Indent
/-! When a scan does not return. -/
namespace Ws
open Spec Scanner

theorem outdents_diverge {k : Nat} {st : List Nat} (h : outdents k st = .diverge) :
    ∃ x lo y, st = x ++ lo :: y ∧ lo < k ∧ ∀ a ∈ x, k < a := by
  induction st with
  | nil => cases h
  | cons a st ih =>
    simp only [outdents] at h
    split at h
    · cases h
    split at h
    · next hgt =>
      split at h
      · cases h
      · cases h
      · next hd =>
        obtain ⟨x, lo, y, rfl, h1, h2⟩ := ih hd
        refine ⟨a :: x, lo, y, rfl, h1, ?_⟩
        intro b hb
        rcases List.mem_cons.mp hb with rfl | hb
        · exact hgt
        · exact h2 b hb
    · exact ⟨[], a, st, rfl, by omega, by simp⟩

theorem outdents_suffix {k n : Nat} {st st' : List Nat} {b : Bool} (h : outdents k st = .done (n, b, st')) :
    ∃ x, st = x ++ st' := by
  induction st generalizing n b st' with
  | nil => cases h; exact ⟨[], rfl⟩
  | cons a st ih =>
    simp only [outdents] at h
    split at h
    · cases h; exact ⟨[], rfl⟩
    split at h
    · split at h
      · next hd =>
        cases h
        obtain ⟨x, hx⟩ := ih hd
        exact ⟨a :: x, by rw [hx]; rfl⟩
      · cases h
      · cases h
    · cases h

/-- The open levels come from lines of the source, in order, before position `n`. -/
def Recorded (cs : List Str) : List Nat → Nat → Prop
  | [], _ => True
  | a :: st, n => ∃ p l, cs = p ++ l ∧ LineStart p ∧ p.length < n ∧ indentation l = a ∧ 0 < a ∧
      Recorded cs st p.length

theorem Recorded.mono {cs : List Str} {st : List Nat} {n m : Nat} (h : Recorded cs st n) (hnm : n ≤ m) :
    Recorded cs st m := by
  cases st with
  | nil => trivial
  | cons a st =>
    obtain ⟨p, l, h1, h2, h3, h4⟩ := h
    exact ⟨p, l, h1, h2, by omega, h4⟩

theorem Recorded.suffix {cs : List Str} {x st : List Nat} {n : Nat} (h : Recorded cs (x ++ st) n) :
    Recorded cs st n := by
  induction x generalizing n with
  | nil => exact h
  | cons a x ih =>
    obtain ⟨p, l, h1, h2, h3, h4, h5, h6⟩ := h
    exact (ih h6).mono (by omega)

structure DInv (cs : List Str) (v : V) : Prop where
  whole : v.pre ++ v.rest = cs
  bol : v.isBol = true → ∃ p q n, v.pre = p ++ q ∧ LineStart p ∧ v.bolSpaces = min n u16Max ∧
    leadingSpaces false (q ++ v.rest) = n + leadingSpaces false v.rest ∧ Recorded cs v.stack p.length
  mid : v.isBol = false → Recorded cs v.stack (v.pre.length + 1)

theorem DInv.stack {cs : List Str} {v : V} (h : DInv cs v) : Recorded cs v.stack (v.pre.length + 1) := by
  cases hb : v.isBol with
  | false => exact h.mid hb
  | true =>
    obtain ⟨p, q, n, hp, -, -, -, hr⟩ := h.bol hb
    exact hr.mono (by rw [hp]; simp; omega)

theorem dinv_bol {cs : List Str} {v w : V} (h : DInv cs v) {g : Str} {r : List Str} (hr : v.rest = g :: r)
    (hg : g ∉ [[' '], ['\r'], ['\n'], ['\t'], ['\\']]) (hb : v.bol g = .done w) :
    Recorded cs w.stack (v.pre.length + 1) := by
  simp only [V.bol] at hb
  split at hb
  · cases hb; exact h.stack
  next hib =>
  split at hb
  · cases hb; exact h.stack
  split at hb
  · next hgt =>
    split at hb
    · cases hb
      obtain ⟨p, q, n, hp, hl, hn, hi, hrec⟩ := h.bol (by simpa using hib)
      refine ⟨p, q ++ v.rest, by rw [← h.whole, hp, List.append_assoc], hl, by rw [hp]; simp; omega, ?_,
        by omega, hrec⟩
      rw [Spec.indentation, hi, hn, hr]
      simp only [List.mem_cons, List.not_mem_nil, or_false, not_or] at hg
      simp [leadingSpaces, hg]
    · cases hb; exact h.stack
  · split at hb
    · next ho =>
      cases hb
      obtain ⟨x, hx⟩ := outdents_suffix ho
      have := h.stack
      rw [hx] at this
      exact this.suffix
    · cases hb
    · cases hb

theorem leadingSpaces_backslash {cs : List Str} (h : (backslashTaken cs).2 = false) (r : List Str)
    (hr : cs = (backslashTaken cs).1 ++ r) : leadingSpaces true cs = leadingSpaces false r := by
  have hsp : ∀ (s r : List Str), (∀ g ∈ s, g = [' ']) → leadingSpaces true (s ++ r) = leadingSpaces true r := by
    intro s r hs
    induction s with
    | nil => rfl
    | cons g s ih =>
      rw [hs g (by simp)]
      simp [leadingSpaces, ih fun x hx => hs x (by simp [hx])]
  simp only [backslashTaken] at h hr
  generalize he : cs.takeWhile (· == [' ']) = s at *
  generalize hd : cs.dropWhile (· == [' ']) = d at *
  have hcs : cs = s ++ d := by rw [← he, ← hd, List.takeWhile_append_dropWhile]
  have hs : ∀ g ∈ s, g = [' '] := by
    intro g hg
    rw [← he] at hg
    simpa using takeWhile_all _ _ g hg
  split at h
  · cases h
  · next hno =>
    rw [if_neg hno] at hr
    simp only at hr
    have hd' : d = optCr d ++ r := by
      rw [hcs, List.append_assoc] at hr
      exact List.append_cancel_left hr
    rw [hcs, hsp s d hs]
    have hhead : ∀ g, d.head? = some g → g ≠ [' '] := by
      intro g hg
      rw [← hd] at hg
      have := dropWhile_head _ _ g hg
      simpa using this
    cases d with
    | nil =>
      have : r = [] := by
        have := congrArg List.length hd'
        simpa [optCr, eq_comm] using this
      rw [this]; rfl
    | cons g d =>
      have hg := hhead g rfl
      by_cases hcr : g = ['\r']
      · subst hcr
        simp only [optCr, if_true, List.cons_append, List.nil_append, List.cons.injEq, true_and] at hd'
        rw [← hd']; simp [leadingSpaces]
      · simp only [optCr, hcr, if_false, List.nil_append] at hd'
        rw [← hd']
        simp [leadingSpaces, hg, hcr]

theorem lexeme_tab {env : Env} {abut : Bool} {g : Str} {cs : List Str}
    (h : lexeme env abut g cs = .tab) : g = ['\t'] := by
  simp only [lexeme] at h
  repeat' split at h
  all_goals cases h
  assumption

theorem lexeme_space {env : Env} {abut : Bool} {g : Str} {cs : List Str}
    (h : lexeme env abut g cs = .space) : g = [' '] := by
  simp only [lexeme] at h
  repeat' split at h
  all_goals cases h
  assumption

theorem lexeme_cr {env : Env} {abut : Bool} {g : Str} {cs : List Str}
    (h : lexeme env abut g cs = .cr) : g = ['\r'] := by
  simp only [lexeme] at h
  repeat' split at h
  all_goals cases h
  assumption

theorem lexeme_nl {env : Env} {abut : Bool} {g : Str} {cs : List Str}
    (h : lexeme env abut g cs = .newline) : g = ['\n'] := by
  simp only [lexeme] at h
  repeat' split at h
  all_goals cases h
  assumption

theorem lexeme_backslash {env : Env} {abut : Bool} {g : Str} {cs taken : List Str} {nl : Bool}
    (h : lexeme env abut g cs = .backslash taken nl) :
    g = ['\\'] ∧ taken = (backslashTaken cs).1 ∧ nl = (backslashTaken cs).2 := by
  simp only [lexeme] at h
  repeat' split at h
  all_goals cases h
  exact ⟨by assumption, rfl, rfl⟩

theorem dinv_step {env : Env} {cs : List Str} {v w : V} (h : DInv cs v) (hr : v.rest ≠ [])
    (hs : vstep env v = .done w) : DInv cs w := by
  obtain ⟨g, r, hr⟩ := List.exists_cons_of_ne_nil hr
  obtain ⟨hm1, hm2⟩ := vstep_moves hr hs
  have hwhole : w.pre ++ w.rest = cs := by rw [← h.whole, hm1, hm2, List.append_assoc]
  have hg : g ∈ [[' '], ['\r'], ['\n'], ['\t'], ['\\']] →
      lexeme env v.abut g r ∈ [.space, .cr, .newline, .tab,
        .backslash (backslashTaken r).1 (backslashTaken r).2] := by
    intro hg
    simp only [List.mem_cons, List.not_mem_nil, or_false] at hg
    rcases hg with rfl | rfl | rfl | rfl | rfl <;> simp [lexeme, punct, eqPunct]
  have hfirst := lexeme_first env v.abut g r
  have hlen : v.pre.length + 1 ≤ w.pre.length := by
    have hn := clusters_ne_nil g r (lexeme env v.abut g r)
    rw [hm1, List.length_append]
    have := List.length_pos_iff.mpr hn
    omega
  -- a step that starts a lexeme
  have token : ∀ w0, g ∉ [[' '], ['\r'], ['\n'], ['\t'], ['\\']] → v.bol g = .done w0 → w.stack = w0.stack →
      w.isBol = false → DInv cs w := by
    intro w0 hg hb hst hib
    exact ⟨hwhole, fun hc => (by rw [hib] at hc; cases hc), fun _ => (by
      rw [hst]; exact (dinv_bol h hr hg hb).mono (by omega))⟩
  -- a step that starts a line
  have line : w.stack = v.stack → LineStart w.pre → w.bolSpaces = 0 → w.isBol = true → DInv cs w := by
    intro hst hl hsp hib
    exact ⟨hwhole, fun _ => ⟨w.pre, [], 0, by simp, hl, by simp [hsp], by simp, (by
      rw [hst]; exact h.stack.mono hlen)⟩, fun hc => (by rw [hib] at hc; cases hc)⟩
  -- a step inside the indentation
  have blank : w.stack = v.stack → w.isBol = v.isBol →
      (∀ n, v.bolSpaces = min n u16Max → v.isBol = true → ∃ d, w.bolSpaces = min (n + d) u16Max ∧
        leadingSpaces false v.rest = d + leadingSpaces false w.rest) → DInv cs w := by
    intro hst hib hd
    refine ⟨hwhole, fun hc => ?_, fun hc => ?_⟩
    · rw [hib] at hc
      obtain ⟨p, q, n, hp, hl, hn, hi, hrec⟩ := h.bol hc
      obtain ⟨d, h1, h2⟩ := hd n hn hc
      refine ⟨p, q ++ (lexeme env v.abut g r).clusters g r, n + d, by rw [hm1, hp, List.append_assoc], hl, h1,
        ?_, by rw [hst]; exact hrec⟩
      rw [List.append_assoc, ← hm2, hi, h2]; omega
    · rw [hib] at hc
      rw [hst]; exact (h.mid hc).mono (by omega)
  simp only [vstep, hr] at hs
  generalize hk : lexeme env v.abut g r = k at hs hg hm1 hm2 hfirst
  cases k with
  | backslash taken nl =>
    have hbs := lexeme_backslash hk
    obtain ⟨rfl, rfl, rfl⟩ := hbs
    simp only at hs
    split at hs
    · next hnl =>
      cases hs
      refine line rfl ?_ rfl rfl
      obtain ⟨mid, hmid, -⟩ := backslashTaken_spec r hnl
      right
      refine ⟨v.pre ++ (['\\'] :: mid), ?_⟩
      rw [hm1]
      simp [Kind.clusters, hmid]
    · next hnl =>
      have hrest : w.rest = r.drop (backslashTaken r).1.length := by
        cases hs; simp [V.flags, V.err, V.skip, hr]
      cases hs
      refine blank rfl rfl ?_
      intro n hn _
      refine ⟨0, hn, ?_⟩
      rw [hr, hrest]
      have hcs : r = (backslashTaken r).1 ++ r.drop (backslashTaken r).1.length := by
        rw [hr] at hm2
        simp only [Kind.clusters, List.cons_append, List.cons.injEq, true_and] at hm2
        rw [hrest] at hm2
        exact hm2
      rw [← leadingSpaces_backslash (by simpa using hnl) _ hcs]
      simp [leadingSpaces]
  | tab =>
    have hgt : g = ['\t'] := lexeme_tab hk
    cases hs
    refine blank rfl rfl fun n hn _ => ⟨0, hn, ?_⟩
    rw [hr, hgt]
    simp [V.flags, V.err, V.skip, hr, leadingSpaces]
  | space =>
    have hgt : g = [' '] := lexeme_space hk
    cases hs
    refine blank rfl rfl fun n hn hb => ⟨1, ?_, ?_⟩
    · simp only [V.flags, V.skip, hb, if_true, hn, satInc16_min]
    · rw [hr, hgt]
      simp [V.flags, V.skip, hr, leadingSpaces]
  | cr =>
    have hgt : g = ['\r'] := lexeme_cr hk
    cases hs
    refine blank rfl rfl fun n hn _ => ⟨0, hn, ?_⟩
    rw [hr, hgt]
    simp [V.flags, V.skip, hr, leadingSpaces]
  | newline =>
    have hgt : g = ['\n'] := lexeme_nl hk
    have hw : w.stack = v.stack ∧ w.bolSpaces = 0 ∧ w.isBol = true := by
      simp only at hs
      split at hs <;> cases hs <;> exact ⟨rfl, rfl, rfl⟩
    refine line hw.1 (.inr ⟨v.pre, ?_⟩) hw.2.1 hw.2.2
    rw [hm1, hgt]; rfl
  | num taken =>
    obtain ⟨w0, hb, hs⟩ := Outcome.bind_done hs
    have hib := (bol_fields hb).2.2.2.2.2.2.2.2.2
    split at hs
    · cases hs
      exact token w0 (fun hm => by simpa using hg hm) hb rfl hib
    · cases hs
  | _ =>
    obtain ⟨w0, hb, hs⟩ := Outcome.bind_done hs
    have hib := (bol_fields hb).2.2.2.2.2.2.2.2.2
    cases hs
    exact token w0 (fun hm => by simpa using hg hm) hb rfl hib

theorem Reach.dinv {env : Env} {cs : List Str} {v : V} (h : Reach env cs v) : DInv cs v := by
  induction h with
  | init =>
    exact ⟨rfl, fun _ => ⟨[], [], 0, rfl, .inl rfl, rfl, by simp [V.init], trivial⟩, fun h => by cases h⟩
  | step hv hr hs ih => exact dinv_step ih hr hs

theorem scan_diverge {env : Env} {cs : List Str} (h : scanClusters env cs = .diverge) : HasBadOutdent cs := by
  rw [scanClusters_eq] at h
  simp only [vscan] at h
  split at h
  · split at h <;> cases h
  · cases h
  next hd =>
  obtain ⟨u, hu, hur, hus⟩ := (vloop_stuck _ .init).2 (by simp [V.init]) hd
  obtain ⟨g, r, hr, hg, hb⟩ := vstep_diverge hus
  have hi := hu.dinv
  simp only [V.bol] at hb
  split at hb
  · cases hb
  next hib =>
  split at hb
  · cases hb
  next hne =>
  split at hb
  · split at hb <;> cases hb
  next hgt =>
  split at hb
  · cases hb
  · cases hb
  next ho =>
  obtain ⟨x, lo, y, hst, hlo, hx⟩ := outdents_diverge ho
  obtain ⟨p, q, n, hp, hl, hn, hsp, hrec⟩ := hi.bol (by simpa using hib)
  have hind : indentation (q ++ u.rest) = u.bolSpaces := by
    rw [Spec.indentation, hsp, hn, hr]
    simp only [List.mem_cons, List.not_mem_nil, or_false, not_or] at hg
    simp [leadingSpaces, hg]
  cases x with
  | nil =>
    exfalso
    rw [hst] at hne hgt
    simp at hne hgt
    omega
  | cons hi' x =>
    rw [hst] at hrec
    obtain ⟨p2, l2, e2, s2, len2, i2, -, hrec⟩ := hrec
    obtain ⟨p1, l1, e1, s1, len1, i1, pos1, -⟩ := hrec.suffix
    have := hx hi' (by simp)
    exact ⟨p1, l1, p2, l2, p, q ++ u.rest, e1, e2, by rw [← hi.whole, hp, List.append_assoc], s1, s2, hl,
      len1, len2, by omega, by omega, by omega⟩

end Ws
