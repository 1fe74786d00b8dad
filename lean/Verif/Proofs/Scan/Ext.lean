import Verif.Proofs.Scan.Sim
/-! The scan of a prefix of the source does not depend on what follows. -/
namespace Ws
open Spec Scanner

/-- Clusters that end most lexemes. -/
def Break (h : Str) : Prop := h = [' '] ∨ h = ['\n'] ∨ h = ['/']

theorem Break.digit {h : Str} (hb : Break h) : isDigit h = false := by
  rcases hb with rfl | rfl | rfl <;> rfl
theorem Break.alnum {env : Env} (hA : AsciiLaws env) {h : Str} (hb : Break h) : isAlnum env h = false := by
  rcases hb with rfl | rfl | rfl
  · simp only [isAlnum, hA.alphanumeric ' ' (by decide)]; decide
  · exact isAlnum_newline hA
  · simp only [isAlnum, hA.alphanumeric '/' (by decide)]; decide

theorem takeWhile_ext {α : Type} {p : α → Bool} {h : α} (hp : p h = false) (l y : List α) :
    (l ++ h :: y).takeWhile p = l.takeWhile p := by
  induction l with
  | nil => simp [hp]
  | cons a l ih => simp only [List.cons_append, List.takeWhile_cons, ih]
theorem dropWhile_ext {α : Type} {p : α → Bool} {h : α} (hp : p h = false) (l y : List α) :
    (l ++ h :: y).dropWhile p = l.dropWhile p ++ h :: y := by
  induction l with
  | nil => simp [hp]
  | cons a l ih =>
    simp only [List.cons_append, List.dropWhile_cons, ih]
    split <;> simp

theorem fraction_ext {h : Str} (hb : Break h) (r y : List Str) : fraction (r ++ h :: y) = fraction r := by
  have hd := hb.digit
  match r with
  | [] =>
    cases y with
    | nil => rfl
    | cons c y =>
      simp only [List.nil_append, fraction]
      rw [if_neg (by rcases hb with rfl | rfl | rfl <;> decide)]
  | [d] =>
    simp only [List.cons_append, List.nil_append, fraction, hd]
    simp
  | d :: c :: r =>
    simp only [List.cons_append, fraction]
    split
    · split
      · rw [← List.cons_append, takeWhile_ext hd]
      · rfl
    · rfl

theorem dropWhile_space_nil {cs : List Str} (h : cs.dropWhile (· == [' ']) = []) (z : List Str) :
    (cs ++ z).dropWhile (· == [' ']) = z.dropWhile (· == [' ']) := by
  induction cs with
  | nil => rfl
  | cons a cs ih =>
    simp only [List.dropWhile_cons, List.cons_append] at h ⊢
    split at h
    · next ha => rw [if_pos ha]; exact ih h
    · cases h

theorem backslash_ext {cs : List Str} (hb : (backslashTaken cs).2 = true) (z : List Str) :
    backslashTaken (cs ++ z) = backslashTaken cs := by
  have key : ∀ cs : List Str, ∀ d e, cs.dropWhile (· == [' ']) = d :: e →
      (cs ++ z).dropWhile (· == [' ']) = d :: (e ++ z) ∧
      (cs ++ z).takeWhile (· == [' ']) = cs.takeWhile (· == [' ']) := by
    intro cs
    induction cs with
    | nil => intro d e h; cases h
    | cons a cs ih =>
      intro d e h
      simp only [List.dropWhile_cons, List.takeWhile_cons, List.cons_append] at h ⊢
      split at h
      · next ha => rw [if_pos ha, if_pos ha, if_pos ha]; obtain ⟨h1, h2⟩ := ih d e h; exact ⟨h1, by rw [h2]⟩
      · next ha => rw [if_neg ha, if_neg ha, if_neg ha]; cases h; exact ⟨rfl, rfl⟩
  simp only [backslashTaken] at hb ⊢
  cases hr : cs.dropWhile (· == [' ']) with
  | nil => rw [hr] at hb; simp [optCr] at hb
  | cons d e =>
    obtain ⟨h1, h2⟩ := key cs d e hr
    rw [h1, h2]
    rw [hr] at hb
    by_cases hcr : d = ['\r']
    · subst hcr
      cases e with
      | nil => simp [optCr] at hb
      | cons f e => simp [optCr] at hb ⊢
    · simp [optCr, hcr] at hb ⊢

/-- The lexeme at the head of the clusters does not depend on what follows after a break, except for
an unterminated string, a backslash that does not continue the line, a comment that reaches the end,
and a final slash. -/
theorem lexeme_ext {env : Env} (hA : AsciiLaws env) {abut : Bool} {g : Str} {cs : List Str} {h : Str}
    (hb : Break h) (y : List Str) (hc : (g = ['/'] → ((lexeme env abut g cs).clusters g cs).length < cs.length + 1) ∨ h = ['\n'])
    (h1 : lexeme env abut g cs ≠ .unterminated) (h2 : ∀ t, lexeme env abut g cs ≠ .backslash t false) :
    lexeme env abut g (cs ++ h :: y) = lexeme env abut g cs := by
  have hhead : ∀ e : Str, e ≠ h → ((cs ++ h :: y).head? = some e) = (cs.head? = some e) := by
    intro e he
    cases cs with
    | nil => simpa using fun e' => he e'.symm
    | cons a cs => rfl
  have heq : ['='] ≠ h := by rcases hb with rfl | rfl | rfl <;> decide
  simp only [lexeme] at hc h1 h2 ⊢
  cases hp : punct g with
  | some tc => rfl
  | none =>
    rw [hp] at hc h1 h2
    cases hq : eqPunct g with
    | some tc => simp only [hhead _ heq]
    | none =>
      rw [hq] at hc h1 h2
      simp only at hc h1 h2 ⊢
      by_cases e1 : g = ['(']
      · simp only [if_pos e1]
      simp only [if_neg e1] at hc h1 h2 ⊢
      by_cases e2 : g = ['/']
      · simp only [if_pos e2] at hc ⊢
        cases cs with
        | nil =>
          rcases hc with hc | rfl
          · have hc := hc e2
            simp [Kind.clusters] at hc
          · rfl
        | cons a cs =>
          by_cases ha : (a :: cs).head? = some ['/']
          · have ha' : (a :: cs ++ h :: y).head? = some ['/'] := ha
            rw [if_pos ha']
            rw [if_pos ha] at hc ⊢
            simp only [List.cons_append, List.tail_cons] at hc ⊢
            rcases hc with hc | rfl
            · have hc := hc e2
              have : ∃ d e, cs.dropWhile (fun g => !(g == ['\n'])) = d :: e := by
                cases hd : cs.dropWhile (fun g => !(g == ['\n'])) with
                | nil =>
                  have := List.takeWhile_append_dropWhile (p := fun g => !(g == ['\n'])) (l := cs)
                  rw [hd, List.append_nil] at this
                  simp [Kind.clusters, this] at hc
                | cons d e => exact ⟨d, e, rfl⟩
              obtain ⟨d, e, hd⟩ := this
              have hpd : (fun g => !(g == ['\n'])) d = false := by
                have := List.head?_dropWhile_not (p := fun g : Str => !(g == ['\n'])) (l := cs)
                rw [hd] at this
                simpa using this
              have hsplit := List.takeWhile_append_dropWhile (p := fun g => !(g == ['\n'])) (l := cs)
              rw [hd] at hsplit
              have : (cs ++ h :: y).takeWhile (fun g => !(g == ['\n'])) = cs.takeWhile (fun g => !(g == ['\n'])) := by
                rw [← hsplit, List.append_assoc, List.cons_append, takeWhile_ext (p := fun g => !(g == ['\n'])) hpd,
                  takeWhile_ext (p := fun g => !(g == ['\n'])) hpd]
              rw [this]
            · rw [takeWhile_ext (by decide)]
          · have ha' : ¬ (a :: cs ++ h :: y).head? = some ['/'] := ha
            rw [if_neg ha', if_neg ha]
      simp only [if_neg e2] at hc h1 h2 ⊢
      by_cases e3 : g = ['\\']
      · simp only [if_pos e3] at h2 ⊢
        cases hn : (backslashTaken cs).2 with
        | false => exact absurd (by rw [hn]) (h2 (backslashTaken cs).1)
        | true => rw [backslash_ext hn, hn]
      simp only [if_neg e3] at hc h1 h2 ⊢
      by_cases e4 : g = ['\t']
      · simp only [if_pos e4]
      simp only [if_neg e4] at hc h1 h2 ⊢
      by_cases e5 : g = [' ']
      · simp only [if_pos e5]
      simp only [if_neg e5] at hc h1 h2 ⊢
      by_cases e6 : g = ['\r']
      · simp only [if_pos e6]
      simp only [if_neg e6] at hc h1 h2 ⊢
      by_cases e7 : g = ['\n']
      · simp only [if_pos e7]
      simp only [if_neg e7] at hc h1 h2 ⊢
      by_cases e8 : g = ['"']
      · simp only [if_pos e8] at h1 ⊢
        by_cases ha : cs.any (· == ['"']) = true
        · have : (cs ++ h :: y).any (· == ['"']) = true := by rw [List.any_append, ha]; rfl
          rw [if_pos ha, if_pos this]
          obtain ⟨r, hr⟩ := dropWhile_quote cs ha
          generalize hb2 : cs.takeWhile (fun g => !(g == ['"'])) = body at hr
          rw [hr, List.append_assoc, List.cons_append, takeWhile_ext (by decide)]
          rw [hr, takeWhile_ext (by decide)] at hb2
          rw [hb2]
        · exact absurd (by rw [if_neg ha]) h1
      simp only [if_neg e8] at hc h1 h2 ⊢
      split
      · rw [takeWhile_ext hb.digit, dropWhile_ext hb.digit, fraction_ext hb]
      · split
        · rw [takeWhile_ext (hb.alnum hA)]
        · rfl

theorem vstep_kind_ok {env : Env} {v w : V} {g : Str} {cs : List Str} (hr : v.rest = g :: cs)
    (h : vstep env v = .done w) (he : w.errors = []) :
    lexeme env v.abut g cs ≠ .unterminated ∧ ∀ t, lexeme env v.abut g cs ≠ .backslash t false := by
  simp only [vstep, hr] at h
  generalize lexeme env v.abut g cs = k at h
  constructor
  · rintro rfl
    obtain ⟨w0, hb, h⟩ := Outcome.bind_done h
    cases h
    simp [V.flags, V.err] at he
  · rintro t rfl
    cases h
    simp [V.flags, V.err] at he

theorem ext_step {env : Env} (hA : AsciiLaws env) {d : Par} {h : Str} {y : List Str} (hz : d.z = h :: y)
    (hb : Break h) {v v' w : V} (hrel : Rel d v v') (hne : v.rest ≠ []) (hs : vstep env v = .done w)
    (he : w.errors = []) (hl : w.rest ≠ [] ∨ v.rest.head? ≠ some ['/'] ∨ h = ['\n']) :
    ∃ w', vstep env v' = .done w' ∧ Rel d w w' := by
  obtain ⟨g, cs, hr⟩ := List.exists_cons_of_ne_nil hne
  obtain ⟨h1, h2⟩ := vstep_kind_ok hr hs he
  have hm := (vstep_moves hr hs).2
  have hc : (g = ['/'] → ((lexeme env v.abut g cs).clusters g cs).length < cs.length + 1) ∨ h = ['\n'] := by
    rcases hl with hl | hl | hl
    · left
      intro _
      have := congrArg List.length hm
      rw [hr, List.length_append, List.length_cons] at this
      have := List.length_pos_iff.mpr hl
      omega
    · left; rintro rfl; rw [hr] at hl; exact absurd rfl hl
    · exact .inr hl
  have := sim_step hrel hr (by rw [hz]; exact lexeme_ext hA hb y hc h1 h2) (.inr h1)
  rw [hs] at this
  revert this
  generalize vstep env v' = o
  intro this
  cases this with
  | done hr => exact ⟨_, rfl, hr⟩

theorem outcome_rest {env : Env} {v w : V} (h : outcome env v = .done w) : w.rest = [] := by
  generalize hn : v.rest.length = n
  induction n using Nat.strongRecOn generalizing v with
  | ind n ih =>
    cases hr : v.rest with
    | nil => rw [outcome_nil hr] at h; cases h; exact hr
    | cons g cs =>
      have hne : v.rest ≠ [] := by simp [hr]
      rw [outcome_step hne] at h
      obtain ⟨u, hu, h⟩ := Outcome.bind_done h
      exact ih _ (by rw [← hn]; exact vstep_length hne hu) h rfl

theorem outcome_errors {env : Env} {v w : V} (h : outcome env v = .done w) : ∃ es, w.errors = v.errors ++ es := by
  generalize hn : v.rest.length = n
  induction n using Nat.strongRecOn generalizing v with
  | ind n ih =>
    cases hr : v.rest with
    | nil => rw [outcome_nil hr] at h; cases h; exact ⟨[], by simp⟩
    | cons g cs =>
      have hne : v.rest ≠ [] := by simp [hr]
      rw [outcome_step hne] at h
      obtain ⟨u, hu, h⟩ := Outcome.bind_done h
      obtain ⟨e1, h1⟩ := vstep_errors hu
      obtain ⟨e2, h2⟩ := ih _ (by rw [← hn]; exact vstep_length hne hu) h rfl
      exact ⟨e1 ++ e2, by rw [h2, h1, List.append_assoc]⟩

/-- The scan up to the last lexeme is the same whatever follows. -/
theorem ext_last {env : Env} (hA : AsciiLaws env) {v w : V} (h : outcome env v = .done w) (he : w.errors = []) :
    v = w ∨ ∃ u, u.rest ≠ [] ∧ vstep env u = .done w ∧
      ∀ (d : Par) (h : Str) (y : List Str) (v' : V), d.z = h :: y → Break h → Rel d v v' →
        ∃ u', Rel d u u' ∧ outcome env v' = outcome env u' := by
  generalize hn : v.rest.length = n
  induction n using Nat.strongRecOn generalizing v with
  | ind n ih =>
    cases hr : v.rest with
    | nil => rw [outcome_nil hr] at h; cases h; exact .inl rfl
    | cons g cs =>
      right
      have hne : v.rest ≠ [] := by simp [hr]
      rw [outcome_step hne] at h
      obtain ⟨u, hu, h⟩ := Outcome.bind_done h
      by_cases hurest : u.rest = []
      · rw [outcome_nil hurest] at h; cases h
        exact ⟨v, hne, hu, fun d h y v' _ _ hrel => ⟨v', hrel, rfl⟩⟩
      rcases ih _ (by rw [← hn]; exact vstep_length hne hu) h rfl with rfl | ⟨u2, h1, h2, h3⟩
      · exact absurd (outcome_rest h) hurest
      · refine ⟨u2, h1, h2, fun d b y v' hz hb hrel => ?_⟩
        obtain ⟨es, hes⟩ := outcome_errors h
        have heu : u.errors = [] := by rw [he] at hes; exact (List.append_eq_nil_iff.mp hes.symm).1
        obtain ⟨w', hw', hrel'⟩ := ext_step hA hz hb hrel hne hu heu (.inl hurest)
        obtain ⟨u', hu', ho⟩ := h3 d b y w' hz hb hrel'
        refine ⟨u', hu', ?_⟩
        rw [← ho]
        refine outcome_next ?_ hw'
        rw [hrel.rest, hr]; simp

end Ws
