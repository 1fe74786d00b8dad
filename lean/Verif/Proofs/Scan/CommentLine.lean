import Verif.Proofs.Scan.Insert
import Verif.Spec.CommentLine
/-! Comment lines before lines of code. -/
namespace Ws
open Spec Scanner

/-! ### The layout of a line, twice -/

theorem outdents_top {k : Nat} {st : List Nat} {n : Nat} {found : Bool} {st' : List Nat}
    (h : outdents k st = .done (n, found, st')) : (found = true ∧ st'.head?.getD 0 = k) ∨ (found = false ∧ st' = []) := by
  induction st generalizing n found st' with
  | nil => simp only [outdents] at h; cases h; exact .inr ⟨rfl, rfl⟩
  | cons a below ih =>
    simp only [outdents] at h
    split at h
    · next e => cases h; exact .inl ⟨rfl, by simpa using e⟩
    · split at h
      · split at h
        · next h1 => cases h; exact ih h1
        · cases h
        · cases h
      · cases h

/-- The Indent or Outdent tokens of a line of indentation `k`, and the levels that are open then. -/
def layOut (k : Nat) (st : List Nat) : Option (List TokenType × List Nat) :=
  if k = st.head?.getD 0 then some ([], st)
  else if k > st.head?.getD 0 then some ([.indent], k :: st)
  else match outdents k st with
    | .done (n, found, st') => if found || k = 0 then some (List.replicate n .outdent, st') else none
    | _ => none

theorem layOut_top {k : Nat} {st st' : List Nat} {L : List TokenType} (h : layOut k st = some (L, st')) :
    st'.head?.getD 0 = k := by
  unfold layOut at h
  split at h
  · next h1 => cases h; exact h1.symm
  split at h
  · cases h; rfl
  split at h
  · next ho =>
    split at h
    · next hf =>
      cases h
      rcases outdents_top ho with ⟨-, h⟩ | ⟨rfl, rfl⟩
      · exact h
      · simpa using (by simpa using hf : k = 0).symm
    · cases h
  · cases h

theorem layOut_again {k : Nat} {st st' : List Nat} {L : List TokenType} (h : layOut k st = some (L, st')) :
    layOut k st' = some ([], st') := by
  rw [layOut, if_pos (layOut_top h).symm]

theorem layOut_types {k : Nat} {st st' : List Nat} {L : List TokenType} (h : layOut k st = some (L, st')) :
    (k = st.head?.getD 0 ∧ L = [] ∧ st' = st) ∨ (k > st.head?.getD 0 ∧ L = [.indent] ∧ st' = k :: st) ∨
      (k < st.head?.getD 0 ∧ ∃ n, L = List.replicate (n + 1) .outdent) := by
  unfold layOut at h
  split at h
  · next h1 => cases h; exact .inl ⟨h1, rfl, rfl⟩
  split at h
  · next h2 => cases h; exact .inr (.inl ⟨h2, rfl, rfl⟩)
  next h1 h2 =>
  have hlt : k < st.head?.getD 0 := by omega
  refine .inr (.inr ⟨hlt, ?_⟩)
  split at h
  · next ho =>
    split at h
    · cases h
      cases st with
      | nil => simp at hlt
      | cons a below =>
        simp only [List.head?_cons, Option.getD_some] at hlt
        simp only [outdents, if_neg (show ¬ a = k by omega), if_pos hlt] at ho
        split at ho
        · cases ho; exact ⟨_, rfl⟩
        · cases ho
        · cases ho
    · cases h
  · cases h

/-- When a line of indentation `k` in between changes no layout. -/
theorem layOut_through {k m : Nat} {st st1 st2 st3 : List Nat} {L1 L2 : List TokenType}
    (h1 : layOut k st = some (L1, st1)) (h2 : layOut m st1 = some (L2, st2)) (h : layOut m st = some (L1 ++ L2, st3)) :
    k = st.head?.getD 0 ∨ k = m ∨ (m ≤ k ∧ k ≤ st.head?.getD 0) := by
  have ht := layOut_top h1
  rcases layOut_types h1 with ⟨e, -, -⟩ | ⟨e, rfl, rfl⟩ | ⟨e, n, rfl⟩
  · exact .inl e
  · rcases layOut_types h with ⟨-, h, -⟩ | ⟨-, h, -⟩ | ⟨-, j, h⟩
    · cases h
    · have : L2 = [] := by simpa using h
      subst this
      rcases layOut_types h2 with ⟨e, -, -⟩ | ⟨-, h, -⟩ | ⟨-, j, h⟩
      · exact .inr (.inl (by simpa using e.symm))
      · cases h
      · cases h
    · simp [List.replicate_succ] at h
  · refine .inr (.inr ⟨?_, by omega⟩)
    rcases layOut_types h2 with ⟨e, -, -⟩ | ⟨-, rfl, -⟩ | ⟨e, -⟩
    · omega
    · rcases layOut_types h with ⟨-, h, -⟩ | ⟨-, h, -⟩ | ⟨-, j, h⟩
      · simp at h
      · simp [List.replicate_succ] at h
      · have : TokenType.indent ∈ List.replicate (j + 1) TokenType.outdent := by rw [← h]; simp
        cases List.eq_of_mem_replicate this
    · omega

theorem outdents_through {k m : Nat} {st st1 : List Nat} {n : Nat} (h : outdents k st = .done (n, true, st1)) (hm : m < k) :
    outdents m st = match outdents m st1 with
      | .done (j, found, st2) => .done (n + j, found, st2)
      | o => o := by
  induction st generalizing n st1 with
  | nil => simp [outdents] at h
  | cons a below ih =>
    simp only [outdents] at h
    split at h
    · cases h
      simp only [Nat.zero_add]
      split <;> simp_all
    · split at h
      · next h1 =>
        split at h
        · next e =>
          cases h
          have := ih e
          rw [outdents, if_neg (by omega), if_pos (by omega), this]
          cases outdents m st1 with
          | done x => obtain ⟨j, f, st2⟩ := x; simp only; congr 2; omega
          | panic m => rfl
          | diverge => rfl
        · cases h
        · cases h
      · cases h

/-- Levels closed in two steps. -/
theorem layOut_split {k m : Nat} {st st1 st2 : List Nat} {L1 L : List TokenType} (hk : k ≤ st.head?.getD 0) (hm : m ≤ k)
    (h1 : layOut k st = some (L1, st1)) (h : layOut m st = some (L, st2)) :
    ∃ L2, L = L1 ++ L2 ∧ layOut m st1 = some (L2, st2) := by
  by_cases e : m = k
  · subst e
    rw [h1] at h
    cases h
    exact ⟨[], by simp, layOut_again h1⟩
  by_cases e1 : k = st.head?.getD 0
  · rw [layOut, if_pos e1] at h1
    cases h1
    exact ⟨L, rfl, h⟩
  have ht := layOut_top h1
  unfold layOut at h1 h ⊢
  rw [ht]
  rw [if_neg e1, if_neg (by omega)] at h1
  rw [if_neg (by omega), if_neg (by omega)] at h
  rw [if_neg (by omega), if_neg (by omega)]
  split at h1
  · next n found st' ho =>
    split at h1
    · next hf =>
      have hf : found = true := by
        rcases (by simpa using hf : found = true ∨ k = 0) with hf | hf
        · exact hf
        · omega
      subst hf
      cases h1
      rw [outdents_through ho (by omega)] at h
      cases ho2 : outdents m st1 with
      | panic m => rw [ho2] at h; cases h
      | diverge => rw [ho2] at h; cases h
      | done x =>
        obtain ⟨j, f, st3⟩ := x
        rw [ho2] at h
        simp only at h ⊢
        split at h
        · next hf2 =>
          cases h
          exact ⟨_, by rw [List.replicate_append_replicate], by rw [if_pos hf2]⟩
        · cases h
    · cases h1
  · cases h1

/-- What `bol` does when it records no error. -/
theorem bol_layOut {u w : V} {g : Str} (hb : u.isBol = true) (hc : u.isCont = false) (h : u.bol g = .done w)
    (he : w.errors = []) : ∃ x, layOut u.bolSpaces u.stack = some x := by
  unfold V.bol at h
  unfold layOut
  rw [hb, hc] at h
  simp only [Bool.not_true, Bool.not_false, if_true, Bool.false_eq_true, if_false] at h
  split at h
  · next h1 => rw [if_pos h1]; exact ⟨_, rfl⟩
  next h1 =>
  rw [if_neg h1]
  split at h
  · next h2 => rw [if_pos h2]; exact ⟨_, rfl⟩
  next h2 =>
  rw [if_neg h2]
  split at h
  · next n found st ho =>
    cases h
    simp only [List.append_eq_nil_iff] at he
    rw [ho]
    simp only
    rw [if_pos (by have := he.2; simp at this ⊢; cases found <;> simp_all)]
    exact ⟨_, rfl⟩
  · cases h
  · cases h

theorem layOut_bol {u : V} {L : List TokenType} {st : List Nat} (g : Str) (hb : u.isBol = true) (hc : u.isCont = false)
    (h : layOut u.bolSpaces u.stack = some (L, st)) :
    u.bol g = .done { u with isBol := false, tokens := u.tokens ++ L.map (u.layoutTok · g), stack := st } := by
  unfold V.bol
  unfold layOut at h
  rw [hb, hc]
  simp only [Bool.not_true, Bool.not_false, if_true, Bool.false_eq_true, if_false]
  split at h
  · next h1 =>
    cases h
    rw [if_pos h1]
    simp
  next h1 =>
  rw [if_neg h1]
  split at h
  · next h2 =>
    cases h
    rw [if_pos h2]
    simp
  next h2 =>
  rw [if_neg h2]
  split at h
  · next n found st' ho =>
    split at h
    · next hf =>
      cases h
      rw [ho]
      simp only
      rw [if_neg (by simp at hf ⊢; intro e; subst e; simpa using hf)]
      simp [List.map_replicate]
    · cases h
  · cases h

theorem lexeme_proper {env : Env} {abut : Bool} {g : Str} {cs : List Str} {t : TokenType} {c : Bool}
    (h : lexeme env abut g cs = .tok t c ∨ ∃ x, lexeme env abut g cs = .two t x c) : t ≠ .indent ∧ t ≠ .outdent := by
  have hp : ∀ x, punct g = some x → x.1 ≠ .indent ∧ x.1 ≠ .outdent := by
    intro x hx
    unfold punct at hx
    split at hx <;> cases hx <;> simp
  have hq : ∀ x, eqPunct g = some x → (x.1 ≠ .indent ∧ x.1 ≠ .outdent) ∧ x.2.1 ≠ .indent ∧ x.2.1 ≠ .outdent := by
    intro x hx
    unfold eqPunct at hx
    split at hx <;> cases hx <;> simp
  generalize hk : lexeme env abut g cs = kind at h
  unfold lexeme at hk
  split at hk
  · next e => subst hk; rcases h with h | ⟨x, h⟩ <;> cases h; exact hp _ e
  · split at hk
    · next e =>
      split at hk
      · subst hk; rcases h with h | ⟨x, h⟩ <;> cases h; exact (hq _ e).1
      · subst hk; rcases h with h | ⟨x, h⟩ <;> cases h; exact (hq _ e).2
    · repeat' split at hk
      all_goals subst hk
      all_goals rcases h with h | ⟨x, h⟩ <;> cases h <;> first | simp; done | (split <;> simp)

/-- A lexeme of code first adds the layout of its line, and then, unless it is a comment, a token. -/
theorem vstep_code {env : Env} {g : Str} (cs : List Str) (hg : g ∉ [[' '], ['\t'], ['\r'], ['\n'], ['\\']])
    (line column : Nat) (abut isBol : Bool) :
    ∃ K : V → Outcome V,
      (∀ v : V, v.rest = g :: cs → v.abut = abut → v.line = line → v.column = column → v.isBol = isBol →
        vstep env v = (v.bol g).bind K) ∧
      (∀ w x, K w = .done x → ∃ es, x.errors = w.errors ++ es) ∧
      (¬ (g = ['/'] ∧ cs.head? = some ['/']) → ∀ w x, K w = .done x → x.errors = [] →
        ∃ t : Token, x.tokens = w.tokens ++ [t] ∧ t.tokenType ≠ .indent ∧ t.tokenType ≠ .outdent) := by
  simp only [List.mem_cons, List.not_mem_nil, or_false, not_or] at hg
  cases hl : lexeme env abut g cs with
  | tok t c =>
    exact ⟨_, fun v h1 h2 h3 h4 h5 => by simp only [vstep, h1, h2, hl, h3, h4, bind_def]; rfl, fun w x h => by
      cases h; exact ⟨[], by simp [V.flags, V.push, V.skip]⟩, fun _ w x h _ => by
      cases h; exact ⟨_, rfl, lexeme_proper (.inl hl)⟩⟩
  | two t s c =>
    exact ⟨_, fun v h1 h2 h3 h4 h5 => by simp only [vstep, h1, h2, hl, h3, h4, bind_def]; rfl, fun w x h => by
      cases h; exact ⟨[], by simp [V.flags, V.push, V.skip]⟩, fun _ w x h _ => by
      cases h; exact ⟨_, rfl, lexeme_proper (.inr ⟨_, hl⟩)⟩⟩
  | num t =>
    cases hp : env.parseF64 (g :: t).flatten with
    | some y =>
      exact ⟨_, fun v h1 h2 h3 h4 h5 => by simp only [vstep, h1, h2, hl, h3, h4, hp, bind_def]; rfl, fun w x h => by
        cases h; exact ⟨[], by simp [V.flags, V.push, V.skip]⟩, fun _ w x h _ => by
        cases h; exact ⟨_, rfl, by simp, by simp⟩⟩
    | none =>
      exact ⟨_, fun v h1 h2 h3 h4 h5 => by simp only [vstep, h1, h2, hl, hp, bind_def]; rfl, fun w x h => (by
        cases h), fun _ w x h => (by cases h)⟩
  | ident t =>
    exact ⟨_, fun v h1 h2 h3 h4 h5 => by simp only [vstep, h1, h2, hl, h3, h4, bind_def]; rfl, fun w x h => by
      cases h; exact ⟨[], by simp [V.flags, V.push, V.skip]⟩, fun _ w x h _ => by
      cases h
      have := (keywordType_proper (g :: t).flatten).1
      exact ⟨_, rfl, fun e => this (by rw [show keywordType _ = _ from e]; simp),
        fun e => this (by rw [show keywordType _ = _ from e]; simp)⟩⟩
  | str t =>
    exact ⟨_, fun v h1 h2 h3 h4 h5 => by simp only [vstep, h1, h2, hl, h3, h4, bind_def]; rfl, fun w x h => by
      cases h; exact ⟨[], by simp [V.flags, V.push, V.skip, V.skipLines]⟩, fun _ w x h _ => by
      cases h; exact ⟨_, rfl, by simp, by simp⟩⟩
  | unterminated =>
    exact ⟨_, fun v h1 h2 h3 h4 h5 => by simp only [vstep, h1, h2, hl, bind_def]; rfl, fun w x h => by
      cases h; exact ⟨_, rfl⟩, fun _ w x h he => by
      cases h; simp [V.flags, V.err] at he⟩
  | unexpected =>
    exact ⟨_, fun v h1 h2 h3 h4 h5 => by simp only [vstep, h1, h2, hl, h3, h4, bind_def]; rfl, fun w x h => by
      cases h; exact ⟨_, rfl⟩, fun _ w x h he => by
      cases h; simp [V.flags, V.err] at he⟩
  | comment t =>
    refine ⟨_, fun v h1 h2 h3 h4 h5 => by simp only [vstep, h1, h2, hl, h5, bind_def]; rfl, fun w x h => by
      cases h; exact ⟨[], by simp [V.flags, V.skip]⟩, fun hc => ?_⟩
    exfalso
    unfold lexeme at hl
    repeat' split at hl
    all_goals first
      | cases hl; done
      | (next h1 h2 => exact hc ⟨h1, h2⟩)
  | backslash _ _ | tab | space | cr | newline =>
    exfalso
    simp only [lexeme, if_neg hg.1, if_neg hg.2.1, if_neg hg.2.2.1, if_neg hg.2.2.2.1, if_neg hg.2.2.2.2] at hl
    repeat' split at hl
    all_goals cases hl

/-- The layout and the first token of a line. -/
theorem line_start {env : Env} {u z : V} {g : Str} {r : List Str} (hg : g ∉ [[' '], ['\t'], ['\r'], ['\n'], ['\\']])
    (hr : u.rest = g :: r) (hb : u.isBol = true) (hc : u.isCont = false) (hl : u.line ≤ u32Max)
    (hz : outcome env u = .done z) (he : z.errors = []) :
    ∃ L st, layOut u.bolSpaces u.stack = some (L, st) ∧
      (∀ st1 L1 L2 T, L = L1 ++ L2 → layOut u.bolSpaces st1 = some (L2, st) →
        T = u.tokens ++ L1.map (u.layoutTok · g) → outcome env { u with tokens := T, stack := st1 } = .done z) ∧
      (¬ (g = ['/'] ∧ r.head? = some ['/']) → ∃ t rest, z.tokens = u.tokens ++ L.map (u.layoutTok · g) ++ t :: rest ∧
        t.tokenType ≠ .indent ∧ t.tokenType ≠ .outdent) := by
  obtain ⟨K, hK, hKe, hKt⟩ := vstep_code (env := env) r hg u.line u.column u.abut u.isBol
  rw [outcome_step (by simp [hr]), hK u hr rfl rfl rfl rfl] at hz
  obtain ⟨x, hx, hxz⟩ := Outcome.bind_done hz
  obtain ⟨w, hw, hKw⟩ := Outcome.bind_done hx
  have hxl : x.line ≤ u32Max := by
    have hv : vstep env u = .done x := by
      rw [hK u hr rfl rfl rfl rfl, hw]; exact hKw
    exact (vstep_between hv hl).max
  have hbx := outcome_between hxz hxl
  have hxe : x.errors = [] := by
    obtain ⟨es', e2, -⟩ := hbx.errors
    rw [he] at e2
    exact (List.append_eq_nil_iff.1 e2.symm).1
  have hwe : w.errors = [] := by
    obtain ⟨es, e1⟩ := hKe w x hKw
    rw [hxe] at e1
    exact (List.append_eq_nil_iff.1 e1.symm).1
  obtain ⟨⟨L, st⟩, hlay⟩ := bol_layOut hb hc hw hwe
  have hw2 := layOut_bol g hb hc hlay
  rw [hw] at hw2
  injection hw2 with hw2
  refine ⟨L, st, hlay, ?_, ?_⟩
  · rintro st1 L1 L2 T rfl h2 rfl
    have hbol : ({ u with tokens := u.tokens ++ L1.map (u.layoutTok · g), stack := st1 } : V).bol g = .done w := by
      rw [layOut_bol (u := { u with tokens := u.tokens ++ L1.map (u.layoutTok · g), stack := st1 }) g hb hc h2, hw2]
      simp [V.layoutTok]
    rw [outcome_step (by simp [hr]), hK { u with tokens := u.tokens ++ L1.map (u.layoutTok · g), stack := st1 } hr rfl rfl rfl rfl,
      hbol, ← hxz]
    show (K w).bind _ = _
    rw [hKw]; rfl
  · intro hcm
    obtain ⟨t, ht, h1, h2⟩ := hKt hcm w x hKw hxe
    obtain ⟨new, e1, -⟩ := hbx.tokens
    exact ⟨t, new, by rw [e1, ht, hw2]; simp, h1, h2⟩

theorem unplaced_layout {t t' : TokenType} {g g' : Str} {l c l' c' : Nat} (h : t = .indent ∨ t = .outdent) (e : t' = t) :
    unplaced ⟨t, g, none, none, l, c⟩ = unplaced ⟨t', g', none, none, l', c'⟩ := by
  subst e
  simp [unplaced, h]

theorem layOut_layout {k : Nat} {st st' : List Nat} {L : List TokenType} (h : layOut k st = some (L, st')) :
    ∀ t ∈ L, t = .indent ∨ t = .outdent := by
  intro t ht
  rcases layOut_types h with ⟨-, rfl, -⟩ | ⟨-, rfl, -⟩ | ⟨-, n, rfl⟩
  · cases ht
  · exact .inl (List.mem_singleton.1 ht)
  · exact .inr (List.eq_of_mem_replicate ht)

/-- The state after a comment line. -/
structure AfterComment (s u : V) (m : Nat) (g : Str) (r : List Str) (L : List TokenType) (st : List Nat) : Prop where
  rest : u.rest = g :: r
  tokens : ∃ column, u.tokens = s.tokens ++ L.map (fun t => ⟨t, ['/'], none, none, s.line, column⟩)
  errors : u.errors = []
  stack : u.stack = st
  line : u.line = satInc32 s.line
  column : u.column = addCol 1 m
  bolSpaces : u.bolSpaces = addCol 0 m
  isBol : u.isBol = true
  onlyComment : u.onlyComment = false
  isCont : u.isCont = false
  followCont : u.followCont = false
  abut : u.abut = false

theorem comment_passed {env : Env} {s : V} (hs : Fresh s) (hcont : s.isCont = false) {k m : Nat} {body : List Str}
    (hn : ['\n'] ∉ body) {g : Str} {r : List Str} {L : List TokenType} {st : List Nat}
    (hlay : layOut (addCol 0 k) s.stack = some (L, st))
    (hr : s.rest = spaces k ++ commentText body ++ newline ++ (spaces m ++ g :: r)) :
    ∃ u, outcome env s = outcome env u ∧ AfterComment s u m g r L st := by
  rw [outcome_indented hs k (commentText body ++ newline ++ (spaces m ++ g :: r)) (by rw [hr]; simp [spaces, sp])]
  generalize hv : s.indented k (commentText body ++ newline ++ (spaces m ++ g :: r)) = v
  have hvr : v.rest = ['/'] :: ['/'] :: (body ++ ['\n'] :: (spaces m ++ g :: r)) := by rw [← hv]; simp [V.indented]
  have hvb : v.isBol = true := by rw [← hv]; exact hs.isBol
  have hvc : v.isCont = false := by rw [← hv]; exact hcont
  have hve : v.errors = [] := by rw [← hv]; exact hs.errors
  have hvl : v.line = s.line := by rw [← hv]; rfl
  have hvt : v.tokens = s.tokens := by rw [← hv]; rfl
  have hvbol := layOut_bol (u := v) (L := L) (st := st) ['/'] hvb hvc (by rw [← hv]; exact hlay)
  have hstep : vstep env v = .done
      ({ (({ v with isBol := false, tokens := v.tokens ++ L.map (v.layoutTok · ['/']), stack := st } : V).skip
        (['/'] :: ['/'] :: body)) with onlyComment := v.isBol }.flags false false) := by
    simp only [vstep, hvr, lexeme_comment, takeWhile_body hn, hvbol]
    rfl
  rw [outcome_next (by simp [hvr]) hstep, outcome_nl (r := spaces m ++ g :: r) (by simp [V.flags, V.skip, hvr]),
    outcome_indented (fresh_afterNl _ (by simpa [V.flags, V.skip] using hve)
    (by simpa [V.flags, V.skip, hvl] using hs.line)) m (g :: r) (by simp [V.afterNl, spaces, sp])]
  refine ⟨_, rfl, ?_⟩
  refine ⟨rfl, ⟨v.column, ?_⟩, ?_, ?_, ?_, rfl, rfl, rfl, rfl, ?_, rfl, rfl⟩
  · simp only [V.indented, V.afterNl, V.flags, V.skip, hvb]
    simp [hvt, V.layoutTok, hvl]
  all_goals simp [V.indented, V.afterNl, V.flags, V.skip, hve, hvl]

theorem line_reached {env : Env} {s : V} (hs : Fresh s) {m : Nat} {g : Str} {r : List Str}
    (hr : s.rest = spaces m ++ g :: r) : outcome env s = outcome env (s.indented m (g :: r)) :=
  outcome_indented hs m (g :: r) hr

theorem split_proper {α : Type} {P : α → Prop} : ∀ {a b a' b' : List α} {x x' : α}, a ++ x :: b = a' ++ x' :: b' →
    ¬ P x → ¬ P x' → (∀ y ∈ a, P y) → (∀ y ∈ a', P y) → a = a'
  | [], _, [], _, _, _, _, _, _, _, _ => rfl
  | [], _, y :: a', _, _, _, e, hx, _, _, ha' => by
    cases e
    exact absurd (ha' _ (by simp)) hx
  | y :: a, _, [], _, _, _, e, _, hx', ha, _ => by
    cases e
    exact absurd (ha _ (by simp)) hx'
  | y :: a, _, y' :: a', _, _, _, e, hx, hx', ha, ha' => by
    simp only [List.cons_append, List.cons.injEq] at e
    rw [e.1, split_proper e.2 hx hx' (fun z hz => ha z (by simp [hz])) (fun z hz => ha' z (by simp [hz]))]

section
variable {env : Env} {a : List Str} {n k m : Nat} {body : List Str} {g : Str} {r : List Str} {ts : List Token} {s : V}

theorem finish_ok {o : Outcome V} {ts : List Token} (h : finish o = .done (.ok ts)) :
    ∃ z, o = .done z ∧ z.errors = [] ∧ ts = z.tokens ++ z.closing := by
  obtain ⟨z, rfl, h'⟩ := Outcome.bind_done h
  clear h
  split at h'
  · next he => cases h'; exact ⟨z, rfl, List.isEmpty_iff.1 he, rfl⟩
  · cases h'

/-- The comment line takes over the first part of the layout. -/
theorem comment_layout {l : Nat} (hs : Fresh s) (hl : s.line = l) (hcont : s.isCont = false)
    (ht : ∀ t ∈ s.tokens, t.line ≤ u32Max ∧ (t.line < l ∨ l = u32Max)) (hn : ['\n'] ∉ body)
    (hg : g ∉ [[' '], ['\t'], ['\r'], ['\n'], ['\\']]) {p q : List Str}
    {L1 L2 : List TokenType} {st1 st2 : List Nat} (h1 : layOut (addCol 0 k) s.stack = some (L1, st1))
    (h2 : layOut (addCol 0 m) st1 = some (L2, st2)) (h12 : layOut (addCol 0 m) s.stack = some (L1 ++ L2, st2))
    (hok : finish (outcome env { s with pre := p, rest := spaces m ++ g :: r }) = .done (.ok ts)) :
    ∃ ts', finish (outcome env { s with
        pre := q, rest := spaces k ++ commentText body ++ newline ++ (spaces m ++ g :: r) }) = .done (.ok ts') ∧
      ts'.map unplaced = (ts.map (tokenDown l)).map unplaced := by
  have hf : ∀ p r, Fresh { s with pre := p, rest := r } := fun p r =>
    ⟨hs.isBol, hs.bolSpaces, hs.column, hs.onlyComment, hs.followCont, hs.abut, hs.errors, hs.line⟩
  obtain ⟨z, hz, hze, rfl⟩ := finish_ok hok
  rw [line_reached (hf _ _) rfl] at hz
  generalize hu : ({ s with pre := p, rest := spaces m ++ g :: r } : V).indented m (g :: r) = u at hz
  have hul : u.line = l := by rw [← hu]; exact hl
  have hut : u.tokens = s.tokens := by rw [← hu]; rfl
  have hus : u.stack = s.stack := by rw [← hu]; rfl
  have huk : u.bolSpaces = addCol 0 m := by rw [← hu]; rfl
  have hlm : u.line ≤ u32Max := by rw [hul, ← hl]; exact hs.line
  have hbu := outcome_between hz hlm
  obtain ⟨L, st, hL, ho, -⟩ := line_start hg (by rw [← hu]; rfl) (by rw [← hu]; exact hs.isBol) (by rw [← hu]; exact hcont) hlm hz hze
  rw [hus, huk, h12] at hL
  cases hL
  have ho0 := ho st1 L1 L2 _ rfl (by rw [huk]; exact h2) rfl
  generalize hu0 : ({ u with tokens := u.tokens ++ L1.map (u.layoutTok · g), stack := st1 } : V) = u0 at ho0
  obtain ⟨u1, e1, ha⟩ := comment_passed (env := env) (s := { s with
        pre := q, rest := spaces k ++ commentText body ++ newline ++ (spaces m ++ g :: r) }) (hf _ _) hcont hn h1 rfl
  rw [e1]
  have hrel : Rel ⟨[], satInc32, fun _ => rfl, u0.tokens, u1.tokens, [], []⟩ u0 u1 := by
    refine ⟨?_, ⟨[], by simp, by simp⟩, ⟨[], ?_, by simp [ha.errors]⟩, ?_, ?_, ?_, ?_, ?_, ?_, ?_, ?_, ?_⟩
    all_goals simp only [ha.rest, ha.stack, ha.line, ha.column, ha.bolSpaces, ha.isBol, ha.onlyComment, ha.isCont,
      ha.followCont, ha.abut]
    all_goals rw [← hu0, ← hu]
    all_goals simp [V.indented, hs.errors, hs.isBol, hs.onlyComment, hs.followCont, hs.abut, hcont]
  have hsim := sim_outcome (env := env) rfl hrel
  rw [ho0] at hsim
  cases ho1 : outcome env u1 with
  | panic m => rw [ho1] at hsim; cases hsim
  | diverge => rw [ho1] at hsim; cases hsim
  | done z' =>
    rw [ho1] at hsim
    cases hsim with
    | done hzz =>
      obtain ⟨new, e1, e2⟩ := hzz.tokens
      obtain ⟨es, e3, e4⟩ := hzz.errors
      obtain ⟨new', e5, e6⟩ := hbu.tokens
      obtain ⟨col, ht1⟩ := ha.tokens
      simp only at e1 e2 e3 e4
      have hes : es = [] := by rw [hze] at e3; simpa using e3.symm
      subst hes
      refine ⟨z'.tokens ++ z'.closing, ?_, ?_⟩
      · simp only [finish, bind_def, Outcome.bind, e4]; rfl
      · have hwt : u0.tokens = s.tokens ++ L1.map (u.layoutTok · g) := by rw [← hu0, hut]
        have en : new' = L1.map (u.layoutTok · g) ++ new := by
          rw [e1, hwt, hut, List.append_assoc] at e5
          exact (List.append_cancel_left e5).symm
        have hline := hbu.line
        have d1 : s.tokens.map (tokenDown l) = s.tokens := by
          conv => rhs; rw [← List.map_id s.tokens]
          exact List.map_congr_left fun t h => tokenDown_lt (ht t h).2 (ht t h).1
        have d2 : new.map (tokenDown l) = new.map (moveTok satInc32) :=
          List.map_congr_left fun t h => tokenDown_ge (hul ▸ (e6 t (by rw [en]; simp [h])).1)
        have d3 : (L1.map (fun t => (⟨t, ['/'], none, none, s.line, col⟩ : Token))).map unplaced =
            ((L1.map (u.layoutTok · g)).map (tokenDown l)).map unplaced := by
          simp only [List.map_map]
          refine List.map_congr_left fun t ht => ?_
          by_cases hle : l ≤ u.line
          · simp only [Function.comp, V.layoutTok, tokenDown, hle, if_true]
            exact unplaced_layout (layOut_layout h1 t ht) rfl
          · simp only [Function.comp, V.layoutTok, tokenDown, hle, if_false]
            exact unplaced_layout (layOut_layout h1 t ht) rfl
        have d4 : z'.closing = z.closing.map (tokenDown l) := by
          simp only [V.closing, hzz.stack, hzz.line, hzz.column, List.map_append, List.map_replicate, List.map_cons, List.map_nil]
          rw [tokenDown_ge (t := ⟨.outdent, [], none, none, z.line, satInc16 z.column - 1⟩) (hul ▸ hline),
            tokenDown_ge (t := ⟨.eof, [], none, none, z.line, satInc16 z.column - 1⟩) (hul ▸ hline)]
          rfl
        rw [e2, ht1, e1, hwt, d4]
        simp only [List.map_append] at d1 d2 d3 ⊢
        rw [d1, d2, d3]

theorem type_unplaced (t : Token) : (unplaced t).tokenType = t.tokenType := by
  simp only [unplaced]; split <;> rfl

theorem type_down (l : Nat) (t : Token) : (tokenDown l t).tokenType = t.tokenType := by
  simp only [tokenDown]; split <;> rfl

/-- The comment line can only take over the first part of the layout. -/
theorem comment_layout_conv {l : Nat} (hs : Fresh s) (hcont : s.isCont = false) (hn : ['\n'] ∉ body)
    (hg : g ∉ [[' '], ['\t'], ['\r'], ['\n'], ['\\']]) (hcm : ¬ (g = ['/'] ∧ r.head? = some ['/'])) {p q : List Str}
    {ts' : List Token}
    (hok : finish (outcome env { s with pre := p, rest := spaces m ++ g :: r }) = .done (.ok ts))
    (hok' : finish (outcome env { s with
        pre := q, rest := spaces k ++ commentText body ++ newline ++ (spaces m ++ g :: r) }) = .done (.ok ts'))
    (he : ts'.map unplaced = (ts.map (tokenDown l)).map unplaced) :
    ∃ L1 L2 st1 st2 st3, layOut (addCol 0 k) s.stack = some (L1, st1) ∧ layOut (addCol 0 m) st1 = some (L2, st2) ∧
      layOut (addCol 0 m) s.stack = some (L1 ++ L2, st3) := by
  have hf : ∀ p r, Fresh { s with pre := p, rest := r } := fun p r =>
    ⟨hs.isBol, hs.bolSpaces, hs.column, hs.onlyComment, hs.followCont, hs.abut, hs.errors, hs.line⟩
  obtain ⟨z, hz, hze, rfl⟩ := finish_ok hok
  obtain ⟨z', hz', hze', rfl⟩ := finish_ok hok'
  rw [line_reached (hf _ _) rfl] at hz
  obtain ⟨L, st, hL, -, htok⟩ := line_start (u := V.indented { s with pre := p, rest := spaces m ++ g :: r } m (g :: r)) (g := g) (r := r) hg rfl hs.isBol hcont hs.line hz hze
  obtain ⟨L1, st1, hL1, -, -⟩ := line_start (u := V.indented { s with pre := q, rest := spaces k ++ commentText body ++ newline ++ (spaces m ++ g :: r) } k
      (['/'] :: ['/'] :: (body ++ newline ++ (spaces m ++ g :: r)))) (g := ['/']) (r := ['/'] :: (body ++ newline ++ (spaces m ++ g :: r)))
    (by decide) rfl hs.isBol hcont hs.line (by rw [← line_reached (hf _ _) (by simp)]; exact hz') hze'
  obtain ⟨u1, e1, ha⟩ := comment_passed (env := env) (s := { s with
        pre := q, rest := spaces k ++ commentText body ++ newline ++ (spaces m ++ g :: r) }) (hf _ _) hcont hn hL1 rfl
  rw [e1] at hz'
  obtain ⟨L2, st2, hL2, -, htok'⟩ := line_start (u := u1) hg ha.rest ha.isBol ha.isCont
    (by rw [ha.line]; exact (satInc32_le hs.line).2) hz' hze'
  rw [ha.stack, ha.bolSpaces] at hL2
  obtain ⟨x, rest, e2, hx⟩ := htok hcm
  obtain ⟨x', rest', e3, hx'⟩ := htok' hcm
  obtain ⟨col, e4⟩ := ha.tokens
  have hty := congrArg (List.map Token.tokenType) he
  simp only [List.map_map] at hty
  have f1 : (Token.tokenType ∘ unplaced : Token → TokenType) = Token.tokenType := funext fun t => type_unplaced t
  have f2 : (Token.tokenType ∘ unplaced ∘ tokenDown l : Token → TokenType) = Token.tokenType :=
    funext fun t => (type_unplaced _).trans (type_down _ _)
  have f2' : ((Token.tokenType ∘ unplaced) ∘ tokenDown l : Token → TokenType) = Token.tokenType := f2
  rw [f1] at hty
  try rw [f2] at hty
  try rw [f2'] at hty
  rw [e2, e3, e4] at hty
  simp only [List.map_append, List.map_cons, List.map_map, List.append_assoc, List.cons_append] at hty
  have g1 : ∀ (c : Str) (ln col : Nat), (Token.tokenType ∘ fun t => (⟨t, c, none, none, ln, col⟩ : Token)) = id := fun _ _ _ => rfl
  have hty := List.append_cancel_left hty
  simp only [V.layoutTok, g1, List.map_id] at hty
  rw [← List.append_assoc] at hty
  have hlays : ∀ y ∈ L1 ++ L2, y = TokenType.indent ∨ y = .outdent := by
    intro y hy
    rcases List.mem_append.1 hy with hy | hy
    · exact layOut_layout hL1 y hy
    · exact layOut_layout hL2 y hy
  have := split_proper (P := fun y => y = TokenType.indent ∨ y = .outdent) hty (fun h => h.elim hx'.1 hx'.2)
    (fun h => h.elim hx.1 hx.2) hlays (layOut_layout hL)
  exact ⟨L1, L2, st1, st2, st, hL1, hL2, by rw [this]; exact hL⟩

theorem line_layout (hs : Fresh s) (hcont : s.isCont = false) (hg : g ∉ [[' '], ['\t'], ['\r'], ['\n'], ['\\']])
    {p : List Str} (hok : finish (outcome env { s with pre := p, rest := spaces m ++ g :: r }) = .done (.ok ts)) :
    ∃ L st, layOut (addCol 0 m) s.stack = some (L, st) := by
  obtain ⟨z, hz, hze, rfl⟩ := finish_ok hok
  rw [line_reached (s := { s with pre := p, rest := spaces m ++ g :: r })
    ⟨hs.isBol, hs.bolSpaces, hs.column, hs.onlyComment, hs.followCont, hs.abut, hs.errors, hs.line⟩ rfl] at hz
  obtain ⟨L, st, hL, -⟩ := line_start (u := V.indented { s with pre := p, rest := spaces m ++ g :: r } m (g :: r)) (g := g) (r := r)
    hg rfl hs.isBol hcont hs.line hz hze
  exact ⟨L, st, hL⟩

theorem layout_line (hs : Fresh s) (hcont : s.isCont = false) {p : List Str} {L : List TokenType} {st : List Nat}
    (hL : layOut (addCol 0 k) s.stack = some (L, st)) :
    ∃ ts, finish (outcome env { s with pre := p, rest := spaces k ++ [[';']] }) = .done (.ok ts) := by
  rw [line_reached (s := { s with pre := p, rest := spaces k ++ [[';']] }) (r := [])
    ⟨hs.isBol, hs.bolSpaces, hs.column, hs.onlyComment, hs.followCont, hs.abut, hs.errors, hs.line⟩ rfl]
  generalize hu : ({ s with pre := p, rest := spaces k ++ [[';']] } : V).indented k [[';']] = u
  have hur : u.rest = [[';']] := by rw [← hu]; rfl
  have hbol := layOut_bol (u := u) (L := L) (st := st) [';'] (by rw [← hu]; exact hs.isBol) (by rw [← hu]; exact hcont)
    (by rw [← hu]; exact hL)
  have hue : u.errors = [] := by rw [← hu]; exact hs.errors
  rw [outcome_step (by simp [hur])]
  simp only [vstep, hur, lexeme_semi, hbol, bind_def, Outcome.bind]
  rw [outcome_nil (by simp [V.flags, V.push, V.skip])]
  simp only [finish, bind_def, Outcome.bind]
  rw [if_pos (by simp [V.flags, V.push, V.skip, hue])]
  exact ⟨_, rfl⟩

/-- A comment line is inserted before a line of code of the same indentation. -/
theorem insert_comment_before (hA : AsciiLaws env) (h : CompleteLines env a) (hk : BlockIndented env a n)
    (hn : ['\n'] ∉ body) (hg : g ∉ [[' '], ['\t'], ['\r'], ['\n'], ['\\']])
    (hs : scanClusters env (a ++ (spaces k ++ g :: r)) = .done (.ok ts)) :
    ∃ ts', scanClusters env (a ++ (spaces k ++ commentText body ++ newline) ++ (spaces k ++ g :: r)) = .done (.ok ts') ∧
      ts'.map unplaced = (ts.map (tokenDown (lineAfter a))).map unplaced := by
  obtain ⟨s, h1, h2, h3, h4⟩ := complete_state hA h
  obtain ⟨hcont, -⟩ := block_state h1 h4 hk
  obtain ⟨p, hp⟩ := h4 (spaces k ++ g :: r)
  obtain ⟨q, hq⟩ := h4 (spaces k ++ commentText body ++ newline ++ (spaces k ++ g :: r))
  rw [scan_finish, hp] at hs
  rw [scan_finish, List.append_assoc, hq]
  obtain ⟨L, st, hL⟩ := line_layout h1 hcont hg hs
  exact comment_layout h1 h2 hcont h3 hn hg hL (layOut_again hL) (by rw [List.append_nil]; exact hL) hs

/-- When exactly a comment line before a line of code changes nothing but the text and place of layout
tokens. -/
theorem insert_comment_exact (hA : AsciiLaws env) (h : CompleteLines env a) (hk : BlockIndented env a n)
    (hn : ['\n'] ∉ body) (hg : g ∉ [[' '], ['\t'], ['\r'], ['\n'], ['\\']])
    (hcm : ¬ (g = ['/'] ∧ r.head? = some ['/'])) (hnm : n ≤ u16Max) (hkm : k ≤ u16Max) (hmm : m ≤ u16Max)
    (hs : scanClusters env (a ++ (spaces m ++ g :: r)) = .done (.ok ts)) :
    (∃ ts', scanClusters env (a ++ (spaces k ++ commentText body ++ newline) ++ (spaces m ++ g :: r)) = .done (.ok ts') ∧
      ts'.map unplaced = (ts.map (tokenDown (lineAfter a))).map unplaced) ↔
    k = n ∨ k = m ∨ (m < k ∧ k < n ∧ ∃ ts0, scanClusters env (a ++ (spaces k ++ [[';']])) = .done (.ok ts0)) := by
  obtain ⟨s, h1, h2, h3, h4⟩ := complete_state hA h
  obtain ⟨hcont, hlevel⟩ := block_state h1 h4 hk
  obtain ⟨p, hp⟩ := h4 (spaces m ++ g :: r)
  obtain ⟨q, hq⟩ := h4 (spaces k ++ commentText body ++ newline ++ (spaces m ++ g :: r))
  obtain ⟨o, ho⟩ := h4 (spaces k ++ [[';']])
  have cap : ∀ x, x ≤ u16Max → addCol 0 x = x := fun x hx => by rw [addCol_zero]; omega
  rw [cap n hnm] at hlevel
  rw [scan_finish, hp] at hs
  rw [scan_finish, List.append_assoc, hq, scan_finish, ho]
  constructor
  · rintro ⟨ts', hs', he⟩
    obtain ⟨L1, L2, st1, st2, st3, e1, e2, e3⟩ := comment_layout_conv h1 hcont hn hg hcm hs hs' he
    have := layOut_through e1 e2 e3
    rw [cap k hkm, cap m hmm, ← hlevel] at this
    by_cases c1 : k = n
    · exact .inl c1
    by_cases c2 : k = m
    · exact .inr (.inl c2)
    have := (this.resolve_left c1).resolve_left c2
    exact .inr (.inr ⟨by omega, by omega, layout_line h1 hcont e1⟩)
  · intro hcase
    obtain ⟨L, st, hL⟩ := line_layout h1 hcont hg hs
    rcases hcase with rfl | rfl | ⟨c1, c2, ts0, c3⟩
    · refine comment_layout h1 h2 hcont h3 hn hg (L1 := []) (st1 := s.stack) ?_ hL hL hs
      rw [layOut, cap _ hkm, if_pos hlevel]
    · exact comment_layout h1 h2 hcont h3 hn hg hL (layOut_again hL) (by rw [List.append_nil]; exact hL) hs
    · obtain ⟨L1, st1, hL1⟩ := line_layout h1 hcont (by decide) c3
      obtain ⟨L2, rfl, hL2⟩ := layOut_split (by rw [cap k hkm]; omega) (by rw [cap k hkm, cap m hmm]; omega) hL1 hL
      exact comment_layout h1 h2 hcont h3 hn hg hL1 hL2 hL hs

end

end Ws
