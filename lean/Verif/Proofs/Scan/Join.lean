import Verif.Proofs.Scan.Blind
import Verif.Proofs.Scan.Respell
import Verif.Spec.Join
/-! The scan of a source after complete lines. -/
namespace Ws
open Spec Scanner

theorem outdents_all {st : List Nat} (h : ∀ k ∈ st, 0 < k) : outdents 0 st = .done (st.length, false, []) := by
  induction st with
  | nil => rfl
  | cons a st ih =>
    have ha := h a (by simp)
    rw [outdents, if_neg (by omega), if_pos (by omega), ih fun k hk => h k (by simp [hk])]
    rfl

/-- The state in which all blocks have been closed before the cluster `g`. -/
def V.allClosed (v : V) (g : Str) : V :=
  { v with tokens := v.tokens ++ List.replicate v.stack.length (v.layoutTok .outdent g), stack := [], isCont := false }

theorem closed_bol {v : V} {g : Str} (hb : v.isBol = true) (h0 : v.bolSpaces = 0) (he : v.errors = [])
    (h : ∀ k ∈ v.stack, 0 < k) :
    OBlindIn (v.bol g) ((v.allClosed g).bol g) := by
  have hm : (v.allClosed g).bol g = .done { v.allClosed g with isBol := false } := by
    simp [V.bol, V.allClosed, hb, h0]
  rw [hm]
  cases hs : v.stack with
  | nil =>
    have hv : v.bol g = .done { v with isBol := false } := by simp [V.bol, hb, h0, hs]
    rw [hv]
    exact .done ⟨rfl, by simp [V.allClosed, hs, SameTokens], rfl, by simp [V.allClosed, hs], rfl, rfl, rfl⟩
  | cons k st =>
    have hk := h k (by simp [hs])
    have ho := outdents_all h
    have hv : v.bol g = .done { v with
        isBol := false, tokens := v.tokens ++ List.replicate v.stack.length (v.layoutTok .outdent g), stack := [] } := by
      rw [V.bol]
      simp only [hb, h0, ho]
      simp [hs, he]
      omega
    rw [hv]
    exact .done ⟨rfl, rfl, rfl, rfl, rfl, rfl, rfl⟩

/-- The first step at the margin closes all blocks. -/
theorem closed_step {env : Env} {v : V} {g : Str} {r : List Str} (hr : v.rest = g :: r)
    (hg : g ∉ [[' '], ['\t'], ['\r'], ['\n'], ['\\']]) (hb : v.isBol = true) (h0 : v.bolSpaces = 0) (he : v.errors = [])
    (h : ∀ k ∈ v.stack, 0 < k) : OBlind (vstep env v) (vstep env (v.allClosed g)) := by
  have hbol := closed_bol (g := g) hb h0 he h
  have hr' : (v.allClosed g).rest = g :: r := hr
  have hl : ∀ taken nl, lexeme env v.abut g r ≠ .tab ∧ lexeme env v.abut g r ≠ .space ∧ lexeme env v.abut g r ≠ .cr ∧
      lexeme env v.abut g r ≠ .newline ∧ lexeme env v.abut g r ≠ .backslash taken nl := by
    intro taken nl
    simp only [List.mem_cons, List.not_mem_nil, or_false, not_or] at hg
    obtain ⟨g1, g2, g3, g4, g5⟩ := hg
    unfold lexeme
    repeat' split
    all_goals first | (simp; done) | contradiction
  have ha : (v.allClosed g).abut = v.abut := rfl
  simp only [vstep, hr, hr', ha]
  generalize lexeme env v.abut g r = k at *
  cases k with
  | tok t c => exact hbol.bind fun w w' hw => .done (((hw.skip _).push (by exact rfl)).flags _ _)
  | two t second c => exact hbol.bind fun w w' hw => .done (((hw.skip _).push (by exact rfl)).flags _ _)
  | num taken =>
    refine hbol.bind fun w w' hw => ?_
    split
    · exact .done (((hw.skip _).push (by exact rfl)).flags _ _)
    · exact .panic _
  | ident taken => exact hbol.bind fun w w' hw => .done (((hw.skip _).push (by exact rfl)).flags _ _)
  | str taken =>
    exact hbol.bind fun w w' hw => .done (((((hw.skip _).skipLines _).skip _).push (by exact rfl)).flags _ _)
  | unterminated =>
    refine hbol.bind fun w w' hw => .done (BlindIn.flags (BlindIn.err ?_ (by exact rfl)) _ _)
    have := (hw.skip [g]).skipLines r
    exact ⟨this.rest, this.tokens, this.errors, this.stack, this.isBol, this.isBol', this.onlyComment⟩
  | unexpected => exact hbol.bind fun w w' hw => .done (((hw.skip _).err (by exact rfl)).flags _ _)
  | comment taken =>
    refine hbol.bind fun w w' hw => .done (BlindIn.flags ?_ _ _)
    have := hw.skip (g :: taken)
    exact ⟨this.rest, this.tokens, this.errors, this.stack, this.isBol, this.isBol', rfl⟩
  | backslash taken nl => exact absurd rfl (hl taken nl).2.2.2.2
  | tab => exact absurd rfl (hl [] false).1
  | space => exact absurd rfl (hl [] false).2.1
  | cr => exact absurd rfl (hl [] false).2.2.1
  | newline => exact absurd rfl (hl [] false).2.2.2.1

/-- So what follows is the same. -/
theorem closed_finish {env : Env} {v : V} {g : Str} {r : List Str} (hr : v.rest = g :: r)
    (hg : g ∉ [[' '], ['\t'], ['\r'], ['\n'], ['\\']]) (hb : v.isBol = true) (h0 : v.bolSpaces = 0) (he : v.errors = [])
    (h : ∀ k ∈ v.stack, 0 < k) :
    SameScan (finish (outcome env v)) (finish (outcome env (v.allClosed g))) := by
  have hs := closed_step (env := env) hr hg hb h0 he h
  rw [outcome_step (by rw [hr]; simp), outcome_step (v := v.allClosed g) (by show v.rest ≠ []; rw [hr]; simp)]
  revert hs
  generalize vstep env v = o
  generalize vstep env (v.allClosed g) = o'
  intro hs
  cases hs with
  | done hw => exact hw.finish
  | panic m => rfl
  | diverge => rfl

/-- The line `n` of a source that begins on line `d + 1`. -/
def lineBelow (d n : Nat) : Nat := min (n + d) u32Max

theorem lineBelow_comm (d n : Nat) : lineBelow d (satInc32 n) = satInc32 (lineBelow d n) := by
  unfold satInc32
  by_cases h : n < u32Max
  · rw [if_pos h]
    by_cases h2 : n + d < u32Max
    · rw [if_pos (by unfold lineBelow; omega)]; unfold lineBelow; omega
    · rw [if_neg (by unfold lineBelow; omega)]; unfold lineBelow; omega
  · rw [if_neg h, if_neg (by unfold lineBelow; omega)]; unfold lineBelow; omega

/-- The scan of `b` from the margin after `s`. -/
theorem closed_rel {s : V} {b : List Str} {g : Str} (hf : Fresh s) (hr : s.rest = b) (hl : 1 ≤ s.line) :
    Rel ⟨[], lineBelow (s.line - 1), lineBelow_comm _, [], (s.allClosed g).tokens, [], []⟩ (V.init b) (s.allClosed g) where
  rest := by simp [V.init, V.allClosed, hr]
  tokens := ⟨[], rfl, by simp⟩
  errors := ⟨[], rfl, by simpa [V.allClosed] using hf.errors⟩
  stack := rfl
  line := by
    have := hf.line
    simp only [V.init, V.allClosed, lineBelow]
    omega
  column := hf.column
  bolSpaces := hf.bolSpaces
  isBol := hf.isBol
  onlyComment := hf.onlyComment
  isCont := rfl
  followCont := hf.followCont
  abut := hf.abut

theorem each_refl {α : Type} {r : α → α → Prop} (h : ∀ a, r a a) : ∀ l, Each r l l
  | [] => .nil
  | a :: l => .cons (h a) (each_refl h l)

theorem Spec.Each.append {α β : Type} {r : α → β → Prop} : ∀ {a b a' b'}, Each r a b → Each r a' b' → Each r (a ++ a') (b ++ b')
  | _, _, _, _, .nil, h => h
  | _, _, _, _, .cons h hs, h' => .cons h (hs.append h')

theorem each_moved : ∀ l : List Token, ∀ f, Each SameToken (l.map (moveTok f)) l
  | [], _ => .nil
  | _ :: l, f => .cons ⟨rfl, fun _ => rfl, rfl, rfl⟩ (each_moved l f)

theorem each_trans {α : Type} {r : α → α → Prop} (h : ∀ a b c, r a b → r b c → r a c) :
    ∀ {a b c}, Each r a b → Each r b c → Each r a c
  | _, _, _, .nil, .nil => .nil
  | _, _, _, .cons h1 hs1, .cons h2 hs2 => .cons (h _ _ _ h1 h2) (each_trans h hs1 hs2)

theorem each_same : ∀ {a b : List Token}, SameTokens a b → Each SameToken a b
  | [], [], _ => .nil
  | [], _ :: _, h => by simp [SameTokens] at h
  | _ :: _, [], h => by simp [SameTokens] at h
  | x :: a, y :: b, h => by
    simp only [SameTokens, List.map_cons, List.cons.injEq] at h
    obtain ⟨h1, h2⟩ := h
    simp only [moveToken, Token.mk.injEq] at h1
    exact .cons ⟨h1.1.symm, fun _ => h1.2.1.symm, h1.2.2.1.symm, h1.2.2.2.1.symm⟩ (each_same h2)

theorem SameToken.trans (a b c : Token) (h : SameToken a b) (h' : SameToken b c) : SameToken a c :=
  ⟨h'.tokenType.trans h.tokenType,
    fun ha => (h'.lexeme (by rw [h.tokenType]; exact ha)).trans (h.lexeme ha),
    h'.string.trans h.string, h'.number.trans h.number⟩

/-- The tokens of a source after complete lines are those of both. -/
theorem join_scan {env : Env} (hA : AsciiLaws env) {a b : List Str} {ta tb : List Token} {ea eb : Token}
    (hne : ∀ g ∈ a, g ≠ []) (ha : CompleteLines env a) (hb : AtLeft b) (hsa : scanClusters env a = .done (.ok (ta ++ [ea])))
    (hsb : scanClusters env b = .done (.ok (tb ++ [eb]))) :
    ∃ ts, scanClusters env (a ++ b) = .done (.ok ts) ∧ Each SameToken ts (ta ++ tb ++ [eb]) := by
  obtain ⟨s, hf, hline, -, hs⟩ := complete_state hA ha
  obtain ⟨g, r, rfl, hg⟩ := hb
  obtain ⟨p, hp⟩ := hs []
  obtain ⟨q, hq⟩ := hs (g :: r)
  rw [List.append_nil] at hp
  -- the state after the lines
  obtain ⟨w, hw, -, hwe, hwt⟩ := scan_ok_outcome hsa
  rw [hp, outcome_nil rfl] at hw
  injection hw with hw
  have hreach : Reach env a w := by
    obtain ⟨w', hw', -, -, -⟩ := scan_ok_outcome hsa
    have := (vloop_reach _ .init hw').1
    rw [hp, outcome_nil rfl] at hw'
    injection hw' with hw'
    rw [← hw, hw']
    exact this
  have hpos : ∀ k ∈ s.stack, 0 < k := by
    have := (hreach.sinv hA hne hwe).levels.2
    rw [← hw] at this
    exact this
  have hta : ta = s.tokens ++ List.replicate s.stack.length ⟨.outdent, [], none, none, s.line, satInc16 s.column - 1⟩ := by
    rw [← hw] at hwt
    simp only [V.closing, ← List.append_assoc] at hwt
    exact (List.append_inj' hwt rfl).1
  -- the scan of the rest
  have hfresh : Fresh { s with pre := q, rest := g :: r } :=
    ⟨hf.isBol, hf.bolSpaces, hf.column, hf.onlyComment, hf.followCont, hf.abut, hf.errors, hf.line⟩
  have hsame := closed_finish (env := env) (v := { s with pre := q, rest := g :: r }) rfl hg hf.isBol hf.bolSpaces hf.errors hpos
  rw [← hq, ← scan_finish] at hsame
  have hrel := sim_outcome (env := env) rfl (closed_rel (b := g :: r) (g := g) hfresh rfl (by
    show 1 ≤ s.line
    rw [hline]; simp [lineAfter, u32Max]; omega))
  obtain ⟨w, hw, -, hwe, hwt⟩ := scan_ok_outcome hsb
  rw [hw] at hrel
  revert hrel hsame
  generalize outcome env (V.allClosed { s with pre := q, rest := g :: r } g) = o
  intro hsame hrel
  cases hrel with
  | @done _ w' hrel =>
    obtain ⟨new, h1, h2⟩ := hrel.tokens
    obtain ⟨es, h3, h4⟩ := hrel.errors
    simp only [List.nil_append] at h1 h2 h3 h4
    rw [hwe] at h3
    subst h3
    have hfin : finish (.done w') = .done (.ok (w'.tokens ++ w'.closing)) := by
      show (if _ then _ else _) = _
      rw [h4]; rfl
    rw [hfin] at hsame
    have hclose : Each SameToken w'.closing w.closing := by
      simp only [V.closing, hrel.stack]
      exact (each_replicate ⟨rfl, fun _ => rfl, rfl, rfl⟩ _).append (.cons ⟨rfl, fun _ => rfl, rfl, rfl⟩ .nil)
    have hall : Each SameToken (w'.tokens ++ w'.closing) (ta ++ tb ++ [eb]) := by
      rw [List.append_assoc, hwt, h1, h2, hta, ← List.append_assoc]
      refine .append (.append (.append (each_refl (fun _ => ⟨rfl, fun _ => rfl, rfl, rfl⟩) _) ?_) (each_moved _ _)) hclose
      exact each_replicate ⟨rfl, fun h => absurd rfl h, rfl, rfl⟩ _
    cases hsc : scanClusters env (a ++ g :: r) with
    | panic m => rw [hsc] at hsame; cases hsame
    | diverge => rw [hsc] at hsame; cases hsame
    | done res =>
      rw [hsc] at hsame
      cases res with
      | error es => cases hsame
      | ok ts =>
        refine ⟨ts, rfl, each_trans SameToken.trans (each_same ?_) hall⟩
        simp only [SameScan, movedScan, mapOutcome, moveResult, Outcome.done.injEq, Except.ok.injEq] at hsame
        exact hsame

end Ws
