import Verif.Proofs.Scan.Blind
import Verif.Spec.Space
/-! Inserting spaces and comments into a line. -/
namespace Ws
open Spec Scanner

theorem space_no_part {env : Env} (hA : AsciiLaws env) : ¬ WordPart env [' '] := by
  rintro ⟨c, r, e, h⟩
  cases e
  rw [hA.alphanumeric ' ' (by decide)] at h
  revert h; decide

/-- The head of a text with something before it does not depend on what is behind. -/
theorem head_ext {r : List Str} (hr : r ≠ []) (x y : List Str) : (r ++ x).head? = (r ++ y).head? := by
  cases r with
  | nil => exact absurd rfl hr
  | cons g r => rfl

/-- A cluster that ends whatever token is before it. -/
structure Cut (env : Env) (h : Str) : Prop where
  word : ¬ WordPart env h
  digit : ¬ Digit h
  equal : h ≠ ['=']
  dot : h ≠ ['.']

theorem cut_space {env : Env} (hA : AsciiLaws env) : Cut env [' '] :=
  ⟨space_no_part hA, by decide, by decide, by decide⟩

/-- A token stays what it is if something else follows. -/
theorem token_ext {env : Env} {h : Str} (hc : Cut env h) {t : Token} {l r after : List Str} {y : List Str}
    (hs : r = [] → t.tokenType = .slash → h ≠ ['/'])
    (ht : IsOperator t l (r ++ after) ∨ IsWord env t l (r ++ after) ∨ IsNumber env t l (r ++ after) ∨ IsString t l ∨
      IsTerminator t l) :
    IsOperator t l (r ++ h :: y) ∨ IsWord env t l (r ++ h :: y) ∨ IsNumber env t l (r ++ h :: y) ∨ IsString t l ∨
      IsTerminator t l := by
  by_cases hr : r = []
  · subst hr
    simp only [List.nil_append] at ht ⊢
    rcases ht with ht | ht | ht | ht | ht
    · exact .inl { ht with
        munch := fun _ e => hc.equal (Option.some.inj e)
        noComment := fun e e' => hs rfl e (Option.some.inj e') }
    · refine .inr (.inl { ht with munch := fun g e => ?_ })
      cases e; exact hc.word
    · refine .inr (.inr (.inl { ht with munch := fun g e => by cases e; exact hc.digit, shape := ?_ }))
      · obtain ⟨w, f, h1, h2, h3, h4⟩ := ht.shape
        refine ⟨w, f, h1, h2, h3, ?_⟩
        rcases h4 with ⟨h4, h5, -⟩ | h4
        · refine .inl ⟨h4, h5, fun r e => ?_⟩
          cases e
          exact absurd rfl hc.dot
        · exact .inr h4
    · exact .inr (.inr (.inr (.inl ht)))
    · exact .inr (.inr (.inr (.inr ht)))
  · have hh := head_ext hr (h :: y) after
    rcases ht with ht | ht | ht | ht | ht
    · exact .inl { ht with
        munch := fun e => by rw [hh]; exact ht.munch e
        noComment := fun e => by rw [hh]; exact ht.noComment e }
    · exact .inr (.inl { ht with munch := fun g e => ht.munch g (by rw [← hh]; exact e) })
    · refine .inr (.inr (.inl { ht with munch := fun g e => ht.munch g (by rw [← hh]; exact e), shape := ?_ }))
      obtain ⟨w, f, h1, h2, h3, h4⟩ := ht.shape
      refine ⟨w, f, h1, h2, h3, ?_⟩
      rcases h4 with ⟨h4, h5, h6⟩ | h4
      · refine .inl ⟨h4, h5, fun r' e g eg => ?_⟩
        cases r with
        | nil => exact absurd rfl hr
        | cons g0 r =>
          simp only [List.cons_append, List.cons.injEq] at e
          obtain ⟨rfl, rfl⟩ := e
          by_cases hr' : r = []
          · subst hr'; cases eg; exact hc.digit
          · exact h6 (r ++ after) rfl g (by rw [head_ext hr' after (h :: y)]; exact eg)
      · exact .inr h4
    · exact .inr (.inr (.inr (.inl ht)))
    · exact .inr (.inr (.inr (.inr ht)))

theorem pieceAt_ext {env : Env} {h : Str} (hc : Cut env h) {before : List Piece} {p : Piece} {r after y : List Str}
    (hp : r = [] → p.plain = true) (hs : ∀ t l, r = [] → p = .token t l → t.tokenType = .slash → h ≠ ['/'])
    (hat : PieceAt env before p (r ++ after)) : PieceAt env before p (r ++ h :: y) := by
  refine { hat with ok := ?_ }
  have := hat.ok
  cases p with
  | layout t => exact this
  | token t l => exact ⟨this.1, this.2.1, token_ext hc (fun e => hs t l e rfl) this.2.2⟩
  | blank g => exact this
  | comment body =>
    have hr : r ≠ [] := fun e => by simpa [Piece.plain] using hp e
    refine ⟨this.1, .inr ?_⟩
    rcases this.2 with e | e
    · exact absurd (List.append_eq_nil_iff.mp e).1 hr
    · rw [head_ext hr (h :: y) after]; exact e
  | continuation mid => exact this
  | fault c l =>
    have hr : r ≠ [] := fun e => by simpa [Piece.plain] using hp e
    have hh := head_ext hr (h :: y) after
    show FaultOK env (text before) (r ++ h :: y) c l
    have this : FaultOK env (text before) (r ++ after) c l := this
    cases this with
    | tab => exact .tab
    | backslash n cr h1 h2 => exact .backslash n cr (by rw [hh]; exact h1) (by rw [hh]; exact h2)
    | unexpected g hg => exact .unexpected g hg
    | unterminated body h1 h2 => exact absurd (List.append_eq_nil_iff.mp h2).1 hr

/-- A reading stays one if something else follows that ends a token. -/
theorem reading_ext {env : Env} {h : Str} (hc : Cut env h) {a : List Step} {after y : List Str}
    (hp : ∀ x s, a = x ++ [s] → s.piece.plain = true)
    (hs : ∀ x s t l, a = x ++ [s] → s.piece = .token t l → t.tokenType = .slash → h ≠ ['/'])
    (hr : Reading env a after) : Reading env a (h :: y) := by
  intro x s b e
  have hok := hr x s b e
  have hb : textOf b = [] → b = [] := by
    intro hb
    cases b with
    | nil => rfl
    | cons s' b =>
      have := hr (x ++ [s]) s' b (by rw [e]; simp)
      rw [textOf_cons] at hb
      exact absurd (List.append_eq_nil_iff.mp hb).1 (ok_text_ne this.piece.ok)
  exact ⟨pieceAt_ext hc (fun e' => hp x s (by rw [e, hb e'])) (fun t l e' => hs x s t l (by rw [e, hb e'])) hok.piece, hok.first, hok.other⟩

/-- Spaces in the middle of a line. -/
theorem outcome_spaces_blind {env : Env} {v : V} (n : Nat) (r : List Str) (hr : v.rest = spaces (n + 1) ++ r)
    (hb : v.isBol = false) :
    ∃ c, outcome env v = outcome env { v with pre := v.pre ++ spaces (n + 1), rest := r, column := c, followCont := false, abut := false } := by
  induction n generalizing v with
  | zero =>
    have hr' : v.rest = [' '] :: r := hr
    refine ⟨addCol v.column 1, ?_⟩
    rw [outcome_next (by simp [hr']) (w := { v with pre := v.pre ++ spaces 1, rest := r, column := addCol v.column 1, followCont := false, abut := false })]
    simp only [vstep, hr', lexeme_sp, V.flags, V.skip, hb]
    rfl
  | succ n ih =>
    have hr' : v.rest = [' '] :: (spaces (n + 1) ++ r) := hr
    rw [outcome_next (by simp [hr']) (w := { v with pre := v.pre ++ spaces 1, rest := spaces (n + 1) ++ r, column := addCol v.column 1, followCont := false, abut := false })]
    · obtain ⟨c, hc⟩ := ih (v := { v with pre := v.pre ++ spaces 1, rest := spaces (n + 1) ++ r, column := addCol v.column 1, followCont := false, abut := false }) rfl hb
      refine ⟨c, ?_⟩
      rw [hc]
      simp [List.append_assoc, List.replicate_succ]
    · simp only [vstep, hr', lexeme_sp, V.flags, V.skip, hb]
      rfl

/-- Two states after the same steps. -/
theorem at_blind {done : List Step} {v v' : V} (h : At done v) (h' : At done v') (hb : v.isBol = false) :
    v'.isBol = false ∧ v'.onlyComment = v.onlyComment := by
  have hb' : v'.isBol = false := h'.isBol.mpr (h.isBol.mp hb)
  refine ⟨hb', ?_⟩
  have e := (h'.content hb').trans (h.content hb).symm
  cases h1 : v'.onlyComment <;> cases h2 : v.onlyComment <;> simp_all

theorem insert_spaces {env : Env} (hA : AsciiLaws env) (hN : NumberLaw env) {a : List Step} {after : List Str}
    (hne : ∀ g ∈ textOf a ++ after, g ≠ []) (hr : Reading env a after) (hb : LineBegun (pieces a))
    (hl : ∀ x s, a = x ++ [s] → s.piece.plain = true)
    (hp : after.head? = some ['('] → ¬ ∃ q, lastVisible (pieces a) = some q ∧ Solid q)
    (hf : after.head? = some ['\n'] → ¬ EndsContinuing (pieces a)) (n : Nat) :
    SameScan (scanClusters env (textOf a ++ spaces n ++ after)) (scanClusters env (textOf a ++ after)) := by
  cases n with
  | zero => simp only [List.replicate_zero, List.append_nil]; rfl
  | succ n =>
    have hr2 : Reading env a (spaces (n + 1) ++ after) :=
      reading_ext (cut_space hA) hl (fun _ _ _ _ _ _ _ => by decide) hr
    obtain ⟨v, hv, hat, hvr⟩ := reading_reach hA hN hne hr
    obtain ⟨v', hv', hat', hvr'⟩ := reading_reach hA hN (rest := spaces (n + 1) ++ after) (by
      intro g hg
      rcases List.mem_append.mp hg with hg | hg
      · exact hne g (List.mem_append.mpr (.inl hg))
      rcases List.mem_append.mp hg with hg | hg
      · rw [List.eq_of_mem_replicate hg]; simp
      · exact hne g (List.mem_append.mpr (.inr hg))) hr2
    have hvb : v.isBol = false := hat.isBol.mpr hb
    obtain ⟨hvb', hoc⟩ := at_blind hat hat' hvb
    obtain ⟨c, hc⟩ := outcome_spaces_blind (env := env) n after hvr' hvb'
    rw [List.append_assoc, hv.outcome, hv'.outcome, hc]
    refine Blind.finish ⟨hvr, ?_, ?_, ?_, hvb.trans hvb'.symm, fun e => absurd (hvb'.symm.trans e) (by simp),
      fun e => absurd (hvb'.symm.trans e) (by simp), hoc.symm, fun e => ?_, fun e => ?_⟩
    · show SameTokens v'.tokens v.tokens
      rw [hat.tokens, hat'.tokens]; rfl
    · show SameErrors v'.errors v.errors
      rw [hat.errors, hat'.errors]; rfl
    · show v.stack = v'.stack
      rw [hat.stack, hat'.stack]
    · exact Bool.eq_false_iff.mpr fun h => hf e (hat.followCont.mp h)
    · exact Bool.eq_false_iff.mpr fun h => hp e (hat.abut.mp h)

theorem cut_slash {env : Env} (hA : AsciiLaws env) : Cut env ['/'] := by
  refine ⟨?_, by decide, by decide, by decide⟩
  rintro ⟨c, r, e, h⟩
  cases e
  rw [hA.alphanumeric '/' (by decide)] at h
  revert h; decide

/-- A comment in the middle of a line. -/
theorem vstep_comment_blind {env : Env} {v : V} {body after : List Str} (hb : v.isBol = false)
    (hn : ['\n'] ∉ body) (ha : after = [] ∨ after.head? = some ['\n'])
    (hr : v.rest = commentText body ++ after) :
    vstep env v = .done { v with pre := v.pre ++ commentText body, rest := after, column := addCol v.column (commentText body).length,
                                 onlyComment := false, followCont := false, abut := true } := by
  have htake : (['/'] :: (body ++ after)).tail.takeWhile (fun g => !(g == ['\n'])) = body := by
    simp only [List.tail_cons]
    have hb' : ∀ x ∈ body, (!(x == ['\n'])) = true := fun x hx => by
      simp only [Bool.not_eq_true', beq_eq_false_iff_ne]
      rintro rfl; exact hn hx
    rw [List.takeWhile_append_of_pos hb']
    rcases ha with rfl | ha
    · simp
    · cases after with
      | nil => cases ha
      | cons g after => cases ha; simp
  have hr' : v.rest = ['/'] :: ['/'] :: (body ++ after) := hr
  have hlex : lexeme env v.abut ['/'] (['/'] :: (body ++ after)) = .comment (['/'] :: body) := by
    simp only [lexeme]
    simp only [List.tail_cons] at htake
    simp [punct, eqPunct, htake]
  simp only [vstep, hr', hlex]
  simp only [V.bol, hb, Bool.not_false, if_true, bind, Outcome.bind, V.flags, V.skip, hr']
  simp

theorem insert_comment_blind {env : Env} (hA : AsciiLaws env) (hN : NumberLaw env) {a : List Step} {after : List Str}
    (hne : ∀ g ∈ textOf a ++ after, g ≠ []) (hr : Reading env a after) (hb : HasToken (pieces a))
    (hl : ∀ x s, a = x ++ [s] → s.piece.plain = true) (hf : ¬ EndsContinuing (pieces a))
    (hafter : after = [] ∨ after.head? = some ['\n']) (n : Nat) {body : List Str} (hbody : ['\n'] ∉ body)
    (hbne : ∀ g ∈ body, g ≠ []) :
    SameScan (scanClusters env (textOf a ++ (spaces n ++ commentText body) ++ after)) (scanClusters env (textOf a ++ after)) := by
  have hcontent : Content (pieces a) := by
    obtain ⟨t, l, h⟩ := hb
    refine ⟨_, h, ?_, by simp⟩
    have := takeWhile_all _ _ _ (List.mem_reverse.mp h)
    simpa [Piece.endsLine, Piece.begins] using this
  have hbegun : LineBegun (pieces a) := by
    obtain ⟨p, h1, h2, -⟩ := hcontent
    exact ⟨p, h1, h2⟩
  have hslash : ∀ x s t l, a = x ++ [s] → s.piece = .token t l → t.tokenType = .slash → ['/'] ≠ ['/'] := by
    intro x s t l e e1 e2
    refine absurd ⟨t, l, ?_, ?_⟩ hf
    · rw [e, steps_snoc, e1]; simp [lastVisible]
    · rw [e2]; rfl
  have hr2 : Reading env a (spaces n ++ (commentText body ++ after)) := by
    cases n with
    | zero => exact reading_ext (cut_slash hA) hl hslash hr
    | succ n => exact reading_ext (cut_space hA) hl (fun _ _ _ _ _ _ _ => by decide) hr
  obtain ⟨v, hv, hat, hvr⟩ := reading_reach hA hN hne hr
  obtain ⟨v', hv', hat', hvr'⟩ := reading_reach hA hN (rest := spaces n ++ (commentText body ++ after)) (by
    intro g hg
    rcases List.mem_append.mp hg with hg | hg
    · exact hne g (List.mem_append.mpr (.inl hg))
    rcases List.mem_append.mp hg with hg | hg
    · rw [List.eq_of_mem_replicate hg]; simp
    rcases List.mem_append.mp hg with hg | hg
    · rcases List.mem_cons.mp hg with rfl | hg
      · simp
      rcases List.mem_cons.mp hg with rfl | hg
      · simp
      · exact hbne g hg
    · exact hne g (List.mem_append.mpr (.inr hg))) hr2
  have hvb : v.isBol = false := hat.isBol.mpr hbegun
  obtain ⟨hvb', hoc⟩ := at_blind hat hat' hvb
  have hvc : v.onlyComment = false := (hat.content hvb).mpr hcontent
  have hvf : v.followCont = false := Bool.eq_false_iff.mpr fun h => hf (hat.followCont.mp h)
  have key : ∃ pre c, outcome env v' = outcome env { v' with pre := pre, rest := after, column := c, onlyComment := false, followCont := false, abut := true } := by
    cases n with
    | zero =>
      refine ⟨v'.pre ++ commentText body, addCol v'.column (commentText body).length, ?_⟩
      rw [outcome_next (by rw [hvr']; simp) (vstep_comment_blind hvb' hbody hafter hvr')]
    | succ n =>
      obtain ⟨c, hc⟩ := outcome_spaces_blind (env := env) n (commentText body ++ after) hvr' hvb'
      refine ⟨v'.pre ++ spaces (n + 1) ++ commentText body, addCol c (commentText body).length, ?_⟩
      rw [hc, outcome_next (by simp) (vstep_comment_blind (v := { v' with pre := v'.pre ++ spaces (n + 1), rest := commentText body ++ after, column := c, followCont := false, abut := false })
        hvb' hbody hafter rfl)]
  obtain ⟨pre, c, hc⟩ := key
  rw [show textOf a ++ (spaces n ++ commentText body) ++ after = textOf a ++ (spaces n ++ (commentText body ++ after)) by simp,
    hv.outcome, hv'.outcome, hc]
  refine Blind.finish ⟨hvr, ?_, ?_, ?_, hvb.trans hvb'.symm, fun e => absurd (hvb'.symm.trans e) (by simp),
    fun e => absurd (hvb'.symm.trans e) (by simp), hvc, fun e => hvf, fun e => ?_⟩
  · show SameTokens v'.tokens v.tokens
    rw [hat.tokens, hat'.tokens]; rfl
  · show SameErrors v'.errors v.errors
    rw [hat.errors, hat'.errors]; rfl
  · show v.stack = v'.stack
    rw [hat.stack, hat'.stack]
  · rcases hafter with h | h
    · simp [h] at e
    · simp [h] at e

end Ws
