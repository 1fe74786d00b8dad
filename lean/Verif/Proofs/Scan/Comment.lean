import Verif.Proofs.Scan.Space
/-! Changing the text of a comment. -/
namespace Ws
open Spec Scanner

theorem head_take {r r' : List Str} (h : r.take 2 = r'.take 2) : r.head? = r'.head? := by
  cases r <;> cases r' <;> simp_all

/-- What a piece may be depends on the next two clusters only. -/
theorem pieceAt_take {env : Env} {before : List Piece} {p : Piece} {r r' : List Str} (h : r.take 2 = r'.take 2)
    (hat : PieceAt env before p r) : PieceAt env before p r' := by
  have hh := head_take h
  have hn : r = [] → r' = [] := by
    rintro rfl
    cases r' with
    | nil => rfl
    | cons x r' => simp at h
  refine { hat with ok := ?_ }
  have := hat.ok
  cases p with
  | layout t => exact this
  | token t l =>
    refine ⟨this.1, this.2.1, ?_⟩
    rcases this.2.2 with ht | ht | ht | ht | ht
    · exact .inl { ht with
        munch := fun e => by rw [← hh]; exact ht.munch e
        noComment := fun e => by rw [← hh]; exact ht.noComment e }
    · exact .inr (.inl { ht with munch := fun g e => ht.munch g (by rw [hh]; exact e) })
    · refine .inr (.inr (.inl { ht with munch := fun g e => ht.munch g (by rw [hh]; exact e), shape := ?_ }))
      obtain ⟨w, f, h1, h2, h3, h4⟩ := ht.shape
      refine ⟨w, f, h1, h2, h3, ?_⟩
      rcases h4 with ⟨h4, h5, h6⟩ | h4
      · refine .inl ⟨h4, h5, fun r1 e g eg => ?_⟩
        subst e
        cases r1 with
        | nil => cases eg
        | cons x r1 =>
          cases eg
          cases r with
          | nil => simp at h
          | cons a r =>
            cases r with
            | nil => simp at h
            | cons b r =>
              simp only [List.take_succ_cons, List.take_zero, List.cons.injEq, and_true] at h
              obtain ⟨rfl, rfl⟩ := h
              exact h6 _ rfl _ rfl
      · exact .inr h4
    · exact .inr (.inr (.inr (.inl ht)))
    · exact .inr (.inr (.inr (.inr ht)))
  | blank g => exact this
  | comment body => exact ⟨this.1, this.2.imp hn (fun e => by rw [← hh]; exact e)⟩
  | continuation mid => exact this
  | fault c l =>
    show FaultOK env (text before) r' c l
    have this : FaultOK env (text before) r c l := this
    cases this with
    | tab => exact .tab
    | backslash n cr h1 h2 => exact .backslash n cr (by rw [← hh]; exact h1) (by rw [← hh]; exact h2)
    | unexpected g hg => exact .unexpected g hg
    | unterminated body h1 h2 => exact .unterminated body h1 (hn h2)

theorem take_append_congr (b r r' : List Str) (h : r.take 2 = r'.take 2) : (b ++ r).take 2 = (b ++ r').take 2 := by
  rw [List.take_append, List.take_append]
  congr 1
  have : ∀ n, n ≤ 2 → r.take n = r'.take n := by
    intro n hn
    rw [← Nat.min_eq_left hn, ← List.take_take, ← List.take_take, h]
  exact this _ (Nat.sub_le _ _)

/-- A reading depends on the next two clusters only. -/
theorem reading_take {env : Env} {a : List Step} {r r' : List Str} (h : r.take 2 = r'.take 2)
    (hr : Reading env a r) : Reading env a r' := fun x s b e =>
  have := hr x s b e
  ⟨pieceAt_take (take_append_congr _ _ _ h) this.piece, this.first, this.other⟩

/-- The beginning of a line does not depend on the text after it. -/
theorem bol_rest (v : V) (r : List Str) (g : Str) :
    V.bol { v with rest := r } g = (v.bol g).bind fun w => .done { w with rest := r } := by
  simp only [V.bol]
  repeat' split
  all_goals first | rfl | simp_all [Outcome.bind, V.layoutTok]

theorem vstep_commented {env : Env} {v : V} {body after : List Str}
    (hn : ['\n'] ∉ body) (ha : after = [] ∨ after.head? = some ['\n'])
    (hr : v.rest = commentText body ++ after) :
    vstep env v = (v.bol ['/']).bind fun w => .done
      ({ w with pre := w.pre ++ commentText body, rest := after, column := addCol w.column (commentText body).length,
                onlyComment := v.isBol }.flags false false) := by
  have htake : (['/'] :: (body ++ after)).tail.takeWhile (fun g => !(g == ['\n'])) = body := by
    simp only [List.tail_cons]
    have hb' : ∀ x ∈ body, (!(x == ['\n'])) = true := fun x hx => by
      simp only [Bool.not_eq_true', beq_eq_false_iff_ne]
      rintro rfl; exact hn hx
    rw [List.takeWhile_append_of_pos hb']
    rcases ha with rfl | ha
    · simp
    · cases after with
      | nil => cases ha
      | cons g after => cases ha; simp
  have hr' : v.rest = ['/'] :: ['/'] :: (body ++ after) := hr
  have hlex : lexeme env v.abut ['/'] (['/'] :: (body ++ after)) = .comment (['/'] :: body) := by
    simp only [lexeme]
    simp only [List.tail_cons] at htake
    simp [punct, eqPunct, htake]
  simp only [vstep, hr', hlex]
  show (v.bol ['/']).bind _ = _
  cases hb : v.bol ['/'] with
  | panic m => rfl
  | diverge => rfl
  | done w =>
    have hw := (bol_fields hb).2.1
    simp only [Outcome.bind, V.skip, V.flags, hw, hr']
    simp

/-- The states after the same steps, apart from the text that follows. -/
theorem at_same {done : List Step} {v v' : V} (h : At done v) (h' : At done v') (r : List Str) :
    Blind { v with rest := r } { v' with rest := r } := by
  have hbol : v'.isBol = v.isBol := by
    have e := h'.isBol.trans h.isBol.symm
    cases h1 : v'.isBol <;> cases h2 : v.isBol <;> simp_all
  have e1 := h'.followCont.trans h.followCont.symm
  have e2 := h'.abut.trans h.abut.symm
  refine ⟨rfl, ?_, ?_, ?_, hbol, fun hb => ?_, fun hb => ?_, ?_, fun _ => ?_, fun _ => ?_⟩
  · show SameTokens v.tokens v'.tokens
    rw [h.tokens, h'.tokens]; rfl
  · show SameErrors v.errors v'.errors
    rw [h.errors, h'.errors]; rfl
  · show v'.stack = v.stack
    rw [h.stack, h'.stack]
  · have hb : v.isBol = true := hb
    show v'.bolSpaces = v.bolSpaces
    rw [h.bolSpaces hb, h'.bolSpaces (hbol.trans hb)]
  · have hb : v.isBol = true := hb
    have e := (h'.isCont (hbol.trans hb)).trans (h.isCont hb).symm
    show v'.isCont = v.isCont
    cases h1 : v'.isCont <;> cases h2 : v.isCont <;> simp_all
  · show v'.onlyComment = v.onlyComment
    cases hb : v.isBol with
    | true => rw [h.fresh hb, h'.fresh (hbol.trans hb)]
    | false => exact (at_blind h h' hb).2
  · show v'.followCont = v.followCont
    cases h1 : v'.followCont <;> cases h2 : v.followCont <;> simp_all
  · show v'.abut = v.abut
    cases h1 : v'.abut <;> cases h2 : v.abut <;> simp_all

theorem change_comment {env : Env} (hA : AsciiLaws env) (hN : NumberLaw env) {a : List Step} {body body' after : List Str}
    (hne : ∀ g ∈ textOf a ++ (commentText body ++ after), g ≠ [])
    (hne' : ∀ g ∈ textOf a ++ (commentText body' ++ after), g ≠ [])
    (hr : Reading env a (commentText body ++ after)) (hb : ['\n'] ∉ body) (hb' : ['\n'] ∉ body')
    (ha : after = [] ∨ after.head? = some ['\n']) :
    SameScan (scanClusters env (textOf a ++ (commentText body ++ after)))
      (scanClusters env (textOf a ++ (commentText body' ++ after))) := by
  obtain ⟨v, hv, hat, hvr⟩ := reading_reach hA hN hne hr
  obtain ⟨v', hv', hat', hvr'⟩ := reading_reach hA hN hne' (reading_take (r := commentText body ++ after) (r' := commentText body' ++ after) rfl hr)
  rw [hv.outcome, hv'.outcome, outcome_step (by rw [hvr]; simp), outcome_step (by rw [hvr']; simp),
    vstep_commented hb ha hvr, vstep_commented hb' ha hvr']
  have hs := at_same hat hat' after
  have hbol := hs.bol ['/']
  rw [bol_rest v after, bol_rest v' after] at hbol
  generalize v.bol ['/'] = o at hbol
  generalize v'.bol ['/'] = o' at hbol
  have hisb : v'.isBol = v.isBol := hs.isBol
  cases o with
  | panic m =>
    cases o' with
    | panic m' => cases hbol; rfl
    | diverge => cases hbol
    | done w' => cases hbol
  | diverge =>
    cases o' with
    | panic m' => cases hbol
    | diverge => rfl
    | done w' => cases hbol
  | done w =>
    cases o' with
    | panic m' => cases hbol
    | diverge => cases hbol
    | done w' =>
      cases hbol with
      | done hw =>
        refine Blind.finish (v := V.flags _ _ _) (v' := V.flags _ _ _) (BlindIn.flags ?_ _ _)
        exact ⟨rfl, hw.tokens, hw.errors, hw.stack, hw.isBol, hw.isBol', hisb⟩

end Ws
