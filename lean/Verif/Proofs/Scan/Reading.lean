import Verif.Proofs.Scan.Exact
import Verif.Proofs.Scan.Sim
/-! Every run of the scanner is a reading, and every reading is a run. -/
namespace Ws
open Spec Scanner

theorem endsContinuing_begun {ps : List Piece} (hp : ∀ t, .layout t ∉ ps) (h : EndsContinuing ps) :
    LineBegun ps := by
  induction ps using snocInd with
  | nil => obtain ⟨t, l, h, -⟩ := h; simp [lastVisible] at h
  | snoc a p _ =>
    rw [endsContinuing_snoc (fun t e => hp t (by simp [e]))] at h
    rw [begun_snoc]
    cases p with
    | token t l =>
      have : t.tokenType ≠ .terminator := fun e => by simp [Piece.follow, e, continues] at h
      exact ⟨by simp [Piece.endsLine, this], .inr (by simp [Piece.begins, this])⟩
    | _ => simp [Piece.follow] at h

theorem steps_snoc (done : List Step) (s : Step) : pieces (done ++ [s]) = pieces done ++ [s.piece] := by
  simp [pieces]

theorem textOf_snoc (done : List Step) (s : Step) : textOf (done ++ [s]) = textOf done ++ s.piece.text := by
  simp [textOf, steps_snoc, text_append, text_single]

theorem textOf_append (a b : List Step) : textOf (a ++ b) = textOf a ++ textOf b := by
  simp [textOf, pieces, text_append]

theorem textOf_cons (s : Step) (b : List Step) : textOf (s :: b) = s.piece.text ++ textOf b := by
  simp [textOf, pieces, Spec.text]

theorem levels_snoc (done : List Step) (s : Step) :
    levels (done ++ [s]) =
      if s.layout.any (·.tokenType == .indent) then spacesOf (pieces done) :: levels done
      else (levels done).drop s.layout.length := by
  simp [levels, levelsRev]

theorem At.loud {done : List Step} {v : V} (h : At done v) (hp : ∀ t, .layout t ∉ pieces done) :
    v.loud = true ↔ StatementDone (pieces done) := by
  simp only [V.loud, StatementDone, Bool.and_eq_true, Bool.not_eq_true']
  have h1 : v.followCont = false ↔ ¬ EndsContinuing (pieces done) := by rw [← h.followCont]; simp
  rw [h1]
  constructor
  · rintro ⟨⟨h2, h3⟩, h4⟩
    exact ⟨(h.content h2).mp h4, h3⟩
  · rintro ⟨h2, h3⟩
    have hb : LineBegun (pieces done) := by
      obtain ⟨p, hp, hb, -⟩ := h2
      exact ⟨p, hp, hb⟩
    have hb := h.isBol.mpr hb
    exact ⟨⟨hb, h3⟩, (h.content hb).mpr h2⟩

theorem At.pieceAt {env : Env} {done : List Step} {v : V} (h : At done v) (hp : ∀ t, .layout t ∉ pieces done)
    {p : Piece} {rest : List Str} : PieceAt env (pieces done) p rest ↔ VPieceAt env v p rest := by
  have h1 := h.loud hp
  have h2 : v.loud = false ↔ ¬ StatementDone (pieces done) := by rw [← h1]; simp
  have h3 := h.abut
  have h4 : v.abut = false ↔ ∀ q, lastVisible (pieces done) = some q → ¬ Solid q := by
    rw [← Bool.not_eq_true, h3]
    simp
  constructor
  · rintro ⟨a, b, c, d, e⟩
    refine ⟨?_, fun x => h2.mpr (b x), fun t l x y => h1.mpr (c t l x y), fun t l x y => h3.mpr (d t l x y),
      fun t l x y => h4.mpr (e t l x y)⟩
    rw [h.pre]; exact a
  · rintro ⟨a, b, c, d, e⟩
    refine ⟨?_, fun x => h2.mp (b x), fun t l x y => h1.mp (c t l x y), fun t l x y => h3.mp (d t l x y),
      fun t l x y => h4.mp (e t l x y)⟩
    rw [h.pre] at a; exact a

/-- The next state. -/
theorem At.step {done : List Step} {v w u : V} {p : Piece} (h : At done v)
    (hl : ∀ t, .layout t ∉ pieces done) (hp : ∀ t, p ≠ .layout t)
    {lay : List Token} {mis : List Cause}
    (hw : w.tokens = v.tokens ++ lay ∧ w.errors = v.errors ++ mis ∧
      w.stack = if lay.any (·.tokenType == .indent) then spacesOf (pieces done) :: v.stack
        else v.stack.drop lay.length)
    (ha : AfterPiece v w p u)
    (hterm : ∀ t l, p = .token t l → t.tokenType = .terminator → v.loud = true)
    (hcom : v.onlyComment = true → p.begins = false ∧ (p.endsLine = true))
    (hcom' : Piece.isComment p = true → u.rest = [] ∨ u.rest.head? = some ['\n']) :
    At (done ++ [⟨lay, mis, p⟩]) u := by
  have hb := h.isBol
  have hb' : v.isBol = true ↔ ¬ LineBegun (pieces done) := by rw [← hb]; simp
  refine ⟨?_, ?_, ?_, ?_, ?_, ?_, ?_, ?_, ?_, ?_, ?_, ?_⟩
  · rw [ha.pre, h.pre, textOf_snoc]
  · rw [ha.tokens, hw.1, h.tokens]; simp [tokensOf, Step.toks]
  · rw [ha.errors, hw.2.1, h.errors]; simp [causesOf, Step.causes]
  · rw [ha.stack, hw.2.2, levels_snoc, h.stack]
  · rw [ha.isBol, steps_snoc, begun_snoc, ← hb]
    cases p.endsLine <;> cases v.isBol <;> cases p.begins <;> simp
  · intro hu
    rw [ha.isBol] at hu
    rw [ha.bolSpaces, steps_snoc, spaces_snoc]
    cases he : p.endsLine
    · simp only [he, Bool.false_or, Bool.and_eq_true] at hu
      rw [hu.1, h.bolSpaces hu.1]
      simp
    · simp
  · intro hu
    rw [ha.isBol] at hu
    rw [ha.isCont, steps_snoc, joined_snoc]
    cases hc : Piece.isContinuation p
    · simp only [Bool.false_eq_true, if_false, false_or]
      cases he : p.endsLine
      · simp only [he, Bool.false_or, Bool.and_eq_true, Bool.not_eq_true'] at hu
        simp only [Bool.false_eq_true, if_false, h.isCont hu.1, hu.2, true_and]
        constructor
        · exact .inr
        · rintro (⟨rfl, -⟩ | h)
          · simp [Piece.endsLine] at he
          · exact h
      · have hnb : p.begins = false := by
          cases hpb : p.begins
          · rfl
          · rw [begins_endsLine hpb] at he; cases he
        simp only [if_true, hnb, true_and]
        cases hv : v.isBol
        · have hB := hb.mp hv
          simp only [Bool.false_eq_true, if_false, h.followCont]
          constructor
          · intro hec
            left
            refine ⟨?_, hec⟩
            cases p with
            | blank g => simp [Piece.endsLine] at he; rw [he]
            | token t l =>
              simp [Piece.endsLine] at he
              have := (h.loud hl).mp (hterm t l rfl he)
              exact absurd hec this.2
            | continuation mid => simp [Piece.isContinuation] at hc
            | _ => simp [Piece.endsLine] at he
          · rintro (⟨-, h⟩ | hj)
            · exact h
            · exact absurd hj (begun_not_joined hB)
        · have hB := hb'.mp hv
          simp only [if_true, h.isCont hv]
          constructor
          · exact .inr
          · rintro (⟨-, hec⟩ | hj)
            · exact absurd (endsContinuing_begun hl hec) hB
            · exact hj
    · simp
  · rw [ha.followCont, steps_snoc, endsContinuing_snoc hp]
  · rw [ha.abut, steps_snoc, lastVisible_snoc _ _ hp, Piece.solid_iff]
    simp
  · intro hu
    rw [ha.isBol] at hu
    rw [ha.onlyComment, steps_snoc, content_snoc]
    simp only [Bool.or_eq_false_iff] at hu
    simp only [hu.1, Bool.false_eq_true, if_false, true_and]
    cases hc : Piece.isComment p
    · simp only [Bool.false_eq_true, if_false, and_true]
      cases hv : v.isBol
      · rw [h.content hv]
        constructor
        · exact .inl
        · rintro (h' | h')
          · exact h'
          · rw [← h.content hv]
            cases hoc : v.onlyComment
            · rfl
            · have := (hcom hoc).1
              rw [h'] at this; cases this
      · rw [h.fresh hv]
        simp only [hv, Bool.true_and, Bool.not_eq_false'] at hu
        simp [hu.2]
    · simp only [if_true, Bool.true_eq_false, and_false, or_false]
      cases hv : v.isBol
      · simp only [true_iff]
        rw [← h.content hv]
        cases hoc : v.onlyComment
        · rfl
        · have := (hcom hoc).2
          rw [hu.1] at this; cases this
      · simp only [Bool.true_eq_false, false_iff]
        rintro ⟨q, hq, hqb, -⟩
        exact hb'.mp hv ⟨q, hq, hqb⟩
  · intro hu
    rw [ha.isBol] at hu
    rw [ha.onlyComment]
    cases he : p.endsLine
    · simp only [he, Bool.false_or, Bool.and_eq_true, Bool.not_eq_true'] at hu
      have hc : Piece.isComment p = false := by
        cases p <;> simp_all [Piece.isComment, Piece.begins]
      simp [hc, h.fresh hu.1]
    · simp
  · intro hu
    rw [ha.onlyComment] at hu
    cases he : p.endsLine
    · rw [he] at hu
      simp only [Bool.false_eq_true, if_false] at hu
      cases hc : Piece.isComment p
      · rw [hc] at hu
        simp only [Bool.false_eq_true, if_false] at hu
        have := (hcom hu).2
        rw [he] at this; cases this
      · exact hcom' hc
    · rw [he] at hu; simp at hu

theorem stepOK_noLayout {env : Env} {done : List Step} {s : Step} {rest : List Str}
    (h : StepOK env done s rest) : ∀ t, s.piece ≠ .layout t := by
  intro t e
  have := h.piece.ok
  rw [e] at this
  exact this

theorem reading_noLayout {env : Env} {done : List Step} {rest : List Str} (h : Reading env done rest) :
    ∀ t, .layout t ∉ pieces done := by
  intro t ht
  obtain ⟨s, hs, e⟩ := List.mem_map.mp ht
  obtain ⟨a, b, rfl⟩ := List.append_of_mem hs
  exact stepOK_noLayout (h a s b rfl) t e

theorem reading_snoc {env : Env} {done : List Step} {s : Step} {rest : List Str} :
    Reading env (done ++ [s]) rest ↔ Reading env done (s.piece.text ++ rest) ∧ StepOK env done s rest := by
  constructor
  · intro h
    refine ⟨fun a x b e => ?_, ?_⟩
    · have := h a x (b ++ [s]) (by rw [e]; simp)
      rwa [textOf_snoc, List.append_assoc] at this
    · have := h done s [] rfl
      simpa [textOf, pieces, Spec.text] using this
  · rintro ⟨h1, h2⟩ a x b e
    rcases split_snoc e with ⟨rfl, rfl, rfl⟩ | ⟨b', rfl, rfl⟩
    · simpa [textOf, pieces, Spec.text] using h2
    · have := h1 a x b' rfl
      rwa [textOf_snoc, List.append_assoc]

/-- What is known of the state at which a piece is read. -/
structure Here (env : Env) (done : List Step) (v : V) : Prop where
  atv : At done v
  noLayout : ∀ t, .layout t ∉ pieces done
  nonempty : ∀ h ∈ v.rest, h ≠ []
  pos : v.PosOK

theorem ok_text_ne {env : Env} {pre : List Str} {p : Piece} {rest : List Str}
    (h : match p with
      | .layout _ => False
      | .fault c l => FaultOK env pre rest c l
      | p => PieceOK env pre p rest) : p.text ≠ [] := by
  cases p with
  | layout t => exact h.elim
  | blank g => simp [Piece.text]
  | comment body => simp [Piece.text]
  | continuation mid => simp [Piece.text]
  | fault c l => cases h <;> simp [Piece.text]
  | token t l =>
    obtain ⟨-, -, h | h | h | h | h⟩ := h
    · simp only [Piece.text]
      rw [h.chars]
      have := h.spelling
      intro e
      rw [List.map_eq_nil_iff] at e
      rw [e] at this
      generalize t.tokenType = ty at this
      cases ty <;> simp [operator] at this
    · obtain ⟨g, r, rfl, -⟩ := h.start; simp [Piece.text]
    · obtain ⟨whole, frac, h0, -, -, ⟨rfl, -⟩ | ⟨rfl, -⟩⟩ := h.shape <;> simp [Piece.text, h0]
    · obtain ⟨body, rfl, -⟩ := h.shape; simp [Piece.text]
    · simp [Piece.text, h.shape]

theorem vpiece_text_ne {env : Env} {v : V} {p : Piece} {rest : List Str} (h : VPieceAt env v p rest) :
    p.text ≠ [] := ok_text_ne h.ok

/-- The relation between the first cluster of the piece and of the rest. -/
theorem head_eq {v : V} {p : Piece} {rest cs : List Str} {g : Str} (h0 : p.text ≠ []) (hr : v.rest = g :: cs)
    (h : v.rest = p.text ++ rest) : ∃ r, p.text = g :: r := by
  rw [hr] at h
  obtain ⟨x, r, e⟩ := List.exists_cons_of_ne_nil h0
  rw [e] at h
  simp only [List.cons_append, List.cons.injEq] at h
  exact ⟨r, by rw [e, h.1]⟩

theorem Here.margin {env : Env} {done : List Step} {v : V} (h : Here env done v) (hb : v.isBol = true)
    {g : Str} {lay : List Token} {mis : List Cause} :
    Margin (lineAfter (textOf done)) (columnAfter (textOf done)) g (spacesOf (pieces done))
        (Joined (pieces done)) (levels done) lay mis ↔
      Margin v.line v.column g v.bolSpaces (v.isCont = true) v.stack lay mis := by
  rw [← h.atv.pre, ← h.pos.1, ← h.pos.2, ← h.atv.bolSpaces hb, ← h.atv.stack,
    propext (h.atv.isCont hb)]

theorem Here.next {env : Env} (hA : AsciiLaws env) {done : List Step} {v w u : V} (h : Here env done v) {p : Piece}
    {rest : List Str} (hp : VPieceAt env v p rest) (hr : v.rest = p.text ++ rest)
    (hur : u.rest = rest) {lay : List Token} {mis : List Cause}
    (hw : w.tokens = v.tokens ++ lay ∧ w.errors = v.errors ++ mis ∧
      w.stack = if lay.any (·.tokenType == .indent) then spacesOf (pieces done) :: v.stack
        else v.stack.drop lay.length)
    (ha : AfterPiece v w p u) : At (done ++ [⟨lay, mis, p⟩]) u := by
  have hpl : ∀ t, p ≠ .layout t := by rintro t rfl; exact hp.ok
  refine h.atv.step h.noLayout hpl hw ha hp.terminator ?_ ?_
  · intro hoc
    rcases h.atv.comment hoc with e | e
    · rw [e] at hr
      exact absurd (List.append_eq_nil_iff.mp hr.symm).1 (vpiece_text_ne hp)
    · obtain ⟨cs, hcs⟩ : ∃ cs, v.rest = ['\n'] :: cs := by
        cases hv : v.rest with
        | nil => rw [hv] at e; simp at e
        | cons a cs => rw [hv] at e; simp at e; exact ⟨cs, by rw [e]⟩
      obtain ⟨g, cs', e', hpe⟩ := next_unique hA h.nonempty h.pos hp hr
      rw [hcs] at e'
      cases e'
      rw [lexeme_newline] at hpe
      rw [hpe]
      cases hlo : v.loud <;> simp [Kind.piece, hlo, Piece.begins, Piece.endsLine]
  · intro hc
    cases p with
    | comment body => rw [hur]; exact hp.ok.2
    | _ => simp [Piece.isComment] at hc


/-- The state after a step of the scanner. -/
theorem vstep_rest {env : Env} {v u : V} {p : Piece} {rest : List Str} {g : Str} {cs : List Str}
    (hg : v.rest = g :: cs) (hu : vstep env v = .done u) (hpre : u.pre = v.pre ++ p.text)
    (hr : v.rest = p.text ++ rest) : u.rest = rest := by
  obtain ⟨h1, h2⟩ := vstep_moves hg hu
  rw [hpre] at h1
  rw [← List.append_cancel_left h1, hr] at h2
  exact (List.append_cancel_left h2).symm

theorem first_iff {done : List Step} {v : V} (h : At done v) (p : Piece) :
    First (pieces done) p ↔ p.begins = true ∧ v.isBol = true := by
  simp only [First, ← h.isBol, Bool.not_eq_false]

/-- Every step of the scanner is a step of a reading. -/
theorem Here.sound {env : Env} (hA : AsciiLaws env) (hN : NumberLaw env) {done : List Step} {v u : V}
    (h : Here env done v) (hne : v.rest ≠ []) (hu : vstep env v = .done u) :
    ∃ s, StepOK env done s u.rest ∧ At (done ++ [s]) u ∧ v.rest = s.piece.text ++ u.rest := by
  obtain ⟨g, cs, hg⟩ := List.exists_cons_of_ne_nil hne
  obtain ⟨rest, hr, hp⟩ := next_exists hg h.nonempty h.pos (fun taken e => hN _ (lexeme_num_text e))
  obtain ⟨w, hw, ha⟩ := vstep_after hg hu
  generalize (lexeme env v.abut g cs).piece env v g cs = p at hr hp hw ha
  have hur := vstep_rest hg hu ha.pre hr
  obtain ⟨r, hpt⟩ := head_eq (vpiece_text_ne hp) hg hr
  subst hur
  have other : w = v → ¬ First (pieces done) p → ∃ s, StepOK env done s u.rest ∧ At (done ++ [s]) u ∧
      v.rest = s.piece.text ++ u.rest := by
    rintro rfl hf
    refine ⟨⟨[], [], p⟩, ⟨(h.atv.pieceAt h.noLayout).mpr hp, fun hf' => absurd hf' hf, fun _ => ⟨rfl, rfl⟩⟩,
      h.next hA hp hr rfl (w := w) ⟨by simp, by simp, by simp⟩ ha, hr⟩
  cases hb : p.begins
  · rw [hb, if_neg (by simp)] at hw
    cases hw
    exact other rfl (fun hf => by rw [hf.1] at hb; cases hb)
  · rw [hb, if_pos rfl] at hw
    cases hbol : v.isBol
    · simp only [V.bol, hbol, Bool.not_false, if_true, Outcome.done.injEq] at hw
      exact other hw.symm (fun hf => by rw [((first_iff h.atv p).mp hf).2] at hbol; cases hbol)
    · rcases margin_cases v.line v.column g v.bolSpaces (v.isCont = true) v.stack with ⟨lay, mis, hm⟩ | hm
      · rw [margin_bol hbol hm] at hw
        cases hw
        refine ⟨⟨lay, mis, p⟩, ⟨(h.atv.pieceAt h.noLayout).mpr hp,
          fun _ => ⟨g, r, hpt, (h.margin hbol).mpr hm⟩,
          fun hf => absurd ((first_iff h.atv p).mpr ⟨hb, hbol⟩) hf⟩,
          h.next hA hp hr rfl (w := v.margin lay mis) ⟨rfl, rfl, ?_⟩ ha, hr⟩
        simp only [V.margin, h.atv.bolSpaces hbol]
      · rw [between_bol hbol hm] at hw
        cases hw

open Classical in
/-- Every step of a reading is a step of the scanner. -/
theorem Here.complete {env : Env} (hA : AsciiLaws env) (hN : NumberLaw env) {done : List Step} {v : V}
    (h : Here env done v) {s : Step} {rest : List Str} (hs : StepOK env done s rest)
    (hr : v.rest = s.piece.text ++ rest) :
    ∃ u, vstep env v = .done u ∧ At (done ++ [s]) u ∧ u.rest = rest := by
  have hp := (h.atv.pieceAt h.noLayout).mp hs.piece
  obtain ⟨g, cs, hg, hpe⟩ := next_unique hA h.nonempty h.pos hp hr
  obtain ⟨r, hpt⟩ := head_eq (vpiece_text_ne hp) hg hr
  -- the layout
  have hbol : (if s.piece.begins then v.bol g else .done v) =
      .done (if First (pieces done) s.piece then v.margin s.layout s.misfit else v) := by
    cases hb : s.piece.begins
    · rw [if_neg (show ¬ First (pieces done) s.piece from fun hf => by rw [hf.1] at hb; cases hb)]
      rfl
    · rw [if_pos rfl]
      cases hbl : v.isBol
      · rw [if_neg (show ¬ First (pieces done) s.piece from fun hf => by
          rw [((first_iff h.atv _).mp hf).2] at hbl; cases hbl)]
        simp [V.bol, hbl]
      · have hf := (first_iff h.atv s.piece).mpr ⟨hb, hbl⟩
        rw [if_pos hf]
        obtain ⟨g', r', e, hm⟩ := hs.first hf
        rw [hpt] at e
        cases e
        exact margin_bol hbl ((h.margin hbl).mp hm)
  cases hv : vstep env v with
  | panic m =>
    obtain ⟨g', cs', taken, e, hl, hn⟩ := vstep_panic hv
    exact absurd hn (hN _ (lexeme_num_text hl))
  | diverge =>
    rw [vstep_diverge_iff hg, ← hpe] at hv
    rw [hv.1, if_pos rfl, hv.2] at hbol
    cases hbol
  | done u =>
    obtain ⟨w, hw, ha⟩ := vstep_after hg hv
    rw [← hpe] at hw ha
    rw [hw] at hbol
    cases hbol
    have hur := vstep_rest hg hv ha.pre hr
    refine ⟨u, rfl, ?_, hur⟩
    refine h.next hA hp hr hur (lay := s.layout) (mis := s.misfit) ?_ ha
    by_cases hf : First (pieces done) s.piece
    · rw [if_pos hf]
      refine ⟨rfl, rfl, ?_⟩
      simp only [V.margin, h.atv.bolSpaces ((first_iff h.atv _).mp hf).2]
    · rw [if_neg hf]
      obtain ⟨e1, e2⟩ := hs.other hf
      rw [e1, e2]
      simp

/-- The scanner does not stop when the indentation lies between two levels. -/
theorem Here.stuck {env : Env} (hA : AsciiLaws env) (hN : NumberLaw env) {done : List Step} {v : V}
    (h : Here env done v) (hne : v.rest ≠ []) :
    vstep env v = .diverge ↔ ∃ p rest, v.rest = p.text ++ rest ∧ PieceAt env (pieces done) p rest ∧
      First (pieces done) p ∧ BetweenLevels (spacesOf (pieces done)) (levels done) := by
  obtain ⟨g, cs, hg⟩ := List.exists_cons_of_ne_nil hne
  rw [vstep_diverge_iff hg]
  constructor
  · rintro ⟨hb, hd⟩
    obtain ⟨rest, hr, hp⟩ := next_exists hg h.nonempty h.pos (fun taken e => hN _ (lexeme_num_text e))
    have hbl : v.isBol = true := by
      cases hbl : v.isBol
      · simp [V.bol, hbl] at hd
      · rfl
    refine ⟨_, rest, hr, (h.atv.pieceAt h.noLayout).mpr hp, (first_iff h.atv _).mpr ⟨hb, hbl⟩, ?_⟩
    rw [← h.atv.bolSpaces hbl, ← h.atv.stack]
    rcases margin_cases v.line v.column g v.bolSpaces (v.isCont = true) v.stack with ⟨lay, mis, hm⟩ | hm
    · rw [margin_bol hbl hm] at hd; cases hd
    · exact hm
  · rintro ⟨p, rest, hr, hp, hf, hm⟩
    obtain ⟨g', cs', hg', hpe⟩ :=
      next_unique hA h.nonempty h.pos ((h.atv.pieceAt h.noLayout).mp hp) hr
    rw [hg] at hg'
    cases hg'
    obtain ⟨hb, hbl⟩ := (first_iff h.atv p).mp hf
    rw [← hpe]
    refine ⟨hb, between_bol hbl ?_⟩
    rw [h.atv.bolSpaces hbl, h.atv.stack]
    exact hm

/-- At most one step is possible. -/
theorem Here.unique {env : Env} (hA : AsciiLaws env) {done : List Step} {v : V} (h : Here env done v)
    {s s' : Step} {rest rest' : List Str} (hs : StepOK env done s rest) (hs' : StepOK env done s' rest')
    (hr : v.rest = s.piece.text ++ rest) (hr' : v.rest = s'.piece.text ++ rest') : s = s' ∧ rest = rest' := by
  have hp := (h.atv.pieceAt h.noLayout).mp hs.piece
  have hp' := (h.atv.pieceAt h.noLayout).mp hs'.piece
  obtain ⟨g, cs, hg, hpe⟩ := next_unique hA h.nonempty h.pos hp hr
  obtain ⟨g', cs', hg', hpe'⟩ := next_unique hA h.nonempty h.pos hp' hr'
  rw [hg] at hg'
  cases hg'
  obtain ⟨lay, mis, p⟩ := s
  obtain ⟨lay', mis', p'⟩ := s'
  simp only at *
  have hpp : p = p' := hpe.trans hpe'.symm
  clear hpe hpe'
  subst hpp
  rw [hr] at hr'
  refine ⟨?_, List.append_cancel_left hr'⟩
  by_cases hf : First (pieces done) p
  · obtain ⟨g1, r1, e1, hm1⟩ := hs.first hf
    obtain ⟨g2, r2, e2, hm2⟩ := hs'.first hf
    simp only at e1 e2 hm1 hm2
    rw [e1] at e2
    cases e2
    have hbl := ((first_iff h.atv p).mp hf).2
    have b1 := margin_bol hbl ((h.margin hbl).mp hm1)
    have b2 := margin_bol hbl ((h.margin hbl).mp hm2)
    rw [b1] at b2
    simp only [V.margin, Outcome.done.injEq, V.mk.injEq] at b2
    obtain ⟨-, -, b3, b4, -⟩ := b2
    rw [List.append_cancel_left b3, List.append_cancel_left b4]
  · obtain ⟨e1, e2⟩ := hs.other hf
    obtain ⟨e3, e4⟩ := hs'.other hf
    simp only at e1 e2 e3 e4
    rw [e1, e2, e3, e4]

/-! ### Runs -/

theorem at_init (cs : List Str) : At [] (V.init cs) := by
  refine ⟨rfl, rfl, rfl, rfl, ?_, ?_, ?_, ?_, ?_, ?_, ?_, ?_⟩ <;>
    simp [V.init, LineBegun, pieces, thisLine, spacesOf, Joined, EndsContinuing, lastVisible]

/-- Every state that is reached is the state after a reading. -/
theorem Reach.reading {env : Env} (hA : AsciiLaws env) (hN : NumberLaw env) {cs : List Str}
    (hne : ∀ g ∈ cs, g ≠ []) {v : V} (h : Reach env cs v) :
    ∃ done, At done v ∧ Reading env done v.rest ∧ textOf done ++ v.rest = cs := by
  induction h with
  | init => exact ⟨[], at_init cs, fun a s b e => by simp at e, rfl⟩
  | @step v u hv hr hu ih =>
    obtain ⟨done, h1, h2, h3⟩ := ih
    have here : Here env done v := ⟨h1, reading_noLayout h2, fun x hx => hne x (by rw [← h3]; simp [hx]),
      (hv.pos hA).2 (.inr hr)⟩
    obtain ⟨s, hs, ha, hsr⟩ := here.sound hA hN hr hu
    refine ⟨done ++ [s], ha, reading_snoc.mpr ⟨by rwa [← hsr], hs⟩, ?_⟩
    rw [textOf_snoc, List.append_assoc, ← hsr, h3]

/-- The state after every reading is reached. -/
theorem reading_reach {env : Env} (hA : AsciiLaws env) (hN : NumberLaw env) {done : List Step}
    {rest : List Str} (hne : ∀ g ∈ textOf done ++ rest, g ≠ []) (h : Reading env done rest) :
    ∃ v, Reach env (textOf done ++ rest) v ∧ At done v ∧ v.rest = rest := by
  induction done using snocInd generalizing rest with
  | nil => exact ⟨V.init rest, .init, at_init rest, rfl⟩
  | snoc done s ih =>
    obtain ⟨h1, h2⟩ := reading_snoc.mp h
    rw [textOf_snoc, List.append_assoc] at hne ⊢
    obtain ⟨v, hv, hat, hr⟩ := ih hne h1
    have hp := (hat.pieceAt (reading_noLayout h1)).mp h2.piece
    have hr0 : v.rest ≠ [] := by
      rw [hr]
      intro e
      exact vpiece_text_ne hp (List.append_eq_nil_iff.mp e).1
    have here : Here env done v := ⟨hat, reading_noLayout h1, fun x hx => hne x (by rw [← hr]; simp [hx]),
      (hv.pos hA).2 (.inr hr0)⟩
    obtain ⟨u, hu, hau, hur⟩ := here.complete hA hN h2 hr
    exact ⟨u, .step hv hr0 hu, hau, hur⟩

theorem reading_here {env : Env} (hA : AsciiLaws env) (hN : NumberLaw env) {done : List Step}
    {rest : List Str} (hne : ∀ g ∈ textOf done ++ rest, g ≠ []) (h : Reading env done rest)
    (h0 : rest ≠ []) : ∃ v, Reach env (textOf done ++ rest) v ∧ Here env done v ∧ v.rest = rest := by
  obtain ⟨v, hv, ha, hr⟩ := reading_reach hA hN hne h
  exact ⟨v, hv, ⟨ha, reading_noLayout h, fun x hx => hne x (by rw [← hr]; simp [hx]),
    (hv.pos hA).2 (.inr (by rw [hr]; exact h0))⟩, hr⟩

/-- A source has at most one reading. -/
theorem reading_unique {env : Env} (hA : AsciiLaws env) (hN : NumberLaw env) {s t : List Step}
    (hne : ∀ g ∈ textOf s, g ≠ []) (hs : Reading env s []) (ht : Reading env t [])
    (h : textOf s = textOf t) : s = t := by
  have prefixR : ∀ a b : List Step, Reading env (a ++ b) [] → Reading env a (textOf b) := by
    intro a b hr x s y e
    have := hr x s (y ++ b) (by rw [e]; simp)
    simpa [textOf_append] using this
  have textne : ∀ (a : List Step) (x : Step) (b : List Step), Reading env (a ++ x :: b) [] →
      textOf (x :: b) ≠ [] := by
    intro a x b hr e
    rw [textOf_cons] at e
    exact ok_text_ne (hr a x b rfl).piece.ok (List.append_eq_nil_iff.mp e).1
  suffices key : ∀ (b b' a : List Step), Reading env (a ++ b) [] → Reading env (a ++ b') [] →
      textOf (a ++ b) = textOf s → textOf b = textOf b' → b = b' by
    exact key s t [] hs ht rfl h
  intro b
  induction b with
  | nil =>
    intro b' a _ hb' _ e
    cases b' with
    | nil => rfl
    | cons y b' => exact absurd e.symm (textne a y b' hb')
  | cons x b ih =>
    intro b' a hb hb' hts e
    cases b' with
    | nil => exact absurd e (textne a x b hb)
    | cons y b' =>
      have hp := prefixR a (x :: b) hb
      obtain ⟨v, -, here, hr⟩ := reading_here hA hN (rest := textOf (x :: b))
        (by rw [← textOf_append, hts]; exact hne) hp (textne a x b hb)
      have h1 := hb a x b rfl
      have h2 := hb' a y b' rfl
      rw [List.append_nil] at h1 h2
      obtain ⟨rfl, e'⟩ := here.unique hA h1 h2 (by rw [hr, textOf_cons]) (by rw [hr, e, textOf_cons])
      have := ih b' (a ++ [x]) (by simpa using hb) (by simpa using hb') (by simpa using hts) e'
      rw [this]

/-! ### The scanner -/

theorem Reach.outcome {env : Env} {cs : List Str} {v : V} (h : Reach env cs v) :
    scanClusters env cs = finish (outcome env v) := by
  induction h with
  | init => exact scan_finish env cs
  | step _ hr hs ih => rw [ih, outcome_next hr hs]

theorem reading_ok {env : Env} (hA : AsciiLaws env) (hN : NumberLaw env) {cs : List Str}
    (hne : ∀ g ∈ cs, g ≠ []) {ts : List Token} :
    scanClusters env cs = .done (.ok ts) ↔
      ∃ steps, textOf steps = cs ∧ Reading env steps [] ∧ causesOf steps = [] ∧
        ts = tokensOf steps ++ closing steps := by
  have hclose : ∀ {steps : List Step} {v : V}, Reach env cs v → At steps v → v.errors = [] →
      v.closing = closing steps := by
    intro steps v hv ha he
    obtain ⟨h1, h2⟩ := (hv.pos hA).2 (.inl he)
    simp only [V.closing, closing, h1, h2, column_last, ha.pre, ha.stack]
  constructor
  · intro h
    obtain ⟨v, hv, hr, he, e⟩ := scan_ok h
    obtain ⟨steps, h1, h2, h3⟩ := hv.reading hA hN hne
    rw [hr] at h2 h3
    rw [List.append_nil] at h3
    refine ⟨steps, h3, h2, by rw [← h1.errors, he], ?_⟩
    rw [e, h1.tokens, hclose hv h1 he]
  · rintro ⟨steps, rfl, h1, h2, rfl⟩
    obtain ⟨v, hv, ha, hr⟩ := reading_reach hA hN (rest := []) (by simpa using hne) h1
    rw [List.append_nil] at hv
    have he : v.errors = [] := by rw [ha.errors, h2]
    rw [← hclose hv ha he, ← ha.tokens]
    rw [hv.outcome, outcome_nil hr]
    show (if _ then _ else _) = _
    rw [if_pos (by rw [he]; rfl)]

theorem reading_error {env : Env} (hA : AsciiLaws env) (hN : NumberLaw env) {cs : List Str}
    (hne : ∀ g ∈ cs, g ≠ []) {es : List Cause} :
    scanClusters env cs = .done (.error es) ↔
      ∃ steps, textOf steps = cs ∧ Reading env steps [] ∧ es = causesOf steps ∧ es ≠ [] := by
  constructor
  · intro h
    obtain ⟨v, hv, hr, he, h0⟩ := scan_err h
    obtain ⟨steps, h1, h2, h3⟩ := hv.reading hA hN hne
    rw [hr] at h2 h3
    rw [List.append_nil] at h3
    exact ⟨steps, h3, h2, by rw [← h1.errors, he], h0⟩
  · rintro ⟨steps, rfl, h1, rfl, h0⟩
    obtain ⟨v, hv, ha, hr⟩ := reading_reach hA hN (rest := []) (by simpa using hne) h1
    rw [List.append_nil] at hv
    rw [hv.outcome, outcome_nil hr, ← ha.errors]
    show (if _ then _ else _) = _
    rw [if_neg (by rw [ha.errors]; simpa using h0)]

theorem reading_hangs {env : Env} (hA : AsciiLaws env) (hN : NumberLaw env) {cs : List Str}
    (hne : ∀ g ∈ cs, g ≠ []) : scanClusters env cs = .diverge ↔ Hangs env cs := by
  constructor
  · intro h
    rw [scanClusters_eq] at h
    have hd : vloop env (cs.length + 1) (V.init cs) = .diverge := by
      simp only [vscan] at h
      split at h
      · split at h <;> cases h
      · cases h
      · assumption
    obtain ⟨v, hv, hr, hs⟩ := (vloop_stuck (cs.length + 1) .init).2 (by simp [V.init]) hd
    obtain ⟨steps, h1, h2, h3⟩ := hv.reading hA hN hne
    have here : Here env steps v := ⟨h1, reading_noLayout h2, fun x hx => hne x (by rw [← h3]; simp [hx]),
      (hv.pos hA).2 (.inr hr)⟩
    obtain ⟨p, rest, e, hp, hf, hb⟩ := (here.stuck hA hN hr).mp hs
    exact ⟨steps, p, rest, by rw [← h3, e], by rw [← e]; exact h2, hp, hf, hb⟩
  · rintro ⟨steps, p, rest, rfl, h1, hp, hf, hb⟩
    have h0 : p.text ++ rest ≠ [] := fun e => ok_text_ne hp.ok (List.append_eq_nil_iff.mp e).1
    obtain ⟨v, hv, here, hr⟩ := reading_here hA hN hne h1 h0
    have hr0 : v.rest ≠ [] := by rw [hr]; exact h0
    have := (here.stuck hA hN hr0).mpr ⟨p, rest, hr, hp, hf, hb⟩
    rw [hv.outcome, outcome_step hr0, this]
    rfl

end Ws
