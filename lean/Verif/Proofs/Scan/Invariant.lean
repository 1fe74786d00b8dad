import Verif.Proofs.Scan.Layout
namespace Ws
open Spec Scanner

@[elab_as_elim]
theorem snocInd {α : Type} {P : List α → Prop} (l : List α) (nil : P [])
    (snoc : ∀ l t, P l → P (l ++ [t])) : P l := by
  rw [← List.reverse_reverse l]
  induction l.reverse with
  | nil => exact nil
  | cons x l ih => rw [List.reverse_cons]; exact snoc _ _ ih

/-! ### Pieces -/

theorem text_append (a b : List Piece) : text (a ++ b) = text a ++ text b := by simp [Spec.text]
theorem toks_append (a b : List Piece) : toks (a ++ b) = toks a ++ toks b := by simp [Spec.toks]
theorem text_layouts (l : List Token) : text (l.map .layout) = [] := by
  induction l with
  | nil => rfl
  | cons t l ih => simpa [Spec.text, Piece.text] using ih
theorem toks_layouts (l : List Token) : toks (l.map .layout) = l := by
  induction l with
  | nil => rfl
  | cons t l ih =>
    simp only [Spec.toks, List.map_cons, List.flatMap_cons, Piece.tok] at ih ⊢
    rw [ih]; rfl
theorem text_single (p : Piece) : text [p] = p.text := by simp [Spec.text]
theorem toks_single (p : Piece) : toks [p] = p.tok := by simp [Spec.toks]

theorem lastVisible_layouts (ps : List Piece) (l : List Token) :
    lastVisible (ps ++ l.map .layout) = lastVisible ps := by
  induction l using snocInd with
  | nil => simp
  | snoc l t ih =>
    rw [← ih, List.map_append, ← List.append_assoc]
    simp [lastVisible]

theorem lastVisible_snoc (ps : List Piece) (p : Piece) (h : ∀ t, p ≠ .layout t) :
    lastVisible (ps ++ [p]) = some p := by
  cases p with
  | layout t => exact absurd rfl (h t)
  | _ => simp [lastVisible]

theorem thisLine_snoc (ps : List Piece) (p : Piece) :
    thisLine (ps ++ [p]) = if p.endsLine then [] else thisLine ps ++ [p] := by
  simp only [thisLine, List.reverse_append, List.reverse_singleton, List.singleton_append,
    List.takeWhile_cons]
  cases p.endsLine <;> simp

theorem thisLine_layouts (ps : List Piece) (l : List Token) :
    thisLine (ps ++ l.map .layout) = thisLine ps ++ l.map .layout := by
  induction l using snocInd with
  | nil => simp
  | snoc l t ih =>
    rw [List.map_append, ← List.append_assoc, List.map_singleton, thisLine_snoc, ih]
    simp [Piece.endsLine]

theorem hasToken_layouts (ps : List Piece) (l : List Token) :
    HasToken (ps ++ l.map .layout) ↔ HasToken ps := by
  simp [HasToken, thisLine_layouts]

theorem hasComment_layouts (ps : List Piece) (l : List Token) :
    HasComment (ps ++ l.map .layout) ↔ HasComment ps := by
  simp [HasComment, thisLine_layouts]

theorem hasToken_snoc (ps : List Piece) (p : Piece) :
    HasToken (ps ++ [p]) ↔ p.endsLine = false ∧ (HasToken ps ∨ ∃ t l, p = .token t l) := by
  simp only [HasToken, thisLine_snoc]
  cases p.endsLine
  · simp only [Bool.false_eq_true, if_false, List.mem_append, List.mem_singleton, true_and]
    constructor
    · rintro ⟨t, l, h | h⟩
      · exact .inl ⟨t, l, h⟩
      · exact .inr ⟨t, l, h.symm⟩
    · rintro (⟨t, l, h⟩ | ⟨t, l, h⟩)
      · exact ⟨t, l, .inl h⟩
      · exact ⟨t, l, .inr h.symm⟩
  · simp

theorem hasComment_snoc (ps : List Piece) (p : Piece) :
    HasComment (ps ++ [p]) ↔ p.endsLine = false ∧ (HasComment ps ∨ ∃ b, p = .comment b) := by
  simp only [HasComment, thisLine_snoc]
  cases p.endsLine
  · simp only [Bool.false_eq_true, if_false, List.mem_append, List.mem_singleton, true_and]
    constructor
    · rintro ⟨t, h | h⟩
      · exact .inl ⟨t, h⟩
      · exact .inr ⟨t, h.symm⟩
    · rintro (⟨t, h⟩ | ⟨t, h⟩)
      · exact ⟨t, .inl h⟩
      · exact ⟨t, .inr h.symm⟩
  · simp

/-- A condition on every piece and what precedes it. -/
def Ctx (C : List Piece → Piece → Prop) (ps : List Piece) : Prop :=
  ∀ a p b, ps = a ++ p :: b → C a p

theorem Ctx.snoc {C : List Piece → Piece → Prop} {ps : List Piece} (h : Ctx C ps) {p : Piece}
    (hp : C ps p) : Ctx C (ps ++ [p]) := by
  intro a x b e
  rcases split_snoc e with ⟨-, rfl, rfl⟩ | ⟨b', -, e'⟩
  · exact hp
  · exact h a x b' e'

theorem Ctx.layouts {C : List Piece → Piece → Prop} {ps : List Piece} (h : Ctx C ps) {l : List Token}
    (hl : ∀ a t b, l = a ++ t :: b → C (ps ++ a.map .layout) (.layout t)) :
    Ctx C (ps ++ l.map .layout) := by
  induction l using snocInd with
  | nil => simpa using h
  | snoc l t ih =>
    rw [List.map_append, ← List.append_assoc]
    refine (ih fun a x b e => hl a x (b ++ [t]) (by simp [e])).snoc ?_
    exact hl l t [] rfl

/-- The conditions that relate a piece to the pieces before it. -/
def Follows (a : List Piece) : Piece → Prop
  | .layout q => Continued a → q.tokenType ≠ .indent
  | .token t _ =>
    (t.tokenType = .terminator → HasToken a ∧ ¬ EndsContinuing a) ∧
    (t.tokenType = .leftParenAbutting → ∃ p, lastVisible a = some p ∧ Solid p) ∧
    (t.tokenType = .leftParen → ∀ p, lastVisible a = some p → ¬ Solid p)
  | .blank g => g = ['\n'] → ¬ HasToken a ∨ EndsContinuing a
  | _ => True

/-! ### Columns -/

def Nested (cols : List Nat) : Prop := cols.Pairwise fun inner outer => outer < inner ∨ inner = u16Max

/-- Statements start in the column of their block. -/
def ColsOK (ts : List Token) : Prop :=
  ∀ a b, ts = a ++ b → Nested (openColumns [] a) ∧
    ∀ t b', b = t :: b' → Proper t → ¬ EndsProper a → t.column = (openColumns [] a).head?.getD 1

theorem openColumns_append (st : List Nat) (a b : List Token) :
    openColumns st (a ++ b) = openColumns (openColumns st a) b := by
  induction a generalizing st with
  | nil => rfl
  | cons t a ih =>
    simp only [List.cons_append, openColumns]
    split
    · exact ih _
    · split <;> exact ih _

theorem ColsOK.snoc {ts : List Token} (h : ColsOK ts) {t : Token}
    (hn : Nested (openColumns [] (ts ++ [t])))
    (ht : Proper t → ¬ EndsProper ts → t.column = (openColumns [] ts).head?.getD 1) :
    ColsOK (ts ++ [t]) := by
  intro a b e
  rcases List.eq_nil_or_concat b with rfl | ⟨b', y, rfl⟩
  · rw [List.append_nil] at e; subst e; exact ⟨hn, by simp⟩
  · rw [List.concat_eq_append, ← List.append_assoc] at e
    obtain ⟨e1, e2⟩ := List.append_inj' e rfl
    simp only [List.cons.injEq, and_true] at e2
    subst e2
    refine ⟨(h a b' e1).1, ?_⟩
    intro x b'' e3 hx hl
    cases b' with
    | nil =>
      simp only [List.concat_eq_append, List.nil_append, List.cons.injEq] at e3
      obtain ⟨rfl, -⟩ := e3
      rw [List.append_nil] at e1
      subst e1
      exact ht hx hl
    | cons z b' =>
      simp only [List.concat_eq_append, List.cons_append, List.cons.injEq] at e3
      exact (h a _ e1).2 x b' (by rw [← e3.1]) hx hl

def col (k : Nat) : Nat := min (k + 1) u16Max

theorem nested_levels {st : List Nat} (h : Levels st) (hb : ∀ k ∈ st, k ≤ u16Max) : Nested (st.map col) := by
  rw [Nested, List.pairwise_map]
  refine h.1.imp_of_mem ?_
  intro a b ha hb' hgt
  have := hb a ha
  have := hb b hb'
  simp only [col]
  omega

structure Cols (v : V) : Prop where
  column : v.isBol = true → v.column = col v.bolSpaces
  bound : (v.isBol = true → v.bolSpaces ≤ u16Max) ∧ ∀ k ∈ v.stack, k ≤ u16Max
  opened : openColumns [] v.tokens = v.stack.map col
  ok : ColsOK v.tokens
  cont : v.isBol = true → v.isCont = true → EndsProper v.tokens
  follow : v.followCont = true → EndsProper v.tokens

theorem openColumns_other {st : List Nat} {t : Token} (h1 : t.tokenType ≠ .indent)
    (h2 : t.tokenType ≠ .outdent) : openColumns st [t] = st := by simp [openColumns, h1, h2]

/-- Adding a token that is not a layout token. -/
theorem ColsOK.other {ts : List Token} {st : List Nat} (h : ColsOK ts)
    (ho : openColumns [] ts = st.map col) {t : Token} (h1 : t.tokenType ≠ .indent)
    (h2 : t.tokenType ≠ .outdent)
    (ht : Proper t → ¬ EndsProper ts → t.column = (st.map col).head?.getD 1) :
    ColsOK (ts ++ [t]) ∧ openColumns [] (ts ++ [t]) = st.map col := by
  have e : openColumns [] (ts ++ [t]) = st.map col := by
    rw [openColumns_append, openColumns_other h1 h2, ho]
  refine ⟨h.snoc ?_ ?_, e⟩
  · rw [openColumns_append, openColumns_other h1 h2]
    exact (h ts [] (by simp)).1
  · rw [ho]; exact ht

theorem ColsOK.outdents {ts : List Token} {st : List Nat} (h : ColsOK ts) (hl : Levels st)
    (hb : ∀ k ∈ st, k ≤ u16Max)
    (ho : openColumns [] ts = st.map col) {t : Token} (ht : t.tokenType = .outdent) (n : Nat) :
    ColsOK (ts ++ List.replicate n t) ∧
      openColumns [] (ts ++ List.replicate n t) = (st.drop n).map col := by
  induction n generalizing ts st with
  | zero => simpa using ⟨h, ho⟩
  | succ n ih =>
    rw [List.replicate_succ, List.append_cons]
    have e : openColumns [] (ts ++ [t]) = (st.drop 1).map col := by
      rw [openColumns_append, ho]
      simp [openColumns, ht]
    have := ih (ts := ts ++ [t]) (st := st.drop 1) (h.snoc ?_ ?_) (hl.drop 1)
      (fun k hk => hb k (List.mem_of_mem_drop hk)) e
    · simpa [List.drop_drop, Nat.add_comm] using this
    · rw [e]; exact nested_levels (hl.drop 1) (fun k hk => hb k (List.mem_of_mem_drop hk))
    · intro hp; simp [Proper, ht] at hp

theorem not_EndsProper_snoc {ts : List Token} {t : Token} (h : ¬ Proper t) : ¬ EndsProper (ts ++ [t]) := by
  rintro ⟨a, x, e, hx⟩
  obtain ⟨-, e2⟩ := List.append_inj' e rfl
  simp only [List.cons.injEq, and_true] at e2
  exact h (e2 ▸ hx)

/-- The layout tokens at the start of a line: the block's column is that of the line, unless the line
continues the previous one. -/
theorem Cols.bol {v w : V} {g : Str} (h : Cols v) (hl : Levels v.stack) (hb : BolR v w g) :
    ColsOK w.tokens ∧ openColumns [] w.tokens = w.stack.map col ∧ (∀ k ∈ w.stack, k ≤ u16Max) ∧
      (v.isBol = true → ¬ EndsProper w.tokens → v.column = (w.stack.map col).head?.getD 1) := by
  cases hb with
  | mid nb eq => subst eq; exact ⟨h.ok, h.opened, h.bound.2, fun e => by rw [nb] at e; cases e⟩
  | same ib lv eq =>
    subst eq
    refine ⟨h.ok, h.opened, h.bound.2, fun _ _ => ?_⟩
    rw [h.column ib, lv]
    cases v.stack <;> rfl
  | suppressed ib lv ic eq =>
    subst eq
    exact ⟨h.ok, h.opened, h.bound.2, fun _ hn => absurd (h.cont ib ic) hn⟩
  | indent ib lv nc eq =>
    subst eq
    have e : openColumns [] (v.tokens ++ [v.layoutTok .indent g]) = (v.bolSpaces :: v.stack).map col := by
      rw [openColumns_append, h.opened]
      simp [openColumns, V.layoutTok, h.column ib]
    have hbd : ∀ k ∈ v.bolSpaces :: v.stack, k ≤ u16Max := by
      intro k hk
      rcases List.mem_cons.mp hk with rfl | hk
      · exact h.bound.1 ib
      · exact h.bound.2 k hk
    refine ⟨h.ok.snoc ?_ ?_, e, hbd, fun _ _ => ?_⟩
    · rw [e]; exact nested_levels (hl.push lv) hbd
    · intro hp; simp [Proper, V.layoutTok] at hp
    · rw [h.column ib]; rfl
  | outdent n ib lv pos le target eq =>
    subst eq
    obtain ⟨h1, h2⟩ := h.ok.outdents hl h.bound.2 h.opened (t := v.layoutTok .outdent g) rfl n
    refine ⟨h1, h2, fun k hk => h.bound.2 k (List.mem_of_mem_drop hk), fun _ _ => ?_⟩
    rw [h.column ib, ← target]
    show _ = ((v.stack.drop n).map col).head?.getD 1
    cases v.stack.drop n <;> rfl

/-! ### The invariant -/

structure PInv (env : Env) (v : V) (ps : List Piece) : Prop where
  text : Spec.text ps = v.pre
  toks : Spec.toks ps = v.tokens
  pieces : ∀ a p b, ps = a ++ p :: b → PieceOK env (Spec.text a) p (Spec.text b ++ v.rest)
  follows : Ctx Follows ps
  abut : v.abut = true ↔ ∃ p, lastVisible ps = some p ∧ Solid p
  follow : v.followCont = true ↔ EndsContinuing ps
  bolLine : v.isBol = true ↔ ¬ HasToken ps ∧ ¬ HasComment ps
  commentLine : v.onlyComment = true ↔ HasComment ps ∧ ¬ HasToken ps
  midLine : ∀ p, lastVisible ps = some p →
    (∃ t l, p = .token t l ∧ t.tokenType ≠ .terminator) → v.isBol = false
  cont : Continued ps → v.isBol = true ∧ v.isCont = true
  cols : PlainLines ps → Cols v

theorem pinv_init (env : Env) (cs : List Str) : PInv env (V.init cs) [] where
  text := rfl
  toks := rfl
  pieces := by intro a p b e; simp at e
  follows := by intro a p b e; simp at e
  abut := by simp [V.init, lastVisible]
  follow := by simp [V.init, EndsContinuing, lastVisible]
  bolLine := by simp [V.init, HasToken, HasComment, thisLine]
  commentLine := by simp [V.init, HasComment, thisLine]
  midLine := by simp [lastVisible]
  cont := by rintro ⟨a, t, l, bs, e, -⟩; simp at e
  cols := fun _ => ⟨fun _ => by simp [V.init, col, u16Max], by simp [V.init], rfl, by
      intro a b e
      obtain ⟨rfl, rfl⟩ := List.append_eq_nil_iff.mp (show a ++ b = [] from e.symm)
      exact ⟨List.Pairwise.nil, by simp⟩, by simp [V.init], by simp [V.init]⟩

theorem pieces_snoc {env : Env} {ps : List Piece} {rest rest' : List Str} {p : Piece}
    (h : ∀ a p b, ps = a ++ p :: b → PieceOK env (Spec.text a) p (Spec.text b ++ rest))
    (hr : rest = p.text ++ rest') (hp : PieceOK env (Spec.text ps) p rest') :
    ∀ a q b, ps ++ [p] = a ++ q :: b → PieceOK env (Spec.text a) q (Spec.text b ++ rest') := by
  intro a q b e
  rcases split_snoc e with ⟨rfl, rfl, rfl⟩ | ⟨b', rfl, e'⟩
  · exact hp
  · have := h a q b' e'
    rwa [text_append, text_single, List.append_assoc, ← hr]

theorem PlainLines.left {a b : List Piece} (h : PlainLines (a ++ b)) : PlainLines a :=
  ⟨fun hp => h.1 (by simp [hp]), fun x mid y e => h.2 x mid (y ++ b) (by simp [e])⟩

theorem Continued_snoc {ps : List Piece} {p : Piece} (h : Continued (ps ++ [p])) :
    ∃ g, p = .blank g ∧ (Continued ps ∨
      g = ['\n'] ∧ ∃ a t l, ps = a ++ [.token t l] ∧ continues t.tokenType = true) := by
  obtain ⟨a, t, l, bs, e, hc, hb⟩ := h
  rcases List.eq_nil_or_concat bs with rfl | ⟨bs', y, rfl⟩
  · have e' : ps ++ [p] = (a ++ [.token t l]) ++ [.blank ['\n']] := by simp [e]
    obtain ⟨e1, e2⟩ := List.append_inj' e' rfl
    simp only [List.cons.injEq, and_true] at e2
    exact ⟨_, e2, .inr ⟨rfl, a, t, l, e1, hc⟩⟩
  · have e' : ps ++ [p] = (a ++ .token t l :: .blank ['\n'] :: bs') ++ [y] := by simp [e]
    obtain ⟨e1, e2⟩ := List.append_inj' e' rfl
    simp only [List.cons.injEq, and_true] at e2
    subst e2
    obtain ⟨g, hg⟩ := hb p (by simp)
    exact ⟨g, hg, .inl ⟨a, t, l, bs', e1, hc, fun q hq => hb q (by simp [hq])⟩⟩

theorem lastVisible_of_snoc {ps a : List Piece} {p : Piece} (e : ps = a ++ [p])
    (h : ∀ t, p ≠ .layout t) : lastVisible ps = some p := by rw [e, lastVisible_snoc a p h]

/-- Continued pieces do not end in a layout token, so layout tokens come first. -/
theorem not_continued_layout {ps : List Piece} {t : Token} : ¬ Continued (ps ++ [.layout t]) := by
  intro h
  obtain ⟨g, hg, -⟩ := Continued_snoc h
  cases hg

theorem layouts_ok {env : Env} {v w : V} {g : Str} {ps : List Piece} (h : PInv env v ps)
    (hpos : v.PosOK) (hr : v.rest.head? = some g) (hg : g ∉ [[' '], ['\r'], ['\n'], ['\\']])
    (hb : BolR v w g) :
    ∃ lay, w.tokens = v.tokens ++ lay ∧
      (∀ a p b, ps ++ lay.map .layout = a ++ p :: b →
        PieceOK env (Spec.text a) p (Spec.text b ++ v.rest)) ∧
      Ctx Follows (ps ++ lay.map .layout) := by
  have key : ∃ lay, w.tokens = v.tokens ++ lay ∧
      (∀ t ∈ lay, LayoutTok v g t ∧ (v.isBol = true)) ∧
      (∀ a t b, lay = a ++ t :: b → t.tokenType = .indent → a = [] ∧ v.isCont = false) := by
    cases hb with
    | mid _ eq => exact ⟨[], by simp [eq]⟩
    | same _ _ eq => exact ⟨[], by simp [eq]⟩
    | suppressed _ _ _ eq => exact ⟨[], by simp [eq]⟩
    | indent ib _ nc eq =>
      refine ⟨_, by rw [eq], ?_, ?_⟩
      · intro t ht
        rw [List.mem_singleton.mp ht]
        exact ⟨⟨.inl rfl, rfl, rfl, rfl⟩, ib⟩
      · intro a t b e _
        cases a with
        | nil => exact ⟨rfl, nc⟩
        | cons x a => simp at e
    | outdent n ib _ _ _ _ eq =>
      refine ⟨_, by rw [eq], ?_, ?_⟩
      · intro t ht
        rw [List.eq_of_mem_replicate ht]
        exact ⟨⟨.inr rfl, rfl, rfl, rfl⟩, ib⟩
      · intro a t b e ht
        have : t ∈ List.replicate n (v.layoutTok .outdent g) := by rw [e]; simp
        rw [List.eq_of_mem_replicate this] at ht
        simp [V.layoutTok] at ht
  obtain ⟨lay, e, h1, h2⟩ := key
  refine ⟨lay, e, ?_, ?_⟩
  · clear e h2
    induction lay using snocInd with
    | nil => simpa using h.pieces
    | snoc l t ih =>
      rw [List.map_append, ← List.append_assoc]
      refine pieces_snoc (rest := v.rest) (ih fun x hx => h1 x (by simp [hx])) rfl ?_
      obtain ⟨ht, -⟩ := h1 t (by simp)
      refine ⟨ht.kind, ?_, by rw [hr, ht.lexeme], by rw [ht.lexeme]; exact hg⟩
      rw [text_append, text_layouts, List.append_nil, h.text]
      exact ⟨by rw [ht.line, hpos.1], by rw [ht.column, hpos.2]⟩
  · refine h.follows.layouts ?_
    intro a t b e' hc hi
    obtain ⟨rfl, hnc⟩ := h2 a t b e' hi
    simp only [List.map_nil, List.append_nil] at hc
    have := (h.cont hc).2
    rw [hnc] at this; cases this

theorem col_succ {n : Nat} (h : n ≤ u16Max) : satInc16 (col n) = col (satInc16 n) := by
  simp only [satInc16, col]
  by_cases h1 : n < u16Max
  · by_cases h2 : min (n + 1) u16Max < u16Max
    · simp only [h1, h2, if_true]; omega
    · simp only [h1, h2, if_true, if_false]; omega
  · have : ¬ min (n + 1) u16Max < u16Max := by omega
    simp only [h1, this, if_false]; omega

theorem satInc16_le {n : Nat} : satInc16 n ≤ u16Max := by
  simp only [satInc16]; split <;> omega

theorem columnOf_skip {v w : V} (hv : v.PosOK) (hw : w.PosOK) {g : Str} (hg : g ≠ ['\n'])
    (hm : w.pre = v.pre ++ [g]) : w.column = satInc16 v.column := by
  rw [hw.2, hv.2, hm, columnAfter_snoc, if_neg hg]

theorem pinv_step {env : Env} {v w : V} {ps : List Piece} (h : PInv env v ps) (hi : SInv v)
    (hpos : v.PosOK) (hposw : w.PosOK) (hs : StepR env v w) (he : w.errors = []) :
    ∃ ps', PInv env w ps' := by
  cases hs with
  | token g cs w0 t l rest bol ok kind first moved tokens errors stack isBol onlyComment isCont
      followCont abut paren =>
    have hb := bol_cases bol (by rw [← errors]; exact he)
    obtain ⟨lay, e, hp, hf⟩ := layouts_ok h hpos (by rw [rest]; rfl) first hb
    have hlv : lastVisible (ps ++ lay.map .layout ++ [.token t l]) = some (.token t l) :=
      lastVisible_snoc _ _ (by simp)
    have kind' := kind
    simp only [List.mem_cons, List.not_mem_nil, or_false, not_or] at kind'
    have htext : Spec.text (ps ++ lay.map .layout) = v.pre := by
      rw [text_append, text_layouts, List.append_nil, h.text]
    refine ⟨ps ++ lay.map .layout ++ [.token t l], ?_, ?_, ?_, ?_, ?_, ?_, ?_, ?_, ?_, ?_, ?_⟩
    · rw [text_append, htext, text_single, moved.1]; rfl
    · rw [toks_append, toks_append, toks_layouts, h.toks, tokens, e, toks_single]; rfl
    · exact pieces_snoc hp moved.2 (by rw [htext]; exact ok)
    · refine hf.snoc ⟨fun e => absurd e kind'.2.2.1, ?_, ?_⟩
      · intro e
        rw [lastVisible_layouts]
        exact h.abut.mp (paren.1 e)
      · intro e p hp hsol
        rw [lastVisible_layouts] at hp
        have := h.abut.mpr ⟨p, hp, hsol⟩
        rw [paren.2 e] at this; cases this
    · rw [hlv, abut]
      exact ⟨fun _ => ⟨_, rfl, kind'.2.2.1⟩, fun _ => rfl⟩
    · rw [EndsContinuing, hlv, followCont]
      constructor
      · intro hc; exact ⟨t, l, rfl, hc⟩
      · rintro ⟨t', l', e', hc⟩
        simp only [Option.some.injEq, Piece.token.injEq] at e'
        rw [e'.1]; exact hc
    · rw [isBol, hasToken_snoc]
      simp [Piece.endsLine, kind'.2.2.1]
    · rw [onlyComment, hasToken_snoc, hasComment_snoc]
      have : v.onlyComment = false := by
        cases hoc : v.onlyComment with
        | false => rfl
        | true =>
          have := (hi.comment hoc).2
          rw [rest] at this
          simp at this first
          exact absurd this first.2.2.1
      simp [Piece.endsLine, kind'.2.2.1, this]
    · intro _ _ _; exact isBol
    · intro hc
      obtain ⟨g', hg', -⟩ := Continued_snoc hc
      cases hg'
    · intro hpl
      have hc := h.cols (PlainLines.left (by rw [List.append_assoc] at hpl; exact hpl))
      obtain ⟨c1, c2, c3, c4⟩ := hc.bol hi.levels hb
      have hcol : t.column = v.column := by rw [ok.2.1.2, hpos.2]
      have := c1.other c2 (t := t) kind'.1 kind'.2.1 (by
        intro _ hn
        rw [hcol]
        by_cases hbol : v.isBol = true
        · exact c4 hbol hn
        · exfalso
          have hoc : v.onlyComment = false := by
            cases hoc : v.onlyComment with
            | false => rfl
            | true =>
              have := (hi.comment hoc).2
              rw [rest] at this
              simp at this first
              exact absurd this first.2.2.1
          have hlp := hi.last (by simpa using hbol) hoc
          have hv : w0 = v := by
            cases hb with
            | mid _ eq => exact eq
            | same hb _ _ => exact absurd hb hbol
            | suppressed hb _ _ _ => exact absurd hb hbol
            | indent hb _ _ _ => exact absurd hb hbol
            | outdent _ hb _ _ _ _ _ => exact absurd hb hbol
          rw [hv] at hn
          exact hn hlp)
      exact ⟨by simp [isBol], ⟨by simp [isBol], by rw [stack]; exact c3⟩, by rw [tokens, stack]; exact this.2,
        by rw [tokens]; exact this.1, by simp [isBol], fun _ => ⟨_, _, tokens, kind⟩⟩
  | comment cs w0 body rest bol ok moved state =>
    have hb := bol_cases bol (by rw [state] at he; exact he)
    obtain ⟨lay, e, hp, hf⟩ := layouts_ok h hpos (by rw [rest]; rfl) (by decide) hb
    have hlv : lastVisible (ps ++ lay.map .layout ++ [.comment body]) = some (.comment body) :=
      lastVisible_snoc _ _ (by simp)
    have htext : Spec.text (ps ++ lay.map .layout) = v.pre := by
      rw [text_append, text_layouts, List.append_nil, h.text]
    have hisBol : w.isBol = false := by rw [state]; exact (bol_fields bol).2.2.2.2.2.2.2.2.2
    have htoks : w.tokens = w0.tokens := by rw [state]
    have hstack : w.stack = w0.stack := by rw [state]
    have hfc : w.followCont = false := by rw [state]
    have hab : w.abut = true := by rw [state]
    have hoc : w.onlyComment = v.isBol := by rw [state]
    refine ⟨ps ++ lay.map .layout ++ [.comment body], ?_, ?_, ?_, ?_, ?_, ?_, ?_, ?_, ?_, ?_, ?_⟩
    · rw [text_append, htext, text_single, moved.1]
    · rw [toks_append, toks_append, toks_layouts, h.toks, htoks, e, toks_single]
      exact List.append_nil _
    · exact pieces_snoc hp moved.2 (by rw [htext]; exact ok)
    · exact hf.snoc trivial
    · rw [hlv, hab]
      exact ⟨fun _ => ⟨_, rfl, trivial⟩, fun _ => rfl⟩
    · rw [EndsContinuing, hlv, hfc]; simp
    · rw [hisBol, hasComment_snoc]
      simp [Piece.endsLine]
    · rw [hoc, hasToken_snoc, hasComment_snoc, hasToken_layouts, h.bolLine]
      have hv : HasComment ps → HasToken ps := by
        intro hc
        apply Classical.byContradiction
        intro ht
        have := (hi.comment (h.commentLine.mpr ⟨hc, ht⟩)).2
        rw [rest] at this
        simp at this
      simp only [Piece.endsLine, true_and, reduceCtorEq, exists_false, or_false]
      simp only [Piece.comment.injEq, exists_eq', or_true, true_and]
      exact ⟨fun h => h.1, fun h => ⟨h, fun hc => h (hv hc)⟩⟩
    · intro _ _ _; exact hisBol
    · intro hc
      obtain ⟨g', hg', -⟩ := Continued_snoc hc
      cases hg'
    · intro hpl
      have hc := h.cols (PlainLines.left (by rw [List.append_assoc] at hpl; exact hpl))
      obtain ⟨c1, c2, c3, c4⟩ := hc.bol hi.levels hb
      exact ⟨by simp [hisBol], ⟨by simp [hisBol], by rw [hstack]; exact c3⟩,
        by rw [htoks, hstack]; exact c2, by rw [htoks]; exact c1, by simp [hisBol], by simp [hfc]⟩
  | cont mid ok moved state =>
    have hlv : lastVisible (ps ++ [.continuation mid]) = some (.continuation mid) :=
      lastVisible_snoc _ _ (by simp)
    refine ⟨ps ++ [.continuation mid], ?_, ?_, ?_, ?_, ?_, ?_, ?_, ?_, ?_, ?_, ?_⟩
    · rw [text_append, h.text, text_single, moved.1]
    · rw [toks_append, h.toks, toks_single, state]; exact List.append_nil _
    · exact pieces_snoc h.pieces moved.2 (by rw [h.text]; exact ok)
    · exact h.follows.snoc trivial
    · rw [hlv, state]
      exact ⟨fun _ => ⟨_, rfl, trivial⟩, fun _ => rfl⟩
    · rw [EndsContinuing, hlv, state]; simp
    · rw [state, hasToken_snoc, hasComment_snoc]; simp [Piece.endsLine]
    · rw [state, hasToken_snoc, hasComment_snoc]; simp [Piece.endsLine]
    · rw [hlv]; simp
    · intro hc
      obtain ⟨g', hg', -⟩ := Continued_snoc hc
      cases hg'
    · intro hpl
      have hc := h.cols (PlainLines.left hpl)
      have hlast : EndsProper v.tokens := by
        have := hpl.2 ps mid [] rfl
        rwa [h.toks] at this
      exact ⟨by rw [state]; intro _; simp [col, u16Max], ⟨by rw [state]; simp, by rw [state]; exact hc.bound.2⟩,
        by rw [state]; exact hc.opened, by rw [state]; exact hc.ok, by rw [state]; exact fun _ _ => hlast,
        by rw [state]; simp⟩
  | space moved state =>
    have hlv : lastVisible (ps ++ [.blank [' ']]) = some (.blank [' ']) := lastVisible_snoc _ _ (by simp)
    refine ⟨ps ++ [.blank [' ']], ?_, ?_, ?_, ?_, ?_, ?_, ?_, ?_, ?_, ?_, ?_⟩
    · rw [text_append, h.text, text_single, moved.1]; rfl
    · rw [toks_append, h.toks, toks_single, state]; exact List.append_nil _
    · exact pieces_snoc h.pieces moved.2 (.inl rfl)
    · exact h.follows.snoc (fun e => by simp at e)
    · rw [hlv, state]; simp [Solid]
    · rw [EndsContinuing, hlv, state]; simp
    · rw [state, hasToken_snoc, hasComment_snoc]; simpa [Piece.endsLine] using h.bolLine
    · rw [state, hasToken_snoc, hasComment_snoc]; simpa [Piece.endsLine] using h.commentLine
    · rw [hlv]; simp
    · intro hc
      obtain ⟨g', hg', hc | ⟨e, -⟩⟩ := Continued_snoc hc
      · rw [state]; exact h.cont hc
      · cases hg'; cases e
    · intro hpl
      have hc := h.cols (PlainLines.left hpl)
      have hcol := columnOf_skip hpos hposw (by decide) moved.1
      have hisBol : w.isBol = v.isBol := by rw [state]
      have hsp : w.bolSpaces = if v.isBol then satInc16 v.bolSpaces else v.bolSpaces := by rw [state]
      refine ⟨?_, ⟨?_, by rw [state]; exact hc.bound.2⟩, by rw [state]; exact hc.opened,
        by rw [state]; exact hc.ok, by rw [state]; exact hc.cont, by rw [state]; simp⟩
      · intro hb
        rw [hisBol] at hb
        rw [hcol, hsp, if_pos hb, hc.column hb, col_succ (hc.bound.1 hb)]
      · intro hb
        rw [hisBol] at hb
        rw [hsp, if_pos hb]; exact satInc16_le
  | cr moved state =>
    have hlv : lastVisible (ps ++ [.blank ['\r']]) = some (.blank ['\r']) := lastVisible_snoc _ _ (by simp)
    refine ⟨ps ++ [.blank ['\r']], ?_, ?_, ?_, ?_, ?_, ?_, ?_, ?_, ?_, ?_, ?_⟩
    · rw [text_append, h.text, text_single, moved.1]; rfl
    · rw [toks_append, h.toks, toks_single, state]; exact List.append_nil _
    · exact pieces_snoc h.pieces moved.2 (.inr (.inl rfl))
    · exact h.follows.snoc (fun e => by simp at e)
    · rw [hlv, state]; simp [Solid]
    · rw [EndsContinuing, hlv, state]; simp
    · rw [state, hasToken_snoc, hasComment_snoc]; simpa [Piece.endsLine] using h.bolLine
    · rw [state, hasToken_snoc, hasComment_snoc]; simpa [Piece.endsLine] using h.commentLine
    · rw [hlv]; simp
    · intro hc
      obtain ⟨g', hg', hc | ⟨e, -⟩⟩ := Continued_snoc hc
      · rw [state]; exact h.cont hc
      · cases hg'; cases e
    · intro hpl
      exact absurd (by simp) hpl.1
  | newline moved silent state =>
    have hlv : lastVisible (ps ++ [.blank ['\n']]) = some (.blank ['\n']) := lastVisible_snoc _ _ (by simp)
    have hcont : w.isCont = if v.isBol then v.isCont else v.followCont := by rw [state]
    refine ⟨ps ++ [.blank ['\n']], ?_, ?_, ?_, ?_, ?_, ?_, ?_, ?_, ?_, ?_, ?_⟩
    · rw [text_append, h.text, text_single, moved.1]; rfl
    · rw [toks_append, h.toks, toks_single, state]; exact List.append_nil _
    · exact pieces_snoc h.pieces moved.2 (.inr (.inr rfl))
    · refine h.follows.snoc (fun _ => ?_)
      rcases silent with hb | hf | hc
      · exact .inl (h.bolLine.mp hb).1
      · exact .inr (h.follow.mp hf)
      · exact .inl (h.commentLine.mp hc).2
    · rw [hlv, state]; simp [Solid]
    · rw [EndsContinuing, hlv, state]; simp
    · rw [state, hasToken_snoc, hasComment_snoc]; simp [Piece.endsLine]
    · rw [state, hasToken_snoc, hasComment_snoc]; simp [Piece.endsLine]
    · rw [hlv]; simp
    · intro hc
      refine ⟨by rw [state], ?_⟩
      rw [hcont]
      obtain ⟨g', hg', hc | ⟨-, a, t, l, e, hct⟩⟩ := Continued_snoc hc
      · rw [if_pos (h.cont hc).1]; exact (h.cont hc).2
      · have hl := lastVisible_of_snoc e (by simp)
        have hb := h.midLine _ hl ⟨t, l, rfl, by intro e; rw [e] at hct; cases hct⟩
        rw [hb, if_neg (by simp)]
        exact h.follow.mpr ⟨t, l, hl, hct⟩
    · intro hpl
      have hc := h.cols (PlainLines.left hpl)
      refine ⟨by rw [state]; intro _; simp [col, u16Max], ⟨by rw [state]; simp, by rw [state]; exact hc.bound.2⟩,
        by rw [state]; exact hc.opened, by rw [state]; exact hc.ok, ?_, by rw [state]; simp⟩
      intro _
      rw [hcont]
      have ht : w.tokens = v.tokens := by rw [state]
      rw [ht]
      intro hic
      by_cases hb : v.isBol = true
      · rw [if_pos hb] at hic; exact hc.cont hb hic
      · rw [if_neg hb] at hic; exact hc.follow hic
  | terminator t moved ok kind loud state =>
    have hlv : lastVisible (ps ++ [.token t [['\n']]]) = some (.token t [['\n']]) :=
      lastVisible_snoc _ _ (by simp)
    refine ⟨ps ++ [.token t [['\n']]], ?_, ?_, ?_, ?_, ?_, ?_, ?_, ?_, ?_, ?_, ?_⟩
    · rw [text_append, h.text, text_single, moved.1]; rfl
    · rw [toks_append, h.toks, toks_single, state]; rfl
    · exact pieces_snoc h.pieces moved.2 (by rw [h.text]; exact ok)
    · refine h.follows.snoc ⟨fun _ => ⟨?_, ?_⟩, by simp [kind], by simp [kind]⟩
      · apply Classical.byContradiction
        intro hn
        have h1 := h.bolLine
        have h2 := h.commentLine
        rw [loud.1] at h1
        rw [loud.2.2] at h2
        simp only [Bool.false_eq_true, false_iff, not_and, Classical.not_not] at h1 h2
        exact hn (h2 (h1 hn))
      · intro hct
        have := h.follow.mpr hct
        rw [loud.2.1] at this; cases this
    · rw [hlv, state]; simp [Solid, kind]
    · rw [EndsContinuing, hlv, state]
      simp only [Bool.false_eq_true, false_iff, not_exists, not_and]
      intro t' l' e
      simp only [Option.some.injEq, Piece.token.injEq] at e
      rw [← e.1, kind]; simp [continues]
    · rw [state, hasToken_snoc, hasComment_snoc]; simp [Piece.endsLine, kind]
    · rw [state, hasToken_snoc, hasComment_snoc]; simp [Piece.endsLine, kind]
    · rw [hlv]
      rintro p e ⟨t', l', e', hn⟩
      simp only [Option.some.injEq] at e
      rw [← e] at e'
      simp only [Piece.token.injEq] at e'
      rw [← e'.1] at hn
      exact absurd kind hn
    · intro hc
      obtain ⟨g', hg', -⟩ := Continued_snoc hc
      cases hg'
    · intro hpl
      have hc := h.cols (PlainLines.left hpl)
      have := hc.ok.other hc.opened (t := t) (by simp [kind]) (by simp [kind])
        (by intro hp; simp [Proper, kind] at hp)
      exact ⟨by rw [state]; intro _; simp [col, u16Max], ⟨by rw [state]; simp, by rw [state]; exact hc.bound.2⟩,
        by rw [state]; exact this.2, by rw [state]; exact this.1, by rw [state]; simp, by rw [state]; simp⟩

theorem Reach.pinv {env : Env} (hA : AsciiLaws env) {cs : List Str} (hne : ∀ g ∈ cs, g ≠ [])
    {v : V} (h : Reach env cs v) (he : v.errors = []) : ∃ ps, PInv env v ps :=
  h.induct hA hne (P := fun v => ∃ ps, PInv env v ps) ⟨[], pinv_init env cs⟩
    (fun _ _ hv hp hpw hve he ⟨_, hi⟩ hs => pinv_step hi (hv.sinv hA hne hve) hp hpw hs he) he

/-- The tokens of an accepted source come from a reading of it. -/
theorem scan_reading {env : Env} (hA : AsciiLaws env) {cs : List Str} (hne : ∀ g ∈ cs, g ≠ [])
    {ts : List Token} (h : scanClusters env cs = .done (.ok ts)) :
    ∃ ps, Reads env cs ps ts ∧ Ctx Follows ps ∧ (PlainLines ps → ColsOK (toks ps)) := by
  obtain ⟨w, hw, hr, he, ht⟩ := scan_ok h
  obtain ⟨ps, hp⟩ := hw.pinv hA hne he
  have := hw.pre_rest
  rw [hr, List.append_nil] at this
  refine ⟨ps, ⟨hp.text.trans this, ⟨w.closing, by rw [hp.toks, ht], _, _, _, rfl, rfl, rfl⟩, ?_⟩,
    hp.follows, fun hpl => by rw [hp.toks]; exact (hp.cols hpl).ok⟩
  intro a p b e
  have := hp.pieces a p b e
  rwa [hr, List.append_nil] at this

end Ws
