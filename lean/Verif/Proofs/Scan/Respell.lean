import Verif.Proofs.Scan.Reading
import Verif.Proofs.Parse.Relabel
import Verif.Spec.Respell
/-! Reading a source with other names, strings, numbers and comments. -/
namespace Ws
open Spec

/-- What the layout depends on. -/
def norm : Piece → Piece
  | .layout t => .layout t
  | .token t _ => .token ⟨t.tokenType, [], none, none, 0, 0⟩ []
  | .blank g => .blank g
  | .comment _ => .comment []
  | .continuation mid => .continuation mid
  | .fault _ l => .fault ⟨.default, none, ""⟩ l

theorem begins_norm (p : Piece) : (norm p).begins = p.begins := by cases p <;> rfl
theorem isSpace_norm (p : Piece) : (norm p).isSpace = p.isSpace := by cases p <;> rfl
theorem endsLine_norm (p : Piece) : (norm p).endsLine = p.endsLine := by cases p <;> rfl
theorem solid_norm (p : Piece) : Solid (norm p) ↔ Solid p := by cases p <;> rfl

theorem thisLine_norm (ps : List Piece) : thisLine (ps.map norm) = (thisLine ps).map norm := by
  simp only [thisLine, ← List.map_reverse, List.takeWhile_map, Function.comp_def, endsLine_norm]

theorem exists_norm {l : List Piece} {P : Piece → Prop} : (∃ p ∈ l.map norm, P p) ↔ ∃ p ∈ l, P (norm p) := by
  constructor
  · rintro ⟨p, hp, h⟩
    obtain ⟨q, hq, rfl⟩ := List.mem_map.1 hp
    exact ⟨q, hq, h⟩
  · rintro ⟨p, hp, h⟩
    exact ⟨_, List.mem_map_of_mem hp, h⟩

theorem lineBegun_norm (ps : List Piece) : LineBegun (ps.map norm) ↔ LineBegun ps := by
  unfold LineBegun; rw [thisLine_norm, exists_norm]; simp only [begins_norm]

theorem spacesOf_norm (ps : List Piece) : spacesOf (ps.map norm) = spacesOf ps := by
  simp only [spacesOf, thisLine_norm, List.countP_map, Function.comp_def, isSpace_norm]

theorem lastVisible_norm (ps : List Piece) : lastVisible (ps.map norm) = (lastVisible ps).map norm := by
  unfold lastVisible
  rw [← List.map_reverse, List.find?_map]
  congr 2
  funext p
  cases p <;> rfl

theorem endsContinuing_norm (ps : List Piece) : EndsContinuing (ps.map norm) ↔ EndsContinuing ps := by
  unfold EndsContinuing
  rw [lastVisible_norm]
  cases lastVisible ps with
  | none => simp
  | some p =>
    cases p <;> simp [norm]

theorem comment_norm (p : Piece) : (∀ body, norm p ≠ .comment body) ↔ ∀ body, p ≠ .comment body := by
  cases p <;> simp [norm]

theorem statementDone_norm (ps : List Piece) : StatementDone (ps.map norm) ↔ StatementDone ps := by
  unfold StatementDone
  rw [endsContinuing_norm, thisLine_norm]
  refine and_congr_left fun _ => ?_
  rw [exists_norm]; simp only [begins_norm, comment_norm]

theorem joined_norm (ps : List Piece) : Joined (ps.map norm) ↔ Joined ps := by
  unfold Joined
  constructor
  · rintro ⟨a, p, b, e, h1, h2⟩
    obtain ⟨a', b1, rfl, rfl, e2⟩ := List.map_eq_append_iff.1 e
    obtain ⟨p', b', rfl, rfl, rfl⟩ := List.map_eq_cons_iff.1 e2
    refine ⟨a', p', b', rfl, ?_, fun q hq => ?_⟩
    · rcases h1 with ⟨mid, h1⟩ | ⟨h1, h3⟩
      · cases p' <;> simp [norm] at h1
        exact .inl ⟨_, rfl⟩
      · cases p' <;> simp [norm] at h1
        exact .inr ⟨by rw [h1], (endsContinuing_norm _).1 h3⟩
    · rw [← begins_norm]; exact h2 _ (List.mem_map_of_mem hq)
  · rintro ⟨a, p, b, rfl, h1, h2⟩
    refine ⟨a.map norm, norm p, b.map norm, by simp, ?_, fun q hq => ?_⟩
    · rcases h1 with ⟨mid, rfl⟩ | ⟨rfl, h3⟩
      · exact .inl ⟨mid, rfl⟩
      · exact .inr ⟨rfl, (endsContinuing_norm _).2 h3⟩
    · obtain ⟨q', hq', rfl⟩ := List.mem_map.1 hq
      rw [begins_norm]; exact h2 q' hq'

section
variable {ps ps' : List Piece} (h : ps.map norm = ps'.map norm)
include h
theorem same_lineBegun : LineBegun ps' ↔ LineBegun ps := by rw [← lineBegun_norm ps', ← h, lineBegun_norm]
theorem same_spacesOf : spacesOf ps' = spacesOf ps := by rw [← spacesOf_norm ps', ← h, spacesOf_norm]
theorem same_statementDone : StatementDone ps' ↔ StatementDone ps := by rw [← statementDone_norm ps', ← h, statementDone_norm]
theorem same_joined : Joined ps' ↔ Joined ps := by rw [← joined_norm ps', ← h, joined_norm]
theorem same_lastVisible : (lastVisible ps').map norm = (lastVisible ps).map norm := by
  rw [← lastVisible_norm ps', ← h, lastVisible_norm]
theorem same_attached : (∃ q, lastVisible ps' = some q ∧ Solid q) ↔ ∃ q, lastVisible ps = some q ∧ Solid q := by
  have e := same_lastVisible h
  have key : ∀ o : Option Piece, (∃ q, o = some q ∧ Solid q) ↔ ∃ q, o.map norm = some q ∧ Solid q := by
    intro o
    cases o with
    | none => simp
    | some q => simp [solid_norm]
  rw [key, e, ← key]
end

/-- The tokens are the same apart from positions, or have other names, strings and numbers. -/
def TokLike (ρ : Relabelling) (t t' : Token) : Prop := RelabelledToken ρ (moveToken nowhere t) (moveToken nowhere t')

/-- The errors say the same. -/
def CauseLike (c c' : Cause) : Prop := c'.message = c.message

/-- The pieces are alike. -/
inductive PieceLike (ρ : Relabelling) : Piece → Piece → Prop
  | token {t t'} (l l') : TokLike ρ t t' → PieceLike ρ (.token t l) (.token t' l')
  | blank (g) : PieceLike ρ (.blank g) (.blank g)
  | comment (b b') : PieceLike ρ (.comment b) (.comment b')
  | continuation (mid) : PieceLike ρ (.continuation mid) (.continuation mid)
  | fault {c c'} (l) : CauseLike c c' → PieceLike ρ (.fault c l) (.fault c' l)

theorem TokLike.type {ρ t t'} (h : TokLike ρ t t') : t'.tokenType = t.tokenType := h.tokenType

theorem PieceLike.norm {ρ p p'} (h : PieceLike ρ p p') : norm p = norm p' := by
  cases h <;> first | rfl | (rename_i h; simp [Ws.norm, h.type])

/-- The steps are alike. -/
structure StepLike (ρ : Relabelling) (s s' : Spec.Step) : Prop where
  layout : Each (TokLike ρ) s.layout s'.layout
  misfit : Each CauseLike s.misfit s'.misfit
  piece : PieceLike ρ s.piece s'.piece

theorem like_norm {ρ a a'} (h : Each (StepLike ρ) a a') : (pieces a).map norm = (pieces a').map norm := by
  induction h with
  | nil => rfl
  | cons h _ ih => simp only [pieces, List.map_cons, h.piece.norm] at ih ⊢; rw [ih]

theorem each_any {ρ ts ts'} (h : Each (TokLike ρ) ts ts') :
    (ts'.any fun t => t.tokenType == .indent) = ts.any fun t => t.tokenType == .indent := by
  induction h with
  | nil => rfl
  | cons h _ ih => simp only [List.any_cons, ih, h.type]

theorem each_reverse {α β : Type} {r : α → β → Prop} {as bs} (h : Each r as bs) : Each r as.reverse bs.reverse := by
  induction h with
  | nil => exact .nil
  | cons h _ ih => simp only [List.reverse_cons]; exact each_append ih (.cons h .nil)

theorem levelsRev_like {ρ a a'} (h : Each (StepLike ρ) a a') : levelsRev a' = levelsRev a := by
  induction h with
  | nil => rfl
  | cons h hs ih =>
    simp only [levelsRev, each_any h.layout, ih, each_length h.layout, same_spacesOf (like_norm (each_reverse hs))]

theorem levels_like {ρ a a'} (h : Each (StepLike ρ) a a') : levels a' = levels a := levelsRev_like (each_reverse h)

theorem layout_like {ρ} {ty : TokenType} (hty : ty = .indent ∨ ty = .outdent ∨ ty = .eof) (g g' : Str) (l c l' c' : Nat) :
    TokLike ρ ⟨ty, g, none, none, l, c⟩ ⟨ty, g', none, none, l', c'⟩ := by
  refine ⟨rfl, rfl, rfl, ?_, ?_, ?_, ?_⟩ <;> intro h <;> simp [moveToken] at h <;> subst h <;> simp at hty

theorem each_replicate {α β : Type} {r : α → β → Prop} {a b} (h : r a b) : ∀ n, Each r (List.replicate n a) (List.replicate n b)
  | 0 => .nil
  | n + 1 => by simp only [List.replicate_succ]; exact .cons h (each_replicate h n)

/-- The layout before a piece does not depend on positions. -/
theorem margin_like {ρ line column g line' column' g' k joined joined' lv ts cs} (hj : joined' ↔ joined)
    (h : Margin line column g k joined lv ts cs) :
    ∃ ts' cs', Margin line' column' g' k joined' lv ts' cs' ∧ Each (TokLike ρ) ts ts' ∧ Each CauseLike cs cs' := by
  cases h with
  | same _ h => exact ⟨_, _, .same _ h, .nil, .nil⟩
  | joined _ h h' => exact ⟨_, _, .joined _ h (hj.2 h'), .nil, .nil⟩
  | indent _ h h' => exact ⟨_, _, .indent _ h fun e => h' (hj.1 e), .cons (layout_like (.inl rfl) ..) .nil, .nil⟩
  | outdent c b h1 h2 h3 => exact ⟨_, _, .outdent c b h1 h2 h3, each_replicate (layout_like (.inr (.inl rfl)) ..) _, .nil⟩
  | misfit _ h1 h2 h3 =>
    exact ⟨_, _, .misfit _ h1 h2 h3, each_replicate (layout_like (.inr (.inl rfl)) ..) _, .cons rfl .nil⟩

/-! ### The next cluster -/

/-- The texts begin with the same cluster, or with two letters, or with two digits. -/
inductive HeadLike (env : Env) (r r' : List Str) : Prop
  | same : r'.head? = r.head? → HeadLike env r r'
  | word (g g' : Str) : r.head? = some g → r'.head? = some g' → WordStart env g → WordStart env g' → HeadLike env r r'
  | digit (g g' : Str) : r.head? = some g → r'.head? = some g' → Digit g → Digit g' → HeadLike env r r'

theorem digit_part {env : Env} (hA : AsciiLaws env) {g : Str} (h : Digit g) : WordPart env g := by
  simp only [Digit, List.mem_cons, List.not_mem_nil, or_false] at h
  rcases h with rfl | rfl | rfl | rfl | rfl | rfl | rfl | rfl | rfl | rfl <;>
    exact ⟨_, _, rfl, .inl (by rw [hA.alphanumeric _ (by decide)]; decide)⟩

theorem start_part {env : Env} (hL : LetterLaw env) {g : Str} (h : WordStart env g) : WordPart env g := by
  obtain ⟨c, r, e, h⟩ := h
  exact ⟨c, r, e, h.imp (hL c) id⟩

section
variable {env : Env} {r r' : List Str} (h : HeadLike env r r')
include h

theorem HeadLike.part (hA : AsciiLaws env) (hL : LetterLaw env) (hn : ∀ g, r.head? = some g → ¬ WordPart env g) :
    ∀ g, r'.head? = some g → ¬ WordPart env g := by
  cases h with
  | same e => rw [e]; exact hn
  | word g g' e _ hg => exact absurd (start_part hL hg) (hn g e)
  | digit g g' e _ hg => exact absurd (digit_part hA hg) (hn g e)

theorem HeadLike.noDigit (hA : AsciiLaws env) (hn : ∀ g, r.head? = some g → ¬ Digit g) :
    ∀ g, r'.head? = some g → ¬ Digit g := by
  cases h with
  | same e => rw [e]; exact hn
  | word g g' e e' hg hg' =>
    intro x ex hx
    rw [e'] at ex; cases ex
    exact (word_plain hA hg').2 hx
  | digit g g' e _ hg => exact absurd hg (hn g e)

theorem HeadLike.plain (hA : AsciiLaws env) {c : Char} (hc : c ∈ ['=', '/', ' ', '\r', '\n', '.']) :
    r'.head? = some [c] ↔ r.head? = some [c] := by
  have hw : ¬ WordStart env [c] := by
    intro hw
    have := wordStart_ascii hA hw
    simp only [List.mem_cons, List.not_mem_nil, or_false] at hc
    rcases hc with rfl | rfl | rfl | rfl | rfl | rfl <;> exact absurd (this (by decide)) (by decide)
  have hd : ¬ Digit [c] := by
    simp only [List.mem_cons, List.not_mem_nil, or_false] at hc
    rcases hc with rfl | rfl | rfl | rfl | rfl | rfl <;> decide
  cases h with
  | same e => rw [e]
  | word g g' e e' hg hg' =>
    rw [e, e']
    constructor <;> intro ex <;> cases ex <;> exact absurd ‹_› hw
  | digit g g' e e' hg hg' =>
    rw [e, e']
    constructor <;> intro ex <;> cases ex <;> exact absurd ‹_› hd

theorem HeadLike.nil (hr : r = []) : r' = [] := by
  subst hr
  cases h with
  | same e => simpa using e
  | word g g' e => cases e
  | digit g g' e => cases e
end

/-- The text of a piece in front of another text. -/
theorem HeadLike.append {env : Env} {l l' : List Str} (h : HeadLike env l l') (hl : l ≠ []) (hl' : l' ≠ []) (x x' : List Str) :
    HeadLike env (l ++ x) (l' ++ x') := by
  cases l with
  | nil => exact absurd rfl hl
  | cons a l =>
    cases l' with
    | nil => exact absurd rfl hl'
    | cons a' l' =>
      cases h with
      | same e => exact .same (by simpa using e)
      | word g g' e e' h1 h2 => exact .word g g' (by simpa using e) (by simpa using e') h1 h2
      | digit g g' e e' h1 h2 => exact .digit g g' (by simpa using e) (by simpa using e') h1 h2

/-- The token of a name is a word, and so on. -/
theorem ok_identifier {env : Env} {b rest l : List Str} {t : Token} (h : PieceOK env b (.token t l) rest) (ht : t.tokenType = .identifier) :
    IsWord env t l rest := by
  obtain ⟨-, -, h | h | h | h | h⟩ := h
  · have := h.spelling; rw [ht] at this; cases this
  · exact h
  · have := h.kind; rw [ht] at this; cases this
  · have := h.kind; rw [ht] at this; cases this
  · have := h.kind; rw [ht] at this; cases this
theorem ok_string {env : Env} {b rest l : List Str} {t : Token} (h : PieceOK env b (.token t l) rest) (ht : t.tokenType = .string) :
    IsString t l := by
  obtain ⟨-, -, h | h | h | h | h⟩ := h
  · have := h.spelling; rw [ht] at this; cases this
  · have := h.kind; rw [ht] at this; rcases this with h | ⟨h, _⟩ <;> cases h
  · have := h.kind; rw [ht] at this; cases this
  · exact h
  · have := h.kind; rw [ht] at this; cases this
theorem ok_number {env : Env} {b rest l : List Str} {t : Token} (h : PieceOK env b (.token t l) rest) (ht : t.tokenType = .number) :
    IsNumber env t l rest := by
  obtain ⟨-, -, h | h | h | h | h⟩ := h
  · have := h.spelling; rw [ht] at this; cases this
  · have := h.kind; rw [ht] at this; rcases this with h | ⟨h, _⟩ <;> cases h
  · exact h
  · have := h.kind; rw [ht] at this; cases this
  · have := h.kind; rw [ht] at this; cases this
theorem ok_this {env : Env} {b rest l : List Str} {t : Token} (h : PieceOK env b (.token t l) rest) (ht : t.tokenType = .this) :
    t.lexeme = c!"this" := by
  obtain ⟨-, -, h | h | h | h | h⟩ := h
  · have := h.spelling; rw [ht] at this; cases this
  · have := h.kind
    rw [ht] at this
    rcases this with h | ⟨h, _⟩
    · exact (Option.some.inj h).symm
    · cases h
  · have := h.kind; rw [ht] at this; cases this
  · have := h.kind; rw [ht] at this; cases this
  · have := h.kind; rw [ht] at this; cases this

theorem respelled_ne {env : Env} {ρ p l} (h : Respelled env ρ p l) (hp : p.text ≠ []) : l ≠ [] := by
  cases h <;> first | exact hp | simp_all

theorem number_head {env : Env} {t : Token} {l rest : List Str} (h : IsNumber env t l rest) : ∃ g, l.head? = some g ∧ Digit g := by
  obtain ⟨w, f, hw, hd, -, h⟩ := h.shape
  cases w with
  | nil => exact absurd rfl hw
  | cons g w => exact ⟨g, by rcases h with ⟨rfl, -⟩ | ⟨rfl, -⟩ <;> rfl, hd g (by simp)⟩

theorem respelled_head {env : Env} {ρ before p rest l} (h : Respelled env ρ p l) (hp : PieceAt env before p rest) :
    HeadLike env p.text l := by
  have hok := hp.ok
  cases h with
  | name t l g r ht hg =>
    obtain ⟨g0, r0, rfl, h0, -⟩ := (ok_identifier hok ht).start
    exact .word _ _ rfl rfl h0 hg
  | string t l body ht =>
    obtain ⟨b, rfl, -⟩ := (ok_string hok ht).shape
    exact .same rfl
  | whole t l' _ ht _ hne hd =>
    obtain ⟨g0, e0, h0⟩ := number_head (ok_number hok ht)
    obtain ⟨g, r, e⟩ := List.exists_cons_of_ne_nil hne
    exact .digit g0 g e0 (by rw [e]; rfl) h0 (hd g (by rw [e]; simp))
  | fraction t l digits more ht hne _ hd =>
    obtain ⟨g0, e0, h0⟩ := number_head (ok_number hok ht)
    cases digits with
    | nil => exact absurd rfl hne
    | cons g r => exact .digit g0 g e0 rfl h0 (hd g (by simp))
  | comment body body' _ => exact .same rfl
  | same p hk => exact .same rfl

/-- Only the token for a dot begins with a dot. -/
theorem dot_text {env : Env} (hA : AsciiLaws env) {before p rest} (hp : PieceAt env before p rest) (h : p.text.head? = some ['.']) :
    p.text = [['.']] := by
  have hok := hp.ok
  cases p with
  | layout t => exact hok.elim
  | blank g => rcases hok with rfl | rfl | rfl <;> simp [Piece.text] at h
  | comment body => simp [Piece.text] at h
  | continuation mid => simp [Piece.text] at h
  | fault c l =>
    have hok : FaultOK env (text before) rest c l := hok
    cases hok with
    | tab => simp [Piece.text] at h
    | backslash => simp [Piece.text] at h
    | unexpected g hg => simp only [Piece.text, List.head?_cons, Option.some.injEq] at h; exact absurd h (hg.2.2.2 .dot '.' rfl)
    | unterminated => simp [Piece.text] at h
  | token t l =>
    simp only [Piece.text] at h ⊢
    obtain ⟨-, -, hok | hok | hok | hok | hok⟩ := hok
    · have h1 := hok.spelling
      have h2 := hok.chars
      subst h2
      generalize t.tokenType = ty at h1
      cases ty <;> simp only [operator, reduceCtorEq, Option.some.injEq] at h1 <;> rw [← h1] at h ⊢ <;> first | rfl | simp at h
    · obtain ⟨g, r, rfl, hg, -⟩ := hok.start
      simp only [List.head?_cons, Option.some.injEq] at h
      subst h
      exact absurd (wordStart_ascii hA hg (by decide)) (by decide)
    · obtain ⟨g, e, hg⟩ := number_head hok
      rw [e] at h; cases h; exact absurd hg (by decide)
    · obtain ⟨b, rfl, -⟩ := hok.shape; simp at h
    · rw [hok.shape] at h; simp at h

/-! ### A piece with another spelling -/

theorem like_pieceAt {env : Env} {ρ before before' p p' rest rest'} (h : PieceLike ρ p p') (hb : before.map norm = before'.map norm)
    (hp : PieceAt env before p rest)
    (ok : match (motive := Piece → Prop) p' with
      | .layout _ => False
      | .fault c l => FaultOK env (text before') rest' c l
      | p => PieceOK env (text before') p rest') :
    ∃ q, q.text = p'.text ∧ PieceLike ρ p q ∧ PieceAt env before' q rest' := by
  have key : ∀ t' l', p' = .token t' l' → ∃ t l, p = .token t l ∧ t'.tokenType = t.tokenType := by
    rintro t' l' rfl
    cases h with
    | token l _ h => exact ⟨_, l, rfl, h.type⟩
  refine ⟨p', rfl, h, ⟨ok, ?_, ?_, ?_, ?_⟩⟩
  · rintro rfl
    cases h with
    | blank => rw [same_statementDone hb]; exact hp.newline rfl
  · intro t' l' e ht
    obtain ⟨t, l, e, h⟩ := key _ _ e
    rw [same_statementDone hb]; exact hp.terminator t l e (h ▸ ht)
  · intro t' l' e ht
    obtain ⟨t, l, e, h⟩ := key _ _ e
    rw [same_attached hb]; exact hp.attached t l e (h ▸ ht)
  · intro t' l' e ht
    obtain ⟨t, l, e, h⟩ := key _ _ e
    intro q hq hs
    obtain ⟨q', hq', hs'⟩ := (same_attached hb).1 ⟨q, hq, hs⟩
    exact hp.detached t l e (h ▸ ht) q' hq' hs'

theorem like_fault {env : Env} {ρ before before' c c' l rest rest'} (hb : before.map norm = before'.map norm)
    (hp : PieceAt env before (.fault c l) rest) (ok : FaultOK env (text before') rest' c' l) (h : CauseLike c c') :
    ∃ q, q.text = l ∧ PieceLike ρ (.fault c l) q ∧ PieceAt env before' q rest' :=
  like_pieceAt (p' := .fault c' l) (.fault l h) hb hp ok

theorem respell_piece {env : Env} (hA : AsciiLaws env) (hL : LetterLaw env) {ρ : Relabelling} (hρ : ρ.Faithful)
    {before before' p l' rest rest'} (hb : before.map norm = before'.map norm) (hp : PieceAt env before p rest)
    (h : Respelled env ρ p l') (hh : HeadLike env rest rest')
    (hdot : ∀ x', rest' = ['.'] :: x' → ∃ x, rest = ['.'] :: x ∧ HeadLike env x x') :
    ∃ p', p'.text = l' ∧ PieceLike ρ p p' ∧ PieceAt env before' p' rest' := by
  have hok := hp.ok
  cases h with
  | name t l g r ht hg hr hk he =>
    have hw := ok_identifier hok ht
    refine like_pieceAt (p' := .token ⟨.identifier, (g :: r).flatten, none, none, lineAfter (text before'), columnAfter (text before')⟩ (g :: r))
      (.token _ _ ?_) hb hp ⟨rfl, ⟨rfl, rfl⟩, .inr (.inl ⟨⟨g, r, rfl, hg, hr⟩, hh.part hA hL hw.munch, .inr ⟨rfl, hk⟩, rfl, rfl⟩)⟩
    refine ⟨ht.symm, rfl, rfl, fun _ => he.symm, ?_, ?_, ?_⟩ <;> intro h' <;> simp [moveToken, ht] at h'
  | string t l body ht hq he =>
    refine like_pieceAt (p' := .token ⟨.string, _, some body.flatten, none, lineAfter (text before'), columnAfter (text before')⟩ _)
      (.token _ _ ?_) hb hp ⟨rfl, ⟨rfl, rfl⟩, .inr (.inr (.inr (.inl ⟨rfl, ⟨body, rfl, hq, rfl⟩, rfl⟩)))⟩
    refine ⟨ht.symm, rfl, rfl, ?_, ?_, fun _ => he.symm, ?_⟩ <;> intro h' <;> simp [moveToken, ht] at h'
  | whole t l _ ht hl hne hd he =>
    have hn := ok_number hok ht
    refine like_pieceAt (p' := .token ⟨.number, l'.flatten, none, env.parseF64 l'.flatten, lineAfter (text before'), columnAfter (text before')⟩ l')
      (.token _ _ ?_) hb hp ⟨rfl, ⟨rfl, rfl⟩, .inr (.inr (.inl ⟨rfl, ⟨l', [], hne, hd, by simp, .inl ⟨rfl, rfl, ?_⟩⟩, hh.noDigit hA hn.munch, rfl, ?_, rfl⟩))⟩
    · refine ⟨ht.symm, rfl, rfl, ?_, ?_, ?_, fun _ => he.symm⟩ <;> intro h' <;> simp [moveToken, ht] at h'
    · intro x' e
      obtain ⟨x, ex, hx⟩ := hdot x' e
      obtain ⟨w, fr, -, -, -, ⟨-, -, h⟩ | ⟨h, -⟩⟩ := hn.shape
      · exact hx.noDigit hA (h x ex)
      · exact absurd (by rw [h]; simp) hl
    · rw [← he]
      have := hn.valid
      cases hf : t.floatLiteral with
      | none => exact absurd hf this
      | some f => simp
  | fraction t l digits more ht hne hm hd he =>
    have hn := ok_number hok ht
    refine like_pieceAt (p' := .token ⟨.number, _, none, env.parseF64 (digits ++ ['.'] :: more).flatten, lineAfter (text before'), columnAfter (text before')⟩ (digits ++ ['.'] :: more))
      (.token _ _ ?_) hb hp ⟨rfl, ⟨rfl, rfl⟩, .inr (.inr (.inl ⟨rfl, ⟨digits, more, hne, fun g hg => hd g (by simp [hg]), fun g hg => hd g (by simp [hg]), .inr ⟨rfl, hm⟩⟩, hh.noDigit hA hn.munch, rfl, ?_, rfl⟩))⟩
    · refine ⟨ht.symm, rfl, rfl, ?_, ?_, ?_, fun _ => he.symm⟩ <;> intro h' <;> simp [moveToken, ht] at h'
    · show env.parseF64 _ ≠ none
      rw [← he]
      have := hn.valid
      cases hf : t.floatLiteral with
      | none => exact absurd hf this
      | some f => simp
  | comment body body' hb' =>
    refine like_pieceAt (p' := .comment body') (.comment _ _) hb hp ⟨hb', ?_⟩
    exact hok.2.imp hh.nil (hh.plain hA (by decide)).2
  | same p hk =>
    cases p with
    | layout t => exact hok.elim
    | blank g => exact like_pieceAt (.blank g) hb hp hok
    | comment b => exact like_pieceAt (.comment b b) hb hp ⟨hok.1, hok.2.imp hh.nil (hh.plain hA (by decide)).2⟩
    | continuation mid => exact like_pieceAt (.continuation mid) hb hp hok
    | token t l =>
      simp only [Piece.kept, Bool.and_eq_true, bne_iff_ne, ne_eq] at hk
      obtain ⟨⟨h1, h2⟩, h3⟩ := hk
      have h4 : t.tokenType = .this → t.lexeme = ρ.name t.lexeme := by
        intro h; rw [ok_this hok h, hρ.this]
      obtain ⟨hx, -, ho⟩ := hok
      refine like_pieceAt (p' := .token { t with line := lineAfter (text before'), column := columnAfter (text before') } l)
        (.token _ _ ⟨rfl, rfl, rfl, fun h => absurd h h1, h4, fun h => absurd h h2, fun h => absurd h h3⟩) hb hp ⟨hx, ⟨rfl, rfl⟩, ?_⟩
      rcases ho with h | h | h | h | h
      · refine .inl ⟨h.spelling, h.chars, h.noString, h.noFloat, fun hm => ?_, fun hm => ?_⟩
        · rw [ne_eq, hh.plain hA (by decide)]; exact h.munch hm
        · rw [ne_eq, hh.plain hA (by decide)]; exact h.noComment hm
      · exact .inr (.inl ⟨h.start, hh.part hA hL h.munch, h.kind, h.noString, h.noFloat⟩)
      · exact absurd h.kind h3
      · exact absurd h.kind h2
      · exact .inr (.inr (.inr (.inr ⟨h.kind, h.shape, h.noString, h.noFloat⟩)))
    | fault c l =>
      have hok : FaultOK env (text before) rest c l := hok
      cases hok with
      | tab => exact like_fault hb hp .tab rfl
      | backslash n cr h1 h2 =>
        refine like_fault hb hp (.backslash n cr ?_ ?_) rfl
        · rw [ne_eq, ne_eq, hh.plain hA (by decide), hh.plain hA (by decide)]; exact h1
        · rw [ne_eq, hh.plain hA (by decide)]; exact h2
      | unexpected g hg => exact like_fault hb hp (.unexpected g hg) rfl
      | unterminated body h1 h2 => exact like_fault hb hp (.unterminated body h1 (hh.nil h2)) rfl

/-! ### The whole source -/

theorem like_begins {ρ p p'} (h : PieceLike ρ p p') : p'.begins = p.begins := by
  rw [← begins_norm p', ← h.norm, begins_norm]

theorem like_first {ρ before before' p p'} (h : PieceLike ρ p p') (hb : before.map norm = before'.map norm) :
    First before' p' ↔ First before p := by
  unfold First; rw [like_begins h, same_lineBegun hb]

/-- The text after a piece begins alike. -/
theorem rest_like {env : Env} (hA : AsciiLaws env) {ρ} : ∀ {a b : List Spec.Step} {ls : List (List Str)},
    (∀ x s y, b = x ++ s :: y → StepOK env (a ++ x) s (textOf y)) → Each (Respelled env ρ) (pieces b) ls →
    HeadLike env (textOf b) ls.flatten ∧
      ∀ x', ls.flatten = ['.'] :: x' → ∃ x, textOf b = ['.'] :: x ∧ HeadLike env x x'
  | _, [], ls, _, h => by
    cases h
    exact ⟨.same rfl, by simp⟩
  | a, s :: b, ls, hr, h => by
    obtain ⟨hl, ht⟩ : (∃ l ls', ls = l :: ls' ∧ Respelled env ρ s.piece l ∧ Each (Respelled env ρ) (pieces b) ls') ∧ True := by
      cases h with
      | cons h1 h2 => exact ⟨⟨_, _, rfl, h1, h2⟩, trivial⟩
    obtain ⟨l, ls', rfl, h1, h2⟩ := hl
    have hs := hr [] s b rfl
    have ih := (rest_like hA (a := a ++ [s]) (b := b) (ls := ls') (fun x s' y e => by
      have := hr (s :: x) s' y (by simp [e])
      simpa using this) h2).1
    have hne : s.piece.text ≠ [] := ok_text_ne hs.piece.ok
    have hne' := respelled_ne h1 hne
    have hh := respelled_head h1 hs.piece
    rw [textOf_cons, List.flatten_cons]
    refine ⟨hh.append hne hne' _ _, ?_⟩
    intro x' e
    have h3 : l.head? = some ['.'] := by
      cases l with
      | nil => exact absurd rfl hne'
      | cons g l => simp at e; simp [e.1]
    have h4 := (hh.plain hA (c := '.') (by decide)).1 h3
    have h5 := dot_text hA hs.piece h4
    have h6 : l = [['.']] := by
      rcases hp : s.piece with t | ⟨t, tl⟩ | g | b | m | ⟨c, l⟩ <;> rw [hp] at h1 h5 <;> cases h1 <;>
        first
        | exact h5
        | (simp at h3; done)
        | (have hw := ‹WordStart env _›
           simp only [List.head?_cons, Option.some.injEq] at h3
           rw [h3] at hw
           exact absurd (wordStart_ascii hA hw (by decide)) (by decide))
        | (have hd := number_head (ok_number (hp ▸ hs.piece.ok) (by assumption))
           simp only [Piece.text] at h5; rw [h5] at hd; obtain ⟨g, e, hd⟩ := hd; cases e; exact absurd hd (by decide))
    rw [h6] at e
    rw [h5]
    exact ⟨_, rfl, by simpa [← show ls'.flatten = x' by simpa using e] using ih⟩

/-- There is a reading of the other source, and it is alike. -/
theorem respell_steps {env : Env} (hA : AsciiLaws env) (hL : LetterLaw env) {ρ : Relabelling} (hρ : ρ.Faithful) :
    ∀ {b : List Spec.Step} {a a' : List Spec.Step} {ls : List (List Str)},
    (∀ x s y, b = x ++ s :: y → StepOK env (a ++ x) s (textOf y)) → Each (Respelled env ρ) (pieces b) ls →
    Each (StepLike ρ) a a' →
    ∃ b', Each (StepLike ρ) b b' ∧ textOf b' = ls.flatten ∧
      ∀ x s y, b' = x ++ s :: y → StepOK env (a' ++ x) s (textOf y)
  | [], a, a', ls, _, h, _ => by
    cases h
    exact ⟨[], .nil, rfl, by simp⟩
  | s :: b, a, a', ls, hr, h, ha => by
    obtain ⟨l, ls', rfl, h1, h2⟩ : ∃ l ls', ls = l :: ls' ∧ Respelled env ρ s.piece l ∧ Each (Respelled env ρ) (pieces b) ls' := by
      cases h with
      | cons h1 h2 => exact ⟨_, _, rfl, h1, h2⟩
    have hs := hr [] s b rfl
    rw [List.append_nil] at hs
    have hr' : ∀ x s' y, b = x ++ s' :: y → StepOK env (a ++ [s] ++ x) s' (textOf y) := fun x s' y e => by
      have := hr (s :: x) s' y (by simp [e])
      simpa using this
    obtain ⟨hh, hdot⟩ := rest_like hA hr' h2
    have hb := like_norm ha
    obtain ⟨p', e', hpl, hpa⟩ := respell_piece hA hL hρ hb hs.piece h1 hh hdot
    obtain ⟨ts', cs', hts, hcs, hf, ho⟩ : ∃ ts' cs', Each (TokLike ρ) s.layout ts' ∧ Each CauseLike s.misfit cs' ∧
        (First (pieces a') p' → ∃ g r, p'.text = g :: r ∧
          Margin (lineAfter (textOf a')) (columnAfter (textOf a')) g (spacesOf (pieces a')) (Joined (pieces a')) (levels a') ts' cs') ∧
        (¬ First (pieces a') p' → ts' = [] ∧ cs' = []) := by
      by_cases hF : First (pieces a) s.piece
      · obtain ⟨g, r, e, hm⟩ := hs.first hF
        have hne : p'.text ≠ [] := ok_text_ne hpa.ok
        obtain ⟨g', r', eg⟩ := List.exists_cons_of_ne_nil hne
        obtain ⟨ts', cs', hm', h3, h4⟩ := margin_like (ρ := ρ) (line' := lineAfter (textOf a')) (column' := columnAfter (textOf a')) (g' := g') (same_joined hb) hm
        refine ⟨ts', cs', h3, h4, fun _ => ⟨g', r', eg, ?_⟩, fun h => absurd ((like_first hpl hb).2 hF) h⟩
        rw [same_spacesOf hb, levels_like ha]; exact hm'
      · obtain ⟨e1, e2⟩ := hs.other hF
        rw [e1, e2]
        exact ⟨[], [], .nil, .nil, fun h => absurd ((like_first hpl hb).1 h) hF, fun _ => ⟨rfl, rfl⟩⟩
    have hsl : StepLike ρ s ⟨ts', cs', p'⟩ := ⟨hts, hcs, hpl⟩
    obtain ⟨b', hb1, hb2, hb3⟩ := respell_steps hA hL hρ hr' h2 (each_append ha (.cons hsl .nil))
    refine ⟨⟨ts', cs', p'⟩ :: b', .cons hsl hb1, by rw [textOf_cons, hb2, List.flatten_cons, e'], ?_⟩
    intro x s0 y e
    cases x with
    | nil =>
      simp only [List.nil_append, List.cons.injEq] at e
      obtain ⟨rfl, rfl⟩ := e
      rw [List.append_nil]
      exact ⟨by rw [hb2]; exact hpa, hf, ho⟩
    | cons s1 x =>
      simp only [List.cons_append, List.cons.injEq] at e
      obtain ⟨rfl, e⟩ := e
      have := hb3 x s0 y e
      simpa using this

theorem each_flatMap {α β γ δ : Type} {r : α → β → Prop} {q : γ → δ → Prop} {f : α → List γ} {g : β → List δ}
    (hfg : ∀ a b, r a b → Each q (f a) (g b)) : ∀ {as bs}, Each r as bs → Each q (as.flatMap f) (bs.flatMap g)
  | _, _, .nil => .nil
  | _, _, .cons h hs => by
    simp only [List.flatMap_cons]
    exact each_append (hfg _ _ h) (each_flatMap hfg hs)

theorem tokens_like {ρ a a'} (h : Each (StepLike ρ) a a') : Each (TokLike ρ) (tokensOf a) (tokensOf a') :=
  each_flatMap (fun s s' h => each_append h.layout (by
    have := h.piece
    revert this
    generalize s.piece = p; generalize s'.piece = p'
    intro h
    cases h with
    | token _ _ h => exact .cons h .nil
    | _ => exact .nil)) h

theorem causes_like {ρ a a'} (h : Each (StepLike ρ) a a') : Each CauseLike (causesOf a) (causesOf a') :=
  each_flatMap (fun s s' h => each_append h.misfit (by
    have := h.piece
    revert this
    generalize s.piece = p; generalize s'.piece = p'
    intro h
    cases h with
    | fault _ h => exact .cons h .nil
    | _ => exact .nil)) h

theorem closing_like {ρ a a'} (h : Each (StepLike ρ) a a') : Each (TokLike ρ) (closing a) (closing a') := by
  simp only [closing, levels_like h]
  exact each_append (each_replicate (layout_like (.inr (.inl rfl)) ..) _) (.cons (layout_like (.inr (.inr rfl)) ..) .nil)

end Ws
