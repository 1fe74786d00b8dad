import Verif.Proofs.Js.Inj
import Verif.Properties.Reading
import Verif.Properties.Resolver
/-! Accepted programs, parsed or resolved, have locations that fit and maps with distinct keys. -/
namespace Ws
open Spec Properties

/-- A token is located within the limits. -/
def TokenFits (t : Token) : Prop := t.line ≤ u32Max ∧ t.column ≤ u16Max

theorem lineAfter_le (l : List Str) : lineAfter l ≤ u32Max := Nat.min_le_right _ _
theorem columnAfter_le (l : List Str) : columnAfter l ≤ u16Max := Nat.min_le_right _ _

theorem margin_fits {line column : Nat} {g : Str} {k : Nat} {j : Prop} {ls : List Nat} {ts : List Token} {cs : List Cause}
    (hl : line ≤ u32Max) (hc : column ≤ u16Max) (h : Margin line column g k j ls ts cs) : ∀ t ∈ ts, TokenFits t := by
  cases h with
  | same _ _ => simp
  | joined _ _ _ => simp
  | indent _ _ _ => simpa using ⟨hl, hc⟩
  | outdent closed below _ _ _ =>
    intro t ht
    rw [(List.mem_replicate.mp ht).2]
    exact ⟨hl, hc⟩
  | misfit _ _ _ _ =>
    intro t ht
    rw [(List.mem_replicate.mp ht).2]
    exact ⟨hl, hc⟩

theorem located_fits {t : Token} {l : List Str} (h : LocatedAfter t l) : TokenFits t :=
  ⟨by rw [h.1]; exact lineAfter_le l, by rw [h.2]; exact columnAfter_le l⟩

theorem piece_fits {env : Env} {before : List Piece} {p : Piece} {rest : List Str} (h : PieceAt env before p rest) :
    ∀ t ∈ p.tok, TokenFits t := by
  have := h.ok
  cases p with
  | layout t => exact this.elim
  | token t l =>
    intro t' ht
    simp only [Piece.tok, List.mem_singleton] at ht
    subst ht
    exact located_fits this.2.1
  | _ => simp [Piece.tok]

theorem step_fits {env : Env} {done : List Spec.Step} {s : Spec.Step} {rest : List Str} (h : StepOK env done s rest) :
    ∀ t ∈ s.toks, TokenFits t := by
  intro t ht
  rcases List.mem_append.mp ht with ht | ht
  · by_cases hf : First (pieces done) s.piece
    · obtain ⟨g, r, _, hm⟩ := h.first hf
      exact margin_fits (lineAfter_le _) (columnAfter_le _) hm t ht
    · rw [(h.other hf).1] at ht
      cases ht
  · exact piece_fits h.piece t ht

theorem tokens_fit {env : Env} {source : Str} {ts : List Token} (hE : EnvLaws env)
    (h : scanTokens env source = .done (.ok ts)) : ∀ t ∈ ts, TokenFits t := by
  obtain ⟨steps, _, hr, _, rfl⟩ := (scan_accepts_iff hE ts).mp h
  intro t ht
  rcases List.mem_append.mp ht with ht | ht
  · obtain ⟨s, hs, ht⟩ := List.mem_flatMap.mp ht
    obtain ⟨a, b, e⟩ := List.append_of_mem hs
    exact step_fits (hr a s b e) t ht
  · have hc : min (columnAfter (textOf steps)) (u16Max - 1) ≤ u16Max :=
      Nat.le_trans (Nat.min_le_left _ _) (columnAfter_le _)
    simp only [closing, List.mem_append, List.mem_replicate, List.mem_singleton] at ht
    rcases ht with ⟨_, rfl⟩ | rfl
    · exact ⟨lineAfter_le _, hc⟩
    · exact ⟨lineAfter_le _, hc⟩

theorem loc_fits {t : Token} (h : TokenFits t) : LocFits t.loc := by
  obtain ⟨h1, h2⟩ := h
  simp only [LocFits, Token.loc]
  unfold u32Max at h1
  unfold u16Max at h2
  omega

theorem from_tokens_fit {ts : List Token} (hts : ∀ t ∈ ts, TokenFits t) {x : Node} (h : FromTokens ts x) : Fit x := by
  have ho : ∀ {l}, Occurs ts l → LocFits l := by
    rintro l ⟨t, ht, rfl⟩
    exact loc_fits (hts t ht)
  have hsp : ∀ {n l}, SpelledAt ts n l → LocFits l := by
    rintro n l ⟨t, ht, _, _, rfl⟩
    exact loc_fits (hts t ht)
  have hk : ∀ {k l}, (∃ t ∈ ts, t.tokenType = k ∧ t.loc = l) → LocFits l := by
    rintro k l ⟨t, ht, _, rfl⟩
    exact loc_fits (hts t ht)
  cases x with
  | expr e =>
    cases e with
    | assign => exact ho h.2
    | call => exact ho h
    | binary => exact ho h
    | get => exact ho h.2
    | getIndex => exact ho h
    | set => exact ho h.2
    | setIndex => exact ho h
    | super => exact hk h.2
    | «variable» n c l =>
      rcases h with h | ⟨t, ht, _, _, rfl⟩
      · exact hsp h
      · exact loc_fits (hts t ht)
    | unary => exact ho h
    | _ => trivial
  | fn d => exact ⟨ho h.1, fun p hp => hsp (h.2 p hp)⟩
  | stmt s =>
    cases s with
    | «break» => exact hk h
    | «continue» => exact hk h
    | «class» => exact hsp h.1
    | «return» => exact hk h
    | var => exact hsp h
    | _ => trivial

theorem parsed_fit {env : Env} {repl : Bool} {source : Str} {sts : List Stmt} (hE : EnvLaws env) (hS : Fits env source)
    (h : Accepts env repl source sts) : ∀ s ∈ sts, AllFit (.stmt s) := by
  obtain ⟨ws, eof, hs, -, -⟩ := accepted_derivable hE hS h
  intro s hs' x hx
  exact ⟨from_tokens_fit (tokens_fit hE hs) (names_from_tokens hE hS h hs ⟨s, hs', hx⟩), distinct_keys hE hS h ⟨s, hs', hx⟩⟩

theorem fit_erase (n : Node) : Fit (eraseNode n) ↔ Fit n := by
  cases n with
  | expr e => cases e <;> simp [eraseNode, eraseExpr, Fit]
  | stmt s =>
    cases s with
    | «class» x e ms loc => cases e <;> simp [eraseNode, eraseStmt, Fit]
    | «if» c a b => cases b <;> simp [eraseNode, eraseStmt, Fit]
    | «fun» f => cases f; simp [eraseNode, eraseStmt, Fit]
    | _ => simp [eraseNode, eraseStmt, Fit]
  | fn d =>
    cases d
    simp [eraseNode, eraseFun, Fit, FunDef.params, FunDef.loc]

theorem keys_erase (n : Node) : DistinctKeys (eraseNode n) ↔ DistinctKeys n := by
  cases n with
  | expr e =>
    cases e with
    | literalMap ms =>
      simp only [eraseNode, eraseExpr, DistinctKeys, eraseEntries_eq, List.map_map]
      exact Iff.rfl
    | _ => simp [eraseNode, eraseExpr, DistinctKeys]
  | stmt s => simp [eraseNode, DistinctKeys]
  | fn d => simp [eraseNode, DistinctKeys]

theorem fit_resolved {sts sts' : List Stmt} (he : eraseStmts sts' = eraseStmts sts)
    (h : ∀ s ∈ sts, AllFit (.stmt s)) : ∀ s ∈ sts', AllFit (.stmt s) := by
  intro s' hs' x hx
  rw [eraseStmts_eq, eraseStmts_eq] at he
  have : eraseStmt s' ∈ sts.map eraseStmt := by rw [← he]; exact List.mem_map_of_mem hs'
  obtain ⟨s, hs, e⟩ := List.mem_map.mp this
  obtain ⟨y, hy, e'⟩ := within_of_erase (within_erase hx) (.stmt s) (by simp only [eraseNode, e])
  rw [← fit_erase, ← keys_erase, e', fit_erase, keys_erase]
  exact h s hs y hy

end Ws
