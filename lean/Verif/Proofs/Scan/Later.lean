import Verif.Proofs.Scan.Insert
import Verif.Proofs.Scan.Join
import Verif.Proofs.Scan.Reading
import Verif.Spec.Later
/-! The scan of a text depends on what stands before only through the open levels and the number of lines. -/
namespace Ws
open Spec Scanner

theorem openLevels_of {env : Env} (hA : AsciiLaws env) (hN : NumberLaw env) {x : List Str} (hne : ∀ g ∈ x, g ≠ []) {w : V}
    (hw : outcome env (V.init x) = .done w) : OpenLevels env x w.stack := by
  have hreach : Reach env x w := (vloop_reach _ .init hw).1
  have hrest := outcome_rest hw
  obtain ⟨steps, h3, h2, h1⟩ := hreach.reading hA hN hne
  rw [hrest] at h2
  rw [hrest, List.append_nil] at h1
  exact ⟨steps, h1, h2, h3.stack.symm⟩

theorem openLevels_unique {env : Env} (hA : AsciiLaws env) (hN : NumberLaw env) {x : List Str} (hne : ∀ g ∈ x, g ≠ []) {l l' : List Nat}
    (h : OpenLevels env x l) (h' : OpenLevels env x l') : l = l' := by
  obtain ⟨steps, h1, h2, rfl⟩ := h
  obtain ⟨steps', h1', h2', rfl⟩ := h'
  rw [reading_unique hA hN (by rw [h1]; exact hne) h2 h2' (h1.trans h1'.symm)]

/-- The state after a statement and its newline. -/
theorem ended_state {env : Env} (hA : AsciiLaws env) (hN : NumberLaw env) {x : List Str} {ts : List Token} {t : Token} {l : List Nat}
    (hne : ∀ g ∈ x, g ≠ []) (h : EndsStatement env x ts t) (hl : OpenLevels env x l) :
    ∃ s : V, Fresh s ∧ s.line = satInc32 (lineAfter x) ∧ s.stack = l ∧ s.isCont = false ∧ s.tokens = ts ++ [t] ∧
      ∀ y, ∃ p, outcome env (V.init (x ++ ['\n'] :: y)) = outcome env { s with pre := p, rest := y } := by
  obtain ⟨w, hw, he, hb, hf, ho, rfl, rfl⟩ := ends_state hA h
  have hreach : Reach env x w := (vloop_reach _ .init hw).1
  have hrest := outcome_rest hw
  have hbt := outcome_between hw (by simp [V.init, u32Max])
  have hpre := hreach.pre_rest
  rw [hrest, List.append_nil] at hpre
  have hline : w.line = lineAfter x := by rw [(hreach.pos hA).1, hpre]
  have hstack : w.stack = l := openLevels_unique hA hN hne (openLevels_of hA hN hne hw) hl
  refine ⟨w.afterNl [], fresh_afterNl [] he hbt.max, ?_, hstack, ?_, ?_, fun y => ?_⟩
  · show satInc32 w.line = _
    rw [hline]
  · simp [V.afterNl, hb, hf]
  · simp [V.afterNl, hb, hf, ho]
  · obtain ⟨p, hp⟩ := outcome_append hA hw he y
    refine ⟨p ++ [['\n']], ?_⟩
    rw [hp, outcome_nl (r := y) rfl]
    rfl

/-- A scan that has the tokens `ts` instead of the first `n`, and everything else on other lines. -/
def otherScan (n : Nat) (ts : List Token) (f : Nat → Nat) : Outcome (Except ParseError (List Token)) → Outcome (Except ParseError (List Token))
  | .done (.ok w) => .done (.ok (ts ++ (w.drop n).map (moveTok f)))
  | .done (.error es) => .done (.error (es.map (moveErr f)))
  | .panic m => .panic m
  | .diverge => .diverge

/-- Scans from states that differ in the tokens so far and the line. -/
theorem finish_other {env : Env} {s s' : V} {f : Nat → Nat} {hf : ∀ n, f (satInc32 n) = satInc32 (f n)}
    (hr : Rel ⟨[], f, hf, s.tokens, s'.tokens, [], []⟩ s s') :
    (∀ w, finish (outcome env s) = .done (.ok w) → ∃ u, w = s.tokens ++ u) ∧
    finish (outcome env s') = otherScan s.tokens.length s'.tokens f (finish (outcome env s)) := by
  have hsim := sim_outcome (env := env) rfl hr
  revert hsim
  generalize outcome env s = o
  generalize outcome env s' = o'
  intro hsim
  cases hsim with
  | panic m => exact ⟨nofun, rfl⟩
  | diverge => exact ⟨nofun, rfl⟩
  | @done w w' hw =>
    obtain ⟨new, h1, h2⟩ := hw.tokens
    obtain ⟨es, h3, h4⟩ := hw.errors
    simp only [List.nil_append] at h1 h2 h3 h4
    simp only [finish, bind_def, Outcome.bind, h3, h4, List.isEmpty_map]
    constructor
    · intro u hu
      split at hu
      · cases hu
        exact ⟨new ++ w.closing, by rw [h1, List.append_assoc]⟩
      · cases hu
    · split
      · simp only [otherScan, h1, h2, List.append_assoc, List.drop_left, List.map_append, V.closing, hw.stack, hw.line, hw.column,
          List.map_replicate, List.map_cons, List.map_nil]
        rfl
      · simp only [otherScan]

theorem later_moved {env : Env} (hA : AsciiLaws env) (hN : NumberLaw env) {x x' : List Str} {ts ts' : List Token} {t t' : Token} {l : List Nat}
    {f : Nat → Nat} (hf : ∀ n, f (satInc32 n) = satInc32 (f n))
    (hne : ∀ g ∈ x, g ≠ []) (hne' : ∀ g ∈ x', g ≠ []) (h : EndsStatement env x ts t) (h' : EndsStatement env x' ts' t')
    (hl : OpenLevels env x l) (hl' : OpenLevels env x' l) (hd : lineAfter x' = f (lineAfter x)) (y : List Str) :
    (∀ w, scanClusters env (x ++ newline ++ y) = .done (.ok w) → ∃ u, w = ts ++ [t] ++ u) ∧
    scanClusters env (x' ++ newline ++ y) = otherScan (ts ++ [t]).length (ts' ++ [t']) f (scanClusters env (x ++ newline ++ y)) := by
  obtain ⟨s, hs, e1, e2, e3, e4, e5⟩ := ended_state hA hN hne h hl
  obtain ⟨s', hs', e1', e2', e3', e4', e5'⟩ := ended_state hA hN hne' h' hl'
  obtain ⟨p, hp⟩ := e5 y
  obtain ⟨p', hp'⟩ := e5' y
  have a1 : x ++ newline ++ y = x ++ ['\n'] :: y := by simp
  have a2 : x' ++ newline ++ y = x' ++ ['\n'] :: y := by simp
  rw [a1, a2, scan_finish, scan_finish, hp, hp', ← e4, ← e4']
  refine finish_other (s := { s with pre := p, rest := y }) (s' := { s' with pre := p', rest := y }) (hf := hf) ?_
  exact ⟨by simp, ⟨[], by simp, by simp⟩, ⟨[], by simpa using hs.errors, by simpa using hs'.errors⟩, by simp [e2, e2'],
    by simp only [e1, e1', hd]; exact (hf _).symm,
    by simp [hs.column, hs'.column], by simp [hs.bolSpaces, hs'.bolSpaces], by simp [hs.isBol, hs'.isBol], by simp [hs.onlyComment, hs'.onlyComment],
    by simp [e3, e3'], by simp [hs.followCont, hs'.followCont], by simp [hs.abut, hs'.abut]⟩

theorem otherScan_below (n : Nat) (ts : List Token) (d : Nat) : otherScan n ts (lineBelow d) = otherBeginning n ts d := by
  funext o
  rcases o with (_ | _) | _ | _ <;> rfl

end Ws
