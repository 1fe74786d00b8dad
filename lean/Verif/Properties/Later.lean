import Verif.Proofs.Scan.Later
import Verif.Properties.Lines
/-! Property C83. -/
namespace Ws.Properties
open Ws Spec

variable {env : Env}

/-- C83: exactly one list of levels is open after a text that is accepted. -/
theorem levels_after (hE : EnvLaws env) {x : List Str} (hne : ∀ g ∈ x, g ≠ []) {ts : List Token}
    (h : scanClusters env x = .done (.ok ts)) : ∃ l, OpenLevels env x l ∧ ∀ l', OpenLevels env x l' → l' = l := by
  obtain ⟨w, hw, -⟩ := scan_ok_outcome h
  have hl := openLevels_of hE.toAsciiLaws hE.number hne hw
  exact ⟨_, hl, fun l' h' => openLevels_unique hE.toAsciiLaws hE.number hne h' hl⟩

/-- C83: of two texts `x` and `x'` that end with a statement, and after which the same levels are open, the second can
take the place of the first. The scan of what follows is the same, `d` lines further down if `x'` has
`d` lines more: the same tokens, the same errors, and it hangs if it did. -/
theorem later_lines (hE : EnvLaws env) {x x' : List Str} {ts ts' : List Token} {t t' : Token} {l : List Nat} {d : Nat}
    (hne : ∀ g ∈ x, g ≠ []) (hne' : ∀ g ∈ x', g ≠ []) (h : EndsStatement env x ts t) (h' : EndsStatement env x' ts' t')
    (hl : OpenLevels env x l) (hl' : OpenLevels env x' l) (hd : lineAfter x' = min (lineAfter x + d) u32Max) (rest : List Str) :
    (∀ w, scanClusters env (x ++ newline ++ rest) = .done (.ok w) → ∃ u, w = ts ++ [t] ++ u) ∧
    scanClusters env (x' ++ newline ++ rest) =
      otherBeginning (ts ++ [t]).length (ts' ++ [t']) d (scanClusters env (x ++ newline ++ rest)) := by
  rw [← otherScan_below]
  exact later_moved hE.toAsciiLaws hE.number (lineBelow_comm d) hne hne' h h' hl hl' hd rest

theorem other_same {ts ts' : List Token} {o o' : Outcome (Except ParseError (List Token))}
    (h1 : ∀ w, o = .done (.ok w) → ∃ u, w = ts ++ u) (h : o' = otherScan ts.length ts' id o) :
    (∀ u, o = .done (.ok (ts ++ u)) ↔ o' = .done (.ok (ts' ++ u))) ∧ (∀ es, o = .done (.error es) ↔ o' = .done (.error es)) ∧
      (o = .diverge ↔ o' = .diverge) := by
  subst h
  rcases o with (es | w) | _ | _
  · simp [otherScan, moveErr_id]
  · obtain ⟨u, rfl⟩ := h1 _ rfl
    simp [otherScan, moveTok_id]
  · simp [otherScan]
  · simp [otherScan]

/-- C83: so it is with sources, if no cluster goes across the ends of the texts. If the number of lines is the same, what
is scanned of the rest is exactly the same, with the positions. -/
theorem changed_lines (hE : EnvLaws env) {x x' rest : Str} {ts ts' : List Token} {t t' : Token} {l : List Nat}
    (hs : env.segment (x ++ '\n' :: rest) = env.segment x ++ newline ++ env.segment rest)
    (hs' : env.segment (x' ++ '\n' :: rest) = env.segment x' ++ newline ++ env.segment rest)
    (h : EndsStatement env (env.segment x) ts t) (h' : EndsStatement env (env.segment x') ts' t')
    (hl : OpenLevels env (env.segment x) l) (hl' : OpenLevels env (env.segment x') l)
    (hd : lineAfter (env.segment x') = lineAfter (env.segment x)) :
    (∀ u, scanTokens env (x ++ '\n' :: rest) = .done (.ok (ts ++ [t] ++ u)) ↔
      scanTokens env (x' ++ '\n' :: rest) = .done (.ok (ts' ++ [t'] ++ u))) ∧
    (∀ es, scanTokens env (x ++ '\n' :: rest) = .done (.error es) ↔ scanTokens env (x' ++ '\n' :: rest) = .done (.error es)) ∧
    (scanTokens env (x ++ '\n' :: rest) = .diverge ↔ scanTokens env (x' ++ '\n' :: rest) = .diverge) := by
  unfold scanTokens
  rw [hs, hs']
  obtain ⟨h1, h2⟩ := later_moved hE.toAsciiLaws hE.number (f := id) (fun _ => rfl) (hE.nonempty x) (hE.nonempty x') h h' hl hl' hd (env.segment rest)
  exact other_same h1 h2

/-! ### Examples -/

/-- The levels that are open, and the line, of a run of the scanner. -/
def stackOf : Outcome V → List Nat × Nat
  | .done v => (v.stack, v.line)
  | _ => ([], 0)

theorem openLevels_kernel {x : List Str} (hx : ∀ g ∈ x, g ≠ []) {ts : List Token} (h : scanClusters asciiEnv x = .done (.ok ts)) :
    OpenLevels asciiEnv x (stackOf (outcome asciiEnv (V.init x))).1 := by
  obtain ⟨w, hw, -⟩ := scan_ok_outcome h
  rw [hw]
  exact openLevels_of asciiEnv_laws.toAsciiLaws asciiEnv_laws.number hx hw

/-- `x⏎  y` and `x⏎  z()` end with a statement, the same levels are open after them, and they have the same number of lines. -/
example : (∃ ts t, EndsStatement asciiEnv (asciiEnv.segment c!"x\n  y") ts t) ∧
    (∃ ts t, EndsStatement asciiEnv (asciiEnv.segment c!"x\n  z()") ts t) ∧
    OpenLevels asciiEnv (asciiEnv.segment c!"x\n  y") [2] ∧ OpenLevels asciiEnv (asciiEnv.segment c!"x\n  z()") [2] ∧
    lineAfter (asciiEnv.segment c!"x\n  y") = lineAfter (asciiEnv.segment c!"x\n  z()") := by
  have h0 : scanClusters asciiEnv (asciiEnv.segment c!"x\n  y") = .done (.ok
      [⟨.identifier, c!"x", none, none, 1, 1⟩, ⟨.terminator, c!"\n", none, none, 1, 2⟩,
        ⟨.indent, c!"y", none, none, 2, 3⟩, ⟨.identifier, c!"y", none, none, 2, 3⟩,
        ⟨.outdent, [], none, none, 2, 4⟩, ⟨.eof, [], none, none, 2, 4⟩]) := by by_kernel
  have h1 : scanClusters asciiEnv (asciiEnv.segment c!"x\n  y" ++ newline) = .done (.ok
      [⟨.identifier, c!"x", none, none, 1, 1⟩, ⟨.terminator, c!"\n", none, none, 1, 2⟩,
        ⟨.indent, c!"y", none, none, 2, 3⟩, ⟨.identifier, c!"y", none, none, 2, 3⟩,
        ⟨.terminator, c!"\n", none, none, 2, 4⟩,
        ⟨.outdent, [], none, none, 3, 1⟩, ⟨.eof, [], none, none, 3, 1⟩]) := by by_kernel
  have h2 : scanClusters asciiEnv (asciiEnv.segment c!"x\n  z()") = .done (.ok
      [⟨.identifier, c!"x", none, none, 1, 1⟩, ⟨.terminator, c!"\n", none, none, 1, 2⟩,
        ⟨.indent, c!"z", none, none, 2, 3⟩, ⟨.identifier, c!"z", none, none, 2, 3⟩, ⟨.leftParenAbutting, c!"(", none, none, 2, 4⟩,
        ⟨.rightParen, c!")", none, none, 2, 5⟩, ⟨.outdent, [], none, none, 2, 6⟩, ⟨.eof, [], none, none, 2, 6⟩]) := by by_kernel
  have h3 : scanClusters asciiEnv (asciiEnv.segment c!"x\n  z()" ++ newline) = .done (.ok
      [⟨.identifier, c!"x", none, none, 1, 1⟩, ⟨.terminator, c!"\n", none, none, 1, 2⟩,
        ⟨.indent, c!"z", none, none, 2, 3⟩, ⟨.identifier, c!"z", none, none, 2, 3⟩, ⟨.leftParenAbutting, c!"(", none, none, 2, 4⟩,
        ⟨.rightParen, c!")", none, none, 2, 5⟩, ⟨.terminator, c!"\n", none, none, 2, 6⟩,
        ⟨.outdent, [], none, none, 3, 1⟩, ⟨.eof, [], none, none, 3, 1⟩]) := by by_kernel
  refine ⟨⟨[⟨.identifier, c!"x", none, none, 1, 1⟩, ⟨.terminator, c!"\n", none, none, 1, 2⟩,
        ⟨.indent, c!"y", none, none, 2, 3⟩, ⟨.identifier, c!"y", none, none, 2, 3⟩], _, _, _, h0, h1, ⟨1, _, _, rfl, rfl, rfl⟩,
      ⟨1, _, _, rfl, rfl, rfl⟩, rfl⟩,
    ⟨[⟨.identifier, c!"x", none, none, 1, 1⟩, ⟨.terminator, c!"\n", none, none, 1, 2⟩,
        ⟨.indent, c!"z", none, none, 2, 3⟩, ⟨.identifier, c!"z", none, none, 2, 3⟩, ⟨.leftParenAbutting, c!"(", none, none, 2, 4⟩,
        ⟨.rightParen, c!")", none, none, 2, 5⟩], _, _, _, h2, h3, ⟨1, _, _, rfl, rfl, rfl⟩, ⟨1, _, _, rfl, rfl, rfl⟩, rfl⟩, ?_, ?_, by by_kernel⟩
  · have : (stackOf (outcome asciiEnv (V.init (asciiEnv.segment c!"x\n  y")))).1 = [2] := by by_kernel
    rw [← this]
    exact openLevels_kernel (asciiEnv_laws.nonempty _) h0
  · have : (stackOf (outcome asciiEnv (V.init (asciiEnv.segment c!"x\n  z()")))).1 = [2] := by by_kernel
    rw [← this]
    exact openLevels_kernel (asciiEnv_laws.nonempty _) h2

/-- The kinds of the tokens after the first `n`. -/
def kindsAfter (n : Nat) : Outcome (Except ParseError (List Token)) → List TokenType
  | .done (.ok ts) => (ts.drop n).map (·.tokenType)
  | _ => []

/-- The levels matter: after `x⏎ y`, where the level is 1 and not 2, the line `  z` opens a block. -/
theorem levels_matter : kindsAfter 5 (scanTokens asciiEnv c!"x\n  y\n  z\n") = [.identifier, .terminator, .outdent, .eof] ∧
    kindsAfter 5 (scanTokens asciiEnv c!"x\n y\n  z\n") = [.indent, .identifier, .terminator, .outdent, .outdent, .eof] :=
  ⟨by by_kernel, by by_kernel⟩

end Ws.Properties
