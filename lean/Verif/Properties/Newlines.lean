import Verif.Proofs.Parse.BraceEnd
import Verif.Properties.Parser
import Verif.Spec.Braced
/-! Property C31, for statements anywhere in a source. -/
namespace Ws.Properties
open Ws Spec

variable {env : Env} {source : Str} {repl : Bool}

theorem braced_opens {s r : List Token} (h : Braced s) : ∃ t b, s = t :: b ∧ Opens t (b ++ r) := by
  cases h with
  | head ht => exact ⟨_, _, rfl, .inl ht⟩
  | function ht hi => exact ⟨_, _, rfl, .inr (.inl ⟨ht, _, _, rfl, hi⟩)⟩
  | «class» ht ho => exact ⟨_, _, rfl, .inr (.inr ⟨ht, _, _, _, rfl, by rw [ho]; decide⟩)⟩
  | subclass ht hl => exact ⟨_, _, rfl, .inr (.inr ⟨ht, _, _, _, rfl, by rw [hl]; decide⟩)⟩

/-- A declaration that begins with the tokens of such a statement ends with them, unless `else` follows. -/
theorem braced_ends {l : Bool} {s b u z : List Token} {st : Stmt} (h : Braced s) (hb : ∀ y, b.head? = some y → y.tokenType ≠ .else)
    (hg : Grammar repl l .declaration u (.stmt st)) (e : s ++ b = u ++ z) : z = b := by
  cases h with
  | head ht hw₁ hq ho hw hc => exact braced_head ht hw₁ hq ho hw hc hb hg (by simpa using e)
  | function ht hi hw₁ hq ho hw hc => exact braced_fun ht hi hw₁ hq ho hw hc hg (by simpa using e)
  | «class» ht ho hw hc => exact braced_class (s := []) ht (.inl rfl) ho hw hc hg (by simpa using e)
  | subclass ht hl ho hw hc => exact braced_class ht (.inr ⟨_, _, rfl, hl⟩) ho hw hc hg (by simpa using e)

/-- C31 (negation): a source that has, anywhere in it, an `if`, `while` or `for` with a body in
braces or the declaration of a function or a class in braces, followed by a newline, is rejected. -/
theorem braced_newline_rejected (hE : EnvLaws env) (hS : Fits env source) {a s b : List Token} {n x : Token}
    (hs : scanTokens env source = .done (.ok (a ++ s ++ n :: x :: b))) (h : Braced s) (hn : n.tokenType = .terminator) :
    Rejects env repl source := by
  refine rejects_of hE hS hs ?_
  intro ws eof e sts hG
  obtain ⟨b', rfl, -⟩ := drop_eof e
  obtain ⟨t, r, rfl, ho⟩ := braced_opens (r := n :: b') h
  obtain ⟨l, u, st, z, e', hg, hz, -⟩ := grammar_follows hG a t (r ++ n :: b') [] (by simp) (by simpa using ho)
  have : z = n :: b' := braced_ends h (by rintro y ⟨⟩; rw [hn]; decide) hg (by simpa using e')
  subst this
  exact hz n rfl hn

/-- A function declared in a block; without the newline after it the source is accepted. -/
example : (∃ a s n x b, scanTokens asciiEnv c!"{fun f() {}\na\n}" = .done (.ok (a ++ s ++ n :: x :: b)) ∧ a ≠ [] ∧ Braced s ∧
    n.tokenType = .terminator) ∧ ∃ sts, Accepts asciiEnv false c!"{fun f() {}a\n}" sts := by
  refine ⟨⟨[⟨.leftBrace, c!"{", none, none, 1, 1⟩], ⟨.fun, c!"fun", none, none, 1, 2⟩ :: ⟨.identifier, c!"f", none, none, 1, 6⟩ ::
    ⟨.leftParenAbutting, c!"(", none, none, 1, 7⟩ :: [] ++ ⟨.rightParen, c!")", none, none, 1, 8⟩ :: ⟨.leftBrace, c!"{", none, none, 1, 10⟩ ::
    [] ++ [⟨.rightBrace, c!"}", none, none, 1, 11⟩], ⟨.terminator, c!"\n", none, none, 1, 12⟩, ⟨.identifier, c!"a", none, none, 2, 1⟩,
    [⟨.terminator, c!"\n", none, none, 2, 2⟩, ⟨.rightBrace, c!"}", none, none, 3, 1⟩, ⟨.eof, c!"", none, none, 3, 2⟩], by by_kernel, by simp,
    .function rfl rfl rfl rfl rfl rfl rfl, rfl⟩,
    [.block [.fun (.mk c!"f" (.mk [] [] .plainFunction ⟨1, 6⟩)), .expression (.variable c!"a" .placeholder ⟨1, 12⟩)]], ?_⟩
  unfold Accepts
  by_kernel

/-- C31 (negation): a source that has, anywhere in it, a group in braces followed by a newline is rejected,
unless the group begins like a map or is the body of a function expression. So bare blocks cannot be
followed by a newline, nor anything else that ends in braces. -/
theorem brace_newline_rejected (hE : EnvLaws env) (hS : Fits env source) {a w b : List Token} {o c n x : Token}
    (hs : scanTokens env source = .done (.ok (a ++ o :: w ++ c :: n :: x :: b))) (ho : o.tokenType = .leftBrace) (hw : WellNested w)
    (hc : c.tokenType = .rightBrace) (hn : n.tokenType = .terminator) (hm : ¬ MapLike (w ++ [c])) (ha : ¬ EndsFunHead a) :
    Rejects env repl source := by
  refine rejects_of hE hS hs ?_
  intro ws eof e sts hG
  obtain ⟨b', rfl, -⟩ := drop_eof (a := a ++ o :: w ++ [c]) (by simpa using e)
  rcases grammar_braces hG a o (w ++ c :: n :: b') (by simp) ho with h | ⟨w₀, c', z, e', h1, h2, h3⟩
  · refine hm ?_
    rcases w with _ | ⟨t, _ | ⟨t', w⟩⟩
    · exact .inl ⟨c, [], rfl, hc⟩
    · rcases h with ⟨y, r, e, h⟩ | ⟨y, y', r, e, h, h'⟩
      · cases e
        exact .inl ⟨_, _, rfl, h⟩
      · cases e
        rw [hc] at h'
        cases h'
    · rcases h with ⟨y, r, e, h⟩ | ⟨y, y', r, e, h, h'⟩
      · cases e
        exact .inl ⟨_, _, rfl, h⟩
      · simp only [List.cons_append, List.cons.injEq] at e
        obtain ⟨rfl, rfl, -⟩ := e
        exact .inr ⟨_, _, _, rfl, h, h'⟩
  · obtain ⟨-, -, rfl⟩ := group_unique hw h1 (by rw [hc]; rfl) (by rw [h2]; rfl) e'
    rcases h3 with h3 | ⟨y, r, e, h3⟩ | ⟨e, -⟩
    · exact ha h3
    · cases e
      exact h3 hn
    · cases e

/-- C31 (partial): in an accepted source, a group in braces that does not begin like a map and is followed by a
newline is the body of a function expression. -/
theorem brace_newline_partial (hE : EnvLaws env) (hS : Fits env source) {a w b : List Token} {o c n x : Token} {sts : List Stmt}
    (hacc : Accepts env repl source sts) (hs : scanTokens env source = .done (.ok (a ++ o :: w ++ c :: n :: x :: b)))
    (ho : o.tokenType = .leftBrace) (hw : WellNested w) (hc : c.tokenType = .rightBrace) (hn : n.tokenType = .terminator)
    (hm : ¬ MapLike (w ++ [c])) : EndsFunHead a := by
  refine Classical.byContradiction fun ha => ?_
  obtain ⟨d, hr⟩ := brace_newline_rejected (repl := repl) hE hS hs ho hw hc hn hm ha
  unfold Accepts at hacc
  rw [hacc] at hr
  simp at hr

/-- A block between two statements, followed by a newline. -/
def blockBetween : Str := c!"a\n{b\n}\nc\n"

/-- C31 (negation): the program is rejected; without the newline after the block it is accepted, and the body of a
function expression can be followed by a newline. -/
theorem block_between_false : Rejects asciiEnv false blockBetween ∧ Rejects asciiEnv true blockBetween ∧
    Accepts asciiEnv false c!"a\n{b\n}c\n" [.expression (.variable c!"a" .placeholder ⟨1, 1⟩),
      .block [.expression (.variable c!"b" .placeholder ⟨2, 2⟩)], .expression (.variable c!"c" .placeholder ⟨3, 2⟩)] ∧
    Accepts asciiEnv false c!"a fun () {b\n}\n" [.expression (.call (.variable c!"a" .placeholder ⟨1, 1⟩)
      [.function (.mk [] [.expression (.variable c!"b" .placeholder ⟨1, 11⟩)] .plainFunction ⟨1, 3⟩)] ⟨1, 3⟩)] := by
  have key : ∀ repl, Rejects asciiEnv repl blockBetween := by
    intro repl
    refine brace_newline_rejected (a := [⟨.identifier, c!"a", none, none, 1, 1⟩, ⟨.terminator, c!"\n", none, none, 1, 2⟩])
      (o := ⟨.leftBrace, c!"{", none, none, 2, 1⟩) (w := [⟨.identifier, c!"b", none, none, 2, 2⟩, ⟨.terminator, c!"\n", none, none, 2, 3⟩])
      (c := ⟨.rightBrace, c!"}", none, none, 3, 1⟩) (n := ⟨.terminator, c!"\n", none, none, 3, 2⟩) (x := ⟨.identifier, c!"c", none, none, 4, 1⟩)
      (b := [⟨.terminator, c!"\n", none, none, 4, 2⟩, ⟨.eof, c!"", none, none, 5, 1⟩])
      asciiEnv_laws (fits_of_small (by by_kernel)) (by by_kernel) rfl (by unfold WellNested; by_kernel) rfl rfl ?_ ?_
    · rintro (⟨_, _, e, h⟩ | ⟨_, _, _, e, _, h⟩) <;> cases e <;> cases h
    · rintro ⟨x, t, p, w, q, e, -⟩
      have := congrArg List.length e
      simp at this
      omega
  exact ⟨key _, key _, by unfold Accepts; by_kernel, by unfold Accepts; by_kernel⟩

end Ws.Properties
