import Verif.Proofs.Scan.Run
import Verif.Spec.Layout
namespace Ws
open Spec Scanner

/-- The open levels, innermost first, are positive and strictly decreasing. -/
def Levels (st : List Nat) : Prop := st.Pairwise (· > ·) ∧ ∀ k ∈ st, 0 < k

theorem outdents_spec {k : Nat} {st : List Nat} {n : Nat} {found : Bool} {st' : List Nat}
    (h : outdents k st = .done (n, found, st')) :
    st' = st.drop n ∧ n ≤ st.length ∧ (found = true → st'.head? = some k) ∧
      (found = false → st' = []) ∧ (st.head? ≠ some k → st ≠ [] → 1 ≤ n) := by
  induction st generalizing n found st' with
  | nil => simp [outdents] at h; obtain ⟨rfl, rfl, rfl⟩ := h; simp
  | cons a below ih =>
    simp only [outdents] at h
    split at h
    · next ha => cases h; simp [ha]
    · next ha =>
      split at h
      · split at h
        · next m f s hr =>
          cases h
          obtain ⟨h1, h2, h3, h4, -⟩ := ih hr
          exact ⟨by simpa using h1, by simp; omega, h3, h4, fun _ _ => by omega⟩
        · cases h
        · cases h
      · cases h

/-- What happens at the first lexeme of a line. -/
inductive BolR (v w : V) (g : Str) : Prop
  | mid (notBol : v.isBol = false) (eq : w = v)
  | same (isBol : v.isBol = true) (level : v.bolSpaces = v.stack.head?.getD 0)
      (eq : w = { v with isBol := false })
  | suppressed (isBol : v.isBol = true) (level : v.bolSpaces > v.stack.head?.getD 0)
      (isCont : v.isCont = true) (eq : w = { v with isBol := false })
  | indent (isBol : v.isBol = true) (level : v.bolSpaces > v.stack.head?.getD 0)
      (notCont : v.isCont = false)
      (eq : w = { v with
        isBol := false, tokens := v.tokens ++ [v.layoutTok .indent g], stack := v.bolSpaces :: v.stack })
  | outdent (n : Nat) (isBol : v.isBol = true) (level : v.bolSpaces < v.stack.head?.getD 0)
      (pos : 1 ≤ n) (le : n ≤ v.stack.length)
      (target : (v.stack.drop n).head?.getD 0 = v.bolSpaces)
      (eq : w = { v with
        isBol := false, tokens := v.tokens ++ List.replicate n (v.layoutTok .outdent g),
        stack := v.stack.drop n })

theorem bol_cases {v w : V} {g : Str} (h : v.bol g = .done w) (he : w.errors = []) : BolR v w g := by
  simp only [V.bol] at h
  split at h
  · next hb => cases h; exact .mid (by simpa using hb) rfl
  next hb =>
  have hb : v.isBol = true := by simpa using hb
  split at h
  · next hs => cases h; exact .same hb hs rfl
  next hs =>
  split at h
  · next hgt =>
    split at h
    · next hc => cases h; exact .indent hb hgt (by simpa using hc) rfl
    · next hc => cases h; exact .suppressed hb hgt (by simpa using hc) rfl
  next hgt =>
  split at h
  · next n found st ho =>
    obtain ⟨rfl, h2, h3, h4, h5⟩ := outdents_spec ho
    cases h
    simp only [List.append_eq_nil_iff] at he
    obtain ⟨he1, he2⟩ := he
    refine .outdent n hb (by omega) ?_ h2 ?_ ?_
    · apply h5
      · intro e; rw [e] at hs; simp at hs
      · intro e; rw [e] at hs hgt; simp at hs hgt; omega
    · cases found with
      | true => rw [h3 rfl]; rfl
      | false =>
        rw [h4 rfl]
        simp only [List.head?_nil, Option.getD_none]
        revert he2
        simp only [Bool.not_false, Bool.true_and, decide_eq_true_eq]
        split
        · simp
        · intro _; omega
    · rw [he2]; simp
  · cases h
  · cases h

theorem Levels.drop {st : List Nat} (h : Levels st) (n : Nat) : Levels (st.drop n) :=
  ⟨h.1.sublist (List.drop_sublist n st), fun k hk => h.2 k (List.mem_of_mem_drop hk)⟩

theorem Levels.head {st : List Nat} (h : Levels st) : ∀ k ∈ st, k ≤ st.head?.getD 0 := by
  cases st with
  | nil => simp
  | cons a st =>
    intro k hk
    rcases List.mem_cons.mp hk with rfl | hk
    · simp
    · have := (List.pairwise_cons.mp h.1).1 k hk
      simp; omega

theorem Levels.push {st : List Nat} (h : Levels st) {k : Nat} (hk : k > st.head?.getD 0) :
    Levels (k :: st) := by
  constructor
  · rw [List.pairwise_cons]
    exact ⟨fun a ha => by have := h.head a ha; omega, h.1⟩
  · intro a ha
    rcases List.mem_cons.mp ha with rfl | ha
    · omega
    · exact h.2 a ha

theorem BolR.levels {v w : V} {g : Str} (h : BolR v w g) (hl : Levels v.stack) : Levels w.stack := by
  cases h with
  | mid _ eq => rw [eq]; exact hl
  | same _ _ eq => rw [eq]; exact hl
  | suppressed _ _ _ eq => rw [eq]; exact hl
  | indent _ hlv _ eq => rw [eq]; exact hl.push hlv
  | outdent n _ _ _ _ _ eq => rw [eq]; exact hl.drop n

/-! ### Balance of Indent and Outdent -/

/-- Indents minus Outdents, and no prefix has more Outdents than Indents. -/
structure Balance (ts : List Token) (n : Nat) : Prop where
  total : (ts.map Token.tokenType).count .indent = (ts.map Token.tokenType).count .outdent + n
  pre : ∀ a b, ts = a ++ b →
    (a.map Token.tokenType).count .outdent ≤ (a.map Token.tokenType).count .indent

theorem prefix_snoc {α : Type} {P : List α → Prop} {l : List α} {x : α}
    (h : ∀ a b, l = a ++ b → P a) (hx : P (l ++ [x])) : ∀ a b, l ++ [x] = a ++ b → P a := by
  intro a b e
  rcases List.eq_nil_or_concat b with rfl | ⟨b', y, rfl⟩
  · rw [List.append_nil] at e; rw [← e]; exact hx
  · rw [List.concat_eq_append, ← List.append_assoc] at e
    have := List.append_inj' e rfl
    exact h a b' this.1

theorem Balance.other {ts : List Token} {n : Nat} (h : Balance ts n) {t : Token}
    (h1 : t.tokenType ≠ .indent) (h2 : t.tokenType ≠ .outdent) : Balance (ts ++ [t]) n := by
  have e1 : ((ts ++ [t]).map Token.tokenType).count .indent = (ts.map Token.tokenType).count .indent := by
    simp [List.count_append, h1]
  have e2 : ((ts ++ [t]).map Token.tokenType).count .outdent = (ts.map Token.tokenType).count .outdent := by
    simp [List.count_append, h2]
  refine ⟨by rw [e1, e2]; exact h.total, prefix_snoc h.pre ?_⟩
  rw [e1, e2]; have := h.total; omega

theorem Balance.indent {ts : List Token} {n : Nat} (h : Balance ts n) {t : Token}
    (h1 : t.tokenType = .indent) : Balance (ts ++ [t]) (n + 1) := by
  have e1 : ((ts ++ [t]).map Token.tokenType).count .indent = (ts.map Token.tokenType).count .indent + 1 := by
    simp [List.count_append, h1]
  have e2 : ((ts ++ [t]).map Token.tokenType).count .outdent = (ts.map Token.tokenType).count .outdent := by
    simp [List.count_append, h1]
  have := h.total
  refine ⟨by rw [e1, e2]; omega, prefix_snoc h.pre ?_⟩
  rw [e1, e2]; omega

theorem Balance.outdent {ts : List Token} {n : Nat} (h : Balance ts (n + 1)) {t : Token}
    (h1 : t.tokenType = .outdent) : Balance (ts ++ [t]) n := by
  have e1 : ((ts ++ [t]).map Token.tokenType).count .indent = (ts.map Token.tokenType).count .indent := by
    simp [List.count_append, h1]
  have e2 : ((ts ++ [t]).map Token.tokenType).count .outdent = (ts.map Token.tokenType).count .outdent + 1 := by
    simp [List.count_append, h1]
  have := h.total
  refine ⟨by rw [e1, e2]; omega, prefix_snoc h.pre ?_⟩
  rw [e1, e2]; omega

theorem Balance.outdents {ts : List Token} {n m : Nat} (h : Balance ts (n + m)) {t : Token}
    (h1 : t.tokenType = .outdent) : Balance (ts ++ List.replicate m t) n := by
  induction m generalizing ts with
  | zero => simpa using h
  | succ m ih =>
    rw [List.replicate_succ, List.append_cons]
    exact ih (h.outdent (by exact h1))

theorem BolR.balance {v w : V} {g : Str} (h : BolR v w g) (hl : Balance v.tokens v.stack.length) :
    Balance w.tokens w.stack.length := by
  cases h with
  | mid _ eq => rw [eq]; exact hl
  | same _ _ eq => rw [eq]; exact hl
  | suppressed _ _ _ eq => rw [eq]; exact hl
  | indent _ _ _ eq => rw [eq]; exact hl.indent rfl
  | outdent n _ _ _ hle _ eq =>
    rw [eq]
    apply Balance.outdents _ rfl
    simp only [List.length_drop]
    rwa [Nat.sub_add_cancel hle]

/-! ### Invariants of the state alone -/


/-- Every Terminator directly follows a proper token. -/
def TermsOK (ts : List Token) : Prop :=
  ∀ a t b, ts = a ++ t :: b → t.tokenType = .terminator →
    t.lexeme = ['\n'] ∧ ∃ a' x, a = a' ++ [x] ∧ Proper x

structure SInv (v : V) : Prop where
  levels : Levels v.stack
  balance : Balance v.tokens v.stack.length
  noEof : ∀ t ∈ v.tokens, t.tokenType ≠ .eof
  last : v.isBol = false → v.onlyComment = false → EndsProper v.tokens
  comment : v.onlyComment = true → v.isBol = false ∧ (v.rest = [] ∨ v.rest.head? = some ['\n'])
  terms : TermsOK v.tokens

theorem split_snoc {α : Type} {l a b : List α} {x t : α} (e : l ++ [x] = a ++ t :: b) :
    (b = [] ∧ a = l ∧ t = x) ∨ ∃ b', b = b' ++ [x] ∧ l = a ++ t :: b' := by
  rcases List.eq_nil_or_concat b with rfl | ⟨b', y, rfl⟩
  · have := List.append_inj' e rfl
    simp only [List.cons.injEq, and_true] at this
    exact .inl ⟨rfl, this.1.symm, this.2.symm⟩
  · right
    rw [List.concat_eq_append, ← List.cons_append, ← List.append_assoc] at e
    have := List.append_inj' e rfl
    simp only [List.cons.injEq, and_true] at this
    exact ⟨b', by rw [List.concat_eq_append, this.2], this.1⟩

theorem TermsOK.snoc {ts : List Token} (h : TermsOK ts) {t : Token}
    (ht : t.tokenType = .terminator → t.lexeme = ['\n'] ∧ EndsProper ts) : TermsOK (ts ++ [t]) := by
  intro a x b e hx
  rcases split_snoc e with ⟨-, rfl, rfl⟩ | ⟨b', -, e'⟩
  · exact ht hx
  · exact h a x b' e' hx

theorem TermsOK.append {ts l : List Token} (h : TermsOK ts)
    (hl : ∀ t ∈ l, t.tokenType ≠ .terminator) : TermsOK (ts ++ l) := by
  induction l generalizing ts with
  | nil => simpa using h
  | cons t l ih =>
    rw [List.append_cons]
    refine ih (h.snoc fun e => absurd e (hl t (by simp))) fun x hx => hl x (by simp [hx])

theorem BolR.toks {v w : V} {g : Str} (h : BolR v w g) :
    ∃ lay, w.tokens = v.tokens ++ lay ∧ ∀ t ∈ lay, t.tokenType = .indent ∨ t.tokenType = .outdent := by
  cases h with
  | mid _ eq => rw [eq]; exact ⟨[], by simp⟩
  | same _ _ eq => rw [eq]; exact ⟨[], by simp⟩
  | suppressed _ _ _ eq => rw [eq]; exact ⟨[], by simp⟩
  | indent _ _ _ eq => rw [eq]; exact ⟨_, rfl, by simp [V.layoutTok]⟩
  | outdent n _ _ _ _ _ eq =>
    rw [eq]
    refine ⟨_, rfl, fun t ht => ?_⟩
    rw [List.eq_of_mem_replicate ht]; simp [V.layoutTok]

theorem SInv.bol {v w : V} {g : Str} (h : SInv v) (hb : BolR v w g) :
    Levels w.stack ∧ Balance w.tokens w.stack.length ∧ (∀ t ∈ w.tokens, t.tokenType ≠ .eof) ∧
      TermsOK w.tokens := by
  obtain ⟨lay, e, hlay⟩ := hb.toks
  refine ⟨hb.levels h.levels, hb.balance h.balance, ?_, ?_⟩
  · rw [e]
    intro t ht
    rcases List.mem_append.mp ht with ht | ht
    · exact h.noEof t ht
    · rcases hlay t ht with e | e <;> simp [e]
  · rw [e]
    refine h.terms.append fun t ht => ?_
    rcases hlay t ht with e | e <;> simp [e]

theorem sinv_step {env : Env} {v w : V} (h : SInv v) (hs : StepR env v w) (he : w.errors = []) : SInv w := by
  cases hs with
  | token g cs w0 t l rest bol ok kind first moved tokens errors stack isBol onlyComment =>
    obtain ⟨h1, h2, h3, h4⟩ := h.bol (bol_cases bol (by rw [← errors]; exact he))
    have kind' := kind
    simp only [List.mem_cons, List.not_mem_nil, or_false, not_or] at kind'
    refine ⟨by rw [stack]; exact h1, by rw [tokens, stack]; exact h2.other kind'.1 kind'.2.1, ?_, ?_, ?_, ?_⟩
    · rw [tokens]; intro x hx
      rcases List.mem_append.mp hx with hx | hx
      · exact h3 x hx
      · rw [List.mem_singleton.mp hx]; exact kind'.2.2.2
    · intro _ _; exact ⟨_, _, tokens, kind⟩
    · rw [onlyComment]
      intro hc
      obtain ⟨-, hc⟩ := h.comment hc
      rw [rest] at hc
      simp at hc first
      exact absurd hc first.2.2.1
    · rw [tokens]; exact h4.snoc fun e => absurd e kind'.2.2.1
  | comment cs w0 body rest bol ok moved state =>
    have he0 : w0.errors = [] := by rw [state] at he; exact he
    obtain ⟨h1, h2, h3, h4⟩ := h.bol (bol_cases bol he0)
    have hf := bol_fields bol
    have hb0 : w0.isBol = false := hf.2.2.2.2.2.2.2.2.2
    have ht : w.tokens = w0.tokens := by rw [state]
    have hst : w.stack = w0.stack := by rw [state]
    have hbw : w.isBol = false := by rw [state]; exact hb0
    have hoc : w.onlyComment = v.isBol := by rw [state]
    refine ⟨by rw [hst]; exact h1, by rw [ht, hst]; exact h2, by rw [ht]; exact h3, ?_, ?_, by rw [ht]; exact h4⟩
    · intro _ hno
      rw [hoc] at hno
      have hb := bol_cases bol he0
      have hv : w0 = v := by
        cases hb with
        | mid _ eq => exact eq
        | same hb _ _ => rw [hno] at hb; cases hb
        | suppressed hb _ _ _ => rw [hno] at hb; cases hb
        | indent hb _ _ _ => rw [hno] at hb; cases hb
        | outdent _ hb _ _ _ _ _ => rw [hno] at hb; cases hb
      rw [ht, hv]
      refine h.last hno ?_
      cases hc : v.onlyComment with
      | false => rfl
      | true =>
        have := (h.comment hc).2
        rw [rest] at this; simp at this
    · intro _
      exact ⟨hbw, ok.2⟩
  | cont mid ok moved state =>
    rw [state]
    exact ⟨h.levels, h.balance, h.noEof, by simp, by simp, h.terms⟩
  | space moved state =>
    have hoc : v.onlyComment = true → False := by
      intro hc
      have := (h.comment hc).2
      rw [moved.2] at this; simp at this
    rw [state]
    exact ⟨h.levels, h.balance, h.noEof, h.last, fun hc => absurd hc hoc, h.terms⟩
  | cr moved state =>
    have hoc : v.onlyComment = true → False := by
      intro hc
      have := (h.comment hc).2
      rw [moved.2] at this; simp at this
    rw [state]
    exact ⟨h.levels, h.balance, h.noEof, h.last, fun hc => absurd hc hoc, h.terms⟩
  | newline moved silent state =>
    rw [state]
    exact ⟨h.levels, h.balance, h.noEof, by simp, by simp, h.terms⟩
  | terminator t moved ok kind loud state =>
    rw [state]
    refine ⟨h.levels, h.balance.other (by simp [kind]) (by simp [kind]), ?_, by simp, by simp, ?_⟩
    · intro x hx
      rcases List.mem_append.mp hx with hx | hx
      · exact h.noEof x hx
      · rw [List.mem_singleton.mp hx, kind]; simp
    · exact h.terms.snoc fun _ => ⟨by rw [ok.1]; rfl, h.last loud.1 loud.2.2⟩

theorem sinv_init (cs : List Str) : SInv (V.init cs) :=
  ⟨⟨List.Pairwise.nil, by simp [V.init]⟩, ⟨rfl, by
      intro a b e
      have := List.append_eq_nil_iff.mp (show a ++ b = [] from e.symm)
      simp [this.1]⟩, by simp [V.init],
    by simp [V.init], by simp [V.init], by
      intro a t b e
      have : ([] : List Token) = a ++ t :: b := e
      simp at this⟩

theorem Reach.sinv {env : Env} (hA : AsciiLaws env) {cs : List Str} (hne : ∀ g ∈ cs, g ≠ [])
    {v : V} (h : Reach env cs v) (he : v.errors = []) : SInv v :=
  h.induct hA hne (sinv_init cs) (fun _ _ _ _ _ _ he hv hs => sinv_step hv hs he) he

end Ws
