import Verif.Proofs.Scan.Lines
import Verif.Proofs.Scan.Layout
import Verif.Spec.Insert
/-! Insertions of lines and comments. -/
namespace Ws
open Spec Scanner

theorem complete_state {env : Env} (hA : AsciiLaws env) {a : List Str} (h : CompleteLines env a) :
    ∃ s : V, Fresh s ∧ s.line = lineAfter a ∧ (∀ t ∈ s.tokens, t.line ≤ u32Max ∧ (t.line < lineAfter a ∨ lineAfter a = u32Max)) ∧
      ∀ y, ∃ p, outcome env (V.init (a ++ y)) = outcome env { s with pre := p, rest := y } := by
  rcases h with rfl | ⟨x, ts, rfl, hx⟩
  · exact ⟨V.init [], fresh_init _, by simp [V.init, lineAfter, u32Max], by simp [V.init], fun y => ⟨[], rfl⟩⟩
  · obtain ⟨s, h1, h2, h3, h4⟩ := outcome_line hA hx
    refine ⟨s, h1, h2, fun t ht => ?_, fun y => ?_⟩
    · have := h3 t ht
      have : lineAfter x ≤ u32Max := by simp only [lineAfter]; omega
      refine ⟨by omega, ?_⟩
      rw [lineAfter_snoc]
      simp only [if_true, satInc32]
      split
      · left; omega
      · exact .inr rfl
    · obtain ⟨p, hp⟩ := h4 y
      exact ⟨p, by rw [← hp]; simp⟩

theorem tokenDown_lt {l : Nat} {t : Token} (h : t.line < l ∨ l = u32Max) (h2 : t.line ≤ u32Max) : tokenDown l t = t := by
  simp only [tokenDown]
  split
  · have : t.line = u32Max := by omega
    have : min (t.line + 1) u32Max = t.line := by omega
    rw [this]
  · rfl

theorem tokenDown_ge {l : Nat} {t : Token} (h : l ≤ t.line) : tokenDown l t = moveTok satInc32 t := by
  simp only [tokenDown, if_pos h, moveTok, satInc32]
  congr 1

theorem causeDown_ge {l : Nat} {t : Cause} (h : l ≤ t.loc.line) : causeDown l t = moveErr satInc32 t := by
  simp only [causeDown, if_pos h, moveErr, satInc32]
  congr 2

theorem bind_def {α β : Type} (o : Outcome α) (f : α → Outcome β) : (o >>= f) = o.bind f := rfl

/-- The scan from one line further down. -/
theorem lines_down {env : Env} {s1 s3 : V} {l : Nat} (h : Fresh s1) (hl : s1.line = l)
    (ht : ∀ t ∈ s1.tokens, t.line ≤ u32Max ∧ (t.line < l ∨ l = u32Max))
    (e : s3 = { s1 with pre := s3.pre, line := satInc32 s1.line }) :
    finish (outcome env s3) = linesDown l (finish (outcome env s1)) := by
  have hrel : Rel ⟨[], satInc32, fun _ => rfl, s1.tokens, s1.tokens, [], []⟩ s1 s3 := by
    rw [e]
    exact ⟨by simp, ⟨[], by simp, by simp⟩, ⟨[], by simp [h.errors], by simp [h.errors]⟩,
      rfl, rfl, rfl, rfl, rfl, rfl, rfl, rfl, rfl⟩
  have hsim := sim_outcome (env := env) rfl hrel
  cases ho1 : outcome env s1 with
  | panic m =>
    rw [ho1] at hsim; cases ho3 : outcome env s3 <;> rw [ho3] at hsim <;> cases hsim; rfl
  | diverge =>
    rw [ho1] at hsim; cases ho3 : outcome env s3 <;> rw [ho3] at hsim <;> cases hsim; rfl
  | done w =>
    rw [ho1] at hsim
    cases ho3 : outcome env s3 with
    | panic m => rw [ho3] at hsim; cases hsim
    | diverge => rw [ho3] at hsim; cases hsim
    | done w' =>
      rw [ho3] at hsim
      cases hsim with
      | done hw =>
        have hb := outcome_between ho1 h.line
        obtain ⟨new, h1, h2⟩ := hw.tokens
        obtain ⟨es, h3, h4⟩ := hw.errors
        obtain ⟨new', h5, h6⟩ := hb.tokens
        obtain ⟨es', h7, h8⟩ := hb.errors
        simp only at h1 h2 h3 h4
        have en : new' = new := by rw [h1] at h5; exact (List.append_cancel_left h5).symm
        have ee : es' = es := by rw [h3, h.errors] at h7; exact h7.symm
        subst en; subst ee
        have hline := hb.line
        simp only [finish, bind_def, Outcome.bind]
        rw [h4, h3]
        simp only [List.nil_append, List.isEmpty_map]
        split
        · next he =>
          simp only [linesDown, h1, h2, V.closing, hw.stack, hw.line, hw.column, List.map_append,
            List.map_replicate, List.map_cons, List.map_nil]
          rw [tokenDown_ge (t := ⟨.outdent, [], none, none, w.line, satInc16 w.column - 1⟩) (hl ▸ hline),
            tokenDown_ge (t := ⟨.eof, [], none, none, w.line, satInc16 w.column - 1⟩) (hl ▸ hline)]
          have e1 : s1.tokens.map (tokenDown l) = s1.tokens := by
            conv => rhs; rw [← List.map_id s1.tokens]
            exact List.map_congr_left fun t h => tokenDown_lt (ht t h).2 (ht t h).1
          have e2 : new'.map (tokenDown l) = new'.map (moveTok satInc32) :=
            List.map_congr_left fun t h => tokenDown_ge (hl ▸ (h6 t h).1)
          rw [e1, e2]
          rfl
        · simp only [linesDown]
          congr 2
          exact List.map_congr_left fun t h => (causeDown_ge (hl ▸ (h8 t h).1)).symm

/-- A blank line is inserted after complete lines. -/
theorem insert_blank {env : Env} (hA : AsciiLaws env) {a : List Str} (h : CompleteLines env a) (n : Nat)
    (y : List Str) :
    scanClusters env (a ++ (spaces n ++ newline) ++ y) = linesDown (lineAfter a) (scanClusters env (a ++ y)) := by
  obtain ⟨s, h1, h2, h3, h4⟩ := complete_state hA h
  obtain ⟨p, hp⟩ := h4 y
  obtain ⟨q, hq⟩ := h4 (spaces n ++ newline ++ y)
  rw [scan_finish, scan_finish, hp, List.append_assoc, hq]
  have hf : ∀ p r, Fresh { s with pre := p, rest := r } := fun p r =>
    ⟨h1.isBol, h1.bolSpaces, h1.column, h1.onlyComment, h1.followCont, h1.abut, h1.errors, h1.line⟩
  rw [outcome_indented (hf _ _) n (newline ++ y) (by simp [spaces, sp]), outcome_nl (r := y) rfl]
  refine lines_down (hf _ _) h2 h3 ?_
  simp [V.afterNl, V.indented, h1.isBol, h1.bolSpaces, h1.column, h1.onlyComment, h1.followCont, h1.abut]

/-! ### Comment lines -/

theorem closing_types {c : List Token} (h : Closing c) :
    ∀ t ∈ c, t.tokenType = .outdent ∨ t.tokenType = .eof := by
  obtain ⟨n, o, e, rfl, ho, he⟩ := h
  intro t ht
  rcases List.mem_append.mp ht with ht | ht
  · rw [List.eq_of_mem_replicate ht]; exact .inl ho
  · simp at ht; rw [ht]; exact .inr he

theorem v_closing (v : V) : Closing v.closing := ⟨_, _, _, rfl, rfl, rfl⟩

/-- The last element with a property splits a list uniquely. -/
theorem split_last {α : Type} {P : α → Prop} {a b a' b' : List α} {x x' : α} (e : a ++ x :: b = a' ++ x' :: b')
    (hx : P x) (hx' : P x') (hb : ∀ y ∈ b, ¬ P y) (hb' : ∀ y ∈ b', ¬ P y) : a = a' ∧ x = x' ∧ b = b' := by
  induction a generalizing a' with
  | nil =>
    cases a' with
    | nil => simp at e; exact ⟨rfl, e.1, e.2⟩
    | cons y a' =>
      simp at e
      exact absurd hx' (hb x' (by rw [e.2]; simp))
  | cons z a ih =>
    cases a' with
    | nil =>
      simp at e
      exact absurd hx (hb' x (by rw [← e.2]; simp))
    | cons y a' =>
      simp at e
      obtain ⟨h1, h2, h3⟩ := ih e.2
      exact ⟨by rw [e.1, h1], h2, h3⟩

theorem lexeme_semi (env : Env) (abut : Bool) (cs : List Str) : lexeme env abut [';'] cs = .tok .semicolon false := by
  simp [lexeme, punct]

/-- A semicolon at the start of the last line. -/
theorem scan_semi {env : Env} {u : V} (hr : u.rest = [[';']]) {ts : List Token}
    (h : finish (outcome env u) = .done (.ok ts)) :
    ∃ (w : V) (semi : Token) (c : List Token), BolR u w [';'] ∧ semi.tokenType = .semicolon ∧ Closing c ∧
      ts = w.tokens ++ semi :: c := by
  rw [outcome_step (by simp [hr])] at h
  simp only [vstep, hr, lexeme_semi] at h
  obtain ⟨w1, hw1, h⟩ := Outcome.bind_done h
  obtain ⟨w2, hw2, h2⟩ := Outcome.bind_done hw1
  obtain ⟨w, hb, h3⟩ := Outcome.bind_done hw2
  cases h3
  have hwr : w.rest = u.rest := (bol_fields hb).2.1
  rw [outcome_nil (by simp [V.flags, V.push, V.skip, hwr, hr])] at h2
  cases h2
  split at h
  · next he =>
    cases h
    have he : w.errors = [] := by simpa [V.flags, V.push, V.skip] using he
    have := bol_cases hb he
    exact ⟨w, ⟨.semicolon, [';'], none, none, u.line, u.column⟩, _, this, rfl, v_closing _,
      List.append_assoc w.tokens [_] _⟩
  · cases h

theorem block_state {env : Env} {a : List Str} {s : V} {k : Nat} (hs : Fresh s)
    (hout : ∀ y, ∃ p, outcome env (V.init (a ++ y)) = outcome env { s with pre := p, rest := y })
    (hb : BlockIndented env a k) : s.isCont = false ∧ addCol 0 k = s.stack.head?.getD 0 := by
  obtain ⟨ts, c1, c2, c3, indent, semi, semi', e1, e2, e3, hc1, hc2, hc3, ti, tsemi, tsemi'⟩ := hb
  have hf : ∀ p r, Fresh { s with pre := p, rest := r } := fun p r =>
    ⟨hs.isBol, hs.bolSpaces, hs.column, hs.onlyComment, hs.followCont, hs.abut, hs.errors, hs.line⟩
  have run : ∀ n l, scanClusters env (a ++ spaces n ++ [[';']]) = .done (.ok l) →
      ∃ (p : List Str) (w : V) (sm : Token) (c : List Token),
        BolR (({ s with pre := p, rest := spaces n ++ [[';']] } : V).indented n [[';']]) w [';'] ∧
        sm.tokenType = .semicolon ∧ Closing c ∧ l = w.tokens ++ sm :: c := by
    intro n l hl
    obtain ⟨p, hp⟩ := hout (spaces n ++ [[';']])
    rw [scan_finish, List.append_assoc, hp, outcome_indented (hf _ _) n [[';']] rfl] at hl
    obtain ⟨w, sm, c, h1, h2, h3, h4⟩ := scan_semi rfl hl
    exact ⟨p, w, sm, c, h1, h2, h3, h4⟩
  obtain ⟨p1, hp1⟩ := hout []
  rw [scan_finish, ← List.append_nil a, hp1, outcome_nil rfl] at e1
  have e1 : s.tokens ++ (V.closing { s with pre := p1, rest := [] }) = ts ++ c1 := by
    simp only [finish, bind_def, Outcome.bind, hs.errors] at e1
    simp at e1
    exact e1
  have nosemi : ∀ c, Closing c → ∀ t ∈ c, ¬ t.tokenType = .semicolon := by
    intro c hc t ht h
    rcases closing_types hc t ht with h' | h' <;> rw [h] at h' <;> cases h'
  obtain ⟨p3, w3, sm3, d3, hbol3, hsm3, hd3, he3⟩ := run _ _ e3
  rw [show ts ++ indent :: semi' :: c3 = (ts ++ [indent]) ++ semi' :: c3 by simp] at he3
  obtain ⟨he3, -, -⟩ := split_last (P := fun t => t.tokenType = .semicolon) he3 tsemi' hsm3 (nosemi _ hc3) (nosemi _ hd3)
  have nots : s.tokens ≠ ts ++ [indent] := by
    intro h
    rw [h, List.append_assoc] at e1
    have := List.append_cancel_left e1
    have := closing_types hc1 indent (by rw [← this]; simp)
    rw [ti] at this
    rcases this with h | h <;> cases h
  have key : s.tokens = ts ∧ s.isCont = false ∧ addCol 0 (k + 1) > s.stack.head?.getD 0 := by
    cases hbol3 with
    | mid notBol eq => exact absurd (hs.isBol.symm.trans notBol) (by decide)
    | same isBol level eq => rw [eq] at he3; exact absurd he3.symm nots
    | suppressed isBol level isCont eq => rw [eq] at he3; exact absurd he3.symm nots
    | indent isBol level notCont eq =>
      rw [eq] at he3
      have := List.append_inj_left' he3 rfl
      exact ⟨this.symm, notCont, level⟩
    | outdent n isBol level pos le target eq =>
      rw [eq] at he3
      obtain ⟨m, rfl⟩ : ∃ m, n = m + 1 := ⟨n - 1, by omega⟩
      simp only [List.replicate_succ', ← List.append_assoc] at he3
      have := List.append_inj_right' he3 rfl
      simp only [List.cons.injEq, and_true] at this
      rw [this] at ti
      cases ti
  obtain ⟨rfl, hcont, hgt⟩ := key
  refine ⟨hcont, ?_⟩
  obtain ⟨p2, w2, sm2, d2, hbol2, hsm2, hd2, he2⟩ := run _ _ e2
  obtain ⟨he2, -, -⟩ := split_last (P := fun t => t.tokenType = .semicolon) he2 tsemi hsm2 (nosemi _ hc2) (nosemi _ hd2)
  cases hbol2 with
  | mid notBol eq => exact absurd (hs.isBol.symm.trans notBol) (by decide)
  | same isBol level eq => exact level
  | suppressed isBol level isCont eq =>
    exact absurd (hcont.symm.trans isCont) (by decide)
  | indent isBol level notCont eq =>
    rw [eq] at he2
    have := congrArg List.length he2
    simp [V.indented] at this
  | outdent n isBol level pos le target eq =>
    rw [eq] at he2
    have := congrArg List.length he2
    simp [V.indented] at this
    omega

theorem lexeme_comment (env : Env) (abut : Bool) (cs : List Str) :
    lexeme env abut ['/'] (['/'] :: cs) = .comment (['/'] :: cs.takeWhile (fun g => !(g == ['\n']))) := by
  simp [lexeme, punct, eqPunct]

theorem takeWhile_body {body : List Str} (hn : ['\n'] ∉ body) (y : List Str) :
    (body ++ ['\n'] :: y).takeWhile (fun g => !(g == ['\n'])) = body := by
  induction body with
  | nil => simp
  | cons a l ih =>
    simp only [List.mem_cons, not_or] at hn
    simp only [List.cons_append, List.takeWhile_cons]
    rw [if_pos (by simpa using fun e => hn.1 e.symm), ih hn.2]

/-- A comment line in the current block is inserted after complete lines. -/
theorem insert_comment_line {env : Env} (hA : AsciiLaws env) {a : List Str} (h : CompleteLines env a) {k : Nat}
    (hk : BlockIndented env a k) {body : List Str} (hn : ['\n'] ∉ body) (y : List Str) :
    scanClusters env (a ++ (spaces k ++ commentText body ++ newline) ++ y) =
      linesDown (lineAfter a) (scanClusters env (a ++ y)) := by
  obtain ⟨s, h1, h2, h3, h4⟩ := complete_state hA h
  obtain ⟨hcont, hlevel⟩ := block_state h1 h4 hk
  obtain ⟨p, hp⟩ := h4 y
  obtain ⟨q, hq⟩ := h4 (spaces k ++ commentText body ++ newline ++ y)
  rw [scan_finish, scan_finish, hp, List.append_assoc, hq]
  have hf : ∀ p r, Fresh { s with pre := p, rest := r } := fun p r =>
    ⟨h1.isBol, h1.bolSpaces, h1.column, h1.onlyComment, h1.followCont, h1.abut, h1.errors, h1.line⟩
  rw [outcome_indented (hf _ _) k (commentText body ++ newline ++ y) (by simp [spaces, sp])]
  generalize hu : ({ s with pre := q, rest := spaces k ++ commentText body ++ newline ++ y } : V).indented k
    (commentText body ++ newline ++ y) = u
  have hur : u.rest = ['/'] :: ['/'] :: (body ++ ['\n'] :: y) := by rw [← hu]; simp [V.indented]
  have hbol : u.bol ['/'] = .done { u with isBol := false } := by
    rw [← hu]
    simp only [V.bol, V.indented, h1.isBol, hlevel]
    simp
  have hstep : vstep env u = .done
      ({ (({ u with isBol := false } : V).skip (['/'] :: ['/'] :: body)) with onlyComment := u.isBol }.flags false false) := by
    simp only [vstep, hur, lexeme_comment, takeWhile_body hn, hbol]
    rfl
  rw [outcome_next (by simp [hur]) hstep, outcome_nl (r := y) (by simp [V.flags, V.skip, hur])]
  refine lines_down (hf _ _) h2 h3 ?_
  rw [← hu]
  simp [V.afterNl, V.flags, V.skip, V.indented, h1.isBol, h1.bolSpaces, h1.column, h1.onlyComment, h1.followCont, h1.abut, hcont]

/-! ### Trailing comments -/

theorem split_terminator {a b c c' : List Token} {t t' : Token} (e : a ++ t :: c = b ++ t' :: c')
    (ht : t.tokenType = .terminator) (ht' : t'.tokenType = .terminator) (hc : Closing c) (hc' : Closing c') :
    a = b ∧ t = t' := by
  have no : ∀ c, Closing c → ∀ t ∈ c, ¬ t.tokenType = .terminator := by
    intro c hc t ht h
    rcases closing_types hc t ht with h' | h' <;> rw [h] at h' <;> cases h'
  obtain ⟨h1, h2, -⟩ := split_last (P := fun t => t.tokenType = .terminator) e ht ht' (no _ hc) (no _ hc')
  exact ⟨h1, h2⟩

/-- The state after text whose newline ends a statement. -/
theorem ends_state {env : Env} (hA : AsciiLaws env) {x : List Str} {ts : List Token} {term : Token}
    (h : EndsStatement env x ts term) :
    ∃ w : V, outcome env (V.init x) = .done w ∧ w.errors = [] ∧ w.isBol = false ∧ w.followCont = false ∧
      w.onlyComment = false ∧ w.tokens = ts ∧ term = ⟨.terminator, ['\n'], none, none, w.line, w.column⟩ := by
  obtain ⟨c, c', h1, h2, hc, hc', ht⟩ := h
  obtain ⟨w, hw, hr, he, h1⟩ := scan_ok_outcome h1
  refine ⟨w, hw, he, ?_⟩
  obtain ⟨p, hp⟩ := outcome_append hA hw he []
  rw [scan_finish, hp, outcome_nl (r := []) rfl, outcome_nil rfl] at h2
  simp only [finish, bind_def, Outcome.bind] at h2
  rw [if_pos (by simp [V.afterNl, he])] at h2
  have h2 : (V.afterNl { w with pre := p, rest := ['\n'] :: [] } []).tokens ++
      (V.afterNl { w with pre := p, rest := ['\n'] :: [] } []).closing = ts ++ term :: c' := by
    injection h2 with h2; injection h2
  by_cases hcond : (!w.isBol && !w.followCont && !w.onlyComment) = true
  · have htk : (V.afterNl { w with pre := p, rest := ['\n'] :: [] } []).tokens =
      w.tokens ++ [⟨.terminator, ['\n'], none, none, w.line, w.column⟩] := by
      simp only [V.afterNl, hcond, if_true]
    rw [htk, List.append_assoc] at h2
    obtain ⟨h3, h4⟩ := split_terminator h2 rfl ht (v_closing _) hc'
    simp at hcond
    exact ⟨hcond.1.1, hcond.1.2, hcond.2, h3, h4.symm⟩
  · exfalso
    have htk : (V.afterNl { w with pre := p, rest := ['\n'] :: [] } []).tokens = w.tokens := by
      simp only [V.afterNl, hcond]
      simp
    rw [htk] at h2
    have noterm : term ∉ V.closing (V.afterNl { w with pre := p, rest := ['\n'] :: [] } []) := by
      intro hm
      rcases closing_types (v_closing _) _ hm with h | h <;> rw [ht] at h <;> cases h
    have hts : ∃ d, w.tokens = ts ++ term :: d := by
      rcases List.append_eq_append_iff.mp h2 with ⟨a, h3, h4⟩ | ⟨a, h3, h4⟩
      · exact absurd (by rw [h4]; simp) noterm
      · cases a with
        | nil => exact absurd (by rw [← List.nil_append (V.closing _), ← h4]; simp) noterm
        | cons t d => cases h4; exact ⟨d, h3⟩
    obtain ⟨d, hd⟩ := hts
    rw [hd, List.append_assoc] at h1
    have := List.append_cancel_left h1
    have := closing_types hc term (by rw [this]; simp)
    rw [ht] at this
    rcases this with h | h <;> cases h

/-- Scans from two states that differ only before a newline that ends a statement. -/
theorem finish_trailing {env : Env} {w w1 w2 : V} {y : List Str} (he : w.errors = []) (hb : w.isBol = false)
    (hf : w.followCont = false) (ho : w.onlyComment = false)
    (h1 : w1 = { w with pre := w1.pre, rest := ['\n'] :: y })
    (h2 : w2 = { w with pre := w2.pre, rest := ['\n'] :: y, column := w2.column, abut := w2.abut }) :
    finish (outcome env w2) = replaceNext w.tokens ⟨.terminator, ['\n'], none, none, w.line, w2.column⟩
      (finish (outcome env w1)) := by
  rw [outcome_nl (v := w1) (r := y) (by rw [h1]), outcome_nl (v := w2) (r := y) (by rw [h2])]
  generalize hs1 : w1.afterNl y = s1
  generalize hs2 : w2.afterNl y = s2
  have hrel : Rel ⟨[], id, fun _ => rfl, w.tokens ++ [⟨.terminator, ['\n'], none, none, w.line, w.column⟩],
      w.tokens ++ [⟨.terminator, ['\n'], none, none, w.line, w2.column⟩], [], []⟩ s1 s2 := by
    have e1 : s1.tokens = w.tokens ++ [⟨.terminator, ['\n'], none, none, w.line, w.column⟩] := by
      rw [← hs1, h1]; simp [V.afterNl, hb, hf, ho]
    have e2 : s2.tokens = w.tokens ++ [⟨.terminator, ['\n'], none, none, w.line, w2.column⟩] := by
      rw [← hs2, h2]; simp [V.afterNl, hb, hf, ho]
    have e3 : s1.errors = [] := by rw [← hs1, h1]; simp [V.afterNl, he]
    have e4 : s2.errors = [] := by rw [← hs2, h2]; simp [V.afterNl, he]
    refine ⟨?_, ⟨[], by simp [e1], by simp [e2]⟩, ⟨[], by simp [e3], by simp [e4]⟩, ?_, ?_, ?_, ?_, ?_, ?_, ?_, ?_, ?_⟩ <;>
      rw [← hs1, h1, ← hs2, h2] <;> simp [V.afterNl]
  have hsim := sim_outcome (env := env) rfl hrel
  cases ho1 : outcome env s1 with
  | panic m =>
    rw [ho1] at hsim; cases ho3 : outcome env s2 <;> rw [ho3] at hsim <;> cases hsim; rfl
  | diverge =>
    rw [ho1] at hsim; cases ho3 : outcome env s2 <;> rw [ho3] at hsim <;> cases hsim; rfl
  | done w1 =>
    rw [ho1] at hsim
    cases ho3 : outcome env s2 with
    | panic m => rw [ho3] at hsim; cases hsim
    | diverge => rw [ho3] at hsim; cases hsim
    | done w2 =>
      rw [ho3] at hsim
      cases hsim with
      | done hw =>
        obtain ⟨new, h1, h2⟩ := hw.tokens
        obtain ⟨es, h3, h4⟩ := hw.errors
        simp only [moveTok_id, moveErr_id, List.map_id, List.nil_append] at h1 h2 h3 h4
        have hc : w2.closing = w1.closing := by simp [V.closing, hw.stack, hw.line, hw.column]
        simp only [finish, bind_def, Outcome.bind, h4, h3]
        split
        · simp only [replaceNext, h1, h2, hc]
          congr 2
          simp
        · rfl

theorem outcome_spaces {env : Env} {v : V} (n : Nat) (r : List Str) (hr : v.rest = sp n ++ r) (hb : v.isBol = false)
    (hf : v.followCont = false) :
    ∃ a, outcome env v = outcome env { v with pre := v.pre ++ sp n, rest := r, column := addCol v.column n, abut := a } := by
  induction n generalizing v with
  | zero =>
    refine ⟨v.abut, ?_⟩
    congr 1
    simp only [sp, List.replicate_zero, List.nil_append] at hr
    cases v
    simp_all [addCol]
  | succ n ih =>
    have hr' : v.rest = [' '] :: (sp n ++ r) := hr
    have hstep : vstep env v = .done (V.flags { v.skip [[' ']] with
        bolSpaces := if v.isBol = true then satInc16 v.bolSpaces else v.bolSpaces } true false) := by
      simp only [vstep, hr', lexeme_sp]
    rw [outcome_next (by simp [hr']) hstep]
    obtain ⟨a, ha⟩ := ih (v := (V.flags { v.skip [[' ']] with
        bolSpaces := if v.isBol = true then satInc16 v.bolSpaces else v.bolSpaces } true false))
      (by simp [V.flags, V.skip, hr']) hb rfl
    refine ⟨a, ?_⟩
    rw [ha]
    simp only [V.flags, V.skip, hb, hf, addCol, List.length_cons, List.length_nil]
    simp [List.replicate_succ]

/-- A comment in the middle of a line. -/
theorem outcome_comment {env : Env} {v : V} {body y : List Str} (hr : v.rest = commentText body ++ ['\n'] :: y)
    (hn : ['\n'] ∉ body) (hb : v.isBol = false) (hf : v.followCont = false) (ho : v.onlyComment = false) :
    outcome env v = outcome env { v with
      pre := v.pre ++ commentText body, rest := ['\n'] :: y, column := addCol v.column (commentText body).length
      abut := true } := by
  have hr' : v.rest = ['/'] :: ['/'] :: (body ++ ['\n'] :: y) := by rw [hr]; simp
  refine outcome_next (by simp [hr']) ?_
  simp only [vstep, hr', lexeme_comment, takeWhile_body hn, V.bol, hb]
  simp [V.flags, V.skip, hr', hf, ho, hb, bind_def, Outcome.bind]

theorem outcome_then_comment {env : Env} (hA : AsciiLaws env) {x : List Str} {w : V}
    (hw : outcome env (V.init x) = .done w) (he : w.errors = []) (hb : w.isBol = false)
    (hf : w.followCont = false) (ho : w.onlyComment = false) (n : Nat) {body : List Str} (hn : ['\n'] ∉ body)
    (y : List Str) :
    ∃ p a, outcome env (V.init (x ++ (spaces n ++ commentText body ++ ['\n'] :: y))) =
      outcome env { w with
        pre := p, rest := ['\n'] :: y
        column := addCol w.column (spaces n ++ commentText body).length, abut := a } := by
  have hrest := outcome_rest hw
  generalize hz : spaces n ++ commentText body ++ ['\n'] :: y = z
  have hzb : ∃ h r, z = h :: r ∧ Break h := by
    rw [← hz]
    cases n with
    | zero => exact ⟨_, _, rfl, .inr (.inr rfl)⟩
    | succ n => exact ⟨_, _, rfl, .inl rfl⟩
  obtain ⟨b, r, hbr, hbreak⟩ := hzb
  rcases ext_last hA hw he with e | ⟨u, h1, h2, h3⟩
  · rw [← e] at hb; cases hb
  · obtain ⟨u', hu, hout⟩ := h3 (.more z) b r (V.init (x ++ z)) hbr hbreak (rel_more _ (V.init x) _)
    have hne : u'.rest ≠ [] := by rw [hu.rest]; simp [h1]
    by_cases hslash : u.rest.head? = some ['/']
    · obtain ⟨g, cs, hr⟩ := List.exists_cons_of_ne_nil h1
      rw [hr] at hslash
      cases hslash
      have hmoves := (vstep_moves hr h2).2
      have hr' : u'.rest = ['/'] :: (cs ++ z) := by rw [hu.rest, hr]; rfl
      have hbol := hu.bol ['/']
      by_cases hc : cs.head? = some ['/']
      · obtain ⟨cs, rfl⟩ : ∃ r, cs = ['/'] :: r := by cases cs with
          | nil => cases hc
          | cons a r => cases hc; exact ⟨r, rfl⟩
        rw [lexeme_comment, hrest, List.append_nil, hr] at hmoves
        simp only [Kind.clusters, List.cons.injEq, true_and] at hmoves
        have hcs : ['\n'] ∉ cs := by
          intro hm
          rw [hmoves] at hm
          have := List.all_takeWhile (p := fun g : Str => !(g == ['\n'])) (l := cs)
          rw [List.all_eq_true] at this
          have := this _ hm
          simp at this
        have htake : (cs ++ z).takeWhile (fun g => !(g == ['\n'])) = cs ++ spaces n ++ commentText body := by
          rw [← hz]
          rw [show cs ++ (spaces n ++ commentText body ++ ['\n'] :: y) = (cs ++ spaces n ++ commentText body) ++ ['\n'] :: y by simp]
          refine takeWhile_body ?_ y
          simp [hcs, hn]
        simp only [vstep, hr, lexeme_comment, ← hmoves] at h2
        obtain ⟨w0, hw0, h2⟩ := Outcome.bind_done h2
        rw [hw0] at hbol
        cases hb0 : u'.bol ['/'] with
        | panic m => rw [hb0] at hbol; cases hbol
        | diverge => rw [hb0] at hbol; cases hbol
        | done w0' =>
          rw [hb0] at hbol
          cases hbol with
          | done hw0' =>
            refine ⟨u'.pre ++ ['/'] :: ['/'] :: (cs ++ spaces n ++ commentText body), true, ?_⟩
            rw [hout]
            refine outcome_next hne ?_
            have hr2 : u'.rest = ['/'] :: ['/'] :: (cs ++ z) := by rw [hr']; rfl
            simp only [vstep, hr2, lexeme_comment, htake, hb0]
            have e0 := hw0'.more
            have hp0 : w0'.pre = u'.pre := (bol_fields hb0).1
            have hr0 : w0.rest = u.rest := (bol_fields hw0).2.1
            have hdrop : (cs ++ z).drop (cs ++ spaces n ++ commentText body).length = ['\n'] :: y := by
              rw [← hz, show cs ++ (spaces n ++ commentText body ++ ['\n'] :: y) = (cs ++ spaces n ++ commentText body) ++ ['\n'] :: y by simp]
              exact List.drop_left
            cases h2
            simp only [bind_def, Outcome.bind]
            congr 1
            rw [e0, hp0]
            have hlen : (['/'] :: ['/'] :: (cs ++ spaces n ++ commentText body)).length =
                (['/'] :: ['/'] :: cs).length + (spaces n ++ commentText body).length := by simp; omega
            simp only [V.flags, V.skip, hr0, hr, hu.isBol, hlen, addCol_add]
            have hdrop2 : (['/'] :: ['/'] :: cs ++ z).drop
                ((['/'] :: ['/'] :: cs).length + (spaces n ++ commentText body).length) = ['\n'] :: y := by
              rw [← hlen]; exact hdrop
            rw [hdrop2]
            rfl
      · exfalso
        have : lexeme env u.abut ['/'] cs = .tok .slash true := by simp [lexeme, punct, eqPunct, hc]
        simp only [vstep, hr, this] at h2
        obtain ⟨w0, hw0, h2⟩ := Outcome.bind_done h2
        cases h2
        cases hf
    · obtain ⟨w', hw', hrel⟩ := ext_step hA (d := .more z) hbr hbreak hu h1 h2 he (.inr (.inl hslash))
      have ew := hrel.more
      rw [hrest, List.nil_append] at ew
      have hwr : w'.rest = sp n ++ (commentText body ++ ['\n'] :: y) := by rw [ew, ← hz]; simp
      obtain ⟨a, ha⟩ := outcome_spaces (env := env) (v := w') n (commentText body ++ ['\n'] :: y) hwr (by rw [ew]; exact hb)
        (by rw [ew]; exact hf)
      refine ⟨w'.pre ++ sp n ++ commentText body, true, ?_⟩
      rw [hout, outcome_next hne hw', ha, outcome_comment rfl hn (by rw [ew]; exact hb) (by rw [ew]; exact hf) (by rw [ew]; exact ho)]
      rw [ew]
      simp only [← addCol_add, List.length_append, List.length_replicate]

theorem insert_trailing {env : Env} (hA : AsciiLaws env) {x : List Str} {ts : List Token} {term : Token}
    (h : EndsStatement env x ts term) (n : Nat) {body : List Str} (hn : ['\n'] ∉ body) (y : List Str) :
    scanClusters env (x ++ (spaces n ++ commentText body) ++ newline ++ y) =
      replaceNext ts { term with column := columnAfter (x ++ (spaces n ++ commentText body)) }
        (scanClusters env (x ++ newline ++ y)) := by
  obtain ⟨w, hw, he, hb, hf, ho, rfl, rfl⟩ := ends_state hA h
  obtain ⟨p, hp⟩ := outcome_append hA hw he y
  obtain ⟨q, a, hq⟩ := outcome_then_comment hA hw he hb hf ho n hn y
  have hcol : w.column = columnAfter x := by
    have hre : Reach env x w := (vloop_reach _ .init hw).1
    have := ((hre.pos hA).2 (.inl he)).2
    rw [this]
    have := hre.pre_rest
    rw [outcome_rest hw, List.append_nil] at this
    rw [this]
  have hcol2 : addCol w.column (spaces n ++ commentText body).length = columnAfter (x ++ (spaces n ++ commentText body)) := by
    rw [hcol]
    refine (addCol_after x _ ?_).1
    simp [hn]
  rw [scan_finish, scan_finish]
  rw [show x ++ (spaces n ++ commentText body) ++ newline ++ y = x ++ (spaces n ++ commentText body ++ ['\n'] :: y) by simp,
    show x ++ newline ++ y = x ++ ['\n'] :: y by simp, hp, hq, hcol2]
  exact finish_trailing he hb hf ho rfl rfl

/-! ### Lines on which the scanner hangs -/

theorem addCol_zero (n : Nat) : addCol 0 n = min n u16Max := by
  induction n with
  | zero => rfl
  | succ n ih => rw [addCol_succ, ih, satInc16_min]

theorem punct_letter {c : Char} (hc : c.isAlpha = true) : punct [c] = none ∧ eqPunct [c] = none := by
  constructor
  · unfold punct; split <;> first | rfl | (next h => cases h; exact absurd hc (by decide))
  · unfold eqPunct; split <;> first | rfl | (next h => cases h; exact absurd hc (by decide))

theorem lexeme_letter {env : Env} (hA : AsciiLaws env) {c : Char} (hc : c.isAlpha = true) (abut : Bool) (r : List Str) :
    lexeme env abut [c] (['\n'] :: r) = .ident [] := by
  have ne : ∀ d : Char, d.isAlpha = false → [c] ≠ [d] := by
    intro d hd e; cases e; rw [hc] at hd; cases hd
  have hdig : isDigit [c] = false := by
    unfold isDigit
    split <;> first | rfl | (next h => cases h; exact absurd hc (by decide))
  have halpha : isAlpha env [c] = true := by
    have : c.toNat < 128 := by
      simp [Char.isAlpha, Char.isUpper, Char.isLower, UInt32.le_iff_toNat_le] at hc
      omega
    simp [isAlpha, hA.alphabetic c this, hc]
  simp only [lexeme, (punct_letter hc).1, (punct_letter hc).2]
  rw [if_neg (ne _ (by decide)), if_neg (ne _ (by decide)), if_neg (ne _ (by decide)), if_neg (ne _ (by decide)),
    if_neg (ne _ (by decide)), if_neg (ne _ (by decide)), if_neg (ne _ (by decide)), if_neg (ne _ (by decide)), hdig, halpha]
  simp [isAlnum_newline hA]

theorem indent_line {env : Env} (hA : AsciiLaws env) {s : V} (hs : Fresh s) (hcont : s.isCont = false) {i : Nat}
    (hi : addCol 0 i > s.stack.head?.getD 0) {c : Char} (hc : c.isAlpha = true) (r : List Str)
    (hr : s.rest = spaces i ++ [c] :: ['\n'] :: r) :
    ∃ s', outcome env s = outcome env s' ∧ Fresh s' ∧ s'.isCont = false ∧ s'.stack = addCol 0 i :: s.stack ∧
      s'.rest = r := by
  rw [outcome_indented hs i ([c] :: ['\n'] :: r) hr]
  generalize hu : s.indented i ([c] :: ['\n'] :: r) = u
  have hur : u.rest = [c] :: ['\n'] :: r := by rw [← hu]; rfl
  have hbol : u.bol [c] = .done { u with
      isBol := false, tokens := u.tokens ++ [u.layoutTok .indent [c]], stack := u.bolSpaces :: u.stack } := by
    have h1 : u.isBol = true := by rw [← hu]; exact hs.isBol
    have h2 : u.bolSpaces > u.stack.head?.getD 0 := by rw [← hu]; exact hi
    have h3 : u.isCont = false := by rw [← hu]; exact hcont
    simp only [V.bol, h1, h3]
    rw [if_neg (by simp), if_neg (by omega), if_pos h2]
    rfl
  have hstep : ∃ w, vstep env u = .done w ∧ w.rest = ['\n'] :: r ∧ w.errors = [] ∧ w.line = s.line ∧ w.isBol = false ∧
      w.followCont = false ∧ w.stack = addCol 0 i :: s.stack := by
    simp only [vstep, hur, lexeme_letter hA hc, hbol]
    refine ⟨_, rfl, ?_, ?_, ?_, rfl, rfl, ?_⟩ <;> simp [V.flags, V.push, V.skip, ← hu, V.indented, hs.errors]
  obtain ⟨w, hw, h1, h2, h3, h4, h5, h6⟩ := hstep
  refine ⟨w.afterNl r, ?_, fresh_afterNl r h2 (by rw [h3]; exact hs.line), ?_, h6, rfl⟩
  · rw [outcome_next (by simp [hur]) hw, outcome_nl h1]
  · simp [V.afterNl, h4, h5]

theorem bad_outdent_diverges {env : Env} {s : V} (hs : Fresh s) {j i k : Nat} {st : List Nat}
    (hst : s.stack = j :: i :: st) (hik : i < addCol 0 k) (hkj : addCol 0 k < j) {g : Str} {r : List Str}
    (hg : g ∉ [[' '], ['\t'], ['\r'], ['\n'], ['\\']]) (hr : s.rest = spaces k ++ g :: r) :
    outcome env s = .diverge := by
  rw [outcome_indented hs k (g :: r) hr]
  generalize hu : s.indented k (g :: r) = u
  have hur : u.rest = g :: r := by rw [← hu]; rfl
  have hbol : u.bol g = .diverge := by
    have h1 : u.isBol = true := by rw [← hu]; exact hs.isBol
    have h2 : u.bolSpaces = addCol 0 k := by rw [← hu]; rfl
    have h3 : u.stack = j :: i :: st := by rw [← hu]; exact hst
    have h4 : outdents (addCol 0 k) (j :: i :: st) = .diverge := by
      simp only [outdents]
      rw [if_neg (by omega), if_pos hkj, if_neg (by omega), if_neg (by omega)]
    simp only [V.bol, h1, h2, h3, h4]
    rw [if_neg (by simp), if_neg (by simp; omega), if_neg (by simp; omega)]
  rw [outcome_step (by simp [hur])]
  suffices vstep env u = .diverge by rw [this]; rfl
  simp only [List.mem_cons, List.not_mem_nil, or_false, not_or] at hg
  simp only [vstep, hur, hbol]
  cases hk : lexeme env u.abut g r with
  | backslash t nl => exact absurd (lexeme_backslash hk).1 hg.2.2.2.2
  | tab => exact absurd (lexeme_tab hk) hg.2.1
  | space => exact absurd (lexeme_space hk) hg.1
  | cr => exact absurd (lexeme_cr hk) hg.2.2.1
  | newline => exact absurd (lexeme_nl hk) hg.2.2.2.1
  | _ => rfl

/-- After any complete lines, two lines that open blocks and a line whose indentation lies strictly
between theirs make the scanner hang. -/
theorem scan_hangs {env : Env} (hA : AsciiLaws env) {a : List Str} (h : CompleteLines env a) {n i j k : Nat}
    (hk : BlockIndented env a n) (hni : n < i) (hik : i < k) (hkj : k < j) (hj : j ≤ u16Max) {c d : Char}
    (hc : c.isAlpha = true) (hd : d.isAlpha = true) {g : Str} {r : List Str}
    (hg : g ∉ [[' '], ['\t'], ['\r'], ['\n'], ['\\']]) :
    scanClusters env (a ++ (spaces i ++ [[c]] ++ newline) ++ (spaces j ++ [[d]] ++ newline) ++ (spaces k ++ g :: r)) =
      .diverge := by
  obtain ⟨s, h1, h2, h3, h4⟩ := complete_state hA h
  obtain ⟨hcont, hlevel⟩ := block_state h1 h4 hk
  rw [addCol_zero] at hlevel
  rw [scan_finish]
  simp only [List.append_assoc]
  obtain ⟨p, hp⟩ := h4 (spaces i ++ ([[c]] ++ (newline ++ (spaces j ++ ([[d]] ++ (newline ++ (spaces k ++ g :: r)))))))
  rw [hp]
  obtain ⟨s1, e1, f1, c1, st1, r1⟩ := indent_line hA (s := { s with pre := p, rest := _ })
    ⟨h1.isBol, h1.bolSpaces, h1.column, h1.onlyComment, h1.followCont, h1.abut, h1.errors, h1.line⟩ hcont (i := i)
    (by show _ > s.stack.head?.getD 0; rw [addCol_zero]; omega) hc
    (spaces j ++ [d] :: ['\n'] :: (spaces k ++ g :: r)) rfl
  rw [show ∀ l : List Str, spaces i ++ ([[c]] ++ (newline ++ l)) = spaces i ++ [c] :: ['\n'] :: l from fun _ => rfl,
    show ∀ l : List Str, spaces j ++ ([[d]] ++ (newline ++ l)) = spaces j ++ [d] :: ['\n'] :: l from fun _ => rfl, e1]
  obtain ⟨s2, e2, f2, c2, st2, r2⟩ := indent_line hA f1 c1 (i := j) (by rw [st1]; simp [addCol_zero]; omega) hd _
    r1
  rw [e2, bad_outdent_diverges f2 (by rw [st2, st1]) (k := k) (by simp [addCol_zero]; omega) (by simp [addCol_zero]; omega)
    hg r2]
  rfl

end Ws
