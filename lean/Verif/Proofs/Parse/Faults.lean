import Verif.Proofs.Parse.CompleteTop
import Mathlib.Data.List.Induction
/-! Derivations with faults. -/
namespace Ws
open Spec

variable {env : Env} {w : List Token} {v : List Cause} {repl l : Bool} {o : Ends}

theorem repeatedKey_eq_nil {ms : List MapEntry} {t : Token} {k : Str} (h : repeatedKey ms t k = []) : k ∉ ms.map MapEntry.key := by
  unfold repeatedKey at h
  intro hk
  rw [if_pos hk] at h
  cases h

theorem excess_eq_nil {ps : List Parameter} {t : Token} (h : excess ps t = []) : ps.length < 255 := by
  unfold excess at h
  split at h
  · assumption
  · cases h

theorem loose_plain {repl l e : Bool} {o : Ends} {sym : Sym} {x : Tree} (h : Loose repl l o e sym w x v) (hv : v = []) : Plain repl l o e sym w x := by
  induction h with
  | target_plain _ i0 => exact .target_plain (i0 hv)
  | target_indented h0 _ h2 h3 h4 i1 => exact .target_indented h0 (i1 hv) h2 h3 h4
  | expression _ i0 => exact .expression (i0 hv)
  | assignment _ h1 h2 _ h4 i0 i3 =>
    simp only [List.append_eq_nil_iff] at hv
    exact .assignment (i0 hv.1) h1 h2 (i3 hv.2) h4
  | operand _ i0 => exact .operand (i0 hv)
  | operator _ h1 h2 _ i0 i3 =>
    simp only [List.append_eq_nil_iff] at hv
    exact .operator (i0 hv.1) h1 h2 (i3 hv.2)
  | call _ i0 => exact .call (i0 hv)
  | «prefix» h0 _ i1 => exact .«prefix» h0 (i1 hv)
  | primary _ i0 => exact .primary (i0 hv)
  | property _ h1 h2 h3 i0 => exact .property (i0 hv) h1 h2 h3
  | call_empty _ h1 h2 h3 i0 => exact .call_empty (i0 hv) h1 h2 h3
  | call_args _ h1 h2 _ h4 h5 i0 i3 =>
    simp only [List.append_eq_nil_iff] at hv
    exact .call_args (i0 hv.1) h1 h2 (i3 hv.2) h4 h5
  | call_bare _ h1 h2 h3 _ i0 i4 =>
    simp only [List.append_eq_nil_iff] at hv
    exact .call_bare (i0 hv.1) h1 h2 h3 (i4 hv.2)
  | index _ h1 h2 _ h4 h5 i0 i3 =>
    simp only [List.append_eq_nil_iff] at hv
    exact .index (i0 hv.1) h1 h2 (i3 hv.2) h4 h5
  | before_nil => exact .before_nil
  | before _ _ h2 h3 i0 i1 =>
    simp only [List.append_eq_nil_iff] at hv
    exact .before (i0 hv.1) (i1 hv.2) h2 h3
  | arguments _ h1 _ i0 i2 =>
    simp only [List.append_eq_nil_iff] at hv
    exact .arguments (i0 hv.1) h1 (i2 hv.2)
  | entries_nil => exact .entries_nil
  | entries_comma _ h1 h2 _ h4 h6 i0 i3 =>
    simp only [List.append_eq_nil_iff] at hv
    exact .entries_comma (i0 hv.1.1) h1 h2 (i3 hv.1.2) h4 (repeatedKey_eq_nil hv.2) h6
  | entries_line _ h1 h2 _ h4 h5 h7 i0 i3 =>
    simp only [List.append_eq_nil_iff] at hv
    exact .entries_line (i0 hv.1.1) h1 h2 (i3 hv.1.2) h4 h5 (repeatedKey_eq_nil hv.2) h7
  | entries _ h1 h2 _ i0 i3 =>
    simp only [List.append_eq_nil_iff] at hv
    exact .entries (i0 hv.1.1) h1 h2 (i3 hv.1.2) (repeatedKey_eq_nil hv.2)
  | «false» h0 => exact .«false» h0
  | «true» h0 => exact .«true» h0
  | nil h0 => exact .nil h0
  | number h0 h1 => exact .number h0 h1
  | string h0 h1 => exact .string h0 h1
  | «variable» h0 => exact .«variable» h0
  | map_bare _ i0 => exact .map_bare (i0 hv)
  | map_open _ h1 i0 => exact .map_open (i0 hv) h1
  | map_braces h0 _ h2 i1 => exact .map_braces h0 (i1 hv) h2
  | map_trailing h0 _ h2 i1 => exact .map_trailing h0 (i1 hv) h2
  | function_literal h0 _ i1 => exact .function_literal h0 (i1 hv)
  | grouping h0 _ h2 h3 i1 => exact .grouping h0 (i1 hv) h2 h3
  | array h0 _ _ h3 h4 i1 i2 =>
    simp only [List.append_eq_nil_iff] at hv
    exact .array h0 (i1 hv.1) (i2 hv.2) h3 h4
  | array_trailing h0 _ h2 i1 => exact .array_trailing h0 (i1 hv) h2
  | «super» h0 h1 h2 => exact .«super» h0 h1 h2
  | parameters_nil => exact .parameters_nil
  | parameters _ h2 h3 i0 =>
    simp only [List.append_eq_nil_iff] at hv
    exact .parameters (i0 hv.1) (excess_eq_nil hv.2) h2 h3
  | function_empty h0 h1 _ i2 => exact .function_empty h0 h1 (i2 hv)
  | «function» h0 _ h3 h4 _ i1 i5 =>
    simp only [List.append_eq_nil_iff] at hv
    exact .function h0 (i1 hv.1.1) (excess_eq_nil hv.1.2) h3 h4 (i5 hv.2)
  | block_braces h0 _ h2 h3 h4 i1 => exact .block_braces h0 (i1 hv) h2 h3 h4
  | block_indented h0 h1 _ h3 h4 h5 i2 => exact .block_indented h0 h1 (i2 hv) h3 h4 h5
  | named h0 _ i1 => exact .named h0 (i1 hv)
  | methods_nil => exact .methods_nil
  | method _ _ i0 i1 =>
    simp only [List.append_eq_nil_iff] at hv
    exact .method (i0 hv.1) (i1 hv.2)
  | class_method _ h1 _ i0 i2 =>
    simp only [List.append_eq_nil_iff] at hv
    exact .class_method (i0 hv.1) h1 (i2 hv.2)
  | declarations_nil => exact .declarations_nil
  | declarations _ _ h2 i0 i1 =>
    simp only [List.append_eq_nil_iff] at hv
    exact .declarations (i0 hv.1) (i1 hv.2) h2
  | declaration _ i0 => exact .declaration (i0 hv)
  | fun_decl h0 _ i1 => exact .fun_decl h0 (i1 hv)
  | class_braces h0 h1 h2 _ h4 i3 => exact .class_braces h0 h1 h2 (i3 hv) h4
  | class_indented h0 h1 h2 h3 _ h5 i4 => exact .class_indented h0 h1 h2 h3 (i4 hv) h5
  | subclass_braces h0 h1 h2 h3 h4 _ h6 i5 => exact .subclass_braces h0 h1 h2 h3 h4 (i5 hv) h6
  | subclass_indented h0 h1 h2 h3 h4 h5 _ h7 i6 => exact .subclass_indented h0 h1 h2 h3 h4 h5 (i6 hv) h7
  | var h0 h1 h2 => exact .var h0 h1 h2
  | var_init h0 h1 h2 h3 _ h5 h6 i4 => exact .var_init h0 h1 h2 h3 (i4 hv) h5 h6
  | var_open h0 h1 h2 h3 _ h5 i4 => exact .var_open h0 h1 h2 h3 (i4 hv) h5
  | expression_statement _ h1 h2 h3 i0 => exact .expression_statement (i0 hv) h1 h2 h3
  | expression_last _ h1 h2 h3 i0 => exact .expression_last (i0 hv) h1 h2 h3
  | «break» h0 h1 => exact .«break» h0 h1
  | «continue» h0 h1 => exact .«continue» h0 h1
  | print h0 _ h2 h3 i1 => exact .print h0 (i1 hv) h2 h3
  | return_nil h0 h1 => exact .return_nil h0 h1
  | «return» h0 _ h2 h3 i1 => exact .«return» h0 (i1 hv) h2 h3
  | braces h0 _ h2 h3 h4 i1 => exact .braces h0 (i1 hv) h2 h3 h4
  | «if» h0 h1 _ h3 h4 _ i2 i5 =>
    simp only [List.append_eq_nil_iff] at hv
    exact .«if» h0 h1 (i2 hv.1) h3 h4 (i5 hv.2)
  | if_else h0 h1 _ h3 h4 _ h6 h7 h8 _ i2 i5 i9 =>
    simp only [List.append_eq_nil_iff] at hv
    exact .if_else h0 h1 (i2 hv.1.1) h3 h4 (i5 hv.1.2) h6 h7 h8 (i9 hv.2)
  | «while» h0 h1 _ h3 h4 _ i2 i5 =>
    simp only [List.append_eq_nil_iff] at hv
    exact .«while» h0 h1 (i2 hv.1) h3 h4 (i5 hv.2)
  | «for» h0 h1 _ _ h4 h5 _ h7 _ i2 i3 i6 i8 =>
    simp only [List.append_eq_nil_iff] at hv
    exact .«for» h0 h1 (i2 hv.1.1.1) (i3 hv.1.1.2) h4 h5 (i6 hv.1.2) h7 (i8 hv.2)
  | for_none h0 => exact .for_none h0
  | for_var h0 h1 h2 => exact .for_var h0 h1 h2
  | for_var_init h0 h1 h2 h3 _ h5 h6 i4 => exact .for_var_init h0 h1 h2 h3 (i4 hv) h5 h6
  | for_expression _ h1 h2 i0 => exact .for_expression (i0 hv) h1 h2
  | condition_none => exact .condition_none
  | condition _ h1 i0 => exact .condition (i0 hv) h1
  | increment_none => exact .increment_none
  | increment _ h1 i0 => exact .increment (i0 hv) h1
  | body_block _ i0 => exact .body_block (i0 hv)
  | body _ h1 i0 => exact .body (i0 hv) h1
  | assignment_fault => simp at hv
  | arguments_fault => simp at hv
  | break_fault => cases hv
  | continue_fault => cases hv

/-- An expression and the comma after it, among the arguments of a call. -/
theorem before_items {items : List Item} (h : ∀ i ∈ items, i.Ok repl l) :
    Spec.Loose repl l .closed false .before (items.flatMap Item.all) (.exprs (items.map Item.tree)) [] := by
  induction items using List.reverseRecOn with
  | nil => exact .before_nil
  | append_singleton is i ih =>
    obtain ⟨o, h1, h2, h3⟩ := h i (by simp)
    have := Spec.Loose.before (ih fun j hj => h j (by simp [hj])) (plain_loose h1) h2 h3
    simpa [Item.all] using this

theorem arguments_items {items : List Item} {last : List Token} {x : Expr} (h : ∀ i ∈ items, i.Ok repl l)
    (hl : Plain repl l o false .expression last (.expr x)) (hn : items.length < 255) :
    Spec.Loose repl l o false .arguments (items.flatMap Item.all ++ last) (.exprs (items.map Item.tree ++ [x])) [] := by
  have := Spec.Loose.arguments (before_items h) (by simpa using hn) (plain_loose hl)
  simpa using this

theorem arguments_items_fault (n : Nat) {items : List Item} {last : List Token} {x : Expr} (hn : items.length ≤ n) (h : ∀ i ∈ items, i.Ok repl l)
    (hl : Plain repl l o false .expression last (.expr x)) :
    ∃ vs, Spec.Loose repl l o false .arguments (items.flatMap Item.all ++ last) (.exprs (items.map Item.tree ++ [x])) vs ∧
      ∀ t, ((items.map Item.tokens ++ [last])[255]?.bind List.head?) = some t → ∃ vs', vs = tooManyArguments t :: vs' := by
  induction n generalizing items with
  | zero =>
    have : items = [] := by simpa using hn
    subst this
    exact ⟨[], arguments_items h hl (by simp), by simp⟩
  | succ n ih =>
    by_cases hm : items.length < 255
    · refine ⟨[], arguments_items h hl hm, fun t ht => ?_⟩
      rw [List.getElem?_eq_none (by simp; omega)] at ht
      cases ht
    · obtain ⟨is, js, rfl, hi⟩ : ∃ is js, items = is ++ js ∧ is.length = 255 :=
        ⟨items.take 255, items.drop 255, by simp, by simp; omega⟩
      simp only [List.length_append] at hn
      obtain ⟨vs, hv, -⟩ := ih (items := js) (by omega) fun j hj => h j (by simp [hj])
      have hne : ∃ t ts, js.flatMap Item.all ++ last = t :: ts ∧ (js.map Item.tokens ++ [last])[0]?.bind List.head? = some t := by
        cases js with
        | nil =>
          obtain ⟨t, ts, rfl, -⟩ : ExprHead _ last := loose_first (plain_loose hl)
          exact ⟨t, ts, rfl, rfl⟩
        | cons j js =>
          obtain ⟨_, hj, -⟩ := h j (by simp)
          obtain ⟨t, ts, hw, -⟩ : ExprHead _ j.tokens := loose_first (plain_loose hj)
          exact ⟨t, ts ++ j.comma :: (js.flatMap Item.all ++ last), by simp [Item.all, hw], by simp [hw]⟩
      obtain ⟨t, ts, he, ht⟩ := hne
      rw [he] at hv
      refine ⟨_, by simpa [← he] using Spec.Loose.arguments_fault (before_items fun j hj => h j (by simp [hj])) (by simpa using hi) hv, fun t' ht' => ⟨vs, ?_⟩⟩
      rw [List.map_append, List.append_assoc, List.getElem?_append_right (by simp [hi])] at ht'
      simp only [List.length_map, hi, Nat.sub_self, ht] at ht'
      cases ht'
      rfl

theorem parameters_items {ps : List (Token × Token)} (h : ∀ p ∈ ps, p.1.tokenType = .identifier ∧ p.2.tokenType = .comma) :
    ∃ vs, Spec.Loose repl l .closed false .parametersBefore (ps.flatMap fun p => [p.1, p.2]) (.params (ps.map fun p => ⟨p.1.lexeme, p.1.loc⟩)) vs ∧
      (ps.length ≤ 255 → vs = []) ∧ ∀ p, ps[255]? = some p → ∃ vs', vs = tooManyParameters p.1 :: vs' := by
  induction ps using List.reverseRecOn with
  | nil => exact ⟨_, .parameters_nil, fun _ => rfl, by simp⟩
  | append_singleton ps p ih =>
    obtain ⟨vs, h1, h2, h3⟩ := ih fun q hq => h q (by simp [hq])
    have hp := h p (by simp)
    refine ⟨_, by simpa using Spec.Loose.parameters h1 hp.1 hp.2, fun hn => ?_, fun q hq => ?_⟩
    · simp only [List.length_append, List.length_singleton] at hn
      rw [h2 (by omega), List.nil_append]
      exact excess_nil (by simp; omega)
    · by_cases hl : 255 < ps.length
      · rw [List.getElem?_append_left hl] at hq
        obtain ⟨vs', rfl⟩ := h3 q hq
        exact ⟨_, rfl⟩
      · rw [List.getElem?_append_right (by omega)] at hq
        have hl' : ps.length = 255 := by
          refine Decidable.byContradiction fun hc => ?_
          rw [List.getElem?_eq_none (by simp; omega)] at hq
          cases hq
        simp only [hl', Nat.sub_self, List.getElem?_cons_zero, Option.some.injEq] at hq
        subst hq
        refine ⟨[], ?_⟩
        rw [h2 (by omega), List.nil_append]
        simp [excess, hl', tooManyParameters]

/-- The entries of a map that are followed by a separator. -/
theorem entries_items {es : List Entry} (h : ∀ e ∈ es, e.Ok repl l) :
    ∃ vs, (∃ o, Spec.Loose repl l o false .entriesBefore (es.flatMap Entry.all) (.entries (es.map Entry.tree)) vs) ∧
      (∀ es' e, es = es' ++ [e] → ∃ o, Spec.Loose repl l o false .entries (es'.flatMap Entry.all ++ e.key :: e.colon :: e.tokens) (.entries (es.map Entry.tree)) vs) ∧
      ((es.map Entry.name).Nodup → vs = []) ∧
      ∀ before e after, es = before ++ e :: after → (before.map Entry.name).Nodup → e.name ∈ before.map Entry.name →
        ∃ vs', vs = duplicateKey e.key e.name :: vs' := by
  induction es using List.reverseRecOn with
  | nil => exact ⟨_, ⟨_, .entries_nil⟩, by simp, fun _ => rfl, by simp⟩
  | append_singleton es e ih =>
    obtain ⟨vs, ⟨o, h1⟩, -, h2, h3⟩ := ih fun q hq => h q (by simp [hq])
    obtain ⟨k1, k2, o', k3, k4⟩ := h e (by simp)
    obtain ⟨o'', hd⟩ : ∃ o'', Spec.Loose repl l o'' false .entriesBefore ((es ++ [e]).flatMap Entry.all) (.entries ((es ++ [e]).map Entry.tree))
        (vs ++ repeatedKey (es.map Entry.tree) e.key e.name) := by
      rcases k4 with ⟨a, b⟩ | ⟨a, b, c⟩
      · exact ⟨_, by simpa [Entry.all, Entry.tree] using Spec.Loose.entries_comma h1 k1 k2 (plain_loose k3) a b⟩
      · exact ⟨_, by simpa [Entry.all, Entry.tree] using Spec.Loose.entries_line h1 k1 k2 (plain_loose k3) a b c⟩
    have hk : (es.map Entry.tree).map MapEntry.key = es.map Entry.name := by
      rw [List.map_map]
      exact List.map_congr_left fun _ _ => rfl
    refine ⟨_, ⟨o'', hd⟩, fun es' e' he => ?_, fun hn => ?_, fun before e' after he hn hm => ?_⟩
    · obtain ⟨rfl, hz⟩ := List.append_inj' he rfl
      cases (List.cons.inj hz).1
      exact ⟨_, by simpa [Entry.all, Entry.tree] using Spec.Loose.entries h1 k1 k2 (plain_loose k3)⟩
    · simp only [List.map_append, List.map_cons, List.map_nil, List.nodup_append] at hn
      rw [h2 hn.1, List.nil_append]
      refine repeatedKey_nil ?_
      rw [hk]
      intro hm
      exact hn.2.2 _ hm _ (by simp) rfl
    · rcases List.eq_nil_or_concat after with rfl | ⟨after', z, rfl⟩
      · obtain ⟨rfl, hz⟩ := List.append_inj' he rfl
        cases (List.cons.inj hz).1
        refine ⟨[], ?_⟩
        rw [h2 hn, List.nil_append]
        unfold repeatedKey duplicateKey
        rw [hk, if_pos hm]
      · have he' : es ++ [e] = (before ++ e' :: after') ++ [z] := by simpa using he
        obtain ⟨he'', -⟩ := List.append_inj' he' rfl
        obtain ⟨vs', rfl⟩ := h3 before e' after' he'' hn hm
        exact ⟨_, rfl⟩

end Ws
