import Verif.Proofs.Parse.Newline
import Verif.Spec.BraceEnd
/-! What follows a closing brace. -/
namespace Ws
open Spec

variable {repl l : Bool} {nt : NT} {w : List Token} {v : Tree}

/-- What is known of an opening brace between `a` and `b`: it begins something like a map, or a group in
braces after which no newline comes, or the body of a function expression. The group can end with `b` only
if `E a`. -/
def BraceAt (E : List Token → Prop) (a b : List Token) : Prop :=
  MapLike b ∨ ∃ w₀ c z, b = w₀ ++ c :: z ∧ WellNested w₀ ∧ c.tokenType = .rightBrace ∧
    (EndsFunHead a ∨ (∃ y r, z = y :: r ∧ y.tokenType ≠ .terminator) ∨ z = [] ∧ E a)

/-- This is so of all opening braces. -/
def BracesEnd (E : List Token → Prop) (w : List Token) : Prop :=
  ∀ a o b, w = a ++ o :: b → o.tokenType = .leftBrace → BraceAt E a b

theorem mapLike_append {b : List Token} (h : MapLike b) (r : List Token) : MapLike (b ++ r) := by
  rcases h with ⟨c, x, rfl, h⟩ | ⟨t, c, x, rfl, h1, h2⟩
  · exact .inl ⟨c, x ++ r, rfl, h⟩
  · exact .inr ⟨t, c, x ++ r, rfl, h1, h2⟩

theorem funHead_before {a : List Token} (h : EndsFunHead a) (u : List Token) : EndsFunHead (u ++ a) := by
  obtain ⟨x, t, p, w, q, rfl, h⟩ := h
  exact ⟨u ++ x, t, p, w, q, by simp, h⟩

theorem braceAt_before {E E' : List Token → Prop} {a b : List Token} (u : List Token) (h : BraceAt E a b) (hE : E a → E' (u ++ a)) :
    BraceAt E' (u ++ a) b := by
  rcases h with h | ⟨w₀, c, z, e, h1, h2, h3⟩
  · exact .inl h
  · exact .inr ⟨w₀, c, z, e, h1, h2, h3.imp (funHead_before · u) (Or.imp_right fun h => ⟨h.1, hE h.2⟩)⟩

theorem BracesEnd.weaken {E E' : List Token → Prop} (h : BracesEnd E w) (hE : ∀ a, E a → E' a) : BracesEnd E' w :=
  fun a o b e ho => by simpa using braceAt_before [] (h a o b e ho) (hE a)

theorem BracesEnd.none {E : List Token → Prop} (h : BracesEnd (fun _ => False) w) : BracesEnd E w := h.weaken nofun

theorem bracesEnd_nil {E : List Token → Prop} : BracesEnd E [] := by rintro a o b h; simp at h

theorem bracesEnd_cons {E E' : List Token → Prop} {t : Token} (ht : t.tokenType ≠ .leftBrace) (hw : BracesEnd E' w) (hE : ∀ a, E' a → E (t :: a)) :
    BracesEnd E (t :: w) := by
  intro a o b e ho
  cases a with
  | nil => simp only [List.nil_append, List.cons.injEq] at e; obtain ⟨rfl, rfl⟩ := e; exact absurd ho ht
  | cons y a =>
    simp only [List.cons_append, List.cons.injEq] at e
    obtain ⟨rfl, e⟩ := e
    exact braceAt_before [t] (hw a o b e ho) (hE a)

theorem bracesEnd_append {E E' E'' : List Token → Prop} {u : List Token} (hu : BracesEnd E' u) (hw : BracesEnd E'' w)
    (h : (∀ a, ¬ E' a) ∨ ∃ y r, w = y :: r ∧ y.tokenType ≠ .terminator) (hE : ∀ a, E'' a → E (u ++ a)) : BracesEnd E (u ++ w) := by
  intro a o b e ho
  rcases List.append_eq_append_iff.1 e with ⟨c, rfl, e'⟩ | ⟨c, rfl, e'⟩
  · exact braceAt_before u (hw c o b e' ho) (hE c)
  · cases c with
    | nil =>
      have := braceAt_before (E' := E) a (hw [] o b (by simpa using e'.symm) ho) (fun h => by simpa using hE [] h)
      simpa using this
    | cons y c =>
      simp only [List.cons_append, List.cons.injEq] at e'
      obtain ⟨rfl, rfl⟩ := e'
      rcases hu a o c rfl ho with h1 | ⟨w₀, x, z, rfl, h1, h2, h3⟩
      · exact .inl (mapLike_append h1 w)
      · refine .inr ⟨w₀, x, z ++ w, by simp, h1, h2, ?_⟩
        rcases h3 with h3 | ⟨y, r, rfl, h3⟩ | ⟨rfl, h3⟩
        · exact .inl h3
        · exact .inr (.inl ⟨y, r ++ w, rfl, h3⟩)
        · rcases h with h | h
          · exact absurd h3 (h a)
          · exact .inr (.inl h)

/-- A closing token at the end. -/
theorem bracesEnd_close {E E' : List Token → Prop} {u : List Token} {c : Token} (hu : BracesEnd E' u) (hc : c.tokenType ≠ .leftBrace)
    (ht : (∀ a, ¬ E' a) ∨ c.tokenType ≠ .terminator) : BracesEnd E (u ++ [c]) :=
  bracesEnd_append (E'' := fun _ => False) hu (bracesEnd_cons hc (bracesEnd_nil (E := fun _ => False)) nofun) (ht.imp_right fun h => ⟨c, [], rfl, h⟩) nofun

/-- A group in braces. -/
theorem bracesEnd_group {E E' : List Token → Prop} {o c : Token} {u : List Token} (hu : BracesEnd E' u) (hn : WellNested u)
    (hc : c.tokenType = .rightBrace) (hE : E []) : BracesEnd E (o :: (u ++ [c])) := by
  intro a o' b e ho
  cases a with
  | nil =>
    simp only [List.nil_append, List.cons.injEq] at e
    obtain ⟨rfl, rfl⟩ := e
    exact .inr ⟨u, c, [], rfl, hn, hc, .inr (.inr ⟨rfl, hE⟩)⟩
  | cons y a =>
    simp only [List.cons_append, List.cons.injEq] at e
    obtain ⟨rfl, e⟩ := e
    exact braceAt_before [o] (bracesEnd_close (E := fun _ => False) hu (by rw [hc]; decide) (.inr (by rw [hc]; decide)) a o' b e ho) nofun

/-- A map in braces. -/
theorem bracesEnd_map {E : List Token → Prop} {o : Token} {u : List Token} (hu : BracesEnd E u) (hm : MapLike u) (hE : ∀ a, E a → E (o :: a)) : BracesEnd E (o :: u) := by
  intro a o' b e ho
  cases a with
  | nil =>
    simp only [List.nil_append, List.cons.injEq] at e
    obtain ⟨rfl, rfl⟩ := e
    exact .inl hm
  | cons y a =>
    simp only [List.cons_append, List.cons.injEq] at e
    obtain ⟨rfl, e⟩ := e
    exact braceAt_before [o] (hu a o' b e ho) (hE a)

theorem bracesEnd_opt {E : List Token → Prop} {tt : TokenType} {w : List Token} (h : Optional tt w) (hf : tt ≠ .leftBrace) : BracesEnd E w := by
  rcases h with rfl | ⟨t, ht, rfl⟩
  · exact bracesEnd_nil
  · exact bracesEnd_cons (by rw [ht]; exact hf) (bracesEnd_nil (E := fun _ => False)) nofun

theorem bracesEnd_sep {E : List Token → Prop} {w : List Token} (h : OptionalSeparator w) : BracesEnd E w := by
  rcases h with rfl | ⟨t, ht, rfl⟩
  · exact bracesEnd_nil
  · exact bracesEnd_cons (by rcases ht with h | h <;> rw [h] <;> decide) (bracesEnd_nil (E := fun _ => False)) nofun

/-- Where a group in braces can end what is derived from a nonterminal: the tokens before it. -/
def lastGroup : NT → List Token → Prop
  | .block, a => a = []
  | .function _, a => ∃ p w q, a = p :: (w ++ [q]) ∧ IsParen p ∧ WellNested w ∧ q.tokenType = .rightParen
  | .statement, _ | .declaration, _ | .declarations, _ | .body, _ | .named, _ | .methods, _ => True
  | _, _ => False

theorem entries_mapLike (h : Grammar repl l nt w v) : nt = .entries → MapLike w := by
  induction h
  case entry hk hc _ _ => exact fun _ => .inr ⟨_, _, _, rfl, hk.imp And.left And.left, hc⟩
  case entries ih _ => exact fun _ => mapLike_append (ih rfl) _
  all_goals (intro e; cases e)

theorem lastGroup_above (p : Prec) : lastGroup p.above = fun _ => False := by cases p <;> rfl

local macro "nobrace" : tactic => `(tactic| first
  | exact notElse_of ‹_› (by decide)
  | exact notElse_node ‹_› (by decide)
  | exact notElse_prefix ‹_› (by decide)
  | exact notElse_key ‹_› (by decide)
  | exact notElse_paren ‹_› (by decide)
  | exact notElse_separator ‹_› (by decide)
  | exact notElse_variable ‹_› (by decide))

/-- For tokens in which no group can be at the end. -/
local macro "inside" : tactic => `(tactic| (
  repeat' first
    | exact bracesEnd_nil
    | assumption
    | exact bracesEnd_sep ‹_›
    | exact bracesEnd_opt ‹_› (by decide)
    | refine bracesEnd_append (E' := fun _ => False) (E'' := fun _ => False) ?_ ?_ (.inl fun _ => id) nofun
    | refine bracesEnd_cons (E' := fun _ => False) (by nobrace) ?_ nofun))

/-- For tokens in which a group can be at the end. -/
local macro "atEnd" : tactic => `(tactic| (
  repeat' first
    | exact bracesEnd_nil
    | assumption
    | exact BracesEnd.none (by assumption)
    | exact BracesEnd.weaken (by assumption) (fun _ _ => trivial)
    | refine bracesEnd_append (E := fun _ => False) (E' := fun _ => False) (E'' := fun _ => False) ?_ ?_ (.inl fun _ => id) (fun _ => id)
    | refine bracesEnd_cons (E := fun _ => False) (E' := fun _ => False) (by nobrace) ?_ (fun _ => id)
    | refine bracesEnd_append (E' := fun _ => False) (E'' := fun _ => True) ?_ ?_ (.inl fun _ => id) (fun _ _ => trivial)
    | refine bracesEnd_cons (E' := fun _ => True) (by nobrace) ?_ (fun _ _ => trivial)))

theorem grammar_braces (h : Grammar repl l nt w v) : BracesEnd (lastGroup nt) w := by
  induction h
  case operand p _ _ _ ih => rw [lastGroup_above] at ih; exact ih
  case operator p _ _ _ _ _ _ _ hp _ ih1 ih2 =>
    rw [lastGroup_above] at ih2
    exact bracesEnd_append ih1 (bracesEnd_cons (by nobrace) ih2 fun _ => id) (.inl fun _ => id) fun _ => id
  case map_empty ho hc => exact bracesEnd_map (bracesEnd_cons (by nobrace) bracesEnd_nil fun _ => id) (.inl ⟨_, _, rfl, hc⟩) fun _ => id
  case map_braces ho hw hs hc ih =>
    simp only [List.cons_append, List.append_assoc]
    refine bracesEnd_map ?_ (mapLike_append (entries_mapLike hw rfl) _) fun _ => id
    exact bracesEnd_append ih (bracesEnd_append (bracesEnd_sep hs) (bracesEnd_cons (by nobrace) bracesEnd_nil fun _ => id) (.inl fun _ => id) fun _ => id) (.inl fun _ => id) fun _ => id
  case function_literal t w d ht hw ih =>
    intro a o b e ho
    cases a with
    | nil => simp only [List.nil_append, List.cons.injEq] at e; obtain ⟨rfl, rfl⟩ := e; rw [ht] at ho; cases ho
    | cons y a =>
      simp only [List.cons_append, List.cons.injEq] at e
      obtain ⟨rfl, e⟩ := e
      rcases ih a o b e ho with h | ⟨w₀, c, z, e, h1, h2, h3⟩
      · exact .inl h
      · refine .inr ⟨w₀, c, z, e, h1, h2, ?_⟩
        rcases h3 with h3 | h3 | ⟨-, p, w', q, rfl, hp, hw', hq⟩
        · exact .inl (funHead_before h3 [t])
        · exact .inr (.inl h3)
        · exact .inl ⟨[], t, p, w', q, rfl, ht, hp, hw', hq⟩
  case block_braces ho hw hc ih => exact bracesEnd_group ih (grammar_nested hw) hc rfl
  case block_indented h1 h2 hw h3 ih =>
    simp only [List.cons_append]
    exact bracesEnd_cons (E' := fun _ => False) (by nobrace) (bracesEnd_cons (E' := fun _ => False) (by nobrace) (bracesEnd_close (E := fun _ => False) ih (by nobrace) (.inr (by nobrace))) nofun) nofun
  case function_empty hp hc hb ih =>
    refine bracesEnd_cons (E' := fun a => ∃ q, a = [q] ∧ q.tokenType = .rightParen) (by nobrace) ?_ ?_
    · exact bracesEnd_cons (by nobrace) ih fun a ha => ⟨_, by rw [ha], hc⟩
    · rintro a ⟨q, rfl, hq⟩; exact ⟨_, [], q, rfl, hp, rfl, hq⟩
  case function o w₁ ps c w body hp hw₁ hc hb ih1 ih2 =>
    simp only [List.cons_append]
    refine bracesEnd_cons (E' := fun a => ∃ q, a = w₁ ++ [q] ∧ q.tokenType = .rightParen) (by nobrace) ?_ ?_
    · refine bracesEnd_append (E'' := fun a => ∃ q, a = [q] ∧ q.tokenType = .rightParen) ih1 ?_ (.inl fun _ => id) ?_
      · exact bracesEnd_cons (by nobrace) ih2 fun a ha => ⟨_, by rw [ha], hc⟩
      · rintro a ⟨q, rfl, hq⟩; exact ⟨q, rfl, hq⟩
    · rintro a ⟨q, rfl, hq⟩; exact ⟨_, w₁, q, rfl, hp, grammar_nested hw₁, hq⟩
  case named ht hw ih => exact bracesEnd_cons (by nobrace) ih fun _ _ => trivial
  case method w fs w' n ps body k loc hw hn ih1 ih2 =>
    refine bracesEnd_append ih1 ih2 (.inr ?_) fun _ _ => trivial
    obtain ⟨y, r, rfl⟩ := List.exists_cons_of_ne_nil (grammar_ne hn rfl)
    exact ⟨y, r, rfl, first_ne hn (by decide)⟩
  case class_method hw ht hn ih1 ih2 =>
    exact bracesEnd_append ih1 (bracesEnd_cons (E := fun _ => True) (by nobrace) ih2 fun _ _ => trivial) (.inr ⟨_, _, rfl, by nobrace⟩) fun _ _ => trivial
  case declarations w ss w' s hw hd ih1 ih2 =>
    refine bracesEnd_append ih1 ih2 (.inr ?_) fun _ _ => trivial
    obtain ⟨y, r, rfl⟩ := List.exists_cons_of_ne_nil (grammar_ne hd rfl)
    exact ⟨y, r, rfl, first_ne hd (by decide)⟩
  case declaration ih => exact ih
  case fun_decl ht hw ih => exact bracesEnd_cons (by nobrace) ih fun _ _ => trivial
  case class_braces ho hw hc ih =>
    simp only [List.cons_append]
    exact bracesEnd_cons (by nobrace) (bracesEnd_cons (E := fun _ => True) (by nobrace) (bracesEnd_group (E := fun _ => True) ih (grammar_nested hw) hc trivial) fun _ _ => trivial) fun _ _ => trivial
  case class_indented hw hc ih =>
    exact bracesEnd_close (E' := fun _ => True) (by atEnd) (by nobrace) (.inr (by nobrace))
  case subclass_braces ho hw hc ih =>
    simp only [List.cons_append]
    refine bracesEnd_cons (E' := fun _ => True) (by nobrace) (bracesEnd_cons (E' := fun _ => True) (by nobrace) (bracesEnd_cons (E' := fun _ => True) (by nobrace)
      (bracesEnd_cons (E' := fun _ => True) (by nobrace) (bracesEnd_group ih (grammar_nested hw) hc trivial) ?_) ?_) ?_) ?_ <;> exact fun _ _ => trivial
  case subclass_indented hw hc ih =>
    exact bracesEnd_close (E' := fun _ => True) (by atEnd) (by nobrace) (.inr (by nobrace))
  case expression_repl ih => exact BracesEnd.none ih
  case braces ho hw hc ih => exact bracesEnd_group ih (grammar_nested hw) hc trivial
  case if_else t o w₁ e c w₂ s₁ el w₃ s₂ _ _ _ _ _ _ _ ih1 ih2 ih3 =>
    refine bracesEnd_append (E' := fun _ => True) (E'' := fun _ => True) (by atEnd) (by atEnd) (.inr ⟨_, _, rfl, by nobrace⟩) fun _ _ => trivial
  case «if» => atEnd
  case «while» => atEnd
  case «for» => atEnd
  case body_block ih => exact ih.weaken fun _ _ => trivial
  case body ih => exact ih
  all_goals first
    | inside; done
    | exact BracesEnd.none (by inside)

end Ws
