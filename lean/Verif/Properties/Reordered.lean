import Verif.Proofs.Resolve.Reordered
import Verif.Properties.Separate
/-! Property C88: the order of methods, arguments, elements, entries and operands does not matter to the resolver. -/
namespace Ws.Properties
open Ws Spec

variable {rs rs' rs1 rs2 : Resolver} {sts sts' : List Stmt} {r r' : Except ParseError (List Stmt)}

theorem loop_stmts : ∀ {sts out : List Stmt} {rs t : Resolver}, resolveLoop sts rs = .done (out, [], t) → resolveStmts sts rs = .ok out t
  | [], _, _, _, h => by cases h; rfl
  | s :: ss, out, rs, t, h => by
    simp only [resolveLoop] at h
    simp only [resolveStmts, bind, M.bind]
    cases h1 : resolveStmt s rs with
    | ok a u =>
      simp only [h1, bind, Outcome.bind] at h
      dsimp only
      cases h2 : resolveLoop ss u with
      | done x => simp only [h2] at h; obtain ⟨p, q, w⟩ := x; cases h; rw [loop_stmts h2]; rfl
      | panic m => simp only [h2] at h; cases h
      | diverge => simp only [h2] at h; cases h
    | err e u =>
      simp only [h1, bind, Outcome.bind] at h
      cases h2 : resolveLoop ss u with
      | done x => simp only [h2] at h; cases h
      | panic m => simp only [h2] at h; cases h
      | diverge => simp only [h2] at h; cases h
    | panic m => rw [h1] at h; cases h
    | diverge => rw [h1] at h; cases h

theorem stmts_loop : ∀ {sts out : List Stmt} {rs t : Resolver}, resolveStmts sts rs = .ok out t → resolveLoop sts rs = .done (out, [], t)
  | [], _, _, _, h => by cases h; rfl
  | s :: ss, out, rs, t, h => by
    simp only [resolveStmts, bind_ok, pure_ok] at h
    obtain ⟨a, u, h1, b, v, h2, rfl, rfl⟩ := h
    simp only [resolveLoop, h1, stmts_loop h2, bind, Outcome.bind]

theorem stmts_error : ∀ {sts out : List Stmt} {rs t t' : Resolver} {e es}, resolveStmts sts rs = .err e t →
    resolveLoop sts rs = .done (out, es, t') → e ∈ es
  | [], _, _, _, _, _, _, h, _ => by cases h
  | s :: ss, out, rs, t, t', e, es, h, h' => by
    simp only [resolveLoop] at h'
    simp only [resolveStmts, bind, M.bind] at h
    cases h1 : resolveStmt s rs with
    | ok a u =>
      simp only [h1, bind, Outcome.bind] at h h'
      cases h2 : resolveLoop ss u with
      | done x =>
        obtain ⟨p, q, w⟩ := x
        simp only [h2] at h'
        cases h'
        refine stmts_error (t := t) ?_ h2
        cases h3 : resolveStmts ss u with
        | ok b v => rw [h3] at h; cases h
        | err b v => rw [h3] at h; cases h; rfl
        | panic m => rw [h3] at h; cases h
        | diverge => rw [h3] at h; cases h
      | panic m => simp only [h2] at h'; cases h'
      | diverge => simp only [h2] at h'; cases h'
    | err c u =>
      simp only [h1, bind, Outcome.bind] at h h'
      cases h2 : resolveLoop ss u with
      | done x => simp only [h2] at h'; cases h; cases h'; simp
      | panic m => simp only [h2] at h'; cases h'
      | diverge => simp only [h2] at h'; cases h'
    | panic m => rw [h1] at h'; cases h'
    | diverge => rw [h1] at h'; cases h'

theorem near_accepted {out : List Stmt} (hn : Nearby rs rs') (hr : Reordered (.stmts sts) (.stmts sts'))
    (h : rs.resolve sts = .done (.ok out, rs1)) (h' : rs'.resolve sts' = .done (r', rs2)) :
    (∃ out', r' = .ok out' ∧ Reordered (.stmts out) (.stmts out') ∧ Nearby rs1 rs2) ∨ HasTooMany r' := by
  obtain ⟨a, es, h1, h2⟩ := resolve_by_loop h
  obtain ⟨b, es', h1', h2'⟩ := resolve_by_loop h'
  cases es with
  | cons e es => cases h2
  | nil =>
    cases h2
    rcases run_like hr rs rs' hn _ _ (loop_stmts h1) with ⟨out', t', e1, e2, e3⟩ | ⟨e, t', e1, e2⟩
    · rw [stmts_loop e1] at h1'
      cases h1'
      exact .inl ⟨_, h2', e2, e3⟩
    · have he := stmts_error e1 h1'
      cases es' with
      | nil => cases he
      | cons c cs => exact .inr ⟨_, h2', e, he, e2⟩

/-- Two sessions that accepted programs that are the same but for the order. -/
inductive Twins : Resolver → Resolver → Prop
  | start {rs : Resolver} : Session rs → Twins rs rs
  | next {rs rs' rs1 rs2 : Resolver} {sts sts' out out' : List Stmt} : Twins rs rs' → Reordered (.stmts sts) (.stmts sts') →
      rs.resolve sts = .done (.ok out, rs1) → rs'.resolve sts' = .done (.ok out', rs2) → Twins rs1 rs2

theorem twins_near (h : Twins rs rs') : Nearby rs rs' := by
  induction h with
  | start _ => exact .refl _
  | next _ hr h1 h2 ih =>
    rcases near_accepted ih hr h1 h2 with ⟨_, _, _, hn⟩ | ⟨es, e, _⟩
    · exact hn
    · cases e

/-- Both results are the same program but for the order, or both are errors. -/
def SameButOrder : Except ParseError (List Stmt) → Except ParseError (List Stmt) → Prop
  | .ok sts, .ok sts' => Reordered (.stmts sts) (.stmts sts')
  | .error _, .error _ => True
  | _, _ => False

/-- C88: a program is accepted if and only if it is accepted with the methods of its classes, the arguments of
its calls, the elements of its arrays, the entries of its maps and the operands of its operators in any other
order, and then every variable is found at the same distance; unless there are too many names. This also holds in the middle of a session,
whose earlier programs may have been in another order, too. -/
theorem order_irrelevant (ht : Twins rs rs') (hr : Reordered (.stmts sts) (.stmts sts'))
    (h : rs.resolve sts = .done (r, rs1)) (h' : rs'.resolve sts' = .done (r', rs2)) :
    SameButOrder r r' ∨ HasTooMany r ∨ HasTooMany r' := by
  have hn := twins_near ht
  cases r with
  | ok out =>
    rcases near_accepted hn hr h h' with ⟨out', rfl, e, _⟩ | e
    · exact .inl e
    · exact .inr (.inr e)
  | error es =>
    cases r' with
    | error es' => exact .inl trivial
    | ok out' =>
      rcases near_accepted hn.symm hr.symm h' h with ⟨out, e, _⟩ | e
      · cases e
      · exact .inr (.inl e)

/-- C88: so it is for a program on its own. -/
theorem order_irrelevant_alone (hr : Reordered (.stmts sts) (.stmts sts')) (h : resolve sts = .done r) (h' : resolve sts' = .done r') :
    SameButOrder r r' ∨ HasTooMany r ∨ HasTooMany r' := by
  obtain ⟨_, h⟩ := resolve_new h
  obtain ⟨_, h'⟩ := resolve_new h'
  exact order_irrelevant (.start .new) hr h h'


mutual
theorem same_expr : ∀ e : Expr, Reordered (.expr e) (.expr e)
  | .assign _ _ e _ => .assign rfl (same_expr e)
  | .call f es _ => .call (same_expr f) (same_exprs es)
  | .binary a _ b _ => .binary (same_expr a) (same_expr b)
  | .function d => .function (same_fn d)
  | .get e _ _ => .get (same_expr e)
  | .getIndex a b _ => .getIndex (same_expr a) (same_expr b)
  | .grouping e => .grouping (same_expr e)
  | .literalArray es => .literalArray (same_exprs es)
  | .literalBool b => .literalBool b
  | .literalMap es => .literalMap (same_entries es)
  | .literalNumber n => .literalNumber n
  | .literalNil => .literalNil
  | .literalString s => .literalString s
  | .logical a _ b => .logical (same_expr a) (same_expr b)
  | .set a _ b _ => .set (same_expr a) (same_expr b)
  | .setIndex a b c _ => .setIndex (same_expr a) (same_expr b) (same_expr c)
  | .super _ _ _ => .super rfl
  | .variable _ _ _ => .variable rfl
  | .unary _ e _ => .unary (same_expr e)
theorem same_exprs : ∀ es : List Expr, Reordered (.exprs es) (.exprs es)
  | [] => .exprs_nil
  | e :: es => .exprs (as := []) (as' := []) (same_expr e) (same_exprs es)
theorem same_entries : ∀ es : List MapEntry, Reordered (.entries es) (.entries es)
  | [] => .entries_nil
  | .mk _ e :: es => .entries (as := []) (as' := []) (same_expr e) (same_entries es)
theorem same_fn : ∀ d : FunDef, Reordered (.fn d) (.fn d)
  | .mk _ b _ _ => .fn rfl (same_stmts b)
theorem same_methods : ∀ ms : List NamedFun, Reordered (.methods ms) (.methods ms)
  | [] => .methods_nil
  | .mk _ d :: ms => .methods (as := []) (as' := []) (same_fn d) (same_methods ms)
theorem same_stmt : ∀ s : Stmt, Reordered (.stmt s) (.stmt s)
  | .block b => .block (same_stmts b)
  | .break _ => .break
  | .class _ none ms _ => .class (same_methods ms)
  | .class _ (some e) ms _ => .subclass (same_expr e) (same_methods ms)
  | .continue _ => .continue
  | .expression e => .expression (same_expr e)
  | .fun (.mk _ d) => .fun (same_fn d)
  | .if e a none => .if (same_expr e) (same_stmt a)
  | .if e a (some b) => .ifElse (same_expr e) (same_stmt a) (same_stmt b)
  | .print e => .print (same_expr e)
  | .return e _ => .return (same_expr e)
  | .var _ _ e _ => .var (same_expr e)
  | .while e b => .while (same_expr e) (same_stmt b)
  | .whileIncrement e b i => .whileIncrement (same_expr e) (same_stmt b) (same_expr i)
theorem same_stmts : ∀ ss : List Stmt, Reordered (.stmts ss) (.stmts ss)
  | [] => .stmts_nil
  | s :: ss => .stmts (same_stmt s) (same_stmts ss)
end

/-- C88: every permutation of methods is a reordering. -/
theorem methods_permuted {ms ms' : List NamedFun} (h : ms.Perm ms') : Reordered (.methods ms) (.methods ms') := by
  induction ms generalizing ms' with
  | nil => cases List.nil_perm.mp h; exact .methods_nil
  | cons m ms ih =>
    obtain ⟨as, bs, rfl⟩ := List.append_of_mem (h.subset (List.mem_cons_self ..))
    have := ih ((List.perm_cons m).mp (h.trans List.perm_middle))
    cases m
    exact .methods (as := []) (same_fn _) this

/-- C88: every permutation of arguments or elements is a reordering. -/
theorem exprs_permuted {es es' : List Expr} (h : es.Perm es') : Reordered (.exprs es) (.exprs es') := by
  induction es generalizing es' with
  | nil => cases List.nil_perm.mp h; exact .exprs_nil
  | cons m ms ih =>
    obtain ⟨as, bs, rfl⟩ := List.append_of_mem (h.subset (List.mem_cons_self ..))
    exact .exprs (as := []) (same_expr _) (ih ((List.perm_cons m).mp (h.trans List.perm_middle)))

/-- C88: every permutation of entries is a reordering. -/
theorem entries_permuted {es es' : List MapEntry} (h : es.Perm es') : Reordered (.entries es) (.entries es') := by
  induction es generalizing es' with
  | nil => cases List.nil_perm.mp h; exact .entries_nil
  | cons m ms ih =>
    obtain ⟨as, bs, rfl⟩ := List.append_of_mem (h.subset (List.mem_cons_self ..))
    have := ih ((List.perm_cons m).mp (h.trans List.perm_middle))
    cases m
    exact .entries (as := []) (same_expr _) this

theorem stmts_around {s s' : Stmt} (h : Reordered (.stmt s) (.stmt s')) (after : List Stmt) :
    ∀ before : List Stmt, Reordered (.stmts (before ++ s :: after)) (.stmts (before ++ s' :: after))
  | [] => .stmts h (same_stmts after)
  | b :: bs => .stmts (same_stmt b) (stmts_around h after bs)

/-- C88: in particular the methods of a class can be written in any order. -/
theorem methods_any_order {before after : List Stmt} {x e ms ms' loc} (hm : ms.Perm ms')
    (h : resolve (before ++ .class x e ms loc :: after) = .done r)
    (h' : resolve (before ++ .class x e ms' loc :: after) = .done r') : SameButOrder r r' ∨ HasTooMany r ∨ HasTooMany r' := by
  refine order_irrelevant_alone (stmts_around ?_ after before) h h'
  cases e with
  | none => exact .class (methods_permuted hm)
  | some e => exact .subclass (same_expr e) (methods_permuted hm)

/-- A class with the methods `f() return a(this)` and `init(b) b = c`. -/
def twoMethods (d e g f : Nat) : NamedFun × NamedFun :=
  (.mk c!"f" (.mk [] [.return (.call (.variable c!"a" ⟨d, e⟩ ⟨3, 12⟩) [.variable c!"this" ⟨g, 0⟩ ⟨3, 14⟩] ⟨3, 13⟩) ⟨3, 5⟩] .method ⟨2, 3⟩),
   .mk c!"init" (.mk [⟨c!"b", ⟨4, 8⟩⟩] [.expression (.assign c!"b" ⟨0, 0⟩ (.variable c!"c" ⟨d, f⟩ ⟨5, 9⟩) ⟨5, 7⟩)] .initializer ⟨4, 3⟩))

/-- Not trivial: the slots of the globals `a` and `c` depend on the order, but not the distances. -/
example : let m := twoMethods 0 0 0 0
    resolve [.class c!"K" none [m.1, m.2] ⟨1, 7⟩] =
      .done (.ok [.class c!"K" none [(twoMethods 2 1 1 2).1, (twoMethods 2 1 1 2).2] ⟨1, 7⟩]) ∧
    resolve [.class c!"K" none [m.2, m.1] ⟨1, 7⟩] =
      .done (.ok [.class c!"K" none [(twoMethods 2 2 1 1).2, (twoMethods 2 2 1 1).1] ⟨1, 7⟩]) ∧
    Reordered (.stmts [.class c!"K" none [m.1, m.2] ⟨1, 7⟩]) (.stmts [.class c!"K" none [m.2, m.1] ⟨1, 7⟩]) :=
  ⟨by by_kernel, by by_kernel, .stmts (.class (methods_permuted (.swap _ _ _))) .stmts_nil⟩
/-- Operands: `a < (b or c)` and `(c or b) > a`. -/
example : let v (x : Str) (i n : Nat) : Expr := .variable x ⟨0, i⟩ ⟨1, n⟩
    let s (a b c : Nat) : Stmt := .expression (.binary (v c!"a" a 1) .less (.grouping (.logical (v c!"b" b 6) .or (v c!"c" c 11))) ⟨1, 3⟩)
    let t (a b c : Nat) : Stmt := .expression (.binary (.grouping (.logical (v c!"c" c 2) .or (v c!"b" b 7))) .greater (v c!"a" a 12) ⟨1, 10⟩)
    resolve [s 0 0 0] = .done (.ok [s 0 1 2]) ∧ resolve [t 0 0 0] = .done (.ok [t 2 1 0]) ∧
    Reordered (.stmts [s 0 0 0]) (.stmts [t 0 0 0]) :=
  ⟨by by_kernel, by by_kernel, .stmts (.expression (.binarySwap (.variable rfl) (.grouping (.logicalSwap (.variable rfl) (.variable rfl))))) .stmts_nil⟩

/-- The order of statements is another matter: a variable is not declared before its declaration. -/
example : let s : Stmt := .var c!"x" ⟨0⟩ (.variable c!"x" ⟨0, 0⟩ ⟨1, 9⟩) ⟨1, 5⟩
    let t : Stmt := .var c!"x" ⟨0⟩ .literalNil ⟨2, 5⟩
    resolve [t, s] = .done (.ok [t, s]) ∧
    resolve [s, t] = .done (.error [.newWithLocation ⟨1, 9⟩ c!"x" "Cannot read local variable in its own initializer."]) :=
  ⟨by by_kernel, by by_kernel⟩

end Ws.Properties
