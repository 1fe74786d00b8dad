import Verif.Spec.Rejected
/-! Bindings that differ only in globals that are used and not declared have the same faults. -/
namespace Ws
open Spec

/-- Except for the names `N`, the same globals have been declared, or have begun to be. -/
def SameDeclared (N : Str → Prop) (g g' : List (Str × Status)) : Prop :=
  ∀ x st, ¬ N x → st ≠ .used → ((x, st) ∈ g ↔ (x, st) ∈ g')

/-- The same local scopes, and global scopes that declare the same names, except `N`, and have room for
`n` more. -/
def Similar (N : Str → Prop) (n : Nat) (b b' : Bindings) : Prop :=
  ∃ locals g g', b = locals ++ [g] ∧ b' = locals ++ [g'] ∧ SameDeclared N g g' ∧ g.length + n ≤ 65536 ∧
    g'.length + n ≤ 65536

variable {N M : Str → Prop} {n : Nat} {b b' : Bindings} {x y : Str} {st st' : Status} {g g' s : List (Str × Status)} {loc : SourceLoc}

theorem mem_put : (y, st') ∈ put x st s ↔ (y = x ∧ st' = st) ∨ (y ≠ x ∧ (y, st') ∈ s) := by
  unfold put
  split
  · rename_i hx
    rw [List.mem_map]
    constructor
    · rintro ⟨⟨z, w⟩, hm, he⟩
      split at he
      · cases he; exact .inl ⟨rfl, rfl⟩
      · cases he; rename_i hz; exact .inr ⟨hz, hm⟩
    · rintro (⟨rfl, rfl⟩ | ⟨hn, hm⟩)
      · obtain ⟨⟨z, w⟩, hm, rfl⟩ := List.mem_map.mp hx
        exact ⟨(z, w), hm, by simp⟩
      · exact ⟨(y, st'), hm, by simp [hn]⟩
  · rename_i hx
    rw [List.mem_append, List.mem_singleton]
    constructor
    · rintro (hm | he)
      · by_cases h : y = x
        · subst h; exact absurd (List.mem_map.mpr ⟨_, hm, rfl⟩) hx
        · exact .inr ⟨h, hm⟩
      · cases he; exact .inl ⟨rfl, rfl⟩
    · rintro (⟨rfl, rfl⟩ | ⟨_, hm⟩)
      · exact .inr rfl
      · exact .inl hm

theorem put_length : (put x st s).length ≤ s.length + 1 := by
  unfold put
  split <;> simp

theorem sameDeclared_put (h : SameDeclared N g g') : SameDeclared N (put x st g) (put x st g') := by
  intro y st' hn hu
  rw [mem_put, mem_put, h y st' hn hu]

theorem sameDeclared_symm (h : SameDeclared N g g') : SameDeclared N g' g := fun x st hn hu => (h x st hn hu).symm

theorem sameDeclared_used (h : SameDeclared N g g') : SameDeclared N (g ++ [(x, .used)]) g' := by
  intro y st' hn hu
  rw [← h y st' hn hu, List.mem_append, List.mem_singleton]
  constructor
  · rintro (h | h)
    · exact h
    · cases h; exact absurd rfl hu
  · exact .inl

theorem putGlobal_last {locals : Bindings} : putGlobal x (locals ++ [g]) = locals ++ [g ++ [(x, .used)]] := by
  induction locals with
  | nil => rfl
  | cons s ss ih =>
    cases ss with
    | nil => simp [putGlobal]
    | cons t ts =>
      simp only [List.cons_append] at ih ⊢
      rw [putGlobal, ih]
      simp

theorem Similar.le {m : Nat} (h : Similar N n b b') (hm : m ≤ n) : Similar N m b b' := by
  obtain ⟨l, g, g', h1, h2, h3, h4, h5⟩ := h
  exact ⟨l, g, g', h1, h2, h3, by omega, by omega⟩

theorem Similar.length (h : Similar N n b b') : b.length = b'.length := by
  obtain ⟨l, g, g', rfl, rfl, _⟩ := h
  simp

/-- The innermost scopes: the same, or the global scopes. -/
theorem Similar.head (h : Similar N n b b') : (1 < b.length ∧ b.head? = b'.head?) ∨
    (b.length = 1 ∧ ∃ g g', b = [g] ∧ b' = [g'] ∧ SameDeclared N g g' ∧ g.length + n ≤ 65536 ∧ g'.length + n ≤ 65536) := by
  obtain ⟨l, g, g', rfl, rfl, h3, h4, h5⟩ := h
  cases l with
  | nil => exact .inr ⟨rfl, g, g', rfl, rfl, h3, h4, h5⟩
  | cons s ss => exact .inl ⟨by simp, rfl⟩

theorem sim_full (h : Similar N (n + 1) b b') (hb : b.length = 1) :
    ¬ 65535 < (b.head?.getD []).length ∧ ¬ 65535 < (b'.head?.getD []).length := by
  rcases h.head with ⟨h1, _⟩ | ⟨_, g, g', rfl, rfl, _, h4, h5⟩
  · omega
  · simp only [List.head?_cons, Option.getD_some]
    omega

theorem sim_useFault (h : Similar N (n + 1) b b') : useFault b x loc = none ∧ useFault b' x loc = none := by
  obtain ⟨l, g, g', rfl, rfl, h3, h4, h5⟩ := h
  have e : ∀ k : List (Str × Status), ((l ++ [k]).getLast?.getD []) = k := by intro k; simp
  unfold useFault
  rw [e, e]
  exact ⟨if_neg (by omega), if_neg (by omega)⟩

theorem sim_fault (h : Similar N (n + 1) b b') (a : Act) (hr : ∀ y l, a = .read y l → ¬ N y) :
    a.fault b = a.fault b' := by
  have hlen := h.length
  cases a with
  | enter => rfl
  | leave => rfl
  | wrong c => rfl
  | use y l => simp only [Act.fault, sim_useFault h]
  | read y l =>
    simp only [Act.fault, sim_useFault h]
    rcases h.head with ⟨h1, h2⟩ | ⟨h1, g, g', rfl, rfl, h3, _⟩
    · rw [h2]
    · have hc := h3 y .begun (hr y l rfl) (by decide)
      by_cases hm : (y, Status.begun) ∈ g
      · rw [if_pos (show _ ∈ [g].head?.getD [] from hm), if_pos (show _ ∈ [g'].head?.getD [] from hc.mp hm)]
      · rw [if_neg (show ¬ _ ∈ [g].head?.getD [] from hm), if_neg (show ¬ _ ∈ [g'].head?.getD [] from fun h => hm (hc.mpr h))]
  | declare y l =>
    simp only [Act.fault]
    rcases h.head with ⟨h1, h2⟩ | ⟨h1, h2⟩
    · rw [h2, hlen]
    · have := sim_full h h1
      rw [if_neg this.1, if_neg this.2, if_neg (by omega), if_neg (by omega)]
  | begin y l =>
    simp only [Act.fault]
    rcases h.head with ⟨h1, h2⟩ | ⟨h1, h2⟩
    · rw [h2, hlen]
    · have := sim_full h h1
      rw [if_neg this.1, if_neg this.2, if_neg (by omega), if_neg (by omega)]

theorem sim_tooDeep (h : Similar N n b b') (a : Act) : a.tooDeep b = a.tooDeep b' := by
  cases a <;> simp [Act.tooDeep, h.length]

theorem sim_used {l : Bindings} (h : SameDeclared N g g') (h4 : g.length + (n + 1) ≤ 65536) (h5 : g'.length + (n + 1) ≤ 65536) :
    Similar N n (if IsBound (l ++ [g]) x then l ++ [g] else putGlobal x (l ++ [g]))
      (if IsBound (l ++ [g']) x then l ++ [g'] else putGlobal x (l ++ [g'])) := by
  rw [putGlobal_last, putGlobal_last]
  split <;> split
  · exact ⟨l, g, g', rfl, rfl, h, by omega, by omega⟩
  · exact ⟨l, g, _, rfl, rfl, sameDeclared_symm (sameDeclared_used (sameDeclared_symm h)), by omega, by simp; omega⟩
  · exact ⟨l, _, g', rfl, rfl, sameDeclared_used h, by simp; omega, by omega⟩
  · exact ⟨l, _, _, rfl, rfl, sameDeclared_used (sameDeclared_symm (sameDeclared_used (sameDeclared_symm h))),
      by simp; omega, by simp; omega⟩

/-- A scope is not left: the act is not `leave`, or there are local scopes. -/
theorem sim_after (h : Similar N (n + 1) b b') (a : Act) (hl : a = .leave → 1 < b.length) : Similar N n (a.after b) (a.after b') := by
  obtain ⟨l, g, g', rfl, rfl, h3, h4, h5⟩ := h
  cases a with
  | wrong c => exact ⟨l, g, g', by cases l <;> rfl, by cases l <;> rfl, h3, by omega, by omega⟩
  | enter => exact ⟨[] :: l, g, g', rfl, rfl, h3, by omega, by omega⟩
  | leave =>
    cases l with
    | nil => exact absurd (hl rfl) (by simp)
    | cons s ss => exact ⟨ss, g, g', rfl, rfl, h3, by omega, by omega⟩
  | use y k =>
    cases l <;> exact sim_used h3 h4 h5
  | read y k =>
    cases l <;> exact sim_used h3 h4 h5
  | declare y k =>
    cases l with
    | nil =>
      have := @put_length y .declared g
      have := @put_length y .declared g'
      exact ⟨[], _, _, rfl, rfl, sameDeclared_put h3, by omega, by omega⟩
    | cons s ss => exact ⟨put y .declared s :: ss, g, g', rfl, rfl, h3, by omega, by omega⟩
  | begin y k =>
    cases l with
    | nil =>
      have := @put_length y .begun g
      have := @put_length y .begun g'
      simp only [List.nil_append, Act.after]
      by_cases hN : N y
      · have hk : ∀ k : List (Str × Status), SameDeclared N k (put y .begun k) := fun k z st' hz _ => by
          rw [mem_put]
          have : z ≠ y := fun e => hz (e ▸ hN)
          simp [this]
        have hk' : ∀ k : List (Str × Status), SameDeclared N k
            (if (y, Status.begun) ∈ k ∨ (y, Status.declared) ∈ k then k else put y .begun k) := fun k => by
          split
          · exact fun _ _ _ _ => Iff.rfl
          · exact hk k
        have hlen : ∀ k : List (Str × Status),
            (if (y, Status.begun) ∈ k ∨ (y, Status.declared) ∈ k then k else put y .begun k).length ≤ k.length + 1 := fun k => by
          have := @put_length y .begun k
          split <;> omega
        have := hlen g
        have := hlen g'
        refine ⟨[], if (y, Status.begun) ∈ g ∨ (y, Status.declared) ∈ g then g else put y .begun g,
          if (y, Status.begun) ∈ g' ∨ (y, Status.declared) ∈ g' then g' else put y .begun g', ?_, ?_,
          fun z st' hz hu => ((hk' g z st' hz hu).symm.trans (h3 z st' hz hu)).trans (hk' g' z st' hz hu), by omega, by omega⟩
        · split <;> rfl
        · split <;> rfl
      have hc : ((y, Status.begun) ∈ g ∨ (y, Status.declared) ∈ g) ↔ ((y, Status.begun) ∈ g' ∨ (y, Status.declared) ∈ g') :=
        or_congr (h3 y .begun hN (by decide)) (h3 y .declared hN (by decide))
      by_cases hp : (y, Status.begun) ∈ g ∨ (y, Status.declared) ∈ g
      · rw [if_pos hp, if_pos (hc.mp hp)]
        exact ⟨[], g, g', rfl, rfl, h3, by omega, by omega⟩
      · rw [if_neg hp, if_neg (fun h => hp (hc.mpr h))]
        exact ⟨[], _, _, rfl, rfl, sameDeclared_put h3, by omega, by omega⟩
    | cons s ss =>
      simp only [List.cons_append, Act.after]
      split
      · exact ⟨s :: ss, g, g', rfl, rfl, h3, by omega, by omega⟩
      · exact ⟨put y .begun s :: ss, g, g', rfl, rfl, h3, by omega, by omega⟩

/-! ### Scopes are left after they are entered -/

/-- The number of scopes after acts, never below `d`; `none` if a scope is left at `d`. -/
def depthAfter : Nat → List Act → Option Nat
  | k, [] => some k
  | k, .enter :: as => depthAfter (k + 1) as
  | 0, .leave :: _ => none
  | k + 1, .leave :: as => depthAfter k as
  | k, .declare .. :: as | k, .begin .. :: as | k, .read .. :: as | k, .use .. :: as | k, .wrong _ :: as => depthAfter k as

/-- Every scope that is entered is left, and no other; outside of them only the names `N` are declared. -/
inductive Scoped : (Str → Prop) → List Act → Prop
  | nil {N : Str → Prop} : Scoped N []
  | append {N : Str → Prop} {as as' : List Act} : Scoped N as → Scoped N as' → Scoped N (as ++ as')
  | scope {N : Str → Prop} {as : List Act} : Scoped (fun _ => True) as → Scoped N (.enter :: (as ++ [.leave]))
  | declare {N : Str → Prop} {x : Str} {loc : SourceLoc} : N x → Scoped N [.declare x loc]
  | begin {N : Str → Prop} {x : Str} {loc : SourceLoc} : N x → Scoped N [.begin x loc]
  | read {N : Str → Prop} {x : Str} {loc : SourceLoc} : Scoped N [.read x loc]
  | use {N : Str → Prop} {x : Str} {loc : SourceLoc} : Scoped N [.use x loc]
  | wrong {N : Str → Prop} {c : Cause} : Scoped N [.wrong c]

theorem Scoped.mono {as : List Act} (h : Scoped N as) (hm : ∀ x, N x → M x) : Scoped M as := by
  induction h generalizing M with
  | nil => exact .nil
  | append _ _ ih ih' => exact .append (ih hm) (ih' hm)
  | scope h _ => exact .scope h
  | declare h => exact .declare (hm _ h)
  | begin h => exact .begin (hm _ h)
  | read => exact .read
  | use => exact .use
  | wrong => exact .wrong

theorem Scoped.depth {as : List Act} (h : Scoped N as) (k : Nat) (rest : List Act) :
    depthAfter k (as ++ rest) = depthAfter k rest := by
  induction h generalizing k rest with
  | nil => rfl
  | append _ _ ih ih' => rw [List.append_assoc, ih, ih']
  | scope h ih =>
    rw [List.cons_append, List.append_assoc]
    show depthAfter (k + 1) _ = _
    rw [ih]
    rfl
  | _ => cases k <;> rfl

theorem level_params (ps : List Parameter) : Scoped (fun _ => True) (paramActs ps) := by
  induction ps with
  | nil => exact .nil
  | cons p ps ih => exact Scoped.append (.declare trivial) ih

theorem level_readActs {c : ClassAround} : Scoped N (readActs c x loc) := by
  unfold readActs; split
  · exact .wrong
  · exact .read
theorem level_superActs {c : ClassAround} : Scoped N (superActs loc c) := by
  cases c
  · exact .wrong
  · exact .wrong
  · exact .use
theorem level_returnActs {f : FunctionAround} {e : Expr} : Scoped N (returnActs e loc f) := by
  cases f
  · exact .wrong
  · exact .nil
  · cases e <;> first | exact .nil | exact .wrong
theorem level_superclassActs {e : Expr} : Scoped N (superclassActs x e) := by
  cases e <;> try exact .nil
  simp only [superclassActs]
  split
  · exact .wrong
  · exact .nil

mutual
theorem level_expr : ∀ (e : Expr) (f : FunctionAround) (c : ClassAround) (N : Str → Prop), Scoped N (exprActs f c e)
  | .assign _ _ rhs _, f, c, N => by rw [exprActs]; exact (level_expr rhs f c _).append .use
  | .call callee args _, f, c, N => by rw [exprActs]; exact (level_expr callee f c _).append (level_exprs args f c _)
  | .binary a _ b _, f, c, N => by rw [exprActs]; exact (level_expr a f c _).append (level_expr b f c _)
  | .function d, f, c, N => by rw [exprActs]; exact level_fun d .plain c _
  | .get o _ _, f, c, N => by rw [exprActs]; exact level_expr o f c _
  | .getIndex a i _, f, c, N => by rw [exprActs]; exact (level_expr a f c _).append (level_expr i f c _)
  | .grouping e, f, c, N => by rw [exprActs]; exact level_expr e f c _
  | .literalArray es, f, c, N => by rw [exprActs]; exact level_exprs es f c _
  | .literalMap ms, f, c, N => by rw [exprActs]; exact level_entries ms f c _
  | .logical a _ b, f, c, N => by rw [exprActs]; exact (level_expr a f c _).append (level_expr b f c _)
  | .set o _ v _, f, c, N => by rw [exprActs]; exact (level_expr o f c _).append (level_expr v f c _)
  | .setIndex a i v _, f, c, N => by
      rw [exprActs]; exact (level_expr a f c _).append ((level_expr i f c _).append (level_expr v f c _))
  | .super _ _ _, f, c, N => by rw [exprActs]; exact level_superActs
  | .variable _ _ _, f, c, N => by rw [exprActs]; exact level_readActs
  | .unary _ e _, f, c, N => by rw [exprActs]; exact level_expr e f c _
  | .literalBool _, f, c, N => by rw [exprActs]; exact .nil
  | .literalNumber _, f, c, N => by rw [exprActs]; exact .nil
  | .literalNil, f, c, N => by rw [exprActs]; exact .nil
  | .literalString _, f, c, N => by rw [exprActs]; exact .nil
theorem level_exprs : ∀ (es : List Expr) (f : FunctionAround) (c : ClassAround) (N : Str → Prop), Scoped N (exprsActs f c es)
  | [], f, c, N => by rw [exprsActs]; exact .nil
  | e :: es, f, c, N => by rw [exprsActs]; exact (level_expr e f c _).append (level_exprs es f c _)
theorem level_entries : ∀ (ms : List MapEntry) (f : FunctionAround) (c : ClassAround) (N : Str → Prop), Scoped N (entriesActs f c ms)
  | [], f, c, N => by rw [entriesActs]; exact .nil
  | .mk _ v :: ms, f, c, N => by rw [entriesActs]; exact (level_expr v f c _).append (level_entries ms f c _)
theorem level_fun : ∀ (d : FunDef) (f : FunctionAround) (c : ClassAround) (N : Str → Prop), Scoped N (funActs f c d)
  | .mk ps b _ _, f, c, N => by rw [funActs]; exact ((level_params ps).append (level_stmts b f c _ fun _ _ _ _ => trivial)).scope
theorem level_methods : ∀ (ms : List NamedFun) (c : ClassAround) (N : Str → Prop), Scoped N (methodsActs c ms)
  | [], c, N => by rw [methodsActs]; exact .nil
  | .mk _ d :: ms, c, N => by rw [methodsActs]; exact (level_fun d _ c _).append (level_methods ms c _)
theorem level_stmt : ∀ (s : Stmt) (f : FunctionAround) (c : ClassAround) (N : Str → Prop), (∀ x ∈ declaredBy s, N x) → Scoped N (stmtActs f c s)
  | .block b, f, c, N, hN => by rw [stmtActs]; exact (level_stmts b f c _ fun _ _ _ _ => trivial).scope
  | .break _, f, c, N, hN => by rw [stmtActs]; exact .nil
  | .continue _, f, c, N, hN => by rw [stmtActs]; exact .nil
  | .class _ none ms _, f, c, N, hN => by
      rw [stmtActs]
      exact Scoped.append (.declare (hN _ (by simp [declaredBy]))) (Scoped.append (.declare trivial) (level_methods ms .plain _)).scope
  | .class _ (some e) ms _, f, c, N, hN => by
      rw [stmtActs]
      exact Scoped.append (.declare (hN _ (by simp [declaredBy]))) (level_superclassActs.append ((level_expr e f .subclass _).append
        (Scoped.append (.declare trivial) (Scoped.append (.declare trivial) (level_methods ms .subclass _)).scope).scope))
  | .expression e, f, c, N, hN => by rw [stmtActs]; exact level_expr e f c _
  | .fun (.mk _ d), f, c, N, hN => by rw [stmtActs]; exact Scoped.append (.declare (hN _ (by simp [declaredBy]))) (level_fun d .plain c _)
  | .if e a none, f, c, N, hN => by rw [stmtActs]; exact (level_expr e f c _).append (level_stmt a f c _ fun x h => hN x (by simp [declaredBy, h]))
  | .if e a (some b), f, c, N, hN => by
      rw [stmtActs]; exact (level_expr e f c _).append ((level_stmt a f c _ fun x h => hN x (by simp [declaredBy, h])).append (level_stmt b f c _ fun x h => hN x (by simp [declaredBy, h])))
  | .print e, f, c, N, hN => by rw [stmtActs]; exact level_expr e f c _
  | .return e _, f, c, N, hN => by rw [stmtActs]; exact level_returnActs.append (level_expr e f c _)
  | .var _ _ e _, f, c, N, hN => by
      rw [stmtActs]; 
      exact Scoped.append (.begin (hN _ (by simp [declaredBy]))) ((level_expr e f c _).append (.declare (hN _ (by simp [declaredBy]))))
  | .while e b, f, c, N, hN => by rw [stmtActs]; exact (level_expr e f c _).append (level_stmt b f c _ fun x h => hN x (by simp [declaredBy, h]))
  | .whileIncrement e b i, f, c, N, hN => by
      rw [stmtActs]; exact (level_expr e f c _).append ((level_stmt b f c _ fun x h => hN x (by simp [declaredBy, h])).append (level_expr i f c _))
theorem level_stmts : ∀ (ss : List Stmt) (f : FunctionAround) (c : ClassAround) (N : Str → Prop), (∀ s ∈ ss, ∀ x ∈ declaredBy s, N x) → Scoped N (stmtsActs f c ss)
  | [], f, c, N, hN => by rw [stmtsActs]; exact .nil
  | s :: ss, f, c, N, hN => by rw [stmtsActs]; exact (level_stmt s f c _ (hN s (by simp))).append (level_stmts ss f c _ fun s h => hN s (by simp [h]))
end

theorem putGlobal_length : (putGlobal x b).length = b.length := by
  induction b with
  | nil => rfl
  | cons s ss ih =>
    cases ss with
    | nil => rfl
    | cons t ts => rw [putGlobal, List.length_cons, ih]; rfl; simp

theorem after_length (hb : b ≠ []) (a : Act) :
    (a.after b).length = match a with | .enter => b.length + 1 | .leave => b.length - 1 | _ => b.length := by
  cases b with
  | nil => exact absurd rfl hb
  | cons s ss =>
    cases a with
    | wrong c => rfl
    | enter => rfl
    | leave => rfl
    | declare y k => rfl
    | begin y k => simp only [Act.after]; split <;> rfl
    | use y k => simp only [Act.after]; split <;> simp [putGlobal_length]
    | read y k => simp only [Act.after]; split <;> simp [putGlobal_length]

/-- Endings that agree. -/
inductive SimEnd (N : Str → Prop) (n : Nat) : Ending → Ending → Prop
  | fine {b b' : Bindings} : b.length = 1 → Similar N n b b' → SimEnd N n (.fine b) (.fine b')
  | fault {c : Cause} {b b' : Bindings} : Similar N n b b' → SimEnd N n (.fault c b) (.fault c b')
  | tooDeep : SimEnd N n .tooDeep .tooDeep

theorem sim_perform : ∀ (as : List Act) (k : Nat) (b b' : Bindings), b.length = k + 1 → depthAfter k as = some 0 →
    (∀ y l, Act.read y l ∈ as → ¬ N y) → Similar N (n + as.length) b b' → SimEnd N n (perform b as) (perform b' as)
  | [], k, b, b', hk, hd, hr, h => by
    simp only [depthAfter, Option.some.injEq] at hd
    exact .fine (by omega) h
  | a :: as, k, b, b', hk, hd, hr, h => by
    have hr' : ∀ y l, Act.read y l ∈ as → ¬ N y := fun y l h => hr y l (List.mem_cons_of_mem _ h)
    have h : Similar N ((n + as.length) + 1) b b' := h
    rw [perform, perform, ← sim_fault h a (fun y l e => hr y l (e ▸ List.mem_cons_self)), ← sim_tooDeep h a]
    cases hf : a.fault b with
    | some c => exact .fault (h.le (by omega))
    | none =>
      cases ht : a.tooDeep b with
      | true => exact .tooDeep
      | false =>
        simp only [Bool.false_eq_true, if_false]
        have hb : b ≠ [] := by intro e; rw [e] at hk; simp at hk
        have hlen := after_length hb a
        cases a with
        | enter => exact sim_perform as (k + 1) _ _ (by simp only at hlen; omega) hd hr' (sim_after h _ (by simp))
        | leave =>
          cases k with
          | zero => simp [depthAfter] at hd
          | succ k => exact sim_perform as k _ _ (by simp only at hlen; omega) hd hr' (sim_after h _ (by omega))
        | declare y l =>
          exact sim_perform as k _ _ (by simp only at hlen; omega) (by cases k <;> exact hd) hr' (sim_after h _ (by simp))
        | begin y l =>
          exact sim_perform as k _ _ (by simp only at hlen; omega) (by cases k <;> exact hd) hr' (sim_after h _ (by simp))
        | read y l =>
          exact sim_perform as k _ _ (by simp only at hlen; omega) (by cases k <;> exact hd) hr' (sim_after h _ (by simp))
        | use y l =>
          exact sim_perform as k _ _ (by simp only at hlen; omega) (by cases k <;> exact hd) hr' (sim_after h _ (by simp))
        | wrong c =>
          exact sim_perform as k _ _ (by simp only at hlen; omega) (by cases k <;> exact hd) hr' (sim_after h _ (by simp))

theorem sim_stmt (s : Stmt) (hb : b.length = 1) (hr : ∀ y l, Act.read y l ∈ stmtActs .nowhere .nowhere s → ¬ N y) (h : Similar N (n + (stmtActs .nowhere .nowhere s).length) b b') :
    SimEnd N n (perform b (stmtActs .nowhere .nowhere s)) (perform b' (stmtActs .nowhere .nowhere s)) := by
  refine sim_perform _ 0 b b' hb ?_ hr h
  have := (level_stmt s .nowhere .nowhere (fun _ => True) fun _ _ => trivial).depth 0 []
  rw [List.append_nil] at this
  rw [this]
  rfl

theorem sim_drop (h : Similar N n b b') : Similar N n (b.drop (b.length - 1)) (b'.drop (b'.length - 1)) := by
  obtain ⟨l, g, g', rfl, rfl, h3, h4, h5⟩ := h
  exact ⟨[], g, g', by simp, by simp, h3, h4, h5⟩

/-- Programs have the same faults, and leave bindings that agree. -/
theorem sim_program : ∀ (sts : List Stmt) (b b' : Bindings), b.length = 1 →
    (∀ y l, Act.read y l ∈ stmtsActs .nowhere .nowhere sts → ¬ N y) →
    Similar N (n + (stmtsActs .nowhere .nowhere sts).length) b b' →
    match programFaults b sts, programFaults b' sts with
    | none, none => True
    | some (es, c), some (es', c') => es = es' ∧ c.length = 1 ∧ Similar N n c c'
    | _, _ => False
  | [], b, b', hb, hr, h => by
    simp only [programFaults]
    exact ⟨trivial, hb, h⟩
  | s :: ss, b, b', hb, hr, h => by
    simp only [stmtsActs, List.mem_append] at hr
    simp only [stmtsActs, List.length_append] at h
    have hs := sim_stmt (n := n + (stmtsActs .nowhere .nowhere ss).length) s hb (fun y l h => hr y l (.inl h)) (h.le (by omega))
    simp only [programFaults]
    generalize perform b (stmtActs .nowhere .nowhere s) = r at hs ⊢
    generalize perform b' (stmtActs .nowhere .nowhere s) = r' at hs ⊢
    cases hs with
    | fine hl hs => exact sim_program ss _ _ hl (fun y l h => hr y l (.inr h)) hs
    | fault hs =>
      rename_i c d d'
      have hd := sim_drop hs
      have hl : (d.drop (d.length - 1)).length = 1 := by
        obtain ⟨l, g, g', rfl, rfl, _⟩ := hs
        simp
      have ih := sim_program ss _ _ hl (fun y l h => hr y l (.inr h)) hd
      dsimp only
      generalize programFaults (d.drop (d.length - 1)) ss = q at ih ⊢
      generalize programFaults (d'.drop (d'.length - 1)) ss = q' at ih ⊢
      cases q with
      | none => cases q' with
        | none => trivial
        | some _ => exact ih
      | some p => cases q' with
        | none => exact ih
        | some p' =>
          obtain ⟨h1, h2, h3⟩ := ih
          exact ⟨by rw [h1], h2, h3⟩
    | tooDeep => trivial

/-! ### What a program leaves -/

theorem sameDeclared_refl : SameDeclared N g g := fun _ _ _ _ => Iff.rfl
theorem SameDeclared.trans {g'' : List (Str × Status)} (h : SameDeclared N g g') (h' : SameDeclared N g' g'') :
    SameDeclared N g g'' := fun x st hn hu => (h x st hn hu).trans (h' x st hn hu)
theorem SameDeclared.mono (h : SameDeclared N g g') (hm : ∀ x, N x → M x) : SameDeclared M g g' :=
  fun x st hn hu => h x st (fun h => hn (hm x h)) hu
theorem put_keeps (hx : N x) : SameDeclared N g (put x st g) := by
  intro y st' hn _
  rw [mem_put]
  have : y ≠ x := fun e => hn (e ▸ hx)
  simp [this]

theorem perform_then (b : Bindings) (as as' : List Act) :
    perform b (as ++ as') = match perform b as with | .fine b' => perform b' as' | r => r := by
  induction as generalizing b with
  | nil => rfl
  | cons a as ih =>
    simp only [List.cons_append, perform]
    cases a.fault b with
    | some c => rfl
    | none =>
      dsimp only
      split
      · rfl
      · exact ih _

/-- The bindings `b` come from `locals ++ [g]` by `n` acts, with as many scopes, or at least as many if
there was a fault. -/
def Leaves (N : Str → Prop) (locals : Bindings) (g : List (Str × Status)) (n : Nat) : Ending → Prop
  | .fine b => ∃ locals' g', b = locals' ++ [g'] ∧ locals'.length = locals.length ∧
      SameDeclared (fun x => locals = [] ∧ N x) g g' ∧ g'.length ≤ g.length + n
  | .fault _ b => ∃ locals' g', b = locals' ++ [g'] ∧ SameDeclared (fun x => locals = [] ∧ N x) g g' ∧ g'.length ≤ g.length + n
  | .tooDeep => True

theorem leaves_one {l : Bindings} {a : Act} (hd : a.tooDeep (l ++ [g]) = false)
    (h : ∃ locals' g', a.after (l ++ [g]) = locals' ++ [g'] ∧ locals'.length = l.length ∧
      SameDeclared (fun x => l = [] ∧ N x) g g' ∧ g'.length ≤ g.length + 1) : Leaves N l g 1 (perform (l ++ [g]) [a]) := by
  simp only [perform]
  cases a.fault (l ++ [g]) with
  | some c => exact ⟨l, g, rfl, sameDeclared_refl, by omega⟩
  | none =>
    dsimp only
    rw [hd]
    exact h

theorem after_use {l : Bindings} :
    ∃ l' g', (if IsBound (l ++ [g]) x then l ++ [g] else putGlobal x (l ++ [g])) = l' ++ [g'] ∧ l'.length = l.length ∧
      SameDeclared N g g' ∧ g'.length ≤ g.length + 1 := by
  rw [putGlobal_last]
  split
  · exact ⟨l, g, rfl, rfl, sameDeclared_refl, by omega⟩
  · exact ⟨l, _, rfl, rfl, sameDeclared_symm (sameDeclared_used sameDeclared_refl), by simp⟩

theorem level_leaves {as : List Act} (h : Scoped N as) : ∀ (l : Bindings) (g : List (Str × Status)),
    Leaves N l g as.length (perform (l ++ [g]) as) := by
  induction h with
  | nil => exact fun l g => ⟨l, g, rfl, rfl, sameDeclared_refl, by omega⟩
  | @append N as as' _ _ ih ih' =>
    intro l g
    rw [perform_then]
    have h1 := ih l g
    generalize perform (l ++ [g]) as = r at h1 ⊢
    cases r with
    | fine b =>
      obtain ⟨l1, g1, rfl, e1, s1, n1⟩ := h1
      have h2 := ih' l1 g1
      have hl : l1 = [] ↔ l = [] := by rw [← List.length_eq_zero_iff, e1, List.length_eq_zero_iff]
      dsimp only
      generalize perform (l1 ++ [g1]) as' = r at h2 ⊢
      cases r with
      | fine b =>
        obtain ⟨l2, g2, rfl, e2, s2, n2⟩ := h2
        exact ⟨l2, g2, rfl, by omega, s1.trans (s2.mono fun x h => ⟨hl.mp h.1, h.2⟩), by simp; omega⟩
      | fault c b =>
        obtain ⟨l2, g2, rfl, s2, n2⟩ := h2
        exact ⟨l2, g2, rfl, s1.trans (s2.mono fun x h => ⟨hl.mp h.1, h.2⟩), by simp; omega⟩
      | tooDeep => trivial
    | fault c b =>
      obtain ⟨l1, g1, rfl, s1, n1⟩ := h1
      exact ⟨l1, g1, rfl, s1, by simp; omega⟩
    | tooDeep => trivial
  | @scope N as _ ih =>
    intro l g
    rw [perform]
    simp only [Act.fault]
    split
    · trivial
    · have h1 := ih ([] :: l) g
      change Leaves N l g _ (perform (([] :: l) ++ [g]) (as ++ [.leave]))
      rw [perform_then]
      generalize perform (([] :: l) ++ [g]) as = r at h1 ⊢
      cases r with
      | fine b =>
        obtain ⟨l1, g1, rfl, e1, s1, n1⟩ := h1
        cases l1 with
        | nil => simp at e1
        | cons s l1 =>
          exact ⟨l1, g1, rfl, by simpa using e1, s1.mono fun x h => absurd h.1 (by simp), by simp; omega⟩
      | fault c b =>
        obtain ⟨l1, g1, rfl, s1, n1⟩ := h1
        exact ⟨l1, g1, rfl, s1.mono fun x h => absurd h.1 (by simp), by simp; omega⟩
      | tooDeep => trivial
  | @declare N x loc hx =>
    intro l g
    refine leaves_one rfl ?_
    cases l with
    | nil => exact ⟨[], _, rfl, rfl, put_keeps ⟨rfl, hx⟩, put_length⟩
    | cons s ss => exact ⟨_ :: ss, g, rfl, rfl, sameDeclared_refl, by omega⟩
  | @begin N x loc hx =>
    intro l g
    refine leaves_one rfl ?_
    cases l with
    | nil =>
      simp only [List.nil_append, Act.after]
      split
      · exact ⟨[], g, rfl, rfl, sameDeclared_refl, by omega⟩
      · exact ⟨[], _, rfl, rfl, put_keeps ⟨trivial, hx⟩, put_length⟩
    | cons s ss =>
      simp only [List.cons_append, Act.after]
      split
      · exact ⟨s :: ss, g, rfl, rfl, sameDeclared_refl, by omega⟩
      · exact ⟨_ :: ss, g, rfl, rfl, sameDeclared_refl, by omega⟩
  | read => exact fun l g => leaves_one rfl (by cases l <;> exact after_use)
  | use => exact fun l g => leaves_one rfl (by cases l <;> exact after_use)
  | wrong => exact fun l g => ⟨l, g, rfl, sameDeclared_refl, by simp⟩

/-- A program declares its global names, and no others, whether it has faults or not. -/
theorem program_leaves : ∀ (sts : List Stmt) (g : List (Str × Status)) (es : List Cause) (c : Bindings),
    programFaults [g] sts = some (es, c) → ∃ g', c = [g'] ∧ SameDeclared (DeclaresGlobal sts) g g' ∧
      g'.length ≤ g.length + (stmtsActs .nowhere .nowhere sts).length
  | [], g, es, c, h => by
    simp only [programFaults, Option.some.injEq, Prod.mk.injEq] at h
    exact ⟨g, h.2.symm, sameDeclared_refl, by omega⟩
  | s :: ss, g, es, c, h => by
    have hl := level_leaves (level_stmt s .nowhere .nowhere (fun x => x ∈ declaredBy s) fun _ h => h) [] g
    simp only [programFaults] at h
    simp only [List.nil_append] at hl
    have hm : ∀ x, ([] : Bindings) = [] ∧ x ∈ declaredBy s → DeclaresGlobal (s :: ss) x :=
      fun x h => ⟨s, List.mem_cons_self, h.2⟩
    have hm' : ∀ x, DeclaresGlobal ss x → DeclaresGlobal (s :: ss) x :=
      fun x ⟨s', h, h'⟩ => ⟨s', List.mem_cons_of_mem _ h, h'⟩
    simp only [stmtsActs, List.length_append]
    generalize perform [g] (stmtActs .nowhere .nowhere s) = r at hl h
    cases r with
    | fine b =>
      obtain ⟨l1, g1, rfl, e1, s1, n1⟩ := hl
      have : l1 = [] := List.length_eq_zero_iff.mp e1
      subst this
      obtain ⟨g2, rfl, s2, n2⟩ := program_leaves ss g1 es c h
      exact ⟨g2, rfl, (s1.mono hm).trans (s2.mono hm'), by omega⟩
    | fault e b =>
      obtain ⟨l1, g1, rfl, s1, n1⟩ := hl
      simp only [List.length_append, List.length_cons, List.length_nil, Nat.add_sub_cancel, List.drop_left, Option.map_eq_some_iff] at h
      obtain ⟨⟨es', c'⟩, h, he⟩ := h
      cases he
      obtain ⟨g2, rfl, s2, n2⟩ := program_leaves ss g1 es' c' h
      exact ⟨g2, rfl, (s1.mono hm).trans (s2.mono hm'), by omega⟩
    | tooDeep => cases h

/-- The names after one more program. -/
def nextBindings (b : Bindings) (sts : List Stmt) : Bindings :=
  match programFaults b sts with
  | some (_, b') => b'
  | none => b

theorem next_global (sts : List Stmt) (g : List (Str × Status)) : ∃ g', nextBindings [g] sts = [g'] ∧
    SameDeclared (DeclaresGlobal sts) g g' ∧ g'.length ≤ g.length + (stmtsActs .nowhere .nowhere sts).length := by
  unfold nextBindings
  cases h : programFaults [g] sts with
  | none => exact ⟨g, rfl, sameDeclared_refl, by omega⟩
  | some p => exact program_leaves sts g p.1 p.2 h

theorem bindingsOf_foldl (history : List (List Stmt)) : bindingsOf history = history.foldl nextBindings [[]] := rfl

theorem foldl_global (history : List (List Stmt)) (g : List (Str × Status)) :
    ∃ g', history.foldl nextBindings [g] = [g'] ∧ g'.length ≤ g.length + actsOf history := by
  induction history generalizing g with
  | nil => exact ⟨g, rfl, by simp [actsOf]⟩
  | cons sts rest ih =>
    obtain ⟨g1, e1, _, n1⟩ := next_global sts g
    obtain ⟨g2, e2, n2⟩ := ih g1
    exact ⟨g2, by rw [List.foldl_cons, e1, e2], by simp only [actsOf]; omega⟩

theorem sim_foldl : ∀ (later : List (List Stmt)) (b b' : Bindings), b.length = 1 →
    (∀ sts ∈ later, ∀ y l, Act.read y l ∈ stmtsActs .nowhere .nowhere sts → ¬ N y) →
    Similar N (n + actsOf later) b b' → (later.foldl nextBindings b).length = 1 ∧
      Similar N n (later.foldl nextBindings b) (later.foldl nextBindings b')
  | [], b, b', hb, _, h => ⟨hb, h⟩
  | sts :: later, b, b', hb, hr, h => by
    simp only [actsOf] at h
    have hp := sim_program (n := n + actsOf later) sts b b' hb (hr sts (by simp)) (h.le (by omega))
    simp only [List.foldl_cons]
    have : (nextBindings b sts).length = 1 ∧ Similar N (n + actsOf later) (nextBindings b sts) (nextBindings b' sts) := by
      unfold nextBindings
      generalize programFaults b sts = r at hp ⊢
      generalize programFaults b' sts = r' at hp ⊢
      cases r with
      | none => cases r' with
        | none => exact ⟨hb, h.le (by omega)⟩
        | some _ => exact hp.elim
      | some p => cases r' with
        | none => exact hp.elim
        | some p' => exact hp.2
    exact sim_foldl later _ _ this.1 (fun sts h => hr sts (by simp [h])) this.2

theorem actsOf_append (a b : List (List Stmt)) : actsOf (a ++ b) = actsOf a + actsOf b := by
  induction a with
  | nil => simp [actsOf]
  | cons s a ih => simp only [List.cons_append, actsOf, ih]; omega

/-- With a program `bad` in the history or without it, a program has the same faults, if neither it nor
the programs after `bad` read a name that `bad` declares. -/
theorem faults_without (history later : List (List Stmt)) (bad sts : List Stmt)
    (hr : ∀ p ∈ later ++ [sts], ∀ x, DeclaresGlobal bad x → ¬ ReadsName p x)
    (hn : actsOf (history ++ [bad] ++ later ++ [sts]) ≤ 65536) :
    (programFaults (bindingsOf (history ++ [bad] ++ later)) sts).map Prod.fst =
      (programFaults (bindingsOf (history ++ later)) sts).map Prod.fst := by
  simp only [actsOf_append, actsOf] at hn
  simp only [bindingsOf_foldl, List.foldl_append, List.foldl_cons, List.foldl_nil]
  obtain ⟨g, e, n1⟩ := foldl_global history []
  obtain ⟨g', e', s', n2⟩ := next_global bad g
  rw [e, e']
  simp only [List.length_nil] at n1
  have hsim : Similar (DeclaresGlobal bad) ((0 + (stmtsActs .nowhere .nowhere sts).length) + actsOf later) [g'] [g] :=
    ⟨[], g', g, rfl, rfl, sameDeclared_symm s', by omega, by omega⟩
  obtain ⟨h1, h2⟩ := sim_foldl later _ _ rfl (fun p hp y l h hd => hr p (by simp [hp]) y hd ⟨l, h⟩) hsim
  have := sim_program sts _ _ h1 (fun y l h hd => hr sts (by simp) y hd ⟨l, h⟩) h2
  generalize programFaults _ sts = r at this ⊢
  generalize programFaults _ sts = r' at this ⊢
  cases r with
  | none => cases r' with
    | none => rfl
    | some _ => exact this.elim
  | some p => cases r' with
    | none => exact this.elim
    | some p' => exact congrArg some this.1

end Ws
