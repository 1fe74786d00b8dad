import Verif.Proofs.Resolve.ScopeNames
import Verif.Properties.Resolver
/-! C36, exactly: when variables of a scope share a slot. -/
namespace Ws.Properties
open Ws Spec

variable {sts sts' : List Stmt} {rs rs' : Resolver}

theorem program_final (hs : Session rs) (h : rs.resolve sts = .done (.ok sts', rs')) :
    Final 1 [0] [globals rs] (stmtsEvents sts') (programNames (globals rs) sts') :=
  scopeNames_final _ 1 [0] [globals rs] rfl (by simp) (by simp) (by simpa using session_nodup hs) (fresh_stmts sts')
    (locations hs h)

/-- C36, exactly: the names of a scope are different, and the slot of every use and declaration of a variable is
the place of its name among the names of its scope, modulo 256. -/
theorem slots_exact (hs : Session rs) (h : rs.resolve sts = .done (.ok sts', rs')) :
    (∀ i, (programNames (globals rs) sts' i).Nodup) ∧
    ∀ r ∈ programRefs sts', ∃ i k : Nat, r.scope = some i ∧ (programNames (globals rs) sts' i)[k]? = some r.name ∧
      r.slot = k % 256 := by
  have F := program_final hs h
  refine ⟨F.nodup, fun r hr => ?_⟩
  obtain ⟨i, h1, k, h2, h3⟩ := F.ref r hr
  exact ⟨i, k, h1, h2, h3⟩

/-- C36: two different variables of a scope share a slot if and only if their names are a multiple of 256 places
apart. -/
theorem slots_shared_iff (hs : Session rs) (h : rs.resolve sts = .done (.ok sts', rs')) {r r' : Ref} {i k k' : Nat}
    (hr : r ∈ programRefs sts') (hr' : r' ∈ programRefs sts') (hi : r.scope = some i) (hi' : r'.scope = some i)
    (hk : (programNames (globals rs) sts' i)[k]? = some r.name)
    (hk' : (programNames (globals rs) sts' i)[k']? = some r'.name) :
    r.slot = r'.slot ↔ k % 256 = k' % 256 := by
  obtain ⟨nd, F⟩ := slots_exact hs h
  have place : ∀ {r : Ref} {k : Nat}, r ∈ programRefs sts' → r.scope = some i →
      (programNames (globals rs) sts' i)[k]? = some r.name → r.slot = k % 256 := by
    intro r k hr hi hk
    obtain ⟨j, l, h1, h2, h3⟩ := F r hr
    rw [hi] at h1
    cases h1
    have := (List.getElem?_inj (List.getElem?_eq_some_iff.mp hk).1 (nd i)).mp (hk.trans h2.symm)
    rw [h3, this]
  rw [place hr hi hk, place hr' hi' hk']

example : programNames [] scopingTree 0 = [c!"a", c!"b", c!"f", c!"c"] ∧
    programNames [] scopingTree 1 = [c!"x", c!"y", c!"g"] ∧ programNames [] scopingTree 2 = [] := by
  refine ⟨by by_kernel, by by_kernel, by by_kernel⟩

/-- The hypotheses are met by 257 different globals: the first and the last of them are 256 places apart. -/
example : ∃ rs', Resolver.new.resolve many = .done (.ok ((List.range 257).map fun n =>
      .var [Char.ofNat (19968 + n)] ⟨if n = 256 then 0 else n⟩ .literalNil ⟨n + 1, 5⟩), rs') := by
  have h := slots_alias
  unfold resolve at h
  simp only [bind, Outcome.bind] at h
  cases hr : Resolver.new.resolve many with
  | done q =>
    obtain ⟨r, rs'⟩ := q
    rw [hr] at h
    cases h
    exact ⟨rs', rfl⟩
  | panic m => rw [hr] at h; cases h
  | diverge => rw [hr] at h; cases h
example : (programNames [] many 0)[0]? = some [Char.ofNat 19968] ∧ (programNames [] many 0)[256]? = some [Char.ofNat 20224] := by
  refine ⟨by by_kernel, by by_kernel⟩

end Ws.Properties
