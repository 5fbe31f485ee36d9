import Mathlib.Data.Real.Basic
import Mathlib.Algebra.Order.BigOperators.Group.List
import Mathlib.Algebra.BigOperators.Group.List.Basic

/-!
# Residuals, their scaling, and the checks of an assembled system

Models `TpetraLinearSystem::checkForZeroRow` (/repo/src/TpetraLinearSystem.C:1881-1966), the residual part of `TpetraLinearSystem::solve` (lines 1821-1844)
with `EquationSystem::pre_timestep_work` (/repo/src/EquationSystem.C:142-146), the segregated solves of the mass fractions
(/repo/src/MassFractionEquationSystem.C:658-785, 827-856) and the iteration of the radiative transport equation
(/repo/src/pmr/RadiativeTransportEquationSystem.C:827-940).

Arithmetic is exact; what a linear solve returns is arbitrary.
-/

namespace Nalu.Residual

variable {K : Type*} [Field K] [LinearOrder K]

/-! ## The search for zero rows -/

/-- A row of the owned matrix of a rank: global number (from 1) and the stored values. -/
structure Row (K : Type*) where
  gid : ℕ
  vals : List K

/-- The inner loop (TpetraLinearSystem.C:1911-1914). -/
def rowSum (r : Row K) : K := r.vals.foldl (fun s v => s + |v|) 0

/-- `local_row_sums` (lines 1907-1921): the entry of a row is assigned. -/
def localSums (rows : List (Row K)) : ℕ → K := rows.foldl (fun f r => Function.update f (r.gid - 1) (rowSum r)) fun _ => 0

/-- `local_row_exists`. -/
def localExists (rows : List (Row K)) : ℕ → Bool := rows.foldl (fun f r => Function.update f (r.gid - 1) true) fun _ => false

/-- `g_max_gid` (lines 1893-1899). -/
def maxGid (ranks : List (List (Row K))) : ℕ := (ranks.map fun rows => rows.foldl (fun m r => max r.gid m) 0).foldl max 0

/-- `nrowG` and the bound check: a rank throws on a row with number 0 or beyond the arrays (lines 1901, 1915-1918). -/
def badGid (nrowG : ℕ) (rows : List (Row K)) : Bool := rows.any fun r => decide (r.gid - 1 ≥ nrowG ∨ r.gid = 0)

/-- `checkForZeroRow(true, false, _)` as seen by rank `me`; `none` = "bad gid" (lines 1881-1966).  The sums and the existence flags are reduced over the
ranks; only rank 0 looks at them. -/
def zeroRow (tol : K) (ranks : List (List (Row K))) (me : ℕ) : Option Bool :=
  let nrowG := maxGid ranks + 1
  if badGid nrowG (ranks.getD me []) then none
  else some ((List.range nrowG).any fun ii =>
    (ranks.any fun rows => localExists rows ii) && decide (me = 0) && decide ((ranks.map fun rows => localSums rows ii).sum < tol))

/-- `GID_` (the number of a degree of freedom, TpetraLinearSystem.C:70-74) and what the message makes of a row number (lines 75-76). -/
def gidOf (node numDof idof : ℕ) : ℕ := numDof * (node - 1) + idof + 1
/-- `GLOBAL_ENTITY_ID` (line 75). -/
def nodeOf (gid numDof : ℕ) : ℕ := (gid - 1) / numDof + 1
/-- `GLOBAL_ENTITY_ID_IDOF` (line 76). -/
def dofOf (gid numDof : ℕ) : ℕ := (gid - 1) % numDof

/-! ## The residual of an equation system -/

/-- What happens to an equation system. -/
inductive Ev (K : Type*)
  /-- `pre_timestep_work` -/
  | step
  /-- a `solve` with this norm of the right-hand side -/
  | solve (norm : K)

/-- `firstTimeStepSolve_`, `firstNonLinearResidual_`, `nonLinearResidual_`, `scaledNonLinearResidual_`. -/
structure LS (K : Type*) where
  flag : Bool
  first : K
  res : K
  scaled : K

/-- One event: EquationSystem.C:145 and TpetraLinearSystem.C:1822-1844; `l2` is `l2Scaling_`, `eps` the machine epsilon. -/
def LS.ev (l2 eps : K) (s : LS K) : Ev K → LS K
  | .step => { s with flag := true }
  | .solve n =>
    let res := l2 * n
    let first := if s.flag then res else s.first
    ⟨false, first, res, res / max eps first⟩

/-- A history; the constructors set the flag and the values 1e8 (EquationSystem.C:61, LinearSystem.C:58-60). -/
def LS.run (l2 eps : K) (l : List (Ev K)) : LS K := l.foldl (LS.ev l2 eps) ⟨true, 100000000, 100000000, 100000000⟩

/-! ## The mass fractions -/

/-- Field values of the mass fractions: the values at n+1, n and n-1 of every species and their boundary values. -/
structure Species (n : ℕ) (V : Type*) where
  np1 : Fin n → V
  nS : Fin n → V
  nm1 : Fin n → V
  bc : Fin n → V

/-- The "current" scalar fields. -/
structure Current (V : Type*) where
  np1 : V
  nS : V
  nm1 : V
  bc : V

/-- `set_current_mass_fraction` (MassFractionEquationSystem.C:660-690), three time states. -/
def setCurrent {n : ℕ} {V : Type*} (y : Species n V) (k : Fin n) : Current V := ⟨y.np1 k, y.nS k, y.nm1 k, y.bc k⟩

/-- The loop over the first `n-1` species (lines 727-757): `solver` returns the increment and the residual, from the current fields and all fields. -/
def sweep {n : ℕ} {V : Type*} [Add V] (solver : Fin n → Current V → Species n V → V × K) : List (Fin n) → Species n V × K → Species n V × K
  | [], s => s
  | k :: r, (y, sum) =>
    let c := setCurrent y k
    let d := solver k c y
    let c := { c with np1 := d.1 + c.np1 }
    sweep solver r ({ y with np1 := Function.update y.np1 k c.np1 }, sum + d.2)

/-- `nonLinearResidualSum_` and `firstNonLinearResidualSum_`. -/
structure Norms (K : Type*) where
  sum : K
  first : K

/-- One of the `maxIterations_` passes as far as the norms go (lines 766-771): `res` are the residuals of the species, `iter` is
`currentNonlinearIteration_`. -/
def mfPass (iter : ℕ) (s : Norms K) (res : List K) : Norms K :=
  let sum := res.foldl (· + ·) 0 / (res.length : K)
  ⟨sum, if iter = 1 then sum else s.first⟩

/-- `solve_and_update` as far as the norms go: the residuals of the species per pass. -/
def mfSolve (iter : ℕ) (s : Norms K) (passes : List (List K)) : Norms K := passes.foldl (mfPass iter) s

/-- The nonlinear iterations of a time step, numbered from 1 (Realm.C:1722). -/
def mfStep : ℕ → Norms K → List (List (List K)) → Norms K
  | _, s, [] => s
  | i, s, p :: r => mfStep (i + 1) (mfSolve i s p) r

/-- `system_is_converged` (lines 830-838); a division by zero gives infinity or not-a-number, which is not below the tolerance. -/
def mfConverged (tol : K) (s : Norms K) : Bool := if s.first = 0 then false else decide (s.sum / s.first < tol)

/-! ## Radiative transport -/

/-- State: whether the step's first solve is still to come, and the reference residual. -/
structure Rad (K : Type*) where
  flag : Bool
  first : K

/-- `solve_and_update` as far as the norms go (RadiativeTransportEquationSystem.C:842-925): `f i` are the mean residual of the ordinates and the change of
the scalar flux in pass `i`; `m` passes are left.  Result: state, number of passes made, whether it stopped because it converged. -/
def radLoop (tol eps : K) (f : ℕ → K × K) : ℕ → ℕ → Rad K → Rad K × ℕ × Bool
  | 0, i, s => (s, i, false)
  | m + 1, i, s =>
    let first := if s.flag then max eps (f i).1 else s.first
    let s : Rad K := ⟨false, first⟩
    if min ((f i).1 / first) (f i).2 < tol then (s, i + 1, true) else radLoop tol eps f m (i + 1) s

/-- A call of `solve_and_update` with at most `m` passes. -/
def radSolve (tol eps : K) (m : ℕ) (s : Rad K) (f : ℕ → K × K) : Rad K × ℕ × Bool := radLoop tol eps f m 0 s

end Nalu.Residual
