import Mathlib.Data.Real.Basic
import Mathlib.Data.List.FinRange

/-!
# Model of the checks of a linear system in debug mode

Models `TpetraLinearSystem::checkForNaN` and `checkForZeroRow` and their use in `solve`
(`/repo/src/TpetraLinearSystem.C:1781-1793, 1849-1968`). A `double` is `Option ℝ`: `none` is a NaN (infinities
are not modelled). The collective operations of MPI and the Tpetra row view are trusted.
-/

namespace Nalu.DebugCheck

/-- What a process holds: its owned rows, each with its global id and its values, and its right-hand side. -/
structure Proc where
  rows : List (ℕ × List (Option ℝ))
  rhs : List (Option ℝ)

/-- `checkForNaN` throws (TpetraLinearSystem.C:1858-1880): `x != x`. -/
noncomputable def nanThrows (p : Proc) : Bool :=
  p.rows.any (fun r => r.2.any fun v => v.isNone) || p.rhs.any fun v => v.isNone

/-- Floating point addition. -/
def add : Option ℝ → Option ℝ → Option ℝ
  | some a, some b => some (a + b)
  | _, _ => none

/-- `row_sum` (TpetraLinearSystem.C:1911-1914). -/
noncomputable def rowSum (vals : List (Option ℝ)) : Option ℝ :=
  vals.foldl (fun s v => add s (v.map fun x => |x|)) (some 0)

/-- The local arrays after the loop over the rows (TpetraLinearSystem.C:1907-1921). -/
noncomputable def localSums (p : Proc) : ℕ → Option ℝ :=
  p.rows.foldl (fun f r => Function.update f (r.1 - 1) (rowSum r.2)) fun _ => some 0

def localExists (p : Proc) : ℕ → Bool :=
  p.rows.foldl (fun f r => Function.update f (r.1 - 1) true) fun _ => false

/-- `max_gid` (TpetraLinearSystem.C:1895-1898). -/
def maxGid (p : Proc) : ℕ := p.rows.foldl (fun m r => max r.1 m) 0

section
variable {P : ℕ} (procs : Fin P → Proc)

/-- The reductions (TpetraLinearSystem.C:1899-1901, 1923-1924). -/
def nrowG : ℕ := (List.finRange P).foldl (fun m r => max m (maxGid (procs r))) 0 + 1
noncomputable def globalSums (ii : ℕ) : Option ℝ := (List.finRange P).foldl (fun s r => add s (localSums (procs r) ii)) (some 0)
def globalExists (ii : ℕ) : Bool := (List.finRange P).any fun r => localExists (procs r) ii

/-- `row_sum < 1.e-10`, false for a NaN. -/
def small : Option ℝ → Prop
  | some s => s < 1 / 10000000000
  | none => False

/-- `found` on a process (TpetraLinearSystem.C:1926-1961): only the first one looks. -/
def found (rank : Fin P) : Prop := ∃ ii < nrowG procs, globalExists procs ii = true ∧ (rank : ℕ) = 0 ∧ small (globalSums procs ii)

/-- Where a process is after the checks. -/
inductive State
  | threw
  | waiting
  | solving
  deriving DecidableEq

open Classical in
/-- The checks of `solve` (TpetraLinearSystem.C:1787-1793): a process whose own entries have a NaN throws; the others come
to the first reduction of `checkForZeroRow` and stay there unless all processes do. -/
noncomputable def after (rank : Fin P) : State :=
  if nanThrows (procs rank) then .threw
  else if ∃ r, nanThrows (procs r) = true then .waiting
  else if found procs rank then .threw
  else .solving

end

end Nalu.DebugCheck
