import Mathlib.Algebra.Order.Field.Basic
import Mathlib.Algebra.BigOperators.Intervals

/-!
# Model of the table interpolation and of the dense LU solver

A `std::vector<T>` is a pair of its size `n` and an indexing function on `ℕ`; reads outside
`[0,n)` do not occur (this is part of the proofs: the index returned by `find_index` satisfies
`j + 1 < n`).
-/

namespace Verif.Numerics

/-- `OutOfBounds::boundLimits`, include/utils/LinearInterpolation.h:15-19. -/
inductive Limit | lowlim | uplim | valid
  deriving DecidableEq

/-- `OutOfBounds::OobAction`, include/utils/LinearInterpolation.h:22-27. -/
inductive Oob | error | warn | clamp | extrapolate
  deriving DecidableEq

section Interp
variable {K : Type*} [Field K] [LinearOrder K]

/-- include/utils/LinearInterpolation.h:43-61 `check_bounds`; `none` is the thrown exception. -/
def checkBounds (n : ℕ) (xs : ℕ → K) (x : K) : Option (Limit × ℕ) :=
  if n < 2 then none
  else if x < xs 0 then some (.lowlim, 0)
  else if xs (n - 1) < x then some (.uplim, n - 1)
  else some (.valid, 0)

/-- The search loop of include/utils/LinearInterpolation.h:79-84, starting at index `i` with `left`
iterations left; `0` (the initial `idx.second`) if no entry is found. -/
def findLoop (xs : ℕ → K) (x : K) : ℕ → ℕ → ℕ
  | 0, _ => 0
  | left + 1, i => if x ≤ xs i then i - 1 else findLoop xs x left (i + 1)

/-- include/utils/LinearInterpolation.h:70-87 `find_index`. -/
def findIndex (n : ℕ) (xs : ℕ → K) (x : K) : Option (Limit × ℕ) :=
  match checkBounds n xs x with
  | none => none
  | some (.valid, _) => some (.valid, findLoop xs x (n - 1) 1)
  | some r => some r

/-- include/utils/LinearInterpolation.h:92-140 `linear_interp`; `none` is a thrown exception
(fewer than two entries, or out of bounds with `ERROR`).  The warning text is not modelled. -/
def linearInterp (n : ℕ) (xs ys : ℕ → K) (x : K) (oob : Oob) : Option K :=
  match findIndex n xs x with
  | none => none
  | some (.valid, j) =>
    let fac := (x - xs j) / (xs (j + 1) - xs j)
    some ((1 - fac) * ys j + fac * ys (j + 1))
  | some (_, ii) =>
    match oob with
    | .error => none
    | .warn => some (ys ii)
    | .clamp => some (ys ii)
    | .extrapolate =>
      let ii := if ii + 1 = n then ii - 1 else ii
      some (ys ii + (ys (ii + 1) - ys ii) / (xs (ii + 1) - xs ii) * (x - xs ii))

end Interp

section LU
variable {K : Type*} [Field K]

/-- Dense storage `AA_` of src/tabular_props/LU.C:78-88 (`SparseMatrix` "for now, store densely"). -/
abbrev Mat (K : Type*) := ℕ → ℕ → K

/-- `AA_(i,j) = v`. -/
def Mat.set (A : Mat K) (i j : ℕ) (v : K) : Mat K :=
  fun a b => if a = i ∧ b = j then v else A a b

/-- `double sumterm = s; for (k = a; k < b; k++) sumterm -= f(k);`
(src/tabular_props/LU.C:32-33, :37-38, :59-62, :69-71). -/
def subLoop (a b : ℕ) (s : K) (f : ℕ → K) : K :=
  (List.range' a (b - a)).foldl (fun s k => s - f k) s

/-- Body of both row loops of src/tabular_props/LU.C:31-40:
`AA_(i,j) -= Σ_{k<m} AA_(i,k)*AA_(k,j)`. -/
def luEntry (j m : ℕ) (A : Mat K) (i : ℕ) : Mat K :=
  A.set i j (subLoop 0 m (A i j) fun k => A i k * A k j)

/-- One pass of the column loop, src/tabular_props/LU.C:30-45. -/
def luColumn (dim : ℕ) (A : Mat K) (j : ℕ) : Mat K :=
  let A1 := (List.range j).foldl (fun A i => luEntry j i A i) A
  let A2 := (List.range' j (dim - j)).foldl (fun A i => luEntry j j A i) A1
  let tmp := 1 / A2 j j
  if j + 1 < dim then
    (List.range' (j + 1) (dim - (j + 1))).foldl (fun A i => A.set i j (A i j * tmp)) A2
  else A2

/-- src/tabular_props/LU.C:25-47 `LU::decompose`. -/
def luDecompose (dim : ℕ) (A : Mat K) : Mat K := (List.range dim).foldl (luColumn dim) A

/-- The body of the back-substitution loop at row `i`, src/tabular_props/LU.C:67-73: `rhs[i]` is
assigned inside the `j` loop. -/
def backRow (dim : ℕ) (A : Mat K) (r : ℕ → K) (i : ℕ) : ℕ → K :=
  ((List.range' (i + 1) (dim - (i + 1))).foldl
    (fun (sr : K × (ℕ → K)) j =>
      let s := sr.1 - A i j * sr.2 j
      (s, Function.update sr.2 i (s / A i i)))
    (r i, r)).2

/-- src/tabular_props/LU.C:49-75 `LU::back_subs` (after the readiness check). -/
def backSubs (dim : ℕ) (A : Mat K) (rhs : ℕ → K) : ℕ → K :=
  let fwd := (List.range' 1 (dim - 1)).foldl
    (fun r i => Function.update r i (subLoop 0 i (r i) fun j => A i j * r j)) rhs
  let r1 := Function.update fwd (dim - 1) (fwd (dim - 1) / A (dim - 1) (dim - 1))
  (List.range (dim - 1)).reverse.foldl (backRow dim A) r1

/-- The object: `isReady_` flag and storage, src/tabular_props/LU.C:14-19. -/
structure LUObj (K : Type*) where
  dim : ℕ
  ready : Bool
  AA : Mat K

/-- `LU::decompose`, src/tabular_props/LU.C:25-47. -/
def LUObj.decompose (o : LUObj K) : LUObj K := ⟨o.dim, true, luDecompose o.dim o.AA⟩

/-- `LU::back_subs`, src/tabular_props/LU.C:49-75; `none` is the thrown exception. -/
def LUObj.backSubs (o : LUObj K) (rhs : ℕ → K) : Option (ℕ → K) :=
  if o.ready then some (Numerics.backSubs o.dim o.AA rhs) else none

end LU

end Verif.Numerics
