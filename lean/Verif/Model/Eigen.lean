import Mathlib.Analysis.SpecialFunctions.Sqrt
import Mathlib.Data.Matrix.Mul
import Mathlib.LinearAlgebra.Matrix.Notation
import Mathlib.LinearAlgebra.Matrix.Determinant.Basic

/-!
Model of the symmetric eigen-decomposition (`src/EigenDecomposition.C`) and of its
only client, the eigenvalue-perturbed heat-flux model of
`src/AssembleScalarEigenEdgeSolverAlgorithm.C`.

Arithmetic is exact real arithmetic: `double` rounding is not modelled.  A division by
zero is Lean's `x / 0 = 0`; the theorems say where the code divides by something nonzero.
-/

namespace Nalu.Eigen

open Matrix
open scoped Classical

noncomputable section

/-- A `double[2][2]`. -/
abbrev M2 := Matrix (Fin 2) (Fin 2) ℝ
/-- A `double[3][3]`. -/
abbrev M3 := Matrix (Fin 3) (Fin 3) ℝ

/-- What `sym_diagonalize` writes: `Q` and `D`. -/
structure Out (M : Type) where
  Q : M
  D : M

/-- `matrix_matrix_multiply`, 2x2 (src/EigenDecomposition.C:86-100), the loop over `k`
written out as the left-to-right accumulation starting from `sum = 0`. -/
def mul2 (A B : M2) : M2 := Matrix.of fun i j => 0 + A i 0 * B 0 j + A i 1 * B 1 j

/-- `reconstruct_matrix_from_decomposition`, 2x2 (src/EigenDecomposition.C:62-81): transpose
`Q`, then `B = Q*D`, then `A = B*QT`. -/
def reconstruct2 (D Q : M2) : M2 :=
  let QT : M2 := Matrix.of fun j i => Q i j
  mul2 (mul2 Q D) QT

/-- `sym_diagonalize`, 2x2 (src/EigenDecomposition.C:23-57; the SIMD overload of
lines 261-296 does the same in every lane, `if_then_else` for `?:`).  The normalisation by
`norm` is computed also for a diagonal input and then overwritten, as in the code. -/
def symDiag2 (A : M2) : Out M2 :=
  let trace := A 0 0 + A 1 1
  let det := A 0 0 * A 1 1 - A 0 1 * A 1 0
  let d0 := if A 1 0 = 0 then A 0 0 else trace / 2 + Real.sqrt (trace * trace / 4 - det)
  let d1 := if A 1 0 = 0 then A 1 1 else trace / 2 - Real.sqrt (trace * trace / 4 - det)
  let q00 := - A 0 1
  let q10 := A 0 0 - d0
  let norm := Real.sqrt (q00 * q00 + q10 * q10)
  let q00 := q00 / norm
  let q10 := q10 / norm
  let q01 := - A 1 1 + d1
  let q11 := A 1 0
  let norm := Real.sqrt (q01 * q01 + q11 * q11)
  let q01 := q01 / norm
  let q11 := q11 / norm
  { Q := !![if A 1 0 = 0 then 1 else q00, if A 1 0 = 0 then 0 else q01;
            if A 1 0 = 0 then 0 else q10, if A 1 0 = 0 then 1 else q11]
    D := !![d0, 0; 0, d1] }

/-- `matrix_matrix_multiply`, 3x3 (src/EigenDecomposition.C:242-257). -/
def mul3 (A B : M3) : M3 := Matrix.of fun i j => 0 + A i 0 * B 0 j + A i 1 * B 1 j + A i 2 * B 2 j

/-- `reconstruct_matrix_from_decomposition`, 3x3 (src/EigenDecomposition.C:217-237). -/
def reconstruct3 (D Q : M3) : M3 :=
  let QT : M3 := Matrix.of fun j i => Q i j
  mul3 (mul3 Q D) QT

/-- The quaternion `q[4]` (components `x, y, z, w`). -/
structure Quat where
  x : ℝ
  y : ℝ
  z : ℝ
  w : ℝ

/-- `double q[4] = {0.0,0.0,0.0,1.0}` (src/EigenDecomposition.C:124). -/
def Quat.start : Quat := ⟨0, 0, 0, 1⟩

/-- "quat to matrix" (src/EigenDecomposition.C:131-149). -/
def quatToMat (q : Quat) : M3 :=
  !![q.x*q.x - q.y*q.y - q.z*q.z + q.w*q.w, 2 * (q.x*q.y - q.z*q.w), 2 * (q.x*q.z + q.y*q.w);
     2 * (q.x*q.y + q.z*q.w), -(q.x*q.x) + q.y*q.y - q.z*q.z + q.w*q.w, 2 * (q.y*q.z - q.x*q.w);
     2 * (q.x*q.z - q.y*q.w), 2 * (q.y*q.z + q.x*q.w), -(q.x*q.x) - q.y*q.y + q.z*q.z + q.w*q.w]

/-- `AQ = A * Q` (src/EigenDecomposition.C:152-160): reads the upper triangle of `A` only. -/
def timesAQ (A Q : M3) : M3 :=
  !![Q 0 0*A 0 0+Q 1 0*A 0 1+Q 2 0*A 0 2, Q 0 1*A 0 0+Q 1 1*A 0 1+Q 2 1*A 0 2, Q 0 2*A 0 0+Q 1 2*A 0 1+Q 2 2*A 0 2;
     Q 0 0*A 0 1+Q 1 0*A 1 1+Q 2 0*A 1 2, Q 0 1*A 0 1+Q 1 1*A 1 1+Q 2 1*A 1 2, Q 0 2*A 0 1+Q 1 2*A 1 1+Q 2 2*A 1 2;
     Q 0 0*A 0 2+Q 1 0*A 1 2+Q 2 0*A 2 2, Q 0 1*A 0 2+Q 1 1*A 1 2+Q 2 1*A 2 2, Q 0 2*A 0 2+Q 1 2*A 1 2+Q 2 2*A 2 2]

/-- `D = Qt * AQ` (src/EigenDecomposition.C:162-170). -/
def timesQtAQ (AQ Q : M3) : M3 :=
  !![AQ 0 0*Q 0 0+AQ 1 0*Q 1 0+AQ 2 0*Q 2 0, AQ 0 0*Q 0 1+AQ 1 0*Q 1 1+AQ 2 0*Q 2 1, AQ 0 0*Q 0 2+AQ 1 0*Q 1 2+AQ 2 0*Q 2 2;
     AQ 0 1*Q 0 0+AQ 1 1*Q 1 0+AQ 2 1*Q 2 0, AQ 0 1*Q 0 1+AQ 1 1*Q 1 1+AQ 2 1*Q 2 1, AQ 0 1*Q 0 2+AQ 1 1*Q 1 2+AQ 2 1*Q 2 2;
     AQ 0 2*Q 0 0+AQ 1 2*Q 1 0+AQ 2 2*Q 2 0, AQ 0 2*Q 0 1+AQ 1 2*Q 1 1+AQ 2 2*Q 2 1, AQ 0 2*Q 0 2+AQ 1 2*Q 1 2+AQ 2 2*Q 2 2]

/-- The matrix `D` at the top of an iteration. -/
def rotated (A : M3) (q : Quat) : M3 := timesQtAQ (timesAQ A (quatToMat q)) (quatToMat q)

/-- The off-diagonal entries `o[3]` (src/EigenDecomposition.C:171-173). -/
def offd (D : M3) : Fin 3 → ℝ := ![D 1 2, D 0 2, D 0 1]

/-- `k0`, "index of largest element of offdiag" (src/EigenDecomposition.C:178). -/
def largest (m : Fin 3 → ℝ) : Fin 3 :=
  if m 0 > m 1 ∧ m 0 > m 2 then 0 else if m 1 > m 2 then 1 else 2

/-- `sgn` (src/EigenDecomposition.C:185). -/
def sgnOf (thet : ℝ) : ℝ := if thet > 0 then 1 else -1

/-- The tangent `t` (src/EigenDecomposition.C:186-187), `thet` already signed. -/
def tangent (thet : ℝ) : ℝ :=
  let sgn := sgnOf thet
  let thet := thet * sgn
  sgn / (thet + (if thet < 1000000 then Real.sqrt (thet * thet + 1) else thet))

/-- The cosine `c` (src/EigenDecomposition.C:188). -/
def cosine (t : ℝ) : ℝ := 1 / Real.sqrt (t * t + 1)

/-- Quaternion component `jr[k0]` (src/EigenDecomposition.C:193-194). -/
def jrk (sgn c : ℝ) : ℝ := sgn * Real.sqrt ((1 - c) / 2) * (-1)

/-- The in-place quaternion update (src/EigenDecomposition.C:199-202): `q[1]` is computed
from the already overwritten `q[0]`, `q[2]` from the new `q[0], q[1]`, and so on. -/
def quatUpdate (q jr : Quat) : Quat :=
  let q0 := q.w*jr.x + q.x*jr.w + q.y*jr.z - q.z*jr.y
  let q1 := q.w*jr.y - q0*jr.z + q.y*jr.w + q.z*jr.x
  let q2 := q.w*jr.z + q0*jr.y - q1*jr.x + q.z*jr.w
  let q3 := q.w*jr.w - q0*jr.x - q1*jr.y - q2*jr.z
  ⟨q0, q1, q2, q3⟩

/-- Normalisation by `mq` (src/EigenDecomposition.C:203-207). -/
def normalise (q : Quat) : Quat :=
  let mq := Real.sqrt (q.x*q.x + q.y*q.y + q.z*q.z + q.w*q.w)
  ⟨q.x/mq, q.y/mq, q.z/mq, q.w/mq⟩

/-- `jr` with the single non-zero vector component `a` at position `k` and scalar part `w`. -/
def axisQuat (k : Fin 3) (a w : ℝ) : Quat :=
  ⟨if k = 0 then a else 0, if k = 1 then a else 0, if k = 2 then a else 0, w⟩

/-- Angle parameter `thet = (D[k2][k2]-D[k1][k1])/(2.0*o[k0])` (src/EigenDecomposition.C:179-184). -/
def thetaOf (D : M3) (k0 : Fin 3) : ℝ :=
  (D (k0 + 2) (k0 + 2) - D (k0 + 1) (k0 + 1)) / (2 * offd D k0)

/-- One pass through the rest of the loop body (src/EigenDecomposition.C:171-207): `none`
for any of the three `break`s, else the next `q`. -/
def nextQuat (D : M3) (q : Quat) : Option Quat :=
  let k0 := largest (fun i => |offd D i|)
  if offd D k0 = 0 then none
  else
    let thet := thetaOf D k0
    let c := cosine (tangent thet)
    if c = 1 then none
    else
      let a := jrk (sgnOf thet) c
      let w := Real.sqrt (1 - a * a)
      if w = 1 then none
      else some (normalise (quatUpdate q (axisQuat k0 a w)))

/-- The loop `for(int i=0;i < maxsteps;++i)`: `n` passes left, `out` is the content of the
caller's `Q` and `D`. -/
def jacobi (A : M3) : ℕ → Quat → Out M3 → Out M3
  | 0, _, out => out
  | n + 1, q, _ =>
    let out := { Q := quatToMat q, D := rotated A q }
    match nextQuat out.D q with
    | none => out
    | some q' => jacobi A n q' out

/-- `sym_diagonalize`, 3x3 (src/EigenDecomposition.C:105-209), `maxsteps = 24`.  `old` is what
the output arrays contained before the call. -/
def symDiag3 (A : M3) (old : Out M3) : Out M3 := jacobi A 24 Quat.start old

/-! ### The SIMD overload -/

/-- The lane-wise choice `if_then_else` of the SIMD overload: strict comparison on both sides,
so that nothing is chosen when two entries tie (src/EigenDecomposition.C:419-421). -/
def strictLargest (m : Fin 3 → ℝ) : Option (Fin 3) :=
  if m 2 > m 1 ∧ m 2 > m 0 then some 2
  else if m 1 > m 2 ∧ m 1 > m 0 then some 1
  else if m 0 > m 1 ∧ m 0 > m 2 then some 0
  else none

/-- The numbers `oLarge` and `dDiff` (src/EigenDecomposition.C:419-425). -/
def laneLarge (D : M3) : ℝ × ℝ :=
  match strictLargest (fun i => |offd D i|) with
  | some 0 => (D 1 2, D 2 2 - D 1 1)
  | some 1 => (D 0 2, D 0 0 - D 2 2)
  | some 2 => (D 0 1, D 1 1 - D 0 0)
  | none => (0, 0)

/-- SIMD `thet` before the sign is taken out (src/EigenDecomposition.C:430). -/
def laneTheta (D : M3) : ℝ :=
  if (laneLarge D).1 = 0 then 1 else (laneLarge D).2 / (2 * (laneLarge D).1)

/-- SIMD `t` (src/EigenDecomposition.C:431-434). -/
def laneTangent (thet : ℝ) : ℝ :=
  let sgn := sgnOf thet
  let thet := thet * sgn
  if thet < 1000000 then sgn / (thet + Real.sqrt (thet * thet + 1)) else (1/2) * sgn / thet

/-- SIMD `c` (src/EigenDecomposition.C:435). -/
def laneCosine (D : M3) : ℝ :=
  if (laneLarge D).1 = 0 then 1
  else 1 / Real.sqrt (laneTangent (laneTheta D) * laneTangent (laneTheta D) + 1)

/-- SIMD `jr` (src/EigenDecomposition.C:439-447). -/
def laneJr (D : M3) : Quat :=
  let a := -1 * (sgnOf (laneTheta D) * Real.sqrt ((1 - laneCosine D) / 2))
  match strictLargest (fun i => |offd D i|) with
  | some k => axisQuat k a (Real.sqrt (1 - a * a))
  | none => ⟨0, 0, 0, Real.sqrt (1 - 0 * 0)⟩

/-- The SIMD loop over `L` lanes (src/EigenDecomposition.C:369-468): all lanes advance until
`jr[3] == 1.0` in every lane. -/
def jacobiSimd {L : Type} (A : L → M3) : ℕ → (L → Quat) → (L → Out M3) → (L → Out M3)
  | 0, _, out => out
  | n + 1, q, _ =>
    let out := fun l => { Q := quatToMat (q l), D := rotated (A l) (q l) }
    if ∀ l, (laneJr (rotated (A l) (q l))).w = 1 then out
    else jacobiSimd A n (fun l => normalise (quatUpdate (q l) (laneJr (rotated (A l) (q l))))) out

/-- SIMD `sym_diagonalize`, 3x3 (src/EigenDecomposition.C:344-469). -/
def symDiag3Simd {L : Type} (A : L → M3) (old : L → Out M3) : L → Out M3 :=
  jacobiSimd A 24 (fun _ => Quat.start) old

/-! ### Eigenvalue perturbation -/

/-- The inner loop of the selection sort for one `i`
(src/AssembleScalarEigenEdgeSolverAlgorithm.C:512-521): the last `k` in the list at which
`data[j] < data[k]` held for the running `j`. -/
def selectMax (data : Fin 3 → ℝ) (i : Fin 3) (ks : List (Fin 3)) : Fin 3 :=
  ks.foldl (fun j k => if data j < data k then k else j) i

/-- The exchange at the end of a pass (src/AssembleScalarEigenEdgeSolverAlgorithm.C:522-530). -/
def exchange {α : Type} (f : Fin 3 → α) (i j : Fin 3) : Fin 3 → α :=
  fun k => if k = j then f i else if k = i then f j else f k

/-- One pass of the outer loop on `(data, rowMap_)`. -/
def sortPass (i : Fin 3) (ks : List (Fin 3)) (s : (Fin 3 → ℝ) × (Fin 3 → Fin 3)) :
    (Fin 3 → ℝ) × (Fin 3 → Fin 3) :=
  let j := selectMax s.1 i ks
  (exchange s.1 i j, exchange s.2 i j)

/-- `sort` (src/AssembleScalarEigenEdgeSolverAlgorithm.C:496-531): returns `rowMap_`. -/
def rowMap (D : M3) : Fin 3 → Fin 3 :=
  (sortPass 2 [2] (sortPass 1 [1, 2] (sortPass 0 [0, 1, 2]
    (fun i => D i i, fun i => i)))).2

/-- `BinvXt_` for `eigenvalue_perturbation_bias_towards`
(src/AssembleScalarEigenEdgeSolverAlgorithm.C:89-104). -/
def target (biasTowards : ℤ) : Fin 3 → ℝ :=
  if biasTowards = 1 then ![2/3, -1/3, -1/3]
  else if biasTowards = 2 then ![1/6, 1/6, -1/3]
  else ![0, 0, 0]

/-- `D[r][r] = v`. -/
def setDiag (D : M3) (r : Fin 3) (v : ℝ) : M3 :=
  Matrix.of fun i j => if i = r ∧ j = r then v else D i j

/-- `perturb` (src/AssembleScalarEigenEdgeSolverAlgorithm.C:536-553): all three eigenvalues
are read before any is written. -/
def perturb (delta : ℝ) (X : Fin 3 → ℝ) (rm : Fin 3 → Fin 3) (D : M3) : M3 :=
  let p1 := (1 - delta) * D (rm 0) (rm 0) + delta * X 0
  let p2 := (1 - delta) * D (rm 1) (rm 1) + delta * X 1
  let p3 := (1 - delta) * D (rm 2) (rm 2) + delta * X 2
  setDiag (setDiag (setDiag D (rm 0) p1) (rm 1) p2) (rm 2) p3

/-- The normalised Reynolds stress anisotropy `b_`
(src/AssembleScalarEigenEdgeSolverAlgorithm.C:346-351). -/
def anisotropy (turbNu includeDivU turbKe : ℝ) (dudx : M3) : M3 :=
  let divU := dudx 0 0 + dudx 1 1 + dudx 2 2
  Matrix.of fun i j =>
    let divUTerm := if i = j then 2/3 * divU * includeDivU else 0
    (-turbNu * (dudx i j + dudx j i - divUTerm)) / (2 * turbKe)

/-- Decompose, sort, perturb, reconstruct (src/AssembleScalarEigenEdgeSolverAlgorithm.C:353-363).
`old` is the previous content of the member arrays. -/
def perturbedAnisotropy (delta : ℝ) (bias : ℤ) (b : M3) (old : Out M3) : M3 :=
  let QD := symDiag3 b old
  reconstruct3 (perturb delta (target bias) (rowMap QD.D) QD.D) QD.Q

/-- Perturbed turbulence kinetic energy (src/AssembleScalarEigenEdgeSolverAlgorithm.C:366). -/
def turbKePert (turbKe pert : ℝ) : ℝ := max (turbKe * (1 + pert)) (1/10^16)

/-- "remove normalization; add in tke" (src/AssembleScalarEigenEdgeSolverAlgorithm.C:367-372). -/
def stressOf (b : M3) (kPert : ℝ) : M3 :=
  Matrix.of fun i j =>
    let fac : ℝ := if i = j then 1/3 else 0
    (b i j + fac) * 2 * kPert

/-- The perturbed Reynolds stress `R_` of an edge. -/
def reynoldsStress (delta : ℝ) (bias : ℤ) (pert turbNu includeDivU turbKe : ℝ) (dudx : M3)
    (old : Out M3) : M3 :=
  stressOf (perturbedAnisotropy delta bias (anisotropy turbNu includeDivU turbKe dudx) old)
    (turbKePert turbKe pert)

end

end Nalu.Eigen
