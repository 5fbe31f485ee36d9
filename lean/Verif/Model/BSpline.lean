import Mathlib.Algebra.Order.Field.Basic
import Mathlib.Algebra.BigOperators.Fin
import Mathlib.Data.List.Sort
import Mathlib.Data.List.Destutter

/-!
# Model: B-spline property tables

Models /repo/src/tabular_props/BSpline.C (`basis_funs`, `find_indx`, `get_uk`, `set_uk`, `set_knot_vector`,
`BSpline1D`, `BSpline2D` to `BSpline5D`) and LU.C.

Vectors are functions of the index (reads outside a vector are not modelled here; the theorems state the
range of every index used) except where their size matters (`List`).  Arithmetic is exact; a division by a
zero pivot makes the construction fail (`none`; in the code the control points are then infinite or NaN).
The asserts are compiled out in release builds and are not modelled.
-/

namespace Nalu.BSpline

variable {K : Type*} [Field K] [LinearOrder K]

/-- Assignment `a[i] = v`. -/
def set (a : ℕ → K) (i : ℕ) (v : K) : ℕ → K := fun k => if k = i then v else a k

/-- The body of the inner loop of `basis_funs` (BSpline.C:36-40): state `(N, saved)`. -/
def basisStep (left right : ℕ → K) (j : ℕ) (s : (ℕ → K) × K) (r : ℕ) : (ℕ → K) × K :=
  let tmp := s.1 r / (right (r + 1) + left (j - r))
  (set s.1 r (s.2 + right (r + 1) * tmp), left (j - r) * tmp)

/-- One pass `j` of `basis_funs` (BSpline.C:32-42): the entries of `left` and `right` used by the pass have
been written by passes `1..j` (`left[j] = u-U[i+1-j]; right[j] = U[i+j]-u`). -/
def basisPass (i : ℕ) (u : K) (U : ℕ → K) (N : ℕ → K) (j : ℕ) : ℕ → K :=
  let left := fun m => u - U (i + 1 - m)
  let right := fun m => U (i + m) - u
  let s := (List.range j).foldl (basisStep left right j) (N, 0)
  set s.1 j s.2

/-- `basis_funs` (BSpline.C:21-44); `N` is the array as the previous call left it. -/
def basisFuns (i p : ℕ) (u : K) (U : ℕ → K) (N : ℕ → K) : ℕ → K :=
  (List.range p).foldl (fun N j => basisPass i u U N (j + 1)) (set N 0 1)

/-- The search loop of `find_indx` (BSpline.C:61-69); `none` when the fuel runs out. -/
def findLoop (u : K) (U : ℕ → K) : ℕ → ℕ → ℕ → Option ℕ
  | 0, _, _ => none
  | fuel + 1, low, high =>
    let mid := (low + high) / 2
    if u < U mid ∨ U (mid + 1) ≤ u then
      if u < U mid then findLoop u U fuel low mid else findLoop u U fuel mid high
    else some mid

/-- `find_indx` (BSpline.C:46-70). -/
def findIndx (fuel n p : ℕ) (u : K) (U : ℕ → K) : Option ℕ :=
  if u ≤ U 0 then some p
  else if U (n + 1) ≤ u then some (n - 1)
  else findLoop u U fuel p (n + 1)

/-- `get_uk` (BSpline.C:72-82). -/
def getUk (x hi lo : K) (clip : Bool) : K :=
  ((if clip then min (max x lo) hi else x) - lo) / (hi - lo)

/-- `std::sort` followed by `std::unique` and `erase` (BSpline.C:107-110, 305-309). -/
def sortUnique (l : List K) : List K := (l.insertionSort (· ≤ ·)).destutter (· ≠ ·)

/-- The average that becomes interior knot `j` (BSpline.C:118-121). -/
def knotAvg (order : ℕ) (uk : List K) (j : ℕ) : K :=
  (∑ m ∈ Finset.range order, uk.getD (j + m) 0) / order

/-- `set_knot_vector` (BSpline.C:99-137). -/
def setKnots (uk : List K) (order : ℕ) : List K :=
  let uksrt := sortUnique uk
  let nn := uksrt.length
  let inner := (List.range' 1 (nn - order - 1)).foldl (fun knots j =>
    let tmp := knotAvg order uksrt j
    if tmp ∈ knots then knots else knots ++ [tmp]) (List.replicate (order + 1) (0 : K))
  inner ++ List.replicate (order + 1) 1

/-! ## LU -/

/-- Assignment `AA(i,j) = v`. -/
def set2 (A : ℕ → ℕ → K) (i j : ℕ) (v : K) : ℕ → ℕ → K := fun a b => if a = i ∧ b = j then v else A a b

/-- Elimination of one entry (LU.C:32-41): `sumterm = AA(i,j) - sum_k AA(i,k)*AA(k,j)`, `k < i` above the
diagonal and `k < j` on and below it. -/
def luEntry (j : ℕ) (A : ℕ → ℕ → K) (i : ℕ) : ℕ → ℕ → K :=
  set2 A i j (A i j - ∑ k ∈ Finset.range (min i j), A i k * A k j)

/-- Division of the column by the pivot (LU.C:42-45). -/
def luScale (j : ℕ) (tmp : K) (A : ℕ → ℕ → K) (i : ℕ) : ℕ → ℕ → K :=
  if j < i then set2 A i j (A i j * tmp) else A

/-- One column of `LU::decompose` (LU.C:31-46). -/
def luCol (n : ℕ) (A : ℕ → ℕ → K) (j : ℕ) : ℕ → ℕ → K :=
  let B := (List.range n).foldl (luEntry j) A
  (List.range n).foldl (luScale j (1 / B j j)) B

/-- `LU::decompose` (LU.C:26-48). -/
def decompose (n : ℕ) (A : ℕ → ℕ → K) : ℕ → ℕ → K := (List.range n).foldl (luCol n) A

/-- Forward substitution (LU.C:59-65). -/
def forward (n : ℕ) (A : ℕ → ℕ → K) (b : ℕ → K) : ℕ → K :=
  (List.range n).foldl (fun b i => set b i (b i - ∑ j ∈ Finset.range i, A i j * b j)) b

/-- Back substitution (LU.C:67-75). -/
def backward (n : ℕ) (A : ℕ → ℕ → K) (b : ℕ → K) : ℕ → K :=
  (List.range n).reverse.foldl
    (fun b i => set b i ((b i - ∑ j ∈ Finset.Ico (i + 1) n, A i j * b j) / A i i)) b

/-- `decompose` and `back_subs`; `none` when a pivot is zero. -/
def solve (n : ℕ) (A : ℕ → ℕ → K) (b : ℕ → K) : Option (ℕ → K) :=
  let M := decompose n A
  if (List.range n).all (fun j => decide (M j j ≠ 0)) then some (backward n M (forward n M b)) else none

/-! ## One dimension -/

/-- `BSpline1D` (BSpline.h:98-186): `basisFun_` is scratch space. -/
structure Sp1 (K : Type*) where
  order : ℕ
  npts : ℕ
  hi : K
  lo : K
  clip : Bool
  knots : List K
  cp : ℕ → K

/-- Knot number `k`. -/
def Sp1.U (s : Sp1 K) (k : ℕ) : K := s.knots.getD k 0

/-- `sort_inputs` (BSpline.C:292-354): `none` is one of the two exceptions. -/
def sortInputs (x : List K) (y : ℕ → K) : Option (List K × (ℕ → K)) :=
  let s := sortUnique x
  if x.length ≠ s.length then none
  else if x = s then some (s, y)
  else if x.reverse = s then some (s, fun k => y (x.length - 1 - k))
  else none

/-- The row of the linear system for parameter `u` (BSpline.C:281-288): `A(i,shift+j) = basisFun_[j]` in a
matrix of zeros. -/
def collocRow (ix p : ℕ) (N : ℕ → K) (c : ℕ) : K := if ix - p ≤ c ∧ c ≤ ix then N (c - (ix - p)) else 0

/-- Row of the linear system for one data point (BSpline.C:281-289). -/
def siteRow (n p : ℕ) (U scratch : ℕ → K) (u : K) (c : ℕ) : K :=
  match findIndx (n + 2) n p u U with
  | none => 0
  | some ix => collocRow ix p (basisFuns ix p u U scratch) c

/-- `BSpline1D::BSpline1D` and `compute_control_pts` (BSpline.C:209-220, 262-301); `x` non-empty.  The fuel
of the search is generous: `find_terminates` shows that it never runs out. -/
def build1 (p : ℕ) (clip : Bool) (x : List K) (y : ℕ → K) (scratch : ℕ → K) : Option (Sp1 K) :=
  match sortInputs x y with
  | none => none
  | some (xs, ys) =>
    let n := x.length
    let hi := x.foldl max (x.headD 0)
    let lo := x.foldl min (x.headD 0)
    let uk := xs.map fun v => getUk v hi lo false
    let knots := setKnots uk p
    let U := fun k => knots.getD k 0
    match solve n (fun i => siteRow n p U scratch (uk.getD i 0)) ys with
    | none => none
    | some cp => some ⟨p, n, hi, lo, clip, knots, cp⟩

/-- `BSpline1D::value` (BSpline.C:356-380). -/
def Sp1.value (s : Sp1 K) (scratch : ℕ → K) (x : K) : K :=
  let uk := getUk x s.hi s.lo s.clip
  match findIndx (s.npts + 2) s.npts s.order uk s.U with
  | none => 0
  | some ix =>
    let N := basisFuns ix s.order uk s.U scratch
    ∑ j ∈ Finset.range (s.order + 1), N j * s.cp (ix - s.order + j)

/-! ## More dimensions -/

/-- `BSpline2D` to `BSpline5D` (BSpline.h:200-560): `sp1_` and one spline of the remaining dimensions for
every point of the first.  `ND K d` has `d + 1` dimensions. -/
inductive ND (K : Type*) : ℕ → Type _
  | leaf (s : Sp1 K) : ND K 0
  | node {d : ℕ} (s : Sp1 K) (inner : ℕ → ND K d) : ND K (d + 1)

/-- Collect the results of a fallible construction for indices below `n`. -/
def collect {α : Type*} (n : ℕ) (f : ℕ → Option α) : Option (List α) := (List.range n).mapM f

/-- `compute_control_pts` of the multi-dimensional splines (BSpline.C:467-517, 656-721, 863-934,
1069-1142), for coordinates `x :: xs`.  The dependent variable is stored with the first index running
fastest; the nested loops over the other indices visit the lines in storage order, and the data of spline `i`
of the remaining dimensions are the control points `i` of the lines in the same order. -/
def buildND (p : ℕ) (clip : Bool) (scratch : ℕ → K) : (d : ℕ) → List K → List (List K) → (ℕ → K) → Option (ND K d)
  | 0, x, _, phi => (build1 p clip x phi scratch).map ND.leaf
  | _ + 1, _, [], _ => none
  | d + 1, x, y :: ys, phi =>
    let n := x.length
    let lines := ((y :: ys).map List.length).prod
    match collect lines fun c => build1 p clip x (fun i => phi (i + n * c)) scratch with
    | none => none
    | some [] => none
    | some (s0 :: rest) =>
      let RR := fun c i => ((s0 :: rest).getD c s0).cp i
      match collect n fun i => buildND p clip scratch d y ys fun c => RR c i with
      | none => none
      | some [] => none
      | some (t0 :: more) => some (.node s0 fun i => (t0 :: more).getD i t0)

/-- Assignment to one of the inner splines (their scratch control points change in a lookup). -/
def setND {d : ℕ} (a : ℕ → ND K d) (i : ℕ) (v : ND K d) : ℕ → ND K d := fun k => if k = i then v else a k

/-- `value` (BSpline.C:519-545, 723-752, 935-966, 1143-1173).  The control points of `sp1_` are overwritten
by the lookup, also inside the inner splines, so the lookup returns the changed object as well. -/
def valueND (scratch : ℕ → K) : (d : ℕ) → ND K d → (ℕ → K) → K × ND K d
  | 0, .leaf s, x => (Sp1.value s scratch (x 0), .leaf s)
  | d + 1, .node s inner, x =>
    match findIndx (s.npts + 2) s.npts s.order (getUk (x 0) s.hi s.lo s.clip) s.U with
    | none => (0, .node s inner)
    | some ix =>
      let r := (List.range (s.order + 1)).foldl (fun (st : (ℕ → K) × (ℕ → ND K d)) m =>
          let k := ix - s.order + m
          let v := valueND scratch d (st.2 k) fun i => x (i + 1)
          (set st.1 k v.1, setND st.2 k v.2)) (s.cp, inner)
      let s' := { s with cp := r.1 }
      (s'.value scratch (x 0), .node s' r.2)

end Nalu.BSpline
