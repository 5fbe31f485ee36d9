import Mathlib.Algebra.Order.Field.Basic
import Mathlib.Data.List.Sort
import Mathlib.Data.Rat.Defs
import Mathlib.Algebra.Order.Ring.Rat
import Mathlib.Logic.Function.Basic

/-!
# Tabulated and linear user functions

Models `/repo/include/AuxFunction.h`, `/repo/src/user_functions/{TableAuxFunction, Table2dAuxFunction, LinearAuxFunction,
LinearRampMeshDisplacementAuxFunction, SinMeshDisplacementAuxFunction}.C`.  A buffer of doubles is a function from its index;
arithmetic is exact; the conversion of the component numbers from double to int is left to the caller.
-/

namespace Nalu.UserFn

variable {K : Type*} [Field K] [LinearOrder K]

/-! ## The point loop -/

/-- The loop over the points of a bucket (TableAuxFunction.C:66-84, LinearAuxFunction.C:61-73, Table2dAuxFunction.C:161-201):
`step` is the body, working on the coordinates and the field from the current pointers on; afterwards the field pointer moves
by the field size `fs` and the coordinate pointer by `cs`. -/
def pointLoop (step : (ℕ → K) → (ℕ → K) → (ℕ → K)) (cs fs : ℕ) (coords : ℕ → K) : ℕ → ℕ → ℕ → (ℕ → K) → (ℕ → K)
  | 0, _, _, f => f
  | n + 1, co, fo, f =>
      pointLoop step cs fs coords n (co + cs) (fo + fs)
        (fun j => if j < fo then f j else step (fun i => coords (co + i)) (fun i => f (fo + i)) (j - fo))

/-- The body shared by the table and linear functions: all components to zero, then the chosen one
(TableAuxFunction.C:76-81, LinearAuxFunction.C:64-70, Table2dAuxFunction.C:192-197). -/
def zeroThenSet (fs comp : ℕ) (value : (ℕ → K) → K) (c f : ℕ → K) : ℕ → K :=
  Function.update (fun i => if i < fs then 0 else f i) comp (value c)

/-- `LinearRampMeshDisplacementAuxFunction::do_evaluate` body (LinearRampMeshDisplacementAuxFunction.C:46-48). -/
def rampStep (fs : ℕ) (ramp : ℕ → K) (time : K) (_c f : ℕ → K) : ℕ → K :=
  fun k => if k < fs then ramp k * time else f k

/-- `SinMeshDisplacementAuxFunction::do_evaluate` body (SinMeshDisplacementAuxFunction.C:44-45); `s` is
`sin(pi*time)*maxDisplacement`. -/
def sinDispStep (s : K) (_c f : ℕ → K) : ℕ → K := Function.update (Function.update f 0 0) 1 s

/-! ## Which of the two forms of the evaluation runs -/

/-- `AuxFunction::evaluate` (AuxFunction.h:46-58): the range of components handed to the implementation. -/
def evalRange (beginPos endPos fieldSize : ℕ) : ℕ × ℕ :=
  if beginPos = 0 ∧ endPos = fieldSize then (0, fieldSize) else (beginPos, endPos)

/-! ## One-dimensional table -/

/-- `operator<` of `std::pair` (used by `std::sort` and `std::lower_bound`, TableAuxFunction.C:42,97). -/
def pairLt (a b : K × K) : Bool := decide (a.1 < b.1) || (!decide (b.1 < a.1) && decide (a.2 < b.2))

/-- The pairs of the parameter list, two by two; `none` when the last one is incomplete (TableAuxFunction.C:37-39 reads
`params[k+1]` past the end). -/
def readPairs : List K → Option (List (K × K))
  | [] => some []
  | [_] => none
  | x :: y :: r => (readPairs r).map (fun t => (x, y) :: t)

/-- What the constructor can do. -/
inductive Ctor (α : Type*) where
  | ok (t : α)
  | throws
  | outOfBounds

/-- `TableAuxFunction::TableAuxFunction` (TableAuxFunction.C:35-47) on the parameters after the first two; the sort is the
library's (its result for a total order is unique). -/
def tableCtor (rest : List K) : Ctor (List (K × K)) :=
  match readPairs rest with
  | none => .outOfBounds
  | some t =>
    let s := t.mergeSort (fun a b => !pairLt b a)
    if s.length < 2 then .throws else .ok s

/-- The division `(x - x0)*dy/dx` of TableAuxFunction.C:103-105; `none` when the divisor is zero. -/
def lerp? (a b : K × K) (x : K) : Option K :=
  let dx := b.1 - a.1
  let dy := b.2 - a.2
  if dx = 0 then none else some (a.2 + (x - a.1) * dy / dx)

/-- `TableAuxFunction::interp` (TableAuxFunction.C:87-110); `std::lower_bound` returns the first entry that is not smaller
than the pair `(x, 0)`.  `none`: exception, or a division by zero. -/
def tableInterp (t : List (K × K)) (x : K) : Option K :=
  match t.head?, t.getLast? with
  | some a, some z =>
    if x ≤ a.1 then some a.2
    else if z.1 ≤ x then some z.2
    else
      let it := t.findIdx (fun e => !pairLt e (x, 0))
      match t[it]?, t[it - 1]? with
      | some b, some b0 => lerp? b0 b x
      | _, _ => none
  | _, _ => none

/-- The independent variable (TableAuxFunction.C:69-71). -/
def tableVar (interpComp : ℕ) (c : ℕ → K) (time : K) : K := if interpComp < 3 then c interpComp else time

/-! ## Linear function -/

/-- The constructor and the evaluation of `LinearAuxFunction` (LinearAuxFunction.C:39-47, 68-69). -/
def linearValue (qL qR xL xR x : K) : K :=
  let m := (qR - qL) / (xR - xL)
  let b := qL - m * xL
  m * x + b

/-! ## Two-dimensional table -/

/-- The table as stored. -/
structure Table2 (K : Type*) where
  xs : List K
  ys : List K
  A : ℕ → ℕ → K

/-- The rows the reading loop produces (Table2dAuxFunction.C:103-111): `while (!eof)` runs once more when white space follows
the last number, and a failed extraction leaves `x`, `y`, `h` as they were, so the last row is stored twice. -/
def readRows (rows : List (K × K × K)) (trailing : Bool) : List (K × K × K) :=
  if trailing then rows ++ rows.getLast?.toList else rows

/-- Every `s`-th entry, beginning with the first (Table2dAuxFunction.C:115-119). -/
def everyNth (data : List (K × K × K)) (sy : ℕ) : List K :=
  (List.range ((data.length + sy - 1) / sy)).filterMap (fun i => data[i * sy]?.map (fun r => r.1))

/-- One pass of the loading loop (Table2dAuxFunction.C:135-140): `k`, `countX`, and the array so far; `none` when the write is
outside the array of `sy` rows and `sx` columns. -/
def loadStep (sx sy : ℕ) (st : Option (ℕ × ℕ × (ℕ → ℕ → K))) (r : K × K × K) : Option (ℕ × ℕ × (ℕ → ℕ → K)) :=
  st.bind (fun s =>
    let k := s.1
    let countX := s.2.1
    let ySlot := k % sy
    let xSlot := countX
    let countX' := if ySlot = sy - 1 then countX + 1 else countX
    if ySlot < sy ∧ xSlot < sx then
      some (k + 1, countX', fun j i => if j = ySlot ∧ i = xSlot then r.2.2 else s.2.2 j i)
    else none)

/-- The whole construction from the rows of the file (Table2dAuxFunction.C:103-141). -/
def table2Ctor (sx sy : ℕ) (rows : List (K × K × K)) (trailing : Bool) : Ctor (Table2 K) :=
  let data := readRows rows trailing
  if sy = 0 ∨ data.length < sy then .outOfBounds
  else
    match data.foldl (loadStep sx sy) (some (0, 0, fun _ _ => 0)) with
    | none => .outOfBounds
    | some s => .ok { xs := everyNth data sy, ys := (data.take sy).map (fun r => r.2.1), A := s.2.2 }

/-- `Table2dAuxFunction::find_entry` (Table2dAuxFunction.C:204-232): the clamped value and the two indices. -/
def findEntry (t : List K) (x : K) : K × ℕ × ℕ :=
  let first := t.headD 0
  let last := t.getLastD 0
  if x ≤ first then (first, 0, 1)
  else if last ≤ x then (last, t.length - 2, t.length - 1)
  else
    let it := t.findIdx (fun e => !decide (e < x))
    if it = t.length then (x, 0, 0) else (x, it - 1, it)

/-- The interpolation (Table2dAuxFunction.C:163-190). -/
def table2Interp (T : Table2 K) (x y : K) : K :=
  let fx := findEntry T.xs x
  let fy := findEntry T.ys y
  let xp := fx.1
  let yp := fy.1
  let x1 := T.xs.getD fx.2.1 0
  let x2 := T.xs.getD fx.2.2 0
  let y1 := T.ys.getD fy.2.1 0
  let y2 := T.ys.getD fy.2.2 0
  let Q11 := T.A fy.2.2 fx.2.1
  let Q12 := T.A fy.2.1 fx.2.1
  let Q21 := T.A fy.2.2 fx.2.2
  let Q22 := T.A fy.2.1 fx.2.2
  let R1 := Q11 * ((x2 - xp) / (x2 - x1)) + Q21 * ((xp - x1) / (x2 - x1))
  let R2 := Q12 * ((x2 - xp) / (x2 - x1)) + Q22 * ((xp - x1) / (x2 - x1))
  R1 * ((yp - y1) / (y2 - y1)) + R2 * ((y2 - yp) / (y2 - y1))

/-- The value written (Table2dAuxFunction.C:160, 197). -/
def table2Value (T : Table2 K) (blend time x y : K) : K := table2Interp T x y * min (time / blend) 1

end Nalu.UserFn
