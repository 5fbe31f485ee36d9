import Mathlib.Analysis.SpecialFunctions.Sqrt
import Verif.Model.Nso
import Verif.Model.Time

/-!
# Model: Courant and Reynolds numbers, error indicators, largest edge length

`AssembleCourantReynoldsElemAlgorithm.C`, `AssembleCourantReynoldsFemAlgorithm.C`,
`gas_dynamics/AssembleGasDynamicsCourantReynoldsElemAlgorithm.C`, `LimiterErrorIndicatorElemAlgorithm.C`,
`SimpleErrorIndicatorElemAlgorithm.C`, `SimpleErrorIndicatorScalarElemAlgorithm.C`, `PstabErrorIndicatorElemAlgorithm.C`,
`PstabErrorIndicatorEdgeAlgorithm.C`, `ComputeSSTMaxLengthScaleElemAlgorithm.C` and the choice of the indicator
(SolutionOptions.C, LowMachEquationSystem.C, HeatCondEquationSystem.C).

`double` is `ℝ`.  An element is its gathered nodal data; the loop over integration points is a fold over the list of their
left and right nodes; a `+=` into a local scalar over directions or nodes is a sum.  Buckets are flattened into the list of
elements of a process.
-/

namespace Nalu.Diag
open Nalu.Nso

noncomputable section

variable {nn nd : ℕ}

/-- Gathered nodal data of one element (AssembleCourantReynoldsElemAlgorithm.C:134-158; `c` is the speed of sound,
AssembleGasDynamicsCourantReynoldsElemAlgorithm.C:150) and `lrscv` (AssembleCourantReynoldsElemAlgorithm.C:112) as the list
of pairs of left and right node. -/
structure Elem (nn nd : ℕ) where
  x : Fin nn → Fin nd → ℝ
  v : Fin nn → Fin nd → ℝ
  rho : Fin nn → ℝ
  mu : Fin nn → ℝ
  c : Fin nn → ℝ
  lr : List (Fin nn × Fin nn)

/-- `udotx` before the absolute value (AssembleCourantReynoldsElemAlgorithm.C:168-173). -/
def Elem.udotx (e : Elem nn nd) (p : Fin nn × Fin nn) : ℝ :=
  ∑ j, (e.x p.2 j - e.x p.1 j) * (0.5 * (e.v p.2 j + e.v p.1 j))

/-- `dxSq` (AssembleCourantReynoldsElemAlgorithm.C:174). -/
def Elem.dxSq (e : Elem nn nd) (p : Fin nn × Fin nn) : ℝ := ∑ j, (e.x p.2 j - e.x p.1 j) * (e.x p.2 j - e.x p.1 j)

/-- `small` (AssembleCourantReynoldsElemAlgorithm.C:81, LimiterErrorIndicatorElemAlgorithm.C:57). -/
def small : ℝ := 1e-16

/-- `diffIp` (AssembleCourantReynoldsElemAlgorithm.C:181). -/
def Elem.diffIp (e : Elem nn nd) (p : Fin nn × Fin nn) : ℝ := 0.5 * (e.mu p.1 / e.rho p.1 + e.mu p.2 / e.rho p.2)

/-- The two numbers of one integration point, Courant first, given the speed over the edge
(AssembleCourantReynoldsElemAlgorithm.C:177-183). -/
def Elem.numbers (e : Elem nn nd) (dt udotx : ℝ) (p : Fin nn × Fin nn) : ℝ × ℝ :=
  (|udotx * dt / e.dxSq p|, udotx / (e.diffIp p + small))

/-- Low Mach flow: `udotx = std::abs(udotx)` (AssembleCourantReynoldsElemAlgorithm.C:176-183). -/
def Elem.flowNumbers (e : Elem nn nd) (dt : ℝ) (p : Fin nn × Fin nn) : ℝ × ℝ := e.numbers dt |e.udotx p| p

/-- Gas dynamics adds the speed of sound (AssembleGasDynamicsCourantReynoldsElemAlgorithm.C:183-190). -/
def Elem.gasNumbers (e : Elem nn nd) (dt : ℝ) (p : Fin nn × Fin nn) : ℝ × ℝ :=
  e.numbers dt (|e.udotx p| + 0.5 * (e.c p.2 + e.c p.1) * Real.sqrt (e.dxSq p)) p

/-- Running maxima of a process, `maxCR`, and the element fields written so far, Courant first. -/
structure Acc where
  maxCR : ℝ × ℝ
  field : List (ℝ × ℝ)

/-- The loop over the integration points of one element (AssembleCourantReynoldsElemAlgorithm.C:160-193;
AssembleCourantReynoldsFemAlgorithm.C:173-229): `vals` are the two numbers of its points. -/
def elemLoop (vals : List (ℝ × ℝ)) (a : Acc) : Acc :=
  let r := vals.foldl (fun (s : (ℝ × ℝ) × (ℝ × ℝ)) w =>
    ((max s.1.1 w.1, max s.1.2 w.2), (max s.2.1 w.1, max s.2.2 w.2))) (a.maxCR, (-1, -1))
  ⟨r.1, a.field ++ [r.2]⟩

/-- `execute` on one process: the locally owned active elements, each given by the numbers of its integration points
(AssembleCourantReynoldsElemAlgorithm.C:93-198). -/
def procLoop (elems : List (List (ℝ × ℝ))) : Acc := elems.foldl (fun a vals => elemLoop vals a) ⟨(-1, -1), []⟩

/-- `stk::all_reduce_max` over the processes (AssembleCourantReynoldsElemAlgorithm.C:201-207): process 0 and the others. -/
def reduceMax (p0 : ℝ × ℝ) (others : List (ℝ × ℝ)) : ℝ × ℝ :=
  others.foldl (fun s w => (max s.1 w.1, max s.2 w.2)) p0

/-- `maxCourant_` and `maxReynolds_` of the realm after `execute` (AssembleCourantReynoldsElemAlgorithm.C:200-208). -/
def realmMax (p0 : List (List (ℝ × ℝ))) (others : List (List (List (ℝ × ℝ)))) : ℝ × ℝ :=
  reduceMax (procLoop p0).maxCR (others.map fun e => (procLoop e).maxCR)

/-- The numbers of the integration points of an element for low Mach flow. -/
def Elem.flow (e : Elem nn nd) (dt : ℝ) : List (ℝ × ℝ) := e.lr.map (e.flowNumbers dt)

/-- The numbers of the integration points of an element for gas dynamics. -/
def Elem.gas (e : Elem nn nd) (dt : ℝ) : List (ℝ × ℝ) := e.lr.map (e.gasNumbers dt)

/-- The two numbers of one integration point of a finite element (AssembleCourantReynoldsFemAlgorithm.C:179-222): `r` the
shape functions there, `g` the lower metric tensor. -/
def femNumbers (dt : ℝ) (g : Fin nd → Fin nd → ℝ) (r rho mu : Fin nn → ℝ) (v : Fin nn → Fin nd → ℝ) : ℝ × ℝ :=
  let scaleFac : ℝ := if nd = 3 then 3 else 2
  let rhoIp := ∑ ic, r ic * rho ic
  let muIp := ∑ ic, r ic * mu ic
  let vIp := fun j => ∑ ic, r ic * v ic j
  let vgv := ∑ i, ∑ j, vIp i * g i j * vIp j
  let glSq := ∑ i, ∑ j, g i j * g i j
  let diffIp := muIp / rhoIp + small
  (Real.sqrt vgv * dt / 2, 2 * Real.sqrt (vgv / (diffIp * diffIp * glSq / scaleFac)))

/-! ## Error indicators -/

/-- `van_leer` (LimiterErrorIndicatorElemAlgorithm.C:199-207). -/
def vanLeer (dqm dqp small : ℝ) : ℝ := (2 * (dqm * dqp + |dqm * dqp|)) / ((dqm + dqp) * (dqm + dqp) + small)

/-- Gathered nodal data of the limiter indicator (LimiterErrorIndicatorElemAlgorithm.C:108-133): `G n i j` is `du_i/dx_j` at
the node. -/
structure GElem (nn nd : ℕ) where
  x : Fin nn → Fin nd → ℝ
  u : Fin nn → Fin nd → ℝ
  G : Fin nn → Fin nd → Fin nd → ℝ
  lr : List (Fin nn × Fin nn)

/-- `duL`, `duR` (LimiterErrorIndicatorElemAlgorithm.C:157-163): the gradient of node `n` over the edge `p`. -/
def GElem.du (e : GElem nn nd) (p : Fin nn × Fin nn) (n : Fin nn) (i : Fin nd) : ℝ :=
  ∑ j, (e.x p.2 j - e.x p.1 j) * e.G n i j

/-- The addend of one integration point and component (LimiterErrorIndicatorElemAlgorithm.C:165-174). -/
def GElem.limTerm (e : GElem nn nd) (p : Fin nn × Fin nn) (i : Fin nd) : ℝ :=
  let du := e.u p.2 i - e.u p.1 i
  let dqMl := 2 * 2 * e.du p p.1 i - du
  let dqMr := 2 * 2 * e.du p p.2 i - du
  let limitL := vanLeer dqMl du small
  let limitR := vanLeer dqMr du small
  Real.sqrt (0.5 * (limitL * limitL + limitR * limitR))

/-- The limiter indicator of an element, `none` when it throws (LimiterErrorIndicatorElemAlgorithm.C:136-183). -/
def GElem.limiter (e : GElem nn nd) : Option ℝ :=
  let s := (e.lr.map fun p => ∑ i, e.limTerm p i).sum
  let totalPts := (nd : ℝ) * e.lr.length
  let r := (1 + 1e-8) - s / totalPts
  if r < 0 then none else some r

/-- The options of the simple indicators (SolutionOptions.h:31-34). -/
inductive Simple
  | vorticity
  | vorticityDx
  | dudx2
deriving DecidableEq

/-- `dlen` of the vector version (SimpleErrorIndicatorElemAlgorithm.C:159-173): the square root is taken inside the loop over
the directions. -/
def dlenVec (dx : List ℝ) : ℝ := dx.foldl (fun s d => Real.sqrt (s + d * d)) 0

/-- `dlen` of the scalar version (SimpleErrorIndicatorScalarElemAlgorithm.C:176-182). -/
def dlenScalar (dx : List ℝ) : ℝ := Real.sqrt (dx.foldl (fun s d => s + d * d) 0)

/-- The magnitude of `vorticity` (SimpleErrorIndicatorElemAlgorithm.C:178-185; SimpleErrorIndicatorScalarElemAlgorithm.C:195-206):
`du` is the gathered gradient array, `row` the offset of the left node, `stride` the `nDim` or `nUnk_` of the macro `DUDX`. -/
def vort (nDim row stride : ℕ) (du : ℕ → ℝ) : ℝ :=
  let D := fun i j => du (row + i * stride + j)
  let a := D 2 1 - D 1 2
  let b := D 2 0 - D 0 2
  let c := if nDim = 3 then D 1 0 - D 0 1 else 0
  Real.sqrt (a * a + b * b + c * c)

/-- The indices of the gathered gradient array that `vorticity` reads. -/
def vortReads (nDim row stride : ℕ) : List ℕ :=
  [row + 2 * stride + 1, row + 1 * stride + 2, row + 2 * stride, row + 2] ++
    if nDim = 3 then [row + 1 * stride, row + 1] else []

/-- Gathered arrays of the simple indicators: coordinates and gradients, flat, and the list of left and right nodes
(SimpleErrorIndicatorElemAlgorithm.C:95-146). -/
structure Flat where
  nDim : ℕ
  x : ℕ → ℝ
  du : ℕ → ℝ
  lr : List (ℕ × ℕ)

/-- The differences of the coordinates over an edge. -/
def Flat.dx (e : Flat) (p : ℕ × ℕ) : List ℝ := (List.range e.nDim).map fun j => e.x (p.2 * e.nDim + j) - e.x (p.1 * e.nDim + j)

/-- `du2` of one component, vector version (SimpleErrorIndicatorElemAlgorithm.C:165-169). -/
def Flat.du2 (e : Flat) (p : ℕ × ℕ) (i : ℕ) : ℝ :=
  ((List.range e.nDim).map fun j => (e.x (p.2 * e.nDim + j) - e.x (p.1 * e.nDim + j)) *
    (e.du (p.2 * e.nDim * e.nDim + i * e.nDim + j) + e.du (p.1 * e.nDim * e.nDim + i * e.nDim + j))).sum

/-- The addend of one integration point, vector version (SimpleErrorIndicatorElemAlgorithm.C:148-188). -/
def Flat.vecTerm (e : Flat) (opt : Simple) (p : ℕ × ℕ) : ℝ :=
  match opt with
  | .dudx2 => ((List.range e.nDim).map fun i => e.du2 p i * e.du2 p i).sum
  | .vorticity => vort e.nDim (p.1 * e.nDim * e.nDim) e.nDim e.du
  | .vorticityDx => dlenVec (e.dx p) * vort e.nDim (p.1 * e.nDim * e.nDim) e.nDim e.du

/-- The indicator of an element, vector version (SimpleErrorIndicatorElemAlgorithm.C:143-203); it cannot be negative, so the
final throw is left out. -/
def Flat.vec (e : Flat) (opt : Simple) : ℝ :=
  let s := (e.lr.map (e.vecTerm opt)).sum
  let m := s / ((e.nDim : ℝ) * e.lr.length)
  match opt with
  | .dudx2 => Real.sqrt (Real.sqrt m)
  | _ => Real.sqrt m

/-- `du2` of the scalar version with its one unknown, `nUnk_ = 1` (SimpleErrorIndicatorScalarElemAlgorithm.C:184-190; the
offset `i*nUnk_` is zero). -/
def Flat.sdu2 (e : Flat) (p : ℕ × ℕ) : ℝ :=
  ((List.range e.nDim).map fun j => (e.x (p.2 * e.nDim + j) - e.x (p.1 * e.nDim + j)) *
    (e.du (p.2 * e.nDim + j) + e.du (p.1 * e.nDim + j)) / 2).sum

/-- The addend of one integration point, scalar version (SimpleErrorIndicatorScalarElemAlgorithm.C:156-206). -/
def Flat.scalarTerm (e : Flat) (opt : Simple) (p : ℕ × ℕ) : ℝ :=
  match opt with
  | .dudx2 => e.sdu2 p * e.sdu2 p
  | .vorticity => vort e.nDim (p.1 * e.nDim) 1 e.du
  | .vorticityDx => dlenScalar (e.dx p) * vort e.nDim (p.1 * e.nDim) 1 e.du

/-- The indicator of an element, scalar version (SimpleErrorIndicatorScalarElemAlgorithm.C:151-221). -/
def Flat.scalar (e : Flat) (opt : Simple) : ℝ :=
  Real.sqrt ((e.lr.map (e.scalarTerm opt)).sum / e.lr.length)

/-- One integration point of the pressure-stabilization indicator (PstabErrorIndicatorElemAlgorithm.C:158-190): shape
functions, gradient operator, area vector. -/
structure PIp (nn nd : ℕ) where
  r : Fin nn → ℝ
  dndx : Fin nn → Fin nd → ℝ
  area : Fin nd → ℝ

/-- `theEI` (PstabErrorIndicatorElemAlgorithm.C:188): one component. -/
def PIp.ei (ip : PIp nn nd) (tau scale : ℝ) (p : Fin nn → ℝ) (G : Fin nn → Fin nd → ℝ) (j : Fin nd) : ℝ :=
  -tau * ((∑ ic, ip.dndx ic j * p ic) - (∑ ic, ip.r ic * G ic j) * scale) * ip.area j

/-- The element indicator (PstabErrorIndicatorElemAlgorithm.C:67, 155-195); `projTimeScale = dt/gamma1` here for both
approaches. -/
def pstabElem (ips : List (PIp nn nd)) (dt gamma1 scale : ℝ) (p : Fin nn → ℝ) (G : Fin nn → Fin nd → ℝ) : ℝ :=
  Real.sqrt (ips.map fun ip => ∑ j, ip.ei (dt / gamma1) scale p G j * ip.ei (dt / gamma1) scale p G j).sum

/-- One edge of an element (PstabErrorIndicatorEdgeAlgorithm.C:100-126). -/
structure EEdge (nd : ℕ) where
  area : Fin nd → ℝ
  xL : Fin nd → ℝ
  xR : Fin nd → ℝ
  GL : Fin nd → ℝ
  GR : Fin nd → ℝ
  pL : ℝ
  pR : ℝ

/-- `eiEdge` (PstabErrorIndicatorEdgeAlgorithm.C:129-152); `kxj` and `GjIp` are written out. -/
def EEdge.ei (e : EEdge nd) (tau scale nocFac : ℝ) : ℝ :=
  let asq := ∑ j, e.area j * e.area j
  let axdx := ∑ j, e.area j * (e.xR j - e.xL j)
  let invA := 1 / axdx
  let e0 := -tau * (e.pR - e.pL) * asq * invA
  e0 + ∑ j, tau * ((0.5 * (e.GR j + e.GL j) * scale) * e.area j -
      (e.area j - asq * invA * (e.xR j - e.xL j)) * (0.5 * (e.GR j + e.GL j) * scale)) * nocFac

/-- The edge indicator of an element (PstabErrorIndicatorEdgeAlgorithm.C:67-75, 94-158). -/
def pstabEdge (edges : List (EEdge nd)) (dt gamma1 scale nocFac : ℝ) : ℝ :=
  let tau := if scale > 0 then dt / gamma1 else 1
  Real.sqrt (edges.map fun e => e.ei tau scale nocFac * e.ei tau scale nocFac).sum

/-- `ErrorIndicatorType` as the bit patterns of SolutionOptions.h:27-35; `type` is the text of the input
(SolutionOptions.C:675-691): any other text leaves `EIT_NONE`. -/
def typeBits (type : String) : ℕ :=
  if type = "pstab" then 2
  else if type = "limiter" then 4
  else if type = "simple.vorticity_dx" then 8 + 32
  else if type = "simple.vorticity" then 8 + 16
  else if type = "simple.dudx2" then 8 + 64
  else 0

/-- The algorithm an equation system registers. -/
inductive Alg
  | pstabEdge
  | pstabElem
  | limiter
  | simpleVec
  | simpleScalar
  | null
deriving DecidableEq, Repr

/-- `LowMachEquationSystem::register_interior_algorithm` (LowMachEquationSystem.C:413-433). -/
def lowMachAlg (bits : ℕ) (edges : Bool) : Alg :=
  if bits &&& 2 ≠ 0 then (if edges then .pstabEdge else .pstabElem)
  else if bits &&& 4 ≠ 0 then .limiter
  else if bits &&& 8 ≠ 0 then .simpleVec
  else .null

/-- `HeatCondEquationSystem::register_interior_algorithm` (HeatCondEquationSystem.C:509-528), `none` when it throws. -/
def heatCondAlg (bits : ℕ) (edges : Bool) : Option Alg :=
  if bits &&& 2 ≠ 0 then some (if edges then .pstabEdge else .pstabElem)
  else if bits &&& (8 + 64) ≠ 0 then some .simpleScalar
  else none

/-- The simple option an indicator type selects (comparison with `==`, SimpleErrorIndicatorElemAlgorithm.C:173, 184-185). -/
def simpleOpt (bits : ℕ) : Option Simple :=
  if bits = 8 + 64 then some .dudx2 else if bits = 8 + 16 then some .vorticity else if bits = 8 + 32 then some .vorticityDx else none

/-! ## Largest edge length -/

/-- The update of the two nodes of one integration point (ComputeSSTMaxLengthScaleElemAlgorithm.C:103-134). -/
def lenStep {N : Type*} [DecidableEq N] (x : N → Fin nd → ℝ) (f : N → ℝ) (p : N × N) : N → ℝ :=
  let dx := Real.sqrt (∑ j, (x p.2 j - x p.1 j) * (x p.2 j - x p.1 j))
  let f1 := fun n => if n = p.1 then max (f p.1) dx else f n
  fun n => if n = p.2 then max (f1 p.2) dx else f1 n

/-- `execute` on one process up to the reduction (ComputeSSTMaxLengthScaleElemAlgorithm.C:60-136): `edges` are the node pairs of
all integration points of all locally owned elements. -/
def lenProc {N : Type*} [DecidableEq N] (x : N → Fin nd → ℝ) (edges : List (N × N)) : N → ℝ :=
  edges.foldl (lenStep x) fun _ => -1e16

/-- `stk::mesh::parallel_max` (ComputeSSTMaxLengthScaleElemAlgorithm.C:138-141): the maximum over the processes that share the
node; a process that does not hold the node has the initial value there. -/
def lenAll {N : Type*} [DecidableEq N] (x : N → Fin nd → ℝ) (p0 : List (N × N)) (others : List (List (N × N))) (n : N) : ℝ :=
  others.foldl (fun s e => max s (lenProc x e n)) (lenProc x p0 n)

end

end Nalu.Diag
