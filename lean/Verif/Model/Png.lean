import Verif.Model.LegacyElem
import Mathlib.Data.Matrix.Mul

/-!
# The projected nodal gradient equation system

Models `AssemblePNGElemSolverAlgorithm.C`, `AssemblePNGBoundarySolverAlgorithm.C`, `AssemblePNGPressureBoundarySolverAlgorithm.C` on one element
(face) with the flat arrays of `Verif.Model.LegacyElem`, the solve loop and the boundary data map of `ProjectedNodalGradientEquationSystem.C`, and
`MomentumEquationSystem::compute_projected_nodal_gradient` (LowMachEquationSystem.C:2299-2370).
-/

namespace Nalu.Png
open Nalu.Edge Nalu.Kernel Nalu.Legacy

variable {K : Type*} [Field K] [LinearOrder K] [IsStrictOrderedRing K]

/-- The flat output of the two master elements: `p_shape_function_scs`, `p_scs_areav`, `lrscv`, `p_shape_function_scv`, `p_scv_volume`, `ipNodeMap`. -/
structure Ws (K : Type*) where
  shape : ℕ → K
  areav : ℕ → K
  lrscv : ℕ → ℕ
  shapeV : ℕ → K
  scv : ℕ → K
  ipNode : ℕ → ℕ

/-- `AssemblePNGElemSolverAlgorithm::execute` on one element (AssemblePNGElemSolverAlgorithm.C:200-282); `p_dqdxScv` is zeroed for every point and only
added to, so it is a sum. -/
def elem (nn nip nscv nd : ℕ) (w : Ws K) (q dqdx : ℕ → K) (s : Flat K) : Flat K :=
  let s := loop nip (fun ip s =>
    let ipNdim := ip * nd
    let offSetSF := ip * nn
    let il := w.lrscv (2 * ip)
    let ir := w.lrscv (2 * ip + 1)
    let ilNdim := il * nd
    let irNdim := ir * nd
    let scalarQIp := ∑ ic : Fin nn, w.shape (offSetSF + ic) * q ic
    loop nd (fun i s =>
      let axi := w.areav (ipNdim + i)
      let rhsFac := -scalarQIp * axi
      (s.bumpR (ilNdim + i) (-rhsFac)).bumpR (irNdim + i) rhsFac) s) s
  loop nscv (fun ip s =>
    let nearestNode := w.ipNode ip
    let nnNdim := nearestNode * nd
    let offSetSF := ip * nn
    let scV := w.scv ip
    let dqdxScv := fun j : ℕ => ∑ ic : Fin nn, w.shapeV (offSetSF + ic) * dqdx (ic * nd + j)
    let s := loop nd (fun i s => s.bumpR (nnNdim + i) (-(dqdxScv i * scV))) s
    loop nn (fun ic s =>
      let icNdim := ic * nd
      let lhsfac := w.shapeV (offSetSF + ic) * scV
      loop nd (fun i s =>
        let indexNN := nnNdim + i
        let rowNN := indexNN * nn * nd
        let rNNiC_i := rowNN + icNdim + i
        s.bumpL rNNiC_i lhsfac) s) s) s

/-- One face of `AssemblePNGBoundarySolverAlgorithm::execute` (AssemblePNGBoundarySolverAlgorithm.C:153-174; `dynamicP` zero) and of
`AssemblePNGPressureBoundarySolverAlgorithm::execute` (AssemblePNGPressureBoundarySolverAlgorithm.C:156-178). -/
def bdry (nf nip nd : ℕ) (shape areav : ℕ → K) (ipNode : ℕ → ℕ) (dynamicP q : ℕ → K) (s : Flat K) : Flat K :=
  loop nip (fun ip s =>
    let nnNdim := ipNode ip * nd
    let offSetSF := ip * nf
    let scalarQBip := -dynamicP ip + ∑ ic : Fin nf, shape (offSetSF + ic) * q ic
    loop nd (fun i s => s.bumpR (nnNdim + i) (scalarQBip * areav (ip * nd + i))) s) s

/-! ## The solve loop -/

/-- `solve_and_update_external` (ProjectedNodalGradientEquationSystem.C:495-517): `maxIterations_` times assemble the residual of the current field,
solve for the increment, `field_axpby(1.0, qTmp, 1.0, dqdx)`. -/
def solveLoop {V : Type*} [AddCommGroup V] [Module K V] (maxIterations : ℕ) (assembleAndSolve : V → V) (dqdx : V) : V :=
  Nat.iterate (fun x => (1 : K) • assembleAndSolve x + (1 : K) • x) maxIterations dqdx

/-! ## Velocity gradient -/

/-- Nodal fields used by `MomentumEquationSystem::compute_projected_nodal_gradient`: `velocity`, `pTmp`, `duidx`, `dudx` (node, component). -/
structure UFields (K : Type*) where
  velocity : ℕ → ℕ → K
  pTmp : ℕ → ℕ → K
  duidx : ℕ → ℕ → K
  dudx : ℕ → ℕ → K

/-- `field_index_copy` (FieldFunctions.C:148-181): component `ix` of `x` to component `iy` of `y`, at every node. -/
def indexCopy (x : ℕ → ℕ → K) (ix : ℕ) (y : ℕ → ℕ → K) (iy : ℕ) : ℕ → ℕ → K := fun n c => if c = iy then x n ix else y n c

/-- `compute_projected_nodal_gradient` with `managePNG_` (LowMachEquationSystem.C:2308-2353); `solve` is `solve_and_update_external`, which reads `pTmp`
and the start value of `duidx` and writes `duidx`.  Norms and output are not modelled. -/
def momentumPng (nd : ℕ) (solve : (ℕ → ℕ → K) → (ℕ → ℕ → K) → ℕ → ℕ → K) (s : UFields K) : UFields K :=
  (List.range nd).foldl (fun s i =>
    let s := { s with pTmp := indexCopy s.velocity i s.pTmp 0 }
    let s := (List.range nd).foldl (fun s k => { s with duidx := indexCopy s.dudx (i * nd + k) s.duidx k }) s
    let s := { s with duidx := solve s.pTmp s.duidx }
    (List.range nd).foldl (fun s k => { s with dudx := indexCopy s.duidx k s.dudx (nd * i + k) }) s) s

/-! ## Boundary data map -/

/-- `BoundaryConditionType` (Enums.h:45-53). -/
inductive Bc | inflow | openBc | wall | symmetry | periodic | nonConformal | overset
deriving DecidableEq, Repr

/-- `dataMap_`. -/
abbrev DataMap := Bc → Option String

/-- `set_data_map` (ProjectedNodalGradientEquationSystem.C:119-124). -/
def setDataMap (m : DataMap) (b : Bc) (name : String) : DataMap := fun c => if c = b then some name else m c

/-- What is registered for a part. -/
inductive Alg | bdry (field : String) | pressureBdry (field : String) | nonConformal | fem (field : String)
deriving DecidableEq, Repr

/-- `register_wall_bc`, `register_inflow_bc`, `register_open_bc`, `register_symmetry_bc`, `register_non_conformal_bc`
(ProjectedNodalGradientEquationSystem.C:209-421) on a system without algorithms: the error of `get_name_given_bc`, nothing, or one algorithm.
Periodic and overset register no solver algorithm here. -/
def register (isFEM : Bool) (m : DataMap) (b : Bc) : Except String (Option Alg) :=
  let get : Except String String := match m b with
    | none => .error "PNGEqSys::missing BC type specification (developer error)!"
    | some n => .ok n
  match b with
  | .wall | .inflow => do
    let name ← get
    pure (some (if isFEM then .fem name else .bdry name))
  | .openBc => do
    let name ← get
    pure (some (if isFEM then .fem name else if name = "pressure_bc" then .pressureBdry name else .bdry name))
  | .symmetry => if isFEM then .ok none else do
    let name ← get
    pure (some (.bdry name))
  | .nonConformal => if isFEM then .ok none else .ok (some .nonConformal)
  | .periodic | .overset => .ok none

/-- The equation systems that create a projected nodal gradient system. -/
inductive Owner | enthalpy | heatCond | momentum | continuity | continuityFem | mixFrac | mixFracFem | tke
deriving DecidableEq, Repr

/-- The third constructor argument: the field whose gradient is projected. -/
def Owner.dof : Owner → String
  | .enthalpy => "enthalpy" | .heatCond => "temperature" | .momentum => "pTmp" | .continuity => "pressure" | .continuityFem => "pressure"
  | .mixFrac => "mixture_fraction" | .mixFracFem => "mixture_fraction" | .tke => "turbulent_ke"

/-- The last constructor argument. -/
def Owner.isFEM : Owner → Bool
  | .continuityFem => true | .mixFracFem => true | _ => false

/-- The calls of `set_data_map`: EnthalpyEquationSystem.C:1457-1460, HeatCondEquationSystem.C:192, LowMachEquationSystem.C:2289-2292 and 3370-3373,
LowMachFemEquationSystem.C:1368-1371, MixtureFractionEquationSystem.C:1117-1120, MixtureFractionFemEquationSystem.C:802-805,
TurbKineticEnergyEquationSystem.C:1685-1688. -/
def Owner.calls : Owner → List (Bc × String)
  | .enthalpy => [(.inflow, "enthalpy"), (.wall, "enthalpy"), (.openBc, "enthalpy"), (.symmetry, "enthalpy")]
  | .heatCond => [(.wall, "temperature")]
  | .momentum => [(.inflow, "pTmp"), (.wall, "pTmp"), (.openBc, "pTmp"), (.symmetry, "pTmp")]
  | .continuity => [(.inflow, "pressure"), (.wall, "pressure"), (.openBc, "pressure_bc"), (.symmetry, "pressure")]
  | .continuityFem => [(.inflow, "pressure"), (.wall, "pressure"), (.openBc, "pressure_bc"), (.symmetry, "pressure")]
  | .mixFrac => [(.inflow, "mixFrac_bc"), (.wall, "mixture_fraction"), (.openBc, "mixture_fraction"), (.symmetry, "mixture_fraction")]
  | .mixFracFem => [(.inflow, "mixture_fraction"), (.wall, "mixture_fraction"), (.openBc, "mixture_fraction"), (.symmetry, "mixture_fraction")]
  | .tke => [(.inflow, "turbulent_ke"), (.wall, "turbulent_ke"), (.openBc, "turbulent_ke"), (.symmetry, "turbulent_ke")]

/-- The data map of an owner. -/
def Owner.map (o : Owner) : DataMap := o.calls.foldl (fun m c => setDataMap m c.1 c.2) fun _ => none

end Nalu.Png
