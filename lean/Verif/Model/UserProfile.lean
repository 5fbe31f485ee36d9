import Verif.Spec.Pde
import Verif.Model.Peclet
import Mathlib.Analysis.SpecialFunctions.Pow.Real
import Mathlib.Analysis.SpecialFunctions.Sqrt
import Mathlib.Analysis.SpecialFunctions.Trigonometric.Inverse
import Mathlib.Data.List.Basic

/-!
# Profile user functions

Models `/repo/src/user_functions/{WindEnergy, MeshMotion, OneTwoTenVelocity, FlowPastCylinderTemp, Concentric, PowerlawPipeVelocity,
PowerlawVelocity, PulseVelocity, ScalarGaussian, SinProfilePipeFlowVelocity, BoundaryLayerPerturbation,
ChannelFlowPerturbedPlugVelocity, RayleighTaylorMixFrac, RecMixFrac, SinVof}AuxFunction.C`: the value at one point.
Arithmetic is exact, `acos(-1)` is `Real.pi`, constants hard-wired in the classes are parameters.
-/

namespace Nalu.UserFn
open Verif.Pde Real

/-! ## Rigid body motion -/

/-- `cross_product` (WindEnergyAuxFunction.C:110-115, MeshMotionAuxFunction.C:99-104). -/
def auxCross (o c : ℕ → ℝ) : ℕ → ℝ
  | 0 => o 1 * c 2 - o 2 * c 1
  | 1 => o 2 * c 0 - o 0 * c 2
  | _ => o 0 * c 1 - o 1 * c 0

/-- `WindEnergyAuxFunction::do_evaluate` body (WindEnergyAuxFunction.C:63-67, 93-101): `fs` is the number of components; the
entries of the local `c` beyond it stay zero. -/
def windEnergy (fs : ℕ) (omega : ℝ) (axis centroid : ℕ → ℝ) (blend : ℝ) (coords : ℕ → ℝ) (i : ℕ) : ℝ :=
  auxCross (fun k => omega * axis k) (fun k => if k < fs then coords k - centroid k else 0) i * blend

/-- `WindEnergyAuxFunction::setup` (WindEnergyAuxFunction.C:36-41, 77-82): one without a blending specification. -/
noncomputable def windBlend (tanh : Option (ℝ × ℝ)) (time : ℝ) : ℝ :=
  match tanh with
  | none => 1
  | some (c1, c2) => Nalu.Peclet.tanhFunction c1 c2 time

/-- `MeshMotionAuxFunction::do_evaluate` body (MeshMotionAuxFunction.C:81-92). -/
def meshMotionAux (fs : ℕ) (omega centroid disp vel : ℕ → ℝ) (coords : ℕ → ℝ) (i : ℕ) : ℝ :=
  auxCross omega (fun k => if k < fs then coords k - (centroid k + disp k) else 0) i + vel i

/-! ## Square duct -/

/-- `m` of the series (OneTwoTenVelocityAuxFunction.C:52). -/
noncomputable def ductM (b : ℝ) (n : ℕ) : ℝ := (2 * n + 1) * π / 2 / b

/-- One term (OneTwoTenVelocityAuxFunction.C:53). -/
noncomputable def ductTerm (a b : ℝ) (n : ℕ) (x y : ℝ) : ℝ :=
  (-1) ^ n * 1 / ductM b n / ductM b n / ductM b n * (cos (ductM b n * y) * cosh (ductM b n * x)) / cosh (ductM b n * a)

/-- `w` (OneTwoTenVelocityAuxFunction.C:46-55) with `N` terms; the class uses 100, a = 0.5, b = 1. -/
noncomputable def ductW (dpdz mu a b : ℝ) (N : ℕ) (p : Pt) : ℝ :=
  -1 / 2 / mu * dpdz * (b * b - p 1 * p 1 - 4 / b * ∑ n ∈ Finset.range N, ductTerm a b n (p 0) (p 1))

/-! ## Temperature around a cylinder -/

/-- The angle in degrees (FlowPastCylinderTempAuxFunction.C:78-92). -/
noncomputable def cylTheta (h k x y : ℝ) : ℝ :=
  let radius := sqrt ((x - h) * (x - h) + (y - k) * (y - k))
  let thetaRaw := 180 / π * arcsin ((y - k) / radius)
  if x < h then (if y > k then thetaRaw else 360 + thetaRaw)
  else (if y > k then 180 - thetaRaw else 180 - thetaRaw)

/-- `find_index` (FlowPastCylinderTempAuxFunction.C:104-128) with C++ integer division; `none` if `fuel` calls are not enough. -/
def cylFindIndex {K : Type*} [LinearOrder K] (dat : ℤ → K × K) (z : K) : ℕ → ℤ → ℤ → Option ℤ
  | 0, _, _ => none
  | fuel + 1, iMin, iMax =>
    let iMid := Int.tdiv (iMin + iMax) 2
    let candidateZ := (dat iMid).1
    if iMid < iMin then some iMid
    else if z < candidateZ then cylFindIndex dat z fuel iMin (iMid - 1)
    else cylFindIndex dat z fuel (iMid + 1) iMax

/-- `local_interpolation` (FlowPastCylinderTempAuxFunction.C:166-179). -/
def cylLocal {K : Type*} [Field K] (dat : ℤ → K × K) (z : K) (i0 i1 : ℤ) : K :=
  (dat i0).2 + ((dat i1).2 - (dat i0).2) * (z - (dat i0).1) / ((dat i1).1 - (dat i0).1)

/-- `interpolate_data` (FlowPastCylinderTempAuxFunction.C:131-162), `iMin_ = 0`, `iMax_` the last index (24 in the class). -/
def cylInterp {K : Type*} [Field K] [LinearOrder K] (dat : ℤ → K × K) (fuel : ℕ) (iMax : ℤ) (z : K) : Option K :=
  if z < (dat 0).1 then some (dat 0).2
  else if (dat iMax).1 < z then some (dat iMax).2
  else (cylFindIndex dat z fuel 0 iMax).map (fun found =>
    if found = 0 then cylLocal dat z found (found + 1)
    else if found = iMax then cylLocal dat z (found - 1) found
    else if z < (dat found).1 then cylLocal dat z (found - 1) found
    else cylLocal dat z found (found + 1))

/-- The 25 rows of the class (FlowPastCylinderTempAuxFunction.C:28-52), angle and temperature in ten-billionths of a degree
Celsius. -/
def cylRows : List (ℕ × ℕ) :=
  [(0, 348567771912), (15, 349078674316), (30, 356716117859), (45, 365256385803), (60, 379703292847), (75, 388416900635),
   (90, 403171539307), (105, 420815200806), (120, 412935409546), (135, 409183769226), (150, 402051162720), (165, 403736419678),
   (180, 403435249329), (195, 405962333679), (210, 407046546936), (225, 405719375610), (240, 395904731750), (255, 380906562805),
   (270, 367716522217), (285, 359330558777), (300, 352598419189), (315, 349156837463), (330, 344239540100), (345, 342773284912),
   (360, 348567771912)]

/-- `experimentalData_`. -/
noncomputable def cylData (i : ℤ) : ℝ × ℝ :=
  let r := cylRows.getD i.toNat (0, 0)
  ((r.1 : ℝ), (r.2 : ℝ) / 10 ^ 10)

/-- The value in kelvin (FlowPastCylinderTempAuxFunction.C:95-98). -/
noncomputable def cylTemp (h k x y : ℝ) : Option ℝ := (cylInterp cylData 32 24 (cylTheta h k x y)).map (fun T => T + 273.15)

/-! ## Conduction between spheres -/

/-- `ConcentricAuxFunction::do_evaluate` body (ConcentricAuxFunction.C:48-54). -/
noncomputable def concentric (ti t1 ri r1 : ℝ) (p : Pt) : ℝ :=
  let R := sqrt (p 0 * p 0 + p 1 * p 1 + p 2 * p 2)
  ti + (t1 - ti) * (1 / ri - 1 / R) / (1 / ri - 1 / r1)

/-! ## Inflow profiles -/

/-- `PowerlawPipeVelocityAuxFunction::do_evaluate` body, third component (PowerlawPipeVelocityAuxFunction.C:43, 59-67); `n` is
the fifth parameter, the exponent is its inverse. -/
noncomputable def pipeVelocity (uc xc yc R n x y : ℝ) : ℝ :=
  let r := sqrt ((x - xc) * (x - xc) + (y - yc) * (y - yc))
  let powArg := max 0 (1 - r / R)
  uc * powArg ^ (1 / n)

/-- `PowerlawVelocityAuxFunction::do_evaluate` body, third component (PowerlawVelocityAuxFunction.C:36, 54-57). -/
noncomputable def powerlawVelocity (uKnown yKnown n y : ℝ) : ℝ :=
  let cY := max (1 / 10 ^ 16) y
  uKnown * (cY / yKnown) ^ (1 / n)

/-- `PulseVelocityAuxFunction::do_evaluate` body (PulseVelocityAuxFunction.C:51-56). -/
noncomputable def pulseVelocity (u : ℕ → ℝ) (pulseTime time : ℝ) (i : ℕ) : ℝ := u i * (if time > pulseTime then 0 else 1)

/-- `ScalarGaussianAuxFunction::do_evaluate` body (ScalarGaussianAuxFunction.C:54-56). -/
noncomputable def gaussian (a b c s : ℝ) : ℝ := a * exp (-(1 / 2) * (s - b) * (s - b) / (c * c))

/-- `SinProfilePipeFlowVelocityAuxFunction::do_evaluate` body (SinProfilePipeFlowVelocityAuxFunction.C:56-61). -/
noncomputable def sinPipe (umag a : ℝ) (pert : ℕ → ℝ) (z : ℝ) (i : ℕ) : ℝ := umag * sin (π * a * z) * pert i

/-! ## Perturbed initial flows -/

/-- `dampfun` (BoundaryLayerPerturbationAuxFunction.C:59). -/
noncomputable def blDamp (thick z : ℝ) : ℝ := exp (-z / thick) * z / thick / exp (-1)

/-- `Umean` (BoundaryLayerPerturbationAuxFunction.C:60-61). -/
noncomputable def blMean (thick uInf z : ℝ) : ℝ := min ((z / (5 * thick)) ^ ((1 : ℝ) / 7)) 1 * uInf

/-- `BoundaryLayerPerturbationAuxFunction::do_evaluate` body (BoundaryLayerPerturbationAuxFunction.C:63-69). -/
noncomputable def blVelocity (A kx ky thick uInf : ℝ) : Fin 3 → Pt → ℝ :=
  ![fun p => blMean thick uInf (p 2) + A * cos (kx * p 0) * cos (ky * p 1) * blDamp thick (p 2),
    fun p => A * kx / ky * sin (kx * p 0) * sin (ky * p 1) * blDamp thick (p 2),
    fun _ => 0]

/-- `ubase` (ChannelFlowPerturbedPlugVelocityAuxFunction.C:67). -/
noncomputable def plugBase (um Ly y : ℝ) : ℝ := um * tanh (8 * y) * tanh (8 * (Ly - y))

/-- `ChannelFlowPerturbedPlugVelocityAuxFunction::do_evaluate` body (ChannelFlowPerturbedPlugVelocityAuxFunction.C:63-70):
streamwise, spanwise and normal component of the coordinates in the same order. -/
noncomputable def plugVelocity (um Lx Ly Lz x y z : ℝ) : Fin 3 → ℝ :=
  let ubase := plugBase um Ly y
  ![ubase + 0.05 * ubase * sin (8 * π / Lx * x) * cos (4 * π / Lz * z),
    0.05 * ubase * cos (8 * π / Lx * x) * sin (4 * π / Lz * z),
    0.05 * ubase * sin (4 * π / Lx * x) * cos (2 * π / Lz * z)]

/-! ## Mixture fraction fields -/

/-- `RayleighTaylorMixFracAuxFunction::do_evaluate` body (RayleighTaylorMixFracAuxFunction.C:54-76). -/
noncomputable def rtMixFrac (aX tX yTr dTr surf x y : ℝ) : ℝ :=
  let ymin := yTr - dTr / 2
  let ymax := yTr + dTr / 2
  let dy := -aX * cos (2 * tX * π * x)
  let yy := y + dy
  if yy < ymin then 0 else if yy > ymax then 1 else surf * 1 / 2 * (1 - sin (π * yy / dTr))

/-- `RecMixFracAuxFunction::do_evaluate` body (RecMixFracAuxFunction.C:39-45). -/
noncomputable def recMixFrac (x z : ℝ) : ℝ := if x < 1.228 ∧ z < 0.55 then 1 else 0

/-- `SinVofAuxFunction::do_evaluate` body (SinVofAuxFunction.C:53-57). -/
noncomputable def sinVof (lambda a0 s height : ℝ) : ℝ := if height ≥ a0 * cos (2 * π * s / lambda) then 0 else 1

end Nalu.UserFn
