import Verif.Spec.Pde
import Mathlib.Analysis.SpecialFunctions.Sqrt
import Mathlib.Analysis.SpecialFunctions.Exp
import Mathlib.Analysis.SpecialFunctions.Complex.Arg

/-!
# Model of the two-dimensional and Boussinesq manufactured solutions and of the exact flows

Models `/repo/src/user_functions/{SteadyTaylorVortex*, SteadyThermal*, BoussinesqNonIso*, ConvectingTaylorVortex*,
Kovasznay*, WindEnergyTaylorVortex*, TaylorGreen*}`.  Each function gives the value at a point `p = (x, y, z, t)`; the loops
over the points of a bucket and the interpolation of the coordinates to the integration points are not modelled.  Constants hard-wired in the
classes are parameters; `acos(-1)` and `M_PI` are `Real.pi`; the third velocity component of two-dimensional cases is 0.
-/

namespace Nalu.Exact
open Verif.Pde Real

/-! ## Steady Taylor vortex -/

/-- Constants (SteadyTaylorVortexContinuitySrcElemKernel.C:36-46, SteadyTaylorVortexMomentumSrcElemKernel.C:35-38). -/
structure STV where
  rhoP : ℝ
  rhoS : ℝ
  unot : ℝ
  vnot : ℝ
  znot : ℝ
  pnot : ℝ
  a : ℝ
  amf : ℝ
  visc : ℝ

/-- The values in the constructors. -/
noncomputable def STV.code : STV :=
  { rhoP := 1, rhoS := 1, unot := 1, vnot := 1, znot := 1, pnot := 1, a := 20, amf := 10, visc := 1 / 1000 }

/-- `SteadyTaylorVortexVelocityAuxFunction::do_evaluate` (SteadyTaylorVortexVelocityAuxFunction.C:43-53), component 0. -/
noncomputable def stvU (P : STV) (p : Pt) : ℝ := -P.unot * cos (P.a * π * p 0) * sin (P.a * π * p 1)
/-- Component 1 (SteadyTaylorVortexVelocityAuxFunction.C:49). -/
noncomputable def stvV (P : STV) (p : Pt) : ℝ := P.vnot * sin (P.a * π * p 0) * cos (P.a * π * p 1)
/-- The velocity. -/
noncomputable def stvVel (P : STV) : Fin 3 → Pt → ℝ := ![stvU P, stvV P, fun _ => 0]
/-- `SteadyTaylorVortexPressureAuxFunction::do_evaluate` (SteadyTaylorVortexPressureAuxFunction.C:40-49). -/
noncomputable def stvPressure (P : STV) (p : Pt) : ℝ := -P.pnot / 4 * (cos (2 * P.a * π * p 0) + cos (2 * P.a * π * p 1))
/-- `SteadyTaylorVortexGradPressureAuxFunction::do_evaluate` (SteadyTaylorVortexGradPressureAuxFunction.C:41-51). -/
noncomputable def stvGradP (P : STV) (p : Pt) : Fin 3 → ℝ :=
  ![P.a * π / 2 * sin (2 * P.a * π * p 0), P.a * π / 2 * sin (2 * P.a * π * p 1), 0]
/-- `w_src` (SteadyTaylorVortexMomentumSrcElemKernel.C:91-93). -/
noncomputable def stvMomentumSrc (P : STV) (p : Pt) : Fin 3 → ℝ :=
  ![-2 * P.unot * P.a * P.a * π * π * P.visc * cos (P.a * π * p 0) * sin (P.a * π * p 1),
    2 * P.unot * P.a * P.a * π * π * P.visc * sin (P.a * π * p 0) * cos (P.a * π * p 1), 0]

/-- `src` of the continuity source (user_functions/SteadyTaylorVortexContinuitySrcElemKernel.C:103). -/
noncomputable def stvContinuitySrc (P : STV) (p : Pt) : ℝ :=
    1 * (((P.znot * Real.cos (P.amf * Real.pi * p 0) * Real.cos (P.amf * Real.pi * p 1) / P.rhoP + (1 -
      P.znot * Real.cos (P.amf * Real.pi * p 0) * Real.cos (P.amf * Real.pi * p 1)) / P.rhoS) ^ 2)⁻¹) * P.unot * Real.cos (P.a * Real.pi * p 0) * Real.sin (P.a * Real.pi * p 1) * (-P.znot * Real.sin (P.amf * Real.pi * p 0) * P.amf * Real.pi * Real.cos (P.amf * Real.pi * p 1) / P.rhoP +
      P.znot * Real.sin (P.amf * Real.pi * p 0) * P.amf * Real.pi * Real.cos (P.amf * Real.pi * p 1) / P.rhoS) +
      1 / (P.znot * Real.cos (P.amf * Real.pi * p 0) * Real.cos (P.amf * Real.pi * p 1) / P.rhoP + (1 -
      P.znot * Real.cos (P.amf * Real.pi * p 0) * Real.cos (P.amf * Real.pi * p 1)) / P.rhoS) * P.unot * Real.sin (P.a * Real.pi * p 0) * P.a * Real.pi * Real.sin (P.a * Real.pi * p 1) -
      1 * (((P.znot * Real.cos (P.amf * Real.pi * p 0) * Real.cos (P.amf * Real.pi * p 1) / P.rhoP + (1 -
      P.znot * Real.cos (P.amf * Real.pi * p 0) * Real.cos (P.amf * Real.pi * p 1)) / P.rhoS) ^ 2)⁻¹) * P.vnot * Real.sin (P.a * Real.pi * p 0) * Real.cos (P.a * Real.pi * p 1) * (-P.znot * Real.cos (P.amf * Real.pi * p 0) * Real.sin (P.amf * Real.pi * p 1) * P.amf * Real.pi / P.rhoP +
      P.znot * Real.cos (P.amf * Real.pi * p 0) * Real.sin (P.amf * Real.pi * p 1) * P.amf * Real.pi / P.rhoS) -
      1 / (P.znot * Real.cos (P.amf * Real.pi * p 0) * Real.cos (P.amf * Real.pi * p 1) / P.rhoP + (1 -
      P.znot * Real.cos (P.amf * Real.pi * p 0) * Real.cos (P.amf * Real.pi * p 1)) / P.rhoS) * P.vnot * Real.sin (P.a * Real.pi * p 0) * Real.sin (P.a * Real.pi * p 1) * P.a * Real.pi

/-! ## Steady conduction -/

/-- `SteadyThermalContactAuxFunction::do_evaluate` (SteadyThermalContactAuxFunction.C:44-48). -/
noncomputable def thermal2 (k a : ℝ) (p : Pt) : ℝ := k / 4 * (cos (2 * a * π * p 0) + cos (2 * a * π * p 1))
/-- `SteadyThermal3dContactAuxFunction::do_evaluate` (SteadyThermal3dContactAuxFunction.C:44-49). -/
noncomputable def thermal3 (k a : ℝ) (p : Pt) : ℝ := k / 4 * (cos (2 * a * π * p 0) + cos (2 * a * π * p 1) + cos (2 * a * π * p 2))
/-- `SteadyThermal3dContactDtDxAuxFunction::do_evaluate` (SteadyThermal3dContactDtDxAuxFunction.C:42-55). -/
noncomputable def thermal3Grad (k a : ℝ) (p : Pt) : Fin 3 → ℝ :=
  let fac := 2 * a * π * k / 4
  ![-fac * sin (2 * a * π * p 0), -fac * sin (2 * a * π * p 1), -fac * sin (2 * a * π * p 2)]
/-- Source per unit volume of `SteadyThermalContactSrcNodeSuppAlg` and `SteadyThermalContactSrcElemSuppAlg`
(SteadyThermalContactSrcNodeSuppAlg.C:70, SteadyThermalContactSrcElemSuppAlg.C:142). -/
noncomputable def thermal2Src (k a : ℝ) (p : Pt) : ℝ :=
  k / 4 * (2 * a * π) * (2 * a * π) * (cos (2 * a * π * p 0) + cos (2 * a * π * p 1))
/-- Source per unit volume of `SteadyThermalContact3DSrcNodeSuppAlg` and `SteadyThermal3dContactSrcElemKernel`
(SteadyThermalContact3DSrcNodeSuppAlg.C:71, SteadyThermal3dContactSrcElemKernel.C:83-86). -/
noncomputable def thermal3Src (k a : ℝ) (p : Pt) : ℝ :=
  k / 4 * (2 * a * π) * (2 * a * π) * (cos (2 * a * π * p 0) + cos (2 * a * π * p 1) + cos (2 * a * π * p 2))

/-! ## Boussinesq flow -/

/-- `BoussinesqNonIsoVelocityAuxFunction::do_evaluate` (BoussinesqNonIsoVelocityAuxFunction.C:48-54), component 0. -/
noncomputable def bsqU (p : Pt) : ℝ := 1 / 2 * cos (2 * π * p 0) * sin (2 * π * p 1) * sin (2 * π * p 2)
/-- Component 1. -/
noncomputable def bsqV (p : Pt) : ℝ := -sin (2 * π * p 0) * cos (2 * π * p 1) * sin (2 * π * p 2)
/-- Component 2. -/
noncomputable def bsqW (p : Pt) : ℝ := 1 / 2 * sin (2 * π * p 0) * sin (2 * π * p 1) * cos (2 * π * p 2)
/-- The velocity. -/
noncomputable def bsqVel : Fin 3 → Pt → ℝ := ![bsqU, bsqV, bsqW]
/-- `BoussinesqNonIsoTemperatureAuxFunction::do_evaluate` (BoussinesqNonIsoTemperatureAuxFunction.C:41-48); the code has
`Cp = 0.01`, `Tref = 300`. -/
noncomputable def bsqTemp (Cp Tref : ℝ) (p : Pt) : ℝ := p 2 / Cp + Tref
/-- `src` (BoussinesqNonIsoEnthalpySrcNodeSuppAlg.C:70). -/
noncomputable def bsqEnthalpySrc (p : Pt) : ℝ := cos (2 * π * p 2) * sin (2 * π * p 0) * sin (2 * π * p 1) / 2
/-- `srcXi` (BoussinesqNonIsoMomentumSrcNodeSuppAlg.C:80-83). -/
noncomputable def bsqSrcXi (mu : ℝ) (p : Pt) : Fin 3 → ℝ :=
  ![-(π * (1 + cos (4 * π * p 1) - 2 * cos (4 * π * p 2)) * sin (4 * π * p 0)) / 8
      + 6 * mu * (π * π) * cos (2 * π * p 0) * sin (2 * π * p 1) * sin (2 * π * p 2),
    π * ((-2 + cos (4 * π * p 0) + cos (4 * π * p 2)) * sin (4 * π * p 1)
      - 48 * mu * π * cos (2 * π * p 1) * sin (2 * π * p 0) * sin (2 * π * p 2)) / 4,
    π * (24 * mu * π * cos (2 * π * p 2) * sin (2 * π * p 0) * sin (2 * π * p 1)
      + (cos (4 * π * p 0) - cos (2 * π * p 1) * cos (2 * π * p 1)) * sin (4 * π * p 2)) / 4]
/-- `rhs[d]` added by `BoussinesqNonIsoMomentumSrcNodeSuppAlg::node_execute` (BoussinesqNonIsoMomentumSrcNodeSuppAlg.C:66-99). -/
noncomputable def bsqMomentumRhs (mu Cp TRef rhoRef beta : ℝ) (g : Fin 3 → ℝ) (p : Pt) (dualVolume : ℝ) (d : Fin 3) : ℝ :=
  let h := p 2
  let temperature := h / Cp + TRef
  let fac := rhoRef * beta * (temperature - TRef) * dualVolume
  bsqSrcXi mu p d * dualVolume + fac * g d

/-! ## Convecting Taylor vortex -/

/-- `ConvectingTaylorVortexVelocityAuxFunction::do_evaluate` (ConvectingTaylorVortexVelocityAuxFunction.C:43-52), component 0. -/
noncomputable def ctvU (u0 v0 visc : ℝ) (p : Pt) : ℝ :=
  let omega := π * π * visc
  u0 - cos (π * (p 0 - u0 * p 3)) * sin (π * (p 1 - v0 * p 3)) * exp (-2 * omega * p 3)
/-- Component 1. -/
noncomputable def ctvV (u0 v0 visc : ℝ) (p : Pt) : ℝ :=
  let omega := π * π * visc
  v0 + sin (π * (p 0 - u0 * p 3)) * cos (π * (p 1 - v0 * p 3)) * exp (-2 * omega * p 3)
/-- The velocity. -/
noncomputable def ctvVel (u0 v0 visc : ℝ) : Fin 3 → Pt → ℝ := ![ctvU u0 v0 visc, ctvV u0 v0 visc, fun _ => 0]
/-- `ConvectingTaylorVortexPressureAuxFunction::do_evaluate` (ConvectingTaylorVortexPressureAuxFunction.C:43-51). -/
noncomputable def ctvPressure (u0 v0 p0 visc : ℝ) (p : Pt) : ℝ :=
  let omega := π * π * visc;
  -(p0 / 4) * (cos (2 * π * (p 0 - u0 * p 3)) + cos (2 * π * (p 1 - v0 * p 3))) * exp (-4 * omega * p 3)
/-- `ConvectingTaylorVortexPressureGradAuxFunction::do_evaluate` (ConvectingTaylorVortexPressureAuxFunction.C:81-92). -/
noncomputable def ctvGradP (u0 v0 p0 visc : ℝ) (p : Pt) : Fin 3 → ℝ :=
  let omega := π * π * visc
  ![-(p0 / 4) * (-2 * π * sin (2 * π * (p 0 - u0 * p 3))) * exp (-4 * omega * p 3),
    -(p0 / 4) * (-2 * π * sin (2 * π * (p 1 - v0 * p 3))) * exp (-4 * omega * p 3), 0]

/-! ## Kovasznay flow -/

/-- `lambda` (KovasznayVelocityAuxFunction.C:44, KovasznayPressureAuxFunction.C:41,74). -/
noncomputable def kovLambda (Re : ℝ) : ℝ := 1 / 2 * Re - √(1 / 4 * Re * Re + 4 * π * π)
/-- `KovasznayVelocityAuxFunction::do_evaluate` (KovasznayVelocityAuxFunction.C:46-54) with `kx = ky = 2 pi`
(KovasznayVelocityAuxFunction.C:26-27), component 0. -/
noncomputable def kovU (Re : ℝ) (p : Pt) : ℝ := 1 - exp (kovLambda Re * p 0) * cos (2 * π * p 1)
/-- Component 1. -/
noncomputable def kovV (Re : ℝ) (p : Pt) : ℝ := kovLambda Re / (2 * π) * exp (kovLambda Re * p 0) * sin (2 * π * p 1)
/-- The velocity. -/
noncomputable def kovVel (Re : ℝ) : Fin 3 → Pt → ℝ := ![kovU Re, kovV Re, fun _ => 0]
/-- `KovasznayPressureAuxFunction::do_evaluate` (KovasznayPressureAuxFunction.C:41-49). -/
noncomputable def kovPressure (Re : ℝ) (p : Pt) : ℝ := 1 / 2 * (1 - exp (2 * kovLambda Re * p 0))
/-- `KovasznayPressureGradientAuxFunction::do_evaluate` (KovasznayPressureAuxFunction.C:74-84). -/
noncomputable def kovGradP (Re : ℝ) (p : Pt) : Fin 3 → ℝ := ![-kovLambda Re * exp (2 * kovLambda Re * p 0), 0, 0]

/-! ## Wind energy Taylor vortex -/

/-- Parameters (WindEnergyTaylorVortexAuxFunction.C:20-59). -/
structure WTV where
  centroidX : ℝ
  centroidY : ℝ
  rVortex : ℝ
  beta : ℝ
  uInf : ℝ
  density : ℝ
  visc : ℝ

/-- Defaults (WindEnergyTaylorVortexAuxFunction.C:25-31). -/
noncomputable def WTV.code : WTV :=
  { centroidX := -5 / 2, centroidY := 0, rVortex := 1 / 4, beta := 15, uInf := 10, density := 1 / 1000, visc := 1 / 10000 }

/-- `tFac` of the velocity (WindEnergyTaylorVortexAuxFunction.C:79-81); a division by zero gives no number. -/
noncomputable def wtvTFac (P : WTV) (time : ℝ) : Option ℝ :=
  let tHat := if P.visc > 1 / 10 ^ 30 then time * P.beta / P.rVortex else 0
  let Re := if P.visc > 1 / 10 ^ 30 then P.density * P.beta * P.rVortex / P.visc else 0
  if Re = 0 then none else some (1 + 2 * tHat / Re)

/-- `velX` and `velY` for a given `tFac` (WindEnergyTaylorVortexAuxFunction.C:83-96). -/
noncomputable def wtvAt (P : WTV) (tFac : ℝ) (p : Pt) : Fin 3 → ℝ :=
  let cDx := p 0 - (P.centroidX + P.uInf * p 3)
  let cDy := p 1 - P.centroidY
  let radius := √(cDx * cDx + cDy * cDy) / P.rVortex
  let factor := P.beta / (P.rVortex * tFac * tFac) * exp (1 / 2 * (1 - radius * radius / tFac))
  ![-factor * cDy + P.uInf, factor * cDx, 0]

/-- `WindEnergyTaylorVortexAuxFunction::do_evaluate` (WindEnergyTaylorVortexAuxFunction.C:68-99). -/
noncomputable def wtvVel (P : WTV) (p : Pt) : Option (Fin 3 → ℝ) := (wtvTFac P (p 3)).map fun tFac => wtvAt P tFac p

/-- `WindEnergyTaylorVortexPressureAuxFunction::do_evaluate` (WindEnergyTaylorVortexPressureAuxFunction.C:60-85). -/
noncomputable def wtvPressure (P : WTV) (p : Pt) : ℝ :=
  let coeff := -1 / 2 * exp 1 * P.beta * P.beta * P.density
  let cDx := p 0 - P.centroidX
  let cDy := p 1 - P.centroidY
  let radius := √(cDx * cDx + cDy * cDy) / P.rVortex
  coeff * exp (-radius * radius)

/-- `WindEnergyTaylorVortexPressureGradAuxFunction::do_evaluate` (WindEnergyTaylorVortexPressureAuxFunction.C:133-166);
`std::atan2(cDy, cDx)` is the argument of the complex number `cDx + i cDy`. -/
noncomputable def wtvGradP (P : WTV) (p : Pt) : Fin 3 → ℝ :=
  let tHat := p 3 * P.beta / P.rVortex
  let Re := P.density * P.beta * P.rVortex / P.visc
  let tFac := 1 + 2 * tHat / Re
  let cDx := p 0 - (P.centroidX + P.uInf * p 3)
  let cDy := p 1 - P.centroidY
  let radius := √(cDx * cDx + cDy * cDy) / P.rVortex
  let utheta := P.beta / (P.rVortex * tFac * tFac) * exp (1 / 2 * (1 - radius * radius / tFac))
  let gradFac := P.density * utheta * utheta
  let theta := Complex.arg ⟨cDx, cDy⟩
  ![gradFac * radius * P.rVortex * cos theta, gradFac * radius * P.rVortex * sin theta, 0]

/-! ## Taylor-Green vortex -/

/-- `TaylorGreenVelocityAuxFunction::do_evaluate` (TaylorGreenVelocityAuxFunction.C:47-55), component 0. -/
noncomputable def tgU (u0 L : ℝ) (p : Pt) : ℝ := u0 * sin (p 0 / L) * cos (p 1 / L) * cos (p 2 / L)
/-- Component 1. -/
noncomputable def tgV (u0 L : ℝ) (p : Pt) : ℝ := -u0 * cos (p 0 / L) * sin (p 1 / L) * cos (p 2 / L)
/-- The velocity. -/
noncomputable def tgVel (u0 L : ℝ) : Fin 3 → Pt → ℝ := ![tgU u0 L, tgV u0 L, fun _ => 0]
/-- `TaylorGreenPressureAuxFunction::do_evaluate` (TaylorGreenPressureAuxFunction.C:44-52). -/
noncomputable def tgPressure (u0 p0 rho0 L : ℝ) (p : Pt) : ℝ :=
  p0 + rho0 * u0 * u0 / 16 * (cos (2 * p 0 / L) + cos (2 * p 1 / L)) * (cos (2 * p 2 / L) + 2)

end Nalu.Exact
