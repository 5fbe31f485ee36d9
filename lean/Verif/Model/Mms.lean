import Verif.Spec.Pde

/-!
# Model of the manufactured solutions

Models `/repo/src/user_functions/VariableDensity*`: the analytical functions used as initial and boundary
conditions and by the solution norms, and the source terms (node and element versions have the same
expressions).  `std::acos(-1.0)` is `Real.pi`; the expressions of the sources are transcribed term by term
(`pow(e, -2.)` is `(e^2)⁻¹`).  The constants hard-wired in each class are parameters here; their values are
given by `VD.code`, `NI.code`.
-/

namespace Nalu.Mms
open Verif.Pde

/-- Constants of the variable density manufactured solution (constructors of
`VariableDensity{Velocity,Pressure,MixFrac}AuxFunction` and `VariableDensity{Continuity,MixFrac,Momentum}Src*SuppAlg`). -/
structure VD where
  unot : ℝ
  vnot : ℝ
  wnot : ℝ
  znot : ℝ
  pnot : ℝ
  rhoP : ℝ
  rhoS : ℝ
  a : ℝ
  amf : ℝ
  visc : ℝ
  Sc : ℝ
  twoThirds : ℝ
  rhoRef : ℝ
  g : Fin 3 → ℝ

/-- The values in the constructors (VariableDensityMomentumSrcNodeSuppAlg.C:33-55,
VariableDensityMixFracSrcNodeSuppAlg.C:30-43, VariableDensityContinuitySrcNodeSuppAlg.C:30-41,
VariableDensityVelocityAuxFunction.C:23-28, VariableDensityPressureAuxFunction.C:22-24, VariableDensityMixFracAuxFunction.C:22-24);
`divU`, reference density and gravity come from the solution options. -/
noncomputable def VD.code (divU rhoRef : ℝ) (g : Fin 3 → ℝ) : VD :=
  { unot := 1, vnot := 1, wnot := 1, znot := 1, pnot := 1, rhoP := 1 / 10, rhoS := 1, a := 20, amf := 10,
    visc := 1 / 1000, Sc := 8 / 10, twoThirds := 2 / 3 * divU, rhoRef := rhoRef, g := g }

/-- Constants of the non-isothermal variant (constructors of `VariableDensityNonIso*`). -/
structure NI where
  unot : ℝ
  vnot : ℝ
  wnot : ℝ
  hnot : ℝ
  pnot : ℝ
  a : ℝ
  ah : ℝ
  visc : ℝ
  Pref : ℝ
  MW : ℝ
  R : ℝ
  Tref : ℝ
  Cp : ℝ
  Pr : ℝ
  twoThirds : ℝ
  rhoRef : ℝ
  g : Fin 3 → ℝ

/-- The values in the constructors (VariableDensityNonIsoMomentumSrcNodeSuppAlg.C:33-57,
VariableDensityNonIsoEnthalpySrcNodeSuppAlg.C:30-46, VariableDensityNonIsoContinuitySrcNodeSuppAlg.C:30-46,
VariableDensityNonIsoTemperatureAuxFunction.C:22-25). -/
noncomputable def NI.code (divU rhoRef : ℝ) (g : Fin 3 → ℝ) : NI :=
  { unot := 1, vnot := 1, wnot := 1, hnot := 1, pnot := 1, a := 20, ah := 10, visc := 1 / 800, Pref := 100, MW := 30, R := 10,
    Tref := 300, Cp := 1 / 100, Pr := 8 / 10, twoThirds := 2 / 3 * divU, rhoRef := rhoRef, g := g }

/-- `fieldPtr[0]` (VariableDensityVelocityAuxFunction.C:50). -/
noncomputable def velU (unot a : ℝ) (p : Pt) : ℝ :=
  -unot * Real.cos (a * Real.pi * p 0) * Real.sin (a * Real.pi * p 1) * Real.sin (a * Real.pi * p 2)
/-- `fieldPtr[1]` (VariableDensityVelocityAuxFunction.C:51). -/
noncomputable def velV (vnot a : ℝ) (p : Pt) : ℝ :=
  vnot * Real.sin (a * Real.pi * p 0) * Real.cos (a * Real.pi * p 1) * Real.sin (a * Real.pi * p 2)
/-- `fieldPtr[2]` (VariableDensityVelocityAuxFunction.C:52). -/
noncomputable def velW (wnot a : ℝ) (p : Pt) : ℝ :=
  -wnot * Real.sin (a * Real.pi * p 0) * Real.sin (a * Real.pi * p 1) * Real.cos (a * Real.pi * p 2)
/-- `VariableDensityVelocityAuxFunction::do_evaluate` (VariableDensityVelocityAuxFunction.C:33-57), also used for
`VariableDensityNonIsoVelocity` (SolutionNormPostProcessing.C:247-249). -/
noncomputable def vel (unot vnot wnot a : ℝ) : Fin 3 → Pt → ℝ := ![velU unot a, velV vnot a, velW wnot a]

/-- `VariableDensityPressureAuxFunction::do_evaluate` (VariableDensityPressureAuxFunction.C:29-54). -/
noncomputable def pressure (pnot a : ℝ) (p : Pt) : ℝ :=
  -pnot / 4 * (Real.cos (2 * a * Real.pi * p 0) + Real.cos (2 * a * Real.pi * p 1) + Real.cos (2 * a * Real.pi * p 2))

/-- `VariableDensityMixFracAuxFunction::do_evaluate` (VariableDensityMixFracAuxFunction.C:29-52). -/
noncomputable def mixFrac (znot amf : ℝ) (p : Pt) : ℝ :=
  znot * Real.cos (amf * Real.pi * p 0) * Real.cos (amf * Real.pi * p 1) * Real.cos (amf * Real.pi * p 2)

/-- `VariableDensityNonIsoTemperatureAuxFunction::do_evaluate` (VariableDensityNonIsoTemperatureAuxFunction.C:31-57). -/
noncomputable def temperature (ah Cp Tref : ℝ) (p : Pt) : ℝ :=
  Real.cos (ah * Real.pi * p 0) * Real.cos (ah * Real.pi * p 1) * Real.cos (ah * Real.pi * p 2) / Cp + Tref

/-- `src` of the continuity source (user_functions/VariableDensityContinuitySrcNodeSuppAlg.C:79). -/
noncomputable def vdContinuitySrc (P : VD) (p : Pt) : ℝ :=
      1 * (((P.znot * Real.cos (P.amf * Real.pi * p 0) * Real.cos (P.amf * Real.pi * p 1) * Real.cos (P.amf * Real.pi * p 2) / P.rhoP +
      (1 -
      P.znot * Real.cos (P.amf * Real.pi * p 0) * Real.cos (P.amf * Real.pi * p 1) * Real.cos (P.amf * Real.pi * p 2)) / P.rhoS) ^ 2)⁻¹) * P.unot * Real.cos (P.a * Real.pi * p 0) * Real.sin (P.a * Real.pi * p 1) * Real.sin (P.a * Real.pi * p 2) * (-P.znot * Real.sin (P.amf * Real.pi * p 0) * P.amf * Real.pi * Real.cos (P.amf * Real.pi * p 1) * Real.cos (P.amf * Real.pi * p 2) / P.rhoP +
      P.znot * Real.sin (P.amf * Real.pi * p 0) * P.amf * Real.pi * Real.cos (P.amf * Real.pi * p 1) * Real.cos (P.amf * Real.pi * p 2) / P.rhoS) +
      1 / (P.znot * Real.cos (P.amf * Real.pi * p 0) * Real.cos (P.amf * Real.pi * p 1) * Real.cos (P.amf * Real.pi * p 2) / P.rhoP +
      (1 -
      P.znot * Real.cos (P.amf * Real.pi * p 0) * Real.cos (P.amf * Real.pi * p 1) * Real.cos (P.amf * Real.pi * p 2)) / P.rhoS) * P.unot * Real.sin (P.a * Real.pi * p 0) * P.a * Real.pi * Real.sin (P.a * Real.pi * p 1) * Real.sin (P.a * Real.pi * p 2) -
      1 * (((P.znot * Real.cos (P.amf * Real.pi * p 0) * Real.cos (P.amf * Real.pi * p 1) * Real.cos (P.amf * Real.pi * p 2) / P.rhoP +
      (1 -
      P.znot * Real.cos (P.amf * Real.pi * p 0) * Real.cos (P.amf * Real.pi * p 1) * Real.cos (P.amf * Real.pi * p 2)) / P.rhoS) ^ 2)⁻¹) * P.vnot * Real.sin (P.a * Real.pi * p 0) * Real.cos (P.a * Real.pi * p 1) * Real.sin (P.a * Real.pi * p 2) * (-P.znot * Real.cos (P.amf * Real.pi * p 0) * Real.sin (P.amf * Real.pi * p 1) * P.amf * Real.pi * Real.cos (P.amf * Real.pi * p 2) / P.rhoP +
      P.znot * Real.cos (P.amf * Real.pi * p 0) * Real.sin (P.amf * Real.pi * p 1) * P.amf * Real.pi * Real.cos (P.amf * Real.pi * p 2) / P.rhoS) -
      1 / (P.znot * Real.cos (P.amf * Real.pi * p 0) * Real.cos (P.amf * Real.pi * p 1) * Real.cos (P.amf * Real.pi * p 2) / P.rhoP +
      (1 -
      P.znot * Real.cos (P.amf * Real.pi * p 0) * Real.cos (P.amf * Real.pi * p 1) * Real.cos (P.amf * Real.pi * p 2)) / P.rhoS) * P.vnot * Real.sin (P.a * Real.pi * p 0) * Real.sin (P.a * Real.pi * p 1) * P.a * Real.pi * Real.sin (P.a * Real.pi * p 2) +
      1 * (((P.znot * Real.cos (P.amf * Real.pi * p 0) * Real.cos (P.amf * Real.pi * p 1) * Real.cos (P.amf * Real.pi * p 2) / P.rhoP +
      (1 -
      P.znot * Real.cos (P.amf * Real.pi * p 0) * Real.cos (P.amf * Real.pi * p 1) * Real.cos (P.amf * Real.pi * p 2)) / P.rhoS) ^ 2)⁻¹) * P.wnot * Real.sin (P.a * Real.pi * p 0) * Real.sin (P.a * Real.pi * p 1) * Real.cos (P.a * Real.pi * p 2) * (-P.znot * Real.cos (P.amf * Real.pi * p 0) * Real.cos (P.amf * Real.pi * p 1) * Real.sin (P.amf * Real.pi * p 2) * P.amf * Real.pi / P.rhoP +
      P.znot * Real.cos (P.amf * Real.pi * p 0) * Real.cos (P.amf * Real.pi * p 1) * Real.sin (P.amf * Real.pi * p 2) * P.amf * Real.pi / P.rhoS) +
      1 / (P.znot * Real.cos (P.amf * Real.pi * p 0) * Real.cos (P.amf * Real.pi * p 1) * Real.cos (P.amf * Real.pi * p 2) / P.rhoP +
      (1 -
      P.znot * Real.cos (P.amf * Real.pi * p 0) * Real.cos (P.amf * Real.pi * p 1) * Real.cos (P.amf * Real.pi * p 2)) / P.rhoS) * P.wnot * Real.sin (P.a * Real.pi * p 0) * Real.sin (P.a * Real.pi * p 1) * Real.sin (P.a * Real.pi * p 2) * P.a * Real.pi

/-- `src` of the mixture fraction source (user_functions/VariableDensityMixFracSrcNodeSuppAlg.C:81). -/
noncomputable def vdMixFracSrc (P : VD) (p : Pt) : ℝ :=
      1 * (((P.znot * Real.cos (P.amf * Real.pi * p 0) * Real.cos (P.amf * Real.pi * p 1) * Real.cos (P.amf * Real.pi * p 2) / P.rhoP +
      (1 -
      P.znot * Real.cos (P.amf * Real.pi * p 0) * Real.cos (P.amf * Real.pi * p 1) * Real.cos (P.amf * Real.pi * p 2)) / P.rhoS) ^ 2)⁻¹) * P.unot * Real.cos (P.a * Real.pi * p 0) * Real.sin (P.a * Real.pi * p 1) * Real.sin (P.a * Real.pi * p 2) * P.znot * Real.cos (P.amf * Real.pi * p 0) * Real.cos (P.amf * Real.pi * p 1) * Real.cos (P.amf * Real.pi * p 2) * (-P.znot * Real.sin (P.amf * Real.pi * p 0) * P.amf * Real.pi * Real.cos (P.amf * Real.pi * p 1) * Real.cos (P.amf * Real.pi * p 2) / P.rhoP +
      P.znot * Real.sin (P.amf * Real.pi * p 0) * P.amf * Real.pi * Real.cos (P.amf * Real.pi * p 1) * Real.cos (P.amf * Real.pi * p 2) / P.rhoS) +
      1 / (P.znot * Real.cos (P.amf * Real.pi * p 0) * Real.cos (P.amf * Real.pi * p 1) * Real.cos (P.amf * Real.pi * p 2) / P.rhoP +
      (1 -
      P.znot * Real.cos (P.amf * Real.pi * p 0) * Real.cos (P.amf * Real.pi * p 1) * Real.cos (P.amf * Real.pi * p 2)) / P.rhoS) * P.unot * Real.sin (P.a * Real.pi * p 0) * P.a * Real.pi * Real.sin (P.a * Real.pi * p 1) * Real.sin (P.a * Real.pi * p 2) * P.znot * Real.cos (P.amf * Real.pi * p 0) * Real.cos (P.amf * Real.pi * p 1) * Real.cos (P.amf * Real.pi * p 2) +
      1 / (P.znot * Real.cos (P.amf * Real.pi * p 0) * Real.cos (P.amf * Real.pi * p 1) * Real.cos (P.amf * Real.pi * p 2) / P.rhoP +
      (1 -
      P.znot * Real.cos (P.amf * Real.pi * p 0) * Real.cos (P.amf * Real.pi * p 1) * Real.cos (P.amf * Real.pi * p 2)) / P.rhoS) * P.unot * Real.cos (P.a * Real.pi * p 0) * Real.sin (P.a * Real.pi * p 1) * Real.sin (P.a * Real.pi * p 2) * P.znot * Real.sin (P.amf * Real.pi * p 0) * P.amf * Real.pi * Real.cos (P.amf * Real.pi * p 1) * Real.cos (P.amf * Real.pi * p 2) -
      1 * (((P.znot * Real.cos (P.amf * Real.pi * p 0) * Real.cos (P.amf * Real.pi * p 1) * Real.cos (P.amf * Real.pi * p 2) / P.rhoP +
      (1 -
      P.znot * Real.cos (P.amf * Real.pi * p 0) * Real.cos (P.amf * Real.pi * p 1) * Real.cos (P.amf * Real.pi * p 2)) / P.rhoS) ^ 2)⁻¹) * P.vnot * Real.sin (P.a * Real.pi * p 0) * Real.cos (P.a * Real.pi * p 1) * Real.sin (P.a * Real.pi * p 2) * P.znot * Real.cos (P.amf * Real.pi * p 0) * Real.cos (P.amf * Real.pi * p 1) * Real.cos (P.amf * Real.pi * p 2) * (-P.znot * Real.cos (P.amf * Real.pi * p 0) * Real.sin (P.amf * Real.pi * p 1) * P.amf * Real.pi * Real.cos (P.amf * Real.pi * p 2) / P.rhoP +
      P.znot * Real.cos (P.amf * Real.pi * p 0) * Real.sin (P.amf * Real.pi * p 1) * P.amf * Real.pi * Real.cos (P.amf * Real.pi * p 2) / P.rhoS) -
      1 / (P.znot * Real.cos (P.amf * Real.pi * p 0) * Real.cos (P.amf * Real.pi * p 1) * Real.cos (P.amf * Real.pi * p 2) / P.rhoP +
      (1 -
      P.znot * Real.cos (P.amf * Real.pi * p 0) * Real.cos (P.amf * Real.pi * p 1) * Real.cos (P.amf * Real.pi * p 2)) / P.rhoS) * P.vnot * Real.sin (P.a * Real.pi * p 0) * Real.sin (P.a * Real.pi * p 1) * P.a * Real.pi * Real.sin (P.a * Real.pi * p 2) * P.znot * Real.cos (P.amf * Real.pi * p 0) * Real.cos (P.amf * Real.pi * p 1) * Real.cos (P.amf * Real.pi * p 2) -
      1 / (P.znot * Real.cos (P.amf * Real.pi * p 0) * Real.cos (P.amf * Real.pi * p 1) * Real.cos (P.amf * Real.pi * p 2) / P.rhoP +
      (1 -
      P.znot * Real.cos (P.amf * Real.pi * p 0) * Real.cos (P.amf * Real.pi * p 1) * Real.cos (P.amf * Real.pi * p 2)) / P.rhoS) * P.vnot * Real.sin (P.a * Real.pi * p 0) * Real.cos (P.a * Real.pi * p 1) * Real.sin (P.a * Real.pi * p 2) * P.znot * Real.cos (P.amf * Real.pi * p 0) * Real.sin (P.amf * Real.pi * p 1) * P.amf * Real.pi * Real.cos (P.amf * Real.pi * p 2) +
      1 * (((P.znot * Real.cos (P.amf * Real.pi * p 0) * Real.cos (P.amf * Real.pi * p 1) * Real.cos (P.amf * Real.pi * p 2) / P.rhoP +
      (1 -
      P.znot * Real.cos (P.amf * Real.pi * p 0) * Real.cos (P.amf * Real.pi * p 1) * Real.cos (P.amf * Real.pi * p 2)) / P.rhoS) ^ 2)⁻¹) * P.wnot * Real.sin (P.a * Real.pi * p 0) * Real.sin (P.a * Real.pi * p 1) * Real.cos (P.a * Real.pi * p 2) * P.znot * Real.cos (P.amf * Real.pi * p 0) * Real.cos (P.amf * Real.pi * p 1) * Real.cos (P.amf * Real.pi * p 2) * (-P.znot * Real.cos (P.amf * Real.pi * p 0) * Real.cos (P.amf * Real.pi * p 1) * Real.sin (P.amf * Real.pi * p 2) * P.amf * Real.pi / P.rhoP +
      P.znot * Real.cos (P.amf * Real.pi * p 0) * Real.cos (P.amf * Real.pi * p 1) * Real.sin (P.amf * Real.pi * p 2) * P.amf * Real.pi / P.rhoS) +
      1 / (P.znot * Real.cos (P.amf * Real.pi * p 0) * Real.cos (P.amf * Real.pi * p 1) * Real.cos (P.amf * Real.pi * p 2) / P.rhoP +
      (1 -
      P.znot * Real.cos (P.amf * Real.pi * p 0) * Real.cos (P.amf * Real.pi * p 1) * Real.cos (P.amf * Real.pi * p 2)) / P.rhoS) * P.wnot * Real.sin (P.a * Real.pi * p 0) * Real.sin (P.a * Real.pi * p 1) * Real.sin (P.a * Real.pi * p 2) * P.a * Real.pi * P.znot * Real.cos (P.amf * Real.pi * p 0) * Real.cos (P.amf * Real.pi * p 1) * Real.cos (P.amf * Real.pi * p 2) +
      1 / (P.znot * Real.cos (P.amf * Real.pi * p 0) * Real.cos (P.amf * Real.pi * p 1) * Real.cos (P.amf * Real.pi * p 2) / P.rhoP +
      (1 -
      P.znot * Real.cos (P.amf * Real.pi * p 0) * Real.cos (P.amf * Real.pi * p 1) * Real.cos (P.amf * Real.pi * p 2)) / P.rhoS) * P.wnot * Real.sin (P.a * Real.pi * p 0) * Real.sin (P.a * Real.pi * p 1) * Real.cos (P.a * Real.pi * p 2) * P.znot * Real.cos (P.amf * Real.pi * p 0) * Real.cos (P.amf * Real.pi * p 1) * Real.sin (P.amf * Real.pi * p 2) * P.amf * Real.pi +
      3 * P.visc / P.Sc * P.znot * Real.cos (P.amf * Real.pi * p 0) * P.amf * P.amf * Real.pi * Real.pi * Real.cos (P.amf * Real.pi * p 1) * Real.cos (P.amf * Real.pi * p 2)

/-- `srcXi_[0]` of the momentum source (user_functions/VariableDensityMomentumSrcNodeSuppAlg.C:96). -/
noncomputable def vdMomentumSrc0 (P : VD) (p : Pt) : ℝ :=
      -1 * (((P.znot * Real.cos (P.amf * Real.pi * p 0) * Real.cos (P.amf * Real.pi * p 1) * Real.cos (P.amf * Real.pi * p 2) / P.rhoP +
      (1 -
      P.znot * Real.cos (P.amf * Real.pi * p 0) * Real.cos (P.amf * Real.pi * p 1) * Real.cos (P.amf * Real.pi * p 2)) / P.rhoS) ^ 2)⁻¹) * P.unot * P.unot * ((Real.cos (P.a * Real.pi * p 0)) ^ 2) * ((Real.sin (P.a * Real.pi * p 1)) ^ 2) * ((Real.sin (P.a * Real.pi * p 2)) ^ 2) * (-P.znot * Real.sin (P.amf * Real.pi * p 0) * P.amf * Real.pi * Real.cos (P.amf * Real.pi * p 1) * Real.cos (P.amf * Real.pi * p 2) / P.rhoP +
      P.znot * Real.sin (P.amf * Real.pi * p 0) * P.amf * Real.pi * Real.cos (P.amf * Real.pi * p 1) * Real.cos (P.amf * Real.pi * p 2) / P.rhoS) -
      2 / (P.znot * Real.cos (P.amf * Real.pi * p 0) * Real.cos (P.amf * Real.pi * p 1) * Real.cos (P.amf * Real.pi * p 2) / P.rhoP +
      (1 -
      P.znot * Real.cos (P.amf * Real.pi * p 0) * Real.cos (P.amf * Real.pi * p 1) * Real.cos (P.amf * Real.pi * p 2)) / P.rhoS) * P.unot * P.unot * Real.cos (P.a * Real.pi * p 0) * ((Real.sin (P.a * Real.pi * p 1)) ^ 2) * ((Real.sin (P.a * Real.pi * p 2)) ^ 2) * Real.sin (P.a * Real.pi * p 0) * P.a * Real.pi +
      1 * (((P.znot * Real.cos (P.amf * Real.pi * p 0) * Real.cos (P.amf * Real.pi * p 1) * Real.cos (P.amf * Real.pi * p 2) / P.rhoP +
      (1 -
      P.znot * Real.cos (P.amf * Real.pi * p 0) * Real.cos (P.amf * Real.pi * p 1) * Real.cos (P.amf * Real.pi * p 2)) / P.rhoS) ^ 2)⁻¹) * P.vnot * Real.sin (P.a * Real.pi * p 0) * Real.cos (P.a * Real.pi * p 1) * ((Real.sin (P.a * Real.pi * p 2)) ^ 2) * P.unot * Real.cos (P.a * Real.pi * p 0) * Real.sin (P.a * Real.pi * p 1) * (-P.znot * Real.cos (P.amf * Real.pi * p 0) * Real.sin (P.amf * Real.pi * p 1) * P.amf * Real.pi * Real.cos (P.amf * Real.pi * p 2) / P.rhoP +
      P.znot * Real.cos (P.amf * Real.pi * p 0) * Real.sin (P.amf * Real.pi * p 1) * P.amf * Real.pi * Real.cos (P.amf * Real.pi * p 2) / P.rhoS) +
      1 / (P.znot * Real.cos (P.amf * Real.pi * p 0) * Real.cos (P.amf * Real.pi * p 1) * Real.cos (P.amf * Real.pi * p 2) / P.rhoP +
      (1 -
      P.znot * Real.cos (P.amf * Real.pi * p 0) * Real.cos (P.amf * Real.pi * p 1) * Real.cos (P.amf * Real.pi * p 2)) / P.rhoS) * P.vnot * Real.sin (P.a * Real.pi * p 0) * ((Real.sin (P.a * Real.pi * p 1)) ^ 2) * P.a * Real.pi * ((Real.sin (P.a * Real.pi * p 2)) ^ 2) * P.unot * Real.cos (P.a * Real.pi * p 0) -
      1 / (P.znot * Real.cos (P.amf * Real.pi * p 0) * Real.cos (P.amf * Real.pi * p 1) * Real.cos (P.amf * Real.pi * p 2) / P.rhoP +
      (1 -
      P.znot * Real.cos (P.amf * Real.pi * p 0) * Real.cos (P.amf * Real.pi * p 1) * Real.cos (P.amf * Real.pi * p 2)) / P.rhoS) * P.vnot * Real.sin (P.a * Real.pi * p 0) * ((Real.cos (P.a * Real.pi * p 1)) ^ 2) * ((Real.sin (P.a * Real.pi * p 2)) ^ 2) * P.unot * Real.cos (P.a * Real.pi * p 0) * P.a * Real.pi -
      1 * (((P.znot * Real.cos (P.amf * Real.pi * p 0) * Real.cos (P.amf * Real.pi * p 1) * Real.cos (P.amf * Real.pi * p 2) / P.rhoP +
      (1 -
      P.znot * Real.cos (P.amf * Real.pi * p 0) * Real.cos (P.amf * Real.pi * p 1) * Real.cos (P.amf * Real.pi * p 2)) / P.rhoS) ^ 2)⁻¹) * P.wnot * Real.sin (P.a * Real.pi * p 0) * ((Real.sin (P.a * Real.pi * p 1)) ^ 2) * Real.cos (P.a * Real.pi * p 2) * P.unot * Real.cos (P.a * Real.pi * p 0) * Real.sin (P.a * Real.pi * p 2) * (-P.znot * Real.cos (P.amf * Real.pi * p 0) * Real.cos (P.amf * Real.pi * p 1) * Real.sin (P.amf * Real.pi * p 2) * P.amf * Real.pi / P.rhoP +
      P.znot * Real.cos (P.amf * Real.pi * p 0) * Real.cos (P.amf * Real.pi * p 1) * Real.sin (P.amf * Real.pi * p 2) * P.amf * Real.pi / P.rhoS) -
      1 / (P.znot * Real.cos (P.amf * Real.pi * p 0) * Real.cos (P.amf * Real.pi * p 1) * Real.cos (P.amf * Real.pi * p 2) / P.rhoP +
      (1 -
      P.znot * Real.cos (P.amf * Real.pi * p 0) * Real.cos (P.amf * Real.pi * p 1) * Real.cos (P.amf * Real.pi * p 2)) / P.rhoS) * P.wnot * Real.sin (P.a * Real.pi * p 0) * ((Real.sin (P.a * Real.pi * p 1)) ^ 2) * ((Real.sin (P.a * Real.pi * p 2)) ^ 2) * P.a * Real.pi * P.unot * Real.cos (P.a * Real.pi * p 0) +
      1 / (P.znot * Real.cos (P.amf * Real.pi * p 0) * Real.cos (P.amf * Real.pi * p 1) * Real.cos (P.amf * Real.pi * p 2) / P.rhoP +
      (1 -
      P.znot * Real.cos (P.amf * Real.pi * p 0) * Real.cos (P.amf * Real.pi * p 1) * Real.cos (P.amf * Real.pi * p 2)) / P.rhoS) * P.wnot * Real.sin (P.a * Real.pi * p 0) * ((Real.sin (P.a * Real.pi * p 1)) ^ 2) * ((Real.cos (P.a * Real.pi * p 2)) ^ 2) * P.unot * Real.cos (P.a * Real.pi * p 0) * P.a * Real.pi -
      P.visc * (-(P.unot * Real.cos (P.a * Real.pi * p 0) * P.a * P.a * Real.pi * Real.pi * Real.sin (P.a * Real.pi * p 1) * Real.sin (P.a * Real.pi * p 2) -
      P.vnot * Real.cos (P.a * Real.pi * p 0) * P.a * P.a * Real.pi * Real.pi * Real.sin (P.a * Real.pi * p 1) * Real.sin (P.a * Real.pi * p 2) +
      P.wnot * Real.cos (P.a * Real.pi * p 0) * P.a * P.a * Real.pi * Real.pi * Real.sin (P.a * Real.pi * p 1) * Real.sin (P.a * Real.pi * p 2)) * P.twoThirds +
      2 * P.unot * Real.cos (P.a * Real.pi * p 0) * P.a * P.a * Real.pi * Real.pi * Real.sin (P.a * Real.pi * p 1) * Real.sin (P.a * Real.pi * p 2)) -
      P.visc * (P.unot * Real.cos (P.a * Real.pi * p 0) * P.a * P.a * Real.pi * Real.pi * Real.sin (P.a * Real.pi * p 1) * Real.sin (P.a * Real.pi * p 2) -
      P.vnot * Real.cos (P.a * Real.pi * p 0) * P.a * P.a * Real.pi * Real.pi * Real.sin (P.a * Real.pi * p 1) * Real.sin (P.a * Real.pi * p 2)) -
      P.visc * (P.unot * Real.cos (P.a * Real.pi * p 0) * P.a * P.a * Real.pi * Real.pi * Real.sin (P.a * Real.pi * p 1) * Real.sin (P.a * Real.pi * p 2) +
      P.wnot * Real.cos (P.a * Real.pi * p 0) * P.a * P.a * Real.pi * Real.pi * Real.sin (P.a * Real.pi * p 1) * Real.sin (P.a * Real.pi * p 2)) +
      (1 / 2) * P.pnot * Real.sin (2 * P.a * Real.pi * p 0) * P.a * Real.pi -
      (1 / (P.znot * Real.cos (P.amf * Real.pi * p 0) * Real.cos (P.amf * Real.pi * p 1) * Real.cos (P.amf * Real.pi * p 2) / P.rhoP +
      (1 -
      P.znot * Real.cos (P.amf * Real.pi * p 0) * Real.cos (P.amf * Real.pi * p 1) * Real.cos (P.amf * Real.pi * p 2)) / P.rhoS) -
      P.rhoRef) * P.g 0

/-- `srcXi_[1]` of the momentum source (user_functions/VariableDensityMomentumSrcNodeSuppAlg.C:98). -/
noncomputable def vdMomentumSrc1 (P : VD) (p : Pt) : ℝ :=
      1 * (((P.znot * Real.cos (P.amf * Real.pi * p 0) * Real.cos (P.amf * Real.pi * p 1) * Real.cos (P.amf * Real.pi * p 2) / P.rhoP +
      (1 -
      P.znot * Real.cos (P.amf * Real.pi * p 0) * Real.cos (P.amf * Real.pi * p 1) * Real.cos (P.amf * Real.pi * p 2)) / P.rhoS) ^ 2)⁻¹) * P.vnot * Real.sin (P.a * Real.pi * p 0) * Real.cos (P.a * Real.pi * p 1) * ((Real.sin (P.a * Real.pi * p 2)) ^ 2) * P.unot * Real.cos (P.a * Real.pi * p 0) * Real.sin (P.a * Real.pi * p 1) * (-P.znot * Real.sin (P.amf * Real.pi * p 0) * P.amf * Real.pi * Real.cos (P.amf * Real.pi * p 1) * Real.cos (P.amf * Real.pi * p 2) / P.rhoP +
      P.znot * Real.sin (P.amf * Real.pi * p 0) * P.amf * Real.pi * Real.cos (P.amf * Real.pi * p 1) * Real.cos (P.amf * Real.pi * p 2) / P.rhoS) -
      1 / (P.znot * Real.cos (P.amf * Real.pi * p 0) * Real.cos (P.amf * Real.pi * p 1) * Real.cos (P.amf * Real.pi * p 2) / P.rhoP +
      (1 -
      P.znot * Real.cos (P.amf * Real.pi * p 0) * Real.cos (P.amf * Real.pi * p 1) * Real.cos (P.amf * Real.pi * p 2)) / P.rhoS) * P.vnot * ((Real.cos (P.a * Real.pi * p 0)) ^ 2) * P.a * Real.pi * Real.cos (P.a * Real.pi * p 1) * ((Real.sin (P.a * Real.pi * p 2)) ^ 2) * P.unot * Real.sin (P.a * Real.pi * p 1) +
      1 / (P.znot * Real.cos (P.amf * Real.pi * p 0) * Real.cos (P.amf * Real.pi * p 1) * Real.cos (P.amf * Real.pi * p 2) / P.rhoP +
      (1 -
      P.znot * Real.cos (P.amf * Real.pi * p 0) * Real.cos (P.amf * Real.pi * p 1) * Real.cos (P.amf * Real.pi * p 2)) / P.rhoS) * P.vnot * ((Real.sin (P.a * Real.pi * p 0)) ^ 2) * Real.cos (P.a * Real.pi * p 1) * ((Real.sin (P.a * Real.pi * p 2)) ^ 2) * P.unot * P.a * Real.pi * Real.sin (P.a * Real.pi * p 1) -
      1 * (((P.znot * Real.cos (P.amf * Real.pi * p 0) * Real.cos (P.amf * Real.pi * p 1) * Real.cos (P.amf * Real.pi * p 2) / P.rhoP +
      (1 -
      P.znot * Real.cos (P.amf * Real.pi * p 0) * Real.cos (P.amf * Real.pi * p 1) * Real.cos (P.amf * Real.pi * p 2)) / P.rhoS) ^ 2)⁻¹) * P.vnot * P.vnot * ((Real.sin (P.a * Real.pi * p 0)) ^ 2) * ((Real.cos (P.a * Real.pi * p 1)) ^ 2) * ((Real.sin (P.a * Real.pi * p 2)) ^ 2) * (-P.znot * Real.cos (P.amf * Real.pi * p 0) * Real.sin (P.amf * Real.pi * p 1) * P.amf * Real.pi * Real.cos (P.amf * Real.pi * p 2) / P.rhoP +
      P.znot * Real.cos (P.amf * Real.pi * p 0) * Real.sin (P.amf * Real.pi * p 1) * P.amf * Real.pi * Real.cos (P.amf * Real.pi * p 2) / P.rhoS) -
      2 / (P.znot * Real.cos (P.amf * Real.pi * p 0) * Real.cos (P.amf * Real.pi * p 1) * Real.cos (P.amf * Real.pi * p 2) / P.rhoP +
      (1 -
      P.znot * Real.cos (P.amf * Real.pi * p 0) * Real.cos (P.amf * Real.pi * p 1) * Real.cos (P.amf * Real.pi * p 2)) / P.rhoS) * P.vnot * P.vnot * ((Real.sin (P.a * Real.pi * p 0)) ^ 2) * Real.cos (P.a * Real.pi * p 1) * ((Real.sin (P.a * Real.pi * p 2)) ^ 2) * Real.sin (P.a * Real.pi * p 1) * P.a * Real.pi +
      1 * (((P.znot * Real.cos (P.amf * Real.pi * p 0) * Real.cos (P.amf * Real.pi * p 1) * Real.cos (P.amf * Real.pi * p 2) / P.rhoP +
      (1 -
      P.znot * Real.cos (P.amf * Real.pi * p 0) * Real.cos (P.amf * Real.pi * p 1) * Real.cos (P.amf * Real.pi * p 2)) / P.rhoS) ^ 2)⁻¹) * P.wnot * ((Real.sin (P.a * Real.pi * p 0)) ^ 2) * Real.sin (P.a * Real.pi * p 1) * Real.cos (P.a * Real.pi * p 2) * P.vnot * Real.cos (P.a * Real.pi * p 1) * Real.sin (P.a * Real.pi * p 2) * (-P.znot * Real.cos (P.amf * Real.pi * p 0) * Real.cos (P.amf * Real.pi * p 1) * Real.sin (P.amf * Real.pi * p 2) * P.amf * Real.pi / P.rhoP +
      P.znot * Real.cos (P.amf * Real.pi * p 0) * Real.cos (P.amf * Real.pi * p 1) * Real.sin (P.amf * Real.pi * p 2) * P.amf * Real.pi / P.rhoS) +
      1 / (P.znot * Real.cos (P.amf * Real.pi * p 0) * Real.cos (P.amf * Real.pi * p 1) * Real.cos (P.amf * Real.pi * p 2) / P.rhoP +
      (1 -
      P.znot * Real.cos (P.amf * Real.pi * p 0) * Real.cos (P.amf * Real.pi * p 1) * Real.cos (P.amf * Real.pi * p 2)) / P.rhoS) * P.wnot * ((Real.sin (P.a * Real.pi * p 0)) ^ 2) * Real.sin (P.a * Real.pi * p 1) * ((Real.sin (P.a * Real.pi * p 2)) ^ 2) * P.a * Real.pi * P.vnot * Real.cos (P.a * Real.pi * p 1) -
      1 / (P.znot * Real.cos (P.amf * Real.pi * p 0) * Real.cos (P.amf * Real.pi * p 1) * Real.cos (P.amf * Real.pi * p 2) / P.rhoP +
      (1 -
      P.znot * Real.cos (P.amf * Real.pi * p 0) * Real.cos (P.amf * Real.pi * p 1) * Real.cos (P.amf * Real.pi * p 2)) / P.rhoS) * P.wnot * ((Real.sin (P.a * Real.pi * p 0)) ^ 2) * Real.sin (P.a * Real.pi * p 1) * ((Real.cos (P.a * Real.pi * p 2)) ^ 2) * P.vnot * Real.cos (P.a * Real.pi * p 1) * P.a * Real.pi -
      P.visc * (P.unot * Real.sin (P.a * Real.pi * p 0) * P.a * P.a * Real.pi * Real.pi * Real.cos (P.a * Real.pi * p 1) * Real.sin (P.a * Real.pi * p 2) -
      P.vnot * Real.sin (P.a * Real.pi * p 0) * P.a * P.a * Real.pi * Real.pi * Real.cos (P.a * Real.pi * p 1) * Real.sin (P.a * Real.pi * p 2)) -
      P.visc * (-(P.unot * Real.sin (P.a * Real.pi * p 0) * P.a * P.a * Real.pi * Real.pi * Real.cos (P.a * Real.pi * p 1) * Real.sin (P.a * Real.pi * p 2) -
      P.vnot * Real.sin (P.a * Real.pi * p 0) * P.a * P.a * Real.pi * Real.pi * Real.cos (P.a * Real.pi * p 1) * Real.sin (P.a * Real.pi * p 2) +
      P.wnot * Real.sin (P.a * Real.pi * p 0) * Real.cos (P.a * Real.pi * p 1) * P.a * P.a * Real.pi * Real.pi * Real.sin (P.a * Real.pi * p 2)) * P.twoThirds -
      2 * P.vnot * Real.sin (P.a * Real.pi * p 0) * P.a * P.a * Real.pi * Real.pi * Real.cos (P.a * Real.pi * p 1) * Real.sin (P.a * Real.pi * p 2)) -
      P.visc * (-P.vnot * Real.sin (P.a * Real.pi * p 0) * P.a * P.a * Real.pi * Real.pi * Real.cos (P.a * Real.pi * p 1) * Real.sin (P.a * Real.pi * p 2) +
      P.wnot * Real.sin (P.a * Real.pi * p 0) * Real.cos (P.a * Real.pi * p 1) * P.a * P.a * Real.pi * Real.pi * Real.sin (P.a * Real.pi * p 2)) +
      (1 / 2) * P.pnot * Real.sin (2 * P.a * Real.pi * p 1) * P.a * Real.pi -
      (1 / (P.znot * Real.cos (P.amf * Real.pi * p 0) * Real.cos (P.amf * Real.pi * p 1) * Real.cos (P.amf * Real.pi * p 2) / P.rhoP +
      (1 -
      P.znot * Real.cos (P.amf * Real.pi * p 0) * Real.cos (P.amf * Real.pi * p 1) * Real.cos (P.amf * Real.pi * p 2)) / P.rhoS) -
      P.rhoRef) * P.g 1

/-- `srcXi_[2]` of the momentum source (user_functions/VariableDensityMomentumSrcNodeSuppAlg.C:100). -/
noncomputable def vdMomentumSrc2 (P : VD) (p : Pt) : ℝ :=
      -1 * (((P.znot * Real.cos (P.amf * Real.pi * p 0) * Real.cos (P.amf * Real.pi * p 1) * Real.cos (P.amf * Real.pi * p 2) / P.rhoP +
      (1 -
      P.znot * Real.cos (P.amf * Real.pi * p 0) * Real.cos (P.amf * Real.pi * p 1) * Real.cos (P.amf * Real.pi * p 2)) / P.rhoS) ^ 2)⁻¹) * P.wnot * Real.sin (P.a * Real.pi * p 0) * ((Real.sin (P.a * Real.pi * p 1)) ^ 2) * Real.cos (P.a * Real.pi * p 2) * P.unot * Real.cos (P.a * Real.pi * p 0) * Real.sin (P.a * Real.pi * p 2) * (-P.znot * Real.sin (P.amf * Real.pi * p 0) * P.amf * Real.pi * Real.cos (P.amf * Real.pi * p 1) * Real.cos (P.amf * Real.pi * p 2) / P.rhoP +
      P.znot * Real.sin (P.amf * Real.pi * p 0) * P.amf * Real.pi * Real.cos (P.amf * Real.pi * p 1) * Real.cos (P.amf * Real.pi * p 2) / P.rhoS) +
      1 / (P.znot * Real.cos (P.amf * Real.pi * p 0) * Real.cos (P.amf * Real.pi * p 1) * Real.cos (P.amf * Real.pi * p 2) / P.rhoP +
      (1 -
      P.znot * Real.cos (P.amf * Real.pi * p 0) * Real.cos (P.amf * Real.pi * p 1) * Real.cos (P.amf * Real.pi * p 2)) / P.rhoS) * P.wnot * ((Real.cos (P.a * Real.pi * p 0)) ^ 2) * P.a * Real.pi * ((Real.sin (P.a * Real.pi * p 1)) ^ 2) * Real.cos (P.a * Real.pi * p 2) * P.unot * Real.sin (P.a * Real.pi * p 2) -
      1 / (P.znot * Real.cos (P.amf * Real.pi * p 0) * Real.cos (P.amf * Real.pi * p 1) * Real.cos (P.amf * Real.pi * p 2) / P.rhoP +
      (1 -
      P.znot * Real.cos (P.amf * Real.pi * p 0) * Real.cos (P.amf * Real.pi * p 1) * Real.cos (P.amf * Real.pi * p 2)) / P.rhoS) * P.wnot * ((Real.sin (P.a * Real.pi * p 0)) ^ 2) * ((Real.sin (P.a * Real.pi * p 1)) ^ 2) * Real.cos (P.a * Real.pi * p 2) * P.unot * P.a * Real.pi * Real.sin (P.a * Real.pi * p 2) +
      1 * (((P.znot * Real.cos (P.amf * Real.pi * p 0) * Real.cos (P.amf * Real.pi * p 1) * Real.cos (P.amf * Real.pi * p 2) / P.rhoP +
      (1 -
      P.znot * Real.cos (P.amf * Real.pi * p 0) * Real.cos (P.amf * Real.pi * p 1) * Real.cos (P.amf * Real.pi * p 2)) / P.rhoS) ^ 2)⁻¹) * P.wnot * ((Real.sin (P.a * Real.pi * p 0)) ^ 2) * Real.sin (P.a * Real.pi * p 1) * Real.cos (P.a * Real.pi * p 2) * P.vnot * Real.cos (P.a * Real.pi * p 1) * Real.sin (P.a * Real.pi * p 2) * (-P.znot * Real.cos (P.amf * Real.pi * p 0) * Real.sin (P.amf * Real.pi * p 1) * P.amf * Real.pi * Real.cos (P.amf * Real.pi * p 2) / P.rhoP +
      P.znot * Real.cos (P.amf * Real.pi * p 0) * Real.sin (P.amf * Real.pi * p 1) * P.amf * Real.pi * Real.cos (P.amf * Real.pi * p 2) / P.rhoS) -
      1 / (P.znot * Real.cos (P.amf * Real.pi * p 0) * Real.cos (P.amf * Real.pi * p 1) * Real.cos (P.amf * Real.pi * p 2) / P.rhoP +
      (1 -
      P.znot * Real.cos (P.amf * Real.pi * p 0) * Real.cos (P.amf * Real.pi * p 1) * Real.cos (P.amf * Real.pi * p 2)) / P.rhoS) * P.wnot * ((Real.sin (P.a * Real.pi * p 0)) ^ 2) * ((Real.cos (P.a * Real.pi * p 1)) ^ 2) * P.a * Real.pi * Real.cos (P.a * Real.pi * p 2) * P.vnot * Real.sin (P.a * Real.pi * p 2) +
      1 / (P.znot * Real.cos (P.amf * Real.pi * p 0) * Real.cos (P.amf * Real.pi * p 1) * Real.cos (P.amf * Real.pi * p 2) / P.rhoP +
      (1 -
      P.znot * Real.cos (P.amf * Real.pi * p 0) * Real.cos (P.amf * Real.pi * p 1) * Real.cos (P.amf * Real.pi * p 2)) / P.rhoS) * P.wnot * ((Real.sin (P.a * Real.pi * p 0)) ^ 2) * ((Real.sin (P.a * Real.pi * p 1)) ^ 2) * Real.cos (P.a * Real.pi * p 2) * P.vnot * P.a * Real.pi * Real.sin (P.a * Real.pi * p 2) -
      1 * (((P.znot * Real.cos (P.amf * Real.pi * p 0) * Real.cos (P.amf * Real.pi * p 1) * Real.cos (P.amf * Real.pi * p 2) / P.rhoP +
      (1 -
      P.znot * Real.cos (P.amf * Real.pi * p 0) * Real.cos (P.amf * Real.pi * p 1) * Real.cos (P.amf * Real.pi * p 2)) / P.rhoS) ^ 2)⁻¹) * P.wnot * P.wnot * ((Real.sin (P.a * Real.pi * p 0)) ^ 2) * ((Real.sin (P.a * Real.pi * p 1)) ^ 2) * ((Real.cos (P.a * Real.pi * p 2)) ^ 2) * (-P.znot * Real.cos (P.amf * Real.pi * p 0) * Real.cos (P.amf * Real.pi * p 1) * Real.sin (P.amf * Real.pi * p 2) * P.amf * Real.pi / P.rhoP +
      P.znot * Real.cos (P.amf * Real.pi * p 0) * Real.cos (P.amf * Real.pi * p 1) * Real.sin (P.amf * Real.pi * p 2) * P.amf * Real.pi / P.rhoS) -
      2 / (P.znot * Real.cos (P.amf * Real.pi * p 0) * Real.cos (P.amf * Real.pi * p 1) * Real.cos (P.amf * Real.pi * p 2) / P.rhoP +
      (1 -
      P.znot * Real.cos (P.amf * Real.pi * p 0) * Real.cos (P.amf * Real.pi * p 1) * Real.cos (P.amf * Real.pi * p 2)) / P.rhoS) * P.wnot * P.wnot * ((Real.sin (P.a * Real.pi * p 0)) ^ 2) * ((Real.sin (P.a * Real.pi * p 1)) ^ 2) * Real.cos (P.a * Real.pi * p 2) * Real.sin (P.a * Real.pi * p 2) * P.a * Real.pi -
      P.visc * (P.unot * Real.sin (P.a * Real.pi * p 0) * P.a * P.a * Real.pi * Real.pi * Real.sin (P.a * Real.pi * p 1) * Real.cos (P.a * Real.pi * p 2) +
      P.wnot * Real.sin (P.a * Real.pi * p 0) * P.a * P.a * Real.pi * Real.pi * Real.sin (P.a * Real.pi * p 1) * Real.cos (P.a * Real.pi * p 2)) -
      P.visc * (-P.vnot * Real.sin (P.a * Real.pi * p 0) * Real.sin (P.a * Real.pi * p 1) * P.a * P.a * Real.pi * Real.pi * Real.cos (P.a * Real.pi * p 2) +
      P.wnot * Real.sin (P.a * Real.pi * p 0) * P.a * P.a * Real.pi * Real.pi * Real.sin (P.a * Real.pi * p 1) * Real.cos (P.a * Real.pi * p 2)) -
      P.visc * (-(P.unot * Real.sin (P.a * Real.pi * p 0) * P.a * P.a * Real.pi * Real.pi * Real.sin (P.a * Real.pi * p 1) * Real.cos (P.a * Real.pi * p 2) -
      P.vnot * Real.sin (P.a * Real.pi * p 0) * Real.sin (P.a * Real.pi * p 1) * P.a * P.a * Real.pi * Real.pi * Real.cos (P.a * Real.pi * p 2) +
      P.wnot * Real.sin (P.a * Real.pi * p 0) * P.a * P.a * Real.pi * Real.pi * Real.sin (P.a * Real.pi * p 1) * Real.cos (P.a * Real.pi * p 2)) * P.twoThirds +
      2 * P.wnot * Real.sin (P.a * Real.pi * p 0) * P.a * P.a * Real.pi * Real.pi * Real.sin (P.a * Real.pi * p 1) * Real.cos (P.a * Real.pi * p 2)) +
      (1 / 2) * P.pnot * Real.sin (2 * P.a * Real.pi * p 2) * P.a * Real.pi -
      (1 / (P.znot * Real.cos (P.amf * Real.pi * p 0) * Real.cos (P.amf * Real.pi * p 1) * Real.cos (P.amf * Real.pi * p 2) / P.rhoP +
      (1 -
      P.znot * Real.cos (P.amf * Real.pi * p 0) * Real.cos (P.amf * Real.pi * p 1) * Real.cos (P.amf * Real.pi * p 2)) / P.rhoS) -
      P.rhoRef) * P.g 2

/-- `src` of the non-isothermal continuity source (user_functions/VariableDensityNonIsoContinuitySrcNodeSuppAlg.C:84). -/
noncomputable def niContinuitySrc (P : NI) (p : Pt) : ℝ :=
      -P.Pref * P.MW / P.R * (((P.hnot * Real.cos (P.ah * Real.pi * p 0) * Real.cos (P.ah * Real.pi * p 1) * Real.cos (P.ah * Real.pi * p 2) / P.Cp +
      P.Tref) ^ 2)⁻¹) * P.unot * Real.cos (P.a * Real.pi * p 0) * Real.sin (P.a * Real.pi * p 1) * Real.sin (P.a * Real.pi * p 2) * P.hnot * Real.sin (P.ah * Real.pi * p 0) * P.ah * Real.pi * Real.cos (P.ah * Real.pi * p 1) * Real.cos (P.ah * Real.pi * p 2) / P.Cp +
      P.Pref * P.MW / P.R / (P.hnot * Real.cos (P.ah * Real.pi * p 0) * Real.cos (P.ah * Real.pi * p 1) * Real.cos (P.ah * Real.pi * p 2) / P.Cp +
      P.Tref) * P.unot * Real.sin (P.a * Real.pi * p 0) * P.a * Real.pi * Real.sin (P.a * Real.pi * p 1) * Real.sin (P.a * Real.pi * p 2) +
      P.Pref * P.MW / P.R * (((P.hnot * Real.cos (P.ah * Real.pi * p 0) * Real.cos (P.ah * Real.pi * p 1) * Real.cos (P.ah * Real.pi * p 2) / P.Cp +
      P.Tref) ^ 2)⁻¹) * P.vnot * Real.sin (P.a * Real.pi * p 0) * Real.cos (P.a * Real.pi * p 1) * Real.sin (P.a * Real.pi * p 2) * P.hnot * Real.cos (P.ah * Real.pi * p 0) * Real.sin (P.ah * Real.pi * p 1) * P.ah * Real.pi * Real.cos (P.ah * Real.pi * p 2) / P.Cp -
      P.Pref * P.MW / P.R / (P.hnot * Real.cos (P.ah * Real.pi * p 0) * Real.cos (P.ah * Real.pi * p 1) * Real.cos (P.ah * Real.pi * p 2) / P.Cp +
      P.Tref) * P.vnot * Real.sin (P.a * Real.pi * p 0) * Real.sin (P.a * Real.pi * p 1) * P.a * Real.pi * Real.sin (P.a * Real.pi * p 2) -
      P.Pref * P.MW / P.R * (((P.hnot * Real.cos (P.ah * Real.pi * p 0) * Real.cos (P.ah * Real.pi * p 1) * Real.cos (P.ah * Real.pi * p 2) / P.Cp +
      P.Tref) ^ 2)⁻¹) * P.wnot * Real.sin (P.a * Real.pi * p 0) * Real.sin (P.a * Real.pi * p 1) * Real.cos (P.a * Real.pi * p 2) * P.hnot * Real.cos (P.ah * Real.pi * p 0) * Real.cos (P.ah * Real.pi * p 1) * Real.sin (P.ah * Real.pi * p 2) * P.ah * Real.pi / P.Cp +
      P.Pref * P.MW / P.R / (P.hnot * Real.cos (P.ah * Real.pi * p 0) * Real.cos (P.ah * Real.pi * p 1) * Real.cos (P.ah * Real.pi * p 2) / P.Cp +
      P.Tref) * P.wnot * Real.sin (P.a * Real.pi * p 0) * Real.sin (P.a * Real.pi * p 1) * Real.sin (P.a * Real.pi * p 2) * P.a * Real.pi

/-- `src` of the enthalpy source (user_functions/VariableDensityNonIsoEnthalpySrcNodeSuppAlg.C:84). -/
noncomputable def niEnthalpySrc (P : NI) (p : Pt) : ℝ :=
      -P.Pref * P.MW / P.R * (((P.hnot * Real.cos (P.ah * Real.pi * p 0) * Real.cos (P.ah * Real.pi * p 1) * Real.cos (P.ah * Real.pi * p 2) / P.Cp +
      P.Tref) ^ 2)⁻¹) * P.unot * Real.cos (P.a * Real.pi * p 0) * Real.sin (P.a * Real.pi * p 1) * Real.sin (P.a * Real.pi * p 2) * P.hnot * P.hnot * Real.cos (P.ah * Real.pi * p 0) * ((Real.cos (P.ah * Real.pi * p 1)) ^ 2) * ((Real.cos (P.ah * Real.pi * p 2)) ^ 2) * Real.sin (P.ah * Real.pi * p 0) * P.ah * Real.pi / P.Cp +
      P.Pref * P.MW / P.R / (P.hnot * Real.cos (P.ah * Real.pi * p 0) * Real.cos (P.ah * Real.pi * p 1) * Real.cos (P.ah * Real.pi * p 2) / P.Cp +
      P.Tref) * P.unot * Real.sin (P.a * Real.pi * p 0) * P.a * Real.pi * Real.sin (P.a * Real.pi * p 1) * Real.sin (P.a * Real.pi * p 2) * P.hnot * Real.cos (P.ah * Real.pi * p 0) * Real.cos (P.ah * Real.pi * p 1) * Real.cos (P.ah * Real.pi * p 2) +
      P.Pref * P.MW / P.R / (P.hnot * Real.cos (P.ah * Real.pi * p 0) * Real.cos (P.ah * Real.pi * p 1) * Real.cos (P.ah * Real.pi * p 2) / P.Cp +
      P.Tref) * P.unot * Real.cos (P.a * Real.pi * p 0) * Real.sin (P.a * Real.pi * p 1) * Real.sin (P.a * Real.pi * p 2) * P.hnot * Real.sin (P.ah * Real.pi * p 0) * P.ah * Real.pi * Real.cos (P.ah * Real.pi * p 1) * Real.cos (P.ah * Real.pi * p 2) +
      P.Pref * P.MW / P.R * (((P.hnot * Real.cos (P.ah * Real.pi * p 0) * Real.cos (P.ah * Real.pi * p 1) * Real.cos (P.ah * Real.pi * p 2) / P.Cp +
      P.Tref) ^ 2)⁻¹) * P.vnot * Real.sin (P.a * Real.pi * p 0) * Real.cos (P.a * Real.pi * p 1) * Real.sin (P.a * Real.pi * p 2) * P.hnot * P.hnot * ((Real.cos (P.ah * Real.pi * p 0)) ^ 2) * Real.cos (P.ah * Real.pi * p 1) * ((Real.cos (P.ah * Real.pi * p 2)) ^ 2) * Real.sin (P.ah * Real.pi * p 1) * P.ah * Real.pi / P.Cp -
      P.Pref * P.MW / P.R / (P.hnot * Real.cos (P.ah * Real.pi * p 0) * Real.cos (P.ah * Real.pi * p 1) * Real.cos (P.ah * Real.pi * p 2) / P.Cp +
      P.Tref) * P.vnot * Real.sin (P.a * Real.pi * p 0) * Real.sin (P.a * Real.pi * p 1) * P.a * Real.pi * Real.sin (P.a * Real.pi * p 2) * P.hnot * Real.cos (P.ah * Real.pi * p 0) * Real.cos (P.ah * Real.pi * p 1) * Real.cos (P.ah * Real.pi * p 2) -
      P.Pref * P.MW / P.R / (P.hnot * Real.cos (P.ah * Real.pi * p 0) * Real.cos (P.ah * Real.pi * p 1) * Real.cos (P.ah * Real.pi * p 2) / P.Cp +
      P.Tref) * P.vnot * Real.sin (P.a * Real.pi * p 0) * Real.cos (P.a * Real.pi * p 1) * Real.sin (P.a * Real.pi * p 2) * P.hnot * Real.cos (P.ah * Real.pi * p 0) * Real.sin (P.ah * Real.pi * p 1) * P.ah * Real.pi * Real.cos (P.ah * Real.pi * p 2) -
      P.Pref * P.MW / P.R * (((P.hnot * Real.cos (P.ah * Real.pi * p 0) * Real.cos (P.ah * Real.pi * p 1) * Real.cos (P.ah * Real.pi * p 2) / P.Cp +
      P.Tref) ^ 2)⁻¹) * P.wnot * Real.sin (P.a * Real.pi * p 0) * Real.sin (P.a * Real.pi * p 1) * Real.cos (P.a * Real.pi * p 2) * P.hnot * P.hnot * ((Real.cos (P.ah * Real.pi * p 0)) ^ 2) * ((Real.cos (P.ah * Real.pi * p 1)) ^ 2) * Real.cos (P.ah * Real.pi * p 2) * Real.sin (P.ah * Real.pi * p 2) * P.ah * Real.pi / P.Cp +
      P.Pref * P.MW / P.R / (P.hnot * Real.cos (P.ah * Real.pi * p 0) * Real.cos (P.ah * Real.pi * p 1) * Real.cos (P.ah * Real.pi * p 2) / P.Cp +
      P.Tref) * P.wnot * Real.sin (P.a * Real.pi * p 0) * Real.sin (P.a * Real.pi * p 1) * Real.sin (P.a * Real.pi * p 2) * P.a * Real.pi * P.hnot * Real.cos (P.ah * Real.pi * p 0) * Real.cos (P.ah * Real.pi * p 1) * Real.cos (P.ah * Real.pi * p 2) +
      P.Pref * P.MW / P.R / (P.hnot * Real.cos (P.ah * Real.pi * p 0) * Real.cos (P.ah * Real.pi * p 1) * Real.cos (P.ah * Real.pi * p 2) / P.Cp +
      P.Tref) * P.wnot * Real.sin (P.a * Real.pi * p 0) * Real.sin (P.a * Real.pi * p 1) * Real.cos (P.a * Real.pi * p 2) * P.hnot * Real.cos (P.ah * Real.pi * p 0) * Real.cos (P.ah * Real.pi * p 1) * Real.sin (P.ah * Real.pi * p 2) * P.ah * Real.pi +
      3 * P.visc / P.Pr * P.hnot * Real.cos (P.ah * Real.pi * p 0) * P.ah * P.ah * Real.pi * Real.pi * Real.cos (P.ah * Real.pi * p 1) * Real.cos (P.ah * Real.pi * p 2)

/-- `srcXi_[0]` of the non-isothermal momentum source (user_functions/VariableDensityNonIsoMomentumSrcNodeSuppAlg.C:100). -/
noncomputable def niMomentumSrc0 (P : NI) (p : Pt) : ℝ :=
      P.Pref * P.MW / P.R * (((P.hnot * Real.cos (P.ah * Real.pi * p 0) * Real.cos (P.ah * Real.pi * p 1) * Real.cos (P.ah * Real.pi * p 2) / P.Cp +
      P.Tref) ^ 2)⁻¹) * P.unot * P.unot * ((Real.cos (P.a * Real.pi * p 0)) ^ 2) * ((Real.sin (P.a * Real.pi * p 1)) ^ 2) * ((Real.sin (P.a * Real.pi * p 2)) ^ 2) * P.hnot * Real.sin (P.ah * Real.pi * p 0) * P.ah * Real.pi * Real.cos (P.ah * Real.pi * p 1) * Real.cos (P.ah * Real.pi * p 2) / P.Cp -
      2 * P.Pref * P.MW / P.R / (P.hnot * Real.cos (P.ah * Real.pi * p 0) * Real.cos (P.ah * Real.pi * p 1) * Real.cos (P.ah * Real.pi * p 2) / P.Cp +
      P.Tref) * P.unot * P.unot * Real.cos (P.a * Real.pi * p 0) * ((Real.sin (P.a * Real.pi * p 1)) ^ 2) * ((Real.sin (P.a * Real.pi * p 2)) ^ 2) * Real.sin (P.a * Real.pi * p 0) * P.a * Real.pi -
      P.Pref * P.MW / P.R * (((P.hnot * Real.cos (P.ah * Real.pi * p 0) * Real.cos (P.ah * Real.pi * p 1) * Real.cos (P.ah * Real.pi * p 2) / P.Cp +
      P.Tref) ^ 2)⁻¹) * P.vnot * Real.sin (P.a * Real.pi * p 0) * Real.cos (P.a * Real.pi * p 1) * ((Real.sin (P.a * Real.pi * p 2)) ^ 2) * P.unot * Real.cos (P.a * Real.pi * p 0) * Real.sin (P.a * Real.pi * p 1) * P.hnot * Real.cos (P.ah * Real.pi * p 0) * Real.sin (P.ah * Real.pi * p 1) * P.ah * Real.pi * Real.cos (P.ah * Real.pi * p 2) / P.Cp +
      P.Pref * P.MW / P.R / (P.hnot * Real.cos (P.ah * Real.pi * p 0) * Real.cos (P.ah * Real.pi * p 1) * Real.cos (P.ah * Real.pi * p 2) / P.Cp +
      P.Tref) * P.vnot * Real.sin (P.a * Real.pi * p 0) * ((Real.sin (P.a * Real.pi * p 1)) ^ 2) * P.a * Real.pi * ((Real.sin (P.a * Real.pi * p 2)) ^ 2) * P.unot * Real.cos (P.a * Real.pi * p 0) -
      P.Pref * P.MW / P.R / (P.hnot * Real.cos (P.ah * Real.pi * p 0) * Real.cos (P.ah * Real.pi * p 1) * Real.cos (P.ah * Real.pi * p 2) / P.Cp +
      P.Tref) * P.vnot * Real.sin (P.a * Real.pi * p 0) * ((Real.cos (P.a * Real.pi * p 1)) ^ 2) * ((Real.sin (P.a * Real.pi * p 2)) ^ 2) * P.unot * Real.cos (P.a * Real.pi * p 0) * P.a * Real.pi +
      P.Pref * P.MW / P.R * (((P.hnot * Real.cos (P.ah * Real.pi * p 0) * Real.cos (P.ah * Real.pi * p 1) * Real.cos (P.ah * Real.pi * p 2) / P.Cp +
      P.Tref) ^ 2)⁻¹) * P.wnot * Real.sin (P.a * Real.pi * p 0) * ((Real.sin (P.a * Real.pi * p 1)) ^ 2) * Real.cos (P.a * Real.pi * p 2) * P.unot * Real.cos (P.a * Real.pi * p 0) * Real.sin (P.a * Real.pi * p 2) * P.hnot * Real.cos (P.ah * Real.pi * p 0) * Real.cos (P.ah * Real.pi * p 1) * Real.sin (P.ah * Real.pi * p 2) * P.ah * Real.pi / P.Cp -
      P.Pref * P.MW / P.R / (P.hnot * Real.cos (P.ah * Real.pi * p 0) * Real.cos (P.ah * Real.pi * p 1) * Real.cos (P.ah * Real.pi * p 2) / P.Cp +
      P.Tref) * P.wnot * Real.sin (P.a * Real.pi * p 0) * ((Real.sin (P.a * Real.pi * p 1)) ^ 2) * ((Real.sin (P.a * Real.pi * p 2)) ^ 2) * P.a * Real.pi * P.unot * Real.cos (P.a * Real.pi * p 0) +
      P.Pref * P.MW / P.R / (P.hnot * Real.cos (P.ah * Real.pi * p 0) * Real.cos (P.ah * Real.pi * p 1) * Real.cos (P.ah * Real.pi * p 2) / P.Cp +
      P.Tref) * P.wnot * Real.sin (P.a * Real.pi * p 0) * ((Real.sin (P.a * Real.pi * p 1)) ^ 2) * ((Real.cos (P.a * Real.pi * p 2)) ^ 2) * P.unot * Real.cos (P.a * Real.pi * p 0) * P.a * Real.pi -
      P.visc * (-(P.unot * Real.cos (P.a * Real.pi * p 0) * P.a * P.a * Real.pi * Real.pi * Real.sin (P.a * Real.pi * p 1) * Real.sin (P.a * Real.pi * p 2) -
      P.vnot * Real.cos (P.a * Real.pi * p 0) * P.a * P.a * Real.pi * Real.pi * Real.sin (P.a * Real.pi * p 1) * Real.sin (P.a * Real.pi * p 2) +
      P.wnot * Real.cos (P.a * Real.pi * p 0) * P.a * P.a * Real.pi * Real.pi * Real.sin (P.a * Real.pi * p 1) * Real.sin (P.a * Real.pi * p 2)) * P.twoThirds +
      2 * P.unot * Real.cos (P.a * Real.pi * p 0) * P.a * P.a * Real.pi * Real.pi * Real.sin (P.a * Real.pi * p 1) * Real.sin (P.a * Real.pi * p 2)) -
      P.visc * (P.unot * Real.cos (P.a * Real.pi * p 0) * P.a * P.a * Real.pi * Real.pi * Real.sin (P.a * Real.pi * p 1) * Real.sin (P.a * Real.pi * p 2) -
      P.vnot * Real.cos (P.a * Real.pi * p 0) * P.a * P.a * Real.pi * Real.pi * Real.sin (P.a * Real.pi * p 1) * Real.sin (P.a * Real.pi * p 2)) -
      P.visc * (P.unot * Real.cos (P.a * Real.pi * p 0) * P.a * P.a * Real.pi * Real.pi * Real.sin (P.a * Real.pi * p 1) * Real.sin (P.a * Real.pi * p 2) +
      P.wnot * Real.cos (P.a * Real.pi * p 0) * P.a * P.a * Real.pi * Real.pi * Real.sin (P.a * Real.pi * p 1) * Real.sin (P.a * Real.pi * p 2)) +
      (1 / 2) * P.pnot * Real.sin (2 * P.a * Real.pi * p 0) * P.a * Real.pi -
      (P.Pref * P.MW / P.R / (P.hnot * Real.cos (P.ah * Real.pi * p 0) * Real.cos (P.ah * Real.pi * p 1) * Real.cos (P.ah * Real.pi * p 2) / P.Cp +
      P.Tref) - P.rhoRef) * P.g 0

/-- `srcXi_[1]` of the non-isothermal momentum source (user_functions/VariableDensityNonIsoMomentumSrcNodeSuppAlg.C:102). -/
noncomputable def niMomentumSrc1 (P : NI) (p : Pt) : ℝ :=
      -P.Pref * P.MW / P.R * (((P.hnot * Real.cos (P.ah * Real.pi * p 0) * Real.cos (P.ah * Real.pi * p 1) * Real.cos (P.ah * Real.pi * p 2) / P.Cp +
      P.Tref) ^ 2)⁻¹) * P.vnot * Real.sin (P.a * Real.pi * p 0) * Real.cos (P.a * Real.pi * p 1) * ((Real.sin (P.a * Real.pi * p 2)) ^ 2) * P.unot * Real.cos (P.a * Real.pi * p 0) * Real.sin (P.a * Real.pi * p 1) * P.hnot * Real.sin (P.ah * Real.pi * p 0) * P.ah * Real.pi * Real.cos (P.ah * Real.pi * p 1) * Real.cos (P.ah * Real.pi * p 2) / P.Cp -
      P.Pref * P.MW / P.R / (P.hnot * Real.cos (P.ah * Real.pi * p 0) * Real.cos (P.ah * Real.pi * p 1) * Real.cos (P.ah * Real.pi * p 2) / P.Cp +
      P.Tref) * P.vnot * ((Real.cos (P.a * Real.pi * p 0)) ^ 2) * P.a * Real.pi * Real.cos (P.a * Real.pi * p 1) * ((Real.sin (P.a * Real.pi * p 2)) ^ 2) * P.unot * Real.sin (P.a * Real.pi * p 1) +
      P.Pref * P.MW / P.R / (P.hnot * Real.cos (P.ah * Real.pi * p 0) * Real.cos (P.ah * Real.pi * p 1) * Real.cos (P.ah * Real.pi * p 2) / P.Cp +
      P.Tref) * P.vnot * ((Real.sin (P.a * Real.pi * p 0)) ^ 2) * Real.cos (P.a * Real.pi * p 1) * ((Real.sin (P.a * Real.pi * p 2)) ^ 2) * P.unot * P.a * Real.pi * Real.sin (P.a * Real.pi * p 1) +
      P.Pref * P.MW / P.R * (((P.hnot * Real.cos (P.ah * Real.pi * p 0) * Real.cos (P.ah * Real.pi * p 1) * Real.cos (P.ah * Real.pi * p 2) / P.Cp +
      P.Tref) ^ 2)⁻¹) * P.vnot * P.vnot * ((Real.sin (P.a * Real.pi * p 0)) ^ 2) * ((Real.cos (P.a * Real.pi * p 1)) ^ 2) * ((Real.sin (P.a * Real.pi * p 2)) ^ 2) * P.hnot * Real.cos (P.ah * Real.pi * p 0) * Real.sin (P.ah * Real.pi * p 1) * P.ah * Real.pi * Real.cos (P.ah * Real.pi * p 2) / P.Cp -
      2 * P.Pref * P.MW / P.R / (P.hnot * Real.cos (P.ah * Real.pi * p 0) * Real.cos (P.ah * Real.pi * p 1) * Real.cos (P.ah * Real.pi * p 2) / P.Cp +
      P.Tref) * P.vnot * P.vnot * ((Real.sin (P.a * Real.pi * p 0)) ^ 2) * Real.cos (P.a * Real.pi * p 1) * ((Real.sin (P.a * Real.pi * p 2)) ^ 2) * Real.sin (P.a * Real.pi * p 1) * P.a * Real.pi -
      P.Pref * P.MW / P.R * (((P.hnot * Real.cos (P.ah * Real.pi * p 0) * Real.cos (P.ah * Real.pi * p 1) * Real.cos (P.ah * Real.pi * p 2) / P.Cp +
      P.Tref) ^ 2)⁻¹) * P.wnot * ((Real.sin (P.a * Real.pi * p 0)) ^ 2) * Real.sin (P.a * Real.pi * p 1) * Real.cos (P.a * Real.pi * p 2) * P.vnot * Real.cos (P.a * Real.pi * p 1) * Real.sin (P.a * Real.pi * p 2) * P.hnot * Real.cos (P.ah * Real.pi * p 0) * Real.cos (P.ah * Real.pi * p 1) * Real.sin (P.ah * Real.pi * p 2) * P.ah * Real.pi / P.Cp +
      P.Pref * P.MW / P.R / (P.hnot * Real.cos (P.ah * Real.pi * p 0) * Real.cos (P.ah * Real.pi * p 1) * Real.cos (P.ah * Real.pi * p 2) / P.Cp +
      P.Tref) * P.wnot * ((Real.sin (P.a * Real.pi * p 0)) ^ 2) * Real.sin (P.a * Real.pi * p 1) * ((Real.sin (P.a * Real.pi * p 2)) ^ 2) * P.a * Real.pi * P.vnot * Real.cos (P.a * Real.pi * p 1) -
      P.Pref * P.MW / P.R / (P.hnot * Real.cos (P.ah * Real.pi * p 0) * Real.cos (P.ah * Real.pi * p 1) * Real.cos (P.ah * Real.pi * p 2) / P.Cp +
      P.Tref) * P.wnot * ((Real.sin (P.a * Real.pi * p 0)) ^ 2) * Real.sin (P.a * Real.pi * p 1) * ((Real.cos (P.a * Real.pi * p 2)) ^ 2) * P.vnot * Real.cos (P.a * Real.pi * p 1) * P.a * Real.pi -
      P.visc * (P.unot * Real.sin (P.a * Real.pi * p 0) * P.a * P.a * Real.pi * Real.pi * Real.cos (P.a * Real.pi * p 1) * Real.sin (P.a * Real.pi * p 2) -
      P.vnot * Real.sin (P.a * Real.pi * p 0) * P.a * P.a * Real.pi * Real.pi * Real.cos (P.a * Real.pi * p 1) * Real.sin (P.a * Real.pi * p 2)) -
      P.visc * (-(P.unot * Real.sin (P.a * Real.pi * p 0) * P.a * P.a * Real.pi * Real.pi * Real.cos (P.a * Real.pi * p 1) * Real.sin (P.a * Real.pi * p 2) -
      P.vnot * Real.sin (P.a * Real.pi * p 0) * P.a * P.a * Real.pi * Real.pi * Real.cos (P.a * Real.pi * p 1) * Real.sin (P.a * Real.pi * p 2) +
      P.wnot * Real.sin (P.a * Real.pi * p 0) * Real.cos (P.a * Real.pi * p 1) * P.a * P.a * Real.pi * Real.pi * Real.sin (P.a * Real.pi * p 2)) * P.twoThirds -
      2 * P.vnot * Real.sin (P.a * Real.pi * p 0) * P.a * P.a * Real.pi * Real.pi * Real.cos (P.a * Real.pi * p 1) * Real.sin (P.a * Real.pi * p 2)) -
      P.visc * (-P.vnot * Real.sin (P.a * Real.pi * p 0) * P.a * P.a * Real.pi * Real.pi * Real.cos (P.a * Real.pi * p 1) * Real.sin (P.a * Real.pi * p 2) +
      P.wnot * Real.sin (P.a * Real.pi * p 0) * Real.cos (P.a * Real.pi * p 1) * P.a * P.a * Real.pi * Real.pi * Real.sin (P.a * Real.pi * p 2)) +
      (1 / 2) * P.pnot * Real.sin (2 * P.a * Real.pi * p 1) * P.a * Real.pi -
      (P.Pref * P.MW / P.R / (P.hnot * Real.cos (P.ah * Real.pi * p 0) * Real.cos (P.ah * Real.pi * p 1) * Real.cos (P.ah * Real.pi * p 2) / P.Cp +
      P.Tref) - P.rhoRef) * P.g 1

/-- `srcXi_[2]` of the non-isothermal momentum source (user_functions/VariableDensityNonIsoMomentumSrcNodeSuppAlg.C:104). -/
noncomputable def niMomentumSrc2 (P : NI) (p : Pt) : ℝ :=
      P.Pref * P.MW / P.R * (((P.hnot * Real.cos (P.ah * Real.pi * p 0) * Real.cos (P.ah * Real.pi * p 1) * Real.cos (P.ah * Real.pi * p 2) / P.Cp +
      P.Tref) ^ 2)⁻¹) * P.wnot * Real.sin (P.a * Real.pi * p 0) * ((Real.sin (P.a * Real.pi * p 1)) ^ 2) * Real.cos (P.a * Real.pi * p 2) * P.unot * Real.cos (P.a * Real.pi * p 0) * Real.sin (P.a * Real.pi * p 2) * P.hnot * Real.sin (P.ah * Real.pi * p 0) * P.ah * Real.pi * Real.cos (P.ah * Real.pi * p 1) * Real.cos (P.ah * Real.pi * p 2) / P.Cp +
      P.Pref * P.MW / P.R / (P.hnot * Real.cos (P.ah * Real.pi * p 0) * Real.cos (P.ah * Real.pi * p 1) * Real.cos (P.ah * Real.pi * p 2) / P.Cp +
      P.Tref) * P.wnot * ((Real.cos (P.a * Real.pi * p 0)) ^ 2) * P.a * Real.pi * ((Real.sin (P.a * Real.pi * p 1)) ^ 2) * Real.cos (P.a * Real.pi * p 2) * P.unot * Real.sin (P.a * Real.pi * p 2) -
      P.Pref * P.MW / P.R / (P.hnot * Real.cos (P.ah * Real.pi * p 0) * Real.cos (P.ah * Real.pi * p 1) * Real.cos (P.ah * Real.pi * p 2) / P.Cp +
      P.Tref) * P.wnot * ((Real.sin (P.a * Real.pi * p 0)) ^ 2) * ((Real.sin (P.a * Real.pi * p 1)) ^ 2) * Real.cos (P.a * Real.pi * p 2) * P.unot * P.a * Real.pi * Real.sin (P.a * Real.pi * p 2) -
      P.Pref * P.MW / P.R * (((P.hnot * Real.cos (P.ah * Real.pi * p 0) * Real.cos (P.ah * Real.pi * p 1) * Real.cos (P.ah * Real.pi * p 2) / P.Cp +
      P.Tref) ^ 2)⁻¹) * P.wnot * ((Real.sin (P.a * Real.pi * p 0)) ^ 2) * Real.sin (P.a * Real.pi * p 1) * Real.cos (P.a * Real.pi * p 2) * P.vnot * Real.cos (P.a * Real.pi * p 1) * Real.sin (P.a * Real.pi * p 2) * P.hnot * Real.cos (P.ah * Real.pi * p 0) * Real.sin (P.ah * Real.pi * p 1) * P.ah * Real.pi * Real.cos (P.ah * Real.pi * p 2) / P.Cp -
      P.Pref * P.MW / P.R / (P.hnot * Real.cos (P.ah * Real.pi * p 0) * Real.cos (P.ah * Real.pi * p 1) * Real.cos (P.ah * Real.pi * p 2) / P.Cp +
      P.Tref) * P.wnot * ((Real.sin (P.a * Real.pi * p 0)) ^ 2) * ((Real.cos (P.a * Real.pi * p 1)) ^ 2) * P.a * Real.pi * Real.cos (P.a * Real.pi * p 2) * P.vnot * Real.sin (P.a * Real.pi * p 2) +
      P.Pref * P.MW / P.R / (P.hnot * Real.cos (P.ah * Real.pi * p 0) * Real.cos (P.ah * Real.pi * p 1) * Real.cos (P.ah * Real.pi * p 2) / P.Cp +
      P.Tref) * P.wnot * ((Real.sin (P.a * Real.pi * p 0)) ^ 2) * ((Real.sin (P.a * Real.pi * p 1)) ^ 2) * Real.cos (P.a * Real.pi * p 2) * P.vnot * P.a * Real.pi * Real.sin (P.a * Real.pi * p 2) +
      P.Pref * P.MW / P.R * (((P.hnot * Real.cos (P.ah * Real.pi * p 0) * Real.cos (P.ah * Real.pi * p 1) * Real.cos (P.ah * Real.pi * p 2) / P.Cp +
      P.Tref) ^ 2)⁻¹) * P.wnot * P.wnot * ((Real.sin (P.a * Real.pi * p 0)) ^ 2) * ((Real.sin (P.a * Real.pi * p 1)) ^ 2) * ((Real.cos (P.a * Real.pi * p 2)) ^ 2) * P.hnot * Real.cos (P.ah * Real.pi * p 0) * Real.cos (P.ah * Real.pi * p 1) * Real.sin (P.ah * Real.pi * p 2) * P.ah * Real.pi / P.Cp -
      2 * P.Pref * P.MW / P.R / (P.hnot * Real.cos (P.ah * Real.pi * p 0) * Real.cos (P.ah * Real.pi * p 1) * Real.cos (P.ah * Real.pi * p 2) / P.Cp +
      P.Tref) * P.wnot * P.wnot * ((Real.sin (P.a * Real.pi * p 0)) ^ 2) * ((Real.sin (P.a * Real.pi * p 1)) ^ 2) * Real.cos (P.a * Real.pi * p 2) * Real.sin (P.a * Real.pi * p 2) * P.a * Real.pi -
      P.visc * (P.unot * Real.sin (P.a * Real.pi * p 0) * P.a * P.a * Real.pi * Real.pi * Real.sin (P.a * Real.pi * p 1) * Real.cos (P.a * Real.pi * p 2) +
      P.wnot * Real.sin (P.a * Real.pi * p 0) * P.a * P.a * Real.pi * Real.pi * Real.sin (P.a * Real.pi * p 1) * Real.cos (P.a * Real.pi * p 2)) -
      P.visc * (-P.vnot * Real.sin (P.a * Real.pi * p 0) * Real.sin (P.a * Real.pi * p 1) * P.a * P.a * Real.pi * Real.pi * Real.cos (P.a * Real.pi * p 2) +
      P.wnot * Real.sin (P.a * Real.pi * p 0) * P.a * P.a * Real.pi * Real.pi * Real.sin (P.a * Real.pi * p 1) * Real.cos (P.a * Real.pi * p 2)) -
      P.visc * (-(P.unot * Real.sin (P.a * Real.pi * p 0) * P.a * P.a * Real.pi * Real.pi * Real.sin (P.a * Real.pi * p 1) * Real.cos (P.a * Real.pi * p 2) -
      P.vnot * Real.sin (P.a * Real.pi * p 0) * Real.sin (P.a * Real.pi * p 1) * P.a * P.a * Real.pi * Real.pi * Real.cos (P.a * Real.pi * p 2) +
      P.wnot * Real.sin (P.a * Real.pi * p 0) * P.a * P.a * Real.pi * Real.pi * Real.sin (P.a * Real.pi * p 1) * Real.cos (P.a * Real.pi * p 2)) * P.twoThirds +
      2 * P.wnot * Real.sin (P.a * Real.pi * p 0) * P.a * P.a * Real.pi * Real.pi * Real.sin (P.a * Real.pi * p 1) * Real.cos (P.a * Real.pi * p 2)) +
      (1 / 2) * P.pnot * Real.sin (2 * P.a * Real.pi * p 2) * P.a * Real.pi -
      (P.Pref * P.MW / P.R / (P.hnot * Real.cos (P.ah * Real.pi * p 0) * Real.cos (P.ah * Real.pi * p 1) * Real.cos (P.ah * Real.pi * p 2) / P.Cp +
      P.Tref) - P.rhoRef) * P.g 2

end Nalu.Mms
