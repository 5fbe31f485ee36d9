import Mathlib.Analysis.SpecialFunctions.Pow.Real
import Mathlib.Analysis.Complex.Trigonometric
import Mathlib.Algebra.BigOperators.Fin

/-!
# Turbulence closures and clipping

Models the nodal loops of src/TurbVisc{SST,Smagorinsky,Wale,Ksgs,KEpsilon}Algorithm.C,
src/ShearStressTransportEquationSystem.C, src/KEpsilonEquationSystem.C,
src/TurbKineticEnergyEquationSystem.C, src/EffectiveSSTDiffFluxCoeffAlgorithm.C, the nodal source terms
src/{TurbKineticEnergySST,TurbKineticEnergySSTDES,SpecificDissipationRateSST,TurbKineticEnergyKsgs,
TurbKineticEnergyKEpsilon,TurbDissipationKEpsilon}NodeSourceSuppAlg.C, and the clipping of mixture
fraction, volume of fluid and mass fractions.

Each definition is the body of the loop over nodes at one node.  `double` is `ℝ`; `std::max(a,b)` is
`max a b`, `std::pow` is `Real.rpow`.  The velocity gradient is `dudx i j` (`dudx[nDim*i+j]`).
-/

namespace Nalu.Turb

/-! ## Velocity gradient -/

/-- The strain-rate magnitude (TurbViscSSTAlgorithm.C:89-98, TurbViscSmagorinskyAlgorithm.C:89-98). -/
noncomputable def strainMag {n : ℕ} (g : Fin n → Fin n → ℝ) : ℝ :=
  Real.sqrt (2 * ∑ i, ∑ j, 1 / 2 * (g i j + g j i) * (1 / 2 * (g i j + g j i)))

/-- `Pk` before the scaling by the eddy viscosity (TurbKineticEnergySSTNodeSourceSuppAlg.C:70-77 and the
other source terms). -/
def gradProduct {n : ℕ} (g : Fin n → Fin n → ℝ) : ℝ := ∑ i, ∑ j, g i j * (g i j + g j i)

/-! ## Eddy viscosities -/

/-- `TurbViscSmagorinskyAlgorithm::execute` (lines 100-101); `vol` is the dual nodal volume. -/
noncomputable def smagorinsky {n : ℕ} (cmuCs rho vol : ℝ) (g : Fin n → Fin n → ℝ) : ℝ :=
  cmuCs * cmuCs * rho * vol ^ (1 / (n : ℝ)) * vol ^ (1 / (n : ℝ)) * strainMag g

/-- `gijSq` (TurbViscWaleAlgorithm.C:117-123): entry `(i,j)` of the squared gradient. -/
def gradSq {n : ℕ} (g : Fin n → Fin n → ℝ) (i j : Fin n) : ℝ := ∑ l, g i l * g l j

/-- `gkkSq` (TurbViscWaleAlgorithm.C:97-104). -/
def gradSqTrace {n : ℕ} (g : Fin n → Fin n → ℝ) : ℝ := ∑ m, ∑ k, g m k * g k m

/-- `Sijd` (TurbViscWaleAlgorithm.C:124). -/
noncomputable def waleSd {n : ℕ} (g : Fin n → Fin n → ℝ) (i j : Fin n) : ℝ :=
  1 / 2 * (gradSq g i j + gradSq g j i) - (if i = j then 1 else 0) / 3 * gradSqTrace g

/-- `SijdSq` (TurbViscWaleAlgorithm.C:126). -/
noncomputable def waleSdSq {n : ℕ} (g : Fin n → Fin n → ℝ) : ℝ := ∑ i, ∑ j, waleSd g i j * waleSd g i j

/-- `SijSq` (TurbViscWaleAlgorithm.C:125). -/
noncomputable def strainSq {n : ℕ} (g : Fin n → Fin n → ℝ) : ℝ :=
  ∑ i, ∑ j, 1 / 2 * (g i j + g j i) * (1 / 2 * (g i j + g j i))

/-- `TurbViscWaleAlgorithm::execute` (lines 130-134); `small = 1e-8`. -/
noncomputable def wale {n : ℕ} (cw small rho vol : ℝ) (g : Fin n → Fin n → ℝ) : ℝ :=
  rho * (cw * vol ^ (1 / (n : ℝ))) * (cw * vol ^ (1 / (n : ℝ)))
    * (waleSdSq g ^ (3 / 2 : ℝ) + small * small)
    / (strainSq g ^ (5 / 2 : ℝ) + waleSdSq g ^ (5 / 4 : ℝ) + small)

/-- `fmu` of `TurbViscKsgsAlgorithm::execute` (lines 111-120); `lr` is 1 for the low-Reynolds variant and
0 otherwise. -/
noncomputable def ksgsFmu (lr cl ao bo filter cEps nu tke minDist dsqrtkSq : ℝ) : ℝ :=
  let dsq := lr * dsqrtkSq
  let md := lr * minDist
  let eps := lr * (cEps * tke ^ (3 / 2 : ℝ) / filter + 2 * nu * dsq)
  let upeps := (nu * eps) ^ (1 / 4 : ℝ) * Real.sqrt (cl * md / filter)
  let ypeps := md * upeps / nu
  lr * (1 - Real.exp (-((ypeps / ao) ^ (2 / 3 : ℝ)) ^ bo)) + (1 - lr)

/-- `TurbViscKsgsAlgorithm::execute` (line 121). -/
noncomputable def ksgs (fmu cmuEps rho tke filter : ℝ) : ℝ := fmu * cmuEps * rho * Real.sqrt tke * filter

/-- `TurbViscKEpsilonAlgorithm::execute` (line 79); `small = 1e-16`. -/
noncomputable def kEpsilon (cmu small rho tke eps : ℝ) : ℝ := cmu * rho * tke * tke / (eps + small)

/-- `trbDiss` (TurbViscSSTAlgorithm.C:102, ShearStressTransportEquationSystem.C:528). -/
noncomputable def trbDiss (betaStar tke sdr d : ℝ) : ℝ := Real.sqrt tke / betaStar / sdr / d

/-- `lamDiss` (TurbViscSSTAlgorithm.C:103, ShearStressTransportEquationSystem.C:529). -/
noncomputable def lamDiss (visc rho sdr d : ℝ) : ℝ := 500 * visc / rho / sdr / (d * d)

/-- `fTwo` (TurbViscSSTAlgorithm.C:104-105). -/
noncomputable def fTwo (betaStar visc rho tke sdr d : ℝ) : ℝ :=
  let a := max (2 * trbDiss betaStar tke sdr d) (lamDiss visc rho sdr d)
  Real.tanh (a * a)

/-- `TurbViscSSTAlgorithm::execute` (line 107). -/
noncomputable def sst {n : ℕ} (aOne betaStar visc rho tke sdr d : ℝ) (g : Fin n → Fin n → ℝ) : ℝ :=
  aOne * rho * tke / max (aOne * sdr) (strainMag g * fTwo betaStar visc rho tke sdr d)

/-- `compute_f_one_blending` (ShearStressTransportEquationSystem.C:519-538); `cdClip = 1e-10`. -/
noncomputable def fOne {n : ℕ} (betaStar sigmaWTwo cdClip mu rho tke sdr d : ℝ) (dk dw : Fin n → ℝ) : ℝ :=
  let crossDiff := ∑ j, dk j * dw j
  let cdkw := max (2 * rho * sigmaWTwo * crossDiff / sdr) cdClip
  let a := min (max (trbDiss betaStar tke sdr d) (lamDiss mu rho sdr d))
    (4 * rho * sigmaWTwo * tke / cdkw / (d * d))
  Real.tanh (a * a * a * a)

/-- The blending of two model constants (EffectiveSSTDiffFluxCoeffAlgorithm.C:75,
SpecificDissipationRateSSTNodeSourceSuppAlg.C:100-101, TurbKineticEnergySSTDESNodeSourceSuppAlg.C:95). -/
def blend (f one two : ℝ) : ℝ := f * one + (1 - f) * two

/-- `EffectiveSSTDiffFluxCoeffAlgorithm::execute` (lines 75-76). -/
def effectiveVisc (visc tvisc f one two : ℝ) : ℝ := visc + tvisc * blend f one two

/-- The lower clip of the dynamic constant (TurbKineticEnergyEquationSystem.C:1607-1609). -/
noncomputable def dynamicCmu (visc lamFraction rho filter tke small cmuEps : ℝ) : ℝ :=
  max (-visc * lamFraction / (rho * filter * Real.sqrt (max tke small))) cmuEps

/-! ## Clipping of the turbulence variables -/

/-- The nodal values written by the updates. -/
structure Node where
  tke : ℝ
  diss : ℝ
  tvisc : ℝ

/-- `ShearStressTransportEquationSystem::update_and_clip` at a node (lines 325-352): `s` holds the old
values, `dk`, `dw` the solution increments; `clip = 1e-8`. -/
noncomputable def sstUpdate (clip visc rho : ℝ) (s : Node) (dk dw : ℝ) : Node :=
  let tkeNew := s.tke + dk
  let sdrNew := s.diss + dw
  if 0 ≤ tkeNew ∧ 0 < sdrNew then { s with tke := tkeNew, diss := sdrNew }
  else if tkeNew < 0 ∧ sdrNew < 0 then ⟨clip, rho * clip / visc, visc⟩
  else if tkeNew < 0 then ⟨visc * sdrNew / rho, sdrNew, visc⟩
  else ⟨tkeNew, rho * tkeNew / visc, visc⟩

/-- `KEpsilonEquationSystem::update_and_clip` at a node (lines 255-291) with `viscFac = 1`; `clip = 1e-8`,
`small = 1e-16`.  The two flags say whether `numClip[0]`, `numClip[1]` are incremented. -/
noncomputable def kepsUpdate (clip small cmu visc rho : ℝ) (s : Node) (dk de : ℝ) : Node × Bool × Bool :=
  let tkeNew := s.tke + dk
  let epsNew := s.diss + de
  if small < tkeNew ∧ small < epsNew then ({ s with tke := tkeNew, diss := epsNew }, false, false)
  else if tkeNew < small ∧ epsNew < small then (⟨clip, cmu * rho * clip * clip / visc, visc⟩, true, true)
  else if tkeNew < small then (⟨Real.sqrt (visc * epsNew / (rho * cmu)), epsNew, visc⟩, true, false)
  else (⟨tkeNew, cmu * rho * tkeNew * tkeNew / visc, visc⟩, false, true)

/-- `KEpsilonEquationSystem::initial_work` at a node (lines 183-203). -/
noncomputable def kepsInitial (clip cmu visc rho tke eps : ℝ) : ℝ × ℝ :=
  if 0 ≤ tke ∧ 0 < eps then (tke, eps)
  else if tke < 0 ∧ eps < 0 then (clip, cmu * rho * clip * clip / visc)
  else if tke < 0 then (Real.sqrt (visc * eps / (rho * cmu)), eps)
  else (tke, cmu * rho * tke * tke / visc)

/-- `TurbKineticEnergyEquationSystem::update_and_clip` at a node (lines 1638-1648); the flag is the
increment of `numClip`. -/
noncomputable def tkeUpdate (clip tke dk : ℝ) : ℝ × Bool :=
  if tke + dk < 0 then (clip, true) else (tke + dk, false)

/-! ## Source terms (per unit volume, right- and left-hand side before the scaling by the dual volume) -/

/-- Production limited to a multiple of the destruction (e.g. TurbKineticEnergySSTNodeSourceSuppAlg.C:81-82). -/
noncomputable def limited (ratio Pk Dk : ℝ) : ℝ := if ratio * Dk < Pk then ratio * Dk else Pk

/-- `TurbKineticEnergySSTNodeSourceSuppAlg::node_execute` (lines 70-85). -/
noncomputable def tkeSST {n : ℕ} (betaStar ratio rho tke sdr tvisc : ℝ) (g : Fin n → Fin n → ℝ) : ℝ × ℝ :=
  let Dk := betaStar * rho * sdr * tke
  (limited ratio (gradProduct g * tvisc) Dk - Dk, betaStar * rho * sdr)

/-- `lDES` (TurbKineticEnergySSTDESNodeSourceSuppAlg.C:95-100); `tiny = 1e-16`. -/
noncomputable def lDES (betaStar tiny cDES maxLen tke sdr : ℝ) : ℝ :=
  max tiny (min (Real.sqrt tke / betaStar / sdr) (cDES * maxLen))

/-- `TurbKineticEnergySSTDESNodeSourceSuppAlg::node_execute` (lines 82-109) given `lDES`. -/
noncomputable def tkeDES {n : ℕ} (ratio rho tke tvisc l : ℝ) (g : Fin n → Fin n → ℝ) : ℝ × ℝ :=
  let Dk := rho * tke * Real.sqrt tke / l
  (limited ratio (gradProduct g * tvisc) Dk - Dk, 3 / 2 * rho / l * Real.sqrt tke)

/-- `SpecificDissipationRateSSTNodeSourceSuppAlg::node_execute` (lines 79-113); `tiny = 1e-16`. -/
noncomputable def sdrSST {n : ℕ} (betaStar beta gamma sigmaD ratio tiny rho tke sdr tvisc : ℝ)
    (g : Fin n → Fin n → ℝ) (dk dw : Fin n → ℝ) : ℝ × ℝ :=
  let Dk := betaStar * rho * sdr * tke
  let Pk := limited ratio (gradProduct g * tvisc) Dk
  let Pw := gamma * rho * Pk / max tvisc tiny
  let Dw := beta * rho * sdr * sdr
  let Sw := sigmaD * rho * (∑ i, dk i * dw i) / sdr
  (Pw - Dw + Sw, 2 * beta * rho * sdr + max (Sw / sdr) 0)

/-- `TurbKineticEnergyKsgsNodeSourceSuppAlg::node_execute` (lines 83-103); `lowRe` is
`lrksgsfac_*2.0*visc*dsqrtkSq`. -/
noncomputable def tkeKsgs {n : ℕ} (cEps ratio rho tke tvisc filter lowRe : ℝ) (g : Fin n → Fin n → ℝ) :
    ℝ × ℝ :=
  let Dk := cEps * rho * tke ^ (3 / 2 : ℝ) / filter + lowRe
  (limited ratio (gradProduct g * tvisc) Dk - Dk, 3 / 2 * cEps * rho * Real.sqrt tke / filter)

/-- `Pk` of the k-epsilon source terms after the clip at zero
(TurbKineticEnergyKEpsilonNodeSourceSuppAlg.C:77-90); `inc` is `includeDivU_`. -/
noncomputable def kepsPk {n : ℕ} (inc rho tke tvisc : ℝ) (g : Fin n → Fin n → ℝ) : ℝ :=
  let divU := ∑ i, g i i * inc
  max 0 (tvisc * (gradProduct g - 2 / 3 * divU * divU) - 2 / 3 * rho * tke * divU)

/-- `TurbKineticEnergyKEpsilonNodeSourceSuppAlg::node_execute` (lines 92-99); `tiny` is the smallest
normal double. -/
noncomputable def tkeKeps (ratio tiny rho tke eps Pk : ℝ) : ℝ × ℝ :=
  let Dk := rho * eps
  (limited ratio Pk Dk - Dk, rho * eps / max tiny tke)

/-- `TurbDissipationKEpsilonNodeSourceSuppAlg::node_execute` (lines 92-99). -/
noncomputable def epsKeps (c1 c2 ratio tiny rho tke eps Pk : ℝ) : ℝ × ℝ :=
  let Dk := rho * eps
  (eps / max tiny tke * (c1 * limited ratio Pk Dk - c2 * Dk), c2 * rho * eps / max tiny tke)

/-! ## Bounded scalars -/

/-- `MixtureFractionEquationSystem::update_and_clip` (lines 990-1008) and
`VolumeOfFluidEquationSystem::update_and_clip` (lines 955-969) at a node: new value and the two flags
counted in `numClip`. -/
noncomputable def clipUpdate (delta z dz : ℝ) : ℝ × Bool × Bool :=
  let v := z + dz
  if v < 0 - delta then (0 - delta, true, false)
  else if 1 + delta < v then (1 + delta, false, true)
  else (v, false, false)

/-- What a process accumulates over its nodes (owned and shared): `numClip[0]`, `numClip[1]`, `minZ`,
`maxZ`, started at `0, 0, 1e16, -1e16`. -/
structure ClipStat where
  low : ℕ
  high : ℕ
  minZ : ℝ
  maxZ : ℝ

/-- The diagnostic updates of the loop body (MixtureFractionEquationSystem.C:997-1006). -/
noncomputable def clipStep (delta : ℝ) (s : ClipStat) (v : ℝ) : ClipStat :=
  if v < 0 - delta then { s with low := s.low + 1, minZ := min v s.minZ }
  else if 1 + delta < v then { s with high := s.high + 1, maxZ := max v s.maxZ }
  else s

/-- The loop over the nodes of one process. -/
noncomputable def clipLocal (delta large : ℝ) (vs : List ℝ) : ClipStat :=
  vs.foldl (clipStep delta) ⟨0, 0, large, -large⟩

/-- The reductions (MixtureFractionEquationSystem.C:1013-1033). -/
noncomputable def clipGlobal (delta large : ℝ) (ranks : List (List ℝ)) : ClipStat :=
  let l := ranks.map (clipLocal delta large)
  ⟨(l.map (·.low)).sum, (l.map (·.high)).sum, l.foldl (fun m s => min m s.minZ) large,
    l.foldl (fun m s => max m s.maxZ) (-large)⟩

/-- `MassFractionEquationSystem::compute_nth_mass_fraction` at a node (lines 811-822): the first `n` mass
fractions are clipped and the last is set; `lo = 1e-16`. -/
noncomputable def massFractions {n : ℕ} (lo : ℝ) (y : Fin (n + 1) → ℝ) : Fin (n + 1) → ℝ :=
  fun i => if i.val < n then min (1 + lo) (max lo (y i))
    else 1 - ∑ j : Fin n, min (1 + lo) (max lo (y j.castSucc))

end Nalu.Turb
