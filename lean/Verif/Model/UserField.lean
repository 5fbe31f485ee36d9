import Verif.Spec.Pde
import Mathlib.Analysis.SpecialFunctions.Pow.Real
import Mathlib.Analysis.SpecialFunctions.Gaussian.GaussianIntegral

/-!
# Further user functions

Models `user_functions/FixedHeightMixFracAuxFunction.C`, `user_functions/TornadoAuxFunction.C`,
`user_functions/SinProfileChannelFlowVelocityAuxFunction.C`, `user_functions/WorkshopMMSMixFracAuxFunction.C`: the values at one point and the loop over
the points with its pointer increments.  `double` is `ℝ`, `std::erf` is the error function.
-/

namespace Nalu.UserField
open Verif.Pde

/-- `std::erf`. -/
noncomputable def erf (x : ℝ) : ℝ := 2 / Real.sqrt Real.pi * ∫ t in (0 : ℝ)..x, Real.exp (-1 * t ^ 2)

/-- `hY_`, `dY_`, `amp_`, `freq_`. -/
structure Height where
  hY : ℝ
  dY : ℝ
  amp : ℝ
  freq : ℝ

/-- Constructor (user_functions/FixedHeightMixFracAuxFunction.C:21-39). -/
noncomputable def Height.ofParams (p : List ℝ) : Height where
  hY := if 0 < p.length then p.getD 0 0 else 0
  dY := if 1 < p.length then p.getD 1 0 else 1 / 10
  amp := if 2 < p.length then p.getD 2 0 else 0
  freq := if 3 < p.length then p.getD 3 0 else 0

/-- `FixedHeightMixFracAuxFunction::do_evaluate` at one point (user_functions/FixedHeightMixFracAuxFunction.C:54-64). -/
noncomputable def fixedHeight (c : Height) (x y : ℝ) : ℝ :=
  let dy := if |c.amp| > 1 / 10000000 then y - c.amp * Real.sin (c.freq * x) else y - c.hY
  1 / 2 * (erf (dy / c.dY) + 1)

/-- The constants of the tornado (user_functions/TornadoAuxFunction.C:21-26). -/
structure Tornado where
  z1 : ℝ
  hNot : ℝ
  rNot : ℝ
  uRef : ℝ
  swirl : ℝ

/-- The values in the constructor (user_functions/TornadoAuxFunction.C:18-29). -/
noncomputable def Tornado.code : Tornado := ⟨25 / 1000, 41 / 100, 4 / 10, 3 / 10, 2⟩

/-- `TornadoAuxFunction::do_evaluate` at one point (user_functions/TornadoAuxFunction.C:44-58); a negative base of the root is `none` (`NaN`). -/
noncomputable def tornado (c : Tornado) (x y z : ℝ) : Option (Fin 3 → ℝ) :=
  if z / c.z1 < 0 then none else
  let fac := (z / c.z1) ^ (1 / 7 : ℝ)
  let uMag := c.uRef * fac
  let omega := uMag / c.rNot
  let uZ := 2 * c.hNot / c.rNot * c.swirl * uMag
  some ![-omega * y, omega * x, uZ]

/-- `SinProfileChannelFlowVelocityAuxFunction::do_evaluate` at one point (user_functions/SinProfileChannelFlowVelocityAuxFunction.C:41-50). -/
noncomputable def sinChannel (um x y z : ℝ) : Fin 3 → ℝ :=
  let aux := if y > 1 then (1 : ℝ) else -1
  ![um * Real.sin x * aux, 1 / 10 * um * Real.sin y, 1 / 10 * um * Real.sin z]

/-- `WorkshopMMSMixFracAuxFunction::do_evaluate` at one point (user_functions/WorkshopMMSMixFracAuxFunction.C:40-45). -/
noncomputable def workshop (u v sigma : ℝ) (p : Pt) : ℝ :=
  let xtu := p 0 - p 3 * u
  let ytv := p 1 - p 3 * v
  Real.exp (-(xtu * xtu + ytv * ytv) / sigma / sigma)

/-- The loop over the points: `coords` advances by `stride`, `fieldPtr` by `fieldSize`; `f` gives the `ncomp` values at the point
(user_functions/FixedHeightMixFracAuxFunction.C:52-67 with `stride` the dimension; user_functions/TornadoAuxFunction.C:42-61 with `stride = fieldSize`). -/
def evaluate {K : Type*} (ncomp stride fieldSize : ℕ) (f : (ℕ → K) → ℕ → K) (coords : ℕ → K) (numPoints : ℕ) (field : ℕ → K) : ℕ → K :=
  (List.range numPoints).foldl (fun fld p =>
    (List.range ncomp).foldl (fun fld i => fun k => if k = p * fieldSize + i then f (fun j => coords (p * stride + j)) i else fld k) fld) field

end Nalu.UserField
