import Verif.Model.Edge
import Mathlib.Analysis.Complex.Trigonometric

/-! # Peclet / tanh blending over the reals -/

namespace Nalu.Peclet

/-- `TanhFunction::execute`: /repo/src/PecletFunction.C:108-112; used as Peclet function and by
`Realm::get_tanh_blending` (Realm.C:4983-4997) as a function of time. -/
noncomputable def tanhFunction (c1 c2 x : ℝ) : ℝ := 0.5 * (1 + Real.tanh ((x - c1) / c2))

end Nalu.Peclet
