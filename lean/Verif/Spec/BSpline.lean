import Mathlib.Algebra.Order.Field.Basic

/-!
# Specification: B-spline basis functions (Cox–de Boor)

The textbook recursion (Piegl and Tiller, The NURBS Book, equation 2.5), with the convention `0/0 = 0`.
-/

namespace Verif.Spec.BSpline

variable {K : Type*} [Field K]

/-- The recursion started from arbitrary functions of degree zero. -/
def coxDeBoor (start : ℕ → K) (U : ℕ → K) (u : K) : ℕ → ℕ → K
  | 0, k => start k
  | p + 1, k =>
    (u - U k) / (U (k + p + 1) - U k) * coxDeBoor start U u p k
      + (U (k + p + 2) - u) / (U (k + p + 2) - U (k + 1)) * coxDeBoor start U u p (k + 1)

/-- The B-spline basis function of degree `p` and index `k`: the degree-zero functions are the indicators
of the half open knot spans. -/
def bsplineFn [LinearOrder K] (U : ℕ → K) (p k : ℕ) (u : K) : K :=
  coxDeBoor (fun k => if U k ≤ u ∧ u < U (k + 1) then 1 else 0) U u p k

/-- The polynomial piece that belongs to span `i` (the function itself for parameters in the span, and its
continuation elsewhere). -/
def bsplinePiece (U : ℕ → K) (i p k : ℕ) (u : K) : K :=
  coxDeBoor (fun k => if k = i then 1 else 0) U u p k

end Verif.Spec.BSpline
