import Mathlib.Algebra.Order.Field.Basic
import Mathlib.Data.List.Basic

/-! # What a tabulated function is, independent of how it is evaluated -/

namespace Verif.TableSpec

variable {K : Type*} [Field K] [LinearOrder K]

/-- `a` and `b` are neighbours among the entries: nothing lies strictly between them. -/
def Neighbours (es : List (K × K)) (a b : K × K) : Prop :=
  a ∈ es ∧ b ∈ es ∧ a.1 < b.1 ∧ ∀ e ∈ es, ¬ (a.1 < e.1 ∧ e.1 < b.1)

/-- `f` is the piecewise linear function through the entries, constant outside their range. -/
structure IsPiecewiseLinear (es : List (K × K)) (f : K → Option K) : Prop where
  node : ∀ e ∈ es, f e.1 = some e.2
  line : ∀ a b, Neighbours es a b → ∀ x, a.1 ≤ x → x ≤ b.1 →
    f x = some (a.2 * ((b.1 - x) / (b.1 - a.1)) + b.2 * ((x - a.1) / (b.1 - a.1)))
  left : ∀ e ∈ es, (∀ e' ∈ es, e.1 ≤ e'.1) → ∀ x, x ≤ e.1 → f x = some e.2
  right : ∀ e ∈ es, (∀ e' ∈ es, e'.1 ≤ e.1) → ∀ x, e.1 ≤ x → f x = some e.2

/-- The abscissas are pairwise distinct. -/
def DistinctAbscissas (es : List (K × K)) : Prop := (es.map Prod.fst).Nodup

/-- A list is strictly increasing. -/
def Increasing (t : List K) : Prop := t.Pairwise (· < ·)

/-- Restriction of a point to the range of the table. -/
def clamp (lo hi x : K) : K := max lo (min x hi)

/-- The rows of a file holding a full grid: for every abscissa in turn, all ordinates. -/
def gridRows (xs ys : List K) (h : ℕ → ℕ → K) : List (K × K × K) :=
  (List.range xs.length).flatMap (fun i => (List.range ys.length).map (fun j => (xs.getD i 0, ys.getD j 0, h i j)))

end Verif.TableSpec
