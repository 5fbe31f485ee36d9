import Verif.Model.Diagnostics

/-!
# Specification: Courant and Reynolds numbers, error indicators

Independent wording of what the numbers are: lengths and mean speeds of edges, greatest elements, root mean squares.
-/

namespace Nalu.Diag

noncomputable section

variable {nn nd : ℕ}

/-- Euclidean length of a vector. -/
def len (a : Fin nd → ℝ) : ℝ := Real.sqrt (∑ j, a j ^ 2)

/-- The edge vector from the left to the right node. -/
def Elem.edge (e : Elem nn nd) (p : Fin nn × Fin nn) (j : Fin nd) : ℝ := e.x p.2 j - e.x p.1 j

/-- The mean velocity of an edge. -/
def Elem.mean (e : Elem nn nd) (p : Fin nn × Fin nn) (j : Fin nd) : ℝ := (e.v p.1 j + e.v p.2 j) / 2

/-- `m` is the largest of the given numbers, and `-1` if there are none. -/
def Top (l : List ℝ) (m : ℝ) : Prop := (l = [] ∧ m = -1) ∨ (m ∈ l ∧ ∀ a ∈ l, a ≤ m)

/-- Mean of the squares of the projections of the averaged nodal gradients on the edges: `D p i` is the difference of
component `i` over the edge `p` that the gradients predict. -/
def rms (pts : List (ℕ × ℕ)) (comps : ℕ) (D : ℕ × ℕ → ℕ → ℝ) : ℝ :=
  Real.sqrt ((pts.map fun p => ((List.range comps).map fun i => D p i ^ 2).sum).sum / (comps * pts.length))

/-- The difference over the edge predicted by the mean of the gradients of its nodes; the gradient of component `i` at node
`n` is stored from `(n*comps + i)*nDim` on. -/
def Flat.predicted (e : Flat) (comps : ℕ) (p : ℕ × ℕ) (i : ℕ) : ℝ :=
  ((List.range e.nDim).map fun j => (e.x (p.2 * e.nDim + j) - e.x (p.1 * e.nDim + j)) *
    ((e.du ((p.1 * comps + i) * e.nDim + j) + e.du ((p.2 * comps + i) * e.nDim + j)) / 2)).sum

end

end Nalu.Diag
