import Verif.Model.ExplicitFilter

/-!
# What an explicit box filter should return

A weighted mean over a geometric neighbourhood; `Mesh` is only read for its geometry (nodes, elements, connectivity, coordinates, volumes,
periodic images).
-/

namespace Nalu.ExpFilter.Spec
open Nalu.ExpFilter Nalu.Edge

variable {N E : Type*} {nd : ℕ}

/-- Some point lies both in the filter box of the node and in the bounding box of the element. -/
def Touches (fs : Fin nd → ℝ) (m : Mesh N E nd) (n : N) (e : E) : Prop :=
  ∃ x : Fin nd → ℝ, ∀ j, |x j - m.coord n j| ≤ fs j / 2 ∧ (∃ a ∈ m.conn e, m.coord a j ≤ x j) ∧ ∃ b ∈ m.conn e, x j ≤ m.coord b j

/-- Volume of an element. -/
def vol (m : Mesh N E nd) (e : E) : ℝ := (m.scv e).sum

/-- Mean of the nodal values of an element. -/
noncomputable def mean (m : Mesh N E nd) (q : N → ℝ) (e : E) : ℝ := ((m.conn e).map q).sum / (m.conn e).length

open scoped Classical in
/-- The elements the filter of a node collects, those of its periodic images included. -/
noncomputable def support (fs : Fin nd → ℝ) (m : Mesh N E nd) (n : N) : List E :=
  (m.images n).flatMap fun k => m.elems.filter (Touches fs m k)

/-- The filtered value: the volume weighted mean. -/
noncomputable def boxMean (fs : Fin nd → ℝ) (m : Mesh N E nd) (q : N → ℝ) (n : N) : ℝ :=
  ((support fs m n).map fun e => vol m e * mean m q e).sum / ((support fs m n).map (vol m)).sum

/-- A usable mesh and filter. -/
structure Usable (fs : Fin nd → ℝ) (m : Mesh N E nd) : Prop where
  nodup : m.nodes.Nodup
  ownN : ∀ n ∈ m.nodes, m.ownerN n < m.ranks
  ownE : ∀ e ∈ m.elems, m.ownerE e < m.ranks
  size : ∀ j, 0 ≤ fs j
  range : ∀ e ∈ m.elems, ∀ n ∈ m.conn e, ∀ j, |m.coord n j| ≤ 10 ^ 16
  hasNodes : ∀ e ∈ m.elems, m.conn e ≠ []
  volPos : ∀ e ∈ m.elems, 0 < vol m e
  /-- every node of the search parts belongs to an element of the search parts -/
  hasElem : ∀ n ∈ m.nodes, ∃ e ∈ m.elems, n ∈ m.conn e
  imgSelf : ∀ n ∈ m.nodes, n ∈ m.images n
  imgNode : ∀ n ∈ m.nodes, ∀ k ∈ m.images n, k ∈ m.nodes

/-! ## The momentum balance -/

variable {nn nip : ℕ}

/-- Derivative in direction `j` of the interpolant of nodal values. -/
def D (dn : Fin nn → Fin nd → ℝ) (j : Fin nd) (q : Fin nn → ℝ) : ℝ := ∑ ic, dn ic j * q ic

/-- Value of the interpolant. -/
def at' (w : Fin nn → ℝ) (q : Fin nn → ℝ) : ℝ := ∑ ic, w ic * q ic

/-- Backward difference in time of a quantity. -/
noncomputable def ddt (c : ResPar nd) (a1 a0 aM : ℝ) : ℝ := (c.g1 * a1 + c.g2 * a0 + c.g3 * aM) / c.dt

/-- Nodal viscous stress `μ (G + Gᵀ - (2/3) (div u) I)`, the divergence being that of the interpolated velocity. -/
noncomputable def stress (c : ResPar nd) (dn : Fin nn → Fin nd → ℝ) (f : ResNodes nn nd) (i j : Fin nd) (n : Fin nn) : ℝ :=
  f.mu n * (f.G n i j + f.G n j i - if i = j then 2 / 3 * c.divU * ∑ l, D dn l (fun n => f.u1 n l) else 0)

/-- Momentum balance per unit volume, the velocity times the mass balance taken off:
`∂(ρu)/∂t + ∇·(ρuu) - ∇·τ + ∇p - (ρ - ρ_ref) g - u (∂ρ/∂t + ∇·(ρu))`. -/
noncomputable def balance (c : ResPar nd) (w : Fin nn → ℝ) (dn : Fin nn → Fin nd → ℝ) (f : ResNodes nn nd) (i : Fin nd) : ℝ :=
  ddt c (at' w f.rho1 * at' w (fun n => f.u1 n i)) (at' w f.rho0 * at' w (fun n => f.u0 n i)) (at' w f.rhoM * at' w (fun n => f.uM n i))
    + ∑ j, D dn j (fun n => f.rho1 n * f.u1 n i * f.u1 n j)
    - ∑ j, D dn j (stress c dn f i j)
    + D dn i f.p
    - (at' w f.rho1 - c.rhoRef) * c.grav i
    - at' w (fun n => f.u1 n i) * (ddt c (at' w f.rho1) (at' w f.rho0) (at' w f.rhoM) + ∑ j, D dn j (fun n => f.rho1 n * f.u1 n j))

/-- The integration points of the element are its nodes, in order: the linear elements of the code. -/
def PointPerNode (e : ResElem nn nip nd) : Prop := ∀ ip, (e.node ip).val = ip.val

end Nalu.ExpFilter.Spec
