import Verif.Model.Fem
import Verif.Spec.ElemKernel

/-!
# What is claimed about the finite-element kernels

Galerkin: for every nodal test function, what a kernel adds to the right-hand side, tested with it, is
minus the quadrature of the weak form evaluated with the interpolated fields.
-/

namespace Nalu.Fem
open Nalu.Edge Nalu.Kernel

variable {K : Type*} [Field K] [LinearOrder K] [IsStrictOrderedRing K]
variable {nn nip nf nd : ℕ}

/-- Quadrature on an element. -/
def quad (e : Elem nn nip nd K) (f : Fin nip → K) : K := ∑ ip, f ip * (e.detJ ip * e.weight ip)

/-- Quadrature on a face. -/
def quadB (f : BFace nf nip nd K) (g : Fin nip → K) : K := ∑ ip, g ip * (f.detJ ip * f.weight ip)

/-- Quadrature on an exposed face. -/
def quadF (f : Face nn nf nip nd K) (g : Fin nip → K) : K := ∑ ip, g ip * (f.detJ ip * f.weight ip)

/-- Value of a nodal field at an integration point. -/
def val (N : Fin nn → K) (q : Fin nn → K) : K := ∑ ic, N ic * q ic

/-- Gradient of a nodal field at an integration point. -/
def grad (g : Fin nn → Fin nd → K) (q : Fin nn → K) (j : Fin nd) : K := ∑ ic, g ic j * q ic

/-- Scalar product. -/
def dot (a b : Fin nd → K) : K := ∑ j, a j * b j

/-- What a kernel added to the right-hand side, tested with `w`. -/
def tested {ι : Type*} [Fintype ι] (k : LocalSys ι K → LocalSys ι K) (s : LocalSys ι K) (w : ι → K) : K :=
  ∑ a, w a * ((k s).rhs a - s.rhs a)

/-- What a kernel added to the matrix, as a bilinear form. -/
def form {ι : Type*} [Fintype ι] (k : LocalSys ι K → LocalSys ι K) (s : LocalSys ι K) (w d : ι → K) : K :=
  ∑ a, ∑ b, w a * ((k s).lhs a b - s.lhs a b) * d b

/-- A component of a nodal vector field. -/
def comp (w : Fin nn × Fin nd → K) (i : Fin nd) : Fin nn → K := fun n => w (n, i)

/-- The test function on the nodes of an exposed face. -/
def trace (f : Face nn nf nip nd K) (ip : Fin nip) (w : Fin nn → K) : K := ∑ ic, f.shape ip ic * w (f.node ic)

/-- Viscous traction at a face point, per unit area, `t_i = mu (du_i/dx_j + du_j/dx_i) n_j`
(no dilatational part). -/
def traction (mu : K) (g : Fin nn → Fin nd → K) (n : Fin nd → K) (u : Fin nn → Fin nd → K) (i : Fin nd) : K :=
  mu * ∑ j, (grad g (fun c => u c i) j + grad g (fun c => u c j) i) * n j

/-- The part of `t` tangential to a surface with unit normal `n`. -/
def tang (n t : Fin nd → K) (i : Fin nd) : K := t i - n i * ∑ l, n l * t l

end Nalu.Fem
