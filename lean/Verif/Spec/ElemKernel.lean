import Verif.Model.ElemKernel

/-!
# What is claimed about the element kernels

Specifications that mention only the local arrays before and after a kernel ran, interpolation and the
consistency conditions of an element's shape functions.
-/

namespace Nalu.Kernel
open Nalu.Edge

variable {K : Type*} [Field K] [LinearOrder K] [IsStrictOrderedRing K]

/-- A kernel that only moves the transported quantity between the nodes of the element: the sum over the
rows of what it adds to the right-hand side, and of what it adds to every column of the matrix, is
zero. -/
def Conservative {ι : Type*} [Fintype ι] (k : LocalSys ι K → LocalSys ι K) : Prop :=
  ∀ s, ∑ a, (k s).rhs a = ∑ a, s.rhs a ∧ ∀ b, ∑ a, (k s).lhs a b = ∑ a, s.lhs a b

/-- The same for a system with `nd` unknowns per node: each component separately. -/
def ConservativeV {nn nd : ℕ}
    (k : LocalSys (Fin nn × Fin nd) K → LocalSys (Fin nn × Fin nd) K) : Prop :=
  ∀ s i, ∑ n, (k s).rhs (n, i) = ∑ n, s.rhs (n, i) ∧
    ∀ b, ∑ n, (k s).lhs (n, i) b = ∑ n, s.lhs (n, i) b

/-- The matrix a kernel adds is the exact derivative of the residual it adds: changing the unknown from
`q` to `q + d` changes the contribution to the right-hand side by minus the contribution to the matrix
times `d`.  (Started from any arrays: a kernel's contribution does not depend on what the kernels before
it left there.) -/
def ExactNewton {ι : Type*} [Fintype ι] (k : (ι → K) → LocalSys ι K → LocalSys ι K) : Prop :=
  ∀ q d s s' a, (k (q + d) s').rhs a - s'.rhs a =
    ((k q s).rhs a - s.rhs a) - ∑ b, ((k q s).lhs a b - s.lhs a b) * d b

/-- Partition of unity of the shape functions at one integration point. -/
def Unity {m : ℕ} (N : Fin m → K) : Prop := ∑ ic, N ic = 1

/-- The gradient operator at one integration point annihilates constants. -/
def GradConst {m nd : ℕ} (g : Fin m → Fin nd → K) : Prop := ∀ j, ∑ ic, g ic j = 0

/-- The gradient operator at one integration point differentiates the coordinates exactly. -/
def GradLinear {m nd : ℕ} (g x : Fin m → Fin nd → K) : Prop :=
  ∀ i j, ∑ ic, g ic j * x ic i = if i = j then 1 else 0

/-- An affine function of position. -/
def affine {nd : ℕ} (c : K) (w : Fin nd → K) (x : Fin nd → K) : K := c + ∑ i, w i * x i

/-- Net flux out of local node `a`: what leaves through the surfaces of which it is the left node, minus what
enters through those of which it is the right node. -/
def netOut {nn nip : ℕ} (il ir : Fin nip → Fin nn) (flux : Fin nip → K) (a : Fin nn) : K :=
  ∑ ip, ((if a = il ip then flux ip else 0) - if a = ir ip then flux ip else 0)

/-- One unit of assembly work: an element (or a face with its element), the global rows of its local rows,
and the sequence of kernels run on it as a function of the local unknowns. -/
structure Work (M K : Type*) where
  ι : Type
  [fin : Fintype ι]
  dof : ι → M
  kern : (ι → K) → LocalSys ι K → LocalSys ι K

attribute [instance] Work.fin

/-- The assembled system: `zeroSystem`, then for every work item the scratch arrays are zeroed, the kernels
run and `apply_coeff` sums into the global system (AssembleElemSolverAlgorithm.C:69-135). -/
def assembleWorks {M : Type*} [DecidableEq M] (ws : List (Work M K)) (q : M → K) : Sys M K :=
  ws.foldl (fun s w => s.applyCoeff w.dof
    (w.kern (fun a => q (w.dof a)) ⟨fun _ _ => 0, fun _ => 0⟩)) (Sys.zero M K)

end Nalu.Kernel
