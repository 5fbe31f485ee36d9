import Verif.Props.Vof5

/-!
# Tightened statement after mutation batch 13 (volume of fluid)
-/

namespace Nalu.Vof
open Nalu.Edge Nalu.Kernel

variable {nn nf nip nd : ℕ} {K : Type*} [Field K] [LinearOrder K] [IsStrictOrderedRing K]

/-- **C104** A uniform prescribed velocity `c` enters a boundary face at the rate `c · A`, with the sign of the outward area
vector: faces whose areas close up admit no net volume, and reversing the velocity reverses the rate. -/
theorem c104_inflow_flux (f : Face nn nf nip nd K) (hN : ∀ ip, Unity (f.shape ip)) (c : Fin nd → K) :
    (∀ ip, inflowVdotIp f (fun _ => c) ip = ∑ j, c j * f.area ip j) ∧
    ((∀ j, ∑ ip, f.area ip j = 0) → ∑ ip, inflowVdotIp f (fun _ => c) ip = 0) ∧
    ∀ ubc ip, inflowVdotIp f (fun a j => -(ubc a j)) ip = -(inflowVdotIp f ubc ip) := by
  have h1 : ∀ ip, inflowVdotIp f (fun _ => c) ip = ∑ j, c j * f.area ip j := by
    intro ip
    have := hN ip
    unfold Unity at this
    simp only [inflowVdotIp, ← Finset.sum_mul, this, one_mul]
  refine ⟨h1, ?_, ?_⟩
  · intro h
    simp only [h1]
    rw [Finset.sum_comm]
    simp [← Finset.mul_sum, h]
  · intro ubc ip
    simp [inflowVdotIp, Finset.sum_neg_distrib]

/-- Face with two integration points whose areas close up, and a unit velocity: rates 1 and -1. -/
example : (fun ip => inflowVdotIp (nn := 2) (nf := 1) (nip := 2) (nd := 1) (K := ℚ)
    ⟨fun _ _ => 1, fun _ _ => 1, ![![1], ![-1]], fun _ => 1, fun _ _ _ => 0, fun _ => 0, fun _ => 0, fun _ => 1,
      fun _ => 0⟩ (fun _ _ => 1) ip) = ![1, -1] := by decide +kernel

end Nalu.Vof
