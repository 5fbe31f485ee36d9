import Verif.Model.NonConformal

/-!
# Model of the flow rates through a non-conformal interface in the volume-of-fluid form

Models `ComputeMdotVofNonConformalAlgorithm::execute` (`/repo/src/ComputeMdotVofNonConformalAlgorithm.C:124-608`) for one
`DgInfo`. Same simplifications as in `Verif.Model.NonConformal`.
-/

namespace Nalu.NC

variable {K : Type*} [Field K] [LinearOrder K] [IsStrictOrderedRing K]
variable {nc no fc fo nd : ℕ}

/-- The two rates written to the face. -/
structure Flows (K : Type*) where
  mass : K
  volume : K

/-- The body for one Gauss point (ComputeMdotVofNonConformalAlgorithm.C:336-477), with the options of the constructor (57-61, 88-93). -/
def ncFlows (o : MdotOpts K) (vo : VofOpts nd K) (p : Point nc fc no fo nd K) (c : FlowSide nc nd K) (f : FlowSide no nd K)
    (wc : VofSide nc K) (wo : VofSide no K) (pC : Fin nc → K) (pO : Fin no → K) : Flows K :=
  let rhoC := p.cur.val c.rho
  let rhoO := p.opp.val f.rho
  let skC := p.cur.val wc.sk * vo.loc (p.cur.val wc.vof)
  let skO := p.opp.val wo.sk * vo.loc (p.opp.val wo.vof)
  let densityBip := 1 / 2 * (rhoC + rhoO)
  let penaltyBip := o.pts * (1 / 2) * (p.cur.invLen p.cN + p.opp.invLen p.oN) / densityBip
  let ncFlux := ∑ j, (1 / 2 * ((p.cur.val fun a => c.u a j) * p.cN j - (p.opp.val fun a => f.u a j) * p.oN j) -
    o.motion * (p.cur.val fun a => c.v a j) * p.cN j)
  let stabC := fun j => (p.cur.grad pC j - vo.buoy * rhoC * vo.gravity j + skC * p.cur.grad wc.vof j) / rhoC -
    p.cur.val fun a => c.G a j
  let stabO := fun j => (p.opp.grad pO j - vo.buoy * rhoO * vo.gravity j + skO * p.opp.grad wo.vof j) / rhoO -
    p.opp.val fun a => f.G a j
  let ncPstabFlux := ∑ j, 1 / 2 * (stabC j * p.cN j - stabO j * p.oN j)
  let vdot := (ncFlux - o.pstab * o.pts * ncPstabFlux + penaltyBip * (p.cur.val pC - p.opp.val pO)) * p.amag
  ⟨vdot * densityBip, vdot⟩

end Nalu.NC
