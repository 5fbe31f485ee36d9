import Verif.Spec.ElemKernel

/-!
# Non-conformal (sliding mesh, DG) interface algorithms

Models, for one `DgInfo` (one Gauss point of an exposed face of the current surface, with the face and the
element found on the opposing surface):
`AssembleScalarNonConformalSolverAlgorithm.C`, `AssembleScalarDiffNonConformalSolverAlgorithm.C`,
`AssembleMomentumNonConformalSolverAlgorithm.C`, `AssembleContinuityNonConformalSolverAlgorithm.C`,
`ComputeMdotNonConformalAlgorithm.C`, `AssembleVofNonConformalSolverAlgorithm.C`,
`AssembleContinuityVofNonConformalSolverAlgorithm.C`, `AssembleNodalGradNonConformalAlgorithm.C`,
`AssembleNodalGradUNonConformalAlgorithm.C` and `AssemblePNGNonConformalSolverAlgorithm.C`.

Simplifications: doubles are a linearly ordered field; an accumulator that starts at `0.0` is a finite
sum; the local rows `0 .. totalNodes-1` are the sum type (current element nodes, opposing element nodes),
with `inl` the first `currentNodesPerElement` rows and `inr` the others; `c_amag`, a square root in the
code, is part of the data.  The elements may be of any kind and of two different kinds.  Both
`interpolatePoint` and `general_shape_fcn` of the face master elements are `Side.N` (for the linear faces
they are the same functions, `Verif.Shape`).  The values of a nodal field at the nodes of the face are the
values at the element nodes given by `side_node_ordinals`.
-/

namespace Nalu.NC
open Nalu.Edge Nalu.Kernel

variable {K : Type*} [Field K] [LinearOrder K] [IsStrictOrderedRing K]
variable {nc no fc fo nd : ℕ}

/-- One side of the interface at a Gauss point: `side_node_ordinals`, the face shape functions at the
isoparametric coordinates of the point, and the gradient operator `general_face_grad_op` of the connected
element at the same point (AssembleScalarNonConformalSolverAlgorithm.C:236-246, 328-340, 449). -/
structure Side (nn nf nd : ℕ) (K : Type*) where
  ord : Fin nf → Fin nn
  N : Fin nf → K
  dndx : Fin nn → Fin nd → K

/-- One Gauss point: the two sides, the exposed area vector of the current face at the point, its magnitude
`c_amag`, the normal of the opposing face from `general_normal`, the nearest node
`ipNodeMap(currentFaceOrdinal)[currentGaussPointId]` and the flag `useCurrentNormal_`. -/
structure Point (nc fc no fo nd : ℕ) (K : Type*) where
  cur : Side nc fc nd K
  opp : Side no fo nd K
  area : Fin nd → K
  amag : K
  oGen : Fin nd → K
  near : Fin nc
  useCurrentNormal : Bool

/-- Value at the Gauss point interpolated from the face nodes (`interpolatePoint`). -/
def Side.val {nn nf : ℕ} (s : Side nn nf nd K) (q : Fin nn → K) : K := ∑ ic, s.N ic * q (s.ord ic)

/-- `p_cNx` (AssembleScalarNonConformalSolverAlgorithm.C:311-321). -/
def Point.cN (p : Point nc fc no fo nd K) (j : Fin nd) : K := p.area j / p.amag

/-- `p_oNx` (AssembleScalarNonConformalSolverAlgorithm.C:304-305, 323-327). -/
def Point.oN (p : Point nc fc no fo nd K) (j : Fin nd) : K :=
  if p.useCurrentNormal then -p.cN j else p.oGen j

/-- `currentInverseLength`, `opposingInverseLength` (AssembleScalarNonConformalSolverAlgorithm.C:353-363,
376-386): sum of the normal derivatives of the shape functions of the nodes of the face. -/
def Side.invLen {nn nf : ℕ} (s : Side nn nf nd K) (n : Fin nd → K) : K :=
  ∑ ic, ∑ j, s.dndx (s.ord ic) j * n j

/-- Scatter to a row of the flat array: `p_lhs[rowR + icnn] += v`. -/
abbrev Row (nc no : ℕ) := Fin nc ⊕ Fin no

/-! ## Scalar transport -/

/-- `currentDiffFluxBip` before scaling (AssembleScalarNonConformalSolverAlgorithm.C:342-351, 365-374). -/
def Side.gradFlux {nn nf : ℕ} (s : Side nn nf nd K) (n : Fin nd → K) (q : Fin nn → K) : K :=
  -∑ ic, ∑ j, s.dndx ic j * n j * q ic

/-- `lhscd` (AssembleScalarNonConformalSolverAlgorithm.C:459-466). -/
def Side.lhscd {nn nf : ℕ} (s : Side nn nf nd K) (n : Fin nd → K) (ic : Fin nn) : K :=
  -∑ j, s.dndx ic j * n j

/-- `penaltyIp` (AssembleScalarNonConformalSolverAlgorithm.C:431-433). -/
def penalty (p : Point nc fc no fo nd K) (muC : Fin nc → K) (muO : Fin no → K) : K :=
  (p.cur.val muC * p.cur.invLen p.cN + p.opp.val muO * p.opp.invLen p.oN) / 2

/-- `ncAdv` (AssembleScalarNonConformalSolverAlgorithm.C:438-440); `eta` is 1 with the option
`upwind_advection` (the default) and 0 without. -/
def ncAdv (eta mdot qC qO : K) : K := mdot * (qC + qO) / 2 + eta * |mdot| * (qC - qO) / 2

/-- The flux through the Gauss point subtracted from the row of the nearest node
(AssembleScalarNonConformalSolverAlgorithm.C:387-444). -/
def scalarFlux (eta mdot : K) (p : Point nc fc no fo nd K) (muC : Fin nc → K) (muO : Fin no → K)
    (qC : Fin nc → K) (qO : Fin no → K) : K :=
  let dfC := p.cur.gradFlux p.cN qC * p.cur.val muC
  let dfO := p.opp.gradFlux p.oN qO * p.opp.val muO
  let qcb := p.cur.val qC
  let qob := p.opp.val qO
  ((dfC - dfO) / 2 + penalty p muC muO * (qcb - qob)) * p.amag + ncAdv eta mdot qcb qob

/-- `AssembleScalarNonConformalSolverAlgorithm::execute`, the work for one `DgInfo`
(AssembleScalarNonConformalSolverAlgorithm.C:161-493). -/
def scalarNC (eta mdot : K) (p : Point nc fc no fo nd K) (muC : Fin nc → K) (muO : Fin no → K)
    (q : Row nc no → K) (s : LocalSys (Row nc no) K) : LocalSys (Row nc no) K :=
  let qC := fun a => q (.inl a)
  let qO := fun a => q (.inr a)
  let pen := penalty p muC muO
  let s := addR s (.inl p.near) (-scalarFlux eta mdot p muC muO qC qO)
  let facC := pen * p.amag + (eta * |mdot| + mdot) / 2
  let s := loop fc (fun ic s => addL s (.inl p.near) (.inl (p.cur.ord ic)) (p.cur.N ic * facC)) s
  let s := loop nc (fun ic s =>
    addL s (.inl p.near) (.inl ic) (p.cur.val muC * p.cur.lhscd p.cN ic * p.amag / 2)) s
  let facO := pen * p.amag + (eta * |mdot| - mdot) / 2
  let s := loop fo (fun ic s => addL s (.inl p.near) (.inr (p.opp.ord ic)) (-(p.opp.N ic * facO))) s
  loop no (fun ic s =>
    addL s (.inl p.near) (.inr ic) (-(p.opp.val muO * p.opp.lhscd p.oN ic * p.amag / 2))) s

/-- `AssembleScalarDiffNonConformalSolverAlgorithm::execute` for one `DgInfo`
(AssembleScalarDiffNonConformalSolverAlgorithm.C:424-480). -/
def scalarDiffNC (p : Point nc fc no fo nd K) (muC : Fin nc → K) (muO : Fin no → K)
    (q : Row nc no → K) (s : LocalSys (Row nc no) K) : LocalSys (Row nc no) K :=
  let qC := fun a => q (.inl a)
  let qO := fun a => q (.inr a)
  let pen := 1 / 2 * (p.cur.val muC * p.cur.invLen p.cN + p.opp.val muO * p.opp.invLen p.oN)
  let dfC := p.cur.gradFlux p.cN qC * p.cur.val muC
  let dfO := p.opp.gradFlux p.oN qO * p.opp.val muO
  let s := addR s (.inl p.near)
    (-(((dfC - dfO) / 2 + pen * (p.cur.val qC - p.opp.val qO)) * p.amag))
  let fac := pen * p.amag
  let s := loop fc (fun ic s => addL s (.inl p.near) (.inl (p.cur.ord ic)) (p.cur.N ic * fac)) s
  let s := loop nc (fun ic s =>
    addL s (.inl p.near) (.inl ic) (p.cur.val muC * p.cur.lhscd p.cN ic * p.amag / 2)) s
  let s := loop fo (fun ic s => addL s (.inl p.near) (.inr (p.opp.ord ic)) (-(p.opp.N ic * fac))) s
  loop no (fun ic s =>
    addL s (.inl p.near) (.inr ic) (-(p.opp.val muO * p.opp.lhscd p.oN ic * p.amag / 2))) s

/-- `AssembleVofNonConformalSolverAlgorithm::execute` for one `DgInfo`
(AssembleVofNonConformalSolverAlgorithm.C:337-370).  The residual always upwinds; the matrix upwinds only with
the option. -/
def vofNC (eta vdot : K) (p : Point nc fc no fo nd K)
    (q : Row nc no → K) (s : LocalSys (Row nc no) K) : LocalSys (Row nc no) K :=
  let qcb := p.cur.val fun a => q (.inl a)
  let qob := p.opp.val fun a => q (.inr a)
  let s := addR s (.inl p.near) (-(vdot * (qcb + qob) / 2 + |vdot| * (qcb - qob) / 2))
  let facC := (eta * |vdot| + vdot) / 2
  let s := loop fc (fun ic s => addL s (.inl p.near) (.inl (p.cur.ord ic)) (p.cur.N ic * facC)) s
  let facO := (eta * |vdot| - vdot) / 2
  loop fo (fun ic s => addL s (.inl p.near) (.inr (p.opp.ord ic)) (-(p.opp.N ic * facO))) s

/-! ## Momentum -/

/-- `currentDiffFluxBip[i]`, `opposingDiffFluxBip[i]` (AssembleMomentumNonConformalSolverAlgorithm.C:407-465);
`inc` is `includeDivU_`. -/
def Side.stress {nn nf : ℕ} (s : Side nn nf nd K) (inc mu : K) (n : Fin nd → K)
    (u : Fin nn → Fin nd → K) (i : Fin nd) : K :=
  ∑ ic, ∑ j, ((-mu * s.dndx ic j * n j * u ic i + 2 / 3 * mu * s.dndx ic j * u ic j * n j * inc) +
    -mu * s.dndx ic i * n j * u ic j)

/-- The flux of momentum component `i` (AssembleMomentumNonConformalSolverAlgorithm.C:486-499). -/
def momFlux (eta inc mdot : K) (p : Point nc fc no fo nd K) (muC : Fin nc → K) (muO : Fin no → K)
    (uC : Fin nc → Fin nd → K) (uO : Fin no → Fin nd → K) (i : Fin nd) : K :=
  let dfC := p.cur.stress inc (p.cur.val muC) p.cN uC i
  let dfO := p.opp.stress inc (p.opp.val muO) p.oN uO i
  let ucb := p.cur.val fun a => uC a i
  let uob := p.opp.val fun a => uO a i
  ((dfC - dfO) / 2 + penalty p muC muO * (ucb - uob)) * p.amag + ncAdv eta mdot ucb uob

/-- `AssembleMomentumNonConformalSolverAlgorithm::execute` for one `DgInfo`
(AssembleMomentumNonConformalSolverAlgorithm.C:467-553). -/
def momentumNC (eta inc mdot : K) (p : Point nc fc no fo nd K) (muC : Fin nc → K) (muO : Fin no → K)
    (u : Row nc no × Fin nd → K) (s : LocalSys (Row nc no × Fin nd) K) :
    LocalSys (Row nc no × Fin nd) K :=
  let uC := fun a i => u (.inl a, i)
  let uO := fun a i => u (.inr a, i)
  let pen := penalty p muC muO
  let muc := p.cur.val muC
  let muo := p.opp.val muO
  loop nd (fun i s =>
    let r : Row nc no × Fin nd := (.inl p.near, i)
    let s := addR s r (-momFlux eta inc mdot p muC muO uC uO i)
    let facC := pen * p.amag + (eta * |mdot| + mdot) / 2
    let s := loop fc (fun ic s => addL s r (.inl (p.cur.ord ic), i) (p.cur.N ic * facC)) s
    let s := loop nc (fun ic s => loop nd (fun j s =>
      addL (addL s r (.inl ic, i) (-muc * p.cur.dndx ic j * p.cN j * p.amag / 2))
        r (.inl ic, j) (-muc * p.cur.dndx ic i * p.cN j * p.amag / 2)) s) s
    let facO := pen * p.amag + (eta * |mdot| - mdot) / 2
    let s := loop fo (fun ic s => addL s r (.inr (p.opp.ord ic), i) (-(p.opp.N ic * facO))) s
    loop no (fun ic s => loop nd (fun j s =>
      addL (addL s r (.inr ic, i) (-(-muo * p.opp.dndx ic j * p.oN j * p.amag / 2)))
        r (.inr ic, j) (-(-muo * p.opp.dndx ic i * p.oN j * p.amag / 2))) s) s) s

/-! ## Mass flow rate and continuity -/

/-- Nodal fields of one side read by the mass flow rate: density, velocity, mesh velocity, projected nodal
pressure gradient (AssembleContinuityNonConformalSolverAlgorithm.C:281-334). -/
structure FlowSide (nn nd : ℕ) (K : Type*) where
  rho : Fin nn → K
  u : Fin nn → Fin nd → K
  v : Fin nn → Fin nd → K
  G : Fin nn → Fin nd → K

/-- `currentDpdxBip` (AssembleContinuityNonConformalSolverAlgorithm.C:432-456). -/
def Side.grad {nn nf : ℕ} (s : Side nn nf nd K) (q : Fin nn → K) (j : Fin nd) : K :=
  ∑ ic, s.dndx ic j * q ic

/-- Options of the mass flow rate: projection time scale, `includePstab_`, `meshMotionFac_`. -/
structure MdotOpts (K : Type*) where
  pts : K
  pstab : K
  motion : K

/-- The mass flow rate through the Gauss point (AssembleContinuityNonConformalSolverAlgorithm.C:487-545,
ComputeMdotNonConformalAlgorithm.C:450-502: the two files have the same expression). -/
def ncMdot (o : MdotOpts K) (p : Point nc fc no fo nd K) (c : FlowSide nc nd K) (f : FlowSide no nd K)
    (pC : Fin nc → K) (pO : Fin no → K) : K :=
  let pen := o.pts * (1 / 2) * (p.cur.invLen p.cN + p.opp.invLen p.oN)
  let flux := ∑ j, (1 / 2 * ((p.cur.val fun a => c.rho a * c.u a j) * p.cN j -
      (p.opp.val fun a => f.rho a * f.u a j) * p.oN j) -
    o.motion * (p.cur.val fun a => c.rho a * c.v a j) * p.cN j)
  let stab := ∑ j, 1 / 2 * ((p.cur.grad pC j - p.cur.val fun a => c.G a j) * p.cN j -
    (p.opp.grad pO j - p.opp.val fun a => f.G a j) * p.oN j)
  (flux - o.pstab * o.pts * stab + pen * (p.cur.val pC - p.opp.val pO)) * p.amag

/-- `AssembleContinuityNonConformalSolverAlgorithm::execute` for one `DgInfo`
(AssembleContinuityNonConformalSolverAlgorithm.C:520-592). -/
def continuityNC (o : MdotOpts K) (p : Point nc fc no fo nd K) (c : FlowSide nc nd K)
    (f : FlowSide no nd K) (pr : Row nc no → K) (s : LocalSys (Row nc no) K) : LocalSys (Row nc no) K :=
  let pen := o.pts * (1 / 2) * (p.cur.invLen p.cN + p.opp.invLen p.oN)
  let mdot := ncMdot o p c f (fun a => pr (.inl a)) (fun a => pr (.inr a))
  let s := addR s (.inl p.near) (-(mdot / o.pts))
  let fac := pen * p.amag / o.pts
  let s := loop fc (fun ic s => addL s (.inl p.near) (.inl (p.cur.ord ic)) (p.cur.N ic * fac)) s
  let s := loop nc (fun ic s =>
    addL s (.inl p.near) (.inl ic) (1 / 2 * p.cur.lhscd p.cN ic * p.amag * o.pstab)) s
  let s := loop fo (fun ic s => addL s (.inl p.near) (.inr (p.opp.ord ic)) (-(p.opp.N ic * fac))) s
  loop no (fun ic s =>
    addL s (.inl p.near) (.inr ic) (-(1 / 2 * p.opp.lhscd p.oN ic * p.amag * o.pstab))) s

/-- Additional nodal fields and options of the volume-of-fluid flow rate: volume fraction, surface tension times
curvature, gravity, `buoyancyWeight_`, and the localisation factor `c*vof^n*(1-vof)^m` as a function of the
volume fraction. -/
structure VofSide (nn : ℕ) (K : Type*) where
  vof : Fin nn → K
  sk : Fin nn → K
structure VofOpts (nd : ℕ) (K : Type*) where
  gravity : Fin nd → K
  buoy : K
  loc : K → K

/-- `cPstab` of the volume-of-fluid form (AssembleContinuityVofNonConformalSolverAlgorithm.C:621-627). -/
def Side.vofStab {nn nf : ℕ} (s : Side nn nf nd K) (vo : VofOpts nd K) (f : FlowSide nn nd K)
    (w : VofSide nn K) (q : Fin nn → K) (j : Fin nd) : K :=
  (s.grad q j - vo.buoy * s.val f.rho * vo.gravity j +
    s.val w.sk * vo.loc (s.val w.vof) * s.grad w.vof j) / s.val f.rho - s.val fun a => f.G a j

/-- Volume flow rate (AssembleContinuityVofNonConformalSolverAlgorithm.C:596-631). -/
def ncVdot (o : MdotOpts K) (vo : VofOpts nd K) (p : Point nc fc no fo nd K) (c : FlowSide nc nd K)
    (f : FlowSide no nd K) (wc : VofSide nc K) (wo : VofSide no K) (pC : Fin nc → K) (pO : Fin no → K) : K :=
  let rhoBip := 1 / 2 * (p.cur.val c.rho + p.opp.val f.rho)
  let pen := o.pts * (1 / 2) * (p.cur.invLen p.cN + p.opp.invLen p.oN) / rhoBip
  let flux := ∑ j, (1 / 2 * ((p.cur.val fun a => c.u a j) * p.cN j -
      (p.opp.val fun a => f.u a j) * p.oN j) - o.motion * (p.cur.val fun a => c.v a j) * p.cN j)
  let stab := ∑ j, 1 / 2 * (p.cur.vofStab vo c wc pC j * p.cN j - p.opp.vofStab vo f wo pO j * p.oN j)
  (flux - o.pstab * o.pts * stab + pen * (p.cur.val pC - p.opp.val pO)) * p.amag

/-- `AssembleContinuityVofNonConformalSolverAlgorithm::execute` for one `DgInfo`
(AssembleContinuityVofNonConformalSolverAlgorithm.C:606-680). -/
def continuityVofNC (o : MdotOpts K) (vo : VofOpts nd K) (p : Point nc fc no fo nd K)
    (c : FlowSide nc nd K) (f : FlowSide no nd K) (wc : VofSide nc K) (wo : VofSide no K)
    (pr : Row nc no → K) (s : LocalSys (Row nc no) K) : LocalSys (Row nc no) K :=
  let rhoBip := 1 / 2 * (p.cur.val c.rho + p.opp.val f.rho)
  let pen := o.pts * (1 / 2) * (p.cur.invLen p.cN + p.opp.invLen p.oN) / rhoBip
  let vdot := ncVdot o vo p c f wc wo (fun a => pr (.inl a)) (fun a => pr (.inr a))
  let s := addR s (.inl p.near) (-(vdot / o.pts))
  let fac := pen * p.amag / o.pts
  let s := loop fc (fun ic s => addL s (.inl p.near) (.inl (p.cur.ord ic)) (p.cur.N ic * fac)) s
  let s := loop nc (fun ic s => addL s (.inl p.near) (.inl ic)
    (1 / 2 * p.cur.lhscd p.cN ic * p.amag / p.cur.val c.rho * o.pstab)) s
  let s := loop fo (fun ic s => addL s (.inl p.near) (.inr (p.opp.ord ic)) (-(p.opp.N ic * fac))) s
  loop no (fun ic s => addL s (.inl p.near) (.inr ic)
    (-(1 / 2 * p.opp.lhscd p.oN ic * p.amag / p.opp.val f.rho * o.pstab))) s

/-! ## Nodal gradients -/

/-- `AssembleNodalGradNonConformalAlgorithm::execute` for one `DgInfo`: what is added to `dqdx[j]` of the nearest
node, whose dual volume is `vol` (AssembleNodalGradNonConformalAlgorithm.C:155-184).  The same for every
component of a vector, AssembleNodalGradUNonConformalAlgorithm.C. -/
def gradNC (p : Point nc fc no fo nd K) (vol : K) (qC : Fin nc → K) (qO : Fin no → K) (j : Fin nd) : K :=
  1 / 2 * (p.cur.val qC + p.opp.val qO) * p.area j * (1 / vol)

/-- `AssemblePNGNonConformalSolverAlgorithm::execute` for one `DgInfo`
(AssemblePNGNonConformalSolverAlgorithm.C:404-446); `fac` is 1 with `include_png_penalty` (the default). -/
def pngNC (fac : K) (p : Point nc fc no fo nd K) (qC : Fin nc → K) (qO : Fin no → K)
    (G : Row nc no × Fin nd → K) (s : LocalSys (Row nc no × Fin nd) K) :
    LocalSys (Row nc no × Fin nd) K :=
  let pen := 1 / 2 * (1 / p.cur.invLen p.cN + 1 / p.opp.invLen p.oN) * fac
  let qb := 1 / 2 * (p.cur.val qC + p.opp.val qO)
  loop nd (fun i s =>
    let r : Row nc no × Fin nd := (.inl p.near, i)
    let gc := p.cur.val fun a => G (.inl a, i)
    let go := p.opp.val fun a => G (.inr a, i)
    let s := addR s r (qb * p.area i + pen * (gc - go) * p.amag)
    let lf := pen * p.amag
    let s := loop fc (fun ic s => addL s r (.inl (p.cur.ord ic), i) (-(p.cur.N ic * lf))) s
    loop fo (fun ic s => addL s r (.inr (p.opp.ord ic), i) (p.opp.N ic * lf)) s) s

end Nalu.NC
