import Verif.Model.GasDynamics

/-!
# Explicit gas dynamics across a non-conformal interface

Models /repo/src/gas_dynamics/AssembleGasDynamicsNonConformalAlgorithm.C, one Gauss point (`DgInfo`) at a time.
The two sides are the *current* face (whose nearest node is written) and the *opposing* face found by the search
(C46–C48).  Simplifications: `double` is `ℝ`; the values interpolated to the point (`interpolatePoint`, C07) and
the derivatives `dndx` of `general_face_grad_op` are inputs; parallel ghosting is not modelled.
-/

namespace Nalu.GasNC

open Nalu.Gas

/-- What the algorithm knows of one side of the interface at a Gauss point: values interpolated on the face
(lines 500-632), and nodal values and shape-function derivatives of the element behind it (lines 358-432).
`face k` is the `k`-th entry of `side_node_ordinals`.  Both sides are given the same node counts `M`, `F`; a smaller
element is padded with nodes of zero derivative. -/
structure Side (n M F : ℕ) where
  rho : ℝ
  mom : Fin n → ℝ
  vel : Fin n → ℝ
  mesh : Fin n → ℝ
  totalH : ℝ
  p : ℝ
  T : ℝ
  c : ℝ
  visc : ℝ
  cond : ℝ
  elemT : Fin M → ℝ
  elemVel : Fin M → Fin n → ℝ
  dndx : Fin M → Fin n → ℝ
  face : Fin F → Fin M

variable {n M F : ℕ}

/-- `ws_dTdxCurrentIp` / `ws_dTdxOpposingIp`, lines 452-471, 473-491. -/
def gradT (s : Side n M F) (i : Fin n) : ℝ := ∑ ic, s.dndx ic i * s.elemT ic

/-- `ws_dudxCurrentIp` / `ws_dudxOpposingIp`, lines 462-470, 482-490: the inner loop over `j` adds
`dndxj * velocity[i]` with `dndxj = dndx[offSetDnDx+i]`, so the derivative direction is `i`, not `j`. -/
def gradU (s : Side n M F) (i _j : Fin n) : ℝ := ∑ ic, s.dndx ic i * s.elemVel ic i

/-- `divUc` / `divUo`, lines 493-498. -/
def divU (s : Side n M F) : ℝ := ∑ i, gradU s i i

/-- `currentInverseLength` / `opposingInverseLength`, lines 426-449. -/
def invLen (s : Side n M F) (nrm : Fin n → ℝ) : ℝ := ∑ ic, ∑ j, s.dndx (s.face ic) j * nrm j

/-- `p_cNx`, lines 396-408. -/
noncomputable def curNormal (a : Fin n → ℝ) (j : Fin n) : ℝ := a j / aMag a

/-- `p_oNx`: the master element's normal (line 394) or, with `useCurrentNormal_`, minus the current one
(lines 411-415). -/
noncomputable def oppNormal (useCur : Bool) (a gen : Fin n → ℝ) (j : Fin n) : ℝ :=
  if useCur then -curNormal a j else gen j

/-- `machNumberC`, lines 637-642. -/
noncomputable def machC (a : Fin n → ℝ) (fac : ℝ) (c o : Side n M F) : ℝ :=
  ∑ j, (c.vel j - fac * c.mesh j) * curNormal a j / (1 / 2 * (c.c + o.c))

/-- `machNumberO`, line 643. -/
noncomputable def machO (a : Fin n → ℝ) (c o : Side n M F) : ℝ :=
  ∑ j, o.vel j * curNormal a j / (1 / 2 * (c.c + o.c))

/-- `mCO`, line 675; `scriptMmO` is written with `absMO > 1.0` (lines 658-661), i.e. `splitMminusOpen`. -/
noncomputable def mCO (a : Fin n → ℝ) (fac : ℝ) (c o : Side n M F) : ℝ :=
  splitMplus (machC a fac c o) + splitMminusOpen (machO a c o)

/-- `pCO`, line 676. -/
noncomputable def pCO (a : Fin n → ℝ) (fac : ℝ) (c o : Side n M F) : ℝ :=
  splitPplus (machC a fac c o) * c.p + splitPminus (machO a c o) * o.p

/-- `fmCO` (without pressure), `fcCO`, `feCO`: lines 682-684, 708-710, 715-717. -/
noncomputable def advect (a : Fin n → ℝ) (fac : ℝ) (c o : Side n M F) (fC fO : ℝ) : ℝ :=
  aMag a * (1 / 2 * mCO a fac c o * (fC + fO) - 1 / 2 * |mCO a fac c o| * (fO - fC))

/-- `dfmNc`, lines 688, 693. -/
noncomputable def viscC (nC : Fin n → ℝ) (s : Side n M F) (i : Fin n) : ℝ :=
  2 / 3 * s.visc * divU s * nC i + ∑ j, -s.visc * (gradU s i j + gradU s j i) * nC j

/-- `dfmNo`, lines 689, 694: the divergence part uses the *current* normal `p_cNx`, the rest the opposing one. -/
noncomputable def viscO (nC nO : Fin n → ℝ) (s : Side n M F) (i : Fin n) : ℝ :=
  2 / 3 * s.visc * divU s * nC i + ∑ j, -s.visc * (gradU s i j + gradU s j i) * nO j

/-- `ws_tauCurrentIp` / `ws_tauOpposingIp` after the momentum loop, lines 690-696: only the diagonal entry is
reset, every entry is incremented.  `w` is the array as the previous Gauss point left it. -/
noncomputable def tauNew (w : Fin n → Fin n → ℝ) (s : Side n M F) (i j : Fin n) : ℝ :=
  (if i = j then -(2 / 3) * s.visc * divU s else w i j) + s.visc * (gradU s i j + gradU s j i)

/-- `dfeNc` / `dfeNo`, lines 720-731. -/
noncomputable def heat (nrm : Fin n → ℝ) (tau : Fin n → Fin n → ℝ) (s : Side n M F) : ℝ :=
  ∑ i, (-s.cond * gradT s i * nrm i + ∑ j, -s.vel i * tau i j * nrm j)

/-- `penaltyMomIp` / `penaltyTeIp`, lines 699-700, 734-735, with diffusivities `kC`, `kO`. -/
noncomputable def penalty (kC kO lC lO : ℝ) : ℝ := (kC * lC + kO * lO) / 2

/-- A Gauss point of the interface: the node written (`nNode`), the area vector, the opposing element normal
and the two sides. -/
structure Pt (N : Type*) (n M F : ℕ) where
  node : N
  area : Fin n → ℝ
  gen : Fin n → ℝ
  cur : Side n M F
  opp : Side n M F

/-- The shared stress workspaces (`ws_tauCurrentIp`, `ws_tauOpposingIp`), declared once outside the loops and not
initialised (lines 130-131). -/
structure Work (n : ℕ) where
  tC : Fin n → Fin n → ℝ
  tO : Fin n → Fin n → ℝ

/-- The workspaces after a Gauss point. -/
noncomputable def workNext {N : Type*} (w : Work n) (q : Pt N n M F) : Work n :=
  ⟨tauNew w.tC q.cur, tauNew w.tO q.opp⟩

/-- The flux leaving the current side's control volume at one Gauss point, i.e. what is subtracted from
`rhsGasDyn` (lines 678-738). -/
noncomputable def flux {N : Type*} (useCur : Bool) (fac : ℝ) (w : Work n) (q : Pt N n M F) : Dof n → ℝ
  | .mom i =>
      let nC := curNormal q.area
      let nO := oppNormal useCur q.area q.gen
      advect q.area fac q.cur q.opp (q.cur.mom i * q.cur.c) (q.opp.mom i * q.opp.c)
        + pCO q.area fac q.cur q.opp * q.area i
        + (1 / 2 * (viscC nC q.cur i - viscO nC nO q.opp i)
          + penalty q.cur.visc q.opp.visc (invLen q.cur nC) (invLen q.opp nO)
            * (q.cur.mom i - q.opp.mom i)) * aMag q.area
  | .mass => advect q.area fac q.cur q.opp (q.cur.rho * q.cur.c) (q.opp.rho * q.opp.c)
  | .energy =>
      let nC := curNormal q.area
      let nO := oppNormal useCur q.area q.gen
      advect q.area fac q.cur q.opp (q.cur.totalH * q.cur.c) (q.opp.totalH * q.opp.c)
        + (1 / 2 * (heat nC (tauNew w.tC q.cur) q.cur - heat nO (tauNew w.tO q.opp) q.opp)
          + penalty q.cur.cond q.opp.cond (invLen q.cur nC) (invLen q.opp nO)
            * (q.cur.T - q.opp.T)) * aMag q.area

/-- The loop body: subtract the flux at the nearest node, carry the workspaces over. -/
noncomputable def step {N : Type*} [DecidableEq N] (useCur : Bool) (fac : ℝ)
    (st : (N → Dof n → ℝ) × Work n) (q : Pt N n M F) : (N → Dof n → ℝ) × Work n :=
  (addAt st.1 q.node (fun d => -flux useCur fac st.2 q d), workNext st.2 q)

/-- `execute`: all Gauss points in order, from residual `r` and whatever the workspaces contain. -/
noncomputable def execute {N : Type*} [DecidableEq N] (useCur : Bool) (fac : ℝ) (r : N → Dof n → ℝ)
    (w : Work n) (pts : List (Pt N n M F)) : (N → Dof n → ℝ) × Work n :=
  pts.foldl (step useCur fac) (r, w)

/-! ## Gather of opposing vector data -/

/-- Positions written for component `i` of node `ni`: `i*current_num_face_nodes + ni` for *both* faces
(lines 333-337 and 352-356). -/
def gatherPos (curNodes i ni : ℕ) : ℕ := i * curNodes + ni

/-- The array after the gather of the opposing face (lines 340-357): nodes outermost, components inside;
`v ni i` is the nodal value. -/
def gather (curNodes nodes dim : ℕ) (v : ℕ → ℕ → ℝ) (init : ℕ → ℝ) : ℕ → ℝ :=
  (List.range nodes).foldl (fun m ni =>
    (List.range dim).foldl (fun m i => Function.update m (gatherPos curNodes i ni) (v ni i)) m) init

/-- What `interpolatePoint` reads for component `i`, node `ni` of an element with `nodes` nodes
(`Quad3DSCS::interpolatePoint`, master_element/Quad43DCVFEM.C:365-386: `b = 4*i`, `field[b+ni]`;
`Tri3DSCS::interpolatePoint`, master_element/MasterElement.C:836-850: `b = 3*i`). -/
def readPos (nodes i ni : ℕ) : ℕ := i * nodes + ni

end Nalu.GasNC
