import Verif.Model.ElemGeometry
import Verif.Spec.ElemGeometry

/-!
# Assembly of the mesh geometry: dual nodal volumes and edge area vectors

Models src/ComputeGeometryInteriorAlgorithm.C, src/ComputeGeometryBoundaryAlgorithm.C and
src/ComputeGeometryAlgorithmDriver.C.  Entities are natural numbers (global identifiers);
fields are functions of the entity; the loops over buckets are folds over the list of elements in the
order visited.
-/

namespace Verif.MeshGeom
open Verif.ElemGeom
variable {K : Type*} [Field K]

/-! ## Tables -/

/-- `HexSCS::scsIpEdgeOrd_` (Hex8CVFEM.C:279-285). -/
def hexIpEdge : List ℕ := [0, 1, 2, 3, 4, 5, 6, 7, 8, 9, 10, 11]
/-- `TetSCS::scsIpEdgeOrd_` (Tet4CVFEM.C:338-340). -/
def tetIpEdge : List ℕ := [0, 1, 2, 3, 4, 5]
/-- `WedSCS::scsIpEdgeOrd_` (Wed6CVFEM.C:398-401). -/
def wedIpEdge : List ℕ := [0, 1, 2, 3, 4, 5, 6, 7, 8]
/-- `PyrSCS::scsIpEdgeOrd_` (Pyr5CVFEM.C:660-666). -/
def pyrIpEdge : List ℕ := [0, 1, 2, 3, 4, 4, 5, 5, 6, 6, 7, 7]
/-- `Quad42DSCS::scsIpEdgeOrd_` (Quad42DCVFEM.C:343-345). -/
def quad2dIpEdge : List ℕ := [0, 1, 2, 3]
/-- `Tri32DSCS::scsIpEdgeOrd_` (Tri32DCVFEM.C:366-367). -/
def tri2dIpEdge : List ℕ := [0, 1, 2]

/-- `scsIpEdgeOrd()` of the surface master element of a topology. -/
def ipEdge : Topo → List ℕ
  | .hex => hexIpEdge | .tet => tetIpEdge | .wed => wedIpEdge | .pyr => pyrIpEdge

/-- `ipNodeMap()` of the volume master elements: the identity for all of them (Hex8CVFEM.C:84-85,
Tet4CVFEM.C:68, Wed6CVFEM.C:114-115, Pyr5CVFEM.C:217-218). -/
def scvNode : Topo → List ℕ
  | .hex => [0, 1, 2, 3, 4, 5, 6, 7] | .tet => [0, 1, 2, 3] | .wed => [0, 1, 2, 3, 4, 5]
  | .pyr => [0, 1, 2, 3, 4]

/-! ## An element with its relations -/

/-- What the interior algorithm knows of one element of one bucket: the area vector of each
sub-control surface with the global identifier of its left node and the edge entity
`elem_edge_rels[scsIpEdgeOrd[ip]]`, and the sub-control volumes with the node they belong to. -/
structure Cell (V K : Type*) where
  /-- (edge, identifier of the left node, area vector), one per sub-control-surface ip -/
  ips : List (ℕ × ℕ × V)
  /-- (node, sub-control volume), one per sub-control-volume ip -/
  vols : List (ℕ × K)

/-- A solid element together with the edges STK relates to it (`b.begin_edges(k)`). -/
structure SElem where
  elem : Elem
  edgeRel : ℕ → ℕ

/-- `ComputeGeometryInteriorAlgorithm::execute`, the data of one element: coordinates gathered to the
element, `determinant` of the two master elements, `lrscv[2*ip]`, `scsIpEdgeOrd[ip]`, `ipNodeMap[ip]`
(lines 86-125 and 142-195). -/
def SElem.cell (X : ℕ → V3 K) (e : SElem) : Cell (V3 K) K where
  ips := ((e.elem.topo.scs (e.elem.coords X)).zip (e.elem.topo.lr.zip (ipEdge e.elem.topo))).map
    fun p => (e.edgeRel p.2.2, e.elem.conn p.2.1.1, p.1)
  vols := ((scvNode e.elem.topo).zip (e.elem.topo.scv (e.elem.coords X))).map
    fun p => (e.elem.conn p.1, p.2)

/-- The two linear topologies in the plane. -/
inductive Topo2 | quad | tri
deriving DecidableEq, Repr

/-- A plane element with its nodes and the edges related to it. -/
structure PElem where
  topo : Topo2
  conn : ℕ → ℕ
  edgeRel : ℕ → ℕ

/-- Sub-control-surface areas in the plane. -/
def Topo2.scs : Topo2 → (ℕ → K × K) → List (K × K)
  | .quad => quad2dScs | .tri => tri2dScs
/-- Left/right nodes in the plane. -/
def Topo2.lr : Topo2 → List (ℕ × ℕ)
  | .quad => quad2dLr | .tri => tri2dLr
/-- Sides in the plane. -/
def Topo2.sides : Topo2 → List (List ℕ)
  | .quad => quad2dSides | .tri => tri2dSides
/-- `scsIpEdgeOrd()` in the plane. -/
def Topo2.ipEdge : Topo2 → List ℕ
  | .quad => quad2dIpEdge | .tri => tri2dIpEdge
/-- Sub-control volumes in the plane; `gq`, `gt` are the Gauss abscissae literals of the two
elements (0.144337567 and 0.288675134). -/
def Topo2.scv (gq gt : K) : Topo2 → (ℕ → K × K) → List K
  | .quad => quad2dScv gq | .tri => tri2dScv gt
/-- `ipNodeMap()` of `Quad42DSCV`/`Tri32DSCV` (Quad42DCVFEM.C:110, Tri32DCVFEM.C:104). -/
def Topo2.scvNode : Topo2 → List ℕ
  | .quad => [0, 1, 2, 3] | .tri => [0, 1, 2]

/-- As `SElem.cell`, in the plane. -/
def PElem.cell (gq gt : K) (X : ℕ → K × K) (e : PElem) : Cell (K × K) K where
  ips := ((e.topo.scs fun n => X (e.conn n)).zip (e.topo.lr.zip e.topo.ipEdge)).map
    fun p => (e.edgeRel p.2.2, e.conn p.2.1.1, p.1)
  vols := (e.topo.scvNode.zip (e.topo.scv gq gt fun n => X (e.conn n))).map
    fun p => (e.conn p.1, p.2)

/-! ## The loops -/

/-- ComputeGeometryInteriorAlgorithm.C:197-225: the sign from comparing the left node with the
edge's first node, and `av[j] += ws_scs_areav*sign`. -/
def edgeStep {V : Type*} [AddCommGroup V] (nodes : ℕ → ℕ × ℕ) (av : ℕ → V) (ip : ℕ × ℕ × V) : ℕ → V :=
  let sgn : V := if ip.2.1 = (nodes ip.1).1 then ip.2.2 else -ip.2.2
  Function.update av ip.1 (av ip.1 + sgn)

/-- ComputeGeometryInteriorAlgorithm.C:112-123: `*dualcv += ws_scv_volume[ip]`. -/
def volStep (dv : ℕ → K) (ip : ℕ × K) : ℕ → K :=
  Function.update dv ip.1 (dv ip.1 + ip.2)

/-- The edge-area loop over the elements of one process (lines 132-228), from the field content `av`. -/
def edgeLoop {V : Type*} [AddCommGroup V] (nodes : ℕ → ℕ × ℕ) (av : ℕ → V) (cells : List (Cell V K)) :
    ℕ → V :=
  cells.foldl (fun av c => c.ips.foldl (edgeStep nodes) av) av

/-- The dual-volume loop over the elements of one process (lines 75-125). -/
def volLoop {V : Type*} (dv : ℕ → K) (cells : List (Cell V K)) : ℕ → K :=
  cells.foldl (fun dv c => c.vols.foldl volStep dv) dv

/-- `ComputeGeometryAlgorithmDriver::pre_work` (lines 47-107): zero on owned and shared entities
(`known`); other copies keep their content. -/
def preWork {V : Type*} [Zero V] (known : ℕ → Bool) (f : ℕ → V) : ℕ → V :=
  fun i => if known i then 0 else f i

/-- `stk::mesh::parallel_sum` (STK): every process that knows an entity obtains the sum over the
processes that know it.  `fields` and `known` are per process. -/
def parallelSum {V : Type*} [AddCommGroup V] (ranks : List ((ℕ → Bool) × (ℕ → V))) (i : ℕ) : V :=
  (ranks.map fun r => if r.1 i then r.2 i else 0).sum

/-- One process: the entities of each rank it owns or shares, what its fields held before, and its
locally owned active elements. -/
structure Proc (V K : Type*) where
  knownNode : ℕ → Bool
  knownEdge : ℕ → Bool
  oldVol : ℕ → K
  oldArea : ℕ → V
  cells : List (Cell V K)

/-- Edge area vectors after `ComputeGeometryAlgorithmDriver::execute`: pre_work, the interior
algorithm on each process, `parallel_sum` (lines 118-131). -/
def edgeArea {V : Type*} [AddCommGroup V] (nodes : ℕ → ℕ × ℕ) (ps : List (Proc V K)) : ℕ → V :=
  parallelSum (ps.map fun p => (p.knownEdge, edgeLoop nodes (preWork p.knownEdge p.oldArea) p.cells))

/-- Dual nodal volumes after `ComputeGeometryAlgorithmDriver::execute` (no periodic or overset
boundaries). -/
def dualVolume {V : Type*} (ps : List (Proc V K)) : ℕ → K :=
  parallelSum (ps.map fun p => (p.knownNode, volLoop (preWork p.knownNode p.oldVol) p.cells))

/-- `ComputeGeometryAlgorithmDriver::check_jacobians` on one process (lines 152-232): the process
throws when one of its elements has a negative sub-control volume. -/
def checkJacobians [LinearOrder K] {V : Type*} (cells : List (Cell V K)) : Except Unit Unit :=
  if cells.any (fun c => c.vols.any fun v => decide (v.2 < 0)) then .error () else .ok ()

end Verif.MeshGeom
