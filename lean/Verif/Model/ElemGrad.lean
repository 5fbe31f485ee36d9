import Mathlib.Data.Fin.VecNotation
import Verif.Model.ElemGeometry
import Verif.Spec.ElemGeometry
import Verif.Model.ShapeFunctions

/-!
# Element-based nodal gradients

Models `AssembleNodalGradElemAlgorithm.C`, `AssembleNodalGradUElemAlgorithm.C` (interior), `AssembleNodalGradBoundaryAlgorithm.C`,
`AssembleNodalGradUBoundaryAlgorithm.C`, `AssembleNodalGradPBoundaryAlgorithm.C` (exposed faces), the zeroing of `AssembleNodalGradUAlgorithmDriver.C`
and the dual nodal volume they divide by, on the elements of `Verif.Model.ElemGeometry`, with the integration point tables of the linear master
elements.

Numbers are an ordered field.  The fields are given by their nodal values; the element loop and the face loop are sums over the elements and faces
(all processes together); the contribution of a list of integration points to a node is a sum over the list.
-/

namespace Verif.ElemGeom

section
variable {K : Type*} [Field K]

/-! ## Interpolation to the integration points -/

/-- `qIp += p_shape_function[offSet+ic]*p_scalarQ[ic]` for every point (AssembleNodalGradUElemAlgorithm.C:160-169): one row of the shape function
array per point. -/
def ipVals (rows : List (List K)) (q : List K) : List K := rows.map fun r => (List.zipWith (· * ·) r q).sum

/-- `fac = qip*p_scs_areav[ip*nDim+j]` (AssembleNodalGradUElemAlgorithm.C:176-181, AssembleNodalGradUBoundaryAlgorithm.C:163-169). -/
def ipFlux {V : Type*} [SMul K V] (rows : List (List K)) (q : List K) (areas : List V) : List V :=
  List.zipWith (fun s A => s • A) (ipVals rows q) areas

/-- `gradQL += fac*inv_volL; gradQR -= fac*inv_volR` (AssembleNodalGradUElemAlgorithm.C:171-183): what node `N` receives. -/
def scatterScsVol {V : Type*} [AddCommGroup V] [SMul K V] (vol : ℕ → K) (q : List V) (lr : List (ℕ × ℕ)) (N : ℕ) : V :=
  ((q.zip lr).map fun p =>
    (if p.2.1 = N then (1 / vol p.2.1) • p.1 else 0) - (if p.2.2 = N then (1 / vol p.2.2) • p.1 else 0)).sum

/-- `gradQNN += fac*inv_volNN` (AssembleNodalGradUBoundaryAlgorithm.C:158-170). -/
def scatterFaceVol {V : Type*} [AddCommGroup V] [SMul K V] (vol : ℕ → K) (q : List V) (ipNode : List ℕ) (N : ℕ) : V :=
  ((q.zip ipNode).map fun p => if p.2 = N then (1 / vol p.2) • p.1 else 0).sum

/-! ## Two dimensions -/

/-- `Quad42DSCS::intgLoc_` (Quad42DCVFEM.C:371-374) through `quad_shape_fcn`. -/
def quad2dScsShape : List (List K) :=
  [![0, -(1 / 4)], ![1 / 4, 0], ![0, 1 / 4], ![-(1 / 4), 0]].map fun p => List.ofFn (Verif.Shape.quadShape p)

/-- `Tri32DSCS::intgLoc_` (Tri32DCVFEM.C:391-393) through `tri_shape_fcn`. -/
def tri2dScsShape : List (List K) :=
  [![5 / 12, 1 / 6], ![5 / 12, 5 / 12], ![1 / 6, 5 / 12]].map fun p => List.ofFn (Verif.Shape.triShape p)

/-- `Edge2DSCS::shape_fcn` with `intgLoc_` -0.25 and 0.25 (MasterElement.C:912, 960-968). -/
def edge2dShape : List (List K) := [[1 / 2 - -(1 / 4), 1 / 2 + -(1 / 4)], [1 / 2 - 1 / 4, 1 / 2 + 1 / 4]]

end

/-! ### Meshes of quadrilaterals and triangles -/

/-- The two linear plane topologies. -/
inductive Topo2 | quad | tri
deriving DecidableEq, Repr

/-- An element of a plane mesh: topology and the global node of each local node. -/
structure Elem2 where
  topo : Topo2
  conn : ℕ → ℕ

section
variable {K : Type*} [Field K]

/-- `nodesPerElement_`. -/
def Topo2.nn : Topo2 → ℕ
  | .quad => 4 | .tri => 3
/-- `meSCS->adjacentNodes()`. -/
def Topo2.lr : Topo2 → List (ℕ × ℕ)
  | .quad => quad2dLr | .tri => tri2dLr
/-- The sides, outward oriented. -/
def Topo2.sides : Topo2 → List (List ℕ)
  | .quad => quad2dSides | .tri => tri2dSides
/-- `meSCS->determinant`. -/
def Topo2.scs : Topo2 → (ℕ → K × K) → List (K × K)
  | .quad => quad2dScs | .tri => tri2dScs
/-- `meSCS->shape_fcn`. -/
def Topo2.shape : Topo2 → List (List K)
  | .quad => quad2dScsShape | .tri => tri2dScsShape
/-- `meSCV->determinant`; `gq`, `gt` are the literals 0.144337567 and 0.288675134 of the Gauss points. -/
def Topo2.scv (gq gt : K) : Topo2 → (ℕ → K × K) → List K
  | .quad => quad2dScv gq | .tri => tri2dScv gt

/-- The element's sides as lists of global nodes. -/
def Elem2.faces (e : Elem2) : List (List ℕ) := e.topo.sides.map fun s => s.map e.conn

/-- `ComputeGeometryInteriorAlgorithm`: what node `N` receives of `dual_nodal_volume` (`ipNodeMap` is the identity). -/
def Elem2.volAt (gq gt : K) (e : Elem2) (X : ℕ → K × K) (N : ℕ) : K :=
  scatterFace (e.topo.scv gq gt fun n => X (e.conn n)) ((List.range e.topo.nn).map e.conn) N

/-- One element of `AssembleNodalGradElemAlgorithm::execute` (a component of `AssembleNodalGradUElemAlgorithm::execute`,
AssembleNodalGradUElemAlgorithm.C:120-187). -/
def Elem2.gradAt (vol : ℕ → K) (e : Elem2) (X : ℕ → K × K) (q : ℕ → K) (N : ℕ) : K × K :=
  scatterScsVol vol (ipFlux e.topo.shape ((List.range e.topo.nn).map fun n => q (e.conn n)) (e.topo.scs fun n => X (e.conn n)))
    (e.topo.lr.map fun p => (e.conn p.1, e.conn p.2)) N

/-- One exposed side (AssembleNodalGradUBoundaryAlgorithm.C:110-171). -/
def sideGradAt (vol : ℕ → K) (X : ℕ → K × K) (q : ℕ → K) (f : List ℕ) (N : ℕ) : K × K :=
  scatterFaceVol vol (ipFlux edge2dShape (f.map q) (sideAreas X f)) f N

/-- `dual_nodal_volume` of a plane mesh. -/
def dualVol2 (gq gt : K) (es : List Elem2) (X : ℕ → K × K) (N : ℕ) : K := (es.map fun e => e.volAt gq gt X N).sum

/-- The gradient at a node after `pre_work` (zero), the element loop and the loop over exposed sides; `q` is read in the elements, `qb` on the
boundary. -/
def nodalGrad2 (gq gt : K) (es : List Elem2) (bdry : List (List ℕ)) (X : ℕ → K × K) (q qb : ℕ → K) (N : ℕ) : K × K :=
  0 + (es.map fun e => e.gradAt (dualVol2 gq gt es X) X q N).sum + (bdry.map fun f => sideGradAt (dualVol2 gq gt es X) X qb f N).sum

end

/-! ## Three dimensions -/

section
variable {K : Type*} [Field K] [LinearOrder K]

/-- `HexSCS::intgLoc_` (Hex8CVFEM.C:319-330) through `hex8_shape_fcn`. -/
def hexScsShape : List (List K) :=
  ([![0, -(1 / 4), -(1 / 4)], ![1 / 4, 0, -(1 / 4)], ![0, 1 / 4, -(1 / 4)], ![-(1 / 4), 0, -(1 / 4)],
    ![0, -(1 / 4), 1 / 4], ![1 / 4, 0, 1 / 4], ![0, 1 / 4, 1 / 4], ![-(1 / 4), 0, 1 / 4],
    ![-(1 / 4), -(1 / 4), 0], ![1 / 4, -(1 / 4), 0], ![1 / 4, 1 / 4, 0], ![-(1 / 4), 1 / 4, 0]] : List (Fin 3 → K)).map
    fun p => List.ofFn (Verif.Shape.hexShape p)

/-- `TetSCS::intgLoc_` (Tet4CVFEM.C:368-373) through `tet_shape_fcn`. -/
def tetScsShape : List (List K) :=
  ([![13 / 36, 5 / 36, 5 / 36], ![13 / 36, 13 / 36, 5 / 36], ![5 / 36, 13 / 36, 5 / 36],
    ![5 / 36, 5 / 36, 13 / 36], ![13 / 36, 5 / 36, 13 / 36], ![5 / 36, 13 / 36, 13 / 36]] : List (Fin 3 → K)).map
    fun p => List.ofFn (Verif.Shape.tetShape p)

/-- `WedSCS::intgLoc_` (Wed6CVFEM.C:436-444) through `wedge_shape_fcn`. -/
def wedScsShape : List (List K) :=
  ([![5 / 12, 1 / 6, -(1 / 2)], ![5 / 12, 5 / 12, -(1 / 2)], ![1 / 6, 5 / 12, -(1 / 2)],
    ![5 / 12, 1 / 6, 1 / 2], ![5 / 12, 5 / 12, 1 / 2], ![1 / 6, 5 / 12, 1 / 2],
    ![7 / 36, 7 / 36, 0], ![11 / 18, 7 / 36, 0], ![7 / 36, 11 / 18, 0]] : List (Fin 3 → K)).map
    fun p => List.ofFn (Verif.Shape.wedShape p)

/-- `PyrSCS::intgLoc_` (Pyr5CVFEM.C:698-714) through `pyr_shape_fcn`; `eps` is the machine epsilon of its guard. -/
def pyrScsShape (eps : K) : List (List K) :=
  ([![0, -(29 / 63), 41 / 315], ![29 / 63, 0, 41 / 315], ![0, 29 / 63, 41 / 315], ![-(29 / 63), 0, 41 / 315],
    ![-(2 / 9), -(2 / 9), 13 / 45], ![-(7 / 18), -(7 / 18), 7 / 18], ![2 / 9, -(2 / 9), 13 / 45], ![7 / 18, -(7 / 18), 7 / 18],
    ![2 / 9, 2 / 9, 13 / 45], ![7 / 18, 7 / 18, 7 / 18], ![-(2 / 9), 2 / 9, 13 / 45], ![-(7 / 18), 7 / 18, 7 / 18]] : List (Fin 3 → K)).map
    fun p => List.ofFn (Verif.Shape.pyrShape eps p)

/-- `Tri3DSCS::shape_fcn` (MasterElement.C:627-629) for three nodes, `Quad3DSCS::shape_fcn` (Quad43DCVFEM.C:38-41) for four. -/
def faceShape : List ℕ → List (List K)
  | [_, _, _] => ([![7 / 36, 7 / 36], ![11 / 18, 7 / 36], ![7 / 36, 11 / 18]] : List (Fin 2 → K)).map
      fun p => List.ofFn (Verif.Shape.triShape p)
  | [_, _, _, _] => ([![-(1 / 4), -(1 / 4)], ![1 / 4, -(1 / 4)], ![1 / 4, 1 / 4], ![-(1 / 4), 1 / 4]] : List (Fin 2 → K)).map
      fun p => List.ofFn (Verif.Shape.quadShape p)
  | _ => []

/-! ### Meshes -/

/-- `nodesPerElement_`. -/
def Topo.nn : Topo → ℕ
  | .hex => 8 | .tet => 4 | .wed => 6 | .pyr => 5
/-- `meSCS->shape_fcn`. -/
def Topo.shape (eps : K) : Topo → List (List K)
  | .hex => hexScsShape | .tet => tetScsShape | .wed => wedScsShape | .pyr => pyrScsShape eps

/-- `ComputeGeometryInteriorAlgorithm`: what node `N` receives of `dual_nodal_volume` (`ipNodeMap` is the identity: Hex8CVFEM.C, Tet4CVFEM.C,
Wed6CVFEM.C, Pyr5CVFEM.C). -/
def Elem.volAt (e : Elem) (X : ℕ → V3 K) (N : ℕ) : K :=
  scatterFace (e.topo.scv (e.coords X)) ((List.range e.topo.nn).map e.conn) N

/-- One element of `AssembleNodalGradElemAlgorithm::execute` (a component of `AssembleNodalGradUElemAlgorithm::execute`,
AssembleNodalGradUElemAlgorithm.C:120-187). -/
def Elem.gradAt (eps : K) (vol : ℕ → K) (e : Elem) (X : ℕ → V3 K) (q : ℕ → K) (N : ℕ) : V3 K :=
  scatterScsVol vol (ipFlux (e.topo.shape eps) ((List.range e.topo.nn).map fun n => q (e.conn n)) (e.topo.scs (e.coords X)))
    (e.topo.lr.map fun p => (e.conn p.1, e.conn p.2)) N

/-- One exposed face (AssembleNodalGradUBoundaryAlgorithm.C:110-171). -/
def faceGradAt (vol : ℕ → K) (X : ℕ → V3 K) (q : ℕ → K) (f : List ℕ) (N : ℕ) : V3 K :=
  scatterFaceVol vol (ipFlux (faceShape f) (f.map q) (faceAreas X f)) f N

/-- One exposed face of `AssembleNodalGradPBoundaryAlgorithm::execute` (AssembleNodalGradPBoundaryAlgorithm.C:128-152): the interpolated pressure
minus the dynamic pressure of the point. -/
def faceGradPAt (vol : ℕ → K) (X : ℕ → V3 K) (q : ℕ → K) (dynamicP : List K) (f : List ℕ) (N : ℕ) : V3 K :=
  scatterFaceVol vol (List.zipWith (fun s A => s • A) (List.zipWith (fun v d => -d + v) (ipVals (faceShape f) (f.map q)) dynamicP) (faceAreas X f))
    f N

/-- `dual_nodal_volume`. -/
def dualVol (es : List Elem) (X : ℕ → V3 K) (N : ℕ) : K := (es.map fun e => e.volAt X N).sum

/-- The gradient at a node after `pre_work` (zero), the element loop, the loop over exposed faces, and (`popen`, with the dynamic pressure of their
points) the loop over the open faces of the pressure gradient; `q` is read in the elements, `qb` on the boundary. -/
def nodalGrad (eps : K) (es : List Elem) (bdry : List (List ℕ)) (popen : List (List ℕ × List K)) (X : ℕ → V3 K) (q qb : ℕ → K) (N : ℕ) : V3 K :=
  0 + (es.map fun e => e.gradAt eps (dualVol es X) X q N).sum + (bdry.map fun f => faceGradAt (dualVol es X) X qb f N).sum +
    (popen.map fun f => faceGradPAt (dualVol es X) X qb f.2 f.1 N).sum

/-! ### The projected nodal gradient system on a mesh -/

/-- `meSCV->shape_fcn`: `intgLoc_` of `HexSCV` (Hex8CVFEM.C:88-96), `TetSCV` (Tet4CVFEM.C:71-77), `WedSCV` (Wed6CVFEM.C:118-127), `PyrSCV`
(Pyr5CVFEM.C:221-229) through the shape functions. -/
def Topo.shapeV (eps : K) : Topo → List (List K)
  | .hex => ([![-(1 / 4), -(1 / 4), -(1 / 4)], ![1 / 4, -(1 / 4), -(1 / 4)], ![1 / 4, 1 / 4, -(1 / 4)], ![-(1 / 4), 1 / 4, -(1 / 4)],
      ![-(1 / 4), -(1 / 4), 1 / 4], ![1 / 4, -(1 / 4), 1 / 4], ![1 / 4, 1 / 4, 1 / 4], ![-(1 / 4), 1 / 4, 1 / 4]] : List (Fin 3 → K)).map
      fun p => List.ofFn (Verif.Shape.hexShape p)
  | .tet => ([![17 / 96, 17 / 96, 17 / 96], ![45 / 96, 17 / 96, 17 / 96], ![17 / 96, 45 / 96, 17 / 96], ![17 / 96, 17 / 96, 45 / 96]]
      : List (Fin 3 → K)).map fun p => List.ofFn (Verif.Shape.tetShape p)
  | .wed => ([![7 / 36, 7 / 36, -(1 / 2)], ![11 / 18, 7 / 36, -(1 / 2)], ![7 / 36, 11 / 18, -(1 / 2)],
      ![7 / 36, 7 / 36, 1 / 2], ![11 / 18, 7 / 36, 1 / 2], ![7 / 36, 11 / 18, 1 / 2]] : List (Fin 3 → K)).map
      fun p => List.ofFn (Verif.Shape.wedShape p)
  | .pyr => ([![-(169 / 384), -(169 / 384), 577 / 3840], ![169 / 384, -(169 / 384), 577 / 3840], ![169 / 384, 169 / 384, 577 / 3840],
      ![-(169 / 384), 169 / 384, 577 / 3840], ![0, 0, 773 / 1560]] : List (Fin 3 → K)).map
      fun p => List.ofFn (Verif.Shape.pyrShape eps p)

/-- What node `N` receives on the right-hand side from one element of `AssemblePNGElemSolverAlgorithm::execute`
(AssemblePNGElemSolverAlgorithm.C:200-265; the loops are those of `Nalu.Png.elem`, here as sums over the integration points): the surface terms, minus
the interpolated gradient times the sub-control volumes.  `sv` are the rows of `meSCV->shape_fcn`; `ipNodeMap` is the identity. -/
def Elem.pngAt (eps : K) (sv : Topo → List (List K)) (e : Elem) (X : ℕ → V3 K) (q : ℕ → K) (G : ℕ → V3 K) (N : ℕ) : V3 K :=
  scatterScs (ipFlux (e.topo.shape eps) ((List.range e.topo.nn).map fun n => q (e.conn n)) (e.topo.scs (e.coords X)))
      (e.topo.lr.map fun p => (e.conn p.1, e.conn p.2)) N
    - scatterFace (List.zipWith (fun r V => V • (List.zipWith (fun x n => x • G (e.conn n)) r (List.range e.topo.nn)).sum) (sv e.topo)
        (e.topo.scv (e.coords X))) ((List.range e.topo.nn).map e.conn) N

/-- One face of `AssemblePNGBoundarySolverAlgorithm::execute` (AssemblePNGBoundarySolverAlgorithm.C:153-174). -/
def facePngAt (X : ℕ → V3 K) (q : ℕ → K) (f : List ℕ) (N : ℕ) : V3 K := scatterFace (ipFlux (faceShape f) (f.map q) (faceAreas X f)) f N

/-- The assembled right-hand side of node `N`. -/
def pngRhs (eps : K) (sv : Topo → List (List K)) (es : List Elem) (bdry : List (List ℕ)) (X : ℕ → V3 K) (q qb : ℕ → K) (G : ℕ → V3 K) (N : ℕ) : V3 K :=
  (es.map fun e => e.pngAt eps sv X q G N).sum + (bdry.map fun f => facePngAt X qb f N).sum

/-- The assembled matrix entry of the same component of nodes `N` and `M` (AssemblePNGElemSolverAlgorithm.C:267-280; it is zero between different
components). -/
def pngLhs (sv : Topo → List (List K)) (es : List Elem) (X : ℕ → V3 K) (N M : ℕ) : K :=
  (es.map fun e => scatterFace (List.zipWith (fun r V => scatterFace (r.map fun x => x * V) ((List.range e.topo.nn).map e.conn) M) (sv e.topo)
    (e.topo.scv (e.coords X))) ((List.range e.topo.nn).map e.conn) N).sum

end

end Verif.ElemGeom
