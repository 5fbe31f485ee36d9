import Mathlib.Algebra.Order.Field.Basic
import Mathlib.Algebra.BigOperators.Fin
import Mathlib.Algebra.Order.BigOperators.Group.Finset
import Verif.Model.MeshMotion

/-!
# Overset meshes

Models /repo/src/overset: `OversetManagerSTK.C` (hole cutting, donor search, re-initialisation under mesh motion),
`OversetManager.C` (update of constraint nodes), `AssembleOversetSolverConstraintAlgorithm.C`, and the shapes in
/repo/include/overset/OversetManagerSTK.h.

`double` is `K`.  stk's coarse search is represented by its specification (closed boxes that meet), stk's part membership by predicates;
a box direction is a pair `(min, max)`.
-/

namespace Nalu.Overset

open Verif.Motion

section boxes
variable {K : Type*} [Field K] [LinearOrder K] [IsStrictOrderedRing K]

/-! ## Cutting box -/

/-- Smallest and largest coordinate on one rank, initial values `+1.0e16`, `-1.0e16` (OversetManagerSTK.C:292-343, 619-668). -/
def corners (big : K) (xs : List K) : K × K := xs.foldl (fun mm x => (min mm.1 x, max mm.2 x)) (big, -big)

/-- `stk::all_reduce_min/max` (OversetManagerSTK.C:345-351). -/
def reduceCorners (big : K) (ranks : List (List K)) : K × K :=
  (ranks.map (corners big)).foldl (fun mm c => (min mm.1 c.1, max mm.2 c.2)) (big, -big)

/-- Translation to the origin, reduction by `percent` on both ends, translation back (OversetManagerSTK.C:359-398). -/
def shrink (percent : K) (c : K × K) : K × K :=
  let t := -c.1
  let lo := c.1 + t
  let hi := c.2 + t
  let d := (hi - lo) * percent / 100
  (lo + d - t, hi - d - t)

/-- `define_inactive_bounding_box` (OversetManagerSTK.C:286-400) without rotation: direction `i` of the box, `nodes` are the coordinates of
the nodes of the overset blocks, rank by rank. -/
def cutBox {nd : ℕ} (big percent : K) (nodes : List (List (Fin nd → K))) (i : Fin nd) : K × K :=
  shrink percent (reduceCorners big (nodes.map fun l => l.map fun x => x i))

/-- The box of a background element (OversetManagerSTK.C:619-680). -/
def elemBox {nd : ℕ} (big : K) (e : List (Fin nd → K)) (i : Fin nd) : K × K := corners big (e.map fun x => x i)

/-- `stk::search::intersects` of two boxes. -/
def Meets {nd : ℕ} (a b : Fin nd → K × K) : Prop := ∀ i, (a i).1 ≤ (b i).2 ∧ (b i).1 ≤ (a i).2

/-- `determine_intersected_elements` for the shape "aabb" (OversetManagerSTK.C:707-757). -/
def CutAabb {nd : ℕ} (big percent : K) (nodes : List (List (Fin nd → K))) (e : List (Fin nd → K)) : Prop :=
  Meets (cutBox big percent nodes) (elemBox big e)

/-- `get_bbox_points` (OversetManagerSTK.C:44-88), in the sequence of the code. -/
def boxPoints (b : Fin 3 → K × K) : List (Fin 3 → K) :=
  [![(b 0).1, (b 1).2, (b 2).1], ![(b 0).1, (b 1).2, (b 2).2], ![(b 0).1, (b 1).1, (b 2).2], ![(b 0).1, (b 1).1, (b 2).1],
   ![(b 0).2, (b 1).2, (b 2).1], ![(b 0).2, (b 1).2, (b 2).2], ![(b 0).2, (b 1).1, (b 2).2], ![(b 0).2, (b 1).1, (b 2).1]]

/-- The box around the rotated and translated corners (OversetManagerSTK.C:453-475, 476-499); `m` is the rotation matrix. -/
def coarseBox (big : K) (m : Fin 3 → Fin 3 → K) (cent disp : Fin 3 → K) (b : Fin 3 → K × K) (i : Fin 3) : K × K :=
  corners big (((boxPoints b).map (rotateTranslate m cent disp)).map fun x => x i)

/-- The centroid of an element (OversetManagerSTK.C:732-745). -/
def elemCent (e : List (Fin 3 → K)) (i : Fin 3) : K := e.foldl (fun s x => s + 1 / (e.length : K) * x i) 0

/-- Centre of the model box (OversetManagerSTK.h:251-254, 335-338). -/
def boxCent (b : Fin 3 → K × K) (i : Fin 3) : K := 1 / 2 * ((b i).2 + (b i).1)

/-- `halfDist_` (OversetManagerSTK.h:256-260, 340-344). -/
def halfDist (b : Fin 3 → K × K) (i : Fin 3) : K := (b i).2 - boxCent b i

/-- `r_point` (OversetManagerSTK.h:268-277, 352-361); `minv` is `rotMat_`, the inverse rotation. -/
def pullBack (minv : Fin 3 → Fin 3 → K) (cent disp x : Fin 3 → K) : Fin 3 → K :=
  matVec minv fun i => x i - (cent i + disp i)

/-- `OrientedBox::is_point_inside` (OversetManagerSTK.h:347-370); `tiny` is `FLT_MIN`. -/
def InObb (tiny : K) (b : Fin 3 → K × K) (minv : Fin 3 → Fin 3 → K) (cent disp x : Fin 3 → K) : Prop :=
  let r := pullBack minv cent disp x
  |r 0 - boxCent b 0| < halfDist b 0 ∧ |r 1 - boxCent b 1| < halfDist b 1 ∧
    (|r 2 - boxCent b 2| < halfDist b 2 ∨ halfDist b 2 < tiny)

/-- The two directions across the axis (OversetManagerSTK.h:279-300). -/
def across : Fin 3 → Fin 3 × Fin 3
  | 0 => (1, 2)
  | 1 => (0, 2)
  | 2 => (0, 1)

/-- `OrientedCylinder::is_point_inside` (OversetManagerSTK.h:263-305). -/
def InCylinder (tiny : K) (b : Fin 3 → K × K) (minv : Fin 3 → Fin 3 → K) (cent disp : Fin 3 → K) (axis : Fin 3) (x : Fin 3 → K) : Prop :=
  let r := pullBack minv cent disp x
  r (across axis).1 * r (across axis).1 + r (across axis).2 * r (across axis).2 <
      (1 / 2 * (halfDist b (across axis).1 + halfDist b (across axis).2)) ^ 2 ∧
    (|r axis - cent axis| < halfDist b axis ∨ halfDist b axis < tiny)

/-- `determine_intersected_elements` for the shape "obb": the coarse search finds the element and its centroid is inside
(OversetManagerSTK.C:684-763). -/
def CutObb (big tiny : K) (b : Fin 3 → K × K) (m minv : Fin 3 → Fin 3 → K) (cent disp : Fin 3 → K) (e : List (Fin 3 → K)) : Prop :=
  Meets (coarseBox big m cent disp b) (elemBox big e) ∧ InObb tiny b minv cent disp (elemCent e)

/-- The same for the shape "cylinder". -/
def CutCylinder (big tiny : K) (b : Fin 3 → K × K) (m minv : Fin 3 → Fin 3 → K) (cent disp : Fin 3 → K) (axis : Fin 3)
    (e : List (Fin 3 → K)) : Prop :=
  Meets (coarseBox big m cent disp b) (elemBox big e) ∧ InCylinder tiny b minv cent disp axis (elemCent e)

end boxes

/-! ## Parts -/

section parts
variable {E F N : Type*}

/-- The background mesh: elements with their faces and nodes. -/
structure Mesh (E F N : Type*) where
  faceOf : E → F → Prop
  nodeOf : E → N → Prop
  nodeOfFace : F → N → Prop

/-- Sides created by `create_exposed_block_boundary_sides` with the cut elements as the block and all others as air
(OversetManagerSTK.C:893-915): sides of a cut element that no other cut element has. -/
def SkinFace (M : Mesh E F N) (cut : E → Prop) (f : F) : Prop := ∃ e, cut e ∧ M.faceOf e f ∧ ∀ e', M.faceOf e' f → cut e' → e' = e

/-- Nodes of a part of elements. -/
def NodeIn (M : Mesh E F N) (part : E → Prop) (n : N) : Prop := ∃ e, part e ∧ M.nodeOf e n

/-- Nodes of `backgroundSurfacePart_`: these get a constraint (OversetManagerSTK.C:983-1030). -/
def SkinNode (M : Mesh E F N) (cut : E → Prop) (n : N) : Prop := ∃ f, SkinFace M cut f ∧ M.nodeOfFace f n

/-- `get_inactive_selector` for nodes (OversetManager.C:52-57). -/
def InactiveNode (M : Mesh E F N) (cut : E → Prop) (n : N) : Prop := NodeIn M cut n ∧ ¬ SkinNode M cut n

/-- Nodes of `fringeInfoVec_` (OversetManagerSTK.C:1050-1066, 1165-1170). -/
def FringeNode (M : Mesh E F N) (cut inner : E → Prop) (n : N) : Prop :=
  NodeIn M cut n ∧ ¬ NodeIn M inner n ∧ ¬ SkinNode M cut n

/-- What survives between two calls of `initialize` under mesh motion: the parts of stk and the vectors of cut elements. -/
structure Parts (E F : Type*) where
  inactive : Finset E
  inner : Finset E
  skin : Finset F
  cutVec : List E
  innerVec : List E

/-- `clear_parts` (OversetManagerSTK.C:773-853). -/
def Parts.clear [DecidableEq E] (p : Parts E F) : Parts E F :=
  ⟨p.inactive.filter (fun e => e ∉ p.cutVec), p.inner.filter (fun e => e ∉ p.innerVec), ∅, [], []⟩

/-- `initialize` under mesh motion (OversetManagerSTK.C:138-216): `cut`, `inner` are the elements found by
`determine_intersected_elements` (pushed back to the vectors), `skin` are the sides made from the inactive part. -/
def Parts.initialize [DecidableEq E] [DecidableEq F] (skin : Finset E → Finset F) (cut inner : List E) (p : Parts E F) : Parts E F :=
  let q := p.clear
  let inactive := q.inactive ∪ (q.cutVec ++ cut).toFinset
  ⟨inactive, q.inner ∪ (q.innerVec ++ inner).toFinset, q.skin ∪ skin inactive, q.cutVec ++ cut, q.innerVec ++ inner⟩

/-- `initialize` without mesh motion: no `clear_parts`, no inner part (OversetManagerSTK.C:138-216). -/
def Parts.initializeFixed [DecidableEq E] [DecidableEq F] (skin : Finset E → Finset F) (cut : List E) (p : Parts E F) : Parts E F :=
  let inactive := p.inactive ∪ (p.cutVec ++ cut).toFinset
  ⟨inactive, p.inner, p.skin ∪ skin inactive, p.cutVec ++ cut, p.innerVec⟩

end parts

/-! ## Donor search -/

section search
variable {K : Type*} [Field K] [LinearOrder K] [IsStrictOrderedRing K]
variable {A I : Type*}

/-- `IdentProc`: identifier and rank, compared in this sequence. -/
abbrev Key := ℕ × ℕ

/-- `OversetInfo` (OversetInfo.C:18-32): `bestX_` and the element with its parametric coordinates. -/
structure Donor (K I : Type*) where
  best : K
  elem : Option (ℕ × I)

/-- One pair of the loop of `complete_search` for the point `(p, rank)` (OversetManagerSTK.C:1299-1362); `search` is `isInElement`. -/
def Donor.consider (search : ℕ → K × I) (s : Donor K I) (b : ℕ) : Donor K I :=
  if (search b).1 < s.best then ⟨(search b).1, some (b, (search b).2)⟩ else s

/-- `complete_search` for one point of a rank (OversetManagerSTK.C:1278-1362): `pairs` is the sorted result of the coarse search. -/
def donor (big : K) (search : ℕ → K × I) (rank p : ℕ) (pairs : List (Key × Key)) : Donor K I :=
  ((pairs.filter fun kb => kb.1 = (p, rank)).map fun kb => kb.2.1).foldl (Donor.consider search) ⟨big, none⟩

/-- Clipping of the parametric coordinates (OversetManagerSTK.C:1386-1397), only reached with detailed output on. -/
def clip {nd : ℕ} (tol : K) (xi : Fin nd → K) : Fin nd → K := fun j =>
  let y := if xi j > 1 + tol then 1 + tol else xi j
  if y < -1 - tol then -1 - tol else y

/-- The check after the search (OversetManagerSTK.C:1366-1400): `detailed` and `clipIso` are user options. -/
def afterSearch {nd : ℕ} (detailed clipIso : Bool) (tol : K) (s : Donor K (Fin nd → K)) : Donor K (Fin nd → K) :=
  if detailed ∧ s.best > 1 + tol ∧ clipIso then ⟨s.best, s.elem.map fun bx => (bx.1, clip tol bx.2)⟩ else s

end search

/-! ## Constraint rows -/

section constraint
variable {K : Type*} [Field K]
variable {N : Type*} [DecidableEq N] {nDof : ℕ}

/-- Matrix and right-hand side of one rank (owned and shared rows alike). -/
structure Sys (K N : Type*) (nDof : ℕ) where
  lhs : N × Fin nDof → N × Fin nDof → K
  rhs : N × Fin nDof → K

/-- An `OversetInfo` with the nodes of its donor, `general_shape_fcn` at its parametric coordinates, and the density and dual volume
at the nodes of the donor. -/
structure Info (K N : Type*) where
  node : N
  npe : ℕ
  elem : Fin npe → N
  shape : Fin npe → K

/-- `prepareConstraints` for one info (TpetraLinearSystem.C:1668-1703): the rows of the node become zero. -/
def Sys.zeroRows (s : Sys K N nDof) (o : Info K N) : Sys K N nDof :=
  ⟨fun r c => if r.1 = o.node then 0 else s.lhs r c, fun r => if r.1 = o.node then 0 else s.rhs r⟩

/-- `elemRho`, `elemDnv` (AssembleOversetSolverConstraintAlgorithm.C:170-195). -/
def elemMean {n : ℕ} (f : Fin n → K) : K := (∑ k, f k) / (n : K)

/-- `systemScaling` (AssembleOversetSolverConstraintAlgorithm.C:197-198): `scaleFac` is one with density scaling and zero without;
`root` is `std::pow(·, 1.0/nDim)`. -/
def systemScaling (root : K → K) (scaleFac : K) (rho dnv : N → K) (o : Info K N) : K :=
  scaleFac * root (elemMean fun k => dnv (o.elem k)) / (elemMean fun k => rho (o.elem k)) + (1 - scaleFac)

/-- `interpolatePoint` (AssembleOversetSolverConstraintAlgorithm.C:200-206). -/
def Info.interp (o : Info K N) (q : N → Fin nDof → K) (i : Fin nDof) : K := ∑ k, o.shape k * q (o.elem k) i

/-- `connected_nodes` (AssembleOversetSolverConstraintAlgorithm.C:174-178): the constraint node first. -/
def Info.connected (o : Info K N) : Fin (o.npe + 1) → N := Fin.cons o.node o.elem

/-- Local right-hand side, entry `i` of connected node `a` (AssembleOversetSolverConstraintAlgorithm.C:212-216). -/
def Info.locRhs (o : Info K N) (scale : K) (q : N → Fin nDof → K) (a : Fin (o.npe + 1)) (i : Fin nDof) : K :=
  if a = 0 then -(q o.node i - o.interp q i) * scale else 0

/-- Local matrix (AssembleOversetSolverConstraintAlgorithm.C:212-227). -/
def Info.locLhs (o : Info K N) (scale : K) (a : Fin (o.npe + 1)) (i : Fin nDof) (b : Fin (o.npe + 1)) (j : Fin nDof) : K :=
  if a = 0 ∧ i = j then Fin.cases (1 * scale) (fun ic => -(o.shape ic * scale)) b else 0

/-- `apply_coeff` (AssembleOversetSolverConstraintAlgorithm.C:230): summation into the rows and columns of the connected nodes. -/
def Sys.apply (s : Sys K N nDof) (o : Info K N) (L : Fin (o.npe + 1) → Fin nDof → Fin (o.npe + 1) → Fin nDof → K)
    (R : Fin (o.npe + 1) → Fin nDof → K) : Sys K N nDof :=
  ⟨fun r c => s.lhs r c + ∑ a, ∑ b, if r.1 = o.connected a ∧ c.1 = o.connected b then L a r.2 b c.2 else 0,
   fun r => s.rhs r + ∑ a, if r.1 = o.connected a then R a r.2 else 0⟩

/-- `AssembleOversetSolverConstraintAlgorithm::execute` on one rank (lines 84-233): all rows of the infos are zeroed, then the infos of
owned nodes are assembled. -/
def Sys.constrain (scale : Info K N → K) (q : N → Fin nDof → K) (owned : N → Bool) (infos : List (Info K N)) (s : Sys K N nDof) :
    Sys K N nDof :=
  (infos.filter fun o => owned o.node).foldl (fun s o => s.apply o (o.locLhs (scale o)) (o.locRhs (scale o) q))
    (infos.foldl Sys.zeroRows s)

/-- The global system: export with summation of the shared rows (TpetraLinearSystem.C:1757-1777). -/
def globalSys {R : Type*} [Fintype R] (s : R → Sys K N nDof) : Sys K N nDof :=
  ⟨fun r c => ∑ k, (s k).lhs r c, fun r => ∑ k, (s k).rhs r⟩

end constraint

/-! ## Update of the constraint nodes -/

section update
variable {K : Type*} [Field K] {N : Type*} [DecidableEq N]

/-- The gather into `elemNodalQ` (OversetManager.C:128-142), entry `m` of the array: the loops over nodes `ni`, rows `i` and columns `j`
write `fieldQ[i*sizeCol + j]` to position `i*npe*sizeRow + j*npe + ni`.  `q n` is the data of node `n`. -/
def gather (npe sizeRow sizeCol : ℕ) (q : Fin npe → ℕ → K) : ℕ → K :=
  (List.finRange npe).foldl (fun w (ni : Fin npe) => (List.range sizeRow).foldl (fun w i => (List.range sizeCol).foldl
    (fun w j => Function.update w (i * npe * sizeRow + j * npe + ni.val) (q ni (i * sizeCol + j))) w) w) fun _ => 0

/-- `interpolatePoint` (e.g. Hex8CVFEM.C:1074-1116): component `c` is read from positions `c*npe + k`. -/
def interpPoint (npe : ℕ) (shape : Fin npe → K) (w : ℕ → K) (c : ℕ) : K := ∑ k : Fin npe, shape k * w (c * npe + k)

/-- The values written for one info (OversetManager.C:144-149); `base n` is the position of the data of node `n` in the memory of the
field (`field_data`). -/
def newValues (base : N → ℕ) (sizeRow sizeCol : ℕ) (mem : ℕ → K) (o : Info K N) : ℕ → K :=
  interpPoint o.npe o.shape (gather o.npe sizeRow sizeCol fun k m => mem (base (o.elem k) + m))

/-- One info: the values are written to the constraint node (OversetManager.C:104-161). -/
def updateOne (base : N → ℕ) (sizeRow sizeCol : ℕ) (mem : ℕ → K) (o : Info K N) : ℕ → K :=
  (List.range sizeRow).foldl (fun w i => (List.range sizeCol).foldl
    (fun w j => Function.update w (base o.node + (i * sizeCol + j)) (newValues base sizeRow sizeCol mem o (i * sizeCol + j))) w) mem

/-- `overset_constraint_node_field_update_gen` (OversetManager.C:86-162). -/
def updateAll (base : N → ℕ) (sizeRow sizeCol : ℕ) (infos : List (Info K N)) (mem : ℕ → K) : ℕ → K :=
  infos.foldl (updateOne base sizeRow sizeCol) mem

/-- The calls after a Runge-Kutta stage of the gas dynamics (GasDynamicsEquationSystem.C:876-880), in the sequence density, momentum,
total energy with the sizes written there. -/
def gasSizes (nDim : ℕ) : Fin 3 → ℕ × ℕ
  | 0 => (1, nDim)
  | 1 => (1, 1)
  | 2 => (1, 1)

end update

end Nalu.Overset
