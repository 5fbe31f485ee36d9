import Mathlib.Algebra.BigOperators.Group.Finset.Basic
import Mathlib.Data.Real.Basic
import Mathlib.Algebra.BigOperators.Group.List.Basic

/-!
# Model of the assembly of wall values of the turbulence quantities

Models `SpecificDissipationRateEquationSystem::compute_wall_model_parameters` (`/repo/src/SpecificDissipationRateEquationSystem.C:798-861`),
`TurbDissipationEquationSystem::compute_wall_model_parameters` (`/repo/src/TurbDissipationEquationSystem.C:792-853`), the face loops they drive
(`/repo/src/ComputeWallModelSDRWallAlgorithm.C:96-176`, `/repo/src/ComputeLowReynoldsSDRWallAlgorithm.C:120-232`,
`/repo/src/ComputeWallModelTurbDissipationWallAlgorithm.C:98-161`), and `ComputeTurbKineticEnergyWallFunctionAlgorithm`
(`/repo/src/ComputeTurbKineticEnergyWallFunctionAlgorithm.C:66-207`) with the wall area its division uses
(`/repo/src/ComputeWallFrictionVelocityAlgorithm.C:205-262`, `/repo/src/WallFunctionParamsAlgorithmDriver.C:60-118`).  Arithmetic is exact.  The value
at an integration point (formulas in `Verif.Model.WallFunction`) is an input.
-/

namespace Nalu.WallAsm

variable {N : Type*} [DecidableEq N]

/-- An exposed face: `nodes k` its nodes in the order of the face, `ipMap` the `ipNodeMap` of its master element (for the loops that go through the
element, `face_node_ordinals[ip]` is the face's node `ip`), `aMag ip` the magnitude of the area vector stored at the point, `val ip` the value
computed there. -/
structure Face (N : Type*) where
  nodesPerFace : ℕ
  numIps : ℕ
  nodes : ℕ → N
  ipMap : ℕ → ℕ
  aMag : ℕ → ℝ
  val : ℕ → ℝ

/-- What one pass of a face loop adds: to which node, how much area, how much area times value. -/
structure Add (N : Type*) where
  node : N
  area : ℝ
  prod : ℝ

/-- `ComputeWallModelSDRWallAlgorithm::execute` and `ComputeWallModelTurbDissipationWallAlgorithm::execute` on one face: as many points as the face has
nodes, point `ip` to node `ip`. -/
def modelLoop (f : Face N) : List (Add N) :=
  (List.range f.nodesPerFace).map fun ip => ⟨f.nodes ip, f.aMag ip, f.val ip * f.aMag ip⟩

/-- `ComputeLowReynoldsSDRWallAlgorithm::execute` on one face: every integration point, to the node of `ipNodeMap`. -/
def lowReLoop (f : Face N) : List (Add N) :=
  (List.range f.numIps).map fun ip => ⟨f.nodes (f.ipMap ip), f.aMag ip, f.val ip * f.aMag ip⟩

/-- `ComputeTurbKineticEnergyWallFunctionAlgorithm::execute` on one face (lines 98-125): only the product is assembled. -/
def tkeLoop (f : Face N) : List (Add N) :=
  (List.range f.nodesPerFace).map fun ip => ⟨f.nodes ip, 0, f.aMag ip * f.val ip⟩

/-- `*assembledWallArea += aMag` in the friction velocity algorithm on one face: every integration point, to the node of `ipNodeMap`. -/
def areaLoop (f : Face N) : List (Add N) :=
  (List.range f.numIps).map fun ip => ⟨f.nodes (f.ipMap ip), f.aMag ip, 0⟩

/-- The two nodal fields: assembled area, assembled product. -/
abbrev Fields (N : Type*) := N → ℝ × ℝ

/-- The two `+=` of a face loop. -/
def add (s : Fields N) (c : Add N) : Fields N := fun n => if n = c.node then ((s n).1 + c.area, (s n).2 + c.prod) else s n

/-- Zeroing over the nodes that carry the field, then the algorithms one after the other on the process's own faces. `wall` says which nodes carry it. -/
def local' (wall : N → Bool) (old : Fields N) (cs : List (Add N)) : Fields N :=
  cs.foldl add fun n => if wall n then (0, 0) else old n

/-- A process: its own exposed faces treated by a wall function algorithm and by the low Reynolds number algorithm. -/
structure Rank (N : Type*) where
  modelled : List (Face N)
  lowRe : List (Face N)

/-- The additions of the algorithms on one process, those of a `wallModelAlg_` list whose parts are walls with wall functions or without. -/
def Rank.adds (r : Rank N) : List (Add N) := (r.modelled.map modelLoop).flatten ++ (r.lowRe.map lowReLoop).flatten

/-- `parallel_sum` over the copies of a node, then `periodic_field_update`, which gives every image the sum over the images. -/
def total (images : N → List N) (ls : List (Fields N)) (n : N) : ℝ × ℝ :=
  (((images n).map fun m => (ls.map fun l => (l m).1).sum).sum, ((images n).map fun m => (ls.map fun l => (l m).2).sum).sum)

/-- `compute_wall_model_parameters` of specific dissipation rate and dissipation: `bc`, `wall_model_bc` and the unknown itself all receive this value at
the nodes that carry the fields. -/
noncomputable def wallValue (wall : N → Bool) (images : N → List N) (old : Fields N) (ranks : List (Rank N)) (n : N) : ℝ :=
  (total images (ranks.map fun r => local' wall old r.adds) n).2 / (total images (ranks.map fun r => local' wall old r.adds) n).1

/-- The three nodal fields after the pass: the Dirichlet value, the assembled field, the unknown. -/
structure Nodal (N : Type*) where
  bc : N → ℝ
  assembled : N → ℝ
  unknown : N → ℝ

/-- The last loop of `compute_wall_model_parameters`. -/
noncomputable def write (wall : N → Bool) (v : N → ℝ) (s : Nodal N) : Nodal N :=
  ⟨fun n => if wall n then v n else s.bc n, fun n => if wall n then v n else s.assembled n, fun n => if wall n then v n else s.unknown n⟩

/-- The wall area as the friction velocity driver leaves it, on one process. -/
def tkeArea (fs : List (Face N)) : List (Add N) := (fs.map areaLoop).flatten

/-- The product as the turbulent kinetic energy algorithm assembles it, on one process. -/
def tkeProd (fs : List (Face N)) : List (Add N) := (fs.map tkeLoop).flatten

/-- `normalize_nodal_fields` of the turbulent kinetic energy algorithm: its own product by the area of the friction velocity driver; each process has the
faces `fs` with wall functions. -/
noncomputable def tkeValue (wall : N → Bool) (images : N → List N) (old : Fields N) (ranks : List (List (Face N))) (n : N) : ℝ :=
  (total images (ranks.map fun fs => local' wall old (tkeProd fs)) n).2 / (total images (ranks.map fun fs => local' wall old (tkeArea fs)) n).1

/-- `Quad93DSCS::set_interior_info` (`/repo/src/master_element/Hex27CVFEM.C:1869-1911`): `ipNodeMap_` of the nine-node face, four points per node. -/
def quad9IpMap (ip : ℕ) : ℕ := [0, 4, 1, 7, 8, 5, 3, 6, 2].getD (ip / 4) 0

end Nalu.WallAsm
