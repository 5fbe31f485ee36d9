import Verif.Model.LinSys
import Verif.Model.Periodic

/-!
# From the solution of the linear system back to the nodal correction

`EquationSystem::assemble_and_solve` (src/EquationSystem.C:264-307): the solver leaves one number per
locally owned matrix row; `copy_tpetra_to_stk` writes them to the nodes, `sync_field` and the
periodic update complete the field, and the caller adds it to the solution with `field_axpby`.
Also `copy_stk_to_tpetra`, which hands the node coordinates to the multigrid preconditioner.

Simplifications: the linear solver is a parameter (the vector it returns), `K` stands for the
floating-point numbers, and the numbers of processes and nodes are arbitrary.
-/

namespace Verif.SolveBack

open Verif.LinSys

variable {K : Type*}

/-- What the mesh database knows about a node id independently of the process: the number of
components of the field there (0: field not defined), membership in a periodic subject part
(`realm_.get_subject_part_vector()`) and in `realm_.get_inactive_selector()`. -/
structure Tags where
  comps : ℕ → ℕ
  subject : ℕ → Bool
  inactive : ℕ → Bool

/-- The selector of `copy_tpetra_to_stk`, src/TpetraLinearSystem.C:2132-2135 (and of
`copy_stk_to_tpetra`, 623-626): field defined, locally owned, in no subject part, not inactive. -/
def selected (T : Tags) (n : Node) : Bool :=
  (T.comps n.stkId != 0) && n.owned && !(T.subject n.stkId) && !(T.inactive n.stkId)

/-- Loop body of `copy_tpetra_to_stk`, src/TpetraLinearSystem.C:2140-2174, for one node; `none` is
`STK_ThrowRequire(fieldSize == numDof_)` (2144) or `STK_ThrowRequire(useOwned)` (2167).  A field
value is the function of its components. -/
def copyNode (numDof : ℕ) (T : Tags) (N : Numbering) (x : ℕ → K) (f : Option (ℕ → ℕ → K))
    (n : Node) : Option (ℕ → ℕ → K) :=
  match f with
  | none => none
  | some f =>
    if !selected T n then some f
    else if T.comps n.stkId ≠ numDof then none
    else if (List.range numDof).any (fun d => decide (N.maxOwnedRowId ≤ N.entityToLID n.stkId + d)) then none
    else some (Function.update f n.stkId
      (fun d => if d < numDof then x (N.entityToLID n.stkId + d) else f n.stkId d))

/-- `copy_tpetra_to_stk`, src/TpetraLinearSystem.C:2118-2175, on one process. -/
def copyBack (numDof : ℕ) (T : Tags) (N : Numbering) (x : ℕ → K) (nodes : List Node)
    (f : ℕ → ℕ → K) : Option (ℕ → ℕ → K) :=
  nodes.foldl (copyNode numDof T N x) (some f)

/-- `stk::mesh::copy_owned_to_shared` (`LinearSystem::sync_field`, src/LinearSystem.C:99-104) on all
processes: a shared node takes the value of its owner. -/
def copyOwnedToShared {V : Type*} (owner : ℕ → ℕ) (nodes : ℕ → List Node) (f : ℕ → ℕ → V) : ℕ → ℕ → V :=
  fun p n => if (nodes p).any (fun m => decide (m.stkId = n) && m.shared) then f (owner n) n else f p n

/-- `PeriodicManager::parallel_communicate_field`, src/PeriodicManager.C:683-693: shared nodes and
aura ghosts (here: all nodes of the process that are not owned) take the value of their owner. -/
def parallelCommunicate {V : Type*} (owner : ℕ → ℕ) (nodes : ℕ → List Node) (f : ℕ → ℕ → V) : ℕ → ℕ → V :=
  fun p n => if (nodes p).any (fun m => decide (m.stkId = n) && !m.owned) then f (owner n) n
    else copyOwnedToShared owner nodes f p n

/-- A run on `np` processes: nodes of each process, owners, tags, periodic pairs
`(monarch, subject)`, and each process' numbering. -/
structure World where
  np : ℕ
  cfg : Config
  numDof : ℕ
  nodes : ℕ → List Node
  owner : ℕ → ℕ
  tags : Tags
  pairs : List (ℕ × ℕ)
  num : ℕ → Numbering

/-- `EquationSystem::assemble_and_solve`, src/EquationSystem.C:264-307, from the return of the linear
solver on (`x p` is process `p`'s part of `sln_`): copy back (src/TpetraLinearSystem.C:1819), sync
(1820), and with periodic boundaries `Realm::periodic_delta_solution_update` (src/Realm.C:3652-3660),
that is `apply_constraints` (src/PeriodicManager.C:730-748) without adding, with setting.  `none`:
some process throws. -/
def finishSolve (W : World) (x : ℕ → ℕ → K) (f : ℕ → ℕ → ℕ → K) : Option (ℕ → ℕ → ℕ → K) :=
  if (List.range W.np).all (fun p => (copyBack W.numDof W.tags (W.num p) (x p) (W.nodes p) (f p)).isSome)
  then
    let f1 := fun p => (copyBack W.numDof W.tags (W.num p) (x p) (W.nodes p) (f p)).getD (f p)
    let f2 := copyOwnedToShared W.owner W.nodes f1
    if W.cfg.periodic then
      some (parallelCommunicate W.owner W.nodes
        (Periodic.setSubjectsPar W.owner (fun _ => true) W.pairs f2))
    else some f2
  else none

/-- `field_axpby` with factors one (src/FieldFunctions.C:23-57) as used for `u += delta`, without
aura: every owned or shared node where the field is defined, whether active or not. -/
def addDelta [Add K] (T : Tags) (nodes : List Node) (delta u : ℕ → ℕ → K) : ℕ → ℕ → K :=
  fun n d => if nodes.any (fun m => decide (m.stkId = n) && (m.owned || m.shared)) && (T.comps n != 0)
    then delta n d + u n d else u n d

/-- `copy_stk_to_tpetra`, src/TpetraLinearSystem.C:611-653, for the coordinates (1341-1350): the
multi-vector has one entry per owned matrix *row* (`sln_->getMap()`), and `replaceGlobalValue` is
called with the nalu id of the *node*.  The vector is keyed by global row id; writes to ids that are
not in the map have no effect here (in Tpetra they are undefined without its debug checks).  Nodes
with a skipped or not-owned status are left out (639-641). -/
def copyCoords (cfg : Config) (active : List Node) (T : Tags) (gids : List ℕ) (coord : ℕ → K)
    (nodes : List Node) (v : ℕ → K) : ℕ → K :=
  (nodes.filter (fun n => selected T n && isOwnedDof cfg active n)).foldl
    (fun v n => if n.naluId ∈ gids then Function.update v n.naluId (coord n.stkId) else v) v

end Verif.SolveBack
