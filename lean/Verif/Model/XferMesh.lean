import Mathlib.Data.Real.Basic
import Mathlib.Data.Finset.Sort

/-!
# Model of what the two sides of a transfer hand to the search

Models `FromMesh::get_fields`, `FromMesh::bounding_boxes`, `FromMesh::update_ghosting`, `FromMesh::update_values` (`/repo/include/xfer/FromMesh.h:64-252`) and
`ToMesh::get_fields`, `ToMesh::bounding_boxes` (`/repo/include/xfer/ToMesh.h:60-194`).  Messages are not modelled; numbers are reals; the ghosting name and
the copying of owned values to shared nodes are not modelled.
-/

namespace Nalu.XferMesh

variable {F P B N K : Type*}

/-- One side of a transfer on one process: `known f` whether a field of that name is registered at all (`get_field_by_name`), `parts` the parts of the
transfer, `buckets p` the buckets of nodes of the part the process holds, `nodes b` their nodes, `sel f b` whether the selector of the field takes the bucket. -/
structure MeshSide (F P B N : Type*) where
  known : F → Bool
  parts : List P
  buckets : P → List B
  nodes : B → List N
  sel : F → B → Bool

/-- Lines 91-102 of FromMesh.h (84-95 of ToMesh.h): `fieldIsFine` of one part. -/
def partFine (m : MeshSide F P B N) (f : F) (p : P) : Bool := (m.buckets p).foldl (fun ok b => ok && m.sel f b) true

/-- Lines 69-113 of FromMesh.h (63-106 of ToMesh.h): the loop over the names with `allFieldsAreFine` and the fields so far. -/
def scan (m : MeshSide F P B N) : List F → Bool × List F → Bool × List F
  | [], s => s
  | f :: fs, s =>
    if m.known f then scan m fs (m.parts.foldl (fun ok p => if partFine m f p then ok else false) s.1, s.2 ++ [f])
    else scan m fs (false, s.2)

/-- `get_fields`; `none` is the exception of lines 117-122 (109-115 of ToMesh.h), thrown by this process. -/
def getFields (m : MeshSide F P B N) (names : List F) : Option (List F) :=
  let s := scan m names (true, [])
  if s.1 then some s.2 else none

/-- The corners of lines 176-195 of FromMesh.h, in `d` coordinates, starting from ±1e16. -/
def corners {d : ℕ} (x : N → Fin d → ℝ) (l : List N) : (Fin d → ℝ) × (Fin d → ℝ) :=
  l.foldl (fun c n => (fun j => min (c.1 j) (x n j), fun j => max (c.2 j) (x n j))) (fun _ => 10 ^ 16, fun _ => -10 ^ 16)

/-- The elements (or faces) a process offers: those of the source parts it owns, by ascending key (lines 155-205 of FromMesh.h); also the receiving nodes of
`/repo/include/xfer/ToMesh.h:158-193`.  `ents` lists the entities of the parts the process holds, `owner` their owning process. -/
def offered [LinearOrder K] (owner : K → ℕ) (r : ℕ) (ents : List K) : List K :=
  (ents.filter fun e => owner e = r).mergeSort (fun a b => decide (a ≤ b))

/-- Data of one source: the values and coordinates at the owner, and in the copies (ghosts) on a receiving process, with the two members
`mesh_modified_` and `ghosting_` and the entities copied. -/
structure Ghosts (K V : Type*) where
  own : K → V
  ownX : K → V
  copy : K → V
  copyX : K → V
  keys : Finset K
  modified : Bool
  ghosting : Bool

/-- What can happen to a source between two searches. -/
inductive Op (K V : Type*)
  /-- a time step of the source gives new values -/
  | solve (v : K → V)
  /-- the source mesh moves -/
  | move (x : K → V)
  /-- `update_ghosting` with the entities the search wants on this process; `any` whether some process wants some -/
  | ghost (ks : Finset K) (any : Bool)
  /-- `update_values` -/
  | update

/-- One step (lines 208-252 of FromMesh.h).  `change_ghosting` is taken to add to the entities already copied. -/
def step [DecidableEq K] {V : Type*} (s : Ghosts K V) : Op K V → Ghosts K V
  | .solve v => { s with own := v }
  | .move x => { s with ownX := x }
  | .ghost ks any => if any then { s with keys := s.keys ∪ ks, modified := true, ghosting := true } else s
  | .update =>
    if s.ghosting then
      { s with
        copy := fun k => if k ∈ s.keys then s.own k else s.copy k
        copyX := fun k => if k ∈ s.keys ∧ s.modified = true then s.ownX k else s.copyX k
        modified := false }
    else s

/-- A history of steps. -/
def run [DecidableEq K] {V : Type*} (s : Ghosts K V) (l : List (Op K V)) : Ghosts K V := l.foldl step s

end Nalu.XferMesh
