import Mathlib.Algebra.BigOperators.Group.List.Basic
import Mathlib.Algebra.Field.Basic
import Mathlib.Data.Rat.Defs
import Mathlib.Data.List.Sort
import Mathlib.Logic.Function.Basic

/-!
# Model of `TpetraLinearSystem` (src/TpetraLinearSystem.C)

Degree-of-freedom numbering, graph rows, element assembly, Dirichlet rows and the export of shared
rows.  Entities are identified with their stk id; Tpetra's own algorithms (sorting, maps, export)
are represented by their contracts, as said at each definition.
-/

namespace Verif.LinSys

/-! ## Numbering -/

/-- A node of the local mesh database of one process: stk identifier, `naluGlobalId_` (the id of
the periodic monarch, or the own id), bucket ownership bits, and membership in a non-conformal /
periodic part (`b.supersets()` tests of src/TpetraLinearSystem.C:2196-2214). -/
structure Node where
  stkId : ℕ
  naluId : ℕ
  owned : Bool
  shared : Bool
  nonConfPart : Bool := false
  periodicPart : Bool := false
deriving DecidableEq

/-- `enum DOFStatus`, include/TpetraLinearSystem.h:46-52, as a set of bits. -/
structure Status where
  skipped : Bool := false
  owned : Bool := false
  shared : Bool := false
  ghosted : Bool := false
deriving DecidableEq

/-- `realm.has_non_matching_boundary_face_alg()` and `realm.hasPeriodic_`. -/
structure Config where
  nonConformal : Bool := false
  periodic : Bool := false

/-- `bulkData.get_entity(NODE_RANK, id)`: the local entity with that identifier, if any. -/
def getEntity (mesh : List Node) (id : ℕ) : Option Node := mesh.find? (fun n => n.stkId == id)

/-- `isPeriodicNode` of `getDofStatus_impl`, src/TpetraLinearSystem.C:2188-2226. -/
def isPeriodicNode (cfg : Config) (n : Node) : Bool :=
  if cfg.nonConformal && cfg.periodic then n.periodicPart else cfg.periodic

/-- `getDofStatus_impl`, src/TpetraLinearSystem.C:2178-2293; `none` is a thrown exception. -/
def getDofStatus (cfg : Config) (mesh : List Node) (n : Node) : Option Status :=
  if cfg.nonConformal && cfg.periodic && (n.nonConfPart && n.periodicPart) then none
  else if !isPeriodicNode cfg n && !cfg.nonConformal then
    if !n.owned && !n.shared then some { ghosted := true }
    else if n.owned then some { owned := true }
    else some { shared := true }
  else if isPeriodicNode cfg n then
    if !n.owned && !n.shared then some { ghosted := true }
    else if n.stkId = n.naluId then
      if n.owned then some { owned := true }
      else some { shared := true }
    else
      match getEntity mesh n.naluId with
      | some m =>
        if m.owned then some { skipped := true, owned := true }
        else if m.shared then some { skipped := true, shared := true }
        else some { shared := true }
      | none => some { shared := true }
  else
    if n.owned then some { owned := true }
    else some { shared := true }

/-- `!(status & DS_SkippedDOF) && (status & DS_OwnedDOF)`. -/
def isOwnedDof (cfg : Config) (mesh : List Node) (n : Node) : Bool :=
  match getDofStatus cfg mesh n with
  | some s => !s.skipped && s.owned
  | none => false

/-- `!(status & DS_SkippedDOF) && (status & DS_SharedNotOwnedDOF)`. -/
def isSharedDof (cfg : Config) (mesh : List Node) (n : Node) : Bool :=
  match getDofStatus cfg mesh n with
  | some s => !s.skipped && s.shared
  | none => false

/-- `std::unique` on a list of ids (nodes compare equal when their nalu ids do,
src/TpetraLinearSystem.C:104-120). -/
def uniq : List ℕ → List ℕ
  | [] => []
  | [a] => [a]
  | a :: b :: l => if a = b then uniq (b :: l) else a :: uniq (b :: l)

/-- `std::sort` by nalu id followed by `std::unique`/`erase`, on the ids
(src/TpetraLinearSystem.C:277-279 and 301-303).  Only the ids matter for the numbering; every
correct sort returns the same list of ids, here it is insertion sort. -/
def sortedIds (ids : List ℕ) : List ℕ := uniq (ids.insertionSort (· ≤ ·))

/-- `GID_`, src/TpetraLinearSystem.C:  `numDof * (gid - 1) + idof + 1`. -/
def GID (gid numDof idof : ℕ) : ℕ := numDof * (gid - 1) + idof + 1

/-- The loops `myLIDs_[id] = numDof_*localId++` with the pushes of the global ids,
src/TpetraLinearSystem.C:283-290 and 305-316.  State: map, next local id, gids. -/
def numberIds (numDof : ℕ) (ids : List ℕ) (s : (ℕ → Option ℕ) × ℕ × List ℕ) :
    (ℕ → Option ℕ) × ℕ × List ℕ :=
  ids.foldl (fun s id =>
    (Function.update s.1 id (some (numDof * s.2.1)), s.2.1 + 1,
      s.2.2 ++ (List.range numDof).map (fun d => GID id numDof d))) s

/-- The initial value of `entityToLID_` and `entityToColLID_`, src/TpetraLinearSystem.C:959. -/
def invalidLID : ℕ := 2000000000

/-- Loop body of `fill_entity_to_row_LID_mapping`, src/TpetraLinearSystem.C:961-978; `none`: the
exception of `get_entity_monarch` (167-187).  The map is keyed by the entity's stk id. -/
def fillStep (mesh : List Node) (myLIDs : ℕ → Option ℕ) (e : Option (ℕ → ℕ)) (n : Node) :
    Option (ℕ → ℕ) :=
  match e with
  | none => none
  | some e =>
    match myLIDs n.naluId with
    | none => some e
    | some l =>
      let e := Function.update e n.stkId l
      if n.naluId ≠ n.stkId then
        match getEntity mesh n.naluId with
        | none => none
        | some m => some (if m.stkId ≠ n.stkId then Function.update e m.stkId l else e)
      else some e

/-- What `beginLinearSystemConstruction` leaves behind. -/
structure Numbering where
  maxOwnedRowId : ℕ
  maxSharedNotOwnedRowId : ℕ
  ownedGids : List ℕ
  sharedGids : List ℕ
  myLIDs : ℕ → Option ℕ
  entityToLID : ℕ → ℕ

/-- `beginLinearSystemConstruction`, src/TpetraLinearSystem.C:189-327 on the active nodes in bucket
order; `none`: one of the thrown exceptions.  Not modelled: owner ranks (`sharedPids_`), the Tpetra
maps (which hold the gid lists in this order) and `connections_`. -/
def beginConstruction (cfg : Config) (numDof : ℕ) (mesh : List Node) : Option Numbering :=
  if mesh.any (fun n => (getDofStatus cfg mesh n).isNone) then none
  else
    let numOwned := (mesh.filter (isOwnedDof cfg mesh)).length
    let numShared := (mesh.filter (isSharedDof cfg mesh)).length
    let ownedIds := sortedIds ((mesh.filter (isOwnedDof cfg mesh)).map (·.naluId))
    let s1 := numberIds numDof ownedIds (fun _ => none, 0, [])
    if s1.2.1 ≠ numOwned then none
    else
      let sharedIds := sortedIds ((mesh.filter (isSharedDof cfg mesh)).map (·.naluId))
      if sharedIds.any (fun id => (getEntity mesh id).isNone) then none
      else
        let s2 := numberIds numDof sharedIds (s1.1, s1.2.1, [])
        match mesh.foldl (fillStep mesh s2.1) (some (fun _ => invalidLID)) with
        | none => none
        | some e =>
          some ⟨numOwned * numDof, (numOwned + numShared) * numDof, s1.2.2, s2.2.2, s2.1, e⟩

/-! ## Graph rows -/

/-- `INVALID = std::numeric_limits<LocalOrdinal>::max()`, include/LinearSolver.h:54, with
`LocalOrdinal = int` (32 bits, include/LinearSolver.h:28). -/
def INVALID : ℤ := 2147483647

/-- `std::find(row, row+rowLen, INVALID)`, include/LinearSolver.h:81, from position `off` on. -/
def findInvalid (row : ℕ → ℤ) (len off : ℕ) : ℕ :=
  if off < len ∧ row off ≠ INVALID then findInvalid row len (off + 1) else off
termination_by len - off

/-- `std::lower_bound(row, rowEnd, x)`, include/LinearSolver.h:83: first position in
`[off, rowEnd)` whose entry is `≥ x` (linear scan; the C++ binary search has the same result on
sorted data). -/
def lowerBound (row : ℕ → ℤ) (len : ℕ) (x : ℤ) (off : ℕ) : ℕ :=
  if off < len ∧ row off < x then lowerBound row len x (off + 1) else off
termination_by len - off

/-- The shift loop of `LocalGraphArrays::insert`, include/LinearSolver.h:113-115:
`for (ptr = rowEnd-1; ptr != insertPoint; --ptr) *ptr = *(ptr-numDof)`; `k` counts the remaining
iterations (`ptr = insertPoint + k`).  Reads before the start of the row return an arbitrary entry
here (`ptr - numDof` truncated); those entries are overwritten afterwards. -/
def shiftLoop (numDof ip : ℕ) : ℕ → (ℕ → ℤ) → (ℕ → ℤ)
  | 0, row => row
  | k + 1, row => shiftLoop numDof ip k (Function.update row (ip + (k + 1)) (row (ip + (k + 1) - numDof)))

/-- `for i<numDof: *insertPoint++ = ind+i`, include/LinearSolver.h:116-118. -/
def writeBlock (ind : ℤ) (ip : ℕ) : ℕ → (ℕ → ℤ) → (ℕ → ℤ)
  | 0, row => row
  | d + 1, row => Function.update (writeBlock ind ip d row) (ip + d) (ind + d)

/-- `LocalGraphArrays::insert(ind, numDof, insertPoint, rowEnd)`, include/LinearSolver.h:111-119. -/
def insertAt (ind : ℤ) (numDof ip rowEnd : ℕ) (row : ℕ → ℤ) : ℕ → ℤ :=
  writeBlock ind ip numDof (shiftLoop numDof ip (rowEnd - 1 - ip) row)

/-- Loop of `LocalGraphArrays::insertIndices`, include/LinearSolver.h:82-88.  State: memory from the
start of this row on, and `rowEnd`. -/
def insertLoop (numDof : ℕ) (inds : List ℤ) (s : (ℕ → ℤ) × ℕ) : (ℕ → ℤ) × ℕ :=
  inds.foldl (fun s x =>
    let ip := lowerBound s.1 s.2 x 0
    if ip ≤ s.2 ∧ s.1 ip ≠ x then (insertAt x numDof ip (s.2 + numDof) s.1, s.2 + numDof)
    else s) s

/-- `LocalGraphArrays::insertIndices`, include/LinearSolver.h:77-89. -/
def insertIndices (numDof rowLen : ℕ) (inds : List ℤ) (row : ℕ → ℤ) : ℕ → ℤ :=
  (insertLoop numDof inds (row, findInvalid row rowLen 0)).1

/-- Row length computed by `remove_invalid_indices`, src/TpetraLinearSystem.C:1200-1208: one past the
last valid index; unchanged (`full`) if there is none. -/
def trimmedLength (row : ℕ → ℤ) (full : ℕ) : ℕ → ℕ
  | 0 => full
  | j + 1 => if row j ≠ INVALID then j + 1 else trimmedLength row full j

/-! ## Element assembly -/

section Assembly
variable {R : Type*} [Add R]

/-- A row of a `KokkosSparse` local matrix: its length and column indices.  `col` and the values
are memory from the start of the row on; entries at `length` and beyond belong to the next row. -/
structure RowView where
  length : ℕ
  col : ℕ → ℕ

/-- `while (colidx(offset) != cur && offset < length) ++offset`, src/TpetraLinearSystem.C:1441-1443. -/
def seek (row : RowView) (cur off : ℕ) : ℕ :=
  if row.col off ≠ cur ∧ off < row.length then seek row cur (off + 1) else off
termination_by row.length - off

/-- `sum_into_row` for `numDof != 3`, src/TpetraLinearSystem.C:1431-1452.  `ids` and `perm` are the
sorted `localIds` and the `sort_permutation`; state: offset and row values. -/
def sumIntoRowGeneric (row : RowView) (ids perm : ℕ → ℕ) (input : ℕ → R) :
    ℕ → ℕ × (ℕ → R) → ℕ × (ℕ → R)
  | 0, s => s
  | n + 1, s =>
    let s := sumIntoRowGeneric row ids perm input n s
    let off := seek row (ids n) s.1
    (off, if off < row.length then Function.update s.2 off (s.2 off + input (perm n)) else s.2)

/-- `while (colidx(offset) != cur) { offset += 3; if (offset >= length) return; }`,
src/TpetraLinearSystem.C:1393-1396; `none` is the early return. -/
def seek3 (row : RowView) (cur off : ℕ) : Option ℕ :=
  if row.col off ≠ cur then
    if off + 3 ≥ row.length then none else seek3 row cur (off + 3)
  else some off
termination_by row.length - off

/-- `row_view.value(offset+c) += input_values[entry_offset+c]`, `c = 0,1,2`,
src/TpetraLinearSystem.C:1405-1407. -/
def add3 (v : ℕ → R) (off : ℕ) (input : ℕ → R) (e : ℕ) : ℕ → R :=
  let v := Function.update v (off + 0) (v (off + 0) + input (e + 0))
  let v := Function.update v (off + 1) (v (off + 1) + input (e + 1))
  Function.update v (off + 2) (v (off + 2) + input (e + 2))

/-- `sum_into_row_vec_3`, src/TpetraLinearSystem.C:1377-1411.  State: `none` once the function has
returned, otherwise the offset; and the values. -/
def sumIntoRowVec3 (row : RowView) (ids perm : ℕ → ℕ) (input : ℕ → R) :
    ℕ → Option ℕ × (ℕ → R) → Option ℕ × (ℕ → R)
  | 0, s => s
  | j + 1, s =>
    let s := sumIntoRowVec3 row ids perm input j s
    match s.1 with
    | none => s
    | some off =>
      match seek3 row (ids (3 * j)) off with
      | none => (none, s.2)
      | some off => (some (off + 3), add3 s.2 off input (perm (3 * j)))

/-- `sum_into_row`, src/TpetraLinearSystem.C:1413-1453. -/
def sumIntoRow (row : RowView) (numEntities numDof : ℕ) (ids perm : ℕ → ℕ) (input : ℕ → R)
    (v : ℕ → R) : ℕ → R :=
  if numDof = 3 then (sumIntoRowVec3 row ids perm input numEntities (some 0, v)).2
  else (sumIntoRowGeneric row ids perm input (numEntities * numDof) (0, v)).2

/-- Fixed structure of the local system of one process: graphs and index maps. -/
structure Local where
  numDof : ℕ
  maxOwned : ℕ
  maxShared : ℕ
  ownedRow : ℕ → RowView
  sharedRow : ℕ → RowView
  /-- `entityToLID_` -/
  rowLID : ℕ → ℕ
  /-- `entityToColLID_` -/
  colLID : ℕ → ℕ

/-- Values of the local system of one process. -/
structure Sys (R : Type*) where
  owned : ℕ → ℕ → R
  shared : ℕ → ℕ → R
  ownedRhs : ℕ → R
  sharedRhs : ℕ → R

/-- An element contribution handed to `sumInto`: nodes, matrix (row-major, dof index
`i*numDof + d`), right-hand side. -/
structure Contribution (R : Type*) where
  nodes : List ℕ
  lhs : ℕ → ℕ → R
  rhs : ℕ → R

/-- `localIds` before sorting, src/TpetraLinearSystem.C:1475-1482. -/
def unsortedIds (L : Local) (c : Contribution R) (k : ℕ) : ℕ :=
  L.colLID (c.nodes.getD (k / L.numDof) 0) + k % L.numDof

/-- Contract of `Tpetra::Details::shellSortKeysAndValues` applied to the unsorted ids and the
identity permutation (src/TpetraLinearSystem.C:1484-1487): `perm` is a permutation of
`0..numRows-1` that sorts the keys.  The sort is not stable, so nothing else is known. -/
structure SortOf (n : ℕ) (keys : ℕ → ℕ) (perm : ℕ → ℕ) : Prop where
  lt : ∀ k < n, perm k < n
  inj : ∀ i < n, ∀ j < n, perm i = perm j → i = j
  sorted : ∀ i j, i ≤ j → j < n → keys (perm i) ≤ keys (perm j)

/-- Body of the row loop of `sumInto`, src/TpetraLinearSystem.C:1489-1520. -/
def sumIntoStep (L : Local) (c : Contribution R) (perm : ℕ → ℕ) (s : Sys R) (r : ℕ) : Sys R :=
  let p := perm r
  let rowLid := L.rowLID (c.nodes.getD (p / L.numDof) 0) + p % L.numDof
  let ids := fun k => unsortedIds L c (perm k)
  if rowLid < L.maxOwned then
    { s with
      owned := Function.update s.owned rowLid
        (sumIntoRow (L.ownedRow rowLid) c.nodes.length L.numDof ids perm (c.lhs p) (s.owned rowLid))
      ownedRhs := Function.update s.ownedRhs rowLid (s.ownedRhs rowLid + c.rhs p) }
  else if rowLid < L.maxShared then
    let a := rowLid - L.maxOwned
    { s with
      shared := Function.update s.shared a
        (sumIntoRow (L.sharedRow a) c.nodes.length L.numDof ids perm (c.lhs p) (s.shared a))
      sharedRhs := Function.update s.sharedRhs a (s.sharedRhs a + c.rhs p) }
  else s

/-- `TpetraLinearSystem::sumInto`, src/TpetraLinearSystem.C:1456-1577 (both overloads), given the
permutation returned by the sort. -/
def sumInto (L : Local) (c : Contribution R) (perm : ℕ → ℕ) (s : Sys R) : Sys R :=
  (List.range (c.nodes.length * L.numDof)).foldl (sumIntoStep L c perm) s

end Assembly

/-! ## Graph construction -/

/-- `insert_connection`, src/TpetraLinearSystem.C:329-350: append `b` to the connections of the row
of `a` unless present.  (The consistency checks that throw are not modelled.) -/
def insertConnection (L : Local) (conns : ℕ → List ℕ) (a b : ℕ) : ℕ → List ℕ :=
  let idx := L.rowLID a / L.numDof
  if b ∈ conns idx then conns else Function.update conns idx (conns idx ++ [b])

/-- Inner loop of `addConnections` for one `a` and the entities after it,
src/TpetraLinearSystem.C:358-366. -/
def addLater (L : Local) (nalu : ℕ → ℕ) (a : ℕ) : List ℕ → (ℕ → List ℕ) → (ℕ → List ℕ)
  | [], conns => conns
  | b :: bs, conns =>
    addLater L nalu a bs
      (if nalu a < nalu b then insertConnection L conns a b else insertConnection L conns b a)

/-- `addConnections`, src/TpetraLinearSystem.C:352-368. -/
def addConnections (L : Local) (nalu : ℕ → ℕ) : List ℕ → (ℕ → List ℕ) → (ℕ → List ℕ)
  | [], conns => conns
  | a :: as, conns =>
    addConnections L nalu as (addLater L nalu a as (insertConnection L conns a a))

/-- `buildConnectedNodeGraph`, src/TpetraLinearSystem.C:392-414 on the node lists of the selected
entities. -/
def buildConnections (L : Local) (nalu : ℕ → ℕ) (ents : List (List ℕ)) : ℕ → List ℕ :=
  ents.foldl (fun conns ns => addConnections L nalu ns conns) (fun _ => [])

/-- The calls `insertIndices(row, cols)` issued by `insert_graph_connections`,
src/TpetraLinearSystem.C:870-920, as (local row, columns), for the row entities `rows` (index `i` is
the block number): the whole connection list into the entity's row, then the entity's own column
into the row of every other connected entity. -/
def graphCalls (L : Local) (rows : List ℕ) (conns : ℕ → List ℕ) : List (ℕ × List ℕ) :=
  rows.zipIdx.flatMap (fun ei =>
    if conns ei.2 = [] then []
    else (L.rowLID ei.1, (conns ei.2).map L.colLID) ::
      ((conns ei.2).filter (fun b => b ≠ ei.1)).map (fun b => (L.rowLID b, [L.colLID ei.1])))

/-- Row lengths of `compute_graph_row_lengths` (local part), src/TpetraLinearSystem.C:786-850:
`numDof * numCols` for the entity's row, `numDof` for the row of every other connected entity. -/
def graphRowLength (L : Local) (rows : List ℕ) (conns : ℕ → List ℕ) (r : ℕ) : ℕ :=
  (rows.zipIdx.map (fun ei =>
    (if L.rowLID ei.1 = r then L.numDof * (conns ei.2).length else 0) +
    (((conns ei.2).filter (fun b => b ≠ ei.1)).map
      (fun b => if L.rowLID b = r then L.numDof else 0)).sum)).sum

/-- The row of block `r` after all insertions, starting from a row of `INVALID`s of the computed
length. -/
def builtRow (L : Local) (rows : List ℕ) (conns : ℕ → List ℕ) (r : ℕ) : ℕ → ℤ :=
  ((graphCalls L rows conns).filter (fun c => c.1 = r)).foldl
    (fun row c => insertIndices L.numDof (graphRowLength L rows conns r) (c.2.map (Nat.cast : ℕ → ℤ)) row)
    (fun _ => INVALID)

/-! ## Rows overwritten by boundary conditions and constraints, export -/

section Rows
variable {R : Type*} [Field R]

/-- One `(node, d)` of `applyDirichletBCs`, src/TpetraLinearSystem.C:1619-1649: `lid` is the row,
`bc` and `u` are `bcValues` and `solution`.  `none`: the exception of line 1626. -/
def dirichletRow (L : Local) (lid : ℕ) (bc u : R) (s : Sys R) : Option (Sys R) :=
  if lid > L.maxShared then none
  else if lid < L.maxOwned then
    some { s with
      owned := Function.update s.owned lid (fun p =>
        if p < (L.ownedRow lid).length then (if (L.ownedRow lid).col p = lid then 1 else 0)
        else s.owned lid p)
      ownedRhs := Function.update s.ownedRhs lid (bc - u) }
  else
    let a := lid - L.maxOwned
    some { s with
      shared := Function.update s.shared a (fun p =>
        if p < (L.sharedRow a).length then 0 else s.shared a p)
      sharedRhs := Function.update s.sharedRhs a 0 }

/-- `resetRows` (src/TpetraLinearSystem.C:1706-1755) and `prepareConstraints` (1655-1704) for one
`(node, d)`: the row and its right-hand side become zero. -/
def resetRow (L : Local) (lid : ℕ) (s : Sys R) : Option (Sys R) :=
  if lid > L.maxShared then none
  else if lid < L.maxOwned then
    some { s with
      owned := Function.update s.owned lid (fun p =>
        if p < (L.ownedRow lid).length then 0 else s.owned lid p)
      ownedRhs := Function.update s.ownedRhs lid 0 }
  else
    let a := lid - L.maxOwned
    some { s with
      shared := Function.update s.shared a (fun p =>
        if p < (L.sharedRow a).length then 0 else s.shared a p)
      sharedRhs := Function.update s.sharedRhs a 0 }

/-- A boundary dof of `applyDirichletBCs`. -/
structure BcDof (R : Type*) where
  lid : ℕ
  bc : R
  u : R

/-- `applyDirichletBCs`: all dofs of the part, in bucket order. -/
def applyDirichlet (L : Local) (ds : List (BcDof R)) (s : Sys R) : Option (Sys R) :=
  ds.foldl (fun s d => s.bind (dirichletRow L d.lid d.bc d.u)) (some s)

end Rows

end Verif.LinSys
