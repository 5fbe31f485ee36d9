import Verif.Model.LinSys
import Mathlib.Data.List.Dedup
import Mathlib.Data.List.Sort
import Mathlib.Data.Prod.Lex

/-!
# Finalisation of the linear-system graph

`TpetraLinearSystem::finalizeLinearSystem` (src/TpetraLinearSystem.C:1256-1325) after the local
connections are known: row pointers, the messages by which the owner of a row learns the columns other
processes add to it, the column map, the rows of the further components of a node, and the removal of
unused slots.

Simplifications: `Kokkos::View`s are functions or lists; the typed message buffers of `stk::CommNeighbors`
are lists of numbers (`pack`/`unpack` of one value is one list cell, byte widths are not modelled);
delivery is reliable and per pair of processes in order, as MPI guarantees; processes are numbered by
naturals; `Tpetra::Map::getLocalElement` is the position in the list of global ids.
-/

namespace Verif.LinSys

/-! ## Row pointers -/

/-- `LocalGraphArrays::compute_row_pointers`, include/LinearSolver.h:91-103: the array `rowPtrs` and the
returned `nnz`. -/
def computeRowPointers (rowLengths : List ℕ) : List ℕ × ℕ :=
  let s := rowLengths.foldl (fun (s : List ℕ × ℕ) l => (s.1 ++ [s.2], s.2 + l)) ([], 0)
  (s.1 ++ [s.2], s.2)

/-- `LocalGraphArrays` as a value, include/LinearSolver.h:62-124: `rowPointers` and `colIndices`. -/
structure Csr where
  ptr : List ℕ
  cols : ℕ → ℤ

/-- Constructor of `LocalGraphArrays`, include/LinearSolver.h:65-73: every slot is `INVALID`. -/
def newCsr (rowLengths : List ℕ) : Csr := ⟨(computeRowPointers rowLengths).1, fun _ => INVALID⟩

/-- `get_row_length`, include/LinearSolver.h:75. -/
def Csr.rowLength (g : Csr) (i : ℕ) : ℕ := g.ptr.getD (i + 1) 0 - g.ptr.getD i 0

/-- Number of rows, `rowPointers.size()-1`. -/
def Csr.numRows (g : Csr) : ℕ := g.ptr.length - 1

/-! ## Rows of the further components of a node -/

/-- The copy `row_d[j] = row[j]`, src/TpetraLinearSystem.C:1237-1240, from offset `src` to offset `dst`. -/
def copyRow (src dst : ℕ) (len : ℕ) (cols : ℕ → ℤ) : ℕ → ℤ :=
  (List.range len).foldl (fun c j => Function.update c (dst + j) (c (src + j))) cols

/-- Body of the loop over nodes, src/TpetraLinearSystem.C:1232-1242, for the first row `i` of a node. -/
def fillNodeRows (g : Csr) (numDof : ℕ) (cols : ℕ → ℤ) (i : ℕ) : ℕ → ℤ :=
  let p := g.ptr.getD i 0
  let len := g.rowLength i
  (List.range (numDof - 1)).foldl (fun c d => copyRow p (p + len * (d + 1)) len c) cols

/-- `fill_in_extra_dof_rows_per_node`, src/TpetraLinearSystem.C:1223-1244; `i` runs over the multiples of
`numDof` below the number of rows. -/
def fillInExtraDofRows (g : Csr) (numDof : ℕ) : Csr :=
  if numDof = 1 then g
  else ⟨g.ptr, (List.range ((g.numRows + numDof - 1) / numDof)).foldl
    (fun c q => fillNodeRows g numDof c (numDof * q)) g.cols⟩

/-! ## Removal of unused slots -/

/-- First loop of `remove_invalid_indices`, src/TpetraLinearSystem.C:1198-1208: the new row lengths. -/
def trimmedLengths (g : Csr) (rowLengths : List ℕ) : List ℕ :=
  rowLengths.zipIdx.map (fun li =>
    trimmedLength (fun j => g.cols (g.ptr.getD li.2 0 + j)) li.1 (g.rowLength li.2))

/-- `remove_invalid_indices`, src/TpetraLinearSystem.C:1190-1221: new arrays and new row lengths. -/
def removeInvalid (g : Csr) (rowLengths : List ℕ) : Csr × List ℕ :=
  let nnz := g.ptr.getD rowLengths.length 0
  let lens := trimmedLengths g rowLengths
  if lens.sum < nnz then
    let newCols := lens.zipIdx.flatMap (fun li =>
      (List.range li.1).map (fun j => g.cols (g.ptr.getD li.2 0 + j)))
    (⟨(computeRowPointers lens).1, fun p => newCols.getD p INVALID⟩, lens)
  else (g, lens)

/-! ## Messages to the owners of shared rows -/

/-- One packed record of `add_lengths_to_comm`, src/TpetraLinearSystem.C:677-698. -/
structure Msg where
  dest : ℕ
  row : ℕ
  cols : List (ℕ × ℕ)
deriving DecidableEq

/-- What one process knows: its numbering and, per mesh node, the identifier the linear system uses, the
process that owns the unknown (`parallel_owner_rank(get_entity_monarch(...))`) and whether the unknown
is shared but not owned here (`getDofStatus`, modelled by `getDofStatus` in Model/LinSys). -/
structure GraphProc where
  L : Local
  rows : List ℕ
  conns : ℕ → List ℕ
  nalu : ℕ → ℕ
  owner : ℕ → ℕ
  shared : ℕ → Bool

/-- The records packed by `compute_graph_row_lengths`, src/TpetraLinearSystem.C:833-855, in order: for a
shared row all its columns; for every other connected shared node the row entity's column. -/
def sendMsgs (P : GraphProc) : List Msg :=
  P.rows.zipIdx.flatMap (fun ei =>
    (if P.shared ei.1 then
      [⟨P.owner ei.1, GID (P.nalu ei.1) P.L.numDof 0,
        (P.conns ei.2).map (fun b => (GID (P.nalu b) P.L.numDof 0, P.owner b))⟩] else []) ++
    ((P.conns ei.2).filter (fun b => b ≠ ei.1 ∧ P.shared b)).map (fun b =>
      ⟨P.owner b, GID (P.nalu b) P.L.numDof 0, [(GID (P.nalu ei.1) P.L.numDof 0, P.owner ei.1)]⟩))

/-- Packing one record, src/TpetraLinearSystem.C:690-697: row, twice the number of columns, then column
and owner alternating. -/
def packMsg (m : Msg) : List ℕ :=
  m.row :: (m.cols.length * 2) :: m.cols.flatMap (fun c => [c.1, c.2])

/-- The send buffer of a process for destination `q`. -/
def sendBuffer (P : GraphProc) (q : ℕ) : List ℕ :=
  ((sendMsgs P).filter (fun m => m.dest = q)).flatMap packMsg

/-- `for i<numCols: unpack(colGid); unpack(owner)`, src/TpetraLinearSystem.C:723-728: the columns and the
rest of the buffer. -/
def unpackCols : ℕ → List ℕ → List (ℕ × ℕ) × List ℕ
  | 0, buf => ([], buf)
  | n + 1, buf =>
    let r := unpackCols n (buf.drop 2)
    ((buf.getD 0 0, buf.getD 1 0) :: r.1, r.2)

/-- `while(rbuf.size_in_bytes() > 0)` of `communicate_remote_columns` and
`insert_communicated_col_indices`, src/TpetraLinearSystem.C:712-733, 928-949: the (row, columns) records
read from a buffer.  `fuel` bounds the number of iterations. -/
def unpackAll : ℕ → List ℕ → List (ℕ × List (ℕ × ℕ))
  | 0, _ => []
  | _ + 1, [] => []
  | fuel + 1, row :: rest =>
    let numCols := rest.getD 0 0 / 2
    let r := unpackCols numCols (rest.drop 1)
    (row, r.1) :: unpackAll fuel r.2

/-- All records process `q` reads, neighbour by neighbour, src/TpetraLinearSystem.C:709-735. -/
def received (procs : List GraphProc) (q : ℕ) : List (ℕ × List (ℕ × ℕ)) :=
  procs.flatMap (fun P => let buf := sendBuffer P q; unpackAll (buf.length + 1) buf)

/-- `deviceLocallyOwnedRowLengths(lid++) += numCols*numDof`, src/TpetraLinearSystem.C:720-722. -/
def addReceivedLength (numDof : ℕ) (lid numCols : ℕ) (lens : ℕ → ℕ) : ℕ → ℕ :=
  (List.range numDof).foldl (fun l d => Function.update l (lid + d) (l (lid + d) + numCols * numDof)) lens

/-- Row lengths after `communicate_remote_columns`; `lidOf` is `ownedRowsMap->getLocalElement`. -/
def receivedLengths (numDof : ℕ) (lidOf : ℕ → ℕ) (rs : List (ℕ × List (ℕ × ℕ))) (lens : ℕ → ℕ) : ℕ → ℕ :=
  rs.foldl (fun l r => addReceivedLength numDof (lidOf r.1) r.2.length l) lens

/-- `communicatedColIndices.insert(make_pair(owner, colGid++))`, src/TpetraLinearSystem.C:728-730. -/
def receivedCols (numDof : ℕ) (rs : List (ℕ × List (ℕ × ℕ))) : List (ℕ × ℕ) :=
  rs.flatMap (fun r => r.2.flatMap (fun c => (List.range numDof).map (fun d => (c.2, c.1 + d))))

/-- The row of an owned unknown after `insert_graph_connections` and `insert_communicated_col_indices`,
src/TpetraLinearSystem.C:1291-1293: local insertions first, then the received columns, `colOf` being
`colMap.getLocalElement`. -/
def finalRow (L : Local) (rows : List ℕ) (conns : ℕ → List ℕ) (lidOf colOf : ℕ → ℕ)
    (rs : List (ℕ × List (ℕ × ℕ))) (cap : ℕ) (r : ℕ) : ℕ → ℤ :=
  ((graphCalls L rows conns ++ rs.map (fun m => (lidOf m.1, m.2.map (fun c => colOf c.1)))).filter
      (fun c => c.1 = r)).foldl
    (fun row c => insertIndices L.numDof cap (c.2.map (Nat.cast : ℕ → ℤ)) row) (fun _ => INVALID)

/-! ## Column map -/

/-- Iteration over `std::set<std::pair<int,GlobalOrdinal>>`: increasing by owner, then by global id,
each pair once. -/
def ownersInOrder (og : List (ℕ × ℕ)) : List (ℕ × ℕ) :=
  og.dedup.insertionSort (fun a b => a.1 < b.1 ∨ (a.1 = b.1 ∧ a.2 ≤ b.2))

/-- `fill_owned_and_shared_then_nonowned_ordered_by_proc`, src/TpetraLinearSystem.C:1051-1096:
`(totalGids, srcPids)`; `none`: an exception (a shared id whose recorded owner is this process).
Process numbers are naturals, so the tests `>= 0` are not needed. -/
def columnMap (me : ℕ) (owned shared sharedPids : List ℕ) (og : List (ℕ × ℕ)) :
    Option (List ℕ × List ℕ) :=
  if (sharedPids.take shared.length).any (fun p => p == me) then none
  else
    let rest := (ownersInOrder og).filter (fun pg => pg.1 ≠ me ∧ pg.2 ∉ owned ∧ pg.2 ∉ shared)
    some (owned ++ shared ++ rest.map Prod.snd, sharedPids.take shared.length ++ rest.map Prod.fst)

/-- `storeOwnersForShared`, src/TpetraLinearSystem.C:990-1013, for the shared nodes given as
(owner, nalu id). -/
def ownersForShared (numDof : ℕ) (nodes : List (ℕ × ℕ)) : List (ℕ × ℕ) :=
  nodes.flatMap (fun n => (List.range numDof).map (fun d => (n.1, GID n.2 numDof d)))

/-- `ownersAndGids_` at the time the column map is made, src/TpetraLinearSystem.C:1277-1280. -/
def allOwners (numDof : ℕ) (nodes : List (ℕ × ℕ)) (rs : List (ℕ × List (ℕ × ℕ))) : List (ℕ × ℕ) :=
  ownersForShared numDof nodes ++ receivedCols numDof rs

/-- `Tpetra::Map::getLocalElement`: position of the global id. -/
def localElement (totalGids : List ℕ) (gid : ℕ) : ℕ := totalGids.idxOf gid

/-! ## Buffer sizes -/

/-- `compute_send_lengths`, src/TpetraLinearSystem.C:754-801: bytes reserved for destination `q`, with
`sizeof(GlobalOrdinal)+sizeof(int) = w`.  (Line 789 looks the status of a connected node up again only
if its id differs from the row's; both nodes with one id have the same status, so this is the same.) -/
def reservedBytes (P : GraphProc) (w q : ℕ) : ℕ :=
  (P.rows.zipIdx.map (fun ei =>
    let n := (P.conns ei.2).length
    (if P.shared ei.1 ∧ P.owner ei.1 = q then (1 + n) * w else 0) +
    (((P.conns ei.2).filter (fun b => b ≠ ei.1 ∧ P.shared b ∧ P.owner b = q)).map
      (fun _ => (1 + n) * w)).sum)).sum

/-- Bytes of one packed record: row (a `GlobalOrdinal`, `g` bytes) and count (`unsigned`, `k` bytes),
then per column a `GlobalOrdinal` and an `int` (`k` bytes). -/
def msgBytes (g k : ℕ) (m : Msg) : ℕ := (g + k) + m.cols.length * (g + k)

/-! ## Node lists handed to `addConnections` by the other graph builders -/

/-- `buildReducedElemToNodeGraph`, src/TpetraLinearSystem.C:438-480: per element the node pairs of its
sub-control surfaces (`lrscv`). -/
def reducedElemLists (elems : List (List ℕ × List (ℕ × ℕ))) : List (List ℕ) :=
  elems.flatMap (fun e => e.2.map (fun lr => [e.1.getD lr.1 0, e.1.getD lr.2 0]))

/-- `buildFaceElemToNodeGraph`, src/TpetraLinearSystem.C:482-516: per exposed face all nodes of its
element. -/
def faceElemLists (faces : List ℕ) (elemOf : ℕ → ℕ) (elemNodes : ℕ → List ℕ) : List (List ℕ) :=
  faces.map (fun f => elemNodes (elemOf f))

/-- `buildNonConformalNodeGraph`, src/TpetraLinearSystem.C:518-568: per integration point (current,
opposing element) all nodes of both elements. -/
def nonConformalLists (dg : List (List (ℕ × ℕ))) (elemNodes : ℕ → List ℕ) : List (List ℕ) :=
  dg.flatMap (fun f => f.map (fun d => elemNodes d.1 ++ elemNodes d.2))

/-- `buildOversetNodeGraph`, src/TpetraLinearSystem.C:570-611: per locally owned constraint node that node
and all nodes of its donor element. -/
def oversetLists (infos : List (ℕ × ℕ)) (isOwned : ℕ → Bool) (elemNodes : ℕ → List ℕ) : List (List ℕ) :=
  (infos.filter (fun c => isOwned c.1)).map (fun c => c.1 :: elemNodes c.2)

end Verif.LinSys
