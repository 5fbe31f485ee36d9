import Mathlib.Algebra.Order.Field.Basic
import Mathlib.Data.Finset.Lattice.Fold
import Mathlib.Algebra.BigOperators.Group.Finset.Basic

/-!
# Search and ghosting of non-conformal interfaces

Models `NonConformalInfo.C` and `NonConformalManager.C`.  Outside the model: `stk::search::coarse_search` (a
function from a point and a radius to the boxes it meets, and the contract that a rank receives the pairs of which
it owns the point or the box), `MasterElement::isInElement` (a function giving a number for every face, see
`Verif.Model.PointSearch`), `BulkData::change_ghosting` (removes the listed received elements, adds the listed sends).
The sequence in which `std::sort` leaves pairs with the same point is unspecified: theorems quantify over the
list.
-/

namespace Nalu.NcSearch

/-- `stk::search::IdentProc<uint64_t,int>`: local Gauss point id or global face id, and owning rank. -/
structure Key where
  id : ℕ
  proc : ℕ
deriving DecidableEq, Repr

/-- `searchKeyPair_`: point and box. -/
abbrev Pairs := List (Key × Key)

variable {K : Type*} [Field K] [LinearOrder K]

/-- The search data of a `DgInfo` (DgInfo.h:70-115): `localGaussPointId_`, `opposingFace_`, `bestX_`,
`nearestDistance_`, `allOpposingFaceIds_`, `allOpposingFaceIdsOld_`. -/
structure Dg (K : Type*) where
  id : ℕ
  opp : Option ℕ
  bestX : K
  near : K
  all : List ℕ
  old : List ℕ

/-- One `DgInfo` in `reset_dgInfo` (NonConformalInfo.C:216-234); `ref` is `bestXRef_`. -/
def Dg.reset (ref : K) (canReuse : Bool) (g : Dg K) : Dg K :=
  { g with old := if canReuse then g.old else g.all, bestX := ref, all := [] }

/-- State of the loop over the candidates of one point: the `DgInfo` and `nearestDistance`, `none` for
`numeric_limits<double>::max()`. -/
structure Scan (K : Type*) where
  dg : Dg K
  nd : Option K

/-- `std::min(nearestDistance, theDistance)` (NonConformalInfo.C:575). -/
def minD : Option K → K → K
  | none, d => d
  | some a, d => min a d

/-- One candidate (NonConformalInfo.C:502-601); `dist` is the number returned by `isInElement` for the face, `gap`
the distance between the point and its projection on the face, `saved` is `nearestDistanceSaved`. -/
def scanStep (rank : ℕ) (dyn : Bool) (dist gap : ℕ → K) (saved : K) (st : Scan K) (jj : Key × Key) : Scan K :=
  if jj.1.proc = rank then
    let f := jj.2.id
    let g : Dg K := { st.dg with all := st.dg.all ++ [f] }
    if dist f < g.bestX then
      let nd : K := minD st.nd (gap f)
      let near : K := if dyn then (if nd < g.near then 8 / 10 * saved + (1 - 8 / 10) * nd else nd) else g.near
      ⟨{ g with opp := some f, bestX := dist f, near := near }, if dyn then some nd else st.nd⟩
    else ⟨g, st.nd⟩
  else st

/-- `std::equal_range(searchKeyPair_, localGaussPointId, compareGaussPoint())` on the list sorted by the id of the
point (NonConformalInfo.C:492-493): all pairs whose point has this id, of whatever rank. -/
def candidates (pairs : Pairs) (id : ℕ) : Pairs := pairs.filter fun p => p.1.id = id

/-- One point in `complete_search` (NonConformalInfo.C:483-606); `none` when it is put in
`problemDgInfoVec`. -/
def completePoint (rank : ℕ) (dyn : Bool) (dist gap : ℕ → ℕ → K) (pairs : Pairs) (g : Dg K) : Option (Dg K) :=
  let c := candidates pairs g.id
  if c = [] then none
  else some (c.foldl (scanStep rank dyn (dist g.id) (gap g.id) g.near) ⟨g, none⟩).dg

/-- `NonConformalInfo::complete_search` (NonConformalInfo.C:464-622); `none` is the `runtime_error`. -/
def completeSearch (rank : ℕ) (dyn : Bool) (dist gap : ℕ → ℕ → K) (pairs : Pairs) (dgs : List (Dg K)) :
    Option (List (Dg K)) := dgs.mapM (completePoint rank dyn dist gap pairs)

/-! ## Bounding boxes -/

/-- Corners of the box of a face in one direction before expansion (NonConformalInfo.C:712-735). -/
def corners (big : K) (xs : List K) : K × K :=
  xs.foldl (fun mm x => (min mm.1 x, max mm.2 x)) (big, -big)

/-- `construct_bounding_boxes` for one face and one direction (NonConformalInfo.C:740-750). -/
def box (big pct tol dynFac : K) (xs : List K) : K × K :=
  let c := corners big xs
  let inc := pct * (c.2 - c.1) + tol * dynFac
  (c.1 - inc, c.2 + inc)

/-! ## Repeated search -/

/-- `coarse_search` for a list of spheres, given the boxes met by each. -/
def coarse (hit : Key → K → List Key) (sp : List (Key × K)) : Pairs :=
  sp.flatMap fun s => (hit s.1 s.2).map fun b => (s.1, b)

/-- `delete_range_points_found` (NonConformalInfo.C:338-371): the spheres whose key is not the point of any pair. -/
def unfound (sp : List (Key × K)) (pairs : Pairs) : List (Key × K) :=
  sp.filter fun s => s.1 ∉ pairs.map Prod.fst

/-- The loop of `repeat_search_if_needed` (NonConformalInfo.C:373-404) over the spheres of all ranks; `none` is the
`runtime_error`, thrown after the eleventh enlargement whether or not it succeeded. -/
def retry (hit : Key → K → List Key) (num : ℕ) (sp : List (Key × K)) (pairs : Pairs) : Option Pairs :=
  if sp = [] then some pairs
  else
    let sp2 := sp.map fun s => (s.1, 2 * s.2)
    let pairs2 := pairs ++ coarse hit sp2
    if 10 < num + 1 then none else retry hit (num + 1) (unfound sp2 pairs2) pairs2
termination_by 11 - num

/-- The search with the dynamic tolerance (NonConformalInfo.C:415-418). -/
def dynamicSearch (hit : Key → K → List Key) (sp : List (Key × K)) : Option Pairs :=
  retry hit 0 (unfound sp (coarse hit sp)) (coarse hit sp)

/-! ## Ghosting -/

variable {E : Type} [DecidableEq E]

/-- The pairs a rank receives from the search. -/
def localPairs (rank : ℕ) (pairs : Pairs) : Pairs :=
  pairs.filter fun p => p.1.proc = rank ∨ p.2.proc = rank

/-- `determine_elems_to_ghost` on one rank (NonConformalInfo.C:420-455); `elemOf` is the element connected to a
face. -/
def elemsToGhost (elemOf : ℕ → E) (rank : ℕ) (pairs : Pairs) : List (E × ℕ) :=
  (localPairs rank pairs).filterMap fun p =>
    if p.2.proc = rank ∧ p.1.proc ≠ rank then some (elemOf p.2.id, p.1.proc) else none

/-- The sends of one rank in the ghosting, elements only: `send_list` and `keep_only_elems`
(NonConformalManager.C:176-190, 233). -/
def sends (owner : E → ℕ) (S : Finset (E × ℕ)) (rank : ℕ) : Finset (E × ℕ) :=
  S.filter fun ep => owner ep.1 = rank

/-- `compute_precise_ghosting_lists` on one rank (NonConformalManager.C:195-218): new sends, and sends to remove. -/
def preciseLists (cur : Finset (E × ℕ)) (want : List (E × ℕ)) : Finset (E × ℕ) × Finset (E × ℕ) :=
  let w := want.toFinset
  let inter := cur ∩ w
  let add := if inter = ∅ then w else w.filter fun ep => ep ∉ inter
  (add, cur.filter fun ep => ep ∉ inter)

/-- `communicate_to_fill_recv_ghosts_to_remove` (NonConformalManager.C:136-168): what rank `p` is told to remove by the
other ranks. -/
def recvRemove (n : ℕ) (rem : ℕ → Finset (E × ℕ)) (p : ℕ) : Finset E :=
  ((Finset.range n).filter (· ≠ p)).biUnion fun r => ((rem r).filter fun ep => ep.2 = p).image Prod.fst

/-- One pass of `NonConformalManager::initialize` up to the ghosting (NonConformalManager.C:223-265) on `n` ranks:
`none` is `nonConformalGhosting_ == NULL`. -/
def ghostRound (n : ℕ) (owner : E → ℕ) (S : Option (Finset (E × ℕ))) (want : ℕ → List (E × ℕ)) :
    Option (Finset (E × ℕ)) :=
  let lists := fun r => match S with
    | none => ((want r).toFinset, ∅)
    | some S => preciseLists (sends owner S r) (want r)
  let add := (Finset.range n).biUnion fun r => (lists r).1
  let rem := fun p => recvRemove n (fun r => (lists r).2) p
  if add = ∅ ∧ ∀ p ∈ Finset.range n, rem p = ∅ then S
  else some ((S.getD ∅).filter (fun ep => ep.1 ∉ rem ep.2) ∪ add)

end Nalu.NcSearch
