import Verif.Model.ElemKernel
import Mathlib.Data.Real.Basic

/-!
# Explicit box filtering and the momentum residual it reports

Models src/ExplicitFiltering.C: `populate_candidate_elements` (563-625), `determine_elems_to_ghost` (630-667),
`create_explicit_filter_point_info_map` (672-739), `manage_ghosting` (744-763), `complete_search` (768-802), `execute` (355-478),
`compute_volume` (871-893), `increment_elem_mean` (898-918) and `compute_scv_residual` (923-1233).

Entities are abstract identifiers `N` (nodes) and `E` (elements), `nodes` and `elems` list those of the search parts in the order of their
identifiers.  Numbers are real.  `stk::search::coarse_search` is taken to return, on every rank, the pairs of closed boxes that intersect and of
which one was contributed by that rank; `change_ghosting` makes an element and its nodal fields available on the rank it is sent to.  Fields are
scalar: the component loops of the code are independent.
-/

namespace Nalu.ExpFilter
open Nalu.Edge Nalu.Kernel

variable {N E : Type*} {nd : ℕ}

/-- The distributed mesh as the filter sees it. -/
structure Mesh (N E : Type*) (nd : ℕ) where
  nodes : List N
  elems : List E
  /-- `begin_nodes(elem)` -/
  conn : E → List N
  coord : N → Fin nd → ℝ
  /-- `ws_scv_volume_` of the element, from `meSCV->determinant` -/
  scv : E → List ℝ
  ownerN : N → ℕ
  ownerE : E → ℕ
  /-- number of ranks -/
  ranks : ℕ
  /-- the nodes summed into this one by `periodic_field_update` (itself among them) -/
  images : N → List N

structure Box (nd : ℕ) where
  lo : Fin nd → ℝ
  hi : Fin nd → ℝ

/-- Lines 589-612: the bounding box of an element, started from `±1e16`. -/
noncomputable def elemBox (m : Mesh N E nd) (e : E) : Box nd :=
  (m.conn e).foldl (fun b n => ⟨fun j => min (b.lo j) (m.coord n j), fun j => max (b.hi j) (m.coord n j)⟩)
    ⟨fun _ => 10 ^ 16, fun _ => -10 ^ 16⟩

/-- Lines 711-716: the filter box of a node. -/
noncomputable def filterBox (fs : Fin nd → ℝ) (m : Mesh N E nd) (n : N) : Box nd :=
  ⟨fun j => m.coord n j - 1 / 2 * fs j, fun j => m.coord n j + 1 / 2 * fs j⟩

/-- Closed intersection of two axis aligned boxes (stk_search). -/
def Box.meets (a b : Box nd) : Prop := ∀ j, a.lo j ≤ b.hi j ∧ b.lo j ≤ a.hi j

open scoped Classical in
/-- `searchKeyPair_` on a rank after `coarse_search` and the sort (lines 634-638). -/
noncomputable def searchPairs (fs : Fin nd → ℝ) (m : Mesh N E nd) (r : ℕ) : List (N × E) :=
  (m.nodes.flatMap fun n => m.elems.map fun e => (n, e)).filter
    fun p => (filterBox fs m p.1).meets (elemBox m p.2) ∧ (m.ownerN p.1 = r ∨ m.ownerE p.2 = r)

/-- Lines 641-666: one found pair; an element of this rank met by a filter of another rank is sent there. -/
def ghostStep (m : Mesh N E nd) (r : ℕ) (g : List (E × ℕ)) (p : N × E) : List (E × ℕ) :=
  if m.ownerE p.2 = r ∧ m.ownerN p.1 ≠ r then g ++ [(p.2, m.ownerN p.1)] else g

/-- `elemsToGhost_` of a rank. -/
noncomputable def elemsToGhost (fs : Fin nd → ℝ) (m : Mesh N E nd) (r : ℕ) : List (E × ℕ) :=
  (searchPairs fs m r).foldl (ghostStep m r) []

/-- The elements a rank can access after `manage_ghosting`: its own and those sent to it by any rank. -/
def visible (fs : Fin nd → ℝ) (m : Mesh N E nd) (r : ℕ) (e : E) : Prop :=
  m.ownerE e = r ∨ ∃ r' < m.ranks, (e, r) ∈ elemsToGhost fs m r'

/-- `explicitFilteringMap_`; `none` is the thrown "no valid entry for element". -/
abbrev FMap (N E : Type*) := Option (N → List E)

open scoped Classical in
/-- Lines 775-797: one pair of `complete_search`. -/
noncomputable def completeStep (fs : Fin nd → ℝ) (m : Mesh N E nd) (r : ℕ) (st : FMap N E) (p : N × E) : FMap N E :=
  st.bind fun f =>
    if r = m.ownerN p.1 then
      if visible fs m r p.2 then some (fun n => if n = p.1 then f n ++ [p.2] else f n) else none
    else some f

/-- `initialize` (lines 311-349) on a rank. -/
noncomputable def buildMap (fs : Fin nd → ℝ) (m : Mesh N E nd) (r : ℕ) : FMap N E :=
  (searchPairs fs m r).foldl (completeStep fs m r) (some fun _ => [])

/-- `compute_volume` (lines 871-893). -/
def elemVolume (m : Mesh N E nd) (e : E) : ℝ := (m.scv e).foldl (fun s v => s + v) 0

/-- `increment_elem_mean` (lines 898-918) for one component. -/
noncomputable def elemMean (m : Mesh N E nd) (q : N → ℝ) (e : E) : ℝ :=
  (m.conn e).foldl (fun s n => s + q n * (1 / ((m.conn e).length : ℝ)) * elemVolume m e) 0

/-- Lines 397-425: the loop over the elements of a node; filter volume and accumulated field. -/
noncomputable def nodeLoop (m : Mesh N E nd) (q : N → ℝ) (es : List E) : ℝ × ℝ :=
  es.foldl (fun s e => (s.1 + elemVolume m e, s.2 + elemMean m q e)) (0, 0)

open scoped Classical in
/-- Lines 368-431 on one rank: the fields are zeroed, then the nodes in the map (those the rank owns) are assembled. -/
noncomputable def rankLocal (m : Mesh N E nd) (q : N → ℝ) (r : ℕ) (f : N → List E) (n : N) : ℝ × ℝ :=
  if n ∈ m.nodes ∧ m.ownerN n = r then nodeLoop m q (f n) else (0, 0)

/-- Lines 433-439: `parallel_sum` over the copies of a node. -/
noncomputable def parallelSum (m : Mesh N E nd) (l : ℕ → N → ℝ × ℝ) (n : N) : ℝ × ℝ :=
  (∑ r ∈ Finset.range m.ranks, (l r n).1, ∑ r ∈ Finset.range m.ranks, (l r n).2)

/-- Lines 441-447: `periodic_field_update` sums the images. -/
noncomputable def periodicSum (m : Mesh N E nd) (v : N → ℝ × ℝ) (n : N) : ℝ × ℝ :=
  (((m.images n).map fun k => (v k).1).sum, ((m.images n).map fun k => (v k).2).sum)

/-- `execute` (lines 355-478): `maps r` is the map of rank `r`.  The result is the explicit field on the owner, which `copy_owned_to_shared`
copies to every other rank. -/
noncomputable def execute (m : Mesh N E nd) (maps : ℕ → N → List E) (q : N → ℝ) (n : N) : ℝ :=
  let t := periodicSum m (parallelSum m (fun r => rankLocal m q r (maps r))) n
  t.2 * (1 / t.1)

open scoped Classical in
/-- `initialize` on every rank, then `execute`; `none` if any rank threw. -/
noncomputable def filtered (fs : Fin nd → ℝ) (m : Mesh N E nd) (q : N → ℝ) : Option (N → ℝ) :=
  if ∀ r < m.ranks, (buildMap fs m r).isSome = true then
    some (execute m (fun r => (buildMap fs m r).getD fun _ => []) q)
  else none

/-! ## The residual -/

/-- Nodal data gathered by `compute_scv_residual` (lines 1066-1104), for one element. -/
structure ResNodes (nn nd : ℕ) where
  rho1 : Fin nn → ℝ
  rho0 : Fin nn → ℝ
  rhoM : Fin nn → ℝ
  mu : Fin nn → ℝ
  p : Fin nn → ℝ
  u1 : Fin nn → Fin nd → ℝ
  u0 : Fin nn → Fin nd → ℝ
  uM : Fin nn → Fin nd → ℝ
  /-- `dudx`, `G n i j` -/
  G : Fin nn → Fin nd → Fin nd → ℝ

/-- Constants (lines 958-966). -/
structure ResPar (nd : ℕ) where
  rhoRef : ℝ
  grav : Fin nd → ℝ
  g1 : ℝ
  g2 : ℝ
  g3 : ℝ
  dt : ℝ
  divU : ℝ

variable {nn nip : ℕ}

/-- Lines 1140-1176 at one point: `contRes`. -/
noncomputable def contRes (c : ResPar nd) (N' : Fin nn → ℝ) (dn : Fin nn → Fin nd → ℝ) (f : ResNodes nn nd) : ℝ :=
  (c.g1 * interp N' f.rho1 + c.g2 * interp N' f.rho0 + c.g3 * interp N' f.rhoM) / c.dt
    + ∑ ic, ∑ j, f.rho1 ic * f.u1 ic j * dn ic j

/-- Lines 1168: `divU`. -/
def divIp (dn : Fin nn → Fin nd → ℝ) (u : Fin nn → Fin nd → ℝ) : ℝ := ∑ ic, ∑ j, u ic j * dn ic j

/-- Lines 1178-1194: `p_dFdxAdv[i]`. -/
def advIp (dn : Fin nn → Fin nd → ℝ) (f : ResNodes nn nd) (i : Fin nd) : ℝ :=
  ∑ ic, ∑ j, f.rho1 ic * f.u1 ic j * f.u1 ic i * dn ic j

/-- Lines 1178-1194: `p_dFdxDiff[i]`. -/
noncomputable def diffIp (c : ResPar nd) (dn : Fin nn → Fin nd → ℝ) (f : ResNodes nn nd) (i : Fin nd) : ℝ :=
  ∑ ic, ∑ j, f.mu ic * (f.G ic i j + f.G ic j i - 2 / 3 * divIp dn f.u1 * (if i = j then 1 else 0) * c.divU) * dn ic j

/-- Lines 1202-1211: what is multiplied by the volume. -/
noncomputable def ptResidual (c : ResPar nd) (N' : Fin nn → ℝ) (dn : Fin nn → Fin nd → ℝ) (f : ResNodes nn nd) (i : Fin nd) : ℝ :=
  let u1 := interp N' (fun ic => f.u1 ic i)
  let time := (c.g1 * interp N' f.rho1 * u1 + c.g2 * interp N' f.rho0 * interp N' (fun ic => f.u0 ic i)
    + c.g3 * interp N' f.rhoM * interp N' (fun ic => f.uM ic i)) / c.dt
  let buoyancy := (interp N' f.rho1 - c.rhoRef) * c.grav i
  let dpdx := ∑ ic, f.p ic * dn ic i
  time + advIp dn f i - diffIp c dn f i + dpdx - buoyancy - 1 * contRes c N' dn f * u1

/-- The element's control volume data; `vol` is `p_scvol`, indexed by integration point, but **read with the index of the nearest node**
(line 1200: `const double scvIp = p_scvol[nn]`), which is therefore taken as an index into the volumes. -/
structure ResElem (nn nip nd : ℕ) where
  shape : Fin nip → Fin nn → ℝ
  dndx : Fin nip → Fin nn → Fin nd → ℝ
  node : Fin nip → Fin nn
  vol : ℕ → ℝ

/-- Lines 1123-1212 for one element: the local residual, started from zero. -/
noncomputable def elemResidual (c : ResPar nd) (e : ResElem nn nip nd) (f : ResNodes nn nd) : Fin nn → Fin nd → ℝ :=
  loop nip (fun ip r => fun a i =>
      if a = e.node ip then r a i + ptResidual c (e.shape ip) (e.dndx ip) f i * e.vol (e.node ip).val else r a i)
    (fun _ _ => 0)

/-- A work item: an element, the global nodes it scatters to and its gathered data. -/
structure ResWork (M : Type*) (nd : ℕ) where
  nn : ℕ
  nip : ℕ
  elem : ResElem nn nip nd
  glob : Fin nn → M
  f : ResNodes nn nd

open scoped Classical in
/-- Lines 1214-1227: scatter, `residual[i] -= p_residual[niNdim+i]`. -/
noncomputable def scatter {M : Type*} (c : ResPar nd) (res : M → Fin nd → ℝ) (w : ResWork M nd) : M → Fin nd → ℝ :=
  loop w.nn (fun ni r => fun g i => if g = w.glob ni then r g i - elemResidual c w.elem w.f ni i else r g i) res

/-- `compute_scv_residual` (lines 923-1233) up to the parallel and periodic sums; the elements of all ranks. -/
noncomputable def residual {M : Type*} (c : ResPar nd) (ws : List (ResWork M nd)) : M → Fin nd → ℝ :=
  ws.foldl (scatter c) (fun _ _ => 0)

/-- Lines 1246-1249: `field_normalize` by the dual nodal volume (FieldFunctions.C:183-216). -/
noncomputable def normalized {M : Type*} (dualVol : M → ℝ) (res : M → Fin nd → ℝ) (g : M) (i : Fin nd) : ℝ := res g i * (1 / dualVol g)

end Nalu.ExpFilter
