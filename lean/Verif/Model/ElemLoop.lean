import Mathlib.Data.List.Basic
import Mathlib.Algebra.Group.Defs
import Mathlib.Algebra.Group.Pi.Basic

/-!
# The vectorised element and face loops and their scratch memory

Models include/SimdInterface.h, include/CopyAndInterleave.h, include/AssembleElemSolverAlgorithm.h,
src/AssembleElemSolverAlgorithm.C, include/AssembleFaceElemSolverAlgorithm.h, include/ScratchViews.h,
src/ScratchViews.C, include/SharedMemData.h, include/ElemDataRequests.h, src/ElemDataRequests.C.

Simplifications: one bucket at a time (buckets are independent), one thread per team; the scratch contents of
an element (all gathered fields) are one vector indexed by `Fin d`; a SIMD variable is a function from lanes
to values and SIMD arithmetic acts lane by lane (stk::simd); `int` does not overflow.
-/

namespace Nalu.Loop

/-! ## Grouping of a bucket -/

/-- `get_num_simd_groups`, SimdInterface.h:36-45. -/
def numGroups (L len : ℕ) : ℕ := len / L + if 0 < len % L then 1 else 0

/-- `get_length_of_next_simd_group`, SimdInterface.h:47-59 (signed arithmetic, with the error branch). -/
def groupLen (L index len : ℤ) : ℤ :=
  let n := if len - index * L < L then len - index * L else L
  if n < 0 ∨ L < n then 0 else n

/-- The entities a group reads, `b[bktIndex*simdLen + k]` for `k < numSimdElems`
(AssembleElemSolverAlgorithm.h:86-90).  `none`: a read beyond the end of the bucket. -/
def groupEntities {E : Type*} (L : ℕ) (b : List E) (index : ℕ) : Option (List E) :=
  (List.range (groupLen L index b.length).toNat).mapM (fun k => b[index * L + k]?)

/-! ## Interleaving, kernels, extraction -/

/-- A SIMD vector of `d` entries: entry, then lane. -/
abbrev Simd (d : ℕ) (V : Type*) := Fin d → ℕ → V

/-- `interleave_1D`/`2D`/`3D`, CopyAndInterleave.h:54-92: set lane `k` of every entry for `k < simdElems`
from the `k`-th source; other lanes keep what they held. -/
def interleave {d : ℕ} {V : Type*} (dst : Simd d V) (src : List (Fin d → V)) : Simd d V :=
  fun i k => match src[k]? with
    | some s => s i
    | none => dst i k

/-- `extract_vector_lane`, CopyAndInterleave.h:187-207. -/
def extractLane {m : ℕ} {V : Type*} (v : Simd m V) (k : ℕ) : Fin m → V := fun i => v i k

/-- A kernel of scalars: what it adds to the local system for given element data. -/
abbrev Kernel (d m : ℕ) (V : Type*) := (Fin d → V) → Fin m → V

/-- `Kernel::execute` on SIMD data: adds, in each lane, what the kernel computes from that lane. -/
def simdExecute {d m : ℕ} {V : Type*} [Add V] (K : Kernel d m V) (acc : Simd m V) (data : Simd d V) :
    Simd m V :=
  fun i k => acc i k + K (fun j => data j k) i

/-- The lambda of `AssembleElemSolverAlgorithm::execute` (lines 84-99): zero the local system, run all active
kernels, extract each lane in use and pass it on.  `out` is the list of `apply_coeff` calls. -/
def runLambda {E : Type*} {d m : ℕ} {V : Type*} [Add V] [Zero V] (kernels : List (Kernel d m V))
    (data : Simd d V) (elems : List E) : List (E × (Fin m → V)) :=
  let sys := kernels.foldl (fun acc K => simdExecute K acc data) (fun _ _ => 0)
  elems.zipIdx.map (fun p => (p.1, extractLane sys p.2))

/-- The loop over the groups of a bucket (`run_algorithm`, AssembleElemSolverAlgorithm.h:79-104): the SIMD
buffer persists from group to group. -/
def runGroups {E : Type*} {d m : ℕ} {V : Type*} [Add V] [Zero V] (L : ℕ) (gather : E → Fin d → V)
    (kernels : List (Kernel d m V)) (b : List E) :
    List ℕ → Simd d V → Option (List (E × (Fin m → V)))
  | [], _ => some []
  | g :: gs, buf =>
    match groupEntities L b g with
    | none => none
    | some es =>
      let buf' := interleave buf (es.map gather)
      match runGroups L gather kernels b gs buf' with
      | none => none
      | some rest => some (runLambda kernels buf' es ++ rest)

/-- `run_algorithm` on a bucket. -/
def runBucket {E : Type*} {d m : ℕ} {V : Type*} [Add V] [Zero V] (L : ℕ) (gather : E → Fin d → V)
    (kernels : List (Kernel d m V)) (b : List E) (buf : Simd d V) : Option (List (E × (Fin m → V))) :=
  runGroups L gather kernels b (List.range (numGroups L b.length)) buf

/-! ## Faces: sub-groups with one face ordinal -/

/-- The `while` of `run_face_elem_algorithm` (AssembleFaceElemSolverAlgorithm.h:96-116) on the faces of the
group not processed yet: the faces taken and the final `elemFaceOrdinal`. -/
def innerRun {F : Type*} (ord : F → ℤ) : ℤ → List F → List F × ℤ
  | o, [] => ([], o)
  | o, f :: fs =>
    if 0 ≤ o ∧ ord f ≠ o then ([], o)
    else (f :: (innerRun ord (ord f) fs).1, (innerRun ord (ord f) fs).2)

/-- The `do … while` (lines 93-126): each entry is one call of the lambda.  `none`: not finished within
`fuel` rounds. -/
def faceRuns {F : Type*} (ord : F → ℤ) : ℕ → List F → Option (List (ℤ × List F))
  | 0, _ => none
  | fuel + 1, fs =>
    let r := innerRun ord (-1) fs
    if r.1.length < fs.length then
      match faceRuns ord fuel (fs.drop r.1.length) with
      | none => none
      | some rest => some ((r.2, r.1) :: rest)
    else some [(r.2, r.1)]

/-! ## Data requests -/

/-- `ELEM_DATA_NEEDED`, ElemDataRequests.h:25-44. -/
inductive Req
  | fcAreav | scsAreav | scsFaceGradOp | scsShiftedFaceGradOp | scsGradOp | scsShiftedGradOp | scsGij
  | scvVolume | scvGradOp | scvShiftedGradOp | femGradOp | femShiftedGradOp | femDetJ | femNormal
  | femFaceNormal | femFaceGradOp | femFaceDetJ | femGij
  deriving DecidableEq, Repr

/-- The views of `MasterElementViews`, ScratchViews.h:81-104. -/
inductive MeView
  | fc_areav | scs_areav | dndx_fc_elem | dndx_shifted_fc_elem | dndx | dndx_shifted | dndx_scv
  | dndx_scv_shifted | deriv_fc | deriv | deriv_scv | det_j_fc | det_j | det_j_scv | scv_volume | gijUpper
  | gijLower | dndx_fem | deriv_fem | det_j_fem | normal_fem | normal_fc_fem
  deriving DecidableEq, Repr

/-- Sizes: spatial dimension, nodes and integration points. -/
structure Sizes where
  nDim : ℕ
  nodesPerFace : ℕ
  nodesPerElem : ℕ
  numFaceIp : ℕ
  numScsIp : ℕ
  numScvIp : ℕ
  numFemIp : ℕ

/-- Scalars allocated inside the `switch` of `create_master_element_views` (ScratchViews.h:206-331). -/
def allocReq (s : Sizes) : Req → ℕ
  | .fcAreav => s.numFaceIp * s.nDim
  | .scsFaceGradOp => s.numFaceIp * s.nodesPerElem * s.nDim
  | .scsShiftedFaceGradOp => s.numFaceIp * s.nodesPerElem * s.nDim
  | .scsAreav => s.numScsIp * s.nDim
  | .scsGradOp => s.numScsIp * s.nodesPerElem * s.nDim
  | .scsShiftedGradOp => s.numScsIp * s.nodesPerElem * s.nDim
  | .scsGij => s.numScsIp * s.nDim * s.nDim + s.numScsIp * s.nDim * s.nDim
  | .scvVolume => s.numScvIp
  | .scvGradOp => s.numScvIp * s.nodesPerElem * s.nDim
  | .scvShiftedGradOp => s.numScvIp * s.nodesPerElem * s.nDim
  | .femGradOp => s.numFemIp * s.nodesPerElem * s.nDim
  | .femShiftedGradOp => s.numFemIp * s.nodesPerElem * s.nDim
  | .femDetJ => 0
  | .femNormal => s.numFemIp * s.nDim
  | .femFaceNormal => s.numFaceIp * s.nDim
  | .femFaceGradOp => s.numFaceIp * s.nodesPerElem * s.nDim
  | .femFaceDetJ => 0
  | .femGij => s.numFemIp * s.nDim * s.nDim + s.numFemIp * s.nDim * s.nDim

/-- Requests that set `needDerivFC` in `create_master_element_views`. -/
def aDerivFC : Req → Bool
  | .femFaceNormal | .femFaceDetJ => true
  | _ => false
/-- `needDerivFCElem` (counted, nothing allocated). -/
def aDerivFCElem : Req → Bool
  | .scsFaceGradOp | .scsShiftedFaceGradOp | .femFaceGradOp => true
  | _ => false
/-- `needDeriv`. -/
def aDeriv : Req → Bool
  | .scsGradOp | .scsShiftedGradOp | .scsGij => true
  | _ => false
/-- `needDerivScv`. -/
def aDerivScv : Req → Bool
  | .scvGradOp | .scvShiftedGradOp => true
  | _ => false
/-- `needDetjFC`. -/
def aDetjFC : Req → Bool
  | .scsFaceGradOp | .scsShiftedFaceGradOp | .femFaceGradOp | .femFaceDetJ => true
  | _ => false
/-- `needDetj`. -/
def aDetj : Req → Bool
  | .scsGradOp | .scsShiftedGradOp => true
  | _ => false
/-- `needDetjScv`. -/
def aDetjScv : Req → Bool
  | .scvGradOp | .scvShiftedGradOp => true
  | _ => false
/-- `needDerivFem`. -/
def aDerivFem : Req → Bool
  | .femGradOp | .femShiftedGradOp | .femDetJ | .femNormal | .femGij => true
  | _ => false
/-- `needDetjFem`. -/
def aDetjFem : Req → Bool
  | .femGradOp | .femShiftedGradOp | .femDetJ => true
  | _ => false

/-- `n` scalars if some request sets the flag. -/
def flagged (rs : List Req) (f : Req → Bool) (n : ℕ) : ℕ := if rs.any f then n else 0

/-- Scalars `create_master_element_views` takes from scratch memory for one kind of coordinates
(ScratchViews.h:196-398). -/
def allocMe (s : Sizes) (rs : List Req) : ℕ :=
  (rs.map (allocReq s)).sum
  + flagged rs aDerivFC (s.numFaceIp * s.nodesPerFace * s.nDim)
  + flagged rs aDeriv (s.numScsIp * s.nodesPerElem * s.nDim)
  + flagged rs aDerivScv (s.numScvIp * s.nodesPerElem * s.nDim)
  + flagged rs aDetjFC s.numFaceIp
  + flagged rs aDetj s.numScsIp
  + flagged rs aDetjScv s.numScvIp
  + flagged rs aDerivFem (s.numFemIp * s.nodesPerElem * s.nDim)
  + flagged rs aDetjFem s.numFemIp

/-- The value `create_master_element_views` returns (it also counts `needDerivFCElem`, lines 344-346). -/
def trackedMe (s : Sizes) (rs : List Req) : ℕ :=
  allocMe s rs + flagged rs aDerivFCElem (s.numFaceIp * s.nodesPerElem * s.nDim)

/-- Which of the two `get_num_scalars_pre_req_data`: the one for plain element (or face) loops or the one that
takes a `ScratchMeInfo`. -/
inductive Variant
  | plain | withInfo
  deriving DecidableEq

/-- Scalars counted in the `switch` of `get_num_scalars_pre_req_data` (ScratchViews.C:146-226, 308-387), `npe` is
`nodesPerEntity`. -/
def countReq (s : Sizes) (npe : ℕ) : Req → ℕ
  | .fcAreav => s.nDim * s.numFaceIp
  | .scsAreav => s.nDim * s.numScsIp
  | .scsFaceGradOp => npe * s.numFaceIp * s.nDim
  | .scsShiftedFaceGradOp => npe * s.numFaceIp * s.nDim
  | .scsGradOp => npe * s.numScsIp * s.nDim
  | .scsShiftedGradOp => npe * s.numScsIp * s.nDim
  | .scvVolume => s.numScvIp
  | .scvGradOp => npe * s.numScvIp * s.nDim
  | .scvShiftedGradOp => npe * s.numScvIp * s.nDim
  | .scsGij => s.nDim * s.nDim * s.numScsIp + s.nDim * s.nDim * s.numScsIp
  | .femGradOp => npe * s.numFemIp * s.nDim
  | .femShiftedGradOp => npe * s.numFemIp * s.nDim
  | .femDetJ => 0
  | .femNormal => s.nDim * s.numFemIp
  | .femFaceGradOp => npe * s.numFaceIp * s.nDim
  | .femFaceDetJ => 0
  | .femFaceNormal => s.nDim * s.numFaceIp
  | .femGij => s.nDim * s.nDim * s.numFemIp + s.nDim * s.nDim * s.numFemIp

/-- `needDerivFC` in the count; FEM_FACE_GRAD_OP sets it only in the second variant (ScratchViews.C:367). -/
def cDerivFC (v : Variant) : Req → Bool
  | .femFaceDetJ | .femFaceNormal => true
  | .femFaceGradOp => v == .withInfo
  | _ => false
/-- `needDerivFCElem`; FEM_FACE_GRAD_OP sets it only in the first variant (ScratchViews.C:204). -/
def cDerivFCElem (v : Variant) : Req → Bool
  | .scsFaceGradOp | .scsShiftedFaceGradOp => true
  | .femFaceGradOp => v == .plain
  | _ => false
/-- `needDeriv`. -/
def cDeriv : Req → Bool
  | .scsGradOp | .scsShiftedGradOp | .scsGij => true
  | _ => false
/-- `needDerivScv`. -/
def cDerivScv : Req → Bool
  | .scvGradOp | .scvShiftedGradOp => true
  | _ => false
/-- `needDetjFC`. -/
def cDetjFC : Req → Bool
  | .scsFaceGradOp | .scsShiftedFaceGradOp | .femFaceGradOp | .femFaceDetJ | .femFaceNormal => true
  | _ => false
/-- `needDetj`. -/
def cDetj : Req → Bool
  | .scsGradOp | .scsShiftedGradOp => true
  | _ => false
/-- `needDetjScv`. -/
def cDetjScv : Req → Bool
  | .scvGradOp | .scvShiftedGradOp => true
  | _ => false
/-- `needDerivFem`. -/
def cDerivFem : Req → Bool
  | .femGradOp | .femShiftedGradOp | .femDetJ | .femNormal | .femGij => true
  | _ => false
/-- `needDetjFem`; FEM_NORMAL sets it only in the first variant (ScratchViews.C:200). -/
def cDetjFem (v : Variant) : Req → Bool
  | .femGradOp | .femShiftedGradOp | .femDetJ => true
  | .femNormal => v == .plain
  | _ => false

/-- The scalars counted for one kind of coordinates (ScratchViews.C:132-259, 294-419). -/
def countMe (v : Variant) (s : Sizes) (npe : ℕ) (rs : List Req) : ℕ :=
  (rs.map (countReq s npe)).sum
  + flagged rs (cDerivFC v) (npe * s.numFaceIp * s.nDim)
  + flagged rs (cDerivFCElem v) (npe * s.numFaceIp * s.nDim)
  + flagged rs cDeriv (npe * s.numScsIp * s.nDim)
  + flagged rs cDerivScv (npe * s.numScvIp * s.nDim)
  + flagged rs cDetjFC s.numFaceIp
  + flagged rs cDetj s.numScsIp
  + flagged rs cDetjScv s.numScvIp
  + flagged rs cDerivFem (npe * s.numFemIp * s.nDim)
  + flagged rs (cDetjFem v) s.numFemIp

/-- A requested field: whether it lives on nodes, and its two dimensions (`scalarsDim2 = 0`: not a tensor). -/
structure FieldInfo where
  nodal : Bool
  dim1 : ℕ
  dim2 : ℕ
  deriving DecidableEq

/-- `create_needed_field_views` (ScratchViews.h:600-641): the extents of the view allocated. -/
def createdShape (npe : ℕ) (f : FieldInfo) : List ℕ :=
  if f.nodal then
    if f.dim2 = 0 then (if f.dim1 = 1 then [npe] else [npe, f.dim1]) else [npe, f.dim1, f.dim2]
  else
    if f.dim2 = 0 then [f.dim1] else [f.dim1, f.dim2]

/-- The number of dimensions of the view `fill_pre_req_data` casts to (ScratchViews.C:443-481). -/
def filledDim (f : FieldInfo) : ℕ :=
  if f.nodal then (if 1 < f.dim2 then 3 else if f.dim1 = 1 then 1 else 2)
  else if 1 < f.dim2 then 2 else 1

/-- Scalars taken for a field. -/
def allocField (npe : ℕ) (f : FieldInfo) : ℕ := (createdShape npe f).prod

/-- Scalars counted for a field (ScratchViews.C:117-129). -/
def countField (npe : ℕ) (f : FieldInfo) : ℕ :=
  (if f.nodal then npe else 1) * (if 1 < f.dim2 then f.dim1 * f.dim2 else f.dim1)

/-- All scalars of a `ScratchViews` object: fields, and the master-element views of each kind of coordinates. -/
def allocScalars (s : Sizes) (gatherSize : ℕ) (fields : List FieldInfo) (reqs : List (List Req)) : ℕ :=
  (fields.map (allocField gatherSize)).sum + (reqs.map (allocMe s)).sum

/-- `get_num_scalars_pre_req_data` (both variants): with 8 scalars of padding (ScratchViews.C:262, 421). -/
def countScalars (v : Variant) (s : Sizes) (npe : ℕ) (fields : List FieldInfo) (reqs : List (List Req)) : ℕ :=
  (fields.map (countField npe)).sum + (reqs.map (countMe v s npe)).sum + 8

/-- A block of scratch memory starts at a multiple of 8 bytes. -/
def align8 (n : ℕ) : ℕ := (n + 7) / 8 * 8

/-- Bytes taken by `SharedMemData` (SharedMemData.h:24-42): one `ScratchViews<DoubleType>`, `simdLen`
`ScratchViews<double>`, the local systems and two integer arrays. -/
def sharedMemBytes (L rhs alloc : ℕ) : ℕ :=
  8 * L * alloc + L * (8 * alloc) + 8 * L * rhs + 8 * L * (rhs * rhs) + 8 * rhs + 8 * (rhs * rhs)
    + align8 (4 * rhs) + align8 (4 * rhs)

/-- Bytes requested from Kokkos: `calculate_shared_mem_bytes_per_thread` (ScratchViews.h:716-724) with
`lhsSize = rhsSize*rhsSize`, `scratchIdsSize = rhsSize`. -/
def requestedBytes (L rhs count : ℕ) : ℕ :=
  ((rhs + rhs * rhs) * 8 + 2 * rhs * 4 + 8 * count) * (2 * L)

/-! ## Which views a request fills -/

/-- The views `fill_master_element_views_new_me` writes for a request (ScratchViews.h:473-575); `none`: it
throws. -/
def fillsNew : Req → Option (List MeView)
  | .fcAreav => none
  | .scsAreav => some [.scs_areav]
  | .scsFaceGradOp => some [.dndx_fc_elem]
  | .scsShiftedFaceGradOp => some [.dndx_shifted_fc_elem]
  | .scsGradOp => some [.dndx, .deriv]
  | .scsShiftedGradOp => some [.dndx_shifted, .deriv]
  | .scsGij => some [.gijUpper, .gijLower, .deriv]
  | .scvVolume => some [.scv_volume]
  | .scvGradOp => some [.dndx_scv, .deriv_scv]
  | .scvShiftedGradOp => some [.dndx_scv_shifted, .deriv_scv]
  | .femGradOp => some [.dndx_fem, .deriv_fem, .det_j_fem]
  | .femShiftedGradOp => some [.dndx_fem, .deriv_fem, .det_j_fem]
  | .femDetJ => some [.deriv_fem, .det_j_fem]
  | .femNormal => some [.deriv_fem, .normal_fem]
  | .femFaceNormal => some [.deriv_fc, .normal_fc_fem]
  | .femFaceGradOp => some [.dndx_fc_elem, .det_j_fc]
  | .femFaceDetJ => some [.deriv_fc, .det_j_fc]
  | .femGij => some [.gijUpper, .gijLower, .deriv_fem]

/-- The views the non-SIMD `fill_master_element_views` writes (ScratchViews.h:400-459); `none`: it throws. -/
def fillsOld : Req → Option (List MeView)
  | .scsAreav => some [.scs_areav]
  | .scsGradOp => some [.dndx, .deriv, .det_j]
  | .scsShiftedGradOp => some [.dndx_shifted, .deriv, .det_j]
  | .scsGij => some [.gijUpper, .gijLower, .deriv]
  | .scvVolume => some [.scv_volume]
  | .scvGradOp => some [.dndx_scv, .deriv_scv, .det_j_scv]
  | .femGradOp => some [.dndx_fem, .deriv_fem, .det_j_fem]
  | .femShiftedGradOp => some [.dndx_fem, .deriv_fem, .det_j_fem]
  | _ => none

/-- `interleave_me_views`, CopyAndInterleave.h:133-150. -/
def interleaved : MeView → Bool
  | .scs_areav | .dndx | .dndx_scv | .dndx_shifted | .dndx_fem | .deriv | .deriv_fem | .det_j | .det_j_fem
  | .scv_volume | .gijUpper | .gijLower => true
  | _ => false

/-- The views `create_master_element_views` allocates for one request alone. -/
def createdViews : Req → List MeView
  | .fcAreav => [.fc_areav]
  | .scsAreav => [.scs_areav]
  | .scsFaceGradOp => [.dndx_fc_elem, .det_j_fc]
  | .scsShiftedFaceGradOp => [.dndx_shifted_fc_elem, .det_j_fc]
  | .scsGradOp => [.dndx, .deriv, .det_j]
  | .scsShiftedGradOp => [.dndx_shifted, .deriv, .det_j]
  | .scsGij => [.gijUpper, .gijLower, .deriv]
  | .scvVolume => [.scv_volume]
  | .scvGradOp => [.dndx_scv, .deriv_scv, .det_j_scv]
  | .scvShiftedGradOp => [.dndx_scv_shifted, .deriv_scv, .det_j_scv]
  | .femGradOp => [.dndx_fem, .deriv_fem, .det_j_fem]
  | .femShiftedGradOp => [.dndx_fem, .deriv_fem, .det_j_fem]
  | .femDetJ => [.deriv_fem, .det_j_fem]
  | .femNormal => [.normal_fem, .deriv_fem]
  | .femFaceNormal => [.normal_fc_fem, .deriv_fc]
  | .femFaceGradOp => [.dndx_fc_elem, .det_j_fc]
  | .femFaceDetJ => [.deriv_fc, .det_j_fc]
  | .femGij => [.gijUpper, .gijLower, .deriv_fem]

/-! ## Registration of fields -/

/-- A call to `add_gathered_nodal_field` / `add_element_field` (`tensor = none`: the overload without a second
dimension). -/
structure FieldReq where
  field : ℕ
  dim1 : ℕ
  dim2 : Option ℕ
  deriving DecidableEq

/-- The set of fields: for each field ordinal the stored dimensions. -/
abbrev FieldSet := ℕ → Option (ℕ × ℕ)

/-- `add_gathered_nodal_field`, `add_ip_field` (ElemDataRequests.C:13-95); `none`: it throws. -/
def addField (fs : FieldSet) (r : FieldReq) : Option FieldSet :=
  match fs r.field with
  | none => some (fun k => if k = r.field then some (r.dim1, r.dim2.getD 0) else fs k)
  | some (d1, d2) =>
    match r.dim2 with
    | none => if d1 = r.dim1 then some fs else none
    | some t => if d1 = r.dim1 ∧ d2 = t then some fs else none

/-- All registrations in order. -/
def addFields : FieldSet → List FieldReq → Option FieldSet
  | fs, [] => some fs
  | fs, r :: rs => match addField fs r with
    | none => none
    | some fs' => addFields fs' rs

end Nalu.Loop
