import Mathlib.Data.List.Basic
import Mathlib.Data.Finset.Basic

/-!
# Element kernels and master elements: selection, bookkeeping, sizes

Models /repo/include/kernel/KernelBuilder.h, /repo/src/kernel/KernelBuilderLog.C, `report_invalid_supp_alg_names` and `supp_alg_is_requested`
(/repo/src/EquationSystem.C:439-475), the use of them in the interior algorithms (e.g. /repo/src/MixtureFractionEquationSystem.C:361-420),
/repo/src/master_element/MasterElementFactory.C and the sizes in /repo/include/AlgTraits.h and in the constructors of the master elements.

A kernel is the name under which it is offered; what it computes is the subject of the other modules.  Not modelled: output, the constructor arguments.
-/

namespace Nalu.KernelBuild

/-- `stk::topology` values that the code distinguishes; `other` stands for all the rest. -/
inductive Topo
  | hex8 | hex27 | tet4 | tet10 | pyr5 | wed6 | quad4_2d | quad9_2d | tri3_2d
  | quad4 | quad9 | tri3 | tri6 | line2 | line3 | shellQuad4 | shellTri3 | beam2 | other (n : ℕ)
  deriving DecidableEq

/-! ## Selection of the kernels of an equation -/

/-- `KernelBuilderLog` (a singleton shared by all equations and realms): the valid names per equation type. -/
abbrev Log := List (String × String)

/-- `elemSrcTermsMap_`: the names the user lists per equation type. -/
abbrev Requests := String → Option (List String)

/-- `supp_alg_is_requested` (EquationSystem.C:462-475). -/
def requested (req : Requests) (e name : String) : Bool :=
  match req e with
  | none => false
  | some l => decide (name ∈ l)

/-- Topologies for which `build_topo_kernel` returns a kernel (KernelBuilder.h:45-66). -/
def interiorTopo : Topo → Bool
  | .hex8 | .hex27 | .tet4 | .pyr5 | .wed6 | .quad4_2d | .quad9_2d | .tri3_2d => true
  | _ => false

/-- Topologies for which `build_fem_topo_kernel` returns a kernel (KernelBuilder.h:31-42). -/
def femTopo : Topo → Bool
  | .hex8 | .tet10 => true
  | _ => false

/-- `build_topo_kernel_if_requested` for a list of offers (KernelBuilder.h:164-186): each offer is logged as valid, and a kernel is appended if the
name is requested; `none` = `STK_ThrowRequire` on a null kernel. -/
def offerAll (req : Requests) (e : String) (ok : Bool) : List String → Log → List String → Option (Log × List String)
  | [], log, ks => some (log, ks)
  | n :: r, log, ks =>
    let log := (e, n) :: log
    if requested req e n then
      if ok then offerAll req e ok r log (ks ++ [n]) else none
    else offerAll req e ok r log ks

/-- `print_invalid_kernel_names` (KernelBuilderLog.C:37-66): the result is `isOK`; without an entry for the equation it is `false`. -/
def namesOk (req : Requests) (e : String) (log : Log) : Bool :=
  match req e with
  | none => false
  | some l => l.all fun n => decide ((e, n) ∈ log)

/-- An `AssembleElemSolverAlgorithm` of the equation: its topology, its parts and its `activeKernels_`. -/
structure Alg where
  topo : Topo
  parts : List ℕ
  kernels : List String

/-- State of an equation during the registration of the interior parts: `solverAlgorithmMap_` and the log. -/
structure St where
  algs : List Alg
  log : Log

/-- `build_or_add_part_to_solver_alg` for an algorithm that exists (KernelBuilder.h:318-323). -/
def addPart (t : Topo) (p : ℕ) (a : Alg) : Alg :=
  if a.topo = t ∧ p ∉ a.parts then { a with parts := a.parts ++ [p] } else a

/-- `register_interior_algorithm` of a part with consolidated kernels: find or create the algorithm of the part's topology; if it is new, offer the
kernels and check the names (MixtureFractionEquationSystem.C:366-420). -/
def registerPart (req : Requests) (e : String) (supported : Topo → Bool) (offers : List String) (st : St) (p : ℕ) (t : Topo) : Option St :=
  if st.algs.any (fun a => a.topo = t) then some { st with algs := st.algs.map (addPart t p) }
  else match offerAll req e (supported t) offers st.log [] with
    | none => none
    | some (log, ks) => if namesOk req e log then some ⟨st.algs ++ [⟨t, [p], ks⟩], log⟩ else none

/-- The loop over the target parts. -/
def registerAll (req : Requests) (e : String) (supported : Topo → Bool) (offers : List String) : St → List (ℕ × Topo) → Option St
  | st, [] => some st
  | st, (p, t) :: r => match registerPart req e supported offers st p t with
    | none => none
    | some st => registerAll req e supported offers st r

/-! ## The repository of master elements -/

/-- `create_surface_master_element` succeeds (MasterElementFactory.C:41-104). -/
def surfaceOk : Topo → Bool
  | .hex8 | .hex27 | .tet4 | .pyr5 | .wed6 | .quad4 | .quad9 | .tri3 | .quad4_2d | .quad9_2d | .tri3_2d | .line2 | .line3
  | .shellQuad4 | .shellTri3 | .beam2 => true
  | _ => false

/-- `create_volume_master_element` succeeds (MasterElementFactory.C:106-143). -/
def volumeOk : Topo → Bool
  | .hex8 | .hex27 | .tet4 | .pyr5 | .wed6 | .quad4_2d | .quad9_2d | .tri3_2d => true
  | _ => false

/-- `create_fem_master_element` succeeds (MasterElementFactory.C:146-166). -/
def femOk : Topo → Bool
  | .hex8 | .tet10 | .tri6 => true
  | _ => false

/-- Which of the three maps of `MasterElementRepo`. -/
inductive Which | surface | volume | fem
  deriving DecidableEq

/-- The factory for a map. -/
def creates : Which → Topo → Bool
  | .surface => surfaceOk
  | .volume => volumeOk
  | .fem => femOk

/-- `MasterElementRepo`: the three maps (`some none` = a null pointer is stored) and the address of the next object. -/
structure Repo where
  map : Which → Topo → Option (Option ℕ)
  next : ℕ

/-- The empty repository. -/
def Repo.init : Repo := ⟨fun _ _ => none, 0⟩

/-- `get_{surface,volume,fem}_master_element` (MasterElementFactory.C:170-210): the first component is the pointer returned, `none` = `STK_ThrowRequire`
fails. -/
def Repo.get (s : Repo) (w : Which) (t : Topo) : Option ℕ × Repo :=
  match s.map w t with
  | some v => (v, s)
  | none =>
    if creates w t then
      (some s.next, ⟨fun w' t' => if w' = w ∧ t' = t then some (some s.next) else s.map w' t', s.next + 1⟩)
    else (none, ⟨fun w' t' => if w' = w ∧ t' = t then some none else s.map w' t', s.next⟩)

/-- `MasterElementRepo::clear` (MasterElementFactory.C:212-217). -/
def Repo.clear (s : Repo) : Repo := ⟨fun _ _ => none, s.next⟩

/-- Uses of the repository. -/
inductive Op
  | get (w : Which) (t : Topo)
  | clear

/-- One use. -/
def Repo.op (s : Repo) : Op → Repo
  | .get w t => (s.get w t).2
  | .clear => s.clear

/-- A history of uses. -/
def Repo.ops (s : Repo) (l : List Op) : Repo := l.foldl Repo.op s

/-! ## Sizes -/

/-- Dimension, nodes and integration points of a master element. -/
structure Size where
  nDim : ℕ
  nodes : ℕ
  ips : ℕ
  deriving DecidableEq

/-- What the constructors of the surface (SCS) elements set (Hex8CVFEM.C:258-260, Hex27CVFEM.C:31-32, 893, 1867-1878, Tet4CVFEM.C:324-326,
Pyr5CVFEM.C:640-642, Wed6CVFEM.C:381-383, Quad42DCVFEM.C:330-332, MasterElement.C:94-95, 613-615, 901-903, 1097-1102, Quad92DCVFEM.C:344,
Tri32DCVFEM.C:355-357, Quad43DCVFEM.C:24-26). -/
def surfaceSize : Topo → Option Size
  | .hex8 => some ⟨3, 8, 12⟩
  | .hex27 => some ⟨3, 27, 6 * 36⟩
  | .tet4 => some ⟨3, 4, 6⟩
  | .pyr5 => some ⟨3, 5, 12⟩
  | .wed6 => some ⟨3, 6, 9⟩
  | .quad4_2d => some ⟨2, 4, 4⟩
  | .quad9_2d => some ⟨2, 9, 4 * 6⟩
  | .tri3_2d => some ⟨2, 3, 3⟩
  | .quad4 => some ⟨3, 4, 4⟩
  | .quad9 => some ⟨3, 9, 36⟩
  | .tri3 => some ⟨3, 3, 3⟩
  | .line2 => some ⟨2, 2, 2⟩
  | .line3 => some ⟨2, 3, 6⟩
  | .shellQuad4 => some ⟨3, 4, 4⟩
  | .shellTri3 => some ⟨3, 3, 3⟩
  | .beam2 => some ⟨2, 2, 2⟩
  | _ => none

/-- What the constructors of the volume (SCV) elements set (Hex8CVFEM.C:78-80, Hex27CVFEM.C:663, Tet4CVFEM.C:62-64, Pyr5CVFEM.C:211-213,
Wed6CVFEM.C:108-110, Quad42DCVFEM.C:104-106, Quad92DCVFEM.C:104, Tri32DCVFEM.C:98-100). -/
def volumeSize : Topo → Option Size
  | .hex8 => some ⟨3, 8, 8⟩
  | .hex27 => some ⟨3, 27, 27 * 8⟩
  | .tet4 => some ⟨3, 4, 4⟩
  | .pyr5 => some ⟨3, 5, 5⟩
  | .wed6 => some ⟨3, 6, 6⟩
  | .quad4_2d => some ⟨2, 4, 4⟩
  | .quad9_2d => some ⟨2, 9, 9 * 4⟩
  | .tri3_2d => some ⟨2, 3, 3⟩
  | _ => none

/-- What the constructors of the finite elements set (Hex8FEM.C:29-31, Tet10FEM.C:79-127, Tri6FEM.C:49-51). -/
def femSize : Topo → Option Size
  | .hex8 => some ⟨3, 8, 8⟩
  | .tet10 => some ⟨3, 10, 16⟩
  | .tri6 => some ⟨3, 6, 7⟩
  | _ => none

/-- Element traits: the sizes kernels are compiled for (AlgTraits.h:18-97). -/
structure Traits where
  nDim : ℕ
  nodes : ℕ
  scsIp : ℕ
  scvIp : ℕ
  gp : ℕ
  topo : Topo

/-- The traits `build_topo_kernel` and `build_fem_topo_kernel` instantiate for a topology (KernelBuilder.h:31-66, AlgTraits.h:18-97). -/
def elemTraits : Topo → Option Traits
  | .hex8 => some ⟨3, 8, 12, 8, 8, .hex8⟩
  | .hex27 => some ⟨3, 27, 216, 216, 27, .hex27⟩
  | .tet4 => some ⟨3, 4, 6, 4, 4, .tet4⟩
  | .tet10 => some ⟨3, 10, 16, 16, 16, .tet10⟩
  | .pyr5 => some ⟨3, 5, 12, 5, 5, .pyr5⟩
  | .wed6 => some ⟨3, 6, 9, 6, 6, .wed6⟩
  | .quad4_2d => some ⟨2, 4, 4, 4, 4, .quad4_2d⟩
  | .quad9_2d => some ⟨2, 9, 24, 36, 9, .quad9_2d⟩
  | .tri3_2d => some ⟨2, 3, 3, 3, 3, .tri3_2d⟩
  | _ => none

/-- Face traits (AlgTraits.h:110-167): nodes and face integration points. -/
structure FaceTraits where
  nDim : ℕ
  nodes : ℕ
  faceIp : ℕ
  topo : Topo

/-- The traits of a face topology (AlgTraits.h:110-167). -/
def faceTraits : Topo → Option FaceTraits
  | .quad4 => some ⟨3, 4, 4, .quad4⟩
  | .quad9 => some ⟨3, 9, 36, .quad9⟩
  | .tri3 => some ⟨3, 3, 3, .tri3⟩
  | .tri6 => some ⟨3, 6, 7, .tri6⟩
  | .line2 => some ⟨2, 2, 2, .line2⟩
  | .line3 => some ⟨2, 3, 6, .line3⟩
  | _ => none

/-- `build_face_elem_topo_kernel` and `build_fem_face_elem_topo_kernel` (KernelBuilder.h:69-132): the face and element traits a boundary kernel is
compiled for; `none` = error. -/
def faceElemTraits : Topo → Topo → Option (Topo × Topo)
  | .quad4, .hex8 => some (.quad4, .hex8)
  | .quad4, .pyr5 => some (.quad4, .pyr5)
  | .quad4, .wed6 => some (.quad4, .wed6)
  | .quad4, _ => none
  | .quad9, _ => some (.quad9, .hex27)
  | .tri3, .tet4 => some (.tri3, .tet4)
  | .tri3, .pyr5 => some (.tri3, .pyr5)
  | .tri3, .wed6 => some (.tri3, .wed6)
  | .tri3, _ => none
  | .line2, .tri3_2d => some (.line2, .tri3_2d)
  | .line2, _ => some (.line2, .quad4_2d)
  | .line3, _ => some (.line3, .quad9_2d)
  | .tri6, .tet10 => some (.tri6, .tet10)
  | _, _ => none

end Nalu.KernelBuild
