import Verif.Model.ElemKernel

/-!
# Model: elastic mesh deformation

`MeshDisplacementElasticElemKernel.C`, `MeshDisplacementSimplifiedNeohookeanElemKernel.C`,
`MeshDisplacementMassElemKernel.C`, `AssemblePressureForceBCSolverAlgorithm.C` and
`MeshDisplacementEquationSystem.C`.  `double` is a field `K`; the kernels get the area vectors and gradient operators of
their element as data (of the model or the current coordinates, whichever the code requests).
-/

namespace Nalu.MeshDisp
open Nalu.Edge Nalu.Kernel

variable {K : Type*} [Field K] {nn nip nf nd : ℕ}

/-- The four statements with which all stress terms are scattered: `lhs(indexL,col) += f; lhs(indexR,col) -= f;
rhs(indexL) -= f*q; rhs(indexR) += f*q` (for example MeshDisplacementElasticElemKernel.C:143-147). -/
def scatter {ι : Type*} [DecidableEq ι] (s : LocalSys ι K) (L R col : ι) (f q : K) : LocalSys ι K :=
  addR (addR (addL (addL s L col f) R col (-f)) L (-(f * q))) R (f * q)

/-- `kd` (MeshDisplacementElasticElemKernel.C:88-95). -/
def kd (i j : Fin nd) : K := if i = j then 1 else 0

/-- The `ic`, `i` body of the stress loop (MeshDisplacementElasticElemKernel.C:126-169). -/
def elasticBody (mu lambda : K) (g : Fin nd → K) (a : Fin nd → K) (il ir ic : Fin nn) (u : Fin nd → K) (i : Fin nd)
    (s : LocalSys (Fin nn × Fin nd) K) : LocalSys (Fin nn × Fin nd) K :=
  let lhs_riC_i := ∑ j, -mu * g j * a j
  let s := loop nd (fun j s =>
    let s := scatter s (il, i) (ir, i) (ic, j) (-mu * g i * a j) (u j)
    loop nd (fun l s => scatter s (il, i) (ir, i) (ic, l) (-lambda * kd i j * g l * a j) (u l)) s) s
  scatter s (il, i) (ir, i) (ic, i) lhs_riC_i (u i)

/-- `MeshDisplacementElasticElemKernel::execute` (MeshDisplacementElasticElemKernel.C:75-177). -/
def elastic (e : Scs nn nip nd K) (mu lambda : Fin nn → K) (u : Fin nn → Fin nd → K)
    (s : LocalSys (Fin nn × Fin nd) K) : LocalSys (Fin nn × Fin nd) K :=
  loop nip (fun ip s =>
    let muIp := interp (e.shape ip) mu
    let lambdaIp := interp (e.shape ip) lambda
    loop nn (fun ic s =>
      loop nd (fun i s => elasticBody muIp lambdaIp (e.dndx ip ic) (e.area ip) (e.il ip) (e.ir ip) ic (u ic) i s) s) s) s

/-- `gradTens` (MeshDisplacementSimplifiedNeohookeanElemKernel.C:124-141). -/
def gradTens (g : Fin nn → Fin nd → K) (u : Fin nn → Fin nd → K) (i j : Fin nd) : K :=
  (∑ ic, g ic j * u ic i) + kd i j

/-- `Iconst` (MeshDisplacementSimplifiedNeohookeanElemKernel.C:143-152): the sum over all squared entries, in two or three
dimensions. -/
def iConst (F : Fin nd → Fin nd → K) : K := ∑ i, ∑ r, F r i * F r i

/-- `J` in three dimensions (MeshDisplacementSimplifiedNeohookeanElemKernel.C:155-157). -/
def det3 (F : Fin 3 → Fin 3 → K) : K :=
  F 0 0 * (F 1 1 * F 2 2 - F 2 1 * F 1 2) - F 0 1 * (F 1 0 * F 2 2 - F 2 0 * F 1 2)
    + F 0 2 * (F 1 0 * F 2 1 - F 2 0 * F 1 1)

/-- `J` in two dimensions (MeshDisplacementSimplifiedNeohookeanElemKernel.C:158). -/
def det2 (F : Fin 2 → Fin 2 → K) : K := F 0 0 * F 1 1 - F 1 0 * F 0 1

/-- `beta` (MeshDisplacementSimplifiedNeohookeanElemKernel.C:154). -/
def beta (F : Fin nd → Fin nd → K) : K := 1 - 1 / (1 + iConst F)

/-- The `ic`, `i` body of the stress loop (MeshDisplacementSimplifiedNeohookeanElemKernel.C:161-204). -/
def neoBody (mu J : K) (F : Fin nd → Fin nd → K) (g : Fin nd → K) (a : Fin nd → K) (il ir ic : Fin nn) (u : Fin nd → K)
    (i : Fin nd) (s : LocalSys (Fin nn × Fin nd) K) : LocalSys (Fin nn × Fin nd) K :=
  let lhs_riC_i := ∑ j, -(mu * beta F / J) * g j * a j
  let s := loop nd (fun j s =>
    let s := loop nd (fun k s =>
      scatter s (il, i) (ir, i) (ic, j) (-(mu * beta F) * (F i k / J) * g k * a j) (u j)) s
    scatter s (il, i) (ir, i) (ic, j) (-(mu * beta F / J) * g i * a j) (u j)) s
  scatter s (il, i) (ir, i) (ic, i) lhs_riC_i (u i)

/-- The explicit part of the stress (MeshDisplacementSimplifiedNeohookeanElemKernel.C:206-214). -/
def neoExplicit (mu lambda J : K) (F : Fin nd → Fin nd → K) (a : Fin nd → K) (il ir : Fin nn)
    (s : LocalSys (Fin nn × Fin nd) K) : LocalSys (Fin nn × Fin nd) K :=
  loop nd (fun i s => loop nd (fun j s =>
    let v := lambda * kd i j * a j * (J - (1 + 3 / 4 * mu / lambda)) + mu * beta F / J * kd i j * a j
    addR (addR s (il, i) v) (ir, i) (-v)) s) s

/-- `MeshDisplacementSimplifiedNeohookeanElemKernel::execute`
(MeshDisplacementSimplifiedNeohookeanElemKernel.C:75-219); `det` is `det3` or `det2`. -/
def neohookean (det : (Fin nd → Fin nd → K) → K) (e : Scs nn nip nd K) (mu lambda : Fin nn → K) (u : Fin nn → Fin nd → K)
    (s : LocalSys (Fin nn × Fin nd) K) : LocalSys (Fin nn × Fin nd) K :=
  loop nip (fun ip s =>
    let muIp := interp (e.shape ip) mu
    let lambdaIp := interp (e.shape ip) lambda
    let F := gradTens (e.dndx ip) u
    let s := loop nn (fun ic s => loop nd (fun i s =>
      neoBody muIp (det F) F (e.dndx ip ic) (e.area ip) (e.il ip) (e.ir ip) ic (u ic) i s) s) s
    neoExplicit muIp lambdaIp (det F) F (e.area ip) (e.il ip) (e.ir ip) s) s

/-- `gamma_1_`, `gamma_2_`, `gamma_3_` (MeshDisplacementMassElemKernel.C:78-87). -/
def massGamma (dt dtNm1 : K) : K × K × K :=
  let dtAvg := 1 / 2 * dt + dtNm1
  (1 / (dt * dtAvg), -1 / (dt * dtAvg) - 1 / (dtNm1 * dtAvg), 1 / (dtNm1 * dtAvg))

/-- `MeshDisplacementMassElemKernel::execute` (MeshDisplacementMassElemKernel.C:89-153). -/
def mass (dt dtNm1 : K) (e : Scv nn nip K) (rho : Fin nn → K) (uNp1 uN uNm1 : Fin nn → Fin nd → K)
    (s : LocalSys (Fin nn × Fin nd) K) : LocalSys (Fin nn × Fin nd) K :=
  let γ := massGamma dt dtNm1
  loop nip (fun ip s =>
    let n := e.node ip
    let rhoIp := interp (e.shape ip) rho
    let s := loop nn (fun ic s => loop nd (fun j s =>
      addL s (n, j) (ic, j) (rhoIp * e.shape ip ic * γ.1 * e.vol ip)) s) s
    loop nd (fun j s => addR s (n, j) (-(rhoIp * (γ.1 * coordIp (e.shape ip) uNp1 j + γ.2.1 * coordIp (e.shape ip) uN j
      + γ.2.2 * coordIp (e.shape ip) uNm1 j) * e.vol ip))) s) s

/-- The displacement at `NM1` that the kernel and the mesh velocity use: with two states that of `N`
(MeshDisplacementMassElemKernel.C:42-43, MeshDisplacementEquationSystem.C:567-569). -/
def oldState {V : Type*} (numStates : ℕ) (uN uNm1 : V) : V := if numStates = 2 then uN else uNm1

/-- One face of `AssemblePressureForceBCSolverAlgorithm::execute` (AssemblePressureForceBCSolverAlgorithm.C:205-227): local
arrays zeroed, then the loop over the face nodes; `near ip` is `face_node_ordinals[ip]`. -/
def pressureFace (shape : Fin nf → Fin nf → K) (p : Fin nf → K) (area : Fin nf → Fin nd → K) (near : Fin nf → Fin nn) :
    LocalSys (Fin nn × Fin nd) K :=
  loop nf (fun ip s =>
    let fluxBip := interp (shape ip) p
    loop nd (fun i s => addR s (near ip, i) (-(fluxBip * area ip i))) s) ⟨fun _ _ => 0, fun _ => 0⟩

/-! ## The equation system -/

/-- The nodal fields of the equation system at one node. -/
structure NodeSt (nd : ℕ) (K : Type*) where
  x0 : Fin nd → K
  dNp1 : Fin nd → K
  dN : Fin nd → K
  dNm1 : Fin nd → K
  x : Fin nd → K
  v : Fin nd → K

/-- `predict_state` (MeshDisplacementEquationSystem.C:503-510). -/
def predict (s : NodeSt nd K) : NodeSt nd K := { s with dNp1 := s.dN }

/-- `compute_current_coordinates` (MeshDisplacementEquationSystem.C:558-603). -/
def currentCoordinates (numStates : ℕ) (g1 g2 g3 dt : K) (s : NodeSt nd K) : NodeSt nd K :=
  { s with
    x := fun j => s.x0 j + s.dNp1 j
    v := fun j => (g1 * s.dNp1 j + g2 * s.dN j + g3 * oldState numStates s.dN s.dNm1 j) / dt }

/-- The iterations of `solve_and_update` (MeshDisplacementEquationSystem.C:515-548): `solve` is what `assemble_and_solve`
returns as increment at all nodes, given the fields. -/
def solveAndUpdate {N : Type*} (numStates : ℕ) (g1 g2 g3 dt : K) (solve : (N → NodeSt nd K) → N → Fin nd → K) :
    ℕ → (N → NodeSt nd K) → N → NodeSt nd K
  | 0, s => s
  | k + 1, s => solveAndUpdate numStates g1 g2 g3 dt solve k (fun n =>
      currentCoordinates numStates g1 g2 g3 dt { s n with dNp1 := fun j => 1 * solve s n j + 1 * (s n).dNp1 j })

/-- `compute_div_mesh_velocity` (MeshDisplacementEquationSystem.C:610-637); `dvdx (nd*i+j)` is `dv_i/dx_j`. -/
def divMeshVelocity (dvdx : Fin nd → Fin nd → K) : K := ∑ j, dvdx j j

/-! ## Material constants -/

/-- The property identifiers the system registers. -/
inductive PropId | density | lameMu | lameLambda
  deriving DecidableEq

/-- The fields, by name. -/
inductive FieldName | density | lame_mu | lame_lambda
  deriving DecidableEq

/-- `augment_property_map` calls of `register_nodal_fields` (MeshDisplacementEquationSystem.C:190, 199-200):
`propertyMap_[propID] = theField`. -/
def propertyMap : List (PropId × FieldName) :=
  [(.density, .density), (.lameMu, .lame_lambda), (.lameLambda, .lame_mu)]

/-- `setup_property` for constant properties (Realm.C:1043-1066): every registered field is filled with the material value of
its property id; `user id` is the value of the specification with that identifier's name (Enums.h:125-136). -/
def setupProperties (m : List (PropId × FieldName)) (user : PropId → K) (f : FieldName → K) : FieldName → K :=
  m.foldl (fun f p => Function.update f p.2 (user p.1)) f

end Nalu.MeshDisp
