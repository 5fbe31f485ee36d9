import Verif.Model.GasDynamics

/-
Order of operations, second part: finite element low Mach system, explicit gas dynamics,
temperature and properties, start-up of a run, connectivity of moving meshes.
Numerics are parameters (except the gas dynamics formulas, which are those of Model/GasDynamics).
-/
namespace Nalu.Schedule2

/-! ## the finite element low Mach pair -/

/-- Operations: pressure gradient (consistent mass projection), relative velocity, velocity
projection (LowMachFemEquationSystem.C:382-466: density, velocity, new and saved gradient). -/
structure Fem (Geo MV R U P GP : Type) where
  gradP : Geo → P → GP
  rel : MV → U → U
  proj : R → U → GP → GP → U
  addU : U → U → U
  addP : P → P → P

/-- Fields; `vrtmL`, `dpdxL` are "vrtm_lagged" and "dpdx_lagged". -/
structure FemSt (Geo MV U P GP : Type) where
  geo : Geo
  mv : MV
  u : U
  uN : U
  uNm1 : U
  p : P
  dpdx : GP
  vrtm : U
  dpdxL : GP
  vrtmL : U
  isInit : Bool

/-- What a momentum or continuity assembly reads: momentum reads the lagged pair
(MomentumAdvFemKernel.C:73-74), continuity the present one. -/
structure FemView (Geo MV R U P GP : Type) where
  geo : Geo
  mv : MV
  rho : R
  u : U
  p : P
  dpdx : GP
  vrtm : U
  dpdxL : GP
  vrtmL : U

/-- Fields read by an assembly. -/
def FemSt.view {Geo MV R U P GP : Type} (rho : R) (s : FemSt Geo MV U P GP) :
    FemView Geo MV R U P GP :=
  ⟨s.geo, s.mv, rho, s.u, s.p, s.dpdx, s.vrtm, s.dpdxL, s.vrtmL⟩

/-- copy_lagged (LowMachFemEquationSystem.C:369-377). -/
def copyLagged {Geo MV U P GP : Type} (s : FemSt Geo MV U P GP) : FemSt Geo MV U P GP :=
  { s with dpdxL := s.dpdx, vrtmL := s.vrtm }

/-- One pass (LowMachFemEquationSystem.C:313-360). -/
def femPass {Geo MV R U P GP : Type} (S : Fem Geo MV R U P GP) (rho : R)
    (a : FemSt Geo MV U P GP × List (FemView Geo MV R U P GP × FemView Geo MV R U P GP))
    (d : U × P) :
    FemSt Geo MV U P GP × List (FemView Geo MV R U P GP × FemView Geo MV R U P GP) :=
  let s := a.1
  let mom := s.view rho
  let s := { s with u := S.addU s.u d.1 }
  let s := { s with vrtm := S.rel s.mv s.u }
  let cont := s.view rho
  let s := { s with p := S.addP s.p d.2 }
  let s := copyLagged s
  let saved := s.dpdx
  let s := { s with dpdx := S.gradP s.geo s.p }
  let s := { s with u := S.proj rho s.u s.dpdx saved }
  let s := { s with vrtm := S.rel s.mv s.u }
  (s, a.2 ++ [(mom, cont)])

/-- The start of the call (LowMachFemEquationSystem.C:301-310). -/
def femEnter {Geo MV R U P GP : Type} (S : Fem Geo MV R U P GP)
    (s : FemSt Geo MV U P GP) : FemSt Geo MV U P GP :=
  if s.isInit then copyLagged { s with dpdx := S.gradP s.geo s.p, isInit := false } else s

/-- Events as for the control volume pair: time step, start of advance, solve. -/
inductive FemEv (Geo MV R U P : Type) where
  | step
  | advance (geo : Geo) (mv : MV)
  | solve (rho : R) (ds : List (U × P))

/-- One event (swap and predict: LowMachFemEquationSystem.C:962-968; compute_vrtm: Realm.C:1725). -/
def femExec {Geo MV R U P GP : Type} (S : Fem Geo MV R U P GP)
    (a : FemSt Geo MV U P GP × List (FemView Geo MV R U P GP × FemView Geo MV R U P GP)) :
    FemEv Geo MV R U P →
    FemSt Geo MV U P GP × List (FemView Geo MV R U P GP × FemView Geo MV R U P GP)
  | .step =>
      let s := a.1
      let s := { s with u := s.uNm1, uN := s.u, uNm1 := s.uN }
      ({ s with u := s.uN }, a.2)
  | .advance geo mv =>
      let s := { a.1 with geo := geo, mv := mv }
      ({ s with vrtm := S.rel s.mv s.u }, a.2)
  | .solve rho ds => ds.foldl (femPass S rho) (femEnter S a.1, a.2)

/-- A run from initial_work (LowMachFemEquationSystem.C:507-519: compute_vrtm). -/
def femRun {Geo MV R U P GP : Type} (S : Fem Geo MV R U P GP)
    (s : FemSt Geo MV U P GP) (es : List (FemEv Geo MV R U P)) :
    FemSt Geo MV U P GP × List (FemView Geo MV R U P GP × FemView Geo MV R U P GP) :=
  es.foldl (femExec S) ({ s with vrtm := S.rel s.mv s.u }, [])

/-! ## explicit gas dynamics at one node -/

/-- Constants of the gas at the node: ratio of specific heats, specific heats, molecular weight and
universal gas constant. -/
structure Gas where
  gamma : ℝ
  cp : ℝ
  cv : ℝ
  mw : ℝ
  R : ℝ

/-- The nodal fields: conserved at Np1 and N, and the auxiliary ones. -/
structure GasSt (n : ℕ) where
  rho : ℝ
  mom : Fin n → ℝ
  te : ℝ
  rhoN : ℝ
  momN : Fin n → ℝ
  teN : ℝ
  u : Fin n → ℝ
  p : ℝ
  T : ℝ
  h : ℝ
  H : ℝ
  c : ℝ
  M : ℝ

/-- compute_velocity ... compute_mach_number in the order of
GasDynamicsEquationSystem.C:882-888; each reads the fields left by the previous ones.
enthalpyAlg_ is h = cp T (lines 1026-1032). -/
noncomputable def auxUpdate {n : ℕ} (G : Gas) (s : GasSt n) : GasSt n :=
  let s := { s with u := Nalu.Gas.velocityOf s.rho s.mom }
  let s := { s with p := Nalu.Gas.pressureOf G.gamma s.rho s.te s.u }
  let s := { s with T := Nalu.Gas.temperatureOf G.cv s.rho s.te s.u }
  let s := { s with h := G.cp * s.T }
  let s := { s with H := Nalu.Gas.totalEnthalpyOf s.rho s.h s.u }
  let s := { s with c := Nalu.Gas.soundOf G.gamma s.rho s.p }
  { s with M := Nalu.Gas.machOf G.gamma s.rho s.p s.u }

/-- initial_work (GasDynamicsEquationSystem.C:141-169) at a node with given velocity, pressure and
temperature: density from the ideal gas law, momentum, enthalpies, total energy, speed of sound,
Mach number; state N is a copy of Np1. -/
noncomputable def gasInit {n : ℕ} (G : Gas) (u : Fin n → ℝ) (p T : ℝ) : GasSt n :=
  let rho := p * G.mw / (G.R * T)
  let mom := Nalu.Gas.momentumOf rho u
  let h := G.cp * T
  let H := Nalu.Gas.totalEnthalpyOf rho h u
  let te := Nalu.Gas.totalEnergyOf G.gamma rho p u
  { rho := rho, mom := mom, te := te, rhoN := rho, momN := mom, teN := te
    u := u, p := p, T := T, h := h, H := H
    c := Nalu.Gas.soundOf G.gamma rho p, M := Nalu.Gas.machOf G.gamma rho p u }

/-- Events at a node: a time step (swap of the two states, then predict_state, lines 753-768), or one
solve_and_update; `some` increments `dt/vol*rhs` at ordinary nodes, `none` at Dirichlet nodes. -/
inductive GasEv (n : ℕ) where
  | step
  | solve (d : Option (ℝ × (Fin n → ℝ) × ℝ))

/-- One event (update_gas_dynamics, lines 811-888). -/
noncomputable def gasExec {n : ℕ} (G : Gas) (s : GasSt n) : GasEv n → GasSt n
  | .step =>
      let s := { s with rho := s.rhoN, mom := s.momN, te := s.teN
                        rhoN := s.rho, momN := s.mom, teN := s.te }
      { s with rho := s.rhoN, mom := s.momN, te := s.teN }
  | .solve none => auxUpdate G s
  | .solve (some d) =>
      auxUpdate G { s with mom := fun j => s.momN j + d.2.1 j, rho := s.rhoN + d.1
                           te := s.teN + d.2.2 }

/-! ## temperature, enthalpy and properties -/

/-- The operations: `prop` the property evaluation, `ext` extract_temperature (new temperature from
enthalpy, composition and the old temperature as first guess), `bc` bcEnthalpyFromTemperatureAlg_
followed by bcCopyStateAlg_ (the enthalpy with the Dirichlet nodes overwritten, from the composition). -/
structure Thermo (H T Y Pr : Type) where
  prop : T → Y → Pr
  ext : H → Y → T → T
  bc : Y → H → H

/-- The fields. -/
structure ThSt (H T Y Pr : Type) where
  h : H
  T : T
  y : Y
  pr : Pr

/-- What one EquationSystems::solve_and_update starts from. -/
abbrev ThView (H T Y Pr : Type) := ThSt H T Y Pr

/-- One EquationSystems::solve_and_update (EquationSystems.C:812-846) followed by
evaluate_properties (Realm.C:1741): the systems put arbitrary values `h`, `y`; then
EnthalpyEquationSystem::post_iter_work_dep (EnthalpyEquationSystem.C:1155-1167). -/
def thSolve {H T Y Pr : Type} (S : Thermo H T Y Pr) (a : ThSt H T Y Pr × List (ThView H T Y Pr))
    (q : H × Y) : ThSt H T Y Pr × List (ThView H T Y Pr) :=
  let s := a.1
  let log := a.2 ++ [s]
  let s := { s with h := q.1, y := q.2 }
  let s := { s with h := S.bc s.y s.h }
  let s := { s with T := S.ext s.h s.y s.T }
  let s := { s with pr := S.prop s.T s.y }
  (s, log)

/-- Realm::advance_time_step (Realm.C:1717-1747) of an active realm: properties, then the sweeps. -/
def thAdvance {H T Y Pr : Type} (S : Thermo H T Y Pr) (a : ThSt H T Y Pr × List (ThView H T Y Pr))
    (qs : List (H × Y)) : ThSt H T Y Pr × List (ThView H T Y Pr) :=
  qs.foldl (thSolve S) ({ a.1 with pr := S.prop a.1.T a.1.y }, a.2)

/-- Events: an advance, or data written from outside (transfers, external fields) between advances. -/
inductive ThEv (H T Y : Type) where
  | advance (qs : List (H × Y))
  | outside (t : T) (y : Y)

/-- A run. -/
def thRun {H T Y Pr : Type} (S : Thermo H T Y Pr) (s : ThSt H T Y Pr) (es : List (ThEv H T Y)) :
    ThSt H T Y Pr × List (ThView H T Y Pr) :=
  es.foldl (fun a e => match e with
    | .advance qs => thAdvance S a qs
    | .outside t y => ({ a.1 with T := t, y := y }, a.2)) (s, [])

/-! ## start-up -/

/-- What one realm brings to the start-up: values written by initial condition algorithms, by the
mapping of boundary data onto the state, by the mesh file ("input_variables"), by the restart file;
the times found there. `none` = this entry is not written.
`input`: only when the user asks for it (populate_variables_from_input, Realm.C:3936-3954).
`restart`: only for a restarted realm (populate_restart, Realm.C:3894-3931). -/
structure Realm (F V Time : Type) where
  ic : F → Option V
  bc : F → Option V
  input : Option (Time × (F → Option V))
  restart : Option (Time × (F → Option V))
  xfer : (ℕ → F → V) → F → Option V

/-- Overwrite. -/
def put {F V : Type} (w : F → Option V) (x : F → V) : F → V := fun f => (w f).getD (x f)

/-- One loop over the realms: realm `i` writes. -/
def loop {F V Time : Type} (w : Realm F V Time → F → Option V) :
    ℕ → List (Realm F V Time) → (ℕ → F → V) → ℕ → F → V
  | _, [], x => x
  | i, r :: rs, x => loop w (i + 1) rs (fun j => if j = i then put (w r) (x j) else x j)

/-- The loop of process_initialization_transfer: reads the present values of all realms. -/
def loopXfer {F V Time : Type} :
    ℕ → List (Realm F V Time) → (ℕ → F → V) → ℕ → F → V
  | _, [], x => x
  | i, r :: rs, x => loopXfer (i + 1) rs (fun j => if j = i then put (r.xfer x) (x j) else x j)

/-- The start-up of the fields, TimeIntegrator.C:157-187: initial conditions, boundary data to state,
input variables (not for restarted realms), restart, initialization transfers. -/
def startFields {F V Time : Type} (rs : List (Realm F V Time)) (x : ℕ → F → V) : ℕ → F → V :=
  let x := loop (fun r => r.ic) 0 rs x
  let x := loop (fun r => r.bc) 0 rs x
  let x := loop (fun r f => if r.restart.isSome then none else (r.input.bind fun i => i.2 f)) 0 rs x
  let x := loop (fun r f => r.restart.bind fun i => i.2 f) 0 rs x
  loopXfer 0 rs x

/-- The start time, TimeIntegrator.C:173-180: each realm's input time replaces the time, then the
maximum with each restart time. -/
noncomputable def startTime {F V : Type} (rs : List (Realm F V ℝ)) (t : ℝ) : ℝ :=
  let t := rs.foldl (fun t r => if r.restart.isSome then t else (r.input.map (·.1)).getD t) t
  rs.foldl (fun t r => max t ((r.restart.map (·.1)).getD t)) t

/-! ## connectivity on moving meshes -/

/-- Options: mesh_motion, mesh_deformation or external_mesh_deformation, the latter; interfaces. -/
structure MoveOpt where
  motion : Bool
  deform : Bool
  external : Bool
  nonConf : Bool
  overset : Bool

/-- The searches and the graph. -/
structure Conn (X G NC OV Gr : Type) where
  geom : X → G
  search : X → NC
  over : X → OV
  graph : NC → OV → Gr

/-- Coordinates, geometry, interface matching, overset connectivity, matrix graph. -/
structure ConnSt (X G NC OV Gr : Type) where
  x : X
  geo : G
  nc : NC
  ov : OV
  gr : Gr

/-- Realm::initialize (Realm.C:466-494): overset, geometry, non-conformal search, linear systems.
Simplification: without the interface the corresponding search result is not read by anything. -/
def connInit {X G NC OV Gr : Type} (C : Conn X G NC OV Gr) (x : X) : ConnSt X G NC OV Gr :=
  let ov := C.over x
  let geo := C.geom x
  let nc := C.search x
  ⟨x, geo, nc, ov, C.graph nc ov⟩

/-- Realm::pre_timestep_work (Realm.C:1623-1662); `xm` are the coordinates of the prescribed motion,
`xd` those of the external displacement. -/
def preStep {X G NC OV Gr : Type} (o : MoveOpt) (C : Conn X G NC OV Gr) (xm xd : X)
    (s : ConnSt X G NC OV Gr) : ConnSt X G NC OV Gr :=
  let s := if o.motion then
      let s := { s with x := xm }
      let s := { s with geo := C.geom s.x }
      let s := if o.nonConf then { s with nc := C.search s.x } else s
      let s := if o.overset then { s with ov := C.over s.x } else s
      { s with gr := C.graph s.nc s.ov }
    else s
  if o.deform then
    let s := if o.external then { s with x := xd } else s
    { s with geo := C.geom s.x }
  else s

/-- Events: a time step; the start of advance (Realm.C:1717-1719); new coordinates from the mesh
displacement equation (only with internal mesh deformation). -/
inductive ConnEv (X : Type) where
  | step (xm xd : X)
  | advance
  | displace (x : X)

/-- One event. -/
def connExec {X G NC OV Gr : Type} (o : MoveOpt) (C : Conn X G NC OV Gr)
    (s : ConnSt X G NC OV Gr) : ConnEv X → ConnSt X G NC OV Gr
  | .step xm xd => preStep o C xm xd s
  | .advance => if o.external then { s with geo := C.geom s.x } else s
  | .displace x => if o.deform && !o.external then { s with x := x } else s

/-- Realm::initial_work (Realm.C:3969-3979): process_mesh_motion at the start time, nothing else of
these data. -/
def connInitialWork {X G NC OV Gr : Type} (o : MoveOpt) (x1 : X) (s : ConnSt X G NC OV Gr) :
    ConnSt X G NC OV Gr :=
  if o.motion then { s with x := x1 } else s

/-- A run: coordinates `x0` at set-up, `x1` at initial_work. -/
def connRun {X G NC OV Gr : Type} (o : MoveOpt) (C : Conn X G NC OV Gr) (x0 x1 : X)
    (es : List (ConnEv X)) : ConnSt X G NC OV Gr :=
  es.foldl (connExec o C) (connInitialWork o x1 (connInit C x0))

end Nalu.Schedule2
