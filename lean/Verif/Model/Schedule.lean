/-
Order of operations inside the segregated equation systems: which values of the
unknown, of its projected nodal gradient and of the mass flow rate each assembly sees.

Everything numerical (the gradient projection, the linear solve, the update with clipping,
the mass flow rate formula, the velocity projection) is a parameter; the solver is an
arbitrary list of increments.  Only the order of the operations is modelled.
-/
namespace Nalu.Schedule

/-! ## one scalar equation system -/

/-- The numerical operations of a scalar system.
* `grad`    : compute_projected_nodal_gradient(), on a mesh geometry;
* `upd`     : field_axpby / update_and_clip (for volume of fluid also the sharpening and
  smoothing that follow it in the loop);
* `bcCopy`  : the copy of the boundary enthalpy into the Np1 state
  (EnthalpyEquationSystem.C:1108-1114); the identity for the other systems;
* `initFix` : sharpen_interface_explicit() and smooth_vof() of the first call
  (VolumeOfFluidEquationSystem.C:883-886); the identity for the other systems;
* `gradInLoop` : the gradient is recomputed in every pass.  True for
  MixtureFractionEquationSystem.C:952, HeatCondEquationSystem.C:1119,
  EnthalpyEquationSystem.C:1142, TurbKineticEnergyEquationSystem.C:1099,
  VolumeOfFluidEquationSystem.C:911; false for MixtureFractionFemEquationSystem.C:686,
  where it is recomputed once after the loop. -/
structure Sys (Geo B V D G : Type) where
  grad : Geo → V → G
  upd : V → D → V
  bcCopy : B → V → V
  initFix : V → V
  gradInLoop : Bool

/-- The fields of a scalar system: the three states of the unknown, its gradient, isInit_. -/
structure St (V G : Type) where
  np1 : V
  n : V
  nm1 : V
  g : G
  isInit : Bool

/-- What one assembly reads. -/
structure View (Geo V G : Type) where
  geo : Geo
  q : V
  g : G

/-- Realm::swap_states (Realm.C:3852-3855, the stk rotation of a three state field) followed by
the system's predict_state (HeatCondEquationSystem.C:1073-1081 and the like: copy N into Np1).
Simplification: a two state field has no `nm1`; that slot is then not read. -/
def swapPredict {V G : Type} (s : St V G) : St V G :=
  let r : St V G := { s with np1 := s.nm1, n := s.np1, nm1 := s.n }
  { r with np1 := r.n }

/-- One pass `k` of the iteration loop (MixtureFractionEquationSystem.C:938-953): assemble and
solve with the present fields, update, gradient.  `d` is the increment the solver returns. -/
def pass {Geo B V D G : Type} (S : Sys Geo B V D G) (geo : Geo)
    (a : St V G × List (View Geo V G)) (d : D) : St V G × List (View Geo V G) :=
  let s := a.1
  let log := a.2 ++ [⟨geo, s.np1, s.g⟩]
  let q := S.upd s.np1 d
  ({ s with np1 := q, g := if S.gradInLoop then S.grad geo q else s.g }, log)

/-- The start of solve_and_update: boundary copy (EnthalpyEquationSystem.C:1107-1114), and on the
first call the gradient (MixtureFractionEquationSystem.C:929-933;
VolumeOfFluidEquationSystem.C:882-890 with the sharpening before it). -/
def enter {Geo B V D G : Type} (S : Sys Geo B V D G) (geo : Geo) (b : B) (s : St V G) : St V G :=
  let s := { s with np1 := S.bcCopy b s.np1 }
  if s.isInit then
    let q := S.initFix s.np1
    { s with np1 := q, g := S.grad geo q, isInit := false }
  else s

/-- The end of solve_and_update: MixtureFractionFemEquationSystem.C:685-686 recomputes the
gradient here; the other systems do nothing to these fields. -/
def leave {Geo B V D G : Type} (S : Sys Geo B V D G) (geo : Geo) (s : St V G) : St V G :=
  if S.gradInLoop then s else { s with g := S.grad geo s.np1 }

/-- solve_and_update of a scalar system; `ds` has maxIterations_ entries. -/
def call {Geo B V D G : Type} (S : Sys Geo B V D G) (geo : Geo) (b : B) (ds : List D)
    (a : St V G × List (View Geo V G)) : St V G × List (View Geo V G) :=
  let r := ds.foldl (pass S geo) (enter S geo b a.1, a.2)
  (leave S geo r.1, r.2)

/-- What happens to the system in a run: a new time step (TimeIntegrator.C:266-269), or one
solve_and_update on the mesh geometry of the moment (Realm.C:1717-1732). -/
inductive Ev (Geo B D : Type) where
  | step
  | solve (geo : Geo) (b : B) (ds : List D)

/-- One event. -/
def exec {Geo B V D G : Type} (S : Sys Geo B V D G)
    (a : St V G × List (View Geo V G)) : Ev Geo B D → St V G × List (View Geo V G)
  | .step => (swapPredict a.1, a.2)
  | .solve geo b ds => call S geo b ds a

/-- A run from the initial fields; the result carries all assemblies in order. -/
def run {Geo B V D G : Type} (S : Sys Geo B V D G) (s : St V G) (es : List (Ev Geo B D)) :
    St V G × List (View Geo V G) :=
  es.foldl (exec S) (s, [])

/-! ## two-equation turbulence models -/

/-- The operations of SST and k-epsilon: the two gradients, the joint update_and_clip, and the
coefficients (blending, diffusion coefficients, wall values) computed once per call
(ShearStressTransportEquationSystem.C:190-199, KEpsilonEquationSystem.C:117-123). -/
structure TwoSys (Geo K W DK DW GK GW C : Type) where
  gradK : Geo → K → GK
  gradW : Geo → W → GW
  upd : K × W → DK → DW → K × W
  coef : Geo → K → W → GK → GW → C

/-- Fields of the pair. -/
structure TwoSt (K W GK GW C : Type) where
  k : K
  w : W
  gk : GK
  gw : GW
  c : C
  isInit : Bool

/-- What one assembly of the pair reads. -/
structure TwoView (Geo K W GK GW C : Type) where
  geo : Geo
  k : K
  w : W
  gk : GK
  gw : GW
  c : C

/-- Fields read by an assembly. -/
def TwoSt.view {Geo K W GK GW C : Type} (geo : Geo) (s : TwoSt K W GK GW C) :
    TwoView Geo K W GK GW C := ⟨geo, s.k, s.w, s.gk, s.gw, s.c⟩

/-- One pass (ShearStressTransportEquationSystem.C:203-217, KEpsilonEquationSystem.C:127-141):
k is assembled and solved, then omega (epsilon); both are updated only afterwards; then both
gradients.  The log gets the pair of assemblies. -/
def twoPass {Geo K W DK DW GK GW C : Type} (S : TwoSys Geo K W DK DW GK GW C) (geo : Geo)
    (a : TwoSt K W GK GW C × List (TwoView Geo K W GK GW C × TwoView Geo K W GK GW C))
    (d : DK × DW) :
    TwoSt K W GK GW C × List (TwoView Geo K W GK GW C × TwoView Geo K W GK GW C) :=
  let s := a.1
  let v1 := s.view geo
  let v2 := s.view geo
  let q := S.upd (s.k, s.w) d.1 d.2
  ({ s with k := q.1, w := q.2, gk := S.gradK geo q.1, gw := S.gradW geo q.2 }, a.2 ++ [(v1, v2)])

/-- The start of the call (ShearStressTransportEquationSystem.C:175-199): gradients on the first
call, then the coefficients from the present fields. -/
def twoEnter {Geo K W DK DW GK GW C : Type} (S : TwoSys Geo K W DK DW GK GW C) (geo : Geo)
    (s : TwoSt K W GK GW C) : TwoSt K W GK GW C :=
  let s := if s.isInit then
    { s with gk := S.gradK geo s.k, gw := S.gradW geo s.w, isInit := false } else s
  { s with c := S.coef geo s.k s.w s.gk s.gw }

/-- ShearStressTransportEquationSystem::solve_and_update; returns the fields and the assemblies
of this call only. -/
def twoCall {Geo K W DK DW GK GW C : Type} (S : TwoSys Geo K W DK DW GK GW C) (geo : Geo)
    (ds : List (DK × DW)) (s : TwoSt K W GK GW C) :
    TwoSt K W GK GW C × List (TwoView Geo K W GK GW C × TwoView Geo K W GK GW C) :=
  ds.foldl (twoPass S geo) (twoEnter S geo s, [])

/-- A run of the pair: calls on the geometries of the moment.  Simplification: the state swap is
not shown, by `swapPredict` it leaves the Np1 values as they are (c325). The result lists the
assemblies call by call. -/
def twoRun {Geo K W DK DW GK GW C : Type} (S : TwoSys Geo K W DK DW GK GW C) :
    TwoSt K W GK GW C → List (Geo × List (DK × DW)) →
    List (List (TwoView Geo K W GK GW C × TwoView Geo K W GK GW C))
  | _, [] => []
  | s, (geo, ds) :: es =>
      let r := twoCall S geo ds s
      r.2 :: twoRun S r.1 es

/-! ## the low Mach pair momentum / continuity -/

/-- The operations of the low Mach system: pressure gradient, velocity gradient, velocity relative
to the mesh (Realm.C:3150-3180), mass flow rates (ComputeMdot*Algorithm), velocity projection
(LowMachEquationSystem.C:884-969, arguments: density, velocity, new and saved gradient). -/
structure LM (Geo MV R U P GP GU M : Type) where
  gradP : Geo → P → GP
  gradU : Geo → U → GU
  rel : MV → U → U
  mdotOf : Geo → R → U → P → GP → M
  proj : R → U → GP → GP → U
  addU : U → U → U
  addP : P → P → P

/-- The fields; `geo` and `mv` are the present mesh geometry and mesh velocity. -/
structure LMSt (Geo MV U P GP GU M : Type) where
  geo : Geo
  mv : MV
  u : U
  uN : U
  uNm1 : U
  p : P
  dpdx : GP
  dudx : GU
  vrtm : U
  mdot : M
  isInit : Bool

/-- What a momentum or a continuity assembly reads. -/
structure LMView (Geo MV R U P GP GU M : Type) where
  geo : Geo
  mv : MV
  rho : R
  u : U
  p : P
  dpdx : GP
  dudx : GU
  vrtm : U
  mdot : M

/-- Fields read by an assembly. -/
def LMSt.view {Geo MV R U P GP GU M : Type} (rho : R) (s : LMSt Geo MV U P GP GU M) :
    LMView Geo MV R U P GP GU M :=
  ⟨s.geo, s.mv, rho, s.u, s.p, s.dpdx, s.dudx, s.vrtm, s.mdot⟩

/-- MomentumEquationSystem::initial_work (LowMachEquationSystem.C:1076-1092): relative velocity,
then velocity gradient. -/
def lmInitialWork {Geo MV R U P GP GU M : Type} (S : LM Geo MV R U P GP GU M)
    (s : LMSt Geo MV U P GP GU M) : LMSt Geo MV U P GP GU M :=
  let s := { s with vrtm := S.rel s.mv s.u }
  { s with dudx := S.gradU s.geo s.u }

/-- One pass (LowMachEquationSystem.C:801-860): momentum assembly and solve, velocity update,
relative velocity; continuity assembly and solve, pressure update, mass flow rates with the old
pressure gradient; project_nodal_velocity: save dpdx, recompute it, correct the velocity; relative
velocity; velocity gradient. -/
def lmPass {Geo MV R U P GP GU M : Type} (S : LM Geo MV R U P GP GU M) (rho : R)
    (a : LMSt Geo MV U P GP GU M × List (LMView Geo MV R U P GP GU M × LMView Geo MV R U P GP GU M))
    (d : U × P) :
    LMSt Geo MV U P GP GU M × List (LMView Geo MV R U P GP GU M × LMView Geo MV R U P GP GU M) :=
  let s := a.1
  let mom := s.view rho
  let s := { s with u := S.addU s.u d.1 }
  let s := { s with vrtm := S.rel s.mv s.u }
  let cont := s.view rho
  let s := { s with p := S.addP s.p d.2 }
  let s := { s with mdot := S.mdotOf s.geo rho s.vrtm s.p s.dpdx }
  let saved := s.dpdx
  let s := { s with dpdx := S.gradP s.geo s.p }
  let s := { s with u := S.proj rho s.u s.dpdx saved }
  let s := { s with vrtm := S.rel s.mv s.u }
  let s := { s with dudx := S.gradU s.geo s.u }
  (s, a.2 ++ [(mom, cont)])

/-- The start of the call (LowMachEquationSystem.C:783-792). -/
def lmEnter {Geo MV R U P GP GU M : Type} (S : LM Geo MV R U P GP GU M) (rho : R)
    (s : LMSt Geo MV U P GP GU M) : LMSt Geo MV U P GP GU M :=
  if s.isInit then
    let s := { s with dpdx := S.gradP s.geo s.p }
    { s with mdot := S.mdotOf s.geo rho s.vrtm s.p s.dpdx, isInit := false }
  else s

/-- Events: time step (swap and MomentumEquationSystem::predict_state,
LowMachEquationSystem.C:2255-2261; the pressure has one state), start of Realm::advance with the
mesh geometry and mesh velocity of the moment (Realm.C:1717-1725: compute_vrtm), and one
LowMachEquationSystem::solve_and_update with the density of the moment. -/
inductive LMEv (Geo MV R U P : Type) where
  | step
  | advance (geo : Geo) (mv : MV)
  | solve (rho : R) (ds : List (U × P))

/-- One event. -/
def lmExec {Geo MV R U P GP GU M : Type} (S : LM Geo MV R U P GP GU M)
    (a : LMSt Geo MV U P GP GU M × List (LMView Geo MV R U P GP GU M × LMView Geo MV R U P GP GU M)) :
    LMEv Geo MV R U P →
    LMSt Geo MV U P GP GU M × List (LMView Geo MV R U P GP GU M × LMView Geo MV R U P GP GU M)
  | .step =>
      let s := a.1
      let s := { s with u := s.uNm1, uN := s.u, uNm1 := s.uN }
      ({ s with u := s.uN }, a.2)
  | .advance geo mv =>
      let s := { a.1 with geo := geo, mv := mv }
      ({ s with vrtm := S.rel s.mv s.u }, a.2)
  | .solve rho ds => ds.foldl (lmPass S rho) (lmEnter S rho a.1, a.2)

/-- A run: initial_work, then the events; the second component lists the pairs of assemblies. -/
def lmRun {Geo MV R U P GP GU M : Type} (S : LM Geo MV R U P GP GU M)
    (s : LMSt Geo MV U P GP GU M) (es : List (LMEv Geo MV R U P)) :
    LMSt Geo MV U P GP GU M × List (LMView Geo MV R U P GP GU M × LMView Geo MV R U P GP GU M) :=
  es.foldl (lmExec S) (lmInitialWork S s, [])

end Nalu.Schedule
