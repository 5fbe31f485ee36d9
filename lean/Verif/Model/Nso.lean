import Mathlib.Analysis.SpecialFunctions.Sqrt
import Verif.Model.ElemKernel

/-!
# Model: nonlinear stabilization operators (NSO)

`nso/ScalarNSOElemKernel.C`, `ScalarNSOKeElemKernel.C`, `MomentumNSOElemKernel.C`, `MomentumNSOKeElemKernel.C`,
`MomentumNSOGradElemSuppAlg.C`, `MomentumNSOSijElemKernel.C`, `ScalarNSOFemKernel.C` and the metric tensors
`twod_gij`, `threed_gij` (MasterElementWork.F) and `Quad42DSCS::gij` that they use.  `double` is `ℝ` (there are square
roots).  Area vectors, gradient operators and metric tensors of the element are data of the kernels.  A `+=` into a local
scalar over loops on nodes and directions is written as a sum in the same nesting.
-/

namespace Nalu.Nso
open Nalu.Edge Nalu.Kernel

noncomputable section

variable {nn nip nd : ℕ}

/-- Constants of a kernel (ScalarNSOElemKernel.h:72-78, MomentumNSOElemKernel.h:73-80): `Cupw_`, `small_`, `fourthFac_`,
`altResFac_`, `nonConservedForm_`, `includeDivU_`; `om_altResFac_` is `1 - altResFac_` (ScalarNSOElemKernel.C:43). -/
structure Opt where
  cupw : ℝ
  small : ℝ
  fourthFac : ℝ
  altResFac : ℝ
  nonConserved : ℝ
  includeDivU : ℝ

/-- `om_altResFac_(1.0 - altResFac)` (ScalarNSOElemKernel.C:43, MomentumNSOElemKernel.C:43). -/
def Opt.om (o : Opt) : ℝ := 1 - o.altResFac

/-- `w_dqdxScs[j] += qIC*dnj` (ScalarNSOElemKernel.C:180; also 191 of MomentumNSOElemKernel.C for the pressure). -/
def grad (dn : Fin nn → Fin nd → ℝ) (q : Fin nn → ℝ) (j : Fin nd) : ℝ := ∑ ic, q ic * dn ic j

/-- `w_rhoVrtmScs[j] += r*rhoIC*vrtmj` (ScalarNSOElemKernel.C:181). -/
def massFlux (r : Fin nn → ℝ) (rho : Fin nn → ℝ) (v : Fin nn → Fin nd → ℝ) (j : Fin nd) : ℝ :=
  ∑ ic, r ic * rho ic * v ic j

/-- `dFdxAdv += rhoIC*vrtmj*qIC*dnj` (ScalarNSOElemKernel.C:182). -/
def dFdxAdv (dn : Fin nn → Fin nd → ℝ) (rho : Fin nn → ℝ) (v : Fin nn → Fin nd → ℝ) (q : Fin nn → ℝ) : ℝ :=
  ∑ ic, ∑ j, rho ic * v ic j * q ic * dn ic j

/-- `dFdxCont += rhoIC*vrtmj*dnj` (ScalarNSOElemKernel.C:184). -/
def dFdxCont (dn : Fin nn → Fin nd → ℝ) (rho : Fin nn → ℝ) (v : Fin nn → Fin nd → ℝ) : ℝ :=
  ∑ ic, ∑ j, rho ic * v ic j * dn ic j

/-- `dFdxDiff += diffFluxCoeffIC*v_Gjq(ic,j)*dnj` (ScalarNSOElemKernel.C:183). -/
def dFdxDiff (dn : Fin nn → Fin nd → ℝ) (mu : Fin nn → ℝ) (G : Fin nn → Fin nd → ℝ) : ℝ :=
  ∑ ic, ∑ j, mu ic * G ic j * dn ic j

/-- `contRes` (ScalarNSOElemKernel.C:189). -/
def contRes (b : Bdf ℝ) (r : Fin nn → ℝ) (dn : Fin nn → Fin nd → ℝ) (rho : Levels nn ℝ) (v : Fin nn → Fin nd → ℝ) : ℝ :=
  (b.g1 * interp r rho.np1 + b.g2 * interp r rho.n + b.g3 * interp r rho.nm1) / b.dt + dFdxCont dn rho.np1 v

/-- `residualAlt` (ScalarNSOElemKernel.C:192-194). -/
def residualAlt (r : Fin nn → ℝ) (dn : Fin nn → Fin nd → ℝ) (rho : Fin nn → ℝ) (v : Fin nn → Fin nd → ℝ) (q : Fin nn → ℝ) : ℝ :=
  dFdxAdv dn rho v q - interp r q * dFdxCont dn rho v - ∑ j, massFlux r rho v j * grad dn q j

/-- `time` (ScalarNSOElemKernel.C:197). -/
def timeTerm (b : Bdf ℝ) (r : Fin nn → ℝ) (rho q : Levels nn ℝ) : ℝ :=
  (b.g1 * interp r rho.np1 * interp r q.np1 + b.g2 * interp r rho.n * interp r q.n
    + b.g3 * interp r rho.nm1 * interp r q.nm1) / b.dt

/-- `residualPde` of the scalar kernel (ScalarNSOElemKernel.C:198). -/
def residualPde (o : Opt) (b : Bdf ℝ) (r : Fin nn → ℝ) (dn : Fin nn → Fin nd → ℝ) (rho q : Levels nn ℝ) (v : Fin nn → Fin nd → ℝ)
    (mu : Fin nn → ℝ) (G : Fin nn → Fin nd → ℝ) : ℝ :=
  timeTerm b r rho q + dFdxAdv dn rho.np1 v q.np1 - dFdxDiff dn mu G
    - contRes b r dn rho v * interp r q.np1 * o.nonConserved

/-- `residual` (ScalarNSOElemKernel.C:201). -/
def residual (o : Opt) (b : Bdf ℝ) (r : Fin nn → ℝ) (dn : Fin nn → Fin nd → ℝ) (rho q : Levels nn ℝ) (v : Fin nn → Fin nd → ℝ)
    (mu : Fin nn → ℝ) (G : Fin nn → Fin nd → ℝ) : ℝ :=
  residualAlt r dn rho.np1 v q.np1 * o.altResFac + residualPde o b r dn rho q v mu G * o.om

/-- `gUpperMagGradQ`, `rhoVrtmiGLowerRhoVrtmj` (ScalarNSOElemKernel.C:204-213). -/
def quad (g : Fin nd → Fin nd → ℝ) (v : Fin nd → ℝ) : ℝ := ∑ i, ∑ j, v i * g i j * v j

/-- `nuFirstOrder` (ScalarNSOElemKernel.C:220). -/
def nuFirstOrder (glo : Fin nd → Fin nd → ℝ) (rv : Fin nd → ℝ) : ℝ := Real.sqrt (quad glo rv)

/-- `nuResidual` (ScalarNSOElemKernel.C:216). -/
def nuResidual (o : Opt) (gup : Fin nd → Fin nd → ℝ) (R : ℝ) (dq : Fin nd → ℝ) : ℝ :=
  Real.sqrt ((R * R) / (quad gup dq + o.small))

/-- `nu` (ScalarNSOElemKernel.C:223, MomentumNSOElemKernel.C:274, MomentumNSOGradElemSuppAlg.C:280, ScalarNSOFemKernel.C:155). -/
def nuOf (o : Opt) (gup glo : Fin nd → Fin nd → ℝ) (R : ℝ) (dq rv : Fin nd → ℝ) : ℝ :=
  min (o.cupw * nuFirstOrder glo rv) (nuResidual o gup R dq)

/-- `lhsfac`: minus the sum of `fac` (ScalarNSOElemKernel.C:235-245). -/
def lhsfac (gup : Fin nd → Fin nd → ℝ) (a g : Fin nd → ℝ) : ℝ := ∑ i, ∑ j, -(gup i j * g j * a i)

/-- `gijFac` (ScalarNSOElemKernel.C:225-246). -/
def gijFac (o : Opt) (gup : Fin nd → Fin nd → ℝ) (r : Fin nn → ℝ) (dn : Fin nn → Fin nd → ℝ) (a : Fin nd → ℝ)
    (q : Fin nn → ℝ) (G : Fin nn → Fin nd → ℝ) : ℝ :=
  ∑ ic, ∑ i, ∑ j, (gup i j * dn ic j * a i * q ic - r ic * gup i j * G ic j * a i * o.fourthFac)

/-- The flux loop at one integration point (ScalarNSOElemKernel.C:225-254); the rows are `L` and `R` and the column of node
`ic` is `col ic`, so that the same statements serve one component of the momentum kernels
(MomentumNSOElemKernel.C:276-308). -/
def fluxLoop {ι : Type*} [DecidableEq ι] (o : Opt) (nu : ℝ) (gup : Fin nd → Fin nd → ℝ) (r : Fin nn → ℝ)
    (dn : Fin nn → Fin nd → ℝ) (a : Fin nd → ℝ) (q : Fin nn → ℝ) (G : Fin nn → Fin nd → ℝ) (L R : ι) (col : Fin nn → ι)
    (s : LocalSys ι ℝ) : LocalSys ι ℝ :=
  let s := loop nn (fun ic s =>
    addL (addL s L (col ic) (nu * lhsfac gup a (dn ic))) R (col ic) (-(nu * lhsfac gup a (dn ic)))) s
  let residualNSO := -nu * gijFac o gup r dn a q G
  addR (addR s L (-residualNSO)) R residualNSO

/-- Nodal data of the scalar kernels. -/
structure SNodes (nn nd : ℕ) where
  q : Levels nn ℝ
  rho : Levels nn ℝ
  v : Fin nn → Fin nd → ℝ
  mu : Fin nn → ℝ
  G : Fin nn → Fin nd → ℝ

/-- `nu` of `ScalarNSOElemKernel` at one integration point. -/
def scalarNu (o : Opt) (b : Bdf ℝ) (e : Scs nn nip nd ℝ) (gup glo : Fin nip → Fin nd → Fin nd → ℝ) (f : SNodes nn nd)
    (ip : Fin nip) : ℝ :=
  nuOf o (gup ip) (glo ip) (residual o b (e.shape ip) (e.dndx ip) f.rho f.q f.v f.mu f.G) (grad (e.dndx ip) f.q.np1)
    (massFlux (e.shape ip) f.rho.np1 f.v)

/-- `ScalarNSOElemKernel::execute` (ScalarNSOElemKernel.C:108-256). -/
def scalarNso (o : Opt) (b : Bdf ℝ) (e : Scs nn nip nd ℝ) (gup glo : Fin nip → Fin nd → Fin nd → ℝ) (f : SNodes nn nd)
    (s : LocalSys (Fin nn) ℝ) : LocalSys (Fin nn) ℝ :=
  loop nip (fun ip s => fluxLoop o (scalarNu o b e gup glo f ip) (gup ip) (e.shape ip) (e.dndx ip) (e.area ip) f.q.np1 f.G
    (e.il ip) (e.ir ip) id s) s

/-- Nodal data of the kernels whose viscosity comes from the pressure. -/
structure KNodes (nn nd : ℕ) where
  u : Fin nn → Fin nd → ℝ
  v : Fin nn → Fin nd → ℝ
  rho : Fin nn → ℝ
  p : Fin nn → ℝ
  Gp : Fin nn → Fin nd → ℝ

/-- `w_ke` (MomentumNSOKeElemKernel.C:109-115). -/
def ke (u : Fin nn → Fin nd → ℝ) (n : Fin nn) : ℝ := ∑ j, u n j * u n j / 2

/-- `keResidual` (MomentumNSOKeElemKernel.C:163-166). -/
def keResidual (r : Fin nn → ℝ) (dn : Fin nn → Fin nd → ℝ) (f : KNodes nn nd) : ℝ :=
  ∑ j, (∑ ic, r ic * f.u ic j) * (grad dn f.p j - ∑ ic, r ic * f.Gp ic j) / interp r f.rho / 2

/-- `nu` of the kinetic energy kernels (MomentumNSOKeElemKernel.C:169-188, MomentumNSOSijElemKernel.C:166-185), and, with
`turbCoeff_`, of the scalar one (ScalarNSOKeElemKernel.C:168-187). -/
def keNu (o : Opt) (turb : ℝ) (gup glo : Fin nd → Fin nd → ℝ) (r : Fin nn → ℝ) (dn : Fin nn → Fin nd → ℝ) (f : KNodes nn nd) : ℝ :=
  min (o.cupw * nuFirstOrder glo (massFlux r f.rho f.v))
    (interp r f.rho * nuResidual o gup (keResidual r dn f) (grad dn (ke f.u)) / turb)

/-- `ScalarNSOKeElemKernel::execute` (ScalarNSOKeElemKernel.C:84-221). -/
def scalarKeNso (o : Opt) (turb : ℝ) (e : Scs nn nip nd ℝ) (gup glo : Fin nip → Fin nd → Fin nd → ℝ) (f : KNodes nn nd)
    (q : Fin nn → ℝ) (G : Fin nn → Fin nd → ℝ) (s : LocalSys (Fin nn) ℝ) : LocalSys (Fin nn) ℝ :=
  loop nip (fun ip s => fluxLoop o (keNu o turb (gup ip) (glo ip) (e.shape ip) (e.dndx ip) f) (gup ip) (e.shape ip) (e.dndx ip)
    (e.area ip) q G (e.il ip) (e.ir ip) id s) s

/-- A momentum kernel of the diffusive form, given the viscosity of every integration point and component: the loops over the
integration points and components with the flux loop inside (MomentumNSOElemKernel.C:148-310,
MomentumNSOKeElemKernel.C:117-231, MomentumNSOGradElemSuppAlg.C:184-325). -/
def momentumWith (o : Opt) (nu : Fin nip → Fin nd → ℝ) (e : Scs nn nip nd ℝ) (gup : Fin nip → Fin nd → Fin nd → ℝ)
    (u : Fin nn → Fin nd → ℝ) (Gju : Fin nn → Fin nd → Fin nd → ℝ) (s : LocalSys (Fin nn × Fin nd) ℝ) :
    LocalSys (Fin nn × Fin nd) ℝ :=
  loop nip (fun ip s => loop nd (fun k s =>
    fluxLoop o (nu ip k) (gup ip) (e.shape ip) (e.dndx ip) (e.area ip) (fun ic => u ic k) (fun ic => Gju ic k)
      (e.il ip, k) (e.ir ip, k) (fun ic => (ic, k)) s) s) s

/-- `MomentumNSOKeElemKernel::execute` (MomentumNSOKeElemKernel.C:82-233): one viscosity for all components. -/
def momentumKe (o : Opt) (e : Scs nn nip nd ℝ) (gup glo : Fin nip → Fin nd → Fin nd → ℝ) (f : KNodes nn nd)
    (Gju : Fin nn → Fin nd → Fin nd → ℝ) : LocalSys (Fin nn × Fin nd) ℝ → LocalSys (Fin nn × Fin nd) ℝ :=
  momentumWith o (fun ip _ => keNu o 1 (gup ip) (glo ip) (e.shape ip) (e.dndx ip) f) e gup f.u Gju

/-- `residualRk` (MomentumNSOGradElemSuppAlg.C:258). -/
def gradResidual (r : Fin nn → ℝ) (dn : Fin nn → Fin nd → ℝ) (f : KNodes nn nd) (k : Fin nd) : ℝ :=
  grad dn f.p k - ∑ ic, r ic * f.Gp ic k

/-- `MomentumNSOGradElemSuppAlg::elem_execute` (MomentumNSOGradElemSuppAlg.C:118-326). -/
def momentumGrad (o : Opt) (e : Scs nn nip nd ℝ) (gup glo : Fin nip → Fin nd → Fin nd → ℝ) (f : KNodes nn nd)
    (Gju : Fin nn → Fin nd → Fin nd → ℝ) : LocalSys (Fin nn × Fin nd) ℝ → LocalSys (Fin nn × Fin nd) ℝ :=
  momentumWith o (fun ip k => nuOf o (gup ip) (glo ip) (gradResidual (e.shape ip) (e.dndx ip) f k)
    (grad (e.dndx ip) (fun ic => f.u ic k)) (massFlux (e.shape ip) f.rho f.v)) e gup f.u Gju

/-- Nodal data of `MomentumNSOElemKernel`. -/
structure MNodes (nn nd : ℕ) where
  u : VLevels nn nd ℝ
  rho : Levels nn ℝ
  v : Fin nn → Fin nd → ℝ
  mu : Fin nn → ℝ
  p : Fin nn → ℝ
  Gju : Fin nn → Fin nd → Fin nd → ℝ

/-- Component `k` of a velocity history. -/
def comp (u : VLevels nn nd ℝ) (k : Fin nd) : Levels nn ℝ :=
  ⟨fun ic => u.np1 ic k, fun ic => u.n ic k, fun ic => u.nm1 ic k⟩

/-- `divU += r*v_Gju(ic,j,j)` (MomentumNSOElemKernel.C:189). -/
def divUIp (r : Fin nn → ℝ) (G : Fin nn → Fin nd → Fin nd → ℝ) : ℝ := ∑ ic, ∑ j, r ic * G ic j j

/-- `dFdxkDiff` (MomentumNSOElemKernel.C:238). -/
def momDiff (o : Opt) (r : Fin nn → ℝ) (dn : Fin nn → Fin nd → ℝ) (mu : Fin nn → ℝ) (G : Fin nn → Fin nd → Fin nd → ℝ)
    (k : Fin nd) : ℝ :=
  ∑ ic, ∑ j, mu ic * (G ic k j + G ic j k - 2 / 3 * divUIp r G * (if k = j then 1 else 0) * o.includeDivU) * dn ic j

/-- `residual` of component `k` (MomentumNSOElemKernel.C:242-252). -/
def momResidual (o : Opt) (b : Bdf ℝ) (r : Fin nn → ℝ) (dn : Fin nn → Fin nd → ℝ) (f : MNodes nn nd) (k : Fin nd) : ℝ :=
  residualAlt r dn f.rho.np1 f.v (fun ic => f.u.np1 ic k) * o.altResFac
    + (timeTerm b r f.rho (comp f.u k) + dFdxAdv dn f.rho.np1 f.v (fun ic => f.u.np1 ic k) - momDiff o r dn f.mu f.Gju k
        + grad dn f.p k - contRes b r dn f.rho f.v * interp r (fun ic => f.u.np1 ic k) * o.nonConserved) * o.om

/-- `MomentumNSOElemKernel::execute` (MomentumNSOElemKernel.C:120-311). -/
def momentumNso (o : Opt) (b : Bdf ℝ) (e : Scs nn nip nd ℝ) (gup glo : Fin nip → Fin nd → Fin nd → ℝ) (f : MNodes nn nd) :
    LocalSys (Fin nn × Fin nd) ℝ → LocalSys (Fin nn × Fin nd) ℝ :=
  momentumWith o (fun ip k => nuOf o (gup ip) (glo ip) (momResidual o b (e.shape ip) (e.dndx ip) f k)
    (grad (e.dndx ip) (fun ic => f.u.np1 ic k)) (massFlux (e.shape ip) f.rho.np1 f.v)) e gup f.u.np1 f.Gju

/-! ## The stress form -/

/-- The `ic`, `i` body of the stress loop (MomentumNSOSijElemKernel.C:187-228). -/
def sijBody (o : Opt) (nu divU : ℝ) (gup : Fin nd → Fin nd → ℝ) (dn : Fin nd → ℝ) (a : Fin nd → ℝ) (il ir ic : Fin nn)
    (u : Fin nd → ℝ) (i : Fin nd) (s : LocalSys (Fin nn × Fin nd) ℝ) : LocalSys (Fin nn × Fin nd) ℝ :=
  let divUstress := 2 / 3 * nu * divU * a i * gup i i * o.includeDivU
  let lhs_riC_i := ∑ j, -nu * gup i j * dn j * a j
  let s := loop nd (fun j s =>
    let f := -nu * gup i j * dn i * a j
    addR (addR (addL (addL s (il, i) (ic, j) f) (ir, i) (ic, j) (-f)) (il, i) (-(f * u j))) (ir, i) (f * u j)) s
  let s := addL (addL s (il, i) (ic, i) lhs_riC_i) (ir, i) (ic, i) (-lhs_riC_i)
  addR (addR s (il, i) (-(lhs_riC_i * u i + divUstress))) (ir, i) (lhs_riC_i * u i + divUstress)

/-- `MomentumNSOSijElemKernel::execute` (MomentumNSOSijElemKernel.C:76-232); `divU += uNp1*dnj` is at line 155. -/
def momentumSij (o : Opt) (e : Scs nn nip nd ℝ) (gup glo : Fin nip → Fin nd → Fin nd → ℝ) (f : KNodes nn nd)
    (s : LocalSys (Fin nn × Fin nd) ℝ) : LocalSys (Fin nn × Fin nd) ℝ :=
  loop nip (fun ip s =>
    let nu := keNu o 1 (gup ip) (glo ip) (e.shape ip) (e.dndx ip) f
    let divU := ∑ ic, ∑ j, f.u ic j * e.dndx ip ic j
    loop nn (fun ic s => loop nd (fun i s =>
      sijBody o nu divU (gup ip) (e.dndx ip ic) (e.area ip) (e.il ip) (e.ir ip) ic (f.u ic) i s) s) s) s

/-! ## The finite element form -/

/-- The Gauss points of a finite element: `v_shape_function_`, `dndx_fem`, `det_j_fem`, `v_ip_weight_`. -/
structure FemIp (nn nip nd : ℕ) where
  shape : Fin nip → Fin nn → ℝ
  dndx : Fin nip → Fin nn → Fin nd → ℝ
  detJ : Fin nip → ℝ
  w : Fin nip → ℝ

/-- `nu` of `ScalarNSOFemKernel` (ScalarNSOFemKernel.C:97-155). -/
def femNu (o : Opt) (e : FemIp nn nip nd) (gup glo : Fin nip → Fin nd → Fin nd → ℝ) (rho : Fin nn → ℝ)
    (v : Fin nn → Fin nd → ℝ) (q : Fin nn → ℝ) (ip : Fin nip) : ℝ :=
  nuOf o (gup ip) (glo ip) (residualAlt (e.shape ip) (e.dndx ip) rho v q) (grad (e.dndx ip) q) (massFlux (e.shape ip) rho v)

/-- `lhsSum` (ScalarNSOFemKernel.C:171-179). -/
def femFac (gup : Fin nd → Fin nd → ℝ) (gr gc : Fin nd → ℝ) : ℝ := ∑ i, ∑ j, gr i * gup i j * gc j

/-- `ScalarNSOFemKernel::execute` (ScalarNSOFemKernel.C:77-187). -/
def femNso (o : Opt) (e : FemIp nn nip nd) (gup glo : Fin nip → Fin nd → Fin nd → ℝ) (rho : Fin nn → ℝ)
    (v : Fin nn → Fin nd → ℝ) (q : Fin nn → ℝ) (s : LocalSys (Fin nn) ℝ) : LocalSys (Fin nn) ℝ :=
  loop nip (fun ip s =>
    let nu := femNu o e gup glo rho v q ip
    let ipFactor := e.detJ ip * e.w ip
    loop nn (fun ir s =>
      let s := loop nn (fun ic s => addL s ir ic (nu * femFac (gup ip) (e.dndx ip ir) (e.dndx ip ic) * ipFactor)) s
      addR s ir (-(nu * (∑ ic, ∑ i, ∑ j, e.dndx ip ir i * gup ip i j * e.dndx ip ic j * q ic) * ipFactor))) s) s

/-! ## Metric tensors -/

/-- `dx_ds` (MasterElementWork.F:2922-2938, 2991-3018). -/
def dxds (deriv x : Fin nn → Fin nd → ℝ) (i j : Fin nd) : ℝ := ∑ kn, deriv kn j * x kn i

/-- `gupperij` (MasterElementWork.F:2958-2959, 3046-3048); the products are summed over the isoparametric directions. -/
def gUp (J : Fin nd → Fin nd → ℝ) (i j : Fin nd) : ℝ := ∑ k, J i k * J j k

/-- `glowerij` (MasterElementWork.F:2960-2961, 3049-3051). -/
def gLo (S : Fin nd → Fin nd → ℝ) (i j : Fin nd) : ℝ := ∑ k, S k i * S k j

/-- `1.d6*realmin` (MasterElementWork.F:2920, 2944). -/
def clipAt : ℝ := 10 ^ 6 * (22250738585072014 / 10 ^ 324)

/-- `denom` (MasterElementWork.F:2944-2948, 3026-3030). -/
def denom (det : ℝ) : ℝ := if det ≤ clipAt then 1 else 1 / det

/-- `det_j` of `twod_gij` (MasterElementWork.F:2941). -/
def det2 (J : Fin 2 → Fin 2 → ℝ) : ℝ := J 0 0 * J 1 1 - J 1 0 * J 0 1

/-- `ds_dx` of `twod_gij` (MasterElementWork.F:2951-2954), given `denom`. -/
def dsdx2 (dn : ℝ) (J : Fin 2 → Fin 2 → ℝ) : Fin 2 → Fin 2 → ℝ :=
  ![![J 1 1 * dn, -J 0 1 * dn], ![-J 1 0 * dn, J 0 0 * dn]]

/-- `det_j` of `threed_gij` (MasterElementWork.F:3021-3023). -/
def det3 (J : Fin 3 → Fin 3 → ℝ) : ℝ :=
  J 0 0 * (J 1 1 * J 2 2 - J 2 1 * J 1 2) + J 1 0 * (J 2 1 * J 0 2 - J 0 1 * J 2 2) + J 2 0 * (J 0 1 * J 1 2 - J 1 1 * J 0 2)

/-- `ds_dx` of `threed_gij` (MasterElementWork.F:3033-3043), given `denom`. -/
def dsdx3 (dn : ℝ) (J : Fin 3 → Fin 3 → ℝ) : Fin 3 → Fin 3 → ℝ :=
  ![![dn * (J 1 1 * J 2 2 - J 2 1 * J 1 2), dn * (J 2 1 * J 0 2 - J 0 1 * J 2 2), dn * (J 0 1 * J 1 2 - J 1 1 * J 0 2)],
    ![dn * (J 2 0 * J 1 2 - J 1 0 * J 2 2), dn * (J 0 0 * J 2 2 - J 2 0 * J 0 2), dn * (J 1 0 * J 0 2 - J 0 0 * J 1 2)],
    ![dn * (J 1 0 * J 2 1 - J 2 0 * J 1 1), dn * (J 2 0 * J 0 1 - J 0 0 * J 2 1), dn * (J 0 0 * J 1 1 - J 1 0 * J 0 1)]]

/-- `twod_gij` at one integration point (MasterElementWork.F:2901-2967). -/
def twodGij (J : Fin 2 → Fin 2 → ℝ) : (Fin 2 → Fin 2 → ℝ) × (Fin 2 → Fin 2 → ℝ) :=
  (gUp J, gLo (dsdx2 (denom (det2 J)) J))

/-- `threed_gij` at one integration point (MasterElementWork.F:2970-3058). -/
def threedGij (J : Fin 3 → Fin 3 → ℝ) : (Fin 3 → Fin 3 → ℝ) × (Fin 3 → Fin 3 → ℝ) :=
  (gUp J, gLo (dsdx3 (denom (det3 J)) J))

/-- `Quad42DSCS::gij` on a SIMD pack of `w + 1` elements (Quad42DCVFEM.C:738-782): the arithmetic is done lane by lane, but
the clip tests the determinant of lane 0 only, `test = stk::simd::get_data(det_j,0)`, and all lanes take the branch it
selects. -/
def quadGijSimd {w : ℕ} (J : Fin (w + 1) → Fin 2 → Fin 2 → ℝ) (lane : Fin (w + 1)) :
    (Fin 2 → Fin 2 → ℝ) × (Fin 2 → Fin 2 → ℝ) :=
  let dn := if det2 (J 0) ≤ clipAt then 1 else 1 / det2 (J lane)
  (fun j i => gUp (J lane) i j, fun j i => gLo (dsdx2 dn (J lane)) i j)

end

end Nalu.Nso
