import Verif.Model.ElemKernel
import Verif.Model.Turbulence

/-!
# Element kernels of the turbulence source terms

Models src/kernel/{SpecificDissipationRateSST, TurbKineticEnergySST, TurbKineticEnergySSTDES, TurbKineticEnergyKEpsilon,
TurbDissipationKEpsilon, TurbKineticEnergyKsgs, TurbKineticEnergyKsgsDesignOrder, TurbKineticEnergyKsgsBuoyancy,
TurbKineticEnergyRodi}SrcElemKernel.C, src/SpecificDissipationRateSSTDESNodeSourceSuppAlg.C and
src/TurbKineticEnergyRodiNodeSourceSuppAlg.C.

`DoubleType` is `ℝ`, one SIMD lane at a time; `stk::math::cbrt` is the real power 1/3 (of non-negative volumes).  `shape` is
`shape_fcn` or `shifted_shape_fcn` (`lumpedMass_`), `dndx` is `dndx_scv` or `dndx_scv_shifted`: both are arbitrary here.
-/

namespace Nalu.TurbElem
open Nalu.Edge Nalu.Kernel Nalu.Turb

variable {nn nip nd : ℕ}

/-- What the kernels know of the element: `v_shape_function_`, `scv_volume`, `ipNodeMap_` and `dndx_scv`. -/
structure Elem (nn nip nd : ℕ) extends Scv nn nip ℝ where
  dndx : Fin nip → Fin nn → Fin nd → ℝ

/-- The nodal fields gathered by the kernels; `diss` is the specific dissipation rate or the dissipation. -/
structure Nodes (nn nd : ℕ) where
  rho : Fin nn → ℝ
  tke : Fin nn → ℝ
  diss : Fin nn → ℝ
  tvisc : Fin nn → ℝ
  visc : Fin nn → ℝ
  fOne : Fin nn → ℝ
  maxLen : Fin nn → ℝ
  dualVol : Fin nn → ℝ
  cEps : Fin nn → ℝ
  u : Fin nn → Fin nd → ℝ

/-- `w_dudx[i][j] += v_dndx(ip,ic,j)*ui` (TurbKineticEnergySSTSrcElemKernel.C:145-150 and the other kernels). -/
def velGrad (dn : Fin nn → Fin nd → ℝ) (u : Fin nn → Fin nd → ℝ) (i j : Fin nd) : ℝ := ∑ ic, dn ic j * u ic i

/-- `w_dkdx[i] += dni*v_tkeNp1(ic)` (SpecificDissipationRateSSTSrcElemKernel.C:157-158). -/
def scaGrad (dn : Fin nn → Fin nd → ℝ) (q : Fin nn → ℝ) (i : Fin nd) : ℝ := ∑ ic, dn ic i * q ic

/-- The assembly at the end of every non-lumped kernel (TurbKineticEnergySSTSrcElemKernel.C:168-172): the source goes to the
row of the nearest node, the coefficient times the shape functions to the columns. -/
noncomputable def srcLoop (e : Scv nn nip ℝ) (pt : Fin nip → ℝ × ℝ) (s : LocalSys (Fin nn) ℝ) : LocalSys (Fin nn) ℝ :=
  loop nip (fun ip s =>
    loop nn (fun ic s => addL s (e.node ip) ic (e.shape ip ic * (pt ip).2 * e.vol ip))
      (addR s (e.node ip) ((pt ip).1 * e.vol ip))) s

/-! ## Shear stress transport -/

/-- TurbKineticEnergySSTSrcElemKernel.C:153-171 at one point: source and matrix coefficient per unit volume. -/
noncomputable def tkeSstPt (betaStar ratio rho tke sdr tvisc : ℝ) (g : Fin nd → Fin nd → ℝ) : ℝ × ℝ :=
  let fac := betaStar * rho * sdr
  let Dk := fac * tke
  (min (gradProduct g * tvisc) (ratio * Dk) - Dk, fac)

/-- `TurbKineticEnergySSTSrcElemKernel::execute` (lines 97-174). -/
noncomputable def tkeSst (betaStar ratio : ℝ) (e : Elem nn nip nd) (f : Nodes nn nd) :
    LocalSys (Fin nn) ℝ → LocalSys (Fin nn) ℝ :=
  srcLoop e.toScv (fun ip => tkeSstPt betaStar ratio (interp (e.shape ip) f.rho) (interp (e.shape ip) f.tke)
    (interp (e.shape ip) f.diss) (interp (e.shape ip) f.tvisc) (velGrad (e.dndx ip) f.u))

/-- TurbKineticEnergySSTDESSrcElemKernel.C:170-197 at one point; `tiny = 1e-16`. -/
noncomputable def tkeDesPt (betaStar ratio tiny ke kw rho tke sdr tvisc maxLen fOne : ℝ) (g : Fin nd → Fin nd → ℝ) : ℝ × ℝ :=
  let cDES := fOne * kw + (1 - fOne) * ke
  let l := max tiny (min (Real.sqrt tke / betaStar / sdr) (cDES * maxLen))
  let fac := rho * Real.sqrt tke / l
  let Dk := fac * tke
  (min (gradProduct g * tvisc) (ratio * Dk) - Dk, fac)

/-- `TurbKineticEnergySSTDESSrcElemKernel::execute` (lines 106-200). -/
noncomputable def tkeDes (betaStar ratio tiny ke kw : ℝ) (e : Elem nn nip nd) (f : Nodes nn nd) :
    LocalSys (Fin nn) ℝ → LocalSys (Fin nn) ℝ :=
  srcLoop e.toScv (fun ip => tkeDesPt betaStar ratio tiny ke kw (interp (e.shape ip) f.rho) (interp (e.shape ip) f.tke)
    (interp (e.shape ip) f.diss) (interp (e.shape ip) f.tvisc) (interp (e.shape ip) f.maxLen) (interp (e.shape ip) f.fOne)
    (velGrad (e.dndx ip) f.u))

/-- The constants of the specific dissipation rate equation. -/
structure SdrOpt where
  betaStar : ℝ
  ratio : ℝ
  betaOne : ℝ
  betaTwo : ℝ
  gammaOne : ℝ
  gammaTwo : ℝ
  sigmaWTwo : ℝ
  /-- `1.0e-16`. -/
  tiny : ℝ

/-- SpecificDissipationRateSSTSrcElemKernel.C:164-202 at one point. -/
noncomputable def sdrPt (o : SdrOpt) (rho tke sdr tvisc fOne : ℝ) (g : Fin nd → Fin nd → ℝ) (dk dw : Fin nd → ℝ) : ℝ × ℝ :=
  let Dk := o.betaStar * rho * sdr * tke
  let Pk := min (gradProduct g * tvisc) (o.ratio * Dk)
  let beta := fOne * o.betaOne + (1 - fOne) * o.betaTwo
  let gamma := fOne * o.gammaOne + (1 - fOne) * o.gammaTwo
  let sigmaD := 2 * (1 - fOne) * o.sigmaWTwo
  let Pw := gamma * rho * Pk / max tvisc o.tiny
  let Dw := beta * rho * sdr * sdr
  let Sw := sigmaD * rho * (∑ i, dk i * dw i) / sdr
  (Pw - Dw + Sw, 2 * beta * rho * sdr + max (Sw / sdr) 0)

/-- `SpecificDissipationRateSSTSrcElemKernel::execute` (lines 100-205). -/
noncomputable def sdrSstElem (o : SdrOpt) (e : Elem nn nip nd) (f : Nodes nn nd) :
    LocalSys (Fin nn) ℝ → LocalSys (Fin nn) ℝ :=
  srcLoop e.toScv (fun ip => sdrPt o (interp (e.shape ip) f.rho) (interp (e.shape ip) f.tke)
    (interp (e.shape ip) f.diss) (interp (e.shape ip) f.tvisc) (interp (e.shape ip) f.fOne) (velGrad (e.dndx ip) f.u)
    (scaGrad (e.dndx ip) f.tke) (scaGrad (e.dndx ip) f.diss))

/-- `SpecificDissipationRateSSTDESNodeSourceSuppAlg::node_execute` (lines 101-138) per unit volume. -/
noncomputable def sdrDesNode (o : SdrOpt) (ke kw maxLen rho tke sdr tvisc fOne : ℝ) (g : Fin nd → Fin nd → ℝ)
    (dk dw : Fin nd → ℝ) : ℝ × ℝ :=
  let cDES := fOne * kw + (1 - fOne) * ke
  let l := max o.tiny (min (Real.sqrt tke / o.betaStar / sdr) (cDES * maxLen))
  let Dk := rho * tke * Real.sqrt tke / l
  let Pk := if o.ratio * Dk < gradProduct g * tvisc then o.ratio * Dk else gradProduct g * tvisc
  let beta := fOne * o.betaOne + (1 - fOne) * o.betaTwo
  let gamma := fOne * o.gammaOne + (1 - fOne) * o.gammaTwo
  let sigmaD := 2 * (1 - fOne) * o.sigmaWTwo
  let Pw := gamma * rho * Pk / max tvisc o.tiny
  let Dw := beta * rho * sdr * sdr
  let Sw := sigmaD * rho * (∑ i, dk i * dw i) / sdr
  (Pw - Dw + Sw, 2 * beta * rho * sdr + max (Sw / sdr) 0)

/-! ## k-epsilon -/

/-- The clipped production at a point (TurbKineticEnergyKEpsilonSrcElemKernel.C:140-155,
TurbDissipationKEpsilonSrcElemKernel.C:149-164). -/
noncomputable def kePk (inc rho tke tvisc : ℝ) (g : Fin nd → Fin nd → ℝ) : ℝ :=
  let divU := (∑ i, g i i) * inc
  max 0 (tvisc * (gradProduct g - 2 / 3 * divU * divU) - 2 / 3 * rho * tke * divU)

/-- TurbKineticEnergyKEpsilonSrcElemKernel.C:156-166 at one point; `tiny` is the smallest normal double. -/
noncomputable def tkeKePt (ratio tiny inc rho tke eps tvisc : ℝ) (g : Fin nd → Fin nd → ℝ) : ℝ × ℝ :=
  let Dk := rho * eps
  (min (kePk inc rho tke tvisc g) (ratio * Dk) - Dk, rho * eps / max tiny tke)

/-- `TurbKineticEnergyKEpsilonSrcElemKernel::execute` (lines 89-169). -/
noncomputable def tkeKe (ratio tiny inc : ℝ) (e : Elem nn nip nd) (f : Nodes nn nd) :
    LocalSys (Fin nn) ℝ → LocalSys (Fin nn) ℝ :=
  srcLoop e.toScv (fun ip => tkeKePt ratio tiny inc (interp (e.shape ip) f.rho) (interp (e.shape ip) f.tke)
    (interp (e.shape ip) f.diss) (interp (e.shape ip) f.tvisc) (velGrad (e.dndx ip) f.u))

/-- TurbDissipationKEpsilonSrcElemKernel.C:165-175 at one point. -/
noncomputable def epsKePt (c1 c2 ratio tiny inc rho tke eps tvisc : ℝ) (g : Fin nd → Fin nd → ℝ) : ℝ × ℝ :=
  let Dk := rho * eps
  (eps / max tiny tke * (c1 * min (kePk inc rho tke tvisc g) (ratio * Dk) - c2 * Dk), c2 * rho * eps / max tiny tke)

/-- `TurbDissipationKEpsilonSrcElemKernel::execute` (lines 92-178). -/
noncomputable def epsKe (c1 c2 ratio tiny inc : ℝ) (e : Elem nn nip nd) (f : Nodes nn nd) :
    LocalSys (Fin nn) ℝ → LocalSys (Fin nn) ℝ :=
  srcLoop e.toScv (fun ip => epsKePt c1 c2 ratio tiny inc (interp (e.shape ip) f.rho) (interp (e.shape ip) f.tke)
    (interp (e.shape ip) f.diss) (interp (e.shape ip) f.tvisc) (velGrad (e.dndx ip) f.u))

/-! ## One-equation subgrid kinetic energy -/

/-- `tkeFac` (TurbKineticEnergyKsgsSrcElemKernel.C:115-117, TurbKineticEnergyKsgsDesignOrderSrcElemKernel.C:156-158). -/
noncomputable def ksgsFac (nd : ℕ) (cEps rho tke vol : ℝ) : ℝ :=
  if nd = 2 then cEps * rho * Real.sqrt (tke / vol) else cEps * rho * Real.sqrt tke / vol ^ (1 / 3 : ℝ)

/-- TurbKineticEnergyKsgsSrcElemKernel.C:105-126 at one node; `lr` is `lrksgsfac_`, `dsq` the nodal `dsqrtk_dx_sq`. -/
noncomputable def ksgsPt (ratio lr cEps rho tke vol tvisc visc dsq : ℝ) (G : Fin nd → Fin nd → ℝ) : ℝ × ℝ :=
  let fac := ksgsFac nd cEps rho tke vol
  let Dk := fac * tke + lr * 2 * visc * dsq
  (min (gradProduct G * tvisc) (ratio * Dk) - Dk, 3 / 2 * fac)

/-- `TurbKineticEnergyKsgsSrcElemKernel::execute` (lines 80-128): everything is evaluated at the nearest node and only the
diagonal is written; `Gju` is the nodal velocity gradient. -/
noncomputable def ksgsElem (ratio lr : ℝ) (e : Scv nn nip ℝ) (f : Nodes nn nd) (Gju : Fin nn → Fin nd → Fin nd → ℝ)
    (dsq : Fin nn → ℝ) (s : LocalSys (Fin nn) ℝ) : LocalSys (Fin nn) ℝ :=
  loop nip (fun ip s =>
    let n := e.node ip
    let p := ksgsPt ratio lr (f.cEps n) (f.rho n) (f.tke n) (f.dualVol n) (f.tvisc n) (f.visc n) (dsq n) (Gju n)
    addL (addR s n (p.1 * e.vol ip)) n n (p.2 * e.vol ip)) s

/-- TurbKineticEnergyKsgsDesignOrderSrcElemKernel.C:141-167 at one point; `ds` is the gradient of the square root of the
kinetic energy. -/
noncomputable def ksgsDesignPt (ratio lr cEps rho tke vol tvisc visc : ℝ) (g : Fin nd → Fin nd → ℝ) (ds : Fin nd → ℝ) : ℝ × ℝ :=
  let Pk := gradProduct g * max tvisc 0
  let k := max tke 0
  let fac := ksgsFac nd cEps (max rho 0) k (max vol 0)
  let Dk := fac * k + lr * 2 * visc * ∑ i, ds i * ds i
  (min Pk (ratio * Dk) - Dk, 3 / 2 * fac)

/-- `TurbKineticEnergyKsgsDesignOrderSrcElemKernel::execute` (lines 77-170). -/
noncomputable def ksgsDesign (ratio lr : ℝ) (e : Elem nn nip nd) (f : Nodes nn nd) :
    LocalSys (Fin nn) ℝ → LocalSys (Fin nn) ℝ :=
  srcLoop e.toScv (fun ip => ksgsDesignPt ratio lr (interp (e.shape ip) f.cEps) (interp (e.shape ip) f.rho)
    (interp (e.shape ip) f.tke) (interp (e.shape ip) f.dualVol) (interp (e.shape ip) f.tvisc) (interp (e.shape ip) f.visc)
    (velGrad (e.dndx ip) f.u) (scaGrad (e.dndx ip) (fun ic => Real.sqrt (f.tke ic))))

/-! ## Buoyancy -/

/-- `cross_product_magnitude` (TurbKineticEnergyKsgsBuoyancySrcElemKernel.C:132-139). -/
noncomputable def crossMag (w g : Fin 3 → ℝ) : ℝ :=
  let x := w 1 * g 2 - w 2 * g 1
  let y := -(w 0 * g 2 - w 2 * g 0)
  let z := w 0 * g 1 - w 1 * g 0
  Real.sqrt (x * x + y * y + z * z)

/-- TurbKineticEnergyKsgsBuoyancySrcElemKernel.C:112-124 without the volume. -/
noncomputable def buoyPt (cb2 tke vol : ℝ) (w g : Fin 3 → ℝ) : ℝ :=
  cb2 * vol ^ (1 / 3 : ℝ) * Real.sqrt tke * (crossMag w g - ∑ i, w i * g i)

/-- The body of the loop over the points of `TurbKineticEnergyKsgsBuoyancySrcElemKernel::execute` (lines 90-125): the scratch
`w_drhodx_` is a data member of the kernel, so its content `w` survives from one point, element and caller to the next. -/
noncomputable def buoyStep (cb2 : ℝ) (g : Fin 3 → ℝ) (e : Elem nn nip 3) (f : Nodes nn 3) (ip : Fin nip)
    (t : (Fin 3 → ℝ) × LocalSys (Fin nn) ℝ) : (Fin 3 → ℝ) × LocalSys (Fin nn) ℝ :=
  let w : Fin 3 → ℝ := loop 3 (fun j w => Function.update w j 0) t.1
  let w := loop nn (fun ic w j => w j + e.dndx ip ic j * f.rho ic) w
  (w, addR t.2 (e.node ip) (buoyPt cb2 (interp (e.shape ip) f.tke) (interp (e.shape ip) f.dualVol) w g * e.vol ip))

/-- `TurbKineticEnergyKsgsBuoyancySrcElemKernel::execute` (lines 76-126), run by one thread. -/
noncomputable def buoy (cb2 : ℝ) (g : Fin 3 → ℝ) (e : Elem nn nip 3) (f : Nodes nn 3)
    (t : (Fin 3 → ℝ) × LocalSys (Fin nn) ℝ) : (Fin 3 → ℝ) × LocalSys (Fin nn) ℝ :=
  loop nip (buoyStep cb2 g e f) t

/-- `TurbKineticEnergyRodiNodeSourceSuppAlg::node_execute` (lines 72-80) per unit volume. -/
noncomputable def rodiPt (beta pr tvisc cp : ℝ) (g dh : Fin nd → ℝ) : ℝ := beta * tvisc / pr * (∑ i, g i * dh i) / cp

/-- `TurbKineticEnergyRodiSrcElemKernel::execute` (lines 67-92). -/
noncomputable def rodiElem (beta pr : ℝ) (g : Fin nd → ℝ) (e : Scv nn nip ℝ) (tvisc cp : Fin nn → ℝ) (dh : Fin nn → Fin nd → ℝ)
    (s : LocalSys (Fin nn) ℝ) : LocalSys (Fin nn) ℝ :=
  loop nip (fun ip s => addR s (e.node ip) (rodiPt beta pr (tvisc (e.node ip)) (cp (e.node ip)) g (dh (e.node ip)) * e.vol ip)) s

/-! ## Threads sharing one kernel object

`AssembleElemSolverAlgorithm::run_algorithm` runs the kernels inside `Kokkos::parallel_for` over buckets and groups of elements
(include/AssembleElemSolverAlgorithm.h:71-105); all threads call `execute` of the same kernel object. -/

/-- What the buoyancy kernel does to the shared scratch `w_drhodx_`: zero it (lines 97-99; three stores counted as one), add one
node's contribution (lines 107-109), read it for the source of the integration point `tag` (lines 113-121). -/
inductive Act where
  | zero
  | add (d : Fin 3 → ℝ)
  | use (tag : ℕ)

/-- The accesses in the order in which memory sees them, and the gradient each read obtains. -/
def exec : List Act → (Fin 3 → ℝ) → List (ℕ × (Fin 3 → ℝ))
  | [], _ => []
  | .zero :: l, _ => exec l (fun _ => 0)
  | .add d :: l, w => exec l (fun j => w j + d j)
  | .use t :: l, w => (t, w) :: exec l w

/-- The accesses of one integration point (lines 92-124). -/
def block (b : ℕ × List (Fin 3 → ℝ)) : List Act := .zero :: (b.2.map .add ++ [.use b.1])

/-- The interleavings of two threads. -/
inductive Shuffle {α : Type*} : List α → List α → List α → Prop
  | nil : Shuffle [] [] []
  | left {a l m r} : Shuffle l m r → Shuffle (a :: l) m (a :: r)
  | right {a l m r} : Shuffle l m r → Shuffle l (a :: m) (a :: r)

end Nalu.TurbElem
