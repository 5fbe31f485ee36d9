import Verif.Proofs.TurbElem
import Mathlib.Tactic.FinCases

/-!
# C180-C186: turbulence source terms of the element schemes
-/

namespace Nalu.TurbElem
open Nalu.Edge Nalu.Kernel Nalu.Turb Nalu.TurbElem.Spec

variable {nn nip nd : ℕ}

/-! ## C180: shear stress transport -/

/-- **C180** Kinetic energy: over every sub-control volume the kernel integrates production, limited to a multiple of the
destruction, minus the destruction `β* ρ ω k`, all from interpolated fields; the matrix gets the destruction's derivative. -/
theorem c180_tke (betaStar ratio : ℝ) (e : Elem nn nip nd) (f : Nodes nn nd) :
    Integrates (tkeSst betaStar ratio e f) e.node e.vol e.shape
      (fun ip =>
        let rho := ∑ n, e.shape ip n * f.rho n
        let k := ∑ n, e.shape ip n * f.tke n
        let w := ∑ n, e.shape ip n * f.diss n
        min (production (∑ n, e.shape ip n * f.tvisc n) (fun i j => ∑ n, e.dndx ip n j * f.u n i))
          (ratio * (betaStar * rho * w * k)) - betaStar * rho * w * k)
      (fun ip => betaStar * (∑ n, e.shape ip n * f.rho n) * ∑ n, e.shape ip n * f.diss n) := by
  refine integrates_congr (srcLoop_integrates _ _) (funext fun ip => ?_) (funext fun ip => ?_)
  · simp only [tkeSstPt, gradProduct_eq]; rfl
  · rfl

/-- **C180** Detached-eddy variant: the destruction is `ρ k^{3/2}/l` with `l` the smaller of the RANS length `√k/(β* ω)` and the
grid length, never below `tiny`. -/
theorem c180_tke_des (betaStar ratio tiny ke kw : ℝ) (e : Elem nn nip nd) (f : Nodes nn nd) :
    Integrates (tkeDes betaStar ratio tiny ke kw e f) e.node e.vol e.shape
      (fun ip =>
        let k := ∑ n, e.shape ip n * f.tke n
        let F := ∑ n, e.shape ip n * f.fOne n
        let l := max tiny (min (Real.sqrt k / (betaStar * ∑ n, e.shape ip n * f.diss n))
          ((F * kw + (1 - F) * ke) * ∑ n, e.shape ip n * f.maxLen n))
        let D := (∑ n, e.shape ip n * f.rho n) * (k * Real.sqrt k) / l
        min (production (∑ n, e.shape ip n * f.tvisc n) (fun i j => ∑ n, e.dndx ip n j * f.u n i)) (ratio * D) - D)
      (fun ip =>
        let k := ∑ n, e.shape ip n * f.tke n
        let F := ∑ n, e.shape ip n * f.fOne n
        (∑ n, e.shape ip n * f.rho n) * Real.sqrt k / max tiny (min (Real.sqrt k / (betaStar * ∑ n, e.shape ip n * f.diss n))
          ((F * kw + (1 - F) * ke) * ∑ n, e.shape ip n * f.maxLen n))) := by
  refine integrates_congr (srcLoop_integrates _ _) (funext fun ip => ?_) (funext fun ip => ?_)
  · simp only [tkeDesPt, gradProduct_eq, div_div, show ∀ r s l k : ℝ, r * s / l * k = r * (k * s) / l by intro r s l k; ring]; rfl
  · simp only [tkeDesPt, div_div]; rfl

/-- **C180** Specific dissipation rate: production `γ ρ/μ_t` times the limited production of kinetic energy, destruction `β ρ ω²`,
cross diffusion `2 (1-F) σ ρ ∇k·∇ω/ω`; the matrix gets `2 β ρ ω` and the positive part of the cross diffusion. -/
theorem c180_sdr (o : SdrOpt) (e : Elem nn nip nd) (f : Nodes nn nd) :
    Integrates (sdrSstElem o e f) e.node e.vol e.shape
      (fun ip =>
        let rho := ∑ n, e.shape ip n * f.rho n
        let k := ∑ n, e.shape ip n * f.tke n
        let w := ∑ n, e.shape ip n * f.diss n
        let F := ∑ n, e.shape ip n * f.fOne n
        let nut := ∑ n, e.shape ip n * f.tvisc n
        blend F o.gammaOne o.gammaTwo * rho * min (production nut (fun i j => ∑ n, e.dndx ip n j * f.u n i))
            (o.ratio * (o.betaStar * rho * w * k)) / max nut o.tiny
          - blend F o.betaOne o.betaTwo * rho * w ^ 2
          + 2 * (1 - F) * o.sigmaWTwo * rho * (∑ i, (∑ n, e.dndx ip n i * f.tke n) * ∑ n, e.dndx ip n i * f.diss n) / w)
      (fun ip =>
        let rho := ∑ n, e.shape ip n * f.rho n
        let w := ∑ n, e.shape ip n * f.diss n
        let F := ∑ n, e.shape ip n * f.fOne n
        2 * blend F o.betaOne o.betaTwo * rho * w +
          max (2 * (1 - F) * o.sigmaWTwo * rho * (∑ i, (∑ n, e.dndx ip n i * f.tke n) * ∑ n, e.dndx ip n i * f.diss n) / w ^ 2) 0) := by
  refine integrates_congr (srcLoop_integrates _ _) (funext fun ip => ?_) (funext fun ip => ?_)
  · simp only [sdrPt, gradProduct_eq, show ∀ b r w : ℝ, b * r * w * w = b * r * w ^ 2 by intro b r w; ring]; rfl
  · simp only [sdrPt, div_div, ← sq]; rfl

/-- **C180** Production can add at most the given multiple of the destruction and is never negative. -/
theorem c180_limited {tvisc ratio D : ℝ} (ht : 0 ≤ tvisc) (hr : 0 ≤ ratio) (hD : 0 ≤ D) (g : Fin nd → Fin nd → ℝ) :
    0 ≤ min (production tvisc g) (ratio * D) ∧ min (production tvisc g) (ratio * D) ≤ ratio * D :=
  ⟨le_min (production_nonneg ht g) (mul_nonneg hr hD), min_le_right _ _⟩

/-! ## C181: k-epsilon -/

/-- **C181** Kinetic energy: production `τ:∇u` of the full stress (clipped at zero) limited to a multiple of the destruction,
minus the destruction `ρ ε`. -/
theorem c181_tke (ratio tiny : ℝ) (e : Elem nn nip nd) (f : Nodes nn nd) :
    Integrates (tkeKe ratio tiny 1 e f) e.node e.vol e.shape
      (fun ip =>
        let rho := ∑ n, e.shape ip n * f.rho n
        let eps := ∑ n, e.shape ip n * f.diss n
        min (productionDilatation (∑ n, e.shape ip n * f.tvisc n) rho (∑ n, e.shape ip n * f.tke n)
          (fun i j => ∑ n, e.dndx ip n j * f.u n i)) (ratio * (rho * eps)) - rho * eps)
      (fun ip => (∑ n, e.shape ip n * f.rho n) * (∑ n, e.shape ip n * f.diss n) / max tiny (∑ n, e.shape ip n * f.tke n)) := by
  refine integrates_congr (srcLoop_integrates _ _) (funext fun ip => ?_) (funext fun ip => ?_)
  · simp only [tkeKePt, kePk_one]; rfl
  · rfl

/-- **C181** Dissipation: `(ε/k)(C1 P - C2 ρ ε)` with the same limited production. -/
theorem c181_eps (c1 c2 ratio tiny : ℝ) (e : Elem nn nip nd) (f : Nodes nn nd) :
    Integrates (epsKe c1 c2 ratio tiny 1 e f) e.node e.vol e.shape
      (fun ip =>
        let rho := ∑ n, e.shape ip n * f.rho n
        let eps := ∑ n, e.shape ip n * f.diss n
        let k := ∑ n, e.shape ip n * f.tke n
        eps / max tiny k * (c1 * min (productionDilatation (∑ n, e.shape ip n * f.tvisc n) rho k
          (fun i j => ∑ n, e.dndx ip n j * f.u n i)) (ratio * (rho * eps)) - c2 * (rho * eps)))
      (fun ip => c2 * (∑ n, e.shape ip n * f.rho n) * (∑ n, e.shape ip n * f.diss n) /
        max tiny (∑ n, e.shape ip n * f.tke n)) := by
  refine integrates_congr (srcLoop_integrates _ _) (funext fun ip => ?_) (funext fun ip => ?_)
  · simp only [epsKePt, kePk_one]; rfl
  · rfl

/-- **C181** With the dilatation switched off the production of both equations is `2 μ_t S:S`. -/
theorem c181_incompressible (c1 c2 ratio tiny rho tke eps tvisc : ℝ) (h : 0 ≤ tvisc) (g : Fin nd → Fin nd → ℝ) :
    (tkeKePt ratio tiny 0 rho tke eps tvisc g).1 = min (production tvisc g) (ratio * (rho * eps)) - rho * eps ∧
    (epsKePt c1 c2 ratio tiny 0 rho tke eps tvisc g).1 =
      eps / max tiny tke * (c1 * min (production tvisc g) (ratio * (rho * eps)) - c2 * (rho * eps)) := by
  simp only [tkeKePt, epsKePt, kePk_zero _ _ _ h, and_self]

/-! ## C182: subgrid kinetic energy -/

/-- The dissipation coefficient is `C_ε ρ √k/Δ` with `Δ = V^{1/d}` in two and three dimensions. -/
theorem ksgsFac_eq (hd : nd = 2 ∨ nd = 3) (cEps rho tke vol : ℝ) (hk : 0 ≤ tke) :
    ksgsFac nd cEps rho tke vol = if nd = 2 ∧ vol < 0 then ksgsFac nd cEps rho tke vol
      else cEps * rho * Real.sqrt tke / vol ^ (1 / (nd : ℝ)) := by
  rcases hd with rfl | rfl
  · by_cases h : vol < 0
    · simp [h]
    · rw [if_neg (by simpa using h)]
      unfold ksgsFac
      rw [if_pos rfl, Real.sqrt_div hk, Real.sqrt_eq_rpow vol]
      norm_num
      ring
  · simp [ksgsFac]

/-- **C182** The lumped kernel: at the nearest node, production limited to a multiple of the destruction
`C_ε ρ k^{3/2}/Δ + 2 μ |∇√k|²` (the last term for the low-Reynolds variant, `lr = 1`), minus the destruction; on the diagonal
the derivative `(3/2) C_ε ρ √k/Δ`. -/
theorem c182_lumped (hd : nd = 2 ∨ nd = 3) (ratio lr : ℝ) (e : Scv nn nip ℝ) (f : Nodes nn nd)
    (Gju : Fin nn → Fin nd → Fin nd → ℝ) (dsq : Fin nn → ℝ) (hk : ∀ n, 0 ≤ f.tke n) (hv : ∀ n, 0 ≤ f.dualVol n) :
    Integrates (ksgsElem ratio lr e f Gju dsq) e.node e.vol (fun ip b => if b = e.node ip then 1 else 0)
      (fun ip =>
        let n := e.node ip
        let D := f.cEps n * f.rho n * f.tke n ^ (3 / 2 : ℝ) / f.dualVol n ^ (1 / (nd : ℝ)) + lr * (2 * f.visc n * dsq n)
        min (production (f.tvisc n) (Gju n)) (ratio * D) - D)
      (fun ip => 3 / 2 * (f.cEps (e.node ip) * f.rho (e.node ip) * Real.sqrt (f.tke (e.node ip)) /
        f.dualVol (e.node ip) ^ (1 / (nd : ℝ)))) := by
  have h := ksgs_integrates ratio lr e f Gju dsq
  have hf : ∀ n, ksgsFac nd (f.cEps n) (f.rho n) (f.tke n) (f.dualVol n) =
      f.cEps n * f.rho n * Real.sqrt (f.tke n) / f.dualVol n ^ (1 / (nd : ℝ)) := fun n => by
    rw [ksgsFac_eq hd _ _ _ _ (hk n), if_neg (by simp [not_lt.2 (hv n)])]
  have hp : ∀ n, f.tke n ^ (3 / 2 : ℝ) = Real.sqrt (f.tke n) * f.tke n := fun n => by
    rw [show (3 / 2 : ℝ) = 1 / 2 + 1 by norm_num, Real.rpow_add_of_nonneg (hk n) (by norm_num) (by norm_num), Real.rpow_one,
      Real.sqrt_eq_rpow]
  have e1 : ∀ c r s v k : ℝ, c * r * s / v * k = c * r * (s * k) / v := by intro c r s v k; ring
  have e2 : ∀ l m d : ℝ, l * 2 * m * d = l * (2 * m * d) := by intro l m d; ring
  simp only [ksgsPt, gradProduct_eq, hf, e1, e2, ← hp] at h
  exact h

/-- **C182** The consistent kernel integrates the same source from interpolated values, each of eddy viscosity, kinetic energy,
density and volume clipped at zero. -/
theorem c182_design (hd : nd = 2 ∨ nd = 3) (ratio lr : ℝ) (e : Elem nn nip nd) (f : Nodes nn nd) :
    Integrates (ksgsDesign ratio lr e f) e.node e.vol e.shape
      (fun ip =>
        let k := max (∑ n, e.shape ip n * f.tke n) 0
        let D := (∑ n, e.shape ip n * f.cEps n) * max (∑ n, e.shape ip n * f.rho n) 0 * k ^ (3 / 2 : ℝ) /
          max (∑ n, e.shape ip n * f.dualVol n) 0 ^ (1 / (nd : ℝ)) +
          lr * (2 * (∑ n, e.shape ip n * f.visc n) * ∑ i, (∑ n, e.dndx ip n i * Real.sqrt (f.tke n)) ^ 2)
        min (production (max (∑ n, e.shape ip n * f.tvisc n) 0) (fun i j => ∑ n, e.dndx ip n j * f.u n i)) (ratio * D) - D)
      (fun ip => 3 / 2 * ((∑ n, e.shape ip n * f.cEps n) * max (∑ n, e.shape ip n * f.rho n) 0 *
        Real.sqrt (max (∑ n, e.shape ip n * f.tke n) 0) / max (∑ n, e.shape ip n * f.dualVol n) 0 ^ (1 / (nd : ℝ)))) := by
  have hf : ∀ c r k v : ℝ, ksgsFac nd c r (max k 0) (max v 0) = c * r * Real.sqrt (max k 0) / max v 0 ^ (1 / (nd : ℝ)) :=
    fun c r k v => by
      rw [ksgsFac_eq hd _ _ _ _ (le_max_right _ _), if_neg (by simp)]
  have hp : ∀ k : ℝ, max k 0 ^ (3 / 2 : ℝ) = Real.sqrt (max k 0) * max k 0 := fun k => by
    rw [show (3 / 2 : ℝ) = 1 / 2 + 1 by norm_num,
      Real.rpow_add_of_nonneg (le_max_right _ _) (by norm_num) (by norm_num), Real.rpow_one, Real.sqrt_eq_rpow]
  have e1 : ∀ c r s v k : ℝ, c * r * s / v * k = c * r * (s * k) / v := by intro c r s v k; ring
  have e2 : ∀ l m d : ℝ, l * 2 * m * d = l * (2 * m * d) := by intro l m d; ring
  refine integrates_congr (srcLoop_integrates _ _) (funext fun ip => ?_) (funext fun ip => ?_)
  · simp only [ksgsDesignPt, gradProduct_eq, hf, e1, e2, ← hp, ← sq]; rfl
  · simp only [ksgsDesignPt, hf]; rfl

/-! ## C183: with lumped shape functions the sources cannot change the sign of their variable -/

/-- Lumped shape functions (`shifted_shape_fcn` at the sub-control volume points): one at the nearest node. -/
def Lumped (N : Fin nip → Fin nn → ℝ) (node : Fin nip → Fin nn) : Prop := ∀ ip b, N ip b = if b = node ip then 1 else 0

theorem interp_lumped {N : Fin nip → Fin nn → ℝ} {node : Fin nip → Fin nn} (h : Lumped N node) (q : Fin nn → ℝ) (ip : Fin nip) :
    interp (N ip) q = q (node ip) := by simp [interp, h ip]

/-- The zeroed local arrays a kernel starts from. -/
def zeroL (nn : ℕ) : LocalSys (Fin nn) ℝ := ⟨fun _ _ => 0, fun _ => 0⟩

/-- A local system seen as a system over the element's nodes. -/
def asSys (s : LocalSys (Fin nn) ℝ) : Sys (Fin nn) ℝ := ⟨s.lhs, s.rhs⟩

theorem keeps_of {k : LocalSys (Fin nn) ℝ → LocalSys (Fin nn) ℝ} {node : Fin nip → Fin nn} {vol : Fin nip → ℝ}
    {N : Fin nip → Fin nn → ℝ} {src coef : Fin nip → ℝ} (hI : Integrates k node vol N src coef) (hN : Lumped N node)
    (hv : ∀ ip, 0 ≤ vol ip) (hc : ∀ ip, 0 ≤ coef ip) (q : Fin nn → ℝ) (hs : ∀ ip, -(coef ip * q (node ip)) ≤ src ip) :
    KeepsSign (asSys (k (zeroL nn))) q := by
  intro a
  have h0 := hI (zeroL nn) a
  have hd : (k (zeroL nn)).lhs a a = ∑ ip ∈ Finset.univ.filter (fun ip => node ip = a), coef ip * vol ip := by
    rw [h0.2 a]
    simp only [zeroL, zero_add]
    refine Finset.sum_congr rfl fun ip hip => ?_
    rw [hN ip a, if_pos (Finset.mem_filter.1 hip).2.symm, one_mul]
  refine ⟨?_, ?_, ?_⟩
  · change 0 ≤ (k (zeroL nn)).lhs a a
    rw [hd]
    exact Finset.sum_nonneg fun ip _ => mul_nonneg (hc ip) (hv ip)
  · intro b hb
    change (k (zeroL nn)).lhs a b = 0
    rw [h0.2 b]
    simp only [zeroL, zero_add]
    refine Finset.sum_eq_zero fun ip hip => ?_
    rw [hN ip b, if_neg (by rw [(Finset.mem_filter.1 hip).2]; exact hb)]
    simp
  · change -((k (zeroL nn)).lhs a a * q a) ≤ (k (zeroL nn)).rhs a
    rw [hd, h0.1]
    simp only [zeroL, zero_add]
    rw [Finset.sum_mul, ← Finset.sum_neg_distrib]
    refine Finset.sum_le_sum fun ip hip => ?_
    have := mul_le_mul_of_nonneg_right (hs ip) (hv ip)
    rw [(Finset.mem_filter.1 hip).2] at this
    linarith

/-- **C183** Kinetic energy of the SST and the detached-eddy model on an element with lumped shape functions. -/
theorem c183_sst (betaStar ratio tiny ke kw : ℝ) (e : Elem nn nip nd) (f : Nodes nn nd) (hN : Lumped e.shape e.node)
    (hv : ∀ ip, 0 ≤ e.vol ip) (hb : 0 ≤ betaStar) (hra : 0 ≤ ratio) (ht : 0 < tiny) (hr : ∀ n, 0 ≤ f.rho n)
    (hk : ∀ n, 0 ≤ f.tke n) (hw : ∀ n, 0 ≤ f.diss n) (hm : ∀ n, 0 ≤ f.tvisc n) :
    KeepsSign (asSys (tkeSst betaStar ratio e f (zeroL nn))) f.tke ∧
    KeepsSign (asSys (tkeDes betaStar ratio tiny ke kw e f (zeroL nn))) f.tke := by
  have hi : ∀ (q : Fin nn → ℝ) ip, interp (e.shape ip) q = q (e.node ip) := fun q ip => interp_lumped hN q ip
  constructor
  · refine keeps_of (srcLoop_integrates _ _) hN hv ?_ _ ?_
    · intro ip; simp only [tkeSstPt, hi]; exact mul_nonneg (mul_nonneg hb (hr _)) (hw _)
    · intro ip
      simp only [tkeSstPt, hi, gradProduct_eq]
      have hD : 0 ≤ betaStar * f.rho (e.node ip) * f.diss (e.node ip) * f.tke (e.node ip) :=
        mul_nonneg (mul_nonneg (mul_nonneg hb (hr _)) (hw _)) (hk _)
      have := (c180_limited (hm (e.node ip)) hra hD (velGrad (e.dndx ip) f.u)).1
      linarith
  · have hl : ∀ x : ℝ, 0 < max tiny x := fun x => lt_max_of_lt_left ht
    refine keeps_of (srcLoop_integrates _ _) hN hv ?_ _ ?_
    · intro ip; simp only [tkeDesPt, hi]; exact div_nonneg (mul_nonneg (hr _) (Real.sqrt_nonneg _)) (hl _).le
    · intro ip
      simp only [tkeDesPt, hi, gradProduct_eq]
      set F := f.rho (e.node ip) * Real.sqrt (f.tke (e.node ip)) / max tiny (min (Real.sqrt (f.tke (e.node ip)) / betaStar /
        f.diss (e.node ip)) ((f.fOne (e.node ip) * kw + (1 - f.fOne (e.node ip)) * ke) * f.maxLen (e.node ip))) with hF
      have hD : 0 ≤ F * f.tke (e.node ip) :=
        mul_nonneg (div_nonneg (mul_nonneg (hr _) (Real.sqrt_nonneg _)) (hl _).le) (hk _)
      have := (c180_limited (hm (e.node ip)) hra hD (velGrad (e.dndx ip) f.u)).1
      linarith

/-- **C183** Kinetic energy and dissipation of the k-epsilon model. -/
theorem c183_keps (c1 c2 ratio tiny inc : ℝ) (e : Elem nn nip nd) (f : Nodes nn nd) (hN : Lumped e.shape e.node)
    (hv : ∀ ip, 0 ≤ e.vol ip) (hc1 : 0 ≤ c1) (hc2 : 0 ≤ c2) (hra : 0 ≤ ratio) (ht : 0 < tiny) (hr : ∀ n, 0 ≤ f.rho n)
    (hk : ∀ n, tiny ≤ f.tke n) (hw : ∀ n, 0 ≤ f.diss n) :
    KeepsSign (asSys (tkeKe ratio tiny inc e f (zeroL nn))) f.tke ∧
    KeepsSign (asSys (epsKe c1 c2 ratio tiny inc e f (zeroL nn))) f.diss := by
  have hi : ∀ (q : Fin nn → ℝ) ip, interp (e.shape ip) q = q (e.node ip) := fun q ip => interp_lumped hN q ip
  have hk0 : ∀ n, 0 < f.tke n := fun n => ht.trans_le (hk n)
  have hmax : ∀ n, max tiny (f.tke n) = f.tke n := fun n => max_eq_right (hk n)
  have hP : ∀ ip, 0 ≤ min (kePk inc (f.rho (e.node ip)) (f.tke (e.node ip)) (f.tvisc (e.node ip)) (velGrad (e.dndx ip) f.u))
      (ratio * (f.rho (e.node ip) * f.diss (e.node ip))) := fun ip =>
    le_min (le_max_left _ _) (mul_nonneg hra (mul_nonneg (hr _) (hw _)))
  constructor
  · refine keeps_of (srcLoop_integrates _ _) hN hv ?_ _ ?_
    · intro ip; simp only [tkeKePt, hi, hmax]; exact div_nonneg (mul_nonneg (hr _) (hw _)) (hk0 _).le
    · intro ip
      simp only [tkeKePt, hi, hmax]
      rw [div_mul_cancel₀ _ (hk0 _).ne']
      linarith [hP ip]
  · refine keeps_of (srcLoop_integrates _ _) hN hv ?_ _ ?_
    · intro ip; simp only [epsKePt, hi, hmax]; exact div_nonneg (mul_nonneg (mul_nonneg hc2 (hr _)) (hw _)) (hk0 _).le
    · intro ip
      simp only [epsKePt, hi, hmax]
      have h1 : 0 ≤ f.diss (e.node ip) / f.tke (e.node ip) * (c1 * min (kePk inc (f.rho (e.node ip)) (f.tke (e.node ip))
          (f.tvisc (e.node ip)) (velGrad (e.dndx ip) f.u)) (ratio * (f.rho (e.node ip) * f.diss (e.node ip)))) :=
        mul_nonneg (div_nonneg (hw _) (hk0 _).le) (mul_nonneg hc1 (hP ip))
      rw [mul_sub]
      have : c2 * f.rho (e.node ip) * f.diss (e.node ip) / f.tke (e.node ip) * f.diss (e.node ip) =
        f.diss (e.node ip) / f.tke (e.node ip) * (c2 * (f.rho (e.node ip) * f.diss (e.node ip))) := by ring
      linarith

/-- **C183** Specific dissipation rate, as long as the cross diffusion does not exceed the destruction in size where it is
negative. -/
theorem c183_sdr (o : SdrOpt) (e : Elem nn nip nd) (f : Nodes nn nd) (hN : Lumped e.shape e.node)
    (hv : ∀ ip, 0 ≤ e.vol ip) (hb : 0 ≤ o.betaStar) (hb1 : 0 ≤ o.betaOne) (hb2 : 0 ≤ o.betaTwo) (hg1 : 0 ≤ o.gammaOne)
    (hg2 : 0 ≤ o.gammaTwo) (hra : 0 ≤ o.ratio) (ht : 0 < o.tiny) (hr : ∀ n, 0 ≤ f.rho n) (hk : ∀ n, 0 ≤ f.tke n)
    (hw : ∀ n, 0 < f.diss n) (hm : ∀ n, 0 ≤ f.tvisc n) (hF : ∀ n, 0 ≤ f.fOne n ∧ f.fOne n ≤ 1)
    (hx : ∀ ip, -(blend (f.fOne (e.node ip)) o.betaOne o.betaTwo * f.rho (e.node ip) * f.diss (e.node ip) ^ 2) ≤
      2 * (1 - f.fOne (e.node ip)) * o.sigmaWTwo * f.rho (e.node ip) *
        (∑ i, (∑ n, e.dndx ip n i * f.tke n) * ∑ n, e.dndx ip n i * f.diss n) / f.diss (e.node ip)) :
    KeepsSign (asSys (sdrSstElem o e f (zeroL nn))) f.diss := by
  have hi : ∀ (q : Fin nn → ℝ) ip, interp (e.shape ip) q = q (e.node ip) := fun q ip => interp_lumped hN q ip
  have hbl : ∀ n, 0 ≤ f.fOne n * o.betaOne + (1 - f.fOne n) * o.betaTwo := fun n =>
    add_nonneg (mul_nonneg (hF n).1 hb1) (mul_nonneg (by linarith [(hF n).2]) hb2)
  have hgl : ∀ n, 0 ≤ f.fOne n * o.gammaOne + (1 - f.fOne n) * o.gammaTwo := fun n =>
    add_nonneg (mul_nonneg (hF n).1 hg1) (mul_nonneg (by linarith [(hF n).2]) hg2)
  refine keeps_of (srcLoop_integrates _ _) hN hv ?_ _ ?_
  · intro ip
    simp only [sdrPt, hi]
    exact add_nonneg (mul_nonneg (mul_nonneg (mul_nonneg (by norm_num) (hbl _)) (hr _)) (hw _).le) (le_max_right _ _)
  · intro ip
    simp only [sdrPt, hi, gradProduct_eq]
    have h1 := hx ip
    unfold blend at h1
    change _ ≤ 2 * (1 - f.fOne (e.node ip)) * o.sigmaWTwo * f.rho (e.node ip) *
      (∑ i, scaGrad (e.dndx ip) f.tke i * scaGrad (e.dndx ip) f.diss i) / f.diss (e.node ip) at h1
    set n := e.node ip
    set S := 2 * (1 - f.fOne n) * o.sigmaWTwo * f.rho n *
      (∑ i, scaGrad (e.dndx ip) f.tke i * scaGrad (e.dndx ip) f.diss i) / f.diss n
    set be := f.fOne n * o.betaOne + (1 - f.fOne n) * o.betaTwo
    have hD : 0 ≤ o.betaStar * f.rho n * f.diss n * f.tke n := mul_nonneg (mul_nonneg (mul_nonneg hb (hr _)) (hw _).le) (hk _)
    have hp := (c180_limited (hm n) hra hD (velGrad (e.dndx ip) f.u)).1
    have hPw : 0 ≤ (f.fOne n * o.gammaOne + (1 - f.fOne n) * o.gammaTwo) * f.rho n *
        min (production (f.tvisc n) (velGrad (e.dndx ip) f.u)) (o.ratio * (o.betaStar * f.rho n * f.diss n * f.tke n)) /
        max (f.tvisc n) o.tiny :=
      div_nonneg (mul_nonneg (mul_nonneg (hgl _) (hr _)) hp) (lt_max_of_lt_right ht).le
    have hM : 0 ≤ max (S / f.diss n) 0 * f.diss n := mul_nonneg (le_max_right _ _) (hw _).le
    have h2 : 0 ≤ be * f.rho n * f.diss n ^ 2 := mul_nonneg (mul_nonneg (hbl _) (hr _)) (sq_nonneg _)
    have e1 : (2 * be * f.rho n * f.diss n + max (S / f.diss n) 0) * f.diss n =
      2 * (be * f.rho n * f.diss n ^ 2) + max (S / f.diss n) 0 * f.diss n := by ring
    have e2 : be * f.rho n * f.diss n * f.diss n = be * f.rho n * f.diss n ^ 2 := by ring
    rw [e1, e2]
    linarith

/-- **C183** Subgrid kinetic energy, standard variant, on any element. -/
theorem c183_ksgs (hd : nd = 2 ∨ nd = 3) (ratio : ℝ) (e : Scv nn nip ℝ) (f : Nodes nn nd)
    (Gju : Fin nn → Fin nd → Fin nd → ℝ) (dsq : Fin nn → ℝ) (hv : ∀ ip, 0 ≤ e.vol ip) (hra : 0 ≤ ratio)
    (hc : ∀ n, 0 ≤ f.cEps n) (hr : ∀ n, 0 ≤ f.rho n) (hk : ∀ n, 0 ≤ f.tke n) (hV : ∀ n, 0 ≤ f.dualVol n)
    (hm : ∀ n, 0 ≤ f.tvisc n) :
    KeepsSign (asSys (ksgsElem ratio 0 e f Gju dsq (zeroL nn))) f.tke := by
  have hf : ∀ n, 0 ≤ ksgsFac nd (f.cEps n) (f.rho n) (f.tke n) (f.dualVol n) := fun n => by
    rw [ksgsFac_eq hd _ _ _ _ (hk n), if_neg (by simp [not_lt.2 (hV n)])]
    exact div_nonneg (mul_nonneg (mul_nonneg (hc _) (hr _)) (Real.sqrt_nonneg _)) (Real.rpow_nonneg (hV n) _)
  refine keeps_of (ksgs_integrates ratio 0 e f Gju dsq) (fun _ _ => rfl) hv ?_ _ ?_
  · intro ip; simp only [ksgsPt]; linarith [hf (e.node ip)]
  · intro ip
    simp only [ksgsPt, gradProduct_eq, zero_mul, add_zero]
    have hD := mul_nonneg (hf (e.node ip)) (hk (e.node ip))
    have := (c180_limited (hm (e.node ip)) hra hD (Gju (e.node ip))).1
    linarith

/-- **C183** The assembled system of any mesh: if every element's contribution keeps the sign of the nodal values, then so does
the sum, whatever the elements' order and however they share nodes. -/
theorem c183_mesh {M : Type*} [DecidableEq M] (q : M → ℝ) (els : List ((Fin nn → M) × LocalSys (Fin nn) ℝ))
    (h : ∀ x ∈ els, KeepsSign (asSys x.2) (fun a => q (x.1 a))) :
    KeepsSign (els.foldl (fun s x => s.applyCoeff x.1 x.2) (Sys.zero M ℝ)) q := by
  suffices H : ∀ s : Sys M ℝ, KeepsSign s q → KeepsSign (els.foldl (fun s x => s.applyCoeff x.1 x.2) s) q from
    H _ (fun a => by simp [Sys.zero])
  induction els with
  | nil => intro s hs; exact hs
  | cons x l ih =>
    intro s hs
    refine ih (fun y hy => h y (List.mem_cons_of_mem _ hy)) _ ?_
    have hx := h x List.mem_cons_self
    have hdiag : ∀ i, (∑ a, ∑ b, if i = x.1 a ∧ i = x.1 b then x.2.lhs a b else 0) =
        ∑ a, if i = x.1 a then x.2.lhs a a else 0 := by
      intro i
      refine Finset.sum_congr rfl fun a _ => ?_
      rw [Finset.sum_eq_single a]
      · simp
      · intro b _ hb
        have : x.2.lhs a b = 0 := (hx a).2.1 b hb
        simp [this]
      · simp
    intro i
    refine ⟨?_, ?_, ?_⟩
    · simp only [Sys.applyCoeff, hdiag]
      refine add_nonneg (hs i).1 (Finset.sum_nonneg fun a _ => ?_)
      split_ifs
      · exact (hx a).1
      · exact le_rfl
    · intro j hj
      simp only [Sys.applyCoeff]
      rw [(hs i).2.1 j hj, zero_add]
      refine Finset.sum_eq_zero fun a _ => Finset.sum_eq_zero fun b _ => ?_
      split_ifs with hab
      · refine (hx a).2.1 b ?_
        rintro rfl
        exact hj (hab.2.trans hab.1.symm)
      · rfl
    · simp only [Sys.applyCoeff, hdiag]
      rw [add_mul, neg_add, Finset.sum_mul, ← Finset.sum_neg_distrib]
      refine add_le_add (hs i).2.2 (Finset.sum_le_sum fun a _ => ?_)
      split_ifs with hi
      · have := (hx a).2.2
        simp only [← hi] at this
        exact this
      · simp

/-- **C183** And solving it, with any non-negative inertia on the diagonal, leaves no negative value. -/
theorem c183_update {M : Type*} [Fintype M] [DecidableEq M] (s : Sys M ℝ) (q d m : M → ℝ) (h : KeepsSign s q)
    (hq : ∀ a, 0 ≤ q a) (hm : ∀ a, 0 ≤ m a) (hp : ∀ a, 0 < m a + s.mat a a)
    (hsol : ∀ a, m a * d a + ∑ b, s.mat a b * d b = s.rhs a) (a : M) : 0 ≤ q a + d a := by
  have h1 : ∑ b, s.mat a b * d b = s.mat a a * d a := by
    rw [Finset.sum_eq_single a]
    · intro b _ hb; rw [(h a).2.1 b hb, zero_mul]
    · simp
  have h2 := hsol a
  rw [h1] at h2
  by_contra hneg
  push Not at hneg
  have h3 := (h a).2.2
  nlinarith [hp a, mul_nonneg (hm a) (hq a)]

/-! ## C184: element and node schemes -/

/-- A state that is uniform except for an affine velocity. -/
structure Uniform (e : Elem nn nip nd) (f : Nodes nn nd) (rho tke diss tvisc fOne maxLen : ℝ) (H : Fin nd → Fin nd → ℝ) : Prop where
  unity : ∀ ip, Unity (e.shape ip)
  hrho : ∀ n, f.rho n = rho
  htke : ∀ n, f.tke n = tke
  hdiss : ∀ n, f.diss n = diss
  htvisc : ∀ n, f.tvisc n = tvisc
  hfOne : ∀ n, f.fOne n = fOne
  hmaxLen : ∀ n, f.maxLen n = maxLen
  hu : ∀ ip i j, ∑ n, e.dndx ip n j * f.u n i = H i j
  hgrad : ∀ ip j, ∑ n, e.dndx ip n j = 0

/-- The element kernel `k` does to the row of every node what the node source `p`, scaled by the node's share of volume, does:
same right-hand side, and matrix row sum `c` times the node's diagonal. -/
def SameAsNode (k : LocalSys (Fin nn) ℝ → LocalSys (Fin nn) ℝ) (e : Scv nn nip ℝ) (p : ℝ × ℝ) (c : ℝ) : Prop :=
  ∀ s a, (k s).rhs a - s.rhs a = p.1 * nodeVol e.node e.vol a ∧
    ∑ b, ((k s).lhs a b - s.lhs a b) = c * (p.2 * nodeVol e.node e.vol a)

theorem same_of {e : Scv nn nip ℝ} {pt : Fin nip → ℝ × ℝ} {p : ℝ × ℝ} {c : ℝ} (hu : ∀ ip, Unity (e.shape ip))
    (h : ∀ ip, (pt ip).1 = p.1 ∧ (pt ip).2 = c * p.2) : SameAsNode (srcLoop e pt) e p c := by
  intro s a
  have hI := srcLoop_integrates e pt s a
  constructor
  · rw [hI.1, add_sub_cancel_left, nodeVol, Finset.mul_sum]
    exact Finset.sum_congr rfl fun ip _ => by simp only [(h ip).1]
  · simp only [hI.2, add_sub_cancel_left]
    rw [Finset.sum_comm, nodeVol, Finset.mul_sum, Finset.mul_sum]
    refine Finset.sum_congr rfl fun ip _ => ?_
    rw [← Finset.sum_mul, ← Finset.sum_mul, (hu ip : ∑ ic, e.shape ip ic = 1), (h ip).2]
    ring

theorem interp_uniform {r : Fin nn → ℝ} (hr : Unity r) {q : Fin nn → ℝ} {c : ℝ} (h : ∀ n, q n = c) : interp r q = c := by
  have : q = fun _ => c := funext h
  rw [this, interp, ← Finset.sum_mul, (hr : ∑ ic, r ic = 1), one_mul]

/-- **C184** In a state that is uniform except for a velocity with a constant gradient, the element kernels of the SST and
k-epsilon equations and their node-based counterparts put the same source and the same row sums in the row of every node. -/
theorem c184_agree_partial {e : Elem nn nip nd} {f : Nodes nn nd} {rho tke diss tvisc fOne maxLen : ℝ} {H : Fin nd → Fin nd → ℝ}
    (hU : Uniform e f rho tke diss tvisc fOne maxLen H) (o : SdrOpt) (c1 c2 tiny inc : ℝ) :
    SameAsNode (tkeSst o.betaStar o.ratio e f) e.toScv (tkeSST o.betaStar o.ratio rho tke diss tvisc H) 1 ∧
    SameAsNode (sdrSstElem o e f) e.toScv (sdrSST o.betaStar (blend fOne o.betaOne o.betaTwo) (blend fOne o.gammaOne o.gammaTwo)
      (2 * (1 - fOne) * o.sigmaWTwo) o.ratio o.tiny rho tke diss tvisc H (fun _ => 0) (fun _ => 0)) 1 ∧
    SameAsNode (tkeKe o.ratio tiny inc e f) e.toScv (tkeKeps o.ratio tiny rho tke diss (kepsPk inc rho tke tvisc H)) 1 ∧
    SameAsNode (epsKe c1 c2 o.ratio tiny inc e f) e.toScv
      (epsKeps c1 c2 o.ratio tiny rho tke diss (kepsPk inc rho tke tvisc H)) 1 := by
  have hv : ∀ ip, velGrad (e.dndx ip) f.u = H := fun ip => by
    funext i j; exact hU.hu ip i j
  have hi : ∀ ip, interp (e.shape ip) f.rho = rho ∧ interp (e.shape ip) f.tke = tke ∧ interp (e.shape ip) f.diss = diss ∧
      interp (e.shape ip) f.tvisc = tvisc ∧ interp (e.shape ip) f.fOne = fOne := fun ip =>
    ⟨interp_uniform (hU.unity ip) hU.hrho, interp_uniform (hU.unity ip) hU.htke, interp_uniform (hU.unity ip) hU.hdiss,
      interp_uniform (hU.unity ip) hU.htvisc, interp_uniform (hU.unity ip) hU.hfOne⟩
  have hg : ∀ ip, scaGrad (e.dndx ip) f.tke = (fun _ => 0) ∧ scaGrad (e.dndx ip) f.diss = fun _ => 0 := fun ip => by
    constructor <;> funext j <;> unfold scaGrad
    · simp only [hU.htke]; rw [← Finset.sum_mul, hU.hgrad, zero_mul]
    · simp only [hU.hdiss]; rw [← Finset.sum_mul, hU.hgrad, zero_mul]
  have hpk : kePk inc rho tke tvisc H = kepsPk inc rho tke tvisc H := by
    unfold kePk kepsPk; simp only [Finset.sum_mul]
  refine ⟨same_of hU.unity fun ip => ?_, same_of hU.unity fun ip => ?_, same_of hU.unity fun ip => ?_,
    same_of hU.unity fun ip => ?_⟩
  · rw [(hi ip).1, (hi ip).2.1, (hi ip).2.2.1, (hi ip).2.2.2.1, hv ip]
    simp only [tkeSstPt, tkeSST, c72_limited_production, one_mul, and_self]
  · rw [(hi ip).1, (hi ip).2.1, (hi ip).2.2.1, (hi ip).2.2.2.1, (hi ip).2.2.2.2, hv ip, (hg ip).1, (hg ip).2]
    simp only [sdrPt, sdrSST, c72_limited_production, blend, one_mul, and_self]
  · rw [(hi ip).1, (hi ip).2.1, (hi ip).2.2.1, (hi ip).2.2.2.1, hv ip]
    simp only [tkeKePt, tkeKeps, c72_limited_production, hpk, one_mul, and_self]
  · rw [(hi ip).1, (hi ip).2.1, (hi ip).2.2.1, (hi ip).2.2.2.1, hv ip]
    simp only [epsKePt, epsKeps, c72_limited_production, hpk, one_mul, and_self]

/-- **C184** The two detached-eddy sources of kinetic energy agree in the residual, but the element matrix is two thirds of the
node matrix. -/
theorem c184_des_matrix {e : Elem nn nip nd} {f : Nodes nn nd} {rho tke diss tvisc fOne maxLen : ℝ} {H : Fin nd → Fin nd → ℝ}
    (hU : Uniform e f rho tke diss tvisc fOne maxLen H) (betaStar ratio tiny ke kw : ℝ) :
    SameAsNode (tkeDes betaStar ratio tiny ke kw e f) e.toScv
      (tkeDES ratio rho tke tvisc (lDES betaStar tiny (blend fOne kw ke) maxLen tke diss) H) (2 / 3) := by
  have hv : ∀ ip, velGrad (e.dndx ip) f.u = H := fun ip => by
    funext i j; exact hU.hu ip i j
  refine same_of hU.unity fun ip => ?_
  rw [interp_uniform (hU.unity ip) hU.hrho, interp_uniform (hU.unity ip) hU.htke, interp_uniform (hU.unity ip) hU.hdiss,
      interp_uniform (hU.unity ip) hU.htvisc, interp_uniform (hU.unity ip) hU.hfOne, interp_uniform (hU.unity ip) hU.hmaxLen, hv ip]
  simp only [tkeDesPt, tkeDES, c72_limited_production, blend, lDES]
  set l := max tiny (min (Real.sqrt tke / betaStar / diss) ((fOne * kw + (1 - fOne) * ke) * maxLen))
  have e1 : rho * Real.sqrt tke / l * tke = rho * tke * Real.sqrt tke / l := by ring
  rw [e1]
  exact ⟨rfl, by ring⟩

/-- **C184** The lumped subgrid kernel and its node-based counterpart are the same for every state (two and three dimensions,
non-negative kinetic energy and volume). -/
theorem c184_ksgs (hd : nd = 2 ∨ nd = 3) (ratio lr cEps rho tke vol tvisc visc dsq : ℝ) (G : Fin nd → Fin nd → ℝ) (hk : 0 ≤ tke)
    (hv : 0 ≤ vol) :
    ksgsPt ratio lr cEps rho tke vol tvisc visc dsq G =
      tkeKsgs cEps ratio rho tke tvisc (vol ^ (1 / (nd : ℝ))) (lr * 2 * visc * dsq) G := by
  have hp : tke ^ (3 / 2 : ℝ) = Real.sqrt tke * tke := by
    rw [show (3 / 2 : ℝ) = 1 / 2 + 1 by norm_num, Real.rpow_add_of_nonneg hk (by norm_num) (by norm_num), Real.rpow_one,
      Real.sqrt_eq_rpow]
  have e1 : cEps * rho * Real.sqrt tke / vol ^ (1 / (nd : ℝ)) * tke = cEps * rho * (Real.sqrt tke * tke) / vol ^ (1 / (nd : ℝ)) := by
    ring
  have hf : ksgsFac nd cEps rho tke vol = cEps * rho * Real.sqrt tke / vol ^ (1 / (nd : ℝ)) := by
    rw [ksgsFac_eq hd _ _ _ _ hk, if_neg (by simp [not_lt.2 hv])]
  simp only [ksgsPt, tkeKsgs, c72_limited_production, hf, hp, e1, Prod.mk.injEq, true_and]
  ring

/-- **C184** In the RANS region the node-based specific dissipation source of the detached-eddy model is the plain one. -/
theorem c184_sdr_des_rans (o : SdrOpt) (ke kw maxLen rho tke sdr tvisc fOne : ℝ) (g : Fin nd → Fin nd → ℝ) (dk dw : Fin nd → ℝ)
    (hk : 0 < tke) (ht : 0 < o.tiny) (h1 : o.tiny ≤ Real.sqrt tke / o.betaStar / sdr)
    (h2 : Real.sqrt tke / o.betaStar / sdr ≤ (fOne * kw + (1 - fOne) * ke) * maxLen) :
    sdrDesNode o ke kw maxLen rho tke sdr tvisc fOne g dk dw = sdrPt o rho tke sdr tvisc fOne g dk dw := by
  have hs := Real.sqrt_pos.2 hk
  have hpos : 0 < Real.sqrt tke / o.betaStar / sdr := ht.trans_le h1
  have hb : o.betaStar ≠ 0 := by rintro h; simp [h] at hpos
  have hw : sdr ≠ 0 := by rintro h; simp [h] at hpos
  have hl : max o.tiny (min (Real.sqrt tke / o.betaStar / sdr) ((fOne * kw + (1 - fOne) * ke) * maxLen)) =
      Real.sqrt tke / o.betaStar / sdr := by rw [min_eq_left h2, max_eq_right h1]
  have hD : rho * tke * Real.sqrt tke / (Real.sqrt tke / o.betaStar / sdr) = o.betaStar * rho * sdr * tke := by
    field_simp
  have hlim : ∀ P D : ℝ, (if o.ratio * D < P then o.ratio * D else P) = min P (o.ratio * D) :=
    fun P D => c72_limited_production o.ratio P D
  simp only [sdrDesNode, sdrPt, hl, hD, hlim]

/-- **C184** In the LES region it is not, and the element scheme has no detached-eddy version of it: there the element scheme
limits the production of the specific dissipation rate by another destruction than the node scheme. -/
theorem c184_sdr_des_les :
    ∃ (o : SdrOpt) (g : Fin 2 → Fin 2 → ℝ), 0 < o.tiny ∧
      (sdrDesNode o 1 1 (1 / 2) 1 1 1 1 1 g (fun _ => 0) (fun _ => 0)).1 ≠ (sdrPt o 1 1 1 1 1 g (fun _ => 0) (fun _ => 0)).1 := by
  refine ⟨⟨1, 1, 0, 0, 1, 0, 0, 1 / 10⟩, fun i j => if i = j then 1 else 0, by norm_num, ?_⟩
  have hp : gradProduct (fun i j : Fin 2 => if i = j then (1 : ℝ) else 0) = 4 := by
    simp [gradProduct]; norm_num
  simp only [sdrDesNode, sdrPt, hp]
  norm_num

/-! ## C185: buoyancy production -/

/-- The scratch after the zeroing and adding loops is the density gradient, whatever it held. -/
theorem buoyStep_eq (cb2 : ℝ) (g : Fin 3 → ℝ) (e : Elem nn nip 3) (f : Nodes nn 3) (ip : Fin nip)
    (t : (Fin 3 → ℝ) × LocalSys (Fin nn) ℝ) :
    buoyStep cb2 g e f ip t = (scaGrad (e.dndx ip) f.rho, addR t.2 (e.node ip)
      (buoyPt cb2 (interp (e.shape ip) f.tke) (interp (e.shape ip) f.dualVol) (scaGrad (e.dndx ip) f.rho) g * e.vol ip)) := by
  have hz : (loop 3 (fun j w => Function.update w j 0) t.1 : Fin 3 → ℝ) = fun _ => 0 := by
    funext j
    simp only [loop, List.finRange_succ, List.finRange_zero, List.map_nil, List.map_cons, List.foldl_cons, List.foldl_nil]
    fin_cases j <;> simp [Function.update]
  have hl : ∀ w : Fin 3 → ℝ, loop nn (fun ic w j => w j + e.dndx ip ic j * f.rho ic) w =
      fun j => w j + ∑ ic, e.dndx ip ic j * f.rho ic := by
    intro w
    funext j
    exact loop_meas (fun w : Fin 3 → ℝ => w j) (fun ic w j => w j + e.dndx ip ic j * f.rho ic)
      (fun ic => e.dndx ip ic j * f.rho ic) (fun _ _ => rfl) w
  have hw : loop nn (fun ic w j => w j + e.dndx ip ic j * f.rho ic) (loop 3 (fun j w => Function.update w j 0) t.1) =
      scaGrad (e.dndx ip) f.rho := by
    rw [hl, hz]; funext j; simp [scaGrad]
  unfold buoyStep
  simp only [hw]

/-- The magnitude of the cross product, by Lagrange's identity. -/
theorem crossMag_sq (w g : Fin 3 → ℝ) : crossMag w g ^ 2 = dot w w * dot g g - dot w g ^ 2 := by
  rw [crossMag, Real.sq_sqrt (add_nonneg (add_nonneg (mul_self_nonneg _) (mul_self_nonneg _)) (mul_self_nonneg _))]
  simp only [dot, Fin.sum_univ_three]
  ring

theorem crossMag_eq (w g : Fin 3 → ℝ) : crossMag w g = Real.sqrt (dot w w * dot g g - dot w g ^ 2) := by
  rw [← crossMag_sq, Real.sqrt_sq (show 0 ≤ crossMag w g from Real.sqrt_nonneg _)]

/-- **C185** Run by one thread, the kernel integrates `C Δ √k (|∇ρ×g| - ∇ρ·g)` over the sub-control volumes, with
`|∇ρ×g|² = |∇ρ|²|g|² - (∇ρ·g)²`, writes nothing into the matrix, and the result does not depend on what the scratch held. -/
theorem c185_source (cb2 : ℝ) (g : Fin 3 → ℝ) (e : Elem nn nip 3) (f : Nodes nn 3) (w : Fin 3 → ℝ) :
    Integrates (fun s => (buoy cb2 g e f (w, s)).2) e.node e.vol e.shape
      (fun ip =>
        let dr : Fin 3 → ℝ := fun j => ∑ n, e.dndx ip n j * f.rho n
        cb2 * (∑ n, e.shape ip n * f.dualVol n) ^ (1 / 3 : ℝ) * Real.sqrt (∑ n, e.shape ip n * f.tke n) *
          (Real.sqrt (dot dr dr * dot g g - dot dr g ^ 2) - dot dr g))
      (fun _ => 0) := by
  intro s a
  have hb : ∀ ip t, buoyStep cb2 g e f ip t = _ := fun ip t => buoyStep_eq cb2 g e f ip t
  constructor
  · have h := loop_meas (fun t : (Fin 3 → ℝ) × LocalSys (Fin nn) ℝ => t.2.rhs a) (buoyStep cb2 g e f)
      (fun ip => if a = e.node ip then buoyPt cb2 (interp (e.shape ip) f.tke) (interp (e.shape ip) f.dualVol)
        (scaGrad (e.dndx ip) f.rho) g * e.vol ip else 0) (fun ip t => by rw [hb]; simp) (w, s)
    simp only [buoyPt, crossMag_eq] at h
    rw [Finset.sum_filter]
    simp only [eq_comm (a := e.node _)]
    exact h
  · intro b
    have h := loop_meas (fun t : (Fin 3 → ℝ) × LocalSys (Fin nn) ℝ => t.2.lhs a b) (buoyStep cb2 g e f)
      (fun _ => 0) (fun ip t => by rw [hb]; simp) (w, s)
    simp only [mul_zero, zero_mul, Finset.sum_const_zero, add_zero] at h ⊢
    exact h

/-- **C185** The sign: with `C ≥ 0` and positive volume, density increasing along gravity (stable) by at least the horizontal
part consumes kinetic energy, everything else produces it; and the source never exceeds `C Δ √k √2 |∇ρ||g|` in size. -/
theorem c185_sign (cb2 tke vol : ℝ) (w g : Fin 3 → ℝ) (hc : 0 ≤ cb2) (hv : 0 ≤ vol) :
    (dot w g ≤ 0 → 0 ≤ buoyPt cb2 tke vol w g) ∧
    (dot w w * dot g g ≤ 2 * dot w g ^ 2 → 0 ≤ dot w g → buoyPt cb2 tke vol w g ≤ 0) ∧
    |buoyPt cb2 tke vol w g| ≤ cb2 * vol ^ (1 / 3 : ℝ) * Real.sqrt tke * (Real.sqrt 2 * (len w * len g)) := by
  have hC : 0 ≤ cb2 * vol ^ (1 / 3 : ℝ) * Real.sqrt tke :=
    mul_nonneg (mul_nonneg hc (Real.rpow_nonneg hv _)) (Real.sqrt_nonneg _)
  have hn : 0 ≤ crossMag w g := Real.sqrt_nonneg _
  have hsq := crossMag_sq w g
  have hww : 0 ≤ dot w w := Finset.sum_nonneg fun i _ => mul_self_nonneg _
  have hgg : 0 ≤ dot g g := Finset.sum_nonneg fun i _ => mul_self_nonneg _
  unfold buoyPt
  change (_ → 0 ≤ _ * (crossMag w g - dot w g)) ∧ (_ → _ → _ * (crossMag w g - dot w g) ≤ 0) ∧ |_ * (crossMag w g - dot w g)| ≤ _
  refine ⟨fun h => mul_nonneg hC (by linarith), fun h h0 => mul_nonpos_of_nonneg_of_nonpos hC ?_, ?_⟩
  · have : crossMag w g ≤ dot w g := by
      apply le_of_sq_le_sq _ h0 |> fun h => h
      nlinarith
    linarith
  · rw [abs_mul, abs_of_nonneg hC]
    refine mul_le_mul_of_nonneg_left ?_ hC
    rw [len, len, ← Real.sqrt_mul hww, ← Real.sqrt_mul (by norm_num)]
    apply Real.le_sqrt_of_sq_le
    rw [sq_abs]
    nlinarith [sq_nonneg (crossMag w g + dot w g)]

/-- **C185** The Rodi source of element and node schemes: `β μ_t/Pr_t (g·∇h)/c_p`, nothing in the matrix; it is linear in
gravity, vanishes in a neutral atmosphere, and has the sign of `g·∇h` (heat flux against gravity produces). -/
theorem c185_rodi (beta pr : ℝ) (g : Fin nd → ℝ) (e : Scv nn nip ℝ) (tvisc cp : Fin nn → ℝ) (dh : Fin nn → Fin nd → ℝ)
    (hb : 0 < beta) (hp : 0 < pr) (ht : ∀ n, 0 < tvisc n) (hc : ∀ n, 0 < cp n) (hv : ∀ ip, 0 < e.vol ip) :
    (∀ s a, (rodiElem beta pr g e tvisc cp dh s).rhs a = s.rhs a + rodiPt beta pr (tvisc a) (cp a) g (dh a) * nodeVol e.node e.vol a ∧
      ∀ b, (rodiElem beta pr g e tvisc cp dh s).lhs a b = s.lhs a b) ∧
    (∀ a, rodiPt beta pr (tvisc a) (cp a) g (dh a) = beta * (tvisc a / pr) * (∑ i, g i * dh a i) / cp a) ∧
    ∀ a, (0 < rodiPt beta pr (tvisc a) (cp a) g (dh a) ↔ 0 < ∑ i, g i * dh a i) ∧
      (rodiPt beta pr (tvisc a) (cp a) g (dh a) = 0 ↔ ∑ i, g i * dh a i = 0) := by
  refine ⟨fun s a => ⟨?_, fun b => ?_⟩, fun a => by unfold rodiPt; ring, fun a => ?_⟩
  · rw [(rodi_integrates beta pr g e tvisc cp dh s a).1, nodeVol, Finset.mul_sum]
    congr 1
    exact Finset.sum_congr rfl fun ip hip => by simp only [(Finset.mem_filter.1 hip).2]
  · rw [(rodi_integrates beta pr g e tvisc cp dh s a).2 b]; simp
  · have hK : 0 < beta * tvisc a / pr / cp a := div_pos (div_pos (mul_pos hb (ht a)) hp) (hc a)
    have e1 : rodiPt beta pr (tvisc a) (cp a) g (dh a) = beta * tvisc a / pr / cp a * ∑ i, g i * dh a i := by
      unfold rodiPt; ring
    rw [e1]
    exact ⟨⟨fun h => (mul_pos_iff_of_pos_left hK).1 h, fun h => mul_pos hK h⟩,
      ⟨fun h => (mul_eq_zero.1 h).resolve_left hK.ne', fun h => by rw [h, mul_zero]⟩⟩

/-! ## C186: threads -/

theorem exec_block (b : ℕ × List (Fin 3 → ℝ)) (l : List Act) (w : Fin 3 → ℝ) :
    ∃ w', exec (block b ++ l) w = (b.1, fun j => (b.2.map (· j)).sum) :: exec l w' := by
  have h : ∀ (ds : List (Fin 3 → ℝ)) (w : Fin 3 → ℝ), exec ((ds.map .add ++ [.use b.1]) ++ l) w =
      (b.1, fun j => w j + (ds.map (· j)).sum) :: exec l (fun j => w j + (ds.map (· j)).sum) := by
    intro ds
    induction ds with
    | nil => intro w; simp [exec]
    | cons d ds ih =>
      intro w
      simp only [List.map_cons, List.cons_append, exec, List.sum_cons]
      rw [ih]
      simp only [add_assoc]
  refine ⟨fun j => (b.2.map (· j)).sum, ?_⟩
  unfold block
  simp only [List.cons_append, exec]
  rw [h b.2]
  simp

/-- **C186** As long as the threads do not overlap inside an integration point, every point reads its own gradient whatever the
order of the points and the initial content of the scratch. -/
theorem c186_serial_partial (blocks : List (ℕ × List (Fin 3 → ℝ))) (w : Fin 3 → ℝ) :
    exec (blocks.flatMap block) w = blocks.map (fun b => (b.1, fun j => (b.2.map (· j)).sum)) := by
  induction blocks generalizing w with
  | nil => rfl
  | cons b l ih =>
    rw [List.flatMap_cons]
    obtain ⟨w', hw⟩ := exec_block b (l.flatMap block) w
    rw [hw, ih w', List.map_cons]

/-- **C186** Two threads inside the kernel at once: for any two points with a node each and density contribution `d ≠ 0` there is
a schedule in which the first reads a zero gradient instead of `d`. -/
theorem c186_race (d d' : Fin 3 → ℝ) (hd : d ≠ fun _ => 0) :
    ∃ sched w, Shuffle (block (0, [d])) (block (1, [d'])) sched ∧
      (0, fun j => ([d].map (· j)).sum) ∉ exec sched w := by
  refine ⟨[.zero, .add d, .zero, .use 0, .add d', .use 1], fun _ => 0, ?_, ?_⟩
  · exact .left (.left (.right (.left (.right (.right .nil)))))
  · intro h
    simp only [exec, List.mem_cons, Prod.mk.injEq, List.map_cons, List.map_nil, List.sum_cons, List.sum_nil, add_zero,
      List.not_mem_nil, or_false] at h
    rcases h with h | h
    · exact hd h.2
    · exact absurd h.1 (by norm_num)

/-! ## Concrete cases -/

/-- Two nodes, one sub-control volume each, one direction. -/
noncomputable def exElem : Elem 2 2 2 where
  shape := fun ip n => if n = ip then 1 else 0
  vol := fun _ => 1
  node := fun ip => ip
  dndx := fun _ n j => if n = 1 then (if j = 0 then 1 else 2) else (if j = 0 then -1 else -2)

noncomputable def exNodes : Nodes 2 2 where
  rho := fun _ => 1
  tke := fun _ => 4
  diss := fun _ => 1
  tvisc := fun _ => 1
  visc := fun _ => 1
  fOne := fun _ => 1
  maxLen := fun _ => 1
  dualVol := fun _ => 1
  cEps := fun _ => 1
  u := fun n i => if n = 1 then (if i = 0 then 1 else 3) else 0

example : Lumped exElem.shape exElem.node := fun _ _ => rfl

example : Uniform exElem exNodes 1 4 1 1 1 1 (fun i j => (if i = 0 then 1 else 3) * (if j = 0 then 1 else 2)) := by
  refine ⟨?_, fun _ => rfl, fun _ => rfl, fun _ => rfl, fun _ => rfl, fun _ => rfl, fun _ => rfl, ?_, ?_⟩
  · intro ip; simp [Unity, exElem]
  · intro ip i j; fin_cases i <;> fin_cases j <;> simp [exElem, exNodes, Fin.sum_univ_two]; norm_num
  · intro ip j; fin_cases j <;> simp [exElem, Fin.sum_univ_two]

example : dot ![0, 0, 1] ![0, 0, -9] ≤ 0 := by simp [dot, Fin.sum_univ_three]

example : dot ![0, 0, -1] ![0, 0, -9] = 9 ∧ dot ![0, 0, -1] ![0, 0, -1] * dot ![0, 0, -9] ![0, 0, -9] ≤ 2 * (9 : ℝ) ^ 2 := by
  simp [dot, Fin.sum_univ_three]; norm_num

end Nalu.TurbElem
