import Verif.Model.UserProfile
import Verif.Proofs.Pde
import Verif.Props.ExactSol
import Mathlib.NumberTheory.ZetaValues
import Mathlib.Analysis.SpecialFunctions.Trigonometric.DerivHyp
import Mathlib.Topology.Algebra.InfiniteSum.NatInt
import Mathlib.Tactic.Linarith
import Mathlib.Tactic.Ring
import Mathlib.Tactic.FieldSimp
import Mathlib.Tactic.NormNum
import Mathlib.Tactic.Positivity

namespace Verif.Pde
namespace HasPD
variable {i : Fin 4} {f g : Pt → ℝ} {a b : ℝ} {p : Pt}

theorem cosh (hf : HasPD i f a p) : HasPD i (fun p => Real.cosh (f p)) (Real.sinh (f p) * a) p := by
  have := HasDerivAt.cosh hf
  simp only [Function.update_eq_self] at this
  exact this
theorem sinh (hf : HasPD i f a p) : HasPD i (fun p => Real.sinh (f p)) (Real.cosh (f p) * a) p := by
  have := HasDerivAt.sinh hf
  simp only [Function.update_eq_self] at this
  exact this
theorem sqrt (hf : HasPD i f a p) (h : f p ≠ 0) : HasPD i (fun p => Real.sqrt (f p)) (a / (2 * Real.sqrt (f p))) p := by
  have := HasDerivAt.sqrt hf (by simpa [Function.update_eq_self] using h)
  simp only [Function.update_eq_self] at this
  exact this
theorem sum {s : Finset ℕ} {F : ℕ → Pt → ℝ} {d : ℕ → ℝ} (h : ∀ n ∈ s, HasPD i (F n) (d n) p) :
    HasPD i (fun p => ∑ n ∈ s, F n p) (∑ n ∈ s, d n) p := by
  have := HasDerivAt.fun_sum (u := s) (A := fun n t => F n (Function.update p i t)) (A' := d) (x := p i) h
  exact this
end HasPD

/-- Second derivative from first derivatives known near the point only. -/
theorem HasPD.second {i : Fin 4} {f D : Pt → ℝ} {p : Pt} {a : ℝ}
    (h : ∀ᶠ s in nhds (p i), HasPD i f (D (Function.update p i s)) (Function.update p i s)) (e : HasPD i D a p) :
    HasPD i (pd i f) a p := by
  refine HasDerivAt.congr_of_eventuallyEq e ?_
  filter_upwards [h] with s hs
  exact hs.pd_eq

end Verif.Pde

namespace Nalu.UserFn
open Verif.Pde Real

/-! ## duct -/

theorem ductM_ne {b : ℝ} (hb : b ≠ 0) (n : ℕ) : ductM b n ≠ 0 := by
  unfold ductM
  have : (0 : ℝ) < 2 * n + 1 := by positivity
  exact div_ne_zero (div_ne_zero (mul_ne_zero this.ne' pi_ne_zero) two_ne_zero) hb

theorem ductM_mul {b : ℝ} (hb : b ≠ 0) (n : ℕ) : ductM b n * b = n * π + π / 2 := by
  unfold ductM; field_simp

theorem cos_ductM_b {b : ℝ} (hb : b ≠ 0) (n : ℕ) : cos (ductM b n * b) = 0 := by
  rw [ductM_mul hb, cos_add_pi_div_two, sin_nat_mul_pi, neg_zero]

theorem sin_ductM_b {b : ℝ} (hb : b ≠ 0) (n : ℕ) : sin (ductM b n * b) = (-1) ^ n := by
  rw [ductM_mul hb, sin_add_pi_div_two, cos_nat_mul_pi]

theorem ductTerm_wall {a b : ℝ} (hb : b ≠ 0) (n : ℕ) (x : ℝ) : ductTerm a b n x b = 0 ∧ ductTerm a b n x (-b) = 0 := by
  unfold ductTerm
  rw [mul_neg, cos_neg, cos_ductM_b hb]; simp

/-- Coefficient of a term. -/
noncomputable def ductC (a b : ℝ) (n : ℕ) : ℝ := (-1) ^ n * 1 / ductM b n / ductM b n / ductM b n / cosh (ductM b n * a)

theorem ductTerm_eq (a b : ℝ) (n : ℕ) (x y : ℝ) :
    ductTerm a b n x y = ductC a b n * (cos (ductM b n * y) * cosh (ductM b n * x)) := by
  unfold ductTerm ductC; ring

/-- `w` in a form the derivative rules can read. -/
theorem ductW_eq (dpdz mu a b : ℝ) (N : ℕ) : ductW dpdz mu a b N = fun p =>
    (-1 / 2 / mu * dpdz) * (b * b - p 1 * p 1 - (4 / b) * ∑ n ∈ Finset.range N,
      ductC a b n * (cos (ductM b n * p 1) * cosh (ductM b n * p 0))) := by
  funext p
  unfold ductW
  simp only [ductTerm_eq]

theorem duct_lap {dpdz mu a b : ℝ} (hmu : mu ≠ 0) (N : ℕ) (p : Pt) : mu * lap (ductW dpdz mu a b N) p = dpdz := by
  have h0 : ∀ p, HasPD 0 (ductW dpdz mu a b N) ((-1 / 2 / mu * dpdz) * (0 - 0 - (4 / b) * ∑ n ∈ Finset.range N,
      ductC a b n * (cos (ductM b n * p 1) * (sinh (ductM b n * p 0) * (ductM b n * 1))))) p := by
    intro p
    rw [ductW_eq]
    apply HasPD.cmul
    apply HasPD.sub
    · refine HasPD.congr (by hpd) ?_; ring
    · apply HasPD.cmul
      apply HasPD.sum
      intro n _
      apply HasPD.cmul
      refine HasPD.congr (HasPD.mul (a := 0) ?_ (HasPD.cosh (HasPD.cmul _ HasPD.self))) ?_
      · refine HasPD.congr (by hpd) ?_; ring
      · ring
  have h1 : ∀ p, HasPD 1 (ductW dpdz mu a b N) ((-1 / 2 / mu * dpdz) * (-2 * p 1 - (4 / b) * ∑ n ∈ Finset.range N,
      ductC a b n * (-sin (ductM b n * p 1) * (ductM b n * 1) * cosh (ductM b n * p 0)))) p := by
    intro p
    rw [ductW_eq]
    apply HasPD.cmul
    apply HasPD.sub
    · refine HasPD.congr (by hpd) ?_; ring
    · apply HasPD.cmul
      apply HasPD.sum
      intro n _
      apply HasPD.cmul
      refine HasPD.congr (HasPD.mul (HasPD.cos (HasPD.cmul _ HasPD.self)) (b := 0) ?_) ?_
      · refine HasPD.congr (HasPD.cosh (HasPD.cmul _ (HasPD.other (by decide)))) ?_; ring
      · ring
  have h2 : ∀ p, HasPD 2 (ductW dpdz mu a b N) 0 p := by
    intro p
    rw [ductW_eq]
    refine HasPD.congr (HasPD.cmul _ (HasPD.sub (a := 0) (b := (4 / b) * ∑ n ∈ Finset.range N, 0) ?_ ?_)) ?_
    · refine HasPD.congr (by hpd) ?_; ring
    · apply HasPD.cmul
      apply HasPD.sum
      intro n _
      refine HasPD.congr (HasPD.cmul _ (HasPD.mul (a := 0) (b := 0) ?_ ?_)) ?_
      · refine HasPD.congr (by hpd) ?_; ring
      · refine HasPD.congr (HasPD.cosh (HasPD.cmul _ (HasPD.other (by decide)))) ?_; ring
      · ring
    · simp
  have e0 : HasPD 0 (fun p : Pt => (-1 / 2 / mu * dpdz) * (0 - 0 - (4 / b) * ∑ n ∈ Finset.range N,
      ductC a b n * (cos (ductM b n * p 1) * (sinh (ductM b n * p 0) * (ductM b n * 1)))))
      ((-1 / 2 / mu * dpdz) * (0 - (4 / b) * ∑ n ∈ Finset.range N,
        ductC a b n * (cos (ductM b n * p 1) * (cosh (ductM b n * p 0) * (ductM b n * 1) * (ductM b n * 1))))) p := by
    apply HasPD.cmul
    apply HasPD.sub
    · refine HasPD.congr (by hpd) ?_; ring
    · apply HasPD.cmul
      apply HasPD.sum
      intro n _
      apply HasPD.cmul
      refine HasPD.congr (HasPD.mul (a := 0) ?_ (HasPD.mulc _ (HasPD.sinh (HasPD.cmul _ HasPD.self)))) ?_
      · refine HasPD.congr (by hpd) ?_; ring
      · ring
  have e1 : HasPD 1 (fun p : Pt => (-1 / 2 / mu * dpdz) * (-2 * p 1 - (4 / b) * ∑ n ∈ Finset.range N,
      ductC a b n * (-sin (ductM b n * p 1) * (ductM b n * 1) * cosh (ductM b n * p 0))))
      ((-1 / 2 / mu * dpdz) * (-2 - (4 / b) * ∑ n ∈ Finset.range N,
        -(ductC a b n * (cos (ductM b n * p 1) * (cosh (ductM b n * p 0) * (ductM b n * 1) * (ductM b n * 1)))))) p := by
    apply HasPD.cmul
    apply HasPD.sub
    · refine HasPD.congr (by hpd) ?_; ring
    · apply HasPD.cmul
      apply HasPD.sum
      intro n _
      refine HasPD.congr (HasPD.cmul _ (HasPD.mul (HasPD.mulc _ (HasPD.neg (HasPD.sin (HasPD.cmul _ HasPD.self)))) (b := 0) ?_)) ?_
      · refine HasPD.congr (HasPD.cosh (HasPD.cmul _ (HasPD.other (by decide)))) ?_; ring
      · ring
  rw [Nalu.Exact.lap_of h0 h1 h2 e0 e1 (HasPD.const 0), Finset.sum_neg_distrib]
  generalize ∑ n ∈ Finset.range N, ductC a b n *
    (cos (ductM b n * p 1) * (cosh (ductM b n * p 0) * (ductM b n * 1) * (ductM b n * 1))) = S
  rw [show mu * (-1 / 2 / mu * dpdz * (0 - 4 / b * S) + -1 / 2 / mu * dpdz * (-2 - 4 / b * -S) + 0)
    = (mu / mu) * dpdz by ring, div_self hmu, one_mul]

/-- The odd part of the sine series of the third Bernoulli polynomial. -/
theorem odd_sine_sum {x : ℝ} (h0 : 0 ≤ x) (h1 : x ≤ 1 / 2) :
    HasSum (fun n : ℕ => 1 / (2 * n + 1 : ℝ) ^ 3 * sin (2 * π * (2 * n + 1) * x)) (2 * π ^ 3 * (x / 8 - x ^ 2 / 4) * 1) := by
  have hB : ∀ y : ℝ, (Polynomial.map (algebraMap ℚ ℝ) (Polynomial.bernoulli (2 * 1 + 1))).eval y = y ^ 3 - 3 / 2 * y ^ 2 + y / 2 := by
    intro y
    have h3 : bernoulli 3 = 0 := bernoulli_eq_zero_of_odd (by decide) (by decide)
    simp only [Polynomial.bernoulli_def, Finset.sum_range_succ, Finset.sum_range_zero]
    norm_num [bernoulli_zero, bernoulli_one, bernoulli_two, Polynomial.map_monomial, Polynomial.eval_monomial,
      h3, Nat.choose]
    ring
  have F := hasSum_one_div_nat_pow_mul_sin (k := 1) one_ne_zero (x := x) ⟨h0, by linarith⟩
  have G := hasSum_one_div_nat_pow_mul_sin (k := 1) one_ne_zero (x := 2 * x) ⟨by linarith, by linarith⟩
  rw [hB] at F G
  set f : ℕ → ℝ := fun n => 1 / (n : ℝ) ^ (2 * 1 + 1) * sin (2 * π * n * x) with hf
  have he : HasSum (fun k => f (2 * k)) (1 / 8 * ((-1) ^ (1 + 1) * (2 * π) ^ (2 * 1 + 1) / 2 / ((2 * 1 + 1).factorial : ℝ) *
      ((2 * x) ^ 3 - 3 / 2 * (2 * x) ^ 2 + 2 * x / 2))) := by
    refine (G.mul_left (1 / 8)).congr_fun ?_
    intro n
    simp only [hf]
    push_cast
    rw [show 2 * π * (2 * (n : ℝ)) * x = 2 * π * n * (2 * x) by ring]
    rcases eq_or_ne (n : ℝ) 0 with h | h
    · rw [h]; simp
    · field_simp; ring
  have ho : Summable (fun k => f (2 * k + 1)) :=
    F.summable.comp_injective (fun a b h => by simpa using h)
  have hs := he.even_add_odd ho.hasSum
  have hu := hs.unique F
  have hval : (∑' k, f (2 * k + 1)) = 2 * π ^ 3 * (x / 8 - x ^ 2 / 4) * 1 := by
    have h6 : (((2 * 1 + 1).factorial : ℕ) : ℝ) = 6 := by norm_num [Nat.factorial]
    rw [h6] at hu
    linear_combination hu
  rw [← hval]
  refine ho.hasSum.congr_fun ?_
  intro n
  simp only [hf]
  push_cast
  norm_num

theorem ductTerm_wall_x {a b : ℝ} (hb : b ≠ 0) (n : ℕ) (y : ℝ) :
    ductTerm a b n a y = (2 * b / π) ^ 3 * (1 / (2 * n + 1 : ℝ) ^ 3 * sin (2 * π * (2 * n + 1) * ((b - y) / (4 * b)))) := by
  have hc : cosh (ductM b n * a) ≠ 0 := (cosh_pos _).ne'
  have hm := ductM_ne hb n
  have h2 : (2 * (n : ℝ) + 1) ≠ 0 := by positivity
  have e1 : 2 * π * (2 * n + 1) * ((b - y) / (4 * b)) = ductM b n * b - ductM b n * y := by
    unfold ductM; field_simp; ring
  rw [e1, sin_sub, sin_ductM_b hb, cos_ductM_b hb]
  have e2 : ductM b n = (2 * n + 1) * (π / (2 * b)) := by unfold ductM; field_simp
  have e3 : ductTerm a b n a y = (-1) ^ n / ductM b n ^ 3 * cos (ductM b n * y) := by
    unfold ductTerm; field_simp
  rw [e3]
  have e4 : (-1 : ℝ) ^ n / ductM b n ^ 3 = (2 * b / π) ^ 3 * (1 / (2 * n + 1 : ℝ) ^ 3) * (-1) ^ n := by
    rw [e2]; field_simp
  rw [e4]; ring

theorem duct_series {a b y : ℝ} (hb : 0 < b) (h1 : -b ≤ y) (h2 : y ≤ b) :
    HasSum (fun n => ductTerm a b n a y) (b / 4 * (b * b - y * y)) := by
  have hx0 : 0 ≤ (b - y) / (4 * b) := div_nonneg (by linarith) (by linarith)
  have hx1 : (b - y) / (4 * b) ≤ 1 / 2 := by rw [div_le_iff₀ (by linarith)]; linarith
  have := (odd_sine_sum hx0 hx1).mul_left ((2 * b / π) ^ 3)
  have e : (2 * b / π) ^ 3 * (2 * π ^ 3 * ((b - y) / (4 * b) / 8 - ((b - y) / (4 * b)) ^ 2 / 4) * 1) = b / 4 * (b * b - y * y) := by
    have := pi_ne_zero
    field_simp; ring
  rw [e] at this
  refine this.congr_fun ?_
  intro n
  rw [ductTerm_wall_x hb.ne']

/-! ## binary search -/

section
variable {K : Type*} [LinearOrder K]

theorem find_spec (dat : ℤ → K × K) (z : K) (n : ℤ) (h0 : (dat 0).1 ≤ z)
    (hm : ∀ i j, 0 ≤ i → i ≤ j → j ≤ n → (dat i).1 ≤ (dat j).1) (fuel : ℕ) : ∀ iMin iMax : ℤ,
    0 ≤ iMin → iMin ≤ iMax + 1 → iMax ≤ n → iMax - iMin + 2 ≤ fuel →
    (∀ i, 0 ≤ i → i < iMin → (dat i).1 ≤ z) → (∀ i, iMax < i → i ≤ n → z < (dat i).1) → 0 ≤ n →
    ∃ f, cylFindIndex dat z fuel iMin iMax = some f ∧ 0 ≤ f ∧ f ≤ n ∧ (dat f).1 ≤ z ∧ (f < n → z < (dat (f + 1)).1) := by
  induction fuel with
  | zero => intro iMin iMax _ h2 _ h4; exfalso; push_cast at h4; omega
  | succ fuel ih =>
    intro iMin iMax h1 h2 h3 h4 hlo hhi hn
    have hmax : 0 ≤ iMax := by
      by_contra hneg
      exact absurd h0 (not_le.2 (hhi 0 (by omega) hn))
    have hdiv : Int.tdiv (iMin + iMax) 2 = (iMin + iMax) / 2 := Int.tdiv_eq_ediv_of_nonneg (by omega)
    simp only [cylFindIndex, hdiv]
    by_cases hc : (iMin + iMax) / 2 < iMin
    · rw [if_pos hc]
      have e : (iMin + iMax) / 2 = iMax := by omega
      rw [e]
      have e2 : iMin = iMax + 1 := by omega
      exact ⟨iMax, rfl, hmax, h3, hlo iMax hmax (by omega), fun h => hhi _ (by omega) (by omega)⟩
    · rw [if_neg hc]
      by_cases hz : z < (dat ((iMin + iMax) / 2)).1
      · rw [if_pos hz]
        refine ih iMin _ h1 (by omega) (by omega) (by push_cast at h4; omega) hlo ?_ hn
        intro i hi hin
        exact lt_of_lt_of_le hz (hm _ i (by omega) (by omega) hin)
      · rw [if_neg hz]
        refine ih _ iMax (by omega) (by omega) h3 (by push_cast at h4; omega) ?_ hhi hn
        intro i hi hin
        exact le_trans (hm i _ hi (by omega) (by omega)) (not_lt.1 hz)

end

section
variable {K : Type*} [Field K] [LinearOrder K] [IsStrictOrderedRing K]

theorem cylLocal_node0 (dat : ℤ → K × K) (i j : ℤ) : cylLocal dat (dat i).1 i j = (dat i).2 := by
  simp [cylLocal]

theorem cylLocal_node1 (dat : ℤ → K × K) (i j : ℤ) (h : (dat i).1 ≠ (dat j).1) : cylLocal dat (dat j).1 i j = (dat j).2 := by
  have : (dat j).1 - (dat i).1 ≠ 0 := sub_ne_zero.2 h.symm
  simp only [cylLocal]; field_simp; ring

theorem cylInterp_cell (dat : ℤ → K × K) (n : ℤ) (hn : 1 ≤ n) (hs : ∀ i j, 0 ≤ i → i < j → j ≤ n → (dat i).1 < (dat j).1)
    {fuel : ℕ} (hf : n + 2 ≤ fuel) {z : K} {i : ℤ} (hi0 : 0 ≤ i) (hin : i < n) (h1 : (dat i).1 ≤ z) (h2 : z ≤ (dat (i+1)).1) :
    cylInterp dat fuel n z = some (cylLocal dat z i (i + 1)) := by
  have hm : ∀ i j, 0 ≤ i → i ≤ j → j ≤ n → (dat i).1 ≤ (dat j).1 := by
    intro i j h1 h2 h3
    rcases lt_or_eq_of_le h2 with h | h
    · exact (hs i j h1 h h3).le
    · rw [h]
  have hz0 : (dat 0).1 ≤ z := le_trans (hm 0 i (le_refl _) hi0 (by omega)) h1
  have hzn : z ≤ (dat n).1 := le_trans h2 (hm (i+1) n (by omega) (by omega) (le_refl _))
  obtain ⟨f, hf1, hf0, hfn, hfz, hfz'⟩ := find_spec dat z n hz0 hm fuel 0 n (le_refl _) (by omega) (le_refl _) (by omega)
    (fun j hj hj' => by omega) (fun j hj hj' => by omega) (by omega)
  simp only [cylInterp]
  rw [if_neg (not_lt.2 hz0), if_neg (not_lt.2 hzn), hf1, Option.map_some]
  congr 1
  have hfi : i ≤ f := by
    by_contra hlt
    have := hfz' (by omega)
    exact absurd (le_trans (hm (f+1) i (by omega) (by omega) (by omega)) h1) (not_le.2 this)
  have hfi' : f ≤ i + 1 := by
    by_contra hgt
    exact absurd (lt_of_lt_of_le (hs (i+1) f (by omega) (by omega) hfn) hfz) (not_lt.2 h2)
  rcases (show f = i ∨ f = i + 1 by omega) with rfl | rfl
  · by_cases hc : f = 0
    · rw [if_pos hc]
    · rw [if_neg hc, if_neg (by omega), if_neg (not_lt.2 hfz)]
  · have hzi : z = (dat (i+1)).1 := le_antisymm h2 hfz
    have hd : (dat i).1 ≠ (dat (i+1)).1 := (hs i (i+1) hi0 (by omega) (by omega)).ne
    have hR : cylLocal dat z i (i+1) = (dat (i+1)).2 := by rw [hzi]; exact cylLocal_node1 dat i (i+1) hd
    rw [hR, if_neg (by omega)]
    by_cases hc : i + 1 = n
    · rw [if_pos hc, show i + 1 - 1 = i by ring]; exact hR
    · rw [if_neg hc, if_neg (not_lt.2 hfz), hzi]; exact cylLocal_node0 dat _ _

theorem cylInterp_below (dat : ℤ → K × K) (n : ℤ) (hn : 1 ≤ n) (hs : ∀ i j, 0 ≤ i → i < j → j ≤ n → (dat i).1 < (dat j).1)
    {fuel : ℕ} (hf : n + 2 ≤ fuel) {z : K} (h : z ≤ (dat 0).1) : cylInterp dat fuel n z = some (dat 0).2 := by
  rcases lt_or_eq_of_le h with h | h
  · simp only [cylInterp]; rw [if_pos h]
  · rw [cylInterp_cell dat n hn hs hf (le_refl 0) (by omega) h.ge (by rw [h]; exact (hs 0 _ (le_refl _) (by omega) (by omega)).le),
      h, cylLocal_node0]

theorem cylInterp_above (dat : ℤ → K × K) (n : ℤ) (hn : 1 ≤ n) (hs : ∀ i j, 0 ≤ i → i < j → j ≤ n → (dat i).1 < (dat j).1)
    {fuel : ℕ} (hf : n + 2 ≤ fuel) {z : K} (h : (dat n).1 ≤ z) : cylInterp dat fuel n z = some (dat n).2 := by
  have h0n : (dat 0).1 < (dat n).1 := hs 0 n (le_refl _) (by omega) (le_refl _)
  rcases lt_or_eq_of_le h with h | h
  · simp only [cylInterp]; rw [if_neg (not_lt.2 (le_trans h0n.le h.le)), if_pos h]
  · have h1 := hs (n-1) n (by omega) (by omega) (le_refl _)
    rw [cylInterp_cell dat n hn hs hf (i := n - 1) (by omega) (by omega) (h ▸ h1.le) (by rw [show n - 1 + 1 = n by ring]; exact h.ge)]
    rw [show n - 1 + 1 = n by ring, ← h, cylLocal_node1 dat _ _ h1.ne]

theorem exists_cell_int (dat : ℤ → K × K) (z : K) (n : ℕ) (h0 : (dat 0).1 ≤ z) (hn : z ≤ (dat n).1) (hpos : 1 ≤ n) :
    ∃ i : ℤ, 0 ≤ i ∧ i < n ∧ (dat i).1 ≤ z ∧ z ≤ (dat (i+1)).1 := by
  induction n with
  | zero => omega
  | succ n ih =>
    rcases le_total z (dat n).1 with h | h
    · rcases Nat.eq_zero_or_pos n with rfl | hp
      · exact ⟨0, le_refl _, by simp, h0, by simpa using hn⟩
      · obtain ⟨i, a, b, c, d⟩ := ih h hp
        exact ⟨i, a, by push_cast; omega, c, d⟩
    · exact ⟨n, by omega, by push_cast; omega, h, by simpa using hn⟩

theorem cylLocal_bounds (dat : ℤ → K × K) {z : K} {i : ℤ} (hd : (dat i).1 < (dat (i+1)).1) (h1 : (dat i).1 ≤ z)
    (h2 : z ≤ (dat (i+1)).1) {lo hi : K} (hb1 : lo ≤ (dat i).2 ∧ (dat i).2 ≤ hi) (hb2 : lo ≤ (dat (i+1)).2 ∧ (dat (i+1)).2 ≤ hi) :
    lo ≤ cylLocal dat z i (i+1) ∧ cylLocal dat z i (i+1) ≤ hi := by
  have hp := sub_pos.2 hd
  have w2 : 0 ≤ (z - (dat i).1) / ((dat (i+1)).1 - (dat i).1) := div_nonneg (by linarith) hp.le
  have w1 : (z - (dat i).1) / ((dat (i+1)).1 - (dat i).1) ≤ 1 := by rw [div_le_one hp]; linarith
  simp only [cylLocal]
  rw [mul_div_assoc]
  set w := (z - (dat i).1) / ((dat (i+1)).1 - (dat i).1)
  have a1 := mul_le_mul_of_nonneg_right hb1.1 (sub_nonneg.2 w1)
  have a2 := mul_le_mul_of_nonneg_right hb1.2 (sub_nonneg.2 w1)
  have a3 := mul_le_mul_of_nonneg_right hb2.1 w2
  have a4 := mul_le_mul_of_nonneg_right hb2.2 w2
  constructor <;> nlinarith

end

/-! ## angle -/

theorem cylTheta_spec {h k x y : ℝ} (hne : ¬ (x = h ∧ y = k)) :
    ∃ r > 0, x = h - r * cos (cylTheta h k x y * π / 180) ∧ y = k + r * sin (cylTheta h k x y * π / 180) ∧
      0 ≤ cylTheta h k x y ∧ cylTheta h k x y ≤ 360 := by
  set q := (x - h) * (x - h) + (y - k) * (y - k) with hq
  have hqpos : 0 < q := by
    rcases eq_or_ne x h with hx | hx
    · have hy : y - k ≠ 0 := fun e => hne ⟨hx, by linarith⟩
      nlinarith [mul_self_pos.2 hy, mul_self_nonneg (x - h)]
    · have hx' : x - h ≠ 0 := sub_ne_zero.2 hx
      nlinarith [mul_self_pos.2 hx', mul_self_nonneg (y - k)]
  set r := sqrt q with hr
  have hrpos : 0 < r := sqrt_pos.2 hqpos
  have hrr : r * r = q := mul_self_sqrt hqpos.le
  set s := (y - k) / r with hs
  have hsr : s * r = y - k := by rw [hs]; field_simp
  have hs2 : s ^ 2 ≤ 1 := by
    rw [hs, div_pow, div_le_one (by positivity)]
    nlinarith [mul_self_nonneg (x - h)]
  have hs1 : -1 ≤ s := by nlinarith
  have hs1' : s ≤ 1 := by nlinarith
  have hcos : cos (arcsin s) * r = |x - h| := by
    rw [cos_arcsin]
    have e : 1 - s ^ 2 = ((x - h) / r) ^ 2 := by
      rw [hs]; field_simp; nlinarith
    rw [e, sqrt_sq_eq_abs, abs_div, abs_of_pos hrpos]
    field_simp
  have hsin : sin (arcsin s) = s := sin_arcsin hs1 hs1'
  have hpi := pi_pos
  have hraw : 180 / π * arcsin s * π / 180 = arcsin s := by field_simp
  have hlow : -90 ≤ 180 / π * arcsin s := by
    have := neg_pi_div_two_le_arcsin s
    rw [div_mul_eq_mul_div, le_div_iff₀ hpi]; linarith
  have hup : 180 / π * arcsin s ≤ 90 := by
    have := arcsin_le_pi_div_two s
    rw [div_mul_eq_mul_div, div_le_iff₀ hpi]; linarith
  refine ⟨r, hrpos, ?_⟩
  simp only [cylTheta, ← hq, ← hr, ← hs, ite_self]
  by_cases hx : x < h
  · rw [if_pos hx]
    have hab : |x - h| = h - x := by rw [abs_of_neg (by linarith)]; ring
    by_cases hy : y > k
    · rw [if_pos hy, hraw, hsin]
      have : 0 ≤ arcsin s := arcsin_nonneg.2 (div_nonneg (by linarith) hrpos.le)
      refine ⟨by linarith [hcos, hab, mul_comm r (cos (arcsin s))], by linarith [mul_comm r s], by positivity, by linarith⟩
    · rw [if_neg hy]
      have e : (360 + 180 / π * arcsin s) * π / 180 = arcsin s + 2 * π := by field_simp; ring
      rw [e, cos_add_two_pi, sin_add_two_pi, hsin]
      have : 180 / π * arcsin s ≤ 0 :=
        mul_nonpos_of_nonneg_of_nonpos (by positivity) (arcsin_nonpos.2 (div_nonpos_of_nonpos_of_nonneg (by linarith) hrpos.le))
      exact ⟨by linarith [hcos, hab, mul_comm r (cos (arcsin s))], by linarith [mul_comm r s], by linarith, by linarith⟩
  · rw [if_neg hx]
    have hab : |x - h| = x - h := abs_of_nonneg (by linarith)
    have e : (180 - 180 / π * arcsin s) * π / 180 = π - arcsin s := by field_simp
    rw [e, cos_pi_sub, sin_pi_sub, hsin]
    exact ⟨by linarith [hcos, hab, mul_comm r (cos (arcsin s))], by linarith [mul_comm r s], by linarith, by linarith⟩

/-! ## concentric spheres -/

/-- Squared distance from the origin. -/
def rsq (p : Pt) : ℝ := p 0 * p 0 + p 1 * p 1 + p 2 * p 2

theorem rsq_pd {i : Fin 4} (hi : i ≠ 3) (p : Pt) : HasPD i rsq (2 * p i) p := by
  have h0 : HasPD 0 rsq (2 * p 0) p := by unfold rsq; refine HasPD.congr (by hpd) ?_; ring
  have h1 : HasPD 1 rsq (2 * p 1) p := by unfold rsq; refine HasPD.congr (by hpd) ?_; ring
  have h2 : HasPD 2 rsq (2 * p 2) p := by unfold rsq; refine HasPD.congr (by hpd) ?_; ring
  fin_cases i
  · exact h0
  · exact h1
  · exact h2
  · exact absurd rfl hi

theorem rsq_nonneg (p : Pt) : 0 ≤ rsq p := by
  unfold rsq; nlinarith [mul_self_nonneg (p 0), mul_self_nonneg (p 1), mul_self_nonneg (p 2)]

/-- First derivatives of `1/R`. -/
noncomputable def invR1 (i : Fin 4) (p : Pt) : ℝ := -(p i * ((rsq p)⁻¹ * (sqrt (rsq p))⁻¹))

theorem invR_pd {i : Fin 4} (hi : i ≠ 3) {p : Pt} (h : rsq p ≠ 0) : HasPD i (fun p => (sqrt (rsq p))⁻¹) (invR1 i p) p := by
  have hp : 0 < rsq p := lt_of_le_of_ne (rsq_nonneg p) h.symm
  have hs : sqrt (rsq p) ≠ 0 := (sqrt_pos.2 hp).ne'
  refine HasPD.congr (HasPD.inv (HasPD.sqrt (rsq_pd hi p) h) hs) ?_
  unfold invR1
  have e : rsq p = sqrt (rsq p) * sqrt (rsq p) := (mul_self_sqrt hp.le).symm
  generalize hq : sqrt (rsq p) = q at *
  rw [e]
  field_simp

theorem invR1_pd {i : Fin 4} (hi : i ≠ 3) {p : Pt} (h : rsq p ≠ 0) : HasPD i (invR1 i)
    (-((rsq p)⁻¹ * (sqrt (rsq p))⁻¹) + 3 * (p i * p i) * ((rsq p)⁻¹ * (rsq p)⁻¹ * (sqrt (rsq p))⁻¹)) p := by
  unfold invR1
  refine HasPD.congr (HasPD.neg (HasPD.mul HasPD.self (HasPD.mul (HasPD.inv (rsq_pd hi p) h) (invR_pd hi h)))) ?_
  unfold invR1
  ring

theorem near {i : Fin 4} (hi : i ≠ 3) {p : Pt} (h : rsq p ≠ 0) :
    ∀ᶠ s in nhds (p i), rsq (Function.update p i s) ≠ 0 := by
  have hc : ContinuousAt (fun s => rsq (Function.update p i s)) (p i) := (rsq_pd hi p).continuousAt
  apply hc.eventually_ne
  simpa using h

theorem invR_harmonic {p : Pt} (h : rsq p ≠ 0) (A B : ℝ) : lap (fun p => A + B * (sqrt (rsq p))⁻¹) p = 0 := by
  have key : ∀ i : Fin 4, i ≠ 3 → HasPD i (pd i (fun p => A + B * (sqrt (rsq p))⁻¹))
      (B * (-((rsq p)⁻¹ * (sqrt (rsq p))⁻¹) + 3 * (p i * p i) * ((rsq p)⁻¹ * (rsq p)⁻¹ * (sqrt (rsq p))⁻¹))) p := by
    intro i hi
    refine HasPD.second (D := fun p => B * invR1 i p) ?_ (HasPD.cmul _ (invR1_pd hi h))
    filter_upwards [near hi h] with s hs
    refine HasPD.congr (HasPD.add (HasPD.const A) (HasPD.cmul B (invR_pd hi hs))) ?_
    ring
  have e := Nalu.Exact.div_of (F := fun i => pd (dir i) (fun p => A + B * (sqrt (rsq p))⁻¹)) (key 0 (by decide))
    (key 1 (by decide)) (key 2 (by decide))
  rw [lap, e]
  have hx : p 0 * p 0 + p 1 * p 1 + p 2 * p 2 = rsq p := rfl
  have : rsq p * (rsq p)⁻¹ = 1 := mul_inv_cancel₀ h
  linear_combination (3 * B * (rsq p)⁻¹ * (sqrt (rsq p))⁻¹) * this + (3 * B * (rsq p)⁻¹ * (rsq p)⁻¹ * (sqrt (rsq p))⁻¹) * hx

theorem concentric_eq (ti t1 ri r1 : ℝ) : concentric ti t1 ri r1 = fun p =>
    (ti + (t1 - ti) * (1 / ri) / (1 / ri - 1 / r1)) + (-(t1 - ti) / (1 / ri - 1 / r1)) * (sqrt (rsq p))⁻¹ := by
  funext p
  simp only [concentric, rsq]
  ring

end Nalu.UserFn
