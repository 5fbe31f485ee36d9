import Verif.Spec.WallOde
import Mathlib.Tactic.Ring
import Mathlib.Tactic.Linarith
import Mathlib.Tactic.FieldSimp
import Mathlib.Tactic.Positivity
import Mathlib.Analysis.SpecialFunctions.Exp

/-!
# Proofs: tridiagonal elimination and assembly
-/

namespace Nalu.WallOde

/-! ## Elimination -/

/-- The pivots. -/
noncomputable def piv (ns : ℕ → Row) : ℕ → ℝ
  | 0 => (ns 0).Ap
  | k + 1 => (ns (k + 1)).Ap - (ns (k + 1)).Aw / piv ns k * (ns k).Ae

/-- The eliminated right-hand sides. -/
noncomputable def rr (ns : ℕ → Row) : ℕ → ℝ
  | 0 => (ns 0).rhs
  | k + 1 => (ns (k + 1)).rhs - (ns (k + 1)).Aw / piv ns k * rr ns k

theorem forward_inv (ns : ℕ → Row) (j k : ℕ) :
    (List.range j).foldl (fun ns j =>
      let k := j + 1
      let w := (ns k).Aw / (ns (k - 1)).Ap
      let ns := put ns k { ns k with Ap := (ns k).Ap - w * (ns (k - 1)).Ae }
      put ns k { ns k with rhs := (ns k).rhs - w * (ns (k - 1)).rhs }) ns k =
    if k ≤ j then { ns k with Ap := piv ns k, rhs := rr ns k } else ns k := by
  induction j generalizing k with
  | zero =>
    by_cases h : k ≤ 0
    · obtain rfl : k = 0 := by omega
      simp [piv, rr]
    · simp [h]
  | succ j ih =>
    rw [List.range_succ, List.foldl_append, List.foldl_cons, List.foldl_nil]
    generalize hA : List.foldl _ ns (List.range j) = A at ih ⊢
    have h1 : A (j + 1) = ns (j + 1) := by rw [ih, if_neg (by omega)]
    have h0 : A j = { ns j with Ap := piv ns j, rhs := rr ns j } := by rw [ih, if_pos (le_refl j)]
    by_cases hk : k = j + 1
    · subst hk
      simp [put, h1, h0, piv, rr]
    · simp only [put, if_neg hk, ih]
      by_cases h2 : k ≤ j
      · rw [if_pos h2, if_pos (by omega)]
      · rw [if_neg h2, if_neg (by omega)]

theorem forward_get (m : ℕ) (ns : ℕ → Row) {k : ℕ} (hk : k < m) : forward m ns k = { ns k with Ap := piv ns k, rhs := rr ns k } := by
  rw [forward, forward_inv, if_pos (by omega)]

theorem backward_inv (ns : ℕ → Row) (j : ℕ) : ∀ u : ℕ → ℝ,
    let v := (List.range j).reverse.foldl (fun u k => put u k (((ns k).rhs - (ns k).Ae * u (k + 1)) / (ns k).Ap)) u
    (∀ k, j ≤ k → v k = u k) ∧ ∀ k < j, v k = ((ns k).rhs - (ns k).Ae * v (k + 1)) / (ns k).Ap := by
  induction j with
  | zero => intro u; simp
  | succ j ih =>
    intro u
    rw [List.range_succ, List.reverse_append, List.reverse_singleton, List.singleton_append, List.foldl_cons]
    obtain ⟨h1, h2⟩ := ih (put u j (((ns j).rhs - (ns j).Ae * u (j + 1)) / (ns j).Ap))
    refine ⟨fun k hk => ?_, fun k hk => ?_⟩
    · rw [h1 k (by omega)]; simp only [put]; rw [if_neg (by omega)]
    · by_cases hkj : k = j
      · subst hkj
        rw [h1 k (le_refl k), h1 (k + 1) (by omega)]
        simp [put]
      · exact h2 k (by omega)

theorem backward_get {m : ℕ} (hm : 1 ≤ m) (ns : ℕ → Row) (u : ℕ → ℝ) :
    (∀ k, m ≤ k → backward m ns u k = u k) ∧ backward m ns u (m - 1) = (ns (m - 1)).rhs / (ns (m - 1)).Ap ∧
      ∀ k, k + 1 < m → backward m ns u k = ((ns k).rhs - (ns k).Ae * backward m ns u (k + 1)) / (ns k).Ap := by
  obtain ⟨h1, h2⟩ := backward_inv ns (m - 1) (put u (m - 1) ((ns (m - 1)).rhs / (ns (m - 1)).Ap))
  refine ⟨fun k hk => ?_, ?_, fun k hk => h2 k (by omega)⟩
  · rw [backward, h1 k (by omega)]; simp only [put]; rw [if_neg (by omega)]
  · rw [backward, h1 _ (le_refl _)]; simp [put]

/-- The eliminated system. -/
def Elim (m : ℕ) (ns : ℕ → Row) (u : ℕ → ℝ) (k : ℕ) : Prop :=
  piv ns k * u k + (if k + 1 = m then 0 else (ns k).Ae * u (k + 1)) = rr ns k

theorem elim_iff {m : ℕ} {ns : ℕ → Row} (hp : ∀ k < m, piv ns k ≠ 0) (u : ℕ → ℝ) : SolvesTri m ns u ↔ ∀ k < m, Elim m ns u k := by
  have step : ∀ k, k + 1 < m → Elim m ns u k →
      (((ns (k + 1)).Aw * u k + (ns (k + 1)).Ap * u (k + 1) + (if k + 1 + 1 = m then 0 else (ns (k + 1)).Ae * u (k + 1 + 1)) = (ns (k + 1)).rhs)
        ↔ Elim m ns u (k + 1)) := by
    intro k hk he
    have h0 := hp k (by omega)
    rw [Elim, if_neg (by omega)] at he
    have hu : u k = (rr ns k - (ns k).Ae * u (k + 1)) / piv ns k := by rw [eq_div_iff h0]; linarith
    rw [Elim, piv, rr, hu]
    constructor
    · intro h; rw [← h]; field_simp; ring
    · intro h
      have : (ns (k + 1)).rhs = ((ns (k + 1)).Ap - (ns (k + 1)).Aw / piv ns k * (ns k).Ae) * u (k + 1) +
        (if k + 1 + 1 = m then 0 else (ns (k + 1)).Ae * u (k + 1 + 1)) + (ns (k + 1)).Aw / piv ns k * rr ns k := by rw [h]; ring
      rw [this]; field_simp; ring
  constructor
  · intro h k
    induction k with
    | zero =>
      intro hk
      have := h 0 hk
      simpa [Elim, piv, rr] using this
    | succ k ih =>
      intro hk
      have := h (k + 1) hk
      rw [if_neg (by omega), Nat.add_sub_cancel] at this
      exact (step k hk (ih (by omega))).1 this
  · intro h k hk
    cases k with
    | zero => simpa [Elim, piv, rr] using h 0 hk
    | succ k =>
      rw [if_neg (by omega), Nat.add_sub_cancel]
      exact (step k hk (h k (by omega))).2 (h (k + 1) hk)

theorem tdma_elim {m : ℕ} (hm : 1 ≤ m) {ns : ℕ → Row} (hp : ∀ k < m, piv ns k ≠ 0) (u : ℕ → ℝ) : ∀ k < m, Elim m ns (tdma m ns u) k := by
  obtain ⟨-, h1, h2⟩ := backward_get hm (forward m ns) u
  intro k hk
  have h0 := hp k hk
  rw [Elim, tdma]
  by_cases hl : k + 1 = m
  · obtain rfl : k = m - 1 := by omega
    rw [if_pos hl, h1, forward_get m ns hk]
    field_simp; ring
  · rw [if_neg hl, h2 k (by omega), forward_get m ns hk]
    field_simp; ring

theorem elim_unique {m : ℕ} {ns : ℕ → Row} (hp : ∀ k < m, piv ns k ≠ 0) {u v : ℕ → ℝ} (hu : ∀ k < m, Elim m ns u k)
    (hv : ∀ k < m, Elim m ns v k) : ∀ k < m, u k = v k := by
  have key : ∀ j k, k + j + 1 = m → u k = v k := by
    intro j
    induction j with
    | zero =>
      intro k hk
      have h1 := hu k (by omega); have h2 := hv k (by omega)
      rw [Elim, if_pos (by omega), add_zero] at h1 h2
      exact mul_left_cancel₀ (hp k (by omega)) (h1.trans h2.symm)
    | succ j ih =>
      intro k hk
      have h1 := hu k (by omega); have h2 := hv k (by omega)
      rw [Elim, if_neg (by omega)] at h1 h2
      rw [ih (k + 1) (by omega)] at h1
      exact mul_left_cancel₀ (hp k (by omega)) (by linarith)
  intro k hk
  exact key (m - 1 - k) k (by omega)

theorem piv_dominant {m : ℕ} {ns : ℕ → Row} (hd : Dominant m ns) : ∀ k < m, |(ns k).Ae| < |piv ns k| := by
  obtain ⟨h1, h2, h3⟩ := hd
  intro k
  induction k with
  | zero => intro _; exact h2
  | succ k ih =>
    intro hk
    have hi := ih (by omega)
    have hpos : 0 < |piv ns k| := lt_of_le_of_lt (abs_nonneg _) hi
    rw [piv]
    by_cases hw : (ns (k + 1)).Aw = 0
    · rw [hw, zero_div, zero_mul, sub_zero]; exact h3 _ hk hw
    · have hq : |(ns (k + 1)).Aw / piv ns k * (ns k).Ae| < |(ns (k + 1)).Aw| := by
        rw [abs_mul, abs_div, div_mul_eq_mul_div, div_lt_iff₀ hpos]
        exact mul_lt_mul_of_pos_left hi (abs_pos.2 hw)
      have := abs_sub_abs_le_abs_sub (ns (k + 1)).Ap ((ns (k + 1)).Aw / piv ns k * (ns k).Ae)
      have := h1 _ hk
      linarith

theorem piv_ne {m : ℕ} {ns : ℕ → Row} (hd : Dominant m ns) : ∀ k < m, piv ns k ≠ 0 := fun k hk =>
  abs_pos.1 (lt_of_le_of_lt (abs_nonneg _) (piv_dominant hd k hk))

/-! ## Assembly -/

/-- `lhsfac` of an edge. -/
noncomputable def fac (x visc : ℕ → ℝ) (k : ℕ) : ℝ := -(1 / 2) * (visc (k + 1) + visc k) / (x (k + 1) - x k)

theorem scatter_get (ns : ℕ → Row) (j k : ℕ) (c : ℝ) :
    scatter ns j (j + 1) (-c) c c (-c) 0 0 k =
      if k = j then ⟨(ns k).Aw, (ns k).Ap - c, (ns k).Ae + c, (ns k).rhs⟩
      else if k = j + 1 then ⟨(ns k).Aw + c, (ns k).Ap - c, (ns k).Ae, (ns k).rhs⟩ else ns k := by
  simp only [scatter, put]
  by_cases h1 : k = j
  · subst h1; ext <;> simp <;> ring
  · by_cases h2 : k = j + 1
    · subst h2; ext <;> simp <;> ring
    · simp [h1, h2]

theorem assemble_inv (x visc : ℕ → ℝ) (ns : ℕ → Row) (j k : ℕ) (h0 : ∀ k ≤ j, ns k = Row.zero) (hk : k ≤ j) :
    (List.range j).foldl (fun ns k => scatter ns (lrscv k).1 (lrscv k).2 (-(-(1 / 2) * (visc (lrscv k).2 + visc (lrscv k).1) / (x (lrscv k).2 - x (lrscv k).1)))
      (-(1 / 2) * (visc (lrscv k).2 + visc (lrscv k).1) / (x (lrscv k).2 - x (lrscv k).1))
      (-(1 / 2) * (visc (lrscv k).2 + visc (lrscv k).1) / (x (lrscv k).2 - x (lrscv k).1))
      (-(-(1 / 2) * (visc (lrscv k).2 + visc (lrscv k).1) / (x (lrscv k).2 - x (lrscv k).1))) 0 0) ns k =
    ⟨if k = 0 then 0 else fac x visc (k - 1), -((if k = 0 then 0 else fac x visc (k - 1)) + if k = j then 0 else fac x visc k),
      if k = j then 0 else fac x visc k, 0⟩ := by
  induction j generalizing k with
  | zero =>
    obtain rfl : k = 0 := by omega
    simp [h0 0 (le_refl 0), Row.zero]
  | succ j ih =>
    rw [List.range_succ, List.foldl_append, List.foldl_cons, List.foldl_nil]
    change scatter _ j (j + 1) (-fac x visc j) (fac x visc j) (fac x visc j) (-fac x visc j) 0 0 k = _
    rw [scatter_get]
    by_cases h1 : k = j + 1
    · subst h1
      rw [if_neg (by omega), if_pos rfl]
      have hkeep : ∀ i, i ≤ j → (List.range i).foldl (fun ns k => scatter ns (lrscv k).1 (lrscv k).2 (-(-(1 / 2) * (visc (lrscv k).2 + visc (lrscv k).1) / (x (lrscv k).2 - x (lrscv k).1)))
          (-(1 / 2) * (visc (lrscv k).2 + visc (lrscv k).1) / (x (lrscv k).2 - x (lrscv k).1))
          (-(1 / 2) * (visc (lrscv k).2 + visc (lrscv k).1) / (x (lrscv k).2 - x (lrscv k).1))
          (-(-(1 / 2) * (visc (lrscv k).2 + visc (lrscv k).1) / (x (lrscv k).2 - x (lrscv k).1))) 0 0) ns (j + 1) = ns (j + 1) := by
        intro i hi
        induction i with
        | zero => rfl
        | succ i ih2 =>
          rw [List.range_succ, List.foldl_append, List.foldl_cons, List.foldl_nil]
          change scatter _ i (i + 1) (-fac x visc i) (fac x visc i) (fac x visc i) (-fac x visc i) 0 0 (j + 1) = _
          rw [scatter_get, if_neg (by omega), if_neg (by omega), ih2 (by omega)]
      rw [hkeep j (le_refl j), h0 (j + 1) (le_refl _)]
      ext <;> simp [Row.zero]
    · rw [ih k (fun i hi => h0 i (by omega)) (by omega)]
      by_cases h2 : k = j
      · subst h2
        ext <;> simp <;> ring
      · simp [h1, h2]

theorem assemble_get {m : ℕ} (x visc : ℕ → ℝ) (ns : ℕ → Row) {k : ℕ} (hk : k < m) :
    assemble m x visc ns k = ⟨if k = 0 then 0 else fac x visc (k - 1),
      -((if k = 0 then 0 else fac x visc (k - 1)) + if k + 1 = m then 0 else fac x visc k), if k + 1 = m then 0 else fac x visc k, 0⟩ := by
  rw [assemble]
  have := assemble_inv x visc (fun k => if k < m then Row.zero else ns k) (m - 1) k (fun i hi => if_pos (by omega)) (by omega)
  have e : (k = m - 1) ↔ (k + 1 = m) := by omega
  simp only [e] at this
  exact this

/-- The system of a profile. -/
theorem system_get {m : ℕ} (x visc : ℕ → ℝ) (ns : ℕ → Row) (uW uEx : ℝ) {k : ℕ} (hk : k < m) :
    dirichlet (dirichlet (assemble m x visc ns) 0 uW) (m - 1) uEx k =
      if k + 1 = m then ⟨0, 1, 0, uEx⟩ else if k = 0 then ⟨0, 1, 0, uW⟩ else ⟨fac x visc (k - 1), -(fac x visc (k - 1) + fac x visc k), fac x visc k, 0⟩ := by
  have e : (k = m - 1) ↔ (k + 1 = m) := by omega
  simp only [dirichlet, put, e]
  by_cases h1 : k + 1 = m
  · simp [h1]
  · by_cases h2 : k = 0
    · simp [h1, h2]
    · simp only [if_neg h1, if_neg h2, assemble_get x visc ns hk]

theorem system_dominant {m : ℕ} (hm : 2 ≤ m) (x visc : ℕ → ℝ) (ns : ℕ → Row) (uW uEx : ℝ) (hf : ∀ k, k + 1 < m → fac x visc k < 0) :
    Dominant m (dirichlet (dirichlet (assemble m x visc ns) 0 uW) (m - 1) uEx) := by
  refine ⟨fun k hk => ?_, ?_, fun k hk hw => ?_⟩
  · rw [system_get x visc ns uW uEx hk]
    split_ifs with h1 h2
    · simp
    · simp
    · have a := hf (k - 1) (by omega)
      have b := hf k (by omega)
      simp only
      rw [abs_of_neg a, abs_of_neg b, abs_of_pos (by linarith)]; linarith
  · rw [system_get x visc ns uW uEx (by omega : 0 < m), if_neg (by omega), if_pos rfl]; simp
  · rw [system_get x visc ns uW uEx hk] at hw ⊢
    split_ifs at hw ⊢ with h1 h2
    · simp
    · simp
    · exact absurd hw (hf (k - 1) (by omega)).ne

end Nalu.WallOde
