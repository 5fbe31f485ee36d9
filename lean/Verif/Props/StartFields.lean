import Mathlib.Tactic.Linarith
import Mathlib.Tactic.Positivity
import Mathlib.Tactic.NormNum
import Mathlib.Tactic.FieldSimp
import Mathlib.Algebra.BigOperators.Intervals
import Verif.Model.StartFields

/-!
# C343–C344: wetted walls, variance of the mixture fraction
-/

open scoped BigOperators

namespace Nalu.StartFields

/-! ### C343 -/

/-- Every level there is has this value. -/
def Levels.AllEq (v : Levels) (x : ℝ) : Prop := v.np1 = x ∧ v.n = x ∧ ∀ y, v.nm1 = some y → y = x

theorem wet_all (spec dist : ℝ) (v : Levels) :
    (dist < spec → (wet spec dist v).AllEq 1) ∧ (spec ≤ dist → (wet spec dist v).AllEq 0) ∧
    ((wet spec dist v).nm1.isSome = v.nm1.isSome) := by
  obtain ⟨a, b, c⟩ := v
  refine ⟨fun h => ?_, fun h => ?_, ?_⟩
  · cases c <;> simp [wet, h, Levels.AllEq]
  · cases c <;> simp [wet, not_lt.2 h, Levels.AllEq]
  · unfold wet
    split <;> cases c <;> rfl

/-- C343: with the initialisation on, every level of the volume fraction starts as one nearer to a wall than the given distance and
as zero elsewhere. -/
theorem c343_wetted (o : Options) (ho : o.active = true) (i : Inputs) :
    (distance i < o.distance → (startVof o i).AllEq 1) ∧ (o.distance ≤ distance i → (startVof o i).AllEq 0) := by
  unfold startVof
  rw [if_pos ho]
  exact ⟨(wet_all _ _ _).1, (wet_all _ _ _).2.1⟩

/-- C343: initial conditions, mesh file, restart file and transfers have then no influence on it. -/
theorem c343_nothing_else_matters (o : Options) (ho : o.active = true) (i i' : Inputs) (h : distance i = distance i') :
    (startVof o i).np1 = (startVof o i').np1 ∧ (startVof o i).n = (startVof o i').n := by
  obtain ⟨h1, h0⟩ := c343_wetted o ho i
  obtain ⟨h1', h0'⟩ := c343_wetted o ho i'
  rcases lt_or_ge (distance i) o.distance with hd | hd
  · have a := h1 hd; have b := h1' (h ▸ hd)
    exact ⟨a.1.trans b.1.symm, a.2.1.trans b.2.1.symm⟩
  · have a := h0 hd; have b := h0' (h ▸ hd)
    exact ⟨a.1.trans b.1.symm, a.2.1.trans b.2.1.symm⟩

/-- C343: off, it changes nothing: a restart starts from the restart file, overwritten only by a transfer, and another run from the
mesh file if it has the field and else from the initial condition. -/
theorem c343_off (o : Options) (ho : o.active = false) (i : Inputs) (ht : i.transferred = none) :
    (i.restarted = true → startVof o i = i.vofRestart) ∧
    (i.restarted = false → (startVof o i).np1 = i.vofMesh.getD i.initial.np1 ∧ (startVof o i).n = i.initial.n) := by
  unfold startVof
  rw [if_neg (by simp [ho])]
  constructor
  · intro hr; simp [before, hr, ht]
  · intro hr
    cases hm : i.vofMesh <;> simp [before, hr, ht, hm]

/-- C343: off, a transferred value is what the run starts with, on a restart too. -/
theorem c343_transfer (o : Options) (ho : o.active = false) (i : Inputs) (x : ℝ) (ht : i.transferred = some x) :
    (startVof o i).np1 = x := by
  unfold startVof
  rw [if_neg (by simp [ho])]
  simp [before, ht]

/-- C343, defect: a restart of such a run does not continue it: the restarted volume fraction is replaced by the initial one. -/
theorem c343_restart_overwritten (o : Options) (ho : o.active = true) (i : Inputs) (hr : i.restarted = true) (d : ℝ)
    (hd : i.distRestart = some d) (hv : i.vofRestart.np1 ≠ 0 ∧ i.vofRestart.np1 ≠ 1) : (startVof o i).np1 ≠ i.vofRestart.np1 := by
  have he : distance i = d := by simp [distance, hr, hd]
  obtain ⟨h1, h0⟩ := c343_wetted o ho i
  rcases lt_or_ge (distance i) o.distance with h | h
  · rw [(h1 h).1]; exact hv.2.symm
  · rw [(h0 h).1]; exact hv.1.symm

/-- C343, defect: if no model makes the wall distance a restart variable it is zero on a restart, and with a positive distance the
whole domain is filled. -/
theorem c343_restart_fills (o : Options) (ho : o.active = true) (hp : 0 < o.distance) (i : Inputs) (hr : i.restarted = true)
    (hd : i.distRestart = none) : (startVof o i).AllEq 1 :=
  (c343_wetted o ho i).1 (by simpa [distance, hr, hd] using hp)

/-- C343: switched on without a distance the domain is emptied, since distances are not negative. -/
theorem c343_default_distance (o : Options) (ho : o = { active := true }) (i : Inputs) (h : 0 ≤ distance i) :
    (startVof o i).AllEq 0 := by
  subst ho
  exact (c343_wetted _ rfl i).2 (by show (-1 : ℝ) ≤ distance i; linarith)

/-- C343: the option is off unless switched on. -/
theorem c343_default_off (i : Inputs) (ht : i.transferred = none) (hr : i.restarted = true) : startVof {} i = i.vofRestart :=
  (c343_off {} rfl i ht).1 hr

/-- C343: where the distance comes from: the mesh file in a new run, the restart file in a restart, and zero if it is not there. -/
theorem c343_distance_source (o : Options) (ho : o.active = true) (i : Inputs) (d : ℝ)
    (hd : (i.restarted = false ∧ i.distMesh = some d) ∨ (i.restarted = true ∧ i.distRestart = some d) ∨
      (d = 0 ∧ ((i.restarted = false ∧ i.distMesh = none) ∨ (i.restarted = true ∧ i.distRestart = none)))) :
    (d < o.distance → (startVof o i).AllEq 1) ∧ (o.distance ≤ d → (startVof o i).AllEq 0) := by
  have he : distance i = d := by
    rcases hd with ⟨h1, h2⟩ | ⟨h1, h2⟩ | ⟨rfl, ⟨h1, h2⟩ | ⟨h1, h2⟩⟩ <;> simp [distance, h1, h2]
  rw [← he]
  exact c343_wetted o ho i

/-- A node at distance 1 with the distance 2 given. -/
example : (startVof ⟨true, 2⟩ ⟨⟨0, 0, none⟩, false, some (1 / 2), some 1, ⟨0, 0, none⟩, none, none⟩).AllEq 1 :=
  (c343_wetted _ rfl _).1 (by norm_num [distance])

/-! ### C344 -/

theorem sum_eq (dzdx : ℕ → ℝ) (nDim k : ℕ) :
    (List.range nDim).foldl (fun s j => s + dzdx (k * nDim + j) * dzdx (k * nDim + j)) 0 =
      ∑ j ∈ Finset.range nDim, dzdx (k * nDim + j) ^ 2 := by
  have : ∀ n, (List.range n).foldl (fun s j => s + dzdx (k * nDim + j) * dzdx (k * nDim + j)) 0 =
      ∑ j ∈ Finset.range n, dzdx (k * nDim + j) ^ 2 := by
    intro n
    induction n with
    | zero => simp
    | succ n ih => rw [List.range_succ, List.foldl_append, ih, Finset.sum_range_succ]; simp [sq]
  exact this nDim

/-- The squared gradient of node `k` of a bucket. -/
def grad2 (nDim : ℕ) (dzdx : ℕ → ℝ) (k : ℕ) : ℝ := ∑ j ∈ Finset.range nDim, dzdx (k * nDim + j) ^ 2

/-- C344: the variance is the constant times the squared width of the dual volume times the squared gradient, and the
dissipation twice the diffusivity times the squared gradient. -/
theorem c344_fields (cv : ℝ) (nDim : ℕ) (dzdx vol z rho evisc : ℕ → ℝ) (k : ℕ) (hv : 0 < vol k) :
    (varDiss cv nDim dzdx vol z rho evisc k).var = cv * vol k ^ ((2 : ℝ) / nDim) * grad2 nDim dzdx k ∧
    (varDiss cv nDim dzdx vol z rho evisc k).diss = 2 * (evisc k / rho k) * grad2 nDim dzdx k := by
  have h : vol k ^ ((2 : ℝ) / nDim) = vol k ^ ((1 : ℝ) / nDim) * vol k ^ ((1 : ℝ) / nDim) := by
    rw [← Real.rpow_add hv]; congr 1; ring
  simp only [varDiss, sum_eq, grad2, h]
  exact ⟨by ring, by ring⟩

/-- C344: neither is negative for positive density and non-negative viscosity and constant. -/
theorem c344_nonneg (cv : ℝ) (hc : 0 ≤ cv) (nDim : ℕ) (dzdx vol z rho evisc : ℕ → ℝ) (k : ℕ) (hv : 0 < vol k) (hr : 0 < rho k)
    (he : 0 ≤ evisc k) :
    0 ≤ (varDiss cv nDim dzdx vol z rho evisc k).var ∧ 0 ≤ (varDiss cv nDim dzdx vol z rho evisc k).diss := by
  obtain ⟨h1, h2⟩ := c344_fields cv nDim dzdx vol z rho evisc k hv
  have hg : 0 ≤ grad2 nDim dzdx k := Finset.sum_nonneg fun j _ => sq_nonneg _
  rw [h1, h2]
  exact ⟨by positivity, by positivity⟩

/-- C344: the scaled variance is between zero and one for every input, also out of bounds mixture fractions and negative
constants. -/
theorem c344_scaled_range (cv : ℝ) (nDim : ℕ) (dzdx vol z rho evisc : ℕ → ℝ) (k : ℕ) :
    0 ≤ (varDiss cv nDim dzdx vol z rho evisc k).scaled ∧ (varDiss cv nDim dzdx vol z rho evisc k).scaled ≤ 1 := by
  simp only [varDiss]
  split
  · rename_i h
    have hp : (0 : ℝ) < max (z k * (1 - z k)) 0 := lt_trans (by norm_num) h
    exact ⟨div_nonneg (le_min (le_max_left _ _) hp.le) hp.le, (div_le_one hp).2 (min_le_right _ _)⟩
  · exact ⟨le_refl _, zero_le_one⟩

/-- C344: what it is: the variance over its largest possible value `z (1 - z)`, cut off at one, and zero where that value is at most
one millionth, i.e. in the free streams and out of bounds. -/
theorem c344_scaled (cv : ℝ) (nDim : ℕ) (dzdx vol z rho evisc : ℕ → ℝ) (k : ℕ) :
    (z k * (1 - z k) ≤ 1 / 1000000 → (varDiss cv nDim dzdx vol z rho evisc k).scaled = 0) ∧
    (1 / 1000000 < z k * (1 - z k) →
      (0 ≤ (varDiss cv nDim dzdx vol z rho evisc k).var →
        (varDiss cv nDim dzdx vol z rho evisc k).var ≤ z k * (1 - z k) →
        (varDiss cv nDim dzdx vol z rho evisc k).scaled = (varDiss cv nDim dzdx vol z rho evisc k).var / (z k * (1 - z k))) ∧
      (z k * (1 - z k) ≤ (varDiss cv nDim dzdx vol z rho evisc k).var → (varDiss cv nDim dzdx vol z rho evisc k).scaled = 1) ∧
      ((varDiss cv nDim dzdx vol z rho evisc k).var ≤ 0 → (varDiss cv nDim dzdx vol z rho evisc k).scaled = 0)) := by
  simp only [varDiss]
  constructor
  · intro h
    rw [if_neg]
    rw [gt_iff_lt, not_lt]
    exact max_le h (by norm_num)
  · intro h
    have hp : (0 : ℝ) < z k * (1 - z k) := lt_trans (by norm_num) h
    rw [max_eq_left hp.le, if_pos h]
    refine ⟨fun h1 h2 => ?_, fun h1 => ?_, fun h1 => ?_⟩
    · rw [max_eq_right h1, min_eq_left h2]
    · rw [max_eq_right (hp.le.trans h1), min_eq_right h1, div_self hp.ne']
    · rw [max_eq_left h1, min_eq_left hp.le, zero_div]

/-- C344: where the mixture fraction is uniform all three vanish. -/
theorem c344_uniform (cv : ℝ) (nDim : ℕ) (dzdx vol z rho evisc : ℕ → ℝ) (k : ℕ) (h : ∀ j < nDim, dzdx (k * nDim + j) = 0) :
    varDiss cv nDim dzdx vol z rho evisc k = ⟨0, 0, 0⟩ := by
  have hs : (List.range nDim).foldl (fun s j => s + dzdx (k * nDim + j) * dzdx (k * nDim + j)) 0 = 0 := by
    rw [sum_eq]
    exact Finset.sum_eq_zero fun j hj => by rw [h j (Finset.mem_range.1 hj)]; ring
  simp only [varDiss, hs, mul_zero, max_self, VarDiss.mk.injEq, true_and, and_true]
  split
  · rw [min_eq_left (le_max_right _ _), zero_div]
  · rfl

/-- C344: only the entries of the node itself are read. -/
theorem c344_local (cv : ℝ) (nDim : ℕ) (dzdx vol z rho evisc dzdx' vol' z' rho' evisc' : ℕ → ℝ) (k : ℕ)
    (h : ∀ j < nDim, dzdx (k * nDim + j) = dzdx' (k * nDim + j)) (hv : vol k = vol' k) (hz : z k = z' k) (hr : rho k = rho' k)
    (he : evisc k = evisc' k) :
    varDiss cv nDim dzdx vol z rho evisc k = varDiss cv nDim dzdx' vol' z' rho' evisc' k := by
  have hs : (∑ j ∈ Finset.range nDim, dzdx (k * nDim + j) ^ 2) = ∑ j ∈ Finset.range nDim, dzdx' (k * nDim + j) ^ 2 :=
    Finset.sum_congr rfl fun j hj => by rw [h j (Finset.mem_range.1 hj)]
  simp only [varDiss, sum_eq, hs, hv, hz, hr, he]

/-- C344: the threshold makes the scaled variance jump: with a large gradient it is zero at `z (1 - z) = 1e-6` and one as soon as
`z (1 - z)` is larger. -/
theorem c344_jump (cv : ℝ) (nDim : ℕ) (dzdx vol rho evisc : ℕ → ℝ) (k : ℕ) (z z' : ℕ → ℝ)
    (h0 : z k * (1 - z k) = 1 / 1000000) (h1 : 1 / 1000000 < z' k * (1 - z' k))
    (hv : z' k * (1 - z' k) ≤ (varDiss cv nDim dzdx vol z' rho evisc k).var) :
    (varDiss cv nDim dzdx vol z rho evisc k).scaled = 0 ∧ (varDiss cv nDim dzdx vol z' rho evisc k).scaled = 1 :=
  ⟨(c344_scaled cv nDim dzdx vol z rho evisc k).1 h0.le, ((c344_scaled cv nDim dzdx vol z' rho evisc k).2 h1).2.1 hv⟩

/-- A node in the mixing layer: its dissipation. -/
example : (varDiss 1 1 (fun _ => 1) (fun _ => 1) (fun _ => 1 / 2) (fun _ => 1) (fun _ => 3) 0).diss = 6 := by
  rw [(c344_fields _ _ _ _ _ _ _ _ (by norm_num)).2]; norm_num [grad2]

end Nalu.StartFields
