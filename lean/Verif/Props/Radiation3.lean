import Verif.Props.Radiation2
import Verif.Props.Quadrature
import Mathlib.Analysis.SpecialFunctions.Pow.NNReal

/-!
# C99 (scattering), C101, C102: the sweep over the ordinates, energy balance, convergence test
-/

namespace Nalu.Rad
open Nalu.Edge Nalu.Kernel

variable {K : Type*} [Field K] [LinearOrder K] [IsStrictOrderedRing K]
variable {nd no : ℕ} {M : Type}

/-! ## Invariants of the sweep -/

section sweep
variable [DecidableEq M] (walls : List (Wall M nd K)) (w : Fin no → K) (S : Fin no → Fin nd → K)
  (solve : Fin no → State M nd no K → M → K)

/-- The ordinates of a list in turn. -/
def run (l : List (Fin no)) (st : State M nd no K) : State M nd no K :=
  l.foldl (fun s k => ordinateStep walls w S solve k s) st

theorem run_spec (st : State M nd no K) (l : List (Fin no)) (hl : l.Nodup) :
    (∀ m, (run walls w S solve l st).G m = st.G m + (l.map fun k => w k * (run walls w S solve l st).I k m).sum) ∧
    (∀ m j, (run walls w S solve l st).q m j =
      st.q m j + (l.map fun k => w k * S k j * (run walls w S solve l st).I k m).sum) ∧
    (∀ m, (run walls w S solve l st).irr m =
      st.irr m + (l.map fun k => irradAdd walls (w k) (S k) ((run walls w S solve l st).I k) m).sum) ∧
    (∀ k, k ∉ l → (run walls w S solve l st).I k = st.I k) ∧
    (∀ l₁ k l₂, l = l₁ ++ k :: l₂ →
      (run walls w S solve l st).I k = solve k (run walls w S solve l₁ st)) ∧
    (run walls w S solve l st).Gold = st.Gold := by
  induction l using List.reverseRecOn with
  | nil => exact ⟨by simp [run], by simp [run], by simp [run], by simp [run], by simp, by simp [run]⟩
  | append_singleton l k ih =>
    have hk : k ∉ l := by
      intro h
      rw [List.nodup_append] at hl
      exact hl.2.2 k h k (by simp) rfl
    obtain ⟨i1, i2, i3, i4, i5, i6⟩ := ih (List.nodup_append.mp hl).1
    have hr : run walls w S solve (l ++ [k]) st = ordinateStep walls w S solve k (run walls w S solve l st) := by
      simp [run]
    have hold : ∀ k' ∈ l, (run walls w S solve (l ++ [k]) st).I k' = (run walls w S solve l st).I k' := by
      intro k' hk'
      rw [hr]
      funext m
      simp only [ordinateStep]
      rw [if_neg (by rintro rfl; exact hk hk')]
    have hnew : (run walls w S solve (l ++ [k]) st).I k = solve k (run walls w S solve l st) := by
      rw [hr]
      funext m
      simp [ordinateStep]
    refine ⟨fun m => ?_, fun m j => ?_, fun m => ?_, fun k' hk' => ?_, fun l₁ k' l₂ he => ?_, ?_⟩
    · rw [List.map_append, List.sum_append, List.map_congr_left (g := fun k => w k * (run walls w S solve l st).I k m)
        (fun k' hk' => by rw [hold k' hk'])]
      simp only [List.map_cons, List.map_nil, List.sum_cons, List.sum_nil, add_zero, hnew]
      rw [hr]
      simp only [ordinateStep]
      rw [i1 m]; ring
    · rw [List.map_append, List.sum_append, List.map_congr_left (g := fun k => w k * S k j * (run walls w S solve l st).I k m)
        (fun k' hk' => by rw [hold k' hk'])]
      simp only [List.map_cons, List.map_nil, List.sum_cons, List.sum_nil, add_zero, hnew]
      rw [hr]
      simp only [ordinateStep]
      rw [i2 m j]; ring
    · rw [List.map_append, List.sum_append, List.map_congr_left
        (g := fun k => irradAdd walls (w k) (S k) ((run walls w S solve l st).I k) m)
        (fun k' hk' => by rw [hold k' hk'])]
      simp only [List.map_cons, List.map_nil, List.sum_cons, List.sum_nil, add_zero, hnew]
      rw [hr]
      simp only [ordinateStep]
      rw [i3 m]; ring
    · have h1 : k' ∉ l := fun h => hk' (by simp [h])
      have h2 : k' ≠ k := fun h => hk' (by simp [h])
      rw [hr, ← i4 k' h1]
      funext m
      simp only [ordinateStep]
      rw [if_neg h2]
    · rcases List.eq_nil_or_concat l₂ with h2 | ⟨l₃, b, h2⟩
      · subst h2
        have := List.append_inj' he rfl
        obtain ⟨e1, e2⟩ := this
        cases List.singleton_injective e2
        rw [← e1, hnew]
      · rw [List.concat_eq_append] at h2
        subst h2
        have he' : l ++ [k] = (l₁ ++ k' :: l₃) ++ [b] := by rw [he]; simp
        obtain ⟨e1, e2⟩ := List.append_inj' he' rfl
        rw [hold k' (by rw [e1]; simp), i5 l₁ k' l₃ e1]
    · rw [hr]
      simp only [ordinateStep]
      exact i6

theorem sweep_eq (st : State M nd no K) : sweep walls w S solve st =
    { run walls w S solve (List.finRange no) { st with G := fun _ => 0, q := fun _ _ => 0, irr := fun _ => 0 } with
      irr := fun m => (run walls w S solve (List.finRange no)
        { st with G := fun _ => 0, q := fun _ _ => 0, irr := fun _ => 0 }).irr m / boundaryArea walls m
      Gold := (run walls w S solve (List.finRange no)
        { st with G := fun _ => 0, q := fun _ _ => 0, irr := fun _ => 0 }).G } := rfl

/-- The fields the equation system leaves behind are the moments of its ordinate intensities: scalar flux, radiative heat
flux and irradiation (per boundary area); the saved scalar flux is the current one. -/
def Moments (st : State M nd no K) : Prop :=
  (∀ m, st.G m = ∑ k, w k * st.I k m) ∧ (∀ m j, st.q m j = ∑ k, w k * S k j * st.I k m) ∧
  (∀ m, st.irr m = (∑ k, irradAdd walls (w k) (S k) (st.I k) m) / boundaryArea walls m) ∧ st.Gold = st.G

theorem sweep_moments (st : State M nd no K) : Moments walls w S (sweep walls w S solve st) := by
  obtain ⟨i1, i2, i3, -, -, -⟩ := run_spec walls w S solve
    { st with G := fun _ => 0, q := fun _ _ => 0, irr := fun _ => 0 } (List.finRange no) (List.nodup_finRange no)
  rw [sweep_eq]
  refine ⟨fun m => ?_, fun m j => ?_, fun m => ?_, rfl⟩
  · simp only [i1 m, zero_add, Fin.sum_univ_def]
  · simp only [i2 m j, zero_add, Fin.sum_univ_def]
  · simp only [i3 m, zero_add, Fin.sum_univ_def]

/-- **C101** After any positive number of iterations, with any linear solver, any convergence test and any fields to begin
with, scalar flux, radiative heat flux and irradiation are the moments of the final intensities. -/
theorem c101_moments (converged : State M nd no K → State M nd no K → Bool) (n : ℕ) (st : State M nd no K) :
    Moments walls w S (iterate walls w S solve converged (n + 1) st) := by
  induction n generalizing st with
  | zero =>
    simp only [iterate]
    split_ifs <;> exact sweep_moments walls w S solve st
  | succ n ih =>
    rw [iterate]
    split_ifs
    · exact sweep_moments walls w S solve st
    · exact ih _

/-- **C99** What the assembly of ordinate `k` sees: the intensity of ordinate `k` is found with a scalar flux to which only
the ordinates before `k` have contributed. -/
theorem c99_partial_scalar_flux (st : State M nd no K) (k : Fin no) :
    ∃ stk : State M nd no K, (sweep walls w S solve st).I k = solve k stk ∧
      ∀ m, stk.G m = ∑ l, if l < k then w l * (sweep walls w S solve st).I l m else 0 := by
  set st0 : State M nd no K := { st with G := fun _ => 0, q := fun _ _ => 0, irr := fun _ => 0 } with hst0
  have hsplit : List.finRange no = (List.finRange no).take k ++ k :: (List.finRange no).drop (k + 1) := by
    have : (List.finRange no).drop k = k :: (List.finRange no).drop (k + 1) := by
      rw [List.drop_eq_getElem_cons (by simp)]
      simp
    rw [← this, List.take_append_drop]
  have hnd := List.nodup_finRange no
  obtain ⟨i1, i2, i3, i4, i5, i6⟩ := run_spec walls w S solve st0 (List.finRange no) hnd
  obtain ⟨j1, j2, j3, j4, j5, j6⟩ := run_spec walls w S solve st0 ((List.finRange no).take k)
    ((List.take_sublist _ _).nodup hnd)
  refine ⟨run walls w S solve ((List.finRange no).take k) st0, i5 _ k _ hsplit, fun m => ?_⟩
  have hmem : ∀ l : Fin no, l ∈ (List.finRange no).take k ↔ l < k := by
    intro l
    constructor
    · intro h
      obtain ⟨i, hi, rfl⟩ := List.mem_take_iff_getElem.mp h
      simp only [List.length_finRange, lt_min_iff] at hi
      simp only [List.getElem_finRange, Fin.lt_def, Fin.val_cast]
      exact hi.1
    · intro h
      refine List.mem_take_iff_getElem.mpr ⟨l, ?_, ?_⟩
      · simp only [List.length_finRange, lt_min_iff]
        exact ⟨h, l.2⟩
      · simp
  have hI : ∀ l ∈ (List.finRange no).take k, (run walls w S solve ((List.finRange no).take k) st0).I l =
      (run walls w S solve (List.finRange no) st0).I l := by
    intro l hl
    obtain ⟨a, b, hab⟩ := List.append_of_mem hl
    rw [j5 a l b hab]
    rw [i5 a l (b ++ k :: (List.finRange no).drop (k + 1)) (hsplit.trans (by rw [hab]; simp))]
  rw [j1 m]
  have h0 : st0.G m = 0 := rfl
  rw [h0, zero_add, List.map_congr_left (g := fun l => if l < k then w l * (run walls w S solve (List.finRange no) st0).I l m else 0)
    (fun l hl => by rw [hI l hl, if_pos ((hmem l).mp hl)])]
  rw [Fin.sum_univ_def]
  conv_rhs => rw [hsplit]
  rw [List.map_append, List.sum_append]
  have hz : ((k :: (List.finRange no).drop (k + 1)).map fun l => if l < k then
      w l * (sweep walls w S solve st).I l m else 0).sum = 0 := by
    apply List.sum_eq_zero
    intro v hv
    obtain ⟨l, hl, rfl⟩ := List.mem_map.mp hv
    have : ¬ l < k := by
      intro hlt
      have h1 := (hmem l).mpr hlt
      rw [hsplit, List.nodup_append] at hnd
      exact hnd.2.2 l h1 l hl rfl
    simp [this]
  rw [hz, add_zero]
  rfl

end sweep

/-! ## C101: energy balance -/

/-- The mesh with the scalar flux that the assembly of one ordinate sees. -/
def EdgeMesh.withG (g : EdgeMesh M nd K) (G : M → K) : EdgeMesh M nd K :=
  { g with data := fun m => { g.data m with G := G m } }

/-- Rate at which intensity of one ordinate leaves through the walls. -/
def wallOut (Sk : Fin nd → K) (walls : List (Wall M nd K)) (bc I : M → K) : K :=
  (walls.map fun b => ∑ ip, wallFlux Sk b.face (fun a => bc (b.node a)) (fun a => I (b.node a)) ip).sum

theorem sum_list_swap [Fintype M] {α : Type*} (l : List α) (f : M → α → K) :
    ∑ m, (l.map fun a => f m a).sum = (l.map fun a => ∑ m, f m a).sum := by
  induction l with
  | nil => simp
  | cons a l ih => simp [Finset.sum_add_distrib, ih]

theorem edge_total [DecidableEq M] [Fintype M] (upw : Bool) (pi : K) (Sk : Fin nd → K) (g : EdgeMesh M nd K)
    (I : M → K) : ∑ m, (assembleWorks (edgeWorks upw pi Sk g Finset.univ.toList) I).rhs m =
      ∑ m, (gain pi (g.data m) - ((g.data m).abs + (g.data m).scat) * I m) * g.vol m - wallOut Sk g.walls g.bc I := by
  simp only [edge_assembled, Finset.sum_sub_distrib, Finset.sum_add_distrib, Finset.sum_neg_distrib]
  have h1 : ∑ m, (g.edges.map fun e => (if m = e.1 0 then edgeFluxOf upw pi Sk g I e else 0) -
        if m = e.1 1 then edgeFluxOf upw pi Sk g I e else 0).sum = 0 := by
    rw [sum_list_swap]
    apply List.sum_eq_zero
    intro v hv
    obtain ⟨e, _, rfl⟩ := List.mem_map.mp hv
    simp [Finset.sum_sub_distrib]
  have h3 : ∑ m, (g.walls.map fun b => ∑ ip, if m = b.node (b.face.near ip) then
        wallFlux Sk b.face (fun a => g.bc (b.node a)) (fun a => I (b.node a)) ip else 0).sum =
      wallOut Sk g.walls g.bc I := by
    rw [sum_list_swap, wallOut]
    congr 1
    refine List.map_congr_left fun b _ => ?_
    rw [Finset.sum_comm]
    refine Finset.sum_congr rfl fun ip _ => ?_
    simp
  rw [h1, h3, neg_zero, zero_add]
  congr 1
  refine Finset.sum_congr rfl fun m _ => ?_
  rw [Finset.sum_map_toList]
  simp [gain]

/-- **C101** Energy balance of the edge based scheme for any scalar flux `Gs k` seen by the scattering term of ordinate
`k`: when every ordinate solves its equations, the volume integral of the divergence of the heat flux handed to the
energy equation is the net radiative power leaving through the walls plus what is scattered out and not scattered in. -/
theorem energy_general [DecidableEq M] [Fintype M] (upw : Bool) {pi : K} (hpi : pi ≠ 0) (sb : K) (g : EdgeMesh M nd K)
    (T : M → K) (hsrc : ∀ m, (g.data m).src = radiationSource pi sb (g.data m).abs (T m))
    (w : Fin no → K) (S : Fin no → Fin nd → K) (hw : ∑ k, w k = 4 * pi) (I : Fin no → M → K) (Gs : Fin no → M → K)
    (hsol : ∀ k m, (assembleWorks (edgeWorks upw pi (S k) (g.withG (Gs k)) Finset.univ.toList) (I k)).rhs m = 0) :
    ∑ m, divFlux sb (g.data m).abs (T m) (∑ k, w k * I k m) * g.vol m =
      ∑ k, w k * wallOut (S k) g.walls g.bc (I k) +
      ∑ m, (g.data m).scat * (∑ k, w k * I k m - (∑ k, w k * Gs k m) / (4 * pi)) * g.vol m := by
  have h1 : ∀ k, w k * (∑ m, ((radiationSource pi sb (g.data m).abs (T m) + (g.data m).scat * Gs k m / 4 * (1 / pi) -
      ((g.data m).abs + (g.data m).scat) * I k m) * g.vol m)) = w k * wallOut (S k) g.walls g.bc (I k) := by
    intro k
    have := edge_total upw pi (S k) (g.withG (Gs k)) (I k)
    rw [Finset.sum_eq_zero (fun m _ => hsol k m)] at this
    congr 1
    have h2 : wallOut (S k) (g.withG (Gs k)).walls (g.withG (Gs k)).bc (I k) = wallOut (S k) g.walls g.bc (I k) := rfl
    rw [h2] at this
    have h3 : ∀ m, gain pi ((g.withG (Gs k)).data m) = radiationSource pi sb (g.data m).abs (T m) +
        (g.data m).scat * Gs k m / 4 * (1 / pi) := by
      intro m
      simp only [gain, EdgeMesh.withG, hsrc m]
    simp only [h3] at this
    have h4 : ∀ m, ((g.withG (Gs k)).data m).abs = (g.data m).abs ∧ ((g.withG (Gs k)).data m).scat = (g.data m).scat ∧
      (g.withG (Gs k)).vol m = g.vol m := fun m => ⟨rfl, rfl, rfl⟩
    simp only [(h4 _).1, (h4 _).2.1, (h4 _).2.2] at this
    linarith
  have h2 : ∑ k, w k * wallOut (S k) g.walls g.bc (I k) =
      ∑ m, (∑ k, w k * (radiationSource pi sb (g.data m).abs (T m) + (g.data m).scat * Gs k m / 4 * (1 / pi) -
      ((g.data m).abs + (g.data m).scat) * I k m)) * g.vol m := by
    rw [← Finset.sum_congr rfl fun k _ => h1 k]
    simp only [Finset.mul_sum, Finset.sum_mul]
    rw [Finset.sum_comm]
    exact Finset.sum_congr rfl fun m _ => Finset.sum_congr rfl fun k _ => by ring
  rw [h2, ← Finset.sum_add_distrib]
  refine Finset.sum_congr rfl fun m _ => ?_
  have e1 : ∑ k, w k * (radiationSource pi sb (g.data m).abs (T m) + (g.data m).scat * Gs k m / 4 * (1 / pi) -
      ((g.data m).abs + (g.data m).scat) * I k m) =
      (∑ k, w k) * radiationSource pi sb (g.data m).abs (T m) + (g.data m).scat / 4 * (1 / pi) * (∑ k, w k * Gs k m) -
      ((g.data m).abs + (g.data m).scat) * ∑ k, w k * I k m := by
    rw [Finset.sum_mul, Finset.mul_sum, Finset.mul_sum, ← Finset.sum_add_distrib, ← Finset.sum_sub_distrib]
    exact Finset.sum_congr rfl fun k _ => by ring
  rw [e1, hw]
  generalize ∑ k, w k * I k m = G
  generalize ∑ k, w k * Gs k m = H
  simp only [divFlux, radiationSource]
  field_simp
  ring

/-- **C101** Without scattering, or with the full scalar flux in the scattering term, the radiative heat taken from the
energy equation of the whole domain is exactly the net power that leaves through the walls. -/
theorem c101_energy_balance_partial [DecidableEq M] [Fintype M] (upw : Bool) {pi : K} (hpi : pi ≠ 0) (sb : K) (g : EdgeMesh M nd K)
    (T : M → K) (hsrc : ∀ m, (g.data m).src = radiationSource pi sb (g.data m).abs (T m))
    (w : Fin no → K) (S : Fin no → Fin nd → K) (hw : ∑ k, w k = 4 * pi) (I : Fin no → M → K) (Gs : Fin no → M → K)
    (hsol : ∀ k m, (assembleWorks (edgeWorks upw pi (S k) (g.withG (Gs k)) Finset.univ.toList) (I k)).rhs m = 0)
    (hs : ∀ m, (g.data m).scat = 0 ∨ ∀ k, Gs k m = ∑ l, w l * I l m) :
    ∑ m, divFlux sb (g.data m).abs (T m) (∑ k, w k * I k m) * g.vol m =
      ∑ k, w k * wallOut (S k) g.walls g.bc (I k) := by
  rw [energy_general upw hpi sb g T hsrc w S hw I Gs hsol]
  have : ∀ m, (g.data m).scat * (∑ k, w k * I k m - (∑ k, w k * Gs k m) / (4 * pi)) * g.vol m = 0 := by
    intro m
    rcases hs m with h | h
    · rw [h]; ring
    · have h2 : ∑ k, w k * Gs k m = 4 * pi * ∑ l, w l * I l m := by
        rw [← hw, Finset.sum_mul]
        exact Finset.sum_congr rfl fun k _ => by rw [h k]
      rw [h2]
      field_simp
      ring
  rw [Finset.sum_eq_zero fun m _ => this m, add_zero]

/-- **C101** (finding) With the scalar flux as the code accumulates it, a scattering medium loses energy: the power scattered
out of each ordinate exceeds what is scattered in by a positive amount. -/
theorem c101_scattering_loss [DecidableEq M] [Fintype M] (upw : Bool) {pi : K} (hpi : 0 < pi) (sb : K)
    (g : EdgeMesh M nd K)
    (T : M → K) (hsrc : ∀ m, (g.data m).src = radiationSource pi sb (g.data m).abs (T m))
    (w : Fin no → K) (S : Fin no → Fin nd → K) (hw : ∑ k, w k = 4 * pi) (I : Fin no → M → K)
    (hsol : ∀ k m, (assembleWorks (edgeWorks upw pi (S k) (g.withG fun m => ∑ l, if l < k then w l * I l m else 0)
      Finset.univ.toList) (I k)).rhs m = 0)
    (hwp : ∀ k, 0 < w k) (hI : ∀ k m, 0 ≤ I k m) (hv : ∀ m, 0 < g.vol m) (hsc : ∀ m, 0 ≤ (g.data m).scat)
    (m₀ : M) (h₀ : 0 < (g.data m₀).scat) (k₀ : Fin no) (hI₀ : 0 < I k₀ m₀) :
    ∑ k, w k * wallOut (S k) g.walls g.bc (I k) <
      ∑ m, divFlux sb (g.data m).abs (T m) (∑ k, w k * I k m) * g.vol m := by
  rw [energy_general upw hpi.ne' sb g T hsrc w S hw I _ hsol]
  have hdef : ∀ m, ∑ k, w k * I k m - (∑ k, w k * ∑ l, if l < k then w l * I l m else 0) / (4 * pi) =
      (∑ k, w k * ∑ l, if l < k then 0 else w l * I l m) / (4 * pi) := by
    intro m
    rw [eq_div_iff (by positivity), sub_mul, div_mul_cancel₀ _ (by positivity), ← hw, sub_eq_iff_eq_add,
      ← Finset.sum_add_distrib, Finset.mul_sum]
    refine Finset.sum_congr rfl fun k _ => ?_
    rw [← mul_add, ← Finset.sum_add_distrib, mul_comm]
    congr 1
    refine Finset.sum_congr rfl fun l _ => ?_
    split_ifs <;> simp
  have hterm : ∀ m k l, 0 ≤ w k * (if l < k then 0 else w l * I l m) := by
    intro m k l
    refine mul_nonneg (hwp k).le ?_
    split_ifs
    · rfl
    · exact mul_nonneg (hwp l).le (hI l m)
  have hnn : ∀ m, 0 ≤ (∑ k, w k * ∑ l, if l < k then 0 else w l * I l m) := by
    intro m
    refine Finset.sum_nonneg fun k _ => ?_
    rw [Finset.mul_sum]
    exact Finset.sum_nonneg fun l _ => hterm m k l
  have hpos : 0 < (∑ k, w k * ∑ l, if l < k then 0 else w l * I l m₀) := by
    refine Finset.sum_pos' (fun k _ => ?_) ⟨k₀, Finset.mem_univ _, ?_⟩
    · rw [Finset.mul_sum]
      exact Finset.sum_nonneg fun l _ => hterm m₀ k l
    · rw [Finset.mul_sum]
      refine Finset.sum_pos' (fun l _ => hterm m₀ k₀ l) ⟨k₀, Finset.mem_univ _, ?_⟩
      rw [if_neg (lt_irrefl _)]
      exact mul_pos (hwp k₀) (mul_pos (hwp k₀) hI₀)
  refine lt_add_of_pos_right _ (Finset.sum_pos' (fun m _ => ?_) ⟨m₀, Finset.mem_univ _, ?_⟩)
  · rw [hdef]
    exact mul_nonneg (mul_nonneg (hsc m) (div_nonneg (hnn m) (by positivity))) (hv m).le
  · rw [hdef]
    exact mul_pos (mul_pos h₀ (div_pos hpos (by positivity))) (hv m₀)

/-- **C99** (finding) In an isothermal enclosure with a scattering medium the sweep does not reproduce the equilibrium
intensity, however the linear systems are solved: the first ordinate is assembled with no in-scattering at all. -/
theorem c99_scattering_not_equilibrium [DecidableEq M] [Fintype M] (upw : Bool) {pi Ib : K} (hpi : pi ≠ 0) (hIb : Ib ≠ 0)
    (g : EdgeMesh M nd K) (w : Fin (no + 1) → K) (S : Fin (no + 1) → Fin nd → K)
    (hc : EdgeClosed g) (hsrc : ∀ m, (g.data m).src = (g.data m).abs * Ib) (hbc : ∀ m, g.bc m = Ib)
    (hu : ∀ b ∈ g.walls, ∀ ip, Unity (b.face.shape ip))
    (solve : Fin (no + 1) → State M nd (no + 1) K → M → K)
    (hsolve : ∀ k st m, (assembleWorks (edgeWorks upw pi (S k) (g.withG st.G) Finset.univ.toList) (solve k st)).rhs m = 0)
    (hscat : ∑ m, (g.data m).scat * g.vol m ≠ 0) (st : State M nd (no + 1) K) :
    (sweep g.walls w S solve st).I ≠ fun _ _ => Ib := by
  intro he
  obtain ⟨stk, h1, h2⟩ := c99_partial_scalar_flux g.walls w S solve st 0
  have hG : ∀ m, stk.G m = 0 := by
    intro m
    rw [h2]
    exact Finset.sum_eq_zero fun l _ => by simp
  have h3 := hsolve 0 stk
  rw [← h1, he] at h3
  -- residual with the full scalar flux
  have h4 := c99_edge_equilibrium_partial upw hpi (S 0) (g.withG fun _ => 4 * pi * Ib) Finset.univ.toList hc
    (fun m => ⟨hsrc m, rfl⟩) hbc hu
  have e3 := edge_total upw pi (S 0) (g.withG stk.G) (fun _ => Ib)
  have e4 := edge_total upw pi (S 0) (g.withG fun _ => 4 * pi * Ib) (fun _ => Ib)
  rw [Finset.sum_eq_zero fun m _ => h3 m] at e3
  rw [Finset.sum_eq_zero fun m _ => h4 m] at e4
  have e5 : ∑ m, (gain pi ((g.withG fun _ => 4 * pi * Ib).data m) - ((g.data m).abs + (g.data m).scat) * Ib) * g.vol m -
      ∑ m, (gain pi ((g.withG stk.G).data m) - ((g.data m).abs + (g.data m).scat) * Ib) * g.vol m =
      Ib * ∑ m, (g.data m).scat * g.vol m := by
    rw [← Finset.sum_sub_distrib, Finset.mul_sum]
    refine Finset.sum_congr rfl fun m _ => ?_
    simp only [gain, EdgeMesh.withG, hG m]
    field_simp
    ring
  have e6 : wallOut (S 0) (g.withG stk.G).walls (g.withG stk.G).bc (fun _ => Ib) =
      wallOut (S 0) (g.withG fun _ => 4 * pi * Ib).walls (g.withG fun _ => 4 * pi * Ib).bc (fun _ => Ib) := rfl
  rw [e6] at e3
  have e7 : Ib * ∑ m, (g.data m).scat * g.vol m = 0 := by
    rw [← e5]
    simp only [EdgeMesh.withG] at e3 e4 ⊢
    linarith
  exact (mul_ne_zero hIb hscat) e7

/-- The power arriving at the walls is the irradiation times the boundary area. -/
theorem c101_irradiation [DecidableEq M] [Fintype M] (walls : List (Wall M nd K)) (w : Fin no → K)
    (S : Fin no → Fin nd → K) (hA : ∀ b ∈ walls, ∀ ip, 0 < b.amag ip) (st : State M nd no K)
    (hst : Moments walls w S st) :
    ∑ m, st.irr m * boundaryArea walls m = ∑ k, w k * (walls.map fun b => ∑ ip,
      if (∑ j, b.face.area ip j * S k j) > 0 then
        interp (b.face.shape ip) (fun a => st.I k (b.node a)) * ∑ j, b.face.area ip j * S k j else 0).sum := by
  have hz : ∀ m, boundaryArea walls m = 0 → ∑ k, irradAdd walls (w k) (S k) (st.I k) m = 0 := by
    intro m h0
    refine Finset.sum_eq_zero fun k _ => ?_
    have hno : ∀ b ∈ walls, ∀ ip, m ≠ b.node (b.face.near ip) := by
      intro b hb ip hm
      have : 0 < boundaryArea walls m := by
        have hnn : ∀ b ∈ walls, 0 ≤ ∑ ip, if m = b.node (b.face.near ip) then b.amag ip else 0 := by
          intro b hb
          refine Finset.sum_nonneg fun ip _ => ?_
          split_ifs
          · exact (hA b hb ip).le
          · rfl
        have hle : (∑ ip, if m = b.node (b.face.near ip) then b.amag ip else 0) ≤ boundaryArea walls m :=
          List.single_le_sum (by
            intro x hx
            obtain ⟨c, hc, rfl⟩ := List.mem_map.mp hx
            exact hnn c hc) _ (List.mem_map.mpr ⟨b, hb, rfl⟩)
        refine lt_of_lt_of_le (Finset.sum_pos' (fun i _ => ?_) ⟨ip, Finset.mem_univ _, ?_⟩) hle
        · split_ifs
          · exact (hA b hb i).le
          · rfl
        · rw [if_pos hm]; exact hA b hb ip
      exact this.ne' h0
    rw [irradAdd]
    apply List.sum_eq_zero
    intro v hv
    obtain ⟨b, hb, rfl⟩ := List.mem_map.mp hv
    exact Finset.sum_eq_zero fun ip _ => if_neg (hno b hb ip)
  have h1 : ∀ m, st.irr m * boundaryArea walls m = ∑ k, irradAdd walls (w k) (S k) (st.I k) m := by
    intro m
    rw [hst.2.2.1 m]
    by_cases h : boundaryArea walls m = 0
    · rw [h, mul_zero, hz m h]
    · rw [div_mul_cancel₀ _ h]
  rw [Finset.sum_congr rfl fun m _ => h1 m, Finset.sum_comm]
  refine Finset.sum_congr rfl fun k _ => ?_
  simp only [irradAdd]
  rw [sum_list_swap, ← sum_map_mul']
  congr 1
  refine List.map_congr_left fun b hb => ?_
  rw [Finset.sum_comm, Finset.mul_sum]
  refine Finset.sum_congr rfl fun ip _ => ?_
  have ha := hA b hb ip
  have hd : ∑ j, b.face.area ip j / b.amag ip * S k j = (∑ j, b.face.area ip j * S k j) / b.amag ip := by
    rw [Finset.sum_div]
    exact Finset.sum_congr rfl fun j _ => by ring
  simp only [hd, Finset.sum_ite_eq', Finset.mem_univ, if_true]
  by_cases hp : (∑ j, b.face.area ip j * S k j) > 0
  · rw [if_pos hp, if_pos (div_pos hp ha)]
    field_simp
  · rw [if_neg hp, if_neg (fun h => hp ((div_pos_iff_of_pos_right ha).mp h)), mul_zero]

/-- **C101** Splitting of the power through the walls: what arrives, the irradiation, and what the walls send. -/
theorem c101_wall_split (Sk : Fin nd → K) (walls : List (Wall M nd K)) (bc I : M → K) :
    wallOut Sk walls bc I = (walls.map fun b => ∑ ip, if (∑ j, b.face.area ip j * Sk j) > 0 then
        interp (b.face.shape ip) (fun a => I (b.node a)) * ∑ j, b.face.area ip j * Sk j else 0).sum -
      (walls.map fun b => ∑ ip, if (∑ j, b.face.area ip j * Sk j) > 0 then 0 else
        interp (b.face.shape ip) (fun a => bc (b.node a)) * -∑ j, b.face.area ip j * Sk j).sum := by
  rw [sub_eq_add_neg, ← sum_map_neg, ← sum_map_add', wallOut]
  congr 1
  refine List.map_congr_left fun b _ => ?_
  rw [← Finset.sum_neg_distrib, ← Finset.sum_add_distrib]
  refine Finset.sum_congr rfl fun ip _ => ?_
  simp only [wallFlux]
  split_ifs <;> ring

/-! ## C102: coupling to the energy equation, convergence test -/

/-- **C102** The linearisation handed to the energy equation is the derivative with respect to temperature of the divergence
of the heat flux; the remainder is of second order. -/
theorem c102_div_lin (sb kappa T G d : K) :
    divFlux sb kappa (T + d) G = divFlux sb kappa T G + divFluxLin sb kappa T * d +
      4 * kappa * sb * (6 * T ^ 2 + 4 * T * d + d ^ 2) * d ^ 2 := by
  simp only [divFlux, divFluxLin]; ring

/-- **C102** The temperature and enthalpy source terms take the same power out of a node and their matrix is the derivative of
that power (with `dh = cp dT`); it never weakens the diagonal. -/
theorem c102_sources (sb kappa T G cp vol : K) (s : LocalSys (Fin 1) K) :
    (temperaturePmr (divFlux sb kappa T G) (divFluxLin sb kappa T) vol s).rhs 0 = s.rhs 0 - divFlux sb kappa T G * vol ∧
    (enthalpyPmr (divFlux sb kappa T G) (divFluxLin sb kappa T) cp vol s).rhs 0 = s.rhs 0 - divFlux sb kappa T G * vol ∧
    (temperaturePmr (divFlux sb kappa T G) (divFluxLin sb kappa T) vol s).lhs 0 0 = s.lhs 0 0 + divFluxLin sb kappa T * vol ∧
    (∀ dT, cp ≠ 0 → ((enthalpyPmr (divFlux sb kappa T G) (divFluxLin sb kappa T) cp vol s).lhs 0 0 - s.lhs 0 0) * (cp * dT) =
      divFluxLin sb kappa T * vol * dT) ∧
    (0 ≤ sb → 0 ≤ kappa → 0 ≤ T → 0 ≤ vol → 0 ≤ divFluxLin sb kappa T * vol) := by
  refine ⟨?_, ?_, ?_, ?_, ?_⟩
  · simp [temperaturePmr]; ring
  · simp [enthalpyPmr]; ring
  · simp [temperaturePmr]
  · intro dT hcp
    simp [enthalpyPmr]
    field_simp
  · intro h1 h2 h3 h4
    simp only [divFluxLin]
    positivity

/-- **C102** The radiative wall flux of the conduction equation: absorbed irradiation minus emission times the area of the
point; zero at each point where the irradiation is that of a black body at wall temperature; the matrix is the
derivative up to second order. -/
theorem c102_wall_flux {nf nip : ℕ} (sigma : K) (f : WallFace nf nip nd K) (amag : Fin nip → K) (irr eps T d : Fin nf → K)
    (s s' : LocalSys (Fin nf) K) (a : Fin nf) :
    ((heatCondIrrad sigma f amag irr eps T s).rhs a - s.rhs a = ∑ ip, if a = f.near ip then
      interp (f.shape ip) eps * (interp (f.shape ip) irr - sigma * interp (f.shape ip) T ^ 4) * amag ip else 0) ∧
    (heatCondIrrad sigma f amag irr eps (T + d) s').rhs a - s'.rhs a =
      ((heatCondIrrad sigma f amag irr eps T s).rhs a - s.rhs a) -
      (∑ b, ((heatCondIrrad sigma f amag irr eps T s).lhs a b - s.lhs a b) * d b) -
      ∑ ip, if a = f.near ip then interp (f.shape ip) eps * sigma * amag ip *
        (6 * interp (f.shape ip) T ^ 2 + 4 * interp (f.shape ip) T * interp (f.shape ip) d + interp (f.shape ip) d ^ 2) *
        interp (f.shape ip) d ^ 2 else 0 := by
  refine ⟨by rw [heatCondIrrad_rhs]; ring, ?_⟩
  rw [act_sub, heatCondIrrad_rhs, heatCondIrrad_rhs, heatCondIrrad_act]
  have : ∀ x y z : K, x + y - x = y := fun x y z => by ring
  rw [add_sub_cancel_left, add_sub_cancel_left, add_sub_cancel_left, ← Finset.sum_sub_distrib, ← Finset.sum_sub_distrib]
  refine Finset.sum_congr rfl fun ip _ => ?_
  rw [interp_add]
  split_ifs <;> ring

/-- **C102** The radiative wall flux vanishes when the irradiation is the black body flux at wall temperature. -/
theorem c102_wall_equilibrium {nf nip : ℕ} (sigma : K) (f : WallFace nf nip nd K) (hu : ∀ ip, Unity (f.shape ip))
    (amag : Fin nip → K) (eps : Fin nf → K) (T : K) (s : LocalSys (Fin nf) K) (a : Fin nf) :
    (heatCondIrrad sigma f amag (fun _ => sigma * T ^ 4) eps (fun _ => T) s).rhs a = s.rhs a := by
  rw [heatCondIrrad_rhs]
  simp [interp_const (hu _)]

theorem sqrt_add_le (a b : ℝ) (ha : 0 ≤ a) (hb : 0 ≤ b) : Real.sqrt (a + b) ≤ Real.sqrt a + Real.sqrt b := by
  have hs := add_nonneg (Real.sqrt_nonneg a) (Real.sqrt_nonneg b)
  rw [Real.sqrt_le_left hs]
  nlinarith [Real.sq_sqrt ha, Real.sq_sqrt hb, mul_nonneg (Real.sqrt_nonneg a) (Real.sqrt_nonneg b)]

/-- **C102** The norm that stops the iteration depends on the decomposition, but only on the safe side: it is never smaller
than the norm on one rank of all the nodes. -/
theorem c102_norm_parallel (ranks : List (List ℝ)) (scaling : ℝ) (hs : 0 < scaling) :
    fluxNorm [ranks.flatten] scaling ≤ fluxNorm ranks scaling := by
  simp only [fluxNorm, List.map_cons, List.map_nil, List.sum_cons, List.sum_nil, add_zero]
  apply div_le_div_of_nonneg_right _ hs.le
  have hnn : ∀ l : List ℝ, 0 ≤ (l.map fun d => d * d).sum := fun l =>
    List.sum_nonneg fun x hx => by
      obtain ⟨d, _, rfl⟩ := List.mem_map.mp hx
      exact mul_self_nonneg d
  induction ranks with
  | nil => simp
  | cons l ranks ih =>
    rw [List.flatten_cons, List.map_append, List.sum_append, List.map_cons, List.sum_cons]
    exact le_trans (sqrt_add_le _ _ (hnn _) (hnn _)) (by linarith)

/-- **C102** (finding) The same change of the scalar flux gives twice the norm when four nodes are on four ranks. -/
theorem c102_norm_decomposition : fluxNorm [[1, 1, 1, 1]] 1 = 2 ∧ fluxNorm [[1], [1], [1], [1]] 1 = 4 := by
  have h4 : Real.sqrt 4 = 2 := by
    rw [show (4 : ℝ) = 2 ^ 2 by norm_num]
    exact Real.sqrt_sq (by norm_num)
  constructor
  · simp only [fluxNorm, List.map_cons, List.map_nil, List.sum_cons, List.sum_nil]
    norm_num [h4]
  · simp only [fluxNorm, List.map_cons, List.map_nil, List.sum_cons, List.sum_nil]
    norm_num

end Nalu.Rad
