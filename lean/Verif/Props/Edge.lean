import Verif.Proofs.Edge
import Mathlib.Data.Fin.VecNotation
import Mathlib.Tactic.FinCases

/-!
# C23–C25, C27–C29, C53–C56: edge algorithms
-/

set_option linter.unusedSectionVars false
set_option linter.unusedSimpArgs false

namespace Nalu.Edge

variable {K : Type*} [Field K] [LinearOrder K] [IsStrictOrderedRing K]

/-! ## C23 conservation -/

/-- Total flux of a scalar out of the domain through the open boundary (specification): outgoing mass
carries the node's value, incoming mass the specified entrainment value. -/
def openOutflux {N : Type*} {n : ℕ} (q bc : N → K) (ips : List (OpenIp N n K)) : K :=
  (ips.map (fun ip => if 0 < ip.mdot then ip.mdot * q ip.nearest else ip.mdot * bc ip.nearest)).sum

/-- **C23** For every mesh (list of edges), all nodal fields and all options, the assembled scalar
residual, summed over the nodes, is minus the flux through the open boundary. -/
theorem c23_scalar_residual {N : Type*} [DecidableEq N] [Fintype N] {n : ℕ} (o : Opts K)
    (nd : N → ScalarNode n K) (edges : List (EdgeRec N n K)) (bc : N → K) (ips : List (OpenIp N n K)) :
    ∑ i, (assembleScalarOpen (fun i => (nd i).q) bc ips
        (assembleScalar o nd edges (Sys.zero N K))).rhs i
      = - openOutflux (fun i => (nd i).q) bc ips := by
  unfold assembleScalarOpen assembleScalar openOutflux
  have h1 := fun (s : Sys N K) => weighted_rhs (fun _ => 1) ips (fun ip (_ : Fin 1) => ip.nearest)
    (fun ip => scalarOpen ip.mdot (nd ip.nearest).q (bc ip.nearest)) s
  have h2 := fun (s : Sys N K) => weighted_rhs (fun _ => 1) edges (fun e => e.node)
    (fun e => scalarEdge o e.area e.mdot (nd e.left) (nd e.right)) s
  simp only [one_mul] at h1 h2
  rw [h1, h2, sum_map_zero edges, ← sum_map_neg']
  · simp only [Sys.zero, Finset.sum_const_zero, zero_add]
    congr 1
    refine List.map_congr_left (fun ip _ => ?_)
    unfold scalarOpen
    by_cases h : 0 < ip.mdot <;> simp [h]
  · intro e _
    simp [Fin.sum_univ_two, scalarEdge]

/-- **C23** Every column of the assembled scalar matrix sums to the mass leaving the domain at that
column's node (zero without open boundaries). -/
theorem c23_scalar_columns {N : Type*} [DecidableEq N] [Fintype N] {n : ℕ} (o : Opts K)
    (nd : N → ScalarNode n K) (edges : List (EdgeRec N n K)) (bc : N → K) (ips : List (OpenIp N n K))
    (j : N) :
    ∑ i, (assembleScalarOpen (fun i => (nd i).q) bc ips
        (assembleScalar o nd edges (Sys.zero N K))).mat i j
      = (ips.map (fun ip => if j = ip.nearest then max ip.mdot 0 else 0)).sum := by
  unfold assembleScalarOpen assembleScalar
  have h1 := fun (s : Sys N K) => weighted_mat (fun _ => 1) ips (fun ip (_ : Fin 1) => ip.nearest)
    (fun ip => scalarOpen ip.mdot (nd ip.nearest).q (bc ip.nearest)) s j
  have h2 := fun (s : Sys N K) => weighted_mat (fun _ => 1) edges (fun e => e.node)
    (fun e => scalarEdge o e.area e.mdot (nd e.left) (nd e.right)) s j
  simp only [one_mul] at h1 h2
  rw [h1, h2, sum_map_zero edges]
  · simp only [Sys.zero, Finset.sum_const_zero, zero_add]
    congr 1
    refine List.map_congr_left (fun ip _ => ?_)
    unfold scalarOpen
    by_cases h : 0 < ip.mdot
    · simp [h, max_eq_left h.le]
    · simp [h, max_eq_right (not_lt.1 h)]
  · intro e _
    have : ∀ b, ∑ a, (scalarEdge o e.area e.mdot (nd e.left) (nd e.right)).lhs a b = 0 := by
      intro b
      fin_cases b <;> simp [Fin.sum_univ_two, scalarEdge] <;> ring
    simp [this]

/-- **C23** The same for momentum, component by component: the residual of each component sums to zero
over all nodes, and so does each column of the matrix within each component. -/
theorem c23_momentum {N : Type*} [DecidableEq N] [Fintype N] {n : ℕ} (o : Opts K) (incDivU : K)
    (nd : N → MomNode n K) (edges : List (EdgeRec N n K)) (i : Fin n) :
    (∑ v, (assembleMomentum o incDivU nd edges (Sys.zero _ K)).rhs (v, i) = 0) ∧
    (∀ col, ∑ v, (assembleMomentum o incDivU nd edges (Sys.zero _ K)).mat (v, i) col = 0) := by
  unfold assembleMomentum
  have h1 := fun (s : Sys (N × Fin n) K) => weighted_rhs (fun m => if m.2 = i then 1 else 0) edges
    (fun e r => (e.node r.1, r.2))
    (fun e => momentumEdge o incDivU e.area e.mdot (nd e.left) (nd e.right)) s
  have h2 := fun (s : Sys (N × Fin n) K) col => weighted_mat (fun m => if m.2 = i then 1 else 0) edges
    (fun e r => (e.node r.1, r.2))
    (fun e => momentumEdge o incDivU e.area e.mdot (nd e.left) (nd e.right)) s col
  have hs : ∀ g : N × Fin n → K, ∑ m, (if m.2 = i then (1:K) else 0) * g m = ∑ v, g (v, i) := by
    intro g
    simp [Fintype.sum_prod_type]
  have hs2 : ∀ g : Fin 2 × Fin n → K,
      ∑ m, (if m.2 = i then (1:K) else 0) * g m = g (0, i) + g (1, i) := by
    intro g
    simp [Fintype.sum_prod_type]
  simp only [hs, hs2] at h1 h2
  constructor
  · rw [h1, sum_map_zero edges]
    · simp [Sys.zero]
    · intro e _
      simp [momentumEdge]
  · intro col
    rw [h2, sum_map_zero edges]
    · simp [Sys.zero]
    · intro e _
      refine Finset.sum_eq_zero (fun b _ => ?_)
      have : (momentumEdge o incDivU e.area e.mdot (nd e.left) (nd e.right)).lhs (0, i) b +
          (momentumEdge o incDivU e.area e.mdot (nd e.left) (nd e.right)).lhs (1, i) b = 0 := by
        obtain ⟨b, k⟩ := b
        by_cases hk : i = k <;> fin_cases b <;> simp [momentumEdge, hk] <;> ring
      simp [this]

example : (∑ i, (assembleScalarOpen (fun i => (![1, 2, 4] : Fin 3 → ℚ) i) (fun _ => 7)
    [⟨1, 2, ![1], 0, 3⟩]
    (assembleScalar ⟨1/2, 1, 1, true, 1, 1, fun x => x / (1 + x)⟩
      (fun i => (⟨![![0, 1, 3] i], ![1], ![2], ![1, 2, 4] i, 1, 1⟩ : ScalarNode 1 ℚ))
      [⟨0, 1, ![1], 2⟩, ⟨1, 2, ![1], -1⟩] (Sys.zero (Fin 3) ℚ))).rhs i) = -12 := by
  rw [c23_scalar_residual ⟨1/2, 1, 1, true, 1, 1, fun x => x / (1 + x)⟩
    (fun i => (⟨![![0, 1, 3] i], ![1], ![2], ![1, 2, 4] i, 1, 1⟩ : ScalarNode 1 ℚ))]
  decide +kernel

/-! ## C24 constants, upwinding, boundedness -/

/-- **C24** A uniform field with zero gradients gives no diffusive flux and the advective flux
`mdot * q`, for every geometry, Peclet function, blending and limiter. -/
theorem c24_constant {n : ℕ} (o : Opts K) (a : Fin n → K) (mdot c : K) (L R : ScalarNode n K)
    (hL : L.q = c ∧ L.dqdx = 0) (hR : R.q = c ∧ R.dqdx = 0) :
    (scalarEdge o a mdot L R).rhs = ![-(mdot * c), mdot * c] := by
  have hd : diffFlux o a L R = 0 := by
    simp [diffFlux, nonOrth, hL.1, hL.2, hR.1, hR.2]
  have ha : advFlux o mdot L R = mdot * c := by
    have h0 : dqHalf L R L.dqdx = 0 := by simp [dqHalf, hL.2]
    have h1 : dqHalf L R R.dqdx = 0 := by simp [dqHalf, hR.2]
    simp only [advFlux, interfaceValue, qIpL, qIpR, h0, h1, hL.1, hR.1]
    split_ifs <;> ring
  ext i
  fin_cases i <;> simp [scalarEdge, hd, ha]

/-- **C24** For full first-order upwinding the advective flux carries the upwind node's value. -/
theorem c24_upwind {n : ℕ} (o : Opts K) (mdot : K) (L R : ScalarNode n K)
    (hp : pecfac o L R = 1) (hu : o.alphaUpw = 1) (hh : o.hoUpwind = 0) :
    advFlux o mdot L R = if 0 < mdot then mdot * L.q else mdot * R.q := by
  simp only [advFlux, interfaceValue, qIpL, qIpR, hp, hu, hh]
  by_cases h : 0 < mdot <;> simp [h]

/-- **C24** Without higher-order extrapolation the interface value is between the two nodal values for
every Peclet factor and blending factor in [0,1]. -/
theorem c24_interface_bounds (o : Opts K) (pec mdot qL qR : K)
    (hp : 0 ≤ pec ∧ pec ≤ 1) (hu : 0 ≤ o.alphaUpw ∧ o.alphaUpw ≤ 1) :
    min qL qR ≤ interfaceValue o pec mdot qL qR (1 / 2 * (qL + qR)) ∧
      interfaceValue o pec mdot qL qR (1 / 2 * (qL + qR)) ≤ max qL qR := by
  have h1 := min_le_left qL qR
  have h2 := min_le_right qL qR
  have h3 := le_max_left qL qR
  have h4 := le_max_right qL qR
  have m1 : min qL qR ≤ 1 / 2 * (qL + qR) := by linarith
  have m2 : 1 / 2 * (qL + qR) ≤ max qL qR := by linarith
  have conv : ∀ (t x y : K), 0 ≤ t → t ≤ 1 → min qL qR ≤ x → min qL qR ≤ y → x ≤ max qL qR →
      y ≤ max qL qR → min qL qR ≤ t * x + (1 - t) * y ∧ t * x + (1 - t) * y ≤ max qL qR := by
    intro t x y t0 t1 a b c d
    constructor <;> nlinarith
  have hc : 1 / 2 * ((o.alpha * qL + (1 - o.alpha) * (1 / 2 * (qL + qR))) +
      (o.alpha * qR + (1 - o.alpha) * (1 / 2 * (qL + qR)))) = 1 / 2 * (qL + qR) := by ring
  simp only [interfaceValue, hc]
  obtain ⟨u1, u2⟩ := conv o.alphaUpw qL (1 / 2 * (qL + qR)) hu.1 hu.2 h1 m1 h3 m2
  obtain ⟨v1, v2⟩ := conv o.alphaUpw qR (1 / 2 * (qL + qR)) hu.1 hu.2 h2 m1 h4 m2
  split_ifs
  · exact conv _ _ _ hp.1 hp.2 u1 m1 u2 m2
  · exact conv _ _ _ hp.1 hp.2 v1 m1 v2 m2

/-- Net mass flow out of node `i` over the edges (specification). -/
def netMass {N : Type*} [DecidableEq N] {n : ℕ} (edges : List (EdgeRec N n K)) (m : EdgeRec N n K → K)
    (i : N) : K :=
  (edges.map (fun e => (if i = e.left then m e else 0) - (if i = e.right then m e else 0))).sum

/-- **C24, discrete maximum principle.** First-order upwinding without non-orthogonal correction on any
mesh: if the residual of node `i` vanishes, mass is balanced there, and at least one neighbour is
coupled (inflow from it or diffusion), then `q i` lies within the bounds of its neighbours. -/
theorem c24_maximum_principle {N : Type*} [DecidableEq N] {n : ℕ} (o : Opts K)
    (nd : N → ScalarNode n K) (edges : List (EdgeRec N n K)) (i : N) (lo hi : K)
    (hp : ∀ x, o.peclet x = 1) (hu : o.alphaUpw = 1) (hh : o.hoUpwind = 0) (hn : o.nocFac = 0)
    (hdiff : ∀ v, 0 ≤ (nd v).diff)
    (hgeo : ∀ e ∈ edges, 0 < axdx e.area (nd e.left).x (nd e.right).x)
    (hres : (assembleScalar o nd edges (Sys.zero N K)).rhs i = 0)
    (hmass : netMass edges (fun e => e.mdot) i = 0)
    (hL : ∀ e ∈ edges, e.left = i → lo ≤ (nd e.right).q ∧ (nd e.right).q ≤ hi)
    (hR : ∀ e ∈ edges, e.right = i → lo ≤ (nd e.left).q ∧ (nd e.left).q ≤ hi)
    (hcpl : ∃ e ∈ edges, (e.left = i ∧ (e.mdot < 0 ∨ diffFac e.area (nd e.left) (nd e.right) ≠ 0)) ∨
      (e.right = i ∧ (0 < e.mdot ∨ diffFac e.area (nd e.left) (nd e.right) ≠ 0))) :
    lo ≤ (nd i).q ∧ (nd i).q ≤ hi := by
  -- coefficient and neighbour value of an edge
  let D : EdgeRec N n K → K := fun e => -diffFac e.area (nd e.left) (nd e.right)
  let t : EdgeRec N n K → K := fun e =>
    (if i = e.left then (D e + max (-e.mdot) 0) * ((nd e.right).q - (nd i).q) else 0) +
    (if i = e.right then (D e + max e.mdot 0) * ((nd e.left).q - (nd i).q) else 0)
  have hD : ∀ e ∈ edges, 0 ≤ D e := by
    intro e he
    have h1 := asq_nonneg e.area
    have h2 := hdiff e.left
    have h3 := hdiff e.right
    have h4 : 0 < 1 / axdx e.area (nd e.left).x (nd e.right).x := one_div_pos.2 (hgeo e he)
    simp only [D, diffFac]
    have : 0 ≤ (1 / 2 * ((nd e.left).diff + (nd e.right).diff)) * asq e.area *
      (1 / axdx e.area (nd e.left).x (nd e.right).x) := by positivity
    linarith
  have hne : ∀ e ∈ edges, e.left ≠ e.right := by
    intro e he h
    have := hgeo e he
    simp [h, axdx] at this
  have hsum : (edges.map t).sum = 0 := by
    have h1 := fold_rhs edges (fun e => e.node)
      (fun e => scalarEdge o e.area e.mdot (nd e.left) (nd e.right)) (Sys.zero N K) i
    rw [show (edges.foldl (fun s e => s.applyCoeff e.node
      (scalarEdge o e.area e.mdot (nd e.left) (nd e.right))) (Sys.zero N K)).rhs i = 0 from hres] at h1
    have h2 : ∀ e ∈ edges, t e =
        (∑ a, if i = e.node a then (scalarEdge o e.area e.mdot (nd e.left) (nd e.right)).rhs a else 0) +
        (nd i).q * ((if i = e.left then e.mdot else 0) - (if i = e.right then e.mdot else 0)) := by
      intro e he
      have hadv := c24_upwind o e.mdot (nd e.left) (nd e.right) (hp _) hu hh
      have hne' := hne e he
      simp only [t, D, Fin.sum_univ_two, EdgeRec.node, scalarEdge, diffFlux, hadv, hn,
        Matrix.cons_val_zero, Matrix.cons_val_one]
      by_cases hl : i = e.left
      · subst hl
        simp only [hne', if_true, if_false]
        by_cases hm : 0 < e.mdot
        · simp only [hm, if_true, max_eq_right (by linarith : -e.mdot ≤ 0)]; ring
        · simp only [hm, if_false, max_eq_left (by linarith : (0:K) ≤ -e.mdot)]; ring
      · by_cases hr : i = e.right
        · subst hr
          simp only [hl, if_true, if_false]
          by_cases hm : 0 < e.mdot
          · simp only [hm, if_true, max_eq_left hm.le]; ring
          · simp only [hm, if_false, max_eq_right (not_lt.1 hm)]; ring
        · simp [hl, hr]
    rw [List.map_congr_left h2, List.sum_map_add, List.sum_map_mul_left]
    have h3 : (edges.map (fun e => (if i = e.left then e.mdot else 0) -
      (if i = e.right then e.mdot else 0))).sum = 0 := hmass
    rw [h3]
    simp only [Sys.zero, zero_add] at h1
    rw [← h1]; simp
  have hposc : ∀ e ∈ edges, 0 ≤ D e + max (-e.mdot) 0 ∧ 0 ≤ D e + max e.mdot 0 := by
    intro e he
    exact ⟨add_nonneg (hD e he) (le_max_right _ _), add_nonneg (hD e he) (le_max_right _ _)⟩
  have hstrict : ∀ sgn : K, (∀ e ∈ edges, (i = e.left → 0 < sgn * ((nd e.right).q - (nd i).q)) ∧
      (i = e.right → 0 < sgn * ((nd e.left).q - (nd i).q))) → False := by
    intro sgn hs
    have hneg : (edges.map (fun e => -(sgn * t e))).sum < 0 := by
      apply list_sum_neg
      · intro e he
        obtain ⟨c1, c2⟩ := hposc e he
        obtain ⟨s1, s2⟩ := hs e he
        simp only [t]
        by_cases hl : i = e.left
        · have hr : ¬ i = e.right := fun h => hne e he (hl.symm.trans h)
          simp only [hl] at hr ⊢
          have := s1 hl
          simp only [if_true, hr, if_false, add_zero]
          rw [hl] at this
          nlinarith [mul_nonneg c1 this.le]
        · by_cases hr : i = e.right
          · simp only [hl, if_false, hr, if_true]
            have := s2 hr
            rw [hr] at this
            by_cases hlr : e.right = e.left
            · exact absurd hlr.symm (hne e he)
            · simp only [hlr, if_false]
              nlinarith [mul_nonneg c2 this.le]
          · simp [hl, hr]
      · obtain ⟨e, he, hc⟩ := hcpl
        refine ⟨e, he, ?_⟩
        obtain ⟨s1, s2⟩ := hs e he
        have hD' := hD e he
        simp only [t]
        rcases hc with ⟨hl, hc⟩ | ⟨hr, hc⟩
        · have hl' := hl.symm
          have hr : ¬ i = e.right := fun h => hne e he (hl.trans h)
          have := s1 hl'
          have hpos : 0 < D e + max (-e.mdot) 0 := by
            rcases hc with h | h
            · have : 0 < max (-e.mdot) 0 := lt_max_of_lt_left (by linarith)
              linarith
            · have : 0 < D e := lt_of_le_of_ne hD' (by simp only [D]; intro h'; apply h; linarith)
              have := le_max_right (-e.mdot) 0
              linarith
          simp only [hr, if_false, if_pos hl', add_zero]
          nlinarith [mul_pos hpos this]
        · have hr' := hr.symm
          have hl : ¬ i = e.left := fun h => hne e he (h.symm.trans hr')
          have := s2 hr'
          have hpos : 0 < D e + max e.mdot 0 := by
            rcases hc with h | h
            · have : 0 < max e.mdot 0 := lt_max_of_lt_left h
              linarith
            · have : 0 < D e := lt_of_le_of_ne hD' (by simp only [D]; intro h'; apply h; linarith)
              have := le_max_right e.mdot 0
              linarith
          simp only [hl, if_false, if_pos hr', zero_add]
          nlinarith [mul_pos hpos this]
    rw [sum_map_neg', List.sum_map_mul_left, hsum] at hneg
    simp at hneg
  constructor
  · by_contra h
    push Not at h
    refine hstrict 1 (fun e he => ⟨fun hl => ?_, fun hr => ?_⟩)
    · have := (hL e he hl.symm).1; linarith
    · have := (hR e he hr.symm).1; linarith
  · by_contra h
    push Not at h
    refine hstrict (-1) (fun e he => ⟨fun hl => ?_, fun hr => ?_⟩)
    · have := (hL e he hl.symm).2; linarith
    · have := (hR e he hr.symm).2; linarith

/-- A mesh meeting the hypotheses of the maximum principle: uniform flow through node 1. -/
example :
    let o : Opts ℚ := ⟨1, 1, 0, false, 0, 1, fun _ => 1⟩
    let nd : Fin 3 → ScalarNode 1 ℚ := fun i => ⟨![![0, 1, 2] i], ![0], ![1], ![3, 3, 5] i, 1, 0⟩
    let edges : List (EdgeRec (Fin 3) 1 ℚ) := [⟨0, 1, ![1], 2⟩, ⟨1, 2, ![1], 2⟩]
    (assembleScalar o nd edges (Sys.zero (Fin 3) ℚ)).rhs 1 = 0 ∧
    netMass edges (fun e => e.mdot) 1 = 0 ∧
    (∀ e ∈ edges, 0 < axdx e.area (nd e.left).x (nd e.right).x) := by
  decide +kernel

/-! ## C25 limiter -/

/-- **C25** The limiter lies in [0,1], is symmetric, vanishes when the slopes have opposite signs, is
positive when they have the same sign, and for equal slopes `d` misses 1 only by `small/(4d²+small)`. -/
theorem c25_limiter (m p small : K) (hs : 0 < small) :
    0 ≤ vanLeer m p small ∧ vanLeer m p small ≤ 1 ∧ vanLeer m p small = vanLeer p m small ∧
    (m * p ≤ 0 → vanLeer m p small = 0) ∧ (0 < m * p → 0 < vanLeer m p small) ∧
    1 - vanLeer m m small = small / (4 * m ^ 2 + small) := by
  have hden : 0 < (m + p) * (m + p) + small := by nlinarith [mul_self_nonneg (m + p)]
  refine ⟨?_, ?_, ?_, ?_, ?_, ?_⟩
  · exact div_nonneg (by nlinarith [neg_abs_le (m * p)]) hden.le
  · rw [vanLeer, div_le_one hden]
    rcases abs_cases (m * p) with ⟨h, _⟩ | ⟨h, _⟩ <;> rw [h] <;>
      nlinarith [mul_self_nonneg (m - p), mul_self_nonneg (m + p)]
  · simp only [vanLeer]; congr 1 <;> ring_nf
  · intro h; rw [vanLeer, abs_of_nonpos h]; simp
  · intro h; rw [vanLeer, abs_of_pos h]; exact div_pos (by linarith) hden
  · rw [vanLeer, abs_of_nonneg (mul_self_nonneg m)]
    have h1 : (m + m) * (m + m) + small ≠ 0 := by nlinarith [mul_self_nonneg (m + m)]
    have h2 : 4 * m ^ 2 + small ≠ 0 := by nlinarith [sq_nonneg m]
    field_simp
    ring

theorem limited_between (m p small ho : K) (hs : 0 < small) (h0 : 0 ≤ ho) (h1 : ho ≤ 1) :
    0 ≤ ((m + p) / 4 * ho * vanLeer m p small) * p ∧
    |(m + p) / 4 * ho * vanLeer m p small| ≤ |p| := by
  have hden : 0 < (m + p) * (m + p) + small := by nlinarith [mul_self_nonneg (m + p)]
  rcases le_or_gt (m * p) 0 with h | h
  · have : vanLeer m p small = 0 := (c25_limiter m p small hs).2.2.2.1 h
    simp [this]
  · have hv : vanLeer m p small = 4 * (m * p) / ((m + p) * (m + p) + small) := by
      rw [vanLeer, abs_of_pos h]; congr 1; ring
    have e : (m + p) / 4 * ho * vanLeer m p small =
        p * (ho * ((m * (m + p)) / ((m + p) * (m + p) + small))) := by
      rw [hv]; field_simp
    have hmm : 0 ≤ m * (m + p) := by nlinarith [mul_self_nonneg m]
    have hle : m * (m + p) ≤ (m + p) * (m + p) + small := by
      nlinarith [mul_self_nonneg m, mul_self_nonneg p]
    have hq0 : 0 ≤ (m * (m + p)) / ((m + p) * (m + p) + small) := div_nonneg hmm hden.le
    have hq1 : (m * (m + p)) / ((m + p) * (m + p) + small) ≤ 1 := (div_le_one hden).2 hle
    set r := (m * (m + p)) / ((m + p) * (m + p) + small)
    have hr0 : 0 ≤ ho * r := mul_nonneg h0 hq0
    have hr1 : ho * r ≤ 1 := by nlinarith
    rw [e]
    constructor
    · nlinarith [mul_nonneg hr0 (mul_self_nonneg p)]
    · rw [abs_mul, abs_of_nonneg hr0]
      nlinarith [abs_nonneg p]

/-- **C25** With the limiter active (and `upw_factor` in [0,1]) both extrapolated interface values lie
between the two nodal values, whatever the nodal gradients. -/
theorem c25_extrapolation_bounded {n : ℕ} (o : Opts K) (L R : ScalarNode n K)
    (hl : o.useLimiter = true) (hs : 0 < o.small) (h0 : 0 ≤ o.hoUpwind) (h1 : o.hoUpwind ≤ 1) :
    (min L.q R.q ≤ qIpL o L R ∧ qIpL o L R ≤ max L.q R.q) ∧
    (min L.q R.q ≤ qIpR o L R ∧ qIpR o L R ≤ max L.q R.q) := by
  have key : ∀ g : K,
      0 ≤ (g * o.hoUpwind * limiter o g (R.q - L.q)) * (R.q - L.q) ∧
      |g * o.hoUpwind * limiter o g (R.q - L.q)| ≤ |R.q - L.q| := by
    intro g
    have := limited_between (2 * 2 * g - (R.q - L.q)) (R.q - L.q) o.small o.hoUpwind hs h0 h1
    rw [show (2 * 2 * g - (R.q - L.q) + (R.q - L.q)) / 4 = g by ring] at this
    simpa [limiter, hl] using this
  have fin : ∀ x d a b : K, d = b - a → 0 ≤ x * d → |x| ≤ |d| →
      (min a b ≤ a + x ∧ a + x ≤ max a b) ∧ (min a b ≤ b - x ∧ b - x ≤ max a b) := by
    intro x d a b hd h1 h2
    subst hd
    rcases le_total a b with h | h
    · rw [min_eq_left h, max_eq_right h]
      rw [abs_of_nonneg (by linarith : 0 ≤ b - a)] at h2
      have hx : 0 ≤ x := by
        by_contra hx; push Not at hx
        rcases eq_or_lt_of_le h with h' | h'
        · rw [h', sub_self] at h2; have := abs_pos.2 hx.ne; linarith
        · nlinarith
      rw [abs_of_nonneg hx] at h2
      exact ⟨⟨by linarith, by linarith⟩, ⟨by linarith, by linarith⟩⟩
    · rw [min_eq_right h, max_eq_left h]
      rw [abs_of_nonpos (by linarith : b - a ≤ 0)] at h2
      have hx : x ≤ 0 := by
        by_contra hx; push Not at hx
        rcases eq_or_lt_of_le h with h' | h'
        · rw [h', sub_self, neg_zero] at h2; have := abs_pos.2 hx.ne'; linarith
        · nlinarith
      rw [abs_of_nonpos hx] at h2
      exact ⟨⟨by linarith, by linarith⟩, ⟨by linarith, by linarith⟩⟩
  obtain ⟨a1, a2⟩ := key (dqHalf L R L.dqdx)
  obtain ⟨b1, b2⟩ := key (dqHalf L R R.dqdx)
  exact ⟨(fin _ _ L.q R.q rfl a1 a2).1, (fin _ _ L.q R.q rfl b1 b2).2⟩

/-- With a wildly wrong gradient at the left node the limited value is still between 1 and 3. -/
example : qIpL (n := 1) (⟨1, 1, 1, true, 1, 1, fun _ => 1⟩ : Opts ℚ)
    ⟨![0], ![30], ![0], 1, 1, 1⟩ ⟨![1], ![0], ![0], 3, 1, 1⟩ = 10561 / 3601 := by
  decide +kernel

/-! ## C27 nodal gradients -/

theorem nodalGrad_mul_vol {N : Type*} [DecidableEq N] {n : ℕ} (vol q : N → K)
    (edges : List (EdgeRec N n K)) (bnd : List (BndIp N n K)) (i : N) (hv : vol i ≠ 0) (j : Fin n) :
    vol i * nodalGrad vol q edges bnd i j =
      netMass edges (fun e => e.area j * (1 / 2 * (q e.left + q e.right))) i +
      (bnd.map (fun ip => if i = ip.nearest then ip.value q * ip.area j else 0)).sum := by
  have he : ∀ g : N → Fin n → K, vol i * (edges.foldl (gradEdgeStep vol q) g) i j =
      vol i * g i j + netMass edges (fun e => e.area j * (1 / 2 * (q e.left + q e.right))) i := by
    induction edges with
    | nil => intro g; simp [netMass]
    | cons e l ih =>
      intro g
      rw [List.foldl_cons, ih]
      simp only [netMass, List.map_cons, List.sum_cons, gradEdgeStep, addAt]
      generalize (l.map (fun e => (if i = e.left then e.area j * (1 / 2 * (q e.left + q e.right)) else 0) -
        (if i = e.right then e.area j * (1 / 2 * (q e.left + q e.right)) else 0))).sum = S
      have hvl : i = e.left → vol e.left = vol i := fun h => by rw [h]
      have hvr : i = e.right → vol e.right = vol i := fun h => by rw [h]
      by_cases hl : i = e.left <;> by_cases hr : i = e.right
      · simp only [if_pos hl, if_pos hr, Pi.add_apply, hvl hl, hvr hr]; field_simp; ring
      · simp only [if_pos hl, if_neg hr, Pi.add_apply, hvl hl]; field_simp; ring
      · simp only [if_neg hl, if_pos hr, Pi.add_apply, hvr hr]; field_simp; ring
      · simp only [if_neg hl, if_neg hr]; ring
  have hb : ∀ g : N → Fin n → K, vol i * (bnd.foldl (gradBndStep vol q) g) i j =
      vol i * g i j + (bnd.map (fun ip => if i = ip.nearest then ip.value q * ip.area j else 0)).sum := by
    clear he
    induction bnd with
    | nil => intro g; simp
    | cons b l ih =>
      intro g
      rw [List.foldl_cons, ih]
      simp only [List.map_cons, List.sum_cons, gradBndStep, addAt]
      by_cases h : i = b.nearest
      · rw [← h]; simp only [if_true, Pi.add_apply]; field_simp; ring
      · simp [h]
  rw [nodalGrad, hb, he]
  ring

/-- **C27** The volume-weighted sum of the nodal gradients over all nodes consists of the boundary
terms only, for every mesh, dual volumes and field. -/
theorem c27_gradient_telescopes {N : Type*} [DecidableEq N] [Fintype N] {n : ℕ} (vol q : N → K)
    (edges : List (EdgeRec N n K)) (bnd : List (BndIp N n K)) (hv : ∀ i, vol i ≠ 0) (j : Fin n) :
    ∑ i, vol i * nodalGrad vol q edges bnd i j =
      (bnd.map (fun ip => ip.value q * ip.area j)).sum := by
  simp only [fun i => nodalGrad_mul_vol vol q edges bnd i (hv i) j, Finset.sum_add_distrib, netMass,
    sum_list_comm]
  rw [sum_map_zero edges]
  · simp
  · intro e _
    simp [Finset.sum_sub_distrib]

/-- **C27** A constant field has zero gradient at every node whose control volume closes: outgoing edge
areas minus incoming ones plus its boundary areas vanish. -/
theorem c27_constant {N : Type*} [DecidableEq N] {n : ℕ} (vol q : N → K) (c : K)
    (edges : List (EdgeRec N n K)) (bnd : List (BndIp N n K)) (i : N) (hv : vol i ≠ 0)
    (hq : ∀ v, q v = c) (hpu : ∀ ip ∈ bnd, (ip.shape.map Prod.snd).sum = 1)
    (hclose : ∀ j, netMass edges (fun e => e.area j) i +
      (bnd.map (fun ip => if i = ip.nearest then ip.area j else 0)).sum = 0) (j : Fin n) :
    nodalGrad vol q edges bnd i j = 0 := by
  have h := nodalGrad_mul_vol vol q edges bnd i hv j
  have h1 : netMass edges (fun e => e.area j * (1 / 2 * (q e.left + q e.right))) i =
      c * netMass edges (fun e => e.area j) i := by
    simp only [netMass, ← List.sum_map_mul_left]
    congr 1
    refine List.map_congr_left (fun e _ => ?_)
    simp only [hq]
    split_ifs <;> ring
  have h2 : (bnd.map (fun ip => if i = ip.nearest then ip.value q * ip.area j else 0)).sum =
      c * (bnd.map (fun ip => if i = ip.nearest then ip.area j else 0)).sum := by
    rw [← List.sum_map_mul_left]
    congr 1
    refine List.map_congr_left (fun ip hip => ?_)
    have : ip.value q = c := by
      simp only [BndIp.value, hq, List.sum_map_mul_right, hpu ip hip, one_mul]
    simp only [this]
    split_ifs <;> ring
  rw [h1, h2, ← mul_add, hclose j, mul_zero] at h
  exact (mul_eq_zero.1 h).resolve_left hv

/-- **C27** The velocity gradient is assembled component by component as the scalar gradient. -/
theorem c27_velocity_gradient {N : Type*} [DecidableEq N] {n : ℕ} (vol : N → K) (u : N → Fin n → K)
    (edges : List (EdgeRec N n K)) (v : N) (i : Fin n) :
    (edges.foldl (gradUEdgeStep vol u) (fun _ _ _ => 0)) v i =
      nodalGrad vol (fun w => u w i) edges [] v := by
  have : ∀ (g : N → Fin n → Fin n → K) (g' : N → Fin n → K), (∀ w, g w i = g' w) →
      ∀ w, (edges.foldl (gradUEdgeStep vol u) g) w i =
        (edges.foldl (gradEdgeStep vol (fun w => u w i)) g') w := by
    induction edges with
    | nil => intro g g' h w; exact h w
    | cons e l ih =>
      intro g g' h w
      rw [List.foldl_cons, List.foldl_cons]
      apply ih
      intro x
      have hx := h x
      ext j
      simp only [gradUEdgeStep, gradEdgeStep, addAt]
      by_cases h1 : x = e.right <;> by_cases h2 : x = e.left
      · simp only [if_pos h1, if_pos h2, Pi.add_apply, ← hx]
      · simp only [if_pos h1, if_neg h2, Pi.add_apply, ← hx]
      · simp only [if_neg h1, if_pos h2, Pi.add_apply, ← hx]
      · simp only [if_neg h1, if_neg h2, ← hx]
  exact this _ _ (fun _ => rfl) v

/-- Two cells in a row with closing areas: gradient of a constant. -/
example : nodalGrad (n := 1) (fun _ : Fin 2 => (1:ℚ)/2) (fun _ => 5) [⟨0, 1, ![1], 0⟩]
    [⟨0, [(0, 1)], ![-1]⟩, ⟨1, [(1, 1)], ![1]⟩] 0 0 = 0 ∧
    nodalGrad (n := 1) (fun _ : Fin 2 => (1:ℚ)/2) ![5, 7] [⟨0, 1, ![1], 0⟩]
    [⟨0, [(0, 1)], ![-1]⟩, ⟨1, [(1, 1)], ![1]⟩] 0 0 = 2 := by decide +kernel

/-! ## C28 mass flow rate -/

/-- **C28** Reversing an edge (swapping its nodes and negating its area vector) negates its mass flow
rate. -/
theorem c28_antisymmetric {n : ℕ} (pts noc : K) (a : Fin n → K) (L R : MdotNode n K) :
    edgeMdot pts noc (-a) R L = - edgeMdot pts noc a L R := by
  have h1 : asq (-a) = asq a := by simp [asq]
  have h2 : axdx (-a) R.x L.x = axdx a L.x R.x := by
    simp only [axdx]; refine Finset.sum_congr rfl (fun j _ => ?_); simp only [Pi.neg_apply]; ring
  simp only [edgeMdot, h1, h2, neg_add, ← Finset.sum_neg_distrib]
  congr 1
  · ring
  · refine Finset.sum_congr rfl (fun j _ => ?_)
    simp only [Pi.neg_apply]; ring

/-- **C28** Uniform density and velocity, linear pressure with exact nodal gradients `G`: the mass flow
rate is `rho u.A` — for every edge if the non-orthogonal correction is on, and with it off if the area
vector is parallel to the edge. -/
theorem c28_consistent {n : ℕ} (pts noc : K) (a : Fin n → K) (L R : MdotNode n K) (rho : K)
    (u G : Fin n → K) (hx : axdx a L.x R.x ≠ 0)
    (hrho : L.rho = rho ∧ R.rho = rho) (hu : L.vrtm = u ∧ R.vrtm = u) (hG : L.dpdx = G ∧ R.dpdx = G)
    (hp : R.p - L.p = ∑ j, G j * (R.x j - L.x j))
    (hcase : noc = 1 ∨ ∃ c, ∀ j, a j = c * (R.x j - L.x j)) :
    edgeMdot pts noc a L R = ∑ j, rho * u j * a j := by
  have hT : asq a * (1 / axdx a L.x R.x) * (∑ j, G j * (R.x j - L.x j)) =
      (∑ j, a j * G j) - ∑ j, (a j - asq a * (1 / axdx a L.x R.x) * (R.x j - L.x j)) * G j := by
    rw [← Finset.sum_sub_distrib, Finset.mul_sum]
    refine Finset.sum_congr rfl (fun j _ => ?_); ring
  have key : edgeMdot pts noc a L R = (∑ j, rho * u j * a j) +
      pts * (1 - noc) * ∑ j, (a j - asq a * (1 / axdx a L.x R.x) * (R.x j - L.x j)) * G j := by
    have e : -pts * (R.p - L.p) * asq a * (1 / axdx a L.x R.x) =
        -pts * (asq a * (1 / axdx a L.x R.x) * (∑ j, G j * (R.x j - L.x j))) := by rw [hp]; ring
    rw [edgeMdot, e, hT, mul_sub, Finset.mul_sum, Finset.mul_sum, Finset.mul_sum,
      ← Finset.sum_sub_distrib, ← Finset.sum_add_distrib, ← Finset.sum_add_distrib]
    refine Finset.sum_congr rfl (fun j _ => ?_)
    simp only [hrho.1, hrho.2, hu.1, hu.2, hG.1, hG.2]; ring
  rw [key]
  rcases hcase with h | ⟨c, hc⟩
  · rw [h]; ring
  · have hz : ∀ j, a j - asq a * (1 / axdx a L.x R.x) * (R.x j - L.x j) = 0 := by
      have e1 : asq a = c * axdx a L.x R.x := by
        simp only [asq, axdx, Finset.mul_sum]
        refine Finset.sum_congr rfl (fun j _ => ?_)
        rw [hc j]; ring
      intro j
      rw [e1, hc j]; field_simp; ring
    simp only [hz, zero_mul, Finset.sum_const_zero, mul_zero, add_zero]

example : edgeMdot (3:ℚ) 1 ![1, 2] ⟨![0, 0], ![5, -1], ![1, 1], 0, 2⟩ ⟨![1, 1], ![5, -1], ![1, 1], 4, 2⟩
    = 6 := by decide +kernel

/-! ## C54 discrete continuity after the pressure solve -/

theorem continuityEdge_affine {n : ℕ} (pts noc : K) (hpts : pts ≠ 0) (a : Fin n → K)
    (L R : MdotNode n K) (dL dR : K) (r : Fin 2) :
    (continuityEdge pts noc a { L with p := L.p + dL } { R with p := R.p + dR }).rhs r =
      (continuityEdge pts noc a L R).rhs r -
        ((continuityEdge pts noc a L R).lhs r 0 * dL + (continuityEdge pts noc a L R).lhs r 1 * dR) := by
  have hm : edgeMdot pts noc a { L with p := L.p + dL } { R with p := R.p + dR } =
      edgeMdot pts noc a L R + pts * (-asq a * (1 / axdx a L.x R.x)) * (dR - dL) := by
    simp only [edgeMdot]; ring
  simp only [continuityEdge, hm]
  generalize edgeMdot pts noc a L R = m
  generalize -asq a * (1 / axdx a L.x R.x) = lf
  fin_cases r <;> simp <;> field_simp <;> ring

theorem continuityOpen_affine {n : ℕ} (pts noc : K) (hpts : pts ≠ 0) (a : Fin n → K) (bcP dynP : K)
    (L R : MdotNode n K) (dL dR : K) (r : Fin 2) :
    (continuityOpen pts noc a bcP dynP { L with p := L.p + dL } { R with p := R.p + dR }).rhs r =
      (continuityOpen pts noc a bcP dynP L R).rhs r -
        ((continuityOpen pts noc a bcP dynP L R).lhs r 0 * dL +
          (continuityOpen pts noc a bcP dynP L R).lhs r 1 * dR) := by
  have hm : openMdot pts noc a bcP dynP { L with p := L.p + dL } { R with p := R.p + dR } =
      openMdot pts noc a bcP dynP L R +
        pts * (asq a * (1 / openAxdx a L.x R.x)) * (1 / 2 * dL + 1 / 2 * dR) := by
    simp only [openMdot]; ring
  simp only [continuityOpen, hm]
  generalize openMdot pts noc a bcP dynP L R = m
  generalize asq a * (1 / openAxdx a L.x R.x) = lf
  fin_cases r
  · simp
  · simp; field_simp; ring

/-- Mass flow rates recomputed after the pressure update (specification: `ComputeMdotEdge` and
`ComputeMdotEdgeOpen` at the new pressure). -/
def newEdgeMdot {N : Type*} {n : ℕ} (pts noc : K) (nd : N → MdotNode n K) (dp : N → K)
    (e : EdgeRec N n K) : K :=
  edgeMdot pts noc e.area (updatePressure nd dp e.left) (updatePressure nd dp e.right)

/-- Recomputed open-boundary mass rate. -/
def newOpenMdot {N : Type*} {n : ℕ} (pts noc : K) (nd : N → MdotNode n K) (bcP dp : N → K)
    (ip : OpenIp N n K) : K :=
  openMdot pts noc ip.area (bcP ip.nearest) ip.dynP (updatePressure nd dp ip.opposing)
    (updatePressure nd dp ip.nearest)

/-- **C54** If the pressure correction solves row `i` of the continuity system, then after the pressure
update the recomputed mass flow rates balance exactly at node `i`: net edge outflow + open outflow +
inflow + density accumulation = 0; for every mesh, geometry and field. -/
theorem c54_discrete_continuity {N : Type*} [DecidableEq N] [Fintype N] {n : ℕ} (pts noc : K)
    (hpts : pts ≠ 0) (nd : N → MdotNode n K) (bcP : N → K) (edges : List (EdgeRec N n K))
    (ips : List (OpenIp N n K)) (inflow acc dp : N → K) (i : N)
    (hsolve : ∑ j, (assembleContinuity pts noc nd bcP edges ips inflow acc).mat i j * dp j =
      (assembleContinuity pts noc nd bcP edges ips inflow acc).rhs i) :
    netMass edges (newEdgeMdot pts noc nd dp) i +
      (ips.map (fun ip => if i = ip.nearest then newOpenMdot pts noc nd bcP dp ip else 0)).sum +
      inflow i + acc i = 0 := by
  simp only [assembleContinuity] at hsolve
  set s0 := edges.foldl (fun s e => s.applyCoeff e.node
    (continuityEdge pts noc e.area (nd e.left) (nd e.right))) (Sys.zero N K) with hs0
  set nd' := updatePressure nd dp with hnd'
  set s0' := edges.foldl (fun s e => s.applyCoeff e.node
    (continuityEdge pts noc e.area (nd' e.left) (nd' e.right))) (Sys.zero N K) with hs0'
  have h0 : s0'.rhs i = s0.rhs i - ∑ j, s0.mat i j * dp j := by
    refine fold_affine edges (fun e => e.node) _ _ _ _ dp (fun e _ a => ?_) i (by simp [Sys.zero])
    rw [Fin.sum_univ_two]
    exact continuityEdge_affine pts noc hpts e.area (nd e.left) (nd e.right) (dp e.left) (dp e.right) a
  have h1 := fold_affine ips (fun ip => (![ip.opposing, ip.nearest] : Fin 2 → N))
    (fun ip => continuityOpen pts noc ip.area (bcP ip.nearest) ip.dynP (nd ip.opposing) (nd ip.nearest))
    (fun ip => continuityOpen pts noc ip.area (bcP ip.nearest) ip.dynP (nd' ip.opposing) (nd' ip.nearest))
    s0 s0' dp (fun ip _ a => by
      rw [Fin.sum_univ_two]
      exact continuityOpen_affine pts noc hpts ip.area (bcP ip.nearest) ip.dynP (nd ip.opposing)
        (nd ip.nearest) (dp ip.opposing) (dp ip.nearest) a) i h0
  rw [hsolve] at h1
  rw [fold_rhs, hs0', fold_rhs] at h1
  simp only [Sys.zero, zero_add] at h1
  have e1 : (edges.map (fun e => ∑ a, if i = e.node a then
      (continuityEdge pts noc e.area (nd' e.left) (nd' e.right)).rhs a else 0)).sum =
      - (netMass edges (newEdgeMdot pts noc nd dp) i / pts) := by
    rw [netMass, div_eq_mul_inv, ← List.sum_map_mul_right, ← sum_map_neg']
    congr 1
    refine List.map_congr_left (fun e _ => ?_)
    rw [Fin.sum_univ_two]
    change (if i = e.left then -(newEdgeMdot pts noc nd dp e) / pts else 0) +
      (if i = e.right then newEdgeMdot pts noc nd dp e / pts else 0) = _
    generalize newEdgeMdot pts noc nd dp e = m
    by_cases hl : i = e.left <;> by_cases hr : i = e.right
    · simp only [if_pos hl, if_pos hr]; ring
    · simp only [if_pos hl, if_neg hr]; ring
    · simp only [if_neg hl, if_pos hr]; ring
    · simp only [if_neg hl, if_neg hr]; ring
  have e2 : (ips.map (fun ip => ∑ a, if i = (![ip.opposing, ip.nearest] : Fin 2 → N) a then
      (continuityOpen pts noc ip.area (bcP ip.nearest) ip.dynP (nd' ip.opposing) (nd' ip.nearest)).rhs a
      else 0)).sum =
      - ((ips.map (fun ip => if i = ip.nearest then newOpenMdot pts noc nd bcP dp ip else 0)).sum / pts) := by
    rw [div_eq_mul_inv, ← List.sum_map_mul_right, ← sum_map_neg']
    congr 1
    refine List.map_congr_left (fun ip _ => ?_)
    rw [Fin.sum_univ_two]
    change (if i = ip.opposing then 0 else 0) +
      (if i = ip.nearest then -(newOpenMdot pts noc nd bcP dp ip / pts) else 0) = _
    generalize newOpenMdot pts noc nd bcP dp ip = m
    by_cases hr : i = ip.nearest
    · simp only [if_pos hr, ite_self]; ring
    · simp only [if_neg hr, ite_self]; ring
  rw [e1, e2] at h1
  field_simp at h1
  linarith

/-- **C54** Hence, if every row is solved, the "Total mass closure" printed by the mass-balance review
— accumulation + inflow + open — is zero. -/
theorem c54_total_mass_closure {N : Type*} [DecidableEq N] [Fintype N] {n : ℕ} (pts noc : K)
    (hpts : pts ≠ 0) (nd : N → MdotNode n K) (bcP : N → K) (edges : List (EdgeRec N n K))
    (ips : List (OpenIp N n K)) (inflow acc dp : N → K)
    (hsolve : ∀ i, ∑ j, (assembleContinuity pts noc nd bcP edges ips inflow acc).mat i j * dp j =
      (assembleContinuity pts noc nd bcP edges ips inflow acc).rhs i) :
    ∑ i, acc i + ∑ i, inflow i + (ips.map (newOpenMdot pts noc nd bcP dp)).sum = 0 := by
  have h : ∑ i : N, (netMass edges (newEdgeMdot pts noc nd dp) i +
      (ips.map (fun ip => if i = ip.nearest then newOpenMdot pts noc nd bcP dp ip else 0)).sum +
      inflow i + acc i) = 0 := Finset.sum_eq_zero (fun i _ =>
    c54_discrete_continuity pts noc hpts nd bcP edges ips inflow acc dp i (hsolve i))
  simp only [Finset.sum_add_distrib, netMass, sum_list_comm] at h
  rw [sum_map_zero edges] at h
  · simp at h; linarith
  · intro e _
    simp [Finset.sum_sub_distrib]

/-- **C54** The velocity projection does not disturb this balance: recomputing an edge's mass flow rate
with the projected velocity and the new pressure gradient gives the same value (without the
non-orthogonal correction and density scaling by force balancing). -/
theorem c54_projection_keeps_mdot {n : ℕ} (pts : K) (a : Fin n → K) (L R : MdotNode n K)
    (gL gR : Fin n → K) (hL : L.rho ≠ 0) (hR : R.rho ≠ 0) :
    edgeMdot pts 0 a
      { L with vrtm := projectVelocity false pts L.rho L.vrtm L.dpdx gL, dpdx := gL }
      { R with vrtm := projectVelocity false pts R.rho R.vrtm R.dpdx gR, dpdx := gR }
    = edgeMdot pts 0 a L R := by
  simp only [edgeMdot]
  congr 1
  refine Finset.sum_congr rfl (fun j _ => ?_)
  have e1 : L.rho * projectVelocity false pts L.rho L.vrtm L.dpdx gL j =
      L.rho * L.vrtm j - pts * (gL j - L.dpdx j) := by
    simp [projectVelocity]; field_simp
  have e2 : R.rho * projectVelocity false pts R.rho R.vrtm R.dpdx gR j =
      R.rho * R.vrtm j - pts * (gR j - R.dpdx j) := by
    simp [projectVelocity]; field_simp
  simp only [e1, e2, mul_zero]
  ring

/-- A solvable case: one edge, node 1 at an open face; the correction found solves both rows. -/
example :
    let nd : Fin 2 → MdotNode 1 ℚ := fun i => ⟨![![0, 1] i], ![0], ![1], 0, 1⟩
    let S := assembleContinuity (1/2 : ℚ) 0 nd (fun _ => 0) [⟨0, 1, ![1], 0⟩] [⟨0, 1, ![1], 0, 0⟩]
      ![-3, 0] (fun _ => 0)
    ∀ i, S.mat i 0 * 4 + S.mat i 1 * 0 = S.rhs i := by
  decide +kernel

/-! ## C29 mass balance review -/

theorem foldl_add_eq (l : List K) (a : K) : l.foldl (· + ·) a = a + l.sum := by
  induction l generalizing a with
  | nil => simp
  | cons x l ih => simp [ih, add_assoc]

/-- **C29, the part that holds** Inflow and open rates always, and the accumulation when no process
holds ghosted elements, are sums over the union of all processes' owned entities: two decompositions of
the same entities report the same values.  Missing: decompositions with ghosted elements. -/
theorem c29_partition_independent_partial (hasMass : Bool) (p p' : List (Proc K))
    (hg : ∀ x ∈ p ++ p', x.ghosted = [])
    (ho : (p.flatMap Proc.owned).Perm (p'.flatMap Proc.owned))
    (hi : (p.flatMap Proc.inflow).Perm (p'.flatMap Proc.inflow))
    (hop : (p.flatMap Proc.openRates).Perm (p'.flatMap Proc.openRates)) :
    massReview hasMass p = massReview hasMass p' := by
  have key : ∀ (f : Proc K → List K) (p : List (Proc K)),
      (p.map (fun x => (f x).foldl (· + ·) 0)).sum = (p.flatMap f).sum := by
    intro f p
    induction p with
    | nil => simp
    | cons x p ih =>
      rw [List.map_cons, List.sum_cons, ih, List.flatMap_cons, List.sum_append, foldl_add_eq, zero_add]
  have hacc : ∀ p : List (Proc K), (∀ x ∈ p, x.ghosted = []) →
      (p.map (fun x => if hasMass then (x.owned ++ x.ghosted).foldl (· + ·) 0 else 0)).sum =
      if hasMass then (p.flatMap Proc.owned).sum else 0 := by
    intro p hp
    cases hasMass with
    | false => simp
    | true =>
      simp only [if_true, ← key]
      congr 1
      refine List.map_congr_left (fun x hx => ?_)
      rw [hp x hx, List.append_nil]
  simp only [massReview, hacc p (fun x hx => hg x (by simp [hx])),
    hacc p' (fun x hx => hg x (by simp [hx])), key, ho.sum_eq, hi.sum_eq, hop.sum_eq]

/-- **C29 is false of the code** with ghosted elements: the reported accumulation exceeds the sum over
the mesh by the contribution of every ghosted copy. -/
theorem c29_ghosted_counted_twice (p : List (Proc K)) :
    (massReview true p).1 = (p.flatMap Proc.owned).sum + (p.flatMap Proc.ghosted).sum := by
  induction p with
  | nil => simp [massReview]
  | cons x p ih =>
    simp only [massReview, if_true, List.map_cons, List.sum_cons, foldl_add_eq, List.flatMap_cons,
      List.sum_append, zero_add] at ih ⊢
    rw [ih]; ring

/-- The same two elements on one process, and on two processes of which one ghosts the other's. -/
example : (massReview true [⟨[1, 2], [], [], []⟩] : ℚ × ℚ × ℚ).1 = 3 ∧
    (massReview true [⟨[1], [2], [], []⟩, ⟨[2], [], [], []⟩] : ℚ × ℚ × ℚ).1 = 5 := by decide +kernel

/-! ## C53 the matrix is the exact linearisation -/

theorem scalarEdge_affine {n : ℕ} (o : Opts K) (hlim : o.useLimiter = false) (a : Fin n → K) (mdot : K)
    (L R : ScalarNode n K) (dL dR : K) (r : Fin 2) :
    (scalarEdge o a mdot { L with q := L.q + dL } { R with q := R.q + dR }).rhs r =
      (scalarEdge o a mdot L R).rhs r -
        ((scalarEdge o a mdot L R).lhs r 0 * dL + (scalarEdge o a mdot L R).lhs r 1 * dR) := by
  have habs : 0 < mdot → |mdot| = mdot := fun h => abs_of_pos h
  have habs' : ¬ 0 < mdot → |mdot| = -mdot := fun h => abs_of_nonpos (not_lt.1 h)
  fin_cases r <;> simp [scalarEdge, diffFlux, diffFac, nonOrth, advFlux, interfaceValue, qIpL, qIpR,
    limiter, hlim, pecfac, dqHalf, lhsAdvL, lhsAdvR, lhsAdvC] <;>
    by_cases h : 0 < mdot <;> simp [h, habs, habs'] <;> ring

/-- **C53** With gradients, properties and mass flow rates held fixed and no limiter, the residual of
the edge scalar equation (interior and open boundary) at `q + dq` is the residual at `q` minus the
assembled matrix times `dq`; in particular an exact linear solve leaves no residual. -/
theorem c53_scalar_linearisation {N : Type*} [DecidableEq N] [Fintype N] {n : ℕ} (o : Opts K)
    (hlim : o.useLimiter = false) (nd : N → ScalarNode n K) (edges : List (EdgeRec N n K)) (bc : N → K)
    (ips : List (OpenIp N n K)) (dq : N → K) (i : N) :
    let nd' : N → ScalarNode n K := fun v => { nd v with q := (nd v).q + dq v }
    let S := assembleScalarOpen (fun v => (nd v).q) bc ips (assembleScalar o nd edges (Sys.zero N K))
    let S' := assembleScalarOpen (fun v => (nd' v).q) bc ips (assembleScalar o nd' edges (Sys.zero N K))
    S'.rhs i = S.rhs i - ∑ j, S.mat i j * dq j := by
  intro nd' S S'
  refine fold_affine ips (fun ip (_ : Fin 1) => ip.nearest) _ _ _ _ dq (fun ip _ a => ?_) i ?_
  · simp only [Finset.univ_unique, Finset.sum_singleton, scalarOpen, nd']
    split_ifs <;> simp; ring
  · refine fold_affine edges (fun e => e.node) _ _ _ _ dq (fun e _ a => ?_) i (by simp [Sys.zero])
    rw [Fin.sum_univ_two]
    exact scalarEdge_affine o hlim e.area e.mdot (nd e.left) (nd e.right) (dq e.left) (dq e.right) a

theorem momentumEdge_affine {n : ℕ} (o : Opts K) (hlim : o.useLimiter = false) (ar : Fin n → K) (mdot : K)
    (L R : MomNode n K) (dL dR : Fin n → K) (a : Fin 2) (i : Fin n) :
    (momentumEdge o 0 ar mdot { L with u := fun i => L.u i + dL i }
        { R with u := fun i => R.u i + dR i }).rhs (a, i) =
      (momentumEdge o 0 ar mdot L R).rhs (a, i) -
        ((∑ j, (momentumEdge o 0 ar mdot L R).lhs (a, i) (0, j) * dL j) +
          ∑ j, (momentumEdge o 0 ar mdot L R).lhs (a, i) (1, j) * dR j) := by
  set L' : MomNode n K := { L with u := fun i => L.u i + dL i } with hL'
  set R' : MomNode n K := { R with u := fun i => R.u i + dR i } with hR'
  have hadv : momAdvFlux o mdot L' R' i = momAdvFlux o mdot L R i +
      (lhsAdvL o (pecfac o (L.comp i) (R.comp i)) mdot +
        lhsAdvC o (pecfac o (L.comp i) (R.comp i)) mdot) * dL i +
      (lhsAdvR o (pecfac o (L.comp i) (R.comp i)) mdot +
        lhsAdvC o (pecfac o (L.comp i) (R.comp i)) mdot) * dR i := by
    have habs : 0 < mdot → |mdot| = mdot := fun h => abs_of_pos h
    have habs' : ¬ 0 < mdot → |mdot| = -mdot := fun h => abs_of_nonpos (not_lt.1 h)
    simp only [momAdvFlux, advFlux, interfaceValue, qIpL, qIpR, limiter, hlim, pecfac, dqHalf, lhsAdvL,
      lhsAdvR, lhsAdvC, MomNode.comp, hL', hR']
    by_cases h : 0 < mdot
    · simp only [gt_iff_lt, h, if_true, habs, Bool.false_eq_true, if_false]; ring
    · simp only [gt_iff_lt, h, if_false, habs' h, Bool.false_eq_true]; ring
  have hdu : ∀ k j, duidxj o ar L' R' k j = duidxj o ar L R k j +
      (dR k - dL k) * ar j * (1 / axdx ar L.x R.x) := by
    intro k j
    simp only [duidxj, hL', hR']; ring
  have hdiff : momDiffFlux o 0 ar L' R' i = momDiffFlux o 0 ar L R i +
      (-(1 / 2 * (L.visc + R.visc)) * asq ar * (1 / axdx ar L.x R.x)) * (dR i - dL i) +
      ∑ j, (-(1 / 2 * (L.visc + R.visc)) * ar i * ar j * (1 / axdx ar L.x R.x)) *
        (dR j - dL j) := by
    simp only [momDiffFlux, hdu, asq, Finset.mul_sum, Finset.sum_mul, mul_zero, zero_add,
      ← Finset.sum_add_distrib]
    refine Finset.sum_congr rfl (fun j _ => ?_)
    ring
  have hsum : ∀ x y : K, (∑ j, (-(1 / 2 * (L.visc + R.visc)) * ar i * ar j *
      (1 / axdx ar L.x R.x)) * (dR j - dL j)) =
      (∑ j, (-(1 / 2 * (L.visc + R.visc)) * ar i * ar j * (1 / axdx ar L.x R.x)) * dR j) -
      (∑ j, (-(1 / 2 * (L.visc + R.visc)) * ar i * ar j * (1 / axdx ar L.x R.x)) * dL j) := by
    intro _ _
    rw [← Finset.sum_sub_distrib]
    refine Finset.sum_congr rfl (fun j _ => ?_); ring
  have hcross : ∀ (c : K) (f g : Fin n → K), (∑ j, ((if i = j then c else 0) + f j) * g j) =
      c * g i + ∑ j, f j * g j := by
    intro c f g
    simp [add_mul, Finset.sum_add_distrib, ite_mul]
  fin_cases a
  · simp only [momentumEdge, hcross, Matrix.cons_val_zero, Matrix.cons_val_one, Fin.zero_eta, Fin.isValue]
    rw [hadv, hdiff, hsum 0 0]
    simp only [neg_mul, Finset.sum_neg_distrib]
    ring
  · simp only [momentumEdge, hcross, Matrix.cons_val_zero, Matrix.cons_val_one, Fin.mk_one, Fin.isValue]
    rw [hadv, hdiff, hsum 0 0]
    simp only [neg_mul, Finset.sum_neg_distrib]
    ring

/-- **C53** for momentum (without the divergence term `include_divu`, which the matrix ignores). -/
theorem c53_momentum_linearisation {N : Type*} [DecidableEq N] [Fintype N] {n : ℕ} (o : Opts K)
    (hlim : o.useLimiter = false) (nd : N → MomNode n K) (edges : List (EdgeRec N n K))
    (du : N × Fin n → K) (row : N × Fin n) :
    let nd' : N → MomNode n K := fun v => { nd v with u := fun i => (nd v).u i + du (v, i) }
    let S := assembleMomentum o 0 nd edges (Sys.zero _ K)
    let S' := assembleMomentum o 0 nd' edges (Sys.zero _ K)
    S'.rhs row = S.rhs row - ∑ col, S.mat row col * du col := by
  intro nd' S S'
  have := fold_affine edges (fun e (r : Fin 2 × Fin n) => (e.node r.1, r.2))
    (fun e => momentumEdge o 0 e.area e.mdot (nd e.left) (nd e.right))
    (fun e => momentumEdge o 0 e.area e.mdot (nd' e.left) (nd' e.right))
    (Sys.zero _ K) (Sys.zero _ K) du (fun e _ a => by
      obtain ⟨a, i⟩ := a
      rw [Fintype.sum_prod_type, Fin.sum_univ_two]
      exact momentumEdge_affine o hlim e.area e.mdot (nd e.left) (nd e.right)
        (fun i => du (e.left, i)) (fun i => du (e.right, i)) a i) row (by simp [Sys.zero])
  exact this

/-! ## C55 exactness for linear fields -/

/-- **C55** For a linear scalar with exact nodal gradients `G`, the diffusive flux with non-orthogonal
correction is exactly `-mu G.A` on every edge geometry, and the advective flux (second-order, no limiter)
is `mdot` times the value at the edge midpoint, for every Peclet factor and blending. -/
theorem c55_linear_scalar {n : ℕ} (o : Opts K) (a : Fin n → K) (mdot : K) (L R : ScalarNode n K)
    (G : Fin n → K) (_hx : axdx a L.x R.x ≠ 0) (hG : L.dqdx = G ∧ R.dqdx = G)
    (hq : R.q - L.q = ∑ j, G j * (R.x j - L.x j)) (hn : o.nocFac = 1) (hh : o.hoUpwind = 1)
    (hl : o.useLimiter = false) :
    diffFlux o a L R = -(1 / 2 * (L.diff + R.diff)) * ∑ j, G j * a j ∧
    advFlux o mdot L R = mdot * (1 / 2 * (L.q + R.q)) := by
  constructor
  · simp only [diffFlux, nonOrth, diffFac, hq, hn, mul_one, Finset.mul_sum, hG.1, hG.2,
      ← Finset.sum_add_distrib]
    refine Finset.sum_congr rfl (fun j _ => ?_); ring
  · have h : dqHalf L R G = 1 / 2 * (R.q - L.q) := by
      rw [hq, dqHalf, Finset.mul_sum]
      refine Finset.sum_congr rfl (fun j _ => ?_); ring
    simp only [advFlux, interfaceValue, qIpL, qIpR, hG.1, hG.2, h, limiter, hl, hh, Bool.false_eq_true,
      if_false]
    generalize pecfac o L R = pec
    clear h hq
    split_ifs <;> ring

/-- **C55** For a linear velocity field with exact nodal gradients, the viscous flux with
non-orthogonal correction is exactly `-mu (G + G^T - 2/3 div I) A`; hence a rigid-body motion
(antisymmetric gradient) feels no viscous force on any edge. -/
theorem c55_linear_velocity {n : ℕ} (o : Opts K) (incDivU : K) (a : Fin n → K) (L R : MomNode n K)
    (G : Fin n → Fin n → K) (_hx : axdx a L.x R.x ≠ 0) (hG : L.dudx = G ∧ R.dudx = G)
    (hu : ∀ i, R.u i - L.u i = ∑ j, G i j * (R.x j - L.x j)) (hn : o.nocFac = 1) (i : Fin n) :
    (momDiffFlux o incDivU a L R i =
      2 / 3 * (1 / 2 * (L.visc + R.visc)) * (∑ j, G j j) * a i * incDivU -
        (1 / 2 * (L.visc + R.visc)) * ∑ j, (G i j + G j i) * a j) ∧
    ((∀ i j, G i j = - G j i) → momDiffFlux o incDivU a L R i = 0) := by
  have hd : ∀ i j, duidxj o a L R i j = G i j := by
    intro i j
    have : (∑ l, 1 / 2 * (G i l + G i l) * (R.x l - L.x l)) = ∑ j, G i j * (R.x j - L.x j) :=
      Finset.sum_congr rfl (fun l _ => by ring)
    simp only [duidxj, hG.1, hG.2, hn, hu, this]; ring
  have h1 : momDiffFlux o incDivU a L R i =
      2 / 3 * (1 / 2 * (L.visc + R.visc)) * (∑ j, G j j) * a i * incDivU -
        (1 / 2 * (L.visc + R.visc)) * ∑ j, (G i j + G j i) * a j := by
    simp only [momDiffFlux, hd, sub_eq_add_neg, Finset.mul_sum, ← Finset.sum_neg_distrib]
    congr 1
    refine Finset.sum_congr rfl (fun j _ => ?_); ring
  refine ⟨h1, fun ha => ?_⟩
  have hz : ∀ j, G j j = 0 := fun j => by have := ha j j; linarith
  have hz2 : ∀ j, G i j + G j i = 0 := fun j => by rw [ha i j]; ring
  rw [h1]
  simp [hz, hz2]

example : diffFlux (⟨1, 1, 1, false, 1, 1, fun _ => 1⟩ : Opts ℚ) ![1, 2]
    ⟨![0, 0], ![5, -1], ![0, 0], 0, 1, 2⟩ ⟨![1, 1], ![5, -1], ![0, 0], 4, 1, 4⟩ = -9 := by decide +kernel

end Nalu.Edge
