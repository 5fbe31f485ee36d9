import Verif.Proofs.Diagnostics
import Verif.Props.Nso
import Mathlib.LinearAlgebra.Matrix.Orthogonal
import Mathlib.Data.List.GetD
import Mathlib.Tactic.IntervalCases
import Mathlib.Algebra.Order.Chebyshev

/-!
# C225 - C232: Courant and Reynolds numbers, error indicators, largest edge length
-/

namespace Nalu.Diag
open Nalu.Nso

variable {nn nd : ℕ}

/-! ## C225: Courant and Reynolds numbers of low Mach flow -/

/-- **C225** Every locally owned active element gets the largest Courant and the largest Reynolds number of its own integration
points, whatever elements came before. -/
theorem c225_elements (elems : List (List (ℝ × ℝ))) (hpos : ∀ vals ∈ elems, ∀ w ∈ vals, 0 ≤ w.1 ∧ 0 ≤ w.2) :
    (procLoop elems).field.length = elems.length ∧
    ∀ (k : ℕ) (hk : k < elems.length) (hk' : k < (procLoop elems).field.length),
      Top (elems[k].map Prod.fst) (procLoop elems).field[k].1 ∧ Top (elems[k].map Prod.snd) (procLoop elems).field[k].2 := by
  have h : (procLoop elems).field = elems.map fun vals => ((vals.map Prod.fst).foldl max (-1), (vals.map Prod.snd).foldl max (-1)) := by
    rw [procLoop, proc_fold]; simp
  refine ⟨by rw [h, List.length_map], fun k hk hk' => ?_⟩
  have e : (procLoop elems).field[k] = ((elems[k].map Prod.fst).foldl max (-1), (elems[k].map Prod.snd).foldl max (-1)) := by
    simp [h]
  rw [e]
  have hm := hpos _ (List.getElem_mem hk)
  refine ⟨top_foldl ?_, top_foldl ?_⟩ <;> intro a ha <;> obtain ⟨w, hw, rfl⟩ := List.mem_map.1 ha
  · exact (hm w hw).1
  · exact (hm w hw).2

/-- **C225** The realm's two numbers are the largest of all points of all elements of all processes - hence the same for every
distribution of the elements over the processes - and `-1` when there is no element. -/
theorem c225_realm (p0 : List (List (ℝ × ℝ))) (others : List (List (List (ℝ × ℝ))))
    (hpos : ∀ pr ∈ p0 :: others, ∀ vals ∈ pr, ∀ w ∈ vals, 0 ≤ w.1 ∧ 0 ≤ w.2) :
    (Top (((p0 :: others).map List.flatten).flatten.map Prod.fst) (realmMax p0 others).1 ∧
      Top (((p0 :: others).map List.flatten).flatten.map Prod.snd) (realmMax p0 others).2) ∧
    ∀ q0 qs, (((q0 :: qs : List (List (List (ℝ × ℝ)))).map List.flatten).flatten).Perm ((p0 :: others).map List.flatten).flatten →
      realmMax q0 qs = realmMax p0 others := by
  have hp : ∀ w ∈ ((p0 :: others).map List.flatten).flatten, 0 ≤ w.1 ∧ 0 ≤ w.2 := by
    intro w hw
    obtain ⟨l, hl, hw⟩ := List.mem_flatten.1 hw
    obtain ⟨pr, hpr, rfl⟩ := List.mem_map.1 hl
    obtain ⟨vals, hv, hw⟩ := List.mem_flatten.1 hw
    exact hpos pr hpr vals hv w hw
  have key : ∀ r0 rs, (∀ w ∈ ((r0 :: rs : List (List (List (ℝ × ℝ)))).map List.flatten).flatten, 0 ≤ w.1 ∧ 0 ≤ w.2) →
      Top (((r0 :: rs).map List.flatten).flatten.map Prod.fst) (realmMax r0 rs).1 ∧
      Top (((r0 :: rs).map List.flatten).flatten.map Prod.snd) (realmMax r0 rs).2 := by
    intro r0 rs h
    rw [realmMax_eq]
    refine ⟨top_foldl ?_, top_foldl ?_⟩ <;> intro a ha <;> obtain ⟨w, hw, rfl⟩ := List.mem_map.1 ha
    · exact (h w hw).1
    · exact (h w hw).2
  refine ⟨key p0 others hp, fun q0 qs hq => ?_⟩
  have hq' := key q0 qs fun w hw => hp w (hq.subset hw)
  have hp' := key p0 others hp
  exact Prod.ext ((hq'.1.perm (hq.map _)).unique hp'.1) ((hq'.2.perm (hq.map _)).unique hp'.2)

/-- **C225** The Courant number of an edge is the distance the mean velocity travels along the edge in a step, over the length
of the edge: at most speed times step over length, and that value when the flow is along the edge.  The Reynolds number is the
speed along the edge times its length over the mean kinematic viscosity (plus `1e-16`).  Both are nonnegative. -/
theorem c225_edge (e : Elem nn nd) (dt : ℝ) (hdt : 0 ≤ dt) (p : Fin nn × Fin nn) (hne : len (e.edge p) ≠ 0)
    (hmu : ∀ n, 0 ≤ e.mu n) (hrho : ∀ n, 0 < e.rho n) :
    let along := |∑ j, e.mean p j * (e.edge p j / len (e.edge p))|
    (e.flowNumbers dt p).1 = along * dt / len (e.edge p) ∧
    (e.flowNumbers dt p).2 = along * len (e.edge p) / ((e.mu p.1 / e.rho p.1 + e.mu p.2 / e.rho p.2) / 2 + 1e-16) ∧
    (e.flowNumbers dt p).1 ≤ len (e.mean p) * dt / len (e.edge p) ∧
    ((∃ s, ∀ j, e.mean p j = s * e.edge p j) → (e.flowNumbers dt p).1 = len (e.mean p) * dt / len (e.edge p)) ∧
    0 ≤ (e.flowNumbers dt p).1 ∧ 0 ≤ (e.flowNumbers dt p).2 := by
  intro along
  have hl : 0 < len (e.edge p) := lt_of_le_of_ne (len_nonneg _) (Ne.symm hne)
  have hal : |e.udotx p| = along * len (e.edge p) := by
    have : e.udotx p = (∑ j, e.mean p j * (e.edge p j / len (e.edge p))) * len (e.edge p) := by
      rw [udotx_eq, Finset.sum_mul]
      exact Finset.sum_congr rfl fun j _ => by field_simp
    rw [this, abs_mul, abs_of_pos hl]
  have hal0 : 0 ≤ along := abs_nonneg _
  have h1 : (e.flowNumbers dt p).1 = along * dt / len (e.edge p) := by
    rw [Elem.flowNumbers, Elem.numbers, hal, dxSq_eq]
    rw [abs_of_nonneg (by positivity)]
    field_simp
  have hd : 0 ≤ (e.mu p.1 / e.rho p.1 + e.mu p.2 / e.rho p.2) / 2 :=
    div_nonneg (add_nonneg (div_nonneg (hmu _) (hrho _).le) (div_nonneg (hmu _) (hrho _).le)) (by norm_num)
  have h2 : (e.flowNumbers dt p).2 = along * len (e.edge p) / ((e.mu p.1 / e.rho p.1 + e.mu p.2 / e.rho p.2) / 2 + 1e-16) := by
    rw [Elem.flowNumbers, Elem.numbers, hal, Elem.diffIp, small]
    congr 2
    ring
  have hle : along * len (e.edge p) ≤ len (e.mean p) * len (e.edge p) := by
    rw [← hal, udotx_eq]; exact dot_le _ _
  have hle' : along ≤ len (e.mean p) := le_of_mul_le_mul_right hle hl
  refine ⟨h1, h2, ?_, ?_, ?_, ?_⟩
  · rw [h1]; gcongr
  · rintro ⟨s, hs⟩
    rw [h1]
    have : along = len (e.mean p) := by
      have hm : len (e.mean p) = |s| * len (e.edge p) := by
        rw [len, len, ← Real.sqrt_sq_eq_abs, ← Real.sqrt_mul (sq_nonneg s), Finset.mul_sum]
        congr 1
        exact Finset.sum_congr rfl fun j _ => by rw [hs]; ring
      have hdot : e.udotx p = s * len (e.edge p) ^ 2 := by
        rw [udotx_eq, len, Real.sq_sqrt (Finset.sum_nonneg fun _ _ => sq_nonneg _), Finset.mul_sum]
        exact Finset.sum_congr rfl fun j _ => by rw [hs]; ring
      rw [hdot, abs_mul, abs_of_nonneg (sq_nonneg (len (e.edge p)))] at hal
      rw [hm]
      have : along * len (e.edge p) = (|s| * len (e.edge p)) * len (e.edge p) := by rw [← hal]; ring
      exact mul_right_cancel₀ hl.ne' this
    rw [this]
  · rw [h1]; positivity
  · rw [h2]
    apply div_nonneg (mul_nonneg hal0 hl.le)
    linarith [show (0:ℝ) ≤ 1e-16 by norm_num]

/-- **C225** Neither number depends on the orientation of an edge, on the origin, or on the orientation of the axes. -/
theorem c225_invariant (e : Elem nn nd) (dt : ℝ) (p : Fin nn × Fin nn) (Q : Matrix (Fin nd) (Fin nd) ℝ) (hQ : Q.transpose * Q = 1) (x0 : Fin nd → ℝ) :
    e.flowNumbers dt (p.2, p.1) = e.flowNumbers dt p ∧
    (Elem.flowNumbers ⟨fun n => Q.mulVec (e.x n) + x0, fun n => Q.mulVec (e.v n), e.rho, e.mu, e.c, e.lr⟩ dt p) = e.flowNumbers dt p := by
  have hdot : ∀ a b : Fin nd → ℝ, ∑ j, Q.mulVec a j * Q.mulVec b j = ∑ j, a j * b j := by
    intro a b
    change dotProduct (Q.mulVec a) (Q.mulVec b) = dotProduct a b
    rw [Matrix.dotProduct_mulVec, Matrix.vecMul_mulVec, ← Matrix.dotProduct_mulVec, hQ, Matrix.one_mulVec]
  constructor
  · have h1 : e.udotx (p.2, p.1) = -e.udotx p := by
      simp only [Elem.udotx, ← Finset.sum_neg_distrib]
      exact Finset.sum_congr rfl fun j _ => by ring
    have h2 : e.dxSq (p.2, p.1) = e.dxSq p := by
      simp only [Elem.dxSq]
      exact Finset.sum_congr rfl fun j _ => by ring
    have h3 : e.diffIp (p.2, p.1) = e.diffIp p := by simp only [Elem.diffIp]; ring
    simp only [Elem.flowNumbers, Elem.numbers, h1, h2, h3, abs_neg]
  · set e' : Elem nn nd := ⟨fun n => Q.mulVec (e.x n) + x0, fun n => Q.mulVec (e.v n), e.rho, e.mu, e.c, e.lr⟩ with he
    have hx : ∀ j, e'.x p.2 j - e'.x p.1 j = Q.mulVec (fun k => e.x p.2 k - e.x p.1 k) j := by
      intro j
      have : (fun k => e.x p.2 k - e.x p.1 k) = e.x p.2 - e.x p.1 := rfl
      rw [this, Matrix.mulVec_sub]
      simp [he]
    have hv : ∀ j, 0.5 * (e'.v p.2 j + e'.v p.1 j) = Q.mulVec (fun k => 0.5 * (e.v p.2 k + e.v p.1 k)) j := by
      intro j
      have : (fun k => 0.5 * (e.v p.2 k + e.v p.1 k)) = (0.5 : ℝ) • (e.v p.2 + e.v p.1) := rfl
      rw [this, Matrix.mulVec_smul, Matrix.mulVec_add]
      simp [he]
    have h1 : e'.udotx p = e.udotx p := by
      simp only [Elem.udotx, hx, hv, hdot]
    have h2 : e'.dxSq p = e.dxSq p := by simp only [Elem.dxSq, hx, hdot]
    simp only [Elem.flowNumbers, Elem.numbers, h1, h2]
    rfl

/-- The points of the elements of one process; elements may have different numbers of nodes. -/
noncomputable def ptsFlow (l : List (Σ nn, Elem nn nd)) (dt : ℝ) : List (List (ℝ × ℝ)) := l.map fun e => e.2.flow dt
/-- The same for gas dynamics. -/
noncomputable def ptsGas (l : List (Σ nn, Elem nn nd)) (dt : ℝ) : List (List (ℝ × ℝ)) := l.map fun e => e.2.gas dt

private theorem max_scaled (l : List (ℝ × ℝ)) (k : ℝ) (hk : 0 < k) (l' : List (ℝ × ℝ)) (h : l'.map Prod.fst = (l.map Prod.fst).map (k * ·))
    (hpos : ∀ w ∈ l, 0 ≤ w.1) (m : ℝ) (hm : (l.map Prod.fst).foldl max (-1) = m) (hm0 : 0 < m) : (l'.map Prod.fst).foldl max (-1) = k * m := by
  have t1 : Top (l.map Prod.fst) m := hm ▸ top_foldl (fun a ha => by obtain ⟨w, hw, rfl⟩ := List.mem_map.1 ha; exact hpos w hw)
  have t2 : Top (l'.map Prod.fst) ((l'.map Prod.fst).foldl max (-1)) := top_foldl (fun a ha => by
    rw [h] at ha
    obtain ⟨b, hb, rfl⟩ := List.mem_map.1 ha
    obtain ⟨w, hw, rfl⟩ := List.mem_map.1 hb
    exact mul_nonneg hk.le (hpos w hw))
  refine t2.unique ?_
  rcases t1 with ⟨-, h1⟩ | ⟨h1, h2⟩
  · linarith
  · right
    rw [h]
    exact ⟨List.mem_map_of_mem h1, fun a ha => by obtain ⟨b, hb, rfl⟩ := List.mem_map.1 ha; exact mul_le_mul_of_nonneg_left (h2 b hb) hk.le⟩

private theorem numbers_scaled (e : Elem nn nd) (u dt k : ℝ) (hk : 0 < k) (p : Fin nn × Fin nn) :
    (e.numbers (dt * k) u p).1 = k * (e.numbers dt u p).1 := by
  simp only [Elem.numbers]
  rw [show u * (dt * k) / e.dxSq p = k * (u * dt / e.dxSq p) by ring, abs_mul, abs_of_pos hk]

/-- **C225** The adaptive time step reaches its target: unless the user's factor limits the change, the step proposed from the
largest Courant number of the realm would have had the target as its largest Courant number - for low Mach flow and for gas
dynamics. -/
theorem c225_target (gas : Bool) (p0 : List (Σ nn, Elem nn nd)) (others : List (List (Σ nn, Elem nn nd))) (dt target c : ℝ)
    (ht : 0 < target) :
    let pts := fun l d => if gas then ptsGas (nd := nd) l d else ptsFlow l d
    let m := (realmMax (pts p0 dt) (others.map fun l => pts l dt)).1
    0 < m → 1 / c ≤ target / m → target / m ≤ c →
    let dt' := Nalu.Time.adaptiveDt ⟨target, m, c⟩ dt
    (realmMax (pts p0 dt') (others.map fun l => pts l dt')).1 = target := by
  intro pts m hm h1 h2 dt'
  have hk : 0 < target / m := div_pos ht hm
  have hdt : dt' = dt * (target / m) := by
    simp only [dt', Nalu.Time.adaptiveDt]
    split_ifs with h h'
    · rw [max_eq_left h1]
    · exact absurd h' hm.ne'
    · rw [min_eq_left h2]
  have hflat : ∀ d, (((pts p0 d) :: (others.map fun l => pts l d)).map List.flatten).flatten =
      ((p0 :: others).flatten.map fun e => if gas then e.2.gas d else e.2.flow d).flatten := by
    intro d
    have : ∀ l, pts l d = l.map fun e => if gas then e.2.gas d else e.2.flow d := by
      intro l; cases gas <;> simp [pts, ptsGas, ptsFlow]
    simp only [this]
    rw [show ((p0.map fun e => if gas then e.2.gas d else e.2.flow d) :: (others.map fun l => l.map fun e => if gas then e.2.gas d else e.2.flow d)) =
      (p0 :: others).map fun l => l.map fun e => if gas then e.2.gas d else e.2.flow d from rfl, List.map_map]
    generalize p0 :: others = L
    induction L with
    | nil => rfl
    | cons a L ih => simp only [List.map_cons, List.flatten_cons, ih, List.map_append, List.flatten_append, Function.comp]
  have hmd : m = ((((p0 :: others).flatten.map fun e => if gas then e.2.gas dt else e.2.flow dt).flatten).map Prod.fst).foldl max (-1) := by
    simp only [m, realmMax_eq, hflat]
  rw [realmMax_eq]
  simp only [hflat]
  rw [max_scaled ((p0 :: others).flatten.map fun e => if gas then e.2.gas dt else e.2.flow dt).flatten (target / m) hk _ ?_ ?_ m hmd.symm hm]
  · field_simp
  · generalize (p0 :: others).flatten = L
    induction L with
    | nil => rfl
    | cons a L ih =>
      rw [List.map_cons, List.flatten_cons, List.map_append, ih, List.map_cons, List.flatten_cons, List.map_append, List.map_append]
      congr 1
      rw [hdt]
      cases gas <;> simp only [Elem.flow, Elem.gas, List.map_map, Bool.false_eq_true, if_false, if_true] <;> apply List.map_congr_left <;> intro p _ <;>
        simp only [Function.comp, Elem.flowNumbers, Elem.gasNumbers, numbers_scaled _ _ _ _ hk]
  · intro w hw
    obtain ⟨l, hl, hw⟩ := List.mem_flatten.1 hw
    obtain ⟨e, -, rfl⟩ := List.mem_map.1 hl
    cases gas <;> simp only [Elem.flow, Elem.gas, Bool.false_eq_true, if_false, if_true] at hw <;> obtain ⟨p, -, rfl⟩ := List.mem_map.1 hw <;> exact abs_nonneg _

/-- **C225** Without any active element on any process both numbers are `-1`, and the adaptive step is negative. -/
theorem c225_no_elements (n : ℕ) (dt target c : ℝ) (hdt : 0 < dt) (ht : 0 < target) (hc : 1 ≤ c) :
    realmMax [] (List.replicate n []) = (-1, -1) ∧
    Nalu.Time.adaptiveDt ⟨target, (realmMax [] (List.replicate n [])).1, c⟩ dt < 0 := by
  have h : realmMax [] (List.replicate n []) = (-1, -1) := by
    rw [realmMax_eq]; simp
  refine ⟨h, ?_⟩
  rw [h]
  simp only [Nalu.Time.adaptiveDt]
  rw [if_neg (by linarith), if_neg (by norm_num), min_eq_left (by linarith [div_neg_of_pos_of_neg ht (show (-1:ℝ) < 0 by norm_num)])]
  exact mul_neg_of_pos_of_neg hdt (div_neg_of_pos_of_neg ht (by norm_num))

/-- Non-vacuity: one edge of length 2 with mean velocity 3 along it, step 1/2: Courant number 3/4. -/
example : (Elem.flowNumbers (nn := 2) (nd := 1) ⟨fun n _ => if n = 0 then 0 else 2, fun n _ => if n = 0 then 2 else 4, fun _ => 1, fun _ => 1, fun _ => 0, []⟩
    (1 / 2) (0, 1)).1 = 3 / 4 := by
  simp [Elem.flowNumbers, Elem.numbers, Elem.udotx, Elem.dxSq]; norm_num [abs_of_pos]

/-! ## C226: gas dynamics -/

/-- **C226** In gas dynamics the Courant number adds the mean speed of sound to the speed along the edge; it is at least that of
the flow alone and positive wherever sound travels. -/
theorem c226_courant (e : Elem nn nd) (dt : ℝ) (hdt : 0 < dt) (p : Fin nn × Fin nn) (hne : len (e.edge p) ≠ 0) (hc : ∀ n, 0 < e.c n) :
    (e.gasNumbers dt p).1 = (|∑ j, e.mean p j * (e.edge p j / len (e.edge p))| + (e.c p.1 + e.c p.2) / 2) * dt / len (e.edge p) ∧
    (e.flowNumbers dt p).1 < (e.gasNumbers dt p).1 ∧ 0 < (e.gasNumbers dt p).1 := by
  have hl : 0 < len (e.edge p) := lt_of_le_of_ne (len_nonneg _) (Ne.symm hne)
  have hal : |e.udotx p| = |∑ j, e.mean p j * (e.edge p j / len (e.edge p))| * len (e.edge p) := by
    have : e.udotx p = (∑ j, e.mean p j * (e.edge p j / len (e.edge p))) * len (e.edge p) := by
      rw [udotx_eq, Finset.sum_mul]
      exact Finset.sum_congr rfl fun j _ => by field_simp
    rw [this, abs_mul, abs_of_pos hl]
  have hcc : 0 < (e.c p.1 + e.c p.2) / 2 := by have := hc p.1; have := hc p.2; linarith
  have h0 := abs_nonneg (∑ j, e.mean p j * (e.edge p j / len (e.edge p)))
  set al := |∑ j, e.mean p j * (e.edge p j / len (e.edge p))|
  have h1 : (e.gasNumbers dt p).1 = (al + (e.c p.1 + e.c p.2) / 2) * dt / len (e.edge p) := by
    rw [Elem.gasNumbers, Elem.numbers, hal, dxSq_eq, Real.sqrt_sq hl.le]
    rw [show al * len (e.edge p) + 0.5 * (e.c p.2 + e.c p.1) * len (e.edge p) = (al + (e.c p.1 + e.c p.2) / 2) * len (e.edge p) by ring,
      abs_of_nonneg (by positivity)]
    field_simp
  have h2 : (e.flowNumbers dt p).1 = al * dt / len (e.edge p) := by
    rw [Elem.flowNumbers, Elem.numbers, hal, dxSq_eq, abs_of_nonneg (by positivity)]
    field_simp
  refine ⟨h1, ?_, ?_⟩
  · rw [h1, h2]
    gcongr
    linarith
  · rw [h1]; positivity

/-- **C226** (partial: the Reynolds number) The reported Reynolds number is built with flow speed plus speed of sound, so it
exceeds the Reynolds number of the flow by that of the sound, and does not vanish for a fluid at rest. -/
theorem c226_reynolds_partial (e : Elem nn nd) (dt : ℝ) (p : Fin nn × Fin nn) (hne : len (e.edge p) ≠ 0) (hc : ∀ n, 0 < e.c n)
    (hmu : ∀ n, 0 ≤ e.mu n) (hrho : ∀ n, 0 < e.rho n) :
    (e.gasNumbers dt p).2 = (e.flowNumbers dt p).2 + (e.c p.1 + e.c p.2) / 2 * len (e.edge p) / (e.diffIp p + 1e-16) ∧
    (e.flowNumbers dt p).2 < (e.gasNumbers dt p).2 := by
  have hl : 0 < len (e.edge p) := lt_of_le_of_ne (len_nonneg _) (Ne.symm hne)
  have hd : 0 < e.diffIp p + 1e-16 := by
    have : 0 ≤ e.diffIp p := mul_nonneg (by norm_num) (add_nonneg (div_nonneg (hmu _) (hrho _).le) (div_nonneg (hmu _) (hrho _).le))
    linarith [show (0:ℝ) < 1e-16 by norm_num]
  have h1 : (e.gasNumbers dt p).2 = (e.flowNumbers dt p).2 + (e.c p.1 + e.c p.2) / 2 * len (e.edge p) / (e.diffIp p + 1e-16) := by
    simp only [Elem.gasNumbers, Elem.flowNumbers, Elem.numbers, dxSq_eq, Real.sqrt_sq hl.le, small]
    rw [← add_div]
    congr 1
    ring
  refine ⟨h1, ?_⟩
  rw [h1]
  have hcc : 0 < (e.c p.1 + e.c p.2) / 2 := by have := hc p.1; have := hc p.2; linarith
  have : 0 < (e.c p.1 + e.c p.2) / 2 * len (e.edge p) / (e.diffIp p + 1e-16) := by positivity
  linarith

/-! ## C227: finite elements -/

private theorem quad_gLo (S : Fin nd → Fin nd → ℝ) (v : Fin nd → ℝ) : ∑ i, ∑ j, v i * gLo S i j * v j = ∑ k, (∑ i, S k i * v i) ^ 2 := by
  simp only [gLo, Finset.mul_sum, Finset.sum_mul, sq]
  have : ∀ i, ∑ j, ∑ k, v i * (S k i * S k j) * v j = ∑ k, ∑ j, v i * (S k i * S k j) * v j := fun i => Finset.sum_comm
  simp only [this]
  rw [Finset.sum_comm]
  refine Finset.sum_congr rfl fun k _ => ?_
  rw [Finset.sum_comm]
  refine Finset.sum_congr rfl fun i _ => Finset.sum_congr rfl fun j _ => by ring

/-- **C227** The Courant number of a finite element is half the distance the flow travels per step in the reference element: if `w`
is the velocity in reference coordinates, `v_i = sum_k dx_i/dxi_k w_k`, it is `|w| dt/2`.  The square root is never taken of a
negative number.  (Two and three dimensions, Jacobian determinant above the clip.) -/
theorem c227_courant2 (dt : ℝ) (J : Fin 2 → Fin 2 → ℝ) (hJ : clipAt < (Matrix.of J).det) (r rho mu : Fin nn → ℝ) (v : Fin nn → Fin 2 → ℝ)
    (w : Fin 2 → ℝ) (hw : ∀ i, ∑ ic, r ic * v ic i = ∑ k, J i k * w k) :
    (femNumbers dt (twodGij J).2 r rho mu v).1 = len w * dt / 2 := by
  have hd : det2 J = (Matrix.of J).det := by
    rw [Matrix.det_fin_two, det2]; simp only [Matrix.of_apply]; ring
  have hc : (0 : ℝ) < clipAt := by unfold clipAt; positivity
  have hden : denom (det2 J) * det2 J = 1 := by
    rw [denom, if_neg (by rw [hd]; linarith), one_div, inv_mul_cancel₀ (by rw [hd]; linarith)]
  have hS : ∀ k, ∑ i, dsdx2 (denom (det2 J)) J k i * (∑ ic, r ic * v ic i) = w k := by
    intro k
    simp only [hw]
    generalize denom (det2 J) = dn at hden
    simp only [det2] at hden
    fin_cases k <;> simp only [Fin.sum_univ_two, dsdx2] <;> simp <;> first | linear_combination (w 0) * hden | linear_combination (w 1) * hden
  simp only [femNumbers]
  have : (twodGij J).2 = gLo (dsdx2 (denom (det2 J)) J) := rfl
  rw [this, quad_gLo]
  simp only [hS, len]

/-- **C227** The same in three dimensions. -/
theorem c227_courant3 (dt : ℝ) (J : Fin 3 → Fin 3 → ℝ) (hJ : clipAt < (Matrix.of J).det) (r rho mu : Fin nn → ℝ) (v : Fin nn → Fin 3 → ℝ)
    (w : Fin 3 → ℝ) (hw : ∀ i, ∑ ic, r ic * v ic i = ∑ k, J i k * w k) :
    (femNumbers dt (threedGij J).2 r rho mu v).1 = len w * dt / 2 := by
  have hd : det3 J = (Matrix.of J).det := by
    rw [Matrix.det_fin_three, det3]; simp only [Matrix.of_apply]; ring
  have hc : (0 : ℝ) < clipAt := by unfold clipAt; positivity
  have hden : denom (det3 J) * det3 J = 1 := by
    rw [denom, if_neg (by rw [hd]; linarith), one_div, inv_mul_cancel₀ (by rw [hd]; linarith)]
  have hS : ∀ k, ∑ i, dsdx3 (denom (det3 J)) J k i * (∑ ic, r ic * v ic i) = w k := by
    intro k
    simp only [hw]
    generalize denom (det3 J) = dn at hden
    simp only [det3] at hden
    fin_cases k <;> simp only [Fin.sum_univ_three, dsdx3] <;> simp <;>
      first | linear_combination (w 0) * hden | linear_combination (w 1) * hden | linear_combination (w 2) * hden
  simp only [femNumbers]
  have : (threedGij J).2 = gLo (dsdx3 (denom (det3 J)) J) := rfl
  rw [this, quad_gLo]
  simp only [hS, len]

/-- **C227** On a brick with sides `h` along the axes (`dx_i/dxi_i = h_i/2`) the Courant number is `dt*sqrt(sum (v_i/h_i)^2)`,
which is at least the Courant number `|v_i| dt/h_i` of every direction. -/
theorem c227_brick (dt : ℝ) (hdt : 0 ≤ dt) (h : Fin 3 → ℝ) (hh : ∀ i, 0 < h i) (hclip : clipAt < h 0 / 2 * (h 1 / 2) * (h 2 / 2))
    (r rho mu : Fin nn → ℝ) (v : Fin nn → Fin 3 → ℝ) :
    let J : Fin 3 → Fin 3 → ℝ := fun i k => if i = k then h i / 2 else 0
    let vIp := fun i => ∑ ic, r ic * v ic i
    let co := (femNumbers dt (threedGij J).2 r rho mu v).1
    co = dt * Real.sqrt (∑ i, (vIp i / h i) ^ 2) ∧ ∀ i, |vIp i| * dt / h i ≤ co := by
  intro J vIp co
  have hJ : clipAt < (Matrix.of J).det := by
    rw [Matrix.det_fin_three]; simp [J]; linarith
  have h1 : co = len (fun i => 2 * (vIp i / h i)) * dt / 2 :=
    c227_courant3 dt J hJ r rho mu v _ fun i => by
      simp only [J, ite_mul, zero_mul, Finset.sum_ite_eq, Finset.mem_univ, if_true]
      have := (hh i).ne'
      change vIp i = _
      field_simp
  have h2 : len (fun i => 2 * (vIp i / h i)) = 2 * Real.sqrt (∑ i, (vIp i / h i) ^ 2) := by
    rw [len, show (2:ℝ) * Real.sqrt (∑ i, (vIp i / h i) ^ 2) = Real.sqrt (2 ^ 2) * Real.sqrt (∑ i, (vIp i / h i) ^ 2) by
      rw [Real.sqrt_sq (by norm_num)], ← Real.sqrt_mul (by norm_num), Finset.mul_sum]
    congr 1
    exact Finset.sum_congr rfl fun i _ => by ring
  have h3 : co = dt * Real.sqrt (∑ i, (vIp i / h i) ^ 2) := by rw [h1, h2]; ring
  refine ⟨h3, fun i => ?_⟩
  rw [h3]
  have : |vIp i / h i| ≤ Real.sqrt (∑ i, (vIp i / h i) ^ 2) := by
    apply Real.abs_le_sqrt
    exact Finset.single_le_sum (f := fun i => (vIp i / h i) ^ 2) (fun _ _ => sq_nonneg _) (Finset.mem_univ i)
  rw [abs_div, abs_of_pos (hh i)] at this
  calc |vIp i| * dt / h i = dt * (|vIp i| / h i) := by ring
    _ ≤ _ := mul_le_mul_of_nonneg_left this hdt

/-- **C227** On a cube with side `h` the Reynolds number is speed times side over the kinematic viscosity (plus `1e-16`) at the
integration point. -/
theorem c227_cube (dt h : ℝ) (hh : 0 < h) (hclip : clipAt < h / 2 * (h / 2) * (h / 2)) (r rho mu : Fin nn → ℝ) (v : Fin nn → Fin 3 → ℝ)
    (hnu : 0 ≤ (∑ ic, r ic * mu ic) / ∑ ic, r ic * rho ic) :
    let J : Fin 3 → Fin 3 → ℝ := fun i k => if i = k then h / 2 else 0
    (femNumbers dt (threedGij J).2 r rho mu v).2 =
      len (fun i => ∑ ic, r ic * v ic i) * h / ((∑ ic, r ic * mu ic) / (∑ ic, r ic * rho ic) + 1e-16) := by
  intro J
  have hdet : (Matrix.of J).det = h / 2 * (h / 2) * (h / 2) := by rw [Matrix.det_fin_three]; simp [J]
  have hd : det3 J = h / 2 * (h / 2) * (h / 2) := by simp [det3, J]; ring
  have hpos : (0:ℝ) < h / 2 * (h / 2) * (h / 2) := by positivity
  have hdn : denom (det3 J) = 1 / (h / 2 * (h / 2) * (h / 2)) := by rw [denom, hd, if_neg (by linarith)]
  have hg : (threedGij J).2 = fun i j => if i = j then 4 / h ^ 2 else 0 := by
    have e : (threedGij J).2 = gLo (dsdx3 (denom (det3 J)) J) := rfl
    rw [e, hdn]
    funext i j
    have hn := hh.ne'
    fin_cases i <;> fin_cases j <;> simp [gLo, dsdx3, J, Fin.sum_univ_three] <;> field_simp <;> norm_num
  have hnu' : 0 < (∑ ic, r ic * mu ic) / (∑ ic, r ic * rho ic) + 1e-16 := by linarith [show (0:ℝ) < 1e-16 by norm_num]
  simp only [femNumbers, hg, small]
  set nu := (∑ ic, r ic * mu ic) / (∑ ic, r ic * rho ic) + 1e-16
  have e1 : ∑ i : Fin 3, ∑ j, (∑ ic, r ic * v ic i) * (if i = j then 4 / h ^ 2 else 0) * (∑ ic, r ic * v ic j) =
      4 / h ^ 2 * ∑ i, (∑ ic, r ic * v ic i) ^ 2 := by
    rw [Finset.mul_sum]
    refine Finset.sum_congr rfl fun i _ => ?_
    simp only [mul_ite, ite_mul, mul_zero, zero_mul, Finset.sum_ite_eq, Finset.mem_univ, if_true]
    ring
  have e2 : ∑ i : Fin 3, ∑ j, (if i = j then 4 / h ^ 2 else (0:ℝ)) * (if i = j then 4 / h ^ 2 else 0) = 48 / h ^ 4 := by
    simp [Fin.sum_univ_three]
    field_simp; norm_num
  rw [e1, e2]
  simp only [if_true]
  have e3 : (4 / h ^ 2 * ∑ i, (∑ ic, r ic * v ic i) ^ 2) / (nu * nu * (48 / h ^ 4) / 3) = (∑ i, (∑ ic, r ic * v ic i) ^ 2) * (h / (2 * nu)) ^ 2 := by
    field_simp; ring
  rw [e3, Real.sqrt_mul (Finset.sum_nonneg fun _ _ => sq_nonneg _), Real.sqrt_sq (by positivity), len]
  field_simp

/-- Non-vacuity: the unit cube passes the clip. -/
example : clipAt < (1 : ℝ) / 2 * (1 / 2) * (1 / 2) := by
  have h1 : (10:ℝ) ^ 324 = 10 ^ 200 * 10 ^ 124 := by rw [← pow_add]
  have h2 : (10:ℝ) ^ 30 ≤ 10 ^ 200 := pow_le_pow_right₀ (by norm_num) (by norm_num)
  have h3 : (1:ℝ) ≤ 10 ^ 124 := one_le_pow₀ (by norm_num)
  have h4 : (10:ℝ) ^ 30 ≤ 10 ^ 324 := by rw [h1]; nlinarith
  have h5 : (0:ℝ) < 10 ^ 324 := by positivity
  unfold clipAt
  generalize (10:ℝ) ^ 324 = t at h4 h5
  rw [← mul_div_assoc, div_lt_iff₀ h5]
  norm_num at h4 ⊢
  linarith

/-! ## C228: the limiter indicator -/

private theorem vanLeer_mem (a b s : ℝ) (hs : 0 ≤ s) : 0 ≤ vanLeer a b s ∧ vanLeer a b s ≤ 1 := by
  have hden : 0 ≤ (a + b) * (a + b) + s := add_nonneg (mul_self_nonneg _) hs
  constructor
  · exact div_nonneg (mul_nonneg (by norm_num) (by linarith [neg_abs_le (a * b)])) hden
  · apply div_le_one_of_le₀ _ hden
    rcases le_total 0 (a * b) with h | h
    · rw [abs_of_nonneg h]; nlinarith [mul_self_nonneg (a - b)]
    · rw [abs_of_nonpos h]; nlinarith [mul_self_nonneg (a + b)]

private theorem limTerm_mem (e : GElem nn nd) (p : Fin nn × Fin nn) (i : Fin nd) : 0 ≤ e.limTerm p i ∧ e.limTerm p i ≤ 1 := by
  refine ⟨Real.sqrt_nonneg _, ?_⟩
  simp only [GElem.limTerm]
  have hs : (0:ℝ) ≤ small := by norm_num [small]
  obtain ⟨h1, h2⟩ := vanLeer_mem (2 * 2 * e.du p p.1 i - (e.u p.2 i - e.u p.1 i)) (e.u p.2 i - e.u p.1 i) small hs
  obtain ⟨h3, h4⟩ := vanLeer_mem (2 * 2 * e.du p p.2 i - (e.u p.2 i - e.u p.1 i)) (e.u p.2 i - e.u p.1 i) small hs
  generalize vanLeer (2 * 2 * e.du p p.1 i - (e.u p.2 i - e.u p.1 i)) (e.u p.2 i - e.u p.1 i) small = a at h1 h2
  generalize vanLeer (2 * 2 * e.du p p.2 i - (e.u p.2 i - e.u p.1 i)) (e.u p.2 i - e.u p.1 i) small = b at h3 h4
  rw [Real.sqrt_le_one]
  have ha : a * a ≤ 1 := mul_le_one₀ h2 h1 h2
  have hb : b * b ≤ 1 := mul_le_one₀ h4 h3 h4
  norm_num
  linarith

/-- **C228** The limiter indicator never stops the run: on every element with an integration point it lies between `1e-8` and
`1 + 1e-8`. -/
theorem c228_range (e : GElem nn nd) (hd : 0 < nd) (hl : e.lr ≠ []) : ∃ r, e.limiter = some r ∧ 1e-8 ≤ r ∧ r ≤ 1 + 1e-8 := by
  have hlen : 0 < e.lr.length := List.length_pos_of_ne_nil hl
  have hT : (0:ℝ) < (nd : ℝ) * e.lr.length := by positivity
  have hbound : ∀ l : List (Fin nn × Fin nn), 0 ≤ (l.map fun p => ∑ i, e.limTerm p i).sum ∧ (l.map fun p => ∑ i, e.limTerm p i).sum ≤ (nd : ℝ) * l.length := by
    intro l
    induction l with
    | nil => simp
    | cons p l ih =>
      have h1 : 0 ≤ ∑ i, e.limTerm p i := Finset.sum_nonneg fun i _ => (limTerm_mem e p i).1
      have h2 : ∑ i, e.limTerm p i ≤ (nd : ℝ) := by
        calc ∑ i, e.limTerm p i ≤ ∑ _i : Fin nd, (1:ℝ) := Finset.sum_le_sum fun i _ => (limTerm_mem e p i).2
          _ = nd := by simp
      simp only [List.map_cons, List.sum_cons, List.length_cons, Nat.cast_succ]
      constructor <;> nlinarith [ih.1, ih.2]
  obtain ⟨h1, h2⟩ := hbound e.lr
  have h3 : 0 ≤ (e.lr.map fun p => ∑ i, e.limTerm p i).sum / ((nd : ℝ) * e.lr.length) := div_nonneg h1 hT.le
  have h4 : (e.lr.map fun p => ∑ i, e.limTerm p i).sum / ((nd : ℝ) * e.lr.length) ≤ 1 := (div_le_one hT).2 h2
  refine ⟨(1 + 1e-8) - (e.lr.map fun p => ∑ i, e.limTerm p i).sum / ((nd : ℝ) * e.lr.length), ?_, by linarith, by linarith⟩
  simp only [GElem.limiter]
  rw [if_neg]
  have : (0:ℝ) < 1e-8 := by norm_num
  linarith

private theorem limiter_const (e : GElem nn nd) (hd : 0 < nd) (hl : e.lr ≠ []) (r : ℝ) (h : e.limiter = some r) {t : ℝ}
    (ht : ∀ p ∈ e.lr, ∀ i, e.limTerm p i < t) : 1 + 1e-8 - t < r := by
  have hlen : 0 < e.lr.length := List.length_pos_of_ne_nil hl
  have hT : (0:ℝ) < (nd : ℝ) * e.lr.length := by positivity
  have hne : Nonempty (Fin nd) := ⟨⟨0, hd⟩⟩
  have hsum : ∀ l : List (Fin nn × Fin nn), l ≠ [] → (∀ p ∈ l, ∀ i, e.limTerm p i < t) → (l.map fun p => ∑ i, e.limTerm p i).sum < t * ((nd : ℝ) * l.length) := by
    intro l
    induction l with
    | nil => intro h; exact absurd rfl h
    | cons p l ih =>
      intro _ h
      have h2 : ∑ i, e.limTerm p i < (nd : ℝ) * t := by
        calc ∑ i, e.limTerm p i < ∑ _i : Fin nd, t := Finset.sum_lt_sum_of_nonempty Finset.univ_nonempty fun i _ => h p (by simp) i
          _ = nd * t := by simp
      simp only [List.map_cons, List.sum_cons, List.length_cons, Nat.cast_succ]
      by_cases hl : l = []
      · subst hl; simp; linarith
      · have := ih hl fun q hq => h q (List.mem_cons_of_mem _ hq)
        nlinarith
  have h4 : (e.lr.map fun p => ∑ i, e.limTerm p i).sum / ((nd : ℝ) * e.lr.length) < t := by
    rw [div_lt_iff₀ hT]; exact hsum e.lr hl ht
  simp only [GElem.limiter] at h
  split_ifs at h
  obtain rfl := Option.some.inj h
  linarith

/-- **C228** (partial: a linear field) The gradients are taken over the whole edge but weighted as if over half of it.  For a
velocity that is linear, with exact nodal gradients - where there is no error to indicate - the indicator exceeds 1/4. -/
theorem c228_linear_partial (e : GElem nn nd) (hd : 0 < nd) (hl : e.lr ≠ []) (A : Fin nd → Fin nd → ℝ) (b : Fin nd → ℝ)
    (hu : ∀ n i, e.u n i = b i + ∑ j, A i j * e.x n j) (hG : ∀ n i j, e.G n i j = A i j) (r : ℝ) (h : e.limiter = some r) : 1 / 4 + 1e-8 < r := by
  have key : ∀ d : ℝ, vanLeer (2 * 2 * d - d) d small < 3 / 4 ∧ 0 ≤ vanLeer (2 * 2 * d - d) d small := by
    intro d
    have hs : (0:ℝ) < small := by norm_num [small]
    refine ⟨?_, (vanLeer_mem _ _ _ hs.le).1⟩
    rw [vanLeer, show (2 * 2 * d - d) * d = 3 * d ^ 2 by ring, abs_of_nonneg (by positivity), div_lt_iff₀ (by nlinarith [mul_self_nonneg (2 * 2 * d - d + d)])]
    nlinarith
  have := limiter_const e hd hl r h (t := 3 / 4) fun p _ i => by
    have hdu : ∀ n, e.du p n i = e.u p.2 i - e.u p.1 i := by
      intro n
      rw [GElem.du, hu, hu]
      simp only [hG]
      rw [add_sub_add_left_eq_sub, ← Finset.sum_sub_distrib]
      exact Finset.sum_congr rfl fun j _ => by ring
    simp only [GElem.limTerm, hdu]
    obtain ⟨h1, h2⟩ := key (e.u p.2 i - e.u p.1 i)
    generalize vanLeer (2 * 2 * (e.u p.2 i - e.u p.1 i) - (e.u p.2 i - e.u p.1 i)) (e.u p.2 i - e.u p.1 i) small = a at h1 h2
    rw [Real.sqrt_lt' (by norm_num)]
    have : a * a < 3 / 4 * (3 / 4) := mul_lt_mul'' h1 h1 h2 h2
    norm_num at this ⊢
    linarith
  linarith

/-- **C228** (partial: a uniform velocity) For a uniform velocity with zero gradients the indicator takes its largest value. -/
theorem c228_uniform_partial (e : GElem nn nd) (hu : ∀ n m i, e.u n i = e.u m i) (hG : ∀ n i j, e.G n i j = 0) :
    e.limiter = some (1 + 1e-8) := by
  have h0 : ∀ p i, e.limTerm p i = 0 := by
    intro p i
    simp [GElem.limTerm, GElem.du, hG, hu p.2 p.1 i, vanLeer]
  simp only [GElem.limiter, h0]
  have : ((e.lr.map fun _ => ∑ _i : Fin nd, (0:ℝ)).sum) = 0 := by simp
  rw [this, zero_div, sub_zero, if_neg (by norm_num)]

/-- Non-vacuity: a one-dimensional element with one edge. -/
example : ∃ e : GElem 2 1, e.lr ≠ [] ∧ ∀ n i, e.u n i = 1 + ∑ j, (fun _ _ => (2:ℝ)) i j * e.x n j :=
  ⟨⟨fun n _ => n, fun n _ => 1 + 2 * n, fun _ _ _ => 2, [(0, 1)]⟩, by simp, by simp⟩

/-! ## C229: the simple indicators -/

private theorem sum_map_sq (l : List ℕ) (f g : ℕ → ℝ) (c : ℝ) (h : ∀ i, f i = c * g i ^ 2) : (l.map f).sum = c * (l.map fun i => g i ^ 2).sum := by
  induction l with
  | nil => simp
  | cons a l ih => simp only [List.map_cons, List.sum_cons, ih, h]; ring

/-- **C229** `simple.dudx2`: for a scalar the indicator is the root mean square, over the integration points, of the difference the
averaged gradients predict over the edge; for the velocity it is the square root of twice the root mean square over points and
components. -/
theorem c229_dudx2 (e : Flat) : e.scalar .dudx2 = rms e.lr 1 (e.predicted 1) ∧
    e.vec .dudx2 = Real.sqrt (2 * rms e.lr e.nDim (e.predicted e.nDim)) := by
  constructor
  · rw [Flat.scalar, rms]
    congr 2
    · congr 1
      apply List.map_congr_left
      intro p _
      have : e.sdu2 p = e.predicted 1 p 0 := by
        simp only [Flat.sdu2, Flat.predicted, mul_one, add_zero]
        congr 1
        apply List.map_congr_left
        intro j _
        ring
      simp [Flat.scalarTerm, this, sq]
    · simp
  · simp only [Flat.vec]
    congr 1
    have hdu : ∀ p i, e.du2 p i = 2 * e.predicted e.nDim p i := by
      intro p i
      simp only [Flat.du2, Flat.predicted]
      rw [← List.sum_map_mul_left]
      congr 1
      apply List.map_congr_left
      intro j _
      have : ∀ n, n * e.nDim * e.nDim + i * e.nDim + j = (n * e.nDim + i) * e.nDim + j := fun n => by ring
      rw [this, this]
      ring
    have hs : (e.lr.map (e.vecTerm .dudx2)).sum = 4 * (e.lr.map fun p => ((List.range e.nDim).map fun i => e.predicted e.nDim p i ^ 2).sum).sum := by
      rw [← List.sum_map_mul_left]
      congr 1
      apply List.map_congr_left
      intro p _
      simp only [Flat.vecTerm, hdu]
      exact sum_map_sq _ _ _ 4 fun i => by ring
    rw [hs, rms, mul_div_assoc, Real.sqrt_mul (by norm_num), show (4:ℝ) = 2 ^ 2 by norm_num, Real.sqrt_sq (by norm_num)]

/-- **C229** In three dimensions the vorticity of the left node of an edge is read from that node's gradient, and its magnitude is
that of the curl. -/
theorem c229_vorticity_3d (du : ℕ → ℝ) (n : ℕ) (D : ℕ → ℕ → ℝ) (hD : ∀ i j, D i j = du (n * 9 + i * 3 + j)) :
    vort 3 (n * 3 * 3) 3 du = Real.sqrt ((D 2 1 - D 1 2) ^ 2 + (D 0 2 - D 2 0) ^ 2 + (D 1 0 - D 0 1) ^ 2) ∧
    ∀ k ∈ vortReads 3 (n * 3 * 3) 3, n * 9 ≤ k ∧ k < n * 9 + 9 := by
  constructor
  · simp only [vort, hD, if_true]
    congr 1
    have : n * 3 * 3 = n * 9 := by ring
    rw [this]; ring
  · intro k hk
    simp [vortReads] at hk
    omega

/-- **C229** (partial: two dimensions) In two dimensions the vorticity of a node is computed from entries that belong to the next
node, past the end of the array for the last one, and the component it has, `dv/dx - du/dy`, is left out: changing `du/dy` of the
node changes nothing. -/
theorem c229_vorticity_2d_partial (n : ℕ) : (∃ k ∈ vortReads 2 (n * 2 * 2) 2, n * 4 + 4 ≤ k) ∧
    ∀ du du' : ℕ → ℝ, (∀ k, k ≠ n * 4 + 1 → du k = du' k) → vort 2 (n * 2 * 2) 2 du = vort 2 (n * 2 * 2) 2 du' := by
  refine ⟨⟨n * 2 * 2 + 2 * 2 + 1, by simp [vortReads], by omega⟩, fun du du' h => ?_⟩
  simp only [vort, show ¬ ((2:ℕ) = 3) by decide, if_false]
  rw [h (n * 2 * 2 + 2 * 2 + 1) (by omega), h (n * 2 * 2 + 1 * 2 + 2) (by omega),
    h (n * 2 * 2 + 0 * 2 + 2) (by omega)]

/-- **C229** (partial: vorticity of a scalar) With one unknown the differences cancel entry by entry: the indicator of the
vorticity options is zero for every temperature field. -/
theorem c229_scalar_vorticity_partial (e : Flat) (opt : Simple) (h : opt ≠ .dudx2) : e.scalar opt = 0 := by
  have hv : ∀ row, vort e.nDim row 1 e.du = 0 := by
    intro row
    simp [vort, add_comm, add_left_comm]
  have h0 : ∀ p, e.scalarTerm opt p = 0 := by
    intro p
    cases opt with
    | vorticity => simp [Flat.scalarTerm, hv]
    | vorticityDx => simp [Flat.scalarTerm, hv]
    | dudx2 => exact absurd rfl h
  simp [Flat.scalar, funext h0]

/-- **C229** (partial: the length factor) `simple.vorticity_dx` weights the vorticity of the velocity with the length of the edge,
but the square root is taken in every pass of the loop over directions: an edge of length `a` along z has weight `a`, the same edge
turned to lie along x has weight `a^(1/4)`. -/
theorem c229_length_partial (a : ℝ) (ha : 0 ≤ a) : dlenVec [0, 0, a] = a ∧ dlenVec [a, 0, 0] ^ 4 = a := by
  constructor
  · simp [dlenVec, ← sq, Real.sqrt_sq ha]
  · simp only [dlenVec, List.foldl_cons, List.foldl_nil, mul_zero, add_zero, zero_add]
    rw [← sq, Real.sqrt_sq ha, show (4:ℕ) = 2 * 2 by norm_num, pow_mul, Real.sq_sqrt (Real.sqrt_nonneg _), Real.sq_sqrt ha]

/-! ## C230: the pressure-stabilization indicator -/

/-- **C230** Where shape functions and gradient operator reproduce linear fields, the element indicator vanishes for a pressure that
is linear with exact nodal gradients; in general its square bounds the squares of the stabilization mass fluxes through the
sub-control surfaces from above, up to the number of directions. -/
theorem c230_elem (ips : List (PIp nn nd)) (dt g1 : ℝ) (p : Fin nn → ℝ) (G : Fin nn → Fin nd → ℝ) :
    (∀ (x : Fin nn → Fin nd → ℝ) (b : ℝ) (a : Fin nd → ℝ), (∀ ip ∈ ips, (∑ ic, ip.r ic = 1) ∧ (∀ j, ∑ ic, ip.dndx ic j = 0) ∧
        ∀ j k, ∑ ic, ip.dndx ic j * x ic k = if j = k then 1 else 0) →
      (∀ ic, p ic = b + ∑ k, a k * x ic k) → (∀ ic j, G ic j = a j) → pstabElem ips dt g1 1 p G = 0) ∧
    (ips.map fun ip => (∑ j, ip.ei (dt / g1) 1 p G j) ^ 2).sum ≤ nd * pstabElem ips dt g1 1 p G ^ 2 := by
  constructor
  · intro x b a hip hp hG
    rw [pstabElem]
    have : ∀ ip ∈ ips, ∑ j, ip.ei (dt / g1) 1 p G j * ip.ei (dt / g1) 1 p G j = 0 := by
      intro ip hi
      obtain ⟨h1, h2, h3⟩ := hip ip hi
      refine Finset.sum_eq_zero fun j _ => ?_
      have e1 : ∑ ic, ip.dndx ic j * p ic = a j := by
        simp only [hp, mul_add, Finset.sum_add_distrib, ← Finset.sum_mul, h2, zero_mul, zero_add, Finset.mul_sum]
        rw [Finset.sum_comm]
        have : ∀ k, ∑ ic, ip.dndx ic j * (a k * x ic k) = a k * if j = k then 1 else 0 := by
          intro k
          rw [← h3 j k, Finset.mul_sum]
          exact Finset.sum_congr rfl fun ic _ => by ring
        simp [this]
      have e2 : ∑ ic, ip.r ic * G ic j = a j := by simp only [hG, ← Finset.sum_mul, h1, one_mul]
      simp [PIp.ei, e1, e2]
    rw [List.map_congr_left this]
    simp
  · have hnn : 0 ≤ (ips.map fun ip => ∑ j, ip.ei (dt / g1) 1 p G j * ip.ei (dt / g1) 1 p G j).sum :=
      List.sum_nonneg fun a ha => by
        obtain ⟨ip, -, rfl⟩ := List.mem_map.1 ha
        exact Finset.sum_nonneg fun j _ => mul_self_nonneg _
    rw [pstabElem, Real.sq_sqrt hnn, ← List.sum_map_mul_left]
    apply List.sum_le_sum
    intro ip _
    have := sq_sum_le_card_mul_sum_sq (s := (Finset.univ : Finset (Fin nd))) (f := fun j => ip.ei (dt / g1) 1 p G j)
    simpa [sq] using this

private theorem edge_ei (e : EEdge nd) (tau scale noc : ℝ) (h : ∑ j, e.area j * (e.xR j - e.xL j) ≠ 0) :
    e.ei tau scale noc = -tau * ((∑ j, e.area j * e.area j) / ∑ j, e.area j * (e.xR j - e.xL j)) *
      ((e.pR - e.pL) - scale * noc * ∑ j, (e.GL j + e.GR j) / 2 * (e.xR j - e.xL j)) := by
  simp only [EEdge.ei]
  set asq := ∑ j, e.area j * e.area j
  set ad := ∑ j, e.area j * (e.xR j - e.xL j)
  have : ∑ j, tau * ((0.5 * (e.GR j + e.GL j) * scale) * e.area j -
      (e.area j - asq * (1 / ad) * (e.xR j - e.xL j)) * (0.5 * (e.GR j + e.GL j) * scale)) * noc =
      tau * asq * (1 / ad) * (scale * noc * ∑ j, (e.GL j + e.GR j) / 2 * (e.xR j - e.xL j)) := by
    simp only [Finset.mul_sum]
    exact Finset.sum_congr rfl fun j _ => by ring
  rw [this]
  ring

/-- **C230** With the non-orthogonal correction of the pressure switched on, the edge indicator vanishes for a linear pressure with
exact nodal gradients. -/
theorem c230_edge (edges : List (EEdge nd)) (dt g1 b : ℝ) (a : Fin nd → ℝ) (hax : ∀ e ∈ edges, ∑ j, e.area j * (e.xR j - e.xL j) ≠ 0)
    (hp : ∀ e ∈ edges, e.pL = b + ∑ j, a j * e.xL j ∧ e.pR = b + ∑ j, a j * e.xR j) (hG : ∀ e ∈ edges, ∀ j, e.GL j = a j ∧ e.GR j = a j) :
    pstabEdge edges dt g1 1 1 = 0 := by
  simp only [pstabEdge]
  rw [List.map_congr_left (g := fun _ => (0:ℝ))]
  · simp
  intro e he
  rw [edge_ei e _ _ _ (hax e he)]
  have : (e.pR - e.pL) - 1 * 1 * ∑ j, (e.GL j + e.GR j) / 2 * (e.xR j - e.xL j) = 0 := by
    obtain ⟨h1, h2⟩ := hp e he
    rw [h1, h2]
    have : ∀ j, (e.GL j + e.GR j) / 2 * (e.xR j - e.xL j) = a j * e.xR j - a j * e.xL j := by
      intro j
      obtain ⟨h3, h4⟩ := hG e he j
      rw [h3, h4]; ring
    simp only [this, Finset.sum_sub_distrib]
    ring
  rw [this]; ring

/-- **C230** (partial: without the correction) With the correction switched off the factor removes the nodal gradients altogether:
for any pressure, also a linear one, the edge indicator is the norm of the pressure differences themselves. -/
theorem c230_edge_noc_partial (edges : List (EEdge nd)) (dt g1 : ℝ) (hax : ∀ e ∈ edges, ∑ j, e.area j * (e.xR j - e.xL j) ≠ 0) :
    pstabEdge edges dt g1 1 0 = Real.sqrt (edges.map fun e =>
      (dt / g1 * ((∑ j, e.area j * e.area j) / ∑ j, e.area j * (e.xR j - e.xL j)) * (e.pR - e.pL)) ^ 2).sum := by
  simp only [pstabEdge]
  rw [if_pos (by norm_num)]
  congr 2
  apply List.map_congr_left
  intro e he
  rw [edge_ei e _ _ _ (hax e he)]
  ring

/-- **C230** (partial: heat conduction) For heat conduction the edge indicator does not depend on the time step, the element indicator
is proportional to it. -/
theorem c230_heat_partial (edges : List (EEdge nd)) (ips : List (PIp nn nd)) (dt k g1 noc : ℝ) (hk : 0 ≤ k) (T : Fin nn → ℝ)
    (G : Fin nn → Fin nd → ℝ) :
    pstabEdge edges (k * dt) g1 0 noc = pstabEdge edges dt g1 0 noc ∧
    pstabElem ips (k * dt) g1 0 T G = k * pstabElem ips dt g1 0 T G := by
  constructor
  · simp [pstabEdge]
  · rw [pstabElem, pstabElem, ← Real.sqrt_sq hk, ← Real.sqrt_mul (sq_nonneg k), ← List.sum_map_mul_left, Real.sqrt_sq hk]
    congr 2
    apply List.map_congr_left
    intro ip _
    rw [Finset.mul_sum]
    refine Finset.sum_congr rfl fun j _ => ?_
    simp only [PIp.ei]
    ring

/-! ## C231: choosing an indicator -/

/-- **C231** Each of the five names selects its indicator in the low Mach equations. -/
theorem c231_low_mach (edges : Bool) :
    lowMachAlg (typeBits "pstab") edges = (if edges then .pstabEdge else .pstabElem) ∧
    lowMachAlg (typeBits "limiter") edges = .limiter ∧
    (lowMachAlg (typeBits "simple.vorticity") edges = .simpleVec ∧ simpleOpt (typeBits "simple.vorticity") = some .vorticity) ∧
    (lowMachAlg (typeBits "simple.vorticity_dx") edges = .simpleVec ∧ simpleOpt (typeBits "simple.vorticity_dx") = some .vorticityDx) ∧
    (lowMachAlg (typeBits "simple.dudx2") edges = .simpleVec ∧ simpleOpt (typeBits "simple.dudx2") = some .dudx2) := by
  cases edges <;> decide +kernel

/-- **C231** (partial: other names) Any other name registers a null pointer, called when the indicator is due; heat conduction stops
instead. -/
theorem c231_unknown_partial (type : String) (edges : Bool)
    (h : type ∉ ["pstab", "limiter", "simple.vorticity_dx", "simple.vorticity", "simple.dudx2"]) :
    lowMachAlg (typeBits type) edges = .null ∧ heatCondAlg (typeBits type) edges = none := by
  have h0 : typeBits type = 0 := by
    simp only [List.mem_cons, List.not_mem_nil, or_false, not_or] at h
    obtain ⟨h1, h2, h3, h4, h5⟩ := h
    simp only [typeBits, h1, h2, h3, h4, h5, if_false]
  rw [h0]
  simp [lowMachAlg, heatCondAlg]

/-- **C231** Heat conduction stops for the limiter and takes the other names. -/
theorem c231_heat (edges : Bool) : heatCondAlg (typeBits "limiter") edges = none ∧
    heatCondAlg (typeBits "pstab") edges = some (if edges then .pstabEdge else .pstabElem) ∧
    heatCondAlg (typeBits "simple.dudx2") edges = some .simpleScalar := by
  cases edges <;> decide +kernel

/-- **C231** (partial: heat conduction and vorticity) The test for `simple.dudx2` is a bit-and with a value that shares a bit with the
vorticity options: instead of stopping, heat conduction accepts them - and produces a zero indicator (C229). -/
theorem c231_heat_vorticity_partial (edges : Bool) (e : Flat) : ∀ t ∈ ["simple.vorticity", "simple.vorticity_dx"],
    heatCondAlg (typeBits t) edges = some .simpleScalar ∧ ∃ o, simpleOpt (typeBits t) = some o ∧ e.scalar o = 0 := by
  intro t ht
  simp only [List.mem_cons, List.not_mem_nil, or_false] at ht
  rcases ht with rfl | rfl
  · exact ⟨by cases edges <;> decide +kernel, .vorticity, by decide +kernel, c229_scalar_vorticity_partial e _ (by decide)⟩
  · exact ⟨by cases edges <;> decide +kernel, .vorticityDx, by decide +kernel, c229_scalar_vorticity_partial e _ (by decide)⟩

/-! ## C232: the largest edge length at a node -/

/-- Length of the edge between two nodes. -/
noncomputable def edgeLen {N : Type*} (x : N → Fin nd → ℝ) (p : N × N) : ℝ := Real.sqrt (∑ j, (x p.2 j - x p.1 j) ^ 2)

private theorem lenProc_spec {N : Type*} [DecidableEq N] (x : N → Fin nd → ℝ) (edges : List (N × N)) (n : N) :
    lenProc x edges n = ((edges.filter fun p => decide (p.1 = n) || decide (p.2 = n)).map (edgeLen x)).foldl max (-1e16) := by
  rw [lenProc]
  have : ∀ f : N → ℝ, edges.foldl (lenStep x) f n =
      ((edges.filter fun p => decide (p.1 = n) || decide (p.2 = n)).map (edgeLen x)).foldl max (f n) := by
    induction edges with
    | nil => intro f; rfl
    | cons p edges ih =>
      intro f
      rw [List.foldl_cons, ih]
      have hl : Real.sqrt (∑ j, (x p.2 j - x p.1 j) * (x p.2 j - x p.1 j)) = edgeLen x p := by
        rw [edgeLen]; congr 1; exact Finset.sum_congr rfl fun j _ => by ring
      by_cases h : decide (p.1 = n) || decide (p.2 = n)
      · rw [List.filter_cons, if_pos h, List.map_cons, List.foldl_cons]
        congr 1
        simp only [lenStep, hl]
        by_cases h2 : n = p.2
        · subst h2
          by_cases h1 : p.2 = p.1
          · simp [h1]
          · simp [h1]
        · by_cases h1 : n = p.1
          · subst h1; simp [h2]
          · simp [Ne.symm h1, Ne.symm h2] at h
      · rw [List.filter_cons, if_neg h]
        simp only [Bool.not_eq_true, Bool.or_eq_false_iff, decide_eq_false_iff_not] at h
        simp [lenStep, Ne.symm h.1, Ne.symm h.2]
  exact this _

/-- **C232** After the reduction over the processes, every node that belongs to an edge of some element holds the length of the
longest such edge, whichever process owns the element; hence the value does not depend on the partition. -/
theorem c232_longest {N : Type*} [DecidableEq N] (x : N → Fin nd → ℝ) (p0 : List (N × N)) (others : List (List (N × N))) (n : N)
    (p : N × N) (hp : p ∈ p0 ∨ ∃ l ∈ others, p ∈ l) (hn : p.1 = n ∨ p.2 = n) :
    edgeLen x p ≤ lenAll x p0 others n ∧
    ∃ q, (q ∈ p0 ∨ ∃ l ∈ others, q ∈ l) ∧ (q.1 = n ∨ q.2 = n) ∧ lenAll x p0 others n = edgeLen x q := by
  have hfold : ∀ s : ℝ, others.foldl (fun s e => max s (lenProc x e n)) s = (others.map fun e => lenProc x e n).foldl max s := by
    intro s; rw [List.foldl_map]
  have hproc : ∀ e : List (N × N), (lenProc x e n = -1e16 ∨ ∃ q ∈ e, (q.1 = n ∨ q.2 = n) ∧ lenProc x e n = edgeLen x q) ∧
      ∀ q ∈ e, (q.1 = n ∨ q.2 = n) → edgeLen x q ≤ lenProc x e n := by
    intro e
    rw [lenProc_spec]
    obtain ⟨h1, -, h3⟩ := foldl_max_spec ((e.filter fun p => decide (p.1 = n) || decide (p.2 = n)).map (edgeLen x)) (-1e16)
    constructor
    · rcases h1 with h1 | h1
      · left; exact h1
      · right
        obtain ⟨q, hq, hq'⟩ := List.mem_map.1 h1
        obtain ⟨hq1, hq2⟩ := List.mem_filter.1 hq
        exact ⟨q, hq1, by simpa using hq2, hq'.symm⟩
    · intro q hq hqn
      exact h3 _ (List.mem_map_of_mem (List.mem_filter.2 ⟨hq, by simpa using hqn⟩))
  obtain ⟨h1, h2, h3⟩ := foldl_max_spec (others.map fun e => lenProc x e n) (lenProc x p0 n)
  have hle : edgeLen x p ≤ lenAll x p0 others n := by
    rw [lenAll, hfold]
    rcases hp with hp | ⟨l, hl, hp⟩
    · exact le_trans ((hproc p0).2 p hp hn) h2
    · exact le_trans ((hproc l).2 p hp hn) (h3 _ (List.mem_map_of_mem (f := fun e => lenProc x e n) hl))
  refine ⟨hle, ?_⟩
  have hpos : lenAll x p0 others n ≠ -1e16 := by
    have : 0 ≤ edgeLen x p := Real.sqrt_nonneg _
    intro h
    rw [h] at hle
    linarith [show (-1e16 : ℝ) < 0 by norm_num]
  rw [lenAll, hfold] at hpos ⊢
  rcases h1 with h1 | h1
  · rw [h1] at hpos ⊢
    rcases (hproc p0).1 with h | ⟨q, hq, hqn, hq'⟩
    · exact absurd h hpos
    · exact ⟨q, Or.inl hq, hqn, hq'⟩
  · obtain ⟨l, hl, hl'⟩ := List.mem_map.1 h1
    rw [← hl'] at hpos ⊢
    rcases (hproc l).1 with h | ⟨q, hq, hqn, hq'⟩
    · exact absurd h hpos
    · exact ⟨q, Or.inr ⟨l, hl, hq⟩, hqn, hq'⟩

/-- Non-vacuity: node 1 of two edges on two processes. -/
example : ((0, 1) : ℕ × ℕ) ∈ [((0, 1) : ℕ × ℕ)] ∨ ∃ l ∈ [[((1, 2) : ℕ × ℕ)]], ((0, 1) : ℕ × ℕ) ∈ l := by simp

end Nalu.Diag
