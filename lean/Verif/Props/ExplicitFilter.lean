import Verif.Proofs.ExplicitFilter
import Verif.Proofs.ElemKernel
import Verif.Props.Nso

/-!
# C187–C189: explicit filtering
-/

namespace Nalu.ExpFilter
open Nalu.ExpFilter.Spec Nalu.Edge Nalu.Kernel
open scoped Classical

variable {N E : Type*} {nd : ℕ}

/-! ## C187: the filtered field -/

/-- C187: the filter never fails, never divides by zero, and returns the volume weighted mean of the element means over the elements whose
bounding boxes touch the box of the node (or of one of its periodic images). -/
theorem c187_box_mean {fs : Fin nd → ℝ} {m : Mesh N E nd} (h : Usable fs m) (q : N → ℝ) :
    ∃ v, filtered fs m q = some v ∧ ∀ n ∈ m.nodes, 0 < ((support fs m n).map (vol m)).sum ∧ v n = boxMean fs m q n := by
  obtain ⟨v, hv, hv'⟩ := filtered_eq h q
  exact ⟨v, hv, fun n hn => ⟨support_ne h hn, hv' n hn⟩⟩

theorem mean_bounds {fs : Fin nd → ℝ} {m : Mesh N E nd} (h : Usable fs m) {q : N → ℝ} {e : E} (he : e ∈ m.elems) {lo hi : ℝ}
    (hq : ∀ a ∈ m.conn e, lo ≤ q a ∧ q a ≤ hi) : lo ≤ mean m q e ∧ mean m q e ≤ hi := by
  unfold mean
  have hl : (0 : ℝ) < (m.conn e).length := by
    exact_mod_cast List.length_pos_of_ne_nil (h.hasNodes e he)
  rw [le_div_iff₀ hl, div_le_iff₀ hl]
  generalize m.conn e = l at hq
  clear hl he
  induction l with
  | nil => simp
  | cons a l ih =>
    obtain ⟨t1, t2⟩ := ih fun b hb => hq b (List.mem_cons_of_mem _ hb)
    have ha := hq a (List.mem_cons_self ..)
    simp only [List.map_cons, List.sum_cons, List.length_cons, Nat.cast_add, Nat.cast_one]
    constructor <;> nlinarith

/-- C187: no new extrema: the filtered value lies between any bounds of the nodal values of the elements collected. -/
theorem c187_bounds {fs : Fin nd → ℝ} {m : Mesh N E nd} (h : Usable fs m) {q v : N → ℝ} (hv : filtered fs m q = some v) {lo hi : ℝ}
    {n : N} (hn : n ∈ m.nodes)
    (hq : ∀ e ∈ m.elems, (∃ k ∈ m.images n, Touches fs m k e) → ∀ a ∈ m.conn e, lo ≤ q a ∧ q a ≤ hi) : lo ≤ v n ∧ v n ≤ hi := by
  obtain ⟨w, hw, hw'⟩ := c187_box_mean h q
  obtain rfl : v = w := Option.some.inj (hv.symm.trans hw)
  obtain ⟨hpos, hval⟩ := hw' n hn
  rw [hval, boxMean, le_div_iff₀ hpos, div_le_iff₀ hpos]
  have hm : ∀ e ∈ support fs m n, 0 < vol m e ∧ lo ≤ mean m q e ∧ mean m q e ≤ hi := by
    intro e he
    obtain ⟨h1, h2⟩ := support_elem he
    exact ⟨h.volPos e h1, mean_bounds h h1 (hq e h1 h2)⟩
  clear hpos hval
  generalize support fs m n = l at hm
  induction l with
  | nil => simp
  | cons a l ih =>
    obtain ⟨t1, t2⟩ := ih fun b hb => hm b (List.mem_cons_of_mem _ hb)
    obtain ⟨h1, h2, h3⟩ := hm a (List.mem_cons_self ..)
    simp only [List.map_cons, List.sum_cons]
    constructor <;> nlinarith

/-- C187: a uniform field is unchanged by the filter. -/
theorem c187_constant {fs : Fin nd → ℝ} {m : Mesh N E nd} (h : Usable fs m) {q v : N → ℝ} (hv : filtered fs m q = some v) (c : ℝ)
    (hq : ∀ e ∈ m.elems, ∀ a ∈ m.conn e, q a = c) {n : N} (hn : n ∈ m.nodes) : v n = c := by
  have := c187_bounds h hv (lo := c) (hi := c) hn (fun e he _ a ha => by rw [hq e he a ha]; exact ⟨le_rfl, le_rfl⟩)
  exact le_antisymm this.2 this.1

theorem mean_lin (m : Mesh N E nd) (a b : ℝ) (p q : N → ℝ) (e : E) :
    mean m (fun n => a * p n + b * q n) e = a * mean m p e + b * mean m q e := by
  unfold mean
  have : ((m.conn e).map fun n => a * p n + b * q n).sum = a * ((m.conn e).map p).sum + b * ((m.conn e).map q).sum := by
    generalize m.conn e = l
    induction l with
    | nil => simp
    | cons k l ih => simp only [List.map_cons, List.sum_cons, ih]; ring
  rw [this]; ring

/-- C187: filtering is linear. -/
theorem c187_linear {fs : Fin nd → ℝ} {m : Mesh N E nd} (h : Usable fs m) {a b : ℝ} {p q vp vq v : N → ℝ}
    (hp : filtered fs m p = some vp) (hq : filtered fs m q = some vq) (hv : filtered fs m (fun n => a * p n + b * q n) = some v)
    {n : N} (hn : n ∈ m.nodes) : v n = a * vp n + b * vq n := by
  obtain ⟨w, hw, hw'⟩ := c187_box_mean h (fun n => a * p n + b * q n)
  obtain rfl : v = w := Option.some.inj (hv.symm.trans hw)
  obtain ⟨w, hw, hwp⟩ := c187_box_mean h p
  obtain rfl : vp = w := Option.some.inj (hp.symm.trans hw)
  obtain ⟨w, hw, hwq⟩ := c187_box_mean h q
  obtain rfl : vq = w := Option.some.inj (hq.symm.trans hw)
  rw [(hw' n hn).2, (hwp n hn).2, (hwq n hn).2]
  unfold boxMean
  rw [← mul_div_assoc, ← mul_div_assoc, ← add_div]
  congr 1
  generalize support fs m n = l
  induction l with
  | nil => simp
  | cons e l ih => rw [List.map_cons, List.sum_cons, ih, mean_lin]; simp only [List.map_cons, List.sum_cons]; ring

/-! ## C188: the neighbourhood and the distribution over ranks -/

/-- C188: what is collected on the owner of a node is exactly the elements that touch its box, each once, whatever rank owns them; the search
throws on no rank. -/
theorem c188_neighbourhood {fs : Fin nd → ℝ} {m : Mesh N E nd} (h : Usable fs m) (r : ℕ) :
    ∃ f, buildMap fs m r = some f ∧ ∀ n ∈ m.nodes, m.ownerN n = r →
      ∀ e, (f n).count e = if Touches fs m n e then m.elems.count e else 0 := by
  obtain ⟨f, hf, hf'⟩ := buildMap_eq h r
  refine ⟨f, hf, fun n hn hr e => ?_⟩
  rw [hf' n hn hr]
  split_ifs with ht
  · exact List.count_filter (by simpa using ht)
  · rw [List.count_eq_zero, List.mem_filter]
    intro H; exact ht (by simpa using H.2)

/-- C188: a rank sends exactly those of its elements that touch the box of a node of another rank. -/
theorem c188_ghosting {fs : Fin nd → ℝ} {m : Mesh N E nd} (h : Usable fs m) (r s : ℕ) (e : E) :
    (e, s) ∈ elemsToGhost fs m r ↔ e ∈ m.elems ∧ m.ownerE e = r ∧ s ≠ r ∧ ∃ n ∈ m.nodes, m.ownerN n = s ∧ Touches fs m n e := by
  unfold elemsToGhost
  rw [ghost_mem]
  simp only [List.not_mem_nil, false_or]
  constructor
  · rintro ⟨⟨n, e'⟩, hp, h1, h2, h3⟩
    unfold searchPairs at hp
    rw [List.mem_filter, List.mem_flatMap] at hp
    obtain ⟨⟨k, hk, hp⟩, hm⟩ := hp
    rw [List.mem_map] at hp
    obtain ⟨e'', he, hp⟩ := hp
    simp only [Prod.mk.injEq] at hp h3
    obtain ⟨rfl, rfl⟩ := hp
    obtain ⟨rfl, rfl⟩ := h3
    simp only [decide_eq_true_eq] at hm
    exact ⟨he, h1, h2, k, hk, rfl, (meets_iff fs m k e h.size (h.hasNodes e he) (h.range e he)).1 hm.1⟩
  · rintro ⟨he, h1, h2, n, hn, h3, ht⟩
    refine ⟨(n, e), ?_, h1, by rw [h3]; exact h2, by rw [h3]⟩
    unfold searchPairs
    rw [List.mem_filter, List.mem_flatMap]
    refine ⟨⟨n, hn, List.mem_map_of_mem he⟩, ?_⟩
    simp only [decide_eq_true_eq]
    exact ⟨(meets_iff fs m n e h.size (h.hasNodes e he) (h.range e he)).2 ht, Or.inr h1⟩

/-- The same mesh distributed differently. -/
def redistribute (m : Mesh N E nd) (ownN : N → ℕ) (ownE : E → ℕ) (p : ℕ) : Mesh N E nd :=
  { m with ownerN := ownN, ownerE := ownE, ranks := p }

/-- C188: the filtered field does not depend on the partition or on the number of ranks. -/
theorem c188_partition {fs : Fin nd → ℝ} {m : Mesh N E nd} (h : Usable fs m) {ownN : N → ℕ} {ownE : E → ℕ} {p : ℕ}
    (hN : ∀ n ∈ m.nodes, ownN n < p) (hE : ∀ e ∈ m.elems, ownE e < p) (q : N → ℝ) :
    ∃ v w, filtered fs m q = some v ∧ filtered fs (redistribute m ownN ownE p) q = some w ∧ ∀ n ∈ m.nodes, v n = w n := by
  have h' : Usable fs (redistribute m ownN ownE p) := ⟨h.nodup, hN, hE, h.size, h.range, h.hasNodes, h.volPos, h.hasElem, h.imgSelf, h.imgNode⟩
  obtain ⟨v, hv, hv'⟩ := c187_box_mean h q
  obtain ⟨w, hw, hw'⟩ := c187_box_mean h' q
  exact ⟨v, w, hv, hw, fun n hn => by rw [(hv' n hn).2, (hw' n hn).2]; rfl⟩

/-- C188: the elements of a node are always collected, and enlarging the filter only adds elements. -/
theorem c188_support_monotone {fs fs' : Fin nd → ℝ} {m : Mesh N E nd} (h : Usable fs m) (hle : ∀ j, fs j ≤ fs' j) {n : N} :
    (∀ e, n ∈ m.conn e → Touches fs m n e) ∧ ∀ e, Touches fs m n e → Touches fs' m n e := by
  refine ⟨fun e he => touches_self fs m n e h.size he, ?_⟩
  rintro e ⟨x, hx⟩
  exact ⟨x, fun j => ⟨(hx j).1.trans (by linarith [hle j]), (hx j).2⟩⟩

/-! ## C189: the residual -/

variable {nn nip : ℕ}

theorem elemResidual_eq (c : ResPar nd) (e : ResElem nn nip nd) (f : ResNodes nn nd) (a : Fin nn) (i : Fin nd) :
    elemResidual c e f a i = ∑ ip, if a = e.node ip then ptResidual c (e.shape ip) (e.dndx ip) f i * e.vol (e.node ip).val else 0 := by
  unfold elemResidual loop
  have : ∀ (l : List (Fin nip)) (r : Fin nn → Fin nd → ℝ), l.foldl (fun r ip => fun a i =>
      if a = e.node ip then r a i + ptResidual c (e.shape ip) (e.dndx ip) f i * e.vol (e.node ip).val else r a i) r a i =
      r a i + (l.map fun ip => if a = e.node ip then ptResidual c (e.shape ip) (e.dndx ip) f i * e.vol (e.node ip).val else 0).sum := by
    intro l
    induction l with
    | nil => simp
    | cons ip l ih =>
      intro r
      rw [List.foldl_cons, ih, List.map_cons, List.sum_cons]
      split_ifs <;> ring
  rw [this, zero_add, ← List.sum_ofFn, List.ofFn_eq_map]

theorem scatter_eq {M : Type*} (c : ResPar nd) (res : M → Fin nd → ℝ) (w : ResWork M nd) (g : M) (i : Fin nd) :
    scatter c res w g i = res g i - ∑ ni, if g = w.glob ni then elemResidual c w.elem w.f ni i else 0 := by
  unfold scatter loop
  have : ∀ (l : List (Fin w.nn)) (r : M → Fin nd → ℝ), l.foldl (fun r ni => fun g i =>
      if g = w.glob ni then r g i - elemResidual c w.elem w.f ni i else r g i) r g i =
      r g i - (l.map fun ni => if g = w.glob ni then elemResidual c w.elem w.f ni i else 0).sum := by
    intro l
    induction l with
    | nil => simp
    | cons ip l ih =>
      intro r
      rw [List.foldl_cons, ih, List.map_cons, List.sum_cons]
      split_ifs <;> ring
  rw [this, ← List.sum_ofFn, List.ofFn_eq_map]

theorem residual_eq {M : Type*} (c : ResPar nd) (ws : List (ResWork M nd)) (g : M) (i : Fin nd) :
    residual c ws g i = -(ws.map fun w => ∑ ni, if g = w.glob ni then elemResidual c w.elem w.f ni i else 0).sum := by
  unfold residual
  have : ∀ (l : List (ResWork M nd)) (r : M → Fin nd → ℝ), l.foldl (scatter c) r g i =
      r g i - (l.map fun w => ∑ ni, if g = w.glob ni then elemResidual c w.elem w.f ni i else 0).sum := by
    intro l
    induction l with
    | nil => simp
    | cons w l ih =>
      intro r
      rw [List.foldl_cons, ih, scatter_eq, List.map_cons, List.sum_cons]
      ring
  rw [this, zero_sub]

theorem ptResidual_eq (c : ResPar nd) (w : Fin nn → ℝ) (dn : Fin nn → Fin nd → ℝ) (f : ResNodes nn nd) (i : Fin nd) :
    ptResidual c w dn f i = balance c w dn f i := by
  have h1 : advIp dn f i = ∑ j, D dn j (fun n => f.rho1 n * f.u1 n i * f.u1 n j) := by
    unfold advIp D
    rw [Finset.sum_comm]
    exact Finset.sum_congr rfl fun j _ => Finset.sum_congr rfl fun n _ => by ring
  have h2 : divIp dn f.u1 = ∑ l, D dn l (fun n => f.u1 n l) := by
    unfold divIp D
    rw [Finset.sum_comm]
    exact Finset.sum_congr rfl fun j _ => Finset.sum_congr rfl fun n _ => by ring
  have h3 : diffIp c dn f i = ∑ j, D dn j (stress c dn f i j) := by
    unfold diffIp
    rw [Finset.sum_comm]
    refine Finset.sum_congr rfl fun j _ => ?_
    unfold D
    refine Finset.sum_congr rfl fun n _ => ?_
    unfold stress
    rw [h2]
    split_ifs <;> ring
  have h4 : ∑ ic, f.p ic * dn ic i = D dn i f.p := Finset.sum_congr rfl fun n _ => by ring
  have h5 : ∑ ic, ∑ j, f.rho1 ic * f.u1 ic j * dn ic j = ∑ j, D dn j (fun n => f.rho1 n * f.u1 n j) := by
    unfold D
    rw [Finset.sum_comm]
    exact Finset.sum_congr rfl fun j _ => Finset.sum_congr rfl fun n _ => by ring
  have h6 : ∀ q : Fin nn → ℝ, interp w q = at' w q := fun q => rfl
  unfold ptResidual contRes balance ddt
  simp only [h6]
  rw [h1, h3, h4, h5]
  ring

/-- C189 (partial: elements with one integration point per node): what is reported at a node is minus the integral of the momentum balance over
the sub-control volumes of that node. -/
theorem c189_residual_integral_partial {M : Type*} (c : ResPar nd) (ws : List (ResWork M nd)) (hp : ∀ w ∈ ws, PointPerNode w.elem)
    (g : M) (i : Fin nd) :
    residual c ws g i = -(ws.map fun w => ∑ ip, if w.glob (w.elem.node ip) = g then
      balance c (w.elem.shape ip) (w.elem.dndx ip) w.f i * w.elem.vol ip.val else 0).sum := by
  rw [residual_eq]
  congr 2
  refine List.map_congr_left fun w hw => ?_
  simp only [elemResidual_eq]
  have : ∀ ni, (if g = w.glob ni then ∑ ip, (if ni = w.elem.node ip then
      ptResidual c (w.elem.shape ip) (w.elem.dndx ip) w.f i * w.elem.vol (w.elem.node ip).val else 0) else 0) =
      ∑ ip, if ni = w.elem.node ip then (if g = w.glob ni then
        ptResidual c (w.elem.shape ip) (w.elem.dndx ip) w.f i * w.elem.vol (w.elem.node ip).val else 0) else 0 := by
    intro ni
    split_ifs with h
    · rfl
    · simp
  simp only [this]
  rw [Finset.sum_comm]
  refine Finset.sum_congr rfl fun ip _ => ?_
  rw [Finset.sum_ite_eq' Finset.univ (w.elem.node ip), if_pos (Finset.mem_univ _)]
  rw [ptResidual_eq, hp w hw ip]
  by_cases h : g = w.glob (w.elem.node ip)
  · rw [if_pos h, if_pos h.symm]
  · rw [if_neg h, if_neg (Ne.symm h)]

/-- Shape functions of an element that reproduce constants and, with node coordinates `x`, linear functions. -/
def Consistent (e : ResElem nn nip nd) (x : Fin nn → Fin nd → ℝ) : Prop :=
  ∀ ip, Unity (e.shape ip) ∧ GradConst (e.dndx ip) ∧ GradLinear (e.dndx ip) x

theorem at_const {w : Fin nn → ℝ} (h : Unity w) (c : ℝ) : at' w (fun _ => c) = c := by
  unfold at'; rw [← Finset.sum_mul, h, one_mul]

theorem D_const {dn : Fin nn → Fin nd → ℝ} (h : GradConst dn) (j : Fin nd) (c : ℝ) : D dn j (fun _ => c) = 0 := by
  unfold D; rw [← Finset.sum_mul, h j, zero_mul]

theorem D_affine {dn x : Fin nn → Fin nd → ℝ} (h : GradConst dn) (hl : GradLinear dn x) (j : Fin nd) (c : ℝ) (w : Fin nd → ℝ) :
    D dn j (fun n => affine c w (x n)) = w j := by
  unfold D affine
  simp only [mul_add, Finset.sum_add_distrib]
  rw [← Finset.sum_mul, h j, zero_mul, zero_add]
  simp only [Finset.mul_sum]
  rw [Finset.sum_comm]
  have : ∀ k, ∑ n, dn n j * (w k * x n k) = w k * if k = j then 1 else 0 := by
    intro k
    rw [← hl k j, Finset.mul_sum]
    exact Finset.sum_congr rfl fun n _ => by ring
  simp only [this]
  simp

theorem D_mul {dn : Fin nn → Fin nd → ℝ} (j : Fin nd) (c : ℝ) (q : Fin nn → ℝ) : D dn j (fun n => q n * c) = D dn j q * c := by
  unfold D; rw [Finset.sum_mul]; exact Finset.sum_congr rfl fun n _ => by ring

/-- A fluid that moves with the uniform steady velocity `U`, with any density history: the balance is that of the pressure and the weight. -/
theorem balance_uniform (c : ResPar nd) {w : Fin nn → ℝ} {dn : Fin nn → Fin nd → ℝ} (hu : Unity w) (hg : GradConst dn) (f : ResNodes nn nd)
    (U : Fin nd → ℝ) (h1 : ∀ n, f.u1 n = U) (h0 : ∀ n, f.u0 n = U) (hM : ∀ n, f.uM n = U) (hG : ∀ n i j, f.G n i j = 0) (i : Fin nd) :
    balance c w dn f i = D dn i f.p - (at' w f.rho1 - c.rhoRef) * c.grav i := by
  unfold balance
  simp only [h1, h0, hM, at_const hu]
  have hs : ∀ j, D dn j (stress c dn f i j) = 0 := by
    intro j
    unfold stress
    simp only [h1, hG, D_const hg, Finset.sum_const_zero, mul_zero, ite_self, add_zero, sub_zero]
  have ha : ∀ j, D dn j (fun n => f.rho1 n * U i * U j) = D dn j (fun n => f.rho1 n * U j) * U i := by
    intro j
    rw [← D_mul]
    congr 1
    funext n; ring
  simp only [hs, ha, Finset.sum_const_zero, sub_zero, ← Finset.sum_mul]
  unfold ddt
  ring

/-- C189: equilibrium is recognised on every element and mesh: a fluid at rest or in uniform motion, with any density history, under the
hydrostatic pressure of its present density, has residual zero at every node, normalised or not. -/
theorem c189_hydrostatic {M : Type*} (c : ResPar nd) (ws : List (ResWork M nd)) (U : Fin nd → ℝ) (rho p0 : ℝ)
    (hw : ∀ w ∈ ws, ∃ x, Consistent w.elem x ∧ (∀ n, w.f.u1 n = U ∧ w.f.u0 n = U ∧ w.f.uM n = U) ∧ (∀ n i j, w.f.G n i j = 0) ∧
      (∀ n, w.f.rho1 n = rho) ∧ ∀ n, w.f.p n = affine p0 (fun i => (rho - c.rhoRef) * c.grav i) (x n)) (dualVol : M → ℝ) (g : M) (i : Fin nd) :
    residual c ws g i = 0 ∧ normalized dualVol (residual c ws) g i = 0 := by
  have key : residual c ws g i = 0 := by
    rw [residual_eq, neg_eq_zero]
    apply List.sum_eq_zero
    intro v hv
    rw [List.mem_map] at hv
    obtain ⟨w, hwm, rfl⟩ := hv
    obtain ⟨x, hx, hu, hG, hr, hp⟩ := hw w hwm
    apply Finset.sum_eq_zero
    intro ni _
    split_ifs
    · rw [elemResidual_eq]
      apply Finset.sum_eq_zero
      intro ip _
      split_ifs
      · obtain ⟨k1, k2, k3⟩ := hx ip
        rw [ptResidual_eq, balance_uniform c k1 k2 w.f U (fun n => (hu n).1) (fun n => (hu n).2.1) (fun n => (hu n).2.2) hG]
        rw [funext hp, D_affine k2 k3, funext hr, at_const k1, sub_self, zero_mul]
      · rfl
    · rfl
  exact ⟨key, by unfold normalized; rw [key, zero_mul]⟩

/-- C189 (partial: elements with one integration point per node): normalised by the dual volume, a balance that is the same at every integration
point is returned exactly, with opposite sign. -/
theorem c189_normalized_uniform_partial {M : Type*} (c : ResPar nd) (ws : List (ResWork M nd)) (hp : ∀ w ∈ ws, PointPerNode w.elem)
    (i : Fin nd) (B : ℝ) (hB : ∀ w ∈ ws, ∀ ip, balance c (w.elem.shape ip) (w.elem.dndx ip) w.f i = B) (dualVol : M → ℝ) (g : M)
    (hd : dualVol g = (ws.map fun w => ∑ ip, if w.glob (w.elem.node ip) = g then w.elem.vol ip.val else 0).sum) (hne : dualVol g ≠ 0) :
    normalized dualVol (residual c ws) g i = -B := by
  unfold normalized
  rw [c189_residual_integral_partial c ws hp]
  have : (ws.map fun w => ∑ ip, if w.glob (w.elem.node ip) = g then
      balance c (w.elem.shape ip) (w.elem.dndx ip) w.f i * w.elem.vol ip.val else 0).sum = B * dualVol g := by
    rw [hd, ← List.sum_map_mul_left]
    congr 1
    refine List.map_congr_left fun w hw => ?_
    rw [Finset.mul_sum]
    refine Finset.sum_congr rfl fun ip _ => ?_
    rw [hB w hw ip, mul_ite, mul_zero]
  rw [this]
  field_simp

/-- One element with two nodes and four integration points (two for each node, as in the higher-order elements). -/
noncomputable def twoElem : ResElem 2 4 1 :=
  { shape := fun _ _ => 1 / 2, dndx := fun _ n _ => if n = 0 then -1 else 1, node := fun ip => if ip.val < 2 then 0 else 1,
    vol := fun k => k + 1 }

/-- At rest, unit pressure gradient. -/
def twoF : ResNodes 2 1 :=
  { rho1 := fun _ => 1, rho0 := fun _ => 1, rhoM := fun _ => 1, mu := fun _ => 0, p := fun n => n.val, u1 := fun _ _ => 0,
    u0 := fun _ _ => 0, uM := fun _ _ => 0, G := fun _ _ _ => 0 }

/-- C189 counterexample to the full statement: the volumes are read with the index of the node (`p_scvol[nn]`), so that an element whose four
sub-control volumes 1, 2, 3, 4 lie two by two around its nodes, in a unit pressure gradient, reports 2 and 4 instead of 3 and 7. -/
theorem c189_volume_index_counterexample (c : ResPar 1) (hr : c.rhoRef = 1) :
    (∀ ip, balance c (twoElem.shape ip) (twoElem.dndx ip) twoF 0 = 1) ∧
    residual c [⟨2, 4, twoElem, id, twoF⟩] 0 0 = -2 ∧ residual c [⟨2, 4, twoElem, id, twoF⟩] 1 0 = -4 ∧
    ∑ ip, (if twoElem.node ip = 0 then twoElem.vol ip.val else 0) = 3 ∧
    ∑ ip, (if twoElem.node ip = 1 then twoElem.vol ip.val else 0) = 7 := by
  have hb : ∀ ip, balance c (twoElem.shape ip) (twoElem.dndx ip) twoF 0 = 1 := by
    intro ip
    have hu : Unity (twoElem.shape ip) := by
      unfold Unity twoElem; simp
    have hg : GradConst (twoElem.dndx ip) := by
      intro j; unfold twoElem; simp
    rw [balance_uniform c hu hg twoF (fun _ => 0) (fun n => rfl) (fun n => rfl) (fun n => rfl) (fun n i j => rfl)]
    have : at' (twoElem.shape ip) twoF.rho1 = 1 := at_const hu 1
    rw [this, hr, sub_self, zero_mul, sub_zero]
    unfold D twoElem twoF; simp
  have hres : ∀ g : Fin 2, residual c [⟨2, 4, twoElem, id, twoF⟩] g 0 =
      -∑ ip, if g = twoElem.node ip then twoElem.vol (twoElem.node ip).val else 0 := by
    intro g
    rw [residual_eq, List.map_cons, List.map_nil, List.sum_cons, List.sum_nil, add_zero]
    congr 1
    simp only [id_eq]
    rw [Finset.sum_ite_eq Finset.univ g, if_pos (Finset.mem_univ _), elemResidual_eq]
    refine Finset.sum_congr rfl fun ip _ => ?_
    rw [ptResidual_eq, hb ip, one_mul]
  refine ⟨hb, ?_, ?_, ?_, ?_⟩
  · rw [hres]; simp [twoElem, Fin.sum_univ_succ]; norm_num
  · rw [hres]; simp [twoElem, Fin.sum_univ_succ]; norm_num
  · simp [twoElem, Fin.sum_univ_succ]; norm_num
  · simp [twoElem, Fin.sum_univ_succ]; norm_num

/-! ## The hypotheses are met -/

/-- A two-node element of length one meets the conditions of C189. -/
noncomputable def bar : ResElem 2 2 1 :=
  { shape := fun ip n => if ip.val = n.val then 3 / 4 else 1 / 4, dndx := fun _ n _ => if n = 0 then -1 else 1, node := id, vol := fun _ => 1 / 2 }

example : PointPerNode bar ∧ Consistent bar (fun n _ => n.val) := by
  refine ⟨fun ip => rfl, fun ip => ⟨?_, ?_, ?_⟩⟩
  · fin_cases ip <;> simp [Unity, bar] <;> norm_num
  · intro j; simp [bar]
  · intro i j; fin_cases i; fin_cases j; simp [bar]

/-- Changing density, uniform motion, hydrostatic pressure. -/
noncomputable def barF (c : ResPar 1) : ResNodes 2 1 :=
  { rho1 := fun _ => 2, rho0 := fun _ => 5, rhoM := fun _ => 0, mu := fun n => n.val, u1 := fun _ _ => 7, u0 := fun _ _ => 7, uM := fun _ _ => 7,
    p := fun n => affine 3 (fun i => (2 - c.rhoRef) * c.grav i) (fun _ => n.val), G := fun _ _ _ => 0 }

example (c : ResPar 1) : residual c [⟨2, 2, bar, id, barF c⟩] (0 : Fin 2) 0 = 0 := by
  refine (c189_hydrostatic c _ (fun _ => 7) 2 3 ?_ (fun _ => 1) 0 0).1
  intro w hw
  rw [List.mem_singleton] at hw
  subst hw
  refine ⟨fun n _ => n.val, fun ip => ⟨?_, ?_, ?_⟩, fun n => ⟨rfl, rfl, rfl⟩, fun _ _ _ => rfl, fun _ => rfl, fun _ => rfl⟩
  · fin_cases ip <;> simp [Unity, bar] <;> norm_num
  · intro j; simp [bar]
  · intro i j; fin_cases i; fin_cases j; simp [bar]

/-- Three nodes, two elements, two ranks. -/
noncomputable def line : Mesh (Fin 3) (Fin 2) 1 where
  nodes := [0, 1, 2]
  elems := [0, 1]
  conn := fun e => [e.castSucc, e.succ]
  coord := fun n _ => n.val
  scv := fun _ => [1 / 2, 1 / 2]
  ownerN := ![0, 0, 1]
  ownerE := ![0, 1]
  ranks := 2
  images := fun n => [n]

example : Usable (fun _ => 1 / 2) line where
  nodup := by decide
  ownN := by intro n _; fin_cases n <;> simp [line]
  ownE := by intro e _; fin_cases e <;> simp [line]
  size := by intro j; norm_num
  range := by
    intro e _ n _ j
    have : (n.val : ℝ) ≤ 3 := by exact_mod_cast n.2.le
    simp only [line]
    rw [abs_of_nonneg (by positivity)]
    linarith [show (3 : ℝ) ≤ 10 ^ 16 by norm_num]
  hasNodes := by intro e _; simp [line]
  volPos := by intro e _; simp [line, vol]
  hasElem := by
    intro n _
    fin_cases n
    · exact ⟨0, by simp [line], by simp [line]⟩
    · exact ⟨0, by simp [line], by simp [line]⟩
    · exact ⟨1, by simp [line], by simp [line]⟩
  imgSelf := by intro n _; simp [line]
  imgNode := by intro n hn k hk; simp only [line, List.mem_singleton] at hk; rw [hk]; exact hn

/-- The element on the other rank touches the box of the middle node, the far element does not touch that of the first node. -/
example : Touches (fun _ => 1 / 2) line 1 1 ∧ ¬ Touches (fun _ => 1 / 2) line 0 1 := by
  constructor
  · exact touches_self _ _ _ _ (fun _ => by norm_num) (by simp [line])
  · rintro ⟨x, hx⟩
    obtain ⟨h1, ⟨a, ha, h2⟩, _⟩ := hx 0
    have h1 := (abs_le.1 h1).2
    simp only [line, List.mem_cons, List.not_mem_nil, or_false] at h1 ha h2
    rcases ha with rfl | rfl <;> norm_num at h1 h2 <;> linarith

end Nalu.ExpFilter
