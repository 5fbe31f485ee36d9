import Verif.Proofs.Vof

/-!
# Closed forms of the volume-of-fluid kernels: stabilisation, sharpening and capillary stress
-/

set_option linter.unusedSectionVars false

namespace Nalu.Vof
open Nalu.Edge Nalu.Kernel
open Nalu.NC (VofOpts)

variable {K : Type*} [Field K] [LinearOrder K] [IsStrictOrderedRing K]
variable {nn nip nf nd : ℕ} {M : Type*}

/-! ## Momentum sharpening -/

/-- Mass rate of the compression flux. -/
def sharpRate (cA dd : K) (e : Scs nn nip nd K) (magU : Fin nn → K) (n : Fin nn → Fin nd → K) (q : Fin nn → K)
    (ip : Fin nip) : K :=
  (∑ ic, ∑ j, e.shape ip ic * compression cA magU n ic j * q ic * (1 - q ic) * e.area ip j) * dd

theorem momentumVofSharpen_rhs (cA dd : K) (e : Scs nn nip nd K) (magU : Fin nn → K) (n : Fin nn → Fin nd → K)
    (q : Fin nn → K) (u : Fin nn → Fin nd → K) (s : LocalSys (Fin nn × Fin nd) K) (a : Fin nn) (k : Fin nd) :
    (momentumVofSharpen cA dd e magU n q u s).rhs (a, k) = s.rhs (a, k) -
      ∑ ip, lrs a (e.il ip) (e.ir ip) (coordIp (e.shape ip) u k * sharpRate cA dd e magU n q ip) := by
  rw [momentumVofSharpen, loop_rhs (a := (a, k)) (δ := fun ip => -lrs a (e.il ip) (e.ir ip)
    (coordIp (e.shape ip) u k * sharpRate cA dd e magU n q ip))]
  · rw [Finset.sum_neg_distrib, sub_eq_add_neg]
  · intro ip s
    simp only
    rw [loop_rhs (a := (a, k)) (δ := fun _ => 0) (h := by
        intro ic s
        rw [loop_rhs (a := (a, k)) (δ := fun _ => 0) (h := by intro i s; simp)]; simp),
      loop_rhs (a := (a, k)) (δ := fun i => -lrs (a, k) (e.il ip, i) (e.ir ip, i)
        (coordIp (e.shape ip) u i * sharpRate cA dd e magU n q ip))]
    · rw [Finset.sum_neg_distrib, sum_lrs_pair]; simp
    · intro i s
      simp only [addR_rhs, lrs, sharpRate]; split_ifs <;> ring

theorem momentumVofSharpen_act (cA dd : K) (e : Scs nn nip nd K) (magU : Fin nn → K) (n : Fin nn → Fin nd → K)
    (q : Fin nn → K) (u : Fin nn → Fin nd → K) (s : LocalSys (Fin nn × Fin nd) K) (d : Fin nn × Fin nd → K)
    (a : Fin nn) (k : Fin nd) :
    act (momentumVofSharpen cA dd e magU n q u s) d (a, k) = act s d (a, k) +
      ∑ ip, lrs a (e.il ip) (e.ir ip) (∑ ic, e.shape ip ic * sharpRate cA dd e magU n q ip * d (ic, k)) := by
  rw [momentumVofSharpen, loop_act (a := (a, k))]
  intro ip s
  simp only
  rw [loop_act (a := (a, k)) (δ := fun ic => lrs a (e.il ip) (e.ir ip)
      (e.shape ip ic * sharpRate cA dd e magU n q ip * d (ic, k))), loop_act (a := (a, k)) (δ := fun _ => 0)]
  · rw [lrs_sum]; simp
  · intro i s; simp
  · intro ic s
    rw [loop_act (a := (a, k)) (δ := fun i => lrs (a, k) (e.il ip, i) (e.ir ip, i)
      (e.shape ip ic * sharpRate cA dd e magU n q ip * d (ic, i)))]
    · rw [sum_lrs_pair]
    · intro i s
      simp only [addL_act, lrs, sharpRate]; split_ifs <;> ring

/-! ## Capillary stress -/

/-- Interface normal interpolated to a surface point. -/
def capN (e : Scs nn nip nd K) (n : Fin nn → Fin nd → K) (ip : Fin nip) (j : Fin nd) : K :=
  ∑ ic, e.shape ip ic * n ic j

/-- Capillary viscosity `σ dt |∇α|` at a surface point. -/
def capMu (sqrt : K → K) (dt : K) (e : Scs nn nip nd K) (sigma q : Fin nn → K) (ip : Fin nip) : K :=
  interp (e.shape ip) sigma * dt *
    sqrt (∑ j, (∑ ic, q ic * e.dndx ip ic j) * (∑ ic, q ic * e.dndx ip ic j))

/-- Capillary stress times area, component `k`, contributed by one node moving with `d`. -/
def capRow (mu : K) (g a nx d : Fin nd → K) (k : Fin nd) : K :=
  -mu * (∑ j, g j * a j) * (d k - nx k * ∑ l, nx l * d l)

theorem cap_inner (mu : K) (g a nx d : Fin nd → K) (k : Fin nd) :
    ∑ j, (-mu * g j * a j * (1 - nx k * nx k) * d k +
      ∑ l, if k ≠ l then mu * g j * a j * (nx k * nx l) * d l else 0) = capRow mu g a nx d k := by
  have h : ∀ j, ∑ l, (if k ≠ l then mu * g j * a j * (nx k * nx l) * d l else 0) =
      mu * g j * a j * nx k * (∑ l, nx l * d l) - mu * g j * a j * (nx k * nx k) * d k := by
    intro j
    have : ∀ l, (if k ≠ l then mu * g j * a j * (nx k * nx l) * d l else 0) =
        mu * g j * a j * nx k * (nx l * d l) - if k = l then mu * g j * a j * (nx k * nx k) * d k else 0 := by
      intro l
      by_cases hl : k = l
      · subst hl; simp; ring
      · simp [hl]; ring
    simp only [this, Finset.sum_sub_distrib, ← Finset.mul_sum]
    simp
  simp only [h, capRow]
  generalize (∑ l, nx l * d l) = D
  simp only [Finset.mul_sum, Finset.sum_mul]
  exact Finset.sum_congr rfl fun _ _ => by ring

theorem momentumCapillary_rhs (sqrt : K → K) (dt : K) (e : Scs nn nip nd K) (sigma q : Fin nn → K)
    (n : Fin nn → Fin nd → K) (u : Fin nn → Fin nd → K) (s : LocalSys (Fin nn × Fin nd) K) (a : Fin nn)
    (k : Fin nd) :
    (momentumCapillary sqrt dt e sigma q n u s).rhs (a, k) = s.rhs (a, k) -
      ∑ ip, lrs a (e.il ip) (e.ir ip) (∑ ic, capRow (capMu sqrt dt e sigma q ip) (e.dndx ip ic) (e.area ip)
        (capN e n ip) (u ic) k) := by
  rw [momentumCapillary, loop_rhs (a := (a, k)) (δ := fun ip => -lrs a (e.il ip) (e.ir ip)
    (∑ ic, capRow (capMu sqrt dt e sigma q ip) (e.dndx ip ic) (e.area ip) (capN e n ip) (u ic) k))]
  · rw [Finset.sum_neg_distrib, sub_eq_add_neg]
  intro ip s
  simp only
  rw [loop_rhs (a := (a, k)) (δ := fun ic => -lrs a (e.il ip) (e.ir ip)
    (capRow (capMu sqrt dt e sigma q ip) (e.dndx ip ic) (e.area ip) (capN e n ip) (u ic) k))]
  · rw [Finset.sum_neg_distrib, lrs_sum]
  intro ic s
  rw [loop_rhs (a := (a, k)) (δ := fun j => -lrs a (e.il ip) (e.ir ip)
    (-capMu sqrt dt e sigma q ip * e.dndx ip ic j * e.area ip j * (1 - capN e n ip k * capN e n ip k) * u ic k +
      ∑ l, if k ≠ l then capMu sqrt dt e sigma q ip * e.dndx ip ic j * e.area ip j *
        (capN e n ip k * capN e n ip l) * u ic l else 0))]
  · rw [Finset.sum_neg_distrib, lrs_sum, cap_inner]
  intro j s
  rw [loop_rhs (a := (a, k)) (δ := fun i => -lrs (a, k) (e.il ip, i) (e.ir ip, i)
    (-capMu sqrt dt e sigma q ip * e.dndx ip ic j * e.area ip j * (1 - capN e n ip i * capN e n ip i) * u ic i +
      ∑ l, if i ≠ l then capMu sqrt dt e sigma q ip * e.dndx ip ic j * e.area ip j *
        (capN e n ip i * capN e n ip l) * u ic l else 0))]
  · rw [Finset.sum_neg_distrib, sum_lrs_pair]
  intro i s
  rw [loop_rhs (a := (a, k)) (δ := fun l => -lrs (a, k) (e.il ip, i) (e.ir ip, i)
    (if i ≠ l then capMu sqrt dt e sigma q ip * e.dndx ip ic j * e.area ip j *
        (capN e n ip i * capN e n ip l) * u ic l else 0))]
  · rw [Finset.sum_neg_distrib, lrs_sum, lrs_add]
    simp only [addR_rhs, addL_rhs]
    generalize (∑ l : Fin nd, if i ≠ l then capMu sqrt dt e sigma q ip * e.dndx ip ic j * e.area ip j *
        (capN e n ip i * capN e n ip l) * u ic l else 0) = A
    simp only [lrs, capMu, capN]; split_ifs <;> ring
  · intro l s
    by_cases hl : i = l
    · simp [hl, lrs]
    · simp only [ne_eq, hl, not_false_eq_true, if_true, addR_rhs, addL_rhs, lrs, capMu, capN]
      split_ifs <;> ring

theorem momentumCapillary_act (sqrt : K → K) (dt : K) (e : Scs nn nip nd K) (sigma q : Fin nn → K)
    (n : Fin nn → Fin nd → K) (u : Fin nn → Fin nd → K) (s : LocalSys (Fin nn × Fin nd) K)
    (d : Fin nn × Fin nd → K) (a : Fin nn) (k : Fin nd) :
    act (momentumCapillary sqrt dt e sigma q n u s) d (a, k) = act s d (a, k) +
      ∑ ip, lrs a (e.il ip) (e.ir ip) (∑ ic, capRow (capMu sqrt dt e sigma q ip) (e.dndx ip ic) (e.area ip)
        (capN e n ip) (fun j => d (ic, j)) k) := by
  rw [momentumCapillary, loop_act (a := (a, k))]
  intro ip s
  simp only
  rw [loop_act (a := (a, k)) (δ := fun ic => lrs a (e.il ip) (e.ir ip)
    (capRow (capMu sqrt dt e sigma q ip) (e.dndx ip ic) (e.area ip) (capN e n ip) (fun j => d (ic, j)) k))]
  · rw [lrs_sum]
  intro ic s
  rw [loop_act (a := (a, k)) (δ := fun j => lrs a (e.il ip) (e.ir ip)
    (-capMu sqrt dt e sigma q ip * e.dndx ip ic j * e.area ip j * (1 - capN e n ip k * capN e n ip k) * d (ic, k) +
      ∑ l, if k ≠ l then capMu sqrt dt e sigma q ip * e.dndx ip ic j * e.area ip j *
        (capN e n ip k * capN e n ip l) * d (ic, l) else 0))]
  · rw [lrs_sum, cap_inner (d := fun j => d (ic, j))]
  intro j s
  rw [loop_act (a := (a, k)) (δ := fun i => lrs (a, k) (e.il ip, i) (e.ir ip, i)
    (-capMu sqrt dt e sigma q ip * e.dndx ip ic j * e.area ip j * (1 - capN e n ip i * capN e n ip i) * d (ic, i) +
      ∑ l, if i ≠ l then capMu sqrt dt e sigma q ip * e.dndx ip ic j * e.area ip j *
        (capN e n ip i * capN e n ip l) * d (ic, l) else 0))]
  · rw [sum_lrs_pair]
  intro i s
  rw [loop_act (a := (a, k)) (δ := fun l => lrs (a, k) (e.il ip, i) (e.ir ip, i)
    (if i ≠ l then capMu sqrt dt e sigma q ip * e.dndx ip ic j * e.area ip j *
        (capN e n ip i * capN e n ip l) * d (ic, l) else 0))]
  · rw [lrs_sum, lrs_add]
    simp only [addR_act, addL_act]
    generalize (∑ l : Fin nd, if i ≠ l then capMu sqrt dt e sigma q ip * e.dndx ip ic j * e.area ip j *
        (capN e n ip i * capN e n ip l) * d (ic, l) else 0) = A
    simp only [lrs, capMu, capN]; split_ifs <;> ring
  · intro l s
    by_cases hl : i = l
    · simp [hl, lrs]
    · simp only [ne_eq, hl, not_false_eq_true, if_true, addR_act, addL_act, lrs, capMu, capN]
      split_ifs <;> ring

/-! ## SUCV / NSO stabilisation -/

/-- Velocity at a surface point in the stabilisation kernel. -/
def sucvU (o : SucvOpts K) (e : Scs nn nip nd K) (u : Fin nn → Fin nd → K) (ip : Fin nip) (j : Fin nd) : K :=
  o.small * (1 - o.timeFac) + ∑ ic, e.shape ip ic * u ic j
/-- `uGu` -/
def sucvUGU (o : SucvOpts K) (e : Scs nn nip nd K) (gL : Fin nip → Fin nd → Fin nd → K) (u : Fin nn → Fin nd → K)
    (ip : Fin nip) : K := ∑ i, ∑ j, sucvU o e u ip i * gL ip i j * o.gijC * sucvU o e u ip j
/-- Time scale of the streamline term. -/
def sucvTau (o : SucvOpts K) (b : Bdf K) (e : Scs nn nip nd K) (gL : Fin nip → Fin nd → Fin nd → K)
    (u : Fin nn → Fin nd → K) (ip : Fin nip) : K :=
  1 / o.sqrt (2 / b.dt * (2 / b.dt) * o.timeFac + sucvUGU o e gL u ip)
/-- Volume rate at the point. -/
def sucvFlow (o : SucvOpts K) (e : Scs nn nip nd K) (u : Fin nn → Fin nd → K) (ip : Fin nip) : K :=
  ∑ i, sucvU o e u ip i * e.area ip i
/-- Advective derivative at the point. -/
def sucvAdv (o : SucvOpts K) (e : Scs nn nip nd K) (u : Fin nn → Fin nd → K) (ip : Fin nip) (q : Fin nn → K) : K :=
  ∑ ic, ∑ i, sucvU o e u ip i * e.dndx ip ic i * q ic
/-- Residual of the transport equation at the point. -/
def sucvPde (o : SucvOpts K) (b : Bdf K) (e : Scs nn nip nd K) (u : Fin nn → Fin nd → K) (q : Levels nn K)
    (ip : Fin nip) : K :=
  (b.g1 * interp (e.shape ip) q.np1 + b.g2 * interp (e.shape ip) q.n + b.g3 * interp (e.shape ip) q.nm1) / b.dt +
    sucvAdv o e u ip q.np1
/-- Nonlinear stabilisation viscosity. -/
def nsoNu (o : SucvOpts K) (b : Bdf K) (e : Scs nn nip nd K) (gU gL : Fin nip → Fin nd → Fin nd → K)
    (u : Fin nn → Fin nd → K) (q : Levels nn K) (ip : Fin nip) : K :=
  min (o.cupw * o.sqrt (sucvUGU o e gL u ip))
    (o.sqrt (sucvPde o b e u q ip * sucvPde o b e u q ip /
      ((∑ i, ∑ j, (∑ ic, q.np1 ic * e.dndx ip ic i) * gU ip i j / o.gijC *
        (∑ ic, q.np1 ic * e.dndx ip ic j)) + o.small)))
/-- Gradient flux in the metric `g^{ij}`. -/
def nsoFlux (o : SucvOpts K) (e : Scs nn nip nd K) (gU : Fin nip → Fin nd → Fin nd → K) (ip : Fin nip)
    (q : Fin nn → K) : K :=
  ∑ ic, (∑ i, ∑ j, gU ip i j / o.gijC * e.dndx ip ic j * e.area ip i) * q ic

theorem vofSucvNso_rhs (o : SucvOpts K) (b : Bdf K) (e : Scs nn nip nd K) (gU gL : Fin nip → Fin nd → Fin nd → K)
    (u : Fin nn → Fin nd → K) (q : Levels nn K) (s : LocalSys (Fin nn) K) (a : Fin nn) :
    (vofSucvNso o b e gU gL u q s).rhs a = s.rhs a - ∑ ip, lrs a (e.il ip) (e.ir ip)
      (-(sucvTau o b e gL u ip) * sucvFlow o e u ip * sucvPde o b e u q ip * o.sucv -
        nsoNu o b e gU gL u q ip * nsoFlux o e gU ip q.np1 * o.nso) := by
  rw [vofSucvNso, loop_rhs (a := a) (δ := fun ip => -lrs a (e.il ip) (e.ir ip)
      (-(sucvTau o b e gL u ip) * sucvFlow o e u ip * sucvPde o b e u q ip * o.sucv -
        nsoNu o b e gU gL u q ip * nsoFlux o e gU ip q.np1 * o.nso))]
  · rw [Finset.sum_neg_distrib, sub_eq_add_neg]
  intro ip s
  simp only [addR_rhs]
  rw [loop_rhs (a := a) (δ := fun _ => 0) (h := by intro k s; simp)]
  simp only [addR_rhs]
  rw [loop_rhs (a := a) (δ := fun _ => 0) (h := by intro k s; simp)]
  simp only [lrs, sucvTau, sucvFlow, sucvPde, nsoNu, nsoFlux, sucvUGU, sucvAdv, sucvU, Finset.sum_const_zero, add_zero]
  split_ifs <;> ring

/-- Matrix row of the stabilisation kernel. -/
def sucvRow (o : SucvOpts K) (b : Bdf K) (e : Scs nn nip nd K) (gU gL : Fin nip → Fin nd → Fin nd → K)
    (u : Fin nn → Fin nd → K) (q : Levels nn K) (ip : Fin nip) (ic : Fin nn) : K :=
  sucvTau o b e gL u ip * sucvFlow o e u ip * (∑ i, -(sucvU o e u ip i * e.dndx ip ic i)) * o.sucv +
    nsoNu o b e gU gL u q ip * -(∑ i, ∑ j, gU ip i j / o.gijC * e.dndx ip ic j * e.area ip i) * o.nso

theorem vofSucvNso_act (o : SucvOpts K) (b : Bdf K) (e : Scs nn nip nd K) (gU gL : Fin nip → Fin nd → Fin nd → K)
    (u : Fin nn → Fin nd → K) (q : Levels nn K) (s : LocalSys (Fin nn) K) (d : Fin nn → K) (a : Fin nn) :
    act (vofSucvNso o b e gU gL u q s) d a = act s d a + ∑ ip, lrs a (e.il ip) (e.ir ip)
      (∑ ic, sucvRow o b e gU gL u q ip ic * d ic) := by
  refine act_of_lhs _ _ d a e.il e.ir (fun ip ic => sucvRow o b e gU gL u q ip ic) fun c => ?_
  rw [vofSucvNso, loop_lhs (a := a) (b := c)]
  intro ip s
  simp only [addR_lhs]
  rw [loop_lhs (a := a) (b := c) (δ := fun ic => if c = ic then lrs a (e.il ip) (e.ir ip)
    (nsoNu o b e gU gL u q ip * -(∑ i, ∑ j, gU ip i j / o.gijC * e.dndx ip ic j * e.area ip i) * o.nso) else 0)]
  · simp only [addR_lhs]
    rw [loop_lhs (a := a) (b := c) (δ := fun ic => if c = ic then lrs a (e.il ip) (e.ir ip)
      (sucvTau o b e gL u ip * sucvFlow o e u ip * (∑ i, -(sucvU o e u ip i * e.dndx ip ic i)) * o.sucv) else 0)]
    · simp only [Finset.sum_ite_eq, Finset.mem_univ, if_true, sucvRow, lrs_add]; ring
    · intro ic s
      simp only [addL_lhs, lrs, sucvTau, sucvFlow, sucvUGU, sucvU]
      by_cases hc : c = ic
      · simp only [hc, and_true, if_true]; ring
      · simp [hc]
  · intro ic s
    simp only [addL_lhs, lrs, nsoNu, sucvPde, sucvUGU, sucvAdv, sucvU]
    by_cases hc : c = ic
    · simp only [hc, and_true, if_true]; ring
    · simp [hc]

end Nalu.Vof
