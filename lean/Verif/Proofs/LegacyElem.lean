import Verif.Spec.LegacyElem
import Mathlib.Tactic.Ring
import Mathlib.Tactic.Linarith

/-!
# Simulation of the two-dimensional local systems by flat arrays
-/

set_option linter.unusedSectionVars false

namespace Nalu.Legacy
open Nalu.Edge Nalu.Kernel

variable {K : Type*} [Field K] [LinearOrder K] [IsStrictOrderedRing K]
variable {nn nf nip nd : ℕ}

theorem row_inj {a b i j d : ℕ} (hi : i < d) (hj : j < d) (h : a * d + i = b * d + j) : a = b ∧ i = j := by
  have hd : 0 < d := by omega
  have h1 : (a * d + i) / d = a := by rw [Nat.mul_comm, Nat.mul_add_div hd, Nat.div_eq_of_lt hi, Nat.add_zero]
  have h2 : (b * d + j) / d = b := by rw [Nat.mul_comm, Nat.mul_add_div hd, Nat.div_eq_of_lt hj, Nat.add_zero]
  have hab : a = b := by rw [← h1, ← h2, h]
  subst hab
  exact ⟨rfl, by omega⟩

theorem row_lt {a i n d : ℕ} (ha : a < n) (hi : i < d) : a * d + i < n * d := by
  have : (a + 1) * d ≤ n * d := Nat.mul_le_mul_right _ ha
  have h2 : (a + 1) * d = a * d + d := by ring
  omega

/-! ## Gathers -/

theorem loop_keep {n : ℕ} (body : Fin n → (ℕ → K) → ℕ → K) (p : ℕ) (h : ∀ k a, body k a p = a p) (a : ℕ → K) :
    loop n body a p = a p := by
  rw [loop]
  generalize List.finRange n = l
  induction l generalizing a with
  | nil => rfl
  | cons x l ih => rw [List.foldl_cons, ih, h]

theorem loop_last {n : ℕ} (body : Fin n → (ℕ → K) → ℕ → K) (p : ℕ) (k : Fin n) (v : K) (hset : ∀ a, body k a p = v)
    (hkeep : ∀ k' ≠ k, ∀ a, body k' a p = a p) (a : ℕ → K) : loop n body a p = v := by
  rw [loop]
  have hk : k ∈ List.finRange n := List.mem_finRange k
  revert hk
  generalize List.finRange n = l
  induction l using List.reverseRecOn with
  | nil => simp
  | append_singleton l x ih =>
    intro hk
    rw [List.foldl_append, List.foldl_cons, List.foldl_nil]
    by_cases hx : x = k
    · rw [hx, hset]
    · rw [hkeep x hx]
      apply ih
      rcases List.mem_append.mp hk with h | h
      · exact h
      · exact absurd (List.mem_singleton.mp h).symm hx

theorem gather1_get (q : Fin nn → K) (a : ℕ → K) (ni : Fin nn) : gather1 nn q a ni = q ni := by
  rw [gather1]
  refine loop_last _ _ ni _ (fun a => by simp [put]) (fun k hk a => ?_) _
  have : (ni : ℕ) ≠ k := fun h => hk (Fin.ext h.symm)
  simp [put, this]

theorem gather2_get (v : Fin nn → Fin nd → K) (a : ℕ → K) (ni : Fin nn) (i : Fin nd) : gather2 nn nd v a (ni * nd + i) = v ni i := by
  rw [gather2]
  refine loop_last _ _ ni _ (fun a => ?_) (fun k hk a => ?_) _
  · refine loop_last _ _ i _ (fun a => by simp [put]) (fun k hk a => ?_) _
    have : (i : ℕ) ≠ k := fun h => hk (Fin.ext h.symm)
    simp [put, this]
  · refine loop_keep _ _ (fun j a => ?_) _
    have : (ni : ℕ) * nd + i ≠ k * nd + j := fun h => hk (Fin.ext (row_inj i.2 j.2 h).1.symm)
    simp [put, this]

theorem gather3_get (v : Fin nn → Fin nd → Fin nd → K) (a : ℕ → K) (ni : Fin nn) (i j : Fin nd) :
    gather3 nn nd v a (ni * nd * nd + i * nd + j) = v ni i j := by
  have key : ∀ n m k : ℕ, n * nd * nd + m * nd + k = (n * nd + m) * nd + k := fun n m k => by ring
  rw [gather3]
  refine loop_last _ _ ni _ (fun a => ?_) (fun k hk a => ?_) _
  · refine loop_last _ _ i _ (fun a => ?_) (fun k hk a => ?_) _
    · refine loop_last _ _ j _ (fun a => by simp [put]) (fun k hk a => ?_) _
      have : (j : ℕ) ≠ k := fun h => hk (Fin.ext h.symm)
      simp [put, this]
    · refine loop_keep _ _ (fun l a => ?_) _
      have : (ni : ℕ) * nd * nd + i * nd + j ≠ ni * nd * nd + k * nd + l := fun h => by
        rw [key, key] at h
        exact hk (Fin.ext (row_inj i.2 k.2 (row_inj j.2 l.2 h).1).2.symm)
      simp only [put, if_neg this]
  · refine loop_keep _ _ (fun m a => loop_keep _ _ (fun l a => ?_) _) _
    have : (ni : ℕ) * nd * nd + i * nd + j ≠ k * nd * nd + m * nd + l := fun h => by
      rw [key, key] at h
      exact hk (Fin.ext (row_inj i.2 m.2 (row_inj j.2 l.2 h).1).1.symm)
    simp only [put, if_neg this]

/-! ## The simulation relation -/

/-- The flat arrays `s` hold the local system `t` with row numbers `enc`; beyond `N` rows they are those of `s0`. -/
structure Rel {ι : Type*} (N : ℕ) (enc : ι → ℕ) (s0 s : Flat K) (t : LocalSys ι K) : Prop where
  lhs : ∀ r c, s.lhs (enc r * N + enc c) = t.lhs r c
  rhs : ∀ r, s.rhs (enc r) = t.rhs r
  outL : ∀ p, N * N ≤ p → s.lhs p = s0.lhs p
  outR : ∀ p, N ≤ p → s.rhs p = s0.rhs p

/-- A numbering of the rows. -/
structure Enc {ι : Type*} (N : ℕ) (enc : ι → ℕ) : Prop where
  inj : Function.Injective enc
  lt : ∀ r, enc r < N

section rel
variable {ι : Type*} [DecidableEq ι] {N : ℕ} {enc : ι → ℕ} {s0 s : Flat K} {t : LocalSys ι K}

theorem Rel.bumpL (he : Enc N enc) (h : Rel N enc s0 s t) (r c : ι) {p : ℕ} {v v' : K} (hp : p = enc r * N + enc c) (hv : v = v') :
    Rel N enc s0 (s.bumpL p v) (addL t r c v') := by
  subst hp hv
  refine ⟨fun a b => ?_, h.rhs, fun q hq => ?_, h.outR⟩
  · by_cases hab : a = r ∧ b = c
    · simp [Flat.bumpL, addL, hab, h.lhs]
    · have : ¬ enc a * N + enc b = enc r * N + enc c := fun hh => by
        obtain ⟨h1, h2⟩ := row_inj (he.lt b) (he.lt c) hh
        exact hab ⟨he.inj h1, he.inj h2⟩
      simp only [Flat.bumpL, addL, if_neg hab, if_neg this, h.lhs]
  · have : ¬ q = enc r * N + enc c := by have := row_lt (he.lt r) (he.lt c); omega
    simp only [Flat.bumpL, if_neg this, h.outL q hq]

theorem Rel.bumpR (he : Enc N enc) (h : Rel N enc s0 s t) (r : ι) {p : ℕ} {v v' : K} (hp : p = enc r) (hv : v = v') :
    Rel N enc s0 (s.bumpR p v) (addR t r v') := by
  subst hp hv
  refine ⟨h.lhs, fun a => ?_, h.outL, fun q hq => ?_⟩
  · by_cases ha : a = r
    · simp [Flat.bumpR, addR, ha, h.rhs]
    · have : ¬ enc a = enc r := fun hh => ha (he.inj hh)
      simp only [Flat.bumpR, addR, if_neg ha, if_neg this, h.rhs]
  · have : ¬ q = enc r := by have := he.lt r; omega
    simp only [Flat.bumpR, if_neg this, h.outR q hq]

theorem Rel.loop {n : ℕ} {f : Fin n → Flat K → Flat K} {g : Fin n → LocalSys ι K → LocalSys ι K}
    (h : Rel N enc s0 s t) (hb : ∀ k s t, Rel N enc s0 s t → Rel N enc s0 (f k s) (g k t)) :
    Rel N enc s0 (Kernel.loop n f s) (Kernel.loop n g t) := by
  rw [Kernel.loop, Kernel.loop]
  generalize List.finRange n = l
  induction l generalizing s t with
  | nil => exact h
  | cons x l ih => exact ih (hb x s t h)

theorem Rel.zero (he : Enc N enc) (s0 : Flat K) : Rel N enc s0 (s0.zeroed (N * N) N) (zeroSys : LocalSys ι K) := by
  refine ⟨fun r c => ?_, fun r => ?_, fun p hp => ?_, fun p hp => ?_⟩
  · simp [Flat.zeroed, zeroSys, row_lt (he.lt r) (he.lt c)]
  · simp [Flat.zeroed, zeroSys, he.lt r]
  · simp [Flat.zeroed, Nat.not_lt.mpr hp]
  · simp [Flat.zeroed, Nat.not_lt.mpr hp]
end rel

theorem encS : Enc nn (fun r : Fin nn => (r : ℕ)) := ⟨Fin.val_injective, Fin.is_lt⟩

/-- The row of unknown `i` of node `n`. -/
def rowV (r : Fin nn × Fin nd) : ℕ := r.1 * nd + r.2

theorem encV : Enc (nn * nd) (rowV : Fin nn × Fin nd → ℕ) :=
  ⟨fun a b h => by
    obtain ⟨h1, h2⟩ := row_inj a.2.2 b.2.2 h
    exact Prod.ext (Fin.ext h1) (Fin.ext h2), fun r => row_lt r.1.2 r.2.2⟩

theorem Rel.agreesS {s0 s : Flat K} {t : LocalSys (Fin nn) K} (h : Rel nn (fun r : Fin nn => (r : ℕ)) s0 s t) : AgreesS s0 s t :=
  ⟨h.lhs, h.rhs, h.outL, h.outR⟩

theorem Rel.agreesV {s0 s : Flat K} {t : LocalSys (Fin nn × Fin nd) K} (h : Rel (nn * nd) rowV s0 s t) : AgreesV s0 s t :=
  ⟨fun r i c j => h.lhs (r, i) (c, j), fun r i => h.rhs (r, i), h.outL, h.outR⟩

theorem colV (r c : Fin nn × Fin nd) : (r.1 * nd + r.2) * nn * nd + c.1 * nd + c.2 = rowV r * (nn * nd) + rowV c := by
  simp only [rowV]; ring

/-! ## Interior algorithms -/

theorem scalarDiff_rel {w : ScsWs K} {e : Scs nn nip nd K} (hw : w.Holds e) (mu q : Fin nn → K) (a b : ℕ → K) {s0 s : Flat K}
    {t : LocalSys (Fin nn) K} (h : Rel nn (fun r : Fin nn => (r : ℕ)) s0 s t) :
    Rel nn (fun r : Fin nn => (r : ℕ)) s0 (scalarDiff nn nip nd w (gather1 nn mu a) (gather1 nn q b) s) (Kernel.scalarDiff e mu q t) := by
  simp only [scalarDiff, Kernel.scalarDiff]
  refine h.loop fun ip s t h => ?_
  simp only [hw.shape, hw.dndx, hw.areav, hw.il, hw.ir, gather1_get]
  refine Rel.bumpR encS (Rel.bumpR encS (h.loop fun ic s t h => ?_) _ rfl rfl) _ rfl rfl
  exact Rel.bumpL encS (Rel.bumpL encS h _ _ rfl rfl) _ _ rfl rfl

theorem scalarElem_rel (o : Opts K) {w : ScsWs K} {e : Scs nn nip nd K} (hw : w.Holds e) (mdot : ℕ → K) (v : UpwNodes nn nd K)
    (q : Fin nn → K) (G : Fin nn → Fin nd → K) (a : Fin 6 → ℕ → K) {s0 s : Flat K}
    {t : LocalSys (Fin nn) K} (h : Rel nn (fun r : Fin nn => (r : ℕ)) s0 s t) :
    Rel nn (fun r : Fin nn => (r : ℕ)) s0
      (scalarElem nn nip nd o w mdot ⟨gather2 nn nd v.x (a 0), gather2 nn nd v.vrtm (a 1), gather1 nn v.rho (a 2), gather1 nn v.mu (a 3)⟩
        (gather1 nn q (a 4)) (gather2 nn nd G (a 5)) s)
      (Kernel.scalarUpw o e (fun ip => mdot ip) v q G t) := by
  simp only [scalarElem, Kernel.scalarUpw]
  refine h.loop fun ip s t h => ?_
  simp only [hw.shape, hw.adv, hw.dndx, hw.areav, hw.il, hw.ir, gather1_get, gather2_get, Nat.mul_comm nd (Fin.val _)]
  refine Rel.bumpR encS (Rel.bumpR encS (Rel.loop (Rel.bumpL encS (Rel.bumpL encS (Rel.bumpL encS (Rel.bumpL encS
    (Rel.bumpR encS (Rel.bumpR encS h _ rfl rfl) _ rfl rfl) _ _ rfl rfl) _ _ rfl rfl) _ _ rfl rfl) _ _ rfl rfl)
    fun ic s t h => ?_) _ rfl rfl) _ rfl rfl
  refine Rel.bumpL encS (Rel.bumpL encS (Rel.bumpL encS (Rel.bumpL encS h _ _ rfl ?_) _ _ rfl ?_) _ _ rfl rfl) _ _ rfl rfl
  · rw [mul_assoc]; rfl
  · rw [mul_assoc]; rfl

theorem momentumElem_rel (o : Opts K) (inc : K) {w : ScsWs K} {e : Scs nn nip nd K} (hw : w.Holds e) (mdot : ℕ → K) (v : UpwNodes nn nd K)
    (u : Fin nn → Fin nd → K) (G : Fin nn → Fin nd → Fin nd → K) (a : Fin 6 → ℕ → K) {s0 s : Flat K}
    {t : LocalSys (Fin nn × Fin nd) K} (h : Rel (nn * nd) rowV s0 s t) :
    Rel (nn * nd) rowV s0
      (momentumElem nn nip nd o inc w mdot ⟨gather2 nn nd v.x (a 0), gather2 nn nd v.vrtm (a 1), gather1 nn v.rho (a 2), gather1 nn v.mu (a 3)⟩
        (gather2 nn nd u (a 4)) (gather3 nn nd G (a 5)) s)
      (Kernel.momentumUpw o inc e (fun ip => mdot ip) v u G t) := by
  simp only [momentumElem, Kernel.momentumUpw, Kernel.viscousLoop]
  refine h.loop fun ip s t h => ?_
  simp only [hw.shape, hw.adv, hw.dndx, hw.areav, hw.il, hw.ir, gather1_get, gather2_get, gather3_get]
  refine Rel.loop (Rel.loop h fun i s t h => ?_) fun ic s t h => Rel.loop h fun i s t h => ?_
  · exact Rel.bumpL encV (Rel.bumpL encV (Rel.bumpL encV (Rel.bumpL encV
      (Rel.bumpR encV (Rel.bumpR encV h (e.il ip, i) rfl rfl) (e.ir ip, i) rfl rfl) (e.il ip, i) (e.il ip, i)
      (colV (e.il ip, i) (e.il ip, i)) rfl) (e.ir ip, i) (e.il ip, i) (colV (e.ir ip, i) (e.il ip, i)) rfl) (e.ir ip, i) (e.ir ip, i)
      (colV (e.ir ip, i) (e.ir ip, i)) rfl) (e.il ip, i) (e.ir ip, i) (colV (e.il ip, i) (e.ir ip, i)) rfl
  · refine Rel.bumpR encV (Rel.bumpR encV (Rel.bumpL encV (Rel.bumpL encV (Rel.loop (Rel.bumpL encV (Rel.bumpL encV h
      (e.il ip, i) (ic, i) (colV (e.il ip, i) (ic, i)) ?_) (e.ir ip, i) (ic, i) (colV (e.ir ip, i) (ic, i)) ?_) fun j s t h => ?_)
      (e.il ip, i) (ic, i) (colV (e.il ip, i) (ic, i)) rfl) (e.ir ip, i) (ic, i) (colV (e.ir ip, i) (ic, i)) rfl)
      (e.il ip, i) rfl rfl) (e.ir ip, i) rfl rfl
    · rw [mul_assoc]; rfl
    · rw [mul_assoc]; rfl
    · exact Rel.bumpR encV (Rel.bumpR encV (Rel.bumpL encV (Rel.bumpL encV h (e.il ip, i) (ic, j) (colV (e.il ip, i) (ic, j)) rfl)
        (e.ir ip, i) (ic, j) (colV (e.ir ip, i) (ic, j)) rfl) (e.il ip, i) rfl rfl) (e.ir ip, i) rfl rfl

theorem continuityElem_rel (pts : K) (sp red : Bool) {w : ScsWs K} {e : Scs nn nip nd K} (hw : w.Holds e)
    (S : ℕ → K) (dS : Fin nip → Fin nn → Fin nd → K) (hS : ∀ ip ic j, S (nd * nn * (ip : Fin nip) + (ic : Fin nn) * nd + (j : Fin nd)) = dS ip ic j)
    (v : FlowNodes nn nd K) (a : Fin 4 → ℕ → K) {s0 s : Flat K} {t : LocalSys (Fin nn) K} (h : Rel nn (fun r : Fin nn => (r : ℕ)) s0 s t) :
    Rel nn (fun r : Fin nn => (r : ℕ)) s0
      (continuityElem nn nip nd pts sp red w S
        ⟨gather1 nn v.rho (a 0), gather2 nn nd v.vrtm (a 1), gather1 nn v.p (a 2), gather2 nn nd v.Gp (a 3)⟩ s)
      (Kernel.continuityAdv pts { e with dndx := if sp then dS else e.dndx } (if sp || red then dS else e.dndx) v t) := by
  have hd : ∀ ip ic j, (if sp then S else w.dndx) (nd * nn * (ip : Fin nip) + (ic : Fin nn) * nd + (j : Fin nd)) =
      (if sp then dS else e.dndx) ip ic j := by
    intro ip ic j; split_ifs
    · exact hS ..
    · exact hw.dndx ..
  have hl : ∀ ip ic j, (if sp then (if sp then S else w.dndx) else if red then S else (if sp then S else w.dndx))
      (nd * nn * (ip : Fin nip) + (ic : Fin nn) * nd + (j : Fin nd)) = (if sp || red then dS else e.dndx) ip ic j := by
    intro ip ic j
    cases sp <;> cases red
    · exact hw.dndx ..
    all_goals exact hS ..
  simp only [continuityElem, Kernel.continuityAdv]
  refine h.loop fun ip s t h => ?_
  simp only [hd, hl, hw.shape, hw.areav, hw.il, hw.ir, gather1_get, gather2_get, Nat.mul_comm nd (Fin.val _)]
  refine Rel.bumpR encS (Rel.bumpR encS (Rel.loop h fun ic s t h => ?_) _ rfl rfl) _ rfl rfl
  exact Rel.bumpL encS (Rel.bumpL encS h _ _ rfl rfl) _ _ rfl rfl

/-! ## Boundary algorithms -/

theorem addL_zero {ι : Type*} [DecidableEq ι] (t : LocalSys ι K) (r c : ι) : addL t r c 0 = t := by
  simp [addL]

theorem addR_zero {ι : Type*} [DecidableEq ι] (t : LocalSys ι K) (r : ι) : addR t r 0 = t := by
  simp [addR]

theorem loop_id {S : Type*} {n : ℕ} (s : S) : Kernel.loop n (fun _ s => s) s = s := by
  rw [Kernel.loop]
  generalize List.finRange n = l
  induction l with
  | nil => rfl
  | cons x l ih => exact ih

theorem continuityInflow_rel (pts : K) {w : FaceWs K} {f : Face nn nf nip nd K} (hw : w.Holds f) (rho : Fin nn → K) (ubc : Fin nn → Fin nd → K)
    (a b : ℕ → K) {s0 s : Flat K} {t : LocalSys (Fin nf) K} (h : Rel nf (fun r : Fin nf => (r : ℕ)) s0 s t) :
    Rel nf (fun r : Fin nf => (r : ℕ)) s0
      (continuityInflow nf nip nd pts w (gather1 nf (fun ic => rho (f.node ic)) a) (gather2 nf nd (fun ic => ubc (f.node ic)) b) s)
      (Kernel.continuityInflowElem pts f rho ubc t) := by
  simp only [continuityInflow, Kernel.continuityInflowElem]
  refine h.loop fun ip s t h => ?_
  simp only [hw.shape, hw.areav, hw.loc, gather1_get, gather2_get]
  exact Rel.bumpR encS h _ rfl (neg_div _ _)

theorem continuityOpen_rel (pts pen : K) (sp red : Bool) {w : FaceWs K} {f : Face nn nf nip nd K} (hw : w.Holds f)
    (S : ℕ → K) (dS : Fin nip → Fin nn → Fin nd → K) (hS : ∀ ip ic j, S (nd * nn * (ip : Fin nip) + (ic : Fin nn) * nd + (j : Fin nd)) = dS ip ic j)
    (v : FlowNodes nn nd K) (pbc : Fin nn → K) (dynP : ℕ → K) (a : Fin 5 → ℕ → K) {s0 s : Flat K} {t : LocalSys (Fin nn) K}
    (h : Rel nn (fun r : Fin nn => (r : ℕ)) s0 s t) :
    Rel nn (fun r : Fin nn => (r : ℕ)) s0
      (continuityOpen nn nf nip nd pts pen sp red w S
        ⟨gather1 nf (fun ic => v.rho (f.node ic)) (a 0), gather2 nf nd (fun ic => v.vrtm (f.node ic)) (a 1), gather1 nn v.p (a 2),
          gather2 nf nd (fun ic => v.Gp (f.node ic)) (a 3)⟩ (gather1 nf (fun ic => pbc (f.node ic)) (a 4)) dynP s)
      (Kernel.continuityOpenElem pts pen { f with dndx := if sp then dS else f.dndx } (if sp || red then dS else f.dndx) v pbc
        (fun ip => dynP ip) t) := by
  have hd : ∀ ip ic j, (if sp then S else w.dndx) (nd * nn * (ip : Fin nip) + (ic : Fin nn) * nd + (j : Fin nd)) =
      (if sp then dS else f.dndx) ip ic j := by
    intro ip ic j; split_ifs
    · exact hS ..
    · exact hw.dndx ..
  have hl : ∀ ip ic j, (if sp then (if sp then S else w.dndx) else if red then S else (if sp then S else w.dndx))
      (nd * nn * (ip : Fin nip) + (ic : Fin nn) * nd + (j : Fin nd)) = (if sp || red then dS else f.dndx) ip ic j := by
    intro ip ic j
    cases sp <;> cases red
    · exact hw.dndx ..
    all_goals exact hS ..
  simp only [continuityOpen, Kernel.continuityOpenElem]
  refine h.loop fun ip s t h => ?_
  simp only [hw.ord, hw.near, hw.amag, hd, hl, hw.shape, hw.areav, gather1_get, gather2_get]
  refine Rel.bumpR encS (Rel.loop (Rel.loop h fun ic s t h => ?_) fun ic s t h => ?_) _ rfl rfl
  · exact Rel.bumpL encS h (f.near ip) (f.node ic) rfl rfl
  · exact Rel.bumpL encS h (f.near ip) ic rfl rfl

theorem pecFac_eq (o : Opts K) (v : UpwNodes nn nd K) (il ir : Fin nn) :
    o.peclet (|∑ i, 1 / 2 * (v.x ir i - v.x il i) * (v.vrtm il i + v.vrtm ir i)| / (1 / 2 * (v.mu il / v.rho il + v.mu ir / v.rho ir) + o.small)) =
      pecFac o v il ir := by
  rw [pecFac]
  congr 3
  exact Finset.sum_congr rfl fun i _ => by ring

theorem scalarOpen_rel (o : Opts K) {w : FaceWs K} {f : Face nn nf nip nd K} (hw : w.Holds f) (hloc : ∀ ip, f.node (f.loc ip) = f.near ip)
    (oppN nearN : ℕ → Fin nn) (ho : ∀ ip : Fin nip, oppN ip = f.opp ip) (hn : ∀ ip : Fin nip, nearN ip = f.near ip) (mdot : ℕ → K)
    (v : UpwNodes nn nd K) (q qbc : Fin nn → K) (G : Fin nn → Fin nd → K) (a : Fin 3 → ℕ → K) {s0 s : Flat K} {t : LocalSys (Fin nn) K}
    (h : Rel nn (fun r : Fin nn => (r : ℕ)) s0 s t) :
    Rel nn (fun r : Fin nn => (r : ℕ)) s0
      (scalarOpen nf nip nd o w mdot (gather1 nf (fun ic => q (f.node ic)) (a 0)) (gather1 nf (fun ic => qbc (f.node ic)) (a 1))
        (gather2 nf nd (fun ic => v.x (f.node ic)) (a 2)) v q G oppN nearN s)
      (Kernel.scalarOpenElem o f (fun ip => mdot ip) v q qbc G t) := by
  simp only [scalarOpen, Kernel.scalarOpenElem]
  refine h.loop fun ip s t h => ?_
  simp only [hw.ord, hw.near, hw.adv, ho, hn, hloc, gather1_get, gather2_get, pecFac_eq]
  by_cases hm : mdot ip > 0
  · simp only [if_pos hm, mul_one, sub_self, mul_zero, neg_zero, addR_zero]
    exact Rel.loop (Rel.bumpL encS (Rel.bumpR encS h _ rfl rfl) _ _ rfl rfl) fun ic s t h => Rel.bumpL encS h _ _ rfl rfl
  · simp only [if_neg hm, mul_zero, neg_zero, addR_zero, addL_zero, sub_zero, mul_one, loop_id]
    exact Rel.bumpR encS h _ rfl rfl

theorem viscousOpen_rel {w : FaceWs K} {f : Face nn nf nip nd K} (hw : w.Holds f) (ip : Fin nip) (mu inc : K) (nx : Fin nd → K) (near : Fin nn)
    (u : Fin nn → Fin nd → K) (a : ℕ → K) {s0 s : Flat K} {t : LocalSys (Fin nn × Fin nd) K} (h : Rel (nn * nd) rowV s0 s t) :
    Rel (nn * nd) rowV s0 (viscousFace nn nd near ip mu inc w (gather2 nn nd u a) (fun i => 1 - nx i * nx i) (fun c i l => c * (nx i * nx l))
      (fun i l => nx i * nx l) s) (Kernel.openViscous mu inc (f.dndx ip) (f.area ip) nx near u t) := by
  simp only [viscousFace, Kernel.openViscous]
  refine h.loop fun ic s t h => h.loop fun j s t h => h.loop fun i s t h => ?_
  simp only [hw.dndx, hw.areav, gather2_get]
  refine Rel.loop (Rel.bumpR encV (Rel.bumpL encV (Rel.bumpR encV (Rel.bumpL encV h (near, i) (ic, i) (colV (near, i) (ic, i)) rfl) (near, i) rfl rfl)
    (near, i) (ic, j) (colV (near, i) (ic, j)) rfl) (near, i) rfl rfl) fun l s t h => ?_
  split_ifs with hil
  · exact Rel.bumpR encV (Rel.bumpL encV (Rel.bumpR encV (Rel.bumpL encV h (near, i) (ic, l) (colV (near, i) (ic, l)) rfl) (near, i) rfl rfl)
      (near, i) (ic, j) (colV (near, i) (ic, j)) rfl) (near, i) rfl rfl
  · exact h

theorem viscousSym_rel {w : FaceWs K} {f : Face nn nf nip nd K} (hw : w.Holds f) (ip : Fin nip) (mu inc : K) (nx : Fin nd → K) (near : Fin nn)
    (u : Fin nn → Fin nd → K) (a : ℕ → K) {s0 s : Flat K} {t : LocalSys (Fin nn × Fin nd) K} (h : Rel (nn * nd) rowV s0 s t) :
    Rel (nn * nd) rowV s0 (viscousFace nn nd near ip mu inc w (gather2 nn nd u a) (fun i => nx i * nx i) (fun c i l => -c * (nx i * nx l))
      (fun i l => nx i * nx l) s) (Bc.symViscous mu inc (f.dndx ip) (f.area ip) nx near u t) := by
  simp only [viscousFace, Bc.symViscous]
  refine h.loop fun ic s t h => h.loop fun j s t h => h.loop fun i s t h => ?_
  simp only [hw.dndx, hw.areav, gather2_get]
  refine Rel.loop (Rel.bumpR encV (Rel.bumpL encV (Rel.bumpR encV (Rel.bumpL encV h (near, i) (ic, i) (colV (near, i) (ic, i)) rfl) (near, i) rfl rfl)
    (near, i) (ic, j) (colV (near, i) (ic, j)) rfl) (near, i) rfl rfl) fun l s t h => ?_
  split_ifs with hil
  · exact Rel.bumpR encV (Rel.bumpL encV (Rel.bumpR encV (Rel.bumpL encV h (near, i) (ic, l) (colV (near, i) (ic, l)) (by ring)) (near, i) rfl (by ring))
      (near, i) (ic, j) (colV (near, i) (ic, j)) (by ring)) (near, i) rfl (by ring)
  · exact h

theorem momentumSymmetry_rel (inc : K) {w : FaceWs K} {f : Face nn nf nip nd K} (hw : w.Holds f) (mu : Fin nn → K)
    (u : Fin nn → Fin nd → K) (a b : ℕ → K) {s0 s : Flat K} {t : LocalSys (Fin nn × Fin nd) K} (h : Rel (nn * nd) rowV s0 s t) :
    Rel (nn * nd) rowV s0
      (momentumSymmetry nn nf nip nd inc w (gather1 nf (fun ic => mu (f.node ic)) a) (gather2 nn nd u b) s)
      (Bc.symmetryElem inc f mu u t) := by
  simp only [momentumSymmetry, Bc.symmetryElem]
  refine h.loop fun ip s t h => ?_
  simp only [hw.shape, hw.areav, hw.amag, hw.near, gather1_get]
  exact viscousSym_rel hw ip _ _ _ _ u b h

theorem momentumOpen_rel (o : Opts K) {w : FaceWs K} {f : Face nn nf nip nd K} (hw : w.Holds f)
    (oppN nearN : ℕ → Fin nn) (ho : ∀ ip : Fin nip, oppN ip = f.opp ip) (hn : ∀ ip : Fin nip, nearN ip = f.near ip) (mdot : ℕ → K)
    (v : UpwNodes nn nd K) (m : OpenMom nn nd K) (a : Fin 7 → ℕ → K) {s0 s : Flat K} {t : LocalSys (Fin nn × Fin nd) K}
    (h : Rel (nn * nd) rowV s0 s t) :
    Rel (nn * nd) rowV s0
      (momentumOpen nf nip nd o m.incDivU m.meshCorr w mdot (gather1 nf (fun ic => v.rho (f.node ic)) (a 0))
        (gather1 nf (fun ic => v.mu (f.node ic)) (a 1)) (gather2 nf nd (fun ic => m.ubc (f.node ic)) (a 2))
        (gather2 nf nd (fun ic => m.vmesh (f.node ic)) (a 3)) (gather3 nf nd (fun ic => m.G (f.node ic)) (a 4)) (gather2 nn nd m.u (a 5))
        (gather2 nn nd v.x (a 6)) v m.u oppN nearN s)
      (Kernel.momentumOpenElem o f (fun ip => mdot ip) v m t) := by
  simp only [momentumOpen, Kernel.momentumOpenElem]
  refine h.loop fun ip s t h => ?_
  simp only [hw.ord, hw.near, hw.loc, hw.adv, hw.shape, hw.areav, hw.amag, ho, hn, gather1_get, gather2_get, gather3_get, pecFac_eq]
  refine viscousOpen_rel hw ip _ _ _ _ m.u (a 5) ?_
  by_cases hm : mdot ip > 0
  · simp only [if_pos hm, mul_one, sub_self, mul_zero, neg_zero, addR_zero]
    refine h.loop fun i s t h => ?_
    refine Rel.loop (Rel.bumpL encV (Rel.bumpR encV h (f.near ip, i) rfl rfl) (f.near ip, i) (f.near ip, i) ?_ rfl) fun ic s t h =>
      Rel.bumpL encV h (f.near ip, i) (f.node ic, i) (colV (f.near ip, i) (f.node ic, i)) rfl
    rw [← colV (f.near ip, i) (f.near ip, i)]; ring
  · simp only [if_neg hm, mul_zero, neg_zero, addR_zero, addL_zero, sub_zero, mul_one, loop_id]
    exact h.loop fun i s t h => Rel.bumpR encV h (f.near ip, i) rfl rfl

end Nalu.Legacy
