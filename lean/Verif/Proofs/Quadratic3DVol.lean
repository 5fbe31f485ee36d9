import Verif.Proofs.Quadratic3D
import Mathlib.Algebra.Polynomial.Eval.Degree
import Mathlib.Algebra.Polynomial.Degree.Operations

open Finset

namespace Nalu.P2
open Spec

/-! ### polynomials in one variable -/

/-- `f` is a polynomial of degree at most `n`. -/
def IsPoly (n : ℕ) (f : ℝ → ℝ) : Prop := ∃ p : Polynomial ℝ, p.natDegree ≤ n ∧ ∀ s, f s = p.eval s

theorem IsPoly.mul {m n : ℕ} {f g : ℝ → ℝ} (hf : IsPoly m f) (hg : IsPoly n g) : IsPoly (m + n) fun s => f s * g s := by
  obtain ⟨p, hp, hf⟩ := hf
  obtain ⟨q, hq, hg⟩ := hg
  exact ⟨p * q, Polynomial.natDegree_mul_le_of_le hp hq, fun s => by simp [hf, hg]⟩
theorem IsPoly.add {n : ℕ} {f g : ℝ → ℝ} (hf : IsPoly n f) (hg : IsPoly n g) : IsPoly n fun s => f s + g s := by
  obtain ⟨p, hp, hf⟩ := hf
  obtain ⟨q, hq, hg⟩ := hg
  exact ⟨p + q, Polynomial.natDegree_add_le_of_degree_le hp hq, fun s => by simp [hf, hg]⟩
theorem IsPoly.sub {n : ℕ} {f g : ℝ → ℝ} (hf : IsPoly n f) (hg : IsPoly n g) : IsPoly n fun s => f s - g s := by
  obtain ⟨p, hp, hf⟩ := hf
  obtain ⟨q, hq, hg⟩ := hg
  exact ⟨p - q, (Polynomial.natDegree_sub_le_of_le hp hq).trans (by simp), fun s => by simp [hf, hg]⟩
theorem IsPoly.mono {m n : ℕ} (h : m ≤ n) {f : ℝ → ℝ} (hf : IsPoly m f) : IsPoly n f := by
  obtain ⟨p, hp, hf⟩ := hf
  exact ⟨p, hp.trans h, hf⟩
theorem IsPoly.lin (a b : ℝ) : IsPoly 1 fun s => a + b * s :=
  ⟨Polynomial.C b * Polynomial.X + Polynomial.C a, Polynomial.natDegree_linear_le, fun s => by simp; ring⟩
theorem IsPoly.const (a : ℝ) : IsPoly 0 fun _ => a := ⟨Polynomial.C a, by simp, fun s => by simp⟩
theorem IsPoly.isCubic {f : ℝ → ℝ} (hf : IsPoly 3 f) : IsCubic f := by
  obtain ⟨p, hp, hf⟩ := hf
  refine ⟨p.coeff, fun s => ?_⟩
  rw [hf, Polynomial.eval_eq_sum_range' (n := 4) (by omega)]; rfl

/-! ### the rule in three directions -/

theorem gauss3 {J : ℝ → ℝ → ℝ → ℝ} (hs : ∀ t u, IsCubic fun s => J s t u) (ht : ∀ s u, IsCubic fun t => J s t u) (hu : ∀ s t, IsCubic fun u => J s t u)
    (k l m : ℕ) : ∑ n ∈ range 2, ∑ j ∈ range 2, ∑ i ∈ range 2, volWt k l m i j n * J (gaussLoc k i) (gaussLoc l j) (gaussLoc m n)
      = ∫ u in scsEnd m..scsEnd (m + 1), ∫ t in scsEnd l..scsEnd (l + 1), ∫ s in scsEnd k..scsEnd (k + 1), J s t u := by
  have h1 : ∀ t u, (∫ s in scsEnd k..scsEnd (k + 1), J s t u) = ∑ i ∈ range 2, lineWt k i * J (gaussLoc k i) t u :=
    fun t u => ((hs t u).gauss k).symm
  have h2 : ∀ u, (∫ t in scsEnd l..scsEnd (l + 1), ∑ i ∈ range 2, lineWt k i * J (gaussLoc k i) t u)
      = ∑ j ∈ range 2, lineWt l j * ∑ i ∈ range 2, lineWt k i * J (gaussLoc k i) (gaussLoc l j) u := fun u =>
    (IsCubic.gauss (f := fun t => ∑ i ∈ range 2, lineWt k i * J (gaussLoc k i) t u) (IsCubic.sum _ fun i _ => (ht _ u).const_mul _) l).symm
  simp only [h1, h2]
  rw [← IsCubic.gauss (f := fun u => ∑ j ∈ range 2, lineWt l j * ∑ i ∈ range 2, lineWt k i * J (gaussLoc k i) (gaussLoc l j) u)
    (IsCubic.sum _ fun j _ => (IsCubic.sum _ fun i _ => (hu _ _).const_mul _).const_mul _) m]
  refine Finset.sum_congr rfl fun n _ => ?_
  rw [Finset.mul_sum]
  refine Finset.sum_congr rfl fun j _ => ?_
  rw [← mul_assoc, Finset.mul_sum]
  refine Finset.sum_congr rfl fun i _ => ?_
  rw [volWt_eq]; ring

/-! ### the Jacobian -/

theorem map3_eq (x : ℕ → Fin 3 → ℝ) (c : Fin 3) (s t u : ℝ) : map3 x c s t u = m3 ell ell ell x c s t u := rfl

theorem dmap3_eq (x : ℕ → Fin 3 → ℝ) (c : Fin 3) (s t u : ℝ) : dmap3 x 0 c s t u = m3 dell ell ell x c s t u ∧
    dmap3 x 1 c s t u = m3 ell dell ell x c s t u ∧ dmap3 x 2 c s t u = m3 ell ell dell x c s t u :=
  ⟨((m3_quad_s ell ell x c t u).hasDerivAt s).deriv, ((m3_quad_t ell ell x c s u).hasDerivAt t).deriv, ((m3_quad_u ell ell x c s t).hasDerivAt u).deriv⟩

theorem tangent27 (x : ℕ → Fin 3 → ℝ) (r c : Fin 3) (s t u : ℝ) : tangent 27 (hex27Deriv s t u) x r c = dmap3 x r c s t u := by
  fin_cases r
  · exact (tangent27_s x c s t u).trans (dmap3_eq x c s t u).1.symm
  · exact (tangent27_t x c s t u).trans (dmap3_eq x c s t u).2.1.symm
  · exact (tangent27_u x c s t u).trans (dmap3_eq x c s t u).2.2.symm

theorem det3_eq (x : ℕ → Fin 3 → ℝ) (s t u : ℝ) : det3 (hex27Deriv s t u) x = jac3 x s t u := by
  simp only [det3, tangent27, jac3, Matrix.det_fin_three, Matrix.of_apply]
  ring

theorem hex27_scv_sum (F : SideIp 3 → ℝ) : (hex27ScvIps.map F).sum
    = ∑ n ∈ range 3, ∑ m ∈ range 3, ∑ l ∈ range 3, ∑ k ∈ range 2, ∑ j ∈ range 2, ∑ i ∈ range 2,
      F { loc := ![gaussLoc l i, gaussLoc m j, gaussLoc n k], node := hexNode l m n, weight := volWt l m n i j k } := by
  simp only [hex27ScvIps, sum_flatMap_range, sum_map_range]

theorem sum_hexNode (f : ℕ → ℕ → ℕ → ℝ) {a b d : ℕ} (ha : a < 3) (hb : b < 3) (hd : d < 3) :
    (∑ m ∈ range 3, ∑ l ∈ range 3, ∑ k ∈ range 3, if hexNode k l m = hexNode a b d then f k l m else 0) = f a b d := by
  rw [Finset.sum_eq_single_of_mem d (mem_range.2 hd)]
  · rw [sum_two (fun k l => f k l d) ha hb (Q := True) fun k hk l hl => by rw [hexNode_inj hk hl hd ha hb hd]; tauto]
    simp
  · intro m hm hmd
    rw [sum_two (fun k l => f k l m) ha hb (Q := False) fun k hk l hl => by rw [hexNode_inj hk hl (mem_range.1 hm) ha hb hd]; tauto]
    simp

theorem hex27_node_vol {x : ℕ → Fin 3 → ℝ} (hs : ∀ t u, IsCubic fun s => jac3 x s t u) (ht : ∀ s u, IsCubic fun t => jac3 x s t u)
    (hu : ∀ s t, IsCubic fun u => jac3 x s t u) {n : ℕ} (hn : n < 27) :
    (hex27ScvIps.map fun ip => if ip.node = n then hex27Vol x ip else 0).sum
      = ∫ u in lo (ref3 n).2.2..hi (ref3 n).2.2, ∫ t in lo (ref3 n).2.1..hi (ref3 n).2.1, ∫ s in lo (ref3 n).1..hi (ref3 n).1, jac3 x s t u := by
  obtain ⟨a, ha, b, hb, d, hd, rfl⟩ := hexNode_surj hn
  rw [hex27_scv_sum]
  simp only [sum_ite_zero]
  rw [sum_hexNode (fun l m n => ∑ k ∈ range 2, ∑ j ∈ range 2, ∑ i ∈ range 2, hex27Vol x
    { loc := ![gaussLoc l i, gaussLoc m j, gaussLoc n k], node := hexNode l m n, weight := volWt l m n i j k }) ha hb hd]
  rw [hexNode_ref ha hb hd, ← (lo_hi a ha).1, ← (lo_hi a ha).2, ← (lo_hi b hb).1, ← (lo_hi b hb).2, ← (lo_hi d hd).1, ← (lo_hi d hd).2,
    ← gauss3 hs ht hu]
  refine Finset.sum_congr rfl fun k _ => Finset.sum_congr rfl fun j _ => Finset.sum_congr rfl fun i _ => ?_
  simp only [hex27Vol, Matrix.cons_val_zero, Matrix.cons_val_one, Matrix.cons_val, det3_eq]

/-! ### trilinear elements -/

/-- The quadratic basis reproduces polynomials of degree two in each variable. -/
theorem m3_triquad (a : ℕ → ℕ → ℕ → ℝ) (s t u : ℝ) (x : ℕ → Fin 3 → ℝ) (c : Fin 3)
    (hx : ∀ n < 27, x n c = triquad a ((ref3 n).1 : ℝ) ((ref3 n).2.1 : ℝ) ((ref3 n).2.2 : ℝ)) : map3 x c s t u = triquad a s t u := by
  have e1 : ∀ (i : ℕ), i < 3 → ∀ s : ℝ, ∑ n ∈ range 3, ell ((n : ℤ) - 1) s * ((((n : ℤ) - 1 : ℤ)) : ℝ) ^ i = s ^ i := by
    intro i hi s
    interval_cases i <;> norm_num [sum_range_succ, ell] <;> ring
  have step : map3 x c s t u = ∑ m ∈ range 3, ∑ l ∈ range 3, ∑ k ∈ range 3,
      ell ((k : ℤ) - 1) s * ell ((l : ℤ) - 1) t * ell ((m : ℤ) - 1) u * x (hexNode k l m) c := by
    simp only [map3, sum_range_succ, sum_range_zero, hexNode, ref3]
    simp
    ring
  have hx' : ∀ k < 3, ∀ l < 3, ∀ m < 3, x (hexNode k l m) c = triquad a (((k : ℤ) - 1 : ℤ) : ℝ) (((l : ℤ) - 1 : ℤ) : ℝ) (((m : ℤ) - 1 : ℤ) : ℝ) := by
    intro k hk l hl m hm
    rw [hx _ (by revert k l m; decide), hexNode_ref hk hl hm]
  rw [step]
  calc _ = ∑ m ∈ range 3, ∑ l ∈ range 3, ∑ k ∈ range 3, ∑ i ∈ range 3, ∑ j ∈ range 3, ∑ q ∈ range 3, a i j q
        * (ell ((k : ℤ) - 1) s * (((k : ℤ) - 1 : ℤ) : ℝ) ^ i) * (ell ((l : ℤ) - 1) t * (((l : ℤ) - 1 : ℤ) : ℝ) ^ j)
        * (ell ((m : ℤ) - 1) u * (((m : ℤ) - 1 : ℤ) : ℝ) ^ q) := by
        refine Finset.sum_congr rfl fun m hm => Finset.sum_congr rfl fun l hl => Finset.sum_congr rfl fun k hk => ?_
        rw [hx' k (mem_range.1 hk) l (mem_range.1 hl) m (mem_range.1 hm), triquad, Finset.mul_sum]
        refine Finset.sum_congr rfl fun i _ => ?_
        rw [Finset.mul_sum]
        refine Finset.sum_congr rfl fun j _ => ?_
        rw [Finset.mul_sum]
        refine Finset.sum_congr rfl fun q _ => ?_
        ring
    _ = ∑ i ∈ range 3, ∑ j ∈ range 3, ∑ q ∈ range 3, a i j q * (∑ k ∈ range 3, ell ((k : ℤ) - 1) s * (((k : ℤ) - 1 : ℤ) : ℝ) ^ i)
        * (∑ l ∈ range 3, ell ((l : ℤ) - 1) t * (((l : ℤ) - 1 : ℤ) : ℝ) ^ j) * (∑ m ∈ range 3, ell ((m : ℤ) - 1) u * (((m : ℤ) - 1 : ℤ) : ℝ) ^ q) := by
        have sw : ∀ F : ℕ → ℕ → ℕ → ℕ → ℕ → ℕ → ℝ, (∑ m ∈ range 3, ∑ l ∈ range 3, ∑ k ∈ range 3, ∑ i ∈ range 3, ∑ j ∈ range 3, ∑ q ∈ range 3, F m l k i j q)
            = ∑ i ∈ range 3, ∑ j ∈ range 3, ∑ q ∈ range 3, ∑ m ∈ range 3, ∑ l ∈ range 3, ∑ k ∈ range 3, F m l k i j q := by
          intro F
          have o : ∀ G : ℕ → ℕ → ℕ → ℕ → ℝ, (∑ k ∈ range 3, ∑ i ∈ range 3, ∑ j ∈ range 3, ∑ q ∈ range 3, G k i j q)
              = ∑ i ∈ range 3, ∑ j ∈ range 3, ∑ q ∈ range 3, ∑ k ∈ range 3, G k i j q := by
            intro G
            rw [Finset.sum_comm]
            refine Finset.sum_congr rfl fun i _ => ?_
            rw [Finset.sum_comm]
            refine Finset.sum_congr rfl fun j _ => ?_
            rw [Finset.sum_comm]
          rw [← o]
          refine Finset.sum_congr rfl fun m _ => ?_
          rw [← o]
          refine Finset.sum_congr rfl fun l _ => ?_
          rw [← o]
        rw [sw]
        refine Finset.sum_congr rfl fun i _ => Finset.sum_congr rfl fun j _ => Finset.sum_congr rfl fun q _ => ?_
        simp only [sum_range_succ, sum_range_zero, zero_add]
        ring
    _ = triquad a s t u := by
        rw [triquad]
        refine Finset.sum_congr rfl fun i hi => Finset.sum_congr rfl fun j hj => Finset.sum_congr rfl fun q hq => ?_
        rw [e1 i (mem_range.1 hi), e1 j (mem_range.1 hj), e1 q (mem_range.1 hq)]

theorem trilin_triquad (a : ℕ → ℕ → ℕ → ℝ) (s t u : ℝ) :
    trilin a s t u = triquad (fun i j k => if i < 2 ∧ j < 2 ∧ k < 2 then a i j k else 0) s t u := by
  simp [trilin, triquad, sum_range_succ]

theorem map3_trilin {a : Fin 3 → ℕ → ℕ → ℕ → ℝ} {x : ℕ → Fin 3 → ℝ}
    (hx : ∀ n < 27, ∀ c, x n c = trilin (a c) ((ref3 n).1 : ℝ) ((ref3 n).2.1 : ℝ) ((ref3 n).2.2 : ℝ)) (c : Fin 3) (s t u : ℝ) :
    map3 x c s t u = trilin (a c) s t u := by
  rw [trilin_triquad, m3_triquad _ s t u x c fun n hn => by rw [hx n hn, trilin_triquad]]

theorem deriv_lin (f : ℝ → ℝ) (a b : ℝ) (h : ∀ s, f s = a + b * s) (s : ℝ) : deriv f s = b := by
  have : f = fun s => a + b * s := funext h
  rw [this]
  simp

theorem dmap3_trilin {a : Fin 3 → ℕ → ℕ → ℕ → ℝ} {x : ℕ → Fin 3 → ℝ}
    (hx : ∀ n < 27, ∀ c, x n c = trilin (a c) ((ref3 n).1 : ℝ) ((ref3 n).2.1 : ℝ) ((ref3 n).2.2 : ℝ)) (c : Fin 3) (s t u : ℝ) :
    dmap3 x 0 c s t u = (a c 1 0 0 + a c 1 0 1 * u) + (a c 1 1 0 + a c 1 1 1 * u) * t ∧
    dmap3 x 1 c s t u = (a c 0 1 0 + a c 0 1 1 * u) + (a c 1 1 0 + a c 1 1 1 * u) * s ∧
    dmap3 x 2 c s t u = (a c 0 0 1 + a c 0 1 1 * t) + (a c 1 0 1 + a c 1 1 1 * t) * s := by
  have h := map3_trilin hx c
  refine ⟨?_, ?_, ?_⟩
  · refine deriv_lin _ (a c 0 0 0 + a c 0 0 1 * u + (a c 0 1 0 + a c 0 1 1 * u) * t) _ (fun s => ?_) s
    rw [h]; simp [trilin, sum_range_succ]; ring
  · refine deriv_lin _ (a c 0 0 0 + a c 0 0 1 * u + (a c 1 0 0 + a c 1 0 1 * u) * s) _ (fun t => ?_) t
    rw [h]; simp [trilin, sum_range_succ]; ring
  · refine deriv_lin _ (a c 0 0 0 + a c 0 1 0 * t + (a c 1 0 0 + a c 1 1 0 * t) * s) _ (fun u => ?_) u
    rw [h]; simp [trilin, sum_range_succ]; ring

/-- The determinant of three rows of low degree. -/
theorem isCubic_det {f : Fin 3 → Fin 3 → ℝ → ℝ} {l m n : ℕ} (h0 : ∀ c, IsPoly l (f 0 c)) (h1 : ∀ c, IsPoly m (f 1 c)) (h2 : ∀ c, IsPoly n (f 2 c))
    (h : l + m + n ≤ 3) : IsCubic fun s => Matrix.det (Matrix.of fun r c : Fin 3 => f r c s) := by
  have p : ∀ c d e, IsPoly 3 fun s => f 0 c s * f 1 d s * f 2 e s := fun c d e => (((h0 c).mul (h1 d)).mul (h2 e)).mono h
  refine IsPoly.isCubic ?_
  obtain ⟨q, hq, hf⟩ := ((((((p 0 1 2).sub (p 0 2 1)).sub (p 1 0 2)).add (p 1 2 0)).add (p 2 0 1)).sub (p 2 1 0))
  exact ⟨q, hq, fun s => by rw [← hf]; simp only [Matrix.det_fin_three, Matrix.of_apply]⟩

theorem jac3_cubic {a : Fin 3 → ℕ → ℕ → ℕ → ℝ} {x : ℕ → Fin 3 → ℝ}
    (hx : ∀ n < 27, ∀ c, x n c = trilin (a c) ((ref3 n).1 : ℝ) ((ref3 n).2.1 : ℝ) ((ref3 n).2.2 : ℝ)) :
    (∀ t u, IsCubic fun s => jac3 x s t u) ∧ (∀ s u, IsCubic fun t => jac3 x s t u) ∧ ∀ s t, IsCubic fun u => jac3 x s t u := by
  have h0 := fun c s t u => (dmap3_trilin hx c s t u).1
  have h1 := fun c s t u => (dmap3_trilin hx c s t u).2.1
  have h2 := fun c s t u => (dmap3_trilin hx c s t u).2.2
  refine ⟨fun t u => ?_, fun s u => ?_, fun s t => ?_⟩
  · refine isCubic_det (f := fun r c s => dmap3 x r c s t u) (l := 0) (m := 1) (n := 1) (fun c => ?_) (fun c => ?_) (fun c => ?_) (by norm_num)
    · simp only [h0]; exact IsPoly.const _
    · simp only [h1]; exact IsPoly.lin _ _
    · simp only [h2]; exact IsPoly.lin _ _
  · refine isCubic_det (f := fun r c t => dmap3 x r c s t u) (l := 1) (m := 0) (n := 1) (fun c => ?_) (fun c => ?_) (fun c => ?_) (by norm_num)
    · simp only [h0]; exact IsPoly.lin _ _
    · simp only [h1]; exact IsPoly.const _
    · simp only [h2]
      have := IsPoly.lin (a c 0 0 1 + a c 1 0 1 * s) (a c 0 1 1 + a c 1 1 1 * s)
      obtain ⟨q, hq, hf⟩ := this
      exact ⟨q, hq, fun t => by rw [← hf]; ring⟩
  · refine isCubic_det (f := fun r c u => dmap3 x r c s t u) (l := 1) (m := 1) (n := 0) (fun c => ?_) (fun c => ?_) (fun c => ?_) (by norm_num)
    · simp only [h0]
      obtain ⟨q, hq, hf⟩ := IsPoly.lin (a c 1 0 0 + a c 1 1 0 * t) (a c 1 0 1 + a c 1 1 1 * t)
      exact ⟨q, hq, fun u => by rw [← hf]; ring⟩
    · simp only [h1]
      obtain ⟨q, hq, hf⟩ := IsPoly.lin (a c 0 1 0 + a c 1 1 0 * s) (a c 0 1 1 + a c 1 1 1 * s)
      exact ⟨q, hq, fun u => by rw [← hf]; ring⟩
    · simp only [h2]; exact IsPoly.const _

/-! ### a curved element -/

/-- The element `(s, t(1+s²), u(1+s²))`. -/
noncomputable def barrel (n : ℕ) : Fin 3 → ℝ :=
  ![((ref3 n).1 : ℝ), ((ref3 n).2.1 : ℝ) * (1 + ((ref3 n).1 : ℝ) ^ 2), ((ref3 n).2.2 : ℝ) * (1 + ((ref3 n).1 : ℝ) ^ 2)]

theorem barrel_map (s t u : ℝ) : map3 barrel 0 s t u = s ∧ map3 barrel 1 s t u = t * (1 + s ^ 2) ∧ map3 barrel 2 s t u = u * (1 + s ^ 2) := by
  refine ⟨?_, ?_, ?_⟩
  · rw [m3_triquad (fun i j k => if i = 1 ∧ j = 0 ∧ k = 0 then 1 else 0) s t u barrel 0 fun n _ => by simp [barrel, triquad, sum_range_succ]]
    simp [triquad, sum_range_succ]
  · rw [m3_triquad (fun i j k => if (i = 0 ∨ i = 2) ∧ j = 1 ∧ k = 0 then 1 else 0) s t u barrel 1 fun n _ => by simp [barrel, triquad, sum_range_succ]; ring]
    simp [triquad, sum_range_succ]; ring
  · rw [m3_triquad (fun i j k => if (i = 0 ∨ i = 2) ∧ j = 0 ∧ k = 1 then 1 else 0) s t u barrel 2 fun n _ => by simp [barrel, triquad, sum_range_succ]; ring]
    simp [triquad, sum_range_succ]; ring

theorem barrel_jac (s t u : ℝ) : jac3 barrel s t u = (1 + s ^ 2) ^ 2 := by
  have h := barrel_map
  have a00 : dmap3 barrel 0 0 s t u = 1 := deriv_lin _ 0 1 (fun s => by rw [(h s t u).1]; ring) s
  have a10 : dmap3 barrel 1 0 s t u = 0 := deriv_lin _ s 0 (fun t => by rw [(h s t u).1]; ring) t
  have a20 : dmap3 barrel 2 0 s t u = 0 := deriv_lin _ s 0 (fun u => by rw [(h s t u).1]; ring) u
  have a11 : dmap3 barrel 1 1 s t u = 1 + s ^ 2 := deriv_lin _ 0 (1 + s ^ 2) (fun t => by rw [(h s t u).2.1]; ring) t
  have a21 : dmap3 barrel 2 1 s t u = 0 := deriv_lin _ (t * (1 + s ^ 2)) 0 (fun u => by rw [(h s t u).2.1]; ring) u
  have a12 : dmap3 barrel 1 2 s t u = 0 := deriv_lin _ (u * (1 + s ^ 2)) 0 (fun t => by rw [(h s t u).2.2]; ring) t
  have a22 : dmap3 barrel 2 2 s t u = 1 + s ^ 2 := deriv_lin _ 0 (1 + s ^ 2) (fun u => by rw [(h s t u).2.2]; ring) u
  simp only [jac3, Matrix.det_fin_three, Matrix.of_apply, a00, a10, a20, a11, a21, a12, a22]
  ring

theorem barrel_exact : (∫ u in (-1 : ℝ)..1, ∫ t in (-1 : ℝ)..1, ∫ s in (-1 : ℝ)..1, jac3 barrel s t u) = 224 / 15 := by
  have : (∫ s in (-1 : ℝ)..1, (1 + s ^ 2) ^ 2) = 56 / 15 := by
    have e : ∀ s : ℝ, (1 + s ^ 2) ^ 2 = 1 + 2 * s ^ 2 + s ^ 4 := fun s => by ring
    simp only [e]
    rw [intervalIntegral.integral_add (Continuous.intervalIntegrable (by fun_prop) _ _) (Continuous.intervalIntegrable (by fun_prop) _ _),
      intervalIntegral.integral_add (Continuous.intervalIntegrable (by fun_prop) _ _) (Continuous.intervalIntegrable (by fun_prop) _ _),
      intervalIntegral.integral_const_mul, integral_pow, integral_pow]
    simp
    norm_num
  simp only [barrel_jac, this]
  simp
  norm_num

/-- The rule loses `Σ h⁵/45` of the volume. -/
theorem barrel_rule : (hex27ScvIps.map (hex27Vol barrel)).sum
    = 224 / 15 - (2 * (1 - scsDist) ^ 5 + (2 * scsDist) ^ 5) / 45 := by
  rw [hex27_scv_sum]
  simp only [hex27Vol, Matrix.cons_val_zero, Matrix.cons_val_one, Matrix.cons_val, det3_eq, barrel_jac, volWt_eq]
  simp only [sum_range_succ, sum_range_zero, zero_add, lineWt, gaussLoc, isoMap, gaussAbs_eq, gaussWt_eq, scsEnd]
  simp only [if_true, one_ne_zero, if_false]
  have h := dist_sq
  generalize scsDist = d at *
  have h2 : d ^ 2 = 1 / 3 := by linarith
  have h4 : d ^ 4 = 1 / 9 := by rw [show d ^ 4 = (d ^ 2) ^ 2 by ring, h2]; norm_num
  have h3 : d ^ 3 = 1 / 3 * d := by rw [show d ^ 3 = d ^ 2 * d by ring, h2]
  have h5 : d ^ 5 = 1 / 9 * d := by rw [show d ^ 5 = d ^ 4 * d by ring, h4]
  ring_nf
  have h6 : d ^ 6 = 1 / 27 := by rw [show d ^ 6 = (d ^ 2) ^ 3 by ring, h2]; norm_num
  have h7 : d ^ 7 = 1 / 27 * d := by rw [show d ^ 7 = d ^ 6 * d by ring, h6]
  have h8 : d ^ 8 = 1 / 81 := by rw [show d ^ 8 = (d ^ 2) ^ 4 by ring, h2]; norm_num
  have h9 : d ^ 9 = 1 / 81 * d := by rw [show d ^ 9 = d ^ 8 * d by ring, h8]
  norm_num [h2, h3, h4, h5, h6, h7, h8, h9]
  ring

end Nalu.P2
