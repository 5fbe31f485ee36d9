import Verif.Props.QuadraticMaps

/-!
# Quadratic boundary elements in batches (C204) and the point-in-element search (C205)
-/

open Finset

namespace Nalu.P2
open Spec

/-! ## C204: several boundary elements at once -/

theorem stored_nil {α : Type*} (i : ℕ) : stored ([] : List (ℕ × α)) i = none := rfl

theorem stored_append {α : Type*} (v w : List (ℕ × α)) (i : ℕ) : stored (v ++ w) i = (stored w i).or (stored v i) := by
  simp only [stored, List.reverse_append, List.find?_append]
  cases (w.reverse.find? fun e => e.1 = i) <;> simp

theorem stored_cons {α : Type*} (e : ℕ × α) (w : List (ℕ × α)) (i : ℕ) : stored (e :: w) i = (stored w i).or (if e.1 = i then some e.2 else none) := by
  rw [← List.singleton_append, stored_append]
  congr 1
  by_cases h : e.1 = i <;> simp [stored, h]

theorem stored_block {α β : Type*} (f : α → β) (o : ℕ) (l : List α) (s i : ℕ) :
    stored ((l.zipIdx s).map fun e => (e.2 + o, f e.1)) i = if s + o ≤ i then (l[i - (s + o)]?).map f else none := by
  induction l generalizing s with
  | nil => simp [stored_nil]
  | cons a l ih =>
    rw [List.zipIdx_cons, List.map_cons, stored_cons, ih]
    by_cases h1 : s + o = i
    · subst h1
      simp
    · by_cases h2 : s + o ≤ i
      · have h3 : s + 1 + o ≤ i := by omega
        have h4 : i - (s + o) = (i - (s + 1 + o)) + 1 := by omega
        simp [h1, h2, h3, h4]
      · have h3 : ¬ s + 1 + o ≤ i := by omega
        simp [h1, h2, h3]

/-- Writes in blocks of a stride that covers the block. -/
theorem stored_blocks {α β : Type*} (f : ℕ → α → β) (l : List α) (st nelem : ℕ) (hl : l.length ≤ st) {k i : ℕ} (hk : k < nelem) (hi : i < l.length) :
    stored ((List.range nelem).flatMap fun k => l.zipIdx.map fun e => (e.2 + st * k, f k e.1)) (i + st * k) = (l[i]?).map (f k) := by
  induction nelem with
  | zero => omega
  | succ n ih =>
    rw [List.range_succ, List.flatMap_append, stored_append]
    simp only [List.flatMap_cons, List.flatMap_nil, List.append_nil]
    rw [stored_block]
    by_cases hkn : k = n
    · subst hkn
      rw [if_pos (by omega), show i + st * k - (0 + st * k) = i by omega, List.getElem?_eq_getElem hi]
      rfl
    · have hkn : k + 1 ≤ n := by omega
      rw [if_neg, Option.none_or, ih (by omega)]
      have := Nat.mul_le_mul_left st hkn
      rw [Nat.mul_succ] at this
      omega

/-- Faces: every point of every face of a batch gets its area vector. -/
theorem c204_faces (nelem : ℕ) (x : ℕ → ℕ → Fin 3 → ℝ) {k i : ℕ} (hk : k < nelem) (hi : i < 36) :
    ∃ ip, face9Ips[i]? = some ip ∧ stored (face9Writes nelem x) (i + 36 * k) = some (face9AreaVec (x k) ip) := by
  have hl : face9Ips.length = 36 := rfl
  have h : face9Ips[i]? = some face9Ips[i] := List.getElem?_eq_getElem (by omega)
  refine ⟨_, h, ?_⟩
  rw [face9Writes, stored_blocks (fun k => face9AreaVec (x k)) face9Ips 36 nelem hl.le hk (by omega), h]
  rfl

/-- Edges: a single edge gets all its area vectors.  Missing: batches of two or more. -/
theorem c204_one_edge_partial (x : ℕ → ℕ → Fin 2 → ℝ) {i : ℕ} (hi : i < 6) :
    ∃ ip, edge3Ips[i]? = some ip ∧ stored (edge3Writes 1 x) i = some (edge3AreaVec (x 0) ip) := by
  have hl : edge3Ips.length = 6 := rfl
  have h : edge3Ips[i]? = some edge3Ips[i] := List.getElem?_eq_getElem (by omega)
  refine ⟨_, h, ?_⟩
  have : edge3Writes 1 x = edge3Ips.zipIdx.map fun e => (e.2 + 3 * 0, edge3AreaVec (x 0) e.1) := by
    simp [edge3Writes]
  rw [this, stored_block (fun ip => edge3AreaVec (x 0) ip), if_pos (by omega), show i - (0 + 3 * 0) = i by omega, h]
  rfl

/-- Two edges: the second edge overwrites half of the first, and the last three places (of twelve) are never written. -/
theorem c204_two_edges_counterexample (x : ℕ → ℕ → Fin 2 → ℝ) :
    (∀ i < 6, ∃ ip, edge3Ips[i]? = some ip ∧ stored (edge3Writes 2 x) (i + 3) = some (edge3AreaVec (x 1) ip)) ∧
    ∀ i, 9 ≤ i → stored (edge3Writes 2 x) i = none := by
  have hl : edge3Ips.length = 6 := rfl
  have e : edge3Writes 2 x = (edge3Ips.zipIdx.map fun e => (e.2 + 3 * 0, edge3AreaVec (x 0) e.1))
      ++ edge3Ips.zipIdx.map fun e => (e.2 + 3 * 1, edge3AreaVec (x 1) e.1) := by
    simp [edge3Writes, List.range_succ]
  constructor
  · intro i hi
    have h : edge3Ips[i]? = some edge3Ips[i] := List.getElem?_eq_getElem (by omega)
    refine ⟨_, h, ?_⟩
    rw [e, stored_append, stored_block (fun ip => edge3AreaVec (x 1) ip), if_pos (by omega), show i + 3 - (0 + 3 * 1) = i by omega, h]
    rfl
  · intro i hi
    rw [e, stored_append, stored_block (fun ip => edge3AreaVec (x 1) ip), stored_block (fun ip => edge3AreaVec (x 0) ip), if_pos (by omega), if_pos (by omega),
      List.getElem?_eq_none (by omega), List.getElem?_eq_none (by omega)]
    rfl

/-! ## C205: point in element -/

/-- A converged search: the last step was shorter than the tolerance and solved the linearised equation. -/
theorem c205_converged {tol : ℝ} {x : ℕ → Fin 2 → ℝ} {p g : Fin 2 → ℝ} {dist : ℝ} (h : quad9InElement tol x p = some (g, dist)) :
    dist = max |g 0| |g 1| ∧ ∃ g0 d : Fin 2 → ℝ, (∀ c, g c = g0 c + d c) ∧ d 0 ^ 2 + d 1 ^ 2 < tol ∧
      ∀ c, map2 x c (g0 0) (g0 1) + deriv (fun s => map2 x c s (g0 1)) (g0 0) * d 0 + deriv (fun t => map2 x c (g0 0) t) (g0 1) * d 1 = p c := by
  have key : ∀ fuel g0 g, quad9Newton tol x p fuel g0 = some g → ∃ g0 d : Fin 2 → ℝ, (∀ c, g c = g0 c + d c) ∧ d 0 ^ 2 + d 1 ^ 2 < tol ∧
      ∀ c, map2 x c (g0 0) (g0 1) + deriv (fun s => map2 x c s (g0 1)) (g0 0) * d 0 + deriv (fun t => map2 x c (g0 0) t) (g0 1) * d 1 = p c := by
    intro fuel
    induction fuel with
    | zero => intro g0 g h; simp [quad9Newton] at h
    | succ n ih =>
      intro g0 g h
      rw [quad9Newton] at h
      cases hd : quad9Delta x p g0 with
      | none => rw [hd] at h; simp at h
      | some d =>
        rw [hd] at h
        simp only at h
        split_ifs at h with ht
        · obtain rfl := Option.some.inj h
          refine ⟨g0, d, ?_, ?_, ?_⟩
          · intro c; fin_cases c <;> rfl
          · have : 0 ≤ d 0 * d 0 + d 1 * d 1 := by nlinarith [mul_self_nonneg (d 0), mul_self_nonneg (d 1)]
            rw [abs_of_nonneg this] at ht; nlinarith
          · have hi : ∀ c, interp 9 (quad9Shape (g0 0) (g0 1)) (fun k => x k c) = map2 x c (g0 0) (g0 1) := fun c =>
              Finset.sum_congr rfl fun n hn => by rw [quad9Shape_eq (mem_range.1 hn)]
            simp only [quad9Delta, tangent9_s, tangent9_t, hi] at hd
            split_ifs at hd with hz
            have hd := Option.some.inj hd
            have h0 := congrFun hd 0
            have h1 := congrFun hd 1
            simp only [Matrix.cons_val_zero, Matrix.cons_val_one] at h0 h1
            rw [div_eq_iff hz] at h0 h1
            intro c
            rw [((map2_quad_s x c (g0 1)).hasDerivAt (g0 0)).deriv, ((map2_quad_t x c (g0 0)).hasDerivAt (g0 1)).deriv]
            have both : (map2 x 0 (g0 0) (g0 1) + map2s x 0 (g0 0) (g0 1) * d 0 + map2t x 0 (g0 0) (g0 1) * d 1 = p 0) ∧
                map2 x 1 (g0 0) (g0 1) + map2s x 1 (g0 0) (g0 1) * d 0 + map2t x 1 (g0 0) (g0 1) * d 1 = p 1 := by
              generalize map2s x 0 (g0 0) (g0 1) = A at *
              generalize map2s x 1 (g0 0) (g0 1) = C at *
              generalize map2t x 0 (g0 0) (g0 1) = B at *
              generalize map2t x 1 (g0 0) (g0 1) = D at *
              constructor
              · refine mul_left_cancel₀ hz ?_
                linear_combination -A * h0 - B * h1
              · refine mul_left_cancel₀ hz ?_
                linear_combination -C * h0 - D * h1
            fin_cases c
            · exact both.1
            · exact both.2
        · exact ih _ _ h
  simp only [quad9InElement, Option.map_eq_some_iff, Prod.mk.injEq] at h
  obtain ⟨g', hg', rfl, rfl⟩ := h
  refine ⟨?_, key _ _ _ hg'⟩
  split_ifs with hc
  · rw [max_eq_left hc.le]
  · rw [max_eq_right (not_lt.1 hc)]

/-- An element with affine geometry: the search always succeeds, its result maps to the point, and the returned distance is at most one exactly when the
point is in the element. -/
theorem c205_affine {tol : ℝ} (ht : 0 < tol) {x : ℕ → Fin 2 → ℝ} {a : Fin 2 → ℝ} {b : Fin 2 → Fin 2 → ℝ}
    (hx : ∀ n < 9, ∀ c, x n c = a c + b c 0 * (ref2 n).1 + b c 1 * (ref2 n).2) (hd : b 0 0 * b 1 1 - b 0 1 * b 1 0 ≠ 0) (p : Fin 2 → ℝ) :
    ∃ g dist, quad9InElement tol x p = some (g, dist) ∧ (∀ c, p c = a c + b c 0 * g 0 + b c 1 * g 1) ∧
      (dist ≤ 1 ↔ ∃ q : Fin 2 → ℝ, |q 0| ≤ 1 ∧ |q 1| ≤ 1 ∧ ∀ c, p c = a c + b c 0 * q 0 + b c 1 * q 1) := by
  have hm : ∀ c s t, map2 x c s t = a c + b c 0 * s + b c 1 * t := by
    intro c s t
    have : map2 x c s t = ∑ n ∈ range 9, ell (ref2 n).1 s * ell (ref2 n).2 t * (a c + b c 0 * (ref2 n).1 + b c 1 * (ref2 n).2) :=
      Finset.sum_congr rfl fun n hn => by rw [hx n (mem_range.1 hn)]
    rw [this]
    simp [sum_range_succ, ref2, ell]
    try ring
  have hs : ∀ c s t, map2s x c s t = b c 0 := by
    intro c s t
    have h1 := ((map2_quad_s x c t).hasDerivAt s).deriv
    rw [← h1]
    exact deriv_lin _ (a c + b c 1 * t) (b c 0) (fun s => by rw [hm]; ring) s
  have ht' : ∀ c s t, map2t x c s t = b c 1 := by
    intro c s t
    have h1 := ((map2_quad_t x c s).hasDerivAt t).deriv
    rw [← h1]
    exact deriv_lin _ (a c + b c 0 * s) (b c 1) (fun t => by rw [hm]) t
  have hi : ∀ (g : Fin 2 → ℝ) c, interp 9 (quad9Shape (g 0) (g 1)) (fun k => x k c) = a c + b c 0 * g 0 + b c 1 * g 1 := fun g c => by
    rw [← hm]; exact Finset.sum_congr rfl fun n hn => by rw [quad9Shape_eq (mem_range.1 hn)]
  set det := b 0 0 * b 1 1 - b 0 1 * b 1 0 with hdet
  -- the solution
  set q : Fin 2 → ℝ := ![(b 1 1 * (p 0 - a 0) - b 0 1 * (p 1 - a 1)) / det, (b 0 0 * (p 1 - a 1) - b 1 0 * (p 0 - a 0)) / det] with hq
  have q0 : q 0 * det = b 1 1 * (p 0 - a 0) - b 0 1 * (p 1 - a 1) := by exact div_mul_cancel₀ _ hd
  have q1 : q 1 * det = b 0 0 * (p 1 - a 1) - b 1 0 * (p 0 - a 0) := by exact div_mul_cancel₀ _ hd
  have hp : ∀ c, p c = a c + b c 0 * q 0 + b c 1 * q 1 := by
    have h0 : p 0 = a 0 + b 0 0 * q 0 + b 0 1 * q 1 := mul_left_cancel₀ hd (by rw [hdet] at *; linear_combination -b 0 0 * q0 - b 0 1 * q1)
    have h1 : p 1 = a 1 + b 1 0 * q 0 + b 1 1 * q 1 := mul_left_cancel₀ hd (by rw [hdet] at *; linear_combination -b 1 0 * q0 - b 1 1 * q1)
    intro c; fin_cases c
    · exact h0
    · exact h1
  have hdel : ∀ g, quad9Delta x p g = some ![q 0 - g 0, q 1 - g 1] := by
    intro g
    simp only [quad9Delta, tangent9_s, tangent9_t, hs, ht', hi]
    rw [if_neg hd]
    congr 1
    funext c
    fin_cases c
    · simp only [Fin.zero_eta, Matrix.cons_val_zero]
      rw [div_eq_iff hd, hp 0, hp 1]; ring
    · show (b 0 0 * (p 1 - (a 1 + b 1 0 * g 0 + b 1 1 * g 1)) - b 1 0 * (p 0 - (a 0 + b 0 0 * g 0 + b 0 1 * g 1))) / (b 0 0 * b 1 1 - b 0 1 * b 1 0) = q 1 - g 1
      rw [div_eq_iff hd, hp 0, hp 1]; ring
  have step : ∀ fuel g, quad9Newton tol x p (fuel + 1 + 1) g = some q := by
    intro fuel g
    have hqq : ∀ g : Fin 2 → ℝ, (![g 0 + (q 0 - g 0), g 1 + (q 1 - g 1)] : Fin 2 → ℝ) = q := fun g => by
      funext c; fin_cases c <;> simp
    rw [quad9Newton, hdel]
    simp only [Matrix.cons_val_zero, Matrix.cons_val_one, hqq]
    split_ifs with h
    · rfl
    · rw [quad9Newton, hdel]
      simp only [Matrix.cons_val_zero, Matrix.cons_val_one, hqq]
      simp [ht]
  refine ⟨q, _, by rw [quad9InElement, step 98]; rfl, hp, ?_⟩
  have hmax : (if |q 0| > |q 1| then |q 0| else |q 1|) = max |q 0| |q 1| := by
    split_ifs with hc
    · rw [max_eq_left hc.le]
    · rw [max_eq_right (not_lt.1 hc)]
  rw [hmax, max_le_iff]
  constructor
  · rintro ⟨h0, h1⟩; exact ⟨q, h0, h1, hp⟩
  · rintro ⟨r, h0, h1, hr⟩
    have e0 := hr 0; have e1 := hr 1
    rw [hp 0] at e0; rw [hp 1] at e1
    have r0 : q 0 = r 0 := mul_left_cancel₀ hd (by rw [hdet]; linear_combination b 1 1 * e0 - b 0 1 * e1)
    have r1 : q 1 = r 1 := mul_left_cancel₀ hd (by rw [hdet]; linear_combination b 0 0 * e1 - b 1 0 * e0)
    rw [r0, r1]; exact ⟨h0, h1⟩

/-- A sheared element for `c205_affine`. -/
example : ∃ g dist, quad9InElement (1 / 10 ^ 16) (fun n => ![((ref2 n).1 : ℝ) + (ref2 n).2, ((ref2 n).2 : ℝ)]) ![2, 1] = some (g, dist) ∧ g = ![1, 1] := by
  obtain ⟨g, dist, h, hp, -⟩ := c205_affine (tol := 1 / 10 ^ 16) (by norm_num) (x := fun n => ![((ref2 n).1 : ℝ) + (ref2 n).2, ((ref2 n).2 : ℝ)])
    (a := ![0, 0]) (b := ![![1, 1], ![0, 1]]) (by intro n _ c; fin_cases c <;> simp) (by norm_num) ![2, 1]
  refine ⟨g, dist, h, ?_⟩
  have h0 := hp 0; have h1 := hp 1
  simp at h0 h1
  funext c; fin_cases c
  · simp; linarith
  · simp; linarith

end Nalu.P2
