import Verif.Model.XferMesh
import Mathlib.Algebra.BigOperators.Fin
import Mathlib.Algebra.Order.BigOperators.Ring.Finset
import Mathlib.Tactic.NormNum
import Mathlib.Tactic.Linarith

/-!
# C353: what the two sides of a transfer hand to the search
-/

namespace Nalu.XferMesh

variable {F P B N K : Type*}

/-! ## Specification -/

/-- Every node of the parts that the process holds carries the field. -/
def Everywhere (m : MeshSide F P B N) (has : F → N → Prop) (f : F) : Prop :=
  ∀ p ∈ m.parts, ∀ b ∈ m.buckets p, ∀ n ∈ m.nodes b, has f n

/-- Nodes of one bucket carry the same fields, and a bucket is never empty. -/
structure Homogeneous (m : MeshSide F P B N) (has : F → N → Prop) : Prop where
  same : ∀ f b, ∀ n ∈ m.nodes b, (has f n ↔ m.sel f b = true)
  full : ∀ b, m.nodes b ≠ []

/-! ## Field check -/

theorem foldl_and (g : B → Bool) (l : List B) (a : Bool) :
    l.foldl (fun ok b => ok && g b) a = true ↔ a = true ∧ ∀ b ∈ l, g b = true := by
  induction l generalizing a with
  | nil => simp
  | cons b l ih => simp [ih, and_assoc]

theorem foldl_if (g : P → Bool) (l : List P) (a : Bool) :
    l.foldl (fun ok p => if g p then ok else false) a = true ↔ a = true ∧ ∀ b ∈ l, g b = true := by
  induction l generalizing a with
  | nil => simp
  | cons b l ih =>
    simp only [List.foldl_cons, ih, List.forall_mem_cons]
    cases g b <;> simp

theorem scan_false (m : MeshSide F P B N) (fs : List F) (l : List F) : (scan m fs (false, l)).1 = false := by
  induction fs generalizing l with
  | nil => rfl
  | cons f fs ih =>
    unfold scan
    have h : m.parts.foldl (fun ok p => if partFine m f p then ok else false) false = false := by
      rw [Bool.eq_false_iff]; intro e; simpa using ((foldl_if _ _ _).1 e).1
    split
    · simp only [h, ih]
    · exact ih l

theorem scan_iff (m : MeshSide F P B N) (fs l : List F) :
    (scan m fs (true, l)).1 = true ↔ ∀ f ∈ fs, m.known f = true ∧ ∀ p ∈ m.parts, partFine m f p = true := by
  induction fs generalizing l with
  | nil => simp [scan]
  | cons f fs ih =>
    unfold scan
    rw [List.forall_mem_cons]
    by_cases hk : m.known f = true
    · rw [if_pos hk]
      by_cases hp : ∀ p ∈ m.parts, partFine m f p = true
      · have h : m.parts.foldl (fun ok p => if partFine m f p then ok else false) true = true := (foldl_if _ _ _).2 ⟨rfl, hp⟩
        simp only [h, ih]
        exact ⟨fun e => ⟨⟨hk, hp⟩, e⟩, fun e => e.2⟩
      · have h : m.parts.foldl (fun ok p => if partFine m f p then ok else false) true = false := by
          rw [Bool.eq_false_iff]; intro e; exact hp ((foldl_if _ _ _).1 e).2
        simp only [h, scan_false, Bool.false_eq_true, false_iff]
        exact fun e => hp e.1.2
    · rw [if_neg hk]
      simp only [scan_false, Bool.false_eq_true, false_iff]
      exact fun e => hk e.1.1

theorem scan_list (m : MeshSide F P B N) (fs l : List F) (b : Bool) (h : ∀ f ∈ fs, m.known f = true) : (scan m fs (b, l)).2 = l ++ fs := by
  induction fs generalizing l b with
  | nil => simp [scan]
  | cons f fs ih =>
    rw [List.forall_mem_cons] at h
    unfold scan
    rw [if_pos h.1, ih _ _ h.2]
    simp

/-- A process accepts the fields of a transfer exactly when each is registered and carried by every node of every part it holds; it then uses them in the
order of the input. -/
theorem c353_fields (m : MeshSide F P B N) (has : F → N → Prop) (hm : Homogeneous m has) (names l : List F) :
    getFields m names = some l ↔ l = names ∧ ∀ f ∈ names, m.known f = true ∧ Everywhere m has f := by
  have e : ∀ f, (∀ p ∈ m.parts, partFine m f p = true) ↔ Everywhere m has f := by
    intro f
    refine forall₂_congr fun p _ => ?_
    unfold partFine
    rw [foldl_and]
    simp only [true_and]
    refine forall₂_congr fun b _ => ?_
    constructor
    · intro h n hn; exact (hm.same f b n hn).2 h
    · intro h
      obtain ⟨n, hn⟩ := List.exists_mem_of_ne_nil _ (hm.full b)
      exact (hm.same f b n hn).1 (h n hn)
  have key := scan_iff m names []
  simp only [e] at key
  unfold getFields
  by_cases hs : (scan m names (true, [])).1 = true
  · have hk := key.1 hs
    simp only [hs, if_true, Option.some.injEq, scan_list m names [] true fun f hf => (hk f hf).1, List.nil_append]
    exact ⟨fun h => ⟨h.symm, hk⟩, fun h => h.1.symm⟩
  · simp only [hs]
    constructor
    · intro h; simp at h
    · rintro ⟨-, h⟩; exact absurd (key.2 h) hs

/-- All processes accept exactly when, on the whole mesh, each field is carried by every node of each part. -/
theorem c353_fields_world (R : Finset ℕ) (hR : R.Nonempty) (m : ℕ → MeshSide F P B N) (known : F → Bool) (parts : List P) (has : F → N → Prop)
    (onPart : P → N → Prop) (names : List F) (hk : ∀ r, (m r).known = known) (hp : ∀ r, (m r).parts = parts) (hm : ∀ r, Homogeneous (m r) has)
    (hold : ∀ p n, onPart p n ↔ ∃ r ∈ R, ∃ b ∈ (m r).buckets p, n ∈ (m r).nodes b) :
    (∀ r ∈ R, getFields (m r) names = some names) ↔ ∀ f ∈ names, known f = true ∧ ∀ p ∈ parts, ∀ n, onPart p n → has f n := by
  constructor
  · intro h f hf
    obtain ⟨r0, hr0⟩ := hR
    refine ⟨?_, fun p hpp n hn => ?_⟩
    · have := ((c353_fields (m r0) has (hm r0) names names).1 (h r0 hr0)).2 f hf
      rw [← hk r0]; exact this.1
    · obtain ⟨r, hr, b, hb, hnb⟩ := (hold p n).1 hn
      have := ((c353_fields (m r) has (hm r) names names).1 (h r hr)).2 f hf
      exact this.2 p (by rw [hp r]; exact hpp) b hb n hnb
  · intro h r hr
    refine (c353_fields (m r) has (hm r) names names).2 ⟨rfl, fun f hf => ⟨by rw [hk r]; exact (h f hf).1, ?_⟩⟩
    intro p hpp b hb n hn
    exact (h f hf).2 p (by rw [← hp r]; exact hpp) n ((hold p n).2 ⟨r, hr, b, hb, hn⟩)

/-- The refusal is that of one process: with a field missing on nodes that one process alone holds, that process throws and another goes on. -/
theorem c353_refusal_local :
    let m : ℕ → MeshSide Unit Unit ℕ ℕ := fun r => ⟨fun _ => true, [()], fun _ => [r], fun b => [b], fun _ b => b == 0⟩
    getFields (m 0) [()] = some [()] ∧ getFields (m 1) [()] = none := by
  simp [getFields, scan, partFine]

/-! ## Bounding boxes -/

theorem corners_aux {d : ℕ} (x : N → Fin d → ℝ) (l : List N) (c : (Fin d → ℝ) × (Fin d → ℝ)) (j : Fin d) :
    let r := l.foldl (fun c n => ((fun j => min (c.1 j) (x n j), fun j => max (c.2 j) (x n j)) : (Fin d → ℝ) × (Fin d → ℝ))) c
    (∀ t, t ≤ r.1 j ↔ t ≤ c.1 j ∧ ∀ n ∈ l, t ≤ x n j) ∧ (∀ t, r.2 j ≤ t ↔ c.2 j ≤ t ∧ ∀ n ∈ l, x n j ≤ t) := by
  induction l generalizing c with
  | nil => simp
  | cons n l ih =>
    simp only [List.foldl_cons, List.forall_mem_cons]
    have := ih (fun j => min (c.1 j) (x n j), fun j => max (c.2 j) (x n j))
    simp only [le_min_iff, max_le_iff, and_assoc] at this
    exact this

/-- Every node of the element, and every point that is a mean of its nodes with nonnegative weights, lies in the box the element is offered with; the box
is the smallest with that property, if coordinates are below 1e16. -/
theorem c353_box {d : ℕ} (x : N → Fin d → ℝ) (l : List N) (hl : l ≠ []) (hx : ∀ n ∈ l, ∀ j, |x n j| ≤ 10 ^ 16) (lo hi : Fin d → ℝ) :
    (∀ n ∈ l, ∀ j, lo j ≤ x n j ∧ x n j ≤ hi j) ↔ ∀ j, lo j ≤ (corners x l).1 j ∧ (corners x l).2 j ≤ hi j := by
  obtain ⟨n0, hn0⟩ := List.exists_mem_of_ne_nil l hl
  constructor
  · intro h j
    have k := corners_aux x l (fun _ => 10 ^ 16, fun _ => -10 ^ 16) j
    refine ⟨(k.1 _).2 ⟨?_, fun n hn => (h n hn j).1⟩, (k.2 _).2 ⟨?_, fun n hn => (h n hn j).2⟩⟩
    · exact le_trans (h n0 hn0 j).1 (abs_le.1 (hx n0 hn0 j)).2
    · exact le_trans (abs_le.1 (hx n0 hn0 j)).1 (h n0 hn0 j).2
  · intro h n hn j
    have k := corners_aux x l (fun _ => 10 ^ 16, fun _ => -10 ^ 16) j
    exact ⟨((k.1 _).1 (h j).1).2 n hn, ((k.2 _).1 (h j).2).2 n hn⟩

/-- A point interpolated from the nodes with nonnegative weights of sum one lies in the box, so that the search cannot miss the element it is in. -/
theorem c353_box_inside {d k : ℕ} (x : N → Fin d → ℝ) (nd : Fin k → N) (w : Fin k → ℝ) (hw : ∀ i, 0 ≤ w i) (hs : ∑ i, w i = 1) (j : Fin d) :
    (corners x (List.ofFn nd)).1 j ≤ ∑ i, w i * x (nd i) j ∧ ∑ i, w i * x (nd i) j ≤ (corners x (List.ofFn nd)).2 j := by
  have c := corners_aux x (List.ofFn nd) (fun _ => 10 ^ 16, fun _ => -10 ^ 16) j
  have lo : ∀ i, (corners x (List.ofFn nd)).1 j ≤ x (nd i) j := fun i => ((c.1 _).1 le_rfl).2 _ (by simp)
  have hi : ∀ i, x (nd i) j ≤ (corners x (List.ofFn nd)).2 j := fun i => ((c.2 _).1 le_rfl).2 _ (by simp)
  constructor
  · calc (corners x (List.ofFn nd)).1 j = ∑ i, w i * (corners x (List.ofFn nd)).1 j := by rw [← Finset.sum_mul, hs, one_mul]
      _ ≤ _ := Finset.sum_le_sum fun i _ => mul_le_mul_of_nonneg_left (lo i) (hw i)
  · calc ∑ i, w i * x (nd i) j ≤ ∑ i, w i * (corners x (List.ofFn nd)).2 j := Finset.sum_le_sum fun i _ => mul_le_mul_of_nonneg_left (hi i) (hw i)
      _ = (corners x (List.ofFn nd)).2 j := by rw [← Finset.sum_mul, hs, one_mul]

/-! ## Entities offered -/

/-- Over all processes each entity of the parts is offered exactly once, by its owner, and each process offers in ascending order. -/
theorem c353_offered [LinearOrder K] (owner : K → ℕ) (ents : ℕ → List K) (nd : ∀ r, (ents r).Nodup) (e : K) (he : e ∈ ents (owner e)) :
    (∀ r, (offered owner r (ents r)).count e = if r = owner e then 1 else 0) ∧ ∀ r, (offered owner r (ents r)).Pairwise (· < ·) := by
  have perm : ∀ r, (offered owner r (ents r)).Perm ((ents r).filter fun e => owner e = r) := fun r => List.mergeSort_perm _ _
  have nd' : ∀ r, ((ents r).filter fun e => owner e = r).Nodup := fun r => (nd r).filter _
  constructor
  · intro r
    rw [(perm r).count_eq, List.Nodup.count (nd' r)]
    by_cases h : r = owner e
    · subst h; simp [he]
    · have : ¬ owner e = r := fun q => h q.symm
      simp [h, this]
  · intro r
    have s : (offered owner r (ents r)).Pairwise (fun a b => decide (a ≤ b) = true) :=
      List.pairwise_mergeSort (fun a b c h1 h2 => by simp only [decide_eq_true_eq] at *; exact le_trans h1 h2)
        (fun a b => by simp only [Bool.or_eq_true, decide_eq_true_eq]; exact le_total a b) _
    have n : (offered owner r (ents r)).Nodup := (perm r).nodup_iff.2 (nd' r)
    refine (s.and n).imp ?_
    rintro a b ⟨h1, h2⟩
    exact lt_of_le_of_ne (by simpa using h1) h2

/-! ## Values in the copies -/

theorem run_append [DecidableEq K] {V : Type*} (s : Ghosts K V) (l : List (Op K V)) (o : Op K V) : run s (l ++ [o]) = step (run s l) o := by
  simp [run]

/-- `o` is not a motion of the mesh. -/
def Op.Still {V : Type*} : Op K V → Prop
  | .move _ => False
  | _ => True

theorem run_inv [DecidableEq K] {V : Type*} (s : Ghosts K V) (hk : s.keys = ∅) (l : List (Op K V)) :
    (run s l).ghosting = false → (run s l).keys = ∅ := by
  induction l using List.reverseRecOn with
  | nil => intro _; exact hk
  | append_singleton l o ih =>
    rw [run_append]
    cases o with
    | solve v => exact ih
    | move x => exact ih
    | ghost ks any => cases any <;> simp [step]; exact ih
    | update =>
      simp only [step]
      split
      · intro h; simp_all
      · exact ih

/-- After any history that ends with `update_values`, every copy has the value its owner has now. -/
theorem c353_values [DecidableEq K] {V : Type*} (s : Ghosts K V) (hk : s.keys = ∅) (l : List (Op K V)) (k : K)
    (hm : k ∈ (run s (l ++ [.update])).keys) : (run s (l ++ [.update])).copy k = (run s (l ++ [.update])).own k := by
  rw [run_append] at *
  have inv := run_inv s hk l
  by_cases hg : (run s l).ghosting = true
  · simp only [step, hg, if_true] at hm ⊢
    rw [if_pos hm]
  · have := inv (by simpa using hg)
    simp [step, hg, this] at hm

theorem own_keep [DecidableEq K] {V : Type*} (s : Ghosts K V) (l : List (Op K V)) (hl : ∀ v, .solve v ∉ l) : (run s l).own = s.own := by
  induction l using List.reverseRecOn with
  | nil => rfl
  | append_singleton l o ih =>
    have il := ih fun v h => hl v (by simp [h])
    rw [run_append]
    cases o with
    | solve v => exact absurd (hl v) (by simp)
    | move x => exact il
    | ghost ks any => cases any <;> simpa [step] using il
    | update =>
      simp only [step]
      split <;> exact il

/-- That value is the one of the last solve of the source, with any searches, motions and updates in between. -/
theorem c353_values_last [DecidableEq K] {V : Type*} (s : Ghosts K V) (hk : s.keys = ∅) (l l' : List (Op K V)) (v : K → V)
    (hl : ∀ w, .solve w ∉ l') (k : K) (hm : k ∈ (run s (l ++ .solve v :: l' ++ [.update])).keys) :
    (run s (l ++ .solve v :: l' ++ [.update])).copy k = v k := by
  rw [c353_values s hk _ k hm]
  have e : (run s (l ++ .solve v :: l' ++ [.update])) = run (step (run s l) (.solve v)) (l' ++ [.update]) := by simp [run, List.foldl_append]
  rw [e, own_keep _ _ (by simpa using hl)]
  rfl

theorem still_coords [DecidableEq K] {V : Type*} (s : Ghosts K V) (hk : s.keys = ∅) (l : List (Op K V))
    (hl : ∀ o ∈ l, o.Still) : (run s l).modified = true ∨ ∀ k ∈ (run s l).keys, (run s l).copyX k = (run s l).ownX k := by
  induction l using List.reverseRecOn with
  | nil => right; intro k h; simp [run, hk] at h
  | append_singleton l o ih =>
    have il := ih fun o ho => hl o (by simp [ho])
    have inv := run_inv s hk l
    rw [run_append]
    cases o with
    | solve v => exact il
    | move x => exact absurd (hl (.move x) (by simp)) (by simp [Op.Still])
    | ghost ks any =>
      cases any
      · simpa [step] using il
      · left; simp [step]
    | update =>
      right
      by_cases hg : (run s l).ghosting = true
      · simp only [step, hg, if_true]
        intro k h
        rcases il with il | il
        · simp [h, il]
        · by_cases hmod : (run s l).modified = true
          · simp [h, hmod]
          · simp [hmod, il k h]
      · have e := inv (by simpa using hg)
        simp [step, hg, e]

/-- When a search has asked for copies and `update_values` has followed, every copy, old or new, has the
coordinates and the values of its owner at that time, whatever motion went before. -/
theorem c353_coords [DecidableEq K] {V : Type*} (s : Ghosts K V) (l : List (Op K V)) (ks : Finset K) (k : K)
    (hm : k ∈ (run s l).keys ∨ k ∈ ks) :
    let t := run s (l ++ [.ghost ks true] ++ [.update])
    t.copyX k = (run s l).ownX k ∧ t.copy k = (run s l).own k ∧ k ∈ t.keys := by
  simp only [run_append]
  rcases hm with h | h <;> simp [step, h]

/-- If the source mesh does not move, the copies also have the owner's coordinates after `update_values`. -/
theorem c353_coords_still [DecidableEq K] {V : Type*} (s : Ghosts K V) (hk : s.keys = ∅) (l : List (Op K V))
    (hl : ∀ o ∈ l, o.Still) (k : K) (hm : k ∈ (run s (l ++ [.update])).keys) :
    (run s (l ++ [.update])).copyX k = (run s (l ++ [.update])).ownX k := by
  have inv := run_inv s hk l
  have il := still_coords s hk l hl
  rw [run_append] at *
  by_cases hg : (run s l).ghosting = true
  · simp only [step, hg, if_true] at hm ⊢
    rcases il with il | il
    · simp [hm, il]
    · by_cases hmod : (run s l).modified = true
      · simp [hm, hmod]
      · simp [hmod, il k hm]
  · have e := inv (by simpa using hg)
    simp [step, hg, e] at hm

/-- On a moving source that is false: after the first `update_values` coordinates are not sent again until the next search. -/
theorem c353_coords_stale : ∃ (s : Ghosts Unit ℝ) (l : List (Op Unit ℝ)), s.ghosting = false ∧ s.keys = ∅ ∧
    () ∈ (run s (l ++ [.update])).keys ∧ (run s (l ++ [.update])).copyX () ≠ (run s (l ++ [.update])).ownX () :=
  ⟨⟨fun _ => 0, fun _ => 0, fun _ => 0, fun _ => 0, ∅, false, false⟩, [.ghost {()} true, .update, .move fun _ => 1], rfl, rfl, by simp [run, step],
    by simp [run, step]⟩

/-! ## Concrete cases -/

example : Homogeneous (⟨fun _ => true, [()], fun _ => [0, 1], fun b => [b], fun _ _ => true⟩ : MeshSide Unit Unit ℕ ℕ) (fun _ _ => True) :=
  ⟨by simp, by simp⟩

example : (corners (fun (n : ℕ) (_ : Fin 1) => (n : ℝ)) [3, 1, 2]).1 0 = 1 := by simp [corners]; norm_num

example : getFields (⟨fun f => f != 7, [()], fun _ => [0], fun b => [b], fun _ _ => true⟩ : MeshSide ℕ Unit ℕ ℕ) [3, 7] = none := by
  simp [getFields, scan]

example : ∃ (s : Ghosts ℕ ℝ) (l : List (Op ℕ ℝ)), s.ghosting = false ∧ s.keys = ∅ ∧ (∀ o ∈ l, o.Still) ∧ 2 ∈ (run s (l ++ [.update])).keys ∧
    (run s (l ++ [.update])).copy 2 = 5 :=
  ⟨⟨fun _ => 0, fun _ => 0, fun _ => 0, fun _ => 0, ∅, false, false⟩, [.ghost {2} true, .update, .solve fun _ => 5], rfl, rfl,
    by simp [Op.Still], by simp [run, step], by simp [run, step]⟩

end Nalu.XferMesh
