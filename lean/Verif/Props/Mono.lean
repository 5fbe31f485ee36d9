import Verif.Model.Mono
import Mathlib.Algebra.Group.Int.Defs
import Mathlib.Algebra.Group.Prod
import Mathlib.Tactic.Ring
import Mathlib.Tactic.Linarith
import Mathlib.Tactic.NormNum

/-!
# Monolithic low-Mach system: theorems C301-C303
-/

namespace Nalu.Mono

variable {K : Type*}

/-! ### C301: the copies -/

/-- Writes at pairwise different places. -/
theorem foldl_write {ι : Type*} (idx : ι → ℕ) (val : ι → K) : ∀ (l : List ι) (f : ℕ → K),
    (∀ a ∈ l, ∀ b ∈ l, idx a = idx b → val a = val b) →
    (∀ a ∈ l, l.foldl (fun f i => Function.update f (idx i) (val i)) f (idx a) = val a) ∧
    ∀ n, (∀ a ∈ l, idx a ≠ n) → l.foldl (fun f i => Function.update f (idx i) (val i)) f n = f n := by
  intro l
  induction l with
  | nil => intro f _; simp
  | cons x t ih =>
    intro f h
    have ht : ∀ a ∈ t, ∀ b ∈ t, idx a = idx b → val a = val b := fun a ha b hb =>
      h a (List.mem_cons_of_mem _ ha) b (List.mem_cons_of_mem _ hb)
    obtain ⟨h1, h2⟩ := ih (Function.update f (idx x) (val x)) ht
    refine ⟨?_, ?_⟩
    · intro a ha
      simp only [List.foldl_cons]
      by_cases hat : a ∈ t
      · exact h1 a hat
      · have hax : a = x := by simpa [hat] using ha
        subst hax
        by_cases hex : ∃ b ∈ t, idx b = idx a
        · obtain ⟨b, hb, hbe⟩ := hex
          have := h1 b hb
          rw [hbe] at this
          rw [this]
          exact h b (List.mem_cons_of_mem _ hb) a (List.mem_cons_self ..) hbe
        · rw [h2 (idx a) (fun b hb hbe => hex ⟨b, hb, hbe⟩)]; simp
    · intro n hn
      simp only [List.foldl_cons]
      rw [h2 n fun a ha => hn a (List.mem_cons_of_mem _ ha)]
      exact Function.update_of_ne (fun e => hn x (List.mem_cons_self ..) e.symm) _ _

theorem downNode_eq (nDim : ℕ) (b : Bucket K) (k : ℕ) :
    downNode nDim b k = ⟨(List.range nDim).foldl
      (fun f j => Function.update f (k * nDim + j) (b.uvwp (k * (nDim + 1) + j))) b.velocity,
      Function.update b.pressure k (b.uvwp (k * (nDim + 1) + nDim)), b.uvwp⟩ := by
  have : ∀ (l : List ℕ) (c : Bucket K), l.foldl (fun b j =>
        { b with velocity := Function.update b.velocity (k * nDim + j) (b.uvwp (k * (nDim + 1) + j)) }) c =
      ⟨l.foldl (fun f j => Function.update f (k * nDim + j) (c.uvwp (k * (nDim + 1) + j))) c.velocity,
        c.pressure, c.uvwp⟩ := by
    intro l
    induction l with
    | nil => intro c; rfl
    | cons x t ih => intro c; simp only [List.foldl_cons, ih]
  unfold downNode
  rw [this]

theorem upNode_eq (nDim : ℕ) (b : Bucket K) (k : ℕ) :
    upNode nDim b k = ⟨b.velocity, b.pressure, Function.update ((List.range nDim).foldl
      (fun f j => Function.update f (k * (nDim + 1) + j) (b.velocity (k * nDim + j))) b.uvwp)
      (k * (nDim + 1) + nDim) (b.pressure k)⟩ := by
  have : ∀ (l : List ℕ) (c : Bucket K), l.foldl (fun b j =>
        { b with uvwp := Function.update b.uvwp (k * (nDim + 1) + j) (b.velocity (k * nDim + j)) }) c =
      ⟨c.velocity, c.pressure, l.foldl (fun f j => Function.update f (k * (nDim + 1) + j) (c.velocity (k * nDim + j)))
        c.uvwp⟩ := by
    intro l
    induction l with
    | nil => intro c; rfl
    | cons x t ih => intro c; simp only [List.foldl_cons, ih]
  unfold upNode
  rw [this]

theorem foldl_range_write (n base : ℕ) (val : ℕ → K) (f : ℕ → K) (i : ℕ) :
    (List.range n).foldl (fun f j => Function.update f (base + j) (val j)) f i =
      if base ≤ i ∧ i < base + n then val (i - base) else f i := by
  obtain ⟨h1, h2⟩ := foldl_write (fun j => base + j) val (List.range n) f
    (fun a _ b _ h => by rw [Nat.add_left_cancel h])
  by_cases h : base ≤ i ∧ i < base + n
  · rw [if_pos h]
    have := h1 (i - base) (List.mem_range.2 (by omega))
    simpa [Nat.add_sub_cancel' h.1] using this
  · rw [if_neg h]
    exact h2 i fun a ha e => h (by have := List.mem_range.1 ha; omega)

theorem copyDown_spec (nDim : ℕ) (hn : 0 < nDim) (len : ℕ) (b : Bucket K) :
    copyDown nDim len b = ⟨fun i => if i < len * nDim then b.uvwp (i / nDim * (nDim + 1) + i % nDim) else b.velocity i,
      fun k => if k < len then b.uvwp (k * (nDim + 1) + nDim) else b.pressure k, b.uvwp⟩ := by
  induction len with
  | zero => simp [copyDown]
  | succ m ih =>
    unfold copyDown at ih ⊢
    rw [List.range_succ, List.foldl_append, ih, List.foldl_cons, List.foldl_nil, downNode_eq]
    congr 1
    · funext i
      rw [foldl_range_write]
      dsimp only
      by_cases h1 : m * nDim ≤ i ∧ i < m * nDim + nDim
      · rw [if_pos h1, if_pos (by rw [Nat.succ_mul]; exact h1.2)]
        have hd : i / nDim = m := by
          rw [Nat.div_eq_iff hn]; refine ⟨h1.1, ?_⟩
          have := h1.2; omega
        have hmod : i % nDim = i - m * nDim := by
          have := Nat.div_add_mod i nDim; rw [hd, Nat.mul_comm] at this; omega
        rw [hd, hmod]
      · rw [if_neg h1]
        by_cases h2 : i < m * nDim
        · rw [if_pos h2, if_pos (by rw [Nat.succ_mul]; omega)]
        · rw [if_neg h2, if_neg (by rw [Nat.succ_mul]; intro h; exact h1 ⟨by omega, h⟩)]
    · funext k
      by_cases h : k = m
      · subst h; simp
      · rw [Function.update_of_ne h]
        dsimp only
        by_cases h2 : k < m
        · rw [if_pos h2, if_pos (by omega)]
        · rw [if_neg h2, if_neg (by omega)]

theorem copyUp_spec (nDim : ℕ) (len : ℕ) (b : Bucket K) :
    copyUp nDim len b = ⟨b.velocity, b.pressure, fun i => if i < len * (nDim + 1) then
        (if i % (nDim + 1) < nDim then b.velocity (i / (nDim + 1) * nDim + i % (nDim + 1))
          else b.pressure (i / (nDim + 1))) else b.uvwp i⟩ := by
  induction len with
  | zero => simp [copyUp]
  | succ m ih =>
    unfold copyUp at ih ⊢
    rw [List.range_succ, List.foldl_append, ih, List.foldl_cons, List.foldl_nil, upNode_eq]
    congr 1
    funext i
    by_cases he : i = m * (nDim + 1) + nDim
    · subst he
      have hd : (m * (nDim + 1) + nDim) / (nDim + 1) = m := by
        rw [Nat.div_eq_iff (by omega)]; omega
      have hmod : (m * (nDim + 1) + nDim) % (nDim + 1) = nDim := by
        rw [Nat.add_comm, Nat.add_mul_mod_self_right, Nat.mod_eq_of_lt (by omega)]
      simp only [Function.update_self]
      rw [if_pos (by rw [Nat.succ_mul]; omega), hmod, if_neg (by omega), hd]
    · rw [Function.update_of_ne he, foldl_range_write]
      dsimp only
      by_cases h1 : m * (nDim + 1) ≤ i ∧ i < m * (nDim + 1) + nDim
      · have hd : i / (nDim + 1) = m := by
          rw [Nat.div_eq_iff (by omega)]; omega
        have hmod : i % (nDim + 1) = i - m * (nDim + 1) := by
          have := Nat.div_add_mod i (nDim + 1); rw [hd, Nat.mul_comm] at this; omega
        rw [if_pos h1, if_pos (show i < (m + 1) * (nDim + 1) by rw [Nat.succ_mul]; omega), hmod, if_pos (by omega), hd]
      · rw [if_neg h1]
        by_cases h2 : i < m * (nDim + 1)
        · rw [if_pos h2, if_pos (show i < (m + 1) * (nDim + 1) by rw [Nat.succ_mul]; omega)]
        · rw [if_neg h2, if_neg (by rw [Nat.succ_mul]; omega)]

/-- C301: unloading. At every node of the bucket and for every direction the velocity is the
corresponding component of the monolithic unknown and the pressure its last component; the unknown
itself and all memory behind the bucket are left alone. -/
theorem c301_unload (nDim : ℕ) (hn : 0 < nDim) (len : ℕ) (b : Bucket K) :
    (∀ k < len, ∀ j < nDim, (copyDown nDim len b).velocity (k * nDim + j) = b.uvwp (k * (nDim + 1) + j)) ∧
    (∀ k < len, (copyDown nDim len b).pressure k = b.uvwp (k * (nDim + 1) + nDim)) ∧
    (copyDown nDim len b).uvwp = b.uvwp ∧
    (∀ i, len * nDim ≤ i → (copyDown nDim len b).velocity i = b.velocity i) ∧
    ∀ k, len ≤ k → (copyDown nDim len b).pressure k = b.pressure k := by
  rw [copyDown_spec nDim hn]
  refine ⟨?_, ?_, rfl, ?_, ?_⟩
  · intro k hk j hj
    have h1 : k * nDim + j < len * nDim := by
      calc k * nDim + j < k * nDim + nDim := by omega
        _ = (k + 1) * nDim := by ring
        _ ≤ len * nDim := Nat.mul_le_mul_right _ hk
    have hd : (k * nDim + j) / nDim = k := by
      rw [Nat.div_eq_iff hn]; omega
    have hmod : (k * nDim + j) % nDim = j := by
      rw [Nat.add_comm, Nat.add_mul_mod_self_right, Nat.mod_eq_of_lt hj]
    simp only [h1, if_true, hd, hmod]
  · intro k hk; simp [hk]
  · intro i hi; simp [Nat.not_lt.2 hi]
  · intro k hk; simp [Nat.not_lt.2 hk]

/-- C301: loading is the reverse. -/
theorem c301_load (nDim : ℕ) (len : ℕ) (b : Bucket K) :
    (∀ k < len, ∀ j < nDim, (copyUp nDim len b).uvwp (k * (nDim + 1) + j) = b.velocity (k * nDim + j)) ∧
    (∀ k < len, (copyUp nDim len b).uvwp (k * (nDim + 1) + nDim) = b.pressure k) ∧
    (copyUp nDim len b).velocity = b.velocity ∧ (copyUp nDim len b).pressure = b.pressure ∧
    ∀ i, len * (nDim + 1) ≤ i → (copyUp nDim len b).uvwp i = b.uvwp i := by
  rw [copyUp_spec]
  have key : ∀ k < len, ∀ j < nDim + 1, k * (nDim + 1) + j < len * (nDim + 1) ∧
      (k * (nDim + 1) + j) / (nDim + 1) = k ∧ (k * (nDim + 1) + j) % (nDim + 1) = j := by
    intro k hk j hj
    refine ⟨?_, ?_, ?_⟩
    · calc k * (nDim + 1) + j < k * (nDim + 1) + (nDim + 1) := by omega
        _ = (k + 1) * (nDim + 1) := by ring
        _ ≤ len * (nDim + 1) := Nat.mul_le_mul_right _ hk
    · rw [Nat.div_eq_iff (by omega)]; omega
    · rw [Nat.add_comm, Nat.add_mul_mod_self_right, Nat.mod_eq_of_lt hj]
  refine ⟨?_, ?_, rfl, rfl, ?_⟩
  · intro k hk j hj
    obtain ⟨h1, h2, h3⟩ := key k hk j (by omega)
    simp only [h1, if_true, h2, h3, hj]
  · intro k hk
    obtain ⟨h1, h2, h3⟩ := key k hk nDim (by omega)
    simp only [h1, if_true, h2, h3, lt_irrefl, if_false]
  · intro i hi; simp [Nat.not_lt.2 hi]

/-- C301: loading after unloading gives back the monolithic unknown, and unloading after loading the
velocity and pressure. -/
theorem c301_round_trip (nDim : ℕ) (hn : 0 < nDim) (len : ℕ) (b : Bucket K) :
    copyUp nDim len (copyDown nDim len b) = copyDown nDim len b ∧
    copyDown nDim len (copyUp nDim len b) = copyUp nDim len b := by
  constructor
  · rw [copyUp_spec, copyDown_spec nDim hn]
    congr 1
    funext i
    dsimp only
    by_cases h : i < len * (nDim + 1)
    · have hq : i / (nDim + 1) < len := by
        rw [Nat.div_lt_iff_lt_mul (by omega)]; exact h
      have hi := Nat.div_add_mod i (nDim + 1)
      rw [Nat.mul_comm] at hi
      rw [if_pos h]
      by_cases hm : i % (nDim + 1) < nDim
      · have := (c301_unload nDim hn len b).1 _ hq _ hm
        rw [copyDown_spec nDim hn] at this
        dsimp only at this
        rw [if_pos hm, this, hi]
      · have hm' : i % (nDim + 1) = nDim := by have := Nat.mod_lt i (show nDim + 1 > 0 by omega); omega
        rw [if_neg hm, if_pos hq]
        rw [hm'] at hi
        rw [hi]
    · rw [if_neg h]
  · obtain ⟨a1, a2, a3, a4, a5⟩ := c301_load nDim len b
    rw [copyDown_spec nDim hn]
    have e : copyUp nDim len b = ⟨b.velocity, b.pressure, (copyUp nDim len b).uvwp⟩ := by
      rw [← a3, ← a4]
    rw [e]
    congr 1
    · funext i
      dsimp only
      by_cases h : i < len * nDim
      · rw [if_pos h, a1 _ ((Nat.div_lt_iff_lt_mul hn).2 h) _ (Nat.mod_lt _ hn), Nat.div_add_mod']
      · rw [if_neg h]
    · funext k
      dsimp only
      by_cases h : k < len
      · rw [if_pos h, a2 k h]
      · rw [if_neg h]

/-- Example: two nodes in two dimensions. -/
example : let b : Bucket ℕ := ⟨fun i => i + 10, fun k => k + 20, fun i => i⟩
    ((copyDown 2 2 b).velocity 2, (copyDown 2 2 b).velocity 3, (copyDown 2 2 b).pressure 1) = (3, 4, 5) := by decide

/-! ### C302: velocity and pressure always follow the monolithic unknown -/

variable {V : Type*}

/-- Velocity and pressure are the components of the unknown. -/
def InStep (n : Node V K) : Prop := n.vel = n.uvwp.1 ∧ n.p = n.uvwp.2

theorem down_inStep (n : Node V K) : InStep (down n) := ⟨rfl, rfl⟩

/-- C302: during and after every step velocity and pressure are the components of the unknown,
whatever was written into them before, and the first system is assembled with the unknown of the
previous step as the guess. -/
theorem c302_in_step [Add V] [Add K] (three : Bool) (n : Node V K) (s : StepIn V K) :
    InStep (startStep three s.ext n) ∧ InStep (step three n s) ∧
    (startStep three s.ext n).uvwp = n.uvwp := by
  refine ⟨down_inStep _, ?_, ?_⟩
  · unfold step
    induction s.solves using List.reverseRecOn with
    | nil => exact down_inStep _
    | append_singleton l f _ => rw [List.foldl_append]; exact down_inStep _
  · unfold startStep
    cases three <;> cases s.ext <;> rfl

/-- C302: already after the prediction, before anything else runs in the step, velocity and pressure are the components of the
unknown, which is the one the previous step ended with. -/
theorem c302_predicted (three : Bool) (n : Node V K) :
    InStep (predict (swap three n)) ∧ (predict (swap three n)).uvwp = n.uvwp := by
  refine ⟨⟨rfl, rfl⟩, ?_⟩
  cases three <;> rfl

/-- C302: consequently data written into velocity and pressure between the swap and the solver, e.g.
by a transfer, has no effect at all: the step gives what it gives without them. -/
theorem c302_external_data_lost [Add V] [Add K] (three : Bool) (n : Node V K) (s : StepIn V K) :
    step three n s = step three n { s with ext := none } := by
  unfold step
  congr 1
  unfold startStep
  cases s.ext <;> rfl

/-- C302: the unknown advances by exactly the sum of the solver increments. -/
theorem c302_increments {V K : Type*} [AddCommMonoid V] [AddCommMonoid K] (three : Bool) (n : Node V K) (ext : Option (V × K))
    (ds : List (V × K)) :
    (step three n ⟨ext, ds.map fun d _ => d⟩).uvwp = n.uvwp + ds.sum := by
  have h0 : (startStep three ext n).uvwp = n.uvwp := by
    unfold startStep; cases three <;> cases ext <;> rfl
  have : ∀ (ds : List (V × K)) (m : Node V K),
      ((ds.map fun d (_ : Node V K) => d).foldl (fun n f => iterate f n) m).uvwp = m.uvwp + ds.sum := by
    intro ds
    induction ds with
    | nil => intro m; simp
    | cons d t ih =>
      intro m
      simp only [List.map_cons, List.foldl_cons, List.sum_cons]
      rw [ih]
      show (d.1 + m.uvwp.1, d.2 + m.uvwp.2) + t.sum = _
      rw [← add_assoc]; congr 1
      exact Prod.ext (add_comm ..) (add_comm ..)
  unfold step
  rw [this, h0]

/-! ### C303: the old velocity level -/

/-- A run: start-up followed by steps. -/
def runFrom [Add V] [Add K] (three : Bool) (n : Node V K) (ss : List (StepIn V K)) : Node V K :=
  ss.foldl (step three) n

theorem startStep_velN (three : Bool) (ext : Option (V × K)) (n : Node V K) :
    (startStep three ext n).velN = n.vel ∧ (startStep three ext n).uvwpN = n.uvwp := by
  unfold startStep
  cases three <;> cases ext <;> exact ⟨rfl, rfl⟩

theorem step_velN [Add V] [Add K] (three : Bool) (n : Node V K) (s : StepIn V K) :
    (step three n s).velN = n.vel ∧ (step three n s).uvwpN = n.uvwp := by
  unfold step
  have : ∀ (l : List (Node V K → V × K)) (m : Node V K),
      (l.foldl (fun n f => iterate f n) m).velN = m.velN ∧ (l.foldl (fun n f => iterate f n) m).uvwpN = m.uvwpN := by
    intro l
    induction l with
    | nil => intro m; exact ⟨rfl, rfl⟩
    | cons f t ih => intro m; exact ih _
  exact ⟨(this _ _).1.trans (startStep_velN ..).1, (this _ _).2.trans (startStep_velN ..).2⟩

theorem run_inStep [Add V] [Add K] (three : Bool) (n : Node V K) (h : InStep n) (ss : List (StepIn V K)) :
    InStep (runFrom three n ss) := by
  unfold runFrom
  induction ss using List.reverseRecOn with
  | nil => exact h
  | append_singleton l s _ => rw [List.foldl_append]; exact (c302_in_step ..).2.1

/-- C303: in a run that is not restarted, in every step the old velocity entering the time derivative
is the velocity of the old unknown. -/
theorem c303_old_velocity_partial [Add V] [Add K] (three : Bool) (n0 : Node V K) (ss : List (StepIn V K))
    (ext : Option (V × K)) :
    let n := startStep three ext (runFrom three (startUp three none n0) ss)
    n.velN = n.uvwpN.1 := by
  intro n
  have h0 : InStep (startUp three none n0) := by
    unfold startUp up; cases three <;> exact ⟨rfl, rfl⟩
  obtain ⟨h1, h2⟩ := startStep_velN three ext (runFrom three (startUp three none n0) ss)
  show n.velN = n.uvwpN.1
  rw [h1, h2]
  exact (run_inStep three _ h0 ss).1

/-- C303, the case missing above: after a restart the first step uses the velocity of the initial
condition as the old velocity, not the one read from the restart file; from the second step on the
old velocity is right again. -/
theorem c303_restart [Add V] [Add K] (three : Bool) (n0 : Node V K) (r : (V × K) × (V × K)) (ext : Option (V × K))
    (s : StepIn V K) (ss : List (StepIn V K)) :
    (startStep three ext (startUp three (some r) n0)).velN = n0.vel ∧
    (startStep three ext (startUp three (some r) n0)).uvwpN = r.1 ∧
    (let n := startStep three ext (runFrom three (startUp three (some r) n0) (s :: ss))
     n.velN = n.uvwpN.1) := by
  refine ⟨(startStep_velN ..).1, (startStep_velN ..).2, ?_⟩
  intro n
  obtain ⟨h1, h2⟩ := startStep_velN three ext (runFrom three (startUp three (some r) n0) (s :: ss))
  show n.velN = n.uvwpN.1
  rw [h1, h2]
  exact (run_inStep three _ (c302_in_step three _ s).2.1 ss).1

/-- C303: so a run continued by restart differs from the uninterrupted run in the first step, as soon
as the initial condition and the stored velocity differ: same unknown, different old velocity. -/
theorem c303_restart_not_continuation [Add V] [Add K] (three : Bool) (n0 : Node V K) (ss : List (StepIn V K))
    (ext : Option (V × K))
    (hne : (runFrom three (startUp three none n0) ss).vel ≠ n0.vel) :
    let before := runFrom three (startUp three none n0) ss
    let again := startUp three (some (before.uvwp, before.uvwpN)) n0
    (startStep three ext again).uvwp = (startStep three ext before).uvwp ∧
    (startStep three ext again).uvwpN = (startStep three ext before).uvwpN ∧
    (startStep three ext again).velN ≠ (startStep three ext before).velN := by
  intro before again
  refine ⟨?_, ?_, ?_⟩
  · rw [show (startStep three ext again).uvwp = again.uvwp from (c302_in_step three again ⟨ext, []⟩).2.2,
      show (startStep three ext before).uvwp = before.uvwp from (c302_in_step three before ⟨ext, []⟩).2.2]
    rfl
  · rw [(startStep_velN three ext again).2, (startStep_velN three ext before).2]; rfl
  · rw [(startStep_velN three ext again).1, (startStep_velN three ext before).1]
    exact fun h => hne h.symm

/-- A case: starting from rest, one step with a unit increment, then restart. -/
example : (runFrom true (startUp true none (⟨(0, 0), (0, 0), (0, 0), 0, 0, 0, 0⟩ : Node ℤ ℤ)) [⟨none, [fun _ => (1, 2)]⟩]).vel ≠ 0 := by
  decide

end Nalu.Mono
