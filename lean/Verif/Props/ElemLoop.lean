import Verif.Model.ElemLoop
import Mathlib.Data.List.Basic
import Mathlib.Data.List.GetD
import Mathlib.Data.Int.Basic
import Mathlib.Tactic.Ring
import Mathlib.Tactic.Linarith
import Mathlib.Tactic.NormNum
import Mathlib.Algebra.Order.BigOperators.Group.List
import Mathlib.Tactic.Positivity

/-!
# Vectorised loops (C76, C77), scratch memory (C78), data requests (C79)
-/

namespace Nalu.Loop

/-! ## C76: the SIMD loop over a bucket is the scalar loop -/

private lemma numGroups_spec {L : ℕ} (hL : 0 < L) (len : ℕ) :
    len ≤ numGroups L len * L ∧ (∀ g, g < numGroups L len → g * L < len) := by
  have h := Nat.div_add_mod len L
  have hm := Nat.mod_lt len hL
  unfold numGroups
  constructor
  · split_ifs with h0
    · rw [add_mul, mul_comm (len / L)]; omega
    · rw [add_zero, mul_comm]; omega
  · intro g hg
    split_ifs at hg with h0
    · have : g ≤ len / L := by omega
      have := Nat.mul_le_mul_right L this
      rw [mul_comm (len / L)] at this
      omega
    · have h1 : g + 1 ≤ len / L := by omega
      have := Nat.mul_le_mul_right L h1
      rw [mul_comm (len / L), add_mul] at this
      omega

private lemma groupLen_eq {L : ℕ} (g len : ℕ) (h : g * L < len) :
    (groupLen L g len).toNat = min L (len - g * L) := by
  unfold groupLen
  simp only
  have h1 : ((g : ℤ) * L) < len := by exact_mod_cast h
  split_ifs <;> push_cast at * <;> omega

/-- **C76** (grouping). For every SIMD length and bucket length, every group has between one and `L` entities and
no error branch is taken. -/
theorem c76_group_sizes {L : ℕ} (hL : 0 < L) (len g : ℕ) (h : g < numGroups L len) :
    1 ≤ groupLen L g len ∧ groupLen L g len ≤ L := by
  have h1 := (numGroups_spec hL len).2 g h
  have h2 : ((g : ℤ) * L) < len := by exact_mod_cast h1
  unfold groupLen
  simp only
  split_ifs <;> omega

/-- **C76** (grouping). Each index of the bucket is read by exactly one group, in exactly one lane. -/
theorem c76_each_entity_once {L : ℕ} (hL : 0 < L) (len i : ℕ) (hi : i < len) :
    ∃! p : ℕ × ℕ, p.1 < numGroups L len ∧ (p.2 : ℤ) < groupLen L p.1 len ∧ p.1 * L + p.2 = i := by
  have key : ∀ g k : ℕ, g < numGroups L len → ((k : ℤ) < groupLen L g len ↔ k < min L (len - g * L)) := by
    intro g k hg
    rw [← groupLen_eq g len ((numGroups_spec hL len).2 g hg)]
    have := (c76_group_sizes hL len g hg).1
    omega
  have hdm := Nat.div_add_mod i L
  have hm := Nat.mod_lt i hL
  have hg : i / L < numGroups L len := by
    by_contra hc
    push Not at hc
    have h1 := (numGroups_spec hL len).1
    have h2 := Nat.mul_le_mul_right L hc
    rw [mul_comm (i / L)] at h2
    omega
  refine ⟨(i / L, i % L), ⟨hg, ?_, ?_⟩, ?_⟩
  · rw [key _ _ hg]
    rw [mul_comm (i / L)]
    omega
  · simp only; rw [mul_comm]; exact hdm
  · rintro ⟨g, k⟩ ⟨h1, h2, h3⟩
    simp only at h1 h2 h3
    rw [key _ _ h1] at h2
    have hk : k < L := lt_of_lt_of_le h2 (min_le_left _ _)
    have e1 : i / L = g := by
      rw [← h3, Nat.mul_comm, Nat.mul_add_div hL, Nat.div_eq_of_lt hk, add_zero]
    have e2 : i % L = k := by
      rw [← h3, Nat.mul_comm, Nat.mul_add_mod, Nat.mod_eq_of_lt hk]
    rw [e1, e2]

example : numGroups 4 10 = 3 ∧ groupLen 4 2 10 = 2 := by decide

private lemma mapM_range_drop {E : Type*} (b : List E) (s : ℕ) : ∀ n, s + n ≤ b.length →
    (List.range n).mapM (fun k => b[s + k]?) = some ((b.drop s).take n) := by
  intro n
  induction n with
  | zero => intro _; simp
  | succ n ih =>
    intro h
    rw [List.range_succ, List.mapM_append, ih (by omega)]
    have hlt : s + n < b.length := by omega
    simp only [List.mapM_cons, List.mapM_nil, List.getElem?_eq_getElem hlt, Option.pure_def, Option.bind_eq_bind,
      Option.bind_some]
    congr 1
    rw [List.take_succ, List.getElem?_drop, List.getElem?_eq_getElem hlt]
    rfl

private lemma groupEntities_eq {E : Type*} {L : ℕ} (hL : 0 < L) (b : List E) (g : ℕ)
    (hg : g < numGroups L b.length) :
    groupEntities L b g = some ((b.drop (g * L)).take L) := by
  unfold groupEntities
  have h1 := (numGroups_spec hL b.length).2 g hg
  rw [groupLen_eq g _ h1, mapM_range_drop b (g * L) _ (by omega)]
  congr 1
  rw [← List.length_drop, List.take_eq_take_iff]
  simp

private lemma groups_concat {E : Type*} {L : ℕ} (b : List E) : ∀ n,
    ((List.range n).map (fun g => (b.drop (g * L)).take L)).flatten = b.take (n * L) := by
  intro n
  induction n with
  | zero => simp
  | succ n ih =>
    rw [List.range_succ, List.map_append, List.flatten_append, ih]
    simp only [List.map_cons, List.map_nil, List.flatten_cons, List.flatten_nil, List.append_nil]
    rw [add_mul, one_mul, List.take_add]

/-- **C76** (grouping). The groups in order are exactly the bucket, each entity once, nothing beyond its end. -/
theorem c76_groups_are_the_bucket {E : Type*} {L : ℕ} (hL : 0 < L) (b : List E) :
    ∃ gs : List (List E), (List.range (numGroups L b.length)).map (groupEntities L b) = gs.map some ∧
      gs.flatten = b := by
  refine ⟨(List.range (numGroups L b.length)).map (fun g => (b.drop (g * L)).take L), ?_, ?_⟩
  · rw [List.map_map]
    refine List.map_congr_left fun g hg => ?_
    rw [groupEntities_eq hL b g (List.mem_range.1 hg)]; rfl
  · rw [groups_concat, List.take_of_length_le (numGroups_spec hL b.length).1]

/-- Specification: the scalar assembly of one element, all kernels added up. -/
def scalarSystem {d m : ℕ} {V : Type*} [Add V] [Zero V] (kernels : List (Kernel d m V)) (x : Fin d → V) :
    Fin m → V :=
  kernels.foldl (fun acc K => fun i => acc i + K x i) (fun _ => 0)

private lemma simd_lane {d m : ℕ} {V : Type*} [Add V] [Zero V] (data : Simd d V) (k : ℕ) :
    ∀ (kernels : List (Kernel d m V)) (acc : Simd m V),
      extractLane (kernels.foldl (fun acc K => simdExecute K acc data) acc) k
        = kernels.foldl (fun acc K => fun i => acc i + K (fun j => data j k) i) (extractLane acc k) := by
  intro kernels
  induction kernels with
  | nil => intro acc; rfl
  | cons K Ks ih =>
    intro acc
    rw [List.foldl_cons, List.foldl_cons, ih]
    rfl

private lemma runLambda_eq {E : Type*} {d m : ℕ} {V : Type*} [Add V] [Zero V] (gather : E → Fin d → V)
    (kernels : List (Kernel d m V)) (buf : Simd d V) (es : List E) :
    runLambda kernels (interleave buf (es.map gather)) es
      = es.map (fun e => (e, scalarSystem kernels (gather e))) := by
  unfold runLambda
  simp only
  apply List.ext_getElem
  · simp
  · intro n h1 h2
    have hn : n < es.length := by simpa using h2
    simp only [List.getElem_map, List.getElem_zipIdx, zero_add]
    rw [simd_lane]
    congr 1
    unfold scalarSystem
    have : (fun j => interleave buf (es.map gather) j n) = gather es[n] := by
      funext j
      unfold interleave
      rw [List.getElem?_eq_getElem (by simpa using hn)]
      simp
    rw [this]
    rfl

private lemma runGroups_eq {E : Type*} {d m : ℕ} {V : Type*} [Add V] [Zero V] {L : ℕ} (hL : 0 < L)
    (gather : E → Fin d → V) (kernels : List (Kernel d m V)) (b : List E) :
    ∀ (gs : List ℕ), (∀ g ∈ gs, g < numGroups L b.length) → ∀ buf : Simd d V,
      runGroups L gather kernels b gs buf
        = some (((gs.map (fun g => (b.drop (g * L)).take L)).flatten).map
            (fun e => (e, scalarSystem kernels (gather e)))) := by
  intro gs
  induction gs with
  | nil => intro _ buf; simp [runGroups]
  | cons g gs ih =>
    intro h buf
    unfold runGroups
    rw [groupEntities_eq hL b g (h g (by simp))]
    simp only
    rw [ih (fun g' hg' => h g' (List.mem_cons_of_mem _ hg'))]
    simp only [List.map_cons, List.flatten_cons, List.map_append]
    rw [runLambda_eq]

/-- **C76**. Whatever the SIMD length, the length of the bucket, the kernels, and whatever the SIMD buffers held
before (left over from another group or uninitialised), the vectorised loop makes exactly the same calls into
the linear system as a loop over the elements one by one: each element once, in order, with the local system of
its own data; and it never reads beyond the bucket. -/
theorem c76_simd_loop_is_scalar_loop {E : Type*} {d m : ℕ} {V : Type*} [Add V] [Zero V] {L : ℕ} (hL : 0 < L)
    (gather : E → Fin d → V) (kernels : List (Kernel d m V)) (b : List E) (buf : Simd d V) :
    runBucket L gather kernels b buf = some (b.map (fun e => (e, scalarSystem kernels (gather e)))) := by
  unfold runBucket
  rw [runGroups_eq hL gather kernels b _ (fun g hg => List.mem_range.1 hg), groups_concat,
    List.take_of_length_le (numGroups_spec hL b.length).1]

/-- Five elements in lanes of two, two kernels, buffers full of rubbish. -/
example : (runBucket 2 (fun e : ℤ => fun _ : Fin 1 => e)
      [fun x i => x i, fun x i => 10 * x i] [1, 2, 3, 4, 5] (fun _ _ => 77)).map
      (List.map (fun p => (p.1, p.2 (0 : Fin 1)))) = some [(1, 11), (2, 22), (3, 33), (4, 44), (5, 55)] := by
  decide

/-! ## C77: faces -/

private lemma innerRun_spec {F : Type*} (ord : F → ℤ) (hord : ∀ f, 0 ≤ ord f) :
    ∀ (fs : List F) (o : ℤ),
      (innerRun ord o fs).1 ++ fs.drop (innerRun ord o fs).1.length = fs ∧
      (∀ f ∈ (innerRun ord o fs).1, ord f = (innerRun ord o fs).2) ∧
      (0 ≤ o → (innerRun ord o fs).2 = o) ∧
      (o < 0 → fs ≠ [] → (innerRun ord o fs).1 ≠ [] ∧ 0 ≤ (innerRun ord o fs).2) ∧
      (∀ f ∈ (fs.drop (innerRun ord o fs).1.length).head?, ord f ≠ (innerRun ord o fs).2) := by
  intro fs
  induction fs with
  | nil => intro o; simp [innerRun]
  | cons f fs ih =>
    intro o
    unfold innerRun
    split_ifs with h
    · refine ⟨by simp, by simp, fun _ => rfl, fun ho => absurd h.1 (by omega), ?_⟩
      intro g hg
      simp only [List.length_nil, List.drop_zero, List.head?_cons, Option.mem_def, Option.some.injEq] at hg
      rw [← hg]; exact h.2
    · obtain ⟨i1, i2, i3, -, i5⟩ := ih (ord f)
      have e := i3 (hord f)
      refine ⟨?_, ?_, ?_, ?_, ?_⟩
      · simp only [List.cons_append, List.length_cons, List.drop_succ_cons]
        rw [i1]
      · intro g hg
        rcases List.mem_cons.1 hg with rfl | hg
        · exact e.symm
        · exact i2 g hg
      · intro ho
        simp only
        rw [e]
        by_contra hc
        exact h ⟨ho, hc⟩
      · intro _ _
        simp only
        exact ⟨by simp, by rw [e]; exact hord f⟩
      · simpa using i5

/-- **C77**. For every group of faces the loop finishes; the calls it makes take the faces in order, each exactly
once; each call has at least one face, all its faces have the face ordinal the call is given; and consecutive
calls have different ordinals (so as few calls as possible are made in that order). -/
theorem c77_face_runs {F : Type*} (ord : F → ℤ) (hord : ∀ f, 0 ≤ ord f) :
    ∀ (fs : List F), fs ≠ [] → ∀ fuel, fs.length ≤ fuel →
      ∃ runs, faceRuns ord fuel fs = some runs ∧ (runs.map (·.2)).flatten = fs ∧
        (∀ r ∈ runs, r.2 ≠ [] ∧ ∀ f ∈ r.2, ord f = r.1) ∧
        runs.IsChain (fun r s => r.1 ≠ s.1) := by
  intro fs
  induction hn : fs.length using Nat.strong_induction_on generalizing fs with
  | _ n ih =>
    intro hne fuel hfuel
    cases fuel with
    | zero =>
      exfalso
      have : fs.length = 0 := by omega
      exact hne (List.length_eq_zero_iff.1 this)
    | succ fuel =>
      obtain ⟨i1, i2, -, i4, i5⟩ := innerRun_spec ord hord fs (-1)
      obtain ⟨h1, h2⟩ := i4 (by norm_num) hne
      unfold faceRuns
      simp only
      set r := innerRun ord (-1) fs with hr
      have hpos : 0 < r.1.length := List.length_pos_iff.2 h1
      split_ifs with hlt
      · have hdl : (fs.drop r.1.length).length = fs.length - r.1.length := List.length_drop
        have hdne : fs.drop r.1.length ≠ [] := by
          intro h; rw [h] at hdl; simp at hdl; omega
        obtain ⟨runs, e1, e2, e3, e4⟩ := ih _ (by omega) (fs.drop r.1.length) rfl hdne fuel (by omega)
        rw [e1]
        refine ⟨_, rfl, ?_, ?_, ?_⟩
        · simp only [List.map_cons, List.flatten_cons]
          rw [e2, i1]
        · intro s hs
          rcases List.mem_cons.1 hs with rfl | hs
          · exact ⟨h1, i2⟩
          · exact e3 s hs
        · cases runs with
          | nil => simp
          | cons s runs =>
            refine List.isChain_cons_cons.2 ⟨?_, e4⟩
            obtain ⟨hs1, hs2⟩ := e3 s (by simp)
            simp only at e2 ⊢
            obtain ⟨f, t, hft⟩ := List.exists_cons_of_ne_nil hs1
            have : (fs.drop r.1.length).head? = some f := by
              rw [← e2]; simp [hft]
            have hh := i5 f (by rw [this]; simp)
            have hf := hs2 f (by rw [hft]; simp)
            rw [hf] at hh
            exact fun h => hh h.symm
      · refine ⟨_, rfl, ?_, ?_, by simp⟩
        · simp only [List.map_cons, List.map_nil, List.flatten_cons, List.flatten_nil, List.append_nil]
          have : fs.drop r.1.length = [] := List.drop_eq_nil_of_le (by omega)
          rw [this, List.append_nil] at i1
          exact i1
        · intro s hs
          rw [List.mem_singleton.1 hs]
          exact ⟨h1, i2⟩

example : faceRuns (fun f : ℤ × ℕ => f.1) 5 [(0, 1), (0, 2), (3, 3), (0, 4)]
    = some [(0, [(0, 1), (0, 2)]), (3, [(3, 3)]), (0, [(0, 4)])] := by decide

/-! ## C78: scratch memory -/

private lemma flagged_mono {rs : List Req} {f g : Req → Bool} {a b : ℕ} (h : ∀ r, f r = true → g r = true)
    (hab : a ≤ b) : flagged rs f a ≤ flagged rs g b := by
  unfold flagged
  split_ifs with h1 h2
  · exact hab
  · exfalso
    apply h2
    rw [List.any_eq_true] at h1 ⊢
    obtain ⟨r, hr, hf⟩ := h1
    exact ⟨r, hr, h r hf⟩
  · exact Nat.zero_le _
  · exact le_refl _

private lemma countReq_ge (s : Sizes) (r : Req) : allocReq s r = countReq s s.nodesPerElem r := by
  cases r <;> simp only [allocReq, countReq] <;> ring

/-- The master-element views take at most the scalars counted for them, in both variants of the count. -/
private lemma allocMe_le (v : Variant) (s : Sizes) (hf : s.nodesPerFace ≤ s.nodesPerElem) (rs : List Req) :
    allocMe s rs ≤ countMe v s s.nodesPerElem rs := by
  have e : (rs.map (allocReq s)).sum = (rs.map (countReq s s.nodesPerElem)).sum := by
    congr 1; exact List.map_congr_left fun r _ => countReq_ge s r
  unfold allocMe countMe
  rw [e]
  have a1 : flagged rs aDerivFC (s.numFaceIp * s.nodesPerFace * s.nDim)
      ≤ flagged rs (cDerivFC v) (s.nodesPerElem * s.numFaceIp * s.nDim) := by
    apply flagged_mono
    · intro r; cases r <;> simp [aDerivFC, cDerivFC]
    · rw [mul_comm s.nodesPerElem]
      exact Nat.mul_le_mul_right _ (Nat.mul_le_mul_left _ hf)
  have a2 : flagged rs aDeriv (s.numScsIp * s.nodesPerElem * s.nDim)
      ≤ flagged rs cDeriv (s.nodesPerElem * s.numScsIp * s.nDim) :=
    flagged_mono (by intro r; cases r <;> simp [aDeriv, cDeriv]) (by rw [mul_comm s.nodesPerElem])
  have a3 : flagged rs aDerivScv (s.numScvIp * s.nodesPerElem * s.nDim)
      ≤ flagged rs cDerivScv (s.nodesPerElem * s.numScvIp * s.nDim) :=
    flagged_mono (by intro r; cases r <;> simp [aDerivScv, cDerivScv]) (by rw [mul_comm s.nodesPerElem])
  have a4 : flagged rs aDetjFC s.numFaceIp ≤ flagged rs cDetjFC s.numFaceIp :=
    flagged_mono (by intro r; cases r <;> simp [aDetjFC, cDetjFC]) le_rfl
  have a5 : flagged rs aDetj s.numScsIp ≤ flagged rs cDetj s.numScsIp :=
    flagged_mono (by intro r; cases r <;> simp [aDetj, cDetj]) le_rfl
  have a6 : flagged rs aDetjScv s.numScvIp ≤ flagged rs cDetjScv s.numScvIp :=
    flagged_mono (by intro r; cases r <;> simp [aDetjScv, cDetjScv]) le_rfl
  have a7 : flagged rs aDerivFem (s.numFemIp * s.nodesPerElem * s.nDim)
      ≤ flagged rs cDerivFem (s.nodesPerElem * s.numFemIp * s.nDim) :=
    flagged_mono (by intro r; cases r <;> simp [aDerivFem, cDerivFem]) (by rw [mul_comm s.nodesPerElem])
  have a8 : flagged rs aDetjFem s.numFemIp ≤ flagged rs (cDetjFem v) s.numFemIp :=
    flagged_mono (by intro r; cases r <;> simp [aDetjFem, cDetjFem]) le_rfl
  omega

private lemma allocField_eq (npe : ℕ) (f : FieldInfo) : allocField npe f = countField npe f := by
  unfold allocField countField createdShape
  rcases f with ⟨nodal, d1, d2⟩
  cases nodal
  · simp only [Bool.false_eq_true, if_false]
    split_ifs with h1 h2 h2
    · omega
    · simp
    · simp
    · have : d2 = 1 := by omega
      subst this; simp
  · simp only [if_true]
    split_ifs with h1 h2 h3 h3 h4
    · omega
    · simp [h2]
    · omega
    · simp
    · simp [mul_assoc]
    · have : d2 = 1 := by omega
      subst this; simp

/-- **C78**. For every set of registered fields and master-element requests on either kind of coordinates, in both
loops, the memory all scratch arrays of a thread take is at most the amount requested from Kokkos. -/
theorem c78_scratch_memory_suffices (v : Variant) (s : Sizes) (hf : s.nodesPerFace ≤ s.nodesPerElem) {L : ℕ}
    (hL : 0 < L) (rhs : ℕ) (fields : List FieldInfo) (reqs : List (List Req)) :
    sharedMemBytes L rhs (allocScalars s s.nodesPerElem fields reqs)
      ≤ requestedBytes L rhs (countScalars v s s.nodesPerElem fields reqs) := by
  have h1 : allocScalars s s.nodesPerElem fields reqs + 8 ≤ countScalars v s s.nodesPerElem fields reqs := by
    unfold allocScalars countScalars
    have e1 : (fields.map (allocField s.nodesPerElem)).sum = (fields.map (countField s.nodesPerElem)).sum := by
      congr 1; exact List.map_congr_left fun f _ => allocField_eq _ f
    have e2 : (reqs.map (allocMe s)).sum ≤ (reqs.map (countMe v s s.nodesPerElem)).sum :=
      List.sum_le_sum fun r _ => allocMe_le v s hf r
    omega
  set A := allocScalars s s.nodesPerElem fields reqs
  set C := countScalars v s s.nodesPerElem fields reqs
  have ha : align8 (4 * rhs) ≤ 4 * rhs + 7 := by unfold align8; omega
  unfold sharedMemBytes requestedBytes
  obtain ⟨l, rfl⟩ : ∃ l, L = l + 1 := ⟨L - 1, by omega⟩
  have h2 : 16 * (l + 1) * (A + 8) ≤ 16 * (l + 1) * C := Nat.mul_le_mul_left _ h1
  nlinarith [Nat.zero_le (l * rhs), Nat.zero_le (l * (rhs * rhs)), Nat.zero_le (rhs * rhs)]

/-- **C78** (face loops). The face scratch alone, where only face master elements are registered, also fits:
`nodesPerEntity` is then the number of face nodes. -/
theorem c78_face_scratch_suffices (s : Sizes) (he : s.nodesPerElem = 0) (fields : List FieldInfo)
    (reqs : List (List Req)) :
    allocScalars s s.nodesPerFace fields reqs + 8 ≤ countScalars .plain s s.nodesPerFace fields reqs := by
  unfold allocScalars countScalars
  have e1 : (fields.map (allocField s.nodesPerFace)).sum = (fields.map (countField s.nodesPerFace)).sum := by
    congr 1; exact List.map_congr_left fun f _ => allocField_eq _ f
  have e2 : (reqs.map (allocMe s)).sum ≤ (reqs.map (countMe .plain s s.nodesPerFace)).sum := by
    refine List.sum_le_sum fun rs _ => ?_
    have e : (rs.map (allocReq s)).sum ≤ (rs.map (countReq s s.nodesPerFace)).sum := by
      refine List.sum_le_sum fun r _ => ?_
      cases r <;> simp only [allocReq, countReq, he, mul_zero, zero_mul, Nat.zero_le, le_refl] <;>
        first | (apply le_of_eq; ring)
    unfold allocMe countMe
    have a1 : flagged rs aDerivFC (s.numFaceIp * s.nodesPerFace * s.nDim)
        ≤ flagged rs (cDerivFC .plain) (s.nodesPerFace * s.numFaceIp * s.nDim) :=
      flagged_mono (by intro r; cases r <;> simp [aDerivFC, cDerivFC]) (by rw [mul_comm s.nodesPerFace])
    have a4 : flagged rs aDetjFC s.numFaceIp ≤ flagged rs cDetjFC s.numFaceIp :=
      flagged_mono (by intro r; cases r <;> simp [aDetjFC, cDetjFC]) le_rfl
    have a5 : flagged rs aDetj s.numScsIp ≤ flagged rs cDetj s.numScsIp :=
      flagged_mono (by intro r; cases r <;> simp [aDetj, cDetj]) le_rfl
    have a6 : flagged rs aDetjScv s.numScvIp ≤ flagged rs cDetjScv s.numScvIp :=
      flagged_mono (by intro r; cases r <;> simp [aDetjScv, cDetjScv]) le_rfl
    have a8 : flagged rs aDetjFem s.numFemIp ≤ flagged rs (cDetjFem .plain) s.numFemIp :=
      flagged_mono (by intro r; cases r <;> simp [aDetjFem, cDetjFem]) le_rfl
    have z : ∀ f n, flagged rs f (n * s.nodesPerElem * s.nDim) = 0 := by
      intro f n; unfold flagged; simp [he]
    rw [z, z, z]
    omega
  omega

/-- **C78**. What the object reports as its size (`total_bytes`) is never less than what it takes. -/
theorem c78_reported_size (s : Sizes) (rs : List Req) : allocMe s rs ≤ trackedMe s rs := Nat.le_add_right _ _

/-- Hex-8 with gradients, volumes and metric tensors requested, a tensor and a vector field. -/
example : allocScalars ⟨3, 4, 8, 4, 12, 8, 0⟩ 8 [⟨true, 3, 3⟩, ⟨true, 1, 0⟩, ⟨false, 12, 0⟩]
      [[.scsAreav, .scsGradOp, .scsGij, .scvVolume]] = 72 + 8 + 12 + (36 + 288 + 216 + 8 + 288 + 12) := by decide

/-! ## C79: data requests -/

/-- **C79**. In the element loop that fills the SIMD views directly, every request except FC_AREAV is honoured:
the views it needs exist, all views written for it were allocated for it. -/
theorem c79_request_honoured (r : Req) (h : r ≠ .fcAreav) :
    ∃ vs, fillsNew r = some vs ∧ vs ≠ [] ∧ ∀ v ∈ vs, v ∈ createdViews r := by
  cases r <;> first | exact absurd rfl h | exact ⟨_, rfl, by decide, by decide⟩

/-- **C79**. Two different requests write the same result view only in the pairs listed (the second element of a
pair overwrites the first): FEM gradients plain and shifted, metric tensors of both kinds, face gradients of both
kinds. Shared derivative and determinant work arrays are not results. -/
theorem c79_result_conflicts (r q : Req) (vs ws : List MeView) (hr : fillsNew r = some vs)
    (hq : fillsNew q = some ws) (v : MeView) (hv : v ∈ vs) (hw : v ∈ ws) (hne : r ≠ q)
    (hwork : v ≠ .deriv ∧ v ≠ .deriv_scv ∧ v ≠ .deriv_fem ∧ v ≠ .deriv_fc ∧ v ≠ .det_j_fem ∧ v ≠ .det_j_fc) :
    (r, q) ∈ [(Req.femGradOp, .femShiftedGradOp), (.femShiftedGradOp, .femGradOp), (.scsGij, .femGij),
      (.femGij, .scsGij), (.scsFaceGradOp, .femFaceGradOp), (.femFaceGradOp, Req.scsFaceGradOp)] := by
  cases r <;> simp only [fillsNew, Option.some.injEq, reduceCtorEq] at hr <;> subst hr <;>
    cases q <;> simp only [fillsNew, Option.some.injEq, reduceCtorEq] at hq <;> subst hq <;>
    simp_all

/-- **C79**. In the loop that interleaves scalar master-element results, every request that is accepted has its
result (the first view listed) copied to the SIMD data. -/
theorem c79_interleaved_results (r : Req) (v : MeView) (vs : List MeView) (h : fillsOld r = some (v :: vs)) :
    interleaved v = true := by
  cases r <;> simp only [fillsOld, Option.some.injEq, List.cons.injEq, reduceCtorEq] at h <;>
    (obtain ⟨rfl, -⟩ := h; rfl)

/-- … but not every view it fills: the determinants and derivatives at sub-control volumes are left out. -/
theorem c79_not_interleaved : fillsOld .scvGradOp = some [.dndx_scv, .deriv_scv, .det_j_scv] ∧
    interleaved .det_j_scv = false ∧ interleaved .deriv_scv = false := by decide

/-- **C79** (partial: false when a second dimension of one is registered). The view a field is read through while
gathering has the number of dimensions it was created with. -/
theorem c79_view_shape_partial (npe : ℕ) (f : FieldInfo) (h : f.dim2 ≠ 1) :
    (createdShape npe f).length = filledDim f := by
  unfold createdShape filledDim
  rcases f with ⟨nodal, d1, d2⟩
  simp only at h ⊢
  cases nodal <;> simp only [Bool.false_eq_true, if_false, if_true] <;> split_ifs <;> simp <;> omega

/-- **C79** fails for a field registered with a second dimension of one: it is created with three (two) dimensions
and gathered through a view with two or one (one). -/
theorem c79_view_shape_mismatch (npe d1 : ℕ) (nodal : Bool) :
    (createdShape npe ⟨nodal, d1, 1⟩).length ≠ filledDim ⟨nodal, d1, 1⟩ := by
  unfold createdShape filledDim
  cases nodal <;> simp
  split_ifs <;> simp

/-- Specification: the dimensions a request asks for. -/
def FieldReq.dims (r : FieldReq) : ℕ × ℕ := (r.dim1, r.dim2.getD 0)

private lemma addField_keeps {fs fs' : FieldSet} {r : FieldReq} (h : addField fs r = some fs') (k : ℕ)
    (p : ℕ × ℕ) (hk : fs k = some p) : fs' k = some p := by
  unfold addField at h
  split at h
  · next h0 =>
    injection h with h
    subst h
    by_cases e : k = r.field
    · subst e; rw [h0] at hk; cases hk
    · simp [e, hk]
  · next d1 d2 h0 =>
    split at h
    · split_ifs at h; injection h with h; subst h; exact hk
    · split_ifs at h; injection h with h; subst h; exact hk

private lemma addFields_keeps : ∀ (rs : List FieldReq) (fs fs' : FieldSet), addFields fs rs = some fs' →
    ∀ k p, fs k = some p → fs' k = some p := by
  intro rs
  induction rs with
  | nil => intro fs fs' h k p hk; simp only [addFields, Option.some.injEq] at h; subst h; exact hk
  | cons r rs ih =>
    intro fs fs' h k p hk
    unfold addFields at h
    split at h
    · cases h
    · next fs1 h1 => exact ih fs1 fs' h k p (addField_keeps h1 k p hk)

/-- **C79** (partial: a request without a second dimension is not checked against a stored one). If a sequence of
registrations is accepted, every registered field is stored; the stored first dimension is that of every request
for it, and the second dimension is that of every tensor request for it. -/
theorem c79_accepted_requests_partial : ∀ (rs : List FieldReq) (fs fs' : FieldSet),
    addFields fs rs = some fs' → ∀ r ∈ rs, ∃ d2, fs' r.field = some (r.dim1, d2) ∧ ∀ t, r.dim2 = some t → d2 = t := by
  intro rs
  induction rs with
  | nil => intro fs fs' _ r hr; cases hr
  | cons q rs ih =>
    intro fs fs' h r hr
    unfold addFields at h
    split at h
    · cases h
    · next fs1 h1 =>
      rcases List.mem_cons.1 hr with rfl | hr
      · have key : ∃ d2, fs1 r.field = some (r.dim1, d2) ∧ ∀ t, r.dim2 = some t → d2 = t := by
          unfold addField at h1
          split at h1
          · injection h1 with h1
            subst h1
            refine ⟨r.dim2.getD 0, by simp, ?_⟩
            intro t ht; rw [ht]; rfl
          · next d1 d2 h0 =>
            split at h1
            · next hn =>
              split_ifs at h1 with hd
              injection h1 with h1
              subst h1
              exact ⟨d2, by rw [h0, hd], by intro t ht; rw [hn] at ht; cases ht⟩
            · next t hn =>
              split_ifs at h1 with hd
              injection h1 with h1
              subst h1
              refine ⟨d2, by rw [h0, hd.1], ?_⟩
              intro t' ht; rw [hn] at ht; injection ht with ht; rw [← ht]; exact hd.2
        obtain ⟨d2, k1, k2⟩ := key
        exact ⟨d2, addFields_keeps rs fs1 fs' h _ _ k1, k2⟩
      · exact ih fs1 fs' h r hr

/-- **C79**. If all requests for the same field agree, the registration is accepted and stores what was asked for,
in whatever order the kernels register. -/
theorem c79_consistent_requests_accepted : ∀ (rs : List FieldReq) (fs : FieldSet),
    (∀ r ∈ rs, ∀ p, fs r.field = some p → p = r.dims) →
    (∀ r ∈ rs, ∀ q ∈ rs, r.field = q.field → r.dims = q.dims) →
    ∃ fs', addFields fs rs = some fs' ∧ (∀ r ∈ rs, fs' r.field = some r.dims) ∧
      ∀ k, (∀ r ∈ rs, r.field ≠ k) → fs' k = fs k := by
  intro rs
  induction rs with
  | nil => intro fs _ _; exact ⟨fs, rfl, by simp, fun _ _ => rfl⟩
  | cons r rs ih =>
    intro fs h1 h2
    have key : ∃ fs1, addField fs r = some fs1 ∧ fs1 r.field = some r.dims ∧
        ∀ k, k ≠ r.field → fs1 k = fs k := by
      unfold addField
      split
      · exact ⟨_, rfl, by simp [FieldReq.dims], by intro k hk; simp [hk]⟩
      · next d1 d2 h0 =>
        have e := h1 r (by simp) _ h0
        have e1 : d1 = r.dim1 := congrArg Prod.fst e
        have e2 : d2 = r.dim2.getD 0 := congrArg Prod.snd e
        split
        · exact ⟨fs, by rw [if_pos e1], by rw [h0, e], fun _ _ => rfl⟩
        · next t ht =>
          rw [ht] at e2
          exact ⟨fs, by rw [if_pos ⟨e1, e2⟩], by rw [h0, e], fun _ _ => rfl⟩
    obtain ⟨fs1, k1, k2, k3⟩ := key
    obtain ⟨fs', j1, j2, j3⟩ := ih fs1 (by
      intro q hq p hp
      by_cases e : q.field = r.field
      · rw [e, k2] at hp
        injection hp with hp
        rw [← hp]
        exact h2 r (by simp) q (List.mem_cons_of_mem _ hq) e.symm
      · rw [k3 _ e] at hp
        exact h1 q (List.mem_cons_of_mem _ hq) p hp)
      (fun q hq q' hq' => h2 q (List.mem_cons_of_mem _ hq) q' (List.mem_cons_of_mem _ hq'))
    refine ⟨fs', by unfold addFields; rw [k1]; exact j1, ?_, ?_⟩
    · intro q hq
      rcases List.mem_cons.1 hq with rfl | hq
      · exact addFields_keeps rs fs1 fs' j1 _ _ k2
      · exact j2 q hq
    · intro k hk
      rw [j3 k (fun q hq => hk q (List.mem_cons_of_mem _ hq)), k3 k (fun e => hk r (by simp) e.symm)]

/-- **C79** fails in general: a 3x3 tensor field registered again as a 3-vector is accepted without a complaint,
although the reverse order is rejected. -/
theorem c79_silent_mismatch :
    (addFields (fun _ => none) [⟨7, 3, some 3⟩, ⟨7, 3, none⟩]).isSome = true ∧
    (addFields (fun _ => none) [⟨7, 3, none⟩, ⟨7, 3, some 3⟩]).isSome = false := by decide

end Nalu.Loop
