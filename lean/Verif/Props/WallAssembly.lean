import Verif.Model.WallAssembly
import Mathlib.Algebra.Order.BigOperators.Group.List
import Mathlib.Tactic.Linarith
import Mathlib.Tactic.NormNum
import Mathlib.Tactic.FieldSimp
import Mathlib.Tactic.IntervalCases
import Mathlib.Algebra.BigOperators.Ring.List

/-!
# C351: wall values of the turbulence quantities assembled from the faces of all processes
-/

namespace Nalu.WallAsm

variable {N : Type*} [DecidableEq N]

/-! ## Specification -/

/-- An integration point of a wall, described without the code: the node it is credited to, its area, the value there. -/
structure Point (N : Type*) where
  node : N
  area : ℝ
  val : ℝ

/-- Sum of `g` over the points credited to the node or one of its periodic images. -/
def sumOver (g : Point N → ℝ) (ps : List (Point N)) (ms : List N) : ℝ :=
  (ms.map fun m => ((ps.filter fun p => decide (p.node = m)).map g).sum).sum

/-- Points of a face on a wall with wall functions: one per node. -/
def modelPoints (f : Face N) : List (Point N) := (List.range f.nodesPerFace).map fun ip => ⟨f.nodes ip, f.aMag ip, f.val ip⟩

/-- Points of a face on a wall without: all integration points. -/
def lowRePoints (f : Face N) : List (Point N) := (List.range f.numIps).map fun ip => ⟨f.nodes (f.ipMap ip), f.aMag ip, f.val ip⟩

/-- All wall points of the mesh. -/
def meshPoints (modelled lowRe : List (Face N)) : List (Point N) := modelled.flatMap modelPoints ++ lowRe.flatMap lowRePoints

/-! ## Auxiliary facts -/

theorem foldl_add (cs : List (Add N)) (s : Fields N) (n : N) :
    cs.foldl add s n = ((s n).1 + ((cs.filter fun c => decide (c.node = n)).map (·.area)).sum,
      (s n).2 + ((cs.filter fun c => decide (c.node = n)).map (·.prod)).sum) := by
  induction cs generalizing s with
  | nil => simp
  | cons c cs ih =>
    rw [List.foldl_cons, ih]
    by_cases h : c.node = n
    · simp [add, h, add_assoc]
    · have : ¬ n = c.node := fun e => h e.symm
      simp [add, h, this]

theorem local_eq {wall : N → Bool} (old : Fields N) (cs : List (Add N)) {n : N} (h : wall n = true) :
    local' wall old cs n = (((cs.filter fun c => decide (c.node = n)).map (·.area)).sum,
      ((cs.filter fun c => decide (c.node = n)).map (·.prod)).sum) := by
  simp [local', foldl_add, h]

/-- The sum over processes of what is added at a node is the sum over the concatenation. -/
theorem sum_ranks {A : Type*} (g : Add N → ℝ) (h : A → List (Add N)) (rs : List A) (m : N) :
    (rs.map fun r => (((h r).filter fun c => decide (c.node = m)).map g).sum).sum
      = (((rs.flatMap h).filter fun c => decide (c.node = m)).map g).sum := by
  induction rs with
  | nil => simp
  | cons r rs ih => simp [ih]

theorem total_eq {A : Type*} {wall : N → Bool} (images : N → List N) (old : Fields N) (h : A → List (Add N)) (rs : List A) {n : N}
    (hw : ∀ m ∈ images n, wall m = true) :
    total images (rs.map fun r => local' wall old (h r)) n
      = (((images n).map fun m => (((rs.flatMap h).filter fun c => decide (c.node = m)).map (·.area)).sum).sum,
         ((images n).map fun m => (((rs.flatMap h).filter fun c => decide (c.node = m)).map (·.prod)).sum).sum) := by
  unfold total
  refine Prod.ext ?_ ?_
  · refine congrArg List.sum (List.map_congr_left fun m hm => ?_)
    rw [← sum_ranks, List.map_map]
    refine congrArg List.sum (List.map_congr_left fun r _ => ?_)
    simp [local_eq old (h r) (hw m hm)]
  · refine congrArg List.sum (List.map_congr_left fun m hm => ?_)
    rw [← sum_ranks, List.map_map]
    refine congrArg List.sum (List.map_congr_left fun r _ => ?_)
    simp [local_eq old (h r) (hw m hm)]

/-- What a point adds. -/
def Point.toAdd (p : Point N) : Add N := ⟨p.node, p.area, p.val * p.area⟩

omit [DecidableEq N] in
theorem modelLoop_eq (f : Face N) : modelLoop f = (modelPoints f).map Point.toAdd := by
  simp [modelLoop, modelPoints, Point.toAdd, Function.comp_def]

omit [DecidableEq N] in
theorem lowReLoop_eq (f : Face N) : lowReLoop f = (lowRePoints f).map Point.toAdd := by
  simp [lowReLoop, lowRePoints, Point.toAdd, Function.comp_def]

omit [DecidableEq N] in
theorem adds_eq (r : Rank N) : r.adds = (meshPoints r.modelled r.lowRe).map Point.toAdd := by
  simp only [Rank.adds, meshPoints, List.map_append, ← List.flatMap_def, List.map_flatMap]
  simp only [← modelLoop_eq, ← lowReLoop_eq]

theorem sum_perm (g : Add N → ℝ) {a b : List (Add N)} (h : a.Perm b) (m : N) :
    ((a.filter fun c => decide (c.node = m)).map g).sum = ((b.filter fun c => decide (c.node = m)).map g).sum :=
  ((h.filter _).map g).sum_eq

theorem adds_perm (rs : List (Rank N)) :
    (rs.flatMap Rank.adds).Perm ((meshPoints (rs.flatMap (·.modelled)) (rs.flatMap (·.lowRe))).map Point.toAdd) := by
  induction rs with
  | nil => simp [meshPoints]
  | cons r rs ih =>
    rw [List.flatMap_cons, adds_eq]
    refine (List.Perm.append_left _ ih).trans ?_
    rw [← List.map_append]
    refine List.Perm.map _ ?_
    simp only [meshPoints, List.flatMap_cons, List.flatMap_append, List.append_assoc]
    refine List.Perm.append_left _ ?_
    rw [← List.append_assoc, ← List.append_assoc]
    exact List.Perm.append_right _ List.perm_append_comm

theorem sum_points (g : Add N → ℝ) (ps : List (Point N)) (m : N) :
    (((ps.map Point.toAdd).filter fun c => decide (c.node = m)).map g).sum
      = ((ps.filter fun p => decide (p.node = m)).map fun p => g p.toAdd).sum := by
  rw [List.filter_map, List.map_map]
  rfl

/-! ## Theorems -/

/-- **C351.** At a wall node the value written for specific dissipation rate or dissipation is the average, weighted with their areas, of the values at all
the integration points of all the walls of the mesh that are credited to the node or to one of its periodic images, on whichever processes those lie and
whatever was in the fields before. -/
theorem c351_weighted_average {wall : N → Bool} (images : N → List N) (old : Fields N) (ranks : List (Rank N)) {n : N}
    (hw : ∀ m ∈ images n, wall m = true) :
    wallValue wall images old ranks n
      = sumOver (fun p => p.val * p.area) (meshPoints (ranks.flatMap (·.modelled)) (ranks.flatMap (·.lowRe))) (images n)
        / sumOver (fun p => p.area) (meshPoints (ranks.flatMap (·.modelled)) (ranks.flatMap (·.lowRe))) (images n) := by
  unfold wallValue
  rw [total_eq images old Rank.adds ranks hw]
  simp only [sum_perm _ (adds_perm ranks), sum_points]
  rfl

theorem sum_perm_points (g : Point N → ℝ) {a b : List (Point N)} (h : a.Perm b) (ms : List N) : sumOver g a ms = sumOver g b ms := by
  unfold sumOver
  refine congrArg List.sum (List.map_congr_left fun m _ => ?_)
  exact ((h.filter _).map g).sum_eq

/-- **C351.** Two distributions of the same faces over processes give the same wall values, and so do two orders of the faces. -/
theorem c351_partition {wall : N → Bool} (images : N → List N) (old old' : Fields N) (ranks ranks' : List (Rank N)) {n : N}
    (hw : ∀ m ∈ images n, wall m = true) (h1 : (ranks.flatMap (·.modelled)).Perm (ranks'.flatMap (·.modelled)))
    (h2 : (ranks.flatMap (·.lowRe)).Perm (ranks'.flatMap (·.lowRe))) :
    wallValue wall images old ranks n = wallValue wall images old' ranks' n := by
  rw [c351_weighted_average images old ranks hw, c351_weighted_average images old' ranks' hw]
  have hp : (meshPoints (ranks.flatMap (·.modelled)) (ranks.flatMap (·.lowRe))).Perm
      (meshPoints (ranks'.flatMap (·.modelled)) (ranks'.flatMap (·.lowRe))) :=
    List.Perm.append (h1.flatMap_right _) (h2.flatMap_right _)
  rw [sum_perm_points _ hp, sum_perm_points _ hp]

theorem sumOver_le {g k : Point N → ℝ} (ps : List (Point N)) (ms : List N) (h : ∀ p ∈ ps, p.node ∈ ms → g p ≤ k p) :
    sumOver g ps ms ≤ sumOver k ps ms := by
  unfold sumOver
  refine List.sum_le_sum fun m hm => List.sum_le_sum fun p hp => ?_
  rw [List.mem_filter] at hp
  exact h p hp.1 (by have := of_decide_eq_true hp.2; rw [this]; exact hm)

theorem sumOver_const (c : ℝ) (ps : List (Point N)) (ms : List N) :
    sumOver (fun p => c * p.area) ps ms = c * sumOver (fun p => p.area) ps ms := by
  unfold sumOver
  simp only [List.sum_map_mul_left]

/-- **C351.** If the areas are not negative, their sum at the node is positive and the values at the points credited to the node and its images lie
between two bounds, so does the value written there; in particular a uniform wall value is reproduced. -/
theorem c351_between {wall : N → Bool} (images : N → List N) (old : Fields N) (ranks : List (Rank N)) {n : N} {lo hi : ℝ}
    (hw : ∀ m ∈ images n, wall m = true)
    (ha : ∀ p ∈ meshPoints (ranks.flatMap (·.modelled)) (ranks.flatMap (·.lowRe)), p.node ∈ images n → 0 ≤ p.area)
    (hv : ∀ p ∈ meshPoints (ranks.flatMap (·.modelled)) (ranks.flatMap (·.lowRe)), p.node ∈ images n → lo ≤ p.val ∧ p.val ≤ hi)
    (hpos : 0 < sumOver (fun p => p.area) (meshPoints (ranks.flatMap (·.modelled)) (ranks.flatMap (·.lowRe))) (images n)) :
    lo ≤ wallValue wall images old ranks n ∧ wallValue wall images old ranks n ≤ hi := by
  rw [c351_weighted_average images old ranks hw]
  constructor
  · rw [le_div_iff₀ hpos, ← sumOver_const]
    exact sumOver_le _ _ fun p hp hm => mul_le_mul_of_nonneg_right (hv p hp hm).1 (ha p hp hm)
  · rw [div_le_iff₀ hpos, ← sumOver_const]
    exact sumOver_le _ _ fun p hp hm => mul_le_mul_of_nonneg_right (hv p hp hm).2 (ha p hp hm)

/-- **C351.** A periodic image holds the same wall value. -/
theorem c351_periodic (wall : N → Bool) (images : N → List N) (old : Fields N) (ranks : List (Rank N)) {n m : N}
    (h : (images n).Perm (images m)) : wallValue wall images old ranks n = wallValue wall images old ranks m := by
  unfold wallValue total
  simp only [(h.map _).sum_eq]

omit [DecidableEq N] in
/-- **C351.** The value is given to the Dirichlet condition and to the unknown alike, and nodes off the wall keep what they had. -/
theorem c351_written (wall : N → Bool) (v : N → ℝ) (s : Nodal N) (n : N) :
    (wall n = true → (write wall v s).bc n = v n ∧ (write wall v s).unknown n = v n ∧ (write wall v s).assembled n = v n)
      ∧ (wall n = false → (write wall v s).bc n = s.bc n ∧ (write wall v s).unknown n = s.unknown n
          ∧ (write wall v s).assembled n = s.assembled n) := by
  constructor <;> intro h <;> simp [write, h]

/-! ### Turbulent kinetic energy -/

/-- Master elements with one integration point per node, in the order of the nodes: two-node edges, triangles, four-node quadrilaterals. -/
def Face.OnePerNode (f : Face N) : Prop := f.numIps = f.nodesPerFace ∧ ∀ ip < f.numIps, f.ipMap ip = ip

theorem sum_flat (g : Add N → ℝ) (k : Point N → ℝ) (h : Face N → List (Add N)) (fs : List (Face N)) (m : N)
    (hh : ∀ f ∈ fs, (((h f).filter fun c => decide (c.node = m)).map g).sum
      = (((modelPoints f).filter fun p => decide (p.node = m)).map k).sum) :
    (((fs.map h).flatten.filter fun c => decide (c.node = m)).map g).sum
      = (((fs.flatMap modelPoints).filter fun p => decide (p.node = m)).map k).sum := by
  induction fs with
  | nil => simp
  | cons f fs ih =>
    have h1 := hh f (by simp)
    have h2 := ih fun f' hf => hh f' (by simp [hf])
    simp only [List.map_cons, List.flatten_cons, List.flatMap_cons, List.filter_append, List.map_append, List.sum_append] at *
    rw [h1, h2]

/-- **C351.** On faces with one integration point per node the wall value of turbulent kinetic energy is the area-weighted average too, over all the walls
with wall functions. -/
theorem c351_tke_weighted_average {wall : N → Bool} (images : N → List N) (old : Fields N) (ranks : List (List (Face N))) {n : N}
    (hw : ∀ m ∈ images n, wall m = true) (hf : ∀ f ∈ ranks.flatten, f.OnePerNode) :
    tkeValue wall images old ranks n
      = sumOver (fun p => p.val * p.area) (ranks.flatten.flatMap modelPoints) (images n)
        / sumOver (fun p => p.area) (ranks.flatten.flatMap modelPoints) (images n) := by
  unfold tkeValue
  rw [total_eq images old tkeProd ranks hw, total_eq images old tkeArea ranks hw]
  have e1 : ranks.flatMap tkeProd = (ranks.flatten.map tkeLoop).flatten := by
    simp [List.flatMap_def, List.map_flatten, List.flatten_flatten, Function.comp_def]
    rfl
  have e2 : ranks.flatMap tkeArea = (ranks.flatten.map areaLoop).flatten := by
    simp [List.flatMap_def, List.map_flatten, List.flatten_flatten, Function.comp_def]
    rfl
  rw [e1, e2]
  unfold sumOver
  refine congrArg₂ (· / ·) ?_ ?_
  · refine congrArg List.sum (List.map_congr_left fun m _ => sum_flat _ _ _ _ m fun f _ => ?_)
    simp only [tkeLoop, modelPoints, List.filter_map, List.map_map]
    refine congrArg List.sum (List.map_congr_left fun ip _ => ?_)
    simp [mul_comm]
  · refine congrArg List.sum (List.map_congr_left fun m _ => sum_flat _ _ _ _ m fun f hfm => ?_)
    obtain ⟨h1, h2⟩ := hf f hfm
    have : areaLoop f = (List.range f.nodesPerFace).map fun ip => ⟨f.nodes ip, f.aMag ip, 0⟩ := by
      rw [areaLoop, h1]
      refine List.map_congr_left fun ip hip => ?_
      rw [h2 ip (by rw [h1]; exact List.mem_range.1 hip)]
    rw [this]
    simp only [modelPoints, List.filter_map, List.map_map]
    rfl

/-- A nine-node face of the quadratic hexahedron with equal areas at its 36 integration points. -/
def quad9Face (val : ℕ → ℝ) : Face ℕ := ⟨9, 36, fun k => k, quad9IpMap, fun _ => 1, val⟩

/-- **C351.** Finding: on a quadratic face the turbulent kinetic energy algorithm adds one integration point per node but divides by the area of all of
them, so a uniform value is not reproduced: each node gets a quarter of it. -/
theorem c351_tke_quadratic (c : ℝ) {n : ℕ} (hn : n < 9) :
    tkeValue (fun _ => true) (fun k => [k]) (fun _ => (0, 0)) [[quad9Face fun _ => c]] n = c / 4 := by
  have hr : List.range 36 = [0,1,2,3,4,5,6,7,8,9,10,11,12,13,14,15,16,17,18,19,20,21,22,23,24,25,26,27,28,29,30,31,32,33,34,35] := by rfl
  have hr9 : List.range 9 = [0,1,2,3,4,5,6,7,8] := by rfl
  interval_cases n <;>
    · simp [tkeValue, total, local', tkeProd, tkeArea, tkeLoop, areaLoop, quad9Face, hr, hr9, add, quad9IpMap]
      try norm_num

/-- **C351.** Finding: on a quadratic face the wall model for specific dissipation rate and dissipation gives node 1 the value of integration point 1, one
of the four points that belong to node 0. -/
theorem c351_model_quadratic (val : ℕ → ℝ) :
    wallValue (fun _ => true) (fun k => [k]) (fun _ => (0, 0)) [⟨[quad9Face val], []⟩] 1 = val 1 ∧ quad9IpMap 1 = 0 := by
  have hr9 : List.range 9 = [0,1,2,3,4,5,6,7,8] := by rfl
  constructor
  · simp [wallValue, total, local', Rank.adds, modelLoop, quad9Face, hr9, add]
  · rfl

/-- Two two-node edges on two processes meeting at node 1, one on a wall with wall functions and one without. -/
def exRanks : List (Rank ℕ) :=
  [⟨[⟨2, 2, fun k => k, fun k => k, fun _ => 1, fun _ => 6⟩], []⟩,
   ⟨[], [⟨2, 2, fun k => k + 1, fun k => k, fun _ => 2, fun _ => 3⟩]⟩]

example : wallValue (fun _ => true) (fun k => [k]) (fun _ => (5, 7)) exRanks 1 = 4 := by
  rw [c351_weighted_average _ _ _ (by simp)]
  have hr : List.range 2 = [0, 1] := by rfl
  simp [exRanks, sumOver, meshPoints, modelPoints, lowRePoints, hr]
  norm_num

example : 3 ≤ wallValue (fun _ => true) (fun k => [k]) (fun _ => (5, 7)) exRanks 1
    ∧ wallValue (fun _ => true) (fun k => [k]) (fun _ => (5, 7)) exRanks 1 ≤ 6 := by
  have hr : List.range 2 = [0, 1] := by rfl
  refine c351_between _ _ _ (by simp) ?_ ?_ ?_
  · simp [exRanks, meshPoints, modelPoints, lowRePoints, hr]
  · simp [exRanks, meshPoints, modelPoints, lowRePoints, hr]; norm_num
  · simp [exRanks, sumOver, meshPoints, modelPoints, lowRePoints, hr]; norm_num

example : Face.OnePerNode (⟨2, 2, fun k => k, fun k => k, fun _ => 1, fun _ => 6⟩ : Face ℕ) := ⟨rfl, fun _ _ => rfl⟩

end Nalu.WallAsm
