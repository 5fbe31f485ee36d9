import Verif.Model.Schedule
import Mathlib.Data.List.Induction
import Mathlib.Tactic.Common

/-
C325-C328: what each assembly of the segregated systems sees.
-/
namespace Nalu.Schedule

section scalar
variable {Geo B V D G : Type}

/-! ### specification -/

/-- The mesh geometry of the last solve that computed the gradient: the first solve always does,
a later one when it makes at least one pass. -/
def lastGeo : Option Geo → List (Ev Geo B D) → Option Geo
  | o, [] => o
  | o, .step :: es => lastGeo o es
  | none, .solve geo _ _ :: es => lastGeo (some geo) es
  | some g0, .solve geo _ ds :: es =>
      lastGeo (some (match ds with | [] => g0 | _ :: _ => geo)) es

/-- A new assembly list: the k-th entry of what a run appended. -/
def newViews (old new : List (View Geo V G)) : List (View Geo V G) := new.drop old.length

/-! ### auxiliary -/

/-- internal: the assemblies of one call -/
def trail (S : Sys Geo B V D G) (geo : Geo) : V → G → List D → List (View Geo V G)
  | _, _, [] => []
  | q, g, d :: ds =>
      ⟨geo, q, g⟩ ::
        trail S geo (S.upd q d) (if S.gradInLoop then S.grad geo (S.upd q d) else g) ds

theorem passes_log (S : Sys Geo B V D G) (geo : Geo) (ds : List D) :
    ∀ (s : St V G) (l : List (View Geo V G)),
      (ds.foldl (pass S geo) (s, l)).2 = l ++ trail S geo s.np1 s.g ds := by
  induction ds with
  | nil => intro s l; simp [trail]
  | cons d ds ih => intro s l; simp [pass, trail, ih, List.append_assoc]

theorem passes_state (S : Sys Geo B V D G) (geo : Geo) (ds : List D) :
    ∀ (s : St V G) (l : List (View Geo V G)),
      (ds.foldl (pass S geo) (s, l)).1.isInit = s.isInit ∧
      (ds.foldl (pass S geo) (s, l)).1.np1 = ds.foldl S.upd s.np1 ∧
      (S.gradInLoop = true →
        (ds.foldl (pass S geo) (s, l)).1.g =
          match ds with
          | [] => s.g
          | _ :: _ => S.grad geo (ds.foldl S.upd s.np1)) := by
  induction ds with
  | nil => intro s l; simp
  | cons d ds ih =>
    intro s l
    simp only [List.foldl_cons]
    obtain ⟨h1, h2, h3⟩ := ih (pass S geo (s, l) d).1 (pass S geo (s, l) d).2
    refine ⟨by rw [h1]; rfl, by rw [h2]; rfl, ?_⟩
    intro hl
    rw [h3 hl]
    cases ds with
    | nil => simp [pass, hl]
    | cons e ds => simp [pass]

theorem trail_length (S : Sys Geo B V D G) (geo : Geo) (ds : List D) :
    ∀ q g, (trail S geo q g ds).length = ds.length := by
  induction ds with
  | nil => intro q g; rfl
  | cons d ds ih => intro q g; simp [trail, ih]

theorem trail_get (S : Sys Geo B V D G) (geo : Geo) (hl : S.gradInLoop = true) (ds : List D) :
    ∀ q g (k : ℕ) v, (trail S geo q g ds)[k]? = some v →
      v.geo = geo ∧ v.q = (ds.take k).foldl S.upd q ∧
        v.g = (match k with | 0 => g | _ + 1 => S.grad geo v.q) := by
  induction ds with
  | nil => intro q g k v h; simp [trail] at h
  | cons d ds ih =>
    intro q g k v h
    cases k with
    | zero =>
      simp only [trail, List.getElem?_cons_zero, Option.some.injEq] at h
      subst h; simp
    | succ k =>
      simp only [trail, hl, if_true, List.getElem?_cons_succ] at h
      obtain ⟨h1, h2, h3⟩ := ih _ _ k v h
      refine ⟨h1, by simpa using h2, ?_⟩
      cases k with
      | zero => simp only at h3; simp only [List.take_zero, List.foldl_nil] at h2; rw [h3, h2]
      | succ k => exact h3

theorem trail_get_fem (S : Sys Geo B V D G) (geo : Geo) (hl : S.gradInLoop = false) (ds : List D) :
    ∀ q g (k : ℕ) v, (trail S geo q g ds)[k]? = some v →
      v.geo = geo ∧ v.q = (ds.take k).foldl S.upd q ∧ v.g = g := by
  induction ds with
  | nil => intro q g k v h; simp [trail] at h
  | cons d ds ih =>
    intro q g k v h
    cases k with
    | zero =>
      simp only [trail, List.getElem?_cons_zero, Option.some.injEq] at h
      subst h; simp
    | succ k =>
      simp only [trail, hl, List.getElem?_cons_succ] at h
      obtain ⟨h1, h2, h3⟩ := ih _ _ k v h
      exact ⟨h1, by simpa using h2, by simpa using h3⟩

theorem run_append (S : Sys Geo B V D G) (s : St V G) (es : List (Ev Geo B D)) (e : Ev Geo B D) :
    run S s (es ++ [e]) = exec S (run S s es) e := by
  simp [run, List.foldl_append]

theorem lastGeo_append (es : List (Ev Geo B D)) (e : Ev Geo B D) :
    ∀ o, lastGeo o (es ++ [e]) = lastGeo (lastGeo o es) [e] := by
  induction es with
  | nil => intro o; rfl
  | cons a es ih =>
    intro o
    cases a with
    | step => cases o <;> simp only [List.cons_append, lastGeo, ih]
    | solve geo b ds =>
      cases o with
      | none => simp only [List.cons_append, lastGeo, ih]
      | some g0 => simp only [List.cons_append, lastGeo, ih]

/-! ### C325 -/

/-- C325.  A new time step changes neither the current value of the unknown nor the gradient: after
the rotation of the states and the prediction, Np1 holds what it held before, and N the same. -/
theorem c325_step_keeps_np1 (s : St V G) :
    (swapPredict s).np1 = s.np1 ∧ (swapPredict s).n = s.np1 ∧ (swapPredict s).nm1 = s.n ∧
      (swapPredict s).g = s.g ∧ (swapPredict s).isInit = s.isInit := ⟨rfl, rfl, rfl, rfl, rfl⟩

/-- C325.  After any history, the stored gradient is the gradient of the current unknown on the mesh
of the last solve that computed it. -/
theorem c325_gradient_current (S : Sys Geo B V D G) (hl : S.gradInLoop = true) (s : St V G)
    (hs : s.isInit = true) (hb : ∀ b q, S.bcCopy b q = q) (es : List (Ev Geo B D)) :
    match lastGeo none es with
    | none => (run S s es).1.isInit = true
    | some geo => (run S s es).1.isInit = false ∧
        (run S s es).1.g = S.grad geo (run S s es).1.np1 := by
  induction es using List.reverseRecOn with
  | nil => simpa [lastGeo, run] using hs
  | append_singleton es e ih =>
    rw [run_append, lastGeo_append]
    generalize lastGeo none es = o at ih
    generalize run S s es = a at ih
    cases e with
    | step => cases o <;> simpa [lastGeo, exec, swapPredict] using ih
    | solve geo b ds =>
      obtain ⟨h1, h2, h3⟩ := passes_state S geo ds (enter S geo b a.1) a.2
      have h3 := h3 hl
      cases o with
      | none =>
        simp only at ih
        simp only [lastGeo, exec, call, leave, hl, if_true]
        rw [h1, h2, h3]
        refine ⟨by simp [enter, ih], ?_⟩
        cases ds with
        | nil => simp [enter, ih]
        | cons d ds => rfl
      | some g0 =>
        simp only at ih
        simp only [lastGeo, exec, call, leave, hl, if_true]
        rw [h1, h2, h3]
        refine ⟨by simp [enter, ih.1], ?_⟩
        cases ds with
        | nil => simpa [enter, ih.1, hb] using ih.2
        | cons d ds => rfl

/-- C325.  In every solve, after any history: one assembly per pass; pass k sees the unknown after
exactly k updates of this call; and from the second pass on, the gradient it reads is the gradient
of exactly that unknown on the current mesh. -/
theorem c325_later_passes_fresh (S : Sys Geo B V D G) (hl : S.gradInLoop = true) (s : St V G)
    (es : List (Ev Geo B D)) (geo : Geo) (b : B) (ds : List D) :
    (newViews (run S s es).2 (run S s (es ++ [.solve geo b ds])).2).length = ds.length ∧
    ∀ k v v0,
      (newViews (run S s es).2 (run S s (es ++ [.solve geo b ds])).2)[k]? = some v →
      (newViews (run S s es).2 (run S s (es ++ [.solve geo b ds])).2)[0]? = some v0 →
      v.geo = geo ∧ v.q = (ds.take k).foldl S.upd v0.q ∧ (0 < k → v.g = S.grad geo v.q) := by
  rw [run_append]
  generalize run S s es = a
  have hlog : (exec S a (.solve geo b ds)).2 =
      a.2 ++ trail S geo (enter S geo b a.1).np1 (enter S geo b a.1).g ds := by
    simp only [exec, call]; exact passes_log S geo ds _ _
  have hnew : newViews a.2 (exec S a (.solve geo b ds)).2 =
      trail S geo (enter S geo b a.1).np1 (enter S geo b a.1).g ds := by
    rw [newViews, hlog]; simp
  rw [hnew]
  refine ⟨trail_length S geo ds _ _, ?_⟩
  intro k v v0 hv h0
  obtain ⟨p1, p2, p3⟩ := trail_get S geo hl ds _ _ k v hv
  obtain ⟨r1, r2, r3⟩ := trail_get S geo hl ds _ _ 0 v0 h0
  simp only [List.take_zero, List.foldl_nil] at r2
  refine ⟨p1, by rw [p2, r2], ?_⟩
  intro hk
  cases k with
  | zero => omega
  | succ k => exact p3

/-- C325.  The first assembly of the first solve sees the gradient of exactly the unknown it reads;
the first assembly of a later solve reads the unknown after the boundary copy but the stored
gradient, which is left as it was before the copy. -/
theorem c325_first_pass (S : Sys Geo B V D G) (s : St V G)
    (es : List (Ev Geo B D)) (geo : Geo) (b : B) (ds : List D) (v : View Geo V G)
    (hv : (newViews (run S s es).2 (run S s (es ++ [.solve geo b ds])).2)[0]? = some v) :
    v.geo = geo ∧
    ((run S s es).1.isInit = true →
      v.q = S.initFix (S.bcCopy b (run S s es).1.np1) ∧ v.g = S.grad geo v.q) ∧
    ((run S s es).1.isInit = false →
      v.q = S.bcCopy b (run S s es).1.np1 ∧ v.g = (run S s es).1.g) := by
  rw [run_append] at hv
  generalize run S s es = a at hv
  have hlog : (exec S a (.solve geo b ds)).2 =
      a.2 ++ trail S geo (enter S geo b a.1).np1 (enter S geo b a.1).g ds := by
    simp only [exec, call]; exact passes_log S geo ds _ _
  rw [newViews, hlog] at hv
  simp only [List.drop_left] at hv
  cases ds with
  | nil => simp [trail] at hv
  | cons d ds =>
    simp only [trail, List.getElem?_cons_zero, Option.some.injEq] at hv
    subst hv
    refine ⟨rfl, ?_, ?_⟩ <;> intro h <;> simp [enter, h]

/-- All solves of a history happen on one mesh geometry. -/
def FixedMesh (geo : Geo) (es : List (Ev Geo B D)) : Prop :=
  ∀ e ∈ es, match e with
    | .step => True
    | .solve g _ _ => g = geo

theorem lastGeo_fixed (geo : Geo) (es : List (Ev Geo B D)) (hf : FixedMesh geo es) :
    ∀ o, (∀ g, o = some g → g = geo) → ∀ g, lastGeo o es = some g → g = geo := by
  induction es with
  | nil => intro o ho g hg; exact ho g hg
  | cons e es ih =>
    intro o ho g hg
    have hf' : FixedMesh geo es := fun x hx => hf x (List.mem_cons_of_mem _ hx)
    have he := hf e List.mem_cons_self
    cases e with
    | step => cases o <;> exact ih hf' _ ho g (by simpa [lastGeo] using hg)
    | solve g1 b ds =>
      simp only at he
      cases o with
      | none =>
        exact ih hf' (some g1) (by intro x hx; cases hx; exact he) g (by simpa [lastGeo] using hg)
      | some g0 =>
        refine ih hf' _ ?_ g (by simpa only [lastGeo] using hg)
        intro x hx
        cases ds with
        | nil => cases hx; exact ho _ rfl
        | cons d ds => cases hx; exact he

/-- C325.  On a fixed mesh, for a system that recomputes its gradient in the loop and does not
overwrite boundary values on entry: in every run, every assembly reads the gradient of exactly the
unknown it reads. -/
theorem c325_fixed_mesh_always_fresh (S : Sys Geo B V D G) (hl : S.gradInLoop = true)
    (hb : ∀ b q, S.bcCopy b q = q) (s : St V G) (hs : s.isInit = true) (geo : Geo)
    (es : List (Ev Geo B D)) (hf : FixedMesh geo es) :
    ∀ v ∈ (run S s es).2, v.geo = geo ∧ v.g = S.grad geo v.q := by
  induction es using List.reverseRecOn with
  | nil => intro v hv; simp [run] at hv
  | append_singleton es e ih =>
    have hf' : FixedMesh geo es := fun x hx => hf x (List.mem_append_left _ hx)
    have ih := ih hf'
    have he := hf e (by simp)
    have hcur := c325_gradient_current S hl s hs hb es
    have hlg := lastGeo_fixed geo es hf' none (by intro g h; cases h)
    intro v hv
    cases e with
    | step =>
      rw [run_append] at hv
      exact ih v hv
    | solve g1 b ds =>
      simp only at he
      subst he
      rw [run_append] at hv
      have hlog : (exec S (run S s es) (.solve g1 b ds)).2 =
          (run S s es).2 ++
            trail S g1 (enter S g1 b (run S s es).1).np1 (enter S g1 b (run S s es).1).g ds := by
        simp only [exec, call]; exact passes_log S g1 ds _ _
      rw [hlog, List.mem_append] at hv
      rcases hv with hv | hv
      · exact ih v hv
      · obtain ⟨k, hk⟩ := List.getElem?_of_mem hv
        obtain ⟨p1, p2, p3⟩ := trail_get S g1 hl ds _ _ k v hk
        refine ⟨p1, ?_⟩
        cases k with
        | succ k => exact p3
        | zero =>
          simp only [List.take_zero, List.foldl_nil] at p2 p3
          rw [p3, p2]
          cases hlast : lastGeo none es with
          | none =>
            rw [hlast] at hcur
            simp only at hcur
            simp [enter, hcur]
          | some g0 =>
            rw [hlast] at hcur
            simp only at hcur
            have := hlg g0 hlast
            subst this
            simp [enter, hcur.1, hcur.2, hb]

/-- C325.  The boundary copy of the enthalpy system does no harm exactly when it changes nothing:
in a later solve whose Dirichlet nodes already hold the boundary enthalpy, on an unmoved mesh with a
current gradient, the first assembly is fresh too. -/
theorem c325_enthalpy_fresh_if_bc_unchanged (S : Sys Geo B V D G) (s : St V G)
    (es : List (Ev Geo B D)) (geo : Geo) (b : B) (ds : List D) (v : View Geo V G)
    (hi : (run S s es).1.isInit = false)
    (hg : (run S s es).1.g = S.grad geo (run S s es).1.np1)
    (hbc : S.bcCopy b (run S s es).1.np1 = (run S s es).1.np1)
    (hv : (newViews (run S s es).2 (run S s (es ++ [.solve geo b ds])).2)[0]? = some v) :
    v.g = S.grad geo v.q := by
  obtain ⟨_, _, h⟩ := c325_first_pass S s es geo b ds v hv
  obtain ⟨h1, h2⟩ := h hi
  rw [h2, h1, hg, hbc]

/-- A small concrete system: the unknown is one number, the "gradient" is the unknown times the
mesh size, the boundary copy overwrites the unknown when given a value. -/
def demo (loop : Bool) : Sys ℕ (Option ℕ) ℕ ℕ ℕ where
  grad geo q := geo * q
  upd q d := q + d
  bcCopy b q := b.getD q
  initFix q := q
  gradInLoop := loop

/-- C325 (finding).  With a boundary enthalpy that changes between two solves, the first assembly of
the second solve reads a gradient that is not the gradient of the unknown it reads. -/
theorem c325_enthalpy_stale_after_bc_change :
    ∃ v, (run (demo true) ⟨1, 1, 1, 0, true⟩ [.solve 1 none [1], .step, .solve 1 (some 7) [1]]).2[1]?
        = some v ∧ v.q = 7 ∧ v.g = 2 := ⟨⟨1, 7, 2⟩, rfl, rfl, rfl⟩

/-- C325 (finding).  After the mesh has moved, the first assembly of the next solve reads the
gradient of the old mesh. -/
theorem c325_stale_after_mesh_motion :
    ∃ v, (run (demo true) ⟨1, 1, 1, 0, true⟩ [.solve 1 none [1], .step, .solve 5 none [1]]).2[1]?
        = some v ∧ v.geo = 5 ∧ v.q = 2 ∧ v.g = 2 := ⟨⟨5, 2, 2⟩, rfl, rfl, rfl, rfl⟩

/-- non-vacuity of the fixed mesh theorem: a run with two steps and several passes. -/
example : FixedMesh (B := Option ℕ) (D := ℕ) 3 [.solve 3 none [1, 2], .step, .solve 3 none [4]] ∧
    (run (demo true) ⟨1, 1, 1, 0, true⟩ [.solve 3 none [1, 2], .step, .solve 3 none [4]]).2
      = [⟨3, 1, 3⟩, ⟨3, 2, 6⟩, ⟨3, 4, 12⟩] := by
  refine ⟨?_, rfl⟩
  intro e he
  simp at he
  rcases he with rfl | rfl | rfl <;> simp

/-! ### C326: the finite element mixture fraction -/

/-- C326.  In the finite element system all passes of one solve read one and the same gradient, the
one present on entry, while pass k reads the unknown after k updates. -/
theorem c326_fem_gradient_frozen (S : Sys Geo B V D G) (hl : S.gradInLoop = false) (s : St V G)
    (es : List (Ev Geo B D)) (geo : Geo) (b : B) (ds : List D) (k : ℕ) (v v0 : View Geo V G)
    (hv : (newViews (run S s es).2 (run S s (es ++ [.solve geo b ds])).2)[k]? = some v)
    (h0 : (newViews (run S s es).2 (run S s (es ++ [.solve geo b ds])).2)[0]? = some v0) :
    v.g = v0.g ∧ v.q = (ds.take k).foldl S.upd v0.q := by
  rw [run_append] at hv h0
  generalize run S s es = a at hv h0
  have hlog : (exec S a (.solve geo b ds)).2 =
      a.2 ++ trail S geo (enter S geo b a.1).np1 (enter S geo b a.1).g ds := by
    simp only [exec, call]; exact passes_log S geo ds _ _
  rw [newViews, hlog, List.drop_left] at hv h0
  obtain ⟨_, p2, p3⟩ := trail_get_fem S geo hl ds _ _ k v hv
  obtain ⟨_, r2, r3⟩ := trail_get_fem S geo hl ds _ _ 0 v0 h0
  simp only [List.take_zero, List.foldl_nil] at r2
  exact ⟨by rw [p3, r3], by rw [p2, r2]⟩

/-- C326.  After every solve of the finite element system the stored gradient is the gradient of the
current unknown on the current mesh, also when it makes no pass. -/
theorem c326_fem_gradient_after_solve (S : Sys Geo B V D G) (hl : S.gradInLoop = false) (s : St V G)
    (es : List (Ev Geo B D)) (geo : Geo) (b : B) (ds : List D) :
    (run S s (es ++ [.solve geo b ds])).1.g =
      S.grad geo (run S s (es ++ [.solve geo b ds])).1.np1 := by
  rw [run_append]
  simp [exec, call, leave, hl]

/-- All solves make at most one pass. -/
def OnePass (es : List (Ev Geo B D)) : Prop :=
  ∀ e ∈ es, match e with
    | .step => True
    | .solve _ _ ds => ds.length ≤ 1

theorem fem_state (S : Sys Geo B V D G) (hl : S.gradInLoop = false)
    (s : St V G) (hs : s.isInit = true) (geo : Geo)
    (es : List (Ev Geo B D)) (hf : FixedMesh geo es) :
    (run S s es).1.isInit = true ∨ (run S s es).1.g = S.grad geo (run S s es).1.np1 := by
  induction es using List.reverseRecOn with
  | nil => exact Or.inl hs
  | append_singleton es e ih =>
    have ih := ih (fun x hx => hf x (List.mem_append_left _ hx))
    have he := hf e (by simp)
    cases e with
    | step => rw [run_append]; exact ih
    | solve g1 b ds =>
      simp only at he
      subst he
      exact Or.inr (c326_fem_gradient_after_solve S hl s es g1 b ds)

/-- C326.  On a fixed mesh, with one pass per solve, every assembly of the finite element system
reads the gradient of exactly the unknown it reads. -/
theorem c326_fem_one_pass_fresh (S : Sys Geo B V D G) (hl : S.gradInLoop = false)
    (hb : ∀ b q, S.bcCopy b q = q) (s : St V G) (hs : s.isInit = true) (geo : Geo)
    (es : List (Ev Geo B D)) (hf : FixedMesh geo es) (h1 : OnePass es) :
    ∀ v ∈ (run S s es).2, v.g = S.grad geo v.q := by
  induction es using List.reverseRecOn with
  | nil => intro v hv; simp [run] at hv
  | append_singleton es e ih =>
    have hf' : FixedMesh geo es := fun x hx => hf x (List.mem_append_left _ hx)
    have ih := ih hf' (fun x hx => h1 x (List.mem_append_left _ hx))
    have he := hf e (by simp)
    have hone := h1 e (by simp)
    have hst := fem_state S hl s hs geo es hf'
    intro v hv
    rw [run_append] at hv
    cases e with
    | step => exact ih v hv
    | solve g1 b ds =>
      simp only at he hone
      subst he
      have hlog : (exec S (run S s es) (.solve g1 b ds)).2 =
          (run S s es).2 ++
            trail S g1 (enter S g1 b (run S s es).1).np1 (enter S g1 b (run S s es).1).g ds := by
        simp only [exec, call]; exact passes_log S g1 ds _ _
      rw [hlog, List.mem_append] at hv
      rcases hv with hv | hv
      · exact ih v hv
      · match ds, hone, hv with
        | [], _, hv => simp [trail] at hv
        | [d], _, hv =>
          simp only [trail, List.mem_singleton] at hv
          subst hv
          by_cases hi : (run S s es).1.isInit = true
          · simp [enter, hi]
          · rcases hst with h | h
            · exact absurd h hi
            · simp only [enter, hi, hb, Bool.false_eq_true, if_false]
              exact h
        | _ :: _ :: _, hone, _ => simp at hone

/-- C326 (finding).  With two passes per solve the second assembly of the finite element system
reads the gradient of the unknown before the first update. -/
theorem c326_fem_two_passes_stale :
    ∃ v, (run (demo false) ⟨1, 1, 1, 0, true⟩ [.solve 3 none [1, 2]]).2[1]? = some v ∧
      v.q = 2 ∧ v.g = 3 ∧ v.g ≠ (demo false).grad 3 v.q :=
  ⟨⟨3, 2, 3⟩, rfl, rfl, rfl, by decide⟩

/-- non-vacuity of the one pass theorem. -/
example : (run (demo false) ⟨1, 1, 1, 0, true⟩ [.solve 3 none [1], .step, .solve 3 none [4]]).2
      = [⟨3, 1, 3⟩, ⟨3, 2, 6⟩] := rfl

end scalar

/-! ### C327: the two-equation models -/
section two
variable {Geo K W DK DW GK GW C : Type}

/-- internal: the assemblies of one call -/
def twoTrail (S : TwoSys Geo K W DK DW GK GW C) (geo : Geo) :
    TwoSt K W GK GW C → List (DK × DW) →
    List (TwoView Geo K W GK GW C × TwoView Geo K W GK GW C)
  | _, [] => []
  | s, d :: ds => (s.view geo, s.view geo) :: twoTrail S geo (twoPass S geo (s, []) d).1 ds

theorem twoPasses_log (S : TwoSys Geo K W DK DW GK GW C) (geo : Geo) (ds : List (DK × DW)) :
    ∀ s l, (ds.foldl (twoPass S geo) (s, l)).2 = l ++ twoTrail S geo s ds := by
  induction ds with
  | nil => intro s l; simp [twoTrail]
  | cons d ds ih =>
    intro s l
    have : twoPass S geo (s, l) d = ((twoPass S geo (s, []) d).1, l ++ [(s.view geo, s.view geo)]) := by
      simp [twoPass]
    rw [List.foldl_cons, this, ih]; simp [twoTrail]

theorem twoPasses_init (S : TwoSys Geo K W DK DW GK GW C) (geo : Geo) (ds : List (DK × DW)) :
    ∀ s l, (ds.foldl (twoPass S geo) (s, l)).1.isInit = s.isInit := by
  induction ds with
  | nil => intro s l; rfl
  | cons d ds ih => intro s l; rw [List.foldl_cons]; rw [ih]; rfl

/-- C327.  In every pass the two equations are assembled from the same fields (Jacobi): neither
sees the other's new values. -/
theorem c327_jacobi (S : TwoSys Geo K W DK DW GK GW C) (s : TwoSt K W GK GW C)
    (es : List (Geo × List (DK × DW))) :
    ∀ c ∈ twoRun S s es, ∀ a ∈ c, a.1 = a.2 := by
  induction es generalizing s with
  | nil => intro c hc; simp [twoRun] at hc
  | cons e es ih =>
    obtain ⟨geo, ds⟩ := e
    intro c hc
    simp only [twoRun, List.mem_cons] at hc
    rcases hc with hc | hc
    · subst hc
      rw [twoCall, twoPasses_log, List.nil_append]
      generalize twoEnter S geo s = s0
      intro a ha
      induction ds generalizing s0 with
      | nil => simp [twoTrail] at ha
      | cons d ds ih2 =>
        simp only [twoTrail, List.mem_cons] at ha
        rcases ha with ha | ha
        · subst ha; rfl
        · exact ih2 _ ha
    · exact ih _ c hc

theorem twoTrail_coef (S : TwoSys Geo K W DK DW GK GW C) (geo : Geo) (ds : List (DK × DW)) :
    ∀ s, ∀ a ∈ twoTrail S geo s ds, a.1.c = s.c ∧ a.1.geo = geo := by
  induction ds with
  | nil => intro s a ha; simp [twoTrail] at ha
  | cons d ds ih =>
    intro s a ha
    simp only [twoTrail, List.mem_cons] at ha
    rcases ha with ha | ha
    · subst ha; exact ⟨rfl, rfl⟩
    · obtain ⟨h1, h2⟩ := ih _ a ha
      exact ⟨by rw [h1]; rfl, h2⟩

/-- C327.  The blending, diffusion coefficients and wall values of a call are those of the fields its
first pass reads, and stay frozen for all its passes. -/
theorem c327_coefficients_of_first_pass (S : TwoSys Geo K W DK DW GK GW C) (s : TwoSt K W GK GW C)
    (es : List (Geo × List (DK × DW))) :
    ∀ c ∈ twoRun S s es, ∀ a0, c[0]? = some a0 → ∀ a ∈ c,
      a.1.c = S.coef a0.1.geo a0.1.k a0.1.w a0.1.gk a0.1.gw := by
  induction es generalizing s with
  | nil => intro c hc; simp [twoRun] at hc
  | cons e es ih =>
    obtain ⟨geo, ds⟩ := e
    intro c hc
    simp only [twoRun, List.mem_cons] at hc
    rcases hc with hc | hc
    · subst hc
      rw [twoCall, twoPasses_log, List.nil_append]
      intro a0 h0 a ha
      rw [(twoTrail_coef S geo ds _ a ha).1]
      cases ds with
      | nil => simp [twoTrail] at ha
      | cons d ds =>
        simp only [twoTrail, List.getElem?_cons_zero, Option.some.injEq] at h0
        subst h0
        rfl
    · exact ih _ c hc

theorem twoTrail_fresh (S : TwoSys Geo K W DK DW GK GW C) (geo : Geo) (ds : List (DK × DW)) :
    ∀ s : TwoSt K W GK GW C, s.gk = S.gradK geo s.k → s.gw = S.gradW geo s.w →
      ∀ a ∈ twoTrail S geo s ds, a.1.gk = S.gradK geo a.1.k ∧ a.1.gw = S.gradW geo a.1.w := by
  induction ds with
  | nil => intro s _ _ a ha; simp [twoTrail] at ha
  | cons d ds ih =>
    intro s h1 h2 a ha
    simp only [twoTrail, List.mem_cons] at ha
    rcases ha with ha | ha
    · subst ha; exact ⟨h1, h2⟩
    · exact ih _ rfl rfl a ha

theorem twoCall_state (S : TwoSys Geo K W DK DW GK GW C) (geo : Geo) (ds : List (DK × DW)) :
    ∀ (s : TwoSt K W GK GW C) l, s.gk = S.gradK geo s.k → s.gw = S.gradW geo s.w →
      (ds.foldl (twoPass S geo) (s, l)).1.gk = S.gradK geo (ds.foldl (twoPass S geo) (s, l)).1.k ∧
      (ds.foldl (twoPass S geo) (s, l)).1.gw = S.gradW geo (ds.foldl (twoPass S geo) (s, l)).1.w := by
  induction ds with
  | nil => intro s l h1 h2; exact ⟨h1, h2⟩
  | cons d ds ih => intro s l h1 h2; rw [List.foldl_cons]; exact ih _ _ rfl rfl

/-- C327.  On a fixed mesh every assembly of the pair reads the gradients of exactly the two unknowns
it reads, in all passes of all calls. -/
theorem c327_fixed_mesh_fresh (S : TwoSys Geo K W DK DW GK GW C) (geo : Geo)
    (es : List (Geo × List (DK × DW))) (hf : ∀ e ∈ es, e.1 = geo) (s : TwoSt K W GK GW C)
    (hs : s.isInit = true) :
    ∀ c ∈ twoRun S s es, ∀ a ∈ c,
      a.1.gk = S.gradK geo a.1.k ∧ a.1.gw = S.gradW geo a.1.w := by
  suffices H : ∀ s : TwoSt K W GK GW C, (s.isInit = true ∨
      (s.gk = S.gradK geo s.k ∧ s.gw = S.gradW geo s.w)) →
      ∀ c ∈ twoRun S s es, ∀ a ∈ c,
        a.1.gk = S.gradK geo a.1.k ∧ a.1.gw = S.gradW geo a.1.w from H s (Or.inl hs)
  clear hs s
  induction es with
  | nil => intro s _ c hc; simp [twoRun] at hc
  | cons e es ih =>
    have hge := hf e List.mem_cons_self
    obtain ⟨g1, ds⟩ := e
    simp only at hge
    subst hge
    intro s hs c hc
    have hent : (twoEnter S g1 s).gk = S.gradK g1 (twoEnter S g1 s).k ∧
        (twoEnter S g1 s).gw = S.gradW g1 (twoEnter S g1 s).w := by
      by_cases hi : s.isInit = true
      · simp [twoEnter, hi]
      · rcases hs with h | h
        · exact absurd h hi
        · simpa [twoEnter, hi] using h
    simp only [twoRun, List.mem_cons] at hc
    rcases hc with hc | hc
    · subst hc
      rw [twoCall, twoPasses_log, List.nil_append]
      exact twoTrail_fresh S g1 ds _ hent.1 hent.2
    · refine ih (fun e he => hf e (List.mem_cons_of_mem _ he)) _ (Or.inr ?_) c hc
      exact twoCall_state S g1 ds _ _ hent.1 hent.2

/-- A small concrete pair. -/
def demo2 : TwoSys ℕ ℕ ℕ ℕ ℕ ℕ ℕ (ℕ × ℕ) where
  gradK geo k := geo * k
  gradW geo w := geo * w
  upd q dk dw := (q.1 + dk, q.2 + dw)
  coef _ k w _ _ := (k, w)

/-- non-vacuity: two calls on one mesh; the second pass of the first call still has the coefficients
of the first. -/
theorem c327_coefficients_lag :
    (twoRun demo2 ⟨1, 2, 0, 0, (0, 0), true⟩ [(3, [(1, 1), (1, 1)]), (3, [(1, 1)])]).map
        (fun c => c.map (fun a => (a.1.k, a.1.w, a.1.gk, a.1.gw, a.1.c))) =
      [[(1, 2, 3, 6, (1, 2)), (2, 3, 6, 9, (1, 2))], [(3, 4, 9, 12, (3, 4))]] := rfl

end two

/-! ### C328: the low Mach pair -/
section lm
variable {Geo MV R U P GP GU M : Type}

theorem lmRun_append (S : LM Geo MV R U P GP GU M) (s : LMSt Geo MV U P GP GU M)
    (es : List (LMEv Geo MV R U P)) (e : LMEv Geo MV R U P) :
    lmRun S s (es ++ [e]) = lmExec S (lmRun S s es) e := by
  simp [lmRun, List.foldl_append]

/-- internal: induction over passes, with the start of the call and events. -/
theorem lm_induct (S : LM Geo MV R U P GP GU M)
    (Q : LMSt Geo MV U P GP GU M ×
      List (LMView Geo MV R U P GP GU M × LMView Geo MV R U P GP GU M) → Prop)
    (T : LMSt Geo MV U P GP GU M ×
      List (LMView Geo MV R U P GP GU M × LMView Geo MV R U P GP GU M) → Prop)
    (hT : ∀ a, T a → Q a)
    (hstep : ∀ a, Q a → Q (lmExec S a .step))
    (ok : Geo → Prop)
    (hadv : ∀ a geo mv, ok geo → Q a → Q (lmExec S a (.advance geo mv)))
    (hent : ∀ a rho, Q a → T (lmEnter S rho a.1, a.2))
    (hpass : ∀ a rho d, T a → T (lmPass S rho a d))
    (s : LMSt Geo MV U P GP GU M) (h0 : Q (lmInitialWork S s, []))
    (es : List (LMEv Geo MV R U P))
    (hok : ∀ e ∈ es, match e with | .advance geo _ => ok geo | _ => True) :
    Q (lmRun S s es) := by
  induction es using List.reverseRecOn with
  | nil => exact h0
  | append_singleton es e ih =>
    have ih := ih (fun x hx => hok x (List.mem_append_left _ hx))
    have he := hok e (by simp)
    rw [lmRun_append]
    cases e with
    | step => exact hstep _ ih
    | advance geo mv => exact hadv _ geo mv he ih
    | solve rho ds =>
      refine hT _ ?_
      simp only [lmExec]
      have h := hent _ rho ih
      have hfold : ∀ (ds : List (U × P)) a, T a → T (ds.foldl (lmPass S rho) a) := by
        intro ds
        induction ds with
        | nil => intro a h; exact h
        | cons d ds ih2 => intro a h; rw [List.foldl_cons]; exact ih2 _ (hpass _ rho d h)
      exact hfold ds _ h

/-- C328.  In every run, moving mesh or not, every momentum and every continuity assembly reads the
relative velocity of exactly the velocity it reads, with the current mesh velocity. -/
theorem c328_relative_velocity_current (S : LM Geo MV R U P GP GU M) (s : LMSt Geo MV U P GP GU M)
    (es : List (LMEv Geo MV R U P)) :
    ∀ a ∈ (lmRun S s es).2,
      a.1.vrtm = S.rel a.1.mv a.1.u ∧ a.2.vrtm = S.rel a.2.mv a.2.u := by
  have H := lm_induct S
    (fun a => a.1.vrtm = S.rel a.1.mv a.1.u ∧ ∀ x ∈ a.2,
      x.1.vrtm = S.rel x.1.mv x.1.u ∧ x.2.vrtm = S.rel x.2.mv x.2.u)
    (fun a => a.1.vrtm = S.rel a.1.mv a.1.u ∧ ∀ x ∈ a.2,
      x.1.vrtm = S.rel x.1.mv x.1.u ∧ x.2.vrtm = S.rel x.2.mv x.2.u)
    (fun _ h => h) (fun a h => h) (fun _ => True)
    (fun a geo mv _ h => ⟨rfl, h.2⟩)
    (by
      intro a rho h
      refine ⟨?_, h.2⟩
      by_cases hi : a.1.isInit = true
      · simpa [lmEnter, hi] using h.1
      · simpa [lmEnter, hi] using h.1)
    (by
      intro a rho d h
      refine ⟨rfl, ?_⟩
      intro x hx
      simp only [lmPass, List.mem_append, List.mem_singleton] at hx
      rcases hx with hx | hx
      · exact h.2 x hx
      · subst hx; exact ⟨h.1, rfl⟩)
    s ⟨rfl, by simp⟩ es (by intro e _; cases e <;> trivial)
  exact H.2

/-- C328.  On a mesh whose geometry stays put, in every run: every momentum assembly reads the
pressure gradient of exactly the pressure it reads and the velocity gradient of exactly the velocity
it reads; every continuity assembly reads the pressure gradient of exactly its pressure. -/
theorem c328_fixed_mesh_gradients_current (S : LM Geo MV R U P GP GU M)
    (s : LMSt Geo MV U P GP GU M) (hs : s.isInit = true) (es : List (LMEv Geo MV R U P))
    (hf : ∀ e ∈ es, match e with | .advance geo _ => geo = s.geo | _ => True) :
    ∀ a ∈ (lmRun S s es).2,
      a.1.dpdx = S.gradP a.1.geo a.1.p ∧ a.1.dudx = S.gradU a.1.geo a.1.u ∧
        a.2.dpdx = S.gradP a.2.geo a.2.p := by
  have H := lm_induct S
    (fun a => a.1.geo = s.geo ∧ (a.1.isInit = true ∨ a.1.dpdx = S.gradP a.1.geo a.1.p) ∧
      a.1.dudx = S.gradU a.1.geo a.1.u ∧ ∀ x ∈ a.2,
      x.1.dpdx = S.gradP x.1.geo x.1.p ∧ x.1.dudx = S.gradU x.1.geo x.1.u ∧
        x.2.dpdx = S.gradP x.2.geo x.2.p)
    (fun a => a.1.geo = s.geo ∧ a.1.dpdx = S.gradP a.1.geo a.1.p ∧
      a.1.dudx = S.gradU a.1.geo a.1.u ∧ ∀ x ∈ a.2,
      x.1.dpdx = S.gradP x.1.geo x.1.p ∧ x.1.dudx = S.gradU x.1.geo x.1.u ∧
        x.2.dpdx = S.gradP x.2.geo x.2.p)
    (fun _ h => ⟨h.1, Or.inr h.2.1, h.2.2⟩) (fun a h => h) (fun g => g = s.geo)
    (by
      intro a geo mv hg h
      obtain ⟨h1, h2, h3, h4⟩ := h
      subst hg
      simp only [lmExec]
      rw [h1] at h2 h3
      exact ⟨trivial, h2, h3, h4⟩)
    (by
      intro a rho h
      obtain ⟨h1, h2, h3, h4⟩ := h
      by_cases hi : a.1.isInit = true
      · simp only [lmEnter, hi, if_true]
        exact ⟨h1, trivial, h3, h4⟩
      · rcases h2 with h2 | h2
        · exact absurd h2 hi
        · simp only [lmEnter, hi, Bool.false_eq_true, if_false]
          exact ⟨h1, h2, h3, h4⟩)
    (by
      intro a rho d h
      obtain ⟨h1, h2, h3, h4⟩ := h
      refine ⟨h1, rfl, rfl, ?_⟩
      intro x hx
      simp only [lmPass, List.mem_append, List.mem_singleton] at hx
      rcases hx with hx | hx
      · exact h4 x hx
      · subst hx; exact ⟨h2, h3, h2⟩)
    s ⟨rfl, Or.inl hs, rfl, by simp⟩ es hf
  exact H.2.2.2

/-- C328.  In every run, moving mesh or not: the mass flow rates a momentum assembly advects with are
those of the last continuity assembly before it, the same relative velocity, density, mesh and
pressure gradient that assembly read, with the pressure its solve produced, which is the pressure
the momentum assembly reads; so what the momentum equation advects with is what the pressure
equation made conservative, not the flow rates of the projected velocity. -/
theorem c328_mdot_is_the_conservative_one (S : LM Geo MV R U P GP GU M)
    (s : LMSt Geo MV U P GP GU M) (es : List (LMEv Geo MV R U P)) :
    ∀ pre a b post, (lmRun S s es).2 = pre ++ a :: b :: post →
      b.1.mdot = S.mdotOf a.2.geo a.2.rho a.2.vrtm b.1.p a.2.dpdx ∧
      ∃ dp, b.1.p = S.addP a.2.p dp := by
  let Good : List (LMView Geo MV R U P GP GU M × LMView Geo MV R U P GP GU M) → Prop := fun l =>
    ∀ pre a b post, l = pre ++ a :: b :: post →
      b.1.mdot = S.mdotOf a.2.geo a.2.rho a.2.vrtm b.1.p a.2.dpdx ∧
      ∃ dp, b.1.p = S.addP a.2.p dp
  let Last : LMSt Geo MV U P GP GU M →
      List (LMView Geo MV R U P GP GU M × LMView Geo MV R U P GP GU M) → Prop := fun t l =>
    ∀ pre a, l = pre ++ [a] →
      t.mdot = S.mdotOf a.2.geo a.2.rho a.2.vrtm t.p a.2.dpdx ∧ ∃ dp, t.p = S.addP a.2.p dp
  have H := lm_induct S
    (fun a => Good a.2 ∧ Last a.1 a.2 ∧ (a.1.isInit = true → a.2 = []) )
    (fun a => Good a.2 ∧ Last a.1 a.2 ∧ a.1.isInit = false)
    (fun _ h => ⟨h.1, h.2.1, fun hi => by rw [h.2.2] at hi; cases hi⟩)
    (fun a h => h) (fun _ => True) (fun a geo mv _ h => h)
    (by
      intro a rho h
      obtain ⟨h1, h2, h3⟩ := h
      refine ⟨h1, ?_, ?_⟩
      · by_cases hi : a.1.isInit = true
        · intro pre x hx
          simp only [h3 hi] at hx
          simp at hx
        · simpa [lmEnter, hi] using h2
      · by_cases hi : a.1.isInit = true <;> simp [lmEnter, hi])
    (by
      intro a rho d h
      obtain ⟨h1, h2, h3⟩ := h
      refine ⟨?_, ?_, h3⟩
      · intro pre x y post hx
        simp only [lmPass] at hx
        rcases List.eq_nil_or_concat post with hp | ⟨post', z, hp⟩
        · subst hp
          rw [show pre ++ [x, y] = (pre ++ [x]) ++ [y] by simp] at hx
          obtain ⟨e1, e2⟩ := List.append_inj' hx rfl
          simp only [List.cons.injEq, and_true] at e2
          subst e2
          exact h2 pre x e1
        · subst hp
          rw [List.concat_eq_append] at hx
          rw [show pre ++ x :: y :: (post' ++ [z]) = (pre ++ x :: y :: post') ++ [z] by simp] at hx
          obtain ⟨e1, _⟩ := List.append_inj' hx rfl
          exact h1 pre x y post' e1
      · intro pre x hx
        simp only [lmPass] at hx
        obtain ⟨_, this⟩ := List.append_inj' hx rfl
        simp only [List.cons.injEq, and_true] at this
        subst this
        exact ⟨rfl, d.2, rfl⟩)
    s ⟨by intro pre a b post h; simp at h,
      by intro pre a h; simp at h, by intro _; rfl⟩ es (by intro e _; cases e <;> trivial)
  exact H.1

/-- C328.  The very first momentum assembly, when the first solve makes a pass, advects with the
flow rates of the initial fields it reads. -/
theorem c328_first_mdot (S : LM Geo MV R U P GP GU M) (s : LMSt Geo MV U P GP GU M)
    (hs : s.isInit = true) (es : List (LMEv Geo MV R U P))
    (hno : ∀ e ∈ es, match e with | .solve _ _ => False | _ => True)
    (rho : R) (d : U × P) (ds : List (U × P)) :
    ∃ a post, (lmRun S s (es ++ [.solve rho (d :: ds)])).2 = a :: post ∧
      a.1.rho = rho ∧ a.1.mdot = S.mdotOf a.1.geo rho a.1.vrtm a.1.p a.1.dpdx := by
  have h0 : (lmRun S s es).1.isInit = true ∧ (lmRun S s es).2 = [] := by
    induction es using List.reverseRecOn with
    | nil => exact ⟨hs, rfl⟩
    | append_singleton es e ih =>
      have ih := ih (fun x hx => hno x (List.mem_append_left _ hx))
      have he := hno e (by simp)
      rw [lmRun_append]
      cases e with
      | step => exact ih
      | advance geo mv => exact ih
      | solve rho ds => exact absurd he (by simp)
  rw [lmRun_append]
  simp only [lmExec, List.foldl_cons]
  have hgrow : ∀ (ds : List (U × P)) b x l, b.2 = x :: l →
      ∃ post, (ds.foldl (lmPass S rho) b).2 = x :: post := by
    intro ds
    induction ds with
    | nil => intro b x l hb; exact ⟨l, hb⟩
    | cons d ds ih =>
      intro b x l hb
      rw [List.foldl_cons]
      exact ih _ x (l ++ _) (by simp only [lmPass, hb, List.cons_append]; rfl)
  have hfirst := hgrow ds (lmPass S rho (lmEnter S rho (lmRun S s es).1, (lmRun S s es).2) d)
    _ [] (by simp only [lmPass, h0.2, List.nil_append]; rfl)
  obtain ⟨post, hpost⟩ := hfirst
  refine ⟨_, post, hpost, rfl, ?_⟩
  simp [LMSt.view, lmEnter, h0.1]

/-- A small concrete low Mach system. -/
def demoLM : LM Int Int Int Int Int Int Int Int where
  gradP geo p := geo * p
  gradU geo u := geo * u
  rel mv u := u - mv
  mdotOf _ rho v p dpdx := rho * v - (p - dpdx)
  proj _ u dp old := u - (dp - old)
  addU u d := u + d
  addP p d := p + d

/-- non-vacuity: a run with two solves, three passes, a time step and a moving mesh.  The flow rate of
the last momentum assembly is that of the continuity assembly before it, 2*4-(4-2)=6, not that of the
projected velocity. -/
theorem c328_example :
    (lmRun demoLM ⟨1, 0, 1, 1, 1, 1, 0, 0, 0, 0, true⟩
      [.advance 1 0, .solve 2 [(1, 1), (3, 2)], .step, .advance 4 1, .solve 2 [(1, 1)]]).2.map
        (fun a => (a.1.u, a.1.p, a.1.dpdx, a.1.vrtm, a.1.mdot, a.2.u, a.2.vrtm)) =
      [(1, 1, 1, 1, 2, 2, 2), (1, 2, 2, 1, 3, 4, 4), (2, 4, 4, 1, 6, 3, 2)] := by
  rfl

/-- C328 (finding).  After the mesh geometry has changed, the first momentum and continuity
assemblies of the next solve read the pressure and velocity gradients of the old mesh. -/
theorem c328_stale_after_mesh_motion :
    ∃ a, (lmRun demoLM ⟨1, 0, 1, 1, 1, 1, 0, 0, 0, 0, true⟩
      [.advance 1 0, .solve 2 [(1, 1)], .step, .advance 4 1, .solve 2 [(1, 1)]]).2[1]? = some a ∧
      a.1.geo = 4 ∧ a.1.dpdx ≠ demoLM.gradP 4 a.1.p ∧ a.1.dudx ≠ demoLM.gradU 4 a.1.u ∧
      a.2.dpdx ≠ demoLM.gradP 4 a.2.p :=
  ⟨_, rfl, rfl, by decide, by decide, by decide⟩

end lm
end Nalu.Schedule
