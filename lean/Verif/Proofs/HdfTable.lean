import Verif.Spec.HdfTable
import Mathlib.Tactic.Linarith
import Mathlib.Tactic.FieldSimp
import Mathlib.Tactic.Ring
import Mathlib.Tactic.NormNum
import Mathlib.Tactic.Positivity

/-!
# Lemmas on property tables
-/

namespace Nalu.HdfTable
open Spec

theorem findix_some {l : List String} {s : String} {k : ℕ} (h : findix l s = some k) : l[k]? = some s := by
  unfold findix at h
  rw [List.findIdx?_eq_some_iff_getElem] at h
  obtain ⟨hk, h1, -⟩ := h
  rw [List.getElem?_eq_getElem hk]
  simpa using h1

theorem findix_isSome {l : List String} {s : String} : (findix l s).isSome ↔ s ∈ l := by
  unfold findix
  simp [List.findIdx?_isSome]

theorem findix_none {l : List String} {s : String} : findix l s = none ↔ s ∉ l := by
  rw [← findix_isSome, Option.not_isSome_iff_eq_none]

theorem findix_of_prefix {pre post : List String} {s : String} (h : s ∉ pre) : findix (pre ++ s :: post) s = some pre.length := by
  unfold findix
  rw [List.findIdx?_append]
  have : List.findIdx? (· == s) pre = none := findix_none.2 h
  rw [this]; simp [List.findIdx?_cons]

/-- Names found in a list give indices at which the values of the list are the values of the names. -/
theorem mapM_findix {l : List String} (env : String → ℝ) : ∀ {ns : List String} {ix : List ℕ}, ns.mapM (findix l) = some ix →
    ix.mapM (fun k => (l.map env)[k]?) = some (ns.map env)
  | [], ix, h => by simp at h; subst h; simp
  | n :: ns, ix, h => by
    rw [List.mapM_cons] at h
    simp only [bind, pure, Option.bind_eq_some_iff] at h
    obtain ⟨k, hk, ks, hks, e⟩ := h
    obtain rfl := Option.some.inj e
    rw [List.mapM_cons]
    simp only [bind, pure]
    rw [mapM_findix env hks, List.getElem?_map, findix_some hk]
    simp

theorem mapM_findix_isSome {l : List String} : ∀ {ns : List String}, (ns.mapM (findix l)).isSome ↔ ∀ n ∈ ns, n ∈ l
  | [] => by simp
  | n :: ns => by
    rw [List.mapM_cons]
    simp only [bind, pure, List.mem_cons, forall_eq_or_imp]
    rw [← mapM_findix_isSome (ns := ns), ← findix_isSome (l := l)]
    cases findix l n <;> cases ns.mapM (findix l) <;> simp

theorem mapM_length {α β : Type*} {f : α → Option β} : ∀ {l : List α} {r : List β}, l.mapM f = some r → r.length = l.length
  | [], r, h => by simp at h; subst h; rfl
  | a :: l, r, h => by
    rw [List.mapM_cons] at h
    simp only [bind, pure, Option.bind_eq_some_iff] at h
    obtain ⟨k, hk, ks, hks, e⟩ := h
    obtain rfl := Option.some.inj e
    simp [mapM_length hks]

theorem store_mid (p r : List ℝ) (x v : ℝ) : store (p ++ x :: r) p.length v = some (p ++ v :: r) := by
  unfold store
  rw [if_pos (by simp)]
  simp

theorem fillIndexed_eq {inputs : List ℝ} : ∀ {ks : List ℕ} {vals : List ℝ} {p r : List ℝ}, ks.mapM (fun k => inputs[k]?) = some vals →
    r.length = ks.length → fillIndexed inputs ks p.length (p ++ r) = some (p ++ vals)
  | [], vals, p, r, h, hr => by
    simp at h; subst h
    obtain rfl : r = [] := List.length_eq_zero_iff.1 hr
    simp [fillIndexed]
  | k :: ks, vals, p, r, h, hr => by
    rw [List.mapM_cons] at h
    simp only [bind, pure, Option.bind_eq_some_iff] at h
    obtain ⟨v, hv, vs, hvs, e⟩ := h
    obtain rfl := Option.some.inj e
    obtain ⟨x, r, rfl⟩ : ∃ x r', r = x :: r' := by
      cases r with
      | nil => simp at hr
      | cons x r => exact ⟨x, r, rfl⟩
    rw [fillIndexed, hv, Option.bind_some, store_mid, Option.bind_some]
    have := fillIndexed_eq (p := p ++ [v]) (r := r) hvs (by simpa using hr)
    simp only [List.length_append, List.length_cons, List.length_nil, List.append_assoc, List.singleton_append, zero_add] at this
    exact this

theorem fillDirect_append {inputs : List ℝ} : ∀ {ks ks' : List ℕ} {i : ℕ} {b : List ℝ},
    fillDirect inputs (ks ++ ks') i b = (fillDirect inputs ks i b).bind fun b => fillDirect inputs ks' (i + ks.length) b
  | [], ks', i, b => by simp [fillDirect]
  | k :: ks, ks', i, b => by
    simp only [List.cons_append, fillDirect, List.length_cons]
    cases inputs[i]? with
    | none => simp
    | some v =>
      simp only [Option.bind_some]
      cases store b k v with
      | none => simp
      | some b =>
        simp only [Option.bind_some]
        rw [fillDirect_append]
        simp [Nat.add_comm, Nat.add_left_comm]

theorem fillDirect_range {inputs : List ℝ} : ∀ {m : ℕ} {i : ℕ} {p r vals : List ℝ}, (∀ j, j < m → inputs[i + j]? = vals[j]?) → vals.length = m →
    r.length ≥ m → fillDirect inputs (List.range' p.length m) i (p ++ r) = some (p ++ vals ++ r.drop m)
  | 0, i, p, r, vals, h, hv, hr => by
    obtain rfl := List.length_eq_zero_iff.1 hv
    simp [fillDirect]
  | m + 1, i, p, r, vals, h, hv, hr => by
    obtain ⟨v, vals, rfl⟩ : ∃ v vs, vals = v :: vs := by
      cases vals with
      | nil => simp at hv
      | cons v vs => exact ⟨v, vs, rfl⟩
    obtain ⟨x, r, rfl⟩ : ∃ x r', r = x :: r' := by
      cases r with
      | nil => simp at hr
      | cons x r => exact ⟨x, r, rfl⟩
    have h0 : inputs[i]? = some v := by simpa using h 0 (by omega)
    rw [List.range'_succ, fillDirect, h0, Option.bind_some, store_mid, Option.bind_some]
    have := fillDirect_range (m := m) (i := i + 1) (p := p ++ [v]) (r := r) (vals := vals) (inputs := inputs)
      (fun j hj => by have := h (j + 1) (by omega); rw [show i + 1 + j = i + (j + 1) by omega, this]; simp) (by simpa using hv) (by simpa using hr)
    simp only [List.length_append, List.length_cons, List.length_nil, List.append_assoc, List.singleton_append, zero_add] at this
    simpa using this

theorem check1_coord (v : Var) (x : ℝ) : (check1 v.lo v.hi v.log x).1 = coord v x := by
  unfold check1 coord
  have hc : (if v.hi < if x < v.lo then v.lo else x then v.hi else if x < v.lo then v.lo else x) = min v.hi (max v.lo x) := by
    by_cases h2 : x < v.lo
    · simp only [if_pos h2, max_eq_left h2.le]
      split_ifs with h1
      · rw [min_eq_left h1.le]
      · rw [min_eq_right (not_lt.1 h1)]
    · simp only [if_neg h2, max_eq_right (not_lt.1 h2)]
      split_ifs with h1
      · rw [min_eq_left h1.le]
      · rw [min_eq_right (not_lt.1 h1)]
  dsimp only
  rw [hc]

theorem check1_flag (v : Var) (x : ℝ) : (check1 v.lo v.hi v.log x).2 = true ↔ x < v.lo ∨ v.hi < x := by
  unfold check1
  simp only [Bool.or_eq_true, decide_eq_true_eq]
  by_cases h : x < v.lo
  · simp [h]
  · simp [h]

theorem check_eq : ∀ (vars : List Var) (g : Var → ℝ),
    ∃ c, check (vars.map Var.lo) (vars.map Var.hi) (vars.map Var.log) (vars.map g) = some (vars.map fun v => coord v (g v), c) ∧
      (c = true ↔ ∃ v ∈ vars, g v < v.lo ∨ v.hi < g v)
  | [], g => ⟨false, by simp [check], by simp⟩
  | v :: vs, g => by
    obtain ⟨c, h1, h2⟩ := check_eq vs g
    refine ⟨(check1 v.lo v.hi v.log (g v)).2 || c, ?_, ?_⟩
    · simp only [List.map_cons, check, h1, Option.map_some, check1_coord]
    · rw [Bool.or_eq_true, check1_flag, h2]
      simp

theorem wire_nil {names user : List String} {w : Wiring} (h : wire names [] user = some w) :
    names.length = user.length ∧ names.mapM (findix user) = some w.index ∧ w.names = names := by
  simp only [wire, List.foldlM_nil, List.mapM_nil, pure, Option.bind_some] at h
  split_ifs at h with hl
  cases hm : names.mapM (findix user) with
  | none => rw [hm] at h; simp at h
  | some ix =>
    rw [hm] at h
    simp only [Option.map_some, Option.some.injEq] at h
    subst h
    exact ⟨hl, rfl, rfl⟩

theorem query_nil {vars : List Var} {spline : List ℝ → ℝ} {user : List String} {w : Wiring} (hw : wire (vars.map Var.name) [] user = some w)
    (env : String → ℝ) {b : List ℝ} (hb : b.length = vars.length) :
    ∃ c, query (file vars spline) w [] (user.map env) b = some (value vars spline env, vars.map fun v => env v.name, c) ∧
      (c = true ↔ Outside vars env) := by
  obtain ⟨hl, hm, -⟩ := wire_nil hw
  obtain ⟨c, h1, h2⟩ := check_eq vars fun v => env v.name
  refine ⟨c, ?_, h2⟩
  have hf : fill w [] (user.map env) b = some (vars.map fun v => env v.name) := by
    unfold fill
    rw [if_pos List.length_nil]
    have := fillIndexed_eq (p := []) (r := b) (mapM_findix env hm) (by rw [mapM_length hm]; simp [hb])
    simpa [Function.comp_def] using this
  unfold query
  rw [hf, Option.bind_some]
  unfold file
  rw [h1]
  rfl

end Nalu.HdfTable
