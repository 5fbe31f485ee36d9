import Verif.Props.Spline1DLinear

/-! # C158: property tables in several dimensions -/

namespace Nalu.BSpline

variable {K : Type*} [Field K] [LinearOrder K]

/-! ## Lookups do not depend on earlier lookups -/

/-- Specification: two tables agree in everything but the control points of the splines that a lookup
overwrites (`sp1_` of every level; the innermost splines agree completely). -/
def SameTable : (d : ℕ) → ND K d → ND K d → Prop
  | 0, .leaf s, .leaf t => s = t
  | d + 1, .node s a, .node t b =>
    ({ s with cp := 0 } : Sp1 K) = { t with cp := 0 } ∧ ∀ k, SameTable d (a k) (b k)

theorem SameTable.refl : (d : ℕ) → (t : ND K d) → SameTable d t t
  | 0, .leaf _ => rfl
  | d + 1, .node _ b => ⟨rfl, fun k => SameTable.refl d (b k)⟩

theorem SameTable.trans : (d : ℕ) → {a b c : ND K d} → SameTable d a b → SameTable d b c → SameTable d a c
  | 0, .leaf _, .leaf _, .leaf _, h1, h2 => Eq.trans (show _ = _ from h1) (show _ = _ from h2)
  | d + 1, .node _ _, .node _ _, .node _ _, h, h' =>
    ⟨(show _ ∧ _ from h).1.trans (show _ ∧ _ from h').1,
      fun k => SameTable.trans d ((show _ ∧ _ from h).2 k) ((show _ ∧ _ from h').2 k)⟩

/-- The lookup as a function of the table. -/
def pureValue (scratch : ℕ → K) : (d : ℕ) → ND K d → (ℕ → K) → K
  | 0, .leaf s, x => Sp1.value s scratch (x 0)
  | d + 1, .node s inner, x =>
    match findIndx (s.npts + 2) s.npts s.order (getUk (x 0) s.hi s.lo s.clip) s.U with
    | none => 0
    | some ix => ∑ j ∈ Finset.range (s.order + 1),
        basisFuns ix s.order (getUk (x 0) s.hi s.lo s.clip) s.U scratch j
          * pureValue scratch d (inner (ix - s.order + j)) fun i => x (i + 1)

/-- One step of the loop over the inner splines. -/
def innerStep (scratch : ℕ → K) (d : ℕ) (base : ℕ) (x : ℕ → K) (st : (ℕ → K) × (ℕ → ND K d)) (m : ℕ) :
    (ℕ → K) × (ℕ → ND K d) :=
  let k := base + m
  let v := valueND scratch d (st.2 k) x
  (set st.1 k v.1, setND st.2 k v.2)

theorem innerLoop (scratch : ℕ → K) (d base : ℕ) (x : ℕ → K) (cp : ℕ → K) (inner : ℕ → ND K d) (m : ℕ) :
    let r := (List.range m).foldl (innerStep scratch d base x) (cp, inner)
    (∀ j < m, r.1 (base + j) = (valueND scratch d (inner (base + j)) x).1) ∧
    (∀ k, r.2 k = if base ≤ k ∧ k < base + m then (valueND scratch d (inner k) x).2 else inner k) := by
  induction m with
  | zero =>
    refine ⟨fun j hj => absurd hj (by omega), fun k => ?_⟩
    rw [if_neg (by omega)]; rfl
  | succ m ih =>
    simp only at ih ⊢
    rw [List.range_succ, List.foldl_append]
    simp only [List.foldl_cons, List.foldl_nil]
    set r := (List.range m).foldl (innerStep scratch d base x) (cp, inner)
    obtain ⟨h1, h2⟩ := ih
    have hm : r.2 (base + m) = inner (base + m) := by rw [h2, if_neg (by omega)]
    constructor
    · intro j hj
      simp only [innerStep, set]
      by_cases hjm : j = m
      · subst hjm; rw [if_pos rfl, hm]
      · rw [if_neg (by omega)]; exact h1 j (by omega)
    · intro k
      simp only [innerStep, setND]
      by_cases hk : k = base + m
      · subst hk; rw [if_pos rfl, if_pos (by omega), hm]
      · rw [if_neg hk, h2 k]
        by_cases h : base ≤ k ∧ k < base + m
        · rw [if_pos h, if_pos (by omega)]
        · rw [if_neg h, if_neg (by omega)]

theorem valueND_spec (scratch : ℕ → K) : (d : ℕ) → (t : ND K d) → (x : ℕ → K) →
    (valueND scratch d t x).1 = pureValue scratch d t x ∧ SameTable d (valueND scratch d t x).2 t
  | 0, .leaf s, x => ⟨rfl, rfl⟩
  | d + 1, .node s inner, x => by
    rcases hf : findIndx (s.npts + 2) s.npts s.order (getUk (x 0) s.hi s.lo s.clip) s.U with _ | ix
    · have e : valueND scratch (d + 1) (.node s inner) x = (0, .node s inner) := by
        simp only [valueND, hf]
      rw [e]
      refine ⟨?_, SameTable.refl (d + 1) (.node s inner)⟩
      simp only [pureValue, hf]
    · obtain ⟨h1, h2⟩ := innerLoop scratch d (ix - s.order) (fun i => x (i + 1)) s.cp inner (s.order + 1)
      have e : valueND scratch (d + 1) (.node s inner) x
          = (({ s with cp := ((List.range (s.order + 1)).foldl
                (innerStep scratch d (ix - s.order) fun i => x (i + 1)) (s.cp, inner)).1 } : Sp1 K).value scratch (x 0),
              .node { s with cp := ((List.range (s.order + 1)).foldl
                (innerStep scratch d (ix - s.order) fun i => x (i + 1)) (s.cp, inner)).1 }
               ((List.range (s.order + 1)).foldl
                (innerStep scratch d (ix - s.order) fun i => x (i + 1)) (s.cp, inner)).2) := by
        simp only [valueND, hf]; rfl
      rw [e]
      set r := (List.range (s.order + 1)).foldl (innerStep scratch d (ix - s.order) fun i => x (i + 1)) (s.cp, inner)
      refine ⟨?_, rfl, fun k => ?_⟩
      · have hf' : findIndx (({ s with cp := r.1 } : Sp1 K).npts + 2) ({ s with cp := r.1 } : Sp1 K).npts
            ({ s with cp := r.1 } : Sp1 K).order (getUk (x 0) s.hi s.lo s.clip)
            ({ s with cp := r.1 } : Sp1 K).U = some ix := hf
        simp only [pureValue, Sp1.value, hf, hf']
        refine Finset.sum_congr rfl fun j hj => ?_
        have hj := Finset.mem_range.1 hj
        rw [h1 j hj, (valueND_spec scratch d _ _).1]
        rfl
      · rw [h2 k]
        split
        · exact (valueND_spec scratch d (inner k) _).2
        · exact SameTable.refl d (inner k)

theorem pureValue_congr (scratch : ℕ → K) : (d : ℕ) → {a b : ND K d} → SameTable d a b → (x : ℕ → K) →
    pureValue scratch d a x = pureValue scratch d b x
  | 0, .leaf s, .leaf t, h, x => by
    simp only [SameTable] at h
    rw [h]
  | d + 1, .node s a, .node t b, h, x => by
    obtain ⟨h1, h2⟩ := h
    have e1 : s.order = t.order := by have := congrArg Sp1.order h1; exact this
    have e2 : s.npts = t.npts := by have := congrArg Sp1.npts h1; exact this
    have e3 : s.hi = t.hi := by have := congrArg Sp1.hi h1; exact this
    have e4 : s.lo = t.lo := by have := congrArg Sp1.lo h1; exact this
    have e5 : s.clip = t.clip := by have := congrArg Sp1.clip h1; exact this
    have e6 : s.knots = t.knots := by have := congrArg Sp1.knots h1; exact this
    have e7 : s.U = t.U := by funext k; unfold Sp1.U; rw [e6]
    simp only [pureValue]
    rw [e1, e2, e3, e4, e5, e7]
    rcases findIndx (t.npts + 2) t.npts t.order (getUk (x 0) t.hi t.lo t.clip) t.U with _ | ix
    · rfl
    · exact Finset.sum_congr rfl fun j _ => by rw [pureValue_congr scratch d (h2 _)]

/-- A sequence of lookups: the table after them. -/
def lookups (scratch : ℕ → K) (d : ℕ) (t : ND K d) (qs : List (ℕ → K)) : ND K d :=
  qs.foldl (fun t q => (valueND scratch d t q).2) t

theorem lookups_same (scratch : ℕ → K) (d : ℕ) (t : ND K d) (qs : List (ℕ → K)) :
    SameTable d (lookups scratch d t qs) t := by
  unfold lookups
  induction qs generalizing t with
  | nil => exact SameTable.refl d t
  | cons q qs ih => exact SameTable.trans d (ih _) (valueND_spec scratch d t q).2

/-- **C158** (history): a lookup overwrites parts of the table, but after any sequence of lookups every
further lookup returns what it would have returned on the fresh table. -/
theorem c158_history (scratch : ℕ → K) (d : ℕ) (t : ND K d) (qs : List (ℕ → K)) (x : ℕ → K) :
    (valueND scratch d (lookups scratch d t qs) x).1 = (valueND scratch d t x).1 := by
  rw [(valueND_spec scratch d _ x).1, (valueND_spec scratch d t x).1]
  exact pureValue_congr scratch d (lookups_same scratch d t qs) x

/-! ## Interpolation -/

theorem mapM_spec {α β : Type*} (f : α → Option β) : (l : List α) → (r : List β) → l.mapM f = some r →
    r.length = l.length ∧ ∀ i (h : i < l.length), f l[i] = r[i]?
  | [], r, h => by
    simp at h; subst h; simp
  | a :: l, r, h => by
    rw [List.mapM_cons] at h
    rcases ha : f a with _ | b
    · rw [ha] at h; simp at h
    · rw [ha] at h
      rcases hl : l.mapM f with _ | r'
      · rw [hl] at h; simp at h
      · rw [hl] at h
        simp at h
        subst h
        obtain ⟨h1, h2⟩ := mapM_spec f l r' hl
        refine ⟨by simp [h1], fun i hi => ?_⟩
        rcases i with _ | i
        · simpa using ha
        · simpa using h2 i (by simpa using hi)

theorem collect_spec {α : Type*} {n : ℕ} {f : ℕ → Option α} {r : List α} (h : collect n f = some r) :
    r.length = n ∧ ∀ i < n, f i = r[i]? := by
  obtain ⟨h1, h2⟩ := mapM_spec f (List.range n) r h
  refine ⟨by simpa using h1, fun i hi => ?_⟩
  have := h2 i (by simpa using hi)
  simpa using this

/-- Specification: place of a grid point in the dependent variable, the first index running fastest. -/
def flatIndex : List ℕ → List ℕ → ℕ
  | n :: ns, k :: ks => k + n * flatIndex ns ks
  | _, _ => 0

/-- Specification: an index tuple is inside the grid. -/
def InGrid : List ℕ → List ℕ → Prop
  | [], [] => True
  | n :: ns, k :: ks => k < n ∧ InGrid ns ks
  | _, _ => False

theorem flatIndex_lt : (ns ks : List ℕ) → InGrid ns ks → flatIndex ns ks < ns.prod
  | [], [], _ => by simp [flatIndex]
  | n :: ns, k :: ks, ⟨h1, h2⟩ => by
    have := flatIndex_lt ns ks h2
    simp only [flatIndex, List.prod_cons]
    calc k + n * flatIndex ns ks < n + n * flatIndex ns ks := by omega
      _ = n * (flatIndex ns ks + 1) := by ring
      _ ≤ n * ns.prod := Nat.mul_le_mul_left n this

/-- Coordinates of a grid point. -/
def gridPoint (xs : List (List K)) (ks : List ℕ) (i : ℕ) : K := (xs.getD i []).getD (ks.getD i 0) 0

variable [IsStrictOrderedRing K]

theorem pure_interpolates {p : ℕ} {clip : Bool} (scratch : ℕ → K) (hp : 1 ≤ p) : (d : ℕ) → (x : List K) →
    (xs : List (List K)) → (phi : ℕ → K) → (t : ND K d) → buildND p clip scratch d x xs phi = some t →
    xs.length = d → (∀ v ∈ x :: xs, p < v.length) → (sc : ℕ → K) → (ks : List ℕ) →
    InGrid ((x :: xs).map List.length) ks →
    pureValue sc d t (gridPoint (x :: xs) ks) = phi (flatIndex ((x :: xs).map List.length) ks)
  | 0, x, xs, phi, t, hb, hlen, hv, sc, ks, hg => by
    have hxs : xs = [] := List.length_eq_zero_iff.1 hlen
    subst hxs
    rcases ks with _ | ⟨k, ks⟩
    · simp [InGrid] at hg
    · rcases ks with _ | ⟨_, _⟩
      · have hk : k < x.length := by simpa [InGrid] using hg
        have e : flatIndex ([x].map List.length) [k] = k := by simp [flatIndex]
        rw [e]
        simp only [buildND, Option.map_eq_some_iff] at hb
        obtain ⟨s, hs, rfl⟩ := hb
        exact c156_interpolates hs hp (hv x (by simp)) sc hk
      · simp [InGrid] at hg
  | d + 1, x, [], phi, t, hb, hlen, hv, sc, ks, hg => by simp at hlen
  | d + 1, x, y :: ys, phi, t, hb, hlen, hv, sc, ks, hg => by
    rcases ks with _ | ⟨k, ks⟩
    · simp [InGrid] at hg
    have hn : p < x.length := hv x (by simp)
    obtain ⟨hk, hg'⟩ : k < x.length ∧ InGrid ((y :: ys).map List.length) ks := by simpa [InGrid] using hg
    simp only [buildND] at hb
    rcases hc : collect ((y :: ys).map List.length).prod
        (fun c => build1 p clip x (fun i => phi (i + x.length * c)) scratch) with _ | L
    · rw [hc] at hb; simp at hb
    · rw [hc] at hb
      rcases L with _ | ⟨s0, rest⟩
      · simp at hb
      · simp only at hb
        obtain ⟨hL, hLi⟩ := collect_spec hc
        rcases hc2 : collect x.length (fun i => buildND p clip scratch d y ys
            fun c => ((s0 :: rest).getD c s0).cp i) with _ | M
        · rw [hc2] at hb; simp at hb
        · rw [hc2] at hb
          rcases M with _ | ⟨t0, more⟩
          · simp at hb
          · simp only at hb
            have ht := (Option.some.inj hb).symm
            subst ht
            obtain ⟨hM, hMi⟩ := collect_spec hc2
            -- the line through the grid point
            set c := flatIndex ((y :: ys).map List.length) ks with hcdef
            have hcl : c < ((y :: ys).map List.length).prod := flatIndex_lt _ _ hg'
            have hline := hLi c hcl
            rw [List.getElem?_eq_getElem (by omega)] at hline
            have hgd : (s0 :: rest).getD c s0 = (s0 :: rest)[c]'(by omega) := by
              rw [List.getD_eq_getElem?_getD, List.getElem?_eq_getElem (by omega)]; rfl
            set sl := (s0 :: rest)[c]'(by omega) with hsl
            have hzero := hLi 0 (by omega)
            simp only [List.getElem?_cons_zero] at hzero
            obtain ⟨xs1, ys1, hsi1, ho1, hnp1, hc1, hlt1, hbd1, hlo1, hhi1, hkn1, hcl1, _⟩ :=
              build1_some hline hp hn
            obtain ⟨xs0, ys0, hsi0, ho0, hnp0, hc0, _, hbd0, hlo0, hhi0, hkn0, hcl0, _⟩ :=
              build1_some hzero hp hn
            have hxs : xs0 = xs1 := by
              have hsome : (sortInputs x (fun i => phi (i + x.length * 0))).isSome := by rw [hsi0]; rfl
              rcases (c157_accepts _ _).1 hsome with hi | hd
              · rw [c157_increasing _ hi] at hsi0 hsi1
                rw [← (Prod.mk.inj (Option.some.inj hsi0)).1, ← (Prod.mk.inj (Option.some.inj hsi1)).1]
              · rw [c157_decreasing _ hd (by omega)] at hsi0 hsi1
                rw [← (Prod.mk.inj (Option.some.inj hsi0)).1, ← (Prod.mk.inj (Option.some.inj hsi1)).1]
            have hkeq : s0.knots = sl.knots := by rw [hkn0, hkn1, hxs, hlo0, hhi0, hlo1, hhi1]
            have hUeq : s0.U = sl.U := by funext j; unfold Sp1.U; rw [hkeq]
            have hint := c156_interpolates hline hp hn sc hk
            -- compare the two lookups
            have hx0 : gridPoint (x :: y :: ys) (k :: ks) 0 = x.getD k 0 := by simp [gridPoint]
            have hxr : (fun i => gridPoint (x :: y :: ys) (k :: ks) (i + 1)) = gridPoint (y :: ys) ks := by
              funext i; simp [gridPoint]
            have hflat : flatIndex ((x :: y :: ys).map List.length) (k :: ks) = k + x.length * c := by
              rw [hcdef]; simp [flatIndex]
            rw [hflat]
            beta_reduce at hint
            rw [← hint]
            simp only [pureValue, hx0, hxr, Sp1.value]
            rw [ho0, hnp0, ho1, hnp1, hlo0, hhi0, hlo1, hhi1, hc0, hc1, hUeq]
            obtain ⟨ix, e, h1, h2, _⟩ := c153_find_total hcl1 hp
              (getUk (x.getD k 0) (x.foldl max (x.headD 0)) (x.foldl min (x.headD 0)) clip)
            simp only [e]
            refine Finset.sum_congr rfl fun j hj => ?_
            have hj := Finset.mem_range.1 hj
            congr 1
            have hi : ix - p + j < x.length := by omega
            have hb2 := hMi (ix - p + j) hi
            rw [List.getElem?_eq_getElem (by omega)] at hb2
            have hgd2 : (t0 :: more).getD (ix - p + j) t0 = (t0 :: more)[ix - p + j]'(by omega) := by
              rw [List.getD_eq_getElem?_getD, List.getElem?_eq_getElem (by omega)]; rfl
            rw [hgd2]
            have := pure_interpolates scratch hp d y ys _ _ hb2 (by simpa using hlen)
              (fun v hv' => hv v (by simp at hv' ⊢; tauto)) sc ks hg'
            rw [this, ← hcdef, hgd]

/-- **C158** (interpolation): a table of any number of dimensions that could be built returns, at every grid
point, the value given there — the first index running fastest in the data — and still does after any
sequence of lookups. -/
theorem c158_interpolates {p : ℕ} {clip : Bool} {scratch : ℕ → K} (hp : 1 ≤ p) {d : ℕ} {x : List K}
    {xs : List (List K)} {phi : ℕ → K} {t : ND K d} (hb : buildND p clip scratch d x xs phi = some t)
    (hlen : xs.length = d) (hv : ∀ v ∈ x :: xs, p < v.length) (sc : ℕ → K) (qs : List (ℕ → K)) (ks : List ℕ)
    (hg : InGrid ((x :: xs).map List.length) ks) :
    (valueND sc d (lookups sc d t qs) (gridPoint (x :: xs) ks)).1
      = phi (flatIndex ((x :: xs).map List.length) ks) := by
  rw [c158_history, (valueND_spec sc d t _).1]
  exact pure_interpolates scratch hp d x xs phi t hb hlen hv sc ks hg

/-- A table of two dimensions and order two. -/
example : (buildND 2 false (0 : ℕ → ℚ) 1 [0, 1, 3] [[1, 2, 5]] (fun k => k * k)).isSome = true := by decide +kernel

/-- A lookup between the grid points. -/
example : (buildND 1 false (0 : ℕ → ℚ) 1 [0, 1] [[0, 2]] (fun k => k)).map
    (fun t => (valueND 0 1 t (fun i => if i = 0 then 1/2 else 1)).1) = some (3/2) := by decide +kernel

end Nalu.BSpline
