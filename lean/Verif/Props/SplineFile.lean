import Mathlib.Data.List.Infix
import Mathlib.Tactic.IntervalCases
import Verif.Model.SplineFile

/-!
# C346: B-spline tables survive writing and reading
-/

namespace Nalu.SplineFile

open Nalu.MainLog (Str padded dec)

/-! ### Group names -/

/-- The number a string of digits stands for. -/
def val (s : Str) (a : ℕ) : ℕ := s.foldl (fun a c => 10 * a + (c.toNat - 48)) a

theorem digit_val (k : ℕ) (h : k < 10) : (Nat.digitChar k).toNat - 48 = k := by
  interval_cases k <;> rfl

theorem val_dec (n : ℕ) : val (dec n) 0 = n := by
  induction n using Nat.strong_induction_on with
  | _ n ih =>
    unfold dec
    split
    · rename_i h; simp only [val, List.foldl_cons, List.foldl_nil]; rw [digit_val n h]; omega
    · rename_i h
      have := ih (n / 10) (by omega)
      simp only [val, List.foldl_append, List.foldl_cons, List.foldl_nil] at this ⊢
      rw [this, digit_val _ (Nat.mod_lt _ (by norm_num))]
      omega

theorem val_padded (n : ℕ) : val (padded 4 n) 0 = n := by
  unfold padded val
  rw [List.foldl_append]
  have : ∀ z, (List.replicate z '0').foldl (fun a c => 10 * a + (c.toNat - 48)) 0 = 0 := by
    intro z
    induction z with
    | zero => rfl
    | succ z ih => rw [List.replicate_succ, List.foldl_cons]; exact ih
  rw [this]
  exact val_dec n

theorem gname_inj (d i j : ℕ) (h : gname d i = gname d j) : i = j := by
  unfold gname at h
  have := List.append_cancel_left h
  rw [← val_padded i, ← val_padded j, this]

/-! ### One dimension -/

/-- The attribute names of a one-dimensional spline. -/
def five : List Str := [nOrder, nMax, nMin, nKnots, nCtrl]

theorem writeAttr_ok (f : File) (p : List Str) (g : Group) (n : Str) (v : Val) (hf : f p = some g) (hn : g.attrs n = none) :
    writeAttr f p n v = some (Function.update f p (some { g with attrs := Function.update g.attrs n (some v) })) := by
  simp [writeAttr, hf, hn]

/-- What a group holds for a one-dimensional spline. -/
structure Holds (g : Group) (s : S1) : Prop where
  order : g.attrs nOrder = some (.int s.order)
  maxv : g.attrs nMax = some (.num s.maxv)
  minv : g.attrs nMin = some (.num s.minv)
  knots : g.attrs nKnots = some (.nums s.knots)
  ctrl : g.attrs nCtrl = some (.nums s.ctrl)

theorem write1_ok (s : S1) (p : List Str) (f : File) (g : Group) (hf : f p = some g) (hn : ∀ n ∈ five, g.attrs n = none) :
    ∃ g', write1 s p f = some (Function.update f p (some g')) ∧ Holds g' s ∧ ∀ n, n ∉ five → g'.attrs n = g.attrs n := by
  have up : ∀ (f : File) (a b : Option Group), Function.update (Function.update f p a) p b = Function.update f p b := by
    intro f a b; exact Function.update_idem ..
  have d1 : nMax ≠ nOrder := by decide
  have d2 : nMin ≠ nOrder := by decide
  have d3 : nMin ≠ nMax := by decide
  have d4 : nKnots ≠ nOrder := by decide
  have d5 : nKnots ≠ nMax := by decide
  have d6 : nKnots ≠ nMin := by decide
  have d7 : nCtrl ≠ nOrder := by decide
  have d8 : nCtrl ≠ nMax := by decide
  have d9 : nCtrl ≠ nMin := by decide
  have d10 : nCtrl ≠ nKnots := by decide
  have h0 : g.attrs nOrder = none := hn _ (by simp [five])
  have h1 : g.attrs nMax = none := hn _ (by simp [five])
  have h2 : g.attrs nMin = none := hn _ (by simp [five])
  have h3 : g.attrs nKnots = none := hn _ (by simp [five])
  have h4 : g.attrs nCtrl = none := hn _ (by simp [five])
  unfold write1
  rw [writeAttr_ok f p g _ _ hf h0, Option.bind_some,
    writeAttr_ok _ p _ _ _ (Function.update_self ..) (by simp [Function.update_of_ne, *]), Option.bind_some, up,
    writeAttr_ok _ p _ _ _ (Function.update_self ..) (by simp [Function.update_of_ne, *]), Option.bind_some, up,
    writeAttr_ok _ p _ _ _ (Function.update_self ..) (by simp [Function.update_of_ne, *]), Option.bind_some, up,
    writeAttr_ok _ p _ _ _ (Function.update_self ..) (by simp [Function.update_of_ne, *]), up]
  refine ⟨_, rfl, ⟨?_, ?_, ?_, ?_, ?_⟩, ?_⟩
  · simp [Function.update_of_ne, Ne.symm, *]
  · simp [Function.update_of_ne, Ne.symm, *]
  · simp [Function.update_of_ne, Ne.symm, *]
  · simp [Function.update_of_ne, Ne.symm, *]
  · simp
  · intro n hn'
    simp only [five, List.mem_cons, List.not_mem_nil, or_false, not_or] at hn'
    obtain ⟨a0, a1, a2, a3, a4⟩ := hn'
    simp [Function.update_of_ne, *]

/-- What comes back in one dimension: everything, with the number of points counted and the clipping of the reader. -/
def restored1 (c : Bool) (s : S1) : S1 := { s with npts := s.ctrl.length, clip := c }

theorem read1_ok (version : ℕ) (hv : 2 ≤ version) (c : Bool) (s : S1) (p : List Str) (f : File) (g : Group) (hf : f p = some g)
    (h : Holds g s) : read1 version c p f = some (restored1 c s) := by
  simp [read1, readInt, readNum, readNums, hf, h.order, h.maxv, h.minv, h.knots, h.ctrl, hv, restored1]

/-! ### Any dimension -/

/-- What comes back: the same splines on every level, with the reader's clipping; the orders of the splines of more than one
dimension, which no lookup uses, are zero. -/
def restored (c : Bool) : (d : ℕ) → Sp d → Sp d
  | 0, s => restored1 c s
  | d + 1, s => (More.mk 0 c ((More.subs s).map (restored c d)) (restored1 c (More.sp1 s)) : More (Sp d))

/-- Two files agree in the group at `p` and everything below it. -/
def AgreeBelow (p : List Str) (f g : File) : Prop := ∀ q, p <+: q → f q = g q

theorem prefix_ne {d : ℕ} {p q : List Str} {i j : ℕ} (h1 : p ++ [gname d i] <+: q) (h2 : p ++ [gname d j] <+: q) : i = j := by
  have := List.prefix_of_prefix_length_le h1 h2 (by simp)
  have := this.eq_of_length (by simp)
  exact gname_inj d i j (by simpa using List.append_cancel_left this)

theorem not_below_self (p : List Str) (n : Str) : ¬ p ++ [n] <+: p := by
  intro h
  have := h.length_le
  simp at this

theorem writeSubs_ok {α : Type} (d : ℕ) (w : α → List Str → File → Option File) (r : List Str → File → Option α) (res : α → α)
    (hw : ∀ s p f, f p = some emptyGroup → (∀ q, p <+: q → q ≠ p → f q = none) →
      ∃ f', w s p f = some f' ∧ (∀ q, ¬ p <+: q → f' q = f q) ∧ (f' p).isSome ∧ ∀ g, AgreeBelow p f' g → r p g = some (res s))
    (p : List Str) : ∀ (l : List α) (k : ℕ) (f : File), (f p).isSome →
      (∀ i, k ≤ i → ∀ q, p ++ [gname d i] <+: q → f q = none) →
      ∃ f', writeSubs w d p k l f = some f' ∧
        (∀ q, (∀ i, k ≤ i → ¬ p ++ [gname d i] <+: q) → f' q = f q) ∧
        ∀ j (hj : j < l.length), ∀ g, AgreeBelow (p ++ [gname d (k + j)]) f' g →
          (g (p ++ [gname d (k + j)])).isSome ∧ r (p ++ [gname d (k + j)]) g = some (res l[j]) := by
  intro l
  induction l with
  | nil => intro k f _ _; exact ⟨f, rfl, fun _ _ => rfl, fun j hj => absurd hj (by simp)⟩
  | cons s l ih =>
    intro k f hp hfresh
    obtain ⟨gp, hgp⟩ := Option.isSome_iff_exists.1 hp
    set pk := p ++ [gname d k] with hpk
    have hnone : f pk = none := hfresh k le_rfl pk (List.prefix_refl _)
    have hc : createGroup f p (gname d k) = some (Function.update f pk (some emptyGroup)) := by
      simp [createGroup, hgp, ← hpk, hnone]
    obtain ⟨f1, h1, fr1, self1, rd1⟩ := hw s pk (Function.update f pk (some emptyGroup)) (Function.update_self ..) (by
      intro q hq hne
      rw [Function.update_of_ne hne]
      exact hfresh k le_rfl q hq)
    have hf1 : ∀ q, ¬ pk <+: q → f1 q = f q := by
      intro q hq
      rw [fr1 q hq, Function.update_of_ne]
      rintro rfl; exact hq (List.prefix_refl _)
    obtain ⟨f2, h2, fr2, rd2⟩ := ih (k + 1) f1 (by rw [hf1 p (not_below_self p _)]; exact hp) (by
      intro i hi q hq
      rw [hf1 q (fun h => by have := prefix_ne h hq; omega)]
      exact hfresh i (by omega) q hq)
    refine ⟨f2, ?_, ?_, ?_⟩
    · simp only [writeSubs, hc, Option.bind_some, ← hpk, h1]
      exact h2
    · intro q hq
      rw [fr2 q fun i hi => hq i (by omega), hf1 q (hq k le_rfl)]
    · intro j hj g hg
      cases j with
      | zero =>
        have hag : AgreeBelow pk f1 g := by
          intro q hq
          rw [← hg q (by simpa using hq), fr2 q]
          intro i hi h
          have := prefix_ne hq h
          omega
        refine ⟨?_, by simpa using rd1 g hag⟩
        have he := hag pk (List.prefix_refl _)
        rw [he] at self1
        exact self1
      | succ j =>
        have hj' : j < l.length := by simpa using hj
        have he : k + (j + 1) = k + 1 + j := by omega
        rw [he] at hg ⊢
        exact rd2 j hj' g hg

theorem mapM_range' {α : Type} (F : ℕ → Option α) : ∀ (l : List α) (k : ℕ), (∀ j (hj : j < l.length), F (k + j) = some l[j]) →
    (List.range' k l.length).mapM F = some l := by
  intro l
  induction l with
  | nil => intro k _; rfl
  | cons a l ih =>
    intro k hk
    have h0 : F k = some a := by
      have := hk 0 (by simp)
      simpa only [Nat.add_zero, List.getElem_cons_zero] using this
    have h1 := ih (k + 1) fun j hj => by
      have := hk (j + 1) (by simpa using hj)
      rw [show k + (j + 1) = k + 1 + j by omega] at this
      simpa only [List.getElem_cons_succ] using this
    rw [List.length_cons, List.range'_succ, List.mapM_cons, h0]
    simp [h1]

theorem readSubs_ok {α : Type} (d : ℕ) (r : List Str → File → Option α) (p : List Str) (f : File) (l : List α)
    (h : ∀ j (hj : j < l.length), (f (p ++ [gname d j])).isSome ∧ r (p ++ [gname d j]) f = some l[j]) :
    readSubs r d p f l.length = some l := by
  unfold readSubs
  rw [List.range_eq_range']
  refine mapM_range' _ l 0 fun j hj => ?_
  obtain ⟨h1, h2⟩ := h j hj
  obtain ⟨g, hg⟩ := Option.isSome_iff_exists.1 h1
  simp only [Nat.zero_add, hg, h2]

theorem count_not_five (d : ℕ) : nCount d ∉ five := by
  intro h
  have h0 : (nCount d).take 1 = ['N'] := rfl
  simp only [five, List.mem_cons, List.not_mem_nil, or_false] at h
  rcases h with h | h | h | h | h <;> rw [h] at h0 <;> exact absurd h0 (by decide)

theorem write_ok (version : ℕ) (hv : 2 ≤ version) (c : Bool) : ∀ (d : ℕ) (s : Sp d) (p : List Str) (f : File),
    f p = some emptyGroup → (∀ q, p <+: q → q ≠ p → f q = none) →
      ∃ f', write d s p f = some f' ∧ (∀ q, ¬ p <+: q → f' q = f q) ∧ (f' p).isSome ∧
        ∀ g, AgreeBelow p f' g → read version c d p g = some (restored c d s) := by
  intro d
  induction d with
  | zero =>
    intro s p f hf _
    obtain ⟨g', h1, h2, -⟩ := write1_ok s p f emptyGroup hf (fun _ _ => rfl)
    refine ⟨_, h1, fun q hq => Function.update_of_ne (fun h => hq (by rw [h])) _ _, by simp, fun g hg => ?_⟩
    exact read1_ok version hv c s p g g' (by rw [← hg p (List.prefix_refl _), Function.update_self]) h2
  | succ d ih =>
    intro s p f hf hfresh
    set g1 : Group := { emptyGroup with attrs := Function.update emptyGroup.attrs (nCount d) (some (.uint (More.subs s).length)) } with hg1
    set f1 : File := Function.update f p (some g1) with hf1
    have w1 : writeAttr f p (nCount d) (.uint (More.subs s).length) = some f1 := writeAttr_ok f p emptyGroup _ _ hf rfl
    obtain ⟨f2, w2, fr2, rd2⟩ := writeSubs_ok d (write d) (read version c d) (restored c d) (fun s p f => ih s p f) p
      (More.subs s) 0 f1 (by simp [hf1]) (by
        intro i _ q hq
        have hne : q ≠ p := by rintro rfl; exact not_below_self _ _ hq
        rw [hf1, Function.update_of_ne hne]
        exact hfresh q ((List.prefix_append p _).trans hq) hne)
    have hf2p : f2 p = some g1 := by
      rw [fr2 p fun i _ => not_below_self p _, hf1, Function.update_self]
    obtain ⟨g', w3, hold, keep⟩ := write1_ok (More.sp1 s) p f2 g1 hf2p (by
      intro n hn
      have hne : n ≠ nCount d := by rintro rfl; exact count_not_five d hn
      simp [hg1, Function.update_of_ne hne, emptyGroup])
    refine ⟨Function.update f2 p (some g'), ?_, ?_, by simp, ?_⟩
    · simp only [write, w1, Option.bind_some, w2, w3]
    · intro q hq
      have hne : q ≠ p := by rintro rfl; exact hq (List.prefix_refl _)
      rw [Function.update_of_ne hne, fr2 q fun i _ h => hq ((List.prefix_append p _).trans h), hf1, Function.update_of_ne hne]
    · intro g hg
      have hgp : g p = some g' := by rw [← hg p (List.prefix_refl _), Function.update_self]
      have hcount : readUint g p (nCount d) 0 = some (More.subs s).length := by
        simp [readUint, hgp, keep (nCount d) (count_not_five d), hg1]
      have hsubs : readSubs (read version c d) d p g ((More.subs s).map (restored c d)).length = some ((More.subs s).map (restored c d)) := by
        refine readSubs_ok d _ p g _ fun j hj => ?_
        have hj' : j < (More.subs s).length := by simpa using hj
        have := rd2 j hj' g (by
          intro q hq
          simp only [Nat.zero_add] at hq
          have hne : q ≠ p := by rintro rfl; exact not_below_self _ _ hq
          rw [← hg q ((List.prefix_append p _).trans hq), Function.update_of_ne hne])
        simp only [Nat.zero_add] at this
        refine ⟨this.1, ?_⟩
        rw [this.2, List.getElem_map]
      rw [List.length_map] at hsubs
      unfold read
      rw [hcount, Option.bind_some, hsubs, Option.bind_some, read1_ok version hv c _ p g g' hgp hold]
      rfl

/-- C346: writing a spline of any dimension into a new group succeeds, changes nothing outside the group, and reading it back from
a file of version two or later gives the same spline on every level: knots, control points, bounds and orders of all
one-dimensional splines, in the same order, however many there are. -/
theorem c346_round_trip (version : ℕ) (hv : 2 ≤ version) (c : Bool) (d : ℕ) (s : Sp d) (p : List Str) (f : File)
    (hf : f p = some emptyGroup) (hfresh : ∀ q, p <+: q → q ≠ p → f q = none) :
    ∃ f', write d s p f = some f' ∧ (∀ q, ¬ p <+: q → f' q = f q) ∧ read version c d p f' = some (restored c d s) := by
  obtain ⟨f', h1, h2, _, h4⟩ := write_ok version hv c d s p f hf hfresh
  exact ⟨f', h1, h2, h4 f' fun _ _ => rfl⟩

/-- C346: later writes elsewhere in the file do not matter. -/
theorem c346_later_writes (version : ℕ) (hv : 2 ≤ version) (c : Bool) (d : ℕ) (s : Sp d) (p : List Str) (f : File)
    (hf : f p = some emptyGroup) (hfresh : ∀ q, p <+: q → q ≠ p → f q = none) (f' g : File) (hw : write d s p f = some f')
    (hg : AgreeBelow p f' g) : read version c d p g = some (restored c d s) := by
  obtain ⟨f'', h1, _, _, h4⟩ := write_ok version hv c d s p f hf hfresh
  rw [hw] at h1
  obtain rfl := Option.some.inj h1
  exact h4 g hg

/-- A spline all of whose one-dimensional splines count their points right, as constructed ones do, and clip as said. -/
def Wf (c : Bool) : (d : ℕ) → Sp d → Prop
  | 0, s => S1.npts s = (S1.ctrl s).length ∧ S1.clip s = c
  | d + 1, s => (More.sp1 s).npts = (More.sp1 s).ctrl.length ∧ (More.sp1 s).clip = c ∧ More.clip s = c ∧ More.order s = 0 ∧
      ∀ t ∈ More.subs s, Wf c d t

/-- C346: what comes back differs from what was written only in the clipping, which is not in the file, and in the orders of the
splines of several dimensions: a well formed spline whose reader clips like it comes back as it is. -/
theorem c346_identity (c : Bool) : ∀ (d : ℕ) (s : Sp d), Wf c d s → restored c d s = s := by
  intro d
  induction d with
  | zero =>
    rintro ⟨o, n, a, b, k, l, cl⟩ ⟨h1, h2⟩
    dsimp only at h1 h2
    subst h1 h2
    rfl
  | succ d ih =>
    rintro ⟨o, cl, subs, ⟨o1, n1, a1, b1, k1, l1, c1⟩⟩ ⟨h1, h2, h3, h4, h5⟩
    dsimp only at h1 h2 h3 h4 h5
    subst h1 h2 h3 h4
    have : subs.map (restored cl d) = subs := by
      conv_rhs => rw [← List.map_id subs]
      exact List.map_congr_left fun t ht => ih t (h5 t ht)
    simp only [restored, restored1]
    rw [this]

/-- C346, defect: a file written with version one cannot be read back: the arrays are always written as attributes but looked for
in data sets, so that the spline has no knots and no control points. -/
theorem c346_version_one (c : Bool) (s : S1) (p : List Str) (f : File) (hf : f p = some emptyGroup) :
    ∃ f' t, write1 s p f = some f' ∧ read1 1 c p f' = some t ∧ t.knots = [] ∧ t.ctrl = [] ∧ t.order = s.order := by
  unfold write1
  have up : ∀ (f : File) (a b : Option Group), Function.update (Function.update f p a) p b = Function.update f p b := by
    intro f a b; exact Function.update_idem ..
  have d1 : nMax ≠ nOrder := by decide
  have d2 : nMin ≠ nOrder := by decide
  have d3 : nMin ≠ nMax := by decide
  have d4 : nKnots ≠ nOrder := by decide
  have d5 : nKnots ≠ nMax := by decide
  have d6 : nKnots ≠ nMin := by decide
  have d7 : nCtrl ≠ nOrder := by decide
  have d8 : nCtrl ≠ nMax := by decide
  have d9 : nCtrl ≠ nMin := by decide
  have d10 : nCtrl ≠ nKnots := by decide
  rw [writeAttr_ok f p emptyGroup _ _ hf rfl, Option.bind_some,
    writeAttr_ok _ p _ _ _ (Function.update_self ..) (by simp [Function.update_of_ne, emptyGroup, *]), Option.bind_some, up,
    writeAttr_ok _ p _ _ _ (Function.update_self ..) (by simp [Function.update_of_ne, emptyGroup, *]), Option.bind_some, up,
    writeAttr_ok _ p _ _ _ (Function.update_self ..) (by simp [Function.update_of_ne, emptyGroup, *]), Option.bind_some, up,
    writeAttr_ok _ p _ _ _ (Function.update_self ..) (by simp [Function.update_of_ne, emptyGroup, *]), up]
  refine ⟨_, ⟨s.order, 0, s.maxv, s.minv, [], [], c⟩, rfl, ?_, rfl, rfl, rfl⟩
  simp [read1, readInt, readNum, readDataset, Function.update_of_ne, emptyGroup, Ne.symm, *]

/-- C346, defect: reads are not checked. From a group without attributes a one-dimensional version-one spline is read as an empty
one without an error. -/
theorem c346_missing_silent (c : Bool) (p : List Str) (f : File) (hf : f p = some emptyGroup) :
    read1 1 c p f = some ⟨0, 0, 0, 0, [], [], c⟩ := by
  simp [read1, readInt, readNum, readDataset, hf, emptyGroup]

/-- C346: writing twice into the same group is refused. -/
theorem c346_twice (d : ℕ) (s t : Sp d) (p : List Str) (f f' : File) (hf : f p = some emptyGroup)
    (hfresh : ∀ q, p <+: q → q ≠ p → f q = none) (hw : write d s p f = some f') : write d t p f' = none := by
  cases d with
  | zero =>
    obtain ⟨g', h1, h2, -⟩ := write1_ok s p f emptyGroup hf (fun _ _ => rfl)
    change write1 s p f = some f' at hw
    rw [h1] at hw
    obtain rfl := Option.some.inj hw
    change write1 t p _ = none
    simp [write1, writeAttr, h2.order]
  | succ d =>
    obtain ⟨f'', h1, -, hs, h4⟩ := write_ok 2 le_rfl true (d + 1) s p f hf hfresh
    rw [hw] at h1
    obtain rfl := Option.some.inj h1
    obtain ⟨g, hg⟩ := Option.isSome_iff_exists.1 hs
    have hc : g.attrs (nCount d) ≠ none := by
      set g1 : Group := { emptyGroup with attrs := Function.update emptyGroup.attrs (nCount d) (some (.uint (More.subs s).length)) } with hg1
      have w1 : writeAttr f p (nCount d) (.uint (More.subs s).length) = some (Function.update f p (some g1)) := writeAttr_ok f p emptyGroup _ _ hf rfl
      obtain ⟨f2, w2, fr2, -⟩ := writeSubs_ok d (write d) (read 2 true d) (restored true d) (fun s p f => write_ok 2 le_rfl true d s p f) p
        (More.subs s) 0 (Function.update f p (some g1)) (by simp) (by
          intro i _ q hq
          have hne : q ≠ p := by rintro rfl; exact not_below_self _ _ hq
          rw [Function.update_of_ne hne]
          exact hfresh q ((List.prefix_append p _).trans hq) hne)
      obtain ⟨g', w3, hold, keep⟩ := write1_ok (More.sp1 s) p f2 g1 (by rw [fr2 p fun i _ => not_below_self p _, Function.update_self]) (by
        intro n hn
        have hne : n ≠ nCount d := by rintro rfl; exact count_not_five d hn
        simp [hg1, Function.update_of_ne hne, emptyGroup])
      simp only [write, w1, Option.bind_some, w2, w3, Option.some.injEq] at hw
      rw [← hw, Function.update_self] at hg
      obtain rfl := Option.some.inj hg
      rw [keep _ (count_not_five d)]
      simp [hg1]
    simp only [write, writeAttr, hg]
    cases h : g.attrs (nCount d) with
    | none => exact absurd h hc
    | some v => rfl

/-! ### Names already taken -/

theorem writeAttr_frame {f f' : File} {p : List Str} {n : Str} {v : Val} (h : writeAttr f p n v = some f') (q : List Str) (hq : q ≠ p) :
    f' q = f q := by
  unfold writeAttr at h
  split at h
  · simp at h
  · split at h
    · simp at h
    · obtain rfl := Option.some.inj h
      exact Function.update_of_ne hq _ _

theorem write1_frame {s : S1} {p : List Str} {f f' : File} (h : write1 s p f = some f') (q : List Str) (hq : q ≠ p) : f' q = f q := by
  unfold write1 at h
  obtain ⟨f1, h1, h⟩ := Option.bind_eq_some_iff.1 h
  obtain ⟨f2, h2, h⟩ := Option.bind_eq_some_iff.1 h
  obtain ⟨f3, h3, h⟩ := Option.bind_eq_some_iff.1 h
  obtain ⟨f4, h4, h⟩ := Option.bind_eq_some_iff.1 h
  rw [writeAttr_frame h q hq, writeAttr_frame h4 q hq, writeAttr_frame h3 q hq, writeAttr_frame h2 q hq, writeAttr_frame h1 q hq]

theorem createGroup_frame {f f' : File} {p : List Str} {n : Str} (h : createGroup f p n = some f') :
    f (p ++ [n]) = none ∧ ∀ q, q ≠ p ++ [n] → f' q = f q := by
  unfold createGroup at h
  split at h
  · rename_i h2
    obtain rfl := Option.some.inj h
    exact ⟨h2, fun q hq => Function.update_of_ne hq _ _⟩
  · simp at h

theorem writeSubs_frame {α : Type} (d : ℕ) (w : α → List Str → File → Option File)
    (hw : ∀ s p f f', w s p f = some f' → ∀ q, ¬ p <+: q → f' q = f q) (p : List Str) : ∀ (l : List α) (k : ℕ) (f f' : File),
      writeSubs w d p k l f = some f' →
        (∀ q, (∀ i, k ≤ i → ¬ p ++ [gname d i] <+: q) → f' q = f q) ∧ ∀ i, k ≤ i → i < k + l.length → f (p ++ [gname d i]) = none := by
  intro l
  induction l with
  | nil => intro k f f' h; obtain rfl := Option.some.inj h; exact ⟨fun _ _ => rfl, fun i h1 h2 => absurd h2 (by simp; omega)⟩
  | cons s l ih =>
    intro k f f' h
    obtain ⟨f1, h1, h⟩ := Option.bind_eq_some_iff.1 h
    obtain ⟨f2, h2, h⟩ := Option.bind_eq_some_iff.1 h
    obtain ⟨hn, hc⟩ := createGroup_frame h1
    obtain ⟨h3, h4⟩ := ih (k + 1) f2 f' h
    have step : ∀ q, ¬ p ++ [gname d k] <+: q → f2 q = f q := by
      intro q hq
      rw [hw _ _ _ _ h2 q hq, hc q (by rintro rfl; exact hq (List.prefix_refl _))]
    refine ⟨fun q hq => ?_, fun i hki hi => ?_⟩
    · rw [h3 q fun i hi => hq i (by omega), step q (hq k le_rfl)]
    · rcases Nat.eq_or_lt_of_le hki with rfl | hlt
      · exact hn
      · have := h4 i hlt (by simp only [List.length_cons] at hi; omega)
        rwa [step] at this
        intro hpre
        have := prefix_ne hpre (List.prefix_refl (p ++ [gname d i]))
        omega

theorem write_frame : ∀ (d : ℕ) (s : Sp d) (p : List Str) (f f' : File), write d s p f = some f' → ∀ q, ¬ p <+: q → f' q = f q := by
  intro d
  induction d with
  | zero => intro s p f f' h q hq; exact write1_frame h q (by rintro rfl; exact hq (List.prefix_refl _))
  | succ d ih =>
    intro s p f f' h q hq
    have hne : q ≠ p := by rintro rfl; exact hq (List.prefix_refl _)
    obtain ⟨f1, h1, h⟩ := Option.bind_eq_some_iff.1 h
    obtain ⟨f2, h2, h⟩ := Option.bind_eq_some_iff.1 h
    rw [write1_frame h q hne, (writeSubs_frame d _ ih p _ 0 f1 f2 h2).1 q fun i _ hpre => hq ((List.prefix_append p _).trans hpre),
      writeAttr_frame h1 q hne]

/-- C346: nothing is overwritten: if a group with one of the names needed is there already, the writer stops. -/
theorem c346_name_taken (d : ℕ) (s : Sp (d + 1)) (p : List Str) (f : File) (i : ℕ) (hi : i < (More.subs s).length)
    (ht : (f (p ++ [gname d i])).isSome) : write (d + 1) s p f = none := by
  cases hw : write (d + 1) s p f with
  | none => rfl
  | some f' =>
    obtain ⟨f1, h1, h⟩ := Option.bind_eq_some_iff.1 hw
    obtain ⟨f2, h2, h⟩ := Option.bind_eq_some_iff.1 h
    have := (writeSubs_frame d _ (write_frame d) p _ 0 f1 f2 h2).2 i (by omega) (by omega)
    rw [writeAttr_frame h1 _ (by intro he; exact not_below_self p (gname d i) (by rw [he]))] at this
    rw [this] at ht
    simp at ht

/-- A two-dimensional spline with two lines, in a file that has just been made. -/
example : ∃ f', write 1 (⟨0, true, [⟨1, 2, 1, 0, [0, 0, 1, 1], [3, 4], true⟩, ⟨1, 2, 1, 0, [0, 0, 1, 1], [5, 6], true⟩],
      ⟨1, 2, 1, 0, [0, 0, 1, 1], [7, 8], true⟩⟩ : More S1) ["BSpline".toList]
      (fun p => if p = [] ∨ p = ["BSpline".toList] then some emptyGroup else none) = some f' := by
  obtain ⟨f', h, -⟩ := c346_round_trip 4 (by norm_num) true 1 (⟨0, true, [⟨1, 2, 1, 0, [0, 0, 1, 1], [3, 4], true⟩,
      ⟨1, 2, 1, 0, [0, 0, 1, 1], [5, 6], true⟩], ⟨1, 2, 1, 0, [0, 0, 1, 1], [7, 8], true⟩⟩ : More S1) ["BSpline".toList]
      (fun p => if p = [] ∨ p = ["BSpline".toList] then some emptyGroup else none) (by simp) (by
        intro q hq hne
        rw [if_neg]
        rintro (rfl | h)
        · simp at hq
        · exact hne h)
  exact ⟨f', h⟩

end Nalu.SplineFile
