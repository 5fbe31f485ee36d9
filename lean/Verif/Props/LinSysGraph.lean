import Verif.Proofs.LinSysAssembly2

/-!
# C57: graph rows are sorted, duplicate free and hold exactly the inserted couplings

`GraphRow nd cap row m b` : the row (capacity `cap`) holds `m` blocks of `nd` consecutive columns,
block `q` starting at column `nd * b q`, in increasing order, and `INVALID` in the unused slots.
-/

set_option linter.unusedSectionVars false
set_option linter.unusedSimpArgs false

namespace Verif.LinSys

structure GraphRow (nd cap : ℕ) (row : ℕ → ℤ) (m : ℕ) (b : ℕ → ℕ) : Prop where
  fits : nd * m ≤ cap
  col : ∀ q < m, ∀ d < nd, row (nd * q + d) = (nd * b q + d : ℕ)
  mono : ∀ q r, q < r → r < m → b q < b r
  small : ∀ q < m, nd * b q + nd ≤ 2147483647
  unused : ∀ p, nd * m ≤ p → p < cap → row p = INVALID

theorem GraphRow.valid {nd cap : ℕ} {row : ℕ → ℤ} {m : ℕ} {b : ℕ → ℕ} (h : GraphRow nd cap row m b)
    (hnd : 0 < nd) {p : ℕ} (hp : p < nd * m) : row p = (nd * b (p / nd) + p % nd : ℕ) := by
  have h1 : p / nd < m := Nat.div_lt_of_lt_mul hp
  have := h.col (p / nd) h1 (p % nd) (Nat.mod_lt _ hnd)
  rw [← this]
  congr 1
  exact (Nat.div_add_mod p nd).symm

theorem findInvalid_eq {nd cap : ℕ} {row : ℕ → ℤ} {m : ℕ} {b : ℕ → ℕ} (h : GraphRow nd cap row m b)
    (hnd : 0 < nd) (off : ℕ) (hoff : off ≤ nd * m) : findInvalid row cap off = nd * m := by
  obtain ⟨k, hk⟩ : ∃ k, nd * m - off = k := ⟨_, rfl⟩
  have hf := h.fits
  induction k generalizing off with
  | zero =>
    have he : off = nd * m := by omega
    unfold findInvalid
    rw [if_neg, he]
    rintro ⟨h1, h2⟩
    exact h2 (h.unused off (by omega) h1)
  | succ k ih =>
    unfold findInvalid
    rw [if_pos]
    · exact ih (off + 1) (by omega) (by omega)
    · refine ⟨by omega, ?_⟩
      have h1 : off / nd < m := Nat.div_lt_of_lt_mul (by omega)
      have h2 := h.small _ h1
      have h3 := Nat.mod_lt off hnd
      rw [h.valid hnd (by omega)]
      unfold INVALID
      omega

theorem lowerBound_eq (row : ℕ → ℤ) (len : ℕ) (x : ℤ) (ip : ℕ) (hip : ip ≤ len)
    (hlow : ∀ p < ip, row p < x) (hup : ip < len → x ≤ row ip) (off : ℕ) (hoff : off ≤ ip) :
    lowerBound row len x off = ip := by
  obtain ⟨k, hk⟩ : ∃ k, ip - off = k := ⟨_, rfl⟩
  induction k generalizing off with
  | zero =>
    have he : off = ip := by omega
    subst he
    unfold lowerBound
    rw [if_neg]
    rintro ⟨h1, h2⟩
    have := hup h1
    omega
  | succ k ih =>
    unfold lowerBound
    rw [if_pos ⟨by omega, hlow off (by omega)⟩]
    exact ih (off + 1) (by omega) (by omega)

theorem shiftLoop_apply (nd ip : ℕ) (hnd : 0 < nd) (k : ℕ) (row : ℕ → ℤ) (p : ℕ) :
    shiftLoop nd ip k row p = if ip < p ∧ p ≤ ip + k then row (p - nd) else row p := by
  induction k generalizing row with
  | zero =>
    rw [if_neg (by omega)]
    rfl
  | succ k ih =>
    rw [shiftLoop, ih]
    by_cases h1 : ip < p ∧ p ≤ ip + k
    · rw [if_pos h1, if_pos (by omega), Function.update_of_ne (by omega)]
    · rw [if_neg h1]
      by_cases h2 : p = ip + (k + 1)
      · rw [if_pos (by omega), h2, Function.update_self]
      · rw [Function.update_of_ne h2, if_neg (by omega)]

theorem writeBlock_apply (ind : ℤ) (ip n : ℕ) (row : ℕ → ℤ) (p : ℕ) :
    writeBlock ind ip n row p = if ip ≤ p ∧ p < ip + n then ind + (p - ip : ℕ) else row p := by
  induction n with
  | zero =>
    rw [if_neg (by omega)]
    rfl
  | succ n ih =>
    rw [writeBlock]
    by_cases h : p = ip + n
    · subst h
      rw [Function.update_self, if_pos (by omega)]
      congr 2
      omega
    · rw [Function.update_of_ne h, ih]
      by_cases h1 : ip ≤ p ∧ p < ip + n
      · rw [if_pos h1, if_pos (by omega)]
      · rw [if_neg h1, if_neg (by omega)]

theorem insertAt_apply (ind : ℤ) (nd ip e : ℕ) (hnd : 0 < nd) (hip : ip ≤ e) (row : ℕ → ℤ) (p : ℕ) :
    insertAt ind nd ip (e + nd) row p =
      if p < ip then row p else if p < ip + nd then ind + (p - ip : ℕ)
      else if p < e + nd then row (p - nd) else row p := by
  unfold insertAt
  rw [writeBlock_apply, shiftLoop_apply _ _ hnd]
  by_cases h1 : p < ip
  · rw [if_pos h1, if_neg (by omega), if_neg (by omega)]
  · rw [if_neg h1]
    by_cases h2 : p < ip + nd
    · rw [if_pos h2, if_pos (by omega)]
    · rw [if_neg h2, if_neg (by omega)]
      by_cases h3 : p < e + nd
      · rw [if_pos h3, if_pos (by omega)]
      · rw [if_neg h3, if_neg (by omega)]

/-- first block `≥ c` -/
theorem exists_block (m : ℕ) (b : ℕ → ℕ) (c : ℕ) (hmono : ∀ q r, q < r → r < m → b q < b r) :
    ∃ q ≤ m, (∀ r < q, b r < c) ∧ (q < m → c ≤ b q) := by
  induction m with
  | zero => exact ⟨0, le_rfl, fun r hr => by omega, fun h => by omega⟩
  | succ m ih =>
    obtain ⟨q, hq, h1, h2⟩ := ih (fun q r h1 h2 => hmono q r h1 (by omega))
    by_cases hqm : q < m
    · exact ⟨q, by omega, h1, fun _ => h2 hqm⟩
    · have hqe : q = m := by omega
      subst hqe
      by_cases hc : c ≤ b q
      · exact ⟨q, by omega, h1, fun _ => hc⟩
      · refine ⟨q + 1, le_rfl, fun r hr => ?_, fun h => by omega⟩
        rcases Nat.lt_succ_iff_lt_or_eq.1 hr with h | h
        · exact h1 r h
        · subst h; omega

theorem insert_step {nd cap : ℕ} (hnd : 0 < nd) {row : ℕ → ℤ} {m : ℕ} {b : ℕ → ℕ}
    (h : GraphRow nd cap row m b) (c : ℕ) (hsm : nd * c + nd ≤ 2147483647)
    (hcap : nd * (m + 1) ≤ cap) :
    let s' := insertLoop nd [((nd * c : ℕ) : ℤ)] (row, nd * m)
    ∃ m' b', s'.2 = nd * m' ∧ m ≤ m' ∧ m' ≤ m + 1 ∧ GraphRow nd cap s'.1 m' b' ∧
      (∀ x, (∃ q < m', b' q = x) ↔ (∃ q < m, b q = x) ∨ x = c) ∧
      (∀ p, cap ≤ p → s'.1 p = row p) := by
  intro s'
  obtain ⟨q, hq, hlow, hup⟩ := exists_block m b c h.mono
  have hlb : lowerBound row (nd * m) ((nd * c : ℕ) : ℤ) 0 = nd * q := by
    apply lowerBound_eq
    · exact Nat.mul_le_mul_left _ hq
    · intro p hp
      have hpm : p < nd * m := lt_of_lt_of_le hp (Nat.mul_le_mul_left _ hq)
      rw [h.valid hnd hpm]
      have h1 : p / nd < q := Nat.div_lt_of_lt_mul hp
      have h2 := hlow _ h1
      have h3 : nd * (b (p / nd) + 1) ≤ nd * c := Nat.mul_le_mul_left _ h2
      have h4 := Nat.mod_lt p hnd
      rw [Nat.mul_add] at h3
      exact_mod_cast (by omega : nd * b (p / nd) + p % nd < nd * c)
    · intro hlt
      have hqm : q < m := lt_of_mul_lt_mul_left hlt (Nat.zero_le _)
      have := h.col q hqm 0 hnd
      rw [Nat.add_zero] at this
      rw [this]
      have h3 : nd * c ≤ nd * b q := Nat.mul_le_mul_left _ (hup hqm)
      exact_mod_cast (by omega : nd * c ≤ nd * b q + 0)
    · omega
  have hs' : s' = if nd * q ≤ nd * m ∧ row (nd * q) ≠ ((nd * c : ℕ) : ℤ) then
      (insertAt ((nd * c : ℕ) : ℤ) nd (nd * q) (nd * m + nd) row, nd * m + nd) else (row, nd * m) := by
    simp only [s', insertLoop, List.foldl_cons, List.foldl_nil, hlb]
  by_cases hpres : q < m ∧ b q = c
  · -- already present
    have hrow : row (nd * q) = ((nd * c : ℕ) : ℤ) := by
      have := h.col q hpres.1 0 hnd
      rw [Nat.add_zero] at this
      rw [this, hpres.2]
      simp
    rw [if_neg (fun hc => hc.2 hrow)] at hs'
    rw [hs']
    refine ⟨m, b, rfl, le_rfl, by omega, h, fun x => ?_, fun _ _ => rfl⟩
    constructor
    · exact Or.inl
    · rintro (hx | rfl)
      · exact hx
      · exact ⟨q, hpres.1, hpres.2⟩
  · have hne : row (nd * q) ≠ ((nd * c : ℕ) : ℤ) := by
      by_cases hqm : q < m
      · have := h.col q hqm 0 hnd
        rw [Nat.add_zero] at this
        rw [this]
        intro he
        have he : nd * b q + 0 = nd * c := by exact_mod_cast he
        exact hpres ⟨hqm, Nat.eq_of_mul_eq_mul_left hnd (by omega)⟩
      · have hqe : q = m := by omega
        have : nd * m < cap := by
          rw [Nat.mul_add] at hcap; omega
        rw [hqe, h.unused (nd * m) le_rfl this]
        unfold INVALID
        omega
    rw [if_pos ⟨Nat.mul_le_mul_left _ hq, hne⟩] at hs'
    rw [hs']
    have hclt : ∀ r, q ≤ r → r < m → c < b r := by
      intro r h1 h2
      have hqm : q < m := by omega
      have hcq := hup hqm
      have hcq' : c < b q := by
        rcases Nat.lt_or_ge c (b q) with h3 | h3
        · exact h3
        · exact absurd ⟨hqm, by omega⟩ hpres
      rcases Nat.lt_or_ge q r with h3 | h3
      · have := h.mono q r h3 h2; omega
      · have : r = q := by omega
        subst this; exact hcq'
    refine ⟨m + 1, fun r => if r < q then b r else if r = q then c else b (r - 1), by ring, by omega,
      le_rfl, ⟨hcap, ?_, ?_, ?_, ?_⟩, ?_, ?_⟩
    · intro r hr d hd
      simp only
      rw [insertAt_apply _ _ _ _ hnd (Nat.mul_le_mul_left _ hq)]
      rcases Nat.lt_trichotomy r q with hrq | hrq | hrq
      · have h3 : nd * (r + 1) ≤ nd * q := Nat.mul_le_mul_left _ hrq
        rw [Nat.mul_add] at h3
        rw [if_pos (by omega), if_pos hrq]
        exact h.col r (by omega) d hd
      · subst hrq
        rw [if_neg (by omega), if_pos (by omega), if_neg (by omega), if_pos rfl]
        push_cast
        congr 1
        omega
      · have h3 : nd * (q + 1) ≤ nd * r := Nat.mul_le_mul_left _ hrq
        have h4 : nd * (r + 1) ≤ nd * (m + 1) := Nat.mul_le_mul_left _ hr
        rw [Nat.mul_add] at h3
        rw [Nat.mul_add, Nat.mul_add] at h4
        rw [if_neg (by omega), if_neg (by omega), if_pos (by omega), if_neg (by omega), if_neg (by omega)]
        have h5 : nd * (r - 1) + nd = nd * r := by
          have : r = (r - 1) + 1 := by omega
          conv_rhs => rw [this, Nat.mul_add]
          omega
        have h6 : nd * r + d - nd = nd * (r - 1) + d := by omega
        rw [h6]
        exact h.col (r - 1) (by omega) d hd
    · intro r1 r2 h1 h2
      by_cases a1 : r1 < q
      · rw [if_pos a1]
        by_cases a2 : r2 < q
        · rw [if_pos a2]; exact h.mono r1 r2 h1 (by omega)
        · rw [if_neg a2]
          by_cases a3 : r2 = q
          · rw [if_pos a3]; exact hlow r1 a1
          · rw [if_neg a3]; exact h.mono r1 (r2 - 1) (by omega) (by omega)
      · rw [if_neg a1, if_neg (by omega : ¬ r2 < q), if_neg (by omega : ¬ r2 = q)]
        by_cases a3 : r1 = q
        · rw [if_pos a3]; exact hclt (r2 - 1) (by omega) (by omega)
        · rw [if_neg a3]; exact h.mono (r1 - 1) (r2 - 1) (by omega) (by omega)
    · intro r hr
      split_ifs
      · exact h.small r (by omega)
      · exact hsm
      · exact h.small (r - 1) (by omega)
    · intro p h1 h2
      simp only
      rw [Nat.mul_add, Nat.mul_one] at h1
      have hqm := Nat.mul_le_mul_left nd hq
      rw [insertAt_apply _ _ _ _ hnd hqm, if_neg (by omega), if_neg (by omega), if_neg (by omega)]
      exact h.unused p (by omega) h2
    · intro x
      simp only
      constructor
      · rintro ⟨r, hr, hx⟩
        by_cases a1 : r < q
        · rw [if_pos a1] at hx
          exact Or.inl ⟨r, by omega, hx⟩
        · rw [if_neg a1] at hx
          by_cases a2 : r = q
          · rw [if_pos a2] at hx; exact Or.inr hx.symm
          · rw [if_neg a2] at hx; exact Or.inl ⟨r - 1, by omega, hx⟩
      · rintro (⟨r, hr, hx⟩ | rfl)
        · by_cases a1 : r < q
          · exact ⟨r, by omega, by rw [if_pos a1]; exact hx⟩
          · refine ⟨r + 1, by omega, ?_⟩
            rw [if_neg (by omega), if_neg (by omega)]
            exact hx
        · exact ⟨q, by omega, by rw [if_neg (by omega), if_pos rfl]⟩
    · intro p hp
      have hqm := Nat.mul_le_mul_left nd hq
      rw [Nat.mul_add, Nat.mul_one] at hcap
      simp only
      rw [insertAt_apply _ _ _ _ hnd hqm, if_neg (by omega), if_neg (by omega), if_neg (by omega)]

theorem insertLoop_spec {nd cap : ℕ} (hnd : 0 < nd) (cs : List ℕ) (row : ℕ → ℤ) (m : ℕ) (b : ℕ → ℕ)
    (h : GraphRow nd cap row m b) (hsm : ∀ c ∈ cs, nd * c + nd ≤ 2147483647)
    (hcap : nd * (m + cs.length) ≤ cap) :
    let s' := insertLoop nd (cs.map (fun c => ((nd * c : ℕ) : ℤ))) (row, nd * m)
    ∃ m' b', s'.2 = nd * m' ∧ GraphRow nd cap s'.1 m' b' ∧
      (∀ x, (∃ q < m', b' q = x) ↔ (∃ q < m, b q = x) ∨ x ∈ cs) ∧
      (∀ p, cap ≤ p → s'.1 p = row p) := by
  induction cs generalizing row m b with
  | nil =>
    refine ⟨m, b, rfl, h, fun x => by simp, fun _ _ => rfl⟩
  | cons c cs ih =>
    intro s'
    have hc1 : nd * (m + 1) ≤ cap := by
      refine le_trans (Nat.mul_le_mul_left _ ?_) hcap
      simp
    obtain ⟨m1, b1, e1, l1, l2, g1, x1, k1⟩ := insert_step hnd h c (hsm c (by simp)) hc1
    set s1 := insertLoop nd [((nd * c : ℕ) : ℤ)] (row, nd * m) with hs1
    have hcap' : nd * (m1 + cs.length) ≤ cap := by
      refine le_trans (Nat.mul_le_mul_left _ ?_) hcap
      simp only [List.length_cons]; omega
    obtain ⟨m2, b2, e2, g2, x2, k2⟩ := ih s1.1 m1 b1 g1 (fun c hc => hsm c (by simp [hc])) hcap'
    have hs' : s' = insertLoop nd (cs.map (fun c => ((nd * c : ℕ) : ℤ))) (s1.1, nd * m1) := by
      rw [← e1]
      rfl
    rw [hs']
    refine ⟨m2, b2, e2, g2, fun x => ?_, fun p hp => (k2 p hp).trans (k1 p hp)⟩
    rw [x2, x1, List.mem_cons, or_assoc]

/-- Inserting the (first-component) columns of the nodes `cs` into a row keeps it sorted, block
structured and duplicate free; afterwards it holds exactly the old nodes and `cs`, the remaining
slots are `INVALID`, and the memory of the following rows is untouched.  The capacity counts every
insertion once, with repetitions, as `compute_graph_row_lengths` does.  Column numbers are 32-bit local
ordinals below the marker `INVALID = 2^31 - 1`. -/
theorem c57_insert_indices {nd cap : ℕ} (hnd : 0 < nd) (cs : List ℕ) (row : ℕ → ℤ) (m : ℕ)
    (b : ℕ → ℕ) (h : GraphRow nd cap row m b) (hsm : ∀ c ∈ cs, nd * c + nd ≤ 2147483647)
    (hcap : nd * (m + cs.length) ≤ cap) :
    ∃ m' b', GraphRow nd cap (insertIndices nd cap (cs.map (fun c => ((nd * c : ℕ) : ℤ))) row) m' b' ∧
      (∀ x, (∃ q < m', b' q = x) ↔ (∃ q < m, b q = x) ∨ x ∈ cs) ∧
      (∀ p, cap ≤ p →
        insertIndices nd cap (cs.map (fun c => ((nd * c : ℕ) : ℤ))) row p = row p) := by
  obtain ⟨m', b', -, g, x, k⟩ := insertLoop_spec hnd cs row m b h hsm hcap
  have hfi := findInvalid_eq h hnd 0 (Nat.zero_le _)
  refine ⟨m', b', ?_, x, ?_⟩
  · unfold insertIndices; rw [hfi]; exact g
  · unfold insertIndices; rw [hfi]; exact k

/-- A freshly allocated row is a valid empty row. -/
theorem c57_empty_row (nd cap : ℕ) : GraphRow nd cap (fun _ => INVALID) 0 (fun _ => 0) :=
  ⟨by simp, fun q hq => by omega, fun q r _ h => by omega, fun q hq => by omega, fun _ _ _ => rfl⟩

theorem trimmedLength_eq {nd cap : ℕ} {row : ℕ → ℤ} {m : ℕ} {b : ℕ → ℕ} (h : GraphRow nd cap row m b)
    (hnd : 0 < nd) (hm : 0 < m) (full j : ℕ) (h1 : nd * m ≤ j) (h2 : j ≤ cap) :
    trimmedLength row full j = nd * m := by
  induction j with
  | zero =>
    have := Nat.mul_pos hnd hm
    omega
  | succ j ih =>
    rw [trimmedLength]
    rcases Nat.lt_or_ge j (nd * m) with hlt | hge
    · rw [if_pos]
      · omega
      · have h3 := h.small _ (Nat.div_lt_of_lt_mul hlt)
        have h4 := Nat.mod_lt j hnd
        rw [h.valid hnd hlt]
        unfold INVALID; omega
    · rw [if_neg]
      · exact ih hge (by omega)
      · push Not
        exact h.unused j hge (by omega)

/-- `remove_invalid_indices` gives a row with at least one coupling exactly its used length. -/
theorem c57_trimmed_length {nd cap : ℕ} {row : ℕ → ℤ} {m : ℕ} {b : ℕ → ℕ}
    (h : GraphRow nd cap row m b) (hnd : 0 < nd) (hm : 0 < m) :
    trimmedLength row cap cap = nd * m :=
  trimmedLength_eq h hnd hm cap cap h.fits le_rfl

/-- The trimmed row is a legal target for `sumInto` (see C19) for every element all of whose nodes
were inserted: columns sorted, all couplings present, and block structured for three dofs. -/
theorem c57_row_accepts {R : Type*} [AddCommMonoid R] (L : Local) (c : Contribution R) {cap : ℕ}
    {row : ℕ → ℤ} {m : ℕ} {b : ℕ → ℕ} (hnd : 0 < L.numDof) (h : GraphRow L.numDof cap row m b)
    (hin : ∀ i < c.nodes.length, ∃ q < m, L.colLID (c.nodes.getD i 0) = L.numDof * b q)
    (hdist : L.numDof = 3 → ∀ i < c.nodes.length, ∀ j < c.nodes.length,
      L.colLID (c.nodes.getD i 0) = L.colLID (c.nodes.getD j 0) → i = j) :
    RowAccepts L c ⟨L.numDof * m, fun p => (row p).toNat⟩ := by
  have hcol : ∀ p < L.numDof * m, (row p).toNat = L.numDof * b (p / L.numDof) + p % L.numDof := by
    intro p hp
    rw [h.valid hnd hp]
    exact Int.toNat_natCast _
  refine ⟨?_, ?_, ?_⟩
  · intro i j hij hj
    simp only at hj ⊢
    rw [hcol i (by omega), hcol j hj]
    have hi1 := Nat.mod_lt i hnd
    have hle : i / L.numDof ≤ j / L.numDof := Nat.div_le_div_right hij.le
    rcases Nat.lt_or_ge (i / L.numDof) (j / L.numDof) with h1 | h1
    · have h2 := h.mono _ _ h1 (Nat.div_lt_of_lt_mul hj)
      have h3 : L.numDof * (b (i / L.numDof) + 1) ≤ L.numDof * b (j / L.numDof) :=
        Nat.mul_le_mul_left _ h2
      rw [Nat.mul_add] at h3
      omega
    · have h2 : i / L.numDof = j / L.numDof := by omega
      have h3 := Nat.div_add_mod i L.numDof
      have h4 := Nat.div_add_mod j L.numDof
      rw [h2] at h3 ⊢
      omega
  · intro k hk
    have hk' : k / L.numDof < c.nodes.length := Nat.div_lt_of_lt_mul (by
      unfold numDofs at hk; rw [Nat.mul_comm]; exact hk)
    obtain ⟨q, hq, he⟩ := hin _ hk'
    have hmod := Nat.mod_lt k hnd
    have hlt : L.numDof * q + k % L.numDof < L.numDof * m := by
      have : L.numDof * (q + 1) ≤ L.numDof * m := Nat.mul_le_mul_left _ hq
      rw [Nat.mul_add] at this
      omega
    refine ⟨L.numDof * q + k % L.numDof, hlt, ?_⟩
    simp only
    rw [h.col q hq _ hmod, Int.toNat_natCast]
    unfold dofCol
    rw [he]
  · intro h3
    refine ⟨⟨m, b, ⟨by simp only [h3], ?_, h.mono⟩⟩, ?_, hdist h3⟩
    · intro q hq d hd
      simp only
      have := h.col q hq d (by omega)
      rw [h3] at this
      rw [this, Int.toNat_natCast]
    · intro i hi
      obtain ⟨q, hq, he⟩ := hin i hi
      rw [he, h3]
      exact ⟨b q, rfl⟩

/-- Concrete run: two dofs per node, nodes 5, 2, 5, 3 inserted into a row of capacity 8. -/
example : (List.range 9).map (insertIndices 2 8 [10, 4, 10, 6] (fun p => if p < 8 then INVALID else 77)) =
    [4, 5, 6, 7, 10, 11, 2147483647, 2147483647, 77] := by
  have h0 : ∀ r : ℕ → ℤ, r 0 = INVALID → findInvalid r 8 0 = 0 := by
    intro r h; unfold findInvalid; simp [h]
  simp only [insertIndices]
  rw [h0 _ (by simp)]
  simp only [insertLoop, List.foldl_cons, List.foldl_nil]
  decide +kernel

end Verif.LinSys
