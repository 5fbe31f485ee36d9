import Verif.Proofs.MatProps
import Mathlib.Tactic.Positivity
import Mathlib.Tactic.NormNum

/-!
# C217-C224: material properties
-/

namespace Nalu.MatProps
variable {F N : Type*}

/-! ## C217: every property field gets its value -/

/-- **C217** The set-up stops exactly if some block that has a target does not say, or says in an unsupported way, how a registered property is
computed. -/
theorem c217_throws (fl : Flags) (cpF cvF : F) (pm : PropId → Option F) (blocks : List Block) :
    (∃ e, setup fl cpF cvF pm blocks = .error e) ↔ ∃ b ∈ blocks, b.targets ≠ [] ∧ ∃ id f, pm id = some f ∧ Bad fl b id := by
  rw [setup, run_error]
  constructor
  · rintro ⟨v, hv, hb⟩
    obtain ⟨bi, h1, h2⟩ := List.mem_flatMap.1 hv
    obtain ⟨-, h3, h4, h5⟩ := (mem_blockVisits pm bi.2 bi.1 v).1 h2
    exact ⟨bi.1, List.fst_mem_of_mem_zipIdx h1, List.ne_nil_of_mem h4, v.id, v.field, h5, h3 ▸ hb⟩
  · rintro ⟨b, hb, ht, id, f, hpm, hbad⟩
    obtain ⟨t, ht⟩ := List.exists_mem_of_ne_nil _ ht
    obtain ⟨pre, post, rfl⟩ := List.append_of_mem hb
    obtain ⟨A, B, hv, -, -⟩ := visits_split pm pre b post
    refine ⟨⟨pre.length, b, t, id, f⟩, ?_, hbad⟩
    rw [hv]
    exact List.mem_append_left _ (List.mem_append_right _ ((mem_blockVisits pm _ b _).2 ⟨rfl, rfl, ht, hpm⟩))

variable [DecidableEq F]

/-- The value is decided by the last block that covers the node, with the constants that are in force when that block is reached: those it states
itself and, for the others, the default or what an earlier block stated. -/
theorem fields_held {fl : Flags} {cpF cvF : F} {pm : PropId → Option F} {pre post : List Block} {b : Block} {s : St F}
    (hs : setup fl cpF cvF pm (pre ++ b :: post) = .ok s) (lib : Lib N) (block : ℕ → Block) (hblk : block pre.length = b) (on : ℕ → N → Bool) (n : N)
    (hcov : Covers on b n) (hlast : ∀ b' ∈ post, ¬ Covers on b' n) {id : PropId} {f : F} (hpm : pm id = some f)
    (hinj : ∀ id', pm id' = some f → id' = id) (hg : pm .gamma ≠ none → f ≠ cpF ∧ f ≠ cvF)
    (hfile : (∃ p a, b.data id = some (.table p a)) → ∀ b' ∈ pre, b'.tableFile = b.tableFile) (x : F → N → ℝ) :
    ∃ c : Consts, (c.pRef = 101325 ∨ ∃ b' ∈ pre, b'.pRef = some c.pRef) ∧ (c.tRef = 298.15 ∨ ∃ b' ∈ pre, b'.tRef = some c.tRef) ∧
      (c.gasR = 8314.4621 ∨ ∃ b' ∈ pre, b'.gasR = some c.gasR) ∧
      ∀ w, wanted fl lib ⟨b.pRef.getD c.pRef, b.tRef.getD c.tRef, b.gasR.getD c.gasR⟩ pre.length b id n = some w →
        evaluate lib block on s.algs x f n = w := by
  obtain ⟨A, B, hv, hA, hB⟩ := visits_split pm pre b post
  rw [setup, hv] at hs
  obtain ⟨s2, h12, h3⟩ := run_append_ok hs
  obtain ⟨s1, h1, h2⟩ := run_append_ok h12
  obtain ⟨c1, c2, c3, c4⟩ := run_consts h1
  refine ⟨⟨s1.pRef, s1.tRef, s1.gasR⟩, ?_, ?_, ?_, ?_⟩
  · rcases c1 with h | ⟨v, hv, h⟩
    · exact Or.inl h
    · exact Or.inr ⟨v.b, (hA v hv).1, h⟩
  · rcases c2 with h | ⟨v, hv, h⟩
    · exact Or.inl h
    · exact Or.inr ⟨v.b, (hA v hv).1, h⟩
  · rcases c3 with h | ⟨v, hv, h⟩
    · exact Or.inl h
    · exact Or.inr ⟨v.b, (hA v hv).1, h⟩
  · intro w hw
    rw [run_off h3 lib block on x f n (fun v hv => by
      cases ho : on v.part n with
      | false => rfl
      | true => exact absurd ⟨v.part, (hB v hv).2, ho⟩ (hlast v.b (hB v hv).1))]
    obtain ⟨t, ht, hon⟩ := hcov
    have := (run_block h2 lib block on x hblk (fun v hv => ⟨((mem_blockVisits pm _ b v).1 hv).1, ((mem_blockVisits pm _ b v).1 hv).2.1⟩) f n id
      (fun v hv hf => hinj v.id (by rw [← hf]; exact ((mem_blockVisits pm _ b v).1 hv).2.2.2))
      (fun v hv hid => hg (by rw [← hid, ((mem_blockVisits pm _ b v).1 hv).2.2.2]; simp))
      (fun hk file hh => by
        rcases c4 file hh with h | ⟨v, hv, h⟩
        · simp [St.start] at h
        · rw [← h]; exact hfile hk v.b (hA v hv).1)).1
      ⟨⟨pre.length, b, t, id, f⟩, (mem_blockVisits pm _ b _).2 ⟨rfl, rfl, ht, hpm⟩, rfl, hon⟩
    rw [this]
    have e : s1.consts b = ⟨b.pRef.getD s1.pRef, b.tRef.getD s1.tRef, b.gasR.getD s1.gasR⟩ := rfl
    rw [e, hw]; rfl

/-- **C217** After the properties were evaluated, the field of a property has, at every node covered by some block, the value the specification of
the last such block says, with the constants of that block.  (Registered fields must be distinct; a constant the block leaves to the default must not
have been stated by an earlier block, and earlier blocks must name the same table file: see C218.) -/
theorem c217_fields {fl : Flags} {cpF cvF : F} {pm : PropId → Option F} {pre post : List Block} {b : Block} {s : St F}
    (hs : setup fl cpF cvF pm (pre ++ b :: post) = .ok s) (lib : Lib N) (block : ℕ → Block) (hblk : block pre.length = b) (on : ℕ → N → Bool) (n : N)
    (hcov : Covers on b n) (hlast : ∀ b' ∈ post, ¬ Covers on b' n) {id : PropId} {f : F} (hpm : pm id = some f)
    (hinj : ∀ id', pm id' = some f → id' = id) (hg : pm .gamma ≠ none → f ≠ cpF ∧ f ≠ cvF)
    (hfile : (∃ p a, b.data id = some (.table p a)) → ∀ b' ∈ pre, b'.tableFile = b.tableFile)
    (hP : b.pRef = none → ∀ b' ∈ pre, b'.pRef = none) (hT : b.tRef = none → ∀ b' ∈ pre, b'.tRef = none)
    (hR : b.gasR = none → ∀ b' ∈ pre, b'.gasR = none) (x : F → N → ℝ) (w : ℝ) (hw : wanted fl lib b.own pre.length b id n = some w) :
    evaluate lib block on s.algs x f n = w := by
  obtain ⟨c, h1, h2, h3, h4⟩ := fields_held hs lib block hblk on n hcov hlast hpm hinj hg hfile x
  have key : ∀ (g : Block → Option ℝ) (d y : ℝ), (g b = none → ∀ b' ∈ pre, g b' = none) → (y = d ∨ ∃ b' ∈ pre, g b' = some y) →
      (g b).getD y = (g b).getD d := by
    intro g d y hn hy
    cases hb : g b with
    | some z => rfl
    | none =>
      rcases hy with rfl | ⟨b', hb', h⟩
      · rfl
      · rw [hn hb b' hb'] at h; exact absurd h (by simp)
  refine h4 w ?_
  rw [key (fun b => b.pRef) _ _ hP h1, key (fun b => b.tRef) _ _ hT h2, key (fun b => b.gasR) _ _ hR h3]
  exact hw

/-- **C217** Nodes no block covers keep their values, in every field. -/
theorem c217_uncovered {fl : Flags} {cpF cvF : F} {pm : PropId → Option F} {blocks : List Block} {s : St F}
    (hs : setup fl cpF cvF pm blocks = .ok s) (lib : Lib N) (block : ℕ → Block) (on : ℕ → N → Bool) (n : N)
    (hn : ∀ b ∈ blocks, ¬ Covers on b n) (x : F → N → ℝ) (f : F) : evaluate lib block on s.algs x f n = x f n := by
  rw [setup] at hs
  rw [run_off hs lib block on x f n]
  · rfl
  · intro v hv
    obtain ⟨bi, h1, h2⟩ := List.mem_flatMap.1 hv
    obtain ⟨-, h3, h4, -⟩ := (mem_blockVisits pm bi.2 bi.1 v).1 h2
    cases ho : on v.part n with
    | false => rfl
    | true => exact absurd ⟨v.part, h3 ▸ h4, ho⟩ (hn bi.1 (List.fst_mem_of_mem_zipIdx h1))

/-- Two blocks on parts 1 and 2: ideal gas with a stated pressure and mixture-fraction viscosity, constants. -/
def gasBlock (t : ℕ) (p : Option ℝ) : Block where
  targets := [t]
  pRef := p
  tRef := some 300
  gasR := some 8314
  nSpec := 1
  mw := fun _ => 28
  massFrac := fun _ => 1
  data := fun id => match id with
    | .density => some .idealGas
    | .viscosity => some (.mixFrac 1 2)
    | _ => none
  tableFile := 0

/-- Density and viscosity are registered. -/
def gasMap : PropId → Option ℕ := fun id => match id with
  | .density => some 0
  | .viscosity => some 1
  | _ => none

/-- The set-up of two such blocks succeeds: the hypotheses of the theorems are met. -/
example : ∃ s, setup (F := ℕ) ⟨false, true, true, false, false⟩ 7 8 gasMap [gasBlock 1 (some 100000), gasBlock 2 none] = .ok s := by
  cases h : setup (F := ℕ) ⟨false, true, true, false, false⟩ 7 8 gasMap [gasBlock 1 (some 100000), gasBlock 2 none] with
  | ok s => exact ⟨s, rfl⟩
  | error e =>
    obtain ⟨b, hb, -, id, f, hp, hbad⟩ := (c217_throws _ _ _ _ _).1 ⟨e, h⟩
    have hd : b.data = (gasBlock 1 none).data := by
      rcases List.mem_cons.1 hb with rfl | hb
      · rfl
      · rcases List.mem_cons.1 hb with rfl | hb
        · rfl
        · exact absurd hb (by simp)
    exfalso
    cases id <;> simp [gasMap] at hp <;> simp [Bad, hd, gasBlock] at hbad

/-! ## C218: the constants of a block -/

/-- **C218** A block that states its constants gets them, whatever the other blocks state. -/
theorem c218_own_constants {fl : Flags} {cpF cvF : F} {pm : PropId → Option F} {pre post : List Block} {b : Block} {s : St F}
    (hs : setup fl cpF cvF pm (pre ++ b :: post) = .ok s) (lib : Lib N) (block : ℕ → Block) (hblk : block pre.length = b) (on : ℕ → N → Bool) (n : N)
    (hcov : Covers on b n) (hlast : ∀ b' ∈ post, ¬ Covers on b' n) {id : PropId} {f : F} (hpm : pm id = some f)
    (hinj : ∀ id', pm id' = some f → id' = id) (hg : pm .gamma ≠ none → f ≠ cpF ∧ f ≠ cvF) {p t R : ℝ} (hP : b.pRef = some p)
    (hT : b.tRef = some t) (hR : b.gasR = some R) (hd : ∀ pr a, b.data id ≠ some (.table pr a)) (x : F → N → ℝ) (w : ℝ)
    (hw : wanted fl lib ⟨p, t, R⟩ pre.length b id n = some w) : evaluate lib block on s.algs x f n = w := by
  refine c217_fields hs lib block hblk on n hcov hlast hpm hinj hg (fun ⟨pr, a, h⟩ => absurd h (hd pr a)) (by simp [hP]) (by simp [hT]) (by simp [hR]) x w ?_
  simpa [Block.own, hP, hT, hR] using hw

/-- **C218** (partial: constants leak) The three constants are declared once, before the loop over the blocks, and a block that does not state one
works with what an earlier block left there.  For two ideal-gas blocks, the first stating the reference pressure `p`, the second none: the density of
the second block is that of pressure `p`, not of the documented default - for every `p`. -/
theorem c218_leak_partial (p : ℝ) (lib : Lib N) (on : ℕ → N → Bool) (n : N) (h1 : on 1 n = false) (h2 : on 2 n = true) (x : ℕ → N → ℝ) :
    ∃ s, setup (F := ℕ) ⟨false, true, true, false, false⟩ 7 8 gasMap [gasBlock 1 (some p), gasBlock 2 none] = .ok s ∧
      evaluate lib (fun i => if i = 0 then gasBlock 1 (some p) else gasBlock 2 none) on s.algs x 0 n = p * 28 / (8314 * 300) := by
  refine ⟨_, rfl, ?_⟩
  simp [evaluate, Alg.exec, h2, St.push, St.setEval, St.exP, St.exT, St.exR, St.start, extract, gasBlock, Rule.value, Eval.run,
    Verif.Thermo.idealGasDensity, Verif.Thermo.computeMw, sumLoop_eq]
  ring

/-- A block whose viscosity is looked up in the table file `file`. -/
def tableBlock (t file : ℕ) : Block where
  targets := [t]
  pRef := none
  tRef := none
  gasR := none
  nSpec := 0
  mw := fun _ => 1
  massFrac := fun _ => 1
  data := fun id => match id with
    | .viscosity => some (.table 5 none)
    | _ => none
  tableFile := file

/-- **C218** (partial: one table file for all) The table file is opened once: a second block is looked up in the file of the first, whatever file it
names. -/
theorem c218_table_file_partial (file1 file2 : ℕ) (lib : Lib N) (block : ℕ → Block) (on : ℕ → N → Bool) (n : N) (h1 : on 1 n = false)
    (h2 : on 2 n = true) (x : ℕ → N → ℝ) :
    ∃ s, setup (F := ℕ) ⟨false, true, true, false, false⟩ 7 8 (fun id => if id = .viscosity then some 1 else none)
        [tableBlock 1 file1, tableBlock 2 file2] = .ok s ∧
      evaluate lib block on s.algs x 1 n = lib.table file1 5 n := by
  refine ⟨_, rfl, ?_⟩
  simp [evaluate, Alg.exec, h2, St.push, St.start, Rule.value, tableBlock]

/-! ## C219: mixing laws -/

/-- **C219** A property that is linear in the mixture fraction or the volume fraction takes the two given values at one and zero and stays between
them in between. -/
theorem c219_linear (lib : Lib N) (block : ℕ → Block) (n : N) (a b : ℝ) (vof : Bool) (z : ℝ) (hz : z = if vof then lib.vof n else lib.z n)
    (hz0 : 0 ≤ z) (hz1 : z ≤ 1) :
    min a b ≤ (Rule.linear vof a b).value lib block n ∧ (Rule.linear vof a b).value lib block n ≤ max a b ∧
    (z = 1 → (Rule.linear vof a b).value lib block n = a) ∧ (z = 0 → (Rule.linear vof a b).value lib block n = b) := by
  have e : (Rule.linear vof a b).value lib block n = z * a + (1 - z) * b := by
    cases vof <;> simp [Rule.value, hz]
  rw [e]
  refine ⟨?_, ?_, fun h => by rw [h]; ring, fun h => by rw [h]; ring⟩
  · have h1 := min_le_left a b; have h2 := min_le_right a b
    nlinarith [mul_nonneg hz0 (sub_nonneg.2 h1), mul_nonneg (sub_nonneg.2 hz1) (sub_nonneg.2 h2)]
  · have h1 := le_max_left a b; have h2 := le_max_right a b
    nlinarith [mul_nonneg hz0 (sub_nonneg.2 h1), mul_nonneg (sub_nonneg.2 hz1) (sub_nonneg.2 h2)]

/-- **C219** Mixture-fraction density conserves mass and volume: its inverse, the specific volume, is the mass-weighted mean of the two specific
volumes; it is positive and lies between the two densities, and equals them at one and zero. -/
theorem c219_density (lib : Lib N) (block : ℕ → Block) (n : N) {a b : ℝ} (ha : 0 < a) (hb : 0 < b) (hz0 : 0 ≤ lib.z n) (hz1 : lib.z n ≤ 1) :
    let r := (Rule.inverse a b).value lib block n
    1 / r = lib.z n * (1 / a) + (1 - lib.z n) * (1 / b) ∧ 0 < r ∧ min a b ≤ r ∧ r ≤ max a b ∧ (lib.z n = 1 → r = a) ∧ (lib.z n = 0 → r = b) := by
  have hv : 0 < lib.z n / a + (1 - lib.z n) / b := by
    rcases hz0.lt_or_eq with h | h
    · have : 0 < lib.z n / a := div_pos h ha
      have : 0 ≤ (1 - lib.z n) / b := div_nonneg (by linarith) hb.le
      linarith
    · rw [← h]; simpa using hb
  have hm : 0 < min a b := lt_min ha hb
  have hM : 0 < max a b := lt_max_of_lt_left ha
  have hz : 0 ≤ 1 - lib.z n := by linarith
  simp only [Rule.value]
  refine ⟨by rw [one_div_one_div]; ring, by positivity, ?_, ?_, fun h => by rw [h]; simp, fun h => by rw [h]; simp⟩
  · rw [le_div_iff₀ hv]
    have h1 : min a b / a ≤ 1 := (div_le_one ha).2 (min_le_left _ _)
    have h2 : min a b / b ≤ 1 := (div_le_one hb).2 (min_le_right _ _)
    calc min a b * (lib.z n / a + (1 - lib.z n) / b) = lib.z n * (min a b / a) + (1 - lib.z n) * (min a b / b) := by ring
      _ ≤ lib.z n * 1 + (1 - lib.z n) * 1 := add_le_add (mul_le_mul_of_nonneg_left h1 hz0) (mul_le_mul_of_nonneg_left h2 hz)
      _ = 1 := by ring
  · rw [div_le_iff₀ hv]
    have h1 : 1 ≤ max a b / a := (one_le_div ha).2 (le_max_left _ _)
    have h2 : 1 ≤ max a b / b := (one_le_div hb).2 (le_max_right _ _)
    calc 1 = lib.z n * 1 + (1 - lib.z n) * 1 := by ring
      _ ≤ lib.z n * (max a b / a) + (1 - lib.z n) * (max a b / b) := add_le_add (mul_le_mul_of_nonneg_left h1 hz0) (mul_le_mul_of_nonneg_left h2 hz)
      _ = max a b * (lib.z n / a + (1 - lib.z n) / b) := by ring

/-! ## C220: specific heats from gamma -/

/-- A step of one block leaves the evaluators of the other blocks alone. -/
theorem step_evals_off {fl : Flags} {cpF cvF : F} {s s' : St F} {i : ℕ} {b : Block} {part : ℕ} {id : PropId} {field : F}
    (h : step fl cpF cvF s i b part id field = .ok s') {j : ℕ} (hj : j ≠ i) : s'.evals j = s.evals j := by
  rcases fl with ⟨ne, un, iso, gd, ac⟩
  simp only [step] at h
  cases hd : b.data id with
  | none => simp [hd] at h
  | some k =>
    cases k with
    | constant v sp =>
      rw [hd] at h
      simp only at h
      split_ifs at h <;> (cases h; funext id'; simp [St.push, St.setEval, St.exT, St.exR, hj])
    | mixFrac a c => rw [hd] at h; simp only at h; split_ifs at h <;> (cases h; rfl)
    | vof a c => simp [hd] at h; subst h; rfl
    | polynomial =>
      cases id <;> simp only [hd] at h <;> (try split_ifs at h) <;> first | (cases h; done) | (cases h; funext id'; simp [St.push, St.setEval, St.exT, St.exR, hj])
    | idealGas =>
      rw [hd] at h
      simp only at h
      split_ifs at h <;> (cases h; funext id'; simp [St.push, St.setEval, St.exT, St.exR, St.exP, hj])
    | geometric => simp [hd] at h; subst h; rfl
    | table p a => simp [hd] at h; subst h; rfl
    | generic w =>
      cases w with
      | none => simp [hd] at h
      | some w =>
        rw [hd] at h
        simp only at h
        split_ifs at h <;> (cases h; funext id'; simp [St.push, St.setEval, hj])
    | unset => simp [hd] at h; subst h; rfl

theorem run_evals_off {fl : Flags} {cpF cvF : F} {l : List (Visit F)} {s s' : St F} (h : run fl cpF cvF l s = .ok s') {j : ℕ}
    (hj : ∀ v ∈ l, j ≠ v.i) : s'.evals j = s.evals j := by
  induction l generalizing s with
  | nil => simp only [run] at h; cases h; rfl
  | cons v l ih =>
    obtain ⟨s1, h1, h2⟩ := run_cons_ok h
    rw [ih h2 fun w hw => hj w (List.mem_cons_of_mem _ hw), step_evals_off h1 (hj v List.mem_cons_self)]

theorem visits_index (pm : PropId → Option F) (pre : List Block) (b : Block) (post : List Block) :
    ∃ A B : List (Visit F), visits pm (pre ++ b :: post) = A ++ blockVisits pm pre.length b ++ B ∧ ∀ v ∈ B, pre.length ≠ v.i := by
  refine ⟨visits pm pre, (post.zipIdx (pre.length + 1)).flatMap fun bi => blockVisits pm bi.2 bi.1, ?_, ?_⟩
  · simp [visits, List.zipIdx_append, List.zipIdx_cons, blockVisits]
  · intro v hv
    obtain ⟨bi, h1, h2⟩ := List.mem_flatMap.1 hv
    have h3 : v.i = bi.2 := by
      simp only [blockVisits, List.mem_flatMap, List.mem_map] at h2
      obtain ⟨_, _, _, _, rfl⟩ := h2
      rfl
    have := List.le_snd_of_mem_zipIdx h1
    omega


/-- **C220** With gas dynamics and a constant ratio of specific heats, at the nodes of the last covering target the three fields hold `gamma`, `Cp`
and `Cv` with `Cp = gamma*Cv` and `Cp - Cv` the gas constant of the reference mixture, both positive; also when a specific heat was specified as
well. -/
theorem c220_gamma {fl : Flags} {cpF cvF gF : F} {pm : PropId → Option F} {pre post : List Block} {b : Block} {s : St F}
    (hs : setup fl cpF cvF pm (pre ++ b :: post) = .ok s) (lib : Lib N) (block : ℕ → Block) (on : ℕ → N → Bool) (n : N)
    (hlast : ∀ b' ∈ post, ¬ Covers on b' n) {ts ts' : List ℕ} {t : ℕ} (ht : b.targets = ts ++ t :: ts') (hon : on t n = true)
    (hts : ∀ t' ∈ ts', on t' n = false) (hpm : pm .gamma = some gF) {g : ℝ} {sp : Bool} (hd : b.data .gamma = some (.constant g sp))
    (h1 : gF ≠ cpF) (h2 : gF ≠ cvF) (h3 : cpF ≠ cvF) {R : ℝ} (hR : b.gasR = some R) (hRp : 0 < R) (hgp : 1 < g)
    (hmw : ∀ k, 0 < b.mw k) (hY : ∀ k, 0 ≤ b.massFrac k) (hY1 : ∑ k, b.massFrac k = 1) (x : F → N → ℝ) :
    let y := evaluate lib block on s.algs x
    y gF n = g ∧ y cpF n = g * y cvF n ∧ y cpF n - y cvF n = R * ∑ k, b.massFrac k / b.mw k ∧ 0 < y cvF n := by
  intro y
  obtain ⟨A, B, hv, hA, hB⟩ := visits_split pm pre b post
  rw [setup, hv] at hs
  obtain ⟨s2, h12, hs3⟩ := run_append_ok hs
  obtain ⟨s1, hs1, hs2⟩ := run_append_ok h12
  have e1 : blockVisits pm pre.length b =
      (ts.flatMap fun t => (pmList pm).map fun p => (⟨pre.length, b, t, p.1, p.2⟩ : Visit F)) ++
      ((pmList pm).map fun p => (⟨pre.length, b, t, p.1, p.2⟩ : Visit F)) ++
      (ts'.flatMap fun t => (pmList pm).map fun p => (⟨pre.length, b, t, p.1, p.2⟩ : Visit F)) := by
    rw [blockVisits, ht]; simp
  have e2 : ∃ L, pmList pm = L ++ [(.gamma, gF)] := by
    refine ⟨([.density, .viscosity, .specHeat, .thermalCond, .absorption, .enthalpy, .lameMu, .lameLambda, .scattering, .surfaceTension] :
      List PropId).filterMap fun id => (pm id).map fun f => (id, f), ?_⟩
    have : PropId.all = [.density, .viscosity, .specHeat, .thermalCond, .absorption, .enthalpy, .lameMu, .lameLambda, .scattering, .surfaceTension] ++ [.gamma] := rfl
    rw [pmList, this, List.filterMap_append]
    simp [hpm]
  obtain ⟨L, hL⟩ := e2
  rw [e1, hL, List.map_append, List.append_assoc, List.append_assoc] at hs2
  obtain ⟨u1, hu1, hu⟩ := run_append_ok hs2
  obtain ⟨u2, hu2, hu⟩ := run_append_ok hu
  simp only [List.map_cons, List.map_nil] at hu
  obtain ⟨u3, hu3, hu4⟩ := run_append_ok hu
  obtain ⟨u4, hu5, hu6⟩ := run_cons_ok hu3
  simp only [run] at hu6
  obtain rfl : u4 = u3 := by injection hu6
  have hoff : ∀ f, y f n = evaluate lib block on u4.algs x f n := by
    intro f
    change evaluate lib block on s.algs x f n = _
    rw [run_off hs3 lib block on x f n (fun v hv => by
      cases ho : on v.part n with
      | false => rfl
      | true => exact absurd ⟨v.part, (hB v hv).2, ho⟩ (hlast v.b (hB v hv).1)), run_off hu4 lib block on x f n (fun v hv => by
        obtain ⟨t', ht', hv⟩ := List.mem_flatMap.1 hv
        obtain ⟨p, -, rfl⟩ := List.mem_map.1 hv
        exact hts t' ht')]
  simp only [step, hd] at hu5
  have hS : 0 < ∑ k, b.massFrac k / b.mw k := by
    have hne : ∃ k, b.massFrac k ≠ 0 := by
      by_contra hcon
      push Not at hcon
      simp [hcon] at hY1
    obtain ⟨k, hk⟩ := hne
    refine Finset.sum_pos' (fun k _ => div_nonneg (hY k) (hmw k).le) ⟨k, Finset.mem_univ k, div_pos (lt_of_le_of_ne (hY k) (Ne.symm hk)) (hmw k)⟩
  have hg1 : (0 : ℝ) < g - 1 := by linarith
  have key : u4.algs = u2.algs ++ [⟨t, gF, .const g⟩, ⟨t, cpF, .const (g * R / mixtureMW b / (g - 1))⟩, ⟨t, cvF, .const (R / mixtureMW b / (g - 1))⟩] := by
    rcases fl with ⟨ne, un, iso, gd, ac⟩
    cases gd <;> cases ac <;> cases sp <;> simp [St.push, St.setEval, St.exT, St.exR, extract, hR] at hu5
    subst hu5; rfl
  have v1 : y gF n = g := by
    rw [hoff, key]; simp [evaluate_append, evaluate_cons, evaluate_nil, Alg.exec, h1, h2, hon, Rule.value]
  have v2 : y cpF n = g * R / mixtureMW b / (g - 1) := by
    rw [hoff, key]; simp [evaluate_append, evaluate_cons, evaluate_nil, Alg.exec, h3, hon, Rule.value]
  have v3 : y cvF n = R / mixtureMW b / (g - 1) := by
    rw [hoff, key]; simp [evaluate_append, evaluate_cons, evaluate_nil, Alg.exec, hon, Rule.value]
  rw [v1, v2, v3, mixtureMW]
  refine ⟨rfl, by ring, ?_, by positivity⟩
  field_simp

/-- **C220** The enthalpy evaluator such a block leaves, whatever blocks come before and after it, is the one of the constant specific heat `Cp` given to the
field, with the block's own reference temperature. -/
theorem c220_enthalpy {fl : Flags} {cpF cvF gF : F} {pm : PropId → Option F} {pre post : List Block} {b : Block} {s : St F}
    (hs : setup fl cpF cvF pm (pre ++ b :: post) = .ok s) {ts : List ℕ} {t : ℕ} (ht : b.targets = ts ++ [t])
    (hpm : pm .gamma = some gF) {g : ℝ} {sp : Bool} (hd : b.data .gamma = some (.constant g sp)) {R T0 : ℝ} (hR : b.gasR = some R)
    (hT : b.tRef = some T0) :
    s.evals pre.length .enthalpy = some (.hConst (g * R / mixtureMW b / (g - 1)) T0) := by
  obtain ⟨A, B, hv, hB⟩ := visits_index pm pre b post
  rw [setup, hv] at hs
  obtain ⟨s2, h12, hs3⟩ := run_append_ok hs
  obtain ⟨s1, hs1, hs2⟩ := run_append_ok h12
  rw [run_evals_off hs3 hB]
  have e2 : ∃ L, pmList pm = L ++ [(.gamma, gF)] := by
    refine ⟨([.density, .viscosity, .specHeat, .thermalCond, .absorption, .enthalpy, .lameMu, .lameLambda, .scattering, .surfaceTension] :
      List PropId).filterMap fun id => (pm id).map fun f => (id, f), ?_⟩
    have : PropId.all = [.density, .viscosity, .specHeat, .thermalCond, .absorption, .enthalpy, .lameMu, .lameLambda, .scattering, .surfaceTension] ++ [.gamma] := rfl
    rw [pmList, this, List.filterMap_append]
    simp [hpm]
  obtain ⟨L, hL⟩ := e2
  have e1 : ∃ C, blockVisits pm pre.length b = C ++ [(⟨pre.length, b, t, .gamma, gF⟩ : Visit F)] := by
    refine ⟨(ts.flatMap fun t => (pmList pm).map fun p => (⟨pre.length, b, t, p.1, p.2⟩ : Visit F)) ++
      L.map fun p => (⟨pre.length, b, t, p.1, p.2⟩ : Visit F), ?_⟩
    rw [blockVisits, ht, List.flatMap_append, List.flatMap_singleton]
    nth_rw 2 [hL]
    rw [List.map_append, List.append_assoc]
    rfl
  obtain ⟨C, hC⟩ := e1
  rw [hC] at hs2
  obtain ⟨u1, -, hu2⟩ := run_append_ok hs2
  obtain ⟨u2, hu3, hu4⟩ := run_cons_ok hu2
  simp only [run] at hu4
  obtain rfl : u2 = s2 := by injection hu4
  simp only [step, hd] at hu3
  rcases fl with ⟨ne, un, iso, gd, ac⟩
  cases gd <;> cases ac <;> cases sp <;> simp [St.push, St.setEval, St.exT, St.exR, extract, hR, hT] at hu3
  subst hu3
  simp

/-! ## C221: specific heat and enthalpy belong together -/

/-- A constant or per-species specific heat integrates from the reference temperature given in its own block. -/
def OwnTemperature (b : Block) : Eval → Prop
  | .hConst _ T => ∀ T0, b.tRef = some T0 → T = T0
  | .hCpk T => ∀ T0, b.tRef = some T0 → T = T0
  | _ => True

/-- **C221** In every block, with needed enthalpy and a constant, per-species, polynomial or water specific heat, the set-up leaves a pair of evaluators
that belong together - same specific heat, same gas constant, same species treatment - for the
enthalpy equation to use; a reference temperature of the block is the one its enthalpy starts from. -/
theorem c221_paired {fl : Flags} {cpF cvF : F} {pm : PropId → Option F} {pre post : List Block} {b : Block} {s : St F}
    (hs : setup fl cpF cvF pm (pre ++ b :: post) = .ok s)
    (hne : fl.needsEnthalpy = true) (hpm : pm .specHeat ≠ none) (hg : pm .gamma = none) (ht : b.targets ≠ [])
    (hk : (∃ v sp, b.data .specHeat = some (.constant v sp)) ∨ b.data .specHeat = some .polynomial ∨ b.data .specHeat = some (.generic (some .specHeat)))
    (hother : ∀ id, id ≠ .specHeat → b.data id ≠ some (.generic (some .specHeat))) (hent : pm .enthalpy = none) :
    ∃ ec eh, s.evals pre.length .specHeat = some ec ∧ s.evals pre.length .enthalpy = some eh ∧ Paired ec eh ∧ OwnTemperature b eh := by
  generalize hi : pre.length = i at *
  have hstep : ∀ (u u' : St F) (part : ℕ) (id : PropId) (field : F), step fl cpF cvF u i b part id field = .ok u' → id ≠ .gamma → id ≠ .enthalpy →
      (id = .specHeat → ∃ ec eh, u'.evals i .specHeat = some ec ∧ u'.evals i .enthalpy = some eh ∧ Paired ec eh ∧ OwnTemperature b eh) ∧
      (id ≠ .specHeat → u'.evals i .specHeat = u.evals i .specHeat ∧ u'.evals i .enthalpy = u.evals i .enthalpy) := by
    intro u u' part id field h hng hnh
    rcases fl with ⟨ne, un, iso, gd, ac⟩
    simp only at hne
    subst hne
    simp only [step] at h
    constructor
    · rintro rfl
      rcases hk with ⟨v, sp, hk⟩ | hk | hk
      · cases un <;> cases sp <;> simp [hk, St.push, St.setEval, St.exT, extract] at h <;> subst h
        · exact ⟨_, _, (if_neg (by simp)).trans (if_pos ⟨rfl, rfl⟩), if_pos ⟨rfl, rfl⟩, ⟨.const _ _, by intro T0 h; simp [h]⟩⟩
        · exact ⟨_, _, (if_neg (by simp)).trans (if_pos ⟨rfl, rfl⟩), if_pos ⟨rfl, rfl⟩, ⟨.species _, by intro T0 h; simp [h]⟩⟩
        · exact ⟨_, _, (if_neg (by simp)).trans (if_pos ⟨rfl, rfl⟩), if_pos ⟨rfl, rfl⟩, ⟨.const _ _, by intro T0 h; simp [h]⟩⟩
      · cases un <;> simp [hk, St.push, St.setEval, St.exR, extract] at h <;> subst h <;> exact ⟨_, _, (if_neg (by simp)).trans (if_pos ⟨rfl, rfl⟩), if_pos ⟨rfl, rfl⟩, ⟨.poly _ _, trivial⟩⟩
      · simp [hk, St.push, St.setEval] at h; subst h; exact ⟨_, _, if_pos ⟨rfl, rfl⟩, (if_neg (by simp)).trans (if_pos ⟨rfl, rfl⟩), ⟨.water, trivial⟩⟩
    · intro hns
      have ho := hother id hns
      cases hd : b.data id with
      | none => simp [hd] at h
      | some k =>
        cases k with
        | constant v sp => simp [hd, hns, hng, St.push] at h; subst h; exact ⟨rfl, rfl⟩
        | mixFrac a c => cases id <;> simp [hd, St.push] at h <;> subst h <;> exact ⟨rfl, rfl⟩
        | vof a c => simp [hd, St.push] at h; subst h; exact ⟨rfl, rfl⟩
        | polynomial =>
          cases iso <;> cases id <;> simp at hns hnh <;> simp [hd, St.push, St.setEval, St.exT, extract] at h <;> subst h <;> exact ⟨by simp, by simp⟩
        | idealGas =>
          cases un <;> cases iso <;> cases ac <;> cases gd <;> cases id <;>
            simp [hd, St.push, St.setEval, St.exT, St.exR, St.exP, extract] at h <;> subst h <;> exact ⟨by simp, by simp⟩
        | geometric => simp [hd, St.push] at h; subst h; exact ⟨rfl, rfl⟩
        | table p a => simp [hd, St.push] at h; subst h; exact ⟨rfl, rfl⟩
        | generic w =>
          cases w with
          | none => simp [hd] at h
          | some w =>
            have hw : w ≠ .specHeat := fun hw => ho (by rw [hd, hw])
            simp [hd, hw, St.push, St.setEval] at h
            subst h
            have e1 : ¬ PropId.specHeat = id := fun h => hns h.symm
            have e2 : ¬ PropId.enthalpy = id := fun h => hnh h.symm
            simp [e1, e2]
        | unset => simp [hd] at h; subst h; exact ⟨rfl, rfl⟩
  have hrun : ∀ (l : List (Visit F)) (u u' : St F), run fl cpF cvF l u = .ok u' → (∀ v ∈ l, v.i = i ∧ v.b = b ∧ v.id ≠ .gamma ∧ v.id ≠ .enthalpy) →
      ((∃ v ∈ l, v.id = .specHeat) ∨ ∃ ec eh, u.evals i .specHeat = some ec ∧ u.evals i .enthalpy = some eh ∧ Paired ec eh ∧ OwnTemperature b eh) →
      ∃ ec eh, u'.evals i .specHeat = some ec ∧ u'.evals i .enthalpy = some eh ∧ Paired ec eh ∧ OwnTemperature b eh := by
    intro l
    induction l with
    | nil =>
      intro u u' h _ hor
      simp only [run] at h; cases h
      rcases hor with ⟨v, hv, -⟩ | h
      · exact absurd hv (by simp)
      · exact h
    | cons v l ih =>
      intro u u' h hl hor
      obtain ⟨u1, h1, h2⟩ := run_cons_ok h
      obtain ⟨e1, e2, e3, e4⟩ := hl v List.mem_cons_self
      rw [e1, e2] at h1
      obtain ⟨k1, k2⟩ := hstep _ _ _ _ _ h1 e3 e4
      refine ih u1 u' h2 (fun w hw => hl w (List.mem_cons_of_mem _ hw)) ?_
      by_cases hv : v.id = .specHeat
      · exact Or.inr (k1 hv)
      · obtain ⟨m1, m2⟩ := k2 hv
        rcases hor with ⟨w, hw, hwi⟩ | h
        · rcases List.mem_cons.1 hw with rfl | hw
          · exact absurd hwi hv
          · exact Or.inl ⟨w, hw, hwi⟩
        · rw [m1, m2]; exact Or.inr h
  obtain ⟨A, B, hv, hB⟩ := visits_index pm pre b post
  rw [setup, hv, hi] at hs
  rw [hi] at hB
  obtain ⟨s2, h12, hs3⟩ := run_append_ok hs
  obtain ⟨s1, -, hs2⟩ := run_append_ok h12
  rw [run_evals_off hs3 hB]
  refine hrun _ _ _ hs2 (fun v hv => ?_) ?_
  · obtain ⟨m1, m2, -, m4⟩ := (mem_blockVisits pm i b v).1 hv
    exact ⟨m1, m2, fun h => by rw [h, hg] at m4; exact absurd m4 (by simp), fun h => by rw [h, hent] at m4; exact absurd m4 (by simp)⟩
  · obtain ⟨t, ht⟩ := List.exists_mem_of_ne_nil _ ht
    obtain ⟨f, hf⟩ := Option.ne_none_iff_exists'.1 hpm
    exact Or.inl ⟨⟨i, b, t, .specHeat, f⟩, (mem_blockVisits pm i b _).2 ⟨rfl, rfl, ht, hf⟩, rfl⟩

/-- Air with a constant specific heat. -/
def airBlock (k : Kind) : Block where
  targets := [1]
  pRef := none
  tRef := none
  gasR := none
  nSpec := 1
  mw := fun _ => 29
  massFrac := fun _ => 1
  data := fun id => if id = .specHeat then some k else none
  tableFile := 0

example : ∃ s, setup (F := ℕ) ⟨true, true, false, false, false⟩ 7 8 (fun id => if id = .specHeat then some 2 else none) [airBlock (.constant 1000 false)] = .ok s :=
  ⟨_, rfl⟩

/-- **C221** (partial: not every accepted specification has a pair) A specific heat given by mixture fraction, volume of fluid, volume or table is
accepted although an enthalpy is needed, and leaves no evaluator: the enthalpy equation calls through a null pointer. -/
theorem c221_null_evaluator_partial (k : Kind) (hk : (∃ a c, k = .mixFrac a c) ∨ (∃ a c, k = .vof a c) ∨ k = .geometric ∨ ∃ p a, k = .table p a) :
    ∃ s, setup (F := ℕ) ⟨true, true, false, false, false⟩ 7 8 (fun id => if id = .specHeat then some 2 else none) [airBlock k] = .ok s ∧
      s.evals 0 .specHeat = none ∧ s.evals 0 .enthalpy = none := by
  rcases hk with ⟨a, c, rfl⟩ | ⟨a, c, rfl⟩ | rfl | ⟨p, a, rfl⟩ <;> exact ⟨_, rfl, rfl, rfl⟩

/-! ## C222: derived coefficients -/

/-- **C222** With the conductivity computed from the laminar Prandtl number, the diffusion coefficient of the enthalpy equation is the one a scalar
with that Prandtl and turbulent Prandtl number gets - the conductivity loop runs after specific heat and viscosity were evaluated - at every node
with a nonzero specific heat. -/
theorem c222_prandtl (turbulent : Bool) (specHeat visc tvisc : N → ℝ) (pr prT : ℝ) (n : N) (hc : specHeat n ≠ 0) :
    effDiffEnthalpy turbulent (condFromPrandtl specHeat visc pr) specHeat tvisc prT n = effDiff turbulent visc tvisc pr prT n := by
  cases turbulent <;> simp [effDiffEnthalpy, condFromPrandtl, effDiff] <;> field_simp

/-- **C222** The effective coefficient is the laminar plus the turbulent part over their Schmidt numbers, positive where the laminar one is, and the
turbulent viscosity never lowers it. -/
theorem c222_effective (visc tvisc : N → ℝ) {sl st : ℝ} (hl : 0 < sl) (ht : 0 < st) (n : N) (hv : 0 < visc n) (htv : 0 ≤ tvisc n) :
    effDiff true visc tvisc sl st n = visc n / sl + tvisc n / st ∧ effDiff false visc tvisc sl st n = visc n / sl ∧
      0 < effDiff false visc tvisc sl st n ∧ effDiff false visc tvisc sl st n ≤ effDiff true visc tvisc sl st n := by
  have h1 : effDiff true visc tvisc sl st n = visc n / sl + tvisc n / st := by simp [effDiff]; ring
  have h2 : effDiff false visc tvisc sl st n = visc n / sl := by simp [effDiff]; ring
  refine ⟨h1, h2, by rw [h2]; positivity, ?_⟩
  rw [h1, h2]
  have : 0 ≤ tvisc n / st := by positivity
  linarith

/-! ## C223: reading the specifications -/

/-- **C223** Reading fails exactly if some specification has a name that is not a property name; otherwise a property has the last specification with
its name, or keeps what it had. -/
theorem c223_specs (l : List (String × Kind)) (d : PropId → Option Kind) :
    (loadSpecs l d = none ↔ ∃ p ∈ l, p.1 ∉ PropId.names) ∧
    ∀ r, loadSpecs l d = some r → ∀ id name, (id, name) ∈ PropId.all.zip PropId.names →
      r id = ((l.reverse.find? fun p => p.1 = name).map fun p => p.2).or (d id) := by
  have hdist : ∀ p ∈ PropId.all.zip PropId.names, ∀ q ∈ PropId.all.zip PropId.names, p.2 = q.2 ↔ p.1 = q.1 := by decide
  have hmem : ∀ s, s ∈ PropId.names ↔ ∃ p ∈ PropId.all.zip PropId.names, p.2 = s := by
    intro s
    constructor
    · intro h
      have : PropId.names = (PropId.all.zip PropId.names).map Prod.snd := by decide
      rw [this] at h
      obtain ⟨p, hp, rfl⟩ := List.mem_map.1 h
      exact ⟨p, hp, rfl⟩
    · rintro ⟨p, hp, rfl⟩
      exact (List.of_mem_zip hp).2
  induction l generalizing d with
  | nil => simp [loadSpecs]
  | cons p l ih =>
    obtain ⟨name, k⟩ := p
    simp only [loadSpecs]
    cases hf : (PropId.all.zip PropId.names).find? fun p => p.2 = name with
    | none =>
      have hn : name ∉ PropId.names := by
        rw [hmem]
        rintro ⟨p, hp, he⟩
        have := List.find?_eq_none.1 hf p hp
        simp [he] at this
      refine ⟨iff_of_true rfl ⟨(name, k), List.mem_cons_self, hn⟩, fun r hr => absurd hr (by simp)⟩
    | some q =>
      have hq := List.mem_of_find?_eq_some hf
      have hqn : q.2 = name := by simpa using List.find?_some hf
      have hn : name ∈ PropId.names := (hmem name).2 ⟨q, hq, hqn⟩
      obtain ⟨i1, i2⟩ := ih fun id => if id = q.1 then some k else d id
      constructor
      · rw [i1]
        simp [hn]
      · intro r hr id nm hid
        rw [i2 r hr id nm hid]
        rw [List.reverse_cons, List.find?_append]
        have hiff := hdist (id, nm) hid q hq
        simp only at hiff
        by_cases he : id = q.1
        · have : name = nm := by rw [← hqn]; exact (hiff.2 he).symm
          cases (l.reverse.find? fun p => p.1 = nm) <;> simp [he, this]
        · have : ¬ name = nm := fun h => he (hiff.1 (by rw [hqn, h]))
          cases (l.reverse.find? fun p => p.1 = nm) <;> simp [he, this]

/-- **C223** (partial: per-species constants outside the enthalpy equation) A `constant` property given by species coefficients has no value of its
own, and `constValue_` is zero: for every property other than the specific heat of an enthalpy equation the set-up accepts it and fills the field
with that zero. -/
theorem c223_species_constant_zero_partial (fl : Flags) (cpF cvF : F) (s : St F) (i : ℕ) (b : Block) (part : ℕ) (id : PropId) (field : F)
    (hd : b.data id = some (.constant 0 true)) (hid : id ≠ .gamma) (h : ¬ (id = .specHeat ∧ fl.needsEnthalpy = true)) :
    step fl cpF cvF s i b part id field = .ok (s.push ⟨part, field, .const 0⟩) := by
  simp [step, hd, h, hid]

/-! ## C224: copying fields -/

private theorem copy_inner (k e : ℕ) (src : ℕ → ℝ) : ∀ (m b : ℕ) (d : ℕ → ℝ) (j : ℕ),
    (List.range' b m).foldl (fun d i => fun j => if j = k * e + i then src (k * e + i) else d j) d j =
      if k * e + b ≤ j ∧ j < k * e + b + m then src j else d j := by
  intro m
  induction m with
  | zero => intro b d j; simp
  | succ m ih =>
    intro b d j
    rw [List.range'_succ, List.foldl_cons, ih]
    by_cases h : j = k * e + b
    · subst h; simp
    · by_cases h2 : k * e + (b + 1) ≤ j ∧ j < k * e + (b + 1) + m
      · rw [if_pos h2, if_pos (by omega)]
      · rw [if_neg h2, if_neg h, if_neg (by omega)]

/-- **C224** When the end of the copied range is the number of components of the field - as in every use - the components from the begin on of every
entity are copied, and nothing else changes. -/
theorem c224_copy (length b e : ℕ) (src dst : ℕ → ℝ) (k i : ℕ) (hi : i < e) :
    copyField length b e src dst (k * e + i) = if k < length ∧ b ≤ i then src (k * e + i) else dst (k * e + i) := by
  rw [copyField]
  induction length with
  | zero => simp
  | succ len ih =>
    rw [List.range_succ, List.foldl_append, List.foldl_cons, List.foldl_nil, copy_inner]
    rcases Nat.lt_trichotomy k len with h | h | h
    · have h1 : (k + 1) * e ≤ len * e := Nat.mul_le_mul_right e h
      have h2 : (k + 1) * e = k * e + e := Nat.succ_mul k e
      rw [if_neg (by omega), ih]
      have : k < len + 1 := by omega
      simp [h, this]
    · subst h
      by_cases hb : b ≤ i
      · rw [if_pos (by omega), if_pos ⟨by omega, hb⟩]
      · rw [if_neg (by omega), ih]
        simp [hb]
    · have h1 : (len + 1) * e ≤ k * e := Nat.mul_le_mul_right e h
      have h2 : (len + 1) * e = len * e + e := Nat.succ_mul len e
      rw [if_neg (by omega), ih]
      have a1 : ¬ k < len := by omega
      have a2 : ¬ k < len + 1 := by omega
      simp [a1, a2]

/-- **C224** (partial: other ranges) The stride between entities is the end of the range, not the number of components: copying the first of two
components reads and writes the second component of the first entity as if it were the first component of the second. -/
theorem c224_wrong_stride_partial (src dst : ℕ → ℝ) : copyField 2 0 1 src dst 1 = src 1 ∧ copyField 2 0 1 src dst 2 = dst 2 := by
  constructor <;> simp [copyField, List.range_succ]

end Nalu.MatProps
