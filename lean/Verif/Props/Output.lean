import Verif.Proofs.Output
import Mathlib.Data.Rat.Defs

/-!
# C06, C07, C09: results output, restart output, IO transfers
-/

set_option linter.unusedSectionVars false
set_option linter.unusedSimpArgs false

namespace Nalu.Output

open Nalu.Time

variable {K : Type*} [Field K] [LinearOrder K] [IsStrictOrderedRing K]

/-- Specification: step `n` is a scheduled step for start `start` and frequency `freq`. -/
def Scheduled (start freq n : ℤ) : Prop := start ≤ n ∧ ∃ k : ℤ, n = start + freq * k

/-- Specification: at call `i` some process reports more than `limit` hours of elapsed wall time. -/
def Exceeds (clock : ℕ → Clock K) (limit : K) (i : ℕ) : Prop :=
  ∃ x ∈ (clock i).p0 :: (clock i).others, limit < x / 3600

/-- Specification: call `i` is the first one of the run at which `limit` is exceeded. -/
def FirstExcess (clock : ℕ → Clock K) (limit : K) (i : ℕ) : Prop :=
  Exceeds clock limit i ∧ ∀ j < i, ¬ Exceeds clock limit j

theorem scheduled_iff (start freq n : ℤ) :
    (start ≤ n ∧ (n - start).tmod freq = 0) ↔ Scheduled start freq n := by
  unfold Scheduled
  rw [tmod_zero_iff]
  constructor
  · rintro ⟨h, k, hk⟩; exact ⟨h, k, by linarith⟩
  · rintro ⟨h, k, hk⟩; exact ⟨h, k, by linarith⟩

/-- **C06** Results output schedule.  In every run started in any state with any input deck, the
`i`-th call (call 0 follows the start-up, call `i` ends time step `i`) writes a results step iff the
deck has an output block with nonzero frequency and either the step number is scheduled or the user
gave a forced wall-clock limit and this is the first call of the run that exceeds it.  What is
written is labelled with the current time and step number, and the step number is the initial one
plus `i`. -/
theorem c06_results_schedule (c : Cfg K) (inp : ℕ → List (Courant K)) (s0 : St K) (env : ℕ → Env K)
    (ob : Option (OutputBlock K)) (rb : Option (RestartBlock K)) (i : ℕ) (p : K × ℤ) :
    (writtenAt c inp s0 env (OutputInfo.load ob rb) i).results = some p ↔
      p = ((seen c inp s0 i).currentTime, s0.timeStepCount + i) ∧
      ∃ b, ob = some b ∧ b.frequency.getD 1 ≠ 0 ∧
        (Scheduled (b.start.getD 0) (b.frequency.getD 1) (s0.timeStepCount + i) ∨
          ∃ L, b.forcedWallTime = some L ∧ FirstExcess (fun j => (env j).clockOut) L i) := by
  set info := OutputInfo.load ob rb with hinfo
  obtain ⟨a1,a2,a3,a4,-,-,-,-⟩ := infoAt_fixed c inp s0 env info i
  have hcount := seen_count c inp s0 i
  have key : (provideOutput (infoAt c inp s0 env info i) (seen c inp s0 i).timeStepCount
      (env i).clockOut).2 = true ↔
      ∃ b, ob = some b ∧ b.frequency.getD 1 ≠ 0 ∧
        (Scheduled (b.start.getD 0) (b.frequency.getD 1) (s0.timeStepCount + i) ∨
          ∃ L, b.forcedWallTime = some L ∧ FirstExcess (fun j => (env j).clockOut) L i) := by
    cases ob with
    | none =>
      have h0 : info.hasOutputBlock = false := by
        rw [hinfo]; unfold OutputInfo.load; cases rb <;> rfl
      simp [provideOutput, a1, h0]
    | some b =>
      have h0 : info.hasOutputBlock = true := by
        rw [hinfo]; unfold OutputInfo.load; cases rb <;> rfl
      have h1 : info.outputFreq = b.frequency.getD 1 := by
        rw [hinfo]; unfold OutputInfo.load; cases rb <;> rfl
      have h2 : info.outputStart = b.start.getD 0 := by
        rw [hinfo]; unfold OutputInfo.load; cases rb <;> rfl
      have h3 : info.wallResultsArmed = b.forcedWallTime.isSome := by
        rw [hinfo]; unfold OutputInfo.load; cases rb <;> simp [OutputInfo.default]
      have h4 : info.wallResultsLimit = b.forcedWallTime.getD 1000000 := by
        rw [hinfo]; unfold OutputInfo.load; cases rb <;> rfl
      by_cases hf : b.frequency.getD 1 = 0
      · simp [provideOutput, a1, h0, a2, h1, hf]
      · have harm := infoAt_armed c inp s0 env info h0 (by rw [h1]; exact hf) i
        have hsch := scheduled_iff (b.start.getD 0) (b.frequency.getD 1) (s0.timeStepCount + i)
        simp only [provideOutput, a1, h0, a2, h1, hf, a3, h2, a4, h4, hcount, if_true, if_false,
          Bool.or_eq_true, Bool.and_eq_true, decide_eq_true_eq, hsch, harm, h3, Option.some.injEq,
          exists_eq_left', ne_eq, not_false_eq_true, true_and]
        refine or_congr Iff.rfl ?_
        cases hw : b.forcedWallTime with
        | none => simp
        | some L =>
          simp only [Option.isSome_some, Option.getD_some, true_and, Option.some.injEq,
            exists_eq_left', FirstExcess, Exceeds, lt_hours]
          tauto
  rw [← key]
  unfold writtenAt outputConvergedResults
  simp only [hcount]
  split_ifs with h
  · simp only [Option.some.injEq]
    rw [hcount] at *
    constructor
    · intro hp; exact ⟨hp.symm, h⟩
    · intro hp; exact hp.1.symm
  · rw [hcount] at *
    simp [h]

/-- **C06**, second half: off-schedule results steps (the forced ones) occur at most once in a
run. -/
theorem c06_forced_once (c : Cfg K) (inp : ℕ → List (Courant K)) (s0 : St K) (env : ℕ → Env K)
    (b : OutputBlock K) (rb : Option (RestartBlock K)) (i j : ℕ)
    (hi : (writtenAt c inp s0 env (OutputInfo.load (some b) rb) i).results.isSome)
    (hj : (writtenAt c inp s0 env (OutputInfo.load (some b) rb) j).results.isSome)
    (hi' : ¬ Scheduled (b.start.getD 0) (b.frequency.getD 1) (s0.timeStepCount + i))
    (hj' : ¬ Scheduled (b.start.getD 0) (b.frequency.getD 1) (s0.timeStepCount + j)) : i = j := by
  have aux : ∀ k, (writtenAt c inp s0 env (OutputInfo.load (some b) rb) k).results.isSome →
      ¬ Scheduled (b.start.getD 0) (b.frequency.getD 1) (s0.timeStepCount + k) →
      ∃ L, b.forcedWallTime = some L ∧ FirstExcess (fun j => (env j).clockOut) L k := by
    intro k hk hk'
    obtain ⟨p, hp⟩ := Option.isSome_iff_exists.mp hk
    obtain ⟨-, b', hb', -, h⟩ := (c06_results_schedule c inp s0 env (some b) rb k p).mp hp
    obtain rfl : b = b' := by simpa using hb'
    exact h.resolve_left hk'
  obtain ⟨L, hL, hL1, hL2⟩ := aux i hi hi'
  obtain ⟨L', hL', hM1, hM2⟩ := aux j hj hj'
  obtain rfl : L = L' := by rw [hL] at hL'; simpa using hL'
  rcases lt_trichotomy i j with h | h | h
  · exact absurd hL1 (hM2 i h)
  · exact h
  · exact absurd hM1 (hL2 j h)

/-- **C07** Restart output schedule and content.  The `i`-th call writes a restart record iff the
deck has a restart block with nonzero frequency and the step number is scheduled or this is the
first excess of the user's wall-clock limit; the record holds the current time, the *current* step
size in the slot of the previous step size, the step number and the averaging time. -/
theorem c07_restart_schedule (c : Cfg K) (inp : ℕ → List (Courant K)) (s0 : St K) (env : ℕ → Env K)
    (ob : Option (OutputBlock K)) (rb : Option (RestartBlock K)) (i : ℕ) (r : Restart K) :
    (writtenAt c inp s0 env (OutputInfo.load ob rb) i).restart = some r ↔
      (r.times.time = (seen c inp s0 i).currentTime ∧
        r.times.timeStepNm1 = (seen c inp s0 i).timeStepN ∧
        r.times.timeStepCount = s0.timeStepCount + i ∧ r.timeFilter = (env i).filter) ∧
      ∃ b, rb = some b ∧ b.frequency.getD 500 ≠ 0 ∧
        (Scheduled (b.start.getD 500) (b.frequency.getD 500) (s0.timeStepCount + i) ∨
          ∃ L, b.forcedWallTime = some L ∧ FirstExcess (fun j => (env j).clockRst) L i) := by
  set info := OutputInfo.load ob rb with hinfo
  obtain ⟨-,-,-,-,a1,a2,a3,a4⟩ := infoAt_fixed c inp s0 env info i
  have hcount := seen_count c inp s0 i
  set ii := infoAt c inp s0 env info i with hii
  have pfix : ∀ (x : OutputInfo K) n w, (provideOutput x n w).1.hasRestartBlock = x.hasRestartBlock ∧
      (provideOutput x n w).1.restartFreq = x.restartFreq ∧
      (provideOutput x n w).1.restartStart = x.restartStart ∧
      (provideOutput x n w).1.wallRestartLimit = x.wallRestartLimit ∧
      (provideOutput x n w).1.wallRestartArmed = x.wallRestartArmed := by
    intro x n w; unfold provideOutput; dsimp only; split_ifs <;> simp
  obtain ⟨p1,p2,p3,p4,p5⟩ := pfix ii (seen c inp s0 i).timeStepCount (env i).clockOut
  unfold writtenAt outputConvergedResults
  rw [← hii]
  simp only [provideRestartOutput, p1, p2, p3, p4, p5, a1, a2, a3, a4]
  have hrec : ∀ (P : Prop), (Restart.mk (record (seen c inp s0 i)) (env i).filter = r ∧ P) ↔
      ((r.times.time = (seen c inp s0 i).currentTime ∧
        r.times.timeStepNm1 = (seen c inp s0 i).timeStepN ∧
        r.times.timeStepCount = s0.timeStepCount + i ∧ r.timeFilter = (env i).filter) ∧ P) := by
    intro P
    refine and_congr ?_ Iff.rfl
    rcases r with ⟨⟨t, dt, n⟩, f⟩
    simp only [record, hcount, Restart.mk.injEq, RestartRecord.mk.injEq, and_assoc]
    constructor <;> rintro ⟨h1,h2,h3,h4⟩ <;> exact ⟨h1.symm,h2.symm,h3.symm,h4.symm⟩
  rw [← hrec]
  cases rb with
  | none =>
    have h0 : info.hasRestartBlock = false := by
      rw [hinfo]; unfold OutputInfo.load; cases ob <;> rfl
    simp [h0]
  | some b =>
    have h0 : info.hasRestartBlock = true := by
      rw [hinfo]; unfold OutputInfo.load; cases ob <;> rfl
    have h1 : info.restartFreq = b.frequency.getD 500 := by
      rw [hinfo]; unfold OutputInfo.load; cases ob <;> rfl
    have h2 : info.restartStart = b.start.getD 500 := by
      rw [hinfo]; unfold OutputInfo.load; cases ob <;> rfl
    have h3 : info.wallRestartArmed = b.forcedWallTime.isSome := by
      rw [hinfo]; unfold OutputInfo.load; cases ob <;> simp [OutputInfo.default]
    have h4 : info.wallRestartLimit = b.forcedWallTime.getD 1000000 := by
      rw [hinfo]; unfold OutputInfo.load; cases ob <;> rfl
    by_cases hf : b.frequency.getD 500 = 0
    · simp [h0, h1, hf]
    · have harm := infoAt_armedR c inp s0 env info h0 (by rw [h1]; exact hf) i
      rw [← hii] at harm
      have hsch := scheduled_iff (b.start.getD 500) (b.frequency.getD 500) (s0.timeStepCount + i)
      simp only [h0, h1, hf, h2, h4, hcount, if_true, if_false, Option.ite_none_right_eq_some,
        Bool.or_eq_true, Bool.and_eq_true, decide_eq_true_eq, hsch, harm, h3, Option.some.injEq,
        exists_eq_left', ne_eq, not_false_eq_true, true_and]
      rw [and_comm]
      refine and_congr Iff.rfl (or_congr Iff.rfl ?_)
      cases hw : b.forcedWallTime with
      | none => simp
      | some L =>
        simp only [Option.isSome_some, Option.getD_some, true_and, Option.some.injEq,
          exists_eq_left', FirstExcess, Exceeds, lt_hours]
        tauto

/-- Non-vacuity of C06/C07: start at step 3, frequency 5, limit 2 h exceeded first at call 4: call 4
(step 4) is forced, step 8 is scheduled, step 7 is neither. -/
example :
    let c : Cfg ℚ := ⟨false, 1, 100, true, false, 1⟩
    let s0 : St ℚ := ⟨0, 0, 1, 1, 1, -1, 0⟩
    let env : ℕ → Env ℚ := fun i => ⟨⟨0, [(i : ℚ) * 2000]⟩, ⟨0, [(i : ℚ) * 2000]⟩, none⟩
    let info : OutputInfo ℚ := OutputInfo.load (some ⟨some 5, some 3, some 2⟩)
      (some ⟨some 5, some 3, some 2, none⟩)
    ((List.range 10).map fun i => ((writtenAt c (fun _ => []) s0 env info i).results.isSome,
      (writtenAt c (fun _ => []) s0 env info i).restart.isSome)) =
      [(false,false),(false,false),(false,false),(true,true),(true,true),(false,false),
       (false,false),(false,false),(true,true),(false,false)] := by decide +kernel

/-! ### C09 -/

/-- Specification of C09: in a trace, every results step of a realm that has IO transfers is
preceded by an execution of its IO transfers at the same step number. -/
def Fresh (hasIo : ℕ → Bool) (tr : List (Ev K)) : Prop :=
  ∀ pre k n post, tr = pre ++ Ev.results k n :: post → hasIo k = true → Ev.ioTransfer k n ∈ pre

/-- **C09 is false of the code**: with one realm that has IO transfers, results frequency 2 and
start 1, the results written at step 1 are not preceded by a transfer (the transfers ran at step
0 only). -/
theorem c09_output_not_fresh :
    ∃ (rs : List (RealmIO ℚ)) (n : ℕ) (rs' : List (RealmIO ℚ)) (tr : List (Ev ℚ)),
      ioTrace ⟨false, 1, 100, true, false, 1⟩ (fun _ => []) ⟨0, 0, 1, 1, 1, -1, 0⟩
        (fun _ => ⟨⟨0, []⟩, ⟨0, []⟩, none⟩) rs n = some (rs', tr) ∧
      (∀ r ∈ rs, r.hasIo = true) ∧ ¬ Fresh (fun _ => true) tr := by
  let info : OutputInfo ℚ := OutputInfo.load (some ⟨some 2, some 1, none⟩) none
  refine ⟨[⟨info, true⟩], 1, [⟨info, true⟩], [Ev.ioTransfer 0 0, Ev.results 0 1], ?_, ?_, ?_⟩
  · rfl
  · simp
  · intro h
    have := h [Ev.ioTransfer 0 0] 0 1 [] rfl rfl
    simp at this

/-- Second way C09 fails: an output frequency of zero, which the output routine treats as "no
output", makes the transfer routine divide by zero. -/
theorem c09_zero_frequency_crashes (c : Cfg K) (inp : ℕ → List (Courant K)) (s0 : St K)
    (env : ℕ → Env K) (info : OutputInfo K) (hf : info.outputFreq = 0) (n : ℕ) :
    ioTrace c inp s0 env [⟨info, true⟩] n = none := by
  induction n with
  | zero => simp [ioTrace, ioPass, ioPhase, processIoTransfer, hf]
  | succ n ih => simp [ioTrace, ih]

theorem ioPhase_mem (count : ℤ) (rs : List (RealmIO K)) (k0 : ℕ) (es : List (Ev K))
    (h : ioPhase count k0 rs = some es) (i : ℕ) (hi : i < rs.length) (hio : rs[i].hasIo = true)
    (hm : rs[i].info.outputFreq ∣ count) : Ev.ioTransfer (k0 + i) count ∈ es := by
  induction rs generalizing k0 es i with
  | nil => simp at hi
  | cons r rs ih =>
    simp only [ioPhase] at h
    split at h
    · rename_i b es' hb hes
      simp only [Option.some.injEq] at h
      subst h
      cases i with
      | zero =>
        simp only [List.getElem_cons_zero] at hio hm
        simp only [processIoTransfer, hio, Bool.not_true, Bool.false_eq_true, if_false] at hb
        split_ifs at hb with hf
        simp only [Option.some.injEq] at hb
        have : b = true := by rw [← hb]; simpa using (tmod_zero_iff _ _).mpr hm
        simp [this]
      | succ i =>
        have := ih (k0 + 1) es' hes i (by simpa using hi) (by simpa using hio) (by simpa using hm)
        simp only [List.mem_append]
        right
        have e : k0 + (i + 1) = k0 + 1 + i := by ring
        rw [e]; exact this
    · simp at h

theorem ioPhase_only (count : ℤ) (rs : List (RealmIO K)) (k0 : ℕ) (es : List (Ev K))
    (h : ioPhase count k0 rs = some es) (e : Ev K) (he : e ∈ es) : ∃ k, e = Ev.ioTransfer k count := by
  induction rs generalizing k0 es with
  | nil => simp [ioPhase] at h; subst h; simp at he
  | cons r rs ih =>
    simp only [ioPhase] at h
    split at h
    · rename_i b es' hb hes
      simp only [Option.some.injEq] at h
      subst h
      simp only [List.mem_append] at he
      rcases he with he | he
      · split_ifs at he
        · simp at he; exact ⟨k0, he⟩
        · simp at he
      · exact ih _ _ hes he
    · simp at h

/-- The output phase keeps length, flags, frequencies, starts and disarmed wall clocks. -/
theorem outPhase_realms (s : St K) (e : Env K) (k0 : ℕ) (rs : List (RealmIO K)) :
    (outPhase s e k0 rs).1 =
      rs.map fun r => { r with info := (outputConvergedResults r.info s e).1 } := by
  induction rs generalizing k0 with
  | nil => rfl
  | cons r rs ih => simp [outPhase, ih]

theorem outPhase_results (s : St K) (e : Env K) (k0 : ℕ) (rs : List (RealmIO K)) (k : ℕ) (n : ℤ)
    (h : Ev.results k n ∈ (outPhase s e k0 rs).2) :
    ∃ i, ∃ hi : i < rs.length, k = k0 + i ∧ n = s.timeStepCount ∧
      (provideOutput rs[i].info s.timeStepCount e.clockOut).2 = true := by
  induction rs generalizing k0 with
  | nil => simp [outPhase] at h
  | cons r rs ih =>
    simp only [outPhase, List.mem_append] at h
    rcases h with h | h
    · refine ⟨0, by simp, ?_⟩
      simp only [writtenEvents, outputConvergedResults, List.mem_append] at h
      rcases h with h | h
      · split_ifs at h with hb
        · simp at h; exact ⟨by simp [h.1], h.2, by simpa using hb⟩
        · simp at h
      · split at h <;> simp at h
    · obtain ⟨i, hi, h1, h2, h3⟩ := ih _ h
      exact ⟨i + 1, by simpa using hi, by rw [h1]; ring, h2, by simpa using h3⟩

/-- **C09, the part that holds**: if in every realm with IO transfers the results start is a
multiple of the results frequency and no wall-clock forcing is armed, every results step of any run
(of any number of realms and steps) is preceded by this step's IO transfer.  Missing with respect to
the full property: starts that are not a multiple of the frequency, and forced output. -/
theorem c09_output_fresh_partial (c : Cfg K) (inp : ℕ → List (Courant K)) (s0 : St K)
    (env : ℕ → Env K) (rs : List (RealmIO K)) (hasIo : ℕ → Bool)
    (hio : ∀ i (hi : i < rs.length), rs[i].hasIo = hasIo i)
    (hal : ∀ r ∈ rs, r.hasIo = true →
      r.info.outputFreq ∣ r.info.outputStart ∧ r.info.wallResultsArmed = false)
    (n : ℕ) (rs' : List (RealmIO K)) (tr : List (Ev K))
    (h : ioTrace c inp s0 env rs n = some (rs', tr)) : Fresh hasIo tr := by
  -- one pass is fresh
  have pass : ∀ (rs : List (RealmIO K)), (∀ i (hi : i < rs.length), rs[i].hasIo = hasIo i) →
      (∀ r ∈ rs, r.hasIo = true →
        r.info.outputFreq ∣ r.info.outputStart ∧ r.info.wallResultsArmed = false) →
      ∀ s e rs' es, ioPass s e rs = some (rs', es) → Fresh hasIo es ∧
        (∀ i (hi : i < rs'.length), rs'[i].hasIo = hasIo i) ∧
        (∀ r ∈ rs', r.hasIo = true →
          r.info.outputFreq ∣ r.info.outputStart ∧ r.info.wallResultsArmed = false) := by
    intro rs hio hal s e rs' es hp
    unfold ioPass at hp
    split at hp
    · simp at hp
    · rename_i es1 hes1
      simp only [Option.some.injEq, Prod.mk.injEq] at hp
      obtain ⟨h1, h2⟩ := hp
      refine ⟨?_, ?_, ?_⟩
      · intro pre k m post htr hk
        have hmem : Ev.results k m ∈ es1 ++ (outPhase s e 0 rs).2 := by rw [h2, htr]; simp
        rw [List.mem_append] at hmem
        rcases hmem with hmem | hmem
        · obtain ⟨k', hk'⟩ := ioPhase_only _ _ _ _ hes1 _ hmem; simp at hk'
        · obtain ⟨i, hi, hk0, hm, hw⟩ := outPhase_results _ _ _ _ _ _ hmem
          have hioi : rs[i].hasIo = true := by rw [hio i hi, ← hk, hk0]; simp
          obtain ⟨hd, ha⟩ := hal _ (List.getElem_mem hi) hioi
          have hdvd : rs[i].info.outputFreq ∣ s.timeStepCount := by
            unfold provideOutput at hw
            dsimp only at hw
            split_ifs at hw with g1 g2 g3
            · simp [ha] at g3
            · simp [ha] at hw
              have := (tmod_zero_iff _ _).mp hw.2
              have := dvd_add this hd
              simpa using this
          have hin := ioPhase_mem _ _ _ _ hes1 i hi hioi hdvd
          -- the transfer event lies in `es1`, the results event in the output phase
          have hpre : es1 <+: pre := by
            have hsplit : es1 ++ (outPhase s e 0 rs).2 = pre ++ Ev.results k m :: post := by
              rw [h2, htr]
            rcases List.append_eq_append_iff.mp hsplit with ⟨as, hpre, -⟩ | ⟨bs, hbs, hrest⟩
            · exact ⟨as, hpre.symm⟩
            · cases bs with
              | nil => exact ⟨[], by simpa using hbs⟩
              | cons b bs =>
                exfalso
                have hb : b = Ev.results k m := by
                  simp only [List.cons_append, List.cons.injEq] at hrest; exact hrest.1.symm
                obtain ⟨k', hk'⟩ := ioPhase_only _ _ _ _ hes1 b (by rw [hbs]; simp)
                rw [hb] at hk'; simp at hk'
          subst hm
          have : Ev.ioTransfer (0 + i) s.timeStepCount ∈ pre := hpre.subset hin
          rw [hk0]; exact this
      · intro i hi
        subst h1
        simp only [outPhase_realms, List.getElem_map]
        have : i < rs.length := by simpa [outPhase_realms] using hi
        exact hio i this
      · intro r hr hrio
        subst h1
        simp only [outPhase_realms, List.mem_map] at hr
        obtain ⟨r0, hr0, rfl⟩ := hr
        obtain ⟨f1,f2,f3,f4,-⟩ := ocr_fixed r0.info s e
        obtain ⟨hd, ha⟩ := hal r0 hr0 hrio
        refine ⟨by simp only; rw [f2, f3]; exact hd, ?_⟩
        simp only; rw [ocr_armed, ha]; rfl
  -- concatenation of fresh traces
  have fapp : ∀ a b : List (Ev K), Fresh hasIo a → Fresh hasIo b → Fresh hasIo (a ++ b) := by
    intro a b ha hb pre k m post htr hk
    rcases List.append_eq_append_iff.mp htr with ⟨as, hpre, hb'⟩ | ⟨bs, hbs, hrest⟩
    · rw [hpre]; exact List.mem_append_right _ (hb as k m post hb' hk)
    · cases bs with
      | nil =>
        have hbs' : a = pre := by simpa using hbs
        have := hb [] k m post (by simpa using hrest.symm) hk
        simp at this
      | cons b' bs =>
        simp only [List.cons_append, List.cons.injEq] at hrest
        have := ha pre k m bs (by rw [hbs, ← hrest.1]) hk
        exact this
  have main : ∀ n rs' tr, ioTrace c inp s0 env rs n = some (rs', tr) → Fresh hasIo tr ∧
        (∀ i (hi : i < rs'.length), rs'[i].hasIo = hasIo i) ∧
        (∀ r ∈ rs', r.hasIo = true →
          r.info.outputFreq ∣ r.info.outputStart ∧ r.info.wallResultsArmed = false) := by
    intro n
    induction n with
    | zero => intro rs' tr h; exact pass rs hio hal _ _ _ _ h
    | succ n ih =>
      intro rs' tr h
      simp only [ioTrace] at h
      split at h
      · simp at h
      · rename_i rs1 es1 h1
        split at h
        · simp at h
        · rename_i rs2 es2 h2
          simp only [Option.some.injEq, Prod.mk.injEq] at h
          obtain ⟨rfl, rfl⟩ := h
          obtain ⟨i1, i2, i3⟩ := ih _ _ h1
          obtain ⟨j1, j2, j3⟩ := pass rs1 i2 i3 _ _ _ _ h2
          exact ⟨fapp _ _ i1 j1, j2, j3⟩
  exact (main n rs' tr h).1

/-- Non-vacuity of `c09_output_fresh_partial`: start 4, frequency 2, with results at steps 4 and 6. -/
example :
    let info : OutputInfo ℚ := OutputInfo.load (some ⟨some 2, some 4, none⟩) none
    (∀ r ∈ [(⟨info, true⟩ : RealmIO ℚ)], r.hasIo = true →
      r.info.outputFreq ∣ r.info.outputStart ∧ r.info.wallResultsArmed = false) ∧
    (ioTrace ⟨false, 1, 100, true, false, 1⟩ (fun _ => []) ⟨0, 0, 1, 1, 1, -1, 0⟩
        (fun _ => ⟨⟨0, []⟩, ⟨0, []⟩, none⟩) [⟨info, true⟩] 6).map Prod.snd =
      some [Ev.ioTransfer 0 0, Ev.ioTransfer 0 2, Ev.ioTransfer 0 4, Ev.results 0 4,
        Ev.ioTransfer 0 6, Ev.results 0 6] := by
  constructor
  · simp [OutputInfo.load, OutputInfo.default]
  · rfl

end Nalu.Output
