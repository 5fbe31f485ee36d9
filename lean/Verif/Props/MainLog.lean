import Mathlib.Tactic.IntervalCases
import Mathlib.Tactic.Linarith
import Mathlib.Data.Nat.Log
import Mathlib.Data.List.Lex
import Verif.Model.MainLog

/-!
# C340–C342: log file names, output streams, post-processing input
-/

namespace Nalu.MainLog

open Nalu.Parse

/-! ### C340: names and the fate of the input file -/

theorem rfindDot_none : ∀ s : Str, '.' ∉ s → rfindDot s = none := by
  intro s
  induction s with
  | nil => intro _; rfl
  | cons c s ih =>
    intro h
    simp only [List.mem_cons, not_or] at h
    simp only [rfindDot, ih h.2]
    rw [if_neg (Ne.symm h.1)]

theorem rfindDot_split (b e : Str) (h : '.' ∉ e) : rfindDot (b ++ '.' :: e) = some b.length := by
  induction b with
  | nil => simp [rfindDot, rfindDot_none e h]
  | cons c b ih => simp [rfindDot, ih]

/-- Every name has no dot or splits at its last one. -/
theorem split_last (s : Str) : '.' ∉ s ∨ ∃ b e, s = b ++ '.' :: e ∧ '.' ∉ e := by
  induction s with
  | nil => left; simp
  | cons c s ih =>
    rcases ih with h | ⟨b, e, rfl, h⟩
    · by_cases hc : c = '.'
      · right; exact ⟨[], s, by simp [hc], h⟩
      · left
        simp only [List.mem_cons, not_or]
        exact ⟨fun h => hc h.symm, h⟩
    · right; exact ⟨c :: b, e, rfl, h⟩

/-- C340: without `--log-file` the extension of the input file is replaced by `.log`; the base name is the name without it. -/
theorem c340_extension_replaced (b e : Str) (h : '.' ∉ e) : names (b ++ '.' :: e) none = (b, b ++ ".log".toList) := by
  simp [names, rfindDot_split b e h]

/-- C340: a name without a dot gets `.log` appended. -/
theorem c340_no_extension (s : Str) (h : '.' ∉ s) : names s none = (s, s ++ ".log".toList) := by
  simp [names, rfindDot_none s h]

/-- C340: with `--log-file` that name is used, and the base name is empty instead of being derived from the input file. -/
theorem c340_log_file_given (s l : Str) : names s (some l) = ([], l) := rfl

/-- C340, defect: the last dot may belong to the directory. Inputs without extension in such a directory lose their file name, so
different inputs write the same log file. -/
theorem c340_directory_dot (d f g : Str) (hf : '.' ∉ f) (hg : '.' ∉ g) :
    names (d ++ '.' :: '/' :: f) none = (d, d ++ ".log".toList) ∧
    names (d ++ '.' :: '/' :: f) none = names (d ++ '.' :: '/' :: g) none := by
  have h1 := c340_extension_replaced d ('/' :: f) (by simp [hf])
  have h2 := c340_extension_replaced d ('/' :: g) (by simp [hg])
  exact ⟨h1, h1.trans h2.symm⟩

example : names "../run".toList none = (".".toList, "..log".toList) := by decide
example : names "run.v2.i".toList none = ("run.v2".toList, "run.v2.log".toList) := by decide

/-- C340: the log file has the name of the input file exactly if the extension of the input file is `log`. -/
theorem c340_same_name_iff (input : Str) : (names input none).2 = input ↔ ∃ b, input = b ++ ".log".toList := by
  rcases split_last input with h | ⟨b, e, rfl, h⟩
  · rw [c340_no_extension _ h]
    constructor
    · intro e
      have := congrArg List.length e
      simp at this
    · rintro ⟨b, rfl⟩
      exact absurd (by simp) h
  · rw [c340_extension_replaced b e h]
    constructor
    · intro e; exact ⟨b, e.symm⟩
    · rintro ⟨b', he⟩
      have h1 : rfindDot (b ++ '.' :: e) = some b.length := rfindDot_split b e h
      rw [he, show (".log".toList : Str) = '.' :: ['l', 'o', 'g'] from rfl, rfindDot_split b' _ (by decide)] at h1
      have hl : b'.length = b.length := Option.some.inj h1
      have := List.append_inj_left he.symm hl
      rw [he, this]

/-- C340: an existing input file is read as it is if the log file has another name; the log file is emptied, no other file is
touched. -/
theorem c340_input_read (input : Str) (logFile : Option Str) (fs : Files) (t : Str) (h : fs input = some t)
    (hn : (names input logFile).2 ≠ input) :
    (start false false input logFile fs).1 = .document t ∧
    (start false false input logFile fs).2 (names input logFile).2 = some [] ∧
    ∀ g, g ≠ (names input logFile).2 → (start false false input logFile fs).2 g = fs g := by
  simp only [start, Bool.or_self, Bool.false_eq_true, if_false, h]
  refine ⟨?_, by simp, fun g hg => by simp [Function.update_of_ne hg]⟩
  rw [Function.update_of_ne (Ne.symm hn), h, Option.getD_some]

/-- C340, defect: an input file whose extension is `log` is destroyed before it is read: the program sees an empty document. -/
theorem c340_input_destroyed (b : Str) (fs : Files) (t : Str) (h : fs (b ++ ".log".toList) = some t) :
    start false false (b ++ ".log".toList) none fs = (.document [], Function.update fs (b ++ ".log".toList) (some [])) := by
  have hn := (c340_same_name_iff (b ++ ".log".toList)).2 ⟨b, rfl⟩
  simp only [start, Bool.or_self, Bool.false_eq_true, if_false, h]
  rw [hn]
  simp

/-- C340, defect: a missing input file ends the program with the code of success; no file is touched. -/
theorem c340_missing_input (hlp v : Bool) (input : Str) (logFile : Option Str) (fs : Files) (h : fs input = none) :
    start hlp v input logFile fs = (.exit 0, fs) := by
  unfold start
  split
  · rfl
  · rw [h]

/-- C340: `--help` and `--version` touch no file. -/
theorem c340_help (hlp v : Bool) (hv : hlp = true ∨ v = true) (input : Str) (logFile : Option Str) (fs : Files) :
    start hlp v input logFile fs = (.exit 0, fs) := by
  unfold start
  rw [if_pos (by simpa using hv)]

/-! ### C341: parallel logs -/

theorem dec_length (n : ℕ) : (dec n).length = Nat.log 10 n + 1 := by
  induction n using Nat.strong_induction_on with
  | _ n ih =>
    unfold dec
    split
    · rename_i h; simp [Nat.log_of_lt h]
    · rename_i h
      rw [List.length_append, ih _ (by omega), Nat.log_of_one_lt_of_le (by norm_num) (by omega : 10 ≤ n)]
      simp

/-- C341: with at least two processes the ranks are written with as many places as the largest rank has digits. -/
theorem c341_places (p : ℕ) (hp : 2 ≤ p) : numPlaces p = some ((dec (p - 1)).length : ℤ) := by
  unfold numPlaces
  rw [if_neg (by omega), dec_length]
  congr 1
  have h1 : ((p : ℝ) - 1) = ((p - 1 : ℕ) : ℝ) := by rw [Nat.cast_sub (by omega)]; simp
  have h2 : (10 : ℝ) = ((10 : ℕ) : ℝ) := by norm_num
  rw [Int.floor_add_one, h1, h2, Real.floor_logb_natCast (by positivity), Int.log_natCast]
  push_cast
  rfl

/-- C341, defect: with a single process the number of places is the conversion of minus infinity. -/
theorem c341_one_process (log : Str) (r : ℕ) : parName log 1 r = none := by simp [parName, numPlaces]

/-- Digits in a field of fixed width. -/
def fw : ℕ → ℕ → Str
  | 0, _ => []
  | w + 1, n => fw w (n / 10) ++ [Nat.digitChar (n % 10)]

theorem fw_length (w n : ℕ) : (fw w n).length = w := by
  induction w generalizing n with
  | zero => rfl
  | succ w ih => simp [fw, ih]

theorem fw_zero (w : ℕ) : fw w 0 = List.replicate w '0' := by
  induction w with
  | zero => rfl
  | succ w ih => simp only [fw, Nat.zero_div, ih, List.replicate_succ']; rfl

theorem padded_eq (w n : ℕ) (h : (dec n).length ≤ w) : padded (w : ℤ) n = fw w n := by
  induction w generalizing n with
  | zero => rw [dec_length] at h; omega
  | succ w ih =>
    by_cases hn : n < 10
    · have hd : dec n = [Nat.digitChar n] := by unfold dec; rw [if_pos hn]
      simp only [padded, hd, fw, Nat.mod_eq_of_lt hn, Nat.div_eq_of_lt hn, fw_zero]
      simp
    · have hd : dec n = dec (n / 10) ++ [Nat.digitChar (n % 10)] := by conv_lhs => unfold dec; rw [if_neg hn]
      rw [hd] at h
      simp only [List.length_append, List.length_singleton, Nat.add_le_add_iff_right] at h
      have := ih (n / 10) h
      simp only [padded, Int.toNat_natCast] at this ⊢
      rw [fw, ← this, hd]
      simp

theorem digit_lt {a b : ℕ} (ha : a < b) (hb : b < 10) : Nat.digitChar a < Nat.digitChar b := by
  have : ∀ b : Fin 10, ∀ a : Fin 10, a < b → Nat.digitChar a < Nat.digitChar b := by decide
  exact this ⟨b, hb⟩ ⟨a, by omega⟩ ha

theorem lex_append {a b : Str} (h : List.Lex (· < ·) a b) (hl : a.length = b.length) (x y : Str) :
    List.Lex (· < ·) (a ++ x) (b ++ y) := by
  induction h with
  | nil => simp at hl
  | rel h => exact .rel h
  | cons _ ih => exact .cons (ih (by simpa using hl))

theorem lex_prefix (s : Str) {x y : Str} (h : List.Lex (· < ·) x y) : List.Lex (· < ·) (s ++ x) (s ++ y) := by
  induction s with
  | nil => exact h
  | cons c s ih => exact .cons ih

theorem fw_lex (w : ℕ) : ∀ r s, r < s → s < 10 ^ w → List.Lex (· < ·) (fw w r) (fw w s) := by
  induction w with
  | zero => intro r s h1 h2; simp at h2; omega
  | succ w ih =>
    intro r s h1 h2
    have hs : s / 10 < 10 ^ w := by rw [pow_succ] at h2; omega
    rcases Nat.lt_or_ge (r / 10) (s / 10) with h | h
    · exact lex_append (ih _ _ h hs) (by rw [fw_length, fw_length]) _ _
    · have he : r / 10 = s / 10 := le_antisymm (Nat.div_le_div_right h1.le) h
      rw [fw, fw, he]
      exact lex_prefix _ (.rel (digit_lt (by omega) (Nat.mod_lt _ (by norm_num))))

theorem rank_fits (p r : ℕ) (hr : r < p) : (dec r).length ≤ (dec (p - 1)).length := by
  rw [dec_length, dec_length]
  have := Nat.log_mono_right (b := 10) (by omega : r ≤ p - 1)
  omega

theorem parName_eq (log : Str) (p r : ℕ) (hp : 2 ≤ p) (hr : r < p) :
    parName log p r = some (log ++ ['.'] ++ dec p ++ ['.'] ++ fw (dec (p - 1)).length r) := by
  simp only [parName, c341_places p hp, Option.map_some, padded_eq _ _ (rank_fits p r hr)]

/-- C341: with at least two processes the parallel logs are called `<log>.<number of processes>.<rank>` with the rank filled up
with zeros, all with the same length, and sort in the order of the ranks; so no two processes write the same file. -/
theorem c341_names_sorted (log : Str) (p r s : ℕ) (hp : 2 ≤ p) (hrs : r < s) (hs : s < p) :
    ∃ a b z, parName log p r = some a ∧ parName log p s = some b ∧ a.length = b.length ∧
      List.Lex (· < ·) a b ∧ a ≠ b ∧ a = log ++ ['.'] ++ dec p ++ ['.'] ++ List.replicate z '0' ++ dec r := by
  refine ⟨_, _, (dec (p - 1)).length - (dec r).length, parName_eq log p r hp (by omega), parName_eq log p s hp hs, ?_, ?_, ?_, ?_⟩
  · simp [fw_length]
  · refine lex_prefix _ (fw_lex _ r s hrs ?_)
    have : s < 10 ^ (Nat.log 10 (p - 1) + 1) := lt_of_le_of_lt (by omega : s ≤ p - 1) (Nat.lt_pow_succ_log_self (by norm_num) _)
    rwa [dec_length]
  · intro h
    have hl := List.append_cancel_left h
    have h2 := fw_lex (dec (p - 1)).length r s hrs (by
      rw [dec_length]
      exact lt_of_le_of_lt (by omega : s ≤ p - 1) (Nat.lt_pow_succ_log_self (by norm_num) _))
    rw [hl] at h2
    exact List.lt_irrefl _ h2
  · rw [← padded_eq _ _ (rank_fits p r (by omega))]
    simp [padded]

example : parName "a.log".toList 12 3 = some "a.log.12.03".toList := by
  have h1 : dec 12 = ['1', '2'] := by simp [dec, Nat.digitChar]
  have h2 : dec (12 - 1) = ['1', '1'] := by simp [dec, Nat.digitChar]
  rw [parName_eq _ 12 3 (by norm_num) (by norm_num), h1, h2]
  simp [fw, Nat.digitChar]

/-- What has been sent to one sink. -/
theorem run_sink (log : Str) (pprint : Bool) (p : ℕ) (S : Sink) (hS : S ≠ .nowhere) (l : List Write) : ∀ w : World,
    run log pprint p w l S = w S ++ (l.filter fun a => sink log pprint p a.rank a.stream = some S).flatMap Write.text := by
  induction l with
  | nil => intro w; simp [run]
  | cons a l ih =>
    intro w
    have h := ih (write log pprint p w a)
    simp only [run, List.foldl_cons] at h ⊢
    rw [h]
    by_cases hs : sink log pprint p a.rank a.stream = some S
    · have : write log pprint p w a S = w S ++ a.text := by
        unfold write; rw [hs]
        cases S with
        | nowhere => exact absurd rfl hS
        | file n => simp
        | stdout r => simp
      rw [this, List.filter_cons_of_pos (by simpa using hs)]
      simp
    · have : write log pprint p w a S = w S := by
        unfold write
        cases hse : sink log pprint p a.rank a.stream with
        | none => rfl
        | some s =>
          cases s with
          | nowhere => rfl
          | file n => exact Function.update_of_ne (fun he => hs (by rw [hse, he])) _ _
          | stdout r => exact Function.update_of_ne (fun he => hs (by rw [hse, he])) _ _
      rw [this, List.filter_cons_of_neg (by simpa using hs)]

/-- C341: the log file holds what the first process wrote with `naluOutputP0`, and what it wrote to `std::cout`, in that order, and
nothing else, whatever the other processes do in between. -/
theorem c341_log_contents (log : Str) (pprint : Bool) (p : ℕ) (w : World) (l : List Write) :
    run log pprint p w l (.file log) =
      w (.file log) ++ (l.filter fun a => a.rank = 0 ∧ a.stream ≠ .all).flatMap Write.text := by
  rw [run_sink log pprint p _ (by simp)]
  congr 2
  apply List.filter_congr
  intro a _
  simp only [decide_eq_decide]
  unfold sink
  cases hs : a.stream with
  | all =>
    simp only [ne_eq, not_true_eq_false, and_false, iff_false]
    split
    · intro h
      simp only [parName, Option.map_map, Option.map_eq_some_iff, Function.comp_apply, Sink.file.injEq] at h
      obtain ⟨_, _, h⟩ := h
      have := congrArg List.length h
      simp at this
    · simp
  | p0 => by_cases h : a.rank = 0 <;> simp [h]
  | cout => by_cases h : a.rank = 0 <;> simp [h]

/-- C341: with `--pprint` each process has a file of its own holding exactly what it wrote with `naluOutput`. -/
theorem c341_parallel_contents (log : Str) (p : ℕ) (hp : 2 ≤ p) (w : World) (l : List Write) (hl : ∀ a ∈ l, a.rank < p)
    (r : ℕ) (hr : r < p) (n : Str) (hn : parName log p r = some n) :
    run log true p w l (.file n) =
      w (.file n) ++ (l.filter fun a => a.rank = r ∧ a.stream = .all).flatMap Write.text := by
  rw [run_sink log true p _ (by simp)]
  congr 2
  apply List.filter_congr
  intro a ha
  simp only [decide_eq_decide]
  have hlog : log ≠ n := by
    simp only [parName, Option.map_eq_some_iff] at hn
    obtain ⟨_, _, rfl⟩ := hn
    intro h
    have := congrArg List.length h
    simp at this
  unfold sink
  cases hs : a.stream with
  | all =>
    simp only [if_true, and_true, Option.map_eq_some_iff, Sink.file.injEq, exists_eq_right]
    constructor
    · intro h
      by_contra hne
      rcases Nat.lt_or_gt_of_ne hne with hlt | hlt
      · obtain ⟨x, y, _, hx, hy, -, -, hxy, -⟩ := c341_names_sorted log p _ _ hp hlt hr
        rw [h] at hx; rw [hn] at hy
        exact hxy (by rw [← Option.some.inj hx, ← Option.some.inj hy])
      · obtain ⟨x, y, _, hx, hy, -, -, hxy, -⟩ := c341_names_sorted log p _ _ hp hlt (hl a ha)
        rw [hn] at hx; rw [h] at hy
        exact hxy (by rw [← Option.some.inj hx, ← Option.some.inj hy])
    · intro h; rw [h, hn]
  | p0 => by_cases h : a.rank = 0 <;> simp [h, hlog]
  | cout => by_cases h : a.rank = 0 <;> simp [h, hlog]

/-- C341: without `--pprint` what a process writes with `naluOutput` goes to its standard output; with it nothing does. What
other processes than the first write with `naluOutputP0` or to `std::cout` is lost. -/
theorem c341_stdout (log : Str) (p : ℕ) (w : World) (l : List Write) (r : ℕ) :
    run log false p w l (.stdout r) =
      w (.stdout r) ++ (l.filter fun a => a.rank = r ∧ a.stream = .all).flatMap Write.text ∧
    run log true p w l (.stdout r) = w (.stdout r) := by
  constructor
  · rw [run_sink log false p _ (by simp)]
    congr 2
    apply List.filter_congr
    intro a _
    simp only [decide_eq_decide]
    unfold sink
    cases hs : a.stream with
    | all => simp
    | p0 => by_cases h : a.rank = 0 <;> simp [h]
    | cout => by_cases h : a.rank = 0 <;> simp [h]
  · rw [run_sink log true p _ (by simp)]
    have : l.filter (fun a => sink log true p a.rank a.stream = some (.stdout r)) = [] := by
      rw [List.filter_eq_nil_iff]
      intro a _
      simp only [decide_eq_true_eq]
      unfold sink
      cases hs : a.stream with
      | all =>
        simp only [if_true, Option.map_eq_some_iff, not_exists, not_and]
        intro _ _; simp
      | p0 => by_cases h : a.rank = 0 <;> simp [h]
      | cout => by_cases h : a.rank = 0 <;> simp [h]
    rw [this]; simp

/-- Two processes, three messages: the log keeps that of the first process. -/
example : run "a.log".toList false 2 (fun _ => []) [⟨0, .p0, ['x']⟩, ⟨1, .p0, ['y']⟩, ⟨1, .all, ['z']⟩] (.file "a.log".toList) = ['x'] := by
  rw [c341_log_contents]; decide

/-! ### C342: post-processing input -/

/-- The values meant by a node: one for a scalar, one per entry for a sequence, none for `null` and an empty map. -/
inductive Values {α : Type} (conv : String → Option α) : Yaml → List α → Prop
  | one {s : String} {x : α} (h : conv s = some x) : Values conv (.scalar s) [x]
  | many {l : List Yaml} {xs : List α} (h : List.Forall₂ (fun y x => ∃ s, y = .scalar s ∧ conv s = some x) l xs) :
      Values conv (.seq l) xs
  | null : Values conv .null []
  | empty : Values conv (.map []) []

theorem mapM_option_iff {α β : Type} (f : α → Option β) (l : List α) : ∀ r : List β,
    l.mapM f = some r ↔ List.Forall₂ (fun a b => f a = some b) l r := by
  induction l with
  | nil => intro r; cases r <;> simp
  | cons a l ih =>
    intro r
    rw [List.mapM_cons]
    simp only [Option.bind_eq_bind, Option.bind_eq_some_iff, Option.pure_def, Option.some.injEq]
    constructor
    · rintro ⟨b, h1, bs, h2, rfl⟩
      exact .cons h1 ((ih bs).1 h2)
    · intro h
      cases h with
      | cons h1 h2 => exact ⟨_, h1, _, (ih _).2 h2, rfl⟩

theorem oneOrMany_iff {α : Type} (conv : String → Option α) (y : Yaml) (r : List α) :
    oneOrMany conv y = some r ↔ Values conv y r := by
  constructor
  · intro h
    cases y with
    | null => simp only [oneOrMany, Option.some.injEq] at h; rw [← h]; exact .null
    | scalar s =>
      simp only [oneOrMany, Option.map_eq_some_iff] at h
      obtain ⟨x, hx, rfl⟩ := h
      exact .one hx
    | seq l =>
      simp only [oneOrMany] at h
      refine .many (((mapM_option_iff _ l r).1 h).imp ?_)
      intro a b hab
      cases a <;> simp at hab ⊢
      exact hab
    | map l =>
      cases l with
      | nil => simp only [oneOrMany, Option.some.injEq] at h; rw [← h]; exact .empty
      | cons a l => simp [oneOrMany] at h
  · intro h
    cases h with
    | one h => simp [oneOrMany, h]
    | null => rfl
    | empty => rfl
    | many h =>
      simp only [oneOrMany]
      refine (mapM_option_iff _ _ r).2 (h.imp ?_)
      rintro a b ⟨s, rfl, hs⟩
      exact hs

section
variable (num : String → Option ℝ) (intOf : String → Option ℤ)

/-- C342: one item is accepted exactly if type, physics, output file and target are given and everything given converts; the
frequency defaults to ten and the parameters to none, a single parameter or target may be written without a list. -/
theorem c342_item (item : List (String × Yaml)) (d : PPData) : loadPP num intOf item = some d ↔
    lookup "type" item = some (.scalar d.type) ∧ lookup "physics" item = some (.scalar d.physics) ∧
    lookup "output_file_name" item = some (.scalar d.outputFileName) ∧
    ((lookup "frequency" item = none ∧ d.frequency = 10) ∨
      ∃ s, lookup "frequency" item = some (.scalar s) ∧ intOf s = some d.frequency) ∧
    ((lookup "parameters" item = none ∧ d.parameters = []) ∨
      ∃ y, lookup "parameters" item = some y ∧ Values num y d.parameters) ∧
    ∃ y, lookup "target_name" item = some y ∧ Values some y d.targetNames := by
  have str : ∀ (k s : String), (∃ y, lookup k item = some y ∧ asStr y = some s) ↔ lookup k item = some (.scalar s) := by
    intro k s
    cases h : lookup k item with
    | none => simp
    | some y => cases y <;> simp [asStr]
  obtain ⟨t, ph, f, fr, pa, tn⟩ := d
  unfold loadPP
  simp only [Option.bind_eq_bind, Option.bind_eq_some_iff, Option.some.injEq, PPData.mk.injEq, str]
  have fr' : freqOf intOf (lookup "frequency" item) = some fr ↔
      ((lookup "frequency" item = none ∧ fr = 10) ∨ ∃ s, lookup "frequency" item = some (.scalar s) ∧ intOf s = some fr) := by
    cases h : lookup "frequency" item with
    | none => simp [freqOf, eq_comm]
    | some y => cases y <;> simp [freqOf]
  have pa' : paramsOf num (lookup "parameters" item) = some pa ↔
      ((lookup "parameters" item = none ∧ pa = []) ∨ ∃ y, lookup "parameters" item = some y ∧ Values num y pa) := by
    cases h : lookup "parameters" item with
    | none => simp [paramsOf, eq_comm]
    | some y => simp [paramsOf, oneOrMany_iff]
  have tn' : targetsOf (lookup "target_name" item) = some tn ↔ ∃ y, lookup "target_name" item = some y ∧ Values some y tn := by
    cases h : lookup "target_name" item with
    | none => simp [targetsOf]
    | some y => simp [targetsOf, oneOrMany_iff]
  rw [← fr', ← pa', ← tn']
  clear fr' pa' tn'
  constructor
  · rintro ⟨t', h1, p', h2, f', h3, q', h4, a', h5, n', h6, rfl, rfl, rfl, rfl, rfl, rfl⟩
    exact ⟨h1, h2, h3, h4, h5, h6⟩
  · rintro ⟨h1, h2, h3, h4, h5, h6⟩
    exact ⟨t, h1, ph, h2, f, h3, fr, h4, pa, h5, tn, h6, rfl, rfl, rfl, rfl, rfl, rfl⟩

/-- C342: the block may be missing; otherwise it is accepted exactly if every item is, and gives one entry per item in order. -/
theorem c342_block (items : Option (List (List (String × Yaml)))) (ds : List PPData) :
    loadAllPP num intOf items = some ds ↔
      match items with
      | none => ds = []
      | some l => List.Forall₂ (fun item d => loadPP num intOf item = some d) l ds := by
  cases items with
  | none => simp only [loadAllPP, Option.some.injEq]; exact eq_comm
  | some l => exact mapM_option_iff _ l ds

/-- A complete item: one target, default frequency. -/
example : (loadPP num intOf [("type", .scalar "surface"), ("physics", .scalar "surface_force_and_moment"),
    ("output_file_name", .scalar "f.dat"), ("target_name", .scalar "wall")]) =
    some ⟨"surface", "surface_force_and_moment", "f.dat", 10, [], ["wall"]⟩ := by
  rw [c342_item]
  exact ⟨rfl, rfl, rfl, .inl ⟨rfl, rfl⟩, .inl ⟨rfl, rfl⟩, _, rfl, .one rfl⟩

end

end Nalu.MainLog
