import Verif.Spec.MatProps
import Mathlib.Tactic.FieldSimp
import Mathlib.Tactic.Ring
import Mathlib.Tactic.Linarith
import Mathlib.Tactic.SplitIfs

namespace Nalu.MatProps
variable {F N : Type*}

/-! ## The step: errors, constants, writes -/

theorem step_error (fl : Flags) (cpF cvF : F) (s : St F) (i : ℕ) (b : Block) (part : ℕ) (id : PropId) (field : F) :
    (∃ e, step fl cpF cvF s i b part id field = .error e) ↔ Bad fl b id := by
  rcases fl with ⟨ne, un, iso, gd, ac⟩
  simp only [step, Bad]
  cases b.data id with
  | none => simp
  | some k =>
    cases k with
    | constant v sp =>
      cases ne <;> cases un <;> cases gd <;> cases ac <;> cases sp <;> cases id <;> simp
    | mixFrac a c => cases id <;> simp
    | vof a c => simp
    | polynomial => cases iso <;> cases id <;> simp
    | idealGas => cases un <;> cases iso <;> cases ac <;> cases id <;> simp
    | geometric => simp
    | table p a => simp
    | generic w => cases w <;> simp
    | unset => simp

/-- What a step leaves of the constants: each is either untouched or the block's value (if it has one). -/
theorem step_consts {fl : Flags} {cpF cvF : F} {s s' : St F} {i : ℕ} {b : Block} {part : ℕ} {id : PropId} {field : F}
    (h : step fl cpF cvF s i b part id field = .ok s') :
    (s'.pRef = s.pRef ∨ s'.pRef = b.pRef.getD s.pRef) ∧ (s'.tRef = s.tRef ∨ s'.tRef = b.tRef.getD s.tRef) ∧
      (s'.gasR = s.gasR ∨ s'.gasR = b.gasR.getD s.gasR) ∧ (s'.hdf = s.hdf ∨ s'.hdf = some (s.hdf.getD b.tableFile)) := by
  rcases fl with ⟨ne, un, iso, gd, ac⟩
  simp only [step] at h
  cases hd : b.data id with
  | none => simp [hd] at h
  | some k =>
    cases k with
    | constant v sp =>
      cases ne <;> cases un <;> cases gd <;> cases ac <;> cases sp <;> cases id <;>
        simp [hd, St.push, St.setEval, St.exT, St.exR, extract] at h <;> (try subst h) <;> simp
    | mixFrac a c => cases id <;> simp [hd, St.push] at h <;> subst h <;> simp
    | vof a c => simp [hd, St.push] at h; subst h; simp
    | polynomial =>
      cases iso <;> cases id <;> simp [hd, St.push, St.setEval, St.exT, St.exR, extract] at h <;> (try subst h) <;> simp
    | idealGas =>
      cases un <;> cases iso <;> cases ac <;> cases gd <;> cases id <;>
        simp [hd, St.push, St.setEval, St.exT, St.exR, St.exP, extract] at h <;> (try subst h) <;> simp
    | geometric => simp [hd, St.push] at h; subst h; simp
    | table p a => simp [hd, St.push] at h; subst h; simp
    | generic w =>
      cases w with
      | none => simp [hd] at h
      | some w => cases w <;> simp [hd, St.push, St.setEval] at h <;> subst h <;> simp
    | unset => simp [hd] at h; subst h; simp

theorem sumLoop_eq {n : ℕ} (f : Fin n → ℝ) : Verif.Thermo.sumLoop f = ∑ k, f k := by
  rw [Verif.Thermo.sumLoop, ← List.foldl_map (f := f) (g := fun s x => s + x), ← List.sum_eq_foldl, ← List.ofFn_eq_map, List.sum_ofFn]

/-- The constants in force for block `b` when the state is `s`. -/
def St.consts (s : St F) (b : Block) : Consts := ⟨b.pRef.getD s.pRef, b.tRef.getD s.tRef, b.gasR.getD s.gasR⟩

variable [DecidableEq F]

theorem evaluate_append (lib : Lib N) (block : ℕ → Block) (on : ℕ → N → Bool) (a l : List (Alg F)) (x : F → N → ℝ) :
    evaluate lib block on (a ++ l) x = evaluate lib block on l (evaluate lib block on a x) := by
  simp [evaluate]

theorem evaluate_cons (lib : Lib N) (block : ℕ → Block) (on : ℕ → N → Bool) (a : Alg F) (l : List (Alg F)) (x : F → N → ℝ) :
    evaluate lib block on (a :: l) x = evaluate lib block on l (Alg.exec lib block on x a) := rfl

theorem evaluate_nil (lib : Lib N) (block : ℕ → Block) (on : ℕ → N → Bool) (x : F → N → ℝ) : evaluate lib block on [] x = x := rfl

/-- A step changes field `f` at node `n` exactly if its part contains `n` and its field is `f`, and then to the wanted value. -/
theorem step_eval {fl : Flags} {cpF cvF : F} {s s' : St F} {i : ℕ} {b : Block} {part : ℕ} {id : PropId} {field : F}
    (h : step fl cpF cvF s i b part id field = .ok s') (lib : Lib N) (block : ℕ → Block) (on : ℕ → N → Bool) (hb : block i = b) (x : F → N → ℝ)
    (f : F) (n : N) (hg : id = .gamma → f ≠ cpF ∧ f ≠ cvF) (hf : field = f → on part n = true → ∀ file, s.hdf = some file → (∃ p a, b.data id = some (.table p a)) → file = b.tableFile) :
    evaluate lib block on s'.algs x f n =
      if field = f ∧ on part n = true then (wanted fl lib (s.consts b) i b id n).getD (evaluate lib block on s.algs x f n)
      else evaluate lib block on s.algs x f n := by
  rcases fl with ⟨ne, un, iso, gd, ac⟩
  subst hb
  by_cases hc : field = f ∧ on part n = true
  · rw [if_pos hc]
    obtain ⟨rfl, hc'⟩ := hc
    simp only [step] at h
    cases hd : (block i).data id with
    | none => simp [hd] at h
    | some k =>
      cases k with
      | constant v sp =>
        cases ne <;> cases un <;> cases gd <;> cases ac <;> cases sp <;> cases id <;>
          simp [hd, St.push, St.setEval, St.exT, St.exR, extract] at h <;> subst h <;>
          first
          | simp [evaluate_append, evaluate_cons, evaluate_nil, Alg.exec, Rule.value, Eval.run, wanted, hd, hc']; done
          | (have hg' := hg rfl
             skip
             simp [evaluate_append, evaluate_cons, evaluate_nil, Alg.exec, Rule.value, Eval.run, wanted, hd, hc', hg'])
      | mixFrac a c =>
        cases id <;> simp [hd, St.push] at h <;> subst h <;>
          simp [evaluate_append, evaluate_cons, evaluate_nil, Alg.exec, Rule.value, wanted, hd, hc', div_eq_mul_inv]
      | vof a c => simp [hd, St.push] at h; subst h; simp [evaluate_append, evaluate_cons, evaluate_nil, Alg.exec, Rule.value, wanted, hd, hc']
      | polynomial =>
        cases iso <;> cases un <;> cases id <;> simp [hd, St.push, St.setEval, St.exT, St.exR, extract] at h <;> (try subst h) <;>
          simp [evaluate_append, evaluate_cons, evaluate_nil, Alg.exec, Rule.value, Eval.run, wanted, hd, hc', St.consts]
      | idealGas =>
        cases un <;> cases iso <;> cases ac <;> cases gd <;> cases id <;>
          simp [hd, St.push, St.setEval, St.exT, St.exR, St.exP, extract] at h <;> (try subst h) <;>
          simp [evaluate_append, evaluate_cons, evaluate_nil, Alg.exec, Rule.value, Eval.run, wanted, hd, hc', St.consts, Verif.Thermo.idealGasDensity,
            Verif.Thermo.computeMw, sumLoop_eq, div_eq_mul_inv] <;> first | ring | (left; ring)
      | geometric => simp [hd, St.push] at h; subst h; simp [evaluate_append, evaluate_cons, evaluate_nil, Alg.exec, Rule.value, wanted, hd, hc']
      | table p a =>
        simp [hd, St.push] at h; subst h
        have : s.hdf.getD (block i).tableFile = (block i).tableFile := by
          cases hh : s.hdf with
          | none => rfl
          | some file => exact hf rfl hc' file hh ⟨p, a, hd⟩
        simp [evaluate_append, evaluate_cons, evaluate_nil, Alg.exec, Rule.value, wanted, hd, hc', this]
      | generic w =>
        cases w with
        | none => simp [hd] at h
        | some w => cases w <;> simp [hd, St.push, St.setEval] at h <;> subst h <;>
            simp [evaluate_append, evaluate_cons, evaluate_nil, Alg.exec, Rule.value, Eval.run, wanted, hd, hc']
      | unset => simp [hd] at h; subst h; simp [wanted, hd]
  · have hc' : ¬ (f = field ∧ on part n = true) := fun h => hc ⟨h.1.symm, h.2⟩
    rw [if_neg hc]
    simp only [step] at h
    cases hd : (block i).data id with
    | none => simp [hd] at h
    | some k =>
      cases k with
      | constant v sp =>
        cases ne <;> cases un <;> cases gd <;> cases ac <;> cases sp <;> cases id <;>
          simp [hd, St.push, St.setEval, St.exT, St.exR, extract] at h <;> subst h <;>
          first
          | simp [evaluate_append, evaluate_cons, evaluate_nil, Alg.exec, hc']; done
          | (have hg' := hg rfl
             skip
             simp [evaluate_append, evaluate_cons, evaluate_nil, Alg.exec, hc', hg'])
      | mixFrac a c => cases id <;> simp [hd, St.push] at h <;> subst h <;> simp [evaluate_append, evaluate_cons, evaluate_nil, Alg.exec, hc']
      | vof a c => simp [hd, St.push] at h; subst h; simp [evaluate_append, evaluate_cons, evaluate_nil, Alg.exec, hc']
      | polynomial =>
        cases iso <;> cases un <;> cases id <;> simp [hd, St.push, St.setEval, St.exT, St.exR, extract] at h <;> (try subst h) <;>
          simp [evaluate_append, evaluate_cons, evaluate_nil, Alg.exec, hc']
      | idealGas =>
        cases un <;> cases iso <;> cases ac <;> cases gd <;> cases id <;>
          simp [hd, St.push, St.setEval, St.exT, St.exR, St.exP, extract] at h <;> (try subst h) <;>
          simp [evaluate_append, evaluate_cons, evaluate_nil, Alg.exec, hc']
      | geometric => simp [hd, St.push] at h; subst h; simp [evaluate_append, evaluate_cons, evaluate_nil, Alg.exec, hc']
      | table p a => simp [hd, St.push] at h; subst h; simp [evaluate_append, evaluate_cons, evaluate_nil, Alg.exec, hc']
      | generic w =>
        cases w with
        | none => simp [hd] at h
        | some w => cases w <;> simp [hd, St.push, St.setEval] at h <;> subst h <;> simp [evaluate_append, evaluate_cons, evaluate_nil, Alg.exec, hc']
      | unset => simp [hd] at h; subst h; rfl

/-- Off its part a step changes nothing, whatever the field. -/
theorem step_off {fl : Flags} {cpF cvF : F} {s s' : St F} {i : ℕ} {b : Block} {part : ℕ} {id : PropId} {field : F}
    (h : step fl cpF cvF s i b part id field = .ok s') (lib : Lib N) (block : ℕ → Block) (on : ℕ → N → Bool) (x : F → N → ℝ)
    (f : F) (n : N) (ho : on part n = false) :
    evaluate lib block on s'.algs x f n = evaluate lib block on s.algs x f n := by
  rcases fl with ⟨ne, un, iso, gd, ac⟩
  simp only [step] at h
  cases hd : b.data id with
  | none => simp [hd] at h
  | some k =>
    cases k with
    | constant v sp =>
      cases ne <;> cases un <;> cases gd <;> cases ac <;> cases sp <;> cases id <;>
        simp [hd, St.push, St.setEval, St.exT, St.exR, extract] at h <;> subst h <;>
        simp [evaluate_append, evaluate_cons, evaluate_nil, Alg.exec, ho]
    | mixFrac a c => cases id <;> simp [hd, St.push] at h <;> subst h <;> simp [evaluate_append, evaluate_cons, evaluate_nil, Alg.exec, ho]
    | vof a c => simp [hd, St.push] at h; subst h; simp [evaluate_append, evaluate_cons, evaluate_nil, Alg.exec, ho]
    | polynomial =>
      cases iso <;> cases un <;> cases id <;> simp [hd, St.push, St.setEval, St.exT, St.exR, extract] at h <;> (try subst h) <;>
        simp [evaluate_append, evaluate_cons, evaluate_nil, Alg.exec, ho]
    | idealGas =>
      cases un <;> cases iso <;> cases ac <;> cases gd <;> cases id <;>
        simp [hd, St.push, St.setEval, St.exT, St.exR, St.exP, extract] at h <;> (try subst h) <;>
        simp [evaluate_append, evaluate_cons, evaluate_nil, Alg.exec, ho]
    | geometric => simp [hd, St.push] at h; subst h; simp [evaluate_append, evaluate_cons, evaluate_nil, Alg.exec, ho]
    | table p a => simp [hd, St.push] at h; subst h; simp [evaluate_append, evaluate_cons, evaluate_nil, Alg.exec, ho]
    | generic w =>
      cases w with
      | none => simp [hd] at h
      | some w => cases w <;> simp [hd, St.push, St.setEval] at h <;> subst h <;>
          simp [evaluate_append, evaluate_cons, evaluate_nil, Alg.exec, ho]
    | unset => simp [hd] at h; subst h; rfl

/-! ## The loops -/

omit [DecidableEq F] in
theorem run_cons_ok {fl : Flags} {cpF cvF : F} {v : Visit F} {l : List (Visit F)} {s s' : St F} (h : run fl cpF cvF (v :: l) s = .ok s') :
    ∃ s1, step fl cpF cvF s v.i v.b v.part v.id v.field = .ok s1 ∧ run fl cpF cvF l s1 = .ok s' := by
  simp only [run] at h
  cases h1 : step fl cpF cvF s v.i v.b v.part v.id v.field with
  | error e => rw [h1] at h; exact absurd h (by simp)
  | ok s1 => rw [h1] at h; exact ⟨s1, rfl, h⟩

omit [DecidableEq F] in
theorem run_append_ok {fl : Flags} {cpF cvF : F} {l l' : List (Visit F)} {s s' : St F} (h : run fl cpF cvF (l ++ l') s = .ok s') :
    ∃ s1, run fl cpF cvF l s = .ok s1 ∧ run fl cpF cvF l' s1 = .ok s' := by
  induction l generalizing s with
  | nil => exact ⟨s, rfl, h⟩
  | cons v l ih =>
    obtain ⟨s1, h1, h2⟩ := run_cons_ok h
    obtain ⟨s2, h3, h4⟩ := ih h2
    exact ⟨s2, by simp only [run, h1, h3], h4⟩

omit [DecidableEq F] in
theorem run_error (fl : Flags) (cpF cvF : F) (l : List (Visit F)) (s : St F) :
    (∃ e, run fl cpF cvF l s = .error e) ↔ ∃ v ∈ l, Bad fl v.b v.id := by
  induction l generalizing s with
  | nil => simp [run]
  | cons v l ih =>
    have h := step_error fl cpF cvF s v.i v.b v.part v.id v.field
    simp only [run, List.mem_cons, exists_eq_or_imp]
    cases h1 : step fl cpF cvF s v.i v.b v.part v.id v.field with
    | error e => simp only [h1] at h; exact iff_of_true ⟨e, rfl⟩ (Or.inl (h.1 ⟨e, rfl⟩))
    | ok s1 =>
      have hn : ¬ Bad fl v.b v.id := by
        rw [← h, h1]; rintro ⟨e, he⟩; exact absurd he (by simp)
      simp only [hn, false_or]
      exact ih s1

/-- `x'` is `x`, or was given by one of the blocks of `l`. -/
def From {T : Type*} (g : Block → Option T) (l : List (Visit F)) (x x' : T) : Prop := x' = x ∨ ∃ v ∈ l, g v.b = some x'

omit [DecidableEq F] in
theorem run_consts {fl : Flags} {cpF cvF : F} {l : List (Visit F)} {s s' : St F} (h : run fl cpF cvF l s = .ok s') :
    From (fun b => b.pRef) l s.pRef s'.pRef ∧ From (fun b => b.tRef) l s.tRef s'.tRef ∧ From (fun b => b.gasR) l s.gasR s'.gasR ∧
      ∀ file, s'.hdf = some file → s.hdf = some file ∨ ∃ v ∈ l, v.b.tableFile = file := by
  induction l generalizing s with
  | nil =>
    simp only [run] at h
    cases h
    exact ⟨Or.inl rfl, Or.inl rfl, Or.inl rfl, fun _ h => Or.inl h⟩
  | cons v l ih =>
    obtain ⟨s1, h1, h2⟩ := run_cons_ok h
    obtain ⟨c1, c2, c3, c4⟩ := step_consts h1
    obtain ⟨d1, d2, d3, d4⟩ := ih h2
    have key : ∀ (g : Block → Option ℝ) (x x1 x' : ℝ), (x1 = x ∨ x1 = (g v.b).getD x) → From g l x1 x' → From g (v :: l) x x' := by
      intro g x x1 x' hc hd
      rcases hd with rfl | ⟨w, hw, hg⟩
      · rcases hc with rfl | hc
        · exact Or.inl rfl
        · cases hv : g v.b with
          | none => rw [hv] at hc; exact Or.inl hc
          | some y => rw [hv] at hc; exact Or.inr ⟨v, List.mem_cons_self, by rw [hv, hc]; rfl⟩
      · exact Or.inr ⟨w, List.mem_cons_of_mem _ hw, hg⟩
    refine ⟨key _ _ _ _ c1 d1, key _ _ _ _ c2 d2, key _ _ _ _ c3 d3, fun file hf => ?_⟩
    rcases d4 file hf with h | ⟨w, hw, hg⟩
    · rcases c4 with c | c
      · exact Or.inl (c ▸ h)
      · rw [c] at h
        cases hs : s.hdf with
        | none => rw [hs] at h; exact Or.inr ⟨v, List.mem_cons_self, by simpa using h⟩
        | some y => rw [hs] at h; exact Or.inl h
    · exact Or.inr ⟨w, List.mem_cons_of_mem _ hw, hg⟩

theorem run_off {fl : Flags} {cpF cvF : F} {l : List (Visit F)} {s s' : St F} (h : run fl cpF cvF l s = .ok s') (lib : Lib N)
    (block : ℕ → Block) (on : ℕ → N → Bool) (x : F → N → ℝ) (f : F) (n : N) (ho : ∀ v ∈ l, on v.part n = false) :
    evaluate lib block on s'.algs x f n = evaluate lib block on s.algs x f n := by
  induction l generalizing s with
  | nil => simp only [run] at h; cases h; rfl
  | cons v l ih =>
    obtain ⟨s1, h1, h2⟩ := run_cons_ok h
    rw [ih h2 fun w hw => ho w (List.mem_cons_of_mem _ hw), step_off h1 lib block on x f n (ho v List.mem_cons_self)]

omit [DecidableEq F] in
theorem step_consts_block {fl : Flags} {cpF cvF : F} {s s' : St F} {i : ℕ} {b : Block} {part : ℕ} {id : PropId} {field : F}
    (h : step fl cpF cvF s i b part id field = .ok s') : s'.consts b = s.consts b := by
  obtain ⟨c1, c2, c3, -⟩ := step_consts h
  have key : ∀ (o : Option ℝ) (x x' : ℝ), (x' = x ∨ x' = o.getD x) → o.getD x' = o.getD x := by
    intro o x x' hx
    cases o with
    | none => rcases hx with rfl | rfl <;> rfl
    | some y => rfl
  simp only [St.consts]
  rw [key _ _ _ c1, key _ _ _ c2, key _ _ _ c3]

/-- The visits of one block. -/
theorem run_block {fl : Flags} {cpF cvF : F} {l : List (Visit F)} {s s' : St F} (h : run fl cpF cvF l s = .ok s') (lib : Lib N)
    (block : ℕ → Block) (on : ℕ → N → Bool) (x : F → N → ℝ) {i : ℕ} {b : Block} (hb : block i = b) (hl : ∀ v ∈ l, v.i = i ∧ v.b = b)
    (f : F) (n : N) (id : PropId) (hid : ∀ v ∈ l, v.field = f → v.id = id) (hg : ∀ v ∈ l, v.id = .gamma → f ≠ cpF ∧ f ≠ cvF)
    (hf : (∃ p a, b.data id = some (.table p a)) → ∀ file, s.hdf = some file → file = b.tableFile) :
    ((∃ v ∈ l, v.field = f ∧ on v.part n = true) →
      evaluate lib block on s'.algs x f n = (wanted fl lib (s.consts b) i b id n).getD (evaluate lib block on s.algs x f n)) ∧
    ((¬ ∃ v ∈ l, v.field = f ∧ on v.part n = true) → evaluate lib block on s'.algs x f n = evaluate lib block on s.algs x f n) := by
  induction l generalizing s with
  | nil =>
    simp only [run] at h; cases h
    exact ⟨fun ⟨v, hv, _⟩ => absurd hv (by simp), fun _ => rfl⟩
  | cons v l ih =>
    obtain ⟨s1, h1, h2⟩ := run_cons_ok h
    obtain ⟨e1, e2⟩ := hl v List.mem_cons_self
    have hs := step_eval h1 lib block on (by rw [e1, e2]; exact hb) x f n (fun hv => hg v List.mem_cons_self hv) (fun hvf _ file hfile ht =>
      by rw [e2] at ht ⊢; rw [hid v List.mem_cons_self hvf] at ht; exact hf ht file hfile)
    have hc : s1.consts b = s.consts b := by rw [← e2]; exact step_consts_block h1
    obtain ⟨i1, i2⟩ := ih h2 (fun w hw => hl w (List.mem_cons_of_mem _ hw)) (fun w hw => hid w (List.mem_cons_of_mem _ hw))
      (fun w hw => hg w (List.mem_cons_of_mem _ hw)) (fun ht file hfile => by
        obtain ⟨-, -, -, c4⟩ := step_consts h1
        rcases c4 with c | c
        · exact hf ht file (c ▸ hfile)
        · rw [c, e2] at hfile
          cases hh : s.hdf with
          | none => rw [hh] at hfile; simpa using hfile.symm
          | some y => rw [hh] at hfile; exact hf ht file (hh.trans hfile))
    rw [hc] at i1
    by_cases hv : v.field = f ∧ on v.part n = true
    · rw [if_pos hv, e1, e2, hid v List.mem_cons_self hv.1] at hs
      refine ⟨fun _ => ?_, fun hn => absurd ⟨v, List.mem_cons_self, hv⟩ hn⟩
      by_cases hr : ∃ w ∈ l, w.field = f ∧ on w.part n = true
      · rw [i1 hr, hs]
        cases wanted fl lib (s.consts b) i b id n <;> rfl
      · rw [i2 hr, hs]
    · rw [if_neg hv] at hs
      constructor
      · rintro ⟨w, hw, hwf⟩
        rcases List.mem_cons.1 hw with rfl | hw
        · exact absurd hwf hv
        · rw [i1 ⟨w, hw, hwf⟩, hs]
      · intro hn
        rw [i2 fun ⟨w, hw, hwf⟩ => hn ⟨w, List.mem_cons_of_mem _ hw, hwf⟩, hs]

/-! ## The list of visits -/

/-- The visits of one block. -/
def blockVisits (pm : PropId → Option F) (i : ℕ) (b : Block) : List (Visit F) :=
  b.targets.flatMap fun t => (pmList pm).map fun p => ⟨i, b, t, p.1, p.2⟩

omit [DecidableEq F] in
theorem mem_pmList (pm : PropId → Option F) (id : PropId) (f : F) : (id, f) ∈ pmList pm ↔ pm id = some f := by
  have hall : ∀ id : PropId, id ∈ PropId.all := by intro id; cases id <;> simp [PropId.all]
  simp only [pmList, List.mem_filterMap, Option.map_eq_some_iff, Prod.mk.injEq]
  constructor
  · rintro ⟨id', -, f', h, rfl, rfl⟩; exact h
  · intro h; exact ⟨id, hall id, f, h, rfl, rfl⟩

omit [DecidableEq F] in
theorem mem_blockVisits (pm : PropId → Option F) (i : ℕ) (b : Block) (v : Visit F) :
    v ∈ blockVisits pm i b ↔ v.i = i ∧ v.b = b ∧ v.part ∈ b.targets ∧ pm v.id = some v.field := by
  simp only [blockVisits, List.mem_flatMap, List.mem_map, Prod.exists]
  constructor
  · rintro ⟨t, ht, id, f, hp, rfl⟩
    exact ⟨rfl, rfl, ht, (mem_pmList pm id f).1 hp⟩
  · rintro ⟨h1, h2, h3, h4⟩
    exact ⟨v.part, h3, v.id, v.field, (mem_pmList pm _ _).2 h4, by cases v; simp_all⟩

omit [DecidableEq F] in
theorem visits_split (pm : PropId → Option F) (pre : List Block) (b : Block) (post : List Block) :
    ∃ A B : List (Visit F), visits pm (pre ++ b :: post) = A ++ blockVisits pm pre.length b ++ B ∧
      (∀ v ∈ A, v.b ∈ pre ∧ v.part ∈ v.b.targets) ∧ ∀ v ∈ B, v.b ∈ post ∧ v.part ∈ v.b.targets := by
  refine ⟨visits pm pre, (post.zipIdx (pre.length + 1)).flatMap fun bi => blockVisits pm bi.2 bi.1, ?_, ?_, ?_⟩
  · simp [visits, List.zipIdx_append, List.zipIdx_cons, blockVisits]
  · intro v hv
    obtain ⟨bi, h1, h2⟩ := List.mem_flatMap.1 hv
    obtain ⟨-, h3, h4, -⟩ := (mem_blockVisits pm bi.2 bi.1 v).1 h2
    exact ⟨h3 ▸ List.fst_mem_of_mem_zipIdx h1, h3 ▸ h4⟩
  · intro v hv
    obtain ⟨bi, h1, h2⟩ := List.mem_flatMap.1 hv
    obtain ⟨-, h3, h4, -⟩ := (mem_blockVisits pm bi.2 bi.1 v).1 h2
    exact ⟨h3 ▸ List.fst_mem_of_mem_zipIdx h1, h3 ▸ h4⟩

end Nalu.MatProps
