import Verif.Model.KernelBuild
import Mathlib.Tactic.Tauto
import Mathlib.Tactic.Common

/-! # C317-C320: kernels of an equation, repository of master elements, sizes -/

namespace Nalu.KernelBuild

/-! ## C317: which kernels an equation gets -/

theorem offerAll_spec (req : Requests) (e : String) (ok : Bool) (offers : List String) : ∀ (log : Log) (ks : List String),
    (offerAll req e ok offers log ks = none ↔ ok = false ∧ ∃ n ∈ offers, requested req e n = true) ∧
    ∀ log' ks', offerAll req e ok offers log ks = some (log', ks') →
      ks' = ks ++ offers.filter (requested req e) ∧ ∀ q, q ∈ log' ↔ q ∈ log ∨ (q.1 = e ∧ q.2 ∈ offers) := by
  induction offers with
  | nil => intro log ks; simp [offerAll]
  | cons n r ih =>
    intro log ks
    have step : ∀ q : String × String, (q ∈ (e, n) :: log ∨ (q.1 = e ∧ q.2 ∈ r)) ↔ (q ∈ log ∨ (q.1 = e ∧ q.2 ∈ n :: r)) := fun q => by
      obtain ⟨a, b⟩ := q
      simp only [List.mem_cons, Prod.mk.injEq]; tauto
    by_cases hn : requested req e n = true
    · cases ok with
      | false =>
        simp only [offerAll, hn]
        refine ⟨by simpa using Or.inl hn, ?_⟩
        intro log' ks' h; simp at h
      | true =>
        have h1 : offerAll req e true (n :: r) log ks = offerAll req e true r ((e, n) :: log) (ks ++ [n]) := by
          simp [offerAll, hn]
        rw [h1]
        obtain ⟨ih1, ih2⟩ := ih ((e, n) :: log) (ks ++ [n])
        refine ⟨by rw [ih1]; simp, ?_⟩
        intro log' ks' h
        obtain ⟨h2, h3⟩ := ih2 log' ks' h
        refine ⟨by rw [h2, List.filter_cons_of_pos hn]; simp, fun q => by rw [h3, step]⟩
    · have hn' : requested req e n = false := by simpa using hn
      have h1 : offerAll req e ok (n :: r) log ks = offerAll req e ok r ((e, n) :: log) ks := by
        simp [offerAll, hn']
      rw [h1]
      obtain ⟨ih1, ih2⟩ := ih ((e, n) :: log) ks
      refine ⟨by rw [ih1]; simp [hn'], ?_⟩
      intro log' ks' h
      obtain ⟨h2, h3⟩ := ih2 log' ks' h
      refine ⟨by rw [h2, List.filter_cons_of_neg (by simp [hn'])], fun q => by rw [h3, step]⟩

theorem namesOk_iff (req : Requests) (e : String) (log : Log) : namesOk req e log = true ↔
    ∃ l, req e = some l ∧ ∀ n ∈ l, (e, n) ∈ log := by
  unfold namesOk
  rcases req e with _ | l <;> simp

/-- What the registration of the interior parts `l` must leave: one algorithm per topology of `l`, on exactly the parts of that topology, each once,
with exactly the offered kernels the user asked for, each once per offer and in the order of the offers. -/
structure Good (req : Requests) (e : String) (offers : List String) (l : List (ℕ × Topo)) (algs : List Alg) : Prop where
  topos : (algs.map Alg.topo).Nodup
  cover : ∀ t, (∃ a ∈ algs, a.topo = t) ↔ ∃ p, (p, t) ∈ l
  parts : ∀ a ∈ algs, a.parts.Nodup ∧ ∀ p, p ∈ a.parts ↔ (p, a.topo) ∈ l
  kernels : ∀ a ∈ algs, a.kernels = offers.filter fun n => match req e with | none => false | some r => decide (n ∈ r)

theorem addPart_topo (t : Topo) (p : ℕ) (a : Alg) : (addPart t p a).topo = a.topo := by unfold addPart; split <;> rfl

theorem addPart_kernels (t : Topo) (p : ℕ) (a : Alg) : (addPart t p a).kernels = a.kernels := by unfold addPart; split <;> rfl

theorem registerPart_good (req : Requests) (e : String) (supported : Topo → Bool) (offers : List String) (l : List (ℕ × Topo)) (st st' : St)
    (p : ℕ) (t : Topo) (hg : Good req e offers l st.algs) (h : registerPart req e supported offers st p t = some st') :
    Good req e offers (l ++ [(p, t)]) st'.algs := by
  obtain ⟨h1, h2, h3, h4⟩ := hg
  unfold registerPart at h
  split at h
  · rename_i hany
    simp only [Option.some.injEq] at h; subst h
    simp only [List.any_eq_true, decide_eq_true_eq] at hany
    have htop : (st.algs.map (addPart t p)).map Alg.topo = st.algs.map Alg.topo := by
      rw [List.map_map]; apply List.map_congr_left; intro a _; exact addPart_topo t p a
    refine ⟨by simpa only [htop] using h1, ?_, ?_, ?_⟩
    · intro u
      have : (∃ a ∈ st.algs.map (addPart t p), a.topo = u) ↔ ∃ a ∈ st.algs, a.topo = u := by
        simp only [List.mem_map]
        constructor
        · rintro ⟨_, ⟨a, ha, rfl⟩, hu⟩; exact ⟨a, ha, by rw [← hu, addPart_topo]⟩
        · rintro ⟨a, ha, hu⟩; exact ⟨_, ⟨a, ha, rfl⟩, by rw [addPart_topo, hu]⟩
      rw [this, h2]
      constructor
      · rintro ⟨q, hq⟩; exact ⟨q, by simp [hq]⟩
      · rintro ⟨q, hq⟩
        simp only [List.mem_append, List.mem_singleton, Prod.mk.injEq] at hq
        rcases hq with hq | ⟨_, hu⟩
        · exact ⟨q, hq⟩
        · obtain ⟨a, ha, hat⟩ := hany
          exact (h2 u).1 ⟨a, ha, by rw [hat, hu]⟩
    · intro b hb
      obtain ⟨a, ha, rfl⟩ := List.mem_map.1 hb
      obtain ⟨hn, hm⟩ := h3 a ha
      rw [addPart_topo]
      unfold addPart
      by_cases hc : a.topo = t ∧ p ∉ a.parts
      · rw [if_pos hc]
        refine ⟨by
          rw [List.nodup_append]
          exact ⟨hn, by simp, fun x hx y hy hxy => hc.2 (by rw [List.mem_singleton] at hy; rw [← hy, ← hxy]; exact hx)⟩, fun q => ?_⟩
        simp only [List.mem_append, List.mem_singleton, hm, Prod.mk.injEq, hc.1, and_true]
      · rw [if_neg hc]
        refine ⟨hn, fun q => ?_⟩
        simp only [List.mem_append, List.mem_singleton, hm, Prod.mk.injEq]
        constructor
        · exact Or.inl
        · rintro (hq | ⟨rfl, hat⟩)
          · exact hq
          · rw [← hm]; by_contra hcc; exact hc ⟨hat, hcc⟩
    · intro b hb
      obtain ⟨a, ha, rfl⟩ := List.mem_map.1 hb
      rw [addPart_kernels]; exact h4 a ha
  · rename_i hany
    have hno : ∀ a ∈ st.algs, a.topo ≠ t := by simpa using hany
    rcases ho : offerAll req e (supported t) offers st.log [] with _ | ⟨log, ks⟩
    · simp [ho] at h
    · simp only [ho] at h
      split at h
      · simp only [Option.some.injEq] at h; subst h
        have hks := ((offerAll_spec req e (supported t) offers st.log []).2 log ks ho).1
        have hnot : ∀ q, (q, t) ∉ l := fun q hq => by
          obtain ⟨a, ha, hat⟩ := (h2 t).2 ⟨q, hq⟩
          exact hno a ha hat
        refine ⟨?_, ?_, ?_, ?_⟩
        · simp only [List.map_append, List.map_cons, List.map_nil]
          rw [List.nodup_append]
          refine ⟨h1, by simp, ?_⟩
          intro x hx y hy hxy
          obtain ⟨a, ha, rfl⟩ := List.mem_map.1 hx
          simp only [List.mem_singleton] at hy
          exact hno a ha (by rw [hxy, hy])
        · intro u
          simp only [List.mem_append, List.mem_singleton, Prod.mk.injEq]
          constructor
          · rintro ⟨a, ha | rfl, hu⟩
            · obtain ⟨q, hq⟩ := (h2 u).1 ⟨a, ha, hu⟩; exact ⟨q, Or.inl hq⟩
            · exact ⟨p, Or.inr ⟨rfl, hu.symm⟩⟩
          · rintro ⟨q, hq | ⟨_, hu⟩⟩
            · obtain ⟨a, ha, hu⟩ := (h2 u).2 ⟨q, hq⟩; exact ⟨a, Or.inl ha, hu⟩
            · exact ⟨_, Or.inr rfl, hu.symm⟩
        · intro b hb
          simp only [List.mem_append, List.mem_singleton] at hb
          rcases hb with hb | rfl
          · obtain ⟨hn, hm⟩ := h3 b hb
            refine ⟨hn, fun q => ?_⟩
            rw [hm]
            simp only [List.mem_append, List.mem_singleton, Prod.mk.injEq]
            constructor
            · exact Or.inl
            · rintro (hq | ⟨_, hu⟩)
              · exact hq
              · exact absurd hu (hno b hb)
          · refine ⟨by simp, fun q => ?_⟩
            simp [hnot]
        · intro b hb
          simp only [List.mem_append, List.mem_singleton] at hb
          rcases hb with hb | rfl
          · exact h4 b hb
          · simp only []; rw [hks, List.nil_append]; rfl
      · simp at h

theorem registerAll_good (req : Requests) (e : String) (supported : Topo → Bool) (offers : List String) (l : List (ℕ × Topo)) :
    ∀ (l0 : List (ℕ × Topo)) (st st' : St), Good req e offers l0 st.algs → registerAll req e supported offers st l = some st' →
    Good req e offers (l0 ++ l) st'.algs := by
  induction l with
  | nil => intro l0 st st' hg h; simp [registerAll] at h; subst h; simpa using hg
  | cons x r ih =>
    intro l0 st st' hg h
    obtain ⟨p, t⟩ := x
    simp only [registerAll] at h
    rcases hr : registerPart req e supported offers st p t with _ | st1
    · simp [hr] at h
    · simp only [hr] at h
      have := ih (l0 ++ [(p, t)]) st1 st' (registerPart_good req e supported offers l0 st st1 p t hg hr) h
      simpa using this

/-- C317: if the registration of the interior parts succeeds, each topology has one algorithm on exactly its parts, with exactly the requested kernels
among those the equation offers. -/
theorem c317_registered (req : Requests) (e : String) (supported : Topo → Bool) (offers : List String) (l : List (ℕ × Topo)) (log : Log) (st : St)
    (h : registerAll req e supported offers ⟨[], log⟩ l = some st) : Good req e offers l st.algs := by
  have := registerAll_good req e supported offers l [] ⟨[], log⟩ st ⟨by simp, by simp, by simp, by simp⟩ h
  simpa using this

/-! ### Acceptance -/

/-- What is checked whenever a new topology is met: the user's list exists, every name of it is offered here or was offered before to an equation of this
type, and the topology is supported if a kernel has to be built. -/
def Accepts (req : Requests) (e : String) (supported : Topo → Bool) (offers : List String) (log0 : Log) (t : Topo) : Prop :=
  ∃ r, req e = some r ∧ (∀ n ∈ r, n ∈ offers ∨ (e, n) ∈ log0) ∧ ((∃ n ∈ r, n ∈ offers) → supported t = true)

theorem registerPart_some (req : Requests) (e : String) (supported : Topo → Bool) (offers : List String) (log0 : Log) (st : St) (p : ℕ) (t : Topo)
    (hlog : ∀ n, (e, n) ∈ st.log ↔ (e, n) ∈ log0 ∨ ((∃ a, a ∈ st.algs) ∧ n ∈ offers)) (hnew : ∀ a ∈ st.algs, a.topo ≠ t) :
    (∃ st', registerPart req e supported offers st p t = some st') ↔ Accepts req e supported offers log0 t := by
  have hany : st.algs.any (fun a => a.topo = t) = false := by simpa using hnew
  unfold registerPart
  simp only [hany, Bool.false_eq_true, if_false]
  obtain ⟨s1, s2⟩ := offerAll_spec req e (supported t) offers st.log []
  have hreq : (∃ n ∈ offers, requested req e n = true) ↔ ∃ r, req e = some r ∧ ∃ n ∈ r, n ∈ offers := by
    unfold requested
    rcases req e with _ | r
    · simp
    · simp only [decide_eq_true_eq, Option.some.injEq, exists_eq_left']
      constructor <;> rintro ⟨n, h1, h2⟩ <;> exact ⟨n, h2, h1⟩
  rcases ho : offerAll req e (supported t) offers st.log [] with _ | ⟨log, ks⟩
  · simp only [reduceCtorEq, exists_false, false_iff]
    obtain ⟨hs, hx⟩ := s1.1 ho
    rw [hreq] at hx
    obtain ⟨r, hr, hx⟩ := hx
    rintro ⟨r', hr', _, h3⟩
    rw [hr] at hr'; simp only [Option.some.injEq] at hr'; subst hr'
    rw [h3 hx] at hs; simp at hs
  · obtain ⟨_, hl⟩ := s2 log ks ho
    have hns : ¬ (supported t = false ∧ ∃ n ∈ offers, requested req e n = true) := by rw [← s1, ho]; simp
    have hok : namesOk req e log = true ↔ Accepts req e supported offers log0 t := by
      rw [namesOk_iff]
      constructor
      · rintro ⟨r, hr, hn⟩
        refine ⟨r, hr, ?_, ?_⟩
        · intro n hnr
          have := hn n hnr
          rw [hl, hlog] at this
          simp only [true_and] at this
          tauto
        · intro hx
          by_contra hc
          exact hns ⟨by simpa using hc, hreq.2 ⟨r, hr, hx⟩⟩
      · rintro ⟨r, hr, hn, _⟩
        refine ⟨r, hr, fun n hnr => ?_⟩
        rw [hl, hlog]
        rcases hn n hnr with h1 | h1
        · exact Or.inr ⟨rfl, h1⟩
        · exact Or.inl (Or.inl h1)
    simp only []
    by_cases hc : namesOk req e log = true
    · simp [hc, hok.1 hc]
    · rw [if_neg hc]
      simp only [reduceCtorEq, exists_false, false_iff]
      exact fun h => hc (hok.2 h)

theorem registerPart_log (req : Requests) (e : String) (supported : Topo → Bool) (offers : List String) (log0 : Log) (st st' : St) (p : ℕ) (t : Topo)
    (hlog : ∀ n, (e, n) ∈ st.log ↔ (e, n) ∈ log0 ∨ ((∃ a, a ∈ st.algs) ∧ n ∈ offers))
    (h : registerPart req e supported offers st p t = some st') :
    (∀ n, (e, n) ∈ st'.log ↔ (e, n) ∈ log0 ∨ ((∃ a, a ∈ st'.algs) ∧ n ∈ offers)) := by
  unfold registerPart at h
  split at h
  · simp only [Option.some.injEq] at h; subst h
    intro n
    rw [hlog]
    simp only [List.mem_map]
    constructor
    · rintro (h1 | ⟨⟨a, ha⟩, h2⟩)
      · exact Or.inl h1
      · exact Or.inr ⟨⟨_, a, ha, rfl⟩, h2⟩
    · rintro (h1 | ⟨⟨_, a, ha, _⟩, h2⟩)
      · exact Or.inl h1
      · exact Or.inr ⟨⟨a, ha⟩, h2⟩
  · rcases ho : offerAll req e (supported t) offers st.log [] with _ | ⟨log, ks⟩
    · simp [ho] at h
    · simp only [ho] at h
      split at h
      · simp only [Option.some.injEq] at h; subst h
        intro n
        have hl := ((offerAll_spec req e (supported t) offers st.log []).2 log ks ho).2 (e, n)
        simp only [] at hl ⊢
        rw [hl, hlog]
        simp only [true_and, List.mem_append, List.mem_singleton]
        constructor
        · rintro ((h1 | ⟨_, h2⟩) | h2)
          · exact Or.inl h1
          · exact Or.inr ⟨⟨_, Or.inr rfl⟩, h2⟩
          · exact Or.inr ⟨⟨_, Or.inr rfl⟩, h2⟩
        · rintro (h1 | ⟨_, h2⟩)
          · exact Or.inl (Or.inl h1)
          · exact Or.inr h2
      · simp at h

/-- C317: the registration succeeds exactly if every topology of the parts is accepted: the user has a list for the equation, its names are offered by the
equation or were logged before, and the topology is supported if there is a kernel to build. -/
theorem c317_accepted_iff (req : Requests) (e : String) (supported : Topo → Bool) (offers : List String) (log0 : Log) (l : List (ℕ × Topo)) :
    (∃ st, registerAll req e supported offers ⟨[], log0⟩ l = some st) ↔ ∀ p t, (p, t) ∈ l → Accepts req e supported offers log0 t := by
  have key : ∀ (l l0 : List (ℕ × Topo)) (st : St), Good req e offers l0 st.algs →
      (∀ p t, (p, t) ∈ l0 → Accepts req e supported offers log0 t) →
      (∀ n, (e, n) ∈ st.log ↔ (e, n) ∈ log0 ∨ ((∃ a, a ∈ st.algs) ∧ n ∈ offers)) →
      ((∃ st', registerAll req e supported offers st l = some st') ↔ ∀ p t, (p, t) ∈ l → Accepts req e supported offers log0 t) := by
    intro l
    induction l with
    | nil => intro l0 st _ _ _; simp [registerAll]
    | cons x r ih =>
      intro l0 st hg hacc hlog
      obtain ⟨p, t⟩ := x
      have hstep : (∃ st', registerPart req e supported offers st p t = some st') ↔ Accepts req e supported offers log0 t := by
        by_cases hnew : ∀ a ∈ st.algs, a.topo ≠ t
        · exact registerPart_some req e supported offers log0 st p t hlog hnew
        · push Not at hnew
          obtain ⟨a, ha, hat⟩ := hnew
          obtain ⟨q, hq⟩ := (hg.cover t).1 ⟨a, ha, hat⟩
          have hany : st.algs.any (fun a => a.topo = t) = true := by simpa using ⟨a, ha, hat⟩
          refine ⟨fun _ => hacc q t hq, fun _ => ?_⟩
          unfold registerPart
          rw [if_pos hany]; exact ⟨_, rfl⟩
      simp only [registerAll]
      rcases hr : registerPart req e supported offers st p t with _ | st1
      · rw [hr] at hstep
        have hno : ¬ Accepts req e supported offers log0 t := by rw [← hstep]; simp
        simp only [reduceCtorEq, exists_false, false_iff, not_forall]
        exact ⟨p, t, by simp, hno⟩
      · rw [hr] at hstep
        have hyes : Accepts req e supported offers log0 t := by rw [← hstep]; exact ⟨_, rfl⟩
        simp only []
        rw [ih (l0 ++ [(p, t)]) st1 (registerPart_good req e supported offers l0 st st1 p t hg hr) ?_
          (registerPart_log req e supported offers log0 st st1 p t hlog hr)]
        · constructor
          · intro h q u hq
            rcases List.mem_cons.1 hq with hq | hq
            · simp only [Prod.mk.injEq] at hq; rw [hq.2]; exact hyes
            · exact h q u hq
          · exact fun h q u hq => h q u (List.mem_cons_of_mem _ hq)
        · intro q u hq
          simp only [List.mem_append, List.mem_singleton, Prod.mk.injEq] at hq
          rcases hq with hq | ⟨_, rfl⟩
          · exact hacc q u hq
          · exact hyes
  exact key l [] ⟨[], log0⟩ ⟨by simp, by simp, by simp, by simp⟩ (by simp) (by simp)

/-- C317: in a run in which no equation of this type was set up before, an accepted list contains offered names only, so every name the user wrote has
its kernel on every topology. -/
theorem c317_every_request_built (req : Requests) (e : String) (supported : Topo → Bool) (offers : List String) (l : List (ℕ × Topo)) (log : Log)
    (hlog : ∀ n, (e, n) ∉ log) (st : St) (h : registerAll req e supported offers ⟨[], log⟩ l = some st) (r : List String) (hr : req e = some r)
    (n : String) (hn : n ∈ r) : ∀ a ∈ st.algs, n ∈ a.kernels := by
  intro a ha
  have hg := c317_registered req e supported offers l log st h
  obtain ⟨p, hp⟩ := (hg.cover a.topo).1 ⟨a, ha, rfl⟩
  obtain ⟨r', hr', hn', _⟩ := (c317_accepted_iff req e supported offers log l).1 ⟨st, h⟩ p a.topo hp
  rw [hr] at hr'; simp only [Option.some.injEq] at hr'; subst hr'
  rw [hg.kernels a ha, hr]
  simp only [List.mem_filter, decide_eq_true_eq]
  exact ⟨(hn' n hn).resolve_right (hlog n), hn⟩

/-- C317, finding: the log of valid names is shared by all realms.  The name of an open-boundary kernel of the mixture fraction, logged by a first realm,
is accepted in the list of interior terms of a second realm, where no kernel of that name is built. -/
theorem c317_accepted_not_built_wrong : ∃ st, registerAll (fun _ => some ["advection_diffusion", "mixture_fraction_open"]) "mixture_fraction" interiorTopo
    ["mixture_fraction_time_derivative", "advection_diffusion"] ⟨[], [("mixture_fraction", "mixture_fraction_open")]⟩ [(0, .hex8)] = some st ∧
    ∀ a ∈ st.algs, "mixture_fraction_open" ∉ a.kernels := by
  refine ⟨_, by simp [registerAll, registerPart, offerAll, requested, interiorTopo, namesOk]; rfl, ?_⟩
  simp

/-- C317, finding: an equation for which the user lists no element terms at all is refused, with a message about invalid names. -/
theorem c317_no_list_refused (req : Requests) (e : String) (supported : Topo → Bool) (offers : List String) (log : Log) (p : ℕ) (t : Topo)
    (l : List (ℕ × Topo)) (h : req e = none) : registerAll req e supported offers ⟨[], log⟩ ((p, t) :: l) = none := by
  by_contra hc
  obtain ⟨st, hst⟩ := Option.ne_none_iff_exists'.1 hc
  obtain ⟨r, hr, _⟩ := (c317_accepted_iff req e supported offers log _).1 ⟨st, hst⟩ p t (by simp)
  rw [h] at hr; simp at hr

example : ∃ st, registerAll (fun _ => some ["advection_diffusion", "NSO_2ND"]) "mixture_fraction" interiorTopo
    ["mixture_fraction_time_derivative", "advection_diffusion", "NSO_2ND"] ⟨[], []⟩ [(0, .hex8), (1, .tet4), (2, .hex8), (0, .hex8)] = some st ∧
    st.algs.map Alg.parts = [[0, 2], [1]] := by
  refine ⟨_, by simp [registerAll, registerPart, offerAll, requested, interiorTopo, namesOk, addPart]; rfl, ?_⟩
  simp

/-! ## C318: sizes the kernels are compiled for -/

/-- C318: every interior kernel is compiled for the sizes of the master elements it is given at run time: for each topology it accepts, both sub-control
elements exist and agree with the traits. -/
theorem c318_interior (t : Topo) : (interiorTopo t = true ↔ surfaceOk t = true ∧ volumeOk t = true) ∧
    (interiorTopo t = true → ∃ k s v, elemTraits t = some k ∧ k.topo = t ∧ surfaceSize t = some s ∧ volumeSize t = some v ∧
      s.nDim = k.nDim ∧ v.nDim = k.nDim ∧ s.nodes = k.nodes ∧ v.nodes = k.nodes ∧ s.ips = k.scsIp ∧ v.ips = k.scvIp) := by
  cases t <;> simp [interiorTopo, surfaceOk, volumeOk, elemTraits, surfaceSize, volumeSize]

/-- C318: the same for finite element kernels. -/
theorem c318_fem (t : Topo) : femTopo t = true → femOk t = true ∧ ∃ k f, elemTraits t = some k ∧ k.topo = t ∧ femSize t = some f ∧
    f.nDim = k.nDim ∧ f.nodes = k.nodes ∧ f.ips = k.gp := by
  cases t <;> simp [femTopo, femOk, elemTraits, femSize]

/-- C318: face kernels are compiled for the sizes of the face's master element. -/
theorem c318_face (t : Topo) (k : FaceTraits) (h : faceTraits t = some k) : k.topo = t ∧
    ((∃ s, surfaceSize t = some s ∧ surfaceOk t = true ∧ s.nDim = k.nDim ∧ s.nodes = k.nodes ∧ s.ips = k.faceIp) ∨
     (∃ s, femSize t = some s ∧ femOk t = true ∧ s.nDim = k.nDim ∧ s.nodes = k.nodes ∧ s.ips = k.faceIp)) := by
  cases t <;> simp [faceTraits] at h <;> subst h <;> simp [surfaceSize, femSize, surfaceOk, femOk]

/-- The topologies of the sides of an element. -/
def sides : Topo → List Topo
  | .hex8 => [.quad4]
  | .hex27 => [.quad9]
  | .tet4 => [.tri3]
  | .tet10 => [.tri6]
  | .pyr5 => [.tri3, .quad4]
  | .wed6 => [.quad4, .tri3]
  | .quad4_2d => [.line2]
  | .quad9_2d => [.line3]
  | .tri3_2d => [.line2]
  | _ => []

/-- C318: a boundary kernel for a face of an element is compiled for exactly that face and that element, and both have traits. -/
theorem c318_face_elem (f e : Topo) (h : f ∈ sides e) : faceElemTraits f e = some (f, e) ∧
    (∃ k, faceTraits f = some k) ∧ ∃ k, elemTraits e = some k := by
  cases e <;> simp [sides] at h
  all_goals first
    | (subst h; simp [faceElemTraits, faceTraits, elemTraits])
    | (rcases h with rfl | rfl <;> simp [faceElemTraits, faceTraits, elemTraits])

/-- C318: a pair of four- or three-noded faces that is not a side of the element is refused; the other face types are not checked, so for a pair that cannot
occur in a mesh a kernel of another element is built. -/
theorem c318_face_elem_checked (f e : Topo) (hf : f = .quad4 ∨ f = .tri3 ∨ f = .tri6) (h : f ∉ sides e) : faceElemTraits f e = none := by
  rcases hf with rfl | rfl | rfl <;> cases e <;> simp [sides] at h <;> rfl

example : faceElemTraits .line2 .quad9_2d = some (.line2, .quad4_2d) ∧ Topo.line2 ∉ sides .quad9_2d := by simp [faceElemTraits, sides]

/-! ## C319: one master element per topology -/

/-- Invariant of the repository: a stored pointer was created for a supported topology and is older than the next address; a null pointer is stored for
unsupported topologies only; no two entries share an object. -/
structure Inv (s : Repo) : Prop where
  stored : ∀ w t i, s.map w t = some (some i) → creates w t = true ∧ i < s.next
  null : ∀ w t, s.map w t = some none → creates w t = false
  inj : ∀ w t w' t' i, s.map w t = some (some i) → s.map w' t' = some (some i) → w = w' ∧ t = t'

theorem inv_init : Inv Repo.init := ⟨by simp [Repo.init], by simp [Repo.init], by simp [Repo.init]⟩

theorem inv_op (s : Repo) (h : Inv s) (o : Op) : Inv (s.op o) := by
  obtain ⟨h1, h2, h3⟩ := h
  cases o with
  | clear => exact ⟨by simp [Repo.op, Repo.clear], by simp [Repo.op, Repo.clear], by simp [Repo.op, Repo.clear]⟩
  | get w t =>
    simp only [Repo.op, Repo.get]
    rcases hm : s.map w t with _ | v
    · simp only []
      split
      · rename_i hc
        refine ⟨?_, ?_, ?_⟩
        · intro w' t' i h
          simp only [] at h
          split at h
          · rename_i he
            simp only [Option.some.injEq] at h
            rw [he.1, he.2]; exact ⟨hc, by simp only []; omega⟩
          · obtain ⟨a, b⟩ := h1 w' t' i h
            exact ⟨a, by simp only []; omega⟩
        · intro w' t' h
          simp only [] at h
          split at h
          · simp at h
          · exact h2 w' t' h
        · intro w1 t1 w2 t2 i ha hb
          simp only [] at ha hb
          split at ha <;> split at hb
          · rename_i e1 e2
            rw [e1.1, e1.2, e2.1, e2.2]; simp
          · simp only [Option.some.injEq] at ha
            have := (h1 w2 t2 i hb).2; omega
          · simp only [Option.some.injEq] at hb
            have := (h1 w1 t1 i ha).2; omega
          · exact h3 w1 t1 w2 t2 i ha hb
      · rename_i hc
        refine ⟨?_, ?_, ?_⟩
        · intro w' t' i h
          simp only [] at h
          split at h
          · simp at h
          · exact h1 w' t' i h
        · intro w' t' h
          simp only [] at h
          split at h
          · rename_i he; rw [he.1, he.2]; simpa using hc
          · exact h2 w' t' h
        · intro w1 t1 w2 t2 i ha hb
          simp only [] at ha hb
          split at ha <;> split at hb <;> first | (exfalso; simp at ha; done) | (exfalso; simp at hb; done) | exact h3 w1 t1 w2 t2 i ha hb
    · exact ⟨h1, h2, h3⟩

theorem inv_ops (l : List Op) : ∀ s, Inv s → Inv (s.ops l) := by
  induction l with
  | nil => intro s h; exact h
  | cons o r ih => intro s h; exact ih _ (inv_op s h o)

theorem get_stored (s : Repo) (w : Which) (t : Topo) : ((s.get w t).2).map w t = some (s.get w t).1 := by
  unfold Repo.get
  rcases hm : s.map w t with _ | v
  · simp only []; split <;> simp
  · simpa using hm

theorem op_keeps (s : Repo) (w : Which) (t : Topo) (v : Option ℕ) (h : s.map w t = some v) (o : Op) (ho : o ≠ Op.clear) :
    (s.op o).map w t = some v := by
  cases o with
  | clear => exact absurd rfl ho
  | get w' t' =>
    simp only [Repo.op, Repo.get]
    rcases hm : s.map w' t' with _ | v'
    · have : ¬ (w = w' ∧ t = t') := by rintro ⟨rfl, rfl⟩; rw [h] at hm; simp at hm
      simp only []
      split <;> simp [this, h]
    · simpa using h

theorem ops_keeps (l : List Op) (w : Which) (t : Topo) (v : Option ℕ) : ∀ s : Repo, s.map w t = some v → Op.clear ∉ l →
    (s.ops l).map w t = some v := by
  induction l with
  | nil => intro s h _; exact h
  | cons o r ih =>
    intro s h hl
    rw [List.mem_cons, not_or] at hl
    exact ih _ (op_keeps s w t v h o (fun e => hl.1 e.symm)) hl.2

/-- C319: after any history a request succeeds exactly if the topology is supported. -/
theorem c319_succeeds_iff (l : List Op) (w : Which) (t : Topo) :
    (∃ i, ((Repo.init.ops l).get w t).1 = some i) ↔ creates w t = true := by
  obtain ⟨h1, h2, _⟩ := inv_ops l _ inv_init
  unfold Repo.get
  rcases hm : (Repo.init.ops l).map w t with _ | v
  · simp only []; split <;> simp_all
  · rcases v with _ | i
    · simp [h2 w t hm]
    · simp [(h1 w t i hm).1]

/-- C319: until the repository is cleared, requests for the same element return the same object. -/
theorem c319_same_object (l l' : List Op) (w : Which) (t : Topo) (hl : Op.clear ∉ l') :
    ((((Repo.init.ops l).get w t).2.ops l').get w t).1 = ((Repo.init.ops l).get w t).1 := by
  have h := ops_keeps l' w t _ _ (get_stored (Repo.init.ops l) w t) hl
  generalize hr : ((Repo.init.ops l).get w t).2.ops l' = s at h
  unfold Repo.get
  rw [h]
  rfl

/-- C319: different elements are different objects, for as long as no clear intervenes. -/
theorem c319_different_objects (l l' : List Op) (w w' : Which) (t t' : Topo) (hl : Op.clear ∉ l') (hne : ¬ (w = w' ∧ t = t')) (i j : ℕ)
    (hi : ((Repo.init.ops l).get w t).1 = some i) (hj : ((((Repo.init.ops l).get w t).2.ops l').get w' t').1 = some j) : i ≠ j := by
  rintro rfl
  have hs := inv_ops l _ inv_init
  have hs1 : Inv ((Repo.init.ops l).get w t).2 := inv_op _ hs (.get w t)
  have hs2 := inv_ops l' _ hs1
  have h := ops_keeps l' w t _ _ (get_stored (Repo.init.ops l) w t) hl
  rw [hi] at h
  have hs3 : Inv ((((Repo.init.ops l).get w t).2.ops l').get w' t').2 := inv_op _ hs2 (.get w' t')
  have h3 : ((((Repo.init.ops l).get w t).2.ops l').get w' t').2.map w t = some (some i) :=
    op_keeps _ w t _ h (.get w' t') (by simp)
  have h4 := get_stored (((Repo.init.ops l).get w t).2.ops l') w' t'
  rw [hj] at h4
  exact hne (hs3.inj _ _ _ _ _ h3 h4)

/-- C319: an object handed out after a clear is new: a pointer kept across a clear is never handed out again. -/
theorem c319_clear_invalidates (l l' : List Op) (w w' : Which) (t t' : Topo) (i j : ℕ)
    (hi : ((Repo.init.ops l).get w t).1 = some i)
    (hj : ((((((Repo.init.ops l).get w t).2).clear).ops l').get w' t').1 = some j) : i < j := by
  have hs := inv_ops l _ inv_init
  have hs1 : Inv ((Repo.init.ops l).get w t).2 := inv_op _ hs (.get w t)
  have hst := get_stored (Repo.init.ops l) w t
  rw [hi] at hst
  have hlt := (hs1.stored w t i hst).2
  have key : ∀ (m : List Op) (s : Repo), (∀ w t k, s.map w t = some (some k) → i < k) → i < s.next →
      (∀ w t k, (s.ops m).map w t = some (some k) → i < k) ∧ i < (s.ops m).next := by
    intro m
    induction m with
    | nil => intro s h h'; exact ⟨h, h'⟩
    | cons o r ih =>
      intro s h h'
      refine ih (s.op o) ?_ ?_
      · intro w1 t1 k hk
        cases o with
        | clear => simp [Repo.op, Repo.clear] at hk
        | get w2 t2 =>
          simp only [Repo.op, Repo.get] at hk
          rcases hm : s.map w2 t2 with _ | v
          · simp only [hm] at hk
            split at hk
            · simp only [] at hk
              split at hk
              · simp only [Option.some.injEq] at hk; omega
              · exact h w1 t1 k hk
            · simp only [] at hk
              split at hk
              · simp at hk
              · exact h w1 t1 k hk
          · simp only [hm] at hk; exact h w1 t1 k hk
      · cases o with
        | clear => exact h'
        | get w2 t2 =>
          simp only [Repo.op, Repo.get]
          rcases hm : s.map w2 t2 with _ | v
          · simp only []; split <;> simp only [] <;> omega
          · exact h'
  obtain ⟨k1, k2⟩ := key (l' ++ [.get w' t']) (((Repo.init.ops l).get w t).2).clear (by simp [Repo.clear]) hlt
  have h4 := get_stored ((((Repo.init.ops l).get w t).2).clear.ops l') w' t'
  rw [hj] at h4
  refine k1 w' t' j ?_
  rw [Repo.ops, List.foldl_append]
  exact h4

example : ((Repo.init.ops [.get .surface .hex8, .get .volume .tet10, .get .surface .quad4]).get .volume .hex8).1 = some 2 := by
  simp [Repo.ops, Repo.op, Repo.get, Repo.init, creates, surfaceOk, volumeOk]

end Nalu.KernelBuild
