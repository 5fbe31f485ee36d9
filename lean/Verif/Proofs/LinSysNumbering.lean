import Verif.Model.LinSys
import Mathlib.Data.List.Sort
import Mathlib.Data.List.Nodup
import Mathlib.Tactic.Ring
import Mathlib.Tactic.Linarith

set_option linter.unusedSectionVars false
set_option linter.unusedSimpArgs false

namespace Verif.LinSys

theorem mem_uniq : ∀ (l : List ℕ) (x : ℕ), x ∈ uniq l ↔ x ∈ l
  | [], x => by simp [uniq]
  | [a], x => by simp [uniq]
  | a :: b :: l, x => by
    have ih := mem_uniq (b :: l) x
    rw [uniq]
    split
    · rename_i h
      subst h
      rw [ih]
      simp
    · rw [List.mem_cons, ih]
      simp

theorem uniq_sorted : ∀ (l : List ℕ), l.Pairwise (· ≤ ·) → (uniq l).Pairwise (· < ·)
  | [], _ => by simp [uniq]
  | [a], _ => by simp [uniq]
  | a :: b :: l, h => by
    have h2 := List.pairwise_cons.1 h
    have ih := uniq_sorted (b :: l) h2.2
    rw [uniq]
    split
    · exact ih
    · rename_i hab
      refine List.pairwise_cons.2 ⟨?_, ih⟩
      intro x hx
      rw [mem_uniq] at hx
      have hle := h2.1 b (by simp)
      rcases List.mem_cons.1 hx with rfl | hx
      · omega
      · have := (List.pairwise_cons.1 h2.2).1 x hx
        omega

theorem mem_sortedIds (l : List ℕ) (x : ℕ) : x ∈ sortedIds l ↔ x ∈ l := by
  simp [sortedIds, mem_uniq]

theorem sortedIds_lt (l : List ℕ) : (sortedIds l).Pairwise (· < ·) := by
  exact uniq_sorted _ (List.pairwise_insertionSort (· ≤ ·) l)

theorem sortedIds_nodup (l : List ℕ) : (sortedIds l).Nodup :=
  (sortedIds_lt l).imp (fun h => by omega)

theorem sortedIds_length_of_nodup (l : List ℕ) (h : l.Nodup) : (sortedIds l).length = l.length :=
  ((List.perm_ext_iff_of_nodup (sortedIds_nodup l) h).2 (mem_sortedIds l)).length_eq

/-- gids pushed for a list of ids -/
def gidsOf (numDof : ℕ) (ids : List ℕ) : List ℕ :=
  ids.flatMap (fun id => (List.range numDof).map (fun d => GID id numDof d))

theorem numberIds_spec (numDof : ℕ) (ids : List ℕ) (hnd : ids.Nodup) (f : ℕ → Option ℕ) (k : ℕ)
    (g : List ℕ) :
    (numberIds numDof ids (f, k, g)).2.1 = k + ids.length ∧
    (numberIds numDof ids (f, k, g)).2.2 = g ++ gidsOf numDof ids ∧
    ∀ id, (numberIds numDof ids (f, k, g)).1 id =
      if id ∈ ids then some (numDof * (k + ids.idxOf id)) else f id := by
  induction ids generalizing f k g with
  | nil => simp [numberIds, gidsOf]
  | cons a l ih =>
    have hnd' := List.nodup_cons.1 hnd
    have := ih hnd'.2 (Function.update f a (some (numDof * k))) (k + 1)
      (g ++ (List.range numDof).map (fun d => GID a numDof d))
    have hstep : numberIds numDof (a :: l) (f, k, g) =
        numberIds numDof l (Function.update f a (some (numDof * k)), k + 1,
          g ++ (List.range numDof).map (fun d => GID a numDof d)) := rfl
    rw [hstep]
    obtain ⟨h1, h2, h3⟩ := this
    refine ⟨?_, ?_, ?_⟩
    · rw [h1]; simp; omega
    · rw [h2]; simp [gidsOf]
    · intro id
      rw [h3]
      by_cases hid : id ∈ l
      · have hne : a ≠ id := by rintro rfl; exact hnd'.1 hid
        have hb : (a == id) = false := by simp [hne]
        simp only [hid, if_true, List.mem_cons, or_true, List.idxOf_cons, hb, cond_false]
        congr 2
        omega
      · by_cases hae : id = a
        · subst hae
          simp [hid]
        · simp [hid, hae]

theorem gidsOf_length (numDof : ℕ) (ids : List ℕ) : (gidsOf numDof ids).length = numDof * ids.length := by
  induction ids with
  | nil => simp [gidsOf]
  | cons a l ih =>
    have : gidsOf numDof (a :: l) = (List.range numDof).map (fun d => GID a numDof d) ++ gidsOf numDof l := by
      simp [gidsOf]
    rw [this, List.length_append, ih]
    simp
    ring

theorem gidsOf_getElem? (numDof : ℕ) (ids : List ℕ) (id d : ℕ) (hid : id ∈ ids) (hd : d < numDof) :
    (gidsOf numDof ids)[numDof * ids.idxOf id + d]? = some (GID id numDof d) := by
  induction ids with
  | nil => simp at hid
  | cons a l ih =>
    have hc : gidsOf numDof (a :: l) = (List.range numDof).map (fun d => GID a numDof d) ++ gidsOf numDof l := by
      simp [gidsOf]
    rw [hc]
    by_cases hae : a = id
    · subst hae
      rw [List.getElem?_append_left (by simp; omega)]
      simp [hd]
    · have hl : id ∈ l := by
        rcases List.mem_cons.1 hid with h | h
        · exact absurd h.symm hae
        · exact h
      have hb : (a == id) = false := by simp [hae]
      rw [List.idxOf_cons, hb, List.getElem?_append_right (by simp [Nat.mul_add]; omega)]
      simp only [cond_false, List.length_map, List.length_range]
      have : numDof * (l.idxOf id + 1) + d - numDof = numDof * l.idxOf id + d := by
        rw [Nat.mul_add]; omega
      rw [this]
      exact ih hl

/-! ### the entity map -/

theorem getEntity_some {mesh : List Node} {id : ℕ} {m : Node} (h : getEntity mesh id = some m) :
    m ∈ mesh ∧ m.stkId = id := by
  unfold getEntity at h
  refine ⟨List.mem_of_find?_eq_some h, ?_⟩
  have := List.find?_some h
  simpa using this

theorem getEntity_of_mem {mesh : List Node} (hnd : (mesh.map (·.stkId)).Nodup) {n : Node}
    (hn : n ∈ mesh) : getEntity mesh n.stkId = some n := by
  cases h : getEntity mesh n.stkId with
  | none =>
    exfalso
    unfold getEntity at h
    rw [List.find?_eq_none] at h
    have := h n hn
    simp at this
  | some m =>
    obtain ⟨hm, hid⟩ := getEntity_some h
    rw [List.inj_on_of_nodup_map hnd hm hn hid]

theorem fill_spec {mesh : List Node} {myLIDs : ℕ → Option ℕ}
    (hnd : (mesh.map (·.stkId)).Nodup)
    (hroot : ∀ n ∈ mesh, ∀ m, getEntity mesh n.naluId = some m → m.naluId = n.naluId)
    (l : List Node) (hl : ∀ n ∈ l, n ∈ mesh) (e0 e : ℕ → ℕ)
    (h : l.foldl (fillStep mesh myLIDs) (some e0) = some e) :
    (∀ n ∈ mesh, ∀ v, myLIDs n.naluId = some v → (n ∈ l ∨ e0 n.stkId = v) → e n.stkId = v) ∧
    (∀ n ∈ mesh, myLIDs n.naluId = none → e n.stkId = e0 n.stkId) := by
  induction l generalizing e0 with
  | nil =>
    simp only [List.foldl_nil, Option.some.injEq] at h
    subst h
    exact ⟨fun n _ v _ h => by rcases h with h | h; · simp at h
                               · exact h, fun _ _ _ => rfl⟩
  | cons a l ih =>
    rw [List.foldl_cons] at h
    have hne : ∀ l : List Node, l.foldl (fillStep mesh myLIDs) none = none := by
      intro l
      induction l with
      | nil => rfl
      | cons b l ih => rw [List.foldl_cons]; exact ih
    have ha : a ∈ mesh := hl a (by simp)
    cases hstep : fillStep mesh myLIDs (some e0) a with
    | none => rw [hstep, hne] at h; exact absurd h (by simp)
    | some e1 =>
      rw [hstep] at h
      obtain ⟨i1, i2⟩ := ih (fun n hn => hl n (by simp [hn])) e1 h
      -- relation between e0 and e1
      have key : (∀ n ∈ mesh, ∀ v, myLIDs n.naluId = some v → (n = a ∨ e0 n.stkId = v) → e1 n.stkId = v) ∧
          (∀ n ∈ mesh, myLIDs n.naluId = none → e1 n.stkId = e0 n.stkId) := by
        unfold fillStep at hstep
        simp only at hstep
        cases hla : myLIDs a.naluId with
        | none =>
          rw [hla] at hstep
          simp only [Option.some.injEq] at hstep
          subst hstep
          refine ⟨fun n hn v hv h => ?_, fun _ _ _ => rfl⟩
          rcases h with rfl | h
          · rw [hla] at hv; exact absurd hv (by simp)
          · exact h
        | some w =>
          rw [hla] at hstep
          simp only at hstep
          have hupd : ∀ (x : Node), x ∈ mesh → myLIDs x.naluId = some w → ∀ f : ℕ → ℕ,
              (∀ n ∈ mesh, ∀ v, myLIDs n.naluId = some v → f n.stkId = v →
                (Function.update f x.stkId w) n.stkId = v) ∧
              (∀ n ∈ mesh, myLIDs n.naluId = none → (Function.update f x.stkId w) n.stkId = f n.stkId) := by
            intro x hx hxw f
            constructor
            · intro n hn v hv hf
              by_cases hxn : n.stkId = x.stkId
              · have : n = x := List.inj_on_of_nodup_map hnd hn hx hxn
                subst this
                rw [Function.update_self]
                rw [hxw] at hv; exact Option.some.inj hv
              · rw [Function.update_of_ne hxn]; exact hf
            · intro n hn hv
              by_cases hxn : n.stkId = x.stkId
              · have : n = x := List.inj_on_of_nodup_map hnd hn hx hxn
                subst this
                rw [hxw] at hv; exact absurd hv (by simp)
              · rw [Function.update_of_ne hxn]
          have base : (∀ n ∈ mesh, ∀ v, myLIDs n.naluId = some v → (n = a ∨ e0 n.stkId = v) →
              (Function.update e0 a.stkId w) n.stkId = v) ∧
              (∀ n ∈ mesh, myLIDs n.naluId = none → (Function.update e0 a.stkId w) n.stkId = e0 n.stkId) := by
            obtain ⟨u1, u2⟩ := hupd a ha hla e0
            refine ⟨fun n hn v hv h => ?_, u2⟩
            rcases h with rfl | h
            · rw [Function.update_self]; rw [hla] at hv; exact Option.some.inj hv
            · exact u1 n hn v hv h
          split at hstep
          · cases hm : getEntity mesh a.naluId with
            | none => rw [hm] at hstep; exact absurd hstep (by simp)
            | some m =>
              rw [hm] at hstep
              simp only [Option.some.injEq] at hstep
              obtain ⟨hmm, hmid⟩ := getEntity_some hm
              have hmroot := hroot a ha m hm
              split at hstep
              · subst hstep
                obtain ⟨u1, u2⟩ := hupd m hmm (by rw [hmroot, hla]) (Function.update e0 a.stkId w)
                exact ⟨fun n hn v hv h => u1 n hn v hv (base.1 n hn v hv h),
                  fun n hn hv => (u2 n hn hv).trans (base.2 n hn hv)⟩
              · subst hstep
                exact base
          · simp only [Option.some.injEq] at hstep
            subst hstep
            exact base
      refine ⟨fun n hn v hv h => i1 n hn v hv ?_, fun n hn hv => (i2 n hn hv).trans (key.2 n hn hv)⟩
      rcases h with h | h
      · rcases List.mem_cons.1 h with h | h
        · exact Or.inr (key.1 n hn v hv (Or.inl h))
        · exact Or.inl h
      · exact Or.inr (key.1 n hn v hv (Or.inr h))

theorem fill_ne_none {mesh : List Node} {myLIDs : ℕ → Option ℕ}
    (hmon : ∀ n ∈ mesh, (myLIDs n.naluId).isSome → (getEntity mesh n.naluId).isSome)
    (l : List Node) (hl : ∀ n ∈ l, n ∈ mesh) (e0 : ℕ → ℕ) :
    ∃ e, l.foldl (fillStep mesh myLIDs) (some e0) = some e := by
  induction l generalizing e0 with
  | nil => exact ⟨e0, rfl⟩
  | cons a l ih =>
    rw [List.foldl_cons]
    have hstep : ∃ e1, fillStep mesh myLIDs (some e0) a = some e1 := by
      unfold fillStep
      simp only
      cases hla : myLIDs a.naluId with
      | none => exact ⟨_, rfl⟩
      | some w =>
        simp only
        have := hmon a (hl a (by simp)) (by rw [hla]; rfl)
        split
        · obtain ⟨m, hm⟩ := Option.isSome_iff_exists.1 this
          rw [hm]
          exact ⟨_, rfl⟩
        · exact ⟨_, rfl⟩
    obtain ⟨e1, h1⟩ := hstep
    rw [h1]
    exact ih (fun n hn => hl n (by simp [hn])) e1

end Verif.LinSys
