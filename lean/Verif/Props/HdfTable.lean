import Verif.Proofs.HdfTable

/-!
# C190–C194: property tables read from HDF5 files
-/

namespace Nalu.HdfTable
open Spec

/-! ## C190: lookup without converters -/

/-- C190: a table is accepted exactly if as many names are given as it has variables and every table variable is among them. -/
theorem c190_accepts (vars : List Var) (user : List String) :
    (wire (vars.map Var.name) [] user).isSome ↔ vars.length = user.length ∧ ∀ v ∈ vars, v.name ∈ user := by
  simp only [wire, List.foldlM_nil, List.mapM_nil, pure, Option.bind_some, List.length_map]
  split_ifs with hl
  · rw [Option.isSome_map, mapM_findix_isSome]
    simp [hl]
  · simp [hl]

/-- C190: in whatever order the names were given, and whatever was looked up before, the value is the spline at the point of the table variables,
each moved into its range and put on its scale; the query counts as clipped exactly if the state is outside the box. -/
theorem c190_lookup {vars : List Var} {spline : List ℝ → ℝ} {user : List String} {w : Wiring} (hw : wire (vars.map Var.name) [] user = some w)
    (env : String → ℝ) {b : List ℝ} (hb : b.length = vars.length) :
    ∃ c, query (file vars spline) w [] (user.map env) b = some (value vars spline env, vars.map fun v => env v.name, c) ∧
      (c = true ↔ Outside vars env) := query_nil hw env hb

/-- C190: the property of every node is the value of its own state. -/
theorem c190_nodes {vars : List Var} {spline : List ℝ → ℝ} {user : List String} {w : Wiring} (hw : wire (vars.map Var.name) [] user = some w) :
    ∀ (nodes : List (String → ℝ)) {b : List ℝ}, b.length = vars.length →
      propLoop (file vars spline) w [] (nodes.map fun env => user.map env) b = some (nodes.map (value vars spline))
  | [], b, _ => by simp [propLoop]
  | e :: nodes, b, hb => by
    obtain ⟨c, h, -⟩ := c190_lookup (spline := spline) hw e hb
    simp only [List.map_cons, propLoop, h, Option.bind_some]
    rw [c190_nodes hw nodes (by simp)]
    rfl

/-- C190: the order in which the names are given does not matter. -/
theorem c190_order_free {vars : List Var} {spline : List ℝ → ℝ} {user user' : List String} {w w' : Wiring}
    (hw : wire (vars.map Var.name) [] user = some w) (hw' : wire (vars.map Var.name) [] user' = some w') (env : String → ℝ) {b b' : List ℝ}
    (hb : b.length = vars.length) (hb' : b'.length = vars.length) :
    (query (file vars spline) w [] (user.map env) b).map Prod.fst = (query (file vars spline) w' [] (user'.map env) b').map Prod.fst := by
  obtain ⟨c, h, -⟩ := c190_lookup (spline := spline) hw env hb
  obtain ⟨c', h', -⟩ := c190_lookup (spline := spline) hw' env hb'
  rw [h, h']
  rfl

/-- C190: the spline is never asked outside the box of the table. -/
theorem c190_in_box (v : Var) (hv : v.lo ≤ v.hi) (hl : v.log = true → 1 / 10 ^ 16 ≤ v.lo) (x : ℝ) :
    (if v.log then Real.log v.lo else v.lo) ≤ coord v x ∧ coord v x ≤ if v.log then Real.log v.hi else v.hi := by
  have h1 : v.lo ≤ min v.hi (max v.lo x) := le_min hv (le_max_left _ _)
  have h2 : min v.hi (max v.lo x) ≤ v.hi := min_le_left _ _
  unfold coord
  cases hg : v.log with
  | false => simp only [Bool.false_eq_true, if_false]; exact ⟨h1, h2⟩
  | true =>
    have h3 := hl hg
    have h4 : (0 : ℝ) < 1 / 10 ^ 16 := by positivity
    simp only [if_true]
    rw [max_eq_left (h3.trans h1)]
    exact ⟨Real.log_le_log (by linarith) h1, Real.log_le_log (by linarith) h2⟩

/-- C190: inside the box nothing is changed but the scale. -/
theorem c190_inside {v : Var} {x : ℝ} (h : v.lo ≤ x ∧ x ≤ v.hi) (hl : v.log = true → 1 / 10 ^ 16 ≤ x) :
    coord v x = if v.log then Real.log x else x := by
  unfold coord
  rw [max_eq_right h.1, min_eq_right h.2]
  split_ifs with hg
  · rw [max_eq_left (hl hg)]
  · rfl

/-- Two variables, given in the other order, one state outside the box. -/
example : ∃ w, wire ["Z", "chi"] [] ["chi", "Z"] = some w ∧ w.index = [1, 0] := ⟨_, rfl, rfl⟩

example : (wire ["Z", "chi"] [] ["chi", "c"]) = none := rfl

/-! ## C191: lookup with converters -/

/-- What one converter does to the list of names. -/
theorem appendNew_fold {base : List String} {n : String} (hn : n ∉ base) : ∀ {ins : List String}, (∀ s ∈ ins, s = n ∨ s ∈ base) →
    (∀ s ∈ ins, s ∈ base ++ [n]) ∧ ins.foldl appendNew (base ++ [n]) = base ++ [n] ∧
      (ins.foldl appendNew base = base ++ [n] ∨ (n ∉ ins ∧ ins.foldl appendNew base = base))
  | [], _ => by simp
  | s :: ins, h => by
    obtain ⟨h1, h2, h3⟩ := appendNew_fold hn (ins := ins) fun s hs => h s (List.mem_cons_of_mem _ hs)
    have hs := h s (List.mem_cons_self ..)
    have hmem : s ∈ base ++ [n] := by rcases hs with rfl | hs <;> simp_all
    have hnot : appendNew (base ++ [n]) s = base ++ [n] := by
      unfold appendNew
      rw [if_neg]
      rw [Option.isNone_iff_eq_none, findix_none]; exact fun h => h hmem
    refine ⟨?_, ?_, ?_⟩
    · intro u hu
      rcases List.mem_cons.1 hu with rfl | hu
      · exact hmem
      · exact h1 u hu
    · rw [List.foldl_cons, hnot, h2]
    · rw [List.foldl_cons]
      by_cases hb : s ∈ base
      · have : appendNew base s = base := by
          unfold appendNew
          rw [if_neg]
          rw [Option.isNone_iff_eq_none, findix_none]; exact fun h => h hb
        rw [this]
        rcases h3 with h3 | ⟨h3, h4⟩
        · exact Or.inl h3
        · refine Or.inr ⟨?_, h4⟩
          simp only [List.mem_cons, not_or]
          exact ⟨fun e => hn (e ▸ hb), h3⟩
      · obtain rfl : s = n := by tauto
        have : appendNew base s = base ++ [s] := by
          unfold appendNew
          rw [if_pos]
          rw [Option.isNone_iff_eq_none, findix_none]; exact hb
        rw [this, h2]; exact Or.inl rfl

theorem wire_one {pre post : List String} {c : Conv} {n : String} (hpre : c.name ∉ pre) (hn : n ∉ pre ++ post) (hin : n ∈ c.inputs)
    (hsub : ∀ s ∈ c.inputs, s = n ∨ s ∈ pre ++ post) :
    ∃ w ci, wire (pre ++ c.name :: post) [c] (pre ++ post ++ [n]) = some w ∧ w.convTable = [pre.length] ∧
      w.direct = List.range' 0 pre.length ++ List.range' (pre.length + 1) post.length ∧ w.convInput = [ci] ∧
      c.inputs.mapM (findix (pre ++ post ++ [n])) = some ci := by
  obtain ⟨h1, h2, h3⟩ := appendNew_fold hn hsub
  have h3 : c.inputs.foldl appendNew (pre ++ post) = pre ++ post ++ [n] := by
    rcases h3 with h3 | h3
    · exact h3
    · exact absurd hin h3.1
  obtain ⟨ci, hci⟩ := Option.isSome_iff_exists.1 (mapM_findix_isSome (l := pre ++ post ++ [n]) (ns := c.inputs) |>.2 h1)
  obtain ⟨ix, hix⟩ := Option.isSome_iff_exists.1 (mapM_findix_isSome (l := pre ++ post ++ [n]) (ns := pre ++ post ++ [n]) |>.2 fun _ h => h)
  have he : (pre ++ c.name :: post).eraseIdx pre.length = pre ++ post := by
    rw [List.eraseIdx_append_of_length_le le_rfl]; simp
  refine ⟨⟨pre ++ post ++ [n], (List.range (pre ++ c.name :: post).length).eraseIdx pre.length, [pre.length], [ci], ix⟩, ci, ?_, rfl, ?_, rfl, hci⟩
  · simp only [wire, List.foldlM_cons, List.foldlM_nil, wireStep, findix_of_prefix hpre, Option.map_some, he, h3, bind, pure, Option.bind_some,
      List.mapM_cons, List.mapM_nil, hci, hix, List.length_append]
    rw [if_pos trivial]
    rfl
  · show (List.range (pre ++ c.name :: post).length).eraseIdx pre.length = _
    rw [List.length_append, List.length_cons, List.range_eq_range', ← List.range'_append_1, List.eraseIdx_append_of_length_le (by simp)]
    simp [List.range'_succ]

/-- C191 (partial: one converter that brings exactly one new input, and names given in the order of the table with the new input last): the lookup
uses the converted value of the variable the converter produces, and the given values of all others. -/
theorem c191_one_converter_partial {pre post : List Var} {t : Var} {spline : List ℝ → ℝ} {c : Conv} {n : String} (hc : c.name = t.name)
    (hpre : t.name ∉ pre.map Var.name) (hpost : t.name ∉ post.map Var.name) (hn : n ∉ (pre ++ post).map Var.name) (hin : n ∈ c.inputs)
    (hsub : ∀ s ∈ c.inputs, s = n ∨ s ∈ (pre ++ post).map Var.name) :
    ∃ w, wire ((pre ++ t :: post).map Var.name) [c] ((pre ++ post).map Var.name ++ [n]) = some w ∧
      ∀ (env : String → ℝ) (b : List ℝ), b.length = (pre ++ t :: post).length →
        ∃ fl, query (file (pre ++ t :: post) spline) w [c] (((pre ++ post).map Var.name ++ [n]).map env) b =
            some (value (pre ++ t :: post) spline (converted c env), (pre ++ t :: post).map fun v => converted c env v.name, fl) ∧
          (fl = true ↔ Outside (pre ++ t :: post) (converted c env)) := by
  simp only [List.map_append] at hn hsub
  obtain ⟨w, ci, hw, h1, h2, h3, h4⟩ := wire_one (by rw [hc]; exact hpre) hn hin hsub
  refine ⟨w, ?_, ?_⟩
  · rw [← hw, hc]; simp
  intro env b hb
  obtain ⟨fl, e1, e2⟩ := check_eq (pre ++ t :: post) fun v => converted c env v.name
  refine ⟨fl, ?_, e2⟩
  have ha := mapM_findix env h4
  have hA : pre.map (fun v => converted c env v.name) = pre.map fun v => env v.name := by
    refine List.map_congr_left fun v hv => ?_
    unfold converted
    rw [if_neg]
    rintro e
    exact hpre (hc ▸ e ▸ List.mem_map_of_mem hv)
  have hB : post.map (fun v => converted c env v.name) = post.map fun v => env v.name := by
    refine List.map_congr_left fun v hv => ?_
    unfold converted
    rw [if_neg]
    rintro e
    exact hpost (hc ▸ e ▸ List.mem_map_of_mem hv)
  have hf : fill w [c] (((pre ++ post).map Var.name ++ [n]).map env) b = some ((pre ++ t :: post).map fun v => converted c env v.name) := by
    unfold fill
    rw [if_neg (by simp), h2, fillDirect_append]
    simp only [List.length_map] at *
    have r1 := fillDirect_range (inputs := ((pre ++ post).map Var.name ++ [n]).map env) (m := pre.length) (i := 0) (p := []) (r := b)
      (vals := pre.map fun v => env v.name) (by
        intro j hj
        simp only [List.map_append, List.map_map, zero_add, List.append_assoc]
        rw [List.getElem?_append_left (by simpa using hj)]
        rfl) (by simp) (by simp [hb])
    simp only [List.length_nil, List.nil_append] at r1
    rw [r1, Option.bind_some]
    obtain ⟨x, r, hxr⟩ : ∃ x r, b.drop pre.length = x :: r := by
      cases hd : b.drop pre.length with
      | nil => have := congrArg List.length hd; simp [hb] at this
      | cons x r => exact ⟨x, r, rfl⟩
    have hr : r.length = post.length := by
      have := congrArg List.length hxr; simp [hb] at this; omega
    have r2 := fillDirect_range (inputs := ((pre ++ post).map Var.name ++ [n]).map env) (m := post.length) (i := pre.length)
      (p := (pre.map fun v => env v.name) ++ [x]) (r := r)
      (vals := post.map fun v => env v.name) (by
        intro j hj
        simp only [List.map_append, List.map_map, List.append_assoc]
        rw [List.getElem?_append_right (by simp), List.getElem?_append_left (by simpa using hj)]
        simp [Function.comp_def]) (by simp) (by omega)
    simp only [List.length_append, List.length_map, List.length_cons, List.length_nil, zero_add, List.append_assoc, List.singleton_append] at r2
    rw [hxr, List.length_range', zero_add, r2, Option.bind_some, h1, h3]
    simp only [fillConv]
    rw [← List.map_append] at ha
    rw [ha, Option.bind_some]
    have hs := store_mid (pre.map fun v => env v.name) (post.map fun v => env v.name) x (c.fn (c.inputs.map env))
    simp only [List.length_map] at hs
    rw [List.drop_of_length_le (by omega), List.append_nil, hs, Option.bind_some]
    simp only [List.map_append, List.map_cons, hA, hB]
    congr 3
    unfold converted
    rw [if_pos hc.symm]
  unfold query
  rw [hf, Option.bind_some]
  unfold file
  rw [e1]
  rfl

/-- The hypotheses of the theorem are met: the enthalpy of a flamelet table with a mixture fraction. -/
example (lo hi : ℝ) (f : List ℝ → ℝ) (spline : List ℝ → ℝ) :=
  c191_one_converter_partial (pre := [⟨"Z", lo, hi, false⟩]) (post := [⟨"V", lo, hi, false⟩]) (t := ⟨"hRef", lo, hi, false⟩) (spline := spline)
    (c := ⟨"hRef", ["Z", "h"], f⟩) (n := "h") rfl (by simp) (by simp) (by simp) (by simp) (by simp)

/-- C191 (counterexample): with a converter the order in which the names were given is not used: the table accepts the two names in either order but
takes the first number for `Z`. -/
theorem c191_order_counterexample (lo hi : ℝ) (f : List ℝ → ℝ) (spline : List ℝ → ℝ) (env : String → ℝ) (b0 b1 : ℝ) :
    ∃ w fl, wire ["Z", "chiRef"] [⟨"chiRef", ["Z", "chi"], f⟩] ["chi", "Z"] = some w ∧
      query (file [⟨"Z", lo, hi, false⟩, ⟨"chiRef", lo, hi, false⟩] spline) w [⟨"chiRef", ["Z", "chi"], f⟩] (["chi", "Z"].map env) [b0, b1] =
        some (spline [min hi (max lo (env "chi")), min hi (max lo (f [env "chi", env "Z"]))], [env "chi", f [env "chi", env "Z"]], fl) := by
  obtain ⟨fl, h, -⟩ := check_eq [⟨"Z", lo, hi, false⟩, ⟨"chiRef", lo, hi, false⟩] fun v => if v.name = "Z" then env "chi" else f [env "chi", env "Z"]
  refine ⟨_, fl, rfl, ?_⟩
  unfold query
  rw [show fill _ _ _ _ = some [env "chi", f [env "chi", env "Z"]] from rfl]
  simp only [List.map_cons, List.map_nil, if_true, show ("chiRef" = "Z") = False by decide, if_false] at h
  simp only [Option.bind_some, file, List.map_cons, List.map_nil, h, Option.map_some]
  simp [coord]

/-- C191 (counterexample): with two converters the second result overwrites the first, because its position is looked up in the list of names from
which the first variable has been taken out; the last coordinate keeps whatever an earlier query left there. -/
theorem c191_two_converters_counterexample (lo hi : ℝ) (f g : List ℝ → ℝ) (spline : List ℝ → ℝ) (env : String → ℝ) (b0 b1 b2 : ℝ) :
    ∃ w fl, wire ["Z", "chiRef", "hRef"] [⟨"chiRef", ["Z", "chi"], f⟩, ⟨"hRef", ["Z", "h"], g⟩] ["Z", "chi", "h"] = some w ∧
      query (file [⟨"Z", lo, hi, false⟩, ⟨"chiRef", lo, hi, false⟩, ⟨"hRef", lo, hi, false⟩] spline) w
          [⟨"chiRef", ["Z", "chi"], f⟩, ⟨"hRef", ["Z", "h"], g⟩] (["Z", "chi", "h"].map env) [b0, b1, b2] =
        some (spline [min hi (max lo (env "Z")), min hi (max lo (g [env "Z", env "h"])), min hi (max lo b2)],
          [env "Z", g [env "Z", env "h"], b2], fl) := by
  obtain ⟨fl, h, -⟩ := check_eq [⟨"Z", lo, hi, false⟩, ⟨"chiRef", lo, hi, false⟩, ⟨"hRef", lo, hi, false⟩] fun v =>
    if v.name = "Z" then env "Z" else if v.name = "chiRef" then g [env "Z", env "h"] else b2
  refine ⟨_, fl, rfl, ?_⟩
  unfold query
  rw [show fill _ _ _ _ = some [env "Z", g [env "Z", env "h"], b2] from rfl]
  simp only [List.map_cons, List.map_nil, if_true, show ("chiRef" = "Z") = False by decide, show ("hRef" = "Z") = False by decide,
    show ("hRef" = "chiRef") = False by decide, if_false] at h
  simp only [Option.bind_some, file, List.map_cons, List.map_nil, h, Option.map_some]
  simp [coord]

/-- C191 (counterexample): a converter whose inputs are all table variables leaves the buffer one entry short (`dimension_` is the number of inputs,
not of table variables); the query writes behind its end. -/
theorem c191_no_new_input_counterexample (f : List ℝ → ℝ) (file : File) (z b0 : ℝ) :
    ∃ w, wire ["Z", "chiRef"] [⟨"chiRef", ["Z"], f⟩] ["Z"] = some w ∧ w.names.length = 1 ∧ query file w [⟨"chiRef", ["Z"], f⟩] [z] [b0] = none := by
  refine ⟨_, rfl, rfl, ?_⟩
  unfold query
  rw [show fill _ _ _ _ = none from rfl]
  rfl

/-- C191 (counterexample): a converter with two new inputs makes the bounds check read behind the end of the table's ranges. -/
theorem c191_two_new_inputs_counterexample (lo hi : ℝ) (f : List ℝ → ℝ) (spline : List ℝ → ℝ) (z u v b0 b1 b2 : ℝ) :
    ∃ w, wire ["Z", "chiRef"] [⟨"chiRef", ["u", "v"], f⟩] ["Z", "u", "v"] = some w ∧ w.names.length = 3 ∧
      query (file [⟨"Z", lo, hi, false⟩, ⟨"chiRef", lo, hi, false⟩] spline) w [⟨"chiRef", ["u", "v"], f⟩] [z, u, v] [b0, b1, b2] = none := by
  refine ⟨_, rfl, rfl, ?_⟩
  unfold query
  rw [show fill _ _ _ _ = some [z, f [u, v], b2] from rfl]
  simp [file, check]

/-! ## C192: the log of clipped queries -/

theorem mem_insertEvent {e x : Event} : ∀ {l : List Event}, x ∈ insertEvent e l → x = e ∨ x ∈ l
  | [], h => by simpa [insertEvent] using h
  | y :: l, h => by
    rw [insertEvent] at h
    split_ifs at h
    · simpa using h
    · rcases List.mem_cons.1 h with rfl | h
      · simp
      · rcases mem_insertEvent h with h | h <;> simp [h]
    · exact Or.inr h

theorem mem_insertEvent_of {e x : Event} : ∀ {l : List Event}, x ∈ l → x ∈ insertEvent e l
  | y :: l, h => by
    rw [insertEvent]
    split_ifs
    · exact List.mem_cons_of_mem _ h
    · rcases List.mem_cons.1 h with rfl | h
      · simp
      · exact List.mem_cons_of_mem _ (mem_insertEvent_of h)
    · exact h

theorem insertEvent_has (e : Event) : ∀ l : List Event, ∃ x ∈ insertEvent e l, x.sev = e.sev
  | [] => ⟨e, by simp [insertEvent], rfl⟩
  | y :: l => by
    rw [insertEvent]
    split_ifs with h1 h2
    · exact ⟨e, by simp, rfl⟩
    · obtain ⟨x, hx, h⟩ := insertEvent_has e l
      exact ⟨x, List.mem_cons_of_mem _ hx, h⟩
    · exact ⟨y, by simp, le_antisymm (not_lt.1 h2) (not_lt.1 h1)⟩

theorem insertEvent_length (e : Event) : ∀ l : List Event, (insertEvent e l).length ≤ l.length + 1
  | [] => by simp [insertEvent]
  | y :: l => by
    rw [insertEvent]
    split_ifs
    · simp
    · simpa using insertEvent_length e l
    · simp

theorem insertEvent_sorted (e : Event) : ∀ {l : List Event}, l.Pairwise (fun a b => b.sev < a.sev) →
    (insertEvent e l).Pairwise fun a b => b.sev < a.sev
  | [], _ => by simp [insertEvent]
  | y :: l, h => by
    rw [insertEvent]
    obtain ⟨h1, h2⟩ := List.pairwise_cons.1 h
    split_ifs with h3 h4
    · refine List.pairwise_cons.2 ⟨?_, h⟩
      intro b hb
      rcases List.mem_cons.1 hb with rfl | hb
      · exact h3
      · exact (h1 b hb).trans h3
    · refine List.pairwise_cons.2 ⟨?_, insertEvent_sorted e h2⟩
      intro b hb
      rcases mem_insertEvent hb with rfl | hb
      · exact h4
      · exact h1 b hb
    · exact h

/-- What the log records about the queries so far. -/
structure LogOk (size : ℕ) (lo hi : List ℝ) (qs : List (List ℝ × Bool)) (s : Log) : Prop where
  count : s.count = (qs.filter (·.2)).length
  short : s.events.length ≤ size
  sorted : s.events.Pairwise fun a b => b.sev < a.sev
  real : ∀ e ∈ s.events, ∃ q ∈ qs, q.2 = true ∧ e.values = q.1 ∧ e.sev = severity lo hi q.1
  worst : ∀ q ∈ qs, q.2 = true → (∃ e ∈ s.events, e.sev = severity lo hi q.1) ∨
    (s.events.length = size ∧ ∀ e ∈ s.events, severity lo hi q.1 < e.sev)

theorem LogOk.step {size : ℕ} {lo hi : List ℝ} {qs : List (List ℝ × Bool)} {s : Log} (h : LogOk size lo hi qs s) (q : List ℝ × Bool) :
    LogOk size lo hi (qs ++ [q]) (logStep size lo hi s q) := by
  cases hq : q.2 with
  | false =>
    have e : logStep size lo hi s q = s := by unfold logStep; rw [if_neg (by simp [hq])]
    rw [e]
    refine ⟨by simp [List.filter_append, hq, h.count], h.short, h.sorted, ?_, ?_⟩
    · intro x hx
      obtain ⟨p, hp, hp'⟩ := h.real x hx
      exact ⟨p, by simp [hp], hp'⟩
    · intro p hp hp'
      rcases List.mem_append.1 hp with hp | hp
      · exact h.worst p hp hp'
      · simp only [List.mem_singleton] at hp; subst hp; simp [hq] at hp'
  | true =>
    have hcount : (logStep size lo hi s q).count = ((qs ++ [q]).filter (·.2)).length := by
      unfold logStep; rw [if_pos hq]; simp [List.filter_append, hq, h.count]
    by_cases hs : 0 < size
    swap
    · obtain rfl : size = 0 := by omega
      have hnil : s.events = [] := List.length_eq_zero_iff.1 (Nat.le_zero.1 h.short)
      have e : (logStep 0 lo hi s q).events = [] := by unfold logStep; rw [if_pos hq]; simpa using hnil
      exact ⟨hcount, by simp [e], by simp [e], by simp [e], by simp [e]⟩
    set ev : Event := ⟨severity lo hi q.1, q.1⟩ with hev
    have hI := insertEvent_sorted ev h.sorted
    have hreal : ∀ e ∈ insertEvent ev s.events, ∃ q' ∈ qs ++ [q], q'.2 = true ∧ e.values = q'.1 ∧ e.sev = severity lo hi q'.1 := by
      intro e he
      rcases mem_insertEvent he with rfl | he
      · exact ⟨q, by simp, hq, rfl, rfl⟩
      · obtain ⟨p, hp, hp'⟩ := h.real e he
        exact ⟨p, by simp [hp], hp'⟩
    by_cases hlen : size < (insertEvent ev s.events).length
    · have e : (logStep size lo hi s q).events = (insertEvent ev s.events).dropLast := by
        unfold logStep; rw [if_pos hq]; simp only [if_pos hs]; rw [if_pos hlen]
      have hl2 := insertEvent_length ev s.events
      have hfull : s.events.length = size := by have := h.short; omega
      have hlen' : (insertEvent ev s.events).length = size + 1 := by omega
      obtain ⟨init, z, hz⟩ : ∃ init z, insertEvent ev s.events = init ++ [z] := by
        have : insertEvent ev s.events ≠ [] := by intro e; rw [e] at hlen'; simp at hlen'
        exact ⟨_, _, (List.dropLast_append_getLast this).symm⟩
      have hz' : (insertEvent ev s.events).dropLast = init := by rw [hz]; simp
      have hil : init.length = size := by rw [hz] at hlen'; simpa using hlen'
      rw [hz, List.pairwise_append] at hI
      have hlast : ∀ x ∈ init, z.sev < x.sev := fun x hx => hI.2.2 x hx z (by simp)
      have key : ∀ x, x ∈ insertEvent ev s.events → (∃ e ∈ init, e.sev = x.sev) ∨ (init.length = size ∧ ∀ e ∈ init, x.sev < e.sev) := by
        intro x hx
        rw [hz] at hx
        rcases List.mem_append.1 hx with hx | hx
        · exact Or.inl ⟨x, hx, rfl⟩
        · simp only [List.mem_singleton] at hx; subst hx; exact Or.inr ⟨hil, hlast⟩
      refine ⟨hcount, ?_, ?_, ?_, ?_⟩
      · rw [e, hz', hil]
      · rw [e, hz']; exact hI.1
      · rw [e, hz']; intro x hx; exact hreal x (by rw [hz]; simp [hx])
      · rw [e, hz']
        intro p hp hp'
        rcases List.mem_append.1 hp with hp | hp
        · rcases h.worst p hp hp' with ⟨x, hx, hx'⟩ | ⟨-, h2⟩
          · rw [← hx']; exact key x (mem_insertEvent_of hx)
          · -- the log was full of worse events
            by_cases hb : ∃ x ∈ init, x.sev = severity lo hi p.1
            · exact Or.inl hb
            · refine Or.inr ⟨hil, fun x hx => ?_⟩
              rcases mem_insertEvent (show x ∈ insertEvent ev s.events by rw [hz]; simp [hx]) with rfl | hx'
              · by_contra hcon
                have hle : ev.sev ≤ severity lo hi p.1 := not_lt.1 hcon
                have hzm : z ∈ s.events := by
                  rcases mem_insertEvent (show z ∈ insertEvent ev s.events by rw [hz]; simp) with h' | h'
                  · have := hlast _ hx; rw [h'] at this; exact absurd this (lt_irrefl _)
                  · exact h'
                have := h2 z hzm
                have := hlast _ hx
                linarith
              · exact h2 x hx'
        · simp only [List.mem_singleton] at hp; subst hp
          obtain ⟨x, hx, hx'⟩ := insertEvent_has ev s.events
          have : x.sev = severity lo hi p.1 := hx'
          rw [← this]; exact key x hx
    · have e : (logStep size lo hi s q).events = insertEvent ev s.events := by
        unfold logStep; rw [if_pos hq]; simp only [if_pos hs]; rw [if_neg hlen]
      refine ⟨hcount, by rw [e]; omega, by rw [e]; exact hI, by rw [e]; exact hreal, ?_⟩
      rw [e]
      intro p hp hp'
      rcases List.mem_append.1 hp with hp | hp
      · rcases h.worst p hp hp' with ⟨x, hx, hx'⟩ | ⟨h1, h2⟩
        · exact Or.inl ⟨x, mem_insertEvent_of hx, hx'⟩
        · by_cases hb : severity lo hi p.1 = ev.sev
          · obtain ⟨x, hx, hx'⟩ := insertEvent_has ev s.events
            exact Or.inl ⟨x, hx, by rw [hx', hb]⟩
          · -- the log was full, so the new event was already there
            have hsame : (insertEvent ev s.events).length = s.events.length := by
              have h3 : s.events.length ≤ (insertEvent ev s.events).length := by
                have : s.events.Sublist (insertEvent ev s.events) := by
                  generalize s.events = l
                  induction l with
                  | nil => simp [insertEvent]
                  | cons y l ih =>
                    rw [insertEvent]; split_ifs
                    · exact List.sublist_cons_self _ _
                    · exact ih.cons₂ _
                    · exact List.Sublist.refl _
                exact this.length_le
              omega
            refine Or.inr ⟨by omega, fun x hx => ?_⟩
            have hsub : s.events.Sublist (insertEvent ev s.events) := by
              generalize s.events = l
              induction l with
              | nil => simp [insertEvent]
              | cons y l ih =>
                rw [insertEvent]; split_ifs
                · exact List.sublist_cons_self _ _
                · exact ih.cons₂ _
                · exact List.Sublist.refl _
            rw [← hsub.eq_of_length hsame.symm] at hx
            exact h2 x hx
      · simp only [List.mem_singleton] at hp; subst hp
        obtain ⟨x, hx, hx'⟩ := insertEvent_has ev s.events
        exact Or.inl ⟨x, hx, hx'⟩

/-- C192: after any sequence of queries the counter is the number of clipped queries; the log holds at most `size` events, in strictly decreasing
severity, each a clipped query with its severity; and every clipped query is either represented by an event of its severity, or the log is full of
worse ones. -/
theorem c192_log (size : ℕ) (lo hi : List ℝ) (qs : List (List ℝ × Bool)) :
    let s := qs.foldl (logStep size lo hi) ⟨[], 0⟩
    s.count = (qs.filter (·.2)).length ∧ s.events.length ≤ size ∧ s.events.Pairwise (fun a b => b.sev < a.sev) ∧
      (∀ e ∈ s.events, ∃ q ∈ qs, q.2 = true ∧ e.values = q.1 ∧ e.sev = severity lo hi q.1) ∧
      ∀ q ∈ qs, q.2 = true → (∃ e ∈ s.events, e.sev = severity lo hi q.1) ∨
        (s.events.length = size ∧ ∀ e ∈ s.events, severity lo hi q.1 < e.sev) := by
  have h : LogOk size lo hi qs (qs.foldl (logStep size lo hi) ⟨[], 0⟩) := by
    induction qs using List.reverseRecOn with
    | nil => exact ⟨rfl, by simp, by simp, by simp, by simp⟩
    | append_singleton qs q ih => rw [List.foldl_append]; exact ih.step q
  exact ⟨h.count, h.short, h.sorted, h.real, h.worst⟩

/-- C192: the severity is one inside the box and more outside; it is the product over the variables of one plus the relative excess. -/
theorem c192_severity : ∀ (vars : List Var) (env : String → ℝ), (∀ v ∈ vars, v.lo < v.hi) →
    severity (vars.map Var.lo) (vars.map Var.hi) (vars.map fun v => env v.name) =
      (vars.map fun v => 1 + (max (v.lo - env v.name) 0 + max (env v.name - v.hi) 0) / (v.hi - v.lo)).prod
  | [], _, _ => by simp [severity]
  | v :: vs, env, h => by
    have hv := h v (List.mem_cons_self ..)
    simp only [List.map_cons, severity, List.prod_cons]
    rw [c192_severity vs env fun u hu => h u (List.mem_cons_of_mem _ hu)]
    congr 1
    split_ifs with h1 h2
    · rw [max_eq_left (by linarith), max_eq_right (by linarith)]; simp
    · rw [max_eq_right (by linarith), max_eq_left (by linarith)]; simp
    · rw [max_eq_right (by linarith), max_eq_right (by linarith)]; simp

/-- C192: a query is logged with a severity above one exactly if it was outside the box. -/
theorem c192_severity_outside (vars : List Var) (env : String → ℝ) (h : ∀ v ∈ vars, v.lo < v.hi) :
    1 ≤ severity (vars.map Var.lo) (vars.map Var.hi) (vars.map fun v => env v.name) ∧
      (1 < severity (vars.map Var.lo) (vars.map Var.hi) (vars.map fun v => env v.name) ↔ Outside vars env) := by
  induction vars with
  | nil => simp [severity, Outside]
  | cons v vs ih =>
    obtain ⟨i1, i2⟩ := ih fun u hu => h u (List.mem_cons_of_mem _ hu)
    have hv := h v (List.mem_cons_self ..)
    simp only [List.map_cons, severity]
    have hO : Outside (v :: vs) env ↔ (env v.name < v.lo ∨ v.hi < env v.name) ∨ Outside vs env := by simp [Outside]
    rw [hO, ← i2]
    have hd : 0 < v.hi - v.lo := by linarith
    generalize severity (vs.map Var.lo) (vs.map Var.hi) (vs.map fun v => env v.name) = S at *
    split_ifs with h1 h2
    · have := div_pos (show 0 < v.lo - env v.name by linarith) hd
      refine ⟨by nlinarith, ?_⟩
      constructor
      · intro _; exact Or.inl (Or.inl h1)
      · intro _; nlinarith
    · have := div_pos (show 0 < env v.name - v.hi by linarith) hd
      refine ⟨by nlinarith, ?_⟩
      constructor
      · intro _; exact Or.inl (Or.inr h2)
      · intro _; nlinarith
    · rw [one_mul]
      refine ⟨i1, ?_⟩
      constructor
      · exact Or.inr
      · rintro ((h3 | h3) | h3)
        · exact absurd h3 h1
        · exact absurd h3 h2
        · exact h3

/-- C192: lowering the size of the log does not shorten it: a new event pushes out one old one only. -/
theorem c192_resize_counterexample (lo hi : List ℝ) (a b : Event) (v : List ℝ) (h1 : b.sev < a.sev) (h2 : severity lo hi v < b.sev) (n : ℕ) :
    ((logStep 1 lo hi ⟨[a, b], n⟩ (v, true)).events) = [a, b] := by
  have e : insertEvent ⟨severity lo hi v, v⟩ [a, b] = [a, b, ⟨severity lo hi v, v⟩] := by
    simp only [insertEvent]
    rw [if_neg (by linarith), if_pos (by linarith), if_neg (by linarith), if_pos (by linarith)]
  unfold logStep
  simp [e]

/-- A log of two, three clipped queries of severities 2, 3 and 4. -/
example : (logStep 2 [0] [1] ⟨[⟨3, [3]⟩, ⟨2, [2]⟩], 2⟩ ([-3], true)).events = [⟨4, [-3]⟩, ⟨3, [3]⟩] := by
  have hs : severity [0] [1] [-3] = 4 := by norm_num [severity]
  have e : insertEvent ⟨4, [-3]⟩ [⟨3, [3]⟩, ⟨2, [2]⟩] = [⟨4, [-3]⟩, ⟨3, [3]⟩, ⟨2, [2]⟩] := by
    simp only [insertEvent]; rw [if_pos (by norm_num)]
  unfold logStep
  simp [hs, e]

end Nalu.HdfTable
