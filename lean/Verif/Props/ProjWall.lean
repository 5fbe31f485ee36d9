import Mathlib.Data.List.Induction
import Verif.Model.ProjWall
import Verif.Props.WallOde
import Verif.Props.WallFunction

/-!
# C337-C339: the projected wall function

C337: every wall point works with its own sampling point, distance and law.
C338: the velocity read at the sampling point, over time steps and ranks.
C339: a sampling point inside the mesh is found.
-/

namespace Nalu.ProjWall

open Nalu.WallOde

variable {nd : ℕ}

/-! ## C337 -/

/-- Specification: the `PointInfo` of an integration point of a face of part `p`. -/
def Belongs (p : Part nd) (ip : Ip nd) (i : Info nd) : Prop :=
  i.x = ip.x ∧ i.pt = projPoint ip.x ip.area p.dist ∧ i.ode = p.ode

theorem faceInfos_spec (dist ode : ℝ) (p : Part nd) (hd : p.dist = dist) (ho : p.ode = ode) :
    ∀ (l : List (Ip nd)) (n : ℕ), List.Forall₂ (Belongs p) l (faceInfos dist ode n l) ∧
      (faceInfos dist ode n l).map (·.id) = (List.range l.length).map (n + ·)
  | [], n => ⟨.nil, rfl⟩
  | ip :: l, n => by
    obtain ⟨h1, h2⟩ := faceInfos_spec dist ode p hd ho l (n + 1)
    refine ⟨.cons ⟨rfl, by rw [hd], ho.symm⟩ h1, ?_⟩
    rw [faceInfos, List.map_cons, h2, List.length_cons, List.range_succ_eq_map, List.map_cons, List.map_map]
    refine congrArg₂ _ rfl (List.map_congr_left fun k _ => ?_)
    simp only [Function.comp_apply]
    omega

/-- The faces of the parts called `name`, in order. -/
def facesOf (parts : List (Part nd)) (name : String) : List (Part nd × List (Ip nd)) :=
  (parts.filter fun p => p.name = name).flatMap fun p => p.faces.map fun f => (p, f)

def Match (q : Part nd × List (Ip nd)) (v : List (Info nd)) : Prop := List.Forall₂ (Belongs q.1) q.2 v

/-- What holds of a store throughout the construction. -/
def Ok (s : Store nd) : Prop :=
  s.pts.map (·.1) = List.range s.next ∧
    ∀ k v, s.map k = some v → ∀ f ∈ v, ∀ i ∈ f, (i.id, i.pt) ∈ s.pts

theorem addFace_ok (p : Part nd) (s : Store nd) (ips : List (Ip nd)) (h : Ok s) : Ok (addFace p s ips) := by
  obtain ⟨h1, h2⟩ := h
  refine ⟨?_, ?_⟩
  · show (s.pts ++ _).map _ = List.range (s.next + ips.length)
    rw [List.map_append, h1, List.range_add, List.map_map]
    congr 1
    exact (faceInfos_spec p.dist p.ode p rfl rfl ips s.next).2
  · intro k v hv f hf i hi
    have hmem : ∀ k v, s.map k = some v → f ∈ v → (i.id, i.pt) ∈ (addFace p s ips).pts := fun k v hv hf =>
      List.mem_append_left _ (h2 k v hv f hf i hi)
    have hv' : (if k = p.name then some ((s.map k).getD [] ++ [faceInfos p.dist p.ode s.next ips]) else s.map k) = some v := hv
    by_cases hk : k = p.name
    · rw [if_pos hk] at hv'
      obtain rfl := Option.some.inj hv'
      rcases List.mem_append.1 hf with hf | hf
      · cases hm : s.map k with
        | none => rw [hm] at hf; simp at hf
        | some w => rw [hm] at hf; exact hmem k w hm hf
      · rw [List.mem_singleton] at hf
        subst hf
        exact List.mem_append_right _ (List.mem_map.2 ⟨i, hi, rfl⟩)
    · rw [if_neg hk] at hv'
      exact hmem k v hv' hf

theorem addFaces_map (p : Part nd) : ∀ (fs : List (List (Ip nd))) (s : Store nd), s.map p.name ≠ none →
    (∀ k, k ≠ p.name → (fs.foldl (addFace p) s).map k = s.map k) ∧
    ∃ w, (fs.foldl (addFace p) s).map p.name = some ((s.map p.name).getD [] ++ w) ∧
      List.Forall₂ Match (fs.map fun f => (p, f)) w
  | [], s, h => ⟨fun _ _ => rfl, [], by
      cases hm : s.map p.name with
      | none => exact absurd hm h
      | some w => simp [hm], .nil⟩
  | f :: fs, s, h => by
    have h0 : (addFace p s f).map p.name = some ((s.map p.name).getD [] ++ [faceInfos p.dist p.ode s.next f]) := if_pos rfl
    obtain ⟨h1, w, h2, h3⟩ := addFaces_map p fs (addFace p s f) (by rw [h0]; exact Option.some_ne_none _)
    refine ⟨fun k hk => (h1 k hk).trans (if_neg hk), faceInfos p.dist p.ode s.next f :: w, ?_, ?_⟩
    · rw [List.foldl_cons, h2, h0, Option.getD_some, List.append_assoc]
      rfl
    · exact .cons (faceInfos_spec p.dist p.ode p rfl rfl f s.next).1 h3

theorem addParts_map (name : String) : ∀ (parts : List (Part nd)) (s : Store nd),
    (∀ p ∈ parts, s.map p.name ≠ none) → ∀ v0, s.map name = some v0 →
    ∃ w, (parts.foldl (fun s p => p.faces.foldl (addFace p) s) s).map name = some (v0 ++ w) ∧
      List.Forall₂ Match (facesOf parts name) w
  | [], s, _, v0, h0 => ⟨[], by simpa using h0, .nil⟩
  | p :: parts, s, hs, v0, h0 => by
    obtain ⟨h1, w, h2, h3⟩ := addFaces_map p p.faces s (hs p List.mem_cons_self)
    have hs' : ∀ q ∈ parts, (p.faces.foldl (addFace p) s).map q.name ≠ none := fun q hq => by
      by_cases hk : q.name = p.name
      · rw [hk, h2]; exact Option.some_ne_none _
      · rw [h1 _ hk]; exact hs q (List.mem_cons_of_mem _ hq)
    by_cases hk : name = p.name
    · subst hk
      rw [h0, Option.getD_some] at h2
      obtain ⟨w', h4, h5⟩ := addParts_map p.name parts _ hs' _ h2
      refine ⟨w ++ w', by rw [List.foldl_cons, h4, List.append_assoc], ?_⟩
      have : facesOf (p :: parts) p.name = p.faces.map (fun f => (p, f)) ++ facesOf parts p.name := by
        simp [facesOf]
      rw [this]
      exact List.rel_append h3 h5
    · obtain ⟨w', h4, h5⟩ := addParts_map name parts _ hs' v0 ((h1 _ hk).trans h0)
      refine ⟨w', h4, ?_⟩
      have : facesOf (p :: parts) name = facesOf parts name := by
        simp [facesOf, Ne.symm hk]
      rw [this]
      exact h5

theorem build_map (parts : List (Part nd)) (name : String) (h : name ∈ parts.map (·.name)) :
    ∃ w, (build parts).map name = some w ∧ List.Forall₂ Match (facesOf parts name) w := by
  have := addParts_map name parts (start parts) (fun p hp => by
    show (if _ then _ else _) ≠ none
    rw [if_pos (List.mem_map.2 ⟨p, hp, rfl⟩)]
    exact Option.some_ne_none _) [] (if_pos h)
  obtain ⟨w, h1, h2⟩ := this
  exact ⟨w, h1, h2⟩

theorem addParts_none (name : String) : ∀ (parts : List (Part nd)) (s : Store nd), (∀ p ∈ parts, p.name ≠ name) →
    s.map name = none → (parts.foldl (fun s p => p.faces.foldl (addFace p) s) s).map name = none
  | [], _, _, h => h
  | p :: parts, s, hn, h => by
    refine addParts_none name parts _ (fun q hq => hn q (List.mem_cons_of_mem _ hq)) ?_
    have hp := hn p List.mem_cons_self
    show (p.faces.foldl (addFace p) s).map name = none
    generalize p.faces = fs
    induction fs generalizing s with
    | nil => exact h
    | cons f fs ih => exact ih (addFace p s f) ((if_neg (Ne.symm hp)).trans h)

theorem addFaces_ok (p : Part nd) : ∀ (fs : List (List (Ip nd))) (s : Store nd), Ok s → Ok (fs.foldl (addFace p) s)
  | [], _, h => h
  | f :: fs, s, h => addFaces_ok p fs _ (addFace_ok p s f h)

theorem addParts_ok : ∀ (parts : List (Part nd)) (s : Store nd), Ok s → Ok (parts.foldl (fun s p => p.faces.foldl (addFace p) s) s)
  | [], _, h => h
  | p :: parts, s, h => addParts_ok parts _ (addFaces_ok p p.faces s h)

theorem build_ok (parts : List (Part nd)) : Ok (build parts) := by
  refine addParts_ok parts _ ⟨rfl, fun k v hv f hf => ?_⟩
  have hv' : (if k ∈ parts.map (·.name) then some ([] : List (List (Info nd))) else none) = some v := hv
  split_ifs at hv'
  obtain rfl := Option.some.inj hv'
  simp at hf

/-- **C337 (which names stop the run).** A reader with a part name stops the run exactly if no registered wall has that name. -/
theorem c337_throws (parts : List (Part nd)) (name : String) (c i : ℕ) :
    lookup (build parts) name c i = none ↔ ∀ p ∈ parts, p.name ≠ name := by
  constructor
  · intro h p hp hn
    obtain ⟨w, hw, -⟩ := build_map parts name (List.mem_map.2 ⟨p, hp, hn⟩)
    rw [lookup, hw] at h
    exact absurd h (by simp)
  · intro h
    have h0 : (start parts).map name = none := if_neg fun hm => by
      obtain ⟨p, hp, hn⟩ := List.mem_map.1 hm
      exact h p hp hn
    have h1 : (build parts).map name = none := addParts_none name parts _ h h0
    rw [lookup, h1]
    rfl

theorem lookup_spec {parts : List (Part nd)} {name : String} {c i : ℕ} {q : Part nd × List (Ip nd)} {ip : Ip nd}
    (hq : (facesOf parts name)[c]? = some q) (hi : q.2[i]? = some ip) (hn : name ∈ parts.map (·.name)) :
    ∃ info, lookup (build parts) name c i = some (some info) ∧ Belongs q.1 ip info ∧ (info.id, info.pt) ∈ (build parts).pts := by
  obtain ⟨w, hw, hm⟩ := build_map parts name hn
  obtain ⟨hlen, hget⟩ := List.forall₂_iff_get.1 hm
  obtain ⟨hc, hq'⟩ := List.getElem?_eq_some_iff.1 hq
  have hcw : c < w.length := hlen ▸ hc
  have hM := hget c hc hcw
  rw [List.get_eq_getElem, List.get_eq_getElem, hq'] at hM
  obtain ⟨hlen2, hget2⟩ := List.forall₂_iff_get.1 hM
  obtain ⟨hic, hip⟩ := List.getElem?_eq_some_iff.1 hi
  have hiw : i < (w[c]).length := hlen2 ▸ hic
  have hB := hget2 i hic hiw
  rw [List.get_eq_getElem, List.get_eq_getElem, hip] at hB
  refine ⟨w[c][i], ?_, hB, ?_⟩
  · rw [lookup, hw, Option.map_some, List.getElem?_eq_getElem hcw, Option.bind_some, List.getElem?_eq_getElem hiw]
  · exact (build_ok parts).2 name w hw _ (List.getElem_mem hcw) _ (List.getElem_mem hiw)

/-- **C337.** With distinct walls, the `i`-th point of the `c`-th face of a wall reads the sampling point made for it: at the distance of that
wall from the point, against its normal, with the law of that wall; and it is one of the points handed to the search, under its own number. -/
theorem c337_own_point (parts : List (Part nd)) (hn : (parts.map (·.name)).Nodup) (p : Part nd) (hp : p ∈ parts) (c i : ℕ) (f : List (Ip nd))
    (hf : p.faces[c]? = some f) (ip : Ip nd) (hi : f[i]? = some ip) :
    ∃ info, lookup (build parts) p.name c i = some (some info) ∧ info.x = ip.x ∧ info.pt = projPoint ip.x ip.area p.dist ∧ info.ode = p.ode ∧
      (info.id, info.pt) ∈ (build parts).pts := by
  have hfac : facesOf parts p.name = p.faces.map fun f => (p, f) := by
    have : parts.filter (fun q => q.name = p.name) = [p] := by
      induction parts with
      | nil => simp at hp
      | cons q qs ih =>
        rw [List.map_cons, List.nodup_cons] at hn
        rcases List.mem_cons.1 hp with rfl | hp
        · rw [List.filter_cons_of_pos (by simp), List.filter_eq_nil_iff.2]
          intro r hr hrn
          exact hn.1 (List.mem_map.2 ⟨r, hr, by simpa using hrn⟩)
        · rw [List.filter_cons_of_neg, ih hn.2 hp]
          intro hq
          exact hn.1 (List.mem_map.2 ⟨p, hp, by simpa using (of_decide_eq_true hq).symm⟩)
    rw [facesOf, this]
    simp
  obtain ⟨info, h1, ⟨h2, h3, h4⟩, h5⟩ := lookup_spec (parts := parts) (name := p.name) (c := c) (i := i) (q := (p, f)) (ip := ip)
    (by rw [hfac, List.getElem?_map, hf]; rfl) hi (List.mem_map.2 ⟨p, hp, rfl⟩)
  exact ⟨info, h1, h2, h3, h4, h5⟩

/-- C337: the numbers of the points are `0, 1, 2, ...`: no two points of a rank share one. -/
theorem c337_numbers (parts : List (Part nd)) :
    (build parts).pts.map (·.1) = List.range (parts.map fun p => (p.faces.map (·.length)).sum).sum := by
  rw [(build_ok parts).1]
  congr 1
  have hface : ∀ (p : Part nd) (fs : List (List (Ip nd))) (s : Store nd),
      (fs.foldl (addFace p) s).next = s.next + (fs.map (·.length)).sum := by
    intro p fs
    induction fs with
    | nil => intro s; simp
    | cons f fs ih => intro s; rw [List.foldl_cons, ih]; simp [addFace]; omega
  have : ∀ (ps : List (Part nd)) (s : Store nd), (ps.foldl (fun s p => p.faces.foldl (addFace p) s) s).next
      = s.next + (ps.map fun p => (p.faces.map (·.length)).sum).sum := by
    intro ps
    induction ps with
    | nil => intro s; simp
    | cons p ps ih => intro s; rw [List.foldl_cons, ih, hface]; simp; omega
  rw [build, this]
  simp [start]

/-- C337 (finding): a wall listed twice (in two boundary conditions) uses in both passes the sampling points and the law of its first entry,
while the distance of the second entry is what the second pass puts into the formulas. -/
theorem c337_listed_twice_wrong (pre mid post : List (Part nd)) (p q : Part nd) (hpre : ∀ r ∈ pre, r.name ≠ p.name)
    (hname : q.name = p.name) (hsame : q.faces = p.faces) (c i : ℕ) (f : List (Ip nd)) (hf : q.faces[c]? = some f) (ip : Ip nd)
    (hi : f[i]? = some ip) :
    ∃ info, lookup (build (pre ++ p :: mid ++ q :: post)) q.name c i = some (some info) ∧ info.pt = projPoint ip.x ip.area p.dist ∧
      info.ode = p.ode := by
  have hfac : ∃ rest, facesOf (pre ++ p :: mid ++ q :: post) q.name = p.faces.map (fun f => (p, f)) ++ rest := by
    refine ⟨facesOf (mid ++ q :: post) q.name, ?_⟩
    have h0 : pre.filter (fun r => r.name = q.name) = [] := by
      rw [List.filter_eq_nil_iff]
      intro r hr h
      exact hpre r hr (by rw [← hname]; simpa using h)
    rw [facesOf, List.append_assoc, List.filter_append, h0, List.nil_append, List.cons_append,
      List.filter_cons_of_pos (by simp [hname]), List.flatMap_cons, facesOf]
  obtain ⟨rest, hfac⟩ := hfac
  rw [hsame] at hf
  have hc := (List.getElem?_eq_some_iff.1 hf).1
  obtain ⟨info, h1, ⟨-, h3, h4⟩, -⟩ := lookup_spec (parts := pre ++ p :: mid ++ q :: post) (name := q.name) (c := c) (i := i) (q := (p, f)) (ip := ip)
    (by rw [hfac, List.getElem?_append_left (by simpa using hc), List.getElem?_map, hf]; rfl) hi
    (by simp)
  exact ⟨info, h1, h3, h4⟩

/-- C337: on a fixed mesh all calls work with the points of the first; on a moving mesh every call with those of the geometry it sees. -/
theorem c337_points_follow_mesh (g : List (Part nd)) (gs : List (List (Part nd))) :
    stores false none (g :: gs) = List.replicate (gs.length + 1) (build g) ∧ stores true none (g :: gs) = (g :: gs).map build := by
  constructor
  · have : ∀ (gs : List (List (Part nd))) (s : Store nd), stores false (some s) gs = List.replicate gs.length s := by
      intro gs
      induction gs with
      | nil => intro s; rfl
      | cons h t ih => intro s; rw [stores, if_neg (by simp), ih, List.length_cons, List.replicate_succ]
    rw [stores, this, List.replicate_succ]
  · have : ∀ (gs : List (List (Part nd))) (s : Store nd), stores true (some s) gs = gs.map build := by
      intro gs
      induction gs with
      | nil => intro s; rfl
      | cons h t ih => intro s; rw [stores, if_pos rfl, ih, List.map_cons]
    rw [stores, this, List.map_cons]

/-! ### One point -/

/-- C337: what a point writes depends on the fluid velocity only through its part along the wall relative to the wall: adding a common velocity to
fluid and wall, or any normal velocity to the fluid, changes nothing. -/
theorem c337_slip_only (c : Consts) (dist : ℝ) (info : Info nd) (p : Pt) (area u uBc frame : Fin nd → ℝ) (k rho mu : ℝ) (ha : area ≠ 0) :
    ipOut c dist info p area (fun i => u i + frame i + k * area i) (fun i => uBc i + frame i) rho mu = ipOut c dist info p area u uBc rho mu := by
  have hu := Wall.c67_unit_normal area ha
  have hpos : 0 < Wall.aMag area := by
    unfold Wall.aMag
    refine Real.sqrt_pos.2 ?_
    obtain ⟨j, hj⟩ := Function.ne_iff.1 ha
    exact Finset.sum_pos' (fun i _ => mul_self_nonneg _) ⟨j, Finset.mem_univ _, mul_self_pos.2 hj⟩
  have hn : ∀ i, area i = Wall.aMag area * Wall.unitNormal area i := fun i => by
    unfold Wall.unitNormal; field_simp
  have key : Wall.tangentialSpeed (Wall.unitNormal area) (fun i => u i + frame i + k * area i) (fun i => uBc i + frame i)
      = Wall.tangentialSpeed (Wall.unitNormal area) u uBc := by
    have h1 := Wall.c67_tangential_speed (Wall.unitNormal area) (fun i => u i + frame i + k * area i) (fun i => uBc i + frame i) hu
    have h2 := Wall.c67_tangential_speed (Wall.unitNormal area) u uBc hu
    refine (sq_eq_sq₀ h1.2.1 h2.2.1).1 ?_
    rw [h1.1, h2.1]
    have e : ∀ i, u i + frame i + k * area i - (uBc i + frame i) = (u i - uBc i) + k * Wall.aMag area * Wall.unitNormal area i := fun i => by
      rw [hn i]; simp only [← hn i]; rw [show k * Wall.aMag area * Wall.unitNormal area i = k * (Wall.aMag area * Wall.unitNormal area i) by ring, ← hn i]; ring
    simp only [e]
    generalize Wall.unitNormal area = n at hu ⊢
    generalize k * Wall.aMag area = m
    have e1 : ∑ i, (u i - uBc i + m * n i) ^ 2 = ∑ i, (u i - uBc i) ^ 2 + 2 * m * ∑ i, n i * (u i - uBc i) + m ^ 2 * ∑ i, n i * n i := by
      rw [Finset.mul_sum, Finset.mul_sum, ← Finset.sum_add_distrib, ← Finset.sum_add_distrib]
      exact Finset.sum_congr rfl fun i _ => by ring
    have e2 : ∑ i, n i * (u i - uBc i + m * n i) = ∑ i, n i * (u i - uBc i) + m * ∑ i, n i * n i := by
      rw [Finset.mul_sum, ← Finset.sum_add_distrib]
      exact Finset.sum_congr rfl fun i _ => by ring
    rw [e1, e2, hu]
    ring
  unfold ipOut
  simp only [key]

/-- C337: with the logarithmic law the value written is never below the friction velocity of the law at the distance of the wall, and at convergence
above it by at most the tolerance times a logarithm. -/
theorem c337_log_law (c : Consts) (dist : ℝ) (info : Info nd) (p : Pt) (area u uBc : Fin nd → ℝ) (rho mu : ℝ) (hode : info.ode ≤ 0)
    (hE : 0 < c.elog) (hk : 0 ≤ c.kappa) (hEy : 1 ≤ c.elog * c.yplusCrit) (hit : 1 ≤ c.maxIt) (hd : 0 < dist) (hr : 0 < rho) (hm : 0 < mu) :
    let speed := Wall.tangentialSpeed (Wall.unitNormal area) u uBc
    let out := ipOut c dist info p area u uBc rho mu
    out.dist = dist ∧ out.areaDist = out.area * out.dist ∧
    ∃ v, Wall.LawOfTheWall c.elog c.kappa speed dist rho mu v ∧ v ≤ out.utau ∧
      (out.conv = true → out.utau - v ≤ c.tol * (1 + Real.log (c.elog * (rho * dist * max (c.yplusCrit * mu / rho / dist)
          (c.yplusCrit * mu / rho / dist + c.kappa * speed) / mu)))) := by
  intro speed out
  have hs : 0 ≤ speed := Real.sqrt_nonneg _
  obtain ⟨v, hv, -⟩ := Wall.c66_law_has_unique_solution (elog := c.elog) hE hk hs hd hr hm
  obtain ⟨m, hm'⟩ : ∃ m, c.maxIt = m + 1 := ⟨c.maxIt - 1, by omega⟩
  have := Wall.c66_friction_velocity (tol := c.tol) hE hk hEy hs hd hr hm m hv
  have hout : (out.utau, out.conv) = Wall.frictionVelocity c.elog c.kappa c.yplusCrit c.tol (m + 1) speed dist rho mu := by
    rw [← hm']
    show ((ipOut c dist info p area u uBc rho mu).utau, (ipOut c dist info p area u uBc rho mu).conv) = _
    unfold ipOut
    simp only [if_neg (not_lt.2 hode)]
    rfl
  refine ⟨rfl, rfl, v, hv, ?_⟩
  rw [← hout] at this
  exact this

/-- C337: the one-dimensional model is used exactly where the wall asks for it. -/
theorem c337_ode_law (c : Consts) (dist : ℝ) (info : Info nd) (p : Pt) (area u uBc : Fin nd → ℝ) (rho mu : ℝ) (hode : 0 < info.ode) :
    (ipOut c dist info p area u uBc rho mu).utau = (utauOde c.ode c.yplusCrit (Wall.tangentialSpeed (Wall.unitNormal area) u uBc) rho mu dist p).2.1 := by
  unfold ipOut
  simp only [if_pos hode]

/-! ## C338 -/

section C338

variable {V : Type*}

/-- Specification: the events of a step whose first momentum assembly reads `a` on the owner and `b` at the wall: afterwards both read the projected
velocity of the last iteration. -/
def expected (a b : V) : List (V × V) → List (Ev V)
  | [] => []
  | q :: qs => Ev.assembly (some a) (some b) :: Ev.friction (some q.2) (some q.2) :: expected q.2 q.2 qs

theorem setNew_setNew (x y : V) (l : List V) : setNew x (setNew y l) = setNew x l := by cases l <;> rfl

/-- After an iteration the copy agrees with the owner in all states, if their older states agreed. -/
theorem iteration_spec (ghost moves : Bool) (a b : V) (l : List V) (q : V × V) (hg : ghost = false → b = a) :
    iteration ghost moves ⟨a :: l, b :: l⟩ q = (⟨q.2 :: l, q.2 :: l⟩, [Ev.assembly (some a) (some b), Ev.friction (some q.2) (some q.2)]) := by
  cases ghost <;> cases moves <;> simp [iteration, update, communicate, setNew]

theorem iterations_spec (ghost moves : Bool) : ∀ (qs : List (V × V)) (a b : V) (l : List V), (ghost = false → b = a) →
    (iterations ghost moves ⟨a :: l, b :: l⟩ qs).2 = expected a b qs ∧
    ∀ h : qs ≠ [], (iterations ghost moves ⟨a :: l, b :: l⟩ qs).1 = ⟨(qs.getLast h).2 :: l, (qs.getLast h).2 :: l⟩
  | [], a, b, l, _ => ⟨rfl, fun h => absurd rfl h⟩
  | q :: qs, a, b, l, hg => by
    obtain ⟨h1, h2⟩ := iterations_spec ghost moves qs q.2 q.2 l (fun _ => rfl)
    rw [iterations, iteration_spec ghost moves a b l q hg]
    refine ⟨by simp only [h1]; rfl, fun h => ?_⟩
    cases qs with
    | nil => rfl
    | cons r rs => rw [h2 (by simp)]; rfl

/-- The velocities at the end of the steps, the latest first, followed by the initial states. -/
def history (init : List V) (steps : List (List (V × V))) : List V :=
  (steps.filterMap fun qs => qs.getLast?.map (·.2)).reverse ++ init

theorem step_spec (ghost moves : Bool) (s : List V) (hs : 2 ≤ s.length) (qs : List (V × V)) (hq : qs ≠ []) :
    (step ghost moves ⟨s, s⟩ qs).1 = ⟨(qs.getLast hq).2 :: s.dropLast, (qs.getLast hq).2 :: s.dropLast⟩ ∧
    (step ghost moves ⟨s, s⟩ qs).2 = expected (s.head (by rintro rfl; simp at hs))
        (if ghost then s.getLast (by rintro rfl; simp at hs) else s.head (by rintro rfl; simp at hs)) qs
      ++ [Ev.report (some (qs.getLast hq).2) (some (qs.getLast hq).2)] := by
  match s, hs with
  | a :: b :: l, _ =>
    have hr : rotate (a :: b :: l) = (a :: b :: l).getLast (by simp) :: a :: (b :: l).dropLast := rfl
    have hp : predict ghost ⟨rotate (a :: b :: l), rotate (a :: b :: l)⟩
        = ⟨a :: a :: (b :: l).dropLast, (if ghost then (a :: b :: l).getLast (by simp) else a) :: a :: (b :: l).dropLast⟩ := by
      rw [hr, predict]
      cases ghost <;> rfl
    obtain ⟨h1, h2⟩ := iterations_spec ghost moves qs a (if ghost then (a :: b :: l).getLast (by simp) else a) (a :: (b :: l).dropLast)
      (fun h => by simp [h])
    have h2 := h2 hq
    rw [step, hp]
    simp only [h1, h2]
    exact ⟨rfl, rfl⟩

theorem run_append (ghost moves : Bool) (init : List V) (steps : List (List (V × V))) (qs : List (V × V)) :
    run ghost moves init (steps ++ [qs]) = ((step ghost moves (run ghost moves init steps).1 qs).1,
      (run ghost moves init steps).2 ++ [(step ghost moves (run ghost moves init steps).1 qs).2]) := by
  rw [run, List.foldl_append]; rfl

theorem history_append (init : List V) (steps : List (List (V × V))) (qs : List (V × V)) (h : qs ≠ []) :
    history init (steps ++ [qs]) = (qs.getLast h).2 :: history init steps := by
  simp [history, List.filterMap_append, List.getLast?_eq_some_getLast h]

/-- The states at the end of a step are the latest velocities, on the owner and in the copy. -/
theorem run_states (ghost moves : Bool) (init : List V) (hS : 2 ≤ init.length) : ∀ (steps : List (List (V × V))), (∀ qs ∈ steps, qs ≠ []) →
    (run ghost moves init steps).1 = ⟨(history init steps).take init.length, (history init steps).take init.length⟩ := by
  intro steps
  induction steps using List.reverseRecOn with
  | nil => intro _; simp [run, history]
  | append_singleton steps qs ih =>
    intro h
    have hq := h qs (by simp)
    have ih := ih fun q hq => h q (List.mem_append_left _ hq)
    have hlen : init.length ≤ (history init steps).length := by simp [history]
    rw [run_append, ih, (step_spec ghost moves _ (by rw [List.length_take]; omega) qs hq).1, history_append init steps qs hq]
    have : ((history init steps).take init.length).dropLast = (history init steps).take (init.length - 1) := by
      rw [List.dropLast_eq_take, List.take_take, List.length_take]
      congr 1
      omega
    rw [this]
    obtain ⟨m, hm⟩ : ∃ m, init.length = m + 1 := ⟨init.length - 1, by omega⟩
    rw [hm, List.take_succ_cons, Nat.add_sub_cancel]

/-- **C338.** In every time step, whatever the solver did before, every friction velocity, every momentum assembly from the second iteration on and
the reported force read at the wall exactly the velocity its owner holds.  The first momentum assembly reads the velocity of the end of the last
step, unless the node is only ghosted: then it reads the velocity from `S - 1` steps earlier (`S` the number of states). -/
theorem c338_exchange_velocity (ghost moves : Bool) (init : List V) (hS : 2 ≤ init.length) (steps : List (List (V × V)))
    (hsteps : ∀ qs ∈ steps, qs ≠ []) (qs : List (V × V)) (hq : qs ≠ []) :
    ∃ now old : V, (history init steps)[0]? = some now ∧ (history init steps)[init.length - 1]? = some old ∧
      (run ghost moves init (steps ++ [qs])).2 = (run ghost moves init steps).2 ++
        [expected now (if ghost then old else now) qs ++ [Ev.report (some (qs.getLast hq).2) (some (qs.getLast hq).2)]] := by
  have hlen : init.length ≤ (history init steps).length := by simp [history]
  set t := (history init steps).take init.length with ht
  have htl : t.length = init.length := by rw [ht, List.length_take]; omega
  have ht2 : 2 ≤ t.length := by omega
  have hne : t ≠ [] := by rintro h; rw [h] at ht2; simp at ht2
  refine ⟨t.head hne, t.getLast hne, ?_, ?_, ?_⟩
  · rw [List.head_eq_getElem, ← List.getElem?_eq_getElem, ht, List.getElem?_take_of_lt (by omega)]
  · rw [List.getLast_eq_getElem, ← List.getElem?_eq_getElem, htl, ht, List.getElem?_take_of_lt (by omega)]
  · rw [run_append, run_states ghost moves init hS steps hsteps, ← ht, (step_spec ghost moves t ht2 qs hq).2]

/-- C338: so what a momentum assembly reads does not depend on which rank owns the sampled element, except in the first iteration of a step; there the
two decompositions agree only if the velocity is the same as `S - 1` steps before. -/
theorem c338_first_iteration_depends_on_partition (moves : Bool) (init : List V) (hS : 2 ≤ init.length) (steps : List (List (V × V)))
    (hsteps : ∀ qs ∈ steps, qs ≠ []) (qs : List (V × V)) (hq : qs ≠ []) :
    (run true moves init (steps ++ [qs])).2 ≠ (run true moves init steps).2 ++ [((run false moves init (steps ++ [qs])).2.getLast?).getD []] ↔
      (history init steps)[0]? ≠ (history init steps)[init.length - 1]? := by
  obtain ⟨a, b, ha, hb, h1⟩ := c338_exchange_velocity true moves init hS steps hsteps qs hq
  obtain ⟨a', b', ha', hb', h2⟩ := c338_exchange_velocity false moves init hS steps hsteps qs hq
  obtain rfl : a = a' := Option.some.inj (ha.symm.trans ha')
  rw [h1, h2, ha, hb]
  simp only [List.getLast?_append, List.getLast?_singleton, Option.some_or, Option.getD_some, Bool.false_eq_true, if_true, if_false]
  rw [ne_eq, ne_eq, not_iff_not, List.append_cancel_left_eq]
  cases qs with
  | nil => exact absurd rfl hq
  | cons q qs => simp [expected, eq_comm]

/-- C338 (a case): two states, velocities 1, 2, 3 at the end of three steps. In the fourth step the first assembly of a rank that owns the sampled
element reads 3, that of a rank that does not reads 2. -/
example : ((run true false [(0 : ℤ), 0] [[(9, 1)], [(9, 2)], [(9, 3)], [(9, 4), (9, 5)]]).2.getLast?,
    (run false false [(0 : ℤ), 0] [[(9, 1)], [(9, 2)], [(9, 3)], [(9, 4), (9, 5)]]).2.getLast?) =
  (some [Ev.assembly (some 3) (some 2), Ev.friction (some 4) (some 4), Ev.assembly (some 4) (some 4), Ev.friction (some 5) (some 5),
      Ev.report (some 5) (some 5)],
    some [Ev.assembly (some 3) (some 3), Ev.friction (some 4) (some 4), Ev.assembly (some 4) (some 4), Ev.friction (some 5) (some 5),
      Ev.report (some 5) (some 5)]) := rfl

end C338

/-! ## C339 -/

theorem corners_bound : ∀ (nodes : List (Fin nd → ℝ)) (b : (Fin nd → ℝ) × (Fin nd → ℝ)) (j : Fin nd),
    let r := nodes.foldl (fun (b : (Fin nd → ℝ) × (Fin nd → ℝ)) x => (fun j => min (b.1 j) (x j), fun j => max (b.2 j) (x j))) b
    r.1 j ≤ b.1 j ∧ b.2 j ≤ r.2 j ∧ ∀ x ∈ nodes, r.1 j ≤ x j ∧ x j ≤ r.2 j
  | [], b, j => ⟨le_rfl, le_rfl, fun _ h => absurd h (by simp)⟩
  | y :: nodes, b, j => by
    obtain ⟨h1, h2, h3⟩ := corners_bound nodes (fun j => min (b.1 j) (y j), fun j => max (b.2 j) (y j)) j
    refine ⟨h1.trans (min_le_left _ _), (le_max_left _ _).trans h2, fun x hx => ?_⟩
    rcases List.mem_cons.1 hx with rfl | hx
    · exact ⟨h1.trans (min_le_right _ _), (le_max_right _ _).trans h2⟩
    · exact h3 x hx

/-- Specification: `x` is a weighted mean of the node coordinates, as every point `Σ N_i x_i` of an element with nonnegative shape functions. -/
def InHull (nodes : List (Fin nd → ℝ)) (x : Fin nd → ℝ) : Prop :=
  ∃ w : List ℝ, w.length = nodes.length ∧ (∀ a ∈ w, 0 ≤ a) ∧ w.sum = 1 ∧ ∀ j, x j = ((w.zip nodes).map fun q => q.1 * q.2 j).sum

theorem hull_between {lo hi : ℝ} (j : Fin nd) : ∀ (w : List ℝ) (nodes : List (Fin nd → ℝ)), w.length = nodes.length → (∀ a ∈ w, 0 ≤ a) →
    (∀ x ∈ nodes, lo ≤ x j ∧ x j ≤ hi) →
    lo * w.sum ≤ ((w.zip nodes).map fun q => q.1 * q.2 j).sum ∧ ((w.zip nodes).map fun q => q.1 * q.2 j).sum ≤ hi * w.sum
  | [], [], _, _, _ => by simp
  | a :: w, y :: nodes, hl, hw, hb => by
    obtain ⟨h1, h2⟩ := hull_between j w nodes (by simpa using hl) (fun b hb => hw b (List.mem_cons_of_mem _ hb))
      (fun x hx => hb x (List.mem_cons_of_mem _ hx))
    have ha := hw a List.mem_cons_self
    obtain ⟨h3, h4⟩ := hb y List.mem_cons_self
    simp only [List.zip_cons_cons, List.map_cons, List.sum_cons]
    constructor <;> nlinarith [mul_le_mul_of_nonneg_left h3 ha, mul_le_mul_of_nonneg_left h4 ha]

/-- C339: the search box of an element contains every point of the element, whatever the (nonnegative) expansion. -/
theorem c339_box_contains (pct : ℝ) (hp : 0 ≤ pct) (nodes : List (Fin nd → ℝ)) (x : Fin nd → ℝ) (h : InHull nodes x) (j : Fin nd) :
    (box pct nodes).1 j ≤ x j ∧ x j ≤ (box pct nodes).2 j := by
  obtain ⟨w, hl, hw, hs, hx⟩ := h
  obtain ⟨-, -, hb⟩ := corners_bound nodes (fun _ => 1e16, fun _ => -1e16) j
  obtain ⟨h1, h2⟩ := hull_between j w nodes hl hw hb
  rw [hs, mul_one, ← hx] at h1 h2
  change (corners nodes).1 j ≤ x j at h1
  change x j ≤ (corners nodes).2 j at h2
  have : 0 ≤ pct * ((corners nodes).2 j - (corners nodes).1 j) := mul_nonneg hp (by linarith)
  constructor
  · show (corners nodes).1 j - _ ≤ _
    linarith
  · show _ ≤ (corners nodes).2 j + _
    linarith

theorem mem_allPairs {pct : ℝ} {pts : List (SPoint nd)} {elems : List (SElem nd)} {q : SPair} :
    q ∈ allPairs pct pts elems ↔ ∃ p ∈ pts, ∃ e ∈ elems, (∀ j, (box pct e.nodes).1 j ≤ p.pt j ∧ p.pt j ≤ (box pct e.nodes).2 j) ∧
      q = ⟨p.id, p.proc, e.elem, e.proc⟩ := by
  simp only [allPairs, List.mem_flatMap, List.mem_map, List.mem_filter, decide_eq_true_eq]
  constructor
  · rintro ⟨p, hp, e, ⟨he, hb⟩, rfl⟩; exact ⟨p, hp, e, he, hb, rfl⟩
  · rintro ⟨p, hp, e, he, hb, rfl⟩; exact ⟨p, hp, e, ⟨he, hb⟩, rfl⟩

/-- **C339.** If a sampling point lies in some element of the mesh, whichever rank owns that element, the run does not stop; and if the element search
in that element gives a distance below the starting bound, the point gets an element whose distance is not larger. -/
theorem c339_found {I : Type*} (pct : ℝ) (hpct : 0 ≤ pct) (pts : List (SPoint nd)) (elems : List (SElem nd)) (p : SPoint nd) (hp : p ∈ pts)
    (e : SElem nd) (he : e ∈ elems) (hin : InHull e.nodes p.pt) (bestRef : ℝ) (isIn : ℕ → ℝ × I) :
    let l := toPairs (pairsOn p.proc (allPairs pct pts elems))
    completeSearch bestRef p.proc isIn l p.id ≠ none ∧
    ((isIn e.elem).1 < bestRef → ∃ b, b ≤ (isIn e.elem).1 ∧ ∃ k, (isIn k).1 = b ∧
      completeSearch bestRef p.proc isIn l p.id = some ⟨some k, some (isIn k).2, b⟩) := by
  intro l
  have hm : (⟨p.id, p.proc, e.elem⟩ : Pair) ∈ l :=
    List.mem_map.2 ⟨⟨p.id, p.proc, e.elem, e.proc⟩, List.mem_filter.2 ⟨mem_allPairs.2
      ⟨p, hp, e, he, fun j => c339_box_contains pct hpct e.nodes p.pt hin j, rfl⟩, by simp⟩, rfl⟩
  constructor
  · rw [ne_eq, c216_throws]
    intro h
    exact h _ hm rfl
  · intro hb
    obtain ⟨q, -, -, -, h4, h5⟩ := c216_nearest_owner (rank := p.proc) (isIn := isIn) bestRef l p.id _ hm rfl rfl hb
    exact ⟨_, h5 _ hm rfl rfl, q.box, rfl, h4⟩

/-- C339: every element a rank looks at in the fine search is its own or sent to it by the owner. -/
theorem c339_candidates_present (pct : ℝ) (pts : List (SPoint nd)) (elems : List (SElem nd)) (r : ℕ) (q : SPair)
    (hq : q ∈ pairsOn r (allPairs pct pts elems)) (hr : q.ptProc = r) :
    (∃ e ∈ elems, e.elem = q.elem ∧ e.proc = q.boxProc) ∧
    (q.boxProc = r ∨ (q.elem, r) ∈ elemsToGhost q.boxProc (allPairs pct pts elems)) := by
  have hall := (List.mem_filter.1 hq).1
  obtain ⟨p, -, e, he, -, heq⟩ := mem_allPairs.1 hall
  refine ⟨⟨e, he, by rw [heq], by rw [heq]⟩, ?_⟩
  by_cases h : q.boxProc = r
  · exact Or.inl h
  · refine Or.inr (List.mem_map.2 ⟨q, List.mem_filter.2 ⟨List.mem_filter.2 ⟨hall, by simp⟩, ?_⟩, by rw [hr]⟩)
    simp only [Bool.and_eq_true, decide_eq_true_eq, true_and]
    rw [hr]
    exact fun h' => h h'.symm

/-- C339: nothing else is sent: what is sent to a rank is a candidate for one of its points, and not its own. -/
theorem c339_nothing_else_sent (pct : ℝ) (pts : List (SPoint nd)) (elems : List (SElem nd)) (r d k : ℕ)
    (h : (k, d) ∈ elemsToGhost r (allPairs pct pts elems)) :
    d ≠ r ∧ ∃ q ∈ pairsOn d (allPairs pct pts elems), q.ptProc = d ∧ q.elem = k ∧ q.boxProc = r := by
  obtain ⟨q, hq, he⟩ := List.mem_map.1 h
  obtain ⟨h1, h2⟩ := List.mem_filter.1 hq
  simp only [Bool.and_eq_true, decide_eq_true_eq, ne_eq] at h2
  obtain ⟨rfl, rfl⟩ := Prod.mk.inj he
  exact ⟨h2.2, q, List.mem_filter.2 ⟨(List.mem_filter.1 h1).1, by simp⟩, rfl, rfl, h2.1⟩

/-- C339 (a case): a unit square on rank 1 and a point of rank 0 inside it. -/
example : InHull [![0, 0], ![1, 0], ![1, 1], ![0, 1]] (![1/2, 1/4] : Fin 2 → ℝ) := by
  refine ⟨[3/8, 3/8, 1/8, 1/8], rfl, ?_, by norm_num, fun j => ?_⟩
  · intro a ha
    simp only [List.mem_cons, List.not_mem_nil, or_false] at ha
    rcases ha with rfl | rfl | rfl | rfl <;> norm_num
  · fin_cases j <;> norm_num

/-- C337 (a case): two walls with two points each; the second point of the second wall. -/
example : ∃ info, lookup (build [⟨"a", 1, 0, [[⟨![0, 0], ![0, 1]⟩, ⟨![1, 0], ![0, 1]⟩]]⟩,
      (⟨"b", 2, 1, [[⟨![0, 5], ![0, 1]⟩, ⟨![1, 5], ![0, 1]⟩]]⟩ : Part 2)]) "b" 0 1 = some (some info) ∧ info.id = 3 ∧ info.ode = 1 ∧
    info.pt = ![1, 3] := by
  refine ⟨_, rfl, rfl, rfl, ?_⟩
  funext j
  fin_cases j <;> simp [projPoint, Fin.sum_univ_two] <;> norm_num

end Nalu.ProjWall
