import Verif.Model.Schedule2
import Verif.Props.GasDynamics
import Mathlib.Data.List.Induction
import Mathlib.Tactic.Linarith
import Mathlib.Tactic.FieldSimp
import Mathlib.Tactic.Ring
import Mathlib.Tactic.NormNum

/-
C329-C333: order of operations, second part.
-/
namespace Nalu.Schedule2

/-! ### C329: the finite element low Mach pair -/
section fem
variable {Geo MV R U P GP : Type}

theorem femRun_append (S : Fem Geo MV R U P GP) (s : FemSt Geo MV U P GP)
    (es : List (FemEv Geo MV R U P)) (e : FemEv Geo MV R U P) :
    femRun S s (es ++ [e]) = femExec S (femRun S s es) e := by
  simp [femRun, List.foldl_append]

/-- internal: induction over passes and events. -/
theorem fem_induct (S : Fem Geo MV R U P GP)
    (Q T : FemSt Geo MV U P GP × List (FemView Geo MV R U P GP × FemView Geo MV R U P GP) → Prop)
    (hT : ∀ a, T a → Q a)
    (hstep : ∀ a, Q a → Q (femExec S a .step))
    (ok : Geo → Prop)
    (hadv : ∀ a geo mv, ok geo → Q a → Q (femExec S a (.advance geo mv)))
    (hent : ∀ a, Q a → T (femEnter S a.1, a.2))
    (hpass : ∀ a rho d, T a → T (femPass S rho a d))
    (s : FemSt Geo MV U P GP) (h0 : Q (femRun S s []))
    (es : List (FemEv Geo MV R U P))
    (hok : ∀ e ∈ es, match e with | .advance geo _ => ok geo | _ => True) :
    Q (femRun S s es) := by
  induction es using List.reverseRecOn with
  | nil => exact h0
  | append_singleton es e ih =>
    have ih := ih (fun x hx => hok x (List.mem_append_left _ hx))
    have he := hok e (by simp)
    rw [femRun_append]
    cases e with
    | step => exact hstep _ ih
    | advance geo mv => exact hadv _ geo mv he ih
    | solve rho ds =>
      refine hT _ ?_
      simp only [femExec]
      have h := hent _ ih
      have hfold : ∀ (ds : List (U × P)) a, T a → T (ds.foldl (femPass S rho) a) := by
        intro ds
        induction ds with
        | nil => intro a h; exact h
        | cons d ds ih2 => intro a h; rw [List.foldl_cons]; exact ih2 _ (hpass _ rho d h)
      exact hfold ds _ h

/-- C329.  In every run of the finite element pair, moving mesh or not, the velocity and pressure
gradient a momentum assembly builds its advecting flux from are exactly the relative velocity and
pressure gradient the last continuity assembly read, and its pressure is the one that solve produced. -/
theorem c329_flux_of_last_continuity (S : Fem Geo MV R U P GP)
    (s : FemSt Geo MV U P GP) (es : List (FemEv Geo MV R U P)) :
    ∀ pre a b post, (femRun S s es).2 = pre ++ a :: b :: post →
      b.1.vrtmL = a.2.vrtm ∧ b.1.dpdxL = a.2.dpdx ∧ ∃ dp, b.1.p = S.addP a.2.p dp := by
  let Good : List (FemView Geo MV R U P GP × FemView Geo MV R U P GP) → Prop := fun l =>
    ∀ pre a b post, l = pre ++ a :: b :: post →
      b.1.vrtmL = a.2.vrtm ∧ b.1.dpdxL = a.2.dpdx ∧ ∃ dp, b.1.p = S.addP a.2.p dp
  let Last : FemSt Geo MV U P GP → List (FemView Geo MV R U P GP × FemView Geo MV R U P GP) → Prop :=
    fun t l => ∀ pre a, l = pre ++ [a] →
      t.vrtmL = a.2.vrtm ∧ t.dpdxL = a.2.dpdx ∧ ∃ dp, t.p = S.addP a.2.p dp
  have H := fem_induct S
    (fun a => Good a.2 ∧ Last a.1 a.2 ∧ (a.1.isInit = true → a.2 = []))
    (fun a => Good a.2 ∧ Last a.1 a.2 ∧ a.1.isInit = false)
    (fun _ h => ⟨h.1, h.2.1, fun hi => by rw [h.2.2] at hi; cases hi⟩)
    (fun a h => h) (fun _ => True) (fun a geo mv _ h => h)
    (by
      intro a h
      obtain ⟨h1, h2, h3⟩ := h
      refine ⟨h1, ?_, ?_⟩
      · by_cases hi : a.1.isInit = true
        · intro pre x hx
          simp only [h3 hi] at hx
          simp at hx
        · simpa [femEnter, hi] using h2
      · by_cases hi : a.1.isInit = true <;> simp [femEnter, hi, copyLagged])
    (by
      intro a rho d h
      obtain ⟨h1, h2, h3⟩ := h
      refine ⟨?_, ?_, h3⟩
      · intro pre x y post hx
        simp only [femPass] at hx
        rcases List.eq_nil_or_concat post with hp | ⟨post', z, hp⟩
        · subst hp
          rw [show pre ++ [x, y] = (pre ++ [x]) ++ [y] by simp] at hx
          obtain ⟨e1, e2⟩ := List.append_inj' hx rfl
          simp only [List.cons.injEq, and_true] at e2
          subst e2
          exact h2 pre x e1
        · subst hp
          rw [List.concat_eq_append] at hx
          rw [show pre ++ x :: y :: (post' ++ [z]) = (pre ++ x :: y :: post') ++ [z] by simp] at hx
          obtain ⟨e1, _⟩ := List.append_inj' hx rfl
          exact h1 pre x y post' e1
      · intro pre x hx
        simp only [femPass] at hx
        obtain ⟨_, this⟩ := List.append_inj' hx rfl
        simp only [List.cons.injEq, and_true] at this
        subst this
        exact ⟨rfl, rfl, d.2, rfl⟩)
    s ⟨by intro pre a b post h; simp [femRun] at h,
      by intro pre a h; simp [femRun] at h, by intro _; rfl⟩ es (by intro e _; cases e <;> trivial)
  exact H.1

/-- C329.  Every assembly reads the relative velocity of the velocity it reads; on a fixed mesh also
the gradient of the pressure it reads. -/
theorem c329_fields_current (S : Fem Geo MV R U P GP)
    (s : FemSt Geo MV U P GP) (hs : s.isInit = true) (es : List (FemEv Geo MV R U P)) :
    (∀ a ∈ (femRun S s es).2,
      a.1.vrtm = S.rel a.1.mv a.1.u ∧ a.2.vrtm = S.rel a.2.mv a.2.u) ∧
    ((∀ e ∈ es, match e with | .advance geo _ => geo = s.geo | _ => True) →
      ∀ a ∈ (femRun S s es).2,
        a.1.dpdx = S.gradP a.1.geo a.1.p ∧ a.2.dpdx = S.gradP a.2.geo a.2.p) := by
  constructor
  · have H := fem_induct S
      (fun a => a.1.vrtm = S.rel a.1.mv a.1.u ∧ ∀ x ∈ a.2,
        x.1.vrtm = S.rel x.1.mv x.1.u ∧ x.2.vrtm = S.rel x.2.mv x.2.u)
      (fun a => a.1.vrtm = S.rel a.1.mv a.1.u ∧ ∀ x ∈ a.2,
        x.1.vrtm = S.rel x.1.mv x.1.u ∧ x.2.vrtm = S.rel x.2.mv x.2.u)
      (fun _ h => h) (fun a h => h) (fun _ => True)
      (fun a geo mv _ h => ⟨rfl, h.2⟩)
      (by
        intro a h
        refine ⟨?_, h.2⟩
        by_cases hi : a.1.isInit = true
        · simpa [femEnter, hi, copyLagged] using h.1
        · simpa [femEnter, hi] using h.1)
      (by
        intro a rho d h
        refine ⟨rfl, ?_⟩
        intro x hx
        simp only [femPass, List.mem_append, List.mem_singleton] at hx
        rcases hx with hx | hx
        · exact h.2 x hx
        · subst hx; exact ⟨h.1, rfl⟩)
      s ⟨rfl, by simp [femRun]⟩ es (by intro e _; cases e <;> trivial)
    exact H.2
  · intro hf
    have H := fem_induct S
      (fun a => a.1.geo = s.geo ∧ (a.1.isInit = true ∨ a.1.dpdx = S.gradP a.1.geo a.1.p) ∧
        ∀ x ∈ a.2, x.1.dpdx = S.gradP x.1.geo x.1.p ∧ x.2.dpdx = S.gradP x.2.geo x.2.p)
      (fun a => a.1.geo = s.geo ∧ a.1.dpdx = S.gradP a.1.geo a.1.p ∧
        ∀ x ∈ a.2, x.1.dpdx = S.gradP x.1.geo x.1.p ∧ x.2.dpdx = S.gradP x.2.geo x.2.p)
      (fun _ h => ⟨h.1, Or.inr h.2.1, h.2.2⟩) (fun a h => h) (fun g => g = s.geo)
      (by
        intro a geo mv hg h
        obtain ⟨h1, h2, h4⟩ := h
        subst hg
        rw [h1] at h2
        exact ⟨rfl, h2, h4⟩)
      (by
        intro a h
        obtain ⟨h1, h2, h4⟩ := h
        by_cases hi : a.1.isInit = true
        · rw [show femEnter S a.1 = copyLagged { a.1 with dpdx := S.gradP a.1.geo a.1.p, isInit := false }
            by simp [femEnter, hi]]
          exact ⟨h1, rfl, h4⟩
        · rcases h2 with h2 | h2
          · exact absurd h2 hi
          · rw [show femEnter S a.1 = a.1 by simp [femEnter, hi]]
            exact ⟨h1, h2, h4⟩)
      (by
        intro a rho d h
        obtain ⟨h1, h2, h4⟩ := h
        refine ⟨h1, rfl, ?_⟩
        intro x hx
        simp only [femPass, List.mem_append, List.mem_singleton] at hx
        rcases hx with hx | hx
        · exact h4 x hx
        · subst hx; exact ⟨h2, h2⟩)
      s ⟨rfl, Or.inl hs, by simp [femRun]⟩ es hf
    exact H.2.2

/-- C329.  The first momentum assembly, if the first solve makes a pass, builds its flux from the
initial fields. -/
theorem c329_first_flux (S : Fem Geo MV R U P GP) (s : FemSt Geo MV U P GP)
    (hs : s.isInit = true) (geo : Geo) (mv : MV) (rho : R) (d : U × P) (ds : List (U × P)) :
    ∃ a post, (femRun S s [.step, .advance geo mv, .solve rho (d :: ds)]).2 = a :: post ∧
      a.1.vrtmL = S.rel mv s.u ∧ a.1.dpdxL = S.gradP geo s.p ∧ a.1.p = s.p := by
  have hgrow : ∀ (ds : List (U × P)) b x l, b.2 = x :: l →
      ∃ post, (ds.foldl (femPass S rho) b).2 = x :: post := by
    intro ds
    induction ds with
    | nil => intro b x l hb; exact ⟨l, hb⟩
    | cons d ds ih =>
      intro b x l hb
      rw [List.foldl_cons]
      exact ih _ x (l ++ _) (by simp only [femPass, hb, List.cons_append]; rfl)
  simp only [femRun, List.foldl_cons, List.foldl_nil, femExec, femEnter, hs, if_true]
  have h2 : ∀ X, ∃ a post, (ds.foldl (femPass S rho) (femPass S rho (X, []) d)).2 = a :: post ∧
      a.1 = X.view rho := by
    intro X
    obtain ⟨post, hpost⟩ := hgrow ds (femPass S rho (X, []) d) _ [] rfl
    exact ⟨_, post, hpost, rfl⟩
  obtain ⟨a, post, h3, h4⟩ := h2 _
  refine ⟨a, post, h3, ?_, ?_, ?_⟩ <;> rw [h4] <;> rfl

/-- a concrete pair -/
def demoFem : Fem Int Int Int Int Int Int where
  gradP geo p := geo * p
  rel mv u := u - mv
  proj _ u dp old := u - (dp - old)
  addU u d := u + d
  addP p d := p + d

/-- non-vacuity: two solves with three passes, a time step and a moving mesh. -/
example : (femRun demoFem ⟨1, 0, 1, 1, 1, 1, 0, 0, 0, 0, true⟩
      [.advance 1 0, .solve 2 [(1, 1), (3, 2)], .step, .advance 4 1, .solve 2 [(1, 1)]]).2.map
        (fun a => (a.1.u, a.1.p, a.1.dpdxL, a.1.vrtmL, a.2.dpdx, a.2.vrtm)) =
      [(1, 1, 1, 1, 1, 2), (1, 2, 1, 2, 2, 4), (2, 4, 2, 4, 4, 2)] := rfl

end fem

/-! ### C330: explicit gas dynamics -/
section gas
variable {n : ℕ}

/-- Specification: the auxiliary fields are those of the conserved ones. -/
structure AuxOf (G : Gas) (s : GasSt n) : Prop where
  u : ∀ j, s.u j = s.mom j / s.rho
  p : s.p = (G.gamma - 1) * (s.te - 1 / 2 * s.rho * ∑ j, s.u j * s.u j)
  T : s.T = (s.te / s.rho - 1 / 2 * ∑ j, s.u j * s.u j) / G.cv
  h : s.h = G.cp * s.T
  H : s.H = s.rho * (s.h + 1 / 2 * ∑ j, s.u j * s.u j)
  c : s.c = Real.sqrt (G.gamma * s.p / s.rho)
  M : s.M = Real.sqrt (∑ j, s.u j * s.u j) / s.c

theorem auxOf_auxUpdate (G : Gas) (s : GasSt n) : AuxOf G (auxUpdate G s) where
  u := by intro j; simp [auxUpdate, Nalu.Gas.velocityOf, div_eq_mul_inv]
  p := rfl
  T := rfl
  h := rfl
  H := rfl
  c := rfl
  M := rfl

/-- A consistent perfect gas and a physical initial state. -/
structure Good (G : Gas) (p T : ℝ) : Prop where
  cv : G.cv ≠ 0
  mw : G.mw ≠ 0
  R : G.R ≠ 0
  p : p ≠ 0
  T : T ≠ 0
  gamma : G.gamma = G.cp / G.cv
  gas : G.cp - G.cv = G.R / G.mw

theorem auxOf_init (G : Gas) (u : Fin n → ℝ) (p T : ℝ) (hG : Good G p T) :
    AuxOf G (gasInit G u p T) := by
  obtain ⟨h1, h2, h3, h4, h5, h6, h7⟩ := hG
  have hrho : p * G.mw / (G.R * T) ≠ 0 :=
    div_ne_zero (mul_ne_zero h4 h2) (mul_ne_zero h3 h5)
  have hR : G.R = (G.cp - G.cv) * G.mw := by rw [h7]; field_simp
  have hg1 : G.gamma - 1 ≠ 0 := by
    rw [h6]
    intro h
    have : G.cp - G.cv = 0 := by field_simp at h; linarith
    rw [h7] at this
    exact (div_ne_zero h3 h2) this
  have hcc : G.cp - G.cv ≠ 0 := by rw [h7]; exact div_ne_zero h3 h2
  refine ⟨?_, ?_, ?_, rfl, rfl, rfl, rfl⟩
  · intro j
    simp only [gasInit, Nalu.Gas.momentumOf]
    field_simp
  · simp only [gasInit, Nalu.Gas.totalEnergyOf, Nalu.Gas.uSq]
    field_simp
    ring
  · simp only [gasInit, Nalu.Gas.totalEnergyOf, Nalu.Gas.uSq]
    generalize hK : (∑ j, u j * u j) = K
    have hq : p / (G.gamma - 1) / (p * G.mw / (G.R * T)) = G.cv * T := by
      rw [h6, hR]
      have : G.cp / G.cv - 1 = (G.cp - G.cv) / G.cv := by field_simp
      rw [this]
      field_simp
    have : (p / (G.gamma - 1) + 1 / 2 * (p * G.mw / (G.R * T)) * K) / (p * G.mw / (G.R * T))
        = G.cv * T + 1 / 2 * K := by
      rw [add_div, hq]
      congr 1
      generalize p * G.mw / (G.R * T) = r at hrho
      field_simp
    rw [this]
    field_simp
    ring

/-- C330.  In every run of the explicit gas dynamics, after any history of time steps and sweeps, at
every node: velocity, pressure, temperature, enthalpies, speed of sound and Mach number are those of
the current density, momentum and total energy; so every flux assembly works with one consistent
state. -/
theorem c330_auxiliary_current (G : Gas) (u : Fin n → ℝ) (p T : ℝ) (hG : Good G p T)
    (es : List (GasEv n)) : AuxOf G (es.foldl (gasExec G) (gasInit G u p T)) := by
  induction es using List.reverseRecOn with
  | nil => exact auxOf_init G u p T hG
  | append_singleton es e ih =>
    rw [List.foldl_append, List.foldl_cons, List.foldl_nil]
    generalize es.foldl (gasExec G) (gasInit G u p T) = s at ih
    cases e with
    | step => exact ⟨ih.u, ih.p, ih.T, ih.h, ih.H, ih.c, ih.M⟩
    | solve d =>
      cases d with
      | none => exact auxOf_auxUpdate G s
      | some d => exact auxOf_auxUpdate G _

/-- C330.  A Dirichlet node keeps the user's velocity, pressure and temperature for the whole run. -/
theorem c330_dirichlet_kept (G : Gas) (u : Fin n → ℝ) (p T : ℝ) (hG : Good G p T)
    (es : List (GasEv n)) (hd : ∀ e ∈ es, match e with | .step => True | .solve d => d = none) :
    (es.foldl (gasExec G) (gasInit G u p T)).u = u ∧
    (es.foldl (gasExec G) (gasInit G u p T)).p = p ∧
    (es.foldl (gasExec G) (gasInit G u p T)).T = T := by
  have hcons : (es.foldl (gasExec G) (gasInit G u p T)).rho = (gasInit G u p T).rho ∧
      (es.foldl (gasExec G) (gasInit G u p T)).mom = (gasInit G u p T).mom ∧
      (es.foldl (gasExec G) (gasInit G u p T)).te = (gasInit G u p T).te := by
    induction es using List.reverseRecOn with
    | nil => exact ⟨rfl, rfl, rfl⟩
    | append_singleton es e ih =>
      have ih := ih (fun x hx => hd x (List.mem_append_left _ hx))
      have he := hd e (by simp)
      rw [List.foldl_append, List.foldl_cons, List.foldl_nil]
      generalize es.foldl (gasExec G) (gasInit G u p T) = s at ih
      cases e with
      | step => exact ih
      | solve d =>
        simp only at he
        subst he
        exact ih
  have hA := c330_auxiliary_current G u p T hG es
  have hB := auxOf_init G u p T hG
  obtain ⟨e1, e2, e3⟩ := hcons
  have hu : (es.foldl (gasExec G) (gasInit G u p T)).u = u := by
    funext j
    rw [hA.u, e1, e2, ← hB.u]
    rfl
  refine ⟨hu, ?_, ?_⟩
  · rw [hA.p, e1, e3, hu]
    exact hB.p.symm
  · rw [hA.T, e1, e3, hu]
    exact hB.T.symm

/-- C330.  At the start both time states of the conserved fields agree, so a first sweep already
starts from the initial fields. -/
theorem c330_start_states_agree (G : Gas) (u : Fin n → ℝ) (p T : ℝ) :
    (gasInit G u p T).rhoN = (gasInit G u p T).rho ∧ (gasInit G u p T).momN = (gasInit G u p T).mom ∧
    (gasInit G u p T).teN = (gasInit G u p T).te ∧
    (gasInit G u p T).te = p / (G.gamma - 1) + 1 / 2 * ((gasInit G u p T).rho * ∑ j, u j ^ 2) ∧
    (gasExec G (gasInit G u p T) .step).te = (gasInit G u p T).te := by
  refine ⟨rfl, rfl, rfl, ?_, rfl⟩
  have : Nalu.Gas.uSq u = ∑ j, u j ^ 2 := by
    unfold Nalu.Gas.uSq
    exact Finset.sum_congr rfl (fun j _ => by ring)
  simp only [gasInit, Nalu.Gas.totalEnergyOf, this, mul_assoc]

/-- C330.  However many sweeps a time step makes, the conserved fields at its end are the fields of
the step before plus the increment of the last sweep alone. -/
theorem c330_sweeps_do_not_accumulate (G : Gas) (s : GasSt n)
    (ds : List (ℝ × (Fin n → ℝ) × ℝ)) (d : ℝ × (Fin n → ℝ) × ℝ) :
    let r := ((ds ++ [d]).map (fun d => GasEv.solve (some d))).foldl (gasExec G) (gasExec G s .step)
    r.rho = s.rho + d.1 ∧ (∀ j, r.mom j = s.mom j + d.2.1 j) ∧ r.te = s.te + d.2.2 := by
  have hN : ∀ (ds : List (ℝ × (Fin n → ℝ) × ℝ)) (t : GasSt n),
      ((ds.map (fun d => GasEv.solve (some d))).foldl (gasExec G) t).rhoN = t.rhoN ∧
      ((ds.map (fun d => GasEv.solve (some d))).foldl (gasExec G) t).momN = t.momN ∧
      ((ds.map (fun d => GasEv.solve (some d))).foldl (gasExec G) t).teN = t.teN := by
    intro ds
    induction ds with
    | nil => intro t; exact ⟨rfl, rfl, rfl⟩
    | cons d ds ih =>
      intro t
      rw [List.map_cons, List.foldl_cons]
      obtain ⟨a, b, c⟩ := ih (gasExec G t (.solve (some d)))
      exact ⟨by rw [a]; rfl, by rw [b]; rfl, by rw [c]; rfl⟩
  obtain ⟨a, b, c⟩ := hN ds (gasExec G s .step)
  intro r
  have hr : r = gasExec G ((ds.map (fun d => GasEv.solve (some d))).foldl (gasExec G)
      (gasExec G s .step)) (.solve (some d)) := by
    simp only [r, List.map_append, List.map_cons, List.map_nil, List.foldl_append, List.foldl_cons,
      List.foldl_nil]
  rw [hr]
  generalize (ds.map (fun d => GasEv.solve (some d))).foldl (gasExec G) (gasExec G s .step) = t at a b c
  refine ⟨?_, ?_, ?_⟩
  · show t.rhoN + d.1 = _
    rw [a]; rfl
  · intro j
    show t.momN j + d.2.1 j = _
    rw [b]; rfl
  · show t.teN + d.2.2 = _
    rw [c]; rfl

/-- non-vacuity: air-like gas. -/
example : Good ⟨7 / 5, 7, 5, 1, 2⟩ 3 4 := by
  constructor <;> norm_num

end gas

/-! ### C331: temperature and properties -/
section thermo
variable {H T Y Pr : Type}

/-- C331.  In every run, every sweep over the equation systems starts with properties evaluated from
exactly the temperature and composition it starts with, whatever transfers wrote before. -/
theorem c331_properties_current_at_every_sweep (S : Thermo H T Y Pr) (s : ThSt H T Y Pr)
    (es : List (ThEv H T Y)) :
    ∀ v ∈ (thRun S s es).2, v.pr = S.prop v.T v.y := by
  induction es using List.reverseRecOn with
  | nil => intro v hv; simp [thRun] at hv
  | append_singleton es e ih =>
    have hr : thRun S s (es ++ [e]) = (match e with
      | .advance qs => thAdvance S (thRun S s es) qs
      | .outside t y => ({ (thRun S s es).1 with T := t, y := y }, (thRun S s es).2)) := by
      simp only [thRun, List.foldl_append, List.foldl_cons, List.foldl_nil]
      cases e <;> rfl
    rw [hr]
    generalize thRun S s es = a at ih
    cases e with
    | outside t y => exact ih
    | advance qs =>
      simp only [thAdvance]
      have hfold : ∀ (qs : List (H × Y)) (b : ThSt H T Y Pr × List (ThView H T Y Pr)),
          b.1.pr = S.prop b.1.T b.1.y → (∀ v ∈ b.2, v.pr = S.prop v.T v.y) →
          ∀ v ∈ (qs.foldl (thSolve S) b).2, v.pr = S.prop v.T v.y := by
        intro qs
        induction qs with
        | nil => intro b _ hb; exact hb
        | cons q qs ih2 =>
          intro b h1 h2
          rw [List.foldl_cons]
          refine ih2 _ rfl ?_
          intro v hv
          simp only [thSolve, List.mem_append, List.mem_singleton] at hv
          rcases hv with hv | hv
          · exact h2 v hv
          · subst hv; exact h1
      exact hfold qs _ rfl ih

/-- C331.  After every advance that makes a sweep (so: in what is written to results and restart,
unless data come from outside afterwards): properties belong to the temperature and composition, the
temperature is the one extracted from the enthalpy, and the enthalpy carries the boundary values of the
current composition. -/
theorem c331_state_after_advance (S : Thermo H T Y Pr) (s : ThSt H T Y Pr)
    (es : List (ThEv H T Y)) (qs : List (H × Y)) (q : H × Y) :
    let r := (thRun S s (es ++ [.advance (qs ++ [q])])).1
    r.pr = S.prop r.T r.y ∧ r.y = q.2 ∧ r.h = S.bc r.y q.1 ∧ ∃ guess, r.T = S.ext r.h r.y guess := by
  intro r
  have hr : r = (thSolve S (qs.foldl (thSolve S)
      ({ (thRun S s es).1 with pr := S.prop (thRun S s es).1.T (thRun S s es).1.y },
        (thRun S s es).2)) q).1 := by
    simp [r, thRun, thAdvance, List.foldl_append]
  rw [hr]
  generalize qs.foldl (thSolve S) _ = b
  exact ⟨rfl, rfl, rfl, b.1.T, rfl⟩

/-- C331.  If the extraction inverts the enthalpy function, then after every advance with a sweep the
enthalpy field is the enthalpy of the temperature field. -/
theorem c331_enthalpy_of_temperature (S : Thermo H T Y Pr) (enth : T → Y → H)
    (hinv : ∀ h y g, enth (S.ext h y g) y = h) (s : ThSt H T Y Pr)
    (es : List (ThEv H T Y)) (qs : List (H × Y)) (q : H × Y) :
    let r := (thRun S s (es ++ [.advance (qs ++ [q])])).1
    enth r.T r.y = r.h := by
  intro r
  obtain ⟨_, _, _, g, h4⟩ := c331_state_after_advance S s es qs q
  show enth r.T r.y = r.h
  rw [show r.T = S.ext r.h r.y g from h4]
  exact hinv _ _ _

/-- non-vacuity: h = T + y; the boundary keeps h. -/
example : (thRun (H := ℤ) (T := ℤ) (Y := ℤ) (Pr := ℤ)
      ⟨fun t y => t * y, fun h y _ => h - y, fun _ h => h⟩ ⟨5, 3, 2, 0⟩
      [.advance [(7, 2), (9, 4)], .outside 1 1, .advance [(8, 3)]]).2.map (fun v => (v.h, v.T, v.y, v.pr))
    = [(5, 3, 2, 6), (7, 5, 2, 10), (9, 1, 1, 1)] := rfl

end thermo

/-! ### C332: start-up -/
section start
variable {F V Time : Type}

theorem loop_get (w : Realm F V Time → F → Option V) (rs : List (Realm F V Time)) :
    ∀ (i : ℕ) (x : ℕ → F → V) (j : ℕ) (r : Realm F V Time), rs[j]? = some r →
      loop w i rs x (i + j) = put (w r) (x (i + j)) := by
  induction rs with
  | nil => intro i x j r h; simp at h
  | cons a rs ih =>
    intro i x j r h
    have hother : ∀ (rs : List (Realm F V Time)) (i : ℕ) (x : ℕ → F → V) (k : ℕ), k < i →
        loop w i rs x k = x k := by
      intro rs
      induction rs with
      | nil => intro i x k _; rfl
      | cons b rs ih2 =>
        intro i x k hk
        rw [loop, ih2 (i + 1) _ k (by omega)]
        simp [Nat.ne_of_lt hk]
    cases j with
    | zero =>
      simp only [List.getElem?_cons_zero, Option.some.injEq] at h
      subst h
      rw [loop, hother rs (i + 1) _ (i + 0) (by omega)]
      simp
    | succ j =>
      simp only [List.getElem?_cons_succ] at h
      have := ih (i + 1) (fun j => if j = i then put (w a) (x j) else x j) j r h
      rw [loop]
      rw [show i + (j + 1) = i + 1 + j by omega, this]
      have hne : i + 1 + j ≠ i := by omega
      simp [hne]

/-- Values before the initialization transfers, as the user ranks them: restart file, else mesh file
(only if not restarted), else boundary value, else initial condition, else what was there. -/
def ranked (r : Realm F V Time) (old : F → V) (f : F) : V :=
  match r.restart, r.input with
  | some (_, w), _ => ((w f).or ((r.bc f).or (r.ic f))).getD (old f)
  | none, some (_, w) => ((w f).or ((r.bc f).or (r.ic f))).getD (old f)
  | none, none => ((r.bc f).or (r.ic f)).getD (old f)

/-- the fields before the transfers -/
def beforeXfer (rs : List (Realm F V Time)) (x : ℕ → F → V) : ℕ → F → V :=
  loop (fun r f => r.restart.bind fun i => i.2 f) 0 rs
    (loop (fun r f => if r.restart.isSome then none else (r.input.bind fun i => i.2 f)) 0 rs
      (loop (fun r => r.bc) 0 rs (loop (fun r => r.ic) 0 rs x)))

theorem beforeXfer_ranked (rs : List (Realm F V Time)) (x : ℕ → F → V) (j : ℕ)
    (r : Realm F V Time) (hr : rs[j]? = some r) (f : F) :
    beforeXfer rs x j f = ranked r (x j) f := by
  have h := fun w y => loop_get w rs 0 y j r hr
  simp only [Nat.zero_add] at h
  simp only [beforeXfer, h, put, ranked]
  cases r.restart with
  | none =>
    cases r.input with
    | none => cases r.bc f <;> cases r.ic f <;> simp
    | some i =>
      obtain ⟨_, w⟩ := i
      simp only [Option.isSome_none, Bool.false_eq_true, if_false, Option.bind_some, Option.bind_none,
        Option.getD_none]
      cases w f <;> cases r.bc f <;> cases r.ic f <;> simp
  | some i =>
    obtain ⟨_, w⟩ := i
    simp only [Option.isSome_some, if_true, Option.bind_some, Option.getD_none]
    cases w f <;> cases r.bc f <;> cases r.ic f <;> simp

/-- C332.  Which start value wins: for every number of realms, every realm and entry that no
initialization transfer writes, the run starts with the ranked value: restart file over mesh file over
boundary value over initial condition; a missing restart entry falls back to boundary value and
initial condition. -/
theorem c332_start_value_ranking (rs : List (Realm F V Time)) (x : ℕ → F → V) (j : ℕ)
    (r : Realm F V Time) (hr : rs[j]? = some r) (f : F) (hx : ∀ y, r.xfer y f = none) :
    startFields rs x j f = ranked r (x j) f := by
  have hother : ∀ (rs : List (Realm F V Time)) (i : ℕ) (x : ℕ → F → V) (k : ℕ), k < i →
      loopXfer i rs x k = x k := by
    intro rs
    induction rs with
    | nil => intro i x k _; rfl
    | cons b rs ih2 =>
      intro i x k hk
      rw [loopXfer, ih2 (i + 1) _ k (by omega)]
      simp [Nat.ne_of_lt hk]
  have key : ∀ (rs : List (Realm F V Time)) (i : ℕ) (x : ℕ → F → V) (j : ℕ),
      rs[j]? = some r → loopXfer i rs x (i + j) f = x (i + j) f := by
    intro rs
    induction rs with
    | nil => intro i x j h; simp at h
    | cons a rs ih =>
      intro i x j h
      cases j with
      | zero =>
        simp only [List.getElem?_cons_zero, Option.some.injEq] at h
        subst h
        rw [loopXfer, hother rs (i + 1) _ (i + 0) (by omega)]
        simp [put, hx]
      | succ j =>
        simp only [List.getElem?_cons_succ] at h
        rw [loopXfer, show i + (j + 1) = i + 1 + j by omega, ih (i + 1) _ j h]
        have hne : i + 1 + j ≠ i := by omega
        simp [hne]
  have h0 := key rs 0 (beforeXfer rs x) j hr
  simp only [Nat.zero_add] at h0
  show loopXfer 0 rs (beforeXfer rs x) j f = _
  rw [h0, beforeXfer_ranked rs x j r hr f]

/-- C332.  An initialization transfer reads finished start values: every entry it writes is computed
from the fields where the realms listed earlier have their final values and all others their ranked
values. -/
theorem c332_transfers_read_ranked_values (rs : List (Realm F V Time)) (x : ℕ → F → V) (j : ℕ)
    (r : Realm F V Time) (hr : rs[j]? = some r) :
    ∃ y : ℕ → F → V,
      (∀ k, k < j → y k = startFields rs x k) ∧
      (∀ k q, j ≤ k → rs[k]? = some q → y k = ranked q (x k)) ∧
      ∀ f, startFields rs x j f = (r.xfer y f).getD (ranked r (x j) f) := by
  have hother : ∀ (rs : List (Realm F V Time)) (i : ℕ) (x : ℕ → F → V) (k : ℕ), k < i →
      loopXfer i rs x k = x k := by
    intro rs
    induction rs with
    | nil => intro i x k _; rfl
    | cons b rs ih2 =>
      intro i x k hk
      rw [loopXfer, ih2 (i + 1) _ k (by omega)]
      simp [Nat.ne_of_lt hk]
  have key : ∀ (rs : List (Realm F V Time)) (i : ℕ) (x : ℕ → F → V) (j : ℕ),
      rs[j]? = some r → ∃ y : ℕ → F → V,
        (∀ k, k < i + j → y k = loopXfer i rs x k) ∧ (∀ k, i + j ≤ k → y k = x k) ∧
        ∀ f, loopXfer i rs x (i + j) f = (r.xfer y f).getD (x (i + j) f) := by
    intro rs
    induction rs with
    | nil => intro i x j h; simp at h
    | cons a rs ih =>
      intro i x j h
      cases j with
      | zero =>
        simp only [List.getElem?_cons_zero, Option.some.injEq] at h
        subst h
        refine ⟨x, ?_, fun _ _ => rfl, ?_⟩
        · intro k hk
          rw [loopXfer, hother rs (i + 1) _ k (by omega)]
          have hne : k ≠ i := by omega
          simp [hne]
        · intro f
          rw [loopXfer, hother rs (i + 1) _ (i + 0) (by omega)]
          simp [put]
      | succ j =>
        simp only [List.getElem?_cons_succ] at h
        obtain ⟨y, h1, h2, h3⟩ := ih (i + 1) (fun j => if j = i then put (a.xfer x) (x j) else x j) j h
        refine ⟨y, ?_, ?_, ?_⟩
        · intro k hk
          rw [loopXfer]
          exact h1 k (by omega)
        · intro k hk
          rw [h2 k (by omega)]
          have hne : k ≠ i := by omega
          simp [hne]
        · intro f
          rw [loopXfer, show i + (j + 1) = i + 1 + j by omega, h3 f]
          have hne : i + 1 + j ≠ i := by omega
          simp [hne]
  obtain ⟨y, h1, h2, h3⟩ := key rs 0 (beforeXfer rs x) j hr
  simp only [Nat.zero_add] at h1 h2 h3
  refine ⟨y, h1, ?_, ?_⟩
  · intro k q hk hq
    rw [h2 k hk]
    funext f
    exact beforeXfer_ranked rs x k q hq f
  · intro f
    show loopXfer 0 rs (beforeXfer rs x) j f = _
    rw [h3 f, beforeXfer_ranked rs x j r hr f]

/-- C332.  Without mesh-file input the run starts at the latest of the user's start time and all
restart times. -/
theorem c332_start_time (rs : List (Realm F V ℝ)) (t : ℝ)
    (hin : ∀ r ∈ rs, r.restart = none → r.input = none) :
    t ≤ startTime rs t ∧ (∀ r ∈ rs, ∀ i, r.restart = some i → i.1 ≤ startTime rs t) ∧
      (startTime rs t = t ∨ ∃ r ∈ rs, ∃ i, r.restart = some i ∧ startTime rs t = i.1) := by
  have h1 : ∀ (rs : List (Realm F V ℝ)) (t : ℝ), (∀ r ∈ rs, r.restart = none → r.input = none) →
      rs.foldl (fun t r => if r.restart.isSome then t else (r.input.map (·.1)).getD t) t = t := by
    intro rs
    induction rs with
    | nil => intro t _; rfl
    | cons r rs ih =>
      intro t h
      rw [List.foldl_cons]
      have : (if r.restart.isSome then t else (r.input.map (·.1)).getD t) = t := by
        cases hr : r.restart with
        | none => simp [h r List.mem_cons_self hr]
        | some i => simp
      rw [this]
      exact ih t (fun q hq => h q (List.mem_cons_of_mem _ hq))
  have h2 : ∀ (rs : List (Realm F V ℝ)) (t : ℝ),
      t ≤ rs.foldl (fun t r => max t ((r.restart.map (·.1)).getD t)) t ∧
      (∀ r ∈ rs, ∀ i, r.restart = some i →
        i.1 ≤ rs.foldl (fun t r => max t ((r.restart.map (·.1)).getD t)) t) ∧
      (rs.foldl (fun t r => max t ((r.restart.map (·.1)).getD t)) t = t ∨
        ∃ r ∈ rs, ∃ i, r.restart = some i ∧
          rs.foldl (fun t r => max t ((r.restart.map (·.1)).getD t)) t = i.1) := by
    intro rs
    induction rs with
    | nil => intro t; exact ⟨le_refl _, by simp, Or.inl rfl⟩
    | cons r rs ih =>
      intro t
      rw [List.foldl_cons]
      obtain ⟨a, b, c⟩ := ih (max t ((r.restart.map (·.1)).getD t))
      refine ⟨le_trans (le_max_left _ _) a, ?_, ?_⟩
      · intro q hq i hi
        rcases List.mem_cons.mp hq with rfl | hq
        · refine le_trans ?_ a
          rw [hi]
          exact le_max_right _ _
        · exact b q hq i hi
      · rcases c with c | ⟨q, hq, i, hi, c⟩
        · rw [c]
          cases hr : r.restart with
          | none => left; simp
          | some i =>
            rcases max_choice t i.1 with h | h
            · left; simpa using h
            · right
              exact ⟨r, List.mem_cons_self, i, hr, by simpa using h⟩
        · exact Or.inr ⟨q, List.mem_cons_of_mem _ hq, i, hi, c⟩
  unfold startTime
  rw [h1 rs t hin]
  exact h2 rs t

/-- C332 (finding).  With mesh-file input in two realms the last one's time is taken, also if it is
earlier than the first one's and than the user's start time. -/
theorem c332_last_input_time_wins (w : F → Option V) (xf : (ℕ → F → V) → F → Option V) :
    startTime [⟨w, w, some (5, w), none, xf⟩, ⟨w, w, some (3, w), none, xf⟩] 4 = 3 := by
  simp [startTime]

/-- non-vacuity of the ranking: one restarted realm with a missing entry, one fresh realm. -/
example :
    (startFields (F := Bool) (V := ℕ) (Time := ℕ)
      [⟨fun _ => some 1, fun f => if f then some 2 else none, some (9, fun _ => some 3),
          some (7, fun f => if f then none else some 4), fun _ _ => none⟩,
       ⟨fun _ => some 1, fun _ => some 2, some (9, fun f => if f then some 3 else none), none,
          fun y f => if f then some (y 0 false) else none⟩] (fun _ _ => 0) 0 true,
     startFields (F := Bool) (V := ℕ) (Time := ℕ)
      [⟨fun _ => some 1, fun f => if f then some 2 else none, some (9, fun _ => some 3),
          some (7, fun f => if f then none else some 4), fun _ _ => none⟩,
       ⟨fun _ => some 1, fun _ => some 2, some (9, fun f => if f then some 3 else none), none,
          fun y f => if f then some (y 0 false) else none⟩] (fun _ _ => 0) 1 true) = (2, 4) := rfl

end start

/-! ### C333: connectivity of moving meshes -/
section conn
variable {X G NC OV Gr : Type}

/-- C333.  Whatever moves and however, the matrix graph is at all times the one of the interface
matching and overset connectivity in use. -/
theorem c333_graph_matches_connectivity (o : MoveOpt) (C : Conn X G NC OV Gr) (x0 x1 : X)
    (es : List (ConnEv X)) :
    (connRun o C x0 x1 es).gr = C.graph (connRun o C x0 x1 es).nc (connRun o C x0 x1 es).ov := by
  induction es using List.reverseRecOn with
  | nil => cases hm : o.motion <;> simp [connRun, connInitialWork, connInit, hm]
  | append_singleton es e ih =>
    have hr : connRun o C x0 x1 (es ++ [e]) = connExec o C (connRun o C x0 x1 es) e := by
      simp [connRun, List.foldl_append]
    rw [hr]
    generalize connRun o C x0 x1 es = s at ih
    cases e with
    | advance => cases he : o.external <;> simpa [connExec, he] using ih
    | displace x => cases hd : (o.deform && !o.external) <;> simpa [connExec, hd] using ih
    | step xm xd =>
      cases hm : o.motion <;> cases hd : o.deform <;> cases he : o.external <;>
        simp [connExec, preStep, hm, hd, he, ih]

/-- Everything belongs to the present coordinates. -/
def Current (o : MoveOpt) (C : Conn X G NC OV Gr) (s : ConnSt X G NC OV Gr) : Prop :=
  s.geo = C.geom s.x ∧ (o.nonConf = true → s.nc = C.search s.x) ∧
    (o.overset = true → s.ov = C.over s.x)

/-- C333.  Without mesh deformation: after the first time step has begun (with prescribed motion), or
always (on a static mesh), geometry, interface matching and overset connectivity belong to the
present coordinates. -/
theorem c333_rigid_motion_current (o : MoveOpt) (hd : o.deform = false) (C : Conn X G NC OV Gr)
    (x0 x1 : X) (es : List (ConnEv X))
    (hstep : o.motion = true → ∃ xm xd, .step xm xd ∈ es) (hx : o.external = false) :
    Current o C (connRun o C x0 x1 es) := by
  have key : ∀ (es : List (ConnEv X)),
      ((o.motion = true → ∃ xm xd, .step xm xd ∈ es) → Current o C (connRun o C x0 x1 es)) := by
    intro es
    induction es using List.reverseRecOn with
    | nil =>
      intro h
      cases hm : o.motion with
      | true => obtain ⟨_, _, h⟩ := h hm; simp at h
      | false => simp [Current, connRun, connInitialWork, connInit, hm]
    | append_singleton es e ih =>
      intro h
      have hr : connRun o C x0 x1 (es ++ [e]) = connExec o C (connRun o C x0 x1 es) e := by
        simp [connRun, List.foldl_append]
      rw [hr]
      cases e with
      | step xm xd =>
        cases hm : o.motion with
        | true =>
          simp only [connExec, preStep, hm, hd, if_true, Bool.false_eq_true, if_false, Current]
          cases hn : o.nonConf <;> cases ho : o.overset <;> simp
        | false =>
          have := ih (by intro h'; rw [hm] at h'; cases h')
          simpa [connExec, preStep, hm, hd] using this
      | advance =>
        have := ih (by
          intro hm
          obtain ⟨xm, xd, h'⟩ := h hm
          exact ⟨xm, xd, by simpa using h'⟩)
        simpa [connExec, hx] using this
      | displace x =>
        have := ih (by
          intro hm
          obtain ⟨xm, xd, h'⟩ := h hm
          exact ⟨xm, xd, by simpa using h'⟩)
        simpa [connExec, hd] using this
  exact key es hstep

/-- C333.  With mesh deformation the geometry at the beginning of every time step is that of the
present coordinates. -/
theorem c333_deformation_geometry (o : MoveOpt) (hd : o.deform = true) (C : Conn X G NC OV Gr)
    (x0 x1 : X) (es : List (ConnEv X)) (xm xd : X) :
    (connRun o C x0 x1 (es ++ [.step xm xd])).geo =
      C.geom (connRun o C x0 x1 (es ++ [.step xm xd])).x := by
  have hr : connRun o C x0 x1 (es ++ [.step xm xd]) = connExec o C (connRun o C x0 x1 es) (.step xm xd) := by
    simp [connRun, List.foldl_append]
  rw [hr]
  simp [connExec, preStep, hd]

/-- C333.  The coordinates a step works with: those of the prescribed motion at the new time (unless
an external displacement replaces them), and with rigid motion the interface data belong to them. -/
theorem c333_step_coordinates (o : MoveOpt) (C : Conn X G NC OV Gr) (x0 x1 : X) (es : List (ConnEv X))
    (xm xd : X) :
    (o.motion = true → (o.deform && o.external) = false →
      (connRun o C x0 x1 (es ++ [.step xm xd])).x = xm) ∧
    (o.deform = true → o.external = true → (connRun o C x0 x1 (es ++ [.step xm xd])).x = xd) ∧
    (o.motion = true → o.nonConf = true → (connRun o C x0 x1 (es ++ [.step xm xd])).nc = C.search xm) ∧
    (o.motion = true → o.overset = true → (connRun o C x0 x1 (es ++ [.step xm xd])).ov = C.over xm) := by
  rcases o with ⟨a, b, c, d, e⟩
  unfold connRun
  simp only [List.foldl_append, List.foldl_cons, List.foldl_nil]
  cases a <;> cases b <;> cases c <;> cases d <;> cases e <;> simp [connExec, preStep]

/-- a concrete connectivity: everything is the coordinate itself -/
def demoC : Conn ℕ ℕ ℕ ℕ (ℕ × ℕ) := ⟨id, id, id, Prod.mk⟩

/-- C333 (finding).  With mesh deformation and no prescribed motion a sliding interface keeps the
matching of the undeformed mesh for the whole run. -/
theorem c333_deformation_keeps_old_interface (xd : ℕ → ℕ) (k : ℕ) :
    (connRun ⟨false, true, true, true, true⟩ demoC 0 0
      ((List.range k).map fun i => .step 0 (xd i))).nc = 0 := by
  have : ∀ (l : List (ConnEv ℕ)) (s : ConnSt ℕ ℕ ℕ ℕ (ℕ × ℕ)),
      (l.foldl (connExec ⟨false, true, true, true, true⟩ demoC) s).nc = s.nc := by
    intro l
    induction l with
    | nil => intro s; rfl
    | cons e l ih =>
      intro s
      rw [List.foldl_cons, ih]
      cases e <;> rfl
  rw [connRun, this]
  rfl

/-- C333 (finding).  Between initial_work and the first time step of a run that starts at a later
time (restart) the geometry is that of the set-up coordinates, not of the present ones. -/
theorem c333_initial_work_geometry_old :
    (connRun ⟨true, false, false, true, true⟩ demoC 0 7 []).x = 7 ∧
    (connRun ⟨true, false, false, true, true⟩ demoC 0 7 []).geo = 0 ∧
    (connRun ⟨true, false, false, true, true⟩ demoC 0 7 []).nc = 0 := ⟨rfl, rfl, rfl⟩

/-- non-vacuity: rotating interface. -/
example : connRun ⟨true, false, false, true, true⟩ demoC 0 7 [.step 8 0, .advance, .step 9 0] =
    ⟨9, 9, 9, 9, (9, 9)⟩ := rfl

end conn
end Nalu.Schedule2
