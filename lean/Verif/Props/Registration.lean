import Verif.Model.Registration
import Mathlib.Tactic.Ring
import Mathlib.Tactic.SimpRw

/-!
# Boundary conditions of the input and what is imposed: theorems C270-C276
-/

namespace Nalu.Registration

variable {A P N V S U B : Type}

/-! ### General facts -/

theorem parts_add (m : AlgMap A P) (t s : AlgType) (a : A) (p : P) :
    (m.add t a p).parts s = m.parts s ++ (if s = t then [p] else []) := by
  unfold AlgMap.parts AlgMap.add
  by_cases h : s = t
  · subst h
    cases hm : m s with
    | none => simp
    | some x => simp
  · simp [h]

theorem kind_add (m : AlgMap A P) (t s : AlgType) (a x : A) (p : P) (ps : List P) (h : (m.add t a p) s = some (x, ps)) :
    (∃ qs, m s = some (x, qs)) ∨ (s = t ∧ x = a) := by
  unfold AlgMap.add at h
  split at h
  · rename_i hst
    subst hst
    cases hm : m s with
    | none => simp [hm] at h; exact Or.inr ⟨rfl, h.1.symm⟩
    | some y => simp [hm] at h; exact Or.inl ⟨y.2, by rw [← h.1]⟩
  · exact Or.inl ⟨ps, h⟩

/-- A list every boundary appends to. -/
theorem registerAll_list {X : Type} (step : Reg P N V → B → Option (Reg P N V)) (F : Reg P N V → List X) (g : B → List X)
    (h : ∀ r b r', step r b = some r' → F r' = F r ++ g b) : ∀ (l : List B) (r r' : Reg P N V),
    registerAll step l r = some r' → F r' = F r ++ l.flatMap g
  | [], r, r', e => by simp [registerAll] at e; simp [e]
  | b :: l, r, r', e => by
    simp only [registerAll, List.foldlM_cons, Option.bind_eq_bind, Option.bind_eq_some_iff] at e
    obtain ⟨r1, h1, h2⟩ := e
    rw [registerAll_list step F g h l r1 r' h2, h _ _ _ h1]
    simp

/-- A property every boundary keeps. -/
theorem registerAll_inv (step : Reg P N V → B → Option (Reg P N V)) (I : Reg P N V → Prop)
    (h : ∀ r b r', step r b = some r' → I r → I r') : ∀ (l : List B) (r r' : Reg P N V),
    registerAll step l r = some r' → I r → I r'
  | [], r, r', e, i => by simp [registerAll] at e; exact e ▸ i
  | b :: l, r, r', e, i => by
    simp only [registerAll, List.foldlM_cons, Option.bind_eq_bind, Option.bind_eq_some_iff] at e
    obtain ⟨r1, h1, h2⟩ := e
    exact registerAll_inv step I h l r1 r' h2 (h _ _ _ h1 i)

/-- Every boundary of an accepted list was accepted. -/
theorem registerAll_each (step : Reg P N V → B → Option (Reg P N V)) : ∀ (l : List B) (r r' : Reg P N V),
    registerAll step l r = some r' → ∀ b ∈ l, ∃ r1 r2, step r1 b = some r2
  | [], r, r', e => by simp
  | b :: l, r, r', e => by
    simp only [registerAll, List.foldlM_cons, Option.bind_eq_bind, Option.bind_eq_some_iff] at e
    obtain ⟨r1, h1, h2⟩ := e
    intro c hc
    rcases List.mem_cons.1 hc with rfl | hc
    · exact ⟨_, _, h1⟩
    · exact registerAll_each step l r1 r' h2 c hc

/-- The last writer wins. -/
theorem last_wins {F X : Type} (step : F → B → F) (sel : B → Bool) (val : B → X) (get : F → X) (f : F) (l : List B) :
    (∀ b ∈ l, ∀ f, get (step f b) = if sel b then val b else get f) →
    get (l.foldl step f) = ((l.filter sel).getLast?.map val).getD (get f) := by
  induction l using List.reverseRecOn with
  | nil => simp
  | append_singleton l b ih =>
    intro h
    rw [List.foldl_append]
    simp only [List.foldl_cons, List.foldl_nil]
    rw [h b (by simp), ih (fun c hc => h c (by simp [hc]))]
    by_cases hb : sel b = true
    · simp [hb, List.filter_append]
    · simp [hb, List.filter_append]

theorem dirichletPart_fold [DecidableEq N] [AddCommGroup V] (mem : P → N → Bool) (bc dof : N → V) (ps : List P) (n : N) :
    ∀ m : N → Row N V, ps.foldl (dirichletPart mem bc dof) m n =
      if ps.any (fun p => mem p n) then ⟨fun k => if k = n then 1 else 0, bc n - dof n⟩ else m n := by
  induction ps with
  | nil => intro m; simp
  | cons p ps ih =>
    intro m
    simp only [List.foldl_cons]
    rw [ih]
    by_cases h : ps.any (fun p => mem p n) = true
    · simp [h]
    · by_cases hp : mem p n = true
      · simp [h, hp, dirichletPart]
      · simp [h, hp, dirichletPart]

/-- A map with inflow and wall entries only: the row of a node. -/
theorem dirichletAll_eq [DecidableEq N] [AddCommGroup V] (mem : P → N → Bool) (f : String → N → V) (dof : N → V) (d : AlgMap String P)
    (fi fw : String) (hi : ∀ a ps, d .inflow = some (a, ps) → a = fi) (hw : ∀ a ps, d .wall = some (a, ps) → a = fw)
    (ho : ∀ t, t ≠ .inflow → t ≠ .wall → d t = none) (m : N → Row N V) (n : N) :
    dirichletAll mem f dof d m n =
      if (d.parts .wall).any (fun p => mem p n) then ⟨fun k => if k = n then 1 else 0, f fw n - dof n⟩
      else if (d.parts .inflow).any (fun p => mem p n) then ⟨fun k => if k = n then 1 else 0, f fi n - dof n⟩
      else m n := by
  have e : ∀ (t : AlgType) (g : String), (∀ a ps, d t = some (a, ps) → a = g) → ∀ m : N → Row N V,
      dirichletType mem f dof d m t = (d.parts t).foldl (dirichletPart mem (f g) dof) m := by
    intro t g hg m
    unfold dirichletType
    cases h : d t with
    | none => simp [AlgMap.parts, h]
    | some x => obtain ⟨a, ps⟩ := x; simp [AlgMap.parts, h, hg a ps h]
  have o : ∀ t, t ≠ .inflow → t ≠ .wall → ∀ m : N → Row N V, dirichletType mem f dof d m t = m := by
    intro t h1 h2 m; unfold dirichletType; rw [ho t h1 h2]
  simp only [dirichletAll, AlgType.all, List.foldl_cons, List.foldl_nil]
  rw [o .interior (by decide) (by decide), e .inflow fi hi, e .wall fw hw, o .wallFcn (by decide) (by decide), o .opn (by decide) (by decide),
    o .mass (by decide) (by decide), o .src (by decide) (by decide), o .symmetry (by decide) (by decide), o .wallHf (by decide) (by decide),
    o .wallCht (by decide) (by decide), o .wallRad (by decide) (by decide), o .nonConformal (by decide) (by decide),
    o .elemSource (by decide) (by decide), o .overset (by decide) (by decide), o .wallFcnProj (by decide) (by decide),
    o .refPressure (by decide) (by decide), dirichletPart_fold, dirichletPart_fold]

/-- An identity row is solved by the wanted increment. -/
theorem solves_identity [DecidableEq N] [Fintype N] [AddCommGroup V] [Module ℝ V] {m : N → Row N V} {δ : N → V} (hs : Solves m δ) {n : N} {x : V}
    (h : m n = ⟨fun k => if k = n then 1 else 0, x⟩) : δ n = x := by
  have := hs n
  rw [h] at this
  simpa using this

/-- The last boundary (in the order of the input) that writes a boundary field at a node decides it. -/
theorem populate_last (step : Reg P N V → B → Option (Reg P N V)) (fld : String) (mem : P → N → Bool) (n : N) (sel : B → Bool)
    (Val : B → V → Prop)
    (h : ∀ r b r', step r b = some r' → ∃ e : List (P × String × (N → V)), r'.bcData = r.bcData ++ e ∧ ∀ f : String → N → V,
      (sel b = true → Val b (e.foldl (writeField mem) f fld n)) ∧
      (sel b = false → e.foldl (writeField mem) f fld n = f fld n)) (f : String → N → V) (r : Reg P N V) (l : List B) :
    ∀ r', registerAll step l r = some r' →
      (∀ b, (l.filter sel).getLast? = some b → Val b (populate mem r' f fld n)) ∧
      ((∀ b ∈ l, sel b = false) → populate mem r' f fld n = populate mem r f fld n) := by
  induction l using List.reverseRecOn with
  | nil => intro r' e; simp [registerAll] at e; subst e; simp
  | append_singleton l b ih =>
    intro r' e
    simp only [registerAll, List.foldlM_append, List.foldlM_cons, List.foldlM_nil, Option.bind_eq_bind, Option.bind_eq_some_iff,
      Option.pure_def, Option.some.injEq] at e
    obtain ⟨r1, h1, r2, h2, rfl⟩ := e
    obtain ⟨e, he, hv⟩ := h r1 b r2 h2
    obtain ⟨ih1, ih2⟩ := ih r1 h1
    have hp : populate mem r2 f = e.foldl (writeField mem) (populate mem r1 f) := by
      simp [populate, he, List.foldl_append]
    obtain ⟨hv1, hv2⟩ := hv (populate mem r1 f)
    rw [hp]
    cases hb : sel b with
    | true =>
      refine ⟨fun c hc => ?_, fun hall => ?_⟩
      · simp [List.filter_append, hb] at hc
        subst hc
        exact hv1 hb
      · have := hall b (by simp)
        simp [hb] at this
    | false =>
      refine ⟨fun c hc => ?_, fun hall => ?_⟩
      · simp [List.filter_append, hb] at hc
        rw [hv2 hb]
        exact ih1 c (by simpa using hc)
      · rw [hv2 hb]
        exact ih2 fun c hc => hall c (by simp [hc])

/-! ### Specification: what the input says -/

/-- `x` is the value the input gives a quantity at node `n`: the number (zero when missing) or the named supported function. -/
def SpecValue [Zero V] (lib : String → Option (N → V)) (s : Spec V) (n : N) (x : V) : Prop :=
  (s.fn = none → x = s.value.getD 0) ∧ ∀ g, s.fn = some g → ∃ h, lib g = some h ∧ x = h n

theorem specValue_of_eval [Zero V] {lib : String → Option (N → V)} {s : Spec V} {v : N → V} (h : s.eval lib = some v) (n : N) :
    SpecValue lib s n (v n) := by
  unfold Spec.eval at h
  constructor
  · intro e; rw [e] at h; simp at h; rw [← h]; rfl
  · intro g e; rw [e] at h; exact ⟨v, h, rfl⟩

/-- Boundaries that impose the velocity: inflows and walls without any wall function. -/
def imposesVelocity : BC V S → Bool
  | .inflow _ => true
  | .wall d => !d.wallFunction && !d.wallFunctionProjected
  | _ => false

/-- Boundary values that come from the input at every step (not from a transfer). -/
def fromInput : BC V S → Bool
  | .inflow d => !d.external
  | .wall d => !d.isFsi
  | _ => true

/-- The value a boundary gives for the velocity at a node. -/
def VelocityOf [Zero V] (lib wlib : String → Option (N → V)) (b : BC V S) (n : N) (x : V) : Prop :=
  match b with
  | .inflow d => SpecValue lib d.velocity n x
  | .wall d => SpecValue wlib d.velocity n x
  | _ => False

/-! ### The momentum system -/

section Momentum
variable [Zero V] (o : Opts) (lib wlib : String → Option (N → V))

/-- Parts the momentum system adds to the Dirichlet map. -/
def momDir (t : AlgType) (b : P × BC V S) : List P :=
  match t, b.2 with
  | .inflow, .inflow _ => [b.1]
  | .wall, .wall d => if !d.wallFunction && !d.wallFunctionProjected then [b.1] else []
  | _, _ => []

/-- Parts the momentum system adds to the solver map (non-consolidated). -/
def momSol (t : AlgType) (b : P × BC V S) : List P :=
  match t, b.2 with
  | .opn, .opn _ => [b.1]
  | .symmetry, .symmetry _ => [b.1]
  | .nonConformal, .nonConformal => [b.1]
  | .wallFcn, .wall d => if d.wallFunction then [b.1] else []
  | .wallFcnProj, .wall d => if !d.wallFunction && d.wallFunctionProjected then [b.1] else []
  | _, _ => []

/-- Parts the momentum system adds to the gradient map. -/
def momGrad (t : AlgType) (b : P × BC V S) : List P :=
  match t, b.2 with
  | .inflow, .inflow _ => [b.1]
  | .opn, .opn _ => [b.1]
  | .symmetry, .symmetry _ => [b.1]
  | .nonConformal, .nonConformal => [b.1]
  | .wall, .wall d => if !d.wallFunction && !d.wallFunctionProjected then [b.1] else []
  | .wallFcn, .wall d => if d.wallFunction || d.wallFunctionProjected then [b.1] else []
  | _, _ => []

/-- Everything one boundary does to the momentum system. -/
theorem momentum_step (r r' : Reg P N V) (b : P × BC V S) (h : momentum o lib wlib r b = some r') :
    (∀ t, r'.dirich.parts t = r.dirich.parts t ++ momDir t b) ∧
    (o.consolidated = false → ∀ t, r'.solver.parts t = r.solver.parts t ++ momSol t b) ∧
    (o.managePng = false → ∀ t, r'.grad.parts t = r.grad.parts t ++ momGrad t b) ∧
    ((∀ t a ps, r.dirich t = some (a, ps) → a = "velocity_bc" ∧ (t = .inflow ∨ t = .wall)) →
      ∀ t a ps, r'.dirich t = some (a, ps) → a = "velocity_bc" ∧ (t = .inflow ∨ t = .wall)) ∧
    (∃ e : List (P × String × (N → V)), r'.bcData = r.bcData ++ e ∧ ∀ (mem : P → N → Bool) (f : String → N → V) (n : N),
      (e.foldl (writeField mem) f "velocity_bc" n = f "velocity_bc" n ∨
        (imposesVelocity b.2 = true ∧ fromInput b.2 = true ∧ mem b.1 n = true ∧
          VelocityOf lib wlib b.2 n (e.foldl (writeField mem) f "velocity_bc" n))) ∧
      (imposesVelocity b.2 = true → fromInput b.2 = true → mem b.1 n = true →
          VelocityOf lib wlib b.2 n (e.foldl (writeField mem) f "velocity_bc" n))) := by
  obtain ⟨p, bc⟩ := b
  cases bc with
  | inflow d =>
    simp only [momentum, momentumInflow, Option.bind_eq_bind, Option.bind_eq_some_iff, Option.pure_def, Option.some.injEq] at h
    obtain ⟨v, hv, rfl⟩ := h
    refine ⟨?_, ?_, ?_, ?_, ?_⟩
    · intro t; cases hm : o.managePng <;> cases he : d.external <;> cases t <;>
        simp [Reg.addGrad, Reg.addData, hm, he, parts_add, momDir]
    · intro hc t; cases hm : o.managePng <;> cases he : d.external <;> cases t <;> simp [Reg.addGrad, Reg.addData, hm, he, momSol]
    · intro hm t; cases he : d.external <;> cases t <;> simp [Reg.addGrad, Reg.addData, hm, he, parts_add, momGrad]
    · intro hI t a ps ht
      have ht' : (r.dirich.add .inflow "velocity_bc" p) t = some (a, ps) := by
        cases hm : o.managePng <;> cases he : d.external <;> simpa [Reg.addGrad, Reg.addData, hm, he] using ht
      rcases kind_add _ _ _ _ _ _ _ ht' with ⟨qs, hq⟩ | ⟨rfl, rfl⟩
      · exact hI t a qs hq
      · exact ⟨rfl, Or.inl rfl⟩
    · cases he : d.external with
      | true =>
        refine ⟨[], ?_, ?_⟩
        · cases hm : o.managePng <;> simp [Reg.addGrad, Reg.addData, hm, he]
        · intro mem f n; simp [fromInput, he]
      | false =>
        refine ⟨[(p, "velocity_bc", v)], ?_, ?_⟩
        · cases hm : o.managePng <;> simp [Reg.addGrad, Reg.addData, hm, he]
        · intro mem f n
          by_cases hn : mem p n = true
          · have : VelocityOf (S := S) lib wlib (.inflow d) n (v n) := specValue_of_eval hv n
            simp [writeField, hn, imposesVelocity, fromInput, he, this]
          · simp [writeField, hn]
  | wall d =>
    simp only [momentum, momentumWall, WallData.anyWf] at h
    split at h
    swap
    · exact absurd h (by simp)
    simp only [Option.bind_eq_bind, Option.bind_eq_some_iff, Option.pure_def] at h
    obtain ⟨v, hv, h⟩ := h
    cases hw : d.wallFunction <;> cases hp : d.wallFunctionProjected <;> cases hc : o.consolidated <;> cases hf : d.isFsi <;>
      cases hm : o.managePng <;> simp [hw, hp, hc, hf, hm, Reg.addGrad, Reg.addData] at h <;> subst h
    all_goals
      refine ⟨?_, ?_, ?_, ?_, ?_⟩
      · intro t; cases t <;> simp [parts_add, momDir, hw, hp]
      · intro hc' t; first | (exfalso; simp [hc] at hc'; done) | (cases t <;> simp [parts_add, momSol, hw, hp])
      · intro hm' t; first | (exfalso; simp [hm] at hm'; done) | (cases t <;> simp [parts_add, momGrad, hw, hp])
      · intro hI t a ps ht
        first
        | exact hI t a ps ht
        | (rcases kind_add _ _ _ _ _ _ _ ht with ⟨qs, hq⟩ | ⟨rfl, rfl⟩
           · exact hI t a qs hq
           · exact ⟨rfl, Or.inr rfl⟩)
      · first | refine ⟨_, rfl, ?_⟩ | refine ⟨[], (List.append_nil _).symm, ?_⟩
        intro mem f n
        by_cases hn : mem p n = true
        · have : VelocityOf (S := S) lib wlib (.wall d) n (v n) := specValue_of_eval hv n
          simp [writeField, hn, imposesVelocity, fromInput, hf, hw, hp, this]
        · simp [writeField, hn]
  | opn d =>
    simp only [momentum, Option.some.injEq, momentumOpen] at h
    cases hc : o.consolidated <;> cases hm : o.managePng <;> simp [hc, hm, Reg.addGrad] at h <;> subst h
    all_goals
      refine ⟨?_, ?_, ?_, fun hI => hI, ⟨_, rfl, ?_⟩⟩
      · intro t; cases t <;> simp [momDir]
      · intro hc' t; first | (exfalso; simp [hc] at hc'; done) | (cases t <;> simp [parts_add, momSol])
      · intro hm' t; first | (exfalso; simp [hm] at hm'; done) | (cases t <;> simp [parts_add, momGrad])
      · intro mem f n; simp [writeField, imposesVelocity]
  | symmetry g =>
    simp only [momentum, Option.some.injEq, momentumSymmetry] at h
    cases hc : o.consolidated <;> cases hm : o.managePng <;> simp [hc, hm, Reg.addGrad] at h <;> subst h
    all_goals
      refine ⟨?_, ?_, ?_, fun hI => hI, ⟨[], by simp, ?_⟩⟩
      · intro t; cases t <;> simp [momDir]
      · intro hc' t; first | (exfalso; simp [hc] at hc'; done) | (cases t <;> simp [parts_add, momSol])
      · intro hm' t; first | (exfalso; simp [hm] at hm'; done) | (cases t <;> simp [parts_add, momGrad])
      · intro mem f n; simp [imposesVelocity]
  | nonConformal =>
    simp only [momentum, Option.some.injEq, momentumNonConformal] at h
    cases hm : o.managePng <;> simp [hm, Reg.addGrad] at h <;> subst h
    all_goals
      refine ⟨?_, ?_, ?_, fun hI => hI, ⟨[], by simp, ?_⟩⟩
      · intro t; cases t <;> simp [momDir]
      · intro hc' t; cases t <;> simp [parts_add, momSol]
      · intro hm' t; first | (exfalso; simp [hm] at hm'; done) | (cases t <;> simp [parts_add, momGrad])
      · intro mem f n; simp [imposesVelocity]

/-- Nodes of the parts a boundary list gives a type. -/
theorem any_flatMap (mem : P → N → Bool) (n : N) (g : B → List P) (l : List B) :
    (l.flatMap g).any (fun p => mem p n) = l.any (fun b => (g b).any (fun p => mem p n)) := by
  induction l with
  | nil => rfl
  | cons b l ih => simp [List.flatMap_cons, List.any_append, ih]

/-- **C270** The momentum system: the velocity is imposed exactly on the inflow parts and on the parts of walls without wall function, in the
order of the input, each type by one algorithm reading one field. -/
theorem c270_momentum_dirichlet (l : List (P × BC V S)) (r : Reg P N V) (h : registerAll (momentum o lib wlib) l {} = some r) :
    r.dirich.parts .inflow = l.flatMap (fun b => match b.2 with | .inflow _ => [b.1] | _ => []) ∧
    r.dirich.parts .wall = l.flatMap (fun b => match b.2 with
      | .wall d => if d.wallFunction = false ∧ d.wallFunctionProjected = false then [b.1] else []
      | _ => []) ∧
    (∀ t a ps, r.dirich t = some (a, ps) → a = "velocity_bc" ∧ (t = .inflow ∨ t = .wall)) := by
  have hl := fun t => registerAll_list (momentum o lib wlib) (fun r : Reg P N V => r.dirich.parts t) (momDir t)
    (fun r b r' e => (momentum_step o lib wlib r r' b e).1 t) l {} r h
  refine ⟨?_, ?_, ?_⟩
  · rw [show r.dirich.parts .inflow = _ from hl .inflow]
    simp only [AlgMap.parts, Option.map_none, Option.getD_none, List.nil_append]
    congr 1
    funext b; obtain ⟨p, bc⟩ := b; cases bc <;> rfl
  · rw [show r.dirich.parts .wall = _ from hl .wall]
    simp only [AlgMap.parts, Option.map_none, Option.getD_none, List.nil_append]
    congr 1
    funext b; obtain ⟨p, bc⟩ := b; cases bc with
    | wall d => cases hw : d.wallFunction <;> cases hp : d.wallFunctionProjected <;> simp [momDir, hw, hp]
    | _ => rfl
  · exact registerAll_inv _ (fun r : Reg P N V => ∀ t a ps, r.dirich t = some (a, ps) → a = "velocity_bc" ∧ (t = .inflow ∨ t = .wall))
      (fun r b r' e i => (momentum_step o lib wlib r r' b e).2.2.2.1 i) l {} r h (by intro t a ps e; simp at e)

/-- **C270** Boundary terms of the momentum system: every open, symmetry, non-conformal and wall-function part gets its term once, and no other
part does. -/
theorem c270_momentum_terms (hc : o.consolidated = false) (l : List (P × BC V S)) (r : Reg P N V)
    (h : registerAll (momentum o lib wlib) l {} = some r) (t : AlgType) :
    r.solver.parts t = l.flatMap (fun b => match t, b.2 with
      | .opn, .opn _ => [b.1]
      | .symmetry, .symmetry _ => [b.1]
      | .nonConformal, .nonConformal => [b.1]
      | .wallFcn, .wall d => if d.wallFunction then [b.1] else []
      | .wallFcnProj, .wall d => if !d.wallFunction && d.wallFunctionProjected then [b.1] else []
      | _, _ => []) := by
  have hl := registerAll_list (momentum o lib wlib) (fun r : Reg P N V => r.solver.parts t) (momSol t)
    (fun r b r' e => (momentum_step o lib wlib r r' b e).2.1 hc t) l {} r h
  rw [hl]
  simp only [AlgMap.parts, Option.map_none, Option.getD_none, List.nil_append]
  rfl

/-- **C270** Every boundary part contributes exactly once to the projected velocity gradient. -/
theorem c270_momentum_gradient (hm : o.managePng = false) (l : List (P × BC V S)) (r : Reg P N V)
    (h : registerAll (momentum o lib wlib) l {} = some r) :
    (AlgType.all.flatMap r.grad.parts).Perm (l.map Prod.fst) := by
  have hl := fun t => registerAll_list (momentum o lib wlib) (fun r : Reg P N V => r.grad.parts t) (momGrad t)
    (fun r b r' e => (momentum_step o lib wlib r r' b e).2.2.1 hm t) l {} r h
  have e : ∀ t, r.grad.parts t = l.flatMap (momGrad t) := by
    intro t; rw [show r.grad.parts t = _ from hl t]; simp [AlgMap.parts]
  have e' : AlgType.all.flatMap r.grad.parts = AlgType.all.flatMap (fun t => l.flatMap (momGrad t)) := by
    congr 1; funext t; exact e t
  rw [e']
  clear e e' hl h r
  induction l with
  | nil => simp
  | cons b l ih =>
    have hb : AlgType.all.flatMap (fun t => momGrad t b) = [b.1] := by
      obtain ⟨p, bc⟩ := b
      cases bc with
      | wall d => cases hw : d.wallFunction <;> cases hp : d.wallFunctionProjected <;> simp [AlgType.all, momGrad, hw, hp]
      | _ => simp [AlgType.all, momGrad]
    simp only [List.flatMap_cons, List.map_cons]
    have := List.flatMap_append_perm AlgType.all (fun t => momGrad t b) (fun t => l.flatMap (momGrad t))
    refine this.symm.trans ?_
    rw [hb]
    exact ih.cons _

end Momentum

section Imposed
variable [AddCommGroup V] [Module ℝ V] [DecidableEq N] [Fintype N] (o : Opts) (lib wlib : String → Option (N → V))

/-- The row of a node of the momentum system. -/
theorem momentum_row (l : List (P × BC V S)) (r : Reg P N V) (h : registerAll (momentum o lib wlib) l {} = some r) (mem : P → N → Bool)
    (f : String → N → V) (u : N → V) (m : N → Row N V) (n : N) :
    dirichletAll mem f u r.dirich m n =
      if l.any (fun b => imposesVelocity b.2 && mem b.1 n) then ⟨fun k => if k = n then 1 else 0, f "velocity_bc" n - u n⟩ else m n := by
  obtain ⟨h1, h2, h3⟩ := c270_momentum_dirichlet o lib wlib l r h
  have ho : ∀ t, t ≠ AlgType.inflow → t ≠ AlgType.wall → r.dirich t = none := by
    intro t a b
    cases e : r.dirich t with
    | none => rfl
    | some x => rcases (h3 t x.1 x.2 (by simp [e])).2 with e | e <;> contradiction
  rw [dirichletAll_eq mem f u r.dirich "velocity_bc" "velocity_bc" (fun a ps e => (h3 _ a ps e).1) (fun a ps e => (h3 _ a ps e).1) ho,
    h1, h2, any_flatMap, any_flatMap]
  have key : l.any (fun b => imposesVelocity b.2 && mem b.1 n) =
      ((l.any fun b => (match b.2 with
          | .wall d => if d.wallFunction = false ∧ d.wallFunctionProjected = false then [b.1] else []
          | _ => ([] : List P)).any fun p => mem p n) ||
       (l.any fun b => (match b.2 with | .inflow _ => [b.1] | _ => ([] : List P)).any fun p => mem p n)) := by
    clear h h1 h2 h3 ho
    induction l with
    | nil => rfl
    | cons b l ih =>
      simp only [List.any_cons]
      rw [ih]
      obtain ⟨p, bc⟩ := b
      cases bc with
      | wall d => cases hw : d.wallFunction <;> cases hp : d.wallFunctionProjected <;> simp [imposesVelocity, hw, hp, Bool.or_assoc]
      | inflow d => simp [imposesVelocity, Bool.or_left_comm]
      | _ => simp [imposesVelocity]
  rw [key]
  have tri : ∀ (x y : Bool) (a c : Row N V), (if x then a else if y then a else c) = if (x || y) then a else c := by
    intro x y a c; cases x <;> cases y <;> rfl
  exact tri _ _ _ _

/-- **C271** At a node of several inflows and no-slip walls the velocity after the momentum solve is the one given by the last of them in the
input, whatever was assembled in that row and whatever velocity was there before. -/
theorem c271_velocity_last_wins (l : List (P × BC V S)) (r : Reg P N V) (h : registerAll (momentum o lib wlib) l {} = some r)
    (mem : P → N → Bool) (f : String → N → V) (u δ : N → V) (contribs : List (N → Row N V))
    (hs : Solves (assemble mem (populate mem r f) u r.dirich contribs) δ) (n : N) (b : P × BC V S)
    (hb : (l.filter fun c => imposesVelocity c.2 && fromInput c.2 && mem c.1 n).getLast? = some b) :
    VelocityOf lib wlib b.2 n (u n + δ n) := by
  have hmem := List.mem_of_getLast? hb
  rw [List.mem_filter] at hmem
  have hany : l.any (fun b => imposesVelocity b.2 && mem b.1 n) = true := by
    rw [List.any_eq_true]
    refine ⟨b, hmem.1, ?_⟩
    have := hmem.2
    simp only [Bool.and_eq_true] at this ⊢
    exact ⟨this.1.1, this.2⟩
  have hrow := momentum_row o lib wlib l r h mem (populate mem r f) u (contribs.foldl addRow fun _ => ⟨fun _ => 0, 0⟩) n
  rw [hany] at hrow
  have hδ := solves_identity hs hrow
  rw [hδ]
  have hp := (populate_last (momentum o lib wlib) "velocity_bc" mem n (fun c => imposesVelocity c.2 && fromInput c.2 && mem c.1 n)
    (fun b x => VelocityOf lib wlib b.2 n x) (fun r b r' e => by
      obtain ⟨e, he, hv⟩ := (momentum_step o lib wlib r r' b e).2.2.2.2
      refine ⟨e, he, fun f => ⟨fun hsel => ?_, fun hsel => ?_⟩⟩
      · simp only [Bool.and_eq_true] at hsel
        exact (hv mem f n).2 hsel.1.1 hsel.1.2 hsel.2
      · rcases (hv mem f n).1 with e | ⟨a, b, c, -⟩
        · exact e
        · simp [a, b, c] at hsel) f {} l r h).1 b hb
  simpa using hp

/-- **C271** When all the imposing boundaries of a node take their data from elsewhere, the transferred value is imposed. -/
theorem c271_external (l : List (P × BC V S)) (r : Reg P N V) (h : registerAll (momentum o lib wlib) l {} = some r)
    (mem : P → N → Bool) (f : String → N → V) (u δ : N → V) (contribs : List (N → Row N V))
    (hs : Solves (assemble mem (populate mem r f) u r.dirich contribs) δ) (n : N)
    (hi : ∃ b ∈ l, imposesVelocity b.2 = true ∧ mem b.1 n = true)
    (hx : ∀ b ∈ l, imposesVelocity b.2 = true → mem b.1 n = true → fromInput b.2 = false) :
    u n + δ n = f "velocity_bc" n := by
  obtain ⟨b, hbl, hbi, hbm⟩ := hi
  have hany : l.any (fun b => imposesVelocity b.2 && mem b.1 n) = true := List.any_eq_true.2 ⟨b, hbl, by simp [hbi, hbm]⟩
  have hrow := momentum_row o lib wlib l r h mem (populate mem r f) u (contribs.foldl addRow fun _ => ⟨fun _ => 0, 0⟩) n
  rw [hany] at hrow
  rw [solves_identity hs hrow]
  have hp := (populate_last (momentum o lib wlib) "velocity_bc" mem n (fun c => imposesVelocity c.2 && fromInput c.2 && mem c.1 n)
    (fun b x => VelocityOf lib wlib b.2 n x) (fun r b r' e => by
      obtain ⟨e, he, hv⟩ := (momentum_step o lib wlib r r' b e).2.2.2.2
      refine ⟨e, he, fun f => ⟨fun hsel => ?_, fun hsel => ?_⟩⟩
      · simp only [Bool.and_eq_true] at hsel
        exact (hv mem f n).2 hsel.1.1 hsel.1.2 hsel.2
      · rcases (hv mem f n).1 with e | ⟨a, b, c, -⟩
        · exact e
        · simp [a, b, c] at hsel) f {} l r h).2 (fun c hc => by
          by_cases h1 : imposesVelocity c.2 = true
          · by_cases h2 : mem c.1 n = true
            · simp [hx c hc h1 h2]
            · simp [h2]
          · simp [h1])
  rw [hp]
  simp [populate]

/-- **C272** No velocity is imposed at nodes touched by no inflow and no no-slip wall: at walls with a wall function (and open, symmetry and
non-conformal boundaries) the assembled momentum equation is solved. -/
theorem c272_equation_kept (l : List (P × BC V S)) (r : Reg P N V) (h : registerAll (momentum o lib wlib) l {} = some r)
    (mem : P → N → Bool) (f : String → N → V) (u : N → V) (contribs : List (N → Row N V)) (n : N)
    (hn : ∀ b ∈ l, imposesVelocity b.2 = true → mem b.1 n = false) :
    assemble mem f u r.dirich contribs n = ⟨fun k => (contribs.map fun c => (c n).coeff k).sum, (contribs.map fun c => (c n).rhs).sum⟩ := by
  have hany : l.any (fun b => imposesVelocity b.2 && mem b.1 n) = false := by
    rw [List.any_eq_false]
    intro b hb
    by_cases h1 : imposesVelocity b.2 = true
    · simp [hn b hb h1]
    · simp [h1]
  have hrow := momentum_row o lib wlib l r h mem f u (contribs.foldl addRow fun _ => ⟨fun _ => 0, 0⟩) n
  rw [hany] at hrow
  rw [assemble, hrow]
  simp only [Bool.false_eq_true, if_false]
  have : ∀ (cs : List (N → Row N V)) (m : N → Row N V), cs.foldl addRow m n =
      ⟨fun k => (m n).coeff k + (cs.map fun c => (c n).coeff k).sum, (m n).rhs + (cs.map fun c => (c n).rhs).sum⟩ := by
    intro cs
    induction cs with
    | nil => intro m; simp
    | cons c cs ih => intro m; simp [ih, addRow, add_assoc]
  rw [this]
  simp

end Imposed

/-! ### Scalars -/

/-- Parts on which a scalar system imposes values. -/
def dirOf (imp : BC V S → Bool) (t : AlgType) (b : P × BC V S) : List P :=
  match t, b.2 with
  | .inflow, .inflow _ => if imp b.2 then [b.1] else []
  | .wall, .wall _ => if imp b.2 then [b.1] else []
  | _, _ => []

/-- The Dirichlet algorithms read field `fi` at inflows and `fw` at walls. -/
def FieldInv (fi fw : String) (d : AlgMap String P) : Prop :=
  ∀ t a ps, d t = some (a, ps) → (t = .inflow ∧ a = fi) ∨ (t = .wall ∧ a = fw)

theorem fieldInv_add_inflow {fi fw : String} {d : AlgMap String P} (h : FieldInv fi fw d) (p : P) : FieldInv fi fw (d.add .inflow fi p) := by
  intro t a ps ht
  rcases kind_add _ _ _ _ _ _ _ ht with ⟨qs, hq⟩ | ⟨rfl, rfl⟩
  · exact h t a qs hq
  · exact Or.inl ⟨rfl, rfl⟩

theorem fieldInv_add_wall {fi fw : String} {d : AlgMap String P} (h : FieldInv fi fw d) (p : P) : FieldInv fi fw (d.add .wall fw p) := by
  intro t a ps ht
  rcases kind_add _ _ _ _ _ _ _ ht with ⟨qs, hq⟩ | ⟨rfl, rfl⟩
  · exact h t a qs hq
  · exact Or.inr ⟨rfl, rfl⟩

/-- A system that imposes values exactly where `imp` says. -/
def Imposes (step : Reg P N V → P × BC U S → Option (Reg P N V)) (imp : BC U S → Bool) (fi fw : String) : Prop :=
  ∀ r b r', step r b = some r' →
    (∀ t, r'.dirich.parts t = r.dirich.parts t ++ dirOf imp t b) ∧ (FieldInv fi fw r.dirich → FieldInv fi fw r'.dirich)

/-- Whether a node lies on an imposing wall / inflow. -/
def onWall (imp : BC U S → Bool) (mem : P → N → Bool) (l : List (P × BC U S)) (n : N) : Bool :=
  l.any fun b => (match b.2 with | .wall _ => imp b.2 | _ => false) && mem b.1 n

/-- See `onWall`. -/
def onInflow (imp : BC U S → Bool) (mem : P → N → Bool) (l : List (P × BC U S)) (n : N) : Bool :=
  l.any fun b => (match b.2 with | .inflow _ => imp b.2 | _ => false) && mem b.1 n

theorem scalar_row [AddCommGroup V] [DecidableEq N] {step : Reg P N V → P × BC U S → Option (Reg P N V)} {imp : BC U S → Bool} {fi fw : String}
    (hI : Imposes step imp fi fw) (l : List (P × BC U S)) (r : Reg P N V) (h : registerAll step l {} = some r) (mem : P → N → Bool)
    (f : String → N → V) (u : N → V) (m : N → Row N V) (n : N) :
    dirichletAll mem f u r.dirich m n =
      if onWall imp mem l n then ⟨fun k => if k = n then 1 else 0, f fw n - u n⟩
      else if onInflow imp mem l n then ⟨fun k => if k = n then 1 else 0, f fi n - u n⟩ else m n := by
  have hl := fun t => registerAll_list step (fun r : Reg P N V => r.dirich.parts t) (dirOf imp t) (fun r b r' e => (hI r b r' e).1 t) l {} r h
  have hf := registerAll_inv step (fun r : Reg P N V => FieldInv fi fw r.dirich) (fun r b r' e i => (hI r b r' e).2 i) l {} r h
    (by intro t a ps e; simp at e)
  have ho : ∀ t, t ≠ AlgType.inflow → t ≠ AlgType.wall → r.dirich t = none := by
    intro t a b
    cases e : r.dirich t with
    | none => rfl
    | some x => rcases hf t x.1 x.2 (by simp [e]) with ⟨e, -⟩ | ⟨e, -⟩ <;> contradiction
  rw [dirichletAll_eq mem f u r.dirich fi fw
    (fun a ps e => by rcases hf _ a ps e with ⟨-, e⟩ | ⟨e, -⟩; exact e; exact absurd e (by decide))
    (fun a ps e => by rcases hf _ a ps e with ⟨e, -⟩ | ⟨-, e⟩; exact absurd e (by decide); exact e) ho]
  have hw : (r.dirich.parts .wall).any (fun p => mem p n) = onWall imp mem l n := by
    rw [show r.dirich.parts .wall = _ from hl .wall]
    simp only [AlgMap.parts, Option.map_none, Option.getD_none, List.nil_append]
    rw [any_flatMap, onWall]
    congr 1
    funext b; obtain ⟨p, bc⟩ := b
    cases bc with
    | wall d => cases hi : imp (.wall d) <;> simp [dirOf, hi]
    | _ => simp [dirOf]
  have hi : (r.dirich.parts .inflow).any (fun p => mem p n) = onInflow imp mem l n := by
    rw [show r.dirich.parts .inflow = _ from hl .inflow]
    simp only [AlgMap.parts, Option.map_none, Option.getD_none, List.nil_append]
    rw [any_flatMap, onInflow]
    congr 1
    funext b; obtain ⟨p, bc⟩ := b
    cases bc with
    | inflow d => cases hi : imp (.inflow d) <;> simp [dirOf, hi]
    | _ => simp [dirOf]
  rw [hw, hi]

/-- Wall models: the value at their nodes. -/
theorem wallModels_at (mem : P → N → Bool) (fld : String) (w : N → V) (r : Reg P N V) (f : String → N → V) (n : N) :
    wallModels mem fld w r f fld n = if r.wallModel.any (fun e => mem e.2 n) then w n else f fld n := by
  unfold wallModels
  generalize r.wallModel = l
  induction l generalizing f with
  | nil => simp
  | cons e l ih =>
    simp only [List.foldl_cons, List.any_cons]
    rw [ih]
    by_cases h1 : l.any (fun e => mem e.2 n) = true
    · simp [h1]
    · by_cases h2 : mem e.2 n = true <;> simp [h1, h2, writeField]

section Steps
variable [Zero S] (o : Opts) (lib : String → Option (N → S))

/-- Where the turbulent kinetic energy is imposed: inflows, walls with a given value, and wall-function walls unless Neumann. -/
def imposesTke : BC U S → Bool
  | .inflow _ => true
  | .wall d => d.tke.specified || ((d.wallFunction || d.wallFunctionProjected) && !d.neumann)
  | _ => false

/-- Walls whose turbulent kinetic energy comes from the wall function. -/
def modelsTke : BC U S → Bool
  | .wall d => (d.wallFunction || d.wallFunctionProjected) && !d.tke.specified && !d.neumann
  | _ => false

/-- **C273** What a wall does to the turbulent kinetic energy equation: refused when Neumann is asked for a model other than k-sgs, or when
neither a value nor a wall function is given; otherwise a value, a wall-function value or (Neumann) nothing is imposed. -/
theorem c273_tke_wall (r : Reg P N S) (p : P) (d : WallData U S) :
    (tkeWall o p d r = none ↔ (d.neumann = true ∧ o.ksgs = false) ∨
      (d.tke.specified = false ∧ d.wallFunction = false ∧ d.wallFunctionProjected = false)) ∧
    (∀ r', tkeWall o p d r = some r' →
      (∀ t, r'.dirich.parts t = r.dirich.parts t ++ dirOf imposesTke t (p, .wall d)) ∧
      (FieldInv "tke_bc" "tke_bc" r.dirich → FieldInv "tke_bc" "tke_bc" r'.dirich) ∧
      r'.bcData.map (fun e => (e.1, e.2.1)) = r.bcData.map (fun e => (e.1, e.2.1)) ++ (if d.tke.specified then [(p, "tke_bc")] else []) ∧
      r'.wallModel.map Prod.snd = r.wallModel.map Prod.snd ++ (if modelsTke (.wall d) then [p] else [])) := by
  cases hs : d.tke.specified <;> cases hw : d.wallFunction <;> cases hp : d.wallFunctionProjected <;> cases hn : d.neumann <;>
    cases hk : o.ksgs <;> cases hm : o.managePng <;> simp [tkeWall, hs, hw, hp, hn, hk, hm, Reg.addGrad, modelsTke]
  all_goals first
    | (refine ⟨fun t => ?_, fun hI => fieldInv_add_wall hI p⟩; cases t <;> simp [parts_add, dirOf, imposesTke, hs, hw, hp, hn]; done)
    | (intro t; cases t <;> simp [parts_add, dirOf, imposesTke, hs, hw, hp, hn]; done)

omit [Zero S] in
theorem scalarInflow_dir (field bc : String) (p : P) (ext : Bool) (v : N → S) (r : Reg P N S) :
    (scalarInflow o field bc p ext v r).dirich = r.dirich.add .inflow bc p ∧
    (scalarInflow o field bc p ext v r).bcData = r.bcData ++ (if ext then [] else [(p, bc, v)]) ∧
    (scalarInflow o field bc p ext v r).wallModel = r.wallModel ∧ (scalarInflow o field bc p ext v r).fromT = r.fromT := by
  cases hm : o.managePng <;> cases ext <;> simp [scalarInflow, Reg.addGrad, Reg.addData, hm]

omit [Zero S] in
theorem scalarOpen_dir (field bc : String) (p : P) (v : S) (r : Reg P N S) :
    (scalarOpen o field bc p v r).dirich = r.dirich ∧ (scalarOpen o field bc p v r).bcData = r.bcData ++ [(p, bc, fun _ => v)] ∧
    (scalarOpen o field bc p v r).wallModel = r.wallModel ∧ (scalarOpen o field bc p v r).fromT = r.fromT := by
  cases hm : o.managePng <;> cases hc : o.consolidated <;> simp [scalarOpen, Reg.addGrad, hm, hc]

omit [Zero S] in
theorem scalarSymmetry_dir (field : String) (p : P) (r : Reg P N S) :
    (scalarSymmetry o field p r).dirich = r.dirich ∧ (scalarSymmetry o field p r).bcData = r.bcData ∧
    (scalarSymmetry o field p r).wallModel = r.wallModel ∧ (scalarSymmetry o field p r).fromT = r.fromT := by
  cases hm : o.managePng <;> simp [scalarSymmetry, Reg.addGrad, hm]

omit [Zero S] in
theorem scalarNonConformal_dir (field : String) (p : P) (r : Reg P N S) :
    (scalarNonConformal o field p r).dirich = r.dirich ∧ (scalarNonConformal o field p r).bcData = r.bcData ∧
    (scalarNonConformal o field p r).wallModel = r.wallModel ∧ (scalarNonConformal o field p r).fromT = r.fromT := by
  cases hm : o.managePng <;> simp [scalarNonConformal, Reg.addGrad, hm]

/-- One boundary of the turbulent kinetic energy system. -/
theorem tke_step (r r' : Reg P N S) (b : P × BC U S) (h : tke o lib r b = some r') :
    (∀ t, r'.dirich.parts t = r.dirich.parts t ++ dirOf imposesTke t b) ∧
    (FieldInv "tke_bc" "tke_bc" r.dirich → FieldInv "tke_bc" "tke_bc" r'.dirich) ∧
    r'.wallModel.map Prod.snd = r.wallModel.map Prod.snd ++ (if modelsTke b.2 then [b.1] else []) := by
  obtain ⟨p, bc⟩ := b
  cases bc with
  | inflow d =>
    simp only [tke, Option.bind_eq_bind, Option.bind_eq_some_iff, Option.pure_def, Option.some.injEq] at h
    obtain ⟨v, -, rfl⟩ := h
    obtain ⟨e1, -, e3, -⟩ := scalarInflow_dir o "turbulent_ke" "tke_bc" p d.external v r
    refine ⟨fun t => ?_, fun hI => ?_, ?_⟩
    · rw [e1]; cases t <;> simp [parts_add, dirOf, imposesTke]
    · rw [e1]; exact fieldInv_add_inflow hI p
    · rw [e3]; simp [modelsTke]
  | wall d =>
    have := (c273_tke_wall o r p d).2 r' h
    exact ⟨this.1, this.2.1, this.2.2.2⟩
  | opn d =>
    simp only [tke, Option.some.injEq] at h; subst h
    obtain ⟨e1, -, e3, -⟩ := scalarOpen_dir o "turbulent_ke" "open_tke_bc" p d.tke r
    refine ⟨fun t => ?_, fun hI => ?_, ?_⟩
    · rw [e1]; cases t <;> simp [dirOf]
    · rw [e1]; exact hI
    · rw [e3]; simp [modelsTke]
  | symmetry g =>
    simp only [tke, Option.some.injEq] at h; subst h
    obtain ⟨e1, -, e3, -⟩ := scalarSymmetry_dir o "turbulent_ke" p r
    refine ⟨fun t => ?_, fun hI => ?_, ?_⟩
    · rw [e1]; cases t <;> simp [dirOf]
    · rw [e1]; exact hI
    · rw [e3]; simp [modelsTke]
  | nonConformal =>
    simp only [tke, Option.some.injEq] at h; subst h
    obtain ⟨e1, -, e3, -⟩ := scalarNonConformal_dir o "turbulent_ke" p r
    refine ⟨fun t => ?_, fun hI => ?_, ?_⟩
    · rw [e1]; cases t <;> simp [dirOf]
    · rw [e1]; exact hI
    · rw [e3]; simp [modelsTke]

omit [Zero S] in
theorem wallModel_any {step : Reg P N S → P × BC U S → Option (Reg P N S)} {mdl : BC U S → Bool}
    (hs : ∀ r b r', step r b = some r' → r'.wallModel.map Prod.snd = r.wallModel.map Prod.snd ++ (if mdl b.2 then [b.1] else []))
    (l : List (P × BC U S)) (r : Reg P N S) (h : registerAll step l {} = some r) (mem : P → N → Bool) (n : N) :
    r.wallModel.any (fun e => mem e.2 n) = l.any fun b => mdl b.2 && mem b.1 n := by
  have hl := registerAll_list step (fun r : Reg P N S => r.wallModel.map Prod.snd) (fun b => if mdl b.2 then [b.1] else []) hs l {} r h
  have : (r.wallModel.map Prod.snd).any (fun p => mem p n) = r.wallModel.any (fun e => mem e.2 n) := by
    rw [List.any_map]; rfl
  rw [← this, hl]
  simp only [List.map_nil, List.nil_append]
  rw [any_flatMap]
  congr 1
  funext b
  cases hb : mdl b.2 <;> simp [hb]

end Steps

section Turb
variable [AddCommGroup S] [Module ℝ S] [DecidableEq N] [Fintype N] (o : Opts) (lib : String → Option (N → S))

/-- **C273** At a node of a wall-function wall the turbulent kinetic energy after the solve is the wall function's value, whatever other
boundaries meet there and in whatever order they were given. -/
theorem c273_tke_wall_function_prevails (l : List (P × BC U S)) (r : Reg P N S) (h : registerAll (tke o lib) l {} = some r)
    (mem : P → N → Bool) (f : String → N → S) (w k δ : N → S) (contribs : List (N → Row N S))
    (hs : Solves (assemble mem (wallModels mem "tke_bc" w r (populate mem r f)) k r.dirich contribs) δ) (n : N)
    (hn : ∃ b ∈ l, modelsTke b.2 = true ∧ mem b.1 n = true) : k n + δ n = w n := by
  obtain ⟨b, hb, hm, hmem⟩ := hn
  have hrow := scalar_row (fun r b r' e => ⟨(tke_step o lib r r' b e).1, (tke_step o lib r r' b e).2.1⟩) l r h mem
    (wallModels mem "tke_bc" w r (populate mem r f)) k (contribs.foldl addRow fun _ => ⟨fun _ => 0, 0⟩) n
  have how : onWall imposesTke mem l n = true := by
    rw [onWall, List.any_eq_true]
    refine ⟨b, hb, ?_⟩
    obtain ⟨p, bc⟩ := b
    cases bc with
    | wall d =>
      simp only [modelsTke, Bool.and_eq_true] at hm
      have h1 := hm.1.1
      have h2 : d.neumann = false := by simpa using hm.2
      simp only [Bool.or_eq_true] at h1
      simp [imposesTke, h1, h2, hmem]
    | _ => simp [modelsTke] at hm
  rw [how] at hrow
  have hδ := solves_identity hs hrow
  rw [hδ, wallModels_at, wallModel_any (fun r b r' e => (tke_step o lib r r' b e).2.2) l r h,
    if_pos (List.any_eq_true.2 ⟨b, hb, by simp [hm, hmem]⟩)]
  simp


/-- A system in which every wall model writes the field the wall rows read: the model's value prevails at wall nodes. -/
theorem wall_model_prevails {step : Reg P N S → P × BC U S → Option (Reg P N S)} {imp mdl : BC U S → Bool} {fi fw : String}
    (hI : Imposes step imp fi fw)
    (hs : ∀ r b r', step r b = some r' → r'.wallModel.map Prod.snd = r.wallModel.map Prod.snd ++ (if mdl b.2 then [b.1] else []))
    (himp : ∀ b, mdl b = true → ∃ d, b = .wall d ∧ imp b = true)
    (l : List (P × BC U S)) (r : Reg P N S) (h : registerAll step l {} = some r)
    (mem : P → N → Bool) (f : String → N → S) (w k δ : N → S) (contribs : List (N → Row N S))
    (hsol : Solves (assemble mem (wallModels mem fw w r (populate mem r f)) k r.dirich contribs) δ) (n : N)
    (hn : ∃ b ∈ l, mdl b.2 = true ∧ mem b.1 n = true) : k n + δ n = w n := by
  obtain ⟨b, hb, hm, hmem⟩ := hn
  have hrow := scalar_row hI l r h mem (wallModels mem fw w r (populate mem r f)) k (contribs.foldl addRow fun _ => ⟨fun _ => 0, 0⟩) n
  have how : onWall imp mem l n = true := by
    rw [onWall, List.any_eq_true]
    refine ⟨b, hb, ?_⟩
    obtain ⟨p, bc⟩ := b
    obtain ⟨d, rfl, hi⟩ := himp bc hm
    simp at hmem
    simp [hi, hmem]
  rw [how] at hrow
  have hδ := solves_identity hsol hrow
  rw [hδ, wallModels_at, wallModel_any hs l r h, if_pos (List.any_eq_true.2 ⟨b, hb, by simp [hm, hmem]⟩)]
  simp

/-- Inflows and walls. -/
def inflowOrWall : BC U S → Bool
  | .inflow _ => true
  | .wall _ => true
  | _ => false

/-- Walls. -/
def isWall : BC U S → Bool
  | .wall _ => true
  | _ => false

omit [Module ℝ S] in
/-- One boundary of the specific dissipation rate system. -/
theorem sdr_step (r r' : Reg P N S) (b : P × BC U S) (h : sdr o r b = some r') :
    (∀ t, r'.dirich.parts t = r.dirich.parts t ++ dirOf inflowOrWall t b) ∧
    (FieldInv "sdr_bc" "sdr_bc" r.dirich → FieldInv "sdr_bc" "sdr_bc" r'.dirich) ∧
    r'.wallModel.map Prod.snd = r.wallModel.map Prod.snd ++ (if isWall b.2 then [b.1] else []) := by
  obtain ⟨p, bc⟩ := b
  cases bc with
  | inflow d =>
    simp only [sdr, Option.some.injEq] at h; subst h
    obtain ⟨e1, -, e3, -⟩ := scalarInflow_dir { o with managePng := false, consolidated := false } "specific_dissipation_rate" "sdr_bc" p d.external
      (fun _ => d.sdr.member) r
    refine ⟨fun t => ?_, fun hI => ?_, ?_⟩
    · rw [e1]; cases t <;> simp [parts_add, dirOf, inflowOrWall]
    · rw [e1]; exact fieldInv_add_inflow hI p
    · rw [e3]; simp [isWall]
  | wall d =>
    simp only [sdr, sdrWall, Reg.addGrad, Option.some.injEq] at h; subst h
    refine ⟨fun t => ?_, fun hI => fieldInv_add_wall hI p, ?_⟩
    · cases t <;> simp [parts_add, dirOf, inflowOrWall]
    · simp [isWall]
  | opn d =>
    simp only [sdr, Option.some.injEq] at h; subst h
    obtain ⟨e1, -, e3, -⟩ := scalarOpen_dir { o with managePng := false, consolidated := false } "specific_dissipation_rate" "open_sdr_bc" p d.sdr r
    refine ⟨fun t => ?_, fun hI => ?_, ?_⟩
    · rw [e1]; cases t <;> simp [dirOf]
    · rw [e1]; exact hI
    · rw [e3]; simp [isWall]
  | symmetry g =>
    simp only [sdr, Option.some.injEq] at h; subst h
    obtain ⟨e1, -, e3, -⟩ := scalarSymmetry_dir { o with managePng := false, consolidated := false } "specific_dissipation_rate" p r
    refine ⟨fun t => ?_, fun hI => ?_, ?_⟩
    · rw [e1]; cases t <;> simp [dirOf]
    · rw [e1]; exact hI
    · rw [e3]; simp [isWall]
  | nonConformal =>
    simp only [sdr, Option.some.injEq] at h; subst h
    obtain ⟨e1, -, e3, -⟩ := scalarNonConformal_dir { o with managePng := false, consolidated := false } "specific_dissipation_rate" p r
    refine ⟨fun t => ?_, fun hI => ?_, ?_⟩
    · rw [e1]; cases t <;> simp [dirOf]
    · rw [e1]; exact hI
    · rw [e3]; simp [isWall]

omit [Module ℝ S] in
/-- One boundary of the turbulent dissipation system. -/
theorem eps_step (r r' : Reg P N S) (b : P × BC U S) (h : eps o r b = some r') :
    (∀ t, r'.dirich.parts t = r.dirich.parts t ++ dirOf inflowOrWall t b) ∧
    (FieldInv "turbulent_dissipation_bc" "eps_bc" r.dirich → FieldInv "turbulent_dissipation_bc" "eps_bc" r'.dirich) ∧
    r'.wallModel.map Prod.snd = r.wallModel.map Prod.snd ++ (if isWall b.2 then [b.1] else []) := by
  obtain ⟨p, bc⟩ := b
  cases bc with
  | inflow d =>
    simp only [eps, Option.some.injEq] at h; subst h
    obtain ⟨e1, -, e3, -⟩ := scalarInflow_dir { o with managePng := false, consolidated := false } "turbulent_dissipation"
      "turbulent_dissipation_bc" p d.external (fun _ => d.eps.member) r
    refine ⟨fun t => ?_, fun hI => ?_, ?_⟩
    · rw [e1]; cases t <;> simp [parts_add, dirOf, inflowOrWall]
    · rw [e1]; exact fieldInv_add_inflow hI p
    · rw [e3]; simp [isWall]
  | wall d =>
    simp only [eps, epsWall, Reg.addGrad] at h
    split at h
    swap
    · exact absurd h (by simp)
    simp only [Option.some.injEq] at h; subst h
    refine ⟨fun t => ?_, fun hI => fieldInv_add_wall hI p, ?_⟩
    · cases t <;> simp [parts_add, dirOf, inflowOrWall]
    · simp [isWall]
  | opn d =>
    simp only [eps, Option.some.injEq] at h; subst h
    obtain ⟨e1, -, e3, -⟩ := scalarOpen_dir { o with managePng := false, consolidated := false } "turbulent_dissipation" "open_eps_bc" p d.eps r
    refine ⟨fun t => ?_, fun hI => ?_, ?_⟩
    · rw [e1]; cases t <;> simp [dirOf]
    · rw [e1]; exact hI
    · rw [e3]; simp [isWall]
  | symmetry g =>
    simp only [eps, Option.some.injEq] at h; subst h
    obtain ⟨e1, -, e3, -⟩ := scalarSymmetry_dir { o with managePng := false, consolidated := false } "turbulent_dissipation" p r
    refine ⟨fun t => ?_, fun hI => ?_, ?_⟩
    · rw [e1]; cases t <;> simp [dirOf]
    · rw [e1]; exact hI
    · rw [e3]; simp [isWall]
  | nonConformal =>
    simp only [eps, Option.some.injEq] at h; subst h
    obtain ⟨e1, -, e3, -⟩ := scalarNonConformal_dir { o with managePng := false, consolidated := false } "turbulent_dissipation" p r
    refine ⟨fun t => ?_, fun hI => ?_, ?_⟩
    · rw [e1]; cases t <;> simp [dirOf]
    · rw [e1]; exact hI
    · rw [e3]; simp [isWall]

/-- **C273** At every node of every wall the specific dissipation rate after the solve is the wall model's value, whatever inflows meet there. -/
theorem c273_sdr_wall_prevails (l : List (P × BC U S)) (r : Reg P N S) (h : registerAll (sdr o) l {} = some r)
    (mem : P → N → Bool) (f : String → N → S) (w k δ : N → S) (contribs : List (N → Row N S))
    (hs : Solves (assemble mem (wallModels mem "sdr_bc" w r (populate mem r f)) k r.dirich contribs) δ) (n : N)
    (hn : ∃ b ∈ l, isWall b.2 = true ∧ mem b.1 n = true) : k n + δ n = w n :=
  wall_model_prevails (fun r b r' e => ⟨(sdr_step o r r' b e).1, (sdr_step o r r' b e).2.1⟩) (fun r b r' e => (sdr_step o r r' b e).2.2)
    (fun b hb => by cases b <;> simp_all [isWall, inflowOrWall]) l r h mem f w k δ contribs hs n hn

/-- **C273** The same for the turbulent dissipation, whose wall and inflow values live in different fields; and a list of boundaries is accepted
only if every wall has a wall function. -/
theorem c273_eps_wall_prevails (l : List (P × BC U S)) (r : Reg P N S) (h : registerAll (eps o) l {} = some r)
    (mem : P → N → Bool) (f : String → N → S) (w k δ : N → S) (contribs : List (N → Row N S))
    (hs : Solves (assemble mem (wallModels mem "eps_bc" w r (populate mem r f)) k r.dirich contribs) δ) :
    (∀ n, (∃ b ∈ l, isWall b.2 = true ∧ mem b.1 n = true) → k n + δ n = w n) ∧
    ∀ p d, (p, BC.wall d) ∈ l → d.wallFunction = true ∨ d.wallFunctionProjected = true := by
  refine ⟨fun n hn => wall_model_prevails (fun r b r' e => ⟨(eps_step o r r' b e).1, (eps_step o r r' b e).2.1⟩)
    (fun r b r' e => (eps_step o r r' b e).2.2) (fun b hb => by cases b <;> simp_all [isWall, inflowOrWall]) l r h mem f w k δ contribs hs n hn, ?_⟩
  intro p d hd
  obtain ⟨r1, r2, e⟩ := registerAll_each _ l {} r h _ hd
  simp only [eps, epsWall] at e
  split at e
  · rename_i hc; simpa using hc
  · exact absurd e (by simp)

end Turb

section SdrModel
variable [Zero V] [Zero S] (o : Opts) (wlib : String → Option (N → V))

/-- **C273** A wall without the projected wall function treats momentum and specific dissipation rate alike: both by the wall function or both
as resolved.  Partial: a projected wall function is treated differently (`c273_sdr_projected_wrong`). -/
theorem c273_sdr_model_partial (p : P) (d : WallData V S) (rm rm' : Reg P N V) (rs : Reg P N S) (hp : d.wallFunctionProjected = false)
    (h : momentumWall o wlib p d rm = some rm') :
    (sdrWall o p d rs).wallModel = rs.wallModel ++
      [(if d.wallFunction then "ComputeWallModelSDRWallAlgorithm" else "ComputeLowReynoldsSDRWallAlgorithm", p)] ∧
    rm'.wallModel = rm.wallModel ++ (if d.wallFunction then [("ComputeWallFrictionVelocityAlgorithm", p)] else []) := by
  refine ⟨rfl, ?_⟩
  simp only [momentumWall, WallData.anyWf] at h
  split at h
  swap
  · exact absurd h (by simp)
  simp only [Option.bind_eq_bind, Option.bind_eq_some_iff, Option.pure_def] at h
  obtain ⟨v, hv, h⟩ := h
  cases hw : d.wallFunction <;> cases hc : o.consolidated <;> cases hf : d.isFsi <;>
      cases hm : o.managePng <;> simp [hw, hp, hc, hf, hm, Reg.addGrad, Reg.addData] at h <;> subst h <;> simp

/-- **C273** Finding: with the projected wall function alone, momentum is solved with the wall function while the specific dissipation rate is
given its value for a resolved wall. -/
theorem c273_sdr_projected_wrong (p : P) (d : WallData V S) (rm rm' : Reg P N V) (rs : Reg P N S) (hp : d.wallFunctionProjected = true)
    (hw : d.wallFunction = false) (h : momentumWall o wlib p d rm = some rm') :
    ("ComputeLowReynoldsSDRWallAlgorithm", p) ∈ (sdrWall o p d rs).wallModel ∧
    ("ComputeWallFrictionVelocityProjectedAlgorithm", p) ∈ rm'.wallModel := by
  refine ⟨by simp [sdrWall, Reg.addGrad, hw], ?_⟩
  simp only [momentumWall, WallData.anyWf] at h
  split at h
  swap
  · exact absurd h (by simp)
  simp only [Option.bind_eq_bind, Option.bind_eq_some_iff, Option.pure_def] at h
  obtain ⟨v, hv, h⟩ := h
  cases hc : o.consolidated <;> cases hf : d.isFsi <;>
      cases hm : o.managePng <;> simp [hw, hp, hc, hf, hm, Reg.addGrad, Reg.addData] at h <;> subst h <;> simp

end SdrModel

/-! ### Mixture fraction and enthalpy -/

/-- Where the mixture fraction is imposed: inflows and walls with a given value. -/
def imposesZ : BC U S → Bool
  | .inflow _ => true
  | .wall d => d.mixFrac.specified
  | _ => false

/-- Mixture-fraction data given by the input itself. -/
def zFromInput : BC U S → Bool
  | .inflow d => !d.external
  | _ => true

/-- The mixture fraction a boundary gives at a node. -/
def MixFracOf [Zero S] (lib : String → Option (N → S)) (b : BC U S) (n : N) (x : S) : Prop :=
  match b with
  | .inflow d => SpecValue lib d.mixFrac n x
  | .wall d => SpecValue lib d.mixFrac n x
  | _ => False

/-- What the code uses: at walls only the number. -/
def MixFracUsed [Zero S] (lib : String → Option (N → S)) (b : BC U S) (n : N) (x : S) : Prop :=
  match b with
  | .inflow d => SpecValue lib d.mixFrac n x
  | .wall d => x = d.mixFrac.value.getD 0
  | _ => False

/-- Where the enthalpy is imposed: inflows and walls with a given temperature. -/
def imposesH : BC U S → Bool
  | .inflow _ => true
  | .wall d => d.temperature.specified
  | _ => false

/-- Temperatures given by the input itself. -/
def tFromInput : BC U S → Bool
  | .inflow d => !d.external
  | .wall d => !d.isInterface
  | _ => true

/-- The temperature a boundary gives at a node. -/
def TemperatureOf [Zero S] (lib : String → Option (N → S)) (b : BC U S) (n : N) (x : S) : Prop :=
  match b with
  | .inflow d => SpecValue lib d.temperature n x
  | .wall d => SpecValue lib d.temperature n x
  | _ => False

section ScalarSteps
variable [Zero S] (o : Opts) (lib : String → Option (N → S))

/-- One boundary of the mixture fraction system. -/
theorem mixFrac_step (r r' : Reg P N S) (b : P × BC U S) (h : mixFrac o lib r b = some r') :
    (∀ t, r'.dirich.parts t = r.dirich.parts t ++ dirOf imposesZ t b) ∧
    (FieldInv "mixFrac_bc" "mixFrac_bc" r.dirich → FieldInv "mixFrac_bc" "mixFrac_bc" r'.dirich) ∧
    (∃ e : List (P × String × (N → S)), r'.bcData = r.bcData ++ e ∧ ∀ (mem : P → N → Bool) (f : String → N → S) (n : N),
      ((imposesZ b.2 && zFromInput b.2 && mem b.1 n) = true → MixFracUsed lib b.2 n (e.foldl (writeField mem) f "mixFrac_bc" n)) ∧
      ((imposesZ b.2 && zFromInput b.2 && mem b.1 n) = false → e.foldl (writeField mem) f "mixFrac_bc" n = f "mixFrac_bc" n)) := by
  obtain ⟨p, bc⟩ := b
  cases bc with
  | inflow d =>
    simp only [mixFrac, Option.bind_eq_bind, Option.bind_eq_some_iff, Option.pure_def, Option.some.injEq] at h
    obtain ⟨v, hv, rfl⟩ := h
    obtain ⟨e1, e2, -, -⟩ := scalarInflow_dir o "mixture_fraction" "mixFrac_bc" p d.external v r
    refine ⟨fun t => ?_, fun hI => ?_, ⟨_, e2, fun mem f n => ?_⟩⟩
    · rw [e1]; cases t <;> simp [parts_add, dirOf, imposesZ]
    · rw [e1]; exact fieldInv_add_inflow hI p
    · have := specValue_of_eval hv n
      cases he : d.external <;> by_cases hn : mem p n = true <;>
        simp [imposesZ, zFromInput, he, hn, writeField, MixFracUsed, this]
  | wall d =>
    simp only [mixFrac, mixFracWall, Option.some.injEq] at h
    cases hs : d.mixFrac.specified <;> cases hm : o.managePng <;> simp [hs, hm, Reg.addGrad] at h <;> subst h
    all_goals
      refine ⟨fun t => ?_, fun hI => ?_, ?_⟩
      · cases t <;> simp [parts_add, dirOf, imposesZ, hs]
      · first | exact hI | exact fieldInv_add_wall hI p
      · first | refine ⟨_, rfl, fun mem f n => ?_⟩ | refine ⟨[], (List.append_nil _).symm, fun mem f n => ?_⟩
        by_cases hn : mem p n = true <;> simp [imposesZ, zFromInput, hs, hn, writeField, MixFracUsed, Spec.member]
  | opn d =>
    simp only [mixFrac, Option.some.injEq] at h; subst h
    obtain ⟨e1, e2, -, -⟩ := scalarOpen_dir o "mixture_fraction" "open_mixFrac_bc" p d.mixFrac r
    refine ⟨fun t => ?_, fun hI => ?_, ⟨_, e2, fun mem f n => ?_⟩⟩
    · rw [e1]; cases t <;> simp [dirOf]
    · rw [e1]; exact hI
    · simp [imposesZ, writeField]
  | symmetry g =>
    simp only [mixFrac, Option.some.injEq] at h; subst h
    obtain ⟨e1, e2, -, -⟩ := scalarSymmetry_dir o "mixture_fraction" p r
    refine ⟨fun t => ?_, fun hI => ?_, ⟨[], by rw [e2]; simp, fun mem f n => ?_⟩⟩
    · rw [e1]; cases t <;> simp [dirOf]
    · rw [e1]; exact hI
    · simp [imposesZ]
  | nonConformal =>
    simp only [mixFrac, Option.some.injEq] at h; subst h
    obtain ⟨e1, e2, -, -⟩ := scalarNonConformal_dir o "mixture_fraction" p r
    refine ⟨fun t => ?_, fun hI => ?_, ⟨[], by rw [e2]; simp, fun mem f n => ?_⟩⟩
    · rw [e1]; cases t <;> simp [dirOf]
    · rw [e1]; exact hI
    · simp [imposesZ]

/-- `temperatureSetup` unfolded. -/
theorem temperatureSetup_some {p : P} {s : Spec S} {tf hf : String} {ext : Bool} {r r' : Reg P N S}
    (h : temperatureSetup lib p s tf hf ext r = some r') :
    ∃ v, s.eval lib = some v ∧ r'.dirich = r.dirich ∧ r'.solver = r.solver ∧ r'.bcData = r.bcData ++ (if ext then [] else [(p, tf, v)]) ∧
      r'.fromT = r.fromT ++ [(p, tf, hf)] ∧ r'.grad = r.grad := by
  simp only [temperatureSetup, Option.bind_eq_bind, Option.bind_eq_some_iff, Option.pure_def, Option.some.injEq] at h
  obtain ⟨v, hv, rfl⟩ := h
  refine ⟨v, hv, ?_⟩
  cases ext <;> simp [Reg.addData]

/-- What one boundary adds to the conversions from temperature to enthalpy. -/
def convOf (b : P × BC U S) : List (P × String × String) :=
  match b.2 with
  | .inflow _ => [(b.1, "temperature_bc", "enthalpy_bc")]
  | .wall d => if d.temperature.specified then [(b.1, "temperature_bc", "enthalpy_bc")] else []
  | .opn _ => [(b.1, "open_temperature_bc", "open_enthalpy_bc")]
  | _ => []

/-- What one boundary adds to the boundary terms of the enthalpy equation. -/
def enthSol (t : AlgType) (b : P × BC U S) : List P :=
  match t, b.2 with
  | .opn, .opn _ => [b.1]
  | .wall, .wall d => if d.temperature.specified then [] else if d.heatFlux.isSome then [b.1] else []
  | .symmetry, .symmetry g => if g.isSome then [b.1] else []
  | .nonConformal, .nonConformal => [b.1]
  | _, _ => []

/-- One boundary of the enthalpy system. -/
theorem enthalpy_step (r r' : Reg P N S) (b : P × BC U S) (h : enthalpy o lib r b = some r') :
    (∀ t, r'.dirich.parts t = r.dirich.parts t ++ dirOf imposesH t b) ∧
    (FieldInv "enthalpy_bc" "enthalpy_bc" r.dirich → FieldInv "enthalpy_bc" "enthalpy_bc" r'.dirich) ∧
    r'.fromT = r.fromT ++ convOf b ∧
    (o.consolidated = false → ∀ t, r'.solver.parts t = r.solver.parts t ++ enthSol t b) ∧
    (∃ e : List (P × String × (N → S)), r'.bcData = r.bcData ++ e ∧ ∀ (mem : P → N → Bool) (f : String → N → S) (n : N),
      ((imposesH b.2 && tFromInput b.2 && mem b.1 n) = true → TemperatureOf lib b.2 n (e.foldl (writeField mem) f "temperature_bc" n)) ∧
      ((imposesH b.2 && tFromInput b.2 && mem b.1 n) = false → e.foldl (writeField mem) f "temperature_bc" n = f "temperature_bc" n)) := by
  obtain ⟨p, bc⟩ := b
  cases bc with
  | inflow d =>
    simp only [enthalpy, Option.bind_eq_bind, Option.bind_eq_some_iff, Option.pure_def, Option.some.injEq] at h
    obtain ⟨r1, h1, rfl⟩ := h
    obtain ⟨v, hv, e1, e2, e3, e4, e5⟩ := temperatureSetup_some lib h1
    refine ⟨fun t => ?_, fun hI => ?_, ?_, fun _ t => ?_, ?_⟩
    · cases hm : o.managePng <;> simp only [Reg.addGrad, hm, Bool.false_eq_true, if_false, if_true, e1] <;> cases t <;>
        simp [parts_add, dirOf, imposesH]
    · have := fieldInv_add_inflow hI p
      cases hm : o.managePng <;> simpa only [Reg.addGrad, hm, Bool.false_eq_true, if_false, if_true, e1] using this
    · cases hm : o.managePng <;> simp [Reg.addGrad, hm, e4, convOf]
    · cases hm : o.managePng <;> simp only [Reg.addGrad, hm, Bool.false_eq_true, if_false, if_true, e2] <;> cases t <;> simp [enthSol]
    · refine ⟨if d.external then [] else [(p, "temperature_bc", v)], ?_, fun mem f n => ?_⟩
      · cases hm : o.managePng <;> simp [Reg.addGrad, hm, e3]
      · have := specValue_of_eval hv n
        cases he : d.external <;> by_cases hn : mem p n = true <;> simp [imposesH, tFromInput, he, hn, writeField, TemperatureOf, this]
  | wall d =>
    simp only [enthalpy, enthalpyWall, Option.bind_eq_bind, Option.pure_def] at h
    cases hs : d.temperature.specified with
    | true =>
      rw [hs, if_pos rfl] at h
      obtain ⟨r1, h1, h⟩ := Option.bind_eq_some_iff.1 h
      simp only [Option.bind_some, Option.some.injEq] at h
      subst h
      obtain ⟨v, hv, e1, e2, e3, e4, e5⟩ := temperatureSetup_some lib h1
      refine ⟨fun t => ?_, fun hI => ?_, ?_, fun _ t => ?_, ?_⟩
      · cases hm : o.managePng <;> simp only [Reg.addGrad, hm, Bool.false_eq_true, if_false, if_true, e1] <;> cases t <;>
          simp [parts_add, dirOf, imposesH, hs]
      · have := fieldInv_add_wall hI p
        cases hm : o.managePng <;> simpa only [Reg.addGrad, hm, Bool.false_eq_true, if_false, if_true, e1] using this
      · cases hm : o.managePng <;> simp [Reg.addGrad, hm, e4, convOf, hs]
      · cases hm : o.managePng <;> simp only [Reg.addGrad, hm, Bool.false_eq_true, if_false, if_true, e2] <;> cases t <;> simp [enthSol, hs]
      · refine ⟨if d.isInterface then [] else [(p, "temperature_bc", v)], ?_, fun mem f n => ?_⟩
        · cases hm : o.managePng <;> simp [Reg.addGrad, hm, e3]
        · have := specValue_of_eval hv n
          cases he : d.isInterface <;> by_cases hn : mem p n = true <;>
            simp [imposesH, tFromInput, he, hn, writeField, TemperatureOf, this, hs]
    | false =>
      cases hq : d.heatFlux <;> cases hm : o.managePng <;> simp [hs, hq, hm, Reg.addGrad] at h <;> subst h
      all_goals
        refine ⟨fun t => ?_, fun hI => hI, ?_, fun _ t => ?_, ?_⟩
        · cases t <;> simp [dirOf, imposesH, hs]
        · simp [convOf, hs]
        · cases t <;> simp [enthSol, hs, hq, parts_add]
        · first | refine ⟨_, rfl, fun mem f n => ?_⟩ | refine ⟨[], (List.append_nil _).symm, fun mem f n => ?_⟩
          simp [imposesH, hs, writeField]
  | opn d =>
    simp only [enthalpy] at h
    split at h
    swap
    · exact absurd h (by simp)
    simp only [Option.bind_eq_bind, Option.bind_eq_some_iff] at h
    obtain ⟨r1, h1, h⟩ := h
    obtain ⟨v, hv, e1, e2, e3, e4, e5⟩ := temperatureSetup_some lib h1
    cases hc : o.consolidated <;> cases hm : o.managePng <;> simp [hc, hm, Reg.addGrad] at h <;> subst h
    all_goals
      refine ⟨fun t => ?_, fun hI => ?_, ?_, fun hc' t => ?_, ?_⟩
      · simp only [e1]; cases t <;> simp [dirOf]
      · simp only [e1]; exact hI
      · simp [e4, convOf]
      · first | (exfalso; simp [hc] at hc'; done) | (simp only [e2]; cases t <;> simp [enthSol, parts_add])
      · refine ⟨if d.external then [] else [(p, "open_temperature_bc", v)], e3, fun mem f n => ?_⟩
        cases he : d.external <;> simp [imposesH, writeField]
  | symmetry g =>
    simp only [enthalpy, Option.some.injEq] at h
    cases g <;> cases hm : o.managePng <;> simp [hm, Reg.addGrad] at h <;> subst h
    all_goals
      refine ⟨fun t => ?_, fun hI => hI, ?_, fun _ t => ?_, ?_⟩
      · cases t <;> simp [dirOf]
      · simp [convOf]
      · cases t <;> simp [enthSol, parts_add]
      · first | refine ⟨_, rfl, fun mem f n => ?_⟩ | refine ⟨[], (List.append_nil _).symm, fun mem f n => ?_⟩
        simp [imposesH, writeField]
  | nonConformal =>
    simp only [enthalpy, Option.some.injEq] at h; subst h
    obtain ⟨e1, e2, -, e4⟩ := scalarNonConformal_dir o "enthalpy" p r
    refine ⟨fun t => ?_, fun hI => ?_, ?_, fun _ t => ?_, ⟨[], by rw [e2]; simp, fun mem f n => ?_⟩⟩
    · rw [e1]; cases t <;> simp [dirOf]
    · rw [e1]; exact hI
    · rw [e4]; simp [convOf]
    · cases hm : o.managePng <;> cases t <;> simp [scalarNonConformal, Reg.addGrad, hm, enthSol, parts_add]
    · simp [imposesH]

end ScalarSteps

section ScalarImposed
variable [AddCommGroup S] [Module ℝ S] [DecidableEq N] [Fintype N] (o : Opts) (lib : String → Option (N → S))

/-- The last imposing boundary of a scalar read from one field. -/
theorem scalar_last {step : Reg P N S → P × BC U S → Option (Reg P N S)} {imp inp : BC U S → Bool} {fld : String}
    {Val : BC U S → N → S → Prop}
    (hI : Imposes step imp fld fld) (himp : ∀ b : BC U S, imp b = true → inflowOrWall b = true)
    (hd : ∀ r b r', step r b = some r' → ∃ e : List (P × String × (N → S)), r'.bcData = r.bcData ++ e ∧
      ∀ (mem : P → N → Bool) (f : String → N → S) (n : N),
      ((imp b.2 && inp b.2 && mem b.1 n) = true → Val b.2 n (e.foldl (writeField mem) f fld n)) ∧
      ((imp b.2 && inp b.2 && mem b.1 n) = false → e.foldl (writeField mem) f fld n = f fld n))
    (l : List (P × BC U S)) (r : Reg P N S) (h : registerAll step l {} = some r)
    (mem : P → N → Bool) (f : String → N → S) (u δ : N → S) (contribs : List (N → Row N S))
    (hs : Solves (assemble mem (populate mem r f) u r.dirich contribs) δ) (n : N) (b : P × BC U S)
    (hb : (l.filter fun c => imp c.2 && inp c.2 && mem c.1 n).getLast? = some b) : Val b.2 n (u n + δ n) := by
  have hmem := List.mem_of_getLast? hb
  rw [List.mem_filter] at hmem
  have hsel := hmem.2
  simp only [Bool.and_eq_true] at hsel
  have hrow := scalar_row hI l r h mem (populate mem r f) u (contribs.foldl addRow fun _ => ⟨fun _ => 0, 0⟩) n
  have hor : onWall imp mem l n = true ∨ onInflow imp mem l n = true := by
    obtain ⟨p, bc⟩ := b
    have := himp bc hsel.1.1
    cases bc with
    | wall d => left; rw [onWall, List.any_eq_true]; exact ⟨_, hmem.1, by simp [hsel.1.1, hsel.2]⟩
    | inflow d => right; rw [onInflow, List.any_eq_true]; exact ⟨_, hmem.1, by simp [hsel.1.1, hsel.2]⟩
    | _ => simp [inflowOrWall] at this
  have hrow' : dirichletAll mem (populate mem r f) u r.dirich (contribs.foldl addRow fun _ => ⟨fun _ => 0, 0⟩) n =
      ⟨fun k => if k = n then 1 else 0, populate mem r f fld n - u n⟩ := by
    rw [hrow]; rcases hor with e | e <;> simp [e]
  rw [solves_identity hs hrow']
  have hp := (populate_last step fld mem n (fun c => imp c.2 && inp c.2 && mem c.1 n)
    (fun b x => Val b.2 n x) (fun r b r' e => by
      obtain ⟨e, he, hv⟩ := hd r b r' e
      exact ⟨e, he, fun f => hv mem f n⟩) f {} l r h).1 b hb
  simpa using hp

/-- **C274** Mixture fraction: at a node of several inflows and specified walls the value after the solve is that of the last of them in the
input.  Partial: walls that name a user function are excluded (`c274_wall_user_function_wrong`). -/
theorem c274_mixture_fraction_partial (l : List (P × BC U S)) (r : Reg P N S) (h : registerAll (mixFrac o lib) l {} = some r)
    (mem : P → N → Bool) (f : String → N → S) (u δ : N → S) (contribs : List (N → Row N S))
    (hs : Solves (assemble mem (populate mem r f) u r.dirich contribs) δ) (n : N) (b : P × BC U S)
    (hb : (l.filter fun c => imposesZ c.2 && zFromInput c.2 && mem c.1 n).getLast? = some b)
    (hf : ∀ d, b.2 = .wall d → d.mixFrac.fn = none) : MixFracOf lib b.2 n (u n + δ n) := by
  have := scalar_last (Val := fun b n x => MixFracUsed lib b n x) (imp := imposesZ) (inp := zFromInput)
    (fun r b r' e => ⟨(mixFrac_step o lib r r' b e).1, (mixFrac_step o lib r r' b e).2.1⟩)
    (fun b hb => by cases b <;> simp_all [imposesZ, inflowOrWall])
    (fun r b r' e => (mixFrac_step o lib r r' b e).2.2) l r h mem f u δ contribs hs n b hb
  obtain ⟨p, bc⟩ := b
  cases bc with
  | wall d =>
    simp only [MixFracUsed] at this
    refine ⟨fun _ => this, fun g hg => ?_⟩
    rw [hf d rfl] at hg; cases hg
  | inflow d => exact this
  | _ => exact this.elim

/-- **C274** Finding: a wall that names a user function for the mixture fraction is accepted for any name, and imposes the number of the block,
zero when none was given. -/
theorem c274_wall_user_function_wrong (l : List (P × BC U S)) (r : Reg P N S) (h : registerAll (mixFrac o lib) l {} = some r)
    (mem : P → N → Bool) (f : String → N → S) (u δ : N → S) (contribs : List (N → Row N S))
    (hs : Solves (assemble mem (populate mem r f) u r.dirich contribs) δ) (n : N) (p : P) (d : WallData U S) (g : String)
    (_hg : d.mixFrac.fn = some g) (hv : d.mixFrac.value = none)
    (hb : (l.filter fun c => imposesZ c.2 && zFromInput c.2 && mem c.1 n).getLast? = some (p, .wall d)) : u n + δ n = 0 := by
  have := scalar_last (Val := fun b n x => MixFracUsed lib b n x) (imp := imposesZ) (inp := zFromInput)
    (fun r b r' e => ⟨(mixFrac_step o lib r r' b e).1, (mixFrac_step o lib r r' b e).2.1⟩)
    (fun b hb => by cases b <;> simp_all [imposesZ, inflowOrWall])
    (fun r b r' e => (mixFrac_step o lib r r' b e).2.2) l r h mem f u δ contribs hs n _ hb
  simpa [MixFracUsed, hv] using this

omit [Module ℝ S] [DecidableEq N] [Fintype N] [AddCommGroup S] in
/-- The conversion leaves the temperatures alone and sets the enthalpy from them. -/
theorem fromT_at (mem : P → N → Bool) (h : N → S → S) (l : List (P × BC U S)) (f : String → N → S) (n : N) :
    (l.flatMap convOf).foldl (fun f e => writeField mem f (e.1, e.2.2, fun n => h n (f e.2.1 n))) f "temperature_bc" n = f "temperature_bc" n ∧
    ((l.any fun b => imposesH b.2 && mem b.1 n) = true →
      (l.flatMap convOf).foldl (fun f e => writeField mem f (e.1, e.2.2, fun n => h n (f e.2.1 n))) f "enthalpy_bc" n =
        h n (f "temperature_bc" n)) := by
  induction l using List.reverseRecOn with
  | nil => simp
  | append_singleton l b ih =>
    rw [List.flatMap_append, List.foldl_append, List.any_append]
    generalize (l.any fun b => imposesH b.2 && mem b.1 n) = a at ih ⊢
    generalize (l.flatMap convOf).foldl (fun f e => writeField mem f (e.1, e.2.2, fun n => h n (f e.2.1 n))) f = g at ih ⊢
    obtain ⟨i1, i2⟩ := ih
    obtain ⟨p, bc⟩ := b
    cases bc with
    | wall d =>
      cases hs : d.temperature.specified <;> cases a <;> by_cases hn : mem p n = true <;>
        simp [convOf, writeField, imposesH, hs, hn, i1] <;> simpa using i2
    | inflow d =>
      cases a <;> by_cases hn : mem p n = true <;> simp [convOf, writeField, imposesH, hn, i1] <;> simpa using i2
    | opn d => cases a <;> simp [convOf, writeField, imposesH, i1] <;> simpa using i2
    | symmetry g => cases a <;> simp [convOf, imposesH, i1] <;> simpa using i2
    | nonConformal => cases a <;> simp [convOf, imposesH, i1] <;> simpa using i2

/-- **C274** Enthalpy: at a node of several inflows and walls with a temperature, the enthalpy after the solve is the one of the temperature given
by the last of them in the input. -/
theorem c274_enthalpy_last_wins (l : List (P × BC U S)) (r : Reg P N S) (hr : registerAll (enthalpy o lib) l {} = some r)
    (mem : P → N → Bool) (h : N → S → S) (f : String → N → S) (u δ : N → S) (contribs : List (N → Row N S))
    (hs : Solves (assemble mem (enthalpyFromT mem h r (populate mem r f)) u r.dirich contribs) δ) (n : N) (b : P × BC U S)
    (hb : (l.filter fun c => imposesH c.2 && tFromInput c.2 && mem c.1 n).getLast? = some b) :
    ∃ T, TemperatureOf lib b.2 n T ∧ u n + δ n = h n T := by
  have hmem := List.mem_of_getLast? hb
  rw [List.mem_filter] at hmem
  have hsel := hmem.2
  simp only [Bool.and_eq_true] at hsel
  have hrow := scalar_row (imp := imposesH) (fun r b r' e => ⟨(enthalpy_step o lib r r' b e).1, (enthalpy_step o lib r r' b e).2.1⟩) l r hr mem
    (enthalpyFromT mem h r (populate mem r f)) u (contribs.foldl addRow fun _ => ⟨fun _ => 0, 0⟩) n
  have hor : onWall imposesH mem l n = true ∨ onInflow imposesH mem l n = true := by
    obtain ⟨p, bc⟩ := b
    cases bc with
    | wall d => left; rw [onWall, List.any_eq_true]; exact ⟨_, hmem.1, by simp [hsel.1.1, hsel.2]⟩
    | inflow d => right; rw [onInflow, List.any_eq_true]; exact ⟨_, hmem.1, by simp [hsel.1.1, hsel.2]⟩
    | _ => simp [imposesH] at hsel
  have hfT := registerAll_list (enthalpy o lib) (fun r : Reg P N S => r.fromT) convOf (fun r b r' e => (enthalpy_step o lib r r' b e).2.2.1)
    l {} r hr
  simp only [List.nil_append] at hfT
  have hconv : enthalpyFromT mem h r (populate mem r f) "enthalpy_bc" n = h n (populate mem r f "temperature_bc" n) := by
    unfold enthalpyFromT
    rw [hfT]
    exact (fromT_at mem h l _ n).2 (List.any_eq_true.2 ⟨b, hmem.1, by simp [hsel.1.1, hsel.2]⟩)
  have hrow' : dirichletAll mem (enthalpyFromT mem h r (populate mem r f)) u r.dirich (contribs.foldl addRow fun _ => ⟨fun _ => 0, 0⟩) n =
      ⟨fun k => if k = n then 1 else 0, h n (populate mem r f "temperature_bc" n) - u n⟩ := by
    rw [hrow, hconv]; rcases hor with e | e <;> simp [e]
  rw [solves_identity hs hrow']
  refine ⟨_, (populate_last (enthalpy o lib) "temperature_bc" mem n (fun c => imposesH c.2 && tFromInput c.2 && mem c.1 n)
    (fun b x => TemperatureOf lib b.2 n x) (fun r b r' e => by
      obtain ⟨e, he, hv⟩ := (enthalpy_step o lib r r' b e).2.2.2.2
      exact ⟨e, he, fun f => hv mem f n⟩) f {} l r hr).1 b hb, by simp⟩

omit [Module ℝ S] [DecidableEq N] [Fintype N] in
/-- **C274** Boundary terms of the enthalpy equation: one term for each open and non-conformal part, for each wall with a heat flux and no
temperature, for each symmetry plane with a normal temperature gradient, and none elsewhere (a wall with neither is adiabatic); an open boundary
without a temperature is refused. -/
theorem c274_enthalpy_terms (hc : o.consolidated = false) (l : List (P × BC U S)) (r : Reg P N S)
    (hr : registerAll (enthalpy o lib) l {} = some r) :
    (∀ t, r.solver.parts t = l.flatMap (fun b => match t, b.2 with
      | .opn, .opn _ => [b.1]
      | .wall, .wall d => if d.temperature.value = none ∧ d.temperature.fn = none ∧ d.heatFlux ≠ none then [b.1] else []
      | .symmetry, .symmetry g => if g ≠ none then [b.1] else []
      | .nonConformal, .nonConformal => [b.1]
      | _, _ => [])) ∧
    ∀ p d, (p, BC.opn d) ∈ l → d.tempSpec = true := by
  refine ⟨fun t => ?_, fun p d hd => ?_⟩
  · have hl := registerAll_list (enthalpy o lib) (fun r : Reg P N S => r.solver.parts t) (enthSol t)
      (fun r b r' e => (enthalpy_step o lib r r' b e).2.2.2.1 hc t) l {} r hr
    rw [hl]
    simp only [AlgMap.parts, Option.map_none, Option.getD_none, List.nil_append]
    congr 1
    funext b
    obtain ⟨p, bc⟩ := b
    cases bc with
    | wall d =>
      cases t <;> simp only [enthSol]
      obtain ⟨_, _, _, ⟨v, g⟩, q, _, _, _, _, _⟩ := d
      cases v <;> cases g <;> cases q <;> simp [Spec.specified]
    | symmetry g => cases t <;> cases g <;> simp [enthSol]
    | _ => cases t <;> rfl
  · obtain ⟨r1, r2, e⟩ := registerAll_each _ l {} r hr _ hd
    simp only [enthalpy] at e
    split at e
    · assumption
    · exact absurd e (by simp)

end ScalarImposed

/-! ### Target names -/

section Targets
variable {S : Type}

/-- **C275** An accepted input: every symmetry target names a part of the mesh all of whose sub-parts are faces. -/
theorem c275_symmetry_checked (mesh : String → Option (List (P × Bool))) : ∀ (l : List (String × BC V S)) (bs : List (P × BC V S)),
    setupBc mesh l = some bs → ∀ name g, (name, BC.symmetry g) ∈ l → ∃ ps, mesh name = some ps ∧ ∀ q ∈ ps, q.2 = true
  | [], bs, h => by simp
  | (m, bc) :: l, bs, h => by
    simp only [setupBc, Option.bind_eq_bind, Option.bind_eq_some_iff, Option.pure_def, Option.some.injEq] at h
    obtain ⟨ps, h1, rest, h2, rfl⟩ := h
    intro name g hg
    rcases List.mem_cons.1 hg with e | e
    · obtain ⟨rfl, rfl⟩ := Prod.mk.inj e
      simp only [resolve, BC.strict] at h1
      cases hm : mesh name with
      | none => simp [hm] at h1
      | some qs =>
        refine ⟨qs, rfl, fun q hq => ?_⟩
        rw [hm] at h1
        simp only [Bool.true_and] at h1
        split at h1
        · exact absurd h1 (by simp)
        · rename_i hn
          have hn' : qs.any (fun q => !q.2) = false := by simpa using hn
          have := List.any_eq_false.1 hn' q hq
          simpa using this
    · exact c275_symmetry_checked mesh l rest h2 name g e

/-- **C275** The boundaries handed to the equation systems: for every block, in the order of the input, the face sub-parts of its target, in the
order of the mesh, with the data of the block.  Partial: the blocks must name parts of the mesh with face sub-parts only; the code does not
enforce that for walls, inflows and open boundaries (`c275_bad_target_wrong`). -/
theorem c275_targets_partial (mesh : String → Option (List (P × Bool))) (l : List (String × BC V S))
    (hm : ∀ b ∈ l, ∃ ps, mesh b.1 = some ps ∧ ∀ q ∈ ps, q.2 = true) :
    setupBc mesh l = some (l.flatMap fun b => ((mesh b.1).getD []).map fun q => (q.1, b.2)) := by
  induction l with
  | nil => rfl
  | cons b l ih =>
    obtain ⟨ps, h1, h2⟩ := hm b (by simp)
    obtain ⟨name, bc⟩ := b
    have hf : ps.any (fun q => !q.2) = false := List.any_eq_false.2 fun q hq => by simp [h2 q hq]
    have hfil : ps.filter Prod.snd = ps := List.filter_eq_self.2 h2
    simp only at h1
    simp [setupBc, resolve, h1, hf, hfil, ih fun b hb => hm b (by simp [hb])]

/-- **C275** Finding: a wall, inflow or open block whose target is not in the mesh is accepted, and the run is the one without the block. -/
theorem c275_bad_target_wrong (mesh : String → Option (List (P × Bool))) (l1 l2 : List (String × BC V S)) (name : String) (bc : BC V S)
    (hb : (∃ d, bc = .wall d) ∨ (∃ d, bc = .inflow d) ∨ ∃ d, bc = .opn d) (hn : mesh name = none) :
    setupBc mesh (l1 ++ (name, bc) :: l2) = setupBc mesh (l1 ++ l2) := by
  have hs : bc.strict = false := by rcases hb with ⟨d, rfl⟩ | ⟨d, rfl⟩ | ⟨d, rfl⟩ <;> rfl
  induction l1 with
  | nil => simp [setupBc, resolve, hs, hn]
  | cons b l1 ih =>
    obtain ⟨m, c⟩ := b
    simp only [List.cons_append, setupBc]
    rw [ih]

end Targets

/-! ### Order of assembly -/

section Order
variable [AddCommGroup V] [DecidableEq N]

omit [DecidableEq N] in
theorem addRow_comm (m a b : N → Row N V) : addRow (addRow m a) b = addRow (addRow m b) a := by
  funext n
  simp only [addRow, Row.mk.injEq]
  exact ⟨by funext k; ring, add_right_comm _ _ _⟩

/-- **C276** The assembled system does not depend on the order in which the contributions were added. -/
theorem c276_order_of_terms (mem : P → N → Bool) (f : String → N → V) (dof : N → V) (d : AlgMap String P) (cs cs' : List (N → Row N V))
    (h : cs.Perm cs') : assemble mem f dof d cs = assemble mem f dof d cs' := by
  unfold assemble
  congr 1
  exact h.foldl_eq' (fun a _ b _ m => addRow_comm m a b) _

/-- Whether a node is on a part of the Dirichlet map. -/
def Fixed (mem : P → N → Bool) (d : AlgMap String P) (n : N) : Prop := ∃ t a ps, d t = some (a, ps) ∧ ∃ p ∈ ps, mem p n = true

theorem dirichletType_fixed (mem : P → N → Bool) (f : String → N → V) (dof : N → V) (d : AlgMap String P) (t : AlgType) (n : N)
    (m m' : N → Row N V) :
    ((∃ a ps, d t = some (a, ps) ∧ ∃ p ∈ ps, mem p n = true) → dirichletType mem f dof d m t n = dirichletType mem f dof d m' t n) ∧
    (m n = m' n → dirichletType mem f dof d m t n = dirichletType mem f dof d m' t n) := by
  unfold dirichletType
  cases h : d t with
  | none => simp
  | some x =>
    obtain ⟨a, ps⟩ := x
    simp only [dirichletPart_fold]
    constructor
    · rintro ⟨a', ps', e, p, hp, hm⟩
      simp only [Option.some.injEq, Prod.mk.injEq] at e
      obtain ⟨rfl, rfl⟩ := e
      have : ps.any (fun p => mem p n) = true := List.any_eq_true.2 ⟨p, hp, hm⟩
      simp [this]
    · intro e; rw [e]

theorem AlgType.mem_all (t : AlgType) : t ∈ AlgType.all := by cases t <;> simp [AlgType.all]

theorem dirichlet_fold_fixed (mem : P → N → Bool) (f : String → N → V) (dof : N → V) (d : AlgMap String P) (n : N) (ts : List AlgType) :
    ∀ m m' : N → Row N V, ((∃ t ∈ ts, ∃ a ps, d t = some (a, ps) ∧ ∃ p ∈ ps, mem p n = true) ∨ m n = m' n) →
      ts.foldl (dirichletType mem f dof d) m n = ts.foldl (dirichletType mem f dof d) m' n := by
  induction ts with
  | nil => intro m m' h; simpa using h
  | cons t ts ih =>
    intro m m' h
    simp only [List.foldl_cons]
    apply ih
    rcases h with ⟨s, hs, h⟩ | h
    · rcases List.mem_cons.1 hs with rfl | hs
      · exact Or.inr ((dirichletType_fixed mem f dof d s n m m').1 h)
      · exact Or.inl ⟨s, hs, h⟩
    · exact Or.inr ((dirichletType_fixed mem f dof d t n m m').2 h)

/-- **C276** Nothing assembled leaks into an imposed row: at a node of an imposed part the row of the final system is the same for all sets of
contributions, for every equation system (any Dirichlet map). -/
theorem c276_imposed_rows_clean (mem : P → N → Bool) (f : String → N → V) (dof : N → V) (d : AlgMap String P) (cs cs' : List (N → Row N V))
    (n : N) (hn : Fixed mem d n) : assemble mem f dof d cs n = assemble mem f dof d cs' n := by
  obtain ⟨t, h⟩ := hn
  exact dirichlet_fold_fixed mem f dof d n _ _ _ (Or.inl ⟨t, t.mem_all, h⟩)

/-- **C276** Rows of nodes on no imposed part are the assembled ones. -/
theorem c276_other_rows (mem : P → N → Bool) (f : String → N → V) (dof : N → V) (d : AlgMap String P) (cs : List (N → Row N V)) (n : N)
    (hn : ¬ Fixed mem d n) :
    assemble mem f dof d cs n = ⟨fun k => (cs.map fun c => (c n).coeff k).sum, (cs.map fun c => (c n).rhs).sum⟩ := by
  have e : ∀ (ts : List AlgType) (m : N → Row N V), ts.foldl (dirichletType mem f dof d) m n = m n := by
    intro ts
    induction ts with
    | nil => intro m; rfl
    | cons t ts ih =>
      intro m
      rw [List.foldl_cons, ih]
      unfold dirichletType
      cases h : d t with
      | none => rfl
      | some x =>
        obtain ⟨a, ps⟩ := x
        simp only [dirichletPart_fold]
        have : ps.any (fun p => mem p n) = false := by
          rw [List.any_eq_false]
          intro p hp hm
          exact hn ⟨t, a, ps, h, p, hp, hm⟩
        simp [this]
  have : ∀ (cs : List (N → Row N V)) (m : N → Row N V), cs.foldl addRow m n =
      ⟨fun k => (m n).coeff k + (cs.map fun c => (c n).coeff k).sum, (m n).rhs + (cs.map fun c => (c n).rhs).sum⟩ := by
    intro cs
    induction cs with
    | nil => intro m; simp
    | cons c cs ih => intro m; simp [ih, addRow, add_assoc]
  rw [assemble, dirichletAll, e, this]
  simp

end Order

/-! ### Non-vacuity: a channel with an inflow and a moving wall meeting at a node -/

namespace Example

/-- Inflow with velocity 1. -/
def inflowD : InflowData ℝ ℝ := ⟨⟨some 1, none⟩, ⟨some 2, none⟩, ⟨some 3, none⟩, ⟨some 4, none⟩, ⟨some 5, none⟩, ⟨some 300, none⟩, false⟩

/-- Wall moving with velocity 7, with a mixture fraction, a wall temperature. -/
def wallD : WallData ℝ ℝ := ⟨⟨some 7, none⟩, ⟨some 0, none⟩, ⟨some 6, none⟩, ⟨some 400, none⟩, none, false, false, false, false, false⟩

/-- Wall with a wall function. -/
def wallF : WallData ℝ ℝ := ⟨⟨some 0, none⟩, ⟨none, none⟩, ⟨none, some "profile"⟩, ⟨none, none⟩, some 9, true, false, false, false, false⟩

/-- Edge-based, nothing consolidated. -/
def opts : Opts := ⟨true, false, false, false, false⟩

/-- Part 0 holds nodes 0 and 1, part 1 nodes 1 and 2. -/
def mem : ℕ → Fin 3 → Bool := fun p n => decide (p = n.val ∨ p + 1 = n.val)

/-- The two orders of the input. -/
def inputA : List (ℕ × BC ℝ ℝ) := [(0, .inflow inflowD), (1, .wall wallD)]

/-- See `inputA`. -/
def inputB : List (ℕ × BC ℝ ℝ) := [(1, .wall wallD), (0, .inflow inflowD)]

/-- The corner node gets the wall's velocity in one order, the inflow's in the other. -/
example : (inputA.filter fun c => imposesVelocity c.2 && fromInput c.2 && mem c.1 (1 : Fin 3)).getLast? = some (1, .wall wallD) ∧
    (inputB.filter fun c => imposesVelocity c.2 && fromInput c.2 && mem c.1 (1 : Fin 3)).getLast? = some (0, .inflow inflowD) := by
  constructor <;> simp [inputA, inputB, imposesVelocity, fromInput, mem, inflowD, wallD]

example : ∃ r : Reg ℕ (Fin 3) ℝ, registerAll (momentum opts (fun _ => none) (fun _ => none)) inputA {} = some r := by
  simp [registerAll, inputA, momentum, momentumInflow, momentumWall, Spec.eval, Spec.specified, inflowD, wallD, WallData.anyWf]

example : ∃ r : Reg ℕ (Fin 3) ℝ, registerAll (tke opts (fun _ => none)) [(0, .inflow inflowD), (1, .wall wallF)] {} = some r ∧
    modelsTke (BC.wall wallF) = true := by
  simp [registerAll, tke, tkeWall, Spec.eval, Spec.specified, inflowD, wallF, modelsTke]

example : ∃ r : Reg ℕ (Fin 3) ℝ, registerAll (eps opts) [(0, .inflow inflowD), (1, .wall wallF)] {} = some r := by
  simp [registerAll, eps, epsWall, wallF]

example : ∃ r : Reg ℕ (Fin 3) ℝ, registerAll (enthalpy opts (fun _ => none)) inputA {} = some r ∧
    (inputA.filter fun c => imposesH c.2 && tFromInput c.2 && mem c.1 (1 : Fin 3)).getLast? = some (1, .wall wallD) := by
  refine ⟨_, rfl, ?_⟩
  simp [inputA, imposesH, tFromInput, mem, inflowD, wallD, Spec.specified]

/-- A wall function for the mixture fraction: zero imposed. -/
example : ([((1 : ℕ), BC.wall wallF)].filter fun c => imposesZ c.2 && zFromInput c.2 && mem c.1 (1 : Fin 3)).getLast? = some (1, .wall wallF) ∧
    wallF.mixFrac.fn = some "profile" ∧ wallF.mixFrac.value = none := by
  simp [imposesZ, zFromInput, mem, wallF, Spec.specified]

/-- Targets: "top" misspelt. -/
example : (setupBc (fun s => if s = "inlet" then some [((0 : ℕ), true)] else none)
    [("inlet", BC.inflow inflowD), ("tpo", .wall wallD)]).map List.length = some 1 := by
  simp [setupBc, resolve, BC.strict]

example : setupBc (V := ℝ) (S := ℝ) (fun s => if s = "inlet" then some [((0 : ℕ), true)] else none) [("tpo", BC.symmetry none)] = none := by
  simp [setupBc, resolve, BC.strict]

end Example
end Nalu.Registration
