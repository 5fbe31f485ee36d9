import Mathlib.Data.Real.Basic
import Mathlib.Algebra.BigOperators.Fin
import Verif.Model.Thermo

/-!
# Material properties: from the input block to the nodal fields

Models `Realm::setup_property`, `Realm::augment_property_map`, `Realm::evaluate_properties` (Realm.C), `MaterialProperty::load` (choice of the
specification) and `extract_universal_constant` (MaterialProperty.C), `GenericPropAlgorithm.C`, `TemperaturePropAlgorithm.C`,
`LinearPropAlgorithm.C`, `InversePropAlgorithm.C`, `InverseDualVolumePropAlgorithm.C`, `ThermalConductivityFromPrandtlPropAlgorithm.C`,
`ConstantPropertyEvaluator.C`, `ConstantAuxFunction.C`, `AuxFunctionAlgorithm.C` (constant function on a nodal scalar),
`EffectiveDiffFluxCoeffAlgorithm.C`, `EnthalpyEffectiveDiffFluxCoeffAlgorithm.C` and `CopyFieldAlgorithm.C`.

`double` is `ℝ`.  A nodal scalar field is a function on nodes; the fields the algorithms read (temperature, mixture fraction, volume of fluid, mass
fractions, pressure, dual volume) are data, apart from the property fields they write.  `std::map` keyed by the property enumerator is iterated in
the order of the enumerators; a map from species names is flattened to a list in iteration order.  The values of the Sutherland, polynomial,
per-species and water evaluators and of the tables are functions given from outside (`Lib`); they are the subject of `Verif.Model.Thermo` and
`Verif.Model.HdfTable`.  Not modelled: the YAML reader, output, the missing-field null pointers.
-/

namespace Nalu.MatProps

/-- `PropertyIdentifier` (include/Enums.h). -/
inductive PropId
  | density | viscosity | specHeat | thermalCond | absorption | enthalpy | lameMu | lameLambda | scattering | surfaceTension | gamma
  deriving DecidableEq, Repr

/-- The enumerators in order. -/
def PropId.all : List PropId :=
  [.density, .viscosity, .specHeat, .thermalCond, .absorption, .enthalpy, .lameMu, .lameLambda, .scattering, .surfaceTension, .gamma]

/-- `PropertyIdentifierNames` (include/Enums.h). -/
def PropId.names : List String :=
  ["density", "viscosity", "specific_heat", "thermal_conductivity", "absorption_coefficient", "enthalpy", "lame_mu", "lame_lambda",
   "scattering_coefficient", "surface_tension", "gamma"]

/-- The four water evaluators and the enthalpy that goes with the specific heat (Realm.C:1524-1543). -/
inductive Water | viscosity | density | specHeat | thermalCond | enthalpy
  deriving DecidableEq

/-- `MaterialPropertyData`: the type and the data of that type.  `constant value species`: `constValue_` is 0.0 unless a value was given,
`species` says whether `cpConstMap_` is not empty. -/
inductive Kind
  | constant (value : ℝ) (species : Bool)
  | mixFrac (primary secondary : ℝ)
  | vof (one two : ℝ)
  | polynomial
  | idealGas
  | geometric
  | table (prop : ℕ) (aux : Option ℕ)
  | generic (w : Option Water)
  | unset

/-- A material block: `targetNames_`, `universalConstantMap_` (the three names that are asked for), molecular weight and reference mass fraction of
the species, `propertyDataMap_`, `propertyTableName_`. -/
structure Block where
  targets : List ℕ
  pRef : Option ℝ
  tRef : Option ℝ
  gasR : Option ℝ
  nSpec : ℕ
  mw : Fin nSpec → ℝ
  massFrac : Fin nSpec → ℝ
  data : PropId → Option Kind
  tableFile : ℕ

/-- What of the realm decides: `needsEnthalpy_`, `uniform_`, `isothermal_`, `gasDynamics_`, `accousticallyCompressible_`. -/
structure Flags where
  needsEnthalpy : Bool
  uniform : Bool
  isothermal : Bool
  gasDynamics : Bool
  acoustic : Bool

/-- `PropertyEvaluator` objects, with the constructor arguments.  `yRef`: reference mass fractions instead of the nodal ones; `none` for a pressure
or temperature: read at the node. -/
inductive Eval
  | const (v : ℝ)
  | cpk
  | hConst (cp tRef : ℝ)
  | hCpk (tRef : ℝ)
  | sutherland (yRef : Bool) (tRef : Option ℝ)
  | cpPoly (yRef : Bool) (gasR : ℝ)
  | hPoly (yRef : Bool) (gasR : ℝ)
  | ideal (pRef tRef : Option ℝ) (yRef : Bool) (gasR : ℝ)
  | water (w : Water)

/-- How an algorithm computes the nodal value. -/
inductive Rule
  | const (v : ℝ)
  | linear (vof : Bool) (a b : ℝ)
  | inverse (a b : ℝ)
  | eval (i : ℕ) (e : Eval)
  | geometric
  | table (file prop : ℕ)

/-- An entry of `propertyAlg_`: the part, the field it writes, the rule. -/
structure Alg (F : Type*) where
  part : ℕ
  field : F
  rule : Rule

/-- State of `setup_property`: the three constants (declared before the loops), the open table file, `propertyAlg_`, `propertyEvalMap_` of every
block. -/
structure St (F : Type*) where
  pRef : ℝ
  tRef : ℝ
  gasR : ℝ
  hdf : Option ℕ
  algs : List (Alg F)
  evals : ℕ → PropId → Option Eval

variable {F : Type*}

/-- The defaults (Realm.C:1027-1029). -/
noncomputable def St.start : St F := ⟨101325, 298.15, 8314.4621, none, [], fun _ _ => none⟩

/-- `extract_universal_constant(name, value, true)` (MaterialProperty.C): the block's value if it has one, otherwise what the variable holds. -/
def extract (o : Option ℝ) (v : ℝ) : ℝ := o.getD v

def St.exP (s : St F) (b : Block) : St F := { s with pRef := extract b.pRef s.pRef }
def St.exT (s : St F) (b : Block) : St F := { s with tRef := extract b.tRef s.tRef }
def St.exR (s : St F) (b : Block) : St F := { s with gasR := extract b.gasR s.gasR }
/-- `propertyAlg_.push_back`. -/
def St.push (s : St F) (a : Alg F) : St F := { s with algs := s.algs ++ [a] }
/-- `matPropBlock->propertyEvalMap_[id] = e`. -/
def St.setEval (s : St F) (i : ℕ) (id : PropId) (e : Eval) : St F :=
  { s with evals := fun i' id' => if i' = i ∧ id' = id then some e else s.evals i' id' }

/-- `mixtureMW` (Realm.C:1144-1148). -/
noncomputable def mixtureMW (b : Block) : ℝ := 1 / ∑ k, b.massFrac k / b.mw k

/-- What can stop the set-up. -/
inductive Err | missing | uniformCpk | gammaNoGasDynamics | gammaSpecies | gammaNotAcoustic | polynomialProp | idealNotDensity | idealNotSupported | unknownGeneric
  deriving DecidableEq

/-- One turn of the innermost loop (Realm.C:1044-1560) for block number `i`; `cpF`, `cvF` are the fields `specific_heat` and `specific_heat_v`. -/
noncomputable def step (fl : Flags) (cpF cvF : F) (s : St F) (i : ℕ) (b : Block) (part : ℕ) (id : PropId) (field : F) : Except Err (St F) :=
  match b.data id with
  | none => .error .missing
  | some (.constant v species) =>
    if id = .specHeat ∧ fl.needsEnthalpy = true then
      let s := s.exT b
      if species then
        if fl.uniform then .error .uniformCpk
        else .ok (((s.push ⟨part, field, .eval i .cpk⟩).setEval i .specHeat .cpk).setEval i .enthalpy (.hCpk s.tRef))
      else .ok (((s.push ⟨part, field, .const v⟩).setEval i .specHeat (.const v)).setEval i .enthalpy (.hConst v s.tRef))
    else if id = .gamma then
      if !fl.gasDynamics then .error .gammaNoGasDynamics
      else if species then .error .gammaSpecies
      else if !fl.acoustic then .error .gammaNotAcoustic
      else
        let s := (s.exT b).exR b
        let cp := v * s.gasR / mixtureMW b / (v - 1)
        let cv := s.gasR / mixtureMW b / (v - 1)
        .ok ((((s.push ⟨part, field, .const v⟩).push ⟨part, cpF, .const cp⟩).push ⟨part, cvF, .const cv⟩).setEval i .enthalpy (.hConst cp s.tRef))
    else .ok (s.push ⟨part, field, .const v⟩)
  | some (.mixFrac a c) =>
    if id = .density then .ok (s.push ⟨part, field, .inverse a c⟩) else .ok (s.push ⟨part, field, .linear false a c⟩)
  | some (.vof a c) => .ok (s.push ⟨part, field, .linear true a c⟩)
  | some .polynomial =>
    match id with
    | .viscosity =>
      if fl.isothermal then
        let s := s.exT b
        let e := if fl.uniform then Eval.sutherland true (some s.tRef) else Eval.sutherland false (some s.tRef)
        .ok ((s.push ⟨part, field, .eval i e⟩).setEval i id e)
      else
        let e := if fl.uniform then Eval.sutherland true none else Eval.sutherland false none
        .ok ((s.push ⟨part, field, .eval i e⟩).setEval i id e)
    | .enthalpy => .ok s
    | .specHeat =>
      let s := s.exR b
      let ec := if fl.uniform then Eval.cpPoly true s.gasR else Eval.cpPoly false s.gasR
      let eh := if fl.uniform then Eval.hPoly true s.gasR else Eval.hPoly false s.gasR
      .ok (((s.push ⟨part, field, .eval i ec⟩).setEval i .specHeat ec).setEval i .enthalpy eh)
    | _ => .error .polynomialProp
  | some .idealGas =>
    if id = .density then
      let s := s.exR b
      if fl.uniform then
        if fl.isothermal then
          let s := (s.exP b).exT b
          let e := Eval.ideal (some s.pRef) (some s.tRef) true s.gasR
          .ok (if fl.gasDynamics then s.setEval i id e else (s.setEval i id e).push ⟨part, field, .eval i e⟩)
        else if fl.acoustic then
          let e := Eval.ideal none none true s.gasR
          .ok (if fl.gasDynamics then s.setEval i id e else (s.setEval i id e).push ⟨part, field, .eval i e⟩)
        else
          let s := s.exP b
          let e := Eval.ideal (some s.pRef) none true s.gasR
          .ok (if fl.gasDynamics then s.setEval i id e else (s.setEval i id e).push ⟨part, field, .eval i e⟩)
      else if fl.isothermal then
        if fl.acoustic then .error .idealNotSupported
        else
          let s := (s.exP b).exT b
          let e := Eval.ideal (some s.pRef) (some s.tRef) false s.gasR
          .ok (if fl.gasDynamics then s.setEval i id e else (s.setEval i id e).push ⟨part, field, .eval i e⟩)
      else if fl.acoustic then .error .idealNotSupported
      else
        let s := s.exP b
        let e := Eval.ideal (some s.pRef) none false s.gasR
        .ok (if fl.gasDynamics then s.setEval i id e else (s.setEval i id e).push ⟨part, field, .eval i e⟩)
    else .error .idealNotDensity
  | some .geometric => .ok (s.push ⟨part, field, .geometric⟩)
  | some (.table prop _aux) =>
    -- the auxiliary variable, a field of its own, is left out
    let file := s.hdf.getD b.tableFile
    .ok ({ s with hdf := some file }.push ⟨part, field, .table file prop⟩)
  | some (.generic w) =>
    match w with
    | none => .error .unknownGeneric
    | some w =>
      let s := if w = .specHeat then s.setEval i .enthalpy (.water .enthalpy) else s
      .ok ((s.push ⟨part, field, .eval i (.water w)⟩).setEval i id (.water w))
  | some .unset => .ok s

/-- One turn of the loops over blocks, targets and `propertyMap_`. -/
structure Visit (F : Type*) where
  i : ℕ
  b : Block
  part : ℕ
  id : PropId
  field : F

/-- `propertyMap_` as a list in iteration order; `pm` is what the calls of `augment_property_map` left. -/
def pmList (pm : PropId → Option F) : List (PropId × F) := PropId.all.filterMap fun id => (pm id).map fun f => (id, f)

/-- The order in which `setup_property` visits (Realm.C:1032-1043). -/
def visits (pm : PropId → Option F) (blocks : List Block) : List (Visit F) :=
  blocks.zipIdx.flatMap fun bi => bi.1.targets.flatMap fun t => (pmList pm).map fun p => ⟨bi.2, bi.1, t, p.1, p.2⟩

/-- `setup_property` over a list of visits. -/
noncomputable def run (fl : Flags) (cpF cvF : F) : List (Visit F) → St F → Except Err (St F)
  | [], s => .ok s
  | v :: l, s => match step fl cpF cvF s v.i v.b v.part v.id v.field with
    | .error e => .error e
    | .ok s' => run fl cpF cvF l s'

/-- `Realm::setup_property`. -/
noncomputable def setup (fl : Flags) (cpF cvF : F) (pm : PropId → Option F) (blocks : List Block) : Except Err (St F) :=
  run fl cpF cvF (visits pm blocks) St.start

/-- `augment_property_map` (Realm.C:1592-1598): a later call replaces the field. -/
def augment (pm : PropId → Option F) (id : PropId) (f : F) : PropId → Option F := fun id' => if id' = id then some f else pm id'

/-- The loop of `MaterialProperty::load` over `specifications`: `none` is the throw on an unknown name; a later specification of the same property
replaces the earlier one. -/
def loadSpecs : List (String × Kind) → (PropId → Option Kind) → Option (PropId → Option Kind)
  | [], d => some d
  | (name, k) :: l, d =>
    match (PropId.all.zip PropId.names).find? fun p => p.2 = name with
    | none => none
    | some p => loadSpecs l fun id => if id = p.1 then some k else d id

/-! ## Evaluation -/

/-- Fields the algorithms read and the evaluators described elsewhere. -/
structure Lib (N : Type*) where
  T : N → ℝ
  p : N → ℝ
  z : N → ℝ
  vof : N → ℝ
  vol : N → ℝ
  Y : N → ℕ → ℝ
  scaleFac : ℝ
  cpk : ℕ → N → ℝ
  hCpk : ℕ → ℝ → ℝ → N → ℝ
  sutherland : ℕ → Bool → ℝ → N → ℝ
  cpPoly : ℕ → Bool → ℝ → ℝ → N → ℝ
  hPoly : ℕ → Bool → ℝ → ℝ → N → ℝ
  water : Water → ℝ → ℝ
  table : ℕ → ℕ → N → ℝ

variable {N : Type*}

/-- `PropertyEvaluator::execute` for block `i` (IdealGasPropertyEvaluator.C for the ideal gas), `T` being the independent variable. -/
noncomputable def Eval.run (lib : Lib N) (b : Block) (i : ℕ) (T : ℝ) (n : N) : Eval → ℝ
  | .const v => v
  | .cpk => lib.cpk i n
  | .hConst cp tRef => Verif.Thermo.enthalpyConstCp cp tRef T
  | .hCpk tRef => lib.hCpk i tRef T n
  | .sutherland y tRef => lib.sutherland i y (tRef.getD T) n
  | .cpPoly y R => lib.cpPoly i y R T n
  | .hPoly y R => lib.hPoly i y R T n
  | .ideal p t y R => Verif.Thermo.idealGasDensity (p.getD (lib.p n)) R (t.getD T) b.mw (if y then b.massFrac else fun k => lib.Y n k)
  | .water w => lib.water w T

/-- The right-hand sides of the nodal loops: ConstantAuxFunction.C, LinearPropAlgorithm.C, InversePropAlgorithm.C, TemperaturePropAlgorithm.C (and
GenericPropAlgorithm.C, whose evaluators ignore the independent variable), InverseDualVolumePropAlgorithm.C, HDF5TablePropAlgorithm.C. -/
noncomputable def Rule.value (lib : Lib N) (block : ℕ → Block) (n : N) : Rule → ℝ
  | .const v => v
  | .linear vof a b =>
    let z := if vof then lib.vof n else lib.z n
    let om_z := 1 - z
    z * a + om_z * b
  | .inverse a b =>
    let z := lib.z n
    let om_z := 1 - z
    1 / (z / a + om_z / b)
  | .eval i e => e.run lib (block i) i (lib.T n) n
  | .geometric => lib.scaleFac / lib.vol n
  | .table file prop => lib.table file prop n

/-- `Algorithm::execute`: writes the field on the nodes of the part. -/
noncomputable def Alg.exec [DecidableEq F] (lib : Lib N) (block : ℕ → Block) (on : ℕ → N → Bool) (x : F → N → ℝ) (a : Alg F) : F → N → ℝ :=
  fun f n => if f = a.field ∧ on a.part n = true then a.rule.value lib block n else x f n

/-- The first loop of `Realm::evaluate_properties` (Realm.C:1671-1673). -/
noncomputable def evaluate [DecidableEq F] (lib : Lib N) (block : ℕ → Block) (on : ℕ → N → Bool) (algs : List (Alg F)) (x : F → N → ℝ) : F → N → ℝ :=
  algs.foldl (Alg.exec lib block on) x

/-! ## Derived coefficients -/

/-- `ThermalConductivityFromPrandtlPropAlgorithm::execute`; run by `equationSystems_.evaluate_properties()`, after the loop above. -/
noncomputable def condFromPrandtl (specHeat visc : N → ℝ) (pr : ℝ) : N → ℝ := fun n => specHeat n * visc n / pr

/-- `EffectiveDiffFluxCoeffAlgorithm::execute`. -/
noncomputable def effDiff (turbulent : Bool) (visc tvisc : N → ℝ) (sigmaLam sigmaTurb : ℝ) : N → ℝ := fun n =>
  let invSigmaLam := 1 / sigmaLam
  let invSigmaTurb := 1 / sigmaTurb
  if turbulent then visc n * invSigmaLam + tvisc n * invSigmaTurb else visc n * invSigmaLam

/-- `EnthalpyEffectiveDiffFluxCoeffAlgorithm::execute`. -/
noncomputable def effDiffEnthalpy (turbulent : Bool) (cond specHeat tvisc : N → ℝ) (sigmaTurb : ℝ) : N → ℝ := fun n =>
  if turbulent then cond n / specHeat n + tvisc n * (1 / sigmaTurb) else cond n / specHeat n

/-- `CopyFieldAlgorithm::execute` on a bucket of `length` entities: `to`, `from` are the bucket's data. -/
def copyField (length beginPos endPos : ℕ) (fromData toData : ℕ → ℝ) : ℕ → ℝ :=
  (List.range length).foldl (fun d k =>
    (List.range' beginPos (endPos - beginPos)).foldl (fun d i => fun j => if j = k * endPos + i then fromData (k * endPos + i) else d j) d) toData

end Nalu.MatProps
