import Verif.Model.MatProps

/-!
# Specification of the material properties
-/

namespace Nalu.MatProps
variable {F N : Type*}

/-- The constants a block works with. -/
structure Consts where
  pRef : ℝ
  tRef : ℝ
  gasR : ℝ

/-- What the block itself says, with the documented defaults for what it does not. -/
noncomputable def Block.own (b : Block) : Consts := ⟨b.pRef.getD 101325, b.tRef.getD 298.15, b.gasR.getD 8314.4621⟩

/-- The input that must be refused: block `b` does not say how property `id` is computed, or says something that is not supported. -/
def Bad (fl : Flags) (b : Block) (id : PropId) : Prop :=
  match b.data id with
  | none => True
  | some (.constant _ species) =>
    (id = .specHeat ∧ fl.needsEnthalpy = true ∧ species = true ∧ fl.uniform = true) ∨
    (id = .gamma ∧ (fl.gasDynamics = false ∨ species = true ∨ fl.acoustic = false))
  | some .polynomial => id ≠ .viscosity ∧ id ≠ .specHeat ∧ id ≠ .enthalpy
  | some .idealGas => id ≠ .density ∨ (fl.uniform = false ∧ fl.acoustic = true)
  | some (.generic w) => w = none
  | _ => False

/-- The value property `id` of block `b` (number `i`) has at node `n`, given the constants; `none` if the block leaves the field alone (polynomial
enthalpy, ideal-gas density under gas dynamics). -/
noncomputable def wanted (fl : Flags) (lib : Lib N) (c : Consts) (i : ℕ) (b : Block) (id : PropId) (n : N) : Option ℝ :=
  match b.data id with
  | some (.constant v species) => some (if id = .specHeat ∧ fl.needsEnthalpy = true ∧ species = true then lib.cpk i n else v)
  | some (.mixFrac a d) =>
    some (if id = .density then (lib.z n * a⁻¹ + (1 - lib.z n) * d⁻¹)⁻¹ else lib.z n * a + (1 - lib.z n) * d)
  | some (.vof a d) => some (lib.vof n * a + (1 - lib.vof n) * d)
  | some .polynomial =>
    if id = .viscosity then some (lib.sutherland i fl.uniform (if fl.isothermal then c.tRef else lib.T n) n)
    else if id = .specHeat then some (lib.cpPoly i fl.uniform c.gasR (lib.T n) n)
    else none
  | some .idealGas =>
    if fl.gasDynamics then none
    else some ((if fl.acoustic = true ∧ fl.isothermal = false then lib.p n else c.pRef) *
      (∑ k, (if fl.uniform then b.massFrac k else lib.Y n k) / b.mw k)⁻¹ / (c.gasR * (if fl.isothermal then c.tRef else lib.T n)))
  | some .geometric => some (lib.scaleFac / lib.vol n)
  | some (.table prop _) => some (lib.table b.tableFile prop n)
  | some (.generic (some w)) => some (lib.water w (lib.T n))
  | _ => none

/-- A pair of evaluators for specific heat and enthalpy that belong together. -/
inductive Paired : Eval → Eval → Prop
  | const (cp t) : Paired (.const cp) (.hConst cp t)
  | species (t) : Paired .cpk (.hCpk t)
  | poly (y R) : Paired (.cpPoly y R) (.hPoly y R)
  | water : Paired (.water .specHeat) (.water .enthalpy)

/-- Some target of the block contains the node. -/
def Covers (on : ℕ → N → Bool) (b : Block) (n : N) : Prop := ∃ t ∈ b.targets, on t n = true

end Nalu.MatProps
