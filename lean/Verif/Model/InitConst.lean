import Mathlib.Data.Real.Basic
import Mathlib.Logic.Function.Basic

/-!
# Model of constant initial conditions in the memory of the buckets

Models the branch `CONSTANT_UD` of `Realm::setup_initial_conditions` (`/repo/src/Realm.C:956-999`),
`Realm::populate_initial_condition` (`/repo/src/Realm.C:3869-3875`), `AuxFunctionAlgorithm::execute`
(`/repo/src/AuxFunctionAlgorithm.C:52-89`, without the optional communication, which this branch does not ask for),
`AuxFunction::evaluate` (`/repo/include/AuxFunction.h:53-64`) and `ConstantAuxFunction` (`/repo/src/ConstantAuxFunction.C:18-47`).
The reader of the block is in `Verif.Model.InputBlocks` and the like; user functions are not modelled here. Memory is one
address space of doubles. `double` is `ℝ`.
-/

namespace Nalu.InitConst

/-- The memory of one field in one bucket: address of the first value, entities, values per entity, and the parts the
bucket is in. -/
structure Bucket where
  start : ℕ
  len : ℕ
  comps : ℕ
  parts : ℕ → Bool

/-- A constant block as read: targets, and for each field its values. -/
structure IC where
  targets : List String
  values : List (String × List ℝ)

/-- An algorithm of the list `initCondAlg_`; the part is null if the target is unknown (Realm.C:968-969 does not look). -/
structure Alg where
  part : Option ℕ
  field : ℕ
  vals : List ℝ

/-- The innermost loop (ConstantAuxFunction.C:41-43) from the component `i` on. -/
def writePoint (addr : ℕ) : ℕ → List ℝ → (ℕ → ℝ) → ℕ → ℝ
  | _, [], mem => mem
  | i, v :: l, mem => writePoint addr (i + 1) l (Function.update mem (addr + i) v)

/-- `do_evaluate` (ConstantAuxFunction.C:29-46); `fieldPtr` advances by the size of the field, not by the number of
values. -/
def evaluate (vals : List ℝ) (b : Bucket) (mem : ℕ → ℝ) : ℕ → ℝ :=
  (List.range b.len).foldl (fun m p => writePoint (b.start + p * b.comps) 0 vals m) mem

/-- `execute` (AuxFunctionAlgorithm.C:66-89): the buckets of the field in the part. A null part crashes the selector. -/
def execute (buckets : ℕ → List Bucket) (a : Alg) (mem : ℕ → ℝ) : Option (ℕ → ℝ) :=
  a.part.map fun part => (buckets a.field).foldl (fun m b => if b.parts part then evaluate a.vals b m else m) mem

section
variable (partOf fieldOf : String → Option ℕ)

/-- The loop over the fields of a block (Realm.C:977-995); `none`: the field is null, which throws. -/
def setupFields (part : Option ℕ) : List (String × List ℝ) → Option (List Alg)
  | [] => some []
  | (name, vals) :: l => (fieldOf name).bind fun f => (setupFields part l).map fun r => ⟨part, f, vals⟩ :: r

/-- The loop over the targets (Realm.C:965-969). -/
def setupTargets (values : List (String × List ℝ)) : List String → Option (List Alg)
  | [] => some []
  | t :: l => (setupFields fieldOf (partOf t) values).bind fun a => (setupTargets values l).map fun r => a ++ r

/-- The loop over the blocks (Realm.C:959-963). -/
def setup : List IC → Option (List Alg)
  | [] => some []
  | ic :: l => (setupTargets partOf fieldOf ic.values ic.targets).bind fun a => (setup l).map fun r => a ++ r

end

/-- `populate_initial_condition` (Realm.C:3872-3874). -/
def populate (buckets : ℕ → List Bucket) : List Alg → (ℕ → ℝ) → Option (ℕ → ℝ)
  | [], mem => some mem
  | a :: l, mem => (execute buckets a mem).bind fun m => populate buckets l m

end Nalu.InitConst
