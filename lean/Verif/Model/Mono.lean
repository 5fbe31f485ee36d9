import Mathlib.Algebra.Field.Defs
import Mathlib.Logic.Function.Basic
import Mathlib.Data.List.Range

/-!
# Model of the monolithic low-Mach equation system

Models `/repo/src/LowMachMonolithicEquationSystem.C`: the two copies between the monolithic
unknown `uvwp` and the fields `velocity` and `pressure` on the flat arrays of one bucket, and the
order in which states are swapped, predicted, overwritten and updated in a step
(`/repo/src/TimeIntegrator.C:146-287`).
-/

namespace Nalu.Mono

variable {K : Type*}

/-! ### The copies on the arrays of one bucket -/

/-- The three arrays of a bucket: `velocity` with `nDim` entries per node, `pressure` with one and
`uvwp` with `nDim + 1` (LowMachMonolithicEquationSystem.C:197-216). Out-of-range positions stand for
the memory behind the bucket. -/
structure Bucket (K : Type*) where
  velocity : ℕ → K
  pressure : ℕ → K
  uvwp : ℕ → K

/-- Body of the node loop of `copy_uvwp_to_uvw_p` (LowMachMonolithicEquationSystem.C:608-615). -/
def downNode (nDim : ℕ) (b : Bucket K) (k : ℕ) : Bucket K :=
  let b1 := (List.range nDim).foldl
    (fun b j => { b with velocity := Function.update b.velocity (k * nDim + j) (b.uvwp (k * (nDim + 1) + j)) }) b
  { b1 with pressure := Function.update b1.pressure k (b1.uvwp (k * (nDim + 1) + nDim)) }

/-- `copy_uvwp_to_uvw_p` on one bucket of `len` nodes (LowMachMonolithicEquationSystem.C:588-617). -/
def copyDown (nDim len : ℕ) (b : Bucket K) : Bucket K := (List.range len).foldl (downNode nDim) b

/-- Body of the node loop of `copy_uvw_p_to_uvwp` (LowMachMonolithicEquationSystem.C:640-647). -/
def upNode (nDim : ℕ) (b : Bucket K) (k : ℕ) : Bucket K :=
  let b1 := (List.range nDim).foldl
    (fun b j => { b with uvwp := Function.update b.uvwp (k * (nDim + 1) + j) (b.velocity (k * nDim + j)) }) b
  { b1 with uvwp := Function.update b1.uvwp (k * (nDim + 1) + nDim) (b1.pressure k) }

/-- `copy_uvw_p_to_uvwp` on one bucket (LowMachMonolithicEquationSystem.C:622-649). -/
def copyUp (nDim len : ℕ) (b : Bucket K) : Bucket K := (List.range len).foldl (upNode nDim) b

/-! ### The states over a run -/

/-- Values at one node: the new and the two old levels of `uvwp` and `velocity` and the stateless
`pressure`. `V` are velocity vectors, `K` pressures; a value of `uvwp` is a pair (the copies above
justify this, theorem `c301_*`). -/
structure Node (V K : Type*) where
  uvwp : V × K
  uvwpN : V × K
  uvwpNm1 : V × K
  vel : V
  velN : V
  velNm1 : V
  p : K

/-- `copy_uvwp_to_uvw_p` at one node. -/
def down {V : Type*} (n : Node V K) : Node V K := { n with vel := n.uvwp.1, p := n.uvwp.2 }

/-- `copy_uvw_p_to_uvwp` at one node. -/
def up {V : Type*} (n : Node V K) : Node V K := { n with uvwp := (n.vel, n.p) }

/-- `update_field_data_states` (Realm.C:3852-3855): every state field is rotated; the oldest level
becomes the storage of the new one. With two states (`three = false`) only `NP1` and `N` are
exchanged. -/
def swap {V : Type*} (three : Bool) (n : Node V K) : Node V K :=
  if three then { n with uvwp := n.uvwpNm1, uvwpN := n.uvwp, uvwpNm1 := n.uvwpN,
                         vel := n.velNm1, velN := n.vel, velNm1 := n.velN }
  else { n with uvwp := n.uvwpN, uvwpN := n.uvwp, vel := n.velN, velN := n.vel }

/-- `predict_state` (LowMachMonolithicEquationSystem.C:559-566). -/
def predict {V : Type*} (n : Node V K) : Node V K := down { n with uvwp := n.uvwpN }

/-- One pass of the loop in `solve_and_update` (LowMachMonolithicEquationSystem.C:519-541): the
solver delivers an increment, which may depend on everything stored; then `field_axpby` and the
copy. -/
def iterate {V : Type*} [Add V] [Add K] (solve : Node V K → V × K) (n : Node V K) : Node V K :=
  down { n with uvwp := ((solve n).1 + n.uvwp.1, (solve n).2 + n.uvwp.2) }

/-- What happens at a node between the swaps of two steps: other code (transfers, boundary data,
LowMachMonolithicEquationSystem.C:484-489) may overwrite `velocity` and `pressure`. -/
def overwrite {V : Type*} (vp : Option (V × K)) (n : Node V K) : Node V K :=
  match vp with
  | none => n
  | some x => { n with vel := x.1, p := x.2 }

/-- The input of one time step: data written into `velocity` and `pressure` before
`pre_timestep_work` (external fields, TimeIntegrator.C:244-247) and the increments of its solver
iterations. -/
structure StepIn (V K : Type*) where
  ext : Option (V × K)
  solves : List (Node V K → V × K)

/-- The state from which the first linear system of a step is assembled: swap, prediction, external
data, `pre_timestep_work` (TimeIntegrator.C:238-252, LowMachMonolithicEquationSystem.C:475-490). -/
def startStep {V : Type*} (three : Bool) (ext : Option (V × K)) (n : Node V K) : Node V K :=
  down (overwrite ext (predict (swap three n)))

/-- One time step. -/
def step {V : Type*} [Add V] [Add K] (three : Bool) (n : Node V K) (s : StepIn V K) : Node V K :=
  s.solves.foldl (fun n f => iterate f n) (startStep three s.ext n)

/-- Initial condition, restart and `initial_work` (TimeIntegrator.C:152-222,
LowMachMonolithicEquationSystem.C:149-171): initial-condition functions fill `velocity` and
`pressure`; a restart then reads the restart variables `uvwp` (all levels) but neither `velocity` nor
`pressure`, which are not restart variables (line 201); without a restart `uvwp` is filled from
`velocity` and `pressure`, after the old velocity level was filled when there are three states (lines
237-256, EquationSystem.C:253-258). -/
def startUp {V : Type*} (three : Bool) (restart : Option ((V × K) × (V × K))) (n : Node V K) : Node V K :=
  match restart with
  | some r => { n with uvwp := r.1, uvwpN := r.2 }
  | none => up (if three then { n with velN := n.vel } else n)

end Nalu.Mono
