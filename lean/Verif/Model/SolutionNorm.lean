import Mathlib.Data.Real.Sqrt
import Mathlib.Data.Real.Basic

/-!
# Model of the solution norms

Models `SolutionNormPostProcessing::load` (file) and `::execute`
(`/repo/src/SolutionNormPostProcessing.C:143-152, 318-436`).  The flat arrays of length
`totalDofCompSize_` (`2*totalDofCompSize_`) are functions of the index.  The exact fields are data (the
analytical functions are modelled elsewhere); real arithmetic.
-/

namespace Nalu.Norm

/-- One degree of freedom / exact pair: number of components (`sizeOfEachField_`) and the two fields. -/
structure Pair (N : Type*) where
  size : ℕ
  dof : N → ℕ → ℝ
  exact : N → ℕ → ℝ

variable {N : Type*}

/-- `totalDofCompSize_` (SolutionNormPostProcessing.C:190-193). -/
def total (ps : List (Pair N)) : ℕ := (ps.map (·.size)).sum

/-- `l_LooNorm`, `l_L12Norm`, `l_nodeCount`. -/
structure Acc where
  loo : ℕ → ℝ
  l12 : ℕ → ℝ
  count : ℕ

/-- `-1.0e16` -/
def lowest : ℝ := -(10 ^ 16)

/-- Initial values (SolutionNormPostProcessing.C:343-354). -/
def Acc.init : Acc := ⟨fun _ => lowest, fun _ => 0, 0⟩

/-- Body of the component loop (SolutionNormPostProcessing.C:382-387). -/
def compStep (tot off : ℕ) (p : Pair N) (k : N) (a : Acc) (i : ℕ) : Acc :=
  let diff := |p.dof k i - p.exact k i|
  let l1 := Function.update a.l12 (off + i) (a.l12 (off + i) + diff)
  { a with
    loo := Function.update a.loo (off + i) (max diff (a.loo (off + i)))
    l12 := Function.update l1 (off + tot + i) (l1 (off + tot + i) + diff * diff) }

/-- Loop over the components of one field at one node (SolutionNormPostProcessing.C:380-388). -/
def nodeStep (tot off : ℕ) (p : Pair N) (a : Acc) (k : N) : Acc :=
  (List.range p.size).foldl (compStep tot off p k) a

/-- Loop over the fields of one bucket; the state carries `offSet`
(SolutionNormPostProcessing.C:363-393). -/
def fieldStep (tot : ℕ) (bucket : List N) (s : ℕ × Acc) (p : Pair N) : ℕ × Acc :=
  (s.1 + p.size, bucket.foldl (nodeStep tot s.1 p) s.2)

/-- One bucket (SolutionNormPostProcessing.C:357-394). -/
def bucketStep (ps : List (Pair N)) (a : Acc) (bucket : List N) : Acc :=
  (ps.foldl (fieldStep (total ps) bucket) (0, { a with count := a.count + bucket.length })).2

/-- The local norms of one rank: its buckets of locally owned nodes
(SolutionNormPostProcessing.C:338-394). -/
def localNorms (ps : List (Pair N)) (buckets : List (List N)) : Acc :=
  buckets.foldl (bucketStep ps) Acc.init

/-- `all_reduce_sum` and `all_reduce_max` over the ranks (SolutionNormPostProcessing.C:396-412).  The
maximum over at least one rank, `lowest` for none. -/
def reduce (rs : List Acc) : Acc where
  loo := fun j => rs.foldl (fun m r => max m (r.loo j)) lowest
  l12 := fun j => (rs.map (fun r => r.l12 j)).sum
  count := (rs.map (·.count)).sum

/-- A row of the file: field, component, step, time, node count and the three norms. -/
structure Row where
  field : ℕ
  comp : ℕ
  step : ℕ
  time : ℝ
  nodeCount : ℕ
  loo : ℝ
  l1 : ℝ
  l2 : ℝ

/-- The rows of one field (SolutionNormPostProcessing.C:425-434). -/
noncomputable def fieldRows (tot step : ℕ) (time : ℝ) (g : Acc) (j off size : ℕ) : List Row :=
  (List.range size).map fun i =>
    ⟨j, i, step, time, g.count, g.loo (off + i), g.l12 (off + i) / (g.count : ℝ),
     Real.sqrt (g.l12 (off + i + tot) / (g.count : ℝ))⟩

/-- Loop over the fields; the state is the field number, `offSet` and the rows so far
(SolutionNormPostProcessing.C:420-437). -/
noncomputable def rowStep (tot step : ℕ) (time : ℝ) (g : Acc) (s : ℕ × ℕ × List Row) (p : Pair N) : ℕ × ℕ × List Row :=
  (s.1 + 1, s.2.1 + p.size, s.2.2 ++ fieldRows tot step time g s.1 s.2.1 p.size)

/-- `execute`: the rows rank 0 appends at a step (SolutionNormPostProcessing.C:318-440); `ranks` is the
list of ranks, each a list of buckets. -/
noncomputable def execute (freq : ℕ) (ps : List (Pair N)) (ranks : List (List (List N))) (step : ℕ) (time : ℝ)
    (file : List Row) : List Row :=
  if step % freq = 0 then
    file ++ (ps.foldl (rowStep (total ps) step time (reduce (ranks.map (localNorms ps)))) (0, 0, [])).2.2
  else file

/-- `load` opens the file without append and writes the banner: whatever was there is lost
(SolutionNormPostProcessing.C:143-152). -/
def load (_file : List Row) : List Row := []

/-- A whole run: `load`, then `execute` at every step (number and time). -/
noncomputable def wholeRun (freq : ℕ) (ps : List (Pair N)) (ranks : List (List (List N))) (steps : List (ℕ × ℝ))
    (file : List Row) : List Row :=
  steps.foldl (fun f s => execute freq ps ranks s.1 s.2 f) (load file)

end Nalu.Norm
