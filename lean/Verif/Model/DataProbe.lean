import Mathlib.Analysis.SpecialFunctions.Trigonometric.Inverse
import Mathlib.Data.Fin.VecNotation
import Mathlib.Algebra.BigOperators.Fin

/-!
# Model of the data probes

Models `/repo/src/DataProbePostProcessing.C` (`load`, `initialize`, `execute`, `provide_output`,
`compute_R`, `mat_vec`).  Nodes are identified by their ids; the `coordinates` field is a function of
the id.  Simplified: three space dimensions (in two the third component is not written), real
arithmetic, and the fields of a row are the values the transfer left at the node (the transfer is
modelled in `Verif.Model.Transfer`).  Field registration and number formatting are not modelled.
-/

namespace Nalu.Probe

/-- A point. -/
abbrev Pt := Fin 3 → ℝ

/-- Which of the three flags `isLineOfSite_`, `isPlane_`, `isRing_` is set
(DataProbePostProcessing.C:224, 273, 335). -/
inductive Kind
  | los | plane | ring
deriving DecidableEq

/-- One probe: the columns of `DataProbeInfo` for one index (include/DataProbePostProcessing.h,
DataProbePostProcessing.C:184-206). -/
structure Probe where
  kind : Kind
  numPoints : ℕ := 0
  numLinePoints : ℕ := 0
  numPointsOne : ℕ := 0
  numPointsTwo : ℕ := 0
  tail : Pt := 0
  tip : Pt := 0
  tipOne : Pt := 0
  tipTwo : Pt := 0
  unitNormal : Pt := 0
  origin : Pt := 0

/-- `numTotalPoints_` (DataProbePostProcessing.C:246-247, 303, 363-364). -/
def Probe.totalPoints (p : Probe) : ℕ :=
  match p.kind with
  | .los => p.numPoints
  | .plane => p.numPointsOne * p.numPointsTwo
  | .ring => p.numPoints * p.numLinePoints

/-- One specification of the input deck: its three sequences. -/
structure Deck where
  los : List Probe
  planes : List Probe
  rings : List Probe

/-- The order in which `probeCounter` numbers the probes: lines of sight, then planes, then rings
(DataProbePostProcessing.C:213-396). -/
def Deck.probes (d : Deck) : List Probe := d.los ++ d.planes ++ d.rings

/-- `numProbes` (DataProbePostProcessing.C:165-181). -/
def Deck.numProbes (d : Deck) : ℕ := d.los.length + d.rings.length + d.planes.length

/-- `divProcProbe` (DataProbePostProcessing.C:209), integer division. -/
def divProcProbe (numProcs numProbes : ℕ) : ℕ := max (numProcs / numProbes) numProcs

/-- `candidateId` (DataProbePostProcessing.C:227, 276, 338). -/
def candidateId (numProcs numProbes counter : ℕ) : ℕ :=
  if divProcProbe numProcs numProbes > 0 then counter % divProcProbe numProcs numProbes else 0

/-- `probeOnThisRank_[probeCounter]` after `load` (DataProbePostProcessing.C:229-230). -/
def onRank (numProcs numProbes counter rank : ℕ) : Bool :=
  candidateId numProcs numProbes counter = rank

/-- The node vector of a probe whose part did not exist: all ranks draw the same new ids, only the
flagged rank declares the nodes (DataProbePostProcessing.C:520-535). -/
def freshNodes (ids : List ℕ) (on : Bool) : List ℕ := if on then ids else []

/-- The node vector, the flag and the number of points of a probe whose part existed, e.g. at a
restart: the nodes of the locally owned buckets, in bucket order (DataProbePostProcessing.C:537-576). -/
def restartNodes (buckets : List (List ℕ)) (numTotal : ℕ) : List ℕ × Bool × ℕ :=
  let nodes := buckets.flatten
  let exist := !nodes.isEmpty
  (nodes, exist, if exist && decide (nodes.length ≠ numTotal) then nodes.length else numTotal)

/-- `dx` of a line (DataProbePostProcessing.C:622-627, 640-645): `m` points from `a` to `b`, at least
`lo` intervals. -/
noncomputable def delta (lo m : ℕ) (a b : Pt) : Pt := fun i => (b i - a i) / ((max lo (m - 1) : ℕ) : ℝ)

/-- Write one node's coordinates. -/
def write (nodes : List ℕ) (n : ℕ) (x : Pt) (f : ℕ → Pt) : ℕ → Pt :=
  Function.update f (nodes.getD n 0) x

/-- Coordinates of a line of sight (DataProbePostProcessing.C:618-636). -/
noncomputable def losPlace (p : Probe) (nodes : List ℕ) (f : ℕ → Pt) : ℕ → Pt :=
  (List.range nodes.length).foldl
    (fun f n => write nodes n (fun i => p.tail i + (n : ℝ) * delta 1 p.numPoints p.tail p.tip i) f) f

/-- `compute_R` (DataProbePostProcessing.C:967-987). -/
noncomputable def computeR (θ : ℝ) (u : Pt) : Fin 3 → Fin 3 → ℝ :=
  let sT := Real.sin θ
  let cT := Real.cos θ
  let om := 1 - cT
  ![![cT + u 0 * u 0 * om, u 0 * u 1 * om - u 2 * sT, u 0 * u 2 * om + u 1 * sT],
    ![u 1 * u 0 * om + u 2 * sT, cT + u 1 * u 1 * om, u 1 * u 2 * om - u 0 * sT],
    ![u 2 * u 0 * om - u 1 * sT, u 2 * u 1 * om + u 0 * sT, cT + u 2 * u 2 * om]]

/-- `mat_vec` (DataProbePostProcessing.C:989-1003). -/
noncomputable def matVec (c : Pt) (R : Fin 3 → Fin 3 → ℝ) : Pt := fun i => ∑ j, c j * R i j

/-- `translatedSeedCoords` of line point `k` (DataProbePostProcessing.C:662-666). -/
noncomputable def seed (p : Probe) (k : ℕ) : Pt := fun i =>
  p.tail i + (k : ℝ) * delta 1 p.numLinePoints p.tail p.tip i - p.origin i

/-- `dTheta` (DataProbePostProcessing.C:671). -/
noncomputable def dTheta (p : Probe) : ℝ := 2 * Real.arccos (-1) / (p.numPoints : ℝ)

/-- Body of the inner loop; the state is `currentTheta` and the coordinates field
(DataProbePostProcessing.C:677-690). -/
noncomputable def ringBody (p : Probe) (nodes : List ℕ) (k : ℕ) (s : ℝ × (ℕ → Pt)) (n : ℕ) : ℝ × (ℕ → Pt) :=
  (s.1 + dTheta p,
   write nodes n (fun i => matVec (seed p k) (computeR s.1 p.unitNormal) i + p.origin i) s.2)

/-- The inner loop: from `k*numRingPoints` to the end of the node vector
(DataProbePostProcessing.C:674-691). -/
noncomputable def ringInner (p : Probe) (nodes : List ℕ) (f : ℕ → Pt) (k : ℕ) : ℕ → Pt :=
  ((List.range' (k * p.numPoints) (nodes.length - k * p.numPoints)).foldl (ringBody p nodes k) (0, f)).2

/-- Coordinates of a ring (DataProbePostProcessing.C:637-693). -/
noncomputable def ringPlace (p : Probe) (nodes : List ℕ) (f : ℕ → Pt) : ℕ → Pt :=
  (List.range p.numLinePoints).foldl (ringInner p nodes) f

/-- Coordinates of a plane (DataProbePostProcessing.C:694-741); note the different lower bounds of the
two numbers of intervals, 1 and 2. -/
noncomputable def planePlace (p : Probe) (nodes : List ℕ) (f : ℕ → Pt) : ℕ → Pt :=
  (List.range nodes.length).foldl
    (fun f n => write nodes n
      (fun i => p.tail i + ((n % p.numPointsOne : ℕ) : ℝ) * delta 1 p.numPointsOne p.tail p.tipOne i
        + ((n / p.numPointsOne : ℕ) : ℝ) * delta 2 p.numPointsTwo p.tail p.tipTwo i) f) f

/-- The coordinate block of `initialize` for one probe (DataProbePostProcessing.C:598-745). -/
noncomputable def place (p : Probe) (nodes : List ℕ) (f : ℕ → Pt) : ℕ → Pt :=
  match p.kind with
  | .los => losPlace p nodes f
  | .ring => ringPlace p nodes f
  | .plane => planePlace p nodes f

/-! ## Output -/

/-- A line of a probe's `.dat` file: the banner or a row. -/
inductive Line (F : Type*)
  | banner
  | row (time : F) (node : ℕ) (coords vals : List F)
deriving DecidableEq

variable {F : Type*}

/-- What a rank holds of one probe: flag and node vector. -/
structure Share where
  on : Bool
  nodes : List ℕ

/-- The rows of one output (DataProbePostProcessing.C:929-955). -/
def rows (t : F) (coords vals : ℕ → List F) (nodes : List ℕ) : List (Line F) :=
  nodes.map fun n => .row t n (coords n) (vals n)

/-- `provide_output` of one rank for one probe; the file is `none` while it does not exist, it is
opened for appending and the banner is written only if it did not exist
(DataProbePostProcessing.C:897-962). -/
def provideOutput (t : F) (coords vals : ℕ → List F) (s : Share) (file : Option (List (Line F))) :
    Option (List (Line F)) :=
  if s.on then
    let addBanner := file.isNone
    some (file.getD [] ++ (if addBanner then [.banner] else []) ++ rows t coords vals s.nodes)
  else file

/-- One time step as the post-processing sees it. -/
structure Step (F : Type*) where
  count : ℕ
  time : F
  coords : ℕ → List F
  vals : ℕ → List F

/-- `execute` for one probe over the ranks (DataProbePostProcessing.C:855-868).  The ranks' writes to the
one file are taken one rank after the other. -/
def execute (freq : ℕ) (shares : List Share) (file : Option (List (Line F))) (s : Step F) :
    Option (List (Line F)) :=
  if s.count % freq = 0 then
    shares.foldl (fun file sh => provideOutput s.time s.coords s.vals sh file) file
  else file

/-- A run: `execute` once per time step. -/
def run (freq : ℕ) (shares : List Share) (steps : List (Step F)) (file : Option (List (Line F))) :
    Option (List (Line F)) :=
  steps.foldl (execute freq shares) file

end Nalu.Probe
