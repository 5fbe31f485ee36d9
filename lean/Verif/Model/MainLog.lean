import Mathlib.Analysis.SpecialFunctions.Log.Base
import Mathlib.Algebra.Order.Floor.Ring
import Verif.Model.Parsing

/-!
# Model of the start of the program: names of the log files, output streams, post-processing input

Models the part of `main` that handles names and files (`/repo/nalu.C:61-175`), `NaluEnv`
(`/repo/src/NaluEnv.C:33-160`) and `PostProcessingInfo::load` (`/repo/src/PostProcessingInfo.C:46-118`).
Characters are `Char`, strings lists of characters. Trusted: the option parser of stk, `ofstream` and
`filebuf` (a write appends to the file that was opened; buffering is not modelled), yaml-cpp as in
`Parsing.lean`.
-/

namespace Nalu.MainLog

abbrev Str := List Char

/-! ### Names (nalu.C:130-153) -/

/-- `rfind(".")`: the position of the last dot (nalu.C:132). -/
def rfindDot : Str → Option ℕ
  | [] => none
  | c :: s => match rfindDot s with
    | some d => some (d + 1)
    | none => if c = '.' then some 0 else none

/-- Base name and log file name from the input file and `--log-file` (nalu.C:130-148). With `--log-file` the
base name stays the empty string it was constructed as (nalu.C:83). -/
def names (input : Str) (logFile : Option Str) : Str × Str :=
  match logFile with
  | some l => ([], l)
  | none => match rfindDot input with
    | none => (input, input ++ ['.', 'l', 'o', 'g'])
    | some d => (input.take d, input.take d ++ ['.', 'l', 'o', 'g'])

/-! ### Log files of the processes (NaluEnv.C:101-134) -/

/-- `std::to_string` and `<<` of a non-negative integer. -/
def dec (n : ℕ) : Str := if n < 10 then [Nat.digitChar n] else dec (n / 10) ++ [Nat.digitChar (n % 10)]

/-- `int(log10(pSize-1)+1)` (NaluEnv.C:117); with one process `log10(0)` is minus infinity, whose conversion to
`int` is undefined. The logarithm of an integer is taken exactly: the conversion truncates. -/
noncomputable def numPlaces (pSize : ℕ) : Option ℤ :=
  if pSize ≤ 1 then none else some ⌊Real.logb 10 ((pSize : ℝ) - 1) + 1⌋

/-- `setw(w) << setfill('0') << n` (NaluEnv.C:119-120). -/
def padded (w : ℤ) (n : ℕ) : Str := List.replicate (w.toNat - (dec n).length) '0' ++ dec n

/-- The name of the parallel log (NaluEnv.C:122-124). -/
noncomputable def parName (log : Str) (pSize rank : ℕ) : Option Str :=
  (numPlaces pSize).map fun w => log ++ ['.'] ++ dec pSize ++ ['.'] ++ padded w rank

/-! ### Streams -/

/-- `naluOutputP0`, `naluOutput` and `std::cout` (the first is the same stream object as `std::cout`,
NaluEnv.C:37). -/
inductive Stream
  | p0
  | all
  | cout
  deriving DecidableEq

/-- Where the characters of a stream go. -/
inductive Sink
  | file (name : Str)
  | stdout (rank : ℕ)
  | nowhere
  deriving DecidableEq

/-- `set_log_file_stream` (NaluEnv.C:101-134) seen from a process: the buffer behind each stream. -/
noncomputable def sink (log : Str) (pprint : Bool) (pSize rank : ℕ) : Stream → Option Sink
  | .all => if pprint then (parName log pSize rank).map .file else some (.stdout rank)
  | _ => some (if rank = 0 then .file log else .nowhere)

/-- One write of a process. -/
structure Write where
  rank : ℕ
  stream : Stream
  text : Str

/-- Contents of files and of the standard outputs. -/
abbrev World := Sink → Str

/-- Executing one write. -/
noncomputable def write (log : Str) (pprint : Bool) (pSize : ℕ) (w : World) (a : Write) : World :=
  match sink log pprint pSize a.rank a.stream with
  | none | some .nowhere => w
  | some s => Function.update w s (w s ++ a.text)

/-- All writes of all processes in the order in which they happen. -/
noncomputable def run (log : Str) (pprint : Bool) (pSize : ℕ) (w : World) (l : List Write) : World :=
  l.foldl (write log pprint pSize) w

/-! ### Reading the input (nalu.C:124-157) -/

/-- Files by name; `none`: no such file. -/
abbrev Files := Str → Option Str

inductive Outcome
  | exit (code : ℕ)
  | document (text : Str)
  deriving DecidableEq

/-- `main` up to the reading of the input on the process of rank 0: help and version end the program with
code 0 (nalu.C:107-117), so does a missing input file (124-128); then the log file is opened for writing, which
empties it (nalu.C:153, NaluEnv.C:104), and then the input is read (nalu.C:156). -/
def start (help version : Bool) (input : Str) (logFile : Option Str) (fs : Files) : Outcome × Files :=
  if help || version then (.exit 0, fs)
  else match fs input with
    | none => (.exit 0, fs)
    | some _ =>
      let fs' : Files := Function.update fs (names input logFile).2 (some [])
      (.document ((fs' input).getD []), fs')

/-! ### `PostProcessingInfo::load` -/

open Nalu.Parse

/-- `PostProcessingData` with the defaults of its constructor (PostProcessingData.h:21). -/
structure PPData where
  type : String := "na"
  physics : String := "na"
  outputFileName : String := "na"
  frequency : ℤ := 10
  parameters : List ℝ := []
  targetNames : List String := []

section
variable (num : String → Option ℝ) (intOf : String → Option ℤ)

/-- A scalar or a list of values (PostProcessingInfo.C:91-117): anything that is not a scalar is indexed from zero to
its size, which is zero for `null` and an empty map. Simplified: a map with entries is refused (it would be accepted
if its keys were 0, 1, ...). -/
def oneOrMany {α : Type} (conv : String → Option α) : Yaml → Option (List α)
  | .scalar s => (conv s).map fun x => [x]
  | .seq l => l.mapM fun y => match y with
    | .scalar s => conv s
    | _ => none
  | .null => some []
  | .map [] => some []
  | _ => none

/-- `frequency` (PostProcessingInfo.C:84-85). -/
def freqOf : Option Yaml → Option ℤ
  | none => some 10
  | some (.scalar s) => intOf s
  | some _ => none

/-- `parameters` (PostProcessingInfo.C:88-102). -/
def paramsOf : Option Yaml → Option (List ℝ)
  | none => some []
  | some y => oneOrMany num y

/-- `target_name` (PostProcessingInfo.C:105-116): missing, it is an invalid node, whose `Type()` throws. -/
def targetsOf : Option Yaml → Option (List String)
  | none => none
  | some y => oneOrMany some y

/-- One item of the list (PostProcessingInfo.C:60-118). -/
def loadPP (item : List (String × Yaml)) : Option PPData := do
  let type ← (lookup "type" item).bind asStr
  let physics ← (lookup "physics" item).bind asStr
  let file ← (lookup "output_file_name" item).bind asStr
  let freq ← freqOf intOf (lookup "frequency" item)
  let params ← paramsOf num (lookup "parameters" item)
  let targets ← targetsOf (lookup "target_name" item)
  some ⟨type, physics, file, freq, params, targets⟩

/-- The list `post_processing`; the block is optional (PostProcessingInfo.C:51-58). -/
def loadAllPP : Option (List (List (String × Yaml))) → Option (List PPData)
  | none => some []
  | some items => items.mapM (loadPP num intOf)

end

end Nalu.MainLog
