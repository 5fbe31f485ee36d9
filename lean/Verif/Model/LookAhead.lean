import Mathlib.Data.List.Basic

/-!
# Look-ahead into the input of a realm

Models `NaluParsingHelper::find_nodes_given_key` (/repo/include/NaluParsingHelper.h:131-160), its use in `Realm::look_ahead_and_creation`
(/repo/src/Realm.C:502-566) and the constructor of `ComputeMdotAlgorithmDriver` (/repo/src/ComputeMdotAlgorithmDriver.C:40-106), which decides from the
input whether the mass-balance review contains a density accumulation, together with what `SolutionOptions::load` (/repo/src/SolutionOptions.C:245-288)
and the registration of the continuity equation (/repo/src/LowMachEquationSystem.C:2530-2720) make of the same input.
-/

namespace Nalu.LookAhead

/-! ## Search for a block -/

/-- A parsed input node: scalar or null (`leaf`), a sequence, or a map given by its keys and its values in the same order. -/
inductive Y
  | leaf
  | seq (l : List Y)
  | map (keys : List String) (vals : List Y)

/-- The nodes below a node, in order. -/
def Y.children : Y → List Y
  | .leaf => []
  | .seq l => l
  | .map _ l => l

/-- `node[key]` is defined (NaluParsingHelper.h:136-139): only for a map with that key.  Simplified: a sequence has no string keys. -/
def Y.has (key : String) : Y → Bool
  | .map ks _ => decide (key ∈ ks)
  | _ => false

mutual
/-- `find_nodes_given_key` (NaluParsingHelper.h:132-160): the node itself first, then depth first through its children.  A result is the place of the
node found, as the list of child numbers from the node searched. -/
def find (key : String) : Y → List (List ℕ)
  | .leaf => []
  | .seq l => findKids key 0 l
  | .map ks l => (if key ∈ ks then [[]] else []) ++ findKids key 0 l
/-- The loops over the entries of a sequence or a map (NaluParsingHelper.h:145-156), from child number `i` on. -/
def findKids (key : String) : ℕ → List Y → List (List ℕ)
  | _, [] => []
  | i, y :: r => (find key y).map (i :: ·) ++ findKids key (i + 1) r
end

/-- What the look-ahead of one key does. -/
inductive Outcome
  /-- nothing is created -/
  | absent
  /-- `std::runtime_error`, "Too many ..." -/
  | tooMany
  /-- the object is created from the node at this place -/
  | created (p : List ℕ)
  deriving DecidableEq

/-- One paragraph of `look_ahead_and_creation` (Realm.C:505-512). -/
def lookAhead (key : String) (realm : Y) : Outcome :=
  match find key realm with
  | [] => .absent
  | [p] => .created p
  | _ => .tooMany

/-- The pointer stored for a place can still be followed after the search: the node searched is the caller's, every other node was a local variable or
temporary of the search (NaluParsingHelper.h:147, 154: `const YAML::Node & subnode = node[i]`, `const YAML::Node value = i->second`). -/
def alive (p : List ℕ) : Bool := p.isEmpty

/-! ## Which density accumulation the mass-balance review contains -/

/-- A block of source terms: for an equation the names listed. -/
abbrev Block := List (String × List String)

/-- An entry of `solution_options: options:`, as far as it matters: whether it has one of the keys that `SolutionOptions::load` looks for before
`source_terms`, and its `source_terms` and `element_source_terms`. -/
structure Opt where
  earlier : Bool
  nodal : Option Block
  elem : Option Block

/-- `std::map<std::string, std::vector<std::string>>`, restricted to one key: `none` = no entry. -/
abbrev Names := Option (List String)

/-- `operator>>` (NaluParsing.C:431-455) for the entry `continuity` of the map: names are appended to what is there. -/
def readBlock (m : Names) : Block → Names
  | [] => m
  | (e, l) :: r => readBlock (if e = "continuity" then some (m.getD [] ++ l) else m) r

/-- `SolutionOptions::load` (SolutionOptions.C:248-288): per option the first key of the chain that is present, only.  Result: `srcTermsMap_` and
`elemSrcTermsMap_` for `continuity`. -/
def solnOpts : Names × Names → List Opt → Names × Names
  | m, [] => m
  | (n, e), o :: r =>
    if o.earlier then solnOpts (n, e) r
    else match o.nodal, o.elem with
      | some b, _ => solnOpts (readBlock n b, e) r
      | none, some b => solnOpts (n, readBlock e b) r
      | none, none => solnOpts (n, e) r

/-- `hasMass_` and `lumpedMass_`. -/
structure Flags where
  hasMass : Bool
  lumped : Bool
  deriving DecidableEq

/-- The loop over the element names (ComputeMdotAlgorithmDriver.C:63-73). -/
def scanElem (f : Flags) : List String → Flags
  | [] => f
  | n :: r => scanElem (if n = "density_time_derivative" then ⟨true, false⟩ else if n = "lumped_density_time_derivative" then ⟨true, true⟩ else f) r

/-- The loop over the nodal names (ComputeMdotAlgorithmDriver.C:95-101). -/
def scanNodal (f : Flags) : List String → Flags
  | [] => f
  | n :: r => scanNodal (if n = "density_time_derivative" then ⟨true, true⟩ else f) r

/-- The loop over the options for the element terms (ComputeMdotAlgorithmDriver.C:54-77): the map is kept from option to option and scanned again. -/
def loopElem : Names → Flags → List Opt → Flags
  | _, f, [] => f
  | m, f, o :: r => match o.elem with
    | none => loopElem m f r
    | some b => loopElem (readBlock m b) (scanElem f ((readBlock m b).getD [])) r

/-- The loop over the options for the nodal terms (ComputeMdotAlgorithmDriver.C:86-105). -/
def loopNodal : Names → Flags → List Opt → Flags
  | _, f, [] => f
  | m, f, o :: r => match o.nodal with
    | none => loopNodal m f r
    | some b => loopNodal (readBlock m b) (scanNodal f ((readBlock m b).getD [])) r

/-- The constructor (ComputeMdotAlgorithmDriver.C:40-106).  The search that guards each loop finds a node whenever an option has the key. -/
def reviewFlags (l : List Opt) : Flags := loopNodal none (loopElem none ⟨false, true⟩ l) l

/-- The density time terms of the continuity equation, each with whether it is lumped: the element kernels that are offered and requested
(LowMachEquationSystem.C:2629-2637; with the edge-based scheme the list is not read, lines 2529-2556) and the nodal terms (lines 2669-2697, lumped). -/
def massTerms (edge : Bool) (l : List Opt) : List Bool :=
  let m := solnOpts (none, none) l
  (if edge then [] else
    (if "density_time_derivative" ∈ m.2.getD [] then [false] else []) ++ (if "lumped_density_time_derivative" ∈ m.2.getD [] then [true] else [])) ++
  ((m.1.getD []).filter (· = "density_time_derivative")).map fun _ => true

end Nalu.LookAhead
