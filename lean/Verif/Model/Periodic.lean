import Mathlib.Algebra.Order.Field.Basic
import Mathlib.Data.Rat.Defs
import Mathlib.Order.WithBot

/-!
# Model of the periodic boundary manager and of the interface balancer

A mesh selector is a Boolean predicate on nodes (already intersected with the locally owned part).
-/

namespace Verif.Periodic

section Selectors
variable {Node : Type*}

/-- `stk::mesh::Selector` restricted to nodes. -/
abbrev Selector (Node : Type*) := Node → Bool

/-- `SelectorPair` (include/PeriodicManager.h): monarch selector, subject selector. -/
abbrev SPair (Node : Type*) := Selector Node × Selector Node

/-- `A & B` of selectors. -/
def sAnd (a b : Selector Node) : Selector Node := fun n => a n && b n
/-- `A | B` of selectors. -/
def sOr (a b : Selector Node) : Selector Node := fun n => a n || b n
/-- `A - B` of selectors. -/
def sSub (a b : Selector Node) : Selector Node := fun n => a n && !b n

/-- `PeriodicManager::augment_periodic_selector_pairs`, src/PeriodicManager.C:150-210 (the search
methods pushed back in parallel carry no information: only `stk_kdtree` exists). -/
def augment (ps : List (SPair Node)) : List (SPair Node) :=
  match ps with
  | [a, b] => [a, b, (sAnd a.1 b.1, sAnd a.2 b.2)]
  | [a, b, c] =>
    [a, b, c, (sAnd a.1 b.1, sAnd a.2 b.2), (sAnd b.1 c.1, sAnd b.2 c.2),
      (sAnd a.1 c.1, sAnd a.2 c.2), (sAnd (sAnd a.1 b.1) c.1, sAnd (sAnd a.2 b.2) c.2)]
  | ps => ps

/-- `PeriodicManager::remove_redundant_subject_nodes`, src/PeriodicManager.C:312-367: the decision
is made on the number of pairs after augmentation. -/
def removeRedundant (ps : List (SPair Node)) : List (SPair Node) :=
  match ps with
  | [a, b, ab] =>
    let i := sAnd a.2 b.2
    [(a.1, sSub a.2 i), (b.1, sSub b.2 i), ab]
  | [a, b, c, ab, bc, ac, abc] =>
    let sABC := sAnd (sAnd a.2 b.2) c.2
    let sAB := sAnd a.2 b.2
    let sAC := sAnd a.2 c.2
    let sBC := sAnd b.2 c.2
    [(a.1, sSub a.2 (sOr sAB sAC)), (b.1, sSub b.2 (sOr sAB sBC)), (c.1, sSub c.2 (sOr sAC sBC)),
      (ab.1, sSub sAB sABC), (bc.1, sSub sBC sABC), (ac.1, sSub sAC sABC), abc]
  | ps => ps

/-- The selector pairs used by the search: `build_constraints` (src/PeriodicManager.C:117-145)
augments, then removes redundant nodes. -/
def finalPairs (ps : List (SPair Node)) : List (SPair Node) := removeRedundant (augment ps)

end Selectors

section Translation
variable {K : Type*} [Field K]

/-- `PeriodicManager::determine_translation`, src/PeriodicManager.C:230-307, one coordinate
component: the coordinates of the selected monarch and subject nodes, in bucket order over all
processes (the all-reduce). -/
def translation (monarch subject : List K) : K :=
  (monarch.foldl (· + ·) 0 - subject.foldl (· + ·) 0) / (monarch.length : K)

end Translation

section Constraints
variable {Node V : Type*} [DecidableEq Node]

/-- `*subject = *monarch` of one node value. -/
def setNode (f : Node → V) (n : Node) (v : V) : Node → V := Function.update f n v

/-- `PeriodicManager::add_subject_to_monarch`, src/PeriodicManager.C:785-831; `defined` is the
`NULL != monarchField` test (constantly true with `bypassFieldCheck`); `V` is the vector of field
components.  Pairs are `(monarch, subject)`. -/
def addSubjects [Add V] (defined : Node → Bool) (pairs : List (Node × Node)) (f : Node → V) :
    Node → V :=
  pairs.foldl (fun f p => if defined p.1 then setNode f p.1 (f p.1 + f p.2) else f) f

/-- `PeriodicManager::set_subject_to_monarch`, src/PeriodicManager.C:837-884. -/
def setSubjects (defined : Node → Bool) (pairs : List (Node × Node)) (f : Node → V) : Node → V :=
  pairs.foldl (fun f p => if defined p.1 then setNode f p.2 (f p.1) else f) f

/-- `PeriodicManager::apply_constraints`, src/PeriodicManager.C:730-748, one process. -/
def applyConstraints [Add V] (defined : Node → Bool) (pairs : List (Node × Node))
    (doAdd doSet : Bool) (f : Node → V) : Node → V :=
  let f := if doAdd then addSubjects defined pairs f else f
  if doSet then setSubjects defined pairs f else f

/-- `PeriodicManager::apply_max_field`, src/PeriodicManager.C:753-780. -/
def applyMax [Max V] (pairs : List (Node × Node)) (f : Node → V) : Node → V :=
  pairs.foldl (fun f p =>
    let m := max (f p.1) (f p.2)
    setNode (setNode f p.1 m) p.2 m) f

/-- `PeriodicManager::update_global_id_field`, src/PeriodicManager.C:698-724: the subject takes the
mesh identifier of its monarch. -/
def updateGlobalId {Id : Type*} (ident : Node → Id) (pairs : List (Node × Node)) (g : Node → Id) :
    Node → Id :=
  pairs.foldl (fun g p => setNode g p.2 (ident p.1)) g

/-! #### Several processes -/
variable {Proc : Type*} [DecidableEq Proc]

/-- The pairs known to process `p`: the search returns a pair to the process of its domain node and
to the process of its range node (src/PeriodicManager.C:464-477, :645-652). -/
def pairsOf (owner : Node → Proc) (pairs : List (Node × Node)) (p : Proc) : List (Node × Node) :=
  pairs.filter fun q => decide (owner q.1 = p) || decide (owner q.2 = p)

/-- `periodic_parallel_communicate_field`, src/PeriodicManager.C:669-678: on every process the nodes
of its pairs (owned or ghosted, src/PeriodicManager.C:606-644) get the owner's value. -/
def periodicComm (owner : Node → Proc) (pairs : List (Node × Node)) (f : Proc → Node → V) :
    Proc → Node → V :=
  fun p n => if (pairsOf owner pairs p).any (fun q => decide (q.1 = n) || decide (q.2 = n))
    then f (owner n) n else f p n

/-- `add_subject_to_monarch` on all processes, with its two communications. -/
def addSubjectsPar [Add V] (owner : Node → Proc) (defined : Node → Bool)
    (pairs : List (Node × Node)) (f : Proc → Node → V) : Proc → Node → V :=
  let f1 := periodicComm owner pairs f
  let f2 := fun p => addSubjects defined (pairsOf owner pairs p) (f1 p)
  periodicComm owner pairs f2

/-- `set_subject_to_monarch` on all processes, with its two communications. -/
def setSubjectsPar (owner : Node → Proc) (defined : Node → Bool)
    (pairs : List (Node × Node)) (f : Proc → Node → V) : Proc → Node → V :=
  let f1 := periodicComm owner pairs f
  let f2 := fun p => setSubjects defined (pairsOf owner pairs p) (f1 p)
  periodicComm owner pairs f2

end Constraints

section Retry
variable {K : Type*} [Field K] [LinearOrder K]

/-- Outcome of the search with retries: `ok` with the tolerance used, or the thrown exception. -/
inductive SearchResult (K : Type*) | ok (tol : K) | tooMany
  deriving DecidableEq

/-- `finalize_search` / `error_check`, src/PeriodicManager.C:372-391 and :485-547.  `count tol` is
the number of pairs found with tolerance `tol`, `target` the number of subject nodes.  `attempts`
records the tolerances tried.  The mutual recursion of the code has no explicit bound; the model
carries `fuel` and `c38_terminates` shows that `fuel = maxErrorCount - errorCount` is never
exhausted. `none` = out of fuel. -/
def finalizeSearch (count : K → ℕ) (target maxErrorCount : ℕ) (ampl : K) :
    ℕ → ℕ → K → List K → Option (SearchResult K × List K)
  | 0, _, _, _ => none
  | fuel + 1, errorCount, tol, attempts =>
    let attempts := attempts ++ [tol]
    if target ≠ count tol then
      let errorCount := errorCount + 1
      if errorCount = maxErrorCount then some (.tooMany, attempts)
      else
        let tol := if count tol < target then tol * ampl else tol / ampl
        finalizeSearch count target maxErrorCount ampl fuel errorCount tol attempts
    else some (.ok tol, attempts)

/-- `searchTolerance_` after all `add_periodic_pair` calls, src/PeriodicManager.C:42 (`1.0e-8`) and
:78 (`std::min`). -/
def searchTolerance (initial : K) (user : List K) : K := user.foldl min initial

end Retry

/-! ### Interface balancer -/
section Balance
variable {Node Proc : Type*} [DecidableEq Proc]

/-- `double(numLocallyOwnedNodes)/numOwnedByP`, src/InterfaceBalancer.C:176-177; a zero divisor gives
infinity (the numerator is positive whenever this is evaluated: the process owns the node). -/
def load (n m : ℕ) : WithTop ℚ := if m = 0 then ⊤ else (((n : ℚ) / (m : ℚ) : ℚ) : WithTop ℚ)

/-- The loop over the sharing processes, src/InterfaceBalancer.C:172-182: the receiver and its
load. -/
def pickDestination (myRank : Proc) (numOwned : Proc → ℕ) (n : ℕ) (procs : List Proc) : Proc :=
  (procs.foldl (fun (best : WithTop ℚ × Proc) p =>
    if best.1 < load n (numOwned p) then (load n (numOwned p), p) else best) (1, myRank)).2

/-- State of `changeOwnersOfNodes`. -/
structure BalState (Node Proc : Type*) where
  /-- `numLocallyOwnedNodes` -/
  n : ℕ
  /-- `numLocallyOwnedByRank` -/
  numOwned : Proc → ℕ
  /-- `nodesToMove` -/
  moves : List (Node × Proc)

/-- One interface node, src/InterfaceBalancer.C:163-190. -/
def balanceNode (myRank : Proc) (owned : Node → Bool) (st : BalState Node Proc)
    (np : Node × List Proc) : BalState Node Proc :=
  if owned np.1 then
    let d := pickDestination myRank st.numOwned st.n np.2
    if d ≠ myRank then
      ⟨st.n - 1, Function.update st.numOwned d (st.numOwned d + 1), st.moves ++ [(np.1, d)]⟩
    else st
  else st

/-- `InterfaceBalancer::changeOwnersOfNodes`, src/InterfaceBalancer.C:151-194, one process. -/
def changeOwners (myRank : Proc) (owned : Node → Bool) (iface : List (Node × List Proc))
    (numOwned : Proc → ℕ) (n : ℕ) : BalState Node Proc :=
  iface.foldl (balanceNode myRank owned) ⟨n, numOwned, []⟩

end Balance

end Verif.Periodic
