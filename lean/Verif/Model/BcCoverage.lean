import Mathlib.Data.Finset.Card
import Mathlib.Data.Finset.Filter

/-!
# Model of the check that every exposed face has a boundary condition

Models the use of boundary surfaces by `Realm::setup_bc` (`/repo/src/Realm.C:838-882`), `EquationSystems::register_{wall,inflow,open,symmetry,periodic,
non_conformal,overset}_bc` (`/repo/src/EquationSystems.C:393-646`), the `bcPartVec_` filled in `/repo/src/Realm.C:3342-3580`, and
`Realm::enforce_bc_on_exposed_faces` (`/repo/src/Realm.C:888-950`) with its call (`/repo/src/Realm.C:448-449`).  `none` stands for an exception thrown
(or a null pointer dereferenced) on every process.  Messages are not modelled.  `stk::mesh::create_exposed_block_boundary_sides` is taken to put into the
exposed part the sides that belong to exactly one element.
-/

namespace Nalu.BcCheck

variable {S P F E : Type*}

/-- The mesh: `parts name` the subset parts of the surface of that name (`get_part`, `subsets`), `side p` whether its rank is that of a side, `on p f`
whether a face lies on it, `isSide e f` whether the face is a side of the element, `held r f` whether the process has a copy of the face. -/
structure Mesh (S P F E : Type*) where
  parts : S → Option (List P)
  side : P → Bool
  on : P → F → Prop
  elems : Finset E
  isSide : E → F → Prop
  held : ℕ → F → Prop

/-- A boundary condition of the input with the surfaces it names. -/
inductive Bc (S : Type*)
  | wall (n : S)
  | inflow (n : S)
  | open' (n : S)
  | symmetry (n : S)
  | periodic (monarch subject : S)
  | nonConformal (current opposing : List S)
  | overset

/-- An entry of `bcPartVec_`: a subset part, or (periodic) the whole surface. -/
inductive Entry (S P : Type*)
  | sub (p : P)
  | whole (n : S)

/-- `register_wall_bc`, `register_inflow_bc`, `register_open_bc` (lines 393-499): an unknown name and a part of the wrong rank are only reported. -/
def lenient (m : Mesh S P F E) (n : S) : List (Entry S P) :=
  match m.parts n with
  | none => []
  | some ps => (ps.filter fun p => m.side p).map .sub

/-- `register_symmetry_bc` (lines 501-536), and the loop over the current parts of `register_non_conformal_bc` (lines 609-629): both are refused. -/
def strict (m : Mesh S P F E) (n : S) : Option (List (Entry S P)) :=
  match m.parts n with
  | none => none
  | some ps => if ps.all m.side then some (ps.map .sub) else none

/-- `register_periodic_bc` (lines 538-573): both names must be known. -/
def periodicPair (m : Mesh S P F E) (a b : S) : Option (List (Entry S P)) :=
  match m.parts a, m.parts b with
  | some _, some _ => some [.whole a, .whole b]
  | _, _ => none

/-- The surfaces of a list treated one after the other. -/
def strictAll (m : Mesh S P F E) : List S → Option (List (Entry S P))
  | [] => some []
  | n :: ns =>
    match strict m n, strictAll m ns with
    | some a, some b => some (a ++ b)
    | _, _ => none

/-- One boundary condition (Realm.C:846-877). -/
def register (m : Mesh S P F E) : Bc S → Option (List (Entry S P))
  | .wall n => some (lenient m n)
  | .inflow n => some (lenient m n)
  | .open' n => some (lenient m n)
  | .symmetry n => strict m n
  | .periodic a b => periodicPair m a b
  | .nonConformal cur _ => strictAll m cur
  | .overset => some []

/-- `Realm::setup_bc`: the final `bcPartVec_`. -/
def setupBc (m : Mesh S P F E) : List (Bc S) → Option (List (Entry S P))
  | [] => some []
  | b :: bs =>
    match register m b, setupBc m bs with
    | some a, some l => some (a ++ l)
    | _, _ => none

/-- A face is in a part of `bcPartVec_`; a surface contains the faces of all its subset parts. -/
def Entry.has (m : Mesh S P F E) (f : F) : Entry S P → Prop
  | .sub p => m.on p f
  | .whole n => ∃ ps, m.parts n = some ps ∧ ∃ p ∈ ps, m.on p f

open scoped Classical in
/-- `exposedBoundaryPart_`: the sides of exactly one element. -/
noncomputable def exposed (m : Mesh S P F E) (f : F) : Prop := (m.elems.filter fun e => m.isSide e f).card = 1

/-- `selectRule`: exposed and in none of the parts. -/
noncomputable def uncovered (m : Mesh S P F E) (l : List (Entry S P)) (f : F) : Prop := exposed m f ∧ ¬∃ e ∈ l, e.has m f

/-- `enforce_bc_on_exposed_faces` on a process: it throws if its buckets hold an uncovered face. -/
noncomputable def throws (m : Mesh S P F E) (l : List (Entry S P)) (r : ℕ) : Prop := ∃ f, m.held r f ∧ uncovered m l f

/-- `setup_bc` and, if `check_for_missing_bcs` is on, the check: the process goes on. -/
noncomputable def goesOn (check : Bool) (m : Mesh S P F E) (bcs : List (Bc S)) (r : ℕ) : Prop :=
  match setupBc m bcs with
  | none => False
  | some l => check = true → ¬throws m l r

end Nalu.BcCheck
