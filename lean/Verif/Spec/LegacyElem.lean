import Verif.Model.LegacyElem

/-!
# What it means that a flat-array algorithm agrees with a kernel

The layouts of the flat arrays, and the comparison of the flat result with the two-dimensional one.
-/

namespace Nalu.Legacy
open Nalu.Edge Nalu.Kernel

variable {K : Type*} [Field K] [LinearOrder K] [IsStrictOrderedRing K]
variable {nn nf nip nd : ℕ}

/-- The flat output of the master element holds the element data: row-major, the last index fastest; `lrscv` alternates left and right. -/
structure ScsWs.Holds (w : ScsWs K) (e : Scs nn nip nd K) : Prop where
  shape : ∀ (ip : Fin nip) (ic : Fin nn), w.shape (ip * nn + ic) = e.shape ip ic
  adv : ∀ (ip : Fin nip) (ic : Fin nn), w.adv (ip * nn + ic) = e.adv ip ic
  dndx : ∀ (ip : Fin nip) (ic : Fin nn) (j : Fin nd), w.dndx (nd * nn * ip + ic * nd + j) = e.dndx ip ic j
  areav : ∀ (ip : Fin nip) (j : Fin nd), w.areav (ip * nd + j) = e.area ip j
  il : ∀ ip : Fin nip, w.lrscv (2 * ip) = e.il ip
  ir : ∀ ip : Fin nip, w.lrscv (2 * ip + 1) = e.ir ip

/-- The same for an exposed face. -/
structure FaceWs.Holds (w : FaceWs K) (f : Face nn nf nip nd K) : Prop where
  shape : ∀ (ip : Fin nip) (ic : Fin nf), w.shape (ip * nf + ic) = f.shape ip ic
  adv : ∀ (ip : Fin nip) (ic : Fin nf), w.adv (ip * nf + ic) = f.adv ip ic
  dndx : ∀ (ip : Fin nip) (ic : Fin nn) (j : Fin nd), w.dndx (nd * nn * ip + ic * nd + j) = f.dndx ip ic j
  areav : ∀ (ip : Fin nip) (j : Fin nd), w.areav (ip * nd + j) = f.area ip j
  amag : ∀ ip : Fin nip, w.amag ip = f.aMag ip
  ord : ∀ ic : Fin nf, w.ord ic = f.node ic
  near : ∀ ip : Fin nip, w.near ip = f.near ip
  opp : ∀ ip : Fin nip, w.opp ip = f.opp ip
  loc : ∀ ip : Fin nip, w.loc ip = f.loc ip

/-- The empty local system. -/
def zeroSys {ι : Type*} : LocalSys ι K := ⟨fun _ _ => 0, fun _ => 0⟩

/-- One unknown per node: the flat arrays hold the local system, entry `(r, c)` at `r*nodesPerElement + c`, and nothing beyond the `lhsSize` and
`rhsSize` entries was touched (`s0` are the arrays before). -/
def AgreesS (s0 out : Flat K) (k : LocalSys (Fin nn) K) : Prop :=
  (∀ r c : Fin nn, out.lhs (r * nn + c) = k.lhs r c) ∧ (∀ r : Fin nn, out.rhs r = k.rhs r) ∧
  (∀ p, nn * nn ≤ p → out.lhs p = s0.lhs p) ∧ ∀ p, nn ≤ p → out.rhs p = s0.rhs p

/-- `nd` unknowns per node: unknown `i` of node `n` is row `n*nDim + i`. -/
def AgreesV (s0 out : Flat K) (k : LocalSys (Fin nn × Fin nd) K) : Prop :=
  (∀ (r : Fin nn) (i : Fin nd) (c : Fin nn) (j : Fin nd), out.lhs ((r * nd + i) * (nn * nd) + (c * nd + j)) = k.lhs (r, i) (c, j)) ∧
  (∀ (r : Fin nn) (i : Fin nd), out.rhs (r * nd + i) = k.rhs (r, i)) ∧
  (∀ p, (nn * nd) * (nn * nd) ≤ p → out.lhs p = s0.lhs p) ∧ ∀ p, nn * nd ≤ p → out.rhs p = s0.rhs p

end Nalu.Legacy
