import Mathlib.Data.Real.Basic
import Verif.Model.MainLog

/-!
# Model of B-spline tables in HDF5 files

Models `write_hdf5` and `read_hdf5` of `BSpline1D` … `BSpline5D` (`/repo/src/tabular_props/BSpline.C:383-413,
558-593, 766-801, 968-1003, 1181-1216`) and what they use of `H5IO` (`/repo/src/tabular_props/H5IO.C:115-145,
166-235, 296-357, 427-447, 509-537, 617-634, 689-700`). The HDF5 library is trusted: a file is a tree of groups, a
group has attributes and data sets by name; creating something that exists fails, and so does anything in a group that
does not exist; consecutive slashes in a path count as one, so that a relative name appends one component to the
path. Numbers are exact.
-/

namespace Nalu.SplineFile

open Nalu.MainLog (Str padded)

/-- Values of attributes. -/
inductive Val
  | int (z : ℤ)
  | uint (n : ℕ)
  | num (r : ℝ)
  | nums (l : List ℝ)

structure Group where
  attrs : Str → Option Val
  datasets : Str → Option (List ℝ)

/-- Groups by path. -/
abbrev File := List Str → Option Group

def emptyGroup : Group := ⟨fun _ => none, fun _ => none⟩

/-- `create_group` with a relative name (H5IO.C:115-129, 166-184): the parent must exist, the group must not. -/
def createGroup (f : File) (p : List Str) (name : Str) : Option File :=
  match f p, f (p ++ [name]) with
  | some _, none => some (Function.update f (p ++ [name]) (some emptyGroup))
  | _, _ => none

/-- `write_attribute` (H5IO.C:296-357, 427-447): the group is opened, the attribute created and written. -/
def writeAttr (f : File) (p : List Str) (name : Str) (v : Val) : Option File :=
  match f p with
  | none => none
  | some g => match g.attrs name with
    | some _ => none
    | none => some (Function.update f p (some { g with attrs := Function.update g.attrs name (some v) }))

/-- `read_attribute` of an `int` (H5IO.C:509-516): return values are not checked, so that a missing attribute leaves
the variable as it was. Simplified: conversion between types is not modelled, an attribute of another type counts as
missing. -/
def readInt (f : File) (p : List Str) (name : Str) (old : ℤ) : Option ℤ :=
  (f p).map fun g => match g.attrs name with | some (.int z) => z | _ => old
/-- The same for `unsigned int` (H5IO.C:519-526). -/
def readUint (f : File) (p : List Str) (name : Str) (old : ℕ) : Option ℕ :=
  (f p).map fun g => match g.attrs name with | some (.uint z) => z | _ => old
/-- The same for `double` (H5IO.C:529-536). -/
def readNum (f : File) (p : List Str) (name : Str) (old : ℝ) : Option ℝ :=
  (f p).map fun g => match g.attrs name with | some (.num z) => z | _ => old
/-- The same for a vector (H5IO.C:617-633): a missing one leaves the size undefined. -/
def readNums (f : File) (p : List Str) (name : Str) : Option (List ℝ) :=
  (f p).bind fun g => match g.attrs name with | some (.nums z) => some z | _ => none
/-- `read_dataset` (H5IO.C:689-700): the storage size of a missing data set is zero. -/
def readDataset (f : File) (p : List Str) (name : Str) : Option (List ℝ) :=
  (f p).map fun g => (g.datasets name).getD []

/-- The members of a `BSpline1D` (BSpline.h:74-76, 178-180). -/
structure S1 where
  order : ℤ
  npts : ℕ
  maxv : ℝ
  minv : ℝ
  knots : List ℝ
  ctrl : List ℝ
  clip : Bool

/-- A spline in `d + 1` dimensions (BSpline.h:253-254, 338-339, 426-427, 517-518). -/
structure More (α : Type) where
  order : ℤ
  clip : Bool
  subs : List α
  sp1 : S1

def Sp : ℕ → Type
  | 0 => S1
  | d + 1 => More (Sp d)

def nOrder : Str := "Order".toList
def nMax : Str := "MaxIndepVarValue".toList
def nMin : Str := "MinIndepVarValue".toList
def nKnots : Str := "Knots".toList
def nCtrl : Str := "ControlPoints".toList
/-- `Number<d>Dsplines` for the splines of dimension `d + 1` (BSpline.C:562, 770, 972, 1185). -/
def nCount (d : ℕ) : Str := "Number".toList ++ [Nat.digitChar (d + 1)] ++ "Dsplines".toList
/-- The group names (BSpline.C:566-567, 774-775, 976-977, 1189-1190). -/
def gname (d i : ℕ) : Str := "sp".toList ++ [Nat.digitChar (d + 1)] ++ "d_".toList ++ padded 4 i

/-- `BSpline1D::write_hdf5` (BSpline.C:383-391). -/
def write1 (s : S1) (p : List Str) (f : File) : Option File :=
  (writeAttr f p nOrder (.int s.order)).bind fun f =>
  (writeAttr f p nMax (.num s.maxv)).bind fun f =>
  (writeAttr f p nMin (.num s.minv)).bind fun f =>
  (writeAttr f p nKnots (.nums s.knots)).bind fun f =>
  writeAttr f p nCtrl (.nums s.ctrl)

/-- The loop over the splines of one dimension less; `w` writes one. -/
def writeSubs {α : Type} (w : α → List Str → File → Option File) (d : ℕ) (p : List Str) : ℕ → List α → File → Option File
  | _, [], f => some f
  | i, s :: l, f =>
    (createGroup f p (gname d i)).bind fun f => (w s (p ++ [gname d i]) f).bind fun f => writeSubs w d p (i + 1) l f

/-- `write_hdf5` in `d + 1` dimensions (BSpline.C:558-574 and the like): number, splines in groups, last the spline of the
first dimension in the group itself. -/
def write : (d : ℕ) → Sp d → List Str → File → Option File
  | 0, s, p, f => write1 s p f
  | d + 1, s, p, f =>
    (writeAttr f p (nCount d) (.uint (More.subs s).length)).bind fun f =>
    (writeSubs (write d) d p 0 (More.subs s) f).bind fun f => write1 (More.sp1 s) p f

/-- `read_hdf5` of a new `BSpline1D(clip)` (BSpline.C:394-413); `version` is that of the file. -/
def read1 (version : ℕ) (clip : Bool) (p : List Str) (f : File) : Option S1 :=
  (readInt f p nOrder 0).bind fun order =>
  (readNum f p nMax 0).bind fun maxv =>
  (readNum f p nMin 0).bind fun minv =>
  (if version ≥ 2 then readNums f p nKnots else readDataset f p nKnots).bind fun knots =>
  (if version ≥ 2 then readNums f p nCtrl else readDataset f p nCtrl).map fun ctrl =>
  ⟨order, ctrl.length, maxv, minv, knots, ctrl, clip⟩

/-- The loop `for (i = 0; i < nsp; ++i)` (BSpline.C:582-589 and the like): opening the group, which must exist. -/
def readSubs {α : Type} (r : List Str → File → Option α) (d : ℕ) (p : List Str) (f : File) (nsp : ℕ) : Option (List α) :=
  (List.range nsp).mapM fun i => match f (p ++ [gname d i]) with
    | none => none
    | some _ => r (p ++ [gname d i]) f

/-- `read_hdf5` of a new spline (BSpline.C:576-593 and the like): its own `order_` stays that of the constructor, zero
(BSpline.C:446). -/
def read (version : ℕ) (clip : Bool) : (d : ℕ) → List Str → File → Option (Sp d)
  | 0, p, f => read1 version clip p f
  | d + 1, p, f =>
    (readUint f p (nCount d) 0).bind fun nsp =>
    (readSubs (read version clip d) d p f nsp).bind fun subs =>
    (read1 version clip p f).map fun sp1 => (More.mk 0 clip subs sp1 : More (Sp d))

end Nalu.SplineFile
