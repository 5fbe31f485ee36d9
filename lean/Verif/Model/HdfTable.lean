import Mathlib.Analysis.SpecialFunctions.Exp
import Mathlib.Analysis.SpecialFunctions.Log.Basic
import Mathlib.Analysis.SpecialFunctions.Sqrt

/-!
# Property tables read from HDF5 files

Models src/tabular_props/HDF5Table.C (wiring of the inputs, lookup, clipping, log of clip events), src/tabular_props/Converter.C (the converters)
and src/tabular_props/Functions.C (F_chi, F_gamma).  The contents of the file are data; the B-spline is an arbitrary function of the lookup point
(Model/BSpline.lean models it).  Numbers are real.  `none` stands for a thrown error or for an access outside a vector.
-/

namespace Nalu.HdfTable

/-- A converter: `name_` (the table variable it produces), `inputNames_` and `query`.  The code passes the common buffer `converterBuf_`; a converter
reads only the entries of its own inputs. -/
structure Conv where
  name : String
  inputs : List String
  fn : List ℝ → ℝ

/-- What `read_hdf5_table` reads (HDF5Table.C:443-520). -/
structure File where
  names : List String
  logScale : List Bool
  lo : List ℝ
  hi : List ℝ
  spline : List ℝ → ℝ

/-- The members set by `update_input_mapping`: `inputNames_`, `directInputIndex_`, `convTableIndex_`, `convInputIndex_`, `indexIndVar_`, and
`lookupBuffer_`, which keeps its contents between queries. -/
structure Wiring where
  names : List String
  direct : List ℕ
  convTable : List ℕ
  convInput : List (List ℕ)
  index : List ℕ

/-- `findix` (HDF5Table.C:196-207). -/
def findix (l : List String) (s : String) : Option ℕ := l.findIdx? (· == s)

/-- `inputNames_.push_back` for the converter inputs not yet present (HDF5Table.C:119-128). -/
def appendNew (ns : List String) (s : String) : List String := if (findix ns s).isNone then ns ++ [s] else ns

/-- One converter in `update_input_mapping` (HDF5Table.C:84-129).  `tableInputNames` is a reference to `inputNames_` itself, so the position is
looked up in the list from which the variables of the previous converters have already been erased. -/
def wireStep (w : Wiring) (c : Conv) : Option Wiring :=
  (findix w.names c.name).map fun idx =>
    { w with
      names := c.inputs.foldl appendNew (w.names.eraseIdx idx)
      direct := w.direct.eraseIdx idx
      convTable := w.convTable ++ [idx] }

/-- `update_input_mapping` (HDF5Table.C:73-193); `user` is `indVarTableNameVec_`. -/
def wire (names : List String) (convs : List Conv) (user : List String) : Option Wiring :=
  (convs.foldlM wireStep ⟨names, List.range names.length, [], [], []⟩).bind fun w =>
  (convs.mapM fun (c : Conv) => c.inputs.mapM (findix w.names)).bind fun ci =>
  if w.names.length = user.length then
    (w.names.mapM (findix user)).map fun ix => { w with convInput := ci, index := ix }
  else none

/-- A checked store. -/
def store (b : List ℝ) (i : ℕ) (v : ℝ) : Option (List ℝ) := if i < b.length then some (b.set i v) else none

/-- `lookupBuffer_[i] = inputs[indexIndVar_[i]]` for all `i` (HDF5Table.C:214-217). -/
def fillIndexed (inputs : List ℝ) : List ℕ → ℕ → List ℝ → Option (List ℝ)
  | [], _, b => some b
  | k :: ks, i, b => (inputs[k]?).bind fun v => (store b i v).bind fun b => fillIndexed inputs ks (i + 1) b

/-- `lookupBuffer_[directInputIndex_[i]] = inputs[i]` for all `i` (HDF5Table.C:224-226). -/
def fillDirect (inputs : List ℝ) : List ℕ → ℕ → List ℝ → Option (List ℝ)
  | [], _, b => some b
  | k :: ks, i, b => (inputs[i]?).bind fun v => (store b k v).bind fun b => fillDirect inputs ks (i + 1) b

/-- The loop over the converters (HDF5Table.C:231-237). -/
def fillConv (inputs : List ℝ) : List Conv → List (List ℕ) → List ℕ → List ℝ → Option (List ℝ)
  | c :: cs, ks :: kss, t :: ts, b =>
    (ks.mapM fun k => inputs[k]?).bind fun args => (store b t (c.fn args)).bind fun b => fillConv inputs cs kss ts b
  | _, _, _, b => some b

/-- HDF5Table.C:212-238: the lookup point, starting from the previous contents of `lookupBuffer_`. -/
def fill (w : Wiring) (convs : List Conv) (inputs b : List ℝ) : Option (List ℝ) :=
  if convs.length = 0 then fillIndexed inputs w.index 0 b
  else (fillDirect inputs w.direct 0 b).bind fun b => fillConv inputs convs w.convInput w.convTable b

/-- One coordinate of HDF5Table.C:241-258: the value used for the lookup and whether it was clipped. -/
noncomputable def check1 (lo hi : ℝ) (lg : Bool) (v : ℝ) : ℝ × Bool :=
  let c1 := if v < lo then lo else v
  let c2 := if hi < c1 then hi else c1
  (if lg then Real.log (max c2 (1 / 10 ^ 16)) else c2, decide (v < lo) || decide (hi < c1))

/-- HDF5Table.C:240-258: all `dimension_` coordinates. -/
noncomputable def check : List ℝ → List ℝ → List Bool → List ℝ → Option (List ℝ × Bool)
  | _, _, _, [] => some ([], false)
  | l :: ls, h :: hs, g :: gs, v :: vs =>
    (check ls hs gs vs).map fun r => ((check1 l h g v).1 :: r.1, (check1 l h g v).2 || r.2)
  | _, _, _, _ :: _ => none

/-- `query` (HDF5Table.C:210-272): the value, the new contents of `lookupBuffer_` and whether the point was clipped. -/
noncomputable def query (f : File) (w : Wiring) (convs : List Conv) (inputs b : List ℝ) : Option (ℝ × List ℝ × Bool) :=
  (fill w convs inputs b).bind fun b => (check f.lo f.hi f.logScale b).map fun r => (f.spline r.1, b, r.2)

/-- `HDF5TablePropAlgorithm::execute` (HDF5TablePropAlgorithm.C:81-115): the property of every node, the buffer passing from node to node. -/
noncomputable def propLoop (f : File) (w : Wiring) (convs : List Conv) : List (List ℝ) → List ℝ → Option (List ℝ)
  | [], _ => some []
  | z :: zs, b => (query f w convs z b).bind fun r => (propLoop f w convs zs r.2.1).map fun l => r.1 :: l

/-- The wiring of a table that was constructed empty and then read with `read_hdf5_table`, as `ChiConverter::read_hdf5` and
`GammaConverter::read_hdf5` do for their inner tables (Converter.C:196-208, 283-295; HDF5Table.C:20-31, 443-520): `update_input_mapping` is never
called. -/
def innerWiring (f : File) : Wiring := ⟨f.names, [], [], [], []⟩

/-! ## The log of clip events -/

/-- `ClipEvent` (HDF5Table.h:33-36). -/
structure Event where
  sev : ℝ
  values : List ℝ

/-- The severity (HDF5Table.C:354-363). -/
noncomputable def severity : List ℝ → List ℝ → List ℝ → ℝ
  | l :: ls, h :: hs, v :: vs =>
    (if v < l then 1 + (l - v) / (h - l) else if h < v then 1 + (v - h) / (h - l) else 1) * severity ls hs vs
  | _, _, _ => 1

open scoped Classical in
/-- `std::set::insert` with the ordering `v1.severity > v2.severity` (HDF5Table.h:42-47): an event of a severity already present is not inserted. -/
noncomputable def insertEvent (e : Event) : List Event → List Event
  | [] => [e]
  | x :: l => if x.sev < e.sev then e :: x :: l else if e.sev < x.sev then x :: insertEvent e l else x :: l

/-- `clipEventLog_` and `numClipped_`. -/
structure Log where
  events : List Event
  count : ℕ

/-- HDF5Table.C:260-269 and `log_clip_event` (351-375), for one query. -/
noncomputable def logStep (size : ℕ) (lo hi : List ℝ) (s : Log) (q : List ℝ × Bool) : Log :=
  if q.2 then
    let ev := if 0 < size then
        let l := insertEvent ⟨severity lo hi q.1, q.1⟩ s.events
        if size < l.length then l.dropLast else l
      else s.events
    ⟨ev, s.count + 1⟩
  else s

/-! ## Converters -/

/-- `HStarConverter::augmented_mixfrac` (Converter.C:474-485); `last` is `lastMixFrac`. -/
noncomputable def augment : List ℝ → ℝ → List ℝ
  | [], last => [last]
  | z :: zs, last => min z last :: augment zs (last - min z last)

/-- `HStarConverter::mixture_property` (Converter.C:488-499). -/
def mixProp : List ℝ → List ℝ → ℝ
  | z :: zs, p :: ps => z * p + mixProp zs ps
  | _, _ => 0

/-- `HStarConverter::query` (Converter.C:410-433); `zs` are the first `numMixFrac_` inputs, `h` the next one. -/
noncomputable def hStar (a hmin : List ℝ) (refMin : ℝ) (zs : List ℝ) (h : ℝ) : ℝ :=
  let za := augment zs 1
  let aZ := mixProp za a
  if 1 / 10 ^ 16 < |aZ| then refMin + (h - mixProp za hmin) / aZ else refMin

/-- The series of `errorf` below 3.5 (Functions.C:37-46): `n` further terms, the next index being `i`. -/
noncomputable def erfSeries (x2 : ℝ) : ℕ → ℕ → ℝ → ℝ → ℝ
  | 0, _, _, er => er
  | n + 1, i, r, er =>
    let r := r * x2 / (i + 1 / 2)
    let er := er + r
    if r ≤ er * (1 / 10 ^ 15) then er else erfSeries x2 n (i + 1) r er

/-- The asymptotic series of `errorf` (Functions.C:50-55). -/
noncomputable def erfTail (x2 : ℝ) : ℕ → ℕ → ℝ → ℝ → ℝ
  | 0, _, _, er => er
  | n + 1, i, r, er => erfTail x2 n (i + 1) (-r * (i - 1 / 2) / x2) (er + -r * (i - 1 / 2) / x2)

/-- `errorf` (Functions.C:28-64); `sp` is the constant `SQRTPI`. -/
noncomputable def errorf (sp x : ℝ) : ℝ :=
  if |x| < 7 / 2 then 2 * x * Real.exp (-(x * x)) / sp * erfSeries (x * x) 50 1 1 1
  else
    let c0 := Real.exp (-(x * x)) / (|x| * sp)
    if 0 ≤ x then 1 - c0 * erfTail (x * x) 12 1 1 1 else c0 * erfTail (x * x) 12 1 1 1 - 1

/-- The starting value of the iteration (Functions.C:104-125). -/
noncomputable def invGuess (a : ℝ) : ℝ :=
  if a < 84 / 100 then 0 else if a < 995 / 1000 then 1 else if a < 99997 / 10 ^ 5 then 2 else if a < 99999998 / 10 ^ 8 then 3
  else if a < 999999999998 / 10 ^ 12 then 4 else if a < 99999999999999 / 10 ^ 14 then 5 else 11 / 2

/-- The Newton iteration (Functions.C:146-155); `c2` is `C_2_SQRTPI`. -/
noncomputable def invNewton (sp c2 a : ℝ) : ℕ → ℝ → ℝ
  | 0, v => v
  | n + 1, v =>
    let d := (errorf sp v - a) / (c2 * Real.exp (-v * v))
    if |d| < 1 / 10 ^ 5 then v - d else invNewton sp c2 a n (v - d)

/-- `inv_errorf` (Functions.C:80-157). -/
noncomputable def invErrorf (sp c2 x : ℝ) : ℝ :=
  let sign : ℝ := if x < 0 then -1 else 1
  let a := min (if x < 0 then -x else x) 1
  sign * invNewton sp c2 a 20 (invGuess a)

/-- `F_chi` (Functions.C:172-175). -/
noncomputable def fChi (sp c2 z : ℝ) : ℝ := Real.exp (-2 * invErrorf sp c2 (1 - 2 * z) ^ 2)

/-- `DeltaChiConverter::query` (Converter.C:225-233). -/
noncomputable def deltaChi (sp c2 zst z chi : ℝ) : ℝ := chi * fChi sp c2 zst / max (fChi sp c2 z) (1 / 10 ^ 12)

/-- `ChiConverter::query` (Converter.C:178-193), with the inner table and the contents of its buffer. -/
noncomputable def chiConv (sp c2 zst : ℝ) (f : File) (b : List ℝ) (inputs : List ℝ) : Option ℝ :=
  (query f (innerWiring f) [] inputs b).bind fun r => (inputs[2]?).map fun chi => chi * fChi sp c2 zst / max r.1 (1 / 10 ^ 12)

/-- `F_gamma` for one mixture fraction (Functions.C:233-259, 449-460). -/
noncomputable def fGamma1 (zst g z : ℝ) : ℝ :=
  if 1 < z then 0 else (if z ≤ zst then g * z / zst else g * (1 - z) / (1 - zst)) / g

/-- `DeltaGammaConverter::query` with one mixture fraction (Converter.C:310-328). -/
noncomputable def deltaGamma1 (zst g z gamma : ℝ) : ℝ := gamma / max (fGamma1 zst g z) (1 / 10 ^ 12)

/-- `Coord2D::distance` (Functions.C:213-215). -/
noncomputable def dist2 (p q : ℝ × ℝ) : ℝ := Real.sqrt ((p.1 - q.1) * (p.1 - q.1) + (p.2 - q.2) * (p.2 - q.2))

/-- `SMALL` (Functions.C:230). -/
noncomputable def small : ℝ := 1 / 10 ^ 16

/-- One coordinate of the intersection of the ray through `z` from `o` with the line through `p` and `q` (Functions.C:337-358 and 362-387, which repeat
this for both coordinates and both lines): `z1`, `o1`, `p1`, `q1` are the coordinates wanted, `z2`... the others; `rz` and `rp` are the ratios
`d2/d1`. -/
noncomputable def isect (z1 z2 o1 p1 q1 q2 rz rp : ℝ) : ℝ :=
  if |z1 - o1| < small then o1 else if |p1 - q1| < small then p1 else (q2 - z2 + z1 * rz - q1 * rp) / (rz - rp)

/-- A guarded ratio (Functions.C:325-330). -/
noncomputable def ratio (a1 a2 b1 b2 : ℝ) : ℝ := if |a1 - b1| < small then 0 else (a2 - b2) / (a1 - b1)

/-- The intersection point. -/
noncomputable def meet (z o p q : ℝ × ℝ) : ℝ × ℝ :=
  let ozYX := if |z.1 - o.1| < small then 0 else (o.2 - z.2) / (o.1 - z.1)
  let ozXY := if |z.2 - o.2| < small then 0 else (o.1 - z.1) / (o.2 - z.2)
  (isect z.1 z.2 o.1 p.1 q.1 q.2 ozYX (ratio p.1 p.2 q.1 q.2), isect z.2 z.1 o.2 p.2 q.2 q.1 ozXY (ratio p.2 p.1 q.2 q.1))

open scoped Classical in
/-- The origin and the two ends of the bounding line (Functions.C:286-314). -/
noncomputable def corners (s1 s2 : ℝ × ℝ) : (ℝ × ℝ) × (ℝ × ℝ) × (ℝ × ℝ) :=
  if small < s1.1 ∧ s1.2 < small then
    if s2.1 < small ∧ small < s2.2 then ((0, 0), (1, 0), (0, 1))
    else if small < s2.1 ∧ small < s2.2 then ((1, 0), (0, 0), (0, 1))
    else ((0, 0), (0, 0), (0, 0))
  else ((0, 1), (0, 0), (1, 0))

/-- `F_gamma` for two mixture fractions and two stoichiometric points (Functions.C:233-240, 281-460). -/
noncomputable def fGamma2 (s1 s2 : ℝ × ℝ) (g1 g2 : ℝ) (z : ℝ × ℝ) : ℝ :=
  if 1 < z.1 + z.2 then 0 else
  let (o, b1, b2) := corners s1 s2
  let s := meet z o s1 s2
  let b := meet z o b1 b2
  let gS := g1 + (g2 - g1) * dist2 s1 s / dist2 s1 s2
  let v := if dist2 z o ≤ dist2 s o then (if small < dist2 s o then gS * dist2 z o / dist2 s o else 0)
    else if dist2 z o ≤ dist2 b o then (if small < dist2 s b then gS * dist2 z b / dist2 s b else gS)
    else 0
  v / (if |g1| < |g2| then g2 else g1)

end Nalu.HdfTable
