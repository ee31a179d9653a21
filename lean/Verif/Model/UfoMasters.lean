import Verif.Model.UfoGlyph
/-! Model of axes, masters and instances in `ufo/builder.py` and of `ufo/designspace.py`.  Log messages are not modelled.  Wrong shapes
of data are `.error .type`. -/
set_option autoImplicit false
namespace Verif

/-! ### doubles with a value -/

/-- The value of a finite double (IEEE 754 binary64), `none` for infinities and NaN.
— ufo/paths.py:200-207 -/
def Dbl.toRat (d : Dbl) : Option Rat :=
  let n : Nat := d.bits.toNat
  let e : Nat := n / 2 ^ 52 % 2048
  let m : Nat := n % 2 ^ 52
  let sign : Rat := if n / 2 ^ 63 = 1 then -1 else 1
  if e = 2047 then none
  else if e = 0 then some (sign * (m : Rat) * (2 : Rat) ^ (-1074 : Int))
  else some (sign * ((2 ^ 52 + m : Nat) : Rat) * (2 : Rat) ^ ((e : Int) - 1075))

/-- NaN — ufo/builder.py:131-140 -/
def Dbl.isNan (d : Dbl) : Bool := d.bits.toNat / 2 ^ 52 % 2048 == 2047 && !(d.bits.toNat % 2 ^ 52 == 0)

/-- The magnitude with its sign.  The bit patterns of doubles that are not NaN are ordered like the numbers.
— ufo/builder.py:131-140 -/
def Dbl.rank (d : Dbl) : Int :=
  if d.bits.toNat / 2 ^ 63 = 1 then -((d.bits.toNat % 2 ^ 63 : Nat) : Int) else (d.bits.toNat % 2 ^ 63 : Nat)

/-- `a < b` — ufo/builder.py:131-140 -/
def Dbl.lt (a b : Dbl) : Bool := !a.isNan && !b.isNan && decide (a.rank < b.rank)

/-- `d * 1000`; `none`: the result is not finite — ufo/builder.py:956-964 -/
def Dbl.times1000 (d : Dbl) : Option Rat :=
  match d.toRat with
  | none => none
  | some q => if |fmul q 1000| < (2 : Rat) ^ (1024 : Int) then some (fmul q 1000) else none

/-- `round(d * 1000)`: OverflowError for infinities, ValueError for NaN — ufo/builder.py:131-140 -/
def Dbl.round1000 (d : Dbl) : Except PyErr Int :=
  match d.times1000 with
  | some q => .ok (roundEven q)
  | none => if d.isNan then .error .value else .error .overflow

/-! ### the attributes of the builder -/

/-- `AxisDescriptor`: what the builder sets (ufo/builder.py:131-140, 577-586) and the labels (ufo/builder.py:943-948).  The tag is made
from the name, see `axisTag`. -/
structure Axis where
  name : PyStr
  map : List (Dbl × Int)
  minimum : Option Dbl
  default : Option Dbl
  maximum : Option Dbl
  deriving DecidableEq, Repr

/-- `tags.get(data, data.upper()[:4])` — ufo/builder.py:578-586; `upper` is Python's `str.upper` -/
def axisTag (upper : PyStr → PyStr) (name : PyStr) : PyStr :=
  if name = lit "Weight" then lit "wght"
  else if name = lit "Width" then lit "wdth"
  else if name = lit "Optical Size" then lit "opsz"
  else if name = lit "Serif" then lit "SERF"
  else (upper name).take 4

/-- the number of values of the PostScript lists — ufo/builder.py:95-100 -/
structure PsCounts where
  blue_values : Int
  other_blues : Int
  family_blues : Int
  family_other_blues : Int
  stem_snap_h : Int
  stem_snap_v : Int
  deriving DecidableEq, Repr

/-- The attributes of the builder for axes and masters — ufo/builder.py:79-108.  `num_masters` and `axis_mappings_count` have no
initial value (`none`). -/
structure MastersPart (A : Type) where
  axes : List Axis
  axisCount : Int
  mapCounts : Option (List Int)
  numMasters : Option Int
  masters : List PyStr
  locations : List (Int × List Dbl)
  instances : List PrimaryInstance
  psInfos : List PSInfo
  counts : PsCounts
  guides : Option (MMGuides A)
  guideProps : GuideProps

/-- `MastersPart` at the start — ufo/builder.py:79-108 -/
def noMasters (A : Type) : MastersPart A :=
  { axes := []
    axisCount := 0
    mapCounts := none
    numMasters := none
    masters := []
    locations := []
    instances := []
    psInfos := []
    counts := ⟨0, 0, 0, 0, 0, 0⟩
    guides := none
    guideProps := ⟨[], []⟩ }

/-! ### axis mappings -/

/-- `min(l)`, `max(l)` for `l ≠ []`: the first of the extreme values — ufo/builder.py:131-140 -/
def dblMin : List Dbl → Option Dbl
  | [] => none
  | d :: l => some (l.foldl (fun best x => if Dbl.lt x best then x else best) d)
/-- `max(l)` for `l ≠ []` — ufo/builder.py:131-140 -/
def dblMax : List Dbl → Option Dbl
  | [] => none
  | d :: l => some (l.foldl (fun best x => if Dbl.lt best x then x else best) d)

/-- the double 0.0 for the `default=0` of `min`; the double 1000.0 for the `default=1000` of `max` — ufo/builder.py:138-140.  (In
Python they are integers.) -/
def dbl0 : Dbl := ⟨0⟩
/-- the double 1000.0 for the `default=1000` of `max` — ufo/builder.py:131-140 -/
def dbl1000 : Dbl := ⟨0x408F400000000000⟩

/-- one axis that has mappings — ufo/builder.py:131-140; `l[:n]` for `n > 0` -/
def mapAxis (axis : Axis) (n : Int) (data : List (Dbl × Dbl)) : Except PyErr Axis :=
  (data.take n.toNat).mapM (fun p => p.2.round1000 >>= fun d => .ok (p.1, d)) >>= fun m =>
  .ok { axis with
    map := m
    minimum := some ((dblMin ((data.take n.toNat).map Prod.fst)).getD dbl0)
    default := some ((dblMin ((data.take n.toNat).map Prod.fst)).getD dbl0)
    maximum := some ((dblMax ((data.take n.toNat).map Prod.fst)).getD dbl1000) }

/-- the loop of `add_axis_mappings` from axis `i` on, `k` axes to go — ufo/builder.py:126-142.  (When a later axis fails, the earlier
axes have been changed already; the exception ends the conversion.) -/
def mapAxes (counts : List Int) : Nat → Nat → List Axis → List (Dbl × Dbl) → Except PyErr (List Axis)
  | 0, _, axes, _ => .ok axes
  | k + 1, i, axes, data =>
    pyIndex counts i >>= fun n =>
    if 0 < n then
      pyIndex axes i >>= fun axis =>
      mapAxis axis n data >>= fun axis =>
      mapAxes counts k (i + 1) (axes.set i axis) (data.drop 10)
    else mapAxes counts k (i + 1) axes (data.drop 10)

/-- `add_axis_mappings` — ufo/builder.py:120-142: AttributeError when there was no entry with the numbers of mappings, ValueError
when it is empty -/
def addAxisMappings (axisCount : Int) (counts : Option (List Int)) (axes : List Axis) (data : List (Dbl × Dbl)) :
    Except PyErr (List Axis) :=
  match counts with
  | none => .error .attr
  | some [] => .error .value
  | some counts => mapAxes counts axisCount.toNat 0 axes data

/-- the loop over the anisotropic mappings only logs, but reads the axis names and the data — ufo/builder.py:591-606 -/
def checkAniso (axisCount : Int) (axes : List Axis) (data : List (List (Int × Int))) : Except PyErr Unit :=
  if data.all fun axis => axis.all fun p => p.1 = p.2 then .ok ()
  else if axisCount.toNat ≤ axes.length ∧ axisCount.toNat ≤ data.length then .ok () else .error .index

/-! ### the entries -/

section
variable (ops : AngleOps) (asm : AsmOps)

/-- the number in an entry of the id `id` — ufo/builder.py:536-537 -/
def PsCounts.set (c : PsCounts) (id v : Int) : PsCounts :=
  if id = 1530 then { c with blue_values := v }
  else if id = 1531 then { c with other_blues := v }
  else if id = 1532 then { c with family_blues := v }
  else if id = 1533 then { c with family_other_blues := v }
  else if id = 1534 then { c with stem_snap_h := v }
  else { c with stem_snap_v := v }

/-- an entry for axes, masters and global guides — ufo/builder.py:536-537, 564-606, 609-622; other entries change nothing here -/
def masterEntry (st : MastersPart ops.Angle) (id : Int) (d : Decompiled ops.Angle asm.Asm) : Except PyErr (MastersPart ops.Angle) :=
  if id = 1254 then
    match d with
    | .instances l => .ok { st with instances := l }                                    -- PrimaryInstances
    | _ => .error .type
  else if id = 1294 then
    match d with
    | .guides g => .ok { st with guides := some g }                                     -- GlobalGuides
    | _ => .error .type
  else if id = 1296 then
    match d with
    | .guideProps p => .ok { st with guideProps := p }                                  -- GlobalGuideProperties
    | _ => .error .type
  else if id = 1503 then
    match d with
    | .int v => .ok { st with numMasters := some v }                                    -- MasterCount
    | _ => .error .type
  else if id = 1504 then
    match d with
    | .str s => .ok { st with masters := st.masters ++ [s] }                            -- MasterName
    | _ => .error .type
  else if id = 1505 then
    match d with
    | .location l => .ok { st with locations := dictSet st.locations l.1 l.2 }          -- MasterLocation
    | _ => .error .type
  else if id = 1513 then
    match d with
    | .int v => .ok { st with axisCount := v }                                          -- AxisCount
    | _ => .error .type
  else if id = 1514 then
    match d with
    | .str s => .ok { st with axes := st.axes ++ [⟨s, [], none, none, none⟩] }          -- AxisName
    | _ => .error .type
  else if id = 1515 then
    match d with
    | .ints l => .ok { st with mapCounts := some l }                                    -- AxisMappingsCount
    | _ => .error .type
  else if id = 1516 then
    match d with
    | .axisMappings l =>                                                                -- AxisMappings
      addAxisMappings st.axisCount st.mapCounts st.axes l >>= fun axes => .ok { st with axes := axes }
    | _ => .error .type
  else if id = 1523 then
    match d with
    | .aniso l => checkAniso st.axisCount st.axes l >>= fun _ => .ok st                 -- AnisotropicInterpolationMappings
    | _ => .error .type
  else if id ∈ [1530, 1531, 1532, 1533, 1534, 1535] then
    match d with
    | .int v => .ok { st with counts := st.counts.set id v }                            -- blue_values_num … stem_snap_v_num
    | _ => .error .type
  else if id = 1536 then
    match d with
    | .psInfo p => .ok { st with psInfos := st.psInfos ++ [p] }                         -- PostScriptInfo
    | _ => .error .type
  else .ok st

/-- an entry of the file: skipped ids, entries without data — ufo/builder.py:432-450 -/
def masterStep (o : BuildOpts) (st : MastersPart ops.Angle) (e : Int × Option (Decompiled ops.Angle asm.Asm)) :
    Except PyErr (MastersPart ops.Angle) :=
  if e.1 ∈ skipKeys o then .ok st
  else match e.2 with
    | none => .ok st
    | some d => masterEntry ops asm st e.1 d

/-- `masters_count` — ufo/builder.py:684-687 -/
def mastersNeeded (axisCount : Int) : Int := if axisCount = 0 then 1 else axisCount ^ 2

/-- `fix_masters_count` — ufo/builder.py:681-690 -/
def fixMasters (axisCount : Int) (masters : List PyStr) : List PyStr :=
  masters ++ ((List.range (mastersNeeded axisCount).toNat).drop masters.length).map fun n => lit "m" ++ natDec n

/-- the masters after `build()` — ufo/builder.py:416-679 -/
def buildMasters (o : BuildOpts) (es : List (Int × Option (Decompiled ops.Angle asm.Asm))) : Except PyErr (MastersPart ops.Angle) :=
  es.foldlM (masterStep ops asm o) (noMasters ops.Angle) >>= fun st => .ok { st with masters := fixMasters st.axisCount st.masters }

end

/-! ### paths -/

/-- `s.rfind(".")` — ufo/builder.py:992-1002 -/
def rfindDot (s : PyStr) : Option Nat :=
  if s.contains 46 then some (s.length - 1 - s.reverse.idxOf 46) else none

/-- `path.stem`, `path.suffix` for the last part of a path: the last dot, unless it is the first or the last character (pathlib)
— ufo/builder.py:992-1002 -/
def pathSplit (name : PyStr) : PyStr × PyStr :=
  match rfindDot name with
  | some i => if 0 < i ∧ i < name.length - 1 then (name.take i, name.drop i) else (name, [])
  | none => (name, [])

/-- `get_master_path(out_path, master_index)`: the last part of the path — ufo/builder.py:992-1002 -/
def masterPath (name : PyStr) (index : Nat) : PyStr :=
  if 0 < index then (pathSplit name).1 ++ lit "-" ++ natDec index ++ (pathSplit name).2 else name

/-- the paths of the master UFOs, in this order — ufo/builder.py:913-916 (with the default format) -/
def writtenPaths (masters : List PyStr) (out : PyStr) : List PyStr := (List.range masters.length).map (masterPath out)

/-! ### the designspace document -/

/-- `get_ds_location(axes, vfb_location, factor)` — ufo/designspace.py:7-23; `scale` is the multiplication by the factor -/
def dsLocation {α β : Type} (scale : α → β) : List Axis → Nat → List α → List (PyStr × β) → Except PyErr (List (PyStr × β))
  | [], _, _, acc => .ok acc
  | axis :: axes, i, loc, acc =>
    if axis.name = [] then .error .value
    else pyIndex loc i >>= fun x => dsLocation scale axes (i + 1) loc (dictSet acc axis.name (scale x))

/-- Python's `str.strip()` — ufo/builder.py:956-988 -/
def isSpace (c : Nat) : Bool := decide (c ∈ [9, 10, 11, 12, 13, 28, 29, 30, 31, 32, 133, 160, 5760, 8192, 8193, 8194, 8195, 8196, 8197, 8198,
  8199, 8200, 8201, 8202, 8232, 8233, 8239, 8287, 12288])
/-- Python's `str.strip()` — ufo/builder.py:956-988 -/
def pyStrip (s : PyStr) : PyStr := ((s.dropWhile isSpace).reverse.dropWhile isSpace).reverse

/-- `SourceDescriptor`: file name, location and name.  A coordinate that is not finite is `none`.
— ufo/builder.py:956-964 -/
structure DsSource where
  filename : PyStr
  location : List (PyStr × Option Rat)
  name : PyStr
  styleName : PyStr
  deriving DecidableEq, Repr

/-- `InstanceDescriptor`: file name, name, style name and location in user coordinates
— ufo/builder.py:967-988 -/
structure DsInstance where
  filename : PyStr
  name : PyStr
  styleName : PyStr
  styleMapFamilyName : PyStr
  userLocation : List (PyStr × Rat)
  deriving DecidableEq, Repr

/-- `DesignSpaceDocument`: the axes, the labels of the first axis, the sources, the instances
— ufo/builder.py:934-990 -/
structure DsDoc where
  axes : List Axis
  labels : List (PyStr × Rat)
  sources : List DsSource
  instances : List DsInstance
  deriving DecidableEq, Repr

/-- the labels — ufo/builder.py:942-953, on a first call of `get_designspace` (a second call appends the labels again) -/
def dsLabels {A : Type} (st : MastersPart A) : Except PyErr (List (PyStr × Rat)) :=
  if st.axisCount = 1 then
    st.instances.mapM fun p =>
      pyIndex st.axes 0 >>= fun _ => pyIndex p.values 0 >>= fun v => .ok (p.name, v)
  else .ok []

/-- one source — ufo/builder.py:956-964 -/
def dsSource {A : Type} (st : MastersPart A) (out : PyStr) (i : Nat) : Except PyErr DsSource :=
  match dictGet st.locations (i + 1 : Int) with
  | none => .error .key
  | some loc =>
    dsLocation Dbl.times1000 st.axes 0 loc [] >>= fun loc =>
    pyIndex st.masters i >>= fun name =>
    .ok ⟨masterPath out i, loc, pyStrip name, lit "Master " ++ natDec i⟩

/-- one instance — ufo/builder.py:967-988; the factor is 1 -/
def dsInstance {A : Type} (st : MastersPart A) (family : PyStr) (x : Nat × PrimaryInstance) : Except PyErr DsInstance :=
  dsLocation id st.axes 0 x.2.values [] >>= fun loc =>
  .ok {
    filename := lit "instance_ufo/" ++ family ++ lit "-" ++ x.2.name ++ lit ".ufo"
    name := lit "instance_" ++ natDec x.1
    styleName := x.2.name
    styleMapFamilyName := pyStrip (family ++ lit " " ++ x.2.name)
    userLocation := loc }

/-- `get_designspace(out_path)` — ufo/builder.py:934-990: AttributeError when there was no entry with the number of masters; `out` is the
last part of the path, `family` is `self.info.ds_family_name` -/
def getDesignspace {A : Type} (st : MastersPart A) (family out : PyStr) : Except PyErr DsDoc :=
  dsLabels st >>= fun labels =>
  match st.numMasters with
  | none => .error .attr
  | some n =>
    (List.range n.toNat).mapM (dsSource st out) >>= fun sources =>
    ((List.range st.instances.length).zip st.instances).mapM (dsInstance st family) >>= fun instances =>
    .ok ⟨st.axes, labels, sources, instances⟩

end Verif
