import Verif.Model.UfoInfo
/-! Model of `get_master_info` (`ufo/builder.py`): the font info of a master. -/
set_option autoImplicit false
namespace Verif

/-- `l[:n]` — ufo/builder.py:711-738 -/
def pySliceTo {α : Type} (l : List α) (n : Int) : List α :=
  if 0 ≤ n then l.take n.toNat else l.take ((l.length : Int) + n).toNat

/-- the properties that are set as they are — ufo/builder.py:695-714 (`pshints` is `include_ps_hints`) -/
def psNumbers (pshints : Bool) (p : PSInfo) : Attrs :=
  [(lit "ascender", .int p.ascender), (lit "descender", .int p.descender), (lit "xHeight", .int p.x_height),
   (lit "capHeight", .int p.cap_height)] ++
  if pshints then
    [(lit "postscriptBlueScale", .double p.blue_scale), (lit "postscriptBlueShift", .int p.blue_shift),
     (lit "postscriptBlueFuzz", .int p.blue_fuzz)]
  else []

/-- the lists that are clipped: attribute, values, number of values — ufo/builder.py:723-730 -/
def psLists (c : PsCounts) (p : PSInfo) : List (PyStr × List Int × Int) :=
  [(lit "postscriptBlueValues", p.blue_values, c.blue_values), (lit "postscriptOtherBlues", p.other_blues, c.other_blues),
   (lit "postscriptFamilyBlues", p.family_blues, c.family_blues),
   (lit "postscriptFamilyOtherBlues", p.family_other_blues, c.family_other_blues),
   (lit "postscriptStemSnapH", p.stem_snap_h, c.stem_snap_h), (lit "postscriptStemSnapV", p.stem_snap_v, c.stem_snap_v)]

/-- the PostScript attributes in the order in which they are set — ufo/builder.py:711-738 -/
def psAttrs (pshints : Bool) (c : PsCounts) (p : PSInfo) : Attrs :=
  psNumbers pshints p ++
  if pshints then
    (lit "postscriptForceBold", .bool (!(p.force_bold == 0))) ::
      (psLists c p).filterMap fun e => if e.2.2 = 0 then none else some (e.1, .ints (pySliceTo e.2.1 e.2.2))
  else []

/-- `get_master_info(master_index)` — ufo/builder.py:692-748: the attributes.  (`deepcopy(self.info)`: the attributes of the font.) -/
def masterInfo (ops : AngleOps) (deg : ops.Angle → Rat) (o : BuildOpts) (m : MastersPart ops.Angle) (info : Attrs) (master : Int) :
    Except PyErr Attrs :=
  pyIndex m.psInfos master >>= fun p =>
  let a := (psAttrs o.pshints m.counts p).foldl (fun a e => dictSet a e.1 e.2) info
  match m.guides with
  | none => .ok a
  | some g =>
    if o.minimal then .ok a
    else ufoGuides ops deg g m.guideProps master >>= fun l => .ok (if l.isEmpty then a else dictSet a (lit "guidelines") (.guides l))

end Verif
