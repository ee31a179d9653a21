import Verif.Model.UfoStems
import Verif.Model.Container
/-! Model of `tth.py`: the export of TrueType hinting to JSON, TOML or YAML (`vfb2tth`), up to the dictionary that is
written. -/
set_option autoImplicit false
namespace Verif

/-- a name that is not in use: the name itself or `name#i` with the first free number — tth.py:240-249, 284-293 -/
def uniqueName (used : List PyStr) (name : PyStr) : PyStr :=
  if name ∈ used then name ++ lit "#" ++ natDec (freeSuffix used name (used.length + 1) 1) else name

/-- the items of one direction or side with unique names; `used` are the names in use before and after — tth.py:238-249,
282-293 -/
def withNames {α : Type} (name : α → PyStr) : List PyStr → List α → List (PyStr × α) × List PyStr
  | used, [] => ([], used)
  | used, x :: l =>
    let n := uniqueName used (name x)
    let r := withNames name (used ++ [n]) l
    ((n, x) :: r.1, r.2)

/-- an element of `font["stems"][direction]` before merging — tth.py:250-257 -/
structure TthStem where
  name : PyStr
  round : List (Int × Int)
  width : Int
  horizontal : Bool
  deriving DecidableEq, Repr

/-- one stem — tth.py:250-257 -/
def tthStemOf (horizontal : Bool) (x : PyStr × TTStem) : TthStem := ⟨x.1, x.2.round, x.2.value, horizontal⟩

/-- the values that the export collects.  `stems`: `font["stems"]` (V, H); `zones`: `font["zones"]` (T, B), with their
names; `deltas`: `font["zone_deltas"]`; `zoneT`, `zoneB`: `zone_names`; `roundV`, `roundH`: `stem_round`; `nums`, `gasp`: the
other values of `font`. — tth.py:100-104 -/
structure TthData where
  stems : Option (List TthStem × List TthStem)
  zones : Option (List (PyStr × UfoZone) × List (PyStr × UfoZone))
  deltas : Option TTDeltas
  zoneT : List (Int × PyStr)
  zoneB : List (Int × PyStr)
  roundV : List (Int × List (Int × Int))
  roundH : List (Int × List (Int × Int))
  glyphs : List (PyStr × List TthCommand)
  nums : List (PyStr × Int)
  gasp : Option (List (PyStr × Int))
  deriving DecidableEq, Repr

/-- tth.py:100-104 -/
def TthData.empty : TthData := ⟨none, none, none, [], [], [], [], [], [], none⟩

/-- the entries that the export looks at, decompiled (a decompiled entry that is no dict, list or int raises
AssertionError; that is not modelled); `other` are the rest — tth.py:106-165, tth.py:196-210 -/
inductive TthEntry where
  | gasp (l : List (Int × Int))
  | ttinfo (lowestRecPpem unitsPerEm : Option Int)
  | ppems (d : TTStems TTPpem)
  | ppems1 (d : TTStems TTPpem)
  | stems (d : TTStems TTStem)
  | zones (d : TTZones)
  | deltas (d : TTDeltas)
  | num (key : PyStr) (v : Int)
  | glyph (name : Option PyStr) (tth : Option (List Instruction))
  | other
  deriving DecidableEq, Repr

/-- `extract_tt_stems` — tth.py:229-257 -/
def extractStems (d : TTStems TTStem) : List TthStem × List TthStem :=
  let v := withNames TTStem.name [] d.ttStemsV
  let h := withNames TTStem.name v.2 d.ttStemsH
  (v.1.map (tthStemOf true), h.1.map (tthStemOf false))

/-- one direction of `extract_tt_stem_ppems` — tth.py:222-226 -/
def extractPpems (target : List (Int × List (Int × Int))) (l : List TTPpem) : List (Int × List (Int × Int)) :=
  l.foldl (fun t s => dictSet t s.stem s.round) target

/-- one zone — tth.py:295-302 -/
def tthZoneOf (top : Bool) (x : PyStr × TTZone) : PyStr × UfoZone := (x.1, ⟨x.2.position, top, x.2.value, none⟩)

/-- `zone_names[side][zone_index] = name` — tth.py:294 -/
def setZoneNames (d : List (Int × PyStr)) (names : List PyStr) : List (Int × PyStr) :=
  (enumFrom 0 names).foldl (fun d x => dictSet d (x.1 : Int) x.2) d

/-- `extract_tt_zones` — tth.py:272-302; `data.get(side, [])` -/
def extractZones (s : TthData) (d : TTZones) : TthData :=
  let t := withNames TTZone.name [] (d.ttZonesT.getD [])
  let b := withNames TTZone.name t.2 (d.ttZonesB.getD [])
  { s with
    zones := some (t.1.map (tthZoneOf true), b.1.map (tthZoneOf false))
    zoneT := setZoneNames s.zoneT (t.1.map Prod.fst)
    zoneB := setZoneNames s.zoneB (b.1.map Prod.fst) }

/-- `zone_names[side][i]` for the dicts of the export — tth.py:173-193 -/
def dictZone (zoneT zoneB : List (Int × PyStr)) (side : PyStr) (i : Int) : Except PyErr PyStr :=
  match dictGet (if side = lit "ttZonesT" then zoneT else zoneB) i with
  | none => .error .key
  | some n => .ok n

/-- `extract_glyph_hints` — tth.py:173-193 -/
def extractGlyph (s : TthData) (name : Option PyStr) (tth : Option (List Instruction)) : Except PyErr TthData :=
  match tth with
  | none => .ok s
  | some [] => .ok s
  | some (i :: is) =>
    match s.stems with
    | none => .error .key
    | some (v, h) =>
      tthCommands indexLabeler ⟨dictZone s.zoneT s.zoneB, h.map TthStem.name, v.map TthStem.name⟩ () (i :: is) >>= fun r =>
      match name with
      | none => .error .key
      | some n => .ok { s with glyphs := dictSet s.glyphs n r.1 }

/-- one entry — tth.py:106-165.  `extract_tt_stem_ppem_1` (tth.py:196-210) reads `stem_data["round"]["1"]`, but the key is
the int 1: KeyError if there is any stem. -/
def tthEntry (s : TthData) : TthEntry → Except PyErr TthData
  | .gasp l => .ok { s with gasp := some (l.foldl (fun d x => dictSet d (intDec x.1) x.2) []) }
  | .ttinfo a b =>
    let n := match a with
      | none => s.nums
      | some v => dictSet s.nums (lit "head_lowest_rec_ppem") v
    .ok { s with nums := match b with
      | none => n
      | some v => dictSet n (lit "head_units_per_em") v }
  | .ppems d => .ok { s with roundV := extractPpems s.roundV d.ttStemsV, roundH := extractPpems s.roundH d.ttStemsH }
  | .ppems1 d => if d.ttStemsV = [] ∧ d.ttStemsH = [] then .ok s else .error .key
  | .stems d => .ok { s with stems := some (extractStems d) }
  | .zones d => .ok (extractZones s d)
  | .deltas d => .ok { s with deltas := some d }
  | .num key v => .ok { s with nums := dictSet s.nums key v }
  | .glyph name tth => extractGlyph s name tth
  | .other => .ok s

/-- put `x` before the first element whose key is not smaller — tth.py:322-325 -/
def insertOn {α : Type} (key : α → Int) (x : α) : List α → List α
  | [] => [x]
  | y :: l => if key x ≤ key y then x :: y :: l else y :: insertOn key x l

/-- `sorted(l, key=key)`: a stable sort — tth.py:322-325 -/
def sortedOn {α : Type} (key : α → Int) (l : List α) : List α := l.foldr (insertOn key) []

/-- `{k: v for k, v in sorted(rd.items(), key=lambda item: item[1])}` — tth.py:322-325 -/
def sortRounds (r : Rounds) : Rounds := sortedOn Prod.snd r

/-- the merged stem — tth.py:320-327 -/
def mergedStem (s : TthStem) (rounding : List (Int × Int)) : StemData :=
  ⟨s.horizontal, s.width, sortRounds (transformStemRounds (rounding.foldl (fun d x => dictSet d x.1 x.2) s.round))⟩

/-- one direction of `merge_stem_information` — tth.py:315-327.  Simplification: a stem that comes up twice (a negative
number and the same stem counted from the start), which the parser never makes, is merged from the original stem. -/
def mergeDir (stems : Option (List TthStem)) (lib : List (PyStr × StemData)) (data : List (Int × List (Int × Int))) :
    Except PyErr (List (PyStr × StemData)) :=
  data.foldlM (fun lib x =>
    match stems with
    | none => .error .key
    | some l => pyIndex l x.1 >>= fun s => .ok (dictSet lib s.name (mergedStem s x.2))) lib

/-- `merge_stem_information` — tth.py:305-331; an empty list stands for no "stems" -/
def mergeStems (s : TthData) : Except PyErr (List (PyStr × StemData)) :=
  mergeDir (s.stems.map Prod.fst) [] s.roundV >>= fun lib =>
  mergeDir (s.stems.map Prod.snd) lib s.roundH >>= fun lib =>
  if lib = [] ∧ s.stems = none then .error .key else .ok lib

/-- `{str(k): v for k, v in sorted(zone_delta.items())}` — tth.py:349; the keys are different, so the order of the values
does not matter -/
def sortedDeltas (d : List (Int × Int)) : List (PyStr × Int) := deltaDict (sortedOn Prod.fst d)

/-- `merge_zone_information` — tth.py:334-359; an empty list stands for no "zones" -/
def mergeZones (s : TthData) : Except PyErr (List (PyStr × UfoZone)) :=
  match s.zones with
  | none => .error .key
  | some (t, b) =>
    ((s.deltas.getD []).foldlM (fun (all : List (PyStr × UfoZone)) x =>
      pyIndex all x.1 >>= fun z => .ok (all.set (pyPos all.length x.1) (z.1, { z.2 with delta := some (sortedDeltas x.2) }))) (b ++ t)) >>= fun all =>
    match s.deltas with
    | none => .error .key
    | some _ => .ok (all.foldl (fun d x => dictSet d x.1 x.2) [])

/-- the exported dictionary — tth.py:88-170 -/
structure TthExport where
  stems : List (PyStr × StemData)
  zones : List (PyStr × UfoZone)
  glyphs : List (PyStr × List TthCommand)
  nums : List (PyStr × Int)
  gasp : Option (List (PyStr × Int))
  deriving DecidableEq, Repr

/-- `extract_truetype_hinting` — tth.py:88-170 -/
def exportTth (es : List TthEntry) : Except PyErr TthExport :=
  es.foldlM tthEntry TthData.empty >>= fun s =>
  mergeStems s >>= fun stems =>
  mergeZones s >>= fun zones =>
  .ok ⟨stems, zones, s.glyphs, s.nums, s.gasp⟩

end Verif
