import Verif.Model.TrueType
import Verif.Model.UfoTth
/-! Model of TrueType stems and zones in `ufo/builder.py`, and of `tth.py` (vfb2tth). -/
set_option autoImplicit false
namespace Verif

/-- a rounding dict of the UFO: ppm (as text) → width in pixels — ufo/tth.py:65-94 -/
abbrev Rounds := List (PyStr × Int)

/-- `transform_stem_rounds(data, name)` — ufo/tth.py:65-94.  `key in d` compares an int with the keys of `d`, which are
strings, so that it is never true and a later value replaces an earlier one. -/
def transformStemRounds (data : List (Int × Int)) : Rounds :=
  data.foldl (fun d kv => dictSet d (intDec kv.2) kv.1) []

/-- TUfoStemPPMDict — ufo/typing.py:52-54 -/
structure StemPpm where
  stem : Int
  round : Rounds
  deriving DecidableEq, Repr

/-- an element of `self.stems[d]`; its "round" is the same object as the "round" of `self.stem_ppms[d][ref]`
— ufo/builder.py:302-332 -/
structure UfoStem where
  width : Int
  name : PyStr
  ref : Nat
  deriving DecidableEq, Repr

/-- `self.stem_ppms[d]` and `self.stems[d]` for one direction — ufo/builder.py:265-279 -/
structure DirStems where
  ppms : List StemPpm
  stems : List UfoStem
  deriving DecidableEq, Repr

/-- `set_tt_stem_ppms`, one direction — ufo/builder.py:265-279 -/
def addPpms (s : DirStems) (data : List TTPpem) : DirStems :=
  { s with ppms := s.ppms ++ data.map fun ds => ⟨ds.stem, transformStemRounds ds.round⟩ }

/-- the position of `l[i]` — ufo/builder.py:290-300 -/
def pyPos (n : Nat) (i : Int) : Nat := (if 0 ≤ i then i else n + i).toNat

/-- one stem of `set_tt_stem_ppms_1` — ufo/builder.py:290-300 -/
def addPpm1 (ppms : List StemPpm) (ds : TTPpem) : Except PyErr (List StemPpm) :=
  pyIndex ppms ds.stem >>= fun r =>
  match dictGet ds.round 1 with
  | none => .error .key
  | some ppm =>
    if (dictGet r.round (intDec ppm)).isSome then .ok ppms
    else .ok (ppms.set (pyPos ppms.length ds.stem) { r with round := dictSet r.round (intDec ppm) 1 })

/-- `set_tt_stem_ppms_1`, one direction — ufo/builder.py:287-300 -/
def addPpms1 (s : DirStems) (data : List TTPpem) : Except PyErr DirStems :=
  data.foldlM addPpm1 s.ppms >>= fun ppms => .ok { s with ppms := ppms }

/-- one stem of `set_tt_stems` — ufo/builder.py:305-332 -/
def addStem (s : DirStems) (x : Nat × TTStem) : Except PyErr DirStems :=
  match x.2.round with
  | [] => .error .index
  | (rk, _) :: _ =>
    match dictGet x.2.round rk with
    | none => .error .key
    | some rv =>
      pyIndex s.ppms x.1 >>= fun r =>
      if (x.1 : Int) = r.stem then
        .ok ⟨s.ppms.set x.1 { r with round := dictSet r.round (intDec rv) rk }, s.stems ++ [⟨x.2.value, x.2.name, x.1⟩]⟩
      else .error .assertion

/-- `enumerate(l)` from `k` on — ufo/builder.py:303-332 -/
def enumFrom {α : Type} : Nat → List α → List (Nat × α)
  | _, [] => []
  | k, x :: l => (k, x) :: enumFrom (k + 1) l

/-- `set_tt_stems`, one direction — ufo/builder.py:303-332 -/
def addStems (s : DirStems) (data : List TTStem) : Except PyErr DirStems := (enumFrom 0 data).foldlM addStem s

/-- the entries for stems, and both directions — ufo/builder.py:546-549, 607-608 -/
structure StemTables where
  h : DirStems
  v : DirStems
  deriving DecidableEq, Repr

/-- the entries for stems — ufo/builder.py:265-332 -/
inductive StemEntry where
  | ppms (d : TTStems TTPpem)
  | ppms1 (d : TTStems TTPpem)
  | stems (d : TTStems TTStem)
  deriving DecidableEq, Repr

/-- the effect of an entry on the builder — ufo/builder.py:265-332 -/
def stemEntry (s : StemTables) : StemEntry → Except PyErr StemTables
  | .ppms d => .ok ⟨addPpms s.h d.ttStemsH, addPpms s.v d.ttStemsV⟩
  | .ppms1 d => addPpms1 s.h d.ttStemsH >>= fun h => addPpms1 s.v d.ttStemsV >>= fun v => .ok ⟨h, v⟩
  | .stems d => addStems s.h d.ttStemsH >>= fun h => addStems s.v d.ttStemsV >>= fun v => .ok ⟨h, v⟩

/-- TUfoStemDict without its name, with the "round" that it refers to — ufo/typing.py:40-44 -/
structure StemData where
  horizontal : Bool
  width : Int
  round : Rounds
  deriving DecidableEq, Repr

/-- the stems of one direction: names and data — ufo/builder.py:381-402 -/
def DirStems.resolve (s : DirStems) (horizontal : Bool) : List (PyStr × StemData) :=
  s.stems.map fun st => (st.name, ⟨horizontal, st.width, ((s.ppms[st.ref]?).map StemPpm.round).getD []⟩)

/-- the stems of one direction for the lib — ufo/builder.py:383-400 -/
def stemsLibDir (dname : PyStr) : Nat → List (PyStr × StemData) → List (PyStr × StemData) → List (PyStr × StemData)
  | _, lib, [] => lib
  | i, lib, (name, st) :: rest =>
    let name' := if name = [] then dname ++ pad2 i else name
    let i' := if name = [] then i + 1 else i
    let name'' := if (dictGet lib name').isSome then name' ++ lit "#" ++ pad2 i' else name'
    stemsLibDir dname i' (dictSet lib name'' st) rest

/-- `build_tt_stems_lib` — ufo/builder.py:381-402 -/
def stemsLib (s : StemTables) : List (PyStr × StemData) :=
  stemsLibDir (lit "h") 0 (stemsLibDir (lit "v") 0 [] (s.h.resolve false)) (s.v.resolve true)

/-! ### Zones -/

/-- TUfoTTZoneDict — ufo/typing.py:6-11 -/
structure UfoZone where
  position : Int
  top : Bool
  width : Int
  delta : Option (List (PyStr × Int))
  deriving DecidableEq, Repr

/-- `tt_zones`, `tt_zone_names` and `zone_names` — ufo/builder.py:339-352 -/
structure ZoneTables where
  zones : List (PyStr × UfoZone)
  all : List PyStr
  names : List (PyStr × List PyStr)
  deriving DecidableEq, Repr

/-- one side of `set_tt_zones` — ufo/builder.py:339-352 -/
def zoneSide (side : PyStr) (s : ZoneTables) (z : TTZone) : Except PyErr ZoneTables :=
  match dictGet s.names side with
  | none => .error .key
  | some l => .ok
    { zones := dictSet s.zones z.name ⟨z.position, decide (side = lit "ttZonesT"), z.value, none⟩
      all := s.all ++ [z.name]
      names := dictSet s.names side (l ++ [z.name]) }

/-- `data[d]` — ufo/builder.py:334-352 -/
def zonesOf (data : Option (List TTZone)) : Except PyErr (List TTZone) :=
  match data with
  | none => .error .key
  | some l => .ok l

/-- `set_tt_zones` — ufo/builder.py:334-352 -/
def setZones (s : ZoneTables) (data : TTZones) : Except PyErr ZoneTables :=
  zonesOf data.ttZonesB >>= fun b =>
  zonesOf data.ttZonesT >>= fun t =>
  b.foldlM (zoneSide (lit "ttZonesB")) { s with names := [(lit "ttZonesT", []), (lit "ttZonesB", [])] } >>= fun s =>
  t.foldlM (zoneSide (lit "ttZonesT")) s

/-- `{str(k): v for k, v in deltas.items()}` — ufo/builder.py:377-379 -/
def deltaDict (deltas : List (Int × Int)) : List (PyStr × Int) := deltas.foldl (fun d kv => dictSet d (intDec kv.1) kv.2) []

/-- one zone of `set_tt_zone_deltas` — ufo/builder.py:377-379 -/
def setZoneDelta (s : ZoneTables) (x : Int × List (Int × Int)) : Except PyErr ZoneTables :=
  pyIndex s.all x.1 >>= fun name =>
  match dictGet s.zones name with
  | none => .error .key
  | some z => .ok { s with zones := dictSet s.zones name { z with delta := some (deltaDict x.2) } }

/-- `set_tt_zone_deltas` — ufo/builder.py:376-379 -/
def setZoneDeltas (s : ZoneTables) (data : TTDeltas) : Except PyErr ZoneTables := data.foldlM setZoneDelta s

end Verif
