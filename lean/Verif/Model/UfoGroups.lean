import Verif.Py
/-! Model of `ufo/groups.py`: kerning groups for the UFO.  Log messages are not modelled. -/
set_option autoImplicit false
namespace Verif

/-- `UfoGroups`: a dict of group name to the list of glyph names — ufo/typing.py:16 -/
abbrev Groups := List (PyStr × List PyStr)

/-- `s.startswith(p)` — ufo/groups.py:80-162 -/
def startsWith (s p : PyStr) : Bool := p.isPrefixOf s
/-- `s.endswith("'")` — ufo/groups.py:80-162 -/
def endsQuote (s : PyStr) : Bool := s.getLast? == some 39
/-- `s.strip("'")` — ufo/groups.py:80-162 -/
def stripQuotes (s : PyStr) : PyStr :=
  ((s.dropWhile (· == 39)).reverse.dropWhile (· == 39)).reverse

/-- `flags & 2**k` for an integer (two's complement) — ufo/groups.py:128-148 -/
def hasBit (flags : Int) (k : Nat) : Bool := flags / (2 ^ k : Nat) % 2 == 1

/-- `check_for_missing_glyphs(group_name, glyphs, glyphOrder, skip_missing_group_glyphs)`
— ufo/groups.py:12-38 -/
def checkForMissingGlyphs (glyphs order : List PyStr) (skip : Bool) : List PyStr × List PyStr :=
  let missing := glyphs.filter (fun n => !order.contains n)
  if !missing.isEmpty && skip then
    -- list(set(glyphs) - set(missing))
    if (glyphs.filter (fun g => !missing.contains g)).isEmpty then (glyphs, missing)
    else (glyphs.filter (fun g => !missing.contains g), missing)
  else (glyphs, missing)

/-- the local state of `transform_groups`: `groups`, `group_order`, `key_glyphs`
— ufo/groups.py:75-162 -/
structure GroupState where
  groups : Groups
  order : List PyStr
  keys : List (PyStr × PyStr)
  deriving DecidableEq, Repr

/-- lines shared by both kinds of groups — ufo/groups.py:138-148, 152-162: the key glyph is recorded
unless there is one already, the group is stored and appended to the group order -/
def addGroup (st : GroupState) (name : PyStr) (glyphs : List PyStr) (key : Option PyStr) : GroupState :=
  { groups := dictSet st.groups name glyphs
    order := st.order ++ [name]
    keys := if (dictGet st.keys name).isSome then st.keys
      else match key with
        | some k => dictSet st.keys name k
        | none => st.keys }

/-- `f"public.kern{side}.{name}"` — ufo/groups.py:131 -/
def kernName (side : Nat) (name : PyStr) : PyStr :=
  lit "public.kern" ++ natDec side ++ lit "." ++ name

/-- one side of a kerning group — ufo/groups.py:128-148 -/
def addSide (st : GroupState) (flags : Int) (bit side : Nat) (name : PyStr) (glyphs : List PyStr)
    (key : Option PyStr) : GroupState :=
  if hasBit flags bit then
    if (dictGet st.groups (kernName side name)).isSome then st
    else addGroup st (kernName side name) glyphs key
  else st

/-- the body of the loop — ufo/groups.py:80-162 -/
def transformGroup (flags : List (PyStr × Int)) (order : List PyStr) (skip : Bool)
    (st : GroupState) (group : PyStr × List PyStr) : GroupState :=
  let name := group.1
  let keyGlyphs := (group.2.filter endsQuote).map stripQuotes
  let others := group.2.filter (fun g => !endsQuote g)
  let glyphs := keyGlyphs ++ others
  let numGlyphs := glyphs.length
  let (glyphs, missing) := checkForMissingGlyphs glyphs order skip
  let key := keyGlyphs.find? fun k => !(missing.contains k && missing.length != numGlyphs)
  if startsWith name (lit "_") then
    match dictGet flags name with
    | none => st
    | some f => addSide (addSide st f 10 1 name glyphs key) f 11 2 name glyphs key
  else addGroup st name glyphs key

/-- `transform_groups(orig_groups, kerning_class_flags, glyphOrder, skip_missing_group_glyphs)`
— ufo/groups.py:41-164.  Of the kerning class flags only the first element of each tuple is used, so
`flags` maps a class name to that element. -/
def transformGroups (orig : Groups) (flags : List (PyStr × Int)) (order : List PyStr) (skip : Bool) :
    GroupState :=
  orig.foldl (transformGroup flags order skip) ⟨[], [], []⟩

/-- one glyph of one group — ufo/groups.py:175-181, 184-190 -/
def assignGlyph (name : PyStr) (m : List (PyStr × PyStr)) (g : PyStr) : List (PyStr × PyStr) :=
  if (dictGet m g).isSome then m else dictSet m g name

/-- the loop over the groups — ufo/groups.py:170-190: `glyph_group_1`, `glyph_group_2` -/
def glyphGroupMaps (groups : Groups) : List (PyStr × PyStr) × List (PyStr × PyStr) :=
  groups.foldl (fun (m : List (PyStr × PyStr) × List (PyStr × PyStr)) group =>
    if startsWith group.1 (lit "public.kern1") then (group.2.foldl (assignGlyph group.1) m.1, m.2)
    else if startsWith group.1 (lit "public.kern2") then (m.1, group.2.foldl (assignGlyph group.1) m.2)
    else m) ([], [])

/-- `_build_groups(glyph_to_group_mapping)` — ufo/groups.py:197-204 -/
def buildGroups (m : List (PyStr × PyStr)) : Groups :=
  m.foldl (fun groups e =>
    match dictGet groups e.2 with
    | some gs => dictSet groups e.2 (gs ++ [e.1])
    | none => dictSet groups e.2 [e.1]) []

/-- `d.update(e)` — ufo/groups.py:207-220 -/
def dictUpdate {κ ν : Type} [DecidableEq κ] (d e : List (κ × ν)) : List (κ × ν) :=
  e.foldl (fun d x => dictSet d x.1 x.2) d

/-- `rebuild_kerning_groups(groups, glyph_group_1, glyph_group_2)` — ufo/groups.py:207-220 -/
def rebuildKerningGroups (groups : Groups) (m1 m2 : List (PyStr × PyStr)) : Groups :=
  dictUpdate (dictUpdate (groups.filter fun e => !startsWith e.1 (lit "public.kern")) (buildGroups m1))
    (buildGroups m2)

/-- `build_glyph_to_group_maps(groups)` — ufo/groups.py:167-194 -/
def buildGlyphToGroupMaps (groups : Groups) :
    Groups × List (PyStr × PyStr) × List (PyStr × PyStr) :=
  let m := glyphGroupMaps groups
  (rebuildKerningGroups groups m.1 m.2, m.1, m.2)

end Verif
