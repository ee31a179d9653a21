import Verif.Model.UfoGroups
/-! Model of `ufo/kerning.py`. -/
set_option autoImplicit false
namespace Verif

/-- `l[i]` for a Python list: negative indices count from the end, IndexError outside
— ufo/kerning.py:38-57 -/
def pyIndex {α : Type} (l : List α) (i : Int) : Except PyErr α :=
  if 0 ≤ i then
    match l[i.toNat]? with
    | some x => .ok x
    | none => .error .index
  else
    if -(l.length : Int) ≤ i then
      match l[(l.length + i).toNat]? with
      | some x => .ok x
      | none => .error .index
    else .error .index

/-- `UfoMMKerning`: (left glyph name, right glyph index) to the values for all masters
— ufo/typing.py:18 -/
abbrev MMKerning := List ((PyStr × Int) × List Int)

/-- the attributes of an `UfoKerning` object — ufo/kerning.py:13-26 -/
structure UfoKerning where
  groups : Groups
  glyphGroup1 : List (PyStr × PyStr)
  glyphGroup2 : List (PyStr × PyStr)
  keyGlyphs : List (Option (Nat × PyStr) × PyStr)
  names : List ((PyStr × PyStr) × List Int)
  deriving DecidableEq, Repr

/-- `UfoKerning._reverse_key_glyph_dict(key_glyphs)` — ufo/kerning.py:59-84 -/
def reverseKeyGlyphs (keys : List (PyStr × PyStr)) : List (Option (Nat × PyStr) × PyStr) :=
  keys.foldl (fun rev e =>
    let key := if startsWith e.1 (lit "public.kern1") then some (1, e.2)
      else if startsWith e.1 (lit "public.kern2") then some (2, e.2)
      else none
    if (dictGet rev key).isSome then rev else dictSet rev key e.1) []

/-- the name used for one side of a pair — ufo/kerning.py:50-55.  `groups` may hold no key `None`, so
`left_group in self.groups` is false when the glyph is not a key glyph. -/
def sideName (rev : List (Option (Nat × PyStr) × PyStr)) (groups : Groups) (side : Nat) (g : PyStr) : PyStr :=
  match dictGet rev (some (side, g)) with
  | some grp => if (dictGet groups grp).isSome then grp else g
  | none => g

/-- `UfoKerning._make_name_based_kerning()` — ufo/kerning.py:38-57 -/
def makeNames (order : List PyStr) (groups : Groups) (rev : List (Option (Nat × PyStr) × PyStr))
    (kerning : MMKerning) : Except PyErr (List ((PyStr × PyStr) × List Int)) :=
  kerning.foldlM (fun names e => do
    let r ← pyIndex order e.1.2
    pure (dictSet names (sideName rev groups 1 e.1.1, sideName rev groups 2 r) e.2)) []

/-- `UfoKerning.__init__` — ufo/kerning.py:14-26 -/
def ufoKerning (order : List PyStr) (groups : Groups) (kerning : MMKerning) (keys : List (PyStr × PyStr)) :
    Except PyErr UfoKerning := do
  let (gs, m1, m2) := buildGlyphToGroupMaps groups
  let rev := reverseKeyGlyphs keys
  let names ← makeNames order gs rev kerning
  pure ⟨gs, m1, m2, rev, names⟩

/-- `UfoKerning._is_exception(L, R)` — ufo/kerning.py:28-36 -/
def UfoKerning.isException (k : UfoKerning) (l r : PyStr) : Bool :=
  let lIsKey := (dictGet k.keyGlyphs (some (1, l))).isSome || (dictGet k.glyphGroup1 l).isNone
  let rIsKey := (dictGet k.keyGlyphs (some (2, r))).isSome || (dictGet k.glyphGroup2 r).isNone
  !(lIsKey && rIsKey)

/-- `UfoKerning.get_master_kerning(master_index)` — ufo/kerning.py:86-96 -/
def UfoKerning.masterKerning (k : UfoKerning) (master : Nat) : Except PyErr (List ((PyStr × PyStr) × Int)) :=
  k.names.foldlM (fun mk e => do
    let value ← pyIndex e.2 master
    pure (if value ≠ 0 || k.isException e.1.1 e.1.2 then dictSet mk e.1 value else mk)) []

end Verif
