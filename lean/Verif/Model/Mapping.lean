import Verif.Model.Container
/-! Model of a font as a mapping from glyph names to glyphs: `Vfb._decompile_glyphs` with the objects it makes, the methods of `Vfb` and
`VfbMaster` that look glyphs up, and reading another file into the same font — vfb/vfb.py:24-60, 86-112, 150-202, 221-229. -/
set_option autoImplicit false
namespace Verif

/-- a `VfbGlyph` — vfb/glyph.py:26-36.  Of the entries it refers to (`entry`, `links_entry`, `ps_hinting_options`) the positions in the
list of entries are kept, and the number of the reading from which this list comes (an entry lives on when the list is replaced). -/
structure GlyphObj where
  source : Nat
  entry : Nat
  links : Option Nat := none
  options : Option Nat := none
  deriving DecidableEq, Repr

/-- the attributes of a font that `_decompile_glyphs` fills — vfb/vfb.py:89-91, 102 -/
structure Lookup where
  glyphs : List (PyStr × GlyphObj) := []
  order : List PyStr := []
  psOptions : Option (Nat × Nat) := none
  deriving DecidableEq, Repr

/-- `self._glyphs[name].attr = entry` — vfb/vfb.py:173, 184 (the name is there) -/
def updateObj (l : List (PyStr × GlyphObj)) (name : PyStr) (f : GlyphObj → GlyphObj) : List (PyStr × GlyphObj) :=
  l.map fun p => if p.1 = name then (p.1, f p.2) else p

/-- what is noted for an entry that is decompiled — vfb/vfb.py:166-187; `i` is its position -/
def noteAux (src i : Nat) (id : Int) (name : Option PyStr) (s : Lookup) : Lookup :=
  if id = 2008 then
    match name with
    | none => s
    | some n => { s with glyphs := updateObj s.glyphs n fun o => { o with links := some i } }
  else if id = 2010 then
    match name with
    | none => s
    | some n => { s with glyphs := updateObj s.glyphs n fun o => { o with options := some i } }
  else { s with psOptions := some (src, i) }

/-- the name under which a glyph is kept — vfb/vfb.py:156-163 -/
def keyFor (names : List PyStr) (name : PyStr) : PyStr :=
  if name ∈ names then name ++ lit "#" ++ natDec (freeSuffix names name (names.length + 1) 1) else name

variable {D T : Type}

/-- the loop of `_decompile_glyphs` — vfb/vfb.py:150-186; `i` is the position of the first entry of the list, `name` the local variable -/
def objLoop (C : Codec D T) (ctx : Ctx) (src : Nat) : Nat → List (Entry D T) → Option PyStr → Lookup →
    Except PyErr Unit × List (Entry D T) × Lookup × Bool
  | _, [], _, s => (.ok (), [], s, false)
  | i, e :: es, name, s =>
    if e.id = 2001 then
      let d := C.emptyGlyph ctx.num_masters
      let key := keyFor (s.glyphs.map Prod.fst) (C.glyphName d)
      match objLoop C ctx src (i + 1) es (some key)
          { s with glyphs := s.glyphs ++ [(key, { source := src, entry := i })], order := s.order ++ [key] } with
      | (r, es', s', err) => (r, { e with data := .dec d } :: es', s', err)
    else if e.id = 2008 ∨ e.id = 2010 ∨ e.id = 1093 then
      match e.decompile C ctx with
      | (.error x, e', err) => (.error x, e' :: es, s, err)
      | (.ok (), e', _) =>
        match objLoop C ctx src (i + 1) es name (noteAux src i e.id name s) with
        | (r, es', s', err) => (r, e' :: es', s', err)
    else
      match objLoop C ctx src (i + 1) es name s with
      | (r, es', s', err) => (r, e :: es', s', err)

/-- a `Vfb` with the objects it has made — vfb/vfb.py:70-112; `reads` counts how often its entries have been replaced — 135-140,
231-292 -/
structure FontObj (D T : Type) where
  vfb : Vfb D T
  reads : Nat := 0
  look : Lookup := {}

/-- `if not self._glyphs: self._decompile_glyphs()` — vfb/vfb.py:189-190, 194-195, 222-223, 227-228 -/
def FontObj.prepare (C : Codec D T) (f : FontObj D T) : Except PyErr Unit × FontObj D T :=
  if f.look.glyphs = [] then
    match objLoop C f.vfb.ctx f.reads 0 f.vfb.entries none f.look with
    | (r, es, s, err) => (r, { f with look := s, vfb := { f.vfb with
        entries := es, glyphs := s.glyphs.map Prod.fst, any_errors := f.vfb.any_errors || err } })
  else (.ok (), f)

/-- calls on a font; those with an argument `m` are made on the font (`none`) or on a `VfbMaster` of it (`some i`) —
vfb/vfb.py:34-60, 188-229, 294-313 -/
inductive FontCall
  | contains (m : Option Int) (key : PyStr)
  | get (m : Option Int) (key : PyStr)
  | keys (m : Option Int)
  | items (m : Option Int)
  | order (m : Option Int)
  | psOptions (m : Option Int)
  | getMasters
  | read (file : Bytes)
  | decompile
  deriving DecidableEq, Repr

/-- what a call returns — vfb/vfb.py:34-60, 188-229; a `VfbGlyphMaster` is a glyph with the index of a master — vfb/glyph.py:362-366 -/
inductive Answer
  | bool (b : Bool)
  | glyph (o : GlyphObj)
  | glyphMaster (o : GlyphObj) (i : Int)
  | names (l : List PyStr)
  | items (l : List (PyStr × GlyphObj))
  | entry (r : Option (Nat × Nat))
  | masters (l : List Int)
  | nothing
  deriving DecidableEq, Repr

/-- a lookup after the preparation — vfb/vfb.py:189-191, 194-196, 222-224, 227-229 -/
def FontObj.lookup (C : Codec D T) (f : FontObj D T) (k : FontObj D T → Except PyErr Answer) : Except PyErr Answer × FontObj D T :=
  match f.prepare C with
  | (.error x, f') => (.error x, f')
  | (.ok (), f') => (k f', f')

/-- the calls: `__contains__` — vfb/vfb.py:188-191, 34-35; `__getitem__` — 193-199, 37-38, vfb/glyph.py:362-366; `keys`, `items` —
vfb/vfb.py:221-229, 48-52; the attributes `glyph_order`, `ps_hinting_options` — 40-42, 58-60; `get_masters` — 201-202;
`read`, `read_bytes` — 294-313; `decompile` — 204-219 -/
def FontObj.call (C : Codec D T) (f : FontObj D T) : FontCall → Except PyErr Answer × FontObj D T
  | .contains _ k => f.lookup C fun f' => .ok (.bool (f'.look.glyphs.any fun p => p.1 == k))
  | .get m k => f.lookup C fun f' =>
      match f'.look.glyphs.find? fun p => p.1 == k with
      | none => .error .key
      | some p => .ok (match m with
        | none => .glyph p.2
        | some i => .glyphMaster p.2 i)
  | .keys _ => f.lookup C fun f' => .ok (.names (f'.look.glyphs.map Prod.fst))
  | .items _ => f.lookup C fun f' => .ok (.items f'.look.glyphs)
  | .order _ => (.ok (.names f.look.order), f)
  | .psOptions _ => (.ok (.entry f.look.psOptions), f)
  | .getMasters => (.ok (.masters ((List.range f.vfb.ctx.num_masters.toNat).map Int.ofNat)), f)
  | .read file =>
      match f.vfb.readBytes C file with
      | (r, v) => (r.map fun _ => .nothing, { f with vfb := v, reads := f.reads + 1 })
  | .decompile =>
      match f.vfb.decompile C with
      | (r, v) => (r.map fun _ => .nothing, { f with vfb := v })

/-- a history of calls, each of them one of `FontObj.call` (vfb/vfb.py:34-60, 188-229, 294-313): the answers, and the font afterwards -/
def FontObj.run (C : Codec D T) (f : FontObj D T) : List FontCall → List (Except PyErr Answer) × FontObj D T
  | [] => ([], f)
  | c :: cs =>
    match f.call C c with
    | (a, f') => ((a :: (f'.run C cs).1), (f'.run C cs).2)

end Verif
