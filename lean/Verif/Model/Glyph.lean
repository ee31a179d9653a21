import Verif.Model.Outline
import Verif.Model.Guides
/-! Model of the glyph entry: `parsers/glyph.py:135-423`, `compilers/glyph.py:77-313, 343-353`, `truetype.py`. -/
set_option autoImplicit false
namespace Verif

/-- The bytecode (dis)assembler of fontTools (`fontTools.ttLib.tables.ttProgram.Program`): `disassemble` is
`fromBytecode` + `getAssembly` (parsers/glyph.py:283-285), `assemble` is `fromAssembly` + `getBytecode`
(compilers/glyph.py:165-174), `isEmpty` tells whether an assembly is falsy (an empty list).  Parameters of the model. -/
structure AsmOps where
  Asm : Type
  disassemble : Bytes → Except PyErr Asm
  assemble : Asm → Except PyErr Bytes
  isEmpty : Asm → Bool

/-- `HintDict` as (pos, width) — typing.py:220-222 -/
abbrev Hint := Int × Int

/-- `MMHintsDict`; an absent direction is an empty list (compilers/glyph.py:239 does not distinguish them), `hintmasks`
may be absent -/
structure Hints where
  h : List (List Hint)
  v : List (List Hint)
  hintmasks : Option (List (PyStr × Int))
  deriving DecidableEq, Repr

/-- `Component` — typing.py:41-46 -/
structure Component where
  gid : Int
  offsetX : List Int
  offsetY : List Int
  scaleX : List Dbl
  scaleY : List Dbl
  deriving DecidableEq, Repr

/-- `Instruction` — typing.py:228-230 -/
structure Instruction where
  cmd : PyStr
  params : List (PyStr × Int)
  deriving DecidableEq, Repr

/-- a node of imported binary data — parsers/glyph.py:262-273 -/
structure ImpNode where
  flags : Int
  on : Int
  point : Point
  deriving DecidableEq, Repr

/-- the metrics of imported binary data — parsers/glyph.py:239-246 (the keys are set together; a dict in which only some of
them are missing is not represented) -/
structure ImpMetrics where
  width : Int
  lsb : Int
  unknown1 : Int
  unknown2 : Int
  unknown3 : Int
  bbox : List Int
  deriving DecidableEq, Repr

/-- `imported`; `none` = key absent — parsers/glyph.py:228-301 -/
structure Imported (ASM : Type) where
  metrics : Option ImpMetrics
  numContours : Option Int
  endpoints : Option (List Int)
  nodes : Option (List ImpNode)
  instructions : Option ASM
  hdmx : Option (List Int)
  deriving DecidableEq

/-- `GlyphData`; `none` = key absent.  The order of the keys is not represented (it does not matter for the equality of
dictionaries). — typing.py:386-398 -/
structure Glyph (A ASM : Type) where
  name : Option PyStr
  numMasters : Option Int
  nodes : Option (List MMNode)
  metrics : Option (List Point)
  hints : Option Hints
  guides : Option (MMGuides A)
  components : Option (List Component)
  kerning : Option (List (Int × List Int))
  imported : Option (Imported ASM)
  tth : Option (List Instruction)
  deriving DecidableEq

/-- `GlyphData()` — typing.py:386-398 -/
def Glyph.empty (A ASM : Type) : Glyph A ASM := ⟨none, none, none, none, none, none, none, none, none, none⟩

/-- `Imported` as `{}` — parsers/glyph.py:228-230 -/
def Imported.empty (ASM : Type) : Imported ASM := ⟨none, none, none, none, none, none⟩

/-! ### parser -/

section
variable (ops : AngleOps) (asm : AsmOps)

/-- `self.num_masters` in a `range`: AttributeError before the outlines have been parsed
— parsers/glyph.py:368-376 -/
def mastersOf (g : Glyph ops.Angle asm.Asm) : R Nat :=
  match g.numMasters with
  | none => R.throw .attr
  | some n => pure n.toNat

/-- `parse_metrics` — parsers/glyph.py:368-376 -/
def readMetrics (g : Glyph ops.Angle asm.Asm) : R (List Point) := do
  let n ← mastersOf ops asm g
  R.rep n readPair

/-- one direction of the hints — parsers/glyph.py:322-330 -/
def readHintDir (g : Glyph ops.Angle asm.Asm) : R (List (List Hint)) := do
  let num ← readValue
  R.forRange num (do
    let n ← mastersOf ops asm g
    R.rep n readPair)

/-- `replace_types[k]` — __init__.py:24-30 -/
def replaceType (k : Int) : Except PyErr PyStr :=
  if k = 0x01 then .ok (lit "h")
  else if k = 0x02 then .ok (lit "v")
  else if k = 0xFF then .ok (lit "r")
  else .error .key

/-- one hint mask — parsers/glyph.py:336-339 -/
def readHintmask : R (PyStr × Int) := do
  let k ← readU8
  let val ← readValue
  let key ← R.lift (replaceType k)
  pure (key, val)

/-- `parse_hints` — parsers/glyph.py:320-344: `none` if there is nothing to set -/
def readHints (g : Glyph ops.Angle asm.Asm) : R (Option Hints) := do
  let h ← readHintDir ops asm g
  let v ← readHintDir ops asm g
  let num ← readValue
  let masks ← R.forRange num readHintmask
  let masks' := unlessEmpty masks
  pure (if v.isEmpty && h.isEmpty && masks'.isNone then none else some ⟨h, v, masks'⟩)

/-- `parse_guides` — parsers/glyph.py:222-226: needs the number of masters and the name -/
def readGlyphGuides (g : Glyph ops.Angle asm.Asm) : R (MMGuides ops.Angle) := do
  let n ← mastersOf ops asm g
  match g.name with
  | none => R.throw .attr
  | some _ => parseGuides ops n

/-- one master of a component — parsers/glyph.py:310-316 -/
def readComponentMaster : R (Int × Int × Dbl × Dbl) := do
  let x ← readValue
  let y ← readValue
  let ds ← readDoubles 2
  match ds with
  | [a, b] => pure (x, y, a, b)
  | _ => R.throw .value

/-- one component — parsers/glyph.py:307-317 -/
def readComponent (g : Glyph ops.Angle asm.Asm) : R Component := do
  let gid ← readValue
  let n ← mastersOf ops asm g
  let l ← R.rep n readComponentMaster
  pure ⟨gid, l.map (·.1), l.map (·.2.1), l.map (·.2.2.1), l.map (·.2.2.2)⟩

/-- `parse_components` — parsers/glyph.py:303-318 -/
def readComponents (g : Glyph ops.Angle asm.Asm) : R (List Component) := do
  let num ← readValue
  R.forRange num (readComponent ops asm g)

/-- one kerning pair — parsers/glyph.py:417-422 -/
def readKernPair (g : Glyph ops.Angle asm.Asm) : R (Int × List Int) := do
  let gid ← readValue
  let n ← mastersOf ops asm g
  let values ← R.rep n readValue
  pure (gid, values)

/-- `parse_kerning` — parsers/glyph.py:412-423: a dict, so the last pair with a glyph index counts -/
def readKerning (g : Glyph ops.Angle asm.Asm) : R (List (Int × List Int)) := do
  let num ← readValue
  let l ← R.forRange num (readKernPair ops asm g)
  pure (l.foldl (fun d p => dictSet d p.1 p.2) [])

/-- `TT_COMMANDS` — truetype.py:3-46: id, name, parameter names -/
def ttCommands : List (Int × PyStr × List PyStr) :=
  [(0x01, lit "AlignTop", [lit "pt", lit "zone"]),
   (0x02, lit "AlignBottom", [lit "pt", lit "zone"]),
   (0x03, lit "SingleLinkH", [lit "pt1", lit "pt2", lit "stem", lit "align"]),
   (0x04, lit "SingleLinkV", [lit "pt1", lit "pt2", lit "stem", lit "align"]),
   (0x05, lit "DoubleLinkH", [lit "pt1", lit "pt2", lit "stem"]),
   (0x06, lit "DoubleLinkV", [lit "pt1", lit "pt2", lit "stem"]),
   (0x07, lit "AlignH", [lit "pt", lit "align"]),
   (0x08, lit "AlignV", [lit "pt", lit "align"]),
   (0x0D, lit "InterpolateH", [lit "pti", lit "pt1", lit "pt2", lit "align"]),
   (0x0E, lit "InterpolateV", [lit "pti", lit "pt1", lit "pt2", lit "align"]),
   (0x14, lit "MDeltaH", [lit "pt", lit "shift", lit "ppm1", lit "ppm2"]),
   (0x15, lit "MDeltaV", [lit "pt", lit "shift", lit "ppm1", lit "ppm2"]),
   (0x16, lit "FDeltaH", [lit "pt", lit "shift", lit "ppm1", lit "ppm2"]),
   (0x17, lit "FDeltaV", [lit "pt", lit "shift", lit "ppm1", lit "ppm2"])]

/-- one instruction — parsers/glyph.py:352-359 -/
def readInstruction : R Instruction := do
  let cmd ← readU8
  match dictGet ttCommands cmd with
  | none => R.throw .key
  | some c => do
    let params ← R.rep c.2.length readValue
    pure ⟨c.1, c.2.zip params⟩

/-- `parse_instructions` — parsers/glyph.py:346-366 -/
def readInstructions : R (Option (List Instruction)) := do
  let _ ← readValue
  let num ← readValue
  let l ← R.forRange num readInstruction
  let _ ← R.rep 3 readValue
  pure (unlessEmpty l)

/-- a node of imported data, from the previous point — parsers/glyph.py:256-274 -/
def readImpNodes : Nat → Point → R (List ImpNode)
  | 0, _ => pure []
  | n + 1, p => do
    let d ← readPair
    let flags ← readU8
    let q : Point := (p.1 + d.1, p.2 + d.2)
    let rest ← readImpNodes n q
    pure (⟨flags, flags % 2, q⟩ :: rest)

/-- one key of the imported data — parsers/glyph.py:231-301 -/
def impBody (d : Imported asm.Asm) : R (Imported asm.Asm ⊕ Imported asm.Asm) := do
  let key ← readU8
  if key = 0x28 then pure (.inr d)
  else if key = 0x29 then do
    let width ← readValue false
    let lsb ← readValue
    let u1 ← readValue
    let u2 ← readValue
    let u3 ← readValue
    let bbox ← R.rep 4 readValue
    pure (.inl { d with metrics := some ⟨width, lsb, u1, u2, u3, bbox⟩ })
  else if key = 0x2A then do
    let numContours ← readValue
    let endpoints ← R.forRange numContours (readValue false)
    let numNodes ← readValue false
    let nodes ← readImpNodes numNodes.toNat (0, 0)
    pure (.inl { d with
      numContours := some numContours
      endpoints := some endpoints
      nodes := if nodes.isEmpty then d.nodes else some nodes })
  else if key = 0x2B then do
    let numBytes ← readValue false
    let b ← R.readN numBytes
    let a ← R.lift (asm.disassemble b)
    pure (.inl { d with instructions := some a })
  else if key = 0x2C then do
    let num ← readValue
    let l ← R.forRange num readU8
    pure (.inl { d with hdmx := some l })
  else R.throw .value

/-- `parse_binary` — parsers/glyph.py:228-301 -/
def readImported : R (Imported asm.Asm) := R.whileTrue (impBody asm) (Imported.empty asm.Asm)

/-- one section of the glyph — parsers/glyph.py:164-218.  At the end of the stream `read_uint8` gives 0, which is not
handled: ValueError. -/
def glyphBody (g : Glyph ops.Angle asm.Asm) : R (Glyph ops.Angle asm.Asm ⊕ Glyph ops.Angle asm.Asm) := do
  let v ← readU8
  if v = 0x01 then do
    let name ← readStrWithLen
    pure (.inl { g with name := some name })
  else if v = 0x02 then do
    let m ← readMetrics ops asm g
    pure (.inl { g with metrics := some m })
  else if v = 0x03 then do
    let h ← readHints ops asm g
    pure (.inl { g with hints := if h.isNone then g.hints else h })
  else if v = 0x04 then do
    let gd ← readGlyphGuides ops asm g
    pure (.inl { g with guides := some gd })
  else if v = 0x05 then do
    let c ← readComponents ops asm g
    pure (.inl { g with components := some c })
  else if v = 0x06 then do
    let k ← readKerning ops asm g
    pure (.inl { g with kerning := some k })
  else if v = 0x07 then pure (.inl g)
  else if v = 0x08 then do
    let o ← readOutlines
    pure (.inl { g with numMasters := some o.1, nodes := some o.2 })
  else if v = 0x09 then do
    let i ← readImported asm
    pure (.inl { g with imported := some i })
  else if v = 0x0A then do
    let t ← readInstructions
    pure (.inl { g with tth := if t.isNone then g.tth else t })
  else if v = 0x0F then pure (.inr g)
  else R.throw .value

/-- `GlyphParser._parse` — parsers/glyph.py:135-220: `unpack("<4B", …)` raises struct.error if fewer than four bytes are
left; other constants are only logged -/
def parseGlyph : R (Glyph ops.Angle asm.Asm) := do
  let start ← R.readN 4
  if start.length ≠ 4 then R.throw .structError
  else R.whileTrue (glyphBody ops asm) (Glyph.empty ops.Angle asm.Asm)

/-! ### compiler -/

/-- `if not (x := data.get(k)): return` for a value with a length — compilers/glyph.py:186-313 -/
def section_ {α : Type} (x : Option (List α)) (f : List α → W) : W :=
  match x with
  | none => W.nil
  | some [] => W.nil
  | some (a :: l) => f (a :: l)

/-- `_compile_glyph_name` — compilers/glyph.py:201-211 (the length is written as a signed value) -/
def writeName (name : Option PyStr) : W := section_ name fun s =>
  writeU8 1 ++ W.withVal (encode1252 s) fun enc => writeValue enc.length ++ (.ok enc : W)

/-- `[l[i] for i in range(n)]`: IndexError if `l` is too short — compilers/glyph.py:287-296 -/
def takeExact {α : Type} (n : Nat) (l : List α) : Except PyErr (List α) := if n ≤ l.length then .ok (l.take n) else .error .index

/-- `_compile_metrics` — compilers/glyph.py:287-296.  (If there are two reasons for an exception, the code may raise the other
one; the same holds for the following functions.) -/
def writeMetrics (n : Nat) (metrics : Option (List Point)) : W := section_ metrics fun l =>
  writeU8 2 ++ W.withVal (takeExact n l) fun l => W.all l fun p => writeValue p.1 ++ writeValue p.2

/-- one direction of the hints — compilers/glyph.py:239-247 -/
def writeHintDir (n : Nat) (l : List (List Hint)) : W :=
  writeValue l.length ++ W.all l fun mm => W.withVal (takeExact n mm) fun mm => W.all mm fun p => writeValue p.1 ++ writeValue p.2

/-- one hint mask — compilers/glyph.py:254-261 -/
def writeHintmask (m : PyStr × Int) : W :=
  if m.1 = lit "h" then writeU8 0x01 ++ writeValue m.2
  else if m.1 = lit "v" then writeU8 0x02 ++ writeValue m.2
  else if m.1 = lit "r" then writeU8 0xFF ++ writeValue m.2
  else .error .key

/-- `_compile_hints` — compilers/glyph.py:229-261 -/
def writeHints (n : Nat) (hints : Option Hints) : W :=
  match hints with
  | none => W.nil
  | some d => writeU8 3 ++ (writeHintDir n d.h ++ (writeHintDir n d.v ++
      (writeValue (d.hintmasks.getD []).length ++ W.all (d.hintmasks.getD []) writeHintmask)))

/-- `_compile_guides` — compilers/glyph.py:213-227; the number of masters is that of the font -/
def writeGlyphGuides (vfbMasters : Nat) (guides : Option (MMGuides ops.Angle)) : W :=
  match guides with
  | none => W.nil
  | some d => writeU8 4 ++ compileGuides ops vfbMasters d

/-- one master of a component — compilers/glyph.py:195-199 -/
def writeComponentMaster (c : Component) (i : Nat) : W :=
  match c.offsetX[i]?, c.offsetY[i]?, c.scaleX[i]?, c.scaleY[i]? with
  | some x, some y, some sx, some sy => writeValue x ++ (writeValue y ++ writeDoubles [sx, sy])
  | _, _, _, _ => .error .index

/-- `_compile_components` — compilers/glyph.py:186-199 -/
def writeComponents (n : Nat) (components : Option (List Component)) : W := section_ components fun l =>
  writeU8 5 ++ (writeValue l.length ++ W.all l fun c => writeValue c.gid ++ W.all (List.range n) (writeComponentMaster c))

/-- `_compile_kerning` — compilers/glyph.py:275-285: all values of each pair are written -/
def writeKerning (kerning : Option (List (Int × List Int))) : W := section_ kerning fun d =>
  writeU8 6 ++ (writeValue d.length ++ W.all d fun p => writeValue p.1 ++ W.all p.2 fun v => writeValue v)

/-- one instruction — compilers/glyph.py:346-353: KeyError for an unknown command or a missing parameter -/
def writeInstruction (i : Instruction) : W :=
  match ttCommands.find? (fun c => c.2.1 == i.cmd) with
  | none => .error .key
  | some c => writeU8 c.1 ++ W.all c.2.2 fun p =>
      match dictGet i.params p with
      | some v => writeValue v
      | none => .error .key

/-- `InstructionsCompiler._compile` — compilers/glyph.py:343-353 -/
def compileInstructions (l : List Instruction) : W :=
  writeValue l.length ++ (W.all l writeInstruction ++ W.all [0, 0, 0] fun v => writeValue v)

/-- `_compile_instructions` — compilers/glyph.py:263-273 -/
def writeInstructions (tth : Option (List Instruction)) : W := section_ tth fun l =>
  writeU8 0x0A ++ W.withVal (compileInstructions l) fun b => writeValue b.length ++ (.ok b : W)

/-- the nodes of imported data — compilers/glyph.py:155-161 -/
def writeImpNodes : Point → List ImpNode → W
  | _, [] => W.nil
  | p, nd :: rest => (writeValue (nd.point.1 - p.1) ++ writeValue (nd.point.2 - p.2)) ++ (writeU8 nd.flags ++ writeImpNodes nd.point rest)

/-- metrics of imported data — compilers/glyph.py:129-136: KeyError if they are absent -/
def writeImpMetrics (m : Option ImpMetrics) : W :=
  match m with
  | none => .error .key
  | some m => writeValue m.width false ++ (writeValue m.lsb ++ (writeValue m.unknown1 ++ (writeValue m.unknown2 ++ (writeValue m.unknown3 ++
      W.all m.bbox fun v => writeValue v))))

/-- outlines of imported data — compilers/glyph.py:138-161: KeyError if the number of contours is absent; if it differs from the
number of endpoints, that is only logged -/
def writeImpOutlines (d : Imported asm.Asm) : W :=
  match d.numContours with
  | none => .error .key
  | some nc => writeValue nc ++ (W.all (d.endpoints.getD []) (fun v => writeValue v false) ++
      (writeValue (d.nodes.getD []).length false ++ writeImpNodes (0, 0) (d.nodes.getD [])))

/-- instructions of imported data — compilers/glyph.py:165-174 -/
def writeImpInstructions (a : Option asm.Asm) : W :=
  match a with
  | none => writeValue 0 false
  | some a => if asm.isEmpty a then writeValue 0 false
    else W.withVal (asm.assemble a) fun b => writeValue b.length false ++ (.ok b : W)

/-- `if not (imported := data.get("imported"))` — the dict has no keys
— compilers/glyph.py:122-127 -/
def Imported.isEmpty {ASM : Type} (d : Imported ASM) : Bool :=
  d.metrics.isNone && d.numContours.isNone && d.endpoints.isNone && d.nodes.isNone && d.instructions.isNone && d.hdmx.isNone

/-- `_compile_binary` — compilers/glyph.py:122-184 -/
def writeImported (imported : Option (Imported asm.Asm)) : W :=
  match imported with
  | none => W.nil
  | some d => if d.isEmpty then W.nil else
    writeU8 9 ++ ((writeU8 0x29 ++ writeImpMetrics d.metrics) ++ ((writeU8 0x2A ++ writeImpOutlines asm d) ++
      ((writeU8 0x2B ++ writeImpInstructions asm d.instructions) ++
        ((writeU8 0x2C ++ (writeValue (d.hdmx.getD []).length false ++ W.all (d.hdmx.getD []) writeU8)) ++ writeU8 0x28))))

/-- `GlyphCompiler._compile` — compilers/glyph.py:106-120; `vfbMasters` is `self.vfb.num_masters`; KeyError without
`num_masters` -/
def compileGlyph (vfbMasters : Nat) (g : Glyph ops.Angle asm.Asm) : W :=
  match g.numMasters with
  | none => .error .key
  | some nm =>
    (.ok [1, 9, 7, 1] : W) ++ (writeName g.name ++ ((writeU8 8 ++ writeOutlines nm (g.nodes.getD [])) ++ (writeMetrics nm.toNat g.metrics ++
      (writeHints nm.toNat g.hints ++ (writeGlyphGuides ops vfbMasters g.guides ++ (writeComponents nm.toNat g.components ++
        (writeKerning g.kerning ++ (writeImported asm g.imported ++ (writeInstructions g.tth ++ writeU8 15)))))))))

end

end Verif
