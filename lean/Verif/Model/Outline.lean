import Verif.Model.GlyphEntries
/-! Model of outlines: `parsers/glyph.py:37-60, 378-410`, `compilers/glyph.py:298-313, 356-381`; and of the masks that
consist of outlines (`parsers/glyph.py:465-482`, `compilers/glyph.py:394-409`). -/
set_option autoImplicit false
namespace Verif

/-- `PathCommand` — parsers/glyph.py:37-41.  (In the data the type is the name of the command; other strings, which
raise KeyError in the compiler, are not represented.) -/
inductive PathCommand where
  | move | line | curve | qcurve
  deriving DecidableEq, Repr

/-- `PathCommand[…].value` — parsers/glyph.py:37-41 -/
def PathCommand.value : PathCommand → Int
  | .move => 0
  | .line => 1
  | .curve => 3
  | .qcurve => 4

/-- `PathCommand(v)`: ValueError for an unknown value — parsers/glyph.py:393-408 -/
def PathCommand.ofValue (v : Int) : Except PyErr PathCommand :=
  if v = 0 then .ok .move
  else if v = 1 then .ok .line
  else if v = 3 then .ok .curve
  else if v = 4 then .ok .qcurve
  else .error .value

/-- `Point` — typing.py:3 -/
abbrev Point := Int × Int

/-- `MMNode`: for each master a list of points; `flags` may be absent when compiling
— typing.py:256-259 -/
structure MMNode where
  type : PathCommand
  flags : Option Int
  points : List (List Point)
  deriving DecidableEq, Repr

/-- `read_absolute_point` — parsers/glyph.py:44-60: from the reference coordinates of all masters to the new
reference coordinates, which are also the points that are added -/
def readAbsolutePoint (refs : List Point) : R (List Point) :=
  R.forEach refs fun ref => do
    let rel ← readPair
    pure (ref.1 + rel.1, ref.2 + rel.2)

/-- `points[m].append(…)` for all masters — parsers/glyph.py:60 -/
def appendRow (points : List (List Point)) (row : List Point) : List (List Point) := List.zipWith (fun l p => l ++ [p]) points row

/-- one node — parsers/glyph.py:393-408; returns the node and the new reference coordinates -/
def readNode (refs : List Point) : R (MMNode × List Point) := do
  let byte ← readU8
  let cmd ← R.lift (PathCommand.ofValue (byte % 16))
  let p1 ← readAbsolutePoint refs
  if cmd = .curve then do
    let p2 ← readAbsolutePoint p1
    let p3 ← readAbsolutePoint p2
    pure (⟨cmd, some (byte / 16), appendRow (appendRow (appendRow (refs.map fun _ => []) p1) p2) p3⟩, p3)
  else pure (⟨cmd, some (byte / 16), appendRow (refs.map fun _ => []) p1⟩, p1)

/-- the loop over the nodes — parsers/glyph.py:392-408 -/
def readNodes : Nat → List Point → R (List MMNode)
  | 0, _ => pure []
  | n + 1, refs => do
    let r ← readNode refs
    let rest ← readNodes n r.2
    pure (r.1 :: rest)

/-- `GlyphParser.parse_outlines` — parsers/glyph.py:378-410: the number of masters and the nodes -/
def readOutlines : R (Int × List MMNode) := do
  let numMasters ← readValue false
  let _ ← readValue
  let numNodes ← readValue
  let nodes ← readNodes numNodes.toNat (List.replicate numMasters.toNat (0, 0))
  pure (numMasters, nodes)

/-- `[points[i][j] for i in range(n)]` — compilers/glyph.py:372-375; IndexError if one of them is missing -/
def column (j : Nat) : Nat → List (List Point) → Except PyErr (List Point)
  | 0, _ => .ok []
  | _ + 1, [] => .error .index
  | n + 1, ps :: rest =>
    match ps[j]? with
    | none => .error .index
    | some p => match column j n rest with
      | .ok row => .ok (p :: row)
      | .error e => .error e

/-- the inner loop over the masters — compilers/glyph.py:373-380: the differences to the reference coordinates.
(All points of the row are looked up before the first of them is written; if there are two reasons for an exception,
the code may raise the other one.) -/
def writeRow (refs row : List Point) : W :=
  W.all (refs.zip row) fun q => writeValue (q.2.1 - q.1.1) ++ writeValue (q.2.2 - q.1.2)

/-- the loop `for j in range(len(node["points"][0]))` from `j` on, `k` steps — compilers/glyph.py:371-380; then `next`
with the new reference coordinates -/
def writeRows (n : Nat) (points : List (List Point)) (next : List Point → W) : Nat → Nat → List Point → W
  | 0, _, refs => next refs
  | k + 1, j, refs => W.withVal (column j n points) fun row => writeRow refs row ++ writeRows n points next k (j + 1) row

/-- the loop over the nodes — compilers/glyph.py:366-380; `node["points"][0]` raises IndexError on an empty list -/
def writeNodes (n : Nat) : List Point → List MMNode → W
  | _, [] => W.nil
  | refs, node :: rest =>
    writeU8 (node.flags.getD 0 * 16 + node.type.value) ++
    match node.points with
    | [] => .error .index
    | ps :: _ => writeRows n node.points (fun refs' => writeNodes n refs' rest) ps.length 0 refs

/-- the number that is returned — compilers/glyph.py:363-381, 370, 378, 381 -/
def numOutlineValues (n : Nat) (nodes : List MMNode) : Nat :=
  2 * (nodes.map fun node => 1 + 2 * n * (node.points.headD []).length).sum

/-- `GlyphCompiler.compile_outlines(data, write_key=False)` — compilers/glyph.py:298-313, 356-381 -/
def writeOutlines (numMasters : Int) (nodes : List MMNode) : W :=
  writeValue numMasters ++
  (if nodes = [] then writeValue 0 ++ writeValue 0
   else writeValue (numOutlineValues numMasters.toNat nodes) ++
    (writeValue nodes.length ++ writeNodes numMasters.toNat (List.replicate numMasters.toNat (0, 0)) nodes))

/-! ### masks -/

/-- the dict of a global mask: `num_masters`, `nodes` (`None` or an absent key: an empty list)
— parsers/glyph.py:478-482 -/
structure GlobalMask where
  numMasters : Int
  nodes : List MMNode
  deriving DecidableEq, Repr

/-- `GlobalMaskParser._parse` — parsers/glyph.py:478-482 -/
def parseGlobalMask : R GlobalMask := do
  let o ← readOutlines
  pure ⟨o.1, o.2⟩
/-- `GlobalMaskCompiler._compile` — compilers/glyph.py:405-408 -/
def compileGlobalMask (m : GlobalMask) : W := writeOutlines m.numMasters m.nodes

/-- `MaskData`; the weights are doubles, see `Model/Float.lean` — typing.py:401-402 -/
structure Mask where
  weights : List Rat
  numMasters : Int
  nodes : List MMNode
  deriving DecidableEq

/-- one weight — parsers/glyph.py:470 -/
def readWeight : R Rat := do
  let v ← readValue
  pure (fdiv v 100000000)

/-- `MaskParser._parse` — parsers/glyph.py:465-475 -/
def parseMask : R Mask := do
  let num ← readValue
  let weights ← R.forRange num readWeight
  let o ← readOutlines
  pure ⟨weights, o.1, o.2⟩

/-- `MaskCompiler._compile` — compilers/glyph.py:394-402 -/
def compileMask (m : Mask) : W :=
  (writeValue m.weights.length ++ W.all m.weights fun x => writeValue (roundEven (fmul x 100000000))) ++
  writeOutlines m.numMasters m.nodes

end Verif
