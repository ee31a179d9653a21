import Verif.Model.Mapping
/-! Specification vocabulary for C102: which entries belong to which glyph.  `ids` are the ids of the entries in the order of the file. -/
set_option autoImplicit false
namespace Verif.Spec
open Verif

/-- The glyph entry before position `j` is at position `g`. -/
def GlyphBefore (ids : List Int) (g j : Nat) : Prop :=
  g < j ∧ ids[g]? = some 2001 ∧ ∀ k, g < k → k < j → ids[k]? ≠ some 2001

/-- `j` is the last entry with this id that belongs to the glyph entry at position `g`. -/
def LastOf (ids : List Int) (id : Int) (g j : Nat) : Prop :=
  ids[j]? = some id ∧ GlyphBefore ids g j ∧ ∀ j', j < j' → ids[j']? = some id → ¬ GlyphBefore ids g j'

/-- The objects stand for the glyph entries, in their order, each with its links (2008) and hinting options (2010), the last ones if there
are several; the hinting options of the font (1093) are the last ones in the file. -/
structure Mirrors (src : Nat) (ids : List Int) (s : Lookup) : Prop where
  /-- all keys are different -/
  distinct : (s.glyphs.map Prod.fst).Nodup
  order : s.order = s.glyphs.map Prod.fst
  /-- one object for each glyph entry, in the order of the file -/
  entries : ∀ i : Nat, ids[i]? = some 2001 ↔ i ∈ s.glyphs.map fun p => p.2.entry
  sorted : (s.glyphs.map fun p => p.2.entry).Pairwise (· < ·)
  source : ∀ p ∈ s.glyphs, p.2.source = src
  links : ∀ p ∈ s.glyphs, ∀ j, p.2.links = some j ↔ LastOf ids 2008 p.2.entry j
  options : ∀ p ∈ s.glyphs, ∀ j, p.2.options = some j ↔ LastOf ids 2010 p.2.entry j
  psOptions : ∀ r, s.psOptions = some r ↔
    r.1 = src ∧ ids[r.2]? = some 1093 ∧ ∀ j', r.2 < j' → ids[j']? ≠ some 1093

/-- An entry that `_decompile_glyphs` cannot decompile: links or hinting options without data or with data that cannot be parsed. -/
def Unreadable {D T : Type} (C : Codec D T) (ctx : Ctx) (e : Entry D T) : Prop :=
  e.id ∈ [(2008 : Int), 2010, 1093] ∧ (e.data = .none ∨ ∃ b x, e.data = .bytes b ∧ parseEntry (C.parse e.id ctx) b = .error x)

/-- the keys of a font with `n` glyphs: the empty name, `#1`, `#2`, … -/
def numberedKeys : Nat → List PyStr
  | 0 => []
  | n + 1 => [] :: (List.range n).map fun i => lit "#" ++ natDec (i + 1)

/-- `a` is the right answer to the call, if the font holds the objects `s`. -/
inductive Answers (s : Lookup) : FontCall → Except PyErr Answer → Prop
  /-- `name in font`, the same for each master -/
  | contains (m : Option Int) (k : PyStr) (b : Bool) (h : b = true ↔ k ∈ s.glyphs.map Prod.fst) : Answers s (.contains m k) (.ok (.bool b))
  /-- `font[name]` -/
  | get (k : PyStr) (o : GlyphObj) (h : (k, o) ∈ s.glyphs) : Answers s (.get none k) (.ok (.glyph o))
  /-- `master[name]` is the same glyph, with the index of the master -/
  | getMaster (i : Int) (k : PyStr) (o : GlyphObj) (h : (k, o) ∈ s.glyphs) : Answers s (.get (some i) k) (.ok (.glyphMaster o i))
  /-- a KeyError for any other name -/
  | missing (m : Option Int) (k : PyStr) (h : k ∉ s.glyphs.map Prod.fst) : Answers s (.get m k) (.error .key)
  | keys (m : Option Int) : Answers s (.keys m) (.ok (.names (s.glyphs.map Prod.fst)))
  | items (m : Option Int) : Answers s (.items m) (.ok (.items s.glyphs))
  | order (m : Option Int) : Answers s (.order m) (.ok (.names s.order))
  | psOptions (m : Option Int) : Answers s (.psOptions m) (.ok (.entry s.psOptions))
  /-- these are no lookups -/
  | getMasters (a : Except PyErr Answer) : Answers s .getMasters a
  | read (file : Bytes) (a : Except PyErr Answer) : Answers s (.read file) a
  | decompile (a : Except PyErr Answer) : Answers s .decompile a

/-- calls that look glyphs up (and do not just return an attribute) -/
def looksUp : FontCall → Bool
  | .contains _ _ => true
  | .get _ _ => true
  | .keys _ => true
  | .items _ => true
  | _ => false

end Verif.Spec
