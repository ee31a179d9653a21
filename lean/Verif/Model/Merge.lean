import Verif.Model.Glyph
/-! Model of `GlyphCompiler.merge` — compilers/glyph.py:78-104 and `VfbEntry.merge_masters_data` — vfb/entry.py:233-248. -/
set_option autoImplicit false
namespace Verif

/-- the parts of the (temporary) glyph data that take part in merging; `none` = key absent
— compilers/glyph.py:84-104 -/
structure MasterData where
  nodes : Option (List MMNode)
  components : Option (List Component)
  deriving DecidableEq, Repr

/-- `tgt[key][m] = src[key][m]` for two lists: IndexError if one of them is too short
— compilers/glyph.py:90-93 -/
def copySlot {α : Type} (m : Nat) (src tgt : List α) : Except PyErr (List α) :=
  match src[m]? with
  | none => .error .index
  | some x => if m < tgt.length then .ok (tgt.set m x) else .error .index

/-- one node — compilers/glyph.py:90-93: what becomes of `tgt`, and the exception if there is one.  KeyError if a node
has no flags.  (In the code the points are then shared between both nodes; that is not modelled.) -/
def mergeNode (m : Nat) (src tgt : MMNode) : MMNode × Option PyErr :=
  if src.type ≠ tgt.type then (tgt, some .assertion)
  else match src.flags, tgt.flags with
    | some f, some f' =>
      if f ≠ f' then (tgt, some .assertion)
      else match copySlot m src.points tgt.points with
        | .ok l => ({ tgt with points := l }, none)
        | .error e => (tgt, some e)
    | _, _ => (tgt, some .key)

/-- one component — compilers/glyph.py:98-104: the four lists are changed one after the other, so that an exception
leaves some of them changed -/
def mergeComponent (m : Nat) (src tgt : Component) : Component × Option PyErr :=
  if src.gid ≠ tgt.gid then (tgt, some .assertion)
  else match copySlot m src.offsetX tgt.offsetX with
    | .error e => (tgt, some e)
    | .ok x =>
      let t1 := { tgt with offsetX := x }
      match copySlot m src.offsetY tgt.offsetY with
      | .error e => (t1, some e)
      | .ok y =>
        let t2 := { t1 with offsetY := y }
        match copySlot m src.scaleX tgt.scaleX with
        | .error e => (t2, some e)
        | .ok sx =>
          let t3 := { t2 with scaleX := sx }
          match copySlot m src.scaleY tgt.scaleY with
          | .error e => (t3, some e)
          | .ok sy => ({ t3 with scaleY := sy }, none)

/-- `for i, tgt in enumerate(tgts): src = srcs[i]; …` — compilers/glyph.py:88-89, 96-97: IndexError if there are fewer
sources than targets; surplus sources are ignored -/
def mergeItems {α : Type} (f : α → α → α × Option PyErr) : List α → List α → List α × Option PyErr
  | _, [] => ([], none)
  | [], t :: ts => (t :: ts, some .index)
  | s :: ss, t :: ts =>
    match f s t with
    | (t', some e) => (t' :: ts, some e)
    | (t', none) =>
      let r := mergeItems f ss ts
      (t' :: r.1, r.2)

/-- `if key in master_data: assert key in data; …` — compilers/glyph.py:86-88, 95-96 -/
def mergeKey {α : Type} (f : α → α → α × Option PyErr) (src tgt : Option (List α)) : Option (List α) × Option PyErr :=
  match src with
  | none => (tgt, none)
  | some ss =>
    match tgt with
    | none => (none, some .assertion)
    | some ts => ((mergeItems f ss ts).1, (mergeItems f ss ts).2)

/-- one master — compilers/glyph.py:84-104 -/
def mergeMaster (m : Nat) (src data : MasterData) : MasterData × Option PyErr :=
  let r := mergeKey (mergeNode m) src.nodes data.nodes
  match r.2 with
  | some e => ({ data with nodes := r.1 }, some e)
  | none =>
    let r' := mergeKey (mergeComponent m) src.components data.components
    (⟨r.1, r'.1⟩, r'.2)

/-- `for m in range(m, …)` over the remaining masters — compilers/glyph.py:78-104 -/
def mergeFrom (m : Nat) : List MasterData → MasterData → MasterData × Option PyErr
  | [], data => (data, none)
  | src :: rest, data =>
    match mergeMaster m src data with
    | (data', some e) => (data', some e)
    | (data', none) => mergeFrom (m + 1) rest data'

/-- `GlyphCompiler.merge(masters_data, data)` — compilers/glyph.py:78-104: the data afterwards and the exception.  The
first entry of `masters_data` is not looked at. -/
def mergeGlyph (masters : List MasterData) (data : MasterData) : MasterData × Option PyErr :=
  if masters.length < 2 then (data, none) else mergeFrom 1 masters.tail data

/-- `VfbEntry.merge_masters_data` — vfb/entry.py:233-248, for a glyph entry (whose compiler is not None) -/
def mergeMastersData (tempMasters : Option (List MasterData)) (vfbMasters : Nat) (data : MasterData) : MasterData × Option PyErr :=
  match tempMasters with
  | none => (data, none)
  | some masters => if vfbMasters = 1 then (data, none) else mergeGlyph masters data

end Verif
