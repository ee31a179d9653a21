import Verif.Model.UfoHints
/-! Model of the hints of a VFB glyph (vfb/glyph.py).  Log messages are not modelled. -/
set_option autoImplicit false
namespace Verif

/-- `VfbGlyph.resolve_links()` — vfb/glyph.py:159-196: "h" and "v"; `links` is `none` if there is no entry with links -/
def resolveLinks (g : HintGlyph) (master : Nat) : Except PyErr (List Stem × List Stem) :=
  match g.links with
  | none => .ok ([], [])
  | some (lx, ly) =>
    if lx.isEmpty && ly.isEmpty then .ok ([], [])
    else
      lx.mapM (linkToHint g.nodes master 0) >>= fun vl =>
      ly.mapM (linkToHint g.nodes master 1) >>= fun hl =>
      .ok (hl, vl)

/-- the hints of one direction — vfb/glyph.py:145-150 -/
def resolveDirection (hints : List (List (Int × Int))) (name : PyStr) (master : Nat) : Except PyErr (List Stem) :=
  hints.mapM fun mm => pyIndex mm master >>= fun x => .ok (normalizeHintDict x name)

/-- `VfbGlyph.resolve_hints()` — vfb/glyph.py:139-157.  (If the entry has no hints, `g.h` and `g.v` are empty.) -/
def resolveHints (g : HintGlyph) (master : Nat) : Except PyErr (List Stem × List Stem) :=
  resolveDirection g.h (lit "hstem") master >>= fun hs =>
  resolveDirection g.v (lit "vstem") master >>= fun vs =>
  resolveLinks g master >>= fun links =>
  .ok (hs ++ links.1, vs ++ links.2)

/-- the variables of `resolve_hint_sets` — vfb/glyph.py:113-137 -/
structure SetState where
  sets : List (Int × List Stem)
  index : Int
  stems : List Stem
  deriving DecidableEq, Repr

/-- a finished hint set — vfb/glyph.py:123-126, 132-134 -/
def SetState.close (st : SetState) : List (Int × List Stem) :=
  if st.stems.isEmpty then st.sets else dictSet st.sets st.index st.stems

/-- one mask — vfb/glyph.py:121-131: KeyError for an unknown kind, IndexError if there is no such hint -/
def setStep (hs vs : List Stem) (st : SetState) (mask : PyStr × Int) : Except PyErr SetState :=
  if mask.1 = lit "r" then .ok ⟨st.close, mask.2, []⟩
  else if mask.1 = lit "h" then pyIndex hs mask.2 >>= fun x => .ok { st with stems := st.stems ++ [x] }
  else if mask.1 = lit "v" then pyIndex vs mask.2 >>= fun x => .ok { st with stems := st.stems ++ [x] }
  else .error .key

/-- `VfbGlyph.resolve_hint_sets()` — vfb/glyph.py:113-137 -/
def resolveHintSets (g : HintGlyph) (master : Nat) : Except PyErr (List (Int × List Stem)) :=
  resolveHints g master >>= fun hints =>
  if g.masks.isEmpty then .ok [(0, hints.1 ++ hints.2)]
  else g.masks.foldlM (setStep hints.1 hints.2) ⟨[], 0, []⟩ >>= fun st => .ok st.close

end Verif
