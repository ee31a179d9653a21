import Verif.Model.Cmdline
import Verif.Model.Json
import Verif.Model.VfbSession
/-! Model of the command `vfbcu2qu` (`cu2qu.py`) and of `VfbInfo` (`vfb/info.py`), for C92 and C93.  The function `fonts_to_quadratic` of fontTools is
modelled as far as it calls vfbLib: it asks for the units per em, the glyph names and the outlines.  Whether it finds something to convert in the
outlines of a glyph, and what the fonts look like after the conversion, is a parameter (`QuadOps`). -/
set_option autoImplicit false
namespace Verif

/-! ### VfbInfo -/

/-- a `Vfb` and its `info` with the cached property `unitsPerEm`: `some none` is the 0 that is cached when there is no such entry
— vfb/info.py:12-20 -/
structure InfoFont (D T : Type) where
  vfb : Vfb D T
  upm : Option (Option D) := none

/-- the search for the entry — vfb/info.py:14-20: the first entry with the key "upm" is decompiled; the result, the entries, and whether `any_errors`
was set.  (`entry.data` is not `None` after `decompile()`.) -/
def findUpm {D T : Type} (C : Codec D T) (ctx : Ctx) : List (Entry D T) → Except PyErr (Option D) × List (Entry D T) × Bool
  | [] => (.ok none, [], false)
  | e :: es =>
    if entryKey e.id = lit "upm" then
      match e.decompile C ctx with
      | (.error x, e', err) => (.error x, e' :: es, err)
      | (.ok (), e', _) =>
        match e'.data with
        | .dec d => (.ok (some d), e' :: es, false)
        | _ => (.ok none, e' :: es, false)
    else
      match findUpm C ctx es with
      | (r, es', err) => (r, e :: es', err)

/-- `vfb.info.unitsPerEm` — vfb/info.py:12-20, a cached property: an exception is not cached -/
def InfoFont.unitsPerEm {D T : Type} (C : Codec D T) (f : InfoFont D T) : Except PyErr (Option D) × InfoFont D T :=
  match f.upm with
  | some r => (.ok r, f)
  | none =>
    match findUpm C f.vfb.ctx f.vfb.entries with
    | (.error x, es, err) => (.error x, { f with vfb := { f.vfb with entries := es, any_errors := f.vfb.any_errors || err } })
    | (.ok r, es, _) => (.ok r, { vfb := { f.vfb with entries := es }, upm := some r })

/-! ### vfbcu2qu -/

/-- the command line — cu2qu.py:10-50 -/
structure CuArgs where
  input : FPath
  outputpath : Option FPath := none
  path : Option PyStr := none
  force_overwrite : Bool := false
  max_err_em : Option Rat := none
  deriving DecidableEq

/-- how the command ends: nothing was converted, unsupported number of masters, or the converted font was saved
— cu2qu.py:81-96 -/
inductive CuResult where
  | notModified
  | unsupported (n : Int)
  | saved (p : FPath)
  | failed (e : CmdErr)
  deriving DecidableEq

section
variable (ops : AngleOps) (deg : ops.Angle → Rat) (asm : AsmOps)

/-- the part of fontTools.cu2qu that is not modelled — cu2qu.py:68-75 -/
structure QuadOps (A ASM : Type) where
  /-- whether `_glyphs_to_quadratic` modifies the glyphs, given the option `max_err_em`, the units per em and the contours of each of the glyphs -/
  modifies : Option Rat → Option (Decompiled A ASM) → List (List UfoContour) → Bool
  /-- what the entries look like after the glyphs with these names have been redrawn -/
  rewrite : Option Rat → List PyStr → Vfb (Decompiled A ASM) (List MasterData) → Vfb (Decompiled A ASM) (List MasterData)
  /-- "if not any(segments_by_location): return False" (fontTools/cu2qu/ufo.py) -/
  nothing : ∀ e u l, (∀ c ∈ l, c = []) → modifies e u l = false

/-- the contours that `font[name].drawPoints(pen)` draws, for the master `m` of the glyph with these data; the object is new.  Data that are not those
of a glyph do not occur. — cu2qu.py:68-75 -/
def outlineOf (order : List PyStr) (n m : Nat) (d : EData (Decompiled ops.Angle asm.Asm)) : Except PyErr (List UfoContour) :=
  match d with
  | .dec (.glyph g) =>
    match (sessionStep ops deg asm ⟨n, order, ⟨g.name.getD [], g.metrics.getD [], ⟨⟨g.nodes, g.components⟩, none⟩⟩, ⟨m, m, none, none⟩, []⟩
        (.drawPoints .main)).2 with
    | .points d => .ok d.1
    | .error e => .error e
    | _ => .error .type
  | _ => .error .type

/-- the loop over the glyph names in `fonts_to_quadratic`: the names of the glyphs that are modified
— cu2qu.py:68-75 -/
def modifiedNames (q : QuadOps ops.Angle asm.Asm) (err : Option Rat) (upm : Option (Decompiled ops.Angle asm.Asm)) (order : List PyStr) (n : Nat) :
    List (PyStr × EData (Decompiled ops.Angle asm.Asm)) → Except PyErr (List PyStr)
  | [] => .ok []
  | g :: gs => do
    let cs ← (List.range n).mapM fun m => outlineOf ops deg asm order n m g.2
    let rest ← modifiedNames q err upm order n gs
    .ok (if q.modifies err upm cs = true then g.1 :: rest else rest)

/-- `font_to_quadratic` and `fonts_to_quadratic` with the fonts of cu2qu.py:68-75: the names that are modified, and the font before it is redrawn.
The glyph with the n-th name is that of the n-th glyph entry. -/
def toQuadratic (q : QuadOps ops.Angle asm.Asm) (err : Option Rat) (v : Vfb (Decompiled ops.Angle asm.Asm) (List MasterData)) :
    Except PyErr (List PyStr × Vfb (Decompiled ops.Angle asm.Asm) (List MasterData)) :=
  match InfoFont.unitsPerEm (vfbCodec ops asm) { vfb := v } with
  | (.error e, _) => .error e
  | (.ok upm, f) =>
    match f.vfb.keys (vfbCodec ops asm) with
    | (.error e, _) => .error e
    | (.ok names, v) =>
      modifiedNames ops deg asm q err upm names v.ctx.num_masters.toNat
          (names.zip ((v.entries.filter fun e => decide (e.id = 2001)).map Entry.data)) >>= fun mods =>
        .ok (mods, v)

/-- the path of the converted font — cu2qu.py:81-86 -/
def CuArgs.out (a : CuArgs) : FPath :=
  match a.path with
  | some dir => (⟨dir, a.input.name⟩ : FPath).withSuffix (lit ".vfb")
  | none => a.input.withSuffix (lit ".qu.vfb")

/-- saving the converted font — cu2qu.py:81-96: how the command ends, and the file written -/
def cuSave (a : CuArgs) (fs : Files asm.Asm) (v : Vfb (Decompiled ops.Angle asm.Asm) (List MasterData)) :
    CuResult × List (FPath × DiskFile asm.Asm) :=
  if (fs a.out).isSome = true ∧ a.force_overwrite = false then (.failed (.fileExists a.out), [])
  else
    match v.write (vfbCodec ops asm) [] with
    | (.error e, out, _) => (.failed (.exception e), [(a.out, .bytes out)])
    | (.ok (), out, _) => (.saved a.out, [(a.out, .bytes out)])

/-- the command — cu2qu.py:51-96: how it ends, and the files written -/
def vfbcu2qu (q : QuadOps ops.Angle asm.Asm) (a : CuArgs) (fs : Files asm.Asm) : CuResult × List (FPath × DiskFile asm.Asm) :=
  match fs a.input with
  | some (.bytes file) =>
    match Vfb.readBytes (vfbCodec ops asm) { drop_keys := [2008] } file with
    | (.error e, _) => (.failed (.exception e), [])
    | (.ok (), v) =>
      match v.decompile (vfbCodec ops asm) with
      | (.error e, _) => (.failed (.exception e), [])
      | (.ok (), v) =>
        if v.ctx.num_masters ≥ 1 then
          match toQuadratic ops deg asm q a.max_err_em v with
          | .error e => (.failed (.exception e), [])
          | .ok (mods, v) =>
            if mods.isEmpty = true then (.notModified, [])
            else cuSave ops asm a fs (q.rewrite a.max_err_em mods v)
        else (.unsupported v.ctx.num_masters, [])
  | _ => (.failed .noInput, [])

end
end Verif
