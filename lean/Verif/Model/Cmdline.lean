import Verif.Model.UfoConvert
import Verif.Model.UfoMasters
import Verif.Model.Table
/-! Model of the command line tool `vfb3ufo` (`cmdline.py:vfb2ufo`) with the files it reads and writes (`VfbToUfoBuilder.write`), for C89 and
C90.  The file system is a function from paths to contents; a path is a folder and a name.  What a UFO folder or a designspace file looks like
on disk is not modelled: they hold the objects that were saved. -/
set_option autoImplicit false
namespace Verif

/-- a path: the folder and the last part — cmdline.py:206-247 -/
structure FPath where
  dir : PyStr
  name : PyStr
  deriving DecidableEq, Repr

/-- `path.with_suffix(suffix)` (pathlib) — cmdline.py:224-230 -/
def FPath.withSuffix (p : FPath) (suffix : PyStr) : FPath := ⟨p.dir, (pathSplit p.name).1 ++ suffix⟩

/-- what is at a path: any file, a UFO (folder or zip, normalized or not), a UFO as JSON (indented or not), a designspace document
— ufo/builder.py:917-924 -/
inductive DiskFile (ASM : Type) where
  | bytes (b : Bytes)
  | ufo (zip normalized : Bool) (u : UfoFont ASM)
  | json (indent : Bool) (u : UfoFont ASM)
  | designspace (d : DsDoc)

/-- the file system — cmdline.py:206-247, ufo/builder.py:898-932 -/
abbrev Files (ASM : Type) := FPath → Option (DiskFile ASM)

/-- a file is written (what was there is replaced) — ufo/builder.py:914-932 -/
def Files.set {ASM : Type} (fs : Files ASM) (p : FPath) (f : DiskFile ASM) : Files ASM := fun q => if q = p then some f else fs q

/-- the command line — cmdline.py:88-204 (`--silent` and `--verbose` only change what is printed, and are left out) -/
structure UfoArgs where
  input : FPath
  outputpath : Option FPath := none
  path : Option PyStr := none
  force_overwrite : Bool := false
  keep_groups : Bool := false
  json : Bool := false
  add_kerning_groups : Bool := false
  ttx : Bool := false
  base64 : Bool := false
  no_normalize : Bool := false
  no_postscript_hints : Bool := false
  zip : Bool := false
  minimal : Bool := false
  unicode_strings : Bool := false
  deriving DecidableEq, Repr

/-- how the command ends, if not normally — cmdline.py:206-247, ufo/builder.py:898-932 -/
inductive CmdErr where
  | noInput
  | exception (e : PyErr)
  | fileExists (p : FPath)
  deriving DecidableEq, Repr

/-- the options of the `VfbToUfoBuilder` — cmdline.py:232-240 -/
def UfoArgs.opts (a : UfoArgs) : UfoOpts :=
  { build := { minimal := a.minimal, vfbMinimal := a.minimal, pshints := !a.no_postscript_hints }
    fea := { addKerning := a.add_kerning_groups, moveGroups := !a.keep_groups }
    base64 := a.base64 }

/-- the output path — cmdline.py:224-230 and ufo/builder.py:905-906 -/
def UfoArgs.out (a : UfoArgs) : FPath :=
  let suffix := if a.zip = true ∧ a.json = false then lit ".ufo" ++ lit "z" else lit ".ufo"
  let out := match a.path with
    | some dir => (⟨dir, a.input.name⟩ : FPath).withSuffix suffix
    | none => a.input.withSuffix suffix
  if a.json = true then out.withSuffix (lit ".json") else out

/-- the decompiled entries that the builder goes through — ufo/builder.py:432-442 (binary data do not occur after `decompile()`) -/
def fontEntries {D T : Type} (v : Vfb D T) : List (Int × Option D) :=
  v.entries.map fun e => (e.id, match e.data with
    | .dec d => some d
    | .bytes _ => none
    | .none => none)

section
variable (ops : AngleOps) (deg : ops.Angle → Rat) (asm : AsmOps) (fmt : Int → PyStr)

/-- reading and decompiling — cmdline.py:206-231, 222: the encodings are dropped -/
def readFont (a : UfoArgs) (file : Bytes) : Except PyErr (List (Int × Option (Decompiled ops.Angle asm.Asm))) :=
  match Vfb.readBytes (vfbCodec ops asm) { drop_keys := [1500, 1501], force_unicode_strings := a.unicode_strings } file with
  | (.error e, _) => .error e
  | (.ok (), v) =>
    match v.decompile (vfbCodec ops asm) with
    | (.error e, _) => .error e
    | (.ok (), v) => .ok (fontEntries v)

/-- `get_ufos_designspace` — ufo/builder.py:880-896; a missing family name appears as "None" in the file names of the designspace -/
def ufosDesignspace (a : UfoArgs) (depth : Nat) (es : List (Int × Option (Decompiled ops.Angle asm.Asm))) :
    Except PyErr (List (UfoFont asm.Asm) × Option DsDoc) :=
  build ops asm fmt a.opts.build depth es >>= fun b =>
  ufoMasters ops deg asm a.opts depth b >>= fun ufos =>
  if ufos.isEmpty = true then .error .value
  else if b.masters.axes.isEmpty = true then .ok (ufos, none)
  else
    getDesignspace b.masters ((dsFamilyName b.info.attrs).getD (lit "None")) a.out.name >>= fun ds =>
    .ok (ufos, some ds)

/-- the file operations for one UFO: it is saved, then normalized in place — ufo/builder.py:917-924 -/
def ufoSteps {ASM : Type} (a : UfoArgs) (p : FPath) (u : UfoFont ASM) : List (FPath × DiskFile ASM) :=
  if a.json = true then [(p, .json (!a.zip) u)]
  else (p, .ufo a.zip false u) :: (if a.no_normalize = false ∧ a.zip = false then [(p, .ufo a.zip true u)] else [])

/-- writing the UFOs, and the designspace — ufo/builder.py:914-932.  `Font.save` raises FileExistsError when the path exists, unless it may
overwrite it; `json_dump` does not.  The result has the files written, in this order. -/
def writeSteps {ASM : Type} (a : UfoArgs) (fs : Files ASM) : Nat → List (UfoFont ASM) → Option DsDoc →
    Except CmdErr Unit × List (FPath × DiskFile ASM)
  | _, [], none => (.ok (), [])
  | _, [], some ds =>
    let p := a.out.withSuffix (lit ".designspace")
    if (fs p).isSome = true ∧ a.force_overwrite = false then (.error (.fileExists p), [])
    else (.ok (), [(p, .designspace ds)])
  | i, u :: us, ds =>
    let p : FPath := ⟨a.out.dir, masterPath a.out.name i⟩
    if a.json = false ∧ a.force_overwrite = false ∧ (fs p).isSome = true then (.error (.fileExists p), [])
    else
      match writeSteps a ((ufoSteps a p u).foldl (fun fs w => fs.set w.1 w.2) fs) (i + 1) us ds with
      | (r, ws) => (r, ufoSteps a p u ++ ws)

/-- the command — cmdline.py:204-247: how it ends, and the files it has written, in this order; `depth` is the recursion limit of Python.
(An input path that does not hold a plain file is not modelled.) -/
def vfb3ufo (a : UfoArgs) (depth : Nat) (fs : Files asm.Asm) : Except CmdErr Unit × List (FPath × DiskFile asm.Asm) :=
  match fs a.input with
  | some (.bytes file) =>
    match readFont ops asm a file >>= ufosDesignspace ops deg asm fmt a depth with
    | .error e => (.error (.exception e), [])
    | .ok r => writeSteps a fs 0 r.1 r.2
  | _ => (.error .noInput, [])

end
end Verif
