import Verif.Model.Cmdline
import Verif.Model.Json
import Verif.Model.Tth
/-! Model of the command line tools `vfb2json` (`cmdline.py:vfb2json` with `json.py`) and `vfb2tth` (`tth.py`), with the files they read and
write, for C97 and C98.  The file system is a function from paths to bytes.  The serialisation of the dictionaries (`orjson`, `tomli_w`, `yaml`) is
a parameter: a function that may raise. -/
set_option autoImplicit false
namespace Verif

/-- the files on disk — json.py:38-44, tth.py:60-82 -/
abbrev Disk := FPath → Option Bytes

/-- a file has got the contents `b` — json.py:38-44, tth.py:60-82 -/
def Disk.put (fs : Disk) (p : FPath) (b : Bytes) : Disk := fun q => if q = p then some b else fs q

/-- how these commands end, if not normally: there is no input file, an exception, or the exit with "There were decompilation errors."
— json.py:38-44, tth.py:60-82 -/
inductive ToolErr where
  | noInput
  | exception (e : PyErr)
  | reported
  deriving DecidableEq, Repr

/-- `with open(path, "wb") as f: f.write(dumps(…))`: the file is empty when the data is serialised — json.py:38-44, tth.py:60-82.
(If `tomli_w` or `yaml` raises, a part of the text may be in the file; in the model it is empty.) -/
def dumpTo (fs : Disk) (p : FPath) (text : Except PyErr Bytes) : Except ToolErr Unit × Disk :=
  match text with
  | .error e => (.error (.exception e), fs.put p [])
  | .ok b => (.ok (), fs.put p b)

/-- the path of the output: `(Path(folder) / vfb_path.name).with_suffix(suffix)` or `vfb_path.with_suffix(suffix)` — json.py:30-34, tth.py:54-58.
(`with_suffix` raises ValueError if the input has no file name or if the suffix has a slash; that is not modelled.) -/
def toolOut (input : FPath) (path : Option PyStr) (suffix : PyStr) : FPath :=
  match path with
  | some dir => (⟨dir, input.name⟩ : FPath).withSuffix suffix
  | none => input.withSuffix suffix

/-! ### vfb2json -/

/-- the command line of `vfb2json` — cmdline.py:15-62 -/
structure JsonArgs where
  input : FPath
  path : Option PyStr := none
  no_decompile : Bool := false
  header : Bool := false
  minimal : Bool := false
  roundtrip : Bool := false
  unicode_strings : Bool := false
  deriving DecidableEq, Repr

/-- the arguments of `save_vfb_json` — cmdline.py:73-81 (an empty `--path` counts as none: `if out_path`, json.py:16-28) -/
def JsonArgs.opts (a : JsonArgs) : JsonOpts where
  only_header := a.header
  unicode_strings := a.unicode_strings
  no_decompile := a.no_decompile
  roundtrip := a.roundtrip

/-- cmdline.py:75, json.py:30-34 -/
def JsonArgs.out (a : JsonArgs) : FPath :=
  toolOut a.input (if a.path = some [] then none else a.path) (lit ".vfb.json")

section
variable {D T : Type}

/-- `vfb2json` — cmdline.py:63-81, json.py:8-44 -/
def vfb2json (C : Codec D T) (dumps : VfbDict D → Except PyErr Bytes) (a : JsonArgs) (fs : Disk) : Except ToolErr Unit × Disk :=
  match fs a.input with
  | none => (.error .noInput, fs)
  | some file =>
    match saveJson C a.opts file with
    | .error e => (.error (.exception e), fs)
    | .ok d => dumpTo fs a.out (dumps d)

end

/-! ### vfb2tth -/

/-- the formats of `vfb2tth` — tth.py:60-79: anything but "toml" and "yaml" is written as JSON -/
inductive TthFormat where
  | json
  | toml
  | yaml
  deriving DecidableEq, Repr

/-- the command line of `vfb2tth` — tth.py:20-43 (without `--help`) -/
structure TthArgs where
  input : FPath
  format : PyStr := lit "json"
  path : Option PyStr := none
  deriving DecidableEq, Repr

/-- tth.py:60-71 -/
def TthArgs.serializer (a : TthArgs) : TthFormat :=
  if a.format = lit "toml" then .toml else if a.format = lit "yaml" then .yaml else .json

/-- tth.py:54-58 -/
def TthArgs.out (a : TthArgs) : FPath := toolOut a.input a.path (lit ".tth." ++ a.format)

section
variable (ops : AngleOps) (asm : AsmOps)

/-- a number of the TrueType info, if it is there — tth.py:106-165 -/
def ttNumber (d : TTInfo) (k : Int) : Option Int :=
  match dictGet d k with
  | some (.int v) => some v
  | _ => none

/-- what the export takes from the decompiled entry with the given key; `none` if the entry is not looked at — tth.py:106-165.  Data of another type
raise AssertionError. -/
def tthView (key : PyStr) : Option (Decompiled ops.Angle asm.Asm → Except PyErr TthEntry) :=
  if key = lit "gasp" then some fun d => match d with
    | .gasp l => .ok (.gasp (l.map fun r => (r.maxPpem, r.flags)))
    | _ => .error .assertion
  else if key = lit "ttinfo" then some fun d => match d with
    | .ttInfo i => .ok (.ttinfo (ttNumber i 0x3C) (ttNumber i 0x3A))
    | _ => .error .assertion
  else if key = lit "TrueType Stem PPEMs" then some fun d => match d with
    | .ttPpems p => .ok (.ppems p)
    | _ => .error .assertion
  else if key = lit "TrueType Stems" then some fun d => match d with
    | .ttStems s => .ok (.stems s)
    | _ => .error .assertion
  else if key = lit "TrueType Stem PPEMs 1" then some fun d => match d with
    | .ttPpems p => .ok (.ppems1 p)
    | _ => .error .assertion
  else if key = lit "TrueType Zones" then some fun d => match d with
    | .ttZones z => .ok (.zones z)
    | _ => .error .assertion
  else if key = lit "stemsnaplimit" ∨ key = lit "zoneppm" ∨ key = lit "codeppm" then some fun d => match d with
    | .int v => .ok (.num key v)
    | _ => .error .assertion
  else if key = lit "TrueType Zone Deltas" then some fun d => match d with
    | .ttDeltas l => .ok (.deltas l)
    | _ => .error .assertion
  else if key = lit "Glyph" then some fun d => match d with
    | .glyph g => .ok (.glyph g.name g.tth)
    | _ => .error .assertion
  else none

/-- the loop of `extract_truetype_hinting` — tth.py:106-165: an entry is decompiled only if it is looked at.  (The entries stay decompiled, which
does not matter here.) -/
def tthLoop (ctx : Ctx) : TthData → List (Entry (Decompiled ops.Angle asm.Asm) (List MasterData)) → Except PyErr TthData
  | s, [] => .ok s
  | s, e :: es =>
    match tthView ops asm (entryKey e.id) with
    | none => tthLoop ctx s es
    | some view =>
      match e.decompile (vfbCodec ops asm) ctx with
      | (.error x, _, _) => .error x
      | (.ok (), e', _) =>
        match e'.data with
        | .dec d => view d >>= fun t => tthEntry s t >>= fun s => tthLoop ctx s es
        | _ => .error .assertion

/-- `extract_truetype_hinting` on a font — tth.py:88-170 -/
def extractTth (v : Vfb (Decompiled ops.Angle asm.Asm) (List MasterData)) : Except PyErr TthExport :=
  tthLoop ops asm v.ctx TthData.empty v.entries >>= fun s =>
  mergeStems s >>= fun stems =>
  mergeZones s >>= fun zones =>
  .ok ⟨stems, zones, s.glyphs, s.nums, s.gasp⟩

/-- `vfb2tth` — tth.py:15-85.  The flag `any_errors` is set only by a parser that raises, and the exception ends the command, so that its
value after reading is its value at the end. -/
def vfb2tth (dumps : TthFormat → TthExport → Except PyErr Bytes) (a : TthArgs) (fs : Disk) : Except ToolErr Unit × Disk :=
  match fs a.input with
  | none => (.error .noInput, fs)
  | some file =>
    match Vfb.readBytes (vfbCodec ops asm) { force_unicode_strings := true } file with
    | (.error e, _) => (.error (.exception e), fs)
    | (.ok (), v) =>
      match extractTth ops asm v with
      | .error e => (.error (.exception e), fs)
      | .ok x =>
        match dumpTo fs a.out (dumps a.serializer x) with
        | (.error e, fs) => (.error e, fs)
        | (.ok (), fs) => if v.any_errors = true then (.error .reported, fs) else (.ok (), fs)

end
end Verif
