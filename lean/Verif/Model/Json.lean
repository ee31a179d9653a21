import Verif.Model.Table
/-! Model of the JSON export: `json.py` and the methods `as_dict` it uses, for C88.  The dictionary is modelled, its serialisation by
the library `orjson` is not. -/
set_option autoImplicit false
namespace Verif
variable {D T : Type}

/-- the value of the item "decompiled" of an entry: `None`, the binary data as hexadecimal digits, or the decompiled data
— vfb/entry.py:167-179, vfb/header.py:27-30 -/
inductive JsonData (D : Type) where
  | null
  | hex (s : PyStr)
  | data (d : D)
  deriving DecidableEq, Repr

/-- `EntryDict` — typing.py; "size" is present only if the entry holds binary data -/
structure EntryDict (D : Type) where
  key : PyStr
  size : Option Nat
  decompiled : JsonData D
  deriving DecidableEq, Repr

/-- `VfbDict` — typing.py: header and entries -/
structure VfbDict (D : Type) where
  header : JsonData Header
  entries : List (EntryDict D)
  deriving DecidableEq, Repr

/-- `VfbEntry.key` — vfb/entry.py:131-149: the name in the table, or the id as decimal number -/
def entryKey (id : Int) : PyStr :=
  match parserClasses.find? (fun r => r.1 == id) with
  | some r => lit r.2.1
  | none => intDec id

/-- `VfbEntry.as_dict` — vfb/entry.py:167-179, with `minimize=True` -/
def Entry.asDict (e : Entry D T) : EntryDict D :=
  match e.data with
  | .bytes b => ⟨entryKey e.id, some b.length, .hex (hexStr b)⟩
  | .dec d => ⟨entryKey e.id, none, .data d⟩
  | .none => ⟨entryKey e.id, none, .null⟩

/-- `VfbHeader.as_dict` — vfb/header.py:27-30 -/
def HData.asDict : HData → JsonData Header
  | .bytes b => .hex (hexStr b)
  | .dec h => .data h
  | .none => .null

/-- `Vfb.as_dict` — vfb/vfb.py:123-133 -/
def Vfb.asDict (v : Vfb D T) : VfbDict D := ⟨v.header.asDict, v.entries.map Entry.asDict⟩

/-- the options of `save_vfb_json` that have an effect (`minimal` has none) — json.py:8-16 -/
structure JsonOpts where
  only_header : Bool := false
  unicode_strings : Bool := false
  no_decompile : Bool := false
  roundtrip : Bool := false
  deriving DecidableEq, Repr

/-- json.py:23-25: `if roundtrip: vfb.decompile(); vfb.compile()` -/
def jsonRoundtrip (C : Codec D T) (o : JsonOpts) (v : Vfb D T) : Except PyErr (Vfb D T) :=
  if o.roundtrip = true then
    match v.decompile C with
    | (.error x, _) => .error x
    | (.ok (), v) =>
      match v.compile C with
      | (.error x, _) => .error x
      | (.ok (), v) => .ok v
  else .ok v

/-- json.py:27-28: `if not no_decompile: vfb.decompile()` -/
def jsonDecompile (C : Codec D T) (o : JsonOpts) (v : Vfb D T) : Except PyErr (Vfb D T) :=
  if o.no_decompile = true then .ok v
  else
    match v.decompile C with
    | (.error x, _) => .error x
    | (.ok (), v) => .ok v

/-- `save_vfb_json` — json.py:8-44: the dictionary that is serialised, for a file with the given contents -/
def saveJson (C : Codec D T) (o : JsonOpts) (file : Bytes) : Except PyErr (VfbDict D) :=
  match Vfb.readBytes C { only_header := o.only_header, force_unicode_strings := o.unicode_strings } file with
  | (.error x, _) => .error x
  | (.ok (), v) => do
    let v ← jsonRoundtrip C o v
    let v ← jsonDecompile C o v
    .ok v.asDict

end Verif
