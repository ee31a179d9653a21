import Verif.Model.Container
/-! Specification of the VFB file layout and vocabulary for C08–C16, C53, C54. -/
set_option autoImplicit false
namespace Verif.Spec
open Verif

variable {D T : Type}

/-- An entry on file: little-endian id and size, then the payload.  Payloads of more than 65535 bytes have
bit 15 of the id set and a four-byte size. -/
def frame (p : Nat × Bytes) : Bytes :=
  if p.2.length ≤ 65535 then leDigits 2 p.1 ++ leDigits 2 p.2.length ++ p.2
  else leDigits 2 (p.1 + 32768) ++ leDigits 4 p.2.length ++ p.2

/-- the 44 bytes at the beginning of a file -/
def fileHeader (minor : UInt8) : Bytes :=
  [0x1A, 0x57, 0x4C, 0x46, 0x31, 0x30, 3, minor, 44, 0, 0, 0] ++ List.replicate 32 0

/-- the header dictionary of such a file -/
def headerDict (minor : UInt8) : Header := ⟨0x464C571A, 0x31, 0x30, 3, minor.toNat⟩

/-- a file: header and entries -/
def fileOf (minor : UInt8) (es : List (Nat × Bytes)) : Bytes := fileHeader minor ++ (es.map frame).flatten

/-- the last entry, and no other, has id 2 (BlockFileDataEnd) -/
def Terminated (es : List (Nat × Bytes)) : Prop :=
  ∃ init b, es = init ++ [(2, b)] ∧ ∀ p ∈ init, p.1 ≠ 2

/-- the settings after an entry has been read -/
def ctxAfter (C : Codec D T) (force : Bool) (ctx : Ctx) (p : Nat × Bytes) : Ctx :=
  if isSpecial p.1 = true then
    match parseEntry (C.parse p.1 ctx) p.2 with
    | .ok d => noteCtx C force p.1 d ctx
    | .error _ => ctx
  else ctx

/-- An entry as it may stand in a file of any origin: id and size in the short form or (bit 15 of the id set) in the long form,
whatever the size; kerning pairs of FontLab 3 (1410) always have 8 bytes and two for each master, whatever the size says. -/
def AnyFrame (masters : Int) (p : Nat × Bytes) (f : Bytes) : Prop :=
  ∃ size : Nat, ((size < 65536 ∧ f = leDigits 2 p.1 ++ leDigits 2 size ++ p.2) ∨
      (size < 4294967296 ∧ f = leDigits 2 (p.1 + 32768) ++ leDigits 4 size ++ p.2)) ∧
    (p.1 ≠ 1410 → size = p.2.length) ∧ (p.1 = 1410 → (p.2.length : Int) = 8 + 2 * masters)

/-- such entries one after the other; the number of masters may change on the way -/
def AnyFrames (C : Codec D T) (force : Bool) : Ctx → List (Nat × Bytes) → Bytes → Prop
  | _, [], s => s = []
  | ctx, p :: es, s => ∃ f rest, s = f ++ rest ∧ AnyFrame ctx.num_masters p f ∧ AnyFrames C force (ctxAfter C force ctx p) es rest

/-- The entries can be read one after the other: ids of 15 bits, sizes of 32 bits, MMKernPair entries (1410) of
the size that follows from the number of masters, and the three entries that are decompiled while reading
can be decompiled. -/
def Readable (C : Codec D T) (force : Bool) : Ctx → List (Nat × Bytes) → Prop
  | _, [] => True
  | ctx, p :: es => p.1 < 32768 ∧ p.2.length < 4294967296 ∧
      (p.1 = 1410 → (p.2.length : Int) = 8 + 2 * ctx.num_masters) ∧
      (isSpecial p.1 = true → ∃ d, parseEntry (C.parse p.1 ctx) p.2 = .ok d) ∧
      Readable C force (ctxAfter C force ctx p) es

/-- The number of masters is a number that files can contain: that of the font object before reading and every one that is read.  (It is stored in
two bytes; all font objects and the entry classes of vfbLib meet this, see `vfb_small_masters`.) -/
def SmallMasters (C : Codec D T) (c : Ctx) : Prop :=
  c.num_masters < 2147483640 ∧ ∀ c' b d, parseEntry (C.parse 1503 c') b = .ok d → C.masters d < 2147483640

/-- the entry object that is made of an entry on file: binary data, except for the three special ids -/
def loadedEntry (C : Codec D T) (ctx : Ctx) (p : Nat × Bytes) : Entry D T :=
  if isSpecial p.1 = true then
    match parseEntry (C.parse p.1 ctx) p.2 with
    | .ok d => { id := p.1, data := .dec d }
    | .error _ => { id := p.1, data := .bytes p.2 }
  else { id := p.1, data := .bytes p.2 }

/-- all of them -/
def loaded (C : Codec D T) (force : Bool) : Ctx → List (Nat × Bytes) → List (Entry D T)
  | _, [] => []
  | ctx, p :: es => loadedEntry C ctx p :: loaded C force (ctxAfter C force ctx p) es

/-- the settings after all entries have been read -/
def ctxAll (C : Codec D T) (force : Bool) (ctx : Ctx) (es : List (Nat × Bytes)) : Ctx := es.foldl (ctxAfter C force) ctx

/-- The binary data of an entry when it is written: unchanged binary data, nothing, or what the compiler of
the id makes of the decompiled data (entries without temporary master data). -/
def HasPayload (C : Codec D T) (ctx : Ctx) (e : Entry D T) (b : Bytes) : Prop :=
  match e.data with
  | .bytes b' => b = b'
  | .none => match C.compile e.id with
    | some comp => comp ctx none = .ok b
    | none => b = []
  | .dec d => ∃ comp, C.compile e.id = some comp ∧ comp ctx (some d) = .ok b

end Verif.Spec

namespace Verif.Spec
open Verif
variable {D T : Type}

/-- An entry whose decompiled data survive compiling and decompiling once more, under the given settings. -/
def EntryStable (C : Codec D T) (ctx : Ctx) (p : Nat × Bytes) : Prop :=
  ∃ d comp b, parseEntry (C.parse p.1 ctx) p.2 = .ok d ∧ C.compile p.1 = some comp ∧ comp ctx (some d) = .ok b ∧
    b.length < 4294967296 ∧ parseEntry (C.parse p.1 ctx) b = .ok d

/-- The entries that are decompiled while reading are parsed without regard to the settings. -/
def SpecialFixed (C : Codec D T) : Prop := ∀ id, isSpecial id = true → ∀ c c', C.parse id c = C.parse id c'

/-- What is in a font after everything has been decompiled: for each entry its id and data. -/
def contents (v : Vfb D T) : List (Int × EData D) := v.entries.map fun e => (e.id, e.data)

/-- what a user can do with an entry -/
inductive Op (D : Type) where
  | setData (data : EData D)
  | compile (ctx : Ctx)
  | decompile (ctx : Ctx)
  | header

/-- the entry after one operation; exceptions are caught by the user -/
def Op.run (C : Codec D T) (e : Entry D T) : Op D → Entry D T
  | .setData data => { e with data := data }
  | .compile ctx => (e.compile C ctx).2
  | .decompile ctx => (e.decompile C ctx).2.1
  | .header => e.header.2

/-- the entry after a history of operations -/
def runOps (C : Codec D T) (e : Entry D T) (ops : List (Op D)) : Entry D T := ops.foldl (Op.run C) e

/-- the bytes `file` are laid out as a file with the entries `es`: after any header the entries in either form, one after the other; the
last one, with the id 2, may be cut off and anything may follow it -/
def LaidOut (C : Codec D T) (force : Bool) (ctx : Ctx) (file : Bytes) (es : List (Nat × Bytes)) : Prop :=
  ∃ init b before frames last, es = init ++ [(2, b)] ∧ file = before ++ frames ++ last ∧ AnyFrames C force ctx init frames ∧
    last.head? = some 2

end Verif.Spec
