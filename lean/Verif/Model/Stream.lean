import Verif.Model.Text
/-! Model of the primitive stream readers and writers:
`parsers/value.py`, `compilers/value.py`, `parsers/base.py:28-174`, `compilers/base.py:23-160`. -/
set_option autoImplicit false
namespace Verif

/-! ### encoded values -/

/-- `read_value(stream, signed)` — parsers/value.py:9-62.
The two-byte and five-byte forms use whatever bytes `stream.read` returns (possibly fewer). -/
def readValue (signed : Bool := true) : R Int := do
  let val := fromLE false (← R.readN 1)                      -- :31
  if val = 0 then R.throw .eof                               -- :32-33
  else if val < 0x20 then R.throw .value                     -- :35-36
  else if val < 0xF7 then pure (val - 0x8B)                  -- :38-40
  else if val ≤ 0xFA then do                                 -- :42-46
    let val2 := fromLE false (← R.readN 1)
    pure (0x100 * val - 0xF694 + val2)
  else if val ≤ 0xFE then do                                 -- :48-52
    let val2 := fromLE false (← R.readN 1)
    pure (-0x100 * val + 0xFA94 - val2)
  else if val = 0xFF then do                                 -- :54-60
    let b ← R.readN 4
    pure (fromBE signed b)
  else R.throw .value                                        -- :62

/-- `write_value_long(value, stream, signed)` — compilers/value.py:34-46
(`pack(">B" + ("i" or "I"), 0xFF, value)`). -/
def writeValueLong (value : Int) (signed : Bool := true) : W :=
  packBE 1 false 0xFF ++ packBE 4 signed value

/-- `write_value(value, stream, signed)` — compilers/value.py:8-31. -/
def writeValue (value : Int) (signed : Bool := true) : W :=
  if -107 ≤ value ∧ value ≤ 107 then packBE 1 false (value + 0x8B)
  else if 107 < value ∧ value ≤ 1131 then packBE 2 false (value + 0xF694)
  else if -1131 ≤ value ∧ value < -107 then packBE 2 false (-value + 0xFA94)
  else writeValueLong value signed

/-! ### fixed-width integers -/

/-- `read_uint8/16/32`, `read_int8/16/32` — parsers/base.py:61-92, 130-161. -/
def readInt (k : Nat) (signed : Bool) : R Int := do
  let b ← R.readN k
  pure (fromLE signed b)

/-- `read_uint8` — parsers/base.py:130-139 -/
def readU8 : R Int := readInt 1 false    -- parsers/base.py:130-139
/-- `read_uint16` — parsers/base.py:141-150 -/
def readU16 : R Int := readInt 2 false   -- parsers/base.py:141-150
/-- `read_uint32` — parsers/base.py:152-161 -/
def readU32 : R Int := readInt 4 false   -- parsers/base.py:152-161
/-- `read_int8` — parsers/base.py:61-70 -/
def readI8 : R Int := readInt 1 true     -- parsers/base.py:61-70
/-- `read_int16` — parsers/base.py:72-81 -/
def readI16 : R Int := readInt 2 true    -- parsers/base.py:72-81
/-- `read_int32` — parsers/base.py:83-92 -/
def readI32 : R Int := readInt 4 true    -- parsers/base.py:83-92

/-- `write_uint8` — compilers/base.py:120-127 -/
def writeU8 (v : Int) : W := toBytesLE 1 false v    -- compilers/base.py:120-127
/-- `write_uint16` — compilers/base.py:129-136 -/
def writeU16 (v : Int) : W := toBytesLE 2 false v   -- compilers/base.py:129-136
/-- `write_uint32` — compilers/base.py:138-145 -/
def writeU32 (v : Int) : W := toBytesLE 4 false v   -- compilers/base.py:138-145
/-- `write_int8` — compilers/base.py:62-69 -/
def writeI8 (v : Int) : W := toBytesLE 1 true v     -- compilers/base.py:62-69
/-- `write_int16` — compilers/base.py:71-78 -/
def writeI16 (v : Int) : W := toBytesLE 2 true v    -- compilers/base.py:71-78
/-- `write_int32` — compilers/base.py:80-87 -/
def writeI32 (v : Int) : W := toBytesLE 4 true v    -- compilers/base.py:80-87

/-- A double-precision float as its 64-bit pattern.  Arithmetic on it is not modelled.
— parsers/base.py:49-59 -/
structure Dbl where
  bits : UInt64
  deriving DecidableEq, Repr

/-- `unpack("d", b)` of eight bytes (native order; little endian on the supported platforms)
— parsers/base.py:49-59 -/
def Dbl.ofBytes (b : Bytes) : Dbl := ⟨UInt64.ofNat (leNat b)⟩
/-- `pack("d", f)` — compilers/base.py:43-50 -/
def Dbl.toBytes (d : Dbl) : Bytes := leDigits 8 d.bits.toNat

/-- `unpack("d" * n, b)` on a buffer of the right length — parsers/base.py:49-59 -/
def unpackDoubles : Nat → Bytes → List Dbl
  | 0, _ => []
  | n + 1, b => Dbl.ofBytes (b.take 8) :: unpackDoubles n (b.drop 8)

/-- `read_doubles(num)` — parsers/base.py:49-59; struct.error on a short buffer. -/
def readDoubles (num : Nat) : R (List Dbl) := do
  let b ← R.readN (num * 8)
  if b.length = num * 8 then pure (unpackDoubles num b) else R.throw .structError

/-- `read_double()` — parsers/base.py:40-47 -/
def readDouble : R Dbl := do
  let l ← readDoubles 1
  match l with
  | d :: _ => pure d
  | [] => R.throw .index

/-- `write_double(value)` — compilers/base.py:43-50 -/
def writeDouble (d : Dbl) : W := .ok d.toBytes
/-- `write_doubles(values)` — compilers/base.py:52-60 -/
def writeDoubles (ds : List Dbl) : W := W.all ds writeDouble

/-! ### strings -/

/-- `read_str(size)` — parsers/base.py:94-107.  The instance attribute `encoding` is always
"cp1252" (set in `BaseParser.__init__`, parsers/base.py:182-184, which shadows the class attribute
assigned in vfb/entry.py:149). -/
def readStr (size : Int) : R PyStr :=
  if size = 0 then pure []
  else do
    let b ← R.readN size
    R.lift (decode1252 b)

/-- `read_str_with_len()` — parsers/base.py:109-118 -/
def readStrWithLen : R PyStr := do
  let size ← readValue false
  readStr size

/-- `read_str_all()` — parsers/base.py:120-128 -/
def readStrAll : R PyStr := do
  let b ← R.readAll
  R.lift (decode1252 b)

/-- `write_str(value, pad)` — compilers/base.py:89-104 -/
def writeStr (value : Option PyStr) (pad : Nat := 0) : W :=
  W.withVal (encode1252 (value.getD [])) fun enc =>
    if enc.length < pad then .ok (enc ++ List.replicate (pad - enc.length) 0) else .ok enc

/-- `write_str_with_len(value)` — compilers/base.py:106-118 -/
def writeStrWithLen (value : Option PyStr) : W :=
  W.withVal (encode1252 (value.getD [])) fun enc =>
    writeValue enc.length ++ (.ok enc : W)

/-- `write_bytes(value)` — compilers/base.py:34-41 -/
def writeBytes (b : Bytes) : W := .ok b

/-! ### entry parsers -/

/-- `BaseParser.parse(stream, size, vfb)` on a stream holding exactly the payload of an entry —
parsers/base.py:186-218: run `_parse` and require that nothing is left. -/
def parseEntry {α : Type} (p : R α) (payload : Bytes) : Except PyErr α :=
  match p payload with
  | .err e _ => .error e
  | .ok a [] => .ok a
  | .ok _ (_ :: _) => .error .assertion

end Verif
