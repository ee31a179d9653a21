import Verif.Py
/-! Single-byte text encodings used by the readers and writers of the code base
(`bytes.decode(enc)` / `str.encode(enc)` with strict error handling). -/
set_option autoImplicit false
namespace Verif

/-- Python codec "cp1252", bytes 0x80–0x9F; `none` = undefined (UnicodeDecodeError).
Used by: parsers/base.py:37 (`self.encoding = "cp1252"`), 107, 128, 332; compilers/base.py:31. -/
def cp1252High : List (Option Nat) :=
  [some 0x20ac, none, some 0x201a, some 0x192, some 0x201e, some 0x2026, some 0x2020, some 0x2021,
   some 0x2c6, some 0x2030, some 0x160, some 0x2039, some 0x152, none, some 0x17d, none,
   none, some 0x2018, some 0x2019, some 0x201c, some 0x201d, some 0x2022, some 0x2013, some 0x2014,
   some 0x2dc, some 0x2122, some 0x161, some 0x203a, some 0x153, none, some 0x17e, some 0x178]

/-- cp1252: one byte to a code point — parsers/base.py:94-107, parsers/base.py:182-184 -/
def cp1252Decode (b : UInt8) : Option Nat :=
  let n := b.toNat
  if n < 0x80 ∨ 0xA0 ≤ n then some n else (cp1252High[n - 0x80]?).join

/-- cp1252: one code point to a byte — compilers/base.py:89-104 -/
def cp1252Encode (c : Nat) : Option UInt8 :=
  if c < 0x80 ∨ (0xA0 ≤ c ∧ c < 0x100) then some (UInt8.ofNat c)
  else (cp1252High.findIdx? (· == some c)).map fun i => UInt8.ofNat (0x80 + i)

/-- Python codec "mac_roman" ("macroman"), bytes 0x80–0xFF (all defined).
Used by: parsers/text.py:25, compilers/text.py:19. -/
def macRomanHigh : List Nat :=
  [196, 197, 199, 201, 209, 214, 220, 225, 224, 226, 228, 227, 229, 231, 233, 232, 234, 235, 237, 236,
   238, 239, 241, 243, 242, 244, 246, 245, 250, 249, 251, 252, 8224, 176, 162, 163, 167, 8226, 182, 223,
   174, 169, 8482, 180, 168, 8800, 198, 216, 8734, 177, 8804, 8805, 165, 181, 8706, 8721, 8719, 960,
   8747, 170, 186, 937, 230, 248, 191, 161, 172, 8730, 402, 8776, 8710, 171, 187, 8230, 160, 192, 195,
   213, 338, 339, 8211, 8212, 8220, 8221, 8216, 8217, 247, 9674, 255, 376, 8260, 8364, 8249, 8250,
   64257, 64258, 8225, 183, 8218, 8222, 8240, 194, 202, 193, 203, 200, 205, 206, 207, 204, 211, 212,
   63743, 210, 218, 219, 217, 305, 710, 732, 175, 728, 729, 730, 184, 733, 731, 711]

/-- mac_roman: one byte to a code point — parsers/text.py:19-28 -/
def macRomanDecode (b : UInt8) : Option Nat :=
  if b.toNat < 0x80 then some b.toNat else macRomanHigh[b.toNat - 0x80]?

/-- mac_roman: one code point to a byte — compilers/text.py:16-23 -/
def macRomanEncode (c : Nat) : Option UInt8 :=
  if c < 0x80 then some (UInt8.ofNat c)
  else (macRomanHigh.findIdx? (· == c)).map fun i => UInt8.ofNat (0x80 + i)

/-- `b.decode(enc)` for a single-byte encoding: UnicodeDecodeError if any byte is undefined
— parsers/base.py:94-107, parsers/base.py:182-184 -/
def decodeWith (dec : UInt8 → Option Nat) (b : Bytes) : Except PyErr PyStr :=
  match b.mapM dec with
  | some s => .ok s
  | none => .error .unicode

/-- `s.encode(enc)` for a single-byte encoding: UnicodeEncodeError if any character is undefined
— compilers/base.py:89-104 -/
def encodeWith (enc : Nat → Option UInt8) (s : PyStr) : Except PyErr Bytes :=
  match s.mapM enc with
  | some b => .ok b
  | none => .error .unicode

/-- `b.decode("cp1252")` — parsers/base.py:94-107, parsers/base.py:182-184 -/
def decode1252 (b : Bytes) : Except PyErr PyStr := decodeWith cp1252Decode b
/-- `s.encode("cp1252")` — compilers/base.py:89-104 -/
def encode1252 (s : PyStr) : Except PyErr Bytes := encodeWith cp1252Encode s

end Verif
