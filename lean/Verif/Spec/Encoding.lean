import Verif.Model.Mapping
import Verif.Model.Json
/-! Specification vocabulary for C105: fonts that differ at most in the encoding of texts, calls of a font object, and UTF-8. -/
set_option autoImplicit false
namespace Verif.Spec
open Verif

/-- The same font, except that the attributes `encoding` and `force_unicode_strings` may be different. -/
structure Alike {D T : Type} (v w : Vfb D T) : Prop where
  header : w.header = v.header
  entries : w.entries = v.entries
  drop_keys : w.drop_keys = v.drop_keys
  only_header : w.only_header = v.only_header
  any_errors : w.any_errors = v.any_errors
  glyphs : w.glyphs = v.glyphs
  masters : w.ctx.num_masters = v.ctx.num_masters
  stemsV : w.ctx.ttStemsV_count = v.ctx.ttStemsV_count
  stemsH : w.ctx.ttStemsH_count = v.ctx.ttStemsH_count
  platform : w.ctx.writer_platform = v.ctx.writer_platform

/-- something a program does with a font -/
inductive VfbUse
  | read (file : Bytes)
  | decompile
  | compile
  | write
  | keys
  | asDict

/-- what the program gets to see of a call -/
inductive VfbAnswer (D : Type)
  | done
  | file (b : Bytes)
  | names (l : List PyStr)
  | dict (d : VfbDict D)

/-- a call of a font object: the answer (or exception, with the bytes that were written before it) and the new state -/
def VfbUse.run {D T : Type} (C : Codec D T) : VfbUse → Vfb D T → (Except PyErr (VfbAnswer D) × Bytes) × Vfb D T
  | .read file, v => ((((v.readBytes C file).1).map fun _ => .done, []), (v.readBytes C file).2)
  | .decompile, v => ((((v.decompile C).1).map fun _ => .done, []), (v.decompile C).2)
  | .compile, v => ((((v.compile C).1).map fun _ => .done, []), (v.compile C).2)
  | .write, v => ((((v.writeBytes C).1).map fun _ => .done, (v.writeBytes C).2.1), (v.writeBytes C).2.2)
  | .keys, v => ((((v.keys C).1).map .names, []), (v.keys C).2)
  | .asDict, v => ((.ok (.dict v.asDict), []), v)

/-- the answers to any number of calls, one after the other -/
def answers {D T : Type} (C : Codec D T) : List VfbUse → Vfb D T → List (Except PyErr (VfbAnswer D) × Bytes)
  | [], _ => []
  | c :: cs, v => (c.run C v).1 :: answers C cs (c.run C v).2

/-- the UTF-8 form of a character (RFC 3629, without the exclusion of surrogates) -/
def utf8Char (c : Nat) : Bytes :=
  if c < 0x80 then [UInt8.ofNat c]
  else if c < 0x800 then [UInt8.ofNat (0xC0 + c / 0x40), UInt8.ofNat (0x80 + c % 0x40)]
  else if c < 0x10000 then [UInt8.ofNat (0xE0 + c / 0x1000), UInt8.ofNat (0x80 + c / 0x40 % 0x40), UInt8.ofNat (0x80 + c % 0x40)]
  else [UInt8.ofNat (0xF0 + c / 0x40000), UInt8.ofNat (0x80 + c / 0x1000 % 0x40), UInt8.ofNat (0x80 + c / 0x40 % 0x40),
    UInt8.ofNat (0x80 + c % 0x40)]

/-- the UTF-8 form of a text -/
def utf8 (s : PyStr) : Bytes := s.flatMap utf8Char

/-- what the last entry of FL version (id 10) of a font says about the platform, if there is one -/
def lastPlatform {A M T : Type} (es : List (Entry (Decompiled A M) T)) : Option PyStr :=
  (es.filterMap fun e => if e.id = 10 then (match e.data with
    | .dec (.flVersion f) => some f.platform
    | _ => none) else none).getLast?

end Verif.Spec
