import Verif.Model.Stream
/-! Specification vocabulary for entry payloads (C15 ff.). -/
set_option autoImplicit false
namespace Verif.Spec
open Verif

/-- Compiling `a` succeeds, and parsing the compiled payload returns `a` again. -/
def RoundTrips {α : Type} (compile : α → W) (parse : R α) (a : α) : Prop :=
  ∃ payload, compile a = .ok payload ∧ parseEntry parse payload = .ok a

/-- Compiling `a` succeeds, and parsing the compiled payload returns `b`. -/
def CompilesTo {α : Type} (compile : α → W) (parse : R α) (a b : α) : Prop :=
  ∃ payload, compile a = .ok payload ∧ parseEntry parse payload = .ok b

/-- Whatever a payload was parsed to, and that satisfies `cond`, can be compiled and parsed again to
the same value ("decompile – compile – decompile"). -/
def StableWhen {α : Type} (compile : α → W) (parse : R α) (cond : α → Prop) : Prop :=
  ∀ payload a, payload.length < 2147483648 → parseEntry parse payload = .ok a → cond a →
    RoundTrips compile parse a

/-- The same without any condition. -/
def Stable {α : Type} (compile : α → W) (parse : R α) : Prop :=
  ∀ payload a, payload.length < 2147483648 → parseEntry parse payload = .ok a →
    RoundTrips compile parse a

/-- The values that a payload was parsed to and that can be compiled and parsed again to the same value are exactly those
that satisfy `cond`. -/
def StableExactly {α : Type} (compile : α → W) (parse : R α) (cond : α → Prop) : Prop :=
  ∀ payload a, payload.length < 2147483648 → parseEntry parse payload = .ok a →
    (RoundTrips compile parse a ↔ cond a)

/-- Compiling `a` raises an exception. -/
def Rejected {α : Type} (compile : α → W) (a : α) : Prop := ∃ e, compile a = .error e

/-- a signed 32-bit integer -/
def IsInt32 (v : Int) : Prop := -2147483648 ≤ v ∧ v ≤ 2147483647
instance (v : Int) : Decidable (IsInt32 v) := by unfold IsInt32; infer_instance

/-- a value that `read_value(signed=False)`/`write_value(signed=False)` can carry -/
def IsUValue (v : Int) : Prop := -1131 ≤ v ∧ v < 4294967296
instance (v : Int) : Decidable (IsUValue v) := by unfold IsUValue; infer_instance

/-- all characters can be encoded as Windows-1252 -/
def IsLatin (s : PyStr) : Prop := ∀ c ∈ s, (cp1252Encode c).isSome = true
instance (s : PyStr) : Decidable (IsLatin s) := by unfold IsLatin; infer_instance

/-- `c` is a hexadecimal digit (`0`–`9`, `a`–`f`, `A`–`F`) of value `v`. -/
inductive HexChar : Nat → Nat → Prop
  | digit (v : Nat) (h : v < 10) : HexChar (48 + v) v
  | lower (v : Nat) (h : 10 ≤ v ∧ v < 16) : HexChar (97 + (v - 10)) v
  | upper (v : Nat) (h : 10 ≤ v ∧ v < 16) : HexChar (65 + (v - 10)) v

/-- The text `s` spells the bytes `b`: two hexadecimal digits per byte, the high one first; tab, line feed, vertical tab, form
feed, carriage return and space may stand between the bytes, before them and after them, but not inside a byte. -/
inductive HexText : PyStr → Bytes → Prop
  | done : HexText [] []
  | space (c : Nat) (s : PyStr) (b : Bytes) (hc : c ∈ [9, 10, 11, 12, 13, 32]) (hs : HexText s b) : HexText (c :: s) b
  | byte (c d : Nat) (x : UInt8) (s : PyStr) (b : Bytes) (hc : HexChar c (x.toNat / 16)) (hd : HexChar d (x.toNat % 16))
      (hs : HexText s b) : HexText (c :: d :: s) (x :: b)

end Verif.Spec
