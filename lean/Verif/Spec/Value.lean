import Verif.Py
/-! Independent specification vocabulary for C01–C07. It uses nothing from the model except the
representation of bytes, results and exceptions. -/
set_option autoImplicit false
namespace Verif.Spec

/-- "Charstring number encoding" of the Adobe Type 1 specification, p. 48, with the four-byte
number either two's complement (`signed = true`) or unsigned: `T1Num signed bytes value`. -/
inductive T1Num (signed : Bool) : Bytes → Int → Prop where
  | one (b : UInt8) (h : 32 ≤ b.toNat ∧ b.toNat ≤ 246) :
      T1Num signed [b] ((b.toNat : Int) - 139)
  | twoPos (b w : UInt8) (h : 247 ≤ b.toNat ∧ b.toNat ≤ 250) :
      T1Num signed [b, w] (((b.toNat : Int) - 247) * 256 + w.toNat + 108)
  | twoNeg (b w : UInt8) (h : 251 ≤ b.toNat ∧ b.toNat ≤ 254) :
      T1Num signed [b, w] (-(((b.toNat : Int) - 251) * 256) - w.toNat - 108)
  | five (a b c d : UInt8) :
      T1Num signed [255, a, b, c, d]
        (let u : Int := a.toNat * 16777216 + b.toNat * 65536 + c.toNat * 256 + d.toNat
         if signed = true ∧ 128 ≤ a.toNat then u - 4294967296 else u)

/-- `bs` is a self-delimiting encoding of `v` for the reader `read`: whatever follows, the reader
returns `v` and stops exactly behind `bs`. -/
def SelfDelimiting (read : R Int) (bs : Bytes) (v : Int) : Prop :=
  ∀ rest, read (bs ++ rest) = .ok v rest

/-- A fixed-width integer format of `size` bytes for the half-open range `[lo, hi)`. -/
structure FixedWidth (write : Int → W) (read : R Int) (size : Nat) (lo hi : Int) : Prop where
  /-- every value of the range is written as `size` bytes, little endian modulo `256^size`,
  and read back, whatever follows -/
  inside : ∀ v, lo ≤ v → v < hi →
    ∃ bs, write v = .ok bs ∧ bs.length = size ∧ SelfDelimiting read bs v ∧
      (((bs.zipIdx.map fun p => p.1.toNat * 256 ^ p.2).sum : Nat) : Int) % (256 ^ size : Nat) = v % (256 ^ size : Nat)
  /-- every other value is refused -/
  outside : ∀ v, ¬ (lo ≤ v ∧ v < hi) → write v = .error .overflow
  /-- every `size` bytes are read as a value of the range, and re-writing it restores the bytes -/
  onto : ∀ bs rest, bs.length = size → ∃ v, lo ≤ v ∧ v < hi ∧ read (bs ++ rest) = .ok v rest ∧ write v = .ok bs

end Verif.Spec
