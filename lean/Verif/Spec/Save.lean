import Verif.Model.Save
import Verif.Spec.Container
/-! Vocabulary for C86: what can be in a file when a save is interrupted. -/
set_option autoImplicit false
namespace Verif.Spec
open Verif
variable {D T : Type}

/-- What can be on disk when the save of `v` to a file that held `old` is interrupted (crash, power loss, exception) at any
moment: some number `k` of the file operations has been issued, and of what they wrote any initial part may have reached the
disk already. -/
def OnDisk (C : Codec D T) (v : Vfb D T) (old b : Bytes) : Prop :=
  ∃ k ≤ (v.writeOps C).length, b = old ∧ k = 0 ∨ 0 < k ∧ b <+: ((v.writeOps C).take k).foldl FileOp.apply old

/-- `b` is the file of the entries `es`, cut off within an entry: after the complete entries `pre` there are only some bytes,
`part`, of the entry `e` -/
def CutIn (minor : UInt8) (es : List (Nat × Bytes)) (pre : List (Nat × Bytes)) (e : Nat × Bytes) (post : List (Nat × Bytes))
    (part b : Bytes) : Prop :=
  es = pre ++ e :: post ∧ part <+: frame e ∧ part ≠ frame e ∧ b = fileOf minor pre ++ part

/-- The cuts after which a file still looks complete: one byte into an entry whose id ends in the byte 02 — the byte alone is
taken for the id of the end entry — or anywhere in the last entry, the end entry, after its first byte. -/
def LooksComplete (post : List (Nat × Bytes)) (e : Nat × Bytes) (part : Bytes) : Prop :=
  part.length = 1 ∧ e.1 % 256 = 2 ∨ 2 ≤ part.length ∧ post = []

end Verif.Spec
