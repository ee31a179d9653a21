import Verif.Model.TrueType
import Verif.Spec.Entry
/-! Specification vocabulary for C35–C38. -/
set_option autoImplicit false
namespace Verif.Spec
open Verif

/-- an unsigned 16-bit integer -/
def IsU16 (v : Int) : Prop := 0 ≤ v ∧ v < 65536
/-- a byte as a number -/
def IsByte (v : Int) : Prop := 0 ≤ v ∧ v < 256
instance (v : Int) : Decidable (IsU16 v) := by unfold IsU16; infer_instance
instance (v : Int) : Decidable (IsByte v) := by unfold IsByte; infer_instance

/-- Two dictionaries are equal for Python: the same keys with the same values, in whatever order. -/
def SameDict {κ ν : Type} [DecidableEq κ] (d d' : List (κ × ν)) : Prop := ∀ k, dictGet d k = dictGet d' k

/-- the names of the settings that are stored with the head flags, in the order of their bits -/
def settingNames : List PyStr := [lit "use_custom_tt_values", lit "create_vdmx", lit "add_null_cr_space"]

/-- A value that can be stored under the given key of the TrueType info: 32-bit numbers; head flags as an increasing
list of bits 0…15 with a selection of the known settings; ten Panose bytes; any number of Hdmx bytes; the
code page ranges. -/
def TTValFits (k : Int) : TTVal → Prop
  | .int v => k ∈ ttIntKeys ∧ IsInt32 v
  | .flags f o => k = 0x39 ∧ f.Pairwise (· < ·) ∧ (∀ b ∈ f, 0 ≤ b ∧ b < 16) ∧ o = settingNames.filter (· ∈ o)
  | .bytes l => (∀ b ∈ l, IsByte b) ∧ ((k = 0x4C ∧ l.length = 10) ∨ ((k = 0x53 ∨ k = 0x58) ∧ l.length < 2147483648))
  | .codepages a b => k = 0x54 ∧ IsUValue a ∧ IsUValue b

instance (k : Int) (v : TTVal) : Decidable (TTValFits k v) := by
  cases v <;> unfold TTValFits <;> infer_instance

/-- the keys without which the TrueType info cannot be compiled -/
def ttMandatoryKeys : List Int := [0x33, 0x34, 0x35, 0x36, 0x37, 0x38, 0x39, 0x4C, 0x54]

/-- a TrueType info dict that can be stored -/
def TTInfoFits (d : TTInfo) : Prop :=
  DictOk d ∧ (∀ p ∈ d, TTValFits p.1 p.2) ∧ ∀ k ∈ ttMandatoryKeys, (dictGet d k).isSome = true

instance (d : TTInfo) : Decidable (TTInfoFits d) := by unfold TTInfoFits; infer_instance

/-- the rounding ppms `ks` are all there, with 32-bit values -/
def RoundsFit (ks : List Int) (round : List (Int × Int)) : Prop :=
  ∀ k ∈ ks, ∃ v, dictGet round k = some v ∧ IsInt32 v

/-- the part of a `round` dict that is stored: the given ppms in this order -/
def onlyPpms (ks : List Int) (round : List (Int × Int)) : List (Int × Int) :=
  ks.filterMap fun k => (dictGet round k).map fun v => (k, v)

/-- a TrueType stem that can be stored: 32-bit numbers, and a name of up to 255 Windows-1252 characters -/
def TTStemFits (s : TTStem) : Prop :=
  IsInt32 s.value ∧ IsLatin s.name ∧ s.name.length ≤ 255 ∧ RoundsFit [6] s.round

/-- what is stored of a list of stems with their ppms: the given ppms, and the position in the list as number -/
def storedPpems (ks : List Int) (l : List TTPpem) : List TTPpem :=
  l.mapIdx fun j s => ⟨j, onlyPpms ks s.round⟩

/-- all stems have the given ppms, and there are fewer than 2^31 of them -/
def PpemsFit (ks : List Int) (l : List TTPpem) : Prop := l.length < 2147483648 ∧ ∀ s ∈ l, RoundsFit ks s.round

/-- a list of stems exactly as it is stored: numbered by position, with the given ppms in order -/
def PpemsNormal (ks : List Int) (l : List TTPpem) : Prop :=
  ∀ (i : Nat) (s : TTPpem), l[i]? = some s → s.stem = i ∧ s.round.map Prod.fst = ks

/-- a TrueType zone that can be stored -/
def TTZoneFits (z : TTZone) : Prop := IsInt32 z.position ∧ IsInt32 z.value ∧ IsLatin z.name ∧ z.name.length < 2147483648

/-- one side of the zones -/
def TTSideFits (l : Option (List TTZone)) : Prop := ∀ zs, l = some zs → zs.length < 2147483648 ∧ ∀ z ∈ zs, TTZoneFits z

/-- the shift for a zone at a ppm size -/
def deltaAt (d : TTDeltas) (zone ppm : Int) : Option Int := (dictGet d zone).bind fun spec => dictGet spec ppm

/-- the same zones with the same shifts -/
def SameDeltas (d d' : TTDeltas) : Prop :=
  ∀ zone, (dictGet d zone).isSome = (dictGet d' zone).isSome ∧ ∀ ppm, deltaAt d zone ppm = deltaAt d' zone ppm

/-- Zone deltas that can be stored: proper dictionaries of 32-bit numbers, fewer than 2^31 in all, and no zone
without deltas. -/
def DeltasFit (d : TTDeltas) : Prop :=
  DictOk d ∧ (∀ p ∈ d, IsInt32 p.1 ∧ p.2 ≠ [] ∧ DictOk p.2 ∧ ∀ q ∈ p.2, IsInt32 q.1 ∧ IsInt32 q.2) ∧
    (deltaList d).length < 2147483648

end Verif.Spec
