import Verif.Props.Table
/-! C15: entries that have no data (`data` is None). -/
set_option autoImplicit false
namespace Verif.Props
open Verif Verif.Spec

section
variable (ops : AngleOps) (asm : AsmOps)

/-- what the compiler of each class does with None -/
theorem compileNone_kind (k : Kind) :
    (k = .hex ∨ k = .stringHex ∨ k = .string → (k.cls ops asm).compileNone = .ok []) ∧
    (k = .vendor → (k.cls ops asm).compileNone = .ok [0, 0, 0, 0]) ∧
    (k ≠ .hex → k ≠ .stringHex → k ≠ .string → k ≠ .vendor → ∃ x, (k.cls ops asm).compileNone = .error x) := by
  refine ⟨?_, ?_, ?_⟩
  · rintro (rfl | rfl | rfl) <;> rfl
  · rintro rfl; rfl
  · intro h1 h2 h3 h4
    cases k <;> first | exact absurd rfl h1 | exact absurd rfl h2 | exact absurd rfl h3 | exact absurd rfl h4 | exact ⟨_, rfl⟩

/-- **C15** An entry that was added without data (None), and has no data of further masters, is compiled as follows.  The entries
that hold raw data and the text entries become empty; the vendor id (1121) becomes four zero bytes; for all other entries of the
list an exception is raised and the entry still has no data; an entry of unknown id is not compiled, and still has no data. -/
theorem C15_no_data (ctx : Ctx) (e : Entry (Decompiled ops.Angle asm.Asm) (List MasterData)) (hd : e.data = .none)
    (ht : e.temp_masters = none) :
    (e.id ∈ idsOf .hex ∨ e.id ∈ idsOf .stringHex ∨ e.id ∈ idsOf .string →
      e.compile (vfbCodec ops asm) ctx = (.ok true, { e with data := .bytes [] })) ∧
    (e.id = 1121 → e.compile (vfbCodec ops asm) ctx = (.ok true, { e with data := .bytes [0, 0, 0, 0] })) ∧
    (∀ k, k ≠ .hex → k ≠ .stringHex → k ≠ .string → k ≠ .vendor → e.id ∈ idsOf k →
      ∃ x, e.compile (vfbCodec ops asm) ctx = (.error x, e)) ∧
    ((∀ k, e.id ∉ idsOf k) → e.compile (vfbCodec ops asm) ctx = (.ok false, e)) := by
  have hm : e.merged (vfbCodec ops asm) ctx = (none, none) := by
    unfold Entry.merged
    rw [hd, ht]
  have hcomp : ∀ k, e.id ∈ idsOf k → (vfbCodec ops asm).compile e.id = some (k.compileData ops asm) := by
    intro k hk
    show tableCompile ops asm e.id = _
    unfold tableCompile
    rw [(C15_layout e.id k).mpr hk]
    rfl
  have hok : ∀ k b, e.id ∈ idsOf k → (k.cls ops asm).compileNone = .ok b →
      e.compile (vfbCodec ops asm) ctx = (.ok true, { e with data := .bytes b }) := by
    intro k b hk hb
    unfold Entry.compile
    rw [hd]
    simp only [hcomp k hk, hm, Kind.compileData, hb]
  have herr : ∀ k x, e.id ∈ idsOf k → (k.cls ops asm).compileNone = .error x →
      e.compile (vfbCodec ops asm) ctx = (.error x, e) := by
    intro k x hk hb
    unfold Entry.compile
    rw [hd]
    simp only [hcomp k hk, hm, Kind.compileData, hb, Entry.withMerged]
  refine ⟨?_, ?_, ?_, ?_⟩
  · rintro (h | h | h)
    · exact hok _ _ h ((compileNone_kind ops asm .hex).1 (by simp))
    · exact hok _ _ h ((compileNone_kind ops asm .stringHex).1 (by simp))
    · exact hok _ _ h ((compileNone_kind ops asm .string).1 (by simp))
  · intro h
    exact hok .vendor _ (by rw [h]; decide +kernel) ((compileNone_kind ops asm .vendor).2.1 rfl)
  · intro k h1 h2 h3 h4 hk
    obtain ⟨x, hx⟩ := (compileNone_kind ops asm k).2.2 h1 h2 h3 h4
    exact ⟨x, herr k x hk hx⟩
  · intro h
    have hn : kindOf e.id = none := by
      cases hk : kindOf e.id with
      | none => rfl
      | some k => exact absurd ((C15_layout e.id k).mp hk) (h k)
    have : (vfbCodec ops asm).compile e.id = none := by
      show tableCompile ops asm e.id = _
      unfold tableCompile
      rw [hn]
      rfl
    unfold Entry.compile
    rw [hd]
    simp only [this]

/-- a font name, the number of masters, and an entry of unknown id, all without data -/
example (ctx : Ctx) :
    Entry.compile (vfbCodec ops asm) ctx { id := 1026 } = (.ok true, { id := 1026, data := .bytes [] }) ∧
    (∃ x, Entry.compile (vfbCodec ops asm) ctx { id := 1503 } = (.error x, { id := 1503 })) ∧
    Entry.compile (vfbCodec ops asm) ctx { id := 9999 } = (.ok false, { id := 9999 }) := by
  refine ⟨(C15_no_data ops asm ctx { id := 1026 } rfl rfl).1 (.inr (.inr (show (1026 : Int) ∈ idsOf .string by decide +kernel))),
    (C15_no_data ops asm ctx { id := 1503 } rfl rfl).2.2.1 .int16 (by simp) (by simp) (by simp) (by simp) (show (1503 : Int) ∈ idsOf .int16 by decide +kernel),
    (C15_no_data ops asm ctx { id := 9999 } rfl rfl).2.2.2 fun k => ?_⟩
  intro h
  have := (C15_layout 9999 k).mpr h
  revert this
  have : kindOf 9999 = none := by decide +kernel
  rw [this]
  simp

end
end Verif.Props
