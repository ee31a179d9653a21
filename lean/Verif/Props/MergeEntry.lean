import Verif.Props.Merge
import Verif.Props.Table
/-! C43 at the level of entries: what compiling a glyph entry with pending data of other masters does, in success and failure. -/
set_option autoImplicit false
namespace Verif.Props
open Verif Verif.Spec

section
variable (ops : AngleOps) (asm : AsmOps)

/-- **C43** Compiling a glyph entry with matching data of other masters, in a font with several masters, is compiling the merged
glyph: it gives the same bytes or raises the same exception.  If it raises, the entry holds the merged glyph (everything but nodes
and components being as before), and the pending data stay. -/
theorem C43_compile (ctx : Ctx) (h1 : ctx.num_masters ≠ 1) (masters : List MasterData) (g : Glyph ops.Angle asm.Asm) (cached : Option Bytes)
    (hm : Mergeable masters ⟨g.nodes, g.components⟩) :
    ∃ nodes components, Merged masters ⟨g.nodes, g.components⟩ ⟨nodes, components⟩ ∧
      ∀ r e', Entry.compile (vfbCodec ops asm) ctx ⟨2001, .dec (.glyph g), some masters, cached⟩ = (r, e') →
        (Entry.compile (vfbCodec ops asm) ctx ⟨2001, .dec (.glyph { g with nodes := nodes, components := components }), none, cached⟩).1 = r ∧
        e' = { (Entry.compile (vfbCodec ops asm) ctx ⟨2001, .dec (.glyph { g with nodes := nodes, components := components }), none, cached⟩).2
               with temp_masters := some masters } ∧
        (∀ x, r = .error x → e'.data = .dec (.glyph { g with nodes := nodes, components := components })) := by
  obtain ⟨⟨nodes, components⟩, hd, hmer⟩ := C43_merge masters _ hm
  refine ⟨nodes, components, hmer, ?_⟩
  intro r e' h
  have hk : kindOf 2001 = some .glyph := by decide +kernel
  have hc : (vfbCodec ops asm).compile 2001 = some (Kind.compileData ops asm .glyph) := by
    show tableCompile ops asm 2001 = _
    unfold tableCompile
    rw [hk]
    rfl
  have hmg : (vfbCodec ops asm).merge 2001 masters (some (.glyph g)) =
      (some (.glyph { g with nodes := nodes, components := components }), none) := by
    have hv : (vfbCodec ops asm).merge = tableMerge ops asm := rfl
    rw [hv]
    unfold tableMerge
    simp only [if_true, hd]
  unfold Entry.compile Entry.merged at h ⊢
  simp only [hc, if_neg h1, hmg] at h ⊢
  cases hcd : Kind.compileData ops asm .glyph ctx (some (.glyph { g with nodes := nodes, components := components })) with
  | error x =>
    rw [hcd] at h
    simp only [Entry.withMerged, Prod.mk.injEq] at h
    obtain ⟨rfl, rfl⟩ := h
    exact ⟨rfl, rfl, fun _ _ => rfl⟩
  | ok b =>
    rw [hcd] at h
    simp only [Prod.mk.injEq] at h
    obtain ⟨rfl, rfl⟩ := h
    exact ⟨rfl, rfl, fun _ h => (by cases h)⟩

/-- **C43** If the data of another master do not match, compiling the entry raises an exception, and the entry still holds a
glyph, of which everything but nodes and components is as before. -/
theorem C43_compile_rejects (ctx : Ctx) (h1 : ctx.num_masters ≠ 1) (masters : List MasterData) (g : Glyph ops.Angle asm.Asm)
    (cached : Option Bytes) (hm : ¬ Mergeable masters ⟨g.nodes, g.components⟩) :
    ∃ x e' nodes components, Entry.compile (vfbCodec ops asm) ctx ⟨2001, .dec (.glyph g), some masters, cached⟩ = (.error x, e') ∧
      e' = ⟨2001, .dec (.glyph { g with nodes := nodes, components := components }), some masters, cached⟩ := by
  have hk : kindOf 2001 = some .glyph := by decide +kernel
  have hc : (vfbCodec ops asm).compile 2001 = some (Kind.compileData ops asm .glyph) := by
    show tableCompile ops asm 2001 = _
    unfold tableCompile
    rw [hk]
    rfl
  rw [← C43_rejects] at hm
  cases hg : mergeGlyph masters ⟨g.nodes, g.components⟩ with
  | mk r x =>
    rw [hg] at hm
    cases x with
    | none => exact absurd rfl hm
    | some x =>
      have hmg : (vfbCodec ops asm).merge 2001 masters (some (.glyph g)) =
          (some (.glyph { g with nodes := r.nodes, components := r.components }), some x) := by
        have hv : (vfbCodec ops asm).merge = tableMerge ops asm := rfl
        rw [hv]
        unfold tableMerge
        simp only [if_true, hg]
      refine ⟨x, _, r.nodes, r.components, ?_, rfl⟩
      unfold Entry.compile Entry.merged
      simp only [hc, if_neg h1, hmg]
      rfl

/-- **C43** Pending data of other masters that belong to any other entry than a glyph are ignored. -/
theorem C43_other_entries (ctx : Ctx) (e : Entry (Decompiled ops.Angle asm.Asm) (List MasterData)) (h : e.id ≠ 2001) :
    e.compile (vfbCodec ops asm) ctx =
      ((Entry.compile (vfbCodec ops asm) ctx { e with temp_masters := none }).1,
       { (Entry.compile (vfbCodec ops asm) ctx { e with temp_masters := none }).2 with temp_masters := e.temp_masters }) := by
  obtain ⟨id, data, tm, cached⟩ := e
  have hm : ∀ t d, (vfbCodec ops asm).merge id t d = (d, none) := by
    intro t d
    show tableMerge ops asm id t d = _
    unfold tableMerge
    exact if_neg h
  have hmer : Entry.merged (vfbCodec ops asm) ctx ⟨id, data, tm, cached⟩ = Entry.merged (vfbCodec ops asm) ctx ⟨id, data, none, cached⟩ := by
    unfold Entry.merged
    cases tm with
    | none => rfl
    | some t =>
      simp only [hm]
      exact ite_self _
  unfold Entry.compile
  rw [hmer]
  simp only
  generalize Entry.merged (vfbCodec ops asm) ctx ⟨id, data, none, cached⟩ = m
  obtain ⟨d, x⟩ := m
  cases data with
  | bytes b => rfl
  | none =>
    cases (vfbCodec ops asm).compile id with
    | none => rfl
    | some comp =>
      cases x with
      | some x => cases d <;> rfl
      | none =>
        simp only
        cases comp ctx d <;> cases d <;> rfl
  | dec d0 =>
    cases (vfbCodec ops asm).compile id with
    | none => rfl
    | some comp =>
      cases x with
      | some x => cases d <;> rfl
      | none =>
        simp only
        cases comp ctx d <;> cases d <;> rfl

end

/-! ### a glyph that meets the hypotheses -/

/-- a glyph with the nodes and components of `exampleMergeGlyph`, without number of masters, so that compiling it fails -/
def exampleBrokenGlyph : Glyph exampleAngles.Angle exampleAsm.Asm :=
  { emptyGlyph exampleAngles.Angle exampleAsm.Asm 2 with
    numMasters := none, nodes := exampleMergeGlyph.nodes, components := exampleMergeGlyph.components }

example : ∃ nodes components, Merged [⟨none, none⟩, exampleMergeSource] exampleMergeGlyph ⟨nodes, components⟩ ∧
    ∀ r e', Entry.compile (vfbCodec exampleAngles exampleAsm) { num_masters := 2 }
        ⟨2001, .dec (.glyph exampleBrokenGlyph), some [⟨none, none⟩, exampleMergeSource], none⟩ = (r, e') →
      e'.data = .dec (.glyph { exampleBrokenGlyph with nodes := nodes, components := components }) := by
  obtain ⟨n, c, h1, h2⟩ := C43_compile exampleAngles exampleAsm { num_masters := 2 } (by decide) [⟨none, none⟩, exampleMergeSource]
    exampleBrokenGlyph none ((C43_rejects _ _).1 (by decide +kernel))
  refine ⟨n, c, h1, fun r e' h => ?_⟩
  obtain ⟨_, _, h3⟩ := h2 r e' h
  cases r with
  | error x => exact h3 x rfl
  | ok b => cases h

end Verif.Props
