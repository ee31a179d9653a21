import Verif.Props.UfoSuccessMasters
import Verif.Props.UfoClasses
import Verif.Props.UfoInfoProps
import Verif.Props.UfoMasterInfo
import Verif.Props.UfoGuides
import Verif.Props.UfoDesign
import Verif.Props.EndToEnd
/-! C96: exactly which fonts can be converted. -/
set_option autoImplicit false
namespace Verif.Props
open Verif Verif.Spec

section
variable {ops : AngleOps} {deg : ops.Angle → Rat} {asm : AsmOps} {fmt : Int → PyStr}

theorem masterKerning_exists (k : UfoKerning) (m : Nat) : (∃ r, k.masterKerning m = .ok r) ↔ ∀ e ∈ k.names, m < e.2.length := by
  refine ⟨fun ⟨r, h⟩ => masterKerning_lengths h, fun h => ?_⟩
  unfold UfoKerning.masterKerning
  generalize ([] : List ((PyStr × PyStr) × Int)) = acc
  generalize k.names = l at h
  induction l generalizing acc with
  | nil => exact ⟨_, rfl⟩
  | cons e l ih =>
    have hlt := h e (by simp)
    have hidx : pyIndex e.2 (m : Int) = .ok e.2[m] := by
      rw [pyIndex, if_pos (by omega)]
      simp [hlt]
    rw [List.foldlM_cons, hidx]
    exact ih _ fun x hx => h x (by simp [hx])

variable (ops asm) in
/-- the number of UFOs of the font: one for each name of a master, at least as many as the axes need -/
def ufoCount (o : BuildOpts) (es : List (FEntry ops asm)) : Nat :=
  max (textsOf ops asm o es 1504).length (expectedMasters (numberOf ops asm o es 1513))

variable (ops asm) in
/-- what the entries need, each for itself or with those before it -/
structure EntriesReady (o : BuildOpts) (es : List (FEntry ops asm)) : Prop where
  /-- each glyph has got a name, metrics and nodes -/
  glyphs : ∀ b ∈ blocks ops asm es, Complete ops asm b.1
  /-- no entry about a glyph comes before the first glyph -/
  parts : ∀ e ∈ beforeGlyphs ops asm es, ¬ NeedsGlyph ops asm o e
  /-- the TrueType stems and zones fit together -/
  stems : FitsAll StemTableFits (stemTablesOf ops asm o es)
  zones : FitsAll ZoneTableFits (zoneTablesOf ops asm o es)
  /-- the axis mappings fit to the axes -/
  axes : FitsAll (AxisEntryFits ops asm o) es
  /-- an OpenType class has got at most one colon -/
  classes : ∀ t ∈ textsOf ops asm o es 1277, t.count 58 ≤ 1
  /-- the font info can be converted -/
  info : ∀ e ∈ effective ops asm o es, Convertible ops asm e.1 e.2

variable (ops asm) in
/-- what the masters need: `n` of them, `gp` the glyphs, their order and the kerning pairs -/
structure FontReady (o : UfoOpts) (es : List (FEntry ops asm)) (n : Nat) (gp : GlyphPart ops.Angle asm.Asm) : Prop where
  /-- kerning pairs refer to glyphs that exist -/
  pairs : ∀ e ∈ gp.kerning, InRange gp.order.length e.1.2
  /-- there is a kerning value for each master -/
  kerning : ∀ fp s, buildFeatures ops asm o.build es = .ok fp → sharedData o.fea o.build.minimal fp gp.order gp.kerning = .ok s →
    ∀ e ∈ s.kerning.names, n ≤ e.2.length
  /-- there is a PostScript info for each master -/
  psInfos : n ≤ (psInfosOf ops asm o.build es).length
  /-- the global guides have got a position for each master, their properties refer to guides before the first one or have got colours -/
  guides : o.build.minimal = false → ∀ g, guidesOf ops asm o.build es = some g →
    (∀ s ∈ g.h, n ≤ s.length) ∧ (∀ s ∈ g.v, n ≤ s.length) ∧
    (∀ q ∈ (guidePropsOf ops asm o.build es).h, Applicable g.h.length q) ∧ ∀ q ∈ (guidePropsOf ops asm o.build es).v, Applicable g.v.length q
  /-- TrueType instructions are complete, with stems and zones that exist -/
  instructions : ∀ stems zones, StemsOf ops asm o.build es stems → ZonesOf ops asm o.build es zones → ∀ e ∈ gp.masters, ∀ is, e.2.tth = some is →
    ∀ i ∈ is, Spec.Complete (fontEnv stems zones) i
  /-- with base64, the zones and stems that they refer to have got ASCII names -/
  ascii : o.base64 = true → ∀ stems zones, StemsOf ops asm o.build es stems → ZonesOf ops asm o.build es zones → ∀ e ∈ gp.masters, ∀ is,
    e.2.tth = some is → ∀ i ∈ is, AsciiNames (fontEnv stems zones) i
  /-- each glyph has got outlines, components, metrics and hints for each master -/
  glyphs : ∀ k < n, ∀ e ∈ gp.masters, GlyphReady ops asm o.build gp.order k e.2

/-- **C96** A font with entries of the right types, the zones before the glyphs, and components that do not nest too deeply, is converted exactly if
its entries are ready, and the masters have got all they need. -/
theorem C96_converts {o : UfoOpts} {depth : Nat} {es : List (FEntry ops asm)} (hw : ∀ e ∈ es, WellTyped ops asm e)
    (hz : ZonesFirst ops asm es)
    (hn : ∀ gp, buildGlyphs ops asm o.build es = .ok gp → ∀ e ∈ gp.masters, Nested gp.order (gidsOf ops asm gp) depth e.1) :
    (∃ ufos, convert ops deg asm fmt o depth es = .ok ufos) ↔
    EntriesReady ops asm o.build es ∧ ∀ gp, buildGlyphs ops asm o.build es = .ok gp → FontReady ops asm o es (ufoCount ops asm o.build es) gp := by
  rw [C96_parts hw hz hn]
  have hlen : ∀ {mp : MastersPart ops.Angle}, buildMasters ops asm o.build es = .ok mp → mp.masters.length = ufoCount ops asm o.build es := by
    intro mp h
    obtain ⟨st0, hi, rfl⟩ := buildMasters_inv h
    unfold ufoCount
    rw [numberOf_eq hi.axisCount, textsOf_of hi.masters]
    exact fixMasters_length _ _
  have hpos : 0 < ufoCount ops asm o.build es := by
    unfold ufoCount
    refine Nat.lt_of_lt_of_le ?_ (Nat.le_max_right _ _)
    unfold expectedMasters
    split
    · decide
    · rename_i h
      exact Nat.mul_pos (Int.natAbs_pos.2 h) (Int.natAbs_pos.2 h)
  have hlist : ∀ {α : Type} (l : List α), (∀ k < ufoCount ops asm o.build es, k < l.length) ↔ ufoCount ops asm o.build es ≤ l.length := by
    intro α l
    refine ⟨fun h => ?_, fun h k hk => by omega⟩
    have := h (ufoCount ops asm o.build es - 1) (by omega)
    omega
  constructor
  · rintro ⟨gp, stems, zones, mp, fp, ip, s, h1, h2, h3, h4, h5, h6, h7, hr⟩
    have hl := hlen h4
    obtain ⟨g1, g2⟩ := (C64_success ops asm es hw).1.1 ⟨gp, h1⟩
    refine ⟨⟨g1, g2, (C96_stems o.build es).1 ⟨_, h2⟩, (C96_zones o.build es).1 ⟨_, h3⟩, (C96_axes hw).1 ⟨_, h4⟩,
      (C75_success hw).1.1 ⟨_, h5⟩, (C78_success hw).1 ⟨_, h6⟩⟩, ?_⟩
    intro gp' hg
    rw [h1] at hg
    cases hg
    have hsz : ∀ stems' zones', StemsOf ops asm o.build es stems' → ZonesOf ops asm o.build es zones' → stems' = stems ∧ zones' = zones := by
      intro stems' zones' a1 a2
      unfold StemsOf at a1 h2
      unfold ZonesOf at a2 h3
      rw [h2] at a1
      rw [h3] at a2
      cases a1
      cases a2
      exact ⟨rfl, rfl⟩
    refine ⟨C76_success.1 ⟨_, h7⟩, ?_, ?_, ?_, ?_, ?_, ?_⟩
    · intro fp' s' a1 a2 e he
      rw [h5] at a1
      cases a1
      rw [h7] at a2
      cases a2
      refine (hlist _).1 fun k hk => ?_
      exact (masterKerning_exists _ _).1 (hr.kerning k (by omega)) e he
    · exact (hlist _).1 fun k hk => ((C80_success h4 _ _).1 (hr.info k (by omega))).1
    · intro hm g hg
      have hk : ∀ k < ufoCount ops asm o.build es, _ := fun k hk =>
        (C81_success g (guidePropsOf ops asm o.build es) k).1 (((C80_success h4 _ _).1 (hr.info k (by omega))).2 hm g hg)
      exact ⟨fun s hs => (hlist _).1 fun k hk' => (hk k hk').1 s hs, fun s hs => (hlist _).1 fun k hk' => (hk k hk').2.1 s hs,
        (hk 0 hpos).2.2.1, (hk 0 hpos).2.2.2⟩
    · intro stems' zones' a1 a2
      obtain ⟨rfl, rfl⟩ := hsz _ _ a1 a2
      exact hr.instructions
    · intro hb stems' zones' a1 a2
      obtain ⟨rfl, rfl⟩ := hsz _ _ a1 a2
      exact hr.ascii hb
    · rw [← hl]
      exact hr.glyphs
  · rintro ⟨he, hf⟩
    obtain ⟨gp, h1⟩ := (C64_success ops asm es hw).1.2 ⟨he.glyphs, he.parts⟩
    obtain ⟨stems, h2⟩ := (C96_stems o.build es).2 he.stems
    obtain ⟨zones, h3⟩ := (C96_zones o.build es).2 he.zones
    obtain ⟨mp, h4⟩ := (C96_axes hw).2 he.axes
    obtain ⟨fp, h5⟩ := (C75_success hw).1.2 he.classes
    obtain ⟨ip, h6⟩ := (C78_success (fmt := fmt) hw).2 he.info
    have hr := hf gp h1
    obtain ⟨s, h7⟩ := (C76_success (o := o.fea) (minimal := o.build.minimal) (p := fp)).2 hr.pairs
    have hl := hlen h4
    refine ⟨gp, stems, zones, mp, fp, ip, s, h1, h2, h3, h4, h5, h6, h7, hr.instructions stems zones h2 h3, fun hb => hr.ascii hb stems zones h2 h3, ?_, ?_, ?_⟩
    · intro k hk
      refine (masterKerning_exists _ _).2 fun e he => ?_
      have := hr.kerning fp s h5 h7 e he
      omega
    · intro k hk
      refine (C80_success h4 _ _).2 ⟨by have := hr.psInfos; omega, fun hm g hg => ?_⟩
      obtain ⟨a1, a2, a3, a4⟩ := hr.guides hm g hg
      refine (C81_success _ _ _).2 ⟨fun s hs => ?_, fun s hs => ?_, a3, a4⟩
      · have := a1 s hs; omega
      · have := a2 s hs; omega
    · rw [hl]
      exact hr.glyphs

end

/-! ### an example -/

/-- `Nested` as a program -/
def nests (order : List PyStr) (gids : PyStr → Option (List Int)) : Nat → PyStr → Bool
  | 0, _ => false
  | depth + 1, name =>
    match gids name with
    | none => false
    | some l => l.all fun gid => (pyIndex order gid).toOption.any (nests order gids depth)

theorem nests_nested {order : List PyStr} {gids : PyStr → Option (List Int)} : ∀ (depth : Nat) (name : PyStr),
    nests order gids depth name = true → Nested order gids depth name := by
  intro depth
  induction depth with
  | zero => intro name h; cases h
  | succ depth ih =>
    intro name h
    rw [nests] at h
    cases hg : gids name with
    | none => rw [hg] at h; cases h
    | some l =>
      rw [hg] at h
      refine ⟨l, hg, fun gid hm => ?_⟩
      have h1 := List.all_eq_true.1 h gid hm
      cases hp : pyIndex order gid with
      | error e => rw [hp] at h1; cases h1
      | ok c =>
        rw [hp] at h1
        exact ⟨c, rfl, ih c h1⟩

theorem exampleConvert_typed : ∀ e ∈ exampleConvertFont, WellTyped exampleAngles exampleAsm e := by
  intro e he k d hk hd
  simp only [exampleConvertFont, List.mem_cons, List.not_mem_nil, or_false] at he
  rcases he with rfl | rfl | rfl | rfl | rfl | rfl | rfl | rfl | rfl | rfl | rfl | rfl | rfl | rfl | rfl | rfl | rfl
  all_goals
    first
    | (rw [show kindOf _ = some Kind.string from by decide +kernel] at hk; injection hk with hk; subst hk; injection hd with hd; subst hd; rfl)
    | (rw [show kindOf _ = some Kind.glyph from by decide +kernel] at hk; injection hk with hk; subst hk; injection hd with hd; subst hd; rfl)
    | (rw [show kindOf _ = some Kind.unicodes from by decide +kernel] at hk; injection hk with hk; subst hk; injection hd with hd; subst hd; rfl)
    | (rw [show kindOf _ = some Kind.ttZones from by decide +kernel] at hk; injection hk with hk; subst hk; injection hd with hd; subst hd; rfl)
    | (rw [show kindOf _ = some Kind.ttPpems from by decide +kernel] at hk; injection hk with hk; subst hk; injection hd with hd; subst hd; rfl)
    | (rw [show kindOf _ = some Kind.ttStems from by decide +kernel] at hk; injection hk with hk; subst hk; injection hd with hd; subst hd; rfl)
    | (rw [show kindOf _ = some Kind.psInfo from by decide +kernel] at hk; injection hk with hk; subst hk; injection hd with hd; subst hd; rfl)
    | (rw [show kindOf _ = some Kind.int16 from by decide +kernel] at hk; injection hk with hk; subst hk; injection hd with hd; subst hd; rfl)

theorem exampleConvert_zones : ZonesFirst exampleAngles exampleAsm exampleConvertFont := by
  unfold ZonesFirst exampleConvertFont
  simp

theorem exampleConvert_nested : ∀ gp, buildGlyphs exampleAngles exampleAsm exampleConvertOpts.build exampleConvertFont = .ok gp → ∀ e ∈ gp.masters,
    Nested gp.order (gidsOf exampleAngles exampleAsm gp) 10 e.1 := by
  intro gp h e he
  have h1 : (buildGlyphs exampleAngles exampleAsm exampleConvertOpts.build exampleConvertFont).toOption.all
      (fun gp => gp.masters.all fun e => nests gp.order (gidsOf exampleAngles exampleAsm gp) 10 e.1) = true := by decide +kernel
  rw [h] at h1
  exact nests_nested _ _ (List.all_eq_true.1 h1 e he)

example : EntriesReady exampleAngles exampleAsm exampleConvertOpts.build exampleConvertFont := by
  refine ((C96_converts (deg := fun _ => 0) (fmt := exampleFmt) (o := exampleConvertOpts) exampleConvert_typed exampleConvert_zones exampleConvert_nested).1 ?_).1
  cases h : convert exampleAngles (fun _ => 0) exampleAsm exampleFmt exampleConvertOpts 10 exampleConvertFont with
  | ok u => exact ⟨u, rfl⟩
  | error e =>
    have : (convert exampleAngles (fun _ => 0) exampleAsm exampleFmt exampleConvertOpts 10 exampleConvertFont).toOption.isSome = true := by decide +kernel
    rw [h] at this
    cases this

end Verif.Props
