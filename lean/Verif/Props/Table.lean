import Verif.Spec.Table
import Verif.Props.Base
import Verif.Props.Bitmap
import Verif.Props.Numeric
import Verif.Props.Text
import Verif.Props.Guides
import Verif.Props.Ps
import Verif.Props.Options
import Verif.Props.Container
import Verif.Props.TrueType
import Verif.Props.Mm
import Verif.Props.GlyphEntries
import Verif.Props.Outline
import Verif.Props.Glyph
import Verif.Props.Merge
/-! C15 and C16: the actual table of entry classes. -/
set_option autoImplicit false
namespace Verif.Props
open Verif Verif.Spec

section
variable (ops : AngleOps) (asm : AsmOps)

theorem parseEntry_map {α D : Type} (p : R α) (f : α → D) (b : Bytes) :
    parseEntry (do let a ← p; pure (f a)) b = (parseEntry p b).map f := by
  unfold parseEntry
  rw [R.bind_run]
  cases hp : p b with
  | err e r => rfl
  | ok a r => cases r <;> rfl

theorem sameData_refl {A ASM : Type} (d : Decompiled A ASM) : SameData d d := by
  cases d <;> first | rfl | (intro k; rfl) | (intro k; exact ⟨rfl, fun _ => rfl⟩)

/-- an entry class returns what it was given -/
theorem proj_inj (k : Kind) (a : (k.cls ops asm).Ty) : (k.cls ops asm).proj ((k.cls ops asm).inj a) = some a := by
  cases k
  case kernPair =>
    have : ∀ a : KernPairData, (Kind.kernPair.cls ops asm).proj ((Kind.kernPair.cls ops asm).inj a) = some a := by
      intro a; cases a <;> rfl
    exact this a
  all_goals rfl

/-- the typed form of C15 for one class -/
def KindOk (ctx : Ctx) (k : Kind) : Prop :=
  ∀ (payload : Bytes) (a : (k.cls ops asm).Ty), payload.length < 2147483648 → parseEntry ((k.cls ops asm).parse ctx) payload = .ok a →
    Survives ops asm ctx k ((k.cls ops asm).inj a) →
    ∃ b a', (k.cls ops asm).compile ctx a = .ok b ∧ parseEntry ((k.cls ops asm).parse ctx) b = .ok a' ∧
      SameData ((k.cls ops asm).inj a) ((k.cls ops asm).inj a')

theorem kindOk_of_stable {ctx : Ctx} {k : Kind} (h : Stable ((k.cls ops asm).compile ctx) ((k.cls ops asm).parse ctx)) : KindOk ops asm ctx k := by
  intro payload a hp ha _
  obtain ⟨b, h1, h2⟩ := h payload a hp ha
  exact ⟨b, a, h1, h2, sameData_refl _⟩

theorem kindOk_of_when {ctx : Ctx} {k : Kind} {cond : (k.cls ops asm).Ty → Prop}
    (h : StableWhen ((k.cls ops asm).compile ctx) ((k.cls ops asm).parse ctx) cond)
    (hc : ∀ a, Survives ops asm ctx k ((k.cls ops asm).inj a) → cond a) : KindOk ops asm ctx k := by
  intro payload a hp ha hs
  obtain ⟨b, h1, h2⟩ := h payload a hp ha (hc a hs)
  exact ⟨b, a, h1, h2, sameData_refl _⟩

theorem hex_stable : Stable (fun s => compileHex (some s)) parseHex := by
  intro payload a _ h
  obtain ⟨s, h1, h2⟩ := C17_hex_lossless payload
  rw [h] at h1
  injection h1 with h1
  subst h1
  exact ⟨payload, h2, h⟩

theorem instances_stable : StableWhen compileInstances parseInstances fun l => ∀ i ∈ l, ∀ x ∈ i.values, storedCoord x = x := by
  intro payload l hp h hc
  have := (C39_instances_cycle payload l hp h).1
  have e : (l.map fun i => (⟨i.name, i.values.map storedCoord⟩ : PrimaryInstance)) = l := by
    conv_rhs => rw [← List.map_id l]
    apply List.map_congr_left
    intro i hi
    have : i.values.map storedCoord = i.values := by
      conv_rhs => rw [← List.map_id i.values]
      exact List.map_congr_left fun x hx => hc i hi x hx
    rw [this]
    rfl
  rw [e] at this
  exact this

theorem binary_stable : Stable compileBinaryTable parseBinaryTable := fun payload d _ h =>
  ⟨payload, C40_binary_lossless payload d h, h⟩

theorem guides_stable (n : Nat) (hr : ∀ v, IsInt32 v → IsInt32 (ops.fromAngle (ops.toAngle v))) :
    StableWhen (compileGuides ops n) (parseGlobalGuides ops n) (AnglesExact ops) := by
  intro payload d _ h ha
  have := (C30_guides_stable ops n hr payload d h).1
  rw [reangle_exact ops d ha] at this
  exact this

theorem glyph_stable (n : Nat) (hr : ∀ v, IsInt32 v → IsInt32 (ops.fromAngle (ops.toAngle v))) :
    StableWhen (compileGlyph ops asm n) (parseGlyph ops asm)
      fun g => GlyphComplete ops asm n g ∧ ∀ d, g.guides = some d → AnglesExact ops d := by
  intro payload g hp h hc
  have := C42_stable ops asm hr n payload g hp h hc.1
  have hx : g.guides.map (reangle ops) = g.guides := by
    cases hg : g.guides with
    | none => rfl
    | some d => rw [Option.map_some, reangle_exact ops d (hc.2 d hg)]
  rw [hx] at this
  exact this

theorem windows_false {ctx : Ctx} (h : ctx.writer_platform ≠ lit "windows") : decide (ctx.writer_platform = lit "windows") = false := by
  simp [h]

theorem kindOk (hr : ∀ v, IsInt32 v → IsInt32 (ops.fromAngle (ops.toAngle v))) (ctx : Ctx) (k : Kind) : KindOk ops asm ctx k := by
  cases k
  case hex => exact kindOk_of_stable ops asm hex_stable
  case stringHex =>
    intro payload s hp h hs
    have hs : s = [] := hs
    subst hs
    exact ⟨[], [], rfl, rfl, rfl⟩
  case string => exact kindOk_of_stable ops asm C27_string_stable
  case vendor => exact kindOk_of_stable ops asm C27_vendor_stable
  case flVersion => exact kindOk_of_stable ops asm C29_flversion_stable
  case glyphEncoding => exact kindOk_of_stable ops asm C20_glyph_encoding_stable
  case int16 => exact kindOk_of_stable ops asm C25_int_stable.1
  case sint16 => exact kindOk_of_stable ops asm C25_int_stable.2.1
  case sint32 => exact kindOk_of_stable ops asm C25_int_stable.2.2
  case double => exact kindOk_of_stable ops asm C25_double_stable
  case doubleList => exact kindOk_of_stable ops asm C25_double_list_stable
  case intList => exact kindOk_of_stable ops asm C25_int_list_stable
  case panose => exact kindOk_of_stable ops asm C25_panose_stable
  case psGlobalOptions => exact kindOk_of_stable ops asm C32_options_stable.1
  case psGlyphOptions => exact kindOk_of_stable ops asm C32_options_stable.2
  case valueListCount => exact kindOk_of_stable ops asm C19_value_list_stable.2
  case valueList => exact kindOk_of_stable ops asm C19_value_list_stable.1
  case gasp => exact kindOk_of_stable ops asm C35_gasp_stable
  case ttInfo =>
    intro payload d _ h hs
    obtain ⟨d', ⟨b, h1, h2⟩, h3, _⟩ := C36_tt_info_stable payload d h hs.1 hs.2
    exact ⟨b, d', h1, h2, h3⟩
  case vdmx => exact kindOk_of_stable ops asm C35_vdmx_stable
  case ttPpems23 => exact kindOk_of_stable ops asm C37_ppems_stable.2.1
  case ttPpems => exact kindOk_of_stable ops asm C37_ppems_stable.1
  case ttStems => exact kindOk_of_stable ops asm C37_stems_stable
  case ttPpems1 => exact kindOk_of_stable ops asm (C37_ppems_stable.2.2 _ _)
  case ttZones => exact kindOk_of_stable ops asm C38_zones_stable
  case ttDeltas =>
    intro payload d _ h _
    obtain ⟨d', ⟨b, h1, h2⟩, h3⟩ := C38_deltas_stable payload d h
    exact ⟨b, d', h1, h2, h3⟩
  case unicodeRanges => exact kindOk_of_when ops asm C26_unicode_ranges_stable_when fun _ h => h
  case nameRecords => exact kindOk_of_when ops asm C28_names_stable_when fun _ h => h
  case cmaps => exact kindOk_of_stable ops asm C40_cmaps_stable
  case pclt => exact kindOk_of_when ops asm C33_pclt_stable_when fun _ h => h
  case metricsFlags => exact kindOk_of_when ops asm C22_class_flags_stable_when.2 fun _ h => h
  case kerningFlags => exact kindOk_of_when ops asm C22_class_flags_stable_when.1 fun _ h => h
  case binaryTable => exact kindOk_of_stable ops asm binary_stable
  case fea => exact kindOk_of_stable ops asm C27_fea_stable.1
  case aniso => exact kindOk_of_stable ops asm C39_aniso_stable
  case axisCounts => exact kindOk_of_stable ops asm C39_axis_counts_stable
  case axisMappings => exact kindOk_of_stable ops asm C39_axis_mappings_stable
  case masterLocation => exact kindOk_of_stable ops asm C39_master_location_stable
  case instances => exact kindOk_of_when ops asm instances_stable fun _ h => h
  case psInfo => exact kindOk_of_stable ops asm C32_ps_info_stable
  case globalGuides => exact kindOk_of_when ops asm (guides_stable ops _ hr) fun _ h => h
  case guideProps => exact kindOk_of_when ops asm C31_guide_properties_stable_when fun _ h => h
  case globalMask => exact kindOk_of_when ops asm C46_global_mask_stable fun _ h => h
  case glyph => exact kindOk_of_when ops asm (glyph_stable ops asm _ hr) fun _ h => h
  case links => exact kindOk_of_stable ops asm C44_links_stable
  case background =>
    intro payload a hp ha hs
    have hw := windows_false hs.1
    have ha : parseEntry (parseBackground (decide (ctx.writer_platform = lit "windows"))) payload = .ok a := ha
    rw [hw] at ha
    obtain ⟨b, h1, h2⟩ := C24_bitmap_stable.1 payload a hp ha hs.2
    refine ⟨b, a, ?_, ?_, rfl⟩
    · show compileBackground (decide (ctx.writer_platform = lit "windows")) a = .ok b
      rw [hw]; exact h1
    · show parseEntry (parseBackground (decide (ctx.writer_platform = lit "windows"))) b = .ok a
      rw [hw]; exact h2
  case bitmaps =>
    intro payload a hp ha hs
    have hw := windows_false hs.1
    have ha : parseEntry (parseGlyphBitmaps (decide (ctx.writer_platform = lit "windows"))) payload = .ok a := ha
    rw [hw] at ha
    obtain ⟨b, h1, h2⟩ := C24_bitmap_stable.2 payload a hp ha hs.2
    refine ⟨b, a, ?_, ?_, rfl⟩
    · show compileGlyphBitmaps (decide (ctx.writer_platform = lit "windows")) a = .ok b
      rw [hw]; exact h1
    · show parseEntry (parseGlyphBitmaps (decide (ctx.writer_platform = lit "windows"))) b = .ok a
      rw [hw]; exact h2
  case sketch => exact kindOk_of_stable ops asm C44_sketch_stable
  case mask => exact kindOk_of_when ops asm C46_mask_stable fun _ h => h
  case maskMetrics => exact kindOk_of_stable ops asm C46_mask_metrics_stable
  case maskMetricsMM => exact kindOk_of_stable ops asm (C46_mask_metrics_mm_stable _)
  case origin => exact kindOk_of_stable ops asm C44_origin_stable
  case unicodes => exact kindOk_of_stable ops asm C44_unicodes_stable
  case unicodesSupp => exact kindOk_of_stable ops asm C44_unicodes_supp_stable
  case gdef => exact kindOk_of_stable ops asm C45_gdef_stable
  case anchorsSupp => exact kindOk_of_when ops asm C44_anchor_props_stable fun _ h => h
  case anchors => exact kindOk_of_when ops asm (C44_anchors_stable _) fun _ h => h
  case fontOptions => exact kindOk_of_when ops asm C34_font_options_stable fun _ h => h
  case exportOptions => exact kindOk_of_when ops asm C34_export_options_stable fun _ h => h
  case mappingMode => exact kindOk_of_when ops asm C21_mapping_mode_stable_when fun _ h => h
  case kernPair =>
    intro payload a _ _ hs
    exact absurd hs (by simp [Survives])

/-- **C15** Every entry type: whatever the payload of an entry whose id is in the table was decompiled to can be compiled, and
decompiling that gives equal data, with exactly the exceptions listed in `Survives`.  (`hr`: the angle functions map 32-bit slopes
to 32-bit slopes.) -/
theorem C15_entry_stable (hr : ∀ v, IsInt32 v → IsInt32 (ops.fromAngle (ops.toAngle v))) (id : Int) (k : Kind) (hk : kindOf id = some k)
    (ctx : Ctx) (payload : Bytes) (d : Decompiled ops.Angle asm.Asm) (hp : payload.length < 2147483648)
    (h : parseEntry ((vfbCodec ops asm).parse id ctx) payload = .ok d) (hs : Survives ops asm ctx k d) :
    ∃ comp b d', (vfbCodec ops asm).compile id = some comp ∧ comp ctx (some d) = .ok b ∧
      parseEntry ((vfbCodec ops asm).parse id ctx) b = .ok d' ∧ SameData d d' := by
  have hparse : (vfbCodec ops asm).parse id ctx = (do
      let a ← (k.cls ops asm).parse ctx
      pure ((k.cls ops asm).inj a)) := by
    show tableParse ops asm id ctx = _
    unfold tableParse
    rw [hk]
  have hcomp : (vfbCodec ops asm).compile id = some (k.compileData ops asm) := by
    show tableCompile ops asm id = _
    unfold tableCompile
    rw [hk]
    rfl
  rw [hparse, parseEntry_map] at h
  cases ha : parseEntry ((k.cls ops asm).parse ctx) payload with
  | error e => rw [ha] at h; cases h
  | ok a =>
    rw [ha] at h
    have h : (Except.ok ((k.cls ops asm).inj a) : Except PyErr (Decompiled ops.Angle asm.Asm)) = .ok d := h
    injection h with h
    subst h
    obtain ⟨b, a', h1, h2, h3⟩ := kindOk ops asm hr ctx k payload a hp ha hs
    refine ⟨_, b, _, hcomp, ?_, ?_, h3⟩
    · unfold Kind.compileData
      simp only [proj_inj]
      exact h1
    · rw [hparse, parseEntry_map, h2]
      rfl

/-- **C15** ids that are not in the table are decompiled to hexadecimal digits, and there is no compiler for them -/
theorem C15_unknown_id (id : Int) (hk : kindOf id = none) (ctx : Ctx) (payload : Bytes) :
    (∃ s, parseEntry ((vfbCodec ops asm).parse id ctx) payload = .ok (.str s) ∧ s.length = 2 * payload.length) ∧
      (vfbCodec ops asm).compile id = none := by
  constructor
  · obtain ⟨s, h1, _⟩ := C17_hex_lossless payload
    have hparse : (vfbCodec ops asm).parse id ctx = (do
        let s ← parseHex
        pure (.str s)) := by
      show tableParse ops asm id ctx = _
      unfold tableParse
      rw [hk]
    refine ⟨s, ?_, ?_⟩
    · rw [hparse, parseEntry_map, h1]; rfl
    · have : parseEntry parseHex payload = .ok (hexStr payload) := by rfl
      rw [this] at h1
      injection h1 with h1
      rw [← h1]
      unfold hexStr
      induction payload with
      | nil => rfl
      | cons b l ih => simp [List.flatMap_cons, ih]; omega
  · show tableCompile ops asm id = none
    unfold tableCompile
    rw [hk]
    rfl

/-- **C15** The table: ids and keys are unique, ids fit into 15 bits, and the end entry is a plain entry. -/
theorem C15_table : (parserClasses.map fun r => r.1).Nodup ∧ (parserClasses.map fun r => r.2.1).Nodup ∧
    (∀ r ∈ parserClasses, 0 < r.1 ∧ r.1 < 32768 ∧ kindOf r.1 = some r.2.2) ∧ kindOf 2 = some .hex ∧ parserClasses.length = 144 := by
  refine ⟨by decide +kernel, by decide +kernel, by decide +kernel, by decide +kernel, by decide +kernel⟩

/-- **C15** Which ids hold which kind of data: exactly the lists of `idsOf`. -/
theorem C15_layout (id : Int) (k : Kind) : kindOf id = some k ↔ id ∈ idsOf k := by
  constructor
  · intro h
    unfold kindOf at h
    cases hf : parserClasses.find? (fun r => r.1 == id) with
    | none => rw [hf] at h; cases h
    | some r =>
      rw [hf] at h
      injection h with h
      have h : r.2.2 = k := h
      have hid : (r.1 == id) = true := List.find?_some (p := fun r : Int × String × Kind => r.1 == id) hf
      have hall : ∀ r ∈ parserClasses, r.1 ∈ idsOf r.2.2 := by decide +kernel
      have := hall r (List.mem_of_find?_eq_some hf)
      rw [h, eq_of_beq hid] at this
      exact this
  · have hall : ∀ k : Kind, ∀ id ∈ idsOf k, kindOf id = some k := by
      intro k
      cases k <;> decide +kernel
    exact hall k id

theorem deHexStr_length (n : Nat) : ∀ (s : PyStr) (b : Bytes), s.length ≤ n → deHexStr s = .ok b → 2 * b.length ≤ s.length := by
  induction n with
  | zero =>
    intro s b hs h
    have : s = [] := List.eq_nil_of_length_eq_zero (by omega)
    subst this
    unfold deHexStr at h
    cases h
    simp
  | succ n ih =>
    intro s b hs h
    cases s with
    | nil => unfold deHexStr at h; cases h; simp
    | cons c s =>
      unfold deHexStr at h
      simp only [List.length_cons] at hs ⊢
      cases hc : isHexSpace c with
      | true =>
        rw [hc, if_pos rfl] at h
        have := ih s b (by omega) h
        omega
      | false =>
        rw [hc, if_neg (by simp)] at h
        cases s with
        | nil => cases h
        | cons d s =>
          simp only [List.length_cons] at hs ⊢
          simp only at h
          cases h1 : hexVal c with
          | none => rw [h1] at h; cases h
          | some x =>
            cases h2 : hexVal d with
            | none => rw [h1, h2] at h; cases h
            | some y =>
              rw [h1, h2] at h
              simp only at h
              cases h3 : deHexStr s with
              | error e => rw [h3] at h; cases h
              | ok b' =>
                rw [h3] at h
                cases h
                have := ih s b' (by omega) h3
                simp only [List.length_cons]
                omega

/-- **C15** (Known defect) The entries Block Names End (518) and Block Font Info Start (257) are read as text, but written as
hexadecimal digits: a text that is not empty never survives; either it cannot be compiled, or it is read back shorter. -/
theorem C15_string_hex_lost (id : Int) (hid : id = 518 ∨ id = 257) (ctx : Ctx) (s : PyStr) (hs : s ≠ []) (b : Bytes)
    (comp : Ctx → Option (Decompiled ops.Angle asm.Asm) → W) (hc : (vfbCodec ops asm).compile id = some comp)
    (hb : comp ctx (some (.str s)) = .ok b) : parseEntry ((vfbCodec ops asm).parse id ctx) b ≠ .ok (.str s) := by
  have hk : kindOf id = some .stringHex := by rcases hid with rfl | rfl <;> decide +kernel
  have hcomp : (vfbCodec ops asm).compile id = some (Kind.stringHex.compileData ops asm) := by
    show tableCompile ops asm id = _
    unfold tableCompile
    rw [hk]
    rfl
  rw [hcomp] at hc
  injection hc with hc
  subst hc
  have hb : compileHex (some s) = .ok b := hb
  have hl : 2 * b.length ≤ s.length := by
    cases s with
    | nil => exact absurd rfl hs
    | cons c s => exact deHexStr_length _ (c :: s) b (Nat.le_refl _) hb
  have hparse : (vfbCodec ops asm).parse id ctx = (do
      let a ← parseString
      pure (.str a)) := by
    show tableParse ops asm id ctx = _
    unfold tableParse
    rw [hk]
    rfl
  rw [hparse, parseEntry_map]
  intro h
  cases hp : parseEntry parseString b with
  | error e => rw [hp] at h; cases h
  | ok t =>
    rw [hp] at h
    have ht : t.length ≤ b.length := by
      refine parseEntry_post (P := fun t => t.length ≤ b.length) ?_ hp
      refine Post.bind post_strAll fun t ht => Post.pure ?_
      exact Nat.le_trans (stripNul_sublist t).length_le ht.2
    injection h with h
    injection h with h
    subst h
    cases t with
    | nil => exact hs rfl
    | cons c t => simp only [List.length_cons] at *; omega

/-! ## C16 for the actual table -/

theorem special_kinds (id : Int) (h : isSpecial id = true) :
    kindOf id = some .flVersion ∧ id = 10 ∨ kindOf id = some .int16 ∧ id = 1503 ∨ kindOf id = some .ttStems ∧ id = 1269 := by
  simp only [isSpecial, Bool.or_eq_true, decide_eq_true_eq] at h
  rcases h with (rfl | rfl) | rfl
  · exact .inl ⟨by decide +kernel, rfl⟩
  · exact .inr (.inl ⟨by decide +kernel, rfl⟩)
  · exact .inr (.inr ⟨by decide +kernel, rfl⟩)

theorem vfb_special_fixed : SpecialFixed (vfbCodec ops asm) := by
  intro id h c c'
  show tableParse ops asm id c = tableParse ops asm id c'
  unfold tableParse
  rcases special_kinds id h with ⟨h, _⟩ | ⟨h, _⟩ | ⟨h, _⟩ <;> rw [h] <;> rfl

/-- Data that were read through the table are of the class of the entry. -/
theorem parse_inj {id : Int} {k : Kind} (hk : kindOf id = some k) {ctx : Ctx} {b : Bytes} {d : Decompiled ops.Angle asm.Asm}
    (h : parseEntry ((vfbCodec ops asm).parse id ctx) b = .ok d) : ∃ a, d = (k.cls ops asm).inj a := by
  have hparse : (vfbCodec ops asm).parse id ctx = (do
      let a ← (k.cls ops asm).parse ctx
      pure ((k.cls ops asm).inj a)) := by
    show tableParse ops asm id ctx = _
    unfold tableParse
    rw [hk]
  rw [hparse, parseEntry_map] at h
  cases ha : parseEntry ((k.cls ops asm).parse ctx) b with
  | error e => rw [ha] at h; cases h
  | ok a => rw [ha] at h; injection h with h; exact ⟨a, h.symm⟩

/-- Equal data that were read for the same entry are compiled to the same bytes. -/
theorem sameData_compile {id : Int} {k : Kind} (hk : kindOf id = some k) {ctx ctx' : Ctx} {b b' : Bytes} {d d' : Decompiled ops.Angle asm.Asm}
    (h : parseEntry ((vfbCodec ops asm).parse id ctx) b = .ok d) (h' : parseEntry ((vfbCodec ops asm).parse id ctx') b' = .ok d')
    (hsv : Survives ops asm ctx k d) (hs : SameData d d') (c : Ctx) :
    k.compileData ops asm c (some d') = k.compileData ops asm c (some d) := by
  have hparse : ∀ ctx, (vfbCodec ops asm).parse id ctx = (do
      let a ← (k.cls ops asm).parse ctx
      pure ((k.cls ops asm).inj a)) := by
    intro ctx
    show tableParse ops asm id ctx = _
    unfold tableParse
    rw [hk]
  rw [hparse, parseEntry_map] at h h'
  cases ha : parseEntry ((k.cls ops asm).parse ctx) b with
  | error e => rw [ha] at h; cases h
  | ok a =>
  cases ha' : parseEntry ((k.cls ops asm).parse ctx') b' with
  | error e => rw [ha'] at h'; cases h'
  | ok a' =>
  rw [ha] at h
  rw [ha'] at h'
  injection h with h
  injection h' with h'
  subst h
  subst h'
  cases k
  case ttInfo => exact (ttInfo_canonical a a' hs).symm
  case ttDeltas => exact (C38_deltas_canonical a a' (parsed_deltas_fit b a ha) (parsed_deltas_fit b' a' ha') hs).symm
  case kernPair => exact absurd hsv (by simp [Survives])
  all_goals exact congrArg _ (congrArg some (Eq.symm hs))

/-- **C16** The whole cycle for the actual table of entry classes.  Let a file be read, let all of its entries be of known ids and
decompile to data that are not among the exceptions of C15, and let no compiled entry reach 4 GB.  Then decompiling and writing
succeed, and reading and decompiling the new file succeed and give a font with the same header, the same settings and, entry by
entry, the same id and equal data.  Writing that font once more gives the same bytes. -/
theorem C16_vfb_file (hr : ∀ v, IsInt32 v → IsInt32 (ops.fromAngle (ops.toAngle v)))
    (v : Vfb (Decompiled ops.Angle asm.Asm) (List MasterData)) (minor : UInt8) (es : List (Nat × Bytes))
    (ho : v.only_header = false) (hk : v.drop_keys = []) (ht : Terminated es)
    (hread : Readable (vfbCodec ops asm) v.force_unicode_strings v.ctx es)
    (hes : ∀ p ∈ es, p.2.length < 2147483648 ∧ ∃ k d, kindOf p.1 = some k ∧
      parseEntry ((vfbCodec ops asm).parse p.1 (ctxAll (vfbCodec ops asm) v.force_unicode_strings v.ctx es)) p.2 = .ok d ∧
      Survives ops asm (ctxAll (vfbCodec ops asm) v.force_unicode_strings v.ctx es) k d ∧
      ∀ b, k.compileData ops asm (ctxAll (vfbCodec ops asm) v.force_unicode_strings v.ctx es) (some d) = .ok b → b.length < 4294967296) :
    ∃ v1 v2 out v3 v4 v5, v.readBytes (vfbCodec ops asm) (fileOf minor es) = (.ok (), v1) ∧
      v1.decompile (vfbCodec ops asm) = (.ok (), v2) ∧
      v2.writeBytes (vfbCodec ops asm) = (.ok (), out, v3) ∧
      v.readBytes (vfbCodec ops asm) out = (.ok (), v4) ∧
      v4.decompile (vfbCodec ops asm) = (.ok (), v5) ∧
      v5.header = v2.header ∧ v5.ctx = v2.ctx ∧ v2.entries.length = es.length ∧
      List.Forall₂ (fun x y => x.1 = y.1 ∧ ∃ d d', x.2 = .dec d ∧ y.2 = .dec d' ∧ SameData d d') (contents v2) (contents v5) ∧
      ∃ v6, v5.writeBytes (vfbCodec ops asm) = (.ok (), out, v6) := by
  have hs := vfb_special_fixed ops asm
  generalize hc : ctxAll (vfbCodec ops asm) v.force_unicode_strings v.ctx es = c at hes
  -- the pieces: id, payload, data, compiled payload, data again
  have hpieces : ∃ l : List (Piece (Decompiled ops.Angle asm.Asm) × Decompiled ops.Angle asm.Asm), es = l.map (fun x => (x.1.id, x.1.old)) ∧
      ∀ x ∈ l, x.1.id ≠ 1410 ∧ parseEntry ((vfbCodec ops asm).parse x.1.id c) x.1.old = .ok x.1.d ∧
        (∃ comp, (vfbCodec ops asm).compile x.1.id = some comp ∧ comp c (some x.1.d) = .ok x.1.new) ∧
        x.1.new.length < 4294967296 ∧ parseEntry ((vfbCodec ops asm).parse x.1.id c) x.1.new = .ok x.2 ∧ SameData x.1.d x.2 ∧
        (isSpecial x.1.id = true → x.2 = x.1.d) ∧
        ∃ comp, (vfbCodec ops asm).compile x.1.id = some comp ∧ comp c (some x.2) = .ok x.1.new := by
    clear hread ht hc
    induction es with
    | nil => exact ⟨[], rfl, by simp⟩
    | cons p es ih =>
      obtain ⟨l, hl, hok⟩ := ih fun q hq => hes q (List.mem_cons_of_mem _ hq)
      obtain ⟨hp, k, d, hkd, hd, hsv, hlen⟩ := hes p List.mem_cons_self
      obtain ⟨comp, b, d', h1, h2, h3, h4⟩ := C15_entry_stable ops asm hr p.1 k hkd c p.2 d hp hd hsv
      refine ⟨(⟨p.1, p.2, d, b⟩, d') :: l, by simp [hl], ?_⟩
      intro x hx
      rcases List.mem_cons.1 hx with rfl | hx
      · have hcomp : (vfbCodec ops asm).compile p.1 = some (k.compileData ops asm) := by
          show tableCompile ops asm p.1 = _
          unfold tableCompile
          rw [hkd]
          rfl
        refine ⟨?_, hd, ⟨comp, h1, h2⟩, ?_, h3, h4, ?_, comp, h1, ?_⟩
        · intro h
          simp only at h
          rw [h] at hkd
          have : kindOf (1410 : Nat) = some .kernPair := by decide +kernel
          rw [this] at hkd
          injection hkd with hkd
          subst hkd
          exact absurd hsv (by simp [Survives])
        · rw [hcomp] at h1
          injection h1 with h1
          subst h1
          exact hlen b h2
        · intro hsp
          simp only at hsp ⊢
          obtain ⟨a, rfl⟩ := parse_inj ops asm hkd hd
          obtain ⟨a', rfl⟩ := parse_inj ops asm hkd h3
          rcases special_kinds p.1 hsp with ⟨h, _⟩ | ⟨h, _⟩ | ⟨h, _⟩ <;> rw [h] at hkd <;> injection hkd with hkd <;> subst hkd <;> exact h4.symm
        · rw [hcomp] at h1
          injection h1 with h1
          subst h1
          exact (sameData_compile ops asm hkd hd h3 hsv h4 c).trans h2
      · exact hok x hx
  obtain ⟨l, rfl, hok⟩ := hpieces
  -- the pieces of the first and of the second reading
  have e1 : (l.map fun x => (x.1.id, x.1.old)) = ((l.map Prod.fst).map fun x => (x.id, x.old)) := by simp [Function.comp_def]
  let second : Piece (Decompiled ops.Angle asm.Asm) × Decompiled ops.Angle asm.Asm → Piece (Decompiled ops.Angle asm.Asm) :=
    fun x => ⟨x.1.id, x.1.old, x.2, x.1.new⟩
  have e2 : ((l.map second).map fun x => (x.id, x.new)) = (l.map fun x => (x.1.id, x.1.new)) := by simp [second, Function.comp_def]
  have hstep : ∀ x ∈ l, ∀ ctx, ctxAfter (vfbCodec ops asm) v.force_unicode_strings ctx (x.1.id, x.1.old) =
      ctxAfter (vfbCodec ops asm) v.force_unicode_strings ctx (x.1.id, x.1.new) := by
    intro x hx ctx
    obtain ⟨_, h1, _, _, h4, _, h6, _⟩ := hok x hx
    by_cases hsp : isSpecial x.1.id = true
    · rw [h6 hsp] at h4
      exact ctxAfter_same _ hs _ ctx c x.1.id _ _ _ h1 h4
    · unfold ctxAfter
      simp only [hsp, Bool.false_eq_true, if_false]
  have hctx : ∀ ctx, ctxAll (vfbCodec ops asm) v.force_unicode_strings ctx (l.map fun x => (x.1.id, x.1.old)) =
      ctxAll (vfbCodec ops asm) v.force_unicode_strings ctx (l.map fun x => (x.1.id, x.1.new)) := by
    have : ∀ l' : List (Piece (Decompiled ops.Angle asm.Asm) × Decompiled ops.Angle asm.Asm), (∀ x ∈ l', x ∈ l) → ∀ ctx,
        ctxAll (vfbCodec ops asm) v.force_unicode_strings ctx (l'.map fun x => (x.1.id, x.1.old)) =
        ctxAll (vfbCodec ops asm) v.force_unicode_strings ctx (l'.map fun x => (x.1.id, x.1.new)) := by
      intro l'
      induction l' with
      | nil => intros; rfl
      | cons x l' ih =>
        intro h ctx
        simp only [ctxAll, List.map_cons, List.foldl_cons]
        rw [hstep x (h x List.mem_cons_self)]
        exact ih (fun y hy => h y (List.mem_cons_of_mem _ hy)) _
    exact this l fun _ h => h
  have hread' : Readable (vfbCodec ops asm) v.force_unicode_strings v.ctx (l.map fun x => (x.1.id, x.1.new)) := by
    have : ∀ l' : List (Piece (Decompiled ops.Angle asm.Asm) × Decompiled ops.Angle asm.Asm), (∀ x ∈ l', x ∈ l) → ∀ ctx,
        Readable (vfbCodec ops asm) v.force_unicode_strings ctx (l'.map fun x => (x.1.id, x.1.old)) →
        Readable (vfbCodec ops asm) v.force_unicode_strings ctx (l'.map fun x => (x.1.id, x.1.new)) := by
      intro l'
      induction l' with
      | nil => intros; trivial
      | cons x l' ih =>
        intro h ctx hrd
        obtain ⟨hn, _, _, h3, h4, _, _, _⟩ := hok x (h x List.mem_cons_self)
        obtain ⟨r1, r2, r3, r4, r5⟩ := hrd
        refine ⟨r1, h3, fun h => absurd h hn, fun hsp => ⟨x.2, ?_⟩, ?_⟩
        · rw [hs x.1.id hsp ctx c]; exact h4
        · rw [hstep x (h x List.mem_cons_self)] at r5
          exact ih (fun y hy => h y (List.mem_cons_of_mem _ hy)) _ r5
    exact this l (fun _ h => h) _ hread
  obtain ⟨v1, hv1, hd1⟩ := read_decompile (vfbCodec ops asm) hs v minor (l.map Prod.fst) Piece.old ho hk (e1 ▸ ht) (e1 ▸ hread) (by
    intro x hx
    obtain ⟨y, hy, rfl⟩ := List.mem_map.1 hx
    rw [← e1, hc]
    exact (hok y hy).2.1)
  rw [← e1] at hv1 hd1
  have ht' := terminated_map (l.map Prod.fst) Piece.old Piece.new (e1 ▸ ht)
  have e3 : ((l.map Prod.fst).map fun x => (x.id, x.new)) = (l.map fun x => (x.1.id, x.1.new)) := by simp [Function.comp_def]
  rw [e3] at ht'
  obtain ⟨v4, hv4, hd4⟩ := read_decompile (vfbCodec ops asm) hs v minor (l.map second) Piece.new ho hk (e2 ▸ ht') (e2 ▸ hread') (by
    intro x hx
    obtain ⟨y, hy, rfl⟩ := List.mem_map.1 hx
    rw [e2, ← hctx, hc]
    exact (hok y hy).2.2.2.2.1)
  rw [e2] at hv4 hd4
  rw [← hctx] at hd4
  have hlt : ∀ x ∈ l, x.1.id < 32768 := by
    have : ∀ (l : List (Nat × Bytes)) ctx, Readable (vfbCodec ops asm) v.force_unicode_strings ctx l → ∀ p ∈ l, p.1 < 32768 := by
      intro l
      induction l with
      | nil => simp
      | cons q l ih =>
        intro ctx h p hp
        rcases List.mem_cons.1 hp with rfl | hp
        · exact h.1
        · exact ih _ h.2.2.2.2 p hp
    intro x hx
    exact this _ _ hread (x.1.id, x.1.old) (List.mem_map.2 ⟨x, hx, rfl⟩)
  have hw := write_ok (vfbCodec ops asm) { v with
        header := .dec (headerDict minor)
        ctx := ctxAll (vfbCodec ops asm) v.force_unicode_strings v.ctx (l.map fun x => (x.1.id, x.1.old))
        entries := (l.map Prod.fst).map Piece.entry
        any_errors := false } minor (l.map fun x => (x.1.entry, (x.1.id, x.1.new))) rfl (by simp [Function.comp_def]) (by
    intro y hy
    obtain ⟨x, hx, rfl⟩ := List.mem_map.1 hy
    obtain ⟨_, _, h2, h3, _, _, _, _⟩ := hok x hx
    exact ⟨rfl, rfl, rfl, by rw [hc]; exact h2, hlt x hx, h3⟩)
  obtain ⟨v3, hw⟩ := hw
  simp only [List.map_map, Function.comp_def] at hw
  have hw' := write_ok (vfbCodec ops asm) { v with
        header := .dec (headerDict minor)
        ctx := ctxAll (vfbCodec ops asm) v.force_unicode_strings v.ctx (l.map fun x => (x.1.id, x.1.old))
        entries := (l.map second).map Piece.entry
        any_errors := false } minor (l.map fun x => ((second x).entry, (x.1.id, x.1.new))) rfl (by simp [Function.comp_def]) (by
    intro y hy
    obtain ⟨x, hx, rfl⟩ := List.mem_map.1 hy
    obtain ⟨_, _, _, h3, _, _, _, h7⟩ := hok x hx
    exact ⟨rfl, rfl, rfl, by rw [hc]; exact h7, hlt x hx, h3⟩)
  obtain ⟨v6, hw'⟩ := hw'
  simp only [List.map_map, Function.comp_def] at hw'
  refine ⟨v1, _, _, v3, v4, _, hv1, hd1, ?_, hv4, hd4, rfl, rfl, by simp, ?_, v6, ?_⟩
  · simp only [List.map_map, Function.comp_def]; exact hw
  · simp only [contents, List.map_map]
    rw [List.forall₂_map_left_iff, List.forall₂_map_right_iff, List.forall₂_same]
    intro x hx
    exact ⟨rfl, x.1.d, x.2, rfl, rfl, (hok x hx).2.2.2.2.2.1⟩
  · simp only [List.map_map, Function.comp_def]; exact hw'

end

/-! ### a file that meets the hypotheses -/

/-- master count, font name, unicodes, glyph origin, Block Names End, end -/
def exampleFile : List (Nat × Bytes) :=
  [(1503, [1, 0]), (1026, [65, 98]), (1250, [65, 0, 97, 0]), (2027, [1, 0, 255, 255]), (518, []), (2, [])]

theorem exampleFile_readable : Readable (vfbCodec exampleAngles exampleAsm) false {} exampleFile := by
  refine ⟨by decide, by decide, by decide, fun _ => ⟨.int 1, rfl⟩, ?_⟩
  refine ⟨by decide, by decide, by decide, fun h => absurd h (by decide), ?_⟩
  refine ⟨by decide, by decide, by decide, fun h => absurd h (by decide), ?_⟩
  refine ⟨by decide, by decide, by decide, fun h => absurd h (by decide), ?_⟩
  refine ⟨by decide, by decide, by decide, fun h => absurd h (by decide), ?_⟩
  exact ⟨by decide, by decide, by decide, fun h => absurd h (by decide), trivial⟩

/-- C15, C16: this file goes through the cycle; the settings have one master -/
example : ∃ v1 v2 out v3 v4 v5, Vfb.readBytes (vfbCodec exampleAngles exampleAsm) {} (fileOf 5 exampleFile) = (.ok (), v1) ∧
    v1.decompile (vfbCodec exampleAngles exampleAsm) = (.ok (), v2) ∧
    v2.writeBytes (vfbCodec exampleAngles exampleAsm) = (.ok (), out, v3) ∧
    Vfb.readBytes (vfbCodec exampleAngles exampleAsm) {} out = (.ok (), v4) ∧
    v4.decompile (vfbCodec exampleAngles exampleAsm) = (.ok (), v5) ∧
    v5.header = v2.header ∧ v5.ctx = v2.ctx ∧ v2.entries.length = 6 ∧
    List.Forall₂ (fun x y => x.1 = y.1 ∧ ∃ d d', x.2 = .dec d ∧ y.2 = .dec d' ∧ SameData d d') (contents v2) (contents v5) ∧
    ∃ v6, v5.writeBytes (vfbCodec exampleAngles exampleAsm) = (.ok (), out, v6) := by
  refine C16_vfb_file exampleAngles exampleAsm (fun v h => h) {} 5 exampleFile rfl rfl
    ⟨exampleFile.dropLast, [], rfl, by decide⟩ exampleFile_readable ?_
  have hc : ctxAll (vfbCodec exampleAngles exampleAsm) false {} exampleFile = { num_masters := 1 } := rfl
  show ∀ p ∈ exampleFile, _ ∧ _
  simp only [hc]
  intro p hp
  simp only [exampleFile, List.mem_cons, List.not_mem_nil, or_false] at hp
  rcases hp with rfl | rfl | rfl | rfl | rfl | rfl
  · exact ⟨by decide, .int16, .int 1, by decide +kernel, rfl, trivial, fun b h => by cases h; decide⟩
  · exact ⟨by decide, .string, .str [65, 98], by decide +kernel, rfl, trivial, fun b h => by cases h; decide⟩
  · exact ⟨by decide, .unicodes, .ints [65, 97], by decide +kernel, rfl, trivial, fun b h => by cases h; decide⟩
  · exact ⟨by decide, .origin, .origin ⟨1, -1⟩, by decide +kernel, rfl, trivial, fun b h => by cases h; decide⟩
  · exact ⟨by decide, .stringHex, .str [], by decide +kernel, rfl, rfl, fun b h => by cases h; decide⟩
  · exact ⟨by decide, .hex, .str [], by decide +kernel, rfl, trivial, fun b h => by cases h; decide⟩

end Verif.Props
