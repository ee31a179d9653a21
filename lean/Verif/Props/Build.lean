import Verif.Spec.Build
import Verif.Props.AnyFile
/-! # C100, C101: fonts that are put together or changed by the user -/
set_option autoImplicit false
namespace Verif.Props
open Verif Verif.Spec

section
variable (ops : AngleOps) (asm : AsmOps)

/-- the typed form for one class -/
def Keeps (ctx : Ctx) (k : Kind) : Prop :=
  ∀ (a : (k.cls ops asm).Ty), Storable ops asm ctx k ((k.cls ops asm).inj a) →
    ∃ b a', (k.cls ops asm).compile ctx a = .ok b ∧ parseEntry ((k.cls ops asm).parse ctx) b = .ok a' ∧
      SameData ((k.cls ops asm).inj a) ((k.cls ops asm).inj a')

theorem keeps_of {ctx : Ctx} {k : Kind}
    (h : ∀ a, Storable ops asm ctx k ((k.cls ops asm).inj a) → RoundTrips ((k.cls ops asm).compile ctx) ((k.cls ops asm).parse ctx) a) :
    Keeps ops asm ctx k := by
  intro a ha
  obtain ⟨b, h1, h2⟩ := h a ha
  exact ⟨b, a, h1, h2, sameData_refl _⟩

theorem map_self {α : Type} {l : List α} {f : α → α} (h : ∀ x ∈ l, f x = x) : l.map f = l := by
  rw [List.map_congr_left h, List.map_id']

theorem keeps (ctx : Ctx) (k : Kind) : Keeps ops asm ctx k := by
  cases k
  case hex =>
    refine keeps_of ops asm fun s hs => ?_
    obtain ⟨b, rfl⟩ := hs
    exact ⟨b, compileHex_hexStr b, by simp [parseEntry, Kind.cls, parseHex, R.bind_run, R.readAll]⟩
  case stringHex =>
    refine keeps_of ops asm fun s hs => ?_
    have hs : s = [] := hs
    subst hs
    exact ⟨[], rfl, rfl⟩
  case string => exact keeps_of ops asm fun s hs => C27_string_roundtrip s (isLatin_iff.1 hs.1) hs.2
  case vendor =>
    refine keeps_of ops asm fun s hs => ?_
    obtain ⟨b, h1, _, h2⟩ := C27_vendor_roundtrip s (isLatin_iff.1 hs.1) hs.2
    exact ⟨b, h1, h2⟩
  case flVersion => exact keeps_of ops asm fun d hs => C29_flversion_roundtrip d hs.1 hs.2.1 hs.2.2.1 hs.2.2.2
  case glyphEncoding => exact keeps_of ops asm fun d hs => C20_glyph_encoding_roundtrip d.1 d.2 hs.1 hs.2
  case int16 => exact keeps_of ops asm fun d hs => (C25_int16 d).1 hs
  case sint16 => exact keeps_of ops asm fun d hs => (C25_signed_int16 d).1 hs
  case sint32 => exact keeps_of ops asm fun d hs => (C25_signed_int32 d).1 hs
  case double => exact keeps_of ops asm fun d _ => C25_double d
  case doubleList => exact keeps_of ops asm fun d _ => C25_double_list d
  case intList => exact keeps_of ops asm fun d hs => (C25_int_list d).1 hs
  case panose => exact keeps_of ops asm fun d hs => (C25_panose d).1 hs
  case psGlobalOptions => exact keeps_of ops asm fun d hs => C32_global_options_roundtrip d hs
  case psGlyphOptions => exact keeps_of ops asm fun d hs => C32_glyph_options_roundtrip d hs
  case valueListCount => exact keeps_of ops asm fun d hs => (C19_value_list_roundtrip d hs.2).2 hs.1
  case valueList => exact keeps_of ops asm fun d hs => (C19_value_list_roundtrip d hs).1
  case gasp => exact keeps_of ops asm fun d hs => (C35_gasp d).1 hs
  case ttInfo =>
    intro d hs
    obtain ⟨d', ⟨b, h1, h2⟩, h3, _⟩ := C36_tt_info d hs
    exact ⟨b, d', h1, h2, h3⟩
  case vdmx => exact keeps_of ops asm fun d hs => C35_vdmx d hs.1 hs.2
  case ttPpems23 =>
    refine keeps_of ops asm fun d hs => ?_
    obtain ⟨v1, v2⟩ := hs d.ttStemsV (by simp)
    obtain ⟨h1, h2⟩ := hs d.ttStemsH (by simp)
    have := C37_ppems23 d v1 h1
    rw [C37_stored_same _ (by decide) _ v2, C37_stored_same _ (by decide) _ h2] at this
    exact this
  case ttPpems =>
    refine keeps_of ops asm fun d hs => ?_
    obtain ⟨v1, v2⟩ := hs d.ttStemsV (by simp)
    obtain ⟨h1, h2⟩ := hs d.ttStemsH (by simp)
    have := C37_ppems d v1 h1
    rw [C37_stored_same _ (by decide) _ v2, C37_stored_same _ (by decide) _ h2] at this
    exact this
  case ttStems => exact keeps_of ops asm fun d hs => C37_stems_same d (hs d.ttStemsV (by simp)) (hs d.ttStemsH (by simp))
  case ttPpems1 =>
    refine keeps_of ops asm fun d hs => ?_
    obtain ⟨v1, v2⟩ := hs.1 d.ttStemsV (by simp)
    obtain ⟨h1, h2⟩ := hs.1 d.ttStemsH (by simp)
    have := C37_ppems1 d _ _ v1.2 h1.2 hs.2.1 hs.2.2
    rw [C37_stored_same _ (by decide) _ v2, C37_stored_same _ (by decide) _ h2] at this
    exact this
  case ttZones =>
    refine keeps_of ops asm fun d hs => ?_
    obtain ⟨t, b, rfl, ht, hb⟩ := hs
    exact C38_zones ⟨some t, some b⟩ ht hb
  case ttDeltas =>
    intro d hs
    obtain ⟨d', ⟨b, h1, h2⟩, h3⟩ := C38_deltas d hs
    exact ⟨b, d', h1, h2, h3⟩
  case unicodeRanges =>
    refine keeps_of ops asm fun d hs => ?_
    obtain ⟨b, h1, _, h2, _⟩ := C26_unicode_ranges d hs.1 hs.2
    exact ⟨b, h1, h2⟩
  case nameRecords => exact keeps_of ops asm fun d hs => C28_names_roundtrip d hs.1 hs.2
  case cmaps => exact keeps_of ops asm fun d hs => C40_cmaps d hs.1 hs.2
  case pclt => exact keeps_of ops asm fun d hs => C33_pclt_roundtrip d hs.1 hs.2.1 hs.2.2
  case metricsFlags =>
    exact keeps_of ops asm fun d hs => C22_metrics_flags_roundtrip d hs.1 hs.2.1 fun p hp => by
      obtain ⟨⟨a1, a2⟩, ⟨b1, b2⟩, ⟨c1, c2⟩, d1, d2⟩ := hs.2.2 p hp
      exact ⟨⟨isLatin_iff.1 a1, a2⟩, ⟨b1, by omega⟩, ⟨c1, by omega⟩, d1, by omega⟩
  case kerningFlags =>
    exact keeps_of ops asm fun d hs => C22_kerning_flags_roundtrip d hs.1 hs.2.1 fun p hp => by
      obtain ⟨⟨a1, a2⟩, ⟨b1, b2⟩, ⟨c1, c2⟩⟩ := hs.2.2 p hp
      exact ⟨⟨isLatin_iff.1 a1, a2⟩, ⟨b1, by omega⟩, c1, by omega⟩
  case binaryTable =>
    refine keeps_of ops asm fun d hs => ?_
    obtain ⟨h1, h2, b, h3⟩ := hs
    have := C40_binary d.tag b h1 h2
    rw [← h3] at this
    exact this
  case fea =>
    exact keeps_of ops asm fun d hs => C27_fea_roundtrip d hs.1 fun l hl c hc => Option.isSome_iff_exists.1 (hs.2 l hl c hc)
  case aniso => exact keeps_of ops asm fun d hs => C39_aniso d hs
  case axisCounts => exact keeps_of ops asm fun d hs => C39_axis_counts d hs.1 hs.2
  case axisMappings => exact keeps_of ops asm fun d _ => C39_axis_mappings d
  case masterLocation => exact keeps_of ops asm fun d hs => C39_master_location d.1 d.2 hs.1 hs.2
  case instances =>
    refine keeps_of ops asm fun d hs => ?_
    have := C39_instances d hs.1 fun i hi => (hs.2 i hi).1
    have e : List.map (fun i : PrimaryInstance => (⟨i.name, i.values.map storedCoord⟩ : PrimaryInstance)) d = d :=
      map_self fun i hi => by rw [map_self (hs.2 i hi).2]
    rw [e] at this
    exact this
  case psInfo => exact keeps_of ops asm fun d hs => C32_ps_info_roundtrip d hs
  case globalGuides => exact keeps_of ops asm fun d hs => C30_guides_roundtrip ops _ d hs.1 hs.2
  case guideProps => exact keeps_of ops asm fun d hs => C31_guide_properties_roundtrip d hs
  case globalMask => exact keeps_of ops asm fun d hs => C46_global_mask d hs
  case glyph => exact keeps_of ops asm fun d hs => C42_roundtrip ops asm _ d hs.1 hs.2
  case links => exact keeps_of ops asm fun d hs => C44_links d hs.1 hs.2.1 hs.2.2
  case background =>
    refine keeps_of ops asm fun d hs => ?_
    have := C24_background_roundtrip d hs.2
    rw [← windows_false hs.1] at this
    exact this
  case bitmaps =>
    refine keeps_of ops asm fun d hs => ?_
    have := C24_glyph_bitmaps_roundtrip d hs.2.1 hs.2.2
    rw [← windows_false hs.1] at this
    exact this
  case sketch => exact keeps_of ops asm fun d hs => C44_sketch d hs.1 hs.2
  case mask =>
    refine keeps_of ops asm fun d hs => ?_
    have := C46_mask d hs.2.1 (fun x hx => (hs.2.2 x hx).1) hs.1
    rw [map_self fun x hx => (hs.2.2 x hx).2] at this
    exact this
  case maskMetrics => exact keeps_of ops asm fun d hs => C46_mask_metrics d.1 d.2 hs.1 hs.2
  case maskMetricsMM => exact keeps_of ops asm fun d hs => C46_mask_metrics_mm _ d hs.1 hs.2
  case origin => exact keeps_of ops asm fun d hs => C44_origin d.1 d.2 hs.1 hs.2
  case unicodes => exact keeps_of ops asm fun d hs => C44_unicodes d hs
  case unicodesSupp => exact keeps_of ops asm fun d hs => C44_unicodes_supp d hs
  case gdef => exact keeps_of ops asm fun d hs => C45_gdef d hs
  case anchorsSupp =>
    refine keeps_of ops asm fun d hs => ?_
    have := C44_anchor_props d hs.1 fun a ha => by
      obtain ⟨hue, data, rfl, h1, h2⟩ := hs.2 a ha
      exact ⟨h1, h2⟩
    have e : List.map (fun a : AnchorProps => (⟨some (a.hue.getD 0), some (a.data.getD 0)⟩ : AnchorProps)) d = d :=
      map_self fun a ha => by
        obtain ⟨hue, data, rfl, _⟩ := hs.2 a ha
        rfl
    rw [e] at this
    exact this
  case anchors => exact keeps_of ops asm fun d hs => C44_anchors _ hs.1 d hs.2
  case fontOptions => exact keeps_of ops asm fun d hs => C34_font_options_roundtrip d hs
  case exportOptions =>
    refine keeps_of ops asm fun d hs => ?_
    obtain ⟨names, hn, rfl⟩ := hs
    exact C34_export_options_roundtrip names hn
  case mappingMode => exact keeps_of ops asm fun d hs => C21_mapping_mode_roundtrip d hs.1 hs.2
  case kernPair =>
    intro a hs
    exact absurd hs (by cases a <;> simp [Storable, Kind.cls])

set_option maxHeartbeats 4000000 in
/-- data of another class than that of the entry are not storable -/
theorem storable_inj {ctx : Ctx} {k : Kind} {d : Decompiled ops.Angle asm.Asm} (h : Storable ops asm ctx k d) :
    ∃ a, d = (k.cls ops asm).inj a := by
  cases k <;> cases d <;> first | exact False.elim h | exact ⟨_, rfl⟩

/-- **C100** Storable data are compiled, and read back as equal data, whatever the entry. -/
theorem C100_entry (id : Int) (k : Kind) (hk : kindOf id = some k) (ctx : Ctx) (d : Decompiled ops.Angle asm.Asm)
    (hs : Storable ops asm ctx k d) :
    ∃ comp b d', (vfbCodec ops asm).compile id = some comp ∧ comp ctx (some d) = .ok b ∧
      parseEntry ((vfbCodec ops asm).parse id ctx) b = .ok d' ∧ SameData d d' := by
  obtain ⟨a, rfl⟩ := storable_inj ops asm hs
  have hparse : (vfbCodec ops asm).parse id ctx = (do
      let a ← (k.cls ops asm).parse ctx
      pure ((k.cls ops asm).inj a)) := by
    show tableParse ops asm id ctx = _
    unfold tableParse
    rw [hk]
  have hcomp : (vfbCodec ops asm).compile id = some (k.compileData ops asm) := by
    show tableCompile ops asm id = _
    unfold tableCompile
    rw [hk]
    rfl
  obtain ⟨b, a', h1, h2, h3⟩ := keeps ops asm ctx k a hs
  refine ⟨_, b, _, hcomp, ?_, ?_, h3⟩
  · unfold Kind.compileData
    simp only [proj_inj]
    exact h1
  · rw [hparse, parseEntry_map, h2]
    rfl

/-- reading does not depend on the attribute `encoding` -/
theorem parse_ctx (id : Int) (c c' : Ctx) (h1 : c.num_masters = c'.num_masters) (h2 : c.ttStemsV_count = c'.ttStemsV_count)
    (h3 : c.ttStemsH_count = c'.ttStemsH_count) (h4 : c.writer_platform = c'.writer_platform) :
    (vfbCodec ops asm).parse id c = (vfbCodec ops asm).parse id c' := by
  show tableParse ops asm id c = tableParse ops asm id c'
  unfold tableParse
  cases kindOf id with
  | none => rfl
  | some k =>
    have : (k.cls ops asm).parse c = (k.cls ops asm).parse c' := by
      cases k <;> simp only [Kind.cls, h1, h2, h3, h4]
    simp only [this]

/-- what is written for an entry, and what that is read as -/
structure Good (ctx : Ctx) (e : Entry (Decompiled ops.Angle asm.Asm) (List MasterData)) (p : Nat × Bytes) : Prop where
  writes : Writes (vfbCodec ops asm) ctx e p
  not_pair : p.1 ≠ 1410
  special : isSpecial p.1 = true → ∃ d, e.data = .dec d ∧ parseEntry ((vfbCodec ops asm).parse p.1 ctx) p.2 = .ok d ∧ Agrees ops asm ctx p.1 d
  bytes : ∀ b, e.data = .bytes b → p.2 = b
  dec : ∀ d, e.data = .dec d → ∃ d', parseEntry ((vfbCodec ops asm).parse p.1 ctx) p.2 = .ok d' ∧ SameData d d'

theorem kind_range {id : Int} {k : Kind} (h : kindOf id = some k) : 0 < id ∧ id < 32768 := by
  unfold kindOf at h
  cases hf : parserClasses.find? fun r => r.1 == id with
  | none => rw [hf] at h; cases h
  | some r =>
    have hid : (r.1 == id) = true := List.find?_some (p := fun r : Int × String × Kind => r.1 == id) hf
    have := C15_table.2.2.1 r (List.mem_of_find?_eq_some hf)
    rw [eq_of_beq hid] at this
    exact ⟨this.1, this.2.1⟩

theorem good_of_ready {ctx : Ctx} {e : Entry (Decompiled ops.Angle asm.Asm) (List MasterData)} (h : EntryReady ops asm ctx e) :
    ∃ p, Good ops asm ctx e p := by
  obtain ⟨ht, hc, h⟩ := h
  rcases h with ⟨b, hb, h0, hlt, hn, hl⟩ | ⟨k, d, hd, hk, hs, ha, hl⟩
  · have hid : e.id = (e.id.toNat : Int) := by omega
    refine ⟨(e.id.toNat, b), ⟨hid, ht, hc, ?_, ?_, hl⟩, ?_, ?_, ?_, ?_⟩
    · unfold HasPayload
      rw [hb]
    · simp only; omega
    · intro h
      simp only at h
      exact hn (by rw [hid, h]; simp)
    · intro h
      simp only at h
      rw [← hid] at h
      simp only [isSpecial, Bool.or_eq_true, decide_eq_true_eq] at h
      exact absurd (by rcases h with (h | h) | h <;> rw [h] <;> simp) hn
    · intro b' h
      rw [hb] at h
      injection h
    · intro d h
      rw [hb] at h
      cases h
  · obtain ⟨comp, b, d', h1, h2, h3, h4⟩ := C100_entry ops asm e.id k hk ctx d hs
    have hr := kind_range hk
    have hid : e.id = (e.id.toNat : Int) := by omega
    have hcomp : (vfbCodec ops asm).compile e.id = some (k.compileData ops asm) := by
      show tableCompile ops asm e.id = _
      unfold tableCompile
      rw [hk]
      rfl
    have hlen : b.length < 4294967296 := by
      rw [hcomp] at h1
      injection h1 with h1
      subst h1
      exact hl b h2
    refine ⟨(e.id.toNat, b), ⟨hid, ht, hc, ?_, ?_, hlen⟩, ?_, ?_, ?_, ?_⟩
    · unfold HasPayload
      rw [hd]
      exact ⟨comp, h1, h2⟩
    · simp only; omega
    · intro h
      simp only at h
      rw [hid, h] at hk
      have : kindOf (1410 : Nat) = some .kernPair := by decide +kernel
      rw [this] at hk
      injection hk with hk
      subst hk
      exact hs
    · intro h
      simp only at h ⊢
      rw [← hid] at h ⊢
      refine ⟨d, hd, ?_, ha⟩
      have hdd : d' = d := by
        obtain ⟨a, rfl⟩ := storable_inj ops asm hs
        obtain ⟨a', rfl⟩ := parse_inj ops asm hk h3
        rcases special_kinds e.id h with ⟨h, _⟩ | ⟨h, _⟩ | ⟨h, _⟩ <;> rw [h] at hk <;> injection hk with hk <;> subst hk <;> exact h4.symm
      rw [← hdd]
      exact h3
    · intro b' h
      rw [hd] at h
      cases h
    · intro d2 h
      rw [hd] at h
      injection h with h
      subst h
      simp only
      rw [← hid]
      exact ⟨d', h3, h4⟩

theorem forall₂_exists {α β : Type} {P : α → β → Prop} {l : List α} (h : ∀ a ∈ l, ∃ b, P a b) : ∃ m, List.Forall₂ P l m := by
  induction l with
  | nil => exact ⟨[], .nil⟩
  | cons a l ih =>
    obtain ⟨b, hb⟩ := h a List.mem_cons_self
    obtain ⟨m, hm⟩ := ih fun x hx => h x (List.mem_cons_of_mem _ hx)
    exact ⟨b :: m, .cons hb hm⟩

/-- the settings after one of the entries: those of the font, where the entry says something -/
theorem good_ctx {ctx c : Ctx} {e : Entry (Decompiled ops.Angle asm.Asm) (List MasterData)} {p : Nat × Bytes} (h : Good ops asm ctx e p) (force : Bool) :
    (p.1 = 10 ∨ c.writer_platform = ctx.writer_platform →
      (ctxAfter (vfbCodec ops asm) force c p).writer_platform = ctx.writer_platform) ∧
    (p.1 = 1503 ∨ c.num_masters = ctx.num_masters → (ctxAfter (vfbCodec ops asm) force c p).num_masters = ctx.num_masters) ∧
    (p.1 = 1269 ∨ (c.ttStemsV_count = ctx.ttStemsV_count ∧ c.ttStemsH_count = ctx.ttStemsH_count) →
      (ctxAfter (vfbCodec ops asm) force c p).ttStemsV_count = ctx.ttStemsV_count ∧
      (ctxAfter (vfbCodec ops asm) force c p).ttStemsH_count = ctx.ttStemsH_count) := by
  unfold ctxAfter
  by_cases hsp : isSpecial p.1 = true
  · obtain ⟨d, hd, hp, ha1, ha2, ha3⟩ := h.special hsp
    rw [vfb_special_fixed ops asm p.1 hsp ctx c] at hp
    rw [if_pos hsp, hp]
    rcases special_kinds p.1 hsp with ⟨hk, hi⟩ | ⟨hk, hi⟩ | ⟨hk, hi⟩
    · obtain ⟨a, rfl⟩ := parse_inj ops asm hk hp
      have ha := ha1 hi a rfl
      simp only [noteCtx, hi, if_true]
      refine ⟨fun _ => ha.symm, fun h => ?_, fun h => ?_⟩
      · rcases h with h | h
        · omega
        · exact h
      · rcases h with h | h
        · omega
        · exact h
    · obtain ⟨a, rfl⟩ := parse_inj ops asm hk hp
      have ha := ha2 hi a rfl
      simp only [noteCtx, hi, if_true, show ¬ ((1503 : Int) = 10) by decide, if_false]
      refine ⟨fun h => ?_, fun _ => ha.symm, fun h => ?_⟩
      · rcases h with h | h
        · omega
        · exact h
      · rcases h with h | h
        · omega
        · exact h
    · obtain ⟨a, rfl⟩ := parse_inj ops asm hk hp
      have ha := ha3 hi a rfl
      simp only [noteCtx, hi, if_true, show ¬ ((1269 : Int) = 10) by decide, show ¬ ((1269 : Int) = 1503) by decide, if_false]
      refine ⟨fun h => ?_, fun h => ?_, fun _ => ⟨ha.1.symm, ha.2.symm⟩⟩
      · rcases h with h | h
        · omega
        · exact h
      · rcases h with h | h
        · omega
        · exact h
  · have hn : p.1 ≠ 10 ∧ p.1 ≠ 1503 ∧ p.1 ≠ 1269 := by
      simp only [isSpecial, Bool.or_eq_true, decide_eq_true_eq, not_or] at hsp; omega
    rw [if_neg hsp]
    exact ⟨fun h => h.resolve_left hn.1, fun h => h.resolve_left hn.2.1, fun h => h.resolve_left hn.2.2⟩

theorem good_ctxAll {ctx : Ctx} {l : List (Entry (Decompiled ops.Angle asm.Asm) (List MasterData))} {ps : List (Nat × Bytes)}
    (h : List.Forall₂ (Good ops asm ctx) l ps) (force : Bool) (c : Ctx) :
    ((∃ e ∈ l, e.id = 10) ∨ c.writer_platform = ctx.writer_platform →
      (ctxAll (vfbCodec ops asm) force c ps).writer_platform = ctx.writer_platform) ∧
    ((∃ e ∈ l, e.id = 1503) ∨ c.num_masters = ctx.num_masters → (ctxAll (vfbCodec ops asm) force c ps).num_masters = ctx.num_masters) ∧
    ((∃ e ∈ l, e.id = 1269) ∨ (c.ttStemsV_count = ctx.ttStemsV_count ∧ c.ttStemsH_count = ctx.ttStemsH_count) →
      (ctxAll (vfbCodec ops asm) force c ps).ttStemsV_count = ctx.ttStemsV_count ∧
      (ctxAll (vfbCodec ops asm) force c ps).ttStemsH_count = ctx.ttStemsH_count) := by
  induction h generalizing c with
  | nil =>
    refine ⟨fun h => ?_, fun h => ?_, fun h => ?_⟩
    all_goals
      rcases h with ⟨e, he, _⟩ | h
      · cases he
      · exact h
  | @cons e p l ps hg _ ih =>
    obtain ⟨a1, a2, a3⟩ := good_ctx ops asm (c := c) hg force
    obtain ⟨i1, i2, i3⟩ := ih (ctxAfter (vfbCodec ops asm) force c p)
    have hid := hg.writes.id
    simp only [ctxAll, List.foldl_cons] at *
    refine ⟨fun h => i1 ?_, fun h => i2 ?_, fun h => i3 ?_⟩
    all_goals
      rcases h with ⟨x, hx, hi⟩ | h
      · rcases List.mem_cons.1 hx with rfl | hx
        · first | exact .inr (a1 (.inl (by omega))) | exact .inr (a2 (.inl (by omega))) | exact .inr (a3 (.inl (by omega)))
        · exact .inl ⟨x, hx, hi⟩
      · first | exact .inr (a1 (.inr h)) | exact .inr (a2 (.inr h)) | exact .inr (a3 (.inr h))

theorem good_readable {ctx : Ctx} {l : List (Entry (Decompiled ops.Angle asm.Asm) (List MasterData))} {ps : List (Nat × Bytes)}
    (h : List.Forall₂ (Good ops asm ctx) l ps) (force : Bool) (c : Ctx) : Readable (vfbCodec ops asm) force c ps := by
  induction h generalizing c with
  | nil => trivial
  | @cons e p l ps hg _ ih =>
    refine ⟨hg.writes.id_lt, hg.writes.size_lt, fun h => absurd h hg.not_pair, fun hsp => ?_, ih _⟩
    obtain ⟨d, _, hp, _⟩ := hg.special hsp
    exact ⟨d, by rw [vfb_special_fixed ops asm p.1 hsp c ctx]; exact hp⟩

theorem good_kept {ctx c' : Ctx} (h1 : c'.num_masters = ctx.num_masters) (h2 : c'.ttStemsV_count = ctx.ttStemsV_count)
    (h3 : c'.ttStemsH_count = ctx.ttStemsH_count) (h4 : c'.writer_platform = ctx.writer_platform)
    {l : List (Entry (Decompiled ops.Angle asm.Asm) (List MasterData))} {ps : List (Nat × Bytes)}
    (h : List.Forall₂ (Good ops asm ctx) l ps) (force : Bool) (c : Ctx) :
    List.Forall₂ (EntryKept ops asm c') l (loaded (vfbCodec ops asm) force c ps) := by
  induction h generalizing c with
  | nil => exact .nil
  | @cons e p l ps hg _ ih =>
    refine .cons ?_ (ih _)
    unfold loadedEntry
    by_cases hsp : isSpecial p.1 = true
    · obtain ⟨d, hd, hp, _⟩ := hg.special hsp
      rw [vfb_special_fixed ops asm p.1 hsp ctx c] at hp
      rw [if_pos hsp, hp]
      refine ⟨hg.writes.id.symm, fun b hb => ?_, fun d' hd' => ?_⟩
      · rw [hd] at hb; cases hb
      · rw [hd] at hd'
        injection hd' with hd'
        subst hd'
        exact ⟨_, d, rfl, rfl, sameData_refl _⟩
    · rw [if_neg hsp]
      refine ⟨hg.writes.id.symm, fun b hb => by rw [hg.bytes b hb], fun d hd => ?_⟩
      obtain ⟨d', hp, hs⟩ := hg.dec d hd
      rw [← parse_ctx ops asm p.1 c' ctx h1 h2 h3 h4] at hp
      refine ⟨{ id := p.1, data := .dec d' }, d', ?_, rfl, hs⟩
      simp only [Entry.decompile, hp]

theorem forall₂_zip {α β : Type} {P : α → β → Prop} {l : List α} {m : List β} (h : List.Forall₂ P l m) :
    (l.zip m).map Prod.fst = l ∧ (l.zip m).map Prod.snd = m ∧ ∀ x ∈ l.zip m, P x.1 x.2 := by
  induction h with
  | nil => exact ⟨rfl, rfl, by simp⟩
  | cons h _ ih =>
    obtain ⟨i1, i2, i3⟩ := ih
    refine ⟨by simp [i1], by simp [i2], ?_⟩
    intro x hx
    rcases List.mem_cons.1 hx with rfl | hx
    · exact h
    · exact i3 x hx

theorem good_terminated {ctx : Ctx} {init : List (Entry (Decompiled ops.Angle asm.Asm) (List MasterData))}
    {e : Entry (Decompiled ops.Angle asm.Asm) (List MasterData)} {ps : List (Nat × Bytes)} (he : e.id = 2) (hi : ∀ x ∈ init, x.id ≠ 2)
    (h : List.Forall₂ (Good ops asm ctx) (init ++ [e]) ps) : Terminated ps := by
  induction init generalizing ps with
  | nil =>
    cases h with
    | cons hg h =>
      cases h with
      | nil =>
        rename_i p
        have := hg.writes.id
        obtain ⟨i, b⟩ := p
        have : i = 2 := by simp only at this; omega
        subst this
        exact ⟨[], b, rfl, by simp⟩
  | cons x init ih =>
    cases h with
    | cons hg h =>
      rename_i p ps
      obtain ⟨in', b, rfl, hn⟩ := ih (fun y hy => hi y (List.mem_cons_of_mem _ hy)) h
      refine ⟨p :: in', b, rfl, ?_⟩
      intro q hq
      rcases List.mem_cons.1 hq with rfl | hq
      · have h1 := hg.writes.id
        have h2 := hi x List.mem_cons_self
        omega
      · exact hn q hq

/-- **C100** A font that the user put together: with a header, entries that are ready to be written, of which the last one and no
other has the id 2, and attributes that agree with its entries.  Writing it succeeds, and reading the result into a new font gives
the same header, number of masters, stem counts and platform, and entry by entry the same ids and data. -/
theorem C100_font (v : Vfb (Decompiled ops.Angle asm.Asm) (List MasterData)) (minor : UInt8)
    (hh : v.header = .dec (headerDict minor))
    (hend : ∃ init e, v.entries = init ++ [e] ∧ e.id = 2 ∧ ∀ x ∈ init, x.id ≠ 2)
    (hready : ∀ e ∈ v.entries, EntryReady ops asm v.ctx e)
    (hdef : DefaultsKept v.ctx (v.entries.map fun e => e.id)) :
    ∃ out v' w, v.writeBytes (vfbCodec ops asm) = (.ok (), out, v') ∧
      Vfb.readBytes (vfbCodec ops asm) {} out = (.ok (), w) ∧
      w.header = v.header ∧ w.ctx.num_masters = v.ctx.num_masters ∧ w.ctx.writer_platform = v.ctx.writer_platform ∧
      w.ctx.ttStemsV_count = v.ctx.ttStemsV_count ∧ w.ctx.ttStemsH_count = v.ctx.ttStemsH_count ∧
      List.Forall₂ (EntryKept ops asm w.ctx) v.entries w.entries := by
  obtain ⟨ps, hps⟩ := forall₂_exists fun e he => good_of_ready ops asm (hready e he)
  obtain ⟨z1, z2, z3⟩ := forall₂_zip hps
  obtain ⟨v', hw⟩ := write_ok (vfbCodec ops asm) v minor (v.entries.zip ps) hh z1.symm fun x hx => (z3 x hx).writes
  rw [z2] at hw
  obtain ⟨init, e, hes, he, hi⟩ := hend
  have ht : Terminated ps := good_terminated ops asm he hi (hes ▸ hps)
  have hread := read_file (vfbCodec ops asm) {} minor ps [] rfl ht (good_readable ops asm hps false {})
  rw [List.append_nil, List.filter_eq_self.2 (by simp)] at hread
  obtain ⟨c1, c2, c3⟩ := good_ctxAll ops asm hps false {}
  obtain ⟨d1, d2, d3⟩ := hdef
  have e1 := c1 (by
    by_cases h : (10 : Int) ∈ v.entries.map fun e => e.id
    · obtain ⟨x, hx, hi⟩ := List.mem_map.1 h
      exact .inl ⟨x, hx, hi⟩
    · exact .inr (d1 h).symm)
  have e2 := c2 (by
    by_cases h : (1503 : Int) ∈ v.entries.map fun e => e.id
    · obtain ⟨x, hx, hi⟩ := List.mem_map.1 h
      exact .inl ⟨x, hx, hi⟩
    · exact .inr (d2 h).symm)
  have e3 := c3 (by
    by_cases h : (1269 : Int) ∈ v.entries.map fun e => e.id
    · obtain ⟨x, hx, hi⟩ := List.mem_map.1 h
      exact .inl ⟨x, hx, hi⟩
    · exact .inr ⟨(d3 h).1.symm, (d3 h).2.symm⟩)
  refine ⟨_, v', _, hw, hread, hh.symm, e2, e1, e3.1, e3.2, good_kept ops asm e2 e3.1 e3.2 e1 hps false {}⟩

/-- **C100** Entries are added at the end, in the order in which they are added. -/
theorem C100_add_entries (v : Vfb (Decompiled ops.Angle asm.Asm) (List MasterData))
    (es : List (Entry (Decompiled ops.Angle asm.Asm) (List MasterData))) :
    es.foldl Vfb.addEntry v = { v with entries := v.entries ++ es } := by
  induction es generalizing v with
  | nil => simp
  | cons e es ih =>
    rw [List.foldl_cons, ih]
    simp [Vfb.addEntry]

/-- **C100** (Known defect) A new font has no header, and cannot be written before the user has set one. -/
theorem C100_no_header (v : Vfb (Decompiled ops.Angle asm.Asm) (List MasterData)) (h : v.header = .none) :
    (v.writeBytes (vfbCodec ops asm)).1 = .error .type := by
  unfold Vfb.writeBytes Vfb.compile
  rw [h]
  rfl

/-- **C100** (Known defect) A font without end entry is written without complaint, but reading the file never ends. -/
theorem C100_no_end (v : Vfb (Decompiled ops.Angle asm.Asm) (List MasterData)) (minor : UInt8)
    (hh : v.header = .dec (headerDict minor)) (hend : ∀ e ∈ v.entries, e.id ≠ 2)
    (hready : ∀ e ∈ v.entries, EntryReady ops asm v.ctx e) :
    ∃ out v', v.writeBytes (vfbCodec ops asm) = (.ok (), out, v') ∧
      ∀ n, (Vfb.readFuel (vfbCodec ops asm) n {} out).1 = .error .fuel := by
  obtain ⟨ps, hps⟩ := forall₂_exists fun e he => good_of_ready ops asm (hready e he)
  obtain ⟨z1, z2, z3⟩ := forall₂_zip hps
  obtain ⟨v', hw⟩ := write_ok (vfbCodec ops asm) v minor (v.entries.zip ps) hh z1.symm fun x hx => (z3 x hx).writes
  rw [z2] at hw
  refine ⟨_, v', hw, fun n => C11_missing_end_entry _ {} minor ps rfl ?_ (good_readable ops asm hps false {}) n⟩
  intro p hp
  obtain ⟨e, he, hg⟩ := forall₂_right hps p hp
  have h1 := hg.writes.id
  have h2 := hend e he
  omega

/-- **C100** (Known defect) If the user does not set the number of masters of a new font, anchors are written without complaint,
but without any position. -/
theorem C100_anchors_lost (ctx : Ctx) (h0 : ctx.num_masters = 0) (l : List MMAnchor) (hl : l.length < 2147483648) :
    ∃ comp b, (vfbCodec ops asm).compile 2029 = some comp ∧ comp ctx (some (.anchors l)) = .ok b ∧
      parseEntry ((vfbCodec ops asm).parse 2029 ctx) b = .ok (.anchors (l.map fun _ => ⟨[], []⟩)) := by
  have hk : kindOf 2029 = some .anchors := by decide +kernel
  obtain ⟨b, h1, h2⟩ := C44_anchors_extra 0 (by omega) l ⟨by simpa using hl, by
    intro a ha
    obtain ⟨x, _, rfl⟩ := List.mem_map.1 ha
    simp⟩
  refine ⟨_, b, (by
    show tableCompile ops asm 2029 = some (Kind.compileData ops asm .anchors)
    unfold tableCompile
    rw [hk]
    rfl), ?_, ?_⟩
  · show compileAnchors ctx.num_masters.toNat l = .ok b
    rw [h0]
    exact h1
  · show parseEntry (tableParse ops asm 2029 ctx) b = _
    unfold tableParse
    rw [hk]
    simp only
    rw [parseEntry_map]
    show Except.map _ (parseEntry parseAnchors b) = _
    rw [h2]
    simp [Except.map, Kind.cls]

/-! ## C101 -/

/-- what becomes of an entry that the user may have edited -/
structure Step (ctx c : Ctx) (force : Bool) (p : Nat × Bytes) (e2 : Entry (Decompiled ops.Angle asm.Asm) (List MasterData))
    (p' : Nat × Bytes) : Prop where
  id : p'.1 = p.1
  writes : Writes (vfbCodec ops asm) ctx e2 p'
  after : ∀ c', ctxAfter (vfbCodec ops asm) force c' p' = ctxAfter (vfbCodec ops asm) force c' p
  pair : p'.1 = 1410 → p' = p
  special : isSpecial p'.1 = true → ∃ d, parseEntry ((vfbCodec ops asm).parse p'.1 c) p'.2 = .ok d
  kept : EntryKept ops asm ctx e2 (loadedEntry (vfbCodec ops asm) c p')
  exact : (isSpecial p.1 = true ∨ ∃ b, e2.data = .bytes b) → loadedEntry (vfbCodec ops asm) c p' = e2

theorem edit_step_exists (hr : ∀ v, IsInt32 v → IsInt32 (ops.fromAngle (ops.toAngle v))) (ctx c : Ctx) (force : Bool) (p : Nat × Bytes)
    (e2 : Entry (Decompiled ops.Angle asm.Asm) (List MasterData)) (r1 : p.1 < 32768) (r2 : p.2.length < 1000000000)
    (r4 : isSpecial p.1 = true → ∃ d, parseEntry ((vfbCodec ops asm).parse p.1 c) p.2 = .ok d)
    (he : Edited ops asm ctx (loadedEntry (vfbCodec ops asm) c p) e2) : ∃ p', Step ops asm ctx c force p e2 p' := by
  have hs := vfb_special_fixed ops asm
  by_cases hsp : isSpecial p.1 = true
  · obtain ⟨d, hd⟩ := r4 hsp
    have hle : (loadedEntry (vfbCodec ops asm) c p : Entry _ (List MasterData)) = { id := p.1, data := .dec d } := by
      unfold loadedEntry
      rw [if_pos hsp, hd]
    have h3 : p.1 = 10 ∨ p.1 = 1503 ∨ p.1 = 1269 := by
      simp only [isSpecial, Bool.or_eq_true, decide_eq_true_eq] at hsp; omega
    rw [hle] at he
    obtain ⟨k, hkd, hk3⟩ : ∃ k, kindOf p.1 = some k ∧ (k = .flVersion ∨ k = .int16 ∨ k = .ttStems) := by
      rcases special_kinds p.1 hsp with ⟨h, _⟩ | ⟨h, _⟩ | ⟨h, _⟩
      · exact ⟨_, h, .inl rfl⟩
      · exact ⟨_, h, .inr (.inl rfl)⟩
      · exact ⟨_, h, .inr (.inr rfl)⟩
    -- whatever the entry contains now, it is written, and read back with the same settings
    obtain ⟨d2, b, comp, he, c1, c2, hsz, c3, hnote⟩ : ∃ d2 b comp, e2 = { id := p.1, data := .dec d2 } ∧
        (vfbCodec ops asm).compile p.1 = some comp ∧ comp ctx (some d2) = .ok b ∧ b.length < 4294967296 ∧
        parseEntry ((vfbCodec ops asm).parse p.1 ctx) b = .ok d2 ∧
        ∀ c', noteCtx (vfbCodec ops asm) force p.1 d2 c' = noteCtx (vfbCodec ops asm) force p.1 d c' := by
      rcases he with he | ⟨k', d2, he, hk', hset, hdat, hsz⟩
      · have hsv : Survives ops asm ctx k d := by
          rcases hk3 with rfl | rfl | rfl <;> exact trivial
        have hd' := hd
        rw [hs p.1 hsp c ctx] at hd'
        obtain ⟨comp, b, d', c1, c2, c3, c4⟩ := C15_entry_stable ops asm hr p.1 k hkd ctx p.2 d (by omega) hd' hsv
        have hdd : d' = d := by
          obtain ⟨a, rfl⟩ := parse_inj ops asm hkd hd'
          obtain ⟨a', rfl⟩ := parse_inj ops asm hkd c3
          rcases hk3 with rfl | rfl | rfl <;> exact c4.symm
        rw [hdd] at c3
        have hsz := special_size ops asm p.1 hsp c ctx p.2 b d comp hd c1 c2
        exact ⟨d, b, comp, he, c1, c2, by omega, c3, fun _ => rfl⟩
      · simp only at he hk' hset hdat
        rw [hkd] at hk'
        injection hk' with hk'
        subst hk'
        have hst : Storable ops asm ctx k d2 := by
          rcases hdat with h | ⟨⟨b, h, _⟩, _⟩
          · exact h
          · cases h
        obtain ⟨comp, b, d', c1, c2, c3, c4⟩ := C100_entry ops asm p.1 k hkd ctx d2 hst
        have hdd : d2 = d' := by
          obtain ⟨a, rfl⟩ := storable_inj ops asm hst
          obtain ⟨a', rfl⟩ := parse_inj ops asm hkd c3
          rcases hk3 with rfl | rfl | rfl <;> exact c4
        rw [← hdd] at c3
        have hcomp : (vfbCodec ops asm).compile p.1 = some (k.compileData ops asm) := by
          show tableCompile ops asm p.1 = _
          unfold tableCompile
          rw [hkd]
          rfl
        have hlen : b.length < 4294967296 := by
          rw [hcomp] at c1
          injection c1 with c1
          subst c1
          exact hsz b c2
        refine ⟨d2, b, comp, he, c1, c2, hlen, c3, fun c' => ?_⟩
        obtain ⟨s1, s2, s3⟩ := hset
        rcases h3 with h3 | h3 | h3
        · obtain ⟨f, f2, e1, e2, e3⟩ := s1 (by omega)
          injection e1 with e1
          subst e1 e2
          have hp : (vfbCodec ops asm).platform (.flVersion f2) = (vfbCodec ops asm).platform (.flVersion f) := e3
          unfold noteCtx
          have h10 : (p.1 : Int) = 10 := by omega
          rw [if_pos h10, if_pos h10, hp]
        · have e1 := s2 (by omega)
          injection e1 with e1
          rw [e1]
        · obtain ⟨t, t2, e1, e2, e3, e4⟩ := s3 (by omega)
          injection e1 with e1
          subst e1 e2
          have hp : (vfbCodec ops asm).stems (.ttStems t2) = (vfbCodec ops asm).stems (.ttStems t) := by
            simp only [vfbCodec, e3, e4]
          have hn : (p.1 : Int) ≠ 10 ∧ (p.1 : Int) ≠ 1503 := by omega
          simp only [noteCtx, if_neg hn.1, if_neg hn.2, hp]
    have c5 : ∀ c', parseEntry ((vfbCodec ops asm).parse p.1 c') b = .ok d2 := fun c' => by rw [hs p.1 hsp c' ctx]; exact c3
    have hle' : (loadedEntry (vfbCodec ops asm) c (p.1, b) : Entry _ (List MasterData)) = { id := p.1, data := .dec d2 } := by
      unfold loadedEntry
      simp only [hsp, if_true, c5 c]
    refine ⟨(p.1, b), rfl, ?_, ?_, ?_, fun _ => ⟨d2, c5 c⟩, ?_, fun _ => ?_⟩
    · rw [he]
      exact ⟨rfl, rfl, rfl, ⟨comp, c1, c2⟩, r1, hsz⟩
    · intro c'
      unfold ctxAfter
      simp only [hsp, if_true, hs p.1 hsp c' c, c5 c, hd]
      exact hnote c'
    · intro h
      simp only at h
      omega
    · rw [hle', he]
      refine ⟨rfl, fun b hb => ?_, fun d3 hd3 => ?_⟩
      · cases hb
      · injection hd3 with hd3
        subst hd3
        exact ⟨_, d2, rfl, rfl, sameData_refl _⟩
    · rw [hle', he]
  · have hle : (loadedEntry (vfbCodec ops asm) c p : Entry _ (List MasterData)) = { id := p.1, data := .bytes p.2 } := by
      unfold loadedEntry
      rw [if_neg hsp]
    rcases he with he | ⟨k, d, he, hk, _, hdat, hsz⟩
    · refine ⟨p, rfl, ?_, fun _ => rfl, fun _ => rfl, fun h => absurd h hsp, ?_, fun _ => he.symm⟩
      · rw [he, hle]
        exact ⟨rfl, rfl, rfl, rfl, r1, by omega⟩
      · rw [he, hle]
        refine ⟨rfl, fun b hb => hb, fun d hd => ?_⟩
        cases hd
    · rw [hle] at he hk hdat
      simp only at hk he hdat
      have hcyc : ∃ comp b d', (vfbCodec ops asm).compile p.1 = some comp ∧ comp ctx (some d) = .ok b ∧
          parseEntry ((vfbCodec ops asm).parse p.1 ctx) b = .ok d' ∧ SameData d d' := by
        rcases hdat with hdat | ⟨⟨b, hb, hp⟩, hsv⟩
        · exact C100_entry ops asm p.1 k hk ctx d hdat
        · injection hb with hb
          subst hb
          exact C15_entry_stable ops asm hr p.1 k hk ctx p.2 d (by omega) hp hsv
      obtain ⟨comp, b, d', c1, c2, c3, c4⟩ := hcyc
      have hcomp : (vfbCodec ops asm).compile p.1 = some (k.compileData ops asm) := by
        show tableCompile ops asm p.1 = _
        unfold tableCompile
        rw [hk]
        rfl
      have hlen : b.length < 4294967296 := by
        rw [hcomp] at c1
        injection c1 with c1
        subst c1
        exact hsz b c2
      have hle' : (loadedEntry (vfbCodec ops asm) c (p.1, b) : Entry _ (List MasterData)) = { id := p.1, data := .bytes b } := by
        unfold loadedEntry
        rw [if_neg hsp]
      refine ⟨(p.1, b), rfl, ?_, ?_, ?_, fun h => absurd h hsp, ?_, ?_⟩
      · rw [he]
        exact ⟨rfl, rfl, rfl, ⟨comp, c1, c2⟩, r1, hlen⟩
      · intro c'
        unfold ctxAfter
        simp only [hsp, Bool.false_eq_true, if_false]
      · intro h
        simp only at h
        exfalso
        rw [h] at hk
        have : kindOf (1410 : Nat) = some .kernPair := by decide +kernel
        rw [this] at hk
        injection hk with hk
        subst hk
        rcases hdat with h | h
        · exact h
        · exact absurd h.2 (by simp [Survives])
      · rw [hle', he]
        refine ⟨rfl, fun b hb => ?_, fun d2 hd2 => ?_⟩
        · cases hb
        · injection hd2 with hd2
          subst hd2
          exact ⟨{ id := p.1, data := .dec d' }, d', by simp only [Entry.decompile, c3], rfl, c4⟩
      · intro h
        rcases h with h | ⟨b, h⟩
        · exact absurd h hsp
        · rw [he] at h
          cases h

theorem loaded_exact (c : Ctx) (p : Nat × Bytes) (h : isSpecial p.1 = true → ∃ d, parseEntry ((vfbCodec ops asm).parse p.1 c) p.2 = .ok d) :
    isSpecial p.1 = true ∨ ∃ b, (loadedEntry (vfbCodec ops asm) c p : Entry _ (List MasterData)).data = .bytes b := by
  by_cases hsp : isSpecial p.1 = true
  · exact .inl hsp
  · exact .inr ⟨p.2, by unfold loadedEntry; rw [if_neg hsp]⟩

theorem edit_steps_exist (hr : ∀ v, IsInt32 v → IsInt32 (ops.fromAngle (ops.toAngle v))) (ctx : Ctx) (force : Bool) (es : List (Nat × Bytes)) (c : Ctx)
    (l2 : List (Entry (Decompiled ops.Angle asm.Asm) (List MasterData)))
    (hread : Readable (vfbCodec ops asm) force c es) (hlen : ∀ p ∈ es, p.2.length < 1000000000)
    (he : List.Forall₂ (Edited ops asm ctx) (loaded (vfbCodec ops asm) force c es) l2) :
    ∃ es', es'.map Prod.fst = es.map Prod.fst ∧ Readable (vfbCodec ops asm) force c es' ∧
      ctxAll (vfbCodec ops asm) force c es' = ctxAll (vfbCodec ops asm) force c es ∧
      List.Forall₂ (Writes (vfbCodec ops asm) ctx) l2 es' ∧
      List.Forall₂ (EntryKept ops asm ctx) l2 (loaded (vfbCodec ops asm) force c es') ∧
      ∀ i : Nat, l2[i]? = (loaded (vfbCodec ops asm) force c es)[i]? → (loaded (vfbCodec ops asm) force c es')[i]? = l2[i]? := by
  induction es generalizing c l2 with
  | nil =>
    cases he
    exact ⟨[], rfl, trivial, rfl, .nil, .nil, fun _ _ => rfl⟩
  | cons p es ih =>
    cases he with
    | cons he htl =>
      rename_i e2 l2
      obtain ⟨r1, r2, r3, r4, r5⟩ := hread
      obtain ⟨p', hp⟩ := edit_step_exists ops asm hr ctx c force p e2 r1 (hlen p List.mem_cons_self) r4 he
      obtain ⟨es', i1, i2, i3, i4, i5, i6⟩ := ih (ctxAfter (vfbCodec ops asm) force c p) l2 r5
        (fun q hq => hlen q (List.mem_cons_of_mem _ hq)) htl
      refine ⟨p' :: es', ?_, ⟨?_, hp.writes.size_lt, ?_, hp.special, ?_⟩, ?_, .cons hp.writes i4, ?_, ?_⟩
      · simp [i1, hp.id]
      · rw [hp.id]; exact r1
      · intro h
        rw [hp.pair h]
        exact r3 (by rw [← hp.id]; exact h)
      · rw [hp.after]; exact i2
      · simp only [ctxAll, List.foldl_cons, hp.after]
        exact i3
      · refine .cons hp.kept ?_
        rw [hp.after]
        exact i5
      · intro i hi
        cases i with
        | zero =>
          simp only [loaded, List.getElem?_cons_zero, Option.some.injEq] at hi ⊢
          exact hp.exact (hi ▸ loaded_exact ops asm c p r4)
        | succ i =>
          simp only [loaded, List.getElem?_cons_succ, hp.after] at hi ⊢
          exact i6 i hi

theorem terminated_ids {es es' : List (Nat × Bytes)} (h : es'.map Prod.fst = es.map Prod.fst) (ht : Terminated es) : Terminated es' := by
  obtain ⟨init, b, rfl, hi⟩ := ht
  induction init generalizing es' with
  | nil =>
    cases es' with
    | nil => simp at h
    | cons q es' =>
      cases es' with
      | nil =>
        obtain ⟨a, b'⟩ := q
        simp at h
        subst h
        exact ⟨[], b', rfl, by simp⟩
      | cons q' es' => simp at h
  | cons p init ih =>
    cases es' with
    | nil => simp at h
    | cons q es' =>
      simp only [List.cons_append, List.map_cons, List.cons.injEq] at h
      obtain ⟨in', b', rfl, hn⟩ := ih (fun x hx => hi x (List.mem_cons_of_mem _ hx)) h.2
      refine ⟨q :: in', b', rfl, ?_⟩
      intro x hx
      rcases List.mem_cons.1 hx with rfl | hx
      · rw [h.1]; exact hi p List.mem_cons_self
      · exact hn x hx

/-- **C101** Changing some entries of a font leaves all the others alone.  Whatever byte string (of less than 1 GB) is accepted as a
file: after the user has replaced the data of some entries by storable ones (which say the same about platform, masters and numbers of
stems), has decompiled others and has left the rest alone,
writing the font and reading the result again succeeds and gives the same header and settings; entries that were left alone are
exactly as they were, all others are decompiled to equal data. -/
theorem C101_edit (hr : ∀ v, IsInt32 v → IsInt32 (ops.fromAngle (ops.toAngle v)))
    (v v1 : Vfb (Decompiled ops.Angle asm.Asm) (List MasterData)) (file : Bytes)
    (ho : v.only_header = false) (hk : v.drop_keys = []) (hl : file.length < 1000000000)
    (h : v.readBytes (vfbCodec ops asm) file = (.ok (), v1))
    (entries : List (Entry (Decompiled ops.Angle asm.Asm) (List MasterData)))
    (he : List.Forall₂ (Edited ops asm v1.ctx) v1.entries entries) :
    ∃ out v3 v4, Vfb.writeBytes (vfbCodec ops asm) { v1 with entries := entries } = (.ok (), out, v3) ∧
      v.readBytes (vfbCodec ops asm) out = (.ok (), v4) ∧ v4.header = v1.header ∧ v4.ctx = v1.ctx ∧
      List.Forall₂ (EntryKept ops asm v4.ctx) entries v4.entries ∧
      ∀ i : Nat, entries[i]? = v1.entries[i]? → v4.entries[i]? = v1.entries[i]? := by
  obtain ⟨minor, init, b0, hi0, hread, hsum, _, hf⟩ := C10_every_file _ v v1 file ho (.inl (by omega)) h
  have ht : Terminated (init ++ [(2, b0)]) := ⟨init, b0, rfl, hi0⟩
  have h1 := hf []
  rw [read_file _ v minor _ [] ho ht hread, hk, List.filter_eq_self.2 (by simp)] at h1
  injection h1 with _ h1
  have hent : v1.entries = loaded (vfbCodec ops asm) v.force_unicode_strings v.ctx (init ++ [(2, b0)]) := by rw [← h1]
  have hctx : v1.ctx = ctxAll (vfbCodec ops asm) v.force_unicode_strings v.ctx (init ++ [(2, b0)]) := by rw [← h1]
  have hhead : v1.header = .dec (headerDict minor) := by rw [← h1]
  rw [hent] at he
  obtain ⟨es', i1, i2, i3, i4, i5, i6⟩ := edit_steps_exist ops asm hr v1.ctx v.force_unicode_strings (init ++ [(2, b0)]) v.ctx entries hread
    (fun p hp => by have := mem_length_le hp; omega) he
  obtain ⟨z1, z2, z3⟩ := forall₂_zip i4
  obtain ⟨v3, hw⟩ := write_ok (vfbCodec ops asm) { v1 with entries := entries } minor (entries.zip es') hhead z1.symm z3
  rw [z2] at hw
  have ht' : Terminated es' := terminated_ids i1 ht
  have hread2 := read_file (vfbCodec ops asm) v minor es' [] ho ht' i2
  rw [List.append_nil, hk, List.filter_eq_self.2 (by simp)] at hread2
  refine ⟨_, v3, _, hw, hread2, hhead.symm, by rw [hctx]; exact i3, ?_, ?_⟩
  · simp only [i3, ← hctx]
    exact i5
  · intro i hi
    rw [hent] at hi ⊢
    rw [← hi]
    exact i6 i hi

end

/-! ### fonts that meet the hypotheses -/

/-- entries as a user may add them: master count, font name, unicodes, glyph origin, an entry of unknown id with raw bytes, end -/
def exampleBuiltEntries : List (Entry (Decompiled exampleAngles.Angle exampleAsm.Asm) (List MasterData)) :=
  [{ id := 1503, data := .dec (.int 1) }, { id := 1026, data := .dec (.str [65, 98]) }, { id := 1250, data := .dec (.ints [65, 97]) },
   { id := 2027, data := .dec (.origin ⟨1, -1⟩) }, { id := 9999, data := .bytes [1, 2, 3] }, { id := 2, data := .bytes [] }]

/-- a new font to which these entries have been added -/
def exampleBuiltFont : Vfb (Decompiled exampleAngles.Angle exampleAsm.Asm) (List MasterData) :=
  exampleBuiltEntries.foldl Vfb.addEntry { header := .dec (headerDict 5), ctx := { num_masters := 1 } }

theorem exampleBuiltFont_ready : ∀ e ∈ exampleBuiltFont.entries, EntryReady exampleAngles exampleAsm exampleBuiltFont.ctx e := by
  have h1 : exampleBuiltFont.entries = exampleBuiltEntries := rfl
  have h2 : exampleBuiltFont.ctx = { num_masters := 1 } := rfl
  rw [h1, h2]
  intro e he
  simp only [exampleBuiltEntries, List.mem_cons, List.not_mem_nil, or_false] at he
  rcases he with rfl | rfl | rfl | rfl | rfl | rfl
  · refine ⟨rfl, rfl, .inr ⟨.int16, _, rfl, (by decide +kernel), (by show (0 : Int) ≤ 1 ∧ (1 : Int) < 65536; decide), ⟨?_, ?_, ?_⟩, ?_⟩⟩
    · intro h; exact absurd h (by decide)
    · intro _ n h; cases h; rfl
    · intro h; exact absurd h (by decide)
    · intro b h; cases h; decide
  · refine ⟨rfl, rfl, .inr ⟨.string, _, rfl, (by decide +kernel), ⟨?_, ?_⟩, ⟨?_, ?_, ?_⟩, ?_⟩⟩
    · exact (by decide : IsLatin [65, 98])
    · exact ⟨by decide, by decide⟩
    · intro h; exact absurd h (by decide)
    · intro h; exact absurd h (by decide)
    · intro h; exact absurd h (by decide)
    · intro b h; cases h; decide
  · refine ⟨rfl, rfl, .inr ⟨.unicodes, _, rfl, (by decide +kernel), (by show ∀ v ∈ [(65 : Int), 97], 0 ≤ v ∧ v < 65536; decide), ⟨?_, ?_, ?_⟩, ?_⟩⟩
    · intro h; exact absurd h (by decide)
    · intro h; exact absurd h (by decide)
    · intro h; exact absurd h (by decide)
    · intro b h; cases h; decide
  · refine ⟨rfl, rfl, .inr ⟨.origin, _, rfl, (by decide +kernel), (by
        show ((-32768 : Int) ≤ 1 ∧ (1 : Int) < 32768) ∧ ((-32768 : Int) ≤ -1 ∧ (-1 : Int) < 32768); decide), ⟨?_, ?_, ?_⟩, ?_⟩⟩
    · intro h; exact absurd h (by decide)
    · intro h; exact absurd h (by decide)
    · intro h; exact absurd h (by decide)
    · intro b h; cases h; decide
  · exact ⟨rfl, rfl, .inl ⟨_, rfl, by decide, by decide, by decide, by decide⟩⟩
  · exact ⟨rfl, rfl, .inl ⟨_, rfl, by decide, by decide, by decide, by decide⟩⟩

/-- C100: it is written and read back -/
example : ∃ out v' w, exampleBuiltFont.writeBytes (vfbCodec exampleAngles exampleAsm) = (.ok (), out, v') ∧
      Vfb.readBytes (vfbCodec exampleAngles exampleAsm) {} out = (.ok (), w) ∧
      w.header = exampleBuiltFont.header ∧ w.ctx.num_masters = exampleBuiltFont.ctx.num_masters ∧
      w.ctx.writer_platform = exampleBuiltFont.ctx.writer_platform ∧
      w.ctx.ttStemsV_count = exampleBuiltFont.ctx.ttStemsV_count ∧ w.ctx.ttStemsH_count = exampleBuiltFont.ctx.ttStemsH_count ∧
      List.Forall₂ (EntryKept exampleAngles exampleAsm w.ctx) exampleBuiltFont.entries w.entries :=
  C100_font exampleAngles exampleAsm exampleBuiltFont 5 rfl
    ⟨exampleBuiltEntries.dropLast, _, rfl, rfl, by decide⟩ exampleBuiltFont_ready
    ⟨fun _ => rfl, fun h => absurd (by decide) h, fun _ => ⟨rfl, rfl⟩⟩

/-- C100: without the end entry it is written, and never read -/
example : ∃ out v', Vfb.writeBytes (vfbCodec exampleAngles exampleAsm) { exampleBuiltFont with entries := exampleBuiltFont.entries.dropLast } =
      (.ok (), out, v') ∧ ∀ n, (Vfb.readFuel (vfbCodec exampleAngles exampleAsm) n {} out).1 = .error .fuel :=
  C100_no_end exampleAngles exampleAsm { exampleBuiltFont with entries := exampleBuiltFont.entries.dropLast } 5 rfl (by
    show ∀ e ∈ exampleBuiltEntries.dropLast, e.id ≠ 2
    decide) (fun e he => exampleBuiltFont_ready e (List.dropLast_subset _ he))

/-- C101: in the font that was read from `foreignFile`, the unicodes are replaced -/
example : ∃ out v3 v4, Vfb.writeBytes (vfbCodec exampleAngles exampleAsm)
        { foreignFont with entries := [{ id := 1503, data := .dec (.int 1) }, { id := 1250, data := .dec (.ints [228]) },
            { id := 2, data := .bytes [] }] } = (.ok (), out, v3) ∧
      Vfb.readBytes (vfbCodec exampleAngles exampleAsm) {} out = (.ok (), v4) ∧ v4.header = foreignFont.header ∧
      v4.ctx = foreignFont.ctx ∧ v4.entries[0]? = foreignFont.entries[0]? ∧ v4.entries[2]? = foreignFont.entries[2]? ∧
      v4.entries[1]? = some { id := 1250, data := .bytes [228, 0] } := by
  obtain ⟨out, v3, v4, h1, h2, h3, h4, h5, h6⟩ := C101_edit exampleAngles exampleAsm (fun v h => h) {} foreignFont foreignFile rfl rfl
    (by decide) foreignFile_read
    [{ id := 1503, data := .dec (.int 1) }, { id := 1250, data := .dec (.ints [228]) }, { id := 2, data := .bytes [] }]
    (.cons (.inl rfl) (.cons (.inr ⟨.unicodes, .ints [228], rfl, by decide +kernel, ⟨fun h => absurd h (by decide), fun h => absurd h (by decide),
      fun h => absurd h (by decide)⟩, .inl (by
      show ∀ v ∈ [(228 : Int)], 0 ≤ v ∧ v < 65536; decide), fun b h => (by cases h; decide)⟩) (.cons (.inl rfl) .nil)))
  refine ⟨out, v3, v4, h1, h2, h3, h4, h6 0 rfl, h6 2 rfl, ?_⟩
  cases h1
  cases h2
  rfl

/-- C101: TrueType stems may be renamed, their values may be changed -/
example : Edited exampleAngles exampleAsm { ttStemsV_count := 1 }
    { id := 1269, data := .dec (.ttStems ⟨[⟨80, lit "A", [(6, 1)]⟩], []⟩) }
    { id := 1269, data := .dec (.ttStems ⟨[⟨95, lit "Bold", [(6, 2)]⟩], []⟩) } := by
  refine .inr ⟨.ttStems, .ttStems ⟨[⟨95, lit "Bold", [(6, 2)]⟩], []⟩, rfl, by decide +kernel,
    ⟨fun h => absurd h (by decide), fun h => absurd h (by decide), fun _ => ⟨_, _, rfl, rfl, rfl, rfl⟩⟩, .inl ?_, fun b h => ?_⟩
  · show ∀ l ∈ [[(⟨95, lit "Bold", [(6, 2)]⟩ : TTStem)], []], l.length < 2147483648 ∧ ∀ s ∈ l, TTStemFits s ∧ s.round.map Prod.fst = [6]
    intro l hl
    simp only [List.mem_cons, List.not_mem_nil, or_false] at hl
    rcases hl with rfl | rfl
    · refine ⟨by decide, fun s hs => ?_⟩
      simp only [List.mem_cons, List.not_mem_nil, or_false] at hs
      subst hs
      refine ⟨⟨by decide, by decide, by decide, ?_⟩, rfl⟩
      simp [RoundsFit, dictGet, IsInt32]
    · exact ⟨by decide, fun s hs => by cases hs⟩
  · cases h
    decide

end Verif.Props
