import Verif.Props.Value
import Verif.Props.Container
import Verif.Props.Base
import Verif.Props.Text
import Verif.Props.Numeric
import Verif.Props.Ps
import Verif.Props.Mm
import Verif.Props.GlyphEntries
import Verif.Props.UfoTime
import Verif.Props.UfoGuides
import Verif.Props.UfoDesign
import Verif.Props.UfoStems
import Verif.Props.UfoGroups
import Verif.Props.Yuri
import Verif.Props.Table
import Verif.Props.TrueType
import Verif.Props.Outline
import Verif.Props.Glyph
import Verif.Props.Bitmap
import Verif.Props.Tth
import Verif.Props.UfoAsm
/-! Concrete cases that meet the hypotheses of theorems whose own modules do not have one: every example applies the theorem. -/
set_option autoImplicit false
namespace Verif.Props
open Verif Verif.Spec

/-! ### numbers and text -/

/-- C03: 1000 in two bytes is not longer than the five-byte form -/
example : ∃ bs, writeValue 1000 true = .ok bs ∧ bs.length ≤ 5 ∧ SelfDelimiting (readValue true) [0xFF, 0, 0, 3, 0xE8] 1000 :=
  have h : SelfDelimiting (readValue true) [0xFF, 0, 0, 3, 0xE8] 1000 :=
    fun rest => C05_read_conforming [0xFF, 0, 0, 3, 0xE8] rest 1000 true (.five 0 0 3 0xE8)
  ⟨_, rfl, C03_value_shortest 1000 true _ _ rfl h, h⟩

/-- C04: the short and the long form of two numbers -/
example (tail : Bytes) : ([0xFF, 0, 0, 3, 0xE8] : Bytes) ≠ [0xFA, 0x7C] ++ tail := by
  intro h
  have := C04_value_prefix_free 1000 1000 true [0xFA, 0x7C] [0xFF, 0, 0, 3, 0xE8] tail (.inl rfl) (.inr rfl) h
  rw [this.2] at h
  exact absurd h (by decide)

/-- C04: four numbers in a row -/
example : ∃ bs, W.all [0, -108, 1131, 70000] (fun v => writeValue v true) = .ok bs ∧
    R.rep 4 (readValue true) (bs ++ [7, 8]) = .ok [0, -108, 1131, 70000] [7, 8] :=
  ⟨_, rfl, C04_value_sequence [0, -108, 1131, 70000] true _ rfl [7, 8]⟩

/-- C05: the range of what is read from five bytes -/
example : -2147483648 ≤ (1000 : Int) ∧ (1000 : Int) ≤ 2147483647 :=
  C05_read_range ([0xFF, 0, 0, 3, 0xE8] ++ []) [] 1000 true (C05_read_conforming _ [] 1000 true (.five 0 0 3 0xE8))

/-- C07: a text that can be written, and one that cannot -/
example : (∃ bs, writeStrWithLen (some (lit "Café")) = .ok bs ∧ ∀ rest, readStrWithLen (bs ++ rest) = .ok (lit "Café") rest) ∧
    writeStrWithLen (some [0x416]) = .error .unicode :=
  ⟨(C07_text_roundtrip (lit "Café") (by decide +kernel)).1 (by decide +kernel), (C07_text_roundtrip [0x416] (by decide +kernel)).2 (by decide +kernel)⟩

/-! ### framing -/

/-- C08: sizes of headers, an id that does not fit, a size that does not fit -/
example : (∃ h, headerBytes 1503 2 = .ok h ∧ h.length = 4) ∧ (∃ h, headerBytes 2001 70000 = .ok h ∧ h.length = 6) ∧
    (∃ x, headerBytes 2001 4294967296 = .error x) :=
  ⟨C08_header_size 1503 2 (by decide) (by decide), C08_header_size 2001 70000 (by decide) (by decide), C08_too_big 2001 4294967296 (by decide)⟩

example : ∃ hd, headerBytes (40000 : Nat) 1 = .ok hd ∧ readEntry 1 (hd ++ [5] ++ [6]) ≠ .ok ((40000 : Nat), [5]) [6] :=
  C08_large_id 40000 [5] [6] 1 (by decide) (by decide)

/-! ### lists of values, encodings, flags -/

/-- C18: the bits of three flags -/
example : ∃ n : Nat, intListToBinary [0, 5, 31] = .ok (n : Int) ∧ binaryToIntList n = .ok [0, 5, 31] :=
  C18_bits_of_int_of_bits [0, 5, 31] (by decide) (by decide)

/-- C19 -/
example : RoundTrips compileValueList parseValueList [1, -70000, 2147483647] ∧
    ([1, -70000, 2147483647].length ≤ 2147483647 → RoundTrips compileValueListCount parseValueListCount [1, -70000, 2147483647]) :=
  C19_value_list_roundtrip [1, -70000, 2147483647] (by decide)

example : Rejected compileValueList [1, 2147483648] := C19_value_list_rejected [1, 2147483648] 2147483648 (by decide) (by decide)

/-- C20 -/
example : RoundTrips compileGlyphEncoding parseGlyphEncoding (65, lit "A.sc") :=
  C20_glyph_encoding_roundtrip 65 (lit "A.sc") (by decide) (by decide +kernel)

/-- C21 -/
example : RoundTrips compileMappingMode parseMappingMode ⟨lit "codepages", 0, 1, 1252⟩ :=
  C21_mapping_mode_roundtrip ⟨lit "codepages", 0, 1, 1252⟩ (by decide +kernel) (by decide)

example : ∃ payload d, parseEntry parseMappingMode payload = .ok d ∧ d.mapping_mode = intDec 2 ∧ compileMappingMode d = .error .key :=
  C21_mapping_mode_unknown 2 0 0 0 (by decide) (by decide)

/-- C25: seven bytes are no double -/
example : parseEntry parseDouble [1, 2, 3, 4, 5, 6, 7] = .error .structError := C25_double_short [1, 2, 3, 4, 5, 6, 7] (by decide)

/-- C26 -/
example : Rejected compileUnicodeRanges [0, 128] := C26_unicode_ranges_rejected [0, 128] 128 (by decide) (by decide)

/-- C27: a vendor id that is filled up -/
example : ∃ payload, compileVendorId (lit "LF") = .ok payload ∧ payload.length = 4 ∧ parseEntry parseString payload = .ok (lit "LF") :=
  C27_vendor_roundtrip (lit "LF") ⟨_, rfl⟩ (by unfold NoOuterNul; decide +kernel)

/-! ### TrueType and PostScript entries, masters -/

/-- C37: a ppem table that cannot be compiled, since "1" is not among its keys -/
example : Rejected compileTTPpems ⟨[⟨0, [(1, 10)]⟩], []⟩ :=
  (C37_ppems_rejected ⟨[⟨0, [(1, 10)]⟩], []⟩ ⟨0, [(1, 10)]⟩ (by decide)).1 fun h => by
    obtain ⟨v, hv, _⟩ := h 2 (by decide)
    exact absurd hv (by simp [dictGet])

/-- C39 -/
example : storedCoord 1000 = 1000 ∧ IsInt32 (truncInt (fmul 1000 10000)) := C39_coordinate_whole 1000 (by decide)

example : CompilesTo compileAxisCounts parseAxisCounts [2, 3] [2, 3, 0, 0] :=
  (C39_axis_counts_length [2, 3] (by decide)).1 (by decide)

example : ∃ b, compileAxisCounts [1, 1, 1, 1, 1] = .ok b ∧ parseEntry parseAxisCounts b = .error .assertion :=
  (C39_axis_counts_length [1, 1, 1, 1, 1] (by decide)).2 (by decide)

/-- C44 -/
example : RoundTrips compileOrigin parseOrigin (-100, 32767) := C44_origin (-100) 32767 (by decide) (by decide)

example : Rejected compileOrigin (0, 32768) := C44_origin_rejected 0 32768 (.inr (by decide))

example : RoundTrips compileUnicodes parseUnicodes [65, 97, 0xFB01] := C44_unicodes [65, 97, 0xFB01] (by decide)

/-! ### UFO -/

/-- C48 -/
example : (∃ t, datetimeToFl (-5) = .ok t ∧ flSeconds t = 0) ∧ datetimeToFl (2212126096 * 1000000) = .error .overflow ∧
    convertTimestamp 4294967296 = .error .overflow :=
  ⟨C48_date_early (-5) (by decide), C48_date_late _ (by decide), C48_timestamp_overflow 4294967296 (by decide)⟩

/-- C72: the files of the further masters of a font whose path has no extension -/
example : masterPath (lit "Test") (0 + 1) = lit "Test" ++ lit "-" ++ natDec (0 + 1) := by
  refine C72_path_plain (fun stem ext h => ?_) 0
  exfalso
  have : (46 : Nat) ∈ lit "Test" := by rw [h]; simp [lit]
  exact absurd this (by decide +kernel)

/-- C81: two colours of guides -/
example : guideColor (colorFromBgr (hex06 0x0000FF)) ≠ guideColor (colorFromBgr (hex06 0x00FF00)) := fun h =>
  absurd (C81_color_faithful (by decide) (by decide) h) (by decide)

/-- C61: three stems of one name -/
example : stemsLib ⟨⟨[], [⟨80, lit "S", 0⟩, ⟨90, lit "S", 1⟩, ⟨100, lit "S", 2⟩]⟩, ⟨[], []⟩⟩ =
    [(lit "S", ⟨false, 80, []⟩), (lit "S" ++ lit "#00", ⟨false, 100, []⟩)] :=
  C61_third_duplicate [] (lit "S") (by decide) 80 90 100 0 1 2

/-- C87: encoding and decoding on the command line, with the text in two arguments -/
example : ∃ text, yuriEncode true false [1000, -5] = .ok text ∧ yuriDecode true [text.take 3, text.drop 3] = ([1000, -5], .ok ()) :=
  ⟨_, rfl, C87_roundtrip true false [1000, -5] _ rfl _ (by simp)⟩

/-! ### more entries -/

/-- C23: two rows of a bitmap -/
example : ∃ bs, writeRle [[0, 255, 255, 255], [1, 2, 3, 3]] = .ok bs ∧ ∀ rest,
    (do let datalen ← readValue
        let chunks ← readBitmap datalen
        R.lift (decodeBitmap chunks)) (bs ++ rest) = .ok [0, 255, 255, 255, 1, 2, 3, 3] rest :=
  C23_stream [[0, 255, 255, 255], [1, 2, 3, 3]] (by decide) (by decide)

/-- C28: a name of the Macintosh platform and one of the Windows platform -/
example : RoundTrips compileNameRecords parseNameRecords [⟨1, 1, 0, 0, lit "Test"⟩, ⟨1, 3, 1, 1033, [0x416, 0x1F600]⟩] := by
  refine C28_names_roundtrip _ (by decide) fun r hr => ?_
  simp only [List.mem_cons, List.not_mem_nil, or_false] at hr
  rcases hr with rfl | rfl
  · refine ⟨by decide, by decide, by decide, by decide, by decide +kernel, ?_⟩
    rw [if_pos (by decide)]
    exact fun c hc => Option.isSome_iff_exists.1 (show (macRomanEncode c).isSome = true from
      (by decide +kernel : ∀ c ∈ lit "Test", (macRomanEncode c).isSome = true) c hc)
  · refine ⟨by decide, by decide, by decide, by decide, by decide, ?_⟩
    rw [if_neg (by decide)]
    decide

/-- C32: bits 0 and 3 of the options for PostScript hinting -/
example : ∃ b d, writeU16 (9 : Nat) = .ok b ∧ parseEntry parsePSGlobalOptions b = .ok d ∧ OptionBit d 9 (lit "generate_flex") 0 ∧
    ∀ j : Int, j ∈ d.other ↔ (0 ≤ j ∧ (9 : Nat).testBit j.toNat = true ∧ j ∉ [(0 : Int)]) := C32_global_option_bits 9 (by decide)

/-- C35: a table of two ranges with an incomplete third one -/
example : ∃ payload, compileGasp [⟨8, 2⟩, ⟨65535, 3⟩] = .ok payload ∧ parseEntry parseGasp (payload ++ [1, 0]) = .ok [⟨8, 2⟩, ⟨65535, 3⟩] ∧
    parseEntry parseGasp (payload ++ [1]) = .error .structError :=
  ⟨_, rfl, C35_gasp_incomplete [⟨8, 2⟩, ⟨65535, 3⟩] 1 0 _ rfl (by decide)⟩

/-- C36: the mandatory settings are missing; a PANOSE number of nine digits; a divergence -/
example : Rejected compileTTInfo [(0x33, .int 1)] := C36_mandatory [(0x33, .int 1)] 0x34 (by decide) rfl

example : Rejected compileTTInfo [(0x4C, .bytes [1, 2, 3, 4, 5, 6, 7, 8, 9])] := C36_panose_rejected _ [1, 2, 3, 4, 5, 6, 7, 8, 9] rfl (by decide)

example : ∃ b, W.all [((0x4C : Int), TTVal.bytes [1, 2, 3, 4, 5, 6, 7, 8, 9, 10])] ttItem = .ok b ∧ ∃ r, R.loop 1000 ttInfoBody [] b = .err .fuel r :=
  C36_missing_end_diverges _ (by decide) (by decide) 1000

/-- C38: shifts of two zones, not in order -/
example : ∃ d', CompilesTo compileTTDeltas parseTTDeltas [(3, [(12, 1), (9, -1)]), (0, [(20, 2)])] d' ∧
    SameDeltas [(3, [(12, 1), (9, -1)]), (0, [(20, 2)])] d' := C38_deltas _ (by unfold DeltasFit DictOk; decide)

/-- C39 -/
example : RoundTrips compileAniso parseAniso [[(0, 0), (500, -300)], []] := C39_aniso _ (by unfold AnisoFits; decide)

/-- C40: a language id of more than 32 bits -/
example : Rejected compileCmaps [⟨4294967296, 1, 0, 6, 0, []⟩] :=
  C40_cmaps_rejected _ ⟨4294967296, 1, 0, 6, 0, []⟩ (by simp) (by decide) fun h => absurd h.1 (by decide)

/-- C41: flags of more than four bits -/
example : ∃ e, writeOutlines 1 [{ type := .move, flags := some 16, points := [[(0, 0)]] }] = .error e :=
  C41_flags_rejected 1 _ ⟨{ type := .move, flags := some 16, points := [[(0, 0)]] }, by simp, by decide⟩

/-- C42: an instruction without one of its parameters -/
example : ∃ e, writeInstruction ⟨lit "SingleLinkH", [(lit "pt1", 3)]⟩ = .error e :=
  C42_instruction_rejected _ fun ps hps => ⟨lit "pt2", by
    have : paramNames (lit "SingleLinkH") = some ps := hps
    revert this
    decide +revert, by decide⟩

/-- C44 -/
example : RoundTrips compileLinks parseLinks ⟨[(0, 1), (-1, 20)], [(2, 3)]⟩ := C44_links _ (by decide) (by decide) (by unfold PairFits; decide)

example : RoundTrips compileSketch parseSketch [(1, 100, -200), (2, 0, 0)] := C44_sketch _ (by decide) (by decide)

example : RoundTrips (compileAnchors (2 : Nat)) parseAnchors [⟨[100, 120], [700, 710]⟩, ⟨[0, 0], [-10, -12]⟩] :=
  C44_anchors 2 (by decide) _ (by unfold AnchorsFit; decide)

example : Rejected (compileAnchors (2 : Nat)) [⟨[100], [700, 710]⟩] := C44_anchors_missing 2 _ ⟨⟨[100], [700, 710]⟩, by simp, by decide⟩

/-! ### UFO, command line -/

/-- C72 -/
example : masterPath (lit "My.Font" ++ lit "." ++ lit "vfb") (1 + 1) = lit "My.Font" ++ lit "-" ++ natDec (1 + 1) ++ lit "." ++ lit "vfb" :=
  (C72_path_form (stem := lit "My.Font") (ext := lit "vfb") (by decide +kernel) (by decide +kernel) (by decide +kernel) 1).2

/-- C63: a font without zones cannot be exported -/
example (x : TthExport) : exportTth [] ≠ .ok x := C63_no_zones (by simp) x

/-- C94: three lines of assembly -/
example (A : AsmText) : ∃ t, formatAssembly A (.list [lit "PUSHB[2] 1 2", lit "IF[]", lit "EIF[]"]) = .ok t ∧
    linesOf t = some ([] :: [lit "PUSHB[2] 1 2", lit "IF[]", lit "EIF[]"].zipIdx.map fun x =>
      List.replicate (2 * blockDepth A.indents A.unindents ([lit "PUSHB[2] 1 2", lit "IF[]", lit "EIF[]"].take x.2) x.1) 32 ++ x.1) :=
  C94_lines A _ (by decide +kernel)

/-! ### stems and zones, instances, groups -/

/-- C37: of a vertical stem with three ppms, the one at six pixels is stored -/
example : CompilesTo compileTTStems parseTTStems ⟨[⟨95, lit "Bold", [(1, 40), (6, 240), (7, 280)]⟩], []⟩ ⟨[⟨95, lit "Bold", [(6, 240)]⟩], []⟩ :=
  C37_stems ⟨[⟨95, lit "Bold", [(1, 40), (6, 240), (7, 280)]⟩], []⟩
    ⟨by decide, fun s hs => by
      rcases List.mem_singleton.1 hs with rfl
      exact ⟨by decide, by decide +kernel, by decide +kernel, fun k hk => ⟨240, by rcases List.mem_singleton.1 hk with rfl; decide, by decide⟩⟩⟩
    ⟨by decide, by simp⟩

/-- C38: zones of one side -/
example : CompilesTo compileTTZones parseTTZones ⟨some [⟨700, 12, lit "Caps"⟩], none⟩ ⟨some [⟨700, 12, lit "Caps"⟩], some []⟩ :=
  C38_zones ⟨some [⟨700, 12, lit "Caps"⟩], none⟩
    (fun zs h => by
      injection h with h
      subst h
      exact ⟨by decide, fun z hz => by
        rcases List.mem_singleton.1 hz with rfl
        exact ⟨by decide, by decide, by decide +kernel, by decide +kernel⟩⟩)
    (fun zs h => by cases h)

/-- C49: of two groups of the first side with the glyph "A", the first one counts -/
example : ∃ gs, dictGet (buildGlyphToGroupMaps [(lit "public.kern1.A", [lit "A"]), (lit "public.kern1.B", [lit "A", lit "B"])]).1 (lit "public.kern1.A") =
    some gs ∧ lit "A" ∈ gs :=
  (C49_first_wins [(lit "public.kern1.A", [lit "A"]), (lit "public.kern1.B", [lit "A", lit "B"])] (by unfold DictOk; decide +kernel) 1 (.inl rfl)
    (lit "public.kern1.A") (by decide +kernel) (lit "A")).2 (by decide +kernel)

/-- C45: a ligature with a named anchor and a caret -/
example : RoundTrips compileGdef parseGdef ⟨some (lit "ligature"), some [⟨some (lit "top"), 100, 700⟩], some [(300, 0)], none⟩ := by
  refine C45_gdef _ ⟨?_, ?_, ?_, ?_⟩
  · intro c hc
    injection hc with hc
    subst hc
    decide +kernel
  · intro xs h
    injection h with h
    subst h
    refine ⟨by simp, by decide, fun x hx => ?_⟩
    rcases List.mem_singleton.1 hx with rfl
    unfold GdefAnchorFits
    decide +kernel
  · intro xs h
    injection h with h
    subst h
    refine ⟨by simp, by decide, fun x hx => ?_⟩
    rcases List.mem_singleton.1 hx with rfl
    exact ⟨by decide, by decide⟩
  · intro xs h
    cases h

/-! ### the container -/

/-- C11: a file of two entries without the end entry is never read to the end; nor is one whose last payload is cut -/
example (n : Nat) : (Vfb.readFuel demo n {} (fileOf 1 [(10, [7]), (2001, [1, 2])])).1 = .error .fuel := by
  refine C11_missing_end_entry demo {} 1 _ rfl (by decide) ?_ n
  exact ⟨by decide, by decide, by decide, fun _ => ⟨_, rfl⟩, by decide, by decide, by decide,
    fun h => absurd h (by decide), trivial⟩

example (n : Nat) : (Vfb.readFuel demo n {} (fileOf 1 [(10, [7])] ++ (leDigits 2 2001 ++ leDigits 2 100 ++ [1, 2, 3]))).1 = .error .fuel := by
  refine C11_truncated_payload demo {} 1 [(10, [7])] 2001 100 [1, 2, 3] rfl (by decide) ?_ (by decide) (by decide) n
  exact ⟨by decide, by decide, by decide, fun _ => ⟨_, rfl⟩, trivial⟩

/-- C14: the second header is that of the first payload -/
example : ∃ h e1, ({ id := 2001, data := .bytes [1, 2] } : Entry Bytes Unit).header = (.ok h, e1) ∧
    (({ e1 with data := .bytes [1, 2, 3, 4] } : Entry Bytes Unit).header).1 = .ok h :=
  ⟨_, _, rfl, C14_header_stale ({ id := 2001, data := .bytes [1, 2] } : Entry Bytes Unit) _ _ rfl (.bytes [1, 2, 3, 4])⟩

/-- C62: two zones at the bottom and one at the top -/
example : ∃ s, setZones noZones ⟨some [⟨700, 12, lit "Caps"⟩], some [⟨0, -12, lit "Base"⟩, ⟨-200, -10, lit "Desc"⟩]⟩ = .ok s ∧
    s.all = [lit "Base", lit "Desc", lit "Caps"] := by
  obtain ⟨s, h1, -, h3, -⟩ := C62_zones (data := ⟨some [⟨700, 12, lit "Caps"⟩], some [⟨0, -12, lit "Base"⟩, ⟨-200, -10, lit "Desc"⟩]⟩)
    rfl rfl (by decide +kernel)
  exact ⟨s, h1, h3⟩

end Verif.Props
