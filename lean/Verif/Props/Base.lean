import Verif.Lemmas.Base
/-! # C17–C22: basic entry types -/
set_option autoImplicit false
namespace Verif.Props
open Verif Verif.Spec

/-! ## C17 hex fallback -/

/-- **C17** The hex string of any payload determines it: parsing with the fallback parser never fails
and compiling the resulting string gives back exactly the payload. -/
theorem C17_hex_lossless (payload : Bytes) :
    ∃ s, parseEntry parseHex payload = .ok s ∧ compileHex (some s) = .ok payload :=
  ⟨hexStr payload, by simp [parseEntry, parseHex, R.bind_run, R.readAll], compileHex_hexStr payload⟩

/-- **C17** different payloads have different hex strings -/
theorem C17_hex_injective (a b : Bytes) (h : hexStr a = hexStr b) : a = b := by
  have h1 := deHexStr_hexStr a
  rw [h, deHexStr_hexStr b] at h1
  cases h1; rfl

/-- **C17** two lower-case hex digits per byte, high nibble first -/
theorem C17_hex_format (b : UInt8) (bs : Bytes) :
    hexStr (b :: bs) = (lit "0123456789abcdef").getD (b.toNat / 16) 0 ::
      (lit "0123456789abcdef").getD (b.toNat % 16) 0 :: hexStr bs := by
  have h : ∀ n : Fin 16, hexDigit n.val = (lit "0123456789abcdef").getD n.val 0 := by decide
  have hb := b.toNat_lt
  have h1 := h ⟨b.toNat / 16, by omega⟩
  have h2 := h ⟨b.toNat % 16, by omega⟩
  simp only at h1 h2
  rw [← h1, ← h2]; rfl

theorem isHexSpace_iff (c : Nat) : isHexSpace c = true ↔ c ∈ [9, 10, 11, 12, 13, 32] := by
  simp only [isHexSpace, Bool.or_eq_true, Bool.and_eq_true, beq_iff_eq, decide_eq_true_eq, List.mem_cons, List.not_mem_nil, or_false]
  omega

theorem hexVal_iff (c v : Nat) : hexVal c = some v ↔ HexChar c v := by
  constructor
  · intro h
    unfold hexVal at h
    by_cases h1 : 48 ≤ c ∧ c ≤ 57
    · rw [if_pos h1] at h
      cases h
      have : c = 48 + (c - 48) := by omega
      have hh := HexChar.digit (c - 48) (by omega)
      rwa [← this] at hh
    · rw [if_neg h1] at h
      by_cases h2 : 97 ≤ c ∧ c ≤ 102
      · rw [if_pos h2] at h
        cases h
        have : c = 97 + (c - 87 - 10) := by omega
        have hh := HexChar.lower (c - 87) (by omega)
        rwa [← this] at hh
      · rw [if_neg h2] at h
        by_cases h3 : 65 ≤ c ∧ c ≤ 70
        · rw [if_pos h3] at h
          cases h
          have : c = 65 + (c - 55 - 10) := by omega
          have hh := HexChar.upper (c - 55) (by omega)
          rwa [← this] at hh
        · rw [if_neg h3] at h; cases h
  · intro h
    unfold hexVal
    cases h with
    | digit v h => rw [if_pos (by omega)]; congr 1; omega
    | lower v h => rw [if_neg (by omega), if_pos (by omega)]; congr 1; omega
    | upper v h => rw [if_neg (by omega), if_neg (by omega), if_pos (by omega)]; congr 1; omega

theorem hexChar_lt {c v : Nat} (h : HexChar c v) : v < 16 := by cases h <;> omega

theorem hexChar_not_space {c v : Nat} (h : HexChar c v) : isHexSpace c = false := by
  cases hs : isHexSpace c with
  | false => rfl
  | true =>
    rw [isHexSpace_iff] at hs
    simp only [List.mem_cons, List.not_mem_nil, or_false] at hs
    cases h <;> omega

theorem hexText_of_deHexStr (n : Nat) : ∀ (s : PyStr) (b : Bytes), s.length ≤ n → deHexStr s = .ok b → HexText s b := by
  induction n with
  | zero =>
    intro s b hs h
    have : s = [] := List.eq_nil_of_length_eq_zero (by omega)
    subst this
    unfold deHexStr at h
    cases h
    exact .done
  | succ n ih =>
    intro s b hs h
    cases s with
    | nil => unfold deHexStr at h; cases h; exact .done
    | cons c s =>
      unfold deHexStr at h
      simp only [List.length_cons] at hs
      cases hc : isHexSpace c with
      | true =>
        rw [hc, if_pos rfl] at h
        exact .space c s b ((isHexSpace_iff c).1 hc) (ih s b (by omega) h)
      | false =>
        rw [hc, if_neg (by simp)] at h
        cases s with
        | nil => cases h
        | cons d s =>
          simp only [List.length_cons] at hs
          simp only at h
          cases h1 : hexVal c with
          | none => rw [h1] at h; cases h
          | some x =>
            cases h2 : hexVal d with
            | none => rw [h1, h2] at h; cases h
            | some y =>
              rw [h1, h2] at h
              simp only at h
              cases h3 : deHexStr s with
              | error e => rw [h3] at h; cases h
              | ok b' =>
                rw [h3] at h
                cases h
                have hx := (hexVal_iff c x).1 h1
                have hy := (hexVal_iff d y).1 h2
                have lx := hexChar_lt hx
                have ly := hexChar_lt hy
                have e : (UInt8.ofNat (16 * x + y)).toNat = 16 * x + y := by
                  rw [UInt8.toNat_ofNat']; omega
                refine .byte c d _ s b' ?_ ?_ (ih s b' (by omega) h3)
                · rw [e, show (16 * x + y) / 16 = x by omega]; exact hx
                · rw [e, show (16 * x + y) % 16 = y by omega]; exact hy

theorem deHexStr_of_hexText {s : PyStr} {b : Bytes} (h : HexText s b) : deHexStr s = .ok b := by
  induction h with
  | done => unfold deHexStr; rfl
  | space c s b hc _ ih =>
    unfold deHexStr
    rw [(isHexSpace_iff c).2 hc, if_pos rfl]
    exact ih
  | byte c d x s b hc hd _ ih =>
    unfold deHexStr
    rw [hexChar_not_space hc, if_neg (by simp)]
    simp only [(hexVal_iff _ _).2 hc, (hexVal_iff _ _).2 hd, ih]
    congr 2
    rw [show 16 * (x.toNat / 16) + x.toNat % 16 = x.toNat by omega]
    exact UInt8.ofNat_toNat

/-- **C17** A text is accepted as hex data exactly if it spells bytes, two digits each (upper or lower case) with optional
white space between the bytes; the compiled entry then holds exactly these bytes. -/
theorem C17_hex_text (s : PyStr) (b : Bytes) : compileHex (some s) = .ok b ↔ HexText s b := by
  have e : compileHex (some s) = deHexStr s := by
    cases s with
    | nil => unfold compileHex deHexStr; rfl
    | cons c s => rfl
  rw [e]
  exact ⟨hexText_of_deHexStr s.length s b (Nat.le_refl _), deHexStr_of_hexText⟩

example : HexText (lit " 0a\tFf ") [10, 255] := (C17_hex_text _ _).1 (by decide +kernel)
example : ¬ ∃ b, HexText (lit "0 a") b := by
  rintro ⟨b, h⟩
  have h1 := (C17_hex_text _ _).2 h
  have h2 : compileHex (some (lit "0 a")) = .error .value := by decide +kernel
  rw [h2] at h1
  cases h1
example : compileHex (some (lit "0a Ff")) = .ok [10, 255] := by decide
example : deHexStr (lit "0aF") = .error .value := by decide

/-! ## C18 bit lists -/

/-- **C18** `binaryToIntList` returns the strictly increasing list of the positions of the set bits,
shifted by `start`, for every non-negative integer. -/
theorem C18_bits_of_int (n : Nat) (start : Int) :
    ∃ l, binaryToIntList n start = .ok l ∧ l.Pairwise (· < ·) ∧
      ∀ i : Int, i ∈ l ↔ ∃ k : Nat, n.testBit k = true ∧ i = start + k :=
  ⟨_, binaryToIntList_ok n start, bitList_sorted _ _ _, fun _ => mem_bitList Nat.lt_log2_self⟩

/-- **C18** `intListToBinary` inverts `binaryToIntList` -/
theorem C18_int_of_bits_of_int (n : Nat) :
    ∃ l, binaryToIntList n = .ok l ∧ intListToBinary l = .ok (n : Int) :=
  ⟨_, binaryToIntList_ok n 0, intListToBinary_bitList _ _ Nat.lt_log2_self⟩

/-- **C18** `binaryToIntList` inverts `intListToBinary` on strictly increasing lists -/
theorem C18_bits_of_int_of_bits (l : List Int) (h0 : ∀ i ∈ l, 0 ≤ i) (hs : l.Pairwise (· < ·)) :
    ∃ n : Nat, intListToBinary l = .ok (n : Int) ∧ binaryToIntList n = .ok l := by
  obtain ⟨n, h1, h2⟩ := intListToBinary_ok h0 (hs.imp fun h => by omega)
  refine ⟨n, h1, ?_⟩
  rw [binaryToIntList_ok]
  congr 1
  refine sorted_ext (bitList_sorted _ _ _) hs fun x => ?_
  rw [mem_bitList Nat.lt_log2_self]
  constructor
  · rintro ⟨j, hj, rfl⟩
    rw [h2] at hj; simpa using hj
  · intro hx
    refine ⟨x.toNat, ?_, by have := h0 x hx; omega⟩
    rw [h2]
    have : ((x.toNat : Nat) : Int) = x := by have := h0 x hx; omega
    simpa [this] using hx

/-- **C18** (finding) on a negative integer the loop never ends: any number of iterations is used up. -/
theorem C18_negative_diverges (v start : Int) (hv : v < 0) (fuel : Nat) :
    binaryToIntListLoop fuel v start = .error .fuel := by
  induction fuel generalizing v start with
  | zero => rfl
  | succ f ih =>
    rw [binaryToIntListLoop, if_neg (by omega), ih (v / 2) (start + 1) (by omega)]

example : binaryToIntList 0x8005 = .ok [0, 2, 15] ∧ intListToBinary [0, 2, 15] = .ok 0x8005 := by decide
example : ([0, 2, 15] : List Int).Pairwise (· < ·) := by decide

/-! ## C19 value lists -/

/-- **C19** Encoded value lists round-trip. -/
theorem C19_value_list_roundtrip (l : List Int) (h : ∀ v ∈ l, IsInt32 v) :
    RoundTrips compileValueList parseValueList l ∧
    (l.length ≤ 2147483647 → RoundTrips compileValueListCount parseValueListCount l) :=
  ⟨roundTrips_of_encAll (encAll_valueList l fun v hv => valOk_iff.2 (h v hv)),
   fun hl => roundTrips_of_enc (enc_valueListCount l (by omega) fun v hv => valOk_iff.2 (h v hv))⟩

/-- **C19** Whatever was parsed can be compiled and parsed again. -/
theorem C19_value_list_stable :
    Stable compileValueList parseValueList ∧ Stable compileValueListCount parseValueListCount :=
  ⟨stable_of_post (fun _ => post_valueList) fun _ l _ h => roundTrips_of_encAll (encAll_valueList l h),
   stable_of_post (fun _ => post_valueListCount) fun _ l _ h =>
     roundTrips_of_enc (enc_valueListCount l h.1 h.2)⟩

/-- **C19** a list with an integer outside the range is refused as a whole -/
theorem C19_value_list_rejected (l : List Int) (v : Int) (hv : v ∈ l) (h : ¬ IsInt32 v) :
    Rejected compileValueList l := by
  unfold Rejected compileValueList
  cases hw : W.all l fun v => writeValue v with
  | error e => exact ⟨e, rfl⟩
  | ok b =>
    obtain ⟨x, hx⟩ := W.all_ok hw v hv
    rw [writeValue_err (fun hn => h (valOk_iff.1 hn))] at hx; cases hx

/-- **C19** parsing a value list always terminates -/
theorem C19_value_list_terminates (payload : Bytes) : parseEntry parseValueList payload ≠ .error .fuel := by
  intro h
  have key : ∀ r, parseValueList payload ≠ .err .fuel r := fun r => by
    refine R.whileTrue_no_fuel evlBody_consuming ?_ [] payload r
    intro st s r' hb
    unfold evlBody at hb
    split at hb
    · cases hb
    · cases hb
    · rename_i e r'' _ heq
      cases hb
      cases s with
      | nil => rw [readValue_nil] at heq; cases heq
      | cons b s =>
        rw [readValue_cons] at heq
        repeat' split at heq
        all_goals cases heq
  unfold parseEntry at h
  split at h
  · rename_i e r heq; cases h; exact key r heq
  · cases h
  · cases h

example : parseEntry parseValueList [0x90, 0x00] = .ok [5] := by decide
example : parseEntry parseValueList [0x90, 0x00, 0x90] = .error .assertion := by decide
example : ∀ v ∈ ([5, -200, 2147483647] : List Int), IsInt32 v := by decide

/-! ## C20 glyph encoding -/

/-- **C20** Glyph encoding entries round-trip. -/
theorem C20_glyph_encoding_roundtrip (gid : Int) (name : PyStr) (hg : 0 ≤ gid ∧ gid ≤ 65535)
    (hn : ∀ c ∈ name, (cp1252Encode c).isSome) :
    RoundTrips compileGlyphEncoding parseGlyphEncoding (gid, name) := by
  refine roundTrips_of_encAll (encAll_glyphEncoding _ (by simp only; omega) ?_)
  simp only
  clear hg
  induction name with
  | nil => exact ⟨[], rfl⟩
  | cons c s ih =>
    obtain ⟨b, hb⟩ := ih fun x hx => hn x (by simp [hx])
    obtain ⟨x, hx⟩ := Option.isSome_iff_exists.1 (hn c (by simp))
    refine ⟨x :: b, ?_⟩
    unfold encode1252 encodeWith at *
    rw [List.mapM_cons, hx]
    split at hb
    · rename_i heq; cases hb; rw [heq]; rfl
    · cases hb

theorem C20_glyph_encoding_stable : Stable compileGlyphEncoding parseGlyphEncoding :=
  stable_of_post (fun _ => post_glyphEncoding) fun _ d _ h =>
    roundTrips_of_encAll (encAll_glyphEncoding d h.1 h.2)

example : compileGlyphEncoding (65, lit "A") = .ok [65, 0, 65] := by decide

/-! ## C21 mapping mode -/

/-- **C21** Mapping mode dictionaries with one of the three known modes round-trip. -/
theorem C21_mapping_mode_roundtrip (d : MappingMode)
    (hm : d.mapping_mode ∈ [lit "names_or_index", lit "unicode_ranges", lit "codepages"])
    (h : IsInt32 d.m2 ∧ IsInt32 d.m3 ∧ IsInt32 d.mapping_id) :
    RoundTrips compileMappingMode parseMappingMode d := by
  obtain ⟨k, hk⟩ : ∃ k, (k, d.mapping_mode) ∈ mappingModes := by
    simp only [List.mem_cons, List.not_mem_nil, or_false] at hm
    rcases hm with h | h | h <;> rw [h]
    · exact ⟨0, by decide⟩
    · exact ⟨1, by decide⟩
    · exact ⟨3, by decide⟩
  exact roundTrips_of_enc (enc_mappingMode k d hk (valOk_iff.2 h.1) (valOk_iff.2 h.2.1) (valOk_iff.2 h.2.2))

/-- **C21** (finding) a payload with any other mode number is parsed (the mode becomes the decimal
string of the number), but what was parsed is refused by the compiler with a KeyError. -/
theorem C21_mapping_mode_unknown (v m2 m3 mid : Int) (hv : v ≠ 0 ∧ v ≠ 1 ∧ v ≠ 3)
    (h : IsInt32 v ∧ IsInt32 m2 ∧ IsInt32 m3 ∧ IsInt32 mid) :
    ∃ payload d, parseEntry parseMappingMode payload = .ok d ∧ d.mapping_mode = intDec v ∧
      compileMappingMode d = .error .key := by
  have key := Enc.whileTrue (body := mappingModeBody) mappingModeBody_consuming
    (ι := Nat × Int) (w := fun p => writeU8 (p.1 : Int) ++ writeValue p.2)
    (step := fun st p => if p.1 = 1 then { st with mapping_mode := some ((dictGet mappingModes p.2).getD (intDec p.2)) }
      else if p.1 = 2 then { st with m2 := some p.2 } else if p.1 = 3 then { st with m3 := some p.2 }
      else { st with mapping_id := some p.2 })
    (wEnd := writeU8 0) (fin := ⟨intDec v, m2, m3, mid⟩) [(1, v), (2, m2), (3, m3), (4, mid)] {}
    (by
      intro pre x post he
      have hx : x ∈ [(1, v), (2, m2), (3, m3), (4, mid)] := by rw [he]; simp
      generalize List.foldl _ _ pre = st
      have hv : ValOk true x.2 := by
        simp only [List.mem_cons, List.not_mem_nil, or_false] at hx
        rcases hx with rfl | rfl | rfl | rfl
        · exact valOk_iff.2 h.1
        · exact valOk_iff.2 h.2.1
        · exact valOk_iff.2 h.2.2.1
        · exact valOk_iff.2 h.2.2.2
      have h1 : x.1 = 1 ∨ x.1 = 2 ∨ x.1 = 3 ∨ x.1 = 4 := by
        simp only [List.mem_cons, List.not_mem_nil, or_false] at hx
        rcases hx with rfl | rfl | rfl | rfl <;> simp
      obtain ⟨x1, x2⟩ := x
      simp only at h1 hv ⊢
      unfold mappingModeBody
      refine Enc.bind (enc_u8 (by omega)) ?_
      rcases h1 with rfl | rfl | rfl | rfl <;>
      · exact Enc.last (enc_value hv) rfl)
    (by
      have hg : dictGet mappingModes v = none := by
        simp only [mappingModes, dictGet]
        rw [if_neg (by omega), if_neg (by omega), if_neg (by omega)]
      simp only [List.foldl, hg, Option.getD_none]
      unfold mappingModeBody
      exact Enc.last (enc_u8 (by omega)) rfl)
  obtain ⟨b, hb, hp⟩ := parseEntry_of_encAll key.all
  refine ⟨b, ⟨intDec v, m2, m3, mid⟩, hp, rfl, ?_⟩
  have hrev : mappingModeRev (intDec v) = .error .key := by
    have hne := intDec_not_mode v
    simp only [mappingModeRev, mappingModes, List.map_cons, List.map_nil, dictGet]
    rw [if_neg (fun e => hne _ (List.Mem.head _) e.symm),
      if_neg (fun e => hne _ (List.Mem.tail _ (List.Mem.head _)) e.symm),
      if_neg (fun e => hne _ (List.Mem.tail _ (List.Mem.tail _ (List.Mem.head _))) e.symm)]
  have hw : writeU8 1 = .ok [1] := by decide
  simp only [compileMappingMode, hrev, W.withVal_error, hw, W.seq_ok_err, W.seq_err_left]

/-- **C21** what was parsed with a known mode can be compiled and parsed again -/
theorem C21_mapping_mode_stable_when :
    StableWhen compileMappingMode parseMappingMode fun d =>
      d.mapping_mode ∈ [lit "names_or_index", lit "unicode_ranges", lit "codepages"] := by
  refine stableWhen_of_post (P := fun _ d => ValOk true d.m2 ∧ ValOk true d.m3 ∧ ValOk true d.mapping_id)
    (fun N => ?_) fun N d _ h hm => C21_mapping_mode_roundtrip d hm
      ⟨valOk_iff.1 h.1, valOk_iff.1 h.2.1, valOk_iff.1 h.2.2⟩
  refine Post.whileTrue (I := fun st => (∀ v, st.m2 = some v → ValOk true v) ∧
    (∀ v, st.m3 = some v → ValOk true v) ∧ (∀ v, st.mapping_id = some v → ValOk true v))
    (fun st hst => ?_) _ (by simp)
  unfold mappingModeBody
  refine Post.bind post_u8 fun key _ => Post.ite (fun _ => ?_) fun _ => ?_
  · rcases st with ⟨a, b, c, d⟩
    simp only at hst ⊢
    cases a <;> cases b <;> cases c <;> cases d <;> first
      | exact Post.throw
      | exact Post.pure ⟨hst.1 _ rfl, hst.2.1 _ rfl, hst.2.2 _ rfl⟩
  · refine Post.bind (post_value true) fun v hv => ?_
    refine Post.ite (fun _ => Post.pure hst) fun _ => ?_
    refine Post.ite (fun _ => Post.pure ⟨fun w hw => by cases hw; exact hv, hst.2⟩) fun _ => ?_
    refine Post.ite (fun _ => Post.pure ⟨hst.1, fun w hw => by cases hw; exact hv, hst.2.2⟩) fun _ => ?_
    exact Post.ite (fun _ => Post.pure ⟨hst.1, hst.2.1, fun w hw => by cases hw; exact hv⟩) fun _ => Post.throw

/-- **C21** (finding) an entry that does not contain all four keys raises UnboundLocalError -/
theorem C21_mapping_mode_incomplete : parseEntry parseMappingMode [0] = .error .unbound := by decide

example : compileMappingMode ⟨lit "codepages", 0, 1, -1⟩ = .ok [1, 0x8E, 2, 0x8B, 3, 0x8C, 4, 0x8A, 0] := by decide

/-! ## C22 class flags -/

/-- **C22** Kerning class flags round-trip. -/
theorem C22_kerning_flags_roundtrip (d : List (PyStr × (Int × Int))) (hd : DictOk d) (hl : d.length ≤ 2147483647)
    (h : ∀ p ∈ d, StrOk p.1 ∧ (-1131 ≤ p.2.1 ∧ p.2.1 ≤ 2147483647) ∧ (-1131 ≤ p.2.2 ∧ p.2.2 ≤ 2147483647)) :
    RoundTrips compileKerningFlags parseKerningFlags d :=
  roundTrips_of_enc (enc_kerningFlags d hd (by omega) fun p hp => by
    obtain ⟨h1, h2, h3⟩ := h p hp; exact ⟨h1, by omega, by omega⟩)

/-- **C22** Metrics class flags round-trip. -/
theorem C22_metrics_flags_roundtrip (d : List (PyStr × (Int × Int × Int))) (hd : DictOk d)
    (hl : d.length ≤ 2147483647)
    (h : ∀ p ∈ d, StrOk p.1 ∧ (-1131 ≤ p.2.1 ∧ p.2.1 ≤ 2147483647) ∧
      (-1131 ≤ p.2.2.1 ∧ p.2.2.1 ≤ 2147483647) ∧ (-1131 ≤ p.2.2.2 ∧ p.2.2.2 ≤ 2147483647)) :
    RoundTrips compileMetricsFlags parseMetricsFlags d :=
  roundTrips_of_enc (enc_metricsFlags d hd (by omega) fun p hp => by
    obtain ⟨h1, h2, h3, h4⟩ := h p hp; exact ⟨h1, by omega, by omega, by omega⟩)

/-- **C22** What was parsed can be compiled and parsed again exactly if no flag is below -1131
(the compiler writes flags as unsigned, the parser reads them as signed). -/
theorem C22_class_flags_stable_when :
    StableWhen compileKerningFlags parseKerningFlags (fun d => ∀ p ∈ d, -1131 ≤ p.2.1 ∧ -1131 ≤ p.2.2) ∧
    StableWhen compileMetricsFlags parseMetricsFlags
      (fun d => ∀ p ∈ d, -1131 ≤ p.2.1 ∧ -1131 ≤ p.2.2.1 ∧ -1131 ≤ p.2.2.2) := by
  constructor
  · refine stableWhen_of_post (fun N => post_kerningFlags) fun N d hN h hc => ?_
    refine C22_kerning_flags_roundtrip d h.1 (by omega) fun p hp => ?_
    obtain ⟨h1, h2, h3⟩ := h.2.2 p hp
    have := hc p hp
    simp only [ValOk] at h2 h3
    exact ⟨h1.ok hN, by omega, by omega⟩
  · refine stableWhen_of_post (fun N => post_metricsFlags) fun N d hN h hc => ?_
    refine C22_metrics_flags_roundtrip d h.1 (by omega) fun p hp => ?_
    obtain ⟨h1, h2, h3, h4⟩ := h.2.2 p hp
    have := hc p hp
    simp only [ValOk] at h2 h3 h4
    exact ⟨h1.ok hN, by omega, by omega, by omega⟩

/-- **C22** (finding) the condition is necessary: there is a payload whose parsed flags the compiler
refuses. -/
theorem C22_class_flags_not_stable :
    parseEntry parseKerningFlags [0x8C, 0x8C, 0x41, 0xFF, 0xFF, 0xFF, 0, 0, 0x8B] = .ok [([65], (-65536, 0))] ∧
    compileKerningFlags [([65], (-65536, 0))] = .error .structError := by decide

/-- **C22** (finding) a flag of at least 2^31 is written, but read back as a negative number -/
theorem C22_class_flags_wrap (v : Int) (h : 2147483648 ≤ v ∧ v ≤ 4294967295) :
    ∃ payload, compileKerningFlags [([65], (v, 0))] = .ok payload ∧
      parseEntry parseKerningFlags payload = .ok [([65], (v - 4294967296, 0))] := by
  have h1 : inRange 4 true (v - 4294967296) := by simp only [inRange]; omega
  obtain ⟨b, hb, hr⟩ := enc_valueLong h1
  have hw : writeValue v false = .ok b := by
    rw [← hb, writeValue, if_neg (by omega), if_neg (by omega), if_neg (by omega),
      writeValueLong_ok false (by simp only [inRange]; omega), writeValueLong_ok true h1]
    have : (v - 4294967296) % ((256 ^ 4 : Nat) : Int) = v % ((256 ^ 4 : Nat) : Int) := by
      have e4 : ((256 ^ 4 : Nat) : Int) = 4294967296 := rfl
      rw [e4]; omega
    rw [this]
  have key : Enc (compileKerningFlags [([65], (v, 0))]) parseKerningFlags [([65], (v - 4294967296, 0))] := by
    unfold compileKerningFlags parseKerningFlags
    refine Enc.bind (enc_value_mixed (by simp) _ _) ?_
    refine Enc.last (a := [([65], (v - 4294967296, 0))]) ?_ rfl
    have := Enc.repMap (xs := [([65], (v, 0))])
      (f := fun p : PyStr × (Int × Int) => writeStrWithLen (some p.1) ++ writeValue p.2.1 false ++ writeValue p.2.2 false)
      (g := fun p => (p.1, (v - 4294967296, 0))) (p := do
        let name ← readStrWithLen
        let flag1 ← readValue
        let flag2 ← readValue
        pure (name, (flag1, flag2))) (by
        intro p hp
        simp only [List.mem_singleton] at hp
        subst hp
        simp only
        rw [W.seq_assoc]
        refine Enc.bind (enc_strWithLen ⟨⟨[65], rfl⟩, by decide⟩) ?_
        refine Enc.bind (a := v - 4294967296) ⟨b, hw, hr⟩ ?_
        exact Enc.last (enc_value_mixed (by decide) _ _) rfl)
    exact this
  exact parseEntry_of_encAll key.all

example : RoundTrips compileKerningFlags parseKerningFlags [(lit "_A", (1024, 0)), (lit "_B", (2048, 1))] :=
  C22_kerning_flags_roundtrip _ (by decide) (by decide) (by
    intro p hp
    simp only [List.mem_cons, List.not_mem_nil, or_false] at hp
    rcases hp with rfl | rfl
    · exact ⟨⟨⟨[95, 65], by decide⟩, by decide⟩, by decide, by decide⟩
    · exact ⟨⟨⟨[95, 66], by decide⟩, by decide⟩, by decide, by decide⟩)

end Verif.Props
