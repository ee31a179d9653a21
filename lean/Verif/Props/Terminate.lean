import Verif.Props.Table
/-! C57: decompiling an entry ends. -/
set_option autoImplicit false
namespace Verif.Props
open Verif Verif.Spec

/-- a reader whose result is passed to a computation that ends for all results it can give -/
theorem noFuel_bindPost {α β : Type} {p : R α} {f : α → R β} {P : α → Prop} (hp : NoFuel p) (hP : ∀ s a r, p s = .ok a r → P a)
    (hf : ∀ a, P a → NoFuel (f a)) : NoFuel (p >>= f) := by
  intro s r h
  rw [R.bind_run] at h
  cases hs : p s with
  | ok a r' => rw [hs] at h; exact hf a (hP _ _ _ hs) r' r h
  | err e r' =>
    rw [hs] at h
    have h : (.err e r' : Res β) = .err .fuel r := h
    cases h
    exact hp s r hs

theorem fromLE_nonneg (b : Bytes) : 0 ≤ fromLE false b := by
  unfold fromLE
  simp

theorem int_nonneg (k : Nat) (s : Bytes) (a : Int) (r : Bytes) (h : readInt k false s = .ok a r) : 0 ≤ a := by
  unfold readInt at h
  rw [R.bind_run] at h
  cases hs : R.readN k s with
  | err e r' => rw [hs] at h; cases h
  | ok b r' =>
    rw [hs] at h
    have h : (.ok (fromLE false b) r' : Res Int) = .ok a r := h
    cases h
    exact fromLE_nonneg b

theorem binaryToIntList_ends (v : Int) (hv : 0 ≤ v) (start : Int) : binaryToIntList v start ≠ .error .fuel := by
  obtain ⟨n, rfl⟩ := Int.eq_ofNat_of_zero_le hv
  rw [binaryToIntList_ok]
  intro h
  cases h

theorem noFuel_bitmapLoop (n : Nat) (rem : Int) (h : rem ≤ n) : NoFuel (readBitmapLoop n rem) := by
  induction n generalizing rem with
  | zero =>
    unfold readBitmapLoop
    rw [if_pos (by omega)]
    exact NoFuel.pure _
  | succ n ih =>
    unfold readBitmapLoop
    refine NoFuel.ite (NoFuel.pure _) (NoFuel.bind (NoFuel.int _ _) fun v => ?_)
    by_cases hv : 0 ≤ v
    · rw [if_pos hv]
      refine NoFuel.ite (NoFuel.pure _) (NoFuel.bind (NoFuel.forRange NoFuel.u8 _) fun bs => NoFuel.bind (ih _ (by omega)) fun cs => NoFuel.pure _)
    · rw [if_neg hv]
      exact NoFuel.ite (NoFuel.pure _) (NoFuel.bind NoFuel.u8 fun i => NoFuel.bind (ih _ (by omega)) fun cs => NoFuel.pure _)

theorem decodeBitmap_ends (l : List (List Int)) : decodeBitmap l ≠ .error .fuel := by
  induction l with
  | nil => intro h; cases h
  | cons c l ih =>
    cases c with
    | nil => intro h; cases h
    | cons s c =>
      unfold decodeBitmap
      cases hd : decodeBitmap l with
      | error e => intro h; cases h; exact ih hd
      | ok r => intro h; cases h

theorem noFuel_bitmapData (win : Bool) (w n : Int) : NoFuel (parseBitmapData win w n) := by
  unfold parseBitmapData readBitmap
  refine NoFuel.bind (noFuel_bitmapLoop _ _ (by omega)) fun rle => NoFuel.bind (NoFuel.lift (decodeBitmap_ends _)) fun d =>
    NoFuel.bind (NoFuel.lift ?_) fun _ => NoFuel.pure _
  unfold splitRows
  repeat' split
  all_goals intro h; cases h

theorem nameChars_ends (mac : Bool) (l : List Int) : nameChars mac l ≠ .error .fuel := by
  induction l with
  | nil => intro h; cases h
  | cons c l ih =>
    unfold nameChars
    cases hc : nameChar mac c with
    | error e =>
      intro h
      cases h
      unfold nameChar at hc
      repeat' split at hc
      all_goals cases hc
    | ok x =>
      cases hl : nameChars mac l with
      | error e => intro h; cases h; exact ih hl
      | ok r => intro h; cases h

theorem normaliseFea_ends (s : PyStr) : normaliseFea s ≠ .error .fuel := by
  unfold normaliseFea popEmpty
  dsimp only
  split
  · split
    · intro h
      cases h
      rename_i h
      split at h <;> cases h
    · intro h; cases h
  · intro h; cases h

theorem noFuel_bits {α : Type} (k : Nat) (f : List Int → α) : NoFuel (do
    let v ← readInt k false
    let bits ← R.lift (binaryToIntList v)
    pure (f bits)) :=
  noFuel_bindPost (NoFuel.int _ _) (P := fun v => 0 ≤ v) (fun s a r h => int_nonneg k s a r h)
    fun v hv => NoFuel.bind (NoFuel.lift (binaryToIntList_ends v hv 0)) fun _ => NoFuel.pure _

theorem noFuel_at {α : Type} {p : Nat → R α} (h : ∀ n, NoFuel (p n)) (f : Bytes → Nat) : NoFuel (fun s => p (f s) s) :=
  fun s r => h (f s) s r

section
variable (ops : AngleOps) (asm : AsmOps)

theorem noFuel_double : NoFuel readDouble := by
  unfold readDouble
  refine NoFuel.bind (NoFuel.doubles _) fun l => ?_
  cases l with
  | nil => exact NoFuel.throw (by decide)
  | cons d l => exact NoFuel.pure _

theorem kind_ends (hasm : ∀ b, asm.disassemble b ≠ .error .fuel) (k : Kind) (hk : k ≠ .ttInfo) (ctx : Ctx) :
    NoFuel ((k.cls ops asm).parse ctx) := by
  have hd := noFuel_double
  have hpair := noFuel_pair
  have hout := noFuel_outlines
  cases k
  case ttInfo => exact absurd rfl hk
  case hex => exact NoFuel.bind NoFuel.readAll fun _ => NoFuel.pure _
  case stringHex => exact NoFuel.bind NoFuel.strAll fun _ => NoFuel.pure _
  case string => exact NoFuel.bind NoFuel.strAll fun _ => NoFuel.pure _
  case vendor => exact NoFuel.bind NoFuel.strAll fun _ => NoFuel.pure _
  case flVersion =>
    refine NoFuel.whileTrue flVersionBody_consuming (fun st => ?_) _
    unfold flVersionBody
    refine NoFuel.bind NoFuel.u8 fun k => NoFuel.ite (NoFuel.pure _) (NoFuel.bind (NoFuel.value _) fun v => NoFuel.ite ?_ ?_)
    · cases dictGet platformNames v with
      | none => exact NoFuel.throw (by decide)
      | some p => exact NoFuel.pure _
    · nofuel
  case glyphEncoding => exact NoFuel.bind (NoFuel.int _ _) fun _ => NoFuel.bind NoFuel.strAll fun _ => NoFuel.pure _
  case int16 => exact NoFuel.int _ _
  case sint16 => exact NoFuel.int _ _
  case sint32 => exact NoFuel.int _ _
  case double => exact hd
  case doubleList => exact noFuel_at (fun n => NoFuel.rep hd n) _
  case intList => exact noFuel_at (fun n => NoFuel.rep (NoFuel.int _ _) n) _
  case panose => show NoFuel parsePanose; unfold parsePanose; nofuel
  case psGlobalOptions => exact noFuel_bits 2 _
  case psGlyphOptions => exact noFuel_bits 4 _
  case valueListCount => show NoFuel parseValueListCount; unfold parseValueListCount; nofuel
  case valueList =>
    refine NoFuel.whileTrue evlBody_consuming (fun st => ?_) _
    intro s r h
    unfold evlBody at h
    cases hv : readValue true s with
    | ok v r' => rw [hv] at h; cases h
    | err e r' =>
      rw [hv] at h
      cases e <;> cases h
      exact NoFuel.value true s r hv
  case gasp => show NoFuel parseGasp; unfold parseGasp; nofuel
  case vdmx => show NoFuel parseVdmx; unfold parseVdmx readVdmxRec; nofuel
  case ttPpems23 => show NoFuel parseTTPpems23; unfold parseTTPpems23 readPpems readRounds; nofuel
  case ttPpems => show NoFuel parseTTPpems; unfold parseTTPpems readPpems readRounds; nofuel
  case ttStems => show NoFuel parseTTStems; unfold parseTTStems readCounted readTTStem; nofuel
  case ttPpems1 => show NoFuel (parseTTPpems1 _ _); unfold parseTTPpems1 readPpems readRounds; nofuel
  case ttZones => show NoFuel parseTTZones; unfold parseTTZones readCounted readTTZone; nofuel
  case ttDeltas => show NoFuel parseTTDeltas; unfold parseTTDeltas readDelta; nofuel
  case unicodeRanges => exact NoFuel.bind (NoFuel.readN _) fun b => NoFuel.lift (binaryToIntList_ends _ (fromLE_nonneg b) 0)
  case nameRecords =>
    show NoFuel parseNameRecords
    unfold parseNameRecords parseNameRecord
    nofuel
    exact NoFuel.lift (nameChars_ends _ _)
  case cmaps => show NoFuel parseCmaps; unfold parseCmaps readCmap; nofuel
  case pclt => 
    show NoFuel parsePclt
    have h1 : NoFuel readI8 := NoFuel.int _ _
    unfold parsePclt
    nofuel
  case metricsFlags => show NoFuel parseMetricsFlags; unfold parseMetricsFlags; nofuel
  case kerningFlags => show NoFuel parseKerningFlags; unfold parseKerningFlags; nofuel
  case binaryTable => show NoFuel parseBinaryTable; unfold parseBinaryTable; nofuel
  case fea => exact NoFuel.bind NoFuel.strAll fun s => NoFuel.lift (normaliseFea_ends s)
  case aniso =>
    refine NoFuel.whileTrue anisoBody_consuming (fun st => ?_) _
    intro s r h
    have ha : NoFuel readAnisoAxis := by unfold readAnisoAxis; nofuel
    unfold anisoBody at h
    cases hv : readAnisoAxis s with
    | ok v r' => rw [hv] at h; cases h
    | err e r' =>
      rw [hv] at h
      cases e <;> cases h
      exact ha s r hv
  case axisCounts => exact NoFuel.rep (NoFuel.int _ _) _
  case axisMappings =>
    have hm : NoFuel readMapping := by unfold readMapping; nofuel
    exact noFuel_at (fun n => NoFuel.rep hm n) _
  case masterLocation =>
    show NoFuel parseMasterLocation
    unfold parseMasterLocation
    exact NoFuel.bind (NoFuel.int _ _) fun _ => NoFuel.bind (NoFuel.rep hd _) fun _ => NoFuel.pure _
  case instances => show NoFuel parseInstances; unfold parseInstances readInstance readCoord; nofuel
  case psInfo =>
    show NoFuel parsePSInfo
    have h1 : NoFuel readI32 := NoFuel.int _ _
    have h2 : NoFuel readU32 := NoFuel.int _ _
    have h3 : NoFuel readI16 := NoFuel.int _ _
    unfold parsePSInfo
    nofuel
  case globalGuides =>
    show NoFuel (parseGlobalGuides ops _)
    have := noFuel_guides ops ctx.num_masters.toNat
    unfold parseGlobalGuides
    nofuel
  case guideProps =>
    have h : ∀ st, NoFuel (R.whileTrue guidePropBody st) := fun st => by
      refine NoFuel.whileTrue guidePropBody_consuming (fun st => ?_) _
      unfold guidePropBody
      nofuel
    exact NoFuel.bind (h _) fun _ => NoFuel.bind (h _) fun _ => NoFuel.pure _
  case globalMask => exact NoFuel.bind hout fun _ => NoFuel.pure _
  case glyph => exact noFuel_glyph ops asm hasm
  case links => show NoFuel parseLinks; unfold parseLinks readLinkDir; nofuel
  case background =>
    show NoFuel (parseBackground _)
    unfold parseBackground
    nofuel
    exact noFuel_bitmapData _ _ _
  case bitmaps =>
    show NoFuel (parseGlyphBitmaps _)
    unfold parseGlyphBitmaps parseGlyphBitmap
    nofuel
    exact noFuel_bitmapData _ _ _
  case sketch => show NoFuel parseSketch; unfold parseSketch readTriple; nofuel
  case mask => show NoFuel parseMask; unfold parseMask readWeight; nofuel
  case maskMetrics => exact NoFuel.bind (NoFuel.int _ _) fun _ => NoFuel.bind (NoFuel.int _ _) fun _ => NoFuel.pure _
  case maskMetricsMM => exact NoFuel.forRange hpair _
  case origin => exact NoFuel.bind (NoFuel.int _ _) fun _ => NoFuel.bind (NoFuel.int _ _) fun _ => NoFuel.pure _
  case unicodes => exact noFuel_at (fun n => NoFuel.rep (NoFuel.int _ _) n) _
  case unicodesSupp => exact noFuel_at (fun n => NoFuel.rep (NoFuel.int _ _) n) _
  case gdef =>
    show NoFuel parseGdef
    unfold parseGdef readGdefAnchor
    have h : ∀ c, NoFuel (R.lift (gdefClassAt c)) := fun c => NoFuel.lift (by
      unfold gdefClassAt
      repeat' split
      all_goals intro h; cases h)
    nofuel
    exact h _
  case anchorsSupp => show NoFuel parseAnchorsSupp; unfold parseAnchorsSupp readAnchorProps; nofuel
  case anchors => show NoFuel parseAnchors; unfold parseAnchors readAnchor; nofuel
  case fontOptions =>
    refine NoFuel.bind (NoFuel.whileTrue (keyValuesBody_consuming _) (fun st => ?_) _) fun _ => NoFuel.pure _
    unfold keyValuesBody
    nofuel
  case exportOptions => exact noFuel_bits 2 _
  case mappingMode =>
    refine NoFuel.whileTrue mappingModeBody_consuming (fun st => ?_) _
    unfold mappingModeBody
    refine NoFuel.bind NoFuel.u8 fun k => NoFuel.ite ?_ ?_
    · split
      · exact NoFuel.pure _
      · exact NoFuel.throw (by decide)
    · nofuel
  case kernPair =>
    show NoFuel (parseKernPair _)
    have h3 : NoFuel readI16 := NoFuel.int _ _
    have h2 : NoFuel readU32 := NoFuel.int _ _
    unfold parseKernPair
    nofuel

/-- **C57** Decompiling ends for every id, all settings and every payload, whatever bytes it consists of; the exception is the
TrueType info entry (1264).  (Disassembling TrueType programs is assumed to end.) -/
theorem C57_decompile_terminates (hasm : ∀ b, asm.disassemble b ≠ .error .fuel) (id : Int) (hid : id ≠ 1264) (ctx : Ctx) (payload : Bytes) :
    parseEntry ((vfbCodec ops asm).parse id ctx) payload ≠ .error .fuel := by
  apply NoFuel.entry
  show NoFuel (tableParse ops asm id ctx)
  unfold tableParse
  cases hk : kindOf id with
  | none => exact NoFuel.bind (NoFuel.bind NoFuel.readAll fun _ => NoFuel.pure _) fun _ => NoFuel.pure _
  | some k =>
    refine NoFuel.bind (kind_ends ops asm hasm k ?_ ctx) fun _ => NoFuel.pure _
    rintro rfl
    have key : ∀ r ∈ parserClasses, r.2.2 = .ttInfo → r.1 = 1264 := by decide +kernel
    unfold kindOf at hk
    obtain ⟨r, hr, he⟩ := Option.map_eq_some_iff.1 hk
    have h1 := key r (List.mem_of_find?_eq_some hr) he
    have h2 := List.find?_some hr
    simp only [beq_iff_eq] at h2
    exact hid (by rw [← h2, h1])

/-- **C57** (Known defect) In a TrueType info entry, negative head flags make the parser run forever: with every number of steps of
the loop over the upper 16 bits, it is not finished. -/
theorem C57_negative_flags_diverge (v : Int) (hv : v < 0) (h32 : -2147483648 ≤ v) (rest : Bytes) :
    (∀ steps, binaryToIntListLoop steps (v / 65536) 0 = .error .fuel) ∧
    ∃ b, writeValue v = .ok b ∧ parseEntry parseTTInfo (0x39 :: b ++ rest) = .error .fuel := by
  have hneg : v / 65536 < 0 := by omega
  refine ⟨fun steps => C18_negative_diverges _ _ hneg steps, ?_⟩
  obtain ⟨b, hb, hr⟩ := enc_value (v := v) (sg := true) (show ValOk true v from ⟨h32, by omega⟩)
  refine ⟨b, hb, ?_⟩
  have hbody : ttInfoBody [] (0x39 :: b ++ rest) = .err .fuel rest := by
    unfold ttInfoBody
    have h8 : readU8 (0x39 :: b ++ rest) = .ok 0x39 (b ++ rest) := rfl
    rw [R.bind_of_ok h8, if_neg (by decide)]
    show ((do
      let v ← readValue
      R.lift (flagsOfInt v)) >>= _ : R _) (b ++ rest) = _
    refine R.bind_of_err ?_
    rw [R.bind_of_ok (hr rest)]
    have hf : flagsOfInt v = .error .fuel := by
      unfold flagsOfInt
      have : ∃ l, binaryToIntList (v % 65536) = .ok l := by
        obtain ⟨n, hn⟩ := Int.eq_ofNat_of_zero_le (show 0 ≤ v % 65536 by omega)
        rw [hn]
        exact ⟨_, binaryToIntList_ok n 0⟩
      obtain ⟨l, hl⟩ := this
      rw [hl]
      have : binaryToIntList (v / 65536) = .error .fuel := C18_negative_diverges _ _ hneg _
      simp only [this]
    rw [hf]
    rfl
  unfold parseEntry parseTTInfo R.whileTrue
  simp only [List.cons_append, List.length_cons]
  rw [R.loop_succ]
  rw [List.cons_append] at hbody
  rw [hbody]

end

/-- C57: an id of the table with arbitrary payload -/
example : parseEntry ((vfbCodec exampleAngles exampleAsm).parse 1743 {}) [1, 2, 3] ≠ .error .fuel :=
  C57_decompile_terminates _ _ (fun _ h => by cases h) 1743 (by decide) {} _

/-- C57: a TrueType info entry with flags -1 -/
example : parseEntry parseTTInfo (0x39 :: [138] ++ [0x32]) = .error .fuel := by
  obtain ⟨_, b, hb, h⟩ := C57_negative_flags_diverge (-1) (by decide) (by decide) [0x32]
  have : writeValue (-1) = .ok [138] := rfl
  rw [this] at hb
  cases hb
  exact h

end Verif.Props
