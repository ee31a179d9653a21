import Verif.Lemmas.Base
import Verif.Model.Numeric
/-! C25, C26, C29: numeric entries, Unicode ranges, FontLab version. -/
set_option autoImplicit false
namespace Verif.Props
open Verif Verif.Spec

/-! ## C25 -/

/-- **C25** Int16 entries hold exactly the integers 0…65535. -/
theorem C25_int16 (v : Int) :
    (0 ≤ v ∧ v < 65536 → RoundTrips compileInt16 parseInt16 v) ∧
    (¬ (0 ≤ v ∧ v < 65536) → Rejected compileInt16 v) :=
  ⟨fun h => roundTrips_of_enc (enc_u16 h), fun h => ⟨_, toBytesLE_err (by simp only [inRange]; omega)⟩⟩

/-- **C25** signed Int16 entries hold exactly the integers -32768…32767. -/
theorem C25_signed_int16 (v : Int) :
    (-32768 ≤ v ∧ v < 32768 → RoundTrips compileSInt16 parseSInt16 v) ∧
    (¬ (-32768 ≤ v ∧ v < 32768) → Rejected compileSInt16 v) :=
  ⟨fun h => roundTrips_of_enc (enc_i16 h), fun h => ⟨_, toBytesLE_err (by simp only [inRange]; omega)⟩⟩

/-- **C25** signed Int32 entries hold exactly the integers -2^31…2^31-1. -/
theorem C25_signed_int32 (v : Int) :
    (IsInt32 v → RoundTrips compileSInt32 parseSInt32 v) ∧ (¬ IsInt32 v → Rejected compileSInt32 v) :=
  ⟨fun h => roundTrips_of_enc (enc_i32 (by simp only [IsInt32] at h; omega)),
   fun h => ⟨_, toBytesLE_err (by simp only [inRange, IsInt32] at *; omega)⟩⟩

/-- **C25** what the three integer parsers return can be compiled again -/
theorem C25_int_stable :
    Stable compileInt16 parseInt16 ∧ Stable compileSInt16 parseSInt16 ∧ Stable compileSInt32 parseSInt32 :=
  ⟨stable_of_post (fun _ => post_u16) fun _ v _ h => (C25_int16 v).1 h,
   stable_of_post (fun _ => post_i16) fun _ v _ h => (C25_signed_int16 v).1 h,
   stable_of_post (fun _ => post_i32) fun _ v _ h => (C25_signed_int32 v).1 (by simp only [IsInt32]; omega)⟩

/-- **C25** doubles round-trip bit by bit. -/
theorem C25_double (d : Dbl) : RoundTrips compileDouble parseDouble d := roundTrips_of_enc (enc_double d)

theorem C25_double_stable : Stable compileDouble parseDouble := fun _ a _ _ => C25_double a

/-- **C25** A payload of fewer than eight bytes is not a double: it is rejected. -/
theorem C25_double_short (payload : Bytes) (h : payload.length < 8) : parseEntry parseDouble payload = .error .structError := by
  have hr : R.readN ((1 : Nat) * 8) payload = .ok (payload.take 8) (payload.drop 8) := rfl
  have hl : (payload.take 8).length ≠ 1 * 8 := by rw [List.length_take]; omega
  have hd : readDoubles 1 payload = .err .structError (payload.drop 8) := by
    rw [readDoubles, R.bind_run, hr]
    simp only
    rw [if_neg hl]
    rfl
  rw [parseEntry, parseDouble, readDouble, R.bind_run, hd]


/-- **C25** lists of doubles of any length round-trip bit by bit. -/
theorem C25_double_list (l : List Dbl) : RoundTrips compileDoubleList parseDoubleList l := by
  refine roundTrips_of_encAll ?_
  obtain ⟨b, hb, hr⟩ := Enc.rep (xs := l) (f := writeDouble) (p := readDouble) fun d _ => enc_double d
  refine ⟨b, hb, ?_⟩
  have hl : b.length / 8 = l.length := by
    have := writeDoubles_ok l
    rw [writeDoubles] at this
    rw [this] at hb; cases hb
    rw [flatten_dbl_length]; omega
  have h0 := hr []
  rw [List.append_nil] at h0
  show R.rep (b.length / 8) readDouble b = _
  rw [hl]; exact h0

theorem C25_double_list_stable : Stable compileDoubleList parseDoubleList := fun _ a _ _ => C25_double_list a

theorem all_toBytes_length {k : Nat} {sg : Bool} (l : List Int) {b : Bytes}
    (h : W.all l (fun v => toBytesLE k sg v) = .ok b) : b.length = l.length * k := by
  induction l generalizing b with
  | nil => cases h; simp
  | cons x l ih =>
    obtain ⟨b1, b2, h1, h2, rfl⟩ := W.seq_eq_ok.1 h
    rw [List.length_append, ih h2, List.length_cons, Nat.succ_mul]
    simp only [toBytesLE] at h1
    split at h1
    · cases h1; rw [leDigits_length]; omega
    · cases h1

/-- **C25** integer lists hold exactly lists of unsigned 32-bit integers. -/
theorem C25_int_list (l : List Int) :
    ((∀ v ∈ l, 0 ≤ v ∧ v < 4294967296) → RoundTrips compileIntList parseIntList l) ∧
    (¬ (∀ v ∈ l, 0 ≤ v ∧ v < 4294967296) → Rejected compileIntList l) := by
  constructor
  · intro h
    refine roundTrips_of_encAll ?_
    obtain ⟨b, hb, hr⟩ := Enc.rep (xs := l) (f := writeU32) (p := readU32) fun v hv => enc_u32 (h v hv)
    refine ⟨b, hb, ?_⟩
    have hl : b.length / 4 = l.length := by
      rw [all_toBytes_length l hb]; omega
    have h0 := hr []
    rw [List.append_nil] at h0
    show R.rep (b.length / 4) readU32 b = _
    rw [hl]; exact h0
  · intro h
    match hc : compileIntList l with
    | .error e => exact ⟨e, hc⟩
    | .ok b =>
      refine absurd (fun v hv => ?_) h
      obtain ⟨y, hy⟩ := W.all_ok hc v hv
      unfold toBytesLE at hy
      split at hy
      · next hr => simp only [inRange] at hr; omega
      · cases hy

theorem C25_int_list_stable : Stable compileIntList parseIntList := by
  refine stable_of_post (P := fun _ l => ∀ v ∈ l, 0 ≤ v ∧ v < 4294967296) (fun N => ?_)
    fun _ l _ h => (C25_int_list l).1 h
  intro s a r hN hs
  have := Post.rep (N := N) post_u32 (s.length / 4) s a r hN hs
  exact ⟨this.1.2, this.2⟩

/-- **C25** Panose entries hold exactly lists of ten signed bytes. -/
theorem C25_panose (l : List Int) :
    ((l.length = 10 ∧ ∀ v ∈ l, -128 ≤ v ∧ v < 128) → RoundTrips compilePanose parsePanose l) ∧
    (¬ (l.length = 10 ∧ ∀ v ∈ l, -128 ≤ v ∧ v < 128) → Rejected compilePanose l) := by
  constructor
  · rintro ⟨hl, h⟩
    have key : ∀ l : List Int, (∀ v ∈ l, -128 ≤ v ∧ v < 128) →
        ∃ b, W.all l (packLE 1 true) = .ok b ∧ b.length = l.length ∧ (b.map fun x => toSigned 1 x.toNat) = l := by
      intro l
      induction l with
      | nil => intro _; exact ⟨[], rfl, rfl, rfl⟩
      | cons v l ih =>
        intro h
        obtain ⟨b, h1, h2, h3⟩ := ih fun v hv => h v (List.mem_cons_of_mem _ hv)
        have hv := h v List.mem_cons_self
        refine ⟨UInt8.ofNat (v % 256).toNat :: b, ?_, by simp [h2], ?_⟩
        · rw [W.all_cons, h1, packLE, if_pos (by simp only [inRange]; omega)]
          have e1 : ((256 ^ 1 : Nat) : Int) = 256 := rfl
          rw [e1]
          have e2 : leDigits 1 (v % 256).toNat = [UInt8.ofNat (v % 256).toNat] := by
            simp only [leDigits]
            congr 2; omega
          rw [e2]; rfl
        · rw [List.map_cons, h3, toNat_ofNat_lt (by omega), toSigned]
          congr 1
          have e1 : (256 ^ 1 : Nat) = 256 := rfl
          rw [e1]
          split <;> omega
    obtain ⟨b, h1, h2, h3⟩ := key l h
    refine roundTrips_of_encAll ⟨b, ?_, ?_⟩
    · rw [compilePanose, if_pos hl, h1]
    · show (R.readAll >>= _) b = _
      rw [R.bind_run]
      simp only [R.readAll]
      rw [if_pos (by omega), h3]; rfl
  · intro h
    match hc : compilePanose l with
    | .error e => exact ⟨e, hc⟩
    | .ok b =>
      refine absurd ?_ h
      rw [compilePanose] at hc
      split at hc
      · next hl =>
        refine ⟨hl, fun v hv => ?_⟩
        obtain ⟨y, hy⟩ := W.all_ok hc v hv
        unfold packLE at hy
        split at hy
        · next hr => simp only [inRange] at hr; omega
        · cases hy
      · cases hc

theorem C25_panose_stable : Stable compilePanose parsePanose := by
  refine stable_of_post (P := fun _ l => l.length = 10 ∧ ∀ v ∈ l, -128 ≤ v ∧ v < 128) (fun N => ?_)
    fun _ l _ h => (C25_panose l).1 h
  refine Post.bind Post.readAll fun b _ => Post.ite (fun h => Post.pure ⟨by simpa using h, ?_⟩) fun _ => Post.throw
  intro v hv
  obtain ⟨x, _, rfl⟩ := List.mem_map.1 hv
  have := x.toNat_lt
  rw [toSigned]
  have e1 : (256 ^ 1 : Nat) = 256 := rfl
  rw [e1]
  split <;> omega

/-- **C25** a list of doubles or integers whose payload is not a whole number of items is refused. -/
theorem C25_list_incomplete_item :
    parseEntry parseIntList [1, 0, 0, 0, 9] = .error .assertion ∧
    parseEntry parseDoubleList [1, 0, 0, 0, 9] = .error .assertion := by decide

example : RoundTrips compilePanose parsePanose [2, 0, 5, 3, 6, 0, 0, 2, 0, -4] :=
  (C25_panose _).1 (by decide)
example : RoundTrips compileIntList parseIntList [1, 4294967295, 0] := (C25_int_list _).1 (by decide)

/-! ## C26 Unicode ranges -/

/-- **C26** A strictly increasing list of bit numbers below 128 compiles to 16 bytes in which exactly
these bits are set, and parses back to itself. -/
theorem C26_unicode_ranges (l : List Int) (hs : l.Pairwise (· < ·)) (h : ∀ b ∈ l, 0 ≤ b ∧ b < 128) :
    ∃ payload, compileUnicodeRanges l = .ok payload ∧ payload.length = 16 ∧
      parseEntry parseUnicodeRanges payload = .ok l ∧
      ∀ i : Nat, (leNat payload).testBit i = true ↔ (i : Int) ∈ l := by
  obtain ⟨v, hv, hlt, hback, hbits⟩ := bits_of_sorted (K := 128) hs h
  have hr : inRange 16 false (v : Int) := by
    simp only [inRange]
    have : ((256 ^ 16 : Nat) : Int) = ((2 ^ 128 : Nat) : Int) := by decide
    omega
  have hb : toBytesLE 16 false (v : Int) = .ok (leDigits 16 ((v : Int) % ((256 ^ 16 : Nat) : Int)).toNat) := by
    rw [toBytesLE, if_pos hr]
  have hval := fromLE_toBytes hr
  generalize hbs : leDigits 16 ((v : Int) % ((256 ^ 16 : Nat) : Int)).toNat = bs at *
  have hlen : bs.length = 16 := by rw [← hbs, leDigits_length]
  refine ⟨bs, by rw [compileUnicodeRanges, hv]; exact hb, hlen, ?_, ?_⟩
  · rw [parseEntry_ok]
    show (R.readN 64 >>= _) bs = _
    rw [R.bind_run]
    have e : R.readN 64 bs = .ok bs [] := by
      simp only [R.readN]
      rw [if_neg (by omega), List.take_of_length_le (by rw [hlen]; decide), List.drop_of_length_le (by rw [hlen]; decide)]
    rw [e]
    simp only
    rw [hval, hback, R.lift_ok]
  · intro i
    have : leNat bs = v := by
      have : (leNat bs : Int) = v := hval
      omega
    rw [this, hbits i, decide_eq_true_iff]

/-- **C26** Compiling refuses a list with a bit number above 127 or below 0. -/
theorem C26_unicode_ranges_rejected (l : List Int) (b : Int) (hb : b ∈ l) (h : b < 0 ∨ 128 ≤ b) :
    Rejected compileUnicodeRanges l := by
  unfold Rejected compileUnicodeRanges
  match hc : intListToBinary l with
  | .error e => exact ⟨_, rfl⟩
  | .ok v =>
    refine ⟨.overflow, toBytesLE_err ?_⟩
    have key : ∀ l : List Int, ∀ v, intListToBinary l = .ok v → 0 ≤ v ∧
        ∀ b ∈ l, 0 ≤ b ∧ ((2 ^ b.toNat : Nat) : Int) ≤ v := by
      intro l
      induction l with
      | nil => intro v hv; cases hv; simp
      | cons x l ih =>
        intro v hv
        rw [intListToBinary] at hv
        split at hv
        · cases hv
        · match hr : intListToBinary l with
          | .error e => rw [hr] at hv; cases hv
          | .ok w =>
            rw [hr] at hv
            cases hv
            obtain ⟨h0, h1⟩ := ih w hr
            have hp : 0 < 2 ^ x.toNat := Nat.pow_pos (by omega)
            refine ⟨by omega, fun b hb => ?_⟩
            rcases List.mem_cons.1 hb with rfl | hb
            · exact ⟨by omega, by omega⟩
            · have := h1 b hb
              exact ⟨this.1, by omega⟩
    have := (key l v hc).2 b hb
    have h128 : 2 ^ 128 ≤ 2 ^ b.toNat := Nat.pow_le_pow_right (by omega) (by omega)
    simp only [inRange]
    have e : ((256 ^ 16 : Nat) : Int) = ((2 ^ 128 : Nat) : Int) := by decide
    omega

/-- **C26** Whatever is parsed from at most 16 bytes can be compiled and parsed again. -/
theorem C26_unicode_ranges_stable_when :
    StableWhen compileUnicodeRanges parseUnicodeRanges (fun l => ∀ b ∈ l, b < 128) := by
  intro payload l _ hp hc
  rw [parseEntry_ok] at hp
  obtain ⟨b, r, hr, hl⟩ := R.bind_eq_ok.1 hp
  have h0 : fromLE false b = ((leNat b : Nat) : Int) := rfl
  rw [h0] at hl
  obtain ⟨l', h1, h2, h3, _⟩ := bits_of_nat (v := leNat b) (K := 8 * b.length)
    (by rw [Nat.pow_mul]; exact leNat_lt b)
  rw [h1] at hl
  cases hl
  obtain ⟨payload', h4, _, h5, _⟩ := C26_unicode_ranges l h2 fun x hx => ⟨(h3 x hx).1, hc x hx⟩
  exact ⟨payload', h4, h5⟩

/-- **C26** (finding) A payload of more than 16 bytes is parsed to bit numbers that cannot be compiled. -/
theorem C26_unicode_ranges_long :
    parseEntry parseUnicodeRanges (List.replicate 16 0 ++ [2]) = .ok [129] ∧
    Rejected compileUnicodeRanges [129] :=
  ⟨by decide +kernel, C26_unicode_ranges_rejected _ 129 (by decide) (by decide)⟩

/-- **C26** (finding) A repeated bit number is added, not merged: the list [3, 3] is stored as bit 4. -/
theorem C26_unicode_ranges_duplicates :
    ∃ payload, compileUnicodeRanges [3, 3] = .ok payload ∧ parseEntry parseUnicodeRanges payload = .ok [4] :=
  ⟨16 :: List.replicate 15 0, by decide +kernel, by decide +kernel⟩

example : ∃ payload, compileUnicodeRanges [0, 1, 31, 64, 127] = .ok payload ∧
    parseEntry parseUnicodeRanges payload = .ok [0, 1, 31, 64, 127] := by
  obtain ⟨p, h1, _, h2, _⟩ := C26_unicode_ranges [0, 1, 31, 64, 127] (by decide) (by decide)
  exact ⟨p, h1, h2⟩

/-! ## C29 FontLab version -/

theorem flVersionBody_consuming : Consuming flVersionBody := by
  intro st s st' r h
  unfold flVersionBody at h
  obtain ⟨key, r1, h1, h⟩ := R.bind_eq_ok.1 h
  have hl := readInt_consume h1
  rw [R.ite_run] at h
  split at h
  · cases h
  · obtain ⟨v, r2, h2, h⟩ := R.bind_eq_ok.1 h
    have hl2 := readValue_consume h2
    simp only [R.ite_run] at h
    split at h
    · cases hd : dictGet platformNames v with
      | none => rw [hd] at h; cases h
      | some p => rw [hd] at h; cases h; omega
    · split at h
      · cases h; omega
      · split at h <;> · cases h; omega

/-- a version dictionary as the parser produces it -/
def FLVersionOk (d : FLVersion) : Prop :=
  (d.platform = lit "windows" ∨ d.platform = lit "macos") ∧
  d.version.length = 4 ∧ (∀ b ∈ d.version, 0 ≤ b ∧ b < 256) ∧ IsInt32 d.owner

theorem versionBytes_ok (v : Int) : (versionBytes v).length = 4 ∧ ∀ b ∈ versionBytes v, 0 ≤ b ∧ b < 256 := by
  refine ⟨rfl, fun b hb => ?_⟩
  simp only [versionBytes, List.mem_cons, List.not_mem_nil, or_false] at hb
  rcases hb with rfl | rfl | rfl | rfl <;> omega

theorem enc_version {a b c d : Int} (ha : 0 ≤ a ∧ a < 256) (hb : 0 ≤ b ∧ b < 256) (hc : 0 ≤ c ∧ c < 256)
    (hd : 0 ≤ d ∧ d < 256) :
    ∃ v, versionBytes v = [a, b, c, d] ∧ Enc (writeU8 0xFF ++ W.all [a, b, c, d] writeU8) (readValue true) v := by
  let u : Int := ((a * 256 + b) * 256 + c) * 256 + d
  refine ⟨if 128 ≤ a then u - 4294967296 else u, ?_, ?_⟩
  · simp only [versionBytes]
    congr 1
    · split <;> omega
    congr 1
    · split <;> omega
    congr 1
    · split <;> omega
    congr 1
    · split <;> omega
  · have e : ∀ x : Int, 0 ≤ x ∧ x < 256 → writeU8 x = .ok [UInt8.ofNat x.toNat] := by
      intro x hx
      rw [writeU8, toBytesLE, if_pos (by simp only [inRange]; omega)]
      have e1 : ((256 ^ 1 : Nat) : Int) = 256 := rfl
      rw [e1]
      simp only [leDigits]
      congr 2
      have : (x % 256).toNat % 256 = x.toNat := by omega
      rw [this]
    refine ⟨[255, UInt8.ofNat a.toNat, UInt8.ofNat b.toNat, UInt8.ofNat c.toNat, UInt8.ofNat d.toNat], ?_, ?_⟩
    · simp only [W.all_cons, W.all_nil, e a ha, e b hb, e c hc, e d hd, e 255 (by omega), W.seq_nil, W.seq_ok]
      rfl
    · intro rest
      rw [List.cons_append, readValue_cons]
      have e255 : (255 : UInt8).toNat = 255 := rfl
      simp only [e255, List.cons_append, List.nil_append, List.take_succ_cons, List.take_zero,
        List.drop_succ_cons, List.drop_zero]
      simp only [fromBE, beNat, List.reverse_cons, List.reverse_nil, List.nil_append, List.cons_append, leNat,
        toSigned, List.length_cons, List.length_nil]
      rw [toNat_ofNat_lt (by omega), toNat_ofNat_lt (by omega), toNat_ofNat_lt (by omega), toNat_ofNat_lt (by omega)]
      have e4 : 256 ^ (0 + 1 + 1 + 1 + 1) = 4294967296 := rfl
      rw [e4]
      simp
      split <;> split <;> omega

theorem enc_flVersion (d : FLVersion) (h : FLVersionOk d) : Enc (compileFLVersion d) parseFLVersion d := by
  obtain ⟨platform, version, owner⟩ := d
  obtain ⟨hp, hl, hv, ho⟩ := h
  simp only at hp hl hv ho
  match version, hl with
  | [a, b, c, e], _ =>
  obtain ⟨v, hv1, hv2⟩ := enc_version (hv a (by simp)) (hv b (by simp)) (hv c (by simp)) (hv e (by simp))
  have hpid : ∃ i : Int, dictGet platformIds platform = some i ∧ dictGet platformNames i = some platform ∧ ValOk true i := by
    rcases hp with rfl | rfl
    · exact ⟨0, by decide⟩
    · exact ⟨1, by decide⟩
  obtain ⟨i, hi1, hi2, hi3⟩ := hpid
  have key := Enc.whileTrue (body := flVersionBody) flVersionBody_consuming
    (ι := Nat × Int × W) (w := fun p => writeU8 (p.1 : Int) ++ p.2.2)
    (step := fun st p => if p.1 = 1 then { st with platform := platform }
      else if p.1 = 2 then { st with version := [a, b, c, e] } else { st with owner := p.2.1 })
    (wEnd := writeU8 0) (fin := ⟨platform, [a, b, c, e], owner⟩)
    [(1, i, writeValue i), (2, v, writeU8 0xFF ++ W.all [a, b, c, e] writeU8), (3, owner, writeValue owner)]
    { platform := lit "macos", version := [5, 2, 2, 128], owner := 0 }
    (by
      intro pre x post he
      have hx : x ∈ [(1, i, writeValue i), (2, v, writeU8 0xFF ++ W.all [a, b, c, e] writeU8), (3, owner, writeValue owner)] := by
        rw [he]; simp
      generalize List.foldl _ _ pre = st
      simp only [List.mem_cons, List.not_mem_nil, or_false] at hx
      unfold flVersionBody
      rcases hx with rfl | rfl | rfl
      · refine Enc.bind (enc_u8 (by omega)) (Enc.last (enc_value hi3) ?_)
        simp only [hi2]; rfl
      · refine Enc.bind (enc_u8 (by omega)) (Enc.last hv2 ?_)
        simp only [hv1]; rfl
      · exact Enc.bind (enc_u8 (by omega)) (Enc.last (enc_value (valOk_iff.2 ho)) rfl))
    (by
      unfold flVersionBody
      exact Enc.last (enc_u8 (by omega)) rfl)
  refine key.cast ?_ rfl
  simp only [compileFLVersion, hi1, List.length_cons, List.length_nil, if_true]
  generalize W.all [a, b, c, e] writeU8 = wv
  simp only [W.all_cons, W.all_nil, W.seq_nil, W.seq_assoc]
  rfl

/-- **C29** Version dictionaries with a known platform, four version bytes and an encodable owner
round-trip. -/
theorem C29_flversion_roundtrip (d : FLVersion)
    (hp : d.platform = lit "windows" ∨ d.platform = lit "macos")
    (hl : d.version.length = 4) (hv : ∀ b ∈ d.version, 0 ≤ b ∧ b < 256) (ho : IsInt32 d.owner) :
    RoundTrips compileFLVersion parseFLVersion d := roundTrips_of_enc (enc_flVersion d ⟨hp, hl, hv, ho⟩)

theorem post_flVersion {N : Nat} : Post N parseFLVersion FLVersionOk := by
  refine Post.whileTrue (I := FLVersionOk) (fun st hst => ?_) _ (by
    exact ⟨Or.inr rfl, rfl, by decide, by decide⟩)
  unfold flVersionBody
  refine Post.bind post_u8 fun key _ => Post.ite (fun _ => Post.pure hst) fun _ => ?_
  refine Post.bind (post_value true) fun v hv => ?_
  refine Post.ite (fun _ => ?_) fun _ => ?_
  · split
    · next p hp =>
      refine Post.pure ⟨?_, hst.2⟩
      simp only [platformNames, dictGet] at hp
      split at hp
      · cases hp; exact Or.inl rfl
      · split at hp
        · cases hp; exact Or.inr rfl
        · cases hp
    · exact Post.throw
  · refine Post.ite (fun _ => Post.pure ⟨hst.1, (versionBytes_ok v).1, (versionBytes_ok v).2, hst.2.2.2⟩) fun _ => ?_
    refine Post.ite (fun _ => Post.pure ⟨hst.1, hst.2.1, hst.2.2.1, valOk_iff.1 hv⟩) fun _ => Post.pure hst

/-- **C29** Every version entry that can be parsed can be compiled and parsed again. -/
theorem C29_flversion_stable : Stable compileFLVersion parseFLVersion :=
  stable_of_post (fun _ => post_flVersion) fun _ d _ h => C29_flversion_roundtrip d h.1 h.2.1 h.2.2.1 h.2.2.2

/-- **C29** An unknown platform name, a wrong number of version parts, a version part outside 0…255 or
an owner that is no 32-bit integer is refused. -/
theorem C29_flversion_rejected (d : FLVersion)
    (h : ¬ ((d.platform = lit "windows" ∨ d.platform = lit "macos") ∧ d.version.length = 4 ∧
      (∀ b ∈ d.version, 0 ≤ b ∧ b < 256) ∧ IsInt32 d.owner)) : Rejected compileFLVersion d := by
  match hc : compileFLVersion d with
  | .error e => exact ⟨e, hc⟩
  | .ok z =>
    refine absurd ?_ h
    unfold compileFLVersion at hc
    simp only [W.seq_assoc] at hc
    obtain ⟨_, _, _, hc, _⟩ := W.seq_eq_ok.1 hc
    obtain ⟨_, _, h1, hc, _⟩ := W.seq_eq_ok.1 hc
    obtain ⟨_, _, _, hc, _⟩ := W.seq_eq_ok.1 hc
    obtain ⟨_, _, h2, hc, _⟩ := W.seq_eq_ok.1 hc
    obtain ⟨_, _, _, hc, _⟩ := W.seq_eq_ok.1 hc
    obtain ⟨_, _, h3, hc, _⟩ := W.seq_eq_ok.1 hc
    refine ⟨?_, ?_⟩
    · simp only [platformIds, dictGet] at h1
      by_cases e1 : lit "macos" = d.platform
      · exact Or.inr e1.symm
      · by_cases e2 : lit "windows" = d.platform
        · exact Or.inl e2.symm
        · rw [if_neg e1, if_neg e2] at h1; cases h1
    · split at h2
      · next hl =>
        refine ⟨hl, ?_, ?_⟩
        · intro b hb
          obtain ⟨_, _, _, h2, _⟩ := W.seq_eq_ok.1 h2
          obtain ⟨y, hy⟩ := W.all_ok h2 b hb
          apply Decidable.byContradiction
          intro hn
          rw [writeU8, toBytesLE_err (by simp only [inRange]; omega)] at hy
          cases hy
        · apply Decidable.byContradiction
          intro hn
          rw [writeValue_err (fun hv => hn (valOk_iff.1 hv))] at h3
          cases h3
      · cases h2

example : RoundTrips compileFLVersion parseFLVersion ⟨lit "windows", [5, 2, 1, 4868 % 256], 23⟩ :=
  C29_flversion_roundtrip _ (Or.inl rfl) (by decide) (by decide) (by decide)

end Verif.Props
