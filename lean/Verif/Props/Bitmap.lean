import Verif.Lemmas.Bitmap
/-! C23, C24: bitmaps. -/
set_option autoImplicit false
namespace Verif.Props
open Verif Verif.Spec

/-! ## C23 run-length coding -/

theorem unpacks_expand {c : List Int} (h : ChunkOk c) : Unpacks c (expand c) := by
  match c, h with
  | v :: bs, h =>
    obtain ⟨h1, h2, h3⟩ := h
    rw [expand]
    split
    · next h0 =>
      rw [if_pos h0] at h3
      have : v = (bs.length : Int) - 1 := by omega
      subst this
      exact .literal bs (by omega)
    · next h0 =>
      rw [if_neg h0] at h3
      match bs, h3 with
      | [b], _ =>
        rw [replicate_flatten_singleton]
        have : v = 1 - ((-v + 1).toNat : Int) := by omega
        rw [this]
        have e : (-(1 - ((-v + 1).toNat : Int)) + 1).toNat = (-v + 1).toNat := by omega
        rw [e]
        exact .repeated _ b (by omega)

/-- **C23** The encoder emits chunks that stand for exactly the bytes of the rows: literal chunks of
1…128 bytes and repeats of 2…128 (as the format defines them), in order. -/
theorem C23_encode_packs (rows : List (List Int)) : Packs (encodeBitmap rows) rows.flatten := by
  rw [← encodeBitmap_expand]
  have := encodeBitmap_ok rows
  generalize encodeBitmap rows = cs at *
  induction cs with
  | nil => exact .nil
  | cons c cs ih =>
    rw [List.flatMap_cons]
    exact .cons (unpacks_expand (this c List.mem_cons_self)) (ih fun c hc => this c (List.mem_cons_of_mem _ hc))

/-- **C23** The decoder returns the bytes that a chunk list stands for, for every well-formed chunk list. -/
theorem C23_decode_packs (chunks : List (List Int)) (bytes : List Int) (h : Packs chunks bytes) :
    decodeBitmap chunks = .ok bytes := by
  induction h with
  | nil => rfl
  | @cons c cs a b hc _ ih =>
    cases hc with
    | literal _ hl => rw [decodeBitmap, ih, if_pos (by omega)]
    | repeated n x hn =>
      rw [decodeBitmap, ih, if_neg (by omega), replicate_flatten_singleton]
      have : (-(1 - (n : Int)) + 1).toNat = n := by omega
      rw [this]

/-- **C23** Encoding followed by decoding is the identity on every list of rows. -/
theorem C23_rle_lossless (rows : List (List Int)) : decodeBitmap (encodeBitmap rows) = .ok rows.flatten :=
  C23_decode_packs _ _ (C23_encode_packs rows)

/-- **C23** The chunks written to the stream, preceded by their total length, are read back as the
same chunks, whatever follows them in the stream. -/
theorem C23_stream (rows : List (List Int)) (hb : ∀ row ∈ rows, ∀ x ∈ row, 0 ≤ x ∧ x < 256)
    (hl : rows.flatten.length < 1073741824) :
    ∃ bs, writeRle rows = .ok bs ∧ ∀ rest, (do
        let datalen ← readValue
        let chunks ← readBitmap datalen
        R.lift (decodeBitmap chunks)) (bs ++ rest) = .ok rows.flatten rest := by
  obtain ⟨bs, h1, h2⟩ := enc_rle hb hl true
  refine ⟨bs, h1, fun rest => ?_⟩
  have := h2 rest
  rw [← R.bind_assoc', R.bind_of_ok this, C23_rle_lossless]; rfl

theorem rep_u8_consume (n : Nat) (s rest : Bytes) (bs : List Int) (h : R.rep n readU8 s = .ok bs rest) :
    rest = s.drop n := by
  induction n generalizing s bs with
  | zero => cases h; rfl
  | succ n ih =>
    rw [R.rep, R.bind_run] at h
    have h1 : readU8 s = .ok (fromLE false (s.take 1)) (s.drop 1) := rfl
    rw [h1, ] at h
    simp only [R.bind_run] at h
    cases hr : R.rep n readU8 (s.drop 1) with
    | err e r => rw [hr] at h; cases h
    | ok a r =>
      rw [hr] at h
      cases h
      rw [ih _ _ hr, List.drop_drop, Nat.add_comm]

theorem readBitmapLoop_consume (fuel : Nat) (rem : Int) (s rest : Bytes) (cs : List (List Int))
    (h : readBitmapLoop fuel rem s = .ok cs rest) : ∃ k : Nat, k ≤ rem.toNat ∧ rest = s.drop k := by
  induction fuel generalizing rem s cs with
  | zero =>
    rw [readBitmapLoop] at h
    split at h
    · cases h; exact ⟨0, by omega, rfl⟩
    · cases h
  | succ fuel ih =>
    rw [readBitmapLoop] at h
    split at h
    · cases h; exact ⟨0, by omega, rfl⟩
    · next hpos =>
      have h1 : readI8 s = .ok (fromLE true (s.take 1)) (s.drop 1) := rfl
      rw [R.bind_run, h1] at h
      simp only at h
      generalize fromLE true (s.take 1) = v at h
      split at h
      · split at h
        · cases h; exact ⟨1, by omega, rfl⟩
        · rw [R.bind_run, R.forRange] at h
          cases hr : R.rep (v + 1).toNat readU8 (s.drop 1) with
          | err e r => rw [hr] at h; cases h
          | ok a r =>
            rw [hr] at h
            simp only [R.bind_run] at h
            have h2 := rep_u8_consume _ _ _ _ hr
            cases hl : readBitmapLoop fuel (rem - 1 - (v + 1)) r with
            | err e r => rw [hl] at h; cases h
            | ok a' r' =>
              rw [hl] at h
              cases h
              obtain ⟨k, hk, h3⟩ := ih _ _ _ hl
              refine ⟨1 + (v + 1).toNat + k, by omega, ?_⟩
              rw [h3, h2, List.drop_drop, List.drop_drop, Nat.add_assoc]
      · split at h
        · cases h; exact ⟨1, by omega, rfl⟩
        · have h2 : readU8 (s.drop 1) = .ok (fromLE false ((s.drop 1).take 1)) ((s.drop 1).drop 1) := rfl
          rw [R.bind_run, h2] at h
          simp only [R.bind_run] at h
          cases hl : readBitmapLoop fuel (rem - 1 - 1) ((s.drop 1).drop 1) with
          | err e r => rw [hl] at h; cases h
          | ok a' r' =>
            rw [hl] at h
            cases h
            obtain ⟨k, hk, h3⟩ := ih _ _ _ hl
            refine ⟨2 + k, by omega, ?_⟩
            rw [h3, List.drop_drop, List.drop_drop]
            congr 1
            omega

/-- **C23** However damaged the data is, reading run-length data of `datalen` bytes never consumes more than
`datalen` bytes of the stream. -/
theorem C23_reader_bounded (datalen : Int) (s rest : Bytes) (chunks : List (List Int))
    (h : readBitmap datalen s = .ok chunks rest) : ∃ k : Nat, k ≤ datalen.toNat ∧ rest = s.drop k :=
  readBitmapLoop_consume _ _ _ _ _ h

example : readBitmap 3 [1, 7, 8, 9] = .ok [[1, 7, 8]] [9] := by decide
example : readBitmap 3 [2, 7, 8, 9] = .ok [] [7, 8, 9] := by decide

/-- **C23** A byte outside 0…255 is refused. -/
theorem C23_bad_byte (rows : List (List Int)) (row : List Int) (x : Int) (hr : row ∈ rows) (hx : x ∈ row)
    (h : x < 0 ∨ 256 ≤ x) : Rejected writeRle rows := by
  match hc : writeRle rows with
  | .error e => exact ⟨e, hc⟩
  | .ok b =>
    exfalso
    have hx2 : x ∈ (encodeBitmap rows).flatMap expand := by
      rw [encodeBitmap_expand]; exact List.mem_flatten.2 ⟨row, hr, hx⟩
    obtain ⟨c, hcm, hxc⟩ := List.mem_flatMap.1 hx2
    have hxt := mem_expand_tail hxc
    unfold writeRle at hc
    obtain ⟨_, z, _, hz, _⟩ := W.seq_eq_ok.1 hc
    obtain ⟨y, hy⟩ := W.all_ok hz c hcm
    cases c with
    | nil => simp at hxt
    | cons v bs =>
      obtain ⟨_, z2, _, hz2, _⟩ := W.seq_eq_ok.1 hy
      obtain ⟨y2, hy2⟩ := W.all_ok hz2 x hxt
      rw [writeU8, toBytesLE_err (by simp only [inRange]; omega)] at hy2
      cases hy2

example : encodeBitmap [[0, 0], [0, 255], [1, 1]] = [[-2, 0], [2, 255, 1, 1]] := by decide
example : Packs [[-2, 0], [2, 255, 1, 1]] [0, 0, 0, 255, 1, 1] :=
  .cons (a := [0, 0, 0]) (.repeated 3 0 (by decide)) (.cons (a := [255, 1, 1]) (.literal [255, 1, 1] (by decide)) .nil)

/-! ## C24 bitmap entries -/

/-- **C24** Background images of files that are not from the Windows platform round-trip. -/
theorem C24_background_roundtrip (d : BackgroundImage) (h : BackgroundOk d) :
    RoundTrips (compileBackground false) (parseBackground false) d :=
  roundTrips_of_enc (enc_background h)

/-- **C24** Glyph bitmaps of files that are not from the Windows platform round-trip. -/
theorem C24_glyph_bitmaps_roundtrip (l : List GlyphBitmap) (hl : l.length < 2147483648)
    (h : ∀ d ∈ l, GlyphBitmapOk d) : RoundTrips (compileGlyphBitmaps false) (parseGlyphBitmaps false) l :=
  roundTrips_of_enc (enc_glyphBitmaps hl h)

theorem post_background {N : Nat} (windows : Bool) : Post N (parseBackground windows) fun d =>
    d.bitmap.data.flatten.length < 1073741824 → BackgroundOk d := by
  unfold parseBackground
  refine Post.bind (post_value true) fun ox h1 => ?_
  refine Post.bind (post_value true) fun oy h2 => ?_
  refine Post.bind (post_value false) fun uw h3 => ?_
  refine Post.bind (post_value false) fun uh h4 => ?_
  refine Post.bind (post_value false) fun w h5 => ?_
  refine Post.bind (post_value false) fun h h6 => ?_
  refine Post.bind (post_value false) fun datalen _ => ?_
  refine Post.bind (post_bitmapData windows w datalen) fun bm hbm => Post.pure fun hs => ?_
  exact ⟨⟨valOk_iff.1 h1, valOk_iff.1 h2⟩, ⟨valOk_false.1 h3, valOk_false.1 h4⟩,
    ⟨valOk_false.1 h5, valOk_false.1 h6⟩, ⟨hbm.2.2, hbm.1, hs, hbm.2.1⟩⟩

theorem post_glyphBitmaps {N : Nat} (windows : Bool) : Post N (parseGlyphBitmaps windows) fun l =>
    ∀ d ∈ l, d.bitmap.data.flatten.length < 1073741824 → GlyphBitmapOk d := by
  unfold parseGlyphBitmaps
  refine Post.bind (post_value false) fun num _ => ?_
  refine Post.mono (Post.forRange (P := fun d => d.bitmap.data.flatten.length < 1073741824 → GlyphBitmapOk d)
    ?_ num) fun l hl => hl.2
  unfold parseGlyphBitmap
  refine Post.bind (post_value false) fun ppm h0 => ?_
  refine Post.bind (post_value true) fun ox h1 => ?_
  refine Post.bind (post_value true) fun oy h2 => ?_
  refine Post.bind (post_value false) fun uw h3 => ?_
  refine Post.bind (post_value false) fun uh h4 => ?_
  refine Post.bind (post_value false) fun w h5 => ?_
  refine Post.bind (post_value false) fun h h6 => ?_
  refine Post.bind (post_value true) fun datalen _ => ?_
  refine Post.bind (post_bitmapData windows w datalen) fun bm hbm => Post.pure fun hs => ?_
  exact ⟨valOk_false.1 h0, ⟨valOk_iff.1 h1, valOk_iff.1 h2⟩, ⟨valOk_false.1 h3, valOk_false.1 h4⟩,
    ⟨valOk_false.1 h5, valOk_false.1 h6⟩, ⟨hbm.2.2, hbm.1, hs, hbm.2.1⟩⟩

/-- **C24** Whatever was parsed (on a non-Windows file) compiles and parses back to the same value,
if the pixel data is smaller than 1 GB. -/
theorem C24_bitmap_stable :
    StableWhen (compileBackground false) (parseBackground false)
      (fun d => d.bitmap.data.flatten.length < 1073741824) ∧
    StableWhen (compileGlyphBitmaps false) (parseGlyphBitmaps false)
      (fun l => l.length < 2147483648 ∧ ∀ d ∈ l, d.bitmap.data.flatten.length < 1073741824) :=
  ⟨stableWhen_of_post (fun _ => post_background false) fun _ d _ h hc => C24_background_roundtrip d (h hc),
   stableWhen_of_post (fun _ => post_glyphBitmaps false) fun _ l _ h hc =>
    C24_glyph_bitmaps_roundtrip l hc.1 fun d hd => h d hd (hc.2 d hd)⟩

/-- **C24** (finding) On a Windows file no bitmap with at least one byte can be compiled: the compiler
inverts with `~b - 0x100` (negative) where the parser uses `~b + 0x100`. -/
theorem C24_windows_rejected (d : BackgroundImage) (row : List Int) (x : Int)
    (hr : row ∈ d.bitmap.data) (hx : x ∈ row) (hb : 0 ≤ x) : Rejected (compileBackground true) d := by
  match hc : compileBackground true d with
  | .error e => exact ⟨e, hc⟩
  | .ok b =>
    exfalso
    unfold compileBackground at hc
    obtain ⟨_, z, _, hz, _⟩ := W.seq_eq_ok.1 hc
    unfold compileBitmapData at hz
    have := C23_bad_byte (d.bitmap.data.map fun row => row.map fun b => (-b - 1) - 0x100)
      (row.map fun b => (-b - 1) - 0x100) ((-x - 1) - 0x100)
      (List.mem_map.2 ⟨row, hr, rfl⟩) (List.mem_map.2 ⟨x, hx, rfl⟩) (by omega)
    obtain ⟨e, he⟩ := this
    simp only [if_true] at hz
    rw [he] at hz; cases hz

/-- **C24** (finding) the same for glyph bitmaps -/
theorem C24_windows_glyph_rejected (l : List GlyphBitmap) (d : GlyphBitmap) (row : List Int) (x : Int)
    (hd : d ∈ l) (hr : row ∈ d.bitmap.data) (hx : x ∈ row) (hb : 0 ≤ x) : Rejected (compileGlyphBitmaps true) l := by
  match hc : compileGlyphBitmaps true l with
  | .error e => exact ⟨e, hc⟩
  | .ok b =>
    exfalso
    unfold compileGlyphBitmaps at hc
    obtain ⟨_, z, _, hz, _⟩ := W.seq_eq_ok.1 hc
    obtain ⟨y, hy⟩ := W.all_ok hz d hd
    unfold compileGlyphBitmap at hy
    obtain ⟨_, z, _, hz, _⟩ := W.seq_eq_ok.1 hy
    unfold compileBitmapData at hz
    have := C23_bad_byte (d.bitmap.data.map fun row => row.map fun b => (-b - 1) - 0x100)
      (row.map fun b => (-b - 1) - 0x100) ((-x - 1) - 0x100)
      (List.mem_map.2 ⟨row, hr, rfl⟩) (List.mem_map.2 ⟨x, hx, rfl⟩) (by omega)
    obtain ⟨e, he⟩ := this
    simp only [if_true] at hz
    rw [he] at hz; cases hz

/-- **C24** On a Windows file the parser returns the complemented bytes of what it returns for the
same payload otherwise. -/
theorem C24_windows_inverts (payload : Bytes) (a b : BackgroundImage)
    (hw : parseEntry (parseBackground true) payload = .ok a)
    (hm : parseEntry (parseBackground false) payload = .ok b) :
    a.bitmap.data.flatten = b.bitmap.data.flatten.map (255 - ·) ∧ a.origin = b.origin ∧
      a.size_units = b.size_units ∧ a.size_pixels = b.size_pixels := by
  rw [parseEntry_ok] at hw hm
  unfold parseBackground at hw hm
  obtain ⟨ox, s1, e1, hw⟩ := R.bind_eq_ok.1 hw
  obtain ⟨oy, s2, e2, hw⟩ := R.bind_eq_ok.1 hw
  obtain ⟨uw, s3, e3, hw⟩ := R.bind_eq_ok.1 hw
  obtain ⟨uh, s4, e4, hw⟩ := R.bind_eq_ok.1 hw
  obtain ⟨w, s5, e5, hw⟩ := R.bind_eq_ok.1 hw
  obtain ⟨h, s6, e6, hw⟩ := R.bind_eq_ok.1 hw
  obtain ⟨dl, s7, e7, hw⟩ := R.bind_eq_ok.1 hw
  rw [R.bind_of_ok e1, R.bind_of_ok e2, R.bind_of_ok e3, R.bind_of_ok e4, R.bind_of_ok e5,
    R.bind_of_ok e6, R.bind_of_ok e7] at hm
  obtain ⟨bw, s8, e8, hw⟩ := R.bind_eq_ok.1 hw
  obtain ⟨bm, s9, e9, hm⟩ := R.bind_eq_ok.1 hm
  cases hw; cases hm
  refine ⟨?_, rfl, rfl, rfl⟩
  unfold parseBitmapData at e8 e9
  obtain ⟨rle, s10, e10, e8⟩ := R.bind_eq_ok.1 e8
  rw [R.bind_of_ok e10] at e9
  obtain ⟨data, s11, e11, e8⟩ := R.bind_eq_ok.1 e8
  rw [R.bind_of_ok e11] at e9
  simp only [if_true, Bool.false_eq_true, if_false] at e8 e9
  obtain ⟨n1, s12, e12, e8⟩ := R.bind_eq_ok.1 e8
  obtain ⟨n2, s13, e13, e9⟩ := R.bind_eq_ok.1 e9
  cases e8; cases e9
  simp only [splitRows] at e12 e13
  split at e12
  · cases e12
  · next h0 =>
    rw [if_neg h0] at e13
    split at e12
    · next h1 => rw [if_pos h1] at e13; cases e12; cases e13; rfl
    · next h1 =>
      rw [if_neg h1] at e13; cases e12; cases e13
      simp only
      rw [chunksOf_flatten (by omega), chunksOf_flatten (by omega)]
      apply List.map_congr_left
      intro b _; omega

/-- **C24** On a Windows file a bitmap without any byte still round-trips. -/
theorem C24_windows_empty (d : BackgroundImage) (h : BackgroundOk d) (he : d.bitmap.data = []) :
    RoundTrips (compileBackground true) (parseBackground true) d := by
  refine roundTrips_of_enc ?_
  have key := enc_background h
  have hc : compileBackground true d = compileBackground false d := by
    unfold compileBackground compileBitmapData; rw [he]; rfl
  rw [hc]
  obtain ⟨bs, h1, h2⟩ := key
  refine ⟨bs, h1, fun rest => ?_⟩
  have := h2 rest
  unfold parseBackground at this ⊢
  obtain ⟨ox, s1, e1, hw⟩ := R.bind_eq_ok.1 this
  obtain ⟨oy, s2, e2, hw⟩ := R.bind_eq_ok.1 hw
  obtain ⟨uw, s3, e3, hw⟩ := R.bind_eq_ok.1 hw
  obtain ⟨uh, s4, e4, hw⟩ := R.bind_eq_ok.1 hw
  obtain ⟨w, s5, e5, hw⟩ := R.bind_eq_ok.1 hw
  obtain ⟨hh, s6, e6, hw⟩ := R.bind_eq_ok.1 hw
  obtain ⟨dl, s7, e7, hw⟩ := R.bind_eq_ok.1 hw
  obtain ⟨bw, s8, e8, hw⟩ := R.bind_eq_ok.1 hw
  rw [R.bind_of_ok e1, R.bind_of_ok e2, R.bind_of_ok e3, R.bind_of_ok e4, R.bind_of_ok e5,
    R.bind_of_ok e6, R.bind_of_ok e7]
  cases hw
  have : parseBitmapData true w dl s7 = .ok bw rest := by
    unfold parseBitmapData at e8 ⊢
    obtain ⟨rle, s10, e10, e8⟩ := R.bind_eq_ok.1 e8
    obtain ⟨data, s11, e11, e8⟩ := R.bind_eq_ok.1 e8
    rw [R.bind_of_ok e10, R.bind_of_ok e11]
    simp only [if_true, Bool.false_eq_true, if_false] at e8 ⊢
    obtain ⟨n2, s13, e13, e8⟩ := R.bind_eq_ok.1 e8
    cases e8
    simp only at he
    subst he
    have hs : splitRows w (data.map fun b => (-b - 1) + 0x100) = .ok [] ∧ s11 = rest := by
      simp only [splitRows] at e13 ⊢
      split at e13
      · cases e13
      · next h0 =>
        rw [if_neg h0]
        split at e13
        · next h1 => rw [if_pos h1]; cases e13; exact ⟨rfl, rfl⟩
        · next h1 =>
          rw [if_neg h1]
          simp only [R.lift] at e13
          injection e13 with e13 er
          have := chunksOf_flatten (m := (bytesPerRow w).toNat) (by omega) data
          rw [e13] at this
          simp only [List.flatten_nil] at this
          subst this
          rw [List.map_nil, chunksOf_nil (by omega)]
          exact ⟨rfl, er⟩
    rw [R.bind_run, hs.1, hs.2]; rfl
  rw [R.bind_of_ok this]; rfl

def sampleBackground : BackgroundImage :=
  ⟨(0, -100), (500, 700), (10, 2), ⟨[[0xFF, 0], [0x81, 0]], [[0xFF, 0], [0x81, 0]].map (previewRow 10)⟩⟩

example : BackgroundOk sampleBackground where
  origin := by decide
  size_units := by decide
  size_pixels := by decide
  bitmap := ⟨Or.inl ⟨by decide, by simp [RowsOf, sampleBackground]⟩, by decide, by decide, rfl⟩

end Verif.Props
