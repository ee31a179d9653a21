import Verif.Model.Bitmap
import Verif.Lemmas.Base
import Verif.Spec.Bitmap
/-! Helper lemmas for the bitmap entries. -/
set_option autoImplicit false
namespace Verif
open Verif.Spec

theorem flatten_chunks_aux {α : Type} (m : Nat) (l : List α) (k : Nat) :
    ((List.range k).map fun j => (l.drop (j * m)).take m).flatten = l.take (k * m) := by
  induction k with
  | zero => simp
  | succ k ih =>
    rw [List.range_succ, List.map_append, List.flatten_append, ih]
    simp only [List.map_cons, List.map_nil, List.flatten_cons, List.flatten_nil, List.append_nil]
    rw [Nat.succ_mul, List.take_add]

theorem chunksOf_flatten {α : Type} {m : Nat} (hm : 0 < m) (l : List α) : (chunksOf m l).flatten = l := by
  rw [chunksOf, flatten_chunks_aux]
  apply List.take_of_length_le
  have h := Nat.div_add_mod (l.length + m - 1) m
  have h2 := Nat.mod_lt (l.length + m - 1) hm
  rw [Nat.mul_comm]
  generalize m * ((l.length + m - 1) / m) = q at *
  omega

theorem chunksOf_mem {α : Type} {m : Nat} (hm : 0 < m) {l c : List α} (h : c ∈ chunksOf m l) :
    0 < c.length ∧ c.length ≤ m ∧ ∀ x ∈ c, x ∈ l := by
  simp only [chunksOf, List.mem_map, List.mem_range] at h
  obtain ⟨j, hj, rfl⟩ := h
  refine ⟨?_, ?_, ?_⟩
  · rw [List.length_take, List.length_drop]
    have h1 : (j + 1) * m ≤ l.length + m - 1 := by
      calc (j + 1) * m ≤ ((l.length + m - 1) / m) * m := Nat.mul_le_mul_right m hj
        _ ≤ _ := Nat.div_mul_le_self _ _
    rw [Nat.succ_mul] at h1
    omega
  · rw [List.length_take]; omega
  · intro x hx; exact List.mem_of_mem_drop (List.mem_of_mem_take hx)

theorem chunksOf_nil {α : Type} {m : Nat} (hm : 0 < m) : chunksOf m ([] : List α) = [] := by
  have := fun c => chunksOf_mem (α := α) hm (l := []) (c := c)
  match h : chunksOf m ([] : List α) with
  | [] => rfl
  | c :: cs =>
    have h1 := this c (by rw [h]; exact List.mem_cons_self)
    cases c with
    | nil => simp at h1
    | cons x xs => exact absurd (h1.2.2 x List.mem_cons_self) (by simp)

/-! ### run-length coding -/

/-- shape of a chunk that the chunk reader accepts -/
def ChunkOk : List Int → Prop
  | [] => False
  | v :: bs => -127 ≤ v ∧ v ≤ 127 ∧ (bs.length : Int) = (if 0 ≤ v then v + 1 else 1)

def expand : List Int → List Int
  | [] => []
  | v :: bs => if 0 ≤ v then bs else (List.replicate (-v + 1).toNat bs).flatten

theorem decodeBitmap_ok {cs : List (List Int)} (h : ∀ c ∈ cs, c ≠ []) :
    decodeBitmap cs = .ok (cs.flatMap expand) := by
  induction cs with
  | nil => rfl
  | cons c cs ih =>
    cases c with
    | nil => exact absurd rfl (h [] List.mem_cons_self)
    | cons v bs =>
      rw [decodeBitmap, ih fun c hc => h c (List.mem_cons_of_mem _ hc)]
      rfl

theorem groupRuns_expand (l : List Int) : (groupRuns l).flatMap (fun p => List.replicate p.2 p.1) = l := by
  induction l with
  | nil => rfl
  | cons x xs ih =>
    rw [groupRuns]
    match h : groupRuns xs with
    | [] => rw [h] at ih; simp at ih; simp [← ih]
    | (y, n) :: gs =>
      rw [h] at ih
      simp only
      split
      · next e => subst e; rw [← ih]; simp [List.replicate_succ]
      · rw [← ih]; simp

theorem flushBuffer_expand (buf : List Int) : (flushBuffer buf).flatMap expand = buf := by
  rw [flushBuffer, List.flatMap_map]
  have : ∀ c ∈ chunksOf 128 buf, expand (((c.length : Int) - 1) :: c) = c := by
    intro c hc
    have := (chunksOf_mem (by omega) hc).1
    rw [expand, if_pos (by omega)]
  have h2 : (chunksOf 128 buf).flatMap (fun a => expand (((a.length : Int) - 1) :: a)) = (chunksOf 128 buf).flatten := by
    rw [List.flatMap_def, List.map_congr_left this]; simp
  rw [h2]
  exact chunksOf_flatten (by omega) buf

theorem flushBuffer_ok (buf : List Int) : ∀ c ∈ flushBuffer buf, ChunkOk c := by
  intro c hc
  simp only [flushBuffer, List.mem_map] at hc
  obtain ⟨d, hd, rfl⟩ := hc
  obtain ⟨h1, h2, _⟩ := chunksOf_mem (by omega) hd
  refine ⟨by omega, by omega, ?_⟩
  rw [if_pos (by omega)]; omega

theorem replicate_flatten_singleton (n : Nat) (v : Int) : (List.replicate n [v]).flatten = List.replicate n v := by
  induction n with
  | zero => rfl
  | succ n ih => simp [List.replicate_succ, ih]

theorem flatMap_replicate (n : Nat) (c : List Int) :
    (List.replicate n c).flatMap expand = (List.replicate n (expand c)).flatten := by
  induction n with
  | zero => rfl
  | succ n ih => simp [List.replicate_succ, ih]

theorem flatten_replicate_replicate (n m : Nat) (v : Int) :
    (List.replicate n (List.replicate m v)).flatten = List.replicate (n * m) v := by
  simp

theorem encodeRuns_expand (gs : List (Int × Nat)) (encoded : List (List Int)) (buf : List Int) :
    (encodeRuns gs encoded buf).flatMap expand =
      encoded.flatMap expand ++ buf ++ gs.flatMap (fun p => List.replicate p.2 p.1) := by
  induction gs generalizing encoded buf with
  | nil => simp [encodeRuns, flushBuffer_expand]
  | cons g gs ih =>
    obtain ⟨value, count⟩ := g
    rw [encodeRuns]
    split
    · next hc =>
      simp only
      rw [ih]
      have e127 : expand [-127, value] = List.replicate 128 value := by
        rw [expand, if_neg (by omega), replicate_flatten_singleton]; rfl
      have hcnt : List.replicate count value =
          List.replicate (count / 128 * 128) value ++ List.replicate (count % 128) value := by
        rw [List.replicate_append_replicate]; congr 1; omega
      simp only [List.flatMap_cons]
      rw [hcnt]
      split
      · next hm =>
        have e1 : expand [-((count % 128 : Nat) : Int) + 1, value] = List.replicate (count % 128) value := by
          rw [expand]
          split
          · next h0 =>
            have : count % 128 = 1 := by omega
            rw [this]; rfl
          · rw [replicate_flatten_singleton]; congr 1; omega
        simp only [List.flatMap_append, flushBuffer_expand, flatMap_replicate, e127,
          flatten_replicate_replicate, List.flatMap_cons, List.flatMap_nil, List.append_nil, e1,
          List.append_assoc]
      · next hm =>
        have : count % 128 = 0 := by omega
        simp only [List.flatMap_append, flushBuffer_expand, flatMap_replicate, e127,
          flatten_replicate_replicate, List.append_nil, this, List.replicate_zero, List.append_assoc]
    · rw [ih]; simp [List.append_assoc]

theorem encodeRuns_ok (gs : List (Int × Nat)) (encoded : List (List Int)) (buf : List Int)
    (he : ∀ c ∈ encoded, ChunkOk c) : ∀ c ∈ encodeRuns gs encoded buf, ChunkOk c := by
  induction gs generalizing encoded buf with
  | nil =>
    intro c hc
    rw [encodeRuns, List.mem_append] at hc
    exact hc.elim (he c) (flushBuffer_ok buf c)
  | cons g gs ih =>
    obtain ⟨value, count⟩ := g
    rw [encodeRuns]
    split
    · next hcount =>
      apply ih
      have h1 : ∀ c ∈ encoded ++ flushBuffer buf ++ List.replicate (count / 128) [-127, value], ChunkOk c := by
        intro c hc
        rw [List.mem_append, List.mem_append] at hc
        rcases hc with (hc | hc) | hc
        · exact he c hc
        · exact flushBuffer_ok buf c hc
        · rw [List.eq_of_mem_replicate hc]; exact ⟨by omega, by omega, rfl⟩
      split
      · next hm =>
        intro c hc
        rw [List.mem_append] at hc
        rcases hc with hc | hc
        · exact h1 c hc
        · rw [List.mem_singleton] at hc
          subst hc
          refine ⟨by omega, by omega, ?_⟩
          simp only [List.length_cons, List.length_nil]
          split <;> omega
      · exact h1
    · exact ih _ _ he

theorem encodeBitmap_ok (data : List (List Int)) : ∀ c ∈ encodeBitmap data, ChunkOk c :=
  encodeRuns_ok _ _ _ (by simp)

theorem encodeBitmap_expand (data : List (List Int)) : (encodeBitmap data).flatMap expand = data.flatten := by
  rw [encodeBitmap, encodeRuns_expand, groupRuns_expand]; simp

theorem ChunkOk.ne_nil {c : List Int} (h : ChunkOk c) : c ≠ [] := by
  rintro rfl; exact h

theorem decode_encodeBitmap (data : List (List Int)) : decodeBitmap (encodeBitmap data) = .ok data.flatten := by
  rw [decodeBitmap_ok fun c hc => (encodeBitmap_ok data c hc).ne_nil, encodeBitmap_expand]

theorem ChunkOk.mem_expand {v : Int} {bs : List Int} (_ : ChunkOk (v :: bs)) {x : Int} (hx : x ∈ bs) :
    x ∈ expand (v :: bs) := by
  rw [expand]
  split
  · exact hx
  · rw [List.mem_flatten]
    exact ⟨bs, by simp; omega, hx⟩

/-- writing the chunks -/
def writeChunk (c : List Int) : W :=
  match c with
  | [] => .error .index
  | spec :: bs => writeI8 spec ++ W.all bs writeU8

theorem enc_chunks (cs : List (List Int)) (h : ∀ c ∈ cs, ChunkOk c)
    (hb : ∀ c ∈ cs, ∀ x ∈ c.tail, 0 ≤ x ∧ x < 256) (fuel : Nat) (hf : cs.flatten.length ≤ fuel) :
    Enc (W.all cs writeChunk) (readBitmapLoop fuel cs.flatten.length) cs := by
  induction cs generalizing fuel with
  | nil =>
    cases fuel <;> · rw [readBitmapLoop]; exact Enc.pure []
  | cons c cs ih =>
    cases c with
    | nil => exact absurd (h [] List.mem_cons_self) (by simp [ChunkOk])
    | cons v bs =>
      obtain ⟨h1, h2, h3⟩ := h _ List.mem_cons_self
      have hbs := hb _ List.mem_cons_self
      simp only [List.tail_cons] at hbs
      simp only [List.flatten_cons, List.length_append, List.length_cons] at hf ⊢
      cases fuel with
      | zero => omega
      | succ fuel =>
        have ih' := ih (fun c hc => h c (List.mem_cons_of_mem _ hc))
          (fun c hc => hb c (List.mem_cons_of_mem _ hc)) fuel (by omega)
        rw [readBitmapLoop, if_neg (by omega), W.all_cons, writeChunk, W.seq_assoc]
        refine Enc.bind (enc_i8 (by omega)) ?_
        split
        · next h0 =>
          rw [if_pos h0] at h3
          rw [if_neg (by omega)]
          refine Enc.bind (Enc.forRange (n := v + 1) (by omega) fun x hx => enc_u8 (hbs x hx)) ?_
          refine Enc.last (a := cs) ?_ rfl
          have : ((bs.length + 1 + cs.flatten.length : Nat) : Int) - 1 - (v + 1) = cs.flatten.length := by omega
          rw [this]; exact ih'
        · next h0 =>
          rw [if_neg h0] at h3
          rw [if_neg (by omega)]
          match bs, h3, hbs with
          | [x], _, hbs =>
            simp only [W.all_cons, W.all_nil, W.seq_nil]
            refine Enc.bind (enc_u8 (hbs x (by simp))) ?_
            refine Enc.last (a := cs) ?_ rfl
            have : ((([x] : List Int).length + 1 + cs.flatten.length : Nat) : Int) - 1 - 1 = cs.flatten.length := by
              simp only [List.length_cons, List.length_nil]; omega
            rw [this]; exact ih'

theorem flushBuffer_length (buf : List Int) : (flushBuffer buf).flatten.length ≤ 2 * buf.length := by
  have h1 : (flushBuffer buf).flatten.length ≤ 2 * (chunksOf 128 buf).flatten.length := by
    rw [flushBuffer]
    have := fun c (hc : c ∈ chunksOf 128 buf) => (chunksOf_mem (by omega) hc).1
    generalize chunksOf 128 buf = cs at *
    induction cs with
    | nil => simp
    | cons c cs ih =>
      simp only [List.map_cons, List.flatten_cons, List.length_append, List.length_cons]
      have h2 := ih fun c hc => this c (List.mem_cons_of_mem _ hc)
      have h3 := this c List.mem_cons_self
      omega
  rwa [chunksOf_flatten (by omega)] at h1

theorem replicate_flatten_length (n : Nat) (c : List Int) :
    (List.replicate n c).flatten.length = n * c.length := by
  induction n with
  | zero => simp
  | succ n ih => rw [List.replicate_succ, List.flatten_cons, List.length_append, ih, Nat.succ_mul]; omega

theorem encodeRuns_length (gs : List (Int × Nat)) (encoded : List (List Int)) (buf : List Int) :
    (encodeRuns gs encoded buf).flatten.length ≤
      encoded.flatten.length + 2 * buf.length + 2 * (gs.flatMap (fun p => List.replicate p.2 p.1)).length := by
  induction gs generalizing encoded buf with
  | nil =>
    have := flushBuffer_length buf
    simp only [encodeRuns, List.flatten_append, List.length_append]; omega
  | cons g gs ih =>
    obtain ⟨value, count⟩ := g
    rw [encodeRuns]
    have h0 := flushBuffer_length buf
    split
    · next hc =>
      simp only
      refine Nat.le_trans (ih _ _) ?_
      simp only [List.flatMap_cons, List.length_append, List.length_replicate, List.length_nil]
      split
      · simp only [List.flatten_append, List.length_append, List.flatten_cons, List.flatten_nil,
          List.length_nil, List.length_cons, replicate_flatten_length]
        have := Nat.div_add_mod count 128
        omega
      · simp only [List.flatten_append, List.length_append,
          List.length_nil, List.length_cons, replicate_flatten_length]
        have := Nat.div_add_mod count 128
        omega
    · refine Nat.le_trans (ih _ _) ?_
      simp only [List.flatMap_cons, List.length_append, List.length_replicate]
      omega

theorem encodeBitmap_length (data : List (List Int)) :
    (encodeBitmap data).flatten.length ≤ 2 * data.flatten.length := by
  have := encodeRuns_length (groupRuns data.flatten) [] []
  rw [groupRuns_expand] at this
  simpa [encodeBitmap] using this

theorem encodeBitmap_bytes {data : List (List Int)} {P : Int → Prop} (hb : ∀ row ∈ data, ∀ x ∈ row, P x) :
    ∀ c ∈ encodeBitmap data, ∀ x ∈ c.tail, P x := by
  intro c hc x hx
  cases c with
  | nil => simp at hx
  | cons v bs =>
    have h1 := (encodeBitmap_ok data _ hc).mem_expand hx
    have h2 : x ∈ (encodeBitmap data).flatMap expand := List.mem_flatMap.2 ⟨_, hc, h1⟩
    rw [encodeBitmap_expand, List.mem_flatten] at h2
    obtain ⟨row, hrow, hx⟩ := h2
    exact hb row hrow x hx

theorem enc_rle {data : List (List Int)} (hb : ∀ row ∈ data, ∀ x ∈ row, 0 ≤ x ∧ x < 256)
    (hl : data.flatten.length < 1073741824) (sg : Bool) :
    Enc (writeRle data) (readValue sg >>= readBitmap) (encodeBitmap data) := by
  have hlen := encodeBitmap_length data
  unfold writeRle
  refine Enc.bind (enc_value_nonneg (by omega) _ _) ?_
  rw [readBitmap]
  exact enc_chunks _ (encodeBitmap_ok data) (encodeBitmap_bytes hb) _ (by omega)

end Verif

namespace Verif
open Verif.Spec

theorem chunksOf_cons {α : Type} {m : Nat} (hm : 0 < m) {l : List α} (hl : l ≠ []) :
    chunksOf m l = l.take m :: chunksOf m (l.drop m) := by
  have hlen : 0 < l.length := List.length_pos_iff.2 hl
  have h1 : (l.length + m - 1) / m = ((l.drop m).length + m - 1) / m + 1 := by
    rw [List.length_drop]
    by_cases h : m ≤ l.length
    · have e : l.length + m - 1 = (l.length - m + m - 1) + m := by omega
      rw [e, Nat.add_div_right _ hm]
    · have e : l.length - m = 0 := by omega
      rw [e, Nat.div_eq_of_lt (by omega : 0 + m - 1 < m)]
      have e2 : l.length + m - 1 = (l.length - 1) + m := by omega
      rw [e2, Nat.add_div_right _ hm, Nat.div_eq_of_lt (by omega)]
  rw [chunksOf, h1, List.range_succ_eq_map, List.map_cons, List.map_map, chunksOf]
  congr 1
  · simp
  · apply List.map_congr_left
    intro j _
    simp only [Function.comp, Nat.succ_mul, List.drop_drop]
    rw [Nat.add_comm]

theorem chunksOf_rows {m : Nat} (hm : 0 < m) {rows : List (List Int)} (h : RowsOf m rows) :
    chunksOf m rows.flatten = rows := by
  induction rows with
  | nil => exact chunksOf_nil hm
  | cons r rs ih =>
    cases rs with
    | nil =>
      simp only [RowsOf] at h
      have hr : r ≠ [] := List.length_pos_iff.1 h.1
      simp only [List.flatten_cons, List.flatten_nil, List.append_nil]
      rw [chunksOf_cons hm hr, List.take_of_length_le h.2, List.drop_of_length_le h.2, chunksOf_nil hm]
    | cons s rs =>
      simp only [RowsOf] at h
      have hr : r ≠ [] := List.length_pos_iff.1 (by omega)
      rw [List.flatten_cons, chunksOf_cons hm (by simp [hr]), ← h.1, List.take_left, List.drop_left]
      rw [h.1, ih h.2]

theorem rowsOf_chunks {m : Nat} (hm : 0 < m) (l : List Int) : RowsOf m (chunksOf m l) := by
  induction hn : l.length using Nat.strongRecOn generalizing l with
  | ind n ih =>
    by_cases hl : l = []
    · subst hl; rw [chunksOf_nil hm]; trivial
    · have hlen : 0 < l.length := List.length_pos_iff.2 hl
      rw [chunksOf_cons hm hl]
      have h2 := ih (l.drop m).length (by rw [List.length_drop]; omega) _ rfl
      match hc : chunksOf m (l.drop m) with
      | [] => refine ⟨?_, ?_⟩ <;> rw [List.length_take] <;> omega
      | s :: rs =>
        rw [hc] at h2
        refine ⟨?_, h2⟩
        have : l.drop m ≠ [] := by
          intro e; rw [e, chunksOf_nil hm] at hc; cases hc
        have := List.length_pos_iff.2 this
        rw [List.length_drop] at this
        rw [List.length_take]; omega

theorem bytesPerRow_pos {w : Int} (h : 0 < w) :
    0 < bytesPerRow w ∧ (bytesPerRow w).toNat = 2 * ((w.toNat + 15) / 16) := by
  unfold bytesPerRow; omega

theorem take_pixels (draw : Bool → PyStr) (hd : ∀ b, (draw b).length = 2) (l : List Bool) (n : Nat) :
    (l.flatMap draw).take (2 * n) = (l.take n).flatMap draw := by
  induction l generalizing n with
  | nil => simp
  | cons b l ih =>
    cases n with
    | zero => simp
    | succ n =>
      rw [List.flatMap_cons, List.take_succ_cons, List.flatMap_cons, List.take_append, List.take_of_length_le (by rw [hd]; omega), hd,
        show 2 * (n + 1) - 2 = 2 * n by omega, ih]

theorem row_pixels (row : List Int) :
    row.flatMap (fun r => [7, 6, 5, 4, 3, 2, 1, 0].map fun k : Nat => r.toNat.testBit k) =
      (List.range (8 * row.length)).map fun x => (row.getD (x / 8) 0).toNat.testBit (7 - x % 8) := by
  induction row with
  | nil => rfl
  | cons r row ih =>
    rw [List.flatMap_cons, ih, List.length_cons, show 8 * (row.length + 1) = 8 + 8 * row.length by omega, List.range_add, List.map_append,
      List.map_map]
    congr 1
    apply List.map_congr_left
    intro x _
    simp only [Function.comp]
    rw [show (8 + x) / 8 = x / 8 + 1 by omega, show (8 + x) % 8 = x % 8 by omega, List.getD_cons_succ]

theorem getPreview_eq (data : List (List Int)) (w : Int) : getPreview data w = data.map (previewRow w) := by
  unfold getPreview
  apply List.map_congr_left
  intro row _
  have h := take_pixels (fun b => if b = true then [0x2588, 0x2589] else [0x20, 0x2595]) (by intro b; cases b <;> rfl)
    (row.flatMap fun r => [7, 6, 5, 4, 3, 2, 1, 0].map fun k : Nat => r.toNat.testBit k) w.toNat
  rw [List.flatMap_assoc] at h
  have e : (fun r : Int => ([7, 6, 5, 4, 3, 2, 1, 0].map fun k : Nat => r.toNat.testBit k).flatMap
      fun b => if b = true then [0x2588, 0x2589] else [0x20, 0x2595]) = previewByte := by
    funext r
    rw [List.flatMap_map]
    rfl
  rw [e] at h
  rw [h, row_pixels, ← List.map_take, List.take_range, List.flatMap_map]
  rfl

theorem enc_bitmapData {w : Int} {bm : BitmapData} (h : BitmapOk w bm) (sg : Bool) :
    Enc (compileBitmapData false bm) (readValue sg >>= parseBitmapData false w) bm := by
  unfold compileBitmapData
  have key := enc_rle h.bytes h.size sg
  have : (readValue sg >>= parseBitmapData false w) =
      ((readValue sg >>= readBitmap) >>= fun rle => do
        let data ← R.lift (decodeBitmap rle)
        let nice ← R.lift (splitRows w data)
        pure { data := nice, preview := getPreview nice w }) := by
    rw [R.bind_assoc']
    rfl
  rw [this]
  refine Enc.last key ?_
  rw [decode_encodeBitmap]
  have hs : splitRows w bm.data.flatten = .ok bm.data := by
    rcases h.rows with ⟨hw, hr⟩ | ⟨hw, hr⟩
    · have hp := bytesPerRow_pos hw
      rw [splitRows, if_neg (by omega), if_neg (by omega), chunksOf_rows (by omega)]
      rw [hp.2]; exact hr
    · have : bytesPerRow w < 0 := by unfold bytesPerRow; omega
      rw [splitRows, if_neg (by omega), if_pos this, hr]
  funext s
  simp only [R.bind_run, R.lift_ok, hs]
  rw [getPreview_eq, ← h.preview]

theorem enc_background {d : BackgroundImage} (h : BackgroundOk d) :
    Enc (compileBackground false d) (parseBackground false) d := by
  unfold compileBackground parseBackground
  simp only [W.seq_assoc]
  refine Enc.bind (enc_value (valOk_iff.2 h.origin.1)) ?_
  refine Enc.bind (enc_value (valOk_iff.2 h.origin.2)) ?_
  refine Enc.bind (enc_value (valOk_false.2 h.size_units.1)) ?_
  refine Enc.bind (enc_value (valOk_false.2 h.size_units.2)) ?_
  refine Enc.bind (enc_value (valOk_false.2 h.size_pixels.1)) ?_
  refine Enc.bind (enc_value (valOk_false.2 h.size_pixels.2)) ?_
  rw [← R.bind_assoc']
  exact Enc.last (enc_bitmapData h.bitmap false) rfl

theorem enc_glyphBitmap {d : GlyphBitmap} (h : GlyphBitmapOk d) :
    Enc (compileGlyphBitmap false d) (parseGlyphBitmap false) d := by
  unfold compileGlyphBitmap parseGlyphBitmap
  simp only [W.seq_assoc]
  refine Enc.bind (enc_value (valOk_false.2 h.ppm)) ?_
  refine Enc.bind (enc_value (valOk_iff.2 h.origin.1)) ?_
  refine Enc.bind (enc_value (valOk_iff.2 h.origin.2)) ?_
  refine Enc.bind (enc_value (valOk_false.2 h.adv.1)) ?_
  refine Enc.bind (enc_value (valOk_false.2 h.adv.2)) ?_
  refine Enc.bind (enc_value (valOk_false.2 h.size_pixels.1)) ?_
  refine Enc.bind (enc_value (valOk_false.2 h.size_pixels.2)) ?_
  rw [← R.bind_assoc']
  exact Enc.last (enc_bitmapData h.bitmap true) rfl

theorem enc_glyphBitmaps {l : List GlyphBitmap} (hl : l.length < 2147483648) (h : ∀ d ∈ l, GlyphBitmapOk d) :
    Enc (compileGlyphBitmaps false l) (parseGlyphBitmaps false) l := by
  unfold compileGlyphBitmaps parseGlyphBitmaps
  refine Enc.bind (enc_value_nonneg (by omega) _ _) ?_
  exact Enc.forRange rfl fun d hd => enc_glyphBitmap (h d hd)

/-! ### what the parser returns -/

theorem post_readBitmapLoop {N : Nat} (fuel : Nat) (rem : Int) :
    Post N (readBitmapLoop fuel rem) fun cs => ∀ c ∈ cs, c ≠ [] ∧ ∀ x ∈ c.tail, 0 ≤ x ∧ x < 256 := by
  induction fuel generalizing rem with
  | zero =>
    rw [readBitmapLoop]
    exact Post.ite (fun _ => Post.pure (by simp)) fun _ => Post.throw
  | succ fuel ih =>
    rw [readBitmapLoop]
    refine Post.ite (fun _ => Post.pure (by simp)) fun _ => ?_
    refine Post.bind post_i8 fun v _ => ?_
    refine Post.ite (fun _ => ?_) fun _ => ?_
    · refine Post.ite (fun _ => Post.pure (by simp)) fun _ => ?_
      refine Post.bind (Post.forRange post_u8 _) fun bs hbs => ?_
      refine Post.bind (ih _) fun cs hcs => Post.pure ?_
      intro c hc
      rcases List.mem_cons.1 hc with rfl | hc
      · exact ⟨by simp, hbs.2⟩
      · exact hcs c hc
    · refine Post.ite (fun _ => Post.pure (by simp)) fun _ => ?_
      refine Post.bind post_u8 fun i hi => ?_
      refine Post.bind (ih _) fun cs hcs => Post.pure ?_
      intro c hc
      rcases List.mem_cons.1 hc with rfl | hc
      · exact ⟨by simp, by simpa using hi⟩
      · exact hcs c hc

theorem mem_expand_tail {c : List Int} {x : Int} (h : x ∈ expand c) : x ∈ c.tail := by
  cases c with
  | nil => simp [expand] at h
  | cons v bs =>
    rw [expand] at h
    split at h
    · exact h
    · rw [List.mem_flatten] at h
      obtain ⟨l, hl, hx⟩ := h
      rw [List.eq_of_mem_replicate hl] at hx; exact hx

theorem post_bitmapData {N : Nat} (windows : Bool) (w datalen : Int) :
    Post N (parseBitmapData windows w datalen) fun bm =>
      (∀ row ∈ bm.data, ∀ x ∈ row, 0 ≤ x ∧ x < 256) ∧ bm.preview = bm.data.map (previewRow w) ∧
      ((0 < w ∧ RowsOf (2 * ((w.toNat + 15) / 16)) bm.data) ∨ (w < -15 ∧ bm.data = [])) := by
  unfold parseBitmapData
  refine Post.bind (post_readBitmapLoop _ _) fun rle hrle => ?_
  refine Post.bind (P := fun data => ∀ x ∈ data, 0 ≤ x ∧ x < 256) (Post.lift fun data hd => ?_) fun data hd => ?_
  · rw [decodeBitmap_ok fun c hc => (hrle c hc).1] at hd
    cases hd
    intro x hx
    obtain ⟨c, hc, hx⟩ := List.mem_flatMap.1 hx
    exact (hrle c hc).2 x (mem_expand_tail hx)
  · have hd' : ∀ x ∈ (if windows = true then data.map fun b => (-b - 1) + 0x100 else data), 0 ≤ x ∧ x < 256 := by
      split
      · intro x hx
        obtain ⟨b, hb, rfl⟩ := List.mem_map.1 hx
        have := hd b hb; omega
      · exact hd
    refine Post.bind (P := fun nice => (∀ row ∈ nice, ∀ x ∈ row, 0 ≤ x ∧ x < 256) ∧
      ((0 < w ∧ RowsOf (2 * ((w.toNat + 15) / 16)) nice) ∨ (w < -15 ∧ nice = []))) (Post.lift fun nice hn => ?_)
      fun nice hn => Post.pure ⟨hn.1, getPreview_eq _ _, hn.2⟩
    rw [splitRows] at hn
    split at hn
    · cases hn
    · split at hn
      · cases hn
        exact ⟨by simp, Or.inr ⟨by unfold bytesPerRow at *; omega, rfl⟩⟩
      · cases hn
        have hw : 0 < w := by unfold bytesPerRow at *; omega
        refine ⟨fun row hrow x hx => hd' x ((chunksOf_mem (by omega) hrow).2.2 x hx), Or.inl ⟨hw, ?_⟩⟩
        rw [← (bytesPerRow_pos hw).2]
        exact rowsOf_chunks (by omega) _

end Verif
