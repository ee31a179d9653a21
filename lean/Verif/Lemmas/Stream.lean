import Verif.Lemmas.Py
import Verif.Model.Stream
/-! Helper lemmas about the primitive stream readers and writers. -/
set_option autoImplicit false
namespace Verif

theorem readN_one_cons (b : UInt8) (r : Bytes) : R.readN 1 (b :: r) = .ok [b] r := by
  simp [R.readN]
theorem readN_one_nil : R.readN 1 [] = .ok [] [] := by
  simp [R.readN]
theorem fromLE_nil : fromLE false [] = 0 := rfl
theorem fromLE_one (b : UInt8) : fromLE false [b] = (b.toNat : Int) := by
  simp [fromLE, leNat]

theorem packBE_one {x : Int} (h : 0 ≤ x ∧ x < 256) : packBE 1 false x = .ok [UInt8.ofNat x.toNat] := by
  have h1 : inRange 1 false x := by simp only [inRange]; omega
  have h2 : (x % ((256 ^ 1 : Nat) : Int)).toNat = x.toNat := by
    rw [Int.emod_eq_of_lt h.1 (by omega)]
  have h3 : x.toNat % 256 = x.toNat := Nat.mod_eq_of_lt (by omega)
  simp only [packBE, if_pos h1, h2, leDigits, h3]; rfl

theorem packBE_two {x : Int} (h : 0 ≤ x ∧ x < 65536) :
    packBE 2 false x = .ok [UInt8.ofNat (x.toNat / 256), UInt8.ofNat (x.toNat % 256)] := by
  have h1 : inRange 2 false x := by simp only [inRange]; omega
  have h2 : (x % ((256 ^ 2 : Nat) : Int)).toNat = x.toNat := by
    rw [Int.emod_eq_of_lt h.1 (by omega)]
  have h3 : x.toNat / 256 % 256 = x.toNat / 256 := Nat.mod_eq_of_lt (by omega)
  simp only [packBE, if_pos h1, h2, leDigits, h3]; rfl

theorem toNat_ofNat_lt {n : Nat} (h : n < 256) : (UInt8.ofNat n).toNat = n := by
  rw [UInt8.toNat_ofNat']; omega

/-- the range of integers that have an encoded form (`signed` selects the long form) -/
def ValOk (signed : Bool) (v : Int) : Prop :=
  match signed with
  | true => -2147483648 ≤ v ∧ v < 2147483648
  | false => -1131 ≤ v ∧ v < 4294967296

instance (signed : Bool) (v : Int) : Decidable (ValOk signed v) := by
  cases signed <;> unfold ValOk <;> infer_instance

theorem readValue_nil (sg : Bool) : readValue sg [] = .err .eof [] := by
  simp [readValue, R.bind_run, readN_one_nil, fromLE_nil]

/-- what `readValue` does on a non-empty stream, by first byte -/
theorem readValue_cons (sg : Bool) (b : UInt8) (r : Bytes) :
    readValue sg (b :: r) =
      if b.toNat = 0 then .err .eof r
      else if b.toNat < 0x20 then .err .value r
      else if b.toNat < 0xF7 then .ok ((b.toNat : Int) - 0x8B) r
      else if b.toNat ≤ 0xFA then
        .ok (0x100 * (b.toNat : Int) - 0xF694 + fromLE false (r.take 1)) (r.drop 1)
      else if b.toNat ≤ 0xFE then
        .ok (-0x100 * (b.toNat : Int) + 0xFA94 - fromLE false (r.take 1)) (r.drop 1)
      else .ok (fromBE sg (r.take 4)) (r.drop 4) := by
  have hb := b.toNat_lt
  simp only [readValue, R.bind_run, readN_one_cons, fromLE_one]
  generalize b.toNat = n at *
  by_cases h0 : n = 0
  · simp [h0]
  have h0' : ¬ ((n : Int) = 0) := by omega
  rw [if_neg h0', if_neg h0]
  by_cases h1 : n < 0x20
  · have h1' : (n : Int) < 0x20 := by omega
    rw [if_pos h1', if_pos h1]; rfl
  have h1' : ¬ ((n : Int) < 0x20) := by omega
  rw [if_neg h1', if_neg h1]
  by_cases h2 : n < 0xF7
  · have h2' : (n : Int) < 0xF7 := by omega
    rw [if_pos h2', if_pos h2]; rfl
  have h2' : ¬ ((n : Int) < 0xF7) := by omega
  rw [if_neg h2', if_neg h2]
  by_cases h3 : n ≤ 0xFA
  · have h3' : (n : Int) ≤ 0xFA := by omega
    rw [if_pos h3', if_pos h3]
    simp [R.bind_run, R.readN]
  have h3' : ¬ ((n : Int) ≤ 0xFA) := by omega
  rw [if_neg h3', if_neg h3]
  by_cases h4 : n ≤ 0xFE
  · have h4' : (n : Int) ≤ 0xFE := by omega
    rw [if_pos h4', if_pos h4]
    simp [R.bind_run, R.readN]
  have h4' : ¬ ((n : Int) ≤ 0xFE) := by omega
  rw [if_neg h4', if_neg h4]
  have h5 : (n : Int) = 0xFF := by omega
  rw [if_pos h5]
  simp [R.bind_run, R.readN]

/-- explicit bytes of an encoded value -/
theorem writeValue_short {v : Int} (sg : Bool) (h : -107 ≤ v ∧ v ≤ 107) :
    writeValue v sg = .ok [UInt8.ofNat (v + 0x8B).toNat] := by
  rw [writeValue, if_pos h, packBE_one (by omega)]

theorem writeValue_pos {v : Int} (sg : Bool) (h : 107 < v ∧ v ≤ 1131) :
    writeValue v sg = .ok [UInt8.ofNat ((v + 0xF694).toNat / 256), UInt8.ofNat ((v + 0xF694).toNat % 256)] := by
  rw [writeValue, if_neg (by omega), if_pos h, packBE_two (by omega)]

theorem writeValue_neg {v : Int} (sg : Bool) (h : -1131 ≤ v ∧ v < -107) :
    writeValue v sg = .ok [UInt8.ofNat ((-v + 0xFA94).toNat / 256), UInt8.ofNat ((-v + 0xFA94).toNat % 256)] := by
  rw [writeValue, if_neg (by omega), if_neg (by omega), if_pos h, packBE_two (by omega)]

theorem packBE_ok {k : Nat} {sg : Bool} {v : Int} (h : inRange k sg v) :
    packBE k sg v = .ok (leDigits k (v % ((256 ^ k : Nat) : Int)).toNat).reverse := by
  rw [packBE, if_pos h]

theorem writeValueLong_ok {v : Int} (sg : Bool) (h : inRange 4 sg v) :
    writeValueLong v sg = .ok (0xFF :: (leDigits 4 (v % ((256 ^ 4 : Nat) : Int)).toNat).reverse) := by
  rw [writeValueLong, packBE_one (by omega), packBE_ok h]; rfl

theorem enc_valueLong {v : Int} {sg : Bool} (h : inRange 4 sg v) :
    Enc (writeValueLong v sg) (readValue sg) v := by
  refine ⟨_, writeValueLong_ok sg h, fun rest => ?_⟩
  rw [List.cons_append, readValue_cons]
  simp only [show (0xFF : UInt8).toNat = 255 from rfl]
  simp only [show ¬ (255 = 0) by omega, show ¬ (255 < 0x20) by omega, show ¬ (255 < 0xF7) by omega,
    show ¬ (255 ≤ 0xFA) by omega, show ¬ (255 ≤ 0xFE) by omega, if_false]
  have hl : ((leDigits 4 (v % ((256 ^ 4 : Nat) : Int)).toNat).reverse).length = 4 := by simp
  rw [List.take_left' hl, List.drop_left' hl, fromBE_pack h]

theorem inRange4_of_valOk {v : Int} {sg : Bool} (h : ValOk sg v) (h' : v < -1131 ∨ 1131 < v) :
    inRange 4 sg v := by
  cases sg <;> simp only [ValOk, inRange] at * <;> omega

theorem enc_value {v : Int} {sg : Bool} (h : ValOk sg v) : Enc (writeValue v sg) (readValue sg) v := by
  by_cases h1 : -107 ≤ v ∧ v ≤ 107
  · refine ⟨_, writeValue_short sg h1, fun rest => ?_⟩
    simp only [List.cons_append, List.nil_append, readValue_cons]
    rw [toNat_ofNat_lt (by omega)]
    rw [if_neg (by omega), if_neg (by omega), if_pos (by omega)]
    congr 1; omega
  by_cases h2 : 107 < v ∧ v ≤ 1131
  · refine ⟨_, writeValue_pos sg h2, fun rest => ?_⟩
    simp only [List.cons_append, List.nil_append, readValue_cons]
    rw [toNat_ofNat_lt (by omega)]
    rw [if_neg (by omega), if_neg (by omega), if_neg (by omega), if_pos (by omega)]
    simp only [List.take_succ_cons, List.take_zero, List.drop_succ_cons, List.drop_zero, fromLE_one]
    rw [toNat_ofNat_lt (by omega)]
    congr 1; omega
  by_cases h3 : -1131 ≤ v ∧ v < -107
  · refine ⟨_, writeValue_neg sg h3, fun rest => ?_⟩
    simp only [List.cons_append, List.nil_append, readValue_cons]
    rw [toNat_ofNat_lt (by omega)]
    rw [if_neg (by omega), if_neg (by omega), if_neg (by omega), if_neg (by omega), if_pos (by omega)]
    simp only [List.take_succ_cons, List.take_zero, List.drop_succ_cons, List.drop_zero, fromLE_one]
    rw [toNat_ofNat_lt (by omega)]
    congr 1; omega
  · have := enc_valueLong (inRange4_of_valOk h (by omega))
    rw [writeValue, if_neg h1, if_neg h2, if_neg h3]
    exact this

theorem writeValue_err {v : Int} {sg : Bool} (h : ¬ ValOk sg v) : writeValue v sg = .error .structError := by
  have hr : ¬ inRange 4 sg v := by
    cases sg <;> simp only [ValOk, inRange] at * <;> omega
  have h' : v < -1131 ∨ 1131 < v := by
    cases sg <;> simp only [ValOk] at * <;> omega
  rw [writeValue, if_neg (by omega), if_neg (by omega), if_neg (by omega), writeValueLong,
    packBE_one (by omega), packBE, if_neg hr]
  rfl

theorem toSigned_abs {k n : Nat} (h : n < 256 ^ k) :
    -((256 ^ k : Nat) : Int) ≤ 2 * toSigned k n ∧ 2 * toSigned k n < ((256 ^ k : Nat) : Int) := by
  unfold toSigned
  generalize 256 ^ k = m at *
  split <;> omega

theorem fromBE_valOk {sg : Bool} {b : Bytes} (h : b.length ≤ 4) : ValOk sg (fromBE sg b) := by
  have h1 := beNat_lt b
  have h2 : 256 ^ b.length ≤ 256 ^ 4 := Nat.pow_le_pow_right (by omega) h
  cases sg with
  | false => simp only [fromBE, ValOk, Bool.false_eq_true, if_false]; omega
  | true =>
    have h3 := toSigned_abs h1
    simp only [fromBE, ValOk, if_true]
    generalize toSigned b.length (beNat b) = x at *
    generalize 256 ^ b.length = m at *
    omega

theorem fromLE_take_one (r : Bytes) : 0 ≤ fromLE false (r.take 1) ∧ fromLE false (r.take 1) < 256 := by
  cases r with
  | nil => simp [fromLE_nil]
  | cons b r =>
    have := b.toNat_lt
    simp only [List.take_succ_cons, List.take_zero, fromLE_one]; omega

theorem post_value {N : Nat} (sg : Bool) : Post N (readValue sg) (ValOk sg) := by
  intro s v r _ h
  cases s with
  | nil => rw [readValue_nil] at h; cases h
  | cons b s =>
    have hb := b.toNat_lt
    have ht := fromLE_take_one s
    rw [readValue_cons] at h
    split at h
    · cases h
    split at h
    · cases h
    split at h
    · cases h; exact ⟨by cases sg <;> simp only [ValOk] <;> omega, by simp⟩
    split at h
    · cases h; exact ⟨by cases sg <;> simp only [ValOk] <;> omega, by simp; omega⟩
    split at h
    · cases h; exact ⟨by cases sg <;> simp only [ValOk] <;> omega, by simp; omega⟩
    · cases h; exact ⟨fromBE_valOk (by simp; omega), by simp; omega⟩

/-! fixed width -/

theorem enc_int {k : Nat} {sg : Bool} {v : Int} (h : inRange k sg v) :
    Enc (toBytesLE k sg v) (readInt k sg) v := by
  refine ⟨leDigits k (v % ((256 ^ k : Nat) : Int)).toNat, by rw [toBytesLE, if_pos h], fun rest => ?_⟩
  rw [readInt, R.bind_of_ok (readN_append (by simp))]
  rw [R.pure_run, fromLE_toBytes h]

theorem toBytesLE_err {k : Nat} {sg : Bool} {v : Int} (h : ¬ inRange k sg v) :
    toBytesLE k sg v = .error .overflow := by rw [toBytesLE, if_neg h]

theorem post_int {N : Nat} (k : Nat) (sg : Bool) : Post N (readInt k sg) (inRange k sg) := by
  refine Post.bind (Post.readN (k : Int)) fun b hb => Post.pure ?_
  exact inRange_mono (by have := hb.2 (by omega); omega) (fromLE_range rfl)

theorem enc_u8 {v : Int} (h : 0 ≤ v ∧ v < 256) : Enc (writeU8 v) readU8 v :=
  enc_int (by simp only [inRange]; omega)
theorem enc_u16 {v : Int} (h : 0 ≤ v ∧ v < 65536) : Enc (writeU16 v) readU16 v :=
  enc_int (by simp only [inRange]; omega)
theorem enc_u32 {v : Int} (h : 0 ≤ v ∧ v < 4294967296) : Enc (writeU32 v) readU32 v :=
  enc_int (by simp only [inRange]; omega)
theorem enc_i8 {v : Int} (h : -128 ≤ v ∧ v < 128) : Enc (writeI8 v) readI8 v :=
  enc_int (by simp only [inRange]; omega)
theorem enc_i16 {v : Int} (h : -32768 ≤ v ∧ v < 32768) : Enc (writeI16 v) readI16 v :=
  enc_int (by simp only [inRange]; omega)
theorem enc_i32 {v : Int} (h : -2147483648 ≤ v ∧ v < 2147483648) : Enc (writeI32 v) readI32 v :=
  enc_int (by simp only [inRange]; omega)

theorem post_u8 {N : Nat} : Post N readU8 fun v => 0 ≤ v ∧ v < 256 :=
  (post_int 1 false).mono fun v h => by simp only [inRange] at h; omega
theorem post_u16 {N : Nat} : Post N readU16 fun v => 0 ≤ v ∧ v < 65536 :=
  (post_int 2 false).mono fun v h => by simp only [inRange] at h; omega
theorem post_u32 {N : Nat} : Post N readU32 fun v => 0 ≤ v ∧ v < 4294967296 :=
  (post_int 4 false).mono fun v h => by simp only [inRange] at h; omega
theorem post_i8 {N : Nat} : Post N readI8 fun v => -128 ≤ v ∧ v < 128 :=
  (post_int 1 true).mono fun v h => by simp only [inRange] at h; omega
theorem post_i16 {N : Nat} : Post N readI16 fun v => -32768 ≤ v ∧ v < 32768 :=
  (post_int 2 true).mono fun v h => by simp only [inRange] at h; omega
theorem post_i32 {N : Nat} : Post N readI32 fun v => -2147483648 ≤ v ∧ v < 2147483648 :=
  (post_int 4 true).mono fun v h => by simp only [inRange] at h; omega

/-! doubles -/

theorem Dbl.toBytes_length (d : Dbl) : d.toBytes.length = 8 := by simp [Dbl.toBytes]
theorem Dbl.ofBytes_toBytes (d : Dbl) : Dbl.ofBytes d.toBytes = d := by
  have := d.bits.toNat_lt
  simp only [Dbl.ofBytes, Dbl.toBytes]
  rw [leNat_leDigits _ _ (by simpa using this)]
  simp
theorem Dbl.toBytes_ofBytes {b : Bytes} (h : b.length = 8) : (Dbl.ofBytes b).toBytes = b := by
  have := leNat_lt b
  rw [h] at this
  simp only [Dbl.ofBytes, Dbl.toBytes]
  rw [UInt64.toNat_ofNat', Nat.mod_eq_of_lt (by simpa using this), ← h]
  exact leDigits_leNat b

theorem writeDoubles_ok (ds : List Dbl) : writeDoubles ds = .ok (ds.map Dbl.toBytes).flatten := by
  unfold writeDoubles
  induction ds with
  | nil => rfl
  | cons d ds ih => rw [W.all_cons, ih]; rfl

theorem flatten_dbl_length (ds : List Dbl) : (ds.map Dbl.toBytes).flatten.length = ds.length * 8 := by
  induction ds with
  | nil => rfl
  | cons d ds ih =>
    simp only [List.map_cons, List.flatten_cons, List.length_append, ih, Dbl.toBytes_length,
      List.length_cons]; omega

theorem unpackDoubles_flatten (ds : List Dbl) :
    unpackDoubles ds.length (ds.map Dbl.toBytes).flatten = ds := by
  induction ds with
  | nil => rfl
  | cons d ds ih =>
    simp only [List.length_cons, unpackDoubles, List.map_cons, List.flatten_cons]
    rw [List.take_left' (Dbl.toBytes_length d), List.drop_left' (Dbl.toBytes_length d), ih,
      Dbl.ofBytes_toBytes]

theorem enc_doubles (ds : List Dbl) : Enc (writeDoubles ds) (readDoubles ds.length) ds := by
  refine ⟨_, writeDoubles_ok ds, fun rest => ?_⟩
  have hl := flatten_dbl_length ds
  rw [readDoubles, R.bind_of_ok (readN_append (by rw [hl]; simp))]
  simp [hl, unpackDoubles_flatten]

theorem enc_double (d : Dbl) : Enc (writeDouble d) readDouble d := by
  have := enc_doubles [d]
  have h2 : writeDoubles [d] = writeDouble d := by simp [writeDoubles]
  rw [h2] at this
  exact this.last rfl

theorem unpackDoubles_length (n : Nat) (b : Bytes) : (unpackDoubles n b).length = n := by
  induction n generalizing b with
  | zero => rfl
  | succ n ih => simp [unpackDoubles, ih]

theorem post_doubles {N : Nat} (n : Nat) : Post N (readDoubles n) fun l => l.length = n := by
  refine Post.bind (Post.readN _) fun b _ => Post.ite (fun _ => Post.pure ?_) (fun _ => Post.throw)
  exact unpackDoubles_length n b

end Verif
