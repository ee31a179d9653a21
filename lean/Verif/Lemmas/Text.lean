import Verif.Lemmas.Stream
/-! Helper lemmas about the text encodings and string readers/writers. -/
set_option autoImplicit false
namespace Verif

theorem forall_u8 {P : UInt8 → Prop} (h : ∀ n : Fin 256, P (UInt8.ofNat n.val)) : ∀ b, P b := by
  intro b
  have := h ⟨b.toNat, b.toNat_lt⟩
  simpa using this

theorem cp1252_encode_decode (b : UInt8) (c : Nat) (h : cp1252Decode b = some c) :
    cp1252Encode c = some b := by
  have key : ∀ n : Fin 256, (cp1252Decode (UInt8.ofNat n.val)).bind cp1252Encode =
      (cp1252Decode (UInt8.ofNat n.val)).map (fun _ => UInt8.ofNat n.val) := by decide +kernel
  have := forall_u8 (P := fun b => (cp1252Decode b).bind cp1252Encode =
      (cp1252Decode b).map (fun _ => b)) key b
  simpa [h] using this

theorem findIdx_some {α} [BEq α] [LawfulBEq α] {l : List α} {c : α} {i : Nat}
    (h : l.findIdx? (· == c) = some i) : l[i]? = some c := by
  obtain ⟨hlt, hp, -⟩ := List.findIdx?_eq_some_iff_getElem.1 h
  rw [List.getElem?_eq_getElem hlt]
  simpa using hp

theorem cp1252_decode_encode (c : Nat) (b : UInt8) (h : cp1252Encode c = some b) :
    cp1252Decode b = some c := by
  unfold cp1252Encode at h
  split at h
  · rename_i hc
    cases h
    unfold cp1252Decode
    simp only [toNat_ofNat_lt (show c < 256 by omega)]
    rw [if_pos (by omega)]
  · obtain ⟨i, hi, rfl⟩ := Option.map_eq_some_iff.1 h
    have h1 := findIdx_some hi
    have h2 : i < 32 := (List.getElem?_eq_some_iff.1 h1).1
    unfold cp1252Decode
    simp only [toNat_ofNat_lt (show 0x80 + i < 256 by omega)]
    rw [if_neg (by omega), show 0x80 + i - 0x80 = i by omega, h1]; rfl

theorem macRoman_encode_decode (b : UInt8) (c : Nat) (h : macRomanDecode b = some c) :
    macRomanEncode c = some b := by
  have key : ∀ n : Fin 256, (macRomanDecode (UInt8.ofNat n.val)).bind macRomanEncode =
      (macRomanDecode (UInt8.ofNat n.val)).map (fun _ => UInt8.ofNat n.val) := by decide +kernel
  have := forall_u8 (P := fun b => (macRomanDecode b).bind macRomanEncode =
      (macRomanDecode b).map (fun _ => b)) key b
  simpa [h] using this

theorem macRoman_total (b : UInt8) : ∃ c, macRomanDecode b = some c := by
  have key : ∀ n : Fin 256, (macRomanDecode (UInt8.ofNat n.val)).isSome = true := by decide +kernel
  have := forall_u8 (P := fun b => (macRomanDecode b).isSome = true) key b
  exact Option.isSome_iff_exists.1 this

theorem macRoman_decode_encode (c : Nat) (b : UInt8) (h : macRomanEncode c = some b) :
    macRomanDecode b = some c := by
  unfold macRomanEncode at h
  split at h
  · rename_i hc
    cases h
    unfold macRomanDecode
    simp only [toNat_ofNat_lt (show c < 256 by omega)]
    rw [if_pos (by omega)]
  · obtain ⟨i, hi, rfl⟩ := Option.map_eq_some_iff.1 h
    have h1 := findIdx_some hi
    have h2 : i < 128 := (List.getElem?_eq_some_iff.1 h1).1
    unfold macRomanDecode
    simp only [toNat_ofNat_lt (show 0x80 + i < 256 by omega)]
    rw [if_neg (by omega), show 0x80 + i - 0x80 = i by omega, h1]

theorem mapM_inv {α β} {f : α → Option β} {g : β → Option α} (h : ∀ a b, f a = some b → g b = some a)
    (l : List α) (m : List β) (hm : l.mapM f = some m) : m.mapM g = some l := by
  induction l generalizing m with
  | nil => simp at hm; subst hm; rfl
  | cons a l ih =>
    rw [List.mapM_cons] at hm
    cases hfa : f a with
    | none => rw [hfa] at hm; cases hm
    | some b =>
      rw [hfa] at hm
      cases hl : l.mapM f with
      | none => rw [hl] at hm; cases hm
      | some m' =>
        rw [hl] at hm; cases hm
        rw [List.mapM_cons, h a b hfa, ih m' hl]; rfl

theorem mapM_length {α β} {f : α → Option β} (l : List α) (m : List β) (hm : l.mapM f = some m) :
    m.length = l.length := by
  induction l generalizing m with
  | nil => simp at hm; subst hm; rfl
  | cons a l ih =>
    rw [List.mapM_cons] at hm
    cases hfa : f a with
    | none => rw [hfa] at hm; cases hm
    | some b =>
      rw [hfa] at hm
      cases hl : l.mapM f with
      | none => rw [hl] at hm; cases hm
      | some m' => rw [hl] at hm; cases hm; simp [ih m' hl]

theorem decode_encode1252 {s : PyStr} {b : Bytes} (h : encode1252 s = .ok b) : decode1252 b = .ok s := by
  unfold encode1252 encodeWith at h
  split at h
  · cases h
    unfold decode1252 decodeWith
    rw [mapM_inv cp1252_decode_encode _ _ ‹_›]
  · cases h

theorem encode_decode1252 {s : PyStr} {b : Bytes} (h : decode1252 b = .ok s) : encode1252 s = .ok b := by
  unfold decode1252 decodeWith at h
  split at h
  · cases h
    unfold encode1252 encodeWith
    rw [mapM_inv cp1252_encode_decode _ _ ‹_›]
  · cases h

theorem encode1252_length {s : PyStr} {b : Bytes} (h : encode1252 s = .ok b) : b.length = s.length := by
  unfold encode1252 encodeWith at h
  split at h
  · cases h; exact mapM_length _ _ ‹_›
  · cases h

theorem encode1252_nil : encode1252 [] = .ok [] := rfl

/-- `s` can be encoded in cp1252 -/
def Is1252 (s : PyStr) : Prop := ∃ b, encode1252 s = .ok b

/-- strings that `write_str_with_len` can write -/
def StrOk (s : PyStr) : Prop := Is1252 s ∧ s.length < 2147483648

theorem writeStr_ok {s : PyStr} {b : Bytes} (h : encode1252 s = .ok b) : writeStr (some s) = .ok b := by
  simp [writeStr, h]

theorem writeStrWithLen_ok {s : PyStr} {b : Bytes} (h : encode1252 s = .ok b) :
    writeStrWithLen (some s) = writeValue b.length ++ (.ok b : W) := by
  simp [writeStrWithLen, h]

theorem enc_readStr {s : PyStr} {b : Bytes} (h : encode1252 s = .ok b) {n : Int} (hn : n = b.length) :
    Enc (.ok b) (readStr n) s := by
  refine ⟨b, rfl, fun rest => ?_⟩
  unfold readStr
  by_cases h0 : n = 0
  · have : b = [] := List.length_eq_zero_iff.1 (by omega)
    subst this
    have hs : s = [] := List.length_eq_zero_iff.1 (by rw [← encode1252_length h]; rfl)
    subst hs; simp [h0]
  · rw [if_neg h0, R.bind_of_ok (readN_append hn), decode_encode1252 h]; rfl

/-- a value written signed and non-negative is read correctly as unsigned -/
theorem enc_value_nonneg {v : Int} (h : 0 ≤ v ∧ v < 2147483648) (sg sg' : Bool) :
    Enc (writeValue v sg) (readValue sg') v := by
  have hw : writeValue v sg = writeValue v sg' := by
    have : packBE 4 sg v = packBE 4 sg' v := by
      rw [packBE_ok (show inRange 4 sg v by cases sg <;> simp only [inRange] <;> omega),
        packBE_ok (show inRange 4 sg' v by cases sg' <;> simp only [inRange] <;> omega)]
    simp only [writeValue, writeValueLong, this]
  rw [hw]
  exact enc_value (by cases sg' <;> simp only [ValOk] <;> omega)

theorem enc_value_mixed {v : Int} (h : -1131 ≤ v ∧ v < 2147483648) (sg sg' : Bool) :
    Enc (writeValue v sg) (readValue sg') v := by
  by_cases h0 : 0 ≤ v
  · exact enc_value_nonneg ⟨h0, h.2⟩ sg sg'
  · have hw : writeValue v sg = writeValue v sg' := by
      simp only [writeValue]
      split
      · rfl
      split
      · rfl
      · rw [if_pos (by omega), if_pos (by omega)]
    rw [hw]
    exact enc_value (by cases sg' <;> simp only [ValOk] <;> omega)

theorem enc_strWithLen {s : PyStr} (h : StrOk s) : Enc (writeStrWithLen (some s)) readStrWithLen s := by
  obtain ⟨⟨b, hb⟩, hl⟩ := h
  rw [writeStrWithLen_ok hb]
  refine Enc.bind (enc_value_nonneg (v := b.length) ?_ true false) (enc_readStr hb rfl)
  rw [encode1252_length hb]; omega

theorem encAll_strAll {s : PyStr} (h : Is1252 s) : EncAll (writeStr (some s)) readStrAll s := by
  obtain ⟨b, hb⟩ := h
  refine ⟨b, writeStr_ok hb, ?_⟩
  simp [readStrAll, R.bind_run, R.readAll, decode_encode1252 hb]

theorem is1252_of_decode {b : Bytes} {s : PyStr} (h : decode1252 b = .ok s) : Is1252 s :=
  ⟨b, encode_decode1252 h⟩

/-- what string readers return: encodable, and not longer than the stream -/
def StrN (N : Nat) (s : PyStr) : Prop := Is1252 s ∧ s.length ≤ N

theorem strN_of_decode {N : Nat} {b : Bytes} {s : PyStr} (hb : b.length ≤ N) (h : decode1252 b = .ok s) :
    StrN N s := by
  refine ⟨is1252_of_decode h, ?_⟩
  rw [← encode1252_length (encode_decode1252 h)]; exact hb

theorem StrN.ok {N : Nat} {s : PyStr} (h : StrN N s) (hN : N < 2147483648) : StrOk s := ⟨h.1, by have := h.2; omega⟩

theorem post_readStr {N : Nat} (n : Int) : Post N (readStr n) (StrN N) := by
  refine Post.ite (fun _ => Post.pure ⟨⟨[], rfl⟩, by simp⟩) fun _ => ?_
  exact Post.bind (Post.readN _) fun b hb => Post.lift fun a h => strN_of_decode hb.1 h

theorem post_strWithLen {N : Nat} : Post N readStrWithLen (StrN N) :=
  Post.bind (post_value false) fun n _ => post_readStr n

theorem post_strAll {N : Nat} : Post N readStrAll (StrN N) :=
  Post.bind Post.readAll fun _ hb => Post.lift fun _ h => strN_of_decode hb h

theorem parseEntry_of_encAll {α} {w : W} {p : R α} {a : α} (h : EncAll w p a) :
    ∃ b, w = .ok b ∧ parseEntry p b = .ok a := by
  obtain ⟨b, hw, hp⟩ := h
  exact ⟨b, hw, by simp [parseEntry, hp]⟩

theorem parseEntry_ok {α} {p : R α} {b : Bytes} {a : α} : parseEntry p b = .ok a ↔ p b = .ok a [] := by
  unfold parseEntry
  split <;> simp_all

theorem parseEntry_post {α} {p : R α} {b : Bytes} {a : α} {P : α → Prop} (hp : Post b.length p P)
    (h : parseEntry p b = .ok a) : P a := (hp _ _ _ (Nat.le_refl _) (parseEntry_ok.1 h)).1

end Verif
