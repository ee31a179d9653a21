import Verif.Model.Yuri
import Verif.Props.Value
import Verif.Props.Base
import Mathlib.Data.List.Forall2
/-! C87: the command line tool `yuri`. -/
set_option autoImplicit false
namespace Verif.Props
open Verif Verif.Spec

/-- the numbers that `yuri` accepts -/
def YuriRange (signed : Bool) (v : Int) : Prop :=
  if signed = true then -2147483648 ≤ v ∧ v ≤ 2147483647 else -1131 ≤ v ∧ v ≤ 4294967295

/-- the bytes are the Type 1 charstring encodings of the numbers, one after the other -/
def T1Nums (signed : Bool) (bs : Bytes) (vs : List Int) : Prop :=
  ∃ bss : List Bytes, bs = bss.flatten ∧ List.Forall₂ (T1Num signed) bss vs

/-- What ends the output after some numbers: the end of the text or a zero byte (normal end), or a byte below 32 (ValueError). -/
def YuriEnd : Bytes → Except PyErr Unit → Prop
  | [], r => r = .ok ()
  | b :: _, r => b = 0 ∧ r = .ok () ∨ (1 ≤ b.toNat ∧ b.toNat < 32) ∧ r = .error .value

theorem t1num_pos {signed : Bool} {b : Bytes} {v : Int} (h : T1Num signed b v) : 0 < b.length := by
  cases h <;> simp

theorem yuriLoop_end (signed : Bool) (tail : Bytes) (r : Except PyErr Unit) (fuel : Nat) (h : YuriEnd tail r) :
    yuriLoop signed (fuel + 1) tail = ([], r) := by
  unfold yuriLoop
  cases tail with
  | nil =>
    rw [readValue_nil]
    cases h
    rfl
  | cons b tail =>
    rw [readValue_cons]
    rcases h with ⟨rfl, rfl⟩ | ⟨hb, rfl⟩
    · rfl
    · rw [if_neg (by omega), if_pos (by omega)]

theorem yuriLoop_values (signed : Bool) (bss : List Bytes) (vs : List Int) (h : List.Forall₂ (T1Num signed) bss vs)
    (tail : Bytes) (r : Except PyErr Unit) (ht : YuriEnd tail r) (fuel : Nat) (hf : bss.flatten.length ≤ fuel) :
    yuriLoop signed (fuel + 1) (bss.flatten ++ tail) = (vs, r) := by
  induction h generalizing fuel with
  | nil => exact yuriLoop_end signed tail r fuel ht
  | @cons b v bss vs hb _ ih =>
    have hpos := t1num_pos hb
    simp only [List.flatten_cons, List.length_append] at hf
    obtain ⟨fuel, rfl⟩ : ∃ f, fuel = f + 1 := ⟨fuel - 1, by omega⟩
    rw [List.flatten_cons, List.append_assoc, yuriLoop, C05_read_conforming b _ v signed hb]
    dsimp only
    rw [ih fuel (by omega)]

/-- **C87** Decoding prints exactly the numbers that are encoded, in order, however the text is divided into arguments and whatever
the encoding of each number (short or long), up to the end of the text, to a zero byte, or to a byte that cannot begin a number, which
is a ValueError. -/
theorem C87_decode (signed : Bool) (args : List PyStr) (bs tail : Bytes) (vs : List Int) (r : Except PyErr Unit)
    (ha : args.flatten = hexStr (bs ++ tail)) (h : T1Nums signed bs vs) (ht : YuriEnd tail r) : yuriDecode signed args = (vs, r) := by
  obtain ⟨bss, rfl, h⟩ := h
  unfold yuriDecode
  rw [ha, deHexStr_hexStr]
  dsimp only
  exact yuriLoop_values signed bss vs h tail r ht _ (by simp)

theorem write_t1nums (signed : Bool) (vs : List Int) (bs : Bytes) (h : W.all vs (fun v => writeValue v signed) = .ok bs) :
    T1Nums signed bs vs := by
  induction vs generalizing bs with
  | nil => cases h; exact ⟨[], rfl, .nil⟩
  | cons v vs ih =>
    rw [W.all_cons] at h
    obtain ⟨b, bs', h1, h2, rfl⟩ := W.seq_eq_ok.1 h
    obtain ⟨bss, rfl, h3⟩ := ih bs' h2
    exact ⟨b :: bss, rfl, .cons (C01_value_format v signed b h1) h3⟩

/-- **C87** What `yuri -e` prints can be given to `yuri`, in one or several arguments, and gives the same numbers. -/
theorem C87_roundtrip (signed long : Bool) (vs : List Int) (text : PyStr) (h : yuriEncode signed long vs = .ok text)
    (args : List PyStr) (ha : args.flatten = text) : yuriDecode signed args = (vs, .ok ()) := by
  unfold yuriEncode at h
  cases hw : W.all vs (fun v => writeValue v signed) with
  | error e => rw [hw] at h; cases h
  | ok b =>
    rw [hw] at h
    cases h
    exact C87_decode signed args b [] vs (.ok ()) (by rw [ha, List.append_nil]) (write_t1nums signed vs b hw) rfl

theorem yuriRange_iff (signed : Bool) (v : Int) : YuriRange signed v ↔ ∃ b, writeValue v signed = .ok b := by
  unfold YuriRange
  cases signed with
  | true =>
    rw [if_pos rfl]
    obtain ⟨h1, h2⟩ := C01_value_roundtrip_signed v
    constructor
    · intro h; obtain ⟨b, hb, _⟩ := h1 h; exact ⟨b, hb⟩
    · rintro ⟨b, hb⟩
      by_contra hn
      rw [h2 hn] at hb
      cases hb
  | false =>
    rw [if_neg (by simp)]
    obtain ⟨h1, h2⟩ := C02_value_roundtrip_unsigned v
    constructor
    · intro h; obtain ⟨b, hb, _⟩ := h1 h; exact ⟨b, hb⟩
    · rintro ⟨b, hb⟩
      by_contra hn
      rw [h2 hn] at hb
      cases hb

/-- **C87** `yuri -e` succeeds exactly if all numbers are in the range of the chosen mode. -/
theorem C87_encode_range (signed long : Bool) (vs : List Int) :
    (∃ text, yuriEncode signed long vs = .ok text) ↔ ∀ v ∈ vs, YuriRange signed v := by
  constructor
  · rintro ⟨text, h⟩ v hv
    rw [yuriRange_iff]
    unfold yuriEncode at h
    cases hw : W.all vs (fun v => writeValue v signed) with
    | error e => rw [hw] at h; cases h
    | ok b => exact W.all_ok hw v hv
  · intro h
    have : ∃ b, W.all vs (fun v => writeValue v signed) = .ok b := by
      induction vs with
      | nil => exact ⟨_, rfl⟩
      | cons v vs ih =>
        obtain ⟨b, hb⟩ := (yuriRange_iff signed v).1 (h v (by simp))
        obtain ⟨b', hb'⟩ := ih (fun w hw => h w (by simp [hw]))
        exact ⟨b ++ b', by rw [W.all_cons]; exact W.seq_eq_ok.2 ⟨b, b', hb, hb', rfl⟩⟩
    obtain ⟨b, hb⟩ := this
    exact ⟨hexStr b, by unfold yuriEncode; rw [hb]⟩

theorem yuriLoop_no_fuel (signed : Bool) (fuel : Nat) (s : Bytes) (h : s.length < fuel) : (yuriLoop signed fuel s).2 ≠ .error .fuel := by
  induction fuel generalizing s with
  | zero => omega
  | succ fuel ih =>
    unfold yuriLoop
    cases hr : readValue signed s with
    | ok v rest =>
      have := readValue_consume hr
      exact ih rest (by omega)
    | err e r =>
      rcases (C05_read_errors s signed).2.2 e r hr with rfl | rfl
      · intro hh; cases hh
      · intro hh; cases hh

/-- **C87** Decoding ends for every text. -/
theorem C87_terminates (signed : Bool) (args : List PyStr) : (yuriDecode signed args).2 ≠ .error .fuel := by
  unfold yuriDecode
  cases h : deHexStr args.flatten with
  | ok data => exact yuriLoop_no_fuel signed _ data (by omega)
  | error e =>
    intro hh
    have key : ∀ n (s : PyStr), s.length < n → ∀ e, deHexStr s = .error e → e = .value := by
      intro n
      induction n with
      | zero => intro s hs; omega
      | succ n ih =>
        intro s hs e he
        cases s with
        | nil => cases he
        | cons c s =>
          rw [deHexStr.eq_def] at he
          dsimp only at he
          split at he
          · exact ih s (by simpa using hs) e he
          · cases s with
            | nil => cases he; rfl
            | cons d s =>
              dsimp only at he
              split at he
              · cases hd : deHexStr s with
                | ok b => rw [hd] at he; cases he
                | error e' =>
                  rw [hd] at he
                  cases he
                  exact ih s (by simp at hs; omega) _ hd
              · cases he; rfl
    have := key _ _ (Nat.lt_succ_self _) _ h
    subst this
    cases hh

/-- **C87** (Known defect) The option `--long` has no effect: numbers are always written in their shortest form, although
`--long` promises the five-byte form. -/
theorem C87_long_ignored (signed : Bool) (vs : List Int) : yuriEncode signed true vs = yuriEncode signed false vs := rfl

example : yuriEncode true true [0] = .ok (lit "8b") := by decide +kernel

/-- **C87** (Known defect) A zero byte ends the output without an error, whatever follows. -/
theorem C87_stops_at_zero (signed : Bool) (args : List PyStr) (bs rest : Bytes) (vs : List Int)
    (ha : args.flatten = hexStr (bs ++ 0 :: rest)) (h : T1Nums signed bs vs) : yuriDecode signed args = (vs, .ok ()) :=
  C87_decode signed args bs (0 :: rest) vs (.ok ()) ha h (.inl ⟨rfl, rfl⟩)

example : yuriEncode true false [0, 1131, -108, -2147483648] = .ok (lit "8bfafffb00ff80000000") := by decide +kernel
example : yuriDecode true [lit "8b fa", lit "fffb00f", lit "f80000000"] = ([0, 1131, -108, -2147483648], .ok ()) := by decide +kernel
example : yuriDecode false [lit "8bffffffffff"] = ([0, 4294967295], .ok ()) := by decide +kernel
example : yuriDecode false [lit "8b008b"] = ([0], .ok ()) ∧ yuriDecode false [lit "8b1f8b"] = ([0], .error .value) := by decide +kernel
example : T1Nums true [0x8b, 0xfa, 0xff] [0, 1131] :=
  ⟨[[0x8b], [0xfa, 0xff]], rfl, .cons (T1Num.one 0x8b (by decide)) (.cons (T1Num.twoPos 0xfa 0xff (by decide)) .nil)⟩

end Verif.Props
