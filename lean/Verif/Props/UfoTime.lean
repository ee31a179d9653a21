import Verif.Model.UfoTime
import Verif.Spec.Ufo
import Verif.Spec.Entry
import Verif.Lemmas.Float
import Verif.Lemmas.Py
/-! C48: creation timestamps. -/
set_option autoImplicit false
namespace Verif.Props
open Verif Verif.Spec

theorem leNat_leDigits4 (n : Nat) (h : n < 4294967296) : leNat (leDigits 4 n) = n := by
  simp only [leDigits, leNat, UInt8.toNat_ofNat']
  omega

theorem length_leDigits4 (n : Nat) : (leDigits 4 n).length = 4 := by simp [leDigits]

theorem toBytes4_signed {t : Int} (h : IsInt32 t) :
    ∃ b, toBytes4 true t = .ok b ∧ fromBE false b = if t < 0 then t + 4294967296 else t := by
  unfold IsInt32 at h
  refine ⟨(leDigits 4 (t % ((256 ^ 4 : Nat) : Int)).toNat).reverse, ?_, ?_⟩
  · rw [toBytes4, if_pos]; simp only [inRange]; omega
  · have hlt : (t % ((256 ^ 4 : Nat) : Int)).toNat < 4294967296 := by omega
    have he : ((t % ((256 ^ 4 : Nat) : Int)).toNat : Int) = if t < 0 then t + 4294967296 else t := by
      split <;> omega
    simp only [fromBE, beNat, List.reverse_reverse, leNat_leDigits4 _ hlt, he]
    rfl

theorem toBytes4_unsigned {t : Int} (h : 0 ≤ t ∧ t < 4294967296) :
    ∃ b, toBytes4 false t = .ok b ∧ fromBE true b = if t < 2147483648 then t else t - 4294967296 := by
  refine ⟨(leDigits 4 (t % ((256 ^ 4 : Nat) : Int)).toNat).reverse, ?_, ?_⟩
  · rw [toBytes4, if_pos]; simp only [inRange]; omega
  · have hlt : (t % ((256 ^ 4 : Nat) : Int)).toNat < 4294967296 := by omega
    have he : (t % ((256 ^ 4 : Nat) : Int)).toNat = t.toNat := by omega
    rw [he] at hlt ⊢
    simp only [fromBE, beNat, List.reverse_reverse, leNat_leDigits4 _ hlt, toSigned, List.length_reverse, length_leDigits4, if_true]
    split <;> split <;> omega

/-- truncating the number of seconds of a moment after 1970 -/
theorem trunc_seconds {d : Int} (h0 : 0 ≤ d) (h1 : d ≤ 4294967296000000) :
    truncInt (fdiv d 1000000) = d / 1000000 := by
  have he := fl_err ((d : Rat) / (1000000 : Int))
  have hd0 : (0 : Rat) ≤ d := by exact_mod_cast h0
  have hd1 : (d : Rat) ≤ 4294967296000000 := by exact_mod_cast h1
  have hq : |(d : Rat) / (1000000 : Int)| ≤ 4294967296 := by
    rw [abs_of_nonneg (by push_cast; positivity)]
    push_cast
    rw [div_le_iff₀ (by norm_num)]
    linarith
  have hb : |(d : Rat) / (1000000 : Int)| / 2 ^ 53 < 1 / 1000000 := by
    rw [div_lt_iff₀ (by positivity)]
    refine lt_of_le_of_lt hq ?_
    norm_num
  have he' := lt_of_le_of_lt he hb
  rw [abs_lt] at he'
  have hm : (d : Rat) = 1000000 * ((d / 1000000 : Int) : Rat) + ((d % 1000000 : Int) : Rat) := by
    exact_mod_cast (Int.mul_ediv_add_emod d 1000000).symm
  have hr0 : (0 : Rat) ≤ ((d % 1000000 : Int) : Rat) := by
    exact_mod_cast Int.emod_nonneg d (by norm_num)
  have hr1 : ((d % 1000000 : Int) : Rat) ≤ 999999 := by
    have : d % 1000000 ≤ 999999 := by omega
    exact_mod_cast this
  have hk0 : (0 : Rat) ≤ ((d / 1000000 : Int) : Rat) := by
    exact_mod_cast Int.ediv_nonneg h0 (by norm_num)
  have hqe : (d : Rat) / (1000000 : Int) = ((d / 1000000 : Int) : Rat) + ((d % 1000000 : Int) : Rat) / 1000000 := by
    rw [hm]; push_cast; field_simp
  unfold fdiv
  set f := fl ((d : Rat) / (1000000 : Int)) with hf
  -- lower bound: rounding never goes below the integer number of seconds
  have hlow : ((d / 1000000 : Int) : Rat) ≤ f := by
    rcases Int.lt_or_eq_of_le (Int.emod_nonneg d (show (1000000 : Int) ≠ 0 by norm_num)) with h | h
    · have h1' : (1 : Rat) ≤ ((d % 1000000 : Int) : Rat) := by exact_mod_cast h
      have : (1 : Rat) / 1000000 ≤ ((d % 1000000 : Int) : Rat) / 1000000 := by
        apply div_le_div_of_nonneg_right h1' (by norm_num)
      linarith [he'.1]
    · have hz : ((d % 1000000 : Int) : Rat) = 0 := by exact_mod_cast h.symm
      rw [hz] at hqe
      have : f = ((d / 1000000 : Int) : Rat) := by
        rw [hf, hqe, zero_div, add_zero]
        apply fl_int
        rw [abs_of_nonneg (Int.ediv_nonneg h0 (by norm_num))]
        omega
      linarith
  have hhigh : f < ((d / 1000000 : Int) : Rat) + 1 := by
    have : ((d % 1000000 : Int) : Rat) / 1000000 ≤ 999999 / 1000000 := by
      apply div_le_div_of_nonneg_right hr1 (by norm_num)
    linarith [he'.2]
  rw [truncInt, if_pos (le_trans hk0 hlow)]
  exact Int.floor_eq_iff.2 ⟨hlow, hhigh⟩


theorem trunc_late {d : Int} (h : 4294967296000000 ≤ d) : 4294967295 ≤ truncInt (fdiv d 1000000) := by
  have he := fl_err ((d : Rat) / (1000000 : Int))
  have hd : (4294967296000000 : Rat) ≤ d := by exact_mod_cast h
  have hq : (4294967296 : Rat) ≤ (d : Rat) / (1000000 : Int) := by
    push_cast
    rw [le_div_iff₀ (by norm_num)]
    linarith
  rw [abs_of_nonneg (show (0 : Rat) ≤ (d : Rat) / (1000000 : Int) by linarith)] at he
  rw [abs_le] at he
  unfold fdiv
  set q := (d : Rat) / (1000000 : Int)
  have h1 : q - q / 2 ^ 53 ≤ fl q := by linarith [he.1]
  have h2 : (4294967295 : Rat) ≤ q - q / 2 ^ 53 := by
    have : q / 2 ^ 53 ≤ q / 4294967296 := by
      apply div_le_div_of_nonneg_left (by linarith) (by norm_num) (by norm_num)
    linarith
  rw [truncInt, if_pos (by linarith), Int.le_floor]
  push_cast
  linarith

theorem trunc_early {d : Int} (h : d < 0) : truncInt (fdiv d 1000000) ≤ 0 := by
  have he := fl_err ((d : Rat) / (1000000 : Int))
  have hd : (d : Rat) < 0 := by exact_mod_cast h
  have hq : (d : Rat) / (1000000 : Int) < 0 := by
    push_cast
    exact div_neg_of_neg_of_pos hd (by norm_num)
  rw [abs_of_neg hq, abs_le] at he
  unfold fdiv
  set q := (d : Rat) / (1000000 : Int)
  have h1 : fl q < 0 := by
    have h2 : -q / 2 ^ 53 ≤ -q / 2 := by
      apply div_le_div_of_nonneg_left (by linarith) (by norm_num) (by norm_num)
    linarith [he.2]
  rw [truncInt, if_neg (by linarith)]
  have : (0 : Int) ≤ ⌊-fl q⌋ := Int.floor_nonneg.2 (by linarith)
  omega

/-- **C48** A timestamp is converted to the moment it stands for: the stored 32-bit pattern is counted
in whole seconds without sign; everything before 1970 becomes 1970-01-01 00:00. -/
theorem C48_timestamp_meaning (t : Int) (h : IsInt32 t) :
    convertTimestamp t = .ok (1000000 * max 0 (flSeconds t)) := by
  obtain ⟨b, hb, hv⟩ := toBytes4_signed h
  simp only [convertTimestamp, hb, hv, bind, Except.bind, pure, Except.pure, flSeconds, timeZero]
  congr 1
  split <;> split <;> omega

/-- **C48** Numbers that are not signed 32-bit integers are rejected. -/
theorem C48_timestamp_overflow (t : Int) (h : ¬ IsInt32 t) : convertTimestamp t = .error .overflow := by
  have : ¬ inRange 4 true t := by simp only [inRange]; unfold IsInt32 at h; omega
  simp [convertTimestamp, toBytes4, this, bind, Except.bind]

theorem datetimeToFl_late (d : Int) (ts : Int) (hts : truncInt (fdiv d 1000000) = ts) (h0 : 0 ≤ ts) :
    datetimeToFl d = if ts < 2212126096 then .ok (if ts + 2082841200 < 2147483648 then ts + 2082841200 else ts + 2082841200 - 4294967296)
      else .error .overflow := by
  simp only [datetimeToFl, hts]
  have hn : ¬ ts + timeZero < timeZero := by omega
  rw [if_neg hn]
  split
  · obtain ⟨b, hb, hv⟩ := toBytes4_unsigned (t := ts + timeZero) (by unfold timeZero; omega)
    simp only [hb, hv, bind, Except.bind, pure, Except.pure]
    rfl
  · have : ¬ inRange 4 false (ts + timeZero) := by simp only [inRange, timeZero]; omega
    simp [toBytes4, this, bind, Except.bind]

/-- **C48** A date from 1970 up to February 2040 is stored as the timestamp of that second: converting it
back gives the moment without its fraction of a second. -/
theorem C48_date_round_trip (d : Int) (h0 : 0 ≤ d) (h1 : d < 2212126096 * 1000000) :
    ∃ t, datetimeToFl d = .ok t ∧ IsInt32 t ∧ convertTimestamp t = .ok (d - d % 1000000) := by
  have ht := trunc_seconds h0 (by omega)
  have he := datetimeToFl_late d _ ht (by omega)
  rw [if_pos (by omega)] at he
  refine ⟨_, he, ?_, ?_⟩
  · unfold IsInt32; split <;> omega
  · rw [C48_timestamp_meaning _ (by unfold IsInt32; split <;> omega)]
    congr 1
    unfold flSeconds
    split <;> split <;> omega

/-- **C48** A timestamp of 1970 or later is restored exactly by converting it to a date and back. -/
theorem C48_timestamp_round_trip (t : Int) (h : IsInt32 t) (h0 : 0 ≤ flSeconds t) :
    ∃ d, convertTimestamp t = .ok d ∧ datetimeToFl d = .ok t := by
  refine ⟨_, C48_timestamp_meaning t h, ?_⟩
  have hm : max 0 (flSeconds t) = flSeconds t := by omega
  rw [hm]
  have hb : flSeconds t < 2212126096 := by unfold IsInt32 at h; unfold flSeconds; split <;> omega
  have ht := trunc_seconds (d := 1000000 * flSeconds t) (by omega) (by omega)
  rw [Int.mul_ediv_cancel_left _ (by norm_num)] at ht
  rw [datetimeToFl_late _ _ ht h0, if_pos hb]
  congr 1
  unfold IsInt32 at h
  unfold flSeconds
  split <;> split <;> omega

/-- **C48** Dates before 1970 are stored as the timestamp of 1970-01-01 00:00. -/
theorem C48_date_early (d : Int) (h : d < 0) :
    ∃ t, datetimeToFl d = .ok t ∧ flSeconds t = 0 := by
  have ht := trunc_early h
  refine ⟨timeZero, ?_, by decide⟩
  rcases Int.lt_or_eq_of_le ht with h' | h'
  · simp only [datetimeToFl]
    rw [if_pos (by omega)]
    rfl
  · rw [datetimeToFl_late d 0 h' (by omega)]
    rfl

/-- **C48** (known defect) Dates from 7 February 2040, 06:28:16 UTC on cannot be stored: OverflowError. -/
theorem C48_date_late (d : Int) (h : 2212126096 * 1000000 ≤ d) : datetimeToFl d = .error .overflow := by
  by_cases hd : d ≤ 4294967296000000
  · have ht := trunc_seconds (d := d) (by omega) hd
    rw [datetimeToFl_late d _ ht (by omega), if_neg (by omega)]
  · have ht := trunc_late (d := d) (by omega)
    rw [datetimeToFl_late d _ rfl (by omega), if_neg (by omega)]

/-- **C48** Later dates never get earlier timestamps. -/
theorem C48_date_order (d d' : Int) (t t' : Int) (h : d ≤ d') (ht : datetimeToFl d = .ok t) (ht' : datetimeToFl d' = .ok t') :
    flSeconds t ≤ flSeconds t' := by
  have key : ∀ e u, datetimeToFl e = .ok u → flSeconds u = max 0 (e / 1000000) := by
    intro e u hu
    by_cases h0 : e < 0
    · obtain ⟨t0, h1, h2⟩ := C48_date_early e h0
      rw [hu] at h1; cases h1
      rw [h2]; omega
    · by_cases h1 : e < 2212126096 * 1000000
      · have he := datetimeToFl_late e _ (trunc_seconds (d := e) (by omega) (by omega)) (by omega)
        rw [if_pos (by omega), hu] at he
        cases he
        unfold flSeconds
        split <;> split <;> omega
      · rw [C48_date_late e (by omega)] at hu; cases hu
  rw [key d t ht, key d' t' ht']
  omega

/-- the timestamp of 2024-05-06 07:08:09.5 UTC -/
example : datetimeToFl (1714979289 * 1000000 + 500000) = .ok (-497146807) ∧ IsInt32 (-497146807) ∧
    flSeconds (-497146807) = 1714979289 ∧ convertTimestamp (-497146807) = .ok (1714979289 * 1000000) := by
  have h1 : flSeconds (-497146807) = 1714979289 := by decide
  have h2 : IsInt32 (-497146807) := by decide
  obtain ⟨t, ht, hi, hc⟩ := C48_date_round_trip (1714979289 * 1000000 + 500000) (by norm_num) (by norm_num)
  have h3 : t = -497146807 := by
    rw [C48_timestamp_meaning t hi] at hc
    have := Except.ok.inj hc
    unfold flSeconds at this; unfold IsInt32 at hi
    split at this <;> omega
  subst h3
  refine ⟨ht, h2, h1, ?_⟩
  rw [C48_timestamp_meaning _ h2, h1]; rfl

end Verif.Props
