import Verif.Model.Float
import Mathlib.Tactic.Linarith
import Mathlib.Tactic.FieldSimp
import Mathlib.Tactic.Ring
import Mathlib.Tactic.NormNum
import Mathlib.Tactic.Positivity
/-! Rounding errors. -/
set_option autoImplicit false
namespace Verif

theorem roundEven_err (q : Rat) : |(roundEven q : Rat) - q| ≤ 1 / 2 := by
  have h1 := Int.floor_le q
  have h2 := Int.lt_floor_add_one q
  unfold roundEven
  split
  · rw [abs_le]; constructor <;> linarith
  · split
    · rw [abs_le]; push_cast; constructor <;> linarith
    · split <;> rw [abs_le] <;> push_cast <;> constructor <;> linarith

theorem roundEven_near {q : Rat} {v : Int} (h : |q - v| < 1 / 2) : roundEven q = v := by
  have h1 := roundEven_err q
  have h3 : |(roundEven q : Rat) - v| < 1 := by
    have : (roundEven q : Rat) - v = ((roundEven q : Rat) - q) + (q - v) := by ring
    rw [this]
    refine lt_of_le_of_lt (abs_add_le _ _) ?_
    linarith
  have h4 : |roundEven q - v| < 1 := by exact_mod_cast h3
  have h5 := Int.abs_lt_one_iff.1 h4
  omega

theorem fl_err (q : Rat) : |fl q - q| ≤ |q| / 2 ^ 53 := by
  unfold fl
  split
  · next h => subst h; simp
  · next h =>
    have hpos : 0 < |q| := abs_pos.2 h
    have hlog := Int.zpow_log_le_self (b := 2) (by norm_num) hpos
    push_cast at hlog
    set e := Int.log 2 |q| with he
    have h2 : (0 : Rat) < 2 ^ (e - 52) := zpow_pos (by norm_num) _
    have hr := roundEven_err (q / (2 : Rat) ^ (e - 52))
    have hq : q = q / (2 : Rat) ^ (e - 52) * 2 ^ (e - 52) := by
      field_simp
    have : (roundEven (q / (2 : Rat) ^ (e - 52)) : Rat) * 2 ^ (e - 52) - q =
        ((roundEven (q / (2 : Rat) ^ (e - 52)) : Rat) - q / (2 : Rat) ^ (e - 52)) * 2 ^ (e - 52) := by
      rw [sub_mul, ← hq]
    rw [this, abs_mul, abs_of_pos h2]
    have hz : (2 : Rat) ^ (e - 52) = 2 ^ e / 2 ^ 52 := by
      rw [zpow_sub₀ (by norm_num)]; norm_cast
    calc _ ≤ 1 / 2 * (2 : Rat) ^ (e - 52) := by
          exact mul_le_mul_of_nonneg_right hr (le_of_lt h2)
      _ = 2 ^ e / 2 ^ 53 := by rw [hz]; ring
      _ ≤ |q| / 2 ^ 53 := by
          exact div_le_div_of_nonneg_right hlog (by positivity)

/-- dividing and multiplying by a positive integer gives back the integer up to a tiny relative error -/
theorem fmul_fdiv_err (v n : Int) (hn : 0 < n) : |fmul (fdiv v n) n - v| ≤ |(v : Rat)| / 2 ^ 51 := by
  have hnq : (0 : Rat) < n := by exact_mod_cast hn
  unfold fmul fdiv
  set x : Rat := (v : Rat) / n with hx
  have e1 := fl_err x
  have e2 := fl_err (fl x * n)
  have hv : (v : Rat) = x * n := by rw [hx]; field_simp
  have h1 : |fl x * n - v| ≤ |(v : Rat)| / 2 ^ 53 := by
    have : fl x * n - v = (fl x - x) * n := by rw [hv]; ring
    rw [this, abs_mul]
    calc |fl x - x| * |(n : Rat)| ≤ |x| / 2 ^ 53 * |(n : Rat)| :=
          mul_le_mul_of_nonneg_right e1 (abs_nonneg _)
      _ = |(v : Rat)| / 2 ^ 53 := by rw [hv, abs_mul]; ring
  have h2 : |fl x * n| ≤ |(v : Rat)| + |(v : Rat)| / 2 ^ 53 := by
    have : fl x * n = (fl x * n - v) + v := by ring
    rw [this]
    refine (abs_add_le _ _).trans ?_
    linarith
  have h3 : |fl (fl x * n) - v| ≤ |fl (fl x * n) - fl x * n| + |fl x * n - v| := by
    have : fl (fl x * n) - v = (fl (fl x * n) - fl x * n) + (fl x * n - v) := by ring
    rw [this]; exact abs_add_le _ _
  have h0 : 0 ≤ |(v : Rat)| := abs_nonneg _
  have hp : (2 : Rat) ^ 53 = 9007199254740992 := by norm_num
  have hp' : (2 : Rat) ^ 51 = 2251799813685248 := by norm_num
  rw [hp] at *
  rw [hp']
  have e2' : |fl (fl x * n) - fl x * n| ≤ (|(v : Rat)| + |(v : Rat)| / 9007199254740992) / 9007199254740992 :=
    e2.trans (div_le_div_of_nonneg_right h2 (by norm_num))
  refine h3.trans ((add_le_add e2' h1).trans ?_)
  linarith

theorem abs_cast_le {v : Int} (h : -2147483648 ≤ v ∧ v ≤ 2147483647) : |(v : Rat)| ≤ 2147483648 := by
  have : |v| ≤ 2147483648 := by rw [abs_le]; omega
  exact_mod_cast this

/-- `round((v / n) * n) = v` for 32-bit integers -/
theorem round_restores {v n : Int} (hn : 0 < n) (h : -2147483648 ≤ v ∧ v ≤ 2147483647) :
    roundEven (fmul (fdiv v n) n) = v := by
  apply roundEven_near
  refine lt_of_le_of_lt (fmul_fdiv_err v n hn) ?_
  have := abs_cast_le h
  have hp : (2 : Rat) ^ 51 = 2251799813685248 := by norm_num
  rw [hp]
  linarith

/-- `int((v / n) * n)` is off by at most one -/
theorem trunc_near {v n : Int} (hn : 0 < n) (h : -2147483648 ≤ v ∧ v ≤ 2147483647) :
    |truncInt (fmul (fdiv v n) n) - v| ≤ 1 := by
  have he : |fmul (fdiv v n) n - v| < 1 := by
    refine lt_of_le_of_lt (fmul_fdiv_err v n hn) ?_
    have := abs_cast_le h
    have hp : (2 : Rat) ^ 51 = 2251799813685248 := by norm_num
    rw [hp]; linarith
  generalize fmul (fdiv v n) n = x at *
  rw [abs_lt] at he
  unfold truncInt
  split
  · have h1 := Int.floor_le x
    have h2 := Int.lt_floor_add_one x
    have a : ((⌊x⌋ - v : Int) : Rat) < 2 := by push_cast; linarith
    have b : (-2 : Rat) < ((⌊x⌋ - v : Int) : Rat) := by push_cast; linarith
    have a' : ⌊x⌋ - v < 2 := by exact_mod_cast a
    have b' : -2 < ⌊x⌋ - v := by exact_mod_cast b
    rw [abs_le]; omega
  · have h1 := Int.floor_le (-x)
    have h2 := Int.lt_floor_add_one (-x)
    have a : ((-⌊-x⌋ - v : Int) : Rat) < 2 := by push_cast; linarith
    have b : (-2 : Rat) < ((-⌊-x⌋ - v : Int) : Rat) := by push_cast; linarith
    have a' : -⌊-x⌋ - v < 2 := by exact_mod_cast a
    have b' : -2 < -⌊-x⌋ - v := by exact_mod_cast b
    rw [abs_le]; omega

theorem roundEven_int (v : Int) : roundEven (v : Rat) = v := roundEven_near (by simp)

/-- integers of up to 53 bits are exact -/
theorem fl_int {v : Int} (h : |v| < 9007199254740992) : fl (v : Rat) = v := by
  unfold fl
  split
  · next h0 => rw [h0]
  · next h0 =>
    have hv : v ≠ 0 := by exact_mod_cast h0
    have hpos : 0 < |v| := abs_pos.2 hv
    have hq : |(v : Rat)| = ((|v|.toNat : Nat) : Rat) := by
      rw [← Int.cast_abs]
      have : ((|v|.toNat : Nat) : Int) = |v| := Int.toNat_of_nonneg (le_of_lt hpos)
      rw [← Int.cast_natCast, this]
    have hlog : Int.log 2 |(v : Rat)| = (Nat.log 2 |v|.toNat : Nat) := by
      rw [hq, Int.log_natCast]
    have hle : Nat.log 2 |v|.toNat ≤ 52 := by
      have : Nat.log 2 |v|.toNat < 53 := by
        apply Nat.log_lt_of_lt_pow
        · omega
        · have : (2 : Nat) ^ 53 = 9007199254740992 := by norm_num
          omega
      omega
    obtain ⟨k, hk⟩ : ∃ k : Nat, Int.log 2 |(v : Rat)| - 52 = -(k : Int) := ⟨52 - Nat.log 2 |v|.toNat, by rw [hlog]; omega⟩
    rw [hk, zpow_neg, zpow_natCast, div_inv_eq_mul]
    have : (v : Rat) * 2 ^ k = ((v * 2 ^ k : Int) : Rat) := by push_cast; ring
    rw [this, roundEven_int]
    push_cast
    field_simp

theorem truncInt_int (v : Int) : truncInt (v : Rat) = v := by
  unfold truncInt
  split
  · simp
  · rw [← Int.cast_neg, Int.floor_intCast, neg_neg]

/-- `int((v / n) * n)` is `v`, or `v` moved by one towards zero -/
theorem trunc_toward {v n : Int} (hn : 0 < n) (h : -2147483648 ≤ v ∧ v ≤ 2147483647) :
    (0 ≤ v → v - 1 ≤ truncInt (fmul (fdiv v n) n) ∧ truncInt (fmul (fdiv v n) n) ≤ v) ∧
    (v ≤ 0 → v ≤ truncInt (fmul (fdiv v n) n) ∧ truncInt (fmul (fdiv v n) n) ≤ v + 1) := by
  have he : |fmul (fdiv v n) n - v| < 1 := by
    refine lt_of_le_of_lt (fmul_fdiv_err v n hn) ?_
    have := abs_cast_le h
    have hp : (2 : Rat) ^ 51 = 2251799813685248 := by norm_num
    rw [hp]; linarith
  have h0 : v = 0 → fmul (fdiv v n) n = 0 := by rintro rfl; simp [fmul, fdiv, fl]
  generalize fmul (fdiv v n) n = x at *
  rw [abs_lt] at he
  unfold truncInt
  constructor
  · intro hv
    rcases eq_or_lt_of_le hv with rfl | hv
    · rw [h0 rfl]; simp
    · have hv1 : (1 : Rat) ≤ v := by exact_mod_cast hv
      rw [if_pos (by linarith)]
      constructor
      · rw [Int.le_floor]; push_cast; linarith
      · have : ⌊x⌋ < v + 1 := by rw [Int.floor_lt]; push_cast; linarith
        omega
  · intro hv
    rcases eq_or_lt_of_le hv with rfl | hv
    · rw [h0 rfl]; simp
    · have hv1 : (v : Rat) ≤ -1 := by exact_mod_cast (by omega : v ≤ -1)
      rw [if_neg (by linarith)]
      constructor
      · have : ⌊-x⌋ < -v + 1 := by rw [Int.floor_lt]; push_cast; linarith
        omega
      · have : -v - 1 ≤ ⌊-x⌋ := by rw [Int.le_floor]; push_cast; linarith
        omega

/-- truncation is off by less than one -/
theorem truncInt_err (x : Rat) : |(truncInt x : Rat) - x| < 1 := by
  unfold truncInt
  split
  · have h1 := Int.floor_le x
    have h2 := Int.lt_floor_add_one x
    rw [abs_lt]; constructor <;> linarith
  · have h1 := Int.floor_le (-x)
    have h2 := Int.lt_floor_add_one (-x)
    rw [abs_lt]; push_cast; constructor <;> linarith

end Verif
