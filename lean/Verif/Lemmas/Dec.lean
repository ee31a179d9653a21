import Verif.Py
/-! Lemmas about decimal numbers -/
set_option autoImplicit false
namespace Verif

theorem natDecAux_inj (f g a b : Nat) (ha : a < f) (hb : b < g) (h : natDecAux f a = natDecAux g b) : a = b := by
  induction f generalizing g a b with
  | zero => omega
  | succ f ih =>
    cases g with
    | zero => omega
    | succ g =>
      have len : ∀ f n, n < f → 0 < (natDecAux f n).length := by
        intro f n hn
        cases f with
        | zero => omega
        | succ f => unfold natDecAux; split <;> simp
      rw [natDecAux, natDecAux] at h
      by_cases h1 : a < 10 <;> by_cases h2 : b < 10
      · rw [if_pos h1, if_pos h2] at h
        simp only [List.cons.injEq, and_true] at h
        omega
      · rw [if_pos h1, if_neg h2] at h
        have h3 := congrArg List.length h
        have h4 := len g (b / 10) (by omega)
        rw [List.length_append, List.length_singleton, List.length_singleton] at h3
        omega
      · rw [if_neg h1, if_pos h2] at h
        have h3 := congrArg List.length h
        have h4 := len f (a / 10) (by omega)
        rw [List.length_append, List.length_singleton, List.length_singleton] at h3
        omega
      · rw [if_neg h1, if_neg h2] at h
        obtain ⟨h3, h4⟩ := List.append_inj' h rfl
        simp only [List.cons.injEq, and_true] at h4
        have := ih g (a / 10) (b / 10) (by omega) (by omega) h3
        omega

theorem natDec_inj {a b : Nat} (h : natDec a = natDec b) : a = b := natDecAux_inj _ _ _ _ (by omega) (by omega) h

/-- the digits of a number are digits -/
theorem natDecAux_digits (f n : Nat) : ∀ c ∈ natDecAux f n, 48 ≤ c ∧ c ≤ 57 := by
  induction f generalizing n with
  | zero => intro c hc; cases hc
  | succ f ih =>
    intro c hc
    rw [natDecAux] at hc
    by_cases h : n < 10
    · rw [if_pos h] at hc; simp at hc; omega
    · rw [if_neg h, List.mem_append] at hc
      rcases hc with hc | hc
      · exact ih _ c hc
      · simp at hc; omega

theorem natDec_digits (n : Nat) : ∀ c ∈ natDec n, 48 ≤ c ∧ c ≤ 57 := natDecAux_digits _ _

theorem natDecAux_ne_nil (f n : Nat) (h : n < f) : natDecAux f n ≠ [] := by
  cases f with
  | zero => omega
  | succ f => rw [natDecAux]; split <;> simp

theorem natDec_ne_nil (n : Nat) : natDec n ≠ [] := natDecAux_ne_nil _ _ (by omega)

/-- a number of at least ten does not begin with the digit 0 -/
theorem natDecAux_head (f n : Nat) (h : n < f) (hn : 0 < n) : ∃ c l, natDecAux f n = c :: l ∧ 49 ≤ c := by
  induction f generalizing n with
  | zero => omega
  | succ f ih =>
    rw [natDecAux]
    by_cases h1 : n < 10
    · rw [if_pos h1]; exact ⟨_, _, rfl, by omega⟩
    · rw [if_neg h1]
      obtain ⟨c, l, hc, hl⟩ := ih (n / 10) (by omega) (by omega)
      rw [hc]; exact ⟨c, _, rfl, hl⟩

theorem natDec_head (n : Nat) (hn : 0 < n) : ∃ c l, natDec n = c :: l ∧ 49 ≤ c := natDecAux_head _ _ (by omega) hn

theorem intDec_inj {a b : Int} (h : intDec a = intDec b) : a = b := by
  unfold intDec at h
  by_cases ha : a < 0 <;> by_cases hb : b < 0
  · rw [if_pos ha, if_pos hb] at h
    have := natDec_inj (List.cons.inj h).2; omega
  · rw [if_pos ha, if_neg hb] at h
    have := natDec_digits b.natAbs 45 (by rw [← h]; simp); omega
  · rw [if_neg ha, if_pos hb] at h
    have := natDec_digits a.natAbs 45 (by rw [h]; simp); omega
  · rw [if_neg ha, if_neg hb] at h
    have := natDec_inj h; omega

end Verif
