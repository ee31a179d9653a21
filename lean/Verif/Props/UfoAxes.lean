import Verif.Props.UfoDesign
/-! C74: axis mappings. -/
set_option autoImplicit false
set_option maxRecDepth 4000
namespace Verif.Props
open Verif Verif.Spec

/-! ### the order of doubles -/

/-- the value of a positive finite double as a function of its bits -/
def posVal (n : Nat) : Rat :=
  if n / 2 ^ 52 = 0 then (n : Rat) * (2 : Rat) ^ (-1074 : Int)
  else ((2 ^ 52 + n % 2 ^ 52 : Nat) : Rat) * (2 : Rat) ^ (((n / 2 ^ 52 : Nat) : Int) - 1075)

theorem posVal_nonneg (n : Nat) : 0 ≤ posVal n := by
  unfold posVal
  split
  · exact mul_nonneg (Nat.cast_nonneg _) (zpow_nonneg (by norm_num) _)
  · exact mul_nonneg (Nat.cast_nonneg _) (zpow_nonneg (by norm_num) _)

theorem posVal_lt_pow {n e : Nat} (h : n / 2 ^ 52 ≤ e) : posVal n < (2 : Rat) ^ (52 : Int) * (2 : Rat) ^ ((e : Int) + 1 - 1075) := by
  have h2 : (0 : Rat) < 2 := by norm_num
  unfold posVal
  split
  · rename_i h0
    have hn : n < 2 ^ 52 := by omega
    have : (n : Rat) < (2 : Rat) ^ (52 : Int) := by
      have : ((n : Nat) : Rat) < ((2 ^ 52 : Nat) : Rat) := by exact_mod_cast hn
      rw [show ((2 : Rat) ^ (52 : Int)) = ((2 ^ 52 : Nat) : Rat) by norm_num]
      exact this
    calc (n : Rat) * (2 : Rat) ^ (-1074 : Int) < (2 : Rat) ^ (52 : Int) * (2 : Rat) ^ (-1074 : Int) :=
          mul_lt_mul_of_pos_right this (zpow_pos h2 _)
      _ ≤ (2 : Rat) ^ (52 : Int) * (2 : Rat) ^ ((e : Int) + 1 - 1075) :=
          mul_le_mul_of_nonneg_left (zpow_le_zpow_right₀ (by norm_num) (by omega)) (zpow_nonneg (by norm_num) _)
  · have hn : 2 ^ 52 + n % 2 ^ 52 < 2 ^ 53 := by omega
    have : ((2 ^ 52 + n % 2 ^ 52 : Nat) : Rat) < (2 : Rat) ^ (53 : Int) := by
      have : ((2 ^ 52 + n % 2 ^ 52 : Nat) : Rat) < ((2 ^ 53 : Nat) : Rat) := by exact_mod_cast hn
      rw [show ((2 : Rat) ^ (53 : Int)) = ((2 ^ 53 : Nat) : Rat) by norm_num]
      exact this
    calc ((2 ^ 52 + n % 2 ^ 52 : Nat) : Rat) * (2 : Rat) ^ (((n / 2 ^ 52 : Nat) : Int) - 1075)
          < (2 : Rat) ^ (53 : Int) * (2 : Rat) ^ (((n / 2 ^ 52 : Nat) : Int) - 1075) := mul_lt_mul_of_pos_right this (zpow_pos h2 _)
      _ = (2 : Rat) ^ (52 : Int) * (2 : Rat) ^ (((n / 2 ^ 52 : Nat) : Int) + 1 - 1075) := by
          rw [← zpow_add₀ (by norm_num), ← zpow_add₀ (by norm_num)]; congr 1; ring
      _ ≤ _ := mul_le_mul_of_nonneg_left (zpow_le_zpow_right₀ (by norm_num) (by omega)) (zpow_nonneg (by norm_num) _)

theorem posVal_lt {a b : Nat} (h : a < b) : posVal a < posVal b := by
  by_cases he : a / 2 ^ 52 = b / 2 ^ 52
  · unfold posVal
    rw [← he]
    split
    · exact mul_lt_mul_of_pos_right (by exact_mod_cast h) (zpow_pos (by norm_num) _)
    · apply mul_lt_mul_of_pos_right _ (zpow_pos (by norm_num) _)
      have : 2 ^ 52 + a % 2 ^ 52 < 2 ^ 52 + b % 2 ^ 52 := by omega
      exact_mod_cast this
  · have hlt : a / 2 ^ 52 < b / 2 ^ 52 := lt_of_le_of_ne (Nat.div_le_div_right h.le) he
    have h1 := posVal_lt_pow (n := a) (e := b / 2 ^ 52 - 1) (by omega)
    refine lt_of_lt_of_le h1 ?_
    unfold posVal
    rw [if_neg (by omega)]
    have e1 : (((b / 2 ^ 52 - 1 : Nat) : Int) + 1 - 1075) = ((b / 2 ^ 52 : Nat) : Int) - 1075 := by omega
    rw [e1]
    apply mul_le_mul_of_nonneg_right _ (zpow_nonneg (by norm_num) _)
    have : ((2 ^ 52 : Nat) : Rat) ≤ ((2 ^ 52 + b % 2 ^ 52 : Nat) : Rat) := by exact_mod_cast Nat.le_add_right _ _
    rw [show ((2 : Rat) ^ (52 : Int)) = ((2 ^ 52 : Nat) : Rat) by norm_num]
    exact this

theorem toRat_eq {d : Dbl} {x : Rat} (h : d.toRat = some x) :
    d.isNan = false ∧ x = if d.bits.toNat / 2 ^ 63 = 1 then -posVal (d.bits.toNat % 2 ^ 63) else posVal (d.bits.toNat % 2 ^ 63) := by
  unfold Dbl.toRat at h
  dsimp only at h
  have hn : d.bits.toNat % 2 ^ 63 / 2 ^ 52 = d.bits.toNat / 2 ^ 52 % 2048 := by omega
  have hm : d.bits.toNat % 2 ^ 63 % 2 ^ 52 = d.bits.toNat % 2 ^ 52 := by omega
  by_cases h1 : d.bits.toNat / 2 ^ 52 % 2048 = 2047
  · rw [if_pos h1] at h; cases h
  · rw [if_neg h1] at h
    refine ⟨by unfold Dbl.isNan; rw [beq_false_of_ne h1]; rfl, ?_⟩
    unfold posVal
    rw [hn, hm]
    by_cases h2 : d.bits.toNat / 2 ^ 52 % 2048 = 0
    · rw [if_pos h2] at h
      rw [if_pos h2]
      have h3 : d.bits.toNat % 2 ^ 63 = d.bits.toNat % 2 ^ 52 := by omega
      rw [h3]
      cases h
      split <;> ring
    · rw [if_neg h2] at h
      rw [if_neg h2]
      cases h
      split <;> ring

/-- **C74.** The order of the bit patterns that the model uses is the order of the numbers. -/
theorem C74_order {a b : Dbl} {x y : Rat} (ha : a.toRat = some x) (hb : b.toRat = some y) : Dbl.lt a b = true ↔ x < y := by
  obtain ⟨na, hx⟩ := toRat_eq ha
  obtain ⟨nb, hy⟩ := toRat_eq hb
  unfold Dbl.lt
  rw [na, nb]
  simp only [Bool.not_false, Bool.true_and, decide_eq_true_eq]
  unfold Dbl.rank
  rw [hx, hy]
  have key : ∀ {m n : Nat}, posVal m < posVal n ↔ m < n := by
    intro m n
    constructor
    · intro h
      by_contra hc
      rcases Nat.lt_or_ge n m with h2 | h2
      · exact absurd (posVal_lt h2) (not_lt.2 h.le)
      · have : m = n := by omega
        subst this
        exact lt_irrefl _ h
    · exact posVal_lt
  have key0 : ∀ {n : Nat}, 0 < posVal n ↔ 0 < n := by
    intro n
    have h0 : posVal 0 = 0 := by unfold posVal; simp
    have := key (m := 0) (n := n)
    rwa [h0] at this
  generalize d1 : a.bits.toNat % 2 ^ 63 = m
  generalize d2 : b.bits.toNat % 2 ^ 63 = n
  by_cases sa : a.bits.toNat / 2 ^ 63 = 1 <;> by_cases sb : b.bits.toNat / 2 ^ 63 = 1
  · rw [if_pos sa, if_pos sb, if_pos sa, if_pos sb, neg_lt_neg_iff, neg_lt_neg_iff, key]; omega
  · rw [if_pos sa, if_neg sb, if_pos sa, if_neg sb]
    constructor
    · intro h
      have : 0 < m ∨ 0 < n := by omega
      rcases this with h1 | h1
      · have := key0.2 h1
        have := posVal_nonneg n
        linarith
      · have := key0.2 h1
        have := posVal_nonneg m
        linarith
    · intro h
      by_contra hc
      have h1 : m = 0 := by omega
      have h2 : n = 0 := by omega
      subst h1 h2
      have h0 : posVal 0 = 0 := by unfold posVal; simp
      rw [h0] at h
      simp at h
  · rw [if_neg sa, if_pos sb, if_neg sa, if_pos sb]
    constructor
    · intro h; omega
    · intro h
      have := posVal_nonneg m
      have := posVal_nonneg n
      linarith
  · rw [if_neg sa, if_neg sb, if_neg sa, if_neg sb, key]; omega

theorem dblMin_spec {l : List Dbl} (hl : l ≠ []) (hf : ∀ d ∈ l, d.toRat.isSome = true) : ∃ m, dblMin l = some m ∧ IsMin l m := by
  cases l with
  | nil => exact absurd rfl hl
  | cons d l =>
    refine ⟨_, rfl, ?_⟩
    clear hl
    have gen : ∀ (l : List Dbl) (best : Dbl), best.toRat.isSome = true → (∀ d ∈ l, d.toRat.isSome = true) →
        (l.foldl (fun best x => if Dbl.lt x best then x else best) best) ∈ best :: l ∧
        ∀ d ∈ best :: l, ∀ x y, d.toRat = some x → (l.foldl (fun best x => if Dbl.lt x best then x else best) best).toRat = some y → y ≤ x := by
      intro l
      induction l with
      | nil =>
        intro best hb _
        refine ⟨by simp, ?_⟩
        intro d hd x y hx hy
        rw [List.mem_singleton] at hd
        subst hd
        rw [List.foldl_nil, hx] at hy
        cases hy
        exact le_rfl
      | cons a l ih =>
        intro best hb hl
        rw [List.foldl_cons]
        obtain ⟨va, hva⟩ := Option.isSome_iff_exists.1 (hl a (by simp))
        obtain ⟨vb, hvb⟩ := Option.isSome_iff_exists.1 hb
        have hord := C74_order hva hvb
        by_cases hlt : Dbl.lt a best = true
        · rw [if_pos hlt]
          obtain ⟨h1, h2⟩ := ih a (hl a (by simp)) (fun d hd => hl d (by simp [hd]))
          refine ⟨List.mem_cons_of_mem _ h1, ?_⟩
          intro d hd x y hx hy
          rcases List.mem_cons.1 hd with rfl | hd
          · have := h2 a (by simp) va y hva hy
            rw [hvb] at hx
            cases hx
            have := hord.1 hlt
            linarith
          · exact h2 d hd x y hx hy
        · rw [if_neg hlt]
          obtain ⟨h1, h2⟩ := ih best hb (fun d hd => hl d (by simp [hd]))
          refine ⟨?_, ?_⟩
          · rcases List.mem_cons.1 h1 with h | h
            · rw [h]; simp
            · exact List.mem_cons_of_mem _ (List.mem_cons_of_mem _ h)
          · intro d hd x y hx hy
            rcases List.mem_cons.1 hd with rfl | hd
            · exact h2 _ (by simp) x y hx hy
            · rcases List.mem_cons.1 hd with rfl | hd
              · have := h2 best (by simp) vb y hvb hy
                rw [hva] at hx
                cases hx
                have : ¬ va < vb := fun h => hlt (hord.2 h)
                linarith
              · exact h2 d (by simp [hd]) x y hx hy
    exact gen l d (hf d (by simp)) (fun e he => hf e (by simp [he]))

theorem dblMax_spec {l : List Dbl} (hl : l ≠ []) (hf : ∀ d ∈ l, d.toRat.isSome = true) : ∃ m, dblMax l = some m ∧ IsMax l m := by
  cases l with
  | nil => exact absurd rfl hl
  | cons d l =>
    refine ⟨_, rfl, ?_⟩
    clear hl
    have gen : ∀ (l : List Dbl) (best : Dbl), best.toRat.isSome = true → (∀ d ∈ l, d.toRat.isSome = true) →
        (l.foldl (fun best x => if Dbl.lt best x then x else best) best) ∈ best :: l ∧
        ∀ d ∈ best :: l, ∀ x y, d.toRat = some x → (l.foldl (fun best x => if Dbl.lt best x then x else best) best).toRat = some y → x ≤ y := by
      intro l
      induction l with
      | nil =>
        intro best hb _
        refine ⟨by simp, ?_⟩
        intro d hd x y hx hy
        rw [List.mem_singleton] at hd
        subst hd
        rw [List.foldl_nil, hx] at hy
        cases hy
        exact le_rfl
      | cons a l ih =>
        intro best hb hl
        rw [List.foldl_cons]
        obtain ⟨va, hva⟩ := Option.isSome_iff_exists.1 (hl a (by simp))
        obtain ⟨vb, hvb⟩ := Option.isSome_iff_exists.1 hb
        have hord := C74_order hvb hva
        by_cases hlt : Dbl.lt best a = true
        · rw [if_pos hlt]
          obtain ⟨h1, h2⟩ := ih a (hl a (by simp)) (fun d hd => hl d (by simp [hd]))
          refine ⟨List.mem_cons_of_mem _ h1, ?_⟩
          intro d hd x y hx hy
          rcases List.mem_cons.1 hd with rfl | hd
          · have := h2 a (by simp) va y hva hy
            rw [hvb] at hx
            cases hx
            have := hord.1 hlt
            linarith
          · exact h2 d hd x y hx hy
        · rw [if_neg hlt]
          obtain ⟨h1, h2⟩ := ih best hb (fun d hd => hl d (by simp [hd]))
          refine ⟨?_, ?_⟩
          · rcases List.mem_cons.1 h1 with h | h
            · rw [h]; simp
            · exact List.mem_cons_of_mem _ (List.mem_cons_of_mem _ h)
          · intro d hd x y hx hy
            rcases List.mem_cons.1 hd with rfl | hd
            · exact h2 _ (by simp) x y hx hy
            · rcases List.mem_cons.1 hd with rfl | hd
              · have := h2 best (by simp) vb y hvb hy
                rw [hva] at hx
                cases hx
                have : ¬ vb < va := fun h => hlt (hord.2 h)
                linarith
              · exact h2 d (by simp [hd]) x y hx hy
    exact gen l d (hf d (by simp)) (fun e he => hf e (by simp [he]))

theorem round1000_spec {d : Dbl} {v : Int} (h : d.round1000 = .ok v) : IsRoundedPerMille d v := by
  intro x hx hb
  obtain ⟨q, hq, he⟩ := times1000_perMille d x hx hb
  unfold Dbl.round1000 at h
  rw [hq] at h
  cases h
  have h1 := roundEven_err q
  calc |(roundEven q : Rat) - 1000 * x| ≤ |(roundEven q : Rat) - q| + |q - 1000 * x| := abs_sub_le _ _ _
    _ ≤ _ := add_le_add h1 he

theorem mapAxis_spec {axis axis' : Axis} {n : Int} {data : List (Dbl × Dbl)} (h : mapAxis axis n data = .ok axis') :
    axis'.name = axis.name ∧ Mapped (data.take n.toNat) axis' := by
  unfold mapAxis at h
  cases hm : (data.take n.toNat).mapM (fun p => p.2.round1000 >>= fun d => Except.ok (p.1, d)) with
  | error e => rw [hm] at h; cases h
  | ok m =>
    rw [hm] at h
    cases h
    have hc : Corresponds (fun (p : Dbl × Dbl) (m : Dbl × Int) => m.1 = p.1 ∧ IsRoundedPerMille p.2 m.2) (data.take n.toNat) m := by
      refine corresponds_mapM ?_ hm
      intro p q hp
      cases hr : p.2.round1000 with
      | error e => rw [hr] at hp; cases hp
      | ok v => rw [hr] at hp; cases hp; exact ⟨rfl, round1000_spec hr⟩
    refine ⟨rfl, ⟨?_, ?_⟩, ?_, ?_⟩
    · apply List.ext_getElem
      · simpa using hc.1.symm
      · intro k h1 h2
        simp only [List.length_map] at h1 h2
        simp only [List.getElem_map]
        exact (hc.2 k _ _ (List.getElem?_eq_getElem h2) (List.getElem?_eq_getElem h1)).1
    · intro k p q hp hq
      exact (hc.2 k p q hp hq).2
    · intro hf hne
      have hf' : ∀ d ∈ (data.take n.toNat).map Prod.fst, d.toRat.isSome = true := by
        intro d hd
        obtain ⟨p, hp, rfl⟩ := List.mem_map.1 hd
        exact hf p hp
      obtain ⟨mn, h1, h2⟩ := dblMin_spec (l := (data.take n.toNat).map Prod.fst) (by simpa using hne) hf'
      obtain ⟨mx, h3, h4⟩ := dblMax_spec (l := (data.take n.toNat).map Prod.fst) (by simpa using hne) hf'
      refine ⟨mn, mx, ?_, ?_, ?_, h2, h4⟩
      · show some ((dblMin ((data.take n.toNat).map Prod.fst)).getD dbl0) = _
        rw [h1]; rfl
      · show some ((dblMin ((data.take n.toNat).map Prod.fst)).getD dbl0) = _
        rw [h1]; rfl
      · show some ((dblMax ((data.take n.toNat).map Prod.fst)).getD dbl1000) = _
        rw [h3]; rfl
    · intro he
      refine ⟨dbl0, dbl1000, ?_, ?_, ?_, by decide +kernel, by decide +kernel⟩
      · show some ((dblMin ((data.take n.toNat).map Prod.fst)).getD dbl0) = _
        rw [he]; rfl
      · show some ((dblMin ((data.take n.toNat).map Prod.fst)).getD dbl0) = _
        rw [he]; rfl
      · show some ((dblMax ((data.take n.toNat).map Prod.fst)).getD dbl1000) = _
        rw [he]; rfl

theorem mapAxes_spec {counts : List Int} : ∀ (k i : Nat) (axes axes' : List Axis) (data : List (Dbl × Dbl)),
    mapAxes counts k i axes data = .ok axes' → axes'.length = axes.length ∧
      ∀ j, (j < i ∨ i + k ≤ j → axes'[j]? = axes[j]?) ∧
        (∀ d : Nat, j = i + d → d < k → ∃ n, counts[j]? = some n ∧ (n ≤ 0 → axes'[j]? = axes[j]?) ∧
          (0 < n → ∃ a a', axes[j]? = some a ∧ axes'[j]? = some a' ∧ a'.name = a.name ∧ Mapped ((data.drop (10 * d)).take n.toNat) a')) := by
  intro k
  induction k with
  | zero =>
    intro i axes axes' data h
    cases h
    refine ⟨rfl, fun j => ⟨fun _ => rfl, fun d _ hd => by omega⟩⟩
  | succ k ih =>
    intro i axes axes' data h
    rw [mapAxes] at h
    cases hn : pyIndex counts (i : Int) with
    | error e => rw [hn] at h; cases h
    | ok n =>
      rw [hn] at h
      replace h : (if 0 < n then pyIndex axes i >>= fun axis => mapAxis axis n data >>= fun axis =>
        mapAxes counts k (i + 1) (axes.set i axis) (data.drop 10) else mapAxes counts k (i + 1) axes (data.drop 10)) = .ok axes' := h
      have hn' := pyIndex_get?.1 hn
      by_cases hp : 0 < n
      · rw [if_pos hp] at h
        cases hx : pyIndex axes (i : Int) with
        | error e => rw [hx] at h; cases h
        | ok axis =>
          rw [hx] at h
          replace h : (mapAxis axis n data >>= fun axis => mapAxes counts k (i + 1) (axes.set i axis) (data.drop 10)) = .ok axes' := h
          cases hm : mapAxis axis n data with
          | error e => rw [hm] at h; cases h
          | ok axis' =>
            rw [hm] at h
            obtain ⟨h1, h2⟩ := ih _ _ _ _ h
            obtain ⟨g1, g2⟩ := mapAxis_spec hm
            have hx' := pyIndex_get?.1 hx
            have hlt := (List.getElem?_eq_some_iff.1 hx').1
            refine ⟨by rw [h1, List.length_set], fun j => ⟨?_, ?_⟩⟩
            · intro hj
              rw [(h2 j).1 (by omega), List.getElem?_set_ne (by omega)]
            · intro d hd hdk
              cases d with
              | zero =>
                obtain rfl : j = i := by omega
                refine ⟨n, hn', fun h0 => by omega, fun _ => ⟨axis, axis', hx', ?_, g1, by simpa using g2⟩⟩
                rw [(h2 j).1 (by omega), List.getElem?_set_self hlt]
              | succ d =>
                obtain ⟨n', e1, e2, e3⟩ := (h2 j).2 d (by omega) (by omega)
                have hset : (axes.set i axis')[j]? = axes[j]? := List.getElem?_set_ne (by omega)
                rw [hset] at e2 e3
                rw [List.drop_drop, show 10 + 10 * d = 10 * (d + 1) by ring] at e3
                exact ⟨n', e1, e2, e3⟩
      · rw [if_neg hp] at h
        obtain ⟨h1, h2⟩ := ih _ _ _ _ h
        refine ⟨h1, fun j => ⟨fun hj => (h2 j).1 (by omega), ?_⟩⟩
        intro d hd hdk
        cases d with
        | zero =>
          obtain rfl : j = i := by omega
          exact ⟨n, hn', fun _ => (h2 _).1 (by omega), fun h0 => absurd h0 hp⟩
        | succ d =>
          obtain ⟨n', e1, e2, e3⟩ := (h2 j).2 d (by omega) (by omega)
          rw [List.drop_drop, show 10 + 10 * d = 10 * (d + 1) by ring] at e3
          exact ⟨n', e1, e2, e3⟩

/-- **C74.** When axis mappings are stored, each axis with a positive number `n` of mappings gets the first `n` of the ten that belong to
it, and its range from them; the other axes are left alone. -/
theorem C74_mappings {axisCount : Int} {counts : Option (List Int)} {axes axes' : List Axis} {data : List (Dbl × Dbl)}
    (h : addAxisMappings axisCount counts axes data = .ok axes') :
    ∃ cs, counts = some cs ∧ axes'.length = axes.length ∧ ∀ j : Nat,
      (axisCount ≤ j → axes'[j]? = axes[j]?) ∧
      (j < axisCount → ∃ n, cs[j]? = some n ∧ (n ≤ 0 → axes'[j]? = axes[j]?) ∧
        (0 < n → ∃ a a', axes[j]? = some a ∧ axes'[j]? = some a' ∧ a'.name = a.name ∧ Mapped (mappingsOf data j n) a')) := by
  unfold addAxisMappings at h
  cases counts with
  | none => cases h
  | some cs =>
    have h' : mapAxes cs axisCount.toNat 0 axes data = .ok axes' := by
      cases cs with
      | nil => cases h
      | cons c cs => exact h
    obtain ⟨h1, h2⟩ := mapAxes_spec _ _ _ _ _ h'
    refine ⟨cs, rfl, h1, fun j => ⟨fun hj => (h2 j).1 (by omega), fun hj => ?_⟩⟩
    obtain ⟨n, e1, e2, e3⟩ := (h2 j).2 j (by omega) (by omega)
    exact ⟨n, e1, e2, e3⟩

theorem round1000_exists {d : Dbl} : (∃ v, d.round1000 = .ok v) ↔ d.times1000.isSome = true := by
  unfold Dbl.round1000
  cases d.times1000 with
  | none => simp only [Option.isSome_none, Bool.false_eq_true, iff_false]; rintro ⟨v, h⟩; revert h; split <;> simp
  | some q => simp

/-- **C74.** The special numbers: a NaN is neither less nor greater than any number; infinity is greater, negative infinity less than every
finite number; every double is finite, infinite or a NaN. -/
theorem C74_special (d : Dbl) :
    (IsNan d → ∀ e, Dbl.lt d e = false ∧ Dbl.lt e d = false) ∧
    (d.toRat.isSome = true → Dbl.lt d posInfinity = true ∧ Dbl.lt negInfinity d = true ∧ Dbl.lt posInfinity d = false ∧ Dbl.lt d negInfinity = false) ∧
    Dbl.lt negInfinity posInfinity = true ∧ Dbl.lt posInfinity negInfinity = false ∧
    (d.toRat.isSome = true ∨ d = posInfinity ∨ d = negInfinity ∨ IsNan d) := by
  have hb := d.bits.toNat_lt
  refine ⟨?_, ?_, by decide +kernel, by decide +kernel, ?_⟩
  · rintro ⟨h1, h2⟩ e
    have : d.isNan = true := by
      unfold Dbl.isNan
      rw [h1, beq_false_of_ne h2]; rfl
    unfold Dbl.lt
    rw [this]
    simp
  · intro h
    obtain ⟨x, hx⟩ := Option.isSome_iff_exists.1 h
    obtain ⟨hn, -⟩ := toRat_eq hx
    have hne : d.bits.toNat / 2 ^ 52 % 2048 ≠ 2047 := by
      intro hc
      unfold Dbl.toRat at hx
      dsimp only at hx
      rw [if_pos hc] at hx
      cases hx
    have hp : posInfinity.isNan = false ∧ negInfinity.isNan = false := by decide +kernel
    have hr : posInfinity.rank = 0x7FF0000000000000 ∧ negInfinity.rank = -0x7FF0000000000000 := by decide +kernel
    unfold Dbl.lt
    rw [hn, hp.1, hp.2, hr.1, hr.2]
    unfold Dbl.rank
    by_cases hs : d.bits.toNat / 2 ^ 63 = 1
    · rw [if_pos hs]; simp only [Bool.not_false, Bool.true_and, decide_eq_true_eq, decide_eq_false_iff_not]; omega
    · rw [if_neg hs]; simp only [Bool.not_false, Bool.true_and, decide_eq_true_eq, decide_eq_false_iff_not]; omega
  · by_cases h1 : d.bits.toNat / 2 ^ 52 % 2048 = 2047
    · by_cases h2 : d.bits.toNat % 2 ^ 52 = 0
      · have hbit : ∀ n : UInt64, d.bits.toNat = n.toNat → d = ⟨n⟩ := by
          intro n hn
          have : d.bits = n := UInt64.toNat_inj.1 hn
          cases d
          cases this
          rfl
        by_cases hs : d.bits.toNat / 2 ^ 63 = 1
        · exact .inr (.inr (.inl (hbit _ (by show d.bits.toNat = 0xFFF0000000000000; omega))))
        · exact .inr (.inl (hbit _ (by show d.bits.toNat = 0x7FF0000000000000; omega)))
      · exact .inr (.inr (.inr ⟨h1, h2⟩))
    · refine .inl ?_
      unfold Dbl.toRat
      dsimp only
      rw [if_neg h1]
      split <;> rfl

/-- **C74.** A design coordinate that is a NaN raises ValueError, one that is infinite OverflowError. -/
theorem C74_bad_coordinate {axis : Axis} {n : Int} {pre post : List (Dbl × Dbl)} {u d : Dbl} (hn : pre.length < n)
    (hpre : ∀ p ∈ pre, p.2.times1000.isSome = true) :
    (IsNan d → mapAxis axis n (pre ++ (u, d) :: post) = .error .value) ∧
    (d = posInfinity ∨ d = negInfinity → mapAxis axis n (pre ++ (u, d) :: post) = .error .overflow) := by
  have hmap : ∀ e, d.round1000 = .error e → mapAxis axis n (pre ++ (u, d) :: post) = .error e := by
    intro e he
    obtain ⟨k, hk⟩ : ∃ k, n.toNat = pre.length + (k + 1) := ⟨n.toNat - pre.length - 1, by omega⟩
    obtain ⟨m, hm⟩ : ∃ m, pre.mapM (fun p : Dbl × Dbl => p.2.round1000 >>= fun d => (Except.ok (p.1, d) : Except PyErr _)) = .ok m := by
      rw [mapM_exists]
      intro p hp
      obtain ⟨v, hv⟩ := round1000_exists.2 (hpre p hp)
      exact ⟨_, by rw [hv]; rfl⟩
    unfold mapAxis
    rw [hk, List.take_append, List.take_of_length_le (by omega), show pre.length + (k + 1) - pre.length = k + 1 by omega, List.take_succ_cons,
      List.mapM_append, hm, List.mapM_cons]
    show (((d.round1000 >>= _) >>= _) >>= _) >>= _ = _
    rw [he]
    rfl
  constructor
  · rintro ⟨h1, h2⟩
    apply hmap
    unfold Dbl.round1000 Dbl.times1000 Dbl.toRat Dbl.isNan
    dsimp only
    rw [if_pos h1, h1, beq_false_of_ne h2]
    rfl
  · rintro (rfl | rfl) <;> exact hmap _ (by decide +kernel)

theorem mapAxis_exists {axis : Axis} {n : Int} {data : List (Dbl × Dbl)} :
    (∃ a, mapAxis axis n data = .ok a) ↔ ∀ p ∈ data.take n.toNat, p.2.times1000.isSome = true := by
  have h1 : (∃ a, mapAxis axis n data = .ok a) ↔ ∃ m, (data.take n.toNat).mapM (fun p => p.2.round1000 >>= fun d => Except.ok (p.1, d)) = .ok m := by
    unfold mapAxis
    cases hm : (data.take n.toNat).mapM (fun p => p.2.round1000 >>= fun d => Except.ok (p.1, d)) with
    | error e => simp [bind, Except.bind]
    | ok m => simp [bind, Except.bind]
  rw [h1, mapM_exists]
  refine forall_congr' fun p => forall_congr' fun _ => ?_
  rw [← round1000_exists]
  cases p.2.round1000 with
  | error e => simp [bind, Except.bind]
  | ok v => simp [bind, Except.bind]

theorem mapAxes_exists {counts : List Int} : ∀ (k i : Nat) (axes : List Axis) (data : List (Dbl × Dbl)),
    (∃ axes', mapAxes counts k i axes data = .ok axes') ↔ ∀ d : Nat, d < k → ∃ n, counts[i + d]? = some n ∧
      (0 < n → i + d < axes.length ∧ ∀ p ∈ (data.drop (10 * d)).take n.toNat, p.2.times1000.isSome = true) := by
  intro k
  induction k with
  | zero => intro i axes data; simp [mapAxes]
  | succ k ih =>
    intro i axes data
    have hsplit : ∀ P : Nat → Prop, (∀ d, d < k + 1 → P d) ↔ P 0 ∧ ∀ d, d < k → P (d + 1) := by
      intro P
      constructor
      · intro h; exact ⟨h 0 (by omega), fun d hd => h (d + 1) (by omega)⟩
      · rintro ⟨h0, h1⟩ d hd
        cases d with
        | zero => exact h0
        | succ d => exact h1 d (by omega)
    rw [hsplit]
    have hrest : ∀ d : Nat, (data.drop 10).drop (10 * d) = data.drop (10 * (d + 1)) := by
      intro d; rw [List.drop_drop]; congr 1; ring
    rw [mapAxes]
    simp only [Nat.add_zero, Nat.mul_zero, List.drop_zero]
    cases hn : counts[i]? with
    | none =>
      have : pyIndex counts (i : Int) = .error .index := by unfold pyIndex; rw [if_pos (by omega)]; simp [hn]
      rw [this]
      simp [bind, Except.bind]
    | some n =>
      rw [pyIndex_get?.2 hn]
      show (∃ axes', (if 0 < n then pyIndex axes i >>= fun axis => mapAxis axis n data >>= fun axis =>
        mapAxes counts k (i + 1) (axes.set i axis) (data.drop 10) else mapAxes counts k (i + 1) axes (data.drop 10)) = .ok axes') ↔ _
      by_cases hp : 0 < n
      · rw [if_pos hp]
        by_cases hlt : i < axes.length
        · rw [pyIndex_get?.2 (List.getElem?_eq_getElem hlt)]
          show (∃ axes', (mapAxis axes[i] n data >>= fun axis => mapAxes counts k (i + 1) (axes.set i axis) (data.drop 10)) = .ok axes') ↔ _
          have hma := mapAxis_exists (axis := axes[i]) (n := n) (data := data)
          cases hm : mapAxis axes[i] n data with
          | error e =>
            rw [hm] at hma
            constructor
            · rintro ⟨a, ha⟩; cases ha
            · rintro ⟨⟨n', h1, h2⟩, -⟩
              cases h1
              obtain ⟨a, ha⟩ := hma.2 (h2 hp).2
              cases ha
          | ok axis' =>
            rw [hm] at hma
            show (∃ axes', mapAxes counts k (i + 1) (axes.set i axis') (data.drop 10) = .ok axes') ↔ _
            rw [ih]
            simp only [hrest, List.length_set]
            constructor
            · intro h
              refine ⟨⟨n, rfl, fun _ => ⟨hlt, hma.1 ⟨_, rfl⟩⟩⟩, fun d hd => ?_⟩
              obtain ⟨n', h1, h2⟩ := h d hd
              exact ⟨n', by rw [← h1]; congr 1; omega, fun h0 => ⟨by have := (h2 h0).1; omega, (h2 h0).2⟩⟩
            · rintro ⟨-, h⟩ d hd
              obtain ⟨n', h1, h2⟩ := h d hd
              exact ⟨n', by rw [← h1]; congr 1; omega, fun h0 => ⟨by have := (h2 h0).1; omega, (h2 h0).2⟩⟩
        · have : pyIndex axes (i : Int) = .error .index := by
            unfold pyIndex; rw [if_pos (by omega)]; simp only [Int.toNat_natCast]; rw [List.getElem?_eq_none (by omega)]
          rw [this]
          constructor
          · rintro ⟨a, ha⟩; cases ha
          · rintro ⟨⟨n', h1, h2⟩, -⟩
            cases h1
            exact absurd (h2 hp).1 hlt
      · rw [if_neg hp, ih]
        simp only [hrest]
        constructor
        · intro h
          refine ⟨⟨n, rfl, fun h0 => absurd h0 hp⟩, fun d hd => ?_⟩
          obtain ⟨n', h1, h2⟩ := h d hd
          exact ⟨n', by rw [← h1]; congr 1; omega, fun h0 => ⟨by have := (h2 h0).1; omega, (h2 h0).2⟩⟩
        · rintro ⟨-, h⟩ d hd
          obtain ⟨n', h1, h2⟩ := h d hd
          exact ⟨n', by rw [← h1]; congr 1; omega, fun h0 => ⟨by have := (h2 h0).1; omega, (h2 h0).2⟩⟩

/-- **C74.** Exactly when axis mappings are accepted: the numbers of mappings must have come before, for all axes, and for an axis with
mappings its name must have come before, and the mappings must be finite. -/
theorem C74_success {axisCount : Int} {counts : Option (List Int)} {axes : List Axis} {data : List (Dbl × Dbl)} :
    (∃ axes', addAxisMappings axisCount counts axes data = .ok axes') ↔
      ∃ cs, counts = some cs ∧ cs ≠ [] ∧ ∀ j : Nat, j < axisCount → ∃ n, cs[j]? = some n ∧
        (0 < n → j < axes.length ∧ ∀ p ∈ mappingsOf data j n, p.2.times1000.isSome = true) := by
  unfold addAxisMappings
  cases counts with
  | none => simp
  | some cs =>
    cases cs with
    | nil => simp
    | cons c cs =>
      show (∃ axes', mapAxes (c :: cs) axisCount.toNat 0 axes data = .ok axes') ↔ _
      rw [mapAxes_exists]
      constructor
      · intro h
        refine ⟨c :: cs, rfl, by simp, fun j hj => ?_⟩
        obtain ⟨n, h1, h2⟩ := h j (by omega)
        exact ⟨n, by simpa using h1, fun h0 => by simpa [mappingsOf] using h2 h0⟩
      · rintro ⟨cs', h1, -, h2⟩ d hd
        cases h1
        obtain ⟨n, h3, h4⟩ := h2 d (by omega)
        exact ⟨n, by simpa using h3, fun h0 => by simpa [mappingsOf] using h4 h0⟩

section
variable {ops : AngleOps} {asm : AsmOps}

theorem axesNames_of {axisCount : Int} {counts : Option (List Int)} {axes axes' : List Axis} {data : List (Dbl × Dbl)}
    (h : addAxisMappings axisCount counts axes data = .ok axes') : axes'.map Axis.name = axes.map Axis.name := by
  unfold addAxisMappings at h
  cases counts with
  | none => cases h
  | some cs =>
    cases cs with
    | nil => cases h
    | cons c cs => exact mapAxes_names _ _ _ _ _ _ h

/-- entries other than axis names and mappings do not concern the axes -/
theorem masterStep_axes {o : BuildOpts} {st st' : MastersPart ops.Angle} {e : FEntry ops asm} (h : masterStep ops asm o st e = .ok st')
    (h1 : e.1 ≠ 1514) (h2 : e.1 ≠ 1516) : st'.axes = st.axes := by
  rcases masterStep_cases h with ⟨rfl, -⟩ | ⟨d, hed, -, he⟩
  · rfl
  · clear h hed
    unfold masterEntry at he
    generalize e.1 = id at *
    by_cases h3 : id = 1523
    · subst h3
      norm_num at he
      cases d <;> first | (cases he; done) | skip
      rename_i l
      replace he : (checkAniso st.axisCount st.axes l >>= fun _ => Except.ok st) = .ok st' := he
      cases hc : checkAniso st.axisCount st.axes l with
      | error x => rw [hc] at he; cases he
      | ok u => rw [hc] at he; cases he; rfl
    by_cases h1254 : id = 1254
    · rw [if_pos h1254] at he; cases d <;> first | (cases he; done) | (cases he; rfl)
    rw [if_neg h1254] at he
    by_cases h1294 : id = 1294
    · rw [if_pos h1294] at he; cases d <;> first | (cases he; done) | (cases he; rfl)
    rw [if_neg h1294] at he
    by_cases h1296 : id = 1296
    · rw [if_pos h1296] at he; cases d <;> first | (cases he; done) | (cases he; rfl)
    rw [if_neg h1296] at he
    by_cases h1503 : id = 1503
    · rw [if_pos h1503] at he; cases d <;> first | (cases he; done) | (cases he; rfl)
    rw [if_neg h1503] at he
    by_cases h1504 : id = 1504
    · rw [if_pos h1504] at he; cases d <;> first | (cases he; done) | (cases he; rfl)
    rw [if_neg h1504] at he
    by_cases h1505 : id = 1505
    · rw [if_pos h1505] at he; cases d <;> first | (cases he; done) | (cases he; rfl)
    rw [if_neg h1505] at he
    by_cases h1513 : id = 1513
    · rw [if_pos h1513] at he; cases d <;> first | (cases he; done) | (cases he; rfl)
    rw [if_neg h1513] at he
    rw [if_neg h1] at he
    by_cases h1515 : id = 1515
    · rw [if_pos h1515] at he; cases d <;> first | (cases he; done) | (cases he; rfl)
    rw [if_neg h1515] at he
    rw [if_neg h2, if_neg h3] at he
    by_cases h6 : id ∈ [(1530 : Int), 1531, 1532, 1533, 1534, 1535]
    · rw [if_pos h6] at he; cases d <;> first | (cases he; done) | (cases he; rfl)
    rw [if_neg h6] at he
    by_cases h1536 : id = 1536
    · rw [if_pos h1536] at he; cases d <;> first | (cases he; done) | (cases he; rfl)
    rw [if_neg h1536] at he
    cases he; rfl

/-- until mappings come, all axes are as the entries with their names made them -/
theorem foldl_fresh {o : BuildOpts} : ∀ (es : List (FEntry ops asm)) (st st' : MastersPart ops.Angle),
    es.foldlM (masterStep ops asm o) st = .ok st' → (∀ e ∈ es, e.1 ≠ 1516) → (∀ a ∈ st.axes, Unmapped a) → ∀ a ∈ st'.axes, Unmapped a := by
  intro es
  induction es with
  | nil => intro st st' h _ h0; cases h; exact h0
  | cons e es ih =>
    intro st st' h he h0
    rw [List.foldlM_cons] at h
    cases hs : masterStep ops asm o st e with
    | error x => rw [hs] at h; cases h
    | ok st1 =>
      rw [hs] at h
      refine ih st1 st' h (fun x hx => he x (List.mem_cons_of_mem _ hx)) ?_
      by_cases h14 : e.1 = 1514
      · rcases masterStep_cases hs with ⟨rfl, -⟩ | ⟨d, hed, -, hm⟩
        · exact h0
        · rw [h14] at hm
          unfold masterEntry at hm
          norm_num at hm
          cases d <;> first | (cases hm; done) | skip
          cases hm
          intro a ha
          rcases List.mem_append.1 ha with ha | ha
          · exact h0 a ha
          · rw [List.mem_singleton] at ha; subst ha; exact ⟨rfl, rfl, rfl, rfl⟩
      · rw [masterStep_axes hs h14 (he e (List.mem_cons_self ..))]
        exact h0

theorem foldl_axes {o : BuildOpts} : ∀ (es : List (FEntry ops asm)) (st st' : MastersPart ops.Angle),
    es.foldlM (masterStep ops asm o) st = .ok st' → (∀ e ∈ es, e.1 ≠ 1514 ∧ e.1 ≠ 1516) → st'.axes = st.axes := by
  intro es
  induction es with
  | nil => intro st st' h _; cases h; rfl
  | cons e es ih =>
    intro st st' h he
    rw [List.foldlM_cons] at h
    cases hs : masterStep ops asm o st e with
    | error x => rw [hs] at h; cases h
    | ok st1 =>
      rw [hs] at h
      have := he e (List.mem_cons_self ..)
      rw [ih st1 st' h (fun x hx => he x (List.mem_cons_of_mem _ hx)), masterStep_axes hs this.1 this.2]

/-- **C74.** In a file with one entry of axis mappings after the names of the axes, the axes are those named, in this order.  With the
number of axes and the numbers of mappings that the file has given before it, each axis has exactly its own mappings; an axis for which
no mappings are counted has none, and no range. -/
theorem C74_file {o : BuildOpts} {pre post : List (FEntry ops asm)} {data : List (Dbl × Dbl)} {st : MastersPart ops.Angle}
    (h : buildMasters ops asm o (pre ++ (1516, some (.axisMappings data)) :: post) = .ok st) (hskip : o.vfbMinimal = false)
    (hpre : ∀ e ∈ pre, e.1 ≠ 1516) (hpost : ∀ e ∈ post, e.1 ≠ 1514 ∧ e.1 ≠ 1516) :
    ∃ (n : Int) (counts : List Int), LastOr ops asm (dataOf ops asm o pre 1513) .int 0 n ∧
      (dataOf ops asm o pre 1515).getLast? = some (.ints counts) ∧ st.axes.map Axis.name = textsOf ops asm o pre 1514 ∧
      ∀ (j : Nat) (a : Axis), st.axes[j]? = some a →
        (n ≤ j → Unmapped a) ∧
        (j < n → ∃ c, counts[j]? = some c ∧ (c ≤ 0 → Unmapped a) ∧ (0 < c → Mapped (mappingsOf data j c) a)) := by
  unfold buildMasters at h
  rw [List.foldlM_append] at h
  cases h1 : pre.foldlM (masterStep ops asm o) (noMasters ops.Angle) with
  | error e => rw [h1] at h; cases h
  | ok st1 =>
    rw [h1] at h
    have hinv := mastersInv h1
    have hfresh := foldl_fresh _ _ _ h1 hpre (by intro a ha; cases ha)
    replace h : ((((1516, some (.axisMappings data)) :: post : List (FEntry ops asm)).foldlM (masterStep ops asm o) st1) >>= fun st =>
      Except.ok { st with masters := fixMasters st.axisCount st.masters }) = .ok st := h
    rw [List.foldlM_cons] at h
    cases h2 : masterStep ops asm o st1 (1516, some (.axisMappings data)) with
    | error e => rw [h2] at h; cases h
    | ok st2 =>
      rw [h2] at h
      replace h : ((post.foldlM (masterStep ops asm o) st2) >>= fun st =>
        Except.ok { st with masters := fixMasters st.axisCount st.masters }) = .ok st := h
      cases h3 : post.foldlM (masterStep ops asm o) st2 with
      | error e => rw [h3] at h; cases h
      | ok st3 =>
        rw [h3] at h
        cases h
        have hax : st3.axes = st2.axes := foldl_axes _ _ _ h3 hpost
        have hk : (1516 : Int) ∉ skipKeys o := by unfold skipKeys; rw [hskip]; decide
        have h2' : (addAxisMappings st1.axisCount st1.mapCounts st1.axes data >>= fun axes => Except.ok { st1 with axes := axes }) = .ok st2 := by
          have := h2
          unfold masterStep at this
          rw [if_neg hk] at this
          exact this
        cases h4 : addAxisMappings st1.axisCount st1.mapCounts st1.axes data with
        | error e => rw [h4] at h2'; cases h2'
        | ok axes =>
          rw [h4] at h2'
          cases h2'
          obtain ⟨cs, hcs, hlen, hj⟩ := C74_mappings h4
          have hnames := axesNames_of h4
          refine ⟨st1.axisCount, cs, hinv.axisCount, ?_, ?_, ?_⟩
          · rcases hinv.mapCounts with ⟨-, hc⟩ | ⟨x, hx, hc⟩
            · rw [hc] at hcs; cases hcs
            · rw [hc] at hcs; cases hcs; exact hx
          · show st3.axes.map Axis.name = _
            rw [hax, textsOf_of hinv.axes]
            exact hnames
          · intro j a ha
            replace ha : st3.axes[j]? = some a := ha
            rw [hax] at ha
            replace ha : axes[j]? = some a := ha
            have hun : axes[j]? = st1.axes[j]? → Unmapped a := by
              intro he; rw [he] at ha; exact hfresh a (List.mem_of_getElem? ha)
            refine ⟨fun hn => hun ((hj j).1 hn), fun hn => ?_⟩
            obtain ⟨c, c1, c2, c3⟩ := (hj j).2 hn
            refine ⟨c, c1, fun h0 => hun (c2 h0), fun h0 => ?_⟩
            obtain ⟨x, y, -, y1, -, y2⟩ := c3 h0
            rw [ha] at y1; cases y1
            exact y2

/-- **C74.** The tag of an axis is the registered one for the names of FontLab's axes (which have different tags), and the first four
characters of the name in capitals for all others; it never has more than four characters. -/
theorem C74_tags (upper : PyStr → PyStr) (name : PyStr) :
    (∀ tag, (name, tag) ∈ registeredTags → axisTag upper name = tag) ∧
    ((∀ tag, (name, tag) ∉ registeredTags) → axisTag upper name = (upper name).take 4) ∧
    (axisTag upper name).length ≤ 4 := by
  refine ⟨?_, ?_, ?_⟩
  · intro tag h
    simp only [registeredTags, List.mem_cons, List.not_mem_nil, or_false, Prod.mk.injEq] at h
    rcases h with ⟨rfl, rfl⟩ | ⟨rfl, rfl⟩ | ⟨rfl, rfl⟩ | ⟨rfl, rfl⟩
    · rfl
    · rfl
    · rfl
    · rfl
  · intro h
    unfold axisTag
    rw [if_neg (fun e => h (lit "wght") (by rw [e]; decide +kernel)), if_neg (fun e => h (lit "wdth") (by rw [e]; decide +kernel)),
      if_neg (fun e => h (lit "opsz") (by rw [e]; decide +kernel)), if_neg (fun e => h (lit "SERF") (by rw [e]; decide +kernel))]
  · unfold axisTag
    split
    · decide
    · split
      · decide
      · split
        · decide
        · split
          · decide
          · simp only [List.length_take]; omega

/-- **C74.** Anisotropic mappings are not converted: they change nothing.  If all of them are trivial they are always accepted; otherwise
the conversion fails (IndexError) if there are fewer axes or fewer lists of mappings than the number of axes that the file states. -/
theorem C74_anisotropic (st : MastersPart ops.Angle) (l : List (List (Int × Int))) :
    (∀ st', masterEntry ops asm st 1523 (.aniso l) = .ok st' → st' = st) ∧
    ((∃ st', masterEntry ops asm st 1523 (.aniso l) = .ok st') ↔
      (∀ maps ∈ l, ∀ p ∈ maps, p.1 = p.2) ∨ (st.axisCount ≤ st.axes.length ∧ st.axisCount ≤ l.length)) ∧
    (∀ e, masterEntry ops asm st 1523 (.aniso l) = .error e → e = .index) := by
  have he : masterEntry ops asm st 1523 (.aniso l) = (checkAniso st.axisCount st.axes l >>= fun _ => .ok st) := rfl
  rw [he]
  unfold checkAniso
  by_cases h1 : (l.all fun axis => axis.all fun p => decide (p.1 = p.2)) = true
  · rw [if_pos h1]
    refine ⟨fun st' h => by cases h; rfl, ⟨fun _ => .inl ?_, fun _ => ⟨_, rfl⟩⟩, fun e h => by cases h⟩
    intro maps hm p hp
    rw [List.all_eq_true] at h1
    have := h1 maps hm
    rw [List.all_eq_true] at this
    simpa using this p hp
  · rw [if_neg h1]
    by_cases h2 : st.axisCount.toNat ≤ st.axes.length ∧ st.axisCount.toNat ≤ l.length
    · rw [if_pos h2]
      exact ⟨fun st' h => by cases h; rfl, ⟨fun _ => .inr ⟨by omega, by omega⟩, fun _ => ⟨_, rfl⟩⟩, fun e h => by cases h⟩
    · rw [if_neg h2]
      refine ⟨fun st' h => (by cases h), ⟨fun ⟨_, h⟩ => (by cases h), ?_⟩, fun e h => (by cases h; rfl)⟩
      rintro (h | h)
      · exfalso
        refine h1 (List.all_eq_true.2 fun maps hm => List.all_eq_true.2 fun p hp => ?_)
        simpa using h maps hm p hp
      · omega

end
/-- an axis "Weight" from 100 to 900 with two mappings, an axis "Width" without mappings -/
def exampleAxes : List (FEntry exampleAngles exampleAsm) :=
  [(1513, some (.int 2)), (1514, some (.str (lit "Weight"))), (1514, some (.str (lit "Width"))), (1515, some (.ints [2, 0, 0, 0])),
   (1516, some (.axisMappings ([(⟨0x408C200000000000⟩, ⟨0x3FF0000000000000⟩), (⟨0x4059000000000000⟩, ⟨0⟩)] ++ List.replicate 38 (⟨0⟩, ⟨0⟩)))),
   (1504, some (.str (lit "Light")))]

/-- the hypotheses of C74 are met -/
example : (buildMasters exampleAngles exampleAsm ⟨false, false, false⟩ exampleAxes).toOption.map MastersPart.axes = some [⟨lit "Weight", [(⟨0x408C200000000000⟩, 1000), (⟨0x4059000000000000⟩, 0)], some ⟨0x4059000000000000⟩,
      some ⟨0x4059000000000000⟩, some ⟨0x408C200000000000⟩⟩, ⟨lit "Width", [], none, none, none⟩] :=
  by decide +kernel

end Verif.Props
