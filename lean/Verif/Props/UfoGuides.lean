import Verif.Spec.UfoGuides
import Verif.Props.UfoHints
import Verif.Props.UfoInfoBuild
import Verif.Props.UfoClasses
import Verif.Props.Glyph
import Verif.Props.UfoDesign
/-! C81: the guidelines of a UFO. -/
set_option autoImplicit false
namespace Verif.Props
open Verif Verif.Spec

/-! ### angles -/

theorem fl_near {x b : Rat} (hb : 0 ≤ b) (h : |x| ≤ b * 2 ^ 53) : |fl x - x| ≤ b := by
  refine le_trans (fl_err x) ?_
  rw [div_le_iff₀ (by norm_num)]
  exact h

theorem fl_near' {x : Rat} (h : |x| ≤ 1000) : |fl x - x| ≤ 1 / 1000000 := by
  refine fl_near (by norm_num) (le_trans h (by norm_num))

theorem round2_near {x : Rat} (h0 : 0 ≤ x) (h1 : x ≤ 360) : 0 ≤ round2 x ∧ round2 x ≤ 360 ∧ |round2 x - x| ≤ 5001 / 1000000 := by
  have hr := roundEven_err (x * 100)
  rw [abs_le] at hr
  have hlo : 0 ≤ roundEven (x * 100) := by
    have : (-1 : Rat) < roundEven (x * 100) := by linarith [hr.1]
    have : (-1 : Int) < roundEven (x * 100) := by exact_mod_cast this
    omega
  have hhi : roundEven (x * 100) ≤ 36000 := by
    have : (roundEven (x * 100) : Rat) < 36001 := by linarith [hr.2]
    have : roundEven (x * 100) < 36001 := by exact_mod_cast this
    omega
  unfold round2
  generalize roundEven (x * 100) = n at *
  have hlo' : (0 : Rat) ≤ n := by exact_mod_cast hlo
  have hhi' : (n : Rat) ≤ 36000 := by exact_mod_cast hhi
  have hq : |(n : Rat) / 100| ≤ 1000 := by rw [abs_of_nonneg (by positivity)]; linarith
  have hf := fl_near' hq
  rw [abs_le] at hf
  have hd : |fl ((n : Rat) / 100) - x| ≤ 5001 / 1000000 := by
    rw [abs_le]
    constructor <;> linarith
  refine ⟨?_, ?_, hd⟩
  · by_cases h : n = 0
    · subst h; unfold fl; simp
    · have : (1 : Rat) ≤ n := by
        have : 1 ≤ n := by omega
        exact_mod_cast this
      linarith
  · by_cases h : n = 36000
    · subst h
      have : fl (((36000 : Int) : Rat) / 100) = 360 := by
        have e : (((36000 : Int) : Rat) / 100) = ((360 : Int) : Rat) := by norm_num
        rw [e, fl_int (by norm_num)]
        norm_num
      rw [this]
    · have : (n : Rat) ≤ 35999 := by
        have : n ≤ 35999 := by omega
        exact_mod_cast this
      linarith

/-- The angle of a guideline in the UFO is between 0 and 360 degrees; up to the rounding to two decimals it is the stored angle for a
horizontal guide (plus 360 if negative), and 90 degrees minus the stored angle for a vertical one. -/
theorem C81_angle (vertical : Bool) {a : Rat} (h : -90 ≤ a ∧ a ≤ 90) : AngleFrom vertical a (guideAngle vertical a) := by
  obtain ⟨h1, h2⟩ := h
  unfold guideAngle AngleFrom
  cases vertical with
  | true =>
    simp only [if_true]
    have hq : |(90 : Rat) - a| ≤ 1000 := by rw [abs_le]; constructor <;> linarith
    have hf := fl_near' hq
    rw [abs_le] at hf
    have hnn : 0 ≤ fl (90 - a) := by
      have he := fl_err (90 - a)
      rw [abs_of_nonneg (by linarith : (0 : Rat) ≤ 90 - a), abs_le] at he
      have : (90 - a) / 2 ^ 53 ≤ 90 - a := div_le_self (by linarith) (by norm_num)
      linarith [he.1]
    rw [if_neg (not_lt.2 hnn), if_neg (by rw [not_lt]; linarith)]
    obtain ⟨r1, r2, r3⟩ := round2_near hnn (by linarith)
    refine ⟨r1, r2, ?_⟩
    rw [abs_le] at r3 ⊢
    constructor <;> linarith
  | false =>
    simp only [Bool.false_eq_true, if_false]
    by_cases ha : a < 0
    · rw [if_pos ha, if_pos ha]
      have hq : |a + 360| ≤ 1000 := by rw [abs_le]; constructor <;> linarith
      have hf := fl_near' hq
      rw [abs_le] at hf
      by_cases hb : 360 < fl (a + 360)
      · exfalso
        -- a double just below 360 is not rounded up beyond 360
        have he := fl_err (a + 360)
        by_cases hz : a + 360 ≤ 359
        · linarith
        · have hlog : Int.log 2 |a + 360| = 8 := by
            have h0 : (0 : Rat) < |a + 360| := abs_pos.2 (by linarith)
            rw [abs_of_pos (by linarith : (0 : Rat) < a + 360)] at *
            apply le_antisymm
            · have := (Int.lt_zpow_iff_log_lt (b := 2) (by norm_num) h0 (x := 9)).1 (by norm_num; linarith)
              omega
            · exact (Int.zpow_le_iff_le_log (b := 2) (by norm_num) h0).1 (by norm_num; linarith)
          unfold fl at hb
          rw [if_neg (by linarith), hlog] at hb
          have hle : roundEven ((a + 360) / 2 ^ ((8 : Int) - 52)) ≤ 360 * 2 ^ 44 := by
            have hr := roundEven_err ((a + 360) / 2 ^ ((8 : Int) - 52))
            rw [abs_le] at hr
            have hx : (a + 360) / (2 : Rat) ^ ((8 : Int) - 52) < 360 * 2 ^ 44 := by
              have e : (2 : Rat) ^ ((8 : Int) - 52) = 1 / 2 ^ 44 := by norm_num
              rw [e, div_div_eq_mul_div, div_one]
              have : (0 : Rat) < 2 ^ 44 := by norm_num
              nlinarith
            have : (roundEven ((a + 360) / 2 ^ ((8 : Int) - 52)) : Rat) < ((360 * 2 ^ 44 + 1 : Int) : Rat) := by
              push_cast
              linarith
            have : roundEven ((a + 360) / 2 ^ ((8 : Int) - 52)) < 360 * 2 ^ 44 + 1 := by exact_mod_cast this
            omega
          have hle' : (roundEven ((a + 360) / 2 ^ ((8 : Int) - 52)) : Rat) ≤ 360 * 2 ^ 44 := by exact_mod_cast hle
          have e : (2 : Rat) ^ ((8 : Int) - 52) = 1 / 2 ^ 44 := by norm_num
          rw [e] at hb
          rw [e] at hle'
          have : (roundEven ((a + 360) / (1 / 2 ^ 44)) : Rat) * (1 / 2 ^ 44) ≤ 360 * 2 ^ 44 * (1 / 2 ^ 44) :=
            mul_le_mul_of_nonneg_right hle' (by norm_num)
          norm_num at this hb
          linarith
      · rw [if_neg hb]
        rw [not_lt] at hb
        obtain ⟨r1, r2, r3⟩ := round2_near (by linarith : (0 : Rat) ≤ fl (a + 360)) hb
        refine ⟨r1, r2, ?_⟩
        rw [abs_le] at r3 ⊢
        constructor <;> linarith
    · rw [if_neg ha, if_neg ha, if_neg (by rw [not_lt]; linarith)]
      rw [not_lt] at ha
      obtain ⟨r1, r2, r3⟩ := round2_near ha (by linarith)
      refine ⟨r1, r2, ?_⟩
      rw [abs_le] at r3 ⊢
      constructor <;> linarith

/-! ### colours -/

theorem natDec_digit (d : Nat) (h : d < 10) : natDec d = [48 + d] := by
  have : ∀ d < 10, natDec d = [48 + d] := by decide +kernel
  exact this d h

theorem mapM_option_ok {α β : Type} (f : α → Option β) (l : List α) : (∃ r, l.mapM f = some r) ↔ ∀ x ∈ l, ∃ y, f x = some y := by
  induction l with
  | nil => simp
  | cons x l ih =>
    rw [List.mapM_cons]
    constructor
    · rintro ⟨r, h⟩
      cases hx : f x with
      | none => rw [hx] at h; cases h
      | some y =>
        cases hl : l.mapM f with
        | none => rw [hx, hl] at h; cases h
        | some r' =>
          intro z hz
          rcases List.mem_cons.1 hz with rfl | hz
          · exact ⟨y, hx⟩
          · exact ih.1 ⟨r', hl⟩ z hz
    · intro h
      obtain ⟨y, hy⟩ := h x List.mem_cons_self
      obtain ⟨r, hr⟩ := ih.2 fun z hz => h z (List.mem_cons_of_mem _ hz)
      exact ⟨y :: r, by rw [hy, hr]; rfl⟩

theorem guideColor_ok (c : PyStr) : (∃ t, guideColor c = .ok t) ↔ ColorOk c := by
  unfold guideColor colorPart intBase16 ColorOk
  rw [← mapM_option_ok]
  by_cases h : (c.drop 1).take 2 = []
  · rw [if_pos h]
    constructor
    · rintro ⟨t, ht⟩; cases ht
    · rintro ⟨hn, -⟩; exact absurd h hn
  · rw [if_neg h]
    cases hm : ((c.drop 1).take 2).mapM hexVal with
    | none =>
      constructor
      · rintro ⟨t, ht⟩; cases ht
      · rintro ⟨-, r, hr⟩; cases hr
    | some r => exact ⟨fun _ => ⟨h, r, rfl⟩, fun _ => ⟨_, rfl⟩⟩

/-- a component of a colour -/
theorem fixed4_unit (c : Nat) (h : c < 256) : IsUnit c (fixed4 (fdiv c 255)) := by
  have hc : (c : Rat) ≤ 255 := by
    have : c ≤ 255 := by omega
    exact_mod_cast this
  have hc0 : (0 : Rat) ≤ c := by exact_mod_cast Nat.zero_le c
  have hq : |((c : Int) : Rat) / ((255 : Int) : Rat)| ≤ 1 := by
    push_cast
    rw [abs_of_nonneg (by positivity), div_le_iff₀ (by norm_num)]
    linarith
  have hf : |fl (((c : Int) : Rat) / ((255 : Int) : Rat)) - ((c : Int) : Rat) / ((255 : Int) : Rat)| ≤ 1 / 100000000 := by
    refine fl_near (by norm_num) (le_trans hq (by norm_num))
  obtain ⟨m, hm1, hm2⟩ : ∃ m : Nat, 2 * |255 * (m : Int) - 10000 * c| < 255 ∧ m ≤ 10000 := by
    refine ⟨(20000 * c + 255) / 510, ?_, by omega⟩
    have : |255 * (((20000 * c + 255) / 510 : Nat) : Int) - 10000 * c| ≤ 127 := by
      rw [abs_le]
      push_cast
      omega
    omega
  have hr : roundEven (fdiv c 255 * 10000) = m := by
    apply roundEven_near
    unfold fdiv
    have h1 : |255 * (m : Int) - 10000 * c| ≤ 127 := by omega
    have h2 : |(255 * (m : Rat) - 10000 * c)| ≤ 127 := by
      have : ((|255 * (m : Int) - 10000 * c| : Int) : Rat) ≤ ((127 : Int) : Rat) := by exact_mod_cast h1
      simpa using this
    push_cast at hf ⊢
    rw [abs_le] at hf h2
    rw [abs_lt]
    have e : (c : Rat) / 255 * 255 = c := by field_simp
    constructor <;> nlinarith [hf.1, hf.2, h2.1, h2.2]
  refine ⟨m, hm1, ?_⟩
  unfold fixed4
  rw [hr]
  simp only [Int.toNat_natCast]
  rw [natDec_digit (m / 10000) (by omega), natDec_digit (m / 1000 % 10) (by omega), natDec_digit (m / 100 % 10) (by omega),
    natDec_digit (m / 10 % 10) (by omega), natDec_digit (m % 10) (by omega)]
  rfl

theorem hexVal_hexDigit : ∀ d < 16, hexVal (hexDigit d) = some d := by decide +kernel

theorem colorPart_byte (c : Nat) (h : c < 256) : colorPart [hexDigit (c / 16), hexDigit (c % 16)] = .ok (fdiv c 255) := by
  unfold colorPart intBase16
  rw [if_neg (by simp)]
  have : [hexDigit (c / 16), hexDigit (c % 16)].mapM hexVal = some [c / 16, c % 16] := by
    simp only [List.mapM_cons, List.mapM_nil, hexVal_hexDigit _ (show c / 16 < 16 by omega), hexVal_hexDigit _ (show c % 16 < 16 by omega)]
    rfl
  rw [this]
  have e : (16 * (16 * 0 + c / 16) + c % 16 : Nat) = c := by omega
  show (Except.ok (fdiv ((16 * (16 * 0 + c / 16) + c % 16 : Nat) : Int) 255) : Except PyErr Rat) = _
  rw [e]

/-- A colour of a guideline is stored as a number, blue in the highest, red in the lowest byte.  The colour in the UFO is the text of red,
green and blue as nearest numbers with four decimals between 0 and 1, and opacity 1. -/
theorem C81_color {n : Nat} (h : n < 16777216) :
    ∃ r g b : PyStr, guideColor (colorFromBgr (hex06 n)) = .ok (r ++ lit "," ++ g ++ lit "," ++ b ++ lit ",1") ∧
      IsUnit (n % 256) r ∧ IsUnit (n / 256 % 256) g ∧ IsUnit (n / 65536) b := by
  have e : colorFromBgr (hex06 n) = [35, hexDigit (n % 256 / 16), hexDigit (n % 256 % 16), hexDigit (n / 256 % 256 / 16),
      hexDigit (n / 256 % 256 % 16), hexDigit (n / 65536 / 16), hexDigit (n / 65536 % 16)] := by
    unfold hex06 colorFromBgr
    rw [if_pos h]
    simp only [List.drop_succ_cons, List.drop_zero, List.take_succ_cons, List.take_zero, List.cons_append, List.nil_append]
    rw [show n % 256 / 16 = n / 16 % 16 by omega, show n % 256 % 16 = n % 16 by omega, show n / 256 % 256 / 16 = n / 4096 % 16 by omega,
      show n / 256 % 256 % 16 = n / 256 % 16 by omega, show n / 65536 / 16 = n / 1048576 by omega]
  refine ⟨_, _, _, ?_, fixed4_unit (n % 256) (by omega), fixed4_unit (n / 256 % 256) (by omega), fixed4_unit (n / 65536) (by omega)⟩
  rw [e]
  unfold guideColor colorPart0
  simp only [List.drop_succ_cons, List.drop_zero, List.take_succ_cons, List.take_zero]
  rw [colorPart_byte _ (show n % 256 < 256 by omega), colorPart_byte _ (show n / 256 % 256 < 256 by omega),
    colorPart_byte _ (show n / 65536 < 256 by omega)]
  rfl

/-- **C81.** A damaged colour: if it can be converted at all, the red part decides; a green or blue part that is missing or is not hexadecimal
becomes 0, a readable one of two digits is the nearest number with four decimals. -/
theorem C81_color_fallback {c t : PyStr} (h : guideColor c = .ok t) :
    ∃ r g b : PyStr, t = r ++ lit "," ++ g ++ lit "," ++ b ++ lit ",1" ∧
      (∀ n, n < 256 → (c.drop 1).take 2 = [hexDigit (n / 16), hexDigit (n % 16)] → IsUnit n r) ∧
      (∀ n, n < 256 → (c.drop 3).take 2 = [hexDigit (n / 16), hexDigit (n % 16)] → IsUnit n g) ∧
      (∀ n, n < 256 → (c.drop 5).take 2 = [hexDigit (n / 16), hexDigit (n % 16)] → IsUnit n b) ∧
      (((c.drop 3).take 2 = [] ∨ ∃ x ∈ (c.drop 3).take 2, hexVal x = none) → g = lit "0.0000") ∧
      (((c.drop 5).take 2 = [] ∨ ∃ x ∈ (c.drop 5).take 2, hexVal x = none) → b = lit "0.0000") := by
  have hz : fixed4 0 = lit "0.0000" := by decide +kernel
  have key : ∀ s : PyStr, (s = [] ∨ ∃ x ∈ s, hexVal x = none) → fixed4 (colorPart0 s) = lit "0.0000" := by
    intro s hs
    have : colorPart s = .error .value := by
      unfold colorPart intBase16
      by_cases he : s = []
      · rw [if_pos he]; rfl
      · rw [if_neg he]
        obtain ⟨x, hx, hn⟩ := hs.resolve_left he
        cases hm : s.mapM hexVal with
        | none => rfl
        | some ds =>
          obtain ⟨v, hv⟩ := (mapM_option_ok hexVal s).1 ⟨ds, hm⟩ x hx
          rw [hn] at hv; cases hv
    unfold colorPart0
    rw [this]
    exact hz
  have key2 : ∀ (s : PyStr) (n : Nat), n < 256 → s = [hexDigit (n / 16), hexDigit (n % 16)] → IsUnit n (fixed4 (colorPart0 s)) := by
    rintro s n hn rfl
    unfold colorPart0
    rw [colorPart_byte _ hn]
    exact fixed4_unit n hn
  unfold guideColor at h
  cases hr : colorPart ((c.drop 1).take 2) with
  | error e => rw [hr] at h; cases h
  | ok x =>
    rw [hr] at h
    cases h
    refine ⟨_, _, _, rfl, ?_, key2 _, key2 _, key _, key _⟩
    intro n hn he
    rw [he, colorPart_byte _ hn] at hr
    cases hr
    exact fixed4_unit n hn

/-- a colour that ends too early -/
example : (guideColor (lit "#8040f")).toOption = some (lit "0.5020,0.2510,0.0588,1") ∧
    (guideColor (lit "#80")).toOption = some (lit "0.5020,0.0000,0.0000,1") := by decide +kernel

theorem unit_length {c : Nat} {s : PyStr} (h : IsUnit c s) : s.length = 6 := by
  obtain ⟨m, -, rfl⟩ := h; rfl

theorem unit_unique {c c' : Nat} {s : PyStr} (hc : c < 256) (hc' : c' < 256) (h : IsUnit c s) (h' : IsUnit c' s) : c = c' := by
  obtain ⟨m, h1, rfl⟩ := h
  obtain ⟨m', h2, he⟩ := h'
  unfold unitText at he
  simp only [List.cons.injEq, and_true] at he
  have hm : m = m' := by omega
  subst hm
  have a1 : |255 * (m : Int) - 10000 * c| ≤ 127 := by omega
  have a2 : |255 * (m : Int) - 10000 * c'| ≤ 127 := by omega
  rw [abs_le] at a1 a2
  omega

/-- No colour gets lost: different stored colours are different in the UFO. -/
theorem C81_color_faithful {n m : Nat} (hn : n < 16777216) (hm : m < 16777216)
    (h : guideColor (colorFromBgr (hex06 n)) = guideColor (colorFromBgr (hex06 m))) : n = m := by
  obtain ⟨r, g, b, e, hr, hg, hb⟩ := C81_color hn
  obtain ⟨r', g', b', e', hr', hg', hb'⟩ := C81_color hm
  rw [e, e'] at h
  have h := Except.ok.inj h
  simp only [List.append_assoc] at h
  obtain ⟨h1, h⟩ := List.append_inj h (by rw [unit_length hr, unit_length hr'])
  obtain ⟨-, h⟩ := List.append_inj h rfl
  obtain ⟨h2, h⟩ := List.append_inj h (by rw [unit_length hg, unit_length hg'])
  obtain ⟨-, h⟩ := List.append_inj h rfl
  obtain ⟨h3, -⟩ := List.append_inj h (by rw [unit_length hb, unit_length hb'])
  rw [← h1] at hr'
  rw [← h2] at hg'
  rw [← h3] at hb'
  have a := unit_unique (by omega) (by omega) hr hr'
  have b := unit_unique (by omega) (by omega) hg hg'
  have c := unit_unique (by omega) (by omega) hb hb'
  omega

/-! ### properties -/

theorem lastProp_nil {α β : Type} {f : GuideProp → Option α} {rel : α → β → Prop} : LastProp [] f rel none := .inl ⟨rfl, rfl⟩

theorem lastProp_none {α β : Type} {l : List GuideProp} {p : GuideProp} {f : GuideProp → Option α} {rel : α → β → Prop} {v : Option β}
    (hp : f p = none) (h : LastProp l f rel v) : LastProp (l ++ [p]) f rel v := by
  have e : (l ++ [p]).filterMap f = l.filterMap f := by rw [List.filterMap_append]; simp [hp]
  unfold LastProp
  rw [e]
  exact h

theorem lastProp_some {α β : Type} {l : List GuideProp} {p : GuideProp} {f : GuideProp → Option α} {rel : α → β → Prop} {x : α} {y : β}
    (hp : f p = some x) (h : rel x y) : LastProp (l ++ [p]) f rel (some y) :=
  .inr ⟨x, y, by rw [List.filterMap_append]; simp [hp], h, rfl⟩

/-- the guide as it was, with these properties -/
structure HasProps (n i : Nat) (props : List GuideProp) (u u' : UfoGuide) : Prop where
  place : u'.x = u.x ∧ u'.y = u.y ∧ u'.angle = u.angle
  color : LastProp (propsOf n i props) GuideProp.color (fun c t => guideColor c = .ok t) u'.color
  name : LastProp (propsOf n i props) GuideProp.name (fun x y => y = x) u'.name

theorem propsOf_snoc (n i : Nat) (l : List GuideProp) (p : GuideProp) :
    propsOf n i (l ++ [p]) = propsOf n i l ++ if Addresses n i p then [p] else [] := by
  unfold propsOf
  rw [List.filter_append]
  by_cases h : Addresses n i p <;> simp [h]

theorem applyProp_cases {l l' : List UfoGuide} {p : GuideProp} (h : applyProp l p = .ok l') :
    ((l.length : Int) < p.index ∧ l' = l) ∨
    ∃ (i : Nat) (g g' : UfoGuide), Addresses l.length i p ∧ l[i]? = some g ∧ withProp g p = .ok g' ∧ l' = l.set i g' := by
  unfold applyProp at h
  by_cases hc : (l.length : Int) ≤ p.index - 1
  · rw [if_pos hc] at h
    cases h
    exact .inl ⟨by omega, rfl⟩
  · rw [if_neg hc] at h
    cases hg : pyIndex l (p.index - 1) with
    | error er => rw [hg] at h; cases h
    | ok g =>
      rw [hg] at h
      replace h : (withProp g p >>= fun g => (Except.ok (l.set (if p.index - 1 < 0 then p.index - 1 + l.length else p.index - 1).toNat g) :
        Except PyErr _)) = .ok l' := h
      cases hw : withProp g p with
      | error er => rw [hw] at h; cases h
      | ok g' =>
        rw [hw] at h
        cases h
        refine .inr ⟨(if p.index - 1 < 0 then p.index - 1 + l.length else p.index - 1).toNat, g, g', ?_, ?_, hw, rfl⟩
        · have hx := index_ok.1 ⟨g, hg⟩
          unfold Addresses
          split <;> omega
        · unfold pyIndex at hg
          split at hg
          · rw [if_neg (by omega)]
            split at hg
            · cases hg; assumption
            · cases hg
          · split at hg
            · rw [if_pos (by omega)]
              split at hg
              · cases hg
                rename_i hx
                rw [← hx]
                congr 2
                omega
              · cases hg
            · cases hg

theorem withProp_cases {g g' : UfoGuide} {p : GuideProp} (h : withProp g p = .ok g') :
    (g'.x = g.x ∧ g'.y = g.y ∧ g'.angle = g.angle) ∧
    ((p.color = none ∧ g'.color = g.color) ∨ ∃ c t, p.color = some c ∧ guideColor c = .ok t ∧ g'.color = some t) ∧
    ((p.name = none ∧ g'.name = g.name) ∨ ∃ n, p.name = some n ∧ g'.name = some n) := by
  unfold withProp at h
  cases hc : p.color with
  | none =>
    rw [hc] at h
    cases hn : p.name with
    | none => rw [hn] at h; cases h; exact ⟨⟨rfl, rfl, rfl⟩, .inl ⟨rfl, rfl⟩, .inl ⟨rfl, rfl⟩⟩
    | some n => rw [hn] at h; cases h; exact ⟨⟨rfl, rfl, rfl⟩, .inl ⟨rfl, rfl⟩, .inr ⟨n, rfl, rfl⟩⟩
  | some c =>
    rw [hc] at h
    dsimp only at h
    cases ht : guideColor c with
    | error er => rw [ht] at h; cases h
    | ok t =>
      rw [ht] at h
      cases hn : p.name with
      | none => rw [hn] at h; cases h; exact ⟨⟨rfl, rfl, rfl⟩, .inr ⟨c, t, rfl, ht, rfl⟩, .inl ⟨rfl, rfl⟩⟩
      | some n => rw [hn] at h; cases h; exact ⟨⟨rfl, rfl, rfl⟩, .inr ⟨c, t, rfl, ht, rfl⟩, .inr ⟨n, rfl, rfl⟩⟩

theorem addresses_unique {n i j : Nat} {p : GuideProp} (hi : Addresses n i p) (hj : Addresses n j p) (h : i < n) (h' : j < n) : i = j := by
  unfold Addresses at hi hj
  omega

theorem applyProps_fold {us : List UfoGuide} (hplain : ∀ u ∈ us, u.color = none ∧ u.name = none) (props : List GuideProp) (us' : List UfoGuide)
    (h : props.foldlM applyProp us = .ok us') :
    us'.length = us.length ∧ ∀ (i : Nat) (u u' : UfoGuide), us[i]? = some u → us'[i]? = some u' → HasProps us.length i props u u' := by
  refine foldlM_inv (step := applyProp) (fun props us' => us'.length = us.length ∧
    ∀ (i : Nat) (u u' : UfoGuide), us[i]? = some u → us'[i]? = some u' → HasProps us.length i props u u') ?_ ?_ props us' h
  · refine ⟨rfl, fun i u u' hu hu' => ?_⟩
    rw [hu] at hu'
    cases hu'
    have := hplain u (List.mem_of_getElem? hu)
    refine ⟨⟨rfl, rfl, rfl⟩, ?_, ?_⟩
    · rw [this.1]; exact lastProp_nil
    · rw [this.2]; exact lastProp_nil
  · intro props l p l' hinv hstep
    obtain ⟨hlen, hl⟩ := hinv
    rcases applyProp_cases hstep with ⟨hbig, rfl⟩ | ⟨j, g, g', hadd, hg, hw, rfl⟩
    · refine ⟨hlen, fun i u u' hu hu' => ?_⟩
      have hi : i < us.length := by rw [List.getElem?_eq_some_iff] at hu; exact hu.1
      have hno : ¬ Addresses us.length i p := by unfold Addresses; rw [hlen] at hbig; omega
      obtain ⟨a, b, c⟩ := hl i u u' hu hu'
      refine ⟨a, ?_, ?_⟩
      · rw [propsOf_snoc, if_neg hno, List.append_nil]; exact b
      · rw [propsOf_snoc, if_neg hno, List.append_nil]; exact c
    · refine ⟨by rw [List.length_set, hlen], fun i u u' hu hu' => ?_⟩
      have hi : i < us.length := by rw [List.getElem?_eq_some_iff] at hu; exact hu.1
      have hj : j < us.length := by rw [List.getElem?_eq_some_iff] at hg; rw [← hlen]; exact hg.1
      rw [hlen] at hadd
      by_cases hij : j = i
      · subst hij
        rw [List.getElem?_set_self (by omega)] at hu'
        cases hu'
        obtain ⟨a, b, c⟩ := hl j u g hu hg
        obtain ⟨a', b', c'⟩ := withProp_cases hw
        refine ⟨⟨a'.1.trans a.1, a'.2.1.trans a.2.1, a'.2.2.trans a.2.2⟩, ?_, ?_⟩
        · rw [propsOf_snoc, if_pos hadd]
          rcases b' with ⟨h1, h2⟩ | ⟨c, t, h1, h2, h3⟩
          · rw [h2]; exact lastProp_none h1 b
          · rw [h3]; exact lastProp_some h1 h2
        · rw [propsOf_snoc, if_pos hadd]
          rcases c' with ⟨h1, h2⟩ | ⟨n, h1, h2⟩
          · rw [h2]; exact lastProp_none h1 c
          · rw [h2]; exact lastProp_some h1 rfl
      · rw [List.getElem?_set_ne hij] at hu'
        have hno : ¬ Addresses us.length i p := fun hc => hij (addresses_unique hadd hc hj hi)
        obtain ⟨a, b, c⟩ := hl i u u' hu hu'
        refine ⟨a, ?_, ?_⟩
        · rw [propsOf_snoc, if_neg hno, List.append_nil]; exact b
        · rw [propsOf_snoc, if_neg hno, List.append_nil]; exact c

section
variable {ops : AngleOps} {deg : ops.Angle → Rat}

theorem masterGuide_ok {v : Bool} {m : Nat} {l : List (Guide ops.Angle)} {u : UfoGuide} (h : masterGuide ops deg v (m : Int) l = .ok u) :
    ∃ g, l[m]? = some g ∧ u = ⟨if v then g.pos else 0, if v then 0 else g.pos, guideAngle v (deg g.angle), none, none⟩ := by
  unfold masterGuide at h
  cases hg : pyIndex l (m : Int) with
  | error er => rw [hg] at h; cases h
  | ok g =>
    rw [hg] at h
    cases h
    refine ⟨g, ?_, rfl⟩
    exact pyIndex_nat hg

/-- guides of one direction -/
theorem direction_guides (hdeg : ∀ a, -90 ≤ deg a ∧ deg a ≤ 90) {v : Bool} {m : Nat} {gs : List (List (Guide ops.Angle))} {us us' : List UfoGuide}
    {props : List GuideProp} (h1 : gs.mapM (masterGuide ops deg v (m : Int)) = .ok us) (h2 : props.foldlM applyProp us = .ok us') :
    us'.length = gs.length ∧ ∀ (i : Nat) (l : List (Guide ops.Angle)) (u : UfoGuide), gs[i]? = some l → us'[i]? = some u →
      GuideFrom ops deg v m gs.length i l props u := by
  have hm := (mapM_ok_iff _ _ _).1 h1
  have hlen : us.length = gs.length := by simpa using (congrArg List.length hm).symm
  have hget : ∀ (i : Nat) (l : List (Guide ops.Angle)), gs[i]? = some l → ∃ u, us[i]? = some u ∧ masterGuide ops deg v (m : Int) l = .ok u := by
    intro i l hl
    have hi : i < gs.length := by rw [List.getElem?_eq_some_iff] at hl; exact hl.1
    refine ⟨us[i]'(by omega), List.getElem?_eq_getElem (by omega), ?_⟩
    have e := congrArg (fun x => x[i]?) hm
    rw [List.getElem?_map, List.getElem?_map, hl, List.getElem?_eq_getElem (by omega : i < us.length)] at e
    exact Option.some.inj e
  have hplain : ∀ u ∈ us, u.color = none ∧ u.name = none := by
    intro u hu
    obtain ⟨i, hi⟩ := List.mem_iff_getElem?.1 hu
    have hi' : i < us.length := by rw [List.getElem?_eq_some_iff] at hi; exact hi.1
    obtain ⟨u', h1', h2'⟩ := hget i _ (List.getElem?_eq_getElem (by omega))
    rw [hi] at h1'
    cases h1'
    obtain ⟨g, -, rfl⟩ := masterGuide_ok h2'
    exact ⟨rfl, rfl⟩
  obtain ⟨hlen', hprops⟩ := applyProps_fold hplain props us' h2
  refine ⟨by omega, fun i l u hl hu => ?_⟩
  obtain ⟨u0, hu0, hg0⟩ := hget i l hl
  obtain ⟨⟨a1, a2, a3⟩, b, c⟩ := hprops i u0 u hu0 hu
  rw [hlen] at b c
  obtain ⟨g, hg, rfl⟩ := masterGuide_ok hg0
  refine ⟨⟨g, hg, ?_, ?_⟩, b, c⟩
  · rw [a1, a2]; cases v <;> rfl
  · rw [a3]; exact C81_angle v (hdeg g.angle)

theorem ufoGuides_cases {g : MMGuides ops.Angle} {p : GuideProps} {m : Int} {l : List UfoGuide} (h : ufoGuides ops deg g p m = .ok l) :
    ∃ uh uv uh' uv', g.h.mapM (masterGuide ops deg false m) = .ok uh ∧ g.v.mapM (masterGuide ops deg true m) = .ok uv ∧
      p.h.foldlM applyProp uh = .ok uh' ∧ p.v.foldlM applyProp uv = .ok uv' ∧ l = uh' ++ uv' := by
  unfold ufoGuides masterGuides applyProps at h
  cases h1 : g.h.mapM (masterGuide ops deg false m) with
  | error er => rw [h1] at h; cases h
  | ok uh =>
    cases h2 : g.v.mapM (masterGuide ops deg true m) with
    | error er => rw [h1, h2] at h; cases h
    | ok uv =>
      rw [h1, h2] at h
      replace h : (p.h.foldlM applyProp uh >>= fun h => p.v.foldlM applyProp uv >>= fun v => (Except.ok (h ++ v) : Except PyErr _)) = .ok l := h
      cases h3 : p.h.foldlM applyProp uh with
      | error er => rw [h3] at h; cases h
      | ok uh' =>
        cases h4 : p.v.foldlM applyProp uv with
        | error er => rw [h3, h4] at h; cases h
        | ok uv' =>
          rw [h3, h4] at h
          cases h
          exact ⟨uh, uv, uh', uv', rfl, rfl, h3, h4, rfl⟩

/-- The guidelines of a master in the UFO are the stored horizontal guides followed by the vertical guides, in order, none missing and
none added; each has its position in that master, its angle, and colour and name of the last property with the guide's index. -/
theorem C81_guides (hdeg : ∀ a, -90 ≤ deg a ∧ deg a ≤ 90) {g : MMGuides ops.Angle} {p : GuideProps} {m : Nat} {l : List UfoGuide}
    (h : ufoGuides ops deg g p m = .ok l) :
    l.length = g.h.length + g.v.length ∧
    (∀ (i : Nat) (s : List (Guide ops.Angle)), g.h[i]? = some s → ∃ u, l[i]? = some u ∧ GuideFrom ops deg false m g.h.length i s p.h u) ∧
    (∀ (i : Nat) (s : List (Guide ops.Angle)), g.v[i]? = some s →
      ∃ u, l[g.h.length + i]? = some u ∧ GuideFrom ops deg true m g.v.length i s p.v u) := by
  obtain ⟨uh, uv, uh', uv', h1, h2, h3, h4, rfl⟩ := ufoGuides_cases h
  obtain ⟨l1, e1⟩ := direction_guides hdeg h1 h3
  obtain ⟨l2, e2⟩ := direction_guides hdeg h2 h4
  refine ⟨by rw [List.length_append, l1, l2], fun i s hs => ?_, fun i s hs => ?_⟩
  · have hi : i < g.h.length := by rw [List.getElem?_eq_some_iff] at hs; exact hs.1
    refine ⟨uh'[i]'(by omega), ?_, e1 i s _ hs (List.getElem?_eq_getElem (by omega))⟩
    rw [List.getElem?_append_left (by omega)]
    exact List.getElem?_eq_getElem (by omega)
  · have hi : i < g.v.length := by rw [List.getElem?_eq_some_iff] at hs; exact hs.1
    refine ⟨uv'[i]'(by omega), ?_, e2 i s _ hs (List.getElem?_eq_getElem (by omega))⟩
    rw [List.getElem?_append_right (by omega), l1, show g.h.length + i - g.h.length = i by omega]
    exact List.getElem?_eq_getElem (by omega)

theorem masterGuide_exists {v : Bool} {m : Int} {l : List (Guide ops.Angle)} :
    (∃ u, masterGuide ops deg v m l = .ok u) ↔ -(l.length : Int) ≤ m ∧ m < l.length := by
  rw [← index_ok]
  unfold masterGuide
  cases hg : pyIndex l m with
  | error er =>
    constructor
    · rintro ⟨u, hu⟩; cases hu
    · rintro ⟨u, hu⟩; cases hu
  | ok g => exact ⟨fun _ => ⟨g, rfl⟩, fun _ => ⟨_, rfl⟩⟩

theorem mapM_exists_iff {α β : Type} (f : α → Except PyErr β) (l : List α) : (∃ r, l.mapM f = .ok r) ↔ ∀ x ∈ l, ∃ y, f x = .ok y := by
  induction l with
  | nil => simp [pure, Except.pure]
  | cons x l ih =>
    rw [List.mapM_cons]
    constructor
    · rintro ⟨r, h⟩
      cases hx : f x with
      | error er => rw [hx] at h; cases h
      | ok y =>
        cases hl : l.mapM f with
        | error er => rw [hx, hl] at h; cases h
        | ok r' =>
          intro z hz
          rcases List.mem_cons.1 hz with rfl | hz
          · exact ⟨y, hx⟩
          · exact ih.1 ⟨r', hl⟩ z hz
    · intro h
      obtain ⟨y, hy⟩ := h x List.mem_cons_self
      obtain ⟨r, hr⟩ := ih.2 fun z hz => h z (List.mem_cons_of_mem _ hz)
      exact ⟨y :: r, by rw [hy, hr]; rfl⟩

theorem withProp_exists {g : UfoGuide} {p : GuideProp} : (∃ g', withProp g p = .ok g') ↔ ∀ c, p.color = some c → ColorOk c := by
  unfold withProp
  cases hc : p.color with
  | none => exact ⟨fun _ c h => (by cases h), fun _ => ⟨_, rfl⟩⟩
  | some c =>
    dsimp only
    constructor
    · rintro ⟨g', h⟩ c' hc'
      cases hc'
      rw [← guideColor_ok]
      cases ht : guideColor c with
      | error er => rw [ht] at h; cases h
      | ok t => exact ⟨t, rfl⟩
    · intro h
      obtain ⟨t, ht⟩ := (guideColor_ok c).2 (h c rfl)
      rw [ht]
      exact ⟨_, rfl⟩

theorem applyProp_exists {l : List UfoGuide} {p : GuideProp} : (∃ l', applyProp l p = .ok l') ↔ Applicable l.length p := by
  unfold applyProp Applicable
  by_cases hc : (l.length : Int) ≤ p.index - 1
  · rw [if_pos hc]
    exact ⟨fun _ => .inl (by omega), fun _ => ⟨l, rfl⟩⟩
  · rw [if_neg hc]
    constructor
    · rintro ⟨l', h⟩
      refine .inr ?_
      cases hg : pyIndex l (p.index - 1) with
      | error er => rw [hg] at h; cases h
      | ok g =>
        rw [hg] at h
        have hx := index_ok.1 ⟨g, hg⟩
        refine ⟨by omega, ?_⟩
        rw [← withProp_exists (g := g)]
        cases hw : withProp g p with
        | error er =>
          replace h : (withProp g p >>= fun g => (Except.ok (l.set (if p.index - 1 < 0 then p.index - 1 + l.length else p.index - 1).toNat g) :
            Except PyErr _)) = .ok l' := h
          rw [hw] at h; cases h
        | ok g' => exact ⟨g', rfl⟩
    · rintro (h | ⟨h1, h2⟩)
      · omega
      · obtain ⟨g, hg⟩ := index_ok.2 (⟨by omega, by omega⟩ : -(l.length : Int) ≤ p.index - 1 ∧ p.index - 1 < l.length)
        obtain ⟨g', hg'⟩ := (withProp_exists (g := g)).2 h2
        rw [hg]
        show ∃ l', (withProp g p >>= fun g => (Except.ok (l.set (if p.index - 1 < 0 then p.index - 1 + l.length else p.index - 1).toNat g) :
            Except PyErr _)) = .ok l'
        rw [hg']
        exact ⟨_, rfl⟩

theorem applyProp_length {l l' : List UfoGuide} {p : GuideProp} (h : applyProp l p = .ok l') : l'.length = l.length := by
  rcases applyProp_cases h with ⟨-, rfl⟩ | ⟨i, g, g', -, -, -, rfl⟩
  · rfl
  · rw [List.length_set]

theorem fold_exists (props : List GuideProp) (l : List UfoGuide) :
    (∃ l', props.foldlM applyProp l = .ok l') ↔ ∀ p ∈ props, Applicable l.length p := by
  induction props generalizing l with
  | nil => simp [pure, Except.pure]
  | cons p props ih =>
    rw [List.foldlM_cons]
    constructor
    · rintro ⟨l', h⟩
      cases hp : applyProp l p with
      | error er => rw [hp] at h; cases h
      | ok l1 =>
        rw [hp] at h
        intro q hq
        rcases List.mem_cons.1 hq with rfl | hq
        · exact applyProp_exists.1 ⟨l1, hp⟩
        · have := (ih l1).1 ⟨l', h⟩ q hq
          rwa [applyProp_length hp] at this
    · intro h
      obtain ⟨l1, hp⟩ := applyProp_exists.2 (h p List.mem_cons_self)
      rw [hp]
      have := (ih l1).2 (fun q hq => by rw [applyProp_length hp]; exact h q (List.mem_cons_of_mem _ hq))
      exact this

/-- The conversion of the guidelines succeeds exactly if every guide has a position for the master, and every property that is not
beyond the last guide belongs to a guide (counted from the end if negative) and has a colour that can be converted. -/
theorem C81_success (g : MMGuides ops.Angle) (p : GuideProps) (m : Nat) :
    (∃ l, ufoGuides ops deg g p m = .ok l) ↔
      (∀ s ∈ g.h, m < s.length) ∧ (∀ s ∈ g.v, m < s.length) ∧
      (∀ q ∈ p.h, Applicable g.h.length q) ∧ (∀ q ∈ p.v, Applicable g.v.length q) := by
  have hrange : ∀ s : List (Guide ops.Angle), (-(s.length : Int) ≤ m ∧ (m : Int) < s.length) ↔ m < s.length := by intro s; omega
  have hmap : ∀ (v : Bool) (gs : List (List (Guide ops.Angle))), (∃ r, gs.mapM (masterGuide ops deg v m) = .ok r) ↔ ∀ s ∈ gs, m < s.length := by
    intro v gs
    rw [mapM_exists_iff]
    simp only [masterGuide_exists, hrange]
  have hlen : ∀ {v : Bool} {gs : List (List (Guide ops.Angle))} {us : List UfoGuide}, gs.mapM (masterGuide ops deg v m) = .ok us → us.length = gs.length := by
    intro v gs us h
    simpa using (congrArg List.length ((mapM_ok_iff _ _ _).1 h)).symm
  constructor
  · rintro ⟨l, h⟩
    obtain ⟨uh, uv, uh', uv', h1, h2, h3, h4, rfl⟩ := ufoGuides_cases h
    refine ⟨(hmap false _).1 ⟨_, h1⟩, (hmap true _).1 ⟨_, h2⟩, ?_, ?_⟩
    · rw [← hlen h1]; exact (fold_exists _ _).1 ⟨_, h3⟩
    · rw [← hlen h2]; exact (fold_exists _ _).1 ⟨_, h4⟩
  · rintro ⟨a, b, c, d⟩
    obtain ⟨uh, h1⟩ := (hmap false _).2 a
    obtain ⟨uv, h2⟩ := (hmap true _).2 b
    rw [← hlen h1] at c
    rw [← hlen h2] at d
    obtain ⟨uh', h3⟩ := (fold_exists _ _).2 c
    obtain ⟨uv', h4⟩ := (fold_exists _ _).2 d
    unfold ufoGuides masterGuides applyProps
    rw [h1, h2]
    show ∃ l, (p.h.foldlM applyProp uh >>= fun h => p.v.foldlM applyProp uv >>= fun v => (Except.ok (h ++ v) : Except PyErr _)) = .ok l
    rw [h3, h4]
    exact ⟨_, rfl⟩

end

/-- two horizontal guides and one vertical guide of a font with two masters; the second horizontal guide is red and has got a name -/
example : (ufoGuides exampleAngles (fun _ => -10) ⟨[[⟨100, (0 : Int)⟩, ⟨110, (0 : Int)⟩], [⟨500, (0 : Int)⟩, ⟨520, (0 : Int)⟩]],
      [[⟨40, (0 : Int)⟩, ⟨44, (0 : Int)⟩]]⟩ ⟨[⟨2, some (lit "#ff0080"), some (lit "top")⟩, ⟨9, none, none⟩], []⟩ 1).toOption =
    some [⟨0, 110, 350, none, none⟩, ⟨0, 520, 350, some (lit "1.0000,0.0000,0.5020,1"), some (lit "top")⟩, ⟨44, 0, 100, none, none⟩] := by
  decide +kernel

/-- the hypotheses about the colours are met: a stored colour -/
example : (guideColor (colorFromBgr (hex06 0x8000ff))).toOption = some (lit "1.0000,0.0000,0.5020,1") := by decide +kernel

end Verif.Props
