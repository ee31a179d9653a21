import Verif.Spec.UfoMasterGlyph
import Verif.Props.UfoGuides
import Verif.Props.UfoPaths
import Verif.Props.UfoDesign
import Verif.Props.UfoTth
import Verif.Props.UfoClasses
import Verif.Props.Glyph
import Mathlib.Data.Rat.Lemmas
/-! C83: a master of a glyph. -/
set_option autoImplicit false
namespace Verif.Props
open Verif Verif.Spec

/-! ### doubles -/

/-- numbers with up to 53 bits are doubles, whatever the exponent -/
theorem fl_scaled {v : Int} (e : Int) (h : |v| < 9007199254740992) : fl ((v : Rat) * 2 ^ e) = (v : Rat) * 2 ^ e := by
  unfold fl
  split
  · next h0 => rw [h0]
  · next h0 =>
    have hj : (0 : Rat) < 2 ^ e := zpow_pos (by norm_num) _
    have hpos : (0 : Rat) < |(v : Rat) * 2 ^ e| := abs_pos.2 h0
    have hlt : |(v : Rat) * 2 ^ e| < ((2 : Nat) : Rat) ^ ((53 : Int) + e) := by
      rw [abs_mul, abs_of_pos hj, zpow_add₀ (by norm_num)]
      have : |(v : Rat)| < 9007199254740992 := by
        rw [← Int.cast_abs]; exact_mod_cast h
      push_cast
      refine mul_lt_mul_of_pos_right ?_ hj
      exact this
    have hlog := (Int.lt_zpow_iff_log_lt (b := 2) (by norm_num) hpos).1 hlt
    obtain ⟨k, hk⟩ : ∃ k : Nat, Int.log 2 |(v : Rat) * 2 ^ e| - 52 = e - k :=
      ⟨(e - (Int.log 2 |(v : Rat) * 2 ^ e| - 52)).toNat, by omega⟩
    rw [hk]
    have : (v : Rat) * 2 ^ e / 2 ^ (e - k) = ((v * 2 ^ k : Int) : Rat) := by
      rw [zpow_sub₀ (by norm_num), zpow_natCast]
      push_cast
      field_simp
    rw [this, roundEven_int, zpow_sub₀ (by norm_num), zpow_natCast]
    push_cast
    field_simp

theorem toRat_fl {d : Dbl} {x : Rat} (h : d.toRat = some x) : fl x = x := by
  unfold Dbl.toRat at h
  dsimp only at h
  have hm : d.bits.toNat % 2 ^ 52 < 2 ^ 52 := Nat.mod_lt _ (by norm_num)
  have hsign : ∀ (s : Rat), (∃ t : Int, |t| = 1 ∧ s = t) → ∀ (m : Nat) (e : Int), m < 2 ^ 53 → fl (s * (m : Rat) * 2 ^ e) = s * (m : Rat) * 2 ^ e := by
    rintro s ⟨t, ht, rfl⟩ m e hm
    have := fl_scaled (v := t * (m : Int)) e (by rw [abs_mul, ht, one_mul, Int.abs_natCast]; exact_mod_cast hm)
    push_cast at this
    exact this
  have hs : ∃ t : Int, |t| = 1 ∧ (if d.bits.toNat / 2 ^ 63 = 1 then (-1 : Rat) else 1) = t := by
    by_cases hb : d.bits.toNat / 2 ^ 63 = 1
    · rw [if_pos hb]; exact ⟨-1, by norm_num, by norm_num⟩
    · rw [if_neg hb]; exact ⟨1, by norm_num, by norm_num⟩
  by_cases h1 : d.bits.toNat / 2 ^ 52 % 2048 = 2047
  · rw [if_pos h1] at h; cases h
  · rw [if_neg h1] at h
    by_cases h2 : d.bits.toNat / 2 ^ 52 % 2048 = 0
    · rw [if_pos h2] at h
      cases h
      exact hsign _ hs _ _ (by omega)
    · rw [if_neg h2] at h
      cases h
      exact hsign _ hs _ _ (by omega)

theorem round15_near (x : Rat) : ∃ k : Int, |x * 10 ^ 15 - k| ≤ 1 / 2 ∧ |round15 x - k / 10 ^ 15| ≤ |(k : Rat) / 10 ^ 15| / 2 ^ 53 := by
  refine ⟨roundEven (x * 10 ^ 15), ?_, fl_err _⟩
  rw [abs_sub_comm]
  exact roundEven_err _

theorem round15_decimal {x : Rat} {n : Int} (hn : |n| < 2 ^ 52) (hx : x = fl ((n : Rat) / 10 ^ 15)) : round15 x = x := by
  have h : |x * 10 ^ 15 - n| < 1 / 2 := by
    have he := fl_err ((n : Rat) / 10 ^ 15)
    rw [← hx] at he
    have hp : (0 : Rat) < 10 ^ 15 := by norm_num
    have : x * 10 ^ 15 - n = (x - (n : Rat) / 10 ^ 15) * 10 ^ 15 := by field_simp
    rw [this, abs_mul, abs_of_pos hp]
    have hn' : |(n : Rat)| < 2 ^ 52 := by rw [← Int.cast_abs]; exact_mod_cast hn
    rw [abs_div, abs_of_pos hp] at he
    have h3 : |x - (n : Rat) / 10 ^ 15| * 10 ^ 15 ≤ |(n : Rat)| / 10 ^ 15 / 2 ^ 53 * 10 ^ 15 := mul_le_mul_of_nonneg_right he (le_of_lt hp)
    have h4 : |(n : Rat)| / 10 ^ 15 / 2 ^ 53 * 10 ^ 15 = |(n : Rat)| / 2 ^ 53 := by field_simp
    rw [h4] at h3
    have h5 : |(n : Rat)| / 2 ^ 53 < 1 / 2 := by
      rw [div_lt_iff₀ (by norm_num)]
      norm_num at hn' ⊢
      linarith
    linarith
  unfold round15
  rw [roundEven_near h, ← hx]

theorem ufoScale_spec (d : Dbl) : ScaleOf d (ufoScale d) := by
  have hval : ∀ x, d.toRat = some x → scaleValue (ufoScale d) = some (round15 x) := by
    intro x hx
    unfold ufoScale
    rw [hx]
    dsimp only
    by_cases h1 : (round15 x).den = 1
    · rw [if_pos h1]
      simp only [scaleValue, Option.some.injEq]
      exact (Rat.den_eq_one_iff _).1 h1
    · rw [if_neg h1]; rfl
  constructor
  · intro h
    unfold ufoScale
    rw [h]
  · intro x hx
    exact ⟨_, hval x hx, round15_near x⟩
  · intro x n hx hn
    have hr : round15 x = n := by
      have e : fl (n : Rat) = n := by rw [← hn]; exact toRat_fl hx
      unfold round15
      have : x * 10 ^ 15 = ((n * 10 ^ 15 : Int) : Rat) := by rw [hn]; push_cast; rfl
      rw [this, roundEven_int]
      have e15 : ((n * 10 ^ 15 : Int) : Rat) / 10 ^ 15 = n := by
        push_cast
        norm_num
      rw [e15, e]
    unfold ufoScale
    rw [hx]
    dsimp only
    rw [hr, if_pos (Rat.den_intCast n), Rat.num_intCast]
  · intro q n hq hn
    unfold ufoScale at hq
    cases hd : d.toRat with
    | none => rw [hd] at hq; cases hq
    | some x =>
      rw [hd] at hq
      dsimp only at hq
      by_cases h1 : (round15 x).den = 1
      · rw [if_pos h1] at hq; cases hq
      · rw [if_neg h1] at hq
        cases hq
        rw [hn] at h1
        exact h1 (Rat.den_intCast n)
  · intro x n hx hn hxn
    rw [hval x hx, round15_decimal hn hxn]

/-! ### components -/

theorem elementAt_iff {α : Type} {l : List α} {i : Int} {x : α} : pyIndex l i = .ok x ↔ ElementAt l i x := by
  constructor
  · intro h
    exact ⟨(pyIndex_ok h).2, (pyIndex_ok h).1⟩
  · rintro ⟨h1, h2⟩
    unfold pyIndex
    by_cases h0 : 0 ≤ i
    · rw [if_pos h0] at h2 ⊢
      rw [h2]
    · rw [if_neg h0] at h2 ⊢
      rw [if_pos (by omega)]
      rw [h2]

theorem masterComponent_ok {order : List PyStr} {k : Nat} {c : Component} {out : UfoComponent} (h : masterComponent order k c = .ok out) :
    ComponentOf order k c out := by
  unfold masterComponent at h
  cases h1 : pyIndex c.scaleX (k : Int) with
  | error e => rw [h1] at h; cases h
  | ok xx =>
    cases h2 : pyIndex c.scaleY (k : Int) with
    | error e => rw [h1, h2] at h; cases h
    | ok yy =>
      cases h3 : pyIndex c.offsetX (k : Int) with
      | error e => rw [h1, h2, h3] at h; cases h
      | ok dx =>
        cases h4 : pyIndex c.offsetY (k : Int) with
        | error e => rw [h1, h2, h3, h4] at h; cases h
        | ok dy =>
          cases h5 : pyIndex order c.gid with
          | error e => rw [h1, h2, h3, h4, h5] at h; cases h
          | ok base =>
            rw [h1, h2, h3, h4, h5] at h
            cases h
            exact ⟨elementAt_iff.1 h5, pyIndex_get?.1 h3, pyIndex_get?.1 h4, ⟨_, pyIndex_get?.1 h1, ufoScale_spec _⟩, ⟨_, pyIndex_get?.1 h2, ufoScale_spec _⟩⟩

theorem index_nat {α : Type} {l : List α} {k : Nat} : (∃ x, pyIndex l (k : Int) = .ok x) ↔ k < l.length := by
  rw [index_ok]; omega

theorem masterComponent_exists {order : List PyStr} {k : Nat} {c : Component} :
    (∃ out, masterComponent order k c = .ok out) ↔
      (-(order.length : Int) ≤ c.gid ∧ c.gid < order.length) ∧ k < c.offsetX.length ∧ k < c.offsetY.length ∧ k < c.scaleX.length ∧
        k < c.scaleY.length := by
  rw [← index_ok, ← index_nat, ← index_nat, ← index_nat, ← index_nat]
  unfold masterComponent
  constructor
  · rintro ⟨out, h⟩
    cases h1 : pyIndex c.scaleX (k : Int) with
    | error e => rw [h1] at h; cases h
    | ok xx =>
      cases h2 : pyIndex c.scaleY (k : Int) with
      | error e => rw [h1, h2] at h; cases h
      | ok yy =>
        cases h3 : pyIndex c.offsetX (k : Int) with
        | error e => rw [h1, h2, h3] at h; cases h
        | ok dx =>
          cases h4 : pyIndex c.offsetY (k : Int) with
          | error e => rw [h1, h2, h3, h4] at h; cases h
          | ok dy =>
            cases h5 : pyIndex order c.gid with
            | error e => rw [h1, h2, h3, h4, h5] at h; cases h
            | ok base => exact ⟨⟨_, rfl⟩, ⟨_, rfl⟩, ⟨_, rfl⟩, ⟨_, rfl⟩, ⟨_, rfl⟩⟩
  · rintro ⟨⟨a, h5⟩, ⟨b, h3⟩, ⟨c', h4⟩, ⟨d, h1⟩, ⟨e, h2⟩⟩
    rw [h1, h2, h3, h4, h5]
    exact ⟨_, rfl⟩

/-! ### anchors -/

theorem setAnchors_ok {k : Nat} {mm : List MMAnchor} {as out : List GdefAnchor} (h : setAnchors k as mm = .ok out) :
    mm.length ≤ as.length ∧ out.length = as.length ∧
    ∀ (j : Nat) (a b : GdefAnchor), as[j]? = some a → out[j]? = some b → b.name = a.name ∧
      (∀ m, mm[j]? = some m → m.x[k]? = some b.x ∧ m.y[k]? = some b.y) ∧ (mm[j]? = none → b.x = a.x ∧ b.y = a.y) := by
  induction mm generalizing as out with
  | nil =>
    have : as = out := by cases as <;> (rw [setAnchors] at h; cases h; rfl)
    subst this
    refine ⟨by simp, rfl, fun j a b h1 h2 => ?_⟩
    rw [h1] at h2; cases h2
    exact ⟨rfl, fun m hm => by simp at hm, fun _ => ⟨rfl, rfl⟩⟩
  | cons m mm ih =>
    cases as with
    | nil => rw [setAnchors] at h; cases h
    | cons a as =>
      rw [setAnchors] at h
      cases h1 : pyIndex m.x (k : Int) with
      | error e => rw [h1] at h; cases h
      | ok x =>
        cases h2 : pyIndex m.y (k : Int) with
        | error e => rw [h1, h2] at h; cases h
        | ok y =>
          cases h3 : setAnchors k as mm with
          | error e => rw [h1, h2, h3] at h; cases h
          | ok l =>
            rw [h1, h2, h3] at h
            cases h
            obtain ⟨i1, i2, i3⟩ := ih h3
            refine ⟨by simpa using i1, by simpa using i2, fun j a' b' g1 g2 => ?_⟩
            cases j with
            | zero =>
              cases g1; cases g2
              exact ⟨rfl, fun m' hm => by cases hm; exact ⟨pyIndex_get?.1 h1, pyIndex_get?.1 h2⟩, fun hm => by cases hm⟩
            | succ j => exact i3 j a' b' g1 g2

theorem masterAnchors_ok {k : Nat} {mm : Option (List MMAnchor)} {as out : List GdefAnchor} (h : masterAnchors as mm k = .ok out) :
    AnchorsOf as (mm.getD []) k out := by
  have key : ∀ l, setAnchors k as l = .ok out → AnchorsOf as l k out := by
    intro l hl
    obtain ⟨h1, h2, h3⟩ := setAnchors_ok hl
    refine ⟨h1, ?_, fun j a b ha hb => ?_⟩
    · rw [List.length_zip, List.length_range, Nat.min_self, h2]
    · obtain ⟨g1, g2⟩ := List.getElem?_zip_eq_some.1 ha
      have : a.1 = j := by
        obtain ⟨i1, i2⟩ := List.getElem?_eq_some_iff.1 g1
        rw [List.getElem_range] at i2
        exact i2.symm
      rw [this]
      exact h3 j _ _ g2 hb
  cases mm with
  | none =>
    cases h
    exact key [] (by cases as <;> rfl)
  | some mm => exact key mm h

theorem setAnchors_exists {k : Nat} {mm : List MMAnchor} {as : List GdefAnchor} :
    (∃ out, setAnchors k as mm = .ok out) ↔ mm.length ≤ as.length ∧ ∀ m ∈ mm, k < m.x.length ∧ k < m.y.length := by
  induction mm generalizing as with
  | nil =>
    refine ⟨fun _ => ⟨by simp, by simp⟩, fun _ => ⟨as, by cases as <;> rfl⟩⟩
  | cons m mm ih =>
    cases as with
    | nil => simp [setAnchors]
    | cons a as =>
      rw [setAnchors]
      constructor
      · rintro ⟨out, h⟩
        cases h1 : pyIndex m.x (k : Int) with
        | error e => rw [h1] at h; cases h
        | ok x =>
          cases h2 : pyIndex m.y (k : Int) with
          | error e => rw [h1, h2] at h; cases h
          | ok y =>
            cases h3 : setAnchors k as mm with
            | error e => rw [h1, h2, h3] at h; cases h
            | ok l =>
              obtain ⟨i1, i2⟩ := ih.1 ⟨l, h3⟩
              refine ⟨by simpa using i1, fun m' hm => ?_⟩
              rcases List.mem_cons.1 hm with rfl | hm
              · exact ⟨index_nat.1 ⟨x, h1⟩, index_nat.1 ⟨y, h2⟩⟩
              · exact i2 m' hm
      · rintro ⟨i1, i2⟩
        obtain ⟨x, h1⟩ := index_nat.2 (i2 m (by simp)).1
        obtain ⟨y, h2⟩ := index_nat.2 (i2 m (by simp)).2
        obtain ⟨l, h3⟩ := (ih (as := as)).2 ⟨by simpa using i1, fun m' hm => i2 m' (by simp [hm])⟩
        rw [h1, h2, h3]
        exact ⟨_, rfl⟩

theorem masterAnchors_exists {k : Nat} {mm : Option (List MMAnchor)} {as : List GdefAnchor} :
    (∃ out, masterAnchors as mm k = .ok out) ↔ ∀ l, mm = some l → l.length ≤ as.length ∧ ∀ m ∈ l, k < m.x.length ∧ k < m.y.length := by
  cases mm with
  | none => simp [masterAnchors]
  | some mm =>
    rw [masterAnchors, setAnchors_exists]
    constructor
    · intro h l hl; cases hl; exact h
    · intro h; exact h mm rfl

/-! ### outlines -/

theorem nodesAre_exists {labels : List (Int × PyStr)} {k : Nat} {nodes : List MMNode} :
    (∃ l, NodesAre labels k nodes l) ↔ HasNodes k nodes := by
  constructor
  · rintro ⟨l, h1, h2⟩ n hn
    obtain ⟨i, hi, rfl⟩ := List.getElem_of_mem hn
    obtain ⟨a1, a2, ⟨flags, a3, -⟩, rest, a4, a5⟩ := h2 i _ (l[i]'(by omega)) (List.getElem?_eq_getElem hi) (List.getElem?_eq_getElem (by omega))
    refine ⟨by rw [a3]; simp, _, rest, a4, fun hk => ?_⟩
    rw [if_pos (a1.trans hk)] at a5
    rw [a5.1]; exact a5.2
  · intro h
    have key : ∀ (ns : List MMNode) (j : Nat), HasNodes k ns → ∃ l : List MasterNode, ns.length = l.length ∧
        ∀ (i : Nat) n a, ns[i]? = some n → l[i]? = some a → NodeIs labels k (j + i) n a := by
      intro ns
      induction ns with
      | nil => intro j _; exact ⟨[], rfl, fun i n a hi => by simp at hi⟩
      | cons n ns ih =>
        intro j hn
        obtain ⟨l, h1, h2⟩ := ih (j + 1) fun x hx => hn x (by simp [hx])
        obtain ⟨h3, p, rest, h4, h5⟩ := hn n (by simp)
        obtain ⟨flags, h6⟩ := Option.ne_none_iff_exists'.1 h3
        refine ⟨⟨n.type, decide (flags % 2 = 1), decide (flags / 8 % 2 = 1), dictGet labels (j : Int), p, if n.type = .curve then rest else []⟩ :: l,
          by simp [h1], fun i n' a' g1 g2 => ?_⟩
        cases i with
        | zero =>
          cases g1; cases g2
          refine ⟨rfl, rfl, ⟨flags, h6, by simp, by simp⟩, rest, h4, ?_⟩
          by_cases hk : n.type = .curve
          · simp only [hk, if_true, true_and]; exact h5 hk
          · simp only [hk, if_false]
        | succ i =>
          have := h2 i n' a' g1 g2
          rwa [show j + 1 + i = j + (i + 1) by omega] at this
    obtain ⟨l, h1, h2⟩ := key nodes 0 h
    refine ⟨l, h1, fun i n a g1 g2 => ?_⟩
    have := h2 i n a g1 g2
    rwa [Nat.zero_add] at this

/-- a contour that can be closed: it is not a single on-curve point of a curve -/
def Closable (c : UfoContour) : Prop := ∀ p, c = [p] → p.seg ≠ some .curve

theorem flush_exists {c : UfoContour} (hne : c ≠ []) (h : Closable c) (b : Bool) : ∃ r, flushContour c b = .ok r := by
  unfold flushContour
  by_cases hb : b = true
  · rw [if_pos hb]; exact ⟨_, rfl⟩
  · rw [if_neg hb]
    cases c with
    | nil => exact absurd rfl hne
    | cons first rest =>
      obtain ⟨last, hl⟩ : ∃ last, (first :: rest).getLast? = some last := ⟨_, List.getLast?_eq_getLast_of_ne_nil (by simp)⟩
      rw [hl]
      dsimp only
      have hclose : (rest = [] → last.seg = some .line ∨ last.seg = some .qcurve) → ∃ r, applyClosepath (first :: rest) = .ok r := by
        intro hr
        unfold applyClosepath
        rw [hl]
        dsimp only
        by_cases hp : last.pt = first.pt ∧ last.seg ≠ some .line ∧ last.seg ≠ some .qcurve
        · rw [if_pos hp]
          cases rest with
          | nil => rcases hr rfl with h | h
                   · exact absurd h hp.2.1
                   · exact absurd h hp.2.2
          | cons y ys =>
            dsimp only
            cases first.name with
            | none => exact ⟨_, rfl⟩
            | some x => cases last.name <;> exact ⟨_, rfl⟩
        · rw [if_neg hp]; exact ⟨_, rfl⟩
      cases hs : last.seg with
      | none => exact ⟨_, rfl⟩
      | some s =>
        cases s with
        | move => exact ⟨_, rfl⟩
        | line => exact hclose fun _ => .inl hs
        | qcurve => exact hclose fun _ => .inr hs
        | curve =>
          refine hclose fun hr => ?_
          subst hr
          cases hl
          exact absurd hs (h _ rfl)

theorem append_exists {st : ContourState} (h : Closable st.contour) : ∃ st', appendContour st = .ok st' := by
  unfold appendContour
  by_cases he : st.contour.isEmpty = true
  · rw [if_pos he]; exact ⟨_, rfl⟩
  · rw [if_neg he]
    obtain ⟨r, hr⟩ := flush_exists (c := st.contour) (by intro hc; rw [hc] at he; exact he rfl) h st.isOpen
    rw [hr]
    exact ⟨_, rfl⟩

theorem closable_snoc {c : UfoContour} {p : UfoPoint} (h : p.seg ≠ some .curve) : Closable (c ++ [p]) := by
  intro q hq
  cases c with
  | nil => cases hq; exact h
  | cons x c => simp at hq

theorem step_exists {labels : List (Int × PyStr)} {k : Nat} {tm : Bool} {st : ContourState} {i : Nat} {n : MMNode} (h : Closable st.contour)
    (hn : n.flags ≠ none ∧ ∃ p rest, n.points[k]? = some (p :: rest) ∧ (n.type = .curve → rest.length = 2)) :
    ∃ st', contourStep labels k tm st i n = .ok st' ∧ Closable st'.contour := by
  obtain ⟨h1, p, rest, h2, h3⟩ := hn
  obtain ⟨flags, h4⟩ := Option.ne_none_iff_exists'.1 h1
  unfold contourStep
  dsimp only
  rw [pyIndex_get h2]
  rw [h4]
  cases hk : n.type with
  | move =>
    obtain ⟨st', hs⟩ := append_exists h
    refine ⟨
      { contours := st'.contours
        rename := st'.rename
        contour := [⟨some .move, flagSmooth flags, if tm = true then none else dictGet labels (i : Int), p⟩]
        isOpen := flagOpen flags
        inQcurve := false }, ?_, fun q hq => by cases hq; simp⟩
    show (appendContour st >>= _) = _
    rw [hs]
    rfl
  | line =>
    refine ⟨_, rfl, closable_snoc ?_⟩
    cases st.inQcurve <;> simp
  | curve =>
    obtain ⟨c1, c2, rfl⟩ := List.length_eq_two.1 (h3 hk)
    refine ⟨_, rfl, fun q hq => ?_⟩
    have := congrArg List.length hq
    simp at this
  | qcurve => exact ⟨_, rfl, closable_snoc (by simp)⟩

theorem step_needs {labels : List (Int × PyStr)} {k : Nat} {tm : Bool} {st st' : ContourState} {i : Nat} {n : MMNode}
    (h : contourStep labels k tm st i n = .ok st') :
    n.flags ≠ none ∧ ∃ p rest, n.points[k]? = some (p :: rest) ∧ (n.type = .curve → rest.length = 2) := by
  unfold contourStep at h
  dsimp only at h
  cases h1 : pyIndex n.points (k : Int) with
  | error e => rw [h1] at h; cases h
  | ok nodes =>
    rw [h1] at h
    replace h : (pyIndex nodes 0 >>= _) = Except.ok st' := h
    cases nodes with
    | nil => cases h
    | cons p rest =>
      rw [show pyIndex (p :: rest) 0 = .ok p from rfl] at h
      cases h2 : n.flags with
      | none => rw [h2] at h; cases h
      | some flags =>
        rw [h2] at h
        refine ⟨by simp, p, rest, pyIndex_get?.1 h1, fun hk => ?_⟩
        rw [hk] at h
        cases rest with
        | nil => cases h
        | cons c1 rest =>
          cases rest with
          | nil => cases h
          | cons c2 rest =>
            cases rest with
            | nil => rfl
            | cons c3 rest => cases h

theorem extract_exists {labels : List (Int × PyStr)} {k : Nat} {tm : Bool} {nodes : List MMNode} :
    (∃ r, extractContours nodes labels k tm = .ok r) ↔ HasNodes k nodes := by
  unfold extractContours
  constructor
  · rintro ⟨r, h⟩
    have key : ∀ (ns : List MMNode) (j : Nat) (st st' : ContourState), contourLoop labels k tm st j ns = .ok st' → HasNodes k ns := by
      intro ns
      induction ns with
      | nil => intro j st st' _ n hn; cases hn
      | cons n ns ih =>
        intro j st st' h
        rw [contourLoop] at h
        cases h1 : contourStep labels k tm st j n with
        | error e => rw [h1] at h; cases h
        | ok s =>
          rw [h1] at h
          intro x hx
          rcases List.mem_cons.1 hx with rfl | hx
          · exact step_needs h1
          · exact ih _ _ _ h x hx
    cases h1 : contourLoop labels k tm ⟨[], [], [], false, false⟩ 0 nodes with
    | error e => rw [h1] at h; cases h
    | ok st => exact key _ _ _ _ h1
  · intro h
    have key : ∀ (ns : List MMNode) (j : Nat) (st : ContourState), HasNodes k ns → Closable st.contour →
        ∃ st', contourLoop labels k tm st j ns = .ok st' ∧ Closable st'.contour := by
      intro ns
      induction ns with
      | nil => intro j st _ hc; exact ⟨st, rfl, hc⟩
      | cons n ns ih =>
        intro j st hn hc
        obtain ⟨s, h1, h2⟩ := step_exists (labels := labels) (tm := tm) (i := j) hc (hn n (by simp))
        obtain ⟨s', h3, h4⟩ := ih (j + 1) s (fun x hx => hn x (by simp [hx])) h2
        refine ⟨s', ?_, h4⟩
        rw [contourLoop, h1]
        exact h3
    obtain ⟨st, h1, h2⟩ := key nodes 0 ⟨[], [], [], false, false⟩ h (fun p hp => by cases hp)
    obtain ⟨st', h3⟩ := append_exists h2
    refine ⟨(st'.contours, st'.rename), ?_⟩
    rw [h1]
    show (appendContour st >>= _) = _
    rw [h3]
    rfl

theorem outline_of {labels : List (Int × PyStr)} {k : Nat} {nodes : List MMNode} {r : List UfoContour × List (PyStr × PyStr)}
    (h : extractContours nodes labels k false = .ok r) (hs : StartsWithMove nodes) : OutlineOf labels k nodes r.1 := by
  obtain ⟨l, hl⟩ := C55_malformed h
  obtain ⟨cs, rfl, hc, -⟩ := C55_split l (by
    intro a ha
    cases nodes with
    | nil =>
      have := hl.1
      cases l with
      | nil => cases ha
      | cons x l => simp at this
    | cons n ns =>
      have := hl.2 0 n a rfl (by cases l with
        | nil => cases ha
        | cons x l => cases ha; rfl)
      rw [this.1]
      exact hs n rfl)
  obtain ⟨outs, ren, h1, h2, -⟩ := C55_contours hl hc
  rw [h] at h1
  cases h1
  exact ⟨cs, hl, hc, h2⟩

/-! ### base64 -/

theorem b64_value {n : Nat} (h : n < 64) : b64Value (b64Char n).toNat = some n ∧ b64Char n ≠ 61 := by
  have key : ∀ i : Fin 64, b64Value (b64Char i.1).toNat = some i.1 ∧ b64Char i.1 ≠ 61 := by decide
  exact key ⟨n, h⟩

theorem byte_lt (a : UInt8) : a.toNat < 256 := a.toNat_lt

theorem ofNat_byte {n : Nat} {a : UInt8} (h : n = a.toNat) : UInt8.ofNat n = a := by
  rw [h, UInt8.ofNat_toNat]

/-- **C83** base64 loses nothing: whatever the bytes are, the base64 text of them is decoded to them. -/
theorem C83_base64 (b : Bytes) : b64Decode (b64encode b) = some b := by
  match b with
  | [] => rfl
  | [a] =>
    have ha := byte_lt a
    rw [b64encode]
    rw [b64Decode]
    rw [(b64_value (n := a.toNat * 65536 / 262144) (by omega)).1, (b64_value (n := a.toNat * 65536 / 4096 % 64) (by omega)).1]
    simp only [bind, Option.bind, and_self, if_true, pure, Option.some.injEq, List.cons.injEq, and_true]
    exact ofNat_byte (by omega)
  | [a, b] =>
    have ha := byte_lt a
    have hb := byte_lt b
    rw [b64encode]
    rw [b64Decode]
    obtain ⟨e3, e4⟩ := b64_value (n := (a.toNat * 65536 + b.toNat * 256) / 64 % 64) (by omega)
    rw [(b64_value (n := (a.toNat * 65536 + b.toNat * 256) / 262144) (by omega)).1, (b64_value (n := (a.toNat * 65536 + b.toNat * 256) / 4096 % 64) (by omega)).1, e3]
    simp only [bind, Option.bind, e4, false_and, if_false, if_true, pure, Option.some.injEq, List.cons.injEq, and_true]
    exact ⟨ofNat_byte (by omega), ofNat_byte (by omega)⟩
  | a :: b :: c :: r =>
    have ha := byte_lt a
    have hb := byte_lt b
    have hc := byte_lt c
    have ih := C83_base64 r
    rw [b64encode]
    have e1 := (b64_value (n := (a.toNat * 65536 + b.toNat * 256 + c.toNat) / 262144) (by omega)).1
    have e2 := (b64_value (n := (a.toNat * 65536 + b.toNat * 256 + c.toNat) / 4096 % 64) (by omega)).1
    obtain ⟨e3, e3'⟩ := b64_value (n := (a.toNat * 65536 + b.toNat * 256 + c.toNat) / 64 % 64) (by omega)
    obtain ⟨e4, e4'⟩ := b64_value (n := (a.toNat * 65536 + b.toNat * 256 + c.toNat) % 64) (by omega)
    cases hr : b64encode r with
    | nil =>
      have : r = [] := by
        rw [hr] at ih
        simpa [b64Decode] using ih.symm
      subst this
      rw [b64Decode, e1, e2, e3, e4]
      simp only [bind, Option.bind, e3', e4', false_and, if_false, pure, Option.some.injEq, List.cons.injEq, and_true]
      exact ⟨ofNat_byte (by omega), ofNat_byte (by omega), ofNat_byte (by omega)⟩
    | cons x l =>
      rw [hr] at ih
      rw [b64Decode.eq_def]
      simp only [e1, e2, e3, e4, ih, bind, Option.bind, pure, Option.some.injEq, List.cons.injEq, and_true]
      exact ⟨ofNat_byte (by omega), ofNat_byte (by omega), ofNat_byte (by omega)⟩

theorem encodeAscii_ok {s : PyStr} {b : Bytes} (h : encodeAscii s = .ok b) : b.map UInt8.toNat = s ∧ ∀ c ∈ s, c < 128 := by
  unfold encodeAscii at h
  induction s generalizing b with
  | nil => cases h; exact ⟨rfl, by simp⟩
  | cons c s ih =>
    rw [List.mapM_cons] at h
    by_cases hc : c < 128
    · rw [if_pos hc] at h
      cases h1 : List.mapM (fun c => if c < 128 then Except.ok (UInt8.ofNat c) else Except.error PyErr.unicode) s with
      | error e => rw [h1] at h; cases h
      | ok l =>
        rw [h1] at h
        cases h
        obtain ⟨i1, i2⟩ := ih h1
        refine ⟨?_, fun x hx => ?_⟩
        · rw [List.map_cons, i1, UInt8.toNat_ofNat']
          congr 1
          omega
        · rcases List.mem_cons.1 hx with rfl | hx
          · exact hc
          · exact i2 x hx
    · rw [if_neg hc] at h; cases h

theorem encodeAscii_exists {s : PyStr} : (∃ b, encodeAscii s = .ok b) ↔ ∀ c ∈ s, c < 128 := by
  constructor
  · rintro ⟨b, h⟩; exact (encodeAscii_ok h).2
  · intro h
    unfold encodeAscii
    rw [mapM_exists_iff]
    intro c hc
    rw [if_pos (h c hc)]
    exact ⟨_, rfl⟩

/-! ### the glyph -/

section
variable {ops : AngleOps} {deg : ops.Angle → Rat} {asm : AsmOps}

theorem masterGlyph_cases {o : BuildOpts} {base64 : Bool} {depth : Nat} {order : List PyStr} {font : LabelFont} {key : PyStr}
    {g : BGlyph ops.Angle asm.Asm} {cmds : List TthCommand} {k : Nat} {r : UfoGlyph asm.Asm × LabelFont}
    (h : masterGlyph ops deg asm o base64 depth order font key g cmds k = .ok r) :
    ∃ hints tth mask contours components cmds' anchors guides tth' metrics,
      (if o.pshints then masterPsHints depth font key (hintGlyph g) k else .ok ([], font)) = .ok hints ∧
      tthLib cmds = .ok tth ∧ masterMask ops asm o g k = .ok mask ∧
      extractContours g.nodes (pointLabelsOf hints.2 key) k false = .ok contours ∧
      g.components.mapM (masterComponent order k) = .ok components ∧
      finalizeTtPointLabels contours.2 cmds = .ok cmds' ∧
      masterAnchors g.anchors g.mmAnchors k = .ok anchors ∧
      glyphGuides ops deg asm o g k = .ok guides ∧
      finalizeLib base64 tth = .ok tth' ∧ pyIndex g.metrics k = .ok metrics ∧
      r = (
        { width := metrics.1
          height := metrics.2
          unicodes := g.unicodes
          contours := contours.1
          components := components
          anchors := anchors
          guidelines := guides
          mark := g.mark
          userData := g.userData
          background := g.background
          bitmaps := g.bitmaps
          instructions := g.instructions
          psHints := hints.1
          tth := tth'
          maskContours := mask.1
          maskMetrics := mask.2 }, hints.2) := by
  unfold masterGlyph at h
  cases h1 : (if o.pshints then masterPsHints depth font key (hintGlyph g) k else .ok ([], font)) with
  | error e => rw [h1] at h; cases h
  | ok hints =>
  rw [h1] at h
  replace h : (tthLib cmds >>= _) = Except.ok r := h
  cases h2 : tthLib cmds with
  | error e => rw [h2] at h; cases h
  | ok tth =>
  rw [h2] at h
  replace h : (masterMask ops asm o g k >>= _) = Except.ok r := h
  cases h3 : masterMask ops asm o g k with
  | error e => rw [h3] at h; cases h
  | ok mask =>
  rw [h3] at h
  replace h : (extractContours g.nodes (pointLabelsOf hints.2 key) k false >>= _) = Except.ok r := h
  cases h4 : extractContours g.nodes (pointLabelsOf hints.2 key) k false with
  | error e => rw [h4] at h; cases h
  | ok contours =>
  rw [h4] at h
  replace h : (g.components.mapM (masterComponent order k) >>= _) = Except.ok r := h
  cases h5 : g.components.mapM (masterComponent order k) with
  | error e => rw [h5] at h; cases h
  | ok components =>
  rw [h5] at h
  replace h : (finalizeTtPointLabels contours.2 cmds >>= _) = Except.ok r := h
  cases h6 : finalizeTtPointLabels contours.2 cmds with
  | error e => rw [h6] at h; cases h
  | ok cmds' =>
  rw [h6] at h
  replace h : (masterAnchors g.anchors g.mmAnchors k >>= _) = Except.ok r := h
  cases h7 : masterAnchors g.anchors g.mmAnchors k with
  | error e => rw [h7] at h; cases h
  | ok anchors =>
  rw [h7] at h
  replace h : (glyphGuides ops deg asm o g k >>= _) = Except.ok r := h
  cases h8 : glyphGuides ops deg asm o g k with
  | error e => rw [h8] at h; cases h
  | ok guides =>
  rw [h8] at h
  replace h : (finalizeLib base64 tth >>= _) = Except.ok r := h
  cases h9 : finalizeLib base64 tth with
  | error e => rw [h9] at h; cases h
  | ok tth' =>
  rw [h9] at h
  replace h : (pyIndex g.metrics k >>= _) = Except.ok r := h
  cases h10 : pyIndex g.metrics (k : Int) with
  | error e => rw [h10] at h; cases h
  | ok metrics =>
  rw [h10] at h
  cases h
  exact ⟨hints, tth, mask, contours, components, cmds', anchors, guides, tth', metrics, rfl, rfl, rfl, h4, rfl, h6, rfl, rfl, h9, rfl, rfl⟩

theorem masterMaskMetrics_ok {metrics mask : List (Int × Int)} {k : Nat} {m : Int × Int} :
    masterMaskMetrics metrics mask k = .ok m ↔ (if mask = [] then metrics else mask)[k]? = some m := by
  unfold masterMaskMetrics
  cases mask with
  | nil => simp only [List.isEmpty_nil, if_true]; exact pyIndex_get?
  | cons x l =>
    simp only [List.isEmpty_cons, Bool.false_eq_true, if_false, reduceCtorEq]
    by_cases hk : (k : Int) > ((x :: l).length : Int) - 1
    · rw [if_pos hk, List.getElem?_eq_none (by omega)]
      simp
    · rw [if_neg hk]; exact pyIndex_get?

theorem masterMask_ok {o : BuildOpts} {g : BGlyph ops.Angle asm.Asm} {k : Nat} {r : List UfoContour × (Int × Int)} :
    masterMask ops asm o g k = .ok r ↔ (o.minimal = true ∧ r = ([], (0, 0))) ∨ (o.minimal = false ∧
      ∃ ren, extractContours g.maskNodes [] k false = .ok (r.1, ren) ∧ (if g.maskMetrics = [] then g.metrics else g.maskMetrics)[k]? = some r.2) := by
  unfold masterMask
  cases hm : o.minimal with
  | true =>
    simp only [if_true, true_and, Except.ok.injEq, Bool.true_eq_false, false_and, or_false]
    exact eq_comm
  | false =>
    simp only [Bool.false_eq_true, if_false, false_and, false_or, true_and]
    rw [C55_mask]
    constructor
    · intro h
      cases h1 : extractContours g.maskNodes [] k false with
      | error e => rw [h1] at h; cases h
      | ok c =>
        rw [h1] at h
        replace h : (masterMaskMetrics g.metrics g.maskMetrics k >>= _) = Except.ok r := h
        cases h2 : masterMaskMetrics g.metrics g.maskMetrics k with
        | error e => rw [h2] at h; cases h
        | ok m =>
          rw [h2] at h
          cases h
          exact ⟨c.2, rfl, masterMaskMetrics_ok.1 h2⟩
    · rintro ⟨ren, h1, h2⟩
      rw [h1]
      show (masterMaskMetrics g.metrics g.maskMetrics k >>= _) = Except.ok r
      rw [masterMaskMetrics_ok.2 h2]
      rfl

/-- **C83** Every glyph of a UFO is the master of the glyph that it is made for: the advance, the codes, the outline, the components, the
anchors, the guidelines, the lib and the mask are those of this master, none is missing and none is added. -/
theorem C83_master (hdeg : ∀ a, -90 ≤ deg a ∧ deg a ≤ 90) {o : BuildOpts} {base64 : Bool} {depth : Nat} {order : List PyStr}
    {font font' : LabelFont} {key : PyStr} {g : BGlyph ops.Angle asm.Asm} {cmds : List TthCommand} {k : Nat} {out : UfoGlyph asm.Asm}
    (h : masterGlyph ops deg asm o base64 depth order font key g cmds k = .ok (out, font')) :
    IsMaster ops deg asm o.minimal order (pointLabelsOf font' key) k g out := by
  obtain ⟨hints, tth, mask, contours, components, cmds', anchors, guides, tth', metrics, -, -, h3, h4, h5, -, h7, h8, -, h10, hr⟩ := masterGlyph_cases h
  cases hr
  constructor
  · exact pyIndex_get?.1 h10
  · rfl
  · intro hs; exact outline_of h4 hs
  · exact corresponds_mapM (f := masterComponent order k) (fun a b hab => masterComponent_ok hab) h5
  · exact masterAnchors_ok h7
  · unfold glyphGuides at h8
    constructor
    · rintro (hm | hg)
      · rw [if_pos hm] at h8; cases h8; rfl
      · cases hm : o.minimal with
        | true => rw [if_pos hm] at h8; cases h8; rfl
        | false =>
          rw [if_neg (by rw [hm]; simp), hg] at h8
          cases h8
          rfl
    · intro gs hm hg
      rw [if_neg (by rw [hm]; simp), hg] at h8
      exact C81_guides hdeg h8
  · rfl
  · rcases masterMask_ok.1 h3 with ⟨hm, rfl⟩ | ⟨hm, ren, e1, e2⟩
    · exact ⟨fun _ => rfl, fun h => (by rw [hm] at h; cases h)⟩
    · exact ⟨fun h => (by rw [hm] at h; cases h), fun _ hs => outline_of e1 hs⟩
  · intro hm
    rcases masterMask_ok.1 h3 with ⟨hm', rfl⟩ | ⟨-, ren, -, e2⟩
    · rw [hm] at hm'; cases hm'
    · exact e2

/-- **C83** The hints in the lib of the glyph: the PostScript hints are those of C51 for this master, or none if they are not asked for;
the TrueType program is the text of the commands (C60), or the base64 text of it if this is asked for. -/
theorem C83_hints {o : BuildOpts} {base64 : Bool} {depth : Nat} {order : List PyStr}
    {font font' : LabelFont} {key : PyStr} {g : BGlyph ops.Angle asm.Asm} {cmds : List TthCommand} {k : Nat} {out : UfoGlyph asm.Asm}
    (h : masterGlyph ops deg asm o base64 depth order font key g cmds k = .ok (out, font')) :
    (o.pshints = true → masterPsHints depth font key ⟨g.hintsH, g.hintsV, some (g.links.x, g.links.y), g.hintmasks, g.nodes⟩ k = .ok (out.psHints, font')) ∧
    (o.pshints = false → out.psHints = [] ∧ font' = font) ∧
    ∃ tth, tthLib cmds = .ok tth ∧ (tth = none → out.tth = none) ∧
      ∀ text, tth = some text →
        (base64 = false → out.tth = some (.text text)) ∧
        (base64 = true → ∃ data bytes, out.tth = some (.data data) ∧ b64Decode data = some bytes ∧ bytes.map UInt8.toNat = text) := by
  obtain ⟨hints, tth, mask, contours, components, cmds', anchors, guides, tth', metrics, h1, h2, h3, h4, h5, -, h7, h8, h9, h10, hr⟩ := masterGlyph_cases h
  cases hr
  refine ⟨fun hp => ?_, fun hp => ?_, tth, h2, fun ht => ?_, fun text ht => ⟨fun hb => ?_, fun hb => ?_⟩⟩
  · rw [if_pos hp] at h1; exact h1
  · rw [if_neg (by rw [hp]; simp)] at h1; cases h1; exact ⟨rfl, rfl⟩
  · subst ht; cases h9; rfl
  · subst ht
    rw [finalizeLib, hb] at h9
    cases h9; rfl
  · subst ht
    rw [finalizeLib, hb] at h9
    simp only [if_true] at h9
    cases he : encodeAscii text with
    | error e => rw [he] at h9; cases h9
    | ok b =>
      rw [he] at h9
      cases h9
      exact ⟨_, b, rfl, C83_base64 b, (encodeAscii_ok he).1⟩

theorem tthLib_total {cmds : List TthCommand} (hc : ∀ cmd ∈ cmds, WellFormedCmd cmd) : ∃ t, tthLib cmds = .ok t := by
  unfold tthLib
  obtain ⟨l, hl⟩ := (mapM_exists_iff (f := ttCmdXml) (l := cmds)).2 fun c hm => ttCmdXml_ok (hc c hm)
  rw [hl]
  exact ⟨_, rfl⟩

/-- **C83** When a master of a glyph can be extracted: the hints can be made, the glyph has got the master, and the text of the TrueType
program is ASCII if base64 is asked for. -/
theorem C83_success (o : BuildOpts) (base64 : Bool) (depth : Nat) (order : List PyStr) (font : LabelFont) (key : PyStr)
    (g : BGlyph ops.Angle asm.Asm) {cmds : List TthCommand} (hc : ∀ cmd ∈ cmds, WellFormedCmd cmd) (k : Nat) :
    (∃ r, masterGlyph ops deg asm o base64 depth order font key g cmds k = .ok r) ↔
      (o.pshints = true → ∃ r, masterPsHints depth font key ⟨g.hintsH, g.hintsV, some (g.links.x, g.links.y), g.hintmasks, g.nodes⟩ k = .ok r) ∧
      HasMaster ops asm o.minimal order k g ∧
      (base64 = true → ∀ text, tthLib cmds = .ok (some text) → ∀ c ∈ text, c < 128) := by
  have hmm : (∃ r, masterMask ops asm o g k = .ok r) ↔ (o.minimal = false → HasNodes k g.maskNodes ∧
      k < (if g.maskMetrics = [] then g.metrics else g.maskMetrics).length) := by
    constructor
    · rintro ⟨r, h⟩ hm
      rcases masterMask_ok.1 h with ⟨hm', -⟩ | ⟨-, ren, e1, e2⟩
      · rw [hm] at hm'; cases hm'
      · exact ⟨extract_exists.1 ⟨_, e1⟩, (List.getElem?_eq_some_iff.1 e2).1⟩
    · intro h
      cases hm : o.minimal with
      | true => exact ⟨_, masterMask_ok.2 (.inl ⟨hm, rfl⟩)⟩
      | false =>
        obtain ⟨h1, h2⟩ := h hm
        obtain ⟨r, hr⟩ := (extract_exists (labels := []) (tm := false)).2 h1
        exact ⟨(r.1, _), masterMask_ok.2 (.inr ⟨hm, r.2, hr, List.getElem?_eq_getElem h2⟩)⟩
  have hgg : (∃ r, glyphGuides ops deg asm o g k = .ok r) ↔ (o.minimal = false → ∀ gs, g.guides = some gs →
      (∀ s ∈ gs.h, k < s.length) ∧ (∀ s ∈ gs.v, k < s.length) ∧
      (∀ q ∈ g.guideProps.h, Applicable gs.h.length q) ∧ ∀ q ∈ g.guideProps.v, Applicable gs.v.length q) := by
    unfold glyphGuides
    cases hm : o.minimal with
    | true => simp
    | false =>
      cases hg : g.guides with
      | none => simp
      | some gs =>
        simp only [Bool.false_eq_true, if_false, true_implies, Option.some.injEq, forall_eq']
        exact C81_success gs g.guideProps k
  have hcomp : (∃ r, g.components.mapM (masterComponent order k) = .ok r) ↔ ∀ c ∈ g.components,
      (-(order.length : Int) ≤ c.gid ∧ c.gid < order.length) ∧ k < c.offsetX.length ∧ k < c.offsetY.length ∧
      k < c.scaleX.length ∧ k < c.scaleY.length := by
    rw [mapM_exists_iff]
    simp only [masterComponent_exists]
  have hlib : ∀ t, tthLib cmds = .ok t → ((∃ r, finalizeLib base64 t = .ok r) ↔
      (base64 = true → ∀ text, tthLib cmds = .ok (some text) → ∀ c ∈ text, c < 128)) := by
    intro t ht
    rw [ht]
    cases t with
    | none => simp [finalizeLib]
    | some text =>
      cases base64 with
      | false => simp [finalizeLib]
      | true =>
        simp only [finalizeLib, if_true, true_implies, Except.ok.injEq, Option.some.injEq, forall_eq']
        rw [← encodeAscii_exists]
        constructor
        · rintro ⟨r, h⟩
          cases he : encodeAscii text with
          | error e => rw [he] at h; cases h
          | ok b => exact ⟨b, rfl⟩
        · rintro ⟨b, h⟩; rw [h]; exact ⟨_, rfl⟩
  constructor
  · rintro ⟨r, h⟩
    obtain ⟨hints, tth, mask, contours, components, cmds', anchors, guides, tth', metrics, h1, h2, h3, h4, h5, h6, h7, h8, h9, h10, -⟩ := masterGlyph_cases h
    have hmet := index_nat.1 ⟨_, h10⟩
    refine ⟨fun hp => ?_, ⟨hmet, extract_exists.1 ⟨_, h4⟩, hcomp.1 ⟨_, h5⟩, masterAnchors_exists.1 ⟨_, h7⟩, hgg.1 ⟨_, h8⟩, fun hm => ?_⟩, (hlib _ h2).1 ⟨_, h9⟩⟩
    · rw [if_pos hp] at h1; exact ⟨_, h1⟩
    · obtain ⟨e1, e2⟩ := hmm.1 ⟨_, h3⟩ hm
      exact ⟨e1, fun hne => by rwa [if_neg hne] at e2⟩
  · rintro ⟨hh, ⟨a1, a2, a3, a4, a5, a6⟩, hb⟩
    obtain ⟨hints, h1⟩ : ∃ hints, (if o.pshints then masterPsHints depth font key (hintGlyph g) k else .ok ([], font)) = .ok hints := by
      cases hp : o.pshints with
      | true => simp only [if_true]; exact hh hp
      | false => exact ⟨([], font), rfl⟩
    obtain ⟨tth, h2⟩ := tthLib_total hc
    obtain ⟨mask, h3⟩ := hmm.2 fun hm => ⟨(a6 hm).1, by
      by_cases hne : g.maskMetrics = []
      · rw [if_pos hne]; exact a1
      · rw [if_neg hne]; exact (a6 hm).2 hne⟩
    obtain ⟨contours, h4⟩ := (extract_exists (labels := pointLabelsOf hints.2 key) (tm := false)).2 a2
    obtain ⟨components, h5⟩ := hcomp.2 a3
    obtain ⟨cmds', h6, -⟩ := C55_tt_commands contours.2 cmds hc
    obtain ⟨anchors, h7⟩ := masterAnchors_exists.2 a4
    obtain ⟨guides, h8⟩ := hgg.2 a5
    obtain ⟨tth', h9⟩ := (hlib _ h2).2 hb
    obtain ⟨metrics, h10⟩ := index_nat.2 a1
    unfold masterGlyph
    rw [h1]
    show ∃ r, (tthLib cmds >>= _) = Except.ok r
    rw [h2]
    show ∃ r, (masterMask ops asm o g k >>= _) = Except.ok r
    rw [h3]
    show ∃ r, (extractContours g.nodes (pointLabelsOf hints.2 key) k false >>= _) = Except.ok r
    rw [h4]
    show ∃ r, (g.components.mapM (masterComponent order k) >>= _) = Except.ok r
    rw [h5]
    show ∃ r, (finalizeTtPointLabels contours.2 cmds >>= _) = Except.ok r
    rw [h6]
    show ∃ r, (masterAnchors g.anchors g.mmAnchors k >>= _) = Except.ok r
    rw [h7]
    show ∃ r, (glyphGuides ops deg asm o g k >>= _) = Except.ok r
    rw [h8]
    show ∃ r, (finalizeLib base64 tth >>= _) = Except.ok r
    rw [h9]
    show ∃ r, (pyIndex g.metrics k >>= _) = Except.ok r
    rw [h10]
    exact ⟨_, rfl⟩

/-- **C83** (defect) The note of a glyph is lost: glyphs that differ in their notes only give the same UFO glyphs. -/
theorem C83_note_defect (o : BuildOpts) (base64 : Bool) (depth : Nat) (order : List PyStr) (font : LabelFont) (key : PyStr)
    (g : BGlyph ops.Angle asm.Asm) (cmds : List TthCommand) (k : Nat) (note : Option PyStr) :
    masterGlyph ops deg asm o base64 depth order font key { g with note := note } cmds k =
      masterGlyph ops deg asm o base64 depth order font key g cmds k := rfl

end

/-! ### a glyph with two masters that meets the hypotheses -/

/-- a glyph with an outline, a component, anchors, a guide and a mask -/
def exampleMasterGlyph : BGlyph exampleAngles.Angle exampleAsm.Asm where
  name := lit "A"
  unicodes := [65]
  links := ⟨[], []⟩
  mark := some 3
  userData := none
  note := some (lit "n")
  anchors := [⟨some (lit "top"), 1, 2⟩, ⟨some (lit "bottom"), 3, 4⟩]
  mmAnchors := some [⟨[10, 20], [30, 40]⟩]
  guideProps := ⟨[], [⟨1, none, none⟩]⟩
  background := none
  bitmaps := none
  maskNodes := [⟨.move, some 0, [[(1, 1)], [(2, 2)]]⟩]
  maskMetrics := [(500, 0), (510, 0)]
  guides := some ⟨[], [[⟨5, (7 : Int)⟩, ⟨6, (8 : Int)⟩]]⟩
  hintsH := []
  hintsV := []
  hintmasks := []
  metrics := [(500, 0), (600, 0)]
  nodes := [⟨.move, some 0, [[(10, 20)], [(30, -40)]]⟩, ⟨.curve, some 2, [[(1, 2), (3, 4), (5, 6)], [(7, 8), (9, 10), (11, 120)]]⟩]
  components := [⟨1, [1, 2], [3, 4], [⟨0⟩, ⟨0⟩], [⟨1⟩, ⟨0⟩]⟩]
  tth := none
  instructions := none

example : ∃ r, masterGlyph exampleAngles (fun _ => 0) exampleAsm ⟨false, false, true⟩ true 10 [lit "A", lit "B"] ⟨[], []⟩ (lit "A") exampleMasterGlyph [] 1 = .ok r := by
  refine (C83_success _ _ _ _ _ _ _ (by simp) _).2 ⟨fun _ => ⟨_, rfl⟩, ⟨by decide, ?_, by decide, ?_, ?_, ?_⟩, ?_⟩
  · intro n hn
    simp only [exampleMasterGlyph, List.mem_cons, List.not_mem_nil, or_false] at hn
    rcases hn with rfl | rfl
    · exact ⟨by simp, (30, -40), [], rfl, fun h => by cases h⟩
    · exact ⟨by simp, (7, 8), [(9, 10), (11, 120)], rfl, fun _ => rfl⟩
  · intro mm hmm
    cases hmm
    exact ⟨by decide, by decide⟩
  · intro _ gs hgs
    cases hgs
    refine ⟨by decide, ?_, fun q hq => (by cases hq), ?_⟩
    · intro s hs
      rw [List.mem_singleton.1 hs]
      decide
    · intro q hq
      rw [List.mem_singleton.1 hq]
      exact .inr ⟨by decide, fun c hc => by cases hc⟩
  · intro _
    refine ⟨?_, fun _ => by decide⟩
    intro n hn
    rw [List.mem_singleton.1 hn]
    exact ⟨by simp, (2, 2), [], rfl, fun h => by cases h⟩
  · intro _ text ht
    cases ht

end Verif.Props
