import Verif.Spec.UfoStems
import Verif.Lemmas.Dec
import Verif.Props.UfoTth
import Verif.Props.UfoKerning
/-! C61, C62: TrueType stems and zones in the UFO. -/
set_option autoImplicit false
namespace Verif.Props
open Verif Verif.Spec

theorem best_congr {t t' : List (Int × Int)} {r : Rounds} (h : ∀ x, x ∈ t ↔ x ∈ t') (hb : BestWidth t r) : BestWidth t' r := by
  intro text px
  rw [hb text px]
  simp only [h]

/-- a larger width replaces the others -/
theorem best_larger {t : List (Int × Int)} {r : Rounds} (hb : BestWidth t r) {k p : Int} (hk : ∀ x ∈ t, x.1 < k) :
    BestWidth (t ++ [(k, p)]) (dictSet r (intDec p) k) := by
  intro text px
  rw [dictGet_dictSet]
  by_cases h : intDec p = text
  · rw [if_pos h]
    constructor
    · intro e
      cases e
      refine ⟨p, h.symm, by simp, fun px' hpx => ?_⟩
      rcases List.mem_append.1 hpx with h1 | h1
      · have := hk _ h1; simp only at this; omega
      · simp at h1; omega
    · rintro ⟨ppm, h1, h2, h3⟩
      have : ppm = p := intDec_inj (h1.symm.trans h.symm)
      subst this
      have h4 := h3 k (by simp)
      rcases List.mem_append.1 h2 with h5 | h5
      · have := hk _ h5; simp only at this; omega
      · simp at h5; rw [h5]
  · rw [if_neg h, hb text px]
    constructor
    · rintro ⟨ppm, h1, h2, h3⟩
      refine ⟨ppm, h1, by simp [h2], fun px' hpx => ?_⟩
      rcases List.mem_append.1 hpx with h4 | h4
      · exact h3 _ h4
      · simp at h4; rw [h1, h4.2] at h; exact absurd rfl h
    · rintro ⟨ppm, h1, h2, h3⟩
      refine ⟨ppm, h1, ?_, fun px' hpx => h3 _ (by simp [hpx])⟩
      rcases List.mem_append.1 h2 with h4 | h4
      · exact h4
      · simp at h4; rw [h1, h4.2] at h; exact absurd rfl h

theorem max_width {p : Int} : ∀ {l : List (Int × Int)} {px : Int}, (px, p) ∈ l → ∃ m, (m, p) ∈ l ∧ ∀ px', (px', p) ∈ l → px' ≤ m := by
  intro l
  induction l with
  | nil => intro px h; cases h
  | cons x l ih =>
    intro px h
    by_cases hl : ∃ px', (px', p) ∈ l
    · obtain ⟨px', hp'⟩ := hl
      obtain ⟨m, hm1, hm2⟩ := ih hp'
      by_cases hx : x.2 = p ∧ m < x.1
      · refine ⟨x.1, by rw [← hx.1]; simp, fun q hq => ?_⟩
        rcases List.mem_cons.1 hq with rfl | hq
        · exact Int.le_refl _
        · have := hm2 q hq; omega
      · refine ⟨m, by simp [hm1], fun q hq => ?_⟩
        rcases List.mem_cons.1 hq with rfl | hq
        · simp at hx; omega
        · exact hm2 q hq
    · rcases List.mem_cons.1 h with rfl | h
      · refine ⟨px, by simp, fun q hq => ?_⟩
        rcases List.mem_cons.1 hq with e | hq
        · cases e; exact Int.le_refl _
        · exact absurd ⟨q, hq⟩ hl
      · exact absurd ⟨px, h⟩ hl

/-- a smaller width is added only if there is none -/
theorem best_smaller {t : List (Int × Int)} {r : Rounds} (hb : BestWidth t r) {k p : Int} (hk : ∀ x ∈ t, k < x.1) :
    BestWidth (t ++ [(k, p)]) (if (dictGet r (intDec p)).isSome then r else dictSet r (intDec p) k) := by
  by_cases hs : (dictGet r (intDec p)).isSome
  · rw [if_pos hs]
    obtain ⟨q, hq⟩ := Option.isSome_iff_exists.1 hs
    obtain ⟨p', h1, h2, h3⟩ := (hb _ _).1 hq
    have : p' = p := intDec_inj h1.symm
    subst this
    have hkq := hk _ h2
    simp only at hkq
    intro text px
    rw [hb text px]
    constructor
    · rintro ⟨ppm, h4, h5, h6⟩
      refine ⟨ppm, h4, by simp [h5], fun px' hpx => ?_⟩
      rcases List.mem_append.1 hpx with h7 | h7
      · exact h6 _ h7
      · simp at h7
        have := hk _ h5
        simp only at this; omega
    · rintro ⟨ppm, h4, h5, h6⟩
      refine ⟨ppm, h4, ?_, fun px' hpx => h6 _ (by simp [hpx])⟩
      rcases List.mem_append.1 h5 with h7 | h7
      · exact h7
      · simp at h7
        have := h6 q (by rw [h7.2]; simp [h2])
        omega
  · rw [if_neg hs]
    have hn : ∀ px, (px, p) ∉ t := by
      intro px hpx
      apply hs
      -- the largest width for p
      have hmax : ∃ m, (m, p) ∈ t ∧ ∀ px', (px', p) ∈ t → px' ≤ m := max_width hpx
      obtain ⟨m, h1, h2⟩ := hmax
      rw [(hb (intDec p) m).2 ⟨p, rfl, h1, h2⟩]; rfl
    intro text px
    rw [dictGet_dictSet]
    by_cases h : intDec p = text
    · rw [if_pos h]
      constructor
      · intro e; cases e
        refine ⟨p, h.symm, by simp, fun px' hpx => ?_⟩
        rcases List.mem_append.1 hpx with h1 | h1
        · exact absurd h1 (hn px')
        · simp at h1; omega
      · rintro ⟨ppm, h1, h2, _⟩
        have : ppm = p := intDec_inj (h1.symm.trans h.symm)
        subst this
        rcases List.mem_append.1 h2 with h5 | h5
        · exact absurd h5 (hn px)
        · simp at h5; rw [h5]
    · rw [if_neg h, hb text px]
      constructor
      · rintro ⟨ppm, h1, h2, h3⟩
        refine ⟨ppm, h1, by simp [h2], fun px' hpx => ?_⟩
        rcases List.mem_append.1 hpx with h4 | h4
        · exact h3 _ h4
        · simp at h4; rw [h1, h4.2] at h; exact absurd rfl h
      · rintro ⟨ppm, h1, h2, h3⟩
        refine ⟨ppm, h1, ?_, fun px' hpx => h3 _ (by simp [hpx])⟩
        rcases List.mem_append.1 h2 with h4 | h4
        · exact h4
        · simp at h4; rw [h1, h4.2] at h; exact absurd rfl h

theorem best_transform {data : List (Int × Int)} (h : (data.map Prod.fst).Pairwise (· < ·)) : BestWidth data (transformStemRounds data) := by
  have key : ∀ (l pre : List (Int × Int)) (r : Rounds), BestWidth pre r → ((pre ++ l).map Prod.fst).Pairwise (· < ·) →
      BestWidth (pre ++ l) (l.foldl (fun d kv => dictSet d (intDec kv.2) kv.1) r) := by
    intro l
    induction l with
    | nil => intro pre r hb _; simpa using hb
    | cons x l ih =>
      intro pre r hb hp
      rw [List.foldl_cons]
      have h1 := ih (pre ++ [x]) (dictSet r (intDec x.2) x.1) (best_larger hb ?_) (by simpa using hp)
      · simpa using h1
      · intro y hy
        rw [List.map_append, List.pairwise_append] at hp
        exact hp.2.2 y.1 (List.mem_map.2 ⟨y, hy, rfl⟩) x.1 (by simp)
  have := key data [] [] (fun text px => by simp [dictGet]) (by simpa using h)
  simpa [transformStemRounds] using this

/-- the tables of one direction: what is known about each stem -/
def PpmInv (T : Nat → List (Int × Int)) (ppms : List StemPpm) : Prop :=
  ∀ (i : Nat) r, ppms[i]? = some r → r.stem = i ∧ BestWidth (T i) r.round

theorem PpmInv.set {T : Nat → List (Int × Int)} {ppms : List StemPpm} (h : PpmInv T ppms) {k : Nat} {r : Rounds} {t : List (Int × Int)}
    (hr : BestWidth t r) : PpmInv (fun i => if i = k then t else T i) (ppms.set k ⟨k, r⟩) := by
  intro i x hx
  rw [List.getElem?_set] at hx
  by_cases hik : k = i
  · subst hik
    rw [if_pos rfl] at hx
    simp only [if_true]
    by_cases hl : k < ppms.length
    · rw [if_pos hl] at hx; cases hx; exact ⟨rfl, hr⟩
    · rw [if_neg hl] at hx; cases hx
  · rw [if_neg hik] at hx
    beta_reduce
    rw [if_neg (Ne.symm hik)]
    exact h i x hx

theorem addPpms_inv {l : List TTPpem} (h : PpmTable l) :
    PpmInv (fun i => ((l[i]?).map TTPpem.round).getD []) (addPpms ⟨[], []⟩ l).ppms ∧ (addPpms ⟨[], []⟩ l).ppms.length = l.length := by
  refine ⟨fun i r hr => ?_, by simp [addPpms]⟩
  simp only [addPpms, List.nil_append, List.getElem?_map] at hr
  obtain ⟨d, hd, rfl⟩ := Option.map_eq_some_iff.1 hr
  obtain ⟨h1, h2, _⟩ := h i d hd
  refine ⟨h1, ?_⟩
  simp only [hd, Option.map_some, Option.getD_some]
  exact best_transform h2

/-- the part of a table for stem `i`, counted from `k` -/
def fromK {α : Type} (f : α → List (Int × Int)) (l : List α) (k i : Nat) : List (Int × Int) :=
  if k ≤ i then ((l[i - k]?).map f).getD [] else []

theorem fromK_cons {α : Type} (f : α → List (Int × Int)) (x : α) (l : List α) (k i : Nat) :
    fromK f (x :: l) k i = if i = k then f x else fromK f l (k + 1) i := by
  unfold fromK
  by_cases h : i = k
  · subst h; simp
  · rw [if_neg h]
    by_cases h1 : k ≤ i
    · rw [if_pos h1, if_pos (by omega), show i - k = (i - (k + 1)) + 1 by omega, List.getElem?_cons_succ]
    · rw [if_neg h1, if_neg (by omega)]

theorem addPpm1_fold (data : List TTPpem) : ∀ (k : Nat) (ppms : List StemPpm) (T : Nat → List (Int × Int)),
    (∀ (j : Nat) d, data[j]? = some d → d.stem = ((k + j : Nat) : Int) ∧ ∃ ppm, d.round = [(1, ppm)]) → k + data.length ≤ ppms.length →
    PpmInv T ppms → (∀ i, k ≤ i → ∀ x ∈ T i, 1 < x.1) →
    ∃ ppms', data.foldlM addPpm1 ppms = .ok ppms' ∧ ppms'.length = ppms.length ∧ PpmInv (fun i => T i ++ fromK TTPpem.round data k i) ppms' := by
  induction data with
  | nil =>
    intro k ppms T _ _ hT _
    refine ⟨ppms, rfl, rfl, fun i r hr => ?_⟩
    have : fromK TTPpem.round [] k i = [] := by unfold fromK; split <;> rfl
    beta_reduce
    rw [this, List.append_nil]; exact hT i r hr
  | cons d data ih =>
    intro k ppms T hd hlen hT h1
    obtain ⟨h2, ppm, h3⟩ := hd 0 d rfl
    simp only [List.length_cons] at hlen
    have hk : k < ppms.length := by omega
    have hget : ppms[k]? = some ppms[k] := List.getElem?_eq_getElem hk
    obtain ⟨h4, h5⟩ := hT k _ hget
    have hstep : ∃ ppms1, addPpm1 ppms d = .ok ppms1 ∧ ppms1.length = ppms.length ∧ PpmInv (fun i => if i = k then T k ++ [(1, ppm)] else T i) ppms1 := by
      unfold addPpm1
      rw [show d.stem = (k : Int) by simpa using h2, pyIndex_get hget, h3]
      have hpos : pyPos ppms.length (k : Int) = k := by unfold pyPos; rw [if_pos (by omega)]; simp
      simp only [bind, Except.bind, dictGet, if_true]
      have hb := best_smaller h5 (p := ppm) (h1 k (Nat.le_refl k))
      by_cases hs : (dictGet ppms[k].round (intDec ppm)).isSome = true
      · rw [if_pos hs]
        rw [if_pos hs] at hb
        refine ⟨ppms, rfl, rfl, fun i r hr => ?_⟩
        by_cases hi : i = k
        · subst hi
          rw [hget] at hr; cases hr
          simp only [if_true]; exact ⟨h4, hb⟩
        · beta_reduce; rw [if_neg hi]; exact hT i r hr
      · rw [if_neg hs]
        rw [if_neg hs] at hb
        refine ⟨_, rfl, by simp, ?_⟩
        rw [hpos]
        have := hT.set (k := k) hb
        rw [h4]; exact this
    obtain ⟨ppms1, h6, h7, h8⟩ := hstep
    obtain ⟨ppms2, h9, h10, h11⟩ := ih (k + 1) ppms1 _ (fun j e he => by
      obtain ⟨h12, h13⟩ := hd (j + 1) e (by simpa using he)
      exact ⟨by rw [h12]; congr 1; omega, h13⟩) (by omega) h8 (fun i hi x hx => by
        rw [if_neg (by omega)] at hx; exact h1 i (by omega) x hx)
    refine ⟨ppms2, ?_, by omega, fun i r hr => ?_⟩
    · rw [List.foldlM_cons, h6]; exact h9
    · have := h11 i r hr
      beta_reduce at this ⊢
      rw [fromK_cons]
      by_cases hi : i = k
      · subst hi
        simp only [if_true] at this ⊢
        rw [h3]
        have e : fromK TTPpem.round data (i + 1) i = [] := by unfold fromK; rw [if_neg (by omega)]
        rw [e, List.append_nil] at this
        exact this
      · rw [if_neg hi] at this ⊢; exact this

theorem addStem_fold (data : List TTStem) : ∀ (k : Nat) (s : DirStems) (T : Nat → List (Int × Int)),
    (∀ (j : Nat) d, data[j]? = some d → ∃ ppm, d.round = [(6, ppm)]) → k + data.length ≤ s.ppms.length →
    PpmInv T s.ppms → (∀ i, k ≤ i → ∀ x ∈ T i, x.1 < 6) →
    ∃ s', (enumFrom k data).foldlM addStem s = .ok s' ∧ s'.ppms.length = s.ppms.length ∧ PpmInv (fun i => T i ++ fromK TTStem.round data k i) s'.ppms ∧
      s'.stems = s.stems ++ (enumFrom k data).map fun x => ⟨x.2.value, x.2.name, x.1⟩ := by
  induction data with
  | nil =>
    intro k s T _ _ hT _
    refine ⟨s, rfl, rfl, fun i r hr => ?_, by simp [enumFrom]⟩
    have : fromK TTStem.round [] k i = [] := by unfold fromK; split <;> rfl
    beta_reduce
    rw [this, List.append_nil]; exact hT i r hr
  | cons d data ih =>
    intro k s T hd hlen hT h1
    obtain ⟨ppm, h3⟩ := hd 0 d rfl
    simp only [List.length_cons] at hlen
    have hk : k < s.ppms.length := by omega
    have hget : s.ppms[k]? = some s.ppms[k] := List.getElem?_eq_getElem hk
    obtain ⟨h4, h5⟩ := hT k _ hget
    have hb := best_larger h5 (p := ppm) (h1 k (Nat.le_refl k))
    have hstep : addStem s (k, d) = .ok ⟨s.ppms.set k ⟨k, dictSet s.ppms[k].round (intDec ppm) 6⟩, s.stems ++ [⟨d.value, d.name, k⟩]⟩ := by
      unfold addStem
      simp only [h3, dictGet, if_true]
      rw [pyIndex_get hget]
      simp only [bind, Except.bind, h4, if_true]
    obtain ⟨s2, h9, h10, h11, h12⟩ := ih (k + 1)
      ⟨s.ppms.set k ⟨k, dictSet s.ppms[k].round (intDec ppm) 6⟩, s.stems ++ [⟨d.value, d.name, k⟩]⟩
      (fun i => if i = k then T k ++ [(6, ppm)] else T i)
      (fun j e he => hd (j + 1) e (by simpa using he)) (by
      simp only [List.length_set]; omega) (hT.set (k := k) hb) (fun i hi x hx => by
        rw [if_neg (by omega)] at hx; exact h1 i (by omega) x hx)
    refine ⟨s2, ?_, by rw [h10]; simp, fun i r hr => ?_, ?_⟩
    · rw [enumFrom, List.foldlM_cons, hstep]; exact h9
    · have := h11 i r hr
      beta_reduce at this ⊢
      rw [fromK_cons]
      by_cases hi : i = k
      · subst hi
        simp only [if_true] at this ⊢
        rw [h3]
        have e : fromK TTStem.round data (i + 1) i = [] := by unfold fromK; rw [if_neg (by omega)]
        rw [e, List.append_nil] at this
        exact this
      · rw [if_neg hi] at this ⊢; exact this
    · rw [h12, enumFrom]; simp


theorem enumFrom_length {α : Type} (l : List α) : ∀ k, (enumFrom k l).length = l.length := by
  induction l with
  | nil => intro k; rfl
  | cons x l ih => intro k; simp [enumFrom, ih]

theorem enumFrom_get {α : Type} (l : List α) : ∀ k (i : Nat), (enumFrom k l)[i]? = (l[i]?).map fun x => (k + i, x) := by
  induction l with
  | nil => intro k i; simp [enumFrom]
  | cons x l ih =>
    intro k i
    cases i with
    | zero => simp [enumFrom]
    | succ i =>
      simp only [enumFrom, List.getElem?_cons_succ, ih]
      congr 1
      funext y
      congr 1
      omega

/-- one direction: ppms, then perhaps those for 1 pixel, then stems, then perhaps those for 1 pixel -/
theorem dir_stems {p p1 p1' : List TTPpem} {s : List TTStem} (hp : PpmTable p) (hp1 : Ppm1Table p1) (hs : StemTable s)
    (h1 : p1.length ≤ p.length) (h2 : s.length ≤ p.length) (hp1' : Ppm1Table p1') (h3 : p1'.length ≤ p.length)
    (hnil : p1 = [] ∨ p1' = []) (horizontal : Bool) :
    ∃ a b c, addPpms1 (addPpms ⟨[], []⟩ p) p1 = .ok a ∧ addStems a s = .ok b ∧ addPpms1 b p1' = .ok c ∧
      StemsAre p (p1 ++ p1') s horizontal (c.resolve horizontal) := by
  obtain ⟨i1, l1⟩ := addPpms_inv hp
  obtain ⟨pp, e1, l2, i2⟩ := addPpm1_fold p1 0 _ _ (fun j d hd => by
      obtain ⟨q, hq⟩ := hp1 j d hd
      exact ⟨by rw [q]; congr 1; omega, hq⟩) (by omega) i1 (fun i _ x hx => by
        cases hd : p[i]? with
        | none => rw [hd] at hx; simp at hx
        | some d =>
          rw [hd] at hx
          simp only [Option.map_some, Option.getD_some] at hx
          exact ((hp i d hd).2.2 x hx).1)
  have e1' : addPpms1 (addPpms ⟨[], []⟩ p) p1 = .ok { addPpms ⟨[], []⟩ p with ppms := pp } := by
    unfold addPpms1; rw [e1]; rfl
  obtain ⟨b, e2, l3, i3, st⟩ := addStem_fold s 0 { addPpms ⟨[], []⟩ p with ppms := pp } _ hs (by simp only; omega) i2 (fun i _ x hx => by
    beta_reduce at hx
    rcases List.mem_append.1 hx with hx | hx
    · cases hd : p[i]? with
      | none => rw [hd] at hx; simp at hx
      | some d =>
        rw [hd] at hx
        simp only [Option.map_some, Option.getD_some] at hx
        exact ((hp i d hd).2.2 x hx).2
    · unfold fromK at hx
      rw [if_pos (by omega)] at hx
      cases hd : p1[i - 0]? with
      | none => rw [hd] at hx; simp at hx
      | some d =>
        rw [hd] at hx
        obtain ⟨_, q, hq⟩ := hp1 _ d hd
        simp [hq] at hx
        rw [hx]; show (1 : Int) < 6; decide)
  have hc : ∃ c, addPpms1 b p1' = .ok c ∧ c.stems = b.stems ∧ c.ppms.length = p.length ∧
      ∀ (i : Nat) r, c.ppms[i]? = some r → BestWidth (widthTable p (p1 ++ p1') s i) r.round := by
    rcases hnil with rfl | rfl
    · obtain ⟨c, e4, l4, i4⟩ := addPpm1_fold p1' 0 _ _ (fun j d hd => by
        obtain ⟨q, hq⟩ := hp1' j d hd
        exact ⟨by rw [q]; congr 1; omega, hq⟩) (by simp only at l3; omega) i3 (fun i _ x hx => by
          beta_reduce at hx
          rcases List.mem_append.1 hx with hx | hx
          · rcases List.mem_append.1 hx with hx | hx
            · cases hd : p[i]? with
              | none => rw [hd] at hx; simp at hx
              | some d =>
                rw [hd] at hx
                simp only [Option.map_some, Option.getD_some] at hx
                exact ((hp i d hd).2.2 x hx).1
            · simp [fromK] at hx
          · unfold fromK at hx
            rw [if_pos (by omega)] at hx
            cases hd : s[i - 0]? with
            | none => rw [hd] at hx; simp at hx
            | some d =>
              rw [hd] at hx
              obtain ⟨q, hq⟩ := hs _ d hd
              simp [hq] at hx
              rw [hx]; show (1 : Int) < 6; decide)
      refine ⟨{ b with ppms := c }, by unfold addPpms1; rw [e4]; rfl, rfl, by simp only at l3 l4 ⊢; omega, fun i r hr => ?_⟩
      refine best_congr (fun x => ?_) (i4 i r hr).2
      simp only [widthTable, fromK, List.nil_append, List.mem_append, Nat.sub_zero, Nat.zero_le, if_true, List.getElem?_nil, Option.map_none, Option.getD_none,
        List.not_mem_nil, or_false]
      constructor
      · rintro ((h | h) | h)
        · exact .inl (.inl h)
        · exact .inr h
        · exact .inl (.inr h)
      · rintro ((h | h) | h)
        · exact .inl (.inl h)
        · exact .inr h
        · exact .inl (.inr h)
    · refine ⟨b, rfl, rfl, by simp only at l3; omega, fun i r hr => ?_⟩
      have := (i3 i r hr).2
      simpa [widthTable, fromK] using this
  obtain ⟨c, e4, e5, l4, i4⟩ := hc
  refine ⟨_, b, c, e1', e2, e4, ?_, ?_⟩
  · simp only [DirStems.resolve, e5, st, List.length_map, List.length_append]
    simp [addPpms, enumFrom_length]
  · intro i x y hx hy
    simp only [DirStems.resolve, e5, st] at hy
    simp only [addPpms, List.nil_append, List.getElem?_map, enumFrom_get, hx, Option.map_some, Option.some.injEq, Nat.zero_add] at hy
    subst hy
    refine ⟨rfl, rfl, rfl, ?_⟩
    have hi : i < c.ppms.length := by
      have := (List.getElem?_eq_some_iff.1 hx).1; omega
    have hg : c.ppms[i]? = some c.ppms[i] := List.getElem?_eq_getElem hi
    simp only [hg, Option.map_some, Option.getD_some]
    exact i4 i _ hg

/-- the builder before it has seen any stems -/
def noStems : StemTables := ⟨⟨[], []⟩, ⟨[], []⟩⟩

/-- the stems have the rounding values of all entries, in whichever order the ppms for 1 pixel and the stems come -/
theorem C61_rounds {p p1 : TTStems TTPpem} {s : TTStems TTStem} (hh : StemInput p.ttStemsH p1.ttStemsH s.ttStemsH)
    (hv : StemInput p.ttStemsV p1.ttStemsV s.ttStemsV) (order : List StemEntry)
    (ho : order = [.ppms p, .ppms1 p1, .stems s] ∨ order = [.ppms p, .stems s, .ppms1 p1] ∨
      order = [.ppms p, .stems s] ∧ p1.ttStemsH = [] ∧ p1.ttStemsV = []) :
    ∃ t, order.foldlM stemEntry noStems = .ok t ∧
      StemsAre p.ttStemsH p1.ttStemsH s.ttStemsH false (t.h.resolve false) ∧
      StemsAre p.ttStemsV p1.ttStemsV s.ttStemsV true (t.v.resolve true) := by
  have h0 : Ppm1Table [] := by intro i d hd; simp at hd
  rcases ho with rfl | rfl | ⟨rfl, e1, e2⟩
  · obtain ⟨a, b, c, h1, h2, h3, h4⟩ := dir_stems hh.ppms hh.ppms1 hh.stems hh.len1 hh.len h0 (by simp) (.inr rfl) false
    obtain ⟨a', b', c', h1', h2', h3', h4'⟩ := dir_stems hv.ppms hv.ppms1 hv.stems hv.len1 hv.len h0 (by simp) (.inr rfl) true
    cases h3; cases h3'
    rw [List.append_nil] at h4 h4'
    refine ⟨⟨b, b'⟩, ?_, h4, h4'⟩
    simp only [List.foldlM_cons, List.foldlM_nil, stemEntry, noStems, bind, Except.bind, h1, h1', h2, h2', pure, Except.pure]
  · obtain ⟨a, b, c, h1, h2, h3, h4⟩ := dir_stems hh.ppms h0 hh.stems (by simp) hh.len hh.ppms1 hh.len1 (.inl rfl) false
    obtain ⟨a', b', c', h1', h2', h3', h4'⟩ := dir_stems hv.ppms h0 hv.stems (by simp) hv.len hv.ppms1 hv.len1 (.inl rfl) true
    cases h1; cases h1'
    refine ⟨⟨c, c'⟩, ?_, h4, h4'⟩
    simp only [List.foldlM_cons, List.foldlM_nil, stemEntry, noStems, bind, Except.bind, h2, h2', h3, h3', pure, Except.pure]
  · obtain ⟨a, b, c, h1, h2, h3, h4⟩ := dir_stems hh.ppms h0 hh.stems (by simp) hh.len h0 (by simp) (.inl rfl) false
    obtain ⟨a', b', c', h1', h2', h3', h4'⟩ := dir_stems hv.ppms h0 hv.stems (by simp) hv.len h0 (by simp) (.inl rfl) true
    cases h1; cases h1'; cases h3; cases h3'
    rw [e1, e2]
    refine ⟨⟨b, b'⟩, ?_, h4, h4'⟩
    simp only [List.foldlM_cons, List.foldlM_nil, stemEntry, noStems, bind, Except.bind, h2, h2', pure, Except.pure]

/-- stems before their ppms: IndexError -/
theorem C61_stems_first (s : TTStems TTStem) (x : TTStem) (l : List TTStem) (ppm : Int) (hx : s.ttStemsH = x :: l)
    (hr : x.round = [(6, ppm)]) (rest : List StemEntry) : (StemEntry.stems s :: rest).foldlM stemEntry noStems = .error .index := by
  simp only [List.foldlM_cons, stemEntry, noStems, hx, addStems, enumFrom, addStem, hr, dictGet, if_true, bind, Except.bind]
  rfl

theorem addStem_numbers (data : List TTStem) : ∀ (k : Nat) (s s' : DirStems), (enumFrom k data).foldlM addStem s = .ok s' →
    ∀ i, i < data.length → ∃ r, s.ppms[k + i]? = some r ∧ r.stem = ((k + i : Nat) : Int) := by
  induction data with
  | nil => intro k s s' _ i hi; simp at hi
  | cons d data ih =>
    intro k s s' h i hi
    rw [enumFrom, List.foldlM_cons] at h
    cases h1 : addStem s (k, d) with
    | error e => rw [h1] at h; cases h
    | ok t =>
      rw [h1] at h
      have h : (enumFrom (k + 1) data).foldlM addStem t = .ok s' := h
      unfold addStem at h1
      simp only at h1
      cases hr : d.round with
      | nil => rw [hr] at h1; cases h1
      | cons x l =>
        rw [hr] at h1
        simp only at h1
        cases hg : dictGet (x :: l) x.1 with
        | none => rw [hg] at h1; cases h1
        | some rv =>
          rw [hg] at h1
          simp only at h1
          cases hp : pyIndex s.ppms (k : Int) with
          | error e => rw [hp] at h1; cases h1
          | ok r =>
            rw [hp] at h1
            simp only [bind, Except.bind] at h1
            have hk : s.ppms[k]? = some r := pyIndex_nat hp
            by_cases hs : (k : Int) = r.stem
            · cases i with
              | zero => exact ⟨r, hk, hs.symm⟩
              | succ i =>
                rw [if_pos hs] at h1
                injection h1 with h1
                subst h1
                obtain ⟨r', h2, h3⟩ := ih (k + 1) _ s' h i (by simpa using hi)
                simp only at h2
                rw [List.getElem?_set_ne (by omega)] at h2
                exact ⟨r', by rw [← h2]; congr 1; omega, by rw [h3]; congr 1; omega⟩
            · rw [if_neg hs] at h1
              cases h1

/-- The stems are only accepted if, in both directions, each has got a record of ppms, and the number of that record is its
position; otherwise building stops with an error. -/
theorem C61_numbers (t t' : StemTables) (s : TTStems TTStem) (h : stemEntry t (.stems s) = .ok t') :
    (∀ i, i < s.ttStemsH.length → ∃ r, t.h.ppms[i]? = some r ∧ r.stem = (i : Int)) ∧
    (∀ i, i < s.ttStemsV.length → ∃ r, t.v.ppms[i]? = some r ∧ r.stem = (i : Int)) := by
  unfold stemEntry at h
  simp only [bind, Except.bind] at h
  cases h1 : addStems t.h s.ttStemsH with
  | error e => rw [h1] at h; cases h
  | ok a =>
    rw [h1] at h
    simp only at h
    cases h2 : addStems t.v s.ttStemsV with
    | error e => rw [h2] at h; cases h
    | ok b =>
      refine ⟨fun i hi => ?_, fun i hi => ?_⟩
      · simpa using addStem_numbers s.ttStemsH 0 t.h a h1 i hi
      · simpa using addStem_numbers s.ttStemsV 0 t.v b h2 i hi

theorem lib_dir (letter : PyStr) : ∀ (l : List (PyStr × StemData)) (i : Nat) (lib : List (PyStr × StemData)) (pre : List PyStr),
    i = (pre.filter (fun n => decide (n = []))).length →
    (lib.map Prod.fst ++ (List.range l.length).map (fun j => stemKey letter (pre ++ l.map Prod.fst) (pre.length + j))).Nodup →
    stemsLibDir letter i lib l = lib ++ ((List.range l.length).map (fun j => stemKey letter (pre ++ l.map Prod.fst) (pre.length + j))).zip (l.map Prod.snd) := by
  intro l
  induction l with
  | nil => intro i lib pre _ _; simp [stemsLibDir]
  | cons x l ih =>
    intro i lib pre hi hn
    obtain ⟨name, st⟩ := x
    rw [stemsLibDir]
    have hkey : stemKey letter (pre ++ ((name, st) :: l).map Prod.fst) (pre.length + 0) = if name = [] then letter ++ pad2 i else name := by
      unfold stemKey
      have : (pre ++ ((name, st) :: l).map Prod.fst)[pre.length + 0]? = some name := by simp
      rw [this, hi]
      cases name with
      | nil => simp
      | cons c n => simp
    have hsplit : (List.range ((name, st) :: l).length).map (fun j => stemKey letter (pre ++ ((name, st) :: l).map Prod.fst) (pre.length + j)) =
        (if name = [] then letter ++ pad2 i else name) ::
        (List.range l.length).map (fun j => stemKey letter ((pre ++ [name]) ++ l.map Prod.fst) ((pre ++ [name]).length + j)) := by
      rw [List.length_cons, List.range_succ_eq_map, List.map_cons, hkey, List.map_map]
      congr 1
      apply List.map_congr_left
      intro j _
      simp only [Function.comp, List.map_cons, List.append_assoc, List.singleton_append, List.length_append, List.length_singleton, Nat.succ_eq_add_one]
      congr 1; omega
    rw [hsplit] at hn ⊢
    have hnone : dictGet lib (if name = [] then letter ++ pad2 i else name) = none := by
      rw [dictGet_none]
      intro hm
      rw [List.nodup_append] at hn
      exact hn.2.2 _ hm _ (by simp) rfl
    simp only [hnone, Option.isSome_none, if_false, Bool.false_eq_true]
    rw [dictSet_new (dictGet_none.1 hnone), ih _ _ (pre ++ [name])]
    · simp
    · rw [List.filter_append, List.length_append, ← hi]
      by_cases h : name = [] <;> simp [h]
    · simpa using hn

theorem C61_lib_exact (t : StemTables)
    (hn : (stemKeys (lit "v") ((t.h.resolve false).map Prod.fst) ++ stemKeys (lit "h") ((t.v.resolve true).map Prod.fst)).Nodup) :
    stemsLib t = (stemKeys (lit "v") ((t.h.resolve false).map Prod.fst)).zip ((t.h.resolve false).map Prod.snd) ++
      (stemKeys (lit "h") ((t.v.resolve true).map Prod.fst)).zip ((t.v.resolve true).map Prod.snd) := by
  unfold stemsLib
  have h1 := lib_dir (lit "v") (t.h.resolve false) 0 [] [] rfl (by
    have := (List.nodup_append.1 hn).1
    simpa [stemKeys] using this)
  have e1 : stemsLibDir (lit "v") 0 [] (t.h.resolve false) =
      (stemKeys (lit "v") ((t.h.resolve false).map Prod.fst)).zip ((t.h.resolve false).map Prod.snd) := by
    simpa [stemKeys] using h1
  rw [e1]
  have h2 := lib_dir (lit "h") (t.v.resolve true) 0 ((stemKeys (lit "v") ((t.h.resolve false).map Prod.fst)).zip ((t.h.resolve false).map Prod.snd)) [] rfl (by
    rw [List.map_fst_zip (by simp [stemKeys])]
    simpa [stemKeys] using hn)
  simpa [stemKeys] using h2

/-- the lib never has a stem with the empty name, which is what the commands use for an unnamed stem -/
theorem C61_no_empty_key (t : StemTables) : dictGet (stemsLib t) [] = none := by
  have key : ∀ (letter : PyStr), letter ≠ [] → ∀ (l : List (PyStr × StemData)) (i : Nat) (lib : List (PyStr × StemData)),
      dictGet lib [] = none → dictGet (stemsLibDir letter i lib l) [] = none := by
    intro letter hl l
    induction l with
    | nil => intro i lib h; exact h
    | cons x l ih =>
      intro i lib h
      obtain ⟨name, st⟩ := x
      rw [stemsLibDir]
      apply ih
      rw [dictGet_dictSet, if_neg]
      · exact h
      · intro e
        have h1 : (if name = [] then letter ++ pad2 i else name) ≠ [] := by
          by_cases hn : name = []
          · rw [if_pos hn]; simp [hl]
          · rw [if_neg hn]; exact hn
        by_cases hd : (dictGet lib (if name = [] then letter ++ pad2 i else name)).isSome = true
        · rw [if_pos hd] at e
          simp only [List.append_eq_nil_iff] at e
          exact h1 e.1.1
        · rw [if_neg hd] at e
          exact h1 e
  unfold stemsLib
  exact key _ (by decide) _ _ _ (key _ (by decide) _ _ _ rfl)

/-- three stems of the same name: the third takes the place of the second -/
theorem C61_third_duplicate (ppms : List StemPpm) (n : PyStr) (hn : n ≠ []) (w1 w2 w3 : Int) (i j k : Nat) :
    stemsLib ⟨⟨ppms, [⟨w1, n, i⟩, ⟨w2, n, j⟩, ⟨w3, n, k⟩]⟩, ⟨[], []⟩⟩ =
      [(n, ⟨false, w1, ((ppms[i]?).map StemPpm.round).getD []⟩),
       (n ++ lit "#00", ⟨false, w3, ((ppms[k]?).map StemPpm.round).getD []⟩)] := by
  have hne : ∀ m : PyStr, n ≠ n ++ lit "#" ++ m := by
    intro m h
    have := congrArg List.length h
    simp [lit] at this
  have hp : pad2 0 = lit "00" := by decide
  have e : n ++ lit "#" ++ lit "00" = n ++ lit "#00" := by rw [List.append_assoc]; rfl
  have hne' : ¬ n = n ++ lit "#00" := by rw [← e]; exact hne _
  have first : ∀ (st : StemData) rest, stemsLibDir (lit "v") 0 [] ((n, st) :: rest) = stemsLibDir (lit "v") 0 [(n, st)] rest := by
    intro st rest
    rw [stemsLibDir]
    simp [hn, dictGet, dictSet]
  have more : ∀ (st : StemData) x l rest, stemsLibDir (lit "v") 0 ((n, x) :: l) ((n, st) :: rest) =
      stemsLibDir (lit "v") 0 ((n, x) :: dictSet l (n ++ lit "#00") st) rest := by
    intro st x l rest
    rw [stemsLibDir]
    simp only [if_neg hn, dictGet, if_true, Option.isSome_some, hp, e]
    rw [dictSet, if_neg hne']
  unfold stemsLib DirStems.resolve
  rw [List.map_cons, List.map_cons, List.map_cons, List.map_nil, List.map_nil, first, more, more]
  simp [dictSet, stemsLibDir]

/-- a case: the ppm 60 is where both 5 and 6 pixels start, an unnamed stem among named ones -/
def exampleStemOrder : List StemEntry :=
  [.ppms ⟨[⟨0, [(2, 20), (3, 30), (4, 40), (5, 60)]⟩], [⟨0, [(2, 21), (3, 31), (4, 41), (5, 51)]⟩, ⟨1, [(2, 25), (3, 30), (4, 40), (5, 50)]⟩]⟩,
   .ppms1 ⟨[⟨0, [(1, 0)]⟩], [⟨0, [(1, 5)]⟩, ⟨1, [(1, 25)]⟩]⟩,
   .stems ⟨[⟨70, lit "y1", [(6, 60)]⟩], [⟨80, lit "x1", [(6, 61)]⟩, ⟨90, [], [(6, 60)]⟩]⟩]

theorem C61_example : (exampleStemOrder.foldlM stemEntry noStems).map stemsLib = .ok
    [(lit "x1", ⟨false, 80, [(lit "21", 2), (lit "31", 3), (lit "41", 4), (lit "51", 5), (lit "5", 1), (lit "61", 6)]⟩),
     (lit "v00", ⟨false, 90, [(lit "25", 2), (lit "30", 3), (lit "40", 4), (lit "50", 5), (lit "60", 6)]⟩),
     (lit "y1", ⟨true, 70, [(lit "20", 2), (lit "30", 3), (lit "40", 4), (lit "60", 6), (lit "0", 1)]⟩)] := by decide +kernel

example : StemInput [⟨0, [(2, 20), (3, 30), (4, 40), (5, 60)]⟩] [⟨0, [(1, 0)]⟩] [⟨70, lit "y1", [(6, 60)]⟩] where
  ppms := by
    intro i d h
    rcases i with _ | i
    · cases h; decide
    · simp at h
  ppms1 := by
    intro i d h
    rcases i with _ | i
    · cases h; exact ⟨rfl, 0, rfl⟩
    · simp at h
  stems := by
    intro i d h
    rcases i with _ | i
    · cases h; exact ⟨60, rfl⟩
    · simp at h
  len1 := by decide
  len := by decide

/-! ### Zones -/

/-- the builder before it has seen any zones -/
def noZones : ZoneTables := ⟨[], [], []⟩

theorem zoneSide_b (l : List TTZone) : ∀ (zones : List (PyStr × UfoZone)) (all nt nb : List PyStr),
    l.foldlM (zoneSide (lit "ttZonesB")) ⟨zones, all, [(lit "ttZonesT", nt), (lit "ttZonesB", nb)]⟩ =
      .ok ⟨(l.map (zoneData false)).foldl (fun d x => dictSet d x.1 x.2) zones, all ++ l.map TTZone.name,
        [(lit "ttZonesT", nt), (lit "ttZonesB", nb ++ l.map TTZone.name)]⟩ := by
  induction l with
  | nil => intro zones all nt nb; simp; rfl
  | cons z l ih =>
    intro zones all nt nb
    rw [List.foldlM_cons]
    have : zoneSide (lit "ttZonesB") ⟨zones, all, [(lit "ttZonesT", nt), (lit "ttZonesB", nb)]⟩ z =
      .ok ⟨dictSet zones z.name (zoneData false z).2, all ++ [z.name], [(lit "ttZonesT", nt), (lit "ttZonesB", nb ++ [z.name])]⟩ := rfl
    rw [this]
    refine (ih _ _ _ _).trans ?_
    simp [zoneData]

theorem zoneSide_t (l : List TTZone) : ∀ (zones : List (PyStr × UfoZone)) (all nt nb : List PyStr),
    l.foldlM (zoneSide (lit "ttZonesT")) ⟨zones, all, [(lit "ttZonesT", nt), (lit "ttZonesB", nb)]⟩ =
      .ok ⟨(l.map (zoneData true)).foldl (fun d x => dictSet d x.1 x.2) zones, all ++ l.map TTZone.name,
        [(lit "ttZonesT", nt ++ l.map TTZone.name), (lit "ttZonesB", nb)]⟩ := by
  induction l with
  | nil => intro zones all nt nb; simp; rfl
  | cons z l ih =>
    intro zones all nt nb
    rw [List.foldlM_cons]
    have : zoneSide (lit "ttZonesT") ⟨zones, all, [(lit "ttZonesT", nt), (lit "ttZonesB", nb)]⟩ z =
      .ok ⟨dictSet zones z.name (zoneData true z).2, all ++ [z.name], [(lit "ttZonesT", nt ++ [z.name]), (lit "ttZonesB", nb)]⟩ := rfl
    rw [this]
    refine (ih _ _ _ _).trans ?_
    simp [zoneData]

theorem setZones_eq {data : TTZones} {b t : List TTZone} (hb : data.ttZonesB = some b) (ht : data.ttZonesT = some t) :
    setZones noZones data = .ok ⟨(allZones b t).foldl (fun d x => dictSet d x.1 x.2) [], (allZones b t).map Prod.fst,
      [(lit "ttZonesT", t.map TTZone.name), (lit "ttZonesB", b.map TTZone.name)]⟩ := by
  unfold setZones
  rw [hb, ht]
  simp only [zonesOf, bind, Except.bind]
  have h1 := zoneSide_b b noZones.zones noZones.all [] []
  simp only [noZones] at h1 ⊢
  rw [h1]
  have h2 := zoneSide_t t ((b.map (zoneData false)).foldl (fun d x => dictSet d x.1 x.2) []) ([] ++ b.map TTZone.name) [] ([] ++ b.map TTZone.name)
  refine h2.trans ?_
  simp [allZones, zoneData, Function.comp_def]

theorem fold_set_new {κ ν : Type} [DecidableEq κ] : ∀ (l d : List (κ × ν)), ((d ++ l).map Prod.fst).Nodup →
    l.foldl (fun d x => dictSet d x.1 x.2) d = d ++ l := by
  intro l
  induction l with
  | nil => intro d _; simp
  | cons x l ih =>
    intro d h
    rw [List.foldl_cons, dictSet_new, ih]
    · simp
    · simpa using h
    · intro hm
      rw [List.map_append, List.nodup_append] at h
      exact h.2.2 _ hm _ (by simp) rfl

theorem fold_set_get {κ ν : Type} [DecidableEq κ] (k : κ) : ∀ (l d : List (κ × ν)),
    dictGet (l.foldl (fun d x => dictSet d x.1 x.2) d) k = (dictGet l.reverse k).or (dictGet d k) := by
  intro l
  induction l with
  | nil => intro d; simp [dictGet]
  | cons x l ih =>
    intro d
    rw [List.foldl_cons, ih, List.reverse_cons, dictGet_append, dictGet_dictSet]
    by_cases h : x.1 = k
    · cases dictGet l.reverse k <;> simp [dictGet, h]
    · cases dictGet l.reverse k <;> simp [dictGet, h]

/-- zones with different names: the UFO has them all, bottom zones first, and the lists of names by side that the
commands use are those of the file -/
theorem C62_zones {data : TTZones} {b t : List TTZone} (hb : data.ttZonesB = some b) (ht : data.ttZonesT = some t)
    (hn : ((b ++ t).map TTZone.name).Nodup) :
    ∃ s, setZones noZones data = .ok s ∧ s.zones = allZones b t ∧ s.all = (b ++ t).map TTZone.name ∧
      dictGet s.names (lit "ttZonesB") = some (b.map TTZone.name) ∧ dictGet s.names (lit "ttZonesT") = some (t.map TTZone.name) := by
  refine ⟨_, setZones_eq hb ht, ?_, by simp [allZones, zoneData, Function.comp_def], rfl, rfl⟩
  refine (fold_set_new _ [] ?_).trans (List.nil_append _)
  simpa [allZones, zoneData, Function.comp_def] using hn

/-- a command for the `k`-th zone of a side names the `k`-th zone of that side of the file -/
theorem C62_commands {data : TTZones} {b t : List TTZone} (hb : data.ttZonesB = some b) (ht : data.ttZonesT = some t)
    (hn : ((b ++ t).map TTZone.name).Nodup) {s : ZoneTables} (hs : setZones noZones data = .ok s) (k : Nat) (z : TTZone) :
    (b[k]? = some z → listZone s.names (lit "ttZonesB") k = .ok z.name ∧ dictGet s.zones z.name = some (zoneData false z).2) ∧
    (t[k]? = some z → listZone s.names (lit "ttZonesT") k = .ok z.name ∧ dictGet s.zones z.name = some (zoneData true z).2) := by
  obtain ⟨s', h1, h2, _, h3, h4⟩ := C62_zones hb ht hn
  rw [hs] at h1; cases h1
  have hok : ((allZones b t).map Prod.fst).Nodup := by simpa [allZones, zoneData, Function.comp_def] using hn
  refine ⟨fun hz => ⟨?_, ?_⟩, fun hz => ⟨?_, ?_⟩⟩
  · unfold listZone
    rw [h3]
    exact pyIndex_get (by rw [List.getElem?_map, hz]; rfl)
  · rw [h2]
    refine dictGet_of_mem hok ?_
    refine List.mem_append.2 (.inl (List.mem_map.2 ⟨z, List.mem_of_getElem? hz, rfl⟩))
  · unfold listZone
    rw [h4]
    exact pyIndex_get (by rw [List.getElem?_map, hz]; rfl)
  · rw [h2]
    refine dictGet_of_mem hok ?_
    refine List.mem_append.2 (.inr (List.mem_map.2 ⟨z, List.mem_of_getElem? hz, rfl⟩))

/-- zones with the same name: only the last one is in the UFO, so commands for the others refer to it -/
theorem C62_duplicate {data : TTZones} {b t : List TTZone} (hb : data.ttZonesB = some b) (ht : data.ttZonesT = some t)
    (pre post : List (PyStr × UfoZone)) (name : PyStr) (z : UfoZone) (hz : allZones b t = pre ++ (name, z) :: post)
    (hlast : name ∉ post.map Prod.fst) :
    ∃ s, setZones noZones data = .ok s ∧ dictGet s.zones name = some z ∧ s.zones.length ≤ ((b ++ t).map TTZone.name).length := by
  refine ⟨_, setZones_eq hb ht, ?_, ?_⟩
  · show dictGet ((allZones b t).foldl (fun d x => dictSet d x.1 x.2) []) name = some z
    rw [fold_set_get, hz, List.reverse_append, List.reverse_cons, List.append_assoc, dictGet_append, dictGet_append]
    have : dictGet post.reverse name = none := by
      rw [dictGet_none]
      simpa using hlast
    rw [this]
    simp [dictGet]
  · have key : ∀ (l d : List (PyStr × UfoZone)), (l.foldl (fun d x => dictSet d x.1 x.2) d).length ≤ d.length + l.length := by
      intro l
      induction l with
      | nil => intro d; simp
      | cons x l ih =>
        intro d
        have h1 := ih (dictSet d x.1 x.2)
        have h2 : (dictSet d x.1 x.2).length ≤ d.length + 1 := by
          clear ih h1
          induction d with
          | nil => simp [dictSet]
          | cons y d ih => rw [dictSet]; split <;> simp at * <;> omega
        rw [List.foldl_cons]
        simp only [List.length_cons]
        omega
    have := key (allZones b t) []
    simpa [allZones] using this

theorem delta_get {deltas : List (Int × Int)} (h : (deltas.map Prod.fst).Nodup) : SameDelta deltas (deltaDict deltas) := by
  intro text v
  have e : deltaDict deltas = (deltas.map fun kv => (intDec kv.1, kv.2)).foldl (fun d x => dictSet d x.1 x.2) [] := by
    unfold deltaDict; rw [List.foldl_map]
  have hn : ((deltas.map fun kv => (intDec kv.1, kv.2)).map Prod.fst).Nodup := by
    rw [List.map_map]
    have : (Prod.fst ∘ fun kv : Int × Int => (intDec kv.1, kv.2)) = intDec ∘ Prod.fst := rfl
    rw [this, ← List.map_map]
    exact nodup_map_on (fun a _ b _ h => intDec_inj h) h
  rw [e, fold_set_new _ [] (by simpa using hn), List.nil_append]
  constructor
  · intro hg
    obtain ⟨⟨k, v'⟩, h1, h2⟩ := List.mem_map.1 (dictGet_some_mem hg)
    cases h2
    exact ⟨k, rfl, dictGet_of_mem h h1⟩
  · rintro ⟨ppm, rfl, hg⟩
    exact dictGet_of_mem hn (List.mem_map.2 ⟨(ppm, v), dictGet_some_mem hg, rfl⟩)

theorem dictSet_at {κ ν : Type} [DecidableEq κ] {d : List (κ × ν)} (hd : (d.map Prod.fst).Nodup) {i : Nat} {k : κ} {v w : ν}
    (h : d[i]? = some (k, v)) : dictSet d k w = d.set i (k, w) := by
  induction d generalizing i with
  | nil => simp at h
  | cons x d ih =>
    rw [List.map_cons, List.nodup_cons] at hd
    cases i with
    | zero =>
      simp at h
      subst h
      simp [dictSet]
    | succ i =>
      simp at h
      have hne : ¬ x.1 = k := by
        intro e
        exact hd.1 (e ▸ List.mem_map.2 ⟨(k, v), List.mem_of_getElem? h, rfl⟩)
      rw [dictSet, if_neg hne, List.set_cons_succ, ih hd.2 h]

theorem deltas_fold (Z : List (PyStr × UfoZone)) (hZ : (Z.map Prod.fst).Nodup) : ∀ (data pre : TTDeltas) (s : ZoneTables),
    (pre ++ data).map Prod.fst |>.Nodup → (∀ x ∈ data, (0 ≤ x.1 ∧ x.1 < Z.length) ∧ DictOk x.2) → s.all = Z.map Prod.fst →
    s.zones.length = Z.length →
    (∀ (i : Nat) name z, Z[i]? = some (name, z) → ∃ o, s.zones[i]? = some (name, { z with delta := o }) ∧ HasDelta (dictGet pre (i : Int)) o) →
    ∃ s', setZoneDeltas s data = .ok s' ∧ s'.all = Z.map Prod.fst ∧ s'.names = s.names ∧ s'.zones.length = Z.length ∧
      ∀ (i : Nat) name z, Z[i]? = some (name, z) → ∃ o, s'.zones[i]? = some (name, { z with delta := o }) ∧ HasDelta (dictGet (pre ++ data) (i : Int)) o := by
  intro data
  induction data with
  | nil => intro pre s _ _ ha hl h; exact ⟨s, rfl, ha, rfl, hl, by simpa using h⟩
  | cons x data ih =>
    intro pre s hn hx ha hl h
    obtain ⟨⟨h1, h2⟩, h3⟩ := hx x (by simp)
    obtain ⟨j, hj⟩ := Int.eq_ofNat_of_zero_le h1
    have hjl : j < Z.length := by omega
    have hg : Z[j]? = some Z[j] := List.getElem?_eq_getElem hjl
    obtain ⟨o, ho1, ho2⟩ := h j Z[j].1 Z[j].2 hg
    have hkeys : s.zones.map Prod.fst = Z.map Prod.fst := by
      apply List.ext_getElem?
      intro i
      rw [List.getElem?_map, List.getElem?_map]
      by_cases hi : i < Z.length
      · have hgi : Z[i]? = some Z[i] := List.getElem?_eq_getElem hi
        obtain ⟨o', h', _⟩ := h i Z[i].1 Z[i].2 hgi
        rw [h', hgi]; rfl
      · rw [List.getElem?_eq_none (by omega), List.getElem?_eq_none (by omega)]
    have hzn : (s.zones.map Prod.fst).Nodup := hkeys ▸ hZ
    have hget : dictGet s.zones Z[j].1 = some { Z[j].2 with delta := o } := dictGet_of_mem hzn (List.mem_of_getElem? ho1)
    have hstep : setZoneDelta s x = .ok { s with zones := s.zones.set j (Z[j].1, { Z[j].2 with delta := some (deltaDict x.2) }) } := by
      unfold setZoneDelta
      rw [hj, ha, pyIndex_get (x := Z[j].1) (by rw [List.getElem?_map, hg]; rfl)]
      simp only [bind, Except.bind]
      rw [hget]
      simp only
      rw [dictSet_at hzn ho1]
    have hnone : dictGet pre (j : Int) = none := by
      rw [dictGet_none]
      intro hm
      rw [List.map_append, List.nodup_append] at hn
      exact hn.2.2 _ hm x.1 (by simp) hj.symm
    obtain ⟨s', e1, e2, e3, e4, e5⟩ := ih (pre ++ [x])
      { s with zones := s.zones.set j (Z[j].1, { Z[j].2 with delta := some (deltaDict x.2) }) } (by simpa using hn)
      (fun y hy => hx y (by simp [hy])) ha (by simpa using hl) (by
        intro i name z hz
        rw [dictGet_append]
        simp only [List.getElem?_set]
        by_cases hij : j = i
        · subst hij
          have hz' : Z[j] = (name, z) := Option.some.inj (hg.symm.trans hz)
          refine ⟨some (deltaDict x.2), by simp [hl, hjl, hz'], ?_⟩
          rw [hnone]
          refine .inr ⟨x.2, _, ?_, rfl, delta_get h3⟩
          simp [dictGet, hj]
        · obtain ⟨o', ho', ho''⟩ := h i name z hz
          refine ⟨o', by rw [if_neg hij]; exact ho', ?_⟩
          have : dictGet [x] (i : Int) = none := by
            have : ¬ x.1 = (i : Int) := by rw [hj]; omega
            simp [dictGet, this]
          rw [this]
          simpa using ho'')
    refine ⟨s', ?_, e2, e3, e4, by simpa using e5⟩
    unfold setZoneDeltas
    rw [List.foldlM_cons, hstep]
    exact e1

/-- the deltas are those of the file: the table number `i` is on the zone number `i`, counting bottom zones, then top
zones; nothing else changes -/
theorem C62_deltas {data : TTZones} {b t : List TTZone} (hb : data.ttZonesB = some b) (ht : data.ttZonesT = some t)
    (hn : ((b ++ t).map TTZone.name).Nodup) {s : ZoneTables} (hs : setZones noZones data = .ok s) (deltas : TTDeltas) (hd : DictOk deltas)
    (hr : ∀ x ∈ deltas, (0 ≤ x.1 ∧ x.1 < (b ++ t).length) ∧ DictOk x.2) :
    ∃ s', setZoneDeltas s deltas = .ok s' ∧ s'.names = s.names ∧ s'.zones.length = (b ++ t).length ∧
      ∀ (i : Nat) name z, (allZones b t)[i]? = some (name, z) →
        ∃ o, s'.zones[i]? = some (name, { z with delta := o }) ∧ HasDelta (dictGet deltas (i : Int)) o := by
  obtain ⟨s0, h1, h2, h3, _, _⟩ := C62_zones hb ht hn
  rw [hs] at h1; cases h1
  have hok : ((allZones b t).map Prod.fst).Nodup := by simpa [allZones, zoneData, Function.comp_def] using hn
  have hlen : (allZones b t).length = (b ++ t).length := by simp [allZones]
  obtain ⟨s', e1, _, e3, e4, e5⟩ := deltas_fold (allZones b t) hok deltas [] s (by simpa [DictOk] using hd) (by rw [hlen]; exact hr)
    (by rw [h3]; simp [allZones, zoneData, Function.comp_def]) (by rw [h2]) (by
      intro i name z hz
      refine ⟨none, ?_, .inl ⟨rfl, rfl⟩⟩
      rw [h2, hz]
      rcases List.mem_append.1 (List.mem_of_getElem? hz) with h | h
      · obtain ⟨q, _, e⟩ := List.mem_map.1 h; cases e; rfl
      · obtain ⟨q, _, e⟩ := List.mem_map.1 h; cases e; rfl)
  exact ⟨s', e1, e3, e4.trans hlen, by simpa using e5⟩

/-- deltas for a zone that does not exist: IndexError -/
theorem C62_delta_range (s : ZoneTables) (i : Int) (d : List (Int × Int)) (rest : TTDeltas) (hi : (s.all.length : Int) ≤ i) :
    setZoneDeltas s ((i, d) :: rest) = .error .index := by
  unfold setZoneDeltas
  rw [List.foldlM_cons]
  unfold setZoneDelta pyIndex
  have h : s.all[i.toNat]? = none := List.getElem?_eq_none (by omega)
  rw [if_pos (show (0 : Int) ≤ i by omega), h]
  rfl

def exampleZoneData : TTZones := ⟨some [⟨700, 12, lit "caps"⟩], some [⟨-12, 12, lit "base"⟩, ⟨-200, 10, lit "desc"⟩]⟩

theorem C62_example :
    (setZones noZones exampleZoneData >>= fun s => setZoneDeltas s [(2, [(9, -1), (10, 1)])]).map ZoneTables.zones = .ok
      [(lit "base", ⟨-12, false, 12, none⟩), (lit "desc", ⟨-200, false, 10, none⟩),
       (lit "caps", ⟨700, true, 12, some [(lit "9", -1), (lit "10", 1)]⟩)] := by decide +kernel

end Verif.Props
