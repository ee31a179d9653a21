import Verif.Spec.UfoHints
import Verif.Props.UfoLabels
import Verif.Props.UfoGroups
/-! C51: PostScript hints in the UFO. -/
set_option autoImplicit false
namespace Verif.Props
open Verif Verif.Spec

/-! ### Normalisation -/

/-- **C51** Normalising a hint keeps its direction and its edges, whatever the width; the result has a width of at least
zero or is a ghost hint. -/
theorem C51_normalize (d : PyStr) (pos width : Int) :
    (normalizeHint (d, pos, width)).1 = d ∧
    edges (normalizeHint (d, pos, width)).2.1 (normalizeHint (d, pos, width)).2.2 = edges pos width ∧
    (0 ≤ (normalizeHint (d, pos, width)).2.2 ∨ IsGhost (normalizeHint (d, pos, width)).2.2) := by
  unfold normalizeHint edges IsGhost
  by_cases h : width < 0
  · by_cases h1 : width ≠ -21 ∧ width ≠ -20
    · simp only [h, if_true, if_pos h1]
      refine ⟨trivial, ?_, ?_⟩
      · rw [Prod.mk.injEq]; omega
      · left; omega
    · simp only [h, if_true, if_neg h1]
      refine ⟨trivial, trivial, ?_⟩
      right; omega
  · simp only [h, if_false]
    refine ⟨trivial, trivial, ?_⟩
    left; omega

/-- **C51** Normalising twice is normalising once; hints with a width of at least zero and ghost hints stay as they are. -/
theorem C51_normalize_idempotent (x : Stem) :
    normalizeHint (normalizeHint x) = normalizeHint x ∧ (0 ≤ x.2.2 ∨ IsGhost x.2.2 → normalizeHint x = x) := by
  have h2 : ∀ x : Stem, (0 ≤ x.2.2 ∨ IsGhost x.2.2 → normalizeHint x = x) := by
    rintro ⟨d, pos, width⟩ h
    unfold normalizeHint
    unfold IsGhost at h
    simp only at h ⊢
    by_cases h1 : width < 0
    · rw [if_pos h1, if_neg (by omega)]
    · rw [if_neg h1]
  refine ⟨h2 _ ?_, h2 x⟩
  obtain ⟨d, pos, width⟩ := x
  exact (C51_normalize d pos width).2.2

example : normalizeHint (lit "hstem", 700, -80) = (lit "hstem", 620, 80) := by decide
example : normalizeHint (lit "hstem", 700, -20) = (lit "hstem", 700, -20) := by decide

/-! ### The hints of a master -/

theorem mapM_ok_iff {α β : Type} (f : α → Except PyErr β) (l : List α) (r : List β) :
    l.mapM f = .ok r ↔ l.map f = r.map .ok := by
  induction l generalizing r with
  | nil => cases r <;> simp [pure, Except.pure]
  | cons a l ih =>
    rw [List.mapM_cons]
    cases ha : f a with
    | error e => cases r <;> simp [bind, Except.bind, ha]
    | ok b =>
      simp only [bind, Except.bind]
      cases hl : l.mapM f with
      | error e =>
        cases r with
        | nil => simp
        | cons x r =>
          simp only [List.map_cons, ha, List.cons.injEq, Except.ok.injEq, reduceCtorEq, false_iff, not_and]
          intro _ h
          rw [← ih, hl] at h; cases h
      | ok bs =>
        cases r with
        | nil => simp [pure, Except.pure]
        | cons x r =>
          simp only [pure, Except.pure, Except.ok.injEq, List.cons.injEq, List.map_cons, ha]
          have := ih r
          rw [hl] at this
          simp only [Except.ok.injEq] at this
          rw [this]

theorem pyIndex_ok {α : Type} {l : List α} {i : Int} {x : α} (h : pyIndex l i = .ok x) :
    l[(if 0 ≤ i then i else l.length + i).toNat]? = some x ∧ -(l.length : Int) ≤ i := by
  unfold pyIndex at h
  by_cases h0 : 0 ≤ i
  · rw [if_pos h0] at h ⊢
    cases hl : l[i.toNat]? with
    | none => rw [hl] at h; cases h
    | some y => rw [hl] at h; cases h; exact ⟨rfl, by omega⟩
  · rw [if_neg h0] at h ⊢
    by_cases h1 : -(l.length : Int) ≤ i
    · rw [if_pos h1] at h
      cases hl : l[(l.length + i).toNat]? with
      | none => rw [hl] at h; cases h
      | some y => rw [hl] at h; cases h; exact ⟨rfl, h1⟩
    · rw [if_neg h1] at h; cases h

theorem pyIndex_nat {α : Type} {l : List α} {i : Nat} {x : α} (h : pyIndex l i = .ok x) : l[i]? = some x := by
  have := (pyIndex_ok h).1
  rw [if_pos (by omega), Int.toNat_natCast] at this
  exact this

theorem corresponds_mapM {α β : Type} {f : α → Except PyErr β} {r : α → β → Prop} (hf : ∀ a b, f a = .ok b → r a b)
    {l : List α} {m : List β} (h : l.mapM f = .ok m) : Corresponds r l m := by
  rw [mapM_ok_iff] at h
  refine ⟨by simpa using congrArg List.length h, ?_⟩
  intro k a b ha hb
  have h1 := congrArg (fun l => l[k]?) h
  simp only [List.getElem?_map, ha, hb, Option.map_some, Option.some.injEq] at h1
  exact hf a b h1

theorem nodeCoord_ok {nodes : List MMNode} {m axis : Nat} {i c : Int} (h : nodeCoord nodes m axis i = .ok c) :
    CoordIs nodes m axis i c := by
  unfold nodeCoord at h
  cases h1 : pyIndex nodes i with
  | error e => rw [h1] at h; cases h
  | ok n =>
    rw [h1] at h
    simp only [bind, Except.bind] at h
    cases h2 : pyIndex n.points m with
    | error e => rw [h2] at h; cases h
    | ok pts =>
      rw [h2] at h
      simp only at h
      cases h3 : pyIndex pts 0 with
      | error e => rw [h3] at h; cases h
      | ok p =>
        rw [h3] at h
        simp only [pure, Except.pure, Except.ok.injEq] at h
        obtain ⟨h4, h5⟩ := pyIndex_ok h1
        exact ⟨n, pts, p, h4, h5, pyIndex_nat h2, pyIndex_nat (i := 0) h3, h.symm⟩

theorem linkToHint_ok {nodes : List MMNode} {m axis : Nat} {link : Int × Int} {st : Stem} (h : linkToHint nodes m axis link = .ok st) :
    LinkStem nodes m axis link st := by
  unfold linkToHint at h
  cases h1 : nodeCoord nodes m axis link.1 with
  | error e => rw [h1] at h; cases h
  | ok src =>
    rw [h1] at h
    simp only [bind, Except.bind] at h
    have hs := nodeCoord_ok h1
    by_cases h2 : link.2 = -1
    · rw [if_pos h2] at h
      simp only [pure, Except.pure, Except.ok.injEq] at h
      subst h
      exact ⟨rfl, src, hs, fun _ => ⟨rfl, by simp only; omega⟩, fun h3 => by omega, fun h3 => absurd h2 h3⟩
    · rw [if_neg h2] at h
      by_cases h3 : link.2 = -2
      · rw [if_pos h3] at h
        simp only [pure, Except.pure, Except.ok.injEq] at h
        subst h
        exact ⟨rfl, src, hs, fun h4 => absurd h4 h2, fun _ => ⟨rfl, rfl⟩, fun _ h4 => absurd h3 h4⟩
      · rw [if_neg h3] at h
        cases h4 : nodeCoord nodes m axis link.2 with
        | error e => rw [h4] at h; cases h
        | ok tgt =>
          rw [h4] at h
          simp only [pure, Except.pure, Except.ok.injEq] at h
          subst h
          exact ⟨rfl, src, hs, fun h5 => absurd h5 h2, fun h5 => absurd h5 h3,
            fun _ _ => ⟨tgt, nodeCoord_ok h4, rfl, by simp only; omega⟩⟩

theorem hintStem_ok {d : PyStr} {m : Nat} {mm : List (Int × Int)} {st : Stem}
    (h : (do let x ← pyIndex mm m; pure (normalizeHintDict x d) : Except PyErr Stem) = .ok st) : HintStem d m mm st := by
  cases h1 : pyIndex mm m with
  | error e => rw [h1] at h; cases h
  | ok x =>
    rw [h1] at h
    simp only [bind, Except.bind, pure, Except.pure, Except.ok.injEq, normalizeHintDict] at h
    subst h
    obtain ⟨h2, h3, h4⟩ := C51_normalize d x.1 x.2
    refine ⟨x, pyIndex_nat h1, h2, h3, h4, fun hg => ?_⟩
    rw [(C51_normalize_idempotent (d, x.1, x.2)).2 (.inr hg)]

/-- **C51** The stems of a master are, for each direction, those of the hints (same edges in that master, in the same
order, not negative unless ghosts), followed by those of the links in the other axis (from the source node to the
target node in that master, or a ghost hint at the source node). -/
theorem C51_master_hints {g : HintGlyph} {m : Nat} {hs vs : List Stem} (h : getMasterHints g m = .ok (hs, vs)) :
    ∃ h1 h2 v1 v2, hs = h1 ++ h2 ∧ vs = v1 ++ v2 ∧
      Corresponds (HintStem (lit "hstem") m) g.h h1 ∧ Corresponds (HintStem (lit "vstem") m) g.v v1 ∧
      Corresponds (LinkStem g.nodes m 1) ((g.links.map Prod.snd).getD []) h2 ∧
      Corresponds (LinkStem g.nodes m 0) ((g.links.map Prod.fst).getD []) v2 := by
  unfold getMasterHints at h
  cases h1 : (g.h.mapM fun mm => (do let x ← pyIndex mm m; pure (normalizeHintDict x (lit "hstem")) : Except PyErr Stem)) with
  | error e => rw [h1] at h; cases h
  | ok a =>
    rw [h1] at h
    simp only [bind, Except.bind] at h
    cases h2 : (g.v.mapM fun mm => (do let x ← pyIndex mm m; pure (normalizeHintDict x (lit "vstem")) : Except PyErr Stem)) with
    | error e => simp only [bind, Except.bind] at h2; rw [h2] at h; cases h
    | ok b =>
      simp only [bind, Except.bind] at h2
      rw [h2] at h
      simp only at h
      have ca := corresponds_mapM (fun _ _ => hintStem_ok) h1
      have cb := corresponds_mapM (f := fun mm => (do let x ← pyIndex mm m; pure (normalizeHintDict x (lit "vstem")) : Except PyErr Stem)) (fun _ _ => hintStem_ok) h2
      cases hl : g.links with
      | none =>
        rw [hl] at h
        simp only [pure, Except.pure, Except.ok.injEq, Prod.mk.injEq] at h
        exact ⟨a, [], b, [], by simp [h.1], by simp [h.2], ca, cb, ⟨rfl, by intro k x y hx; simp at hx⟩, ⟨rfl, by intro k x y hx; simp at hx⟩⟩
      | some l =>
        obtain ⟨lx, ly⟩ := l
        rw [hl] at h
        simp only at h
        cases h3 : lx.mapM (linkToHint g.nodes m 0) with
        | error e => rw [h3] at h; cases h
        | ok vl =>
          rw [h3] at h
          simp only at h
          cases h4 : ly.mapM (linkToHint g.nodes m 1) with
          | error e => rw [h4] at h; cases h
          | ok hl' =>
            rw [h4] at h
            simp only [pure, Except.pure, Except.ok.injEq, Prod.mk.injEq] at h
            exact ⟨a, hl', b, vl, h.1.symm, h.2.symm, ca, cb, corresponds_mapM (fun _ _ => linkToHint_ok) h4, corresponds_mapM (fun _ _ => linkToHint_ok) h3⟩

/-- **C51** (known defect) Links are not normalised: a link to a node that is 20 units lower gives the same stem as a
link to nothing at the top, so that a real stem becomes a ghost hint. -/
theorem C51_link_defect {nodes : List MMNode} {m axis : Nat} {s t : Int} {c : Int} (ht : t ≠ -1 ∧ t ≠ -2)
    (hs : nodeCoord nodes m axis s = .ok c) (htc : nodeCoord nodes m axis t = .ok (c - 20)) :
    linkToHint nodes m axis (s, t) = linkToHint nodes m axis (s, -2) := by
  unfold linkToHint
  simp only [hs, bind, Except.bind, ht.1, ht.2, if_false, htc]
  rw [show c - 20 - c = -20 by omega, if_neg (show ¬ (-2 : Int) = -1 by omega), if_pos trivial]

/-! ### Hint sets -/

/-- the name of a point in a font -/
noncomputable def nameIn (f : LabelFont) (name : PyStr) (p : Int) : PyStr :=
  open Classical in if h : ∃ l, LabelOf f name p l then h.choose else []

theorem nameIn_eq {f : LabelFont} (hf : GoodFont f) {name : PyStr} {p : Int} {l : PyStr} (h : LabelOf f name p l) : l = nameIn f name p := by
  have he : ∃ l, LabelOf f name p l := ⟨l, h⟩
  unfold nameIn
  rw [dif_pos he]
  exact h.det hf he.choose_spec

theorem closeHintSet_spec {depth : Nat} {name : PyStr} {st st' : HintState} (hf : GoodFont st.font)
    (h : closeHintSet depth name st = .ok st') :
    st'.tag = st.tag ∧ st'.stems = st.stems ∧ GoodFont st'.font ∧ FontExt st.font st'.font ∧
    ∃ l, st'.sets = st.sets ++ [(l, st.stems)] ∧ LabelOf st'.font name st.tag l := by
  unfold closeHintSet at h
  cases h1 : getPointLabel depth st.font name st.tag (lit "PSHintReplacement") 0 with
  | error e => rw [h1] at h; cases h
  | ok r =>
    obtain ⟨l, f'⟩ := r
    rw [h1] at h
    simp only [bind, Except.bind, pure, Except.pure, Except.ok.injEq] at h
    obtain ⟨h2, h3, h4⟩ := getPointLabel_spec hf h1
    subst h
    exact ⟨rfl, rfl, h2, h3, l, rfl, h4⟩

theorem addMaskedHint_spec {hints : List Stem} {i : Int} {st st' : HintState} (h : addMaskedHint hints i st = .ok st') :
    st' = { st with stems := st.stems ++ (if i < 0 then hints[(hints.length + i).toNat]? else hints[i.toNat]?).toList } := by
  unfold addMaskedHint at h
  by_cases hi : i < hints.length
  · rw [if_pos hi] at h
    cases hp : pyIndex hints i with
    | error e => rw [hp] at h; cases h
    | ok x =>
      rw [hp] at h
      simp only [bind, Except.bind, pure, Except.pure, Except.ok.injEq] at h
      subst h
      have h1 := (pyIndex_ok hp).1
      by_cases h0 : i < 0
      · rw [if_neg (by omega)] at h1
        rw [if_pos h0, h1]; rfl
      · rw [if_pos (by omega)] at h1
        rw [if_neg h0, h1]; rfl
  · rw [if_neg hi] at h
    simp only [pure, Except.pure, Except.ok.injEq] at h
    subst h
    rw [if_neg (by omega), List.getElem?_eq_none (by omega)]
    simp

theorem r_ne : lit "r" ≠ lit "h" ∧ lit "r" ≠ lit "v" ∧ lit "h" ≠ lit "v" := by decide

/-- a mask that is not a replacement adds its stem -/
theorem applyMask_stem {depth : Nat} {name : PyStr} {hs vs : List Stem} {st st' : HintState} {mask : PyStr × Int}
    (hr : mask.1 ≠ lit "r") (h : applyMask depth name hs vs st mask = .ok st') :
    st' = { st with stems := st.stems ++ (maskStem hs vs mask).toList } := by
  unfold applyMask at h
  by_cases h1 : mask.1 = lit "h"
  · have h2 : mask.1 ≠ lit "v" := by rw [h1]; exact r_ne.2.2
    rw [if_pos h1] at h
    cases ha : addMaskedHint hs mask.2 st with
    | error e => rw [ha] at h; cases h
    | ok s1 =>
      rw [ha] at h
      simp only [bind, Except.bind, if_neg h2, if_neg hr, Except.ok.injEq] at h
      rw [← h, addMaskedHint_spec ha, maskStem, if_pos h1]
  · rw [if_neg h1] at h
    simp only [bind, Except.bind, if_neg hr] at h
    by_cases h2 : mask.1 = lit "v"
    · rw [if_pos h2] at h
      cases ha : addMaskedHint vs mask.2 st with
      | error e => rw [ha] at h; cases h
      | ok s1 =>
        rw [ha] at h
        simp only [Except.ok.injEq] at h
        rw [← h, addMaskedHint_spec ha, maskStem, if_neg h1, if_pos h2]
    · rw [if_neg h2] at h
      simp only [Except.ok.injEq] at h
      rw [← h, maskStem, if_neg h1, if_neg h2]; simp

/-- a replacement ends the section -/
theorem applyMask_replace {depth : Nat} {name : PyStr} {hs vs : List Stem} {st st' : HintState} {mask : PyStr × Int}
    (hr : mask.1 = lit "r") (h : applyMask depth name hs vs st mask = .ok st') :
    ∃ s1, closeHintSet depth name st = .ok s1 ∧ st' = { s1 with tag := replaceAt mask.2, stems := [] } := by
  unfold applyMask at h
  rw [if_neg (by rw [hr]; exact r_ne.1)] at h
  simp only [bind, Except.bind, if_pos hr, if_neg (show mask.1 ≠ lit "v" by rw [hr]; exact r_ne.2.1)] at h
  cases hc : closeHintSet depth name st with
  | error e => rw [hc] at h; cases h
  | ok s1 =>
    rw [hc] at h
    simp only [Except.ok.injEq] at h
    refine ⟨s1, rfl, ?_⟩
    rw [← h, replaceAt]
    by_cases h0 : mask.2 < 0
    · simp only [if_pos h0]
      congr 1; omega
    · simp only [if_neg h0]

theorem sections_ne_nil (masks : List (PyStr × Int)) (p : Int) : ∃ s ss, sections p masks = s :: ss ∧ s.1 = p := by
  induction masks generalizing p with
  | nil => exact ⟨_, _, rfl, rfl⟩
  | cons m ms ih =>
    rw [sections]
    by_cases h : m.1 = lit "r"
    · rw [if_pos h]; exact ⟨_, _, rfl, rfl⟩
    · rw [if_neg h]
      obtain ⟨s, ss, h1, h2⟩ := ih p
      rw [h1]; exact ⟨_, _, rfl, h2⟩

/-- the pairs of start node and stems, when the stems `pre` belong to the first section -/
def filled (hs vs pre : List Stem) (p : Int) (masks : List (PyStr × Int)) : List (Int × List Stem) :=
  match sections p masks with
  | [] => []
  | s :: ss => (s.1, pre ++ sectionStems hs vs s) :: ss.map fun s => (s.1, sectionStems hs vs s)

theorem filled_cons_stem {hs vs pre : List Stem} {p : Int} {m : PyStr × Int} {ms : List (PyStr × Int)} (h : m.1 ≠ lit "r") :
    filled hs vs pre p (m :: ms) = filled hs vs (pre ++ (maskStem hs vs m).toList) p ms := by
  unfold filled
  rw [sections, if_neg h]
  obtain ⟨s, ss, h1, _⟩ := sections_ne_nil ms p
  rw [h1]
  simp only [sectionStems, List.filterMap_cons]
  cases maskStem hs vs m <;> simp

theorem filled_cons_replace {hs vs pre : List Stem} {p : Int} {m : PyStr × Int} {ms : List (PyStr × Int)} (h : m.1 = lit "r") :
    filled hs vs pre p (m :: ms) = (p, pre) :: filled hs vs [] (replaceAt m.2) ms := by
  unfold filled
  rw [sections, if_pos h]
  obtain ⟨s, ss, h1, _⟩ := sections_ne_nil ms (replaceAt m.2)
  rw [h1]
  simp [sectionStems]

/-- the loop over the masks produces the sections; `F` is any later state of the labels -/
theorem masks_spec {depth : Nat} {name : PyStr} {hs vs : List Stem} {F : LabelFont} (hF : GoodFont F) (masks : List (PyStr × Int)) :
    ∀ {st st' : HintState}, GoodFont st.font → masks.foldlM (applyMask depth name hs vs) st = .ok st' → FontExt st'.font F →
    GoodFont st'.font ∧ FontExt st.font st'.font ∧
    ∃ init, filled hs vs st.stems st.tag masks = init ++ [(st'.tag, st'.stems)] ∧
      st'.sets = st.sets ++ init.map (fun s => (nameIn F name s.1, s.2)) ∧
      ∀ s ∈ init, LabelOf F name s.1 (nameIn F name s.1) := by
  induction masks with
  | nil =>
    intro st st' hf h hE
    simp only [List.foldlM_nil, pure, Except.pure, Except.ok.injEq] at h
    subst h
    exact ⟨hf, .refl _, [], by simp [filled, sections, sectionStems], by simp, by simp⟩
  | cons m ms ih =>
    intro st st' hf h hE
    rw [List.foldlM_cons] at h
    cases h1 : applyMask depth name hs vs st m with
    | error e => rw [h1] at h; cases h
    | ok s1 =>
      rw [h1] at h
      simp only [bind, Except.bind] at h
      by_cases hr : m.1 = lit "r"
      · obtain ⟨s2, h2, h3⟩ := applyMask_replace hr h1
        obtain ⟨h4, h5, h6, h7, l, h8, h9⟩ := closeHintSet_spec hf h2
        have hf1 : GoodFont s1.font := by rw [h3]; exact h6
        obtain ⟨h10, h11, init, h12, h13, h14⟩ := ih hf1 h hE
        have h7' : FontExt st.font s1.font := by rw [h3]; exact h7
        have hE1 : FontExt s2.font F := by
          have := h11.trans hE
          rw [h3] at this; exact this
        have h9' := h9.mono hE1
        have hl := nameIn_eq hF h9'
        refine ⟨h10, h7'.trans h11, (st.tag, st.stems) :: init, ?_, ?_, ?_⟩
        · rw [filled_cons_replace hr]
          have : filled hs vs s1.stems s1.tag ms = filled hs vs [] (replaceAt m.2) ms := by rw [h3]
          rw [← this, h12]; rfl
        · rw [h13, h3]
          simp only [h8, List.map_cons, ← hl]
          simp
        · intro s hs
          rcases List.mem_cons.1 hs with rfl | hs
          · rw [← hl]; exact h9'
          · exact h14 s hs
      · have h2 := applyMask_stem hr h1
        have hf1 : GoodFont s1.font := by rw [h2]; exact hf
        obtain ⟨h10, h11, init, h12, h13, h14⟩ := ih hf1 h hE
        refine ⟨h10, by rw [h2] at h11; exact h11, init, ?_, ?_, h14⟩
        · rw [filled_cons_stem hr, ← h12, h2]
        · rw [h13, h2]

/-! ### Sorting -/

theorem stemLt_iff (a b : Stem) : stemLt a b = true ↔
    (a.1 < b.1 ∨ (a.1 = b.1 ∧ (a.2.1 < b.2.1 ∨ (a.2.1 = b.2.1 ∧ a.2.2 < b.2.2)))) := by
  obtain ⟨d, p, w⟩ := a
  obtain ⟨e, q, x⟩ := b
  unfold stemLt
  simp only
  by_cases h1 : d < e
  · simp [h1]
  · by_cases h2 : d = e
    · subst h2
      by_cases h3 : p < q
      · simp [h3]
      · by_cases h4 : p = q
        · simp [h4, List.lt_irrefl]
        · simp [h3, h4, List.lt_irrefl]
    · simp [h1, h2]

theorem stemLt_trans {a b c : Stem} (h1 : stemLt a b = true) (h2 : stemLt b c = true) : stemLt a c = true := by
  rw [stemLt_iff] at *
  rcases h1 with h1 | ⟨h1, h1'⟩ <;> rcases h2 with h2 | ⟨h2, h2'⟩
  · exact .inl (List.lt_trans h1 h2)
  · exact .inl (h2 ▸ h1)
  · exact .inl (h1 ▸ h2)
  · exact .inr ⟨h1.trans h2, by omega⟩

theorem stemLt_total {a b : Stem} (h : a ≠ b) (h1 : ¬ stemLt a b = true) : stemLt b a = true := by
  rw [stemLt_iff] at *
  obtain ⟨d, p, w⟩ := a
  obtain ⟨e, q, x⟩ := b
  simp only at *
  by_cases h2 : e < d
  · exact .inl h2
  · by_cases h3 : d < e
    · exact absurd (.inl h3) h1
    · have h4 : d = e := List.le_antisymm (List.not_lt.1 h2) (List.not_lt.1 h3)
      subst h4
      refine .inr ⟨rfl, ?_⟩
      have h5 : ¬ (p < q ∨ p = q ∧ w < x) := fun h5 => h1 (.inr ⟨rfl, h5⟩)
      have h6 : ¬ (p = q ∧ w = x) := by rintro ⟨rfl, rfl⟩; exact h rfl
      omega

theorem mem_insertStem (x y : Stem) (l : List Stem) : y ∈ insertStem x l ↔ y = x ∨ y ∈ l := by
  induction l with
  | nil => simp [insertStem]
  | cons z l ih =>
    rw [insertStem]
    by_cases h : x = z
    · rw [if_pos h]; simp [h]
    · rw [if_neg h]
      by_cases h1 : stemLt x z = true
      · rw [if_pos h1]; simp
      · rw [if_neg h1, List.mem_cons, ih, List.mem_cons]
        constructor
        · rintro (h | h | h)
          · exact .inr (.inl h)
          · exact .inl h
          · exact .inr (.inr h)
        · rintro (h | h | h)
          · exact .inr (.inl h)
          · exact .inl h
          · exact .inr (.inr h)

theorem insertStem_sorted {x : Stem} {l : List Stem} (h : l.Pairwise fun a b => stemLt a b = true) :
    (insertStem x l).Pairwise fun a b => stemLt a b = true := by
  induction l with
  | nil => simp [insertStem]
  | cons z l ih =>
    rw [insertStem]
    rw [List.pairwise_cons] at h
    by_cases h0 : x = z
    · rw [if_pos h0]; exact List.pairwise_cons.2 h
    · rw [if_neg h0]
      by_cases h1 : stemLt x z = true
      · rw [if_pos h1]
        refine List.pairwise_cons.2 ⟨?_, List.pairwise_cons.2 h⟩
        intro y hy
        rcases List.mem_cons.1 hy with rfl | hy
        · exact h1
        · exact stemLt_trans h1 (h.1 y hy)
      · rw [if_neg h1]
        refine List.pairwise_cons.2 ⟨?_, ih h.2⟩
        intro y hy
        rcases (mem_insertStem x y l).1 hy with rfl | hy
        · exact stemLt_total h0 h1
        · exact h.1 y hy

theorem sortedSet_spec (l : List Stem) : SortedSet l (sortedSet l) := by
  have h : (∀ x, x ∈ sortedSet l ↔ x ∈ l) ∧ (sortedSet l).Pairwise fun a b => stemLt a b = true := by
    induction l with
    | nil => simp [sortedSet]
    | cons a l ih =>
      refine ⟨?_, insertStem_sorted ih.2⟩
      intro x
      rw [List.mem_cons, ← ih.1 x]
      exact mem_insertStem a x _
  exact ⟨h.1, h.2.imp fun {a b} h => (stemLt_iff a b).1 h⟩

theorem sortedSet_empty (l : List Stem) : ((sortedSet l).map stemText).isEmpty = l.isEmpty := by
  cases l with
  | nil => rfl
  | cons a l =>
    have h : a ∈ sortedSet (a :: l) := ((sortedSet_spec (a :: l)).1 a).2 (by simp)
    cases hs : sortedSet (a :: l) with
    | nil => rw [hs] at h; cases h
    | cons b m => rfl

/-! ### The dictionary of hint sets -/

theorem keepFirst_snoc {α : Type} [DecidableEq α] (l : List α) (x : α) :
    keepFirst (l ++ [x]) = if x ∈ l then keepFirst l else keepFirst l ++ [x] := by
  induction l with
  | nil => simp [keepFirst]
  | cons a l ih =>
    simp only [List.cons_append, keepFirst, ih]
    by_cases h : x ∈ l
    · simp [h]
    · by_cases h1 : x = a
      · subst h1; simp [h]
      · simp [h, h1]

theorem dictSet_map {κ : Type} [DecidableEq κ] {ν : Type} (L : Int → κ) (v : Int → ν) (q : Int) (w : ν) (K : List Int)
    (hn : K.Nodup) (hinj : ∀ p ∈ K, L p = L q → p = q) :
    dictSet (K.map fun p => (L p, v p)) (L q) w =
      if q ∈ K then K.map (fun p => (L p, if p = q then w else v p)) else K.map (fun p => (L p, v p)) ++ [(L q, w)] := by
  induction K with
  | nil => simp [dictSet]
  | cons a K ih =>
    rw [List.nodup_cons] at hn
    have hK := ih hn.2 (fun p hp => hinj p (List.mem_cons_of_mem _ hp))
    simp only [List.map_cons, dictSet]
    by_cases ha : a = q
    · subst ha
      have hcongr : K.map (fun p => (L p, if p = a then w else v p)) = K.map (fun p => (L p, v p)) := by
        apply List.map_congr_left
        intro p hp
        rw [if_neg (by rintro rfl; exact hn.1 hp)]
      simp [hcongr]
    · have hL : ¬ L a = L q := fun e => ha (hinj a (by simp) e)
      have hqa : ¬ q = a := fun e => ha e.symm
      simp only [hL, if_false, hK, List.mem_cons, hqa, false_or, ha]
      by_cases hq : q ∈ K
      · simp [hq]
      · simp [hq]

theorem lastFor_snoc (p q : Int) (s : List Stem) (l : List (Int × List Stem)) :
    lastFor p (l ++ [(q, s)]) = if p = q then s else lastFor p l := by
  unfold lastFor
  rw [List.filter_append]
  by_cases h : p = q
  · subst h; simp
  · have h' : ¬ q = p := fun e => h e.symm
    simp [h, h']

/-- the list of hint sets, in terms of points -/
def hintSetsOf (label : Int → PyStr) (l : List (Int × List Stem)) : List (PyStr × List PyStr) :=
  (keepFirst (l.map Prod.fst)).map fun p => (label p, (sortedSet (lastFor p l)).map stemText)

theorem hintSetsOf_snoc (label : Int → PyStr) (l : List (Int × List Stem)) (s : Int × List Stem)
    (hinj : ∀ p ∈ l.map Prod.fst, label p = label s.1 → p = s.1) :
    hintSetsOf label (l ++ [s]) = dictSet (hintSetsOf label l) (label s.1) ((sortedSet s.2).map stemText) := by
  obtain ⟨q, st⟩ := s
  unfold hintSetsOf
  rw [dictSet_map label (fun p => (sortedSet (lastFor p l)).map stemText) q _ _ (nodup_keepFirst _)
    (fun p hp => hinj p (mem_keepFirst.1 hp))]
  simp only [List.map_append, List.map_cons, List.map_nil, keepFirst_snoc, mem_keepFirst]
  by_cases h : q ∈ l.map Prod.fst
  · rw [if_pos h, if_pos h]
    apply List.map_congr_left
    intro p _
    rw [lastFor_snoc]
    by_cases hp : p = q <;> simp [hp]
  · rw [if_neg h, if_neg h, List.map_append]
    simp only [List.map_cons, List.map_nil, lastFor_snoc, if_true]
    congr 1
    apply List.map_congr_left
    intro p hp
    rw [if_neg]
    rintro rfl
    exact h (mem_keepFirst.1 hp)

theorem reformatSets_eq (label : Int → PyStr) (l : List (Int × List Stem))
    (hinj : ∀ s ∈ l, ∀ t ∈ l, s.2 ≠ [] → t.2 ≠ [] → label s.1 = label t.1 → s.1 = t.1) :
    reformatSets (l.map fun s => (label s.1, s.2)) = hintSetsOf label (l.filter fun s => !s.2.isEmpty) := by
  have key : ∀ xs pre : List (Int × List Stem),
      (∀ s ∈ pre ++ xs, ∀ t ∈ pre ++ xs, s.2 ≠ [] → t.2 ≠ [] → label s.1 = label t.1 → s.1 = t.1) →
      (xs.map fun s => (label s.1, s.2)).foldl (fun d s =>
        let stems := (sortedSet s.2).map stemText
        if stems.isEmpty then d else dictSet d s.1 stems) (hintSetsOf label (pre.filter fun s => !s.2.isEmpty)) =
      hintSetsOf label ((pre ++ xs).filter fun s => !s.2.isEmpty) := by
    intro xs
    induction xs with
    | nil => intro pre _; simp
    | cons x xs ih =>
      intro pre h
      rw [List.map_cons, List.foldl_cons]
      simp only [sortedSet_empty]
      have h2 := ih (pre ++ [x]) (by simpa using h)
      simp only [sortedSet_empty] at h2
      rw [show pre ++ x :: xs = pre ++ [x] ++ xs by simp, ← h2]
      congr 1
      rw [List.filter_append]
      cases hx : x.2.isEmpty with
      | true => simp [hx]
      | false =>
        simp only [Bool.false_eq_true, if_false, List.filter_cons, hx, Bool.not_false, if_true, List.filter_nil]
        rw [hintSetsOf_snoc]
        intro p hp he
        obtain ⟨s, hs, rfl⟩ := List.mem_map.1 hp
        rw [List.mem_filter] at hs
        refine h s (List.mem_append_left _ hs.1) x (by simp) ?_ ?_ he
        · intro e; rw [e] at hs; simp at hs
        · intro e; rw [e] at hx; simp at hx
  have := key l [] (by simpa using hinj)
  simpa [reformatSets, hintSetsOf, keepFirst] using this

/-! ### C51 -/

theorem later_spec {f f' : LabelFont} (h : Later f f') (hf : GoodFont f) : GoodFont f' ∧ FontExt f f' := by
  obtain ⟨calls, rfl⟩ := h
  induction calls generalizing f with
  | nil => exact ⟨hf, .refl f⟩
  | cons c calls ih =>
    obtain ⟨h1, h2, _⟩ := run_spec (depth := c.1) hf c.2
    obtain ⟨h3, h4⟩ := ih h1
    exact ⟨h3, h2.trans h4⟩

theorem Later.trans {a b c : LabelFont} (h : Later a b) (h' : Later b c) : Later a c := by
  obtain ⟨l, rfl⟩ := h
  obtain ⟨m, rfl⟩ := h'
  exact ⟨l ++ m, by rw [List.foldl_append]⟩

theorem reachable_good {f : LabelFont} (h : Reachable f) : GoodFont f := by
  obtain ⟨f0, h1, h2⟩ := h
  exact (later_spec h2 (fresh_good h1)).1

theorem labelOf_simple {f : LabelFont} {name : PyStr} {g : LabelGlyph} (hg : dictGet f.glyphs name = some g) (h0 : g.gids = [])
    {p : Int} {l : PyStr} (h : LabelOf f name p l) : Labelled g p l := by
  cases h with
  | simple h1 h2 h3 => rw [hg] at h1; cases h1; exact h3
  | comp h1 h2 => rw [hg] at h1; cases h1; exact absurd h0 h2
  | beyond h1 h2 => rw [hg] at h1; cases h1; exact absurd h0 h2

/-- the pairs of start node and stems of all sections -/
theorem filled_filter (hs vs : List Stem) (masks : List (PyStr × Int)) :
    (filled hs vs [] 0 masks).filter (fun s => !s.2.isEmpty) = filledSections hs vs masks := by
  unfold filled filledSections
  obtain ⟨s, ss, h1, _⟩ := sections_ne_nil masks 0
  rw [h1]
  simp

theorem hintSets_core {F : LabelFont} (hF : GoodFont F) {name : PyStr} {g : LabelGlyph} (hg : dictGet F.glyphs name = some g) (h0 : g.gids = [])
    (all : List (Int × List Stem)) (hlab : ∀ s ∈ all, s.2 ≠ [] → LabelOf F name s.1 (nameIn F name s.1)) :
    ∃ (label : Int → PyStr) (texts : Int → List Stem), reformatSets (all.map fun s => (nameIn F name s.1, s.2)) =
        (keepFirst ((all.filter fun s => !s.2.isEmpty).map Prod.fst)).map
          (fun p => (label p, (texts p).map fun st : Stem => st.1 ++ lit " " ++ intDec st.2.1 ++ lit " " ++ intDec st.2.2)) ∧
      ∀ p ∈ (all.filter fun s => !s.2.isEmpty).map Prod.fst, PointName F name p (label p) ∧
        SortedSet (lastFor p (all.filter fun s => !s.2.isEmpty)) (texts p) := by
  refine ⟨nameIn F name, fun p => sortedSet (lastFor p (all.filter fun s => !s.2.isEmpty)), ?_, ?_⟩
  · rw [reformatSets_eq]
    · rfl
    · intro s hs t ht h1 h2 he
      have hls := labelOf_simple hg h0 (hlab s hs h1)
      have hlt := labelOf_simple hg h0 (hlab t ht h2)
      rw [← he] at hlt
      exact hls.inj (hF _ _ hg) hlt
  · intro p hp
    obtain ⟨s, hs, rfl⟩ := List.mem_map.1 hp
    rw [List.mem_filter] at hs
    have hne : s.2 ≠ [] := by intro e; rw [e] at hs; simp at hs
    exact ⟨⟨g, hg, labelOf_simple hg h0 (hlab s hs.1 hne)⟩, sortedSet_spec _⟩

/-- **C51** With hint masks, the hint sets of the UFO are the sections between the replacements: one hint set for each
node at which a section with stems starts, in the order of the first such section, named like that node; its stems are
those of the last such section, sorted and without duplicates, as text. -/
theorem C51_hint_sets {depth : Nat} {font font' : LabelFont} {name : PyStr} {g : HintGlyph} {hints : List Stem × List Stem}
    {out : List (PyStr × List PyStr)} {g0 : LabelGlyph} (hr : Reachable font) (hg : dictGet font.glyphs name = some g0) (h0 : g0.gids = [])
    (hm : g.masks ≠ []) (h : buildPsGlyphHints depth font name g hints = .ok (out, font')) :
    ∃ (label : Int → PyStr) (texts : Int → List Stem),
      out = (keepFirst ((filledSections hints.1 hints.2 g.masks).map Prod.fst)).map
          (fun p => (label p, (texts p).map fun st : Stem => st.1 ++ lit " " ++ intDec st.2.1 ++ lit " " ++ intDec st.2.2)) ∧
      ∀ p ∈ (filledSections hints.1 hints.2 g.masks).map Prod.fst, PointName font' name p (label p) ∧
        SortedSet (lastFor p (filledSections hints.1 hints.2 g.masks)) (texts p) := by
  have hgood := reachable_good hr
  unfold buildPsGlyphHints at h
  have hme : g.masks.isEmpty = false := by
    cases hx : g.masks with
    | nil => exact absurd hx hm
    | cons _ _ => rfl
  rw [hme] at h
  simp only [Bool.false_eq_true, if_false] at h
  cases h1 : g.masks.foldlM (applyMask depth name hints.1 hints.2) { tag := 0, stems := [], sets := [], font := font } with
  | error e => rw [h1] at h; cases h
  | ok st =>
    rw [h1] at h
    simp only [bind, Except.bind] at h
    -- the state after the last section
    have step : ∃ F last, GoodFont F ∧ FontExt st.font F ∧ out = reformatSets (st.sets ++ last.map fun s => (nameIn F name s.1, s.2)) ∧ F = font' ∧
        last = (if st.stems = [] then [] else [(st.tag, st.stems)]) ∧ ∀ s ∈ last, LabelOf F name s.1 (nameIn F name s.1) := by
      have hst : GoodFont st.font := by
        -- labels only grow, so the state is good
        have aux : ∀ (ms : List (PyStr × Int)) (a b : HintState), GoodFont a.font → ms.foldlM (applyMask depth name hints.1 hints.2) a = .ok b → GoodFont b.font := by
          intro ms
          induction ms with
          | nil => intro a b ha hb; simp only [List.foldlM_nil, pure, Except.pure, Except.ok.injEq] at hb; rw [← hb]; exact ha
          | cons m ms ih =>
            intro a b ha hb
            rw [List.foldlM_cons] at hb
            cases hq : applyMask depth name hints.1 hints.2 a m with
            | error e => rw [hq] at hb; cases hb
            | ok a' =>
              rw [hq] at hb
              simp only [bind, Except.bind] at hb
              refine ih a' b ?_ hb
              by_cases hrm : m.1 = lit "r"
              · obtain ⟨s2, h2, h3⟩ := applyMask_replace hrm hq
                rw [h3]; exact (closeHintSet_spec ha h2).2.2.1
              · rw [applyMask_stem hrm hq]; exact ha
        exact aux g.masks _ _ hgood h1
      cases hs : st.stems with
      | nil =>
        rw [hs] at h
        simp only [List.isEmpty_nil, if_true, pure, Except.pure, Except.ok.injEq, Prod.mk.injEq] at h
        exact ⟨st.font, [], hst, .refl _, by simp [h.1], h.2, by simp, by simp⟩
      | cons x xs =>
        rw [hs] at h
        simp only [List.isEmpty_cons, Bool.false_eq_true, if_false] at h
        cases hc : closeHintSet depth name st with
        | error e => rw [hc] at h; cases h
        | ok s1 =>
          rw [hc] at h
          simp only [pure, Except.pure, Except.ok.injEq, Prod.mk.injEq] at h
          obtain ⟨h4, h5, h6, h7, l, h8, h9⟩ := closeHintSet_spec hst hc
          have hl := nameIn_eq h6 h9
          refine ⟨s1.font, [(st.tag, st.stems)], h6, h7, ?_, h.2, by simp [hs], ?_⟩
          · rw [← h.1, h8]; simp [← hl]
          · intro s hsm
            simp only [List.mem_singleton] at hsm
            subst hsm
            rw [← hl]; exact h9
    obtain ⟨F, last, hF, hE, hout, rfl, hlast, hlab⟩ := step
    obtain ⟨h2, h3, init, h4, h5, h6⟩ := masks_spec hF g.masks (st := { tag := 0, stems := [], sets := [], font := font }) hgood h1 hE
    obtain ⟨g1, hg1, hg2⟩ := (h3.trans hE).some _ _ hg
    obtain ⟨label, texts, h7, h8⟩ := hintSets_core hF hg1 (hg2.gids.trans h0) (init ++ last) (by
      intro s hs _
      rcases List.mem_append.1 hs with hs | hs
      · exact h6 s hs
      · exact hlab s hs)
    have hfil : (init ++ last).filter (fun s => !s.2.isEmpty) = filledSections hints.1 hints.2 g.masks := by
      rw [← filled_filter]
      simp only at h4
      rw [h4, List.filter_append, List.filter_append, hlast]
      cases hs : st.stems with
      | nil => simp
      | cons x xs => simp
    rw [hfil] at h7 h8
    refine ⟨label, texts, ?_, h8⟩
    rw [hout, ← h7, h5]
    simp

/-- **C51** Without hint masks there is one hint set with all stems, at the first node, unless there are no stems. -/
theorem C51_no_masks {depth : Nat} {font font' : LabelFont} {name : PyStr} {g : HintGlyph} {hints : List Stem × List Stem}
    {out : List (PyStr × List PyStr)} {g0 : LabelGlyph} (hr : Reachable font) (hg : dictGet font.glyphs name = some g0) (h0 : g0.gids = [])
    (hm : g.masks = []) (h : buildPsGlyphHints depth font name g hints = .ok (out, font')) :
    (hints.1 ++ hints.2 = [] → out = [] ∧ font' = font) ∧
    (hints.1 ++ hints.2 ≠ [] → ∃ label texts, PointName font' name 0 label ∧ SortedSet (hints.1 ++ hints.2) texts ∧
      out = [(label, texts.map fun st : Stem => st.1 ++ lit " " ++ intDec st.2.1 ++ lit " " ++ intDec st.2.2)]) := by
  have hgood := reachable_good hr
  unfold buildPsGlyphHints at h
  rw [hm] at h
  simp only [List.isEmpty_nil, if_true] at h
  cases hs : (hints.1 ++ hints.2) with
  | nil =>
    rw [hs] at h
    simp only [List.isEmpty_nil, if_true, bind, Except.bind, pure, Except.pure, Except.ok.injEq, Prod.mk.injEq] at h
    exact ⟨fun _ => ⟨by rw [← h.1]; rfl, h.2.symm⟩, fun hx => absurd rfl hx⟩
  | cons x xs =>
    rw [hs] at h
    simp only [List.isEmpty_cons, Bool.false_eq_true, if_false, bind, Except.bind] at h
    refine ⟨fun hx => by simp at hx, fun _ => ?_⟩
    cases hc : closeHintSet depth name { tag := 0, stems := x :: xs, sets := [], font := font } with
    | error e => rw [hc] at h; cases h
    | ok s1 =>
      rw [hc] at h
      simp only [pure, Except.pure, Except.ok.injEq, Prod.mk.injEq] at h
      obtain ⟨h4, h5, h6, h7, l, h8, h9⟩ := closeHintSet_spec hgood hc
      obtain ⟨g1, hg1, hg2⟩ := h7.some _ _ hg
      rw [← h.2, ← h.1, h8]
      refine ⟨l, sortedSet (x :: xs), ⟨g1, hg1, labelOf_simple hg1 (hg2.gids.trans h0) h9⟩, sortedSet_spec _, ?_⟩
      have he := sortedSet_empty (x :: xs)
      simp only [List.isEmpty_cons] at he
      simp only [reformatSets, List.nil_append, List.foldl_cons, List.foldl_nil, he, Bool.false_eq_true, if_false, dictSet]
      rfl

theorem closeHintSet_ok {depth : Nat} {name : PyStr} {st : HintState} {g : LabelGlyph}
    (hg : dictGet st.font.glyphs name = some g) (h0 : g.gids = []) : ∃ st', closeHintSet (depth + 1) name st = .ok st' := by
  have hc : dictGet labelCodes (lit "PSHintReplacement") = some (lit "hr") := by decide +kernel
  have : ∃ r, getPointLabel (depth + 1) st.font name st.tag (lit "PSHintReplacement") 0 = .ok r := by
    rw [getPointLabel, hg]
    simp only [h0, List.isEmpty_nil, if_true, LabelGlyph.pointLabel]
    cases hd : dictGet g.pointLabels st.tag with
    | some m => exact ⟨_, rfl⟩
    | none =>
      simp only
      by_cases hi1 : st.tag = g.numNodes
      · rw [if_pos hi1]; exact ⟨_, rfl⟩
      · rw [if_neg hi1]
        by_cases hi2 : st.tag = g.numNodes + 1
        · rw [if_pos hi2]; exact ⟨_, rfl⟩
        · rw [if_neg hi2, hc]
          obtain ⟨k, _, h6, _, _⟩ := labelSearch_ok g.labels (lit "hr") 0
          simp only [h6]
          exact ⟨_, rfl⟩
  obtain ⟨r, hr⟩ := this
  obtain ⟨l, f⟩ := r
  unfold closeHintSet
  rw [hr]
  exact ⟨_, rfl⟩

/-- **C51** Hint sets can be built whenever no hint mask has an index below minus the number of stems (masks beyond the
last stem are skipped). -/
theorem C51_succeeds {depth : Nat} {font : LabelFont} {name : PyStr} {g : HintGlyph} {hints : List Stem × List Stem}
    {g0 : LabelGlyph} (hr : Reachable font) (hg : dictGet font.glyphs name = some g0) (h0 : g0.gids = [])
    (hm : ∀ m ∈ g.masks, (m.1 = lit "h" → -(hints.1.length : Int) ≤ m.2) ∧ (m.1 = lit "v" → -(hints.2.length : Int) ≤ m.2)) :
    ∃ r, buildPsGlyphHints (depth + 1) font name g hints = .ok r := by
  have hgood := reachable_good hr
  have hadd : ∀ (l : List Stem) (i : Int) (st : HintState), -(l.length : Int) ≤ i → ∃ s', addMaskedHint l i st = .ok s' := by
    intro l i st hi
    unfold addMaskedHint
    by_cases h1 : i < l.length
    · rw [if_pos h1]
      have : ∃ x, pyIndex l i = .ok x := by
        unfold pyIndex
        by_cases h2 : 0 ≤ i
        · rw [if_pos h2, List.getElem?_eq_getElem (by omega)]; exact ⟨_, rfl⟩
        · rw [if_neg h2, if_pos hi, List.getElem?_eq_getElem (by omega)]; exact ⟨_, rfl⟩
      obtain ⟨x, hx⟩ := this
      rw [hx]; exact ⟨_, rfl⟩
    · rw [if_neg h1]; exact ⟨_, rfl⟩
  have hmask : ∀ (ms : List (PyStr × Int)) (st : HintState), GoodFont st.font → FontExt font st.font → (∀ m ∈ ms, m ∈ g.masks) →
      ∃ st', ms.foldlM (applyMask (depth + 1) name hints.1 hints.2) st = .ok st' ∧ FontExt font st'.font := by
    intro ms
    induction ms with
    | nil => intro st _ he _; exact ⟨st, rfl, he⟩
    | cons m ms ih =>
      intro st hgs he hall
      have hm1 := hm m (hall m (by simp))
      have : ∃ s1, applyMask (depth + 1) name hints.1 hints.2 st m = .ok s1 := by
        unfold applyMask
        by_cases hrm : m.1 = lit "r"
        · simp only [if_neg (show ¬ m.1 = lit "h" by rw [hrm]; exact r_ne.1), if_neg (show ¬ m.1 = lit "v" by rw [hrm]; exact r_ne.2.1), if_pos hrm]
          obtain ⟨g1, hg1, hg2⟩ := he.some _ _ hg
          obtain ⟨s', hs'⟩ := closeHintSet_ok (depth := depth) hg1 (hg2.gids.trans h0)
          simp only [bind, Except.bind]
          rw [hs']; exact ⟨_, rfl⟩
        · simp only [if_neg hrm]
          by_cases hh : m.1 = lit "h"
          · simp only [if_pos hh, if_neg (show ¬ m.1 = lit "v" by rw [hh]; exact r_ne.2.2)]
            obtain ⟨s', hs'⟩ := hadd hints.1 m.2 st (hm1.1 hh)
            rw [hs']; exact ⟨_, rfl⟩
          · rw [if_neg hh]
            by_cases hv : m.1 = lit "v"
            · simp only [if_pos hv]
              obtain ⟨s', hs'⟩ := hadd hints.2 m.2 st (hm1.2 hv)
              simp only [bind, Except.bind]
              rw [hs']; exact ⟨_, rfl⟩
            · simp only [if_neg hv]; exact ⟨_, rfl⟩
      obtain ⟨s1, h1⟩ := this
      have hs1 : GoodFont s1.font ∧ FontExt font s1.font := by
        by_cases hrm : m.1 = lit "r"
        · obtain ⟨s2, h2, h3⟩ := applyMask_replace hrm h1
          obtain ⟨_, _, h4, h5, _⟩ := closeHintSet_spec hgs h2
          rw [h3]; exact ⟨h4, he.trans h5⟩
        · rw [applyMask_stem hrm h1]; exact ⟨hgs, he⟩
      obtain ⟨st', h2, h3⟩ := ih s1 hs1.1 hs1.2 (fun x hx => hall x (List.mem_cons_of_mem _ hx))
      refine ⟨st', ?_, h3⟩
      rw [List.foldlM_cons, h1]
      exact h2
  have hend : ∀ st : HintState, FontExt font st.font →
      ∃ r, (if st.stems.isEmpty then (pure st >>= fun st => pure (reformatSets st.sets, st.font))
        else (closeHintSet (depth + 1) name st >>= fun st => pure (reformatSets st.sets, st.font)) : Except PyErr _) = .ok r := by
    intro st he
    cases hs : st.stems.isEmpty with
    | true => exact ⟨_, rfl⟩
    | false =>
      obtain ⟨g1, hg1, hg2⟩ := he.some _ _ hg
      obtain ⟨s', hs'⟩ := closeHintSet_ok (depth := depth) hg1 (hg2.gids.trans h0)
      simp only [Bool.false_eq_true, if_false]
      rw [hs']; exact ⟨_, rfl⟩
  unfold buildPsGlyphHints
  cases hx : g.masks.isEmpty with
  | true =>
    simp only [if_true]
    obtain ⟨r, hr⟩ := hend { tag := 0, stems := hints.1 ++ hints.2, sets := [], font := font } (.refl _)
    exact ⟨r, hr⟩
  | false =>
    simp only [Bool.false_eq_true, if_false]
    obtain ⟨st', h1, h2⟩ := hmask g.masks { tag := 0, stems := [], sets := [], font := font } hgood (.refl _) (fun _ h => h)
    rw [h1]
    obtain ⟨r, hr⟩ := hend st' h2
    exact ⟨r, hr⟩

/-! ### Example -/

/-- two horizontal hints (one negative), one vertical ghost hint, a link, and a hint replacement at node 2 -/
def exampleHintGlyph : HintGlyph :=
  { h := [[(0, 20)], [(700, -80)]]
    v := [[(50, 90)]]
    links := some ([(0, 1)], [(2, -1)])
    masks := [(lit "h", 1), (lit "h", 0), (lit "h", 1), (lit "r", -3), (lit "h", 2), (lit "v", 1), (lit "v", 7)]
    nodes := [⟨.move, some 0, [[(10, 0)]]⟩, ⟨.line, some 0, [[(110, 0)]]⟩, ⟨.line, some 0, [[(60, 300)]]⟩] }

def exampleHintFont : LabelFont :=
  { order := [lit "a"]
    glyphs := [(lit "a", { numNodes := 3, gids := [], labels := [], pointLabels := [] })] }

example : Reachable exampleHintFont := ⟨exampleHintFont, ⟨by decide, by decide⟩, [], rfl⟩
example : getMasterHints exampleHintGlyph 0 = .ok ([(lit "hstem", 0, 20), (lit "hstem", 620, 80), (lit "hstem", 321, -21)], [(lit "vstem", 50, 90), (lit "vstem", 10, 100)]) := by
  decide +kernel
example : (masterPsHints 1000 exampleHintFont (lit "a") exampleHintGlyph 0).map Prod.fst =
    .ok [(lit "hr00", [lit "hstem 0 20", lit "hstem 620 80"]), (lit "hr01", [lit "hstem 321 -21", lit "vstem 10 100"])] := by
  decide +kernel

end Verif.Props
