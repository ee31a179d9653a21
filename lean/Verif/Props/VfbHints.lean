import Verif.Spec.VfbHints
import Verif.Props.UfoHints
import Verif.Lemmas.Dict
import Mathlib.Data.List.Induction
/-! C70: the hint sets of a VFB glyph. -/
set_option autoImplicit false
namespace Verif.Props
open Verif Verif.Spec

/-- **C70** The hints of a glyph in a master are the same ones as in the UFO export (C51). -/
theorem C70_same_hints (g : HintGlyph) (m : Nat) : resolveHints g m = getMasterHints g m := by
  have e : getMasterHints g m = (resolveDirection g.h (lit "hstem") m >>= fun hs => resolveDirection g.v (lit "vstem") m >>= fun vs =>
      match g.links with
      | none => .ok (hs, vs)
      | some (lx, ly) => lx.mapM (linkToHint g.nodes m 0) >>= fun vl => ly.mapM (linkToHint g.nodes m 1) >>= fun hl => .ok (hs ++ hl, vs ++ vl)) := rfl
  rw [e]
  unfold resolveHints resolveLinks
  cases resolveDirection g.h (lit "hstem") m with
  | error e => rfl
  | ok hs =>
    simp only [bind, Except.bind]
    cases resolveDirection g.v (lit "vstem") m with
    | error e => rfl
    | ok vs =>
      simp only
      cases g.links with
      | none => simp
      | some l =>
        obtain ⟨lx, ly⟩ := l
        simp only
        by_cases he : (lx.isEmpty && ly.isEmpty) = true
        · rw [if_pos he]
          rw [Bool.and_eq_true, List.isEmpty_iff, List.isEmpty_iff] at he
          obtain ⟨rfl, rfl⟩ := he
          simp [pure, Except.pure]
        · rw [if_neg he]
          cases lx.mapM (linkToHint g.nodes m 0) with
          | error e => rfl
          | ok vl =>
            simp only
            cases ly.mapM (linkToHint g.nodes m 1) with
            | error e => rfl
            | ok hl => rfl

/-- **C70** What they are: for each direction the hints (same edges in that master, in the same order, not negative unless ghosts),
followed by the links in the other axis. -/
theorem C70_hints {g : HintGlyph} {m : Nat} {hs vs : List Stem} (h : resolveHints g m = .ok (hs, vs)) :
    ∃ h1 h2 v1 v2, hs = h1 ++ h2 ∧ vs = v1 ++ v2 ∧
      Corresponds (HintStem (lit "hstem") m) g.h h1 ∧ Corresponds (HintStem (lit "vstem") m) g.v v1 ∧
      Corresponds (LinkStem g.nodes m 1) ((g.links.map Prod.snd).getD []) h2 ∧
      Corresponds (LinkStem g.nodes m 0) ((g.links.map Prod.fst).getD []) v2 :=
  C51_master_hints (by rw [← C70_same_hints]; exact h)

/-- **C70** Without masks there is one hint set, at node 0, with all hints. -/
theorem C70_no_masks {g : HintGlyph} {m : Nat} {hs vs : List Stem} (h : resolveHints g m = .ok (hs, vs)) (hm : g.masks = []) :
    resolveHintSets g m = .ok [(0, hs ++ vs)] := by
  simp only [resolveHintSets, h, hm, bind, Except.bind, List.isEmpty_nil, if_true]

/-- the mask names a hint -/
def MaskOk (hs vs : List Stem) (mask : PyStr × Int) : Prop := mask.1 = lit "r" ∨ (maskStem hs vs mask).isSome ∧
  (mask.1 = lit "h" → -(hs.length : Int) ≤ mask.2) ∧ (mask.1 = lit "v" → -(vs.length : Int) ≤ mask.2)

theorem pyIndex_stem {l : List Stem} {i : Int} {x : Stem} :
    pyIndex l i = .ok x ↔ -(l.length : Int) ≤ i ∧ (if i < 0 then l[(l.length + i).toNat]? else l[i.toNat]?) = some x := by
  unfold pyIndex
  by_cases h0 : 0 ≤ i
  · rw [if_pos h0, if_neg (by omega)]
    cases h : l[i.toNat]? with
    | none => simp
    | some y => simp; omega
  · rw [if_neg h0]
    by_cases h1 : -(l.length : Int) ≤ i
    · rw [if_pos h1, if_pos (show i < 0 by omega)]
      cases h : l[(l.length + i).toNat]? with
      | none => simp
      | some y => simp [h1]
    · rw [if_neg h1]
      simp [h1]

/-- a mask that is not a replacement adds its stem -/
theorem setStep_stem {hs vs : List Stem} {mask : PyStr × Int} (hr : mask.1 ≠ lit "r") (st st' : SetState) :
    setStep hs vs st mask = .ok st' ↔ MaskOk hs vs mask ∧ st' = { st with stems := st.stems ++ (maskStem hs vs mask).toList } := by
  unfold setStep MaskOk maskStem
  rw [if_neg hr]
  by_cases h1 : mask.1 = lit "h"
  · have h2 : mask.1 ≠ lit "v" := by rw [h1]; exact r_ne.2.2
    simp only [h1, if_true]
    have key := fun x => pyIndex_stem (l := hs) (i := mask.2) (x := x)
    cases hp : pyIndex hs mask.2 with
    | error e =>
      simp only [bind, Except.bind]
      constructor
      · intro h; cases h
      · rintro ⟨h | ⟨h, h3, _⟩, _⟩
        · exact absurd h r_ne.1.symm
        · obtain ⟨x, hx⟩ := Option.isSome_iff_exists.1 h
          have := (key x).2 ⟨h3 trivial, hx⟩
          rw [hp] at this; cases this
    | ok x =>
      have := (key x).1 hp
      rw [this.2]
      simp only [bind, Except.bind, Except.ok.injEq, Option.toList_some]
      constructor
      · intro h
        exact ⟨.inr ⟨rfl, fun _ => this.1, fun h => absurd h r_ne.2.2⟩, h.symm⟩
      · rintro ⟨_, h⟩; exact h.symm
  · rw [if_neg h1]
    by_cases h2 : mask.1 = lit "v"
    · simp only [h2, if_true, if_neg r_ne.2.2.symm]
      have key := fun x => pyIndex_stem (l := vs) (i := mask.2) (x := x)
      cases hp : pyIndex vs mask.2 with
      | error e =>
        simp only [bind, Except.bind]
        constructor
        · intro h; cases h
        · rintro ⟨h | ⟨h, _, h3⟩, _⟩
          · exact absurd h r_ne.2.1.symm
          · obtain ⟨x, hx⟩ := Option.isSome_iff_exists.1 h
            have := (key x).2 ⟨h3 trivial, hx⟩
            rw [hp] at this; cases this
      | ok x =>
        have := (key x).1 hp
        rw [this.2]
        simp only [bind, Except.bind, Except.ok.injEq, Option.toList_some]
        constructor
        · intro h
          exact ⟨.inr ⟨rfl, fun h => absurd h r_ne.2.2.symm, fun _ => this.1⟩, h.symm⟩
        · rintro ⟨_, h⟩; exact h.symm
    · rw [if_neg h2, if_neg h1, if_neg h2]
      constructor
      · intro h; cases h
      · rintro ⟨h | ⟨h, _⟩, _⟩
        · exact absurd h hr
        · cases h

/-- the sections from the state on -/
def sectionsFrom (hs vs : List Stem) (p : Int) (pre : List Stem) (masks : List (PyStr × Int)) : List (Int × List Stem) :=
  match maskSections p masks with
  | [] => []
  | s :: ss => (s.1, pre ++ s.2.filterMap (maskStem hs vs)) :: ss.map fun s => (s.1, s.2.filterMap (maskStem hs vs))

theorem maskSections_ne (p : Int) (masks : List (PyStr × Int)) : ∃ s ss, maskSections p masks = s :: ss ∧ s.1 = p := by
  induction masks generalizing p with
  | nil => exact ⟨_, _, rfl, rfl⟩
  | cons m ms ih =>
    rw [maskSections]
    by_cases h : m.1 = lit "r"
    · rw [if_pos h]; exact ⟨_, _, rfl, rfl⟩
    · rw [if_neg h]
      obtain ⟨s, ss, h1, h2⟩ := ih p
      rw [h1]
      exact ⟨_, _, rfl, h2⟩

theorem sectionsFrom_nil (hs vs : List Stem) (p : Int) (pre : List Stem) : sectionsFrom hs vs p pre [] = [(p, pre)] := by
  simp [sectionsFrom, maskSections]

theorem sectionsFrom_stem (hs vs : List Stem) (p : Int) (pre : List Stem) {m : PyStr × Int} (ms : List (PyStr × Int)) (h : m.1 ≠ lit "r") :
    sectionsFrom hs vs p pre (m :: ms) = sectionsFrom hs vs p (pre ++ (maskStem hs vs m).toList) ms := by
  obtain ⟨s, ss, h1, h2⟩ := maskSections_ne p ms
  simp only [sectionsFrom, maskSections, if_neg h, h1]
  congr 2
  cases hm : maskStem hs vs m <;> simp [hm]

theorem sectionsFrom_replace (hs vs : List Stem) (p : Int) (pre : List Stem) {m : PyStr × Int} (ms : List (PyStr × Int)) (h : m.1 = lit "r") :
    sectionsFrom hs vs p pre (m :: ms) = (p, pre) :: sectionsFrom hs vs m.2 [] ms := by
  obtain ⟨s, ss, h1, h2⟩ := maskSections_ne m.2 ms
  simp only [sectionsFrom, maskSections, if_pos h, h1]
  simp

/-- the sections closed one after the other -/
def closeAll (sets : List (Int × List Stem)) (l : List (Int × List Stem)) : List (Int × List Stem) :=
  l.foldl (fun d s => if s.2.isEmpty then d else dictSet d s.1 s.2) sets

theorem masks_fold {hs vs : List Stem} : ∀ (masks : List (PyStr × Int)) (st : SetState) (r : List (Int × List Stem)),
    (masks.foldlM (setStep hs vs) st >>= fun st => .ok st.close) = .ok r ↔
      (∀ x ∈ masks, MaskOk hs vs x) ∧ r = closeAll st.sets (sectionsFrom hs vs st.index st.stems masks) := by
  intro masks
  induction masks with
  | nil =>
    intro st r
    rw [sectionsFrom_nil]
    simp only [List.foldlM_nil, pure, Except.pure, bind, Except.bind, Except.ok.injEq, closeAll, List.foldl_cons, List.foldl_nil, SetState.close]
    constructor
    · intro h; exact ⟨by simp, h.symm⟩
    · rintro ⟨_, h⟩; exact h.symm
  | cons m ms ih =>
    intro st r
    rw [List.foldlM_cons]
    by_cases hr : m.1 = lit "r"
    · have : setStep hs vs st m = .ok ⟨st.close, m.2, []⟩ := by simp only [setStep, if_pos hr]
      rw [this, sectionsFrom_replace hs vs _ _ ms hr]
      have := ih ⟨st.close, m.2, []⟩ r
      simp only [bind, Except.bind] at this ⊢
      rw [this]
      simp only [closeAll, List.foldl_cons, SetState.close, List.mem_cons, forall_eq_or_imp]
      constructor
      · rintro ⟨h1, h2⟩; exact ⟨⟨.inl hr, h1⟩, h2⟩
      · rintro ⟨⟨_, h1⟩, h2⟩; exact ⟨h1, h2⟩
    · rw [sectionsFrom_stem hs vs _ _ ms hr]
      cases hs' : setStep hs vs st m with
      | error e =>
        simp only [bind, Except.bind]
        constructor
        · intro h; cases h
        · rintro ⟨h, _⟩
          have := (setStep_stem hr st { st with stems := st.stems ++ (maskStem hs vs m).toList }).2 ⟨h m (by simp), rfl⟩
          rw [hs'] at this; cases this
      | ok st1 =>
        obtain ⟨h1, rfl⟩ := (setStep_stem hr st st1).1 hs'
        have := ih { st with stems := st.stems ++ (maskStem hs vs m).toList } r
        simp only [bind, Except.bind] at this ⊢
        rw [this]
        simp only [List.mem_cons, forall_eq_or_imp]
        constructor
        · rintro ⟨h2, h3⟩; exact ⟨⟨h1, h2⟩, h3⟩
        · rintro ⟨⟨_, h2⟩, h3⟩; exact ⟨h2, h3⟩

theorem closeAll_get (l : List (Int × List Stem)) : ∀ (d : List (Int × List Stem)) (p : Int),
    dictGet (closeAll d l) p = (setAt p l).or (dictGet d p) := by
  induction l using List.reverseRecOn with
  | nil => intro d p; simp [closeAll, setAt]
  | append_singleton l s ih =>
    intro d p
    unfold closeAll at ih ⊢
    rw [List.foldl_append]
    simp only [List.foldl_cons, List.foldl_nil]
    unfold setAt at ih ⊢
    rw [List.filter_append]
    by_cases he : s.2 = []
    · rw [if_pos (by simp [he]), ih]
      simp [he]
    · rw [if_neg (by simpa using he), dictGet_dictSet, ih]
      by_cases hp : s.1 = p
      · rw [if_pos hp]
        simp [hp, he]
      · rw [if_neg hp]
        simp [hp]

theorem closeAll_ok (l : List (Int × List Stem)) : ∀ (d : List (Int × List Stem)), DictOk d → DictOk (closeAll d l) := by
  induction l with
  | nil => intro d h; exact h
  | cons s l ih =>
    intro d h
    unfold closeAll at ih ⊢
    rw [List.foldl_cons]
    by_cases he : s.2.isEmpty = true
    · rw [if_pos he]; exact ih d h
    · rw [if_neg he]; exact ih _ (dictSet_ok h _ _)

/-- **C70** With masks, every section of masks up to the next replacement becomes a hint set with the stems of its masks, in order,
under the node number of the replacement before it (0 for the first section); sections without stems are left out, and if
several sections have the same number, the last one counts.  There is an exception exactly if a mask names no hint. -/
theorem C70_hint_sets {g : HintGlyph} {m : Nat} {hs vs : List Stem} (h : resolveHints g m = .ok (hs, vs)) (hm : g.masks ≠ []) :
    ((∃ sets, resolveHintSets g m = .ok sets) ↔ ∀ x ∈ g.masks, x.1 = lit "r" ∨
      ((∃ i : Int, x = (lit "h", i) ∧ -(hs.length : Int) ≤ i ∧ i < hs.length) ∨ ∃ i : Int, x = (lit "v", i) ∧ -(vs.length : Int) ≤ i ∧ i < vs.length)) ∧
    ∀ sets, resolveHintSets g m = .ok sets → DictOk sets ∧ ∀ p, dictGet sets p = setAt p (stemSections hs vs g.masks) := by
  have key : ∀ r, resolveHintSets g m = .ok r ↔ (∀ x ∈ g.masks, MaskOk hs vs x) ∧ r = closeAll [] (sectionsFrom hs vs 0 [] g.masks) := by
    intro r
    have := masks_fold (hs := hs) (vs := vs) g.masks ⟨[], 0, []⟩ r
    rw [← this]
    simp only [resolveHintSets, h, bind, Except.bind]
    rw [if_neg (by simpa using hm)]
  have hsec : sectionsFrom hs vs 0 [] g.masks = stemSections hs vs g.masks := by
    obtain ⟨s, ss, h1, h2⟩ := maskSections_ne 0 g.masks
    simp [sectionsFrom, stemSections, h1]
  have hget : ∀ (l : List Stem) (i : Int), ((if i < 0 then l[(l.length + i).toNat]? else l[i.toNat]?).isSome = true ∧ -(l.length : Int) ≤ i) ↔
      -(l.length : Int) ≤ i ∧ i < l.length := by
    intro l i
    by_cases hi : i < 0
    · rw [if_pos hi, Option.isSome_iff_ne_none, ne_eq, List.getElem?_eq_none_iff]
      omega
    · rw [if_neg hi, Option.isSome_iff_ne_none, ne_eq, List.getElem?_eq_none_iff]
      omega
  have hmask : ∀ x, MaskOk hs vs x ↔ x.1 = lit "r" ∨ ((∃ i : Int, x = (lit "h", i) ∧ -(hs.length : Int) ≤ i ∧ i < hs.length) ∨
      ∃ i : Int, x = (lit "v", i) ∧ -(vs.length : Int) ≤ i ∧ i < vs.length) := by
    rintro ⟨k, i⟩
    unfold MaskOk maskStem
    simp only [Prod.mk.injEq]
    refine or_congr Iff.rfl ?_
    by_cases h1 : k = lit "h"
    · have h2 : ¬ k = lit "v" := by rw [h1]; exact r_ne.2.2
      rw [if_pos h1, and_congr_right (b := _ ∧ _) (c := -(hs.length : Int) ≤ i) fun _ => by simp [h1, r_ne.2.2], hget]
      constructor
      · intro hh; exact .inl ⟨i, ⟨h1, rfl⟩, hh⟩
      · rintro (⟨j, ⟨_, rfl⟩, hh⟩ | ⟨j, ⟨hh, _⟩, _⟩)
        · exact hh
        · exact absurd hh h2
    · by_cases h2 : k = lit "v"
      · rw [if_neg h1, if_pos h2, and_congr_right (b := _ ∧ _) (c := -(vs.length : Int) ≤ i) fun _ => by simp [h1, h2, r_ne.2.2.symm], hget]
        constructor
        · intro hh; exact .inr ⟨i, ⟨h2, rfl⟩, hh⟩
        · rintro (⟨j, ⟨hh, _⟩, _⟩ | ⟨j, ⟨_, rfl⟩, hh⟩)
          · exact absurd hh h1
          · exact hh
      · simp [h1, h2]
  refine ⟨?_, ?_⟩
  · constructor
    · rintro ⟨sets, hsets⟩ x hx
      exact (hmask x).1 (((key sets).1 hsets).1 x hx)
    · intro hx
      exact ⟨_, (key _).2 ⟨fun x h => (hmask x).2 (hx x h), rfl⟩⟩
  · intro sets hsets
    obtain ⟨_, rfl⟩ := (key sets).1 hsets
    refine ⟨closeAll_ok _ _ (by simp [DictOk]), ?_⟩
    intro p
    rw [closeAll_get, hsec]
    simp [dictGet]

/-- **C70** (Known defect) A negative replacement stands for another node in the UFO export (C51: one less than the absolute value) than
here, where the hint set gets the negative number. -/
theorem C70_negative_replacement (g : HintGlyph) (m : Nat) (x : Stem) (vs : List Stem) (h : resolveHints g m = .ok ([x], vs))
    (i : Int) (hi : i < 0) (hm : g.masks = [(lit "r", i), (lit "h", 0)]) :
    resolveHintSets g m = .ok [(i, [x])] ∧ replaceAt i ≠ i := by
  refine ⟨?_, by unfold replaceAt; rw [if_pos hi]; omega⟩
  simp only [resolveHintSets, h, hm, bind, Except.bind]
  rfl

/-! ### example -/

/-- two hint sets and a third one without hints -/
def exampleSetsGlyph : HintGlyph :=
  ⟨[[(0, 50)], [(700, -40)]], [[(10, 60)]], none, [(lit "h", 0), (lit "v", 0), (lit "r", 4), (lit "h", 1), (lit "r", 7)], []⟩

example : resolveHintSets exampleSetsGlyph 0 = .ok [(0, [(lit "hstem", 0, 50), (lit "vstem", 10, 60)]), (4, [(lit "hstem", 660, 40)])] := by
  decide +kernel

example : ∃ hs vs, resolveHints exampleSetsGlyph 0 = .ok (hs, vs) ∧ exampleSetsGlyph.masks ≠ [] :=
  ⟨[(lit "hstem", 0, 50), (lit "hstem", 660, 40)], [(lit "vstem", 10, 60)], by decide +kernel, by decide⟩

end Verif.Props
