import Verif.Spec.UfoSuccess
import Verif.Props.UfoConvert
import Verif.Props.UfoAxes
/-! C96: when a font can be converted. -/
set_option autoImplicit false
namespace Verif.Props
open Verif Verif.Spec

/-! ## point labels -/

/-- the numbers of the components of a glyph -/
def gidsIn (f : LabelFont) (name : PyStr) : Option (List Int) := (dictGet f.glyphs name).map LabelGlyph.gids

/-- the same glyphs with the same components -/
def SameShape (f f' : LabelFont) : Prop := f'.order = f.order ∧ ∀ name, gidsIn f' name = gidsIn f name

theorem SameShape.refl (f : LabelFont) : SameShape f f := ⟨rfl, fun _ => rfl⟩
theorem SameShape.trans {f g h : LabelFont} (a : SameShape f g) (b : SameShape g h) : SameShape f h :=
  ⟨b.1.trans a.1, fun n => (b.2 n).trans (a.2 n)⟩

theorem gidsIn_congr {f f' : LabelFont} (h : SameShape f f') : gidsIn f' = gidsIn f := funext h.2

/-- the search among existing components succeeds -/
theorem locate_exists (f : LabelFont) (depth : Nat) : ∀ (gids : List Int) (i : Nat) (index : Int) (total : Nat),
    (∀ gid ∈ gids, ∃ c, pyIndex f.order gid = .ok c ∧ Nested f.order (gidsIn f) depth c) →
    (∃ t, locate f gids i index total = .ok (.beyond t)) ∨
    ∃ c j index', locate f gids i index total = .ok (.inside c j index') ∧ Nested f.order (gidsIn f) depth c
  | [], _, _, t, _ => .inl ⟨t, rfl⟩
  | gid :: gids, i, index, total, h => by
    obtain ⟨c, h1, h2⟩ := h gid (by simp)
    rw [locate, h1]
    dsimp only
    have : ∃ g, dictGet f.glyphs c = some g := by
      cases depth with
      | zero => exact h2.elim
      | succ d =>
        obtain ⟨l, h3, -⟩ := h2
        unfold gidsIn at h3
        cases hg : dictGet f.glyphs c with
        | none => rw [hg] at h3; cases h3
        | some g => exact ⟨g, rfl⟩
    obtain ⟨g, hg⟩ := this
    rw [hg]
    dsimp only
    split
    · exact .inr ⟨c, i, index, rfl, h2⟩
    · exact locate_exists f depth gids _ _ _ fun x hx => h x (by simp [hx])

/-- **C96** Every point of a glyph gets a label, if its components exist and their nesting is not deeper than the recursion limit. -/
theorem label_nested {code short : PyStr} (hc : dictGet labelCodes code = some short) : ∀ (depth : Nat) (f : LabelFont) (name : PyStr) (p : Int) (start : Nat),
    Nested f.order (gidsIn f) depth name → ∃ l f', getPointLabel depth f name p code start = .ok (l, f') ∧ SameShape f f'
  | 0, _, _, _, _, h => h.elim
  | depth + 1, f, name, p, start, h => by
    obtain ⟨gids, h1, h2⟩ := h
    unfold gidsIn at h1
    cases hg : dictGet f.glyphs name with
    | none => rw [hg] at h1; cases h1
    | some g =>
      rw [hg] at h1
      cases h1
      have same : ∀ g' : LabelGlyph, g'.gids = g.gids → SameShape f { f with glyphs := dictSet f.glyphs name g' } := by
        refine fun g' hg' => ⟨rfl, fun n => ?_⟩
        unfold gidsIn
        dsimp only
        rw [dictGet_dictSet]
        by_cases hn : n = name
        · subst hn
          rw [if_pos rfl, hg]
          simp [hg']
        · rw [if_neg (Ne.symm hn)]
      rw [getPointLabel, hg]
      dsimp only
      by_cases he : g.gids.isEmpty
      · rw [if_pos he]
        unfold LabelGlyph.pointLabel
        cases hd : dictGet g.pointLabels p with
        | some m => exact ⟨_, _, rfl, same g rfl⟩
        | none =>
          dsimp only
          by_cases hi1 : p = g.numNodes
          · rw [if_pos hi1]; exact ⟨_, _, rfl, same g rfl⟩
          · rw [if_neg hi1]
            by_cases hi2 : p = g.numNodes + 1
            · rw [if_pos hi2]; exact ⟨_, _, rfl, same g rfl⟩
            · rw [if_neg hi2, hc]
              obtain ⟨k, -, h6, -, -⟩ := labelSearch_ok g.labels short start
              simp only [h6]
              exact ⟨_, _, rfl, same _ rfl⟩
      · rw [if_neg he]
        rcases locate_exists f depth g.gids 0 p 0 h2 with ⟨t, ht⟩ | ⟨c, j, index', hi, hn⟩
        · rw [ht]
          dsimp only
          split
          · exact ⟨_, _, rfl, .refl _⟩
          · split <;> exact ⟨_, _, rfl, .refl _⟩
        · rw [hi]
          obtain ⟨l, f', h3, h4⟩ := label_nested hc depth f c index' 1 hn
          simp only [h3]
          exact ⟨_, _, rfl, h4⟩

theorem labeler_nested {f0 : LabelFont} {depth : Nat} {name : PyStr} (h : Nested f0.order (gidsIn f0) depth name) :
    LabelTotal (glyphLabeler depth name) (SameShape f0) := by
  intro f p x hf hx
  obtain ⟨short, hc⟩ := tthTable_codes x hx
  obtain ⟨l, f', h1, h2⟩ := label_nested hc depth f name p 1 (by rw [hf.1, gidsIn_congr hf]; exact h)
  exact ⟨l, f', h1, hf.trans h2⟩

/-! ## TrueType commands -/

theorem tthCommands_total_inv {S : Type} {label : Labeler S} {Inv : S → Prop} (L : LabelTotal label Inv) {env : TthEnv} (is : List Instruction)
    (h : ∀ i ∈ is, Spec.Complete env i) {s : S} (hs : Inv s) : ∃ d s', tthCommands label env s is = .ok (d, s') ∧ Inv s' := by
  induction is generalizing s with
  | nil => exact ⟨_, _, rfl, hs⟩
  | cons i is ih =>
    obtain ⟨d, s1, h1, i1⟩ := tthCommand_total L (h i (by simp)) hs
    obtain ⟨ds, s2, h2, i2⟩ := ih (fun j hj => h j (List.mem_cons_of_mem _ hj)) i1
    simp only [tthCommands, h1, h2, bind, Except.bind]
    exact ⟨_, _, rfl, i2⟩

theorem translated_complete {named : Int → PyStr → Prop} {env : TthEnv} {i : Instruction} {cmd : TthCommand} (h : Translated named env i cmd) :
    Spec.Complete env i := by
  obtain ⟨code, kind, pts, rest, hm, hc, hr, -⟩ := h
  refine ⟨code, kind, rest, hm, fun x hx => ?_, hr⟩
  obtain ⟨k, hk⟩ := List.getElem?_of_mem hx
  have hlt : k < pts.length := by rw [← hc.1]; exact (List.getElem?_eq_some_iff.1 hk).1
  obtain ⟨-, p, hp, -⟩ := hc.2 k x _ hk (List.getElem?_eq_getElem hlt)
  exact ⟨p, hp⟩

/-! ## PostScript hints -/

section
variable {ops : AngleOps} {deg : ops.Angle → Rat} {asm : AsmOps}

theorem pyIndex_inRange {α : Type} {l : List α} {i : Int} : (∃ x, pyIndex l i = .ok x) ↔ InRange l.length i := by
  unfold pyIndex InRange
  by_cases h : 0 ≤ i
  · rw [if_pos h]
    cases hx : l[i.toNat]? with
    | some x =>
      have := (List.getElem?_eq_some_iff.1 hx).1
      simp only [Except.ok.injEq, exists_eq', true_iff]
      omega
    | none =>
      have := List.getElem?_eq_none_iff.1 hx
      constructor
      · rintro ⟨x, hx⟩; cases hx
      · intro h2; omega
  · rw [if_neg h]
    by_cases h2 : -(l.length : Int) ≤ i
    · rw [if_pos h2, List.getElem?_eq_getElem (by omega)]
      simp only [Except.ok.injEq, exists_eq', true_iff]
      omega
    · rw [if_neg h2]
      constructor
      · rintro ⟨x, hx⟩; cases hx
      · intro h3; omega

theorem bind_exists {α β : Type} {x : Except PyErr α} {f : α → Except PyErr β} : (∃ r, (x >>= f) = .ok r) ↔ ∃ a r, x = .ok a ∧ f a = .ok r := by
  cases x with
  | error e =>
    constructor
    · rintro ⟨r, h⟩; cases h
    · rintro ⟨a, r, h, -⟩; cases h
  | ok a =>
    constructor
    · rintro ⟨r, h⟩; exact ⟨a, r, rfl, h⟩
    · rintro ⟨a', r, h, h'⟩; cases h; exact ⟨r, h'⟩

theorem nodeCoord_exists {nodes : List MMNode} {k : Nat} (hn : HasNodes k nodes) {axis : Nat} {i : Int} :
    (∃ c, nodeCoord nodes k axis i = .ok c) ↔ InRange nodes.length i := by
  rw [← pyIndex_inRange]
  unfold nodeCoord
  rw [bind_exists]
  constructor
  · rintro ⟨n, -, h, -⟩; exact ⟨n, h⟩
  · rintro ⟨n, h⟩
    have hm : n ∈ nodes := by
      unfold pyIndex at h
      split at h
      · split at h
        · cases h; exact List.mem_of_getElem? (by assumption)
        · cases h
      · split at h
        · split at h
          · cases h; exact List.mem_of_getElem? (by assumption)
          · cases h
        · cases h
    obtain ⟨-, p, rest, hp, -⟩ := hn n hm
    refine ⟨n, if axis = 0 then p.1 else p.2, h, ?_⟩
    rw [pyIndex_get hp]
    rfl

theorem linkToHint_exists {nodes : List MMNode} {k : Nat} (hn : HasNodes k nodes) {axis : Nat} {l : Int × Int} :
    (∃ s, linkToHint nodes k axis l = .ok s) ↔ InRange nodes.length l.1 ∧ (l.2 = -1 ∨ l.2 = -2 ∨ InRange nodes.length l.2) := by
  unfold linkToHint
  rw [bind_exists, ← nodeCoord_exists hn (axis := axis) (i := l.1), ← nodeCoord_exists hn (axis := axis) (i := l.2)]
  constructor
  · rintro ⟨a, r, h1, h2⟩
    refine ⟨⟨a, h1⟩, ?_⟩
    by_cases h3 : l.2 = -1
    · exact .inl h3
    by_cases h4 : l.2 = -2
    · exact .inr (.inl h4)
    rw [if_neg h3, if_neg h4] at h2
    obtain ⟨b, -, h5, -⟩ := bind_exists.1 ⟨r, h2⟩
    exact .inr (.inr ⟨b, h5⟩)
  · rintro ⟨⟨a, h1⟩, h2⟩
    by_cases h3 : l.2 = -1
    · exact ⟨a, _, h1, by rw [if_pos h3]; rfl⟩
    by_cases h4 : l.2 = -2
    · exact ⟨a, _, h1, by rw [if_neg h3, if_pos h4]; rfl⟩
    obtain ⟨b, h5⟩ := (h2.resolve_left h3).resolve_left h4
    exact ⟨a, _, h1, by rw [if_neg h3, if_neg h4, h5]; rfl⟩

theorem mapM_length {α β : Type} {f : α → Except PyErr β} {l : List α} {r : List β} (h : l.mapM f = .ok r) : r.length = l.length := by
  rw [mapM_ok_iff] at h
  simpa using (congrArg List.length h).symm

theorem masterHints_exists {g : BGlyph ops.Angle asm.Asm} {k : Nat} (hn : HasNodes k g.nodes) :
    (∃ r, getMasterHints ⟨g.hintsH, g.hintsV, some (g.links.x, g.links.y), g.hintmasks, g.nodes⟩ k = .ok r) ↔
      ((∀ h ∈ g.hintsH, k < h.length) ∧ ∀ h ∈ g.hintsV, k < h.length) ∧
      ∀ l, l ∈ g.links.x ∨ l ∈ g.links.y → InRange g.nodes.length l.1 ∧ (l.2 = -1 ∨ l.2 = -2 ∨ InRange g.nodes.length l.2) := by
  have hh : ∀ (l : List (List (Int × Int))) (s : PyStr), (∃ r, l.mapM (fun mm => do
      let x ← pyIndex mm (k : Int)
      pure (normalizeHintDict x s)) = Except.ok r) ↔ ∀ h ∈ l, k < h.length := by
    intro l s
    rw [mapM_exists]
    refine forall₂_congr fun h _ => ?_
    rw [bind_exists]
    constructor
    · rintro ⟨a, -, h1, -⟩
      have := pyIndex_inRange.1 ⟨a, h1⟩
      unfold InRange at this
      omega
    · intro h1
      obtain ⟨a, ha⟩ := pyIndex_inRange.2 (show InRange h.length (k : Int) from ⟨by omega, by omega⟩)
      exact ⟨a, _, ha, rfl⟩
  have hl : ∀ (l : List (Int × Int)) (axis : Nat), (∃ r, l.mapM (linkToHint g.nodes k axis) = .ok r) ↔
      ∀ x ∈ l, InRange g.nodes.length x.1 ∧ (x.2 = -1 ∨ x.2 = -2 ∨ InRange g.nodes.length x.2) := by
    intro l axis
    rw [mapM_exists]
    exact forall₂_congr fun x _ => linkToHint_exists hn
  unfold getMasterHints
  dsimp only
  rw [← hh g.hintsH (lit "hstem"), ← hh g.hintsV (lit "vstem")]
  simp only [or_imp, forall_and (p := fun l => l ∈ g.links.x → _)]
  rw [← hl g.links.x 0, ← hl g.links.y 1]
  constructor
  · intro h
    obtain ⟨a, b, h1, h2⟩ := bind_exists.1 h
    obtain ⟨a', b', h1', h2'⟩ := bind_exists.1 ⟨b, h2⟩
    obtain ⟨a2, b2, h3, h4⟩ := bind_exists.1 ⟨b', h2'⟩
    obtain ⟨a3, b3, h5, -⟩ := bind_exists.1 ⟨b2, h4⟩
    exact ⟨⟨⟨a, h1⟩, a', h1'⟩, ⟨a2, h3⟩, a3, h5⟩
  · rintro ⟨⟨⟨a, h1⟩, a', h1'⟩, ⟨a2, h3⟩, a3, h5⟩
    exact ⟨_, by rw [h1]; exact (by rw [h1']; exact (by rw [h3]; exact (by rw [h5]; rfl)))⟩

theorem hr_code : dictGet labelCodes (lit "PSHintReplacement") = some (lit "hr") := by decide +kernel

section
variable {f0 : LabelFont} {depth : Nat} {name : PyStr}

theorem close_exists (hn : Nested f0.order (gidsIn f0) depth name) (st : HintState) (hs : SameShape f0 st.font) :
    ∃ st', closeHintSet depth name st = .ok st' ∧ SameShape f0 st'.font ∧ st'.stems = st.stems := by
  obtain ⟨l, f', h1, h2⟩ := label_nested hr_code depth st.font name st.tag 0 (by rw [hs.1, gidsIn_congr hs]; exact hn)
  unfold closeHintSet
  rw [h1]
  exact ⟨_, rfl, hs.trans h2, rfl⟩

/-- a mask refers to a hint, or to one that does not exist, but not to one before the first -/
def MaskReady (hs vs : List Stem) (m : PyStr × Int) : Prop := (m.1 = lit "h" → -(hs.length : Int) ≤ m.2) ∧ (m.1 = lit "v" → -(vs.length : Int) ≤ m.2)

theorem addMasked_exists {l : List Stem} {i : Int} {st : HintState} :
    (∃ st', addMaskedHint l i st = .ok st') ↔ -(l.length : Int) ≤ i := by
  unfold addMaskedHint
  by_cases h : i < l.length
  · rw [if_pos h, bind_exists]
    constructor
    · rintro ⟨a, -, h1, -⟩; exact (pyIndex_inRange.1 ⟨a, h1⟩).1
    · intro h1
      obtain ⟨a, ha⟩ := pyIndex_inRange.2 (show InRange l.length i from ⟨h1, h⟩)
      exact ⟨a, _, ha, rfl⟩
  · rw [if_neg h]
    constructor
    · intro _; omega
    · intro _; exact ⟨st, rfl⟩

theorem addMasked_font {l : List Stem} {i : Int} {st st' : HintState} (h : addMaskedHint l i st = .ok st') : st'.font = st.font := by
  unfold addMaskedHint at h
  split at h
  · cases hx : pyIndex l i with
    | error e => rw [hx] at h; cases h
    | ok x => rw [hx] at h; cases h; rfl
  · cases h; rfl

theorem applyMask_exists (hn : Nested f0.order (gidsIn f0) depth name) {hs vs : List Stem} {st : HintState} (hf : SameShape f0 st.font) (m : PyStr × Int) :
    ((∃ st', applyMask depth name hs vs st m = .ok st') ↔ MaskReady hs vs m) ∧
    ∀ st', applyMask depth name hs vs st m = .ok st' → SameShape f0 st'.font := by
  by_cases hr : m.1 = lit "r"
  · have e : applyMask depth name hs vs st m = closeHintSet depth name st >>= fun st =>
        .ok { st with
          tag := if m.2 < 0 then (m.2.natAbs : Int) - 1 else m.2
          stems := [] } := by
      unfold applyMask
      rw [if_neg (show ¬ m.1 = lit "h" by rw [hr]; exact r_ne.1)]
      simp only [if_neg (show ¬ m.1 = lit "v" by rw [hr]; exact r_ne.2.1), if_pos hr]
      rfl
    obtain ⟨st', h1, h2, -⟩ := close_exists hn st hf
    rw [e, h1]
    refine ⟨⟨fun _ => ⟨fun h => absurd (hr.symm.trans h) r_ne.1, fun h => absurd (hr.symm.trans h) r_ne.2.1⟩, fun _ => ⟨_, rfl⟩⟩, ?_⟩
    intro s h
    cases h
    exact h2
  · by_cases hh : m.1 = lit "h"
    · have e : applyMask depth name hs vs st m = addMaskedHint hs m.2 st := by
        unfold applyMask
        rw [if_pos hh]
        simp only [if_neg (show ¬ m.1 = lit "v" by rw [hh]; exact r_ne.2.2), if_neg hr]
        cases addMaskedHint hs m.2 st <;> rfl
      rw [e, addMasked_exists]
      refine ⟨⟨fun h => ⟨fun _ => h, fun h' => absurd (hh.symm.trans h') r_ne.2.2⟩, fun h => h.1 hh⟩, fun st' h => ?_⟩
      rw [addMasked_font h]; exact hf
    · by_cases hv : m.1 = lit "v"
      · have e : applyMask depth name hs vs st m = addMaskedHint vs m.2 st := by
          unfold applyMask
          rw [if_neg hh]
          simp only [if_pos hv, if_neg hr]
          change (addMaskedHint vs m.2 st >>= fun st => Except.ok st) = _
          cases addMaskedHint vs m.2 st <;> rfl
        rw [e, addMasked_exists]
        refine ⟨⟨fun h => ⟨fun h' => absurd h' hh, fun _ => h⟩, fun h => h.2 hv⟩, fun st' h => ?_⟩
        rw [addMasked_font h]; exact hf
      · have e : applyMask depth name hs vs st m = .ok st := by
          unfold applyMask
          rw [if_neg hh]
          simp only [if_neg hv, if_neg hr]
          rfl
        rw [e]
        refine ⟨⟨fun _ => ⟨fun h' => absurd h' hh, fun h' => absurd h' hv⟩, fun _ => ⟨_, rfl⟩⟩, fun st' h => ?_⟩
        cases h; exact hf

theorem masks_exists (hn : Nested f0.order (gidsIn f0) depth name) {hs vs : List Stem} : ∀ (ms : List (PyStr × Int)) (st : HintState), SameShape f0 st.font →
    ((∃ st', ms.foldlM (applyMask depth name hs vs) st = .ok st') ↔ ∀ m ∈ ms, MaskReady hs vs m) ∧
    ∀ st', ms.foldlM (applyMask depth name hs vs) st = .ok st' → SameShape f0 st'.font
  | [], st, hf => ⟨⟨fun _ => by simp, fun _ => ⟨st, rfl⟩⟩, fun st' h => by cases h; exact hf⟩
  | m :: ms, st, hf => by
    obtain ⟨h1, h2⟩ := applyMask_exists (hs := hs) (vs := vs) hn hf m
    rw [List.foldlM_cons]
    cases hm : applyMask depth name hs vs st m with
    | error e =>
      refine ⟨⟨?_, fun h => ?_⟩, ?_⟩
      · rintro ⟨st', h⟩; cases h
      swap
      · intro st' h; cases h
      obtain ⟨st', h'⟩ := h1.2 (h m (by simp))
      rw [hm] at h'; cases h'
    | ok s =>
      have := masks_exists hn (hs := hs) (vs := vs) ms s (h2 s hm)
      refine ⟨⟨fun h x hx => ?_, fun h => this.1.2 fun x hx => h x (by simp [hx])⟩, this.2⟩
      rcases List.mem_cons.1 hx with rfl | hx
      · exact h1.1 ⟨s, hm⟩
      · exact this.1.1 h x hx

theorem psHints_exists (hn : Nested f0.order (gidsIn f0) depth name) {font : LabelFont} (hf : SameShape f0 font) (g : HintGlyph) (hints : List Stem × List Stem) :
    ((∃ r, buildPsGlyphHints depth font name g hints = .ok r) ↔ ∀ m ∈ g.masks, MaskReady hints.1 hints.2 m) ∧
    ∀ r, buildPsGlyphHints depth font name g hints = .ok r → SameShape f0 r.2 := by
  have hend : ∀ st : HintState, SameShape f0 st.font →
      ∃ r, (do
        let st ← if st.stems.isEmpty then pure st else closeHintSet depth name st
        pure (reformatSets st.sets, st.font) : Except PyErr _) = .ok r ∧ SameShape f0 r.2 := by
    intro st hs
    cases he : st.stems.isEmpty with
    | true => exact ⟨_, rfl, hs⟩
    | false =>
      obtain ⟨st', h1, h2, -⟩ := close_exists hn st hs
      simp only [Bool.false_eq_true, if_false, h1]
      exact ⟨_, rfl, h2⟩
  unfold buildPsGlyphHints
  dsimp only
  cases hm : g.masks.isEmpty with
  | true =>
    rw [if_pos rfl]
    rw [List.isEmpty_iff] at hm
    obtain ⟨r, h1, h2⟩ := hend { tag := 0, stems := hints.1 ++ hints.2, sets := [], font := font } hf
    refine ⟨⟨fun _ => by simp [hm], fun _ => ⟨r, h1⟩⟩, fun r' h => ?_⟩
    rw [show r' = r from Except.ok.inj (h.symm.trans h1)]; exact h2
  | false =>
    rw [if_neg (by simp)]
    obtain ⟨h1, h2⟩ := masks_exists hn (hs := hints.1) (vs := hints.2) g.masks { tag := 0, stems := [], sets := [], font := font } hf
    rw [← h1]
    constructor
    · constructor
      · rintro ⟨r, h⟩
        obtain ⟨a, -, h3, -⟩ := bind_exists.1 ⟨r, h⟩
        exact ⟨a, h3⟩
      · rintro ⟨a, h3⟩
        obtain ⟨r, h4, -⟩ := hend a (h2 a h3)
        exact ⟨r, by rw [h3]; exact h4⟩
    · intro r h
      obtain ⟨a, r', h3, h4⟩ := bind_exists.1 ⟨r, h⟩
      rw [h3] at h
      obtain ⟨r2, h5, h6⟩ := hend a (h2 a h3)
      rw [show r = r2 from Except.ok.inj (h.symm.trans h5)]; exact h6

/-- **C96** When the PostScript hints of a glyph can be made. -/
theorem C96_hints (hn : Nested f0.order (gidsIn f0) depth name) {font : LabelFont} (hf : SameShape f0 font) {g : BGlyph ops.Angle asm.Asm} {k : Nat}
    (hg : HasNodes k g.nodes) :
    ((∃ r, masterPsHints depth font name ⟨g.hintsH, g.hintsV, some (g.links.x, g.links.y), g.hintmasks, g.nodes⟩ k = .ok r) ↔ HintsReady ops asm k g) ∧
    ∀ r, masterPsHints depth font name ⟨g.hintsH, g.hintsV, some (g.links.x, g.links.y), g.hintmasks, g.nodes⟩ k = .ok r → SameShape f0 r.2 := by
  have hlen : ∀ hints, getMasterHints ⟨g.hintsH, g.hintsV, some (g.links.x, g.links.y), g.hintmasks, g.nodes⟩ k = .ok hints →
      hints.1.length = g.hintsH.length + g.links.y.length ∧ hints.2.length = g.hintsV.length + g.links.x.length := by
    intro hints h
    unfold getMasterHints at h
    dsimp only at h
    obtain ⟨a, b, h1, h2⟩ := bind_exists.1 ⟨_, h⟩
    rw [h1] at h
    replace h := h
    obtain ⟨a', b', h1', h2'⟩ := bind_exists.1 ⟨b, h2⟩
    obtain ⟨a2, b2, h3, h4⟩ := bind_exists.1 ⟨b', h2'⟩
    obtain ⟨a3, b3, h5, h6⟩ := bind_exists.1 ⟨b2, h4⟩
    have e : hints = (a ++ a3, a' ++ a2) := by
      change (do
        let vs ← _
        let vl ← _
        let hl ← _
        pure (a ++ hl, vs ++ vl) : Except PyErr _) = _ at h
      rw [h1'] at h
      change (do
        let vl ← _
        let hl ← _
        pure (a ++ hl, a' ++ vl) : Except PyErr _) = _ at h
      rw [h3] at h
      change (do
        let hl ← _
        pure (a ++ hl, a' ++ a2) : Except PyErr _) = _ at h
      rw [h5] at h
      exact (Except.ok.inj h).symm
    rw [e]
    simp only [List.length_append, mapM_length h1, mapM_length h1', mapM_length h3, mapM_length h5, and_self]
  unfold masterPsHints
  constructor
  · constructor
    · intro h
      obtain ⟨hints, r, h1, h2⟩ := bind_exists.1 h
      obtain ⟨q1, q2⟩ := (masterHints_exists hg).1 ⟨hints, h1⟩
      refine ⟨q1, q2, fun m hm => ?_⟩
      have := (psHints_exists hn hf _ hints).1.1 ⟨r, h2⟩ m hm
      unfold MaskReady at this
      rw [(hlen hints h1).1, (hlen hints h1).2] at this
      exact this
    · rintro ⟨q1, q2, q3⟩
      obtain ⟨hints, h1⟩ := (masterHints_exists hg).2 ⟨q1, q2⟩
      rw [bind_exists]
      obtain ⟨r, hr⟩ := (psHints_exists hn hf ⟨g.hintsH, g.hintsV, some (g.links.x, g.links.y), g.hintmasks, g.nodes⟩ hints).1.2 fun m hm => by
        unfold MaskReady
        rw [(hlen hints h1).1, (hlen hints h1).2]
        exact q3 m hm
      exact ⟨hints, r, h1, hr⟩
  · intro r h
    obtain ⟨hints, r', h1, h2⟩ := bind_exists.1 ⟨r, h⟩
    rw [h1] at h
    exact (psHints_exists hn hf _ hints).2 r h

end
end
end Verif.Props
