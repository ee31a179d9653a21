import Verif.Spec.UfoGlyph
import Verif.Lemmas.Dict
import Verif.Lemmas.Dec
/-! For C64–C66: the data of the glyphs of the UFO. -/
set_option autoImplicit false
namespace Verif.Props
open Verif Verif.Spec

section
variable (ops : AngleOps) (asm : AsmOps)

theorem takeWhile_self {α : Type} {p : α → Bool} : ∀ {l : List α}, l.takeWhile p = l ↔ ∀ x ∈ l, p x = true := by
  intro l
  induction l with
  | nil => simp
  | cons x l ih => cases h : p x <;> simp [h, ih]

theorem blocks_nil {es : List (FEntry ops asm)} : blocks ops asm es = [] ↔ ∀ e ∈ es, glyphOf ops asm e = none := by
  induction es with
  | nil => simp [blocks]
  | cons e es ih =>
    unfold blocks
    cases h : glyphOf ops asm e with
    | none => simp only [ih, List.mem_cons, forall_eq_or_imp, h, true_and]
    | some g => simp [h]

theorem blocks_snoc_glyph (es : List (FEntry ops asm)) {e : FEntry ops asm} {g : Glyph ops.Angle asm.Asm} (h : glyphOf ops asm e = some g) :
    blocks ops asm (es ++ [e]) = blocks ops asm es ++ [(g, [])] := by
  induction es with
  | nil => simp [blocks, h]
  | cons x es ih =>
    rw [List.cons_append]
    unfold blocks
    cases hx : glyphOf ops asm x with
    | none => exact ih
    | some g' =>
      simp only [ih, List.cons_append]
      congr 2
      rw [List.takeWhile_append]
      split
      · rename_i hl
        rw [(List.takeWhile_prefix _).eq_of_length hl]
        simp [h]
      · rfl

theorem blocks_snoc_part (es : List (FEntry ops asm)) {e : FEntry ops asm} (h : glyphOf ops asm e = none) :
    (blocks ops asm es = [] ∧ blocks ops asm (es ++ [e]) = []) ∨
    ∃ bs b, blocks ops asm es = bs ++ [b] ∧ blocks ops asm (es ++ [e]) = bs ++ [(b.1, b.2 ++ [e])] := by
  induction es with
  | nil => left; simp [blocks, h]
  | cons x es ih =>
    rw [List.cons_append]
    unfold blocks
    cases hx : glyphOf ops asm x with
    | none => exact ih
    | some g' =>
      right
      simp only
      rcases ih with ⟨h1, h2⟩ | ⟨bs, b, h1, h2⟩
      · refine ⟨[], (g', es), ?_, ?_⟩
        · rw [h1, takeWhile_self.2 fun y hy => by rw [(blocks_nil ops asm).1 h1 y hy]; rfl]
          rfl
        · rw [h2, takeWhile_self.2 fun y hy => by rw [(blocks_nil ops asm).1 h2 y hy]; rfl]
          rfl
      · refine ⟨(g', es.takeWhile fun e => (glyphOf ops asm e).isNone) :: bs, b, ?_, ?_⟩
        · rw [h1]; rfl
        · rw [h2, List.takeWhile_append, if_neg]
          · rfl
          intro hl
          have : ∀ y ∈ es, glyphOf ops asm y = none := by
            have hs : (es.takeWhile fun e => (glyphOf ops asm e).isNone) = es :=
              (List.takeWhile_prefix _).eq_of_length hl
            intro y hy
            have := takeWhile_self.1 hs y hy
            simpa using this
          rw [(blocks_nil ops asm).2 this] at h1
          simp at h1

theorem ignored_eq (o : BuildOpts) : ignoredIds o = skipKeys o := rfl

theorem bitmapFrom (d : GlyphBitmap) : BitmapFrom d (ufoBitmap d) where
  rows := by
    refine ⟨List.length_reverse, fun i j h => ?_⟩
    show d.bitmap.data.reverse[i]? = _
    rw [List.getElem?_reverse (by omega)]
    congr 1
    omega
  advance := rfl
  size := rfl
  bearing := ⟨rfl, Int.add_comm ..⟩
  ppem := ⟨rfl, rfl⟩

theorem bitmapsFrom : ∀ l : List GlyphBitmap, List.Forall₂ BitmapFrom l (l.map ufoBitmap)
  | [] => .nil
  | d :: l => .cons (bitmapFrom d) (bitmapsFrom l)

theorem backgroundFrom (d : BackgroundImage) : BackgroundFrom d (withoutPreview d) := ⟨rfl, rfl, rfl, rfl, rfl⟩

theorem dataOf_snoc (o : BuildOpts) (l : List (FEntry ops asm)) (e : FEntry ops asm) (id : Int) :
    dataOf ops asm o (l ++ [e]) id = dataOf ops asm o l id ++ if id ∈ skipKeys o then [] else if e.1 = id then e.2.toList else [] := by
  unfold dataOf
  rw [ignored_eq]
  by_cases h : id ∈ skipKeys o
  · simp [h]
  · rw [if_neg h, if_neg h, if_neg h, List.filterMap_append]
    congr 1
    by_cases h' : e.1 = id
    · cases h2 : e.2 <;> simp [h', h2]
    · simp [h']

theorem dataOf_same {o : BuildOpts} {l : List (FEntry ops asm)} {e : FEntry ops asm} {id : Int} (h : e.1 ≠ id ∨ e.1 ∈ skipKeys o ∨ e.2 = none) :
    dataOf ops asm o (l ++ [e]) id = dataOf ops asm o l id := by
  rw [dataOf_snoc]
  by_cases hs : id ∈ skipKeys o
  · simp [hs]
  · rw [if_neg hs]
    rcases h with h | h | h
    · simp [h]
    · rw [if_neg (fun he : e.1 = id => hs (he ▸ h)), List.append_nil]
    · simp [h]

theorem dataOf_new {o : BuildOpts} {l : List (FEntry ops asm)} {id : Int} {d : Decompiled ops.Angle asm.Asm} (h : id ∉ skipKeys o) :
    dataOf ops asm o (l ++ [(id, some d)]) id = dataOf ops asm o l id ++ [d] := by
  rw [dataOf_snoc, if_neg h]
  simp

theorem codePoints_snoc (l : List (FEntry ops asm)) (e : FEntry ops asm) :
    codePoints ops asm (l ++ [e]) = codePoints ops asm l ++ codePoints ops asm [e] := by
  unfold codePoints; simp

theorem maskMetricsOf_snoc (l : List (FEntry ops asm)) (e : FEntry ops asm) :
    maskMetricsOf ops asm (l ++ [e]) = maskMetricsOf ops asm l ++ maskMetricsOf ops asm [e] := by
  unfold maskMetricsOf; simp

theorem gdefAnchors_snoc (l : List (FEntry ops asm)) (e : FEntry ops asm) :
    gdefAnchors ops asm (l ++ [e]) = gdefAnchors ops asm l ++ gdefAnchors ops asm [e] := by
  unfold gdefAnchors; simp

theorem never_skipped {o : BuildOpts} {id : Int} (h : id ∈ skipKeys o) :
    id ≠ 2001 ∧ id ≠ 2023 ∧ id ≠ 1250 ∧ id ≠ 1253 ∧ id ≠ 2008 ∧ id ≠ 2015 ∧ id ≠ 2018 ∧ id ≠ 2029 ∧ id ≠ 2011 ∧ id ≠ 2028 := by
  unfold skipKeys minimalKeys at h
  cases ho : o.vfbMinimal <;> simp [ho] at h <;> omega

/-- An entry that is skipped, empty or does not belong to glyphs changes nothing. -/
theorem describes_other {o : BuildOpts} {g0 : Glyph ops.Angle asm.Asm} {l : List (FEntry ops asm)} {g : BGlyph ops.Angle asm.Asm}
    {e : FEntry ops asm} (h : Describes ops asm o (g0, l) g)
    (he : e.1 ∈ skipKeys o ∨ e.2 = none ∨ ∀ d, e.2 = some d → glyphPart ops asm e.1 d = none) :
    Describes ops asm o (g0, l ++ [e]) g := by
  have hd : ∀ id ∈ [2008, 2012, 2015, 2017, 2029, 2031, 2007, 2013, (2009 : Int)], dataOf ops asm o (l ++ [e]) id = dataOf ops asm o l id := by
    intro id hid
    apply dataOf_same
    rcases he with he | he | he
    · exact .inr (.inl he)
    · exact .inr (.inr he)
    · by_cases h2 : e.2 = none
      · exact .inr (.inr h2)
      · left
        rintro rfl
        obtain ⟨d, hd⟩ := Option.ne_none_iff_exists'.1 h2
        have := he d hd
        simp only [List.mem_cons, List.not_mem_nil, or_false] at hid
        unfold glyphPart at this
        rcases hid with hid | hid | hid | hid | hid | hid | hid | hid | hid <;> rw [hid] at this <;> simp at this
  have h1 : codePoints ops asm [e] = [] := by
    unfold codePoints
    simp only [List.flatMap_cons, List.flatMap_nil, List.append_nil]
    by_cases hid : e.1 = 1250 ∨ e.1 = 1253
    · rcases he with he | he | he
      · have := never_skipped he
        omega
      · rw [he]; simp
      · cases h2 : e.2 with
        | none => simp
        | some d =>
          have := he d h2
          unfold glyphPart at this
          rcases hid with hid | hid <;> rw [hid] at this <;> simp at this
    · simp [hid]
  have h2 : maskMetricsOf ops asm [e] = [] := by
    unfold maskMetricsOf
    simp only [List.flatMap_cons, List.flatMap_nil, List.append_nil]
    by_cases hid : e.1 = 2011 ∨ e.1 = 2028
    · rcases he with he | he | he
      · have := never_skipped he
        omega
      · rw [he]
      · cases h2 : e.2 with
        | none => simp
        | some d =>
          have := he d h2
          unfold glyphPart at this
          rcases hid with hid | hid <;> rw [hid] at this <;> simp at this
    · cases e.2 with
      | none => rfl
      | some d => cases d <;> simp <;> omega
  have h3 : gdefAnchors ops asm [e] = [] := by
    unfold gdefAnchors
    by_cases hid : e.1 = 2018
    · rcases he with he | he | he
      · have := never_skipped he
        omega
      · simp [he]
      · cases h2 : e.2 with
        | none => simp [h2]
        | some d =>
          have := he d h2
          unfold glyphPart at this
          rw [hid] at this
          cases d <;> simp [h2] at this ⊢
          intro _
          exact this
    · simp [hid]
  exact {
    name := h.name
    metrics := h.metrics
    nodes := h.nodes
    components := h.components
    tth := h.tth
    instructions := h.instructions
    guides := h.guides
    hints := h.hints
    unicodes := by rw [codePoints_snoc, h1, List.append_nil]; exact h.unicodes
    links := by rw [hd _ (by simp)]; exact h.links
    mark := by rw [hd _ (by simp)]; exact h.mark
    userData := by rw [hd _ (by simp)]; exact h.userData
    note := by rw [hd _ (by simp)]; exact h.note
    anchors := by rw [gdefAnchors_snoc, h3, List.append_nil]; exact h.anchors
    mmAnchors := by rw [hd _ (by simp)]; exact h.mmAnchors
    guideProps := by rw [hd _ (by simp)]; exact h.guideProps
    background := by rw [hd _ (by simp)]; exact h.background
    bitmaps := by rw [hd _ (by simp)]; exact h.bitmaps
    maskNodes := by rw [hd _ (by simp)]; exact h.maskNodes
    maskMetrics := by rw [maskMetricsOf_snoc, h2, List.append_nil]; exact h.maskMetrics }

theorem glyphPart_ids {id : Int} {d : Decompiled ops.Angle asm.Asm} {f : BGlyph ops.Angle asm.Asm → Except PyErr (BGlyph ops.Angle asm.Asm)}
    (hf : glyphPart ops asm id d = some f) : id ∈ glyphPartIds := by
  by_cases h : id ∈ glyphPartIds
  · exact h
  · simp only [glyphPartIds, List.mem_cons, List.not_mem_nil, or_false, not_or] at h
    unfold glyphPart at hf
    simp [h] at hf

set_option maxHeartbeats 4000000 in
theorem describes_part {o : BuildOpts} {g0 : Glyph ops.Angle asm.Asm} {l : List (FEntry ops asm)} {g g' : BGlyph ops.Angle asm.Asm}
    {id : Int} {d : Decompiled ops.Angle asm.Asm} {f : BGlyph ops.Angle asm.Asm → Except PyErr (BGlyph ops.Angle asm.Asm)}
    (h : Describes ops asm o (g0, l) g) (hs : id ∉ skipKeys o) (hf : glyphPart ops asm id d = some f) (hg : f g = .ok g') :
    Describes ops asm o (g0, l ++ [(id, some d)]) g' := by
  have hd : ∀ id', id' ≠ id → dataOf ops asm o (l ++ [(id, some d)]) id' = dataOf ops asm o l id' := fun id' h => dataOf_same ops asm (.inl (Ne.symm h))
  have hn : dataOf ops asm o (l ++ [(id, some d)]) id = dataOf ops asm o l id ++ [d] := dataOf_new ops asm hs
  have hid := glyphPart_ids ops asm hf
  obtain ⟨a1, a2, a3, a4, a5, a6, a7, a8, a9, a10, a11, a12, a13, a14, a15, a16, a17, a18, a19, a20⟩ := h
  simp only [glyphPartIds, List.mem_cons, List.not_mem_nil, or_false] at hid
  rcases hid with hid | hid | hid | hid | hid | hid | hid | hid | hid | hid | hid | hid | hid | hid | hid
  case inr.inr.inr.inr.inr.inr.inr.inl =>
    subst hid
    cases d
    case gdef x =>
      simp only [glyphPart] at hf
      norm_num at hf
      obtain ⟨an, hx, hf⟩ := hf
      subst hf
      injection hg with hg
      subst hg
      refine ⟨a1, a2, a3, a4, a5, a6, a7, a8, ?_, ?_, ?_, ?_, ?_, ?_, ?_, ?_, ?_, ?_, ?_, ?_⟩
      all_goals first
        | (rw [hd _ (by omega)]; assumption)
        | (rw [codePoints_snoc]; simpa [codePoints] using a9)
        | (rw [maskMetricsOf_snoc]; simpa [maskMetricsOf] using a20)
        | (rw [gdefAnchors_snoc]; simp [gdefAnchors, hx])
    all_goals
      simp [glyphPart] at hf
      subst hf
      cases hg
  all_goals
    subst hid
    simp [glyphPart] at hf
    subst hf
    cases d
    all_goals first
      | (cases hg; done)
      | (injection hg with hg
         subst hg
         refine ⟨a1, a2, a3, a4, a5, a6, a7, a8, ?_, ?_, ?_, ?_, ?_, ?_, ?_, ?_, ?_, ?_, ?_, ?_⟩
         all_goals first
           | (rw [hd _ (by omega)]; assumption)
           | (rw [codePoints_snoc, ← a9]; simp [codePoints]; done)
           | (rw [maskMetricsOf_snoc, ← a20]; simp [maskMetricsOf]; done)
           | (rw [gdefAnchors_snoc]; simpa [gdefAnchors] using a14)
           | (right; rw [hn]; simp; done)
           | (right; refine ⟨_, ?_, rfl⟩; rw [hn]; simp; done)
           | (right; refine ⟨_, _, ?_, rfl, bitmapsFrom _⟩; rw [hn]; simp; done)
           | (right; refine ⟨_, _, ?_, rfl, backgroundFrom _⟩; rw [hn]; simp; done))

end
end Verif.Props
