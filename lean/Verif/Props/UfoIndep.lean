import Verif.Spec.UfoIndep
import Verif.Props.UfoNames
import Verif.Props.UfoParts
/-! C107: the UFO of a master does not depend on the values for the other masters. -/
set_option autoImplicit false
namespace Verif.Props
open Verif Verif.Spec

/-! ### lists -/

theorem forall₂_refl {α : Type} {r : α → α → Prop} (h : ∀ x, r x x) : ∀ l : List α, List.Forall₂ r l l
  | [] => .nil
  | x :: l => .cons (h x) (forall₂_refl h l)

theorem forall₂_len {α β : Type} {r : α → β → Prop} : ∀ {l : List α} {l' : List β}, List.Forall₂ r l l' → l.length = l'.length
  | _, _, .nil => rfl
  | _, _, .cons _ h => by simp [forall₂_len h]

theorem forall₂_append {α β : Type} {r : α → β → Prop} : ∀ {l : List α} {l' : List β} {m : List α} {m' : List β},
    List.Forall₂ r l l' → List.Forall₂ r m m' → List.Forall₂ r (l ++ m) (l' ++ m')
  | _, _, _, _, .nil, h => h
  | _, _, _, _, .cons h hl, hm => .cons h (forall₂_append hl hm)

theorem forall₂_get {α β : Type} {r : α → β → Prop} : ∀ {l : List α} {l' : List β}, List.Forall₂ r l l' → ∀ i : Nat,
    (l[i]? = none ∧ l'[i]? = none) ∨ ∃ x x', l[i]? = some x ∧ l'[i]? = some x' ∧ r x x'
  | _, _, .nil, i => .inl ⟨by simp, by simp⟩
  | _, _, .cons h hl, 0 => .inr ⟨_, _, rfl, rfl, h⟩
  | _, _, .cons h hl, i + 1 => by simpa using forall₂_get hl i

theorem forall₂_mapM {α β γ : Type} {r : α → β → Prop} {f : α → Except PyErr γ} {f' : β → Except PyErr γ}
    (hf : ∀ x x', r x x' → f x = f' x') : ∀ {l : List α} {l' : List β}, List.Forall₂ r l l' → l.mapM f = l'.mapM f'
  | _, _, .nil => rfl
  | _, _, .cons h hl => by rw [List.mapM_cons, List.mapM_cons, hf _ _ h, forall₂_mapM hf hl]

theorem pyIndex_at {α : Type} {k : Nat} {l l' : List α} (h : AtMaster k l l') : pyIndex l (k : Int) = pyIndex l' (k : Int) := by
  unfold pyIndex
  rw [if_pos (by omega), if_pos (by omega)]
  simp only [Int.toNat_natCast]
  rw [show l[k]? = l'[k]? from h]

theorem pyIndex_forall₂ {α β : Type} {r : α → β → Prop} {l : List α} {l' : List β} (h : List.Forall₂ r l l') (i : Int) :
    (∃ e, pyIndex l i = .error e ∧ pyIndex l' i = .error e) ∨ ∃ x x', pyIndex l i = .ok x ∧ pyIndex l' i = .ok x' ∧ r x x' := by
  unfold pyIndex
  rw [← forall₂_len h]
  by_cases hi : 0 ≤ i
  · rw [if_pos hi, if_pos hi]
    rcases forall₂_get h i.toNat with ⟨h1, h2⟩ | ⟨x, x', h1, h2, h3⟩
    · rw [h1, h2]; exact .inl ⟨_, rfl, rfl⟩
    · rw [h1, h2]; exact .inr ⟨_, _, rfl, rfl, h3⟩
  · rw [if_neg hi, if_neg hi]
    by_cases hn : -(l.length : Int) ≤ i
    · rw [if_pos hn, if_pos hn]
      rcases forall₂_get h ((l.length : Int) + i).toNat with ⟨h1, h2⟩ | ⟨x, x', h1, h2, h3⟩
      · rw [h1, h2]; exact .inl ⟨_, rfl, rfl⟩
      · rw [h1, h2]; exact .inr ⟨_, _, rfl, rfl, h3⟩
    · rw [if_neg hn, if_neg hn]; exact .inl ⟨_, rfl, rfl⟩

theorem bothAnd_refl {α : Type} {r : α → α → Prop} (h : ∀ x, r x x) : ∀ x : Option α, BothAnd r x x
  | none => .neither
  | some x => .both (h x)

theorem bothAnd_cases {α : Type} {r : α → α → Prop} : ∀ {a b : Option α}, BothAnd r a b →
    (a = none ∧ b = none) ∨ ∃ x y, a = some x ∧ b = some y ∧ r x y
  | _, _, .neither => .inl ⟨rfl, rfl⟩
  | _, _, .both h => .inr ⟨_, _, rfl, rfl, h⟩

/-! ### dictionaries -/

/-- the same keys in the same order, related values -/
abbrev DictAt {κ α : Type} (r : α → α → Prop) (d d' : List (κ × α)) : Prop := List.Forall₂ (fun e e' => e.1 = e'.1 ∧ r e.2 e'.2) d d'

theorem dictAt_get {κ α : Type} [DecidableEq κ] {r : α → α → Prop} (k : κ) : ∀ {d d' : List (κ × α)}, DictAt r d d' →
    BothAnd r (dictGet d k) (dictGet d' k)
  | _, _, .nil => .neither
  | _, _, .cons (a := e) (b := e') h hl => by
    obtain ⟨a, x⟩ := e
    obtain ⟨a', x'⟩ := e'
    obtain ⟨h1, h2⟩ := h
    dsimp only at h1 h2
    subst h1
    unfold dictGet
    by_cases ha : a = k
    · simp only [if_pos ha]; exact .both h2
    · simp only [if_neg ha]; exact dictAt_get k hl

theorem dictAt_set {κ α : Type} [DecidableEq κ] {r : α → α → Prop} (k : κ) {x x' : α} (hx : r x x') : ∀ {d d' : List (κ × α)}, DictAt r d d' →
    DictAt r (dictSet d k x) (dictSet d' k x')
  | _, _, .nil => .cons ⟨rfl, hx⟩ .nil
  | _, _, .cons (a := e) (b := e') h hl => by
    obtain ⟨a, y⟩ := e
    obtain ⟨a', y'⟩ := e'
    obtain ⟨h1, h2⟩ := h
    dsimp only at h1 h2
    subst h1
    unfold dictSet
    by_cases ha : a = k
    · simp only [if_pos ha]; exact .cons ⟨rfl, hx⟩ hl
    · simp only [if_neg ha]; exact .cons ⟨rfl, h2⟩ (dictAt_set k hx hl)

theorem dictAt_isSome {κ α : Type} [DecidableEq κ] {r : α → α → Prop} (k : κ) {d d' : List (κ × α)} (h : DictAt r d d') :
    (dictGet d k).isSome = (dictGet d' k).isSome := by
  rcases bothAnd_cases (dictAt_get k h) with ⟨h1, h2⟩ | ⟨x, y, h1, h2, -⟩ <;> rw [h1, h2] <;> rfl

/-! ### the values of a master -/

theorem masterComponent_at {order : List PyStr} {k : Nat} {c c' : Component} (h : ComponentAt k c c') :
    masterComponent order k c = masterComponent order k c' := by
  unfold masterComponent
  rw [pyIndex_at h.scaleX, pyIndex_at h.scaleY, pyIndex_at h.offsetX, pyIndex_at h.offsetY, h.gid]

theorem setAnchors_at {k : Nat} : ∀ {l l' : List MMAnchor}, List.Forall₂ (fun a a' => AtMaster k a.x a'.x ∧ AtMaster k a.y a'.y) l l' →
    ∀ anchors, setAnchors k anchors l = setAnchors k anchors l'
  | _, _, .nil, _ => rfl
  | _, _, .cons h hl, anchors => by
    cases anchors with
    | nil => rfl
    | cons a anchors =>
      rw [setAnchors, setAnchors, pyIndex_at h.1, pyIndex_at h.2, setAnchors_at hl anchors]

theorem masterGuide_at {ops : AngleOps} {deg : ops.Angle → Rat} {k : Nat} {v : Bool} {l l' : List (Guide ops.Angle)} (h : AtMaster k l l') :
    masterGuide ops deg v (k : Int) l = masterGuide ops deg v (k : Int) l' := by
  unfold masterGuide
  rw [pyIndex_at h]

theorem ufoGuides_at {ops : AngleOps} {deg : ops.Angle → Rat} {k : Nat} {g g' : MMGuides ops.Angle} (h : GuidesAt k g g') (p : GuideProps) :
    ufoGuides ops deg g p (k : Int) = ufoGuides ops deg g' p (k : Int) := by
  unfold ufoGuides masterGuides
  rw [forall₂_mapM (f := masterGuide ops deg false (k : Int)) (fun _ _ => masterGuide_at) h.h,
    forall₂_mapM (f := masterGuide ops deg true (k : Int)) (fun _ _ => masterGuide_at) h.v]

theorem contourStep_at {labels : List (Int × PyStr)} {k : Nat} {toMask : Bool} {n n' : MMNode} (h : NodeAt k n n') (st : ContourState) (i : Nat) :
    contourStep labels k toMask st i n = contourStep labels k toMask st i n' := by
  unfold contourStep
  rw [pyIndex_at h.points, h.flags, h.type]

theorem contourLoop_at {labels : List (Int × PyStr)} {k : Nat} {toMask : Bool} : ∀ {l l' : List MMNode}, List.Forall₂ (NodeAt k) l l' →
    ∀ (st : ContourState) (i : Nat), contourLoop labels k toMask st i l = contourLoop labels k toMask st i l'
  | _, _, .nil, _, _ => rfl
  | _, _, .cons h hl, st, i => by
    rw [contourLoop, contourLoop, contourStep_at h]
    congr 1
    funext st
    exact contourLoop_at hl st (i + 1)

theorem extractContours_at {labels : List (Int × PyStr)} {k : Nat} {toMask : Bool} {l l' : List MMNode} (h : List.Forall₂ (NodeAt k) l l') :
    extractContours l labels k toMask = extractContours l' labels k toMask := by
  unfold extractContours
  rw [contourLoop_at h]

/-! ### hints -/

theorem nodeCoord_at {k axis : Nat} {l l' : List MMNode} (h : List.Forall₂ (NodeAt k) l l') (i : Int) :
    nodeCoord l k axis i = nodeCoord l' k axis i := by
  unfold nodeCoord
  rcases pyIndex_forall₂ h i with ⟨e, h1, h2⟩ | ⟨x, x', h1, h2, h3⟩
  · rw [h1, h2]
  · rw [h1, h2]
    show (pyIndex x.points (k : Int) >>= _) = (pyIndex x'.points (k : Int) >>= _)
    rw [pyIndex_at h3.points]

theorem linkToHint_at {k axis : Nat} {l l' : List MMNode} (h : List.Forall₂ (NodeAt k) l l') :
    linkToHint l k axis = linkToHint l' k axis := by
  funext link
  unfold linkToHint
  rw [nodeCoord_at h, nodeCoord_at h]

/-- the parts used for hints agree in master `k` -/
structure HintGlyphAt (k : Nat) (g g' : HintGlyph) : Prop where
  h : List.Forall₂ (AtMaster k) g.h g'.h
  v : List.Forall₂ (AtMaster k) g.v g'.v
  links : g.links = g'.links
  masks : g.masks = g'.masks
  nodes : List.Forall₂ (NodeAt k) g.nodes g'.nodes

theorem getMasterHints_at {k : Nat} {g g' : HintGlyph} (h : HintGlyphAt k g g') : getMasterHints g k = getMasterHints g' k := by
  unfold getMasterHints
  rw [forall₂_mapM (f' := fun mm => do
      let x ← pyIndex mm (k : Int)
      pure (normalizeHintDict x (lit "hstem"))) (fun x x' hx => by rw [pyIndex_at hx]) h.h,
    forall₂_mapM (f' := fun mm => do
      let x ← pyIndex mm (k : Int)
      pure (normalizeHintDict x (lit "vstem"))) (fun x x' hx => by rw [pyIndex_at hx]) h.v,
    h.links, linkToHint_at h.nodes, linkToHint_at h.nodes]

theorem masterPsHints_at {depth : Nat} {font : LabelFont} {name : PyStr} {k : Nat} {g g' : HintGlyph} (h : HintGlyphAt k g g') :
    masterPsHints depth font name g k = masterPsHints depth font name g' k := by
  unfold masterPsHints
  rw [getMasterHints_at h]
  congr 1
  funext hints
  unfold buildPsGlyphHints
  rw [h.masks]

theorem psTags_at {k : Nat} {g g' : HintGlyph} (h : HintGlyphAt k g g') : psTags g = psTags g' := by
  have hc : stemCounts g = stemCounts g' := by
    unfold stemCounts
    rw [forall₂_len h.h, forall₂_len h.v, h.links]
  unfold psTags
  rw [hc, h.masks]

theorem labelRun_unique {depth : Nat} : ∀ {a : List (PyStr × Int)} {f f1 f2 : LabelFont}, LabelRun depth a f f1 → LabelRun depth a f f2 → f1 = f2
  | [], _, _, _, h1, h2 => by rw [show _ = _ from h1, show _ = _ from h2]
  | c :: a, _, _, _, ⟨x, g, h1, h2⟩, ⟨x', g', h1', h2'⟩ => by
    rw [h1] at h1'
    cases h1'
    exact labelRun_unique h2 h2'

section
variable {ops : AngleOps} {deg : ops.Angle → Rat} {asm : AsmOps} {fmt : Int → PyStr}

/-! ### the glyphs of the builder -/

/-- two glyphs of the builder agree in master `k` -/
structure BGlyphAt (k : Nat) (g g' : BGlyph ops.Angle asm.Asm) : Prop where
  name : g.name = g'.name
  unicodes : g.unicodes = g'.unicodes
  links : g.links = g'.links
  mark : g.mark = g'.mark
  userData : g.userData = g'.userData
  note : g.note = g'.note
  anchors : g.anchors = g'.anchors
  mmAnchors : BothAnd (List.Forall₂ fun a a' => AtMaster k a.x a'.x ∧ AtMaster k a.y a'.y) g.mmAnchors g'.mmAnchors
  guideProps : g.guideProps = g'.guideProps
  background : g.background = g'.background
  bitmaps : g.bitmaps = g'.bitmaps
  maskNodes : List.Forall₂ (NodeAt k) g.maskNodes g'.maskNodes
  maskLength : g.maskMetrics.length = g'.maskMetrics.length
  maskMetrics : AtMaster k g.maskMetrics g'.maskMetrics
  guides : BothAnd (GuidesAt k) g.guides g'.guides
  hintsH : List.Forall₂ (AtMaster k) g.hintsH g'.hintsH
  hintsV : List.Forall₂ (AtMaster k) g.hintsV g'.hintsV
  hintmasks : g.hintmasks = g'.hintmasks
  metrics : AtMaster k g.metrics g'.metrics
  nodes : List.Forall₂ (NodeAt k) g.nodes g'.nodes
  components : List.Forall₂ (ComponentAt k) g.components g'.components
  tth : g.tth = g'.tth
  instructions : g.instructions = g'.instructions

theorem hintGlyph_at {k : Nat} {g g' : BGlyph ops.Angle asm.Asm} (h : BGlyphAt k g g') : HintGlyphAt k (hintGlyph g) (hintGlyph g') :=
  ⟨h.hintsH, h.hintsV, by unfold hintGlyph; rw [h.links], h.hintmasks, h.nodes⟩

theorem isEmpty_of_length {α : Type} {l l' : List α} (h : l.length = l'.length) : l.isEmpty = l'.isEmpty := by
  cases l <;> cases l' <;> simp_all

theorem masterMask_at {o : BuildOpts} {k : Nat} {g g' : BGlyph ops.Angle asm.Asm} (h : BGlyphAt k g g') :
    masterMask ops asm o g k = masterMask ops asm o g' k := by
  unfold masterMask masterMaskMetrics
  rw [extractContours_at h.maskNodes, isEmpty_of_length h.maskLength, h.maskLength, pyIndex_at h.metrics, pyIndex_at h.maskMetrics]

theorem glyphGuides_at {o : BuildOpts} {k : Nat} {g g' : BGlyph ops.Angle asm.Asm} (h : BGlyphAt k g g') :
    glyphGuides ops deg asm o g k = glyphGuides ops deg asm o g' k := by
  unfold glyphGuides
  rw [h.guideProps]
  rcases bothAnd_cases h.guides with ⟨h1, h2⟩ | ⟨x, y, h1, h2, hx⟩ <;> rw [h1, h2]
  dsimp only
  rw [ufoGuides_at hx]

theorem masterAnchors_at {k : Nat} {g g' : BGlyph ops.Angle asm.Asm} (h : BGlyphAt k g g') :
    masterAnchors g.anchors g.mmAnchors k = masterAnchors g'.anchors g'.mmAnchors k := by
  unfold masterAnchors
  rw [h.anchors]
  rcases bothAnd_cases h.mmAnchors with ⟨h1, h2⟩ | ⟨x, y, h1, h2, hx⟩ <;> rw [h1, h2]
  exact setAnchors_at hx _

/-- the glyph of master `k` -/
theorem masterGlyph_at {o : BuildOpts} {base64 : Bool} {depth : Nat} {order : List PyStr} {font : LabelFont} {key : PyStr}
    {cmds : List TthCommand} {k : Nat} {g g' : BGlyph ops.Angle asm.Asm} (h : BGlyphAt k g g') :
    masterGlyph ops deg asm o base64 depth order font key g cmds k = masterGlyph ops deg asm o base64 depth order font key g' cmds k := by
  have hcomp : g.components.mapM (masterComponent order k) = g'.components.mapM (masterComponent order k) :=
    forall₂_mapM (fun _ _ hc => masterComponent_at hc) h.components
  unfold masterGlyph
  simp only [masterPsHints_at (hintGlyph_at h), masterMask_at h, extractContours_at h.nodes,
    hcomp, masterAnchors_at h, glyphGuides_at (deg := deg) h,
    pyIndex_at h.metrics, h.unicodes, h.mark, h.userData, h.background, h.bitmaps, h.instructions]

theorem masterGlyphs_at {o : UfoOpts} {depth : Nat} {b b' : Built ops.Angle asm.Asm} {k : Nat} (ho : b.glyphs.order = b'.glyphs.order)
    (hc : b.cmds = b'.cmds) : ∀ {l l' : List (PyStr × BGlyph ops.Angle asm.Asm)}, DictAt (BGlyphAt k) l l' → ∀ font,
      masterGlyphs ops deg asm o depth b k font l = masterGlyphs ops deg asm o depth b' k font l'
  | _, _, .nil, _ => rfl
  | _, _, .cons (a := e) (b := e') h hl, font => by
    obtain ⟨key, g⟩ := e
    obtain ⟨key', g'⟩ := e'
    obtain ⟨h1, h2⟩ := h
    dsimp only at h1 h2
    subst h1
    rw [masterGlyphs, masterGlyphs, ho, hc, masterGlyph_at h2]
    congr 1
    funext r
    rw [masterGlyphs_at ho hc hl]

theorem masterGlyphs_run {o : UfoOpts} {depth : Nat} {b : Built ops.Angle asm.Asm} {k : Nat} :
    ∀ {l : List (PyStr × BGlyph ops.Angle asm.Asm)} {font font' : LabelFont} {out : List (PyStr × UfoGlyph asm.Asm)},
      masterGlyphs ops deg asm o depth b k font l = .ok (out, font') →
      LabelRun depth (l.flatMap (glyphTags o.build.pshints)) font font' := by
  intro l
  induction l with
  | nil => intro font font' out h; cases h; rfl
  | cons e l ih =>
    intro font font' out h
    obtain ⟨key, g⟩ := e
    rw [masterGlyphs] at h
    cases h1 : masterGlyph ops deg asm o.build o.base64 depth b.glyphs.order font key g ((dictGet b.cmds key).getD []) k with
    | error er => rw [h1] at h; cases h
    | ok r =>
      rw [h1] at h
      replace h : (masterGlyphs ops deg asm o depth b k r.2 l >>= _) = Except.ok (out, font') := h
      cases h2 : masterGlyphs ops deg asm o depth b k r.2 l with
      | error er => rw [h2] at h; cases h
      | ok rs =>
        rw [h2] at h
        cases h
        rw [List.flatMap_cons, labelRun_append]
        exact ⟨_, masterGlyph_run h1, ih h2⟩

theorem glyphTags_at {k : Nat} {ps : Bool} : ∀ {l l' : List (PyStr × BGlyph ops.Angle asm.Asm)}, DictAt (BGlyphAt k) l l' →
    l.flatMap (glyphTags ps) = l'.flatMap (glyphTags ps)
  | _, _, .nil => rfl
  | _, _, .cons (a := e) (b := e') h hl => by
    rw [List.flatMap_cons, List.flatMap_cons, glyphTags_at hl]
    congr 1
    unfold glyphTags
    rw [psTags_at (hintGlyph_at h.2), h.1]

/-! ### labels for TrueType instructions -/

theorem freshLabels_at {k : Nat} {st st' : GlyphPart ops.Angle asm.Asm} (ho : st.order = st'.order) (h : DictAt (BGlyphAt k) st.masters st'.masters) :
    freshLabels ops asm st = freshLabels ops asm st' := by
  unfold freshLabels
  rw [ho]
  congr 1
  generalize st.masters = l at h
  generalize st'.masters = l' at h
  induction h with
  | nil => rfl
  | cons h hl ih =>
    rw [List.map_cons, List.map_cons, ih, h.1, forall₂_len h.2.nodes]
    congr 3
    have := h.2.components
    rename_i e e' _ _
    generalize e.2.components = c at this
    generalize e'.2.components = c' at this
    clear ih hl
    induction this with
    | nil => rfl
    | cons hc _ ih => rw [List.map_cons, List.map_cons, ih, hc.gid]

theorem insertGlyph_at {k : Nat} {x x' : PyStr × BGlyph ops.Angle asm.Asm} (hx : x.1 = x'.1 ∧ BGlyphAt k x.2 x'.2) :
    ∀ {l l' : List (PyStr × BGlyph ops.Angle asm.Asm)}, DictAt (BGlyphAt k) l l' → DictAt (BGlyphAt k) (insertGlyph x l) (insertGlyph x' l')
  | _, _, .nil => .cons hx .nil
  | _, _, .cons (a := e) (b := e') h hl => by
    unfold insertGlyph
    rw [forall₂_len h.2.components, forall₂_len hx.2.components, h.2.name, hx.2.name]
    by_cases hlt : glyphLt (e'.2.components.length, e'.2.name) (x'.2.components.length, x'.2.name) = true
    · rw [if_pos hlt, if_pos hlt]; exact .cons h (insertGlyph_at hx hl)
    · rw [if_neg hlt, if_neg hlt]; exact .cons hx (.cons h hl)

theorem sortedGlyphs_at {k : Nat} : ∀ {l l' : List (PyStr × BGlyph ops.Angle asm.Asm)}, DictAt (BGlyphAt k) l l' →
    DictAt (BGlyphAt k) (sortedGlyphs l) (sortedGlyphs l')
  | _, _, .nil => .nil
  | _, _, .cons h hl => insertGlyph_at h (sortedGlyphs_at hl)

theorem ttGlyphLib_at {depth k : Nat} {t : TtPart} : ∀ {l l' : List (PyStr × BGlyph ops.Angle asm.Asm)}, DictAt (BGlyphAt k) l l' → ∀ font,
    ttGlyphLib ops asm depth t font l = ttGlyphLib ops asm depth t font l'
  | _, _, .nil, _ => rfl
  | _, _, .cons (a := e) (b := e') h hl, font => by
    obtain ⟨key, g⟩ := e
    obtain ⟨key', g'⟩ := e'
    obtain ⟨h1, h2⟩ := h
    dsimp only at h1 h2
    subst h1
    rw [ttGlyphLib, ttGlyphLib, h2.tth]
    cases g'.tth with
    | none => exact ttGlyphLib_at hl font
    | some is =>
      dsimp only
      congr 1
      funext r
      rw [ttGlyphLib_at hl]

/-! ### kerning -/

theorem makeNames_at {k : Nat} {order : List PyStr} {groups : Groups} {rev : List (Option (Nat × PyStr) × PyStr)} :
    ∀ {m m' : MMKerning}, DictAt (AtMaster k) m m' → ∀ {n n' r r' : List ((PyStr × PyStr) × List Int)}, DictAt (AtMaster k) n n' →
      (m.foldlM (fun names e => do
        let r ← pyIndex order e.1.2
        pure (dictSet names (sideName rev groups 1 e.1.1, sideName rev groups 2 r) e.2)) n : Except PyErr _) = .ok r →
      (m'.foldlM (fun names e => do
        let r ← pyIndex order e.1.2
        pure (dictSet names (sideName rev groups 1 e.1.1, sideName rev groups 2 r) e.2)) n' : Except PyErr _) = .ok r' →
      DictAt (AtMaster k) r r'
  | _, _, .nil, _, _, _, _, hn, h1, h2 => by cases h1; cases h2; exact hn
  | _, _, .cons (a := e) (b := e') h hl, n, n', r, r', hn, h1, h2 => by
    rw [List.foldlM_cons] at h1 h2
    rw [← h.1] at h2
    cases hp : pyIndex order e.1.2 with
    | error er => rw [hp] at h1; cases h1
    | ok x =>
      rw [hp] at h1 h2
      exact makeNames_at hl (dictAt_set _ h.2 hn) h1 h2

theorem masterKerning_at {k : Nat} {u u' : UfoKerning} (h1 : u.glyphGroup1 = u'.glyphGroup1) (h2 : u.glyphGroup2 = u'.glyphGroup2)
    (h3 : u.keyGlyphs = u'.keyGlyphs) (h4 : DictAt (AtMaster k) u.names u'.names) : u.masterKerning k = u'.masterKerning k := by
  have he : u.isException = u'.isException := by
    funext l r
    unfold UfoKerning.isException
    rw [h1, h2, h3]
  unfold UfoKerning.masterKerning
  rw [he]
  generalize u.names = n at h4
  generalize u'.names = n' at h4
  generalize ([] : List ((PyStr × PyStr) × Int)) = acc
  induction h4 generalizing acc with
  | nil => rfl
  | cons h _ ih =>
    rw [List.foldlM_cons, List.foldlM_cons, h.1, pyIndex_at h.2]
    congr 1
    funext mk
    exact ih mk

theorem ufoKerning_at {k : Nat} {order : List PyStr} {groups : Groups} {keys : List (PyStr × PyStr)} {m m' : MMKerning}
    (hm : DictAt (AtMaster k) m m') {u u' : UfoKerning} (h1 : ufoKerning order groups m keys = .ok u) (h2 : ufoKerning order groups m' keys = .ok u') :
    u.groups = u'.groups ∧ u.glyphGroup1 = u'.glyphGroup1 ∧ u.glyphGroup2 = u'.glyphGroup2 ∧ u.keyGlyphs = u'.keyGlyphs ∧
      DictAt (AtMaster k) u.names u'.names := by
  unfold ufoKerning at h1 h2
  rcases hb : buildGlyphToGroupMaps groups with ⟨gs, m1, m2⟩
  rw [hb] at h1 h2
  dsimp only at h1 h2
  cases hn : makeNames order gs (reverseKeyGlyphs keys) m with
  | error e => rw [hn] at h1; cases h1
  | ok n =>
    rw [hn] at h1
    cases hn' : makeNames order gs (reverseKeyGlyphs keys) m' with
    | error e => rw [hn'] at h2; cases h2
    | ok n' =>
      rw [hn'] at h2
      cases h1
      cases h2
      exact ⟨rfl, rfl, rfl, rfl, makeNames_at hm .nil hn hn'⟩

/-! ### the entries -/

theorem at_refl {α : Type} (k : Nat) (l : List α) : AtMaster k l l := rfl

theorem glyphAt_refl {A ASM : Type} (k : Nat) (g : Glyph A ASM) : GlyphAt k g g :=
  ⟨rfl, bothAnd_refl (forall₂_refl fun _ => ⟨rfl, rfl, rfl⟩) _, bothAnd_refl (at_refl k) _,
    bothAnd_refl (fun _ => ⟨forall₂_refl (at_refl k) _, forall₂_refl (at_refl k) _, rfl⟩) _,
    bothAnd_refl (fun _ => ⟨forall₂_refl (at_refl k) _, forall₂_refl (at_refl k) _⟩) _,
    bothAnd_refl (forall₂_refl fun _ => ⟨rfl, rfl, rfl, rfl, rfl⟩) _, bothAnd_refl (forall₂_refl fun _ => ⟨rfl, rfl⟩) _, rfl, rfl⟩

theorem bothAnd_getD {α : Type} {r : List α → List α → Prop} (h0 : r [] []) {a b : Option (List α)} (h : BothAnd r a b) : r (a.getD []) (b.getD []) := by
  rcases bothAnd_cases h with ⟨h1, h2⟩ | ⟨x, y, h1, h2, h3⟩ <;> rw [h1, h2]
  · exact h0
  · exact h3

theorem newGlyph_at {o : BuildOpts} {k : Nat} {d d' : Glyph ops.Angle asm.Asm} (h : GlyphAt k d d') {g g' : BGlyph ops.Angle asm.Asm}
    (h1 : newGlyph ops asm o d = .ok g) (h2 : newGlyph ops asm o d' = .ok g') : BGlyphAt k g g' ∧ g.maskMetrics = [] := by
  unfold newGlyph at h1 h2
  rcases bothAnd_cases h.nodes with ⟨n1, n2⟩ | ⟨n, n', n1, n2, hn⟩
  · rw [n1] at h1; cases hx : d.name <;> cases hy : d.metrics <;> rw [hx, hy] at h1 <;> cases h1
  rcases bothAnd_cases h.metrics with ⟨m1, m2⟩ | ⟨m, m', m1, m2, hm⟩
  · rw [n1, m1] at h1; cases hx : d.name <;> rw [hx] at h1 <;> cases h1
  cases hx : d.name with
  | none => rw [hx] at h1; cases h1
  | some name =>
    have hx' : d'.name = some name := by rw [← h.name]; exact hx
    rw [n1, m1, hx] at h1
    rw [n2, m2, hx'] at h2
    dsimp only at h1 h2
    cases h1
    cases h2
    refine ⟨⟨rfl, rfl, rfl, rfl, rfl, rfl, rfl, .neither, rfl, rfl, rfl, .nil, rfl, rfl, ?_, ?_, ?_, ?_, hm, hn, ?_, h.tth, ?_⟩, rfl⟩
    · dsimp only
      cases o.minimal
      · exact h.guides
      · exact .neither
    · dsimp only
      cases o.pshints
      · exact .nil
      · rcases bothAnd_cases h.hints with ⟨e1, e2⟩ | ⟨x, y, e1, e2, e3⟩ <;> rw [e1, e2]
        · exact .nil
        · exact e3.h
    · dsimp only
      cases o.pshints
      · exact .nil
      · rcases bothAnd_cases h.hints with ⟨e1, e2⟩ | ⟨x, y, e1, e2, e3⟩ <;> rw [e1, e2]
        · exact .nil
        · exact e3.v
    · dsimp only
      cases o.pshints
      · rfl
      · rcases bothAnd_cases h.hints with ⟨e1, e2⟩ | ⟨x, y, e1, e2, e3⟩ <;> rw [e1, e2]
        show x.hintmasks.getD [] = y.hintmasks.getD []
        rw [e3.hintmasks]
    · exact bothAnd_getD (r := List.Forall₂ (ComponentAt k)) .nil h.components
    · dsimp only
      rw [h.imported]

theorem addKerning_at {k : Nat} {name : PyStr} : ∀ {v v' : List (Int × List Int)}, DictAt (AtMaster k) v v' → ∀ {m m' : MMKerning},
    DictAt (AtMaster k) m m' → DictAt (AtMaster k) (addKerning m name v) (addKerning m' name v')
  | _, _, .nil, _, _, hm => hm
  | _, _, .cons (a := e) (b := e') h hl, m, m', hm => by
    show DictAt (AtMaster k) (addKerning (dictSet m (name, e.1) e.2) name _) (addKerning (dictSet m' (name, e'.1) e'.2) name _)
    rw [← h.1]
    exact addKerning_at hl (dictAt_set _ h.2 hm)

/-- the state of the builder; `m` is the number of metrics of the mask of the current glyph -/
structure PartAt (k m : Nat) (st st' : GlyphPart ops.Angle asm.Asm) : Prop where
  order : st.order = st'.order
  kerning : DictAt (AtMaster k) st.kerning st'.kerning
  masters : DictAt (BGlyphAt k) st.masters st'.masters
  current : BothAnd (BGlyphAt k) st.current st'.current
  masks : ∀ g, st.current = some g → g.maskMetrics.length = m

theorem freeGlyphName_at {k : Nat} {l l' : List (PyStr × BGlyph ops.Angle asm.Asm)} (h : DictAt (BGlyphAt k) l l') (name : PyStr) :
    freeGlyphName l name = freeGlyphName l' name := by
  unfold freeGlyphName
  simp only [dictAt_isSome _ h]

theorem filedKey_at {k m : Nat} {st st' : GlyphPart ops.Angle asm.Asm} (h : PartAt k m st st') : filedKey ops asm st = filedKey ops asm st' := by
  unfold filedKey
  rcases bothAnd_cases h.current with ⟨h1, h2⟩ | ⟨g, g', h1, h2, h3⟩ <;> rw [h1, h2]
  dsimp only
  rw [h3.name, dictAt_isSome _ h.masters, freeGlyphName_at h.masters]

theorem fileGlyph_at {k m : Nat} {st st' : GlyphPart ops.Angle asm.Asm} (h : PartAt k m st st') :
    (fileGlyph ops asm st).order = (fileGlyph ops asm st').order ∧
      DictAt (BGlyphAt k) (fileGlyph ops asm st).masters (fileGlyph ops asm st').masters := by
  unfold fileGlyph
  rcases bothAnd_cases h.current with ⟨h1, h2⟩ | ⟨g, g', h1, h2, h3⟩ <;> rw [h1, h2]
  · exact ⟨h.order, h.masters⟩
  · dsimp only
    rw [h3.name, dictAt_isSome _ h.masters, freeGlyphName_at h.masters]
    by_cases hd : (dictGet st'.masters g'.name).isSome = true
    · rw [if_pos hd, if_pos hd]
      cases freeGlyphName st'.masters g'.name with
      | none => exact ⟨h.order, h.masters⟩
      | some n => exact ⟨by dsimp only; rw [h.order], dictAt_set _ h3 h.masters⟩
    · rw [if_neg hd, if_neg hd]
      exact ⟨by dsimp only; rw [h.order], dictAt_set _ h3 h.masters⟩

theorem glyphEntry_at {o : BuildOpts} {k m : Nat} {st st' s1 s1' : GlyphPart ops.Angle asm.Asm} (h : PartAt k m st st')
    {d d' : Glyph ops.Angle asm.Asm} (hd : GlyphAt k d d') (h1 : glyphEntry ops asm o st d = .ok s1) (h2 : glyphEntry ops asm o st' d' = .ok s1') :
    PartAt k 0 s1 s1' := by
  unfold glyphEntry at h1 h2
  cases hn : newGlyph ops asm o d with
  | error e => rw [hn] at h1; cases h1
  | ok g =>
    rw [hn] at h1
    cases hn' : newGlyph ops asm o d' with
    | error e => rw [hn'] at h2; cases h2
    | ok g' =>
      rw [hn'] at h2
      obtain ⟨hg, hm⟩ := newGlyph_at hd hn hn'
      cases h1
      cases h2
      obtain ⟨f1, f2⟩ := fileGlyph_at h
      refine ⟨f1, ?_, f2, .both hg, ?_⟩
      · dsimp only
        rw [hg.name]
        exact addKerning_at (bothAnd_getD (r := DictAt (AtMaster k)) .nil hd.kerning) h.kerning
      · intro x hx
        cases hx
        rw [hm]
        rfl

theorem at_append {α : Type} {k : Nat} {a a' l l' : List α} (ha : AtMaster k a a') (hl : a.length = a'.length)
    (h : ∀ j, a.length + j = k → l[j]? = l'[j]?) : AtMaster k (a ++ l) (a' ++ l') := by
  unfold AtMaster at *
  by_cases hk : k < a.length
  · rw [List.getElem?_append_left hk, List.getElem?_append_left (by omega), ha]
  · rw [List.getElem?_append_right (by omega), List.getElem?_append_right (by omega), ← hl]
    exact h _ (by omega)

theorem maskMetricsOf_other {id : Int} {d : Option (Decompiled ops.Angle asm.Asm)} (h1 : id ≠ 2011) (h2 : id ≠ 2028) :
    maskMetricsOf ops asm [(id, d)] = [] := by
  unfold maskMetricsOf
  rw [List.flatMap_cons, List.flatMap_nil, List.append_nil]
  dsimp only
  split
  · rw [if_neg h1]
  · rw [if_neg h2]
  · rfl

/-- an entry of the current glyph -/
theorem glyphPart_at {k m n : Nat} {id : Int} {d d' : Decompiled ops.Angle asm.Asm} (h : EntryAt ops asm k m n (id, some d) (id, some d'))
    (hid : id ≠ 2001) :
    (glyphPart ops asm id d = none ∧ glyphPart ops asm id d' = none ∧ maskMetricsOf ops asm [(id, some d)] = []) ∨
    ∃ f f', glyphPart ops asm id d = some f ∧ glyphPart ops asm id d' = some f' ∧
      ∀ g g' x x', BGlyphAt k g g' → g.maskMetrics.length = m → f g = .ok x → f' g' = .ok x' →
        BGlyphAt k x x' ∧ x.maskMetrics.length = m + (maskMetricsOf ops asm [(id, some d)]).length := by
  have same : ∀ d : Decompiled ops.Angle asm.Asm, (glyphPart ops asm id d = none ∧ glyphPart ops asm id d = none ∧ maskMetricsOf ops asm [(id, some d)] = []) ∨
    ∃ f f', glyphPart ops asm id d = some f ∧ glyphPart ops asm id d = some f' ∧
      ∀ g g' x x', BGlyphAt k g g' → g.maskMetrics.length = m → f g = .ok x → f' g' = .ok x' →
        BGlyphAt k x x' ∧ x.maskMetrics.length = m + (maskMetricsOf ops asm [(id, some d)]).length := by
    intro d
    by_cases c : id = 2023
    · subst c
      refine .inr ⟨_, _, rfl, rfl, fun g g' x x' hg hm e1 e2 => ?_⟩
      rw [maskMetricsOf_other (by decide) (by decide)]
      cases d <;> first | (cases e1; cases e2; exact ⟨{ hg with name := hg.name }, hm⟩) | cases e1
    by_cases c : id = 1250
    · subst c
      refine .inr ⟨_, _, rfl, rfl, fun g g' x x' hg hm e1 e2 => ?_⟩
      rw [maskMetricsOf_other (by decide) (by decide)]
      cases d <;> first | (cases e1; cases e2; exact ⟨{ hg with unicodes := by rw [hg.unicodes] }, hm⟩) | cases e1
    by_cases c : id = 1253
    · subst c
      refine .inr ⟨_, _, rfl, rfl, fun g g' x x' hg hm e1 e2 => ?_⟩
      rw [maskMetricsOf_other (by decide) (by decide)]
      cases d <;> first | (cases e1; cases e2; exact ⟨{ hg with unicodes := by rw [hg.unicodes] }, hm⟩) | cases e1
    by_cases c : id = 2008
    · subst c
      refine .inr ⟨_, _, rfl, rfl, fun g g' x x' hg hm e1 e2 => ?_⟩
      rw [maskMetricsOf_other (by decide) (by decide)]
      cases d <;> first | (cases e1; cases e2; exact ⟨{ hg with links := rfl }, hm⟩) | cases e1
    by_cases c : id = 2012
    · subst c
      refine .inr ⟨_, _, rfl, rfl, fun g g' x x' hg hm e1 e2 => ?_⟩
      rw [maskMetricsOf_other (by decide) (by decide)]
      cases d <;> first | (cases e1; cases e2; exact ⟨{ hg with mark := rfl }, hm⟩) | cases e1
    by_cases c : id = 2015
    · subst c
      refine .inr ⟨_, _, rfl, rfl, fun g g' x x' hg hm e1 e2 => ?_⟩
      rw [maskMetricsOf_other (by decide) (by decide)]
      cases d <;> first | (cases e1; cases e2; exact ⟨{ hg with userData := rfl }, hm⟩) | cases e1
    by_cases c : id = 2017
    · subst c
      refine .inr ⟨_, _, rfl, rfl, fun g g' x x' hg hm e1 e2 => ?_⟩
      rw [maskMetricsOf_other (by decide) (by decide)]
      cases d <;> first | (cases e1; cases e2; exact ⟨{ hg with note := rfl }, hm⟩) | cases e1
    by_cases c : id = 2029
    · subst c
      refine .inr ⟨_, _, rfl, rfl, fun g g' x x' hg hm e1 e2 => ?_⟩
      rw [maskMetricsOf_other (by decide) (by decide)]
      cases d <;> first | (cases e1; cases e2; exact ⟨{ hg with mmAnchors := .both (forall₂_refl (fun _ => ⟨rfl, rfl⟩) _) }, hm⟩) | cases e1
    by_cases c : id = 2031
    · subst c
      refine .inr ⟨_, _, rfl, rfl, fun g g' x x' hg hm e1 e2 => ?_⟩
      rw [maskMetricsOf_other (by decide) (by decide)]
      cases d <;> first | (cases e1; cases e2; exact ⟨{ hg with guideProps := rfl }, hm⟩) | cases e1
    by_cases c : id = 2007
    · subst c
      refine .inr ⟨_, _, rfl, rfl, fun g g' x x' hg hm e1 e2 => ?_⟩
      rw [maskMetricsOf_other (by decide) (by decide)]
      cases d <;> first | (cases e1; cases e2; exact ⟨{ hg with background := rfl }, hm⟩) | cases e1
    by_cases c : id = 2013
    · subst c
      refine .inr ⟨_, _, rfl, rfl, fun g g' x x' hg hm e1 e2 => ?_⟩
      rw [maskMetricsOf_other (by decide) (by decide)]
      cases d <;> first | (cases e1; cases e2; exact ⟨{ hg with bitmaps := rfl }, hm⟩) | cases e1
    by_cases c : id = 2009
    · subst c
      refine .inr ⟨_, _, rfl, rfl, fun g g' x x' hg hm e1 e2 => ?_⟩
      rw [maskMetricsOf_other (by decide) (by decide)]
      cases d <;> first | (cases e1; cases e2; exact ⟨{ hg with maskNodes := forall₂_refl (fun _ => ⟨rfl, rfl, rfl⟩) _ }, hm⟩) | cases e1
    by_cases c : id = 2011
    · subst c
      refine .inr ⟨_, _, rfl, rfl, fun g g' x x' hg hm e1 e2 => ?_⟩
      cases d <;> first
        | (cases e1; cases e2
           exact ⟨{ hg with maskLength := by dsimp only; simp [hg.maskLength], maskMetrics := at_append hg.maskMetrics hg.maskLength (fun _ _ => rfl) }, by
             dsimp only; rw [List.length_append, hm]; rfl⟩)
        | cases e1
    by_cases c : id = 2028
    · subst c
      refine .inr ⟨_, _, rfl, rfl, fun g g' x x' hg hm e1 e2 => ?_⟩
      cases d <;> first
        | (cases e1; cases e2
           exact ⟨{ hg with maskLength := by dsimp only; simp [hg.maskLength], maskMetrics := at_append hg.maskMetrics hg.maskLength (fun _ _ => rfl) }, by
             dsimp only; rw [List.length_append, hm]; simp [maskMetricsOf]⟩)
        | cases e1
    by_cases c : id = 2018
    · subst c
      rw [maskMetricsOf_other (by decide) (by decide)]
      cases d with
      | gdef v =>
        cases hv : v.anchors with
        | none => exact .inl ⟨by unfold glyphPart; simp [hv], by unfold glyphPart; simp [hv], rfl⟩
        | some l =>
          refine .inr ⟨fun g => .ok { g with anchors := l }, fun g => .ok { g with anchors := l }, by unfold glyphPart; simp [hv],
            by unfold glyphPart; simp [hv], fun g g' x x' hg hm e1 e2 => ?_⟩
          cases e1
          cases e2
          exact ⟨{ hg with anchors := rfl }, hm⟩
      | _ => exact .inr ⟨_, _, rfl, rfl, fun g g' x x' hg hm e1 e2 => by cases e1⟩
    have hn : ∀ d : Decompiled ops.Angle asm.Asm, glyphPart ops asm id d = none := by
      intro d
      unfold glyphPart
      rw [if_neg (by omega), if_neg (by omega), if_neg (by omega), if_neg (by omega), if_neg (by omega), if_neg (by omega), if_neg (by omega),
        if_neg (by omega), if_neg (by omega), if_neg (by omega), if_neg (by omega), if_neg (by omega), if_neg (by omega), if_neg (by omega)]
    exact .inl ⟨hn d, hn d, maskMetricsOf_other (by omega) (by omega)⟩
  cases h with
  | same => exact same d
  | glyph => exact absurd rfl hid
  | mask hm =>
    exact .inr ⟨_, _, rfl, rfl, fun g g' x x' hg hl e1 e2 => by
      cases e1; cases e2
      rw [maskMetricsOf_other (by decide) (by decide)]
      exact ⟨{ hg with maskNodes := hm }, hl⟩⟩
  | maskMetrics hp =>
    exact .inr ⟨_, _, rfl, rfl, fun g g' x x' hg hl e1 e2 => by
      cases e1; cases e2
      refine ⟨{ hg with maskLength := by dsimp only; simp [hg.maskLength], maskMetrics := at_append hg.maskMetrics hg.maskLength fun j hj => ?_ }, by
        dsimp only; rw [List.length_append, hl]; rfl⟩
      cases j with
      | zero => rw [hp (by omega)]
      | succ j => rfl⟩
  | maskMetricsMM hl' hp =>
    exact .inr ⟨_, _, rfl, rfl, fun g g' x x' hg hl e1 e2 => by
      cases e1; cases e2
      refine ⟨{ hg with maskLength := by dsimp only; simp [hg.maskLength, hl'], maskMetrics := at_append hg.maskMetrics hg.maskLength fun j hj => ?_ }, by
        dsimp only; rw [List.length_append, hl]; simp [maskMetricsOf]⟩
      exact hp j (by omega)⟩
  | anchors ha =>
    exact .inr ⟨_, _, rfl, rfl, fun g g' x x' hg hl e1 e2 => by
      cases e1; cases e2
      rw [maskMetricsOf_other (by decide) (by decide)]
      exact ⟨{ hg with mmAnchors := .both ha }, hl⟩⟩
  | globalGuides => exact .inl ⟨rfl, rfl, rfl⟩
  | psInfo => exact .inl ⟨rfl, rfl, rfl⟩
  | masterName => exact .inl ⟨rfl, rfl, rfl⟩
  | masterLocation => exact .inl ⟨rfl, rfl, rfl⟩

theorem entryAt_cases {k m n : Nat} {e e' : FEntry ops asm} (h : EntryAt ops asm k m n e e') :
    e.1 = e'.1 ∧ ((e.2 = none ∧ e'.2 = none) ∨ ∃ d d', e.2 = some d ∧ e'.2 = some d') := by
  cases h with
  | same =>
    refine ⟨rfl, ?_⟩
    cases he : e.2 with
    | none => exact .inl ⟨rfl, rfl⟩
    | some d => exact .inr ⟨_, _, rfl, rfl⟩
  | _ => exact ⟨rfl, .inr ⟨_, _, rfl, rfl⟩⟩

/-- entries that differ are of these types -/
theorem entryAt_same {k m n : Nat} {e e' : FEntry ops asm} (h : EntryAt ops asm k m n e e') :
    e = e' ∨ (e.1 ∈ [2001, 2009, 2011, 2028, 2029, 1294, 1536, 1504, 1505]) := by
  cases h with
  | same => exact .inl rfl
  | _ => exact .inr (by simp)

/-- the number of metrics of the mask after an entry -/
theorem glyphTtStep_at {o : BuildOpts} {k m n : Nat} {e e' : FEntry ops asm} (h : EntryAt ops asm k m n e e')
    {st st' s s' : GlyphPart ops.Angle asm.Asm} {t t1 t1' : TtPart} (hst : PartAt k m st st')
    (h1 : glyphTtStep ops asm o (st, t) e = .ok (s, t1)) (h2 : glyphTtStep ops asm o (st', t) e' = .ok (s', t1')) :
    PartAt k (if (glyphOf ops asm e).isSome then 0 else m + (maskMetricsOf ops asm [e]).length) s s' ∧ t1 = t1' := by
  obtain ⟨id, d⟩ := e
  obtain ⟨id', d'⟩ := e'
  obtain ⟨hid, hd⟩ := entryAt_cases h
  dsimp only at hid hd
  subst hid
  unfold glyphTtStep at h1 h2
  dsimp only at h1 h2
  cases hg : glyphStep ops asm o st (id, d) with
  | error e => rw [hg] at h1; cases h1
  | ok r =>
  rw [hg] at h1
  replace h1 : (ttStep ops asm o st t (id, d) >>= _) = Except.ok (s, t1) := h1
  cases ht : ttStep ops asm o st t (id, d) with
  | error e => rw [ht] at h1; cases h1
  | ok u =>
  rw [ht] at h1
  cases h1
  cases hg' : glyphStep ops asm o st' (id, d') with
  | error e => rw [hg'] at h2; cases h2
  | ok r' =>
  rw [hg'] at h2
  replace h2 : (ttStep ops asm o st' t (id, d') >>= _) = Except.ok (s', t1') := h2
  cases ht' : ttStep ops asm o st' t (id, d') with
  | error e => rw [ht'] at h2; cases h2
  | ok u' =>
  rw [ht'] at h2
  cases h2
  unfold glyphStep at hg hg'
  unfold ttStep at ht ht'
  dsimp only at hg hg' ht ht'
  by_cases hs : id ∈ skipKeys o
  · rw [if_pos hs] at hg hg' ht ht'
    cases hg; cases hg'; cases ht; cases ht'
    have hn1 : id ≠ 2001 := by rintro rfl; revert hs; unfold skipKeys minimalKeys; cases o.vfbMinimal <;> decide
    have hn2 : id ≠ 2011 := by rintro rfl; revert hs; unfold skipKeys minimalKeys; cases o.vfbMinimal <;> decide
    have hn3 : id ≠ 2028 := by rintro rfl; revert hs; unfold skipKeys minimalKeys; cases o.vfbMinimal <;> decide
    have hgl : glyphOf ops asm (id, d) = none := by unfold glyphOf; rw [if_neg hn1]
    rw [hgl, maskMetricsOf_other hn2 hn3]
    exact ⟨hst, rfl⟩
  rw [if_neg hs] at hg hg' ht ht'
  rcases hd with ⟨rfl, rfl⟩ | ⟨d, d', rfl, rfl⟩
  · cases hg; cases hg'; cases ht; cases ht'
    have hgl : glyphOf ops asm (id, none) = none := by unfold glyphOf; split <;> rfl
    have hmm : maskMetricsOf ops asm [(id, none)] = [] := rfl
    rw [hgl, hmm]
    exact ⟨hst, rfl⟩
  dsimp only at hg hg' ht ht'
  by_cases hi : id = 2001
  · subst hi
    rw [if_pos rfl] at hg hg' ht ht'
    have key : ∀ g g' : Glyph ops.Angle asm.Asm, GlyphAt k g g' → d = .glyph g → d' = .glyph g' →
        PartAt k (if (glyphOf ops asm (2001, some d)).isSome then 0 else m + (maskMetricsOf ops asm [(2001, some d)]).length) s s' ∧ t1 = t1' := by
      rintro g g' hgg rfl rfl
      refine ⟨glyphEntry_at hst hgg hg hg', ?_⟩
      rw [filedKey_at hst] at ht
      rw [ht] at ht'
      cases ht'
      rfl
    cases h with
    | same =>
      cases d with
      | glyph g => exact key g g (glyphAt_refl k g) rfl rfl
      | _ => cases hg
    | glyph hgg => exact key _ _ hgg rfl rfl
  · rw [if_neg hi] at hg hg' ht ht'
    have hgl : glyphOf ops asm (id, some d) = none := by unfold glyphOf; rw [if_neg hi]
    rw [hgl]
    have htt : ttEntry ops asm t id d = ttEntry ops asm t id d' := by
      rcases entryAt_same h with he | he
      · cases he; rfl
      · dsimp only at he
        have hx : ∀ d : Decompiled ops.Angle asm.Asm, ttEntry ops asm t id d = .ok t := by
          intro d
          simp only [List.mem_cons, List.not_mem_nil, or_false] at he
          unfold ttEntry
          rw [if_neg (by omega), if_neg (by omega), if_neg (by omega), if_neg (by omega), if_neg (by omega)]
        rw [hx, hx]
    rw [htt] at ht
    rw [ht] at ht'
    cases ht'
    refine ⟨?_, rfl⟩
    show PartAt k (m + (maskMetricsOf ops asm [(id, some d)]).length) s s'
    rcases glyphPart_at h hi with ⟨p1, p2, p3⟩ | ⟨f, f', p1, p2, p3⟩
    · rw [p1] at hg
      rw [p2] at hg'
      cases hg; cases hg'
      rw [p3]
      exact hst
    · rw [p1] at hg
      rw [p2] at hg'
      dsimp only at hg hg'
      rcases bothAnd_cases hst.current with ⟨c1, c2⟩ | ⟨g, g', c1, c2, c3⟩
      · rw [c1] at hg; cases hg
      · rw [c1] at hg
        rw [c2] at hg'
        dsimp only at hg hg'
        cases hf : f g with
        | error e => rw [hf] at hg; cases hg
        | ok x =>
          rw [hf] at hg
          cases hf' : f' g' with
          | error e => rw [hf'] at hg'; cases hg'
          | ok x' =>
            rw [hf'] at hg'
            cases hg; cases hg'
            obtain ⟨q1, q2⟩ := p3 g g' x x' c3 (hst.masks g c1) hf hf'
            exact ⟨hst.order, hst.kerning, hst.masters, .both q1, fun y hy => by cases hy; exact q2⟩

theorem glyphFold_at {o : BuildOpts} {k : Nat} : ∀ {es es' : List (FEntry ops asm)} {m n : Nat}, EntriesAt ops asm k m n es es' →
    ∀ {st st' s s' : GlyphPart ops.Angle asm.Asm} {t t1 t1' : TtPart}, PartAt k m st st' →
      es.foldlM (glyphTtStep ops asm o) (st, t) = .ok (s, t1) → es'.foldlM (glyphTtStep ops asm o) (st', t) = .ok (s', t1') →
      (∃ m', PartAt k m' s s') ∧ t1 = t1'
  | [], [], m, _, _, _, _, _, _, _, _, _, hst, h1, h2 => by cases h1; cases h2; exact ⟨⟨m, hst⟩, rfl⟩
  | [], _ :: _, _, _, h, _, _, _, _, _, _, _, _, _, _ => h.elim
  | _ :: _, [], _, _, h, _, _, _, _, _, _, _, _, _, _ => h.elim
  | e :: es, e' :: es', m, n, h, st, st', s, s', t, t1, t1', hst, h1, h2 => by
    rw [List.foldlM_cons] at h1 h2
    cases hs : glyphTtStep ops asm o (st, t) e with
    | error er => rw [hs] at h1; cases h1
    | ok r =>
      rw [hs] at h1
      cases hs' : glyphTtStep ops asm o (st', t) e' with
      | error er => rw [hs'] at h2; cases h2
      | ok r' =>
        rw [hs'] at h2
        obtain ⟨a, b⟩ := r
        obtain ⟨a', b'⟩ := r'
        obtain ⟨q1, rfl⟩ := glyphTtStep_at h.1 hst hs hs'
        exact glyphFold_at h.2 q1 h1 h2

/-- glyphs and TrueType tables of the two fonts -/
theorem buildGlyphsTt_at {o : BuildOpts} {k : Nat} {es es' : List (FEntry ops asm)} (h : FontsAt ops asm k es es')
    {g g' : GlyphPart ops.Angle asm.Asm} {t t' : TtPart} (h1 : buildGlyphsTt ops asm o es = .ok (g, t)) (h2 : buildGlyphsTt ops asm o es' = .ok (g', t')) :
    g.order = g'.order ∧ DictAt (AtMaster k) g.kerning g'.kerning ∧ DictAt (BGlyphAt k) g.masters g'.masters ∧ t = t' := by
  unfold buildGlyphsTt at h1 h2
  cases hf : es.foldlM (glyphTtStep ops asm o) (⟨none, [], [], []⟩, noTt) with
  | error e => rw [hf] at h1; cases h1
  | ok r =>
    rw [hf] at h1
    cases hf' : es'.foldlM (glyphTtStep ops asm o) (⟨none, [], [], []⟩, noTt) with
    | error e => rw [hf'] at h2; cases h2
    | ok r' =>
      rw [hf'] at h2
      obtain ⟨a, b⟩ := r
      obtain ⟨a', b'⟩ := r'
      obtain ⟨⟨m, q⟩, rfl⟩ := glyphFold_at h ⟨rfl, .nil, .nil, .neither, fun g hg => by cases hg⟩ hf hf'
      cases h1
      cases h2
      unfold lastGlyph
      rcases bothAnd_cases q.current with ⟨c1, c2⟩ | ⟨x, x', c1, c2, c3⟩
      · simp only [c1, c2]
        exact ⟨q.order, q.kerning, q.masters, trivial⟩
      · simp only [c1, c2, Option.map_some, c3.name]
        refine ⟨by rw [q.order], q.kerning, dictAt_set _ c3 q.masters, trivial⟩

/-! ### masters -/

/-- the parts used for the font info agree in master `k`; `n` is the number of PostScript infos -/
structure MastersAt (k n : Nat) (st st' : MastersPart ops.Angle) : Prop where
  masters : st.masters.length = st'.masters.length
  axisCount : st.axisCount = st'.axisCount
  psInfos : AtMaster k st.psInfos st'.psInfos
  number : st.psInfos.length = n
  number' : st'.psInfos.length = n
  counts : st.counts = st'.counts
  guides : BothAnd (GuidesAt k) st.guides st'.guides
  guideProps : st.guideProps = st'.guideProps

theorem masterEntry_at {k m n : Nat} {id : Int} {d d' : Decompiled ops.Angle asm.Asm} (h : EntryAt ops asm k m n (id, some d) (id, some d'))
    {st st' s s' : MastersPart ops.Angle} (hst : MastersAt k n st st') (h1 : masterEntry ops asm st id d = .ok s)
    (h2 : masterEntry ops asm st' id d' = .ok s') : MastersAt k (n + infoCount ops asm (id, some d)) s s' := by
  have count : id ≠ 1536 → infoCount ops asm (id, some d) = 0 := by
    intro hn
    unfold infoCount
    split
    · rw [if_neg hn]
    · rfl
  cases h with
  | same =>
    by_cases c : id = 1254
    · subst c
      rw [count (by decide)]
      cases d <;> first | (cases h1; cases h2; exact { hst with counts := hst.counts }) | cases h1
    by_cases c : id = 1294
    · subst c
      rw [count (by decide)]
      cases d <;> first | (cases h1; cases h2; exact { hst with guides := .both ⟨forall₂_refl (at_refl k) _, forall₂_refl (at_refl k) _⟩ }) | cases h1
    by_cases c : id = 1296
    · subst c
      rw [count (by decide)]
      cases d <;> first | (cases h1; cases h2; exact { hst with guideProps := rfl }) | cases h1
    by_cases c : id = 1503
    · subst c
      rw [count (by decide)]
      cases d <;> first | (cases h1; cases h2; exact { hst with counts := hst.counts }) | cases h1
    by_cases c : id = 1504
    · subst c
      rw [count (by decide)]
      cases d <;> first | (cases h1; cases h2; exact { hst with masters := by dsimp only; simp [hst.masters] }) | cases h1
    by_cases c : id = 1505
    · subst c
      rw [count (by decide)]
      cases d <;> first | (cases h1; cases h2; exact { hst with counts := hst.counts }) | cases h1
    by_cases c : id = 1513
    · subst c
      rw [count (by decide)]
      cases d <;> first | (cases h1; cases h2; exact { hst with axisCount := rfl }) | cases h1
    by_cases c : id = 1514
    · subst c
      rw [count (by decide)]
      cases d <;> first | (cases h1; cases h2; exact { hst with counts := hst.counts }) | cases h1
    by_cases c : id = 1515
    · subst c
      rw [count (by decide)]
      cases d <;> first | (cases h1; cases h2; exact { hst with counts := hst.counts }) | cases h1
    by_cases c : id = 1516
    · subst c
      rw [count (by decide)]
      cases d with
      | axisMappings l =>
        replace h1 : (addAxisMappings st.axisCount st.mapCounts st.axes l >>= fun axes => Except.ok { st with axes := axes }) = Except.ok s := h1
        replace h2 : (addAxisMappings st'.axisCount st'.mapCounts st'.axes l >>= fun axes => Except.ok { st' with axes := axes }) = Except.ok s' := h2
        cases e1 : addAxisMappings st.axisCount st.mapCounts st.axes l with
        | error e => rw [e1] at h1; cases h1
        | ok a =>
          rw [e1] at h1
          cases e2 : addAxisMappings st'.axisCount st'.mapCounts st'.axes l with
          | error e => rw [e2] at h2; cases h2
          | ok a' =>
            rw [e2] at h2
            cases h1; cases h2
            exact { hst with counts := hst.counts }
      | _ => cases h1
    by_cases c : id = 1523
    · subst c
      rw [count (by decide)]
      cases d with
      | aniso l =>
        replace h1 : (checkAniso st.axisCount st.axes l >>= fun _ => Except.ok st) = Except.ok s := h1
        replace h2 : (checkAniso st'.axisCount st'.axes l >>= fun _ => Except.ok st') = Except.ok s' := h2
        cases e1 : checkAniso st.axisCount st.axes l with
        | error e => rw [e1] at h1; cases h1
        | ok a =>
          rw [e1] at h1
          cases e2 : checkAniso st'.axisCount st'.axes l with
          | error e => rw [e2] at h2; cases h2
          | ok a' =>
            rw [e2] at h2
            cases h1; cases h2
            exact hst
      | _ => cases h1
    by_cases c : id ∈ [1530, 1531, 1532, 1533, 1534, 1535]
    · have hn : id ≠ 1536 := by rintro rfl; revert c; decide
      rw [count hn]
      unfold masterEntry at h1 h2
      rw [if_neg (by assumption), if_neg (by assumption), if_neg (by assumption), if_neg (by assumption), if_neg (by assumption), if_neg (by assumption),
        if_neg (by assumption), if_neg (by assumption), if_neg (by assumption), if_neg (by assumption), if_neg (by assumption), if_pos c] at h1 h2
      cases d <;> first | (cases h1; cases h2; exact { hst with counts := by dsimp only; rw [hst.counts] }) | cases h1
    by_cases c : id = 1536
    · subst c
      cases d <;> first
        | (cases h1; cases h2
           exact { hst with
             psInfos := at_append hst.psInfos (by rw [hst.number, hst.number']) (fun _ _ => rfl)
             number := by dsimp only; rw [List.length_append, hst.number]; rfl
             number' := by dsimp only; rw [List.length_append, hst.number']; rfl })
        | cases h1
    rw [count (by assumption)]
    unfold masterEntry at h1 h2
    rw [if_neg (by assumption), if_neg (by assumption), if_neg (by assumption), if_neg (by assumption), if_neg (by assumption), if_neg (by assumption),
      if_neg (by assumption), if_neg (by assumption), if_neg (by assumption), if_neg (by assumption), if_neg (by assumption), if_neg (by assumption),
      if_neg (by assumption)] at h1 h2
    cases h1; cases h2
    exact hst
  | globalGuides hg => cases h1; cases h2; exact { hst with guides := .both hg }
  | psInfo hp =>
    cases h1; cases h2
    exact { hst with
      psInfos := at_append hst.psInfos (by rw [hst.number, hst.number']) (fun j hj => by
        cases j with
        | zero => rw [hp (by rw [← hj, hst.number]; rfl)]
        | succ j => rfl)
      number := by dsimp only; rw [List.length_append, hst.number]; rfl
      number' := by dsimp only; rw [List.length_append, hst.number']; rfl }
  | masterName => cases h1; cases h2; exact { hst with masters := by dsimp only; simp [hst.masters] }
  | masterLocation => cases h1; cases h2; exact { hst with counts := hst.counts }
  | _ => cases h1; cases h2; exact hst

theorem masterFold_at {o : BuildOpts} {k : Nat} : ∀ {es es' : List (FEntry ops asm)} {m n : Nat}, EntriesAt ops asm k m n es es' →
    ∀ {st st' s s' : MastersPart ops.Angle}, MastersAt k n st st' →
      es.foldlM (masterStep ops asm o) st = .ok s → es'.foldlM (masterStep ops asm o) st' = .ok s' → ∃ n', MastersAt k n' s s'
  | [], [], _, n, _, _, _, _, _, hst, h1, h2 => by cases h1; cases h2; exact ⟨n, hst⟩
  | [], _ :: _, _, _, h, _, _, _, _, _, _, _ => h.elim
  | _ :: _, [], _, _, h, _, _, _, _, _, _, _ => h.elim
  | e :: es, e' :: es', m, n, h, st, st', s, s', hst, h1, h2 => by
    rw [List.foldlM_cons] at h1 h2
    cases hs : masterStep ops asm o st e with
    | error er => rw [hs] at h1; cases h1
    | ok r =>
      rw [hs] at h1
      cases hs' : masterStep ops asm o st' e' with
      | error er => rw [hs'] at h2; cases h2
      | ok r' =>
        rw [hs'] at h2
        refine masterFold_at h.2 (st := r) (st' := r') ?_ h1 h2
        have he := h.1
        obtain ⟨id, d⟩ := e
        obtain ⟨id', d'⟩ := e'
        obtain ⟨hid, hd⟩ := entryAt_cases he
        dsimp only at hid hd
        subst hid
        unfold masterStep at hs hs'
        dsimp only at hs hs'
        by_cases hk : id ∈ skipKeys o
        · rw [if_pos hk] at hs hs'
          cases hs; cases hs'
          have hn : id ≠ 1536 := by rintro rfl; revert hk; unfold skipKeys minimalKeys; cases o.vfbMinimal <;> decide
          have : infoCount ops asm (id, d) = 0 := by
            unfold infoCount
            split
            · rw [if_neg hn]
            · rfl
          rw [this]
          exact hst
        rw [if_neg hk] at hs hs'
        rcases hd with ⟨rfl, rfl⟩ | ⟨d, d', rfl, rfl⟩
        · cases hs; cases hs'; exact hst
        · exact masterEntry_at he hst hs hs'

theorem buildMasters_at {o : BuildOpts} {k : Nat} {es es' : List (FEntry ops asm)} (h : FontsAt ops asm k es es')
    {m m' : MastersPart ops.Angle} (h1 : buildMasters ops asm o es = .ok m) (h2 : buildMasters ops asm o es' = .ok m') : ∃ n, MastersAt k n m m' := by
  unfold buildMasters at h1 h2
  cases hf : es.foldlM (masterStep ops asm o) (noMasters ops.Angle) with
  | error e => rw [hf] at h1; cases h1
  | ok r =>
    rw [hf] at h1
    cases hf' : es'.foldlM (masterStep ops asm o) (noMasters ops.Angle) with
    | error e => rw [hf'] at h2; cases h2
    | ok r' =>
      rw [hf'] at h2
      obtain ⟨n, q⟩ := masterFold_at h ⟨rfl, rfl, rfl, rfl, rfl, rfl, .neither, rfl⟩ hf hf'
      cases h1
      cases h2
      exact ⟨n, { q with masters := by dsimp only; rw [q.axisCount]; rw [fixMasters_length, fixMasters_length, q.masters] }⟩

theorem masterInfo_at {o : BuildOpts} {k n : Nat} {m m' : MastersPart ops.Angle} (h : MastersAt k n m m') (info : Attrs) :
    masterInfo ops deg o m info (k : Int) = masterInfo ops deg o m' info (k : Int) := by
  unfold masterInfo
  rw [pyIndex_at h.psInfos, h.counts, h.guideProps]
  rcases bothAnd_cases h.guides with ⟨c1, c2⟩ | ⟨x, x', c1, c2, c3⟩ <;> rw [c1, c2]
  dsimp only
  rw [ufoGuides_at c3]

/-! ### what does not depend on masters -/

theorem fold_same {σ : Type} {k : Nat} (f : σ → FEntry ops asm → Except PyErr σ)
    (hf : ∀ st (e : FEntry ops asm), e.1 ∈ [2001, 2009, 2011, 2028, 2029, 1294, 1536, 1504, 1505] → f st e = .ok st) :
    ∀ {es es' : List (FEntry ops asm)} {m n : Nat}, EntriesAt ops asm k m n es es' → ∀ st, es.foldlM f st = es'.foldlM f st
  | [], [], _, _, _, _ => rfl
  | [], _ :: _, _, _, h, _ => h.elim
  | _ :: _, [], _, _, h, _ => h.elim
  | e :: es, e' :: es', m, n, h, st => by
    rw [List.foldlM_cons, List.foldlM_cons]
    have he : f st e = f st e' := by
      rcases entryAt_same h.1 with he | he
      · rw [he]
      · rw [hf _ _ he, hf _ _ (by rw [← (entryAt_cases h.1).1]; exact he)]
    rw [he]
    congr 1
    funext st
    exact fold_same f hf h.2 st

theorem buildFeatures_at {o : BuildOpts} {k : Nat} {es es' : List (FEntry ops asm)} (h : FontsAt ops asm k es es') :
    buildFeatures ops asm o es = buildFeatures ops asm o es' := by
  unfold buildFeatures
  refine fold_same _ (fun st e he => featureStep_other ops asm o st e fun hc => ?_) h _
  have := hc.1
  simp only [classIds, List.mem_cons, List.not_mem_nil, or_false] at this he
  omega

theorem buildInfo_at {o : BuildOpts} {k : Nat} {es es' : List (FEntry ops asm)} (h : FontsAt ops asm k es es') :
    buildInfo fmt ops asm o es = buildInfo fmt ops asm o es' := by
  unfold buildInfo
  rw [fold_same _ (fun st e he => infoStep_other ops asm fmt o st e fun hc => ?_) h]
  have := hc.1
  exact (by decide +kernel : ∀ i ∈ [2001, 2009, 2011, 2028, 2029, 1294, 1536, 1504, 1505], i ∉ infoIds) _ he this

theorem ufoMaster_at {o : UfoOpts} {depth k n : Nat} {b b' : Built ops.Angle asm.Asm} {s s' : SharedData}
    (hg : b.glyphs.order = b'.glyphs.order ∧ DictAt (BGlyphAt k) b.glyphs.masters b'.glyphs.masters) (hc : b.cmds = b'.cmds) (ht : b.tt = b'.tt)
    (hm : MastersAt k n b.masters b'.masters) (hi : b.info = b'.info) (hk : s.kerning.masterKerning k = s'.kerning.masterKerning k)
    (hs : s.text = s'.text ∧ s.groups = s'.groups ∧ s.groupOrder = s'.groupOrder ∧ s.keyGlyphs = s'.keyGlyphs) (font : LabelFont) :
    ufoMaster ops deg asm o depth b s font k = ufoMaster ops deg asm o depth b' s' font k := by
  unfold ufoMaster
  rw [hk, hi, masterInfo_at hm, masterGlyphs_at hg.1 hc hg.2, hs.1, hs.2.1]
  have : fontLib ops asm b s = fontLib ops asm b' s' := by
    unfold fontLib
    rw [hg.1, hs.2.2.1, hs.2.2.2, hi, ht]
  rw [this]

/-- **C107** Two fonts that differ at most in the values for other masters than master `k` (nodes, metrics, hints, guides, components,
kerning, anchors, masks, global guides, PostScript infos, names and locations of the masters): if both can be converted, they give the
same number of UFOs, and the UFO of master `k` is the same. -/
theorem C107_master_alone {o : UfoOpts} {depth k : Nat} {es es' : List (FEntry ops asm)} (h : FontsAt ops asm k es es')
    {ufos ufos' : List (UfoFont asm.Asm)} (h1 : convert ops deg asm fmt o depth es = .ok ufos)
    (h2 : convert ops deg asm fmt o depth es' = .ok ufos') : ufos.length = ufos'.length ∧ ufos[k]? = ufos'[k]? := by
  obtain ⟨b, s, st, a1, a2, a3, a4, a5, a6, a7, a8, a9⟩ := convert_cases h1
  obtain ⟨b', s', st', c1, c2, c3, c4, c5, c6, c7, c8, c9⟩ := convert_cases h2
  obtain ⟨g1, g2, g3, g4⟩ := buildGlyphsTt_at h a1 c1
  obtain ⟨n, hm⟩ := buildMasters_at h a3 c3
  have hlen : ufos.length = ufos'.length := by rw [a7, c7, hm.masters]
  refine ⟨hlen, ?_⟩
  have hf : b.features = b'.features := by rw [buildFeatures_at h, c4] at a4; injection a4 with a4; exact a4.symm
  have hi : b.info = b'.info := by rw [buildInfo_at h, c5] at a5; injection a5 with a5; exact a5.symm
  rw [g4, freshLabels_at g1 g3, ttGlyphLib_at (sortedGlyphs_at g3), c2] at a2
  have hcl : b.cmds = b'.cmds ∧ b.labels = b'.labels := by
    injection a2 with a2
    injection a2 with x y
    exact ⟨x.symm, y.symm⟩
  obtain ⟨hc, hl⟩ := hcl
  unfold sharedData at a6 c6
  rw [hf, g1] at a6
  dsimp only at a6 c6
  cases hu : ufoKerning b'.glyphs.order (transformGroups b'.features.groups b'.features.flags b'.glyphs.order o.build.minimal).groups b.glyphs.kerning
      (transformGroups b'.features.groups b'.features.flags b'.glyphs.order o.build.minimal).keys with
  | error e => rw [hu] at a6; cases a6
  | ok u =>
  cases hu' : ufoKerning b'.glyphs.order (transformGroups b'.features.groups b'.features.flags b'.glyphs.order o.build.minimal).groups b'.glyphs.kerning
      (transformGroups b'.features.groups b'.features.flags b'.glyphs.order o.build.minimal).keys with
  | error e => rw [hu'] at c6; cases c6
  | ok u' =>
  rw [hu] at a6
  rw [hu'] at c6
  obtain ⟨k1, k2, k3, k4, k5⟩ := ufoKerning_at g2 hu hu'
  have hk := masterKerning_at k2 k3 k4 k5
  have hss : s.kerning = u ∧ s'.kerning = u' ∧ s.text = s'.text ∧ s.groups = s'.groups ∧ s.groupOrder = s'.groupOrder ∧ s.keyGlyphs = s'.keyGlyphs := by
    injection a6 with a6
    injection c6 with c6
    rw [← a6, ← c6]
    exact ⟨rfl, rfl, rfl, by dsimp only; rw [k1], rfl, rfl⟩
  -- the labels before each master
  have hst : ∀ i : Nat, i ≤ ufos.length → st i = st' i := by
    intro i
    induction i with
    | zero => intro _; rw [a8, c8, hl]
    | succ i ih =>
      intro hi'
      obtain ⟨x, hx⟩ : ∃ x, ufos[i]? = some x := ⟨_, List.getElem?_eq_getElem (by omega)⟩
      obtain ⟨x', hx'⟩ : ∃ x, ufos'[i]? = some x := ⟨_, List.getElem?_eq_getElem (by omega)⟩
      obtain ⟨-, -, r1, -⟩ := ufoMaster_cases (a9 i x hx)
      obtain ⟨-, -, r2, -⟩ := ufoMaster_cases (c9 i x' hx')
      have r1 := masterGlyphs_run r1
      have r2 := masterGlyphs_run r2
      rw [ih (by omega), glyphTags_at g3] at r1
      exact labelRun_unique r1 r2
  by_cases hlt : k < ufos.length
  · obtain ⟨x, hx⟩ : ∃ x, ufos[k]? = some x := ⟨_, List.getElem?_eq_getElem hlt⟩
    obtain ⟨x', hx'⟩ : ∃ x, ufos'[k]? = some x := ⟨_, List.getElem?_eq_getElem (by omega)⟩
    have e1 := a9 k x hx
    have e2 := c9 k x' hx'
    rw [ufoMaster_at ⟨g1, g3⟩ hc g4 hm hi (by rw [hss.1, hss.2.1, hk]) hss.2.2, hst k (by omega), e2] at e1
    injection e1 with e1
    injection e1 with e1
    rw [hx, hx', e1]
  · rw [List.getElem?_eq_none (by omega), List.getElem?_eq_none (by omega)]

end

/-! ### an example -/

/-- `exampleConvertFont` with other values for the second master: its name, hints, kerning, the metrics, a component, the PostScript info -/
def exampleOtherMaster : List (FEntry exampleAngles exampleAsm) :=
  exampleConvertFont.set 3 (1504, some (.str (lit "Black"))) |>.set 9 (2001, some (.glyph { exampleGlyph with
      components := none
      metrics := exampleGlyph.metrics.map fun l => l.set 1 (650, 0)
      hints := some ⟨[[(0, 10), (7, 30)]], [], some [(lit "h", 0), (lit "r", -1), (lit "h", 0)]⟩
      kerning := some [(2, [-10, -99])]
      tth := none })) |>.set 11 (2001, some (.glyph { exampleGlyph with
      nodes := some []
      hints := none
      components := some [⟨0, [1, 50], [3, 60], [⟨0x3FF0000000000000⟩, ⟨0x3FF0000000000000⟩], [⟨0x3FF0000000000000⟩, ⟨0x3FF0000000000000⟩]⟩]
      kerning := some [(2, [-10, -99])]
      tth := none })) |>.set 16 (1536, some (.psInfo (examplePs 22)))

theorem exampleOtherMaster_at : FontsAt exampleAngles exampleAsm 0 exampleConvertFont exampleOtherMaster := by
  refine ⟨.same _, .same _, .same _, .masterName, .same _, .same _, .same _, .same _, .same _, .glyph ?_, .same _, .glyph ?_, .same _, .same _,
    .same _, .same _, .psInfo (fun h => by revert h; decide +kernel), trivial⟩
  · exact ⟨rfl, bothAnd_refl (forall₂_refl fun _ => ⟨rfl, rfl, rfl⟩) _, .both rfl,
      .both ⟨.cons rfl .nil, .nil, rfl⟩, bothAnd_refl (fun _ => ⟨forall₂_refl (at_refl 0) _, forall₂_refl (at_refl 0) _⟩) _, .neither,
      .both (.cons ⟨rfl, rfl⟩ .nil), rfl, rfl⟩
  · exact ⟨rfl, .both .nil, bothAnd_refl (at_refl 0) _, .neither,
      bothAnd_refl (fun _ => ⟨forall₂_refl (at_refl 0) _, forall₂_refl (at_refl 0) _⟩) _, .both (.cons ⟨rfl, rfl, rfl, rfl, rfl⟩ .nil),
      .both (.cons ⟨rfl, rfl⟩ .nil), rfl, rfl⟩

theorem exampleOtherMaster_convert :
    (convert exampleAngles (fun _ => 0) exampleAsm exampleFmt exampleConvertOpts 10 exampleOtherMaster).toOption.map (fun l => l.map convertSummary) =
    some [([(lit "A", 500, []), (lit "A#0", 500, [(lit "A", 1)]), (lit "B", 500, [])], some (.int 700), 1, 1),
      ([(lit "A", 650, []), (lit "A#0", 600, [(lit "A", 50)]), (lit "B", 600, [])], some (.int 722), 1, 1)] := by decide +kernel

/-- both fonts of the example are converted, and the UFOs of the first master are the same -/
example : ∃ u v v' : UfoFont exampleAsm.Asm,
    convert exampleAngles (fun _ => 0) exampleAsm exampleFmt exampleConvertOpts 10 exampleConvertFont = .ok [u, v] ∧
    convert exampleAngles (fun _ => 0) exampleAsm exampleFmt exampleConvertOpts 10 exampleOtherMaster = .ok [u, v'] ∧
    convertSummary v ≠ convertSummary v' := by
  have hx : (convert exampleAngles (fun _ => 0) exampleAsm exampleFmt exampleConvertOpts 10 exampleConvertFont).toOption.map (fun l => l.map convertSummary) =
    some [([(lit "A", 500, []), (lit "A#0", 500, [(lit "A", 1)]), (lit "B", 500, [])], some (.int 700), 1, 1),
      ([(lit "A", 600, []), (lit "A#0", 600, [(lit "A", 2)]), (lit "B", 600, [])], some (.int 711), 1, 1)] := by decide +kernel
  have two : ∀ {r : Except PyErr (List (UfoFont exampleAsm.Asm))} {a b : ConvertSummary}, r.toOption.map (fun l => l.map convertSummary) = some [a, b] →
      ∃ u v, r = .ok [u, v] ∧ convertSummary u = a ∧ convertSummary v = b := by
    intro r a b h
    cases r with
    | error e => cases h
    | ok ufos =>
      simp only [Except.toOption, Option.map_some, Option.some.injEq] at h
      obtain ⟨u, v, rfl, h1, h2⟩ := map_two h
      exact ⟨u, v, rfl, h1, h2⟩
  obtain ⟨u, v, c1, -, c2⟩ := two hx
  obtain ⟨u', v', d1, -, d2⟩ := two exampleOtherMaster_convert
  have := (C107_master_alone exampleOtherMaster_at c1 d1).2
  injection this with this
  refine ⟨u, v, v', c1, by rw [this]; exact d1, ?_⟩
  rw [c2, d2]
  decide +kernel

end Verif.Props
