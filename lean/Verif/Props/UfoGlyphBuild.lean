import Verif.Props.UfoGlyph
import Verif.Props.Glyph
/-! C64, C66: when the conversion succeeds, and what it does to the data of the file. -/
set_option autoImplicit false
namespace Verif.Props
open Verif Verif.Spec

section
variable (ops : AngleOps) (asm : AsmOps)

/-- the parts of a glyph that are needed are there -/
def Complete (g : Glyph ops.Angle asm.Asm) : Prop := g.name.isSome ∧ g.metrics.isSome ∧ g.nodes.isSome

/-- an entry that is about the glyph before it -/
def NeedsGlyph (o : BuildOpts) (e : FEntry ops asm) : Prop :=
  e.1 ∈ glyphPartIds ∧ e.1 ∉ skipKeys o ∧ ∃ d, e.2 = some d ∧ ∀ x, e.1 = 2018 → d = .gdef x → x.anchors ≠ none

theorem newGlyph_complete {o : BuildOpts} (g : Glyph ops.Angle asm.Asm) :
    (Complete ops asm g ∧ ∃ b, newGlyph ops asm o g = .ok b) ∨ (¬ Complete ops asm g ∧ newGlyph ops asm o g = .error .key) := by
  unfold newGlyph Complete
  cases g.name <;> cases g.metrics <;> cases g.nodes <;> simp

set_option maxHeartbeats 1000000 in
/-- entries of the right type always fit into the glyph -/
theorem part_ok {id : Int} {d : Decompiled ops.Angle asm.Asm} {f : BGlyph ops.Angle asm.Asm → Except PyErr (BGlyph ops.Angle asm.Asm)}
    (hw : WellTyped ops asm (id, some d)) (hf : glyphPart ops asm id d = some f) (g : BGlyph ops.Angle asm.Asm) : ∃ g', f g = .ok g' := by
  have hid := glyphPart_ids ops asm hf
  simp only [glyphPartIds, List.mem_cons, List.not_mem_nil, or_false] at hid
  rcases hid with rfl | rfl | rfl | rfl | rfl | rfl | rfl | rfl | rfl | rfl | rfl | rfl | rfl | rfl | rfl
  all_goals
    first
    | (have h1 := hw _ d (show kindOf 2023 = some .valueList from by decide +kernel) rfl)
    | (have h1 := hw _ d (show kindOf 1250 = some .unicodes from by decide +kernel) rfl)
    | (have h1 := hw _ d (show kindOf 1253 = some .unicodesSupp from by decide +kernel) rfl)
    | (have h1 := hw _ d (show kindOf 2008 = some .links from by decide +kernel) rfl)
    | (have h1 := hw _ d (show kindOf 2007 = some .background from by decide +kernel) rfl)
    | (have h1 := hw _ d (show kindOf 2013 = some .bitmaps from by decide +kernel) rfl)
    | (have h1 := hw _ d (show kindOf 2009 = some .mask from by decide +kernel) rfl)
    | (have h1 := hw _ d (show kindOf 2011 = some .maskMetrics from by decide +kernel) rfl)
    | (have h1 := hw _ d (show kindOf 2028 = some .maskMetricsMM from by decide +kernel) rfl)
    | (have h1 := hw _ d (show kindOf 2012 = some .int16 from by decide +kernel) rfl)
    | (have h1 := hw _ d (show kindOf 2015 = some .string from by decide +kernel) rfl)
    | (have h1 := hw _ d (show kindOf 2017 = some .string from by decide +kernel) rfl)
    | (have h1 := hw _ d (show kindOf 2018 = some .gdef from by decide +kernel) rfl)
    | (have h1 := hw _ d (show kindOf 2029 = some .anchors from by decide +kernel) rfl)
    | (have h1 := hw _ d (show kindOf 2031 = some .guideProps from by decide +kernel) rfl)
    clear hw
    cases d <;> first
      | (simp [Kind.cls] at h1; done)
      | (simp [glyphPart] at hf; subst hf; exact ⟨_, rfl⟩)
      | (simp [glyphPart] at hf; obtain ⟨_, _, hf⟩ := hf; subst hf; exact ⟨_, rfl⟩)

/-- which entries need a glyph -/
theorem part_some {o : BuildOpts} {e : FEntry ops asm} {d : Decompiled ops.Angle asm.Asm} (hd : e.2 = some d) (hs : e.1 ∉ skipKeys o)
    (hw : WellTyped ops asm e) : (∃ f, glyphPart ops asm e.1 d = some f) ↔ NeedsGlyph ops asm o e := by
  constructor
  · rintro ⟨f, hf⟩
    refine ⟨glyphPart_ids ops asm hf, hs, d, hd, ?_⟩
    intro x hx hdx hn
    subst hdx
    rw [hx] at hf
    simp [glyphPart, hn] at hf
  · rintro ⟨hid, _, d', hd', hg⟩
    rw [hd] at hd'
    injection hd' with hd'
    subst hd'
    by_cases h2 : e.1 = 2018
    · have h1 := hw _ d (show kindOf e.1 = some .gdef from by rw [h2]; decide +kernel) hd
      cases d <;> first
        | (simp [Kind.cls] at h1; done)
        | skip
      rename_i x
      cases hx : x.anchors with
      | none => exact absurd hx (hg x h2 rfl)
      | some l =>
        rw [h2]
        rw [← Option.isSome_iff_exists]
        simp [glyphPart, hx]
    · simp only [glyphPartIds, List.mem_cons, List.not_mem_nil, or_false] at hid
      rcases hid with h | h | h | h | h | h | h | h | h | h | h | h | h | h | h
      all_goals
        rw [h]
        first
        | exact absurd h h2
        | (rw [← Option.isSome_iff_exists]; simp [glyphPart]; done)

theorem glyphOf_typed {e : FEntry ops asm} (hw : WellTyped ops asm e) {d : Decompiled ops.Angle asm.Asm} (hd : e.2 = some d) (h1 : e.1 = 2001) :
    ∃ g, d = .glyph g ∧ glyphOf ops asm e = some g := by
  have h2 := hw _ d (show kindOf e.1 = some .glyph from by rw [h1]; decide +kernel) hd
  cases d <;> first
    | (simp [Kind.cls] at h2; done)
    | (exact ⟨_, rfl, by unfold glyphOf; rw [if_pos h1, hd]⟩)

/-- one entry: succeeds if the glyph is complete and an entry about a glyph comes after a glyph -/
theorem step_spec {o : BuildOpts} {e : FEntry ops asm} (hw : WellTyped ops asm e) (st : GlyphPart ops.Angle asm.Asm) :
    (∃ g, glyphOf ops asm e = some g ∧ ¬ Complete ops asm g ∧ glyphStep ops asm o st e = .error .key) ∨
    (NeedsGlyph ops asm o e ∧ st.current = none ∧ glyphStep ops asm o st e = .error .assertion) ∨
    ((∀ g, glyphOf ops asm e = some g → Complete ops asm g) ∧ (NeedsGlyph ops asm o e → st.current ≠ none) ∧
      ∃ st', glyphStep ops asm o st e = .ok st' ∧ (st'.current = none ↔ st.current = none ∧ glyphOf ops asm e = none)) := by
  unfold glyphStep
  by_cases hs : e.1 ∈ skipKeys o
  · rw [if_pos hs]
    have hg : glyphOf ops asm e = none := by
      unfold glyphOf
      rw [if_neg (never_skipped hs).1]
    refine .inr (.inr ⟨fun g h => (by rw [hg] at h; cases h), fun h => absurd hs h.2.1, st, rfl, ?_⟩)
    simp [hg]
  rw [if_neg hs]
  cases hd : e.2 with
  | none =>
    have hg : glyphOf ops asm e = none := by
      unfold glyphOf
      rw [hd]
      simp
    refine .inr (.inr ⟨fun g h => (by rw [hg] at h; cases h), ?_, st, rfl, ?_⟩)
    · rintro ⟨_, _, d, h, _⟩
      rw [hd] at h
      cases h
    · simp [hg]
  | some d =>
    simp only
    by_cases h1 : e.1 = 2001
    · rw [if_pos h1]
      obtain ⟨g, rfl, hg⟩ := glyphOf_typed ops asm hw hd h1
      simp only
      rcases newGlyph_complete ops asm (o := o) g with ⟨hc, b, hb⟩ | ⟨hc, hb⟩
      · refine .inr (.inr ⟨fun g' h => (by rw [hg] at h; injection h with h; subst h; exact hc), ?_, _, (by unfold glyphEntry; rw [hb]; rfl), ?_⟩)
        · rintro ⟨h, _⟩
          rw [h1] at h
          exact absurd h (by decide)
        · simp [hg]
      · exact .inl ⟨g, hg, hc, by unfold glyphEntry; rw [hb]; rfl⟩
    · rw [if_neg h1]
      have hg : glyphOf ops asm e = none := by
        unfold glyphOf
        rw [if_neg h1]
      have hiff := part_some ops asm hd hs hw
      cases hf : glyphPart ops asm e.1 d with
      | none =>
        rw [hf] at hiff
        refine .inr (.inr ⟨fun g h => (by rw [hg] at h; cases h), ?_, st, rfl, ?_⟩)
        · intro h
          obtain ⟨f, hf'⟩ := hiff.2 h
          cases hf'
        · simp [hg]
      | some f =>
        simp only
        cases hc : st.current with
        | none => exact .inr (.inl ⟨hiff.1 ⟨f, hf⟩, rfl, rfl⟩)
        | some g =>
          have hw' : WellTyped ops asm (e.1, some d) := by rw [← hd]; exact hw
          obtain ⟨g', hg'⟩ := part_ok ops asm hw' hf g
          refine .inr (.inr ⟨fun g h => (by rw [hg] at h; cases h), fun _ => by simp, _, (by simp only [hg']; rfl), ?_⟩)
          simp

/-- the entries before the first glyph -/
def beforeGlyphs (es : List (FEntry ops asm)) : List (FEntry ops asm) := es.takeWhile fun e => (glyphOf ops asm e).isNone

theorem fold_success {o : BuildOpts} : ∀ (es : List (FEntry ops asm)) (st : GlyphPart ops.Angle asm.Asm), (∀ e ∈ es, WellTyped ops asm e) →
    ((∃ st', es.foldlM (glyphStep ops asm o) st = .ok st') ↔
      (∀ e ∈ es, ∀ g, glyphOf ops asm e = some g → Complete ops asm g) ∧
      (st.current = none → ∀ e ∈ beforeGlyphs ops asm es, ¬ NeedsGlyph ops asm o e)) ∧
    (∀ er, es.foldlM (glyphStep ops asm o) st = .error er → er = .key ∨ er = .assertion) := by
  intro es
  induction es with
  | nil =>
    intro st _
    refine ⟨⟨fun _ => ⟨by simp, by simp [beforeGlyphs]⟩, fun _ => ⟨st, rfl⟩⟩, ?_⟩
    intro er h
    cases h
  | cons e es ih =>
    intro st hw
    have hwe := hw e (by simp)
    rw [List.foldlM_cons]
    rcases step_spec ops asm (o := o) hwe st with ⟨g, hg, hc, h⟩ | ⟨hn, hcur, h⟩ | ⟨h1, h2, st', h, hcur⟩
    · rw [h]
      refine ⟨⟨?_, ?_⟩, ?_⟩
      · rintro ⟨st', h⟩; cases h
      · rintro ⟨h, _⟩; exact absurd (h e (by simp) g hg) hc
      · intro er h; cases h; exact .inl rfl
    · rw [h]
      refine ⟨⟨?_, ?_⟩, ?_⟩
      · rintro ⟨st', h⟩; cases h
      · rintro ⟨_, h⟩
        exfalso
        refine h hcur e ?_ hn
        have hg : glyphOf ops asm e = none := by
          unfold glyphOf
          have : e.1 ≠ 2001 := by intro h; have := hn.1; rw [h] at this; exact absurd this (by decide)
          rw [if_neg this]
        unfold beforeGlyphs
        rw [List.takeWhile_cons, hg]
        simp
      · intro er h; cases h; exact .inr rfl
    · rw [h]
      obtain ⟨ih1, ih2⟩ := ih st' fun e he => hw e (by simp [he])
      refine ⟨?_, ih2⟩
      refine ih1.trans ⟨?_, ?_⟩
      · rintro ⟨a, b⟩
        refine ⟨fun e' he' => ?_, fun hcu e' he' => ?_⟩
        · rcases List.mem_cons.1 he' with rfl | he'
          · exact h1
          · exact a e' he'
        · unfold beforeGlyphs at he'
          rw [List.takeWhile_cons] at he'
          cases hg : glyphOf ops asm e with
          | some g => rw [hg] at he'; simp at he'
          | none =>
            rw [hg] at he'
            simp only [Option.isNone_none, if_true] at he'
            rcases List.mem_cons.1 he' with rfl | he'
            · exact fun hn => h2 hn hcu
            · exact b (hcur.2 ⟨hcu, hg⟩) e' he'
      · rintro ⟨a, b⟩
        refine ⟨fun e' he' => a e' (by simp [he']), fun hcu e' he' => ?_⟩
        obtain ⟨hc1, hc2⟩ := hcur.1 hcu
        refine b hc1 e' ?_
        unfold beforeGlyphs
        rw [List.takeWhile_cons, hc2]
        simp only [Option.isNone_none, if_true]
        exact List.mem_cons_of_mem _ he'

/-- **C64** With data of the right types, the glyphs can be built exactly if each "Glyph" entry has got a name, metrics and nodes,
and no entry about a glyph comes before the first glyph; otherwise the exception is a KeyError or an AssertionError. -/
theorem C64_success {o : BuildOpts} (es : List (FEntry ops asm)) (hw : ∀ e ∈ es, WellTyped ops asm e) :
    ((∃ st, buildGlyphs ops asm o es = .ok st) ↔
      (∀ b ∈ blocks ops asm es, Complete ops asm b.1) ∧ ∀ e ∈ beforeGlyphs ops asm es, ¬ NeedsGlyph ops asm o e) ∧
    ∀ er, buildGlyphs ops asm o es = .error er → er = .key ∨ er = .assertion := by
  have hb : ∀ es : List (FEntry ops asm), (∀ b ∈ blocks ops asm es, Complete ops asm b.1) ↔ ∀ e ∈ es, ∀ g, glyphOf ops asm e = some g → Complete ops asm g := by
    intro es
    induction es with
    | nil => simp [blocks]
    | cons e es ih =>
      rw [blocks]
      cases hg : glyphOf ops asm e with
      | none => simp only [List.forall_mem_cons, ih, hg]; simp
      | some g => simp only [List.forall_mem_cons, ih, hg]; simp
  obtain ⟨h1, h2⟩ := fold_success ops asm (o := o) es ⟨none, [], [], []⟩ hw
  rw [hb]
  unfold buildGlyphs
  constructor
  · rw [show (∀ e ∈ beforeGlyphs ops asm es, ¬ NeedsGlyph ops asm o e) ↔
      ((⟨none, [], [], []⟩ : GlyphPart ops.Angle asm.Asm).current = none → ∀ e ∈ beforeGlyphs ops asm es, ¬ NeedsGlyph ops asm o e) by simp, ← h1]
    constructor
    · rintro ⟨st, h⟩
      cases hf : es.foldlM (glyphStep ops asm o) ⟨none, [], [], []⟩ with
      | error er => rw [hf] at h; cases h
      | ok st' => exact ⟨st', rfl⟩
    · rintro ⟨st, h⟩
      rw [h]
      exact ⟨_, rfl⟩
  · intro er h
    cases hf : es.foldlM (glyphStep ops asm o) ⟨none, [], [], []⟩ with
    | error er' => rw [hf] at h; injection h with h; subst h; exact h2 _ hf
    | ok st' => rw [hf] at h; cases h

/-! ### what is left of the entries -/

/-- the glyph without hint masks, if these are converted -/
def strip (o : BuildOpts) (g : BGlyph ops.Angle asm.Asm) : BGlyph ops.Angle asm.Asm := { g with hintmasks := if o.pshints then [] else g.hintmasks }

/-- all glyphs without hint masks -/
def stripAll (o : BuildOpts) (st : GlyphPart ops.Angle asm.Asm) : GlyphPart ops.Angle asm.Asm :=
  { st with current := st.current.map (strip ops asm o), masters := st.masters.map fun x => (x.1, strip ops asm o x.2) }

theorem dictGet_mapVal {α β : Type} (f : α → β) (d : List (PyStr × α)) (k : PyStr) :
    dictGet (d.map fun x => (x.1, f x.2)) k = (dictGet d k).map f := by
  induction d with
  | nil => rfl
  | cons x d ih =>
    obtain ⟨a, b⟩ := x
    simp only [List.map_cons, dictGet]
    split
    · rfl
    · exact ih

theorem dictSet_mapVal {α β : Type} (f : α → β) (d : List (PyStr × α)) (k : PyStr) (v : α) :
    dictSet (d.map fun x => (x.1, f x.2)) k (f v) = (dictSet d k v).map fun x => (x.1, f x.2) := by
  induction d with
  | nil => rfl
  | cons x d ih =>
    obtain ⟨a, b⟩ := x
    simp only [List.map_cons, dictSet]
    split
    · rfl
    · rw [ih]; rfl

theorem freeGlyphName_mapVal {α β : Type} (f : α → β) (d : List (PyStr × α)) (n : PyStr) :
    freeGlyphName (d.map fun x => (x.1, f x.2)) n = freeGlyphName d n := by
  unfold freeGlyphName
  simp only [dictGet_mapVal, Option.isSome_map]

theorem fileGlyph_strip (o : BuildOpts) (st : GlyphPart ops.Angle asm.Asm) :
    fileGlyph ops asm (stripAll ops asm o st) = stripAll ops asm o (fileGlyph ops asm st) := by
  cases st with
  | mk cur masters order kerning =>
    cases cur with
    | none => rfl
    | some g =>
      have hn : (strip ops asm o g).name = g.name := rfl
      simp only [fileGlyph, stripAll, Option.map_some, hn, dictGet_mapVal, Option.isSome_map, freeGlyphName_mapVal]
      cases dictGet masters g.name with
      | none => simp only [Option.isSome_none, Bool.false_eq_true, if_false]; rw [← dictSet_mapVal]; rfl
      | some y =>
        simp only [Option.isSome_some, if_true]
        cases freeGlyphName masters g.name with
        | none => rfl
        | some n => simp only; rw [← dictSet_mapVal]; rfl

set_option maxHeartbeats 1000000 in
theorem part_strip {o : BuildOpts} {id : Int} {d : Decompiled ops.Angle asm.Asm}
    {f : BGlyph ops.Angle asm.Asm → Except PyErr (BGlyph ops.Angle asm.Asm)}
    (hf : glyphPart ops asm id d = some f) (g : BGlyph ops.Angle asm.Asm) : f (strip ops asm o g) = (f g).map (strip ops asm o) := by
  have hid := glyphPart_ids ops asm hf
  simp only [glyphPartIds, List.mem_cons, List.not_mem_nil, or_false] at hid
  rcases hid with rfl | rfl | rfl | rfl | rfl | rfl | rfl | rfl | rfl | rfl | rfl | rfl | rfl | rfl | rfl
  all_goals
    cases d <;> first
      | (simp [glyphPart] at hf; subst hf; rfl)
      | (simp [glyphPart] at hf; obtain ⟨_, _, hf⟩ := hf; subst hf; rfl)

/-- an entry is as before for the glyphs, except for the hint masks -/
theorem after_cases (o : BuildOpts) (e : FEntry ops asm) :
    afterBuild ops asm o e = e ∨
    (e.1 ∉ skipKeys o ∧ e.1 = 2001 ∧ o.pshints = true ∧ ∃ g, e.2 = some (.glyph g) ∧
      (afterBuild ops asm o e) = (e.1, some (.glyph { g with hints := g.hints.map fun h => { h with hintmasks := none } }))) ∨
    (e.1 ∉ skipKeys o ∧ e.1 = 2007 ∧ ∃ b, e.2 = some (.background b) ∧ afterBuild ops asm o e = (e.1, some (.background (withoutPreview b)))) := by
  unfold afterBuild
  by_cases hs : e.1 ∈ skipKeys o
  · rw [if_pos hs]; exact .inl rfl
  rw [if_neg hs]
  cases hd : e.2 with
  | none => exact .inl rfl
  | some d =>
    cases d
    case glyph g =>
      simp only
      by_cases h : e.1 = 2001 ∧ o.pshints = true
      · rw [if_pos h]
        exact .inr (.inl ⟨hs, h.1, h.2, g, rfl, rfl⟩)
      · rw [if_neg h]; exact .inl rfl
    case background b =>
      simp only
      by_cases h : e.1 = 2007
      · rw [if_pos h]
        exact .inr (.inr ⟨hs, h, b, rfl, rfl⟩)
      · rw [if_neg h]; exact .inl rfl
    all_goals exact .inl rfl

theorem strip_step (o : BuildOpts) (st : GlyphPart ops.Angle asm.Asm) (e : FEntry ops asm) :
    glyphStep ops asm o (stripAll ops asm o st) (afterBuild ops asm o e) = (glyphStep ops asm o st e).map (stripAll ops asm o) := by
  have hglyph : ∀ (g g' : Glyph ops.Angle asm.Asm), g'.name = g.name → g'.kerning = g.kerning →
      newGlyph ops asm o g' = (newGlyph ops asm o g).map (strip ops asm o) →
      glyphEntry ops asm o (stripAll ops asm o st) g' = (glyphEntry ops asm o st g).map (stripAll ops asm o) := by
    intro g g' _ h2 h3
    unfold glyphEntry
    rw [h3]
    cases hb : newGlyph ops asm o g with
    | error er => rfl
    | ok b =>
      simp only [Except.map, bind, Except.bind]
      rw [fileGlyph_strip, h2]
      rfl
  rcases after_cases ops asm o e with h | ⟨hs, h1, hp, g, hd, h⟩ | ⟨hs, h1, b, hd, h⟩
  · rw [h]
    unfold glyphStep
    by_cases hs : e.1 ∈ skipKeys o
    · rw [if_pos hs, if_pos hs]; rfl
    rw [if_neg hs, if_neg hs]
    cases hd : e.2 with
    | none => rfl
    | some d =>
      simp only
      by_cases h1 : e.1 = 2001
      · rw [if_pos h1, if_pos h1]
        cases d
        case glyph g =>
          simp only
          refine hglyph g g rfl rfl ?_
          -- the entry is unchanged: no hint masks are converted
          have hm : o.pshints = false ∨ (g.hints.bind Hints.hintmasks) = none := by
            cases hp : o.pshints with
            | false => exact .inl rfl
            | true =>
              right
              unfold afterBuild at h
              rw [if_neg hs, hd] at h
              simp only [h1, hp, and_self, if_true] at h
              have : e = (2001, some (.glyph g)) := by rw [← hd, ← h1]
              rw [this] at h
              injection h with _ h
              injection h with h
              injection h with h
              rw [← h]
              cases g.hints <;> rfl
          unfold newGlyph
          cases g.name <;> cases g.metrics <;> cases g.nodes <;> try rfl
          simp only [Except.map, strip]
          rcases hm with hm | hm
          · simp [hm]
          · simp [hm]
        all_goals rfl
      · rw [if_neg h1, if_neg h1]
        cases hf : glyphPart ops asm e.1 d with
        | none => rfl
        | some f =>
          simp only
          cases hc : st.current with
          | none => simp only [stripAll, hc]; rfl
          | some g =>
            have : (stripAll ops asm o st).current = some (strip ops asm o g) := by unfold stripAll; rw [hc]; rfl
            rw [this]
            simp only
            rw [part_strip ops asm hf g]
            cases f g <;> rfl
  · rw [h]
    unfold glyphStep
    simp only
    rw [if_neg hs, if_neg hs, hd]
    simp only [h1, if_true]
    refine hglyph g _ rfl rfl ?_
    unfold newGlyph
    cases g.name <;> cases g.metrics <;> cases g.nodes <;> try rfl
    simp only [Except.map, strip, hp, if_true]
    cases g.hints <;> rfl
  · rw [h]
    unfold glyphStep
    simp only
    rw [if_neg hs, if_neg hs, hd]
    simp only [h1]
    simp only [glyphPart]
    norm_num
    cases hc : st.current with
    | none => simp only [stripAll, hc]; rfl
    | some g =>
      have : (stripAll ops asm o st).current = some (strip ops asm o g) := by unfold stripAll; rw [hc]; rfl
      rw [this]
      rfl

theorem strip_build (o : BuildOpts) (es : List (FEntry ops asm)) :
    buildGlyphs ops asm o (es.map (afterBuild ops asm o)) = (buildGlyphs ops asm o es).map (stripAll ops asm o) := by
  have hfold : ∀ (es : List (FEntry ops asm)) (st : GlyphPart ops.Angle asm.Asm),
      (es.map (afterBuild ops asm o)).foldlM (glyphStep ops asm o) (stripAll ops asm o st) =
      (es.foldlM (glyphStep ops asm o) st).map (stripAll ops asm o) := by
    intro es
    induction es with
    | nil => intro st; rfl
    | cons e es ih =>
      intro st
      rw [List.map_cons, List.foldlM_cons, List.foldlM_cons, strip_step]
      cases glyphStep ops asm o st e with
      | error er => rfl
      | ok st' => exact ih st'
  unfold buildGlyphs
  have := hfold es ⟨none, [], [], []⟩
  rw [show stripAll ops asm o ⟨none, [], [], []⟩ = ⟨none, [], [], []⟩ from rfl] at this
  rw [this]
  cases es.foldlM (glyphStep ops asm o) ⟨none, [], [], []⟩ with
  | error er => rfl
  | ok st =>
    simp only [Except.map, bind, Except.bind]
    cases st with
    | mk cur masters order kerning =>
      cases cur with
      | none => rfl
      | some g =>
        have hn : (strip ops asm o g).name = g.name := rfl
        simp only [lastGlyph, stripAll, Option.map_some, hn]
        rw [dictSet_mapVal]

/-- the entry is a glyph with hint masks -/
def HasHintmasks (e : FEntry ops asm) : Prop := ∃ g h m, glyphOf ops asm e = some g ∧ g.hints = some h ∧ h.hintmasks = some m ∧ m ≠ []

/-- **C66** Converting leaves the data of an entry as they are for writing: after the conversion each entry still has its id and
is compiled to the same bytes as before, unless PostScript hints are converted and the entry is a glyph with hint masks. -/
theorem C66_unchanged (o : BuildOpts) (e : FEntry ops asm) (ctx : Ctx) (h : o.pshints = false ∨ ¬ HasHintmasks ops asm e) :
    (afterBuild ops asm o e).1 = e.1 ∧
    (tableCompile ops asm e.1).map (fun f => f ctx (afterBuild ops asm o e).2) = (tableCompile ops asm e.1).map (fun f => f ctx e.2) := by
  rcases after_cases ops asm o e with h' | ⟨hs, h1, hp, g, hd, h'⟩ | ⟨hs, h1, b, hd, h'⟩
  · rw [h']; exact ⟨rfl, rfl⟩
  · rw [h']
    refine ⟨rfl, ?_⟩
    have hk : kindOf e.1 = some .glyph := by rw [h1]; decide +kernel
    unfold tableCompile
    rw [hk, hd]
    simp only [Option.map_some, Kind.compileData, Kind.cls, Option.some.injEq]
    rcases h with h | h
    · rw [hp] at h; cases h
    · cases hh : g.hints with
      | none =>
        have : g = { g with hints := none } := by cases g; simp at hh; simp [hh]
        conv_rhs => rw [this]
        rfl
      | some x =>
        have hx : x.hintmasks.getD [] = [] := by
          by_contra hc
          cases hm : x.hintmasks with
          | none => rw [hm] at hc; exact hc rfl
          | some m =>
            rw [hm] at hc
            exact h ⟨g, x, m, by unfold glyphOf; rw [if_pos h1, hd], hh, hm, hc⟩
        cases g
        simp only at hh
        subst hh
        simp only [Option.map_some, compileGlyph, writeHints, hx, Option.getD_none]
  · rw [h']
    refine ⟨rfl, ?_⟩
    have hk : kindOf e.1 = some .background := by rw [h1]; decide +kernel
    unfold tableCompile
    rw [hk, hd]
    rfl

/-- **C66** (Known defect) With the conversion of PostScript hints, a second conversion of the same font gives the same glyphs
without any hint masks. -/
theorem C66_hintmasks_lost {o : BuildOpts} (hp : o.pshints = true) {es : List (FEntry ops asm)} {st : GlyphPart ops.Angle asm.Asm}
    (h : buildGlyphs ops asm o es = .ok st) :
    ∃ st', buildGlyphs ops asm o (es.map (afterBuild ops asm o)) = .ok st' ∧
      st'.masters = st.masters.map (fun x => (x.1, { x.2 with hintmasks := [] })) ∧ st'.order = st.order ∧ st'.kerning = st.kerning := by
  refine ⟨stripAll ops asm o st, by rw [strip_build, h]; rfl, ?_, rfl, rfl⟩
  simp only [stripAll, strip, hp, if_true]

/-- **C66** If no glyph has got hint masks, or PostScript hints are not converted, the same conversion can be repeated: it gives the
same glyphs again. -/
theorem C66_again {o : BuildOpts} {es : List (FEntry ops asm)} (hm : o.pshints = false ∨ ∀ e ∈ es, ¬ HasHintmasks ops asm e)
    {st : GlyphPart ops.Angle asm.Asm} (h : buildGlyphs ops asm o es = .ok st) :
    ∃ st', buildGlyphs ops asm o (es.map (afterBuild ops asm o)) = .ok st' ∧
      st'.masters = st.masters ∧ st'.order = st.order ∧ st'.kerning = st.kerning := by
  refine ⟨stripAll ops asm o st, by rw [strip_build, h]; rfl, ?_, rfl, rfl⟩
  have : ∀ x ∈ st.masters, (x.1, strip ops asm o x.2) = x := by
    intro x hx
    rcases hm with hm | hm
    · simp [strip, hm]
    · cases hp : o.pshints with
      | false => simp [strip, hp]
      | true =>
        obtain ⟨gs, h1, _, h2, _⟩ := C64_content ops asm h
        obtain ⟨hg, _⟩ := h2 x hx
        have hmem : ∃ b ∈ blocks ops asm es, Describes ops asm o b x.2 := by
          clear h2
          generalize blocks ops asm es = bs at h1
          induction h1 with
          | nil => cases hg
          | cons hd _ ih =>
            rcases List.mem_cons.1 hg with heq | hg
            · rw [heq]; exact ⟨_, by simp, hd⟩
            · obtain ⟨b, hb, hb'⟩ := ih hg
              exact ⟨b, by simp [hb], hb'⟩
        obtain ⟨b, hb, hdes⟩ := hmem
        have hbe : ∃ e ∈ es, glyphOf ops asm e = some b.1 := by
          clear h1 hm h hdes h2
          induction es with
          | nil => cases hb
          | cons e es ih =>
            rw [blocks] at hb
            cases hge : glyphOf ops asm e with
            | none =>
              rw [hge] at hb
              obtain ⟨e', he', h'⟩ := ih hb
              exact ⟨e', by simp [he'], h'⟩
            | some g =>
              rw [hge] at hb
              rcases List.mem_cons.1 hb with rfl | hb
              · exact ⟨e, by simp, hge⟩
              · obtain ⟨e', he', h'⟩ := ih hb
                exact ⟨e', by simp [he'], h'⟩
        obtain ⟨e, he, hge⟩ := hbe
        have hh := hdes.hints
        rw [hp] at hh
        simp only [if_true] at hh
        have hempty : x.2.hintmasks = [] := by
          rcases hh with ⟨_, _, _, h⟩ | ⟨y, hy, _, _, h⟩
          · exact h
          · rw [h]
            cases hm' : y.hintmasks with
            | none => rfl
            | some m =>
              by_contra hc
              exact hm e he ⟨b.1, y, m, hge, hy, hm', hc⟩
        obtain ⟨n, g⟩ := x
        simp only at hempty
        simp [strip, hp, ← hempty]
  calc st.masters.map (fun x => (x.1, strip ops asm o x.2)) = st.masters.map id := List.map_congr_left this
    _ = st.masters := List.map_id _

end

/-! ### a concrete font -/

/-- two glyphs of the same name and a third one, with notes, code points and other entries -/
def exampleFont : List (FEntry exampleAngles exampleAsm) :=
  [(1024, some (.str (lit "Font"))),
   (2001, some (.glyph exampleGlyph)),
   (1250, some (.ints [65])),
   (2017, some (.str (lit "first"))),
   (2017, some (.str (lit "second"))),
   (2001, some (.glyph exampleGlyph)),
   (2012, some (.int 128)),
   (2018, none),
   (2001, some (.glyph { exampleGlyph with name := some (lit "B") })),
   (1253, some (.ints [66, 128512])),
   (1250, some (.ints [98]))]

def exampleOpts : BuildOpts := ⟨false, false, true⟩

abbrev Summary := (PyStr × PyStr × List Int) × Option PyStr × Option Int × Nat
instance : DecidableEq Summary := inferInstance

/-- the names, notes and code points of the glyphs -/
def summary (st : GlyphPart exampleAngles.Angle exampleAsm.Asm) : List Summary :=
  st.masters.map fun x => ((x.1, x.2.name, x.2.unicodes), x.2.note, x.2.mark, x.2.hintmasks.length)

example : (buildGlyphs exampleAngles exampleAsm exampleOpts exampleFont).toOption.map (fun st => (summary st, st.order)) =
    some ([((lit "A", lit "A", [65]), some (lit "second"), none, 2), ((lit "A#0", lit "A", []), none, some 128, 2),
      ((lit "B", lit "B", [66, 128512, 98]), none, none, 2)], [lit "A", lit "A#0", lit "B"]) := by decide +kernel

/-- the hypotheses of C64_success are met -/
example : ∀ e ∈ exampleFont, WellTyped exampleAngles exampleAsm e := by
  intro e he k d hk hd
  simp only [exampleFont, List.mem_cons, List.not_mem_nil, or_false] at he
  rcases he with rfl | rfl | rfl | rfl | rfl | rfl | rfl | rfl | rfl | rfl | rfl
  all_goals
    first
    | (rw [show kindOf _ = some Kind.string from by decide +kernel] at hk; injection hk with hk; subst hk; injection hd with hd; subst hd; rfl)
    | (rw [show kindOf _ = some Kind.glyph from by decide +kernel] at hk; injection hk with hk; subst hk; injection hd with hd; subst hd; rfl)
    | (rw [show kindOf _ = some Kind.unicodes from by decide +kernel] at hk; injection hk with hk; subst hk; injection hd with hd; subst hd; rfl)
    | (rw [show kindOf _ = some Kind.unicodesSupp from by decide +kernel] at hk; injection hk with hk; subst hk; injection hd with hd; subst hd; rfl)
    | (rw [show kindOf _ = some Kind.int16 from by decide +kernel] at hk; injection hk with hk; subst hk; injection hd with hd; subst hd; rfl)
    | cases hd

/-- the second conversion loses the hint masks -/
example : (buildGlyphs exampleAngles exampleAsm exampleOpts (exampleFont.map (afterBuild exampleAngles exampleAsm exampleOpts))).toOption.map
      (fun st => st.masters.map fun x => x.2.hintmasks.length) = some [0, 0, 0] := by decide +kernel

/-- a duplicate at the end replaces the first glyph -/
example : (buildGlyphs exampleAngles exampleAsm exampleOpts
      [(2001, some (.glyph exampleGlyph)), (2017, some (.str (lit "first"))), (2001, some (.glyph { exampleGlyph with name := some (lit "B") })),
       (2001, some (.glyph exampleGlyph))]).toOption.map (fun st => (st.masters.map fun x => (x.1, x.2.note), st.order)) =
    some ([(lit "A", none), (lit "B", none)], [lit "A", lit "B", lit "A"]) := by decide +kernel

end Verif.Props
