import Verif.Spec.UfoParts
import Verif.Props.EndToEnd
import Verif.Props.Commands
/-! C104: what the conversion to UFO depends on. -/
set_option autoImplicit false
namespace Verif.Props
open Verif Verif.Spec

/-- elements that change nothing can be left out -/
theorem foldlM_filter {α σ : Type} (f : σ → α → Except PyErr σ) (p : α → Bool) (h : ∀ s a, p a = false → f s a = .ok s) :
    ∀ (l : List α) (s : σ), l.foldlM f s = (l.filter p).foldlM f s
  | [], _ => rfl
  | a :: l, s => by
    rw [List.foldlM_cons, List.filter_cons]
    cases hp : p a with
    | false =>
      rw [h s a hp]
      exact foldlM_filter f p h l s
    | true =>
      rw [if_pos rfl, List.foldlM_cons]
      cases f s a with
      | error e => rfl
      | ok s' => exact foldlM_filter f p h l s'

theorem foldlM_parts {α σ : Type} (f : σ → α → Except PyErr σ) (p : α → Bool) (h : ∀ s a, p a = false → f s a = .ok s) {l l' : List α}
    (hl : l.filter p = l'.filter p) (s : σ) : l.foldlM f s = l'.foldlM f s := by
  rw [foldlM_filter f p h l, foldlM_filter f p h l', hl]

section
variable (ops : AngleOps) (deg : ops.Angle → Rat) (asm : AsmOps) (fmt : Int → PyStr)

theorem glyphPart_other {id : Int} (h : id ∉ glyphIds) (d : Decompiled ops.Angle asm.Asm) : glyphPart ops asm id d = none := by
  simp only [glyphIds, List.mem_cons, List.not_mem_nil, or_false, not_or] at h
  obtain ⟨h1, h2, h3, h4, h5, h6, h7, h8, h9, h10, h11, h12, h13, h14, h15, h16, -⟩ := h
  unfold glyphPart
  rw [if_neg h2, if_neg (by omega), if_neg h5, if_neg h6, if_neg h7, if_neg h8, if_neg h9, if_neg h10, if_neg h11, if_neg h12, if_neg h13,
    if_neg h14, if_neg h15, if_neg h16]

theorem ttEntry_other {id : Int} (h : id ∉ glyphIds) (st : TtPart) (d : Decompiled ops.Angle asm.Asm) : ttEntry ops asm st id d = .ok st := by
  simp only [glyphIds, List.mem_cons, List.not_mem_nil, or_false, not_or] at h
  unfold ttEntry
  rw [if_neg (by omega), if_neg (by omega), if_neg (by omega), if_neg (by omega), if_neg (by omega)]

theorem glyphTtStep_other (o : BuildOpts) (st : GlyphPart ops.Angle asm.Asm × TtPart) (e : FEntry ops asm)
    (h : ¬ (e.1 ∈ glyphIds ∧ e.1 ∉ ignoredIds o)) : glyphTtStep ops asm o st e = .ok st := by
  obtain ⟨id, d⟩ := e
  dsimp only at h
  unfold glyphTtStep glyphStep ttStep
  dsimp only
  by_cases hs : id ∈ skipKeys o
  · rw [if_pos hs, if_pos hs]; rfl
  · have hid : id ∉ glyphIds := fun hi => h ⟨hi, hs⟩
    rw [if_neg hs, if_neg hs]
    cases d with
    | none => rfl
    | some d =>
      dsimp only
      have h1 : id ≠ 2001 := by rintro rfl; exact hid (by decide)
      rw [if_neg h1, if_neg h1, glyphPart_other ops asm hid, ttEntry_other ops asm hid]
      rfl

theorem masterStep_other (o : BuildOpts) (st : MastersPart ops.Angle) (e : FEntry ops asm) (h : ¬ (e.1 ∈ masterIds ∧ e.1 ∉ ignoredIds o)) :
    masterStep ops asm o st e = .ok st := by
  obtain ⟨id, d⟩ := e
  dsimp only at h
  unfold masterStep
  dsimp only
  by_cases hs : id ∈ skipKeys o
  · rw [if_pos hs]
  · have hid : id ∉ masterIds := fun hi => h ⟨hi, hs⟩
    rw [if_neg hs]
    cases d with
    | none => rfl
    | some d =>
      dsimp only
      simp only [masterIds, List.mem_cons, List.not_mem_nil, or_false, not_or] at hid
      unfold masterEntry
      rw [if_neg (by omega), if_neg (by omega), if_neg (by omega), if_neg (by omega), if_neg (by omega), if_neg (by omega), if_neg (by omega),
        if_neg (by omega), if_neg (by omega), if_neg (by omega), if_neg (by omega), if_neg (by simp; omega), if_neg (by omega)]

theorem featureStep_other (o : BuildOpts) (st : FeaturesPart) (e : FEntry ops asm) (h : ¬ (e.1 ∈ classIds ∧ e.1 ∉ ignoredIds o)) :
    featureStep ops asm o st e = .ok st := by
  obtain ⟨id, d⟩ := e
  dsimp only at h
  unfold featureStep
  dsimp only
  by_cases hs : id ∈ skipKeys o
  · rw [if_pos hs]
  · have hid : id ∉ classIds := fun hi => h ⟨hi, hs⟩
    rw [if_neg hs]
    cases d with
    | none => rfl
    | some d =>
      dsimp only
      simp only [classIds, List.mem_cons, List.not_mem_nil, or_false, not_or] at hid
      unfold featureEntry
      rw [if_neg (by omega), if_neg (by omega), if_neg (by omega)]

theorem infoMapping_other {id : Int} (h : id ∉ infoIds) : dictGet infoMapping id = none := by
  rw [dictGet_none]
  intro hm
  exact h ((by decide +kernel : ∀ k ∈ infoMapping.map Prod.fst, k ∈ infoIds) id hm)

theorem infoStep_other (o : BuildOpts) (st : InfoPart asm.Asm) (e : FEntry ops asm) (h : ¬ (e.1 ∈ infoIds ∧ e.1 ∉ ignoredIds o)) :
    infoStep fmt ops asm o st e = .ok st := by
  obtain ⟨id, d⟩ := e
  dsimp only at h
  unfold infoStep
  dsimp only
  by_cases hs : id ∈ skipKeys o
  · rw [if_pos hs]
  · have hid : id ∉ infoIds := fun hi => h ⟨hi, hs⟩
    rw [if_neg hs]
    cases d with
    | none => rfl
    | some d =>
      dsimp only
      unfold infoEntry
      rw [infoMapping_other hid]
      dsimp only
      simp only [infoIds, List.mem_cons, List.not_mem_nil, or_false, not_or] at hid
      rw [if_neg (by omega), if_neg (by omega), if_neg (by omega), if_neg (by omega), if_neg (by omega), if_neg (by omega), if_neg (by omega),
        if_neg (by omega), if_neg (by omega), if_neg (by omega), if_neg (by omega), if_neg (by omega), if_neg (by omega), if_neg (by omega),
        if_neg (by omega), if_neg (by omega), if_neg (by omega), if_neg (by omega), if_neg (by omega)]

theorem build_parts (o : BuildOpts) (depth : Nat) {es es' : List (FEntry ops asm)} (h : SameParts Prod.fst o es es') :
    build ops asm fmt o depth es = build ops asm fmt o depth es' := by
  have h1 : buildGlyphsTt ops asm o es = buildGlyphsTt ops asm o es' := by
    unfold buildGlyphsTt
    rw [foldlM_parts (glyphTtStep ops asm o) _ (fun st e he => glyphTtStep_other ops asm o st e (of_decide_eq_false he)) h.glyphs]
  have h2 : buildMasters ops asm o es = buildMasters ops asm o es' := by
    unfold buildMasters
    rw [foldlM_parts (masterStep ops asm o) _ (fun st e he => masterStep_other ops asm o st e (of_decide_eq_false he)) h.masters]
  have h3 : buildFeatures ops asm o es = buildFeatures ops asm o es' := by
    unfold buildFeatures
    rw [foldlM_parts (featureStep ops asm o) _ (fun st e he => featureStep_other ops asm o st e (of_decide_eq_false he)) h.classes]
  have h4 : buildInfo fmt ops asm o es = buildInfo fmt ops asm o es' := by
    unfold buildInfo
    rw [foldlM_parts (infoStep fmt ops asm o) _ (fun st e he => infoStep_other ops asm fmt o st e (of_decide_eq_false he)) h.info]
  unfold build
  rw [h1, h2, h3, h4]

/-- **C104** The UFOs depend only on the glyphs with what belongs to them, the masters, the classes and the font info of the font: on nothing else,
and not on the order in which entries of these four groups are mixed. -/
theorem C104_convert (o : UfoOpts) (depth : Nat) {es es' : List (FEntry ops asm)} (h : SameParts Prod.fst o.build es es') :
    convert ops deg asm fmt o depth es = convert ops deg asm fmt o depth es' := by
  unfold convert
  rw [build_parts ops asm fmt o.build depth h]

/-- **C104** The same for the UFOs and the designspace of the command. -/
theorem C104_designspace (a : UfoArgs) (depth : Nat) {es es' : List (FEntry ops asm)} (h : SameParts Prod.fst (optsOf a).build es es') :
    ufosDesignspace ops deg asm fmt a depth es = ufosDesignspace ops deg asm fmt a depth es' := by
  unfold ufosDesignspace
  rw [show a.opts.build = (optsOf a).build from rfl, build_parts ops asm fmt _ depth h]

/-- the parts of two lists that agree on all entries that are looked at -/
theorem sameParts_of {α : Type} (idOf : α → Int) (o : BuildOpts) {es es' : List α} (p : α → Bool)
    (hp : ∀ e, idOf e ∈ glyphIds ∨ idOf e ∈ masterIds ∨ idOf e ∈ classIds ∨ idOf e ∈ infoIds → idOf e ∉ ignoredIds o → p e = true)
    (h : es.filter p = es'.filter p) : SameParts idOf o es es' := by
  have key : ∀ ids : List Int, (∀ i ∈ ids, i ∈ glyphIds ∨ i ∈ masterIds ∨ i ∈ classIds ∨ i ∈ infoIds) →
      partOf idOf o ids es = partOf idOf o ids es' := by
    intro ids hi
    have hf : ∀ l : List α, partOf idOf o ids l = partOf idOf o ids (l.filter p) := by
      intro l
      unfold partOf
      rw [List.filter_filter]
      refine List.filter_congr fun e _ => ?_
      by_cases hc : idOf e ∈ ids ∧ idOf e ∉ ignoredIds o
      · rw [decide_eq_true hc, hp e (hi _ hc.1) hc.2]; rfl
      · rw [decide_eq_false hc]; rfl
    rw [hf es, hf es', h]
  exact ⟨key _ fun i hi => .inl hi, key _ fun i hi => .inr (.inl hi), key _ fun i hi => .inr (.inr (.inl hi)),
    key _ fun i hi => .inr (.inr (.inr hi))⟩

/-- **C104** Entries that are not looked at, and those that are ignored, can be removed (or added) without effect. -/
theorem C104_unused (o : UfoOpts) (depth : Nat) (es : List (FEntry ops asm)) :
    convert ops deg asm fmt o depth (es.filter fun e => decide (e.1 ∈ glyphIds ++ masterIds ++ classIds ++ infoIds ∧ e.1 ∉ ignoredIds o.build)) =
      convert ops deg asm fmt o depth es := by
  refine C104_convert ops deg asm fmt o depth (sameParts_of Prod.fst o.build
    (fun e : FEntry ops asm => decide (e.1 ∈ glyphIds ++ masterIds ++ classIds ++ infoIds ∧ e.1 ∉ ignoredIds o.build))
    (fun e h1 h2 => decide_eq_true ⟨?_, h2⟩) ?_)
  · simp only [List.mem_append]
    rcases h1 with h | h | h | h
    · exact .inl (.inl (.inl h))
    · exact .inl (.inl (.inr h))
    · exact .inl (.inr h)
    · exact .inr h
  · rw [List.filter_filter]
    refine List.filter_congr fun e _ => ?_
    rw [Bool.and_self]

theorem glyphIds_apart : ∀ i ∈ masterIds ++ classIds ++ infoIds, i ∉ glyphIds := by decide

/-- **C104** It does not matter where the font-level entries stand between the glyphs: they can all be moved to the beginning or to the end. -/
theorem C104_order (o : UfoOpts) (depth : Nat) (es : List (FEntry ops asm)) :
    convert ops deg asm fmt o depth (es.filter (fun e => decide (e.1 ∉ glyphIds)) ++ es.filter fun e => decide (e.1 ∈ glyphIds)) =
      convert ops deg asm fmt o depth es ∧
    convert ops deg asm fmt o depth (es.filter (fun e => decide (e.1 ∈ glyphIds)) ++ es.filter fun e => decide (e.1 ∉ glyphIds)) =
      convert ops deg asm fmt o depth es := by
  have hg : ∀ ids : List Int, (∀ i ∈ ids, i ∈ glyphIds) →
      partOf Prod.fst o.build ids (es.filter fun e => decide (e.1 ∈ glyphIds)) = partOf Prod.fst o.build ids es ∧
      partOf Prod.fst o.build ids (es.filter fun e => decide (e.1 ∉ glyphIds)) = [] := by
    intro ids hi
    unfold partOf
    rw [List.filter_filter, List.filter_filter]
    refine ⟨List.filter_congr fun e _ => ?_, List.filter_eq_nil_iff.2 fun e _ => ?_⟩
    · by_cases hc : e.1 ∈ ids
      · rw [decide_eq_true (hi _ hc), Bool.and_true]
      · rw [decide_eq_false fun hx : _ ∧ _ => hc hx.1, Bool.false_and]
    · intro hx
      simp only [Bool.and_eq_true, decide_eq_true_eq] at hx
      exact hx.2 (hi _ hx.1.1)
  have hn : ∀ ids : List Int, (∀ i ∈ ids, i ∉ glyphIds) →
      partOf Prod.fst o.build ids (es.filter fun e => decide (e.1 ∉ glyphIds)) = partOf Prod.fst o.build ids es ∧
      partOf Prod.fst o.build ids (es.filter fun e => decide (e.1 ∈ glyphIds)) = [] := by
    intro ids hi
    unfold partOf
    rw [List.filter_filter, List.filter_filter]
    refine ⟨List.filter_congr fun e _ => ?_, List.filter_eq_nil_iff.2 fun e _ => ?_⟩
    · by_cases hc : e.1 ∈ ids
      · rw [decide_eq_true (hi _ hc), Bool.and_true]
      · rw [decide_eq_false fun hx : _ ∧ _ => hc hx.1, Bool.false_and]
    · intro hx
      simp only [Bool.and_eq_true, decide_eq_true_eq] at hx
      exact hi _ hx.1.1 hx.2
  have happ : ∀ (ids : List Int) (l m : List (FEntry ops asm)),
      partOf Prod.fst o.build ids (l ++ m) = partOf Prod.fst o.build ids l ++ partOf Prod.fst o.build ids m :=
    fun ids l m => List.filter_append ..
  obtain ⟨g1, g2⟩ := hg glyphIds fun i hi => hi
  obtain ⟨m1, m2⟩ := hn masterIds fun i hi => glyphIds_apart i (by simp [hi])
  obtain ⟨c1, c2⟩ := hn classIds fun i hi => glyphIds_apart i (by simp [hi])
  obtain ⟨i1, i2⟩ := hn infoIds fun i hi => glyphIds_apart i (by simp [hi])
  constructor
  · exact C104_convert ops deg asm fmt o depth ⟨by rw [happ, g1, g2, List.nil_append], by rw [happ, m1, m2, List.append_nil],
      by rw [happ, c1, c2, List.append_nil], by rw [happ, i1, i2, List.append_nil]⟩
  · exact C104_convert ops deg asm fmt o depth ⟨by rw [happ, g1, g2, List.append_nil], by rw [happ, m1, m2, List.nil_append],
      by rw [happ, c1, c2, List.nil_append], by rw [happ, i1, i2, List.nil_append]⟩

/-! ## files -/

theorem partOf_decoded (o : BuildOpts) (ids : List Int) {c : Ctx} {ps : List (Nat × Bytes)} {l : List (FEntry ops asm)}
    (h : List.Forall₂ (Decoded ops asm c) ps l) :
    List.Forall₂ (Decoded ops asm c) (partOf (fun p : Nat × Bytes => (p.1 : Int)) o ids ps) (partOf Prod.fst o ids l) :=
  forall₂_filter h fun p e hpe => by rw [hpe.1]

theorem decoded_unique {c : Ctx} {ps : List (Nat × Bytes)} {l l' : List (FEntry ops asm)} (h : List.Forall₂ (Decoded ops asm c) ps l)
    (h' : List.Forall₂ (Decoded ops asm c) ps l') : l = l' := by
  induction h generalizing l' with
  | nil => cases h'; rfl
  | @cons p e ps l hpe _ ih =>
    cases h' with
    | @cons _ e' _ l' hpe' ht =>
      obtain ⟨i, d⟩ := e
      obtain ⟨i', d'⟩ := e'
      obtain ⟨a1, x, a2, a3⟩ := hpe
      obtain ⟨b1, y, b2, b3⟩ := hpe'
      dsimp only at a1 a3 b1 b3
      rw [a2] at b2
      cases b2
      rw [ih ht, a1, a3, b1, b3]

theorem partOf_kept (o : BuildOpts) (ids : List Int) (es : List (Nat × Bytes)) :
    partOf (fun p : Nat × Bytes => (p.1 : Int)) o ids (keptEntries es) = partOf (fun p : Nat × Bytes => (p.1 : Int)) o ids es := by
  unfold partOf keptEntries
  rw [List.filter_filter]
  refine List.filter_congr fun p _ => ?_
  by_cases hc : (p.1 : Int) ∈ ids ∧ (p.1 : Int) ∉ ignoredIds o
  · have h0 : p.1 ≠ 1500 := fun h0 => hc.2 (by rw [h0]; simp [ignoredIds])
    have h1 : p.1 ≠ 1501 := fun h1 => hc.2 (by rw [h1]; simp [ignoredIds])
    rw [decide_eq_true hc, decide_eq_true ⟨h0, h1⟩]; rfl
  · rw [decide_eq_false hc]; rfl

theorem set_isSome {ASM : Type} (ws : List (FPath × DiskFile ASM)) : ∀ (fs fs' : Files ASM) (_ : ∀ p, (fs p).isSome = (fs' p).isSome) (p : FPath),
    (ws.foldl (fun fs w => fs.set w.1 w.2) fs p).isSome = (ws.foldl (fun fs w => fs.set w.1 w.2) fs' p).isSome := by
  induction ws with
  | nil => intro fs fs' h p; exact h p
  | cons w ws ih =>
    intro fs fs' h p
    refine ih _ _ (fun q => ?_) p
    unfold Files.set
    beta_reduce
    by_cases hq : q = w.1
    · rw [if_pos hq, if_pos hq]
    · rw [if_neg hq, if_neg hq]; exact h q

theorem writeSteps_isSome {ASM : Type} (a : UfoArgs) (ds : Option DsDoc) :
    ∀ (us : List (UfoFont ASM)) (i : Nat) (fs fs' : Files ASM) (_ : ∀ p, (fs p).isSome = (fs' p).isSome),
      writeSteps a fs i us ds = writeSteps a fs' i us ds
  | [], i, fs, fs', h => by
    cases ds with
    | none => rfl
    | some d => unfold writeSteps; dsimp only; rw [h]
  | u :: us, i, fs, fs', h => by
    unfold writeSteps
    dsimp only
    rw [h, writeSteps_isSome a ds us (i + 1) _ _ (set_isSome (ufoSteps a ⟨a.out.dir, masterPath a.out.name i⟩ u) fs fs' h)]

/-- **C104** From file to file: let two VFB files be readable with all entries decompilable, have the same FL version, master count and stems entries, and
the same payloads of glyphs, masters, classes and font info (each in the same order).  Then `vfb3ufo` does exactly the same for both of them, whatever else
is in the files: in other entries, in the headers, and after the end. -/
theorem C104_files (a : UfoArgs) (depth : Nat) (fs : Files asm.Asm) (minor minor' : UInt8) (es es' : List (Nat × Bytes)) (tail tail' : Bytes)
    (ht : Terminated es) (ht' : Terminated es') (hr : Readable (vfbCodec ops asm) a.unicode_strings {} es)
    (hr' : Readable (vfbCodec ops asm) a.unicode_strings {} es')
    (hs : es.filter (fun p => decide (p.1 = 10 ∨ p.1 = 1503 ∨ p.1 = 1269)) = es'.filter fun p => decide (p.1 = 10 ∨ p.1 = 1503 ∨ p.1 = 1269))
    (hd : ∀ p ∈ keptEntries es, ∃ d, parseEntry ((vfbCodec ops asm).parse p.1 (fileCtx ops asm a es)) p.2 = .ok d)
    (hd' : ∀ p ∈ keptEntries es', ∃ d, parseEntry ((vfbCodec ops asm).parse p.1 (fileCtx ops asm a es')) p.2 = .ok d)
    (h : SameParts (fun p : Nat × Bytes => (p.1 : Int)) (optsOf a).build es es') :
    vfb3ufo ops deg asm fmt a depth (fs.set a.input (.bytes (fileOf minor es ++ tail))) =
      vfb3ufo ops deg asm fmt a depth (fs.set a.input (.bytes (fileOf minor' es' ++ tail'))) := by
  have hctx : fileCtx ops asm a es = fileCtx ops asm a es' := by
    unfold fileCtx
    have hp : (fun p : Nat × Bytes => isSpecial (p.1 : Int)) = fun p => decide (p.1 = 10 ∨ p.1 = 1503 ∨ p.1 = 1269) := by
      funext p
      unfold isSpecial
      by_cases h1 : p.1 = 10
      · rw [h1]; rfl
      · by_cases h2 : p.1 = 1503
        · rw [h2]; rfl
        · by_cases h3 : p.1 = 1269
          · rw [h3]; rfl
          · rw [decide_eq_false (by omega : ¬ (p.1 = 10 ∨ p.1 = 1503 ∨ p.1 = 1269)), decide_eq_false (by omega), decide_eq_false (by omega),
              decide_eq_false (by omega)]
            rfl
    rw [ctxAll_special, hp, hs, ← hp, ← ctxAll_special]
  have hex : ∀ {c : Ctx} {ps : List (Nat × Bytes)}, (∀ p ∈ ps, ∃ d, parseEntry ((vfbCodec ops asm).parse p.1 c) p.2 = .ok d) →
      ∃ l, List.Forall₂ (Decoded ops asm c) ps l := by
    intro c ps hps
    induction ps with
    | nil => exact ⟨[], .nil⟩
    | cons p ps ih =>
      obtain ⟨d, h1⟩ := hps p (by simp)
      obtain ⟨l, h2⟩ := ih fun q hq => hps q (by simp [hq])
      exact ⟨(p.1, some d) :: l, .cons ⟨rfl, d, h1, rfl⟩ h2⟩
  obtain ⟨l, hl⟩ := hex hd
  obtain ⟨l', hl'⟩ := hex hd'
  have r1 := (C90_read ops asm a minor es tail ht hr l).2 hl
  have r2 := (C90_read ops asm a minor' es' tail' ht' hr' l').2 hl'
  rw [← hctx] at hl'
  have hpart : ∀ ids : List Int, partOf (fun p : Nat × Bytes => (p.1 : Int)) (optsOf a).build ids es =
      partOf (fun p : Nat × Bytes => (p.1 : Int)) (optsOf a).build ids es' →
      partOf Prod.fst (optsOf a).build ids l = partOf Prod.fst (optsOf a).build ids l' := by
    intro ids he
    have e1 := partOf_decoded ops asm (optsOf a).build ids hl
    have e2 := partOf_decoded ops asm (optsOf a).build ids hl'
    rw [partOf_kept] at e1 e2
    rw [← he] at e2
    exact decoded_unique ops asm e1 e2
  have hsame : SameParts Prod.fst (optsOf a).build l l' := ⟨hpart _ h.glyphs, hpart _ h.masters, hpart _ h.classes, hpart _ h.info⟩
  have hset : ∀ f : DiskFile asm.Asm, (fs.set a.input f) a.input = some f := fun f => if_pos rfl
  unfold vfb3ufo
  rw [hset, hset]
  dsimp only
  rw [r1, r2]
  have hb : ∀ l : List (FEntry ops asm), ((Except.ok l : Except PyErr (List (FEntry ops asm))) >>= ufosDesignspace ops deg asm fmt a depth) =
      ufosDesignspace ops deg asm fmt a depth l := fun _ => rfl
  rw [hb, hb]
  rw [C104_designspace ops deg asm fmt a depth hsame]
  cases ufosDesignspace ops deg asm fmt a depth l' with
  | error e => rfl
  | ok r =>
    refine writeSteps_isSome a r.2 r.1 0 _ _ fun p => ?_
    unfold Files.set
    by_cases hp : p = a.input
    · rw [if_pos hp, if_pos hp]; rfl
    · rw [if_neg hp, if_neg hp]

/-- what the builder sees of an entry after the font has been decompiled -/
def seenData {D T : Type} (C : Codec D T) (c : Ctx) (drop : List Int) (x : Int × EData D) : Int × Option D :=
  (x.1, match x.2 with
    | .dec d => some d
    | .bytes b => if x.1 ∈ drop then none else (parseEntry (C.parse x.1 c) b).toOption
    | .none => none)

theorem fontEntries_decompiled {D T : Type} (C : Codec D T) (c : Ctx) (drop : List Int) : ∀ (es es' : List (Entry D T)) (f : Bool),
    decompileEntries C c drop es = (.ok (), es', f) →
    (es'.map fun e => (e.id, match e.data with
      | .dec d => some d
      | .bytes _ => none
      | .none => none)) = (es.map fun e => (e.id, e.data)).map (seenData C c drop)
  | [], es', f, h => by
    rw [decompileEntries] at h
    cases h
    rfl
  | e :: es, es', f, h => by
    rw [decompileEntries] at h
    by_cases hd : e.id ∈ drop
    · rw [if_pos hd] at h
      rcases hr : decompileEntries C c drop es with ⟨r, es2, f2⟩
      rw [hr] at h
      cases h
      have ih := fontEntries_decompiled C c drop es es2 _ hr
      rw [List.map_cons, List.map_cons, List.map_cons, ih]
      refine congrArg (· :: _) ?_
      unfold seenData
      cases e.data with
      | dec d => rfl
      | bytes b =>
        dsimp only
        rw [if_pos hd]
      | none => rfl
    · rw [if_neg hd] at h
      rcases e with ⟨id, data, tm, ca⟩
      cases data with
      | none => cases h
      | dec d =>
        rcases hr : decompileEntries C c drop es with ⟨r, es2, f2⟩
        have h' : ((r, (⟨id, .dec d, tm, ca⟩ : Entry D T) :: es2, f2) : Except PyErr Unit × List (Entry D T) × Bool) = (.ok (), es', f) := by
          rw [← h, Entry.decompile, hr]
        cases h'
        have ih := fontEntries_decompiled C c drop es es2 _ hr
        rw [List.map_cons, List.map_cons, List.map_cons, ih]
        rfl
      | bytes b =>
        rcases hp : parseEntry (C.parse id c) b with x | d
        · simp only [Entry.decompile, hp] at h
          cases h
        · rcases hr : decompileEntries C c drop es with ⟨r, es2, f2⟩
          have h' : ((r, (⟨id, .dec d, tm, ca⟩ : Entry D T) :: es2, f2) : Except PyErr Unit × List (Entry D T) × Bool) = (.ok (), es', f) := by
            rw [← h, hr]
            simp only [Entry.decompile, hp]
          cases h'
          have ih := fontEntries_decompiled C c drop es es2 _ hr
          rw [List.map_cons, List.map_cons, List.map_cons, ih]
          refine congrArg (· :: _) ?_
          unfold seenData
          have hd' : id ∉ drop := hd
          simp only [hp, if_neg hd', Except.toOption]

theorem partOf_map {α β : Type} (idA : α → Int) (idB : β → Int) (g : α → β) (hg : ∀ x, idB (g x) = idA x) (o : BuildOpts) (ids : List Int) (l : List α) :
    partOf idB o ids (l.map g) = (partOf idA o ids l).map g := by
  unfold partOf
  rw [List.filter_map]
  refine congrArg (List.map g) (List.filter_congr fun x _ => ?_)
  show decide (idB (g x) ∈ ids ∧ idB (g x) ∉ ignoredIds o) = _
  rw [hg]

theorem readLoop_drop_keys {D T : Type} (C : Codec D T) (n : Nat) (v : Vfb D T) (s : Bytes) : (readLoop C n v s).2.drop_keys = v.drop_keys := by
  induction n generalizing v s with
  | zero => rfl
  | succ n ih =>
    unfold readLoop
    cases readEntry v.ctx.num_masters s with
    | err x r => rfl
    | ok a rest =>
      rcases a with ⟨id, data⟩
      dsimp only
      have hadd : (v.addRead C id data).2.drop_keys = v.drop_keys := by
        unfold Vfb.addRead
        by_cases hs : isSpecial id = true
        · rw [if_pos hs]
          rcases Entry.decompile C v.ctx { id := id, data := .bytes data } with ⟨⟨x⟩ | ⟨⟨⟩⟩, e, err⟩ <;> rfl
        · rw [if_neg hs]
      rcases hav : v.addRead C id data with ⟨⟨x⟩ | ⟨⟨⟩⟩, v'⟩
      · rw [hav] at hadd
        exact hadd
      · rw [hav] at hadd
        dsimp only
        by_cases hid : id = 2
        · rw [if_pos hid]
          exact hadd
        · rw [if_neg hid, ih]
          exact hadd

theorem readBytes_drop_keys {D T : Type} (C : Codec D T) (v : Vfb D T) (file : Bytes) (r : Except PyErr Unit) (v' : Vfb D T)
    (h : v.readBytes C file = (r, v')) : v'.drop_keys = v.drop_keys := by
  have hv : v' = (v.readBytes C file).2 := by rw [h]
  rw [hv]
  unfold Vfb.readBytes Vfb.readFuel
  dsimp only
  cases parseHeader file with
  | err x r => rfl
  | ok h rest =>
    dsimp only
    split
    · rfl
    · rw [readLoop_drop_keys]
      rfl

/-- **C104** The same for all byte strings: if two byte strings are accepted by reading, give the same settings (master count, encoding and so on) and the same
data in the glyphs, masters, classes and font info (each in the same order), and if all their entries can be decompiled, then `vfb3ufo` does exactly the
same for both of them. -/
theorem C104_every_file (a : UfoArgs) (depth : Nat) (fs : Files asm.Asm) (file file' : Bytes)
    (v v' w w' : Vfb (Decompiled ops.Angle asm.Asm) (List MasterData))
    (h : Vfb.readBytes (vfbCodec ops asm) { drop_keys := [1500, 1501], force_unicode_strings := a.unicode_strings } file = (.ok (), v))
    (h' : Vfb.readBytes (vfbCodec ops asm) { drop_keys := [1500, 1501], force_unicode_strings := a.unicode_strings } file' = (.ok (), v'))
    (hd : v.decompile (vfbCodec ops asm) = (.ok (), w)) (hd' : v'.decompile (vfbCodec ops asm) = (.ok (), w'))
    (hc : v.ctx = v'.ctx)
    (hs : SameParts Prod.fst (optsOf a).build (v.entries.map fun e => (e.id, e.data)) (v'.entries.map fun e => (e.id, e.data))) :
    vfb3ufo ops deg asm fmt a depth (fs.set a.input (.bytes file)) = vfb3ufo ops deg asm fmt a depth (fs.set a.input (.bytes file')) := by
  have hk : ∀ {u u' : Vfb (Decompiled ops.Angle asm.Asm) (List MasterData)}, u.decompile (vfbCodec ops asm) = (.ok (), u') →
      fontEntries u' = (u.entries.map fun e => (e.id, e.data)).map (seenData (vfbCodec ops asm) u.ctx u.drop_keys) := by
    intro u u' hu
    unfold Vfb.decompile at hu
    cases hh : u.header.decompile with
    | error x => rw [hh] at hu; cases hu
    | ok hdr =>
      rw [hh] at hu
      rcases hr : decompileEntries (vfbCodec ops asm) u.ctx u.drop_keys u.entries with ⟨r, es2, f2⟩
      simp only [hr] at hu
      cases hu
      exact fontEntries_decompiled (vfbCodec ops asm) u.ctx u.drop_keys u.entries es2 f2 hr
  have hdrop : v.drop_keys = v'.drop_keys := by
    rw [readBytes_drop_keys _ _ _ _ _ h, readBytes_drop_keys _ _ _ _ _ h']
  have hpart : ∀ ids : List Int, partOf Prod.fst (optsOf a).build ids (v.entries.map fun e => (e.id, e.data)) =
      partOf Prod.fst (optsOf a).build ids (v'.entries.map fun e => (e.id, e.data)) →
      partOf Prod.fst (optsOf a).build ids (fontEntries w) = partOf Prod.fst (optsOf a).build ids (fontEntries w') := by
    intro ids he
    rw [hk hd, hk hd', partOf_map Prod.fst Prod.fst (seenData (vfbCodec ops asm) v.ctx v.drop_keys) (fun _ => rfl),
      partOf_map Prod.fst Prod.fst (seenData (vfbCodec ops asm) v'.ctx v'.drop_keys) (fun _ => rfl), he, hc, hdrop]
  have hsame : SameParts Prod.fst (optsOf a).build (fontEntries w) (fontEntries w') :=
    ⟨hpart _ hs.glyphs, hpart _ hs.masters, hpart _ hs.classes, hpart _ hs.info⟩
  have r1 : readFont ops asm a file = .ok (fontEntries w) := by
    unfold readFont
    rw [h]
    simp only [hd]
  have r2 : readFont ops asm a file' = .ok (fontEntries w') := by
    unfold readFont
    rw [h']
    simp only [hd']
  have hset : ∀ f : DiskFile asm.Asm, (fs.set a.input f) a.input = some f := fun f => if_pos rfl
  unfold vfb3ufo
  rw [hset, hset]
  dsimp only
  rw [r1, r2]
  have hb : ∀ l : List (FEntry ops asm), ((Except.ok l : Except PyErr (List (FEntry ops asm))) >>= ufosDesignspace ops deg asm fmt a depth) =
      ufosDesignspace ops deg asm fmt a depth l := fun _ => rfl
  rw [hb, hb]
  rw [C104_designspace ops deg asm fmt a depth hsame]
  cases ufosDesignspace ops deg asm fmt a depth (fontEntries w') with
  | error e => rfl
  | ok r =>
    refine writeSteps_isSome a r.2 r.1 0 _ _ fun p => ?_
    unfold Files.set
    by_cases hp : p = a.input
    · rw [if_pos hp, if_pos hp]; rfl
    · rw [if_neg hp, if_neg hp]

end
/-! ### an example -/

/-- The entries of `exampleMmFile` in another order, with an entry of an unknown kind, and without the one that is ignored: the axis, the masters
and the glyph stand before the name of the font. -/
def exampleOtherFile : List (Nat × Bytes) :=
  [(1503, [2, 0]),
   (2001, [1, 9, 7, 1, 1, 140, 65, 8, 141, 175, 141, 0, 149, 159, 169, 99, 35, 130, 121, 116, 187, 141, 141, 141, 141, 141, 141,
     141, 255, 0, 0, 46, 214, 2, 248, 136, 139, 248, 236, 139, 15]),
   (4242, [7, 7, 7]),
   (1504, [76, 105, 103, 104, 116]),
   (1504, [66, 111, 108, 100]),
   (1513, [1, 0]),
   (1514, [87, 101, 105, 103, 104, 116]),
   (1505, [1, 0, 0, 0] ++ List.replicate 32 0),
   (1505, [2, 0, 0, 0] ++ [0, 0, 0, 0, 0, 0, 240, 63] ++ List.replicate 24 0),
   (1536, List.replicate 400 0),
   (1250, [65, 0]),
   (1536, List.replicate 400 0),
   (1024, [68, 101, 109, 111]),
   (2, [])]

set_option maxRecDepth 4000 in
theorem exampleOtherFile_readable : Readable (vfbCodec exampleAngles exampleAsm) false {} exampleOtherFile := by
  unfold exampleOtherFile
  refine ⟨by decide, by decide, by decide, fun _ => ⟨.int 2, rfl⟩, ?_⟩
  refine ⟨by decide, by decide, by decide, fun h => absurd h (by decide), ?_⟩
  refine ⟨by decide, by decide, by decide, fun h => absurd h (by decide), ?_⟩
  refine ⟨by decide, by decide, by decide, fun h => absurd h (by decide), ?_⟩
  refine ⟨by decide, by decide, by decide, fun h => absurd h (by decide), ?_⟩
  refine ⟨by decide, by decide, by decide, fun h => absurd h (by decide), ?_⟩
  refine ⟨by decide, by decide, by decide, fun h => absurd h (by decide), ?_⟩
  refine ⟨by decide, by decide, by decide, fun h => absurd h (by decide), ?_⟩
  refine ⟨by decide, by decide, by decide, fun h => absurd h (by decide), ?_⟩
  refine ⟨by decide, by decide, by decide +kernel, fun h => absurd h (by decide), ?_⟩
  refine ⟨by decide, by decide, by decide, fun h => absurd h (by decide), ?_⟩
  refine ⟨by decide, by decide, by decide +kernel, fun h => absurd h (by decide), ?_⟩
  refine ⟨by decide, by decide, by decide, fun h => absurd h (by decide), ?_⟩
  exact ⟨by decide, by decide, by decide, fun h => absurd h (by decide), trivial⟩

/-- the entries of both files can be decompiled -/
theorem isOk_exists {α : Type} {x : Except PyErr α} (h : x.toOption.isSome = true) : ∃ d, x = .ok d := by
  cases x with
  | ok d => exact ⟨d, rfl⟩
  | error e => cases h

theorem all_ok {α β : Type} (f : α → Except PyErr β) (l : List α) (h : (l.all fun p => (f p).toOption.isSome) = true) :
    ∀ p ∈ l, ∃ d, f p = .ok d := fun p hp => isOk_exists (List.all_eq_true.1 h p hp)

/-- the hypotheses of `C104_files` are met by the two files: the command does the same, whatever the rest of the disk is; with the disk of the
example, it succeeds (`exampleRun_ok`) -/
example (fs : Files exampleAsm.Asm) : vfb3ufo exampleAngles (fun _ => 0) exampleAsm exampleFmt
      { input := ⟨lit "/f", lit "A.vfb"⟩, path := some (lit "/g") } 10 (fs.set ⟨lit "/f", lit "A.vfb"⟩ (.bytes (fileOf 5 exampleMmFile ++ []))) =
    vfb3ufo exampleAngles (fun _ => 0) exampleAsm exampleFmt
      { input := ⟨lit "/f", lit "A.vfb"⟩, path := some (lit "/g") } 10 (fs.set ⟨lit "/f", lit "A.vfb"⟩ (.bytes (fileOf 4 exampleOtherFile ++ [9]))) :=
  C104_files exampleAngles (fun _ => 0) exampleAsm exampleFmt { input := ⟨lit "/f", lit "A.vfb"⟩, path := some (lit "/g") } 10 fs 5 4
    exampleMmFile exampleOtherFile [] [9] ⟨exampleMmFile.dropLast, [], rfl, by decide⟩ ⟨exampleOtherFile.dropLast, [], rfl, by decide⟩
    exampleMmFile_readable exampleOtherFile_readable (by decide)
    (all_ok _ _ (by decide +kernel)) (all_ok _ _ (by decide +kernel))
    ⟨by decide +kernel, by decide +kernel, by decide +kernel, by decide +kernel⟩

theorem ok_pair {α : Type} (p : Except PyErr Unit × α) (h : p.1.toOption.isSome = true) : p = (.ok (), p.2) := by
  rcases p with ⟨⟨x⟩ | ⟨⟨⟩⟩, b⟩
  · cases h
  · rfl

/-- the font that `vfb3ufo` reads from a file -/
def exampleRead (file : Bytes) : Vfb (Decompiled exampleAngles.Angle exampleAsm.Asm) (List MasterData) :=
  (Vfb.readBytes (vfbCodec exampleAngles exampleAsm) { drop_keys := [1500, 1501] } file).2

/-- payloads and numbers, which can be compared -/
def exampleCode {A ASM : Type} (x : Int × EData (Decompiled A ASM)) : Option (Int × Bool × Bytes × Int) :=
  match x.2 with
  | .bytes b => some (x.1, false, b, 0)
  | .dec (.int v) => some (x.1, true, [], v)
  | _ => none

theorem exampleCode_inj {A ASM : Type} (x y : Int × EData (Decompiled A ASM)) (h : exampleCode x = exampleCode y) (hs : (exampleCode x).isSome = true) :
    x = y := by
  rcases x with ⟨i, x⟩
  rcases y with ⟨j, y⟩
  unfold exampleCode at h hs
  dsimp only at h hs
  split at h <;> split at h <;> simp_all

theorem exampleCode_list {A ASM : Type} : ∀ (l l' : List (Int × EData (Decompiled A ASM))), l.map exampleCode = l'.map exampleCode →
    (l.all fun x => (exampleCode x).isSome) = true → l = l'
  | [], [], _, _ => rfl
  | [], _ :: _, h, _ => by cases h
  | _ :: _, [], h, _ => by cases h
  | x :: l, y :: l', h, hs => by
    rw [List.map_cons, List.map_cons] at h
    injection h with h1 h2
    rw [List.all_cons, Bool.and_eq_true] at hs
    rw [exampleCode_inj x y h1 hs.1, exampleCode_list l l' h2 hs.2]

/-- the hypotheses of `C104_every_file` are met by the same two files -/
example (fs : Files exampleAsm.Asm) : vfb3ufo exampleAngles (fun _ => 0) exampleAsm exampleFmt
      { input := ⟨lit "/f", lit "A.vfb"⟩, path := some (lit "/g") } 10 (fs.set ⟨lit "/f", lit "A.vfb"⟩ (.bytes (fileOf 5 exampleMmFile ++ []))) =
    vfb3ufo exampleAngles (fun _ => 0) exampleAsm exampleFmt
      { input := ⟨lit "/f", lit "A.vfb"⟩, path := some (lit "/g") } 10 (fs.set ⟨lit "/f", lit "A.vfb"⟩ (.bytes (fileOf 4 exampleOtherFile ++ [9]))) :=
  C104_every_file exampleAngles (fun _ => 0) exampleAsm exampleFmt { input := ⟨lit "/f", lit "A.vfb"⟩, path := some (lit "/g") } 10 fs _ _
    (exampleRead (fileOf 5 exampleMmFile ++ [])) (exampleRead (fileOf 4 exampleOtherFile ++ [9])) _ _
    (ok_pair _ (by decide +kernel)) (ok_pair _ (by decide +kernel)) (ok_pair _ (by decide +kernel)) (ok_pair _ (by decide +kernel))
    (by decide +kernel)
    ⟨exampleCode_list _ _ (by decide +kernel) (by decide +kernel), exampleCode_list _ _ (by decide +kernel) (by decide +kernel),
      exampleCode_list _ _ (by decide +kernel) (by decide +kernel), exampleCode_list _ _ (by decide +kernel) (by decide +kernel)⟩

end Verif.Props
