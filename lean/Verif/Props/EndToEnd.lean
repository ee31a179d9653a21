import Verif.Spec.EndToEnd
import Verif.Props.Cmdline
import Verif.Props.Json
/-! C90: from the bytes of a VFB file to the UFOs on disk. -/
set_option autoImplicit false
namespace Verif.Props
open Verif Verif.Spec

/-! ## reading -/

theorem decompileEntries_drop {D T : Type} (C : Codec D T) (c : Ctx) (drop : List Int) : ∀ es : List (Entry D T), (∀ e ∈ es, e.id ∉ drop) →
    decompileEntries C c drop es = decompileEntries C c [] es
  | [], _ => rfl
  | e :: es, h => by
    rw [decompileEntries, decompileEntries, if_neg (h e (by simp)), if_neg (by simp), decompileEntries_drop C c drop es fun e he => h e (by simp [he])]

theorem forall₂_filter {α β : Type} {R : α → β → Prop} {p : α → Bool} {q : β → Bool} {l : List α} {m : List β} (h : List.Forall₂ R l m)
    (hpq : ∀ a b, R a b → p a = q b) : List.Forall₂ R (l.filter p) (m.filter q) := by
  induction h with
  | nil => exact .nil
  | @cons a b l m hab _ ih =>
    rw [List.filter_cons, List.filter_cons, hpq a b hab]
    split
    · exact .cons hab ih
    · exact ih

section
variable (ops : AngleOps) (deg : ops.Angle → Rat) (asm : AsmOps) (fmt : Int → PyStr)

/-- **C90** What the converter works on: for every readable file — whatever follows its end entry — the decompiled entries are those of the
file, in the same order, each with the data that the parser of its id reads from its payload, without the encodings; and reading succeeds exactly if
all of these can be parsed. -/
theorem C90_read (a : UfoArgs) (minor : UInt8) (es : List (Nat × Bytes)) (tail : Bytes) (ht : Terminated es)
    (hr : Readable (vfbCodec ops asm) a.unicode_strings {} es) (l : List (FEntry ops asm)) :
    readFont ops asm a (fileOf minor es ++ tail) = .ok l ↔ List.Forall₂ (Decoded ops asm (fileCtx ops asm a es)) (keptEntries es) l := by
  unfold readFont
  rw [read_file (vfbCodec ops asm) { drop_keys := [1500, 1501], force_unicode_strings := a.unicode_strings } minor es tail rfl ht hr]
  dsimp only
  have hl := loaded_forall (vfbCodec ops asm) (vfb_special_fixed ops asm) a.unicode_strings {} (fileCtx ops asm a es) es hr
  have hl' := forall₂_filter (p := fun p => decide (p.1 ≠ 1500 ∧ p.1 ≠ 1501))
    (q := fun e : Entry (Decompiled ops.Angle asm.Asm) (List MasterData) => decide (e.id ∉ ([1500, 1501] : List Int))) hl (by
      rintro p e ⟨rfl, -⟩
      have : (loadedEntry (vfbCodec ops asm) (fileCtx ops asm a es) p : Entry (Decompiled ops.Angle asm.Asm) (List MasterData)).id = p.1 := by
        unfold loadedEntry
        split
        · split <;> rfl
        · rfl
      rw [this]
      simp only [List.mem_cons, List.not_mem_nil, or_false, not_or, decide_eq_decide]
      omega)
  generalize hm : (loaded (vfbCodec ops asm) a.unicode_strings {} es).filter
    (fun e : Entry (Decompiled ops.Angle asm.Asm) (List MasterData) => decide (e.id ∉ ([1500, 1501] : List Int))) = m at hl'
  have hdrop : ∀ e ∈ m, e.id ∉ ([1500, 1501] : List Int) := by
    intro e he
    rw [← hm] at he
    simpa using (List.mem_filter.1 he).2
  unfold Vfb.decompile
  simp only [HData.decompile]
  rw [decompileEntries_drop _ _ _ m hdrop]
  rw [show ctxAll (vfbCodec ops asm) a.unicode_strings {} es = fileCtx ops asm a es from rfl]
  change List.Forall₂ _ (keptEntries es) m at hl'
  constructor
  · intro h
    rcases hd : decompileEntries (vfbCodec ops asm) (fileCtx ops asm a es) [] m with ⟨r, m', f⟩
    rw [hd] at h
    cases r with
    | error x => cases h
    | ok u =>
      cases h
      have hk := decompileEntries_ok _ _ m m' f hd
      unfold fontEntries
      simp only [List.forall₂_map_right_iff]
      refine (forall₂_comp hl' hk).imp ?_
      rintro p e' ⟨e, ⟨rfl, hsp⟩, he⟩
      obtain ⟨d, hd, rfl⟩ := (loadedEntry_decompile (vfbCodec ops asm) (fileCtx ops asm a es) p e' hsp).1 he
      exact ⟨rfl, d, hd, rfl⟩
  · intro h
    have : ∃ m' : List (Entry (Decompiled ops.Angle asm.Asm) (List MasterData)),
        List.Forall₂ (fun e e' => e.decompile (vfbCodec ops asm) (fileCtx ops asm a es) = (.ok (), e', false)) m m' ∧
        ∀ v : Vfb (Decompiled ops.Angle asm.Asm) (List MasterData), v.entries = m' → fontEntries v = l := by
      generalize keptEntries es = k at hl' h
      clear hdrop hm
      induction hl' generalizing l with
      | nil => cases h; exact ⟨[], .nil, fun v hv => by unfold fontEntries; rw [hv]; rfl⟩
      | @cons p e ps m hpe _ ih =>
        cases h with
        | @cons _ x _ l hx hxs =>
        obtain ⟨m', k1, k2⟩ := ih _ hxs
        obtain ⟨rfl, hsp⟩ := hpe
        obtain ⟨hid, d, hd, hx2⟩ := hx
        refine ⟨{ id := p.1, data := .dec d } :: m', .cons ((loadedEntry_decompile (vfbCodec ops asm) (fileCtx ops asm a es) p _ hsp).2 ⟨d, hd, rfl⟩) k1, ?_⟩
        intro v hv
        have := k2 { v with entries := m' } rfl
        unfold fontEntries at this ⊢
        rw [hv, List.map_cons, this]
        congr 1
        exact Prod.ext hid.symm hx2.symm
    obtain ⟨m', k1, k2⟩ := this
    rw [decompileEntries_exists _ _ m m' k1]
    exact congrArg Except.ok (k2 _ rfl)

/-- **C90** The data of all entries are of the types that the converter expects. -/
theorem C90_typed {c : Ctx} {p : Nat × Bytes} {e : FEntry ops asm} (h : Decoded ops asm c p e) : WellTyped ops asm e := by
  obtain ⟨h1, d, h2, h3⟩ := h
  intro k d' hk hd
  rw [h3] at hd
  cases hd
  rw [h1] at hk
  obtain ⟨x, rfl⟩ := parse_inj ops asm hk h2
  rw [proj_inj]
  rfl

theorem decoded_typed {c : Ctx} {ps : List (Nat × Bytes)} {l : List (FEntry ops asm)} (h : List.Forall₂ (Decoded ops asm c) ps l) :
    ∀ e ∈ l, WellTyped ops asm e := by
  induction h with
  | nil => simp
  | cons h _ ih =>
    intro e he
    rcases List.mem_cons.1 he with rfl | he
    · exact C90_typed ops asm h
    · exact ih e he

/-! ## the run -/

theorem build_cases {o : BuildOpts} {depth : Nat} {es : List (FEntry ops asm)} {b : Built ops.Angle asm.Asm}
    (h : build ops asm fmt o depth es = .ok b) : buildMasters ops asm o es = .ok b.masters ∧ buildInfo fmt ops asm o es = .ok b.info := by
  unfold build at h
  cases h1 : buildGlyphsTt ops asm o es with
  | error e => rw [h1] at h; cases h
  | ok g =>
  rw [h1] at h
  replace h : (ttGlyphLib ops asm depth g.2 (freshLabels ops asm g.1) (sortedGlyphs g.1.masters) >>= _) = Except.ok b := h
  cases h2 : ttGlyphLib ops asm depth g.2 (freshLabels ops asm g.1) (sortedGlyphs g.1.masters) with
  | error e => rw [h2] at h; cases h
  | ok c =>
  rw [h2] at h
  replace h : (buildMasters ops asm o es >>= _) = Except.ok b := h
  cases h3 : buildMasters ops asm o es with
  | error e => rw [h3] at h; cases h
  | ok m =>
  rw [h3] at h
  replace h : (buildFeatures ops asm o es >>= _) = Except.ok b := h
  cases h4 : buildFeatures ops asm o es with
  | error e => rw [h4] at h; cases h
  | ok f =>
  rw [h4] at h
  replace h : (buildInfo fmt ops asm o es >>= _) = Except.ok b := h
  cases h5 : buildInfo fmt ops asm o es with
  | error e => rw [h5] at h; cases h
  | ok i =>
  rw [h5] at h
  cases h
  exact ⟨rfl, rfl⟩

/-- what the conversion of a font gives -/
theorem ufosDesignspace_cases {a : UfoArgs} {depth : Nat} {l : List (FEntry ops asm)} {ufos : List (UfoFont asm.Asm)} {ds : Option DsDoc}
    (h : ufosDesignspace ops deg asm fmt a depth l = .ok (ufos, ds)) :
    convert ops deg asm fmt a.opts depth l = .ok ufos ∧ ∃ mp ip, buildMasters ops asm a.opts.build l = .ok mp ∧
      buildInfo fmt ops asm a.opts.build l = .ok ip ∧
      ((mp.axes = [] ∧ ds = none) ∨ (mp.axes ≠ [] ∧ ∃ d, ds = some d ∧
        getDesignspace mp ((dsFamilyName ip.attrs).getD (lit "None")) a.out.name = .ok d)) := by
  unfold ufosDesignspace at h
  cases hb : build ops asm fmt a.opts.build depth l with
  | error e => rw [hb] at h; cases h
  | ok b =>
    rw [hb] at h
    replace h : (ufoMasters ops deg asm a.opts depth b >>= _) = _ := h
    cases hu : ufoMasters ops deg asm a.opts depth b with
    | error e => rw [hu] at h; cases h
    | ok us =>
      rw [hu] at h
      replace h : (if us.isEmpty = true then .error .value else if b.masters.axes.isEmpty = true then .ok (us, none) else
        getDesignspace b.masters ((dsFamilyName b.info.attrs).getD (lit "None")) a.out.name >>= fun ds => .ok (us, some ds)) = .ok (ufos, ds) := h
      have hconv : convert ops deg asm fmt a.opts depth l = .ok us := by
        unfold convert
        rw [hb]
        exact hu
      obtain ⟨k1, k2⟩ := build_cases ops asm fmt hb
      split at h
      · cases h
      split at h
      · rename_i _ hx
        cases h
        exact ⟨hconv, _, _, k1, k2, .inl ⟨List.isEmpty_iff.1 hx, rfl⟩⟩
      · rename_i _ hx
        cases hd : getDesignspace b.masters ((dsFamilyName b.info.attrs).getD (lit "None")) a.out.name with
        | error e => rw [hd] at h; cases h
        | ok d =>
          rw [hd] at h
          cases h
          exact ⟨hconv, _, _, k1, k2, .inr ⟨fun hc => hx (List.isEmpty_iff.2 hc), d, rfl, hd⟩⟩

/-- the options of the conversion that belong to a command line -/
def optsOf (a : UfoArgs) : UfoOpts := ⟨⟨a.minimal, a.minimal, !a.no_postscript_hints⟩, ⟨a.add_kerning_groups, !a.keep_groups⟩, a.base64⟩

/-- **C90** Every successful run, from bytes to bytes on disk: the UFOs on disk are those that the conversion (C84) makes of the data in the file, with
the options of the command line; there is one for each master (C71). -/
theorem C90_files (a : UfoArgs) (depth : Nat) (fs : Files asm.Asm) {stem : PyStr} (hn : a.input.name ≠ []) (hs : IsStem a.input.name stem)
    (minor : UInt8) (es : List (Nat × Bytes)) (tail : Bytes) (hf : fs a.input = some (.bytes (fileOf minor es ++ tail))) (ht : Terminated es)
    (hr : Readable (vfbCodec ops asm) a.unicode_strings {} es) (hok : (vfb3ufo ops deg asm fmt a depth fs).1 = .ok ()) :
    ∃ l ufos ds, List.Forall₂ (Decoded ops asm (fileCtx ops asm a es)) (keptEntries es) l ∧
      ufosDesignspace ops deg asm fmt a depth l = .ok (ufos, ds) ∧
      convert ops deg asm fmt (optsOf a) depth l = .ok ufos ∧
      (∀ k u, ufos[k]? = some u → contentAfter fs (vfb3ufo ops deg asm fmt a depth fs).2 (ufoFile a stem k) = some (savedUfo a u)) ∧
      (∀ d, ds = some d → contentAfter fs (vfb3ufo ops deg asm fmt a depth fs).2 (dsPath a stem) = some (.designspace d)) ∧
      ∃ axes : Int, LastOr ops asm (dataOf ops asm (optsOf a).build l 1513) .int 0 axes ∧
        ufos.length = max (textsOf ops asm (optsOf a).build l 1504).length (expectedMasters axes) := by
  obtain ⟨file, ufos, ds, hf', hc, h1, h2, -⟩ := C89_success ops deg asm fmt a depth fs hn hs hok
  rw [hf] at hf'
  cases hf'
  unfold converted at hc
  cases hl : readFont ops asm a (fileOf minor es ++ tail) with
  | error e => rw [hl] at hc; cases hc
  | ok l =>
    rw [hl] at hc
    replace hc : ufosDesignspace ops deg asm fmt a depth l = .ok (ufos, ds) := hc
    obtain ⟨c1, -⟩ := ufosDesignspace_cases ops deg asm fmt hc
    refine ⟨l, ufos, ds, (C90_read ops asm a minor es tail ht hr l).1 hl, hc, c1, h1, h2, ?_⟩
    obtain ⟨b, -, -, -, -, g1, -, -, -, g2, -⟩ := convert_cases c1
    obtain ⟨axes, x1, x2, -⟩ := C71_masters g1
    exact ⟨axes, x1, by rw [g2, x2]; rfl⟩

/-- **C90** The glyphs, from bytes to bytes on disk.  If the glyphs of the file have got different names, then each UFO on disk has got exactly these
glyphs, in this order, and each of them is, for the master of the UFO, what the payloads of the "Glyph" entry and of the entries after it say. -/
theorem C90_glyphs (hdeg : ∀ x, -90 ≤ deg x ∧ deg x ≤ 90) (a : UfoArgs) (depth : Nat) (fs : Files asm.Asm) {stem : PyStr} (hn : a.input.name ≠ [])
    (hs : IsStem a.input.name stem) (minor : UInt8) (es : List (Nat × Bytes)) (tail : Bytes)
    (hf : fs a.input = some (.bytes (fileOf minor es ++ tail))) (ht : Terminated es)
    (hr : Readable (vfbCodec ops asm) a.unicode_strings {} es) (hok : (vfb3ufo ops deg asm fmt a depth fs).1 = .ok ()) :
    ∃ l, List.Forall₂ (Decoded ops asm (fileCtx ops asm a es)) (keptEntries es) l ∧
      ∀ names : List PyStr, (blocks ops asm l).map (fun b => b.1.name) = names.map some → names.Nodup →
        ∃ gs, List.Forall₂ (Describes ops asm ⟨a.minimal, a.minimal, !a.no_postscript_hints⟩) (blocks ops asm l) gs ∧
          ∃ n, 0 < n ∧ ∀ k, k < n → ∃ u, contentAfter fs (vfb3ufo ops deg asm fmt a depth fs).2 (ufoFile a stem k) = some (savedUfo a u) ∧
            u.lib.glyphOrder = names ∧
            Corresponds (fun g x => x.1 = g.name ∧ ∃ labels, IsMaster ops deg asm a.minimal names labels k g x.2) gs u.glyphs := by
  obtain ⟨l, ufos, ds, h1, -, h3, h4, -, -⟩ := C90_files ops deg asm fmt a depth fs hn hs minor es tail hf ht hr hok
  refine ⟨l, h1, fun names hnames hd => ?_⟩
  obtain ⟨gp, stems, zones, mp, fp, ip, s, g1, -, -, g4, -, -, -, g8, hu⟩ := C84_fonts hdeg h3
  obtain ⟨o1, gs, o2, o3⟩ := C65_distinct ops asm g1 names hnames hd
  refine ⟨gs, o2, ufos.length, ?_, fun k hk => ?_⟩
  · rw [g8]
    exact List.length_pos_iff.2 (C71_at_least_one g4)
  · refine ⟨ufos[k], h4 k _ (List.getElem?_eq_getElem hk), ?_⟩
    have hF := hu k _ (List.getElem?_eq_getElem hk)
    refine ⟨by rw [hF.glyphOrder, o1], ?_⟩
    have hgn : gs.map BGlyph.name = names := by
      have : (gs.map BGlyph.name).map some = names.map some := by rw [← hnames, names_of ops asm o2]; simp
      exact List.map_injective_iff.2 (Option.some_injective _) this
    have hlen : names.length = gs.length := by rw [← hgn, List.length_map]
    have hG := hF.glyphs
    rw [o3, o1] at hG
    refine ⟨by rw [← hG.1, List.length_zip]; omega, fun i g x hg hx => ?_⟩
    have hz : (names.zip gs)[i]? = some (g.name, g) := by
      rw [List.getElem?_zip_eq_some]
      refine ⟨?_, hg⟩
      rw [← hgn, List.getElem?_map, hg]
      rfl
    exact hG.2 i _ x hz hx

/-! ## glyph payloads -/

/-- **C90** The glyphs that are converted are the parsed payloads of the "Glyph" entries (id 2001), one for each, in the order of the file. -/
theorem C90_glyph_payloads {c : Ctx} {es : List (Nat × Bytes)} {l : List (FEntry ops asm)}
    (h : List.Forall₂ (Decoded ops asm c) (keptEntries es) l) :
    List.Forall₂ (fun p b => parseEntry (parseGlyph ops asm) p.2 = .ok b.1) (es.filter fun p => p.1 = 2001) (blocks ops asm l) := by
  have hfil : (es.filter fun p => decide (p.1 = 2001)) = (keptEntries es).filter fun p => p.1 = 2001 := by
    unfold keptEntries
    rw [List.filter_filter]
    congr 1
    funext p
    by_cases h : p.1 = 2001 <;> simp [h]
  rw [hfil]
  generalize keptEntries es = ps at h
  induction h with
  | nil => exact .nil
  | @cons p e ps l hpe _ ih =>
    obtain ⟨h1, d, h2, h3⟩ := hpe
    rw [blocks]
    by_cases hid : p.1 = 2001
    · rw [List.filter_cons, if_pos (by simpa using hid)]
      have hk : kindOf (p.1 : Int) = some .glyph := by rw [hid]; rfl
      have hparse : (vfbCodec ops asm).parse p.1 c = (do
          let x ← (Kind.glyph.cls ops asm).parse c
          pure ((Kind.glyph.cls ops asm).inj x)) := by
        show tableParse ops asm p.1 c = _
        unfold tableParse
        rw [hk]
      rw [hparse, parseEntry_map] at h2
      cases hg : parseEntry ((Kind.glyph.cls ops asm).parse c) p.2 with
      | error x => rw [hg] at h2; cases h2
      | ok g =>
        rw [hg] at h2
        have h2 : (Kind.glyph.cls ops asm).inj g = d := by injection h2
        have hof : glyphOf ops asm e = some g := by
          unfold glyphOf
          rw [if_pos (by rw [h1, hid]; rfl), h3, ← h2]
          rfl
        rw [hof]
        exact .cons hg ih
    · rw [List.filter_cons, if_neg (by simpa using hid)]
      have hof : glyphOf ops asm e = none := by
        unfold glyphOf
        rw [if_neg (by rw [h1]; omega)]
      rw [hof]
      exact ih

/-! ## kerning -/

theorem masterKerning_lengths {k : UfoKerning} {m : Nat} {pairs : List ((PyStr × PyStr) × Int)} (h : k.masterKerning m = .ok pairs) :
    ∀ e ∈ k.names, m < e.2.length := by
  unfold UfoKerning.masterKerning at h
  generalize ([] : List ((PyStr × PyStr) × Int)) = acc at h
  generalize k.names = l at h
  induction l generalizing acc with
  | nil => simp
  | cons e l ih =>
    rw [List.foldlM_cons] at h
    cases hp : pyIndex e.2 (m : Int) with
    | error x => rw [hp] at h; cases h
    | ok v =>
      rw [hp] at h
      intro x hx
      rcases List.mem_cons.1 hx with rfl | hx
      · exact (List.getElem?_eq_some_iff.1 (pyIndex_get?.1 hp)).1
      · exact ih _ h x hx

theorem firstGroup_filter {side : Nat} {groups : Groups} {keep : PyStr → Bool} {g : PyStr} (h : ∀ n, KernName n → keep n = true) (hs : side = 1 ∨ side = 2) :
    firstGroup side (groups.filter fun e => keep e.1) g = firstGroup side groups g := by
  unfold firstGroup
  rw [List.find?_filter]
  congr 2
  funext e
  by_cases ho : OfSide side e.1
  · have : KernName e.1 := by
      unfold OfSide sidePrefix at ho
      refine List.IsPrefix.trans ?_ ho
      rcases hs with rfl | rfl
      · exact ⟨lit "1", rfl⟩
      · exact ⟨lit "2", rfl⟩
    rw [h e.1 this]
    simp
  · simp [ho]

theorem kerning_dictOk {bs : List (Glyph ops.Angle asm.Asm × List (FEntry ops asm))} (hd : (bs.map fun b => b.1.name).Nodup)
    (hn : ∀ b ∈ bs, b.1.name ≠ none) (hk : ∀ b ∈ bs, ∀ k, b.1.kerning = some k → DictOk k) :
    DictOk (bs.flatMap fun b => (b.1.kerning.getD []).map fun v => ((b.1.name.getD [], v.1), v.2)) := by
  unfold DictOk
  rw [List.map_flatMap, List.nodup_flatMap]
  constructor
  · intro b hb
    rw [List.map_map]
    cases hbk : b.1.kerning with
    | none => simp
    | some k =>
      have h := hk b hb k hbk
      unfold DictOk at h
      rw [show (Prod.fst ∘ fun v : Int × List Int => ((b.1.name.getD [], v.1), v.2)) = (fun i => (b.1.name.getD [], i)) ∘ Prod.fst from rfl,
        ← List.map_map, Option.getD_some]
      exact h.map fun i j hij => by simpa using hij
  · unfold List.Nodup at hd
    rw [List.pairwise_map] at hd
    refine hd.imp_of_mem ?_
    intro b b' hb hb' hne x hx hx'
    simp only [List.mem_map] at hx hx'
    obtain ⟨y, ⟨v, -, rfl⟩, rfl⟩ := hx
    obtain ⟨y', ⟨v', -, rfl⟩, he⟩ := hx'
    simp only [Prod.mk.injEq] at he
    apply hne
    have h1 := hn b hb
    have h2 := hn b' hb'
    cases e1 : b.1.name with
    | none => exact absurd e1 h1
    | some s =>
      cases e2 : b'.1.name with
      | none => exact absurd e2 h2
      | some s' =>
        rw [e1, e2] at he
        simpa using he.1.symm

/-- the kerning of the file: for each glyph, in order, the pairs with the indices of the right glyphs, and the values for the masters -/
def fileKerning (l : List (FEntry ops asm)) : MMKerning :=
  (blocks ops asm l).flatMap fun b => (b.1.kerning.getD []).map fun v => ((b.1.name.getD [], v.1), v.2)

/-- **C90** Kerning, from bytes to bytes on disk.  Let the glyphs of the file have different names that do not look like kerning groups of a UFO, let the
classes of the file not look like them either, let the pairs refer to glyphs of the file, and let no key glyph be in two kerning classes of the same side.
Then, unless both `-k` and moving of groups are asked for, the kerning of each two glyphs in the UFO of master `k` — by the rules of the UFO
specification — is that which the file says for the master `k` — by the rules of FontLab. -/
theorem C90_kerning (hdeg : ∀ x, -90 ≤ deg x ∧ deg x ≤ 90) (a : UfoArgs) (depth : Nat) (fs : Files asm.Asm) {stem : PyStr} (hn : a.input.name ≠ [])
    (hs : IsStem a.input.name stem) (minor : UInt8) (es : List (Nat × Bytes)) (tail : Bytes)
    (hf : fs a.input = some (.bytes (fileOf minor es ++ tail))) (ht : Terminated es)
    (hr : Readable (vfbCodec ops asm) a.unicode_strings {} es) (hok : (vfb3ufo ops deg asm fmt a depth fs).1 = .ok ())
    (hopt : a.add_kerning_groups = false ∨ a.keep_groups = true) :
    ∃ (l : List (FEntry ops asm)) (ufos : List (UfoFont asm.Asm)), List.Forall₂ (Decoded ops asm (fileCtx ops asm a es)) (keptEntries es) l ∧
      (∀ k u, ufos[k]? = some u → contentAfter fs (vfb3ufo ops deg asm fmt a depth fs).2 (ufoFile a stem k) = some (savedUfo a u)) ∧
      ∃ (classes : Groups) (flags : List (PyStr × Int)),
        (∀ n gs, dictGet classes n = some gs ↔ FirstClass (textsOf ops asm (optsOf a).build l 1277) n gs) ∧
        ((dataOf ops asm (optsOf a).build l 2026 = [] ∧ flags = []) ∨
          ∃ f, (dataOf ops asm (optsOf a).build l 2026).getLast? = some (.kerningFlags f) ∧ flags = f.map fun e => (e.1, e.2.1)) ∧
        ∀ names : List PyStr, (blocks ops asm l).map (fun b => b.1.name) = names.map some → names.Nodup → (∀ g ∈ names, ¬ KernName g) →
          (∀ e ∈ classes, ¬ KernName e.1 ∧ ∀ g ∈ classGlyphs e.2, ¬ KernName g) →
          (∀ e ∈ fileKerning ops asm l, 0 ≤ e.1.2 ∧ e.1.2 < names.length) →
          (∀ e ∈ classes, ∀ e' ∈ classes, ∀ k side, keyGlyph names e.2 = some k → (side = 1 ∨ side = 2) → k ∈ classGlyphs e'.2 →
            kernName side e.1 ∈ finalNames flags e.1 → kernName side e'.1 ∈ finalNames flags e'.1 → e.1 = e'.1) →
          ∀ k u, ufos[k]? = some u → ∀ x y, ¬ KernName x → ¬ KernName y →
            ufoLookup u.groups u.kerning x y = vfbLookup (storedKerning names (fileKerning ops asm l) k)
              (classKey (transformGroups classes flags names a.minimal).groups (transformGroups classes flags names a.minimal).keys) x y := by
  obtain ⟨l, ufos, ds, h1, -, h3, h4, -, -⟩ := C90_files ops deg asm fmt a depth fs hn hs minor es tail hf ht hr hok
  obtain ⟨gp, stems, zones, mp, fp, ip, s, g1, -, -, -, g5, -, g7, -, hu⟩ := C84_fonts hdeg h3
  obtain ⟨c1, c2, -⟩ := C75_classes g5
  refine ⟨l, ufos, h1, h4, fp.groups, fp.flags, c2, (C75_code g5).2, ?_⟩
  intro names hnames hd hkn hcl hidx hkey k u hk x y hx hy
  obtain ⟨o1, -⟩ := C65_distinct ops asm g1 names hnames hd
  have hpay := C90_glyph_payloads ops asm h1
  have hdict : ∀ b ∈ blocks ops asm l, ∀ k, b.1.kerning = some k → DictOk k := by
    intro b hb k hbk
    obtain ⟨i, hi, rfl⟩ := List.getElem_of_mem hb
    have := (List.forall₂_iff_get.1 hpay).2 i (by have := (List.forall₂_iff_get.1 hpay).1; omega) hi
    exact ((parseEntry_post (post_glyph ops asm) this).kerning k hbk).1
  have hnd : ((blocks ops asm l).map fun b => b.1.name).Nodup := by
    rw [hnames]; exact hd.map (Option.some_injective _)
  have hnm : ∀ b ∈ blocks ops asm l, b.1.name ∈ names.map some := fun b hb => hnames ▸ List.mem_map_of_mem hb
  have hkern : gp.kerning = fileKerning ops asm l := C65_kerning ops asm g1 hnd hdict
  have hkok : DictOk (fileKerning ops asm l) := kerning_dictOk ops asm hnd (fun b hb hc => by
    have := hnm b hb
    rw [hc] at this
    simp at this) hdict
  have hleft : ∀ e ∈ fileKerning ops asm l, ¬ KernName e.1.1 := by
    intro e he
    unfold fileKerning at he
    simp only [List.mem_flatMap, List.mem_map] at he
    obtain ⟨b, hb, v, -, rfl⟩ := he
    have := hnm b hb
    obtain ⟨n, hn', hn''⟩ := List.mem_map.1 this
    rw [← hn'']
    exact hkn n hn'
  have hK := font_kerningOk fp.groups fp.flags names a.minimal (fileKerning ops asm l) c1 (fun e he => (hcl e he).1) hd hkok hidx hleft hkn
    (fun e he => (hcl e he).2) hkey
  rw [o1, hkern] at g7
  have hF := hu k u hk
  obtain ⟨kk, q1, q2, -, -, -, q6⟩ := sharedData_cases g7
  change ufoKerning names (transformGroups fp.groups fp.flags names a.minimal).groups (fileKerning ops asm l) (transformGroups fp.groups fp.flags names a.minimal).keys = .ok kk at q1
  have hlen : ∀ e ∈ fileKerning ops asm l, k < e.2.length := by
    have := masterKerning_lengths hF.kerning
    rw [q2] at this
    rw [ufoKerning_ok hK] at q1
    cases q1
    intro e he
    exact this _ (List.mem_map.2 ⟨e, he, rfl⟩)
  obtain ⟨k2, pairs, r1, r2, r3⟩ := C50_effective_kerning hK k hlen
  rw [q1] at r1
  cases r1
  rw [← q2, hF.kerning] at r2
  cases r2
  rw [← r3 x y hx hy]
  have hgroups : ∀ side, side = 1 ∨ side = 2 → ∀ g, firstGroup side u.groups g = firstGroup side kk.groups g := by
    intro side hside g
    rw [hF.groups, q6]
    cases hmv : (optsOf a).fea.moveGroups with
    | false => rfl
    | true =>
      rw [if_pos rfl]
      refine firstGroup_filter (keep := fun n => !(((transformGroups fp.groups fp.flags names a.minimal).groups.filter
        fun g => toFeatures (optsOf a).fea g.1).map Prod.fst).contains n) ?_ hside
      intro n hn'
      have := moved_iff (o := (optsOf a).fea) (order := names) (minimal := a.minimal) (n := n) c1 (fun e he => (hcl e he).1)
      cases hc : (((transformGroups fp.groups fp.flags names a.minimal).groups.filter fun g => toFeatures (optsOf a).fea g.1).map Prod.fst).contains n with
      | false => rfl
      | true =>
        obtain ⟨hin, -⟩ := this.1 hc
        exfalso
        rcases hin with ⟨-, hin⟩ | ⟨hin, -⟩
        · rcases hopt with ho | ho
          · rw [show (optsOf a).fea.addKerning = a.add_kerning_groups from rfl, ho] at hin
            cases hin
          · rw [show (optsOf a).fea.moveGroups = !a.keep_groups from rfl, ho] at hmv
            cases hmv
        · exact hin hn'
  unfold ufoLookup
  rw [hgroups 1 (.inl rfl), hgroups 2 (.inr rfl)]

/-! ## designspace -/

/-- **C90** A designspace that the command writes has got a source for each of the masters that the file states (MasterCount, 1503), and the source number
`i` refers to the UFO number `i` by its name in the same folder; this UFO is on disk. -/
theorem C90_sources (a : UfoArgs) (depth : Nat) (fs : Files asm.Asm) {stem : PyStr} (hn : a.input.name ≠ []) (hs : IsStem a.input.name stem)
    (minor : UInt8) (es : List (Nat × Bytes)) (tail : Bytes) (hf : fs a.input = some (.bytes (fileOf minor es ++ tail))) (ht : Terminated es)
    (hr : Readable (vfbCodec ops asm) a.unicode_strings {} es) (hok : (vfb3ufo ops deg asm fmt a depth fs).1 = .ok ()) :
    ∃ l, List.Forall₂ (Decoded ops asm (fileCtx ops asm a es)) (keptEntries es) l ∧
      (textsOf ops asm (optsOf a).build l 1514 ≠ [] → ∃ d n, contentAfter fs (vfb3ufo ops deg asm fmt a depth fs).2 (dsPath a stem) = some (.designspace d) ∧
        (dataOf ops asm (optsOf a).build l 1503).getLast? = some (.int n) ∧ d.sources.length = n.toNat ∧
        d.axes.map Axis.name = textsOf ops asm (optsOf a).build l 1514 ∧
        ∀ i src, d.sources[i]? = some src → (ufoFile a stem i).dir = (dsPath a stem).dir ∧ (ufoFile a stem i).name = src.filename ∧
          ∃ u, contentAfter fs (vfb3ufo ops deg asm fmt a depth fs).2 (ufoFile a stem i) = some (savedUfo a u) ∧
          ∃ loc, locationOf ops asm (optsOf a).build l (i + 1) = some loc ∧
            LocationFor IsPerMille (textsOf ops asm (optsOf a).build l 1514) loc src.location) := by
  obtain ⟨l, ufos, ds, h1, h2, h3, h4, h5, -⟩ := C90_files ops deg asm fmt a depth fs hn hs minor es tail hf ht hr hok
  refine ⟨l, h1, fun hax => ?_⟩
  obtain ⟨-, mp, ip, g1, -, hc⟩ := ufosDesignspace_cases ops deg asm fmt h2
  obtain ⟨b, s, st, -, -, g2, -, -, -, g3, -⟩ := convert_cases h3
  have hb : b.masters = mp := by
    have : buildMasters ops asm a.opts.build l = .ok b.masters := g2
    rw [g1] at this
    exact (Except.ok.inj this).symm
  rw [hb] at g3
  rcases hc with ⟨hax', -⟩ | ⟨-, d, rfl, hd⟩
  · obtain ⟨st0, hi, rfl⟩ := buildMasters_inv g1
    exact absurd ((textsOf_of hi.axes).trans (by rw [show st0.axes = [] from hax']; rfl)) hax
  · obtain ⟨n, s1, s2, s3, s4⟩ := C72_sources g1 hd
    obtain ⟨-, w2, -⟩ := C72_written g1 hd
    refine ⟨d, n, h5 d rfl, s1, s2, s3, fun i src hi => ?_⟩
    obtain ⟨f1, -, -, f4⟩ := s4 i src hi
    have hlt : i < ufos.length := by
      have := (List.getElem?_eq_some_iff.1 hi).1
      omega
    refine ⟨rfl, ?_, ufos[i], h4 i _ (List.getElem?_eq_getElem hlt), f4⟩
    rw [f1, ← master_form a hn hs i]

/-! ## options -/

/-- **C90** What the options leave out, in the UFOs on disk: with `-m` there is no background layer, with `-nops` no glyph has got PostScript hints, and
TrueType hints are text unless base64 is asked for. -/
theorem C90_options (a : UfoArgs) (depth : Nat) (fs : Files asm.Asm) {stem : PyStr} (hn : a.input.name ≠ []) (hs : IsStem a.input.name stem)
    (minor : UInt8) (es : List (Nat × Bytes)) (tail : Bytes) (hf : fs a.input = some (.bytes (fileOf minor es ++ tail))) (ht : Terminated es)
    (hr : Readable (vfbCodec ops asm) a.unicode_strings {} es) (hok : (vfb3ufo ops deg asm fmt a depth fs).1 = .ok ()) :
    ∃ ufos : List (UfoFont asm.Asm), ufos ≠ [] ∧
      (∀ k u, ufos[k]? = some u → contentAfter fs (vfb3ufo ops deg asm fmt a depth fs).2 (ufoFile a stem k) = some (savedUfo a u)) ∧
      ∀ u ∈ ufos, (a.minimal = true → u.background = []) ∧
        ∀ x ∈ u.glyphs, (a.no_postscript_hints = true → x.2.psHints = []) ∧
          (∀ t, x.2.tth = some (.text t) → a.base64 = false) ∧ (∀ t, x.2.tth = some (.data t) → a.base64 = true) := by
  obtain ⟨l, ufos, ds, h1, h2, h3, h4, h5, -⟩ := C90_files ops deg asm fmt a depth fs hn hs minor es tail hf ht hr hok
  obtain ⟨b, s, st, -, -, g2, -, -, -, g3, -, g4⟩ := convert_cases h3
  refine ⟨ufos, ?_, h4, fun u hu => ⟨(C84_background h3 hu).1, fun x hx => ?_⟩⟩
  · intro hc
    rw [hc] at g3
    exact C71_at_least_one g2 (List.length_eq_zero_iff.1 g3.symm)
  · obtain ⟨k, hk⟩ := List.getElem?_of_mem hu
    obtain ⟨-, -, m3, -⟩ := ufoMaster_cases (g4 k u hk)
    obtain ⟨c1, c2⟩ := masterGlyphs_spec m3
    obtain ⟨i, hi⟩ := List.getElem?_of_mem hx
    have hlt : i < b.glyphs.masters.length := by
      have := (List.getElem?_eq_some_iff.1 hi).1
      omega
    obtain ⟨-, f, f', hg⟩ := c2 i _ x (List.getElem?_eq_getElem hlt) hi
    obtain ⟨-, q1, tth, -, q3, q4⟩ := C83_hints hg
    refine ⟨fun hp => (q1 (by show (!a.no_postscript_hints) = false; rw [hp]; rfl)).1, fun t ht' => ?_, fun t ht' => ?_⟩
    all_goals
      cases tth with
      | none => rw [q3 rfl] at ht'; cases ht'
      | some text =>
        cases hb : a.base64 with
        | false =>
          have := (q4 text rfl).1 hb
          first | rfl | (rw [this] at ht'; cases ht')
        | true =>
          obtain ⟨data, bytes, e, -⟩ := (q4 text rfl).2 hb
          first | rfl | (rw [e] at ht'; cases ht')

/-- **C90** Font info, from bytes to bytes on disk: each attribute of the info in the UFO of master `k` is what the last of the entries says that
determine it, by the tables of C78 and C80, or its default. -/
theorem C90_info (a : UfoArgs) (depth : Nat) (fs : Files asm.Asm) {stem : PyStr} (hn : a.input.name ≠ []) (hs : IsStem a.input.name stem)
    (minor : UInt8) (es : List (Nat × Bytes)) (tail : Bytes) (hf : fs a.input = some (.bytes (fileOf minor es ++ tail))) (ht : Terminated es)
    (hr : Readable (vfbCodec ops asm) a.unicode_strings {} es) (hok : (vfb3ufo ops deg asm fmt a depth fs).1 = .ok ()) :
    ∃ l, List.Forall₂ (Decoded ops asm (fileCtx ops asm a es)) (keptEntries es) l ∧ ∃ ufos : List (UfoFont asm.Asm),
      ∀ k u, ufos[k]? = some u → contentAfter fs (vfb3ufo ops deg asm fmt a depth fs).2 (ufoFile a stem k) = some (savedUfo a u) ∧
        ∀ attr : PyStr, attr ≠ lit "postscriptUnderlinePosition" →
          (∃ v, SaysMaster ops asm deg (optsOf a).build l k attr v ∧ dictGet u.info attr = some v) ∨
          ((¬ ∃ v, SaysMaster ops asm deg (optsOf a).build l k attr v) ∧
            LastSaid ops asm (effective ops asm (optsOf a).build l) (fun id d v => Says fmt ops asm id d attr v) (dictGet defaultAttributes attr)
              (dictGet u.info attr)) := by
  obtain ⟨l, ufos, ds, h1, h2, h3, h4, h5, -⟩ := C90_files ops deg asm fmt a depth fs hn hs minor es tail hf ht hr hok
  exact ⟨l, h1, ufos, fun k u hk => ⟨h4 k u hk, fun attr ha => C84_info h3 hk attr ha⟩⟩

end

/-! ### an example -/

set_option maxRecDepth 4000 in
theorem exampleMmFile_readable : Readable (vfbCodec exampleAngles exampleAsm) false {} exampleMmFile := by
  unfold exampleMmFile
  refine ⟨by decide, by decide, by decide, fun h => absurd h (by decide), ?_⟩
  refine ⟨by decide, by decide, by decide, fun _ => ⟨.int 2, rfl⟩, ?_⟩
  refine ⟨by decide, by decide, by decide, fun h => absurd h (by decide), ?_⟩
  refine ⟨by decide, by decide, by decide, fun h => absurd h (by decide), ?_⟩
  refine ⟨by decide, by decide, by decide, fun h => absurd h (by decide), ?_⟩
  refine ⟨by decide, by decide, by decide, fun h => absurd h (by decide), ?_⟩
  refine ⟨by decide, by decide, by decide, fun h => absurd h (by decide), ?_⟩
  refine ⟨by decide, by decide, by decide, fun h => absurd h (by decide), ?_⟩
  refine ⟨by decide, by decide, by decide +kernel, fun h => absurd h (by decide), ?_⟩
  refine ⟨by decide, by decide, by decide +kernel, fun h => absurd h (by decide), ?_⟩
  refine ⟨by decide, by decide, by decide, fun h => absurd h (by decide), ?_⟩
  refine ⟨by decide, by decide, by decide, fun h => absurd h (by decide), ?_⟩
  refine ⟨by decide, by decide, by decide, fun h => absurd h (by decide), ?_⟩
  exact ⟨by decide, by decide, by decide, fun h => absurd h (by decide), trivial⟩

/-- the hypotheses of C90 are met by a run on a font of two masters: the designspace on disk has got two sources -/
example : ∃ d, contentAfter exampleDisk (vfb3ufo exampleAngles (fun _ => 0) exampleAsm exampleFmt
      { input := ⟨lit "/f", lit "A.vfb"⟩, path := some (lit "/g") } 10 exampleDisk).2 ⟨lit "/g", lit "A.designspace"⟩ = some (.designspace d) ∧
    d.sources.length = 2 := by
  obtain ⟨l, h1, h2⟩ := C90_sources exampleAngles (fun _ => 0) exampleAsm exampleFmt { input := ⟨lit "/f", lit "A.vfb"⟩, path := some (lit "/g") } 10
    exampleDisk (stem := lit "A") (by decide) (.inl ⟨lit "vfb", by decide, by decide, by decide, rfl⟩) 5 exampleMmFile []
    (by rw [List.append_nil]; rfl) ⟨exampleMmFile.dropLast, [], rfl, by decide⟩ exampleMmFile_readable exampleRun_ok
  have hl := (C90_read exampleAngles exampleAsm { input := ⟨lit "/f", lit "A.vfb"⟩, path := some (lit "/g") } 5 exampleMmFile []
    ⟨exampleMmFile.dropLast, [], rfl, by decide⟩ exampleMmFile_readable l).2 h1
  have hl' : l = (readFont exampleAngles exampleAsm { input := ⟨lit "/f", lit "A.vfb"⟩, path := some (lit "/g") }
      (fileOf 5 exampleMmFile ++ [])).toOption.getD [] := by rw [hl]; rfl
  obtain ⟨d, n, k1, k2, k3, -⟩ := h2 (by rw [hl']; decide +kernel)
  refine ⟨d, k1, ?_⟩
  have hd : ((dataOf exampleAngles exampleAsm (optsOf { input := ⟨lit "/f", lit "A.vfb"⟩, path := some (lit "/g") }).build l 1503).getLast?.bind
      fun d => if let .int n := d then some n else none) = some 2 := by
    rw [hl']
    decide +kernel
  rw [k2] at hd
  have hn : n = 2 := by simpa using hd
  rw [k3, hn]
  rfl

end Verif.Props
