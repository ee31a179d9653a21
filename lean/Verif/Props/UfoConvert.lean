import Verif.Spec.UfoConvert
import Verif.Props.UfoMasterGlyph
import Verif.Props.UfoMasterInfo
import Verif.Props.UfoLib
import Verif.Props.UfoInfoProps
import Verif.Props.UfoGlyphBuild
import Verif.Props.UfoStems
import Verif.Lemmas.UfoGlyph
/-! C84: the UFOs made from a VFB. -/
set_option autoImplicit false
namespace Verif.Props
open Verif Verif.Spec

section
variable {ops : AngleOps} {deg : ops.Angle → Rat} {asm : AsmOps} {fmt : Int → PyStr}

/-! ### glyphs and TrueType tables -/

/-- the table for stems in the data of an entry -/
def stemTable (id : Int) (d : Decompiled ops.Angle asm.Asm) : Option StemEntry :=
  match d with
  | .ttPpems d => if id = 1268 then some (.ppms d) else if id = 1524 then some (.ppms1 d) else none
  | .ttStems d => if id = 1269 then some (.stems d) else none
  | _ => none

/-- the table for zones in the data of an entry -/
def zoneTable (id : Int) (d : Decompiled ops.Angle asm.Asm) : Option (TTZones ⊕ TTDeltas) :=
  match d with
  | .ttZones d => if id = 1255 then some (.inl d) else none
  | .ttDeltas d => if id = 1273 then some (.inr d) else none
  | _ => none

theorem stemTables_cons (o : BuildOpts) (e : FEntry ops asm) (es : List (FEntry ops asm)) :
    stemTablesOf ops asm o (e :: es) = (if e.1 ∈ skipKeys o then [] else (e.2.bind (stemTable e.1)).toList) ++ stemTablesOf ops asm o es := by
  unfold stemTablesOf
  rw [List.filterMap_cons, ignored_eq]
  by_cases hs : e.1 ∈ skipKeys o
  · simp [hs]
  · rw [if_neg hs, if_neg hs]
    obtain ⟨id, d⟩ := e
    cases d with
    | none => rfl
    | some d =>
      simp only [Option.bind_some, stemTable]
      cases d <;> simp
      all_goals split_ifs <;> simp

theorem zoneTables_cons (o : BuildOpts) (e : FEntry ops asm) (es : List (FEntry ops asm)) :
    zoneTablesOf ops asm o (e :: es) = (if e.1 ∈ skipKeys o then [] else (e.2.bind (zoneTable e.1)).toList) ++ zoneTablesOf ops asm o es := by
  unfold zoneTablesOf
  rw [List.filterMap_cons, ignored_eq]
  by_cases hs : e.1 ∈ skipKeys o
  · simp [hs]
  · rw [if_neg hs, if_neg hs]
    obtain ⟨id, d⟩ := e
    cases d with
    | none => rfl
    | some d =>
      simp only [Option.bind_some, zoneTable]
      cases d <;> simp
      all_goals split_ifs <;> simp

/-- the effect of a table for zones -/
def zoneEffect (s : ZoneTables) (d : TTZones ⊕ TTDeltas) : Except PyErr ZoneTables := Sum.elim (setZones s) (setZoneDeltas s) d

theorem ttEntry_tables {st st' : TtPart} {id : Int} {d : Decompiled ops.Angle asm.Asm} (h : ttEntry ops asm st id d = .ok st') :
    (stemTable id d).toList.foldlM stemEntry st.stems = .ok st'.stems ∧ (zoneTable id d).toList.foldlM zoneEffect st.zones = .ok st'.zones ∧
    st'.current = st.current ∧ st'.captured = st.captured := by
  unfold ttEntry at h
  have bindS : ∀ {x : Except PyErr StemTables} {y : Except PyErr TtPart}, (x >>= fun s => .ok { st with stems := s }) = y → y = .ok st' →
      x = .ok st'.stems ∧ st'.zones = st.zones ∧ st'.current = st.current ∧ st'.captured = st.captured := by
    intro x y hx hy
    subst hx
    cases x with
    | error e => cases hy
    | ok s => cases hy; exact ⟨rfl, rfl, rfl, rfl⟩
  have bindZ : ∀ {x : Except PyErr ZoneTables} {y : Except PyErr TtPart}, (x >>= fun s => .ok { st with zones := s }) = y → y = .ok st' →
      x = .ok st'.zones ∧ st'.stems = st.stems ∧ st'.current = st.current ∧ st'.captured = st.captured := by
    intro x y hx hy
    subst hx
    cases x with
    | error e => cases hy
    | ok s => cases hy; exact ⟨rfl, rfl, rfl, rfl⟩
  have one : ∀ {α β : Type} (f : β → α → Except PyErr β) (b : β) (a : α), [a].foldlM f b = f b a := by
    intro α β f b a
    rw [List.foldlM_cons]
    cases f b a <;> rfl
  by_cases h1 : id = 1255
  · subst h1
    rw [if_pos rfl] at h
    split at h
    · obtain ⟨a, b, c⟩ := bindZ rfl h
      refine ⟨by rw [b]; rfl, ?_, c⟩
      show [Sum.inl _].foldlM zoneEffect st.zones = _
      rw [one]; exact a
    · cases h
  rw [if_neg h1] at h
  by_cases h2 : id = 1273
  · subst h2
    rw [if_pos rfl] at h
    split at h
    · obtain ⟨a, b, c⟩ := bindZ rfl h
      refine ⟨by rw [b]; rfl, ?_, c⟩
      show [Sum.inr _].foldlM zoneEffect st.zones = _
      rw [one]; exact a
    · cases h
  rw [if_neg h2] at h
  by_cases h3 : id = 1268
  · subst h3
    rw [if_pos rfl] at h
    split at h
    · obtain ⟨a, b, c⟩ := bindS rfl h
      refine ⟨?_, by rw [b]; rfl, c⟩
      show [StemEntry.ppms _].foldlM stemEntry st.stems = _
      rw [one]; exact a
    · cases h
  rw [if_neg h3] at h
  by_cases h4 : id = 1524
  · subst h4
    rw [if_pos rfl] at h
    split at h
    · obtain ⟨a, b, c⟩ := bindS rfl h
      refine ⟨?_, by rw [b]; rfl, c⟩
      show [StemEntry.ppms1 _].foldlM stemEntry st.stems = _
      rw [one]; exact a
    · cases h
  rw [if_neg h4] at h
  by_cases h5 : id = 1269
  · subst h5
    rw [if_pos rfl] at h
    split at h
    · obtain ⟨a, b, c⟩ := bindS rfl h
      refine ⟨?_, by rw [b]; rfl, c⟩
      show [StemEntry.stems _].foldlM stemEntry st.stems = _
      rw [one]; exact a
    · cases h
  rw [if_neg h5] at h
  cases h
  have e1 : stemTable id d = none := by
    unfold stemTable
    split <;> simp [h3, h4, h5]
  have e2 : zoneTable id d = none := by
    unfold zoneTable
    split <;> simp [h1, h2]
  rw [e1, e2]
  exact ⟨rfl, rfl, rfl, rfl⟩

theorem glyph_no_table (d : Decompiled ops.Angle asm.Asm) : stemTable 2001 d = none ∧ zoneTable 2001 d = none := by
  constructor
  · unfold stemTable; split <;> simp
  · unfold zoneTable; split <;> simp

theorem ttStep_tables {o : BuildOpts} {g : GlyphPart ops.Angle asm.Asm} {st st' : TtPart} {e : FEntry ops asm}
    (h : ttStep ops asm o g st e = .ok st') :
    (if e.1 ∈ skipKeys o then [] else (e.2.bind (stemTable e.1)).toList).foldlM stemEntry st.stems = .ok st'.stems ∧
    (if e.1 ∈ skipKeys o then [] else (e.2.bind (zoneTable e.1)).toList).foldlM zoneEffect st.zones = .ok st'.zones := by
  unfold ttStep at h
  by_cases hs : e.1 ∈ skipKeys o
  · simp only [if_pos hs] at h ⊢
    cases h
    exact ⟨rfl, rfl⟩
  · simp only [if_neg hs] at h ⊢
    cases hd : e.2 with
    | none => rw [hd] at h; cases h; exact ⟨rfl, rfl⟩
    | some d =>
      rw [hd] at h
      dsimp only at h
      simp only [Option.bind_some]
      by_cases hg : e.1 = 2001
      · rw [if_pos hg] at h
        cases h
        rw [hg, (glyph_no_table d).1, (glyph_no_table d).2]
        exact ⟨rfl, rfl⟩
      · rw [if_neg hg] at h
        exact ⟨(ttEntry_tables h).1, (ttEntry_tables h).2.1⟩

theorem buildTt_spec {o : BuildOpts} {es : List (FEntry ops asm)} {gp : GlyphPart ops.Angle asm.Asm} {tt : TtPart}
    (h : buildGlyphsTt ops asm o es = .ok (gp, tt)) :
    buildGlyphs ops asm o es = .ok gp ∧ StemsOf ops asm o es tt.stems ∧ ZonesOf ops asm o es tt.zones := by
  have key : ∀ (es : List (FEntry ops asm)) (g g' : GlyphPart ops.Angle asm.Asm) (t t' : TtPart),
      es.foldlM (glyphTtStep ops asm o) (g, t) = .ok (g', t') →
      es.foldlM (glyphStep ops asm o) g = .ok g' ∧ (stemTablesOf ops asm o es).foldlM stemEntry t.stems = .ok t'.stems ∧
      (zoneTablesOf ops asm o es).foldlM zoneEffect t.zones = .ok t'.zones := by
    intro es
    induction es with
    | nil => intro g g' t t' h; cases h; exact ⟨rfl, rfl, rfl⟩
    | cons e es ih =>
      intro g g' t t' h
      rw [List.foldlM_cons] at h
      cases h1 : glyphTtStep ops asm o (g, t) e with
      | error er => rw [h1] at h; cases h
      | ok p =>
        rw [h1] at h
        obtain ⟨g1, t1⟩ := p
        obtain ⟨i1, i2, i3⟩ := ih g1 g' t1 t' h
        unfold glyphTtStep at h1
        dsimp only at h1
        cases h2 : glyphStep ops asm o g e with
        | error er => rw [h2] at h1; cases h1
        | ok g2 =>
          cases h3 : ttStep ops asm o g t e with
          | error er => rw [h2, h3] at h1; cases h1
          | ok t2 =>
            rw [h2, h3] at h1
            cases h1
            obtain ⟨j1, j2⟩ := ttStep_tables h3
            refine ⟨?_, ?_, ?_⟩
            · rw [List.foldlM_cons, h2]; exact i1
            · rw [stemTables_cons, List.foldlM_append, j1]; exact i2
            · rw [zoneTables_cons, List.foldlM_append, j2]; exact i3
  unfold buildGlyphsTt at h
  cases h1 : es.foldlM (glyphTtStep ops asm o) (⟨none, [], [], []⟩, noTt) with
  | error er => rw [h1] at h; cases h
  | ok p =>
    rw [h1] at h
    obtain ⟨g, t⟩ := p
    cases h
    obtain ⟨i1, i2, i3⟩ := key es _ _ _ _ h1
    refine ⟨?_, i2, i3⟩
    unfold buildGlyphs
    rw [i1]
    rfl

/-! ### the glyphs of a master -/

theorem masterGlyphs_spec {o : UfoOpts} {depth : Nat} {b : Built ops.Angle asm.Asm} {k : Nat} :
    ∀ {l : List (PyStr × BGlyph ops.Angle asm.Asm)} {font font' : LabelFont} {out : List (PyStr × UfoGlyph asm.Asm)},
      masterGlyphs ops deg asm o depth b k font l = .ok (out, font') →
      Corresponds (fun e x => x.1 = e.1 ∧ ∃ f f', masterGlyph ops deg asm o.build o.base64 depth b.glyphs.order f e.1 e.2
        ((dictGet b.cmds e.1).getD []) k = .ok (x.2, f')) l out := by
  intro l
  induction l with
  | nil =>
    intro font font' out h
    cases h
    exact ⟨rfl, fun i a b ha => by simp at ha⟩
  | cons e l ih =>
    intro font font' out h
    obtain ⟨key, g⟩ := e
    rw [masterGlyphs] at h
    cases h1 : masterGlyph ops deg asm o.build o.base64 depth b.glyphs.order font key g ((dictGet b.cmds key).getD []) k with
    | error er => rw [h1] at h; cases h
    | ok r =>
      rw [h1] at h
      replace h : (masterGlyphs ops deg asm o depth b k r.2 l >>= _) = Except.ok (out, font') := h
      cases h2 : masterGlyphs ops deg asm o depth b k r.2 l with
      | error er => rw [h2] at h; cases h
      | ok rs =>
        rw [h2] at h
        cases h
        exact corresponds_cons ⟨rfl, font, r.2, h1⟩ (ih h2)

theorem ufoMaster_cases {o : UfoOpts} {depth : Nat} {b : Built ops.Angle asm.Asm} {s : SharedData} {font font' : LabelFont} {k : Nat}
    {u : UfoFont asm.Asm} (h : ufoMaster ops deg asm o depth b s font k = .ok (u, font')) :
    s.kerning.masterKerning k = .ok u.kerning ∧ masterInfo ops deg o.build b.masters b.info.attrs k = .ok u.info ∧
    masterGlyphs ops deg asm o depth b k font b.glyphs.masters = .ok (u.glyphs, font') ∧
    u.features = s.text ∧ u.groups = s.groups ∧ u.lib = fontLib ops asm b s ∧ u.background = backgroundLayer o.build.minimal u.glyphs := by
  unfold ufoMaster at h
  cases h1 : s.kerning.masterKerning k with
  | error e => rw [h1] at h; cases h
  | ok kerning =>
  rw [h1] at h
  replace h : (masterInfo ops deg o.build b.masters b.info.attrs k >>= _) = Except.ok (u, font') := h
  cases h2 : masterInfo ops deg o.build b.masters b.info.attrs k with
  | error e => rw [h2] at h; cases h
  | ok info =>
  rw [h2] at h
  replace h : (masterGlyphs ops deg asm o depth b k font b.glyphs.masters >>= _) = Except.ok (u, font') := h
  cases h3 : masterGlyphs ops deg asm o depth b k font b.glyphs.masters with
  | error e => rw [h3] at h; cases h
  | ok r =>
  rw [h3] at h
  cases h
  exact ⟨rfl, rfl, rfl, rfl, rfl, rfl, rfl⟩

/-- the states of the labels before and after each master -/
theorem ufoLoop_trace {o : UfoOpts} {depth : Nat} {b : Built ops.Angle asm.Asm} {s : SharedData} :
    ∀ (n i : Nat) {font font' : LabelFont} {ufos : List (UfoFont asm.Asm)},
      ufoLoop ops deg asm o depth b s font (List.range' i n) = .ok (ufos, font') →
      ufos.length = n ∧ ∃ st : Nat → LabelFont, st i = font ∧ st (i + n) = font' ∧
        ∀ j u, ufos[j]? = some u → ufoMaster ops deg asm o depth b s (st (i + j)) (i + j) = .ok (u, st (i + j + 1)) := by
  intro n
  induction n with
  | zero =>
    intro i font font' ufos h
    rw [List.range'_zero, ufoLoop] at h
    cases h
    exact ⟨rfl, fun _ => font, rfl, rfl, fun j u hj => by simp at hj⟩
  | succ n ih =>
    intro i font font' ufos h
    rw [List.range'_succ, ufoLoop] at h
    cases h1 : ufoMaster ops deg asm o depth b s font i with
    | error e => rw [h1] at h; cases h
    | ok r =>
      rw [h1] at h
      replace h : (ufoLoop ops deg asm o depth b s r.2 (List.range' (i + 1) n) >>= _) = Except.ok (ufos, font') := h
      cases h2 : ufoLoop ops deg asm o depth b s r.2 (List.range' (i + 1) n) with
      | error e => rw [h2] at h; cases h
      | ok rs =>
        rw [h2] at h
        cases h
        obtain ⟨i1, st, i2, i3, i4⟩ := ih (i + 1) h2
        refine ⟨by simp [i1], fun j => if j = i then font else st j, by simp, ?_, fun j u hj => ?_⟩
        · have : i + (n + 1) ≠ i := by omega
          simp only [if_neg this]
          rw [show i + (n + 1) = i + 1 + n by omega]
          exact i3
        · cases j with
          | zero =>
            cases hj
            simp only [Nat.add_zero, if_true]
            rw [if_neg (by omega), i2, h1]
          | succ j =>
            have hj' : rs.1[j]? = some u := hj
            have := i4 j u hj'
            simp only [show i + (j + 1) ≠ i by omega, show i + (j + 1) + 1 ≠ i by omega, if_false]
            rw [show i + (j + 1) = i + 1 + j by omega]
            exact this

theorem convert_cases {o : UfoOpts} {depth : Nat} {es : List (FEntry ops asm)} {ufos : List (UfoFont asm.Asm)}
    (h : convert ops deg asm fmt o depth es = .ok ufos) :
    ∃ (b : Built ops.Angle asm.Asm) (s : SharedData) (st : Nat → LabelFont),
      buildGlyphsTt ops asm o.build es = .ok (b.glyphs, b.tt) ∧
      ttGlyphLib ops asm depth b.tt (freshLabels ops asm b.glyphs) (sortedGlyphs b.glyphs.masters) = .ok (b.cmds, b.labels) ∧
      buildMasters ops asm o.build es = .ok b.masters ∧ buildFeatures ops asm o.build es = .ok b.features ∧
      buildInfo fmt ops asm o.build es = .ok b.info ∧
      sharedData o.fea o.build.minimal b.features b.glyphs.order b.glyphs.kerning = .ok s ∧
      ufos.length = b.masters.masters.length ∧ st 0 = b.labels ∧
      ∀ k u, ufos[k]? = some u → ufoMaster ops deg asm o depth b s (st k) k = .ok (u, st (k + 1)) := by
  unfold convert at h
  cases hb : build ops asm fmt o.build depth es with
  | error e => rw [hb] at h; cases h
  | ok b =>
    rw [hb] at h
    replace h : ufoMasters ops deg asm o depth b = Except.ok ufos := h
    unfold ufoMasters at h
    cases hs : sharedData o.fea o.build.minimal b.features b.glyphs.order b.glyphs.kerning with
    | error e => rw [hs] at h; cases h
    | ok s =>
      rw [hs] at h
      replace h : (ufoLoop ops deg asm o depth b s b.labels (List.range b.masters.masters.length) >>= _) = Except.ok ufos := h
      rw [List.range_eq_range'] at h
      cases hl : ufoLoop ops deg asm o depth b s b.labels (List.range' 0 b.masters.masters.length) with
      | error e => rw [hl] at h; cases h
      | ok r =>
        rw [hl] at h
        cases h
        obtain ⟨l1, st, l2, -, l4⟩ := ufoLoop_trace _ 0 hl
        unfold build at hb
        cases h1 : buildGlyphsTt ops asm o.build es with
        | error e => rw [h1] at hb; cases hb
        | ok g =>
        rw [h1] at hb
        replace hb : (ttGlyphLib ops asm depth g.2 (freshLabels ops asm g.1) (sortedGlyphs g.1.masters) >>= _) = Except.ok b := hb
        cases h2 : ttGlyphLib ops asm depth g.2 (freshLabels ops asm g.1) (sortedGlyphs g.1.masters) with
        | error e => rw [h2] at hb; cases hb
        | ok c =>
        rw [h2] at hb
        replace hb : (buildMasters ops asm o.build es >>= _) = Except.ok b := hb
        cases h3 : buildMasters ops asm o.build es with
        | error e => rw [h3] at hb; cases hb
        | ok m =>
        rw [h3] at hb
        replace hb : (buildFeatures ops asm o.build es >>= _) = Except.ok b := hb
        cases h4 : buildFeatures ops asm o.build es with
        | error e => rw [h4] at hb; cases hb
        | ok f =>
        rw [h4] at hb
        replace hb : (buildInfo fmt ops asm o.build es >>= _) = Except.ok b := hb
        cases h5 : buildInfo fmt ops asm o.build es with
        | error e => rw [h5] at hb; cases hb
        | ok i =>
        rw [h5] at hb
        cases hb
        refine ⟨_, s, st, rfl, h2, rfl, rfl, rfl, hs, l1, l2, fun k u hk => ?_⟩
        have := l4 k u hk
        simpa using this

/-! ### C84 -/

/-- **C84** A conversion makes one UFO for each master (as counted by the names of the masters, C71).  Each of them is made of the glyphs,
the TrueType tables, the master data, the font info, the groups, the kerning and the features that are in the file (`IsFont`). -/
theorem C84_fonts (hdeg : ∀ a, -90 ≤ deg a ∧ deg a ≤ 90) {o : UfoOpts} {depth : Nat} {es : List (FEntry ops asm)}
    {ufos : List (UfoFont asm.Asm)} (h : convert ops deg asm fmt o depth es = .ok ufos) :
    ∃ gp stems zones mp fp ip s, buildGlyphs ops asm o.build es = .ok gp ∧ StemsOf ops asm o.build es stems ∧ ZonesOf ops asm o.build es zones ∧
      buildMasters ops asm o.build es = .ok mp ∧ buildFeatures ops asm o.build es = .ok fp ∧ buildInfo fmt ops asm o.build es = .ok ip ∧
      sharedData o.fea o.build.minimal fp gp.order gp.kerning = .ok s ∧
      ufos.length = mp.masters.length ∧ ∀ k u, ufos[k]? = some u → IsFont ops deg asm o gp stems zones mp ip s k u := by
  obtain ⟨b, s, st, h1, -, h3, h4, h5, h6, h7, -, h9⟩ := convert_cases h
  obtain ⟨g1, g2, g3⟩ := buildTt_spec h1
  refine ⟨b.glyphs, b.tt.stems, b.tt.zones, b.masters, b.features, b.info, s, g1, g2, g3, h3, h4, h5, h6, h7, fun k u hk => ?_⟩
  obtain ⟨m1, m2, m3, m4, m5, m6, -⟩ := ufoMaster_cases (h9 k u hk)
  have hg := masterGlyphs_spec m3
  constructor
  · exact m4
  · exact m5
  · exact m1
  · exact m2
  · refine ⟨hg.1, fun i e x he hx => ?_⟩
    obtain ⟨hn, f, f', hm⟩ := hg.2 i e x he hx
    exact ⟨hn, _, C83_master hdeg hm⟩
  all_goals rw [m6]; rfl

theorem corresponds_map {α β γ : Type} {r : α → β → Prop} {l : List α} {m : List β} (h : Corresponds r l m) {f : α → γ} {g : β → γ}
    (hr : ∀ a b, r a b → g b = f a) : m.map g = l.map f := by
  refine List.ext_getElem? fun i => ?_
  rw [List.getElem?_map, List.getElem?_map]
  cases hl : l[i]? with
  | none =>
    rw [List.getElem?_eq_none (by rw [← h.1]; exact List.getElem?_eq_none_iff.1 hl)]
    rfl
  | some a =>
    obtain ⟨b, hb⟩ : ∃ b, m[i]? = some b := ⟨_, List.getElem?_eq_getElem (by
      rw [← h.1]; exact (List.getElem?_eq_some_iff.1 hl).1)⟩
    rw [hb]
    simp [hr a b (h.2 i a b hl hb)]

/-- **C84** The glyphs of each UFO: every glyph of the UFO is the master of the glyph of a block of the file, and is called like it, or like it
with a number; no two have the same name; and the glyph order lists exactly the glyphs of the UFO. -/
theorem C84_glyphs (hdeg : ∀ a, -90 ≤ deg a ∧ deg a ≤ 90) {o : UfoOpts} {depth : Nat} {es : List (FEntry ops asm)}
    {ufos : List (UfoFont asm.Asm)} (h : convert ops deg asm fmt o depth es = .ok ufos) :
    ∃ gs, List.Forall₂ (Describes ops asm o.build) (blocks ops asm es) gs ∧
      ∀ k u, ufos[k]? = some u → (u.glyphs.map Prod.fst).Nodup ∧ (∀ n, n ∈ u.lib.glyphOrder ↔ n ∈ u.glyphs.map Prod.fst) ∧
        ∀ x ∈ u.glyphs, ∃ g ∈ gs, NameFrom g.name x.1 ∧ ∃ labels, IsMaster ops deg asm o.build.minimal u.lib.glyphOrder labels k g x.2 := by
  obtain ⟨gp, stems, zones, mp, fp, ip, s, h1, -, -, -, -, -, -, -, hu⟩ := C84_fonts hdeg h
  obtain ⟨gs, g1, g2, g3, g4⟩ := C64_content ops asm h1
  refine ⟨gs, g1, fun k u hk => ?_⟩
  have hf := hu k u hk
  have hnames : u.glyphs.map Prod.fst = gp.masters.map Prod.fst := corresponds_map hf.glyphs fun a b hab => hab.1
  rw [hnames]
  refine ⟨g2, fun n => ?_, fun x hx => ?_⟩
  · rw [hf.glyphOrder, g4]
    cases hd : dictGet gp.masters n with
    | none => simpa using dictGet_none.1 hd
    | some v => simpa using ⟨v, dictGet_some_mem hd⟩
  · obtain ⟨e, he, hn, labels, hm⟩ := corresponds_right hf.glyphs hx
    refine ⟨e.2, (g3 e he).1, by rw [hn]; exact (g3 e he).2, labels, by rw [hf.glyphOrder]; exact hm⟩

/-- **C84** Nothing is lost: if there are not more than 255 glyphs whose names begin with the same text, and the last glyph's name was not given
before, then every UFO has got exactly one glyph for each block of the file, in the same order, which is also the glyph order. -/
theorem C84_complete (hdeg : ∀ a, -90 ≤ deg a ∧ deg a ≤ 90) {o : UfoOpts} {depth : Nat} {es : List (FEntry ops asm)}
    {ufos : List (UfoFont asm.Asm)} (h : convert ops deg asm fmt o depth es = .ok ufos)
    (hc : ∀ n : PyStr, ((blocks ops asm es).filter fun b => n.isPrefixOf (b.1.name.getD [])).length ≤ 255)
    (hl : ∀ u ∈ ufos, ∀ n, u.lib.glyphOrder.getLast? = some n → n ∉ u.lib.glyphOrder.dropLast) :
    ∃ gs, List.Forall₂ (Describes ops asm o.build) (blocks ops asm es) gs ∧
      ∀ k u, ufos[k]? = some u → u.glyphs.map Prod.fst = u.lib.glyphOrder ∧
        Corresponds (fun g x => NameFrom g.name x.1 ∧ ∃ labels, IsMaster ops deg asm o.build.minimal u.lib.glyphOrder labels k g x.2) gs u.glyphs := by
  obtain ⟨gp, stems, zones, mp, fp, ip, s, h1, -, -, -, -, -, -, -, hu⟩ := C84_fonts hdeg h
  cases ufos with
  | nil =>
    obtain ⟨gs, g1, -⟩ := C64_content ops asm h1
    exact ⟨gs, g1, fun k u hk => by simp at hk⟩
  | cons u0 ufos =>
    have hf0 := hu 0 u0 rfl
    obtain ⟨gs, g1, g2, g3, g4, g5⟩ := C65_indices ops asm h1 hc (by
      have := hl u0 (by simp)
      rwa [hf0.glyphOrder] at this)
    refine ⟨gs, g1, fun k u hk => ?_⟩
    have hf := hu k u hk
    have hnames : u.glyphs.map Prod.fst = gp.masters.map Prod.fst := corresponds_map hf.glyphs fun a b hab => hab.1
    refine ⟨?_, ?_⟩
    · rw [hnames, hf.glyphOrder, g4, List.map_fst_zip (by omega)]
    · have hlen : gp.masters.length = gs.length := by rw [g4, List.length_zip]; omega
      refine ⟨by rw [← hlen]; exact hf.glyphs.1, fun i g x hg hx => ?_⟩
      obtain ⟨n, hn⟩ : ∃ n, gp.order[i]? = some n := ⟨_, List.getElem?_eq_getElem (by
        have := (List.getElem?_eq_some_iff.1 hg).1
        omega)⟩
      have he : gp.masters[i]? = some (n, g) := by rw [g4]; exact List.getElem?_zip_eq_some.2 ⟨hn, hg⟩
      obtain ⟨e1, labels, e2⟩ := hf.glyphs.2 i _ x he hx
      refine ⟨?_, labels, by rw [hf.glyphOrder]; exact e2⟩
      rw [e1]
      obtain ⟨j1, j2⟩ := List.forall₂_iff_get.1 g5
      have hi := (List.getElem?_eq_some_iff.1 hg).1
      have hi' := (List.getElem?_eq_some_iff.1 hn).1
      have := j2 i hi hi'
      simp only [List.get_eq_getElem] at this
      rw [(List.getElem?_eq_some_iff.1 hg).2, (List.getElem?_eq_some_iff.1 hn).2] at this
      exact this

/-- **C84** What the UFOs of a conversion share: features, groups, lib and the names of the glyphs; and, for each glyph, the codes, the mark, the
user data, the background image, the bitmaps, the TrueType instructions and the TrueType program. -/
theorem C84_shared {o : UfoOpts} {depth : Nat} {es : List (FEntry ops asm)}
    {ufos : List (UfoFont asm.Asm)} (h : convert ops deg asm fmt o depth es = .ok ufos) {u v : UfoFont asm.Asm} (hu : u ∈ ufos) (hv : v ∈ ufos) :
    u.features = v.features ∧ u.groups = v.groups ∧ u.lib = v.lib ∧ u.glyphs.map Prod.fst = v.glyphs.map Prod.fst ∧
    ∀ (i : Nat) x y, u.glyphs[i]? = some x → v.glyphs[i]? = some y → x.1 = y.1 ∧ x.2.unicodes = y.2.unicodes ∧ x.2.mark = y.2.mark ∧
      x.2.userData = y.2.userData ∧ x.2.background = y.2.background ∧ x.2.bitmaps = y.2.bitmaps ∧ x.2.instructions = y.2.instructions ∧
      x.2.tth = y.2.tth ∧ x.2.components.map UfoComponent.base = y.2.components.map UfoComponent.base ∧
      x.2.anchors.map GdefAnchor.name = y.2.anchors.map GdefAnchor.name := by
  obtain ⟨b, s, st, -, -, -, -, -, -, -, -, h9⟩ := convert_cases h
  obtain ⟨i, hi⟩ := List.getElem?_of_mem hu
  obtain ⟨j, hj⟩ := List.getElem?_of_mem hv
  obtain ⟨-, -, m3, m4, m5, m6, -⟩ := ufoMaster_cases (h9 i u hi)
  obtain ⟨-, -, n3, n4, n5, n6, -⟩ := ufoMaster_cases (h9 j v hj)
  have e1 := masterGlyphs_spec m3
  have e2 := masterGlyphs_spec n3
  refine ⟨m4.trans n4.symm, m5.trans n5.symm, m6.trans n6.symm, ?_, fun a x y hx hy => ?_⟩
  · rw [corresponds_map e1 fun a b hab => hab.1, corresponds_map e2 fun a b hab => hab.1]
  · have ha : a < b.glyphs.masters.length := by
      rw [e1.1]; exact (List.getElem?_eq_some_iff.1 hx).1
    have hb := List.getElem?_eq_getElem ha
    obtain ⟨a1, f, f', a2⟩ := e1.2 a _ x hb hx
    obtain ⟨b1, f1, f1', b2⟩ := e2.2 a _ y hb hy
    obtain ⟨hints, tth, mask, contours, components, cmds', anchors, guides, tth', metrics, -, q2, -, -, q5, -, q7, -, q9, -, q⟩ := masterGlyph_cases a2
    obtain ⟨hints2, tth2, mask2, contours2, components2, cmds2', anchors2, guides2, tth2', metrics2, -, r2, -, -, r5, -, r7, -, r9, -, r⟩ := masterGlyph_cases b2
    rw [q2] at r2; cases r2
    rw [q9] at r9; cases r9
    obtain ⟨xn, x⟩ := x
    obtain ⟨yn, y⟩ := y
    dsimp only at a1 b1 q r ⊢
    obtain ⟨qa, -⟩ := Prod.mk.inj q
    obtain ⟨ra, -⟩ := Prod.mk.inj r
    subst qa ra
    refine ⟨a1.trans b1.symm, rfl, rfl, rfl, rfl, rfl, rfl, rfl, ?_, ?_⟩
    · dsimp only
      have key : ∀ (k : Nat) (l : List Component) (out : List UfoComponent), l.mapM (masterComponent b.glyphs.order k) = .ok out →
          out.map (fun c => Except.ok c.base) = l.map fun c => pyIndex b.glyphs.order c.gid := by
        intro k l out hl
        refine corresponds_map (corresponds_mapM (f := masterComponent b.glyphs.order k) (r := fun c d => pyIndex b.glyphs.order c.gid = .ok d.base) (fun c d hcd => ?_) hl) fun c d hcd => hcd.symm
        exact elementAt_iff.2 (masterComponent_ok hcd).base
      have := (key _ _ _ q5).trans (key _ _ _ r5).symm
      have hinj : Function.Injective (Except.ok : PyStr → Except PyErr PyStr) := fun a b h => by cases h; rfl
      rw [show (fun c : UfoComponent => (Except.ok c.base : Except PyErr PyStr)) = Except.ok ∘ UfoComponent.base from rfl, ← List.map_map, ← List.map_map] at this
      exact List.map_injective_iff.2 hinj this
    · dsimp only
      have key : ∀ (k : Nat) (out : List GdefAnchor) (g : BGlyph ops.Angle asm.Asm), masterAnchors g.anchors g.mmAnchors k = .ok out →
          out.map GdefAnchor.name = g.anchors.map GdefAnchor.name := by
        intro k out g hg
        have := corresponds_map (masterAnchors_ok hg).2 (f := fun a => a.2.name) (g := GdefAnchor.name) fun a b hab => hab.1
        rw [this]
        rw [show (fun a : Nat × GdefAnchor => a.2.name) = GdefAnchor.name ∘ Prod.snd from rfl, ← List.map_map, List.map_snd_zip (by simp)]
      rw [key _ _ _ q7, key _ _ _ r7]

/-- **C84** The background layer of a UFO has got exactly the glyphs with contours in their mask, in the order of the glyphs, each with the contours
and the advance of the mask; in minimal mode there is none. -/
theorem C84_background {o : UfoOpts} {depth : Nat} {es : List (FEntry ops asm)}
    {ufos : List (UfoFont asm.Asm)} (h : convert ops deg asm fmt o depth es = .ok ufos) {u : UfoFont asm.Asm} (hu : u ∈ ufos) :
    (o.build.minimal = true → u.background = []) ∧
    (o.build.minimal = false → (u.background.map Prod.fst).Sublist (u.glyphs.map Prod.fst) ∧
      ∀ name contours metrics, (name, (contours, metrics)) ∈ u.background ↔
        contours ≠ [] ∧ ∃ g, (name, g) ∈ u.glyphs ∧ g.maskContours = contours ∧ g.maskMetrics = metrics) := by
  obtain ⟨b, s, st, -, -, -, -, -, -, -, -, h9⟩ := convert_cases h
  obtain ⟨i, hi⟩ := List.getElem?_of_mem hu
  obtain ⟨-, -, -, -, -, -, m7⟩ := ufoMaster_cases (h9 i u hi)
  rw [m7]
  unfold backgroundLayer
  refine ⟨fun hm => by rw [if_pos hm], fun hm => ?_⟩
  rw [if_neg (by rw [hm]; simp)]
  refine ⟨?_, fun name contours metrics => ?_⟩
  · rw [List.map_map]
    exact (List.filter_sublist (l := u.glyphs)).map Prod.fst
  · simp only [List.mem_map, List.mem_filter, Bool.not_eq_true', Prod.mk.injEq, Prod.exists]
    constructor
    · rintro ⟨a, g, ⟨h1, h2⟩, rfl, rfl, rfl⟩
      refine ⟨fun hc => ?_, g, h1, rfl, rfl⟩
      rw [hc] at h2; cases h2
    · rintro ⟨hne, g, h1, rfl, rfl⟩
      refine ⟨name, g, ⟨h1, ?_⟩, rfl, rfl, rfl⟩
      cases hg : g.maskContours with
      | nil => exact absurd hg hne
      | cons x l => rfl

/-- **C84** The font info of the UFO of master `k`: an attribute has the value that the file says for that master (C80); otherwise the value of the
last entry that says something about the attribute, or its default value (C78). -/
theorem C84_info {o : UfoOpts} {depth : Nat} {es : List (FEntry ops asm)}
    {ufos : List (UfoFont asm.Asm)} (h : convert ops deg asm fmt o depth es = .ok ufos) {k : Nat} {u : UfoFont asm.Asm} (hu : ufos[k]? = some u)
    (attr : PyStr) (ha : attr ≠ lit "postscriptUnderlinePosition") :
    (∃ v, SaysMaster ops asm deg o.build es k attr v ∧ dictGet u.info attr = some v) ∨
    ((¬ ∃ v, SaysMaster ops asm deg o.build es k attr v) ∧
      LastSaid ops asm (effective ops asm o.build es) (fun id d v => Says fmt ops asm id d attr v) (dictGet defaultAttributes attr)
        (dictGet u.info attr)) := by
  obtain ⟨b, s, st, -, -, h3, -, h5, -, -, -, h9⟩ := convert_cases h
  obtain ⟨-, m2, -⟩ := ufoMaster_cases (h9 k u hu)
  rcases C80_attributes h3 m2 attr with hv | ⟨hn, hv⟩
  · exact .inl hv
  · refine .inr ⟨hn, ?_⟩
    rw [hv]
    exact C78_attributes h5 attr ha

end

/-! ### an example -/

/-- a font of two masters: a glyph with hints, guides and anchors, a composite of it, and a second glyph of the first name -/
def exampleConvertFont : List (FEntry exampleAngles exampleAsm) :=
  [(1024, some (.str (lit "Demo"))),
   (1503, some (.int 2)),
   (1504, some (.str (lit "Light"))),
   (1504, some (.str (lit "Bold"))),
   (1513, some (.int 1)),
   (1514, some (.str (lit "Weight"))),
   (1255, some (.ttZones ⟨some [], some [⟨0, -20, lit "base"⟩]⟩)),
   (1268, some (.ttPpems ⟨[⟨0, [(2, 20), (3, 30), (4, 40), (5, 60)]⟩], []⟩)),
   (1269, some (.ttStems ⟨[⟨80, lit "X: 80", [(6, 60)]⟩], []⟩)),
   (2001, some (.glyph { exampleGlyph with
      components := none
      hints := some ⟨[[(0, 10), (5, 10)]], [], some [(lit "h", 0), (lit "r", -1), (lit "h", 0)]⟩
      kerning := some [(2, [-10, -20])]
      tth := none })),
   (1250, some (.ints [65])),
   (2001, some (.glyph { exampleGlyph with
      nodes := some []
      hints := none
      components := some [⟨0, [1, 2], [3, 4], [⟨0x3FF0000000000000⟩, ⟨0x3FF0000000000000⟩], [⟨0x3FF0000000000000⟩, ⟨0x3FE0000000000000⟩]⟩]
      kerning := some [(2, [-10, -20])]
      tth := none })),
   (2012, some (.int 128)),
   (2001, some (.glyph { exampleGlyph with
      name := some (lit "B")
      components := none
      hints := none
      kerning := some [(2, [-10, -20])]
      tth := none })),
   (1530, some (.int 4)),
   (1536, some (.psInfo (examplePs 0))),
   (1536, some (.psInfo (examplePs 11)))]

/-- the options of the example -/
def exampleConvertOpts : UfoOpts := ⟨exampleOpts, ⟨false, false⟩, false⟩

abbrev ConvertGlyph := PyStr × Int × List (PyStr × Int)
instance : DecidableEq ConvertGlyph := inferInstance
abbrev ConvertSummary := List ConvertGlyph × Option InfoVal × Nat × Nat
instance : DecidableEq ConvertSummary := inferInstance

/-- the names of the glyphs, their widths, the bases of their components, and the ascender of each UFO -/
def convertSummary (u : UfoFont exampleAsm.Asm) : ConvertSummary :=
  (u.glyphs.map fun g => (g.1, g.2.width, g.2.components.map fun c => (c.base, c.dx)), dictGet u.info (lit "ascender"), u.lib.zones.length, u.lib.stems.length)

example : (convert exampleAngles (fun _ => 0) exampleAsm exampleFmt exampleConvertOpts 10 exampleConvertFont).toOption.map (fun l => l.map convertSummary) =
    some [([(lit "A", 500, []), (lit "A#0", 500, [(lit "A", 1)]), (lit "B", 500, [])], some (.int 700), 1, 1),
      ([(lit "A", 600, []), (lit "A#0", 600, [(lit "A", 2)]), (lit "B", 600, [])], some (.int 711), 1, 1)] := by decide +kernel

/-- the conditions of `C84_complete` for the example -/
example (n : PyStr) : ((blocks exampleAngles exampleAsm exampleConvertFont).filter fun b => n.isPrefixOf (b.1.name.getD [])).length ≤ 255 :=
  (List.length_filter_le _ _).trans (by decide +kernel)

example : (convert exampleAngles (fun _ => 0) exampleAsm exampleFmt exampleConvertOpts 10 exampleConvertFont).toOption.map
    (fun l => l.map fun u => (u.lib.glyphOrder.getLast?, u.lib.glyphOrder.dropLast)) =
    some [(some (lit "B"), [lit "A", lit "A#0"]), (some (lit "B"), [lit "A", lit "A#0"])] := by decide +kernel

end Verif.Props
