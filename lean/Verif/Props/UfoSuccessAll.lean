import Verif.Props.UfoSuccessTt
import Verif.Props.UfoNames
import Verif.Props.UfoSuccessAscii
/-! C96: when a font can be converted. -/
set_option autoImplicit false
namespace Verif.Props
open Verif Verif.Spec

section
variable {ops : AngleOps} {deg : ops.Angle → Rat} {asm : AsmOps} {fmt : Int → PyStr}

theorem okBind {α β : Type} (a : α) (f : α → Except PyErr β) : (Except.ok a >>= f) = f a := rfl

theorem fontExt_shape {f f' : LabelFont} (h : FontExt f f') : SameShape f f' := by
  refine ⟨h.order, fun n => ?_⟩
  unfold gidsIn
  cases hn : dictGet f.glyphs n with
  | none => rw [h.none n hn]
  | some g =>
    obtain ⟨g', h1, h2⟩ := h.some n g hn
    rw [h1]
    simp [h2.gids]

/-- when the TrueType commands of the glyphs can be made -/
theorem ttGlyphLib_exists {depth : Nat} {t : TtPart} {f0 : LabelFont} : ∀ {l : List (PyStr × BGlyph ops.Angle asm.Asm)} {font : LabelFont},
    (∀ e ∈ l, Nested f0.order (gidsIn f0) depth e.1) → SameShape f0 font →
    (∀ e ∈ l, ∀ is, e.2.tth = some is → ∀ i ∈ is, Spec.Complete (tthEnv t e.1) i) → ∃ r, ttGlyphLib ops asm depth t font l = .ok r := by
  intro l
  induction l with
  | nil => intro font _ _ _; exact ⟨_, rfl⟩
  | cons e l ih =>
    intro font hn hs hc
    obtain ⟨key, g⟩ := e
    rw [ttGlyphLib.eq_def]
    dsimp only
    cases ht : g.tth with
    | none => exact ih (fun e he => hn e (by simp [he])) hs fun e he => hc e (by simp [he])
    | some is =>
      obtain ⟨d, f1, h1, h2⟩ := tthCommands_total_inv (labeler_nested (hn (key, g) (by simp))) is (hc (key, g) (by simp) is ht) hs
      obtain ⟨r, hr⟩ := ih (fun e he => hn e (by simp [he])) h2 fun e he => hc e (by simp [he])
      dsimp only
      rw [h1]
      exact ⟨_, by rw [okBind]; dsimp only; rw [hr]; rfl⟩

theorem masterGlyph_exists {o : BuildOpts} {base64 : Bool} {depth : Nat} {order : List PyStr} {f0 font : LabelFont} {key : PyStr} {g : BGlyph ops.Angle asm.Asm}
    {cmds : List TthCommand} (hn : Nested f0.order (gidsIn f0) depth key) (hf : SameShape f0 font) (hc : ∀ cmd ∈ cmds, WellFormedCmd cmd) (k : Nat) :
    ((∃ r, masterGlyph ops deg asm o base64 depth order font key g cmds k = .ok r) ↔ GlyphReady ops asm o order k g ∧
      (base64 = true → ∀ text, tthLib cmds = .ok (some text) → Ascii text)) ∧
    ∀ r, masterGlyph ops deg asm o base64 depth order font key g cmds k = .ok r → SameShape f0 r.2 := by
  constructor
  · rw [C83_success o base64 depth order font key g hc k]
    unfold GlyphReady
    constructor
    · rintro ⟨h1, h2, h3⟩
      exact ⟨⟨h2, fun hp => (C96_hints hn hf h2.nodes).1.1 (h1 hp)⟩, h3⟩
    · rintro ⟨⟨h2, h1⟩, h3⟩
      exact ⟨fun hp => (C96_hints hn hf h2.nodes).1.2 (h1 hp), h2, h3⟩
  · rintro ⟨x, font'⟩ h
    have h2 := ((C83_success o base64 depth order font key g hc k).1 ⟨_, h⟩).2.1
    obtain ⟨m1, m2, -⟩ := C83_hints h
    by_cases hp : o.pshints = true
    · exact (C96_hints hn hf h2.nodes).2 _ (m1 hp)
    · rw [show font' = font from (m2 (by simpa using hp)).2]
      exact hf

/-- the text of the TrueType program of the glyph can be written as it is asked for -/
def TextReady (o : UfoOpts) (b : Built ops.Angle asm.Asm) (key : PyStr) : Prop :=
  o.base64 = true → ∀ text, tthLib ((dictGet b.cmds key).getD []) = .ok (some text) → Ascii text

theorem masterGlyphs_exists {o : UfoOpts} {depth : Nat} {b : Built ops.Angle asm.Asm} {f0 : LabelFont} {k : Nat}
    (hw : ∀ key, ∀ cmd ∈ (dictGet b.cmds key).getD [], WellFormedCmd cmd) :
    ∀ {l : List (PyStr × BGlyph ops.Angle asm.Asm)} {font : LabelFont}, (∀ e ∈ l, Nested f0.order (gidsIn f0) depth e.1) → SameShape f0 font →
    ((∃ r, masterGlyphs ops deg asm o depth b k font l = .ok r) ↔ ∀ e ∈ l, GlyphReady ops asm o.build b.glyphs.order k e.2 ∧ TextReady o b e.1) ∧
    ∀ r, masterGlyphs ops deg asm o depth b k font l = .ok r → SameShape f0 r.2 := by
  intro l
  induction l with
  | nil =>
    intro font _ hf
    refine ⟨⟨fun _ => by simp, fun _ => ⟨_, rfl⟩⟩, ?_⟩
    intro r h
    cases h
    exact hf
  | cons e l ih =>
    intro font hn hf
    obtain ⟨key, g⟩ := e
    rw [masterGlyphs]
    obtain ⟨h1, h2⟩ := masterGlyph_exists (deg := deg) (o := o.build) (base64 := o.base64) (order := b.glyphs.order) (g := g) (hn (key, g) (by simp)) hf (hw key) k
    cases hm : masterGlyph ops deg asm o.build o.base64 depth b.glyphs.order font key g ((dictGet b.cmds key).getD []) k with
    | error er =>
      refine ⟨⟨?_, fun h => ?_⟩, ?_⟩
      · rintro ⟨r, h⟩; cases h
      · obtain ⟨r, hr⟩ := h1.2 (h (key, g) (by simp))
        rw [hm] at hr
        cases hr
      · intro r h; cases h
    | ok x =>
      obtain ⟨i1, i2⟩ := ih (font := x.2) (fun e he => hn e (by simp [he])) (h2 x hm)
      have e : ∀ r, (masterGlyphs ops deg asm o depth b k x.2 l >>= fun rs => Except.ok ((key, x.1) :: rs.1, rs.2)) = .ok r →
          ∃ rs, masterGlyphs ops deg asm o depth b k x.2 l = .ok rs ∧ r.2 = rs.2 := by
        intro r h
        obtain ⟨a, r', q1, q2⟩ := bind_exists.1 ⟨_, h⟩
        rw [q1] at h
        cases h
        exact ⟨a, q1, rfl⟩
      refine ⟨⟨?_, fun h => ?_⟩, ?_⟩
      · rintro ⟨r, h⟩
        obtain ⟨rs, q1, -⟩ := e r h
        intro y hy
        rcases List.mem_cons.1 hy with rfl | hy
        · exact h1.1 ⟨x, hm⟩
        · exact i1.1 ⟨rs, q1⟩ y hy
      · obtain ⟨rs, hrs⟩ := i1.2 fun y hy => h y (by simp [hy])
        exact ⟨((key, x.1) :: rs.1, rs.2), by rw [okBind]; rw [hrs]; rfl⟩
      · intro r h
        obtain ⟨rs, q1, q2⟩ := e r h
        rw [q2]
        exact i2 rs q1

theorem ufoMaster_exists {o : UfoOpts} {depth : Nat} {b : Built ops.Angle asm.Asm} {s : SharedData} {f0 font : LabelFont} {k : Nat}
    (hw : ∀ key, ∀ cmd ∈ (dictGet b.cmds key).getD [], WellFormedCmd cmd) (hn : ∀ e ∈ b.glyphs.masters, Nested f0.order (gidsIn f0) depth e.1)
    (hf : SameShape f0 font) :
    ((∃ r, ufoMaster ops deg asm o depth b s font k = .ok r) ↔ (∃ r, s.kerning.masterKerning k = .ok r) ∧
      (∃ r, masterInfo ops deg o.build b.masters b.info.attrs k = .ok r) ∧ ∀ e ∈ b.glyphs.masters, GlyphReady ops asm o.build b.glyphs.order k e.2 ∧ TextReady o b e.1) ∧
    ∀ r, ufoMaster ops deg asm o depth b s font k = .ok r → SameShape f0 r.2 := by
  obtain ⟨h1, h2⟩ := masterGlyphs_exists (deg := deg) (k := k) hw hn hf
  constructor
  · constructor
    · rintro ⟨⟨u, f⟩, h⟩
      obtain ⟨q1, q2, q3, -⟩ := ufoMaster_cases h
      exact ⟨⟨_, q1⟩, ⟨_, q2⟩, h1.1 ⟨_, q3⟩⟩
    · rintro ⟨⟨r1, q1⟩, ⟨r2, q2⟩, q3⟩
      obtain ⟨r3, q3⟩ := h1.2 q3
      unfold ufoMaster
      rw [q1, okBind, q2, okBind, q3, okBind]
      exact ⟨_, rfl⟩
  · rintro ⟨u, f⟩ h
    obtain ⟨-, -, q3, -⟩ := ufoMaster_cases h
    exact h2 _ q3

theorem ufoLoop_exists {o : UfoOpts} {depth : Nat} {b : Built ops.Angle asm.Asm} {s : SharedData} {f0 : LabelFont}
    (hw : ∀ key, ∀ cmd ∈ (dictGet b.cmds key).getD [], WellFormedCmd cmd) (hn : ∀ e ∈ b.glyphs.masters, Nested f0.order (gidsIn f0) depth e.1) :
    ∀ {l : List Nat} {font : LabelFont}, SameShape f0 font →
    ((∃ r, ufoLoop ops deg asm o depth b s font l = .ok r) ↔ ∀ k ∈ l, (∃ r, s.kerning.masterKerning k = .ok r) ∧
      (∃ r, masterInfo ops deg o.build b.masters b.info.attrs k = .ok r) ∧ ∀ e ∈ b.glyphs.masters, GlyphReady ops asm o.build b.glyphs.order k e.2 ∧ TextReady o b e.1) := by
  intro l
  induction l with
  | nil => intro font _; exact ⟨fun _ => by simp, fun _ => ⟨_, rfl⟩⟩
  | cons k l ih =>
    intro font hf
    rw [ufoLoop]
    obtain ⟨h1, h2⟩ := ufoMaster_exists (deg := deg) (s := s) (k := k) hw hn hf
    constructor
    · intro h
      obtain ⟨x, r, q1, q2⟩ := bind_exists.1 h
      obtain ⟨y, r', q3, -⟩ := bind_exists.1 ⟨_, q2⟩
      intro j hj
      rcases List.mem_cons.1 hj with rfl | hj
      · exact h1.1 ⟨x, q1⟩
      · exact (ih (h2 x q1)).1 ⟨y, q3⟩ j hj
    · intro h
      obtain ⟨x, q1⟩ := h1.2 (h k (by simp))
      obtain ⟨y, q3⟩ := (ih (h2 x q1)).2 fun j hj => h j (by simp [hj])
      rw [q1, okBind, q3, okBind]
      exact ⟨_, rfl⟩

theorem masters_pos {o : BuildOpts} {es : List (FEntry ops asm)} {mp : MastersPart ops.Angle} (h : buildMasters ops asm o es = .ok mp) :
    0 < mp.masters.length := by
  obtain ⟨st0, -, rfl⟩ := buildMasters_inv h
  dsimp only
  rw [fixMasters_length]
  refine Nat.lt_of_lt_of_le ?_ (Nat.le_max_right _ _)
  unfold expectedMasters
  split
  · decide
  · rename_i h
    exact Nat.mul_pos (Int.natAbs_pos.2 h) (Int.natAbs_pos.2 h)

/-- what is needed besides the parts that can be built: the instructions, and for each master the kerning, the font info and the glyphs -/
structure MastersReady (o : UfoOpts) (gp : GlyphPart ops.Angle asm.Asm) (stems : StemTables) (zones : ZoneTables) (mp : MastersPart ops.Angle)
    (ip : InfoPart asm.Asm) (s : SharedData) : Prop where
  instructions : ∀ e ∈ gp.masters, ∀ is, e.2.tth = some is → ∀ i ∈ is, Spec.Complete (fontEnv stems zones) i
  ascii : o.base64 = true → ∀ e ∈ gp.masters, ∀ is, e.2.tth = some is → ∀ i ∈ is, AsciiNames (fontEnv stems zones) i
  kerning : ∀ k < mp.masters.length, ∃ r, s.kerning.masterKerning k = .ok r
  info : ∀ k < mp.masters.length, ∃ r, masterInfo ops deg o.build mp ip.attrs k = .ok r
  glyphs : ∀ k < mp.masters.length, ∀ e ∈ gp.masters, GlyphReady ops asm o.build gp.order k e.2

/-- **C96** The conversion succeeds exactly if each part can be built, and the masters have got all they need. -/
theorem C96_parts {o : UfoOpts} {depth : Nat} {es : List (FEntry ops asm)} (hw : ∀ e ∈ es, WellTyped ops asm e)
    (hz : ZonesFirst ops asm es)
    (hn : ∀ gp, buildGlyphs ops asm o.build es = .ok gp → ∀ e ∈ gp.masters, Nested gp.order (gidsOf ops asm gp) depth e.1) :
    (∃ ufos, convert ops deg asm fmt o depth es = .ok ufos) ↔
    ∃ gp stems zones mp fp ip s, buildGlyphs ops asm o.build es = .ok gp ∧ StemsOf ops asm o.build es stems ∧ ZonesOf ops asm o.build es zones ∧
      buildMasters ops asm o.build es = .ok mp ∧ buildFeatures ops asm o.build es = .ok fp ∧ buildInfo fmt ops asm o.build es = .ok ip ∧
      sharedData o.fea o.build.minimal fp gp.order gp.kerning = .ok s ∧ MastersReady (deg := deg) o gp stems zones mp ip s := by
  have henv : ∀ {gp : GlyphPart ops.Angle asm.Asm} {tt : TtPart}, buildGlyphsTt ops asm o.build es = .ok (gp, tt) → ∀ e ∈ gp.masters,
      tthEnv tt e.1 = fontEnv tt.stems tt.zones := by
    intro gp tt h e he
    unfold tthEnv fontEnv
    rw [buildTt_named hz h he]
    rfl
  have hfresh : ∀ gp : GlyphPart ops.Angle asm.Asm, gidsIn (freshLabels ops asm gp) = gidsOf ops asm gp := by
    intro gp
    funext n
    unfold gidsIn gidsOf freshLabels
    dsimp only
    rw [dictGet_mapVal (fun g : BGlyph ops.Angle asm.Asm => (⟨g.nodes.length, g.components.map Component.gid, [], []⟩ : LabelGlyph)) gp.masters n, Option.map_map]
    rfl
  have hcmds : ∀ {gp : GlyphPart ops.Angle asm.Asm} {tt : TtPart} {cmds : List (PyStr × List TthCommand)} {font : LabelFont}, DictOk gp.masters →
      ttGlyphLib ops asm depth tt (freshLabels ops asm gp) (sortedGlyphs gp.masters) = .ok (cmds, font) →
      SameShape (freshLabels ops asm gp) font ∧ (∀ key, ∀ cmd ∈ (dictGet cmds key).getD [], WellFormedCmd cmd) ∧
      (∀ e ∈ gp.masters, ∀ is, e.2.tth = some is → ∀ i ∈ is, Spec.Complete (tthEnv tt e.1) i) ∧
      ∀ e ∈ gp.masters, (∀ text, tthLib ((dictGet cmds e.1).getD []) = .ok (some text) → Ascii text) ↔
        ∀ is, e.2.tth = some is → ∀ i ∈ is, AsciiNames (tthEnv tt e.1) i := by
    intro gp tt cmds font hd h
    have hgood := fresh_good (fresh_labels hd)
    have hperm := sortedGlyphs_perm gp.masters
    have hd' : DictOk (sortedGlyphs gp.masters) := by
      unfold DictOk at hd ⊢
      exact (hperm.map Prod.fst).nodup_iff.2 hd
    obtain ⟨t1, t2, t3⟩ := ttGlyphLib_spec h hd' hgood
    refine ⟨fontExt_shape (later_spec t1 hgood).2, fun key cmd hcmd => ?_, fun e he is his i hi => ?_, fun e he => ?_⟩
    · by_cases hk : key ∈ (sortedGlyphs gp.masters).map Prod.fst
      · obtain ⟨e, he, rfl⟩ := List.mem_map.1 hk
        cases ht : e.2.tth with
        | none => rw [(t3 e he).1 ht] at hcmd; cases hcmd
        | some is =>
          obtain ⟨c, f, f1, d1, d2, d3, d4⟩ := (t3 e he).2 is ht
          rw [d1] at hcmd
          obtain ⟨e1, e2, e3⟩ := tthCommands_ok (glyphLaws depth e.1) is d2 d3
          obtain ⟨i, hi, htr⟩ := corresponds_right e3 hcmd
          exact C59_well_formed htr
      · rw [t2 key hk] at hcmd; cases hcmd
    · obtain ⟨c, f, f1, d1, d2, d3, d4⟩ := (t3 e (hperm.mem_iff.2 he)).2 is his
      obtain ⟨e1, e2, e3⟩ := tthCommands_ok (glyphLaws depth e.1) is d2 d3
      obtain ⟨j, hj⟩ := List.getElem?_of_mem hi
      obtain ⟨cmd, hc⟩ : ∃ cmd, c[j]? = some cmd := ⟨_, List.getElem?_eq_getElem (by rw [← e3.1]; exact (List.getElem?_eq_some_iff.1 hj).1)⟩
      exact translated_complete (e3.2 j i cmd hj hc)
    · cases ht : e.2.tth with
      | none =>
        rw [(t3 e (hperm.mem_iff.2 he)).1 ht]
        exact ⟨fun _ is his => (by cases his), fun _ text htext => (by cases htext)⟩
      | some is =>
        obtain ⟨c, f, f1, d1, d2, d3, d4⟩ := (t3 e (hperm.mem_iff.2 he)).2 is ht
        obtain ⟨e1, e2, e3⟩ := tthCommands_ok (glyphLaws depth e.1) is d2 d3
        have hn : ∀ p l, Called depth f1 e.1 p l → Ascii l := fun p l hc => labelOf_ascii e1 (getPointLabel_spec e1 (hc (lit "") 0)).2.2
        rw [d1, Option.getD_some, tthLib_ascii fun cmd hm => (by
          obtain ⟨i, hi, htr⟩ := corresponds_right e3 hm
          exact C59_well_formed htr)]
        constructor
        · intro ha is' his i hi
          cases his
          obtain ⟨j, hj⟩ := List.getElem?_of_mem hi
          obtain ⟨cmd, hc⟩ : ∃ cmd, c[j]? = some cmd := ⟨_, List.getElem?_eq_getElem (by rw [← e3.1]; exact (List.getElem?_eq_some_iff.1 hj).1)⟩
          exact (translated_ascii hn (e3.2 j i cmd hj hc)).1 (ha cmd (List.mem_of_getElem? hc))
        · intro ha cmd hm
          obtain ⟨i, hi, htr⟩ := corresponds_right e3 hm
          exact (translated_ascii hn htr).2 (ha is rfl i hi)
  constructor
  · rintro ⟨ufos, h⟩
    obtain ⟨b, s, st, h1, h2, h3, h4, h5, h6, h7, h8, h9⟩ := convert_cases h
    obtain ⟨q1, q2, q3⟩ := buildTt_spec h1
    have hd := (C64_content ops asm q1).choose_spec.2.1
    obtain ⟨c1, c2, c3, c4⟩ := hcmds hd h2
    have hn' : ∀ e ∈ b.glyphs.masters, Nested (freshLabels ops asm b.glyphs).order (gidsIn (freshLabels ops asm b.glyphs)) depth e.1 := by
      rw [hfresh]; exact hn _ q1
    refine ⟨b.glyphs, b.tt.stems, b.tt.zones, b.masters, b.features, b.info, s, q1, q2, q3, h3, h4, h5, h6, ?_⟩
    have hm : ∀ k < b.masters.masters.length, ∃ u, ufos[k]? = some u := fun k hk => ⟨_, List.getElem?_eq_getElem (by omega)⟩
    have hall : ∀ k ≤ b.masters.masters.length, SameShape (freshLabels ops asm b.glyphs) (st k) := by
      intro k
      induction k with
      | zero => intro _; rw [h8]; exact c1
      | succ k ih =>
        intro hk
        obtain ⟨u, hu⟩ := hm k (by omega)
        exact (ufoMaster_exists (deg := deg) c2 hn' (ih (by omega))).2 _ (h9 k u hu)
    have hr : ∀ k < b.masters.masters.length, (∃ r, s.kerning.masterKerning k = .ok r) ∧
        (∃ r, masterInfo ops deg o.build b.masters b.info.attrs k = .ok r) ∧ ∀ e ∈ b.glyphs.masters, GlyphReady ops asm o.build b.glyphs.order k e.2 ∧ TextReady o b e.1 := by
      intro k hk
      obtain ⟨u, hu⟩ := hm k hk
      exact (ufoMaster_exists (deg := deg) c2 hn' (hall k (by omega))).1.1 ⟨_, h9 k u hu⟩
    have hpos : 0 < b.masters.masters.length := masters_pos h3
    refine ⟨fun e he => ?_, fun hb e he => ?_, fun k hk => (hr k hk).1, fun k hk => (hr k hk).2.1, fun k hk e he => ((hr k hk).2.2 e he).1⟩
    · rw [← henv h1 e he]
      exact c3 e he
    · rw [← henv h1 e he]
      exact (c4 e he).1 (((hr 0 hpos).2.2 e he).2 hb)
  · rintro ⟨gp, stems, zones, mp, fp, ip, s, h1, h2, h3, h4, h5, h6, h7, hr⟩
    obtain ⟨tt, t1, t2, t3⟩ := buildTt_exists hw h1 h2 h3
    have hd := (C64_content ops asm h1).choose_spec.2.1
    have hn' : ∀ e ∈ gp.masters, Nested (freshLabels ops asm gp).order (gidsIn (freshLabels ops asm gp)) depth e.1 := by
      rw [hfresh]; exact hn _ h1
    have hperm := sortedGlyphs_perm gp.masters
    obtain ⟨⟨cmds, labels⟩, hl⟩ := ttGlyphLib_exists (ops := ops) (asm := asm) (t := tt) (l := sortedGlyphs gp.masters)
      (fun e he => hn' e (hperm.mem_iff.1 he)) (.refl (freshLabels ops asm gp)) (fun e he => by
        rw [henv t1 e (hperm.mem_iff.1 he), t2, t3]
        exact hr.instructions e (hperm.mem_iff.1 he))
    obtain ⟨c1, c2, c3, c4⟩ := hcmds hd hl
    have hb : build ops asm fmt o.build depth es = .ok ⟨gp, tt, cmds, labels, mp, fp, ip⟩ := by
      unfold build
      rw [t1, okBind, hl, okBind, h4, okBind, h5, okBind, h6, okBind]
    obtain ⟨r, hloop⟩ := (ufoLoop_exists (deg := deg) (b := ⟨gp, tt, cmds, labels, mp, fp, ip⟩) (s := s) (l := List.range mp.masters.length) c2 hn' c1).2 (by
      intro k hk
      rw [List.mem_range] at hk
      exact ⟨hr.kerning k hk, hr.info k hk, fun e he => ⟨hr.glyphs k hk e he, fun hb => (c4 e he).2 (by
        rw [henv t1 e he, t2, t3]
        exact hr.ascii hb e he)⟩⟩)
    refine ⟨r.1, ?_⟩
    unfold convert
    rw [hb, okBind]
    unfold ufoMasters
    dsimp only
    rw [h7, okBind, hloop, okBind]

end
end Verif.Props
