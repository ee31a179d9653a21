import Verif.Props.Build
import Verif.Props.Text
import Verif.Model.Cmdline
import Verif.Model.Commands
import Verif.Spec.Encoding
/-! C105: the encoding of texts. -/
set_option autoImplicit false
namespace Verif.Props
open Verif Verif.Spec

section
variable (ops : AngleOps) (asm : AsmOps)

/-- settings that differ at most in the encoding -/
structure CtxAlike (c c' : Ctx) : Prop where
  masters : c'.num_masters = c.num_masters
  stemsV : c'.ttStemsV_count = c.ttStemsV_count
  stemsH : c'.ttStemsH_count = c.ttStemsH_count
  platform : c'.writer_platform = c.writer_platform

theorem parse_alike (id : Int) {c c' : Ctx} (h : CtxAlike c c') : (vfbCodec ops asm).parse id c' = (vfbCodec ops asm).parse id c :=
  parse_ctx ops asm id c' c h.masters h.stemsV h.stemsH h.platform

theorem compile_alike {id : Int} {comp : Ctx → Option (Decompiled ops.Angle asm.Asm) → W} (hc : (vfbCodec ops asm).compile id = some comp)
    {c c' : Ctx} (h : CtxAlike c c') : comp c' = comp c := by
  replace hc : tableCompile ops asm id = some comp := hc
  unfold tableCompile at hc
  cases hk : kindOf id with
  | none => rw [hk] at hc; cases hc
  | some k =>
    rw [hk] at hc
    injection hc with hc
    subst hc
    funext d
    cases d with
    | none => rfl
    | some d =>
      have : (k.cls ops asm).compile c' = (k.cls ops asm).compile c := by
        cases k <;> simp only [Kind.cls, h.masters, h.stemsV, h.stemsH, h.platform]
      simp only [Kind.compileData, this]

theorem entry_decompile_alike {c c' : Ctx} (h : CtxAlike c c') (e : Entry (Decompiled ops.Angle asm.Asm) (List MasterData)) :
    e.decompile (vfbCodec ops asm) c' = e.decompile (vfbCodec ops asm) c := by
  unfold Entry.decompile
  rw [parse_alike ops asm e.id h]

theorem entry_compile_alike {c c' : Ctx} (h : CtxAlike c c') (e : Entry (Decompiled ops.Angle asm.Asm) (List MasterData)) :
    e.compile (vfbCodec ops asm) c' = e.compile (vfbCodec ops asm) c := by
  have hm : e.merged (vfbCodec ops asm) c' = e.merged (vfbCodec ops asm) c := by
    unfold Entry.merged
    rw [h.masters]
  unfold Entry.compile
  rw [hm]
  cases hc : (vfbCodec ops asm).compile e.id with
  | none => rfl
  | some comp =>
    dsimp only
    rw [compile_alike ops asm hc h]

theorem compileEntries_alike {c c' : Ctx} (h : CtxAlike c c') (es : List (Entry (Decompiled ops.Angle asm.Asm) (List MasterData))) :
    compileEntries (vfbCodec ops asm) c' es = compileEntries (vfbCodec ops asm) c es := by
  induction es with
  | nil => rfl
  | cons e es ih => simp only [compileEntries, entry_compile_alike ops asm h, ih]

theorem decompileEntries_alike {c c' : Ctx} (h : CtxAlike c c') (drop : List Int) (es : List (Entry (Decompiled ops.Angle asm.Asm) (List MasterData))) :
    decompileEntries (vfbCodec ops asm) c' drop es = decompileEntries (vfbCodec ops asm) c drop es := by
  induction es with
  | nil => rfl
  | cons e es ih => simp only [decompileEntries, entry_decompile_alike ops asm h, ih]

theorem decompileGlyphs_alike {c c' : Ctx} (h : CtxAlike c c') (es : List (Entry (Decompiled ops.Angle asm.Asm) (List MasterData)))
    (names : List PyStr) : decompileGlyphs (vfbCodec ops asm) c' es names = decompileGlyphs (vfbCodec ops asm) c es names := by
  induction es generalizing names with
  | nil => rfl
  | cons e es ih => simp only [decompileGlyphs, entry_decompile_alike ops asm h, ih, h.masters]

theorem Alike.ctx {v w : Vfb (Decompiled ops.Angle asm.Asm) (List MasterData)} (h : Alike v w) : CtxAlike v.ctx w.ctx :=
  ⟨h.masters, h.stemsV, h.stemsH, h.platform⟩

theorem Alike.of {v w : Vfb (Decompiled ops.Angle asm.Asm) (List MasterData)} (h1 : w.header = v.header) (h2 : w.entries = v.entries)
    (h3 : w.drop_keys = v.drop_keys) (h4 : w.only_header = v.only_header) (h5 : w.any_errors = v.any_errors) (h6 : w.glyphs = v.glyphs)
    (h : CtxAlike v.ctx w.ctx) : Alike v w := ⟨h1, h2, h3, h4, h5, h6, h.masters, h.stemsV, h.stemsH, h.platform⟩

theorem noteCtx_alike (f f' : Bool) (id : Int) (d : Decompiled ops.Angle asm.Asm) {c c' : Ctx} (h : CtxAlike c c') :
    CtxAlike (noteCtx (vfbCodec ops asm) f id d c) (noteCtx (vfbCodec ops asm) f' id d c') := by
  unfold noteCtx
  by_cases h1 : id = 10
  · rw [if_pos h1, if_pos h1]
    exact ⟨h.masters, h.stemsV, h.stemsH, rfl⟩
  · rw [if_neg h1, if_neg h1]
    by_cases h2 : id = 1503
    · rw [if_pos h2, if_pos h2]
      exact ⟨rfl, h.stemsV, h.stemsH, h.platform⟩
    · rw [if_neg h2, if_neg h2]
      by_cases h3 : id = 1269
      · rw [if_pos h3, if_pos h3]
        exact ⟨h.masters, rfl, rfl, h.platform⟩
      · rw [if_neg h3, if_neg h3]
        exact h

theorem addRead_alike {v w : Vfb (Decompiled ops.Angle asm.Asm) (List MasterData)} (h : Alike v w) (id : Int) (data : Bytes) :
    (w.addRead (vfbCodec ops asm) id data).1 = (v.addRead (vfbCodec ops asm) id data).1 ∧
      Alike (v.addRead (vfbCodec ops asm) id data).2 (w.addRead (vfbCodec ops asm) id data).2 := by
  have hc := Alike.ctx ops asm h
  unfold Vfb.addRead
  rw [entry_decompile_alike ops asm hc]
  by_cases hs : isSpecial id = true
  · rw [if_pos hs, if_pos hs]
    rcases Entry.decompile (vfbCodec ops asm) v.ctx { id := id, data := .bytes data } with ⟨⟨x⟩ | ⟨⟨⟩⟩, e, err⟩
    · exact ⟨rfl, Alike.of ops asm h.header h.entries h.drop_keys h.only_header (by dsimp only; rw [h.any_errors]) h.glyphs hc⟩
    · refine ⟨rfl, Alike.of ops asm h.header ?_ h.drop_keys h.only_header h.any_errors h.glyphs ?_⟩
      · dsimp only
        rw [h.drop_keys, h.entries]
      · dsimp only
        cases e.data with
        | none => exact hc
        | bytes b => exact hc
        | dec d => exact noteCtx_alike ops asm _ _ id d hc
  · rw [if_neg hs, if_neg hs]
    refine ⟨rfl, Alike.of ops asm h.header ?_ h.drop_keys h.only_header h.any_errors h.glyphs hc⟩
    dsimp only
    rw [h.drop_keys, h.entries]

theorem readLoop_alike (n : Nat) : ∀ {v w : Vfb (Decompiled ops.Angle asm.Asm) (List MasterData)} (_ : Alike v w) (s : Bytes),
    (readLoop (vfbCodec ops asm) n w s).1 = (readLoop (vfbCodec ops asm) n v s).1 ∧
      Alike (readLoop (vfbCodec ops asm) n v s).2 (readLoop (vfbCodec ops asm) n w s).2 := by
  induction n with
  | zero => intro v w h s; exact ⟨rfl, h⟩
  | succ n ih =>
    intro v w h s
    unfold readLoop
    rw [h.masters]
    cases readEntry v.ctx.num_masters s with
    | err x r => exact ⟨rfl, h⟩
    | ok a rest =>
      rcases a with ⟨id, data⟩
      dsimp only
      obtain ⟨h1, h2⟩ := addRead_alike ops asm h id data
      rcases hv : v.addRead (vfbCodec ops asm) id data with ⟨⟨x⟩ | ⟨⟨⟩⟩, v'⟩
      all_goals
        rcases hw : w.addRead (vfbCodec ops asm) id data with ⟨⟨y⟩ | ⟨⟨⟩⟩, w'⟩
        all_goals
          rw [hv, hw] at h1 h2
          dsimp only at h1 h2 ⊢
      · exact ⟨h1, h2⟩
      · cases h1
      · cases h1
      · by_cases hid : id = 2
        · rw [if_pos hid, if_pos hid]
          exact ⟨rfl, h2⟩
        · rw [if_neg hid, if_neg hid]
          exact ih h2 rest

theorem readRest_alike (n : Nat) {v w : Vfb (Decompiled ops.Angle asm.Asm) (List MasterData)} (h : Alike v w) (s : Bytes) :
    (if w.only_header = true then ((.ok () : Except PyErr Unit), w) else readLoop (vfbCodec ops asm) n w s).1 =
        (if v.only_header = true then ((.ok () : Except PyErr Unit), v) else readLoop (vfbCodec ops asm) n v s).1 ∧
      Alike (if v.only_header = true then ((.ok () : Except PyErr Unit), v) else readLoop (vfbCodec ops asm) n v s).2
        (if w.only_header = true then ((.ok () : Except PyErr Unit), w) else readLoop (vfbCodec ops asm) n w s).2 := by
  rw [h.only_header]
  by_cases ho : v.only_header = true
  · rw [if_pos ho, if_pos ho]
    exact ⟨rfl, h⟩
  · rw [if_neg ho, if_neg ho]
    exact readLoop_alike ops asm _ h s

theorem readBytes_alike {v w : Vfb (Decompiled ops.Angle asm.Asm) (List MasterData)} (h : Alike v w) (file : Bytes) :
    (w.readBytes (vfbCodec ops asm) file).1 = (v.readBytes (vfbCodec ops asm) file).1 ∧
      Alike (v.readBytes (vfbCodec ops asm) file).2 (w.readBytes (vfbCodec ops asm) file).2 := by
  unfold Vfb.readBytes Vfb.readFuel
  dsimp only
  have hc := Alike.ctx ops asm h
  cases parseHeader file with
  | err x r => exact ⟨rfl, Alike.of ops asm rfl rfl h.drop_keys h.only_header h.any_errors h.glyphs hc⟩
  | ok hd rest =>
    exact readRest_alike ops asm _ (v := { v with header := .dec hd, entries := [] }) (w := { w with header := .dec hd, entries := [] })
      (Alike.of ops asm rfl rfl h.drop_keys h.only_header h.any_errors h.glyphs hc) rest

theorem decompile_alike {v w : Vfb (Decompiled ops.Angle asm.Asm) (List MasterData)} (h : Alike v w) :
    (w.decompile (vfbCodec ops asm)).1 = (v.decompile (vfbCodec ops asm)).1 ∧
      Alike (v.decompile (vfbCodec ops asm)).2 (w.decompile (vfbCodec ops asm)).2 := by
  have hc := Alike.ctx ops asm h
  unfold Vfb.decompile
  rw [h.header, decompileEntries_alike ops asm hc, h.drop_keys, h.entries]
  cases v.header.decompile with
  | error x => exact ⟨rfl, Alike.of ops asm rfl rfl rfl h.only_header rfl h.glyphs hc⟩
  | ok hd =>
    rcases decompileEntries (vfbCodec ops asm) v.ctx v.drop_keys v.entries with ⟨r, es, err⟩
    exact ⟨rfl, Alike.of ops asm rfl rfl rfl h.only_header rfl h.glyphs hc⟩

theorem compile_font_alike {v w : Vfb (Decompiled ops.Angle asm.Asm) (List MasterData)} (h : Alike v w) :
    (w.compile (vfbCodec ops asm)).1 = (v.compile (vfbCodec ops asm)).1 ∧
      Alike (v.compile (vfbCodec ops asm)).2 (w.compile (vfbCodec ops asm)).2 := by
  have hc := Alike.ctx ops asm h
  unfold Vfb.compile
  rw [h.header, compileEntries_alike ops asm hc, h.entries]
  cases v.header.compile with
  | error x => exact ⟨rfl, h⟩
  | ok hd =>
    rcases compileEntries (vfbCodec ops asm) v.ctx v.entries with ⟨r, es⟩
    exact ⟨rfl, Alike.of ops asm rfl rfl h.drop_keys h.only_header h.any_errors h.glyphs hc⟩

theorem write_alike {v w : Vfb (Decompiled ops.Angle asm.Asm) (List MasterData)} (h : Alike v w) :
    (w.writeBytes (vfbCodec ops asm)).1 = (v.writeBytes (vfbCodec ops asm)).1 ∧
      (w.writeBytes (vfbCodec ops asm)).2.1 = (v.writeBytes (vfbCodec ops asm)).2.1 ∧
      Alike (v.writeBytes (vfbCodec ops asm)).2.2 (w.writeBytes (vfbCodec ops asm)).2.2 := by
  obtain ⟨h1, h2⟩ := compile_font_alike ops asm h
  unfold Vfb.writeBytes
  rcases hv : v.compile (vfbCodec ops asm) with ⟨⟨x⟩ | ⟨⟨⟩⟩, v'⟩
  all_goals
    rcases hw : w.compile (vfbCodec ops asm) with ⟨⟨y⟩ | ⟨⟨⟩⟩, w'⟩
    all_goals
      rw [hv, hw] at h1 h2
      dsimp only at h1 h2 ⊢
  · exact ⟨h1, rfl, h2⟩
  · cases h1
  · cases h1
  · have hc2 := Alike.ctx ops asm h2
    rw [h2.header, h2.entries]
    cases hh : v'.header with
    | bytes hb =>
      dsimp only
      rcases emitEntries v'.entries with ⟨r, out, es⟩
      exact ⟨rfl, rfl, Alike.of ops asm rfl rfl h2.drop_keys h2.only_header h2.any_errors h2.glyphs hc2⟩
    | none => exact ⟨rfl, rfl, h2⟩
    | dec d => exact ⟨rfl, rfl, h2⟩

theorem keys_alike {v w : Vfb (Decompiled ops.Angle asm.Asm) (List MasterData)} (h : Alike v w) :
    (w.keys (vfbCodec ops asm)).1 = (v.keys (vfbCodec ops asm)).1 ∧
      Alike (v.keys (vfbCodec ops asm)).2 (w.keys (vfbCodec ops asm)).2 := by
  have hc := Alike.ctx ops asm h
  unfold Vfb.keys
  rw [h.glyphs, h.entries, decompileGlyphs_alike ops asm hc, h.any_errors]
  by_cases hg : v.glyphs = []
  · rw [if_pos hg, if_pos hg]
    rcases decompileGlyphs (vfbCodec ops asm) v.ctx v.entries [] with ⟨⟨x⟩ | ⟨⟨⟩⟩, es, ns, err⟩
    · exact ⟨rfl, Alike.of ops asm h.header rfl h.drop_keys h.only_header rfl rfl hc⟩
    · exact ⟨rfl, Alike.of ops asm h.header rfl h.drop_keys h.only_header rfl rfl hc⟩
  · rw [if_neg hg, if_neg hg]
    exact ⟨rfl, h⟩

/-- **C105** (Known defect) The option for Unicode strings, and the encoding that follows from the platform of the file, have no
effect: whatever calls are made one after the other (reading files, decompiling, compiling, writing, listing the glyph names, making the
dictionary for JSON), two font objects that differ only in these settings give the same answers, raise the same exceptions and write
the same bytes. -/
theorem C105_no_effect (calls : List VfbUse) (v w : Vfb (Decompiled ops.Angle asm.Asm) (List MasterData)) (h : Alike v w) :
    answers (vfbCodec ops asm) calls w = answers (vfbCodec ops asm) calls v := by
  induction calls generalizing v w with
  | nil => rfl
  | cons c cs ih =>
    have hstep : (c.run (vfbCodec ops asm) w).1 = (c.run (vfbCodec ops asm) v).1 ∧
        Alike (c.run (vfbCodec ops asm) v).2 (c.run (vfbCodec ops asm) w).2 := by
      cases c with
      | read file =>
        obtain ⟨h1, h2⟩ := readBytes_alike ops asm h file
        exact ⟨by simp only [VfbUse.run, h1], h2⟩
      | decompile =>
        obtain ⟨h1, h2⟩ := decompile_alike ops asm h
        exact ⟨by simp only [VfbUse.run, h1], h2⟩
      | compile =>
        obtain ⟨h1, h2⟩ := compile_font_alike ops asm h
        exact ⟨by simp only [VfbUse.run, h1], h2⟩
      | write =>
        obtain ⟨h1, h2, h3⟩ := write_alike ops asm h
        exact ⟨by simp only [VfbUse.run, h1, h2], h3⟩
      | keys =>
        obtain ⟨h1, h2⟩ := keys_alike ops asm h
        exact ⟨by simp only [VfbUse.run, h1], h2⟩
      | asDict => exact ⟨by simp only [VfbUse.run, Vfb.asDict, h.header, h.entries], h⟩
    simp only [answers]
    rw [hstep.1, ih _ _ hstep.2]

/-- **C105** (Known defect) The option makes no difference to what `vfb2json` writes. -/
theorem C105_json (o : JsonOpts) (b : Bool) (file : Bytes) :
    saveJson (vfbCodec ops asm) { o with unicode_strings := b } file = saveJson (vfbCodec ops asm) o file := by
  obtain ⟨h1, h2⟩ := readBytes_alike ops asm (v := { only_header := o.only_header, force_unicode_strings := o.unicode_strings })
    (w := { only_header := o.only_header, force_unicode_strings := b }) ⟨rfl, rfl, rfl, rfl, rfl, rfl, rfl, rfl, rfl, rfl⟩ file
  have hdec : ∀ {v w : Vfb (Decompiled ops.Angle asm.Asm) (List MasterData)}, Alike v w →
      (∃ x, jsonDecompile (vfbCodec ops asm) o v = .error x ∧ jsonDecompile (vfbCodec ops asm) { o with unicode_strings := b } w = .error x) ∨
      ∃ v' w', jsonDecompile (vfbCodec ops asm) o v = .ok v' ∧ jsonDecompile (vfbCodec ops asm) { o with unicode_strings := b } w = .ok w' ∧
        Alike v' w' := by
    intro v w h
    unfold jsonDecompile
    by_cases hn : o.no_decompile = true
    · rw [if_pos hn, if_pos hn]
      exact .inr ⟨v, w, rfl, rfl, h⟩
    · rw [if_neg hn, if_neg hn]
      obtain ⟨h1, h2⟩ := decompile_alike ops asm h
      rcases hv : v.decompile (vfbCodec ops asm) with ⟨⟨x⟩ | ⟨⟨⟩⟩, v'⟩
      all_goals
        rcases hw : w.decompile (vfbCodec ops asm) with ⟨⟨y⟩ | ⟨⟨⟩⟩, w'⟩
        all_goals
          rw [hv, hw] at h1 h2
          dsimp only at h1 h2 ⊢
      · injection h1 with h1
        subst h1
        exact .inl ⟨y, rfl, rfl⟩
      · cases h1
      · cases h1
      · exact .inr ⟨_, _, rfl, rfl, h2⟩
  have hrt : ∀ {v w : Vfb (Decompiled ops.Angle asm.Asm) (List MasterData)}, Alike v w →
      (∃ x, jsonRoundtrip (vfbCodec ops asm) o v = .error x ∧ jsonRoundtrip (vfbCodec ops asm) { o with unicode_strings := b } w = .error x) ∨
      ∃ v' w', jsonRoundtrip (vfbCodec ops asm) o v = .ok v' ∧ jsonRoundtrip (vfbCodec ops asm) { o with unicode_strings := b } w = .ok w' ∧
        Alike v' w' := by
    intro v w h
    unfold jsonRoundtrip
    by_cases hn : o.roundtrip = true
    · rw [if_pos hn, if_pos hn]
      obtain ⟨h1, h2⟩ := decompile_alike ops asm h
      rcases hv : v.decompile (vfbCodec ops asm) with ⟨⟨x⟩ | ⟨⟨⟩⟩, v'⟩
      all_goals
        rcases hw : w.decompile (vfbCodec ops asm) with ⟨⟨y⟩ | ⟨⟨⟩⟩, w'⟩
        all_goals
          rw [hv, hw] at h1 h2
          dsimp only at h1 h2 ⊢
      · injection h1 with h1
        subst h1
        exact .inl ⟨y, rfl, rfl⟩
      · cases h1
      · cases h1
      · obtain ⟨h3, h4⟩ := compile_font_alike ops asm h2
        rcases hv : v'.compile (vfbCodec ops asm) with ⟨⟨x⟩ | ⟨⟨⟩⟩, v''⟩
        all_goals
          rcases hw : w'.compile (vfbCodec ops asm) with ⟨⟨y⟩ | ⟨⟨⟩⟩, w''⟩
          all_goals
            rw [hv, hw] at h3 h4
            dsimp only at h3 h4 ⊢
        · injection h3 with h3
          subst h3
          exact .inl ⟨y, rfl, rfl⟩
        · cases h3
        · cases h3
        · exact .inr ⟨_, _, rfl, rfl, h4⟩
    · rw [if_neg hn, if_neg hn]
      exact .inr ⟨v, w, rfl, rfl, h⟩
  unfold saveJson
  rcases hv : Vfb.readBytes (vfbCodec ops asm) { only_header := o.only_header, force_unicode_strings := o.unicode_strings } file with ⟨⟨x⟩ | ⟨⟨⟩⟩, v⟩
  all_goals
    rcases hw : Vfb.readBytes (vfbCodec ops asm) { only_header := o.only_header, force_unicode_strings := b } file with ⟨⟨y⟩ | ⟨⟨⟩⟩, w⟩
    all_goals
      rw [hv, hw] at h1 h2
      dsimp only at h1 h2 ⊢
  · injection h1 with h1
    rw [h1]
  · cases h1
  · cases h1
  · rcases hrt h2 with ⟨x, e1, e2⟩ | ⟨v', w', e1, e2, h3⟩
    · rw [e1, e2]
      rfl
    · rw [e1, e2]
      have hb : ∀ (u : Vfb (Decompiled ops.Angle asm.Asm) (List MasterData)) (f : Vfb (Decompiled ops.Angle asm.Asm) (List MasterData) →
          Except PyErr (VfbDict (Decompiled ops.Angle asm.Asm))), ((Except.ok u : Except PyErr _) >>= f) = f u := fun _ _ => rfl
      rw [hb, hb]
      rcases hdec h3 with ⟨x, e1, e2⟩ | ⟨v'', w'', e1, e2, h4⟩
      · rw [e1, e2]
      · rw [e1, e2, hb, hb]
        simp only [Vfb.asDict, h4.header, h4.entries]

/-- **C105** (Known defect) The option makes no difference to the UFOs that `vfb3ufo` writes. -/
theorem C105_ufo (deg : ops.Angle → Rat) (fmt : Int → PyStr) (a : UfoArgs) (b : Bool) (depth : Nat) (fs : Files asm.Asm) :
    vfb3ufo ops deg asm fmt { a with unicode_strings := b } depth fs = vfb3ufo ops deg asm fmt a depth fs := by
  have hr : ∀ file, readFont ops asm { a with unicode_strings := b } file = readFont ops asm a file := by
    intro file
    obtain ⟨h1, h2⟩ := readBytes_alike ops asm (v := { drop_keys := [1500, 1501], force_unicode_strings := a.unicode_strings })
      (w := { drop_keys := [1500, 1501], force_unicode_strings := b }) ⟨rfl, rfl, rfl, rfl, rfl, rfl, rfl, rfl, rfl, rfl⟩ file
    unfold readFont
    rcases hv : Vfb.readBytes (vfbCodec ops asm) { drop_keys := [1500, 1501], force_unicode_strings := a.unicode_strings } file with ⟨⟨x⟩ | ⟨⟨⟩⟩, v⟩
    all_goals
      rcases hw : Vfb.readBytes (vfbCodec ops asm) { drop_keys := [1500, 1501], force_unicode_strings := b } file with ⟨⟨y⟩ | ⟨⟨⟩⟩, w⟩
      all_goals
        rw [hv, hw] at h1 h2
        dsimp only at h1 h2 ⊢
    · injection h1 with h1
      rw [h1]
    · cases h1
    · cases h1
    · obtain ⟨h3, h4⟩ := decompile_alike ops asm h2
      rcases hv : v.decompile (vfbCodec ops asm) with ⟨⟨x⟩ | ⟨⟨⟩⟩, v'⟩
      all_goals
        rcases hw : w.decompile (vfbCodec ops asm) with ⟨⟨y⟩ | ⟨⟨⟩⟩, w'⟩
        all_goals
          rw [hv, hw] at h3 h4
          dsimp only at h3 h4 ⊢
      · injection h3 with h3
        rw [h3]
      · cases h3
      · cases h3
      · simp only [fontEntries, h4.entries]
  have hw : ∀ (us : List (UfoFont asm.Asm)) (ds : Option DsDoc) (i : Nat) (fs : Files asm.Asm),
      writeSteps { a with unicode_strings := b } fs i us ds = writeSteps a fs i us ds := by
    intro us ds
    induction us with
    | nil =>
      intro i fs
      cases ds <;> rfl
    | cons u us ih =>
      intro i fs
      simp only [writeSteps, ih]
      rfl
  unfold vfb3ufo
  have hin : (match fs a.input with
      | some (.bytes file) =>
        (match readFont ops asm { a with unicode_strings := b } file >>= ufosDesignspace ops deg asm fmt { a with unicode_strings := b } depth with
        | .error e => ((.error (.exception e) : Except CmdErr Unit), ([] : List (FPath × DiskFile asm.Asm)))
        | .ok r => writeSteps { a with unicode_strings := b } fs 0 r.1 r.2)
      | _ => (.error .noInput, [])) = (match fs a.input with
      | some (.bytes file) =>
        (match readFont ops asm a file >>= ufosDesignspace ops deg asm fmt a depth with
        | .error e => ((.error (.exception e) : Except CmdErr Unit), ([] : List (FPath × DiskFile asm.Asm)))
        | .ok r => writeSteps a fs 0 r.1 r.2)
      | _ => (.error .noInput, [])) := by
    have hu : ufosDesignspace ops deg asm fmt { a with unicode_strings := b } depth = ufosDesignspace ops deg asm fmt a depth := rfl
    simp only [hr, hw, hu]
  exact hin

theorem lastPlatform_cons (e : Entry (Decompiled ops.Angle asm.Asm) (List MasterData)) (l : List (Entry (Decompiled ops.Angle asm.Asm) (List MasterData))) :
    lastPlatform (e :: l) = (lastPlatform l).or (lastPlatform [e]) := by
  unfold lastPlatform
  rw [← List.singleton_append, List.filterMap_append, List.getLast?_append]

/-- the encoding after entries have been read -/
theorem ctxAll_encoding (force : Bool) (es : List (Nat × Bytes)) : ∀ (c : Ctx), Readable (vfbCodec ops asm) force c es →
    (ctxAll (vfbCodec ops asm) force c es).encoding =
      match lastPlatform (loaded (vfbCodec ops asm) force c es : List (Entry (Decompiled ops.Angle asm.Asm) (List MasterData))) with
      | none => c.encoding
      | some p => if force = true ∨ p = lit "macos" then lit "utf-8" else lit "cp1252" := by
  induction es with
  | nil => intro c _; rfl
  | cons p es ih =>
    intro c hread
    obtain ⟨_, _, _, r4, r5⟩ := hread
    have h := ih _ r5
    show (ctxAll (vfbCodec ops asm) force (ctxAfter (vfbCodec ops asm) force c p) es).encoding = _
    rw [h, loaded, lastPlatform_cons]
    cases lastPlatform (loaded (vfbCodec ops asm) force (ctxAfter (vfbCodec ops asm) force c p) es : List (Entry (Decompiled ops.Angle asm.Asm) (List MasterData))) with
    | some q => rfl
    | none =>
      simp only [Option.none_or]
      unfold ctxAfter loadedEntry
      by_cases hsp : isSpecial p.1 = true
      · obtain ⟨d, hd⟩ := r4 hsp
        rw [if_pos hsp, if_pos hsp, hd]
        dsimp only
        rcases special_kinds p.1 hsp with ⟨hk, hi⟩ | ⟨hk, hi⟩ | ⟨hk, hi⟩
        · obtain ⟨a, rfl⟩ := parse_inj ops asm hk hd
          have hi' : ((p.1 : Nat) : Int) = 10 := hi
          simp only [noteCtx, lastPlatform, hi', if_true, List.filterMap_cons, List.filterMap_nil]
          rfl
        · have hn : ((p.1 : Nat) : Int) ≠ 10 := by omega
          have h3 : ((p.1 : Nat) : Int) = 1503 := by omega
          simp only [noteCtx, lastPlatform, h3, List.filterMap_cons, List.filterMap_nil]
          rfl
        · have h3 : ((p.1 : Nat) : Int) = 1269 := by omega
          simp only [noteCtx, lastPlatform, h3, List.filterMap_cons, List.filterMap_nil]
          rfl
      · rw [if_neg hsp, if_neg hsp]
        have hn : ((p.1 : Nat) : Int) ≠ 10 := by
          intro h
          rw [h] at hsp
          exact hsp rfl
        simp only [lastPlatform, if_neg hn, List.filterMap_cons, List.filterMap_nil]
        rfl

/-- **C105** After a file (of any origin) has been read, the attribute `encoding` is "utf-8" if Unicode strings were demanded or the last
FL version entry says that the file comes from a Mac, "cp1252" if it says anything else, and as before if there is no such entry. -/
theorem C105_setting (v v1 : Vfb (Decompiled ops.Angle asm.Asm) (List MasterData)) (file : Bytes)
    (ho : v.only_header = false) (hk : v.drop_keys = []) (hl : v.ctx.num_masters < 2147483640)
    (h : v.readBytes (vfbCodec ops asm) file = (.ok (), v1)) :
    (lastPlatform v1.entries = none → v1.ctx.encoding = v.ctx.encoding) ∧
    ∀ p, lastPlatform v1.entries = some p →
      v1.ctx.encoding = if v.force_unicode_strings = true ∨ p = lit "macos" then lit "utf-8" else lit "cp1252" := by
  obtain ⟨minor, init, b0, hi0, hread, hsum, _, hf⟩ := C10_every_file _ v v1 file ho (.inr (vfb_small_masters ops asm hl)) h
  have ht : Terminated (init ++ [(2, b0)]) := ⟨init, b0, rfl, hi0⟩
  have h1 := hf []
  rw [read_file _ v minor _ [] ho ht hread, hk, List.filter_eq_self.2 (by simp)] at h1
  injection h1 with _ h1
  have hent : v1.entries = loaded (vfbCodec ops asm) v.force_unicode_strings v.ctx (init ++ [(2, b0)]) := by rw [← h1]
  have hctx : v1.ctx = ctxAll (vfbCodec ops asm) v.force_unicode_strings v.ctx (init ++ [(2, b0)]) := by rw [← h1]
  have he := ctxAll_encoding ops asm v.force_unicode_strings _ v.ctx hread
  rw [← hent, ← hctx] at he
  constructor
  · intro hn
    rw [hn] at he
    exact he
  · intro p hp
    rw [hp] at he
    exact he

end

/-! ### UTF-8 -/

theorem cp1252_zero (b : UInt8) : ∀ c, cp1252Decode b = some c → (c = 0 ↔ b = 0) := by
  have h : ∀ n : Fin 256, ∀ c, cp1252Decode (UInt8.ofNat n) = some c → (c = 0 ↔ UInt8.ofNat n = 0) := by
    intro n
    cases hd : cp1252Decode (UInt8.ofNat n) with
    | none => intro c h; cases h
    | some x =>
      intro c h
      injection h with h
      subst h
      revert x
      revert n
      decide +kernel
  have hb : b = UInt8.ofNat (⟨b.toNat, b.toNat_lt⟩ : Fin 256) := by simp
  rw [hb]
  exact h _

theorem decode_nonzero {b : Bytes} : ∀ {t : PyStr}, b.mapM cp1252Decode = some t → (t.filter (· ≠ 0)).length = (b.filter (· ≠ 0)).length := by
  induction b with
  | nil =>
    intro t h
    simp only [List.mapM_nil] at h
    injection h with h
    subst h
    rfl
  | cons x b ih =>
    intro t h
    rw [List.mapM_cons] at h
    cases hx : cp1252Decode x with
    | none => rw [hx] at h; cases h
    | some c =>
      cases hm : b.mapM cp1252Decode with
      | none => rw [hx, hm] at h; cases h
      | some m =>
        rw [hx, hm] at h
        injection h with h
        subst h
        have hz := cp1252_zero x c hx
        have := ih hm
        by_cases h0 : x = 0
        · have hc := hz.2 h0
          subst h0 hc
          simpa using this
        · have hc : c ≠ 0 := fun h => h0 (hz.1 h)
          simp only [List.filter_cons, ne_eq, hc, h0, not_false_eq_true, decide_true, if_true, List.length_cons]
          simpa using this

theorem dropWhile_nonzero (l : PyStr) : (l.dropWhile (· == 0)).filter (· ≠ 0) = l.filter (· ≠ 0) := by
  induction l with
  | nil => rfl
  | cons a l ih =>
    by_cases h : a = 0
    · subst h
      simpa using ih
    · simp [List.dropWhile_cons, h]

theorem strip_nonzero (l : PyStr) : ((stripNul l).filter (· ≠ 0)).length = (l.filter (· ≠ 0)).length := by
  unfold stripNul
  rw [List.filter_reverse, List.length_reverse, dropWhile_nonzero, List.filter_reverse, List.length_reverse, dropWhile_nonzero]

theorem ofNat_ne_zero {n : Nat} (h1 : 0 < n) (h2 : n < 256) : UInt8.ofNat n ≠ 0 := by
  intro h
  have := congrArg UInt8.toNat h
  simp only [UInt8.toNat_ofNat', UInt8.toNat_zero] at this
  omega

theorem utf8Char_nonzero (c : Nat) (hc : c < 0x110000) :
    ((utf8Char c).filter (· ≠ 0)).length ≥ (if c = 0 then 0 else 1) + (if 128 ≤ c then 1 else 0) := by
  unfold utf8Char
  by_cases h1 : c < 0x80
  · rw [if_pos h1, if_neg (by omega : ¬ 128 ≤ c)]
    by_cases h0 : c = 0
    · rw [if_pos h0]; omega
    · rw [if_neg h0]
      have := ofNat_ne_zero (n := c) (by omega) (by omega)
      simp [this]
  · rw [if_neg h1, if_neg (by omega : ¬ c = 0), if_pos (by omega : 128 ≤ c)]
    by_cases h2 : c < 0x800
    · rw [if_pos h2]
      have e1 := ofNat_ne_zero (n := 0xC0 + c / 0x40) (by omega) (by omega)
      have e2 := ofNat_ne_zero (n := 0x80 + c % 0x40) (by omega) (by omega)
      simp [-UInt8.ofNat_add, e1, e2]
    · rw [if_neg h2]
      by_cases h3 : c < 0x10000
      · rw [if_pos h3]
        have e1 := ofNat_ne_zero (n := 0xE0 + c / 0x1000) (by omega) (by omega)
        have e2 := ofNat_ne_zero (n := 0x80 + c / 0x40 % 0x40) (by omega) (by omega)
        have e3 := ofNat_ne_zero (n := 0x80 + c % 0x40) (by omega) (by omega)
        simp [-UInt8.ofNat_add, e1, e2, e3]
      · rw [if_neg h3]
        have e1 := ofNat_ne_zero (n := 0xF0 + c / 0x40000) (by omega) (by omega)
        have e2 := ofNat_ne_zero (n := 0x80 + c / 0x1000 % 0x40) (by omega) (by omega)
        have e3 := ofNat_ne_zero (n := 0x80 + c / 0x40 % 0x40) (by omega) (by omega)
        have e4 := ofNat_ne_zero (n := 0x80 + c % 0x40) (by omega) (by omega)
        simp [-UInt8.ofNat_add, e1, e2, e3, e4]

theorem utf8_nonzero (s : PyStr) (hs : ∀ c ∈ s, c < 0x110000) :
    ((utf8 s).filter (· ≠ 0)).length ≥ (s.filter (· ≠ 0)).length + (s.filter (128 ≤ ·)).length := by
  induction s with
  | nil => simp [utf8]
  | cons c s ih =>
    have h1 := utf8Char_nonzero c (hs c List.mem_cons_self)
    have h2 := ih fun x hx => hs x (List.mem_cons_of_mem _ hx)
    have h3 : utf8 (c :: s) = utf8Char c ++ utf8 s := rfl
    rw [h3, List.filter_append, List.length_append, List.filter_cons, List.filter_cons]
    by_cases h0 : c = 0
    · subst h0
      simp at h1 h2 ⊢
      omega
    · by_cases hc : 128 ≤ c
      · simp [h0, hc] at h1 h2 ⊢
        omega
      · simp [h0, hc] at h1 h2 ⊢
        omega

theorem parseString_eq (b : Bytes) : parseEntry parseString b = (decode1252 b).map stripNul := by
  have h : parseString b = (R.lift (decode1252 b) >>= fun s => pure (stripNul s)) [] := rfl
  unfold parseEntry
  rw [h]
  cases decode1252 b <;> rfl

theorem utf8_ascii {s : PyStr} (h : ∀ c ∈ s, c < 128) : decode1252 (utf8 s) = .ok s := by
  have : (utf8 s).mapM cp1252Decode = some s := by
    induction s with
    | nil => rfl
    | cons c s ih =>
      have hc := h c List.mem_cons_self
      have h1 : utf8 (c :: s) = UInt8.ofNat c :: utf8 s := by
        show utf8Char c ++ utf8 s = _
        unfold utf8Char
        rw [if_pos hc]
        rfl
      have h2 : cp1252Decode (UInt8.ofNat c) = some c := by
        unfold cp1252Decode
        have : (UInt8.ofNat c).toNat = c := by
          simp only [UInt8.toNat_ofNat']
          omega
        simp only [this, hc, true_or, if_true]
      rw [h1, List.mapM_cons, h2, ih fun x hx => h x (List.mem_cons_of_mem _ hx)]
      rfl
  unfold decode1252 decodeWith
  rw [this]

/-- **C105** (Known defect) Texts in UTF-8 are misread, whatever the platform and the option: the bytes of a text entry that are the
UTF-8 form of a text (without NUL at the ends) are decompiled as this text exactly if all its characters are ASCII characters. -/
theorem C105_utf8_text (ops : AngleOps) (asm : AsmOps) (id : Int) (k : Kind) (hk : kindOf id = some k) (hs : k = .string ∨ k = .vendor) (ctx : Ctx)
    (s : PyStr) (hc : ∀ c ∈ s, c < 0x110000) (hn : NoOuterNul s) :
    parseEntry ((vfbCodec ops asm).parse id ctx) (utf8 s) = .ok (.str s) ↔ ∀ c ∈ s, c < 128 := by
  have hp : parseEntry ((vfbCodec ops asm).parse id ctx) (utf8 s) = ((decode1252 (utf8 s)).map stripNul).map Decompiled.str := by
    show parseEntry (tableParse ops asm id ctx) (utf8 s) = _
    unfold tableParse
    rw [hk]
    dsimp only
    rw [parseEntry_map, ← parseString_eq]
    rcases hs with rfl | rfl <;> rfl
  rw [hp]
  constructor
  · intro h c hcs
    cases hd : decode1252 (utf8 s) with
    | error e => rw [hd] at h; cases h
    | ok t =>
      rw [hd] at h
      simp only [Except.map, Except.ok.injEq, Decompiled.str.injEq] at h
      have h1 : (utf8 s).mapM cp1252Decode = some t := by
        unfold decode1252 decodeWith at hd
        cases hm : (utf8 s).mapM cp1252Decode with
        | none => rw [hm] at hd; cases hd
        | some m =>
          rw [hm] at hd
          injection hd with hd
          rw [hd]
      have h2 := decode_nonzero h1
      have h3 := strip_nonzero t
      rw [h] at h3
      have h4 := utf8_nonzero s hc
      by_contra hcon
      have h5 : 0 < (s.filter (128 ≤ ·)).length :=
        List.length_pos_of_mem (List.mem_filter.2 ⟨hcs, by simpa using hcon⟩)
      omega
  · intro h
    rw [utf8_ascii h]
    simp only [Except.map, stripNul_id hn]

/-! ### examples -/

/-- a file with the platform (0 is Windows, 1 is Mac) and a font name in UTF-8 -/
def nameFile (platform : UInt8) : Bytes := fileOf 5 [(10, [1, 139 + platform, 0]), (1026, utf8 [233]), (2, [])]

/-- what is read from the Mac file: the encoding is noted, and "é" is decompiled as "Ã©" nevertheless -/
theorem nameFile_read : ∃ v v', Vfb.readBytes (vfbCodec exampleAngles exampleAsm) {} (nameFile 1) = (.ok (), v) ∧
    v.ctx.encoding = lit "utf-8" ∧ lastPlatform v.entries = some (lit "macos") ∧ v.decompile (vfbCodec exampleAngles exampleAsm) = (.ok (), v') ∧
    v'.entries[1]? = some { id := 1026, data := .dec (.str [0xC3, 0xA9]) } :=
  ⟨_, _, rfl, rfl, rfl, rfl, rfl⟩

/-- in the Windows file, the encoding depends on the option -/
example : (∃ v, Vfb.readBytes (vfbCodec exampleAngles exampleAsm) {} (nameFile 0) = (.ok (), v) ∧ v.ctx.encoding = lit "cp1252") ∧
    ∃ v, Vfb.readBytes (vfbCodec exampleAngles exampleAsm) { force_unicode_strings := true } (nameFile 0) = (.ok (), v) ∧
      v.ctx.encoding = lit "utf-8" :=
  ⟨⟨_, rfl, rfl⟩, ⟨_, rfl, rfl⟩⟩

/-- C105_no_effect applies to a new font with and without the option; the answers are not trivial -/
example : answers (vfbCodec exampleAngles exampleAsm) [.read (nameFile 0), .decompile, .write, .asDict] { force_unicode_strings := true } =
    answers (vfbCodec exampleAngles exampleAsm) [.read (nameFile 0), .decompile, .write, .asDict] {} :=
  C105_no_effect exampleAngles exampleAsm _ {} { force_unicode_strings := true } ⟨rfl, rfl, rfl, rfl, rfl, rfl, rfl, rfl, rfl, rfl⟩

example : ((answers (vfbCodec exampleAngles exampleAsm) [.read (nameFile 0), .decompile, .write] {}).map fun r => (r.1.toOption.isSome, r.2.length)) =
    [(true, 0), (true, 0), (true, 69)] := by decide +kernel

/-- the hypotheses of C105_utf8_text are met by "é", which is not read as "é" -/
example : parseEntry ((vfbCodec exampleAngles exampleAsm).parse 1026 {}) (utf8 [233]) ≠ .ok (.str [233]) := by
  intro h
  have := (C105_utf8_text exampleAngles exampleAsm 1026 .string (by decide +kernel) (.inl rfl) {} [233] (by decide) ⟨by decide, by decide⟩).1 h 233 (by simp)
  omega

end Verif.Props
