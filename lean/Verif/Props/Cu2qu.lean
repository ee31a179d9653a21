import Verif.Model.Cu2qu
import Verif.Props.EndToEnd
import Verif.Props.VfbSession
/-! C92: the command `vfbcu2qu`; C93: `vfb.info.unitsPerEm`. -/
set_option autoImplicit false
namespace Verif.Props
open Verif Verif.Spec

section
variable {D T : Type}

/-! ## what reading, decompiling and listing leave in a font -/

theorem readBytes_glyphs (C : Codec D T) (v : Vfb D T) (file : Bytes) : (v.readBytes C file).2.glyphs = v.glyphs := by
  unfold Vfb.readBytes Vfb.readFuel
  dsimp only
  cases parseHeader file with
  | err x r => rfl
  | ok h rest =>
    dsimp only
    split
    · rfl
    · rw [readLoop_glyphs]
      rfl

theorem decompile_glyphs (C : Codec D T) (v : Vfb D T) : (v.decompile C).2.glyphs = v.glyphs ∧ (v.decompile C).2.ctx = v.ctx := by
  unfold Vfb.decompile
  cases v.header.decompile with
  | error x => exact ⟨rfl, rfl⟩
  | ok h => exact ⟨rfl, rfl⟩

/-- after the glyphs have been listed, all glyph entries hold the empty glyph -/
theorem decompileGlyphs_empty (C : Codec D T) (c : Ctx) : ∀ (es : List (Entry D T)) (names : List PyStr) (es' : List (Entry D T)) (ns : List PyStr) (f : Bool),
    decompileGlyphs C c es names = (.ok (), es', ns, f) → ∀ e ∈ es', e.id = 2001 → e.data = .dec (C.emptyGlyph c.num_masters)
  | [], _, _, _, _, h => by
    cases h
    simp
  | e :: es, names, es', ns, f, h => by
    rw [decompileGlyphs] at h
    intro x hx hid
    split at h
    · rename_i he
      dsimp only at h
      generalize hnm : names ++ [(if C.glyphName (C.emptyGlyph c.num_masters) ∈ names then
        C.glyphName (C.emptyGlyph c.num_masters) ++ lit "#" ++
          natDec (freeSuffix names (C.glyphName (C.emptyGlyph c.num_masters)) (names.length + 1) 1)
        else C.glyphName (C.emptyGlyph c.num_masters))] = names' at h
      rcases hr : decompileGlyphs C c es names' with ⟨r, es1, ns1, f1⟩
      rw [hr] at h
      cases h
      rcases List.mem_cons.1 hx with rfl | hx
      · rfl
      · exact decompileGlyphs_empty C c es names' _ _ _ hr x hx hid
    · rename_i he
      split at h
      · have hi := decompile_id C c e
        rcases hd : e.decompile C c with ⟨r, e1, b⟩
        rw [hd] at h hi
        cases r with
        | error y => cases h
        | ok u =>
          dsimp only at h
          rcases hr : decompileGlyphs C c es names with ⟨r, es1, ns1, f1⟩
          rw [hr] at h
          cases h
          rcases List.mem_cons.1 hx with rfl | hx
          · exact absurd (hi.symm.trans hid) he
          · exact decompileGlyphs_empty C c es names _ _ _ hr x hx hid
      · rcases hr : decompileGlyphs C c es names with ⟨r, es1, ns1, f1⟩
        rw [hr] at h
        cases h
        rcases List.mem_cons.1 hx with rfl | hx
        · exact absurd hid he
        · exact decompileGlyphs_empty C c es names _ _ _ hr x hx hid

theorem keys_empty (C : Codec D T) (v v' : Vfb D T) (names : List PyStr) (hg : v.glyphs = []) (h : v.keys C = (.ok names, v')) :
    v'.ctx = v.ctx ∧ ∀ e ∈ v'.entries, e.id = 2001 → e.data = .dec (C.emptyGlyph v.ctx.num_masters) := by
  unfold Vfb.keys at h
  rw [if_pos hg] at h
  rcases hr : decompileGlyphs C v.ctx v.entries [] with ⟨r, es, ns, f⟩
  rw [hr] at h
  cases r with
  | error x => cases h
  | ok u =>
    cases h
    exact ⟨rfl, decompileGlyphs_empty C v.ctx v.entries [] es names f hr⟩

/-- listing the glyphs of a font whose entries are all decompiled does not fail -/
theorem decompileGlyphs_ok (C : Codec D T) (c : Ctx) : ∀ (es : List (Entry D T)) (names : List PyStr), (∀ e ∈ es, ∃ d, e.data = .dec d) →
    (decompileGlyphs C c es names).1 = .ok ()
  | [], _, _ => rfl
  | e :: es, names, h => by
    have ih := fun names => decompileGlyphs_ok C c es names fun e he => h e (by simp [he])
    rw [decompileGlyphs]
    split
    · dsimp only
      exact ih _
    · split
      · obtain ⟨d, hd⟩ := h e (by simp)
        have : e.decompile C c = (.ok (), e, false) := by
          unfold Entry.decompile
          rw [hd]
        rw [this]
        exact ih names
      · exact ih names

theorem keys_ok (C : Codec D T) (v : Vfb D T) (hd : ∀ e ∈ v.entries, ∃ d, e.data = .dec d) : ∃ names v', v.keys C = (.ok names, v') := by
  unfold Vfb.keys
  split
  · have := decompileGlyphs_ok C v.ctx v.entries [] hd
    rcases hr : decompileGlyphs C v.ctx v.entries [] with ⟨r, es, ns, f⟩
    rw [hr] at this
    cases this
    exact ⟨_, _, rfl⟩
  · exact ⟨_, _, rfl⟩

/-! ## the units per em -/

theorem findUpm_dec (C : Codec D T) (c : Ctx) : ∀ es : List (Entry D T), (∀ e ∈ es, ∃ d, e.data = .dec d) →
    ∃ r, findUpm C c es = (.ok r, es, false)
  | [], _ => ⟨none, rfl⟩
  | e :: es, h => by
    rw [findUpm]
    split
    · obtain ⟨d, hd⟩ := h e (by simp)
      have : e.decompile C c = (.ok (), e, false) := by
        unfold Entry.decompile
        rw [hd]
      rw [this]
      dsimp only
      rw [hd]
      exact ⟨_, rfl⟩
    · obtain ⟨r, hr⟩ := findUpm_dec C c es fun e he => h e (by simp [he])
      rw [hr]
      exact ⟨r, rfl⟩

theorem unitsPerEm_keeps (C : Codec D T) (f : InfoFont D T) : (f.unitsPerEm C).2.vfb.glyphs = f.vfb.glyphs ∧ (f.unitsPerEm C).2.vfb.ctx = f.vfb.ctx := by
  unfold InfoFont.unitsPerEm
  split
  · exact ⟨rfl, rfl⟩
  · split <;> exact ⟨rfl, rfl⟩

theorem upm_key (id : Int) : entryKey id = lit "upm" ↔ id = 1135 := by
  constructor
  · intro h
    have hinj : ∀ r ∈ parserClasses, lit r.2.1 = lit "upm" → r.1 = 1135 := by decide +kernel
    unfold entryKey at h
    cases hi : parserClasses.find? (fun r => r.1 == id) with
    | some r =>
      rw [hi] at h
      have ri : (r.1 == id) = true := List.find?_some (p := fun r : Int × String × Kind => r.1 == id) hi
      rw [← hinj r (List.mem_of_find?_eq_some hi) h]
      exact (eq_of_beq ri).symm
    | none =>
      rw [hi] at h
      exfalso
      dsimp only at h
      have hc : (109 : Nat) ∈ intDec id := by
        rw [h]
        decide
      unfold intDec at hc
      split at hc
      · rcases List.mem_cons.1 hc with hc | hc
        · exact absurd hc (by decide)
        · have := natDec_digits _ _ hc
          omega
      · have := natDec_digits _ _ hc
        omega
  · rintro rfl
    decide +kernel

theorem findUpm_none (C : Codec D T) (c : Ctx) : ∀ es : List (Entry D T), (∀ e ∈ es, e.id ≠ 1135) → findUpm C c es = (.ok none, es, false)
  | [], _ => rfl
  | e :: es, h => by
    rw [findUpm, if_neg (by rw [upm_key]; exact h e (by simp)), findUpm_none C c es fun e he => h e (by simp [he])]

theorem findUpm_first (C : Codec D T) (c : Ctx) (e : Entry D T) (post : List (Entry D T)) (he : e.id = 1135) :
    ∀ pre : List (Entry D T), (∀ e ∈ pre, e.id ≠ 1135) → findUpm C c (pre ++ e :: post) =
      ((findUpm C c (e :: post)).1, pre ++ (findUpm C c (e :: post)).2.1, (findUpm C c (e :: post)).2.2)
  | [], _ => rfl
  | x :: pre, h => by
    rw [List.cons_append, findUpm, if_neg (by rw [upm_key]; exact h x (by simp)), findUpm_first C c e post he pre fun e he => h e (by simp [he])]
    rfl

/-- **C93** The first question for the units per em: it is the value of the first entry with this id, which is decompiled if necessary; nothing else
changes.  It is 0 if there is no such entry. -/
theorem C93_value (C : Codec D T) (v : Vfb D T) :
    ((∀ e ∈ v.entries, e.id ≠ 1135) → ∃ f, InfoFont.unitsPerEm C { vfb := v } = (.ok none, f) ∧ f.vfb = v) ∧
    (∀ pre post e d, v.entries = pre ++ e :: post → (∀ x ∈ pre, x.id ≠ 1135) → e.id = 1135 →
      (e.data = .dec d ∨ ∃ b, e.data = .bytes b ∧ parseEntry (C.parse 1135 v.ctx) b = .ok d) →
      ∃ f, InfoFont.unitsPerEm C { vfb := v } = (.ok (some d), f) ∧ f.vfb = { v with entries := pre ++ { e with data := .dec d } :: post }) := by
  constructor
  · intro h
    unfold InfoFont.unitsPerEm
    dsimp only
    rw [findUpm_none C v.ctx v.entries h]
    exact ⟨_, rfl, rfl⟩
  · intro pre post e d he hpre hid hd
    unfold InfoFont.unitsPerEm
    dsimp only
    rw [he, findUpm_first C v.ctx e post hid pre hpre]
    have hdec : e.decompile C v.ctx = (.ok (), { e with data := .dec d }, false) := by
      unfold Entry.decompile
      rcases hd with hd | ⟨b, hd, hb⟩
      · rw [hd]
        dsimp only
        rw [← hd]
      · rw [hd]
        dsimp only
        rw [hid, hb]
    have : findUpm C v.ctx (e :: post) = (.ok (some d), { e with data := .dec d } :: post, false) := by
      rw [findUpm, if_pos ((upm_key _).2 hid), hdec]
    rw [this]
    exact ⟨_, rfl, rfl⟩

/-- **C93** If the first entry with this id cannot be parsed, the exception is raised, and every later question tries again. -/
theorem C93_failure (C : Codec D T) (v : Vfb D T) (pre post : List (Entry D T)) (e : Entry D T) (b : Bytes) (x : PyErr)
    (he : v.entries = pre ++ e :: post) (hpre : ∀ x ∈ pre, x.id ≠ 1135) (hid : e.id = 1135) (hb : e.data = .bytes b)
    (hx : parseEntry (C.parse 1135 v.ctx) b = .error x) :
    InfoFont.unitsPerEm C { vfb := v } = (.error x, { vfb := { v with any_errors := true } }) := by
  have hdec : e.decompile C v.ctx = (.error x, e, true) := by
    unfold Entry.decompile
    rw [hb]
    dsimp only
    rw [hid, hx]
  have : findUpm C v.ctx (e :: post) = (.error x, e :: post, true) := by
    rw [findUpm, if_pos ((upm_key _).2 hid), hdec]
  unfold InfoFont.unitsPerEm
  dsimp only
  rw [he, findUpm_first C v.ctx e post hid pre hpre, this]
  dsimp only
  rw [← he, Bool.or_true]

/-- what happens to a font: a question for the units per em, or anything else that changes the font in some way -/
inductive InfoOp (D T : Type) where
  | ask
  | change (g : Vfb D T → Vfb D T)

/-- the font after a history -/
def infoAfter (C : Codec D T) (f : InfoFont D T) : List (InfoOp D T) → InfoFont D T
  | [] => f
  | .ask :: h => infoAfter C (f.unitsPerEm C).2 h
  | .change g :: h => infoAfter C { f with vfb := g f.vfb } h

/-- **C93** (Known defect.) After the first answer, all later answers are the same, whatever has happened to the font in between — another file may have
been read into the object, or the entry may have been changed. -/
theorem C93_stale_defect (C : Codec D T) (f : InfoFont D T) (r : Option D) (f' : InfoFont D T) (h : f.unitsPerEm C = (.ok r, f'))
    (hist : List (InfoOp D T)) : ((infoAfter C f' hist).unitsPerEm C).1 = .ok r := by
  have hc : f'.upm = some r := by
    unfold InfoFont.unitsPerEm at h
    cases hu : f.upm with
    | some r' =>
      rw [hu] at h
      cases h
      exact hu
    | none =>
      rw [hu] at h
      dsimp only at h
      rcases hf : findUpm C f.vfb.ctx f.vfb.entries with ⟨x, es, e⟩
      rw [hf] at h
      cases x with
      | error x => cases h
      | ok r' =>
        cases h
        rfl
  clear h
  induction hist generalizing f' with
  | nil =>
    unfold infoAfter InfoFont.unitsPerEm
    rw [hc]
  | cons o hist ih =>
    cases o with
    | ask =>
      refine ih _ ?_
      unfold InfoFont.unitsPerEm
      rw [hc]
      exact hc
    | change g => exact ih _ hc

/-- **C93** Before an answer has been given, the history does not matter: the answer is that of the font as it is now. -/
theorem C93_current (C : Codec D T) (v : Vfb D T) (hist : List (Vfb D T → Vfb D T)) :
    (infoAfter C { vfb := v } (hist.map .change)).unitsPerEm C = InfoFont.unitsPerEm C { vfb := hist.foldl (fun v g => g v) v } := by
  have : infoAfter C { vfb := v } (hist.map .change) = { vfb := hist.foldl (fun v g => g v) v } := by
    induction hist generalizing v with
    | nil => rfl
    | cons g hist ih => exact ih (g v)
  rw [this]

end

/-! ## C92 -/

section
variable (ops : AngleOps) (deg : ops.Angle → Rat) (asm : AsmOps)

/-- the empty glyph has got no contours in any of its masters -/
theorem outlineOf_empty (order : List PyStr) (n : Int) (m : Nat) (hm : m < n.toNat) :
    outlineOf ops deg asm order n.toNat m (.dec (.glyph (emptyGlyph ops.Angle asm.Asm n))) = .ok [] := by
  unfold outlineOf
  dsimp only
  have key := C91_outline ops deg asm
    ⟨n.toNat, order, ⟨(emptyGlyph ops.Angle asm.Asm n).name.getD [], (emptyGlyph ops.Angle asm.Asm n).metrics.getD [],
      ⟨⟨(emptyGlyph ops.Angle asm.Asm n).nodes, (emptyGlyph ops.Angle asm.Asm n).components⟩, none⟩⟩, ⟨m, m, none, none⟩, []⟩ [] .main
    ⟨m, m, none, none⟩ rfl rfl
  obtain ⟨h1, h2⟩ := key
  obtain ⟨d, hd⟩ := h2.2 ⟨by simpa [stateAfter, sessionRun, emptyGlyph] using hm, by simp [stateAfter, sessionRun, emptyGlyph, HasNodes],
    by simp [stateAfter, sessionRun, emptyGlyph]⟩
  obtain ⟨⟨ren, hc⟩, -⟩ := h1 d hd
  have : d.1 = [] := by
    have he : extractContours [] [] m false = .ok (d.1, ren) := hc
    have : extractContours [] [] m false = .ok ([], []) := rfl
    rw [this] at he
    injection he with he
    exact (congrArg Prod.fst he).symm
  unfold answer stateAfter sessionRun at hd
  dsimp only at hd
  rw [hd]
  exact congrArg Except.ok this

theorem mapM_const_nil {α β : Type} (f : α → Except PyErr (List β)) (l : List α) (h : ∀ a ∈ l, f a = .ok []) :
    l.mapM f = .ok (l.map fun _ => []) := by
  induction l with
  | nil => rfl
  | cons a l ih =>
    rw [List.mapM_cons, h a (by simp), ih fun a ha => h a (by simp [ha])]
    rfl

theorem modifiedNames_empty (q : QuadOps ops.Angle asm.Asm) (err : Option Rat) (upm : Option (Decompiled ops.Angle asm.Asm)) (order : List PyStr)
    (n : Int) : ∀ gs : List (PyStr × EData (Decompiled ops.Angle asm.Asm)), (∀ g ∈ gs, g.2 = .dec (.glyph (emptyGlyph ops.Angle asm.Asm n))) →
    modifiedNames ops deg asm q err upm order n.toNat gs = .ok []
  | [], _ => rfl
  | g :: gs, h => by
    rw [modifiedNames, h g (by simp), mapM_const_nil _ _ fun m hm => outlineOf_empty ops deg asm order n m (List.mem_range.1 hm),
      modifiedNames_empty q err upm order n gs fun g hg => h g (by simp [hg])]
    change Except.ok _ = _
    rw [if_neg]
    rw [q.nothing _ _ _ (by simp)]
    simp

theorem toQuadratic_empty (q : QuadOps ops.Angle asm.Asm) (err : Option Rat) (v : Vfb (Decompiled ops.Angle asm.Asm) (List MasterData))
    (hg : v.glyphs = []) (mods : List PyStr) (v' : Vfb (Decompiled ops.Angle asm.Asm) (List MasterData))
    (h : toQuadratic ops deg asm q err v = .ok (mods, v')) : mods = [] := by
  unfold toQuadratic at h
  have hk := unitsPerEm_keeps (vfbCodec ops asm) { vfb := v }
  rcases hu : InfoFont.unitsPerEm (vfbCodec ops asm) { vfb := v } with ⟨r, f⟩
  rw [hu] at h hk
  cases r with
  | error e => cases h
  | ok upm =>
    dsimp only at h hk
    rcases hn : f.vfb.keys (vfbCodec ops asm) with ⟨r, w⟩
    rw [hn] at h
    cases r with
    | error e => cases h
    | ok names =>
      dsimp only at h
      obtain ⟨k1, k2⟩ := keys_empty (vfbCodec ops asm) f.vfb w names (hk.1.trans hg) hn
      rw [modifiedNames_empty] at h
      · cases h
        rfl
      · intro g hgm
        have := (List.of_mem_zip hgm).2
        obtain ⟨e, he, hed⟩ := List.mem_map.1 this
        obtain ⟨he, hid⟩ := List.mem_filter.1 he
        rw [← hed, k2 e he (by simpa using hid), k1]
        rfl

/-- **C92** (Known defect: the command never converts anything.)  Whatever the file, the options and the rest of the disk: no file is written. -/
theorem C92_nothing_written_defect (q : QuadOps ops.Angle asm.Asm) (a : CuArgs) (fs : Files asm.Asm) :
    (vfbcu2qu ops deg asm q a fs).2 = [] ∧ ∀ p, (vfbcu2qu ops deg asm q a fs).1 ≠ .saved p := by
  unfold vfbcu2qu
  split
  · rename_i file _
    have hg := readBytes_glyphs (vfbCodec ops asm) { drop_keys := [2008] } file
    rcases hr : Vfb.readBytes (vfbCodec ops asm) { drop_keys := [2008] } file with ⟨r, v⟩
    rw [hr] at hg
    cases r with
    | error e => exact ⟨rfl, fun p => by simp⟩
    | ok u =>
      dsimp only
      have hg2 := (decompile_glyphs (vfbCodec ops asm) v).1
      rcases hd : v.decompile (vfbCodec ops asm) with ⟨r, w⟩
      rw [hd] at hg2
      cases r with
      | error e => exact ⟨rfl, fun p => by simp⟩
      | ok u =>
        dsimp only
        split
        · cases hq : toQuadratic ops deg asm q a.max_err_em w with
          | error e => exact ⟨rfl, fun p => by simp⟩
          | ok x =>
            obtain ⟨mods, w'⟩ := x
            have := toQuadratic_empty ops deg asm q a.max_err_em w (hg2.trans hg) mods w' hq
            subst this
            exact ⟨rfl, fun p => by simp⟩
        · exact ⟨rfl, fun p => by simp⟩
  · exact ⟨rfl, fun p => by simp⟩

/-- reading a file without the entries with some ids, and decompiling it -/
theorem read_decompile_drop (drop : List Int) (minor : UInt8) (es : List (Nat × Bytes)) (tail : Bytes) (ht : Terminated es)
    (hr : Readable (vfbCodec ops asm) false {} es) :
    ∃ v, Vfb.readBytes (vfbCodec ops asm) { drop_keys := drop } (fileOf minor es ++ tail) = (.ok (), v) ∧
      v.ctx = ctxAll (vfbCodec ops asm) false {} es ∧
      ((∃ p ∈ es, (p.1 : Int) ∉ drop ∧ ∀ d, parseEntry ((vfbCodec ops asm).parse p.1 v.ctx) p.2 ≠ .ok d) →
        ∃ e w, v.decompile (vfbCodec ops asm) = (.error e, w)) ∧
      ((∀ p ∈ es, (p.1 : Int) ∉ drop → ∃ d, parseEntry ((vfbCodec ops asm).parse p.1 v.ctx) p.2 = .ok d) →
        ∃ w, v.decompile (vfbCodec ops asm) = (.ok (), w) ∧ w.ctx = v.ctx ∧ w.glyphs = [] ∧ ∀ e ∈ w.entries, ∃ d, e.data = .dec d) := by
  refine ⟨_, read_file (vfbCodec ops asm) { drop_keys := drop } minor es tail rfl ht hr, rfl, ?_⟩
  have hl := loaded_forall (vfbCodec ops asm) (vfb_special_fixed ops asm) false {} (ctxAll (vfbCodec ops asm) false {} es) es hr
  have hl' := forall₂_filter (p := fun p : Nat × Bytes => decide ((p.1 : Int) ∉ drop))
    (q := fun e : Entry (Decompiled ops.Angle asm.Asm) (List MasterData) => decide (e.id ∉ drop)) hl (by
      rintro p e ⟨rfl, -⟩
      have : (loadedEntry (vfbCodec ops asm) (ctxAll (vfbCodec ops asm) false {} es) p : Entry (Decompiled ops.Angle asm.Asm) (List MasterData)).id = p.1 := by
        unfold loadedEntry
        split
        · split <;> rfl
        · rfl
      rw [this])
  dsimp only
  generalize hm : (loaded (vfbCodec ops asm) false {} es).filter
    (fun e : Entry (Decompiled ops.Angle asm.Asm) (List MasterData) => decide (e.id ∉ drop)) = m at hl'
  have hdrop : ∀ e ∈ m, e.id ∉ drop := by
    intro e he
    rw [← hm] at he
    simpa using (List.mem_filter.1 he).2
  unfold Vfb.decompile
  simp only [HData.decompile]
  rw [decompileEntries_drop _ _ _ m hdrop]
  generalize ctxAll (vfbCodec ops asm) false {} es = c at hl'
  constructor
  · rintro ⟨p, hp, hpd, hne⟩
    rcases hd : decompileEntries (vfbCodec ops asm) c [] m with ⟨r, m', f⟩
    cases r with
    | error x => exact ⟨x, _, rfl⟩
    | ok u =>
      exfalso
      have hk := decompileEntries_ok _ _ m m' f hd
      have hcomp := forall₂_comp hl' hk
      have hmem : p ∈ es.filter fun p : Nat × Bytes => decide ((p.1 : Int) ∉ drop) := List.mem_filter.2 ⟨hp, by simpa using hpd⟩
      clear hm hdrop hd hl' hl hk hp
      generalize es.filter (fun p : Nat × Bytes => decide ((p.1 : Int) ∉ drop)) = k at hcomp hmem
      induction hcomp with
      | nil => cases hmem
      | cons h _ ih =>
        rcases List.mem_cons.1 hmem with rfl | hmem
        · obtain ⟨e, ⟨rfl, hsp⟩, he⟩ := h
          obtain ⟨d, hd, -⟩ := (loadedEntry_decompile (vfbCodec ops asm) c p _ hsp).1 he
          exact hne d hd
        · exact ih hmem
  · intro hall
    have : ∃ m' : List (Entry (Decompiled ops.Angle asm.Asm) (List MasterData)),
        List.Forall₂ (fun e e' => e.decompile (vfbCodec ops asm) c = (.ok (), e', false)) m m' ∧ ∀ e ∈ m', ∃ d, e.data = .dec d := by
      have hall' : ∀ p ∈ es.filter (fun p : Nat × Bytes => decide ((p.1 : Int) ∉ drop)), ∃ d, parseEntry ((vfbCodec ops asm).parse p.1 c) p.2 = .ok d := by
        intro p hp
        obtain ⟨h1, h2⟩ := List.mem_filter.1 hp
        exact hall p h1 (by simpa using h2)
      clear hm hdrop hl hall
      generalize es.filter (fun p : Nat × Bytes => decide ((p.1 : Int) ∉ drop)) = k at hl' hall'
      induction hl' with
      | nil => exact ⟨[], .nil, by simp⟩
      | @cons p e ps m hpe _ ih =>
        obtain ⟨m', k1, k2⟩ := ih fun p hp => hall' p (by simp [hp])
        obtain ⟨d, hd⟩ := hall' p (by simp)
        obtain ⟨rfl, hsp⟩ := hpe
        refine ⟨{ id := p.1, data := .dec d } :: m', .cons ((loadedEntry_decompile (vfbCodec ops asm) c p _ hsp).2 ⟨d, hd, rfl⟩) k1, ?_⟩
        intro e he
        rcases List.mem_cons.1 he with rfl | he
        · exact ⟨d, rfl⟩
        · exact k2 e he
    obtain ⟨m', k1, k2⟩ := this
    rw [decompileEntries_exists _ _ m m' k1]
    exact ⟨_, rfl, rfl, rfl, k2⟩

/-- **C92** How the command ends, for every readable file: it fails if an entry (other than a Links entry) cannot be parsed; otherwise it says that the
number of masters is unsupported if it is less than one, and (known defect) that there was nothing to convert in all other cases. -/
theorem C92_outcome (q : QuadOps ops.Angle asm.Asm) (a : CuArgs) (fs : Files asm.Asm) (minor : UInt8) (es : List (Nat × Bytes)) (tail : Bytes)
    (hf : fs a.input = some (.bytes (fileOf minor es ++ tail))) (ht : Terminated es) (hr : Readable (vfbCodec ops asm) false {} es) :
    let c := ctxAll (vfbCodec ops asm) false {} es
    ((∃ p ∈ es, p.1 ≠ 2008 ∧ ∀ d, parseEntry ((vfbCodec ops asm).parse p.1 c) p.2 ≠ .ok d) →
      ∃ e, (vfbcu2qu ops deg asm q a fs).1 = .failed (.exception e)) ∧
    ((∀ p ∈ es, p.1 ≠ 2008 → ∃ d, parseEntry ((vfbCodec ops asm).parse p.1 c) p.2 = .ok d) →
      (vfbcu2qu ops deg asm q a fs).1 = if c.num_masters < 1 then .unsupported c.num_masters else .notModified) := by
  intro c
  obtain ⟨v, h1, h2, h3, h4⟩ := read_decompile_drop ops asm [2008] minor es tail ht hr
  rw [show ctxAll (vfbCodec ops asm) false {} es = c from rfl] at h2
  rw [h2] at h3 h4
  have h8 : ∀ p : Nat × Bytes, ((p.1 : Int) ∉ ([2008] : List Int)) ↔ p.1 ≠ 2008 := by
    intro p
    simp only [List.mem_singleton]
    omega
  simp only [h8] at h3 h4
  unfold vfbcu2qu
  rw [hf]
  dsimp only
  rw [h1]
  dsimp only
  constructor
  · intro h
    obtain ⟨e, w, hw⟩ := h3 h
    rw [hw]
    exact ⟨e, rfl⟩
  · intro h
    obtain ⟨w, hw, hc, hg, hdec⟩ := h4 h
    rw [hw]
    dsimp only
    rw [hc]
    by_cases hn : c.num_masters < 1
    · rw [if_pos hn, if_neg (by omega)]
    · rw [if_neg hn, if_pos (by omega)]
      obtain ⟨r, hu⟩ := findUpm_dec (vfbCodec ops asm) w.ctx w.entries hdec
      have hup : InfoFont.unitsPerEm (vfbCodec ops asm) { vfb := w } = (.ok r, { vfb := w, upm := some r }) := by
        unfold InfoFont.unitsPerEm
        dsimp only
        rw [hu]
      obtain ⟨names, w', hk⟩ := keys_ok (vfbCodec ops asm) w hdec
      obtain ⟨k1, k2⟩ := keys_empty (vfbCodec ops asm) w w' names hg hk
      unfold toQuadratic
      rw [hup]
      dsimp only
      rw [hk]
      dsimp only
      rw [modifiedNames_empty]
      · rfl
      · intro g hgm
        obtain ⟨e, he, hed⟩ := List.mem_map.1 (List.of_mem_zip hgm).2
        obtain ⟨he, hid⟩ := List.mem_filter.1 he
        rw [← hed, k2 e he (by simpa using hid), k1]
        rfl

/-- **C92** The path for the converted font: the name of the input without its extension and ".qu.vfb" in the same folder, or ".vfb" in the folder of the
option `--path` (which is the input itself if this is its folder).  The output path of the command line has no effect (known defect). -/
theorem C92_path (a : CuArgs) {stem : PyStr} (hs : IsStem a.input.name stem) :
    a.out = (match a.path with
      | none => ⟨a.input.dir, stem ++ lit ".qu.vfb"⟩
      | some dir => ⟨dir, stem ++ lit ".vfb"⟩) ∧
    ∀ x, ({ a with outputpath := x } : CuArgs).out = a.out := by
  constructor
  · unfold CuArgs.out FPath.withSuffix
    cases a.path <;> simp only [pathSplit_stem hs]
  · intro x
    rfl

/-- **C92** Saving the converted font (if there ever is one): an existing file is kept unless overwriting is forced, then the command fails; otherwise the
file gets the bytes of the font, and nothing else is written. -/
theorem C92_save (a : CuArgs) (fs : Files asm.Asm) (v : Vfb (Decompiled ops.Angle asm.Asm) (List MasterData)) :
    (fs a.out ≠ none → a.force_overwrite = false → cuSave ops asm a fs v = (.failed (.fileExists a.out), [])) ∧
    (fs a.out = none ∨ a.force_overwrite = true →
      (∀ out w, v.writeBytes (vfbCodec ops asm) = (.ok (), out, w) → cuSave ops asm a fs v = (.saved a.out, [(a.out, .bytes out)])) ∧
      (∀ e out w, v.writeBytes (vfbCodec ops asm) = (.error e, out, w) → cuSave ops asm a fs v = (.failed (.exception e), [(a.out, .bytes out)]))) := by
  unfold cuSave Vfb.write
  constructor
  · intro h1 h2
    rw [if_pos ⟨Option.isSome_iff_ne_none.2 h1, h2⟩]
  · intro h
    rw [if_neg (by
      rintro ⟨h1, h2⟩
      rcases h with h | h
      · rw [h] at h1
        cases h1
      · rw [h] at h2
        cases h2)]
    constructor
    · intro out w hw
      rw [hw]
    · intro e out w hw
      rw [hw]

/-- **C93** From the file: the units per em of a font that has been read from any readable file are the number in the first entry of this kind in the
file, in two bytes, the lower first — or 0 without such an entry. -/
theorem C93_file (minor : UInt8) (es : List (Nat × Bytes)) (tail : Bytes) (ht : Terminated es) (hr : Readable (vfbCodec ops asm) false {} es) :
    ∃ v, Vfb.readBytes (vfbCodec ops asm) {} (fileOf minor es ++ tail) = (.ok (), v) ∧
      ((∀ p ∈ es, p.1 ≠ 1135) → (InfoFont.unitsPerEm (vfbCodec ops asm) { vfb := v }).1 = .ok none) ∧
      (∀ pre post lo hi, es = pre ++ (1135, [lo, hi]) :: post → (∀ p ∈ pre, p.1 ≠ 1135) →
        (InfoFont.unitsPerEm (vfbCodec ops asm) { vfb := v }).1 = .ok (some (.int (lo.toNat + 256 * hi.toNat)))) := by
  refine ⟨_, read_file (vfbCodec ops asm) {} minor es tail rfl ht hr, ?_⟩
  have hl := loaded_forall (vfbCodec ops asm) (vfb_special_fixed ops asm) false {} (ctxAll (vfbCodec ops asm) false {} es) es hr
  dsimp only
  rw [show (loaded (vfbCodec ops asm) false {} es).filter (fun e : Entry (Decompiled ops.Angle asm.Asm) (List MasterData) => decide (e.id ∉ ([] : List Int))) =
    loaded (vfbCodec ops asm) false {} es from List.filter_eq_self.2 (by simp)]
  generalize ctxAll (vfbCodec ops asm) false {} es = c at hl
  have hid : ∀ p : Nat × Bytes, (loadedEntry (vfbCodec ops asm) c p : Entry (Decompiled ops.Angle asm.Asm) (List MasterData)).id = p.1 := by
    intro p
    unfold loadedEntry
    split
    · split <;> rfl
    · rfl
  have hmap : loaded (vfbCodec ops asm) false {} es = es.map (loadedEntry (vfbCodec ops asm) c) := by
    generalize loaded (vfbCodec ops asm) false {} es = m at hl
    clear hr ht
    induction hl with
    | nil => rfl
    | cons h _ ih => rw [List.map_cons, ih, h.1]
  rw [hmap]
  constructor
  · intro h
    obtain ⟨f, hf, -⟩ := (C93_value (vfbCodec ops asm) { header := .dec (headerDict minor), ctx := c, entries := es.map (loadedEntry (vfbCodec ops asm) c) }).1 (by
      intro e he
      obtain ⟨p, hp, rfl⟩ := List.mem_map.1 he
      rw [hid]
      have := h p hp
      omega)
    rw [hf]
  · intro pre post lo hi he hpre
    obtain ⟨f, hf, -⟩ := (C93_value (vfbCodec ops asm) { header := .dec (headerDict minor), ctx := c, entries := es.map (loadedEntry (vfbCodec ops asm) c) }).2
      (pre.map (loadedEntry (vfbCodec ops asm) c)) (post.map (loadedEntry (vfbCodec ops asm) c)) (loadedEntry (vfbCodec ops asm) c (1135, [lo, hi]))
      (.int (lo.toNat + 256 * hi.toNat)) (by
        dsimp only
        rw [he, List.map_append, List.map_cons])
      (by
        intro e he
        obtain ⟨p, hp, rfl⟩ := List.mem_map.1 he
        rw [hid]
        have := hpre p hp
        omega) rfl (.inr ⟨[lo, hi], rfl, rfl⟩)
    rw [hf]

end

/-! ## The hypotheses can be met -/

/-- a conversion that modifies every glyph with a contour -/
def exampleQuad : QuadOps exampleAngles.Angle exampleAsm.Asm where
  modifies _ _ l := l.any fun c => !c.isEmpty
  rewrite _ _ v := v
  nothing _ _ l h := by
    rw [List.any_eq_false]
    intro c hc
    rw [h c hc]
    decide

/-- a font with two masters and a glyph that has got contours: nothing is written -/
example : (vfbcu2qu exampleAngles (fun _ => 0) exampleAsm exampleQuad { input := ⟨lit "/f", lit "A.vfb"⟩ } exampleDisk).1 = .notModified := by
  decide +kernel

/-- the glyph does have contours as it is in the file -/
example : (((outlineOf exampleAngles (fun _ => 0) exampleAsm [] 2 1
    (Entry.decompile (vfbCodec exampleAngles exampleAsm) { num_masters := 2 } (T := List MasterData)
      { id := 2001, data := .bytes (exampleMmFile[11]?.getD (0, [])).2 }).2.1.data).toOption).map fun l => l.map List.length) = some [4] := by
  decide +kernel

example : Terminated exampleMmFile ∧ Readable (vfbCodec exampleAngles exampleAsm) false {} exampleMmFile :=
  ⟨⟨exampleMmFile.dropLast, [], rfl, by decide⟩, exampleMmFile_readable⟩

example : (InfoFont.unitsPerEm (vfbCodec exampleAngles exampleAsm) (T := List MasterData)
    { vfb := { entries := [{ id := 1, data := .bytes [] }, { id := 1135, data := .bytes [0xE8, 3] }, { id := 1135, data := .bytes [1, 0] }] } }).1 =
    .ok (some (.int 1000)) := rfl

example : C92_path { input := ⟨lit "/f", lit "A.vfb"⟩ } (stem := lit "A") (.inl ⟨lit "vfb", by decide, by decide, by decide, rfl⟩) =
    ⟨by decide, fun _ => rfl⟩ := rfl

end Verif.Props
