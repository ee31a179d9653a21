import Verif.Props.SavedCopy
/-! C108 for whatever byte string is accepted as a file. -/
set_option autoImplicit false
namespace Verif.Props
open Verif Verif.Spec

section
variable (ops : AngleOps) (deg : ops.Angle → Rat) (asm : AsmOps) (fmt : Int → PyStr)

/-- two disks with different bytes for the input, which are read with the same result: the fonts are converted in the same way -/
theorem ufo_same_font (a : UfoArgs) (depth : Nat) (fs : Files asm.Asm) (file file' : Bytes) (hf : fs a.input = some (.bytes file))
    (hr : ∀ w : Vfb (Decompiled ops.Angle asm.Asm) (List MasterData), w.only_header = false → w.ctx.num_masters = 0 →
      w.readBytes (vfbCodec ops asm) file' = w.readBytes (vfbCodec ops asm) file) :
    vfb3ufo ops deg asm fmt a depth (fs.set a.input (.bytes file')) = vfb3ufo ops deg asm fmt a depth fs := by
  have hset : (fs.set a.input (.bytes file')) a.input = some (.bytes file') := by
    unfold Files.set
    rw [if_pos rfl]
  have hfont : readFont ops asm a file' = readFont ops asm a file := by
    unfold readFont
    rw [hr _ rfl rfl]
  unfold vfb3ufo
  rw [hset, hf]
  simp only [hfont]
  cases readFont ops asm a file >>= ufosDesignspace ops deg asm fmt a depth with
  | error e => rfl
  | ok r =>
    refine writeSteps_exists asm a r.1 r.2 0 _ _ fun p => ?_
    unfold Files.set
    by_cases hp : p = a.input
    · rw [if_pos hp, hp, hf]
      rfl
    · rw [if_neg hp]

theorem tth_same_font (dumps : TthFormat → TthExport → Except PyErr Bytes) (a : TthArgs) (fs fs' : Disk) (file file' text : Bytes)
    (hf : fs a.input = some file) (hf' : fs' a.input = some file')
    (hr : ∀ w : Vfb (Decompiled ops.Angle asm.Asm) (List MasterData), w.only_header = false → w.ctx.num_masters = 0 →
      w.readBytes (vfbCodec ops asm) file' = w.readBytes (vfbCodec ops asm) file) :
    (∃ g, vfb2tth ops asm dumps a fs = (.ok (), g) ∧ g a.out = some text) ↔ ∃ g, vfb2tth ops asm dumps a fs' = (.ok (), g) ∧ g a.out = some text := by
  unfold vfb2tth
  rw [hf, hf']
  simp only [hr { force_unicode_strings := true } rfl rfl]
  rcases Vfb.readBytes (vfbCodec ops asm) ({ force_unicode_strings := true } : Vfb (Decompiled ops.Angle asm.Asm) (List MasterData)) file with
    ⟨⟨x⟩ | ⟨⟨⟩⟩, v⟩
  · exact ⟨fun ⟨g, h, _⟩ => (by cases h), fun ⟨g, h, _⟩ => (by cases h)⟩
  · simp only
    cases extractTth ops asm v with
    | error e => exact ⟨fun ⟨g, h, _⟩ => (by cases h), fun ⟨g, h, _⟩ => (by cases h)⟩
    | ok x =>
      simp only [dumpTo]
      cases dumps a.serializer x with
      | error e => exact ⟨fun ⟨g, h, _⟩ => (by cases h), fun ⟨g, h, _⟩ => (by cases h)⟩
      | ok b =>
        simp only
        by_cases hany : v.any_errors = true
        · simp only [hany, if_true]
          exact ⟨fun ⟨g, h, _⟩ => (by cases h), fun ⟨g, h, _⟩ => (by cases h)⟩
        · simp only [hany, Bool.false_eq_true, if_false]
          have hput : ∀ d : Disk, (d.put a.out b) a.out = some b := by
            intro d
            unfold Disk.put
            rw [if_pos rfl]
          constructor
          · rintro ⟨g, h, h2⟩
            cases h
            exact ⟨_, rfl, by rw [hput] at h2 ⊢; exact h2⟩
          · rintro ⟨g, h, h2⟩
            cases h
            exact ⟨_, rfl, by rw [hput] at h2 ⊢; exact h2⟩

theorem readPath_kept {fs : Files asm.Asm} {p : FPath} {v v' : Vfb (Decompiled ops.Angle asm.Asm) (List MasterData)} (hv : v.only_header = false)
    (h : readPath (vfbCodec ops asm) fs p v = .ok v') : v'.only_header = false := by
  unfold readPath at h
  split at h
  · rename_i file _
    rcases hr : v.readBytes (vfbCodec ops asm) file with ⟨⟨x⟩ | ⟨⟨⟩⟩, w⟩
    · rw [hr] at h; cases h
    · rw [hr] at h
      cases h
      unfold Vfb.readBytes Vfb.readFuel at hr
      cases hp : parseHeader file with
      | err x r => rw [hp] at hr; cases hr
      | ok hd rest =>
        rw [hp] at hr
        simp only [Vfb.clear, hv] at hr
        rw [if_neg (by simp)] at hr
        obtain ⟨es, hes⟩ := reads_of_loop _ _ _ _ rest hr
        rw [loop_of_reads _ _ _ _ _ hes] at hr
        injection hr with _ hr
        rw [← hr]
  · cases h

theorem diffFonts_same {a : DiffArgs} {fs fs' : Files asm.Asm}
    (h : ∀ (p : FPath) (v : Vfb (Decompiled ops.Angle asm.Asm) (List MasterData)), v.only_header = false →
      readPath (vfbCodec ops asm) fs' p v = readPath (vfbCodec ops asm) fs p v) :
    diffFonts (vfbCodec ops asm) a fs' = diffFonts (vfbCodec ops asm) a fs := by
  unfold diffFonts
  rw [h a.file1 {} rfl]
  cases h1 : readPath (vfbCodec ops asm) fs a.file1 {} with
  | error e => rfl
  | ok v1 =>
    change (readPath (vfbCodec ops asm) fs' a.file2 {} >>= _) = (readPath (vfbCodec ops asm) fs a.file2 {} >>= _)
    rw [h a.file2 {} rfl]
    cases h2 : readPath (vfbCodec ops asm) fs a.file2 {} with
    | error e => rfl
    | ok v2 =>
      change (readPath (vfbCodec ops asm) fs' a.file1 v1 >>= _) = (readPath (vfbCodec ops asm) fs a.file1 v1 >>= _)
      rw [h a.file1 v1 (readPath_kept ops asm rfl h1)]
      cases h3 : readPath (vfbCodec ops asm) fs a.file1 v1 with
      | error e => rfl
      | ok w1 =>
        change (readPath (vfbCodec ops asm) fs' a.file2 v2 >>= _) = (readPath (vfbCodec ops asm) fs a.file2 v2 >>= _)
        rw [h a.file2 v2 (readPath_kept ops asm rfl h2)]

/-- **C108** for whatever byte string is accepted as a file – its header may be longer, its entries may have headers of either form,
anything may follow the end entry: if what is written for the data of each entry is parsed as the same data, then the font can be decompiled and
written, and no tool can tell the new file from the original. -/
theorem C108_every_file (f : Bool) (file : Bytes) (v1 : Vfb (Decompiled ops.Angle asm.Asm) (List MasterData))
    (h : Vfb.readBytes (vfbCodec ops asm) { force_unicode_strings := f } file = (.ok (), v1))
    (hes : ∀ e ∈ v1.entries, e.id ≠ 1410 ∧ ∃ d comp b,
      (e.data = .dec d ∨ ∃ x, e.data = .bytes x ∧ parseEntry ((vfbCodec ops asm).parse e.id v1.ctx) x = .ok d) ∧
      (vfbCodec ops asm).compile e.id = some comp ∧ comp v1.ctx (some d) = .ok b ∧ b.length < 4294967296 ∧
      parseEntry ((vfbCodec ops asm).parse e.id v1.ctx) b = .ok d) :
    ∃ v2 out v3, v1.decompile (vfbCodec ops asm) = (.ok (), v2) ∧ v2.writeBytes (vfbCodec ops asm) = (.ok (), out, v3) ∧
      (∀ (a : UfoArgs) (depth : Nat) (fs : Files asm.Asm), fs a.input = some (.bytes file) →
        vfb3ufo ops deg asm fmt a depth (fs.set a.input (.bytes out)) = vfb3ufo ops deg asm fmt a depth fs) ∧
      (∀ o : JsonOpts, o.only_header = false → (o.no_decompile = false ∨ o.roundtrip = true) →
        saveJson (vfbCodec ops asm) o out = saveJson (vfbCodec ops asm) o file) ∧
      (∀ (dumps : TthFormat → TthExport → Except PyErr Bytes) (a : TthArgs) (fs : Disk) (text : Bytes), fs a.input = some file →
        ((∃ g, vfb2tth ops asm dumps a fs = (.ok (), g) ∧ g a.out = some text) ↔
          ∃ g, vfb2tth ops asm dumps a (fs.put a.input out) = (.ok (), g) ∧ g a.out = some text)) ∧
      (∀ (o : DiffOps (Decompiled ops.Angle asm.Asm)) (a : DiffArgs) (fs : Files asm.Asm), a.html = none →
        fs a.file1 = some (.bytes file) → fs a.file2 = some (.bytes out) → diffvfb (vfbCodec ops asm) o a fs = (.ok [], [])) := by
  have hs := vfb_special_fixed ops asm
  obtain ⟨minor, es, ht, hev⟩ := every_reader (vfbCodec ops asm) hs { force_unicode_strings := f } v1 file rfl (.inr (vfb_small_masters ops asm (show (0 : Int) < 2147483640 by decide))) h
  obtain ⟨hread, hsame⟩ := hev { force_unicode_strings := f } rfl (.inl rfl)
  have h1 := hsame []
  rw [h, read_file _ _ minor es [] rfl ht hread] at h1
  injection h1 with _ h1
  have hent : v1.entries = loaded (vfbCodec ops asm) f {} es := by
    rw [← h1]
    exact List.filter_eq_self.2 (by simp)
  have hctx : v1.ctx = ctxAll (vfbCodec ops asm) f {} es := by rw [← h1]
  have hsrc := loaded_source _ hs f v1.ctx es {} hread
  rw [← hent] at hsrc
  have hst : ∀ p ∈ es, p.1 ≠ 1410 ∧ EntryStable (vfbCodec ops asm) (ctxAll (vfbCodec ops asm) f {} es) p := by
    intro p hp
    obtain ⟨e, he, hid, _, hcase⟩ := forall₂_left hsrc p hp
    obtain ⟨hne, d, comp, b, b1, b2, b3, b4, b5⟩ := hes e he
    rw [← hctx]
    refine ⟨by omega, ?_⟩
    unfold EntryStable
    rw [← hid]
    refine ⟨d, comp, b, ?_, b2, b3, b4, b5⟩
    rcases hcase with ⟨_, d0, e1, e2⟩ | ⟨_, e1⟩
    · rcases b1 with b1 | ⟨x, b1, _⟩
      · rw [e1] at b1
        injection b1 with b1
        rw [← b1]
        exact e2
      · rw [e1] at b1; cases b1
    · rcases b1 with b1 | ⟨x, b1, bx⟩
      · rw [e1] at b1; cases b1
      · rw [e1] at b1
        injection b1 with b1
        rw [b1]
        exact bx
  have hn : ∀ p ∈ es, p.1 ≠ 1410 := fun p hp => (hst p hp).1
  have hmf : MastersFirst es := by
    intro pre p post he hp
    exact absurd (by omega) (hn p (by rw [he]; simp))
  have hany : ∀ w : Vfb (Decompiled ops.Angle asm.Asm) (List MasterData), w.only_header = false →
      w.readBytes (vfbCodec ops asm) (fileOf minor es ++ []) = w.readBytes (vfbCodec ops asm) file :=
    fun w hw => (hev w hw (.inr hmf)).2 []
  obtain ⟨w1, v2, out, v3, a1, a2, a3, a4, a5, a6, a7⟩ := C108_saved_copy ops deg asm fmt f minor es [] ht hread hn (fun p hp => (hst p hp).2)
  have hw : w1 = v1 := by
    have := hany { force_unicode_strings := f } rfl
    rw [a1, h] at this
    injection this
  subst hw
  refine ⟨v2, out, v3, a2, a3, ?_, ?_, ?_, ?_⟩
  · intro a depth fs hf
    have hx := a4 a depth (fs.set a.input (.bytes (fileOf minor es ++ []))) (by unfold Files.set; rw [if_pos rfl])
    have he : (fs.set a.input (.bytes (fileOf minor es ++ []))).set a.input (.bytes out) = fs.set a.input (.bytes out) := by
      funext p
      unfold Files.set
      by_cases hp : p = a.input
      · rw [if_pos hp, if_pos hp]
      · rw [if_neg hp, if_neg hp, if_neg hp]
    rw [he] at hx
    rw [hx]
    exact ufo_same_font ops deg asm fmt a depth fs file _ hf fun w hw _ => hany w hw
  · intro o ho hopt
    rw [a5 o ho hopt]
    unfold saveJson
    rw [hany _ ho]
  · intro dumps a fs text hf
    have hx := a6 dumps a (fs.put a.input (fileOf minor es ++ [])) text (by unfold Disk.put; rw [if_pos rfl])
    have he : (fs.put a.input (fileOf minor es ++ [])).put a.input out = fs.put a.input out := by
      funext p
      unfold Disk.put
      by_cases hp : p = a.input
      · rw [if_pos hp, if_pos hp]
      · rw [if_neg hp, if_neg hp, if_neg hp]
    rw [he] at hx
    rw [← hx]
    exact tth_same_font ops asm dumps a fs _ file _ text hf (by unfold Disk.put; rw [if_pos rfl]) fun w hw _ => hany w hw
  · intro o a fs ha hf1 hf2
    -- the same with the file in the usual form in place of the first one
    let fs' : Files asm.Asm := fs.set a.file1 (.bytes (fileOf minor es ++ []))
    have g1 : fs' a.file1 = some (.bytes (fileOf minor es ++ [])) := by
      show (fs.set _ _) _ = _
      unfold Files.set
      rw [if_pos rfl]
    have hpath : ∀ (p : FPath) (v : Vfb (Decompiled ops.Angle asm.Asm) (List MasterData)), v.only_header = false →
        readPath (vfbCodec ops asm) fs' p v = readPath (vfbCodec ops asm) fs p v := by
      intro p v hv
      unfold readPath
      by_cases hp : p = a.file1
      · subst hp
        rw [g1, hf1]
        simp only [hany v hv]
      · have : fs' p = fs p := by
          show (fs.set _ _) _ = _
          unfold Files.set
          rw [if_neg hp]
        rw [this]
    have hdiff : diffvfb (vfbCodec ops asm) o a fs = diffvfb (vfbCodec ops asm) o a fs' := by
      unfold diffvfb
      rw [diffFonts_same ops asm hpath]
    rw [hdiff]
    by_cases hp : a.file2 = a.file1
    · have g2 : fs' a.file2 = some (.bytes (fileOf minor es ++ [])) := by rw [hp]; exact g1
      have hrf : Readable (vfbCodec ops asm) false {} es := (hev {} rfl (.inl rfl)).1
      obtain ⟨d1, hd1⟩ := (C88_complete (vfbCodec ops asm) hs {} minor es [] rfl rfl rfl ht hrf).2.2 (by
        intro p hp
        obtain ⟨-, d, _, _, hd, -⟩ := hst p hp
        refine ⟨d, ?_⟩
        unfold jsonCtx
        rw [parse_alike ops asm p.1 (ctxAll_alike ops asm f false es (alike_refl {}))]
        exact hd)
      rw [(C95_compares (vfbCodec ops asm) hs o a fs' ha minor minor es es [] [] g1 g2 ht ht hrf hrf hmf hmf).1 d1 d1 hd1 hd1, (o.same _ _ _ _).2 rfl]
    · refine a7 o a fs' ha g1 ?_
      show (fs.set _ _) _ = _
      unfold Files.set
      rw [if_neg hp]
      exact hf2

end

/-! ### an example: a file that this library would not write -/

theorem foreignFile_copy : ∃ v2 out v3, foreignFont.decompile (vfbCodec exampleAngles exampleAsm) = (.ok (), v2) ∧
    v2.writeBytes (vfbCodec exampleAngles exampleAsm) = (.ok (), out, v3) ∧
    ∀ o : JsonOpts, o.only_header = false → (o.no_decompile = false ∨ o.roundtrip = true) →
      saveJson (vfbCodec exampleAngles exampleAsm) o out = saveJson (vfbCodec exampleAngles exampleAsm) o foreignFile := by
  obtain ⟨v2, out, v3, h1, h2, -, h3, -⟩ := C108_every_file exampleAngles (fun _ => 0) exampleAsm exampleFmt false foreignFile foreignFont
    foreignFile_read (by
      have key : ∀ e ∈ foreignFont.entries, e.id ≠ 1410 ∧ ∃ x, (e.data = .bytes x ∨ (∃ d, e.data = .dec d ∧ parseEntry
          ((vfbCodec exampleAngles exampleAsm).parse e.id foreignFont.ctx) x = .ok d)) ∧ rewritten foreignFont.ctx (e.id.toNat, x) = some x ∧
          x.length < 4294967296 ∧ (e.id.toNat : Int) = e.id := by
        intro e he
        simp only [foreignFont, List.mem_cons, List.not_mem_nil, or_false] at he
        rcases he with rfl | rfl | rfl
        · exact ⟨by decide, [1, 0], .inr ⟨_, rfl, rfl⟩, by decide +kernel, by decide, rfl⟩
        · exact ⟨by decide, [65, 0, 97, 0], .inl rfl, by decide +kernel, by decide, rfl⟩
        · exact ⟨by decide, [], .inl rfl, by decide +kernel, by decide, rfl⟩
      intro e he
      obtain ⟨k1, x, k2, k3, k4, k5⟩ := key e he
      obtain ⟨d, comp, b, s1, s2, s3, s4, s5⟩ := stable_of_rewritten k3 k4
      simp only [k5] at s1 s2 s5
      refine ⟨k1, d, comp, b, ?_, s2, s3, s4, s5⟩
      rcases k2 with k2 | ⟨d', k2, k6⟩
      · exact .inr ⟨x, k2, s1⟩
      · rw [k6] at s1
        cases s1
        exact .inl k2)
  exact ⟨v2, out, v3, h1, h2, h3⟩

end Verif.Props
