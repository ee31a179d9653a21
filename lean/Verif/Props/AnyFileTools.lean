import Verif.Props.AnyFile
import Verif.Props.Json
import Verif.Props.EndToEnd
import Verif.Props.Commands
import Verif.Props.Cu2qu
/-! C88, C90, C92, C97, C98 for every byte string that is accepted as a file: the commands do with it what they do with a file of the
same entries in the form in which this library writes files. -/
set_option autoImplicit false
namespace Verif.Props
open Verif Verif.Spec
variable {D T : Type}

/-- the entries of an accepted file, and a file in the library's own form that is read with the same result -/
theorem laid_out (C : Codec D T) (v v' : Vfb D T) (file : Bytes) (ho : v.only_header = false) (hl : SmallMasters C v.ctx)
    (h : v.readBytes C file = (.ok (), v')) :
    ∃ minor es, LaidOut C v.force_unicode_strings v.ctx file es ∧ Terminated es ∧ Readable C v.force_unicode_strings v.ctx es ∧
      ∀ tail, v.readBytes C (fileOf minor es ++ tail) = (.ok (), v') := by
  obtain ⟨minor, init, b, hi, hr, _, ⟨before, frames, last, h1, h2, h3⟩, hf⟩ := C10_every_file C v v' file ho (.inr hl) h
  exact ⟨minor, init ++ [(2, b)], ⟨init, b, before, frames, last, rfl, h1, h2, h3⟩, ⟨init, b, rfl, hi⟩, hr, hf⟩

/-- **C88** Whatever byte string is exported to JSON, it is laid out as entries, and the export is that of the file with these entries in the
form in which this library writes files. -/
theorem C88_every_file (C : Codec D T) (o : JsonOpts) (ho : o.only_header = false) (file : Bytes) (hl : SmallMasters C {})
    (doc : VfbDict D) (h : saveJson C o file = .ok doc) :
    ∃ minor es, LaidOut C o.unicode_strings {} file es ∧ Terminated es ∧ Readable C o.unicode_strings {} es ∧
      ∀ tail, saveJson C o (fileOf minor es ++ tail) = .ok doc := by
  rcases hv : Vfb.readBytes C { only_header := o.only_header, force_unicode_strings := o.unicode_strings } file with ⟨⟨x⟩ | ⟨⟨⟩⟩, v⟩
  · rw [C88_unreadable C o file x v hv] at h
    cases h
  · obtain ⟨minor, es, h1, h2, h3, h4⟩ := laid_out C _ v file ho hl hv
    refine ⟨minor, es, h1, h2, h3, fun tail => ?_⟩
    rw [← h]
    unfold saveJson
    rw [hv, h4 tail]

/-- **C88** Every byte string that is exported gives exactly one item for each of its entries, in order, with the data that the payload
decompiles to. -/
theorem C88_every_entry (C : Codec D T) (hs : SpecialFixed C) (o : JsonOpts) (ho : o.only_header = false) (hn : o.no_decompile = false)
    (hrt : o.roundtrip = false) (file : Bytes) (hl : SmallMasters C {}) (doc : VfbDict D) (h : saveJson C o file = .ok doc) :
    ∃ es, LaidOut C o.unicode_strings {} file es ∧ List.Forall₂ (JsonEntryOf C (jsonCtx C o es)) es doc.entries := by
  obtain ⟨minor, es, h1, h2, h3, h4⟩ := C88_every_file C o ho file hl doc h
  exact ⟨es, h1, ((C88_complete C hs o minor es [] ho hn hrt h2 h3).1 doc (h4 [])).2⟩

section
variable (ops : AngleOps) (deg : ops.Angle → Rat) (asm : AsmOps) (fmt : Int → PyStr)

theorem writeSteps_exists (a : UfoArgs) (us : List (UfoFont asm.Asm)) (ds : Option DsDoc) (i : Nat) (fs fs' : Files asm.Asm)
    (h : ∀ p, (fs p).isSome = (fs' p).isSome) : writeSteps a fs i us ds = writeSteps a fs' i us ds := by
  induction us generalizing i fs fs' with
  | nil =>
    cases ds with
    | none => rfl
    | some ds => simp only [writeSteps, h]
  | cons u us ih =>
    have hset : ∀ (l : List (FPath × DiskFile asm.Asm)) (fs fs' : Files asm.Asm), (∀ p, (fs p).isSome = (fs' p).isSome) →
        ∀ p, ((l.foldl (fun fs w => fs.set w.1 w.2) fs) p).isSome = ((l.foldl (fun fs w => fs.set w.1 w.2) fs') p).isSome := by
      intro l
      induction l with
      | nil => exact fun _ _ h => h
      | cons w l ih =>
        intro fs fs' h
        simp only [List.foldl_cons]
        apply ih
        intro p
        unfold Files.set
        by_cases hp : p = w.1
        · simp [hp]
        · simp only [if_neg hp, h]
    simp only [writeSteps, h]
    rw [ih (i + 1) _ _ (hset _ fs fs' h)]

/-- **C90** Whatever byte string `vfb3ufo` is given: if it cannot be read, nothing is written; else it is laid out as entries, and the
command ends in the same way, with the same files in the same order, as with the file of these entries in the form in which this
library writes files. -/
theorem C90_every_file (a : UfoArgs) (depth : Nat) (fs : Files asm.Asm) (file : Bytes)
    (hf : fs a.input = some (.bytes file)) :
    (∃ e, vfb3ufo ops deg asm fmt a depth fs = (.error (.exception e), [])) ∨
    ∃ minor es, LaidOut (vfbCodec ops asm) a.unicode_strings {} file es ∧ Terminated es ∧
      Readable (vfbCodec ops asm) a.unicode_strings {} es ∧
      ∀ tail, vfb3ufo ops deg asm fmt a depth fs =
        vfb3ufo ops deg asm fmt a depth (fs.set a.input (.bytes (fileOf minor es ++ tail))) := by
  rcases hv : Vfb.readBytes (vfbCodec ops asm) ({ drop_keys := [1500, 1501], force_unicode_strings := a.unicode_strings } :
    Vfb (Decompiled ops.Angle asm.Asm) (List MasterData)) file with ⟨⟨x⟩ | ⟨⟨⟩⟩, v⟩
  · refine .inl ⟨x, ?_⟩
    unfold vfb3ufo readFont
    rw [hf]
    simp only [hv]
    rfl
  · obtain ⟨minor, es, h1, h2, h3, h4⟩ := laid_out _ _ v file rfl (vfb_small_masters ops asm (show (0 : Int) < 2147483640 by decide)) hv
    refine .inr ⟨minor, es, h1, h2, h3, fun tail => ?_⟩
    have hset : (fs.set a.input (.bytes (fileOf minor es ++ tail))) a.input = some (.bytes (fileOf minor es ++ tail)) := by
      unfold Files.set
      rw [if_pos rfl]
    have hfont : readFont ops asm a (fileOf minor es ++ tail) = readFont ops asm a file := by
      unfold readFont
      rw [hv, h4 tail]
    unfold vfb3ufo
    rw [hset, hf]
    simp only [hfont]
    cases readFont ops asm a file >>= ufosDesignspace ops deg asm fmt a depth with
    | error e => rfl
    | ok r =>
      refine writeSteps_exists asm a r.1 r.2 0 _ _ fun p => ?_
      unfold Files.set
      by_cases hp : p = a.input
      · rw [if_pos hp, hp, hf]
        rfl
      · rw [if_neg hp]

/-- **C92** the same for `vfbcu2qu` -/
theorem C92_every_file (q : QuadOps ops.Angle asm.Asm) (a : CuArgs) (fs : Files asm.Asm) (file : Bytes)
    (hf : fs a.input = some (.bytes file)) :
    (∃ e, vfbcu2qu ops deg asm q a fs = (.failed (.exception e), [])) ∨
    ∃ minor es, LaidOut (vfbCodec ops asm) false {} file es ∧ Terminated es ∧ Readable (vfbCodec ops asm) false {} es ∧
      ∀ tail, vfbcu2qu ops deg asm q a fs = vfbcu2qu ops deg asm q a (fs.set a.input (.bytes (fileOf minor es ++ tail))) := by
  rcases hv : Vfb.readBytes (vfbCodec ops asm) ({ drop_keys := [2008] } :
    Vfb (Decompiled ops.Angle asm.Asm) (List MasterData)) file with ⟨⟨x⟩ | ⟨⟨⟩⟩, v⟩
  · refine .inl ⟨x, ?_⟩
    unfold vfbcu2qu
    rw [hf]
    simp only [hv]
  · obtain ⟨minor, es, h1, h2, h3, h4⟩ := laid_out _ _ v file rfl (vfb_small_masters ops asm (show (0 : Int) < 2147483640 by decide)) hv
    refine .inr ⟨minor, es, h1, h2, h3, fun tail => ?_⟩
    have hset : (fs.set a.input (.bytes (fileOf minor es ++ tail))) a.input = some (.bytes (fileOf minor es ++ tail)) := by
      unfold Files.set
      rw [if_pos rfl]
    have hsome : ((fs.set a.input (.bytes (fileOf minor es ++ tail))) a.out).isSome = (fs a.out).isSome := by
      unfold Files.set
      by_cases hp : a.out = a.input
      · rw [if_pos hp, hp, hf]
        rfl
      · rw [if_neg hp]
    unfold vfbcu2qu
    rw [hset, hf]
    simp only [hv, h4 tail]
    unfold cuSave
    rw [hsome]

/-- **C97** the same for `vfb2tth` -/
theorem C97_every_file (dumps : TthFormat → TthExport → Except PyErr Bytes) (a : TthArgs) (fs : Disk) (file : Bytes)
    (hf : fs a.input = some file) :
    (∃ e, vfb2tth ops asm dumps a fs = (.error (.exception e), fs)) ∨
    ∃ minor es, LaidOut (vfbCodec ops asm) true {} file es ∧ Terminated es ∧ Readable (vfbCodec ops asm) true {} es ∧
      ∀ tail, (vfb2tth ops asm dumps a (fs.put a.input (fileOf minor es ++ tail))).1 = (vfb2tth ops asm dumps a fs).1 ∧
        ∀ p, p ≠ a.input →
          (vfb2tth ops asm dumps a (fs.put a.input (fileOf minor es ++ tail))).2 p = (vfb2tth ops asm dumps a fs).2 p := by
  rcases hv : Vfb.readBytes (vfbCodec ops asm) ({ force_unicode_strings := true } :
    Vfb (Decompiled ops.Angle asm.Asm) (List MasterData)) file with ⟨⟨x⟩ | ⟨⟨⟩⟩, v⟩
  · refine .inl ⟨x, ?_⟩
    unfold vfb2tth
    rw [hf]
    simp only [hv]
  · obtain ⟨minor, es, h1, h2, h3, h4⟩ := laid_out _ _ v file rfl (vfb_small_masters ops asm (show (0 : Int) < 2147483640 by decide)) hv
    refine .inr ⟨minor, es, h1, h2, h3, fun tail => ?_⟩
    have hput : (fs.put a.input (fileOf minor es ++ tail)) a.input = some (fileOf minor es ++ tail) := by
      unfold Disk.put
      rw [if_pos rfl]
    have hother : ∀ p, p ≠ a.input → (fs.put a.input (fileOf minor es ++ tail)) p = fs p := by
      intro p hp
      unfold Disk.put
      rw [if_neg hp]
    unfold vfb2tth
    rw [hput, hf]
    simp only [hv, h4 tail]
    cases extractTth ops asm v with
    | error e => exact ⟨rfl, hother⟩
    | ok x =>
      simp only
      unfold dumpTo
      cases dumps a.serializer x with
      | error e =>
        refine ⟨rfl, fun p hp => ?_⟩
        simp only [Disk.put, if_neg hp]
      | ok b =>
        simp only
        by_cases hany : v.any_errors = true
        · simp only [hany, if_true]
          refine ⟨trivial, fun p hp => ?_⟩
          simp only [Disk.put, if_neg hp]
        · simp only [hany, Bool.false_eq_true, if_false]
          refine ⟨trivial, fun p hp => ?_⟩
          simp only [Disk.put, if_neg hp]
end

/-- **C98** the same for `vfb2json` -/
theorem C98_every_file (C : Codec D T) (dumps : VfbDict D → Except PyErr Bytes) (a : JsonArgs) (ho : a.header = false) (fs fs' : Disk) (file : Bytes)
    (hl : SmallMasters C {}) (hf : fs a.input = some file) (h : vfb2json C dumps a fs = (.ok (), fs')) :
    ∃ minor es, LaidOut C a.unicode_strings {} file es ∧ Terminated es ∧ Readable C a.unicode_strings {} es ∧
      ∀ tail, ∃ fs2, vfb2json C dumps a (fs.put a.input (fileOf minor es ++ tail)) = (.ok (), fs2) ∧ ∀ p, p ≠ a.input → fs2 p = fs' p := by
  unfold vfb2json at h
  rw [hf] at h
  simp only at h
  cases hs : saveJson C a.opts file with
  | error e => rw [hs] at h; cases h
  | ok doc =>
    rw [hs] at h
    obtain ⟨minor, es, h1, h2, h3, h4⟩ := C88_every_file C a.opts ho file hl doc hs
    refine ⟨minor, es, h1, h2, h3, fun tail => ?_⟩
    unfold vfb2json
    have hput : (fs.put a.input (fileOf minor es ++ tail)) a.input = some (fileOf minor es ++ tail) := by
      unfold Disk.put
      rw [if_pos rfl]
    rw [hput]
    simp only [h4 tail]
    simp only at h
    unfold dumpTo at h ⊢
    cases hd : dumps doc with
    | error e => rw [hd] at h; cases h
    | ok b =>
      rw [hd] at h
      injection h with _ h
      refine ⟨_, rfl, fun p hp => ?_⟩
      rw [← h]
      simp only [Disk.put, if_neg hp]

/-! ### the file of another origin of AnyFile is exported -/

example : ∃ doc, saveJson (vfbCodec exampleAngles exampleAsm) {} foreignFile = .ok doc ∧ doc.entries.length = 3 := ⟨_, rfl, rfl⟩

example : ∃ es, LaidOut (vfbCodec exampleAngles exampleAsm) false {} foreignFile es ∧ es.length = 3 := by
  obtain ⟨doc, hd, hl⟩ : ∃ doc, saveJson (vfbCodec exampleAngles exampleAsm) {} foreignFile = .ok doc ∧ doc.entries.length = 3 := ⟨_, rfl, rfl⟩
  obtain ⟨es, h1, h2⟩ := C88_every_entry (vfbCodec exampleAngles exampleAsm) (vfb_special_fixed _ _) {} rfl rfl rfl foreignFile (vfb_small_masters _ _ (by decide)) doc hd
  exact ⟨es, h1, h2.length_eq.trans hl⟩

end Verif.Props
