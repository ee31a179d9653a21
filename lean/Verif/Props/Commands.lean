import Verif.Props.TthSuccess
import Verif.Props.EndToEnd
/-! C97 and C98: the commands `vfb2tth` and `vfb2json`, from the bytes of the VFB file to the file they write. -/
set_option autoImplicit false
namespace Verif.Props
open Verif Verif.Spec

/-! ## the output file -/

theorem toolOut_form (input : FPath) (path : Option PyStr) (suffix : PyStr) {stem : PyStr} (h : IsStem input.name stem) :
    toolOut input path suffix = ⟨toolFolder path input, stem ++ suffix⟩ := by
  have hs := pathSplit_stem h
  unfold toolOut toolFolder FPath.withSuffix
  cases path <;> simp [hs]

/-- a name with two dots after the stem is not the name of the input -/
theorem out_ne_input {name stem a b : PyStr} (h : IsStem name stem) : stem ++ (lit "." ++ a ++ (lit "." ++ b)) ≠ name := by
  have hdot : lit "." = [46] := by decide
  intro e
  rcases h with ⟨ext, h1, h2, h3, rfl⟩ | ⟨-, rfl⟩
  · rw [List.append_assoc, List.append_assoc, List.append_cancel_left_eq, List.append_cancel_left_eq, hdot] at e
    rw [← e] at h3
    simp at h3
  · have := congrArg List.length e
    simp [hdot] at this

theorem put_same (fs : Disk) (p : FPath) (b : Bytes) : fs.put p b p = some b := by simp [Disk.put]

theorem put_other (fs : Disk) {p q : FPath} (b : Bytes) (h : q ≠ p) : fs.put p b q = fs q := by simp [Disk.put, h]

/-! ## vfb2json -/

section
variable {D T : Type} (C : Codec D T) (dumps : VfbDict D → Except PyErr Bytes)

/-- **C98** Where `vfb2json` writes: next to the input, or into the folder given by `--path`, under the name of the input without its extension and with
`.vfb.json`; this is never the name of the input. -/
theorem C98_path (a : JsonArgs) {stem : PyStr} (h : IsStem a.input.name stem) :
    a.out = ⟨if a.path = some [] then a.input.dir else a.path.getD a.input.dir, stem ++ lit ".vfb.json"⟩ ∧ a.out.name ≠ a.input.name := by
  have e : a.out = ⟨if a.path = some [] then a.input.dir else a.path.getD a.input.dir, stem ++ lit ".vfb.json"⟩ := by
    unfold JsonArgs.out
    rw [toolOut_form _ _ _ h]
    unfold toolFolder
    split <;> rfl
  refine ⟨e, ?_⟩
  rw [e, show lit ".vfb.json" = lit "." ++ lit "vfb" ++ (lit "." ++ lit "json") by decide]
  exact out_ne_input h

/-- **C98** Exactly when `vfb2json` succeeds, and what it has done then: the file holds the dictionary of C88 of the input, serialised; every other
file is unchanged; a file that was there is overwritten without a question. -/
theorem C98_success (a : JsonArgs) (fs fs' : Disk) : vfb2json C dumps a fs = (.ok (), fs') ↔
    ∃ file d text, fs a.input = some file ∧ saveJson C a.opts file = .ok d ∧ dumps d = .ok text ∧
      ∀ p, fs' p = if p = a.out then some text else fs p := by
  unfold vfb2json
  constructor
  · intro h
    cases hf : fs a.input with
    | none => rw [hf] at h; cases h
    | some file =>
      rw [hf] at h
      dsimp only at h
      cases hs : saveJson C a.opts file with
      | error e => rw [hs] at h; cases h
      | ok d =>
        rw [hs] at h
        dsimp only [dumpTo] at h
        cases ht : dumps d with
        | error e => rw [ht] at h; cases h
        | ok text => rw [ht] at h; cases h; exact ⟨file, d, text, rfl, hs, ht, fun p => rfl⟩
  · rintro ⟨file, d, text, h1, h2, h3, h4⟩
    rw [h1]
    dsimp only
    rw [h2]
    dsimp only [dumpTo]
    rw [h3]
    exact congrArg _ (funext fun p => (h4 p).symm)

/-- **C98** When `vfb2json` fails: if there is no input, or it cannot be read or decompiled, all files are as before.  Only if the dictionary cannot
be serialised, the output file is left empty, whatever was in it. -/
theorem C98_failure (a : JsonArgs) (fs fs' : Disk) (x : ToolErr) (h : vfb2json C dumps a fs = (.error x, fs')) :
    (fs a.input = none ∧ x = .noInput ∧ fs' = fs) ∨
    (∃ file e, fs a.input = some file ∧ saveJson C a.opts file = .error e ∧ x = .exception e ∧ fs' = fs) ∨
    ∃ file d e, fs a.input = some file ∧ saveJson C a.opts file = .ok d ∧ dumps d = .error e ∧ x = .exception e ∧
      ∀ p, fs' p = if p = a.out then some [] else fs p := by
  unfold vfb2json at h
  cases hf : fs a.input with
  | none => rw [hf] at h; cases h; exact .inl ⟨rfl, rfl, rfl⟩
  | some file =>
    rw [hf] at h
    dsimp only at h
    cases hs : saveJson C a.opts file with
    | error e => rw [hs] at h; cases h; exact .inr (.inl ⟨file, e, rfl, hs, rfl, rfl⟩)
    | ok d =>
      rw [hs] at h
      dsimp only [dumpTo] at h
      cases ht : dumps d with
      | error e => rw [ht] at h; cases h; exact .inr (.inr ⟨file, d, e, rfl, hs, ht, rfl, fun p => rfl⟩)
      | ok text => rw [ht] at h; cases h

/-- **C98** The input is never changed, and running the command once more changes nothing. -/
theorem C98_again (a : JsonArgs) {stem : PyStr} (hs : IsStem a.input.name stem) (fs : Disk) :
    (vfb2json C dumps a fs).2 a.input = fs a.input ∧ vfb2json C dumps a (vfb2json C dumps a fs).2 = vfb2json C dumps a fs := by
  have hne : a.input ≠ a.out := fun e => (C98_path a hs).2 (by rw [← e])
  have key : (vfb2json C dumps a fs).2 a.input = fs a.input := by
    rcases hr : vfb2json C dumps a fs with ⟨r, fs'⟩
    cases r with
    | ok u =>
      obtain ⟨file, d, text, -, -, -, h4⟩ := (C98_success C dumps a fs fs').1 hr
      exact (h4 _).trans (if_neg hne)
    | error x =>
      rcases C98_failure C dumps a fs fs' x hr with ⟨-, -, rfl⟩ | ⟨-, -, -, -, -, rfl⟩ | ⟨-, -, -, -, -, -, -, h4⟩
      · rfl
      · rfl
      · exact (h4 _).trans (if_neg hne)
  refine ⟨key, ?_⟩
  rcases hr : vfb2json C dumps a fs with ⟨r, fs'⟩
  rw [hr] at key
  cases r with
  | ok u =>
    obtain ⟨file, d, text, h1, h2, h3, h4⟩ := (C98_success C dumps a fs fs').1 hr
    refine (C98_success C dumps a fs' fs').2 ⟨file, d, text, by rw [← h1]; exact key, h2, h3, fun p => ?_⟩
    rw [h4]
    split <;> rfl
  | error x =>
    rcases C98_failure C dumps a fs fs' x hr with ⟨-, -, rfl⟩ | ⟨-, -, -, -, -, rfl⟩ | ⟨file, d, e, h1, h2, h3, rfl, h4⟩
    · exact hr
    · exact hr
    · dsimp only
      unfold vfb2json
      rw [show fs' a.input = some file from key.trans h1]
      dsimp only
      rw [h2]
      dsimp only [dumpTo]
      rw [h3]
      refine congrArg (Prod.mk _) (funext fun p => ?_)
      unfold Disk.put
      rw [h4]
      split <;> rfl

/-- **C98** The option `--minimal` has no effect. -/
theorem C98_minimal (a : JsonArgs) (b : Bool) (fs : Disk) : vfb2json C dumps { a with minimal := b } fs = vfb2json C dumps a fs := rfl

/-- **C98** From file to file: for every readable VFB file, `vfb2json` without further options succeeds exactly if all entries can be decompiled and
the dictionary can be serialised; then the output is the serialised dictionary, with one item per entry of the file in the same order. -/
theorem C98_font (hc : SpecialFixed C) (a : JsonArgs) (ho : a.header = false) (hn : a.no_decompile = false) (hrt : a.roundtrip = false) (fs : Disk)
    (minor : UInt8) (es : List (Nat × Bytes)) (tail : Bytes) (ht : Terminated es) (hr : Readable C a.unicode_strings {} es)
    (hf : fs a.input = some (fileOf minor es ++ tail)) (hd : ∀ d, ∃ text, dumps d = .ok text) :
    ((∃ fs', vfb2json C dumps a fs = (.ok (), fs')) ↔ ∀ p ∈ es, ∃ d, parseEntry (C.parse p.1 (jsonCtx C a.opts es)) p.2 = .ok d) ∧
    ∀ fs', vfb2json C dumps a fs = (.ok (), fs') → ∃ doc text, fs' a.out = some text ∧ dumps doc = .ok text ∧
      doc.header = .data (headerDict minor) ∧ List.Forall₂ (JsonEntryOf C (jsonCtx C a.opts es)) es doc.entries := by
  obtain ⟨h1, h2⟩ := C88_complete C hc a.opts minor es tail ho hn hrt ht hr
  constructor
  · rw [← h2]
    constructor
    · rintro ⟨fs', h⟩
      obtain ⟨file, d, text, e1, e2, e3, -⟩ := (C98_success C dumps a fs fs').1 h
      rw [hf] at e1
      cases e1
      exact ⟨d, e2⟩
    · rintro ⟨doc, h⟩
      obtain ⟨text, e⟩ := hd doc
      exact ⟨_, (C98_success C dumps a fs _).2 ⟨_, doc, text, hf, h, e, fun p => rfl⟩⟩
  · intro fs' h
    obtain ⟨file, d, text, e1, e2, e3, e4⟩ := (C98_success C dumps a fs fs').1 h
    rw [hf] at e1
    cases e1
    exact ⟨d, text, by rw [e4, if_pos rfl], e3, h1 d e2⟩

end

/-- an example: a file with three entries, of which the number is written -/
example : ∃ fs', vfb2json demo (fun d => .ok [UInt8.ofNat d.entries.length]) { input := ⟨lit "/f", lit "A.vfb"⟩, path := some (lit "/g") }
      (fun p => if p = ⟨lit "/f", lit "A.vfb"⟩ then some (fileOf 1 [(1025, [65, 66]), (4000, [1, 255]), (2, [])]) else none) = (.ok (), fs') ∧
    fs' ⟨lit "/g", lit "A.vfb.json"⟩ = some [3] := by
  have hs : ∃ d, saveJson demo {} (fileOf 1 [(1025, [65, 66]), (4000, [1, 255]), (2, [])]) = .ok d ∧ d.entries.length = 3 :=
    ⟨⟨.data (headerDict 1), [⟨lit "full_name", none, .data [65, 66]⟩, ⟨lit "4000", none, .data [1, 255]⟩,
        ⟨lit "Block File Data End", none, .data []⟩]⟩, by decide +kernel, rfl⟩
  obtain ⟨d, hd, hl⟩ := hs
  have ho := (C98_path { input := ⟨lit "/f", lit "A.vfb"⟩, path := some (lit "/g") } (stem := lit "A")
    (.inl ⟨lit "vfb", by decide, by decide, by decide, by decide⟩)).1
  refine ⟨_, (C98_success demo _ _ _ _).2 ⟨_, d, [3], if_pos rfl, hd, by rw [hl]; rfl, fun p => rfl⟩, ?_⟩
  rw [ho]
  decide

/-! ## vfb2tth -/

section
variable (ops : AngleOps) (asm : AsmOps) (dumps : TthFormat → TthExport → Except PyErr Bytes)

theorem key_eq {n m : Nat} {name : PyStr} (hm : entryKey m = name) : entryKey n = name ↔ n = m := by
  rw [← hm]
  exact ⟨C88_keys n m, fun h => by rw [h]⟩

/-- the entries that are looked at are found by their keys -/
theorem view_none {n : Nat} (h : n ∉ tthIds) : tthView ops asm (entryKey n) = none := by
  simp only [tthIds, List.mem_cons, List.not_mem_nil, or_false, not_or] at h
  obtain ⟨h1, h2, h3, h4, h5, h6, h7, h8, h9, h10, h11⟩ := h
  unfold tthView
  rw [if_neg (mt (key_eq (m := 1265) (by decide +kernel)).1 h3), if_neg (mt (key_eq (m := 1264) (by decide +kernel)).1 h2),
    if_neg (mt (key_eq (m := 1268) (by decide +kernel)).1 h4), if_neg (mt (key_eq (m := 1269) (by decide +kernel)).1 h5),
    if_neg (mt (key_eq (m := 1524) (by decide +kernel)).1 h10), if_neg (mt (key_eq (m := 1255) (by decide +kernel)).1 h1),
    if_neg, if_neg (mt (key_eq (m := 1273) (by decide +kernel)).1 h7), if_neg (mt (key_eq (m := 2001) (by decide +kernel)).1 h11)]
  rintro (h | h | h)
  · exact h6 ((key_eq (m := 1272) (by decide +kernel)).1 h)
  · exact h8 ((key_eq (m := 1274) (by decide +kernel)).1 h)
  · exact h9 ((key_eq (m := 1275) (by decide +kernel)).1 h)

theorem ttNumber_iff {i : TTInfo} {k v : Int} : ttNumber i k = some v ↔ dictGet i k = some (.int v) := by
  unfold ttNumber
  cases h : dictGet i k with
  | none => simp
  | some x => cases x <;> simp

theorem view_some {n : Nat} (h : n ∈ tthIds) : ∃ view, tthView ops asm (entryKey n) = some view ∧ ∀ c b d,
    parseEntry ((vfbCodec ops asm).parse n c) b = .ok d → ∃ t, view d = .ok t ∧ ∀ t', Viewed ops asm n d t' ↔ t' = t := by
  simp only [tthIds, List.mem_cons, List.not_mem_nil, or_false] at h
  rcases h with rfl | rfl | rfl | rfl | rfl | rfl | rfl | rfl | rfl | rfl | rfl
  · rw [show entryKey (1255 : Nat) = lit "TrueType Zones" by decide +kernel]
    refine ⟨_, rfl, fun c b d hd => ?_⟩
    obtain ⟨x, rfl⟩ := parse_inj ops asm (k := .ttZones) (by decide +kernel) hd
    exact ⟨_, rfl, fun t' => ⟨fun h => (by cases h; rfl), fun h => (by rw [h]; constructor)⟩⟩
  · rw [show entryKey (1264 : Nat) = lit "ttinfo" by decide +kernel]
    refine ⟨_, rfl, fun c b d hd => ?_⟩
    obtain ⟨x, rfl⟩ := parse_inj ops asm (k := .ttInfo) (by decide +kernel) hd
    refine ⟨.ttinfo (ttNumber x 0x3C) (ttNumber x 0x3A), rfl, fun t' => ⟨fun h => ?_, fun h => ?_⟩⟩
    · cases h with
      | info _ p u hp hu =>
        rw [show p = ttNumber x 0x3C by apply Option.ext; intro v; exact (hp v).trans ttNumber_iff.symm,
          show u = ttNumber x 0x3A by apply Option.ext; intro v; exact (hu v).trans ttNumber_iff.symm]
    · rw [h]
      exact .info _ _ _ (fun v => ttNumber_iff) (fun v => ttNumber_iff)
  · rw [show entryKey (1265 : Nat) = lit "gasp" by decide +kernel]
    refine ⟨_, rfl, fun c b d hd => ?_⟩
    obtain ⟨x, rfl⟩ := parse_inj ops asm (k := .gasp) (by decide +kernel) hd
    exact ⟨_, rfl, fun t' => ⟨fun h => (by cases h; rfl), fun h => (by rw [h]; constructor)⟩⟩
  · rw [show entryKey (1268 : Nat) = lit "TrueType Stem PPEMs" by decide +kernel]
    refine ⟨_, rfl, fun c b d hd => ?_⟩
    obtain ⟨x, rfl⟩ := parse_inj ops asm (k := .ttPpems) (by decide +kernel) hd
    exact ⟨_, rfl, fun t' => ⟨fun h => (by cases h; rfl), fun h => (by rw [h]; constructor)⟩⟩
  · rw [show entryKey (1269 : Nat) = lit "TrueType Stems" by decide +kernel]
    refine ⟨_, rfl, fun c b d hd => ?_⟩
    obtain ⟨x, rfl⟩ := parse_inj ops asm (k := .ttStems) (by decide +kernel) hd
    exact ⟨_, rfl, fun t' => ⟨fun h => (by cases h; rfl), fun h => (by rw [h]; constructor)⟩⟩
  · rw [show entryKey (1272 : Nat) = lit "stemsnaplimit" by decide +kernel]
    refine ⟨_, rfl, fun c b d hd => ?_⟩
    obtain ⟨x, rfl⟩ := parse_inj ops asm (k := .int16) (by decide +kernel) hd
    exact ⟨_, rfl, fun t' => ⟨fun h => (by cases h; rfl), fun h => (by rw [h]; constructor)⟩⟩
  · rw [show entryKey (1273 : Nat) = lit "TrueType Zone Deltas" by decide +kernel]
    refine ⟨_, rfl, fun c b d hd => ?_⟩
    obtain ⟨x, rfl⟩ := parse_inj ops asm (k := .ttDeltas) (by decide +kernel) hd
    exact ⟨_, rfl, fun t' => ⟨fun h => (by cases h; rfl), fun h => (by rw [h]; constructor)⟩⟩
  · rw [show entryKey (1274 : Nat) = lit "zoneppm" by decide +kernel]
    refine ⟨_, rfl, fun c b d hd => ?_⟩
    obtain ⟨x, rfl⟩ := parse_inj ops asm (k := .int16) (by decide +kernel) hd
    exact ⟨_, rfl, fun t' => ⟨fun h => (by cases h; rfl), fun h => (by rw [h]; constructor)⟩⟩
  · rw [show entryKey (1275 : Nat) = lit "codeppm" by decide +kernel]
    refine ⟨_, rfl, fun c b d hd => ?_⟩
    obtain ⟨x, rfl⟩ := parse_inj ops asm (k := .int16) (by decide +kernel) hd
    exact ⟨_, rfl, fun t' => ⟨fun h => (by cases h; rfl), fun h => (by rw [h]; constructor)⟩⟩
  · rw [show entryKey (1524 : Nat) = lit "TrueType Stem PPEMs 1" by decide +kernel]
    refine ⟨_, rfl, fun c b d hd => ?_⟩
    obtain ⟨x, rfl⟩ := parse_inj ops asm (k := .ttPpems1) (by decide +kernel) hd
    exact ⟨_, rfl, fun t' => ⟨fun h => (by cases h; rfl), fun h => (by rw [h]; constructor)⟩⟩
  · rw [show entryKey (2001 : Nat) = lit "Glyph" by decide +kernel]
    refine ⟨_, rfl, fun c b d hd => ?_⟩
    obtain ⟨x, rfl⟩ := parse_inj ops asm (k := .glyph) (by decide +kernel) hd
    exact ⟨_, rfl, fun t' => ⟨fun h => (by cases h; rfl), fun h => (by rw [h]; constructor)⟩⟩

theorem loadedEntry_id {D T : Type} (C : Codec D T) (c : Ctx) (p : Nat × Bytes) : (loadedEntry C c p : Entry D T).id = p.1 := by
  unfold loadedEntry
  split
  · split <;> rfl
  · rfl

theorem decompile_flag {D T : Type} {C : Codec D T} {c : Ctx} {e e' : Entry D T} {f : Bool} (h : e.decompile C c = (.ok (), e', f)) : f = false := by
  unfold Entry.decompile at h
  split at h
  · cases h
  · cases h; rfl
  · split at h
    · cases h
    · cases h; rfl

abbrev FontEntry := Entry (Decompiled ops.Angle asm.Asm) (List MasterData)

/-- the entries as they are after reading -/
def LoadedAs (c : Ctx) (p : Nat × Bytes) (e : FontEntry ops asm) : Prop :=
  e = loadedEntry (vfbCodec ops asm) c p ∧ (isSpecial p.1 = true → ∃ d, parseEntry ((vfbCodec ops asm).parse p.1 c) p.2 = .ok d)

theorem loop_iff (c : Ctx) {ps : List (Nat × Bytes)} {es : List (FontEntry ops asm)} (hl : List.Forall₂ (LoadedAs ops asm c) ps es) : ∀ s s',
    tthLoop ops asm c s es = .ok s' ↔ ∃ l, List.Forall₂ (SeenBy ops asm c) ps l ∧ l.foldlM tthEntry s = .ok s' := by
  induction hl with
  | nil =>
    intro s s'
    constructor
    · intro h; exact ⟨[], .nil, h⟩
    · rintro ⟨l, h1, h2⟩; cases h1; exact h2
  | @cons p e ps es hp _ ih =>
    intro s s'
    obtain ⟨rfl, hsp⟩ := hp
    rw [tthLoop, loadedEntry_id]
    by_cases hm : p.1 ∈ tthIds
    · obtain ⟨view, hv, hview⟩ := view_some ops asm hm
      rw [hv]
      dsimp only
      cases hd : parseEntry ((vfbCodec ops asm).parse p.1 c) p.2 with
      | error x =>
        constructor
        · intro h
          rcases hdec : (loadedEntry (vfbCodec ops asm) c p : FontEntry ops asm).decompile (vfbCodec ops asm) c with ⟨r, e', f⟩
          rw [hdec] at h
          cases r with
          | error x => cases h
          | ok u =>
            have hf : f = false := decompile_flag hdec
            subst hf
            obtain ⟨d, hd', -⟩ := (loadedEntry_decompile _ c p e' hsp).1 hdec
            rw [hd] at hd'
            cases hd'
        · rintro ⟨l, h1, -⟩
          cases h1 with
          | cons h1 _ =>
            rcases h1 with ⟨h1, -⟩ | ⟨-, d, h1, -⟩
            · exact absurd hm h1
            · rw [hd] at h1; cases h1
      | ok d =>
        obtain ⟨t, ht, huniq⟩ := hview c p.2 d hd
        rw [(loadedEntry_decompile _ c p _ hsp).2 ⟨d, hd, rfl⟩]
        dsimp only
        rw [ht]
        show (tthEntry s t >>= fun s => tthLoop ops asm c s es) = .ok s' ↔ _
        constructor
        · intro h
          cases h1 : tthEntry s t with
          | error x => rw [h1] at h; cases h
          | ok s1 =>
            rw [h1] at h
            obtain ⟨l, h2, h3⟩ := (ih s1 s').1 h
            exact ⟨t :: l, .cons (.inr ⟨hm, d, hd, (huniq t).2 rfl⟩) h2, by rw [List.foldlM_cons, h1]; exact h3⟩
        · rintro ⟨l, h1, h2⟩
          cases h1 with
          | @cons _ t' _ l h1 h3 =>
          rcases h1 with ⟨h1, -⟩ | ⟨-, d', h1, h4⟩
          · exact absurd hm h1
          · rw [hd] at h1
            cases h1
            obtain rfl := (huniq t').1 h4
            rw [List.foldlM_cons] at h2
            cases h5 : tthEntry s t' with
            | error x => rw [h5] at h2; cases h2
            | ok s1 =>
              rw [h5] at h2
              exact (ih s1 s').2 ⟨l, h3, h2⟩
    · rw [view_none ops asm hm]
      dsimp only
      rw [ih]
      constructor
      · rintro ⟨l, h1, h2⟩
        exact ⟨.other :: l, .cons (.inl ⟨hm, rfl⟩) h1, h2⟩
      · rintro ⟨l, h1, h2⟩
        cases h1 with
        | @cons _ t' _ l h1 h3 =>
        rcases h1 with ⟨-, rfl⟩ | ⟨h1, -⟩
        · exact ⟨l, h3, h2⟩
        · exact absurd h1 hm

/-- what is known after reading a file -/
def tthFont (minor : UInt8) (es : List (Nat × Bytes)) : Vfb (Decompiled ops.Angle asm.Asm) (List MasterData) where
  header := .dec (headerDict minor)
  entries := loaded (vfbCodec ops asm) true {} es
  ctx := tthCtx ops asm es
  force_unicode_strings := true

theorem tth_read (minor : UInt8) (es : List (Nat × Bytes)) (tail : Bytes) (ht : Terminated es) (hr : Readable (vfbCodec ops asm) true {} es) :
    Vfb.readBytes (vfbCodec ops asm) { force_unicode_strings := true } (fileOf minor es ++ tail) = (.ok (), tthFont ops asm minor es) := by
  rw [read_file (vfbCodec ops asm) { force_unicode_strings := true } minor es tail rfl ht hr]
  refine congrArg _ ?_
  unfold tthFont tthCtx
  congr 1
  exact List.filter_eq_self.2 (by simp)

theorem extract_iff (minor : UInt8) (es : List (Nat × Bytes)) (hr : Readable (vfbCodec ops asm) true {} es) (x : TthExport) :
    extractTth ops asm (tthFont ops asm minor es) = .ok x ↔ ∃ l, List.Forall₂ (SeenBy ops asm (tthCtx ops asm es)) es l ∧ exportTth l = .ok x := by
  have hl := loaded_forall (vfbCodec ops asm) (vfb_special_fixed ops asm) true {} (tthCtx ops asm es) es hr
  have key := loop_iff ops asm (tthCtx ops asm es) hl
  unfold extractTth exportTth
  constructor
  · intro h
    obtain ⟨s, -, h1, -⟩ := bind_exists.1 ⟨x, h⟩
    rw [h1] at h
    obtain ⟨l, h2, h3⟩ := (key _ s).1 h1
    exact ⟨l, h2, by rw [h3]; exact h⟩
  · rintro ⟨l, h1, h2⟩
    obtain ⟨s, -, h3, -⟩ := bind_exists.1 ⟨x, h2⟩
    rw [h3] at h2
    have h4 : tthLoop ops asm (tthFont ops asm minor es).ctx TthData.empty (tthFont ops asm minor es).entries = .ok s := (key _ s).2 ⟨l, h1, h3⟩
    rw [h4]
    exact h2

/-- reading sets the flag only together with an exception -/
theorem read_no_errors {D T : Type} (C : Codec D T) (fuel : Nat) : ∀ (v v' : Vfb D T) (b : Bytes), v.any_errors = false → readLoop C fuel v b = (.ok (), v') →
    v'.any_errors = false := by
  induction fuel with
  | zero => intro v v' b _ h; cases h
  | succ fuel ih =>
    intro v v' b hv h
    rw [readLoop] at h
    cases he : readEntry v.ctx.num_masters b with
    | err x r => rw [he] at h; cases h
    | ok y rest =>
      obtain ⟨id, data⟩ := y
      rw [he] at h
      dsimp only at h
      rcases ha : v.addRead C id data with ⟨r, v1⟩
      rw [ha] at h
      cases r with
      | error x => cases h
      | ok u =>
        have h1 : v1.any_errors = false := by
          unfold Vfb.addRead at ha
          by_cases hs : isSpecial id = true
          · rw [if_pos hs] at ha
            rcases hd : Entry.decompile C v.ctx { id := id, data := .bytes data } with ⟨r, e, f⟩
            rw [hd] at ha
            cases r with
            | error x => cases ha
            | ok u => cases ha; exact hv
          · rw [if_neg hs] at ha
            cases ha
            exact hv
        by_cases h2 : id = 2
        · simp only [h2, if_true] at h
          cases h
          exact h1
        · simp only [h2, if_false] at h
          exact ih v1 v' rest h1 h

/-- **C97** Where `vfb2tth` writes: next to the input, or into the folder given by `--path`, under the name of the input without its extension and with
`.tth.` and the format; this is never the name of the input. -/
theorem C97_path (a : TthArgs) {stem : PyStr} (h : IsStem a.input.name stem) :
    a.out = ⟨a.path.getD a.input.dir, stem ++ lit ".tth." ++ a.format⟩ ∧ a.out.name ≠ a.input.name := by
  have e : a.out = ⟨a.path.getD a.input.dir, stem ++ lit ".tth." ++ a.format⟩ := by
    unfold TthArgs.out
    rw [toolOut_form _ _ _ h, List.append_assoc]
    rfl
  refine ⟨e, ?_⟩
  rw [e, show stem ++ lit ".tth." ++ a.format = stem ++ (lit "." ++ lit "tth" ++ (lit "." ++ a.format)) by
    rw [show lit ".tth." = lit "." ++ lit "tth" ++ lit "." by decide]; simp]
  exact out_ne_input h

/-- **C97** How `vfb2tth` can end, for any files: with an exception and all files as before; with an exception of the serialisation, the output file being
left empty; or normally, with the output file holding the serialised data and all other files as before.  It never ends with the message "There were
decompilation errors." -/
theorem C97_outcome (a : TthArgs) (fs : Disk) :
    (∃ x, vfb2tth ops asm dumps a fs = (.error x, fs) ∧ (x = .noInput ↔ fs a.input = none) ∧ x ≠ .reported) ∨
    (∃ x e, vfb2tth ops asm dumps a fs = (.error (.exception e), fs.put a.out []) ∧ dumps a.serializer x = .error e) ∨
    ∃ x text, vfb2tth ops asm dumps a fs = (.ok (), fs.put a.out text) ∧ dumps a.serializer x = .ok text := by
  unfold vfb2tth
  cases hf : fs a.input with
  | none => exact .inl ⟨_, rfl, by simp, by simp⟩
  | some file =>
    dsimp only
    rcases hr : Vfb.readBytes (vfbCodec ops asm) { force_unicode_strings := true } file with ⟨r, v⟩
    cases r with
    | error e => exact .inl ⟨_, rfl, by simp, by simp⟩
    | ok u =>
      have hv : v.any_errors = false := by
        unfold Vfb.readBytes Vfb.readFuel at hr
        dsimp only at hr
        cases hp : parseHeader file with
        | err x r => rw [hp] at hr; cases hr
        | ok h rest =>
          rw [hp] at hr
          dsimp only at hr
          rw [if_neg (by simp [Vfb.clear])] at hr
          exact read_no_errors _ _ _ v rest rfl hr
      dsimp only
      cases hx : extractTth ops asm v with
      | error e => exact .inl ⟨_, rfl, by simp, by simp⟩
      | ok x =>
        dsimp only [dumpTo]
        cases ht : dumps a.serializer x with
        | error e => exact .inr (.inl ⟨x, e, rfl, ht⟩)
        | ok text =>
          dsimp only
          rw [hv]
          exact .inr (.inr ⟨x, text, rfl, ht⟩)

/-- **C97** The file that `vfb2tth` writes: for every readable VFB file, whatever follows its end entry, the command succeeds with the files `fs'`
exactly if the eleven kinds of entries that it looks at can be parsed, the hinting in them can be exported (C63 says to what), and the result can be
serialised; `fs'` has got this text in the output file and is otherwise unchanged. -/
theorem C97_success (a : TthArgs) (fs fs' : Disk) (minor : UInt8) (es : List (Nat × Bytes)) (tail : Bytes) (ht : Terminated es)
    (hr : Readable (vfbCodec ops asm) true {} es) (hf : fs a.input = some (fileOf minor es ++ tail)) :
    vfb2tth ops asm dumps a fs = (.ok (), fs') ↔ ∃ l x text, List.Forall₂ (SeenBy ops asm (tthCtx ops asm es)) es l ∧ exportTth l = .ok x ∧
      dumps a.serializer x = .ok text ∧ ∀ p, fs' p = if p = a.out then some text else fs p := by
  unfold vfb2tth
  rw [hf]
  dsimp only
  rw [tth_read ops asm minor es tail ht hr]
  dsimp only
  constructor
  · intro h
    cases hx : extractTth ops asm (tthFont ops asm minor es) with
    | error e => rw [hx] at h; cases h
    | ok x =>
      rw [hx] at h
      dsimp only [dumpTo] at h
      obtain ⟨l, h1, h2⟩ := (extract_iff ops asm minor es hr x).1 hx
      cases ht : dumps a.serializer x with
      | error e => rw [ht] at h; cases h
      | ok text =>
        rw [ht] at h
        cases h
        exact ⟨l, x, text, h1, h2, ht, fun p => rfl⟩
  · rintro ⟨l, x, text, h1, h2, h3, h4⟩
    rw [(extract_iff ops asm minor es hr x).2 ⟨l, h1, h2⟩]
    dsimp only [dumpTo]
    rw [h3]
    exact congrArg (Prod.mk _) (funext fun p => (h4 p).symm)

/-- **C97** Exactly which files can be exported (if the serialisation always works): the entries that are looked at can be parsed, and what is in them
is complete (`TthReady`).  Other entries need not be parseable. -/
theorem C97_which_files (a : TthArgs) (fs : Disk) (minor : UInt8) (es : List (Nat × Bytes)) (tail : Bytes) (ht : Terminated es)
    (hr : Readable (vfbCodec ops asm) true {} es) (hf : fs a.input = some (fileOf minor es ++ tail)) (hd : ∀ x, ∃ text, dumps a.serializer x = .ok text) :
    (∃ fs', vfb2tth ops asm dumps a fs = (.ok (), fs')) ↔ ∃ l, List.Forall₂ (SeenBy ops asm (tthCtx ops asm es)) es l ∧ TthReady l := by
  constructor
  · rintro ⟨fs', h⟩
    obtain ⟨l, x, text, h1, h2, -⟩ := (C97_success ops asm dumps a fs fs' minor es tail ht hr hf).1 h
    exact ⟨l, h1, (C97_ready l).1 ⟨x, h2⟩⟩
  · rintro ⟨l, h1, h2⟩
    obtain ⟨x, h3⟩ := (C97_ready l).2 h2
    obtain ⟨text, h4⟩ := hd x
    exact ⟨_, (C97_success ops asm dumps a fs _ minor es tail ht hr hf).2 ⟨l, x, text, h1, h3, h4, fun p => rfl⟩⟩

theorem ctxAll_special {D T : Type} (C : Codec D T) (force : Bool) (ctx : Ctx) (es : List (Nat × Bytes)) :
    ctxAll C force ctx es = ctxAll C force ctx (es.filter fun p => isSpecial p.1) := by
  unfold ctxAll
  induction es generalizing ctx with
  | nil => rfl
  | cons p es ih =>
    rw [List.foldl_cons, ih, List.filter_cons]
    by_cases h : isSpecial p.1 = true
    · rw [if_pos h, List.foldl_cons]
    · rw [if_neg h, show ctxAfter C force ctx p = ctx by unfold ctxAfter; rw [if_neg h]]

theorem seen_filter (c : Ctx) (es : List (Nat × Bytes)) (x : TthExport) :
    (∃ l, List.Forall₂ (SeenBy ops asm c) es l ∧ exportTth l = .ok x) ↔
      ∃ l, List.Forall₂ (SeenBy ops asm c) (es.filter fun p => p.1 ∈ tthIds) l ∧ exportTth l = .ok x := by
  have key : ∀ (es : List (Nat × Bytes)) (f : TthData → Except PyErr TthExport) (s : TthData),
      (∃ l, List.Forall₂ (SeenBy ops asm c) es l ∧ (l.foldlM tthEntry s >>= f) = .ok x) ↔
      ∃ l, List.Forall₂ (SeenBy ops asm c) (es.filter fun p => p.1 ∈ tthIds) l ∧ (l.foldlM tthEntry s >>= f) = .ok x := by
    intro es f
    induction es with
    | nil => intro s; exact Iff.rfl
    | cons p es ih =>
      intro s
      rw [List.filter_cons]
      by_cases h : p.1 ∈ tthIds
      · rw [if_pos (by simpa using h)]
        constructor
        · rintro ⟨l, h1, h2⟩
          cases h1 with
          | @cons _ t _ l h1 h3 =>
          rw [List.foldlM_cons] at h2
          cases ht : tthEntry s t with
          | error e => rw [ht] at h2; cases h2
          | ok s1 =>
            rw [ht] at h2
            obtain ⟨m, h4, h5⟩ := (ih s1).1 ⟨l, h3, h2⟩
            exact ⟨t :: m, .cons h1 h4, by rw [List.foldlM_cons, ht]; exact h5⟩
        · rintro ⟨l, h1, h2⟩
          cases h1 with
          | @cons _ t _ l h1 h3 =>
          rw [List.foldlM_cons] at h2
          cases ht : tthEntry s t with
          | error e => rw [ht] at h2; cases h2
          | ok s1 =>
            rw [ht] at h2
            obtain ⟨m, h4, h5⟩ := (ih s1).2 ⟨l, h3, h2⟩
            exact ⟨t :: m, .cons h1 h4, by rw [List.foldlM_cons, ht]; exact h5⟩
      · rw [if_neg (by simpa using h), ← ih s]
        constructor
        · rintro ⟨l, h1, h2⟩
          cases h1 with
          | @cons _ t _ l h1 h3 =>
          rcases h1 with ⟨-, rfl⟩ | ⟨h1, -⟩
          · exact ⟨l, h3, h2⟩
          · exact absurd h1 h
        · rintro ⟨l, h1, h2⟩
          exact ⟨.other :: l, .cons (.inl ⟨h, rfl⟩) h1, h2⟩
  exact key es _ _

/-- **C97** The exported hinting depends only on the entries that are looked at, besides the number of masters and the program version: two files with
the same entries of these kinds, in the same order, give the same output — whatever the other entries are, and even if these cannot be parsed. -/
theorem C97_independent (a : TthArgs) (fs fs' : Disk) (minor minor' : UInt8) (es es' : List (Nat × Bytes)) (tail tail' : Bytes)
    (ht : Terminated es) (ht' : Terminated es') (hr : Readable (vfbCodec ops asm) true {} es) (hr' : Readable (vfbCodec ops asm) true {} es')
    (hf : fs a.input = some (fileOf minor es ++ tail)) (hf' : fs' a.input = some (fileOf minor' es' ++ tail'))
    (h : es.filter (fun p => p.1 ∈ 10 :: 1503 :: tthIds) = es'.filter fun p => p.1 ∈ 10 :: 1503 :: tthIds) (text : Bytes) :
    (∃ g, vfb2tth ops asm dumps a fs = (.ok (), g) ∧ g a.out = some text) ↔ ∃ g, vfb2tth ops asm dumps a fs' = (.ok (), g) ∧ g a.out = some text := by
  have hspec : es.filter (fun p => isSpecial p.1) = es'.filter fun p => isSpecial p.1 := by
    have := congrArg (List.filter fun p => isSpecial p.1) h
    rw [List.filter_filter, List.filter_filter] at this
    have e : ∀ p : Nat × Bytes, (isSpecial p.1 && decide (p.1 ∈ 10 :: 1503 :: tthIds)) = isSpecial p.1 := by
      intro p
      cases hs : isSpecial p.1 with
      | false => rfl
      | true =>
        simp only [isSpecial, Bool.or_eq_true, decide_eq_true_eq] at hs
        rw [Bool.true_and, decide_eq_true_eq]
        rcases hs with (hs | hs) | hs
        · rw [show p.1 = 10 by omega]; decide
        · rw [show p.1 = 1503 by omega]; decide
        · rw [show p.1 = 1269 by omega]; decide
    simpa only [e] using this
  have hids : es.filter (fun p => p.1 ∈ tthIds) = es'.filter fun p => p.1 ∈ tthIds := by
    have := congrArg (List.filter fun p => decide (p.1 ∈ tthIds)) h
    rw [List.filter_filter, List.filter_filter] at this
    have e : ∀ p : Nat × Bytes, (decide (p.1 ∈ tthIds) && decide (p.1 ∈ 10 :: 1503 :: tthIds)) = decide (p.1 ∈ tthIds) := by
      intro p
      by_cases hs : p.1 ∈ tthIds
      · simp [hs]
      · simp [hs]
    simpa only [e] using this
  have hc : tthCtx ops asm es = tthCtx ops asm es' := by
    unfold tthCtx
    rw [ctxAll_special, hspec, ← ctxAll_special]
  have key : ∀ x, (∃ l, List.Forall₂ (SeenBy ops asm (tthCtx ops asm es)) es l ∧ exportTth l = .ok x) ↔
      ∃ l, List.Forall₂ (SeenBy ops asm (tthCtx ops asm es')) es' l ∧ exportTth l = .ok x := by
    intro x
    rw [seen_filter, hc, hids, ← seen_filter]
  constructor
  · rintro ⟨g, h1, h2⟩
    obtain ⟨l, x, text', k1, k2, k3, k4⟩ := (C97_success ops asm dumps a fs g minor es tail ht hr hf).1 h1
    rw [k4, if_pos rfl] at h2
    cases h2
    obtain ⟨l', j1, j2⟩ := (key x).1 ⟨l, k1, k2⟩
    exact ⟨_, (C97_success ops asm dumps a fs' _ minor' es' tail' ht' hr' hf').2 ⟨l', x, text, j1, j2, k3, fun p => rfl⟩, if_pos rfl⟩
  · rintro ⟨g, h1, h2⟩
    obtain ⟨l, x, text', k1, k2, k3, k4⟩ := (C97_success ops asm dumps a fs' g minor' es' tail' ht' hr' hf').1 h1
    rw [k4, if_pos rfl] at h2
    cases h2
    obtain ⟨l', j1, j2⟩ := (key x).2 ⟨l, k1, k2⟩
    exact ⟨_, (C97_success ops asm dumps a fs _ minor es tail ht hr hf).2 ⟨l', x, text, j1, j2, k3, fun p => rfl⟩, if_pos rfl⟩

/-- **C97** Formats other than "toml" and "yaml" are written as JSON, under the name asked for. -/
theorem C97_format (a : TthArgs) : (a.serializer = .toml ↔ a.format = lit "toml") ∧ (a.serializer = .yaml ↔ a.format = lit "yaml") := by
  unfold TthArgs.serializer
  by_cases h1 : a.format = lit "toml"
  · rw [if_pos h1, h1]; decide
  · by_cases h2 : a.format = lit "yaml"
    · rw [if_neg h1, if_pos h2, h2]; decide
    · rw [if_neg h1, if_neg h2]; simp [h1, h2]

end

/-! ### an example: a file with stems, zones, deltas and a glyph with a command; the entry 1536 cannot be parsed -/

def exampleTthFile : List (Nat × Bytes) :=
  [(1503, [1, 0]),
   (1268, [140, 159, 169, 179, 199, 140, 164, 169, 179, 189]),
   (1269, [140, 209, 1, 120, 199, 140, 229, 1, 120, 200]),
   (1255, [140, 249, 80, 151, 143, 99, 97, 112, 115, 141, 127, 151, 143, 98, 97, 115, 101, 251, 92, 149, 143, 100, 101, 115, 99]),
   (1536, [1]),
   (1273, [141, 141, 148, 138, 141, 149, 140]),
   (2001, [1, 9, 7, 1, 1, 140, 65, 8, 140, 139, 139, 2, 248, 136, 139, 3, 139, 139, 139, 10, 151, 141, 1, 142, 139, 4, 142, 143, 139, 139, 139, 139,
     139, 15]),
   (2, [])]

theorem exampleTthFile_readable : Readable (vfbCodec exampleAngles exampleAsm) true {} exampleTthFile := by
  unfold exampleTthFile
  refine ⟨by decide, by decide, by decide, fun _ => ⟨.int 1, rfl⟩, ?_⟩
  refine ⟨by decide, by decide, by decide, fun h => absurd h (by decide), ?_⟩
  refine ⟨by decide, by decide, by decide, fun _ => ⟨.ttStems ⟨[⟨70, lit "x", [(6, 60)]⟩], [⟨90, lit "x", [(6, 61)]⟩]⟩, rfl⟩, ?_⟩
  refine ⟨by decide, by decide, by decide, fun h => absurd h (by decide), ?_⟩
  refine ⟨by decide, by decide, by decide, fun h => absurd h (by decide), ?_⟩
  refine ⟨by decide, by decide, by decide, fun h => absurd h (by decide), ?_⟩
  refine ⟨by decide, by decide, by decide, fun h => absurd h (by decide), ?_⟩
  exact ⟨by decide, by decide, by decide, fun h => absurd h (by decide), trivial⟩

/-- the number of stems, zones and glyphs as bytes, for the example -/
def exampleTthDumps (_ : TthFormat) (x : TthExport) : Except PyErr Bytes :=
  .ok [UInt8.ofNat x.stems.length, UInt8.ofNat x.zones.length, UInt8.ofNat x.glyphs.length]

def exampleTthDisk : Disk := fun p => if p = ⟨lit "/f", lit "A.vfb"⟩ then some (fileOf 5 exampleTthFile ++ []) else none

/-- the command writes the hinting, although one entry of the file cannot be parsed -/
theorem C97_example : (vfb2tth exampleAngles exampleAsm exampleTthDumps { input := ⟨lit "/f", lit "A.vfb"⟩ } exampleTthDisk).1 = .ok () ∧
    (vfb2tth exampleAngles exampleAsm exampleTthDumps { input := ⟨lit "/f", lit "A.vfb"⟩ } exampleTthDisk).2 ⟨lit "/f", lit "A.tth.json"⟩ = some [2, 3, 1] ∧
    ∀ c d, parseEntry ((vfbCodec exampleAngles exampleAsm).parse 1536 c) [1] ≠ .ok d := by
  refine ⟨by decide +kernel, by decide +kernel, ?_⟩
  intro c d h
  cases h

/-- it meets the hypotheses of the theorems above -/
example : ∃ l, List.Forall₂ (SeenBy exampleAngles exampleAsm (tthCtx exampleAngles exampleAsm exampleTthFile)) exampleTthFile l ∧ TthReady l := by
  refine (C97_which_files exampleAngles exampleAsm exampleTthDumps { input := ⟨lit "/f", lit "A.vfb"⟩ } exampleTthDisk 5 exampleTthFile []
    ⟨exampleTthFile.dropLast, [], rfl, by decide⟩ exampleTthFile_readable rfl (fun x => ⟨_, rfl⟩)).1 ?_
  have h := C97_example.1
  rcases hv : vfb2tth exampleAngles exampleAsm exampleTthDumps { input := ⟨lit "/f", lit "A.vfb"⟩ } exampleTthDisk with ⟨r, g⟩
  rw [hv] at h
  dsimp only at h
  exact ⟨g, by rw [h]⟩

end Verif.Props
