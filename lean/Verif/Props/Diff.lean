import Verif.Model.Diff
import Verif.Props.Cmdline
import Verif.Props.Json
/-! C95: the command `diffvfb`. -/
set_option autoImplicit false
namespace Verif.Props
open Verif Verif.Spec
variable {D T : Type} {ASM : Type}

/-- the number of masters is stated before the first entry whose size depends on it -/
def MastersFirst (es : List (Nat × Bytes)) : Prop := ∀ pre p post, es = pre ++ p :: post → p.1 = 1410 → ∃ q ∈ pre, q.1 = 1503

theorem readable_other (C : Codec D T) (hs : SpecialFixed C) (force : Bool) (es : List (Nat × Bytes)) : ∀ c c' : Ctx,
    (c.num_masters = c'.num_masters ∨ MastersFirst es) → Readable C force c es → Readable C force c' es := by
  induction es with
  | nil => intros; trivial
  | cons p es ih =>
    rintro c c' hn ⟨h1, h2, h3, h4, h5⟩
    refine ⟨h1, h2, ?_, ?_, ih _ _ ?_ h5⟩
    · intro hp
      rcases hn with hn | hn
      · rw [← hn]
        exact h3 hp
      · obtain ⟨q, hq, -⟩ := hn [] p es rfl hp
        cases hq
    · intro hp
      rw [hs p.1 hp c' c]
      exact h4 hp
    · by_cases hp : (p.1 : Int) = 1503
      · left
        have hsp : isSpecial p.1 = true := by
          rw [hp]
          rfl
        obtain ⟨d, hd⟩ := h4 hsp
        unfold ctxAfter
        rw [if_pos hsp, if_pos hsp, hd, hs p.1 hsp c' c, hd]
        dsimp only
        unfold noteCtx
        rw [hp]
        rfl
      · have hkeep : ∀ c : Ctx, (ctxAfter C force c p).num_masters = c.num_masters := by
          intro c
          unfold ctxAfter
          split
          · split
            · unfold noteCtx
              split
              · rfl
              · split <;> first | rfl | (rename_i h; exact absurd h hp) | (split <;> rfl)
            · rfl
          · rfl
        rw [hkeep, hkeep]
        rcases hn with hn | hn
        · exact .inl hn
        · right
          intro pre q post he hq
          obtain ⟨x, hx, hx'⟩ := hn (p :: pre) q post (by rw [he]; rfl) hq
          rcases List.mem_cons.1 hx with rfl | hx
          · exact absurd (by omega) hp
          · exact ⟨x, hx, hx'⟩

theorem loaded_other (C : Codec D T) (hs : SpecialFixed C) (force : Bool) (es : List (Nat × Bytes)) (c c' : Ctx) (h : Readable C force c es)
    (h' : Readable C force c' es) : (loaded C force c es : List (Entry D T)) = loaded C force c' es := by
  have hl := loaded_forall C hs force c c es h
  have hl' := loaded_forall C hs force c' c es h'
  generalize (loaded C force c es : List (Entry D T)) = m at hl
  generalize (loaded C force c' es : List (Entry D T)) = m' at hl'
  clear h h'
  induction hl generalizing m' with
  | nil => cases hl'; rfl
  | cons h _ ih =>
    cases hl' with
    | cons k ks => rw [h.1, k.1, ih _ ks]

/-- the effect of an entry on the settings, if it is read without an error -/
theorem ctxAfter_note (C : Codec D T) (hs : SpecialFixed C) (force : Bool) (p : Nat × Bytes) :
    (∀ c, ctxAfter C force c p = c) ∨ ∃ d, isSpecial p.1 = true ∧ ∀ c, ctxAfter C force c p = noteCtx C force p.1 d c := by
  unfold ctxAfter
  by_cases h : isSpecial p.1 = true
  · cases hp : parseEntry (C.parse p.1 {}) p.2 with
    | ok d =>
      right
      refine ⟨d, h, fun c => ?_⟩
      rw [if_pos h, hs p.1 h c {}, hp]
    | error e =>
      left
      intro c
      rw [if_pos h, hs p.1 h c {}, hp]
  · left
    intro c
    rw [if_neg h]

theorem note_note (C : Codec D T) (force : Bool) (i j : Int) (d d' : D) (c : Ctx) (hi : isSpecial i = true) (hj : isSpecial j = true) :
    noteCtx C force j d' (noteCtx C force i d c) = noteCtx C force j d' c ∨
    noteCtx C force j d' (noteCtx C force i d c) = noteCtx C force i d (noteCtx C force j d' c) := by
  have hcase : ∀ k, isSpecial k = true → k = 10 ∨ k = 1503 ∨ k = 1269 := by
    intro k hk
    unfold isSpecial at hk
    simpa [or_assoc] using hk
  rcases hcase i hi with rfl | rfl | rfl <;> rcases hcase j hj with rfl | rfl | rfl <;>
    first
    | exact .inl rfl
    | exact .inr rfl

theorem ctx_overwrite (C : Codec D T) (hs : SpecialFixed C) (force : Bool) (p : Nat × Bytes) (es : List (Nat × Bytes)) : ∀ c : Ctx,
    ctxAfter C force (ctxAll C force (ctxAfter C force c p) es) p = ctxAfter C force (ctxAll C force c es) p := by
  rcases ctxAfter_note C hs force p with hp | ⟨d, hd, hp⟩
  · intro c
    rw [hp c]
  · induction es with
    | nil =>
      intro c
      change ctxAfter C force (ctxAfter C force c p) p = ctxAfter C force c p
      rw [hp, hp]
      rcases note_note C force p.1 p.1 d d c hd hd with h | h
      · exact h
      · have hcase : (p.1 : Int) = 10 ∨ (p.1 : Int) = 1503 ∨ (p.1 : Int) = 1269 := by
          unfold isSpecial at hd
          simpa [or_assoc] using hd
        rcases hcase with h | h | h <;> rw [h] <;> rfl
    | cons q es ih =>
      intro c
      change ctxAfter C force (ctxAll C force (ctxAfter C force (ctxAfter C force c p) q) es) p =
        ctxAfter C force (ctxAll C force (ctxAfter C force c q) es) p
      rcases ctxAfter_note C hs force q with hq | ⟨d', hd', hq⟩
      · rw [hq, hq]
        exact ih c
      · rw [hq, hp, hq]
        rcases note_note C force p.1 q.1 d d' c hd hd' with h | h
        · rw [hp c, h, hp]
        · rw [hp c, h, ← hp, ← hp]
          exact ih _

theorem ctxAll_append (C : Codec D T) (force : Bool) (c : Ctx) (es es' : List (Nat × Bytes)) :
    ctxAll C force c (es ++ es') = ctxAll C force (ctxAll C force c es) es' := List.foldl_append

/-- reading the same entries again does not change the settings -/
theorem ctxAll_again (C : Codec D T) (hs : SpecialFixed C) (force : Bool) (c : Ctx) (es : List (Nat × Bytes)) :
    ctxAll C force (ctxAll C force c es) es = ctxAll C force c es := by
  induction es using List.reverseRecOn with
  | nil => rfl
  | append_singleton es p ih =>
    rw [ctxAll_append, ctxAll_append]
    change ctxAfter C force (ctxAll C force (ctxAfter C force (ctxAll C force c es) p) es) p = ctxAfter C force (ctxAll C force c es) p
    rw [ctx_overwrite C hs, ih]

/-- reading a file twice into the same object -/
theorem read_again (C : Codec D T) (hs : SpecialFixed C) (minor : UInt8) (es : List (Nat × Bytes)) (tail : Bytes) (ht : Terminated es)
    (hr : Readable C false {} es) (hm : MastersFirst es) :
    ∃ v : Vfb D T, Vfb.readBytes C {} (fileOf minor es ++ tail) = (.ok (), v) ∧ v.readBytes C (fileOf minor es ++ tail) = (.ok (), v) := by
  refine ⟨_, read_file C {} minor es tail rfl ht hr, ?_⟩
  have hr' : Readable C false (ctxAll C false {} es) es := readable_other C hs false es _ _ (.inr hm) hr
  rw [read_file C _ minor es tail rfl ht hr']
  simp only [ctxAll_again C hs, ← loaded_other C hs false es {} _ hr hr']

theorem readPath_bytes (C : Codec D T) {fs : Files ASM} {p : FPath} {file : Bytes} (h : fs p = some (.bytes file)) {v w : Vfb D T}
    (hv : v.readBytes C file = (.ok (), w)) : readPath C fs p v = .ok w := by
  simp only [readPath, h, hv]

/-- **C95** What the command compares: the documents that the JSON export (C88) makes of the two files.  It fails exactly if one of these cannot be made. -/
theorem C95_compares (C : Codec D T) (hs : SpecialFixed C) (o : DiffOps D) (a : DiffArgs) (fs : Files ASM) (ha : a.html = none)
    (m1 m2 : UInt8) (es1 es2 : List (Nat × Bytes)) (t1 t2 : Bytes)
    (hf1 : fs a.file1 = some (.bytes (fileOf m1 es1 ++ t1))) (hf2 : fs a.file2 = some (.bytes (fileOf m2 es2 ++ t2)))
    (ht1 : Terminated es1) (ht2 : Terminated es2) (hr1 : Readable C false {} es1) (hr2 : Readable C false {} es2)
    (hm1 : MastersFirst es1) (hm2 : MastersFirst es2) :
    (∀ d1 d2, saveJson C {} (fileOf m1 es1 ++ t1) = .ok d1 → saveJson C {} (fileOf m2 es2 ++ t2) = .ok d2 →
      diffvfb C o a fs = (.ok (o.unified (o.dumps d1) (o.dumps d2) (a.file1.dir ++ lit "/" ++ a.file1.name)
        (a.file2.dir ++ lit "/" ++ a.file2.name)), [])) ∧
    ((∃ l, (diffvfb C o a fs).1 = .ok l) ↔
      (∃ d, saveJson C {} (fileOf m1 es1 ++ t1) = .ok d) ∧ ∃ d, saveJson C {} (fileOf m2 es2 ++ t2) = .ok d) := by
  obtain ⟨v1, p1, q1⟩ := read_again C hs m1 es1 t1 ht1 hr1 hm1
  obtain ⟨v2, p2, q2⟩ := read_again C hs m2 es2 t2 ht2 hr2 hm2
  have hfonts : diffFonts C a fs = (decompileFont C v1 >>= fun w1 => decompileFont C v2 >>= fun w2 => .ok (w1, w2)) := by
    unfold diffFonts
    rw [readPath_bytes C hf1 p1]
    change (readPath C fs a.file2 {} >>= _) = _
    rw [readPath_bytes C hf2 p2]
    change (readPath C fs a.file1 v1 >>= _) = _
    rw [readPath_bytes C hf1 q1]
    change (readPath C fs a.file2 v2 >>= _) = _
    rw [readPath_bytes C hf2 q2]
    rfl
  have hjson : ∀ (file : Bytes) (v : Vfb D T), Vfb.readBytes C {} file = (.ok (), v) →
      (∀ w, decompileFont C v = .ok w → saveJson C {} file = .ok w.asDict) ∧ (∀ e, decompileFont C v = .error e → ∀ d, saveJson C {} file ≠ .ok d) := by
    intro file v hv
    unfold saveJson decompileFont
    rw [show Vfb.readBytes C { only_header := ({} : JsonOpts).only_header, force_unicode_strings := ({} : JsonOpts).unicode_strings } file = (.ok (), v) from hv]
    dsimp only
    constructor
    · intro w hw
      rcases hd : v.decompile C with ⟨r, w'⟩
      rw [hd] at hw
      cases r with
      | error e => cases hw
      | ok u =>
        cases hw
        change ((jsonRoundtrip C {} v >>= fun v => jsonDecompile C {} v >>= fun v => .ok v.asDict) = _)
        have : jsonRoundtrip C {} v = .ok v := rfl
        rw [this]
        change ((jsonDecompile C {} v >>= fun v => .ok v.asDict) = _)
        unfold jsonDecompile
        rw [if_neg (by decide), hd]
        rfl
    · intro e hw d hcon
      rcases hd : v.decompile C with ⟨r, w'⟩
      rw [hd] at hw
      cases r with
      | ok u => cases hw
      | error x =>
        replace hcon : ((jsonRoundtrip C {} v >>= fun v => jsonDecompile C {} v >>= fun v => .ok v.asDict) = .ok d) := hcon
        have : jsonRoundtrip C {} v = .ok v := rfl
        rw [this] at hcon
        replace hcon : ((jsonDecompile C {} v >>= fun v => .ok v.asDict) = .ok d) := hcon
        unfold jsonDecompile at hcon
        rw [if_neg (by decide), hd] at hcon
        cases hcon
  obtain ⟨j1, k1⟩ := hjson _ _ p1
  obtain ⟨j2, k2⟩ := hjson _ _ p2
  unfold diffvfb
  rw [hfonts]
  cases h1 : decompileFont C v1 with
  | error e =>
    constructor
    · intro d1 d2 hd1
      exact absurd hd1 (k1 e h1 d1)
    · constructor
      · rintro ⟨l, hl⟩
        cases hl
      · rintro ⟨⟨d, hd⟩, -⟩
        exact absurd hd (k1 e h1 d)
  | ok w1 =>
    cases h2 : decompileFont C v2 with
    | error e =>
      constructor
      · intro d1 d2 _ hd2
        exact absurd hd2 (k2 e h2 d2)
      · constructor
        · rintro ⟨l, hl⟩
          cases hl
        · rintro ⟨-, d, hd⟩
          exact absurd hd (k2 e h2 d)
    | ok w2 =>
      constructor
      · intro d1 d2 hd1 hd2
        rw [j1 w1 h1] at hd1
        rw [j2 w2 h2] at hd2
        cases hd1
        cases hd2
        change (match a.html with
          | some p => _
          | none => _) = _
        rw [ha]
        rfl
      · constructor
        · intro _
          exact ⟨⟨_, j1 w1 h1⟩, _, j2 w2 h2⟩
        · intro _
          refine ⟨o.unified (o.dumps w1.asDict) (o.dumps w2.asDict) a.file1.str a.file2.str, ?_⟩
          change (match a.html with
            | some p => _
            | none => (Except.ok (o.unified (o.dumps w1.asDict) (o.dumps w2.asDict) a.file1.str a.file2.str), _)).1 = _
          rw [ha]

/-- **C95** Nothing is printed exactly if the headers are the same and the entries are, one by one: the same id, and the same data — if different
documents have different JSON texts.  Bytes after the end entry do not matter, nor do different payloads for the same data. -/
theorem C95_same (C : Codec D T) (hs : SpecialFixed C) (o : DiffOps D) (hinj : ∀ d d' : VfbDict D, o.dumps d = o.dumps d' → d = d') (a : DiffArgs)
    (fs : Files ASM) (ha : a.html = none)
    (m1 m2 : UInt8) (es1 es2 : List (Nat × Bytes)) (t1 t2 : Bytes)
    (hf1 : fs a.file1 = some (.bytes (fileOf m1 es1 ++ t1))) (hf2 : fs a.file2 = some (.bytes (fileOf m2 es2 ++ t2)))
    (ht1 : Terminated es1) (ht2 : Terminated es2) (hr1 : Readable C false {} es1) (hr2 : Readable C false {} es2)
    (hm1 : MastersFirst es1) (hm2 : MastersFirst es2) (l : List PyStr) (hl : (diffvfb C o a fs).1 = .ok l) :
    l = [] ↔ m1 = m2 ∧ List.Forall₂ (fun p q => p.1 = q.1 ∧ ∃ d, parseEntry (C.parse p.1 (ctxAll C false {} es1)) p.2 = .ok d ∧
      parseEntry (C.parse q.1 (ctxAll C false {} es2)) q.2 = .ok d) es1 es2 := by
  obtain ⟨h1, h2⟩ := C95_compares C hs o a fs ha m1 m2 es1 es2 t1 t2 hf1 hf2 ht1 ht2 hr1 hr2 hm1 hm2
  obtain ⟨⟨d1, hd1⟩, d2, hd2⟩ := h2.1 ⟨l, hl⟩
  rw [h1 d1 d2 hd1 hd2] at hl
  cases hl
  rw [o.same]
  obtain ⟨i1, i2⟩ := (C88_complete C hs {} m1 es1 t1 rfl rfl rfl ht1 hr1).1 d1 hd1
  obtain ⟨i3, i4⟩ := (C88_complete C hs {} m2 es2 t2 rfl rfl rfl ht2 hr2).1 d2 hd2
  rw [show jsonCtx C {} es1 = ctxAll C false {} es1 from rfl] at i2
  rw [show jsonCtx C {} es2 = ctxAll C false {} es2 from rfl] at i4
  obtain ⟨dh1, de1⟩ := d1
  obtain ⟨dh2, de2⟩ := d2
  dsimp only at i1 i2 i3 i4
  generalize ctxAll C false {} es1 = c1 at *
  generalize ctxAll C false {} es2 = c2 at *
  have hent : de1 = de2 ↔ List.Forall₂ (fun p q => p.1 = q.1 ∧ ∃ d, parseEntry (C.parse p.1 c1) p.2 = .ok d ∧
      parseEntry (C.parse q.1 c2) q.2 = .ok d) es1 es2 := by
    clear hd1 hd2 h1 h2 hf1 hf2 ht1 ht2 hr1 hr2 hm1 hm2 i1 i3
    constructor
    · rintro rfl
      induction i2 generalizing es2 with
      | nil => cases i4; exact .nil
      | cons h _ ih =>
        cases i4 with
        | cons k ks =>
          refine .cons ?_ (ih _ ks)
          obtain ⟨d, hd, rfl⟩ := h
          obtain ⟨d', hd', he⟩ := k
          injection he with e1 e2 e3
          injection e3 with e3
          have := C88_keys _ _ e1
          exact ⟨this, d, hd, by rw [e3]; exact hd'⟩
    · intro h
      induction h generalizing de1 de2 with
      | nil =>
        cases i2
        cases i4
        rfl
      | cons h _ ih =>
        cases i2 with
        | cons k ks =>
          cases i4 with
          | cons k' ks' =>
            obtain ⟨e1, d, e2, e3⟩ := h
            obtain ⟨x, hx, rfl⟩ := k
            obtain ⟨y, hy, rfl⟩ := k'
            rw [e2] at hx
            rw [e3] at hy
            cases hx
            cases hy
            rw [e1, ih _ _ ks ks']
  rw [← hent]
  constructor
  · intro h
    have := hinj _ _ h
    injection this with e1 e2
    refine ⟨?_, e2⟩
    rw [i1, i3] at e1
    injection e1 with e1
    injection e1 with _ _ _ _ e1
    exact UInt8.toNat_inj.1 (by omega)
  · rintro ⟨rfl, rfl⟩
    rw [i1, i3]

/-- **C95** Without `--html` nothing is written.  With it, one file is written, and nothing printed, if both fonts can be decompiled; it replaces whatever was
at its path.  (Known defect: `difflib` gets the text of the whole list, and not the list of lines, as its documents.) -/
theorem C95_html (C : Codec D T) (o : DiffOps D) (a : DiffArgs) (fs : Files ASM) :
    (a.html = none → (diffvfb C o a fs).2 = []) ∧
    (∀ p, a.html = some p → (∃ e, diffvfb C o a fs = (.error e, [])) ∨ ∃ v1 v2, diffFonts C a fs = .ok (v1, v2) ∧
      diffvfb C o a fs = (.ok [], [(p, .bytes (o.html (o.str (o.dumps v1.asDict)) (o.str (o.dumps v2.asDict)) (a.file1.dir ++ lit "/" ++ a.file1.name)
        (a.file2.dir ++ lit "/" ++ a.file2.name)))])) := by
  unfold diffvfb
  cases h : diffFonts C a fs with
  | error e => exact ⟨fun _ => rfl, fun p _ => .inl ⟨e, rfl⟩⟩
  | ok v =>
    obtain ⟨v1, v2⟩ := v
    constructor
    · intro ha
      dsimp only
      rw [ha]
    · intro p ha
      right
      refine ⟨v1, v2, rfl, ?_⟩
      dsimp only
      rw [ha]
      rfl

/-! ## The hypotheses can be met -/

def exampleDiffOps : DiffOps (Decompiled exampleAngles.Angle exampleAsm.Asm) where
  dumps d := d.entries.map EntryDict.key
  unified a b _ _ := if a = b then [] else [lit "---"]
  html _ _ _ _ := []
  str l := l.flatten
  same a b _ _ := by split <;> simp [*]

theorem exampleFile_mastersFirst : MastersFirst exampleFile := by
  intro pre p post he hp
  exfalso
  have : p ∈ exampleFile := by
    rw [he]
    simp
  revert hp
  have hall : ∀ p ∈ exampleFile, p.1 ≠ 1410 := by decide
  exact hall p this

example : MastersFirst [(1503, [2, 0]), (1410, List.replicate 12 0), (2, [])] := by
  intro pre p post he hp
  cases pre with
  | nil =>
    cases he
    cases hp
  | cons q pre =>
    injection he with h1 h2
    exact ⟨q, List.mem_cons_self, by rw [← h1]⟩

example : (diffvfb (vfbCodec exampleAngles exampleAsm) exampleDiffOps ⟨⟨lit "/f", lit "A.vfb"⟩, ⟨lit "/f", lit "A.vfb"⟩, none⟩ exampleDisk).1 =
    .ok [] := by decide +kernel

/-- **C95** (Known defect.) A file in which a kerning pair precedes the number of masters is read differently the second time, so the command does not
compare what is in the file. -/
theorem C95_reads_twice_defect : ∃ es : List (Nat × Bytes), Terminated es ∧ Readable (vfbCodec exampleAngles exampleAsm) false {} es ∧
    ∃ v w, Vfb.readBytes (vfbCodec exampleAngles exampleAsm) {} (fileOf 5 es) = (.ok (), v) ∧
    v.readBytes (vfbCodec exampleAngles exampleAsm) (fileOf 5 es) = (.ok (), w) ∧
    v.entries.map Entry.id = es.map (fun p => (p.1 : Int)) ∧ w.entries.map Entry.id ≠ es.map (fun p => (p.1 : Int)) := by
  have h : ∀ es, (Vfb.readBytes (vfbCodec exampleAngles exampleAsm) (T := List MasterData) {} (fileOf 5 es)).1 = .ok () →
      ((Vfb.readBytes (vfbCodec exampleAngles exampleAsm) (T := List MasterData) {} (fileOf 5 es)).2.readBytes (vfbCodec exampleAngles exampleAsm)
        (fileOf 5 es)).1 = .ok () →
      ∃ v w, Vfb.readBytes (vfbCodec exampleAngles exampleAsm) {} (fileOf 5 es) = (.ok (), v) ∧
        v.readBytes (vfbCodec exampleAngles exampleAsm) (fileOf 5 es) = (.ok (), w) ∧
        v = (Vfb.readBytes (vfbCodec exampleAngles exampleAsm) {} (fileOf 5 es)).2 ∧
        w = ((Vfb.readBytes (vfbCodec exampleAngles exampleAsm) {} (fileOf 5 es)).2.readBytes (vfbCodec exampleAngles exampleAsm) (fileOf 5 es)).2 := by
    intro es h1 h2
    exact ⟨_, _, Prod.ext h1 rfl, Prod.ext h2 rfl, rfl, rfl⟩
  refine ⟨[(1410, [0, 0, 0, 0, 0, 0, 0, 0]), (1503, [2, 0]), (2, [])], ⟨[(1410, [0, 0, 0, 0, 0, 0, 0, 0]), (1503, [2, 0])], [], rfl, by decide⟩,
    ⟨by decide, by decide, fun _ => rfl, fun h => absurd h (by decide), by decide, by decide, fun h => absurd h (by decide), fun _ => ⟨.int 2, rfl⟩,
      by decide, by decide, fun h => absurd h (by decide), fun h => absurd h (by decide), trivial⟩, ?_⟩
  obtain ⟨v, w, h1, h2, h3, h4⟩ := h [(1410, [0, 0, 0, 0, 0, 0, 0, 0]), (1503, [2, 0]), (2, [])] (by decide +kernel) (by decide +kernel)
  refine ⟨v, w, h1, h2, ?_, ?_⟩
  · rw [h3]
    decide +kernel
  · rw [h4]
    decide +kernel

end Verif.Props
