import Verif.Props.Encoding
import Verif.Props.EndToEnd
import Verif.Props.UfoParts
import Verif.Props.AnyFileTools
import Verif.Props.Commands
import Verif.Props.DiffFiles
/-! C108: what the tools make of a font that has been decompiled and saved again. -/
set_option autoImplicit false
namespace Verif.Props
open Verif Verif.Spec

section
variable (ops : AngleOps) (deg : ops.Angle → Rat) (asm : AsmOps) (fmt : Int → PyStr)

theorem ctxAfter_alike (f f' : Bool) (p : Nat × Bytes) {c c' : Ctx} (h : CtxAlike c c') :
    CtxAlike (ctxAfter (vfbCodec ops asm) f c p) (ctxAfter (vfbCodec ops asm) f' c' p) := by
  unfold ctxAfter
  rw [parse_alike ops asm p.1 h]
  by_cases hs : isSpecial p.1 = true
  · rw [if_pos hs, if_pos hs]
    cases parseEntry ((vfbCodec ops asm).parse p.1 c) p.2 with
    | error e => exact h
    | ok d => exact noteCtx_alike ops asm f f' p.1 d h
  · rw [if_neg hs, if_neg hs]
    exact h

theorem ctxAll_alike (f f' : Bool) (es : List (Nat × Bytes)) {c c' : Ctx} (h : CtxAlike c c') :
    CtxAlike (ctxAll (vfbCodec ops asm) f c es) (ctxAll (vfbCodec ops asm) f' c' es) := by
  induction es generalizing c c' with
  | nil => exact h
  | cons p es ih => exact ih (ctxAfter_alike ops asm f f' p h)

theorem readable_alike (f f' : Bool) (es : List (Nat × Bytes)) {c c' : Ctx} (h : CtxAlike c c') (hr : Readable (vfbCodec ops asm) f c es) :
    Readable (vfbCodec ops asm) f' c' es := by
  induction es generalizing c c' with
  | nil => trivial
  | cons p es ih =>
    obtain ⟨r1, r2, r3, r4, r5⟩ := hr
    exact ⟨r1, r2, by rw [h.masters]; exact r3, by rw [parse_alike ops asm p.1 h]; exact r4, ih (ctxAfter_alike ops asm f f' p h) r5⟩

theorem alike_refl (c : Ctx) : CtxAlike c c := ⟨rfl, rfl, rfl, rfl⟩

theorem pieceOk_alike {c c' : Ctx} (h : CtxAlike c c') {x : Piece (Decompiled ops.Angle asm.Asm)} (hx : x.Ok (vfbCodec ops asm) c) :
    x.Ok (vfbCodec ops asm) c' := by
  obtain ⟨comp, h1, h2⟩ := hx.comp
  exact ⟨by rw [parse_alike ops asm x.id h]; exact hx.old, ⟨comp, h1, by rw [compile_alike ops asm h1 h]; exact h2⟩,
    by rw [parse_alike ops asm x.id h]; exact hx.new, hx.len⟩

/-- what is known about the copy: it consists of the same entries with other payloads for the same data -/
theorem saved_pieces (f : Bool) (minor : UInt8) (es : List (Nat × Bytes)) (tail : Bytes) (ht : Terminated es)
    (hr : Readable (vfbCodec ops asm) f {} es) (hn : ∀ p ∈ es, p.1 ≠ 1410)
    (hst : ∀ p ∈ es, EntryStable (vfbCodec ops asm) (ctxAll (vfbCodec ops asm) f {} es) p) :
    ∃ (l : List (Piece (Decompiled ops.Angle asm.Asm))) (v1 v2 v3 : Vfb (Decompiled ops.Angle asm.Asm) (List MasterData)),
      es = l.map (fun x => (x.id, x.old)) ∧
      Vfb.readBytes (vfbCodec ops asm) { force_unicode_strings := f } (fileOf minor es ++ tail) = (.ok (), v1) ∧
      v1.decompile (vfbCodec ops asm) = (.ok (), v2) ∧
      v2.writeBytes (vfbCodec ops asm) = (.ok (), fileOf minor (l.map fun x => (x.id, x.new)), v3) ∧
      Terminated (l.map fun x => (x.id, x.new)) ∧ (∀ x ∈ l, x.id ≠ 1410) ∧
      ∀ f', Readable (vfbCodec ops asm) f' {} (l.map fun x => (x.id, x.old)) ∧ Readable (vfbCodec ops asm) f' {} (l.map fun x => (x.id, x.new)) ∧
        ctxAll (vfbCodec ops asm) f' {} (l.map fun x => (x.id, x.old)) = ctxAll (vfbCodec ops asm) f' {} (l.map fun x => (x.id, x.new)) ∧
        ∀ x ∈ l, x.Ok (vfbCodec ops asm) (ctxAll (vfbCodec ops asm) f' {} (l.map fun x => (x.id, x.old))) := by
  have hs := vfb_special_fixed ops asm
  obtain ⟨l, rfl, hok⟩ := pieces _ _ es hst
  have hn' : ∀ x ∈ l, x.id ≠ 1410 := fun x hx => hn _ (List.mem_map.2 ⟨x, hx, rfl⟩)
  have hlt : ∀ x ∈ l, x.id < 32768 := by
    have : ∀ (l : List (Nat × Bytes)) ctx, Readable (vfbCodec ops asm) f ctx l → ∀ p ∈ l, p.1 < 32768 := by
      intro l
      induction l with
      | nil => simp
      | cons q l ih =>
        intro ctx h p hp
        rcases List.mem_cons.1 hp with rfl | hp
        · exact h.1
        · exact ih _ h.2.2.2.2 p hp
    intro x hx
    exact this _ _ hr (x.id, x.old) (List.mem_map.2 ⟨x, hx, rfl⟩)
  obtain ⟨v1, hv1, hd1⟩ := read_decompile _ hs { force_unicode_strings := f } minor l Piece.old rfl rfl ht hr (fun x hx => (hok x hx).old)
  have hv1' : Vfb.readBytes (vfbCodec ops asm) { force_unicode_strings := f } (fileOf minor (l.map fun x => (x.id, x.old)) ++ tail) = (.ok (), v1) := by
    have e0 := read_file (vfbCodec ops asm) { force_unicode_strings := f } minor _ [] rfl ht hr
    rw [List.append_nil, hv1] at e0
    rw [read_file (vfbCodec ops asm) { force_unicode_strings := f } minor _ tail rfl ht hr, e0]
  obtain ⟨v3, hw⟩ := write_ok (vfbCodec ops asm) {
        force_unicode_strings := f
        header := .dec (headerDict minor)
        ctx := ctxAll (vfbCodec ops asm) f {} (l.map fun x => (x.id, x.old))
        entries := l.map Piece.entry
        any_errors := false } minor (l.map fun x => (x.entry, (x.id, x.new))) rfl (by simp [Function.comp_def]) (by
    intro y hy
    obtain ⟨x, hx, rfl⟩ := List.mem_map.1 hy
    exact ⟨rfl, rfl, rfl, (hok x hx).comp, hlt x hx, (hok x hx).len⟩)
  simp only [List.map_map, Function.comp_def] at hw
  refine ⟨l, v1, _, v3, rfl, hv1', hd1, hw, terminated_map l Piece.old Piece.new ht, hn', fun f' => ?_⟩
  have hro := readable_alike ops asm f f' _ (alike_refl {}) hr
  have hok' : ∀ x ∈ l, x.Ok (vfbCodec ops asm) (ctxAll (vfbCodec ops asm) f' {} (l.map fun x => (x.id, x.old))) :=
    fun x hx => pieceOk_alike ops asm (ctxAll_alike ops asm f f' _ (alike_refl {})) (hok x hx)
  exact ⟨hro, pieces_readable _ hs f' _ l hok' hn' {} hro, pieces_ctx _ hs f' _ l hok' {}, hok'⟩

theorem decoded_pieces {c : Ctx} {l : List (Piece (Decompiled ops.Angle asm.Asm))} (h : ∀ x ∈ l, x.Ok (vfbCodec ops asm) c) :
    List.Forall₂ (Decoded ops asm c) (keptEntries (l.map fun x => (x.id, x.old)))
      ((l.filter fun x => decide (x.id ≠ 1500 ∧ x.id ≠ 1501)).map fun x => ((x.id : Int), some x.d)) ∧
    List.Forall₂ (Decoded ops asm c) (keptEntries (l.map fun x => (x.id, x.new)))
      ((l.filter fun x => decide (x.id ≠ 1500 ∧ x.id ≠ 1501)).map fun x => ((x.id : Int), some x.d)) := by
  induction l with
  | nil => exact ⟨.nil, .nil⟩
  | cons x l ih =>
    obtain ⟨h1, h2⟩ := ih fun y hy => h y (List.mem_cons_of_mem _ hy)
    have hx := h x List.mem_cons_self
    unfold keptEntries at *
    by_cases hp : x.id ≠ 1500 ∧ x.id ≠ 1501
    · rw [List.map_cons, List.map_cons, List.filter_cons_of_pos (by simpa using hp), List.filter_cons_of_pos (by simpa using hp),
        List.filter_cons_of_pos (by simpa using hp)]
      exact ⟨.cons ⟨rfl, x.d, hx.old, rfl⟩ h1, .cons ⟨rfl, x.d, hx.new, rfl⟩ h2⟩
    · rw [List.map_cons, List.map_cons, List.filter_cons_of_neg (by simpa using hp), List.filter_cons_of_neg (by simpa using hp),
        List.filter_cons_of_neg (by simpa using hp)]
      exact ⟨h1, h2⟩

/-- **C108** Saving a font again does not change what the tools make of it.  Let a VFB file (any version, any entries without FontLab 3
kerning pairs, anything after the end entry) be read and decompiled, and let the data of each entry be such that what is written for
them is parsed as the same data.  Then the font can be written, and for the new file `out`
* `vfb3ufo`, with any options on any disk, ends in the same way and writes the same files in the same order,
* the document for `vfb2json` is the same (unless the entries are to be exported in binary),
* `vfb2tth` writes the same text, or fails for both,
* `diffvfb` says that there is no difference. -/
theorem C108_saved_copy (f : Bool) (minor : UInt8) (es : List (Nat × Bytes)) (tail : Bytes) (ht : Terminated es)
    (hr : Readable (vfbCodec ops asm) f {} es) (hn : ∀ p ∈ es, p.1 ≠ 1410)
    (hst : ∀ p ∈ es, EntryStable (vfbCodec ops asm) (ctxAll (vfbCodec ops asm) f {} es) p) :
    ∃ v1 v2 out v3, Vfb.readBytes (vfbCodec ops asm) { force_unicode_strings := f } (fileOf minor es ++ tail) = (.ok (), v1) ∧
      v1.decompile (vfbCodec ops asm) = (.ok (), v2) ∧ v2.writeBytes (vfbCodec ops asm) = (.ok (), out, v3) ∧
      (∀ (a : UfoArgs) (depth : Nat) (fs : Files asm.Asm), fs a.input = some (.bytes (fileOf minor es ++ tail)) →
        vfb3ufo ops deg asm fmt a depth (fs.set a.input (.bytes out)) = vfb3ufo ops deg asm fmt a depth fs) ∧
      (∀ o : JsonOpts, o.only_header = false → (o.no_decompile = false ∨ o.roundtrip = true) →
        saveJson (vfbCodec ops asm) o out = saveJson (vfbCodec ops asm) o (fileOf minor es ++ tail)) ∧
      (∀ (dumps : TthFormat → TthExport → Except PyErr Bytes) (a : TthArgs) (fs : Disk) (text : Bytes), fs a.input = some (fileOf minor es ++ tail) →
        ((∃ g, vfb2tth ops asm dumps a fs = (.ok (), g) ∧ g a.out = some text) ↔
          ∃ g, vfb2tth ops asm dumps a (fs.put a.input out) = (.ok (), g) ∧ g a.out = some text)) ∧
      (∀ (o : DiffOps (Decompiled ops.Angle asm.Asm)) (a : DiffArgs) (fs : Files asm.Asm), a.html = none →
        fs a.file1 = some (.bytes (fileOf minor es ++ tail)) → fs a.file2 = some (.bytes out) → diffvfb (vfbCodec ops asm) o a fs = (.ok [], [])) := by
  have hs := vfb_special_fixed ops asm
  obtain ⟨l, v1, v2, v3, rfl, h1, h2, h3, ht', hn', h4⟩ := saved_pieces ops asm f minor es tail ht hr hn hst
  have hjson : ∀ o : JsonOpts, o.only_header = false → (o.no_decompile = false ∨ o.roundtrip = true) →
        saveJson (vfbCodec ops asm) o (fileOf minor (l.map fun x => (x.id, x.new))) =
        saveJson (vfbCodec ops asm) o (fileOf minor (l.map fun x => (x.id, x.old)) ++ tail) := by
    intro o ho hopt
    obtain ⟨r1, r2, r3, r4⟩ := h4 o.unicode_strings
    obtain ⟨w1, a1, a2⟩ := read_decompile _ hs { only_header := o.only_header, force_unicode_strings := o.unicode_strings } minor l Piece.old
      ho rfl ht r1 (fun x hx => (r4 x hx).old)
    obtain ⟨w2, b1, b2⟩ := read_decompile _ hs { only_header := o.only_header, force_unicode_strings := o.unicode_strings } minor l Piece.new
      ho rfl ht' r2 (fun x hx => by rw [← r3]; exact (r4 x hx).new)
    have a1' : Vfb.readBytes (vfbCodec ops asm) { only_header := o.only_header, force_unicode_strings := o.unicode_strings }
        (fileOf minor (l.map fun x => (x.id, x.old)) ++ tail) = (.ok (), w1) := by
      have e0 := read_file (vfbCodec ops asm) { only_header := o.only_header, force_unicode_strings := o.unicode_strings } minor _ [] ho ht r1
      rw [List.append_nil, a1] at e0
      rw [read_file (vfbCodec ops asm) { only_header := o.only_header, force_unicode_strings := o.unicode_strings } minor _ tail ho ht r1, e0]
    rw [← r3] at b2
    have hd : w2.decompile (vfbCodec ops asm) = w1.decompile (vfbCodec ops asm) := b2.trans a2.symm
    unfold saveJson
    rw [a1', b1]
    dsimp only
    by_cases hrt : o.roundtrip = true
    · have : jsonRoundtrip (vfbCodec ops asm) o w2 = jsonRoundtrip (vfbCodec ops asm) o w1 := by
        simp only [jsonRoundtrip, if_pos hrt, hd]
      rw [this]
    · have hnd : o.no_decompile = false := hopt.resolve_right hrt
      have e1 : ∀ w : Vfb (Decompiled ops.Angle asm.Asm) (List MasterData), jsonRoundtrip (vfbCodec ops asm) o w = .ok w := by
        intro w
        unfold jsonRoundtrip
        rw [if_neg hrt]
      have e2 : jsonDecompile (vfbCodec ops asm) o w2 = jsonDecompile (vfbCodec ops asm) o w1 := by
        simp only [jsonDecompile, hnd, Bool.false_eq_true, if_false, hd]
      rw [e1, e1]
      show (jsonDecompile (vfbCodec ops asm) o w2 >>= _) = (jsonDecompile (vfbCodec ops asm) o w1 >>= _)
      rw [e2]
  refine ⟨v1, v2, _, v3, h1, h2, h3, ?_, hjson, ?_, ?_⟩
  · intro a depth fs hf
    obtain ⟨r1, r2, r3, r4⟩ := h4 a.unicode_strings
    obtain ⟨d1, d2⟩ := decoded_pieces ops asm r4
    have q1 := (C90_read ops asm a minor _ tail ht r1 _).2 d1
    have q2 := (C90_read ops asm a minor _ [] ht' r2 ((l.filter fun x => decide (x.id ≠ 1500 ∧ x.id ≠ 1501)).map fun x => ((x.id : Int), some x.d))).2
      (by unfold fileCtx; rw [← r3]; exact d2)
    rw [List.append_nil] at q2
    have hset : (fs.set a.input (.bytes (fileOf minor (l.map fun x => (x.id, x.new))))) a.input =
        some (.bytes (fileOf minor (l.map fun x => (x.id, x.new)))) := by
      unfold Files.set
      rw [if_pos rfl]
    unfold vfb3ufo
    rw [hset, hf]
    simp only [q1, q2]
    cases (Except.ok _ >>= ufosDesignspace ops deg asm fmt a depth : Except PyErr (List (UfoFont asm.Asm) × Option DsDoc)) with
    | error e => rfl
    | ok r =>
      refine writeSteps_exists asm a r.1 r.2 0 _ _ fun p => ?_
      unfold Files.set
      by_cases hp : p = a.input
      · rw [if_pos hp, hp, hf]
        rfl
      · rw [if_neg hp]
  · intro dumps a fs text hf
    obtain ⟨r1, r2, r3, r4⟩ := h4 true
    have hput : (fs.put a.input (fileOf minor (l.map fun x => (x.id, x.new)))) a.input = some (fileOf minor (l.map fun x => (x.id, x.new)) ++ []) := by
      unfold Disk.put
      rw [if_pos rfl, List.append_nil]
    have hseen : ∀ m, List.Forall₂ (SeenBy ops asm (tthCtx ops asm (l.map fun x => (x.id, x.old)))) (l.map fun x => (x.id, x.old)) m ↔
        List.Forall₂ (SeenBy ops asm (tthCtx ops asm (l.map fun x => (x.id, x.new)))) (l.map fun x => (x.id, x.new)) m := by
      intro m
      unfold tthCtx
      rw [← r3]
      generalize ctxAll (vfbCodec ops asm) true {} (l.map fun x => (x.id, x.old)) = c at r4
      clear h1 h2 h3 h4 r1 r2 r3 ht ht' hn hn' hst hr hput hf hjson
      rw [List.forall₂_map_left_iff, List.forall₂_map_left_iff]
      induction l generalizing m with
      | nil => exact ⟨fun h => by cases h; exact .nil, fun h => by cases h; exact .nil⟩
      | cons x l ih =>
        have hx := r4 x List.mem_cons_self
        have ih' := fun m => ih m fun y hy => r4 y (List.mem_cons_of_mem _ hy)
        cases m with
        | nil => exact ⟨fun h => (by cases h), fun h => (by cases h)⟩
        | cons t m =>
          have : SeenBy ops asm c (x.id, x.old) t ↔ SeenBy ops asm c (x.id, x.new) t := by
            unfold SeenBy
            dsimp only
            rw [hx.old, hx.new]
          constructor
          · rintro (_ | ⟨a, b⟩)
            exact .cons (this.1 a) ((ih' m).1 b)
          · rintro (_ | ⟨a, b⟩)
            exact .cons (this.2 a) ((ih' m).2 b)
    constructor
    · rintro ⟨g, g1, g2⟩
      obtain ⟨m, x, tx, x1, x2, x3, x4⟩ := (C97_success ops asm dumps a fs g minor _ tail ht r1 hf).1 g1
      refine ⟨fun p => if p = a.out then some tx else (fs.put a.input (fileOf minor (l.map fun x => (x.id, x.new)))) p,
        (C97_success ops asm dumps a _ _ minor _ [] ht' r2 hput).2 ⟨m, x, tx, (hseen m).1 x1, x2, x3, fun p => rfl⟩, ?_⟩
      rw [x4, if_pos rfl] at g2
      dsimp only
      rw [if_pos rfl, g2]
    · rintro ⟨g, g1, g2⟩
      obtain ⟨m, x, tx, x1, x2, x3, x4⟩ := (C97_success ops asm dumps a _ g minor _ [] ht' r2 hput).1 g1
      refine ⟨fun p => if p = a.out then some tx else fs p,
        (C97_success ops asm dumps a _ _ minor _ tail ht r1 hf).2 ⟨m, x, tx, (hseen m).2 x1, x2, x3, fun p => rfl⟩, ?_⟩
      rw [x4, if_pos rfl] at g2
      dsimp only
      rw [if_pos rfl, g2]
  · intro o a fs ha hf1 hf2
    obtain ⟨r1, r2, r3, r4⟩ := h4 false
    have hm : ∀ g : Piece (Decompiled ops.Angle asm.Asm) → Bytes, MastersFirst (l.map fun x => (x.id, g x)) := by
      intro g pre p post he hp
      have : p ∈ l.map fun x => (x.id, g x) := by rw [he]; simp
      obtain ⟨x, hx, rfl⟩ := List.mem_map.1 this
      exact absurd hp (hn' x hx)
    obtain ⟨c1, -⟩ := C95_compares (vfbCodec ops asm) hs o a fs ha minor minor _ _ tail [] hf1 (by rw [List.append_nil]; exact hf2) ht ht' r1 r2
      (hm Piece.old) (hm Piece.new)
    obtain ⟨d1, hd1⟩ := (C88_complete (vfbCodec ops asm) hs {} minor _ tail rfl rfl rfl ht r1).2.2 (by
      intro p hp
      obtain ⟨x, hx, rfl⟩ := List.mem_map.1 hp
      exact ⟨x.d, (r4 x hx).old⟩)
    rw [c1 d1 d1 hd1 (by rw [List.append_nil, hjson {} rfl (.inl rfl)]; exact hd1)]
    rw [(o.same _ _ _ _).2 rfl]

theorem sameData_eq {k : Kind} (h1 : k ≠ .ttInfo) (h2 : k ≠ .ttDeltas) (h3 : k ≠ .kernPair) (a b : (k.cls ops asm).Ty)
    (h : SameData ((k.cls ops asm).inj a) ((k.cls ops asm).inj b)) : (k.cls ops asm).inj b = (k.cls ops asm).inj a := by
  cases k
  case ttInfo => exact absurd rfl h1
  case ttDeltas => exact absurd rfl h2
  case kernPair => exact absurd rfl h3
  all_goals exact h.symm

/-- **C108** The condition of `C108_saved_copy` is met by every entry of a known id whose data are not among the exceptions of C15, except
that for TrueType info and zone deltas it must be added that the items come back in the same order. -/
theorem C108_entries (hr : ∀ v, IsInt32 v → IsInt32 (ops.fromAngle (ops.toAngle v))) (c : Ctx) (p : Nat × Bytes) (hl : p.2.length < 2147483648)
    (k : Kind) (d : Decompiled ops.Angle asm.Asm) (hk : kindOf p.1 = some k) (hd : parseEntry ((vfbCodec ops asm).parse p.1 c) p.2 = .ok d)
    (hsv : Survives ops asm c k d) (hlen : ∀ b, k.compileData ops asm c (some d) = .ok b → b.length < 4294967296)
    (ho : k = .ttInfo ∨ k = .ttDeltas → ∀ b d', k.compileData ops asm c (some d) = .ok b → parseEntry ((vfbCodec ops asm).parse p.1 c) b = .ok d' → d' = d) :
    EntryStable (vfbCodec ops asm) c p ∧ p.1 ≠ 1410 := by
  obtain ⟨comp, b, d', h1, h2, h3, h4⟩ := C15_entry_stable ops asm hr p.1 k hk c p.2 d hl hd hsv
  have hcomp : (vfbCodec ops asm).compile p.1 = some (k.compileData ops asm) := by
    show tableCompile ops asm p.1 = _
    unfold tableCompile
    rw [hk]
    rfl
  rw [hcomp] at h1
  injection h1 with h1
  subst h1
  have hkp : k ≠ .kernPair := by
    rintro rfl
    exact absurd hsv (by simp [Survives])
  have he : d' = d := by
    by_cases hc : k = .ttInfo ∨ k = .ttDeltas
    · exact ho hc b d' h2 h3
    · obtain ⟨x, rfl⟩ := parse_inj ops asm hk hd
      obtain ⟨y, rfl⟩ := parse_inj ops asm hk h3
      exact sameData_eq ops asm (fun e => hc (.inl e)) (fun e => hc (.inr e)) hkp x y h4
  subst he
  refine ⟨⟨d', _, b, hd, hcomp, h2, hlen b h2, h3⟩, fun e => hkp ?_⟩
  rw [e, show kindOf ((1410 : Nat) : Int) = some .kernPair by decide +kernel] at hk
  injection hk with hk
  exact hk.symm

end

/-! ### an example: a file with a number in a longer form than necessary is saved in another form -/

def exampleLongFile : List (Nat × Bytes) := (1068, [140, 255, 0, 0, 0, 5]) :: exampleMmFile

theorem exampleLongFile_readable : Readable (vfbCodec exampleAngles exampleAsm) false {} exampleLongFile :=
  ⟨by decide, by decide, by decide, fun h => absurd h (by decide), exampleMmFile_readable⟩

/-- the payload that is written for the data of an entry -/
def rewritten (c : Ctx) (p : Nat × Bytes) : Option Bytes :=
  (parseEntry ((vfbCodec exampleAngles exampleAsm).parse p.1 c) p.2).toOption.bind fun d =>
    ((vfbCodec exampleAngles exampleAsm).compile p.1).bind fun comp => (comp c (some d)).toOption

theorem stable_of_rewritten {c : Ctx} {p : Nat × Bytes} (h : rewritten c p = some p.2) (hl : p.2.length < 4294967296) :
    EntryStable (vfbCodec exampleAngles exampleAsm) c p := by
  unfold rewritten at h
  cases hd : parseEntry ((vfbCodec exampleAngles exampleAsm).parse p.1 c) p.2 with
  | error e => rw [hd] at h; cases h
  | ok d =>
    rw [hd] at h
    cases hc : (vfbCodec exampleAngles exampleAsm).compile p.1 with
    | none => rw [hc] at h; cases h
    | some comp =>
      rw [hc] at h
      replace h : (comp c (some d)).toOption = some p.2 := h
      cases hb : comp c (some d) with
      | error e => rw [hb] at h; cases h
      | ok b =>
        rw [hb] at h
        cases h
        exact ⟨d, comp, p.2, hd, hc, hb, hl, hd⟩

theorem exampleLongFile_stable : ∀ p ∈ exampleLongFile, EntryStable (vfbCodec exampleAngles exampleAsm)
    (ctxAll (vfbCodec exampleAngles exampleAsm) false {} exampleLongFile) p := by
  have hc : ctxAll (vfbCodec exampleAngles exampleAsm) false {} exampleLongFile = { num_masters := 2 } := by rfl
  rw [hc]
  intro p hp
  rcases List.mem_cons.1 hp with rfl | hp
  · exact ⟨.ints [5], _, [140, 144], rfl, rfl, rfl, by decide, rfl⟩
  · exact stable_of_rewritten ((by decide +kernel : ∀ p ∈ exampleMmFile, rewritten { num_masters := 2 } p = some p.2) p hp)
      ((by decide +kernel : ∀ p ∈ exampleMmFile, p.2.length < 4294967296) p hp)

/-- the hypotheses of C108 are met: the copy is another file, and is compared as equal -/
example : ∃ v1 v2 out v3, Vfb.readBytes (vfbCodec exampleAngles exampleAsm) {} (fileOf 5 exampleLongFile) = (.ok (), v1) ∧
    v1.decompile (vfbCodec exampleAngles exampleAsm) = (.ok (), v2) ∧ v2.writeBytes (vfbCodec exampleAngles exampleAsm) = (.ok (), out, v3) ∧
    ∀ fs : Files exampleAsm.Asm, fs ⟨lit "/f", lit "A.vfb"⟩ = some (.bytes (fileOf 5 exampleLongFile)) →
      fs ⟨lit "/f", lit "B.vfb"⟩ = some (.bytes out) → ∀ o : DiffOps (Decompiled exampleAngles.Angle exampleAsm.Asm),
      diffvfb (vfbCodec exampleAngles exampleAsm) o { file1 := ⟨lit "/f", lit "A.vfb"⟩, file2 := ⟨lit "/f", lit "B.vfb"⟩ } fs = (.ok [], []) := by
  obtain ⟨v1, v2, out, v3, h1, h2, h3, -, -, -, h4⟩ := C108_saved_copy exampleAngles (fun _ => 0) exampleAsm exampleFmt false 5 exampleLongFile []
    ⟨exampleLongFile.dropLast, [], rfl, by decide⟩ exampleLongFile_readable (by decide) exampleLongFile_stable
  rw [List.append_nil] at h1 h4
  exact ⟨v1, v2, out, v3, h1, h2, h3, fun fs f1 f2 o => h4 o _ fs rfl f1 f2⟩

end Verif.Props
