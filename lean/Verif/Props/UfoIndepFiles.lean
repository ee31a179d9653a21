import Verif.Props.UfoIndep
import Verif.Props.EndToEnd
import Verif.Props.UfoParts
/-! C107 for files. -/
set_option autoImplicit false
namespace Verif.Props
open Verif Verif.Spec

section
variable (ops : AngleOps) (deg : ops.Angle → Rat) (asm : AsmOps) (fmt : Int → PyStr)

/-- **C107** The same for the files that the command writes: if the entries of two VFB files, decoded, agree in master `k`, and the
command succeeds on both with the same arguments, the UFO of master `k` that is written is the same. -/
theorem C107_files (a : UfoArgs) (depth k : Nat) (fs fs' : Files asm.Asm) {stem : PyStr} (hn : a.input.name ≠ []) (hs : IsStem a.input.name stem)
    (minor minor' : UInt8) (es es' : List (Nat × Bytes)) (tail tail' : Bytes)
    (hf : fs a.input = some (.bytes (fileOf minor es ++ tail))) (hf' : fs' a.input = some (.bytes (fileOf minor' es' ++ tail')))
    (ht : Terminated es) (ht' : Terminated es')
    (hr : Readable (vfbCodec ops asm) a.unicode_strings {} es) (hr' : Readable (vfbCodec ops asm) a.unicode_strings {} es')
    (l l' : List (FEntry ops asm)) (hl : List.Forall₂ (Decoded ops asm (fileCtx ops asm a es)) (keptEntries es) l)
    (hl' : List.Forall₂ (Decoded ops asm (fileCtx ops asm a es')) (keptEntries es') l') (h : FontsAt ops asm k l l')
    (hok : (vfb3ufo ops deg asm fmt a depth fs).1 = .ok ()) (hok' : (vfb3ufo ops deg asm fmt a depth fs').1 = .ok ()) :
    ∃ ufos ufos', convert ops deg asm fmt (optsOf a) depth l = .ok ufos ∧ convert ops deg asm fmt (optsOf a) depth l' = .ok ufos' ∧
      ufos.length = ufos'.length ∧
      (k < ufos.length → ∃ x, contentAfter fs (vfb3ufo ops deg asm fmt a depth fs).2 (ufoFile a stem k) = some x ∧
        contentAfter fs' (vfb3ufo ops deg asm fmt a depth fs').2 (ufoFile a stem k) = some x) := by
  obtain ⟨m, ufos, ds, a1, -, a2, a3, -⟩ := C90_files ops deg asm fmt a depth fs hn hs minor es tail hf ht hr hok
  obtain ⟨m', ufos', ds', b1, -, b2, b3, -⟩ := C90_files ops deg asm fmt a depth fs' hn hs minor' es' tail' hf' ht' hr' hok'
  obtain rfl := decoded_unique ops asm a1 hl
  obtain rfl := decoded_unique ops asm b1 hl'
  obtain ⟨c1, c2⟩ := C107_master_alone h a2 b2
  refine ⟨ufos, ufos', a2, b2, c1, fun hk => ?_⟩
  have hu : ufos[k]? = some ufos[k] := List.getElem?_eq_getElem hk
  exact ⟨_, a3 k _ hu, b3 k _ (c2 ▸ hu)⟩

theorem decoded_kind {c : Ctx} {p : Nat × Bytes} {e : FEntry ops asm} (h : Decoded ops asm c p e) {k : Kind} (hk : kindOf p.1 = some k) :
    e.1 = p.1 ∧ ∃ x : (k.cls ops asm).Ty, e.2 = some ((k.cls ops asm).inj x) := by
  obtain ⟨h1, d, h2, h3⟩ := h
  refine ⟨h1, ?_⟩
  rw [h3]
  have h4 : parseEntry (tableParse ops asm p.1 c) p.2 = .ok d := h2
  have he : tableParse ops asm p.1 c = ((k.cls ops asm).parse c >>= fun a => pure ((k.cls ops asm).inj a)) := by
    unfold tableParse
    rw [hk]
  rw [he] at h4
  unfold parseEntry at h4
  cases hp : (k.cls ops asm).parse c p.2 with
  | err x r =>
    rw [R.bind_run, hp] at h4
    cases h4
  | ok a r =>
    rw [R.bind_run, hp] at h4
    cases r with
    | cons _ _ => cases h4
    | nil =>
      cases h4
      exact ⟨a, rfl⟩

/-- two entries of a file that are equal, or both names of a master, or both locations of a master -/
def SameButMaster (p p' : Nat × Bytes) : Prop := p = p' ∨ p.1 = p'.1 ∧ (p.1 = 1504 ∨ p.1 = 1505)

theorem sameButMaster_ctx (force : Bool) {es es' : List (Nat × Bytes)} (h : List.Forall₂ SameButMaster es es') (c : Ctx) :
    ctxAll (vfbCodec ops asm) force c es = ctxAll (vfbCodec ops asm) force c es' := by
  induction h generalizing c with
  | nil => rfl
  | @cons p p' ps ps' hp _ ih =>
    have : ctxAfter (vfbCodec ops asm) force c p = ctxAfter (vfbCodec ops asm) force c p' := by
      rcases hp with rfl | ⟨h1, h2⟩
      · rfl
      · have hs : isSpecial p.1 = false := by rcases h2 with h2 | h2 <;> rw [h2] <;> decide
        have hs' : isSpecial p'.1 = false := by rw [← h1]; exact hs
        unfold ctxAfter
        rw [if_neg (by rw [hs]; decide), if_neg (by rw [hs']; decide)]
    show ctxAll _ _ (ctxAfter _ _ _ p) ps = ctxAll _ _ (ctxAfter _ _ _ p') ps'
    rw [this]
    exact ih _

theorem sameButMaster_at (k : Nat) {c : Ctx} {ps ps' : List (Nat × Bytes)} (h : List.Forall₂ SameButMaster ps ps') {l l' : List (FEntry ops asm)}
    (hl : List.Forall₂ (Decoded ops asm c) ps l) (hl' : List.Forall₂ (Decoded ops asm c) ps' l') (m i : Nat) : EntriesAt ops asm k m i l l' := by
  induction h generalizing l l' m i with
  | nil => cases hl; cases hl'; trivial
  | @cons p p' ps ps' hp _ ih =>
    cases hl with
    | @cons _ e _ l hpe hl =>
    cases hl' with
    | @cons _ e' _ l' hpe' hl' =>
    refine ⟨?_, ih hl hl' _ _⟩
    obtain ⟨j, d⟩ := e
    obtain ⟨j', d'⟩ := e'
    rcases hp with rfl | ⟨h1, h2⟩
    · obtain ⟨a1, x, a2, a3⟩ := hpe
      obtain ⟨b1, y, b2, b3⟩ := hpe'
      rw [a2] at b2
      cases b2
      dsimp only at a1 a3 b1 b3
      rw [a1, a3, b1, b3]
      exact .same _
    · rcases h2 with h2 | h2
      · obtain ⟨a1, x, a2⟩ := decoded_kind ops asm hpe (k := .string) (by rw [h2]; decide +kernel)
        obtain ⟨b1, y, b2⟩ := decoded_kind ops asm hpe' (k := .string) (by rw [← h1, h2]; decide +kernel)
        dsimp only at a1 a2 b1 b2
        rw [a1, a2, b1, b2, ← h1, h2]
        exact .masterName
      · obtain ⟨a1, x, a2⟩ := decoded_kind ops asm hpe (k := .masterLocation) (by rw [h2]; decide +kernel)
        obtain ⟨b1, y, b2⟩ := decoded_kind ops asm hpe' (k := .masterLocation) (by rw [← h1, h2]; decide +kernel)
        dsimp only at a1 a2 b1 b2
        rw [a1, a2, b1, b2, ← h1, h2]
        exact .masterLocation

/-- **C107** Two files that differ only in the bytes of master names (1504) and master locations (1505): if the command succeeds on both
with the same arguments, it writes the same UFOs (the names and locations are in the designspace only). -/
theorem C107_names (a : UfoArgs) (depth : Nat) (fs fs' : Files asm.Asm) {stem : PyStr} (hn : a.input.name ≠ []) (hs : IsStem a.input.name stem)
    (minor minor' : UInt8) (es es' : List (Nat × Bytes)) (tail tail' : Bytes)
    (hf : fs a.input = some (.bytes (fileOf minor es ++ tail))) (hf' : fs' a.input = some (.bytes (fileOf minor' es' ++ tail')))
    (ht : Terminated es) (ht' : Terminated es')
    (hr : Readable (vfbCodec ops asm) a.unicode_strings {} es) (hr' : Readable (vfbCodec ops asm) a.unicode_strings {} es')
    (h : List.Forall₂ (fun p p' => p = p' ∨ p.1 = p'.1 ∧ (p.1 = 1504 ∨ p.1 = 1505)) es es')
    (hok : (vfb3ufo ops deg asm fmt a depth fs).1 = .ok ()) (hok' : (vfb3ufo ops deg asm fmt a depth fs').1 = .ok ()) :
    ∃ l l' ufos, List.Forall₂ (Decoded ops asm (fileCtx ops asm a es)) (keptEntries es) l ∧
      List.Forall₂ (Decoded ops asm (fileCtx ops asm a es')) (keptEntries es') l' ∧
      convert ops deg asm fmt (optsOf a) depth l = .ok ufos ∧ convert ops deg asm fmt (optsOf a) depth l' = .ok ufos ∧
      ∀ k u, ufos[k]? = some u → contentAfter fs (vfb3ufo ops deg asm fmt a depth fs).2 (ufoFile a stem k) = some (savedUfo a u) ∧
        contentAfter fs' (vfb3ufo ops deg asm fmt a depth fs').2 (ufoFile a stem k) = some (savedUfo a u) := by
  obtain ⟨l, ufos, ds, a1, -, a2, a3, -⟩ := C90_files ops deg asm fmt a depth fs hn hs minor es tail hf ht hr hok
  obtain ⟨l', ufos', ds', b1, -, b2, b3, -⟩ := C90_files ops deg asm fmt a depth fs' hn hs minor' es' tail' hf' ht' hr' hok'
  have hc : fileCtx ops asm a es' = fileCtx ops asm a es := (sameButMaster_ctx ops asm _ h _).symm
  have hk := forall₂_filter (p := fun p : Nat × Bytes => decide (p.1 ≠ 1500 ∧ p.1 ≠ 1501)) (q := fun p : Nat × Bytes => decide (p.1 ≠ 1500 ∧ p.1 ≠ 1501)) h
    (by
      intro p p' hp
      rcases hp with rfl | ⟨h1, -⟩
      · rfl
      · rw [h1])
  have hu : ufos = ufos' := by
    apply List.ext_getElem?
    intro k
    exact (C107_master_alone (k := k) (sameButMaster_at ops asm k hk a1 (hc ▸ b1) 0 0) a2 b2).2
  subst hu
  exact ⟨l, l', ufos, a1, b1, a2, b2, fun k u hu => ⟨a3 k u hu, b3 k u hu⟩⟩

end

/-! ### an example: the second master gets another name and another location -/

def exampleRenamedFile : List (Nat × Bytes) :=
  (exampleMmFile.set 3 (1504, [66, 108, 97, 99, 107])).set 7 (1505, [2, 0, 0, 0] ++ [0, 0, 0, 0, 0, 0, 224, 63] ++ List.replicate 24 0)

def exampleRenamedDisk : Files exampleAsm.Asm := fun p =>
  if p = ⟨lit "/f", lit "A.vfb"⟩ then some (.bytes (fileOf 5 exampleRenamedFile)) else none

set_option maxRecDepth 4000 in
theorem exampleRenamedFile_readable : Readable (vfbCodec exampleAngles exampleAsm) false {} exampleRenamedFile := by
  unfold exampleRenamedFile exampleMmFile
  refine ⟨by decide, by decide, by decide, fun h => absurd h (by decide), ?_⟩
  refine ⟨by decide, by decide, by decide, fun _ => ⟨.int 2, rfl⟩, ?_⟩
  refine ⟨by decide, by decide, by decide, fun h => absurd h (by decide), ?_⟩
  refine ⟨by decide, by decide, by decide, fun h => absurd h (by decide), ?_⟩
  refine ⟨by decide, by decide, by decide, fun h => absurd h (by decide), ?_⟩
  refine ⟨by decide, by decide, by decide, fun h => absurd h (by decide), ?_⟩
  refine ⟨by decide, by decide, by decide, fun h => absurd h (by decide), ?_⟩
  refine ⟨by decide, by decide, by decide, fun h => absurd h (by decide), ?_⟩
  refine ⟨by decide, by decide, by decide +kernel, fun h => absurd h (by decide), ?_⟩
  refine ⟨by decide, by decide, by decide +kernel, fun h => absurd h (by decide), ?_⟩
  refine ⟨by decide, by decide, by decide, fun h => absurd h (by decide), ?_⟩
  refine ⟨by decide, by decide, by decide, fun h => absurd h (by decide), ?_⟩
  refine ⟨by decide, by decide, by decide, fun h => absurd h (by decide), ?_⟩
  exact ⟨by decide, by decide, by decide, fun h => absurd h (by decide), trivial⟩

theorem exampleRenamedRun_ok : (vfb3ufo exampleAngles (fun _ => 0) exampleAsm exampleFmt
    { input := ⟨lit "/f", lit "A.vfb"⟩, path := some (lit "/g") } 10 exampleRenamedDisk).1 = .ok () := by decide +kernel

/-- the hypotheses of `C107_names` are met: the UFOs of both files are the same -/
example : ∃ ufos : List (UfoFont exampleAsm.Asm), ∀ k u, ufos[k]? = some u →
    contentAfter exampleDisk (vfb3ufo exampleAngles (fun _ => 0) exampleAsm exampleFmt
      { input := ⟨lit "/f", lit "A.vfb"⟩, path := some (lit "/g") } 10 exampleDisk).2
      (ufoFile { input := ⟨lit "/f", lit "A.vfb"⟩, path := some (lit "/g") } (lit "A") k) =
    contentAfter exampleRenamedDisk (vfb3ufo exampleAngles (fun _ => 0) exampleAsm exampleFmt
      { input := ⟨lit "/f", lit "A.vfb"⟩, path := some (lit "/g") } 10 exampleRenamedDisk).2
      (ufoFile { input := ⟨lit "/f", lit "A.vfb"⟩, path := some (lit "/g") } (lit "A") k) := by
  obtain ⟨l, l', ufos, -, -, -, -, h⟩ := C107_names exampleAngles (fun _ => 0) exampleAsm exampleFmt
    { input := ⟨lit "/f", lit "A.vfb"⟩, path := some (lit "/g") } 10 exampleDisk exampleRenamedDisk (stem := lit "A") (by decide)
    (.inl ⟨lit "vfb", by decide, by decide, by decide, rfl⟩) 5 5 exampleMmFile exampleRenamedFile [] []
    (by rw [List.append_nil]; rfl) (by rw [List.append_nil]; rfl) ⟨exampleMmFile.dropLast, [], rfl, by decide⟩
    ⟨exampleRenamedFile.dropLast, [], rfl, by decide⟩ exampleMmFile_readable exampleRenamedFile_readable
    (.cons (.inl rfl) <| .cons (.inl rfl) <| .cons (.inl rfl) <| .cons (.inr ⟨rfl, .inl rfl⟩) <| .cons (.inl rfl) <| .cons (.inl rfl) <|
      .cons (.inl rfl) <| .cons (.inr ⟨rfl, .inr rfl⟩) <| .cons (.inl rfl) <| .cons (.inl rfl) <| .cons (.inl rfl) <| .cons (.inl rfl) <|
      .cons (.inl rfl) <| .cons (.inl rfl) .nil) exampleRun_ok exampleRenamedRun_ok
  exact ⟨ufos, fun k u hu => (h k u hu).1.trans (h k u hu).2.symm⟩

end Verif.Props
