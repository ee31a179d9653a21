import Verif.Props.AnyFileTools
import Verif.Props.Diff
/-! C95 for every pair of byte strings that are accepted as files. -/
set_option autoImplicit false
namespace Verif.Props
open Verif Verif.Spec
variable {D T : Type} {ASM : Type}

/-- the entries that are read one after the other, up to the first one with the id 2 -/
def Reads (C : Codec D T) (force : Bool) : Nat → Ctx → Bytes → List (Nat × Bytes) → Prop
  | 0, _, _, _ => False
  | n + 1, c, s, es => ∃ (p : Nat × Bytes) (rest : Bytes), readEntry c.num_masters s = .ok ((p.1 : Int), p.2) rest ∧
      (isSpecial p.1 = true → ∃ d, parseEntry (C.parse p.1 c) p.2 = .ok d) ∧
      ((p.1 = 2 ∧ es = [p]) ∨ (p.1 ≠ 2 ∧ ∃ es', es = p :: es' ∧ Reads C force n (ctxAfter C force c p) rest es'))

theorem reads_of_loop (C : Codec D T) (n : Nat) (v v' : Vfb D T) (s : Bytes) (h : readLoop C n v s = (.ok (), v')) :
    ∃ es, Reads C v.force_unicode_strings n v.ctx s es := by
  induction n generalizing v s with
  | zero => cases h
  | succ n ih =>
    obtain ⟨id, data, rest, he, _, _, _⟩ := readEntry_ok v.ctx.num_masters s
    obtain ⟨hid, hlen, hmm⟩ := readEntry_inv _ _ _ _ _ he
    rw [readLoop, he] at h
    simp only at h
    obtain ⟨k, rfl⟩ : ∃ k : Nat, id = k := ⟨id.toNat, by omega⟩
    by_cases hsp : isSpecial (k : Int) = true → ∃ d, parseEntry (C.parse (k : Int) v.ctx) data = .ok d
    · have ha := addRead_ok C v (k, data) hsp
      simp only at ha
      rw [ha] at h
      simp only at h
      by_cases h2 : (k : Int) = 2
      · exact ⟨[(k, data)], (k, data), rest, he, hsp, .inl ⟨by simp only; omega, rfl⟩⟩
      · rw [if_neg h2] at h
        obtain ⟨es, hes⟩ := ih _ _ h
        exact ⟨(k, data) :: es, (k, data), rest, he, hsp, .inr ⟨by simp only; omega, es, rfl, hes⟩⟩
    · exfalso
      simp only [Classical.not_imp, not_exists] at hsp
      unfold Vfb.addRead at h
      rw [if_pos hsp.1] at h
      simp only [Entry.decompile] at h
      cases hp : parseEntry (C.parse (k : Int) v.ctx) data with
      | ok d => exact hsp.2 d hp
      | error x => rw [hp] at h; cases h

theorem loop_of_reads (C : Codec D T) (n : Nat) (v : Vfb D T) (s : Bytes) (es : List (Nat × Bytes))
    (h : Reads C v.force_unicode_strings n v.ctx s es) :
    readLoop C n v s = (.ok (), { v with
      ctx := ctxAll C v.force_unicode_strings v.ctx es
      entries := v.entries ++ (loaded C v.force_unicode_strings v.ctx es).filter fun e => e.id ∉ v.drop_keys }) := by
  induction n generalizing v s es with
  | zero => cases h
  | succ n ih =>
    obtain ⟨p, rest, he, hsp, hc⟩ := h
    rw [readLoop, he]
    simp only
    rw [addRead_ok C v p hsp]
    simp only
    rcases hc with ⟨h2, rfl⟩ | ⟨h2, es', rfl, hes⟩
    · rw [if_pos (by omega)]
      simp only [ctxAll, List.foldl_cons, List.foldl_nil, loaded, List.filter_cons, List.filter_nil, loadedEntry_id]
      congr 2
      by_cases hd : (p.1 : Int) ∈ v.drop_keys
      · simp [hd]
      · simp [hd]
    · rw [if_neg (by omega), ih _ _ es' hes]
      simp only [ctxAll, List.foldl_cons, loaded, List.filter_cons, loadedEntry_id]
      congr 2
      by_cases hd : (p.1 : Int) ∈ v.drop_keys
      · simp [hd]
      · simp [hd]

theorem reads_ne (C : Codec D T) (force : Bool) (n : Nat) (c : Ctx) (es : List (Nat × Bytes)) : ¬ Reads C force n c [] es := by
  intro h
  have hl := loop_of_reads C n ({ ctx := c, force_unicode_strings := force } : Vfb D T) [] es h
  have := readLoop_nil C n ({ ctx := c, force_unicode_strings := force } : Vfb D T)
  rw [hl] at this
  cases this

/-- the form of what has been read -/
theorem reads_form (C : Codec D T) (force : Bool) (n : Nat) (c : Ctx) (s : Bytes) (es : List (Nat × Bytes)) (hl : s.length < 4294967296 ∨ SmallMasters C c)
    (h : Reads C force n c s es) : Readable C force c es ∧ ∃ init b, es = init ++ [(2, b)] ∧ (∀ p ∈ init, p.1 ≠ 2) ∧
      ∃ frames last, s = frames ++ last ∧ AnyFrames C force c init frames ∧ last.head? = some 2 := by
  induction n generalizing c s es with
  | zero => cases h
  | succ n ih =>
    obtain ⟨p, rest, he, hsp, hc⟩ := h
    obtain ⟨hid, hlen, hmm⟩ := readEntry_inv _ _ _ _ _ he
    rcases hc with ⟨h2, rfl⟩ | ⟨h2, es', rfl, hes⟩
    · obtain ⟨k, b⟩ := p
      simp only at h2
      subst h2
      exact ⟨⟨by omega, hl.elim (fun hl => by simp only at hlen ⊢; omega) fun hl => readEntry_size _ _ _ _ _ he hl.1 (fun h => by simp at h), by intro h; simp at h, hsp, trivial⟩, [], b, rfl, by simp,
        [], s, rfl, rfl, readEntry_end _ _ _ _ he⟩
    · have hne : rest ≠ [] := fun hr => reads_ne C force n _ es' (hr ▸ hes)
      obtain ⟨a1, init, b, rfl, a2, frames, last, rfl, a3, a4⟩ := ih _ _ _ (hl.imp (fun hl => by omega) fun hl => smallMasters_after C hl _ _) hes
      obtain ⟨f, hf1, hf2⟩ := readEntry_frame _ _ _ _ _ he hne
      refine ⟨⟨by omega, hl.elim (fun hl => by omega) fun hl => readEntry_size _ _ _ _ _ he hl.1 (fun _ => hne), ?_, hsp, a1⟩, p :: init, b, rfl, ?_, f ++ frames, last, by rw [hf1, List.append_assoc],
        ⟨f, frames, rfl, hf2, a3⟩, a4⟩
      · intro hk
        rcases hmm (by omega) with h' | h'
        · exact absurd h' hne
        · exact h'
      · intro q hq
        rcases List.mem_cons.1 hq with rfl | hq
        · exact h2
        · exact a2 q hq

/-- the number of masters matters for kerning pairs only -/
theorem readEntry_masters {nm : Int} (nm' : Int) {s rest data : Bytes} {id : Int} (h : readEntry nm s = .ok (id, data) rest) (hi : id ≠ 1410) :
    readEntry nm' s = .ok (id, data) rest := by
  have hr : ∀ k (s : Bytes), readInt k false s = .ok (fromLE false (s.take k)) (s.drop k) := by
    intro k s
    unfold readInt
    simp only [R.bind_run, R.readN]
    rw [if_neg (by omega)]
    rfl
  have hid : fromLE false (List.take 2 s) % 32768 = id := by
    unfold readEntry readU16 readU32 at h
    simp only [R.bind_run, hr, R.ite_run] at h
    split at h <;>
    · split at h
      case h_2 => cases h
      case h_1 =>
        injection h with h1 h2
        injection h1
  rw [← h]
  unfold readEntry readU16 readU32
  simp only [R.bind_run, hr, R.ite_run]
  simp only [if_neg (show ¬ fromLE false (List.take 2 s) % 32768 = 1410 by omega)]

theorem reads_other (C : Codec D T) (hs : SpecialFixed C) (force force' : Bool) (n : Nat) (s : Bytes) (es : List (Nat × Bytes)) (c c' : Ctx)
    (hm : c.num_masters = c'.num_masters ∨ MastersFirst es) (h : Reads C force n c s es) : Reads C force' n c' s es := by
  induction n generalizing s es c c' with
  | zero => cases h
  | succ n ih =>
    obtain ⟨p, rest, he, hsp, hc⟩ := h
    have he' : readEntry c'.num_masters s = .ok ((p.1 : Int), p.2) rest := by
      rcases hm with hm | hm
      · rw [← hm]; exact he
      · refine readEntry_masters _ he fun hp => ?_
        rcases hc with ⟨h2, rfl⟩ | ⟨h2, es', rfl, hes⟩
        · obtain ⟨q, hq, -⟩ := hm [] p [] rfl (by omega)
          cases hq
        · obtain ⟨q, hq, -⟩ := hm [] p es' rfl (by omega)
          cases hq
    refine ⟨p, rest, he', fun hp => by rw [hs p.1 hp c' c]; exact hsp hp, ?_⟩
    rcases hc with h2 | ⟨h2, es', rfl, hes⟩
    · exact .inl h2
    · refine .inr ⟨h2, es', rfl, ih _ _ _ _ ?_ hes⟩
      by_cases hp : (p.1 : Int) = 1503
      · left
        have hk : isSpecial p.1 = true := by rw [hp]; rfl
        obtain ⟨d, hd⟩ := hsp hk
        unfold ctxAfter
        rw [if_pos hk, if_pos hk, hd, hs p.1 hk c' c, hd]
        dsimp only
        unfold noteCtx
        rw [hp]
        rfl
      · have hkeep : ∀ (force : Bool) (c : Ctx), (ctxAfter C force c p).num_masters = c.num_masters := by
          intro force c
          unfold ctxAfter
          split
          · split
            · unfold noteCtx
              split
              · rfl
              · split <;> first | rfl | (rename_i h; exact absurd h hp) | (split <;> rfl)
            · rfl
          · rfl
        rw [hkeep, hkeep]
        rcases hm with hm | hm
        · exact .inl hm
        · right
          intro pre q post he hq
          obtain ⟨x, hx, hx'⟩ := hm (p :: pre) q post (by rw [he]; rfl) hq
          rcases List.mem_cons.1 hx with rfl | hx
          · exact absurd (by omega) hp
          · exact ⟨x, hx, hx'⟩

theorem header_form {file rest : Bytes} {hd : Header} (hp : parseHeader file = .ok hd rest) :
    ∃ minor, hd = headerDict minor ∧ ∃ before, file = before ++ rest := by
  obtain ⟨minor, rfl⟩ := C09_header_checked file rest hd hp
  refine ⟨minor, rfl, ?_⟩
  unfold parseHeader at hp
  split at hp
  · cases hp; exact ⟨_, (List.take_append_drop _ _).symm⟩
  · cases hp

/-- Whatever byte string is accepted as a file by one font object: every other one with the same number of masters (with any number of masters, if the number
of masters precedes the kerning pairs), whatever its options are, reads it just as it reads the file with the same entries in the form in which this library
writes files. -/
theorem every_reader (C : Codec D T) (hs : SpecialFixed C) (v v' : Vfb D T) (file : Bytes) (ho : v.only_header = false) (hl : file.length < 4294967296 ∨ SmallMasters C v.ctx)
    (h : v.readBytes C file = (.ok (), v')) :
    ∃ minor es, Terminated es ∧
      ∀ w : Vfb D T, w.only_header = false → (v.ctx.num_masters = w.ctx.num_masters ∨ MastersFirst es) →
        Readable C w.force_unicode_strings w.ctx es ∧ ∀ tail, w.readBytes C (fileOf minor es ++ tail) = w.readBytes C file := by
  unfold Vfb.readBytes Vfb.readFuel at h
  cases hp : parseHeader file with
  | err x r => rw [hp] at h; cases h
  | ok hd rest =>
    obtain ⟨minor, rfl, pre, hpre⟩ := header_form hp
    rw [hp] at h
    simp only [Vfb.clear, ho] at h
    rw [if_neg (by simp)] at h
    obtain ⟨es, hes⟩ := reads_of_loop C _ _ v' rest h
    have hlr : rest.length < 4294967296 ∨ SmallMasters C v.ctx := hl.imp (fun hl => by
      have := congrArg List.length hpre
      simp only [List.length_append] at this
      omega) id
    have hterm : Terminated es := by
      obtain ⟨-, init, b, rfl, hi, -⟩ := reads_form C _ _ _ _ _ (by exact hlr) hes
      exact ⟨init, b, rfl, hi⟩
    refine ⟨minor, es, hterm, fun w how hm => ?_⟩
    have hes' := reads_other C hs v.force_unicode_strings w.force_unicode_strings _ _ _ _ w.ctx hm hes
    have hr : Readable C w.force_unicode_strings w.ctx es := readable_other C hs _ es v.ctx w.ctx hm
      (reads_form C _ _ _ _ _ (by exact hlr) (reads_other C hs v.force_unicode_strings w.force_unicode_strings _ _ _ v.ctx v.ctx (.inl rfl) hes)).1
    refine ⟨hr, fun tail => ?_⟩
    rw [read_file C w minor es tail how hterm hr]
    unfold Vfb.readBytes Vfb.readFuel
    rw [hp]
    simp only [Vfb.clear, how]
    rw [if_neg (by simp)]
    have hgo := loop_of_reads C (file.length + 1) { w with header := .dec (headerDict minor), entries := [], only_header := false } rest es hes'
    rw [hgo]
    simp

/-- an accepted file: its entries, and both readings of it -/
theorem read_twice (C : Codec D T) (hs : SpecialFixed C) (v : Vfb D T) (file : Bytes) (hl : SmallMasters C {})
    (h : Vfb.readBytes C {} file = (.ok (), v)) :
    ∃ minor es, LaidOut C false {} file es ∧ Terminated es ∧ Readable C false {} es ∧
      (∀ tail, Vfb.readBytes C {} (fileOf minor es ++ tail) = (.ok (), v)) ∧
      (MastersFirst es → v.readBytes C file = (.ok (), v)) := by
  have h0 := h
  unfold Vfb.readBytes Vfb.readFuel at h
  cases hp : parseHeader file with
  | err x r => rw [hp] at h; cases h
  | ok hd rest =>
    obtain ⟨minor, hm, pre, hpre⟩ := header_form hp
    rw [hp] at h
    replace h : readLoop C (file.length + 1) ({ header := .dec hd } : Vfb D T) rest = (.ok (), v) := h
    obtain ⟨es, hes⟩ := reads_of_loop C _ _ v rest h
    obtain ⟨hr, init, b, rfl, hi, frames, last, rfl, hfr, hlast⟩ := reads_form C false _ _ _ _
      (.inr hl) hes
    have hv := loop_of_reads C _ _ _ _ hes
    rw [h] at hv
    injection hv with _ hv
    refine ⟨minor, init ++ [(2, b)], ⟨init, b, pre, frames, last, rfl, by rw [hpre, List.append_assoc], hfr, hlast⟩, ⟨init, b, rfl, hi⟩, hr,
      fun tail => ?_, fun hmf => ?_⟩
    · rw [read_file C {} minor _ tail rfl ⟨init, b, rfl, hi⟩ hr, hv, hm]
      simp
    · have hes' := reads_other C hs false false _ _ _ _ v.ctx (.inr hmf) hes
      subst hv
      unfold Vfb.readBytes Vfb.readFuel
      rw [hp]
      have hgo := loop_of_reads C (file.length + 1) ({ header := .dec hd, ctx := ctxAll C false {} (init ++ [(2, b)]) } : Vfb D T) (frames ++ last)
        (init ++ [(2, b)]) hes'
      refine Eq.trans hgo ?_
      simp only [ctxAll_again C hs]
      rw [loaded_other C hs false _ _ {} (readable_other C hs false _ {} _ (.inr hmf) hr) hr]

/-- **C95** Whatever two byte strings are on disk: unless one of them cannot be read, they are laid out as entries; and if the number of masters
precedes the kerning pairs, the command does with them what it does with files of the same entries in the form in which this library writes
files (to which `C95_compares` and `C95_same` apply). -/
theorem C95_every_file (C : Codec D T) (hs : SpecialFixed C) (o : DiffOps D) (a : DiffArgs) (fs : Files ASM) (file1 file2 : Bytes)
    (hl : SmallMasters C {})
    (hf1 : fs a.file1 = some (.bytes file1)) (hf2 : fs a.file2 = some (.bytes file2)) :
    (∃ e, diffvfb C o a fs = (.error (.exception e), [])) ∨
    ∃ m1 es1 m2 es2, LaidOut C false {} file1 es1 ∧ Terminated es1 ∧ Readable C false {} es1 ∧
      LaidOut C false {} file2 es2 ∧ Terminated es2 ∧ Readable C false {} es2 ∧
      (MastersFirst es1 → MastersFirst es2 → ∀ (fs' : Files ASM) (t1 t2 : Bytes), fs' a.file1 = some (.bytes (fileOf m1 es1 ++ t1)) →
        fs' a.file2 = some (.bytes (fileOf m2 es2 ++ t2)) → diffvfb C o a fs = diffvfb C o a fs') := by
  have hfail : ∀ {p : FPath} {file : Bytes} {v w : Vfb D T} {x : PyErr}, fs p = some (.bytes file) → v.readBytes C file = (.error x, w) →
      readPath C fs p v = .error (.exception x) := by
    intro p file v w x hf hv
    simp only [readPath, hf, hv]
  rcases hv1 : Vfb.readBytes C {} file1 with ⟨⟨x⟩ | ⟨⟨⟩⟩, v1⟩
  · refine .inl ⟨x, ?_⟩
    unfold diffvfb diffFonts
    rw [hfail hf1 hv1]
    rfl
  · rcases hv2 : Vfb.readBytes C {} file2 with ⟨⟨x⟩ | ⟨⟨⟩⟩, v2⟩
    · refine .inl ⟨x, ?_⟩
      unfold diffvfb diffFonts
      rw [readPath_bytes C hf1 hv1]
      change (match ((readPath C fs a.file2 {} >>= _) : Except CmdErr (Vfb D T × Vfb D T)) with | .error e => _ | .ok (v1, v2) => _) = _
      rw [hfail hf2 hv2]
      rfl
    · obtain ⟨m1, es1, a1, a2, a3, a4, a5⟩ := read_twice C hs v1 file1 hl hv1
      obtain ⟨m2, es2, b1, b2, b3, b4, b5⟩ := read_twice C hs v2 file2 hl hv2
      refine .inr ⟨m1, es1, m2, es2, a1, a2, a3, b1, b2, b3, fun k1 k2 fs' t1 t2 g1 g2 => ?_⟩
      have key : ∀ (g : Files ASM) (x1 x2 : Bytes), g a.file1 = some (.bytes x1) → g a.file2 = some (.bytes x2) →
          Vfb.readBytes C {} x1 = (.ok (), v1) → Vfb.readBytes C {} x2 = (.ok (), v2) →
          v1.readBytes C x1 = (.ok (), v1) → v2.readBytes C x2 = (.ok (), v2) →
          diffFonts C a g = (decompileFont C v1 >>= fun w1 => decompileFont C v2 >>= fun w2 => .ok (w1, w2)) := by
        intro g x1 x2 e1 e2 p1 p2 q1 q2
        unfold diffFonts
        rw [readPath_bytes C e1 p1]
        change (readPath C g a.file2 {} >>= _) = _
        rw [readPath_bytes C e2 p2]
        change (readPath C g a.file1 v1 >>= _) = _
        rw [readPath_bytes C e1 q1]
        change (readPath C g a.file2 v2 >>= _) = _
        rw [readPath_bytes C e2 q2]
        rfl
      obtain ⟨w1, c1, c2⟩ := read_again C hs m1 es1 t1 a2 a3 k1
      obtain ⟨w2, d1, d2⟩ := read_again C hs m2 es2 t2 b2 b3 k2
      have hw1 : w1 = v1 := by have := a4 t1; rw [c1] at this; injection this
      have hw2 : w2 = v2 := by have := b4 t2; rw [d1] at this; injection this
      subst hw1 hw2
      unfold diffvfb
      rw [key fs file1 file2 hf1 hf2 hv1 hv2 (a5 k1) (b5 k2), key fs' _ _ g1 g2 c1 d1 c2 d2]

/-- the second case is met: a file whose first entry has got a long header is compared as if it had a short one -/
example : ∃ es1, LaidOut (vfbCodec exampleAngles exampleAsm) false {} (fileHeader 5 ++ [0xDF, 0x85, 2, 0, 0, 0, 2, 0, 2, 0, 0, 0]) es1 ∧
    Terminated es1 ∧ MastersFirst es1 :=
  ⟨[(1503, [2, 0]), (2, [])], ⟨[(1503, [2, 0])], [], fileHeader 5, [0xDF, 0x85, 2, 0, 0, 0, 2, 0], [2, 0, 0, 0], rfl, by decide,
    ⟨[0xDF, 0x85, 2, 0, 0, 0, 2, 0], [], by decide, ⟨2, .inr ⟨by decide, by decide⟩, fun _ => rfl, fun h => absurd h (by decide)⟩, rfl⟩, rfl⟩,
    ⟨[(1503, [2, 0])], [], rfl, by decide⟩, by
    intro pre p post he hp
    match pre with
    | [] => injection he with h1 h2; rw [← h1] at hp; exact absurd hp (by decide)
    | [_] =>
      injection he with h1 h2; injection h2 with h2 h3; rw [← h2] at hp; exact absurd hp (by decide)
    | _ :: _ :: _ =>
      have := congrArg List.length he
      simp at this⟩

example : (Vfb.readBytes (vfbCodec exampleAngles exampleAsm) {} (fileHeader 5 ++ [0xDF, 0x85, 2, 0, 0, 0, 2, 0, 2, 0, 0, 0])).1 = .ok () := by
  decide +kernel

end Verif.Props
