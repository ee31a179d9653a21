import Verif.Props.Build
/-! C101, continued: entries of a font that has been read are edited, inserted and deleted; then the font is written and read again. -/
set_option autoImplicit false
namespace Verif.Props
open Verif Verif.Spec

section
variable (ops : AngleOps) (asm : AsmOps)

/-- a deleted entry is none of the three special ones -/
theorem not_special {id : Int} (h : id ∉ [(10 : Int), 1503, 1269, 2]) : ¬ isSpecial id = true := by
  simp only [List.mem_cons, List.not_mem_nil, or_false, not_or] at h
  simp only [isSpecial, Bool.or_eq_true, decide_eq_true_eq]
  omega

theorem ctxAfter_plain {force : Bool} {c : Ctx} {p : Nat × Bytes} (h : ¬ isSpecial p.1 = true) :
    ctxAfter (vfbCodec ops asm) force c p = c := by
  unfold ctxAfter
  rw [if_neg h]

/-- what comes back of an entry `x`: equal data, and exactly the entry where it holds raw bytes or is one of the three special ones -/
def CameBack (ctx : Ctx) (x y : Entry (Decompiled ops.Angle asm.Asm) (List MasterData)) : Prop :=
  EntryKept ops asm ctx x y ∧ ((isSpecial x.id = true ∨ ∃ b, x.data = .bytes b) → y = x)

theorem terminated_cons {p : Nat × Bytes} {es : List (Nat × Bytes)} : Terminated (p :: es) ↔ (p.1 ≠ 2 ∧ Terminated es) ∨ (p.1 = 2 ∧ es = []) := by
  constructor
  · rintro ⟨init, b, h, hi⟩
    cases init with
    | nil =>
      simp only [List.nil_append, List.cons.injEq] at h
      exact .inr ⟨by rw [h.1], h.2⟩
    | cons q init =>
      simp only [List.cons_append, List.cons.injEq] at h
      exact .inl ⟨by rw [h.1]; exact hi q List.mem_cons_self, init, b, h.2, fun x hx => hi x (List.mem_cons_of_mem _ hx)⟩
  · rintro (⟨hp, init, b, rfl, hi⟩ | ⟨hp, rfl⟩)
    · refine ⟨p :: init, b, rfl, fun x hx => ?_⟩
      rcases List.mem_cons.1 hx with rfl | hx
      · exact hp
      · exact hi x hx
    · obtain ⟨a, b⟩ := p
      simp only at hp
      subst hp
      exact ⟨[], b, rfl, by simp⟩

theorem rework_exists (hr : ∀ v, IsInt32 v → IsInt32 (ops.fromAngle (ops.toAngle v))) (ctx : Ctx) (force : Bool)
    {l l2 : List (Entry (Decompiled ops.Angle asm.Asm) (List MasterData))} (hw : Reworked ops asm ctx l l2) :
    ∀ (es : List (Nat × Bytes)) (c : Ctx), l = loaded (vfbCodec ops asm) force c es →
    Readable (vfbCodec ops asm) force c es → (∀ p ∈ es, p.2.length < 1000000000) →
    ∃ es', (Terminated es → Terminated es') ∧ (es = [] → es' = []) ∧ Readable (vfbCodec ops asm) force c es' ∧
      ctxAll (vfbCodec ops asm) force c es' = ctxAll (vfbCodec ops asm) force c es ∧
      List.Forall₂ (Writes (vfbCodec ops asm) ctx) l2 es' ∧
      List.Forall₂ (CameBack ops asm ctx) l2 (loaded (vfbCodec ops asm) force c es') := by
  induction hw with
  | done =>
    intro es c hl hread _
    cases es with
    | nil => exact ⟨[], id, id, trivial, rfl, .nil, .nil⟩
    | cons p es => simp [loaded] at hl
  | edit he _ ih =>
    intro es c hl hread hlen
    cases es with
    | nil => simp [loaded] at hl
    | cons p es =>
      simp only [loaded, List.cons.injEq] at hl
      obtain ⟨rfl, hl⟩ := hl
      obtain ⟨r1, r2, r3, r4, r5⟩ := hread
      obtain ⟨p', hp⟩ := edit_step_exists ops asm hr ctx c force p _ r1 (hlen p List.mem_cons_self) r4 he
      obtain ⟨es', i1, i2, i3, i4, i5, i6⟩ := ih es _ hl r5 fun q hq => hlen q (List.mem_cons_of_mem _ hq)
      refine ⟨p' :: es', ?_, fun h => absurd h (by simp), ⟨?_, hp.writes.size_lt, ?_, hp.special, ?_⟩, ?_, .cons hp.writes i5, ?_⟩
      · rw [terminated_cons, terminated_cons, hp.id]
        rintro (⟨h1, h2⟩ | ⟨h1, h2⟩)
        · exact .inl ⟨h1, i1 h2⟩
        · exact .inr ⟨h1, i2 h2⟩
      · rw [hp.id]; exact r1
      · intro h
        rw [hp.pair h]
        exact r3 (by rw [← hp.id]; exact h)
      · rw [hp.after]; exact i3
      · simp only [ctxAll, List.foldl_cons, hp.after]
        exact i4
      · refine .cons ⟨hp.kept, fun h => hp.exact ?_⟩ ?_
        · rw [hp.writes.id, hp.id] at h
          exact h
        · rw [hp.after]
          exact i6
  | delete hn _ ih =>
    intro es c hl hread hlen
    cases es with
    | nil => simp [loaded] at hl
    | cons p es =>
      simp only [loaded, List.cons.injEq] at hl
      obtain ⟨rfl, hl⟩ := hl
      have hid : (loadedEntry (vfbCodec ops asm) c p : Entry _ (List MasterData)).id = p.1 := by
        unfold loadedEntry
        by_cases hsp : isSpecial p.1 = true
        · rw [if_pos hsp]
          cases parseEntry ((vfbCodec ops asm).parse p.1 c) p.2 <;> rfl
        · rw [if_neg hsp]
      rw [hid] at hn
      have hc := ctxAfter_plain ops asm (force := force) (c := c) (not_special hn)
      have h2 : p.1 ≠ 2 := by
        simp only [List.mem_cons, List.not_mem_nil, or_false, not_or] at hn
        omega
      obtain ⟨r1, r2, r3, r4, r5⟩ := hread
      rw [hc] at hl r5
      obtain ⟨es', i1, i2, i3, i4, i5, i6⟩ := ih es c hl r5 fun q hq => hlen q (List.mem_cons_of_mem _ hq)
      refine ⟨es', ?_, fun h => absurd h (by simp), i3, ?_, i5, i6⟩
      · rw [terminated_cons]
        rintro (⟨_, h⟩ | ⟨h, _⟩)
        · exact i1 h
        · exact absurd h h2
      · rw [i4]
        simp only [ctxAll, List.foldl_cons, hc]
  | insert hg hn _ ih =>
    rename_i e2 e l l2 hprev
    intro es c hl hread hlen
    obtain ⟨es', i1, i2, i3, i4, i5, i6⟩ := ih es c hl hread hlen
    obtain ⟨p', hp⟩ := good_of_ready ops asm hg
    have hid := hp.writes.id
    rw [hid] at hn
    have hsp := not_special hn
    have hc := ctxAfter_plain ops asm (force := force) (c := c) hsp
    have h2 : p'.1 ≠ 2 := by
      simp only [List.mem_cons, List.not_mem_nil, or_false, not_or] at hn
      omega
    have hle : (loadedEntry (vfbCodec ops asm) c p' : Entry _ (List MasterData)) = { id := p'.1, data := .bytes p'.2 } := by
      unfold loadedEntry
      rw [if_neg hsp]
    refine ⟨p' :: es', ?_, ?_, ⟨hp.writes.id_lt, hp.writes.size_lt, fun h => absurd h hp.not_pair, fun h => absurd h hsp, ?_⟩, ?_,
      .cons hp.writes i5, ?_⟩
    · intro h
      rw [terminated_cons]
      exact .inl ⟨h2, i1 h⟩
    · intro h
      subst h
      simp [loaded] at hl
    · rw [hc]; exact i3
    · simp only [ctxAll, List.foldl_cons, hc]
      exact i4
    · rw [loaded, hc]
      refine .cons ⟨⟨?_, ?_, ?_⟩, ?_⟩ i6
      · rw [hle]; exact hid.symm
      · intro b hb
        rw [hle, hp.bytes b hb]
      · intro d hd
        obtain ⟨d', h3, h4⟩ := hp.dec d hd
        rw [hle]
        exact ⟨{ id := p'.1, data := .dec d' }, d', by simp only [Entry.decompile, h3], rfl, h4⟩
      · rintro (h | ⟨b, hb⟩)
        · rw [hid] at h
          exact absurd h hsp
        · rw [hle, hp.bytes b hb]
          obtain ⟨i, dt, tm, ca⟩ := e2
          obtain ⟨ht, hcc, _⟩ := hg
          simp only at hid ht hcc hb
          rw [hid, ht, hcc, hb]

/-- **C101** Entries may also be inserted and deleted.  Whatever byte string (of less than 1 GB) is accepted as a file: after the
user has edited, inserted and deleted entries as he likes (but the end entry and the three entries that describe the font are
neither inserted nor deleted), writing the font and reading the result again succeeds and gives the same header and settings, and
for each entry of the list, in its order, an entry with equal data, which is the very same entry if it holds raw bytes or is one of
the three that are decompiled while reading. -/
theorem C101_rework (hr : ∀ v, IsInt32 v → IsInt32 (ops.fromAngle (ops.toAngle v)))
    (v v1 : Vfb (Decompiled ops.Angle asm.Asm) (List MasterData)) (file : Bytes)
    (ho : v.only_header = false) (hk : v.drop_keys = []) (hl : file.length < 1000000000)
    (h : v.readBytes (vfbCodec ops asm) file = (.ok (), v1))
    (entries : List (Entry (Decompiled ops.Angle asm.Asm) (List MasterData)))
    (he : Reworked ops asm v1.ctx v1.entries entries) :
    ∃ out v3 v4, Vfb.writeBytes (vfbCodec ops asm) { v1 with entries := entries } = (.ok (), out, v3) ∧
      v.readBytes (vfbCodec ops asm) out = (.ok (), v4) ∧ v4.header = v1.header ∧ v4.ctx = v1.ctx ∧
      List.Forall₂ (fun x y => EntryKept ops asm v4.ctx x y ∧ ((x.id ∈ [(10 : Int), 1503, 1269] ∨ ∃ b, x.data = .bytes b) → y = x))
        entries v4.entries := by
  obtain ⟨minor, init, b0, hi0, hread, hsum, _, hf⟩ := C10_every_file _ v v1 file ho (.inl (by omega)) h
  have ht : Terminated (init ++ [(2, b0)]) := ⟨init, b0, rfl, hi0⟩
  have h1 := hf []
  rw [read_file _ v minor _ [] ho ht hread, hk, List.filter_eq_self.2 (by simp)] at h1
  injection h1 with _ h1
  have hent : v1.entries = loaded (vfbCodec ops asm) v.force_unicode_strings v.ctx (init ++ [(2, b0)]) := by rw [← h1]
  have hctx : v1.ctx = ctxAll (vfbCodec ops asm) v.force_unicode_strings v.ctx (init ++ [(2, b0)]) := by rw [← h1]
  have hhead : v1.header = .dec (headerDict minor) := by rw [← h1]
  obtain ⟨es', i1, _, i3, i4, i5, i6⟩ := rework_exists ops asm hr v1.ctx v.force_unicode_strings he (init ++ [(2, b0)]) v.ctx hent hread
    (fun p hp => by have := mem_length_le hp; omega)
  obtain ⟨z1, z2, z3⟩ := forall₂_zip i5
  obtain ⟨v3, hw⟩ := write_ok (vfbCodec ops asm) { v1 with entries := entries } minor (entries.zip es') hhead z1.symm z3
  rw [z2] at hw
  have hread2 := read_file (vfbCodec ops asm) v minor es' [] ho (i1 ht) i3
  rw [List.append_nil, hk, List.filter_eq_self.2 (by simp)] at hread2
  refine ⟨_, v3, _, hw, hread2, hhead.symm, by rw [hctx]; exact i4, ?_⟩
  simp only [i4, ← hctx]
  refine i6.imp fun x y hxy => ⟨hxy.1, fun hx => hxy.2 ?_⟩
  rcases hx with hx | hx
  · left
    simp only [List.mem_cons, List.not_mem_nil, or_false] at hx
    rcases hx with hx | hx | hx <;> rw [hx] <;> rfl
  · exact .inr hx

end

/-- in the font that was read from `foreignFile`, the unicodes are deleted; a font name and an entry of unknown id are inserted -/
example : ∃ out v3 v4, Vfb.writeBytes (vfbCodec exampleAngles exampleAsm)
        { foreignFont with entries := [{ id := 1026, data := .dec (.str [65, 98]) }, { id := 1503, data := .dec (.int 1) },
            { id := 9999, data := .bytes [1, 2, 3] }, { id := 2, data := .bytes [] }] } = (.ok (), out, v3) ∧
      Vfb.readBytes (vfbCodec exampleAngles exampleAsm) {} out = (.ok (), v4) ∧ v4.header = foreignFont.header ∧
      v4.ctx = foreignFont.ctx ∧ v4.entries = [{ id := 1026, data := .bytes [65, 98] }, { id := 1503, data := .dec (.int 1) },
            { id := 9999, data := .bytes [1, 2, 3] }, { id := 2, data := .bytes [] }] := by
  obtain ⟨out, v3, v4, h1, h2, h3, h4, h5⟩ := C101_rework exampleAngles exampleAsm (fun v h => h) {} foreignFont foreignFile rfl rfl
    (by decide) foreignFile_read
    [{ id := 1026, data := .dec (.str [65, 98]) }, { id := 1503, data := .dec (.int 1) },
      { id := 9999, data := .bytes [1, 2, 3] }, { id := 2, data := .bytes [] }]
    (.insert ⟨rfl, rfl, .inr ⟨.string, .str [65, 98], rfl, (by decide +kernel), ⟨(by decide : IsLatin [65, 98]), by decide, by decide⟩,
        ⟨fun h => absurd h (by decide), fun h => absurd h (by decide), fun h => absurd h (by decide)⟩, fun b h => (by cases h; decide)⟩⟩
      (by decide) (.edit (.inl rfl) (.delete (by decide)
        (.insert ⟨rfl, rfl, .inl ⟨[1, 2, 3], rfl, by decide, by decide, by decide, by decide⟩⟩ (by decide) (.edit (.inl rfl) .done)))))
  refine ⟨out, v3, v4, h1, h2, h3, h4, ?_⟩
  cases h1
  cases h2
  rfl

end Verif.Props
