import Verif.Props.Build
/-! Writing and reading again a font whose entries were changed in any way that still compiles: lemmas for C103. -/
set_option autoImplicit false
namespace Verif.Props
open Verif Verif.Spec

section
variable {D T : Type}

/-- compiling the entry gives the entry on file -/
structure Yields (C : Codec D T) (ctx : Ctx) (e : Entry D T) (p : Nat × Bytes) : Prop where
  done : ∃ ok e', e.compile C ctx = (.ok ok, e') ∧ e'.id = p.1 ∧ e'.cached = none ∧ (e'.data = .bytes p.2 ∨ (e'.data = .none ∧ p.2 = []))
  id_lt : p.1 < 32768
  size_lt : p.2.length < 4294967296

theorem yields_of_writes {C : Codec D T} {ctx : Ctx} {e : Entry D T} {p : Nat × Bytes} (h : Writes C ctx e p) : Yields C ctx e p := by
  obtain ⟨ok, e', c1, c2, c3, c4⟩ := compile_payload C ctx e p.2 h.temp h.payload
  exact ⟨⟨ok, e', c1, by rw [c2, h.id], by rw [c3, h.cached], c4⟩, h.id_lt, h.size_lt⟩

theorem yieldEntries_ok (C : Codec D T) (ctx : Ctx) {es : List (Entry D T)} {ps : List (Nat × Bytes)} (h : List.Forall₂ (Yields C ctx) es ps) :
    ∃ es' es'', compileEntries C ctx es = (.ok (), es') ∧ emitEntries es' = (.ok (), (ps.map frame).flatten, es'') := by
  induction h with
  | nil => exact ⟨[], [], rfl, rfl⟩
  | cons hx _ ih =>
    rename_i x p es ps _
    obtain ⟨es', es'', h1, h2⟩ := ih
    obtain ⟨⟨ok, e', c1, c2, c3, c4⟩, hlt, hsz⟩ := hx
    obtain ⟨hb, hh, hf⟩ := header_frame hlt hsz
    have hsize : e'.size = .ok p.2.length := by
      unfold Entry.size
      rcases c4 with c4 | ⟨c4, c5⟩
      · rw [c4]
      · rw [c4, c5]; rfl
    have hhd : e'.header = (.ok hb, { e' with cached := some hb }) := by
      unfold Entry.header
      rw [c3, hsize, c2]
      simp only [hh]
    refine ⟨e' :: es', { e' with cached := some hb } :: es'', ?_, ?_⟩
    · rw [compileEntries, c1]
      simp only
      rw [h1]
    · rw [emitEntries, hhd]
      rcases c4 with c4 | ⟨c4, c5⟩
      · simp only [c4, h2]
        rw [List.map_cons, List.flatten_cons, hf]
      · simp only [c4, h2]
        rw [List.map_cons, List.flatten_cons, hf, c5, List.append_nil]

theorem yield_ok (C : Codec D T) (v : Vfb D T) (minor : UInt8) (ps : List (Nat × Bytes)) (hh : v.header = .dec (headerDict minor))
    (h : List.Forall₂ (Yields C v.ctx) v.entries ps) : ∃ v', v.writeBytes C = (.ok (), fileOf minor ps, v') := by
  obtain ⟨es', es'', h1, h2⟩ := yieldEntries_ok C v.ctx h
  unfold Vfb.writeBytes Vfb.compile
  rw [hh]
  simp only [HData.compile, compileHeader_ok, h1, h2]
  exact ⟨_, rfl⟩

end

section
variable (ops : AngleOps) (asm : AsmOps)

/-- the entry `p` of a file becomes `p'`, because its object has become `e2` -/
structure FileStep (ctx c : Ctx) (force : Bool) (p : Nat × Bytes) (e2 : Entry (Decompiled ops.Angle asm.Asm) (List MasterData))
    (p' : Nat × Bytes) : Prop where
  id : p'.1 = p.1
  yields : Yields (vfbCodec ops asm) ctx e2 p'
  after : ∀ c', ctxAfter (vfbCodec ops asm) force c' p' = ctxAfter (vfbCodec ops asm) force c' p
  pair : p'.1 = 1410 → p' = p
  special : isSpecial p'.1 = true → ∃ d, parseEntry ((vfbCodec ops asm).parse p'.1 c) p'.2 = .ok d

/-- `R e e2`: what the user has made of the entry `e`; `K e e2 y`: what the entry `y` that is read in its place is like -/
def StepsExist (ctx : Ctx) (force : Bool) (R : Entry (Decompiled ops.Angle asm.Asm) (List MasterData) → Entry (Decompiled ops.Angle asm.Asm) (List MasterData) → Prop)
    (K : Entry (Decompiled ops.Angle asm.Asm) (List MasterData) → Entry (Decompiled ops.Angle asm.Asm) (List MasterData) →
      Entry (Decompiled ops.Angle asm.Asm) (List MasterData) → Prop) : Prop :=
  ∀ (c : Ctx) (p : Nat × Bytes) (e2 : Entry (Decompiled ops.Angle asm.Asm) (List MasterData)), p.1 < 32768 → p.2.length < 800000000 →
    (isSpecial p.1 = true → ∃ d, parseEntry ((vfbCodec ops asm).parse p.1 c) p.2 = .ok d) →
    R (loadedEntry (vfbCodec ops asm) c p) e2 →
    ∃ p', FileStep ops asm ctx c force p e2 p' ∧ K (loadedEntry (vfbCodec ops asm) c p) e2 (loadedEntry (vfbCodec ops asm) c p')

theorem file_steps {ctx : Ctx} {force : Bool} {R : Entry (Decompiled ops.Angle asm.Asm) (List MasterData) → Entry (Decompiled ops.Angle asm.Asm) (List MasterData) → Prop}
    {K : Entry (Decompiled ops.Angle asm.Asm) (List MasterData) → Entry (Decompiled ops.Angle asm.Asm) (List MasterData) →
      Entry (Decompiled ops.Angle asm.Asm) (List MasterData) → Prop} (hs : StepsExist ops asm ctx force R K)
    (es : List (Nat × Bytes)) (c : Ctx) (l2 : List (Entry (Decompiled ops.Angle asm.Asm) (List MasterData)))
    (hread : Readable (vfbCodec ops asm) force c es) (hlen : ∀ p ∈ es, p.2.length < 800000000)
    (he : List.Forall₂ R (loaded (vfbCodec ops asm) force c es) l2) :
    ∃ es', es'.map Prod.fst = es.map Prod.fst ∧ Readable (vfbCodec ops asm) force c es' ∧
      ctxAll (vfbCodec ops asm) force c es' = ctxAll (vfbCodec ops asm) force c es ∧
      List.Forall₂ (Yields (vfbCodec ops asm) ctx) l2 es' ∧ (loaded (vfbCodec ops asm) force c es' : List (Entry _ (List MasterData))).length = l2.length ∧
      ∀ (i : Nat) e e2, (loaded (vfbCodec ops asm) force c es)[i]? = some e → l2[i]? = some e2 →
        ∃ y, (loaded (vfbCodec ops asm) force c es')[i]? = some y ∧ K e e2 y := by
  induction es generalizing c l2 with
  | nil =>
    cases he
    exact ⟨[], rfl, trivial, rfl, .nil, rfl, fun i e e2 h => by simp [loaded] at h⟩
  | cons p es ih =>
    cases he with
    | cons he htl =>
      rename_i e2 l2
      obtain ⟨r1, r2, r3, r4, r5⟩ := hread
      obtain ⟨p', hp, hK⟩ := hs c p e2 r1 (hlen p List.mem_cons_self) r4 he
      obtain ⟨es', i1, i2, i3, i4, i5, i6⟩ := ih (ctxAfter (vfbCodec ops asm) force c p) l2 r5
        (fun q hq => hlen q (List.mem_cons_of_mem _ hq)) htl
      refine ⟨p' :: es', ?_, ⟨?_, hp.yields.size_lt, ?_, hp.special, ?_⟩, ?_, .cons hp.yields i4, ?_, ?_⟩
      · simp [i1, hp.id]
      · rw [hp.id]; exact r1
      · intro h
        rw [hp.pair h]
        exact r3 (by rw [← hp.id]; exact h)
      · rw [hp.after]; exact i2
      · simp only [ctxAll, List.foldl_cons, hp.after]
        exact i3
      · simp only [loaded, List.length_cons, hp.after, i5]
      · intro i e e3 h1 h2
        cases i with
        | zero =>
          simp only [loaded, List.getElem?_cons_zero, Option.some.injEq] at h1 h2 ⊢
          subst h1
          subst h2
          exact ⟨_, rfl, hK⟩
        | succ i =>
          simp only [loaded, List.getElem?_cons_succ, hp.after] at h1 h2 ⊢
          exact i6 i e e3 h1 h2

/-- A font that was read from a file, whose entries were changed, is written and read again. -/
theorem rewrite_font {R : Entry (Decompiled ops.Angle asm.Asm) (List MasterData) → Entry (Decompiled ops.Angle asm.Asm) (List MasterData) → Prop}
    {K : Entry (Decompiled ops.Angle asm.Asm) (List MasterData) → Entry (Decompiled ops.Angle asm.Asm) (List MasterData) →
      Entry (Decompiled ops.Angle asm.Asm) (List MasterData) → Prop}
    (v v1 v2 : Vfb (Decompiled ops.Angle asm.Asm) (List MasterData)) (file : Bytes) (hs : StepsExist ops asm v1.ctx v.force_unicode_strings R K)
    (ho : v.only_header = false) (hk : v.drop_keys = []) (hl : file.length < 800000000)
    (h : v.readBytes (vfbCodec ops asm) file = (.ok (), v1)) (hh : v2.header = v1.header) (hc : v2.ctx = v1.ctx)
    (he : List.Forall₂ R v1.entries v2.entries) :
    ∃ out v3 v4, Vfb.writeBytes (vfbCodec ops asm) v2 = (.ok (), out, v3) ∧
      v.readBytes (vfbCodec ops asm) out = (.ok (), v4) ∧ v4.header = v1.header ∧ v4.ctx = v1.ctx ∧
      v4.entries.length = v1.entries.length ∧
      ∀ (i : Nat) e e2, v1.entries[i]? = some e → v2.entries[i]? = some e2 → ∃ y, v4.entries[i]? = some y ∧ K e e2 y := by
  obtain ⟨minor, init, b0, hi0, hread, hsum, _, hf⟩ := C10_every_file _ v v1 file ho (.inl (by omega)) h
  have ht : Terminated (init ++ [(2, b0)]) := ⟨init, b0, rfl, hi0⟩
  have h1 := hf []
  rw [read_file _ v minor _ [] ho ht hread, hk, List.filter_eq_self.2 (by simp)] at h1
  injection h1 with _ h1
  have hent : v1.entries = loaded (vfbCodec ops asm) v.force_unicode_strings v.ctx (init ++ [(2, b0)]) := by rw [← h1]
  have hctx : v1.ctx = ctxAll (vfbCodec ops asm) v.force_unicode_strings v.ctx (init ++ [(2, b0)]) := by rw [← h1]
  have hhead : v1.header = .dec (headerDict minor) := by rw [← h1]
  have hll := he.length_eq
  rw [hent] at he
  obtain ⟨es', i1, i2, i3, i4, i5, i6⟩ := file_steps ops asm hs (init ++ [(2, b0)]) v.ctx v2.entries hread
    (fun p hp => by have := mem_length_le hp; omega) he
  rw [← hc] at i4
  obtain ⟨v3, hw⟩ := yield_ok (vfbCodec ops asm) v2 minor es' (by rw [hh, hhead]) i4
  have hread2 := read_file (vfbCodec ops asm) v minor es' [] ho (terminated_ids i1 ht) i2
  rw [List.append_nil, hk, List.filter_eq_self.2 (by simp)] at hread2
  refine ⟨_, v3, _, hw, hread2, hhead.symm, by rw [hctx]; exact i3, ?_, ?_⟩
  · show (loaded (vfbCodec ops asm) v.force_unicode_strings v.ctx es' : List (Entry _ (List MasterData))).length = _
    rw [i5, hll]
  · intro i e e2 g1 g2
    rw [hent] at g1
    exact i6 i e e2 g1 g2

end
end Verif.Props
