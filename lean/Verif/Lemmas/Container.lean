import Verif.Lemmas.Base
import Verif.Spec.Container
set_option autoImplicit false
namespace Verif
open Verif.Spec
variable {D T : Type}

theorem packLE_ok {k : Nat} {n : Nat} (h : n < 256 ^ k) : packLE k false (n : Int) = .ok (leDigits k n) := by
  have hp := pow256_pos k
  unfold packLE
  rw [if_pos (by simp only [inRange]; omega)]
  congr 2
  rw [Int.emod_eq_of_lt (by omega) (by omega)]
  simp

/-- the header followed by the payload is the frame -/
theorem header_frame {p : Nat × Bytes} (hid : p.1 < 32768) (hlen : p.2.length < 4294967296) :
    ∃ h, headerBytes p.1 p.2.length = .ok h ∧ frame p = h ++ p.2 := by
  obtain ⟨id, b⟩ := p
  simp only at *
  unfold headerBytes frame
  by_cases hl : b.length ≤ 65535
  · rw [if_neg (by omega), if_pos hl]
    rw [packLE_ok (by omega), packLE_ok (by omega)]
    exact ⟨_, rfl, rfl⟩
  · rw [if_pos (by omega), if_neg hl]
    have : setBit15 (id : Int) = ((id + 32768 : Nat) : Int) := by unfold setBit15; rw [if_neg (by omega)]; omega
    rw [this, packLE_ok (by omega), packLE_ok (by omega)]
    exact ⟨_, rfl, rfl⟩

theorem header_length {id n : Nat} {h : Bytes} (hh : headerBytes id n = .ok h) : h.length = if n ≤ 65535 then 4 else 6 := by
  have ld : ∀ k m, (leDigits k m).length = k := by
    intro k
    induction k with
    | zero => intro m; rfl
    | succ k ih => intro m; simp [leDigits, ih]
  have pk : ∀ {k : Nat} {v : Int} {z : Bytes}, packLE k false v = .ok z → z.length = k := by
    intro k v z hz
    unfold packLE at hz
    split at hz
    · cases hz; exact ld _ _
    · cases hz
  unfold headerBytes at hh
  split at hh
  · obtain ⟨a, b, ha, hb, rfl⟩ := W.seq_eq_ok.1 hh
    rw [List.length_append, pk ha, pk hb, if_neg (by omega)]
  · obtain ⟨a, b, ha, hb, rfl⟩ := W.seq_eq_ok.1 hh
    rw [List.length_append, pk ha, pk hb, if_pos (by omega)]

theorem readInt_leDigits {k n : Nat} (h : n < 256 ^ k) (rest : Bytes) :
    readInt k false (leDigits k n ++ rest) = .ok (n : Int) rest := by
  unfold readInt
  rw [R.bind_of_ok (readN_append (by rw [leDigits_length]))]
  show Res.ok _ _ = _
  unfold fromLE
  rw [if_neg (by simp), leNat_leDigits k n h]

/-- reading a framed entry -/
theorem readEntry_frame {nm : Int} {p : Nat × Bytes} (hid : p.1 < 32768) (hlen : p.2.length < 4294967296)
    (hmm : p.1 = 1410 → (p.2.length : Int) = 8 + 2 * nm) (rest : Bytes) :
    readEntry nm (frame p ++ rest) = .ok ((p.1 : Int), p.2) rest := by
  obtain ⟨id, b⟩ := p
  simp only at *
  unfold frame readEntry readU16 readU32
  by_cases hl : b.length ≤ 65535
  · rw [if_pos hl]
    simp only [List.append_assoc]
    rw [R.bind_of_ok (readInt_leDigits (by omega) _)]
    rw [if_neg (by omega)]
    rw [R.bind_of_ok (readInt_leDigits (by omega) _)]
    have he : (id : Int) % 0x8000 = id := by omega
    rw [he]
    have : (if (id : Int) = 1410 then 2 * 4 + nm * 2 else (b.length : Int)) = b.length := by
      split
      · have := hmm (by omega); omega
      · rfl
    simp only [this]
    rw [R.bind_of_ok (readN_append rfl)]
    rfl
  · rw [if_neg hl]
    simp only [List.append_assoc]
    rw [R.bind_of_ok (readInt_leDigits (by omega) _)]
    rw [if_pos (by omega)]
    rw [R.bind_of_ok (readInt_leDigits (by omega) _)]
    have he : ((id + 32768 : Nat) : Int) % 0x8000 = id := by omega
    rw [he]
    have : (if (id : Int) = 1410 then 2 * 4 + nm * 2 else (b.length : Int)) = b.length := by
      split
      · have := hmm (by omega); omega
      · rfl
    simp only [this]
    rw [R.bind_of_ok (readN_append rfl)]
    rfl

/-- reading an entry never fails -/
theorem readEntry_ok (nm : Int) (s : Bytes) : ∃ id data rest, readEntry nm s = .ok (id, data) rest ∧
    (0 ≤ id ∧ id < 32768) ∧ rest.length ≤ s.length ∧ (s ≠ [] → rest.length < s.length) := by
  have hi : ∀ k (s : Bytes), readInt k false s = .ok (fromLE false (s.take k)) (s.drop k) := by
    intro k s
    unfold readInt
    simp only [R.bind_run, R.readN]
    rw [if_neg (by omega)]
    rfl
  have hr : ∀ (n : Int) (s : Bytes), ∃ b r, R.readN n s = .ok b r ∧ r.length ≤ s.length := by
    intro n s
    unfold R.readN
    split
    · exact ⟨_, _, rfl, by simp⟩
    · exact ⟨_, _, rfl, by simp⟩
  unfold readEntry readU16 readU32
  simp only [R.bind_run, hi, R.ite_run]
  have hid : 0 ≤ fromLE false (List.take 2 s) % 32768 ∧ fromLE false (List.take 2 s) % 32768 < 32768 := by omega
  split <;>
  · generalize hsz : (if fromLE false (List.take 2 s) % 32768 = 1410 then _ else _) = sz
    obtain ⟨b, r, h1, h2⟩ := hr sz (List.drop _ (List.drop 2 s))
    refine ⟨_, b, r, ?_, hid, ?_, ?_⟩
    · rw [h1]; rfl
    · simp at h2; omega
    · intro hs
      cases s with
      | nil => exact absurd rfl hs
      | cons x s => simp at h2 ⊢; omega

theorem parseHeader_file (minor : UInt8) (rest : Bytes) : parseHeader (fileHeader minor ++ rest) = .ok (headerDict minor) rest := by
  have h0 : fileHeader minor ++ rest = leDigits 4 0x464C571A ++ (0x31 :: 0x30 :: 3 :: minor :: (leDigits 4 44 ++ (List.replicate 32 0 ++ rest))) := by
    rw [show leDigits 4 0x464C571A = [0x1A, 0x57, 0x4C, 0x46] by decide, show leDigits 4 44 = [44, 0, 0, 0] by decide]
    unfold fileHeader
    simp only [List.cons_append, List.nil_append]
  have h1 : (fileHeader minor ++ rest).drop 44 = rest := by
    rw [List.drop_append, show (fileHeader minor).length = 44 by simp [fileHeader]]
    rw [List.drop_eq_nil_of_le (by simp [fileHeader])]; simp
  have h2 : ∃ r, parseHeaderFields (fileHeader minor ++ rest) = .ok (headerDict minor, 44) r := by
    rw [h0]
    refine ⟨List.replicate 32 0 ++ rest, ?_⟩
    have r32 : ∀ (n : Nat) (rest : Bytes), n < 4294967296 → readU32 (leDigits 4 n ++ rest) = .ok (n : Int) rest :=
      fun n rest h => readInt_leDigits (by omega) rest
    unfold parseHeaderFields
    rw [R.bind_of_ok (r32 _ _ (by omega)), if_pos (by omega)]
    rw [R.bind_of_ok (readU8_cons _ _), if_pos (by decide)]
    rw [R.bind_of_ok (readU8_cons _ _), if_pos (by decide)]
    rw [R.bind_of_ok (readU8_cons _ _), if_pos (by decide)]
    rw [R.bind_of_ok (readU8_cons _ _)]
    rw [R.bind_of_ok (r32 _ _ (by omega))]
    rfl
  obtain ⟨r, h2⟩ := h2
  unfold parseHeader
  rw [h2]
  simp only
  rw [show (44 : Int).toNat = 44 from rfl, h1]
theorem compileHeader_ok (minor : UInt8) : compileHeader (headerDict minor) = .ok (fileHeader minor) := by
  have h : writeU8 (minor.toNat : Int) = .ok [minor] := by
    have := minor.toNat_lt
    unfold writeU8 toBytesLE
    rw [if_pos (by simp only [inRange]; omega)]
    rw [show ((minor.toNat : Int) % ((256 ^ 1 : Nat) : Int)).toNat = minor.toNat by omega]
    simp [leDigits]
  unfold compileHeader
  simp only [headerDict, h]
  rfl

/-! ### the reading loop -/

theorem addRead_ok (C : Codec D T) (v : Vfb D T) (p : Nat × Bytes)
    (hs : isSpecial p.1 = true → ∃ d, parseEntry (C.parse p.1 v.ctx) p.2 = .ok d) :
    v.addRead C p.1 p.2 = (.ok (), { v with
      ctx := ctxAfter C v.force_unicode_strings v.ctx p
      entries := if (p.1 : Int) ∈ v.drop_keys then v.entries else v.entries ++ [loadedEntry C v.ctx p] }) := by
  unfold Vfb.addRead ctxAfter loadedEntry
  by_cases h : isSpecial p.1 = true
  · obtain ⟨d, hd⟩ := hs h
    rw [if_pos h, if_pos h, if_pos h, hd]
    simp only [Entry.decompile, hd]
  · rw [if_neg h, if_neg h, if_neg h]

theorem readLoop_file (C : Codec D T) (init : List (Nat × Bytes)) (b : Bytes) (tail : Bytes) (v : Vfb D T) (fuel : Nat)
    (hr : Readable C v.force_unicode_strings v.ctx (init ++ [(2, b)])) (hi : ∀ p ∈ init, p.1 ≠ 2) (hf : init.length < fuel) :
    readLoop C fuel v (((init ++ [(2, b)]).map frame).flatten ++ tail) =
      (.ok (), { v with
        ctx := ctxAll C v.force_unicode_strings v.ctx (init ++ [(2, b)])
        entries := v.entries ++ (loaded C v.force_unicode_strings v.ctx (init ++ [(2, b)])).filter fun e => e.id ∉ v.drop_keys }) := by
  induction init generalizing v fuel with
  | nil =>
    obtain ⟨h1, h2, h3, h4, -⟩ := hr
    cases fuel with
    | zero => simp at hf
    | succ fuel =>
      have he := readEntry_frame (nm := v.ctx.num_masters) h1 h2 h3 tail
      simp only [List.nil_append, List.map_cons, List.map_nil, List.flatten_cons, List.flatten_nil, List.append_nil]
      rw [readLoop, he]
      simp only
      have ha := addRead_ok C v (2, b) h4
      simp only at ha
      rw [ha]
      have hid : (loadedEntry C v.ctx (2, b)).id = 2 := rfl
      simp only [ctxAll, List.foldl_cons, List.foldl_nil, loaded, List.filter_cons, List.filter_nil, hid]
      congr 2
      by_cases hd : (2 : Int) ∈ v.drop_keys
      · simp [hd]
      · simp [hd]
  | cons p init ih =>
    obtain ⟨h1, h2, h3, h4, h5⟩ := hr
    cases fuel with
    | zero => simp at hf
    | succ fuel =>
      have he := readEntry_frame (nm := v.ctx.num_masters) h1 h2 h3 (((init ++ [(2, b)]).map frame).flatten ++ tail)
      rw [List.cons_append, List.map_cons, List.flatten_cons, List.append_assoc, readLoop, he]
      simp only
      rw [addRead_ok C v p h4]
      have hp : ¬ ((p.1 : Int) = 2) := by have := hi p List.mem_cons_self; omega
      simp only
      rw [if_neg hp, ih _ _ h5 (fun q hq => hi q (List.mem_cons_of_mem _ hq)) (by simp at hf; omega)]
      have hid : (loadedEntry C v.ctx p).id = p.1 := by
        unfold loadedEntry
        split
        · split <;> rfl
        · rfl
      simp only [ctxAll, List.foldl_cons, loaded, List.filter_cons, hid]
      by_cases hd : (p.1 : Int) ∈ v.drop_keys
      · simp [hd]
      · simp [hd]

theorem frame_length_pos (p : Nat × Bytes) : 0 < (frame p).length := by
  unfold frame
  split <;> simp [leDigits_length] <;> omega

theorem frames_length (es : List (Nat × Bytes)) : es.length ≤ (es.map frame).flatten.length := by
  induction es with
  | nil => simp
  | cons p es ih =>
    have := frame_length_pos p
    simp only [List.map_cons, List.flatten_cons, List.length_append, List.length_cons]
    omega

/-- reading a well-formed file -/
theorem read_file (C : Codec D T) (v : Vfb D T) (minor : UInt8) (es : List (Nat × Bytes)) (tail : Bytes)
    (ho : v.only_header = false) (ht : Terminated es) (hr : Readable C v.force_unicode_strings v.ctx es) :
    v.readBytes C (fileOf minor es ++ tail) = (.ok (), { v with
      header := .dec (headerDict minor)
      ctx := ctxAll C v.force_unicode_strings v.ctx es
      entries := (loaded C v.force_unicode_strings v.ctx es).filter fun e => e.id ∉ v.drop_keys }) := by
  obtain ⟨init, b, rfl, hi⟩ := ht
  unfold Vfb.readBytes Vfb.readFuel fileOf
  rw [List.append_assoc, parseHeader_file]
  simp only [Vfb.clear, ho]
  rw [if_neg (by simp)]
  have := readLoop_file C init b tail { v with header := .dec (headerDict minor), entries := [] }
    ((fileHeader minor ++ ((List.map frame (init ++ [(2, b)])).flatten ++ tail)).length + 1) hr hi (by
    have := frames_length (init ++ [(2, b)])
    simp only [List.length_append, List.length_cons, List.length_nil] at this ⊢
    omega)
  simp only [List.nil_append, ho] at this
  exact this

/-! ### writing -/

/-- compiling an entry whose payload is known -/
theorem compile_payload (C : Codec D T) (ctx : Ctx) (e : Entry D T) (b : Bytes) (ht : e.temp_masters = none)
    (h : HasPayload C ctx e b) :
    ∃ ok e', e.compile C ctx = (.ok ok, e') ∧ e'.id = e.id ∧ e'.cached = e.cached ∧
      (e'.data = .bytes b ∨ (e'.data = .none ∧ b = [])) := by
  unfold HasPayload at h
  unfold Entry.compile Entry.merged
  rw [ht]
  cases hd : e.data with
  | bytes b' =>
    rw [hd] at h
    exact ⟨true, e, rfl, rfl, rfl, .inl (by rw [hd, h])⟩
  | none =>
    rw [hd] at h
    simp only at h ⊢
    cases hc : C.compile e.id with
    | none => rw [hc] at h; exact ⟨false, e, rfl, rfl, rfl, .inr ⟨hd, h⟩⟩
    | some comp =>
      rw [hc] at h
      simp only at h ⊢
      rw [h]
      exact ⟨true, _, rfl, rfl, rfl, .inl rfl⟩
  | dec d =>
    rw [hd] at h
    obtain ⟨comp, hc, h⟩ := h
    simp only [hc]
    rw [h]
    exact ⟨true, _, rfl, rfl, rfl, .inl rfl⟩

/-- an entry without temporary data that was compiled, or left alone, has a payload -/
theorem payload_of_compile (C : Codec D T) (ctx : Ctx) (e e' : Entry D T) (ok : Bool) (ht : e.temp_masters = none)
    (h : e.compile C ctx = (.ok ok, e')) : e'.id = e.id ∧ e'.cached = e.cached ∧
      ((∃ b, HasPayload C ctx e b ∧ (e'.data = .bytes b ∨ (e'.data = .none ∧ b = []))) ∨
       (∃ d, e.data = .dec d ∧ C.compile e.id = none ∧ e' = e)) := by
  unfold Entry.compile Entry.merged at h
  rw [ht] at h
  unfold HasPayload
  cases hd : e.data with
  | bytes b' => rw [hd] at h; cases h; exact ⟨rfl, rfl, .inl ⟨b', rfl, .inl hd⟩⟩
  | none =>
    rw [hd] at h
    simp only at h ⊢
    cases hc : C.compile e.id with
    | none => rw [hc] at h; cases h; exact ⟨rfl, rfl, .inl ⟨[], rfl, .inr ⟨hd, rfl⟩⟩⟩
    | some comp =>
      rw [hc] at h
      simp only at h ⊢
      cases hcc : comp ctx none with
      | error x => rw [hcc] at h; simp at h
      | ok b => rw [hcc] at h; cases h; exact ⟨rfl, rfl, .inl ⟨b, rfl, .inl rfl⟩⟩
  | dec d =>
    rw [hd] at h
    simp only at h ⊢
    cases hc : C.compile e.id with
    | none => rw [hc] at h; cases h; exact ⟨rfl, rfl, .inr ⟨d, rfl, rfl, rfl⟩⟩
    | some comp =>
      rw [hc] at h
      simp only at h ⊢
      cases hcc : comp ctx (some d) with
      | error x => rw [hcc] at h; simp at h
      | ok b => rw [hcc] at h; cases h; exact ⟨rfl, rfl, .inl ⟨b, ⟨comp, rfl, hcc⟩, .inl rfl⟩⟩

/-- an entry object that will be written as the given entry on file -/
structure Writes (C : Codec D T) (ctx : Ctx) (e : Entry D T) (p : Nat × Bytes) : Prop where
  id : e.id = p.1
  temp : e.temp_masters = none
  cached : e.cached = none
  payload : HasPayload C ctx e p.2
  id_lt : p.1 < 32768
  size_lt : p.2.length < 4294967296

theorem writeEntries_ok (C : Codec D T) (ctx : Ctx) (l : List (Entry D T × (Nat × Bytes)))
    (h : ∀ x ∈ l, Writes C ctx x.1 x.2) :
    ∃ es' es'', compileEntries C ctx (l.map Prod.fst) = (.ok (), es') ∧
      emitEntries es' = (.ok (), ((l.map Prod.snd).map frame).flatten, es'') := by
  induction l with
  | nil => exact ⟨[], [], rfl, rfl⟩
  | cons x l ih =>
    obtain ⟨es', es'', h1, h2⟩ := ih fun y hy => h y (List.mem_cons_of_mem _ hy)
    obtain ⟨hid, ht, hcc, hp, hlt, hsz⟩ := h x List.mem_cons_self
    obtain ⟨ok, e', c1, c2, c3, c4⟩ := compile_payload C ctx x.1 x.2.2 ht hp
    obtain ⟨hb, hh, hf⟩ := header_frame hlt hsz
    have hsize : e'.size = .ok x.2.2.length := by
      unfold Entry.size
      rcases c4 with c4 | ⟨c4, c5⟩
      · rw [c4]
      · rw [c4, c5]; rfl
    have hhd : e'.header = (.ok hb, { e' with cached := some hb }) := by
      unfold Entry.header
      rw [c3, hcc, hsize, c2, hid]
      simp only [hh]
    refine ⟨e' :: es', { e' with cached := some hb } :: es'', ?_, ?_⟩
    · rw [List.map_cons, compileEntries, c1]
      simp only
      rw [h1]
    · rw [emitEntries, hhd]
      rcases c4 with c4 | ⟨c4, c5⟩
      · simp only [c4, h2]
        rw [List.map_cons, List.map_cons, List.flatten_cons, hf]
      · simp only [c4, h2]
        rw [List.map_cons, List.map_cons, List.flatten_cons, hf, c5, List.append_nil]

theorem write_ok (C : Codec D T) (v : Vfb D T) (minor : UInt8) (l : List (Entry D T × (Nat × Bytes)))
    (hh : v.header = .dec (headerDict minor)) (he : v.entries = l.map Prod.fst)
    (h : ∀ x ∈ l, Writes C v.ctx x.1 x.2) :
    ∃ v', v.writeBytes C = (.ok (), fileOf minor (l.map Prod.snd), v') := by
  obtain ⟨es', es'', h1, h2⟩ := writeEntries_ok C v.ctx l h
  unfold Vfb.writeBytes Vfb.compile
  rw [hh, he]
  simp only [HData.compile, compileHeader_ok, h1, h2]
  exact ⟨_, rfl⟩

theorem writeEntries_inv (C : Codec D T) (ctx : Ctx) (es es' es'' : List (Entry D T)) (out : Bytes)
    (ht : ∀ e ∈ es, e.temp_masters = none ∧ e.cached = none ∧ 0 ≤ e.id ∧ e.id < 32768)
    (h1 : compileEntries C ctx es = (.ok (), es')) (h2 : emitEntries es' = (.ok (), out, es'')) :
    ∃ l : List (Entry D T × (Nat × Bytes)), es = l.map Prod.fst ∧ (∀ x ∈ l, Writes C ctx x.1 x.2) ∧
      out = ((l.map Prod.snd).map frame).flatten := by
  induction es generalizing es' es'' out with
  | nil =>
    rw [compileEntries] at h1
    cases h1
    rw [emitEntries] at h2
    cases h2
    exact ⟨[], rfl, by simp, rfl⟩
  | cons e es ih =>
    rw [compileEntries] at h1
    obtain ⟨t1, t2, t3, t4⟩ := ht e List.mem_cons_self
    cases hc : e.compile C ctx with
    | mk r e' =>
      rw [hc] at h1
      cases r with
      | error x => simp at h1
      | ok ok =>
        simp only at h1
        cases hce : compileEntries C ctx es with
        | mk r1 es1 =>
          rw [hce] at h1
          simp only [Prod.mk.injEq] at h1
          obtain ⟨rfl, rfl⟩ := h1
          obtain ⟨c1, c2, c3⟩ := payload_of_compile C ctx e e' ok t1 hc
          rw [emitEntries] at h2
          rcases c3 with ⟨b, hp, hb⟩ | ⟨d, hd, hcn, rfl⟩
          · have hsize : e'.size = .ok b.length := by
              unfold Entry.size
              rcases hb with hb | ⟨hb, hb'⟩
              · rw [hb]
              · rw [hb, hb']; rfl
            unfold Entry.header at h2
            rw [c2, t2, hsize, c1] at h2
            simp only at h2
            cases hh : headerBytes e.id b.length with
            | error x => rw [hh] at h2; simp at h2
            | ok hdr =>
              rw [hh] at h2
              simp only at h2
              obtain ⟨n, hn⟩ : ∃ n : Nat, e.id = n := ⟨e.id.toNat, by omega⟩
              have hlt : b.length < 4294967296 := by
                apply Decidable.byContradiction
                intro hge
                unfold headerBytes at hh
                rw [if_pos (by omega)] at hh
                obtain ⟨_, _, _, hq, _⟩ := W.seq_eq_ok.1 hh
                unfold packLE at hq
                rw [if_neg (by simp only [inRange]; omega)] at hq
                cases hq
              obtain ⟨hdr', hh', hf⟩ := header_frame (p := (n, b)) (by simp only; omega) hlt
              simp only at hh'
              rw [hn] at hh
              rw [hh] at hh'
              cases hh'
              cases he : emitEntries es1 with
              | mk r2 q =>
                obtain ⟨out2, es2⟩ := q
                have hrec : r2 = .ok () ∧ out = hdr ++ b ++ out2 := by
                  rcases hb with hb | ⟨hb, hb'⟩
                  · rw [hb] at h2
                    simp only [he] at h2
                    cases h2; exact ⟨rfl, rfl⟩
                  · rw [hb] at h2
                    simp only [he] at h2
                    cases h2; exact ⟨rfl, by rw [hb', List.append_nil]⟩
                obtain ⟨rfl, ho⟩ := hrec
                obtain ⟨l, hl1, hl2, hl3⟩ := ih es1 es2 out2 (fun x hx => ht x (List.mem_cons_of_mem _ hx)) hce he
                refine ⟨(e, (n, b)) :: l, by rw [List.map_cons, ← hl1], ?_, ?_⟩
                · intro x hx
                  rcases List.mem_cons.1 hx with rfl | hx
                  · exact ⟨hn, t1, t2, hp, by simp only; omega, hlt⟩
                  · exact hl2 x hx
                · rw [ho, hl3, List.map_cons, List.map_cons, List.flatten_cons, hf]
          · unfold Entry.header Entry.size at h2
            rw [t2, hd] at h2
            simp at h2

/-- what a successful write has written -/
theorem write_inv (C : Codec D T) (v v' : Vfb D T) (minor : UInt8) (out : Bytes) (hh : v.header = .dec (headerDict minor))
    (ht : ∀ e ∈ v.entries, e.temp_masters = none ∧ e.cached = none ∧ 0 ≤ e.id ∧ e.id < 32768)
    (h : v.writeBytes C = (.ok (), out, v')) :
    ∃ l : List (Entry D T × (Nat × Bytes)), v.entries = l.map Prod.fst ∧ (∀ x ∈ l, Writes C v.ctx x.1 x.2) ∧
      out = fileOf minor (l.map Prod.snd) := by
  unfold Vfb.writeBytes Vfb.compile at h
  rw [hh] at h
  simp only [HData.compile, compileHeader_ok] at h
  cases hc : compileEntries C v.ctx v.entries with
  | mk r es' =>
    rw [hc] at h
    cases r with
    | error x => simp at h
    | ok u =>
      simp only at h
      cases he : emitEntries es' with
      | mk r2 q =>
        obtain ⟨out2, es2⟩ := q
        rw [he] at h
        simp only [Prod.mk.injEq] at h
        obtain ⟨rfl, rfl, _⟩ := h
        obtain ⟨l, h1, h2, h3⟩ := writeEntries_inv C v.ctx _ _ _ _ ht hc he
        exact ⟨l, h1, h2, by rw [h3]; rfl⟩

end Verif
