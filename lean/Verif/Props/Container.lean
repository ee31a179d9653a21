import Verif.Lemmas.Dec
import Verif.Lemmas.Container
import Verif.Lemmas.Dict
/-! C08–C14, C53, C54: the file container, for every table of parser and compiler classes. -/
set_option autoImplicit false
namespace Verif.Props
open Verif Verif.Spec
variable {D T : Type}

/-! ## C08 -/

/-- **C08** The header of an entry followed by its data is the entry on file, and reading that back gives the id
and the data and leaves the stream right behind the entry, whatever follows. -/
theorem C08_entry_framing (e : Entry D T) (id : Nat) (b rest : Bytes) (nm : Int) (hid : e.id = id) (h15 : id < 32768)
    (hd : e.data = .bytes b) (hc : e.cached = none) (hs : b.length < 4294967296)
    (hmm : id = 1410 → (b.length : Int) = 8 + 2 * nm) :
    ∃ h, (e.header).1 = .ok h ∧ h ++ b = frame (id, b) ∧
      readEntry nm (h ++ b ++ rest) = .ok ((id : Int), b) rest := by
  obtain ⟨h, hh, hf⟩ := header_frame (p := (id, b)) h15 hs
  refine ⟨h, ?_, hf.symm, ?_⟩
  · unfold Entry.header Entry.size
    rw [hc, hd, hid]
    simp only at hh ⊢
    rw [hh]
  · have := readEntry_frame (nm := nm) (p := (id, b)) h15 hs hmm rest
    rw [hf] at this
    exact this

example : ∃ h, (({ id := 1026, data := .bytes [65, 66] } : Entry Unit Unit).header).1 = .ok h ∧ h ++ [65, 66] = frame (1026, [65, 66]) ∧
    readEntry 1 (h ++ [65, 66] ++ [2, 0]) = .ok ((1026 : Nat), [65, 66]) [2, 0] :=
  C08_entry_framing _ _ _ _ _ rfl (by decide) rfl rfl (by decide) (by decide)

/-- **C08** The header has four bytes for payloads of up to 65535 bytes and six bytes for longer ones. -/
theorem C08_header_size (id n : Nat) (h15 : id < 32768) (hs : n < 4294967296) :
    ∃ h, headerBytes id n = .ok h ∧ h.length = if n ≤ 65535 then 4 else 6 := by
  obtain ⟨h, hh, _⟩ := header_frame (p := (id, List.replicate n 0)) h15 (by simpa using hs)
  simp only [List.length_replicate] at hh
  exact ⟨h, hh, header_length hh⟩

/-- **C08** A payload that does not fit into 32 bits is refused. -/
theorem C08_too_big (id : Int) (n : Nat) (hs : 4294967296 ≤ n) : ∃ x, headerBytes id n = .error x := by
  cases hh : headerBytes id n with
  | error x => exact ⟨x, rfl⟩
  | ok z =>
    unfold headerBytes at hh
    rw [if_pos (by omega)] at hh
    obtain ⟨_, _, _, hq, _⟩ := W.seq_eq_ok.1 hh
    unfold packLE at hq
    rw [if_neg (by simp only [inRange]; omega)] at hq
    cases hq

/-- **C08** The limit of 15 bits for ids is necessary: a short entry with a larger id is written, but not
read back as such. -/
theorem C08_large_id (id : Nat) (b rest : Bytes) (nm : Int) (h : 32768 ≤ id ∧ id < 65536) (hs : b.length ≤ 65535) :
    ∃ hd, headerBytes id b.length = .ok hd ∧ readEntry nm (hd ++ b ++ rest) ≠ .ok ((id : Int), b) rest := by
  refine ⟨leDigits 2 id ++ leDigits 2 b.length, ?_, ?_⟩
  · unfold headerBytes
    rw [if_neg (by omega), packLE_ok (by omega), packLE_ok (by omega)]
    rfl
  · intro he
    obtain ⟨i, d, r, h1, h2, _⟩ := readEntry_ok nm (leDigits 2 id ++ leDigits 2 b.length ++ b ++ rest)
    rw [he] at h1
    cases h1
    omega

/-! ## C09 -/

/-- **C09** The header dictionary survives writing and reading, for every minor version, and reading continues
right behind the written header. -/
theorem C09_header_roundtrip (minor : UInt8) (rest : Bytes) :
    ∃ b, compileHeader (headerDict minor) = .ok b ∧ b.length = 44 ∧ parseHeader (b ++ rest) = .ok (headerDict minor) rest :=
  ⟨fileHeader minor, compileHeader_ok minor, by simp [fileHeader], parseHeader_file minor rest⟩

/-- **C09** Only files with the FontLab signature, and the supported application, file and major version, are
accepted; nothing else of the file can change the header dictionary but the minor version. -/
theorem C09_header_checked (file rest : Bytes) (h : Header) (hp : parseHeader file = .ok h rest) :
    ∃ minor : UInt8, h = headerDict minor := by
  unfold parseHeader at hp
  cases hf : parseHeaderFields file with
  | err e r => rw [hf] at hp; cases hp
  | ok x r =>
    rw [hf] at hp
    obtain ⟨hd, off⟩ := x
    cases hp
    unfold parseHeaderFields at hf
    obtain ⟨a, r1, h1, hf⟩ := R.bind_eq_ok.1 hf
    rw [R.ite_run] at hf
    split at hf
    · next ha =>
      obtain ⟨b, r2, h2, hf⟩ := R.bind_eq_ok.1 hf
      rw [R.ite_run] at hf
      split at hf
      · next hb =>
        obtain ⟨c, r3, h3, hf⟩ := R.bind_eq_ok.1 hf
        rw [R.ite_run] at hf
        split at hf
        · next hc =>
          obtain ⟨d, r4, h4, hf⟩ := R.bind_eq_ok.1 hf
          rw [R.ite_run] at hf
          split at hf
          · next hd =>
            obtain ⟨m, r5, h5, hf⟩ := R.bind_eq_ok.1 hf
            obtain ⟨o, r6, h6, hf⟩ := R.bind_eq_ok.1 hf
            cases hf
            have hm := (post_u8 (N := r4.length) _ _ _ (Nat.le_refl _) h5).1
            refine ⟨UInt8.ofNat m.toNat, ?_⟩
            unfold headerDict
            rw [toNat_ofNat_lt (by omega)]
            rw [ha, hb, hc, hd]
            simp only [Header.mk.injEq, true_and]
            omega
          · cases hf
        · cases hf
      · cases hf
    · cases hf

/-- **C09** The data offset of the source file is not kept: writing always puts the data at offset 44. -/
theorem C09_offset_normalised (h : Header) (b : Bytes) (hc : compileHeader h = .ok b) : b.length = 44 := by
  have u : ∀ {k : Nat} {v : Int} {z : Bytes}, toBytesLE k false v = .ok z → z.length = k := by
    intro k v z hz
    unfold toBytesLE at hz
    split at hz
    · cases hz; exact leDigits_length _ _
    · cases hz
  unfold compileHeader at hc
  simp only [W.seq_assoc] at hc
  obtain ⟨_, _, a1, c1, rfl⟩ := W.seq_eq_ok.1 hc
  obtain ⟨_, _, a2, c2, rfl⟩ := W.seq_eq_ok.1 c1
  obtain ⟨_, _, a3, c3, rfl⟩ := W.seq_eq_ok.1 c2
  obtain ⟨_, _, a4, c4, rfl⟩ := W.seq_eq_ok.1 c3
  obtain ⟨_, _, a5, c5, rfl⟩ := W.seq_eq_ok.1 c4
  obtain ⟨_, _, a6, a7, rfl⟩ := W.seq_eq_ok.1 c5
  rw [show W.all (List.replicate 32 (0 : Int)) writeU8 = .ok (List.replicate 32 0) by decide] at a7
  cases a7
  simp only [List.length_append, u a1, u a2, u a3, u a4, u a5, u a6, List.length_replicate]

/-! ## C10 -/

/-- **C10** Reading a file (whatever follows its end entry) gives its header and its entries in order: every
entry holds its binary data unchanged, except for the three that are decompiled while reading. -/
theorem C10_read (C : Codec D T) (v : Vfb D T) (minor : UInt8) (es : List (Nat × Bytes)) (tail : Bytes)
    (ho : v.only_header = false) (ht : Terminated es) (hr : Readable C v.force_unicode_strings v.ctx es) :
    ∃ v', v.readBytes C (fileOf minor es ++ tail) = (.ok (), v') ∧ v'.header = .dec (headerDict minor) ∧
      v'.entries = (loaded C v.force_unicode_strings v.ctx es).filter (fun e => e.id ∉ v.drop_keys) ∧
      v'.ctx = ctxAll C v.force_unicode_strings v.ctx es :=
  ⟨_, read_file C v minor es tail ho ht hr, rfl, rfl, rfl⟩

/-- the objects and the entries on file they come from -/
theorem loaded_zip (C : Codec D T) (force : Bool) (ctx : Ctx) (es : List (Nat × Bytes)) :
    ∃ l : List (Entry D T × (Nat × Bytes)), l.map Prod.fst = loaded C force ctx es ∧ l.map Prod.snd = es ∧
      ∀ x ∈ l, ∃ c, x.1 = loadedEntry C c x.2 := by
  induction es generalizing ctx with
  | nil => exact ⟨[], rfl, rfl, by simp⟩
  | cons p es ih =>
    obtain ⟨l, h1, h2, h3⟩ := ih (ctxAfter C force ctx p)
    refine ⟨(loadedEntry C ctx p, p) :: l, by simp [loaded, h1], by simp [h2], ?_⟩
    intro x hx
    rcases List.mem_cons.1 hx with rfl | hx
    · exact ⟨ctx, rfl⟩
    · exact h3 x hx

theorem readable_ranges {C : Codec D T} {force : Bool} {ctx : Ctx} {es : List (Nat × Bytes)} (h : Readable C force ctx es) :
    ∀ p ∈ es, p.1 < 32768 ∧ p.2.length < 4294967296 := by
  induction es generalizing ctx with
  | nil => simp
  | cons q es ih =>
    obtain ⟨h1, h2, _, _, h5⟩ := h
    intro p hp
    rcases List.mem_cons.1 hp with rfl | hp
    · exact ⟨h1, h2⟩
    · exact ih h5 p hp

/-- **C10** A file that is read and written without being touched is reproduced byte for byte, provided the
three entries that are decompiled while reading are compiled to what was read. -/
theorem C10_untouched_lossless (C : Codec D T) (v : Vfb D T) (minor : UInt8) (es : List (Nat × Bytes)) (tail : Bytes)
    (ho : v.only_header = false) (hk : v.drop_keys = []) (ht : Terminated es)
    (hr : Readable C v.force_unicode_strings v.ctx es)
    (hcan : ∀ p ∈ es, isSpecial p.1 = true → ∀ ctx d, parseEntry (C.parse p.1 ctx) p.2 = .ok d →
      ∃ comp, C.compile p.1 = some comp ∧ ∀ ctx, comp ctx (some d) = .ok p.2) :
    ∃ v' v'', v.readBytes C (fileOf minor es ++ tail) = (.ok (), v') ∧
      v'.writeBytes C = (.ok (), fileOf minor es, v'') := by
  obtain ⟨l, l1, l2, l3⟩ := loaded_zip C v.force_unicode_strings v.ctx es
  have hrange := readable_ranges hr
  have hread := read_file C v minor es tail ho ht hr
  rw [hk] at hread
  rw [List.filter_eq_self.2 (by simp)] at hread
  obtain ⟨v'', hw⟩ := write_ok C (minor := minor) (l := l) (v := { v with
      header := .dec (headerDict minor), ctx := ctxAll C v.force_unicode_strings v.ctx es, drop_keys := [],
      entries := loaded C v.force_unicode_strings v.ctx es }) rfl l1.symm (by
    intro x hx
    obtain ⟨c, hxc⟩ := l3 x hx
    have hm : x.2 ∈ es := by rw [← l2]; exact List.mem_map_of_mem hx
    obtain ⟨h1, h2⟩ := hrange _ hm
    have hl : ∀ c, (loadedEntry C c x.2).id = x.2.1 ∧ (loadedEntry C c x.2).temp_masters = none ∧
        (loadedEntry C c x.2).cached = none := by
      intro c
      unfold loadedEntry
      split
      · split <;> exact ⟨rfl, rfl, rfl⟩
      · exact ⟨rfl, rfl, rfl⟩
    refine ⟨?_, ?_, ?_, ?_, h1, h2⟩
    · rw [hxc]; exact (hl c).1
    · rw [hxc]; exact (hl c).2.1
    · rw [hxc]; exact (hl c).2.2
    · rw [hxc]
      unfold HasPayload loadedEntry
      by_cases hs : isSpecial x.2.1 = true
      · rw [if_pos hs]
        cases hp : parseEntry (C.parse x.2.1 c) x.2.2 with
        | error e => rfl
        | ok d =>
          obtain ⟨comp, hc1, hc2⟩ := hcan _ hm hs c d hp
          exact ⟨comp, hc1, hc2 _⟩
      · rw [if_neg hs])
  refine ⟨_, v'', hread, ?_⟩
  rw [hk] at *
  rw [l2] at hw
  exact hw

/-- **C10** What is written, whenever writing succeeds, is a well-formed file: the header and, for each entry in
order, its id and the size and bytes of its payload – the unchanged binary data or what the compiler made of
the decompiled data. -/
theorem C10_written_format (C : Codec D T) (v v' : Vfb D T) (minor : UInt8) (out : Bytes)
    (hh : v.header = .dec (headerDict minor))
    (hf : ∀ e ∈ v.entries, e.temp_masters = none ∧ e.cached = none ∧ 0 ≤ e.id ∧ e.id < 32768)
    (hw : v.writeBytes C = (.ok (), out, v')) :
    ∃ ps : List (Nat × Bytes), out = fileOf minor ps ∧ ps.length = v.entries.length ∧
      ∀ i (h : i < ps.length) (h' : i < v.entries.length),
        (v.entries[i]).id = (ps[i]).1 ∧ HasPayload C v.ctx v.entries[i] (ps[i]).2 := by
  obtain ⟨l, h1, h2, h3⟩ := write_inv C v v' minor out hh hf hw
  refine ⟨l.map Prod.snd, h3, by rw [h1]; simp, ?_⟩
  intro i h h'
  have hl : i < l.length := by simpa using h
  have := h2 _ (List.getElem_mem hl)
  simp only [h1, List.getElem_map]
  exact ⟨this.id, this.payload⟩

/-! ## C11 -/

/-- at the end of the stream the reading loop goes on for ever -/
theorem readLoop_nil (C : Codec D T) (n : Nat) (v : Vfb D T) : (readLoop C n v []).1 = .error .fuel := by
  induction n generalizing v with
  | zero => rfl
  | succ n ih =>
    have he : readEntry v.ctx.num_masters [] = .ok (0, []) [] := by
      unfold readEntry
      rw [R.bind_of_ok (show readU16 [] = .ok 0 [] from rfl), if_neg (by omega),
        R.bind_of_ok (show readU16 [] = .ok 0 [] from rfl)]
      rfl
    rw [readLoop, he]
    simp only
    have ha : ∃ v', v.addRead C 0 [] = (.ok (), v') := by
      unfold Vfb.addRead
      rw [if_neg (by decide)]
      exact ⟨_, rfl⟩
    obtain ⟨v', ha⟩ := ha
    rw [ha]
    simp only
    rw [if_neg (by omega)]
    exact ih v'

theorem readLoop_mono (C : Codec D T) (n k : Nat) (v : Vfb D T) (s : Bytes) (h : (readLoop C n v s).1 ≠ .error .fuel) :
    readLoop C (n + k) v s = readLoop C n v s := by
  induction n generalizing v s with
  | zero => exact absurd rfl h
  | succ n ih =>
    rw [show n + 1 + k = (n + k) + 1 by omega]
    rw [readLoop] at h
    rw [readLoop, readLoop]
    cases he : readEntry v.ctx.num_masters s with
    | err x r => rfl
    | ok p rest =>
      obtain ⟨id, data⟩ := p
      rw [he] at h
      simp only at h ⊢
      cases ha : v.addRead C id data with
      | mk r v' =>
        rw [ha] at h
        cases r with
        | error x => rfl
        | ok u =>
          simp only at h ⊢
          by_cases h2 : id = 2
          · rw [if_pos h2, if_pos h2]
          · rw [if_neg h2] at h
            rw [if_neg h2, if_neg h2, ih _ _ h]

theorem readLoop_fuel (C : Codec D T) (m n : Nat) (v : Vfb D T) (s : Bytes) (hm : s.length < m)
    (h : (readLoop C m v s).1 = .error .fuel) : (readLoop C n v s).1 = .error .fuel := by
  induction n generalizing m v s with
  | zero => rfl
  | succ n ih =>
    cases m with
    | zero => omega
    | succ m =>
      rw [readLoop] at h
      rw [readLoop]
      obtain ⟨id, data, rest, he, _, hl, hl'⟩ := readEntry_ok v.ctx.num_masters s
      rw [he] at h ⊢
      simp only at h ⊢
      cases ha : v.addRead C id data with
      | mk r v' =>
        rw [ha] at h
        cases r with
        | error x => exact h
        | ok u =>
          simp only at h ⊢
          by_cases h2 : id = 2
          · rw [if_pos h2] at h; cases h
          · rw [if_neg h2] at h ⊢
            by_cases hs : s = []
            · subst hs
              have : rest = [] := by simpa using hl
              subst this
              exact readLoop_nil C n v'
            · exact ih m v' rest (by have := hl' hs; omega) h

/-- **C11** Reading either finishes within as many entries as the file has bytes – and then a larger bound
makes no difference – or it never finishes, whatever the bound. -/
theorem C11_finishes_or_runs_forever (C : Codec D T) (v : Vfb D T) (file : Bytes) :
    (∀ k, v.readFuel C (file.length + 1 + k) file = v.readBytes C file) ∨
    (∀ n, (v.readFuel C n file).1 = .error .fuel) := by
  unfold Vfb.readBytes Vfb.readFuel
  cases hp : parseHeader file with
  | err x r => exact .inl fun k => rfl
  | ok h rest =>
    simp only
    by_cases ho : v.clear.only_header = true
    · exact .inl fun k => by rw [if_pos ho, if_pos ho]
    · rw [if_neg ho]
      simp only [if_neg ho]
      have hl : rest.length ≤ file.length := by
        unfold parseHeader at hp
        split at hp
        · cases hp; simp
        · cases hp
      by_cases hf : (readLoop C (file.length + 1) { v.clear with header := .dec h } rest).1 = .error .fuel
      · exact .inr fun n => readLoop_fuel C _ n _ _ (by omega) hf
      · exact .inl fun k => readLoop_mono C _ k _ _ hf

theorem readLoop_no_end (C : Codec D T) (n : Nat) (v : Vfb D T) (es : List (Nat × Bytes)) (tail : Bytes)
    (hr : Readable C v.force_unicode_strings v.ctx es) (hi : ∀ p ∈ es, p.1 ≠ 2)
    (ht : ∀ m v', (readLoop C m v' tail).1 = .error .fuel) :
    (readLoop C n v ((es.map frame).flatten ++ tail)).1 = .error .fuel := by
  induction es generalizing n v with
  | nil => exact ht n v
  | cons p es ih =>
    obtain ⟨h1, h2, h3, h4, h5⟩ := hr
    cases n with
    | zero => rfl
    | succ n =>
      have he := readEntry_frame (nm := v.ctx.num_masters) h1 h2 h3 ((es.map frame).flatten ++ tail)
      rw [List.map_cons, List.flatten_cons, List.append_assoc, readLoop, he]
      simp only
      rw [addRead_ok C v p h4]
      have hp : ¬ ((p.1 : Int) = 2) := by have := hi p List.mem_cons_self; omega
      simp only
      rw [if_neg hp]
      exact ih n _ h5 (fun q hq => hi q (List.mem_cons_of_mem _ hq))

/-- **C11** (violated) A file whose end entry is missing is never read to an end: the loop does not notice the end
of the stream. -/
theorem C11_missing_end_entry (C : Codec D T) (v : Vfb D T) (minor : UInt8) (es : List (Nat × Bytes))
    (ho : v.only_header = false) (hi : ∀ p ∈ es, p.1 ≠ 2) (hr : Readable C v.force_unicode_strings v.ctx es) (n : Nat) :
    (v.readFuel C n (fileOf minor es)).1 = .error .fuel := by
  unfold Vfb.readFuel fileOf
  rw [parseHeader_file]
  simp only [Vfb.clear, ho]
  rw [if_neg (by simp)]
  have := readLoop_no_end C n { v with header := .dec (headerDict minor), entries := [] } es [] hr hi
    (fun m v' => readLoop_nil C m v')
  simp only [List.append_nil, ho] at this
  exact this

/-- **C11** (violated) The same for a file that is cut off within the payload of an entry. -/
theorem C11_truncated_payload (C : Codec D T) (v : Vfb D T) (minor : UInt8) (es : List (Nat × Bytes)) (id size : Nat) (part : Bytes)
    (ho : v.only_header = false) (hi : ∀ p ∈ es, p.1 ≠ 2) (hr : Readable C v.force_unicode_strings v.ctx es)
    (hid : id < 32768 ∧ id ≠ 2 ∧ id ≠ 1410 ∧ isSpecial id = false) (hs : part.length ≤ size ∧ size ≤ 65535) (n : Nat) :
    (v.readFuel C n (fileOf minor es ++ (leDigits 2 id ++ leDigits 2 size ++ part))).1 = .error .fuel := by
  unfold Vfb.readFuel fileOf
  rw [List.append_assoc, parseHeader_file]
  simp only [Vfb.clear, ho]
  rw [if_neg (by simp)]
  have := readLoop_no_end C n { v with header := .dec (headerDict minor), entries := [] } es
    (leDigits 2 id ++ leDigits 2 size ++ part) hr hi (by
      intro m v'
      cases m with
      | zero => rfl
      | succ m =>
        have he : readEntry v'.ctx.num_masters (leDigits 2 id ++ leDigits 2 size ++ part) = .ok ((id : Int), part) [] := by
          have r16 : ∀ (n : Nat) (rest : Bytes), n < 65536 → readU16 (leDigits 2 n ++ rest) = .ok (n : Int) rest :=
            fun n rest h => readInt_leDigits (by omega) rest
          unfold readEntry
          rw [List.append_assoc, R.bind_of_ok (r16 _ _ (by omega)), if_neg (by omega), R.bind_of_ok (r16 _ _ (by omega))]
          rw [show (id : Int) % 0x8000 = id by omega]
          simp only
          rw [if_neg (by omega)]
          have hrd : R.readN (size : Int) part = .ok part [] := by
            unfold R.readN
            rw [if_neg (by omega), List.take_of_length_le (by omega), List.drop_of_length_le (by omega)]
          rw [R.bind_of_ok hrd]
          rfl
        rw [readLoop, he]
        simp only
        have ha : ∃ v'', v'.addRead C id part = (.ok (), v'') := by
          unfold Vfb.addRead
          rw [if_neg (by simp [hid.2.2.2])]
          exact ⟨_, rfl⟩
        obtain ⟨v'', ha⟩ := ha
        rw [ha]
        simp only
        rw [if_neg (by omega)]
        exact readLoop_nil C m v'')
  simp only [ho] at this
  exact this

/-! ## C12 -/

/-- the state of a `Vfb` that drops the given ids -/
def dropping (K : List Int) (v : Vfb D T) : Vfb D T :=
  { v with drop_keys := K, entries := v.entries.filter fun e => e.id ∉ K }

theorem decompile_id (C : Codec D T) (ctx : Ctx) (e : Entry D T) : (e.decompile C ctx).2.1.id = e.id := by
  unfold Entry.decompile
  split
  · rfl
  · rfl
  · split <;> rfl

theorem addRead_drop (C : Codec D T) (K : List Int) (v : Vfb D T) (hv : v.drop_keys = []) (id : Int) (data : Bytes) :
    (dropping K v).addRead C id data = ((v.addRead C id data).1, dropping K (v.addRead C id data).2) ∧
    (v.addRead C id data).2.drop_keys = [] := by
  unfold Vfb.addRead
  by_cases hs : isSpecial id = true
  · rw [if_pos hs, if_pos hs]
    have hid := decompile_id C v.ctx ({ id := id, data := .bytes data } : Entry D T)
    simp only [dropping]
    cases hd : Entry.decompile C v.ctx ({ id := id, data := .bytes data } : Entry D T) with
    | mk r q =>
      obtain ⟨e, err⟩ := q
      rw [hd] at hid
      simp only at hid
      cases r with
      | error x => exact ⟨rfl, hv⟩
      | ok u =>
        simp only [hv, List.not_mem_nil, if_false, and_true]
        rw [List.filter_append]
        congr 1
        by_cases hk : id ∈ K
        · simp [hk, hid]
        · simp [hk, hid]
  · rw [if_neg hs, if_neg hs]
    simp only [dropping, hv, List.not_mem_nil, if_false, and_true]
    rw [List.filter_append]
    congr 1
    by_cases hk : id ∈ K
    · simp [hk]
    · simp [hk]

theorem readLoop_drop (C : Codec D T) (K : List Int) (n : Nat) (v : Vfb D T) (hv : v.drop_keys = []) (s : Bytes) :
    readLoop C n (dropping K v) s = ((readLoop C n v s).1, dropping K (readLoop C n v s).2) := by
  induction n generalizing v s with
  | zero => rfl
  | succ n ih =>
    rw [readLoop, readLoop]
    have hc : (dropping K v).ctx = v.ctx := rfl
    rw [hc]
    cases he : readEntry v.ctx.num_masters s with
    | err x r => rfl
    | ok p rest =>
      obtain ⟨id, data⟩ := p
      simp only
      obtain ⟨h1, h2⟩ := addRead_drop C K v hv id data
      rw [h1]
      cases ha : v.addRead C id data with
      | mk r v' =>
        rw [ha] at h2
        cases r with
        | error x => rfl
        | ok u =>
          simp only at h2 ⊢
          by_cases hi : id = 2
          · rw [if_pos hi, if_pos hi]
          · rw [if_neg hi, if_neg hi, ih v' h2]

/-- **C12** Reading with `drop_keys` gives exactly what reading without gives, less the entries with the
dropped ids: same success or failure, same header, same settings, same order of the other entries. -/
theorem C12_drop_keys (C : Codec D T) (v : Vfb D T) (K : List Int) (file : Bytes) :
    let full := Vfb.readBytes C { v with drop_keys := [] } file
    let part := Vfb.readBytes C { v with drop_keys := K } file
    part.1 = full.1 ∧ part.2.entries = (full.2.entries.filter fun e => e.id ∉ K) ∧
      part.2.header = full.2.header ∧ part.2.ctx = full.2.ctx := by
  simp only
  unfold Vfb.readBytes Vfb.readFuel
  simp only [Vfb.clear]
  cases parseHeader file with
  | err x r => exact ⟨rfl, rfl, rfl, rfl⟩
  | ok h rest =>
    simp only
    by_cases ho : v.only_header = true
    · simp only [ho, if_true, List.filter_nil, and_self]
    · simp only [Bool.not_eq_true] at ho
      simp only [ho, Bool.false_eq_true, if_false]
      have := readLoop_drop C K (file.length + 1) { v with header := .dec h, entries := [], drop_keys := [] } rfl rest
      simp only [dropping, List.filter_nil, ho] at this
      rw [this]
      exact ⟨rfl, rfl, rfl, rfl⟩

/-- **C12** Dropped entries that are nevertheless in the font are not decompiled. -/
theorem C12_decompile_skips (C : Codec D T) (ctx : Ctx) (K : List Int) (es : List (Entry D T)) (i : Nat)
    (e : Entry D T) (h : es[i]? = some e) (hk : e.id ∈ K) : (decompileEntries C ctx K es).2.1[i]? = some e := by
  induction es generalizing i with
  | nil => simp at h
  | cons x es ih =>
    rw [decompileEntries]
    cases i with
    | zero =>
      simp only [List.getElem?_cons_zero, Option.some.injEq] at h
      subst h
      rw [if_pos hk]
      rfl
    | succ i =>
      simp only [List.getElem?_cons_succ] at h
      have := ih i h
      split
      · simpa using this
      · split
        · simpa using h
        · simpa using this

/-! ## C13 -/

/-- **C13** Decompiling a second time changes nothing. -/
theorem C13_decompile_idempotent (C : Codec D T) (ctx ctx' : Ctx) (e e' : Entry D T) (f : Bool)
    (h : e.decompile C ctx = (.ok (), e', f)) : e'.decompile C ctx' = (.ok (), e', false) := by
  unfold Entry.decompile at h
  cases hd : e.data with
  | none => rw [hd] at h; cases h
  | dec d => rw [hd] at h; cases h; unfold Entry.decompile; rw [hd]
  | bytes b =>
    rw [hd] at h
    simp only at h
    cases hp : parseEntry (C.parse e.id ctx) b with
    | error x => rw [hp] at h; cases h
    | ok d => rw [hp] at h; cases h; rfl

/-- **C13** Compiling a second time changes nothing, if the first time produced binary data. -/
theorem C13_compile_idempotent (C : Codec D T) (ctx ctx' : Ctx) (e e' : Entry D T)
    (h : e.compile C ctx = (.ok true, e')) : e'.compile C ctx' = (.ok true, e') := by
  unfold Entry.compile at h
  have key : ∀ b, e'.data = .bytes b → e'.compile C ctx' = (.ok true, e') := by
    intro b hb; unfold Entry.compile; rw [hb]
  cases hd : e.data with
  | bytes b => rw [hd] at h; cases h; exact key b hd
  | none =>
    rw [hd] at h
    simp only at h
    split at h
    · cases h
    · split at h
      · cases h
      · split at h
        · cases h
        · cases h; exact key _ rfl
  | dec d =>
    rw [hd] at h
    simp only at h
    split at h
    · cases h
    · split at h
      · cases h
      · split at h
        · cases h
        · cases h; exact key _ rfl

/-- **C13** A decompilation that fails leaves the entry as it was, and is recorded as an error of the font
(unless there was nothing to decompile). -/
theorem C13_failed_decompile (C : Codec D T) (ctx : Ctx) (e e' : Entry D T) (x : PyErr) (f : Bool)
    (h : e.decompile C ctx = (.error x, e', f)) : e' = e ∧ (f = true ∨ e.data = .none) := by
  unfold Entry.decompile at h
  cases hd : e.data with
  | none => rw [hd] at h; cases h; exact ⟨rfl, .inr rfl⟩
  | dec d => rw [hd] at h; cases h
  | bytes b =>
    rw [hd] at h
    simp only at h
    cases hp : parseEntry (C.parse e.id ctx) b with
    | error x => rw [hp] at h; cases h; exact ⟨rfl, .inl rfl⟩
    | ok d => rw [hp] at h; cases h

/-- **C13** A compilation that fails leaves the entry as it was (entries without temporary master data). -/
theorem C13_failed_compile (C : Codec D T) (ctx : Ctx) (e e' : Entry D T) (x : PyErr) (ht : e.temp_masters = none)
    (h : e.compile C ctx = (.error x, e')) : e' = e := by
  unfold Entry.compile Entry.merged at h
  rw [ht] at h
  cases hd : e.data with
  | bytes b => rw [hd] at h; cases h
  | none =>
    rw [hd] at h
    simp only at h
    split at h
    · cases h
    · split at h
      · cases h; rfl
      · cases h
  | dec d =>
    rw [hd] at h
    simp only at h
    split at h
    · cases h
    · split at h
      · cases h; cases e; simp only at hd ht; rw [hd, ht]; rfl
      · cases h

/-- **C13** Decompiling the whole font, successful or not, leaves every entry either as it was or correctly
decompiled, never in between; if it is successful, every entry that is not dropped is decompiled. -/
theorem C13_decompile_font (C : Codec D T) (v v' : Vfb D T) (r : Except PyErr Unit) (h : v.decompile C = (r, v')) :
    v'.entries.length = v.entries.length ∧
    (∀ (i : Nat) (e e' : Entry D T), v.entries[i]? = some e → v'.entries[i]? = some e' →
      e' = e ∨ e.decompile C v.ctx = (.ok (), e', false)) ∧
    (r = .ok () → ∀ (i : Nat) (e e' : Entry D T), v.entries[i]? = some e → v'.entries[i]? = some e' → e.id ∉ v.drop_keys →
      e.decompile C v.ctx = (.ok (), e', false)) := by
  unfold Vfb.decompile at h
  cases hh : v.header.decompile with
  | error x =>
    rw [hh] at h
    cases h
    exact ⟨rfl, fun i e e' h1 h2 => .inl (by rw [h1] at h2; cases h2; rfl), fun hr => by cases hr⟩
  | ok hd =>
    rw [hh] at h
    simp only at h
    have key : ∀ (es : List (Entry D T)),
        (decompileEntries C v.ctx v.drop_keys es).2.1.length = es.length ∧
        (∀ (i : Nat) (e e' : Entry D T), es[i]? = some e → (decompileEntries C v.ctx v.drop_keys es).2.1[i]? = some e' →
          e' = e ∨ e.decompile C v.ctx = (.ok (), e', false)) ∧
        ((decompileEntries C v.ctx v.drop_keys es).1 = .ok () → ∀ (i : Nat) (e e' : Entry D T), es[i]? = some e →
          (decompileEntries C v.ctx v.drop_keys es).2.1[i]? = some e' → e.id ∉ v.drop_keys →
          e.decompile C v.ctx = (.ok (), e', false)) := by
      intro es
      induction es with
      | nil => exact ⟨rfl, by simp, by simp⟩
      | cons e es ih =>
        rw [decompileEntries]
        obtain ⟨i1, i2, i3⟩ := ih
        by_cases hk : e.id ∈ v.drop_keys
        · rw [if_pos hk]
          refine ⟨by simp [i1], ?_, ?_⟩
          · intro i x x' h1 h2
            cases i with
            | zero => simp only [List.getElem?_cons_zero, Option.some.injEq] at h1 h2; exact .inl (by rw [← h1, ← h2])
            | succ i => simp only [List.getElem?_cons_succ] at h1 h2; exact i2 i x x' h1 h2
          · intro hr i x x' h1 h2 hn
            cases i with
            | zero => simp only [List.getElem?_cons_zero, Option.some.injEq] at h1; subst h1; exact absurd hk hn
            | succ i => simp only [List.getElem?_cons_succ] at h1 h2; exact i3 hr i x x' h1 h2 hn
        · rw [if_neg hk]
          cases hde : e.decompile C v.ctx with
          | mk r q =>
            obtain ⟨e1, f1⟩ := q
            cases r with
            | error x =>
              have := C13_failed_decompile C v.ctx e e1 x f1 hde
              refine ⟨by simp, ?_, by intro hr; cases hr⟩
              intro i y y' h1 h2
              cases i with
              | zero =>
                simp only [List.getElem?_cons_zero, Option.some.injEq] at h1 h2
                exact .inl (by rw [← h1, ← h2, this.1])
              | succ i =>
                simp only [List.getElem?_cons_succ] at h1 h2
                rw [h1] at h2; cases h2; exact .inl rfl
            | ok u =>
              have hf : f1 = false := by
                unfold Entry.decompile at hde
                split at hde
                · cases hde
                · cases hde; rfl
                · split at hde <;> cases hde; rfl
              subst hf
              refine ⟨by simp [i1], ?_, ?_⟩
              · intro i y y' h1 h2
                cases i with
                | zero =>
                  simp only [List.getElem?_cons_zero, Option.some.injEq] at h1 h2
                  subst h1; subst h2
                  exact .inr hde
                | succ i => simp only [List.getElem?_cons_succ] at h1 h2; exact i2 i y y' h1 h2
              · intro hr i y y' h1 h2 hn
                cases i with
                | zero =>
                  simp only [List.getElem?_cons_zero, Option.some.injEq] at h1 h2
                  subst h1; subst h2
                  exact hde
                | succ i => simp only [List.getElem?_cons_succ] at h1 h2; exact i3 hr i y y' h1 h2 hn
    obtain ⟨k1, k2, k3⟩ := key v.entries
    cases hdd : decompileEntries C v.ctx v.drop_keys v.entries with
    | mk r1 q =>
      obtain ⟨es1, f1⟩ := q
      rw [hdd] at h k1 k2 k3
      simp only [Prod.mk.injEq] at h
      obtain ⟨rfl, rfl⟩ := h
      exact ⟨k1, k2, k3⟩

/-- **C13** Decompiling the font also decompiles its header: afterwards the header is a dictionary, and if it was
binary before, it is the one these bytes mean. -/
theorem C13_decompile_header (C : Codec D T) (v v' : Vfb D T) (hn : v.header ≠ .none) (h : v.decompile C = (.ok (), v')) :
    ∃ d, v'.header = .dec d ∧ (v.header = .dec d ∨ ∃ b rest, v.header = .bytes b ∧ parseHeader b = .ok d rest) := by
  unfold Vfb.decompile at h
  cases hh : v.header with
  | none => exact absurd hh hn
  | dec d =>
    rw [hh] at h
    simp only [HData.decompile, Prod.mk.injEq] at h
    obtain ⟨_, rfl⟩ := h
    exact ⟨d, rfl, .inl rfl⟩
  | bytes b =>
    rw [hh] at h
    cases hp : parseHeader b with
    | err e r => simp only [HData.decompile, hp, Prod.mk.injEq] at h; cases h.1
    | ok d r =>
      simp only [HData.decompile, hp, Prod.mk.injEq] at h
      obtain ⟨_, rfl⟩ := h
      exact ⟨d, rfl, .inr ⟨b, r, rfl, hp⟩⟩

/-- **C43** In a font with a single master the data of further masters are ignored: compiling an entry gives what
it gives without them, and leaves the same data in the entry. -/
theorem C43_single_master (C : Codec D T) (ctx : Ctx) (e : Entry D T) (h1 : ctx.num_masters = 1) :
    (e.compile C ctx).1 = ({ e with temp_masters := none }.compile C ctx).1 ∧
    (e.compile C ctx).2.data = ({ e with temp_masters := none }.compile C ctx).2.data := by
  have hm : e.merged C ctx = ({ e with temp_masters := none } : Entry D T).merged C ctx := by
    unfold Entry.merged
    cases e.temp_masters <;> simp [h1]
  obtain ⟨id, data, tm, cached⟩ := e
  unfold Entry.compile
  rw [hm]
  simp only
  generalize Entry.merged C ctx (⟨id, data, none, cached⟩ : Entry D T) = m
  obtain ⟨d, x⟩ := m
  cases data with
  | bytes b => exact ⟨rfl, rfl⟩
  | none =>
    cases C.compile id with
    | none => exact ⟨rfl, rfl⟩
    | some comp =>
      cases x with
      | some x => cases d <;> exact ⟨rfl, rfl⟩
      | none =>
        simp only
        cases comp ctx d <;> cases d <;> exact ⟨rfl, rfl⟩
  | dec d0 =>
    cases C.compile id with
    | none => exact ⟨rfl, rfl⟩
    | some comp =>
      cases x with
      | some x => cases d <;> exact ⟨rfl, rfl⟩
      | none =>
        simp only
        cases comp ctx d <;> cases d <;> exact ⟨rfl, rfl⟩

/-! ## C14 -/

/-- what an entry occupies in a written file: its header, as it was determined at the latest when writing, and its
binary data; nothing is defined for decompiled data -/
def writtenBytes (e : Entry D T) : Option Bytes :=
  match e.cached, e.data with
  | some h, .none => some h
  | some h, .bytes b => some (h ++ b)
  | _, _ => none

theorem emitEntries_inv (es es' : List (Entry D T)) (out : Bytes) (h : emitEntries es = (.ok (), out, es')) :
    es'.map writtenBytes = (es'.map fun e => (writtenBytes e).getD []).map some ∧
      es'.map (fun e => (e.id, e.data)) = es.map (fun e => (e.id, e.data)) ∧
      out = (es'.map fun e => (writtenBytes e).getD []).flatten := by
  induction es generalizing es' out with
  | nil => cases h; exact ⟨rfl, rfl, rfl⟩
  | cons e es ih =>
    rw [emitEntries] at h
    cases hh : e.header with
    | mk r e1 =>
      rw [hh] at h
      cases r with
      | error x => cases h
      | ok hb =>
        have hc : e1.cached = some hb ∧ e1.id = e.id ∧ e1.data = e.data := by
          unfold Entry.header at hh
          cases hcc : e.cached with
          | some q => rw [hcc] at hh; cases hh; exact ⟨hcc, rfl, rfl⟩
          | none =>
            rw [hcc] at hh
            simp only at hh
            cases hs : e.size with
            | error x => rw [hs] at hh; cases hh
            | ok n =>
              rw [hs] at hh
              simp only at hh
              cases hb' : headerBytes e.id n with
              | error x => rw [hb'] at hh; cases hh
              | ok q => rw [hb'] at hh; cases hh; exact ⟨rfl, rfl, rfl⟩
        simp only at h
        cases hd : e1.data with
        | dec d => rw [hd] at h; cases h
        | none =>
          rw [hd] at h
          simp only at h
          rcases hr : emitEntries es with ⟨r, out2, es2⟩
          rw [hr] at h
          cases h
          obtain ⟨i1, i2, i3⟩ := ih _ _ hr
          have hw : writtenBytes e1 = some hb := by unfold writtenBytes; rw [hc.1, hd]
          exact ⟨by simp [hw, i1], by simp [hc.2.1, ← hc.2.2, i2], by simp [hw, i3]⟩
        | bytes b =>
          rw [hd] at h
          simp only at h
          rcases hr : emitEntries es with ⟨r, out2, es2⟩
          rw [hr] at h
          cases h
          obtain ⟨i1, i2, i3⟩ := ih _ _ hr
          have hw : writtenBytes e1 = some (hb ++ b) := by unfold writtenBytes; rw [hc.1, hd]
          exact ⟨by simp [hw, i1], by simp [hc.2.1, ← hc.2.2, i2], by simp [hw, i3]⟩

/-- **C14** If writing succeeds, no entry is skipped or still decompiled: the file consists of the header and of the
header and the binary data of every entry, in order. -/
theorem C14_every_entry_written (C : Codec D T) (v v' : Vfb D T) (out : Bytes) (h : v.writeBytes C = (.ok (), out, v')) :
    ∃ hb, v'.header = .bytes hb ∧ (∀ e ∈ v'.entries, (writtenBytes e).isSome = true) ∧ v'.entries.map (·.id) = v.entries.map (·.id) ∧
      out = hb ++ (v'.entries.map fun e => (writtenBytes e).getD []).flatten := by
  unfold Vfb.writeBytes at h
  rcases hc : v.compile C with ⟨r, v1⟩
  rw [hc] at h
  cases r with
  | error x => cases h
  | ok u =>
    simp only at h
    cases hh : v1.header with
    | none => rw [hh] at h; cases h
    | dec d => rw [hh] at h; cases h
    | bytes hb =>
      rw [hh] at h
      simp only at h
      rcases he : emitEntries v1.entries with ⟨r, out2, es⟩
      rw [he] at h
      cases h
      obtain ⟨i1, i2, i3⟩ := emitEntries_inv _ _ _ he
      refine ⟨hb, rfl, ?_, ?_, by rw [i3]⟩
      · intro e hm
        obtain ⟨i, hi, rfl⟩ := List.getElem_of_mem hm
        have := congrArg (fun l => l[i]?) i1
        simp only [List.getElem?_map, List.getElem?_eq_getElem hi, Option.map_some, Option.some.injEq] at this
        rw [this]; rfl
      · have h1 : es.map (·.id) = v1.entries.map (·.id) := by
          have := congrArg (List.map Prod.fst) i2
          simpa [List.map_map, Function.comp_def] using this
        rw [h1]
        unfold Vfb.compile at hc
        cases hhc : v.header.compile with
        | error x => rw [hhc] at hc; cases hc
        | ok h0 =>
          rw [hhc] at hc
          simp only at hc
          rcases hce : compileEntries C v.ctx v.entries with ⟨r, es1⟩
          rw [hce] at hc
          cases hc
          simp only
          clear i1 i2 i3 he h1 hh hhc
          generalize v.entries = es0 at hce
          induction es0 generalizing es1 with
          | nil => cases hce; rfl
          | cons e es0 ih =>
            rw [compileEntries] at hce
            rcases hec : e.compile C v.ctx with ⟨r, e1⟩
            rw [hec] at hce
            have hid : e1.id = e.id := by
              have : e1 = (e.compile C v.ctx).2 := by rw [hec]
              rw [this]
              unfold Entry.compile Entry.withMerged
              repeat' split
              all_goals rfl
            cases r with
            | error x => cases hce
            | ok b =>
              simp only at hce
              rcases hcs : compileEntries C v.ctx es0 with ⟨r, es2⟩
              rw [hcs] at hce
              cases hce
              simp [hid, ih _ hcs]

/-- **C14** The header of an entry shows the size of its data when it is asked for the first time … -/
theorem C14_header_first_access (e : Entry D T) (b : Bytes) (hd : e.data = .bytes b) (hc : e.cached = none) :
    (e.header).1 = headerBytes e.id b.length := by
  unfold Entry.header Entry.size
  rw [hc, hd]
  simp only
  cases headerBytes e.id b.length <;> rfl

/-- **C14** (violated) … but from then on it stays the same, whatever the data are changed to. -/
theorem C14_header_stale (e e1 : Entry D T) (h : Bytes) (ha : e.header = (.ok h, e1)) (data : EData D) :
    (({ e1 with data := data } : Entry D T).header).1 = .ok h := by
  have : e1.cached = some h := by
    unfold Entry.header at ha
    cases hc : e.cached with
    | some h' => rw [hc] at ha; cases ha; exact hc
    | none =>
      rw [hc] at ha
      simp only at ha
      cases hs : e.size with
      | error x => rw [hs] at ha; cases ha
      | ok n =>
        rw [hs] at ha
        simp only at ha
        cases hb : headerBytes e.id n with
        | error x => rw [hb] at ha; cases ha
        | ok h' => rw [hb] at ha; cases ha; rfl
  unfold Entry.header
  simp only [this]

theorem run_cached (C : Codec D T) (e : Entry D T) (op : Op D) : (op.run C e).id = e.id ∧
    ((∀ h, e.cached = some h → (op.run C e).cached = some h) ∧ (op ≠ .header → (op.run C e).cached = e.cached)) := by
  cases op with
  | setData d => exact ⟨rfl, fun _ h => h, fun _ => rfl⟩
  | compile ctx =>
    have : (e.compile C ctx).2.id = e.id ∧ (e.compile C ctx).2.cached = e.cached := by
      unfold Entry.compile
      split
      · exact ⟨rfl, rfl⟩
      · split
        · exact ⟨rfl, rfl⟩
        · split
          · unfold Entry.withMerged; split <;> exact ⟨rfl, rfl⟩
          · split
            · unfold Entry.withMerged; split <;> exact ⟨rfl, rfl⟩
            · exact ⟨rfl, rfl⟩
    exact ⟨this.1, fun h hh => by simp only [Op.run]; rw [this.2, hh], fun _ => this.2⟩
  | decompile ctx =>
    have : (e.decompile C ctx).2.1.cached = e.cached := by
      unfold Entry.decompile
      split
      · rfl
      · rfl
      · split <;> rfl
    exact ⟨decompile_id C ctx e, fun h hh => by simp only [Op.run]; rw [this, hh], fun _ => this⟩
  | header =>
    refine ⟨?_, ?_, fun h => absurd rfl h⟩
    · simp only [Op.run, Entry.header]
      split
      · rfl
      · split
        · rfl
        · split <;> rfl
    · intro h hh
      simp only [Op.run, Entry.header]
      rw [hh]
      exact hh

/-- **C14** After any history of operations that does not ask for the header, the header shows the size of the data
the entry has then. -/
theorem C14_history_fresh (C : Codec D T) (e : Entry D T) (ops : List (Op D)) (hc : e.cached = none) (hn : ∀ op ∈ ops, op ≠ .header)
    (b : Bytes) (hb : (runOps C e ops).data = .bytes b) : ((runOps C e ops).header).1 = headerBytes e.id b.length := by
  have key : (runOps C e ops).id = e.id ∧ (runOps C e ops).cached = none := by
    unfold runOps
    clear hb
    induction ops generalizing e with
    | nil => exact ⟨rfl, hc⟩
    | cons op ops ih =>
      obtain ⟨h1, -, h2⟩ := run_cached C e op
      have := ih (op.run C e) (by rw [h2 (hn op List.mem_cons_self), hc]) (fun o ho => hn o (List.mem_cons_of_mem _ ho))
      rw [List.foldl_cons]
      exact ⟨by rw [this.1, h1], this.2⟩
  rw [← key.1]
  exact C14_header_first_access _ b hb key.2

/-- **C14** (violated) Once it was asked for, the header is the same after any history of operations whatsoever. -/
theorem C14_history_stale (C : Codec D T) (e e1 : Entry D T) (h : Bytes) (ha : e.header = (.ok h, e1)) (ops : List (Op D)) :
    ((runOps C e1 ops).header).1 = .ok h := by
  have h0 : e1.cached = some h := by
    have := C14_header_stale e e1 h ha e1.data
    unfold Entry.header at ha
    cases hc : e.cached with
    | some h' => rw [hc] at ha; cases ha; exact hc
    | none =>
      rw [hc] at ha
      simp only at ha
      cases hs : e.size with
      | error x => rw [hs] at ha; cases ha
      | ok n =>
        rw [hs] at ha
        simp only at ha
        cases hb : headerBytes e.id n with
        | error x => rw [hb] at ha; cases ha
        | ok h' => rw [hb] at ha; cases ha; rfl
  have : (runOps C e1 ops).cached = some h := by
    unfold runOps
    clear ha
    induction ops generalizing e1 with
    | nil => exact h0
    | cons op ops ih =>
      rw [List.foldl_cons]
      exact ih (op.run C e1) ((run_cached C e1 op).2.1 h h0)
  unfold Entry.header
  rw [this]

/-- **C14** (violated) So a font that is written, changed, and written again is damaged: the second file has the
size of the old payload in front of the new one. -/
theorem C14_second_write (C : Codec D T) (v v1 v2 : Vfb D T) (minor : UInt8) (id : Nat) (b b' out out2 : Bytes)
    (hid : id < 32768) (hb : b.length < 4294967296) (hh : v.header = .dec (headerDict minor))
    (he : v.entries = [{ id := id, data := .bytes b }])
    (hw : v.writeBytes C = (.ok (), out, v1)) (e1 : Entry D T) (he1 : v1.entries = [e1])
    (hw2 : Vfb.writeBytes C { v1 with entries := [{ e1 with data := .bytes b' }] } = (.ok (), out2, v2)) :
    ∃ h, frame (id, b) = h ++ b ∧ out = fileHeader minor ++ (h ++ b) ∧ out2 = fileHeader minor ++ (h ++ b') := by
  obtain ⟨h, hhb, hf⟩ := header_frame (p := (id, b)) hid hb
  simp only at hhb hf
  refine ⟨h, hf, ?_⟩
  unfold Vfb.writeBytes Vfb.compile at hw
  rw [hh, he] at hw
  simp only [HData.compile, compileHeader_ok, compileEntries, Entry.compile, emitEntries, Entry.header, Entry.size, hhb,
    List.append_nil, Prod.mk.injEq, true_and] at hw
  obtain ⟨rfl, rfl⟩ := hw
  simp only [List.cons.injEq, and_true] at he1
  subst he1
  unfold Vfb.writeBytes Vfb.compile at hw2
  simp only [HData.compile, compileEntries, Entry.compile, emitEntries, Entry.header,
    List.append_nil, Prod.mk.injEq, true_and] at hw2
  exact ⟨rfl, hw2.1.symm⟩

/-! ## C16 -/

theorem ctxAfter_same (C : Codec D T) (hs : SpecialFixed C) (force : Bool) (ctx c : Ctx) (id : Nat) (a b : Bytes) (d : D)
    (ha : parseEntry (C.parse id c) a = .ok d) (hb : parseEntry (C.parse id c) b = .ok d) :
    ctxAfter C force ctx (id, a) = ctxAfter C force ctx (id, b) := by
  unfold ctxAfter
  by_cases h : isSpecial id = true
  · simp only [h, if_true]
    rw [hs id h ctx c, ha, hb]
  · simp only [h, Bool.false_eq_true, if_false]

/-- the pieces of an entry that goes through the cycle: id, payload, decompiled data, new payload -/
structure Piece (D : Type) where
  id : Nat
  old : Bytes
  d : D
  new : Bytes

/-- a piece of the cycle under the given settings -/
structure Piece.Ok (C : Codec D T) (ctx : Ctx) (x : Piece D) : Prop where
  old : parseEntry (C.parse x.id ctx) x.old = .ok x.d
  comp : ∃ comp, C.compile x.id = some comp ∧ comp ctx (some x.d) = .ok x.new
  new : parseEntry (C.parse x.id ctx) x.new = .ok x.d
  len : x.new.length < 4294967296

theorem pieces (C : Codec D T) (ctx : Ctx) (es : List (Nat × Bytes)) (h : ∀ p ∈ es, EntryStable C ctx p) :
    ∃ l : List (Piece D), es = l.map (fun x => (x.id, x.old)) ∧ ∀ x ∈ l, x.Ok C ctx := by
  induction es with
  | nil => exact ⟨[], rfl, by simp⟩
  | cons p es ih =>
    obtain ⟨l, hl, hok⟩ := ih fun q hq => h q (List.mem_cons_of_mem _ hq)
    obtain ⟨d, comp, b, h1, h2, h3, h4, h5⟩ := h p List.mem_cons_self
    refine ⟨⟨p.1, p.2, d, b⟩ :: l, by simp [hl], ?_⟩
    intro x hx
    rcases List.mem_cons.1 hx with rfl | hx
    · exact ⟨h1, ⟨comp, h2, h3⟩, h5, h4⟩
    · exact hok x hx

theorem pieces_ctx (C : Codec D T) (hs : SpecialFixed C) (force : Bool) (c : Ctx) (l : List (Piece D)) (h : ∀ x ∈ l, x.Ok C c) (ctx : Ctx) :
    ctxAll C force ctx (l.map fun x => (x.id, x.old)) = ctxAll C force ctx (l.map fun x => (x.id, x.new)) := by
  induction l generalizing ctx with
  | nil => rfl
  | cons x l ih =>
    have hx := h x List.mem_cons_self
    simp only [ctxAll, List.map_cons, List.foldl_cons]
    rw [ctxAfter_same C hs force ctx c x.id x.old x.new x.d hx.old hx.new]
    exact ih (fun y hy => h y (List.mem_cons_of_mem _ hy)) _

theorem pieces_readable (C : Codec D T) (hs : SpecialFixed C) (force : Bool) (c : Ctx) (l : List (Piece D)) (h : ∀ x ∈ l, x.Ok C c)
    (hn : ∀ x ∈ l, x.id ≠ 1410) (ctx : Ctx) (hr : Readable C force ctx (l.map fun x => (x.id, x.old))) :
    Readable C force ctx (l.map fun x => (x.id, x.new)) := by
  induction l generalizing ctx with
  | nil => trivial
  | cons x l ih =>
    have hx := h x List.mem_cons_self
    obtain ⟨r1, r2, r3, r4, r5⟩ := hr
    refine ⟨r1, hx.len, fun h => absurd h (hn x List.mem_cons_self), fun hsp => ⟨x.d, ?_⟩, ?_⟩
    · simp only at hsp ⊢
      rw [hs x.id hsp ctx c]
      exact hx.new
    · have := ih (fun y hy => h y (List.mem_cons_of_mem _ hy)) (fun y hy => hn y (List.mem_cons_of_mem _ hy)) _ r5
      rw [ctxAfter_same C hs force ctx c x.id x.old x.new x.d hx.old hx.new] at this
      exact this

/-- the entry objects once they are decompiled -/
def Piece.entry (x : Piece D) : Entry D T := { id := x.id, data := .dec x.d }

theorem loaded_decompile (C : Codec D T) (hs : SpecialFixed C) (force : Bool) (c : Ctx) (l : List (Piece D)) (f : Piece D → Bytes)
    (h : ∀ x ∈ l, parseEntry (C.parse x.id c) (f x) = .ok x.d) (ctx : Ctx) :
    decompileEntries C c [] (loaded C force ctx (l.map fun x => (x.id, f x))) = (.ok (), l.map Piece.entry, false) := by
  induction l generalizing ctx with
  | nil => rfl
  | cons x l ih =>
    have hx := h x List.mem_cons_self
    have := ih (fun y hy => h y (List.mem_cons_of_mem _ hy)) (ctxAfter C force ctx (x.id, f x))
    simp only [List.map_cons, loaded, decompileEntries, List.not_mem_nil, if_false]
    rw [this]
    have hd : (loadedEntry C ctx (x.id, f x)).decompile C c = (.ok (), x.entry, false) := by
      unfold loadedEntry
      by_cases hsp : isSpecial x.id = true
      · simp only [hsp, if_true]
        rw [hs x.id hsp ctx c, hx]
        rfl
      · simp only [hsp, if_false, Entry.decompile, hx, Bool.false_eq_true, Piece.entry]
    rw [hd]

theorem read_decompile (C : Codec D T) (hs : SpecialFixed C) (v : Vfb D T) (minor : UInt8) (l : List (Piece D)) (f : Piece D → Bytes)
    (ho : v.only_header = false) (hk : v.drop_keys = [])
    (ht : Terminated (l.map fun x => (x.id, f x))) (hr : Readable C v.force_unicode_strings v.ctx (l.map fun x => (x.id, f x)))
    (h : ∀ x ∈ l, parseEntry (C.parse x.id (ctxAll C v.force_unicode_strings v.ctx (l.map fun x => (x.id, f x)))) (f x) = .ok x.d) :
    ∃ v1, v.readBytes C (fileOf minor (l.map fun x => (x.id, f x))) = (.ok (), v1) ∧
      v1.decompile C = (.ok (), { v with
        header := .dec (headerDict minor)
        ctx := ctxAll C v.force_unicode_strings v.ctx (l.map fun x => (x.id, f x))
        entries := l.map Piece.entry
        any_errors := false }) := by
  have := read_file C v minor _ [] ho ht hr
  rw [List.append_nil] at this
  refine ⟨_, this, ?_⟩
  unfold Vfb.decompile
  simp only [HData.decompile, hk]
  rw [List.filter_eq_self.2 (by simp), loaded_decompile C hs _ _ l f h]

theorem terminated_map (l : List (Piece D)) (f g : Piece D → Bytes) (h : Terminated (l.map fun x => (x.id, f x))) :
    Terminated (l.map fun x => (x.id, g x)) := by
  obtain ⟨init, b, he, hi⟩ := h
  have hl : l.length = init.length + 1 := by simpa using congrArg List.length he
  have hne : l ≠ [] := by intro h; rw [h] at hl; simp at hl
  have h1 : (l.map fun x => (x.id, f x)) = (l.dropLast.map fun x => (x.id, f x)) ++ [((l.getLast hne).id, f (l.getLast hne))] := by
    have : l = l.dropLast ++ [l.getLast hne] := (List.dropLast_concat_getLast hne).symm
    rw [congrArg (List.map fun x : Piece D => (x.id, f x)) this]
    simp
  rw [he] at h1
  obtain ⟨h2, h3⟩ := List.append_inj' h1 rfl
  simp only [List.cons.injEq, Prod.mk.injEq, and_true] at h3
  refine ⟨l.dropLast.map fun x => (x.id, g x), g (l.getLast hne), ?_, ?_⟩
  · rw [h3.1]
    have : l = l.dropLast ++ [l.getLast hne] := (List.dropLast_concat_getLast hne).symm
    rw [congrArg (List.map fun x : Piece D => (x.id, g x)) this]
    simp
  · intro p hp
    obtain ⟨x, hx, rfl⟩ := List.mem_map.1 hp
    have : (x.id, f x) ∈ init := by rw [h2]; exact List.mem_map.2 ⟨x, hx, rfl⟩
    exact hi (x.id, f x) this

/-- **C16** The whole cycle.  Let a file be read and decompiled without error, and let every entry in it be of a
stable kind (its data survive compiling and decompiling, C15).  Then writing the decompiled font succeeds, and
reading and decompiling the new file gives the very same font: header, settings and, entry by entry, ids and
data; and writing that font gives the new file again, byte for byte. -/
theorem C16_cycle (C : Codec D T) (hs : SpecialFixed C) (v : Vfb D T) (minor : UInt8) (es : List (Nat × Bytes))
    (ho : v.only_header = false) (hk : v.drop_keys = []) (ht : Terminated es)
    (hr : Readable C v.force_unicode_strings v.ctx es) (hn : ∀ p ∈ es, p.1 ≠ 1410)
    (hst : ∀ p ∈ es, EntryStable C (ctxAll C v.force_unicode_strings v.ctx es) p) :
    ∃ v1 v2 out v3 v4 v5, v.readBytes C (fileOf minor es) = (.ok (), v1) ∧ v1.decompile C = (.ok (), v2) ∧
      v2.writeBytes C = (.ok (), out, v3) ∧ v.readBytes C out = (.ok (), v4) ∧ v4.decompile C = (.ok (), v2) ∧
      v2.writeBytes C = (.ok (), out, v5) ∧
      v2.header = .dec (headerDict minor) ∧ v2.entries.length = es.length ∧
      (∀ (i : Nat) (p : Nat × Bytes), es[i]? = some p → ∃ d, (contents v2)[i]? = some ((p.1 : Int), .dec d) ∧
        parseEntry (C.parse p.1 v2.ctx) p.2 = .ok d) := by
  obtain ⟨l, rfl, hok⟩ := pieces C _ es hst
  obtain ⟨v1, hv1, hd1⟩ := read_decompile C hs v minor l Piece.old ho hk ht hr (fun x hx => (hok x hx).old)
  have hn' : ∀ x ∈ l, x.id ≠ 1410 := fun x hx => hn _ (List.mem_map.2 ⟨x, hx, rfl⟩)
  have hctx := pieces_ctx C hs v.force_unicode_strings _ l hok v.ctx
  have hr' := pieces_readable C hs v.force_unicode_strings _ l hok hn' v.ctx hr
  have ht' := terminated_map l Piece.old Piece.new ht
  obtain ⟨v4, hv4, hd4⟩ := read_decompile C hs v minor l Piece.new ho hk ht' hr' (fun x hx => by rw [← hctx]; exact (hok x hx).new)
  rw [← hctx] at hd4
  have hlt : ∀ x ∈ l, x.id < 32768 := by
    have : ∀ (l : List (Nat × Bytes)) ctx, Readable C v.force_unicode_strings ctx l → ∀ p ∈ l, p.1 < 32768 := by
      intro l
      induction l with
      | nil => simp
      | cons q l ih =>
        intro ctx h p hp
        rcases List.mem_cons.1 hp with rfl | hp
        · exact h.1
        · exact ih _ h.2.2.2.2 p hp
    intro x hx
    exact this _ _ hr (x.id, x.old) (List.mem_map.2 ⟨x, hx, rfl⟩)
  have hw := write_ok C { v with
        header := .dec (headerDict minor)
        ctx := ctxAll C v.force_unicode_strings v.ctx (l.map fun x => (x.id, x.old))
        entries := l.map Piece.entry
        any_errors := false } minor (l.map fun x => (x.entry, (x.id, x.new))) rfl (by simp [Function.comp_def]) (by
    intro y hy
    obtain ⟨x, hx, rfl⟩ := List.mem_map.1 hy
    exact ⟨rfl, rfl, rfl, (hok x hx).comp, hlt x hx, (hok x hx).len⟩)
  obtain ⟨v3, hw⟩ := hw
  simp only [List.map_map, Function.comp_def] at hw
  refine ⟨v1, _, _, v3, v4, v3, hv1, hd1, hw, hv4, hd4, hw, rfl, by simp, ?_⟩
  intro i p hp
  simp only [List.getElem?_map, Option.map_eq_some_iff] at hp
  obtain ⟨x, hx, rfl⟩ := hp
  refine ⟨x.d, ?_, (hok x (List.mem_of_getElem? hx)).old⟩
  simp [contents, hx, Piece.entry]

/-! ## C53 -/

theorem ctxAfter_parts (C : Codec D T) (hs : SpecialFixed C) (force : Bool) (c c' : Ctx) (p : Nat × Bytes)
    (h : isSpecial p.1 = true → ∃ d, parseEntry (C.parse p.1 c) p.2 = .ok d) :
    (p.1 = 10 → (ctxAfter C force c p).writer_platform = (ctxAfter C force c' p).writer_platform ∧
      (ctxAfter C force c p).encoding = (ctxAfter C force c' p).encoding) ∧
    (p.1 = 1503 → (ctxAfter C force c p).num_masters = (ctxAfter C force c' p).num_masters) ∧
    (p.1 = 1269 → (ctxAfter C force c p).ttStemsV_count = (ctxAfter C force c' p).ttStemsV_count ∧
      (ctxAfter C force c p).ttStemsH_count = (ctxAfter C force c' p).ttStemsH_count) ∧
    (c.writer_platform = c'.writer_platform → (ctxAfter C force c p).writer_platform = (ctxAfter C force c' p).writer_platform) ∧
    (c.encoding = c'.encoding → (ctxAfter C force c p).encoding = (ctxAfter C force c' p).encoding) ∧
    (c.num_masters = c'.num_masters → (ctxAfter C force c p).num_masters = (ctxAfter C force c' p).num_masters) ∧
    (c.ttStemsV_count = c'.ttStemsV_count → (ctxAfter C force c p).ttStemsV_count = (ctxAfter C force c' p).ttStemsV_count) ∧
    (c.ttStemsH_count = c'.ttStemsH_count → (ctxAfter C force c p).ttStemsH_count = (ctxAfter C force c' p).ttStemsH_count) := by
  unfold ctxAfter
  by_cases hsp : isSpecial p.1 = true
  · obtain ⟨d, hd⟩ := h hsp
    simp only [hsp, if_true]
    rw [hs p.1 hsp c' c, hd]
    simp only
    unfold noteCtx
    have : p.1 = 10 ∨ p.1 = 1503 ∨ p.1 = 1269 := by
      simp only [isSpecial, Bool.or_eq_true, decide_eq_true_eq] at hsp; omega
    rcases this with h | h | h <;> simp [h]
  · have hn : p.1 ≠ 10 ∧ p.1 ≠ 1503 ∧ p.1 ≠ 1269 := by
      simp only [isSpecial, Bool.or_eq_true, decide_eq_true_eq, not_or] at hsp; omega
    simp only [hsp, Bool.false_eq_true, if_false]
    exact ⟨fun h => absurd h hn.1, fun h => absurd h hn.2.1, fun h => absurd h hn.2.2, id, id, id, id, id⟩

theorem readable_specials (C : Codec D T) (hs : SpecialFixed C) (force : Bool) (es : List (Nat × Bytes)) (c c' : Ctx)
    (hr : Readable C force c es) : ∀ p ∈ es, isSpecial p.1 = true → ∃ d, parseEntry (C.parse p.1 c') p.2 = .ok d := by
  induction es generalizing c with
  | nil => simp
  | cons p es ih =>
    intro q hq hsp
    rcases List.mem_cons.1 hq with rfl | hq
    · obtain ⟨d, hd⟩ := hr.2.2.2.1 hsp
      exact ⟨d, by rw [hs q.1 hsp c' c]; exact hd⟩
    · exact ih _ hr.2.2.2.2 q hq hsp

theorem ctxAll_parts (C : Codec D T) (hs : SpecialFixed C) (force : Bool) (es : List (Nat × Bytes)) (c c' : Ctx)
    (hr : ∀ p ∈ es, isSpecial p.1 = true → ∃ d, parseEntry (C.parse p.1 c) p.2 = .ok d) :
    ((∃ b, (10, b) ∈ es) ∨ (c.writer_platform = c'.writer_platform ∧ c.encoding = c'.encoding) →
      (ctxAll C force c es).writer_platform = (ctxAll C force c' es).writer_platform ∧
      (ctxAll C force c es).encoding = (ctxAll C force c' es).encoding) ∧
    ((∃ b, (1503, b) ∈ es) ∨ c.num_masters = c'.num_masters →
      (ctxAll C force c es).num_masters = (ctxAll C force c' es).num_masters) ∧
    ((∃ b, (1269, b) ∈ es) ∨ (c.ttStemsV_count = c'.ttStemsV_count ∧ c.ttStemsH_count = c'.ttStemsH_count) →
      (ctxAll C force c es).ttStemsV_count = (ctxAll C force c' es).ttStemsV_count ∧
      (ctxAll C force c es).ttStemsH_count = (ctxAll C force c' es).ttStemsH_count) := by
  induction es generalizing c c' with
  | nil =>
    refine ⟨?_, ?_, ?_⟩ <;> intro h
    · rcases h with ⟨b, h⟩ | h
      · simp at h
      · exact h
    · rcases h with ⟨b, h⟩ | h
      · simp at h
      · exact h
    · rcases h with ⟨b, h⟩ | h
      · simp at h
      · exact h
  | cons p es ih =>
    obtain ⟨a1, a2, a3, a4, a5, a6, a7, a8⟩ := ctxAfter_parts C hs force c c' p (hr p List.mem_cons_self)
    obtain ⟨i1, i2, i3⟩ := ih (ctxAfter C force c p) (ctxAfter C force c' p) (by
      intro q hq hsp
      obtain ⟨d, hd⟩ := hr q (List.mem_cons_of_mem _ hq) hsp
      exact ⟨d, by rw [hs q.1 hsp _ c]; exact hd⟩)
    simp only [ctxAll, List.foldl_cons] at *
    refine ⟨?_, ?_, ?_⟩
    · intro h
      apply i1
      rcases h with ⟨b, h⟩ | h
      · rcases List.mem_cons.1 h with h | h
        · exact .inr (a1 (by rw [← h]))
        · exact .inl ⟨b, h⟩
      · exact .inr ⟨a4 h.1, a5 h.2⟩
    · intro h
      apply i2
      rcases h with ⟨b, h⟩ | h
      · rcases List.mem_cons.1 h with h | h
        · exact .inr (a2 (by rw [← h]))
        · exact .inl ⟨b, h⟩
      · exact .inr (a6 h)
    · intro h
      apply i3
      rcases h with ⟨b, h⟩ | h
      · rcases List.mem_cons.1 h with h | h
        · exact .inr (a3 (by rw [← h]))
        · exact .inl ⟨b, h⟩
      · exact .inr ⟨a7 h.1, a8 h.2⟩

theorem loaded_fixed (C : Codec D T) (hs : SpecialFixed C) (force : Bool) (es : List (Nat × Bytes)) (c c' : Ctx) :
    loaded C force c es = loaded C force c' es := by
  induction es generalizing c c' with
  | nil => rfl
  | cons p es ih =>
    simp only [loaded]
    rw [ih _ (ctxAfter C force c' p)]
    congr 1
    unfold loadedEntry
    by_cases h : isSpecial p.1 = true
    · rw [hs p.1 h c c']
    · simp only [h, Bool.false_eq_true, if_false]

/-- **C53** Reading a file into a `Vfb` that was used before gives the same header and the same entries as reading
it into any other `Vfb` with the same reading options, whatever was in either of them; and if the file has an FL
version, a master count and a TrueType stems entry, also the same settings. -/
theorem C53_read_replaces (C : Codec D T) (hs : SpecialFixed C) (v w : Vfb D T) (minor : UInt8) (es : List (Nat × Bytes)) (tail : Bytes)
    (hv : v.only_header = false) (hw : w.only_header = false) (hk : v.drop_keys = w.drop_keys)
    (hf : v.force_unicode_strings = w.force_unicode_strings) (ht : Terminated es)
    (hrv : Readable C v.force_unicode_strings v.ctx es) (hrw : Readable C w.force_unicode_strings w.ctx es) :
    ∃ v1 w1, v.readBytes C (fileOf minor es ++ tail) = (.ok (), v1) ∧ w.readBytes C (fileOf minor es ++ tail) = (.ok (), w1) ∧
      v1.header = w1.header ∧ v1.entries = w1.entries ∧
      ((∃ a b c, (10, a) ∈ es ∧ (1503, b) ∈ es ∧ (1269, c) ∈ es) → v1.ctx = w1.ctx) := by
  refine ⟨_, _, read_file C v minor es tail hv ht hrv, read_file C w minor es tail hw ht hrw, rfl, ?_, ?_⟩
  · simp only [hk, hf]
    rw [loaded_fixed C hs _ es v.ctx w.ctx]
  · rintro ⟨a, b, c, h1, h2, h3⟩
    simp only [← hf]
    obtain ⟨p1, p2, p3⟩ := ctxAll_parts C hs v.force_unicode_strings es v.ctx w.ctx (readable_specials C hs _ es v.ctx v.ctx hrv)
    have p1 := p1 (.inl ⟨a, h1⟩)
    have p2 := p2 (.inl ⟨b, h2⟩)
    have p3 := p3 (.inl ⟨c, h3⟩)
    cases hx : ctxAll C v.force_unicode_strings v.ctx es
    cases hy : ctxAll C v.force_unicode_strings w.ctx es
    rw [hx, hy] at p1 p2 p3
    simp only at p1 p2 p3
    simp [p1, p2, p3]

theorem readLoop_glyphs (C : Codec D T) (n : Nat) (v : Vfb D T) (s : Bytes) : (readLoop C n v s).2.glyphs = v.glyphs := by
  induction n generalizing v s with
  | zero => rfl
  | succ n ih =>
    have ha : ∀ id data, (v.addRead C id data).2.glyphs = v.glyphs := by
      intro id data
      unfold Vfb.addRead
      split
      · split <;> rfl
      · rfl
    rw [readLoop]
    split
    · rfl
    · rename_i id data rest he
      have := ha id data
      cases hr : v.addRead C id data with
      | mk r v' =>
        rw [hr] at this
        simp only at this
        cases r with
        | error x => exact this
        | ok u =>
          simp only
          split
          · exact this
          · rw [ih]; exact this

/-- **C53** (violated) The glyph names are those of the first file for ever: once `keys()` was used, it gives the
same names after any other file has been read into the object. -/
theorem C53_stale_glyph_names (C : Codec D T) (v : Vfb D T) (file : Bytes) (hg : v.glyphs ≠ []) :
    ((v.readBytes C file).2.keys C).1 = .ok v.glyphs := by
  have : (v.readBytes C file).2.glyphs = v.glyphs := by
    unfold Vfb.readBytes Vfb.readFuel
    cases parseHeader file with
    | err x r => rfl
    | ok h rest =>
      simp only
      split
      · rfl
      · rw [readLoop_glyphs]; rfl
  unfold Vfb.keys
  rw [this, if_neg hg]

/-- **C53** (violated) A file without master count entry takes over the number of masters of the font that was in
the object before. -/
theorem C53_stale_master_count (C : Codec D T) (v : Vfb D T) (minor : UInt8) (es : List (Nat × Bytes)) (tail : Bytes)
    (hv : v.only_header = false) (ht : Terminated es) (hr : Readable C v.force_unicode_strings v.ctx es)
    (hm : ∀ p ∈ es, p.1 ≠ 1503) : (v.readBytes C (fileOf minor es ++ tail)).2.ctx.num_masters = v.ctx.num_masters := by
  rw [read_file C v minor es tail hv ht hr]
  simp only
  clear ht hr
  generalize v.ctx = c
  induction es generalizing c with
  | nil => rfl
  | cons p es ih =>
    have h1 : (ctxAfter C v.force_unicode_strings c p).num_masters = c.num_masters := by
      have := hm p List.mem_cons_self
      unfold ctxAfter noteCtx
      split
      · split
        · split
          · rfl
          · rw [if_neg (by omega)]
            split <;> rfl
        · rfl
      · rfl
    have := ih (fun q hq => hm q (List.mem_cons_of_mem _ hq)) (ctxAfter C v.force_unicode_strings c p)
    simp only [ctxAll, List.foldl_cons] at this ⊢
    rw [this, h1]

/-! ## C54 -/

theorem freeSuffix_scan (names : List PyStr) (name : PyStr) (fuel i : Nat) :
    (name ++ lit "#" ++ natDec (freeSuffix names name fuel i) ∉ names) ∨
    (∀ j, j < fuel → name ++ lit "#" ++ natDec (i + j) ∈ names) := by
  induction fuel generalizing i with
  | zero => right; intro j hj; omega
  | succ fuel ih =>
    unfold freeSuffix
    by_cases h : name ++ lit "#" ++ natDec i ∈ names
    · rw [if_pos h]
      rcases ih (i + 1) with h1 | h1
      · exact .inl h1
      · right
        intro j hj
        cases j with
        | zero => exact h
        | succ j =>
          have := h1 j (by omega)
          rw [show i + (j + 1) = i + 1 + j by omega]
          exact this
    · rw [if_neg h]; exact .inl h

/-- the search for a free name ends with a free name -/
theorem freeSuffix_free (names : List PyStr) (name : PyStr) (i : Nat) :
    name ++ lit "#" ++ natDec (freeSuffix names name (names.length + 1) i) ∉ names := by
  rcases freeSuffix_scan names name (names.length + 1) i with h | h
  · exact h
  · exfalso
    have hl := length_le_of_subset ((List.range (names.length + 1)).map fun j => name ++ lit "#" ++ natDec (i + j)) names (by
      refine List.Pairwise.map _ ?_ List.nodup_range
      intro a b hne hab
      have := natDec_inj (List.append_cancel_left hab)
      omega) (by
      intro x hx
      obtain ⟨j, hj, rfl⟩ := List.mem_map.1 hx
      exact h j (List.mem_range.1 hj))
    simp at hl
    omega

/-- the ids of the entries that `keys()` decompiles: links, glyph hinting options, PostScript hinting options -/
def auxId (id : Int) : Prop := id = 2008 ∨ id = 2010 ∨ id = 1093

theorem decompileGlyphs_spec (C : Codec D T) (ctx : Ctx) (es : List (Entry D T)) (names : List PyStr) (hn : names.Nodup) :
    let r := decompileGlyphs C ctx es names
    r.2.2.1.Nodup ∧ names <+: r.2.2.1 ∧ r.2.1.length = es.length ∧
    (r.1 = .ok () → r.2.2.1.length = names.length + es.countP fun e => e.id = 2001) ∧
    (∀ (i : Nat) (e e' : Entry D T), es[i]? = some e → r.2.1[i]? = some e' →
      (e.id ≠ 2001 → e' = e ∨ (auxId e.id ∧ e.decompile C ctx = (.ok (), e', false))) ∧
      (e.id = 2001 → r.1 = .ok () → e' = { e with data := .dec (C.emptyGlyph ctx.num_masters) })) := by
  induction es generalizing names with
  | nil => exact ⟨hn, List.prefix_refl _, rfl, by simp [decompileGlyphs], by simp⟩
  | cons e es ih =>
    simp only
    rw [decompileGlyphs]
    by_cases h1 : e.id = 2001
    · rw [if_pos h1]
      simp only
      generalize hnm : (if C.glyphName (C.emptyGlyph ctx.num_masters) ∈ names then
        C.glyphName (C.emptyGlyph ctx.num_masters) ++ lit "#" ++
          natDec (freeSuffix names (C.glyphName (C.emptyGlyph ctx.num_masters)) (names.length + 1) 1)
        else C.glyphName (C.emptyGlyph ctx.num_masters)) = name
      have hfree : name ∉ names := by
        rw [← hnm]
        split
        · exact freeSuffix_free names _ 1
        · assumption
      have hn' : (names ++ [name]).Nodup := by
        rw [List.nodup_append]
        refine ⟨hn, by simp, ?_⟩
        intro a ha b hb
        simp only [List.mem_singleton] at hb
        subst hb
        rintro rfl
        exact hfree ha
      obtain ⟨i1, i2, i3, i4, i5⟩ := ih (names ++ [name]) hn'
      cases hr : decompileGlyphs C ctx es (names ++ [name]) with
      | mk r q =>
        obtain ⟨es', ns, err⟩ := q
        rw [hr] at i1 i2 i3 i4 i5
        simp only at i1 i2 i3 i4 i5 ⊢
        refine ⟨i1, (List.prefix_append _ _).trans i2, by simp [i3], ?_, ?_⟩
        · intro hok
          rw [i4 hok]
          simp [h1]
          omega
        · intro i a a' ha ha'
          cases i with
          | zero =>
            simp only [List.getElem?_cons_zero, Option.some.injEq] at ha ha'
            subst ha; subst ha'
            exact ⟨fun h => absurd h1 h, fun _ _ => rfl⟩
          | succ i =>
            simp only [List.getElem?_cons_succ] at ha ha'
            exact i5 i a a' ha ha'
    · rw [if_neg h1]
      by_cases h2 : e.id = 2008 ∨ e.id = 2010 ∨ e.id = 1093
      · rw [if_pos h2]
        cases hd : e.decompile C ctx with
        | mk r q =>
          obtain ⟨e1, f1⟩ := q
          cases r with
          | error x =>
            have := C13_failed_decompile C ctx e e1 x f1 hd
            refine ⟨hn, List.prefix_refl _, by simp, fun h => (by cases h), ?_⟩
            intro i a a' ha ha'
            cases i with
            | zero =>
              simp only [List.getElem?_cons_zero, Option.some.injEq] at ha ha'
              subst ha; subst ha'
              exact ⟨fun _ => .inl this.1, fun h => absurd h h1⟩
            | succ i =>
              simp only [List.getElem?_cons_succ] at ha ha'
              rw [ha] at ha'
              cases ha'
              exact ⟨fun _ => .inl rfl, fun _ h => by cases h⟩
          | ok u =>
            have hf : f1 = false := by
              unfold Entry.decompile at hd
              split at hd
              · cases hd
              · cases hd; rfl
              · split at hd <;> cases hd; rfl
            subst hf
            simp only
            obtain ⟨i1, i2, i3, i4, i5⟩ := ih names hn
            refine ⟨i1, i2, by simp [i3], ?_, ?_⟩
            · intro hok
              rw [i4 hok]
              simp [h1]
            · intro i a a' ha ha'
              cases i with
              | zero =>
                simp only [List.getElem?_cons_zero, Option.some.injEq] at ha ha'
                subst ha; subst ha'
                exact ⟨fun _ => .inr ⟨h2, hd⟩, fun h => absurd h h1⟩
              | succ i =>
                simp only [List.getElem?_cons_succ] at ha ha'
                exact i5 i a a' ha ha'
      · rw [if_neg h2]
        simp only
        obtain ⟨i1, i2, i3, i4, i5⟩ := ih names hn
        refine ⟨i1, i2, by simp [i3], ?_, ?_⟩
        · intro hok
          rw [i4 hok]
          simp [h1]
        · intro i a a' ha ha'
          cases i with
          | zero =>
            simp only [List.getElem?_cons_zero, Option.some.injEq] at ha ha'
            subst ha; subst ha'
            exact ⟨fun _ => .inl rfl, fun h => absurd h h1⟩
          | succ i =>
            simp only [List.getElem?_cons_succ] at ha ha'
            exact i5 i a a' ha ha'

/-- **C54** `keys()` gives one name per glyph entry, all of them different; header and settings are not touched,
and neither is any entry other than glyphs, except that links and hinting options are decompiled. -/
theorem C54_keys (C : Codec D T) (v v' : Vfb D T) (names : List PyStr) (hg : v.glyphs = []) (h : v.keys C = (.ok names, v')) :
    names.Nodup ∧ names.length = (v.entries.countP fun e => e.id = 2001) ∧ v'.header = v.header ∧ v'.ctx = v.ctx ∧
    v'.entries.length = v.entries.length ∧
    (∀ (i : Nat) (e e' : Entry D T), v.entries[i]? = some e → v'.entries[i]? = some e' → e.id ≠ 2001 →
      e' = e ∨ (auxId e.id ∧ e.decompile C v.ctx = (.ok (), e', false))) := by
  unfold Vfb.keys at h
  rw [if_pos hg] at h
  obtain ⟨i1, i2, i3, i4, i5⟩ := decompileGlyphs_spec C v.ctx v.entries [] (by simp)
  cases hr : decompileGlyphs C v.ctx v.entries [] with
  | mk r q =>
    obtain ⟨es', ns, err⟩ := q
    rw [hr] at i1 i2 i3 i4 i5 h
    cases r with
    | error x => cases h
    | ok u =>
      simp only [Prod.mk.injEq, Except.ok.injEq] at h
      obtain ⟨rfl, rfl⟩ := h
      exact ⟨i1, by simpa using i4 rfl, rfl, rfl, i3, fun i e e' ha hb hne => (i5 i e e' ha hb).1 hne⟩

/-- **C54** (violated) The glyphs themselves are lost: asking for the glyph names replaces the data of every glyph
entry by those of an empty glyph, whatever they were. -/
theorem C54_glyphs_lost (C : Codec D T) (v v' : Vfb D T) (names : List PyStr) (hg : v.glyphs = []) (h : v.keys C = (.ok names, v'))
    (i : Nat) (e : Entry D T) (he : v.entries[i]? = some e) (hid : e.id = 2001) :
    v'.entries[i]? = some { e with data := .dec (C.emptyGlyph v.ctx.num_masters) } := by
  unfold Vfb.keys at h
  rw [if_pos hg] at h
  obtain ⟨i1, i2, i3, i4, i5⟩ := decompileGlyphs_spec C v.ctx v.entries [] (by simp)
  cases hr : decompileGlyphs C v.ctx v.entries [] with
  | mk r q =>
    obtain ⟨es', ns, err⟩ := q
    rw [hr] at i1 i2 i3 i4 i5 h
    cases r with
    | error x => cases h
    | ok u =>
      simp only [Prod.mk.injEq, Except.ok.injEq] at h
      obtain ⟨rfl, rfl⟩ := h
      simp only at i3 ⊢
      have hi : i < es'.length := by
        rw [i3]
        exact (List.getElem?_eq_some_iff.1 he).1
      rw [List.getElem?_eq_getElem hi]
      have := (i5 i e es'[i] he (List.getElem?_eq_getElem hi)).2 hid rfl
      rw [this]

/-- **C54** A second call gives the same names and changes nothing, if there are any glyphs. -/
theorem C54_keys_again (C : Codec D T) (v v' : Vfb D T) (names : List PyStr) (h : v.keys C = (.ok names, v')) (hn : names ≠ []) :
    v'.keys C = (.ok names, v') := by
  unfold Vfb.keys at h
  by_cases hg : v.glyphs = []
  · rw [if_pos hg] at h
    cases hr : decompileGlyphs C v.ctx v.entries [] with
    | mk r q =>
      obtain ⟨es', ns, err⟩ := q
      rw [hr] at h
      cases r with
      | error x => cases h
      | ok u =>
        simp only [Prod.mk.injEq, Except.ok.injEq] at h
        obtain ⟨rfl, rfl⟩ := h
        unfold Vfb.keys
        simp only [if_neg hn]
  · rw [if_neg hg] at h
    simp only [Prod.mk.injEq, Except.ok.injEq] at h
    obtain ⟨rfl, rfl⟩ := h
    unfold Vfb.keys
    rw [if_neg hg]

/-- **C54** (violated) When `keys()` fails after it has seen a glyph, calling it again does not fail: it gives the
incomplete list of names. -/
theorem C54_failure_forgotten (C : Codec D T) (v v' : Vfb D T) (x : PyErr) (h : v.keys C = (.error x, v')) (hn : v'.glyphs ≠ []) :
    v'.keys C = (.ok v'.glyphs, v') := by
  unfold Vfb.keys
  rw [if_neg hn]

/-! ## Writing to a file -/

/-- **C13** (violated) `Vfb.write` destroys the file it writes to, if compiling fails: when an entry cannot be compiled,
whatever was in the file before, it is empty afterwards. -/
theorem C13_failed_write_truncates (C : Codec D T) (v v' : Vfb D T) (x : PyErr) (old : Bytes) (h : v.compile C = (.error x, v')) :
    v.write C old = (.error x, [], v') := by
  unfold Vfb.write Vfb.writeBytes
  rw [h]

/-! ## The hypotheses can be met

A small table of classes: every id but 99 holds plain bytes, the first byte of entry 1503 is the number of masters;
id 99 has no compiler. -/

/-- the demonstration table -/
def demo : Codec Bytes Unit where
  parse _ _ := R.readAll
  compile id := if id = 99 then none else some fun _ d => .ok (d.getD [])
  merge _ _ d := (d, none)
  platform _ := lit "windows"
  masters d := (d.headD 0).toNat
  stems _ := (0, 0)
  emptyGlyph n := List.replicate n.toNat 0
  glyphName _ := []

/-- a file with FL version, two masters, a kerning pair whose size follows from that, two glyphs, links, end -/
def demoEntries : List (Nat × Bytes) :=
  [(10, [7]), (1503, [2]), (1269, []), (1410, List.replicate 12 5), (2001, [1, 2]), (2008, [4]), (2001, [3]), (2, [])]

theorem demo_readable : Readable demo false {} demoEntries := by
  refine ⟨by decide, by decide, by decide, fun _ => ⟨[7], rfl⟩, ?_⟩
  refine ⟨by decide, by decide, by decide, fun _ => ⟨[2], rfl⟩, ?_⟩
  refine ⟨by decide, by decide, by decide, fun _ => ⟨[], rfl⟩, ?_⟩
  refine ⟨by decide, by decide, fun _ => rfl, fun _ => ⟨_, rfl⟩, ?_⟩
  refine ⟨by decide, by decide, by decide, fun _ => ⟨_, rfl⟩, ?_⟩
  refine ⟨by decide, by decide, by decide, fun _ => ⟨_, rfl⟩, ?_⟩
  refine ⟨by decide, by decide, by decide, fun _ => ⟨_, rfl⟩, ?_⟩
  refine ⟨by decide, by decide, by decide, fun _ => ⟨_, rfl⟩, trivial⟩

theorem demo_terminated : Terminated demoEntries := ⟨demoEntries.dropLast, [], rfl, by decide⟩

theorem demo_fixed : SpecialFixed demo := fun _ _ _ _ => rfl

/-- C16: a file with all but the kerning pair goes through the cycle -/
example : ∃ es : List (Nat × Bytes), es.length = 7 ∧ Terminated es ∧ Readable demo false {} es ∧ (∀ p ∈ es, p.1 ≠ 1410) ∧
    ∀ p ∈ es, EntryStable demo (ctxAll demo false {} es) p := by
  refine ⟨[(10, [7]), (1503, [2]), (1269, []), (2001, [1, 2]), (2008, [4]), (2001, [3]), (2, [])], rfl,
    ⟨[(10, [7]), (1503, [2]), (1269, []), (2001, [1, 2]), (2008, [4]), (2001, [3])], [], rfl, by decide⟩, ?_, by decide, ?_⟩
  · refine ⟨by decide, by decide, by decide, fun _ => ⟨_, rfl⟩, ?_⟩
    refine ⟨by decide, by decide, by decide, fun _ => ⟨_, rfl⟩, ?_⟩
    refine ⟨by decide, by decide, by decide, fun _ => ⟨_, rfl⟩, ?_⟩
    refine ⟨by decide, by decide, by decide, fun _ => ⟨_, rfl⟩, ?_⟩
    refine ⟨by decide, by decide, by decide, fun _ => ⟨_, rfl⟩, ?_⟩
    refine ⟨by decide, by decide, by decide, fun _ => ⟨_, rfl⟩, ?_⟩
    exact ⟨by decide, by decide, by decide, fun _ => ⟨_, rfl⟩, trivial⟩
  · intro p hp
    have hl : p.2.length < 4294967296 ∧ (p.1 : Int) ≠ 99 := by
      simp only [List.mem_cons, List.not_mem_nil, or_false] at hp
      rcases hp with rfl | rfl | rfl | rfl | rfl | rfl | rfl <;> exact ⟨by decide, by decide⟩
    exact ⟨p.2, _, p.2, rfl, if_neg hl.2, rfl, hl.1, rfl⟩

/-- C10, C12, C53, C54: the demonstration file is read, `keys()` gives the names "", "#1", and the glyphs are
empty (two zero bytes each) afterwards -/
example : ∃ v1 v2, Vfb.readBytes demo {} (fileOf 1 demoEntries) = (.ok (), v1) ∧ v1.keys demo = (.ok [[], lit "#1"], v2) ∧
    contents v2 = [(10, .dec [7]), (1503, .dec [2]), (1269, .dec []), (1410, .bytes (List.replicate 12 5)), (2001, .dec [0, 0]),
      (2008, .dec [4]), (2001, .dec [0, 0]), (2, .bytes [])] := by
  have := read_file demo {} 1 demoEntries [] rfl demo_terminated demo_readable
  rw [List.append_nil] at this
  exact ⟨_, _, this, rfl, rfl⟩

/-- C53: two used objects, one with other masters and glyph names -/
example : ∃ v w : Vfb Bytes Unit, v.ctx ≠ w.ctx ∧ v.glyphs ≠ [] ∧ v.entries ≠ w.entries ∧
    Readable demo v.force_unicode_strings v.ctx [(10, [1]), (2, [])] ∧ Readable demo w.force_unicode_strings w.ctx [(10, [1]), (2, [])] := by
  refine ⟨{ ctx := { num_masters := 3 }, glyphs := [lit "a"], entries := [{ id := 5 }] }, {}, by decide, by decide, by decide, ?_, ?_⟩
  · refine ⟨by decide, by decide, by decide, fun _ => ⟨_, rfl⟩, by decide, by decide, by decide, fun _ => ⟨_, rfl⟩, trivial⟩
  · refine ⟨by decide, by decide, by decide, fun _ => ⟨_, rfl⟩, by decide, by decide, by decide, fun _ => ⟨_, rfl⟩, trivial⟩

/-- C13: an entry without compiler makes `write` fail after the file was emptied -/
example : ∃ x v', Vfb.write demo { header := .dec (headerDict 1), entries := [{ id := 99, data := .dec [1] }] } [1, 2, 3] = (.error x, v') :=
  ⟨_, _, rfl⟩

end Verif.Props
