import Verif.Props.Table
import Verif.Props.SpecialSize
/-! C10, C16 for every byte string that is accepted as a file, whatever the form of its entry headers. -/
set_option autoImplicit false
namespace Verif.Props
open Verif Verif.Spec
variable {D T : Type}

/-- what reading one entry gives -/
theorem readEntry_inv (nm : Int) (s rest data : Bytes) (id : Int) (h : readEntry nm s = .ok (id, data) rest) :
    (0 ≤ id ∧ id < 32768) ∧ data.length + rest.length ≤ s.length ∧
      (id = 1410 → rest = [] ∨ (data.length : Int) = 8 + 2 * nm) := by
  have hi : ∀ k (s : Bytes), readInt k false s = .ok (fromLE false (s.take k)) (s.drop k) := by
    intro k s
    unfold readInt
    simp only [R.bind_run, R.readN]
    rw [if_neg (by omega)]
    rfl
  have hr : ∀ (n : Int) (s b r : Bytes), R.readN n s = .ok b r → b.length + r.length ≤ s.length ∧ (r = [] ∨ (b.length : Int) = n) := by
    intro n s b r h
    unfold R.readN at h
    by_cases hn : n < 0
    · rw [if_pos hn] at h
      injection h with h1 h2
      subst h1 h2
      exact ⟨by simp, .inl rfl⟩
    · rw [if_neg hn] at h
      injection h with h1 h2
      subst h1 h2
      refine ⟨by simp only [List.length_take, List.length_drop]; omega, ?_⟩
      by_cases hl : s.length ≤ n.toNat
      · exact .inl (List.drop_eq_nil_of_le hl)
      · exact .inr (by simp only [List.length_take]; omega)
  unfold readEntry readU16 readU32 at h
  simp only [R.bind_run, hi, R.ite_run] at h
  have hid : 0 ≤ fromLE false (List.take 2 s) % 32768 ∧ fromLE false (List.take 2 s) % 32768 < 32768 := by omega
  split at h <;>
  · generalize hsz : (if fromLE false (List.take 2 s) % 32768 = 1410 then _ else _) = sz at h
    split at h
    case h_2 => cases h
    case h_1 b r hb =>
      injection h with h1 h2
      injection h1 with h3 h4
      subst h2 h3 h4
      obtain ⟨a1, a2⟩ := hr _ _ _ _ hb
      refine ⟨hid, by simp only [List.length_drop] at a1; omega, fun hmm => ?_⟩
      rw [if_pos hmm] at hsz
      rcases a2 with a2 | a2
      · exact .inl a2
      · exact .inr (by omega)

/-- the size of an entry is stored in at most four bytes, except for kerning pairs, where it follows from the number of masters -/
theorem readEntry_size (nm : Int) (s rest data : Bytes) (id : Int) (h : readEntry nm s = .ok (id, data) rest) (hn : nm < 2147483640)
    (hne : id = 1410 → rest ≠ []) : data.length < 4294967296 := by
  by_cases h1410 : id = 1410
  · rcases (readEntry_inv nm s rest data id h).2.2 h1410 with h' | h'
    · exact absurd h' (hne h1410)
    · omega
  clear hne
  have hi : ∀ k (s : Bytes), readInt k false s = .ok (fromLE false (s.take k)) (s.drop k) := by
    intro k s
    unfold readInt
    simp only [R.bind_run, R.readN]
    rw [if_neg (by omega)]
    rfl
  have hb : ∀ k (s : Bytes), k ≤ 4 → fromLE false (s.take k) < 4294967296 := by
    intro k s hk
    have h1 := leNat_lt (s.take k)
    have h2 : (s.take k).length ≤ 4 := by simp only [List.length_take]; omega
    have h3 : 256 ^ (s.take k).length ≤ 256 ^ 4 := Nat.pow_le_pow_right (by omega) h2
    simp only [fromLE, Bool.false_eq_true, if_false]
    omega
  have hr : ∀ (n : Int) (s b r : Bytes), R.readN n s = .ok b r → 0 ≤ n → n < 4294967296 → b.length < 4294967296 := by
    intro n s b r h h0 hn
    unfold R.readN at h
    rw [if_neg (by omega)] at h
    injection h with h1 h2
    subst h1
    simp only [List.length_take]
    omega
  unfold readEntry readU16 readU32 at h
  simp only [R.bind_run, hi, R.ite_run] at h
  split at h <;>
  · generalize hsz : (if fromLE false (List.take 2 s) % 32768 = 1410 then _ else _) = sz at h
    split at h
    case h_2 => cases h
    case h_1 b r hbb =>
      injection h with h1 h2
      injection h1 with h3 h4
      subst h4
      rw [if_neg (by omega)] at hsz
      rw [← hsz] at hbb
      exact hr _ _ _ _ hbb (by simp only [fromLE, Bool.false_eq_true, if_false]; omega) (hb _ _ (by omega))

/-- the bytes of an entry after which the file goes on -/
theorem readEntry_frame (nm : Int) (s rest data : Bytes) (id : Nat) (h : readEntry nm s = .ok ((id : Int), data) rest) (hne : rest ≠ []) :
    ∃ f, s = f ++ rest ∧ AnyFrame nm (id, data) f := by
  have hi : ∀ k (s : Bytes), readInt k false s = .ok (fromLE false (s.take k)) (s.drop k) := by
    intro k s
    unfold readInt
    simp only [R.bind_run, R.readN]
    rw [if_neg (by omega)]
    rfl
  have hr : ∀ (n : Int) (s b r : Bytes), R.readN n s = .ok b r → r ≠ [] → s = b ++ r ∧ (b.length : Int) = n := by
    intro n s b r h hne
    unfold R.readN at h
    by_cases hn : n < 0
    · rw [if_pos hn] at h
      injection h with h1 h2
      exact absurd h2.symm hne
    · rw [if_neg hn] at h
      injection h with h1 h2
      subst h1 h2
      refine ⟨(List.take_append_drop _ _).symm, ?_⟩
      have : ¬ s.length ≤ n.toNat := fun hl => hne (List.drop_eq_nil_of_le hl)
      simp only [List.length_take]
      omega
  have hd : ∀ k (s : Bytes), k ≤ s.length → s.take k = leDigits k (leNat (s.take k)) ∧ leNat (s.take k) < 256 ^ k := by
    intro k s hk
    have hl : (s.take k).length = k := by simp; omega
    have h1 := leDigits_leNat (s.take k)
    have h2 := leNat_lt (s.take k)
    rw [hl] at h1 h2
    exact ⟨h1.symm, h2⟩
  unfold readEntry readU16 readU32 at h
  simp only [R.bind_run, hi, R.ite_run] at h
  by_cases hlong : fromLE false (List.take 2 s) ≥ 32768
  · simp only [if_pos hlong] at h
    generalize hsz : (if fromLE false (List.take 2 s) % 32768 = 1410 then _ else _) = sz at h
    split at h
    case h_2 => cases h
    case h_1 b r hb =>
      injection h with h1 h2
      injection h1 with h3 h4
      subst h2 h4
      obtain ⟨a1, a2⟩ := hr _ _ _ _ hb hne
      have hlen : 2 + 4 < s.length := by
        have := congrArg List.length a1
        simp only [List.length_drop, List.length_append] at this
        have := List.length_pos_iff.2 hne
        omega
      obtain ⟨d1, d2⟩ := hd 2 s (by omega)
      obtain ⟨e1, e2⟩ := hd 4 (s.drop 2) (by simp; omega)
      simp only [fromLE, Bool.false_eq_true, if_false] at h3 hlong hsz
      have hid : leNat (List.take 2 s) = id + 32768 := by omega
      refine ⟨leDigits 2 (id + 32768) ++ leDigits 4 (leNat (List.take 4 (List.drop 2 s))) ++ b, ?_,
        leNat (List.take 4 (List.drop 2 s)), .inr ⟨by omega, rfl⟩, ?_, ?_⟩
      · rw [List.append_assoc, ← a1, ← hid, ← d1, ← e1, List.append_assoc, List.take_append_drop, List.take_append_drop]
      · intro hn
        simp only at hn ⊢
        rw [if_neg (by omega)] at hsz
        omega
      · intro hn
        simp only at hn ⊢
        rw [if_pos (by omega)] at hsz
        omega
  · simp only [if_neg hlong] at h
    generalize hsz : (if fromLE false (List.take 2 s) % 32768 = 1410 then _ else _) = sz at h
    split at h
    case h_2 => cases h
    case h_1 b r hb =>
      injection h with h1 h2
      injection h1 with h3 h4
      subst h2 h4
      obtain ⟨a1, a2⟩ := hr _ _ _ _ hb hne
      have hlen : 2 + 2 < s.length := by
        have := congrArg List.length a1
        simp only [List.length_drop, List.length_append] at this
        have := List.length_pos_iff.2 hne
        omega
      obtain ⟨d1, d2⟩ := hd 2 s (by omega)
      obtain ⟨e1, e2⟩ := hd 2 (s.drop 2) (by simp; omega)
      simp only [fromLE, Bool.false_eq_true, if_false] at h3 hlong hsz
      have hid : leNat (List.take 2 s) = id := by omega
      refine ⟨leDigits 2 id ++ leDigits 2 (leNat (List.take 2 (List.drop 2 s))) ++ b, ?_,
        leNat (List.take 2 (List.drop 2 s)), .inl ⟨by omega, rfl⟩, ?_, ?_⟩
      · rw [List.append_assoc, ← a1, ← hid, ← d1, ← e1, List.append_assoc, List.take_append_drop, List.take_append_drop]
      · intro hn
        simp only at hn ⊢
        rw [if_neg (by omega)] at hsz
        omega
      · intro hn
        simp only at hn ⊢
        rw [if_pos (by omega)] at hsz
        omega

/-- an entry with the id 2 begins with the byte 2 -/
theorem readEntry_end (nm : Int) (s rest data : Bytes) (h : readEntry nm s = .ok (2, data) rest) : s.head? = some 2 := by
  have hi : ∀ k (s : Bytes), readInt k false s = .ok (fromLE false (s.take k)) (s.drop k) := by
    intro k s
    unfold readInt
    simp only [R.bind_run, R.readN]
    rw [if_neg (by omega)]
    rfl
  unfold readEntry readU16 readU32 at h
  simp only [R.bind_run, hi, R.ite_run] at h
  have hid : fromLE false (List.take 2 s) % 32768 = 2 := by
    split at h <;>
    · split at h
      case h_2 => cases h
      case h_1 =>
        injection h with h1 h2
        injection h1
  simp only [fromLE, Bool.false_eq_true, if_false] at hid
  match s, hid with
  | [], hid => simp [leNat] at hid
  | [a], hid =>
    simp only [List.take_succ_cons, List.take_nil, leNat] at hid
    simp only [List.head?_cons, Option.some.injEq]
    apply UInt8.toNat_inj.1
    show a.toNat = 2
    have := a.toNat_lt
    omega
  | a :: b :: s, hid =>
    simp only [List.take_succ_cons, List.take_zero, leNat] at hid
    simp only [List.head?_cons, Option.some.injEq]
    apply UInt8.toNat_inj.1
    show a.toNat = 2
    have := a.toNat_lt
    omega

theorem smallMasters_after (C : Codec D T) {c : Ctx} (h : SmallMasters C c) (force : Bool) (p : Nat × Bytes) :
    SmallMasters C (ctxAfter C force c p) := by
  refine ⟨?_, h.2⟩
  unfold ctxAfter
  by_cases hs : isSpecial p.1 = true
  · rw [if_pos hs]
    cases hp : parseEntry (C.parse p.1 c) p.2 with
    | error e => exact h.1
    | ok d =>
      unfold noteCtx
      dsimp only
      split
      · exact h.1
      · split
        next h2 =>
          rw [h2] at hp
          exact h.2 _ _ _ hp
        next => split <;> exact h.1
  · rw [if_neg hs]
    exact h.1

/-- the entries that the loop has read -/
theorem readLoop_inv (C : Codec D T) (n : Nat) (v v' : Vfb D T) (s : Bytes) (hl : s.length < 4294967296 ∨ SmallMasters C v.ctx)
    (h : readLoop C n v s = (.ok (), v')) :
    ∃ init b, Readable C v.force_unicode_strings v.ctx (init ++ [(2, b)]) ∧ (∀ p ∈ init, p.1 ≠ 2) ∧
      ((init ++ [(2, b)]).map fun p => p.2.length).sum ≤ s.length ∧
      (∃ frames last, s = frames ++ last ∧ AnyFrames C v.force_unicode_strings v.ctx init frames ∧ last.head? = some 2) ∧
      v' = { v with
        ctx := ctxAll C v.force_unicode_strings v.ctx (init ++ [(2, b)])
        entries := v.entries ++ (loaded C v.force_unicode_strings v.ctx (init ++ [(2, b)])).filter fun e => e.id ∉ v.drop_keys } := by
  induction n generalizing v s with
  | zero => cases h
  | succ n ih =>
    obtain ⟨id, data, rest, he, _, _, _⟩ := readEntry_ok v.ctx.num_masters s
    obtain ⟨hid, hlen, hmm⟩ := readEntry_inv _ _ _ _ _ he
    rw [readLoop, he] at h
    simp only at h
    obtain ⟨k, rfl⟩ : ∃ k : Nat, id = k := ⟨id.toNat, by omega⟩
    by_cases hs : isSpecial (k : Int) = true → ∃ d, parseEntry (C.parse (k : Int) v.ctx) data = .ok d
    · have ha := addRead_ok C v (k, data) hs
      simp only at ha
      rw [ha] at h
      simp only at h
      have hidk : ∀ c, (loadedEntry C c (k, data) : Entry D T).id = k := by
        intro c
        unfold loadedEntry
        split
        · split <;> rfl
        · rfl
      by_cases h2 : (k : Int) = 2
      · rw [if_pos h2] at h
        have hk : k = 2 := by omega
        subst hk
        injection h with _ h
        refine ⟨[], data, ⟨by omega, hl.elim (fun hl => by simp only; omega) fun hl => readEntry_size _ _ _ _ _ he hl.1 (fun h => by omega), by intro h; simp at h, hs, trivial⟩, by simp, by simp; omega,
          ⟨[], s, rfl, rfl, readEntry_end _ _ _ _ he⟩, ?_⟩
        rw [← h]
        simp only [List.nil_append, ctxAll, List.foldl_cons, List.foldl_nil, loaded, List.filter_cons, List.filter_nil, hidk]
        congr 1
        by_cases hd : (2 : Int) ∈ v.drop_keys
        · simp [hd]
        · simp [hd]
      · rw [if_neg h2] at h
        have hne : rest ≠ [] := by
          rintro rfl
          have := readLoop_nil C n { v with
            ctx := ctxAfter C v.force_unicode_strings v.ctx (k, data)
            entries := if (k : Int) ∈ v.drop_keys then v.entries else v.entries ++ [loadedEntry C v.ctx (k, data)] }
          rw [h] at this
          cases this
        obtain ⟨init, b, a1, a2, a3, ⟨frames, last, hfr, hfr2, hlast⟩, a4⟩ := ih _ _ (hl.imp (fun hl => by omega) fun hl => smallMasters_after C hl _ _) h
        obtain ⟨f, hf1, hf2⟩ := readEntry_frame _ _ _ _ _ he hne
        refine ⟨(k, data) :: init, b, ⟨by simp only; omega, hl.elim (fun hl => by simp only; omega) fun hl => readEntry_size _ _ _ _ _ he hl.1 (fun _ => hne), ?_, hs, a1⟩, ?_, ?_,
          ⟨f ++ frames, last, by rw [hf1, hfr, List.append_assoc], ⟨f, frames, rfl, hf2, hfr2⟩, hlast⟩, ?_⟩
        · intro hk
          rcases hmm (by simp only at hk; omega) with h' | h'
          · exact absurd h' hne
          · exact h'
        · intro p hp
          rcases List.mem_cons.1 hp with rfl | hp
          · simp only; omega
          · exact a2 p hp
        · simp only [List.cons_append, List.map_cons, List.sum_cons]
          omega
        · rw [a4]
          simp only [List.cons_append, ctxAll, List.foldl_cons, loaded, List.filter_cons, hidk]
          by_cases hd : (k : Int) ∈ v.drop_keys
          · simp [hd]
          · simp [hd]
    · exfalso
      simp only [Classical.not_imp, not_exists] at hs
      unfold Vfb.addRead at h
      rw [if_pos hs.1] at h
      simp only [Entry.decompile] at h
      cases hp : parseEntry (C.parse (k : Int) v.ctx) data with
      | ok d => exact hs.2 d hp
      | error x => rw [hp] at h; cases h

/-- A file that can be read into one font object can be read into every other with the same number of masters, and the entries read
are the same. -/
theorem readLoop_other (C : Codec D T) (hs : SpecialFixed C) (n : Nat) (v v' : Vfb D T) (s : Bytes) (h : readLoop C n v s = (.ok (), v')) :
    ∃ es : List (Nat × Bytes), ∀ w : Vfb D T, w.ctx.num_masters = v.ctx.num_masters →
      (∀ p ∈ es, isSpecial p.1 = true → ∃ d, parseEntry (C.parse p.1 w.ctx) p.2 = .ok d) ∧
      readLoop C n w s = (.ok (), { w with
        ctx := ctxAll C w.force_unicode_strings w.ctx es
        entries := w.entries ++ (loaded C w.force_unicode_strings w.ctx es).filter fun e => e.id ∉ w.drop_keys }) := by
  induction n generalizing v s with
  | zero => cases h
  | succ n ih =>
    obtain ⟨id, data, rest, he, _, _, _⟩ := readEntry_ok v.ctx.num_masters s
    obtain ⟨hid, hlen, hmm⟩ := readEntry_inv _ _ _ _ _ he
    rw [readLoop, he] at h
    simp only at h
    obtain ⟨k, rfl⟩ : ∃ k : Nat, id = k := ⟨id.toNat, by omega⟩
    have hidk : ∀ c, (loadedEntry C c (k, data) : Entry D T).id = k := by
      intro c
      unfold loadedEntry
      split
      · split <;> rfl
      · rfl
    by_cases hsp : isSpecial (k : Int) = true → ∃ d, parseEntry (C.parse (k : Int) v.ctx) data = .ok d
    · have hspw : ∀ w : Vfb D T, isSpecial (k : Int) = true → ∃ d, parseEntry (C.parse (k : Int) w.ctx) data = .ok d := by
        intro w hk
        rw [hs k hk w.ctx v.ctx]
        exact hsp hk
      have ha := addRead_ok C v (k, data) hsp
      simp only at ha
      rw [ha] at h
      simp only at h
      by_cases h2 : (k : Int) = 2
      · have hk : k = 2 := by omega
        subst hk
        refine ⟨[(2, data)], fun w hw => ⟨fun p hp => ?_, ?_⟩⟩
        · simp only [List.mem_singleton] at hp
          subst hp
          exact hspw w
        · rw [readLoop, hw, he]
          simp only
          have haw := addRead_ok C w (2, data) (hspw w)
          simp only at haw
          rw [haw]
          simp only
          rw [if_pos h2]
          simp only [ctxAll, List.foldl_cons, List.foldl_nil, loaded, List.filter_cons, List.filter_nil, hidk]
          congr 2
          by_cases hd : (2 : Int) ∈ w.drop_keys
          · simp [hd]
          · simp [hd]
      · rw [if_neg h2] at h
        obtain ⟨es, hes⟩ := ih _ _ h
        refine ⟨(k, data) :: es, fun w hw => ?_⟩
        have hnum : (ctxAfter C w.force_unicode_strings w.ctx (k, data)).num_masters =
            (ctxAfter C v.force_unicode_strings v.ctx (k, data)).num_masters := by
          unfold ctxAfter
          by_cases hk : isSpecial (k : Int) = true
          · obtain ⟨d, hd⟩ := hsp hk
            have hd' := hd
            rw [hs k hk v.ctx w.ctx] at hd'
            simp only [hk, if_true, hd, hd']
            unfold noteCtx
            by_cases h10 : (k : Int) = 10
            · simp only [h10, if_true, hw]
            · by_cases h1503 : (k : Int) = 1503
              · simp [h10, h1503]
              · by_cases h1269 : (k : Int) = 1269
                · simp [h10, h1503, h1269, hw]
                · simp [h10, h1503, h1269, hw]
          · simp only [hk, Bool.false_eq_true, if_false, hw]
        obtain ⟨e1, e2⟩ := hes { w with
            ctx := ctxAfter C w.force_unicode_strings w.ctx (k, data)
            entries := if (k : Int) ∈ w.drop_keys then w.entries else w.entries ++ [loadedEntry C w.ctx (k, data)] } hnum
        refine ⟨fun p hp hpk => ?_, ?_⟩
        · rcases List.mem_cons.1 hp with rfl | hp
          · exact hspw w hpk
          · obtain ⟨d, hd⟩ := e1 p hp hpk
            refine ⟨d, ?_⟩
            rw [hs p.1 hpk w.ctx]
            exact hd
        · rw [readLoop, hw, he]
          simp only
          have haw := addRead_ok C w (k, data) (hspw w)
          simp only at haw
          rw [haw]
          simp only
          rw [if_neg h2, e2]
          simp only [ctxAll, List.foldl_cons, loaded, List.filter_cons, hidk]
          congr 2
          by_cases hd : (k : Int) ∈ w.drop_keys
          · simp [hd]
          · simp [hd]
    · exfalso
      simp only [Classical.not_imp, not_exists] at hsp
      unfold Vfb.addRead at h
      rw [if_pos hsp.1] at h
      simp only [Entry.decompile] at h
      cases hp : parseEntry (C.parse (k : Int) v.ctx) data with
      | ok d => exact hsp.2 d hp
      | error x => rw [hp] at h; cases h

/-- **C53** Whatever byte string is accepted as a file by one font object is accepted by every other one with the same options and number
of masters, whatever that has been used for; header and entries are the same, and so are the settings if the file has an FL version, a
master count and a TrueType stems entry. -/
theorem C53_every_file (C : Codec D T) (hs : SpecialFixed C) (v v1 w : Vfb D T) (file : Bytes)
    (hv : v.only_header = false) (hw : w.only_header = false) (hk : v.drop_keys = w.drop_keys)
    (hf : v.force_unicode_strings = w.force_unicode_strings) (hn : w.ctx.num_masters = v.ctx.num_masters)
    (h : v.readBytes C file = (.ok (), v1)) :
    ∃ w1, w.readBytes C file = (.ok (), w1) ∧ v1.header = w1.header ∧ v1.entries = w1.entries ∧
      v1.ctx.num_masters = w1.ctx.num_masters ∧
      ((∀ id, id = 10 ∨ id = 1503 ∨ id = 1269 → ∃ e ∈ v1.entries, e.id = id) → v1.ctx = w1.ctx) := by
  unfold Vfb.readBytes Vfb.readFuel at h ⊢
  cases hp : parseHeader file with
  | err x r => rw [hp] at h; cases h
  | ok hd rest =>
    rw [hp] at h
    simp only [Vfb.clear, hv, hw] at h ⊢
    rw [if_neg (by simp)] at h ⊢
    obtain ⟨es, hes⟩ := readLoop_other C hs _ _ v1 rest h
    obtain ⟨s1, r1⟩ := hes { v with header := .dec hd, entries := [], only_header := false } rfl
    obtain ⟨s2, r2⟩ := hes { w with header := .dec hd, entries := [], only_header := false } hn
    rw [h] at r1
    injection r1 with _ r1
    refine ⟨_, r2, by rw [r1], ?_, ?_, ?_⟩
    · rw [r1]
      simp only [List.nil_append, hk, hf]
      rw [loaded_fixed C hs _ es v.ctx w.ctx]
    · rw [r1]
      simp only [← hf]
      exact (ctxAll_parts C hs v.force_unicode_strings es v.ctx w.ctx s1).2.1 (.inr hn.symm)
    · intro hids
      have hin : ∀ id : Nat, id = 10 ∨ id = 1503 ∨ id = 1269 → ∃ b, (id, b) ∈ es := by
        intro id hid
        obtain ⟨e, he, hee⟩ := hids id (by omega)
        rw [r1] at he
        simp only [List.nil_append] at he
        have he := (List.mem_filter.1 he).1
        obtain ⟨l, l1, l2, l3⟩ := loaded_zip C v.force_unicode_strings v.ctx es
        rw [← l1] at he
        obtain ⟨x, hx, rfl⟩ := List.mem_map.1 he
        obtain ⟨c, hc⟩ := l3 x hx
        have hx1 : x.1.id = (x.2.1 : Int) := by
          rw [hc]
          unfold loadedEntry
          split
          · split <;> rfl
          · rfl
        have : x.2.1 = id := by omega
        exact ⟨x.2.2, by rw [← l2, ← this]; exact List.mem_map_of_mem hx⟩
      obtain ⟨p1, p2, p3⟩ := ctxAll_parts C hs v.force_unicode_strings es v.ctx w.ctx s1
      have p1 := p1 (.inl (hin 10 (by omega)))
      have p2 := p2 (.inl (hin 1503 (by omega)))
      have p3 := p3 (.inl (hin 1269 (by omega)))
      rw [r1]
      simp only [← hf]
      cases hx : ctxAll C v.force_unicode_strings v.ctx es
      cases hy : ctxAll C v.force_unicode_strings w.ctx es
      rw [hx, hy] at p1 p2 p3
      simp only at p1 p2 p3
      simp [p1, p2, p3]

/-- **C10** Whatever byte string is accepted as a file – its header may be longer, its entries may have headers of
either form, anything may follow the end entry – from some offset on it consists of entries, the first one of which with the id 2 may
be cut off, but no other; and the file that consists of exactly these entries, in the form in which this library writes files, is
read with the same result, whatever follows it. -/
theorem C10_every_file (C : Codec D T) (v v' : Vfb D T) (file : Bytes) (ho : v.only_header = false) (hl : file.length < 4294967296 ∨ SmallMasters C v.ctx)
    (h : v.readBytes C file = (.ok (), v')) :
    ∃ minor init b, (∀ p ∈ init, p.1 ≠ 2) ∧ Readable C v.force_unicode_strings v.ctx (init ++ [(2, b)]) ∧
      ((init ++ [(2, b)]).map fun p => p.2.length).sum ≤ file.length ∧
      (∃ before frames last, file = before ++ frames ++ last ∧ AnyFrames C v.force_unicode_strings v.ctx init frames ∧ last.head? = some 2) ∧
      ∀ tail, v.readBytes C (fileOf minor (init ++ [(2, b)]) ++ tail) = (.ok (), v') := by
  have h0 := h
  unfold Vfb.readBytes Vfb.readFuel at h
  cases hp : parseHeader file with
  | err x r => rw [hp] at h; cases h
  | ok hd rest =>
    rw [hp] at h
    obtain ⟨minor, rfl⟩ := C09_header_checked file rest hd hp
    have hrest : ∃ before, file = before ++ rest := by
      unfold parseHeader at hp
      split at hp
      · cases hp; exact ⟨_, (List.take_append_drop _ _).symm⟩
      · cases hp
    obtain ⟨before, hbefore⟩ := hrest
    have hrest : rest.length ≤ file.length := by rw [hbefore]; simp
    simp only [Vfb.clear, ho] at h
    rw [if_neg (by simp)] at h
    have hlr : rest.length < 4294967296 ∨ SmallMasters C v.ctx := hl.imp (fun hl => by omega) id
    obtain ⟨init, b, a1, a2, a3, ⟨frames, last, f1, f2, f3⟩, a4⟩ := readLoop_inv C _ _ v' rest (by exact hlr) h
    refine ⟨minor, init, b, a2, a1, by omega, ⟨before, frames, last, by rw [hbefore, f1, List.append_assoc], f2, f3⟩, fun tail => ?_⟩
    rw [read_file C v minor _ tail ho ⟨init, b, rfl, a2⟩ a1, a4]
    simp [ho]

/-- **C10** Reading any file, writing the font without touching it and reading the result gives exactly the same font, provided that the
three entries that are decompiled while reading survive. -/
theorem C10_second_read (C : Codec D T) (hs : SpecialFixed C) (v v' : Vfb D T) (file : Bytes) (ho : v.only_header = false)
    (hk : v.drop_keys = []) (hl : file.length < 4294967296 ∨ SmallMasters C v.ctx) (h : v.readBytes C file = (.ok (), v'))
    (hsp : ∀ e ∈ v'.entries, isSpecial e.id = true → ∀ d, e.data = .dec d →
      ∃ comp b, C.compile e.id = some comp ∧ comp v'.ctx (some d) = .ok b ∧ b.length < 4294967296 ∧
        parseEntry (C.parse e.id v'.ctx) b = .ok d) :
    ∃ out v'', v'.writeBytes C = (.ok (), out, v'') ∧ v.readBytes C out = (.ok (), v') := by
  obtain ⟨minor, init, b0, hi0, hr, _, _, hread⟩ := C10_every_file C v v' file ho hl h
  have ht : Terminated (init ++ [(2, b0)]) := ⟨init, b0, rfl, hi0⟩
  generalize init ++ [(2, b0)] = es at *
  have h1 := hread []
  rw [read_file C v minor es [] ho ht hr, hk, List.filter_eq_self.2 (by simp)] at h1
  injection h1 with _ h1
  -- the entries on file of the second time
  have key : ∀ (es : List (Nat × Bytes)) (c : Ctx), Readable C v.force_unicode_strings c es →
      (∀ e ∈ loaded C v.force_unicode_strings c es, e ∈ v'.entries) →
      ∃ l : List (Entry D T × (Nat × Bytes)), l.map Prod.fst = loaded C v.force_unicode_strings c es ∧
        loaded C v.force_unicode_strings c (l.map Prod.snd) = loaded C v.force_unicode_strings c es ∧
        ctxAll C v.force_unicode_strings c (l.map Prod.snd) = ctxAll C v.force_unicode_strings c es ∧
        (l.map Prod.snd).map Prod.fst = es.map Prod.fst ∧
        Readable C v.force_unicode_strings c (l.map Prod.snd) ∧
        ∀ x ∈ l, (x.1.id = (x.2.1 : Int) ∧ x.1.temp_masters = none ∧ x.1.cached = none ∧ HasPayload C v'.ctx x.1 x.2.2 ∧
          x.2.1 < 32768 ∧ x.2.2.length < 4294967296) := by
    intro es
    induction es with
    | nil => exact fun c _ _ => ⟨[], rfl, rfl, rfl, rfl, trivial, by simp⟩
    | cons p es ih =>
      intro c hr hm
      obtain ⟨r1, r2, r3, r4, r5⟩ := hr
      have hm0 := hm _ List.mem_cons_self
      obtain ⟨l, i1, i2, i3, i4, i5, i6⟩ := ih _ r5 fun e he => hm e (List.mem_cons_of_mem _ he)
      by_cases hsp' : isSpecial p.1 = true
      · obtain ⟨d, hd⟩ := r4 hsp'
        have hle : (loadedEntry C c p : Entry D T) = { id := p.1, data := .dec d } := by
          unfold loadedEntry
          rw [if_pos hsp', hd]
        rw [hle] at hm0
        obtain ⟨comp, b, c1, c2, c3, c4⟩ := hsp _ hm0 hsp' d rfl
        simp only at c1 c4
        have c4' : parseEntry (C.parse p.1 c) b = .ok d := by rw [hs p.1 hsp' c v'.ctx]; exact c4
        have hle' : (loadedEntry C c (p.1, b) : Entry D T) = { id := p.1, data := .dec d } := by
          unfold loadedEntry
          simp only [hsp', if_true, c4']
        have hca : ctxAfter C v.force_unicode_strings c (p.1, b) = ctxAfter C v.force_unicode_strings c p := by
          unfold ctxAfter
          simp only [hsp', if_true, c4', hd]
        have hn : p.1 ≠ 1410 := by
          intro h
          rw [h] at hsp'
          exact absurd hsp' (by decide)
        refine ⟨({ id := p.1, data := .dec d }, (p.1, b)) :: l, ?_, ?_, ?_, ?_, ?_, ?_⟩
        · simp only [List.map_cons, loaded, hle, i1]
        · simp only [List.map_cons, loaded, hle, hle', hca, i2]
        · simp only [ctxAll, List.map_cons, List.foldl_cons, hca]
          exact i3
        · simp only [List.map_cons, i4]
        · refine ⟨r1, c3, fun h => absurd h hn, fun _ => ⟨d, c4'⟩, ?_⟩
          rw [hca]
          exact i5
        · intro x hx
          rcases List.mem_cons.1 hx with rfl | hx
          · exact ⟨rfl, rfl, rfl, ⟨comp, c1, c2⟩, r1, c3⟩
          · exact i6 x hx
      · have hle : (loadedEntry C c p : Entry D T) = { id := p.1, data := .bytes p.2 } := by
          unfold loadedEntry
          rw [if_neg hsp']
        refine ⟨({ id := p.1, data := .bytes p.2 }, p) :: l, ?_, ?_, ?_, ?_, ⟨r1, r2, r3, r4, i5⟩, ?_⟩
        · simp only [List.map_cons, loaded, hle, i1]
        · simp only [List.map_cons, loaded, i2]
        · simp only [ctxAll, List.map_cons, List.foldl_cons]
          exact i3
        · simp only [List.map_cons, i4]
        · intro x hx
          rcases List.mem_cons.1 hx with rfl | hx
          · exact ⟨rfl, rfl, rfl, rfl, r1, r2⟩
          · exact i6 x hx
  obtain ⟨l, l1, l2, l3, l4, l5, l6⟩ := key es v.ctx hr (by rw [← h1]; exact fun e he => he)
  obtain ⟨v'', hw⟩ := write_ok C v' minor l (by rw [← h1]) (by rw [← h1]; exact l1.symm) (fun x hx => by
    obtain ⟨a1, a2, a3, a4, a5, a6⟩ := l6 x hx
    exact ⟨a1, a2, a3, a4, a5, a6⟩)
  have ht' : Terminated (l.map Prod.snd) := by
    obtain ⟨init, b, rfl, hi⟩ := ht
    generalize l.map Prod.snd = ps at l4
    have hlen : ps.length = init.length + 1 := by have := congrArg List.length l4; simpa using this
    refine ⟨ps.take init.length, (ps.getD init.length (2, b)).2, ?_, ?_⟩
    · have hlast : ps.drop init.length = [(2, (ps.getD init.length (2, b)).2)] := by
        have h2 : (ps.map Prod.fst).drop init.length = [2] := by rw [l4]; simp
        rw [← List.map_drop] at h2
        have : ps.getD init.length (2, b) = (ps.drop init.length).headD (2, b) := by
          rw [List.getD_eq_getElem?_getD, ← List.head?_drop]
          cases ps.drop init.length <;> rfl
        rw [this]
        cases hd : ps.drop init.length with
        | nil => rw [hd] at h2; cases h2
        | cons x xs =>
          rw [hd] at h2
          simp only [List.map_cons, List.cons.injEq, List.map_eq_nil_iff] at h2
          obtain ⟨h2, rfl⟩ := h2
          simp only [List.headD_cons, List.cons.injEq, and_true]
          rw [← h2]
      rw [← hlast, List.take_append_drop]
    · intro p hp
      have : p.1 ∈ (ps.take init.length).map Prod.fst := List.mem_map_of_mem hp
      rw [List.map_take, l4, List.map_append, List.take_left' (by simp)] at this
      obtain ⟨q, hq, e⟩ := List.mem_map.1 this
      rw [← e]
      exact hi q hq
  refine ⟨_, v'', hw, ?_⟩
  have h2 := read_file C v minor (l.map Prod.snd) [] ho ht' l5
  rw [List.append_nil, hk, List.filter_eq_self.2 (by simp), l2, l3] at h2
  rw [h2, h1]

/-- where the entries of a font that has been read come from, in order -/
theorem loaded_source (C : Codec D T) (hs : SpecialFixed C) (force : Bool) (c' : Ctx) (es : List (Nat × Bytes)) (c : Ctx)
    (hr : Readable C force c es) :
    List.Forall₂ (fun (p : Nat × Bytes) (e : Entry D T) => e.id = (p.1 : Int) ∧ p.2.length < 4294967296 ∧
        ((isSpecial e.id = true ∧ ∃ d, e.data = .dec d ∧ parseEntry (C.parse e.id c') p.2 = .ok d) ∨
          (isSpecial e.id = false ∧ e.data = .bytes p.2)))
      es (loaded C force c es) := by
  induction es generalizing c with
  | nil => exact .nil
  | cons p es ih =>
    obtain ⟨r1, r2, r3, r4, r5⟩ := hr
    refine .cons ?_ (ih _ r5)
    unfold loadedEntry
    by_cases hsp : isSpecial p.1 = true
    · obtain ⟨d, hd⟩ := r4 hsp
      rw [if_pos hsp, hd]
      refine ⟨rfl, r2, .inl ⟨hsp, d, rfl, ?_⟩⟩
      rw [hs p.1 hsp c' c]
      exact hd
    · rw [if_neg hsp]
      exact ⟨rfl, r2, .inr ⟨by simpa using hsp, rfl⟩⟩

theorem forall₂_left {α β : Type} {P : α → β → Prop} {l : List α} {m : List β} (h : List.Forall₂ P l m) : ∀ a ∈ l, ∃ b ∈ m, P a b := by
  induction h with
  | nil => simp
  | cons h _ ih =>
    intro a ha
    rcases List.mem_cons.1 ha with rfl | ha
    · exact ⟨_, List.mem_cons_self, h⟩
    · obtain ⟨b, hb, e⟩ := ih a ha
      exact ⟨b, List.mem_cons_of_mem _ hb, e⟩

theorem forall₂_right {α β : Type} {P : α → β → Prop} {l : List α} {m : List β} (h : List.Forall₂ P l m) : ∀ b ∈ m, ∃ a ∈ l, P a b := by
  induction h with
  | nil => simp
  | cons h _ ih =>
    intro a ha
    rcases List.mem_cons.1 ha with rfl | ha
    · exact ⟨_, List.mem_cons_self, h⟩
    · obtain ⟨b, hb, e⟩ := ih a ha
      exact ⟨b, List.mem_cons_of_mem _ hb, e⟩

theorem mem_length_le {es : List (Nat × Bytes)} {p : Nat × Bytes} (h : p ∈ es) : p.2.length ≤ (es.map fun p => p.2.length).sum := by
  induction es with
  | nil => cases h
  | cons q es ih =>
    simp only [List.map_cons, List.sum_cons]
    rcases List.mem_cons.1 h with rfl | h
    · omega
    · have := ih h
      omega

section
variable (ops : AngleOps) (asm : AsmOps)

/-- whatever the three entries were decompiled to while reading is compiled and decompiled to the same -/
theorem special_compiles (id : Int) (hsp : isSpecial id = true) (c ctx : Ctx) (p : Bytes) (d : Decompiled ops.Angle asm.Asm)
    (hd : parseEntry ((vfbCodec ops asm).parse id c) p = .ok d) :
    ∃ k b, kindOf id = some k ∧ k.compileData ops asm ctx (some d) = .ok b ∧ ∀ c', parseEntry ((vfbCodec ops asm).parse id c') b = .ok d := by
  have hs := vfb_special_fixed ops asm id hsp
  have gen : ∀ k : Kind, kindOf id = some k →
      (∀ a, parseEntry ((k.cls ops asm).parse c) p = .ok a → RoundTrips ((k.cls ops asm).compile ctx) ((k.cls ops asm).parse c) a) →
      ∃ b, k.compileData ops asm ctx (some d) = .ok b ∧ ∀ c', parseEntry ((vfbCodec ops asm).parse id c') b = .ok d := by
    intro k hk h
    have hparse : (vfbCodec ops asm).parse id c = (do
        let a ← (k.cls ops asm).parse c
        pure ((k.cls ops asm).inj a)) := by
      show tableParse ops asm id c = _
      unfold tableParse
      rw [hk]
    rw [hparse, parseEntry_map] at hd
    cases ha : parseEntry ((k.cls ops asm).parse c) p with
    | error e => rw [ha] at hd; cases hd
    | ok a =>
      rw [ha] at hd
      have hd : (Except.ok ((k.cls ops asm).inj a) : Except PyErr (Decompiled ops.Angle asm.Asm)) = .ok d := hd
      injection hd with hd
      subst hd
      obtain ⟨b, h1, h2⟩ := h a ha
      refine ⟨b, ?_, fun c' => ?_⟩
      · unfold Kind.compileData
        simp only [proj_inj]
        exact h1
      · rw [hs c' c, hparse, parseEntry_map, h2]
        rfl
  rcases special_kinds id hsp with ⟨h, _⟩ | ⟨h, _⟩ | ⟨h, _⟩
  · obtain ⟨b, h1⟩ := gen _ h fun a ha => (by
      have := parseEntry_post (post_flVersion (N := p.length)) ha
      exact C29_flversion_roundtrip a this.1 this.2.1 this.2.2.1 this.2.2.2)
    exact ⟨_, b, h, h1⟩
  · obtain ⟨b, h1⟩ := gen _ h fun a ha => (by
      have := parseEntry_post (P := fun v => 0 ≤ v ∧ v < 65536) (post_u16 (N := p.length)) ha
      exact (C25_int16 a).1 this)
    exact ⟨_, b, h, h1⟩
  · obtain ⟨b, h1⟩ := gen _ h fun a ha => (by
      have hp : Post p.length parseTTStems fun d => (d.ttStemsV.length < 2147483648 ∧ ∀ s ∈ d.ttStemsV, TTStemFits s ∧ s.round.map Prod.fst = [6]) ∧
          (d.ttStemsH.length < 2147483648 ∧ ∀ s ∈ d.ttStemsH, TTStemFits s ∧ s.round.map Prod.fst = [6]) :=
        Post.bind (post_counted post_ttStem) fun v hv => Post.bind (post_counted post_ttStem) fun h hh => Post.pure ⟨hv, hh⟩
      have := parseEntry_post hp ha
      exact C37_stems_same a this.1 this.2)
    exact ⟨_, b, h, h1⟩

/-- with the entry classes of vfbLib the number of masters is always small -/
theorem vfb_small_masters {c : Ctx} (h : c.num_masters < 2147483640) : SmallMasters (vfbCodec ops asm) c := by
  refine ⟨h, fun c' b d hd => ?_⟩
  have hk : kindOf 1503 = some .int16 := by decide +kernel
  have hd' : parseEntry (tableParse ops asm 1503 c') b = .ok d := hd
  unfold tableParse at hd'
  rw [hk] at hd'
  have h2 : parseEntry (do
      let a ← parseInt16
      pure (.int a : Decompiled ops.Angle asm.Asm)) b = .ok d := hd'
  rw [parseEntry_map] at h2
  cases ha : parseEntry parseInt16 b with
  | error e => rw [ha] at h2; cases h2
  | ok a =>
    rw [ha] at h2
    have h2 : (Except.ok (.int a) : Except PyErr (Decompiled ops.Angle asm.Asm)) = .ok d := h2
    injection h2 with h2
    subst h2
    have := parseEntry_post (post_u16 (N := b.length)) ha
    show a < _
    omega

/-- **C10** with the entry classes of vfbLib: whatever byte string of less than 1 GB is accepted as a file, writing the font that was
read without touching it succeeds, and reading what was written gives exactly the same font. -/
theorem C10_vfb_second_read (hr : ∀ v, IsInt32 v → IsInt32 (ops.fromAngle (ops.toAngle v)))
    (v v' : Vfb (Decompiled ops.Angle asm.Asm) (List MasterData)) (file : Bytes) (ho : v.only_header = false)
    (hk : v.drop_keys = []) (hl : file.length < 1000000000) (h : v.readBytes (vfbCodec ops asm) file = (.ok (), v')) :
    ∃ out v'', v'.writeBytes (vfbCodec ops asm) = (.ok (), out, v'') ∧ v.readBytes (vfbCodec ops asm) out = (.ok (), v') := by
  have hs := vfb_special_fixed ops asm
  obtain ⟨minor, init, b0, hi0, hread, hsum, _, hf⟩ := C10_every_file _ v v' file ho (.inl (by omega)) h
  have ht : Terminated (init ++ [(2, b0)]) := ⟨init, b0, rfl, hi0⟩
  generalize init ++ [(2, b0)] = es at *
  refine C10_second_read _ hs v v' file ho hk (.inl (by omega)) h fun e he hsp d hd => ?_
  have h1 := hf []
  rw [read_file _ v minor es [] ho ht hread, hk, List.filter_eq_self.2 (by simp)] at h1
  injection h1 with _ h1
  have hent : v'.entries = loaded (vfbCodec ops asm) v.force_unicode_strings v.ctx es := by rw [← h1]
  rw [hent] at he
  obtain ⟨p, hp, hid, _, hcase⟩ := forall₂_right (loaded_source _ hs _ v'.ctx es v.ctx hread) e he
  rcases hcase with ⟨_, d0, hd0, hpd⟩ | ⟨hn, _⟩
  · rw [hd] at hd0
    injection hd0 with hd0
    subst hd0
    have hlen : p.2.length < 1000000000 := by
      have := mem_length_le hp
      omega
    have hkind : ∃ k, kindOf e.id = some k ∧ (k = .flVersion ∨ k = .int16 ∨ k = .ttStems) := by
      rcases special_kinds e.id hsp with ⟨h, _⟩ | ⟨h, _⟩ | ⟨h, _⟩
      · exact ⟨_, h, .inl rfl⟩
      · exact ⟨_, h, .inr (.inl rfl)⟩
      · exact ⟨_, h, .inr (.inr rfl)⟩
    obtain ⟨k, hkd, hk3⟩ := hkind
    have hsv : Survives ops asm v'.ctx k d := by
      rcases hk3 with rfl | rfl | rfl <;> exact trivial
    obtain ⟨comp, b, d', c1, c2, c3, c4⟩ := C15_entry_stable ops asm hr e.id k hkd v'.ctx p.2 d (by omega) hpd hsv
    have hdd : d' = d := by
      obtain ⟨a, rfl⟩ := parse_inj ops asm hkd hpd
      obtain ⟨a', rfl⟩ := parse_inj ops asm hkd c3
      rcases hk3 with rfl | rfl | rfl <;> exact c4.symm
    rw [hdd] at c3
    have hsz := special_size ops asm e.id hsp _ v'.ctx p.2 b d comp hpd c1 c2
    exact ⟨comp, b, c1, c2, by omega, c3⟩
  · rw [hn] at hsp
    cases hsp

/-- **C10** … and a file of any size, read into a font object with any number of masters that fits into four bytes, as long as the TrueType stems
take less than 4 GB when they are written. -/
theorem C10_any_size (v v' : Vfb (Decompiled ops.Angle asm.Asm) (List MasterData)) (file : Bytes) (ho : v.only_header = false)
    (hk : v.drop_keys = []) (hm : v.ctx.num_masters < 2147483640) (h : v.readBytes (vfbCodec ops asm) file = (.ok (), v'))
    (hst : ∀ e ∈ v'.entries, e.id = 1269 → ∀ d b, e.data = .dec d → Kind.ttStems.compileData ops asm v'.ctx (some d) = .ok b → b.length < 4294967296) :
    ∃ out v'', v'.writeBytes (vfbCodec ops asm) = (.ok (), out, v'') ∧ v.readBytes (vfbCodec ops asm) out = (.ok (), v') := by
  have hs := vfb_special_fixed ops asm
  have hsm := vfb_small_masters ops asm hm
  obtain ⟨minor, init, b0, hi0, hread, -, -, hf⟩ := C10_every_file _ v v' file ho (.inr hsm) h
  have ht : Terminated (init ++ [(2, b0)]) := ⟨init, b0, rfl, hi0⟩
  generalize init ++ [(2, b0)] = es at *
  refine C10_second_read _ hs v v' file ho hk (.inr hsm) h fun e he hsp d hd => ?_
  have h1 := hf []
  rw [read_file _ v minor es [] ho ht hread, hk, List.filter_eq_self.2 (by simp)] at h1
  injection h1 with _ h1
  have hent : v'.entries = loaded (vfbCodec ops asm) v.force_unicode_strings v.ctx es := by rw [← h1]
  have he' := he
  rw [hent] at he
  obtain ⟨p, hp, hid, _, hcase⟩ := forall₂_right (loaded_source _ hs _ v'.ctx es v.ctx hread) e he
  rcases hcase with ⟨_, d0, hd0, hpd⟩ | ⟨hn, _⟩
  · rw [hd] at hd0
    injection hd0 with hd0
    subst hd0
    obtain ⟨k, b, hkd, c2, c3⟩ := special_compiles ops asm e.id hsp _ v'.ctx p.2 d hpd
    have c1 : (vfbCodec ops asm).compile e.id = some (k.compileData ops asm) := by
      show tableCompile ops asm e.id = _
      unfold tableCompile
      rw [hkd]
      rfl
    refine ⟨_, b, c1, c2, ?_, c3 _⟩
    by_cases h1269 : e.id = 1269
    · have hk2 : kindOf 1269 = some .ttStems := by decide +kernel
      rw [h1269, hk2] at hkd
      injection hkd with hkd
      subst hkd
      exact hst e he' h1269 d b hd c2
    · rcases special_kinds e.id hsp with ⟨hh, hi⟩ | ⟨hh, hi⟩ | ⟨_, hi⟩
      · obtain ⟨a, rfl⟩ := parse_inj ops asm hh hpd
        rw [hkd] at hh
        injection hh with hh
        subst hh
        have := flVersion_size (d := a) (b := b) c2
        omega
      · obtain ⟨a, rfl⟩ := parse_inj ops asm hh hpd
        rw [hkd] at hh
        injection hh with hh
        subst hh
        have := toBytesLE_length (show compileInt16 a = .ok b from c2)
        omega
      · exact absurd hi h1269
  · rw [hn] at hsp
    cases hsp

/-- **C16** for whatever byte string (of less than 2 GB) is accepted as a file: if all its entries are of known kinds, can be
decompiled and survive, and no compiled entry reaches 4 GB, then decompiling, writing, reading and decompiling again gives the same
header, the same context, the same entry ids and for every entry the same data; writing the result again gives the same bytes. -/
theorem C16_every_file (hr : ∀ v, IsInt32 v → IsInt32 (ops.fromAngle (ops.toAngle v)))
    (v v1 : Vfb (Decompiled ops.Angle asm.Asm) (List MasterData)) (file : Bytes)
    (ho : v.only_header = false) (hk : v.drop_keys = []) (hl : file.length < 2147483648)
    (h : v.readBytes (vfbCodec ops asm) file = (.ok (), v1))
    (hes : ∀ e ∈ v1.entries, ∃ k d, kindOf e.id = some k ∧
      (e.data = .dec d ∨ ∃ b, e.data = .bytes b ∧ parseEntry ((vfbCodec ops asm).parse e.id v1.ctx) b = .ok d) ∧
      Survives ops asm v1.ctx k d ∧
      ∀ b, k.compileData ops asm v1.ctx (some d) = .ok b → b.length < 4294967296) :
    ∃ v2 out v3 v4 v5, v1.decompile (vfbCodec ops asm) = (.ok (), v2) ∧
      v2.writeBytes (vfbCodec ops asm) = (.ok (), out, v3) ∧
      v.readBytes (vfbCodec ops asm) out = (.ok (), v4) ∧
      v4.decompile (vfbCodec ops asm) = (.ok (), v5) ∧
      v5.header = v2.header ∧ v5.ctx = v2.ctx ∧ v2.entries.length = v1.entries.length ∧
      List.Forall₂ (fun x y => x.1 = y.1 ∧ ∃ d d', x.2 = .dec d ∧ y.2 = .dec d' ∧ SameData d d') (contents v2) (contents v5) ∧
      ∃ v6, v5.writeBytes (vfbCodec ops asm) = (.ok (), out, v6) := by
  have hs := vfb_special_fixed ops asm
  obtain ⟨minor, init, b0, hi0, hread, hsum, _, hf⟩ := C10_every_file _ v v1 file ho (.inl (by omega)) h
  have ht : Terminated (init ++ [(2, b0)]) := ⟨init, b0, rfl, hi0⟩
  generalize init ++ [(2, b0)] = es at *
  have h1 := hf []
  rw [read_file _ v minor es [] ho ht hread, hk, List.filter_eq_self.2 (by simp)] at h1
  injection h1 with _ h1
  have hent : v1.entries = loaded (vfbCodec ops asm) v.force_unicode_strings v.ctx es := by rw [← h1]
  have hctx : v1.ctx = ctxAll (vfbCodec ops asm) v.force_unicode_strings v.ctx es := by rw [← h1]
  have hsrc := loaded_source _ hs _ v1.ctx es v.ctx hread
  obtain ⟨w1, v2, out, v3, v4, v5, a1, a2, a3, a4, a5, a6, a7, a8, a9, a10⟩ :=
    C16_vfb_file ops asm hr v minor es ho hk ht hread (by
      intro p hp
      refine ⟨by have := mem_length_le hp; omega, ?_⟩
      obtain ⟨e, he, hid, _, hcase⟩ := forall₂_left hsrc p hp
      rw [← hent] at he
      obtain ⟨k, d, b1, b2, b3, b4⟩ := hes e he
      rw [← hctx, ← hid]
      refine ⟨k, d, b1, ?_, b3, b4⟩
      rcases hcase with ⟨_, d0, e1, e2⟩ | ⟨_, e1⟩
      · rcases b2 with b2 | ⟨b, b2, _⟩
        · rw [e1] at b2
          injection b2 with b2
          rw [← b2]
          exact e2
        · rw [e1] at b2; cases b2
      · rcases b2 with b2 | ⟨b, b2, b5⟩
        · rw [e1] at b2; cases b2
        · rw [e1] at b2
          injection b2 with b2
          rw [b2]
          exact b5)
  have h2 := hf []
  rw [List.append_nil, a1] at h2
  injection h2 with _ h2
  subst h2
  refine ⟨v2, out, v3, v4, v5, a2, a3, a4, a5, a6, a7, ?_, a9, a10⟩
  rw [a8, hent]
  exact hsrc.length_eq
end

/-! ### a file that meets the hypotheses -/

/-- a file that this library would not write: 6 more bytes before the entries, the header of the master count entry in the long form,
three bytes after the end entry; master count, unicodes, end -/
def foreignFile : Bytes :=
  [0x1A, 0x57, 0x4C, 0x46, 0x31, 0x30, 3, 5, 50, 0, 0, 0] ++ List.replicate 38 7 ++
  [0xDF, 0x85, 2, 0, 0, 0, 1, 0] ++ [0xE2, 4, 4, 0, 65, 0, 97, 0] ++ [2, 0, 0, 0] ++ [9, 9, 9]

/-- the font that is read from it -/
def foreignFont : Vfb (Decompiled exampleAngles.Angle exampleAsm.Asm) (List MasterData) :=
  { header := .dec (headerDict 5), ctx := { num_masters := 1 },
    entries := [{ id := 1503, data := .dec (.int 1) }, { id := 1250, data := .bytes [65, 0, 97, 0] }, { id := 2, data := .bytes [] }] }

theorem foreignFile_read : Vfb.readBytes (vfbCodec exampleAngles exampleAsm) {} foreignFile = (.ok (), foreignFont) := rfl

/-- C10: it is read, and what is written is not the same file, but is read with the same result -/
example : ∃ out v'', foreignFont.writeBytes (vfbCodec exampleAngles exampleAsm) = (.ok (), out, v'') ∧
    Vfb.readBytes (vfbCodec exampleAngles exampleAsm) {} out = (.ok (), foreignFont) := by
  exact C10_vfb_second_read exampleAngles exampleAsm (fun v h => h) {} foreignFont foreignFile rfl rfl (by decide) foreignFile_read

example : ∃ out v'', foreignFont.writeBytes (vfbCodec exampleAngles exampleAsm) = (.ok (), out, v'') ∧ out ≠ foreignFile ∧
    out = fileOf 5 [(1503, [1, 0]), (1250, [65, 0, 97, 0]), (2, [])] := ⟨_, _, rfl, by decide +kernel, by decide +kernel⟩

example : ∃ out v'', foreignFont.writeBytes (vfbCodec exampleAngles exampleAsm) = (.ok (), out, v'') ∧
    Vfb.readBytes (vfbCodec exampleAngles exampleAsm) {} out = (.ok (), foreignFont) := by
  refine C10_any_size exampleAngles exampleAsm {} foreignFont foreignFile rfl rfl (by decide) foreignFile_read fun e he hi => ?_
  have : ∀ e ∈ foreignFont.entries, e.id ≠ 1269 := by decide +kernel
  exact absurd hi (this e he)

/-- C16: it goes through the cycle -/
example : ∃ v2 out v3 v4 v5, foreignFont.decompile (vfbCodec exampleAngles exampleAsm) = (.ok (), v2) ∧
      v2.writeBytes (vfbCodec exampleAngles exampleAsm) = (.ok (), out, v3) ∧
      Vfb.readBytes (vfbCodec exampleAngles exampleAsm) {} out = (.ok (), v4) ∧
      v4.decompile (vfbCodec exampleAngles exampleAsm) = (.ok (), v5) ∧
      v5.header = v2.header ∧ v5.ctx = v2.ctx ∧ v2.entries.length = 3 ∧
      List.Forall₂ (fun x y => x.1 = y.1 ∧ ∃ d d', x.2 = .dec d ∧ y.2 = .dec d' ∧ SameData d d') (contents v2) (contents v5) ∧
    ∃ v6, v5.writeBytes (vfbCodec exampleAngles exampleAsm) = (.ok (), out, v6) := by
  refine C16_every_file exampleAngles exampleAsm (fun v h => h) {} foreignFont foreignFile rfl rfl (by decide) foreignFile_read ?_
  intro e he
  simp only [foreignFont, List.mem_cons, List.not_mem_nil, or_false] at he
  rcases he with rfl | rfl | rfl
  · exact ⟨.int16, .int 1, by decide +kernel, .inl rfl, trivial, fun b h => by cases h; decide⟩
  · exact ⟨.unicodes, .ints [65, 97], by decide +kernel, .inr ⟨_, rfl, rfl⟩, trivial, fun b h => by cases h; decide⟩
  · exact ⟨.hex, .str [], by decide +kernel, .inr ⟨_, rfl, rfl⟩, trivial, fun b h => by cases h; decide⟩

/-- C53: read into a font that has been used for something else -/
example (u : Vfb (Decompiled exampleAngles.Angle exampleAsm.Asm) (List MasterData)) (ho : u.only_header = false) (hk : u.drop_keys = [])
    (hf : u.force_unicode_strings = false) (hn : u.ctx.num_masters = ({} : Ctx).num_masters) :
    ∃ w1, u.readBytes (vfbCodec exampleAngles exampleAsm) foreignFile = (.ok (), w1) ∧ w1.entries = foreignFont.entries := by
  obtain ⟨w1, h1, _, h2, _⟩ := C53_every_file (vfbCodec exampleAngles exampleAsm) (vfb_special_fixed _ _) {} foreignFont u foreignFile
    rfl ho hk.symm hf.symm hn foreignFile_read
  exact ⟨w1, h1, h2.symm⟩

end Verif.Props
