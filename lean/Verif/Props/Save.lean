import Verif.Model.Save
import Verif.Spec.Save
import Verif.Props.Container
import Verif.Model.Table
import Mathlib.Tactic.IntervalCases
/-! C86: interrupted and failed saves. -/
set_option autoImplicit false
namespace Verif.Props
open Verif Verif.Spec
variable {D T : Type}

/-! ## the file operations -/

theorem emitCalls_spec (es : List (Entry D T)) :
    (emitCalls es).1 = (emitEntries es).1 ∧ (emitCalls es).2.flatten = (emitEntries es).2.1 := by
  induction es with
  | nil => exact ⟨rfl, rfl⟩
  | cons e es ih =>
    obtain ⟨h1, h2⟩ := ih
    unfold emitCalls emitEntries
    rcases he : e.header with ⟨r, e'⟩
    cases r with
    | error x => exact ⟨rfl, rfl⟩
    | ok h =>
      dsimp only
      cases hd : e'.data with
      | dec d => exact ⟨rfl, by simp⟩
      | none =>
        dsimp only
        exact ⟨h1, by simp [h2]⟩
      | bytes b =>
        dsimp only
        exact ⟨h1, by simp [h2]⟩

theorem writeCalls_spec (C : Codec D T) (v : Vfb D T) :
    (v.writeCalls C).1 = (v.writeBytes C).1 ∧ (v.writeCalls C).2.flatten = (v.writeBytes C).2.1 := by
  unfold Vfb.writeCalls Vfb.writeBytes
  rcases hc : v.compile C with ⟨r, v'⟩
  cases r with
  | error x => exact ⟨rfl, rfl⟩
  | ok u =>
    dsimp only
    cases hh : v'.header with
    | none => exact ⟨rfl, rfl⟩
    | dec d => exact ⟨rfl, rfl⟩
    | bytes hb =>
      obtain ⟨h1, h2⟩ := emitCalls_spec v'.entries
      exact ⟨h1, by simp [h2]⟩

theorem apply_appends (l : List Bytes) (b : Bytes) : (l.map FileOp.append).foldl FileOp.apply b = b ++ l.flatten := by
  induction l generalizing b with
  | nil => simp
  | cons x l ih =>
    show (l.map FileOp.append).foldl FileOp.apply (b ++ x) = _
    rw [ih]
    simp

theorem flatten_take_prefix (l : List Bytes) (k : Nat) : (l.take k).flatten <+: l.flatten := by
  conv_rhs => rw [← List.take_append_drop k l]
  rw [List.flatten_append]
  exact List.prefix_append _ _

/-- **C86** Saving empties the file before it writes, and then only appends.  So at every moment of a save — completed, failed
or interrupted — the file holds either its old contents, untouched, or an initial part of what the save writes in total. -/
theorem C86_on_disk (C : Codec D T) (v : Vfb D T) (old b : Bytes) :
    OnDisk C v old b ↔ b = old ∨ b <+: (v.write C old).2.1 := by
  unfold Vfb.write
  rw [← (writeCalls_spec C v).2]
  constructor
  · rintro ⟨k, hk, ⟨rfl, _⟩ | ⟨h0, hp⟩⟩
    · exact .inl rfl
    · right
      obtain ⟨k, rfl⟩ : ∃ j, k = j + 1 := ⟨k - 1, by omega⟩
      unfold Vfb.writeOps at hp
      rw [List.take_succ_cons, ← List.map_take] at hp
      replace hp : b <+: (((v.writeCalls C).2.take k).map FileOp.append).foldl FileOp.apply [] := hp
      rw [apply_appends, List.nil_append] at hp
      exact hp.trans (flatten_take_prefix _ _)
  · rintro (rfl | hp)
    · exact ⟨0, Nat.zero_le _, .inl ⟨rfl, rfl⟩⟩
    · refine ⟨(v.writeOps C).length, le_refl _, .inr ⟨by unfold Vfb.writeOps; simp, ?_⟩⟩
      rw [List.take_length]
      unfold Vfb.writeOps
      show b <+: ((v.writeCalls C).2.map FileOp.append).foldl FileOp.apply []
      rw [apply_appends, List.nil_append]
      exact hp

/-- **C86** (Known defect) A save that fails — for example because an entry cannot be compiled — has already destroyed the old
contents of the file: what is left depends on the font only, and if the failure happens while compiling, nothing is left. -/
theorem C86_old_lost (C : Codec D T) (v : Vfb D T) (old old' : Bytes) :
    (v.write C old).2.1 = (v.write C old').2.1 ∧ (∀ x v', v.compile C = (.error x, v') → (v.write C old).2.1 = []) := by
  refine ⟨rfl, ?_⟩
  intro x v' h
  unfold Vfb.write Vfb.writeBytes
  rw [h]

/-! ## reading what is on disk -/

theorem readInt_eq (k : Nat) (s : Bytes) : readInt k false s = .ok (fromLE false (s.take k)) (s.drop k) := by
  unfold readInt
  simp only [R.bind_run, R.readN]
  rw [if_neg (by omega)]
  rfl

theorem readN_short {n : Int} {s : Bytes} (h : (s.length : Int) ≤ n) : R.readN n s = .ok s [] := by
  unfold R.readN
  rw [if_neg (by omega)]
  rw [List.take_of_length_le (by omega), List.drop_eq_nil_of_le (by omega)]

theorem readN_nil (n : Int) : R.readN n [] = .ok [] [] := by
  unfold R.readN
  split <;> simp

theorem prefix_split {a b p : Bytes} (h : p <+: a ++ b) : (p.length < a.length ∧ p <+: a) ∨ ∃ q, p = a ++ q ∧ q <+: b := by
  rcases Nat.lt_or_ge p.length a.length with hl | hl
  · exact .inl ⟨hl, List.prefix_of_prefix_length_le h (List.prefix_append a b) (by omega)⟩
  · have : a <+: p := List.prefix_of_prefix_length_le (List.prefix_append a b) h hl
    obtain ⟨q, rfl⟩ := this
    exact .inr ⟨q, rfl, (List.prefix_append_right_inj a).1 h⟩

/-- reading an entry that is cut off -/
theorem readEntry_cut (nm : Int) (e : Nat × Bytes) (part : Bytes) (hid : e.1 < 32768) (hlen : e.2.length < 4294967296)
    (hmm : e.1 = 1410 → (e.2.length : Int) = 8 + 2 * nm) (hp : part <+: frame e) :
    ∃ (id : Nat) (data : Bytes), readEntry nm part = .ok ((id : Int), data) [] ∧ data <+: e.2 ∧
      (part.length = 0 ∧ id = 0 ∧ data = [] ∨ part.length = 1 ∧ id = e.1 % 256 ∧ data = [] ∨ 2 ≤ part.length ∧ id = e.1 ∧
        (part = frame e → data = e.2)) := by
  obtain ⟨id, b⟩ := e
  simp only at *
  obtain ⟨raw, k, hraw, hk, hkl, hf⟩ : ∃ raw k : Nat, (raw = id ∧ k = 2 ∨ raw = id + 32768 ∧ k = 4) ∧ (k = 2 ↔ raw < 32768) ∧ b.length < 256 ^ k ∧
      frame (id, b) = leDigits 2 raw ++ (leDigits k b.length ++ b) := by
    unfold frame
    by_cases hl : b.length ≤ 65535
    · exact ⟨id, 2, .inl ⟨rfl, rfl⟩, by omega, by norm_num; omega, by rw [if_pos hl]; simp⟩
    · exact ⟨id + 32768, 4, .inr ⟨rfl, rfl⟩, by omega, by norm_num; omega, by rw [if_neg hl]; simp⟩
  have hre : (raw : Int) % 0x8000 = id := by omega
  rw [hf] at hp ⊢
  rcases prefix_split hp with ⟨hl, hp2⟩ | ⟨q, rfl, hq⟩
  · rw [leDigits_length] at hl
    match part, hl, hp2 with
    | [], _, _ => exact ⟨0, [], rfl, List.nil_prefix, .inl ⟨rfl, rfl, rfl⟩⟩
    | [x], _, hp2 =>
      have hx : x = UInt8.ofNat (raw % 256) := by
        simp only [leDigits, List.cons_prefix_cons] at hp2
        exact hp2.1
      refine ⟨id % 256, [], ?_, List.nil_prefix, .inr (.inl ⟨rfl, rfl, rfl⟩)⟩
      have h1 : readU16 [x] = .ok ((id % 256 : Nat) : Int) [] := by
        unfold readU16
        rw [readInt_eq]
        have : leNat [x] = id % 256 := by
          simp [leNat, hx, UInt8.toNat_ofNat]
          omega
        simp [fromLE, this]
      unfold readEntry
      rw [R.bind_of_ok h1, if_neg (by omega), R.bind_of_ok (show readU16 [] = .ok 0 [] from rfl)]
      show (R.readN _ >>= _) [] = _
      rw [R.bind_of_ok (readN_nil _)]
      have : ((id % 256 : Nat) : Int) % 0x8000 = ((id % 256 : Nat) : Int) := by omega
      rw [this]
      rfl
    | _ :: _ :: _, hl, _ => simp at hl; omega
  · have hlen2 : 2 ≤ (leDigits 2 raw ++ q).length := by simp [leDigits_length]
    have h0 : readEntry nm (leDigits 2 raw ++ q) = (readInt k false >>= fun num_bytes =>
        R.readN (if (id : Int) = 1410 then 2 * 4 + nm * 2 else num_bytes) >>= fun data => pure ((id : Int), data)) q := by
      unfold readEntry
      rw [R.bind_of_ok (show readU16 (leDigits 2 raw ++ q) = .ok (raw : Int) q from readInt_leDigits (by omega) q)]
      rcases hraw with ⟨_, rfl⟩ | ⟨_, rfl⟩
      · rw [if_neg (by omega), hre]
        rfl
      · rw [if_pos (by omega), hre]
        rfl
    rw [h0]
    rcases prefix_split hq with ⟨hl, _⟩ | ⟨r, rfl, hr⟩
    · rw [leDigits_length] at hl
      refine ⟨id, [], ?_, List.nil_prefix, .inr (.inr ⟨hlen2, rfl, ?_⟩)⟩
      · rw [R.bind_of_ok (readInt_eq k q), List.drop_eq_nil_of_le (by omega), R.bind_of_ok (readN_nil _)]
        rfl
      · intro h
        have := congrArg List.length (List.append_cancel_left h)
        simp [leDigits_length] at this
        omega
    · refine ⟨id, r, ?_, hr, .inr (.inr ⟨hlen2, rfl, ?_⟩)⟩
      · rw [R.bind_of_ok (readInt_leDigits hkl r)]
        have hs : (if (id : Int) = 1410 then 2 * 4 + nm * 2 else (b.length : Int)) = b.length := by
          split
          · have := hmm (by omega); omega
          · rfl
        rw [hs, R.bind_of_ok (readN_short (by have := hr.length_le; omega))]
        rfl
      · intro h
        exact List.append_cancel_left (List.append_cancel_left h)

/-- the two ways in which bytes can be an initial part of a sequence of entries -/
theorem cut_frames (es : List (Nat × Bytes)) (b : Bytes) (h : b <+: (es.map frame).flatten) :
    b = (es.map frame).flatten ∨ ∃ pre e post part, es = pre ++ e :: post ∧ part <+: frame e ∧ part ≠ frame e ∧
      b = (pre.map frame).flatten ++ part := by
  induction es generalizing b with
  | nil => exact .inl (List.prefix_nil.1 h)
  | cons e es ih =>
    rw [List.map_cons, List.flatten_cons] at h ⊢
    rcases prefix_split h with ⟨hl, hp⟩ | ⟨q, rfl, hq⟩
    · refine .inr ⟨[], e, es, b, rfl, hp, ?_, rfl⟩
      rintro rfl
      omega
    · rcases ih q hq with rfl | ⟨pre, e', post, part, rfl, h1, h2, rfl⟩
      · exact .inl rfl
      · exact .inr ⟨e :: pre, e', post, part, rfl, h1, h2, by simp⟩

/-- reading entries that are complete, followed by one that is cut off -/
theorem readLoop_cut (C : Codec D T) (pre : List (Nat × Bytes)) (e : Nat × Bytes) (part : Bytes) (v : Vfb D T) (fuel : Nat)
    (hr : Readable C v.force_unicode_strings v.ctx (pre ++ [e])) (hi : ∀ p ∈ pre, p.1 ≠ 2) (hp : part <+: frame e)
    (hf : pre.length < fuel) :
    ∃ (id : Nat) (data : Bytes), data <+: e.2 ∧
      (part.length = 0 ∧ id = 0 ∧ data = [] ∨ part.length = 1 ∧ id = e.1 % 256 ∧ data = [] ∨ 2 ≤ part.length ∧ id = e.1 ∧ (part = frame e → data = e.2)) ∧
      (id = 2 → readLoop C fuel v ((pre.map frame).flatten ++ part) = (.ok (), { v with
          ctx := ctxAll C v.force_unicode_strings v.ctx pre
          entries := v.entries ++
            ((loaded C v.force_unicode_strings v.ctx pre) ++ [({ id := 2, data := .bytes data } : Entry D T)]).filter fun e => e.id ∉ v.drop_keys })) ∧
      (id ≠ 2 → ∀ v', readLoop C fuel v ((pre.map frame).flatten ++ part) ≠ (.ok (), v')) := by
  induction pre generalizing v fuel with
  | nil =>
    obtain ⟨h1, h2, h3, h4, h5⟩ := hr
    obtain ⟨id, data, hre, hd, hc⟩ := readEntry_cut v.ctx.num_masters e part h1 h2 h3 hp
    refine ⟨id, data, hd, hc, ?_, ?_⟩
    · rintro rfl
      cases fuel with
      | zero => simp at hf
      | succ fuel =>
        simp only [List.map_nil, List.flatten_nil, List.nil_append]
        rw [readLoop, hre]
        dsimp only
        have ha := addRead_ok C v (2, data) (by intro h; simp [isSpecial] at h)
        dsimp only at ha
        rw [ha]
        dsimp only
        rw [if_pos (by rfl)]
        simp only [ctxAll, loaded, List.foldl_nil, List.nil_append, Prod.mk.injEq, true_and]
        have hl : loadedEntry C v.ctx (2, data) = ({ id := 2, data := .bytes data } : Entry D T) := by
          unfold loadedEntry
          rw [if_neg (by simp [isSpecial])]
          rfl
        have hx : ctxAfter C v.force_unicode_strings v.ctx (2, data) = v.ctx := by
          unfold ctxAfter
          rw [if_neg (by simp [isSpecial])]
        rw [hl, hx]
        congr 1
        by_cases hk : (2 : Int) ∈ v.drop_keys
        · rw [if_pos (by simpa using hk), List.filter_cons_of_neg (by simpa using hk)]
          simp
        · rw [if_neg (by simpa using hk), List.filter_cons_of_pos (by simpa using hk)]
          simp
    · intro hne v' h
      cases fuel with
      | zero => simp at hf
      | succ fuel =>
        simp only [List.map_nil, List.flatten_nil, List.nil_append] at h
        rw [readLoop, hre] at h
        dsimp only at h
        rcases ha : v.addRead C id data with ⟨r, v1⟩
        rw [ha] at h
        cases r with
        | error x => cases h
        | ok u =>
          dsimp only at h
          rw [if_neg (by omega)] at h
          have := readLoop_nil C fuel v1
          rw [h] at this
          cases this
  | cons p pre ih =>
    obtain ⟨h1, h2, h3, h4, h5⟩ := hr
    cases fuel with
    | zero => simp at hf
    | succ fuel =>
      have hstep : ∀ s : Bytes, readLoop C (fuel + 1) v (frame p ++ s) = readLoop C fuel { v with
          ctx := ctxAfter C v.force_unicode_strings v.ctx p
          entries := if (p.1 : Int) ∈ v.drop_keys then v.entries else v.entries ++ [loadedEntry C v.ctx p] } s := by
        intro s
        rw [readLoop, readEntry_frame h1 h2 h3]
        dsimp only
        rw [addRead_ok C v p h4]
        dsimp only
        rw [if_neg (by have := hi p (by simp); omega)]
      obtain ⟨id, data, hd, hc, hok, hno⟩ := ih { v with
          ctx := ctxAfter C v.force_unicode_strings v.ctx p
          entries := if (p.1 : Int) ∈ v.drop_keys then v.entries else v.entries ++ [loadedEntry C v.ctx p] } fuel h5
          (fun q hq => hi q (by simp [hq])) (by simpa using hf)
      refine ⟨id, data, hd, hc, ?_, ?_⟩
      · intro h2
        rw [List.map_cons, List.flatten_cons, List.append_assoc, hstep, hok h2]
        simp only [ctxAll, List.foldl_cons, loaded, List.cons_append, Prod.mk.injEq, true_and]
        congr 1
        have hid : (loadedEntry C v.ctx p : Entry D T).id = p.1 := by
          unfold loadedEntry
          split
          · split <;> rfl
          · rfl
        by_cases hk : (p.1 : Int) ∈ v.drop_keys
        · rw [if_pos hk, List.filter_cons_of_neg (by simpa [hid] using hk)]
        · rw [if_neg hk, List.filter_cons_of_pos (by simpa [hid] using hk)]
          simp
      · intro h2 v'
        rw [List.map_cons, List.flatten_cons, List.append_assoc, hstep]
        exact hno h2 v'

theorem parseHeader_start (minor : UInt8) (t : Bytes) :
    parseHeader ([0x1A, 0x57, 0x4C, 0x46, 0x31, 0x30, 3, minor] ++ t) =
      .ok (headerDict minor) (([0x1A, 0x57, 0x4C, 0x46, 0x31, 0x30, 3, minor] ++ t).drop (fromLE false (t.take 4)).toNat) := by
  have h0 : [0x1A, 0x57, 0x4C, 0x46, 0x31, 0x30, 3, minor] ++ t = leDigits 4 0x464C571A ++ (0x31 :: 0x30 :: 3 :: minor :: t) := by
    rw [show leDigits 4 0x464C571A = [0x1A, 0x57, 0x4C, 0x46] by decide]
    simp only [List.cons_append, List.nil_append]
  have h2 : parseHeaderFields ([0x1A, 0x57, 0x4C, 0x46, 0x31, 0x30, 3, minor] ++ t) =
      .ok (headerDict minor, fromLE false (t.take 4)) (t.drop 4) := by
    rw [h0]
    have r32 : ∀ (n : Nat) (rest : Bytes), n < 4294967296 → readU32 (leDigits 4 n ++ rest) = .ok (n : Int) rest :=
      fun n rest h => readInt_leDigits (by omega) rest
    unfold parseHeaderFields
    rw [R.bind_of_ok (r32 _ _ (by omega)), if_pos (by omega)]
    rw [R.bind_of_ok (readU8_cons _ _), if_pos (by decide)]
    rw [R.bind_of_ok (readU8_cons _ _), if_pos (by decide)]
    rw [R.bind_of_ok (readU8_cons _ _), if_pos (by decide)]
    rw [R.bind_of_ok (readU8_cons _ _)]
    rw [R.bind_of_ok (show readU32 t = _ from readInt_eq 4 t)]
    rfl
  unfold parseHeader
  rw [h2]

/-- the data offset, cut off or not -/
theorem offset_cut (k : Nat) (hk : 0 < k) :
    (fromLE false ((([44, 0, 0, 0] ++ List.replicate 32 0 : Bytes).take k).take 4)).toNat = 44 := by
  rw [List.take_take]
  obtain h | h | h | h : min 4 k = 1 ∨ min 4 k = 2 ∨ min 4 k = 3 ∨ min 4 k = 4 := by omega
  all_goals
    rw [h]
    rfl

/-- nothing is read from a file that is cut off within its header -/
theorem read_cut_header (C : Codec D T) (v : Vfb D T) (minor : UInt8) (n : Nat) (hn : n < 44) (ho : v.only_header = false)
    (v' : Vfb D T) : v.readBytes C ((fileHeader minor).take n) ≠ (.ok (), v') := by
  intro h
  have key : (∃ x r, parseHeader ((fileHeader minor).take n) = .err x r) ∨
      (∃ h r, parseHeader ((fileHeader minor).take n) = .ok h r ∧
        (r = [] ∨ ∃ (id : Nat) (d : Bytes), id ≠ 2 ∧ ∀ nm, readEntry nm r = .ok ((id : Int), d) [])) := by
    rcases Nat.lt_or_ge n 8 with h8 | h8
    · interval_cases n
      case «7» => exact .inr ⟨_, _, rfl, .inr ⟨0x571A, _, by decide, fun nm => rfl⟩⟩
      all_goals exact .inl ⟨_, _, rfl⟩
    · have hs : (fileHeader minor).take n = [0x1A, 0x57, 0x4C, 0x46, 0x31, 0x30, 3, minor] ++
          ([44, 0, 0, 0] ++ List.replicate 32 0 : Bytes).take (n - 8) := by
        obtain ⟨m, rfl⟩ : ∃ m, n = 8 + m := ⟨n - 8, by omega⟩
        have : fileHeader minor = [0x1A, 0x57, 0x4C, 0x46, 0x31, 0x30, 3, minor] ++ ([44, 0, 0, 0] ++ List.replicate 32 0) := rfl
        rw [this, Nat.add_sub_cancel_left]
        exact List.take_length_add_append (l₁ := [0x1A, 0x57, 0x4C, 0x46, 0x31, 0x30, 3, minor]) m
      rw [hs, parseHeader_start]
      right
      rcases Nat.eq_or_lt_of_le h8 with rfl | h9
      · exact ⟨_, _, rfl, .inr ⟨0x571A, _, by decide, fun nm => rfl⟩⟩
      · rw [offset_cut (n - 8) (by omega)]
        refine ⟨_, _, rfl, .inl (List.drop_eq_nil_of_le ?_)⟩
        simp only [List.length_append, List.length_take, List.length_cons, List.length_nil, List.length_replicate]
        omega
  unfold Vfb.readBytes Vfb.readFuel at h
  rcases key with ⟨x, r, hx⟩ | ⟨hd, r, hx, hr⟩
  · rw [hx] at h
    cases h
  · rw [hx] at h
    dsimp only at h
    rw [if_neg (by simp [Vfb.clear, ho])] at h
    rcases hr with rfl | ⟨id, d, hid, hre⟩
    · have := readLoop_nil C (((fileHeader minor).take n).length + 1) { v.clear with header := .dec hd }
      rw [h] at this
      cases this
    · rw [readLoop, hre] at h
      dsimp only at h
      generalize ha : Vfb.addRead C _ _ d = a at h
      obtain ⟨ra, v1⟩ := a
      cases ra with
      | error x => cases h
      | ok u =>
        dsimp only at h
        rw [if_neg (by omega)] at h
        have := readLoop_nil C (((fileHeader minor).take n).length) v1
        rw [h] at this
        cases this

theorem readable_start (C : Codec D T) (force : Bool) (ctx : Ctx) (l l' : List (Nat × Bytes))
    (h : Readable C force ctx (l ++ l')) : Readable C force ctx l := by
  induction l generalizing ctx with
  | nil => trivial
  | cons p l ih =>
    obtain ⟨h1, h2, h3, h4, h5⟩ := h
    exact ⟨h1, h2, h3, h4, ih _ h5⟩

theorem terminated_split (es pre post : List (Nat × Bytes)) (e : Nat × Bytes) (ht : Terminated es) (h : es = pre ++ e :: post) :
    (∀ p ∈ pre, p.1 ≠ 2) ∧ (e.1 = 2 ↔ post = []) := by
  obtain ⟨init, b, rfl, hi⟩ := ht
  rcases List.eq_nil_or_concat post with rfl | ⟨post', x, rfl⟩
  · have := List.append_inj' h rfl
    obtain ⟨rfl, h2⟩ := this
    cases h2
    exact ⟨hi, by simp⟩
  · have h' : init ++ [(2, b)] = (pre ++ e :: post') ++ [x] := by rw [h]; simp
    obtain ⟨rfl, h2⟩ := List.append_inj' h' rfl
    refine ⟨fun p hp => hi p (by simp [hp]), ?_⟩
    constructor
    · intro h2
      exact absurd h2 (hi e (by simp))
    · intro h2
      simp at h2

/-- reading a file that is cut off within an entry -/
theorem read_cut (C : Codec D T) (v : Vfb D T) (minor : UInt8) (es pre post : List (Nat × Bytes)) (e : Nat × Bytes) (part b : Bytes)
    (ho : v.only_header = false) (ht : Terminated es) (hr : Readable C v.force_unicode_strings v.ctx es)
    (hc : CutIn minor es pre e post part b) :
    (LooksComplete post e part → ∃ data, data <+: e.2 ∧ (part.length = 1 → data = []) ∧
      v.readBytes C b = (.ok (), { v with
        header := .dec (headerDict minor)
        ctx := ctxAll C v.force_unicode_strings v.ctx pre
        entries := ((loaded C v.force_unicode_strings v.ctx pre) ++ [({ id := 2, data := .bytes data } : Entry D T)]).filter
          fun e => e.id ∉ v.drop_keys })) ∧
    (¬ LooksComplete post e part → ∀ v', v.readBytes C b ≠ (.ok (), v')) := by
  obtain ⟨hes, hp, hne, rfl⟩ := hc
  obtain ⟨hi, he2⟩ := terminated_split es pre post e ht hes
  have hr' : Readable C v.force_unicode_strings v.ctx (pre ++ [e]) := by
    apply readable_start C _ _ _ post
    rw [List.append_assoc]
    rw [hes] at hr
    exact hr
  have hread : v.readBytes C (fileOf minor pre ++ part) =
      readLoop C ((fileOf minor pre ++ part).length + 1) { v.clear with header := .dec (headerDict minor) } ((pre.map frame).flatten ++ part) := by
    unfold Vfb.readBytes Vfb.readFuel
    have : fileOf minor pre ++ part = fileHeader minor ++ ((pre.map frame).flatten ++ part) := by
      unfold fileOf
      rw [List.append_assoc]
    rw [this, parseHeader_file]
    dsimp only
    rw [if_neg (by simp [Vfb.clear, ho])]
  rw [hread]
  obtain ⟨id, data, hd, hcase, hok, hno⟩ := readLoop_cut C pre e part { v.clear with header := .dec (headerDict minor) }
    ((fileOf minor pre ++ part).length + 1) hr' hi hp (by
      have := frames_length pre
      unfold fileOf
      simp only [List.length_append]
      omega)
  constructor
  · intro hl
    have h2 : id = 2 ∧ (part.length = 1 → data = []) := by
      rcases hl with ⟨h1, h2⟩ | ⟨h1, h2⟩
      · rcases hcase with ⟨h, _⟩ | ⟨_, h, h'⟩ | ⟨h, _⟩
        · omega
        · exact ⟨by omega, fun _ => h'⟩
        · omega
      · rcases hcase with ⟨h, _⟩ | ⟨h, _⟩ | ⟨_, h, _⟩
        · omega
        · omega
        · exact ⟨h.trans (he2.2 h2), fun h => by omega⟩
    refine ⟨data, hd, h2.2, ?_⟩
    rw [hok h2.1]
    rfl
  · intro hl
    apply hno
    rintro rfl
    apply hl
    rcases hcase with ⟨_, h, _⟩ | ⟨h1, h, _⟩ | ⟨h1, h, _⟩
    · cases h
    · exact .inl ⟨h1, h.symm⟩
    · exact .inr ⟨h1, he2.1 h.symm⟩

/-- every proper initial part of a file ends within the header or within an entry -/
theorem cut_file (minor : UInt8) (es : List (Nat × Bytes)) (b : Bytes) (hb : b <+: fileOf minor es) (hne : b ≠ fileOf minor es) :
    (∃ n < 44, b = (fileHeader minor).take n) ∨ ∃ pre e post part, CutIn minor es pre e post part b := by
  unfold fileOf at hb hne
  rcases prefix_split hb with ⟨hl, hp⟩ | ⟨q, rfl, hq⟩
  · left
    exact ⟨b.length, by simpa [fileHeader] using hl, List.prefix_iff_eq_take.1 hp⟩
  · right
    rcases cut_frames es q hq with rfl | ⟨pre, e, post, part, h1, h2, h3, rfl⟩
    · exact absurd rfl hne
    · exact ⟨pre, e, post, part, h1, h2, h3, by unfold fileOf; simp⟩

/-- **C86** A file that is cut off anywhere — its header and entries are an initial part of those of a complete font — cannot be
mistaken for a font: reading it does not succeed, with two exceptions (`LooksComplete`): the cut is one byte into an entry whose
id ends in the byte 02, or within the end entry itself. -/
theorem C86_cut_file (C : Codec D T) (v : Vfb D T) (minor : UInt8) (es : List (Nat × Bytes)) (b : Bytes) (ho : v.only_header = false)
    (ht : Terminated es) (hr : Readable C v.force_unicode_strings v.ctx es) (hb : b <+: fileOf minor es) (hne : b ≠ fileOf minor es) :
    (∃ v', v.readBytes C b = (.ok (), v')) ↔ ∃ pre e post part, CutIn minor es pre e post part b ∧ LooksComplete post e part := by
  constructor
  · rintro ⟨v', hv⟩
    rcases cut_file minor es b hb hne with ⟨n, hn, rfl⟩ | ⟨pre, e, post, part, hc⟩
    · exact absurd hv (read_cut_header C v minor n hn ho v')
    · refine ⟨pre, e, post, part, hc, ?_⟩
      by_contra hl
      exact (read_cut C v minor es pre post e part b ho ht hr hc).2 hl v' hv
  · rintro ⟨pre, e, post, part, hc, hl⟩
    obtain ⟨data, _, _, h⟩ := (read_cut C v minor es pre post e part b ho ht hr hc).1 hl
    exact ⟨_, h⟩

/-- **C86** (Known defect) What is read in the exceptional cases: the entries before the cut, followed by an end entry.  If the
cut was one byte into another entry, all entries from there on are missing, without any error. -/
theorem C86_cut_read (C : Codec D T) (v : Vfb D T) (minor : UInt8) (es pre post : List (Nat × Bytes)) (e : Nat × Bytes) (part b : Bytes)
    (ho : v.only_header = false) (ht : Terminated es) (hr : Readable C v.force_unicode_strings v.ctx es)
    (hc : CutIn minor es pre e post part b) (hl : LooksComplete post e part) :
    ∃ data v', data <+: e.2 ∧ (part.length = 1 → data = []) ∧ v.readBytes C b = (.ok (), v') ∧
      v'.header = .dec (headerDict minor) ∧
      v'.entries = ((loaded C v.force_unicode_strings v.ctx pre) ++ [({ id := 2, data := .bytes data } : Entry D T)]).filter
          fun e => e.id ∉ v.drop_keys := by
  obtain ⟨data, h1, h2, h3⟩ := (read_cut C v minor es pre post e part b ho ht hr hc).1 hl
  exact ⟨data, _, h1, h2, h3, rfl, rfl⟩

/-- **C86** Only the end entry and one other known entry, font_name (1026), have such an id. -/
theorem C86_ids (id : Int) (k : Kind) (h : kindOf id = some k) (h2 : id % 256 = 2) : id = 2 ∨ id = 1026 := by
  unfold kindOf at h
  cases hf : parserClasses.find? (fun r => r.1 == id) with
  | none => rw [hf] at h; cases h
  | some r =>
    have hid : (r.1 == id) = true := List.find?_some (p := fun r : Int × String × Kind => r.1 == id) hf
    have hall : ∀ r ∈ parserClasses, r.1 % 256 = 2 → r.1 = 2 ∨ r.1 = 1026 := by decide +kernel
    have := hall r (List.mem_of_find?_eq_some hf)
    rw [eq_of_beq hid] at this
    exact this h2

/-- **C86** An interrupted save.  Let `v` be a font whose complete save would give the file of the entries `es`.  Whatever is on
disk at any moment of the save: a font that can be read from it comes from the old file, untouched, or from the complete new file,
or from one of the two exceptional cuts. -/
theorem C86_interrupted (C : Codec D T) (v w v' w' : Vfb D T) (minor : UInt8) (es : List (Nat × Bytes)) (old b : Bytes)
    (hw : v.writeBytes C = (.ok (), fileOf minor es, v')) (ht : Terminated es) (ho : w.only_header = false)
    (hr : Readable C w.force_unicode_strings w.ctx es) (hd : OnDisk C v old b) (hread : w.readBytes C b = (.ok (), w')) :
    b = old ∨ b = fileOf minor es ∨ ∃ pre e post part, CutIn minor es pre e post part b ∧ LooksComplete post e part := by
  rcases (C86_on_disk C v old b).1 hd with h | h
  · exact .inl h
  · right
    replace h : b <+: (v.writeBytes C).2.1 := h
    rw [hw] at h
    by_cases hne : b = fileOf minor es
    · exact .inl hne
    · exact .inr ((C86_cut_file C w minor es b ho ht hr h hne).1 ⟨_, hread⟩)

/-- complete entries without an end entry are never read successfully -/
theorem readLoop_frames (C : Codec D T) (ps : List (Nat × Bytes)) (v : Vfb D T) (fuel : Nat)
    (h : ∀ p ∈ ps, p.1 < 32768 ∧ p.2.length < 4294967296 ∧ p.1 ≠ 2 ∧ p.1 ≠ 1410) (v' : Vfb D T) :
    readLoop C fuel v (ps.map frame).flatten ≠ (.ok (), v') := by
  induction ps generalizing v fuel with
  | nil =>
    intro hh
    have := readLoop_nil C fuel v
    rw [show readLoop C fuel v [] = _ from hh] at this
    cases this
  | cons p ps ih =>
    cases fuel with
    | zero => intro hh; cases hh
    | succ fuel =>
      obtain ⟨h1, h2, h3, h4⟩ := h p (by simp)
      rw [List.map_cons, List.flatten_cons, readLoop, readEntry_frame h1 h2 (fun h => absurd h h4)]
      dsimp only
      rcases ha : v.addRead C p.1 p.2 with ⟨r, v1⟩
      cases r with
      | error x => intro hh; cases hh
      | ok u =>
        dsimp only
        rw [if_neg (by omega)]
        exact ih v1 fuel (fun q hq => h q (by simp [hq]))

/-- what has been written when writing the entries fails -/
theorem emit_failed (es es' : List (Entry D T)) (out : Bytes) (x : PyErr)
    (ht : ∀ e ∈ es, e.cached = none ∧ 0 ≤ e.id ∧ e.id < 32768) (h : emitEntries es = (.error x, out, es')) :
    ∃ ps : List (Nat × Bytes), out = (ps.map frame).flatten ∧ ps.length < es.length ∧
      (∀ i (hi : i < ps.length) (hi' : i < es.length), (es[i].id = (ps[i].1 : Int))) ∧
      ∀ p ∈ ps, p.1 < 32768 ∧ p.2.length < 4294967296 := by
  induction es generalizing out es' with
  | nil => cases h
  | cons e es ih =>
    obtain ⟨hc, h0, h15⟩ := ht e (by simp)
    obtain ⟨id, hid⟩ : ∃ id : Nat, e.id = id := ⟨e.id.toNat, by omega⟩
    have hsize : ∀ {n : Nat} {hb : Bytes}, headerBytes e.id n = .ok hb → n < 4294967296 := by
      intro n hb hh
      by_contra hn
      obtain ⟨y, hy⟩ := C08_too_big e.id n (by omega)
      rw [hy] at hh
      cases hh
    have stop : out = [] → _ := fun ho => (⟨[], ho, by simp, by simp, by simp⟩ :
      ∃ ps : List (Nat × Bytes), out = (ps.map frame).flatten ∧ ps.length < (e :: es).length ∧
        (∀ i (hi : i < ps.length) (hi' : i < (e :: es).length), ((e :: es)[i].id = (ps[i].1 : Int))) ∧
        ∀ p ∈ ps, p.1 < 32768 ∧ p.2.length < 4294967296)
    have go : ∀ (b hb o : Bytes) (es1 : List (Entry D T)), headerBytes e.id b.length = .ok hb →
        emitEntries es = (.error x, o, es1) → out = hb ++ b ++ o →
        ∃ ps : List (Nat × Bytes), out = (ps.map frame).flatten ∧ ps.length < (e :: es).length ∧
          (∀ i (hi : i < ps.length) (hi' : i < (e :: es).length), ((e :: es)[i].id = (ps[i].1 : Int))) ∧
          ∀ p ∈ ps, p.1 < 32768 ∧ p.2.length < 4294967296 := by
      intro b hb o es1 hh hem ho
      obtain ⟨ps, p1, p2, p3, p4⟩ := ih es1 o (fun e he => ht e (by simp [he])) hem
      have hs := hsize hh
      obtain ⟨hb', q1, q2⟩ := header_frame (p := (id, b)) (by simp only; omega) hs
      simp only at q1
      rw [hid, q1] at hh
      cases hh
      refine ⟨(id, b) :: ps, ?_, by simpa using p2, ?_, ?_⟩
      · rw [ho, List.map_cons, List.flatten_cons, q2, p1]
      · intro i hi hi'
        cases i with
        | zero => exact hid
        | succ i => exact p3 i (by simpa using hi) (by simpa using hi')
      · intro p hp
        rcases List.mem_cons.1 hp with rfl | hp
        · exact ⟨by simp only; omega, hs⟩
        · exact p4 p hp
    unfold emitEntries Entry.header at h
    rw [hc] at h
    dsimp only at h
    unfold Entry.size at h
    cases hd : e.data with
    | dec d => rw [hd] at h; cases h; exact stop rfl
    | none =>
      rw [hd] at h
      dsimp only at h
      cases hh : headerBytes e.id 0 with
      | error y => rw [hh] at h; cases h; exact stop rfl
      | ok hb =>
        rw [hh] at h
        dsimp only at h
        rcases hem : emitEntries es with ⟨r, o, es1⟩
        rw [hem] at h
        cases h
        exact go [] hb o es1 hh hem (by simp)
    | bytes b =>
      rw [hd] at h
      dsimp only at h
      cases hh : headerBytes e.id b.length with
      | error y => rw [hh] at h; cases h; exact stop rfl
      | ok hb =>
        rw [hh] at h
        dsimp only at h
        rcases hem : emitEntries es with ⟨r, o, es1⟩
        rw [hem] at h
        cases h
        exact go b hb o es1 hh hem rfl

theorem compileEntries_frame (C : Codec D T) (ctx : Ctx) (es es' : List (Entry D T)) (r : Except PyErr Unit)
    (h : compileEntries C ctx es = (r, es')) : es'.map (·.id) = es.map (·.id) ∧ es'.map (·.cached) = es.map (·.cached) := by
  have one : ∀ e : Entry D T, (e.compile C ctx).2.id = e.id ∧ (e.compile C ctx).2.cached = e.cached := by
    intro e
    have hw : ∀ d : Option D, (e.withMerged d).id = e.id ∧ (e.withMerged d).cached = e.cached := by
      intro d; cases d <;> exact ⟨rfl, rfl⟩
    unfold Entry.compile
    split
    · exact ⟨rfl, rfl⟩
    · split
      · exact ⟨rfl, rfl⟩
      · split
        · exact hw _
        · split
          · exact hw _
          · exact ⟨rfl, rfl⟩
  induction es generalizing es' r with
  | nil => cases h; exact ⟨rfl, rfl⟩
  | cons e es ih =>
    unfold compileEntries at h
    have := one e
    rcases hc : e.compile C ctx with ⟨r1, e1⟩
    rw [hc] at h this
    cases r1 with
    | error x =>
      cases h
      dsimp only at this
      exact ⟨by simp [this.1], by simp [this.2]⟩
    | ok u =>
      dsimp only at h
      rcases hcs : compileEntries C ctx es with ⟨r2, es2⟩
      rw [hcs] at h
      cases h
      have := ih es2 _ hcs
      simp_all

/-- **C86** A failed save leaves nothing that could be mistaken for a font: if saving raises an exception — for whatever reason and
at whatever entry —, reading what has been written does not succeed.  (For fonts as they are after reading: no cached headers, the
end entry, if any, is the last one; without FontLab 3 kerning pairs.) -/
theorem C86_failed_save (C : Codec D T) (v v' w w' : Vfb D T) (minor : UInt8) (old out : Bytes) (x : PyErr)
    (hh : v.header = .dec (headerDict minor)) (hf : ∀ e ∈ v.entries, e.cached = none ∧ 0 ≤ e.id ∧ e.id < 32768 ∧ e.id ≠ 1410)
    (hend : ∀ e ∈ v.entries.dropLast, e.id ≠ 2) (ho : w.only_header = false) (hw : v.write C old = (.error x, out, v')) :
    w.readBytes C out ≠ (.ok (), w') := by
  have hempty : w.readBytes C [] ≠ (.ok (), w') := read_cut_header C w minor 0 (by omega) ho w'
  unfold Vfb.write Vfb.writeBytes Vfb.compile at hw
  rw [hh] at hw
  simp only [HData.compile, compileHeader_ok] at hw
  rcases hc : compileEntries C v.ctx v.entries with ⟨r, es⟩
  rw [hc] at hw
  cases r with
  | error y => cases hw; exact hempty
  | ok u =>
    dsimp only at hw
    rcases hem : emitEntries es with ⟨r2, o, es2⟩
    rw [hem] at hw
    cases hw
    obtain ⟨hid, hca⟩ := compileEntries_frame C v.ctx v.entries es _ hc
    have hlen : es.length = v.entries.length := by simpa using congrArg List.length hid
    have hget : ∀ i (h : i < es.length) (h' : i < v.entries.length), es[i].id = v.entries[i].id ∧ es[i].cached = v.entries[i].cached := by
      intro i h h'
      have a := congrArg (fun l => l[i]?) hid
      have b := congrArg (fun l => l[i]?) hca
      simp only [List.getElem?_map, List.getElem?_eq_getElem h, List.getElem?_eq_getElem h', Option.map_some, Option.some.injEq] at a b
      exact ⟨a, b⟩
    obtain ⟨ps, p1, p2, p3, p4⟩ := emit_failed es es2 o x (by
      intro e he
      obtain ⟨i, hi, rfl⟩ := List.getElem_of_mem he
      have := hget i hi (by omega)
      have := hf _ (List.getElem_mem (show i < v.entries.length by omega))
      simp_all) hem
    have hread : w.readBytes C (fileHeader minor ++ o) =
        readLoop C ((fileHeader minor ++ o).length + 1) { w.clear with header := .dec (headerDict minor) } o := by
      unfold Vfb.readBytes Vfb.readFuel
      rw [parseHeader_file]
      dsimp only
      rw [if_neg (by simp [Vfb.clear, ho])]
    rw [hread, p1]
    apply readLoop_frames
    intro p hp
    refine ⟨(p4 p hp).1, (p4 p hp).2, ?_⟩
    obtain ⟨i, hi, rfl⟩ := List.getElem_of_mem hp
    have hi' : i < es.length := by omega
    have e1 := p3 i hi hi'
    have e2 := hget i hi' (by omega)
    have hlast : i < v.entries.dropLast.length := by simp; omega
    have := hend _ (List.getElem_mem hlast)
    rw [List.getElem_dropLast] at this
    have h1410 := hf _ (List.getElem_mem (show i < v.entries.length by omega))
    constructor
    · intro h; apply this; rw [← e2.1, e1, h]; rfl
    · intro h; apply h1410.2.2.2; rw [← e2.1, e1, h]; rfl

/-! ## examples -/

/-- a file with a font_name entry (1026), cut off one byte into that entry, is read without error, but the glyph is lost; cut off
anywhere else before the end entry it is not read -/
def exampleSaved : List (Nat × Bytes) := [(1503, [2]), (1026, [65]), (2001, [1, 2]), (2, [])]

theorem exampleSaved_ok : Terminated exampleSaved ∧ Readable demo false {} exampleSaved :=
  ⟨⟨[(1503, [2]), (1026, [65]), (2001, [1, 2])], [], rfl, by decide⟩,
    by decide, by decide, by decide, fun _ => ⟨_, rfl⟩, by decide, by decide, by decide, fun _ => ⟨_, rfl⟩,
    by decide, by decide, by decide, fun _ => ⟨_, rfl⟩, by decide, by decide, by decide, fun _ => ⟨_, rfl⟩, trivial⟩

example : ∃ b v', b <+: fileOf 1 exampleSaved ∧ b ≠ fileOf 1 exampleSaved ∧ Vfb.readBytes demo {} b = (.ok (), v') ∧
    v'.entries.map (·.id) = [1503, 2] := by
  have hc : CutIn 1 exampleSaved [(1503, [2])] (1026, [65]) [(2001, [1, 2]), (2, [])] [2] (fileOf 1 [(1503, [2])] ++ [2]) :=
    ⟨rfl, by decide, by decide, rfl⟩
  obtain ⟨data, v', h1, h2, h3, h4, h5⟩ := C86_cut_read demo {} 1 exampleSaved _ _ _ _ _ rfl exampleSaved_ok.1 exampleSaved_ok.2 hc
    (.inl ⟨rfl, rfl⟩)
  refine ⟨_, v', ?_, ?_, h3, ?_⟩
  · decide
  · decide
  · rw [h5]; rfl

/-- cut off after ten bytes of the entries: between two cuts that look complete -/
example : ¬ ∃ v', Vfb.readBytes demo {} ((fileOf 1 exampleSaved).take 54) = (.ok (), v') := by
  rw [C86_cut_file demo {} 1 exampleSaved _ rfl exampleSaved_ok.1 exampleSaved_ok.2 (List.take_prefix _ _) (by decide)]
  rintro ⟨pre, e, post, part, ⟨h1, h2, h3, h4⟩, h5⟩
  have hl := congrArg List.length h4
  have hp := h2.length_le
  have hq : part.length ≠ (frame e).length := fun h => h3 (h2.eq_of_length h)
  unfold exampleSaved at h1
  match pre, h1 with
  | [], h1 =>
    cases h1
    simp [fileOf, fileHeader, frame, exampleSaved, leDigits] at hl hp
    omega
  | [a], h1 =>
    cases h1
    rcases h5 with ⟨h5, _⟩ | ⟨_, h5⟩
    · simp [fileOf, fileHeader, frame, exampleSaved, leDigits] at hl
      omega
    · cases h5
  | [a, b], h1 =>
    cases h1
    rcases h5 with ⟨h5, _⟩ | ⟨_, h5⟩
    · simp [fileOf, fileHeader, frame, exampleSaved, leDigits] at hl
      omega
    · cases h5
  | [a, b, c], h1 =>
    cases h1
    simp [fileOf, fileHeader, frame, exampleSaved, leDigits] at hl
  | a :: b :: c :: d :: l, h1 => simp at h1

/-- a save that fails at an entry without compiler, after two entries have been written -/
example : ∃ x v' w, Vfb.write demo { header := .dec (headerDict 1), entries := [{ id := 4, data := .bytes [9] }, { id := 5 },
    { id := 99, data := .dec [1] }, { id := 2, data := .bytes [] }] } [1, 2, 3] = (.error x, fileOf 1 [(4, [9]), (5, [])], v') ∧
    ∀ w', Vfb.readBytes demo w (fileOf 1 [(4, [9]), (5, [])]) ≠ (.ok (), w') := by
  refine ⟨_, _, {}, rfl, fun w' => ?_⟩
  exact C86_failed_save demo { header := .dec (headerDict 1), entries := [{ id := 4, data := .bytes [9] }, { id := 5 },
    { id := 99, data := .dec [1] }, { id := 2, data := .bytes [] }] } _ {} w' 1 [1, 2, 3] _ _ rfl (by decide) (by decide) rfl rfl

end Verif.Props
