import Verif.Lemmas.Text
import Verif.Spec.Entry
import Verif.Model.Base
/-! Helper lemmas for the basic entry types. -/
set_option autoImplicit false
namespace Verif
open Spec

theorem roundTrips_of_encAll {α} {c : α → W} {p : R α} {a : α} (h : EncAll (c a) p a) : RoundTrips c p a :=
  parseEntry_of_encAll h

theorem roundTrips_of_enc {α} {c : α → W} {p : R α} {a : α} (h : Enc (c a) p a) : RoundTrips c p a :=
  parseEntry_of_encAll h.all

theorem valOk_iff {v : Int} : ValOk true v ↔ IsInt32 v := by
  simp only [ValOk, IsInt32]; omega

theorem valOk_false {v : Int} : ValOk false v ↔ IsUValue v := by
  simp only [ValOk, IsUValue]

theorem stable_of_post {α} {c : α → W} {p : R α} {P : Nat → α → Prop}
    (hp : ∀ N, Post N p (P N)) (hr : ∀ N a, N < 2147483648 → P N a → RoundTrips c p a) : Stable c p := by
  intro payload a hl h
  exact hr payload.length a hl (parseEntry_post (hp _) h)

theorem stableWhen_of_post {α} {c : α → W} {p : R α} {P : Nat → α → Prop} {cond : α → Prop}
    (hp : ∀ N, Post N p (P N)) (hr : ∀ N a, N < 2147483648 → P N a → cond a → RoundTrips c p a) :
    StableWhen c p cond := by
  intro payload a hl h hc
  exact hr payload.length a hl (parseEntry_post (hp _) h) hc

/-! hex -/

theorem hexVal_hexDigit : ∀ n : Fin 16, hexVal (hexDigit n.val) = some n.val := by decide
theorem hexSpace_hexDigit : ∀ n : Fin 16, isHexSpace (hexDigit n.val) = false := by decide

theorem deHexStr_hexStr (b : Bytes) : deHexStr (hexStr b) = .ok b := by
  induction b with
  | nil => rfl
  | cons x b ih =>
    have hx := x.toNat_lt
    have e : hexStr (x :: b) = hexDigit (x.toNat / 16) :: hexDigit (x.toNat % 16) :: hexStr b := rfl
    have h1 := hexVal_hexDigit ⟨x.toNat / 16, by omega⟩
    have h2 := hexVal_hexDigit ⟨x.toNat % 16, by omega⟩
    have h3 := hexSpace_hexDigit ⟨x.toNat / 16, by omega⟩
    simp only at h1 h2 h3
    rw [e, deHexStr, h3]
    simp only [Bool.false_eq_true, if_false, h1, h2, ih]
    rw [show 16 * (x.toNat / 16) + x.toNat % 16 = x.toNat by omega, UInt8.ofNat_toNat]

theorem compileHex_hexStr (b : Bytes) : compileHex (some (hexStr b)) = .ok b := by
  cases b with
  | nil => rfl
  | cons x b =>
    have : hexStr (x :: b) ≠ [] := by simp [hexStr]
    unfold compileHex
    split
    · contradiction
    · rename_i h; cases h
    · rename_i h; cases h; exact deHexStr_hexStr _

/-! bit lists -/

/-- the set bits of `n` below `k`, shifted by `start` -/
def bitList (k n : Nat) (start : Int) : List Int :=
  ((List.range k).filter fun i => n.testBit i).map fun i => start + (i : Nat)

theorem bitList_succ (k n : Nat) (start : Int) :
    bitList (k + 1) n start = if n % 2 = 1 then start :: bitList k (n / 2) (start + 1)
      else bitList k (n / 2) (start + 1) := by
  unfold bitList
  rw [List.range_succ_eq_map, List.filter_cons, List.filter_map, Nat.testBit_zero]
  have hf : (fun i => n.testBit i) ∘ Nat.succ = fun i => (n / 2).testBit i := by
    funext i; simp only [Function.comp]; rw [Nat.succ_eq_add_one, Nat.testBit_succ]
  have hm : ∀ l : List Nat, (List.map Nat.succ l).map (fun i : Nat => start + (i : Int)) =
      l.map fun i : Nat => start + 1 + (i : Int) := by
    intro l; rw [List.map_map]; congr 1; funext i; simp only [Function.comp]; omega
  by_cases h : n % 2 = 1
  · simp only [h, decide_true, if_true, List.map_cons, hf, hm]; simp
  · simp only [h, decide_false, Bool.false_eq_true, if_false, hf, hm]

theorem binaryLoop_ok (f n : Nat) (start : Int) (h : n < 2 ^ f) :
    binaryToIntListLoop (f + 1) n start = .ok (bitList f n start) := by
  induction f generalizing n start with
  | zero =>
    have : n = 0 := by simpa using h
    subst this; rfl
  | succ f ih =>
    rw [binaryToIntListLoop]
    by_cases h0 : n = 0
    · subst h0
      simp [bitList]
    · rw [if_neg (by omega)]
      have hd : ((n : Int) / 2) = ((n / 2 : Nat) : Int) := by omega
      rw [hd, ih (n / 2) (start + 1) (by rw [Nat.pow_succ] at h; omega), bitList_succ]
      simp only []
      have : ((n : Int) % 2 = 1) ↔ n % 2 = 1 := by omega
      simp only [this]

theorem binaryToIntList_ok (n : Nat) (start : Int) :
    binaryToIntList n start = .ok (bitList (n.log2 + 1) n start) := by
  unfold binaryToIntList
  rw [show ((n : Int).toNat.log2 + 2) = (n.log2 + 1) + 1 by simp]
  exact binaryLoop_ok _ n start Nat.lt_log2_self

theorem mem_bitList {k n : Nat} {start i : Int} (h : n < 2 ^ k) :
    i ∈ bitList k n start ↔ ∃ j : Nat, n.testBit j = true ∧ i = start + j := by
  simp only [bitList, List.mem_map, List.mem_filter, List.mem_range]
  constructor
  · rintro ⟨j, ⟨_, hj⟩, rfl⟩; exact ⟨j, hj, rfl⟩
  · rintro ⟨j, hj, rfl⟩
    refine ⟨j, ⟨?_, hj⟩, rfl⟩
    apply Decidable.byContradiction
    intro hn
    have : n.testBit j = false := Nat.testBit_lt_two_pow (Nat.lt_of_lt_of_le h (Nat.pow_le_pow_right (by omega) (by omega)))
    rw [this] at hj; cases hj

theorem bitList_sorted (k n : Nat) (start : Int) : (bitList k n start).Pairwise (· < ·) := by
  unfold bitList
  rw [List.pairwise_map]
  refine List.Pairwise.imp ?_ (List.Pairwise.filter _ List.pairwise_lt_range)
  intro a b h; omega

theorem testBit_pow_add (b r k : Nat) (h : r.testBit b = false) :
    (2 ^ b + r).testBit k = (decide (k = b) || r.testBit k) := by
  induction b generalizing r k with
  | zero =>
    rw [Nat.testBit_zero] at h
    have h0 : r % 2 = 0 := by simp at h; omega
    cases k with
    | zero => rw [Nat.testBit_zero, Nat.testBit_zero]; simp; omega
    | succ k =>
      rw [Nat.testBit_succ, Nat.testBit_succ]
      rw [show (2 ^ 0 + r) / 2 = r / 2 by simp; omega]
      simp
  | succ b ih =>
    rw [Nat.testBit_succ] at h
    have e : (2 ^ (b + 1) + r) / 2 = 2 ^ b + r / 2 := by rw [Nat.pow_succ]; omega
    cases k with
    | zero =>
      rw [Nat.testBit_zero, Nat.testBit_zero]
      have : (2 ^ (b + 1) + r) % 2 = r % 2 := by rw [Nat.pow_succ]; omega
      rw [this]; simp
    | succ k =>
      rw [Nat.testBit_succ, e, ih (r / 2) k h, Nat.testBit_succ]
      simp

theorem intListToBinary_ok {l : List Int} (hl : ∀ b ∈ l, 0 ≤ b) (hn : l.Nodup) :
    ∃ n : Nat, intListToBinary l = .ok n ∧ ∀ k : Nat, n.testBit k = decide ((k : Int) ∈ l) := by
  induction l with
  | nil => exact ⟨0, rfl, by simp⟩
  | cons b l ih =>
    rw [List.nodup_cons] at hn
    obtain ⟨n, h1, h2⟩ := ih (fun x hx => hl x (by simp [hx])) hn.2
    have hb := hl b (by simp)
    refine ⟨2 ^ b.toNat + n, ?_, fun k => ?_⟩
    · rw [intListToBinary, if_neg (by omega), h1]; simp
    · rw [testBit_pow_add _ _ _ (by rw [h2]; simp; rw [Int.max_eq_left hb]; exact hn.1), h2]
      have : (k = b.toNat) ↔ (k : Int) = b := by omega
      simp only [this, List.mem_cons, Bool.decide_or]

theorem sorted_ext {l m : List Int} (hl : l.Pairwise (· < ·)) (hm : m.Pairwise (· < ·))
    (h : ∀ x, x ∈ l ↔ x ∈ m) : l = m := by
  induction l generalizing m with
  | nil =>
    cases m with
    | nil => rfl
    | cons y m => exact absurd ((h y).2 (by simp)) (by simp)
  | cons x l ih =>
    cases m with
    | nil => exact absurd ((h x).1 (by simp)) (by simp)
    | cons y m =>
      rw [List.pairwise_cons] at hl hm
      have hxy : x = y := by
        rcases List.mem_cons.1 ((h x).1 (by simp)) with h1 | h1
        · exact h1
        · rcases List.mem_cons.1 ((h y).2 (by simp)) with h2 | h2
          · exact h2.symm
          · have := hl.1 y h2; have := hm.1 x h1; omega
      subst hxy
      congr 1
      refine ih hl.2 hm.2 fun z => ?_
      constructor
      · intro hz
        rcases List.mem_cons.1 ((h z).1 (by simp [hz])) with h1 | h1
        · have := hl.1 z hz; omega
        · exact h1
      · intro hz
        rcases List.mem_cons.1 ((h z).2 (by simp [hz])) with h1 | h1
        · have := hm.1 z hz; omega
        · exact h1

theorem intListToBinary_bitList (k n : Nat) (h : n < 2 ^ k) :
    intListToBinary (bitList k n 0) = .ok (n : Int) := by
  have hs := bitList_sorted k n 0
  obtain ⟨m, h1, h2⟩ := intListToBinary_ok (l := bitList k n 0)
    (fun b hb => by obtain ⟨j, _, rfl⟩ := (mem_bitList h).1 hb; omega)
    (hs.imp fun h => by omega)
  rw [h1]
  have : m = n := by
    apply Nat.eq_of_testBit_eq
    intro i
    rw [h2]
    rw [Bool.eq_iff_iff, decide_eq_true_eq, mem_bitList h]
    constructor
    · rintro ⟨j, hj, he⟩
      have : i = j := by omega
      subst this; exact hj
    · intro hi; exact ⟨i, hi, by omega⟩
  rw [this]

/-- increasing bit lists and numbers below `2^K` correspond -/
theorem bits_of_sorted {l : List Int} {K : Nat} (hs : l.Pairwise (· < ·)) (h : ∀ b ∈ l, 0 ≤ b ∧ b < (K : Int)) :
    ∃ v : Nat, intListToBinary l = .ok v ∧ v < 2 ^ K ∧ binaryToIntList v = .ok l ∧
      ∀ i : Nat, v.testBit i = decide ((i : Int) ∈ l) := by
  have hn : l.Nodup := hs.imp (fun h => by omega)
  obtain ⟨v, hv, hbits⟩ := intListToBinary_ok (fun b hb => (h b hb).1) hn
  refine ⟨v, hv, ?_, ?_, hbits⟩
  · apply Nat.lt_pow_two_of_testBit
    intro i hi
    rw [hbits i]
    apply decide_eq_false
    intro hc
    have := h _ hc
    omega
  · rw [binaryToIntList_ok]
    congr 1
    refine sorted_ext (bitList_sorted _ _ _) hs fun i => ?_
    rw [mem_bitList (Nat.lt_log2_self)]
    constructor
    · rintro ⟨j, hj, rfl⟩
      rw [hbits j] at hj
      simpa using hj
    · intro hi
      have h0 := (h i hi).1
      refine ⟨i.toNat, ?_, by omega⟩
      rw [hbits, decide_eq_true_iff, Int.toNat_of_nonneg h0]; exact hi

theorem bits_of_nat {v K : Nat} (h : v < 2 ^ K) :
    ∃ l, binaryToIntList v = .ok l ∧ l.Pairwise (· < ·) ∧ (∀ b ∈ l, 0 ≤ b ∧ b < (K : Int)) ∧
      intListToBinary l = .ok v := by
  refine ⟨_, binaryToIntList_ok v 0, bitList_sorted _ _ _, ?_, intListToBinary_bitList _ _ Nat.lt_log2_self⟩
  intro b hb
  obtain ⟨j, hj, rfl⟩ := (mem_bitList Nat.lt_log2_self).1 hb
  have : j < K := by
    apply Decidable.byContradiction
    intro hn
    rw [Nat.testBit_lt_two_pow (Nat.lt_of_lt_of_le h (Nat.pow_le_pow_right (by omega) (by omega)))] at hj
    cases hj
  omega

/-! value lists -/

theorem evlBody_consuming : Consuming evlBody := by
  intro st s st' r h
  unfold evlBody at h
  cases s with
  | nil => rw [readValue_nil] at h; cases h
  | cons b s =>
    rw [readValue_cons] at h
    repeat' split at h
    all_goals first
      | (cases h; done)
      | (rename_i heq; repeat' split at heq)
    all_goals first
      | (cases heq; done)
      | (cases heq; cases h; simp only [List.length_cons, List.length_drop]; omega)
      | (cases heq; cases h; simp only [List.length_cons]; omega)
      | (cases h)

theorem encAll_valueList (l : List Int) (h : ∀ v ∈ l, ValOk true v) :
    EncAll (compileValueList l) parseValueList l := by
  have key := EncAll.whileTrue (body := evlBody) evlBody_consuming (w := fun v => writeValue v)
    (step := fun acc v => acc ++ [v]) (wEnd := W.nil) (fin := l) l []
    (fun pre x post he => by
      obtain ⟨b, hb, hr⟩ := enc_value (sg := true) (h x (by rw [he]; simp))
      exact ⟨b, hb, fun rest => by simp [evlBody, hr rest]⟩)
    (by
      have hf : ∀ (l acc : List Int), l.foldl (fun acc v => acc ++ [v]) acc = acc ++ l := by
        intro l
        induction l with
        | nil => simp
        | cons x l ih => intro acc; simp [ih]
      rw [hf]
      exact ⟨[], rfl, by simp [evlBody, readValue_nil]⟩)
  simpa [compileValueList, parseValueList] using key

theorem post_evlBody {N : Nat} {acc : List Int} (h : ∀ v ∈ acc, ValOk true v) :
    Post N (evlBody acc) (Sum.elim (fun a => ∀ v ∈ a, ValOk true v) fun a => ∀ v ∈ a, ValOk true v) := by
  intro s x r hN hs
  unfold evlBody at hs
  split at hs
  · rename_i v r' heq
    cases hs
    obtain ⟨h1, h2⟩ := post_value true _ _ _ hN heq
    refine ⟨fun w hw => ?_, h2⟩
    rcases List.mem_append.1 hw with hw | hw
    · exact h w hw
    · simp at hw; subst hw; exact h1
  · rename_i r' heq
    cases hs
    refine ⟨h, ?_⟩
    cases s with
    | nil => rw [readValue_nil] at heq; cases heq; simp
    | cons b s =>
      rw [readValue_cons] at heq
      repeat' split at heq
      all_goals first
        | (cases heq; simp; done)
        | cases heq
  · cases hs

theorem post_valueList {N : Nat} : Post N parseValueList fun l => ∀ v ∈ l, ValOk true v :=
  Post.whileTrue (I := fun l => ∀ v ∈ l, ValOk true v) (fun _ h => post_evlBody h) [] (by simp)

theorem enc_valueListCount (l : List Int) (hl : l.length < 2147483648) (h : ∀ v ∈ l, ValOk true v) :
    Enc (compileValueListCount l) parseValueListCount l := by
  unfold compileValueListCount parseValueListCount
  refine Enc.bind (enc_value (by simp only [ValOk]; omega)) ?_
  exact Enc.forRange rfl fun v hv => enc_value (h v hv)

theorem post_valueListCount {N : Nat} :
    Post N parseValueListCount fun l => l.length < 2147483648 ∧ ∀ v ∈ l, ValOk true v := by
  refine Post.bind (post_value true) fun n hn => (Post.forRange (post_value true) n).mono fun l hl => ?_
  simp only [ValOk] at hn
  exact ⟨by rw [hl.1]; omega, hl.2⟩

/-! glyph encoding -/

theorem encAll_glyphEncoding (d : Int × PyStr) (h : 0 ≤ d.1 ∧ d.1 < 65536) (hs : Is1252 d.2) :
    EncAll (compileGlyphEncoding d) parseGlyphEncoding d := by
  unfold compileGlyphEncoding parseGlyphEncoding
  refine Enc.bindAll (enc_u16 h) ?_
  obtain ⟨b, hb, hr⟩ := encAll_strAll hs
  exact ⟨b, hb, by rw [R.bind_of_ok hr]; rfl⟩

theorem post_glyphEncoding {N : Nat} :
    Post N parseGlyphEncoding fun d => (0 ≤ d.1 ∧ d.1 < 65536) ∧ Is1252 d.2 :=
  Post.bind post_u16 fun _ h1 => Post.bind post_strAll fun _ h2 => Post.pure ⟨h1, h2.1⟩

/-! mapping mode -/

theorem intDec_not_mode (v : Int) : ∀ p ∈ mappingModes, intDec v ≠ p.2 := by
  intro p hp he
  have hc : ∀ c ∈ intDec v, c = 45 ∨ (48 ≤ c ∧ c ≤ 57) := by
    intro c hc
    unfold intDec at hc
    split at hc
    · rcases List.mem_cons.1 hc with h | h
      · exact .inl h
      · exact .inr (natDec_digit _ c h)
    · exact .inr (natDec_digit _ c hc)
  rw [he] at hc
  have : ∀ p ∈ mappingModes, ¬ ∀ c ∈ p.2, c = 45 ∨ (48 ≤ c ∧ c ≤ 57) := by decide
  exact this p hp hc

theorem readInt_consume {k : Nat} {sg : Bool} {s r : Bytes} {v : Int} (h : readInt k sg s = .ok v r) :
    r.length ≤ s.length := (post_int (N := s.length) k sg s v r (Nat.le_refl _) h).2

theorem readValue_consume {sg : Bool} {s r : Bytes} {v : Int} (h : readValue sg s = .ok v r) :
    r.length < s.length := by
  cases s with
  | nil => rw [readValue_nil] at h; cases h
  | cons b s =>
    rw [readValue_cons] at h
    repeat' split at h
    all_goals cases h
    all_goals simp
    all_goals omega

theorem readU8_cons (b : UInt8) (s : Bytes) : readU8 (b :: s) = .ok (b.toNat : Int) s := by
  simp [readU8, readInt, R.bind_run, R.readN, fromLE, leNat]
theorem readU8_nil : readU8 [] = .ok 0 [] := rfl

theorem mappingModeBody_consuming : Consuming mappingModeBody := by
  intro st s st' r h
  unfold mappingModeBody at h
  obtain ⟨key, r1, h1, h⟩ := R.bind_eq_ok.1 h
  have hl := readInt_consume h1
  rw [R.ite_run] at h
  split at h
  · rcases st with ⟨a, b, c, d⟩
    cases a <;> cases b <;> cases c <;> cases d <;> cases h
  · obtain ⟨v, r2, h2, h⟩ := R.bind_eq_ok.1 h
    have hl2 := readValue_consume h2
    simp only [R.ite_run] at h
    repeat' split at h
    all_goals cases h
    all_goals omega

theorem enc_mappingMode (k : Int) (d : MappingMode) (hk : (k, d.mapping_mode) ∈ mappingModes)
    (h2 : ValOk true d.m2) (h3 : ValOk true d.m3) (h4 : ValOk true d.mapping_id) :
    Enc (compileMappingMode d) parseMappingMode d := by
  have hrev : mappingModeRev d.mapping_mode = .ok k ∧ dictGet mappingModes k = some d.mapping_mode ∧ ValOk true k := by
    obtain ⟨m, a, b, c⟩ := d
    simp only at hk ⊢
    clear h2 h3 h4
    revert hk
    generalize hp : (k, m) = p
    intro hp'
    have : ∀ p ∈ mappingModes, mappingModeRev p.2 = .ok p.1 ∧ dictGet mappingModes p.1 = some p.2 ∧ ValOk true p.1 := by
      decide
    have := this p hp'
    subst hp; exact this
  have key := Enc.whileTrue (body := mappingModeBody) mappingModeBody_consuming
    (ι := Nat × Int) (w := fun p => writeU8 (p.1 : Int) ++ writeValue p.2)
    (step := fun st p => if p.1 = 1 then { st with mapping_mode := some ((dictGet mappingModes p.2).getD (intDec p.2)) }
      else if p.1 = 2 then { st with m2 := some p.2 } else if p.1 = 3 then { st with m3 := some p.2 }
      else { st with mapping_id := some p.2 })
    (wEnd := writeU8 0) (fin := d) [(1, k), (2, d.m2), (3, d.m3), (4, d.mapping_id)] {}
    (by
      intro pre x post he
      have hx : x ∈ [(1, k), (2, d.m2), (3, d.m3), (4, d.mapping_id)] := by rw [he]; simp
      generalize List.foldl _ _ pre = st
      have hv : ValOk true x.2 := by
        simp only [List.mem_cons, List.not_mem_nil, or_false] at hx
        rcases hx with rfl | rfl | rfl | rfl
        · exact hrev.2.2
        · exact h2
        · exact h3
        · exact h4
      have h1 : x.1 = 1 ∨ x.1 = 2 ∨ x.1 = 3 ∨ x.1 = 4 := by
        simp only [List.mem_cons, List.not_mem_nil, or_false] at hx
        rcases hx with rfl | rfl | rfl | rfl <;> simp
      obtain ⟨x1, x2⟩ := x
      simp only at h1 hv ⊢
      unfold mappingModeBody
      refine Enc.bind (enc_u8 (by omega)) ?_
      rcases h1 with rfl | rfl | rfl | rfl <;>
      · exact Enc.last (enc_value hv) rfl)
    (by
      simp only [List.foldl, hrev.2.1, Option.getD_some]
      unfold mappingModeBody
      exact Enc.last (enc_u8 (by omega)) rfl)
  refine key.cast ?_ rfl
  simp only [compileMappingMode, hrev.1, W.withVal_ok, W.all_cons, W.all_nil, W.seq_assoc, W.nil_seq]
  rfl

/-! class flags -/

theorem dictOfList_aux {κ ν} [DecidableEq κ] (l acc : List (κ × ν)) (h : DictOk (acc ++ l)) :
    l.foldl (fun d p => dictSet d p.1 p.2) acc = acc ++ l := by
  induction l generalizing acc with
  | nil => simp
  | cons p l ih =>
    have hp : p.1 ∉ acc.map Prod.fst := by
      unfold DictOk at h
      rw [List.map_append, List.nodup_append] at h
      intro hm
      exact h.2.2 _ hm p.1 (by simp) rfl
    rw [List.foldl_cons, dictSet_new hp, ih (acc ++ [(p.1, p.2)]) (by simpa using h)]
    simp

theorem dictOfList_of_ok {κ ν} [DecidableEq κ] {l : List (κ × ν)} (h : DictOk l) : dictOfList l = l := by
  have := dictOfList_aux l [] (by simpa using h)
  simpa [dictOfList] using this

theorem dictFold_ok {κ ν} [DecidableEq κ] (l acc : List (κ × ν)) (h : DictOk acc) :
    DictOk (l.foldl (fun d p => dictSet d p.1 p.2) acc) := by
  induction l generalizing acc with
  | nil => exact h
  | cons p l ih => exact ih _ (dictSet_ok h _ _)

theorem dictOfList_ok {κ ν} [DecidableEq κ] (l : List (κ × ν)) : DictOk (dictOfList l) :=
  dictFold_ok l [] List.nodup_nil

theorem dictSet_length {κ ν} [DecidableEq κ] (d : List (κ × ν)) (k : κ) (v : ν) :
    (dictSet d k v).length ≤ d.length + 1 := by
  induction d with
  | nil => simp [dictSet]
  | cons x d ih => simp only [dictSet]; split <;> simp <;> omega

theorem dictFold_length {κ ν} [DecidableEq κ] (l acc : List (κ × ν)) :
    (l.foldl (fun d p => dictSet d p.1 p.2) acc).length ≤ acc.length + l.length := by
  induction l generalizing acc with
  | nil => simp
  | cons p l ih =>
    have := ih (dictSet acc p.1 p.2)
    have := dictSet_length acc p.1 p.2
    simp only [List.foldl_cons, List.length_cons]; omega

theorem dictOfList_length {κ ν} [DecidableEq κ] (l : List (κ × ν)) : (dictOfList l).length ≤ l.length := by
  simpa [dictOfList] using dictFold_length l []

theorem dictFold_mem {κ ν} [DecidableEq κ] {l acc : List (κ × ν)} {x : κ × ν}
    (h : x ∈ l.foldl (fun d p => dictSet d p.1 p.2) acc) : x ∈ l ∨ x ∈ acc := by
  induction l generalizing acc with
  | nil => exact .inr h
  | cons p l ih =>
    rcases ih h with h | h
    · exact .inl (by simp [h])
    · rcases dictSet_mem h with h | h
      · exact .inl (by subst h; simp)
      · exact .inr h

theorem dictOfList_mem {κ ν} [DecidableEq κ] {l : List (κ × ν)} {x : κ × ν} (h : x ∈ dictOfList l) : x ∈ l := by
  rcases dictFold_mem h with h | h
  · exact h
  · cases h

theorem enc_kerningFlags (d : List (PyStr × (Int × Int))) (hd : DictOk d) (hl : d.length < 2147483648)
    (h : ∀ p ∈ d, StrOk p.1 ∧ (-1131 ≤ p.2.1 ∧ p.2.1 < 2147483648) ∧ (-1131 ≤ p.2.2 ∧ p.2.2 < 2147483648)) :
    Enc (compileKerningFlags d) parseKerningFlags d := by
  unfold compileKerningFlags parseKerningFlags
  refine Enc.bind (enc_value_mixed (by omega) _ _) ?_
  refine Enc.last (a := d) (Enc.forRange rfl fun p hp => ?_) (by rw [dictOfList_of_ok hd])
  obtain ⟨h1, h2, h3⟩ := h p hp
  rw [W.seq_assoc]
  refine Enc.bind (enc_strWithLen h1) ?_
  refine Enc.bind (enc_value_mixed h2 _ _) ?_
  exact Enc.last (enc_value_mixed h3 _ _) rfl

theorem post_kerningFlags {N : Nat} : Post N parseKerningFlags fun d =>
    DictOk d ∧ d.length < 2147483648 ∧ ∀ p ∈ d, StrN N p.1 ∧ ValOk true p.2.1 ∧ ValOk true p.2.2 := by
  refine Post.bind (post_value true) fun n hn => ?_
  refine Post.bind (Post.forRange (P := fun p => StrN N p.1 ∧ ValOk true p.2.1 ∧ ValOk true p.2.2) ?_ n)
    fun l hl => Post.pure ⟨dictOfList_ok l, ?_, fun p hp => hl.2 p (dictOfList_mem hp)⟩
  · exact Post.bind post_strWithLen fun _ h1 => Post.bind (post_value true) fun _ h2 =>
      Post.bind (post_value true) fun _ h3 => Post.pure ⟨h1, h2, h3⟩
  · have := dictOfList_length l
    simp only [ValOk] at hn
    omega

theorem enc_metricsFlags (d : List (PyStr × (Int × Int × Int))) (hd : DictOk d) (hl : d.length < 2147483648)
    (h : ∀ p ∈ d, StrOk p.1 ∧ (-1131 ≤ p.2.1 ∧ p.2.1 < 2147483648) ∧
      (-1131 ≤ p.2.2.1 ∧ p.2.2.1 < 2147483648) ∧ (-1131 ≤ p.2.2.2 ∧ p.2.2.2 < 2147483648)) :
    Enc (compileMetricsFlags d) parseMetricsFlags d := by
  unfold compileMetricsFlags parseMetricsFlags
  refine Enc.bind (enc_value_mixed (by omega) _ _) ?_
  refine Enc.last (a := d) (Enc.forRange rfl fun p hp => ?_) (by rw [dictOfList_of_ok hd])
  obtain ⟨h1, h2, h3, h4⟩ := h p hp
  rw [W.seq_assoc, W.seq_assoc]
  refine Enc.bind (enc_strWithLen h1) ?_
  refine Enc.bind (enc_value_mixed h2 _ _) ?_
  refine Enc.bind (enc_value_mixed h3 _ _) ?_
  exact Enc.last (enc_value_mixed h4 _ _) rfl

theorem post_metricsFlags {N : Nat} : Post N parseMetricsFlags fun d =>
    DictOk d ∧ d.length < 2147483648 ∧
      ∀ p ∈ d, StrN N p.1 ∧ ValOk true p.2.1 ∧ ValOk true p.2.2.1 ∧ ValOk true p.2.2.2 := by
  refine Post.bind (post_value true) fun n hn => ?_
  refine Post.bind (Post.forRange (P := fun p => StrN N p.1 ∧ ValOk true p.2.1 ∧ ValOk true p.2.2.1 ∧
    ValOk true p.2.2.2) ?_ n)
    fun l hl => Post.pure ⟨dictOfList_ok l, ?_, fun p hp => hl.2 p (dictOfList_mem hp)⟩
  · exact Post.bind post_strWithLen fun _ h1 => Post.bind (post_value true) fun _ h2 =>
      Post.bind (post_value true) fun _ h3 => Post.bind (post_value true) fun _ h4 =>
      Post.pure ⟨h1, h2, h3, h4⟩
  · have := dictOfList_length l
    simp only [ValOk] at hn
    omega

end Verif
