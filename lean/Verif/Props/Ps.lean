import Verif.Lemmas.Base
import Verif.Lemmas.Dict
import Verif.Props.Guides
import Verif.Spec.Ps
/-! C32, C33: PostScript info, hinting options, PCLT. -/
set_option autoImplicit false
namespace Verif.Props
open Verif Verif.Spec

theorem isInt32_lt {v : Int} (h : IsInt32 v) : -2147483648 ≤ v ∧ v < 2147483648 := by
  simp only [IsInt32] at h; omega

theorem isInt32_of_lt {v : Int} (h : -2147483648 ≤ v ∧ v < 2147483648) : IsInt32 v := by
  simp only [IsInt32]; omega

theorem enc_sized {α : Type} {n : Nat} {l : List α} {f : α → W} {p : R α} (hn : l.length = n)
    (h : ∀ x ∈ l, Enc (f x) p x) : Enc (writeSized n l f) (R.rep n p) l := by
  subst hn
  rw [writeSized, if_pos rfl]
  exact Enc.rep h

/-! ## C32 -/

theorem enc_psInfo {d : PSInfo} (h : PSInfoOk d) : Enc (compilePSInfo d) parsePSInfo d := by
  obtain ⟨h1, h2, h3, h4, h5, h6, h7, h8, h9, h10, h11⟩ := h
  unfold compilePSInfo parsePSInfo
  simp only [W.seq_assoc]
  refine Enc.bind (a := d.font_matrix) ?_ ?_
  · rw [writeSized, if_pos h1, ← h1]; exact enc_doubles _
  refine Enc.bind (enc_i32 (isInt32_lt h2)) ?_
  refine Enc.bind (enc_sized h3.1 fun v hv => enc_i32 (isInt32_lt (h3.2 v hv))) ?_
  refine Enc.bind (enc_sized h4.1 fun v hv => enc_i32 (isInt32_lt (h4.2 v hv))) ?_
  refine Enc.bind (enc_sized h5.1 fun v hv => enc_i32 (isInt32_lt (h5.2 v hv))) ?_
  refine Enc.bind (enc_sized h6.1 fun v hv => enc_i32 (isInt32_lt (h6.2 v hv))) ?_
  refine Enc.bind (enc_double _) ?_
  refine Enc.bind (enc_u32 (h7 _ (by simp))) ?_
  refine Enc.bind (enc_u32 (h7 _ (by simp))) ?_
  refine Enc.bind (enc_u32 (h7 _ (by simp))) ?_
  refine Enc.bind (enc_u32 (h7 _ (by simp))) ?_
  refine Enc.bind (enc_sized h8.1 fun v hv => enc_u32 (h8.2 v hv)) ?_
  refine Enc.bind (enc_sized h9.1 fun v hv => enc_u32 (h9.2 v hv)) ?_
  refine Enc.bind (enc_i16 (h10 _ (by simp))) ?_
  refine Enc.bind (enc_i16 (h10 _ (by simp))) ?_
  refine Enc.bind (enc_i16 (h10 _ (by simp))) ?_
  refine Enc.bind (enc_i16 (h10 _ (by simp))) ?_
  refine Enc.bind (enc_i32 (isInt32_lt (h11 _ (by simp)))) ?_
  refine Enc.bind (enc_i32 (isInt32_lt (h11 _ (by simp)))) ?_
  refine Enc.bind (enc_i32 (isInt32_lt (h11 _ (by simp)))) ?_
  refine Enc.bind (enc_i32 (isInt32_lt (h11 _ (by simp)))) ?_
  refine Enc.bind (enc_i32 (isInt32_lt (h11 _ (by simp)))) ?_
  refine Enc.bind (enc_i32 (isInt32_lt (h11 _ (by simp)))) ?_
  exact Enc.last (enc_i32 (isInt32_lt (h11 _ (by simp)))) rfl

/-- **C32** PostScript info round-trips. -/
theorem C32_ps_info_roundtrip (d : PSInfo) (h : PSInfoOk d) : RoundTrips compilePSInfo parsePSInfo d :=
  roundTrips_of_enc (enc_psInfo h)

theorem post_psInfo (N : Nat) : Post N parsePSInfo PSInfoOk := by
  unfold parsePSInfo
  refine Post.bind (post_doubles 6) fun _ h1 => ?_
  refine Post.bind post_i32 fun _ h2 => ?_
  refine Post.bind (Post.rep post_i32 14) fun _ h3 => ?_
  refine Post.bind (Post.rep post_i32 10) fun _ h4 => ?_
  refine Post.bind (Post.rep post_i32 14) fun _ h5 => ?_
  refine Post.bind (Post.rep post_i32 10) fun _ h6 => ?_
  refine Post.bind (P := fun _ => True) ((?_ : Post N readDouble fun _ => True)) fun _ _ => ?_
  · refine Post.bind (post_doubles 1) fun l _ => ?_
    cases l with
    | nil => exact Post.throw
    | cons x l => exact Post.pure trivial
  refine Post.bind post_u32 fun _ h7 => ?_
  refine Post.bind post_u32 fun _ h8 => ?_
  refine Post.bind post_u32 fun _ h9 => ?_
  refine Post.bind post_u32 fun _ h10 => ?_
  refine Post.bind (Post.rep post_u32 12) fun _ h11 => ?_
  refine Post.bind (Post.rep post_u32 12) fun _ h12 => ?_
  refine Post.bind post_i16 fun _ h13 => ?_
  refine Post.bind post_i16 fun _ h14 => ?_
  refine Post.bind post_i16 fun _ h15 => ?_
  refine Post.bind post_i16 fun _ h16 => ?_
  refine Post.bind post_i32 fun _ h17 => ?_
  refine Post.bind post_i32 fun _ h18 => ?_
  refine Post.bind post_i32 fun _ h19 => ?_
  refine Post.bind post_i32 fun _ h20 => ?_
  refine Post.bind post_i32 fun _ h21 => ?_
  refine Post.bind post_i32 fun _ h22 => ?_
  refine Post.bind post_i32 fun _ h23 => Post.pure ?_
  refine ⟨h1, isInt32_of_lt h2, ⟨h3.1, fun v hv => isInt32_of_lt (h3.2 v hv)⟩,
    ⟨h4.1, fun v hv => isInt32_of_lt (h4.2 v hv)⟩, ⟨h5.1, fun v hv => isInt32_of_lt (h5.2 v hv)⟩,
    ⟨h6.1, fun v hv => isInt32_of_lt (h6.2 v hv)⟩, ?_, h11, h12, ?_, ?_⟩
  · intro v hv
    simp only [List.mem_cons, List.not_mem_nil, or_false] at hv
    rcases hv with rfl | rfl | rfl | rfl <;> assumption
  · intro v hv
    simp only [List.mem_cons, List.not_mem_nil, or_false] at hv
    rcases hv with rfl | rfl | rfl | rfl <;> assumption
  · intro v hv
    simp only [List.mem_cons, List.not_mem_nil, or_false] at hv
    rcases hv with rfl | rfl | rfl | rfl | rfl | rfl | rfl <;> exact isInt32_of_lt ‹_›

/-- **C32** Every parsed PostScript info can be compiled and parsed again. -/
theorem C32_ps_info_stable : Stable compilePSInfo parsePSInfo :=
  stable_of_post post_psInfo fun _ d _ h => C32_ps_info_roundtrip d h

/-- **C32** PostScript info with a list of the wrong length, or a number outside its range, is refused. -/
theorem C32_ps_info_rejected (d : PSInfo) (h : ¬ PSInfoOk d) : Rejected compilePSInfo d := by
  match hc : compilePSInfo d with
  | .error e => exact ⟨e, hc⟩
  | .ok z =>
    refine absurd ?_ h
    have si : ∀ {n : Nat} {l : List Int} {z : Bytes}, writeSized n l writeI32 = .ok z → l.length = n ∧ ∀ v ∈ l, IsInt32 v := by
      intro n l z hz
      unfold writeSized at hz
      split at hz
      · next hl => exact ⟨hl, fun v hv => by
          obtain ⟨y, hy⟩ := W.all_ok hz v hv
          exact isInt32_of_lt (by
            apply Decidable.byContradiction
            intro hn
            rw [writeI32, toBytesLE_err (by simp only [inRange]; omega)] at hy
            cases hy)⟩
      · cases hz
    have su : ∀ {n : Nat} {l : List Int} {z : Bytes}, writeSized n l writeU32 = .ok z →
        l.length = n ∧ ∀ v ∈ l, 0 ≤ v ∧ v < 4294967296 := by
      intro n l z hz
      unfold writeSized at hz
      split at hz
      · next hl => exact ⟨hl, fun v hv => by
          obtain ⟨y, hy⟩ := W.all_ok hz v hv
          apply Decidable.byContradiction
          intro hn
          rw [writeU32, toBytesLE_err (by simp only [inRange]; omega)] at hy
          cases hy⟩
      · cases hz
    have i32 : ∀ {v : Int} {z : Bytes}, writeI32 v = .ok z → IsInt32 v := by
      intro v z hz
      apply Decidable.byContradiction
      intro hn
      rw [writeI32, toBytesLE_err (by simp only [inRange, IsInt32] at *; omega)] at hz
      cases hz
    have i16 : ∀ {v : Int} {z : Bytes}, writeI16 v = .ok z → -32768 ≤ v ∧ v < 32768 := by
      intro v z hz
      apply Decidable.byContradiction
      intro hn
      rw [writeI16, toBytesLE_err (by simp only [inRange] at *; omega)] at hz
      cases hz
    have u32 : ∀ {v : Int} {z : Bytes}, writeU32 v = .ok z → 0 ≤ v ∧ v < 4294967296 := by
      intro v z hz
      apply Decidable.byContradiction
      intro hn
      rw [writeU32, toBytesLE_err (by simp only [inRange] at *; omega)] at hz
      cases hz
    unfold compilePSInfo at hc
    simp only [W.seq_assoc] at hc
    obtain ⟨_, _, a1, hc, _⟩ := W.seq_eq_ok.1 hc
    obtain ⟨_, _, a2, hc, _⟩ := W.seq_eq_ok.1 hc
    obtain ⟨_, _, a3, hc, _⟩ := W.seq_eq_ok.1 hc
    obtain ⟨_, _, a4, hc, _⟩ := W.seq_eq_ok.1 hc
    obtain ⟨_, _, a5, hc, _⟩ := W.seq_eq_ok.1 hc
    obtain ⟨_, _, a6, hc, _⟩ := W.seq_eq_ok.1 hc
    obtain ⟨_, _, a7, hc, _⟩ := W.seq_eq_ok.1 hc
    obtain ⟨_, _, a8, hc, _⟩ := W.seq_eq_ok.1 hc
    obtain ⟨_, _, a9, hc, _⟩ := W.seq_eq_ok.1 hc
    obtain ⟨_, _, a10, hc, _⟩ := W.seq_eq_ok.1 hc
    obtain ⟨_, _, a11, hc, _⟩ := W.seq_eq_ok.1 hc
    obtain ⟨_, _, a12, hc, _⟩ := W.seq_eq_ok.1 hc
    obtain ⟨_, _, a13, hc, _⟩ := W.seq_eq_ok.1 hc
    obtain ⟨_, _, a14, hc, _⟩ := W.seq_eq_ok.1 hc
    obtain ⟨_, _, a15, hc, _⟩ := W.seq_eq_ok.1 hc
    obtain ⟨_, _, a16, hc, _⟩ := W.seq_eq_ok.1 hc
    obtain ⟨_, _, a17, hc, _⟩ := W.seq_eq_ok.1 hc
    obtain ⟨_, _, a18, hc, _⟩ := W.seq_eq_ok.1 hc
    obtain ⟨_, _, a19, hc, _⟩ := W.seq_eq_ok.1 hc
    obtain ⟨_, _, a20, hc, _⟩ := W.seq_eq_ok.1 hc
    obtain ⟨_, _, a21, hc, _⟩ := W.seq_eq_ok.1 hc
    obtain ⟨_, _, a22, hc, _⟩ := W.seq_eq_ok.1 hc
    obtain ⟨_, _, a23, a24, _⟩ := W.seq_eq_ok.1 hc
    refine ⟨?_, i32 a2, si a3, si a4, si a5, si a6, ?_, su a12, su a13, ?_, ?_⟩
    · unfold writeSized at a1
      split at a1
      · assumption
      · cases a1
    · intro v hv
      simp only [List.mem_cons, List.not_mem_nil, or_false] at hv
      rcases hv with rfl | rfl | rfl | rfl
      · exact u32 a8
      · exact u32 a9
      · exact u32 a10
      · exact u32 a11
    · intro v hv
      simp only [List.mem_cons, List.not_mem_nil, or_false] at hv
      rcases hv with rfl | rfl | rfl | rfl
      · exact i16 a14
      · exact i16 a15
      · exact i16 a16
      · exact i16 a17
    · intro v hv
      simp only [List.mem_cons, List.not_mem_nil, or_false] at hv
      rcases hv with rfl | rfl | rfl | rfl | rfl | rfl | rfl
      · exact i32 a18
      · exact i32 a19
      · exact i32 a20
      · exact i32 a21
      · exact i32 a22
      · exact i32 a23
      · exact i32 a24

/-- a table of options whose names and bits are distinct -/
def TableOk (opts : List (PyStr × Int)) (K : Nat) : Prop :=
  (opts.map Prod.fst).Nodup ∧ (opts.map Prod.snd).Nodup ∧ ∀ o ∈ opts, 0 ≤ o.2 ∧ o.2 < (K : Int)

theorem takeOptions_eq {opts : List (PyStr × Int)} {K : Nat} (h : TableOk opts K) (bits : List Int) :
    takeOptions opts bits =
      ⟨(opts.filter fun o => decide (o.2 ∈ bits)).map fun o => (o.1, 1),
       bits.filter fun b => decide (b ∉ opts.map Prod.snd)⟩ := by
  obtain ⟨hk, hb, _⟩ := h
  have key : ∀ (opts : List (PyStr × Int)) (bits : List Int) (d : List (PyStr × Int)),
      (opts.map Prod.fst).Nodup → (opts.map Prod.snd).Nodup → (∀ o ∈ opts, o.1 ∉ d.map Prod.fst) →
      opts.foldl (fun (st : List Int × List (PyStr × Int)) o =>
        if o.2 ∈ st.1 then (st.1.filter (· ≠ o.2), dictSet st.2 o.1 1) else st) (bits, d) =
      (bits.filter (fun b => decide (b ∉ opts.map Prod.snd)),
       d ++ (opts.filter fun o => decide (o.2 ∈ bits)).map fun o => (o.1, 1)) := by
    intro opts
    induction opts with
    | nil =>
      intro bits d _ _ _
      simp only [List.foldl_nil, List.map_nil, List.filter_nil, List.append_nil, Prod.mk.injEq, and_true]
      symm
      rw [List.filter_eq_self]
      simp
    | cons o opts ih =>
      intro bits d hk hb hd
      rw [List.map_cons, List.nodup_cons] at hk hb
      rw [List.foldl_cons]
      by_cases ho : o.2 ∈ bits
      · rw [if_pos ho, dictSet_new (hd o List.mem_cons_self), ih _ _ hk.2 hb.2]
        · rw [Prod.mk.injEq]
          constructor
          · rw [List.filter_filter]
            refine List.filter_congr fun x hx => ?_
            rw [Bool.eq_iff_iff]
            simp only [ne_eq, Bool.and_eq_true, decide_eq_true_eq, List.map_cons, List.mem_cons, not_or]
            constructor
            · rintro ⟨h1, h2⟩; exact ⟨h2, h1⟩
            · rintro ⟨h1, h2⟩; exact ⟨h2, h1⟩
          · rw [List.filter_cons, if_pos (by simpa using ho), List.append_assoc]
            congr 1
            rw [List.map_cons, List.singleton_append]
            congr 2
            refine List.filter_congr fun x hx => ?_
            rw [Bool.eq_iff_iff]
            simp only [decide_eq_true_eq, List.mem_filter, ne_eq]
            constructor
            · exact fun h => h.1
            · refine fun h => ⟨h, ?_⟩
              intro he
              exact hb.1 (he ▸ List.mem_map_of_mem hx)
        · intro x hx
          rw [List.map_append, List.mem_append]
          rintro (h | h)
          · exact hd x (List.mem_cons_of_mem _ hx) h
          · simp only [List.map_cons, List.map_nil, List.mem_singleton] at h
            exact hk.1 (h ▸ List.mem_map_of_mem hx)
      · rw [if_neg ho, ih _ _ hk.2 hb.2 fun x hx => hd x (List.mem_cons_of_mem _ hx)]
        rw [Prod.mk.injEq]
        constructor
        · refine List.filter_congr fun x hx => ?_
          rw [Bool.eq_iff_iff]
          simp only [decide_eq_true_eq, List.map_cons, List.mem_cons, not_or]
          constructor
          · refine fun h => ⟨?_, h⟩
            intro he; exact ho (he ▸ hx)
          · exact fun h => h.2
        · rw [List.filter_cons, if_neg (by simpa using ho)]
  unfold takeOptions
  rw [key opts bits [] hk hb (by simp)]
  simp

theorem nodup_map_inj {α β : Type} {f : α → β} {l : List α} (h : (l.map f).Nodup) {x y : α} (hx : x ∈ l) (hy : y ∈ l)
    (he : f x = f y) : x = y := by
  induction l with
  | nil => cases hx
  | cons z l ih =>
    rw [List.map_cons, List.nodup_cons] at h
    rcases List.mem_cons.1 hx with rfl | hx' <;> rcases List.mem_cons.1 hy with rfl | hy'
    · rfl
    · exact absurd (he ▸ List.mem_map_of_mem hy') h.1
    · exact absurd (he ▸ List.mem_map_of_mem hx') h.1
    · exact ih h.2 hx' hy'

theorem dictGet_mapOn {opts : List (PyStr × Int)} (hk : (opts.map Prod.fst).Nodup) (p : PyStr × Int → Bool)
    {o : PyStr × Int} (ho : o ∈ opts) :
    dictGet ((opts.filter p).map fun o => (o.1, (1 : Int))) o.1 = if p o = true then some 1 else none := by
  induction opts with
  | nil => cases ho
  | cons x opts ih =>
    rw [List.map_cons, List.nodup_cons] at hk
    rcases List.mem_cons.1 ho with rfl | ho
    · rw [List.filter_cons]
      by_cases hp : p o = true
      · rw [if_pos hp, if_pos hp, List.map_cons, dictGet, if_pos rfl]
      · rw [if_neg hp, if_neg hp]
        have : ∀ l : List (PyStr × Int), o.1 ∉ l.map Prod.fst → dictGet (l.map fun o => (o.1, (1 : Int))) o.1 = none := by
          intro l
          induction l with
          | nil => intro _; rfl
          | cons y l ih2 =>
            intro hn
            simp only [List.map_cons, List.mem_cons, not_or] at hn
            rw [List.map_cons, dictGet, if_neg (fun e => hn.1 e.symm), ih2 hn.2]
        refine this _ fun hm => hk.1 ?_
        obtain ⟨y, hy, he⟩ := List.mem_map.1 hm
        exact he ▸ List.mem_map_of_mem (List.mem_filter.1 hy).1
    · have hne : x.1 ≠ o.1 := fun e => hk.1 (e ▸ List.mem_map_of_mem ho)
      rw [List.filter_cons]
      split
      · rw [List.map_cons, dictGet, if_neg hne, ih hk.2 ho]
      · exact ih hk.2 ho

theorem options_ok {opts : List (PyStr × Int)} {K : Nat} (ht : TableOk opts K) {d : BitOptions} (h : OptionsOk opts K d) :
    ∃ v : Nat, sumOptions opts d = .ok (v : Int) ∧ v < 2 ^ K ∧
      ∃ bits, binaryToIntList v = .ok bits ∧ takeOptions opts bits = d := by
  obtain ⟨⟨on, hflags⟩, hs, ho⟩ := h
  obtain ⟨hk, hb, hr⟩ := ht
  have hfil : (opts.filter fun o => (dictGet d.flags o.1).getD 0 ≠ 0) = opts.filter fun o => on o.1 := by
    refine List.filter_congr fun o ho => ?_
    rw [hflags, dictGet_mapOn hk (fun o => on o.1) ho]
    cases on o.1 <;> simp
  have hnd : (((opts.filter fun o => on o.1).map Prod.snd) ++ d.other).Nodup := by
    rw [List.nodup_append]
    refine ⟨?_, hs.imp fun h => by omega, ?_⟩
    · exact List.Nodup.sublist (List.Sublist.map _ List.filter_sublist) hb
    · intro a ha b hb' he
      subst he
      refine (ho a hb').2.2 ?_
      obtain ⟨y, hy, rfl⟩ := List.mem_map.1 ha
      exact List.mem_map_of_mem (List.mem_filter.1 hy).1
  obtain ⟨v, hv, hbits⟩ := intListToBinary_ok (l := ((opts.filter fun o => on o.1).map Prod.snd) ++ d.other) (by
    intro b hb'
    rcases List.mem_append.1 hb' with hb' | hb'
    · obtain ⟨y, hy, rfl⟩ := List.mem_map.1 hb'
      exact (hr y (List.mem_filter.1 hy).1).1
    · exact (ho b hb').1) hnd
  have hlt : v < 2 ^ K := by
    apply Nat.lt_pow_two_of_testBit
    intro i hi
    rw [hbits i]
    apply decide_eq_false
    intro hc
    rcases List.mem_append.1 hc with hc | hc
    · obtain ⟨y, hy, he⟩ := List.mem_map.1 hc
      have := (hr y (List.mem_filter.1 hy).1).2
      omega
    · have := (ho _ hc).2.1
      omega
  refine ⟨v, ?_, hlt, _, binaryToIntList_ok v 0, ?_⟩
  · rw [sumOptions, hfil, hv]
  · have hmem : ∀ b : Int, 0 ≤ b → (b ∈ bitList (v.log2 + 1) v 0 ↔ b ∈ ((opts.filter fun o => on o.1).map Prod.snd) ++ d.other) := by
      intro b hb0
      rw [mem_bitList Nat.lt_log2_self]
      constructor
      · rintro ⟨j, hj, rfl⟩
        rw [hbits j] at hj
        simpa using hj
      · intro hm
        refine ⟨b.toNat, ?_, by omega⟩
        rw [hbits, decide_eq_true_eq, Int.toNat_of_nonneg hb0]; exact hm
    rw [takeOptions_eq ⟨hk, hb, hr⟩]
    obtain ⟨flags, other⟩ := d
    simp only at hflags hs ho hmem ⊢
    rw [BitOptions.mk.injEq]
    constructor
    · rw [hflags]
      congr 1
      refine List.filter_congr fun o hoo => ?_
      rw [Bool.eq_iff_iff, decide_eq_true_eq, hmem _ (hr o hoo).1, List.mem_append, List.mem_map]
      constructor
      · rintro (⟨y, hy, he⟩ | hm)
        · have hy' := List.mem_filter.1 hy
          have : y = o := by
            exact nodup_map_inj hb hy'.1 hoo he
          exact this ▸ hy'.2
        · exact absurd (List.mem_map_of_mem hoo) (ho _ hm).2.2
      · intro hon
        exact .inl ⟨o, List.mem_filter.2 ⟨hoo, hon⟩, rfl⟩
    · refine sorted_ext (List.Pairwise.filter _ (bitList_sorted _ _ _)) hs fun b => ?_
      rw [List.mem_filter, decide_eq_true_eq]
      constructor
      · rintro ⟨h1, h2⟩
        obtain ⟨j, _, rfl⟩ := (mem_bitList Nat.lt_log2_self).1 h1
        rcases List.mem_append.1 ((hmem _ (by omega)).1 h1) with hm | hm
        · refine absurd ?_ h2
          obtain ⟨y, hy, he⟩ := List.mem_map.1 hm
          exact he ▸ List.mem_map_of_mem (List.mem_filter.1 hy).1
        · exact hm
      · intro hm
        exact ⟨(hmem b (ho b hm).1).2 (List.mem_append_right _ hm), (ho b hm).2.2⟩

theorem options_parsed {opts : List (PyStr × Int)} {K : Nat} (ht : TableOk opts K) {v : Nat} (hv : v < 2 ^ K) {bits : List Int}
    (hb : binaryToIntList v = .ok bits) : OptionsOk opts K (takeOptions opts bits) := by
  obtain ⟨l, h1, h2, h3, _⟩ := bits_of_nat hv
  rw [h1] at hb; cases hb
  rw [takeOptions_eq ht]
  refine ⟨⟨fun k => (opts.any fun o => o.1 == k && decide (o.2 ∈ bits)), ?_⟩, h2.filter _, ?_⟩
  · simp only
    congr 1
    refine List.filter_congr fun o ho => ?_
    rw [Bool.eq_iff_iff, decide_eq_true_eq, List.any_eq_true]
    constructor
    · intro hm
      exact ⟨o, ho, by simp [hm]⟩
    · rintro ⟨y, hy, he⟩
      rw [Bool.and_eq_true, beq_iff_eq, decide_eq_true_eq] at he
      have : y = o := by
        exact nodup_map_inj ht.1 hy ho he.1
      exact this ▸ he.2
  · intro b hb
    obtain ⟨h4, h5⟩ := List.mem_filter.1 hb
    exact ⟨(h3 b h4).1, (h3 b h4).2, by simpa using h5⟩

theorem psGlobal_table : TableOk psGlobalOptions 16 := by
  unfold TableOk; decide
theorem psGlyph_table : TableOk psGlyphOptions 32 := by
  unfold TableOk; decide

/-- **C32** Global hinting options round-trip. -/
theorem C32_global_options_roundtrip (d : BitOptions) (h : OptionsOk psGlobalOptions 16 d) :
    RoundTrips compilePSGlobalOptions parsePSGlobalOptions d := by
  obtain ⟨v, h1, h2, bits, h3, h4⟩ := options_ok psGlobal_table h
  refine roundTrips_of_enc ?_
  unfold compilePSGlobalOptions parsePSGlobalOptions
  rw [h1, W.withVal_ok]
  refine Enc.last (enc_u16 (v := (v : Int)) (by omega)) ?_
  rw [h3, ← h4]; rfl

/-- **C32** Glyph hinting options round-trip. -/
theorem C32_glyph_options_roundtrip (d : BitOptions) (h : OptionsOk psGlyphOptions 32 d) :
    RoundTrips compilePSGlyphOptions parsePSGlyphOptions d := by
  obtain ⟨v, h1, h2, bits, h3, h4⟩ := options_ok psGlyph_table h
  refine roundTrips_of_enc ?_
  unfold compilePSGlyphOptions parsePSGlyphOptions
  rw [h1, W.withVal_ok]
  refine Enc.last (enc_u32 (v := (v : Int)) (by omega)) ?_
  rw [h3, ← h4]; rfl

/-- **C32** Parsed hinting options can always be compiled and parsed again. -/
theorem C32_options_stable : Stable compilePSGlobalOptions parsePSGlobalOptions ∧
    Stable compilePSGlyphOptions parsePSGlyphOptions := by
  constructor
  · refine stable_of_post (P := fun _ d => OptionsOk psGlobalOptions 16 d) (fun N => ?_) fun _ d _ h => C32_global_options_roundtrip d h
    refine Post.bind post_u16 fun v hv => Post.bind (Post.lift fun bits hb => ?_) fun bits hb => Post.pure hb
    obtain ⟨n, rfl⟩ := Int.eq_ofNat_of_zero_le hv.1
    exact options_parsed psGlobal_table (v := n) (by omega) hb
  · refine stable_of_post (P := fun _ d => OptionsOk psGlyphOptions 32 d) (fun N => ?_) fun _ d _ h => C32_glyph_options_roundtrip d h
    refine Post.bind post_u32 fun v hv => Post.bind (Post.lift fun bits hb => ?_) fun bits hb => Post.pure hb
    obtain ⟨n, rfl⟩ := Int.eq_ofNat_of_zero_le hv.1
    exact options_parsed psGlyph_table (v := n) (by omega) hb

/-- **C32** (finding) naming an option and listing its bit under "other" as well adds the bit twice, so that
a different option is stored. -/
theorem C32_options_double_bit :
    CompilesTo compilePSGlobalOptions parsePSGlobalOptions ⟨[(lit "generate_flex", 1)], [0]⟩ ⟨[], [1]⟩ :=
  ⟨[2, 0], by decide, by decide⟩

example : OptionsOk psGlyphOptions 32 ⟨[(lit "hint_replacement", 1), (lit "vertical_3_stem", 1)], [0, 5]⟩ :=
  ⟨⟨fun k => k != lit "horizontal_3_stem", by decide⟩, by decide, by decide⟩

example : PSInfoOk ⟨List.replicate 6 ⟨0⟩, -1, List.replicate 14 5, List.replicate 10 0, List.replicate 14 (-3),
    List.replicate 10 0, ⟨7⟩, 7, 1, 50, 80, List.replicate 12 9, List.replicate 12 10, ⟨-100, -200, 1000, 900⟩,
    1, 2, 3, 700, -250, 500, 700⟩ := by
  constructor <;> decide

/-! ## C33 -/

theorem enc_padded {s : PyStr} {n : Nat} (hl : s.length ≤ n) (h : ∀ c ∈ s, (cp1252Encode c).isSome = true) :
    Enc (writeStr (some s) n) (readStr n) (padNul n s) := by
  obtain ⟨enc, henc⟩ := (is1252_isSome s).2 h
  have hlen := encode1252_length henc
  have hpad : encode1252 (padNul n s) = .ok (enc ++ List.replicate (n - s.length) 0) := by
    have hr : ∀ k, encode1252 (List.replicate k 0) = .ok (List.replicate k 0) := by
      intro k
      unfold encode1252 encodeWith
      have : List.mapM cp1252Encode (List.replicate k 0) = some (List.replicate k 0) := by
        induction k with
        | zero => rfl
        | succ k ih => rw [List.replicate_succ, List.mapM_cons, ih]; rfl
      rw [this]
    have happ : ∀ (a b : PyStr) (x y : Bytes), encode1252 a = .ok x → encode1252 b = .ok y → encode1252 (a ++ b) = .ok (x ++ y) := by
      intro a b x y ha hb
      unfold encode1252 encodeWith at *
      rw [List.mapM_append]
      cases h1 : List.mapM cp1252Encode a with
      | none => rw [h1] at ha; cases ha
      | some a' =>
        cases h2 : List.mapM cp1252Encode b with
        | none => rw [h2] at hb; cases hb
        | some b' =>
          rw [h1] at ha; rw [h2] at hb
          cases ha; cases hb; rfl
    exact happ _ _ _ _ henc (hr _)
  have hw : writeStr (some s) n = .ok (enc ++ List.replicate (n - s.length) 0) := by
    unfold writeStr
    simp only [Option.getD_some, henc, W.withVal_ok]
    split
    · rw [hlen]
    · next hge => rw [show n - s.length = 0 by omega]; simp
  have := enc_readStr hpad (n := n) (by
    rw [List.length_append, List.length_replicate, hlen]; omega)
  rw [hw]
  exact this

theorem padNul_length {n : Nat} {s : PyStr} (h : s.length ≤ n) : (padNul n s).length = n := by
  simp [padNul]; omega

theorem padNul_full {n : Nat} {s : PyStr} (h : s.length = n) : padNul n s = s := by
  simp [padNul, h]

theorem enc_pclt {d : Pclt} (h : PcltFits d) :
    Enc (compilePclt d) parsePclt { d with typeface := padNul 16 d.typeface, file_name := padNul 6 d.file_name } := by
  obtain ⟨h1, h2, h3, h4, h5, h6, h7, h8⟩ := h
  unfold compilePclt parsePclt
  simp only [W.seq_assoc]
  refine Enc.bind (enc_value (valOk_false.2 h1)) ?_
  refine Enc.bind (enc_value (valOk_iff.2 (h2 _ (by simp)))) ?_
  refine Enc.bind (enc_value (valOk_iff.2 (h2 _ (by simp)))) ?_
  refine Enc.bind (enc_value (valOk_iff.2 (h2 _ (by simp)))) ?_
  refine Enc.bind (enc_value (valOk_iff.2 (h2 _ (by simp)))) ?_
  refine Enc.bind (enc_value (valOk_iff.2 (h2 _ (by simp)))) ?_
  refine Enc.bind (enc_value (valOk_iff.2 (h2 _ (by simp)))) ?_
  refine Enc.bind (enc_padded h3.1 h3.2) ?_
  refine Enc.bind (a := d.character_complement) ?_ ?_
  · rw [← h4.1]; exact Enc.rep fun v hv => enc_u8 (h4.2 v hv)
  refine Enc.bind (enc_padded h5.1 h5.2) ?_
  have hi8 : ∀ {v : Int}, 0 ≤ v ∧ v < 128 → Enc (writeU8 v) readI8 v := by
    intro v hv
    have : writeU8 v = writeI8 v := by
      unfold writeU8 writeI8 toBytesLE
      rw [if_pos (by simp only [inRange]; omega), if_pos (by simp only [inRange]; omega)]
    rw [this]
    exact enc_i8 (by omega)
  refine Enc.bind (hi8 h6) ?_
  refine Enc.bind (hi8 h7) ?_
  exact Enc.last (enc_u8 h8) rfl

/-- **C33** PCLT data round-trips if both strings fill their fields. -/
theorem C33_pclt_roundtrip (d : Pclt) (h : PcltFits d) (ht : d.typeface.length = 16) (hf : d.file_name.length = 6) :
    RoundTrips compilePclt parsePclt d := by
  have := roundTrips_of_enc (c := fun _ : Pclt => compilePclt d) (enc_pclt h)
  rw [padNul_full ht, padNul_full hf] at this
  exact this

/-- **C33** Shorter strings come back filled with NUL characters; everything else is unchanged. -/
theorem C33_pclt_padding (d : Pclt) (h : PcltFits d) :
    CompilesTo compilePclt parsePclt d { d with typeface := padNul 16 d.typeface, file_name := padNul 6 d.file_name } :=
  parseEntry_of_encAll (enc_pclt h).all

theorem post_readStr_len {N n : Nat} (hn : 0 < n) : Post N (readStr n) fun s => Is1252 s ∧ s.length ≤ n := by
  refine Post.ite (fun h => by omega) fun _ => ?_
  intro s a r hN h
  obtain ⟨b, r1, h1, h2⟩ := R.bind_eq_ok.1 h
  have hb := Post.readN (N := N) n s b r1 hN h1
  cases h1
  cases hd : decode1252 (s.take n) with
  | error e => simp only [Int.toNat_natCast, hd] at h2; cases h2
  | ok t =>
    simp only [Int.toNat_natCast, hd] at h2
    cases h2
    refine ⟨strN_of_decode (N := n) (by simp [Nat.min_le_left]) hd, hb.2⟩

theorem post_pclt' (N : Nat) : Post N parsePclt fun d => (0 ≤ d.stroke_weight → 0 ≤ d.width_type → PcltFits d) := by
  unfold parsePclt
  refine Post.bind (post_value false) fun _ h1 => ?_
  refine Post.bind (post_value true) fun _ h2 => ?_
  refine Post.bind (post_value true) fun _ h3 => ?_
  refine Post.bind (post_value true) fun _ h4 => ?_
  refine Post.bind (post_value true) fun _ h5 => ?_
  refine Post.bind (post_value true) fun _ h6 => ?_
  refine Post.bind (post_value true) fun _ h7 => ?_
  refine Post.bind (post_readStr_len (n := 16) (by decide)) fun _ h8 => ?_
  refine Post.bind (Post.rep post_u8 8) fun _ h9 => ?_
  refine Post.bind (post_readStr_len (n := 6) (by decide)) fun _ h10 => ?_
  refine Post.bind post_i8 fun _ h11 => ?_
  refine Post.bind post_i8 fun _ h12 => ?_
  refine Post.bind post_u8 fun _ h13 => Post.pure ?_
  intro e3 e4
  simp only at e3 e4
  refine ⟨valOk_false.1 h1, ?_, ⟨h8.2, (is1252_isSome _).1 h8.1⟩, h9, ⟨h10.2, (is1252_isSome _).1 h10.1⟩,
    ⟨e3, h11.2⟩, ⟨e4, h12.2⟩, h13⟩
  intro v hv
  simp only [List.mem_cons, List.not_mem_nil, or_false] at hv
  rcases hv with rfl | rfl | rfl | rfl | rfl | rfl <;> exact valOk_iff.1 ‹_›

/-- **C33** Parsed PCLT data can be compiled and parsed again if the payload was not truncated within the
strings and neither the stroke weight nor the width type is negative. -/
theorem C33_pclt_stable_when :
    StableWhen compilePclt parsePclt (fun d => d.typeface.length = 16 ∧ d.file_name.length = 6 ∧
      0 ≤ d.stroke_weight ∧ 0 ≤ d.width_type) :=
  stableWhen_of_post post_pclt' fun _ d _ h hc =>
    C33_pclt_roundtrip d (h hc.2.2.1 hc.2.2.2) hc.1 hc.2.1

/-- **C33** (finding) a negative stroke weight or width type, although read, cannot be compiled -/
theorem C33_pclt_negative_rejected (d : Pclt) (h : d.stroke_weight < 0 ∨ d.width_type < 0) : Rejected compilePclt d := by
  match hc : compilePclt d with
  | .error e => exact ⟨e, hc⟩
  | .ok z =>
    exfalso
    obtain ⟨_, _, hc, _, _⟩ := W.seq_eq_ok.1 hc
    obtain ⟨_, _, hc, h2, _⟩ := W.seq_eq_ok.1 hc
    obtain ⟨_, _, _, h1, _⟩ := W.seq_eq_ok.1 hc
    rcases h with h | h
    · rw [writeU8, toBytesLE_err (by simp only [inRange]; omega)] at h1; cases h1
    · rw [writeU8, toBytesLE_err (by simp only [inRange]; omega)] at h2; cases h2

/-- a stored PCLT table with a negative stroke weight is read -/
theorem C33_pclt_negative_read :
    ∃ payload d, parseEntry parsePclt payload = .ok d ∧ d.stroke_weight < 0 :=
  ⟨List.replicate 7 0x8B ++ List.replicate 16 65 ++ List.replicate 8 0 ++ List.replicate 6 66 ++ [0xFD, 0, 0],
   ⟨0, 0, 0, 0, 0, 0, 0, List.replicate 16 65, List.replicate 8 0, List.replicate 6 66, -3, 0, 0⟩,
   by decide +kernel, by decide⟩

example : PcltFits ⟨0, 600, 500, 0, 0, 700, 0, lit "Plex", List.replicate 8 255, lit "PLX", 3, 5, 64⟩ := by
  constructor <;> decide

/-- which bit the option `key` stands for: set exactly if the key is recorded as 1 -/
def OptionBit (d : BitOptions) (n : Nat) (key : PyStr) (bit : Nat) : Prop := dictGet d.flags key = some 1 ↔ n.testBit bit = true

theorem takeOptions_bits {opts : List (PyStr × Int)} {K : Nat} (ht : TableOk opts K) {n : Nat} (hn : n < 2 ^ K) {bits : List Int}
    (hb : binaryToIntList n = .ok bits) :
    (∀ (key : PyStr) (bit : Nat), (key, (bit : Int)) ∈ opts → OptionBit (takeOptions opts bits) n key bit) ∧
    ∀ j : Int, j ∈ (takeOptions opts bits).other ↔ (0 ≤ j ∧ n.testBit j.toNat = true ∧ j ∉ opts.map Prod.snd) := by
  rw [binaryToIntList_ok] at hb
  cases hb
  rw [takeOptions_eq ht]
  constructor
  · intro key bit hm
    unfold OptionBit
    have hmem : (bit : Int) ∈ bitList (n.log2 + 1) n 0 ↔ n.testBit bit = true := by
      rw [mem_bitList Nat.lt_log2_self]
      constructor
      · rintro ⟨j, hj, he⟩
        have : j = bit := by omega
        exact this ▸ hj
      · intro h; exact ⟨bit, h, by omega⟩
    rw [← hmem]
    have hok : DictOk ((opts.filter fun o => decide (o.2 ∈ bitList (n.log2 + 1) n 0)).map fun o => (o.1, (1 : Int))) := by
      unfold DictOk
      rw [List.map_map]
      exact List.Nodup.sublist (List.Sublist.map _ List.filter_sublist) ht.1
    simp only
    rw [dictGet_iff hok, List.mem_map]
    constructor
    · rintro ⟨o, ho, he⟩
      have ho' := List.mem_filter.1 ho
      have hk : o.1 = key := (Prod.mk.injEq _ _ _ _ ▸ he).1
      have : o = (key, (bit : Int)) := nodup_map_inj ht.1 ho'.1 hm hk
      have h3 := ho'.2
      rw [this] at h3
      simpa using h3
    · intro h
      exact ⟨(key, bit), List.mem_filter.2 ⟨hm, by simpa using h⟩, rfl⟩
  · intro j
    simp only [List.mem_filter, decide_eq_true_eq]
    rw [mem_bitList Nat.lt_log2_self]
    constructor
    · rintro ⟨⟨i, hi, rfl⟩, h⟩
      exact ⟨by omega, by simpa using hi, h⟩
    · rintro ⟨h0, h1, h2⟩
      exact ⟨⟨j.toNat, h1, by omega⟩, h2⟩

/-- **C32** What the bits of the glyph hinting options mean: 29 is `hint_replacement`, 30 `horizontal_3_stem`, 31
`vertical_3_stem`, all others are listed by number. -/
theorem C32_glyph_option_bits (n : Nat) (hn : n < 2 ^ 32) :
    ∃ b d, writeU32 n = .ok b ∧ parseEntry parsePSGlyphOptions b = .ok d ∧
      OptionBit d n (lit "hint_replacement") 29 ∧ OptionBit d n (lit "horizontal_3_stem") 30 ∧ OptionBit d n (lit "vertical_3_stem") 31 ∧
      ∀ j : Int, j ∈ d.other ↔ (0 ≤ j ∧ n.testBit j.toNat = true ∧ j ∉ [(29 : Int), 30, 31]) := by
  have he : Enc (writeU32 n) parsePSGlyphOptions (takeOptions psGlyphOptions (bitList (n.log2 + 1) n 0)) := by
    unfold parsePSGlyphOptions
    refine Enc.last (enc_u32 (v := (n : Int)) (by omega)) ?_
    rw [binaryToIntList_ok]; rfl
  obtain ⟨b, h1, h2⟩ := he.all
  obtain ⟨h3, h4⟩ := takeOptions_bits psGlyph_table hn (binaryToIntList_ok n 0)
  exact ⟨b, _, h1, parseEntry_ok.2 h2, h3 _ 29 (by decide), h3 _ 30 (by decide), h3 _ 31 (by decide), h4⟩

/-- **C32** What the bits of the global hinting options mean: 0 is `generate_flex`. -/
theorem C32_global_option_bits (n : Nat) (hn : n < 2 ^ 16) :
    ∃ b d, writeU16 n = .ok b ∧ parseEntry parsePSGlobalOptions b = .ok d ∧
      OptionBit d n (lit "generate_flex") 0 ∧
      ∀ j : Int, j ∈ d.other ↔ (0 ≤ j ∧ n.testBit j.toNat = true ∧ j ∉ [(0 : Int)]) := by
  have he : Enc (writeU16 n) parsePSGlobalOptions (takeOptions psGlobalOptions (bitList (n.log2 + 1) n 0)) := by
    unfold parsePSGlobalOptions
    refine Enc.last (enc_u16 (v := (n : Int)) (by omega)) ?_
    rw [binaryToIntList_ok]; rfl
  obtain ⟨b, h1, h2⟩ := he.all
  obtain ⟨h3, h4⟩ := takeOptions_bits psGlobal_table hn (binaryToIntList_ok n 0)
  exact ⟨b, _, h1, parseEntry_ok.2 h2, h3 _ 0 (by decide), h4⟩

end Verif.Props
