import Verif.Lemmas.Base
import Verif.Lemmas.Float
import Verif.Spec.Options
/-! C34: export options and font options. -/
set_option autoImplicit false
namespace Verif.Props
open Verif Verif.Spec

/-! ## export options -/

theorem exportBits_ok {l : List Int} (h : ∀ b ∈ l, 0 ≤ b ∧ b < 3) :
    exportOptionBits (l.map exportOptionOf) = .ok l := by
  induction l with
  | nil => rfl
  | cons b l ih =>
    have hb := h b List.mem_cons_self
    have ih := ih fun x hx => h x (List.mem_cons_of_mem _ hx)
    have : b = 0 ∨ b = 1 ∨ b = 2 := by omega
    have key : ∀ b : Int, b = 0 ∨ b = 1 ∨ b = 2 → ∃ s, exportOptionOf b = .name s ∧ revGet exportOptionNames s = some b := by
      intro b hb
      rcases hb with rfl | rfl | rfl
      · exact ⟨lit "use_custom_opentype_export_options", by decide, by decide⟩
      · exact ⟨lit "use_default_opentype_export_options", by decide, by decide⟩
      · exact ⟨lit "use_custom_cmap_encoding", by decide, by decide⟩
    obtain ⟨s, h1, h2⟩ := key b this
    rw [List.map_cons, h1, exportOptionBits, h2, ih]

theorem exportOptions_of_bits {l : List Int} (hs : l.Pairwise (· < ·)) (h : ∀ b ∈ l, 0 ≤ b ∧ b < 3) :
    RoundTrips compileExportOptions parseExportOptions (l.map exportOptionOf) := by
  obtain ⟨v, h1, h2, h3⟩ := bits_of_sorted (K := 3) hs (by simpa using h)
  refine roundTrips_of_enc ?_
  unfold compileExportOptions parseExportOptions
  rw [exportBits_ok h, W.withVal_ok, h1, W.withVal_ok]
  refine Enc.last (enc_u16 (by omega)) ?_
  rw [h3.1]; rfl

theorem exportOptionOf_name {b : Int} {s : PyStr} (h : exportOptionOf b = .name s) :
    (0 ≤ b ∧ b < 3) ∧ (b, s) ∈ exportOptionNames := by
  unfold exportOptionOf at h
  have key : ∀ (d : List (Int × PyStr)) (b : Int) (s : PyStr), dictGet d b = some s → (b, s) ∈ d := by
    intro d
    induction d with
    | nil => intro b s h; cases h
    | cons x d ih =>
      intro b s h
      obtain ⟨k, v⟩ := x
      rw [dictGet] at h
      split at h
      · next e => cases h; subst e; exact List.mem_cons_self
      · exact List.mem_cons_of_mem _ (ih _ _ h)
  cases hd : dictGet exportOptionNames b with
  | none => rw [hd] at h; cases h
  | some s' =>
    rw [hd] at h; cases h
    have hm := key _ _ _ hd
    refine ⟨?_, hm⟩
    have : ∀ p ∈ exportOptionNames, 0 ≤ p.1 ∧ p.1 < 3 := by decide
    exact this _ hm

/-- **C34** A selection of the documented export options, in the order of their bits, round-trips. -/
theorem C34_export_options_roundtrip (l : List PyStr) (h : l.Sublist exportNames) :
    RoundTrips compileExportOptions parseExportOptions (l.map .name) := by
  obtain ⟨l', hl', rfl⟩ := List.sublist_map_iff.1 h
  have h1 : ∀ p ∈ exportOptionNames, exportOptionOf p.1 = .name p.2 ∧ 0 ≤ p.1 ∧ p.1 < 3 := by decide
  have h2 : (exportOptionNames.map Prod.fst).Pairwise (· < ·) := by decide
  have := exportOptions_of_bits (l := l'.map Prod.fst) (h2.sublist (hl'.map _)) (by
    intro b hb
    obtain ⟨p, hp, rfl⟩ := List.mem_map.1 hb
    exact (h1 p (hl'.subset hp)).2)
  rw [List.map_map] at this ⊢
  rw [show List.map (exportOptionOf ∘ Prod.fst) l' = l'.map (ExportOption.name ∘ Prod.snd) from
    List.map_congr_left fun p hp => (h1 p (hl'.subset hp)).1] at this
  exact this

example : RoundTrips compileExportOptions parseExportOptions
    ([lit "use_custom_opentype_export_options", lit "use_custom_cmap_encoding"].map .name) :=
  C34_export_options_roundtrip _ (by decide)

/-- **C34** Whatever was parsed and has no unknown bit set can be compiled and parsed again … -/
theorem C34_export_options_stable : StableWhen compileExportOptions parseExportOptions
    fun l => ∀ o ∈ l, ∃ s, o = .name s := by
  intro payload l hlen h hc
  rw [parseEntry_ok] at h
  unfold parseExportOptions at h
  obtain ⟨v, r, h1, h⟩ := R.bind_eq_ok.1 h
  obtain ⟨bits, r2, h2, h⟩ := R.bind_eq_ok.1 h
  have hv := (post_u16 (N := payload.length) _ _ _ (Nat.le_refl _) h1).1
  cases h
  obtain ⟨n, rfl⟩ : ∃ n : Nat, v = n := ⟨v.toNat, by omega⟩
  obtain ⟨K, hK⟩ : ∃ K, n < 2 ^ K := ⟨n, Nat.lt_two_pow_self⟩
  have hb := bits_of_nat hK
  obtain ⟨bits', hb1, hb2, hb3, _⟩ := hb
  rw [hb1] at h2
  cases h2
  refine exportOptions_of_bits hb2 fun b hb => ?_
  obtain ⟨s, hs⟩ := hc _ (List.mem_map_of_mem hb)
  exact (exportOptionOf_name hs).1

/-- **C34** … but an unknown bit is listed as a number, and such a list cannot be compiled any more. -/
theorem C34_export_options_unknown (l : List ExportOption) (h : ∃ b, .bit b ∈ l) :
    Rejected compileExportOptions l := by
  obtain ⟨b, h⟩ := h
  have : ∃ e, exportOptionBits l = .error e := by
    induction l with
    | nil => cases h
    | cons o l ih =>
      cases o with
      | bit b' => exact ⟨.key, rfl⟩
      | name s =>
        rcases List.mem_cons.1 h with h | h
        · cases h
        · obtain ⟨e, he⟩ := ih h
          rw [exportOptionBits]
          cases revGet exportOptionNames s with
          | none => exact ⟨_, rfl⟩
          | some b => rw [he]; exact ⟨_, rfl⟩
  obtain ⟨e, he⟩ := this
  exact ⟨e, by unfold compileExportOptions; rw [he]; rfl⟩

/-- such payloads exist: bit 3 -/
example : parseEntry parseExportOptions [8, 0] = .ok [.bit 3] := by decide

/-! ## font options -/

theorem fontOption_table : ∀ p ∈ fontOptionNames,
    revGet fontOptionNames p.2 = some p.1 ∧ dictGet fontOptionNames p.1 = some p.2 ∧ (0 ≤ p.1 ∧ p.1 < 256) ∧ p.1 ≠ 0x64 := by
  decide +kernel

theorem readValue_suffix {sg : Bool} {s r : Bytes} {v : Int} (h : readValue sg s = .ok v r) : ∃ pre, s = pre ++ r := by
  cases s with
  | nil => rw [readValue_nil] at h; cases h
  | cons b s =>
    rw [readValue_cons] at h
    repeat' split at h
    all_goals cases h
    · exact ⟨[b], rfl⟩
    all_goals first
      | exact ⟨b :: s.take 1, by rw [List.cons_append, List.take_append_drop 1 s]⟩
      | exact ⟨b :: s.take 4, by rw [List.cons_append, List.take_append_drop 4 s]⟩

theorem keyValuesBody_consuming (e : Int) : Consuming (keyValuesBody e) := by
  intro st s st' r h
  unfold keyValuesBody at h
  obtain ⟨key, r1, h1, h⟩ := R.bind_eq_ok.1 h
  have hl := readInt_consume h1
  rw [R.ite_run] at h
  split at h
  · cases h
  · obtain ⟨v, r2, h2, h⟩ := R.bind_eq_ok.1 h
    have hl2 := readValue_consume h2
    cases h
    omega

/-- the list of pairs round-trips -/
theorem enc_keyValues (l : List (Int × Int)) (h : ∀ p ∈ l, (0 ≤ p.1 ∧ p.1 < 256) ∧ p.1 ≠ 0x64 ∧ IsInt32 p.2) :
    Enc (W.all l (fun p => writeU8 p.1 ++ writeValue p.2) ++ writeU8 0x64) parseKeyValues l := by
  have key := Enc.whileTrue (body := keyValuesBody 0x64) (keyValuesBody_consuming _)
    (ι := Int × Int) (w := fun p => writeU8 p.1 ++ writeValue p.2)
    (step := fun st p => st ++ [p]) (wEnd := writeU8 0x64) (fin := l) l []
    (by
      intro pre x post he
      obtain ⟨h1, h2, h3⟩ := h x (by rw [he]; simp)
      unfold keyValuesBody
      refine Enc.bind (enc_u8 h1) ?_
      rw [if_neg h2]
      exact Enc.last (enc_value (valOk_iff.2 h3)) rfl)
    (by
      unfold keyValuesBody
      refine Enc.last (enc_u8 (by omega)) ?_
      rw [if_pos rfl]
      have : ∀ (l acc : List (Int × Int)), l.foldl (fun st p => st ++ [p]) acc = acc ++ l := by
        intro l
        induction l with
        | nil => intro acc; simp
        | cons x l ih => intro acc; rw [List.foldl_cons, ih]; simp
      rw [this]; rfl)
  exact key

theorem post_keyValues {N : Nat} : Post N parseKeyValues fun l =>
    ∀ p ∈ l, (0 ≤ p.1 ∧ p.1 < 256) ∧ p.1 ≠ 0x64 ∧ IsInt32 p.2 := by
  refine Post.whileTrue (I := fun l => ∀ p ∈ l, (0 ≤ p.1 ∧ p.1 < 256) ∧ p.1 ≠ 0x64 ∧ IsInt32 p.2) ?_ [] (by simp)
  intro st hst
  unfold keyValuesBody
  refine Post.bind post_u8 fun k hk => ?_
  refine Post.ite (fun _ => Post.pure hst) fun hne => ?_
  refine Post.bind (post_value true) fun v hv => Post.pure ?_
  intro p hp
  rcases List.mem_append.1 hp with hp | hp
  · exact hst p hp
  · rw [List.mem_singleton] at hp; subst hp
    exact ⟨hk, hne, valOk_iff.1 hv⟩

theorem bitOf_switch (v : Int) (i : Nat) : IsSwitch (bitOf v i) := by
  unfold bitOf IsSwitch; omega

theorem autoHint_unpack {p a b c e f g : Int} (hp : 0 ≤ p ∧ p ≤ 7) (ha : IsSwitch a) (hb : IsSwitch b) (hc : IsSwitch c)
    (he : IsSwitch e) (hf : IsSwitch f) (hg : IsSwitch g) :
    autoHintOf (autoHintPacked ⟨p, a, b, c, e, f, g⟩) = ⟨p, a, b, c, e, f, g⟩ := by
  simp only [IsSwitch] at *
  simp only [autoHintOf, autoHintPacked, bitOf, AutoHint.mk.injEq]
  refine ⟨?_, ?_, ?_, ?_, ?_, ?_, ?_⟩ <;> omega

theorem kernFlags_unpack {p a b c e f g : Int} (hp : IsSwitch p) (ha : IsSwitch a) (hb : IsSwitch b) (hc : IsSwitch c)
    (he : IsSwitch e) (hf : IsSwitch f) (hg : IsSwitch g) :
    kernFlagsOf (kernFlagsPacked ⟨p, a, b, c, e, f, g⟩) = ⟨p, a, b, c, e, f, g⟩ := by
  have sw : ∀ {x : Int}, IsSwitch x → 0 ≤ x ∧ x ≤ 1 := by intro x h; simp only [IsSwitch] at h; omega
  replace hp := sw hp
  replace ha := sw ha
  replace hb := sw hb
  replace hc := sw hc
  replace he := sw he
  replace hf := sw hf
  replace hg := sw hg
  simp only [kernFlagsOf, kernFlagsPacked, bitOf, KernFlags.mk.injEq]
  refine ⟨?_, ?_, ?_, ?_, ?_, ?_, ?_⟩ <;> omega

/-- the four names with special values are different -/
theorem specialNames : lit "auto_hinting_h_ratio" ≠ lit "autohinting_options" ∧ lit "auto_hinting_v_ratio" ≠ lit "autohinting_options" ∧
    lit "auto_hinting_h_ratio" ≠ lit "expand_kern_flags" ∧ lit "auto_hinting_v_ratio" ≠ lit "expand_kern_flags" ∧
    lit "autohinting_options" ≠ lit "expand_kern_flags" := by decide

/-- a fitting value is stored as a 32-bit number from which the parser recovers it -/
theorem fontOptRaw_ok {k : PyStr} {v : FontOpt} (h : FontOptFits k v) :
    ∃ n, fontOptRaw k v = .ok n ∧ IsInt32 n ∧ fontOptOf k n = v := by
  obtain ⟨n1, n2, n3, n4, n5⟩ := specialNames
  unfold fontOptRaw fontOptOf FontOptFits at *
  generalize lit "auto_hinting_h_ratio" = kh at *
  generalize lit "auto_hinting_v_ratio" = kv at *
  generalize lit "autohinting_options" = ka at *
  generalize lit "expand_kern_flags" = kk at *
  cases v with
  | int n =>
    obtain ⟨h1, h2⟩ := h
    simp only [List.mem_cons, List.not_mem_nil, or_false, not_or] at h2
    refine ⟨n, ?_, h1, ?_⟩
    · rw [if_neg (by simp [h2.1, h2.2.1]), if_neg h2.2.2.1, if_neg h2.2.2.2]
    · rw [if_neg (by simp [h2.1, h2.2.1]), if_neg h2.2.2.1, if_neg h2.2.2.2]
  | ratio q =>
    obtain ⟨h1, n, hn, rfl⟩ := h
    simp only [List.mem_cons, List.not_mem_nil, or_false] at h1
    refine ⟨n, ?_, hn, ?_⟩
    · rw [if_pos h1]
      simp only
      rw [show fl ((n : Rat) / 10000) = fdiv n 10000 by unfold fdiv; norm_cast]
      rw [round_restores (by omega) hn]
    · rw [if_pos h1]
      rw [show fl ((n : Rat) / 10000) = fdiv n 10000 by unfold fdiv; norm_cast]
  | autohint d =>
    obtain ⟨rfl, hp, hf⟩ := h
    simp only [List.mem_cons, List.not_mem_nil, or_false, forall_eq_or_imp, forall_eq] at hf
    obtain ⟨p, a, b, c, e, f, g⟩ := d
    simp only at hp hf
    obtain ⟨f1, f2, f3, f4, f5, f6⟩ := hf
    refine ⟨autoHintPacked ⟨p, a, b, c, e, f, g⟩, ?_, ?_, ?_⟩
    · rw [if_neg (by rintro (h | h); exacts [n1 h.symm, n2 h.symm]), if_pos rfl]
    · simp only [IsSwitch] at *
      simp only [autoHintPacked, IsInt32]
      omega
    · rw [if_neg (by rintro (h | h); exacts [n1 h.symm, n2 h.symm]), if_pos rfl]
      rw [autoHint_unpack hp f1 f2 f3 f4 f5 f6]
  | kern d =>
    obtain ⟨rfl, hf⟩ := h
    simp only [List.mem_cons, List.not_mem_nil, or_false, forall_eq_or_imp, forall_eq] at hf
    obtain ⟨p, a, b, c, e, f, g⟩ := d
    simp only at hf
    obtain ⟨f0, f1, f2, f3, f4, f5, f6⟩ := hf
    refine ⟨kernFlagsPacked ⟨p, a, b, c, e, f, g⟩, ?_, ?_, ?_⟩
    · rw [if_neg (by rintro (h | h); exacts [n3 h.symm, n4 h.symm]), if_neg (fun h => n5 h.symm), if_pos rfl]
    · simp only [IsSwitch] at *
      simp only [kernFlagsPacked, IsInt32]
      omega
    · rw [if_neg (by rintro (h | h); exacts [n3 h.symm, n4 h.symm]), if_neg (fun h => n5 h.symm), if_pos rfl]
      rw [kernFlags_unpack f0 f1 f2 f3 f4 f5 f6]

/-- what the parser makes of a 32-bit number fits -/
theorem fontOptOf_fits (k : PyStr) {n : Int} (h : IsInt32 n) : FontOptFits k (fontOptOf k n) := by
  unfold fontOptOf
  split
  · next hk =>
    refine ⟨by simpa using hk, n, h, ?_⟩
    unfold fdiv; norm_cast
  · next h1 =>
    split
    · next h2 =>
      refine ⟨h2, ?_, ?_⟩
      · simp only [autoHintOf]; omega
      · intro f hf
        simp only [autoHintOf, List.mem_cons, List.not_mem_nil, or_false] at hf
        rcases hf with rfl | rfl | rfl | rfl | rfl | rfl <;> exact bitOf_switch _ _
    · next h2 =>
      split
      · next h3 =>
        refine ⟨h3, ?_⟩
        intro f hf
        simp only [kernFlagsOf, List.mem_cons, List.not_mem_nil, or_false] at hf
        rcases hf with rfl | rfl | rfl | rfl | rfl | rfl | rfl <;> exact bitOf_switch _ _
      · next h3 =>
        refine ⟨h, ?_⟩
        simp only [List.mem_cons, List.not_mem_nil, or_false, not_or]
        rw [not_or] at h1
        exact ⟨h1.1, h1.2, h2, h3⟩

/-- **C34** Font options under their documented names, with values in range, round-trip: the ratios survive
the scaling by 10000 and rounding, the packed dictionaries every switch. -/
theorem C34_font_options_roundtrip (d : List (PyStr × FontOpt)) (h : FontOptionsFit d) :
    RoundTrips compileFontOptions parseFontOptions d := by
  obtain ⟨hd, hf⟩ := h
  refine roundTrips_of_enc ?_
  -- the stored pairs
  have hraw : ∀ (d : List (PyStr × FontOpt)), (∀ p ∈ d, p.1 ∈ fontOptionNames.map Prod.snd ∧ FontOptFits p.1 p.2) →
      ∃ l : List (Int × Int), W.all d compileFontOpt = W.all l (fun p => writeU8 p.1 ++ writeValue p.2) ∧
        (∀ p ∈ l, (0 ≤ p.1 ∧ p.1 < 256) ∧ p.1 ≠ 0x64 ∧ IsInt32 p.2) ∧
        l.map (fun p => (fontOptName p.1, fontOptOf (fontOptName p.1) p.2)) = d := by
    intro d
    induction d with
    | nil => intro _; exact ⟨[], rfl, by simp, rfl⟩
    | cons p d ih =>
      intro h
      obtain ⟨l, h1, h2, h3⟩ := ih fun x hx => h x (List.mem_cons_of_mem _ hx)
      obtain ⟨hk, hv⟩ := h p List.mem_cons_self
      obtain ⟨q, hq, hqe⟩ := List.mem_map.1 hk
      obtain ⟨t1, t2, t3, t4⟩ := fontOption_table q hq
      obtain ⟨n, r1, r2, r3⟩ := fontOptRaw_ok hv
      rw [hqe] at t1 t2
      have hn : fontOptName q.1 = p.1 := by unfold fontOptName; rw [t2]; rfl
      refine ⟨(q.1, n) :: l, ?_, ?_, ?_⟩
      · rw [W.all_cons, W.all_cons, h1]
        congr 1
        unfold compileFontOpt
        rw [t1]
        simp only
        rw [r1, W.withVal_ok]
      · intro x hx
        rcases List.mem_cons.1 hx with rfl | hx
        · exact ⟨t3, t4, r2⟩
        · exact h2 x hx
      · rw [List.map_cons, h3]
        simp only [hn, r3]
  obtain ⟨l, h1, h2, h3⟩ := hraw d hf
  unfold compileFontOptions parseFontOptions
  rw [h1]
  refine Enc.last (enc_keyValues l h2) ?_
  have hnames : DictOk (l.map fun p => (fontOptName p.1, p.2)) := by
    unfold DictOk at hd ⊢
    rw [← h3] at hd
    rw [List.map_map] at hd ⊢
    exact hd
  have hfold : l.foldl (fun d p => dictSet d (fontOptName p.1) p.2) [] = l.map fun p => (fontOptName p.1, p.2) := by
    have := dictOfList_of_ok hnames
    unfold dictOfList at this
    rw [List.foldl_map] at this
    exact this
  rw [hfold]
  simp only []
  rw [List.map_map]
  rw [show ((fun p : PyStr × Int => (p.1, fontOptOf p.1 p.2)) ∘ fun p : Int × Int => (fontOptName p.1, p.2)) =
    fun p => (fontOptName p.1, fontOptOf (fontOptName p.1) p.2) from rfl, h3]

/-- the hypotheses are met by options of every kind -/
example : FontOptionsFit [(lit "fit_ascender", .int 950), (lit "auto_hinting_h_ratio", .ratio (fl ((3 : Int) / 10000))),
    (lit "autohinting_options", .autohint ⟨7, 1, 0, 1, 0, 0, 1⟩), (lit "expand_kern_flags", .kern ⟨1, 0, 0, 0, 0, 0, 1⟩)] := by
  refine ⟨by decide, ?_⟩
  intro p hp
  simp only [List.mem_cons, List.not_mem_nil, or_false] at hp
  rcases hp with rfl | rfl | rfl | rfl
  · exact ⟨by decide, by decide, by decide⟩
  · exact ⟨by decide, by decide, 3, by decide, rfl⟩
  · exact ⟨by decide, rfl, by decide, by unfold IsSwitch; decide⟩
  · exact ⟨by decide, rfl, by unfold IsSwitch; decide⟩

/-- **C34** Whatever was parsed and has only documented keys can be compiled and parsed again to the same
options … -/
theorem C34_font_options_stable : StableWhen compileFontOptions parseFontOptions
    fun d => ∀ p ∈ d, p.1 ∈ fontOptionNames.map Prod.snd := by
  intro payload d hlen h hc
  rw [parseEntry_ok] at h
  unfold parseFontOptions at h
  obtain ⟨l, r, h1, h⟩ := R.bind_eq_ok.1 h
  have hl := (post_keyValues (N := payload.length) _ _ _ (Nat.le_refl _) h1).1
  cases h
  refine C34_font_options_roundtrip _ ⟨?_, ?_⟩
  · have := dictFold_ok (l.map fun p => (fontOptName p.1, p.2)) [] (by simp [DictOk])
    rw [List.foldl_map] at this
    unfold DictOk at this ⊢
    rw [List.map_map]
    exact this
  · intro p hp
    refine ⟨hc p hp, ?_⟩
    obtain ⟨q, hq, rfl⟩ := List.mem_map.1 hp
    refine fontOptOf_fits _ ?_
    have hq' := dictFold_mem (l := l.map fun p => (fontOptName p.1, p.2)) (acc := []) (x := q) (by
      rw [List.foldl_map]; exact hq)
    rcases hq' with hq' | hq'
    case inr => cases hq'
    · obtain ⟨x, hx, rfl⟩ := List.mem_map.1 hq'
      exact (hl x hx).2.2

/-- **C34** … but an option that is not documented cannot be written. -/
theorem C34_font_options_unknown (d : List (PyStr × FontOpt)) (h : ∃ p ∈ d, p.1 ∉ fontOptionNames.map Prod.snd) :
    Rejected compileFontOptions d := by
  cases hw : compileFontOptions d with
  | error e => exact ⟨e, hw⟩
  | ok z =>
    exfalso
    obtain ⟨p, hp, hn⟩ := h
    unfold compileFontOptions at hw
    obtain ⟨_, _, ha, _, _⟩ := W.seq_eq_ok.1 hw
    obtain ⟨y, hy⟩ := W.all_ok ha p hp
    unfold compileFontOpt at hy
    have : ∀ (t : List (Int × PyStr)), p.1 ∉ t.map Prod.snd → revGet t p.1 = none := by
      intro t
      induction t with
      | nil => intro _; rfl
      | cons x t ih =>
        intro hn
        rw [List.map_cons, List.mem_cons, not_or] at hn
        unfold revGet at ih ⊢
        rw [List.map_cons, dictGet, if_neg (fun e => hn.1 e.symm), ih hn.2]
    rw [this _ hn] at hy
    cases hy

theorem fontOptName_injective {k k' : Int} (h : 0 ≤ k ∧ k < 256) (h' : 0 ≤ k' ∧ k' < 256) (he : fontOptName k = fontOptName k') : k = k' := by
  have hn : ((List.range 256).map fun n : Nat => fontOptName n).Nodup := by decide +kernel
  have := List.inj_on_of_nodup_map hn (List.mem_range.2 (show k.toNat < 256 by omega)) (List.mem_range.2 (show k'.toNat < 256 by omega))
    (by rw [show ((k.toNat : Nat) : Int) = k by omega, show ((k'.toNat : Nat) : Int) = k' by omega]; exact he)
  omega

/-- **C34** Every stored option is reported, in order: a documented one under its name, any other one under its number and with the number that is
stored. -/
theorem C34_font_options_reported (l : List (Int × Int)) (h : ∀ p ∈ l, (0 ≤ p.1 ∧ p.1 < 256) ∧ p.1 ≠ 0x64 ∧ IsInt32 p.2) (hn : (l.map Prod.fst).Nodup) :
    ∃ payload d, W.all l (fun p => writeU8 p.1 ++ writeValue p.2) ++ writeU8 0x64 = .ok payload ∧ parseEntry parseFontOptions payload = .ok d ∧
      List.Forall₂ (fun (p : Int × Int) (x : PyStr × FontOpt) =>
        (∀ name, (p.1, name) ∈ fontOptionNames → x.1 = name) ∧
        (p.1 ∉ fontOptionNames.map Prod.fst → x.1 = intDec p.1 ∧ x.2 = .int p.2)) l d := by
  have henc : Enc (W.all l (fun p => writeU8 p.1 ++ writeValue p.2) ++ writeU8 0x64) parseFontOptions
      (l.map fun p => (fontOptName p.1, fontOptOf (fontOptName p.1) p.2)) := by
    unfold parseFontOptions
    refine Enc.last (enc_keyValues l h) ?_
    have hnames : DictOk (l.map fun p => (fontOptName p.1, p.2)) := by
      unfold DictOk
      rw [List.map_map]
      have : ∀ l : List (Int × Int), (∀ p ∈ l, 0 ≤ p.1 ∧ p.1 < 256) → (l.map Prod.fst).Nodup →
          (l.map (Prod.fst ∘ fun p : Int × Int => (fontOptName p.1, p.2))).Nodup := by
        intro l
        induction l with
        | nil => intro _ _; exact List.nodup_nil
        | cons p l ih =>
          intro hl hd
          rw [List.map_cons, List.nodup_cons] at hd ⊢
          refine ⟨fun hm => hd.1 ?_, ih (fun q hq => hl q (List.mem_cons_of_mem _ hq)) hd.2⟩
          obtain ⟨q, hq, he⟩ := List.mem_map.1 hm
          have := fontOptName_injective (hl q (List.mem_cons_of_mem _ hq)) (hl p List.mem_cons_self) he
          rw [← this]
          exact List.mem_map_of_mem hq
      exact this l (fun p hp => (h p hp).1) hn
    have hfold : l.foldl (fun d p => dictSet d (fontOptName p.1) p.2) [] = l.map fun p => (fontOptName p.1, p.2) := by
      have := dictOfList_of_ok hnames
      unfold dictOfList at this
      rw [List.foldl_map] at this
      exact this
    rw [hfold]
    simp only []
    rw [List.map_map]
    rfl
  obtain ⟨payload, h1, h2⟩ := roundTrips_of_enc (c := fun _ => W.all l (fun p => writeU8 p.1 ++ writeValue p.2) ++ writeU8 0x64) henc
  refine ⟨payload, _, h1, h2, ?_⟩
  rw [List.forall₂_map_right_iff]
  clear h h1 h2 henc hn
  induction l with
  | nil => exact .nil
  | cons p l ih =>
    refine .cons ⟨fun name hm => ?_, fun hm => ?_⟩ ih
    · obtain ⟨-, t, -⟩ := fontOption_table _ hm
      show fontOptName p.1 = name
      unfold fontOptName
      rw [t]
      rfl
    · have hname : fontOptName p.1 = intDec p.1 := by
        have key : ∀ t : List (Int × PyStr), p.1 ∉ t.map Prod.fst → dictGet t p.1 = none := by
          intro t
          induction t with
          | nil => intro _; rfl
          | cons x t ih =>
            intro hn
            rw [List.map_cons, List.mem_cons, not_or] at hn
            rw [dictGet, if_neg (fun e => hn.1 e.symm), ih hn.2]
        unfold fontOptName
        rw [key _ hm]
        rfl
      refine ⟨hname, ?_⟩
      dsimp only
      rw [hname]
      unfold fontOptOf
      have hd : ∀ s : PyStr, s.head? = some 97 ∨ s.head? = some 101 → intDec p.1 ≠ s := by
        rintro s hs rfl
        have hc : ∀ c ∈ intDec p.1, c = 45 ∨ (48 ≤ c ∧ c ≤ 57) := by
          intro c hc
          unfold intDec at hc
          split at hc
          · rcases List.mem_cons.1 hc with h | h
            · exact .inl h
            · exact .inr (natDec_digit _ c h)
          · exact .inr (natDec_digit _ c hc)
        rcases hs with e | e <;> have := hc _ (List.mem_of_mem_head? e) <;> omega
      rw [if_neg, if_neg, if_neg]
      · exact hd _ (.inr rfl)
      · exact hd _ (.inl rfl)
      · rintro (e | e)
        · exact hd _ (.inl rfl) e
        · exact hd _ (.inl rfl) e

/-- The parser does produce such options: key 52 is not documented and is reported as "52". -/
example : parseEntry parseFontOptions [52, 0x8b, 0x64] = .ok [(lit "52", .int 0)] := by decide +kernel

/-- **C34** The undocumented bits of the packed options are lost: two payloads that differ in such a bit
decompile to the same options. -/
theorem C34_autohint_bits_lost (n m : Int) (h : n % 16384 / 8 % 32 = 0) (hm : m = n + 8) :
    fontOptOf (lit "autohinting_options") n = fontOptOf (lit "autohinting_options") m := by
  subst hm
  unfold fontOptOf
  rw [if_neg (by decide), if_pos rfl, if_neg (by decide), if_pos rfl]
  simp only [autoHintOf, bitOf, FontOpt.autohint.injEq, AutoHint.mk.injEq]
  norm_num
  omega

/-- **C34** Font options that do not end with the end marker are refused, not silently truncated: if a
payload is parsed, the marker byte is in it. -/
theorem C34_font_options_marker (payload : Bytes) (d : List (PyStr × FontOpt))
    (h : parseEntry parseFontOptions payload = .ok d) : 0x64 ∈ payload := by
  rw [parseEntry_ok] at h
  unfold parseFontOptions at h
  obtain ⟨l, r, h1, _⟩ := R.bind_eq_ok.1 h
  clear h
  unfold parseKeyValues at h1
  have key : ∀ (n : Nat) (s : Bytes) (acc : List (Int × Int)), s.length = n →
      R.whileTrue (keyValuesBody 0x64) acc s = .ok l r → 0x64 ∈ s := by
    intro n
    induction n using Nat.strongRecOn with
    | ind n ih =>
      intro s acc hs h
      rw [R.whileTrue_step (keyValuesBody_consuming _)] at h
      cases hb : keyValuesBody 0x64 acc s with
      | err e r' => rw [hb] at h; cases h
      | ok x r' =>
        rw [hb] at h
        unfold keyValuesBody at hb
        obtain ⟨k, r1, h1, hb2⟩ := R.bind_eq_ok.1 hb
        clear hb
        cases s with
        | nil =>
          rw [readU8_nil] at h1
          cases h1
          rw [R.ite_run, if_neg (by decide)] at hb2
          obtain ⟨v, r2, h2, hb3⟩ := R.bind_eq_ok.1 hb2
          rw [readValue_nil] at h2
          cases h2
        | cons b s =>
          rw [readU8_cons] at h1
          cases h1
          simp only [R.ite_run] at hb2
          split at hb2
          · next hbe =>
            have : b = 0x64 := by
              have : b.toNat = 100 := by omega
              exact UInt8.toNat_inj.1 this
            rw [this]; exact List.mem_cons_self
          · obtain ⟨v, r2, h2, hb3⟩ := R.bind_eq_ok.1 hb2
            cases hb3
            refine List.mem_cons_of_mem _ ?_
            have hl := readValue_consume h2
            have hm := ih _ (by simp at hs; omega) _ _ rfl h
            have hsuf := readValue_suffix h2
            obtain ⟨pre, hpre⟩ := hsuf
            rw [hpre]
            exact List.mem_append_right _ hm
  exact key _ payload [] rfl h1

end Verif.Props
