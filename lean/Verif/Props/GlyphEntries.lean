import Verif.Props.Mm
import Verif.Spec.GlyphEntries
/-! C44: anchors, origin, Unicodes, links, sketch; C45: GDEF; C46: mask metrics. -/
set_option autoImplicit false
namespace Verif.Props
open Verif Verif.Spec

theorem enc_pair {p : Int × Int} (h : PairFits p) : Enc (writeValue p.1 ++ writeValue p.2) readPair p :=
  Enc.bind (enc_value (valOk_iff.2 h.1)) (Enc.last (enc_value (valOk_iff.2 h.2)) rfl)

theorem post_pair {N : Nat} : Post N readPair PairFits :=
  Post.bind (post_value true) fun _ ha => Post.bind (post_value true) fun _ hb => Post.pure ⟨valOk_iff.1 ha, valOk_iff.1 hb⟩

/-- a list with a count that is written unsigned and read signed -/
theorem enc_countedU {α β : Type} {l : List α} {f : α → W} {g : α → β} {p : R β} (hl : l.length < 2147483648) (sg : Bool)
    (h : ∀ x ∈ l, Enc (f x) p (g x)) : Enc (writeValue l.length false ++ W.all l f) (do
      let num ← readValue sg
      R.forRange num p) (l.map g) :=
  Enc.bind (enc_value_nonneg (by omega) false sg) (Enc.repMap h)

theorem enc_countedU' {α : Type} {l : List α} {f : α → W} {p : R α} (hl : l.length < 2147483648) (sg : Bool)
    (h : ∀ x ∈ l, Enc (f x) p x) : Enc (writeValue l.length false ++ W.all l f) (do
      let num ← readValue sg
      R.forRange num p) l := by
  have := enc_countedU (g := id) hl sg h
  rwa [List.map_id] at this

/-! ## C44: anchors -/

theorem anchor_pairs (a : MMAnchor) (h : a.x.length = a.y.length) :
    (W.all (List.range a.x.length) fun i => writeAt a.x i ++ writeAt a.y i) =
      W.all (a.x.zip a.y) fun p => writeValue p.1 ++ writeValue p.2 := by
  have e := all_range_get (a.x.zip a.y) fun p : Int × Int => writeValue p.1 ++ writeValue p.2
  rw [show (a.x.zip a.y).length = a.x.length by simp [h]] at e
  rw [← e]
  refine W.all_congr fun i hi => ?_
  have hi := List.mem_range.1 hi
  have hx : a.x[i]? = some a.x[i] := List.getElem?_eq_getElem hi
  have hy : a.y[i]? = some (a.y[i]'(h ▸ hi)) := List.getElem?_eq_getElem _
  have hz : (a.x.zip a.y)[i]? = some (a.x[i], a.y[i]'(h ▸ hi)) := List.getElem?_zip_eq_some.2 ⟨hx, hy⟩
  rw [hz]
  unfold writeAt
  rw [hx, hy]

theorem enc_anchor {n : Nat} {a : MMAnchor} (h : a.x.length = n ∧ a.y.length = n ∧ (∀ v ∈ a.x, IsInt32 v) ∧ ∀ v ∈ a.y, IsInt32 v) :
    Enc (writeAnchor n a) (readAnchor n) a := by
  obtain ⟨h1, h2, h3, h4⟩ := h
  subst h1
  unfold writeAnchor readAnchor
  rw [anchor_pairs a h2.symm]
  refine Enc.last (a := a.x.zip a.y) (Enc.forRange (by simp [h2]) fun p hp => enc_pair ?_) ?_
  · have := List.of_mem_zip (a := p.1) (b := p.2) hp
    exact ⟨h3 _ this.1, h4 _ this.2⟩
  · rw [List.map_fst_zip (by omega), List.map_snd_zip (by omega)]

/-- **C44** Anchors with one coordinate pair per master of the font round-trip. -/
theorem C44_anchors (n : Nat) (hn : n < 2147483648) (l : List MMAnchor) (h : AnchorsFit n l) :
    RoundTrips (compileAnchors n) parseAnchors l := by
  refine roundTrips_of_enc ?_
  refine Enc.bind (enc_value_nonneg (by have := h.1; omega) false true) ?_
  refine Enc.bind (enc_value_nonneg (v := n) (by omega) false true) ?_
  exact Enc.forRange rfl fun a ha => enc_anchor (h.2 a ha)

/-- what the anchors parser returns: all anchors have the same number of masters -/
theorem post_anchors {N : Nat} : Post N parseAnchors fun l => ∃ m : Nat, m < 2147483648 ∧ AnchorsFit m l := by
  refine Post.bind (post_value true) fun k hk => Post.bind (post_value true) fun m hm => ?_
  have hk := valOk_iff.1 hk
  have hm := valOk_iff.1 hm
  simp only [IsInt32] at hk hm
  refine Post.mono (Post.forRange (P := fun a => a.x.length = m.toNat ∧ a.y.length = m.toNat ∧ (∀ v ∈ a.x, IsInt32 v) ∧ ∀ v ∈ a.y, IsInt32 v)
    ?_ k) fun l hl => ⟨m.toNat, by omega, by rw [hl.1]; omega, hl.2⟩
  refine Post.bind (Post.forRange post_pair m) fun ps hps => Post.pure ⟨by simp [hps.1], by simp [hps.1], ?_, ?_⟩
  · intro v hv
    obtain ⟨p, hp, rfl⟩ := List.mem_map.1 hv
    exact (hps.2 p hp).1
  · intro v hv
    obtain ⟨p, hp, rfl⟩ := List.mem_map.1 hv
    exact (hps.2 p hp).2

/-- **C44** What was parsed can be compiled and parsed again if the font has as many masters as the anchors. -/
theorem C44_anchors_stable (n : Nat) : StableWhen (compileAnchors n) parseAnchors fun l => n < 2147483648 ∧ ∀ a ∈ l, a.x.length = n :=
  stableWhen_of_post (fun _ => post_anchors) fun _ l _ ⟨m, _, h1, h2⟩ hc => C44_anchors n hc.1 l ⟨h1, fun a ha => by
    have := h2 a ha
    have e : m = n := this.1.symm.trans (hc.2 a ha)
    subst e
    exact this⟩

example : AnchorsFit 2 [⟨[1, 2], [3, 4]⟩, ⟨[-5, 6000], [0, 70000]⟩] := by
  refine ⟨by decide, ?_⟩
  decide

/-- **C44** (limit) An anchor with fewer coordinates than the font has masters cannot be compiled … -/
theorem C44_anchors_missing (n : Nat) (l : List MMAnchor) (h : ∃ a ∈ l, a.x.length < n ∨ a.y.length < n) :
    Rejected (compileAnchors n) l := by
  obtain ⟨a, ha, h⟩ := h
  refine err_right (err_right (rejected_of_all ha ?_))
  rcases h with h | h
  · refine rejected_of_all (x := a.x.length) (List.mem_range.2 h) (err_left ⟨.index, ?_⟩)
    unfold writeAt
    rw [List.getElem?_eq_none (Nat.le_refl _)]
  · refine rejected_of_all (x := a.y.length) (List.mem_range.2 h) (err_right ⟨.index, ?_⟩)
    unfold writeAt
    rw [List.getElem?_eq_none (Nat.le_refl _)]

theorem writeAt_take (l : List Int) (n i : Nat) (h : i < n) : writeAt (l.take n) i = writeAt l i := by
  unfold writeAt
  rw [List.getElem?_take_of_lt h]

/-- **C44** (limit) … and coordinates beyond the number of masters of the font are dropped. -/
theorem C44_anchors_extra (n : Nat) (hn : n < 2147483648) (l : List MMAnchor)
    (h : AnchorsFit n (l.map fun a => ⟨a.x.take n, a.y.take n⟩)) :
    CompilesTo (compileAnchors n) parseAnchors l (l.map fun a => ⟨a.x.take n, a.y.take n⟩) := by
  obtain ⟨b, h1, h2⟩ := C44_anchors n hn _ h
  refine ⟨b, ?_, h2⟩
  rw [← h1]
  unfold compileAnchors
  rw [W.all_map', List.length_map]
  congr 2
  refine W.all_congr fun a _ => W.all_congr fun i hi => ?_
  have := List.mem_range.1 hi
  rw [writeAt_take _ _ _ this, writeAt_take _ _ _ this]

/-- **C44** Anchor properties round-trip: missing properties come back as zero. -/
theorem C44_anchor_props (l : List AnchorProps) (hl : l.length < 2147483648)
    (h : ∀ a ∈ l, IsMixed (a.hue.getD 0) ∧ IsMixed (a.data.getD 0)) :
    CompilesTo compileAnchorsSupp parseAnchorsSupp l (l.map fun a => ⟨some (a.hue.getD 0), some (a.data.getD 0)⟩) :=
  roundTrips_of_all (enc_countedU hl true fun a ha =>
    Enc.bind (enc_value_mixed (h a ha).1 false true) (Enc.last (enc_value_mixed (h a ha).2 false true) rfl))

theorem post_anchorsSupp {N : Nat} : Post N parseAnchorsSupp fun l => l.length < 2147483648 ∧
    ∀ a ∈ l, ∃ h d, a = ⟨some h, some d⟩ ∧ IsInt32 h ∧ IsInt32 d :=
  post_counted (Post.bind (post_value true) fun _ ha => Post.bind (post_value true) fun _ hb =>
    Post.pure ⟨_, _, rfl, valOk_iff.1 ha, valOk_iff.1 hb⟩)

/-- **C44** Parsed anchor properties are stable as long as no number is below -1131 … -/
theorem C44_anchor_props_stable : StableWhen compileAnchorsSupp parseAnchorsSupp
    fun l => ∀ a ∈ l, -1131 ≤ a.hue.getD 0 ∧ -1131 ≤ a.data.getD 0 := by
  refine stableWhen_of_post (fun _ => post_anchorsSupp) fun _ l _ ⟨h1, h2⟩ hc => ?_
  have := C44_anchor_props l h1 fun a ha => by
    obtain ⟨h, d, rfl, hh, hd⟩ := h2 a ha
    have := hc _ ha
    simp only [IsInt32, IsMixed, Option.getD_some] at *
    omega
  rw [show (l.map fun a => (⟨some (a.hue.getD 0), some (a.data.getD 0)⟩ : AnchorProps)) = l from by
    have : ∀ a ∈ l, (⟨some (a.hue.getD 0), some (a.data.getD 0)⟩ : AnchorProps) = id a := by
      intro a ha
      obtain ⟨h, d, rfl, -, -⟩ := h2 a ha
      rfl
    rw [List.map_congr_left this, List.map_id]] at this
  exact this

/-- **C44** (violated) … and anchor properties with a number below -1131, which can be parsed, cannot be compiled: they
are written as unsigned numbers. -/
theorem C44_anchor_props_negative (l : List AnchorProps) (h : ∃ a ∈ l, a.hue.getD 0 < -1131 ∨ a.data.getD 0 < -1131) :
    Rejected compileAnchorsSupp l := by
  obtain ⟨a, ha, h⟩ := h
  have key : ∀ v : Int, v < -1131 → ∃ e, writeValue v false = .error e := by
    intro v hv
    refine ⟨_, writeValue_err (sg := false) ?_⟩
    simp only [ValOk]; omega
  refine err_right (rejected_of_all ha ?_)
  rcases h with h | h
  · exact err_left (key _ h)
  · exact err_right (key _ h)

/-- such a payload exists: hue -2000 -/
example : ∃ b l, parseEntry parseAnchorsSupp b = .ok l ∧ Rejected compileAnchorsSupp l :=
  ⟨[140, 255, 255, 255, 248, 48, 139], [⟨some (-2000), some 0⟩], by decide +kernel,
    C44_anchor_props_negative _ ⟨_, List.mem_cons_self, Or.inl (by decide)⟩⟩

/-! ## C44: origin, Unicodes, links, sketch -/

/-- a signed 16-bit integer -/
theorem enc_origin {p : Int × Int} (h : (-32768 ≤ p.1 ∧ p.1 < 32768) ∧ (-32768 ≤ p.2 ∧ p.2 < 32768)) :
    Enc (writeI16 p.1 ++ writeI16 p.2) (do let x ← readI16; let y ← readI16; pure (x, y)) p :=
  Enc.bind (enc_i16 h.1) (Enc.last (enc_i16 h.2) rfl)

/-- **C44** The origin round-trips if it is 16-bit, … -/
theorem C44_origin (x y : Int) (hx : -32768 ≤ x ∧ x < 32768) (hy : -32768 ≤ y ∧ y < 32768) :
    RoundTrips compileOrigin parseOrigin (x, y) := roundTrips_of_enc (enc_origin (p := (x, y)) ⟨hx, hy⟩)

theorem post_origin {N : Nat} : Post N (do let x ← readI16; let y ← readI16; pure (x, y) : R (Int × Int))
    fun p => (-32768 ≤ p.1 ∧ p.1 < 32768) ∧ (-32768 ≤ p.2 ∧ p.2 < 32768) :=
  Post.bind post_i16 fun _ hx => Post.bind post_i16 fun _ hy => Post.pure ⟨hx, hy⟩

theorem C44_origin_stable : Stable compileOrigin parseOrigin :=
  stable_of_post (fun _ => post_origin) fun _ p _ h => C44_origin p.1 p.2 h.1 h.2

/-- **C44** … and is rejected otherwise. -/
theorem C44_origin_rejected (x y : Int) (h : ¬ (-32768 ≤ x ∧ x < 32768) ∨ ¬ (-32768 ≤ y ∧ y < 32768)) :
    Rejected compileOrigin (x, y) := by
  have key : ∀ v : Int, ¬ (-32768 ≤ v ∧ v < 32768) → ∃ e, writeI16 v = .error e := by
    intro v hv
    refine ⟨.overflow, ?_⟩
    unfold writeI16 toBytesLE
    rw [if_neg]
    simp only [inRange]; omega
  rcases h with h | h
  · exact err_left (key _ h)
  · exact err_right (key _ h)

theorem enc_triple {t : Int × Int × Int} (h : IsInt32 t.1 ∧ IsInt32 t.2.1 ∧ IsInt32 t.2.2) : Enc (writeTriple t) readTriple t :=
  Enc.bind (enc_value (valOk_iff.2 h.1)) (Enc.bind (enc_value (valOk_iff.2 h.2.1)) (Enc.last (enc_value (valOk_iff.2 h.2.2)) rfl))

/-- **C44** Sketches round-trip. -/
theorem C44_sketch (l : List (Int × Int × Int)) (hl : l.length < 4294967296)
    (h : ∀ t ∈ l, IsInt32 t.1 ∧ IsInt32 t.2.1 ∧ IsInt32 t.2.2) : RoundTrips compileSketch parseSketch l :=
  roundTrips_of_enc (Enc.bind (enc_value (valOk_false.2 (by simp only [IsUValue]; omega))) (Enc.forRange rfl fun t ht => enc_triple (h t ht)))

theorem C44_sketch_stable : Stable compileSketch parseSketch := by
  refine stable_of_post (P := fun _ l => l.length < 4294967296 ∧ ∀ t ∈ l, IsInt32 t.1 ∧ IsInt32 t.2.1 ∧ IsInt32 t.2.2)
    (fun N => ?_) fun _ l _ h => C44_sketch l h.1 h.2
  refine Post.bind (post_value false) fun n hn => Post.mono (Post.forRange (P := fun t => IsInt32 t.1 ∧ IsInt32 t.2.1 ∧ IsInt32 t.2.2) ?_ n)
    fun l hl => ⟨by rw [hl.1]; have := valOk_false.1 hn; simp only [IsUValue] at this; omega, hl.2⟩
  exact Post.bind (post_value true) fun _ ha => Post.bind (post_value true) fun _ hb => Post.bind (post_value true) fun _ hc =>
    Post.pure ⟨valOk_iff.1 ha, valOk_iff.1 hb, valOk_iff.1 hc⟩

theorem all_length {α : Type} {l : List α} {f : α → W} {k : Nat} (h : ∀ x ∈ l, ∀ b, f x = .ok b → b.length = k) {b : Bytes}
    (hb : W.all l f = .ok b) : b.length = k * l.length := by
  induction l generalizing b with
  | nil => cases hb; simp
  | cons x l ih =>
    rw [W.all_cons] at hb
    obtain ⟨y, z, hy, hz, rfl⟩ := W.seq_eq_ok.1 hb
    rw [List.length_append, h x (by simp) y hy, ih (fun x hx => h x (by simp [hx])) hz, List.length_cons, Nat.mul_succ]
    omega

theorem toBytesLE_length {k : Nat} {sg : Bool} {v : Int} {b : Bytes} (h : toBytesLE k sg v = .ok b) : b.length = k := by
  unfold toBytesLE at h
  split at h
  · cases h; simp
  · cases h

/-- lists of fixed-width numbers, read to the end of the payload -/
theorem fixed_list {k : Nat} (hk : 0 < k) {sg : Bool} {l : List Int} (h : ∀ v ∈ l, inRange k sg v) :
    ∃ b, W.all l (toBytesLE k sg) = .ok b ∧ parseEntry (fun s => R.rep (s.length / k) (readInt k sg) s) b = .ok l := by
  obtain ⟨b, h1, h2⟩ := Enc.rep (xs := l) (f := toBytesLE k sg) (p := readInt k sg) fun v hv => enc_int (h v hv)
  refine ⟨b, h1, parseEntry_ok.2 ?_⟩
  have hl := all_length (fun v _ b hb => toBytesLE_length hb) h1
  have := h2 []
  rw [List.append_nil] at this
  show R.rep (b.length / k) (readInt k sg) b = _
  rw [hl, Nat.mul_div_cancel_left _ hk]
  exact this

/-- **C44** Unicode lists round-trip, … -/
theorem C44_unicodes (l : List Int) (h : ∀ v ∈ l, 0 ≤ v ∧ v < 65536) : RoundTrips compileUnicodes parseUnicodes l :=
  fixed_list (k := 2) (by omega) fun v hv => by have := h v hv; simp only [inRange]; omega

/-- **C44** … and so do lists of code points beyond the BMP. -/
theorem C44_unicodes_supp (l : List Int) (h : ∀ v ∈ l, 0 ≤ v ∧ v < 4294967296) : RoundTrips compileUnicodesSupp parseUnicodesSupp l :=
  fixed_list (k := 4) (by omega) fun v hv => by have := h v hv; simp only [inRange]; omega

theorem C44_unicodes_stable : Stable compileUnicodes parseUnicodes := by
  intro payload l _ h
  exact C44_unicodes l (parseEntry_post (p := parseUnicodes) (P := fun l => ∀ v ∈ l, 0 ≤ v ∧ v < 65536)
    (fun s a r hN hs => ⟨((Post.rep (N := payload.length) post_u16 _) s a r hN hs).1.2, ((Post.rep post_u16 _) s a r hN hs).2⟩) h)

theorem C44_unicodes_supp_stable : Stable compileUnicodesSupp parseUnicodesSupp := by
  intro payload l _ h
  exact C44_unicodes_supp l (parseEntry_post (p := parseUnicodesSupp) (P := fun l => ∀ v ∈ l, 0 ≤ v ∧ v < 4294967296)
    (fun s a r hN hs => ⟨((Post.rep (N := payload.length) post_u32 _) s a r hN hs).1.2, ((Post.rep post_u32 _) s a r hN hs).2⟩) h)

/-- **C44** A Unicode list that does not fill whole numbers is an error, not cut off. -/
theorem C44_unicodes_odd (b : Bytes) : (b.length % 2 ≠ 0 → parseEntry parseUnicodes b = .error .assertion) ∧
    (b.length % 4 ≠ 0 → parseEntry parseUnicodesSupp b = .error .assertion) := by
  have key : ∀ (k : Nat) (hk : 0 < k) (n : Nat) (b : Bytes), k * n ≤ b.length →
      ∃ l, R.rep n (readInt k false) b = .ok l (b.drop (k * n)) := by
    intro k hk n
    induction n with
    | zero => intro b _; exact ⟨[], by simp [R.rep_zero]⟩
    | succ n ih =>
      intro b hb
      rw [Nat.mul_succ] at hb
      obtain ⟨l, hl⟩ := ih (b.drop k) (by simp; omega)
      refine ⟨fromLE false (b.take k) :: l, ?_⟩
      rw [R.rep_succ]
      have : readInt k false b = .ok (fromLE false (b.take k)) (b.drop k) := by
        unfold readInt
        have : ¬ ((k : Int) < 0) := by omega
        rw [R.bind_of_ok (a := b.take k) (r := b.drop k) (by simp [R.readN, this])]
        rfl
      rw [R.bind_of_ok this, R.bind_of_ok hl, List.drop_drop]
      rw [show k + k * n = k * (n + 1) by rw [Nat.mul_succ]; omega]
      rfl
  have main : ∀ (k : Nat) (hk : 0 < k), b.length % k ≠ 0 → parseEntry (fun s => R.rep (s.length / k) (readInt k false) s) b = .error .assertion := by
    intro k hk hr
    obtain ⟨l, hl⟩ := key k hk (b.length / k) b (Nat.mul_div_le _ _)
    unfold parseEntry
    beta_reduce
    rw [hl]
    cases hd : b.drop (k * (b.length / k)) with
    | cons x xs => rfl
    | nil =>
      exfalso
      have h1 := congrArg List.length hd
      have h2 := Nat.div_add_mod b.length k
      simp at h1
      omega
  exact ⟨main 2 (by omega), main 4 (by omega)⟩

theorem enc_linkDir {l : List (Int × Int)} (hl : l.length < 2147483648) (h : ∀ p ∈ l, PairFits p) : Enc (writeLinkDir l) readLinkDir l :=
  enc_counted hl fun p hp => enc_pair (h p hp)

/-- **C44** Links round-trip. -/
theorem C44_links (d : Links) (hx : d.x.length < 2147483648) (hy : d.y.length < 2147483648) (h : ∀ p ∈ d.x ++ d.y, PairFits p) :
    RoundTrips compileLinks parseLinks d :=
  roundTrips_of_enc (Enc.bind (enc_linkDir hy fun p hp => h p (by simp [hp])) (Enc.last (enc_linkDir hx fun p hp => h p (by simp [hp])) rfl))

theorem C44_links_stable : Stable compileLinks parseLinks := by
  refine stable_of_post (P := fun _ d => (d.x.length < 2147483648 ∧ ∀ p ∈ d.x, PairFits p) ∧ (d.y.length < 2147483648 ∧ ∀ p ∈ d.y, PairFits p))
    (fun N => ?_) fun _ d _ h => C44_links d h.1.1 h.2.1 fun p hp => ?_
  · exact Post.bind (post_counted post_pair) fun _ hy => Post.bind (post_counted post_pair) fun _ hx => Post.pure ⟨hx, hy⟩
  · rcases List.mem_append.1 hp with hp | hp
    · exact h.1.2 p hp
    · exact h.2.2 p hp

example : (∀ p ∈ (⟨[(1, 2)], [(-5, 3000), (4, 4)]⟩ : Links).x ++ (⟨[(1, 2)], [(-5, 3000), (4, 4)]⟩ : Links).y, PairFits p) := by
  unfold PairFits; decide

/-! ## C45 -/

theorem optList_some {α : Type} {P : α → Prop} {l : Option (List α)} (h : OptListFits P l) :
    (l.getD []).length < 2147483648 ∧ (∀ x ∈ l.getD [], P x) ∧ unlessEmpty (l.getD []) = l := by
  cases l with
  | none => simp [unlessEmpty]
  | some xs =>
    obtain ⟨h1, h2, h3⟩ := h xs rfl
    refine ⟨h2, h3, ?_⟩
    unfold unlessEmpty
    simp [h1]

theorem enc_gdefAnchor {a : GdefAnchor} (h : IsInt32 a.x ∧ IsInt32 a.y ∧ IsLatin (a.name.getD []) ∧ (a.name.getD []).length < 2147483648) :
    Enc (writeGdefAnchor a) readGdefAnchor ⟨if a.name.getD [] = [] then none else some (a.name.getD []), a.x, a.y⟩ := by
  obtain ⟨h1, h2, h3, h4⟩ := h
  refine Enc.bind (enc_strWithLen ⟨isLatin_iff.1 h3, h4⟩) ?_
  refine Enc.bind (enc_value (valOk_iff.2 h1)) (Enc.bind (enc_value (valOk_iff.2 (by decide))) ?_)
  exact Enc.bind (enc_value (valOk_iff.2 h2)) (Enc.last (enc_value (valOk_iff.2 (by decide))) rfl)

theorem gdefIndex {c : Option PyStr} (h : ∀ s, c = some s → s ∈ gdefClassNames) :
    ∃ i : Int, gdefClassIndex c = .ok i ∧ (0 ≤ i ∧ i < 5) ∧
      ∃ s, gdefClassAt i = .ok s ∧ (if s = lit "unassigned" then none else some s) = if c = some (lit "unassigned") then none else c := by
  cases c with
  | none => exact ⟨0, rfl, by decide, lit "unassigned", by decide, by decide⟩
  | some s =>
    have key : ∀ s ∈ gdefClassNames, (match gdefClassIndex (some s) with
        | .ok i => decide (0 ≤ i ∧ i < 5) && (match gdefClassAt i with | .ok t => decide (t = s) | _ => false)
        | _ => false) = true := by decide +kernel
    have := key s (h s rfl)
    cases hi : gdefClassIndex (some s) with
    | error e => rw [hi] at this; cases this
    | ok i =>
      rw [hi] at this
      simp only [Bool.and_eq_true, decide_eq_true_eq] at this
      obtain ⟨h1, h2⟩ := this
      cases ht : gdefClassAt i with
      | error e => rw [ht] at h2; cases h2
      | ok t =>
        rw [ht] at h2
        have h2 := of_decide_eq_true h2
        subst h2
        refine ⟨i, rfl, h1, t, ht, ?_⟩
        by_cases e : t = lit "unassigned"
        · simp [e]
        · simp [e]

/-- **C45** GDEF data whose numbers and names can be stored: it comes back with the class `unassigned`, empty lists
and empty anchor names removed. -/
theorem C45_gdef_compile (d : Gdef) (hc : ∀ c, d.glyphClass = some c → c ∈ gdefClassNames)
    (ha : (orEmpty d.anchors).length < 2147483648 ∧ ∀ a ∈ orEmpty d.anchors, IsInt32 a.x ∧ IsInt32 a.y ∧
      IsLatin (a.name.getD []) ∧ (a.name.getD []).length < 2147483648)
    (hk : (orEmpty d.carets).length < 2147483648 ∧ ∀ p ∈ orEmpty d.carets, PairFits p)
    (ho : (orEmpty d.otClasses).length < 2147483648 ∧ ∀ v ∈ orEmpty d.otClasses, IsInt32 v) :
    CompilesTo compileGdef parseGdef d
      ⟨if d.glyphClass = some (lit "unassigned") then none else d.glyphClass,
       unlessEmpty ((orEmpty d.anchors).map fun a => ⟨if a.name.getD [] = [] then none else some (a.name.getD []), a.x, a.y⟩),
       unlessEmpty (orEmpty d.carets), unlessEmpty (orEmpty d.otClasses)⟩ := by
  obtain ⟨i, h1, h2, s, h3, h4⟩ := gdefIndex hc
  refine roundTrips_of_all ?_
  unfold compileGdef
  rw [h1]
  show Enc (_ ++ _) _ _
  refine Enc.bind (enc_value_mixed (v := i) (by omega) false true) ?_
  rw [h3]
  show Enc _ (readValue true >>= _) _
  rw [W.seq_assoc]
  refine Enc.bind (enc_value_nonneg (v := ((orEmpty d.anchors).length : Int)) (by omega) false true) ?_
  refine Enc.bind (Enc.repMap fun a h => enc_gdefAnchor (ha.2 a h)) ?_
  rw [W.seq_assoc]
  refine Enc.bind (enc_value_nonneg (v := ((orEmpty d.carets).length : Int)) (by omega) false true) ?_
  refine Enc.bind (Enc.rep fun p h => enc_pair (hk.2 p h)) ?_
  refine Enc.bind (enc_value_nonneg (v := ((orEmpty d.otClasses).length : Int)) (by omega) false true) ?_
  refine Enc.last (Enc.rep fun v h => enc_value (valOk_iff.2 (ho.2 v h))) ?_
  rw [h4]
  congr 2
  unfold unlessEmpty orEmpty
  cases d.otClasses.getD [] with
  | nil => rfl
  | cons v l =>
    rw [if_pos (by simp only [List.length_cons]; omega)]; rfl

/-- **C45** GDEF data in its stored form round-trips. -/
theorem C45_gdef (d : Gdef) (h : GdefFits d) : RoundTrips compileGdef parseGdef d := by
  obtain ⟨hc, ha, hk, ho⟩ := h
  obtain ⟨a1, a2, a3⟩ := optList_some ha
  obtain ⟨k1, k2, k3⟩ := optList_some hk
  obtain ⟨o1, o2, o3⟩ := optList_some ho
  have hname : ∀ a : GdefAnchor, GdefAnchorFits a → IsLatin (a.name.getD []) ∧ (a.name.getD []).length < 2147483648 ∧
      (if a.name.getD [] = [] then none else some (a.name.getD [])) = a.name := by
    intro a ⟨_, _, h⟩
    cases hn : a.name with
    | none => simp [IsLatin]
    | some s =>
      obtain ⟨n1, n2, n3⟩ := h s hn
      exact ⟨n2, n3, by simp [n1]⟩
  have := C45_gdef_compile d (fun c h => List.mem_cons_of_mem _ (hc c h))
    ⟨a1, fun a h => ⟨(a2 a h).1, (a2 a h).2.1, (hname a (a2 a h)).1, (hname a (a2 a h)).2.1⟩⟩ ⟨k1, k2⟩ ⟨o1, o2⟩
  have e1 : (if d.glyphClass = some (lit "unassigned") then none else d.glyphClass) = d.glyphClass := by
    rw [if_neg]
    intro e
    exact absurd (hc _ e) (by decide)
  have e2 : (orEmpty d.anchors).map (fun a => (⟨if a.name.getD [] = [] then none else some (a.name.getD []), a.x, a.y⟩ : GdefAnchor)) = orEmpty d.anchors := by
    have : ∀ a ∈ orEmpty d.anchors, (⟨if a.name.getD [] = [] then none else some (a.name.getD []), a.x, a.y⟩ : GdefAnchor) = id a := by
      intro a h
      rw [(hname a (a2 a h)).2.2]; rfl
    rw [List.map_congr_left this, List.map_id]
  rw [e1, e2] at this
  unfold orEmpty at this
  rw [a3, k3, o3] at this
  exact this

theorem unlessEmpty_fits {α : Type} {P : α → Prop} {l : List α} (h : l.length < 2147483648 ∧ ∀ x ∈ l, P x) : OptListFits P (unlessEmpty l) := by
  intro xs hxs
  unfold unlessEmpty at hxs
  split at hxs
  · cases hxs
  · rename_i he
    cases hxs
    exact ⟨by simpa using he, h⟩

/-- **C45** Whatever GDEF data is parsed can be compiled and parsed again. -/
theorem C45_gdef_stable : Stable compileGdef parseGdef := by
  refine stable_of_post (P := fun N d => N < 2147483648 → GdefFits d) (fun N => ?_) fun _ d hN h => C45_gdef d (h hN)
  refine Post.bind (post_value true) fun c _ => Post.bind (Post.lift (P := fun s => s ∈ gdefClassNames) fun s hs => ?_) fun s hs => ?_
  · unfold gdefClassAt at hs
    split at hs
    · cases hs
    · split at hs
      · cases hs
        exact List.mem_of_getElem? ‹_›
      · cases hs
  refine Post.bind (post_value true) fun n1 h1 => Post.bind (Post.forRange (P := fun a => N < 2147483648 → GdefAnchorFits a) ?_ n1) fun anchors ha => ?_
  · refine Post.bind post_strWithLen fun name hname => Post.bind (post_value true) fun x hx => Post.bind (post_value true) fun _ _ =>
      Post.bind (post_value true) fun y hy => Post.bind (post_value true) fun _ _ => Post.pure fun hN => ⟨valOk_iff.1 hx, valOk_iff.1 hy, ?_⟩
    intro t ht
    simp only at ht
    split at ht
    · cases ht
    · cases ht
      exact ⟨‹_›, isLatin_iff.2 hname.1, by have := hname.2; omega⟩
  refine Post.bind (post_value true) fun n2 h2 => Post.bind (Post.forRange post_pair n2) fun carets hk => ?_
  refine Post.bind (post_value true) fun n3 h3 => Post.bind (Post.forRange (post_value true) n3) fun ot ho => Post.pure fun hN => ?_
  have h1 := valOk_iff.1 h1
  have h2 := valOk_iff.1 h2
  have h3 := valOk_iff.1 h3
  simp only [IsInt32] at h1 h2 h3
  refine ⟨?_, unlessEmpty_fits ⟨by omega, fun a h => ha.2 a h hN⟩, unlessEmpty_fits ⟨by omega, hk.2⟩, ?_⟩
  · intro c hc
    simp only at hc
    split at hc
    · cases hc
    · cases hc
      have : ∀ s ∈ gdefClassNames, s ≠ lit "unassigned" → s ∈ [lit "base", lit "ligature", lit "mark", lit "component"] := by decide
      exact this _ hs ‹_›
  · intro xs hxs
    simp only at hxs
    split at hxs
    · cases hxs
      refine ⟨?_, by omega, fun v hv => valOk_iff.1 (ho.2 v hv)⟩
      intro e
      rw [e] at ho
      have := ho.1
      simp at this
      omega
    · cases hxs

/-- **C45** An unknown class name is rejected. -/
theorem C45_gdef_unknown_class (d : Gdef) (c : PyStr) (hc : d.glyphClass = some c) (h : c ∉ gdefClassNames) : Rejected compileGdef d := by
  refine ⟨.value, ?_⟩
  unfold compileGdef gdefClassIndex
  rw [hc]
  have : gdefClassNames.findIdx? (· == c) = none := by
    rw [List.findIdx?_eq_none_iff]
    intro x hx
    simp only [beq_eq_false_iff_ne, ne_eq]
    rintro rfl
    exact h hx
  simp only [this]
  rfl

example : GdefFits ⟨some (lit "mark"), some [⟨some (lit "top"), 10, -2000⟩, ⟨none, 5, 5⟩], some [(100, 1)], none⟩ := by
  refine ⟨?_, ?_, ?_, ?_⟩
  · intro c hc; cases hc; decide
  · intro xs hxs; cases hxs
    refine ⟨by decide, by decide, ?_⟩
    intro a ha
    simp only [List.mem_cons, List.not_mem_nil, or_false] at ha
    rcases ha with rfl | rfl
    · exact ⟨by decide, by decide, fun s hs => by cases hs; exact ⟨by decide, by decide, by decide⟩⟩
    · exact ⟨by decide, by decide, fun s hs => by cases hs⟩
  · intro xs hxs; cases hxs
    exact ⟨by decide, by decide, by unfold PairFits; decide⟩
  · intro xs hxs; cases hxs

/-- **C45** (violated) A class number that counts from the end, -1 to -5, is accepted as if it were 4 to 0, and changed to
that number by a compile; other numbers outside 0–4 are an error. -/
theorem C45_gdef_negative_class (i : Int) :
    (0 ≤ i ∧ i < 5 → gdefClassAt i = gdefClassAt (i - 5)) ∧ ((i < -5 ∨ 5 ≤ i) → gdefClassAt i = .error .index) := by
  constructor
  · rintro ⟨h1, h2⟩
    have : i = 0 ∨ i = 1 ∨ i = 2 ∨ i = 3 ∨ i = 4 := by omega
    rcases this with rfl | rfl | rfl | rfl | rfl <;> decide
  · intro h
    unfold gdefClassAt
    rcases h with h | h
    · rw [if_pos h]
    · rw [if_neg (by omega), if_neg (by omega), List.getElem?_eq_none]
      simp only [gdefClassNames, List.length_cons, List.length_nil]; omega

/-! ## C46: mask metrics -/

/-- **C46** Mask metrics of the first master round-trip if they are 16-bit. -/
theorem C46_mask_metrics (x y : Int) (hx : -32768 ≤ x ∧ x < 32768) (hy : -32768 ≤ y ∧ y < 32768) :
    RoundTrips compileMaskMetrics parseMaskMetrics (x, y) := roundTrips_of_enc (enc_origin (p := (x, y)) ⟨hx, hy⟩)

theorem C46_mask_metrics_stable : Stable compileMaskMetrics parseMaskMetrics :=
  stable_of_post (fun _ => post_origin) fun _ p _ h => C46_mask_metrics p.1 p.2 h.1 h.2

/-- **C46** Mask metrics of the other masters round-trip if there is one pair for each of them. -/
theorem C46_mask_metrics_mm (n : Nat) (l : List (Int × Int)) (hl : l.length = n - 1) (h : ∀ p ∈ l, PairFits p) :
    RoundTrips compileMaskMetricsMM (parseMaskMetricsMM n) l := by
  refine roundTrips_of_enc ?_
  unfold parseMaskMetricsMM R.forRange
  rw [show ((n : Int) - 1).toNat = l.length by omega]
  exact Enc.rep fun p hp => enc_pair (h p hp)

theorem C46_mask_metrics_mm_stable (n : Nat) : Stable compileMaskMetricsMM (parseMaskMetricsMM n) :=
  stable_of_post (fun _ => Post.forRange post_pair _) fun _ l _ h => C46_mask_metrics_mm n l (by have := h.1; omega) h.2

/-- **C46** With another number of pairs, the compiled metrics cannot be parsed. -/
theorem C46_mask_metrics_mm_count (n : Nat) (l : List (Int × Int)) (hl : l.length ≠ n - 1) (h : ∀ p ∈ l, PairFits p) :
    ∃ b e, compileMaskMetricsMM l = .ok b ∧ parseEntry (parseMaskMetricsMM n) b = .error e := by
  have key : ∀ (l : List (Int × Int)) (m : Nat), (∀ p ∈ l, PairFits p) → l.length ≠ m →
      ∃ b e, compileMaskMetricsMM l = .ok b ∧ parseEntry (R.rep m readPair) b = .error e := by
    intro l
    unfold compileMaskMetricsMM
    induction l with
    | nil =>
      intro m _ hm
      obtain ⟨k, rfl⟩ : ∃ k, m = k + 1 := ⟨m - 1, by simp at hm; omega⟩
      refine ⟨[], .eof, rfl, ?_⟩
      unfold parseEntry
      have e : readPair [] = .err .eof [] := R.bind_of_err (readValue_nil true)
      rw [R.rep_succ, R.bind_of_err e]
    | cons p l ih =>
      intro m hp hm
      obtain ⟨c, h1, h2⟩ := enc_pair (hp p (by simp))
      cases m with
      | zero =>
        obtain ⟨d, h3, -⟩ := Enc.rep (xs := l) (p := readPair) fun q hq => enc_pair (hp q (by simp [hq]))
        refine ⟨c ++ d, .assertion, by rw [W.all_cons, h1, h3]; rfl, ?_⟩
        unfold parseEntry
        rw [R.rep_zero]
        cases c with
        | nil =>
          exfalso
          have := h2 []
          rw [List.append_nil] at this
          unfold readPair at this
          rw [R.bind_of_err (readValue_nil true)] at this
          cases this
        | cons x c => rfl
      | succ m =>
        obtain ⟨d, e, h3, h4⟩ := ih m (fun q hq => hp q (by simp [hq])) (by simp only [List.length_cons] at hm; omega)
        refine ⟨c ++ d, e, by rw [W.all_cons, h1, h3]; rfl, ?_⟩
        unfold parseEntry at h4 ⊢
        rw [R.rep_succ, R.bind_of_ok (h2 d)]
        cases hr : R.rep m readPair d with
        | err e' r => rw [hr] at h4; rw [R.bind_of_err hr]; exact h4
        | ok a r =>
          rw [hr] at h4
          rw [R.bind_of_ok hr]
          cases r with
          | nil => cases h4
          | cons y r => exact h4
  unfold parseMaskMetricsMM R.forRange
  exact key l _ h (by omega)

/-- **C45** The layout of GDEF data: the class (0 unassigned, 1 base, 2 ligature, 3 mark, 4 component), then counted lists of
anchors (name, x, −1, y, −1), carets (two values) and values. -/
theorem C45_layout (d : Gdef) (c : Nat)
    (hc : [lit "unassigned", lit "base", lit "ligature", lit "mark", lit "component"][c]? = some (d.glyphClass.getD (lit "unassigned"))) :
    compileGdef d = writeValue c false ++
      ((writeValue (d.anchors.getD []).length false ++ W.all (d.anchors.getD []) fun a =>
        writeStrWithLen (some (a.name.getD [])) ++ (writeValue a.x ++ (writeValue (-1) ++ (writeValue a.y ++ writeValue (-1))))) ++
      ((writeValue (d.carets.getD []).length false ++ W.all (d.carets.getD []) fun p => writeValue p.1 ++ writeValue p.2) ++
      (writeValue (d.otClasses.getD []).length false ++ W.all (d.otClasses.getD []) fun v => writeValue v))) := by
  have h : gdefClassIndex d.glyphClass = .ok (c : Int) := by
    match c, hc with
    | 0, hc | 1, hc | 2, hc | 3, hc | 4, hc =>
      simp only [List.getElem?_cons_zero, List.getElem?_cons_succ, Option.some.injEq] at hc
      cases hg : d.glyphClass with
      | none => rw [hg] at hc; first | rfl | exact absurd hc (by decide)
      | some s => rw [hg] at hc; simp only [Option.getD_some] at hc; rw [← hc]; decide +kernel
    | n + 5, hc => simp at hc
  unfold compileGdef
  rw [h]
  rfl

example : [lit "unassigned", lit "base", lit "ligature", lit "mark", lit "component"][3]? = some ((some (lit "mark")).getD (lit "unassigned")) := by decide

end Verif.Props
