import Verif.Lemmas.Dict
import Verif.Lemmas.Float
import Verif.Props.Guides
import Verif.Spec.Mm
/-! C39: axes, masters, instances; C40: cmaps and binary tables; C47: FontLab 3 kerning pairs. -/
set_option autoImplicit false
namespace Verif.Props
open Verif Verif.Spec

theorem roundTrips_of_all {α : Type} {c : α → W} {p : R α} {a b : α} (h : Enc (c a) p b) : CompilesTo c p a b := by
  obtain ⟨x, h1, h2⟩ := h.all
  exact ⟨x, h1, parseEntry_ok.2 h2⟩

/-! ## C39 -/

theorem enc_anisoAxis {a : List (Int × Int)} (h : a.length < 2147483648 ∧ ∀ p ∈ a, IsInt32 p.1 ∧ IsInt32 p.2) :
    Enc (writeAnisoAxis a) readAnisoAxis a :=
  enc_counted h.1 fun p hp => Enc.bind (enc_value (valOk_iff.2 (h.2 p hp).1)) (Enc.last (enc_value (valOk_iff.2 (h.2 p hp).2)) rfl)

theorem post_anisoAxis {N : Nat} : Post N readAnisoAxis fun a => a.length < 2147483648 ∧ ∀ p ∈ a, IsInt32 p.1 ∧ IsInt32 p.2 :=
  post_counted (Post.bind (post_value true) fun _ ha => Post.bind (post_value true) fun _ hb => Post.pure ⟨valOk_iff.1 ha, valOk_iff.1 hb⟩)

theorem anisoBody_consuming : Consuming anisoBody := by
  intro st s st' r h
  unfold anisoBody at h
  cases ha : readAnisoAxis s with
  | ok a r' =>
    rw [ha] at h
    cases h
    unfold readAnisoAxis at ha
    obtain ⟨n, r1, h1, h2⟩ := R.bind_eq_ok.1 ha
    have := readValue_consume h1
    have h3 := (Post.forRange (N := r1.length) (P := fun _ => True) (p := readPair)
      (Post.bind (post_value true) fun _ _ => Post.bind (post_value true) fun _ _ => Post.pure trivial) n r1 a r (Nat.le_refl _) h2).2
    omega
  | err e r' =>
    rw [ha] at h
    cases e <;> cases h

theorem aniso_fold (l : List (List (Int × Int))) (st : List (List (Int × Int))) : l.foldl (fun acc a => acc ++ [a]) st = st ++ l := by
  induction l generalizing st with
  | nil => simp
  | cons a l ih => rw [List.foldl_cons, ih]; simp

/-- reading the axes that were written, and then something that ends the loop -/
theorem encAll_aniso {l : List (List (Int × Int))} (h : AnisoFits l) (tail : Bytes) (ht : readAnisoAxis tail = .err .eof []) :
    EncAll (W.all l writeAnisoAxis ++ (.ok tail : W)) parseAniso l := by
  refine EncAll.whileTrue anisoBody_consuming (step := fun acc a => acc ++ [a]) l [] ?_ ?_
  · rintro pre x post rfl
    obtain ⟨b, h1, h2⟩ := enc_anisoAxis (h x (by simp))
    refine ⟨b, h1, fun rest => ?_⟩
    unfold anisoBody
    rw [h2]
  · rw [aniso_fold, List.nil_append]
    refine ⟨tail, rfl, ?_⟩
    unfold anisoBody
    rw [ht]

theorem anisoAxis_nil : readAnisoAxis [] = .err .eof [] := by
  unfold readAnisoAxis
  exact R.bind_of_err (readValue_nil true)

/-- **C39** Anisotropic interpolation maps round-trip. -/
theorem C39_aniso (l : List (List (Int × Int))) (h : AnisoFits l) : RoundTrips compileAniso parseAniso l := by
  obtain ⟨b, h1, h2⟩ := encAll_aniso h [] anisoAxis_nil
  rw [show W.all l writeAnisoAxis ++ (.ok [] : W) = W.all l writeAnisoAxis from W.seq_nil _] at h1
  exact ⟨b, h1, parseEntry_ok.2 h2⟩

/-- **C39** … and whatever such an entry is parsed to is like that. -/
theorem C39_aniso_stable : Stable compileAniso parseAniso := by
  refine stable_of_post (P := fun _ l => AnisoFits l) (fun N => ?_) fun _ l _ h => C39_aniso l h
  refine Post.whileTrue (I := AnisoFits) ?_ [] (by intro a ha; cases ha)
  intro st hst s a r hN hb
  unfold anisoBody at hb
  cases ha : readAnisoAxis s with
  | ok x r' =>
    rw [ha] at hb
    cases hb
    obtain ⟨p1, p2⟩ := post_anisoAxis s x r hN ha
    refine ⟨fun y hy => ?_, p2⟩
    rcases List.mem_append.1 hy with hy | hy
    · exact hst y hy
    · rw [List.mem_singleton.1 hy]; exact p1
  | err e r' =>
    rw [ha] at hb
    have hr : r'.length ≤ s.length := by
      have e0 : ∀ (s r' : Bytes) (e : PyErr), readValue true s = .err e r' → r'.length ≤ s.length := by
        intro s r' e h
        cases s with
        | nil => rw [readValue_nil] at h; cases h; simp
        | cons b s =>
          rw [readValue_cons] at h
          repeat' split at h
          all_goals (cases h; try simp)
      have e1 : ∀ (s r' : Bytes) (e : PyErr), readPair s = .err e r' → r'.length ≤ s.length := by
        intro s r' e h
        unfold readPair at h
        rw [R.bind_run] at h
        cases h1 : readValue true s with
        | err e1 r1 => rw [h1] at h; cases h; exact e0 _ _ _ h1
        | ok v r1 =>
          rw [h1] at h
          simp only at h
          have := readValue_consume h1
          rw [R.bind_run] at h
          cases h2 : readValue true r1 with
          | err e1 r2 => rw [h2] at h; cases h; have := e0 _ _ _ h2; omega
          | ok v r2 => rw [h2] at h; cases h
      have e2 : ∀ (n : Nat) (s r' : Bytes) (e : PyErr), R.rep n readPair s = .err e r' → r'.length ≤ s.length := by
        intro n
        induction n with
        | zero => intro s r' e h; cases h
        | succ n ih =>
          intro s r' e h
          rw [R.rep_succ, R.bind_run] at h
          cases h1 : readPair s with
          | err e1 r1 => rw [h1] at h; cases h; exact e1 _ _ _ h1
          | ok v r1 =>
            rw [h1] at h
            simp only at h
            have hc := (Post.bind (N := s.length) (post_value true) (fun a _ => Post.bind (post_value true) fun b _ =>
              Post.pure (P := fun _ => True) (a := (a, b)) trivial) s v r1 (Nat.le_refl _) h1).2
            rw [R.bind_run] at h
            cases h2 : R.rep n readPair r1 with
            | err e1 r2 => rw [h2] at h; cases h; have := ih _ _ _ h2; omega
            | ok v r2 => rw [h2] at h; cases h
      unfold readAnisoAxis at ha
      rw [R.bind_run] at ha
      cases h1 : readValue true s with
      | err e1 r1 => rw [h1] at ha; cases ha; exact e0 _ _ _ h1
      | ok v r1 =>
        rw [h1] at ha
        have := readValue_consume h1
        have := e2 _ _ _ _ ha
        omega
    cases e <;> cases hb
    exact ⟨hst, hr⟩

theorem rep_pair_short (n : Nat) (vs : List Int) (hv : ∀ v ∈ vs, IsInt32 v) (hl : vs.length < 2 * n) :
    ∃ b, W.all vs (fun v => writeValue v) = .ok b ∧ R.rep n readPair b = .err .eof [] := by
  induction n generalizing vs with
  | zero => omega
  | succ n ih =>
    match vs with
    | [] =>
      refine ⟨[], rfl, ?_⟩
      rw [R.rep_succ]
      exact R.bind_of_err (R.bind_of_err (readValue_nil true))
    | [x] =>
      obtain ⟨b, h1, h2⟩ := enc_value (valOk_iff.2 (hv x (by simp)))
      refine ⟨b, by rw [W.all_cons, h1]; simp [W.nil], ?_⟩
      have := h2 []
      rw [List.append_nil] at this
      rw [R.rep_succ]
      refine R.bind_of_err ?_
      unfold readPair
      rw [R.bind_of_ok this]
      exact R.bind_of_err (readValue_nil true)
    | x :: y :: vs =>
      obtain ⟨b, h1, h2⟩ := enc_value (valOk_iff.2 (hv x (by simp)))
      obtain ⟨c, h3, h4⟩ := enc_value (valOk_iff.2 (hv y (by simp)))
      obtain ⟨d, h5, h6⟩ := ih vs (fun v hm => hv v (by simp [hm])) (by simp only [List.length_cons] at hl; omega)
      refine ⟨b ++ (c ++ d), by rw [W.all_cons, W.all_cons, h1, h3, h5]; rfl, ?_⟩
      rw [R.rep_succ]
      have e : readPair (b ++ (c ++ d)) = .ok (x, y) d := by
        unfold readPair
        rw [R.bind_of_ok (h2 _), R.bind_of_ok (h4 _)]; rfl
      rw [R.bind_of_ok e]
      exact R.bind_of_err h6

/-- **C39** (violated) An axis that is cut off is dropped without an error: `n` pairs are announced, but fewer
values follow. -/
theorem C39_aniso_truncated (l : List (List (Int × Int))) (h : AnisoFits l) (n : Int) (hn : IsInt32 n) (vs : List Int)
    (hv : ∀ v ∈ vs, IsInt32 v) (hl : vs.length < 2 * n.toNat) :
    ∃ b, W.all l writeAnisoAxis ++ (writeValue n ++ W.all vs fun v => writeValue v) = .ok b ∧ parseEntry parseAniso b = .ok l := by
  obtain ⟨x, h1, h2⟩ := enc_value (valOk_iff.2 hn)
  obtain ⟨y, h3, h4⟩ := rep_pair_short n.toNat vs hv hl
  obtain ⟨b, h5, h6⟩ := encAll_aniso h (x ++ y) (by unfold readAnisoAxis; rw [R.bind_of_ok (h2 y)]; exact h4)
  exact ⟨b, by rw [h1, h3]; exact h5, parseEntry_ok.2 h6⟩

/-- **C39** Axis mapping counts round-trip if there are four of them. -/
theorem C39_axis_counts (l : List Int) (hl : l.length = 4) (h : ∀ v ∈ l, 0 ≤ v ∧ v < 4294967296) :
    RoundTrips compileAxisCounts parseAxisCounts l := by
  refine roundTrips_of_all ?_
  unfold parseAxisCounts compileAxisCounts
  rw [← hl]
  exact Enc.rep fun v hv => enc_u32 (h v hv)

theorem C39_axis_counts_stable : Stable compileAxisCounts parseAxisCounts :=
  stable_of_post (fun _ => Post.rep post_u32 4) fun _ l _ h => C39_axis_counts l h.1 h.2

theorem readU32_nil : readU32 [] = .ok 0 [] := rfl

theorem rep_zeros (n : Nat) : R.rep n readU32 [] = .ok (List.replicate n 0) [] := by
  induction n with
  | zero => rfl
  | succ n ih => rw [R.rep_succ, R.bind_of_ok readU32_nil, R.bind_of_ok ih]; rfl

/-- **C39** (limit) Fewer than four counts come back filled up with zeros; more than four cannot be parsed. -/
theorem C39_axis_counts_length (l : List Int) (h : ∀ v ∈ l, 0 ≤ v ∧ v < 4294967296) :
    (l.length ≤ 4 → CompilesTo compileAxisCounts parseAxisCounts l (l ++ List.replicate (4 - l.length) 0)) ∧
    (4 < l.length → ∃ b, compileAxisCounts l = .ok b ∧ parseEntry parseAxisCounts b = .error .assertion) := by
  constructor
  · intro hl
    have key : ∀ (l : List Int) (n : Nat), (∀ v ∈ l, 0 ≤ v ∧ v < 4294967296) → l.length ≤ n →
        ∃ b, W.all l writeU32 = .ok b ∧ R.rep n readU32 b = .ok (l ++ List.replicate (n - l.length) 0) [] := by
      intro l
      induction l with
      | nil => intro n _ _; exact ⟨[], rfl, rep_zeros n⟩
      | cons v l ih =>
        intro n h hl
        obtain ⟨m, rfl⟩ : ∃ m, n = m + 1 := ⟨n - 1, by simp only [List.length_cons] at hl; omega⟩
        obtain ⟨b, h1, h2⟩ := enc_u32 (h v (by simp))
        obtain ⟨c, h3, h4⟩ := ih m (fun x hx => h x (by simp [hx])) (by simp only [List.length_cons] at hl; omega)
        refine ⟨b ++ c, by rw [W.all_cons, h1, h3]; rfl, ?_⟩
        rw [R.rep_succ, R.bind_of_ok (h2 c), R.bind_of_ok h4]
        simp
    obtain ⟨b, h1, h2⟩ := key l 4 h hl
    exact ⟨b, h1, parseEntry_ok.2 h2⟩
  · intro hl
    have e : l = l.take 4 ++ l.drop 4 := (List.take_append_drop 4 l).symm
    obtain ⟨x, x1, x2⟩ : Enc (W.all (l.take 4) writeU32) (R.rep (l.take 4).length readU32) (l.take 4) :=
      Enc.rep fun v hv => enc_u32 (h v (List.mem_of_mem_take hv))
    obtain ⟨v, m, hd⟩ : ∃ v m, l.drop 4 = v :: m := by
      cases hd : l.drop 4 with
      | nil => have := congrArg List.length hd; simp at this; omega
      | cons v m => exact ⟨v, m, rfl⟩
    obtain ⟨y, y1, y2⟩ : Enc (W.all (l.drop 4) writeU32) (R.rep (l.drop 4).length readU32) (l.drop 4) :=
      Enc.rep fun v hv => enc_u32 (h v (List.mem_of_mem_drop hv))
    refine ⟨x ++ y, ?_, ?_⟩
    · unfold compileAxisCounts
      rw [e, W.all_append, x1, y1]; rfl
    · have hx := x2 y
      rw [List.length_take, Nat.min_eq_left (by omega)] at hx
      unfold parseEntry parseAxisCounts
      rw [hx]
      cases y with
      | nil =>
        exfalso
        rw [hd, W.all_cons] at y1
        obtain ⟨p, q, hp, -, hpq⟩ := W.seq_eq_ok.1 y1
        unfold writeU32 toBytesLE at hp
        split at hp
        · cases hp; simp at hpq
          have := congrArg List.length hpq.1; simp at this
        · cases hp
      | cons a y => rfl

theorem enc_mapping (p : Dbl × Dbl) : Enc (writeDouble p.1 ++ writeDouble p.2) readMapping p :=
  Enc.bind (enc_double p.1) (Enc.last (enc_double p.2) rfl)

theorem mappings_length (l : List (Dbl × Dbl)) : ∃ b, compileAxisMappings l = .ok b ∧ b.length = 16 * l.length := by
  induction l with
  | nil => exact ⟨[], rfl, rfl⟩
  | cons p l ih =>
    obtain ⟨b, h1, h2⟩ := ih
    unfold compileAxisMappings at *
    refine ⟨p.1.toBytes ++ p.2.toBytes ++ b, by rw [W.all_cons, h1]; rfl, ?_⟩
    simp [Dbl.toBytes_length, h2]
    omega

/-- **C39** Axis mappings always round-trip. -/
theorem C39_axis_mappings (l : List (Dbl × Dbl)) : RoundTrips compileAxisMappings parseAxisMappings l := by
  obtain ⟨b, h1, h2⟩ := mappings_length l
  obtain ⟨b', h3, h4⟩ := Enc.rep (xs := l) (p := readMapping) fun p _ => enc_mapping p
  have : b = b' := by
    have := h1.symm.trans h3
    cases this; rfl
  subst this
  refine ⟨b, h1, parseEntry_ok.2 ?_⟩
  unfold parseAxisMappings
  rw [h2, Nat.mul_div_cancel_left _ (by omega)]
  have := h4 []
  rwa [List.append_nil] at this

theorem C39_axis_mappings_stable : Stable compileAxisMappings parseAxisMappings := fun _ l _ _ => C39_axis_mappings l

/-- **C39** Master locations round-trip if the index is unsigned 32-bit and there are four coordinates. -/
theorem C39_master_location (i : Int) (l : List Dbl) (hi : 0 ≤ i ∧ i < 4294967296) (hl : l.length = 4) :
    RoundTrips compileMasterLocation parseMasterLocation (i, l) := by
  refine roundTrips_of_all ?_
  refine Enc.bind (enc_u32 hi) (Enc.last (a := l) ?_ rfl)
  rw [← hl]
  exact Enc.rep fun d _ => enc_double d

theorem C39_master_location_stable : Stable compileMasterLocation parseMasterLocation := by
  refine stable_of_post (P := fun _ d => (0 ≤ d.1 ∧ d.1 < 4294967296) ∧ d.2.length = 4) (fun N => ?_)
    fun _ d _ h => C39_master_location d.1 d.2 h.1 h.2
  refine Post.bind post_u32 fun i hi => Post.bind (Post.rep (P := fun _ => True) ?_ 4) fun l hl => Post.pure ⟨hi, hl.1⟩
  refine Post.bind (post_doubles 1) fun l _ => ?_
  cases l with
  | nil => exact Post.throw
  | cons d l => exact Post.pure trivial

theorem enc_instance {i : PrimaryInstance} (h : InstanceFits i) : Enc (writeInstance i) readInstance ⟨i.name, i.values.map storedCoord⟩ := by
  obtain ⟨h1, h2, h3, h4⟩ := h
  refine Enc.bind (enc_strWithLen ⟨isLatin_iff.1 h1, h2⟩) (Enc.last (a := i.values.map storedCoord) ?_ rfl)
  rw [← h3]
  exact Enc.repMap fun x hx => Enc.last (enc_value (valOk_iff.2 (h4 x hx))) rfl

/-- **C39** Primary instances: the coordinates come back cut to ten-thousandths. -/
theorem C39_instances (l : List PrimaryInstance) (hl : l.length < 2147483648) (h : ∀ i ∈ l, InstanceFits i) :
    CompilesTo compileInstances parseInstances l (l.map fun i => ⟨i.name, i.values.map storedCoord⟩) :=
  roundTrips_of_all (enc_counted_map hl fun i hi => enc_instance (h i hi))

/-- **C39** … which changes a coordinate by less than two ten-thousandths. -/
theorem C39_coordinate_error (x : Rat) (h : |x| ≤ 214748) : |storedCoord x - x| < 2 / 10000 := by
  unfold storedCoord
  have e1 := fl_err (x * (10000 : Int))
  have e2 := truncInt_err (fmul x 10000)
  have e3 := fl_err ((truncInt (fmul x 10000) : Rat) / (10000 : Int))
  have hp : (2 : Rat) ^ 53 = 9007199254740992 := by norm_num
  rw [hp] at e1 e3
  change |fmul x 10000 - _| ≤ _ at e1
  change |fdiv (truncInt (fmul x 10000)) 10000 - _| ≤ _ at e3
  generalize fmul x 10000 = y at *
  generalize (truncInt y : Rat) = t at *
  generalize fdiv (truncInt y) 10000 = u at *
  push_cast at *
  have hx := abs_le.1 h
  have b1 : |x * 10000| ≤ 2147480000 := by rw [abs_le]; constructor <;> linarith [hx.1, hx.2]
  have b2 : |y - x * 10000| ≤ 1 / 1000000 := e1.trans (by linarith)
  rw [abs_le] at b1 b2
  rw [abs_lt] at e2
  have b3 : |t / 10000| ≤ 300000 := by rw [abs_le]; constructor <;> linarith
  have b4 : |u - t / 10000| ≤ 1 / 1000000 := e3.trans (by linarith)
  rw [abs_le] at b4
  rw [abs_lt]
  constructor <;> linarith

/-- **C39** Whole coordinates are kept exactly. -/
theorem C39_coordinate_whole (k : Int) (h : -214748 ≤ k ∧ k ≤ 214748) : storedCoord k = k ∧ IsInt32 (truncInt (fmul k 10000)) := by
  have e1 : fmul k 10000 = ((k * 10000 : Int) : Rat) := by
    unfold fmul
    have : (k : Rat) * (10000 : Int) = ((k * 10000 : Int) : Rat) := by push_cast; ring
    rw [this]
    apply fl_int
    rw [abs_lt]; omega
  have e2 : truncInt (fmul k 10000) = k * 10000 := by rw [e1, truncInt_int]
  constructor
  · unfold storedCoord
    rw [e2]
    unfold fdiv
    have : ((k * 10000 : Int) : Rat) / (10000 : Int) = (k : Rat) := by push_cast; field_simp
    rw [this]
    apply fl_int
    rw [abs_lt]; omega
  · rw [e2]; simp only [IsInt32]; omega

/-- **C39** … so that instances at whole coordinates round-trip. -/
theorem C39_instances_whole (l : List PrimaryInstance) (hl : l.length < 2147483648)
    (h : ∀ i ∈ l, IsLatin i.name ∧ i.name.length < 2147483648 ∧ i.values.length = 4 ∧
      ∀ x ∈ i.values, ∃ k : Int, x = k ∧ -214748 ≤ k ∧ k ≤ 214748) : RoundTrips compileInstances parseInstances l := by
  have := C39_instances l hl fun i hi => by
    obtain ⟨h1, h2, h3, h4⟩ := h i hi
    refine ⟨h1, h2, h3, fun x hx => ?_⟩
    obtain ⟨k, rfl, hk⟩ := h4 x hx
    exact (C39_coordinate_whole k hk).2
  have e : (l.map fun i : PrimaryInstance => (⟨i.name, i.values.map storedCoord⟩ : PrimaryInstance)) = l := by
    have : ∀ i ∈ l, (fun i : PrimaryInstance => (⟨i.name, i.values.map storedCoord⟩ : PrimaryInstance)) i = id i := by
      intro i hi
      have e2 : ∀ x ∈ i.values, storedCoord x = id x := by
        intro x hx
        obtain ⟨k, rfl, hk⟩ := (h i hi).2.2.2 x hx
        exact (C39_coordinate_whole k hk).1
      simp only [id]
      rw [List.map_congr_left e2]
      simp
    rw [List.map_congr_left this]; simp
  rw [e] at this
  exact this

/-- what an instance is parsed to: coordinates in ten-thousandths -/
def InstanceRead (N : Nat) (i : PrimaryInstance) : Prop :=
  StrN N i.name ∧ i.values.length = 4 ∧ ∀ x ∈ i.values, ∃ v : Int, IsInt32 v ∧ x = fdiv v 10000

theorem post_instance {N : Nat} : Post N readInstance (InstanceRead N) :=
  Post.bind post_strWithLen fun _ hn => Post.bind (Post.rep (P := fun x => ∃ v : Int, IsInt32 v ∧ x = fdiv v 10000)
    (Post.bind (post_value true) fun v hv => Post.pure ⟨v, valOk_iff.1 hv, rfl⟩) 4) fun _ hl => Post.pure ⟨hn, hl.1, hl.2⟩

/-- the ten-thousandths `v` come back as `v'`: the same, or one less towards zero -/
def CutBack (v v' : Int) : Prop := (0 ≤ v → v - 1 ≤ v' ∧ v' ≤ v) ∧ (v ≤ 0 → v ≤ v' ∧ v' ≤ v + 1)

/-- **C39** Parsed primary instances can always be compiled and parsed again; names and numbers of coordinates are
kept, and each coordinate changes by at most one ten-thousandth, towards zero. -/
theorem C39_instances_cycle (payload : Bytes) (l : List PrimaryInstance) (hp : payload.length < 2147483648)
    (h : parseEntry parseInstances payload = .ok l) :
    CompilesTo compileInstances parseInstances l (l.map fun i => ⟨i.name, i.values.map storedCoord⟩) ∧
    ∀ i ∈ l, ∀ x ∈ i.values, ∃ v v' : Int, x = fdiv v 10000 ∧ storedCoord x = fdiv v' 10000 ∧ CutBack v v' := by
  have hpost := parseEntry_post (post_counted post_instance) h
  have cut : ∀ v : Int, IsInt32 v → CutBack v (truncInt (fmul (fdiv v 10000) 10000)) := fun v hv => trunc_toward (by norm_num) hv
  refine ⟨C39_instances l hpost.1 fun i hi => ?_, fun i hi x hx => ?_⟩
  · obtain ⟨h1, h2, h3⟩ := hpost.2 i hi
    refine ⟨isLatin_iff.2 h1.1, Nat.lt_of_le_of_lt h1.2 hp, h2, fun x hx => ?_⟩
    obtain ⟨v, hv, rfl⟩ := h3 x hx
    obtain ⟨c1, c2⟩ := cut v hv
    simp only [IsInt32] at hv ⊢
    by_cases h0 : 0 ≤ v
    · have := c1 h0; omega
    · have := c2 (by omega); omega
  · obtain ⟨v, hv, rfl⟩ := (hpost.2 i hi).2.2 x hx
    exact ⟨v, _, rfl, rfl, cut v hv⟩

/-- **C39** (violated) 3 ten-thousandths come back as 2. -/
theorem C39_instances_not_stable : storedCoord (fdiv 3 10000) = fdiv 2 10000 ∧ fdiv 2 10000 ≠ fdiv 3 10000 := by
  constructor
  · unfold storedCoord
    have : truncInt (fmul (fdiv 3 10000) 10000) = 2 := by decide +kernel
    rw [this]
  · decide +kernel

example : AnisoFits [[(0, 0), (500, -300)], [], [(2147483647, -2147483648)]] := by
  intro a ha
  simp only [List.mem_cons, List.not_mem_nil, or_false] at ha
  rcases ha with rfl | rfl | rfl
  · exact ⟨by decide, by decide⟩
  · exact ⟨by decide, by simp⟩
  · exact ⟨by decide, by decide⟩

example : RoundTrips compileAxisCounts parseAxisCounts [3, 0, 4294967295, 0] := C39_axis_counts _ rfl (by decide)

example : RoundTrips compileInstances parseInstances [⟨lit "Bold Süß", [700, 0, -12, 214748]⟩] :=
  C39_instances_whole _ (by decide) (by
    intro i hi
    rw [List.mem_singleton.1 hi]
    refine ⟨by decide, by decide, rfl, fun x hx => ?_⟩
    simp only [List.mem_cons, List.not_mem_nil, or_false] at hx
    rcases hx with rfl | rfl | rfl | rfl
    · exact ⟨700, by norm_num, by norm_num, by norm_num⟩
    · exact ⟨0, by norm_num, by norm_num, by norm_num⟩
    · exact ⟨-12, by norm_num, by norm_num, by norm_num⟩
    · exact ⟨214748, by norm_num, by norm_num, by norm_num⟩)

/-! ## C40 -/

theorem enc_cmap {c : CustomCmap} (h : CmapFits c) : Enc (writeCmap c) readCmap c := by
  obtain ⟨h1, h2, h3, h4, h5, h6, h7⟩ := h
  exact Enc.bind (enc_value (valOk_iff.2 h1)) (Enc.bind (enc_value (valOk_iff.2 h2)) (Enc.bind (enc_value (valOk_iff.2 h3))
    (Enc.bind (enc_value (valOk_iff.2 h4)) (Enc.bind (enc_value (valOk_iff.2 h5)) (Enc.last (enc_strWithLen ⟨isLatin_iff.1 h6, h7⟩) rfl)))))

/-- **C40** Custom cmaps round-trip. -/
theorem C40_cmaps (l : List CustomCmap) (hl : l.length < 2147483648) (h : ∀ c ∈ l, CmapFits c) : RoundTrips compileCmaps parseCmaps l :=
  roundTrips_of_enc (enc_counted hl fun c hc => enc_cmap (h c hc))

theorem C40_cmaps_stable : Stable compileCmaps parseCmaps := by
  refine stable_of_post (P := fun N l => l.length < 2147483648 ∧ ∀ c ∈ l, IsInt32 c.languageId ∧ IsInt32 c.platformId ∧
      IsInt32 c.encodingId ∧ IsInt32 c.format ∧ IsInt32 c.option ∧ StrN N c.pageName) (fun N => post_counted ?_) ?_
  · exact Post.bind (post_value true) fun _ h1 => Post.bind (post_value true) fun _ h2 => Post.bind (post_value true) fun _ h3 =>
      Post.bind (post_value true) fun _ h4 => Post.bind (post_value true) fun _ h5 => Post.bind post_strWithLen fun _ h6 =>
      Post.pure ⟨valOk_iff.1 h1, valOk_iff.1 h2, valOk_iff.1 h3, valOk_iff.1 h4, valOk_iff.1 h5, h6⟩
  · intro N l hN h
    refine C40_cmaps l h.1 fun c hc => ?_
    obtain ⟨h1, h2, h3, h4, h5, h6⟩ := h.2 c hc
    exact ⟨h1, h2, h3, h4, h5, isLatin_iff.2 h6.1, Nat.lt_of_le_of_lt h6.2 hN⟩

/-- **C40** (limit) A cmap that does not fit is an error (names of 2^31 characters and more aside). -/
theorem C40_cmaps_rejected (l : List CustomCmap) (c : CustomCmap) (hc : c ∈ l) (hn : c.pageName.length < 2147483648) (h : ¬ CmapFits c) :
    Rejected compileCmaps l := by
  refine err_right (rejected_of_all hc ?_)
  have val : ∀ v : Int, ¬ IsInt32 v → ∃ e, writeValue v = .error e := fun v hv => ⟨_, writeValue_err fun hx => hv (valOk_iff.1 hx)⟩
  unfold writeCmap
  by_cases h1 : IsInt32 c.languageId
  · refine err_right ?_
    by_cases h2 : IsInt32 c.platformId
    · refine err_right ?_
      by_cases h3 : IsInt32 c.encodingId
      · refine err_right ?_
        by_cases h4 : IsInt32 c.format
        · refine err_right ?_
          by_cases h5 : IsInt32 c.option
          · refine err_right ?_
            obtain ⟨e, he⟩ := encode1252_err fun h6 => h ⟨h1, h2, h3, h4, h5, isLatin_iff.2 h6, hn⟩
            exact ⟨e, by unfold writeStrWithLen; rw [Option.getD_some, he]; rfl⟩
          · exact err_left (val _ h5)
        · exact err_left (val _ h4)
      · exact err_left (val _ h3)
    · exact err_left (val _ h2)
  · exact err_left (val _ h1)

theorem parseBinary_run (s : Bytes) : parseBinaryTable s = match decode1252 (s.take 4) with
    | .ok t => .ok ⟨t, hexStr (s.drop 4)⟩ []
    | .error e => .err e (s.drop 4) := by
  unfold parseBinaryTable readStr
  rw [if_neg (by decide), R.bind_run, R.bind_run]
  simp only [R.readN]
  rw [if_neg (by decide)]
  simp only [R.lift, show (4 : Int).toNat = 4 from rfl]
  cases decode1252 (s.take 4) with
  | ok t => rfl
  | error e => rfl

/-- **C40** Binary tables with a tag of four characters round-trip. -/
theorem C40_binary (tag : PyStr) (b : Bytes) (ht : IsLatin tag) (hl : tag.length = 4) :
    RoundTrips compileBinaryTable parseBinaryTable ⟨tag, hexStr b⟩ := by
  obtain ⟨t, h⟩ := isLatin_iff.1 ht
  have hlen := encode1252_length h
  refine ⟨t ++ b, ?_, parseEntry_ok.2 ?_⟩
  · unfold compileBinaryTable
    rw [writeStr_ok h, deHexStr_hexStr]; rfl
  · rw [parseBinary_run]
    have e1 : (t ++ b).take 4 = t := by rw [List.take_append_of_le_length (by omega)]; exact List.take_of_length_le (by omega)
    have e2 : (t ++ b).drop 4 = b := by rw [List.drop_append_of_le_length (by omega), List.drop_of_length_le (by omega)]; rfl
    rw [e1, e2, decode_encode1252 h]

/-- **C40** Whatever a binary table entry is parsed to can be compiled, and to the very same bytes. -/
theorem C40_binary_lossless (payload : Bytes) (d : BinaryTable) (h : parseEntry parseBinaryTable payload = .ok d) :
    compileBinaryTable d = .ok payload := by
  have h := parseEntry_ok.1 h
  rw [parseBinary_run] at h
  cases hd : decode1252 (payload.take 4) with
  | error e => rw [hd] at h; cases h
  | ok t =>
    rw [hd] at h
    cases h
    unfold compileBinaryTable
    rw [writeStr_ok (encode_decode1252 hd), deHexStr_hexStr]
    show (Except.ok (payload.take 4 ++ payload.drop 4) : W) = _
    rw [List.take_append_drop]

/-- **C40** (violated) The tag is not padded: with any other number of characters (and data to follow a shorter tag),
the table does not come back. -/
theorem C40_binary_unpadded (tag : PyStr) (b : Bytes) (h : RoundTrips compileBinaryTable parseBinaryTable ⟨tag, hexStr b⟩) :
    IsLatin tag ∧ (tag.length = 4 ∨ (tag.length < 4 ∧ b = [])) := by
  obtain ⟨p, h1, h2⟩ := h
  have h2 := parseEntry_ok.1 h2
  rw [parseBinary_run] at h2
  unfold compileBinaryTable at h1
  have hl : Is1252 tag := by
    cases he : encode1252 tag with
    | ok t => exact ⟨t, he⟩
    | error e => simp only [writeStr, Option.getD_some, he] at h1; cases h1
  obtain ⟨t, ht⟩ := hl
  rw [writeStr_ok ht, deHexStr_hexStr] at h1
  cases h1
  have hlen := encode1252_length ht
  refine ⟨isLatin_iff.2 ⟨t, ht⟩, ?_⟩
  cases hd : decode1252 ((t ++ b).take 4) with
  | error e => rw [hd] at h2; cases h2
  | ok t' =>
    rw [hd] at h2
    simp only [Res.ok.injEq, and_true] at h2
    have hl2 := encode1252_length (encode_decode1252 hd)
    obtain ⟨h3, -⟩ := BinaryTable.mk.inj h2
    subst h3
    rw [List.length_take, List.length_append] at hl2
    by_cases h4 : t'.length = 4
    · exact .inl h4
    · have : b.length = 0 := by omega
      exact .inr ⟨by omega, List.length_eq_zero_iff.1 this⟩

example : CmapFits ⟨0, 3, 1, 4, -2, lit "Café"⟩ := ⟨by decide, by decide, by decide, by decide, by decide, by decide, by decide⟩
example : RoundTrips compileBinaryTable parseBinaryTable ⟨lit "FOO ", lit "00ff"⟩ := C40_binary _ [0, 255] (by decide) rfl

/-! ## C47 -/

/-- **C47** A kerning pair entry of FontLab 3 is read as written: two unsigned 32-bit glyph indices, and a signed 16-bit
value for each master. -/
theorem C47_layout (l r : Int) (values : List Int) (hl : 0 ≤ l ∧ l < 4294967296) (hr : 0 ≤ r ∧ r < 4294967296)
    (hv : ∀ v ∈ values, -32768 ≤ v ∧ v < 32768) :
    ∃ payload, writeU32 l ++ (writeU32 r ++ W.all values writeI16) = .ok payload ∧
      payload.length = 8 + 2 * values.length ∧
      parseEntry (parseKernPair values.length) payload = .ok (.pair l r values) := by
  have he : Enc (writeU32 l ++ (writeU32 r ++ W.all values writeI16)) (parseKernPair values.length) (.pair l r values) :=
    Enc.bind (enc_u32 hl) (Enc.bind (enc_u32 hr) (Enc.last (Enc.rep fun v hm => enc_i16 (hv v hm)) rfl))
  obtain ⟨b, h1, h2⟩ := he.all
  refine ⟨b, h1, ?_, parseEntry_ok.2 h2⟩
  have w : ∀ {k : Nat} {sg : Bool} {v : Int} {x : Bytes}, toBytesLE k sg v = .ok x → x.length = k := by
    intro k sg v x h
    unfold toBytesLE at h
    split at h
    · cases h; simp
    · cases h
  obtain ⟨x, yz, hx, hyz, rfl⟩ := W.seq_eq_ok.1 h1
  obtain ⟨y, z, hy, hz, rfl⟩ := W.seq_eq_ok.1 hyz
  have hz' : z.length = 2 * values.length := by
    clear he h1 h2 hv hyz
    induction values generalizing z with
    | nil => cases hz; rfl
    | cons v vs ih =>
      rw [W.all_cons] at hz
      obtain ⟨p, q, hp, hq, rfl⟩ := W.seq_eq_ok.1 hz
      have := ih q hq
      have := w hp
      simp only [List.length_append, List.length_cons]
      omega
  have := w hx
  have := w hy
  simp only [List.length_append]
  omega

/-- **C47** Everything that is parsed is in these ranges, with one value per master. -/
theorem C47_range (n : Nat) (payload : Bytes) (d : KernPairData) (h : parseEntry (parseKernPair n) payload = .ok d) :
    ∃ l r values, d = .pair l r values ∧ values.length = n ∧ (0 ≤ l ∧ l < 4294967296) ∧ (0 ≤ r ∧ r < 4294967296) ∧
      ∀ v ∈ values, -32768 ≤ v ∧ v < 32768 :=
  parseEntry_post (P := fun d => ∃ l r values, d = .pair l r values ∧ values.length = n ∧ (0 ≤ l ∧ l < 4294967296) ∧
      (0 ≤ r ∧ r < 4294967296) ∧ ∀ v ∈ values, -32768 ≤ v ∧ v < 32768)
    (Post.bind post_u32 fun l hl => Post.bind post_u32 fun r hr => Post.bind (Post.rep post_i16 n) fun v hv =>
      Post.pure ⟨l, r, v, rfl, hv.1, hl, hr, hv.2⟩) h

/-- **C47** (violated) No kerning pair that was parsed can be compiled. -/
theorem C47_never_compiled (n : Nat) (payload : Bytes) (d : KernPairData) (h : parseEntry (parseKernPair n) payload = .ok d) :
    Rejected compileKernPair d := by
  obtain ⟨l, r, values, rfl, -⟩ := C47_range n payload d h
  exact ⟨.attr, rfl⟩

/-- **C47** What can be compiled is a list of 16-bit numbers; but such an entry can only be parsed with the right number
of values for the masters (four 16-bit numbers stand for the two indices). -/
theorem C47_ints (vs : List Int) (h : ∀ v ∈ vs, -32768 ≤ v ∧ v < 32768) : ∃ b, compileKernPair (.ints vs) = .ok b ∧ b.length = 2 * vs.length := by
  induction vs with
  | nil => exact ⟨[], rfl, rfl⟩
  | cons v vs ih =>
    obtain ⟨b, h1, h2⟩ := ih fun x hx => h x (by simp [hx])
    have e : writeI16 v = .ok (leDigits 2 (v % ((256 ^ 2 : Nat) : Int)).toNat) := by
      unfold writeI16 toBytesLE
      rw [if_pos]
      have := h v (by simp)
      simp only [inRange]
      omega
    refine ⟨leDigits 2 (v % ((256 ^ 2 : Nat) : Int)).toNat ++ b, ?_, ?_⟩
    · show W.all (v :: vs) writeI16 = _
      rw [W.all_cons, show W.all vs writeI16 = .ok b from h1, e]; rfl
    · simp [h2]; omega

example : ∃ payload, parseEntry (parseKernPair 2) payload = .ok (.pair 36 4294967295 [-40, 32767]) :=
  (C47_layout 36 4294967295 [-40, 32767] (by decide) (by decide) (by decide)).imp fun _ h => h.2.2

end Verif.Props
