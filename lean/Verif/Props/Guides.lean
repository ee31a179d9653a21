import Verif.Lemmas.Base
import Verif.Props.Text
import Verif.Spec.Guides
/-! C30, C31: guides. -/
set_option autoImplicit false
namespace Verif.Props
open Verif Verif.Spec

/-! ## C30 -/

theorem all_range_get {α : Type} (l : List α) (f : α → W) :
    (W.all (List.range l.length) fun i => match l[i]? with | some x => f x | none => .error .index) = W.all l f := by
  suffices H : ∀ (l pre : List α), (W.all (List.range' pre.length l.length) fun i =>
      match (pre ++ l)[i]? with | some x => f x | none => .error .index) = W.all l f by
    have := H l []
    simpa [List.range_eq_range'] using this
  intro l
  induction l with
  | nil => intro pre; rfl
  | cons x l ih =>
    intro pre
    rw [List.length_cons, List.range'_succ, W.all_cons, W.all_cons]
    have h1 : (pre ++ x :: l)[pre.length]? = some x := by simp
    rw [h1]
    have := ih (pre ++ [x])
    rw [List.length_append, List.append_assoc] at this
    rw [← this]; rfl

theorem enc_guideDir (ops : AngleOps) (n : Nat) (l : List (List (Guide ops.Angle)))
    (hl : l.length < 2147483648) (h : ∀ g ∈ l, g.length = n ∧ ∀ x ∈ g, IsInt32 x.pos ∧ IsInt32 (ops.fromAngle x.angle)) :
    Enc (compileGuideDir ops n l) (parseGuideDir ops n)
      (l.map (List.map fun x => ⟨x.pos, ops.toAngle (ops.fromAngle x.angle)⟩)) := by
  unfold compileGuideDir parseGuideDir
  refine Enc.bind (enc_value (by simp only [ValOk]; omega)) ?_
  show Enc _ (R.rep (l.length : Int).toNat _) _
  rw [Int.toNat_natCast]
  refine Enc.repMap fun g hg => ?_
  obtain ⟨hn, hx⟩ := h g hg
  subst hn
  have e : compileGuideMM ops g.length g = W.all g (compileGuide ops) := by
    rw [← all_range_get g (compileGuide ops)]
    unfold compileGuideMM
    congr 1; funext i
    cases g[i]? <;> rfl
  rw [e]
  refine Enc.repMap fun x hx' => ?_
  refine Enc.bind (enc_value (valOk_iff.2 (hx x hx').1)) ?_
  exact Enc.last (enc_value (valOk_iff.2 (hx x hx').2)) rfl

theorem enc_guides (ops : AngleOps) (n : Nat) (d : MMGuides ops.Angle) (h : GuidesFit ops n d) :
    Enc (compileGuides ops n d) (parseGuides ops n) (reangle ops d) := by
  unfold compileGuides parseGuides
  have h1 := h d.h (by simp)
  have h2 := h d.v (by simp)
  refine Enc.bind (enc_guideDir ops n d.h h1.1 h1.2) ?_
  exact Enc.last (enc_guideDir ops n d.v h2.1 h2.2) rfl

/-- **C30** Guides that fit the font are written and read back with all positions; each angle becomes
the angle of its slope. -/
theorem C30_guides_compile (ops : AngleOps) (n : Nat) (d : MMGuides ops.Angle) (h : GuidesFit ops n d) :
    CompilesTo (compileGuides ops n) (parseGlobalGuides ops n) d (reangle ops d) := by
  obtain ⟨b, hb, hr⟩ := enc_guides ops n d h
  refine ⟨b, hb, ?_⟩
  rw [parseEntry_ok]
  unfold parseGlobalGuides
  have h0 := hr []
  rw [List.append_nil] at h0
  rw [R.bind_of_ok h0]
  rfl

theorem reangle_exact (ops : AngleOps) (d : MMGuides ops.Angle) (ha : AnglesExact ops d) : reangle ops d = d := by
    have hm : ∀ l : List (List (Guide ops.Angle)), (∀ g ∈ l, ∀ x ∈ g, ops.toAngle (ops.fromAngle x.angle) = x.angle) →
        l.map (List.map fun x : Guide ops.Angle => (⟨x.pos, ops.toAngle (ops.fromAngle x.angle)⟩ : Guide ops.Angle)) = l := by
      intro l hl
      refine (List.map_congr_left (g := id) fun g hg => ?_).trans (List.map_id l)
      refine (List.map_congr_left (g := id) fun x hx => ?_).trans (List.map_id g)
      rw [hl g hg x hx]; rfl
    unfold reangle
    simp only [hm d.h (ha d.h (by simp)), hm d.v (ha d.v (by simp))]

/-- **C30** Guides whose angles are reproduced by the float computation round-trip. -/
theorem C30_guides_roundtrip (ops : AngleOps) (n : Nat) (d : MMGuides ops.Angle) (h : GuidesFit ops n d)
    (ha : AnglesExact ops d) : RoundTrips (compileGuides ops n) (parseGlobalGuides ops n) d := by
  have := C30_guides_compile ops n d h
  rw [reangle_exact ops d ha] at this
  exact this

theorem post_guideDir (N : Nat) (ops : AngleOps) (n : Nat) : Post N (parseGuideDir ops n) fun l =>
    l.length < 2147483648 ∧ ∀ g ∈ l, g.length = n ∧ ∀ x ∈ g, IsInt32 x.pos ∧ ∃ v, IsInt32 v ∧ x.angle = ops.toAngle v := by
  refine Post.bind (post_value true) fun num hnum => ?_
  refine (Post.forRange (P := fun g => g.length = n ∧ ∀ x ∈ g, IsInt32 x.pos ∧ ∃ v, IsInt32 v ∧ x.angle = ops.toAngle v)
    ?_ num).mono fun l hl => ⟨by rw [hl.1]; simp only [ValOk] at hnum; omega, hl.2⟩
  refine Post.rep ?_ n
  exact Post.bind (post_value true) fun p hp => Post.bind (post_value true) fun v hv =>
    Post.pure ⟨valOk_iff.1 hp, v, valOk_iff.1 hv, rfl⟩

theorem post_guides (N : Nat) (ops : AngleOps) (n : Nat) : Post N (parseGuides ops n) fun d =>
    ∀ l ∈ [d.h, d.v], l.length < 2147483648 ∧ ∀ g ∈ l, g.length = n ∧
      ∀ x ∈ g, IsInt32 x.pos ∧ ∃ v, IsInt32 v ∧ x.angle = ops.toAngle v :=
  Post.bind (post_guideDir N ops n) fun h hh => Post.bind (post_guideDir N ops n) fun v hv => Post.pure (by
    intro l hl
    simp only [List.mem_cons, List.not_mem_nil, or_false] at hl
    rcases hl with rfl | rfl
    · exact hh
    · exact hv)

/-- **C30** Stability up to the angles: if the float functions restore all 32-bit slopes (or at least map
them to 32-bit slopes), then every parsed set of guides can be compiled and is read back with the same
guides, masters and positions, and the angles of the recomputed slopes. -/
theorem C30_guides_stable (ops : AngleOps) (n : Nat) (hr : ∀ v, IsInt32 v → IsInt32 (ops.fromAngle (ops.toAngle v)))
    (payload : Bytes) (d : MMGuides ops.Angle) (hd : parseEntry (parseGlobalGuides ops n) payload = .ok d) :
    CompilesTo (compileGuides ops n) (parseGlobalGuides ops n) d (reangle ops d) ∧
    ((∀ v, IsInt32 v → ops.fromAngle (ops.toAngle v) = v) →
      RoundTrips (compileGuides ops n) (parseGlobalGuides ops n) d) := by
  have hp := parseEntry_post (P := fun d : MMGuides ops.Angle =>
    ∀ l ∈ [d.h, d.v], l.length < 2147483648 ∧ ∀ g ∈ l, g.length = n ∧
      ∀ x ∈ g, IsInt32 x.pos ∧ ∃ v, IsInt32 v ∧ x.angle = ops.toAngle v)
    (Post.bind (post_guides payload.length ops n) fun g hg =>
      Post.bind Post.readAll fun b _ => Post.ite (fun _ => Post.pure hg) fun _ => Post.throw) hd
  have hfit : GuidesFit ops n d := by
    intro l hl
    refine ⟨(hp l hl).1, fun g hg => ⟨((hp l hl).2 g hg).1, fun x hx => ?_⟩⟩
    obtain ⟨h1, v, h2, h3⟩ := ((hp l hl).2 g hg).2 x hx
    exact ⟨h1, h3 ▸ hr v h2⟩
  refine ⟨C30_guides_compile ops n d hfit, fun hex => C30_guides_roundtrip ops n d hfit ?_⟩
  intro l hl g hg x hx
  obtain ⟨_, v, h2, h3⟩ := ((hp l hl).2 g hg).2 x hx
  rw [h3, hex v h2]

/-- **C30** A guide with fewer entries than the font has masters cannot be compiled. -/
theorem C30_guides_missing_master (ops : AngleOps) (n : Nat) (d : MMGuides ops.Angle)
    (h : ∃ l ∈ [d.h, d.v], ∃ g ∈ l, g.length < n) : Rejected (compileGuides ops n) d := by
  match hc : compileGuides ops n d with
  | .error e => exact ⟨e, hc⟩
  | .ok z =>
    exfalso
    obtain ⟨l, hl, g, hg, hlt⟩ := h
    obtain ⟨z1, z2, h1, h2, _⟩ := W.seq_eq_ok.1 hc
    have : ∃ z, compileGuideDir ops n l = .ok z := by
      simp only [List.mem_cons, List.not_mem_nil, or_false] at hl
      rcases hl with rfl | rfl
      · exact ⟨_, h1⟩
      · exact ⟨_, h2⟩
    obtain ⟨z, hz⟩ := this
    obtain ⟨_, z4, _, h4, _⟩ := W.seq_eq_ok.1 hz
    obtain ⟨y, hy⟩ := W.all_ok h4 g hg
    obtain ⟨y', hy'⟩ := W.all_ok hy g.length (List.mem_range.2 hlt)
    simp at hy'

/-- the slopes themselves as "angles": an instance with exact angles -/
def slopeOps : AngleOps := ⟨Int, id, id⟩

example : GuidesFit slopeOps 2 ⟨[[⟨100, (0 : Int)⟩, ⟨120, (5774 : Int)⟩]], []⟩ ∧
    AnglesExact slopeOps ⟨[[⟨100, (0 : Int)⟩, ⟨120, (5774 : Int)⟩]], []⟩ := by
  refine ⟨fun l hl => ?_, fun l hl g hg x hx => rfl⟩
  simp only [List.mem_cons, List.not_mem_nil, or_false] at hl
  rcases hl with rfl | rfl
  · refine ⟨by decide, fun g hg => ?_⟩
    rw [List.mem_singleton] at hg; subst hg
    refine ⟨rfl, fun x hx => ?_⟩
    simp only [List.mem_cons, List.not_mem_nil, or_false] at hx
    rcases hx with rfl | rfl <;> decide
  · exact ⟨by decide, fun g hg => absurd hg (by simp)⟩

/-! ## C31 -/

theorem hexVal_digit {d : Nat} (h : d < 16) : hexVal (hexDigit d) = some d := hexVal_hexDigit ⟨d, h⟩

theorem color_hex06 {n : Nat} (h : n < 16777216) :
    intBase16 (bgrFromColor (colorFromBgr (hex06 n))) = .ok (n : Int) := by
  unfold hex06
  rw [if_pos h]
  show intBase16 [_, _, _, _, _, _] = _
  unfold intBase16
  rw [if_neg (by simp)]
  simp only [List.mapM_cons, List.mapM_nil]
  have h1 := hexVal_digit (d := n / 1048576) (by omega)
  have h2 := hexVal_digit (d := n / 65536 % 16) (by omega)
  have h3 := hexVal_digit (d := n / 4096 % 16) (by omega)
  have h4 := hexVal_digit (d := n / 256 % 16) (by omega)
  have h5 := hexVal_digit (d := n / 16 % 16) (by omega)
  have h6 := hexVal_digit (d := n % 16) (by omega)
  simp only [List.cons_append, List.nil_append, List.drop, List.take, List.mapM_cons, List.mapM_nil,
    h1, h2, h3, h4, h5, h6]
  simp only [Option.bind_eq_bind, Option.bind_some, Option.pure_def, List.foldl]
  congr 1
  omega

theorem isHexColor_hex06 {s : PyStr} (h : IsHexColor s) : ∃ n : Nat, n < 16777216 ∧ s = colorFromBgr (hex06 n) := by
  obtain ⟨ds, hl, hd, rfl⟩ := h
  match ds, hl with
  | [r1, r2, g1, g2, b1, b2], _ =>
    have hr1 := hd r1 (by simp)
    have hr2 := hd r2 (by simp)
    have hg1 := hd g1 (by simp)
    have hg2 := hd g2 (by simp)
    have hb1 := hd b1 (by simp)
    have hb2 := hd b2 (by simp)
    refine ⟨b1 * 1048576 + b2 * 65536 + g1 * 4096 + g2 * 256 + r1 * 16 + r2, by omega, ?_⟩
    rw [hex06, if_pos (by omega)]
    have e1 : (b1 * 1048576 + b2 * 65536 + g1 * 4096 + g2 * 256 + r1 * 16 + r2) / 1048576 = b1 := by omega
    have e2 : (b1 * 1048576 + b2 * 65536 + g1 * 4096 + g2 * 256 + r1 * 16 + r2) / 65536 % 16 = b2 := by omega
    have e3 : (b1 * 1048576 + b2 * 65536 + g1 * 4096 + g2 * 256 + r1 * 16 + r2) / 4096 % 16 = g1 := by omega
    have e4 : (b1 * 1048576 + b2 * 65536 + g1 * 4096 + g2 * 256 + r1 * 16 + r2) / 256 % 16 = g2 := by omega
    have e5 : (b1 * 1048576 + b2 * 65536 + g1 * 4096 + g2 * 256 + r1 * 16 + r2) / 16 % 16 = r1 := by omega
    have e6 : (b1 * 1048576 + b2 * 65536 + g1 * 4096 + g2 * 256 + r1 * 16 + r2) % 16 = r2 := by omega
    rw [e1, e2, e3, e4, e5, e6]
    rfl

theorem guidePropBody_consuming : Consuming guidePropBody := by
  intro st s st' r h
  unfold guidePropBody at h
  obtain ⟨key, r1, h1, h⟩ := R.bind_eq_ok.1 h
  have hl := readValue_consume h1
  rw [R.ite_run] at h
  split at h
  · cases h
  · obtain ⟨v, r2, h2, h⟩ := R.bind_eq_ok.1 h
    have hl2 := readValue_consume h2
    obtain ⟨nm, r3, h3, h⟩ := R.bind_eq_ok.1 h
    have := (post_strWithLen (N := r2.length) _ _ _ (Nat.le_refl _) h3).2
    cases h
    omega

theorem is1252_isSome (n : PyStr) : Is1252 n ↔ ∀ c ∈ n, (cp1252Encode c).isSome = true := by
  rw [is1252_iff]
  exact forall_congr' fun c => forall_congr' fun _ => Option.isSome_iff_exists.symm

theorem isLatin_iff {s : PyStr} : IsLatin s ↔ Is1252 s := (is1252_isSome s).symm

theorem enc_valueLong_mixed {v : Int} (h : 0 ≤ v ∧ v < 2147483648) :
    Enc (writeValueLong v false) (readValue true) v := by
  have hc : ((256 ^ 4 : Nat) : Int) = 4294967296 := by decide
  have hi : inRange 4 true v := by simp only [inRange, hc]; omega
  have hu : inRange 4 false v := by simp only [inRange, hc]; omega
  rw [writeValueLong_ok false hu, ← writeValueLong_ok true hi]
  exact enc_valueLong hi

theorem colorFromBgr_cons (s : PyStr) : ∃ cs, colorFromBgr s = 35 :: cs := ⟨_, rfl⟩

theorem enc_guidePropRaw {index raw : Int} {name : PyStr} {w : W} (h1 : IsInt32 index) (h2 : index ≠ 0)
    (hw : Enc w (readValue true) raw) (hn : StrOk name) (acc : List GuideProp) :
    Enc (writeValue index ++ (w ++ writeStrWithLen (some name))) (guidePropBody acc)
      (.inl (acc ++ [⟨index, if raw > -1 then some (colorFromBgr (hex06 raw.toNat)) else none,
        if name = [] then none else some name⟩])) := by
  unfold guidePropBody
  refine Enc.bind (enc_value (valOk_iff.2 h1)) ?_
  rw [if_neg h2]
  exact Enc.bind hw (Enc.last (enc_strWithLen hn) rfl)

/-- the stored property of a guide -/
theorem enc_guideProp {g : GuideProp} (h : GuidePropOk g) (acc : List GuideProp) :
    Enc (compileGuideProp g) (guidePropBody acc) (.inl (acc ++ [g])) := by
  obtain ⟨h1, h2, h3, h4⟩ := h
  obtain ⟨index, color, name⟩ := g
  simp only at h1 h2 h3 h4
  have hname : ∃ s, StrOk s ∧ writeStrWithLen name = writeStrWithLen (some s) ∧
      (if s = [] then none else some s) = name := by
    cases name with
    | none => exact ⟨[], ⟨⟨[], rfl⟩, by simp⟩, rfl, rfl⟩
    | some n =>
      obtain ⟨e1, e2, e3⟩ := h4 n rfl
      exact ⟨n, ⟨(is1252_isSome n).2 e3, e2⟩, rfl, by rw [if_neg e1]⟩
  obtain ⟨s, hs1, hs2, hs3⟩ := hname
  have hcolor : ∃ raw w, Enc w (readValue true) raw ∧
      (if raw > -1 then some (colorFromBgr (hex06 raw.toNat)) else none) = color ∧
      compileGuideProp ⟨index, color, name⟩ = writeValue index ++ (w ++ writeStrWithLen name) := by
    cases color with
    | none => exact ⟨-1, _, enc_value (by decide), if_neg (by decide), by rw [← W.seq_assoc]; rfl⟩
    | some c =>
      obtain ⟨n, hn, hcn⟩ := isHexColor_hex06 (h3 c rfl)
      have hc := color_hex06 hn
      rw [← hcn] at hc
      obtain ⟨cs, hcs⟩ := colorFromBgr_cons (hex06 n)
      rw [← hcn] at hcs
      refine ⟨n, _, enc_valueLong_mixed (v := (n : Int)) (by omega), ?_, ?_⟩
      · rw [if_pos (by omega), Int.toNat_natCast, ← hcn]
      · subst hcs
        unfold compileGuideProp
        simp only [W.seq_assoc]
        rw [hc, W.withVal_ok]
  obtain ⟨raw, w, hw, he, hcomp⟩ := hcolor
  rw [hcomp, hs2]
  have := enc_guidePropRaw h1 h2 hw hs1 acc
  rw [he, hs3] at this
  exact this

theorem enc_guidePropDir {l : List GuideProp} (h : ∀ g ∈ l, GuidePropOk g) :
    Enc (W.all l compileGuideProp ++ writeValue 0) (R.whileTrue guidePropBody []) l := by
  have hf : ∀ (l acc : List GuideProp), l.foldl (fun acc v => acc ++ [v]) acc = acc ++ l := by
    intro l
    induction l with
    | nil => simp
    | cons x l ih => intro acc; simp [ih]
  refine Enc.whileTrue guidePropBody_consuming (step := fun acc g => acc ++ [g]) l []
    (fun pre x post he => ?_) ?_
  · exact enc_guideProp (h x (by rw [he]; simp)) _
  · rw [hf]
    show Enc (writeValue 0) (guidePropBody l) _
    unfold guidePropBody
    exact Enc.last (enc_value (v := 0) (by decide)) rfl

/-- **C31** Guide properties round-trip: nonzero 32-bit index, colour "#rrggbb" or none, Windows-1252
name or none. -/
theorem C31_guide_properties_roundtrip (d : GuideProps) (h : ∀ g ∈ d.h ++ d.v, GuidePropOk g) :
    RoundTrips compileGuideProps parseGuideProps d := by
  refine roundTrips_of_enc ?_
  unfold compileGuideProps parseGuideProps
  refine Enc.bind (enc_guidePropDir fun g hg => h g (List.mem_append_left _ hg)) ?_
  exact Enc.last (enc_guidePropDir fun g hg => h g (List.mem_append_right _ hg)) rfl

/-- what a parsed guide property looks like -/
def ParsedProp (N : Nat) (g : GuideProp) : Prop :=
  IsInt32 g.index ∧ g.index ≠ 0 ∧ (∀ c, g.color = some c → ∃ n : Nat, c = colorFromBgr (hex06 n)) ∧
  ∀ n, g.name = some n → n ≠ [] ∧ StrN N n

theorem post_guidePropBody (N : Nat) (acc : List GuideProp) (ha : ∀ g ∈ acc, ParsedProp N g) :
    Post N (guidePropBody acc) (Sum.elim (fun l => ∀ g ∈ l, ParsedProp N g) fun l => ∀ g ∈ l, ParsedProp N g) := by
  unfold guidePropBody
  refine Post.bind (post_value true) fun i hi => Post.ite (fun _ => Post.pure ha) fun hi0 => ?_
  refine Post.bind (post_value true) fun raw _ => Post.bind post_strWithLen fun name hn => Post.pure ?_
  intro g hg
  rcases List.mem_append.1 hg with hg | hg
  · exact ha g hg
  · rw [List.mem_singleton] at hg
    subst hg
    refine ⟨valOk_iff.1 hi, hi0, ?_, ?_⟩
    · intro c hc
      simp only at hc
      split at hc
      · cases hc; exact ⟨_, rfl⟩
      · cases hc
    · intro n he
      simp only at he
      split at he
      · cases he
      · next hne => cases he; exact ⟨hne, hn⟩

theorem natHexAux_len {fuel n k : Nat} (hf : n < fuel) (h : 16 ^ k ≤ n) : k < (natHexAux fuel n).length := by
  induction k generalizing fuel n with
  | zero =>
    cases fuel with
    | zero => omega
    | succ f => rw [natHexAux]; split <;> simp
  | succ k ih =>
    cases fuel with
    | zero => omega
    | succ f =>
      have : 16 ≤ n := by
        have : 16 ^ 1 ≤ 16 ^ (k + 1) := Nat.pow_le_pow_right (by omega) (by omega)
        omega
      rw [natHexAux, if_neg (by omega), List.length_append, List.length_singleton]
      have := ih (fuel := f) (n := n / 16) (by omega) (by
        rw [Nat.pow_succ] at h; omega)
      omega

theorem colorFromBgr_length (s : PyStr) : (colorFromBgr s).length = s.length + 1 := by
  simp [colorFromBgr]; omega

theorem hex06_short {n : Nat} (h : (colorFromBgr (hex06 n)).length = 7) : n < 16777216 := by
  apply Decidable.byContradiction
  intro hn
  rw [colorFromBgr_length, hex06, if_neg hn] at h
  have := natHexAux_len (fuel := n + 1) (n := n) (k := 6) (by omega) (by
    have : (16 ^ 6 : Nat) = 16777216 := by decide
    omega)
  omega

theorem hexDigit_eq (d : Nat) : hexDigit d = if d < 10 then 48 + d else 87 + d := rfl

theorem isHexColor_of {n : Nat} (h : n < 16777216) : IsHexColor (colorFromBgr (hex06 n)) := by
  refine ⟨[n / 16 % 16, n % 16, n / 4096 % 16, n / 256 % 16, n / 1048576, n / 65536 % 16], rfl, ?_, ?_⟩
  · intro d hd
    simp only [List.mem_cons, List.not_mem_nil, or_false] at hd
    rcases hd with rfl | rfl | rfl | rfl | rfl | rfl <;> omega
  · rw [hex06, if_pos h]; rfl

/-- **C31** Parsed guide properties can be compiled and parsed again, provided that all colours are
"#" and six digits, i.e. no stored colour value exceeds 24 bits. -/
theorem C31_guide_properties_stable_when :
    StableWhen compileGuideProps parseGuideProps
      (fun d => ∀ g ∈ d.h ++ d.v, ∀ c, g.color = some c → c.length = 7) := by
  refine stableWhen_of_post (P := fun N d => ∀ g ∈ d.h ++ d.v, ParsedProp N g) (fun N => ?_) ?_
  · refine Post.bind (Post.whileTrue (fun st hst => post_guidePropBody N st hst) [] (by simp)) fun h hh => ?_
    refine Post.bind (Post.whileTrue (fun st hst => post_guidePropBody N st hst) [] (by simp)) fun v hv => ?_
    exact Post.pure fun g hg => (List.mem_append.1 hg).elim (hh g) (hv g)
  · intro N d hN hp hc
    refine C31_guide_properties_roundtrip d fun g hg => ?_
    obtain ⟨h1, h2, h3, h4⟩ := hp g hg
    refine ⟨h1, h2, fun c he => ?_, fun n he => ?_⟩
    · obtain ⟨n, rfl⟩ := h3 c he
      exact isHexColor_of (hex06_short (hc g hg _ he))
    · obtain ⟨e1, e2⟩ := h4 n he
      exact ⟨e1, by have := e2.2; omega, (is1252_isSome n).1 e2.1⟩

/-- **C31** (finding) a colour value of more than 24 bits changes when written -/
theorem C31_guide_properties_not_stable :
    ∃ payload d payload' d', parseEntry parseGuideProps payload = .ok d ∧ compileGuideProps d = .ok payload' ∧
      parseEntry parseGuideProps payload' = .ok d' ∧ d' ≠ d := by
  refine ⟨[0x8C, 0xFF, 1, 0x23, 0x45, 0x67, 0x8B, 0x8B, 0x8B], ⟨[⟨1, some (lit "#5673412"), none⟩], []⟩,
    [0x8C, 0xFF, 4, 0x12, 0x73, 0x56, 0x8B, 0x8B, 0x8B], ⟨[⟨1, some (lit "#3562741"), none⟩], []⟩, ?_⟩
  exact ⟨by decide +kernel, by decide +kernel, by decide +kernel, by decide +kernel⟩

/-- **C31** (finding) index 0 ends the list: a horizontal guide with index 0 comes back as a vertical guide
with index -1 and a colour. -/
theorem C31_guide_properties_index0 :
    CompilesTo compileGuideProps parseGuideProps ⟨[⟨0, none, none⟩], []⟩ ⟨[], [⟨-1, some (lit "#000000"), none⟩]⟩ :=
  ⟨[0x8B, 0x8A, 0x8B, 0x8B, 0x8B], by decide +kernel, by decide +kernel⟩

example : GuidePropOk ⟨3, some (lit "#ff8000"), some (lit "Überlänge")⟩ := by
  refine ⟨by decide, by decide, fun c hc => ?_, fun n hn => ?_⟩
  · cases hc; exact ⟨[15, 15, 8, 0, 0, 0], by decide, by decide, by decide⟩
  · cases hn; exact ⟨by decide, by decide, by decide⟩

end Verif.Props
