import Verif.Props.UfoInfoBuild
/-! C78, C79: the theorems about the font info and the TrueType values of the lib. -/
set_option autoImplicit false
namespace Verif.Props
open Verif Verif.Spec

section
variable {fmt : Int → PyStr} {ops : AngleOps} {asm : AsmOps}

theorem buildInfo_cases {o : BuildOpts} {es : List (FEntry ops asm)} {p : InfoPart asm.Asm} (h : buildInfo fmt ops asm o es = .ok p) :
    ∃ st, InfoInv fmt o es st ∧
      (∃ pos t, dictGet st.attrs (lit "postscriptUnderlinePosition") = some (.int pos) ∧
        dictGet st.attrs (lit "postscriptUnderlineThickness") = some (.int t) ∧
        p.attrs = dictSet st.attrs (lit "postscriptUnderlinePosition") (.int (pos + halfRounded t))) ∧
      p.tt = (st.tt.bind fun lib => if isDefaultTT lib then none else some lib) ∧ p.userData = st.userData ∧
      p.metricsFlags = st.metricsFlags ∧ p.tth = st.tth := by
  unfold buildInfo at h
  cases hf : es.foldlM (infoStep fmt ops asm o) (noInfo asm.Asm) with
  | error er => rw [hf] at h; cases h
  | ok st =>
    rw [hf] at h
    replace h : (fixUnderline st.attrs >>= fun attrs => (Except.ok { st with
      attrs := attrs
      tt := st.tt.bind fun lib => if isDefaultTT lib then none else some lib } : Except PyErr _)) = .ok p := h
    cases hx : fixUnderline st.attrs with
    | error er => rw [hx] at h; cases h
    | ok attrs =>
      rw [hx] at h
      cases h
      refine ⟨st, infoInv hf, ?_, rfl, rfl, rfl, rfl⟩
      unfold fixUnderline at hx
      cases h1 : dictGet st.attrs (lit "postscriptUnderlinePosition") with
      | none => rw [h1] at hx; cases hx
      | some x =>
        cases h2 : dictGet st.attrs (lit "postscriptUnderlineThickness") with
        | none => rw [h1, h2] at hx; cases x <;> cases hx
        | some y =>
          rw [h1, h2] at hx
          cases x with
          | int pos =>
            cases y with
            | int t => cases hx; exact ⟨pos, t, rfl, rfl, rfl⟩
            | _ => cases hx
          | _ => cases hx

/-- Each attribute of the font info, except for the underline position, has the value that the last entry says that says something about
it; without such an entry it has got its default value, or it is not set if there is none. -/
theorem C78_attributes {o : BuildOpts} {es : List (FEntry ops asm)} {p : InfoPart asm.Asm} (h : buildInfo fmt ops asm o es = .ok p)
    (attr : PyStr) (ha : attr ≠ lit "postscriptUnderlinePosition") :
    LastSaid ops asm (effective ops asm o es) (fun id d v => Says fmt ops asm id d attr v) (dictGet defaultAttributes attr)
      (dictGet p.attrs attr) := by
  obtain ⟨st, hi, ⟨pos, t, -, -, hp⟩, -⟩ := buildInfo_cases h
  rw [hp, dictGet_dictSet, if_neg (Ne.symm ha)]
  exact hi.attrs attr

/-- The underline position of the file is the middle of the line, that of the UFO is its upper edge: half of the thickness, rounded to the
nearest integer (ties to even), is added. -/
theorem C78_underline {o : BuildOpts} {es : List (FEntry ops asm)} {p : InfoPart asm.Asm} (h : buildInfo fmt ops asm o es = .ok p) :
    ∃ pos t half : Int,
      LastSaid ops asm (effective ops asm o es) (fun id d v => Says fmt ops asm id d (lit "postscriptUnderlinePosition") v) (some (.int 0))
        (some (.int pos)) ∧
      dictGet p.attrs (lit "postscriptUnderlineThickness") = some (.int t) ∧
      dictGet p.attrs (lit "postscriptUnderlinePosition") = some (.int (pos + half)) ∧
      (|t| < 9007199254740992 → |2 * half - t| ≤ 1 ∧ (|2 * half - t| = 1 → half % 2 = 0)) := by
  obtain ⟨st, hi, ⟨pos, t, h1, h2, hp⟩, -⟩ := buildInfo_cases h
  refine ⟨pos, t, halfRounded t, ?_, ?_, ?_, fun ht => halfRounded_near ht⟩
  · have := hi.attrs (lit "postscriptUnderlinePosition")
    rw [h1] at this
    exact this
  · rw [hp, dictGet_dictSet, if_neg (by decide)]
    exact h2
  · rw [hp, dictGet_dictSet, if_pos rfl]

theorem isData_unique {d : Decompiled ops.Angle asm.Asm} {v w : InfoVal} (h : IsData ops asm d v) (h' : IsData ops asm d w) : v = w := by
  cases h <;> cases h' <;> rfl

theorem isBits_unique {n : Int} {a b : List Int} (h : IsBits n a) (h' : IsBits n b) : a = b :=
  sorted_ext h.2.1 h'.2.1 fun x => by rw [h.2.2, h'.2.2]

theorem forall2_unique {α β : Type} {R : α → β → Prop} (hR : ∀ a b c, R a b → R a c → b = c) :
    ∀ {l : List α} {x y : List β}, List.Forall₂ R l x → List.Forall₂ R l y → x = y
  | [], _, _, .nil, .nil => rfl
  | _ :: _, _, _, .cons h1 h2, .cons h3 h4 => by rw [hR _ _ _ h1 h3, forall2_unique hR h2 h4]

/-- the key of the TrueType info for an attribute -/
def attrKey (attr : PyStr) : Option Int :=
  dictGet ([(lit "openTypeHeadCreated", 0x56), (lit "openTypeOS2Type", 0x40), (lit "openTypeOS2FamilyClass", 0x4B),
    (lit "postscriptNominalWidthX", 0x5C), (lit "openTypeHeadFlags", 0x39), (lit "openTypeOS2CodePageRanges", 0x54)] ++
    copiedNumbers.map fun e => (e.2, e.1)) attr

theorem copied_attrKey : ∀ e ∈ copiedNumbers, attrKey e.2 = some e.1 := by decide +kernel

/-- items of the TrueType info that say something about the same attribute have got the same key -/
theorem saysTT_key {k : Int} {x : TTVal} {attr : PyStr} {v : InfoVal} (h : SaysTT fmt k x attr v) : attrKey attr = some k := by
  cases h with
  | copied hm _ => exact copied_attrKey _ hm
  | _ => decide +kernel

theorem copied_special : ∀ e ∈ copiedNumbers, e.1 ∉ [0x56, 0x40, 0x4B, 0x5C, 0x39, 0x54] := by decide +kernel

theorem saysTT_value {k : Int} {x : TTVal} {attr : PyStr} {v w : InfoVal} (h : SaysTT fmt k x attr v) (h' : SaysTT fmt k x attr w) : v = w := by
  cases h with
  | copied hm u =>
    have hsp := copied_special _ hm
    cases h' with
    | copied hm' _ => rfl
    | _ => simp at hsp
  | created a b =>
    cases h' with
    | copied hm _ => exact absurd (by simp) (copied_special _ hm)
    | created => rfl
  | embedding a b h =>
    cases h' with
    | copied hm _ => exact absurd (by simp) (copied_special _ hm)
    | embedding _ _ g => rw [isBits_unique h g]
  | familyClass a b c h hs =>
    cases h' with
    | copied hm _ => exact absurd (by simp) (copied_special _ hm)
    | familyClass _ b' c' g gs =>
      obtain rfl : b = b' := by omega
      obtain rfl : c = c' := by omega
      rfl
  | averageWidth a h =>
    cases h' with
    | copied hm _ => exact absurd (by simp) (copied_special _ hm)
    | averageWidth => rfl
  | headFlags f l =>
    cases h' with
    | headFlags => rfl
  | codePages a b la lb ha hb hne =>
    cases h' with
    | codePages _ _ la' lb' ga gb _ => rw [isBits_unique ha ga, isBits_unique hb gb]

theorem infoMapping_special' : ∀ e ∈ copiedAttributes, e.1 ∉ [1024, 1034, 1048, 1127, 1137, 1138, 1264, 1265, 1267, 2021] := by decide +kernel
theorem copiedAttributes_ok : DictOk copiedAttributes := by unfold DictOk; decide +kernel

/-- No entry says two different things about an attribute (the keys of the TrueType info are different, as it is a dict). -/
theorem C78_unambiguous {id : Int} {d : Decompiled ops.Angle asm.Asm} {attr : PyStr} {v w : InfoVal}
    (hd : ∀ l, d = .ttInfo l → DictOk l) (h : Says fmt ops asm id d attr v) (h' : Says fmt ops asm id d attr w) : v = w := by
  cases h with
  | copied hm hv =>
    have hsp := infoMapping_special' _ hm
    cases h' with
    | copied hm' hw => exact isData_unique hv hw
    | _ => simp at hsp
  | trueType l hm hs =>
    cases h' with
    | copied hm' _ => exact absurd (by simp) (infoMapping_special' _ hm')
    | trueType _ hm' hs' =>
      have hk := saysTT_key hs
      rw [saysTT_key hs'] at hk
      cases hk
      have h1 := (dictGet_iff (hd l rfl)).2 hm
      have h2 := (dictGet_iff (hd l rfl)).2 hm'
      rw [h1] at h2
      cases h2
      exact saysTT_value hs hs'
  | gasp l l' hl =>
    cases h' with
    | copied hm' _ => exact absurd (by simp) (infoMapping_special' _ hm')
    | gasp _ l'' hl' =>
      rw [forall2_unique (fun r g g' (h1 : g.1 = _ ∧ _) (h2 : g'.1 = _ ∧ _) => Prod.ext (h1.1.trans h2.1.symm) (isBits_unique h1.2 h2.2)) hl hl']
  | selection a b h =>
    generalize ha : lit "openTypeOS2Selection" = attr at h'
    cases h' with
    | copied hm' _ => exact absurd (by simp) (infoMapping_special' _ hm')
    | selection _ b' h' => rw [isBits_unique h h']
    | styleMap => exact absurd ha (by decide)
  | styleMap a b _ h =>
    generalize ha : lit "styleMapStyleName" = attr at h'
    cases h' with
    | copied hm' _ => exact absurd (by simp) (infoMapping_special' _ hm')
    | selection => exact absurd ha (by decide)
    | styleMap _ b' _ h' => rw [h] at h'; cases h'; rfl
  | family s =>
    generalize ha : lit "familyName" = attr at h'
    cases h' with
    | copied hm' _ => exact absurd (by simp) (infoMapping_special' _ hm')
    | _ => rfl
  | prefFamily s =>
    generalize ha : lit "openTypeNamePreferredFamilyName" = attr at h'
    cases h' with
    | copied hm' _ => exact absurd (by simp) (infoMapping_special' _ hm')
    | _ => rfl
  | fixedPitch a b h =>
    cases h' with
    | copied hm' _ => exact absurd (by simp) (infoMapping_special' _ hm')
    | fixedPitch _ b' h' =>
      have : b = b' := by rw [Bool.eq_iff_iff, h, h']
      rw [this]
  | weight a b h1 h2 h3 h4 =>
    cases h' with
    | copied hm' _ => exact absurd (by simp) (infoMapping_special' _ hm')
    | weight _ b' g1 g2 g3 g4 =>
      have : b = b' := by
        rcases lt_or_ge a 1 with ha | ha
        · rw [h3 ha, g3 ha]
        · rcases lt_or_ge 1000 a with ha' | ha'
          · rw [h4 ha', g4 ha']
          · rw [h2 ha ha', g2 ha ha']
      rw [this]
  | weightName s =>
    cases h' with
    | copied hm' _ => exact absurd (by simp) (infoMapping_special' _ hm')
    | _ => rfl
  | style s =>
    generalize ha : lit "styleName" = attr at h'
    cases h' with
    | copied hm' _ => exact absurd (by simp) (infoMapping_special' _ hm')
    | _ => rfl
  | prefStyle s =>
    generalize ha : lit "openTypeNamePreferredSubfamilyName" = attr at h'
    cases h' with
    | copied hm' _ => exact absurd (by simp) (infoMapping_special' _ hm')
    | _ => rfl
  | names l =>
    cases h' with
    | copied hm' _ => exact absurd (by simp) (infoMapping_special' _ hm')
    | _ => rfl
  | ranges l =>
    cases h' with
    | copied hm' _ => exact absurd (by simp) (infoMapping_special' _ hm')
    | _ => rfl

/-! ### when the conversion succeeds -/

theorem bits_exists (v : Int) : (∃ l, binaryToIntList v = .ok l) ↔ 0 ≤ v := by
  constructor
  · rintro ⟨l, h⟩; exact ((bits_iff _ _).1 h).1
  · intro h
    obtain ⟨n, rfl⟩ := Int.eq_ofNat_of_zero_le h
    obtain ⟨l, h1, -⟩ := C18_bits_of_int n 0
    exact ⟨l, h1⟩

/-- an item of the TrueType info that can be converted -/
def ItemOk (e : Int × TTVal) : Prop :=
  (∀ v, e = (0x56, .int v) → IsInt32 v) ∧ (∀ v, e = (0x40, .int v) → 0 ≤ v) ∧ ∀ a b, e = (0x54, .codepages a b) → 0 ≤ a ∧ 0 ≤ b

theorem ttInfoItem_ok {st : InfoPart asm.Asm} {e : Int × TTVal} : (∃ st', ttInfoItem fmt st e = .ok st') ↔ ItemOk e := by
  obtain ⟨key, val⟩ := e
  unfold ttInfoItem ItemOk
  cases val with
  | int v =>
    dsimp only
    cases hk : dictGet ttAttributes key with
    | some attr =>
      have := ttAttributes_special _ (dictGet_some_mem hk)
      simp at this
      dsimp only
      refine ⟨fun _ => ⟨?_, ?_, ?_⟩, fun _ => ⟨_, rfl⟩⟩
      · intro v h; simp at h; omega
      · intro v h; simp at h; omega
      · intro v w h; simp at h
    | none =>
      dsimp only
      by_cases h1 : key = 0x56
      · rw [if_pos h1]
        constructor
        · rintro ⟨st', h⟩
          refine ⟨fun w hw => ?_, fun w hw => ?_, fun a b hw => ?_⟩
          · by_contra hi
            simp at hw
            rw [hw.2, C48_timestamp_overflow w hi] at h
            cases h
          · simp at hw; omega
          · simp at hw
        · rintro ⟨h, -⟩
          rw [C48_timestamp_meaning v (h v (by rw [h1]))]
          exact ⟨_, rfl⟩
      rw [if_neg h1]
      by_cases h2 : key = 0x3D
      · rw [if_pos h2]
        refine ⟨fun _ => ⟨?_, ?_, ?_⟩, fun _ => ⟨_, rfl⟩⟩
        · intro v h; simp at h; omega
        · intro v h; simp at h; omega
        · intro v w h; simp at h
      rw [if_neg h2]
      by_cases h3 : key = 0x40
      · rw [if_pos h3]
        constructor
        · rintro ⟨st', h⟩
          refine ⟨fun w hw => ?_, fun w hw => ?_, fun a b hw => ?_⟩
          · simp at hw; omega
          · simp at hw
            rw [← hw.2, ← bits_exists]
            cases hb : binaryToIntList v with
            | error er => rw [hb] at h; cases h
            | ok l => exact ⟨l, rfl⟩
          · simp at hw
        · rintro ⟨-, h, -⟩
          obtain ⟨l, hl⟩ := (bits_exists v).2 (h v (by rw [h3]))
          rw [hl]
          exact ⟨_, rfl⟩
      rw [if_neg h3]
      have hgoal : (∀ w, (key, TTVal.int v) = (0x56, .int w) → IsInt32 w) ∧ (∀ w, (key, TTVal.int v) = (0x40, .int w) → 0 ≤ w) ∧
          ∀ a b, (key, TTVal.int v) = (0x54, .codepages a b) → 0 ≤ a ∧ 0 ≤ b := by
        refine ⟨?_, ?_, ?_⟩
        · intro v h; simp at h; omega
        · intro v h; simp at h; omega
        · intro v w h; simp at h
      refine ⟨fun _ => hgoal, fun _ => ?_⟩
      by_cases h4 : key = 0x4B
      · rw [if_pos h4]; exact ⟨_, rfl⟩
      rw [if_neg h4]
      by_cases h5 : key = 0x3E
      · rw [if_pos h5]; exact ⟨_, rfl⟩
      rw [if_neg h5]
      by_cases h6 : key = 0x50
      · rw [if_pos h6]; exact ⟨_, rfl⟩
      rw [if_neg h6]
      cases hx : dictGet maxpKeys key with
      | some k => exact ⟨_, rfl⟩
      | none =>
        dsimp only
        by_cases h7 : key = 0x5C
        · rw [if_pos h7]; exact ⟨_, rfl⟩
        · rw [if_neg h7]; exact ⟨_, rfl⟩
  | bytes l => simp
  | flags f opt => simp
  | codepages a b =>
    dsimp only
    by_cases h1 : key = 0x54
    · rw [if_pos h1]
      constructor
      · rintro ⟨st', h⟩
        refine ⟨by simp, by simp, fun a' b' hw => ?_⟩
        simp at hw
        rw [← hw.2.1, ← hw.2.2, ← bits_exists, ← bits_exists]
        cases ha : binaryToIntList a with
        | error er => rw [ha] at h; cases h
        | ok la =>
          cases hb : binaryToIntList b with
          | error er => rw [ha, hb] at h; cases h
          | ok lb => exact ⟨⟨la, rfl⟩, ⟨lb, rfl⟩⟩
      · rintro ⟨-, -, h⟩
        obtain ⟨ha, hb⟩ := h a b (by rw [h1])
        obtain ⟨la, hla⟩ := (bits_exists a).2 ha
        obtain ⟨lb, hlb⟩ := (bits_exists b).2 hb
        rw [hla, hlb]
        exact ⟨_, rfl⟩
    · rw [if_neg h1]
      refine ⟨fun _ => ⟨by simp, by simp, ?_⟩, fun _ => ⟨_, rfl⟩⟩
      intro a b h; simp at h; omega

theorem setTTInfo_ok (d : TTInfo) : ∀ (st : InfoPart asm.Asm), (∃ st', setTTInfo fmt st d = .ok st') ↔ ∀ e ∈ d, ItemOk e := by
  unfold setTTInfo
  induction d with
  | nil => intro st; exact ⟨fun _ e he => (by cases he), fun _ => ⟨st, rfl⟩⟩
  | cons e d ih =>
    intro st
    rw [List.foldlM_cons]
    constructor
    · rintro ⟨st', h⟩
      cases hs : ttInfoItem fmt st e with
      | error er => rw [hs] at h; cases h
      | ok st1 =>
        rw [hs] at h
        intro x hx
        rcases List.mem_cons.1 hx with rfl | hx
        · exact ttInfoItem_ok.1 ⟨st1, hs⟩
        · exact (ih st1).1 ⟨st', h⟩ x hx
    · intro h
      obtain ⟨st1, h1⟩ := (ttInfoItem_ok (fmt := fmt) (st := st)).2 (h e List.mem_cons_self)
      obtain ⟨st', h2⟩ := (ih st1).2 fun x hx => h x (List.mem_cons_of_mem _ hx)
      refine ⟨st', ?_⟩
      rw [h1]
      exact h2

theorem gasp_exists (l : List GaspRec) :
    (∃ l', l.mapM (fun r => binaryToIntList r.flags >>= fun b => (.ok (r.maxPpem, b) : Except PyErr _)) = .ok l') ↔ ∀ r ∈ l, 0 ≤ r.flags := by
  constructor
  · rintro ⟨l', h⟩ r hr
    have h := gasp_iff.1 h
    clear * - h hr
    induction h with
    | nil => cases hr
    | cons h1 h2 ih =>
      rcases List.mem_cons.1 hr with rfl | hr
      · exact h1.2.1
      · exact ih hr
  · intro h
    induction l with
    | nil => exact ⟨[], rfl⟩
    | cons r l ih =>
      obtain ⟨l', hl⟩ := ih fun x hx => h x (List.mem_cons_of_mem _ hx)
      obtain ⟨b, hb⟩ := (bits_exists r.flags).2 (h r List.mem_cons_self)
      refine ⟨(r.maxPpem, b) :: l', ?_⟩
      rw [List.mapM_cons, hb, hl]
      rfl

theorem mapping_kinds : ∀ e ∈ infoMapping, ∃ k ∈ [Kind.string, .int16, .sint16, .sint32, .double, .panose, .vendor], kindOf e.1 = some k := by
  decide +kernel

theorem infoMapping_none2 : ∀ id ∈ [1264, 1265, 1267, 1261, 1262, 1263], dictGet infoMapping id = none := by decide +kernel

set_option maxHeartbeats 4000000 in
theorem infoEntry_ok {st : InfoPart asm.Asm} {id : Int} {d : Decompiled ops.Angle asm.Asm} (hw : WellTyped ops asm (id, some d)) :
    (∃ st', infoEntry fmt ops asm st id d = .ok st') ↔ Convertible ops asm id d := by
  by_cases hid : id ∈ [1264, 1265, 1267, 1261, 1262, 1263]
  · have hn := infoMapping_none2 id hid
    simp only [List.mem_cons, List.not_mem_nil, or_false] at hid
    unfold infoEntry
    rw [hn]
    rcases hid with rfl | rfl | rfl | rfl | rfl | rfl
    · have h1 := hw _ d (show kindOf 1264 = some .ttInfo from by decide +kernel) rfl
      cases d with
      | ttInfo l =>
        refine Iff.trans (setTTInfo_ok l st) ?_
        constructor
        · intro h
          exact .trueType l (fun v hv => (h _ hv).1 v rfl) (fun v hv => (h _ hv).2.1 v rfl) (fun a b hv => (h _ hv).2.2 a b rfl)
        · intro h
          cases h with
          | trueType _ g1 g2 g3 =>
            exact fun e he => ⟨fun v hv => g1 v (hv ▸ he), fun v hv => g2 v (hv ▸ he), fun a b hv => g3 a b (hv ▸ he)⟩
          | other _ _ h => simp at h
      | _ => simp [Kind.cls] at h1
    · have h1 := hw _ d (show kindOf 1265 = some .gasp from by decide +kernel) rfl
      cases d with
      | gasp l =>
        constructor
        · rintro ⟨st', h⟩
          replace h : setGasp st l = .ok st' := h
          unfold setGasp at h
          refine .gasp l ((gasp_exists l).1 ?_)
          cases hg : l.mapM (fun r => binaryToIntList r.flags >>= fun b => (.ok (r.maxPpem, b) : Except PyErr _)) with
          | error er => rw [hg] at h; cases h
          | ok l' => exact ⟨l', rfl⟩
        · intro h
          cases h with
          | gasp _ h =>
            obtain ⟨l', hl⟩ := (gasp_exists l).2 h
            refine ⟨st.setAttr (lit "openTypeGaspRangeRecords") (.gasp l'), ?_⟩
            show setGasp st l = _
            unfold setGasp
            rw [hl]
            rfl
          | other _ _ h => simp at h
      | _ => simp [Kind.cls] at h1
    · have h1 := hw _ d (show kindOf 1267 = some .int16 from by decide +kernel) rfl
      cases d with
      | int v =>
        constructor
        · rintro ⟨st', h⟩
          replace h : setSelection st v = .ok st' := h
          unfold setSelection at h
          refine .style v ((bits_exists v).1 ?_)
          cases hb : binaryToIntList v with
          | error er => rw [hb] at h; cases h
          | ok l' => exact ⟨l', rfl⟩
        · intro h
          cases h with
          | style _ h =>
            obtain ⟨l', hl⟩ := (bits_exists v).2 h
            show ∃ st', setSelection st v = .ok st'
            unfold setSelection
            rw [hl]
            exact ⟨_, rfl⟩
          | other _ _ h => simp at h
      | _ => simp [Kind.cls] at h1
    · have h1 := hw _ d (show kindOf 1261 = some .hex from by decide +kernel) rfl
      cases d with
      | str s =>
        show (∃ st', (deHexStr s >>= fun b => unpackI16 b >>= fun l =>
          Except.ok (st.setTT (lit "controlValue") (.cvt (numbered 0 l)))) = .ok st') ↔ _
        constructor
        · rintro ⟨st', h⟩
          cases hb : deHexStr s with
          | error er => rw [hb] at h; cases h
          | ok b =>
            rw [hb] at h
            replace h : (unpackI16 b >>= fun l => Except.ok (st.setTT (lit "controlValue") (.cvt (numbered 0 l)))) = .ok st' := h
            cases hl : unpackI16 b with
            | error er => rw [hl] at h; cases h
            | ok l => exact .cvt s b hb (by have := (unpackI16_ok b l hl).1; omega)
        · intro h
          cases h with
          | cvt _ b hb h =>
            obtain ⟨l, hl⟩ := unpackI16_exists b h
            rw [hb]
            show ∃ st', (unpackI16 b >>= fun l => Except.ok (st.setTT (lit "controlValue") (.cvt (numbered 0 l)))) = .ok st'
            rw [hl]
            exact ⟨_, rfl⟩
          | program _ _ _ _ hc => omega
          | other _ _ h => simp at h
      | _ => simp [Kind.cls] at h1
    · have h1 := hw _ d (show kindOf 1262 = some .hex from by decide +kernel) rfl
      cases d with
      | str s =>
        show (∃ st', (deHexStr s >>= fun b => asm.disassemble b >>= fun a =>
          Except.ok (st.setTT (lit "controlValueProgram") (.asm a))) = .ok st') ↔ _
        constructor
        · rintro ⟨st', h⟩
          cases hb : deHexStr s with
          | error er => rw [hb] at h; cases h
          | ok b =>
            rw [hb] at h
            replace h : (asm.disassemble b >>= fun a => Except.ok (st.setTT (lit "controlValueProgram") (.asm a))) = .ok st' := h
            cases hl : asm.disassemble b with
            | error er => rw [hl] at h; cases h
            | ok l => exact .program _ s b l (.inl rfl) hb hl
        · intro h
          cases h with
          | program _ _ b a _ hb h =>
            rw [hb]
            show ∃ st', (asm.disassemble b >>= fun a => Except.ok (st.setTT (lit "controlValueProgram") (.asm a))) = .ok st'
            rw [h]
            exact ⟨_, rfl⟩
          | other _ _ h => simp at h
      | _ => simp [Kind.cls] at h1
    · have h1 := hw _ d (show kindOf 1263 = some .hex from by decide +kernel) rfl
      cases d with
      | str s =>
        show (∃ st', (deHexStr s >>= fun b => asm.disassemble b >>= fun a =>
          Except.ok (st.setTT (lit "fontProgram") (.asm a))) = .ok st') ↔ _
        constructor
        · rintro ⟨st', h⟩
          cases hb : deHexStr s with
          | error er => rw [hb] at h; cases h
          | ok b =>
            rw [hb] at h
            replace h : (asm.disassemble b >>= fun a => Except.ok (st.setTT (lit "fontProgram") (.asm a))) = .ok st' := h
            cases hl : asm.disassemble b with
            | error er => rw [hl] at h; cases h
            | ok l => exact .program _ s b l (.inr rfl) hb hl
        · intro h
          cases h with
          | program _ _ b a _ hb h =>
            rw [hb]
            show ∃ st', (asm.disassemble b >>= fun a => Except.ok (st.setTT (lit "fontProgram") (.asm a))) = .ok st'
            rw [h]
            exact ⟨_, rfl⟩
          | other _ _ h => simp at h
      | _ => simp [Kind.cls] at h1
  · refine ⟨fun _ => .other id d hid, fun _ => ?_⟩
    cases hm : dictGet infoMapping id with
    | some attr =>
      obtain ⟨k, hk, hkind⟩ := mapping_kinds _ (dictGet_some_mem hm)
      have h1 := hw k d hkind rfl
      have hv : ∃ v, InfoVal.ofData ops asm d = .ok v := by
        clear hw hm hkind hid
        simp only [List.mem_cons, List.not_mem_nil, or_false] at hk
        rcases hk with rfl | rfl | rfl | rfl | rfl | rfl | rfl <;>
          (cases d <;> first | exact ⟨_, rfl⟩ | (simp [Kind.cls] at h1; done))
      obtain ⟨v, hv⟩ := hv
      refine ⟨st.setAttr attr v, ?_⟩
      unfold infoEntry
      rw [hm]
      dsimp only
      rw [hv]
      rfl
    | none =>
    by_cases hs : id ∈ [1024, 1034, 1048, 1127, 1137, 1138, 2021, 2016, 2024, 1272, 1274, 1275, 1604]
    · simp only [List.mem_cons, List.not_mem_nil, or_false] at hs
      unfold infoEntry
      rw [hm]
      rcases hs with rfl | rfl | rfl | rfl | rfl | rfl | rfl | rfl | rfl | rfl | rfl | rfl | rfl
      · have h1 := hw _ d (show kindOf 1024 = some .string from by decide +kernel) rfl
        cases d with
        | str v => exact ⟨_, rfl⟩
        | _ => simp [Kind.cls] at h1
      · have h1 := hw _ d (show kindOf 1034 = some .int16 from by decide +kernel) rfl
        cases d with
        | int v => exact ⟨_, rfl⟩
        | _ => simp [Kind.cls] at h1
      · have h1 := hw _ d (show kindOf 1048 = some .sint16 from by decide +kernel) rfl
        cases d with
        | int v => exact ⟨_, rfl⟩
        | _ => simp [Kind.cls] at h1
      · have h1 := hw _ d (show kindOf 1127 = some .string from by decide +kernel) rfl
        cases d with
        | str v => exact ⟨_, rfl⟩
        | _ => simp [Kind.cls] at h1
      · have h1 := hw _ d (show kindOf 1137 = some .string from by decide +kernel) rfl
        cases d with
        | str v => exact ⟨_, rfl⟩
        | _ => simp [Kind.cls] at h1
      · have h1 := hw _ d (show kindOf 1138 = some .nameRecords from by decide +kernel) rfl
        cases d with
        | names v => exact ⟨_, rfl⟩
        | _ => simp [Kind.cls] at h1
      · have h1 := hw _ d (show kindOf 2021 = some .unicodeRanges from by decide +kernel) rfl
        cases d with
        | ints v => exact ⟨_, rfl⟩
        | _ => simp [Kind.cls] at h1
      · have h1 := hw _ d (show kindOf 2016 = some .string from by decide +kernel) rfl
        cases d with
        | str v => exact ⟨_, rfl⟩
        | _ => simp [Kind.cls] at h1
      · have h1 := hw _ d (show kindOf 2024 = some .metricsFlags from by decide +kernel) rfl
        cases d with
        | metricsFlags v => exact ⟨_, rfl⟩
        | _ => simp [Kind.cls] at h1
      · have h1 := hw _ d (show kindOf 1272 = some .int16 from by decide +kernel) rfl
        cases d with
        | int v => exact ⟨_, rfl⟩
        | _ => simp [Kind.cls] at h1
      · have h1 := hw _ d (show kindOf 1274 = some .int16 from by decide +kernel) rfl
        cases d with
        | int v => exact ⟨_, rfl⟩
        | _ => simp [Kind.cls] at h1
      · have h1 := hw _ d (show kindOf 1275 = some .int16 from by decide +kernel) rfl
        cases d with
        | int v => exact ⟨_, rfl⟩
        | _ => simp [Kind.cls] at h1
      · have h1 := hw _ d (show kindOf 1604 = some .int16 from by decide +kernel) rfl
        cases d with
        | int v => exact ⟨_, rfl⟩
        | _ => simp [Kind.cls] at h1
    · refine ⟨st, ?_⟩
      simp only [List.mem_cons, List.not_mem_nil, or_false, not_or] at hs hid
      obtain ⟨a1, a2, a3, a4, a5, a6, a7, a8, a9, a10, a11, a12, a13⟩ := hs
      obtain ⟨b1, b2, b3, b4, b5, b6⟩ := hid
      unfold infoEntry
      rw [hm]
      dsimp only
      rw [if_neg a1, if_neg a2, if_neg a3, if_neg a4, if_neg a5, if_neg a6, if_neg b1, if_neg b2, if_neg b3, if_neg a7, if_neg a8, if_neg a9,
        if_neg a10, if_neg a11, if_neg a12, if_neg a13, if_neg b4, if_neg b5, if_neg b6]

theorem fold_info_ok {o : BuildOpts} : ∀ (es : List (FEntry ops asm)) (st : InfoPart asm.Asm), (∀ e ∈ es, WellTyped ops asm e) →
    ((∃ st', es.foldlM (infoStep fmt ops asm o) st = .ok st') ↔ ∀ e ∈ effective ops asm o es, Convertible ops asm e.1 e.2) := by
  intro es
  induction es with
  | nil => intro st _; exact ⟨fun _ e he => (by simp [effective] at he), fun _ => ⟨st, rfl⟩⟩
  | cons e es ih =>
    intro st hw
    rw [List.foldlM_cons]
    obtain ⟨id, d⟩ := e
    have hskip : ∀ (hc : id ∈ skipKeys o ∨ d = none), effective ops asm o ((id, d) :: es) = effective ops asm o es := by
      intro hc
      unfold effective
      rw [List.filterMap_cons]
      rcases hc with hc | hc
      · rw [← ignored_eq] at hc; simp [hc]
      · simp [hc]
    have hrest := fun st => ih st fun x hx => hw x (List.mem_cons_of_mem _ hx)
    by_cases hs : id ∈ skipKeys o
    · rw [hskip (.inl hs)]
      have e1 : infoStep fmt ops asm o st (id, d) = .ok st := by unfold infoStep; rw [if_pos hs]
      rw [e1]
      exact hrest st
    · cases d with
      | none =>
        rw [hskip (.inr rfl)]
        have e1 : infoStep fmt ops asm o st (id, none) = .ok st := by unfold infoStep; rw [if_neg hs]
        rw [e1]
        exact hrest st
      | some d =>
        have e1 : infoStep fmt ops asm o st (id, some d) = infoEntry fmt ops asm st id d := by unfold infoStep; rw [if_neg hs]
        have e2 : effective ops asm o ((id, some d) :: es) = (id, d) :: effective ops asm o es := by
          unfold effective
          rw [← ignored_eq] at hs
          simp [hs]
        rw [e1, e2]
        have hok := infoEntry_ok (fmt := fmt) (st := st) (hw (id, some d) List.mem_cons_self)
        constructor
        · rintro ⟨st', h⟩
          cases hx : infoEntry fmt ops asm st id d with
          | error er => rw [hx] at h; cases h
          | ok st1 =>
            rw [hx] at h
            intro y hy
            rcases List.mem_cons.1 hy with rfl | hy
            · exact hok.1 ⟨st1, hx⟩
            · exact (hrest st1).1 ⟨st', h⟩ y hy
        · intro h
          obtain ⟨st1, h1⟩ := hok.2 (h _ List.mem_cons_self)
          obtain ⟨st', h2⟩ := (hrest st1).2 fun y hy => h y (List.mem_cons_of_mem _ hy)
          refine ⟨st', ?_⟩
          rw [h1]
          exact h2

theorem underline_ids : ∀ e ∈ copiedAttributes, (e.2 = lit "postscriptUnderlinePosition" → e.1 = 1030) ∧
    (e.2 = lit "postscriptUnderlineThickness" → e.1 = 1031) := by decide +kernel

theorem mem_effective {o : BuildOpts} {es : List (FEntry ops asm)} {id : Int} {d : Decompiled ops.Angle asm.Asm}
    (h : (id, d) ∈ effective ops asm o es) : (id, some d) ∈ es ∧ id ∉ ignoredIds o := by
  unfold effective at h
  rw [List.mem_filterMap] at h
  obtain ⟨⟨i, x⟩, h1, h2⟩ := h
  by_cases hc : i ∈ ignoredIds o
  · simp [hc] at h2
  · cases x with
    | none => simp at h2
    | some x =>
      simp [hc] at h2
      obtain ⟨rfl, rfl⟩ := h2
      exact ⟨h1, hc⟩

theorem attr_key_special (attr : PyStr) (h : attr ∈ [lit "postscriptUnderlinePosition", lit "postscriptUnderlineThickness"]) : attrKey attr = none := by
  simp at h
  rcases h with rfl | rfl <;> decide +kernel

/-- the attributes of the underline are numbers -/
theorem underline_int {o : BuildOpts} {es : List (FEntry ops asm)} (hw : ∀ e ∈ es, WellTyped ops asm e) {attr : PyStr} {id0 : Int}
    (h : attr = lit "postscriptUnderlinePosition" ∧ id0 = 1030 ∨ attr = lit "postscriptUnderlineThickness" ∧ id0 = 1031)
    {x : Option InfoVal} (hl : LastSaid ops asm (effective ops asm o es) (fun id d v => Says fmt ops asm id d attr v) (some (.int 0)) x) :
    ∃ v, x = some (.int v) := by
  rcases hl with ⟨pre, id, d, post, v, he, hv, -, rfl⟩ | ⟨-, rfl⟩
  swap
  · exact ⟨0, rfl⟩
  obtain ⟨hm, -⟩ := mem_effective (ops := ops) (asm := asm) (o := o) (es := es) (id := id) (d := d) (by rw [he]; simp)
  have hk : attrKey attr = none := attr_key_special attr (by rcases h with ⟨rfl, -⟩ | ⟨rfl, -⟩ <;> simp)
  have hid : (id = 1030 ∨ id = 1031) ∧ IsData ops asm d v := by
    generalize ha : attr = a at hv
    cases hv with
    | copied hc hd =>
      have := underline_ids _ hc
      rcases h with ⟨rfl, -⟩ | ⟨rfl, -⟩
      · exact ⟨.inl (this.1 ha.symm), hd⟩
      · exact ⟨.inr (this.2 ha.symm), hd⟩
    | trueType _ h1 h2 =>
      rw [← ha] at h2
      rw [saysTT_key h2] at hk
      cases hk
    | _ => rcases h with ⟨rfl, -⟩ | ⟨rfl, -⟩ <;> exact absurd ha (by decide)
  obtain ⟨hid, hd⟩ := hid
  have hint : ∃ n, d = .int n := by
    rcases hid with rfl | rfl
    · have h1 := hw _ hm _ d (show kindOf 1030 = some .sint16 from by decide +kernel) rfl
      cases d <;> first | exact ⟨_, rfl⟩ | (simp [Kind.cls] at h1; done)
    · have h1 := hw _ hm _ d (show kindOf 1031 = some .int16 from by decide +kernel) rfl
      cases d <;> first | exact ⟨_, rfl⟩ | (simp [Kind.cls] at h1; done)
  obtain ⟨n, rfl⟩ := hint
  cases hd
  exact ⟨n, rfl⟩

/-- The font info can be made exactly if each entry that is not ignored can be converted: numbers that are taken for sets of bits are not
negative, the creation time fits into 32 bits, the control values are an even number of bytes, the programs can be disassembled. -/
theorem C78_success {o : BuildOpts} {es : List (FEntry ops asm)} (hw : ∀ e ∈ es, WellTyped ops asm e) :
    (∃ p, buildInfo fmt ops asm o es = .ok p) ↔ ∀ e ∈ effective ops asm o es, Convertible ops asm e.1 e.2 := by
  rw [← fold_info_ok (fmt := fmt) es (noInfo asm.Asm) hw]
  constructor
  · rintro ⟨p, h⟩
    unfold buildInfo at h
    cases hf : es.foldlM (infoStep fmt ops asm o) (noInfo asm.Asm) with
    | error er => rw [hf] at h; cases h
    | ok st => exact ⟨st, rfl⟩
  · rintro ⟨st, hf⟩
    have hi := infoInv hf
    obtain ⟨a, ha⟩ := underline_int hw (.inl ⟨rfl, rfl⟩) (hi.attrs (lit "postscriptUnderlinePosition"))
    obtain ⟨b, hb⟩ := underline_int hw (.inr ⟨rfl, rfl⟩) (hi.attrs (lit "postscriptUnderlineThickness"))
    unfold buildInfo
    rw [hf]
    show ∃ p, (fixUnderline st.attrs >>= fun attrs => (Except.ok { st with
        attrs := attrs
        tt := st.tt.bind fun lib => if isDefaultTT lib then none else some lib } : Except PyErr _)) = .ok p
    unfold fixUnderline
    rw [ha, hb]
    exact ⟨_, rfl⟩

/-- The style map name is one of the four names that the UFO specification allows, except when both "regular" and "italic" are set: then it
is "regular italic", which is not allowed. -/
theorem C78_style_name {v : Int} {name : PyStr} (h : Says fmt ops asm 1267 (.int v) (lit "styleMapStyleName") (.str name)) :
    (name ∈ [lit "regular", lit "bold", lit "italic", lit "bold italic"] ↔ ¬ (v.toNat.testBit 6 = true ∧ v.toNat.testBit 0 = true)) ∧
    (name = lit "regular italic" ↔ v.toNat.testBit 6 = true ∧ v.toNat.testBit 0 = true) := by
  cases h with
  | copied hc _ => exact absurd (by simp) (infoMapping_special' _ hc)
  | styleMap _ _ _ h =>
    generalize v.toNat.testBit 6 = a at *
    generalize v.toNat.testBit 5 = b at *
    generalize v.toNat.testBit 0 = c at *
    cases a <;> cases b <;> cases c <;> simp [styleName] at h <;> subst h <;> decide +kernel

/-! ### the family name of the designspace document -/

theorem lastSaid_map {V W : Type} {l : List (Int × Decompiled ops.Angle asm.Asm)} {S : Int → Decompiled ops.Angle asm.Asm → V → Prop}
    {T : Int → Decompiled ops.Angle asm.Asm → W → Prop} (f : W → V) (hs : ∀ e ∈ l, ∀ v, S e.1 e.2 v ↔ ∃ w, T e.1 e.2 w ∧ v = f w)
    {dflt x : Option V} {d' : Option W} (hd : dflt = d'.map f) (h : LastSaid ops asm l S dflt x) :
    ∃ y, x = y.map f ∧ LastSaid ops asm l T d' y := by
  have hno : ∀ e ∈ l, (∀ w, ¬ S e.1 e.2 w) → ∀ w, ¬ T e.1 e.2 w := fun e he h w hw => h (f w) ((hs e he _).2 ⟨w, hw, rfl⟩)
  rcases h with ⟨pre, id, d, post, v, he, hv, hp, rfl⟩ | ⟨hn, rfl⟩
  · obtain ⟨w, hw, rfl⟩ := (hs (id, d) (by rw [he]; simp) v).1 hv
    exact ⟨some w, rfl, .inl ⟨pre, id, d, post, w, he, hw, fun e hm => hno e (by rw [he]; simp [hm]) (hp e hm), rfl⟩⟩
  · exact ⟨d', hd, .inr ⟨fun e he => hno e he (hn e he), rfl⟩⟩

theorem family_ids : ∀ e ∈ copiedAttributes, e.2 ∉ [lit "familyName", lit "openTypeNamePreferredFamilyName"] ∧
    (e.2 = lit "styleMapFamilyName" ↔ e.1 = 1027) := by decide +kernel

theorem family_keys : ∀ attr ∈ [lit "familyName", lit "openTypeNamePreferredFamilyName", lit "styleMapFamilyName"], attrKey attr = none := by decide +kernel

theorem says_family (id : Int) (d : Decompiled ops.Angle asm.Asm) (v : InfoVal) {attr : PyStr}
    (ha : attr = lit "familyName" ∨ attr = lit "openTypeNamePreferredFamilyName") :
    Says fmt ops asm id d attr v ↔ ∃ w, (id = 1024 ∧ d = .str w) ∧ v = .str w := by
  constructor
  · intro h
    generalize hx : attr = a at h
    cases h with
    | copied hc _ => exact absurd (by rw [← hx]; simp; exact ha) (family_ids _ hc).1
    | family s => exact ⟨s, ⟨rfl, rfl⟩, rfl⟩
    | prefFamily s => exact ⟨s, ⟨rfl, rfl⟩, rfl⟩
    | trueType _ _ h2 =>
      rw [← hx] at h2
      have := saysTT_key h2
      rw [family_keys attr (by simp; tauto)] at this
      cases this
    | _ => rcases ha with rfl | rfl <;> exact absurd hx (by decide)
  · rintro ⟨w, ⟨rfl, rfl⟩, rfl⟩
    rcases ha with rfl | rfl
    · exact .family w
    · exact .prefFamily w

theorem says_styleFamily (id : Int) (d : Decompiled ops.Angle asm.Asm) (v : InfoVal) (hw : WellTyped ops asm (id, some d)) :
    Says fmt ops asm id d (lit "styleMapFamilyName") v ↔ ∃ w, (id = 1027 ∧ d = .str w) ∧ v = .str w := by
  constructor
  · intro h
    generalize hx : lit "styleMapFamilyName" = a at h
    cases h with
    | copied hc hd =>
      have hid := (family_ids _ hc).2.1 hx.symm
      dsimp only at hid
      subst hid
      have h1 := hw _ d (show kindOf 1027 = some .string from by decide +kernel) rfl
      cases d with
      | str s => cases hd; exact ⟨s, ⟨rfl, rfl⟩, rfl⟩
      | _ => simp [Kind.cls] at h1
    | trueType _ _ h2 =>
      rw [← hx] at h2
      have := saysTT_key h2
      rw [family_keys _ (by simp)] at this
      cases this
    | _ => exact absurd hx (by decide)
  · rintro ⟨w, ⟨rfl, rfl⟩, rfl⟩
    exact .copied (by decide +kernel) (.str w)

/-- The family name of the designspace document: the text of the last "pref_family_name" entry, "Untitled" if there is none; if that text is
empty, the text of the last "family_name" entry, again "Untitled" if there is none. -/
theorem C78_document_family {o : BuildOpts} {es : List (FEntry ops asm)} {p : InfoPart asm.Asm} (hw : ∀ e ∈ es, WellTyped ops asm e)
    (h : buildInfo fmt ops asm o es = .ok p) :
    ∃ f s : PyStr, LastSaid ops asm (effective ops asm o es) (fun id d v => id = 1024 ∧ d = .str v) (some (lit "Untitled")) (some f) ∧
      LastSaid ops asm (effective ops asm o es) (fun id d v => id = 1027 ∧ d = .str v) (some (lit "Untitled")) (some s) ∧
      dsFamilyName p.attrs = some (if f = [] then s else f) := by
  obtain ⟨f, hf, lf⟩ := lastSaid_map (T := fun id d w => id = 1024 ∧ d = .str w) InfoVal.str
    (fun e _ v => says_family e.1 e.2 v (.inl rfl)) (d' := some (lit "Untitled")) rfl (C78_attributes h (lit "familyName") (by decide))
  obtain ⟨g, hg, lg⟩ := lastSaid_map (T := fun id d w => id = 1024 ∧ d = .str w) InfoVal.str
    (fun e _ v => says_family e.1 e.2 v (.inr rfl)) (d' := some []) rfl (C78_attributes h (lit "openTypeNamePreferredFamilyName") (by decide))
  obtain ⟨s, hs, ls⟩ := lastSaid_map (T := fun id d w => id = 1027 ∧ d = .str w) InfoVal.str
    (fun e he v => says_styleFamily e.1 e.2 v (hw _ (mem_effective (ops := ops) (asm := asm) he).1)) (d' := some (lit "Untitled")) rfl
    (C78_attributes h (lit "styleMapFamilyName") (by decide))
  have hsome : ∀ {l : List (Int × Decompiled ops.Angle asm.Asm)} {S : Int → Decompiled ops.Angle asm.Asm → PyStr → Prop} {d : PyStr} {x : Option PyStr},
      LastSaid ops asm l S (some d) x → ∃ y, x = some y := by
    intro l S d x hx
    rcases hx with ⟨_, _, _, _, v, _, _, _, rfl⟩ | ⟨_, rfl⟩ <;> exact ⟨_, rfl⟩
  obtain ⟨f, rfl⟩ := hsome lf
  obtain ⟨g, rfl⟩ := hsome lg
  obtain ⟨s, rfl⟩ := hsome ls
  refine ⟨f, s, lf, ls, ?_⟩
  have hgf : g = f ∨ g = [] ∧ f = lit "Untitled" := by
    rcases lg with ⟨pre, id, d, post, v, e1, hx, hp, hval⟩ | ⟨hn, hval⟩
    · cases hval
      refine .inl ?_
      have := lastSaid_functional (ops := ops) (asm := asm) (v := some g) (w := some f) (fun e _ x y hx hy => by have := hx.2.symm.trans hy.2; cases this; rfl)
        (.inl ⟨pre, id, d, post, g, e1, hx, hp, rfl⟩) lf
      cases this; rfl
    · cases hval
      rcases lf with ⟨pre, id, d, post, v, e1, hx, hp, hval⟩ | ⟨_, hval⟩
      · exact absurd hx (hn (id, d) (by rw [e1]; simp) v)
      · cases hval; exact .inr ⟨rfl, rfl⟩
  unfold dsFamilyName textAttr
  rw [hg, hf, hs]
  rcases hgf with rfl | ⟨rfl, rfl⟩
  · cases g <;> rfl
  · rfl

end
end Verif.Props
