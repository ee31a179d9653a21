import Verif.Props.UfoMasters
import Verif.Props.UfoHints
import Verif.Props.Base
import Verif.Props.UfoTime
import Verif.Spec.UfoInfo
/-! C78: the font info of the UFO. -/
set_option autoImplicit false
namespace Verif.Props
open Verif Verif.Spec

/-! ### bits -/

theorem bits_iff (v : Int) (l : List Int) : binaryToIntList v = .ok l ↔ IsBits v l := by
  by_cases hv : 0 ≤ v
  · obtain ⟨n, rfl⟩ := Int.eq_ofNat_of_zero_le hv
    obtain ⟨l', h1, h2, h3⟩ := C18_bits_of_int n 0
    have hb : IsBits (n : Int) l' := by
      refine ⟨hv, h2, fun i => ?_⟩
      rw [h3]
      constructor
      · rintro ⟨k, hk, rfl⟩
        refine ⟨by omega, ?_⟩
        simpa using hk
      · rintro ⟨h0, hk⟩
        exact ⟨i.toNat, by simpa using hk, by omega⟩
    constructor
    · intro h
      rw [h1] at h
      cases h
      exact hb
    · rintro ⟨-, g2, g3⟩
      rw [h1, sorted_ext h2 g2 fun x => by rw [hb.2.2, g3]]
  · constructor
    · intro h
      unfold binaryToIntList at h
      rw [C18_negative_diverges v 0 (by omega)] at h
      cases h
    · intro h; exact absurd h.1 hv

/-! ### what an entry changes -/

/-- the attributes after something that says `S` about them -/
def Updates {V : Type} (S : PyStr → V → Prop) (a a' : List (PyStr × V)) : Prop :=
  ∀ attr, (∃ v, S attr v ∧ dictGet a' attr = some v) ∨ ((¬ ∃ v, S attr v) ∧ dictGet a' attr = dictGet a attr)

theorem updates_nothing {V : Type} {S : PyStr → V → Prop} {a : List (PyStr × V)} (h : ∀ attr v, ¬ S attr v) : Updates S a a :=
  fun attr => .inr ⟨fun ⟨v, hv⟩ => h attr v hv, rfl⟩

theorem updates_set {V : Type} {S : PyStr → V → Prop} {a : List (PyStr × V)} {k : PyStr} {v : V} (h : S k v) (hu : ∀ attr w, S attr w → attr = k) :
    Updates S a (dictSet a k v) := by
  intro attr
  rw [dictGet_dictSet]
  by_cases hk : k = attr
  · subst hk
    exact .inl ⟨v, h, by rw [if_pos rfl]⟩
  · rw [if_neg hk]
    exact .inr ⟨fun ⟨w, hw⟩ => hk (hu attr w hw).symm, rfl⟩

theorem updates_set2 {V : Type} {S : PyStr → V → Prop} {a : List (PyStr × V)} {k k' : PyStr} {v v' : V} (h : S k v) (h' : S k' v')
    (hne : k ≠ k') (hu : ∀ attr w, S attr w → attr = k ∨ attr = k') : Updates S a (dictSet (dictSet a k v) k' v') := by
  intro attr
  rw [dictGet_dictSet, dictGet_dictSet]
  by_cases hk : k' = attr
  · subst hk
    exact .inl ⟨v', h', by rw [if_pos rfl]⟩
  · rw [if_neg hk]
    by_cases hk2 : k = attr
    · subst hk2
      exact .inl ⟨v, h, by rw [if_pos rfl]⟩
    · rw [if_neg hk2]
      refine .inr ⟨fun ⟨w, hw⟩ => ?_, rfl⟩
      rcases hu attr w hw with h | h
      · exact hk2 h.symm
      · exact hk h.symm

theorem updates_trans {V : Type} {S T : PyStr → V → Prop} {a a' a'' : List (PyStr × V)} (h1 : Updates S a a') (h2 : Updates T a' a'') :
    Updates (fun attr v => S attr v ∨ T attr v) a a'' := by
  intro attr
  rcases h2 attr with ⟨v, hv, e⟩ | ⟨hn, e⟩
  · exact .inl ⟨v, .inr hv, e⟩
  · rcases h1 attr with ⟨v, hv, e'⟩ | ⟨hn', e'⟩
    · exact .inl ⟨v, .inl hv, by rw [e, e']⟩
    · refine .inr ⟨?_, by rw [e, e']⟩
      rintro ⟨v, hv | hv⟩
      · exact hn' ⟨v, hv⟩
      · exact hn ⟨v, hv⟩

theorem updates_congr {V : Type} {S T : PyStr → V → Prop} {a a' : List (PyStr × V)} (h : ∀ attr v, S attr v ↔ T attr v) (hu : Updates S a a') : Updates T a a' := by
  have : S = T := by funext attr v; exact propext (h attr v)
  rwa [← this]

section
variable (fmt : Int → PyStr) {ASM : Type}

theorem ttAttributes_copied : ∀ e ∈ ttAttributes, e ∈ copiedNumbers := by decide +kernel
theorem copied_ttAttributes : ∀ e ∈ copiedNumbers, e ∈ ttAttributes := by decide +kernel
theorem ttAttributes_ok : DictOk ttAttributes := by unfold DictOk; decide +kernel
theorem ttAttributes_special : ∀ e ∈ ttAttributes, e.1 ∉ [0x56, 0x40, 0x4B, 0x5C, 0x39, 0x54] := by decide +kernel

/-- an item of the TrueType info -/
theorem ttInfoItem_updates {st st' : InfoPart ASM} {e : Int × TTVal} (h : ttInfoItem fmt st e = .ok st') :
    Updates (SaysTT fmt e.1 e.2) st.attrs st'.attrs := by
  obtain ⟨key, val⟩ := e
  unfold ttInfoItem at h
  dsimp only at h ⊢
  cases val with
  | int v =>
    dsimp only at h
    cases hk : dictGet ttAttributes key with
    | some attr =>
      rw [hk] at h
      cases h
      have hm := dictGet_some_mem hk
      refine updates_set (.copied (ttAttributes_copied _ hm) v) fun attr' w hs => ?_
      have hsp := ttAttributes_special _ hm
      cases hs with
      | copied h _ =>
        have := (dictGet_iff ttAttributes_ok).2 (copied_ttAttributes _ h)
        rw [hk] at this
        cases this; rfl
      | _ => simp at hsp
    | none =>
      rw [hk] at h
      dsimp only at h
      have hcop : ∀ attr, (key, attr) ∉ copiedNumbers := by
        intro attr hm
        have := (dictGet_iff ttAttributes_ok).2 (copied_ttAttributes _ hm)
        rw [hk] at this
        cases this
      by_cases h1 : key = 0x56
      · rw [if_pos h1] at h
        cases hc : convertTimestamp v with
        | error er => rw [hc] at h; cases h
        | ok t =>
          rw [hc] at h
          have hv : IsInt32 v := by
            by_contra hv
            rw [C48_timestamp_overflow v hv] at hc
            cases hc
          rw [C48_timestamp_meaning v hv] at hc
          cases hc
          cases h
          refine updates_set (by rw [h1]; exact .created v hv) fun attr' w hs => ?_
          cases hs with
          | copied h _ => exact absurd h (hcop _)
          | created => rfl
          | _ => omega
      rw [if_neg h1] at h
      by_cases h2 : key = 0x3D
      · rw [if_pos h2] at h
        cases h
        refine updates_nothing fun attr' w hs => ?_
        cases hs with
        | copied h _ => exact hcop _ h
        | _ => omega
      rw [if_neg h2] at h
      by_cases h3 : key = 0x40
      · rw [if_pos h3] at h
        cases hc : binaryToIntList v with
        | error er => rw [hc] at h; cases h
        | ok t =>
          rw [hc] at h
          cases h
          refine updates_set (by rw [h3]; exact .embedding v t ((bits_iff _ _).1 hc)) fun attr' w hs => ?_
          cases hs with
          | copied h _ => exact absurd h (hcop _)
          | embedding => rfl
          | _ => omega
      rw [if_neg h3] at h
      by_cases h4 : key = 0x4B
      · rw [if_pos h4] at h
        cases h
        refine updates_set (by rw [h4]; exact .familyClass v _ _ (by omega) (by omega)) fun attr' w hs => ?_
        cases hs with
        | copied h _ => exact absurd h (hcop _)
        | familyClass => rfl
        | _ => omega
      rw [if_neg h4] at h
      by_cases h5 : key = 0x3E
      · rw [if_pos h5] at h
        cases h
        refine updates_nothing fun attr' w hs => ?_
        cases hs with
        | copied h _ => exact hcop _ h
        | _ => omega
      rw [if_neg h5] at h
      by_cases h6 : key = 0x50
      · rw [if_pos h6] at h
        cases h
        refine updates_nothing fun attr' w hs => ?_
        cases hs with
        | copied h _ => exact hcop _ h
        | _ => omega
      rw [if_neg h6] at h
      cases hx : dictGet maxpKeys key with
      | some k =>
        rw [hx] at h
        cases h
        have hm : key ∈ [0x33, 0x34, 0x35, 0x36, 0x37, 0x38] := by
          have := dictGet_some_mem hx
          simp [maxpKeys] at this
          simp
          omega
        refine updates_nothing fun attr' w hs => ?_
        cases hs with
        | copied h _ => exact hcop _ h
        | _ => simp at hm
      | none =>
        rw [hx] at h
        dsimp only at h
        by_cases h7 : key = 0x5C
        · rw [if_pos h7] at h
          by_cases hv : v = 0
          · rw [if_pos hv] at h
            cases h
            refine updates_nothing fun attr' w hs => ?_
            cases hs with
            | copied h _ => exact hcop _ h
            | averageWidth _ h => exact h hv
            | _ => omega
          · rw [if_neg hv] at h
            cases h
            refine updates_set (by rw [h7]; exact .averageWidth v hv) fun attr' w hs => ?_
            cases hs with
            | copied h _ => exact absurd h (hcop _)
            | averageWidth => rfl
            | _ => omega
        · rw [if_neg h7] at h
          cases h
          refine updates_nothing fun attr' w hs => ?_
          cases hs with
          | copied h _ => exact hcop _ h
          | _ => first | exact h1 rfl | exact h3 rfl | exact h4 rfl | exact h7 rfl
  | bytes l =>
    cases h
    exact updates_nothing fun attr' w hs => by cases hs
  | flags f opt =>
    dsimp only at h
    by_cases h1 : key = 0x39
    · rw [if_pos h1] at h
      cases h
      refine updates_set (by rw [h1]; exact .headFlags f opt) fun attr' w hs => ?_
      cases hs; rfl
    · rw [if_neg h1] at h
      cases h
      refine updates_nothing fun attr' w hs => ?_
      cases hs
      exact h1 rfl
  | codepages a b =>
    dsimp only at h
    by_cases h1 : key = 0x54
    · rw [if_pos h1] at h
      cases ha : binaryToIntList a with
      | error er => rw [ha] at h; cases h
      | ok la =>
        cases hb : binaryToIntList b with
        | error er => rw [ha, hb] at h; cases h
        | ok lb =>
          rw [ha, hb] at h
          replace h : (Except.ok (if (la ++ lb.map (· + 32)).isEmpty then st else
            st.setAttr (lit "openTypeOS2CodePageRanges") (.ints (la ++ lb.map (· + 32)))) : Except PyErr _) = .ok st' := h
          cases h
          have ha' := (bits_iff _ _).1 ha
          have hb' := (bits_iff _ _).1 hb
          by_cases hl : (la ++ lb.map (· + 32)).isEmpty = true
          · rw [if_pos hl]
            refine updates_nothing fun attr' w hs => ?_
            cases hs with
            | codePages _ _ la' lb' ga gb hne =>
              rw [← bits_iff, ha] at ga
              rw [← bits_iff, hb] at gb
              cases ga; cases gb
              simp at hl hne
              exact hne hl.1 hl.2
          · rw [if_neg hl]
            refine updates_set (by rw [h1]; exact .codePages a b la lb ha' hb' (by intro hc; simp at hc; apply hl; simp [hc])) fun attr' w hs => ?_
            cases hs; rfl
    · rw [if_neg h1] at h
      cases h
      refine updates_nothing fun attr' w hs => ?_
      cases hs
      exact h1 rfl

theorem setTTInfo_updates {d : TTInfo} {st st' : InfoPart ASM} (h : setTTInfo fmt st d = .ok st') :
    Updates (fun attr v => ∃ key val, (key, val) ∈ d ∧ SaysTT fmt key val attr v) st.attrs st'.attrs := by
  unfold setTTInfo at h
  induction d generalizing st with
  | nil =>
    cases h
    exact updates_nothing fun attr v => by rintro ⟨_, _, h, _⟩; cases h
  | cons e d ih =>
    rw [List.foldlM_cons] at h
    cases hs : ttInfoItem fmt st e with
    | error er => rw [hs] at h; cases h
    | ok st1 =>
      rw [hs] at h
      refine updates_congr ?_ (updates_trans (ttInfoItem_updates fmt hs) (ih h))
      intro attr v
      constructor
      · rintro (h | ⟨key, val, h1, h2⟩)
        · exact ⟨e.1, e.2, List.mem_cons_self, h⟩
        · exact ⟨key, val, List.mem_cons_of_mem _ h1, h2⟩
      · rintro ⟨key, val, h1, h2⟩
        rcases List.mem_cons.1 h1 with rfl | h1
        · exact .inl h2
        · exact .inr ⟨key, val, h1, h2⟩

variable {fmt} {ops : AngleOps} {asm : AsmOps}

theorem infoMapping_copied : ∀ e ∈ infoMapping, e ∈ copiedAttributes := by decide +kernel
theorem copied_infoMapping : ∀ e ∈ copiedAttributes, e ∈ infoMapping := by decide +kernel
theorem infoMapping_ok : DictOk infoMapping := by unfold DictOk; decide +kernel
theorem infoMapping_special : ∀ e ∈ infoMapping, e.1 ∉ [1024, 1034, 1048, 1127, 1137, 1138, 1264, 1265, 1267, 2021] := by decide +kernel

theorem ofData_iff {d : Decompiled ops.Angle asm.Asm} {v : InfoVal} : InfoVal.ofData ops asm d = .ok v ↔ IsData ops asm d v := by
  constructor
  · intro h
    unfold InfoVal.ofData at h
    cases d <;> first | (cases h; done) | (cases h; constructor)
  · intro h; cases h <;> rfl

theorem gasp_iff {l : List GaspRec} {l' : List (Int × List Int)} :
    l.mapM (fun r => binaryToIntList r.flags >>= fun b => (.ok (r.maxPpem, b) : Except PyErr _)) = .ok l' ↔
      List.Forall₂ (fun r g => g.1 = r.maxPpem ∧ IsBits r.flags g.2) l l' := by
  induction l generalizing l' with
  | nil =>
    constructor
    · intro h; cases h; exact .nil
    · intro h; cases h; rfl
  | cons r l ih =>
    rw [List.mapM_cons]
    constructor
    · intro h
      cases hb : binaryToIntList r.flags with
      | error er => rw [hb] at h; cases h
      | ok b =>
        rw [hb] at h
        replace h : (l.mapM (fun r => binaryToIntList r.flags >>= fun b => (.ok (r.maxPpem, b) : Except PyErr _)) >>= fun l' =>
          (.ok ((r.maxPpem, b) :: l') : Except PyErr _)) = .ok l' := h
        cases hr : l.mapM (fun r => binaryToIntList r.flags >>= fun b => (.ok (r.maxPpem, b) : Except PyErr _)) with
        | error er => rw [hr] at h; cases h
        | ok l'' =>
          rw [hr] at h
          cases h
          exact .cons ⟨rfl, (bits_iff _ _).1 hb⟩ (ih.1 hr)
    · intro h
      cases h with
      | @cons _ g _ l'' h1 h2 =>
        obtain ⟨p, b⟩ := g
        obtain ⟨rfl, h1⟩ := h1
        rw [(bits_iff _ _).2 h1, ih.2 h2]
        rfl

theorem bits_mem {v : Int} {bits : List Int} (h : IsBits v bits) (i : Nat) : bits.contains (i : Int) = v.toNat.testBit i := by
  have := h.2.2 (i : Int)
  rcases Bool.eq_false_or_eq_true (v.toNat.testBit i) with ht | ht
  · rw [ht, List.contains_iff_mem, this]; simp [ht]
  · rw [ht, ← Bool.not_eq_true, List.contains_iff_mem, this]; simp [ht]

theorem styleParts_eq {v : Int} {bits : List Int} (h : IsBits v bits) :
    styleName (v.toNat.testBit 6) (v.toNat.testBit 5) (v.toNat.testBit 0) =
      if (styleParts bits).isEmpty then none else some (joinParts (styleParts bits)) := by
  unfold styleParts
  rw [show bits.contains 6 = v.toNat.testBit 6 from bits_mem h 6, show bits.contains 5 = v.toNat.testBit 5 from bits_mem h 5,
    show bits.contains 0 = v.toNat.testBit 0 from bits_mem h 0]
  generalize v.toNat.testBit 6 = a
  generalize v.toNat.testBit 5 = b
  generalize v.toNat.testBit 0 = c
  cases a <;> cases b <;> cases c <;> decide +kernel

/-- an entry -/
theorem infoEntry_updates {st st' : InfoPart asm.Asm} {id : Int} {d : Decompiled ops.Angle asm.Asm} (h : infoEntry fmt ops asm st id d = .ok st') :
    Updates (Says fmt ops asm id d) st.attrs st'.attrs := by
  unfold infoEntry at h
  cases hm : dictGet infoMapping id with
  | some attr =>
    rw [hm] at h
    dsimp only at h
    cases hv : InfoVal.ofData ops asm d with
    | error er => rw [hv] at h; cases h
    | ok v =>
      rw [hv] at h
      cases h
      have hmem := dictGet_some_mem hm
      have hsp := infoMapping_special _ hmem
      refine updates_set (.copied (infoMapping_copied _ hmem) (ofData_iff.1 hv)) fun attr' w hs => ?_
      cases hs with
      | copied h _ =>
        have := (dictGet_iff infoMapping_ok).2 (copied_infoMapping _ h)
        rw [hm] at this
        cases this; rfl
      | _ => simp at hsp
  | none =>
    rw [hm] at h
    dsimp only at h
    have hcop : ∀ attr, (id, attr) ∉ copiedAttributes := by
      intro attr hmem
      have := (dictGet_iff infoMapping_ok).2 (copied_infoMapping _ hmem)
      rw [hm] at this
      cases this
    by_cases h1 : id = 1024
    · rw [if_pos h1] at h
      cases d with
      | str v =>
        cases h
        refine updates_set2 (by rw [h1]; exact .family v) (by rw [h1]; exact .prefFamily v) (by decide) fun attr' w hs => ?_
        cases hs with
        | copied h _ => exact absurd h (hcop _)
        | family => exact .inl rfl
        | prefFamily => exact .inr rfl
        | _ => omega
      | _ => cases h
    rw [if_neg h1] at h
    by_cases h2 : id = 1034
    · rw [if_pos h2] at h
      cases d with
      | int v =>
        cases h
        refine updates_set (by rw [h2]; exact .fixedPitch v _ (by simp)) fun attr' w hs => ?_
        cases hs with
        | copied h _ => exact absurd h (hcop _)
        | fixedPitch => rfl
        | _ => omega
      | _ => cases h
    rw [if_neg h2] at h
    by_cases h3 : id = 1048
    · rw [if_pos h3] at h
      cases d with
      | int v =>
        cases h
        refine updates_set (by rw [h3]; exact .weight v _ (by unfold weightClass; omega) (by unfold weightClass; omega) (by unfold weightClass; omega) (by unfold weightClass; omega)) fun attr' w hs => ?_
        cases hs with
        | copied h _ => exact absurd h (hcop _)
        | weight => rfl
        | _ => omega
      | _ => cases h
    rw [if_neg h3] at h
    by_cases h4 : id = 1127
    · rw [if_pos h4] at h
      cases d with
      | str v =>
        cases h
        refine updates_set (by rw [h4]; exact .weightName v) fun attr' w hs => ?_
        cases hs with
        | copied h _ => exact absurd h (hcop _)
        | weightName => rfl
        | _ => omega
      | _ => cases h
    rw [if_neg h4] at h
    by_cases h5 : id = 1137
    · rw [if_pos h5] at h
      cases d with
      | str v =>
        cases h
        refine updates_set2 (by rw [h5]; exact .style v) (by rw [h5]; exact .prefStyle v) (by decide) fun attr' w hs => ?_
        cases hs with
        | copied h _ => exact absurd h (hcop _)
        | style => exact .inl rfl
        | prefStyle => exact .inr rfl
        | _ => omega
      | _ => cases h
    rw [if_neg h5] at h
    by_cases h6 : id = 1138
    · rw [if_pos h6] at h
      cases d with
      | names v =>
        cases h
        refine updates_set (by rw [h6]; exact .names v) fun attr' w hs => ?_
        cases hs with
        | copied h _ => exact absurd h (hcop _)
        | names => rfl
        | _ => omega
      | _ => cases h
    rw [if_neg h6] at h
    by_cases h7 : id = 1264
    · rw [if_pos h7] at h
      cases d with
      | ttInfo v =>
        refine updates_congr ?_ (setTTInfo_updates fmt h)
        intro attr' w
        constructor
        · rintro ⟨key, val, h1, h2⟩
          rw [h7]
          exact .trueType v h1 h2
        · intro hs
          cases hs with
          | copied h _ => exact absurd h (hcop _)
          | trueType _ h1 h2 => exact ⟨_, _, h1, h2⟩
      | _ => cases h
    rw [if_neg h7] at h
    by_cases h8 : id = 1265
    · rw [if_pos h8] at h
      cases d with
      | gasp v =>
        replace h : setGasp st v = .ok st' := h
        unfold setGasp at h
        cases hg : v.mapM (fun r => binaryToIntList r.flags >>= fun b => (.ok (r.maxPpem, b) : Except PyErr _)) with
        | error er => rw [hg] at h; cases h
        | ok l =>
          rw [hg] at h
          cases h
          refine updates_set (by rw [h8]; exact .gasp v l (gasp_iff.1 hg)) fun attr' w hs => ?_
          cases hs with
          | copied h _ => exact absurd h (hcop _)
          | gasp => rfl
      | _ => cases h
    rw [if_neg h8] at h
    by_cases h9 : id = 1267
    · rw [if_pos h9] at h
      cases d with
      | int v =>
        replace h : setSelection st v = .ok st' := h
        unfold setSelection at h
        cases hb : binaryToIntList v with
        | error er => rw [hb] at h; cases h
        | ok bits =>
          have hbits := (bits_iff _ _).1 hb
          rw [hb] at h
          replace h : (Except.ok (if (styleParts bits).isEmpty then
              st.setAttr (lit "openTypeOS2Selection") (.ints (bits.filter fun b => !(b == 0 || b == 5 || b == 6)))
            else (st.setAttr (lit "openTypeOS2Selection") (.ints (bits.filter fun b => !(b == 0 || b == 5 || b == 6)))).setAttr
              (lit "styleMapStyleName") (.str (joinParts (styleParts bits)))) : Except PyErr _) = .ok st' := h
          cases h
          have hf : bits.filter (fun b => !(b == 0 || b == 5 || b == 6)) = bits.filter fun b => b ≠ 0 ∧ b ≠ 5 ∧ b ≠ 6 := by
            congr 1
            funext b
            by_cases h0 : b = 0 <;> by_cases h5 : b = 5 <;> by_cases h6 : b = 6 <;> simp [h0, h5, h6]
          have hsel : Says fmt ops asm id (.int v) (lit "openTypeOS2Selection") (.ints (bits.filter fun b => !(b == 0 || b == 5 || b == 6))) := by
            rw [hf, h9]
            exact .selection v bits hbits
          have hname := styleParts_eq hbits
          by_cases he : (styleParts bits).isEmpty = true
          · rw [if_pos he]
            rw [if_pos he] at hname
            refine updates_set hsel fun attr' w hs => ?_
            cases hs with
            | copied h _ => exact absurd h (hcop _)
            | selection => rfl
            | styleMap _ _ _ h => rw [hname] at h; cases h
            | _ => omega
          · rw [if_neg he]
            rw [if_neg he] at hname
            refine updates_set2 hsel (by rw [h9]; exact .styleMap v _ hbits.1 hname) (by decide) fun attr' w hs => ?_
            cases hs with
            | copied h _ => exact absurd h (hcop _)
            | selection => exact .inl rfl
            | styleMap => exact .inr rfl
            | _ => omega
      | _ => cases h
    rw [if_neg h9] at h
    by_cases h10 : id = 2021
    · rw [if_pos h10] at h
      cases d with
      | ints v =>
        cases h
        refine updates_set (by rw [h10]; exact .ranges v) fun attr' w hs => ?_
        cases hs with
        | copied h _ => exact absurd h (hcop _)
        | ranges => rfl
        | _ => omega
      | _ => cases h
    rw [if_neg h10] at h
    have hno : Updates (Says fmt ops asm id d) st.attrs st.attrs := by
      refine updates_nothing fun attr' w hs => ?_
      cases hs with
      | copied h _ => exact hcop _ h
      | _ => first | exact h1 rfl | exact h2 rfl | exact h3 rfl | exact h4 rfl | exact h5 rfl | exact h6 rfl | exact h7 rfl | exact h8 rfl | exact h9 rfl | exact h10 rfl
    suffices hs : st'.attrs = st.attrs by rw [hs]; exact hno
    clear hno hcop hm
    by_cases h21 : id = 2016
    · rw [if_pos h21] at h
      cases d with
      | str v => cases h; rfl
      | _ => cases h
    rw [if_neg h21] at h
    by_cases h22 : id = 2024
    · rw [if_pos h22] at h
      cases d with
      | metricsFlags v => cases h; rfl
      | _ => cases h
    rw [if_neg h22] at h
    by_cases h23 : id = 1272
    · rw [if_pos h23] at h
      cases d with
      | int v => cases h; unfold setTth; split <;> rfl
      | _ => cases h
    rw [if_neg h23] at h
    by_cases h24 : id = 1274
    · rw [if_pos h24] at h
      cases d with
      | int v => cases h; unfold setTth; split <;> rfl
      | _ => cases h
    rw [if_neg h24] at h
    by_cases h25 : id = 1275
    · rw [if_pos h25] at h
      cases d with
      | int v => cases h; unfold setTth; split <;> rfl
      | _ => cases h
    rw [if_neg h25] at h
    by_cases h26 : id = 1604
    · rw [if_pos h26] at h
      cases d with
      | int v => cases h; unfold setTth; split <;> rfl
      | _ => cases h
    rw [if_neg h26] at h
    by_cases h27 : id = 1261
    · rw [if_pos h27] at h
      cases d with
      | str v => 
        dsimp only at h
        cases hb : deHexStr v with
        | error er => rw [hb] at h; cases h
        | ok b =>
          rw [hb] at h
          cases hl : unpackI16 b with
          | error er => replace h : (unpackI16 b >>= fun l => Except.ok (st.setTT (lit "controlValue") (.cvt (numbered 0 l)))) = .ok st' := h; rw [hl] at h; cases h
          | ok l => replace h : (unpackI16 b >>= fun l => Except.ok (st.setTT (lit "controlValue") (.cvt (numbered 0 l)))) = .ok st' := h; rw [hl] at h; cases h; rfl
      | _ => cases h
    rw [if_neg h27] at h
    by_cases h28 : id = 1262
    · rw [if_pos h28] at h
      cases d with
      | str v => 
        dsimp only at h
        cases hb : deHexStr v with
        | error er => rw [hb] at h; cases h
        | ok b =>
          rw [hb] at h
          replace h : (asm.disassemble b >>= fun a => Except.ok (st.setTT (lit "controlValueProgram") (.asm a))) = .ok st' := h
          cases hl : asm.disassemble b with
          | error er => rw [hl] at h; cases h
          | ok l => rw [hl] at h; cases h; rfl
      | _ => cases h
    rw [if_neg h28] at h
    by_cases h29 : id = 1263
    · rw [if_pos h29] at h
      cases d with
      | str v => 
        dsimp only at h
        cases hb : deHexStr v with
        | error er => rw [hb] at h; cases h
        | ok b =>
          rw [hb] at h
          replace h : (asm.disassemble b >>= fun a => Except.ok (st.setTT (lit "fontProgram") (.asm a))) = .ok st' := h
          cases hl : asm.disassemble b with
          | error er => rw [hl] at h; cases h
          | ok l => rw [hl] at h; cases h; rfl
      | _ => cases h
    rw [if_neg h29] at h
    cases h
    rfl

end
end Verif.Props
