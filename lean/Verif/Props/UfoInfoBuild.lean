import Verif.Props.UfoInfo
import Verif.Props.UfoGlyphBuild
/-! C78, C79: the font info and the TrueType values of the lib after the whole file. -/
set_option autoImplicit false
namespace Verif.Props
open Verif Verif.Spec

/-! ### exact doubles -/

/-- multiples of powers of two with up to 53 bits are exact -/
theorem fl_dyadic {v : Int} (j : Nat) (h : |v| < 9007199254740992) : fl ((v : Rat) / 2 ^ j) = (v : Rat) / 2 ^ j := by
  unfold fl
  split
  · next h0 => rw [h0]
  · next h0 =>
    have hj : (0 : Rat) < 2 ^ j := by positivity
    have hpos : (0 : Rat) < |(v : Rat) / 2 ^ j| := abs_pos.2 h0
    have hlt : |(v : Rat) / 2 ^ j| < ((2 : Nat) : Rat) ^ ((53 : Int) - j) := by
      rw [abs_div, abs_of_pos hj, div_lt_iff₀ hj, zpow_sub₀ (by norm_num), zpow_natCast]
      have : |(v : Rat)| < 9007199254740992 := by
        rw [← Int.cast_abs]; exact_mod_cast h
      have e : ((2 : Nat) : Rat) ^ (53 : Int) / ((2 : Nat) : Rat) ^ j * 2 ^ j = 9007199254740992 := by
        push_cast
        rw [div_mul_cancel₀ _ (ne_of_gt hj)]
      rw [e]; exact this
    have hlog := (Int.lt_zpow_iff_log_lt (b := 2) (by norm_num) hpos).1 hlt
    obtain ⟨k, hk⟩ : ∃ k : Nat, Int.log 2 |(v : Rat) / 2 ^ j| - 52 = -((j + k : Nat) : Int) :=
      ⟨(52 - j - Int.log 2 |(v : Rat) / 2 ^ j|).toNat, by push_cast; omega⟩
    rw [hk, zpow_neg, zpow_natCast, div_inv_eq_mul]
    have : (v : Rat) / 2 ^ j * 2 ^ (j + k) = ((v * 2 ^ k : Int) : Rat) := by
      push_cast
      rw [pow_add]
      field_simp
    rw [this, roundEven_int]
    push_cast
    rw [pow_add]
    field_simp

/-- half of the number, rounded to the nearest integer, ties to even -/
theorem halfRounded_near {t : Int} (h : |t| < 9007199254740992) :
    |2 * halfRounded t - t| ≤ 1 ∧ (|2 * halfRounded t - t| = 1 → halfRounded t % 2 = 0) := by
  have e : fl ((1 / 2 : Rat) * fl t) = (t : Rat) / 2 ^ 1 := by
    rw [fl_int h, ← fl_dyadic 1 h]
    congr 1
    ring
  have e2 : halfRounded t = roundEven ((t : Rat) / 2) := by
    unfold halfRounded
    rw [e, pow_one]
  have he := roundEven_err ((t : Rat) / 2)
  rw [← e2] at he
  have h1 : |((2 * halfRounded t - t : Int) : Rat)| ≤ 1 := by
    have : ((2 * halfRounded t - t : Int) : Rat) = 2 * ((halfRounded t : Rat) - (t : Rat) / 2) := by push_cast; ring
    rw [this, abs_mul, abs_of_pos (by norm_num : (0 : Rat) < 2)]
    linarith
  refine ⟨by rw [← Int.cast_abs] at h1; exact_mod_cast h1, fun ht => ?_⟩
  have hodd : t % 2 = 1 := by
    rcases abs_eq (by norm_num : (0 : Int) ≤ 1) |>.1 ht with h | h <;> omega
  have hfl : ⌊(t : Rat) / 2⌋ = t / 2 := by
    have := Rat.floor_intCast_div_natCast t 2
    simpa using this
  rw [e2]
  unfold roundEven
  have hfr : (t : Rat) / 2 - ((t / 2 : Int) : Rat) = 1 / 2 := by
    have : (t : Rat) = 2 * ((t / 2 : Int) : Rat) + 1 := by
      have : t = 2 * (t / 2) + 1 := by omega
      exact_mod_cast this
    linarith
  rw [hfl, hfr, if_neg (lt_irrefl _), if_neg (lt_irrefl _)]
  split <;> omega

/-! ### the last word -/

section
variable {ops : AngleOps} {asm : AsmOps}

theorem effective_skip {o : BuildOpts} {l : List (FEntry ops asm)} {e : FEntry ops asm} (h : e.1 ∈ skipKeys o ∨ e.2 = none) :
    effective ops asm o (l ++ [e]) = effective ops asm o l := by
  unfold effective
  rw [List.filterMap_append]
  have : ([e].filterMap fun e => if e.1 ∈ ignoredIds o then none else e.2.map fun d => (e.1, d)) = [] := by
    rcases h with h | h
    · rw [← ignored_eq] at h; simp [h]
    · simp [h]
  rw [this, List.append_nil]

theorem effective_new {o : BuildOpts} {l : List (FEntry ops asm)} {id : Int} {d : Decompiled ops.Angle asm.Asm} (h : id ∉ skipKeys o) :
    effective ops asm o (l ++ [(id, some d)]) = effective ops asm o l ++ [(id, d)] := by
  unfold effective
  rw [List.filterMap_append]
  rw [← ignored_eq] at h
  simp [h]

variable {V : Type} {S : Int → Decompiled ops.Angle asm.Asm → V → Prop} {l : List (Int × Decompiled ops.Angle asm.Asm)}

theorem lastSaid_new {dflt : Option V} {id : Int} {d : Decompiled ops.Angle asm.Asm} {v : V} (h : S id d v) :
    LastSaid ops asm (l ++ [(id, d)]) S dflt (some v) :=
  .inl ⟨l, id, d, [], v, rfl, h, (by intro e he; cases he), rfl⟩

theorem lastSaid_same {dflt val : Option V} {id : Int} {d : Decompiled ops.Angle asm.Asm} (h : ∀ w, ¬ S id d w)
    (hl : LastSaid ops asm l S dflt val) : LastSaid ops asm (l ++ [(id, d)]) S dflt val := by
  rcases hl with ⟨pre, i, d', post, v, rfl, hv, hp, rfl⟩ | ⟨hn, rfl⟩
  · refine .inl ⟨pre, i, d', post ++ [(id, d)], v, by simp, hv, ?_, rfl⟩
    intro e he
    rcases List.mem_append.1 he with he | he
    · exact hp e he
    · simp at he; subst he; exact h
  · refine .inr ⟨?_, rfl⟩
    intro e he
    rcases List.mem_append.1 he with he | he
    · exact hn e he
    · simp at he; subst he; exact h

theorem updates_lastSaid {T : Int → Decompiled ops.Angle asm.Asm → PyStr → V → Prop} {id : Int} {d : Decompiled ops.Angle asm.Asm}
    {a a' : List (PyStr × V)} (dflt : PyStr → Option V) (hu : Updates (T id d) a a')
    (h : ∀ attr, LastSaid ops asm l (fun id d v => T id d attr v) (dflt attr) (dictGet a attr)) :
    ∀ attr, LastSaid ops asm (l ++ [(id, d)]) (fun id d v => T id d attr v) (dflt attr) (dictGet a' attr) := by
  intro attr
  rcases hu attr with ⟨v, hv, e⟩ | ⟨hn, e⟩
  · rw [e]; exact lastSaid_new hv
  · rw [e]; exact lastSaid_same (fun w hw => hn ⟨w, hw⟩) (h attr)

theorem lastSaid_functional {dflt v w : Option V} (hf : ∀ e ∈ l, ∀ x y, S e.1 e.2 x → S e.1 e.2 y → x = y)
    (hv : LastSaid ops asm l S dflt v) (hw : LastSaid ops asm l S dflt w) : v = w := by
  rcases hv with ⟨pre, i, d, post, x, e1, hx, hp, rfl⟩ | ⟨hn, rfl⟩
  · rcases hw with ⟨pre', i', d', post', y, e2, hy, hp', rfl⟩ | ⟨hn', rfl⟩
    · rw [e1] at e2
      rcases List.append_eq_append_iff.1 e2 with ⟨c, h1, h2⟩ | ⟨c, h1, h2⟩
      · cases c with
        | nil =>
          simp at h2
          obtain ⟨⟨rfl, rfl⟩, -⟩ := h2
          exact congrArg some (hf (i, d) (by rw [e1]; simp) _ _ hx hy)
        | cons e c =>
          simp at h2
          exact absurd hy (hp (i', d') (by rw [h2.2]; simp) y)
      · cases c with
        | nil =>
          simp at h2
          obtain ⟨⟨rfl, rfl⟩, -⟩ := h2
          exact congrArg some (hf (i', d') (by rw [e1]; simp) _ _ hx hy)
        | cons e c =>
          simp at h2
          exact absurd hx (hp' (i, d) (by rw [h2.2]; simp) x)
    · exact absurd hx (hn' (i, d) (by rw [e1]; simp) x)
  · rcases hw with ⟨pre', i', d', post', y, e2, hy, hp', rfl⟩ | ⟨hn', rfl⟩
    · exact absurd hy (hn (i', d') (by rw [e2]; simp) y)
    · rfl

end

/-! ### one entry: everything but the attributes -/

section
variable {fmt : Int → PyStr} {ops : AngleOps} {asm : AsmOps}

theorem infoMapping_none : ∀ id ∈ [2016, 2024, 1272, 1274, 1275, 1604, 1261, 1262, 1263, 1264], dictGet infoMapping id = none := by decide +kernel

/-- the ids that matter for more than the attributes -/
theorem infoEntry_other {st st' : InfoPart asm.Asm} {id : Int} {d : Decompiled ops.Angle asm.Asm}
    (hid : id ∉ [2016, 2024, 1272, 1274, 1275, 1604, 1261, 1262, 1263, 1264]) (h : infoEntry fmt ops asm st id d = .ok st') :
    st'.tt = st.tt ∧ st'.userData = st.userData ∧ st'.metricsFlags = st.metricsFlags ∧ st'.tth = st.tth := by
  simp only [List.mem_cons, List.not_mem_nil, not_or, or_false] at hid
  obtain ⟨a1, a2, a3, a4, a5, a6, a7, a8, a9, a10⟩ := hid
  unfold infoEntry at h
  cases hm : dictGet infoMapping id with
  | some attr =>
    rw [hm] at h
    dsimp only at h
    cases hv : InfoVal.ofData ops asm d with
    | error er => rw [hv] at h; cases h
    | ok v => rw [hv] at h; cases h; exact ⟨rfl, rfl, rfl, rfl⟩
  | none =>
    rw [hm] at h
    dsimp only at h
    by_cases h1 : id = 1024
    · rw [if_pos h1] at h
      cases d with
      | str v => cases h; exact ⟨rfl, rfl, rfl, rfl⟩
      | _ => cases h
    rw [if_neg h1] at h
    by_cases h2 : id = 1034
    · rw [if_pos h2] at h
      cases d with
      | int v => cases h; exact ⟨rfl, rfl, rfl, rfl⟩
      | _ => cases h
    rw [if_neg h2] at h
    by_cases h3 : id = 1048
    · rw [if_pos h3] at h
      cases d with
      | int v => cases h; exact ⟨rfl, rfl, rfl, rfl⟩
      | _ => cases h
    rw [if_neg h3] at h
    by_cases h4 : id = 1127
    · rw [if_pos h4] at h
      cases d with
      | str v => cases h; exact ⟨rfl, rfl, rfl, rfl⟩
      | _ => cases h
    rw [if_neg h4] at h
    by_cases h5 : id = 1137
    · rw [if_pos h5] at h
      cases d with
      | str v => cases h; exact ⟨rfl, rfl, rfl, rfl⟩
      | _ => cases h
    rw [if_neg h5] at h
    by_cases h6 : id = 1138
    · rw [if_pos h6] at h
      cases d with
      | names v => cases h; exact ⟨rfl, rfl, rfl, rfl⟩
      | _ => cases h
    rw [if_neg h6, if_neg a10] at h
    by_cases h8 : id = 1265
    · rw [if_pos h8] at h
      cases d with
      | gasp v =>
        replace h : setGasp st v = .ok st' := h
        unfold setGasp at h
        cases hg : v.mapM (fun r => binaryToIntList r.flags >>= fun b => (.ok (r.maxPpem, b) : Except PyErr _)) with
        | error er => rw [hg] at h; cases h
        | ok l => rw [hg] at h; cases h; exact ⟨rfl, rfl, rfl, rfl⟩
      | _ => cases h
    rw [if_neg h8] at h
    by_cases h9 : id = 1267
    · rw [if_pos h9] at h
      cases d with
      | int v =>
        replace h : setSelection st v = .ok st' := h
        unfold setSelection at h
        cases hb : binaryToIntList v with
        | error er => rw [hb] at h; cases h
        | ok bits =>
          rw [hb] at h
          cases h
          by_cases he : (styleParts bits).isEmpty = true
          · rw [if_pos he]; exact ⟨rfl, rfl, rfl, rfl⟩
          · rw [if_neg he]; exact ⟨rfl, rfl, rfl, rfl⟩
      | _ => cases h
    rw [if_neg h9] at h
    by_cases h10 : id = 2021
    · rw [if_pos h10] at h
      cases d with
      | ints v => cases h; exact ⟨rfl, rfl, rfl, rfl⟩
      | _ => cases h
    rw [if_neg h10, if_neg a1, if_neg a2, if_neg a3, if_neg a4, if_neg a5, if_neg a6, if_neg a7, if_neg a8, if_neg a9] at h
    cases h
    exact ⟨rfl, rfl, rfl, rfl⟩

theorem maxp_names : maxpKeys = maxpNames := rfl
theorem maxp_ok : DictOk maxpKeys := by unfold DictOk; decide +kernel
theorem maxp_special : ∀ e ∈ maxpKeys, e.1 ∉ [0x56, 0x3D, 0x40, 0x4B, 0x3E, 0x50] ∧ dictGet ttAttributes e.1 = none ∧
    e.2 ≠ lit "formatVersion" := by decide +kernel
theorem maxp_none : ∀ k ∈ [0x56, 0x3D, 0x40, 0x4B, 0x3E, 0x50, 0x5C], dictGet maxpKeys k = none := by decide +kernel
theorem maxp_copied : ∀ e ∈ ttAttributes, dictGet maxpKeys e.1 = none := by decide +kernel

/-- an item of the TrueType info: the other parts -/
theorem ttInfoItem_tt {st st' : InfoPart asm.Asm} {e : Int × TTVal} (h : ttInfoItem fmt st e = .ok st') :
    st'.userData = st.userData ∧ st'.metricsFlags = st.metricsFlags ∧ st'.tth = st.tth ∧
    ((∃ name v, dictGet maxpKeys e.1 = some name ∧ e.2 = .int v ∧ st'.tt = (st.setTT name (.int v)).tt) ∨
     ((∀ name v, e.2 = .int v → (e.1, name) ∉ maxpNames) ∧ st'.tt = st.tt)) := by
  obtain ⟨key, val⟩ := e
  unfold ttInfoItem at h
  dsimp only at h ⊢
  have hno : dictGet maxpKeys key = none → ∀ name, (key, name) ∉ maxpNames := by
    intro hn name hm
    rw [← maxp_names] at hm
    rw [(dictGet_iff maxp_ok).2 hm] at hn
    cases hn
  cases val with
  | int v =>
    dsimp only at h
    cases hk : dictGet ttAttributes key with
    | some attr =>
      rw [hk] at h
      cases h
      exact ⟨rfl, rfl, rfl, .inr ⟨fun name _ _ => hno (maxp_copied _ (dictGet_some_mem hk)) name, rfl⟩⟩
    | none =>
      rw [hk] at h
      dsimp only at h
      by_cases h1 : key = 0x56
      · rw [if_pos h1] at h
        cases hc : convertTimestamp v with
        | error er => rw [hc] at h; cases h
        | ok t =>
          rw [hc] at h
          cases h
          exact ⟨rfl, rfl, rfl, .inr ⟨fun name _ _ => hno (maxp_none _ (by simp [h1])) name, rfl⟩⟩
      rw [if_neg h1] at h
      by_cases h2 : key = 0x3D
      · rw [if_pos h2] at h
        cases h
        exact ⟨rfl, rfl, rfl, .inr ⟨fun name _ _ => hno (maxp_none _ (by simp [h2])) name, rfl⟩⟩
      rw [if_neg h2] at h
      by_cases h3 : key = 0x40
      · rw [if_pos h3] at h
        cases hc : binaryToIntList v with
        | error er => rw [hc] at h; cases h
        | ok t =>
          rw [hc] at h
          cases h
          exact ⟨rfl, rfl, rfl, .inr ⟨fun name _ _ => hno (maxp_none _ (by simp [h3])) name, rfl⟩⟩
      rw [if_neg h3] at h
      by_cases h4 : key = 0x4B
      · rw [if_pos h4] at h
        cases h
        exact ⟨rfl, rfl, rfl, .inr ⟨fun name _ _ => hno (maxp_none _ (by simp [h4])) name, rfl⟩⟩
      rw [if_neg h4] at h
      by_cases h5 : key = 0x3E
      · rw [if_pos h5] at h
        cases h
        exact ⟨rfl, rfl, rfl, .inr ⟨fun name _ _ => hno (maxp_none _ (by simp [h5])) name, rfl⟩⟩
      rw [if_neg h5] at h
      by_cases h6 : key = 0x50
      · rw [if_pos h6] at h
        cases h
        exact ⟨rfl, rfl, rfl, .inr ⟨fun name _ _ => hno (maxp_none _ (by simp [h6])) name, rfl⟩⟩
      rw [if_neg h6] at h
      cases hx : dictGet maxpKeys key with
      | some k =>
        rw [hx] at h
        cases h
        exact ⟨rfl, rfl, rfl, .inl ⟨k, v, rfl, rfl, rfl⟩⟩
      | none =>
        rw [hx] at h
        dsimp only at h
        by_cases h7 : key = 0x5C
        · rw [if_pos h7] at h
          by_cases hv : v = 0
          · rw [if_pos hv] at h
            cases h
            exact ⟨rfl, rfl, rfl, .inr ⟨fun name _ _ => hno hx name, rfl⟩⟩
          · rw [if_neg hv] at h
            cases h
            exact ⟨rfl, rfl, rfl, .inr ⟨fun name _ _ => hno hx name, rfl⟩⟩
        · rw [if_neg h7] at h
          cases h
          exact ⟨rfl, rfl, rfl, .inr ⟨fun name _ _ => hno hx name, rfl⟩⟩
  | bytes l => cases h; exact ⟨rfl, rfl, rfl, .inr ⟨fun name v hv => (by cases hv), rfl⟩⟩
  | flags f opt =>
    dsimp only at h
    by_cases h1 : key = 0x39
    · rw [if_pos h1] at h
      cases h; exact ⟨rfl, rfl, rfl, .inr ⟨fun name v hv => (by cases hv), rfl⟩⟩
    · rw [if_neg h1] at h
      cases h; exact ⟨rfl, rfl, rfl, .inr ⟨fun name v hv => (by cases hv), rfl⟩⟩
  | codepages a b =>
    dsimp only at h
    by_cases h1 : key = 0x54
    · rw [if_pos h1] at h
      cases ha : binaryToIntList a with
      | error er => rw [ha] at h; cases h
      | ok la =>
        cases hb : binaryToIntList b with
        | error er => rw [ha, hb] at h; cases h
        | ok lb =>
          rw [ha, hb] at h
          replace h : (Except.ok (if (la ++ lb.map (· + 32)).isEmpty then st else
            st.setAttr (lit "openTypeOS2CodePageRanges") (.ints (la ++ lb.map (· + 32)))) : Except PyErr _) = .ok st' := h
          cases h
          by_cases hl : (la ++ lb.map (· + 32)).isEmpty = true
          · rw [if_pos hl]; exact ⟨rfl, rfl, rfl, .inr ⟨fun name v hv => (by cases hv), rfl⟩⟩
          · rw [if_neg hl]; exact ⟨rfl, rfl, rfl, .inr ⟨fun name v hv => (by cases hv), rfl⟩⟩
    · rw [if_neg h1] at h
      cases h; exact ⟨rfl, rfl, rfl, .inr ⟨fun name v hv => (by cases hv), rfl⟩⟩

/-- the TrueType values of the lib, with what is there at the start -/
def ttBase (ASM : Type) : List (PyStr × LibVal ASM) := [(lit "formatVersion", .str (lit "1"))]

/-- the change of the TrueType values of the lib -/
def TTChange (S : PyStr → LibVal asm.Asm → Prop) (t t' : Option (List (PyStr × LibVal asm.Asm))) : Prop :=
  ((∀ key v, ¬ S key v) ∧ t' = t) ∨ ((∃ key v, S key v) ∧ ∃ lib, t' = some lib ∧ Updates S (t.getD (ttBase asm.Asm)) lib ∧
    (DictOk (t.getD (ttBase asm.Asm)) → DictOk lib))

theorem ttChange_set {S : PyStr → LibVal asm.Asm → Prop} {st : InfoPart asm.Asm} {k : PyStr} {v : LibVal asm.Asm} (h : S k v)
    (hu : ∀ key w, S key w → key = k) : TTChange S st.tt (st.setTT k v).tt :=
  .inr ⟨⟨k, v, h⟩, _, rfl, updates_set h hu, fun hd => dictSet_ok hd k v⟩

theorem ttChange_trans {S T U : PyStr → LibVal asm.Asm → Prop} {t t1 t2 : Option (List (PyStr × LibVal asm.Asm))}
    (h1 : TTChange S t t1) (h2 : TTChange T t1 t2) (hU : ∀ key v, U key v ↔ S key v ∨ T key v) : TTChange U t t2 := by
  have hUe : U = fun key v => S key v ∨ T key v := by funext key v; exact propext (hU key v)
  subst hUe
  rcases h1 with ⟨n1, rfl⟩ | ⟨s1, lib1, rfl, u1, d1⟩
  · rcases h2 with ⟨n2, rfl⟩ | ⟨⟨k, v, s2⟩, lib2, rfl, u2, d2⟩
    · exact .inl ⟨fun key v h => h.elim (n1 key v) (n2 key v), rfl⟩
    · exact .inr ⟨⟨k, v, .inr s2⟩, lib2, rfl, updates_trans (updates_nothing n1) u2, d2⟩
  · obtain ⟨k, v, s1⟩ := s1
    rcases h2 with ⟨n2, rfl⟩ | ⟨-, lib2, rfl, u2, d2⟩
    · exact .inr ⟨⟨k, v, .inl s1⟩, lib1, rfl, updates_trans u1 (updates_nothing n2), d1⟩
    · exact .inr ⟨⟨k, v, .inl s1⟩, lib2, rfl, updates_trans u1 u2, fun hd => d2 (d1 hd)⟩

theorem setTTInfo_tt {d : TTInfo} {st st' : InfoPart asm.Asm} (h : setTTInfo fmt st d = .ok st') :
    st'.userData = st.userData ∧ st'.metricsFlags = st.metricsFlags ∧ st'.tth = st.tth ∧
    TTChange (SaysLib ops asm 1264 (.ttInfo d)) st.tt st'.tt := by
  unfold setTTInfo at h
  induction d generalizing st with
  | nil =>
    cases h
    refine ⟨rfl, rfl, rfl, .inl ⟨fun key v hs => ?_, rfl⟩⟩
    cases hs with
    | maxp _ h _ => cases h
  | cons e d ih =>
    rw [List.foldlM_cons] at h
    cases hs : ttInfoItem fmt st e with
    | error er => rw [hs] at h; cases h
    | ok st1 =>
      rw [hs] at h
      obtain ⟨b1, b2, b3, b4⟩ := ih h
      obtain ⟨a1, a2, a3, a4⟩ := ttInfoItem_tt hs
      refine ⟨b1.trans a1, b2.trans a2, b3.trans a3, ?_⟩
      have hfirst : TTChange (SaysLib ops asm 1264 (.ttInfo [e])) st.tt st1.tt := by
        rcases a4 with ⟨name, v, g1, g2, g3⟩ | ⟨g1, g2⟩
        · rw [g3]
          have hm := dictGet_some_mem g1
          refine ttChange_set (.maxp (key := e.1) _ (by rw [← g2]; simp) (by rw [← maxp_names]; exact hm)) ?_
          intro key w hw
          cases hw with
          | maxp _ h hk =>
            simp at h
            rw [← maxp_names] at hk
            have := (dictGet_iff maxp_ok).2 hk
            rw [← h] at g1
            rw [g1] at this
            cases this; rfl
        · refine .inl ⟨fun key v hs => ?_, g2⟩
          cases hs with
          | maxp _ h hk =>
            simp at h
            exact g1 key _ (by rw [← h]) (by rw [← h]; exact hk)
      refine ttChange_trans hfirst b4 fun key v => ?_
      constructor
      · intro hs
        cases hs with
        | maxp _ h hk =>
          rcases List.mem_cons.1 h with h | h
          · exact .inl (.maxp _ (by rw [h]; simp) hk)
          · exact .inr (.maxp _ h hk)
      · rintro (hs | hs)
        · cases hs with
          | maxp _ h hk => exact .maxp _ (by simp at h; rw [h]; simp) hk
        · cases hs with
          | maxp _ h hk => exact .maxp _ (List.mem_cons_of_mem _ h) hk

/-! ### the control values -/

theorem numbered_length : ∀ (l : List Int) (n : Nat), (numbered n l).length = l.length
  | [], n => rfl
  | v :: l, n => by unfold numbered; simp [numbered_length l]

theorem numbered_get : ∀ (l : List Int) (n i : Nat), (numbered n l)[i]? = l[i]?.map fun v => (natDec (n + i), v)
  | [], n, i => by simp [numbered]
  | v :: l, n, i => by
    unfold numbered
    cases i with
    | zero => simp
    | succ i =>
      simp only [List.getElem?_cons_succ]
      rw [numbered_get l (n + 1) i, show n + 1 + i = n + (i + 1) from by omega]

theorem unpackI16_ok : ∀ (b : Bytes) (l : List Int), unpackI16 b = .ok l →
    b.length = 2 * l.length ∧ ∀ (i : Nat) (lo hi : UInt8), b[2 * i]? = some lo → b[2 * i + 1]? = some hi →
      ∃ v : Int, l[i]? = some v ∧ -32768 ≤ v ∧ v < 32768 ∧ v % 65536 = lo.toNat + 256 * hi.toNat
  | [], l, h => by cases h; exact ⟨rfl, fun i lo hi h => by simp at h⟩
  | [_], l, h => by cases h
  | x :: y :: r, l, h => by
    unfold unpackI16 at h
    cases hr : unpackI16 r with
    | error er => rw [hr] at h; cases h
    | ok l' =>
      rw [hr] at h
      cases h
      obtain ⟨h1, h2⟩ := unpackI16_ok r l' hr
      refine ⟨by simp [h1]; omega, fun i lo hi hlo hhi => ?_⟩
      cases i with
      | zero =>
        simp at hlo hhi
        subst hlo; subst hhi
        have hx := x.toNat_lt
        have hy := y.toNat_lt
        refine ⟨_, rfl, ?_⟩
        split <;> omega
      | succ i =>
        have e1 : 2 * (i + 1) = 2 * i + 1 + 1 := by omega
        rw [e1] at hlo hhi
        simp only [List.getElem?_cons_succ] at hlo hhi
        simpa using h2 i lo hi hlo hhi

theorem unpackI16_exists : ∀ (b : Bytes), b.length % 2 = 0 → ∃ l, unpackI16 b = .ok l
  | [], _ => ⟨[], rfl⟩
  | [_], h => by simp at h
  | x :: y :: r, h => by
    obtain ⟨l, hl⟩ := unpackI16_exists r (by simp at h; omega)
    exact ⟨_, by unfold unpackI16; rw [hl]; rfl⟩

theorem isCvt_unique {b : Bytes} {d d' : List (PyStr × Int)} (h : IsCvt b d) (h' : IsCvt b d') : d = d' := by
  obtain ⟨h1, h2⟩ := h
  obtain ⟨h1', h2'⟩ := h'
  have hl : d.length = d'.length := by omega
  apply List.ext_getElem? 
  intro i
  by_cases hi : i < d.length
  · have e1 : b[2 * i]? = some b[2 * i] := List.getElem?_eq_getElem (by omega)
    have e2 : b[2 * i + 1]? = some b[2 * i + 1] := List.getElem?_eq_getElem (by omega)
    obtain ⟨v, g1, g2, g3, g4⟩ := h2 i _ _ e1 e2
    obtain ⟨w, f1, f2, f3, f4⟩ := h2' i _ _ e1 e2
    rw [g1, f1, show v = w from by omega]
  · rw [List.getElem?_eq_none (by omega), List.getElem?_eq_none (by omega)]

theorem cvt_ok {b : Bytes} {l : List Int} (h : unpackI16 b = .ok l) : IsCvt b (numbered 0 l) := by
  obtain ⟨h1, h2⟩ := unpackI16_ok b l h
  refine ⟨by rw [numbered_length]; exact h1, fun i lo hi a b => ?_⟩
  obtain ⟨v, g1, g2⟩ := h2 i lo hi a b
  exact ⟨v, by rw [numbered_get, g1]; simp, g2⟩

/-! ### one entry -/

/-- what an entry changes besides the attributes -/
structure EntryEffect (id : Int) (d : Decompiled ops.Angle asm.Asm) (st st' : InfoPart asm.Asm) : Prop where
  tt : TTChange (SaysLib ops asm id d) st.tt st'.tt
  tth : Updates (SaysTth ops asm id d) st.tth st'.tth
  user : id = 2016 → ∃ s, d = .str s ∧ st'.userData = some s
  noUser : id ≠ 2016 → st'.userData = st.userData
  flags : id = 2024 → ∃ l, d = .metricsFlags l ∧ st'.metricsFlags = some l
  noFlags : id ≠ 2024 → st'.metricsFlags = st.metricsFlags

set_option maxHeartbeats 2000000 in
theorem infoEntry_rest {st st' : InfoPart asm.Asm} {id : Int} {d : Decompiled ops.Angle asm.Asm} (h : infoEntry fmt ops asm st id d = .ok st') :
    EntryEffect id d st st' := by
  by_cases hid : id ∈ [2016, 2024, 1272, 1274, 1275, 1604, 1261, 1262, 1263, 1264]
  swap
  · obtain ⟨h1, h2, h3, h4⟩ := infoEntry_other hid h
    simp at hid
    refine ⟨.inl ⟨fun key v hs => ?_, h1⟩, ?_, fun hc => by omega, fun _ => h2, fun hc => by omega, fun _ => h3⟩
    · cases hs <;> omega
    · rw [h4]
      exact updates_nothing fun k v hs => by cases hs <;> omega
  simp only [List.mem_cons, List.not_mem_nil, or_false] at hid
  rcases hid with hid | hid | hid | hid | hid | hid | hid | hid | hid | hid
  · -- 2016
    rw [hid] at h ⊢
    unfold infoEntry at h
    rw [infoMapping_none 2016 (by simp)] at h
    cases d with
    | str s =>
      replace h : Except.ok { st with userData := some s } = Except.ok st' := h
      cases h
      exact ⟨.inl ⟨fun k w hs => (by cases hs), rfl⟩, updates_nothing (fun k w hs => by cases hs),
        fun _ => ⟨s, rfl, rfl⟩, fun hc => by omega, fun hc => by omega, fun _ => rfl⟩
    | _ => cases h
  · -- 2024
    rw [hid] at h ⊢
    unfold infoEntry at h
    rw [infoMapping_none 2024 (by simp)] at h
    cases d with
    | metricsFlags s =>
      replace h : Except.ok { st with metricsFlags := some s } = Except.ok st' := h
      cases h
      exact ⟨.inl ⟨fun k w hs => (by cases hs), rfl⟩, updates_nothing (fun k w hs => by cases hs),
        fun hc => by omega, fun _ => rfl, fun _ => ⟨s, rfl, rfl⟩, fun hc => by omega⟩
    | _ => cases h
  · -- 1272
    rw [hid] at h ⊢
    unfold infoEntry at h
    rw [infoMapping_none 1272 (by simp)] at h
    cases d with
    | int v =>
      replace h : Except.ok (setTth asm st (lit "stemsnaplimit") (some 68) v) = Except.ok st' := h
      cases h
      by_cases hv : v = 68
      · have e : setTth asm st (lit "stemsnaplimit") (some 68) v = st := by unfold setTth; rw [if_pos (by rw [hv])]
        rw [e]
        exact ⟨.inl ⟨fun k w hs => (by cases hs), rfl⟩, updates_nothing (fun k w hs => by cases hs; contradiction),
          fun hc => by omega, fun _ => rfl, fun hc => by omega, fun _ => rfl⟩
      · have e : setTth asm st (lit "stemsnaplimit") (some 68) v = { st with tth := dictSet st.tth (lit "stemsnaplimit") v } := by
          unfold setTth; rw [if_neg (by intro hc; cases hc; exact hv rfl)]
        rw [e]
        exact ⟨.inl ⟨fun k w hs => (by cases hs), rfl⟩, updates_set (.snap v hv) (fun k w hs => by cases hs; rfl),
          fun hc => by omega, fun _ => rfl, fun hc => by omega, fun _ => rfl⟩
    | _ => cases h
  · -- 1274
    rw [hid] at h ⊢
    unfold infoEntry at h
    rw [infoMapping_none 1274 (by simp)] at h
    cases d with
    | int v =>
      replace h : Except.ok (setTth asm st (lit "zoneppm") (some 48) v) = Except.ok st' := h
      cases h
      by_cases hv : v = 48
      · have e : setTth asm st (lit "zoneppm") (some 48) v = st := by unfold setTth; rw [if_pos (by rw [hv])]
        rw [e]
        exact ⟨.inl ⟨fun k w hs => (by cases hs), rfl⟩, updates_nothing (fun k w hs => by cases hs; contradiction),
          fun hc => by omega, fun _ => rfl, fun hc => by omega, fun _ => rfl⟩
      · have e : setTth asm st (lit "zoneppm") (some 48) v = { st with tth := dictSet st.tth (lit "zoneppm") v } := by
          unfold setTth; rw [if_neg (by intro hc; cases hc; exact hv rfl)]
        rw [e]
        exact ⟨.inl ⟨fun k w hs => (by cases hs), rfl⟩, updates_set (.zone v hv) (fun k w hs => by cases hs; rfl),
          fun hc => by omega, fun _ => rfl, fun hc => by omega, fun _ => rfl⟩
    | _ => cases h
  · -- 1275
    rw [hid] at h ⊢
    unfold infoEntry at h
    rw [infoMapping_none 1275 (by simp)] at h
    cases d with
    | int v =>
      replace h : Except.ok (setTth asm st (lit "codeppm") none v) = Except.ok st' := h
      cases h
      exact ⟨.inl ⟨fun k w hs => (by cases hs), rfl⟩, updates_set (.code v) (fun k w hs => by cases hs; rfl),
        fun hc => by omega, fun _ => rfl, fun hc => by omega, fun _ => rfl⟩
    | _ => cases h
  · -- 1604
    rw [hid] at h ⊢
    unfold infoEntry at h
    rw [infoMapping_none 1604 (by simp)] at h
    cases d with
    | int v =>
      replace h : Except.ok (setTth asm st (lit "dropoutppm") (some 255) v) = Except.ok st' := h
      cases h
      by_cases hv : v = 255
      · have e : setTth asm st (lit "dropoutppm") (some 255) v = st := by unfold setTth; rw [if_pos (by rw [hv])]
        rw [e]
        exact ⟨.inl ⟨fun k w hs => (by cases hs), rfl⟩, updates_nothing (fun k w hs => by cases hs; contradiction),
          fun hc => by omega, fun _ => rfl, fun hc => by omega, fun _ => rfl⟩
      · have e : setTth asm st (lit "dropoutppm") (some 255) v = { st with tth := dictSet st.tth (lit "dropoutppm") v } := by
          unfold setTth; rw [if_neg (by intro hc; cases hc; exact hv rfl)]
        rw [e]
        exact ⟨.inl ⟨fun k w hs => (by cases hs), rfl⟩, updates_set (.dropout v hv) (fun k w hs => by cases hs; rfl),
          fun hc => by omega, fun _ => rfl, fun hc => by omega, fun _ => rfl⟩
    | _ => cases h
  · -- 1261
    rw [hid] at h ⊢
    unfold infoEntry at h
    rw [infoMapping_none 1261 (by simp)] at h
    cases d with
    | str s =>
      replace h : (deHexStr s >>= fun b => unpackI16 b >>= fun l => Except.ok (st.setTT (lit "controlValue") (.cvt (numbered 0 l)))) = .ok st' := h
      cases hb : deHexStr s with
      | error er => rw [hb] at h; cases h
      | ok b =>
        rw [hb] at h
        replace h : (unpackI16 b >>= fun l => Except.ok (st.setTT (lit "controlValue") (.cvt (numbered 0 l)))) = .ok st' := h
        cases hl : unpackI16 b with
        | error er => rw [hl] at h; cases h
        | ok l =>
          rw [hl] at h
          cases h
          exact ⟨ttChange_set (.cvt s b _ hb (cvt_ok hl)) (fun key w hs => by cases hs; rfl), updates_nothing (fun k w hs => by cases hs),
            fun hc => by omega, fun _ => rfl, fun hc => by omega, fun _ => rfl⟩
    | _ => cases h
  · -- 1262
    rw [hid] at h ⊢
    unfold infoEntry at h
    rw [infoMapping_none 1262 (by simp)] at h
    cases d with
    | str s =>
      replace h : (deHexStr s >>= fun b => asm.disassemble b >>= fun a => Except.ok (st.setTT (lit "controlValueProgram") (.asm a))) = .ok st' := h
      cases hb : deHexStr s with
      | error er => rw [hb] at h; cases h
      | ok b =>
        rw [hb] at h
        replace h : (asm.disassemble b >>= fun a => Except.ok (st.setTT (lit "controlValueProgram") (.asm a))) = .ok st' := h
        cases hl : asm.disassemble b with
        | error er => rw [hl] at h; cases h
        | ok a =>
          rw [hl] at h
          cases h
          exact ⟨ttChange_set (.prep s b a hb hl) (fun key w hs => by cases hs; rfl), updates_nothing (fun k w hs => by cases hs),
            fun hc => by omega, fun _ => rfl, fun hc => by omega, fun _ => rfl⟩
    | _ => cases h
  · -- 1263
    rw [hid] at h ⊢
    unfold infoEntry at h
    rw [infoMapping_none 1263 (by simp)] at h
    cases d with
    | str s =>
      replace h : (deHexStr s >>= fun b => asm.disassemble b >>= fun a => Except.ok (st.setTT (lit "fontProgram") (.asm a))) = .ok st' := h
      cases hb : deHexStr s with
      | error er => rw [hb] at h; cases h
      | ok b =>
        rw [hb] at h
        replace h : (asm.disassemble b >>= fun a => Except.ok (st.setTT (lit "fontProgram") (.asm a))) = .ok st' := h
        cases hl : asm.disassemble b with
        | error er => rw [hl] at h; cases h
        | ok a =>
          rw [hl] at h
          cases h
          exact ⟨ttChange_set (.fpgm s b a hb hl) (fun key w hs => by cases hs; rfl), updates_nothing (fun k w hs => by cases hs),
            fun hc => by omega, fun _ => rfl, fun hc => by omega, fun _ => rfl⟩
    | _ => cases h
  · -- 1264
    rw [hid] at h ⊢
    unfold infoEntry at h
    rw [infoMapping_none 1264 (by simp)] at h
    cases d with
    | ttInfo l =>
      replace h : setTTInfo fmt st l = .ok st' := h
      obtain ⟨h1, h2, h3, h4⟩ := setTTInfo_tt (ops := ops) h
      exact ⟨h4, by rw [h3]; exact updates_nothing (fun k w hs => by cases hs),
        fun hc => by omega, fun _ => h1, fun hc => by omega, fun _ => h2⟩
    | _ => cases h

/-! ### the whole file -/

/-- the font info after these entries -/
structure InfoInv (fmt : Int → PyStr) (o : BuildOpts) (es : List (FEntry ops asm)) (st : InfoPart asm.Asm) : Prop where
  attrs : ∀ attr, LastSaid ops asm (effective ops asm o es) (fun id d v => Says fmt ops asm id d attr v) (dictGet defaultAttributes attr)
    (dictGet st.attrs attr)
  tt : (st.tt = none ∧ ∀ e ∈ effective ops asm o es, ∀ key v, ¬ SaysLib ops asm e.1 e.2 key v) ∨
    ∃ lib, st.tt = some lib ∧ DictOk lib ∧ (∃ e ∈ effective ops asm o es, ∃ key v, SaysLib ops asm e.1 e.2 key v) ∧
      ∀ key, LastSaid ops asm (effective ops asm o es) (fun id d v => SaysLib ops asm id d key v) (dictGet (ttBase asm.Asm) key) (dictGet lib key)
  tth : ∀ key, LastSaid ops asm (effective ops asm o es) (fun id d v => SaysTth ops asm id d key v) none (dictGet st.tth key)
  user : LastIs ops asm (dataOf ops asm o es 2016) .str id st.userData
  flags : LastIs ops asm (dataOf ops asm o es 2024) .metricsFlags id st.metricsFlags

theorem infoInv_step {o : BuildOpts} (l : List (FEntry ops asm)) (st : InfoPart asm.Asm) (e : FEntry ops asm) (st' : InfoPart asm.Asm)
    (hi : InfoInv fmt o l st) (h : infoStep fmt ops asm o st e = .ok st') : InfoInv fmt o (l ++ [e]) st' := by
  unfold infoStep at h
  by_cases hs : e.1 ∈ skipKeys o
  · rw [if_pos hs] at h
    cases h
    have e1 := effective_skip (ops := ops) (asm := asm) (l := l) (o := o) (.inl hs)
    have e2 := fun id => dataOf_same (ops := ops) (asm := asm) (o := o) (l := l) (id := id) (e := e) (.inr (.inl hs))
    exact ⟨by rw [e1]; exact hi.attrs, by rw [e1]; exact hi.tt, by rw [e1]; exact hi.tth, by rw [e2]; exact hi.user, by rw [e2]; exact hi.flags⟩
  rw [if_neg hs] at h
  obtain ⟨id, d⟩ := e
  cases d with
  | none =>
    cases h
    have e1 := effective_skip (ops := ops) (asm := asm) (l := l) (o := o) (e := (id, none)) (.inr rfl)
    have e2 := fun id' => dataOf_same (ops := ops) (asm := asm) (o := o) (l := l) (id := id') (e := (id, none)) (.inr (.inr rfl))
    exact ⟨by rw [e1]; exact hi.attrs, by rw [e1]; exact hi.tt, by rw [e1]; exact hi.tth, by rw [e2]; exact hi.user, by rw [e2]; exact hi.flags⟩
  | some d =>
    replace h : infoEntry fmt ops asm st id d = .ok st' := h
    have e1 := effective_new (ops := ops) (asm := asm) (l := l) (o := o) (d := d) hs
    have hr := infoEntry_rest h
    refine ⟨?_, ?_, ?_, ?_, ?_⟩
    · rw [e1]
      exact updates_lastSaid (fun attr => dictGet defaultAttributes attr) (infoEntry_updates h) hi.attrs
    · rw [e1]
      rcases hr.tt with ⟨hn, ht⟩ | ⟨⟨k, v, hk⟩, lib, ht, hu, hd⟩
      · rw [ht]
        rcases hi.tt with ⟨hn', ha⟩ | ⟨lib, ha, hd, ⟨e, he, hx⟩, hl⟩
        · refine .inl ⟨hn', fun e he => ?_⟩
          rcases List.mem_append.1 he with he | he
          · exact ha e he
          · simp at he; subst he; exact hn
        · exact .inr ⟨lib, ha, hd, ⟨e, List.mem_append_left _ he, hx⟩, fun key => lastSaid_same (fun w => hn key w) (hl key)⟩
      · refine .inr ⟨lib, ht, hd ?_, ⟨(id, d), by simp, k, v, hk⟩, ?_⟩
        · rcases hi.tt with ⟨hn', ha⟩ | ⟨lib', ha, hd', _, _⟩
          · rw [hn']; unfold DictOk ttBase; simp
          · rw [ha]; exact hd'
        · refine updates_lastSaid (fun key => dictGet (ttBase asm.Asm) key) hu fun key => ?_
          rcases hi.tt with ⟨hn', ha⟩ | ⟨lib', ha, hd', _, hl⟩
          · rw [hn']
            exact .inr ⟨fun e he w => ha e he key w, rfl⟩
          · rw [ha]; exact hl key
    · rw [e1]
      exact updates_lastSaid (fun _ => none) hr.tth hi.tth
    · by_cases hid : id = 2016
      · obtain ⟨s, rfl, hs'⟩ := hr.user hid
        rw [hs']
        subst hid
        rw [dataOf_new ops asm hs]
        exact lastIs_new
      · rw [hr.noUser hid, dataOf_same ops asm (.inl hid)]
        exact hi.user
    · by_cases hid : id = 2024
      · obtain ⟨s, rfl, hs'⟩ := hr.flags hid
        rw [hs']
        subst hid
        rw [dataOf_new ops asm hs]
        exact lastIs_new
      · rw [hr.noFlags hid, dataOf_same ops asm (.inl hid)]
        exact hi.flags

theorem infoInv {o : BuildOpts} {es : List (FEntry ops asm)} {st : InfoPart asm.Asm}
    (h : es.foldlM (infoStep fmt ops asm o) (noInfo asm.Asm) = .ok st) : InfoInv fmt o es st := by
  refine foldlM_inv (step := infoStep fmt ops asm o) (InfoInv fmt o) ?_ (infoInv_step (o := o)) es st h
  refine ⟨fun attr => .inr ⟨by simp [effective], rfl⟩, .inl ⟨rfl, by simp [effective]⟩, fun key => .inr ⟨by simp [effective], rfl⟩, ?_, ?_⟩
  · exact .inl ⟨by simp [dataOf], rfl⟩
  · exact .inl ⟨by simp [dataOf], rfl⟩

end
end Verif.Props
