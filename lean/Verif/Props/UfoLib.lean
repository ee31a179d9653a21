import Verif.Props.UfoInfoProps
/-! C79: the TrueType values of the lib of the UFO. -/
set_option autoImplicit false
namespace Verif.Props
open Verif Verif.Spec

section
variable {fmt : Int → PyStr} {ops : AngleOps} {asm : AsmOps}

/-- nothing in the file says anything about the TrueType values of the lib -/
def SaysNoLib (o : BuildOpts) (es : List (FEntry ops asm)) : Prop :=
  ∀ e ∈ effective ops asm o es, ∀ key v, ¬ SaysLib ops asm e.1 e.2 key v

/-- All six numbers are said to be zero, and nothing else is said. -/
def SaysDefaults (o : BuildOpts) (es : List (FEntry ops asm)) : Prop :=
  (∀ k ∈ maxpNames, LastSaid ops asm (effective ops asm o es) (fun id d v => SaysLib ops asm id d k.2 v) none (some (.int 0))) ∧
  ∀ e ∈ effective ops asm o es, ∀ key v, SaysLib ops asm e.1 e.2 key v → ∃ k ∈ maxpNames, k.2 = key

theorem saysLib_keys {id : Int} {d : Decompiled ops.Angle asm.Asm} {key : PyStr} {v : LibVal asm.Asm} (h : SaysLib ops asm id d key v) :
    key ≠ lit "formatVersion" := by
  cases h with
  | maxp _ _ hk => rw [← maxp_names] at hk; exact (maxp_special _ hk).2.2
  | _ => decide

theorem default_length {lib : List (PyStr × LibVal asm.Asm)} (hd : DictOk lib) (hs : ∀ e ∈ lib, e.2.isDefault e.1 = true) :
    lib.length = 7 ↔ ∀ k ∈ lit "formatVersion" :: maxpNames.map Prod.snd, ∃ v, dictGet lib k = some v := by
  have hsub : ∀ k ∈ lib.map Prod.fst, k ∈ lit "formatVersion" :: maxpNames.map Prod.snd := by
    intro k hk
    obtain ⟨e, he, rfl⟩ := List.mem_map.1 hk
    have := hs e he
    unfold LibVal.isDefault at this
    cases hv : e.2 with
    | str s => rw [hv] at this; simp at this; rw [this.1]; exact List.mem_cons_self
    | int v => rw [hv] at this; simp only [decide_eq_true_eq] at this; exact List.mem_cons_of_mem _ this.2
    | cvt d => rw [hv] at this; cases this
    | asm a => rw [hv] at this; cases this
  have hnd : (lit "formatVersion" :: maxpNames.map Prod.snd).Nodup := by decide +kernel
  have hlen : (lit "formatVersion" :: maxpNames.map Prod.snd).length = 7 := rfl
  constructor
  · intro hl k hk
    by_contra hc
    have hno : k ∉ lib.map Prod.fst := by
      intro hm
      obtain ⟨e, he, rfl⟩ := List.mem_map.1 hm
      exact hc ⟨e.2, (dictGet_iff hd).2 he⟩
    have h1 : (k :: lib.map Prod.fst).length ≤ (lit "formatVersion" :: maxpNames.map Prod.snd).length := by
      refine length_le_of_subset _ _ (List.nodup_cons.2 ⟨hno, hd⟩) ?_
      intro x hx
      rcases List.mem_cons.1 hx with rfl | hx
      · exact hk
      · exact hsub x hx
    rw [hlen] at h1
    simp [hl] at h1
  · intro h
    have h1 : (lib.map Prod.fst).length ≤ 7 := hlen ▸ length_le_of_subset _ _ hd hsub
    have h2 : (lit "formatVersion" :: maxpNames.map Prod.snd).length ≤ (lib.map Prod.fst).length := by
      refine length_le_of_subset _ _ hnd ?_
      intro k hk
      obtain ⟨v, hv⟩ := h k hk
      exact List.mem_map.2 ⟨_, dictGet_some_mem hv, rfl⟩
    rw [hlen] at h2
    simp at h1 h2
    omega

theorem ttBase_get (key : PyStr) : dictGet (ttBase asm.Asm) key = if lit "formatVersion" = key then some (.str (lit "1")) else none := by
  unfold ttBase dictGet dictGet
  simp [beq_iff_eq, eq_comm]

theorem maxp_value_unique : ∀ e ∈ maxpNames, ∀ e' ∈ maxpNames, e.2 = e'.2 → e.1 = e'.1 := by decide +kernel

/-- No entry says two different things about a value of the lib. -/
theorem C79_unambiguous {id : Int} {d : Decompiled ops.Angle asm.Asm} {key : PyStr} {v w : LibVal asm.Asm}
    (hd : ∀ l, d = .ttInfo l → DictOk l) (h : SaysLib ops asm id d key v) (h' : SaysLib ops asm id d key w) : v = w := by
  cases h with
  | maxp l hm hk =>
    cases h' with
    | maxp _ hm' hk' =>
      have e := maxp_value_unique _ hk _ hk' rfl
      dsimp only at e
      subst e
      have h1 := (dictGet_iff (hd l rfl)).2 hm
      have h2 := (dictGet_iff (hd l rfl)).2 hm'
      rw [h1] at h2
      cases h2
      rfl
  | cvt s b l hs h =>
    cases h' with
    | cvt _ b' l' hs' h' =>
      rw [hs] at hs'
      cases hs'
      rw [isCvt_unique h h']
  | prep s b a hs h =>
    cases h' with
    | prep _ b' a' hs' h' =>
      rw [hs] at hs'
      cases hs'
      rw [h] at h'
      cases h'
      rfl
  | fpgm s b a hs h =>
    cases h' with
    | fpgm _ b' a' hs' h' =>
      rw [hs] at hs'
      cases hs'
      rw [h] at h'
      cases h'
      rfl

/-- The TrueType values are in the lib exactly if the file says something about them, and more than that the six numbers of the table
"maxp" are zero.  There they have got the format version "1", and each other value is what the last entry says that says something about it. -/
theorem C79_truetype {o : BuildOpts} {es : List (FEntry ops asm)} {p : InfoPart asm.Asm}
    (hdict : ∀ id l, (id, some (.ttInfo l)) ∈ es → DictOk l) (h : buildInfo fmt ops asm o es = .ok p) :
    (p.tt = none ↔ SaysNoLib o es ∨ SaysDefaults o es) ∧
    ∀ lib, p.tt = some lib → dictGet lib (lit "formatVersion") = some (.str (lit "1")) ∧
      ∀ key, key ≠ lit "formatVersion" →
        LastSaid ops asm (effective ops asm o es) (fun id d v => SaysLib ops asm id d key v) none (dictGet lib key) := by
  obtain ⟨st, hi, -, htt, -⟩ := buildInfo_cases h
  rcases hi.tt with ⟨hn, hno⟩ | ⟨lib, hlib, hd, ⟨e0, he0, k0, v0, hs0⟩, hl⟩
  · rw [hn] at htt
    have htt : p.tt = none := htt
    rw [htt]
    exact ⟨⟨fun _ => .inl hno, fun _ => rfl⟩, fun lib hc => by cases hc⟩
  · rw [hlib] at htt
    replace htt : p.tt = if isDefaultTT lib then none else some lib := htt
    have hversion : dictGet lib (lit "formatVersion") = some (.str (lit "1")) := by
      rcases hl (lit "formatVersion") with ⟨_, id, d, _, v, _, hs, _⟩ | ⟨_, hx⟩
      · exact absurd rfl (saysLib_keys hs)
      · rw [hx, ttBase_get, if_pos rfl]
    have hkeys : ∀ key, key ≠ lit "formatVersion" →
        LastSaid ops asm (effective ops asm o es) (fun id d v => SaysLib ops asm id d key v) none (dictGet lib key) := by
      intro key hk
      have := hl key
      rwa [ttBase_get, if_neg (Ne.symm hk)] at this
    have hdef : isDefaultTT lib = true ↔ SaysDefaults o es := by
      unfold isDefaultTT
      rw [Bool.and_eq_true, beq_iff_eq, List.all_eq_true]
      constructor
      · rintro ⟨h7, hall⟩
        have hget := (default_length hd hall).1 h7
        refine ⟨fun k hk => ?_, fun e he key v hs => ?_⟩
        · obtain ⟨v, hv⟩ := hget k.2 (List.mem_cons_of_mem _ (List.mem_map.2 ⟨k, hk, rfl⟩))
          have hkv : k.2 ≠ lit "formatVersion" := by rw [← maxp_names] at hk; exact (maxp_special _ hk).2.2
          have hx := hkeys k.2 hkv
          have hdv := hall _ (dictGet_some_mem hv)
          rw [hv] at hx
          have : v = .int 0 := by
            unfold LibVal.isDefault at hdv
            cases v with
            | str s => simp at hdv; exact absurd hdv.1 hkv
            | int n => simp at hdv; rw [hdv.1]
            | cvt d => cases hdv
            | asm a => cases hdv
          rw [← this]
          exact hx
        · have hkey := saysLib_keys hs
          rcases hkeys key hkey with ⟨_, _, _, _, w, _, _, _, hw⟩ | ⟨hn, _⟩
          · have hdv := hall _ (dictGet_some_mem hw)
            unfold LibVal.isDefault at hdv
            cases w with
            | str s => simp at hdv; exact absurd hdv.1 hkey
            | int n =>
              simp only [decide_eq_true_eq] at hdv
              obtain ⟨k, hk, e⟩ := List.mem_map.1 hdv.2
              exact ⟨k, hk, e⟩
            | cvt d => cases hdv
            | asm a => cases hdv
          · exact absurd hs (hn e he v)
      · rintro ⟨hz, honly⟩
        have hall : ∀ e ∈ lib, e.2.isDefault e.1 = true := by
          rintro ⟨key, v⟩ he
          have hg := (dictGet_iff hd).2 he
          by_cases hk : key = lit "formatVersion"
          · rw [hk, hversion] at hg
            cases hg
            rw [hk]
            rfl
          · have hx := hkeys key hk
            rw [hg] at hx
            have hx' := hx
            rcases hx with ⟨_, id, d, _, w, hsplit, hs, _, hval⟩ | ⟨_, hval⟩
            · cases hval
              obtain ⟨k, hkm, rfl⟩ := honly (id, d) (by rw [hsplit]; simp) key v hs
              have hv : some v = some (.int 0) := by
                refine lastSaid_functional ?_ hx' (hz k hkm)
                rintro ⟨id', d'⟩ he x y hx hy
                exact C79_unambiguous (fun l hl => hdict id' l (hl ▸ (mem_effective (ops := ops) (asm := asm) he).1)) hx hy
              cases hv
              unfold LibVal.isDefault
              simp only [decide_eq_true_eq]
              exact ⟨trivial, List.mem_map.2 ⟨k, hkm, rfl⟩⟩
            · cases hval
        refine ⟨(default_length hd hall).2 ?_, hall⟩
        intro k hk
        rcases List.mem_cons.1 hk with rfl | hk
        · exact ⟨_, hversion⟩
        · obtain ⟨k', hk', rfl⟩ := List.mem_map.1 hk
          have hkv : k'.2 ≠ lit "formatVersion" := by rw [← maxp_names] at hk'; exact (maxp_special _ hk').2.2
          rcases hkeys k'.2 hkv with ⟨_, _, _, _, w, _, _, _, hw⟩ | ⟨hn, _⟩
          · exact ⟨w, hw⟩
          · rcases hz k' hk' with ⟨_, id, d, _, w, hsplit, hs, _⟩ | ⟨_, hc⟩
            · exact absurd hs (hn (id, d) (by rw [hsplit]; simp) w)
            · cases hc
    constructor
    · rw [htt]
      by_cases hb : isDefaultTT lib = true
      · rw [if_pos hb]
        exact ⟨fun _ => .inr (hdef.1 hb), fun _ => rfl⟩
      · rw [if_neg hb]
        refine ⟨fun hc => (by cases hc), ?_⟩
        rintro (hc | hc)
        · exact absurd hs0 (hc e0 he0 k0 v0)
        · exact absurd (hdef.2 hc) hb
    · intro lib' hlib'
      rw [htt] at hlib'
      by_cases hb : isDefaultTT lib = true
      · rw [if_pos hb] at hlib'; cases hlib'
      · rw [if_neg hb] at hlib'
        cases hlib'
        exact ⟨hversion, hkeys⟩

/-- The numbers of the TrueType hinting in the lib: the value of the last entry, where entries with the usual value (68, 48, 255) are
ignored, so that a usual value does not replace another one before it.  User data and metrics class flags: the data of the last entry. -/
theorem C79_numbers {o : BuildOpts} {es : List (FEntry ops asm)} {p : InfoPart asm.Asm} (h : buildInfo fmt ops asm o es = .ok p) :
    (∀ key, LastSaid ops asm (effective ops asm o es) (fun id d v => SaysTth ops asm id d key v) none (dictGet p.tth key)) ∧
    LastIs ops asm (dataOf ops asm o es 2016) .str id p.userData ∧
    LastIs ops asm (dataOf ops asm o es 2024) .metricsFlags id p.metricsFlags := by
  obtain ⟨st, hi, -, -, h1, h2, h3⟩ := buildInfo_cases h
  rw [h1, h2, h3]
  exact ⟨hi.tth, hi.user, hi.flags⟩

/-- No entry says two different things about a number of the TrueType hinting. -/
theorem C79_numbers_unambiguous {id : Int} {d : Decompiled ops.Angle asm.Asm} {key : PyStr} {v w : Int} (h : SaysTth ops asm id d key v)
    (h' : SaysTth ops asm id d key w) : v = w := by
  cases h <;> cases h' <;> rfl

end

/-! ### an example -/

/-- a creation time as text: here just the number -/
def exampleFmt (t : Int) : PyStr := intDec t

/-- an example: names, underline, style, TrueType info, gasp, control values -/
def exampleInfo : List (FEntry exampleAngles exampleAsm) :=
  [(1024, some (.str (lit "Demo"))), (1137, some (.str (lit "Bold Italic"))), (1048, some (.int 2000)), (1030, some (.int (-75))),
   (1031, some (.int 50)), (1267, some (.int 161)), (1265, some (.gasp [⟨8, 2⟩, ⟨65535, 3⟩])),
   (1264, some (.ttInfo [(0x38, .int 512), (0x56, .int (-497146807)), (0x4B, .int 0x0803), (0x40, .int 4), (0x3F, .int 5),
     (0x54, .codepages 3 1)])),
   (1261, some (.str (lit "0a00 ffff"))), (1272, some (.int 70)), (1272, some (.int 68)), (1024, some (.str (lit "Demo Sans"))), (2017, none)]

/-- what is in the UFO for the example -/
example :
    (buildInfo exampleFmt exampleAngles exampleAsm exampleOpts exampleInfo).toOption.map (fun p =>
      [lit "familyName", lit "openTypeNamePreferredFamilyName", lit "styleName", lit "openTypeOS2WeightClass",
       lit "postscriptUnderlinePosition", lit "styleMapStyleName", lit "openTypeOS2Selection", lit "openTypeGaspRangeRecords",
       lit "openTypeHeadCreated", lit "openTypeOS2FamilyClass", lit "openTypeOS2Type", lit "openTypeOS2CodePageRanges", lit "copyright"].map fun a =>
        dictGet p.attrs a) =
    some [some (.str (lit "Demo Sans")), some (.str (lit "Demo Sans")), some (.str (lit "Bold Italic")), some (.int 1000),
      some (.int (-50)), some (.str (lit "bold italic")), some (.ints [7]), some (.gasp [(8, [1]), (65535, [0, 1])]),
      some (.str (lit "1714979289000000")), some (.ints [8, 3]), some (.ints [2]), some (.ints [0, 1, 32]), none] := by decide +kernel

example :
    (buildInfo exampleFmt exampleAngles exampleAsm exampleOpts exampleInfo).toOption.map (fun p => p.tth) =
      some [(lit "stemsnaplimit", 70)] ∧
    (buildInfo exampleFmt exampleAngles exampleAsm exampleOpts exampleInfo).toOption.map (fun p => (p.tt.getD []).map Prod.fst) =
      some [lit "formatVersion", lit "maxStackElements", lit "controlValue"] := by decide +kernel

/-- only zeros: no TrueType values in the lib -/
example :
    (buildInfo exampleFmt exampleAngles exampleAsm exampleOpts
      [(1264, some (.ttInfo [(0x33, .int 0), (0x34, .int 0), (0x35, .int 0), (0x36, .int 0), (0x37, .int 0), (0x38, .int 0)]))]).toOption.map
        (fun p => p.tt.isNone) = some true ∧
    (buildInfo exampleFmt exampleAngles exampleAsm exampleOpts [(1264, some (.ttInfo [(0x33, .int 0)]))]).toOption.map
        (fun p => p.tt.isNone) = some false := by decide +kernel

/-- the hypotheses of `C78_success` and `C79_truetype` for the example -/
example : (∀ id l, (id, some (.ttInfo l)) ∈ exampleInfo → DictOk l) ∧
    ∀ e ∈ exampleInfo, (kindOf e.1).bind (fun k => e.2.map fun d => ((k.cls exampleAngles exampleAsm).proj d).isSome) ≠ some false := by
  constructor
  · intro id l h
    simp [exampleInfo] at h
    rw [h.2]
    unfold DictOk
    decide +kernel
  · decide +kernel

end Verif.Props
