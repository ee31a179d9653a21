import Verif.Props.UfoSuccessParts
import Verif.Props.UfoAxes
/-! C96: when the axes and masters of a font can be converted. -/
set_option autoImplicit false
namespace Verif.Props
open Verif Verif.Spec

section
variable {ops : AngleOps} {deg : ops.Angle → Rat} {asm : AsmOps} {fmt : Int → PyStr}

theorem typed_1516 {d : Decompiled ops.Angle asm.Asm} (hw : WellTyped ops asm (1516, some d)) : ∃ x, d = .axisMappings x := by
  have h1 := hw _ d (show kindOf 1516 = some .axisMappings from by decide +kernel) rfl
  cases d <;> first
    | (simp [Kind.cls] at h1; done)
    | exact ⟨_, rfl⟩

theorem typed_1523 {d : Decompiled ops.Angle asm.Asm} (hw : WellTyped ops asm (1523, some d)) : ∃ x, d = .aniso x := by
  have h1 := hw _ d (show kindOf 1523 = some .aniso from by decide +kernel) rfl
  cases d <;> first
    | (simp [Kind.cls] at h1; done)
    | exact ⟨_, rfl⟩

/-- all other entries only have to be of the right type -/
theorem masterEntry_exists {st : MastersPart ops.Angle} {id : Int} {d : Decompiled ops.Angle asm.Asm} (hw : WellTyped ops asm (id, some d))
    (hm : id ≠ 1516) (ha : id ≠ 1523) : ∃ st', masterEntry ops asm st id d = .ok st' := by
  by_cases h1 : id = 1254
  · subst h1
    have h1 := hw _ d (show kindOf 1254 = some .instances from by decide +kernel) rfl
    cases d <;> first | (simp [Kind.cls] at h1; done) | exact ⟨_, rfl⟩
  by_cases h2 : id = 1294
  · subst h2
    have h1 := hw _ d (show kindOf 1294 = some .globalGuides from by decide +kernel) rfl
    cases d <;> first | (simp [Kind.cls] at h1; done) | exact ⟨_, rfl⟩
  by_cases h3 : id = 1296
  · subst h3
    have h1 := hw _ d (show kindOf 1296 = some .guideProps from by decide +kernel) rfl
    cases d <;> first | (simp [Kind.cls] at h1; done) | exact ⟨_, rfl⟩
  by_cases h4 : id = 1503
  · subst h4
    have h1 := hw _ d (show kindOf 1503 = some .int16 from by decide +kernel) rfl
    cases d <;> first | (simp [Kind.cls] at h1; done) | exact ⟨_, rfl⟩
  by_cases h5 : id = 1504
  · subst h5
    have h1 := hw _ d (show kindOf 1504 = some .string from by decide +kernel) rfl
    cases d <;> first | (simp [Kind.cls] at h1; done) | exact ⟨_, rfl⟩
  by_cases h6 : id = 1505
  · subst h6
    have h1 := hw _ d (show kindOf 1505 = some .masterLocation from by decide +kernel) rfl
    cases d <;> first | (simp [Kind.cls] at h1; done) | exact ⟨_, rfl⟩
  by_cases h7 : id = 1513
  · subst h7
    have h1 := hw _ d (show kindOf 1513 = some .int16 from by decide +kernel) rfl
    cases d <;> first | (simp [Kind.cls] at h1; done) | exact ⟨_, rfl⟩
  by_cases h8 : id = 1514
  · subst h8
    have h1 := hw _ d (show kindOf 1514 = some .string from by decide +kernel) rfl
    cases d <;> first | (simp [Kind.cls] at h1; done) | exact ⟨_, rfl⟩
  by_cases h9 : id = 1515
  · subst h9
    have h1 := hw _ d (show kindOf 1515 = some .axisCounts from by decide +kernel) rfl
    cases d <;> first | (simp [Kind.cls] at h1; done) | exact ⟨_, rfl⟩
  by_cases h12 : id ∈ [1530, 1531, 1532, 1533, 1534, 1535]
  · have h1 : ((Kind.int16.cls ops asm).proj d).isSome := by
      simp only [List.mem_cons, List.not_mem_nil, or_false] at h12
      rcases h12 with rfl | rfl | rfl | rfl | rfl | rfl <;> exact hw _ d (by rfl) rfl
    have h2 : ∃ v, d = .int v := by
      cases d <;> first | (simp [Kind.cls] at h1; done) | exact ⟨_, rfl⟩
    obtain ⟨v, rfl⟩ := h2
    simp only [List.mem_cons, List.not_mem_nil, or_false] at h12
    rcases h12 with rfl | rfl | rfl | rfl | rfl | rfl <;> exact ⟨_, rfl⟩
  by_cases h13 : id = 1536
  · subst h13
    have h1 := hw _ d (show kindOf 1536 = some .psInfo from by decide +kernel) rfl
    cases d <;> first | (simp [Kind.cls] at h1; done) | exact ⟨_, rfl⟩
  unfold masterEntry
  rw [if_neg h1, if_neg h2, if_neg h3, if_neg h4, if_neg h5, if_neg h6, if_neg h7, if_neg h8, if_neg h9, if_neg hm, if_neg ha, if_neg h12,
    if_neg h13]
  exact ⟨_, rfl⟩

theorem mappingCounts_eq {o : BuildOpts} {es : List (FEntry ops asm)} {n : Option (List Int)}
    (h : LastIs ops asm (dataOf ops asm o es 1515) .ints id n) : mappingCounts ops asm o es = n := by
  unfold mappingCounts
  rcases h with ⟨h, rfl⟩ | ⟨x, h, rfl⟩
  · rw [h]; rfl
  · rw [h]; rfl

theorem checkAniso_exists (n : Int) (axes : List Axis) (data : List (List (Int × Int))) :
    (∃ u, checkAniso n axes data = .ok u) ↔ (∀ axis ∈ data, ∀ p ∈ axis, p.1 = p.2) ∨ n ≤ axes.length ∧ n ≤ data.length := by
  unfold checkAniso
  by_cases h : ∀ axis ∈ data, ∀ p ∈ axis, p.1 = p.2
  · rw [if_pos (by simpa using h)]
    exact ⟨fun _ => .inl h, fun _ => ⟨_, rfl⟩⟩
  · rw [if_neg (by simpa using h)]
    by_cases h2 : n ≤ axes.length ∧ n ≤ data.length
    · rw [if_pos (by omega)]
      exact ⟨fun _ => .inr h2, fun _ => ⟨_, rfl⟩⟩
    · rw [if_neg (by omega)]
      refine ⟨?_, ?_⟩
      · rintro ⟨u, hu⟩; cases hu
      · rintro (h' | h')
        · exact absurd h' h
        · exact absurd h' h2

theorem not_skipped {o : BuildOpts} {id : Int} (h : id = 1516 ∨ id = 1523) : id ∉ skipKeys o := by
  unfold skipKeys minimalKeys
  rcases h with rfl | rfl <;> cases o.vfbMinimal <;> decide

theorem masterStep_exists {o : BuildOpts} (l : List (FEntry ops asm)) (st : MastersPart ops.Angle) (e : FEntry ops asm)
    (hw : WellTyped ops asm e) (hi : MastersInv o l st) : (∃ st', masterStep ops asm o st e = .ok st') ↔ AxisEntryFits ops asm o l e := by
  obtain ⟨id, d⟩ := e
  have hax : textsOf ops asm o l 1514 = st.axes.map Axis.name := textsOf_of hi.axes
  have hlen : (textsOf ops asm o l 1514).length = st.axes.length := by rw [hax, List.length_map]
  have hno : id ≠ 1516 → id ≠ 1523 → AxisEntryFits ops asm o l (id, d) := fun h1 h2 =>
    ⟨fun _ e => absurd (congrArg Prod.fst e) h1, fun _ e => absurd (congrArg Prod.fst e) h2⟩
  have hnone : AxisEntryFits ops asm o l (id, none) := ⟨fun _ e => (by injection e with _ h; cases h), fun _ e => (by injection e with _ h; cases h)⟩
  cases d with
  | none =>
    refine ⟨fun _ => hnone, fun _ => ?_⟩
    unfold masterStep
    by_cases hs : id ∈ skipKeys o
    · rw [if_pos hs]; exact ⟨_, rfl⟩
    · rw [if_neg hs]; exact ⟨_, rfl⟩
  | some d =>
    by_cases h1 : id = 1516
    · subst h1
      obtain ⟨x, rfl⟩ := typed_1516 hw
      have e1 : masterStep ops asm o st (1516, some (.axisMappings x)) =
        (addAxisMappings st.axisCount st.mapCounts st.axes x >>= fun axes => .ok { st with axes := axes }) := by
        unfold masterStep
        rw [if_neg (not_skipped (.inl rfl))]
        rfl
      rw [e1, bind_exists]
      have h2 := C74_success (axisCount := st.axisCount) (counts := st.mapCounts) (axes := st.axes) (data := x)
      have h3 : AxisEntryFits ops asm o l (1516, some (.axisMappings x)) ↔ ∃ cs, mappingCounts ops asm o l = some cs ∧ cs ≠ [] ∧
          ∀ j : Nat, (j : Int) < numberOf ops asm o l 1513 → ∃ n, cs[j]? = some n ∧
          (0 < n → j < (textsOf ops asm o l 1514).length ∧ ∀ p ∈ mappingsOf x j n, p.2.times1000.isSome = true) := by
        refine ⟨fun h => h.1 x rfl, fun h => ⟨fun y e => ?_, fun y e => (by injection e with h; exact absurd h (by decide))⟩⟩
        cases e
        exact h
      rw [h3, numberOf_eq hi.axisCount, hlen, mappingCounts_eq hi.mapCounts, ← h2]
      exact ⟨fun ⟨a, _, h, _⟩ => ⟨a, h⟩, fun ⟨a, h⟩ => ⟨a, _, h, rfl⟩⟩
    · by_cases h2 : id = 1523
      · subst h2
        obtain ⟨x, rfl⟩ := typed_1523 hw
        have e1 : masterStep ops asm o st (1523, some (.aniso x)) = (checkAniso st.axisCount st.axes x >>= fun _ => .ok st) := by
          unfold masterStep
          rw [if_neg (not_skipped (.inr rfl))]
          rfl
        rw [e1, bind_exists]
        have h3 : AxisEntryFits ops asm o l (1523, some (.aniso x)) ↔ (∀ axis ∈ x, ∀ p ∈ axis, p.1 = p.2) ∨
            numberOf ops asm o l 1513 ≤ (textsOf ops asm o l 1514).length ∧ numberOf ops asm o l 1513 ≤ x.length := by
          refine ⟨fun h => h.2 x rfl, fun h => ⟨fun y e => (by injection e with h; exact absurd h (by decide)), fun y e => ?_⟩⟩
          cases e
          exact h
        rw [h3, numberOf_eq hi.axisCount, hlen, ← checkAniso_exists]
        exact ⟨fun ⟨a, _, h, _⟩ => ⟨a, h⟩, fun ⟨a, h⟩ => ⟨a, _, h, rfl⟩⟩
      · refine ⟨fun _ => hno h1 h2, fun _ => ?_⟩
        unfold masterStep
        by_cases hs : id ∈ skipKeys o
        · rw [if_pos hs]; exact ⟨_, rfl⟩
        · rw [if_neg hs]; exact masterEntry_exists hw h1 h2

/-- **C96** Exactly when the axes and masters can be read. -/
theorem C96_axes {o : BuildOpts} {es : List (FEntry ops asm)} (hw : ∀ e ∈ es, WellTyped ops asm e) :
    (∃ m, buildMasters ops asm o es = .ok m) ↔ FitsAll (AxisEntryFits ops asm o) es := by
  unfold buildMasters
  rw [bind_exists]
  have h0 : MastersInv o ([] : List (FEntry ops asm)) (noMasters ops.Angle) := mastersInv (asm := asm) (es := []) rfl
  have := fold_fitsAll (f := masterStep ops asm o) (fits := AxisEntryFits ops asm o) (Inv := MastersInv o) (WellTyped ops asm)
    (fun pre st x hx hi => ⟨masterStep_exists pre st x hx hi, fun st' h => mastersInv_step pre st x st' hi h⟩) es [] (noMasters ops.Angle) hw h0
  simp only [List.nil_append] at this
  rw [← this]
  exact ⟨fun ⟨a, _, h, _⟩ => ⟨a, h⟩, fun ⟨a, h⟩ => ⟨a, _, h, rfl⟩⟩

end
end Verif.Props
