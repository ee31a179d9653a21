import Verif.Spec.UfoMasters
import Verif.Lemmas.UfoGlyph
import Verif.Lemmas.Float
import Verif.Props.UfoGlyph
import Mathlib.Data.List.Induction
/-! C71–C73: masters and the designspace document. -/
set_option autoImplicit false
set_option maxRecDepth 4000
namespace Verif.Props
open Verif Verif.Spec

/-- invariants of a fold that may fail -/
theorem foldlM_inv {σ α : Type} {step : σ → α → Except PyErr σ} {s0 : σ} (P : List α → σ → Prop) (h0 : P [] s0)
    (hs : ∀ l s e s', P l s → step s e = .ok s' → P (l ++ [e]) s') :
    ∀ (l : List α) (s : σ), l.foldlM step s0 = .ok s → P l s := by
  intro l
  induction l using List.reverseRecOn with
  | nil => intro s h; cases h; exact h0
  | append_singleton l e ih =>
    intro s h
    rw [List.foldlM_append] at h
    cases hl : l.foldlM step s0 with
    | error x => rw [hl] at h; cases h
    | ok s1 =>
      rw [hl] at h
      have h' : step s1 e = .ok s := by
        have e1 : ([e].foldlM step s1 : Except PyErr σ) = (step s1 e >>= fun s => .ok s) := rfl
        have h2 : ([e].foldlM step s1 : Except PyErr σ) = .ok s := h
        rw [e1] at h2
        cases hx : step s1 e with
        | error y => rw [hx] at h2; cases h2
        | ok y => rw [hx] at h2; cases h2; rfl
      exact hs l s1 e s (ih s1 hl) h'

section
variable {ops : AngleOps} {asm : AsmOps}

/-- an entry either is without effect, or its data are evaluated -/
theorem masterStep_cases {o : BuildOpts} {st st' : MastersPart ops.Angle} {e : FEntry ops asm} (h : masterStep ops asm o st e = .ok st') :
    (st' = st ∧ (e.1 ∈ skipKeys o ∨ e.2 = none)) ∨ ∃ d, e = (e.1, some d) ∧ e.1 ∉ skipKeys o ∧ masterEntry ops asm st e.1 d = .ok st' := by
  unfold masterStep at h
  by_cases h1 : e.1 ∈ skipKeys o
  · rw [if_pos h1] at h; cases h; exact .inl ⟨rfl, .inl h1⟩
  · rw [if_neg h1] at h
    cases hd : e.2 with
    | none => rw [hd] at h; cases h; exact .inl ⟨rfl, .inr rfl⟩
    | some d => rw [hd] at h; exact .inr ⟨d, by rw [← hd], h1, h⟩

/-- What the entries say about axes and masters. -/
structure MastersInv (o : BuildOpts) (l : List (FEntry ops asm)) (st : MastersPart ops.Angle) : Prop where
  axisCount : LastOr ops asm (dataOf ops asm o l 1513) .int 0 st.axisCount
  masters : dataOf ops asm o l 1504 = st.masters.map .str
  axes : dataOf ops asm o l 1514 = (st.axes.map Axis.name).map .str
  numMasters : LastIs ops asm (dataOf ops asm o l 1503) .int id st.numMasters
  instances : LastOr ops asm (dataOf ops asm o l 1254) .instances [] st.instances
  psInfos : dataOf ops asm o l 1536 = st.psInfos.map .psInfo
  locations : ∀ n, dictGet st.locations n = locationOf ops asm o l n
  blue : LastOr ops asm (dataOf ops asm o l 1530) .int 0 st.counts.blue_values
  other : LastOr ops asm (dataOf ops asm o l 1531) .int 0 st.counts.other_blues
  family : LastOr ops asm (dataOf ops asm o l 1532) .int 0 st.counts.family_blues
  familyOther : LastOr ops asm (dataOf ops asm o l 1533) .int 0 st.counts.family_other_blues
  snapH : LastOr ops asm (dataOf ops asm o l 1534) .int 0 st.counts.stem_snap_h
  snapV : LastOr ops asm (dataOf ops asm o l 1535) .int 0 st.counts.stem_snap_v
  guides : LastIs ops asm (dataOf ops asm o l 1294) .guides id st.guides
  guideProps : LastOr ops asm (dataOf ops asm o l 1296) .guideProps ⟨[], []⟩ st.guideProps
  mapCounts : LastIs ops asm (dataOf ops asm o l 1515) .ints id st.mapCounts

theorem mapAxes_names (counts : List Int) : ∀ (k i : Nat) (axes axes' : List Axis) (data : List (Dbl × Dbl)),
    mapAxes counts k i axes data = .ok axes' → axes'.map Axis.name = axes.map Axis.name := by
  intro k
  induction k with
  | zero => intro i axes axes' data h; cases h; rfl
  | succ k ih =>
    intro i axes axes' data h
    rw [mapAxes] at h
    cases hn : pyIndex counts i with
    | error e => rw [hn] at h; cases h
    | ok n =>
      rw [hn] at h
      replace h : (if 0 < n then pyIndex axes i >>= fun axis => mapAxis axis n data >>= fun axis =>
        mapAxes counts k (i + 1) (axes.set i axis) (data.drop 10) else mapAxes counts k (i + 1) axes (data.drop 10)) = .ok axes' := h
      by_cases hp : 0 < n
      · rw [if_pos hp] at h
        cases hx : pyIndex axes i with
        | error e => rw [hx] at h; cases h
        | ok axis =>
          rw [hx] at h
          cases hm : mapAxis axis n data with
          | error e =>
            replace h : (mapAxis axis n data >>= fun axis => mapAxes counts k (i + 1) (axes.set i axis) (data.drop 10)) = .ok axes' := h
            rw [hm] at h; cases h
          | ok axis' =>
            replace h : (mapAxis axis n data >>= fun axis => mapAxes counts k (i + 1) (axes.set i axis) (data.drop 10)) = .ok axes' := h
            rw [hm] at h
            rw [ih _ _ _ _ h]
            have hname : axis'.name = axis.name := by
              unfold mapAxis at hm
              cases hmm : (data.take n.toNat).mapM (fun p => p.2.round1000 >>= fun d => Except.ok (p.1, d)) with
              | error e => rw [hmm] at hm; cases hm
              | ok m => rw [hmm] at hm; cases hm; rfl
            rw [List.map_set, hname]
            have hi : axes[i]? = some axis := by
              unfold pyIndex at hx
              rw [if_pos (by omega)] at hx
              simp only [Int.toNat_natCast] at hx
              cases hg : axes[i]? with
              | none => rw [hg] at hx; cases hx
              | some y => rw [hg] at hx; cases hx; rfl
            apply List.ext_getElem?
            intro j
            rw [List.getElem?_set]
            split
            · rename_i hj
              subst hj
              rw [List.getElem?_map, hi]
              split
              · rfl
              · rename_i hlt
                rw [List.length_map] at hlt
                have := (List.getElem?_eq_some_iff.1 hi).1
                omega
            · rfl
      · rw [if_neg hp] at h; exact ih _ _ _ _ h

theorem lastOr_new {α : Type} {l : List (Decompiled ops.Angle asm.Asm)} {wrap : α → Decompiled ops.Angle asm.Asm} {dflt x : α} :
    LastOr ops asm (l ++ [wrap x]) wrap dflt x := .inr (by simp)

theorem lastIs_new {α : Type} {l : List (Decompiled ops.Angle asm.Asm)} {wrap : α → Decompiled ops.Angle asm.Asm} {x : α} :
    LastIs ops asm (l ++ [wrap x]) wrap id (some x) := .inr ⟨x, by simp, rfl⟩

theorem locationOf_same {o : BuildOpts} {l l' : List (FEntry ops asm)} (h : dataOf ops asm o l 1505 = dataOf ops asm o l' 1505) (n : Int) :
    locationOf ops asm o l n = locationOf ops asm o l' n := by
  unfold locationOf; rw [h]

/-- nothing changes when no data is added to the entries concerned -/
theorem mastersInv_congr {o : BuildOpts} {l l' : List (FEntry ops asm)} {st : MastersPart ops.Angle} (h : MastersInv o l st)
    (hd : ∀ id ∈ [1513, 1504, 1514, 1503, 1254, 1536, 1505, 1530, 1531, 1532, 1533, 1534, 1535, 1294, 1296, 1515],
      dataOf ops asm o l' id = dataOf ops asm o l id) : MastersInv o l' st where
  axisCount := by rw [hd 1513 (by decide)]; exact h.axisCount
  masters := by rw [hd 1504 (by decide)]; exact h.masters
  axes := by rw [hd 1514 (by decide)]; exact h.axes
  numMasters := by rw [hd 1503 (by decide)]; exact h.numMasters
  instances := by rw [hd 1254 (by decide)]; exact h.instances
  psInfos := by rw [hd 1536 (by decide)]; exact h.psInfos
  locations := fun n => by rw [locationOf_same (hd 1505 (by decide))]; exact h.locations n
  blue := by rw [hd 1530 (by decide)]; exact h.blue
  other := by rw [hd 1531 (by decide)]; exact h.other
  family := by rw [hd 1532 (by decide)]; exact h.family
  familyOther := by rw [hd 1533 (by decide)]; exact h.familyOther
  snapH := by rw [hd 1534 (by decide)]; exact h.snapH
  snapV := by rw [hd 1535 (by decide)]; exact h.snapV
  guides := by rw [hd 1294 (by decide)]; exact h.guides
  guideProps := by rw [hd 1296 (by decide)]; exact h.guideProps
  mapCounts := by rw [hd 1515 (by decide)]; exact h.mapCounts

/-- closes the goals for all fields but the one that the entry concerns -/
macro "other_fields" h:ident hs:ident : tactic => `(tactic| first
  | exact (by rw [$hs:ident]; exact ($h:ident).axisCount; decide)
  | exact (by rw [$hs:ident]; exact ($h:ident).masters; decide)
  | exact (by rw [$hs:ident]; exact ($h:ident).axes; decide)
  | exact (by rw [$hs:ident]; exact ($h:ident).numMasters; decide)
  | exact (by rw [$hs:ident]; exact ($h:ident).instances; decide)
  | exact (by rw [$hs:ident]; exact ($h:ident).psInfos; decide)
  | exact (fun n => (($h:ident).locations n).trans (locationOf_same ($hs:ident 1505 (by decide)).symm n))
  | exact (by rw [$hs:ident]; exact ($h:ident).blue; decide)
  | exact (by rw [$hs:ident]; exact ($h:ident).other; decide)
  | exact (by rw [$hs:ident]; exact ($h:ident).family; decide)
  | exact (by rw [$hs:ident]; exact ($h:ident).familyOther; decide)
  | exact (by rw [$hs:ident]; exact ($h:ident).snapH; decide)
  | exact (by rw [$hs:ident]; exact ($h:ident).snapV; decide)
  | exact (by rw [$hs:ident]; exact ($h:ident).guides; decide)
  | exact (by rw [$hs:ident]; exact ($h:ident).guideProps; decide)
  | exact (by rw [$hs:ident]; exact ($h:ident).mapCounts; decide))

set_option maxHeartbeats 2000000 in
theorem mastersInv_step {o : BuildOpts} (l : List (FEntry ops asm)) (st : MastersPart ops.Angle) (e : FEntry ops asm) (st' : MastersPart ops.Angle)
    (h : MastersInv o l st) (he : masterStep ops asm o st e = .ok st') : MastersInv o (l ++ [e]) st' := by
  rcases masterStep_cases he with ⟨rfl, hc⟩ | ⟨d, hed, hskip, he'⟩
  · exact mastersInv_congr h fun id _ => dataOf_same ops asm (.inr hc)
  · clear he
    obtain ⟨id, dd⟩ := e
    dsimp only at hed hskip he'
    cases hed
    have hs : ∀ j, j ≠ id → dataOf ops asm o (l ++ [(id, some d)]) j = dataOf ops asm o l j := fun j hj => dataOf_same ops asm (.inl (Ne.symm hj))
    have hn : dataOf ops asm o (l ++ [(id, some d)]) id = dataOf ops asm o l id ++ [d] := dataOf_new ops asm hskip
    clear hskip
    by_cases h1 : id = 1254
    · subst h1
      cases d <;> first | cases he' | skip
      constructor <;> first | other_fields h hs | (rw [hn]; exact lastOr_new)
    by_cases h2 : id = 1294
    · subst h2
      cases d <;> first | cases he' | skip
      constructor <;> first | other_fields h hs | (rw [hn]; exact lastIs_new)
    by_cases h3 : id = 1296
    · subst h3
      cases d <;> first | cases he' | skip
      constructor <;> first | other_fields h hs | (rw [hn]; exact lastOr_new)
    by_cases h4 : id = 1503
    · subst h4
      cases d <;> first | cases he' | skip
      constructor <;> first | other_fields h hs | (rw [hn]; exact lastIs_new)
    by_cases h5 : id = 1504
    · subst h5
      cases d <;> first | cases he' | skip
      constructor <;> first | other_fields h hs | (rw [hn, h.masters, List.map_append]; rfl)
    by_cases h6 : id = 1505
    · subst h6
      cases d <;> first | cases he' | skip
      constructor <;> first | other_fields h hs | skip
      intro n
      rename_i x
      have hl := h.locations n
      unfold locationOf at hl ⊢
      rw [hn, List.filterMap_append, dictGet_dictSet]
      by_cases hx : x.1 = n
      · simp [hx]
      · rw [if_neg (by simpa [eq_comm] using hx)]
        simp [hx, hl]
    by_cases h7 : id = 1513
    · subst h7
      cases d <;> first | cases he' | skip
      constructor <;> first | other_fields h hs | (rw [hn]; exact lastOr_new)
    by_cases h8 : id = 1514
    · subst h8
      cases d <;> first | cases he' | skip
      constructor <;> first | other_fields h hs | (rw [hn, h.axes]; simp)
    by_cases h9 : id = 1515
    · subst h9
      cases d <;> first | cases he' | skip
      constructor <;> first | other_fields h hs | (rw [hn]; exact lastIs_new)
    by_cases h10 : id = 1516
    · subst h10
      cases d <;> first | cases he' | skip
      rename_i x
      have e1 : masterEntry ops asm st 1516 (.axisMappings x) =
        (addAxisMappings st.axisCount st.mapCounts st.axes x >>= fun axes => .ok { st with axes := axes }) := rfl
      rw [e1] at he'
      cases ha : addAxisMappings st.axisCount st.mapCounts st.axes x with
      | error e => rw [ha] at he'; cases he'
      | ok axes =>
        rw [ha] at he'
        cases he'
        have hax : axes.map Axis.name = st.axes.map Axis.name := by
          unfold addAxisMappings at ha
          split at ha
          · cases ha
          · cases ha
          · exact mapAxes_names _ _ _ _ _ _ ha
        constructor <;> first | other_fields h hs | (rw [hs _ (by decide), hax]; exact h.axes)
    by_cases h11 : id = 1523
    · subst h11
      cases d <;> first | cases he' | skip
      rename_i x
      have e1 : masterEntry ops asm st 1523 (.aniso x) = (checkAniso st.axisCount st.axes x >>= fun _ => .ok st) := rfl
      rw [e1] at he'
      cases ha : checkAniso st.axisCount st.axes x with
      | error e => rw [ha] at he'; cases he'
      | ok u =>
        rw [ha] at he'
        cases he'
        constructor <;> other_fields h hs
    by_cases h12 : id ∈ [1530, 1531, 1532, 1533, 1534, 1535]
    · simp only [List.mem_cons, List.not_mem_nil, or_false] at h12
      rcases h12 with rfl | rfl | rfl | rfl | rfl | rfl
      all_goals
        cases d <;> first | cases he' | skip
        constructor <;> first | other_fields h hs | (rw [hn]; exact lastOr_new)
    by_cases h13 : id = 1536
    · subst h13
      cases d <;> first | cases he' | skip
      constructor <;> first | other_fields h hs | (rw [hn, h.psInfos, List.map_append]; rfl)
    have e1 : masterEntry ops asm st id d = .ok st := by
      unfold masterEntry
      rw [if_neg h1, if_neg h2, if_neg h3, if_neg h4, if_neg h5, if_neg h6, if_neg h7, if_neg h8, if_neg h9, if_neg h10, if_neg h11,
        if_neg h12, if_neg h13]
    rw [e1] at he'
    cases he'
    refine mastersInv_congr h fun j hj => hs j ?_
    rintro rfl
    simp only [List.mem_cons, List.not_mem_nil, or_false] at hj h12
    omega

theorem mastersInv {o : BuildOpts} {es : List (FEntry ops asm)} {st : MastersPart ops.Angle}
    (h : es.foldlM (masterStep ops asm o) (noMasters ops.Angle) = .ok st) : MastersInv o es st := by
  refine foldlM_inv (step := masterStep ops asm o) (MastersInv o) ?_ (mastersInv_step (o := o)) es st h
  have hnil : ∀ id, dataOf ops asm o [] id = [] := by intro id; unfold dataOf; simp
  constructor <;> first | (rw [hnil]; exact .inl ⟨rfl, rfl⟩) | (rw [hnil]; rfl) | skip
  intro n
  unfold locationOf
  rw [hnil]
  rfl

end
end Verif.Props
