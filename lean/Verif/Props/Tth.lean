import Verif.Spec.Tth
import Verif.Props.UfoStems
import Verif.Props.Container
/-! C63: the export of TrueType hinting (`vfb2tth`). -/
set_option autoImplicit false
namespace Verif.Props
open Verif Verif.Spec

theorem uniqueName_free (used : List PyStr) (n : PyStr) : uniqueName used n ∉ used := by
  unfold uniqueName
  split
  · exact freeSuffix_free used n 1
  · assumption

theorem freeSuffix_ge (names : List PyStr) (name : PyStr) : ∀ fuel i, i ≤ freeSuffix names name fuel i := by
  intro fuel
  induction fuel with
  | zero => intro i; exact Nat.le_refl i
  | succ n ih =>
    intro i
    rw [freeSuffix]
    split
    · exact Nat.le_trans (Nat.le_succ i) (ih (i + 1))
    · exact Nat.le_refl i

theorem withNames_spec {α : Type} (name : α → PyStr) (l : List α) : ∀ (used : List PyStr), used.Nodup →
    (withNames name used l).2 = used ++ (withNames name used l).1.map Prod.fst ∧
    (withNames name used l).1.map Prod.snd = l ∧
    (used ++ (withNames name used l).1.map Prod.fst).Nodup ∧
    ∀ (i : Nat) x m, l[i]? = some x → ((withNames name used l).1.map Prod.fst)[i]? = some m →
      (name x ∉ used ++ ((withNames name used l).1.map Prod.fst).take i → m = name x) ∧
      (name x ∈ used ++ ((withNames name used l).1.map Prod.fst).take i → ∃ k : Nat, 1 ≤ k ∧ m = name x ++ lit "#" ++ natDec k) := by
  induction l with
  | nil => intro used hu; simp [withNames, hu]
  | cons x l ih =>
    intro used hu
    have hn : (used ++ [uniqueName used (name x)]).Nodup := by
      rw [List.nodup_append]
      refine ⟨hu, by simp, ?_⟩
      intro a ha b hb
      simp only [List.mem_singleton] at hb
      subst hb
      rintro rfl
      exact uniqueName_free used _ ha
    obtain ⟨h1, h2, h3, h4⟩ := ih (used ++ [uniqueName used (name x)]) hn
    simp only [withNames]
    refine ⟨by rw [h1]; simp, by simp [h2], by simpa using h3, ?_⟩
    intro i y m hy hm
    cases i with
    | zero =>
      simp at hy hm
      subst hy; subst hm
      simp only [List.take_zero, List.append_nil]
      unfold uniqueName
      refine ⟨fun h => by rw [if_neg h], fun h => ?_⟩
      rw [if_pos h]
      exact ⟨_, freeSuffix_ge _ _ _ _, rfl⟩
    | succ i =>
      simp only [List.getElem?_cons_succ, List.map_cons] at hy hm
      have := h4 i y m hy hm
      simpa using this

theorem two_names {α : Type} (name : α → PyStr) (a b : List α) :
    Renamed ((a ++ b).map name) ((withNames name [] a).1.map Prod.fst ++ (withNames name (withNames name [] a).2 b).1.map Prod.fst) ∧
    (withNames name [] a).1.map Prod.snd = a ∧ (withNames name (withNames name [] a).2 b).1.map Prod.snd = b := by
  obtain ⟨h1, h2, h3, h4⟩ := withNames_spec name a [] (by simp)
  rw [List.nil_append] at h1 h3
  obtain ⟨g1, g2, g3, g4⟩ := withNames_spec name b (withNames name [] a).2 (by rw [h1]; exact h3)
  have l1 : (withNames name [] a).1.length = a.length := by rw [← List.length_map (f := Prod.snd), h2]
  have l2 : (withNames name (withNames name [] a).2 b).1.length = b.length := by rw [← List.length_map (f := Prod.snd), g2]
  refine ⟨⟨by simp [l1, l2], by rw [h1] at g3 ⊢; exact g3, ?_⟩, h2, g2⟩
  intro i n m hn hm
  rw [List.getElem?_map] at hn
  obtain ⟨x, hx, rfl⟩ := Option.map_eq_some_iff.1 hn
  by_cases hi : i < a.length
  · rw [List.getElem?_append_left (by simpa using hi)] at hx
    rw [List.getElem?_append_left (by simpa [l1] using hi)] at hm
    rw [List.take_append_of_le_length (by simp [l1]; omega)]
    simpa using h4 i x m hx hm
  · rw [List.getElem?_append_right (by omega)] at hx
    rw [List.getElem?_append_right (by simp [l1]; omega)] at hm
    simp only [List.length_map, l1] at hm
    have := g4 (i - a.length) x m hx hm
    rw [h1] at this
    rw [List.take_append, List.take_of_length_le (by simp [l1]; omega)]
    simpa [l1, h1] using this

theorem dictGet_perm {κ ν : Type} [DecidableEq κ] {a b : List (κ × ν)} (h : a.Perm b) (ha : DictOk a) (k : κ) : dictGet a k = dictGet b k := by
  have hb : DictOk b := (h.map Prod.fst).nodup_iff.1 ha
  apply Option.ext
  intro v
  constructor
  · intro hg; exact dictGet_of_mem hb (h.mem_iff.1 (dictGet_some_mem hg))
  · intro hg; exact dictGet_of_mem ha (h.mem_iff.2 (dictGet_some_mem hg))

theorem transform_eq (data : List (Int × Int)) :
    transformStemRounds data = (data.map fun kv => (intDec kv.2, kv.1)).foldl (fun d x => dictSet d x.1 x.2) [] := by
  unfold transformStemRounds; rw [List.foldl_map]

theorem fold_set_ok {κ ν : Type} [DecidableEq κ] : ∀ (l d : List (κ × ν)), DictOk d → DictOk (l.foldl (fun d x => dictSet d x.1 x.2) d) := by
  intro l
  induction l with
  | nil => intro d h; exact h
  | cons x l ih => intro d h; exact ih _ (dictSet_ok h _ _)

theorem insertOn_perm {α : Type} (key : α → Int) (x : α) : ∀ l, (insertOn key x l).Perm (x :: l) := by
  intro l
  induction l with
  | nil => exact .refl _
  | cons y l ih =>
    rw [insertOn]
    split
    · exact .refl _
    · exact (ih.cons y).trans (.swap x y l)

theorem sortedOn_perm {α : Type} (key : α → Int) : ∀ l, (sortedOn key l).Perm l := by
  intro l
  induction l with
  | nil => exact .refl _
  | cons x l ih => exact (insertOn_perm key x _).trans (ih.cons x)

theorem insertOn_sorted {α : Type} (key : α → Int) (x : α) : ∀ l, l.Pairwise (fun a b => key a ≤ key b) → (insertOn key x l).Pairwise (fun a b => key a ≤ key b) := by
  intro l
  induction l with
  | nil => intro _; simp [insertOn]
  | cons y l ih =>
    intro h
    rw [List.pairwise_cons] at h
    rw [insertOn]
    split
    · rename_i hxy
      rw [List.pairwise_cons, List.pairwise_cons]
      refine ⟨fun b hb => ?_, h⟩
      rcases List.mem_cons.1 hb with rfl | hb
      · exact hxy
      · exact Int.le_trans hxy (h.1 b hb)
    · rw [List.pairwise_cons]
      refine ⟨fun b hb => ?_, ih h.2⟩
      rcases List.mem_cons.1 ((insertOn_perm key x l).mem_iff.1 hb) with rfl | hb
      · omega
      · exact h.1 b hb

theorem sortedOn_sorted {α : Type} (key : α → Int) : ∀ l, (sortedOn key l).Pairwise (fun a b => key a ≤ key b) := by
  intro l
  induction l with
  | nil => exact .nil
  | cons x l ih => exact insertOn_sorted key x _ ih

theorem lowFirst_merged {six low : List (Int × Int)} {p : Int} (h6 : six = [(6, p)]) (hl : (low.map Prod.fst).Pairwise (· < ·))
    (hlow : ∀ x ∈ low, 1 < x.1 ∧ x.1 < 6) :
    LowFirst six low (sortRounds (transformStemRounds (low.foldl (fun d x => dictSet d x.1 x.2) six))) := by
  have hnd : ((six ++ low).map Prod.fst).Nodup := by
    subst h6
    rw [List.singleton_append, List.map_cons, List.nodup_cons]
    refine ⟨fun hm => ?_, hl.imp fun h => by omega⟩
    obtain ⟨x, hx, e⟩ := List.mem_map.1 hm
    have := hlow x hx
    simp only at e
    omega
  rw [fold_set_new _ _ hnd]
  have hok : DictOk (transformStemRounds (six ++ low)) := by
    rw [transform_eq]; exact fold_set_ok _ _ (by simp [DictOk])
  intro text px
  have e1 : dictGet (sortRounds (transformStemRounds (six ++ low))) text = dictGet (transformStemRounds (six ++ low)) text :=
    (dictGet_perm (sortedOn_perm _ _).symm hok text).symm
  rw [e1]
  have e2 : dictGet (transformStemRounds (six ++ low)) text = (dictGet (transformStemRounds low) text).or (dictGet (transformStemRounds six) text) := by
    rw [transform_eq, transform_eq low, fold_set_get, fold_set_get, List.map_append, List.reverse_append, dictGet_append]
    have : dictGet (transformStemRounds six) text = dictGet (six.map fun kv => (intDec kv.2, kv.1)).reverse text := by
      subst h6; rfl
    rw [this]
    simp [dictGet]
  rw [e2]
  have hb := best_transform hl
  have h6g : ∀ v, dictGet (transformStemRounds six) text = some v ↔ v = 6 ∧ text = intDec p := by
    intro v
    subst h6
    simp only [transformStemRounds, List.foldl_cons, List.foldl_nil, dictSet, dictGet]
    by_cases h : intDec p = text
    · rw [if_pos h]; constructor
      · intro e; cases e; exact ⟨rfl, h.symm⟩
      · rintro ⟨rfl, _⟩; rfl
    · rw [if_neg h]; constructor
      · intro e; cases e
      · rintro ⟨_, e⟩; exact absurd e.symm h
  cases hg : dictGet (transformStemRounds low) text with
  | some v =>
    obtain ⟨ppm, h1, h2, h3⟩ := (hb text v).1 hg
    rw [Option.some_or]
    constructor
    · intro e; cases e; exact ⟨ppm, h1, .inl ⟨h2, h3⟩⟩
    · rintro ⟨ppm', e1, h | h⟩
      · rw [← (hb text px).2 ⟨ppm', e1, h⟩, hg]
      · have : ppm' = ppm := intDec_inj (e1.symm.trans h1)
        subst this
        exact absurd h2 (h.2 v)
  | none =>
    rw [Option.none_or, h6g]
    constructor
    · rintro ⟨rfl, rfl⟩
      refine ⟨p, rfl, .inr ⟨by rw [h6]; simp, fun px' hm => ?_⟩⟩
      -- some width of the table would be found
      have hmax : ∃ m, (m, p) ∈ low ∧ ∀ q, (q, p) ∈ low → q ≤ m := max_width hm
      obtain ⟨m, hm1, hm2⟩ := hmax
      rw [(hb (intDec p) m).2 ⟨p, rfl, hm1, hm2⟩] at hg
      cases hg
    · rintro ⟨ppm, e1, h | h⟩
      · rw [(hb text px).2 ⟨ppm, e1, h⟩] at hg; cases hg
      · rw [h6] at h
        simp at h
        exact ⟨h.1.1, by rw [e1, h.1.2]⟩

/-! ### The entries before the glyphs -/

theorem pre_fold : ∀ (pre : List TthEntry) (s : TthData), (∀ e ∈ pre, Plain e) → ∃ s', pre.foldlM tthEntry s = .ok s' ∧
    s'.stems = (pre.filterMap asStems).foldl (fun _ d => some (extractStems d)) s.stems ∧
    s'.roundV = (pre.filterMap asPpems).foldl (fun r d => extractPpems r d.ttStemsV) s.roundV ∧
    s'.roundH = (pre.filterMap asPpems).foldl (fun r d => extractPpems r d.ttStemsH) s.roundH ∧
    s'.zones = (pre.filterMap asZones).foldl (fun _ d => (extractZones TthData.empty d).zones) s.zones ∧
    (pre.filterMap asZones = [] → s'.zoneT = s.zoneT ∧ s'.zoneB = s.zoneB) ∧
    (∀ d, pre.filterMap asZones = [d] → s'.zoneT = (extractZones s d).zoneT ∧ s'.zoneB = (extractZones s d).zoneB) ∧
    s'.deltas = (pre.filterMap asDeltas).foldl (fun _ d => some d) s.deltas ∧ s'.glyphs = s.glyphs := by
  intro pre
  induction pre with
  | nil => intro s _; exact ⟨s, rfl, rfl, rfl, rfl, rfl, fun _ => ⟨rfl, rfl⟩, fun d h => (by cases h), rfl, rfl⟩
  | cons e pre ih =>
    intro s h
    have he := h e (by simp)
    have hp := fun e' h' => h e' (List.mem_cons_of_mem _ h')
    cases e with
    | zones d =>
      obtain ⟨s', g1, g2, g3, g4, g5, g6, g7, g8, g9⟩ := ih (extractZones s d) hp
      refine ⟨s', by rw [List.foldlM_cons]; exact g1, g2, g3,
        g4, g5, fun h => by simp [asZones] at h, ?_,
        g8, g9⟩
      intro d' hd'
      simp only [List.filterMap_cons, asZones, List.cons.injEq] at hd'
      obtain ⟨rfl, hd'⟩ := hd'
      exact g6 hd'
    | glyph n t => exact absurd he (by simp [Plain])
    | ppems1 d =>
      obtain ⟨s', g1, g2⟩ := ih s hp
      refine ⟨s', ?_, g2⟩
      rw [List.foldlM_cons]
      have : tthEntry s (.ppems1 d) = .ok s := by simp only [tthEntry]; exact if_pos he
      rw [this]; exact g1
    | gasp l =>
      obtain ⟨s', g1, g2⟩ := ih { s with gasp := some (l.foldl (fun d x => dictSet d (intDec x.1) x.2) []) } hp
      exact ⟨s', by rw [List.foldlM_cons]; exact g1, g2⟩
    | num k v =>
      obtain ⟨s', g1, g2⟩ := ih { s with nums := dictSet s.nums k v } hp
      exact ⟨s', by rw [List.foldlM_cons]; exact g1, g2⟩
    | ttinfo a b =>
      cases ha : tthEntry s (.ttinfo a b) with
      | error e => unfold tthEntry at ha; cases ha
      | ok s1 =>
        obtain ⟨s', g1, g2⟩ := ih s1 hp
        refine ⟨s', by rw [List.foldlM_cons, ha]; exact g1, ?_⟩
        unfold tthEntry at ha
        cases ha
        exact g2
    | ppems d =>
      obtain ⟨s', g1, g2⟩ := ih { s with roundV := extractPpems s.roundV d.ttStemsV, roundH := extractPpems s.roundH d.ttStemsH } hp
      exact ⟨s', by rw [List.foldlM_cons]; exact g1, g2⟩
    | stems d =>
      obtain ⟨s', g1, g2⟩ := ih { s with stems := some (extractStems d) } hp
      exact ⟨s', by rw [List.foldlM_cons]; exact g1, g2⟩
    | deltas d =>
      obtain ⟨s', g1, g2⟩ := ih { s with deltas := some d } hp
      exact ⟨s', by rw [List.foldlM_cons]; exact g1, g2⟩
    | other =>
      obtain ⟨s', g1, g2⟩ := ih s hp
      exact ⟨s', by rw [List.foldlM_cons]; exact g1, g2⟩

/-! ### Glyphs -/

theorem glyph_fold (tn bn hn vn : List PyStr) (V H : List TthStem) (hV : V.map TthStem.name = vn) (hH : H.map TthStem.name = hn) :
    ∀ (gl : List TthEntry) (s : TthData), s.stems = some (V, H) → dictZone s.zoneT s.zoneB = (namesEnv tn bn hn vn).zone →
    (∀ e ∈ gl, ∃ n t, e = .glyph (some n) t) → (s.glyphs.map Prod.fst ++ (gl.filterMap asGlyph).map Prod.fst).Nodup →
    (∀ x ∈ gl.filterMap asGlyph, ∀ i ∈ x.2, Complete (namesEnv tn bn hn vn) i) →
    ∃ s' gs, gl.foldlM tthEntry s = .ok s' ∧ s' = { s with glyphs := s.glyphs ++ gs } ∧
      Corresponds (fun x y => y.1 = x.1 ∧ Corresponds (Translated (fun p l => l = intDec p) (namesEnv tn bn hn vn)) x.2 y.2)
        (gl.filterMap asGlyph) gs := by
  intro gl
  induction gl with
  | nil => intro s _ _ _ _ _; exact ⟨s, [], rfl, by simp, rfl, fun k a b h => by simp at h⟩
  | cons e gl ih =>
    intro s hs hz hgl hu hc
    obtain ⟨n, t, rfl⟩ := hgl e (by simp)
    have hgl' := fun e' h' => hgl e' (List.mem_cons_of_mem _ h')
    have skip : asGlyph (.glyph (some n) t) = none → tthEntry s (.glyph (some n) t) = .ok s := by
      intro h
      cases t with
      | none => rfl
      | some t => cases t with
        | nil => rfl
        | cons i is => cases h
    cases ht : asGlyph (.glyph (some n) t) with
    | none =>
      rw [List.filterMap_cons, ht] at hu hc ⊢
      obtain ⟨s', gs, g1, g2⟩ := ih s hs hz hgl' hu hc
      exact ⟨s', gs, by rw [List.foldlM_cons, skip ht]; exact g1, g2⟩
    | some x =>
      rw [List.filterMap_cons, ht] at hu hc ⊢
      cases t with
      | none => cases ht
      | some t => cases t with
        | nil => cases ht
        | cons i is =>
          cases ht
          obtain ⟨cmds, hcm⟩ := C59_index_succeeds (env := namesEnv tn bn hn vn) (is := i :: is) (hc (n, i :: is) (by simp))
          have hstep : tthEntry s (.glyph (some n) (some (i :: is))) = .ok { s with glyphs := s.glyphs ++ [(n, cmds)] } := by
            show extractGlyph s (some n) (some (i :: is)) = _
            unfold extractGlyph
            simp only
            rw [hs]
            simp only
            rw [hz, hH, hV]
            have : (⟨(namesEnv tn bn hn vn).zone, hn, vn⟩ : TthEnv) = namesEnv tn bn hn vn := rfl
            rw [this, hcm]
            simp only [bind, Except.bind]
            rw [dictSet_new]
            intro hm
            exact (List.nodup_append.1 hu).2.2 _ hm n (by simp) rfl
          obtain ⟨s', gs, g1, g2, g3⟩ := ih { s with glyphs := s.glyphs ++ [(n, cmds)] } hs hz hgl' (by simpa using hu)
            (fun x hx => hc x (List.mem_cons_of_mem _ hx))
          refine ⟨s', (n, cmds) :: gs, by rw [List.foldlM_cons, hstep]; exact g1, by rw [g2]; simp, ?_⟩
          exact corresponds_cons ⟨rfl, C59_index_commands hcm⟩ g3

/-! ### Stems -/

theorem mergeDir_ok (all : List TthStem) : ∀ (l pre : List TthStem) (data : List (Int × List (Int × Int))) (lib : List (PyStr × StemData)),
    all = pre ++ l → data.length = l.length → (∀ (i : Nat) x, data[i]? = some x → x.1 = ((pre.length + i : Nat) : Int)) →
    (lib.map Prod.fst ++ l.map TthStem.name).Nodup →
    mergeDir (some all) lib data = .ok (lib ++ List.zipWith (fun s x => (s.name, mergedStem s x.2)) l data) := by
  intro l
  induction l with
  | nil =>
    intro pre data lib _ hd _ _
    have : data = [] := List.length_eq_zero_iff.1 (by simpa using hd)
    subst this
    simp [mergeDir]; rfl
  | cons s l ih =>
    intro pre data lib ha hd hi hn
    cases data with
    | nil => simp at hd
    | cons x data =>
      have hx := hi 0 x rfl
      have hget : pyIndex all x.1 = .ok s := by
        rw [hx]; exact pyIndex_get (by rw [ha]; simp)
      have := ih (pre ++ [s]) data (lib ++ [(s.name, mergedStem s x.2)]) (by rw [ha]; simp) (by simpa using hd) (by
        intro i y hy
        rw [hi (i + 1) y (by simpa using hy)]
        simp; omega) (by simpa using hn)
      unfold mergeDir at this ⊢
      rw [List.foldlM_cons]
      simp only [hget, bind, Except.bind]
      rw [dictSet_new]
      · simpa [bind, Except.bind] using this
      · intro hm
        exact (List.nodup_append.1 hn).2.2 _ hm s.name (by simp) rfl

theorem extractPpems_eq {p : List TTPpem} (h : PpmTable p) : extractPpems [] p = p.map fun s => (s.stem, s.round) := by
  unfold extractPpems
  have : (p.map fun s => (s.stem, s.round)).foldl (fun d x => dictSet d x.1 x.2) [] = [] ++ p.map fun s => (s.stem, s.round) := by
    apply fold_set_new
    rw [List.nil_append, List.map_map]
    rw [List.nodup_iff_pairwise_ne, List.pairwise_iff_getElem]
    intro i j hi hj hij
    simp only [List.length_map] at hi hj
    have h1 := (h i p[i] (List.getElem?_eq_getElem hi)).1
    have h2 := (h j p[j] (List.getElem?_eq_getElem hj)).1
    simp only [List.getElem_map, Function.comp_apply, h1, h2]
    omega
  rw [List.foldl_map] at this
  simpa using this

theorem mergeStems_ok {s : TthData} {p : TTStems TTPpem} {d : TTStems TTStem} (hs : s.stems = some (extractStems d))
    (hV : s.roundV = extractPpems [] p.ttStemsV) (hH : s.roundH = extractPpems [] p.ttStemsH)
    (fV : FullTable p.ttStemsV d.ttStemsV) (fH : FullTable p.ttStemsH d.ttStemsH) :
    ∃ out, mergeStems s = .ok out ∧
      ExportedStems p d ((extractStems d).1.map TthStem.name ++ (extractStems d).2.map TthStem.name) out := by
  obtain ⟨hr, hv, hh⟩ := two_names TTStem.name d.ttStemsV d.ttStemsH
  have eV : (extractStems d).1.map TthStem.name = (withNames TTStem.name [] d.ttStemsV).1.map Prod.fst := by simp [extractStems, tthStemOf]
  have eH : (extractStems d).2.map TthStem.name = (withNames TTStem.name (withNames TTStem.name [] d.ttStemsV).2 d.ttStemsH).1.map Prod.fst := by
    simp [extractStems, tthStemOf]
  have lV : (extractStems d).1.length = d.ttStemsV.length := by
    rw [← congrArg List.length hv]; simp [extractStems]
  have lH : (extractStems d).2.length = d.ttStemsH.length := by
    rw [← congrArg List.length hh]; simp [extractStems]
  have hnd : ((extractStems d).1.map TthStem.name ++ (extractStems d).2.map TthStem.name).Nodup := by rw [eV, eH]; exact hr.2.1
  have gV : ∀ (i : Nat) x, d.ttStemsV[i]? = some x → ∃ n, (extractStems d).1[i]? = some (tthStemOf true (n, x)) := by
    intro i x hx
    rw [← hv, List.getElem?_map, Option.map_eq_some_iff] at hx
    obtain ⟨y, hy, rfl⟩ := hx
    exact ⟨y.1, by simp [extractStems, hy]⟩
  have gH : ∀ (i : Nat) x, d.ttStemsH[i]? = some x → ∃ n, (extractStems d).2[i]? = some (tthStemOf false (n, x)) := by
    intro i x hx
    rw [← hh, List.getElem?_map, Option.map_eq_some_iff] at hx
    obtain ⟨y, hy, rfl⟩ := hx
    exact ⟨y.1, by simp [extractStems, hy]⟩
  have m1 := mergeDir_ok (extractStems d).1 (extractStems d).1 [] (p.ttStemsV.map fun s => (s.stem, s.round)) [] rfl
    (by rw [List.length_map, lV, fV.2.2]) (by
      intro i x hx
      rw [List.getElem?_map, Option.map_eq_some_iff] at hx
      obtain ⟨y, hy, rfl⟩ := hx
      simpa using (fV.1 i y hy).1) (by simpa using (List.nodup_append.1 hnd).1)
  generalize hlv : List.zipWith (fun s (x : Int × List (Int × Int)) => (TthStem.name s, mergedStem s x.2)) (extractStems d).1 (p.ttStemsV.map fun s => (s.stem, s.round)) = LV at m1
  have kV : LV.map Prod.fst = (extractStems d).1.map TthStem.name := by
    rw [← hlv]
    apply List.ext_getElem?
    intro i
    simp only [List.getElem?_map, List.getElem?_zipWith]
    by_cases hi : i < d.ttStemsV.length
    · have h1 : i < (extractStems d).1.length := by omega
      have h2 : i < p.ttStemsV.length := by rw [fV.2.2]; exact hi
      simp [List.getElem?_eq_getElem h1, List.getElem?_eq_getElem h2]
    · rw [List.getElem?_eq_none (show (extractStems d).1.length ≤ i by omega)]; rfl
  have m2 := mergeDir_ok (extractStems d).2 (extractStems d).2 [] (p.ttStemsH.map fun s => (s.stem, s.round)) LV rfl
    (by rw [List.length_map, lH, fH.2.2]) (by
      intro i x hx
      rw [List.getElem?_map, Option.map_eq_some_iff] at hx
      obtain ⟨y, hy, rfl⟩ := hx
      simpa using (fH.1 i y hy).1) (by rw [kV]; exact hnd)
  generalize hlh : List.zipWith (fun s (x : Int × List (Int × Int)) => (TthStem.name s, mergedStem s x.2)) (extractStems d).2 (p.ttStemsH.map fun s => (s.stem, s.round)) = LH at m2
  have kH : LH.map Prod.fst = (extractStems d).2.map TthStem.name := by
    rw [← hlh]
    apply List.ext_getElem?
    intro i
    simp only [List.getElem?_map, List.getElem?_zipWith]
    by_cases hi : i < d.ttStemsH.length
    · have h1 : i < (extractStems d).2.length := by omega
      have h2 : i < p.ttStemsH.length := by rw [fH.2.2]; exact hi
      simp [List.getElem?_eq_getElem h1, List.getElem?_eq_getElem h2]
    · rw [List.getElem?_eq_none (show (extractStems d).2.length ≤ i by omega)]; rfl
  refine ⟨LV ++ LH, ?_, by rw [List.map_append, kV, kH], ?_⟩
  · unfold mergeStems
    rw [hs, hV, hH, extractPpems_eq fV.1, extractPpems_eq fH.1]
    simp only [Option.map_some]
    rw [m1, List.nil_append]
    simp only [bind, Except.bind]
    rw [m2]
    simp
  · have lLV : LV.length = d.ttStemsV.length := by
      have := congrArg List.length kV
      simp only [List.length_map] at this
      rw [this, lV]
    intro i x y q hx hy hq
    by_cases hi : i < d.ttStemsV.length
    · rw [List.getElem?_append_left hi] at hx
      rw [List.getElem?_append_left (by omega)] at hy
      rw [List.getElem?_append_left (by rw [fV.2.2]; exact hi)] at hq
      obtain ⟨n, hn⟩ := gV i x hx
      obtain ⟨ppm, h6⟩ := fV.2.1 i x hx
      obtain ⟨_, hq2, hq3⟩ := fV.1 i q hq
      rw [← hlv] at hy
      simp only [List.getElem?_zipWith, List.getElem?_map, hn, hq, Option.map_some, Option.some.injEq] at hy
      subst hy
      refine ⟨rfl, by simp [mergedStem, tthStemOf, hi], ?_⟩
      exact ⟨lowFirst_merged h6 hq2 hq3, List.pairwise_map.2 (sortedOn_sorted _ _)⟩
    · rw [List.getElem?_append_right (by omega)] at hx
      rw [List.getElem?_append_right (by omega)] at hy
      rw [List.getElem?_append_right (by rw [fV.2.2]; omega)] at hq
      rw [fV.2.2] at hq
      rw [lLV] at hy
      obtain ⟨n, hn⟩ := gH _ x hx
      obtain ⟨ppm, h6⟩ := fH.2.1 _ x hx
      obtain ⟨_, hq2, hq3⟩ := fH.1 _ q hq
      rw [← hlh] at hy
      simp only [List.getElem?_zipWith, List.getElem?_map, hn, hq, Option.map_some, Option.some.injEq] at hy
      subst hy
      refine ⟨rfl, by simp [mergedStem, tthStemOf, hi], ?_⟩
      exact ⟨lowFirst_merged h6 hq2 hq3, List.pairwise_map.2 (sortedOn_sorted _ _)⟩

/-! ### Zones -/

theorem sameDelta_sorted {d : List (Int × Int)} (h : DictOk d) : SameDelta d (sortedDeltas d) := by
  have hp := sortedOn_perm Prod.fst d
  have hok : DictOk (sortedOn Prod.fst d) := (hp.map Prod.fst).nodup_iff.2 h
  intro text v
  rw [sortedDeltas, delta_get hok text v]
  simp only [dictGet_perm hp hok]

/-- the deltas are in ascending order -/
def DeltaSorted (o : Option (List (PyStr × Int))) : Prop :=
  ∀ d, o = some d → ∃ ppms : List Int, ppms.Pairwise (· < ·) ∧ d.map Prod.fst = ppms.map intDec

theorem deltaSorted {d : List (Int × Int)} (h : DictOk d) : DeltaSorted (some (sortedDeltas d)) := by
  intro o ho
  cases ho
  have hok : ((sortedOn Prod.fst d).map Prod.fst).Nodup := ((sortedOn_perm Prod.fst d).map Prod.fst).nodup_iff.2 h
  refine ⟨(sortedOn Prod.fst d).map Prod.fst, ?_, ?_⟩
  · have h1 : ((sortedOn Prod.fst d).map Prod.fst).Pairwise (· ≤ ·) := List.pairwise_map.2 (sortedOn_sorted Prod.fst d)
    exact (h1.and hok).imp fun h => by omega
  · have e : ∀ l : List (Int × Int), deltaDict l = (l.map fun kv => (intDec kv.1, kv.2)).foldl (fun d x => dictSet d x.1 x.2) [] := by
      intro l; unfold deltaDict; rw [List.foldl_map]
    rw [sortedDeltas, e, fold_set_new _ [], List.nil_append, List.map_map, List.map_map]
    · rfl
    · rw [List.nil_append, List.map_map]
      have : (Prod.fst ∘ fun kv : Int × Int => (intDec kv.1, kv.2)) = intDec ∘ Prod.fst := rfl
      rw [this, ← List.map_map]
      exact nodup_map_on (fun a _ b _ h => intDec_inj h) hok

/-- the step of `mergeZones` -/
def zoneStep (all : List (PyStr × UfoZone)) (x : Int × List (Int × Int)) : Except PyErr (List (PyStr × UfoZone)) :=
  pyIndex all x.1 >>= fun z => .ok (all.set (pyPos all.length x.1) (z.1, { z.2 with delta := some (sortedDeltas x.2) }))

theorem zoneFold (Z : List (PyStr × UfoZone)) : ∀ (data pre : TTDeltas) (all : List (PyStr × UfoZone)),
    (pre ++ data).map Prod.fst |>.Nodup → (∀ x ∈ data, (0 ≤ x.1 ∧ x.1 < Z.length) ∧ DictOk x.2) → all.length = Z.length →
    (∀ (i : Nat) name z, Z[i]? = some (name, z) → ∃ o, all[i]? = some (name, { z with delta := o }) ∧ HasDelta (dictGet pre (i : Int)) o ∧ DeltaSorted o) →
    ∃ all', data.foldlM zoneStep all = .ok all' ∧ all'.length = Z.length ∧
      ∀ (i : Nat) name z, Z[i]? = some (name, z) → ∃ o, all'[i]? = some (name, { z with delta := o }) ∧ HasDelta (dictGet (pre ++ data) (i : Int)) o ∧ DeltaSorted o := by
  intro data
  induction data with
  | nil => intro pre all _ _ hl h; exact ⟨all, rfl, hl, by simpa using h⟩
  | cons x data ih =>
    intro pre all hn hx hl h
    obtain ⟨⟨h1, h2⟩, h3⟩ := hx x (by simp)
    obtain ⟨j, hj⟩ := Int.eq_ofNat_of_zero_le h1
    have hjl : j < Z.length := by omega
    have hg : Z[j]? = some Z[j] := List.getElem?_eq_getElem hjl
    obtain ⟨o, ho1, ho2⟩ := h j Z[j].1 Z[j].2 hg
    have hstep : zoneStep all x = .ok (all.set j (Z[j].1, { Z[j].2 with delta := some (sortedDeltas x.2) })) := by
      unfold zoneStep
      rw [hj, pyIndex_get ho1]
      simp [bind, Except.bind, pyPos]
    have hnone : dictGet pre (j : Int) = none := by
      rw [dictGet_none]
      intro hm
      rw [List.map_append, List.nodup_append] at hn
      exact hn.2.2 _ hm x.1 (by simp) hj.symm
    obtain ⟨all', e1, e4, e5⟩ := ih (pre ++ [x]) (all.set j (Z[j].1, { Z[j].2 with delta := some (sortedDeltas x.2) })) (by simpa using hn)
      (fun y hy => hx y (by simp [hy])) (by simpa using hl) (by
        intro i name z hz
        rw [dictGet_append]
        simp only [List.getElem?_set]
        by_cases hij : j = i
        · subst hij
          have hz' : Z[j] = (name, z) := Option.some.inj (hg.symm.trans hz)
          refine ⟨some (sortedDeltas x.2), by simp [hl, hjl, hz'], ?_⟩
          rw [hnone]
          refine ⟨.inr ⟨x.2, _, ?_, rfl, sameDelta_sorted h3⟩, deltaSorted h3⟩
          simp [dictGet, hj]
        · obtain ⟨o', ho', ho''⟩ := h i name z hz
          refine ⟨o', by rw [if_neg hij]; exact ho', ?_⟩
          have : dictGet [x] (i : Int) = none := by
            have : ¬ x.1 = (i : Int) := by rw [hj]; omega
            simp [dictGet, this]
          rw [this]
          simpa using ho'')
    refine ⟨all', ?_, e4, by simpa using e5⟩
    rw [List.foldlM_cons, hstep]
    exact e1

theorem mergeZones_ok {s : TthData} {z : TTZones} {d : TTDeltas} (hz : s.zones = (extractZones TthData.empty z).zones) (hd : s.deltas = some d)
    (hk : DictOk d) (hr : ∀ x ∈ d, (0 ≤ x.1 ∧ x.1 < (z.ttZonesB.getD [] ++ z.ttZonesT.getD []).length) ∧ DictOk x.2) :
    ∃ out, mergeZones s = .ok out ∧ ExportedZones (z.ttZonesB.getD []) (z.ttZonesT.getD []) d
      ((withNames TTZone.name (withNames TTZone.name [] (z.ttZonesT.getD [])).2 (z.ttZonesB.getD [])).1.map Prod.fst ++
        (withNames TTZone.name [] (z.ttZonesT.getD [])).1.map Prod.fst) out := by
  obtain ⟨hren, ht, hb⟩ := two_names TTZone.name (z.ttZonesT.getD []) (z.ttZonesB.getD [])
  have hz' : s.zones = some ((withNames TTZone.name [] (z.ttZonesT.getD [])).1.map (tthZoneOf true),
    (withNames TTZone.name (withNames TTZone.name [] (z.ttZonesT.getD [])).2 (z.ttZonesB.getD [])).1.map (tthZoneOf false)) := hz
  generalize (withNames TTZone.name (withNames TTZone.name [] (z.ttZonesT.getD [])).2 (z.ttZonesB.getD [])).1 = B at *
  generalize (withNames TTZone.name [] (z.ttZonesT.getD [])).1 = T at *
  generalize z.ttZonesT.getD [] = t at *
  generalize z.ttZonesB.getD [] = b at *
  subst ht; subst hb
  have hnd : (B.map Prod.fst ++ T.map Prod.fst).Nodup := (List.perm_append_comm.nodup_iff).1 hren.2.1
  generalize hZ : B.map (tthZoneOf false) ++ T.map (tthZoneOf true) = Z
  have hkeys : Z.map Prod.fst = B.map Prod.fst ++ T.map Prod.fst := by
    rw [← hZ]; simp [tthZoneOf, Function.comp_def]
  have hlen : Z.length = (B.map Prod.snd ++ T.map Prod.snd).length := by rw [← hZ]; simp
  have hsnd : Z.map Prod.snd = (allZones (B.map Prod.snd) (T.map Prod.snd)).map Prod.snd := by
    rw [← hZ]; simp [allZones, zoneData, tthZoneOf, Function.comp_def]
  obtain ⟨all', e1, e2, e3⟩ := zoneFold Z d [] Z (by simpa [DictOk] using hk) (by rw [hlen]; exact hr) rfl (by
    intro i name z hz
    refine ⟨none, ?_, .inl ⟨rfl, rfl⟩, fun _ h => (by cases h)⟩
    rw [hz]
    rw [← hZ] at hz
    rcases List.mem_append.1 (List.mem_of_getElem? hz) with h | h
    · obtain ⟨q, _, e⟩ := List.mem_map.1 h; cases e; rfl
    · obtain ⟨q, _, e⟩ := List.mem_map.1 h; cases e; rfl)
  have hkeys' : all'.map Prod.fst = Z.map Prod.fst := by
    apply List.ext_getElem?
    intro i
    rw [List.getElem?_map, List.getElem?_map]
    by_cases hi : i < Z.length
    · have hgi : Z[i]? = some Z[i] := List.getElem?_eq_getElem hi
      obtain ⟨o', h', _⟩ := e3 i Z[i].1 Z[i].2 hgi
      rw [h', hgi]; rfl
    · rw [List.getElem?_eq_none (by omega), List.getElem?_eq_none (by omega)]
  refine ⟨all', ?_, hkeys'.trans hkeys, ?_⟩
  · unfold mergeZones
    rw [hz', hd]
    simp only [Option.getD_some]
    rw [hZ]
    have : d.foldlM (fun (all : List (PyStr × UfoZone)) x =>
      pyIndex all x.1 >>= fun z => .ok (all.set (pyPos all.length x.1) (z.1, { z.2 with delta := some (sortedDeltas x.2) }))) Z = .ok all' := e1
    rw [this]
    simp only [bind, Except.bind]
    rw [fold_set_new _ [] (by rw [List.nil_append, hkeys', hkeys]; exact hnd)]
    simp
  · intro i zz y hzz hy
    have h1 := congrArg (fun l => l[i]?) hsnd
    simp only [List.getElem?_map, hzz, Option.map_some] at h1
    obtain ⟨w, hw1, hw2⟩ := Option.map_eq_some_iff.1 h1
    obtain ⟨o, ho1, ho2⟩ := e3 i w.1 w.2 hw1
    rw [ho1] at hy
    cases hy
    rw [hw2]
    refine ⟨rfl, rfl, rfl, ?_⟩
    simp only [List.nil_append] at ho2
    exact ho2

theorem setZoneNames_eq (names : List PyStr) : setZoneNames [] names = (enumFrom 0 names).map fun x => ((x.1 : Int), x.2) := by
  unfold setZoneNames
  have key : ∀ (l : List PyStr) (k : Nat) (d : List (Int × PyStr)), (∀ x ∈ d, x.1 < k) →
      (enumFrom k l).foldl (fun d x => dictSet d (x.1 : Int) x.2) d = d ++ (enumFrom k l).map fun x => ((x.1 : Int), x.2) := by
    intro l
    induction l with
    | nil => intro k d _; simp [enumFrom]
    | cons n l ih =>
      intro k d h
      rw [enumFrom, List.foldl_cons, dictSet_new, ih (k + 1)]
      · simp
      · intro x hx
        rcases List.mem_append.1 hx with hx | hx
        · have := h x hx; omega
        · simp at hx; subst hx; simp
      · intro hm
        obtain ⟨x, hx, e⟩ := List.mem_map.1 hm
        have := h x hx
        simp only at e
        omega
  simpa using key names 0 [] (by simp)

theorem setZoneNames_get (names : List PyStr) (i : Int) :
    dictGet (setZoneNames [] names) i = if 0 ≤ i then names[i.toNat]? else none := by
  rw [setZoneNames_eq]
  have key : ∀ (l : List PyStr) (k : Nat), dictGet ((enumFrom k l).map fun x => ((x.1 : Int), x.2)) i =
      if (k : Int) ≤ i then l[(i - k).toNat]? else none := by
    intro l
    induction l with
    | nil => intro k; simp [enumFrom, dictGet]
    | cons n l ih =>
      intro k
      simp only [enumFrom, List.map_cons, dictGet]
      by_cases h : (k : Int) = i
      · subst h; simp
      · rw [if_neg h, ih]
        by_cases h2 : (k : Int) ≤ i
        · rw [if_pos h2, if_pos (by omega)]
          have : (i - (k : Int)).toNat = (i - ((k + 1 : Nat) : Int)).toNat + 1 := by omega
          rw [this, List.getElem?_cons_succ]
        · rw [if_neg h2, if_neg (by omega)]
  simpa using key names 0

theorem dictZone_eq (tn bn hn vn : List PyStr) : dictZone (setZoneNames [] tn) (setZoneNames [] bn) = (namesEnv tn bn hn vn).zone := by
  funext side i
  unfold dictZone namesEnv
  simp only
  by_cases hs : side = lit "ttZonesT"
  · rw [if_pos hs, setZoneNames_get, if_pos hs]
    by_cases hi : 0 ≤ i
    · rw [if_pos hi, if_pos hi]; cases tn[i.toNat]? <;> rfl
    · rw [if_neg hi, if_neg hi]
  · rw [if_neg hs, setZoneNames_get, if_neg hs]
    by_cases hi : 0 ≤ i
    · rw [if_pos hi, if_pos hi]; cases bn[i.toNat]? <;> rfl
    · rw [if_neg hi, if_neg hi]

/-! ### The export -/

/-- **C63** The stems, zones and commands of the file are all exported, with the names made unique. -/
theorem C63_export {pre gl : List TthEntry} {s : TTStems TTStem} {p : TTStems TTPpem} {z : TTZones} {d : TTDeltas}
    (hpre : ∀ e ∈ pre, Plain e) (hs : pre.filterMap asStems = [s]) (hp : pre.filterMap asPpems = [p]) (hz : pre.filterMap asZones = [z])
    (hd : pre.filterMap asDeltas = [d]) (fV : FullTable p.ttStemsV s.ttStemsV) (fH : FullTable p.ttStemsH s.ttStemsH)
    (hk : DictOk d) (hr : ∀ x ∈ d, (0 ≤ x.1 ∧ x.1 < (z.ttZonesB.getD [] ++ z.ttZonesT.getD []).length) ∧ DictOk x.2)
    (hgl : ∀ e ∈ gl, ∃ n t, e = .glyph (some n) t) (hn : ((gl.filterMap asGlyph).map Prod.fst).Nodup) :
    ∃ vn hn tn bn, Renamed ((s.ttStemsV ++ s.ttStemsH).map TTStem.name) (vn ++ hn) ∧
      vn.length = s.ttStemsV.length ∧
      Renamed ((z.ttZonesT.getD [] ++ z.ttZonesB.getD []).map TTZone.name) (tn ++ bn) ∧ tn.length = (z.ttZonesT.getD []).length ∧
      ((∀ x ∈ gl.filterMap asGlyph, ∀ i ∈ x.2, Complete (namesEnv tn bn hn vn) i) →
        ∃ out, exportTth (pre ++ gl) = .ok out ∧ ExportedStems p s (vn ++ hn) out.stems ∧
          ExportedZones (z.ttZonesB.getD []) (z.ttZonesT.getD []) d (bn ++ tn) out.zones ∧
          Corresponds (fun x y => y.1 = x.1 ∧ Corresponds (Translated (fun p l => l = intDec p) (namesEnv tn bn hn vn)) x.2 y.2)
            (gl.filterMap asGlyph) out.glyphs) := by
  obtain ⟨s1, h1, h2, h3, h4, h5, _, h7, h8, h9⟩ := pre_fold pre TthData.empty hpre
  obtain ⟨r1, v1, w1⟩ := two_names TTStem.name s.ttStemsV s.ttStemsH
  obtain ⟨r2, v2, w2⟩ := two_names TTZone.name (z.ttZonesT.getD []) (z.ttZonesB.getD [])
  have eV : (extractStems s).1.map TthStem.name = (withNames TTStem.name [] s.ttStemsV).1.map Prod.fst := by simp [extractStems, tthStemOf]
  have eH : (extractStems s).2.map TthStem.name = (withNames TTStem.name (withNames TTStem.name [] s.ttStemsV).2 s.ttStemsH).1.map Prod.fst := by
    simp [extractStems, tthStemOf]
  refine ⟨(extractStems s).1.map TthStem.name, (extractStems s).2.map TthStem.name, (withNames TTZone.name [] (z.ttZonesT.getD [])).1.map Prod.fst,
    (withNames TTZone.name (withNames TTZone.name [] (z.ttZonesT.getD [])).2 (z.ttZonesB.getD [])).1.map Prod.fst,
    by rw [eV, eH]; exact r1, ?_, r2, ?_, ?_⟩
  · rw [eV, ← congrArg List.length v1]; simp
  · rw [← congrArg List.length v2]; simp
  intro hc
  obtain ⟨z1, z2⟩ := h7 z hz
  rw [hs] at h2; rw [hp] at h3 h4; rw [hz] at h5; rw [hd] at h8
  simp only [List.foldl_cons, List.foldl_nil] at h2 h3 h4 h5 h8
  obtain ⟨s2, gs, g1, g2, g3⟩ := glyph_fold _ _ _ _ _ _ rfl rfl gl s1 h2 (by
      rw [z1, z2]
      exact dictZone_eq _ _ _ _) hgl (by rw [h9]; simpa [TthData.empty] using hn) hc
  have hst : s2.stems = some (extractStems s) := by rw [g2]; exact h2
  obtain ⟨o1, m1, m2⟩ := mergeStems_ok (s := s2) hst (by rw [g2]; exact h3) (by rw [g2]; exact h4) fV fH
  obtain ⟨o2, n1, n2⟩ := mergeZones_ok (s := s2) (z := z) (by rw [g2]; exact h5) (by rw [g2]; exact h8) hk hr
  refine ⟨⟨o1, o2, s2.glyphs, s2.nums, s2.gasp⟩, ?_, m2, n2, ?_⟩
  · unfold exportTth
    rw [List.foldlM_append, h1]
    simp only [bind, Except.bind]
    rw [g1]
    simp only
    rw [m1]
    simp only
    rw [n1]
  · rw [g2]
    simp only [h9, TthData.empty, List.nil_append]
    exact g3

/-! ### Files that cannot be exported -/

theorem fold_keeps {P : TthData → Prop} {Q : TthEntry → Prop} (step : ∀ s e s', P s → Q e → tthEntry s e = .ok s' → P s') :
    ∀ (es : List TthEntry) (s s' : TthData), P s → (∀ e ∈ es, Q e) → es.foldlM tthEntry s = .ok s' → P s' := by
  intro es
  induction es with
  | nil => intro s s' h _ e; cases e; exact h
  | cons e es ih =>
    intro s s' h hq he
    rw [List.foldlM_cons] at he
    cases h1 : tthEntry s e with
    | error x => rw [h1] at he; cases he
    | ok s1 =>
      rw [h1] at he
      exact ih s1 s' (step s e s1 h (hq e (by simp)) h1) (fun e' h' => hq e' (List.mem_cons_of_mem _ h')) he

theorem extractGlyph_keeps {s s' : TthData} {n : Option PyStr} {t : Option (List Instruction)} (h : extractGlyph s n t = .ok s') :
    ∃ g, s' = { s with glyphs := g } := by
  unfold extractGlyph at h
  cases t with
  | none => cases h; exact ⟨s.glyphs, rfl⟩
  | some t => cases t with
    | nil => cases h; exact ⟨s.glyphs, rfl⟩
    | cons i is =>
      simp only at h
      cases hs : s.stems with
      | none => rw [hs] at h; cases h
      | some vh =>
        rw [hs] at h
        simp only at h
        cases hr : tthCommands indexLabeler ⟨dictZone s.zoneT s.zoneB, vh.2.map TthStem.name, vh.1.map TthStem.name⟩ () (i :: is) with
        | error e => rw [hr] at h; cases h
        | ok r =>
          rw [hr] at h
          cases n with
          | none => cases h
          | some n => cases h; exact ⟨_, rfl⟩

theorem entry_keeps {s s' : TthData} {e : TthEntry} (h : tthEntry s e = .ok s') :
    (asStems e = none → s'.stems = s.stems) ∧ (asZones e = none → s'.zones = s.zones) ∧ (asDeltas e = none → s'.deltas = s.deltas) := by
  cases e with
  | glyph n t =>
    obtain ⟨g, rfl⟩ := extractGlyph_keeps h
    exact ⟨fun _ => rfl, fun _ => rfl, fun _ => rfl⟩
  | ppems1 d =>
    simp only [tthEntry] at h
    split at h
    · cases h; exact ⟨fun _ => rfl, fun _ => rfl, fun _ => rfl⟩
    · cases h
  | stems d => cases h; exact ⟨fun h => (by cases h), fun _ => rfl, fun _ => rfl⟩
  | zones d => cases h; exact ⟨fun _ => rfl, fun h => (by cases h), fun _ => rfl⟩
  | deltas d => cases h; exact ⟨fun _ => rfl, fun _ => rfl, fun h => (by cases h)⟩
  | _ => cases h; exact ⟨fun _ => rfl, fun _ => rfl, fun _ => rfl⟩

theorem export_ok {es : List TthEntry} {x : TthExport} (h : exportTth es = .ok x) :
    ∃ s, es.foldlM tthEntry TthData.empty = .ok s ∧ mergeStems s = .ok x.stems ∧ mergeZones s = .ok x.zones ∧ x.glyphs = s.glyphs ∧
      x.nums = s.nums ∧ x.gasp = s.gasp := by
  unfold exportTth at h
  cases h1 : es.foldlM tthEntry TthData.empty with
  | error e => rw [h1] at h; cases h
  | ok s =>
    rw [h1] at h
    simp only [bind, Except.bind] at h
    cases h2 : mergeStems s with
    | error e => rw [h2] at h; cases h
    | ok a =>
      rw [h2] at h
      simp only at h
      cases h3 : mergeZones s with
      | error e => rw [h3] at h; cases h
      | ok b => rw [h3] at h; cases h; exact ⟨s, rfl, h2, h3, rfl, rfl, rfl⟩

/-- without an entry for zone deltas, even an empty one, there is no export (KeyError) -/
theorem C63_no_deltas {es : List TthEntry} (h : ∀ e ∈ es, asDeltas e = none) (x : TthExport) : exportTth es ≠ .ok x := by
  intro hx
  obtain ⟨s, h1, _, h3, _⟩ := export_ok hx
  have hd : s.deltas = none := fold_keeps (P := fun s => s.deltas = none) (fun s e s' hs he hh => by rw [(entry_keeps hh).2.2 he]; exact hs) es _ s rfl h h1
  unfold mergeZones at h3
  rw [hd] at h3
  cases hz : s.zones with
  | none => rw [hz] at h3; cases h3
  | some tb => rw [hz] at h3; cases h3

/-- without an entry for stems there is no export (KeyError) -/
theorem C63_no_stems {es : List TthEntry} (h : ∀ e ∈ es, asStems e = none) (x : TthExport) : exportTth es ≠ .ok x := by
  intro hx
  obtain ⟨s, h1, h3, _⟩ := export_ok hx
  have hd : s.stems = none := fold_keeps (P := fun s => s.stems = none) (fun s e s' hs he hh => by rw [(entry_keeps hh).1 he]; exact hs) es _ s rfl h h1
  unfold mergeStems at h3
  rw [hd] at h3
  have key : ∀ lib data r, mergeDir none lib data = .ok r → r = lib := by
    intro lib data r hr
    cases data with
    | nil => cases hr; rfl
    | cons y data => unfold mergeDir at hr; rw [List.foldlM_cons] at hr; cases hr
  simp only [Option.map_none] at h3
  cases m1 : mergeDir none [] s.roundV with
  | error e => rw [m1] at h3; cases h3
  | ok lib =>
    have := key _ _ _ m1
    subst this
    rw [m1] at h3
    simp only [bind, Except.bind] at h3
    cases m2 : mergeDir none [] s.roundH with
    | error e => rw [m2] at h3; cases h3
    | ok lib =>
      have := key _ _ _ m2
      subst this
      rw [m2] at h3
      simp at h3

/-- without an entry for zones there is no export (KeyError) -/
theorem C63_no_zones {es : List TthEntry} (h : ∀ e ∈ es, asZones e = none) (x : TthExport) : exportTth es ≠ .ok x := by
  intro hx
  obtain ⟨s, h1, _, h3, _⟩ := export_ok hx
  have hd : s.zones = none := fold_keeps (P := fun s => s.zones = none) (fun s e s' hs he hh => by rw [(entry_keeps hh).2.1 he]; exact hs) es _ s rfl h h1
  unfold mergeZones at h3
  rw [hd] at h3
  cases h3

/-- a file with ppms for one pixel has no export (KeyError) -/
theorem C63_ppems1 {pre post : List TthEntry} {d : TTStems TTPpem} (h : d.ttStemsV ≠ [] ∨ d.ttStemsH ≠ []) (x : TthExport) :
    exportTth (pre ++ .ppems1 d :: post) ≠ .ok x := by
  intro hx
  obtain ⟨s, h1, _⟩ := export_ok hx
  rw [List.foldlM_append] at h1
  cases h2 : pre.foldlM tthEntry TthData.empty with
  | error e => rw [h2] at h1; cases h1
  | ok s1 =>
    rw [h2] at h1
    simp only [bind, Except.bind] at h1
    rw [List.foldlM_cons] at h1
    have : tthEntry s1 (.ppems1 d) = .error PyErr.key := by
      simp only [tthEntry]
      rw [if_neg]
      rintro ⟨h3, h4⟩
      rcases h with h | h
      · exact h h3
      · exact h h4
    rw [this] at h1
    cases h1

theorem entry_values {s s' : TthData} {e : TthEntry} (h : tthEntry s e = .ok s') :
    s'.nums = (numsOf e).foldl (fun d x => dictSet d x.1 x.2) s.nums ∧
    s'.gasp = ((asGasp e).map fun l => l.foldl (fun d x => dictSet d (intDec x.1) x.2) []).or s.gasp := by
  cases e with
  | glyph n t => obtain ⟨g, rfl⟩ := extractGlyph_keeps h; exact ⟨rfl, rfl⟩
  | ppems1 d =>
    simp only [tthEntry] at h
    split at h
    · cases h; exact ⟨rfl, rfl⟩
    · cases h
  | ttinfo a b =>
    cases h
    refine ⟨?_, rfl⟩
    cases a <;> cases b <;> rfl
  | _ => cases h; exact ⟨rfl, rfl⟩

theorem fold_values : ∀ (es : List TthEntry) (s s' : TthData), es.foldlM tthEntry s = .ok s' →
    s'.nums = (es.flatMap numsOf).foldl (fun d x => dictSet d x.1 x.2) s.nums ∧
    s'.gasp = ((es.filterMap asGasp).getLast?.map fun l => l.foldl (fun d x => dictSet d (intDec x.1) x.2) []).or s.gasp := by
  intro es
  induction es with
  | nil => intro s s' h; cases h; exact ⟨rfl, rfl⟩
  | cons e es ih =>
    intro s s' h
    rw [List.foldlM_cons] at h
    cases h1 : tthEntry s e with
    | error x => rw [h1] at h; cases h
    | ok s1 =>
      rw [h1] at h
      obtain ⟨a1, a2⟩ := ih s1 s' h
      obtain ⟨b1, b2⟩ := entry_values h1
      refine ⟨by rw [a1, b1, List.flatMap_cons, List.foldl_append], ?_⟩
      rw [a2, b2, List.filterMap_cons]
      cases hg : asGasp e with
      | none => simp
      | some l =>
        simp only [List.getLast?_cons]
        cases (es.filterMap asGasp).getLast? <;> simp

/-- the numbers of the export are the last ones that the file sets; the gasp table is the last one of the file, with decimal
keys -/
theorem C63_values {es : List TthEntry} {x : TthExport} (h : exportTth es = .ok x) :
    (∀ key, dictGet x.nums key = dictGet (es.flatMap numsOf).reverse key) ∧
    ∀ g, (es.filterMap asGasp).getLast? = some g → ∃ out, x.gasp = some out ∧
      ∀ ppm v, dictGet g.reverse ppm = some v ↔ dictGet out (intDec ppm) = some v := by
  obtain ⟨s, h1, _, _, _, h2, h3⟩ := export_ok h
  obtain ⟨a1, a2⟩ := fold_values es _ s h1
  refine ⟨fun key => ?_, fun g hg => ?_⟩
  · rw [h2, a1, fold_set_get]; simp [TthData.empty, dictGet]
  · rw [hg] at a2
    refine ⟨_, h3.trans a2, fun ppm v => ?_⟩
    have e : g.foldl (fun d x => dictSet d (intDec x.1) x.2) [] = (g.map fun x => (intDec x.1, x.2)).foldl (fun d x => dictSet d x.1 x.2) [] := by
      rw [List.foldl_map]
    beta_reduce
    rw [e, fold_set_get, ← List.map_reverse]
    generalize g.reverse = r
    have : dictGet (r.map fun x => (intDec x.1, x.2)) (intDec ppm) = dictGet r ppm := by
      induction r with
      | nil => rfl
      | cons y r ih =>
        simp only [List.map_cons, dictGet]
        by_cases hy : y.1 = ppm
        · rw [if_pos hy, if_pos (by rw [hy])]
        · rw [if_neg hy, if_neg (fun hc => hy (intDec_inj hc)), ih]
    rw [this]
    simp [dictGet]

/-! ### An example -/

def exampleTthEntries : List TthEntry :=
  [.gasp [(8, 2), (65535, 3)], .ttinfo (some 9) (some 1000),
   .ppems ⟨[⟨0, [(2, 20), (3, 30), (4, 40), (5, 60)]⟩], [⟨0, [(2, 25), (3, 30), (4, 40), (5, 50)]⟩]⟩, .ppems1 ⟨[], []⟩,
   .stems ⟨[⟨70, lit "x", [(6, 60)]⟩], [⟨90, lit "x", [(6, 61)]⟩]⟩,
   .zones exampleZoneData, .deltas [(2, [(10, 1), (9, -1)])], .num (lit "v") 7, .other]

def exampleTthGlyphs : List TthEntry :=
  [.glyph (some (lit "A")) (some [⟨lit "AlignTop", [(lit "pt", 3), (lit "zone", 0)]⟩, ⟨lit "SingleLinkV", [(lit "pt1", 3), (lit "pt2", 4), (lit "stem", 0)]⟩]),
   .glyph (some (lit "B")) none]

theorem C63_example : exportTth (exampleTthEntries ++ exampleTthGlyphs) = .ok
    { stems := [(lit "x", ⟨true, 70, [(lit "20", 2), (lit "30", 3), (lit "40", 4), (lit "60", 5)]⟩),
                (lit "x#1", ⟨false, 90, [(lit "25", 2), (lit "30", 3), (lit "40", 4), (lit "50", 5), (lit "61", 6)]⟩)]
      zones := [(lit "base", ⟨-12, false, 12, none⟩), (lit "desc", ⟨-200, false, 10, none⟩),
                (lit "caps", ⟨700, true, 12, some [(lit "9", -1), (lit "10", 1)]⟩)]
      glyphs := [(lit "A", [[(lit "code", lit "alignt"), (lit "point", lit "3"), (lit "zone", lit "caps")],
        [(lit "code", lit "singlev"), (lit "point1", lit "3"), (lit "point2", lit "4"), (lit "stem", lit "x")]])]
      nums := [(lit "head_lowest_rec_ppem", 9), (lit "head_units_per_em", 1000), (lit "v", 7)]
      gasp := some [(lit "8", 2), (lit "65535", 3)] } := by decide +kernel

/-- the example meets the hypotheses of `C63_export` -/
example : (∀ e ∈ exampleTthEntries, Plain e) ∧ (exampleTthEntries.filterMap asStems).length = 1 ∧
    (∀ e ∈ exampleTthGlyphs, ∃ n t, e = .glyph (some n) t) ∧ ((exampleTthGlyphs.filterMap asGlyph).map Prod.fst).Nodup ∧
    FullTable [⟨0, [(2, 20), (3, 30), (4, 40), (5, 60)]⟩] [⟨70, lit "x", [(6, 60)]⟩] := by
  refine ⟨?_, rfl, ?_, by decide, ?_, ?_, rfl⟩
  · intro e he
    simp only [exampleTthEntries, List.mem_cons, List.not_mem_nil, or_false] at he
    rcases he with rfl | rfl | rfl | rfl | rfl | rfl | rfl | rfl | rfl <;> simp [Plain]
  · intro e he
    simp only [exampleTthGlyphs, List.mem_cons, List.not_mem_nil, or_false] at he
    rcases he with rfl | rfl <;> exact ⟨_, _, rfl⟩
  · intro i d h
    rcases i with _ | i
    · cases h; decide
    · simp at h
  · intro i d h
    rcases i with _ | i
    · cases h; exact ⟨60, rfl⟩
    · simp at h

/-- where 5 and 6 pixels start at the same ppm, the export says 5 (the UFO says 6, see C61) -/
theorem C63_six_loses {six low : List (Int × Int)} {p : Int} (h6 : six = [(6, p)]) (hl : (low.map Prod.fst).Pairwise (· < ·))
    (hlow : ∀ x ∈ low, 1 < x.1 ∧ x.1 < 6) (h5 : (5, p) ∈ low) (s : TthStem) (hs : s.round = six) :
    dictGet (mergedStem s low).round (intDec p) = some 5 := by
  have h := lowFirst_merged h6 hl hlow
  unfold mergedStem
  rw [hs]
  refine (h (intDec p) 5).2 ⟨p, rfl, .inl ⟨h5, fun px' hm => ?_⟩⟩
  have := hlow _ hm
  simp only at this
  omega

end Verif.Props
