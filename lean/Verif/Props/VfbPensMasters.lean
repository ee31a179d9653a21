import Verif.Props.VfbPens
/-! C67, continued: all masters of a glyph, and components. -/
set_option autoImplicit false
namespace Verif.Props
open Verif Verif.Spec

theorem draw_clean (n : Nat) (order : List PyStr) (cs : List UfoContour) (hcs : ∀ c ∈ cs, TrueTypeContour c) (comps : Option (List Component)) :
    runPen n order ⟨⟨some [], comps⟩, none⟩ (cs.flatMap contourCalls) = (⟨⟨some (cs.flatMap (penNodes n)), comps⟩, none⟩, none) := by
  by_cases h : cs = []
  · subst h; simp [runPen]
  · rw [runPen_contours n order cs _ (fun c hc => accepted_of_tt (hcs c hc)) h]
    simp

/-- the temporary data when `k` masters have been drawn anew -/
def tempAfter (n k : Nat) (css : List (List UfoContour)) : List (Option MasterData) :=
  (List.range n).map fun j => some (if 1 ≤ j ∧ j < k then ⟨some ((css[j]?.getD []).flatMap (penNodes n)), none⟩ else ⟨none, none⟩)

theorem tempAfter_get (n k j : Nat) (css : List (List UfoContour)) (hj : j < n) :
    (tempAfter n k css)[j]? = some (some (if 1 ≤ j ∧ j < k then ⟨some ((css[j]?.getD []).flatMap (penNodes n)), none⟩ else ⟨none, none⟩)) := by
  unfold tempAfter
  rw [List.getElem?_map, List.getElem?_range hj]
  rfl

theorem tempAfter_length (n k : Nat) (css : List (List UfoContour)) : (tempAfter n k css).length = n := by simp [tempAfter]

theorem tempAfter_one (n : Nat) (css : List (List UfoContour)) : tempAfter n 1 css = List.replicate n (some ⟨none, none⟩) := by
  apply List.ext_getElem?
  intro j
  by_cases hj : j < n
  · rw [tempAfter_get n 1 j css hj, if_neg (by omega), List.getElem?_replicate, if_pos hj]
  · rw [List.getElem?_eq_none (by rw [tempAfter_length]; omega), List.getElem?_eq_none (by simp; omega)]

theorem tempAfter_set (n k : Nat) (css : List (List UfoContour)) (hk : 1 ≤ k) (hn : k < n) :
    (tempAfter n k css).set k (some ⟨some ((css[k]?.getD []).flatMap (penNodes n)), none⟩) = tempAfter n (k + 1) css := by
  apply List.ext_getElem?
  intro j
  by_cases hj : j < n
  · rw [List.getElem?_set, tempAfter_get n k j css hj, tempAfter_get n (k + 1) j css hj, tempAfter_length]
    by_cases h : k = j
    · subst h
      rw [if_pos rfl, if_pos hn, if_pos (by omega)]
    · rw [if_neg h]
      by_cases h' : 1 ≤ j ∧ j < k
      · rw [if_pos h', if_pos (by omega)]
      · rw [if_neg h', if_neg (by omega)]
  · rw [List.getElem?_eq_none (by rw [List.length_set, tempAfter_length]; omega), List.getElem?_eq_none (by rw [tempAfter_length]; omega)]

/-- the first master is drawn anew -/
theorem redraw_zero (n : Nat) (order : List PyStr) (cs : List UfoContour) (hcs : ∀ c ∈ cs, TrueTypeContour c) (g : MasterGlyphs) :
    g.redraw n 0 order (cs.flatMap contourCalls) = ({ g with data := { g.data with nodes := some (cs.flatMap (penNodes n)) } }, none) := by
  simp only [MasterGlyphs.redraw, MasterGlyphs.clearContours, MasterGlyphs.pen, if_true, MasterGlyphs.put]
  rw [draw_clean n order cs hcs]

/-- another master is drawn anew -/
theorem redraw_pos (n k : Nat) (order : List PyStr) (css : List (List UfoContour)) (cs : List UfoContour) (hcs : ∀ c ∈ cs, TrueTypeContour c)
    (g : MasterGlyphs) (hk : 1 ≤ k) (hn : k < n) (hc : css[k]? = some cs)
    (hg : g.temp.getD (List.replicate n (some ⟨none, none⟩)) = tempAfter n k css) :
    g.redraw n k order (cs.flatMap contourCalls) = ({ g with temp := some (tempAfter n (k + 1) css) }, none) := by
  have hk0 : k ≠ 0 := by omega
  simp only [MasterGlyphs.redraw, MasterGlyphs.clearContours, if_neg hk0, hg, tempAfter_get n k k css hn]
  rw [if_neg (by omega)]
  simp only [MasterGlyphs.pen, if_neg hk0, Option.getD_some, List.getElem?_set, tempAfter_length, if_pos hn, if_true]
  rw [draw_clean n order cs hcs]
  simp only [MasterGlyphs.put, if_neg hk0, Option.map_some, List.set_set]
  have := tempAfter_set n k css hk hn
  rw [hc] at this
  simp only [Option.getD_some] at this
  rw [this]

theorem redraw_rest (n : Nat) (order : List PyStr) (css : List (List UfoContour)) (hcss : ∀ cs ∈ css, ∀ c ∈ cs, TrueTypeContour c)
    (hlen : css.length = n) : ∀ (rest : List (List UfoContour)) (k : Nat) (g : MasterGlyphs), 1 ≤ k → css.drop k = rest → k ≤ n →
      g.temp.getD (List.replicate n (some ⟨none, none⟩)) = tempAfter n k css →
      ∃ g', redrawAll n order k rest g = (g', none) ∧ g'.data = g.data ∧
        g'.temp.getD (List.replicate n (some ⟨none, none⟩)) = tempAfter n n css ∧ (rest ≠ [] → g'.temp ≠ none) := by
  intro rest
  induction rest with
  | nil =>
    intro k g hk hr hkn hg
    have : k = n := by
      have := congrArg List.length hr
      simp at this
      omega
    subst this
    exact ⟨g, rfl, rfl, hg, by simp⟩
  | cons cs rest ih =>
    intro k g hk hr hkn hg
    have hk' : k < n := by
      have := congrArg List.length hr
      simp at this
      omega
    have hc : css[k]? = some cs := by
      have := congrArg (·[0]?) hr
      simpa using this
    have hr' : css.drop (k + 1) = rest := by
      have := congrArg List.tail hr
      simpa using this
    rw [redrawAll, redraw_pos n k order css cs (hcss cs (List.mem_of_getElem? hc)) g hk hk' hc hg]
    simp only
    obtain ⟨g', h1, h2, h3, h4⟩ := ih (k + 1) { g with temp := some (tempAfter n (k + 1) css) } (by omega) hr' (by omega) rfl
    refine ⟨g', h1, h2, h3, fun _ => ?_⟩
    by_cases hrest : rest = []
    · subst hrest
      simp only [redrawAll] at h1
      injection h1 with h1
      subst h1
      simp
    · exact h4 hrest

/-- two nodes are the same in master `m` -/
def SameIn (m : Nat) (a b : MMNode) : Prop := a.type = b.type ∧ a.flags = b.flags ∧ a.points[m]? = b.points[m]?

theorem pyIndex_congr {α : Type} {a b : List α} {m : Nat} (h : a[m]? = b[m]?) : pyIndex a m = pyIndex b m := by
  unfold pyIndex
  rw [if_pos (by omega), if_pos (by omega), Int.toNat_natCast, h]

theorem contourStep_congr {labels : List (Int × PyStr)} {m : Nat} {k : Bool} {a b : MMNode} (h : SameIn m a b) (st : ContourState) (i : Nat) :
    contourStep labels m k st i a = contourStep labels m k st i b := by
  obtain ⟨h1, h2, h3⟩ := h
  unfold contourStep
  rw [h1, h2, pyIndex_congr h3]

theorem extract_congr {labels : List (Int × PyStr)} {m : Nat} {k : Bool} {as bs : List MMNode} (h : List.Forall₂ (SameIn m) as bs) :
    extractContours as labels m k = extractContours bs labels m k := by
  have : ∀ (st : ContourState) (i : Nat), contourLoop labels m k st i as = contourLoop labels m k st i bs := by
    induction h with
    | nil => intro st i; rfl
    | cons h _ ih =>
      intro st i
      simp only [contourLoop, contourStep_congr h]
      congr 1
      funext st
      exact ih st (i + 1)
  unfold extractContours
  rw [this]

/-- compatible contours yield nodes of the same types -/
theorem penNodes_compatible (n : Nat) : ∀ {a b : UfoContour}, a.map UfoPoint.seg = b.map UfoPoint.seg →
    List.Forall₂ (fun x y : MMNode => x.type = y.type ∧ x.flags = y.flags ∧ x.flags ≠ none ∧ x.points.length = n ∧ y.points.length = n) (penNodes n a) (penNodes n b) := by
  intro a b h
  have rest : ∀ {a b : UfoContour}, a.map UfoPoint.seg = b.map UfoPoint.seg →
      List.Forall₂ (fun x y : MMNode => x.type = y.type ∧ x.flags = y.flags ∧ x.flags ≠ none ∧ x.points.length = n ∧ y.points.length = n)
        (a.map (restNode n)) (b.map (restNode n)) := by
    intro a
    induction a with
    | nil =>
      intro b h
      cases b with
      | nil => exact .nil
      | cons => simp at h
    | cons p a ih =>
      intro b h
      cases b with
      | nil => simp at h
      | cons q b =>
        simp only [List.map_cons, List.cons.injEq] at h
        refine .cons ?_ (ih h.2)
        simp [restNode, h.1]
  cases a with
  | nil =>
    cases b with
    | nil => exact .nil
    | cons => simp at h
  | cons p a =>
    cases b with
    | nil => simp at h
    | cons q b =>
      simp only [List.map_cons, List.cons.injEq] at h
      refine .cons ?_ (rest h.2)
      simp [h.1]

theorem allNodes_compatible (n : Nat) : ∀ {a b : List UfoContour}, Compatible a b →
    List.Forall₂ (fun x y : MMNode => x.type = y.type ∧ x.flags = y.flags ∧ x.flags ≠ none ∧ x.points.length = n ∧ y.points.length = n)
      (a.flatMap (penNodes n)) (b.flatMap (penNodes n)) := by
  intro a
  induction a with
  | nil =>
    intro b h
    cases b with
    | nil => exact .nil
    | cons => simp [Compatible] at h
  | cons p a ih =>
    intro b h
    cases b with
    | nil => simp [Compatible] at h
    | cons q b =>
      simp only [Compatible, List.map_cons, List.cons.injEq] at h
      rw [List.flatMap_cons, List.flatMap_cons]
      exact List.rel_append (penNodes_compatible n h.1) (ih h.2)

theorem penNodes_points (n : Nat) (cs : List UfoContour) (x : MMNode) (hx : x ∈ cs.flatMap (penNodes n)) : x.points.length = n := by
  obtain ⟨c, _, hx⟩ := List.mem_flatMap.1 hx
  cases c with
  | nil => cases hx
  | cons f r =>
    rcases List.mem_cons.1 hx with rfl | hx
    · simp
    · obtain ⟨q, _, rfl⟩ := List.mem_map.1 hx
      simp [restNode]

/-- All masters are drawn anew: what is merged -/
theorem redraw_merged (n : Nat) (order : List PyStr) (css : List (List UfoContour)) (hlen : css.length = n) (hn : 1 ≤ n)
    (htt : ∀ cs ∈ css, ∀ c ∈ cs, TrueTypeContour c) (hcomp : ∀ a ∈ css, ∀ b ∈ css, Compatible a b)
    (data : MasterData) :
    ∃ g temp merged nodes, redrawAll n order 0 css ⟨data, none⟩ = (g, none) ∧ g.temp = temp.map (·.map some) ∧
      mergeMastersData temp n g.data = (merged, none) ∧ merged.nodes = some nodes ∧ merged.components = data.components ∧
      (∀ m cs, css[m]? = some cs → extractContours nodes [] m false = .ok (cs, [])) ∧
      (∀ m cs, css[m]? = some cs → List.Forall₂ (SameIn m) nodes (cs.flatMap (penNodes n))) ∧
      ∀ m, n ≤ m → ∀ x ∈ nodes, x.points[m]? = none := by
  cases css with
  | nil => simp at hlen; omega
  | cons c0 rest =>
    rw [redrawAll, redraw_zero n order c0 (htt c0 (by simp))]
    simp only
    obtain ⟨g, h1, h2, h3, h4⟩ := redraw_rest n order (c0 :: rest) htt hlen rest 1
      ⟨{ data with nodes := some (c0.flatMap (penNodes n)) }, none⟩ (by omega) rfl hn (by simp [tempAfter_one])
    rw [h1]
    -- reading what was drawn
    have hread : ∀ m cs, (c0 :: rest)[m]? = some cs → extractContours (cs.flatMap (penNodes n)) [] m false = .ok (cs, []) := by
      intro m cs hm
      have hmem := List.mem_of_getElem? hm
      have hmn : m < n := by
        rw [← hlen]
        exact (List.getElem?_eq_some_iff.1 hm).1
      have hne : ∀ c ∈ cs, c ≠ [] := by
        rintro c hc rfl
        obtain ⟨_, _, f, l, hf, _⟩ := htt cs hmem [] hc
        cases hf
      have he := extract_drawn (n := n) hmn (old := []) (outs := []) (rename := []) rfl cs hne
      simp only [List.nil_append] at he
      rw [he]
      congr 2
      conv_rhs => rw [← List.map_id cs]
      exact List.map_congr_left fun c hc => (norm_iff c (hne c hc)).2 (htt cs hmem c hc)
    by_cases hrest : rest = []
    · subst hrest
      simp only [redrawAll] at h1
      injection h1 with h1
      subst h1
      refine ⟨_, none, _, c0.flatMap (penNodes n), rfl, rfl, rfl, rfl, rfl, ?_, ?_, ?_⟩
      · intro m cs hcs
        have := hread m cs hcs
        cases m with
        | zero => simp at hcs; subst hcs; exact this
        | succ m => simp at hcs
      · intro m cs hcs
        cases m with
        | zero =>
          simp at hcs
          subst hcs
          exact List.forall₂_same.2 fun x _ => ⟨rfl, rfl, rfl⟩
        | succ m => simp at hcs
      · intro m hm x hx
        exact List.getElem?_eq_none (by rw [penNodes_points n c0 x hx]; exact hm)
    · obtain ⟨T, hT⟩ := Option.ne_none_iff_exists'.1 (h4 hrest)
      rw [hT] at h3
      simp only [Option.getD_some] at h3
      subst h3
      let masters : List MasterData := (List.range n).map fun j =>
        if 1 ≤ j ∧ j < n then ⟨some (((c0 :: rest)[j]?.getD []).flatMap (penNodes n)), none⟩ else ⟨none, none⟩
      have hmasters : tempAfter n n (c0 :: rest) = masters.map some := by simp [tempAfter, masters]
      have hget : ∀ j, j < n → masters[j]? = some (if 1 ≤ j ∧ j < n then ⟨some (((c0 :: rest)[j]?.getD []).flatMap (penNodes n)), none⟩ else ⟨none, none⟩) := by
        intro j hj
        simp only [masters]
        rw [List.getElem?_map, List.getElem?_range hj]
        rfl
      have hlm : masters.length = n := by simp [masters]
      have hnodes : ∀ m srcs, Spec.nodesOf masters m = some srcs → ∃ cs, 1 ≤ m ∧ m < n ∧ (c0 :: rest)[m]? = some cs ∧ srcs = cs.flatMap (penNodes n) := by
        intro m srcs h
        unfold Spec.nodesOf at h
        by_cases hm : m = 0
        · rw [if_pos hm] at h; cases h
        · rw [if_neg hm] at h
          by_cases hmn : m < n
          · rw [hget m hmn, if_pos (by omega)] at h
            simp only [Option.bind_some, Option.some.injEq] at h
            obtain ⟨cs, hcs⟩ : ∃ cs, (c0 :: rest)[m]? = some cs := by
              rw [← Option.isSome_iff_exists]
              simp only [isSome_getElem?, hlen, hmn]
            refine ⟨cs, by omega, hmn, hcs, ?_⟩
            rw [← h, hcs]
            rfl
          · rw [List.getElem?_eq_none (by omega)] at h
            cases h
      have hnodes' : ∀ m cs, 1 ≤ m → (c0 :: rest)[m]? = some cs → Spec.nodesOf masters m = some (cs.flatMap (penNodes n)) := by
        intro m cs hm hcs
        have hmn : m < n := by
          rw [← hlen]
          exact (List.getElem?_eq_some_iff.1 hcs).1
        unfold Spec.nodesOf
        rw [if_neg (by omega), hget m hmn, if_pos (by omega), hcs]
        rfl
      have hcomps : ∀ m, componentsOf masters m = none := by
        intro m
        unfold componentsOf
        by_cases hm : m = 0
        · rw [if_pos hm]
        · rw [if_neg hm]
          by_cases hmn : m < n
          · rw [hget m hmn, if_pos (by omega)]
            rfl
          · rw [List.getElem?_eq_none (by omega)]
            rfl
      have hcompat : ∀ m cs, (c0 :: rest)[m]? = some cs → Compatible cs c0 := fun m cs h => hcomp _ (List.mem_of_getElem? h) _ (by simp)
      have hmerge : Mergeable masters g.data := by
        refine ⟨?_, fun m srcs h => by rw [hcomps] at h; cases h⟩
        intro m srcs h
        obtain ⟨cs, h5, h6, h7, rfl⟩ := hnodes m srcs h
        refine ⟨c0.flatMap (penNodes n), by rw [h2], ?_⟩
        intro i tgt ht
        have hf := allNodes_compatible n (hcompat m cs h7)
        obtain ⟨hl, hi⟩ := List.forall₂_iff_get.1 hf
        obtain ⟨hi1, hi2⟩ := List.getElem?_eq_some_iff.1 ht
        have hi3 : i < (cs.flatMap (penNodes n)).length := by omega
        obtain ⟨q1, q2, q3, q4, q5⟩ := hi i hi3 hi1
        simp only [List.get_eq_getElem, hi2] at q1 q2 q3 q4 q5
        refine ⟨(cs.flatMap (penNodes n))[i], List.getElem?_eq_some_iff.2 ⟨hi3, rfl⟩, q1, q2, ?_, ?_, ?_⟩
        · rw [← q2]; exact q3
        · rw [q4]; exact h6
        · rw [q5]; exact h6
      have hn1 : n ≠ 1 := by
        rintro rfl
        simp at hlen
        exact hrest hlen
      obtain ⟨merged, hm1, hm2, hm3⟩ := C43_merged masters n g.data hn1 hmerge
      rw [h2] at hm2 hm3
      simp only at hm2 hm3
      cases hmn : merged.nodes with
      | none => rw [hmn] at hm2; exact hm2.elim
      | some nodes =>
        rw [hmn] at hm2
        obtain ⟨hl, hi⟩ := hm2
        have hsame : ∀ m cs, (c0 :: rest)[m]? = some cs → List.Forall₂ (SameIn m) nodes (cs.flatMap (penNodes n)) := by
          intro m cs hcs
          have hf := allNodes_compatible n (hcompat m cs hcs)
          obtain ⟨hl', hi'⟩ := List.forall₂_iff_get.1 hf
          rw [List.forall₂_iff_get]
          refine ⟨by omega, ?_⟩
          intro i p1 p2
          have p3 : i < (c0.flatMap (penNodes n)).length := by omega
          obtain ⟨q1, q2, _⟩ := hi' i p2 p3
          obtain ⟨r1, r2, r3⟩ := hi i _ _ (List.getElem?_eq_some_iff.2 ⟨p3, rfl⟩) (List.getElem?_eq_some_iff.2 ⟨p1, rfl⟩)
          simp only [List.get_eq_getElem] at q1 q2 ⊢
          refine ⟨by rw [r1, q1], by rw [r2, q2], ?_⟩
          rw [r3 m]
          beta_reduce
          by_cases hm0 : m = 0
          · subst hm0
            simp at hcs
            subst hcs
            have : Spec.nodesOf masters 0 = none := rfl
            rw [this]
            rfl
          · rw [hnodes' m cs (by omega) hcs]
            simp only [Option.bind_some, List.getElem?_eq_getElem p2, Option.map_some]
        refine ⟨g, some masters, merged, nodes, rfl, ?_, hm1, hmn, ?_, ?_, ?_, ?_⟩
        · rw [hT, hmasters]; rfl
        · cases hdc : data.components with
          | none =>
            rw [hdc] at hm3
            cases hmc : merged.components with
            | none => rfl
            | some l => rw [hmc] at hm3; exact hm3.elim
          | some l =>
            rw [hdc] at hm3
            cases hmc : merged.components with
            | none => rw [hmc] at hm3; exact hm3.elim
            | some l' =>
              rw [hmc] at hm3
              obtain ⟨hl3, hi3⟩ := hm3
              congr 1
              apply List.ext_getElem hl3
              intro i p1 p2
              obtain ⟨r1, r2, r3, r4, r5⟩ := hi3 i _ _ (List.getElem?_eq_some_iff.2 ⟨p2, rfl⟩) (List.getElem?_eq_some_iff.2 ⟨p1, rfl⟩)
              simp only [SlotsMerged, hcomps, Option.bind_none, Option.map_none] at r2 r3 r4 r5
              have e2 := List.ext_getElem? r2
              have e3 := List.ext_getElem? r3
              have e4 := List.ext_getElem? r4
              have e5 := List.ext_getElem? r5
              generalize l'[i] = a at *
              generalize l[i] = b at *
              cases a
              cases b
              simp only at r1 e2 e3 e4 e5
              rw [r1, e2, e3, e4, e5]
        · intro m cs hcs
          rw [← hread m cs hcs]
          exact extract_congr (hsame m cs hcs)
        · exact hsame
        · intro m hm x hx
          obtain ⟨i, p1, rfl⟩ := List.mem_iff_getElem.1 hx
          have p3 : i < (c0.flatMap (penNodes n)).length := by omega
          obtain ⟨_, _, r3⟩ := hi i _ _ (List.getElem?_eq_some_iff.2 ⟨p3, rfl⟩) (List.getElem?_eq_some_iff.2 ⟨p1, rfl⟩)
          rw [r3 m]
          have : Spec.nodesOf masters m = none := by
            unfold Spec.nodesOf
            rw [if_neg (by omega), List.getElem?_eq_none (by omega)]
            rfl
          beta_reduce
          rw [this]
          exact List.getElem?_eq_none (by rw [penNodes_points n c0 _ (List.getElem_mem p3)]; exact hm)

/-- **C67** All masters: if the contours of every master of a glyph are drawn anew, one master after the other, and the contours of
the masters are compatible TrueType contours, then there is no exception, the masters are merged without an exception when the
glyph is compiled, the components stay, and every master then has got just its contours. -/
theorem C67_masters (n : Nat) (order : List PyStr) (css : List (List UfoContour)) (hlen : css.length = n) (hn : 1 ≤ n)
    (htt : ∀ cs ∈ css, ∀ c ∈ cs, TrueTypeContour c) (hcomp : ∀ a ∈ css, ∀ b ∈ css, Compatible a b)
    (data : MasterData) :
    ∃ g temp merged nodes, redrawAll n order 0 css ⟨data, none⟩ = (g, none) ∧ g.temp = temp.map (·.map some) ∧
      mergeMastersData temp n g.data = (merged, none) ∧ merged.nodes = some nodes ∧ merged.components = data.components ∧
      ∀ m cs, css[m]? = some cs → extractContours nodes [] m false = .ok (cs, []) := by
  obtain ⟨g, temp, merged, nodes, h1, h2, h3, h4, h5, h6, _⟩ := redraw_merged n order css hlen hn htt hcomp data
  exact ⟨g, temp, merged, nodes, h1, h2, h3, h4, h5, h6⟩

/-- **C67** A component is added to the glyph: its glyph is the first one of the font with that name, and all masters get the offset
and the scale of the transformation; the components and nodes that are there stay. -/
theorem C67_component (n : Nat) (order : List PyStr) (t : MasterData) (base : PyStr) (tr : Transform) (i : Nat)
    (hi : order[i]? = some base) (hfirst : ∀ j, j < i → order[j]? ≠ some base) :
    ∃ c : Component, runPen n order ⟨t, none⟩ [.addComponent base tr] =
        (⟨{ t with components := some (t.components.getD [] ++ [c]) }, none⟩, none) ∧
      c.gid = i ∧ ∀ m, m < n → c.offsetX[m]? = some tr.dx ∧ c.offsetY[m]? = some tr.dy ∧ c.scaleX[m]? = some tr.xx ∧ c.scaleY[m]? = some tr.yy := by
  have hidx : order.findIdx? (· == base) = some i := by
    rw [List.findIdx?_eq_some_iff_getElem]
    obtain ⟨h1, h2⟩ := List.getElem?_eq_some_iff.1 hi
    refine ⟨h1, by simp [h2], ?_⟩
    intro j hj
    have := hfirst j hj
    rw [List.getElem?_eq_getElem (by omega)] at this
    simpa using this
  refine ⟨⟨i, List.replicate n tr.dx, List.replicate n tr.dy, List.replicate n tr.xx, List.replicate n tr.yy⟩, ?_, rfl, ?_⟩
  · simp only [runPen, penStep, indexOf, hidx]
  · intro m hm
    simp [List.getElem?_replicate, hm]

/-- **C67** A component drawn into a glyph is drawn from it again, with the name, offset and scale, if it is not skewed or rotated. -/
theorem C67_component_drawn (n m : Nat) (hm : m < n) (order : List PyStr) (hnd : order.Nodup) (base : PyStr) (hb : base ∈ order) (tr : Transform)
    (t : MasterData) :
    ∃ c : Component, runPen n order ⟨t, none⟩ [.addComponent base tr] =
        (⟨{ t with components := some (t.components.getD [] ++ [c]) }, none⟩, none) ∧
      drawComponent order m c = .ok (.addComponent base tr.xx tr.yy tr.dx tr.dy) := by
  obtain ⟨i, hi, hi2⟩ := List.getElem_of_mem hb
  have hg : order[i]? = some base := List.getElem?_eq_some_iff.2 ⟨hi, hi2⟩
  obtain ⟨c, h1, h2, h3⟩ := C67_component n order t base tr i hg (by
    intro j hj h
    obtain ⟨hj1, hj2⟩ := List.getElem?_eq_some_iff.1 h
    have := (List.Nodup.getElem_inj_iff hnd).1 (hj2.trans hi2.symm)
    omega)
  obtain ⟨a1, a2, a3, a4⟩ := h3 m hm
  refine ⟨c, h1, ?_⟩
  simp only [drawComponent, h2, pyIndex_of_get hg, pyIndex_of_get a1, pyIndex_of_get a2, pyIndex_of_get a3, pyIndex_of_get a4, bind, Except.bind]

/-- **C67** (Known defect) The skew of a component's transformation is lost: two transformations that differ in nothing else have the
same effect. -/
theorem C67_skew_lost (n : Nat) (order : List PyStr) (pen : PointPen) (base : PyStr) (a b : Transform)
    (h : a.xx = b.xx ∧ a.yy = b.yy ∧ a.dx = b.dx ∧ a.dy = b.dy) :
    penStep n order pen (.addComponent base a) = penStep n order pen (.addComponent base b) := by
  simp only [penStep, h]

/-- **C67** A component whose glyph is not in the font raises ValueError, one between `beginPath` and `endPath` AssertionError, and so
does a point outside of a path; the glyph stays as it is. -/
theorem C67_rejected (n : Nat) (order : List PyStr) (pen : PointPen) (base : PyStr) (tr : Transform) (pt : Rat × Rat) (seg : Option PathCommand)
    (smooth : Bool) (name : Option PyStr) :
    (pen.path = none → base ∉ order → penStep n order pen (.addComponent base tr) = (pen, some .value)) ∧
    (pen.path ≠ none → penStep n order pen (.addComponent base tr) = (pen, some .assertion)) ∧
    (pen.path = none → penStep n order pen (.addPoint pt seg smooth name) = (pen, some .assertion)) := by
  refine ⟨?_, ?_, ?_⟩
  · intro hp hb
    have : order.findIdx? (· == base) = none := by
      rw [List.findIdx?_eq_none_iff]
      intro x hx
      simp only [beq_eq_false_iff_ne]
      rintro rfl
      exact hb hx
    simp only [penStep, hp, indexOf, this]
  · intro hp
    obtain ⟨path, hp⟩ := Option.ne_none_iff_exists'.1 hp
    simp only [penStep, hp]
  · intro hp
    simp only [penStep, hp]

/-- **C67** (Known defect) If no master of the glyph has been cleared before, the pen of another master than the first one cannot be
made (IndexError), and after that those masters cannot even be cleared. -/
theorem C67_pen_needs_clear (n m : Nat) (hm : 1 ≤ m) (data : MasterData) :
    ∃ g, (MasterGlyphs.mk data none).pen m = (g, .error .index) ∧ ∀ k, 1 ≤ k → (g.clearContours n k).2 = some .index := by
  refine ⟨⟨data, some [none]⟩, ?_, ?_⟩
  · simp only [MasterGlyphs.pen, if_neg (show m ≠ 0 by omega), Option.getD_none]
    rw [List.getElem?_eq_none (by simp; omega)]
  · intro k hk
    simp only [MasterGlyphs.clearContours, if_neg (show k ≠ 0 by omega), Option.getD_some]
    rw [List.getElem?_eq_none (by simp; omega)]

/-! ### examples -/

/-- a closed contour with a curve and an open one -/
def examplePenContours (d : Int) : List UfoContour :=
  [[⟨some .line, false, none, (0, 0)⟩, ⟨none, false, none, (10, d)⟩, ⟨none, false, none, (20, 30)⟩, ⟨some .qcurve, false, none, (40, 40)⟩,
      ⟨some .line, false, none, (d, 50)⟩],
    [⟨some .move, false, none, (5, 5)⟩, ⟨some .line, false, none, (6, d)⟩]]

theorem example_tt (d : Int) : ∀ c ∈ examplePenContours d, TrueTypeContour c := by
  intro c hc
  simp only [examplePenContours, List.mem_cons, List.not_mem_nil, or_false] at hc
  rcases hc with rfl | rfl
  · refine ⟨by simp, ?_, _, _, rfl, rfl, .inr ⟨by simp, by simp, by simp [Follows]⟩⟩
    simp [Follows]
  · refine ⟨by simp, ?_, _, _, rfl, rfl, .inl rfl⟩
    simp [Follows]

/-- C67_masters applies: two masters -/
example : ∃ css : List (List UfoContour), css.length = 2 ∧ (∀ cs ∈ css, ∀ c ∈ cs, TrueTypeContour c) ∧
    ∀ a ∈ css, ∀ b ∈ css, Compatible a b := by
  refine ⟨[examplePenContours 7, examplePenContours 9], rfl, ?_, ?_⟩
  · intro cs hcs
    simp at hcs
    rcases hcs with rfl | rfl
    · exact example_tt 7
    · exact example_tt 9
  · intro a ha b hb
    simp at ha hb
    rcases ha with rfl | rfl <;> rcases hb with rfl | rfl <;> rfl

end Verif.Props
