import Verif.Model.UfoGroups
import Verif.Spec.UfoGroups
import Verif.Lemmas.Dict
/-! C49: kerning groups of the UFO. -/
set_option autoImplicit false
namespace Verif.Props
open Verif Verif.Spec

/-! ### keepFirst -/

theorem mem_keepFirst {α : Type} [DecidableEq α] {l : List α} {x : α} : x ∈ keepFirst l ↔ x ∈ l := by
  induction l with
  | nil => simp [keepFirst]
  | cons y ys ih =>
    simp only [keepFirst, List.mem_cons, List.mem_filter, ih, decide_eq_true_eq]
    by_cases h : x = y <;> simp [h]

theorem nodup_keepFirst {α : Type} [DecidableEq α] (l : List α) : (keepFirst l).Nodup := by
  induction l with
  | nil => simp [keepFirst]
  | cons y ys ih =>
    simp only [keepFirst, List.nodup_cons, List.mem_filter]
    exact ⟨by simp, ih.filter _⟩

theorem keepFirst_filter {α : Type} [DecidableEq α] (p : α → Bool) (l : List α) :
    keepFirst (l.filter p) = (keepFirst l).filter p := by
  induction l with
  | nil => simp [keepFirst]
  | cons y ys ih =>
    by_cases h : p y = true
    · simp only [List.filter_cons_of_pos h, keepFirst, ih, List.filter_filter]
      congr 1
      exact List.filter_congr fun x _ => Bool.and_comm _ _
    · simp only [List.filter_cons_of_neg h, keepFirst, ih, List.filter_filter]
      refine List.filter_congr fun x _ => ?_
      by_cases hx : p x = true
      · have : x ≠ y := fun e => h (e ▸ hx)
        simp [hx, this]
      · simp [hx]

/-! ### the glyph to group mapping of one side -/

theorem dictGet_const {κ ν : Type} [DecidableEq κ] (l : List κ) (n : ν) (k : κ) :
    dictGet (l.map fun g => (g, n)) k = if k ∈ l then some n else none := by
  induction l with
  | nil => simp [dictGet]
  | cons x l ih =>
    by_cases h : x = k
    · simp [dictGet, h]
    · simp [dictGet, h, ih, Ne.symm h]

theorem assign_fold (n : PyStr) (gs : List PyStr) (m : List (PyStr × PyStr)) :
    gs.foldl (assignGlyph n) m =
      m ++ (keepFirst (gs.filter fun g => (dictGet m g).isNone)).map fun g => (g, n) := by
  induction gs generalizing m with
  | nil => simp [keepFirst]
  | cons g gs ih =>
    rw [List.foldl_cons, ih]
    by_cases h : (dictGet m g).isSome
    · have h' : ¬ ((dictGet m g).isNone = true) := by simp [Option.isSome_iff_ne_none.1 h]
      rw [assignGlyph, if_pos h, List.filter_cons_of_neg (by simpa using h')]
    · have hn : dictGet m g = none := by simpa using h
      have h' : (dictGet m g).isNone = true := by simp [hn]
      rw [assignGlyph, if_neg h, List.filter_cons_of_pos (by simpa using h'), dictSet_new (dictGet_none.1 hn)]
      rw [keepFirst, List.append_assoc, List.map_cons, List.singleton_append]
      congr 3
      rw [← keepFirst_filter, List.filter_filter]
      congr 1
      refine List.filter_congr fun x _ => ?_
      rw [dictGet_append]
      by_cases hx : g = x
      · simp [dictGet, hx]
      · simp [dictGet, hx, Ne.symm hx]

/-- the loop of one side -/
def sideMap (l : Groups) (m : List (PyStr × PyStr)) : List (PyStr × PyStr) :=
  l.foldl (fun m grp => grp.2.foldl (assignGlyph grp.1) m) m

theorem sideMap_get (l : Groups) (m : List (PyStr × PyStr)) (g : PyStr) :
    dictGet (sideMap l m) g = (dictGet m g).or ((l.find? fun e => e.2.contains g).map (·.1)) := by
  induction l generalizing m with
  | nil => simp [sideMap]
  | cons e l ih =>
    have : sideMap (e :: l) m = sideMap l (e.2.foldl (assignGlyph e.1) m) := rfl
    rw [this, ih, assign_fold, dictGet_append, dictGet_const]
    simp only [mem_keepFirst, List.mem_filter]
    cases hm : dictGet m g with
    | some x => simp
    | none =>
      by_cases hg : g ∈ e.2
      · rw [List.find?_cons_of_pos (by simpa using hg)]; simp [hg]
      · rw [List.find?_cons_of_neg (by simpa using hg)]; simp [hg]

theorem filter_const_self {κ : Type} (l : List κ) (n : PyStr) :
    (l.map fun g => (g, n)).filter (fun e => e.2 == n) = l.map fun g => (g, n) := by
  rw [List.filter_eq_self]; intro a ha; obtain ⟨g, _, rfl⟩ := List.mem_map.1 ha; simp

theorem filter_const_other {κ : Type} (l : List κ) {n n' : PyStr} (h : n' ≠ n) :
    (l.map fun g => (g, n')).filter (fun e => e.2 == n) = [] := by
  rw [List.filter_eq_nil_iff]; intro a ha; obtain ⟨g, _, rfl⟩ := List.mem_map.1 ha; simpa using h

theorem sideMap_other (l : Groups) (m : List (PyStr × PyStr)) (n : PyStr) (h : n ∉ l.map Prod.fst) :
    (sideMap l m).filter (fun e => e.2 == n) = m.filter (fun e => e.2 == n) := by
  induction l generalizing m with
  | nil => rfl
  | cons e l ih =>
    have : sideMap (e :: l) m = sideMap l (e.2.foldl (assignGlyph e.1) m) := rfl
    simp only [List.map_cons, List.mem_cons, not_or] at h
    rw [this, ih _ h.2, assign_fold, List.filter_append, filter_const_other _ (Ne.symm h.1), List.append_nil]

theorem sideMap_entries (l : Groups) (hl : DictOk l) (m : List (PyStr × PyStr)) (n : PyStr) (gs : List PyStr)
    (hm : m.filter (fun e => e.2 == n) = []) (hn : dictGet l n = some gs) :
    (sideMap l m).filter (fun e => e.2 == n) =
      (keepFirst (gs.filter fun g => (dictGet m g).isNone &&
        (l.find? fun e => e.2.contains g).map (·.1) == some n)).map fun g => (g, n) := by
  induction l generalizing m with
  | nil => simp [dictGet] at hn
  | cons e l ih =>
    have hs : sideMap (e :: l) m = sideMap l (e.2.foldl (assignGlyph e.1) m) := rfl
    obtain ⟨n', gs'⟩ := e
    have hl' : n' ∉ l.map Prod.fst ∧ DictOk l := by simpa [DictOk] using hl
    by_cases he : n' = n
    · subst he
      simp only [dictGet, if_true, Option.some.injEq] at hn
      subst hn
      rw [hs, sideMap_other _ _ _ hl'.1, assign_fold, List.filter_append, hm, List.nil_append, filter_const_self]
      congr 2
      refine List.filter_congr fun x hx => ?_
      rw [List.find?_cons_of_pos (by simpa using hx)]
      simp
    · simp only [dictGet, if_neg he] at hn
      rw [hs, ih hl'.2 _ _ hn]
      · congr 2
        refine List.filter_congr fun x hx => ?_
        rw [assign_fold, dictGet_append, dictGet_const]
        simp only [mem_keepFirst, List.mem_filter]
        cases hm : dictGet m x with
        | some y => simp
        | none =>
          by_cases hg : x ∈ gs'
          · rw [List.find?_cons_of_pos (by simpa using hg)]; simp [hg, he]
          · rw [List.find?_cons_of_neg (by simpa using hg)]; simp [hg]
      · rw [assign_fold, List.filter_append, hm, filter_const_other _ he, List.append_nil]

/-! ### the code -/

theorem startsWith_iff {s p : PyStr} : startsWith s p = true ↔ p <+: s := by
  simp [startsWith, List.isPrefixOf_iff_prefix]

theorem prefix_same_length {a b n : PyStr} (ha : a <+: n) (hb : b <+: n) (h : a.length = b.length) : a = b := by
  obtain ⟨x, rfl⟩ := ha
  exact ((List.prefix_of_prefix_length_le hb (List.prefix_append a x) (by omega)).eq_of_length h.symm).symm

theorem side_unique {n : PyStr} (h1 : OfSide 1 n) (h2 : OfSide 2 n) : False := by
  have : sidePrefix 1 = sidePrefix 2 := prefix_same_length h1 h2 (by decide)
  exact absurd this (by decide)

theorem startsWith_side1 {n : PyStr} : startsWith n (lit "public.kern1") = decide (OfSide 1 n) := by
  rw [Bool.eq_iff_iff, startsWith_iff]; simp [OfSide, sidePrefix]
theorem startsWith_side2 {n : PyStr} : startsWith n (lit "public.kern2") = decide (OfSide 2 n) := by
  rw [Bool.eq_iff_iff, startsWith_iff]; simp [OfSide, sidePrefix]

theorem glyphGroupMaps_eq (groups : Groups) (a b : List (PyStr × PyStr)) :
    groups.foldl (fun (m : List (PyStr × PyStr) × List (PyStr × PyStr)) group =>
      if startsWith group.1 (lit "public.kern1") then (group.2.foldl (assignGlyph group.1) m.1, m.2)
      else if startsWith group.1 (lit "public.kern2") then (m.1, group.2.foldl (assignGlyph group.1) m.2)
      else m) (a, b) =
    (sideMap (groups.filter fun e => decide (OfSide 1 e.1)) a, sideMap (groups.filter fun e => decide (OfSide 2 e.1)) b) := by
  induction groups generalizing a b with
  | nil => rfl
  | cons e l ih =>
    rw [List.foldl_cons]
    by_cases h1 : OfSide 1 e.1
    · have h2 : ¬ OfSide 2 e.1 := fun h => side_unique h1 h
      rw [startsWith_side1, if_pos (by simpa using h1), ih, List.filter_cons_of_pos (by simpa using h1), List.filter_cons_of_neg (by simpa using h2)]
      rfl
    · rw [startsWith_side1, if_neg (by simpa using h1), List.filter_cons_of_neg (by simpa using h1)]
      by_cases h2 : OfSide 2 e.1
      · rw [startsWith_side2, if_pos (by simpa using h2), ih, List.filter_cons_of_pos (by simpa using h2)]
        rfl
      · rw [startsWith_side2, if_neg (by simpa using h2), ih, List.filter_cons_of_neg (by simpa using h2)]

/-- the mapping of one side, 1 or 2 -/
theorem glyphGroupMaps_side (groups : Groups) :
    glyphGroupMaps groups = (sideMap (groups.filter fun e => decide (OfSide 1 e.1)) [], sideMap (groups.filter fun e => decide (OfSide 2 e.1)) []) :=
  glyphGroupMaps_eq groups [] []

theorem sideMap_firstGroup (side : Nat) (groups : Groups) (g : PyStr) :
    dictGet (sideMap (groups.filter fun e => decide (OfSide side e.1)) []) g = firstGroup side groups g := by
  rw [sideMap_get, List.find?_filter]
  simp [dictGet, firstGroup]

theorem dictOk_filter {κ ν : Type} {d : List (κ × ν)} (p : κ × ν → Bool) (h : DictOk d) : DictOk (d.filter p) :=
  List.Nodup.sublist (List.Sublist.map _ List.filter_sublist) h

theorem dictGet_filter {κ ν : Type} [DecidableEq κ] (d : List (κ × ν)) (p : κ → Bool) (k : κ) :
    dictGet (d.filter fun e => p e.1) k = if p k then dictGet d k else none := by
  induction d with
  | nil => simp [dictGet]
  | cons e d ih =>
    obtain ⟨k', v⟩ := e
    by_cases h : k' = k
    · subst h
      by_cases hp : p k' = true
      · rw [List.filter_cons_of_pos (by simpa using hp)]; simp [dictGet, hp]
      · rw [List.filter_cons_of_neg (by simpa using hp), ih]; simp [hp]
    · by_cases hp : p k' = true
      · rw [List.filter_cons_of_pos (by simpa using hp)]; simp [dictGet, h, ih]
      · rw [List.filter_cons_of_neg (by simpa using hp), ih]; simp [dictGet, h]

/-- `_build_groups` inverts a mapping -/
theorem buildGroups_get (m : List (PyStr × PyStr)) (n : PyStr) :
    dictGet (buildGroups m) n =
      unlessEmpty ((m.filter fun e => e.2 == n).map (·.1)) := by
  suffices h : ∀ (m : List (PyStr × PyStr)) (acc : Groups),
      dictGet (m.foldl (fun groups e =>
        match dictGet groups e.2 with
        | some gs => dictSet groups e.2 (gs ++ [e.1])
        | none => dictSet groups e.2 [e.1]) acc) n =
      (let l := (m.filter fun e => e.2 == n).map (·.1)
       match dictGet acc n with
       | some gs => some (gs ++ l)
       | none => unlessEmpty l) by
    exact h m []
  intro m
  induction m with
  | nil => intro acc; cases h : dictGet acc n <;> simp [h, unlessEmpty]
  | cons e m ih =>
    intro acc
    obtain ⟨g, n'⟩ := e
    rw [List.foldl_cons, ih]
    by_cases hn : n' = n
    · subst hn
      cases h : dictGet acc n' <;> simp [dictGet_dictSet, unlessEmpty]
    · have hb : ¬ ((n' == n) = true) := by simpa using hn
      rw [List.filter_cons_of_neg (p := fun e : PyStr × PyStr => e.2 == n) hb]; cases h : dictGet acc n' <;> simp [dictGet_dictSet, hn]

theorem buildGroups_ok (m : List (PyStr × PyStr)) : DictOk (buildGroups m) := by
  suffices h : ∀ (m : List (PyStr × PyStr)) (acc : Groups), DictOk acc →
      DictOk (m.foldl (fun groups e =>
        match dictGet groups e.2 with
        | some gs => dictSet groups e.2 (gs ++ [e.1])
        | none => dictSet groups e.2 [e.1]) acc) by
    exact h m [] (by simp [DictOk])
  intro m
  induction m with
  | nil => intro acc h; exact h
  | cons e m ih =>
    intro acc h
    rw [List.foldl_cons]
    apply ih
    split <;> exact dictSet_ok h _ _

theorem dictUpdate_get {κ ν : Type} [DecidableEq κ] (d e : List (κ × ν)) (he : DictOk e) (k : κ) :
    dictGet (dictUpdate d e) k = (dictGet e k).or (dictGet d k) := by
  induction e generalizing d with
  | nil => simp [dictUpdate, dictGet]
  | cons x e ih =>
    obtain ⟨k', v⟩ := x
    have he' : k' ∉ e.map Prod.fst ∧ DictOk e := by simpa [DictOk] using he
    have : dictUpdate d ((k', v) :: e) = dictUpdate (dictSet d k' v) e := rfl
    rw [this, ih _ he'.2, dictGet_dictSet]
    by_cases h : k' = k
    · subst h
      simp [dictGet, dictGet_none.2 he'.1]
    · simp [dictGet, h]

theorem dictUpdate_ok {κ ν : Type} [DecidableEq κ] (d e : List (κ × ν)) (hd : DictOk d) : DictOk (dictUpdate d e) := by
  induction e generalizing d with
  | nil => exact hd
  | cons x e ih => exact ih _ (dictSet_ok hd _ _)

/-- glyphs of group `n` that are assigned to it -/
def assigned (side : Nat) (groups : Groups) (n : PyStr) : List PyStr :=
  keepFirst (((dictGet groups n).getD []).filter fun g => firstGroup side groups g == some n)

theorem sideGroups_get (side : Nat) (groups : Groups) (hd : DictOk groups) (n : PyStr) :
    dictGet (buildGroups (sideMap (groups.filter fun e => decide (OfSide side e.1)) [])) n =
      unlessEmpty (assigned side groups n) := by
  rw [buildGroups_get]
  have hfg : ∀ g, ((groups.filter fun e => decide (OfSide side e.1)).find? fun e => e.2.contains g).map (·.1) = firstGroup side groups g := by
    intro g; rw [List.find?_filter]; simp [firstGroup]
  cases hn : dictGet (groups.filter fun e => decide (OfSide side e.1)) n with
  | none =>
    have h1 := sideMap_other (groups.filter fun e => decide (OfSide side e.1)) [] n (dictGet_none.1 hn)
    have h2 : assigned side groups n = [] := by
      have : (((dictGet groups n).getD []).filter fun g => firstGroup side groups g == some n) = [] := by
        rw [List.filter_eq_nil_iff]
        intro g _ hf
        have hf' : firstGroup side groups g = some n := by simpa using hf
        rw [firstGroup, Option.map_eq_some_iff] at hf'
        obtain ⟨e, he, rfl⟩ := hf'
        have hm := List.mem_of_find?_eq_some he
        have hp := List.find?_some he
        apply dictGet_none.1 hn
        exact List.mem_map.2 ⟨e, List.mem_filter.2 ⟨hm, (by simpa using hp : _ ∧ _).1 |> decide_eq_true⟩, rfl⟩
      rw [assigned, this]; rfl
    rw [h1, h2]; rfl
  | some gs =>
    have h1 := sideMap_entries _ (dictOk_filter _ hd) [] n gs rfl hn
    have hg : dictGet groups n = some gs := by
      have := dictGet_filter groups (fun k => decide (OfSide side k)) n
      rw [hn] at this
      split at this
      · exact this.symm
      · cases this
    have h2 : (keepFirst (gs.filter fun g => (dictGet ([] : List (PyStr × PyStr)) g).isNone &&
        ((groups.filter fun e => decide (OfSide side e.1)).find? fun e => e.2.contains g).map (·.1) == some n)) = assigned side groups n := by
      rw [assigned, hg]
      congr 1
      refine List.filter_congr fun x _ => ?_
      rw [hfg]; simp [dictGet]
    rw [h1, h2]
    simp [Function.comp_def]

theorem side_is_kern {side : Nat} {n : PyStr} (h : OfSide side n) : lit "public.kern" <+: n := by
  refine List.IsPrefix.trans ?_ h
  unfold sidePrefix
  split <;> exact ⟨_, rfl⟩

theorem assigned_eq_nil {side : Nat} {groups : Groups} {n : PyStr} (h : ¬ OfSide side n) : assigned side groups n = [] := by
  rw [assigned]
  have : (((dictGet groups n).getD []).filter fun g => firstGroup side groups g == some n) = [] := by
    rw [List.filter_eq_nil_iff]
    intro g _ hf
    have hf' : firstGroup side groups g = some n := by simpa using hf
    rw [firstGroup, Option.map_eq_some_iff] at hf'
    obtain ⟨e, he, rfl⟩ := hf'
    have hp := List.find?_some he
    simp only [Bool.and_eq_true, decide_eq_true_eq] at hp
    exact h hp.1
  rw [this]; rfl

theorem rebuilt_get (groups : Groups) (hd : DictOk groups) (n : PyStr) :
    dictGet (buildGlyphToGroupMaps groups).1 n =
      ((unlessEmpty (assigned 2 groups n)).or (unlessEmpty (assigned 1 groups n))).or
        (if lit "public.kern" <+: n then none else dictGet groups n) := by
  simp only [buildGlyphToGroupMaps, rebuildKerningGroups, glyphGroupMaps_side]
  rw [dictUpdate_get _ _ (buildGroups_ok _), dictUpdate_get _ _ (buildGroups_ok _), sideGroups_get _ _ hd, sideGroups_get _ _ hd,
    dictGet_filter groups (fun k => !startsWith k (lit "public.kern")), Option.or_assoc]
  congr 2
  by_cases h : lit "public.kern" <+: n
  · rw [if_pos h, if_neg]; simp [startsWith_iff.2 h]
  · rw [if_neg h, if_pos]; simpa [← startsWith_iff] using h

/-- **C49** Which glyphs a kerning group of either side has after the conversion: exactly those of its
glyphs, without repetitions and in their original order, for which it is the first group of that side; a
group that keeps no glyph is removed. -/
theorem C49_members (groups : Groups) (hd : DictOk groups) (side : Nat) (hs : side = 1 ∨ side = 2) (n : PyStr) (hn : OfSide side n) :
    dictGet (buildGlyphToGroupMaps groups).1 n =
      unlessEmpty (keepFirst (((dictGet groups n).getD []).filter fun g => firstGroup side groups g == some n)) := by
  rw [rebuilt_get groups hd, if_pos (side_is_kern hn)]
  rcases hs with rfl | rfl
  · rw [assigned_eq_nil (fun h => side_unique hn h)]
    simp [unlessEmpty, assigned]
  · rw [assigned_eq_nil (side := 1) (fun h => side_unique h hn)]
    simp [unlessEmpty, assigned]

/-- **C49** Groups that are not kerning groups are not changed. -/
theorem C49_other_groups (groups : Groups) (hd : DictOk groups) (n : PyStr) (hn : ¬ lit "public.kern" <+: n) :
    dictGet (buildGlyphToGroupMaps groups).1 n = dictGet groups n := by
  rw [rebuilt_get groups hd, if_neg hn, assigned_eq_nil (fun h => hn (side_is_kern h)), assigned_eq_nil (fun h => hn (side_is_kern h))]
  simp [unlessEmpty]

/-- **C49** Groups whose name looks like a kerning group but names no side are dropped. -/
theorem C49_no_side_dropped (groups : Groups) (hd : DictOk groups) (n : PyStr) (hn : lit "public.kern" <+: n)
    (h1 : ¬ OfSide 1 n) (h2 : ¬ OfSide 2 n) : dictGet (buildGlyphToGroupMaps groups).1 n = none := by
  rw [rebuilt_get groups hd, if_pos hn, assigned_eq_nil h1, assigned_eq_nil h2]
  rfl

theorem firstGroup_some {side : Nat} {groups : Groups} {g n : PyStr} (h : firstGroup side groups g = some n) :
    OfSide side n ∧ ∃ gs, (n, gs) ∈ groups ∧ g ∈ gs := by
  rw [firstGroup, Option.map_eq_some_iff] at h
  obtain ⟨e, he, rfl⟩ := h
  have hm := List.mem_of_find?_eq_some he
  have hp := List.find?_some he
  simp only [Bool.and_eq_true, decide_eq_true_eq, List.contains_iff_mem] at hp
  exact ⟨hp.1, e.2, hm, hp.2⟩

theorem unlessEmpty_some {α : Type} {l l' : List α} (h : unlessEmpty l = some l') : l = l' := by
  cases l with
  | nil => cases h
  | cons x l => exact Option.some.inj h

/-- **C49** No kerning group of the result is empty or has a glyph twice. -/
theorem C49_nodup (groups : Groups) (hd : DictOk groups) (side : Nat) (hs : side = 1 ∨ side = 2) (n : PyStr) (hn : OfSide side n)
    (gs : List PyStr) (h : dictGet (buildGlyphToGroupMaps groups).1 n = some gs) : gs ≠ [] ∧ gs.Nodup := by
  rw [C49_members groups hd side hs n hn] at h
  refine ⟨?_, (unlessEmpty_some h) ▸ nodup_keepFirst _⟩
  rintro rfl
  rw [unlessEmpty_some h] at h
  cases h

/-- **C49** A glyph is in a kerning group of the result exactly if that group is the first one of the
side that had the glyph. -/
theorem C49_first_wins (groups : Groups) (hd : DictOk groups) (side : Nat) (hs : side = 1 ∨ side = 2) (n : PyStr) (hn : OfSide side n) (g : PyStr) :
    (∃ gs, dictGet (buildGlyphToGroupMaps groups).1 n = some gs ∧ g ∈ gs) ↔ firstGroup side groups g = some n := by
  rw [C49_members groups hd side hs n hn]
  constructor
  · rintro ⟨gs, h, hg⟩
    rw [← unlessEmpty_some h, mem_keepFirst, List.mem_filter] at hg
    simpa using hg.2
  · intro h
    obtain ⟨_, gs, hm, hg⟩ := firstGroup_some h
    have hget := dictGet_of_mem hd hm
    have hmem : g ∈ keepFirst (((dictGet groups n).getD []).filter fun g => firstGroup side groups g == some n) := by
      rw [mem_keepFirst, List.mem_filter, hget]
      exact ⟨hg, by simpa using h⟩
    revert hmem
    generalize keepFirst (((dictGet groups n).getD []).filter fun g => firstGroup side groups g == some n) = l
    intro hmem
    cases l with
    | nil => cases hmem
    | cons x l => exact ⟨x :: l, rfl, hmem⟩

/-- **C49** After the conversion every glyph is in at most one kerning group of each side. -/
theorem C49_disjoint (groups : Groups) (hd : DictOk groups) (side : Nat) (hs : side = 1 ∨ side = 2) (n n' : PyStr) (gs gs' : List PyStr) (g : PyStr)
    (hn : OfSide side n) (hn' : OfSide side n') (h : dictGet (buildGlyphToGroupMaps groups).1 n = some gs)
    (h' : dictGet (buildGlyphToGroupMaps groups).1 n' = some gs') (hg : g ∈ gs) (hg' : g ∈ gs') : n = n' := by
  have h1 := (C49_first_wins groups hd side hs n hn g).1 ⟨gs, h, hg⟩
  have h2 := (C49_first_wins groups hd side hs n' hn' g).1 ⟨gs', h', hg'⟩
  rw [h1] at h2
  exact Option.some.inj h2

/-- **C49** No glyph disappears: a glyph that was in a kerning group of one side still is. -/
theorem C49_no_glyph_lost (groups : Groups) (hd : DictOk groups) (side : Nat) (hs : side = 1 ∨ side = 2) (n : PyStr) (gs : List PyStr) (g : PyStr)
    (hn : OfSide side n) (h : (n, gs) ∈ groups) (hg : g ∈ gs) :
    ∃ n' gs', OfSide side n' ∧ dictGet (buildGlyphToGroupMaps groups).1 n' = some gs' ∧ g ∈ gs' := by
  cases hf : firstGroup side groups g with
  | none =>
    rw [firstGroup, Option.map_eq_none_iff, List.find?_eq_none] at hf
    have := hf _ h
    simp [hn, hg] at this
  | some n' =>
    have hn' := (firstGroup_some hf).1
    obtain ⟨gs', h1, h2⟩ := (C49_first_wins groups hd side hs n' hn' g).2 hf
    exact ⟨n', gs', hn', h1, h2⟩

theorem rebuilt_ok (groups : Groups) (hd : DictOk groups) : DictOk (buildGlyphToGroupMaps groups).1 :=
  dictUpdate_ok _ _ (dictUpdate_ok _ _ (dictOk_filter _ hd))

/-- the first group of a glyph is the same in the result -/
theorem firstGroup_rebuilt (groups : Groups) (hd : DictOk groups) (side : Nat) (hs : side = 1 ∨ side = 2) (g : PyStr) :
    firstGroup side (buildGlyphToGroupMaps groups).1 g = firstGroup side groups g := by
  cases h : firstGroup side (buildGlyphToGroupMaps groups).1 g with
  | some n =>
    obtain ⟨hn, gs, hm, hg⟩ := firstGroup_some h
    exact ((C49_first_wins groups hd side hs n hn g).1 ⟨gs, dictGet_of_mem (rebuilt_ok groups hd) hm, hg⟩).symm
  | none =>
    cases h' : firstGroup side groups g with
    | none => rfl
    | some n =>
      have hn := (firstGroup_some h').1
      obtain ⟨gs, h1, h2⟩ := (C49_first_wins groups hd side hs n hn g).2 h'
      rw [firstGroup, Option.map_eq_none_iff, List.find?_eq_none] at h
      have := h _ (dictGet_some_mem h1)
      simp [hn, h2] at this

/-- **C49** The mappings from glyphs to groups that the kerning uses agree with the groups of the
result: they give for each glyph the one group of the side that has it. -/
theorem C49_maps (groups : Groups) (hd : DictOk groups) (g : PyStr) :
    dictGet (buildGlyphToGroupMaps groups).2.1 g = firstGroup 1 (buildGlyphToGroupMaps groups).1 g ∧
    dictGet (buildGlyphToGroupMaps groups).2.2 g = firstGroup 2 (buildGlyphToGroupMaps groups).1 g := by
  rw [firstGroup_rebuilt groups hd 1 (.inl rfl), firstGroup_rebuilt groups hd 2 (.inr rfl)]
  simp only [buildGlyphToGroupMaps, glyphGroupMaps_side]
  exact ⟨sideMap_firstGroup 1 groups g, sideMap_firstGroup 2 groups g⟩

/-- **C49** Converting the result again changes nothing. -/
theorem C49_idempotent (groups : Groups) (hd : DictOk groups) (n : PyStr) :
    dictGet (buildGlyphToGroupMaps (buildGlyphToGroupMaps groups).1).1 n = dictGet (buildGlyphToGroupMaps groups).1 n := by
  have hd' := rebuilt_ok groups hd
  by_cases hk : lit "public.kern" <+: n
  · by_cases h : ∃ side, (side = 1 ∨ side = 2) ∧ OfSide side n
    · obtain ⟨side, hs, hn⟩ := h
      rw [C49_members _ hd' side hs n hn]
      cases hg : dictGet (buildGlyphToGroupMaps groups).1 n with
      | none => rfl
      | some gs =>
        have hnd := C49_nodup groups hd side hs n hn gs hg
        have hall : (gs.filter fun g => firstGroup side (buildGlyphToGroupMaps groups).1 g == some n) = gs := by
          rw [List.filter_eq_self]
          intro g hm
          rw [firstGroup_rebuilt groups hd side hs]
          simpa using (C49_first_wins groups hd side hs n hn g).1 ⟨gs, hg, hm⟩
        have hkf : ∀ l : List PyStr, l.Nodup → keepFirst l = l := by
          intro l
          induction l with
          | nil => intro _; rfl
          | cons x l ih =>
            intro h
            rw [List.nodup_cons] at h
            rw [keepFirst, ih h.2, List.filter_eq_self.2]
            intro y hy
            simpa using fun (e : y = x) => h.1 (e ▸ hy)
        simp only [Option.getD_some]
        rw [hall, hkf gs hnd.2]
        cases gs with
        | nil => exact absurd rfl hnd.1
        | cons x l => rfl
    · have h1 : ¬ OfSide 1 n := fun h' => h ⟨1, .inl rfl, h'⟩
      have h2 : ¬ OfSide 2 n := fun h' => h ⟨2, .inr rfl, h'⟩
      rw [C49_no_side_dropped _ hd' n hk h1 h2, C49_no_side_dropped _ hd n hk h1 h2]
  · rw [C49_other_groups _ hd' n hk]

/-- two overlapping first-side groups, one second-side group, a group without side and a plain group -/
def exampleGroups : Groups :=
  [(lit "public.kern1._A", [lit "A", lit "Aacute", lit "A"]),
   (lit "public.kern2._O", [lit "O", lit "A"]),
   (lit "public.kern1._B", [lit "B", lit "A"]),
   (lit "public.kern1._C", [lit "Aacute"]),
   (lit "public.kernX", [lit "A"]),
   (lit "caps", [lit "A", lit "B", lit "A"])]

example : DictOk exampleGroups := by decide +kernel
example : (buildGlyphToGroupMaps exampleGroups).1 =
  [(lit "caps", [lit "A", lit "B", lit "A"]),
   (lit "public.kern1._A", [lit "A", lit "Aacute"]),
   (lit "public.kern1._B", [lit "B"]),
   (lit "public.kern2._O", [lit "O", lit "A"])] := by decide +kernel

/-! ### transform_groups -/

theorem checkForMissing_glyphs (glyphs order : List PyStr) (skip : Bool) :
    (checkForMissingGlyphs glyphs order skip).1 =
      if skip = true ∧ ∃ g ∈ glyphs, g ∈ order then glyphs.filter (fun g => decide (g ∈ order)) else glyphs := by
  have hf : (glyphs.filter fun g => !(glyphs.filter fun n => !order.contains n).contains g) = glyphs.filter fun g => decide (g ∈ order) := by
    refine List.filter_congr fun g hg => ?_
    by_cases h : g ∈ order <;> simp [h, hg]
  cases skip with
  | false => simp [checkForMissingGlyphs]
  | true =>
    by_cases he : ∃ g ∈ glyphs, g ∈ order
    · have hne : (glyphs.filter fun g => decide (g ∈ order)).isEmpty = false := by
        obtain ⟨g, h1, h2⟩ := he
        rw [List.isEmpty_eq_false_iff]
        exact List.ne_nil_of_mem (List.mem_filter.2 ⟨h1, by simpa using h2⟩)
      have hR : (if true = true ∧ ∃ g ∈ glyphs, g ∈ order then glyphs.filter (fun g => decide (g ∈ order)) else glyphs) = glyphs.filter (fun g => decide (g ∈ order)) :=
        if_pos ⟨rfl, he⟩
      rw [hR]
      by_cases hm : (glyphs.filter fun n => !order.contains n) = []
      · have : (glyphs.filter fun g => decide (g ∈ order)) = glyphs := by
          rw [List.filter_eq_self]
          intro g hg
          have := List.filter_eq_nil_iff.1 hm g hg
          simpa using this
        rw [this]
        simp only [checkForMissingGlyphs, hm]
        rfl
      · have hb : (!(glyphs.filter fun n => !order.contains n).isEmpty && true) = true := by
          rw [Bool.and_true, Bool.not_eq_true', List.isEmpty_eq_false_iff]; exact hm
        simp only [checkForMissingGlyphs, hf, hb, hne, if_true]
        rfl
    · have hR : (if true = true ∧ ∃ g ∈ glyphs, g ∈ order then glyphs.filter (fun g => decide (g ∈ order)) else glyphs) = glyphs :=
        if_neg (fun h => he h.2)
      rw [hR]
      have hnil : (glyphs.filter fun g => decide (g ∈ order)) = [] := by
        rw [List.filter_eq_nil_iff]
        intro g hg h
        exact he ⟨g, hg, by simpa using h⟩
      simp only [checkForMissingGlyphs, hf, hnil]
      split <;> rfl

theorem checkForMissing_missing (glyphs order : List PyStr) (skip : Bool) :
    (checkForMissingGlyphs glyphs order skip).2 = glyphs.filter (fun n => !order.contains n) := by
  unfold checkForMissingGlyphs
  simp only
  split
  · split <;> rfl
  · rfl

theorem endsQuote_eq : endsQuote = fun g => decide (IsMarked g) := by
  funext g
  rw [Bool.eq_iff_iff, decide_eq_true_iff]
  simp [endsQuote, IsMarked]

theorem stripQuotes_eq : stripQuotes = unmarked := rfl

theorem classGlyphs_eq (gs : List PyStr) :
    (gs.filter endsQuote).map stripQuotes ++ gs.filter (fun g => !endsQuote g) = classGlyphs gs := by
  rw [endsQuote_eq, stripQuotes_eq, classGlyphs]
  congr 1
  refine List.filter_congr fun g _ => ?_
  by_cases h : IsMarked g <;> simp [h]

theorem all_missing_iff (l order : List PyStr) :
    (l.filter fun n => !order.contains n).length = l.length ↔ ¬ ∃ g ∈ l, g ∈ order := by
  rw [List.length_filter_eq_length_iff]
  simp

theorem find?_congr' {α : Type} {p q : α → Bool} {l : List α} (h : ∀ x ∈ l, p x = q x) : l.find? p = l.find? q := by
  induction l with
  | nil => rfl
  | cons x l ih =>
    rw [List.find?_cons, List.find?_cons, h x (by simp), ih fun y hy => h y (by simp [hy])]

theorem keyGlyph_eq (order gs : List PyStr) :
    (((gs.filter endsQuote).map stripQuotes).find? fun k =>
      !(((classGlyphs gs).filter fun n => !order.contains n).contains k &&
        ((classGlyphs gs).filter fun n => !order.contains n).length != (classGlyphs gs).length)) = keyGlyph order gs := by
  rw [endsQuote_eq, stripQuotes_eq, keyGlyph]
  by_cases h : ∃ g ∈ classGlyphs gs, g ∈ order
  · rw [if_pos h]
    have hne : ¬ ((classGlyphs gs).filter fun n => !order.contains n).length = (classGlyphs gs).length :=
      fun e => (all_missing_iff _ _).1 e h
    apply find?_congr'
    intro k hk
    have hk' : k ∈ classGlyphs gs := List.mem_append_left _ hk
    by_cases ho : k ∈ order
    · simp [ho]
    · have : (((classGlyphs gs).filter fun n => !order.contains n).length != (classGlyphs gs).length) = true := by simpa using hne
      simpa [ho, hk', this] using h
  · rw [if_neg h]
    have he := (all_missing_iff _ order).2 h
    rw [he]
    cases ((gs.filter fun g => decide (IsMarked g)).map unmarked) with
    | nil => rfl
    | cons k l => simp

theorem kernName_1 (name : PyStr) : kernName 1 name = lit "public.kern1." ++ name := rfl
theorem kernName_2 (name : PyStr) : kernName 2 name = lit "public.kern2." ++ name := rfl

/-- storing several groups -/
def addAll (st : GroupState) (names : List PyStr) (gs : List PyStr) (key : Option PyStr) : GroupState :=
  names.foldl (fun st n => addGroup st n gs key) st

theorem addSide_new (st : GroupState) (f : Int) (bit side : Nat) (name : PyStr) (gs : List PyStr) (key : Option PyStr)
    (h : dictGet st.groups (kernName side name) = none) :
    addSide st f bit side name gs key = if f / (2 ^ bit : Nat) % 2 = 1 then addGroup st (kernName side name) gs key else st := by
  unfold addSide hasBit
  simp [h]

theorem transformGroup_eq (flags : List (PyStr × Int)) (order : List PyStr) (skip : Bool) (st : GroupState) (name : PyStr) (gs : List PyStr)
    (h : ∀ n ∈ finalNames flags name, dictGet st.groups n = none) :
    transformGroup flags order skip st (name, gs) = addAll st (finalNames flags name) (groupGlyphs order skip gs) (keyGlyph order gs) := by
  unfold transformGroup
  simp only [classGlyphs_eq]
  have h1 := checkForMissing_glyphs (classGlyphs gs) order skip
  have h2 := checkForMissing_missing (classGlyphs gs) order skip
  rcases hc : checkForMissingGlyphs (classGlyphs gs) order skip with ⟨gl, missing⟩
  rw [hc] at h1 h2
  simp only at h1 h2
  have hg : gl = groupGlyphs order skip gs := h1
  subst hg
  subst h2
  simp only [keyGlyph_eq]
  unfold finalNames at h ⊢
  by_cases hu : lit "_" <+: name
  · rw [if_pos (startsWith_iff.2 hu)]
    rw [if_pos hu] at h ⊢
    cases hf : dictGet flags name with
    | none => rfl
    | some f =>
      rw [hf] at h
      simp only at h ⊢
      by_cases b1 : f / 1024 % 2 = 1
      · rw [if_pos b1] at h ⊢
        have e1 : addSide st f 10 1 name (groupGlyphs order skip gs) (keyGlyph order gs) = addGroup st (kernName 1 name) (groupGlyphs order skip gs) (keyGlyph order gs) := by
          rw [addSide_new]
          · rw [if_pos (by simpa using b1)]
          · exact h _ (by simp [kernName_1])
        rw [e1]
        by_cases b2 : f / 2048 % 2 = 1
        · rw [if_pos b2] at h ⊢
          rw [addSide_new]
          · rw [if_pos (by simpa using b2)]; rfl
          · rw [show (addGroup st (kernName 1 name) (groupGlyphs order skip gs) (keyGlyph order gs)).groups = dictSet st.groups (kernName 1 name) (groupGlyphs order skip gs) from rfl, dictGet_dictSet, if_neg]
            · exact h _ (by simp [kernName_2])
            · rw [kernName_1, kernName_2]; simp [lit]
        · rw [if_neg b2]
          unfold addSide hasBit
          rw [if_neg (by simpa using b2)]
          rfl
      · rw [if_neg b1] at h ⊢
        have e1 : addSide st f 10 1 name (groupGlyphs order skip gs) (keyGlyph order gs) = st := by
          unfold addSide hasBit
          rw [if_neg (by simpa using b1)]
        rw [e1]
        by_cases b2 : f / 2048 % 2 = 1
        · rw [if_pos b2] at h ⊢
          rw [addSide_new]
          · rw [if_pos (by simpa using b2)]; rfl
          · exact h _ (by simp [kernName_2])
        · rw [if_neg b2]
          unfold addSide hasBit
          rw [if_neg (by simpa using b2)]
          rfl
  · rw [if_neg (fun e => hu (startsWith_iff.1 e)), if_neg hu]
    rfl

/-- key glyph entries for the names of a group -/
def keyEntries (names : List PyStr) (key : Option PyStr) : List (PyStr × PyStr) :=
  match key with
  | some k => names.map fun n => (n, k)
  | none => []

theorem keyEntries_names (names : List PyStr) (key : Option PyStr) : ∀ n ∈ (keyEntries names key).map Prod.fst, n ∈ names := by
  cases key with
  | none => simp [keyEntries]
  | some k => intro n; simp [keyEntries]

theorem addGroup_new (st : GroupState) (n : PyStr) (gs : List PyStr) (key : Option PyStr)
    (h : n ∉ st.groups.map Prod.fst) (hk : ∀ x ∈ st.keys.map Prod.fst, x ∈ st.groups.map Prod.fst) :
    addGroup st n gs key = ⟨st.groups ++ [(n, gs)], st.order ++ [n], st.keys ++ keyEntries [n] key⟩ := by
  have hk' : dictGet st.keys n = none := dictGet_none.2 fun hx => h (hk n hx)
  have hkn : n ∉ st.keys.map Prod.fst := dictGet_none.1 hk'
  unfold addGroup
  rw [dictSet_new h]
  cases key with
  | none => simp [hk', keyEntries]
  | some k => simp [hk', keyEntries, dictSet_new hkn]

theorem addAll_new (names : List PyStr) (gs : List PyStr) (key : Option PyStr) (st : GroupState)
    (h : ∀ n ∈ names, n ∉ st.groups.map Prod.fst) (hnd : names.Nodup) (hk : ∀ x ∈ st.keys.map Prod.fst, x ∈ st.groups.map Prod.fst) :
    addAll st names gs key = ⟨st.groups ++ names.map (fun n => (n, gs)), st.order ++ names, st.keys ++ keyEntries names key⟩ := by
  induction names generalizing st with
  | nil => cases st; cases key <;> simp [addAll, keyEntries]
  | cons n names ih =>
    have e : addAll st (n :: names) gs key = addAll (addGroup st n gs key) names gs key := rfl
    rw [List.nodup_cons] at hnd
    rw [e, addGroup_new st n gs key (h n (by simp)) hk, ih]
    · cases key <;> simp [keyEntries]
    · intro x hx
      simp only [List.map_append, List.mem_append, not_or]
      refine ⟨h x (by simp [hx]), ?_⟩
      simp only [List.map_cons, List.map_nil, List.mem_singleton]
      rintro rfl
      exact hnd.1 hx
    · exact hnd.2
    · intro x hx
      simp only [List.map_append, List.mem_append] at hx ⊢
      rcases hx with hx | hx
      · exact .inl (hk x hx)
      · exact .inr (by simpa using keyEntries_names _ _ x hx)

theorem transform_fold (flags : List (PyStr × Int)) (order : List PyStr) (skip : Bool) (orig : Groups) (st : GroupState)
    (hnd : (st.groups.map Prod.fst ++ orig.flatMap fun e => finalNames flags e.1).Nodup)
    (hk : ∀ x ∈ st.keys.map Prod.fst, x ∈ st.groups.map Prod.fst) :
    orig.foldl (transformGroup flags order skip) st =
      ⟨st.groups ++ orig.flatMap (fun e => (finalNames flags e.1).map fun n => (n, groupGlyphs order skip e.2)),
       st.order ++ orig.flatMap (fun e => finalNames flags e.1),
       st.keys ++ orig.flatMap (fun e => keyEntries (finalNames flags e.1) (keyGlyph order e.2))⟩ := by
  induction orig generalizing st with
  | nil => simp
  | cons e orig ih =>
    obtain ⟨name, gs⟩ := e
    rw [List.flatMap_cons, ← List.append_assoc, List.nodup_append, List.nodup_append] at hnd
    obtain ⟨⟨h1, h2, h3⟩, h4, h5⟩ := hnd
    have hnew : ∀ n ∈ finalNames flags name, n ∉ st.groups.map Prod.fst := fun n hn hx => h3 n hx n hn rfl
    rw [List.foldl_cons, transformGroup_eq _ _ _ _ _ _ (fun n hn => dictGet_none.2 (hnew n hn)), addAll_new _ _ _ _ hnew h2 hk, ih]
    · simp [List.append_assoc]
    · simp only [List.map_append, List.map_map, Function.comp_def, List.map_id']
      rw [List.nodup_append, List.nodup_append]
      exact ⟨⟨h1, h2, h3⟩, h4, h5⟩
    · intro x hx
      simp only [List.map_append, List.mem_append, List.map_map, Function.comp_def, List.map_id'] at hx ⊢
      rcases hx with hx | hx
      · exact .inl (hk x hx)
      · exact .inr (keyEntries_names _ _ x hx)

theorem finalNames_mem {flags : List (PyStr × Int)} {name n : PyStr} (h : n ∈ finalNames flags name) :
    (n = name ∧ ¬ lit "_" <+: name) ∨ ((n = lit "public.kern1." ++ name ∨ n = lit "public.kern2." ++ name) ∧ lit "_" <+: name) := by
  unfold finalNames at h
  split at h
  · next hu =>
    refine .inr ⟨?_, hu⟩
    split at h
    · cases h
    · rw [List.mem_append] at h
      rcases h with h | h
      · split at h
        · left; simpa using h
        · cases h
      · split at h
        · right; simpa using h
        · cases h
  · next hu => exact .inl ⟨by simpa using h, hu⟩

theorem finalNames_nodup (flags : List (PyStr × Int)) (name : PyStr) : (finalNames flags name).Nodup := by
  unfold finalNames
  split
  · split
    · simp
    · split <;> split <;> simp [lit]
  · simp

theorem finalNames_inj {flags : List (PyStr × Int)} {name name' n : PyStr} (hp : ¬ lit "public.kern" <+: name) (hp' : ¬ lit "public.kern" <+: name')
    (h : n ∈ finalNames flags name) (h' : n ∈ finalNames flags name') : name = name' := by
  have k1 : ∀ x : PyStr, lit "public.kern" <+: lit "public.kern1." ++ x := fun x => List.IsPrefix.trans ⟨lit "1.", rfl⟩ (List.prefix_append _ x)
  have k2 : ∀ x : PyStr, lit "public.kern" <+: lit "public.kern2." ++ x := fun x => List.IsPrefix.trans ⟨lit "2.", rfl⟩ (List.prefix_append _ x)
  have hl : (lit "public.kern1.").length = (lit "public.kern2.").length := by decide
  have hn : lit "public.kern1." ≠ lit "public.kern2." := by decide
  rcases finalNames_mem h with ⟨rfl, _⟩ | ⟨e | e, _⟩ <;> rcases finalNames_mem h' with ⟨rfl, _⟩ | ⟨e' | e', _⟩
  · rfl
  · exact absurd (e' ▸ k1 _) hp
  · exact absurd (e' ▸ k2 _) hp
  · exact absurd (e ▸ k1 _) hp'
  · rw [e] at e'; exact List.append_cancel_left e'
  · rw [e] at e'; exact absurd (List.append_inj_left e' hl) hn
  · exact absurd (e ▸ k2 _) hp'
  · rw [e] at e'; exact absurd (List.append_inj_left e' hl.symm) hn.symm
  · rw [e] at e'; exact List.append_cancel_left e'

theorem nodup_flatMap_inj {α β : Type} {l : List α} {f : α → List β} (hl : l.Nodup) (h1 : ∀ x ∈ l, (f x).Nodup)
    (h2 : ∀ x ∈ l, ∀ y ∈ l, ∀ b, b ∈ f x → b ∈ f y → x = y) : (l.flatMap f).Nodup := by
  induction l with
  | nil => simp
  | cons x l ih =>
    rw [List.nodup_cons] at hl
    rw [List.flatMap_cons, List.nodup_append]
    refine ⟨h1 x (by simp), ih hl.2 (fun y hy => h1 y (by simp [hy])) (fun y hy z hz b => h2 y (by simp [hy]) z (by simp [hz]) b), ?_⟩
    intro a ha b hb hab
    subst hab
    rw [List.mem_flatMap] at hb
    obtain ⟨y, hy, hb⟩ := hb
    have := h2 x (by simp) y (by simp [hy]) a ha hb
    exact hl.1 (this ▸ hy)

theorem finalNames_all_nodup {flags : List (PyStr × Int)} {orig : Groups} (hd : DictOk orig) (hp : ∀ e ∈ orig, ¬ lit "public.kern" <+: e.1) :
    (orig.flatMap fun e => finalNames flags e.1).Nodup := by
  have : (orig.flatMap fun e => finalNames flags e.1) = (orig.map Prod.fst).flatMap (finalNames flags) := by
    rw [List.flatMap_map]
  rw [this]
  refine nodup_flatMap_inj hd (fun n _ => finalNames_nodup flags n) ?_
  intro x hx y hy b
  obtain ⟨e, he, rfl⟩ := List.mem_map.1 hx
  obtain ⟨e', he', rfl⟩ := List.mem_map.1 hy
  exact finalNames_inj (hp e he) (hp e' he')

/-- **C58** The groups made from the classes of the VFB, in order: each class under its UFO names with its
glyphs; the group order lists the same names; the key glyphs are recorded under the same names. -/
theorem C58_transform (orig : Groups) (flags : List (PyStr × Int)) (order : List PyStr) (skip : Bool) (hd : DictOk orig)
    (hp : ∀ e ∈ orig, ¬ lit "public.kern" <+: e.1) :
    (transformGroups orig flags order skip).groups =
        orig.flatMap (fun e => (finalNames flags e.1).map fun n => (n, groupGlyphs order skip e.2)) ∧
    (transformGroups orig flags order skip).order = orig.flatMap (fun e => finalNames flags e.1) ∧
    (transformGroups orig flags order skip).keys =
        orig.flatMap (fun e => ((keyGlyph order e.2).toList).flatMap fun k => (finalNames flags e.1).map fun n => (n, k)) := by
  have h := transform_fold flags order skip orig ⟨[], [], []⟩ (by simpa using finalNames_all_nodup hd hp) (by simp)
  unfold transformGroups
  rw [h]
  refine ⟨by simp, by simp, ?_⟩
  simp only [List.nil_append]
  congr 1
  funext e
  cases keyGlyph order e.2 <;> simp [keyEntries]

/-- **C58** No two groups get the same name. -/
theorem C58_names_unique (orig : Groups) (flags : List (PyStr × Int)) (order : List PyStr) (skip : Bool) (hd : DictOk orig)
    (hp : ∀ e ∈ orig, ¬ lit "public.kern" <+: e.1) :
    DictOk (transformGroups orig flags order skip).groups ∧ (transformGroups orig flags order skip).order.Nodup := by
  obtain ⟨h1, h2, _⟩ := C58_transform orig flags order skip hd hp
  have hn := finalNames_all_nodup (flags := flags) hd hp
  refine ⟨?_, h2 ▸ hn⟩
  rw [DictOk, h1, List.map_flatMap]
  simpa [Function.comp_def] using hn

/-- **C58** Without the request to leave out missing glyphs, no glyph of a class is lost. -/
theorem C58_all_glyphs (order : List PyStr) (gs : List PyStr) (g : PyStr) :
    (g ∈ gs ∧ ¬ IsMarked g) ∨ (∃ k ∈ gs, IsMarked k ∧ unmarked k = g) ↔ g ∈ groupGlyphs order false gs := by
  simp only [groupGlyphs, classGlyphs]
  simp
  constructor
  · rintro (h | ⟨k, h1, h2, h3⟩)
    · exact .inr h
    · exact .inl ⟨k, ⟨h1, h2⟩, h3⟩
  · rintro (⟨k, ⟨h1, h2⟩, h3⟩ | h)
    · exact .inr ⟨k, h1, h2, h3⟩
    · exact .inl h

/-- **C58** (known defect) On request only glyphs which exist in the font are kept in a group — unless none
of them exists: then, against its documentation, the function keeps the whole group with all its missing
glyphs. -/
theorem C58_skip_missing (orig : Groups) (flags : List (PyStr × Int)) (order : List PyStr) (hd : DictOk orig)
    (hp : ∀ e ∈ orig, ¬ lit "public.kern" <+: e.1) (n : PyStr) (gs : List PyStr)
    (h : (n, gs) ∈ (transformGroups orig flags order true).groups) :
    (∀ g ∈ gs, g ∈ order) ∨ (∀ g ∈ gs, g ∉ order) := by
  rw [(C58_transform orig flags order true hd hp).1, List.mem_flatMap] at h
  obtain ⟨e, _, he⟩ := h
  obtain ⟨m, _, hm⟩ := List.mem_map.1 he
  have hgs : groupGlyphs order true e.2 = gs := (Prod.mk.inj hm).2
  subst hgs
  unfold groupGlyphs
  split
  · left; intro g hg; simpa using (List.mem_filter.1 hg).2
  · next h => right; intro g hg ho; exact h ⟨rfl, g, hg, ho⟩

/-- the same defect on an example: the second group survives with a glyph that does not exist -/
example : (transformGroups [(lit "caps", [lit "A", lit "X"]), (lit "gone", [lit "X"])] [] [lit "A"] true).groups =
    [(lit "caps", [lit "A"]), (lit "gone", [lit "X"])] := by decide +kernel

/-- kerning classes on the first side, on both sides and without flags; a plain class -/
def exampleClasses : Groups :=
  [(lit "_A", [lit "Aacute", lit "A'"]), (lit "_O", [lit "O'", lit "Q", lit "X"]), (lit "_n", [lit "n'"]), (lit "caps", [lit "A", lit "O"])]
def exampleFlags : List (PyStr × Int) := [(lit "_A", 1024), (lit "_O", 3072)]
def exampleOrder : List PyStr := [lit "A", lit "Aacute", lit "O", lit "Q", lit "n"]

example : DictOk exampleClasses ∧ ∀ e ∈ exampleClasses, ¬ lit "public.kern" <+: e.1 := by decide +kernel
example : transformGroups exampleClasses exampleFlags exampleOrder true =
  ⟨[(lit "public.kern1._A", [lit "A", lit "Aacute"]), (lit "public.kern1._O", [lit "O", lit "Q"]),
    (lit "public.kern2._O", [lit "O", lit "Q"]), (lit "caps", [lit "A", lit "O"])],
   [lit "public.kern1._A", lit "public.kern1._O", lit "public.kern2._O", lit "caps"],
   [(lit "public.kern1._A", lit "A"), (lit "public.kern1._O", lit "O"), (lit "public.kern2._O", lit "O")]⟩ := by decide +kernel

/-- storing the groups of a kerning class: a name that is in use is left alone -/
def addNew (st : GroupState) (names : List PyStr) (gs : List PyStr) (key : Option PyStr) : GroupState :=
  names.foldl (fun st n => if (dictGet st.groups n).isSome then st else addGroup st n gs key) st

theorem transformGroup_gen (flags : List (PyStr × Int)) (order : List PyStr) (skip : Bool) (st : GroupState) (name : PyStr) (gs : List PyStr) :
    transformGroup flags order skip st (name, gs) =
      if lit "_" <+: name then addNew st (finalNames flags name) (groupGlyphs order skip gs) (keyGlyph order gs)
      else addGroup st name (groupGlyphs order skip gs) (keyGlyph order gs) := by
  unfold transformGroup
  simp only [classGlyphs_eq]
  have h1 := checkForMissing_glyphs (classGlyphs gs) order skip
  have h2 := checkForMissing_missing (classGlyphs gs) order skip
  rcases hc : checkForMissingGlyphs (classGlyphs gs) order skip with ⟨gl, missing⟩
  rw [hc] at h1 h2
  simp only at h1 h2
  have hg : gl = groupGlyphs order skip gs := h1
  subst hg
  subst h2
  simp only [keyGlyph_eq]
  unfold finalNames addSide hasBit
  by_cases hu : lit "_" <+: name
  · rw [if_pos (startsWith_iff.2 hu), if_pos hu, if_pos hu]
    cases hf : dictGet flags name with
    | none => rfl
    | some f =>
      simp only [addNew]
      by_cases b1 : f / 1024 % 2 = 1 <;> by_cases b2 : f / 2048 % 2 = 1 <;>
        (simp [b1, b2, kernName_1, kernName_2]; try rfl)
  · rw [if_neg (fun h => hu (startsWith_iff.1 h)), if_neg hu]

/-- **C58** A class of the font whose name is already that of a UFO kerning group: if it comes before the kerning class, it
takes its place; if it comes after it, it replaces the glyphs, but the key glyph of the kerning class stays, and the group is
listed twice in the group order. -/
theorem C58_collision (flags : List (PyStr × Int)) (order : List PyStr) (skip : Bool) (name n : PyStr) (gs gs' : List PyStr)
    (hk : lit "_" <+: name) (hf : finalNames flags name = [n]) (hn : ¬ lit "_" <+: n) :
    transformGroups [(n, gs), (name, gs')] flags order skip =
      ⟨[(n, groupGlyphs order skip gs)], [n], ((keyGlyph order gs).map fun k => (n, k)).toList⟩ ∧
    transformGroups [(name, gs'), (n, gs)] flags order skip =
      ⟨[(n, groupGlyphs order skip gs)], [n, n], (((keyGlyph order gs').or (keyGlyph order gs)).map fun k => (n, k)).toList⟩ := by
  constructor
  · simp only [transformGroups, List.foldl_cons, List.foldl_nil, transformGroup_gen, if_pos hk, if_neg hn, hf, addNew]
    rw [if_pos (by simp [addGroup, dictSet, dictGet])]
    cases keyGlyph order gs <;> simp [addGroup, dictSet, dictGet]
  · simp only [transformGroups, List.foldl_cons, List.foldl_nil, transformGroup_gen, if_pos hk, if_neg hn, hf, addNew]
    rw [if_neg (by simp [dictGet])]
    cases keyGlyph order gs <;> cases keyGlyph order gs' <;> simp [addGroup, dictSet, dictGet]

example : lit "_" <+: lit "_A" ∧ finalNames exampleFlags (lit "_A") = [lit "public.kern1._A"] ∧ ¬ lit "_" <+: lit "public.kern1._A" := by
  decide +kernel

end Verif.Props
