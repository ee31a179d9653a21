import Verif.Spec.AdobeHints
import Verif.Props.UfoClasses
import Verif.Props.UfoHints
import Verif.Lemmas.Dec
/-! C99: conversion of Adobe hints of format 1 (XML) to format 2. -/
set_option autoImplicit false
namespace Verif.Props
open Verif Verif.Spec

/-! ### numbers -/

theorem isDigit_iff (c : Nat) : (48 ≤ c && c ≤ 57) = true ↔ 48 ≤ c ∧ c ≤ 57 := by simp

theorem digitGroups_iff (s : PyStr) (n : Nat) : digitGroups s = .ok n ↔
    ∃ groups : List PyStr, groups ≠ [] ∧ (∀ g ∈ groups, g ≠ [] ∧ ∀ c ∈ g, 48 ≤ c ∧ c ≤ 57) ∧
      s = (lit "_").intercalate groups ∧ n = digitsVal groups.flatten := by
  have hall : ∀ gs : List PyStr, gs.all (fun g => !g.isEmpty && g.all (fun c => 48 ≤ c && c ≤ 57)) = true ↔
      ∀ g ∈ gs, g ≠ [] ∧ ∀ c ∈ g, 48 ≤ c ∧ c ≤ 57 := by
    intro gs
    rw [List.all_eq_true]
    constructor
    · intro h g hg
      have := h g hg
      simp only [Bool.and_eq_true, Bool.not_eq_true', List.isEmpty_eq_false_iff, List.all_eq_true, decide_eq_true_eq] at this
      exact this
    · intro h g hg
      simp only [Bool.and_eq_true, Bool.not_eq_true', List.isEmpty_eq_false_iff, List.all_eq_true, decide_eq_true_eq]
      exact h g hg
  have hl : lit "_" = [95] := by decide
  unfold digitGroups
  dsimp only
  rw [hl]
  by_cases h : (splitChar 95 s).all (fun g => !g.isEmpty && g.all (fun c => 48 ≤ c && c ≤ 57)) = true
  · rw [if_pos h]
    constructor
    · intro e
      injection e with e
      exact ⟨splitChar 95 s, splitChar_ne _ _, (hall _).1 h, (splitChar_join 95 s).symm, e.symm⟩
    · rintro ⟨groups, h1, h2, rfl, rfl⟩
      rw [splitChar_unique groups h1 (fun p hp hc => by have := (h2 p hp).2 95 hc; omega)]
  · rw [if_neg h]
    constructor
    · intro e; cases e
    · rintro ⟨groups, h1, h2, rfl, rfl⟩
      rw [splitChar_unique groups h1 (fun p hp hc => by have := (h2 p hp).2 95 hc; omega)] at h
      exact absurd ((hall _).2 h2) h

theorem digitGroups_err (s : PyStr) (e : PyErr) (h : digitGroups s = .error e) : e = .value := by
  unfold digitGroups at h
  dsimp only at h
  split at h
  · cases h
  · injection h with h; exact h.symm

theorem pyInt_err (s : PyStr) (e : PyErr) (h : pyInt s = .error e) : e = .value := by
  unfold pyInt at h
  have aux : ∀ (t : PyStr) (f : Nat → Int), (do let n ← digitGroups t; pure (f n) : Except PyErr Int) = .error e → e = .value := by
    intro t f h
    cases hd : digitGroups t with
    | error e' =>
      rw [hd] at h
      have : e' = e := by injection h
      subst this
      exact digitGroups_err _ _ hd
    | ok n => rw [hd] at h; cases h
  split at h
  · exact aux _ _ h
  · exact aux _ _ h
  · exact aux _ _ h

theorem digit_not_space {c : Nat} (h : 48 ≤ c ∧ c ≤ 57) : isSpace c = false := by
  obtain ⟨h1, h2⟩ := h
  unfold isSpace
  rw [decide_eq_false_iff_not]
  simp only [List.mem_cons, List.not_mem_nil, or_false]
  omega

theorem inter_chars (groups : List PyStr) (h : ∀ g ∈ groups, g ≠ [] ∧ ∀ c ∈ g, 48 ≤ c ∧ c ≤ 57) :
    ∀ c ∈ [95].intercalate groups, c = 95 ∨ (48 ≤ c ∧ c ≤ 57) := by
  induction groups with
  | nil => intro c hc; simp [List.intercalate] at hc
  | cons g gs ih =>
    intro c hc
    by_cases hg : gs = []
    · subst hg
      rw [show [95].intercalate [g] = g by simp [List.intercalate]] at hc
      exact Or.inr ((h g (List.mem_cons_self ..)).2 c hc)
    · rw [inter_cons2 _ _ _ hg] at hc
      rcases List.mem_append.1 hc with hc | hc
      · exact Or.inr ((h g (List.mem_cons_self ..)).2 c hc)
      · rcases List.mem_cons.1 hc with hc | hc
        · exact Or.inl hc
        · exact ih (fun x hx => h x (List.mem_cons_of_mem _ hx)) c hc

theorem isSpace_small {c : Nat} (h : c = 43 ∨ c = 45 ∨ c = 95 ∨ (48 ≤ c ∧ c ≤ 57)) : isSpace c = false := by
  unfold isSpace
  rw [decide_eq_false_iff_not]
  simp only [List.mem_cons, List.not_mem_nil, or_false]
  omega

/-- the texts that `int()` reads, with their values -/
theorem pyInt_iff (s : PyStr) (v : Int) : pyInt s = .ok v ↔ IntText s v := by
  have hl : lit "_" = [95] := by decide
  have hp : lit "+" = [43] := by decide
  have hm : lit "-" = [45] := by decide
  have aux : ∀ (t : PyStr) (f : Nat → Int), (do let n ← digitGroups t; pure (f n) : Except PyErr Int) = .ok v ↔
      ∃ n, digitGroups t = .ok n ∧ v = f n := by
    intro t f
    cases hd : digitGroups t with
    | error e => constructor
                 · intro h; cases h
                 · rintro ⟨n, h, -⟩; cases h
    | ok n =>
      constructor
      · intro h
        injection h with h
        exact ⟨n, rfl, h.symm⟩
      · rintro ⟨m, h, rfl⟩
        injection h with h
        rw [h]; rfl
  unfold IntText
  rw [hl, hp, hm]
  constructor
  · intro h
    obtain ⟨pre, post, hs, h1, h2, -, -⟩ := strip_stripped s
    unfold pyInt at h
    split at h
    · next t ht =>
      obtain ⟨n, h3, h4⟩ := (aux _ _).1 h
      obtain ⟨gs, g1, g2, g3, g4⟩ := (digitGroups_iff _ _).1 h3
      rw [hl] at g3
      refine ⟨pre, [43], gs, post, h1, h2, Or.inr (Or.inl rfl), g1, g2, ?_, ?_⟩
      · rw [hs, ht, g3]; simp
      · rw [if_neg (by decide), h4, g4]
    · next t ht =>
      obtain ⟨n, h3, h4⟩ := (aux _ _).1 h
      obtain ⟨gs, g1, g2, g3, g4⟩ := (digitGroups_iff _ _).1 h3
      rw [hl] at g3
      refine ⟨pre, [45], gs, post, h1, h2, Or.inr (Or.inr rfl), g1, g2, ?_, ?_⟩
      · rw [hs, ht, g3]; simp
      · rw [if_pos rfl, h4, g4]
    · obtain ⟨n, h3, h4⟩ := (aux _ _).1 h
      obtain ⟨gs, g1, g2, g3, g4⟩ := (digitGroups_iff _ _).1 h3
      rw [hl] at g3
      refine ⟨pre, [], gs, post, h1, h2, Or.inl rfl, g1, g2, ?_, ?_⟩
      · conv_lhs => rw [hs, g3]
        simp
      · rw [if_neg (by decide), h4, g4]
  · rintro ⟨pre, sign, gs, post, h1, h2, h3, h4, h5, hs, hv⟩
    have hch := inter_chars gs h5
    have hall : ∀ c ∈ sign ++ [95].intercalate gs, isSpace c = false := by
      intro c hc
      apply isSpace_small
      rcases List.mem_append.1 hc with hc | hc
      · rcases h3 with rfl | rfl | rfl
        · cases hc
        · simp at hc; omega
        · simp at hc; omega
      · have := hch c hc; omega
    have hst : pyStrip s = sign ++ [95].intercalate gs := by
      apply stripped_unique (strip_stripped s)
      refine ⟨pre, post, by rw [hs]; simp, h1, h2, ?_, ?_⟩
      · intro c hc; exact hall c (List.mem_of_mem_head? hc)
      · intro c hc; exact hall c (List.mem_of_mem_getLast? hc)
    have hd : digitGroups ([95].intercalate gs) = .ok (digitsVal gs.flatten) :=
      (digitGroups_iff _ _).2 ⟨gs, h4, h5, by rw [hl], rfl⟩
    unfold pyInt
    rw [hst]
    rcases h3 with rfl | rfl | rfl
    · rw [if_neg (by decide)] at hv
      rw [List.nil_append]
      split
      · next t ht => have := hch 43 (by rw [ht]; exact List.mem_cons_self ..); omega
      · next t ht => have := hch 45 (by rw [ht]; exact List.mem_cons_self ..); omega
      · rw [hd, hv]; rfl
    · rw [if_neg (by decide)] at hv
      show (do let n ← digitGroups ([95].intercalate gs); pure (n : Int) : Except PyErr Int) = _
      rw [hd, hv]; rfl
    · rw [if_pos rfl] at hv
      show (do let n ← digitGroups ([95].intercalate gs); pure (-(n : Int)) : Except PyErr Int) = _
      rw [hd, hv]; rfl

theorem intText_unique {s : PyStr} {v w : Int} (h : IntText s v) (h' : IntText s w) : v = w := by
  have h1 := (pyInt_iff s v).2 h
  rw [(pyInt_iff s w).2 h'] at h1
  injection h1 with h1
  exact h1.symm

/-! ### document order -/

mutual
theorem visits_iter : ∀ (x : Xml) (rest l' : List Xml), Visits rest l' → Visits (x :: rest) (x.iter ++ l')
  | .el t a cs, rest, l', h => by
    rw [Xml.iter]
    exact Visits.cons t a cs _ rest l' (visits_iterAll cs) h
theorem visits_iterAll : ∀ cs : List Xml, Visits cs (Xml.iterAll cs)
  | [] => by rw [Xml.iterAll]; exact Visits.nil
  | c :: cs => by rw [Xml.iterAll]; exact visits_iter c cs _ (visits_iterAll cs)
end

theorem visits_eq {l m : List Xml} (h : Visits l m) : m = Xml.iterAll l := by
  induction h with
  | nil => rw [Xml.iterAll]
  | cons t a cs l rest l' _ _ ih ih' => rw [Xml.iterAll, Xml.iter, ← ih, ← ih', List.cons_append]

theorem visits_one {x : Xml} {m : List Xml} : Visits [x] m ↔ m = x.iter := by
  constructor
  · intro h
    rw [visits_eq h, Xml.iterAll, Xml.iterAll, List.append_nil]
  · rintro rfl
    have := visits_iter x [] [] Visits.nil
    rw [List.append_nil] at this
    exact this

/-! ### the stems of a hint set -/

theorem attr_ok {e : Xml} {k v : PyStr} : e.attr k = .ok v ↔ dictGet e.attrs k = some v := by
  unfold Xml.attr
  cases dictGet e.attrs k with
  | none => simp
  | some w => simp

theorem attr_err {e : Xml} {k : PyStr} {x : PyErr} (h : e.attr k = .error x) : x = .key ∧ dictGet e.attrs k = none := by
  unfold Xml.attr at h
  cases hd : dictGet e.attrs k with
  | none => rw [hd] at h; injection h with h; exact ⟨h.symm, rfl⟩
  | some w => rw [hd] at h; cases h

/-- the text of a stem, as the loop makes it -/
def stemOf (e : Xml) : Except PyErr PyStr := do
  let pos ← e.attr (lit "pos")
  let p ← pyInt pos
  let width ← e.attr (lit "width")
  let w ← pyInt width
  pure (stemText (normalizeHint (e.tag, p, w)))

theorem stemOf_numbers {e : Xml} {t : PyStr} : stemOf e = .ok t ↔
    ∃ p w, StemNumbers e p w ∧ t = stemText (normalizeHint (e.tag, p, w)) := by
  unfold stemOf StemNumbers
  constructor
  · intro h
    cases h1 : e.attr (lit "pos") with
    | error x => rw [h1] at h; cases h
    | ok ps =>
      rw [h1] at h
      cases h2 : pyInt ps with
      | error x => simp [h2, bind, Except.bind] at h
      | ok p =>
        cases h3 : e.attr (lit "width") with
        | error x => simp [h2, h3, bind, Except.bind] at h
        | ok ws =>
          cases h4 : pyInt ws with
          | error x => simp [h2, h3, h4, bind, Except.bind] at h
          | ok w =>
            simp only [h2, h3, h4, bind, Except.bind, pure, Except.pure, Except.ok.injEq] at h
            exact ⟨p, w, ⟨ps, ws, attr_ok.1 h1, (pyInt_iff _ _).1 h2, attr_ok.1 h3, (pyInt_iff _ _).1 h4⟩, h.symm⟩
  · rintro ⟨p, w, ⟨ps, ws, h1, h2, h3, h4⟩, rfl⟩
    rw [attr_ok.2 h1, attr_ok.2 h3]
    simp only [(pyInt_iff _ _).2 h2, (pyInt_iff _ _).2 h4, bind, Except.bind, pure, Except.pure]

theorem edges_eq_nonneg {p w p' w' : Int} (h : edges p' w' = edges p w) (h0 : 0 ≤ w') (hw : w < 0) : p' = p + w ∧ w' = -w := by
  unfold edges at h
  simp only [Prod.mk.injEq] at h
  omega

theorem edges_eq_pos {p w p' w' : Int} (h : edges p' w' = edges p w) (h0 : 0 ≤ w') (hw : 0 ≤ w) : p' = p ∧ w' = w := by
  unfold edges at h
  simp only [Prod.mk.injEq] at h
  omega

theorem stemOf_iff {e : Xml} {t : PyStr} : stemOf e = .ok t ↔ StemText e t := by
  rw [stemOf_numbers]
  unfold StemText
  constructor
  · rintro ⟨p, w, h, rfl⟩
    refine ⟨p, w, (normalizeHint (e.tag, p, w)).2.1, (normalizeHint (e.tag, p, w)).2.2, h, ?_, ?_, ?_, ?_⟩
    · have : (normalizeHint (e.tag, p, w)).1 = e.tag := by
        unfold normalizeHint; dsimp only; split
        · split <;> rfl
        · rfl
      unfold stemText
      rw [this]
    · unfold normalizeHint edges
      dsimp only
      split
      · split
        · simp only [Prod.mk.injEq]; omega
        · rfl
      · rfl
    · intro hg
      unfold normalizeHint
      unfold IsGhost at hg
      dsimp only
      split
      · rw [if_neg (by omega)]; exact ⟨rfl, rfl⟩
      · exact ⟨rfl, rfl⟩
    · intro hg
      unfold normalizeHint
      unfold IsGhost at hg
      dsimp only
      split
      · rw [if_pos (by omega)]; dsimp only; omega
      · dsimp only; omega
  · rintro ⟨p, w, p', w', h, rfl, he, hg, hn⟩
    refine ⟨p, w, h, ?_⟩
    have key : normalizeHint (e.tag, p, w) = (e.tag, p', w') := by
      unfold normalizeHint
      dsimp only
      by_cases hgh : IsGhost w
      · obtain ⟨rfl, rfl⟩ := hg hgh
        unfold IsGhost at hgh
        rw [if_pos (by omega), if_neg (by omega)]
      · have h0 := hn hgh
        by_cases hw : w < 0
        · obtain ⟨rfl, rfl⟩ := edges_eq_nonneg he h0 hw
          unfold IsGhost at hgh
          rw [if_pos hw, if_pos (by omega), show ((w.natAbs : Int)) = -w by omega]
        · obtain ⟨rfl, rfl⟩ := edges_eq_pos he h0 (by omega)
          rw [if_neg hw]
    rw [key]
    unfold stemText
    rfl

theorem stemText_unique {e : Xml} {t u : PyStr} (h : StemText e t) (h' : StemText e u) : t = u := by
  have h1 := stemOf_iff.2 h
  rw [stemOf_iff.2 h'] at h1
  injection h1 with h1
  exact h1.symm

theorem tags_distinct : lit "hintSetList" ≠ lit "hintset" ∧ ¬ (lit "hintSetList" = lit "hstem" ∨ lit "hintSetList" = lit "vstem") ∧
    ¬ (lit "hintset" = lit "hstem" ∨ lit "hintset" = lit "vstem") := by decide

/-- a step for an element that does not begin a hint set, within a hint set -/
theorem step_body (tag : PyStr) (stems : List PyStr) (done : List HintSetV2) (e : Xml) (h : e.tag ≠ lit "hintset") :
    adobeStep { cur := some (tag, stems), done := done } e =
      if IsStemTag e then (do let t ← stemOf e; pure { cur := some (tag, stems ++ [t]), done := done })
      else .ok { cur := some (tag, stems), done := if e.tag = lit "hintSetList" then [] else done } := by
  unfold adobeStep stemOf
  by_cases h1 : e.tag = lit "hintSetList"
  · have hs : ¬ IsStemTag e := by unfold IsStemTag; rw [h1]; exact tags_distinct.2.1
    rw [if_pos h1, if_neg hs, if_pos h1]
  · rw [if_neg h1, if_neg h, if_neg h1]
    by_cases h2 : e.tag = lit "hstem" ∨ e.tag = lit "vstem"
    · rw [if_pos h2, if_pos (show IsStemTag e from h2)]
      simp only [bind_assoc, pure_bind]
    · rw [if_neg h2, if_neg (show ¬ IsStemTag e from h2)]

/-- the elements of a hint set after its tag -/
theorem fold_body (tag : PyStr) : ∀ (body : List Xml) (stems : List PyStr) (done : List HintSetV2) (st : AdobeState),
    (∀ e ∈ body, e.tag ≠ lit "hintset") →
    (body.foldlM adobeStep { cur := some (tag, stems), done := done } = .ok st ↔
      ∃ texts, List.Forall₂ StemText (body.filter (fun e => decide (IsStemTag e))) texts ∧
        st = { cur := some (tag, stems ++ texts), done := if ∃ e ∈ body, e.tag = lit "hintSetList" then [] else done }) := by
  intro body
  induction body with
  | nil =>
    intro stems done st _
    rw [List.foldlM_nil]
    constructor
    · intro h
      injection h with h
      exact ⟨[], List.Forall₂.nil, by rw [← h, List.append_nil, if_neg (by simp)]⟩
    · rintro ⟨texts, h, rfl⟩
      cases h
      rw [List.append_nil, if_neg (by simp)]; rfl
  | cons e body ih =>
    intro stems done st hb
    have he := hb e (List.mem_cons_self ..)
    have ih' := fun stems done => ih stems done st (fun x hx => hb x (List.mem_cons_of_mem _ hx))
    rw [List.foldlM_cons, step_body _ _ _ _ he]
    by_cases hs : IsStemTag e
    · have hne : e.tag ≠ lit "hintSetList" := by
        intro h; unfold IsStemTag at hs; rw [h] at hs; exact tags_distinct.2.1 hs
      have hex : (∃ x ∈ e :: body, x.tag = lit "hintSetList") ↔ ∃ x ∈ body, x.tag = lit "hintSetList" := by
        simp [hne]
      rw [if_pos hs, List.filter_cons_of_pos (by simpa using hs)]
      simp only [hex]
      cases ht : stemOf e with
      | error x =>
        constructor
        · intro h; cases h
        · rintro ⟨texts, h, -⟩
          cases h with
          | cons h1 _ => rw [stemOf_iff.2 h1] at ht; cases ht
      | ok t =>
        show body.foldlM adobeStep { cur := some (tag, stems ++ [t]), done := done } = .ok st ↔ _
        rw [ih']
        constructor
        · rintro ⟨texts, h1, h2⟩
          exact ⟨t :: texts, List.Forall₂.cons (stemOf_iff.1 ht) h1, by rw [h2]; simp⟩
        · rintro ⟨texts, h1, h2⟩
          cases h1 with
          | cons h3 h4 =>
            rw [stemText_unique h3 (stemOf_iff.1 ht)] at h2
            exact ⟨_, h4, by rw [h2]; simp⟩
    · rw [if_neg hs, List.filter_cons_of_neg (by simpa using hs)]
      show body.foldlM adobeStep { cur := some (tag, stems), done := if e.tag = lit "hintSetList" then [] else done } = .ok st ↔ _
      rw [ih']
      have hd : (if ∃ x ∈ body, x.tag = lit "hintSetList" then [] else if e.tag = lit "hintSetList" then [] else done) =
          if ∃ x ∈ e :: body, x.tag = lit "hintSetList" then [] else done := by
        by_cases h1 : ∃ x ∈ body, x.tag = lit "hintSetList"
        · rw [if_pos h1, if_pos (by obtain ⟨x, hx, hx'⟩ := h1; exact ⟨x, List.mem_cons_of_mem _ hx, hx'⟩)]
        · rw [if_neg h1]
          by_cases h2 : e.tag = lit "hintSetList"
          · rw [if_pos h2, if_pos ⟨e, List.mem_cons_self .., h2⟩]
          · rw [if_neg h2, if_neg]
            rintro ⟨x, hx, hx'⟩
            rcases List.mem_cons.1 hx with rfl | hx
            · exact h2 hx'
            · exact h1 ⟨x, hx, hx'⟩
      rw [hd]

theorem dropCount_unique {blocks : List Block} {n m : Nat} (hn : DropCount blocks n) (hm : DropCount blocks m) : n = m := by
  have key : ∀ {n m : Nat}, DropCount blocks n → DropCount blocks m → ¬ n < m := by
    rintro n m ⟨h1, -⟩ ⟨-, h2⟩ hlt
    rcases h2 with h2 | ⟨b, hb, hr⟩
    · omega
    · refine h1 b ?_ hr
      rw [List.mem_iff_getElem?]
      exact ⟨m - (n + 1), by rw [List.getElem?_drop, show n + 1 + (m - (n + 1)) = m by omega]; exact hb⟩
  have := key hn hm
  have := key hm hn
  omega

theorem dropCount_exists (blocks : List Block) : ∃ n, DropCount blocks n ∧ n ≤ blocks.length := by
  induction blocks with
  | nil => exact ⟨0, ⟨by simp, Or.inl rfl⟩, by simp⟩
  | cons b blocks ih =>
    obtain ⟨n, ⟨h1, h2⟩, h3⟩ := ih
    rcases h2 with rfl | ⟨b', hb, hr⟩
    · by_cases h : ∃ b', blocks[0]? = some b' ∧ Resets b'
      · exact ⟨1, ⟨by simpa using h1, Or.inr (by simpa using h)⟩, by simp⟩
      · refine ⟨0, ⟨?_, Or.inl rfl⟩, by simp⟩
        intro x hx
        simp only [Nat.zero_add, List.drop_succ_cons, List.drop_zero] at hx
        cases blocks with
        | nil => cases hx
        | cons c blocks =>
          rcases List.mem_cons.1 hx with rfl | hx
          · intro hr; exact h ⟨x, by simp, hr⟩
          · exact h1 x (by simpa using hx)
    · exact ⟨n + 1, ⟨by simpa using h1, Or.inr ⟨b', by simpa using hb, hr⟩⟩, by simp; omega⟩

theorem fold_block (b : Block) (hb : b.1.tag = lit "hintset" ∧ ∀ e ∈ b.2, e.tag ≠ lit "hintset") (st st' : AdobeState) :
    (b.1 :: b.2).foldlM adobeStep st = .ok st' ↔
      ∃ s, BlockSet b s ∧ st' = { cur := some s, done := if ∃ e ∈ b.2, e.tag = lit "hintSetList" then [] else st.flush } := by
  obtain ⟨e, body⟩ := b
  obtain ⟨h1, h2⟩ := hb
  dsimp only at h1 h2 ⊢
  have hstep : adobeStep st e = (do let tag ← e.attr (lit "pointTag"); pure { cur := some (tag, []), done := st.flush }) := by
    unfold adobeStep
    rw [if_neg (by rw [h1]; exact fun h => tags_distinct.1 h.symm), if_pos h1]
  rw [List.foldlM_cons, hstep]
  unfold BlockSet
  dsimp only
  cases ha : e.attr (lit "pointTag") with
  | error x =>
    constructor
    · intro h; cases h
    · rintro ⟨s, ⟨h3, -⟩, -⟩
      rw [attr_ok.2 h3] at ha
      cases ha
  | ok tag =>
    show body.foldlM adobeStep { cur := some (tag, []), done := st.flush } = .ok st' ↔ _
    rw [fold_body tag body [] st.flush st' h2]
    constructor
    · rintro ⟨texts, h3, h4⟩
      exact ⟨(tag, texts), ⟨attr_ok.1 ha, h3⟩, by rw [h4]; rfl⟩
    · rintro ⟨⟨tag', texts⟩, ⟨h3, h4⟩, h5⟩
      rw [attr_ok.2 h3] at ha
      injection ha with ha
      dsimp only at ha h4
      subst ha
      exact ⟨texts, h4, by rw [h5]; rfl⟩

theorem fold_pre : ∀ pre : List Xml, (∀ e ∈ pre, e.tag ≠ lit "hintset") →
    pre.foldlM adobeStep { cur := none, done := [] } = .ok { cur := none, done := [] } := by
  intro pre
  induction pre with
  | nil => intro _; rfl
  | cons e pre ih =>
    intro h
    have he := h e (List.mem_cons_self ..)
    have hs : adobeStep { cur := none, done := [] } e = .ok { cur := none, done := [] } := by
      unfold adobeStep
      rw [if_neg he]
      split
      · rfl
      · split <;> rfl
    rw [List.foldlM_cons, hs]
    exact ih (fun x hx => h x (List.mem_cons_of_mem _ hx))

theorem drop_last_length {blocks : List Block} {all : List HintSetV2} (h : List.Forall₂ BlockSet blocks all) : blocks.length = all.length := h.length_eq

theorem fold_blocks (blocks : List Block) :
    (∀ b ∈ blocks, b.1.tag = lit "hintset" ∧ ∀ e ∈ b.2, e.tag ≠ lit "hintset") → ∀ st : AdobeState,
    ((blocks.flatMap (fun b => b.1 :: b.2)).foldlM adobeStep { cur := none, done := [] } = .ok st →
      ∃ all, List.Forall₂ BlockSet blocks all ∧ ∀ n, DropCount blocks n → st.flush = all.drop n) := by
  intro hb
  induction blocks using List.reverseRecOn with
  | nil =>
    intro st h
    injection h with h
    exact ⟨[], List.Forall₂.nil, fun n _ => by rw [← h]; simp [AdobeState.flush]⟩
  | append_singleton bs b ih =>
    intro st h
    rw [List.flatMap_append, List.flatMap_singleton, List.foldlM_append] at h
    cases h1 : (bs.flatMap (fun b => b.1 :: b.2)).foldlM adobeStep { cur := none, done := [] } with
    | error x => rw [h1] at h; cases h
    | ok st1 =>
      rw [h1] at h
      obtain ⟨all, a1, a2⟩ := ih (fun x hx => hb x (List.mem_append_left _ hx)) st1 h1
      obtain ⟨s, s1, s2⟩ := (fold_block b (hb b (by simp)) st1 st).1 h
      refine ⟨all ++ [s], ?_, ?_⟩
      · exact List.rel_append a1 (List.Forall₂.cons s1 List.Forall₂.nil)
      · intro n hn
        have hlen := a1.length_eq
        by_cases hr : ∃ e ∈ b.2, e.tag = lit "hintSetList"
        · have : DropCount (bs ++ [b]) bs.length := ⟨by
            rw [List.drop_of_length_le (by simp)]; simp, Or.inr ⟨b, by simp, hr⟩⟩
          rw [dropCount_unique hn this, s2, if_pos hr, hlen]
          simp [AdobeState.flush]
        · obtain ⟨m, m1, m2⟩ := dropCount_exists bs
          have : DropCount (bs ++ [b]) m := by
            refine ⟨?_, ?_⟩
            · intro x hx
              rw [List.drop_append] at hx
              rcases List.mem_append.1 hx with hx | hx
              · exact m1.1 x hx
              · have := List.mem_of_mem_drop hx
                rw [List.mem_singleton] at this
                subst this
                exact hr
            · rcases m1.2 with h | ⟨b', hb', hr'⟩
              · exact Or.inl h
              · exact Or.inr ⟨b', by rw [List.getElem?_append_left (List.getElem?_eq_some_iff.1 hb').1]; exact hb', hr'⟩
          rw [dropCount_unique hn this, s2, if_neg hr]
          show st1.flush ++ [s] = _
          rw [a2 m m1, List.drop_append, show m - all.length = 0 by omega]
          rfl

theorem fold_blocks_ok (blocks : List Block) :
    (∀ b ∈ blocks, b.1.tag = lit "hintset" ∧ ∀ e ∈ b.2, e.tag ≠ lit "hintset") → ∀ (all : List HintSetV2) (st0 : AdobeState),
    List.Forall₂ BlockSet blocks all → ∃ st, (blocks.flatMap (fun b => b.1 :: b.2)).foldlM adobeStep st0 = .ok st := by
  intro hb all st0 h
  induction h generalizing st0 with
  | nil => exact ⟨st0, rfl⟩
  | @cons b s bs ss h1 _ ih =>
    rw [List.flatMap_cons, List.foldlM_append]
    rw [(fold_block b (hb b (List.mem_cons_self ..)) st0 _).2 ⟨s, h1, rfl⟩]
    exact ih (fun x hx => hb x (List.mem_cons_of_mem _ hx)) _

theorem blockSet_unique {b : Block} {s t : HintSetV2} (h : BlockSet b s) (h' : BlockSet b t) : s = t := by
  obtain ⟨h1, h2⟩ := h
  obtain ⟨h3, h4⟩ := h'
  have e1 : s.1 = t.1 := by rw [h1] at h3; injection h3
  have e2 : ∀ {l : List Xml} {a c : List PyStr}, List.Forall₂ StemText l a → List.Forall₂ StemText l c → a = c := by
    intro l a c h
    induction h generalizing c with
    | nil => intro h; cases h; rfl
    | cons h1 _ ih =>
      intro h
      cases h with
      | cons h3 h4 => rw [stemText_unique h1 h3, ih h4]
  exact Prod.ext e1 (e2 h2 h4)

theorem blocksAll_unique {l : List Block} {a c : List HintSetV2} (h : List.Forall₂ BlockSet l a) (h' : List.Forall₂ BlockSet l c) : a = c := by
  induction h generalizing c with
  | nil => cases h'; rfl
  | cons h1 _ ih =>
    cases h' with
    | cons h3 h4 => rw [blockSet_unique h1 h3, ih h4]

theorem iter_of {root : Xml} {pre : List Xml} {blocks : List Block} (h : Document root pre blocks) :
    root.iter = pre ++ blocks.flatMap (fun b => b.1 :: b.2) := (visits_one.1 h.1).symm

theorem fold_document {root : Xml} {pre : List Xml} {blocks : List Block} (h : Document root pre blocks) :
    root.iter.foldlM adobeStep { cur := none, done := [] } =
      (blocks.flatMap (fun b => b.1 :: b.2)).foldlM adobeStep { cur := none, done := [] } := by
  rw [iter_of h, List.foldlM_append, fold_pre pre h.2.1]
  rfl

/-- What is converted.  The result has a record for every hint set of the document, in document order, with its point and
its stems in their order, except that those before the last one that is followed by the start of a new list are dropped. -/
theorem C99_convert {α : Type} (X : XmlOps) (s : PyStr) (root : Xml) (pre : List Xml) (blocks : List Block)
    (hx : X.fromstring s = some root) (hd : Document root pre blocks) (sets : List HintSetV2) :
    updateAdobe X (.text s : AdobeData α) = .ok (.v2 sets) ↔
      ∃ all n, List.Forall₂ BlockSet blocks all ∧ DropCount blocks n ∧ sets = all.drop n := by
  unfold updateAdobe
  dsimp only
  rw [hx]
  dsimp only
  rw [fold_document hd]
  constructor
  · intro h
    cases hf : (blocks.flatMap (fun b => b.1 :: b.2)).foldlM adobeStep { cur := none, done := [] } with
    | error e => rw [hf] at h; cases h
    | ok st =>
      rw [hf] at h
      injection h with h
      injection h with h
      obtain ⟨all, h1, h2⟩ := fold_blocks blocks hd.2.2 st hf
      obtain ⟨n, hn, -⟩ := dropCount_exists blocks
      exact ⟨all, n, h1, hn, by rw [← h, h2 n hn]⟩
  · rintro ⟨all, n, h1, h2, rfl⟩
    obtain ⟨st, hf⟩ := fold_blocks_ok blocks hd.2.2 all { cur := none, done := [] } h1
    rw [hf]
    obtain ⟨all', h3, h4⟩ := fold_blocks blocks hd.2.2 st hf
    dsimp only
    rw [h4 n h2, blocksAll_unique h1 h3]

/-- Every document has a decomposition into hint sets. -/
theorem C99_document (root : Xml) : ∃ pre blocks, Document root pre blocks := by
  have key : ∀ l : List Xml, ∃ (pre : List Xml) (blocks : List Block), l = pre ++ blocks.flatMap (fun b => b.1 :: b.2) ∧
      (∀ e ∈ pre, e.tag ≠ lit "hintset") ∧ ∀ b ∈ blocks, b.1.tag = lit "hintset" ∧ ∀ e ∈ b.2, e.tag ≠ lit "hintset" := by
    intro l
    induction l with
    | nil => exact ⟨[], [], rfl, by simp, by simp⟩
    | cons e l ih =>
      obtain ⟨pre, blocks, h1, h2, h3⟩ := ih
      by_cases he : e.tag = lit "hintset"
      · refine ⟨[], (e, pre) :: blocks, by rw [h1]; simp, by simp, ?_⟩
        intro b hb
        rcases List.mem_cons.1 hb with rfl | hb
        · exact ⟨he, h2⟩
        · exact h3 b hb
      · refine ⟨e :: pre, blocks, by rw [h1]; rfl, ?_, h3⟩
        intro x hx
        rcases List.mem_cons.1 hx with rfl | hx
        · exact he
        · exact h2 x hx
  obtain ⟨pre, blocks, h1, h2, h3⟩ := key root.iter
  exact ⟨pre, blocks, visits_one.2 h1.symm, h2, h3⟩

/-- If the list of hint sets is started only once, before the first hint set, nothing is dropped. -/
theorem C99_one_list {α : Type} (X : XmlOps) (s : PyStr) (root : Xml) (pre : List Xml) (blocks : List Block)
    (hx : X.fromstring s = some root) (hd : Document root pre blocks) (hr : ∀ b ∈ blocks, ¬ Resets b) (sets : List HintSetV2) :
    updateAdobe X (.text s : AdobeData α) = .ok (.v2 sets) ↔ List.Forall₂ BlockSet blocks sets := by
  have h0 : DropCount blocks 0 := ⟨fun b hb => hr b (List.mem_of_mem_drop hb), Or.inl rfl⟩
  rw [C99_convert X s root pre blocks hx hd]
  constructor
  · rintro ⟨all, n, h1, h2, rfl⟩
    rw [dropCount_unique h2 h0]
    exact h1
  · intro h
    exact ⟨sets, 0, h, h0, rfl⟩

theorem intText_dec (v : Int) : IntText (intDec v) v := by
  have hv : ∀ (l : PyStr) (a : Nat), (l ++ [a]).foldl (fun n c => 10 * n + (c - 48)) 0 =
      10 * l.foldl (fun n c => 10 * n + (c - 48)) 0 + (a - 48) := by
    intro l a; rw [List.foldl_append]; rfl
  have hval : ∀ f n, n < f → digitsVal (natDecAux f n) = n := by
    intro f
    induction f with
    | zero => intro n h; omega
    | succ f ih =>
      intro n h
      rw [natDecAux]
      by_cases h10 : n < 10
      · rw [if_pos h10]; unfold digitsVal; simp
      · rw [if_neg h10]
        have := ih (n / 10) (by omega)
        unfold digitsVal at this ⊢
        rw [hv, this]
        omega
  have hg : ∀ n : Nat, (∀ g ∈ [natDec n], g ≠ [] ∧ ∀ c ∈ g, 48 ≤ c ∧ c ≤ 57) := by
    intro n g hg
    rw [List.mem_singleton] at hg
    subst hg
    exact ⟨natDec_ne_nil n, natDec_digits n⟩
  have hfl : ∀ n : Nat, digitsVal [natDec n].flatten = n := by
    intro n; rw [List.flatten_singleton]; exact hval _ _ (by omega)
  have hin : ∀ n : Nat, (lit "_").intercalate [natDec n] = natDec n := by intro n; simp [List.intercalate]
  by_cases h0 : v < 0
  · refine ⟨[], lit "-", [natDec v.natAbs], [], by simp, by simp, Or.inr (Or.inr rfl), by simp, hg _, ?_, ?_⟩
    · unfold intDec; rw [if_pos h0, hin]; simp [lit]
    · rw [if_pos rfl, hfl]; omega
  · refine ⟨[], [], [natDec v.natAbs], [], by simp, by simp, Or.inl rfl, by simp, hg _, ?_, ?_⟩
    · unfold intDec; rw [if_neg h0, hin]; simp
    · rw [if_neg (by decide), hfl]; omega

theorem stemEl_tag (st : Bool × Int × Int) : (stemEl st).tag ≠ lit "hintset" ∧ (stemEl st).tag ≠ lit "hintSetList" ∧ IsStemTag (stemEl st) := by
  unfold stemEl IsStemTag Xml.tag
  have : ∀ b : Bool, (if b = true then lit "vstem" else lit "hstem") ≠ lit "hintset" ∧
      (if b = true then lit "vstem" else lit "hstem") ≠ lit "hintSetList" ∧
      ((if b = true then lit "vstem" else lit "hstem") = lit "hstem" ∨ (if b = true then lit "vstem" else lit "hstem") = lit "vstem") := by decide
  exact this st.1

theorem iter_stems (l : List (Bool × Int × Int)) : Xml.iterAll (l.map stemEl) = l.map stemEl := by
  induction l with
  | nil => rw [List.map_nil, Xml.iterAll]
  | cons st l ih => rw [List.map_cons, Xml.iterAll, ih]; unfold stemEl; rw [Xml.iter, Xml.iterAll]; rfl

theorem iter_sets (l : List (PyStr × List (Bool × Int × Int))) : Xml.iterAll (l.map setEl) =
    (l.map fun h => ((setEl h, h.2.map stemEl) : Block)).flatMap (fun b => b.1 :: b.2) := by
  induction l with
  | nil => rw [List.map_nil, Xml.iterAll]; rfl
  | cons h l ih =>
    rw [List.map_cons, Xml.iterAll, ih]
    conv_lhs => unfold setEl
    rw [Xml.iter, iter_stems]
    rfl

theorem docEl_document (top listAttrs : List (PyStr × PyStr)) (sets : List (PyStr × List (Bool × Int × Int))) :
    Document (docEl top listAttrs sets) [docEl top listAttrs sets, .el (lit "hintSetList") listAttrs (sets.map setEl)]
      (sets.map fun h => ((setEl h, h.2.map stemEl) : Block)) := by
  refine ⟨visits_one.2 ?_, ?_, ?_⟩
  · rw [← iter_sets]
    conv_rhs => unfold docEl
    rw [Xml.iter, Xml.iterAll, Xml.iterAll, Xml.iter, List.append_nil]
    rfl
  · intro e he
    rcases List.mem_cons.1 he with rfl | he
    · exact (by decide : lit "hintdata" ≠ lit "hintset")
    · rw [List.mem_singleton] at he
      subst he
      exact (by decide : lit "hintSetList" ≠ lit "hintset")
  · intro b hb
    obtain ⟨h, -, rfl⟩ := List.mem_map.1 hb
    refine ⟨rfl, ?_⟩
    intro e he
    obtain ⟨st, -, rfl⟩ := List.mem_map.1 he
    exact (stemEl_tag st).1

/-- A text in format 1 as Adobe's tools write it: one list with the hint sets as its children, whose children are the stems. -/
theorem C99_format1 {α : Type} (X : XmlOps) (s : PyStr) (top listAttrs : List (PyStr × PyStr))
    (sets : List (PyStr × List (Bool × Int × Int))) (hx : X.fromstring s = some (docEl top listAttrs sets))
    (hp : ∀ h ∈ sets, ∀ st ∈ h.2, 0 ≤ st.2.2 ∨ IsGhost st.2.2) :
    updateAdobe X (.text s : AdobeData α) = .ok (.v2 (sets.map fun h => (h.1, h.2.map fun st =>
      (if st.1 then lit "vstem" else lit "hstem") ++ lit " " ++ intDec st.2.1 ++ lit " " ++ intDec st.2.2))) := by
  refine (C99_one_list X s _ _ _ hx (docEl_document top listAttrs sets) ?_ _).2 ?_
  · intro b hb
    obtain ⟨h, -, rfl⟩ := List.mem_map.1 hb
    rintro ⟨e, he, he'⟩
    obtain ⟨st, -, rfl⟩ := List.mem_map.1 he
    exact (stemEl_tag st).2.1 he'
  · have hf : ∀ l : List (Bool × Int × Int), (∀ st ∈ l, 0 ≤ st.2.2 ∨ IsGhost st.2.2) →
        List.Forall₂ StemText ((l.map stemEl).filter (fun e => decide (IsStemTag e)))
          (l.map fun st => (if st.1 then lit "vstem" else lit "hstem") ++ lit " " ++ intDec st.2.1 ++ lit " " ++ intDec st.2.2) := by
      intro l hl
      induction l with
      | nil => exact List.Forall₂.nil
      | cons st l ih =>
        rw [List.map_cons, List.map_cons, List.filter_cons_of_pos (by simpa using (stemEl_tag st).2.2)]
        refine List.Forall₂.cons ?_ (ih (fun x hx => hl x (List.mem_cons_of_mem _ hx)))
        refine ⟨st.2.1, st.2.2, st.2.1, st.2.2, ⟨intDec st.2.1, intDec st.2.2, ?_, intText_dec _, ?_, intText_dec _⟩, rfl, rfl, fun _ => ⟨rfl, rfl⟩, ?_⟩
        · rfl
        · rfl
        · intro hg
          rcases hl st (List.mem_cons_self ..) with h | h
          · exact h
          · exact absurd h hg
    clear hx
    induction sets with
    | nil => exact List.Forall₂.nil
    | cons h l ih =>
      exact List.Forall₂.cons ⟨rfl, hf h.2 (hp h (List.mem_cons_self ..))⟩ (ih (fun x hx => hp x (List.mem_cons_of_mem _ hx)))

/-! ### failures -/

theorem stemOf_err {e : Xml} {x : PyErr} (h : stemOf e = .error x) :
    (x = .key ∧ ∃ k, (k = lit "pos" ∨ k = lit "width") ∧ dictGet e.attrs k = none) ∨
    (x = .value ∧ ∃ k t, (k = lit "pos" ∨ k = lit "width") ∧ dictGet e.attrs k = some t ∧ ∀ v, ¬ IntText t v) := by
  have hno : ∀ {t : PyStr} {y : PyErr}, pyInt t = .error y → y = .value ∧ ∀ v, ¬ IntText t v := by
    intro t y hy
    refine ⟨pyInt_err _ _ hy, fun v hv => ?_⟩
    rw [(pyInt_iff _ _).2 hv] at hy
    cases hy
  unfold stemOf at h
  cases h1 : e.attr (lit "pos") with
  | error y =>
    rw [h1] at h
    have : y = x := by injection h
    subst this
    exact Or.inl ⟨(attr_err h1).1, _, Or.inl rfl, (attr_err h1).2⟩
  | ok ps =>
    rw [h1] at h
    cases h2 : pyInt ps with
    | error y =>
      simp [h2, bind, Except.bind] at h
      subst h
      exact Or.inr ⟨(hno h2).1, _, ps, Or.inl rfl, attr_ok.1 h1, (hno h2).2⟩
    | ok p =>
      cases h3 : e.attr (lit "width") with
      | error y =>
        simp [h2, h3, bind, Except.bind] at h
        subst h
        exact Or.inl ⟨(attr_err h3).1, _, Or.inr rfl, (attr_err h3).2⟩
      | ok ws =>
        cases h4 : pyInt ws with
        | error y =>
          simp [h2, h3, h4, bind, Except.bind] at h
          subst h
          exact Or.inr ⟨(hno h4).1, _, ws, Or.inr rfl, attr_ok.1 h3, (hno h4).2⟩
        | ok w => simp [h2, h3, h4, bind, Except.bind, pure, Except.pure] at h

theorem step_err {st : AdobeState} {e : Xml} {x : PyErr} (h : adobeStep st e = .error x) :
    (x = .key ∧ ((e.tag = lit "hintset" ∧ dictGet e.attrs (lit "pointTag") = none) ∨
      IsStemTag e ∧ ∃ k, (k = lit "pos" ∨ k = lit "width") ∧ dictGet e.attrs k = none)) ∨
    (x = .value ∧ IsStemTag e ∧ ∃ k t, (k = lit "pos" ∨ k = lit "width") ∧ dictGet e.attrs k = some t ∧ ∀ v, ¬ IntText t v) := by
  by_cases ht : e.tag = lit "hintset"
  · unfold adobeStep at h
    rw [if_neg (by rw [ht]; exact fun h => tags_distinct.1 h.symm), if_pos ht] at h
    cases ha : e.attr (lit "pointTag") with
    | error y =>
      rw [ha] at h
      have : y = x := by injection h
      subst this
      exact Or.inl ⟨(attr_err ha).1, Or.inl ⟨ht, (attr_err ha).2⟩⟩
    | ok t => rw [ha] at h; cases h
  · obtain ⟨cur, done⟩ := st
    cases cur with
    | none =>
      unfold adobeStep at h
      rw [if_neg ht] at h
      split at h
      · cases h
      · split at h <;> cases h
    | some c =>
      obtain ⟨tag, stems⟩ := c
      rw [step_body tag stems done e ht] at h
      by_cases hs : IsStemTag e
      · rw [if_pos hs] at h
        cases hst : stemOf e with
        | ok t => rw [hst] at h; cases h
        | error y =>
          rw [hst] at h
          have : y = x := by injection h
          subst this
          rcases stemOf_err hst with ⟨h1, h2⟩ | ⟨h1, h2⟩
          · exact Or.inl ⟨h1, Or.inr ⟨hs, h2⟩⟩
          · exact Or.inr ⟨h1, hs, h2⟩
      · rw [if_neg hs] at h; cases h

/-- The conversion of a text fails exactly if it is no XML, or a hint set has no "pointTag", or a stem in a hint set has not got
two whole numbers "pos" and "width".  (This includes hint sets that would be dropped, but not stems before the first one.) -/
theorem C99_fails {α : Type} (X : XmlOps) (s : PyStr) (root : Xml) (pre : List Xml) (blocks : List Block)
    (hx : X.fromstring s = some root) (hd : Document root pre blocks) :
    (∃ e, updateAdobe X (.text s : AdobeData α) = .error e) ↔
      ∃ b ∈ blocks, dictGet b.1.attrs (lit "pointTag") = none ∨ ∃ e ∈ b.2, IsStemTag e ∧ ∀ p w, ¬ StemNumbers e p w := by
  have hok : (∃ sets, updateAdobe X (.text s : AdobeData α) = .ok (.v2 sets)) ↔ ∃ all, List.Forall₂ BlockSet blocks all := by
    constructor
    · rintro ⟨sets, h⟩
      obtain ⟨all, n, h1, -⟩ := (C99_convert X s root pre blocks hx hd sets).1 h
      exact ⟨all, h1⟩
    · rintro ⟨all, h⟩
      obtain ⟨n, hn, -⟩ := dropCount_exists blocks
      exact ⟨_, (C99_convert X s root pre blocks hx hd _).2 ⟨all, n, h, hn, rfl⟩⟩
  have hshape : ∀ r, updateAdobe X (.text s : AdobeData α) = .ok r → ∃ sets, r = .v2 sets := by
    intro r h
    unfold updateAdobe at h
    dsimp only at h
    rw [hx] at h
    dsimp only at h
    split at h
    · cases h
    · injection h with h
      exact ⟨_, h.symm⟩
  have hbad : (∃ e, updateAdobe X (.text s : AdobeData α) = .error e) ↔ ¬ ∃ all, List.Forall₂ BlockSet blocks all := by
    rw [← hok]
    cases hu : updateAdobe X (.text s : AdobeData α) with
    | error e => simp
    | ok r =>
      obtain ⟨sets, rfl⟩ := hshape r hu
      simp
  rw [hbad]
  clear hbad hok hshape hd
  have hstems : ∀ l : List Xml, (∃ texts, List.Forall₂ StemText (l.filter (fun e => decide (IsStemTag e))) texts) ↔
      ¬ ∃ e ∈ l, IsStemTag e ∧ ∀ p w, ¬ StemNumbers e p w := by
    intro l
    induction l with
    | nil => exact ⟨fun _ => by simp, fun _ => ⟨[], List.Forall₂.nil⟩⟩
    | cons e l ih =>
      by_cases hs : IsStemTag e
      · rw [List.filter_cons_of_pos (by simpa using hs)]
        constructor
        · rintro ⟨texts, h⟩ ⟨y, hy, hy1, hy2⟩
          cases h with
          | cons h1 h2 =>
            rcases List.mem_cons.1 hy with rfl | hy
            · obtain ⟨p, w, -, -, h3, -⟩ := h1
              exact hy2 p w h3
            · exact ih.1 ⟨_, h2⟩ ⟨y, hy, hy1, hy2⟩
        · intro h
          have hn : ∃ p w, StemNumbers e p w := by
            apply Classical.byContradiction
            intro hn
            exact h ⟨e, List.mem_cons_self .., hs, fun p w hpw => hn ⟨p, w, hpw⟩⟩
          obtain ⟨p, w, hpw⟩ := hn
          obtain ⟨texts, ht⟩ := ih.2 (fun ⟨y, hy, hy'⟩ => h ⟨y, List.mem_cons_of_mem _ hy, hy'⟩)
          exact ⟨_ :: texts, List.Forall₂.cons (stemOf_iff.1 (stemOf_numbers.2 ⟨p, w, hpw, rfl⟩)) ht⟩
      · rw [List.filter_cons_of_neg (by simpa using hs), ih]
        constructor
        · rintro h ⟨y, hy, hy1, hy2⟩
          rcases List.mem_cons.1 hy with rfl | hy
          · exact hs hy1
          · exact h ⟨y, hy, hy1, hy2⟩
        · rintro h ⟨y, hy, hy'⟩
          exact h ⟨y, List.mem_cons_of_mem _ hy, hy'⟩
  induction blocks with
  | nil => simp only [List.not_mem_nil, false_and, exists_false, iff_false, not_not]; exact ⟨[], List.Forall₂.nil⟩
  | cons b bs ih =>
    constructor
    · intro h
      by_cases h1 : dictGet b.1.attrs (lit "pointTag") = none ∨ ∃ e ∈ b.2, IsStemTag e ∧ ∀ p w, ¬ StemNumbers e p w
      · exact ⟨b, List.mem_cons_self .., h1⟩
      · rw [not_or] at h1
        obtain ⟨texts, ht⟩ := (hstems b.2).2 h1.2
        cases hp : dictGet b.1.attrs (lit "pointTag") with
        | none => exact absurd hp h1.1
        | some tag =>
          obtain ⟨y, hy, hy'⟩ := ih.1 (fun ⟨all, hall⟩ => h ⟨(tag, texts) :: all, List.Forall₂.cons ⟨hp, ht⟩ hall⟩)
          exact ⟨y, List.mem_cons_of_mem _ hy, hy'⟩
    · rintro ⟨y, hy, hy'⟩ ⟨all, hall⟩
      cases hall with
      | cons h1 h2 =>
        rcases List.mem_cons.1 hy with rfl | hy
        · rcases hy' with h3 | h3
          · rw [h1.1] at h3; cases h3
          · exact (hstems _).1 ⟨_, h1.2⟩ h3
        · exact ih.2 ⟨y, hy, hy'⟩ ⟨_, h2⟩

/-- The exceptions: the error of the XML parser for a text that is no XML; UnicodeDecodeError for bytes that are no text; KeyError only if
an attribute is missing, ValueError only if a number is none. -/
theorem C99_errors {α : Type} (X : XmlOps) (s : PyStr) :
    (updateAdobe X (.text s : AdobeData α) = .error .parse ↔ X.fromstring s = none) ∧
    (∀ b, X.decode b = none → updateAdobe X (.bytes b : AdobeData α) = .error (.py .unicode)) ∧
    (∀ root x, X.fromstring s = some root → updateAdobe X (.text s : AdobeData α) = .error (.py x) →
      ∃ els e, Visits [root] els ∧ e ∈ els ∧
        ((x = .key ∧ ((e.tag = lit "hintset" ∧ dictGet e.attrs (lit "pointTag") = none) ∨
          IsStemTag e ∧ ∃ k, (k = lit "pos" ∨ k = lit "width") ∧ dictGet e.attrs k = none)) ∨
        (x = .value ∧ IsStemTag e ∧ ∃ k t, (k = lit "pos" ∨ k = lit "width") ∧ dictGet e.attrs k = some t ∧ ∀ v, ¬ IntText t v))) := by
  refine ⟨?_, ?_, ?_⟩
  · unfold updateAdobe
    dsimp only
    cases X.fromstring s with
    | none => simp
    | some root =>
      dsimp only
      split <;> simp
  · intro b hb
    unfold updateAdobe
    dsimp only
    rw [hb]
  · intro root x hx h
    refine ⟨root.iter, ?_⟩
    have key : ∀ (l : List Xml) (st : AdobeState), l.foldlM adobeStep st = .error x → ∃ e ∈ l, ∃ st', adobeStep st' e = .error x := by
      intro l
      induction l with
      | nil => intro st h; cases h
      | cons e l ih =>
        intro st h
        rw [List.foldlM_cons] at h
        cases hs : adobeStep st e with
        | error y =>
          rw [hs] at h
          have : y = x := by injection h
          subst this
          exact ⟨e, List.mem_cons_self .., st, hs⟩
        | ok st' =>
          rw [hs] at h
          obtain ⟨y, hy, hy'⟩ := ih st' h
          exact ⟨y, List.mem_cons_of_mem _ hy, hy'⟩
    unfold updateAdobe at h
    dsimp only at h
    rw [hx] at h
    dsimp only at h
    cases hf : root.iter.foldlM adobeStep { cur := none, done := [] } with
    | ok st => rw [hf] at h; cases h
    | error y =>
      rw [hf] at h
      injection h with h
      injection h with h
      subst h
      obtain ⟨e, he, st', hst⟩ := key _ _ hf
      exact ⟨e, visits_one.2 rfl, he, step_err hst⟩

/-- Bytes are converted as the text that they encode; data that is neither bytes nor text is returned as it is, so that converting a
second time changes nothing. -/
theorem C99_other {α : Type} (X : XmlOps) :
    (∀ b s, X.decode b = some s → updateAdobe X (.bytes b : AdobeData α) = updateAdobe X (.text s)) ∧
    (∀ a : α, updateAdobe X (.other a) = .ok (.other a)) ∧
    (∀ sets, updateAdobe X (.v2 sets : AdobeData α) = .ok (.v2 sets)) ∧
    (∀ d r : AdobeData α, updateAdobe X d = .ok r → updateAdobe X r = .ok r) := by
  have htext : ∀ s (r : AdobeData α), updateAdobe X (.text s : AdobeData α) = .ok r → ∃ sets, r = .v2 sets := by
    intro s r h
    unfold updateAdobe at h
    dsimp only at h
    split at h
    · cases h
    · split at h
      · cases h
      · injection h with h
        exact ⟨_, h.symm⟩
  have hbytes : ∀ b s, X.decode b = some s → updateAdobe X (.bytes b : AdobeData α) = updateAdobe X (.text s) := by
    intro b s h
    unfold updateAdobe
    dsimp only
    rw [h]
  refine ⟨hbytes, fun a => rfl, fun sets => rfl, ?_⟩
  intro d r h
  cases d with
  | bytes b =>
    cases hb : X.decode b with
    | none => unfold updateAdobe at h; dsimp only at h; rw [hb] at h; cases h
    | some s =>
      rw [hbytes b s hb] at h
      obtain ⟨sets, rfl⟩ := htext s r h
      rfl
  | text s =>
    obtain ⟨sets, rfl⟩ := htext s r h
    rfl
  | v2 sets => injection h with h; subst h; rfl
  | other a => injection h with h; subst h; rfl

/-! ### examples -/

/-- a parser that only knows one document -/
def exampleXml (root : Xml) : XmlOps := { decode := fun _ => none, fromstring := fun s => if s = lit "x" then some root else none }

/-- the second test of the project, shortened: two hint sets; negative widths and ghost hints -/
example : updateAdobe (exampleXml (docEl [] [] [(lit "at01", [(false, 0, 50), (true, -12, 51)]), (lit "sv03", [(false, 700, -20)])]))
    (.text (lit "x") : AdobeData Unit) = .ok (.v2 [(lit "at01", [lit "hstem 0 50", lit "vstem -12 51"]), (lit "sv03", [lit "hstem 700 -20"])]) :=
  C99_format1 _ _ [] [] [(lit "at01", [(false, 0, 50), (true, -12, 51)]), (lit "sv03", [(false, 700, -20)])] rfl
    (by unfold IsGhost; decide)

/-- no hint sets: an empty dictionary -/
example : updateAdobe (exampleXml (docEl [] [] [])) (.text (lit "x") : AdobeData Unit) = .ok (.v2 []) := C99_format1 _ _ [] [] [] rfl (by simp)

theorem exampleTwoLists_document : Document
    (.el (lit "a") [] [.el (lit "hstem") [] [], setEl (lit "p", [(true, 1, -5)]), setEl (lit "q", []), .el (lit "hintSetList") [] [],
      setEl (lit "r", [])])
    [.el (lit "a") [] [.el (lit "hstem") [] [], setEl (lit "p", [(true, 1, -5)]), setEl (lit "q", []), .el (lit "hintSetList") [] [],
      setEl (lit "r", [])], .el (lit "hstem") [] []]
    [(setEl (lit "p", [(true, 1, -5)]), [stemEl (true, 1, -5)]), (setEl (lit "q", []), [.el (lit "hintSetList") [] []]), (setEl (lit "r", []), [])] := by
  refine ⟨visits_one.2 ?_, ?_, ?_⟩
  · simp [Xml.iter, Xml.iterAll, setEl, stemEl]
  · decide
  · decide

/-- A second list: the hint sets before the last one of the first list are lost (a stem before the first hint set does not matter). -/
example : updateAdobe (exampleXml (.el (lit "a") [] [.el (lit "hstem") [] [], setEl (lit "p", [(true, 1, -5)]), setEl (lit "q", []),
      .el (lit "hintSetList") [] [], setEl (lit "r", [])])) (.text (lit "x") : AdobeData Unit) = .ok (.v2 [(lit "q", []), (lit "r", [])]) := by
  refine (C99_convert _ _ _ _ _ rfl exampleTwoLists_document _).2 ⟨[(lit "p", [lit "vstem -4 5"]), (lit "q", []), (lit "r", [])], 1, ?_, ?_, rfl⟩
  · refine List.Forall₂.cons ⟨rfl, ?_⟩ (List.Forall₂.cons ⟨rfl, List.Forall₂.nil⟩ (List.Forall₂.cons ⟨rfl, List.Forall₂.nil⟩ List.Forall₂.nil))
    refine List.Forall₂.cons ?_ List.Forall₂.nil
    exact ⟨1, -5, -4, 5, ⟨_, _, rfl, intText_dec 1, rfl, intText_dec (-5)⟩, by decide, by decide, (by unfold IsGhost; decide), (by unfold IsGhost; decide)⟩
  · refine ⟨?_, Or.inr ⟨_, rfl, ⟨_, List.mem_singleton.2 rfl, rfl⟩⟩⟩
    intro b hb
    simp only [List.drop_succ_cons, List.drop_zero, List.mem_singleton] at hb
    subst hb
    rintro ⟨e, he, -⟩
    cases he

/-- a hint set without point -/
example : ∃ e, updateAdobe (exampleXml (.el (lit "hintset") [] [])) (.text (lit "x") : AdobeData Unit) = .error e :=
  (C99_fails _ _ (.el (lit "hintset") [] []) [] [((.el (lit "hintset") [] []), [])] rfl
    ⟨visits_one.2 (by simp [Xml.iter, Xml.iterAll]), by decide, by decide⟩).2 ⟨_, List.mem_singleton.2 rfl, Or.inl rfl⟩

example : IntText (lit " +1_000 ") 1000 := by
  refine ⟨lit " ", lit "+", [lit "1", lit "000"], lit " ", by decide, by decide, by decide, by decide, by decide, by decide, by decide⟩

example : pyInt (lit "1__0") = .error .value ∧ pyInt (lit "") = .error .value ∧ pyInt (lit "12.5") = .error .value ∧ pyInt (lit "-7") = .ok (-7) := by
  decide

end Verif.Props
