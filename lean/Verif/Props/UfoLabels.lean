import Verif.Spec.UfoLabels
import Verif.Lemmas.Dict
import Verif.Lemmas.Dec
/-! C52: point labels are unique and stable. -/
set_option autoImplicit false
namespace Verif.Props
open Verif Verif.Spec

theorem pad2_inj {i j : Nat} (h : pad2 i = pad2 j) : i = j := by
  unfold pad2 at h
  by_cases hi : i < 10 <;> by_cases hj : j < 10
  · rw [if_pos hi, if_pos hj] at h
    exact natDec_inj (List.cons.inj h).2
  · rw [if_pos hi, if_neg hj] at h
    obtain ⟨c, l, hc, hl⟩ := natDec_head j (by omega)
    rw [hc] at h
    have := (List.cons.inj h).1; omega
  · rw [if_neg hi, if_pos hj] at h
    obtain ⟨c, l, hc, hl⟩ := natDec_head i (by omega)
    rw [hc] at h
    have := (List.cons.inj h).1; omega
  · rw [if_neg hi, if_neg hj] at h
    exact natDec_inj h

theorem pad2_digits (n : Nat) : ∀ c ∈ pad2 n, 48 ≤ c ∧ c ≤ 57 := by
  unfold pad2
  split
  · intro c hc
    rcases List.mem_cons.1 hc with h | h
    · omega
    · exact natDec_digits n c h
  · exact natDec_digits n

/-- a label made by `get_point_label`: one of the codes and a number -/
def IsLabel (l : PyStr) : Prop := ∃ code short k, dictGet labelCodes code = some short ∧ l = short ++ pad2 k

theorem codes_shape : ∀ x ∈ labelCodes, ∃ a b, x.2 = [a, b] ∧ 97 ≤ a ∧ 97 ≤ b := by
  have h : ∀ x ∈ labelCodes, x.2.length = 2 ∧ ∀ c ∈ x.2, 97 ≤ c := by decide +kernel
  intro x hx
  obtain ⟨h1, h2⟩ := h x hx
  match hl : x.2, h1 with
  | [a, b], _ => rw [hl] at h2; exact ⟨a, b, rfl, h2 a (by simp), h2 b (by simp)⟩

theorem IsLabel.shape {l : PyStr} (h : IsLabel l) :
    ∃ a b d r, l = a :: b :: d :: r ∧ 97 ≤ a ∧ 97 ≤ b ∧ d ≤ 57 ∧ ∀ c ∈ d :: r, 48 ≤ c ∧ c ≤ 57 := by
  obtain ⟨code, short, k, h1, rfl⟩ := h
  obtain ⟨a, b, h2, h3, h4⟩ := codes_shape _ (dictGet_some_mem h1)
  simp only at h2
  have hd := pad2_digits k
  match hp : pad2 k with
  | [] => unfold pad2 at hp; split at hp; · cases hp
          · exact absurd hp (natDec_ne_nil k)
  | d :: r =>
    rw [hp] at hd
    exact ⟨a, b, d, r, by rw [h2]; rfl, h3, h4, (hd d (by simp)).2, hd⟩

theorem IsLabel.ne_lsb {l : PyStr} (h : IsLabel l) : l ≠ lit "lsb" := by
  obtain ⟨a, b, d, r, rfl, _, _, h1, _⟩ := h.shape
  intro h2
  have h3 : lit "lsb" = [108, 115, 98] := by decide
  rw [h3] at h2
  simp only [List.cons.injEq] at h2
  omega

theorem IsLabel.ne_rsb {l : PyStr} (h : IsLabel l) : l ≠ lit "rsb" := by
  obtain ⟨a, b, d, r, rfl, _, _, h1, _⟩ := h.shape
  intro h2
  have h3 : lit "rsb" = [114, 115, 98] := by decide
  rw [h3] at h2
  simp only [List.cons.injEq] at h2
  omega

theorem IsLabel.not_invalid {l : PyStr} (h : IsLabel l) : ¬ IsInvalid l := by
  obtain ⟨a, b, d, r, rfl, _, _, h1, _⟩ := h.shape
  rintro ⟨q, h2⟩
  have h3 : lit "invalid" = [105, 110, 118, 97, 108, 105, 100] := by decide
  rw [h3] at h2
  simp only [List.cons_append, List.cons.injEq] at h2
  omega

theorem IsLabel.no_dash {l : PyStr} (h : IsLabel l) : 45 ∉ l := by
  obtain ⟨a, b, d, r, rfl, h1, h2, _, h3⟩ := h.shape
  intro hm
  simp only [List.mem_cons] at hm
  rcases hm with hm | hm | hm | hm
  · omega
  · omega
  · have := h3 d (by simp); omega
  · have := h3 45 (by simp [hm]); omega

/-- a suffix without the separator can be split off in one way only -/
theorem split_last {a a' d d' : PyStr} (h : a ++ 45 :: d = a' ++ 45 :: d') (hd : 45 ∉ d) (hd' : 45 ∉ d') :
    a = a' ∧ d = d' := by
  rcases List.append_eq_append_iff.1 h with ⟨c, h1, h2⟩ | ⟨c, h1, h2⟩
  · cases c with
    | nil =>
      simp only [List.append_nil, List.nil_append, List.cons.injEq, true_and] at h1 h2
      exact ⟨h1.symm, h2⟩
    | cons x c =>
      simp only [List.cons_append, List.cons.injEq] at h2
      exact absurd (by rw [h2.2]; simp) hd
  · cases c with
    | nil =>
      simp only [List.append_nil, List.nil_append, List.cons.injEq, true_and] at h1 h2
      exact ⟨h1, h2.symm⟩
    | cons x c =>
      simp only [List.cons_append, List.cons.injEq] at h2
      exact absurd (by rw [h2.2]; simp) hd'

theorem natDec_no_dash (n : Nat) : 45 ∉ natDec n := fun h => by have := natDec_digits n 45 h; omega

theorem suffix_inj {l l' : PyStr} {i j : Nat} (h : l ++ lit "-" ++ natDec i = l' ++ lit "-" ++ natDec j) :
    l = l' ∧ i = j := by
  have h3 : lit "-" = [45] := by decide
  rw [h3] at h
  simp only [List.append_assoc, List.cons_append, List.nil_append] at h
  obtain ⟨h1, h2⟩ := split_last h (natDec_no_dash i) (natDec_no_dash j)
  exact ⟨h1, natDec_inj h2⟩

/-! ### The search -/

/-- the search finds the first free number from `start` on -/
theorem labelSearch_spec (labels : List (PyStr × Int)) (short : PyStr) (fuel i : Nat) :
    (∃ k, i ≤ k ∧ labelSearch labels short fuel i = .ok (short ++ pad2 k) ∧ dictGet labels (short ++ pad2 k) = none ∧
      ∀ j, i ≤ j → j < k → (dictGet labels (short ++ pad2 j)).isSome) ∨
    (labelSearch labels short fuel i = .error .fuel ∧ ∀ j, j < fuel → short ++ pad2 (i + j) ∈ labels.map Prod.fst) := by
  induction fuel generalizing i with
  | zero => exact .inr ⟨rfl, by intro j hj; omega⟩
  | succ fuel ih =>
    rw [labelSearch]
    cases hd : dictGet labels (short ++ pad2 i) with
    | none => exact .inl ⟨i, Nat.le_refl _, rfl, hd, by intro j h1 h2; omega⟩
    | some v =>
      simp only [Option.isSome_some, if_true]
      rcases ih (i + 1) with ⟨k, h1, h2, h3, h4⟩ | ⟨h1, h2⟩
      · refine .inl ⟨k, by omega, h2, h3, ?_⟩
        intro j h5 h6
        by_cases hj : j = i
        · rw [hj, hd]; rfl
        · exact h4 j (by omega) h6
      · refine .inr ⟨h1, ?_⟩
        intro j hj
        cases j with
        | zero => exact List.mem_map.2 ⟨_, dictGet_some_mem hd, rfl⟩
        | succ j => have := h2 j (by omega); rwa [show i + 1 + j = i + (j + 1) by omega] at this

theorem labelSearch_ok (labels : List (PyStr × Int)) (short : PyStr) (i : Nat) :
    ∃ k, i ≤ k ∧ labelSearch labels short (labels.length + 1) i = .ok (short ++ pad2 k) ∧
      dictGet labels (short ++ pad2 k) = none ∧
      ∀ j, i ≤ j → j < k → (dictGet labels (short ++ pad2 j)).isSome := by
  rcases labelSearch_spec labels short (labels.length + 1) i with h | ⟨_, h⟩
  · exact h
  · exfalso
    have hl := length_le_of_subset ((List.range (labels.length + 1)).map fun j => short ++ pad2 (i + j)) (labels.map Prod.fst) (by
      refine List.Pairwise.map _ ?_ List.nodup_range
      intro a b hne hab
      have := pad2_inj (List.append_cancel_left hab)
      omega) (by
      intro x hx
      obtain ⟨j, hj, rfl⟩ := List.mem_map.1 hx
      exact h j (List.mem_range.1 hj))
    simp at hl
    omega

/-! ### The invariant of a glyph -/

/-- what holds of the labels of a glyph at any time -/
structure GoodGlyph (g : LabelGlyph) : Prop where
  inv : ∀ i l, dictGet g.pointLabels i = some l → dictGet g.labels l = some i
  shape : ∀ i l, dictGet g.pointLabels i = some l → IsLabel l
  special : ∀ i l, dictGet g.pointLabels i = some l → i ≠ g.numNodes ∧ i ≠ g.numNodes + 1

/-- `g'` is a later state of the glyph `g` -/
structure GlyphExt (g g' : LabelGlyph) : Prop where
  nodes : g'.numNodes = g.numNodes
  gids : g'.gids = g.gids
  labels : ∀ i l, dictGet g.pointLabels i = some l → dictGet g'.pointLabels i = some l

theorem GlyphExt.refl (g : LabelGlyph) : GlyphExt g g := ⟨rfl, rfl, fun _ _ h => h⟩
theorem GlyphExt.trans {a b c : LabelGlyph} (h : GlyphExt a b) (h' : GlyphExt b c) : GlyphExt a c :=
  ⟨h'.nodes.trans h.nodes, h'.gids.trans h.gids, fun i l hl => h'.labels i l (h.labels i l hl)⟩

/-- the label of a point of a glyph without components -/
def Labelled (g : LabelGlyph) (i : Int) (l : PyStr) : Prop :=
  dictGet g.pointLabels i = some l ∨ (i = g.numNodes ∧ l = lit "lsb") ∨ (i = g.numNodes + 1 ∧ l = lit "rsb")

theorem Labelled.mono {g g' : LabelGlyph} (he : GlyphExt g g') {i : Int} {l : PyStr} (h : Labelled g i l) : Labelled g' i l := by
  rcases h with h | h | h
  · exact .inl (he.labels i l h)
  · exact .inr (.inl (by rw [he.nodes]; exact h))
  · exact .inr (.inr (by rw [he.nodes]; exact h))

theorem Labelled.det {g : LabelGlyph} (hg : GoodGlyph g) {i : Int} {l m : PyStr} (h : Labelled g i l) (h' : Labelled g i m) : l = m := by
  rcases h with h | h | h <;> rcases h' with h' | h' | h'
  · rw [h] at h'; exact Option.some.inj h'
  · have := hg.special i l h; omega
  · have := hg.special i l h; omega
  · have := hg.special i m h'; omega
  · rw [h.2, h'.2]
  · omega
  · have := hg.special i m h'; omega
  · omega
  · rw [h.2, h'.2]

theorem Labelled.inj {g : LabelGlyph} (hg : GoodGlyph g) {i j : Int} {l : PyStr} (h : Labelled g i l) (h' : Labelled g j l) : i = j := by
  rcases h with h | h | h <;> rcases h' with h' | h' | h'
  · have h1 := hg.inv i l h
    rw [hg.inv j l h'] at h1; exact (Option.some.inj h1).symm
  · exact absurd h'.2 (hg.shape i l h).ne_lsb
  · exact absurd h'.2 (hg.shape i l h).ne_rsb
  · exact absurd h.2 (hg.shape j l h').ne_lsb
  · omega
  · have h1 := h.2.symm.trans h'.2; exact absurd h1 (by decide)
  · exact absurd h.2 (hg.shape j l h').ne_rsb
  · have h1 := h.2.symm.trans h'.2; exact absurd h1 (by decide)
  · omega

theorem Labelled.not_invalid {g : LabelGlyph} (hg : GoodGlyph g) {i : Int} {l : PyStr} (h : Labelled g i l) : ¬ IsInvalid l := by
  have h3 : lit "invalid" = [105, 110, 118, 97, 108, 105, 100] := by decide
  rcases h with h | h | h
  · exact (hg.shape i l h).not_invalid
  · rw [h.2]; rintro ⟨r, hr⟩
    rw [h3, show lit "lsb" = [108, 115, 98] by decide] at hr
    simp at hr
  · rw [h.2]; rintro ⟨r, hr⟩
    rw [h3, show lit "rsb" = [114, 115, 98] by decide] at hr
    simp at hr

/-- one call on a glyph without components -/
theorem pointLabel_spec {g g' : LabelGlyph} (hg : GoodGlyph g) {i : Int} {code l : PyStr} {start : Nat}
    (h : g.pointLabel i code start = .ok (l, g')) : GoodGlyph g' ∧ GlyphExt g g' ∧ Labelled g' i l := by
  unfold LabelGlyph.pointLabel at h
  cases hd : dictGet g.pointLabels i with
  | some m =>
    rw [hd] at h
    simp only [Except.ok.injEq, Prod.mk.injEq] at h
    obtain ⟨rfl, rfl⟩ := h
    exact ⟨hg, .refl _, .inl hd⟩
  | none =>
    rw [hd] at h
    simp only at h
    by_cases h1 : i = g.numNodes
    · rw [if_pos h1] at h
      simp only [Except.ok.injEq, Prod.mk.injEq] at h
      obtain ⟨rfl, rfl⟩ := h
      exact ⟨hg, .refl _, .inr (.inl ⟨h1, rfl⟩)⟩
    · rw [if_neg h1] at h
      by_cases h2 : i = g.numNodes + 1
      · rw [if_pos h2] at h
        simp only [Except.ok.injEq, Prod.mk.injEq] at h
        obtain ⟨rfl, rfl⟩ := h
        exact ⟨hg, .refl _, .inr (.inr ⟨h2, rfl⟩)⟩
      · rw [if_neg h2] at h
        cases hc : dictGet labelCodes code with
        | none => rw [hc] at h; cases h
        | some short =>
          rw [hc] at h
          obtain ⟨k, _, h4, h5, _⟩ := labelSearch_ok g.labels short start
          simp only [h4] at h
          simp only [Except.ok.injEq, Prod.mk.injEq] at h
          obtain ⟨rfl, rfl⟩ := h
          refine ⟨⟨?_, ?_, ?_⟩, ⟨rfl, rfl, ?_⟩, .inl (by simp only [dictGet_dictSet, if_true])⟩
          · intro j m hj
            simp only [dictGet_dictSet] at hj ⊢
            by_cases hji : i = j
            · rw [if_pos hji] at hj
              rw [if_pos (Option.some.inj hj), hji]
            · rw [if_neg hji] at hj
              have h6 := hg.inv j m hj
              by_cases hm : short ++ pad2 k = m
              · rw [hm] at h5; rw [h5] at h6; cases h6
              · rw [if_neg hm]; exact h6
          · intro j m hj
            simp only [dictGet_dictSet] at hj
            by_cases hji : i = j
            · rw [if_pos hji] at hj
              exact ⟨code, short, k, hc, (Option.some.inj hj).symm⟩
            · rw [if_neg hji] at hj; exact hg.shape j m hj
          · intro j m hj
            simp only [dictGet_dictSet] at hj
            by_cases hji : i = j
            · rw [← hji]; exact ⟨h1, h2⟩
            · rw [if_neg hji] at hj; exact hg.special j m hj
          · intro j m hj
            simp only [dictGet_dictSet]
            by_cases hji : i = j
            · rw [← hji, hd] at hj; cases hj
            · rw [if_neg hji]; exact hj

/-! ### The invariant of the font -/

def GoodFont (f : LabelFont) : Prop := ∀ name g, dictGet f.glyphs name = some g → GoodGlyph g

/-- `f'` is a later state of the font `f` -/
structure FontExt (f f' : LabelFont) : Prop where
  order : f'.order = f.order
  none : ∀ name, dictGet f.glyphs name = none → dictGet f'.glyphs name = none
  some : ∀ name g, dictGet f.glyphs name = some g → ∃ g', dictGet f'.glyphs name = some g' ∧ GlyphExt g g'

theorem FontExt.refl (f : LabelFont) : FontExt f f := ⟨rfl, fun _ h => h, fun _ g h => ⟨g, h, .refl g⟩⟩
theorem FontExt.trans {a b c : LabelFont} (h : FontExt a b) (h' : FontExt b c) : FontExt a c :=
  ⟨h'.order.trans h.order, fun n hn => h'.none n (h.none n hn), fun n g hg => by
    obtain ⟨g1, h1, h2⟩ := h.some n g hg
    obtain ⟨g2, h3, h4⟩ := h'.some n g1 h1
    exact ⟨g2, h3, h2.trans h4⟩⟩

theorem locate_ext {f f' : LabelFont} (he : FontExt f f') (gids : List Int) (i : Nat) (index : Int) (total : Nat) :
    locate f' gids i index total = locate f gids i index total := by
  induction gids generalizing i index total with
  | nil => rfl
  | cons gid gids ih =>
    simp only [locate, he.order]
    cases hp : pyIndex f.order gid with
    | error e => rfl
    | ok name =>
      simp only
      cases hd : dictGet f.glyphs name with
      | none => rw [he.none name hd]
      | some c =>
        obtain ⟨c', h1, h2⟩ := he.some name c hd
        rw [h1]
        simp only [h2.nodes, ih]

/-- the number of nodes of the glyph with the index `gid` -/
def nodesOf (f : LabelFont) (gid : Int) : Nat :=
  match pyIndex f.order gid with
  | .ok name => ((dictGet f.glyphs name).map LabelGlyph.numNodes).getD 0
  | .error _ => 0

def sumNodes (f : LabelFont) (gids : List Int) : Nat := (gids.map (nodesOf f)).sum

theorem locate_inside {f : LabelFont} {gids : List Int} {i k : Nat} {index j : Int} {total : Nat} {c : PyStr}
    (h : locate f gids i index total = .ok (.inside c k j)) :
    ∃ p, k = i + p ∧ (gids[p]?).map (pyIndex f.order) = some (.ok c) ∧ index = j + sumNodes f (gids.take p) := by
  induction gids generalizing i index total with
  | nil => simp [locate] at h
  | cons gid gids ih =>
    simp only [locate] at h
    cases hp : pyIndex f.order gid with
    | error e => rw [hp] at h; cases h
    | ok name =>
      rw [hp] at h
      simp only at h
      cases hd : dictGet f.glyphs name with
      | none => rw [hd] at h; cases h
      | some g =>
        rw [hd] at h
        simp only at h
        by_cases hi : index < g.numNodes
        · rw [if_pos hi] at h
          simp only [Except.ok.injEq, Located.inside.injEq] at h
          obtain ⟨rfl, rfl, rfl⟩ := h
          exact ⟨0, rfl, by simp [hp], by simp [sumNodes]⟩
        · rw [if_neg hi] at h
          obtain ⟨p, h1, h2, h3⟩ := ih h
          refine ⟨p + 1, by omega, by simpa using h2, ?_⟩
          simp only [List.take_succ_cons, sumNodes, List.map_cons, List.sum_cons, nodesOf, hp, hd]
          simp only [sumNodes] at h3
          simp only [Option.map_some, Option.getD_some, Int.natCast_add]
          omega

theorem locate_beyond {f : LabelFont} {gids : List Int} {i t : Nat} {index : Int} {total : Nat}
    (h : locate f gids i index total = .ok (.beyond t)) :
    t = total + sumNodes f gids := by
  induction gids generalizing i index total with
  | nil => simp only [locate, Except.ok.injEq, Located.beyond.injEq] at h; simp [sumNodes, h]
  | cons gid gids ih =>
    simp only [locate] at h
    cases hp : pyIndex f.order gid with
    | error e => rw [hp] at h; cases h
    | ok name =>
      rw [hp] at h
      simp only at h
      cases hd : dictGet f.glyphs name with
      | none => rw [hd] at h; cases h
      | some g =>
        rw [hd] at h
        simp only at h
        by_cases hi : index < g.numNodes
        · rw [if_pos hi] at h; cases h
        · rw [if_neg hi] at h
          rw [ih h]
          simp only [sumNodes, List.map_cons, List.sum_cons, nodesOf, hp, hd]
          simp
          omega

/-- the label of a point -/
inductive LabelOf (f : LabelFont) : PyStr → Int → PyStr → Prop
  | simple {name : PyStr} {g : LabelGlyph} {i : Int} {l : PyStr} : dictGet f.glyphs name = some g → g.gids = [] →
      Labelled g i l → LabelOf f name i l
  | comp {name : PyStr} {g : LabelGlyph} {i j : Int} {c l : PyStr} {k : Nat} : dictGet f.glyphs name = some g → g.gids ≠ [] →
      locate f g.gids 0 i 0 = .ok (.inside c k j) → LabelOf f c j l → LabelOf f name i (l ++ lit "-" ++ natDec k)
  | beyond {name : PyStr} {g : LabelGlyph} {i : Int} {t : Nat} : dictGet f.glyphs name = some g → g.gids ≠ [] →
      locate f g.gids 0 i 0 = .ok (.beyond t) →
      LabelOf f name i (if i = t then lit "lsb" else if i = t + 1 then lit "rsb" else lit "invalid")

theorem LabelOf.mono {f f' : LabelFont} (he : FontExt f f') {name : PyStr} {i : Int} {l : PyStr} (h : LabelOf f name i l) :
    LabelOf f' name i l := by
  induction h with
  | simple h1 h2 h3 =>
    obtain ⟨g', h4, h5⟩ := he.some _ _ h1
    exact .simple h4 (h5.gids.trans h2) (h3.mono h5)
  | comp h1 h2 h3 _ ih =>
    obtain ⟨g', h4, h5⟩ := he.some _ _ h1
    exact .comp h4 (by rw [h5.gids]; exact h2) (by rw [locate_ext he, h5.gids]; exact h3) ih
  | beyond h1 h2 h3 =>
    obtain ⟨g', h4, h5⟩ := he.some _ _ h1
    exact .beyond h4 (by rw [h5.gids]; exact h2) (by rw [locate_ext he, h5.gids]; exact h3)

theorem LabelOf.det {f : LabelFont} (hf : GoodFont f) {name : PyStr} {i : Int} {l m : PyStr} (h : LabelOf f name i l)
    (h' : LabelOf f name i m) : l = m := by
  induction h generalizing m with
  | simple h1 h2 h3 =>
    cases h' with
    | simple h4 h5 h6 =>
      rw [h1] at h4; cases h4
      exact h3.det (hf _ _ h1) h6
    | comp h4 h5 h6 h7 => rw [h1] at h4; cases h4; exact absurd h2 h5
    | beyond h4 h5 h6 => rw [h1] at h4; cases h4; exact absurd h2 h5
  | comp h1 h2 h3 _ ih =>
    cases h' with
    | simple h4 h5 h6 => rw [h1] at h4; cases h4; exact absurd h5 h2
    | comp h4 h5 h6 h7 =>
      rw [h1] at h4; cases h4
      rw [h3] at h6
      simp only [Except.ok.injEq, Located.inside.injEq] at h6
      obtain ⟨rfl, rfl, rfl⟩ := h6
      rw [ih h7]
    | beyond h4 h5 h6 => rw [h1] at h4; cases h4; rw [h3] at h6; cases h6
  | beyond h1 h2 h3 =>
    cases h' with
    | simple h4 h5 h6 => rw [h1] at h4; cases h4; exact absurd h5 h2
    | comp h4 h5 h6 h7 => rw [h1] at h4; cases h4; rw [h3] at h6; cases h6
    | beyond h4 h5 h6 =>
      rw [h1] at h4; cases h4; rw [h3] at h6
      simp only [Except.ok.injEq, Located.beyond.injEq] at h6
      rw [h6]

theorem dash_ne_plain {l x : PyStr} {k : Nat} (hx : 45 ∉ x) : l ++ lit "-" ++ natDec k ≠ x := by
  rintro rfl
  exact hx (by rw [show lit "-" = [45] by decide]; simp)

theorem special_no_dash (i : Int) (t : Nat) :
    45 ∉ (if i = t then lit "lsb" else if i = t + 1 then lit "rsb" else lit "invalid") := by
  split
  · decide
  · split <;> decide

theorem LabelOf.inj {f : LabelFont} (hf : GoodFont f) {name : PyStr} {i j : Int} {l m : PyStr} (h : LabelOf f name i l)
    (h' : LabelOf f name j m) (hlm : l = m) : i = j ∨ IsInvalid l := by
  induction h generalizing j m with
  | simple h1 h2 h3 =>
    cases h' with
    | simple h4 h5 h6 =>
      rw [h1] at h4; cases h4
      exact .inl (h3.inj (hf _ _ h1) (hlm ▸ h6))
    | comp h4 h5 h6 h7 => rw [h1] at h4; cases h4; exact absurd h2 h5
    | beyond h4 h5 h6 => rw [h1] at h4; cases h4; exact absurd h2 h5
  | comp h1 h2 h3 _ ih =>
    cases h' with
    | simple h4 h5 h6 => rw [h1] at h4; cases h4; exact absurd h5 h2
    | comp h4 h5 h6 h7 =>
      rw [h1] at h4; cases h4
      obtain ⟨h8, rfl⟩ := suffix_inj hlm
      obtain ⟨p, hp1, hp2, hp3⟩ := locate_inside h3
      obtain ⟨q, hq1, hq2, hq3⟩ := locate_inside h6
      have hpq : p = q := by omega
      subst hpq
      rw [hp2] at hq2
      simp only [Option.some.injEq, Except.ok.injEq] at hq2
      subst hq2
      rcases ih h7 h8 with h9 | ⟨r, hr⟩
      · left; omega
      · right
        rw [hr]
        exact ⟨_, by rw [List.append_assoc, List.append_assoc]⟩
    | beyond h4 h5 h6 => exact absurd hlm (dash_ne_plain (special_no_dash _ _))
  | beyond h1 h2 h3 =>
    cases h' with
    | simple h4 h5 h6 => rw [h1] at h4; cases h4; exact absurd h5 h2
    | comp h4 h5 h6 h7 => exact absurd hlm.symm (dash_ne_plain (special_no_dash _ _))
    | beyond h4 h5 h6 =>
      rw [h1] at h4; cases h4
      have h7 := locate_beyond h3
      have h8 := locate_beyond h6
      rw [← h8] at h7
      subst h7
      have inv : IsInvalid (lit "invalid") := ⟨[], by simp⟩
      split at hlm
      · split at hlm
        · left; omega
        · split at hlm
          · exact absurd hlm (by decide)
          · exact absurd hlm (by decide)
      · split at hlm
        · split at hlm
          · exact absurd hlm (by decide)
          · split at hlm
            · left; omega
            · exact absurd hlm (by decide)
        · right; rename_i h9 h10; rw [if_neg h9, if_neg h10]; exact inv

theorem getPointLabel_spec {depth : Nat} {f f' : LabelFont} (hf : GoodFont f) {name : PyStr} {i : Int} {code l : PyStr} {start : Nat}
    (h : getPointLabel depth f name i code start = .ok (l, f')) : GoodFont f' ∧ FontExt f f' ∧ LabelOf f' name i l := by
  induction depth generalizing f' name i l start with
  | zero => cases h
  | succ depth ih =>
    rw [getPointLabel] at h
    cases hd : dictGet f.glyphs name with
    | none => rw [hd] at h; cases h
    | some g =>
      rw [hd] at h
      simp only at h
      by_cases hg : g.gids = []
      · rw [hg] at h
        simp only [List.isEmpty_nil, if_true] at h
        cases hp : g.pointLabel i code start with
        | error e => rw [hp] at h; cases h
        | ok r =>
          obtain ⟨m, g'⟩ := r
          rw [hp] at h
          simp only [Except.ok.injEq, Prod.mk.injEq] at h
          obtain ⟨rfl, rfl⟩ := h
          obtain ⟨h1, h2, h3⟩ := pointLabel_spec (hf _ _ hd) hp
          refine ⟨?_, ⟨rfl, ?_, ?_⟩, .simple (g := g') (by simp [dictGet_dictSet]) (h2.gids.trans hg) h3⟩
          · intro n x hx
            simp only [dictGet_dictSet] at hx
            by_cases hn : name = n
            · rw [if_pos hn] at hx; rw [← Option.some.inj hx]; exact h1
            · rw [if_neg hn] at hx; exact hf n x hx
          · intro n hn
            simp only [dictGet_dictSet]
            by_cases hne : name = n
            · rw [← hne, hd] at hn; cases hn
            · rw [if_neg hne]; exact hn
          · intro n x hx
            simp only [dictGet_dictSet]
            by_cases hn : name = n
            · rw [if_pos hn]
              rw [← hn, hd] at hx
              rw [← Option.some.inj hx]; exact ⟨g', rfl, h2⟩
            · rw [if_neg hn]; exact ⟨x, hx, .refl x⟩
      · have hne : g.gids.isEmpty = false := by cases hx : g.gids with
          | nil => exact absurd hx hg
          | cons _ _ => rfl
        rw [hne] at h
        simp only [Bool.false_eq_true, if_false] at h
        cases hl : locate f g.gids 0 i 0 with
        | error e => rw [hl] at h; cases h
        | ok loc =>
          rw [hl] at h
          cases loc with
          | inside c k j =>
            simp only at h
            cases hr : getPointLabel depth f c j code 1 with
            | error e => rw [hr] at h; cases h
            | ok r =>
              obtain ⟨m, f1⟩ := r
              rw [hr] at h
              simp only [Except.ok.injEq, Prod.mk.injEq] at h
              obtain ⟨rfl, rfl⟩ := h
              obtain ⟨h1, h2, h3⟩ := ih hr
              obtain ⟨g', h4, h5⟩ := h2.some _ _ hd
              exact ⟨h1, h2, .comp h4 (by rw [h5.gids]; exact hg) (by rw [locate_ext h2, h5.gids]; exact hl) h3⟩
          | beyond t =>
            simp only at h
            have key := LabelOf.beyond hd hg hl
            by_cases h1 : i = t
            · rw [if_pos h1] at h key
              simp only [Except.ok.injEq, Prod.mk.injEq] at h
              obtain ⟨rfl, rfl⟩ := h
              exact ⟨hf, .refl _, key⟩
            · rw [if_neg h1] at h key
              by_cases h2 : i = t + 1
              · rw [if_pos h2] at h key
                simp only [Except.ok.injEq, Prod.mk.injEq] at h
                obtain ⟨rfl, rfl⟩ := h
                exact ⟨hf, .refl _, key⟩
              · rw [if_neg h2] at h key
                simp only [Except.ok.injEq, Prod.mk.injEq] at h
                obtain ⟨rfl, rfl⟩ := h
                exact ⟨hf, .refl _, key⟩

theorem run_spec {depth : Nat} {f : LabelFont} (hf : GoodFont f) (c : LabelCall) :
    GoodFont (c.run depth f).2 ∧ FontExt f (c.run depth f).2 ∧
      ∀ l, (c.run depth f).1 = .ok l → LabelOf (c.run depth f).2 c.glyph c.index l := by
  unfold LabelCall.run
  cases h : getPointLabel depth f c.glyph c.index c.code c.start with
  | error e => exact ⟨hf, .refl _, fun l hl => by cases hl⟩
  | ok r =>
    obtain ⟨l, f'⟩ := r
    obtain ⟨h1, h2, h3⟩ := getPointLabel_spec hf h
    exact ⟨h1, h2, fun m hm => by cases hm; exact h3⟩

theorem runLabelCalls_spec {depth : Nat} {f : LabelFont} (hf : GoodFont f) (h : List LabelCall) :
    GoodFont (runLabelCalls depth f h).2 ∧ FontExt f (runLabelCalls depth f h).2 ∧
      ∀ c l, Returned depth f h c l → LabelOf (runLabelCalls depth f h).2 c.glyph c.index l := by
  induction h generalizing f with
  | nil => exact ⟨hf, .refl _, fun c l ⟨i, h1, _⟩ => by simp at h1⟩
  | cons d h ih =>
    obtain ⟨h1, h2, h3⟩ := run_spec (depth := depth) hf d
    obtain ⟨h4, h5, h6⟩ := ih h1
    refine ⟨h4, h2.trans h5, ?_⟩
    rintro c l ⟨i, hi1, hi2⟩
    cases i with
    | zero =>
      simp only [List.getElem?_cons_zero, Option.some.injEq] at hi1
      subst hi1
      simp only [runLabelCalls, List.getElem?_cons_zero, Option.some.injEq] at hi2
      exact (h3 l hi2).mono h5
    | succ i =>
      exact h6 c l ⟨i, by simpa using hi1, by simpa [runLabelCalls] using hi2⟩

theorem fresh_good {f : LabelFont} (hf : Fresh f) : GoodFont f := by
  intro n g hg
  have h1 := (hf.2 _ (dictGet_some_mem hg)).2
  simp only at h1
  refine ⟨?_, ?_, ?_⟩ <;> · intro i l hl; rw [h1] at hl; cases hl

/-! ### C52 -/

/-- **C52** In any history of calls, on any glyphs, with any codes and counts, failed calls included: two calls for the
same glyph return the same label exactly if they are for the same point.  The one exception is the placeholder
"invalid" for points of a composite that do not exist. -/
theorem C52_unique {depth : Nat} {f : LabelFont} {h : List LabelCall} {c d : LabelCall} {l m : PyStr} (hf : Fresh f)
    (hc : Returned depth f h c l) (hd : Returned depth f h d m) (hcd : c.glyph = d.glyph) (hv : ¬ IsInvalid l) :
    l = m ↔ c.index = d.index := by
  obtain ⟨h1, _, h3⟩ := runLabelCalls_spec (depth := depth) (fresh_good hf) h
  have hl := h3 _ _ hc
  have hm := h3 _ _ hd
  rw [← hcd] at hm
  constructor
  · intro hlm
    rcases hl.inj h1 hm hlm with h4 | h4
    · exact h4
    · exact absurd h4 hv
  · intro hi
    rw [← hi] at hm
    exact hl.det h1 hm

/-- **C52** A point keeps its label: whatever happened in between, and whatever the code and count, a second call for
the same point returns the label of the first one. -/
theorem C52_stable {depth : Nat} {f : LabelFont} {h : List LabelCall} {c d : LabelCall} {l m : PyStr} (hf : Fresh f)
    (hc : Returned depth f h c l) (hd : Returned depth f h d m) (hcd : c.glyph = d.glyph) (hi : c.index = d.index) : l = m := by
  obtain ⟨h1, _, h3⟩ := runLabelCalls_spec (depth := depth) (fresh_good hf) h
  have hl := h3 _ _ hc
  have hm := h3 _ _ hd
  rw [← hcd, ← hi] at hm
  exact hl.det h1 hm

/-- the labels of a font, as dictionaries -/
theorem runLabelCalls_simple {depth : Nat} {f : LabelFont} (hf : Fresh f) (h : List LabelCall) {name : PyStr} {n : Nat}
    (hs : SimpleGlyph f name n) :
    ∃ g, dictGet (runLabelCalls depth f h).2.glyphs name = some g ∧ g.gids = [] ∧ g.numNodes = n ∧ GoodGlyph g := by
  obtain ⟨g, h1, h2, h3⟩ := hs
  obtain ⟨h4, h5, _⟩ := runLabelCalls_spec (depth := depth) (fresh_good hf) h
  obtain ⟨g', h6, h7⟩ := h5.some _ _ (dictGet_of_mem hf.1 h1)
  exact ⟨g', h6, h7.gids.trans h2, h7.nodes.trans h3, h4 _ _ h6⟩

/-- **C52** The label returned for a point is the name that the point has in the end (the name under which it is
written to the UFO, `C55_names`), so that hints refer to existing points; and no two points of a glyph have the same
name in the end. -/
theorem C52_point_name {depth : Nat} {f : LabelFont} {h : List LabelCall} {c : LabelCall} {l : PyStr} {n : Nat} (hf : Fresh f)
    (hs : SimpleGlyph f c.glyph n) (hc : Returned depth f h c l) (hi : c.index ≠ n ∧ c.index ≠ n + 1) :
    ∃ g, dictGet (runLabelCalls depth f h).2.glyphs c.glyph = some g ∧ dictGet g.pointLabels c.index = some l ∧
      ∀ j, dictGet g.pointLabels j = some l → j = c.index := by
  obtain ⟨g, h1, h2, h3, h4⟩ := runLabelCalls_simple (depth := depth) hf h hs
  have h5 := (runLabelCalls_spec (depth := depth) (fresh_good hf) h).2.2 _ _ hc
  refine ⟨g, h1, ?_⟩
  cases h5 with
  | simple h6 h7 h8 =>
    rw [h1] at h6; cases h6
    have h9 : dictGet g.pointLabels c.index = some l := by
      rcases h8 with h8 | h8 | h8
      · exact h8
      · omega
      · omega
    exact ⟨h9, fun j hj => Labelled.inj h4 (.inl hj) (.inl h9)⟩
  | comp h6 h7 => rw [h1] at h6; cases h6; exact absurd h2 h7
  | beyond h6 h7 => rw [h1] at h6; cases h6; exact absurd h2 h7

/-- **C52** The two indices after the last node are the side bearings, at any time, and no node is called like them. -/
theorem C52_side_bearings {depth : Nat} {f : LabelFont} {h : List LabelCall} {c : LabelCall} {l : PyStr} {n : Nat} (hf : Fresh f)
    (hs : SimpleGlyph f c.glyph n) (hc : Returned depth f h c l) :
    (l = lit "lsb" ↔ c.index = n) ∧ (l = lit "rsb" ↔ c.index = n + 1) := by
  obtain ⟨g, h1, h2, h3, h4⟩ := runLabelCalls_simple (depth := depth) hf h hs
  have h5 := (runLabelCalls_spec (depth := depth) (fresh_good hf) h).2.2 _ _ hc
  cases h5 with
  | simple h6 h7 h8 =>
    rw [h1] at h6; cases h6
    subst h3
    refine ⟨⟨fun e => Labelled.inj h4 h8 (.inr (.inl ⟨rfl, e⟩)), fun e => Labelled.det h4 h8 (.inr (.inl ⟨e, rfl⟩))⟩,
      ⟨fun e => Labelled.inj h4 h8 (.inr (.inr ⟨rfl, e⟩)), fun e => Labelled.det h4 h8 (.inr (.inr ⟨e, rfl⟩))⟩⟩
  | comp h6 h7 => rw [h1] at h6; cases h6; exact absurd h2 h7
  | beyond h6 h7 => rw [h1] at h6; cases h6; exact absurd h2 h7

/-- **C52** A call with one of the known codes on a glyph without components always returns a label, after any history
(so the search for a free label ends).  A new label is the code with the first free number from the given count on. -/
theorem C52_succeeds {depth : Nat} {f : LabelFont} {h : List LabelCall} {name : PyStr} {n : Nat} (hf : Fresh f)
    (hs : SimpleGlyph f name n) {code short : PyStr} (hcode : (code, short) ∈ labelCodes) (i : Int) (start : Nat) :
    ∃ l f', getPointLabel (depth + 1) (runLabelCalls depth f h).2 name i code start = .ok (l, f') ∧
      (i ≠ n → i ≠ n + 1 → (∀ g, dictGet (runLabelCalls depth f h).2.glyphs name = some g → dictGet g.pointLabels i = none) →
        ∃ k, start ≤ k ∧ l = short ++ pad2 k ∧ ∀ j, start ≤ j → j < k →
          ∃ g p, dictGet f'.glyphs name = some g ∧ dictGet g.labels (short ++ pad2 j) = some p) := by
  obtain ⟨g, h1, h2, h3, h4⟩ := runLabelCalls_simple (depth := depth) hf h hs
  generalize (runLabelCalls depth f h).2 = F at *
  have hc : dictGet labelCodes code = some short := dictGet_of_mem (by decide +kernel) hcode
  subst h3
  rw [getPointLabel, h1]
  simp only [h2, List.isEmpty_nil, if_true, LabelGlyph.pointLabel]
  cases hd : dictGet g.pointLabels i with
  | some m => exact ⟨_, _, rfl, fun _ _ hx => by have := hx g rfl; rw [hd] at this; cases this⟩
  | none =>
    simp only
    by_cases hi1 : i = g.numNodes
    · rw [if_pos hi1]; exact ⟨_, _, rfl, fun hx => absurd hi1 hx⟩
    · rw [if_neg hi1]
      by_cases hi2 : i = g.numNodes + 1
      · rw [if_pos hi2]; exact ⟨_, _, rfl, fun _ hx => absurd hi2 hx⟩
      · rw [if_neg hi2, hc]
        obtain ⟨k, h5, h6, h7, h8⟩ := labelSearch_ok g.labels short start
        simp only [h6]
        refine ⟨_, _, rfl, fun _ _ _ => ⟨k, h5, rfl, ?_⟩⟩
        intro j hj1 hj2
        have h9 := h8 j hj1 hj2
        obtain ⟨p, hp⟩ := Option.isSome_iff_exists.1 h9
        refine ⟨_, p, by rw [dictGet_dictSet, if_pos rfl], ?_⟩
        simp only [dictGet_dictSet]
        rw [if_neg, hp]
        intro e
        rw [e, hp] at h7; cases h7

/-- **C52** An unknown code is an error (KeyError), unless the point already has a label or is a side bearing. -/
theorem C52_unknown_code {depth : Nat} {f : LabelFont} {name : PyStr} {n : Nat} (hf : Fresh f)
    (hs : SimpleGlyph f name n) {code : PyStr} (hcode : code ∉ labelCodes.map Prod.fst) {i : Int} (hi : i ≠ n ∧ i ≠ n + 1) (start : Nat) :
    getPointLabel (depth + 1) f name i code start = .error .key := by
  obtain ⟨g, h1, h2, rfl⟩ := hs
  have h3 := (hf.2 _ h1).2
  rw [getPointLabel, dictGet_of_mem hf.1 h1]
  simp only at h3
  simp only [h2, List.isEmpty_nil, if_true, LabelGlyph.pointLabel, h3, dictGet, hi.1, hi.2, if_false]
  rw [dictGet_none.2 hcode]

/-! ### Composites -/

theorem simple_sum {f : LabelFont} (hd : DictOk f.glyphs) : ∀ (gids : List Int) (cs : List (PyStr × Nat)),
    gids.map (pyIndex f.order) = cs.map (fun c => Except.ok c.1) → (∀ c ∈ cs, SimpleGlyph f c.1 c.2) →
    sumNodes f gids = (cs.map Prod.snd).sum
  | [], [], _, _ => rfl
  | [], _ :: _, h, _ => by simp at h
  | _ :: _, [], h, _ => by simp at h
  | gid :: gids, c :: cs, h, hs => by
    simp only [List.map_cons, List.cons.injEq] at h
    have ih := simple_sum hd gids cs h.2 (fun x hx => hs x (List.mem_cons_of_mem _ hx))
    obtain ⟨g, h1, h2, h3⟩ := hs c (by simp)
    simp only [sumNodes, List.map_cons, List.sum_cons, nodesOf, h.1, dictGet_of_mem hd h1, Option.map_some, Option.getD_some, h3] at ih ⊢
    rw [← ih]

theorem sumNodes_ext {f f' : LabelFont} (he : FontExt f f') (gids : List Int) : sumNodes f' gids = sumNodes f gids := by
  unfold sumNodes
  congr 1
  apply List.map_congr_left
  intro gid _
  unfold nodesOf
  rw [he.order]
  cases pyIndex f.order gid with
  | error e => rfl
  | ok name =>
    simp only
    cases hd : dictGet f.glyphs name with
    | none => rw [he.none _ hd]
    | some g =>
      obtain ⟨g', h1, h2⟩ := he.some _ _ hd
      rw [h1]; simp [h2.nodes]

/-- **C52** In a composite of glyphs without components, the points are numbered through all components.  The label of a
point is the label of the point in the component, "-", and the number of the component; the two indices after the
points of all components are the side bearings; everything beyond is "invalid". -/
theorem C52_composite {depth : Nat} {f : LabelFont} {h : List LabelCall} {c : LabelCall} {l : PyStr} {cs : List (PyStr × Nat)} (hf : Fresh f)
    (hs : SimpleComposite f c.glyph cs) (hc : Returned depth f h c l) (h0 : 0 ≤ c.index) :
    let total := (cs.map Prod.snd).sum
    (c.index < total → ∃ k j x, cs[k]? = some x ∧ j < x.2 ∧ c.index = ((cs.take k).map Prod.snd).sum + j ∧
      ∃ g m, dictGet (runLabelCalls depth f h).2.glyphs x.1 = some g ∧ dictGet g.pointLabels j = some m ∧
        l = m ++ lit "-" ++ natDec k) ∧
    (c.index = total → l = lit "lsb") ∧ (c.index = total + 1 → l = lit "rsb") ∧ (c.index > total + 1 → l = lit "invalid") := by
  intro total
  obtain ⟨hne, ⟨g, hg1, hg2⟩, hcs⟩ := hs
  obtain ⟨hG, hE, hR⟩ := runLabelCalls_spec (depth := depth) (fresh_good hf) h
  have hsum := simple_sum hf.1 _ _ hg2 hcs
  obtain ⟨g', hg3, hg4⟩ := hE.some _ _ (dictGet_of_mem hf.1 hg1)
  have hgids : g.gids ≠ [] := by
    intro e; rw [e] at hg2; cases cs with
    | nil => exact hne rfl
    | cons _ _ => simp at hg2
  cases hR _ _ hc with
  | simple h1 h2 h3 => rw [hg3] at h1; cases h1; rw [hg4.gids] at h2; exact absurd h2 hgids
  | @comp _ _ _ j nm m k h1 h2 h3 h4 =>
    rw [hg3] at h1; cases h1
    rw [locate_ext hE, hg4.gids] at h3
    have hlt : ∀ (gids : List Int) (i : Nat) (index : Int) (t : Nat), 0 ≤ index → locate f gids i index t = .ok (.inside nm k j) →
        0 ≤ j ∧ ∃ q, dictGet f.glyphs nm = some q ∧ j < q.numNodes ∧ index < sumNodes f gids := by
      intro gids
      induction gids with
      | nil => intro i index t _ h; simp [locate] at h
      | cons gid gids ih =>
        intro i index t hi h
        simp only [locate] at h
        cases hp : pyIndex f.order gid with
        | error e => rw [hp] at h; cases h
        | ok name =>
          rw [hp] at h
          simp only at h
          cases hd : dictGet f.glyphs name with
          | none => rw [hd] at h; cases h
          | some q =>
            rw [hd] at h
            simp only at h
            have hs : sumNodes f (gid :: gids) = q.numNodes + sumNodes f gids := by
              simp [sumNodes, nodesOf, hp, hd]
            by_cases hlt : index < q.numNodes
            · rw [if_pos hlt] at h
              simp only [Except.ok.injEq, Located.inside.injEq] at h
              obtain ⟨rfl, rfl, rfl⟩ := h
              exact ⟨hi, q, hd, hlt, by omega⟩
            · rw [if_neg hlt] at h
              obtain ⟨h1, q', h2, h3, h4⟩ := ih _ _ _ (by omega) h
              exact ⟨h1, q', h2, h3, by omega⟩
    obtain ⟨hj0, q, hq1, hq2, hq3⟩ := hlt _ _ _ _ h0 h3
    have htot : c.index < total := by simp only [total]; omega
    refine ⟨fun _ => ?_, fun e => by omega, fun e => by omega, fun e => by omega⟩
    obtain ⟨p, hp1, hp2, hp3⟩ := locate_inside h3
    have hp : p = k := by omega
    subst hp
    have hx : (cs.map fun c => (Except.ok c.1 : Except PyErr PyStr))[p]? = some (.ok nm) := by
      rw [← hg2, List.getElem?_map]; exact hp2
    rw [List.getElem?_map] at hx
    cases hxc : cs[p]? with
    | none => rw [hxc] at hx; cases hx
    | some x =>
      rw [hxc] at hx
      simp only [Option.map_some, Option.some.injEq, Except.ok.injEq] at hx
      subst hx
      obtain ⟨w, hw1, hw2, hw3⟩ := hcs x (List.mem_of_getElem? hxc)
      rw [dictGet_of_mem hf.1 hw1] at hq1
      cases hq1
      have htake := simple_sum hf.1 (g.gids.take p) (cs.take p) (by rw [List.map_take, List.map_take, hg2])
        (fun y hy => hcs y (List.mem_of_mem_take hy))
      obtain ⟨w', hw4, hw5⟩ := hE.some _ _ (dictGet_of_mem hf.1 hw1)
      refine ⟨p, j, x, hxc, by omega, by omega, w', m, hw4, ?_, rfl⟩
      cases h4 with
      | simple h5 h6 h7 =>
        rw [hw4] at h5; cases h5
        rcases h7 with h7 | h7 | h7
        · exact h7
        · rw [hw5.nodes] at h7; omega
        · rw [hw5.nodes] at h7; omega
      | comp h5 h6 => rw [hw4] at h5; cases h5; rw [hw5.gids] at h6; exact absurd hw2 h6
      | beyond h5 h6 => rw [hw4] at h5; cases h5; rw [hw5.gids] at h6; exact absurd hw2 h6
  | @beyond _ _ _ t h1 h2 h3 =>
    rw [hg3] at h1; cases h1
    have ht := locate_beyond h3
    rw [sumNodes_ext hE, hg4.gids, hsum] at ht
    have hge : ∀ (gids : List Int) (i : Nat) (index : Int) (t0 t1 : Nat), locate f gids i index t0 = .ok (.beyond t1) → 0 ≤ index → sumNodes f gids ≤ index := by
      intro gids
      induction gids with
      | nil => intro i index t0 t1 _ hi; simpa [sumNodes] using hi
      | cons gid gids ih =>
        intro i index t0 t1 h hi
        simp only [locate] at h
        cases hp : pyIndex f.order gid with
        | error e => rw [hp] at h; cases h
        | ok name =>
          rw [hp] at h
          simp only at h
          cases hd : dictGet f.glyphs name with
          | none => rw [hd] at h; cases h
          | some q =>
            rw [hd] at h
            simp only at h
            have hs : sumNodes f (gid :: gids) = q.numNodes + sumNodes f gids := by
              simp [sumNodes, nodesOf, hp, hd]
            by_cases hlt : index < q.numNodes
            · rw [if_pos hlt] at h; cases h
            · rw [if_neg hlt] at h
              have := ih _ _ _ _ h (by omega)
              omega
    have h4 := hge _ _ _ _ _ (by rw [locate_ext hE, hg4.gids] at h3; exact h3) h0
    have htt : t = total := by simp only [total]; omega
    have h5 : (total : Int) ≤ c.index := by simp only [total]; omega
    rw [htt]
    refine ⟨fun e => by omega, fun e => by rw [if_pos e], fun e => by rw [if_neg (by omega), if_pos e],
      fun e => by rw [if_neg (by omega), if_neg (by omega)]⟩

/-! ### Order of the glyphs -/

/-- **C52** The order in which glyphs receive TrueType labels is a strict total order on (number of components, name):
glyphs without components come before all composites, so that their labels do not depend on the composites. -/
theorem C52_order (a b c : Nat × PyStr) :
    (glyphLt a a = false) ∧ (glyphLt a b → glyphLt b c → glyphLt a c) ∧
    (glyphLt a b ∨ glyphEq a b ∨ glyphLt b a) ∧ (glyphGt a b = glyphLt b a) ∧ (glyphEq a b ↔ a = b) ∧
    (a.1 = 0 → 0 < b.1 → glyphLt a b) := by
  obtain ⟨n, s⟩ := a
  obtain ⟨m, t⟩ := b
  obtain ⟨k, u⟩ := c
  refine ⟨?_, ?_, ?_, ?_, ?_, ?_⟩
  · simp [glyphLt, List.lt_irrefl]
  · simp only [glyphLt]
    intro h1 h2
    by_cases h3 : n < m
    · by_cases h4 : m < k
      · simp [show n < k by omega]
      · by_cases h5 : m = k
        · simp [show n < k by omega]
        · simp [h4, h5] at h2
    · by_cases h3' : n = m
      · subst h3'
        by_cases h4 : n < k
        · simp [h4]
        · by_cases h5 : n = k
          · subst h5
            simp at h1 h2 ⊢
            exact List.lt_trans h1 h2
          · simp [h4, h5] at h2
      · simp [h3, h3'] at h1
  · simp only [glyphLt, glyphEq]
    by_cases h3 : n < m
    · simp [h3]
    · by_cases h4 : m < n
      · simp [h4]
      · have h5 : n = m := by omega
        subst h5
        simp only [h3, if_false, if_true, decide_eq_true_eq, Bool.and_eq_true, true_and]
        by_cases h6 : s < t
        · exact .inl h6
        · by_cases h7 : t < s
          · exact .inr (.inr h7)
          · exact .inr (.inl (List.le_antisymm (List.not_lt.1 h7) (List.not_lt.1 h6)))
  · simp only [glyphLt, glyphGt, gt_iff_lt]
    by_cases h3 : m < n
    · simp [h3]
    · simp only [h3, if_false]
      by_cases h4 : n = m
      · simp [h4]
      · simp [h4, Ne.symm h4]
  · simp [glyphEq]
  · intro h1 h2
    simp only at h1 h2
    simp [glyphLt, h1, h2]

/-! ### Examples -/

/-- "a" has four nodes, "acute" three; "aacute" consists of both -/
def exampleLabelFont : LabelFont :=
  { order := [lit "a", lit "acute", lit "aacute"]
    glyphs := [(lit "a", { numNodes := 4, gids := [], labels := [], pointLabels := [] }),
      (lit "acute", { numNodes := 3, gids := [], labels := [], pointLabels := [] }),
      (lit "aacute", { numNodes := 0, gids := [0, 1], labels := [], pointLabels := [] })] }

def exampleLabelCalls : List LabelCall :=
  [⟨lit "a", 2, lit "AlignTop", 1⟩, ⟨lit "a", 0, lit "AlignTop", 1⟩, ⟨lit "aacute", 2, lit "AlignH", 1⟩, ⟨lit "a", 2, lit "SingleLinkH", 1⟩,
   ⟨lit "aacute", 5, lit "PSHintReplacement", 0⟩, ⟨lit "aacute", 8, lit "AlignTop", 1⟩, ⟨lit "a", 1, lit "nonsense", 1⟩]

example : Fresh exampleLabelFont := ⟨by decide, by decide⟩
example : SimpleGlyph exampleLabelFont (lit "a") 4 := ⟨_, List.mem_cons_self, rfl, rfl⟩
example : SimpleComposite exampleLabelFont (lit "aacute") [(lit "a", 4), (lit "acute", 3)] :=
  ⟨by simp, ⟨_, by rw [exampleLabelFont]; simp; exact .inr (.inr rfl), by decide⟩, by
    intro c hc
    simp at hc
    rcases hc with rfl | rfl
    · exact ⟨_, List.mem_cons_self, rfl, rfl⟩
    · exact ⟨_, List.mem_cons_of_mem _ List.mem_cons_self, rfl, rfl⟩⟩
example : (runLabelCalls 1000 exampleLabelFont exampleLabelCalls).1 =
    [.ok (lit "at01"), .ok (lit "at02"), .ok (lit "at01-0"), .ok (lit "at01"), .ok (lit "hr01-1"), .ok (lit "rsb"), .error .key] := by
  decide +kernel
example : Returned 1000 exampleLabelFont exampleLabelCalls ⟨lit "aacute", 5, lit "PSHintReplacement", 0⟩ (lit "hr01-1") := ⟨4, by decide +kernel, by decide +kernel⟩

end Verif.Props
