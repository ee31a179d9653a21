import Verif.Spec.UfoFeatures
import Verif.Props.UfoGroups
import Verif.Props.UfoDesign
/-! C77: kerning classes in the feature code. -/
set_option autoImplicit false
namespace Verif.Props
open Verif Verif.Spec

theorem span_iff {α : Type} {p : α → Bool} {s a b : List α} :
    (s = a ++ b ∧ (∀ x ∈ a, p x = true) ∧ ∀ x, b.head? = some x → p x = false) ↔ a = s.takeWhile p ∧ b = s.dropWhile p := by
  constructor
  · rintro ⟨rfl, h1, h2⟩
    have hb : b.takeWhile p = [] ∧ b.dropWhile p = b := by
      cases b with
      | nil => simp
      | cons x b => have := h2 x rfl; simp [this]
    rw [List.takeWhile_append_of_pos (by simpa using h1), List.dropWhile_append_of_pos (by simpa using h1), hb.1, hb.2, List.append_nil]
    exact ⟨rfl, rfl⟩
  · rintro ⟨rfl, rfl⟩
    refine ⟨(List.takeWhile_append_dropWhile ..).symm, fun x hx => List.mem_takeWhile_imp hx, fun x hx => ?_⟩
    have h1 := List.head?_dropWhile_not p s
    rw [hx] at h1
    simpa using h1

theorem nonSpaces_iff {s w rest : PyStr} : nonSpaces s = some (w, rest) ↔
    s = w ++ rest ∧ IsWord w ∧ ∀ c, rest.head? = some c → isSpace c = true := by
  have h := span_iff (p := fun c => !isSpace c) (s := s) (a := w) (b := rest)
  unfold nonSpaces
  by_cases he : (s.takeWhile fun c => !isSpace c) = []
  · rw [if_pos (by rw [he]; rfl)]
    constructor
    · intro h; cases h
    · rintro ⟨h1, ⟨h2, h3⟩, h4⟩
      have := (h.1 ⟨h1, by simpa using h3, by simpa using h4⟩).1
      exact absurd (this.trans he) h2
  · rw [if_neg (by simpa using he)]
    constructor
    · intro h'
      cases h'
      have := h.2 ⟨rfl, rfl⟩
      exact ⟨this.1, ⟨he, by simpa using this.2.1⟩, by simpa using this.2.2⟩
    · rintro ⟨h1, ⟨h2, h3⟩, h4⟩
      have := h.1 ⟨h1, by simpa using h3, by simpa using h4⟩
      rw [← this.1, ← this.2]

theorem spaces_iff {s rest : PyStr} : spaces s = some rest ↔ ∃ sp, s = sp ++ rest ∧ IsBlank sp ∧ rest.head? ≠ some 32 := by
  unfold spaces
  constructor
  · intro h
    split at h
    · rename_i t
      cases h
      have := (span_iff (p := fun c : Nat => c == 32) (s := 32 :: t)).2 ⟨rfl, rfl⟩
      refine ⟨_, this.1, ⟨?_, by simpa using this.2.1⟩, ?_⟩
      · simp
      · intro h32
        have := this.2.2 32 h32
        simp at this
    · cases h
  · rintro ⟨sp, rfl, ⟨h1, h2⟩, h3⟩
    cases sp with
    | nil => exact absurd rfl h1
    | cons x sp =>
      obtain rfl := h2 x (List.mem_cons_self ..)
      have := (span_iff (p := fun c : Nat => c == 32) (s := 32 :: sp ++ rest) (a := 32 :: sp) (b := rest)).1
        ⟨rfl, by simpa using h2, by intro x hx; by_contra hc; apply h3; rw [hx]; simpa using hc⟩
      rw [List.cons_append] at this ⊢
      simp only
      rw [← this.2]

theorem literal_iff {p s rest : PyStr} : literal p s = some rest ↔ s = p ++ rest := by
  unfold literal
  by_cases h : p.isPrefixOf s = true
  · rw [if_pos h]
    obtain ⟨t, rfl⟩ := List.isPrefixOf_iff_prefix.1 h
    simp
  · rw [if_neg h]
    constructor
    · intro h; cases h
    · rintro rfl
      exact absurd (List.isPrefixOf_iff_prefix.2 ⟨rest, rfl⟩) h

theorem ruleValue_iff {s v : PyStr} : ruleValue s = some v ↔
    ∃ nl, s = v ++ nl ∧ (∃ c, v.head? = some c ∧ isSpace c = false) ∧ 10 ∉ v ∧ (nl = [] ∨ nl = lit "\n") := by
  have hspan := fun a b => span_iff (p := fun c : Nat => !(c == 10)) (s := s) (a := a) (b := b)
  unfold ruleValue
  cases s with
  | nil =>
    constructor
    · intro h; cases h
    · rintro ⟨nl, h1, ⟨c, h2, -⟩, -⟩
      have := (List.append_eq_nil_iff.1 h1.symm).1
      rw [this] at h2; cases h2
  | cons c t =>
    dsimp only
    constructor
    · intro h
      by_cases hc : isSpace c = true
      · rw [if_pos hc] at h; cases h
      · rw [if_neg hc] at h
        by_cases hl : ((c :: t).dropWhile fun c => !(c == 10)).length ≤ 1
        · rw [if_pos hl] at h
          have hs := (hspan _ _).2 ⟨rfl, rfl⟩
          cases h
          refine ⟨_, hs.1, ⟨c, ?_, by simpa using hc⟩, ?_, ?_⟩
          · have h10 : (!(c == 10)) = true := by
              by_contra h10
              have : c = 10 := by simpa using h10
              subst this
              exact hc (by decide)
            rw [List.takeWhile_cons]
            simp [h10]
          · intro h10
            have := hs.2.1 10 h10
            simp at this
          · generalize (c :: t).dropWhile (fun c => !(c == 10)) = d at *
            match d, hl with
            | [], _ => exact .inl rfl
            | [x], _ =>
              have := hs.2.2 x rfl
              have hx : x = 10 := by simpa using this
              subst hx
              exact .inr rfl
        · rw [if_neg hl] at h; cases h
    · rintro ⟨nl, h1, ⟨c', h2, h3⟩, h4, h5⟩
      have hcc : c' = c := by
        have : (c :: t).head? = some c' := by rw [h1, List.head?_append, h2]; rfl
        exact (Option.some.inj this).symm
      subst hcc
      have := (hspan v nl).1 ⟨h1, by intro x hx; simp; intro he; subst he; exact h4 hx, by
        intro x hx; rcases h5 with rfl | rfl
        · cases hx
        · cases hx; rfl⟩
      rw [if_neg (by simpa using h3), if_pos, ← this.1]
      rw [← this.2]
      rcases h5 with rfl | rfl <;> decide

/-- the program finds the parts of a rule -/
theorem matchPos_iff {code : PyStr} {m : PosRule} :
    matchPos code = some m ↔ IsPosRule code m.indent m.enum m.left m.right m.value := by
  have hspan := fun a b => span_iff (p := isSpace) (s := code) (a := a) (b := b)
  constructor
  · intro h
    have hs := (hspan _ _).2 ⟨rfl, rfl⟩
    unfold matchPos at h
    dsimp only at h
    generalize hr : code.dropWhile isSpace = rest at *
    generalize hi : code.takeWhile isSpace = ind at *
    generalize he : (if (lit "enum ").isPrefixOf rest then lit "enum " else []) = en at *
    have hen : rest = en ++ rest.drop en.length ∧ (en = [] ∨ en = lit "enum ") := by
      rw [← he]
      split
      · rename_i hp
        obtain ⟨t, rfl⟩ := List.isPrefixOf_iff_prefix.1 hp
        simp
      · simp
    simp only [Option.bind_eq_some_iff, Option.map_eq_some_iff] at h
    obtain ⟨s1, h1, s2, h2, ⟨l, s3⟩, h3, s4, h4, ⟨r, s5⟩, h5, s6, h6, v, h7, rfl⟩ := h
    dsimp only at *
    rw [literal_iff] at h1 h4
    rw [spaces_iff] at h2 h6
    rw [nonSpaces_iff] at h3 h5
    rw [ruleValue_iff] at h7
    obtain ⟨sp1, h2, b1, -⟩ := h2
    obtain ⟨sp2, h6, b2, -⟩ := h6
    obtain ⟨nl, h7, v1, v2, v3⟩ := h7
    obtain ⟨h3, w1, -⟩ := h3
    obtain ⟨h5, w2, -⟩ := h5
    refine ⟨sp1, sp2, nl, ?_, hs.2.1, hen.2, b1, w1, w2, b2, v1, v2, v3⟩
    rw [hs.1, hen.1, h1, h2, h3, h4, h5, h6, h7]
  · rintro ⟨sp1, sp2, nl, h, h1, h2, b1, w1, w2, b2, v1, v2, v3⟩
    obtain ⟨ind, en, l, r, v⟩ := m
    dsimp only at *
    have hw : ∀ (w t : PyStr), IsWord w → ∃ c, (w ++ t).head? = some c ∧ isSpace c = false := by
      intro w t hw
      cases w with
      | nil => exact absurd rfl hw.1
      | cons c w => exact ⟨c, rfl, hw.2 c (List.mem_cons_self ..)⟩
    have hb : ∀ (w t : PyStr), IsBlank w → ∀ c, (w ++ t).head? = some c → isSpace c = true := by
      intro w t hw c hc
      cases w with
      | nil => exact absurd rfl hw.1
      | cons x w => cases hc; rw [hw.2 _ (List.mem_cons_self ..)]; decide
    have h32 : ∀ {s : PyStr}, (∃ c, s.head? = some c ∧ isSpace c = false) → s.head? ≠ some 32 := by
      rintro s ⟨c, h1, h2⟩ h3
      rw [h1] at h3; cases h3; revert h2; decide
    have hv : ∃ c, (v ++ nl).head? = some c ∧ isSpace c = false := by
      obtain ⟨c, h1, h2⟩ := v1
      exact ⟨c, by rw [List.head?_append, h1]; rfl, h2⟩
    have hs := (hspan _ _).1 ⟨h, h1, by
      intro x hx
      rcases h2 with rfl | rfl <;> (cases hx; decide)⟩
    have hval : ruleValue (v ++ nl) = some v := ruleValue_iff.2 ⟨nl, rfl, v1, v2, v3⟩
    have hsp2 : spaces (sp2 ++ (v ++ nl)) = some (v ++ nl) := spaces_iff.2 ⟨sp2, rfl, b2, h32 hv⟩
    have hr : nonSpaces (r ++ (sp2 ++ (v ++ nl))) = some (r, sp2 ++ (v ++ nl)) := nonSpaces_iff.2 ⟨rfl, w2, hb _ _ b2⟩
    have hl1 : literal (lit " ") (lit " " ++ (r ++ (sp2 ++ (v ++ nl)))) = some (r ++ (sp2 ++ (v ++ nl))) := literal_iff.2 rfl
    have hl : nonSpaces (l ++ (lit " " ++ (r ++ (sp2 ++ (v ++ nl))))) = some (l, lit " " ++ (r ++ (sp2 ++ (v ++ nl)))) :=
      nonSpaces_iff.2 ⟨rfl, w1, fun c hc => by cases hc; decide⟩
    have hsp1 : spaces (sp1 ++ (l ++ (lit " " ++ (r ++ (sp2 ++ (v ++ nl)))))) = some (l ++ (lit " " ++ (r ++ (sp2 ++ (v ++ nl))))) :=
      spaces_iff.2 ⟨sp1, rfl, b1, h32 (hw _ _ w1)⟩
    have hpos : literal (lit "pos") (lit "pos" ++ (sp1 ++ (l ++ (lit " " ++ (r ++ (sp2 ++ (v ++ nl))))))) =
      some (sp1 ++ (l ++ (lit " " ++ (r ++ (sp2 ++ (v ++ nl)))))) := literal_iff.2 rfl
    generalize hX : sp1 ++ (l ++ (lit " " ++ (r ++ (sp2 ++ (v ++ nl))))) = X at *
    have hen : (if (lit "enum ").isPrefixOf (en ++ (lit "pos" ++ X)) then lit "enum " else []) = en := by
      rcases h2 with rfl | rfl
      · rw [if_neg]; simp [lit]
      · rw [if_pos]; rw [List.isPrefixOf_iff_prefix]; exact ⟨_, rfl⟩
    unfold matchPos
    dsimp only
    rw [← hs.2, ← hs.1, hen, List.drop_left, hpos, Option.bind_some, hsp1, Option.bind_some, hl, Option.bind_some, hl1, Option.bind_some,
      hr, Option.bind_some, hsp2, Option.bind_some, hval]
    rfl

/-- the program splits off the comment -/
theorem splitComment_iff {line code comment : PyStr} : HasComment line code comment ↔
    code = (splitComment line).1 ∧ comment = (match (splitComment line).2 with
      | some [] => []
      | some c => lit "#" ++ c
      | none => []) := by
  have hspan := fun a b => span_iff (p := fun c : Nat => !(c == 35)) (s := line) (a := a) (b := b)
  unfold splitComment
  by_cases h : 35 ∈ line
  · rw [if_pos (by simpa using h)]
    dsimp only
    have hs := (hspan _ _).2 ⟨rfl, rfl⟩
    have hcons : ∃ c, line.dropWhile (fun c => !(c == 35)) = 35 :: c := by
      cases hd : line.dropWhile (fun c => !(c == 35)) with
      | nil =>
        rw [hd, List.append_nil] at hs
        have := hs.2.1 35 (hs.1 ▸ h)
        simp at this
      | cons x c =>
        have := hs.2.2 x (by rw [hd]; rfl)
        have hx : x = 35 := by simpa using this
        exact ⟨c, by rw [hx]⟩
    obtain ⟨c, hc⟩ := hcons
    rw [hc] at hs ⊢
    have hnot : ∀ a : PyStr, 35 ∉ a → ∀ x ∈ a, (!(x == 35)) = true := by
      intro a ha x hx; simp; rintro rfl; exact ha hx
    have h35 : 35 ∉ line.takeWhile (fun c => !(c == 35)) := by
      intro hm; have := hs.2.1 35 hm; simp at this
    simp only [List.drop_succ_cons, List.drop_zero]
    constructor
    · rintro (⟨h1, -, -⟩ | ⟨h1, h2, h3⟩ | ⟨c', h0, h1, h2, h3⟩)
      · exact absurd h h1
      · have := (hspan code (lit "#")).1 ⟨h2, hnot _ h1, fun x hx => by cases hx; rfl⟩
        rw [hc] at this
        refine ⟨this.1, ?_⟩
        obtain ⟨-, h4⟩ := this
        cases h4
        exact h3
      · have := (hspan code (lit "#" ++ c')).1 ⟨by rw [h2, List.append_assoc], hnot _ h1, fun x hx => by cases hx; rfl⟩
        rw [hc] at this
        refine ⟨this.1, ?_⟩
        obtain ⟨-, h4⟩ := this
        cases h4
        cases c' with
        | nil => exact absurd rfl h0
        | cons y c' => exact h3
    · rintro ⟨rfl, rfl⟩
      cases c with
      | nil => exact .inr (.inl ⟨h35, hs.1, rfl⟩)
      | cons y c =>
        refine .inr (.inr ⟨y :: c, by simp, h35, ?_, rfl⟩)
        rw [List.append_assoc]
        exact hs.1
  · rw [if_neg (by simpa using h)]
    dsimp only
    constructor
    · rintro (⟨-, h2, h3⟩ | ⟨-, h2, -⟩ | ⟨c', -, -, h2, -⟩)
      · exact ⟨h2, h3⟩
      · exact absurd (by rw [h2]; simp [lit]) h
      · exact absurd (by rw [h2]; simp [lit]) h
    · rintro ⟨h1, h2⟩
      exact .inl ⟨h, h1, h2⟩

theorem renameClass_iff {side : Nat} (hs : side = 1 ∨ side = 2) {s t : PyStr} : RefRenamed side s t ↔ t = renameClass side s := by
  unfold RefRenamed renameClass
  by_cases h : lit "@_" <+: s
  · rw [if_pos (startsWith_iff.2 h)]
    obtain ⟨u, rfl⟩ := h
    have hn : (lit "@public.kern" ++ natDec side ++ lit "." ++ (lit "@_" ++ u).drop 1) =
        (if side = 1 then lit "@public.kern1._" else lit "@public.kern2._") ++ u := by
      rcases hs with rfl | rfl
      · rw [show natDec 1 = lit "1" by decide]; rfl
      · rw [show natDec 2 = lit "2" by decide]; rfl
    rw [hn]
    constructor
    · rintro (⟨n, h1, h2⟩ | ⟨h1, -⟩)
      · rw [List.append_cancel_left h1]; exact h2
      · exact absurd ⟨u, rfl⟩ h1
    · intro h; exact .inl ⟨u, rfl, h⟩
  · rw [if_neg (fun hc => h (startsWith_iff.1 hc))]
    constructor
    · rintro (⟨n, h1, -⟩ | ⟨-, h2⟩)
      · exact absurd ⟨n, h1.symm⟩ h
      · exact h2
    · intro h2; exact .inr ⟨h, h2⟩

/-- **C77.** What becomes of a line of the feature code, for every line: in a rule `pos left right value` the references to kerning classes
become references to the groups of the UFO, of the first side on the left and of the second side on the right; all other lines are not
changed. -/
theorem C77_line (line line' : PyStr) : LineRenamed line line' ↔ line' = renameLine line := by
  unfold LineRenamed renameLine
  constructor
  · rintro ⟨code, comment, hc, h⟩
    obtain ⟨rfl, rfl⟩ := splitComment_iff.1 hc
    rcases h with ⟨i, e, l, r, v, l', r', hr, h1, h2, rfl⟩ | ⟨hn, rfl⟩
    · rw [(matchPos_iff (m := ⟨i, e, l, r, v⟩)).2 hr]
      rw [(renameClass_iff (.inl rfl)).1 h1, (renameClass_iff (.inr rfl)).1 h2]
      simp only [List.append_assoc, lit]
      rfl
    · cases hm : matchPos (splitComment line').1 with
      | none => rfl
      | some m => exact absurd ⟨_, _, _, _, _, matchPos_iff.1 hm⟩ hn
  · intro h
    refine ⟨_, _, splitComment_iff.2 ⟨rfl, rfl⟩, ?_⟩
    cases hm : matchPos (splitComment line).1 with
    | none =>
      rw [hm] at h
      refine .inr ⟨?_, h⟩
      rintro ⟨i, e, l, r, v, hr⟩
      rw [(matchPos_iff (m := ⟨i, e, l, r, v⟩)).2 hr] at hm
      cases hm
    | some m =>
      rw [hm] at h
      refine .inl ⟨_, _, _, _, _, _, _, matchPos_iff.1 hm, (renameClass_iff (.inl rfl)).2 rfl, (renameClass_iff (.inr rfl)).2 rfl, ?_⟩
      rw [h]
      simp only [List.append_assoc, lit]
      rfl

/-- **C77.** The renamed feature code has the same lines in the same order. -/
theorem C77_lines (l : List PyStr) : List.Forall₂ LineRenamed l (renameKernClasses l) := by
  unfold renameKernClasses
  induction l with
  | nil => exact .nil
  | cons x l ih => exact .cons ((C77_line _ _).2 rfl) ih

/-- **C77.** A reference to the class `_X` in a rule becomes a reference to the group that the class `_X` becomes. -/
theorem C77_reference (flags : List (PyStr × Int)) (f : Int) (name : PyStr) (hn : lit "_" <+: name) (hf : dictGet flags name = some f)
    (t : PyStr) : (RefRenamed 1 (lit "@" ++ name) t → f / 1024 % 2 = 1 → ∃ n ∈ finalNames flags name, t = lit "@" ++ n) ∧
    (RefRenamed 2 (lit "@" ++ name) t → f / 2048 % 2 = 1 → ∃ n ∈ finalNames flags name, t = lit "@" ++ n) := by
  obtain ⟨u, rfl⟩ := hn
  have h1 : ∀ side, RefRenamed side (lit "@" ++ (lit "_" ++ u)) t →
      t = (if side = 1 then lit "@public.kern1._" else lit "@public.kern2._") ++ u := by
    rintro side (⟨n, h1, h2⟩ | ⟨h1, -⟩)
    · have : lit "@_" ++ u = lit "@_" ++ n := h1
      rw [List.append_cancel_left this]
      exact h2
    · exact absurd ⟨u, rfl⟩ h1
  unfold finalNames
  rw [if_pos ⟨u, rfl⟩, hf]
  constructor
  · intro h hb
    refine ⟨lit "public.kern1." ++ (lit "_" ++ u), by simp [hb], ?_⟩
    rw [h1 1 h]
    rfl
  · intro h hb
    refine ⟨lit "public.kern2." ++ (lit "_" ++ u), by simp [hb], ?_⟩
    rw [h1 2 h]
    rfl

theorem renameClass_again {side : Nat} (hs : side = 1 ∨ side = 2) (s : PyStr) (h : IsWord s) :
    renameClass side (renameClass side s) = renameClass side s ∧ IsWord (renameClass side s) ∧ (35 ∉ s → 35 ∉ renameClass side s) := by
  have hr := (renameClass_iff hs (s := s)).2 rfl
  rcases hr with ⟨u, h1, h2⟩ | ⟨h1, h2⟩
  · have hn : ¬ lit "@_" <+: renameClass side s := by
      rw [h2]
      rcases hs with rfl | rfl <;> (rintro ⟨t, ht⟩; simp [lit] at ht)
    refine ⟨?_, ?_, ?_⟩
    · generalize renameClass side s = t at *
      unfold renameClass
      rw [if_neg (fun hc => hn (startsWith_iff.1 hc))]
    · rw [h2]
      have hu : ∀ c ∈ u, isSpace c = false := fun c hc => h.2 c (by rw [h1]; simp [hc])
      refine ⟨?_, ?_⟩
      · rcases hs with rfl | rfl <;> simp [lit]
      · intro c hc
        rcases List.mem_append.1 hc with hc' | hc
        · clear hc; rename' hc' => hc
          rcases hs with rfl | rfl <;> (revert hc; revert c; decide)
        · exact hu c hc
    · intro h35
      rw [h2]
      intro hc
      rcases List.mem_append.1 hc with hc | hc
      · rcases hs with rfl | rfl <;> revert hc <;> decide
      · exact h35 (by rw [h1]; simp [hc])
  · rw [h2]
    exact ⟨h2, h, id⟩

/-- **C77.** Renaming the renamed code changes nothing. -/
theorem C77_idempotent (l : List PyStr) : renameKernClasses (renameKernClasses l) = renameKernClasses l := by
  unfold renameKernClasses
  rw [List.map_map]
  refine List.map_congr_left fun line _ => ?_
  show renameLine (renameLine line) = renameLine line
  cases hm : matchPos (splitComment line).1 with
  | none =>
    have : renameLine line = line := by unfold renameLine; rw [hm]
    rw [this, this]
  | some m =>
    obtain ⟨code, comment, hc, h⟩ := (C77_line line _).2 rfl
    obtain ⟨rfl, -⟩ := splitComment_iff.1 hc
    rcases h with ⟨i, e, l, r, v, l', r', hr, h1, h2, h3⟩ | ⟨hn, -⟩
    · symm
      rw [← C77_line]
      obtain ⟨sp1, sp2, nl, hcode, g1, g2, b1, w1, w2, b2, v1, v2, v3⟩ := hr
      have hl := renameClass_again (.inl rfl) l w1
      have hr := renameClass_again (.inr rfl) r w2
      rw [← (renameClass_iff (.inl rfl)).1 h1] at hl
      rw [← (renameClass_iff (.inr rfl)).1 h2] at hr
      have hsp : IsBlank (lit " ") := by constructor <;> decide
      have h35 : comment ≠ [] → 35 ∉ (splitComment line).1 := by
        intro h
        rcases hc with ⟨-, -, hc⟩ | ⟨-, -, hc⟩ | ⟨c, -, hc, -⟩
        · exact absurd hc h
        · exact absurd hc h
        · exact hc
      have h35' : 35 ∉ (splitComment line).1 := by
        rcases hc with ⟨hc, hc', -⟩ | ⟨hc, -, -⟩ | ⟨c, -, hc, -⟩
        · rw [hc']; exact hc
        · exact hc
        · exact hc
      have hno : 35 ∉ i ++ e ++ lit "pos " ++ l' ++ lit " " ++ r' ++ lit " " ++ v := by
        rw [hcode] at h35'
        simp only [List.mem_append, not_or] at h35' ⊢
        obtain ⟨a1, a2, a3, a4, a5, a6, a7, a8, a9, a10⟩ := h35'
        exact ⟨⟨⟨⟨⟨⟨⟨a1, a2⟩, by decide⟩, hl.2.2 a5⟩, by decide⟩, hr.2.2 a7⟩, by decide⟩, a9⟩
      refine ⟨i ++ e ++ lit "pos " ++ l' ++ lit " " ++ r' ++ lit " " ++ v, comment, ?_, .inl ⟨i, e, l', r', v, l', r', ?_, ?_, ?_, h3⟩⟩
      · rcases hc with ⟨-, -, hc⟩ | ⟨-, -, hc⟩ | ⟨c, c0, -, -, hc⟩
        · rw [h3, hc, List.append_nil]; exact .inl ⟨hno, rfl, rfl⟩
        · rw [h3, hc, List.append_nil]; exact .inl ⟨hno, rfl, rfl⟩
        · rw [h3, hc]; exact .inr (.inr ⟨c, c0, hno, by simp only [List.append_assoc], rfl⟩)
      · refine ⟨lit " ", lit " ", [], ?_, g1, g2, hsp, hl.2.1, hr.2.1, hsp, v1, v2, .inl rfl⟩
        simp only [List.append_assoc, List.append_nil]
        rfl
      · rw [renameClass_iff (.inl rfl)]; exact hl.1.symm
      · rw [renameClass_iff (.inr rfl)]; exact hr.1.symm
    · exact absurd ⟨_, _, _, _, _, matchPos_iff.1 hm⟩ hn

/-- **C77, defects.** With two spaces between the classes the rule is not recognized; in a list of glyphs the class of the first side is
taken for one of the second side, and the class of the second side is missed. -/
theorem C77_defects :
    renameLine (lit "pos @_A  @_B -10;") = lit "pos @_A  @_B -10;" ∧
    renameLine (lit "pos [A @_B] @_C -10;") = lit "pos [A @public.kern2._B] @_C -10;" := by
  decide +kernel

/-- a rule with a comment, as C77 supposes it -/
example : renameLine (lit "  enum pos @_A  @_B  -10; # kern") = lit "  enum pos @_A  @_B  -10; # kern" ∧
    renameLine (lit "  enum pos  @_A @_B  -10; # kern") = lit "  enum pos @public.kern1._A @public.kern2._B -10; # kern" ∧
    renameLine (lit "feature kern {") = lit "feature kern {" := by
  decide +kernel

end Verif.Props
