import Verif.Props.UfoFeatures
import Verif.Props.UfoKerning
import Verif.Props.UfoHints
/-! C75, C76: classes of the file, groups and feature code of the UFO. -/
set_option autoImplicit false
namespace Verif.Props
open Verif Verif.Spec

/-! ### splitting -/

theorem splitChar_ne (c : Nat) (s : PyStr) : splitChar c s ≠ [] := by
  cases s with
  | nil => simp [splitChar]
  | cons x s =>
    unfold splitChar
    split
    · simp
    · split <;> simp

theorem inter_cons (c x : Nat) (w : PyStr) (ws : List PyStr) : [c].intercalate ((x :: w) :: ws) = x :: [c].intercalate (w :: ws) := by
  cases ws <;> simp [List.intercalate]

theorem inter_cons2 (c : Nat) (w : PyStr) (ws : List PyStr) (h : ws ≠ []) : [c].intercalate (w :: ws) = w ++ c :: [c].intercalate ws := by
  cases ws with
  | nil => exact absurd rfl h
  | cons y ws => simp [List.intercalate]

theorem splitChar_join (c : Nat) (s : PyStr) : [c].intercalate (splitChar c s) = s := by
  induction s with
  | nil => simp [splitChar, List.intercalate]
  | cons x s ih =>
    unfold splitChar
    by_cases hx : x = c
    · rw [if_pos hx, inter_cons2 _ _ _ (splitChar_ne c s), ih, hx]; rfl
    · rw [if_neg hx]
      cases hs : splitChar c s with
      | nil => exact absurd hs (splitChar_ne c s)
      | cons w ws => rw [hs] at ih; dsimp only; rw [inter_cons, ih]

theorem splitChar_no (c : Nat) (s : PyStr) : ∀ p ∈ splitChar c s, c ∉ p := by
  induction s with
  | nil => simp [splitChar]
  | cons x s ih =>
    unfold splitChar
    by_cases hx : x = c
    · rw [if_pos hx]
      intro p hp
      rcases List.mem_cons.1 hp with rfl | hp
      · simp
      · exact ih p hp
    · rw [if_neg hx]
      cases hs : splitChar c s with
      | nil => exact absurd hs (splitChar_ne c s)
      | cons w ws =>
        rw [hs] at ih
        dsimp only
        intro p hp
        rcases List.mem_cons.1 hp with rfl | hp
        · have := ih w (List.mem_cons_self ..)
          simp only [List.mem_cons, not_or]
          exact ⟨fun h => hx h.symm, this⟩
        · exact ih p (List.mem_cons_of_mem _ hp)

theorem splitChar_word {c : Nat} : ∀ {w : PyStr}, c ∉ w → ∀ t, splitChar c (w ++ c :: t) = w :: splitChar c t := by
  intro w
  induction w with
  | nil => intro _ t; simp [splitChar]
  | cons x w ih =>
    intro h t
    simp only [List.mem_cons, not_or] at h
    rw [List.cons_append]
    conv_lhs => unfold splitChar
    rw [if_neg (fun e => h.1 e.symm), ih h.2]

theorem splitChar_last {c : Nat} : ∀ {w : PyStr}, c ∉ w → splitChar c w = [w] := by
  intro w
  induction w with
  | nil => intro _; simp [splitChar]
  | cons x w ih =>
    intro h
    simp only [List.mem_cons, not_or] at h
    unfold splitChar
    rw [if_neg (fun e => h.1 e.symm), ih h.2]

theorem splitChar_unique {c : Nat} : ∀ (ps : List PyStr), ps ≠ [] → (∀ p ∈ ps, c ∉ p) → splitChar c ([c].intercalate ps) = ps := by
  intro ps
  induction ps with
  | nil => intro h; exact absurd rfl h
  | cons p ps ih =>
    intro _ h
    cases ps with
    | nil => rw [show [c].intercalate [p] = p by simp [List.intercalate]]; exact splitChar_last (h p (List.mem_cons_self ..))
    | cons q ps =>
      rw [inter_cons2 _ _ _ (by simp), splitChar_word (h p (List.mem_cons_self ..)), ih (by simp) (fun x hx => h x (List.mem_cons_of_mem _ hx))]

/-! ### stripping -/

theorem stripped_nil {s : PyStr} (h : ∀ c ∈ s, isSpace c = true) {t : PyStr} (ht : IsStripped s t) : t = [] := by
  obtain ⟨pre, post, rfl, -, -, h3, -⟩ := ht
  cases t with
  | nil => rfl
  | cons c t =>
    have h1 := h3 c rfl
    rw [h c (by simp)] at h1
    cases h1

theorem stripped_unique {s a b : PyStr} (ha : IsStripped s a) (hb : IsStripped s b) : a = b := by
  have hnil : ∀ t : PyStr, IsStripped s t → t = [] → ∀ c ∈ s, isSpace c = true := by
    rintro t ⟨pre, post, h1, h2, h3, -⟩ rfl c hc
    rw [h1] at hc
    rcases List.mem_append.1 hc with hc | hc
    · rcases List.mem_append.1 hc with hc | hc
      · exact h2 c hc
      · cases hc
    · exact h3 c hc
  by_cases h1 : a = []
  · rw [h1, stripped_nil (hnil a ha h1) hb]
  by_cases h2 : b = []
  · rw [h2, stripped_nil (hnil b hb h2) ha]
  have key : ∀ t : PyStr, t ≠ [] → IsStripped s t → t = pyStrip s := by
    rintro t hne ⟨pre, post, hs, p1, p2, p3, p4⟩
    have e1 := (span_iff (p := isSpace) (s := s) (a := pre) (b := t ++ post)).1 ⟨by rw [hs, List.append_assoc], p1, by
      intro x hx
      cases t with
      | nil => exact absurd rfl hne
      | cons c t => cases hx; exact p3 _ rfl⟩
    have e2 := (span_iff (p := isSpace) (s := (t ++ post).reverse) (a := post.reverse) (b := t.reverse)).1
      ⟨List.reverse_append, by simpa using p2, by intro x hx; rw [List.head?_reverse] at hx; exact p4 x hx⟩
    unfold pyStrip
    rw [← e1.2, ← e2.2, List.reverse_reverse]
  rw [key a h1 ha, key b h2 hb]

theorem stripped_words {ps ws : List PyStr} : List.Forall₂ IsStripped ps ws ↔ ws = ps.map pyStrip := by
  constructor
  · intro h
    induction h with
    | nil => rfl
    | cons h _ ih => rw [List.map_cons, ← ih, stripped_unique h (strip_stripped _)]
  · rintro rfl
    induction ps with
    | nil => exact .nil
    | cons p ps ih => exact .cons (strip_stripped p) ih

/-! ### one class -/

theorem parseClass_some {t n : PyStr} {gs : List PyStr} : parseClass t = .ok (some (n, gs)) ↔ IsClass t n gs := by
  unfold parseClass IsClass
  constructor
  · intro h
    by_cases hc : t.contains 58 = true
    · rw [if_pos hc] at h
      split at h
      · rename_i name contents hs
        cases h
        have hj := splitChar_join 58 t
        have hn := splitChar_no 58 t
        rw [hs] at hj hn
        refine ⟨contents, splitChar 32 contents, _, ?_, hn _ (by simp), hn _ (by simp), (splitChar_join 32 contents).symm,
          splitChar_no 32 contents, stripped_words.2 rfl, ?_⟩
        · rw [← hj, inter_cons2 _ _ _ (by simp)]
          simp [List.intercalate, lit]
        · congr 1
          funext w
          cases w <;> simp
      · cases h
    · rw [if_neg hc] at h; cases h
  · rintro ⟨contents, pieces, words, rfl, h1, h2, h3, h4, h5, h6⟩
    rw [if_pos (by simp [lit])]
    have : splitChar 58 (n ++ lit ":" ++ contents) = [n, contents] := by
      rw [List.append_assoc]
      show splitChar 58 (n ++ 58 :: contents) = _
      rw [splitChar_word h1, splitChar_last h2]
    rw [this]
    dsimp only
    rw [stripped_words] at h5
    rw [h6, h5]
    congr 3
    have hf : (fun g : PyStr => !g.isEmpty) = fun w : PyStr => decide (w ≠ []) := by funext w; cases w <;> simp
    rw [hf]
    cases pieces with
    | nil => rw [h3]; decide
    | cons p ps => rw [h3, splitChar_unique _ (by simp) h4]

theorem parseClass_none {t : PyStr} : parseClass t = .ok none ↔ NoClass t := by
  unfold parseClass NoClass
  by_cases hc : 58 ∈ t
  · rw [if_pos (by simpa using hc)]
    constructor
    · intro h; split at h <;> cases h
    · intro h; exact absurd hc h
  · rw [if_neg (by simpa using hc)]
    exact ⟨fun _ => hc, fun _ => rfl⟩

/-- a class text with more than one colon -/
theorem parseClass_error {t : PyStr} {e : PyErr} (h : parseClass t = .error e) : e = .value ∧ 2 ≤ t.count 58 := by
  unfold parseClass at h
  by_cases hc : t.contains 58 = true
  · rw [if_pos hc] at h
    have hj := splitChar_join 58 t
    split at h
    · cases h
    · rename_i hs
      cases h
      refine ⟨rfl, ?_⟩
      match hsp : splitChar 58 t with
      | [] => exact absurd hsp (splitChar_ne 58 t)
      | [w] =>
        have := splitChar_no 58 t w (by rw [hsp]; simp)
        rw [hsp] at hj
        have hj : w = t := by simpa [List.intercalate] using hj
        rw [hj] at this
        exact absurd (by simpa using hc) this
      | [a, b] => exact absurd hsp (hs a b)
      | a :: b :: c :: l =>
        rw [← hj, hsp, inter_cons2 _ _ _ (by simp), inter_cons2 _ _ _ (by simp)]
        simp only [List.count_append, List.count_cons_self]
        omega
  · rw [if_neg hc] at h; cases h

theorem isClass_count {t n : PyStr} {gs : List PyStr} (h : IsClass t n gs) : t.count 58 = 1 := by
  obtain ⟨contents, _, _, rfl, h1, h2, -⟩ := h
  rw [List.count_append, List.count_append, List.count_eq_zero.2 h1, List.count_eq_zero.2 h2]
  decide

theorem isClass_name {t n : PyStr} {gs : List PyStr} (h : IsClass t n gs) : 58 ∈ t ∧ t.takeWhile (fun c => decide (c ≠ 58)) = n := by
  obtain ⟨contents, _, _, rfl, h1, h2, -⟩ := h
  refine ⟨by simp [lit], ?_⟩
  have := (span_iff (p := fun c : Nat => decide (c ≠ 58)) (s := n ++ lit ":" ++ contents) (a := n) (b := lit ":" ++ contents)).1
    ⟨List.append_assoc .., by intro x hx; simp; rintro rfl; exact h1 hx, by intro x hx; cases hx; rfl⟩
  exact this.1.symm

theorem isClass_unique {t n n' : PyStr} {gs gs' : List PyStr} (h : IsClass t n gs) (h' : IsClass t n' gs') : n = n' ∧ gs = gs' := by
  have := (parseClass_some.2 h).symm.trans (parseClass_some.2 h')
  cases this
  exact ⟨rfl, rfl⟩

/-- **C75.** A class of glyph names is understood: the names in order, with their marks. -/
theorem C75_plain (name : PyStr) (glyphs : List PyStr) (hn : 58 ∉ name) (hg : ∀ g ∈ glyphs, IsWord g ∧ 58 ∉ g) :
    IsClass (name ++ lit ":" ++ (lit " ").intercalate glyphs) name glyphs ∧
    IsClass (name ++ lit ": " ++ (lit " ").intercalate glyphs) name glyphs := by
  have hstrip : ∀ g ∈ glyphs, IsStripped g g := by
    intro g hgg
    have := (hg g hgg).1
    refine ⟨[], [], by simp, by simp, by simp, fun c hc => ?_, fun c hc => ?_⟩
    · exact this.2 c (List.mem_of_head? hc)
    · exact this.2 c (List.mem_of_getLast? hc)
  have hall : List.Forall₂ IsStripped glyphs glyphs := by
    rw [List.forall₂_same]; exact hstrip
  have h32 : ∀ g ∈ glyphs, 32 ∉ g := by
    intro g hgg hc
    have := (hg g hgg).1.2 32 hc
    revert this; decide
  have hf : glyphs = glyphs.filter fun w => decide (w ≠ []) := by
    symm
    rw [List.filter_eq_self]
    intro g hgg
    simpa using (hg g hgg).1.1
  have h58 : 58 ∉ [32].intercalate glyphs := by
    clear hstrip hall h32 hf
    induction glyphs with
    | nil => simp [List.intercalate]
    | cons g gs ih =>
      have ih := ih fun x hx => hg x (List.mem_cons_of_mem _ hx)
      cases gs with
      | nil => simpa [List.intercalate] using (hg g (List.mem_cons_self ..)).2
      | cons g' gs =>
        rw [inter_cons2 _ _ _ (by simp)]
        simp only [List.mem_append, List.mem_cons, not_or]
        exact ⟨(hg g (List.mem_cons_self ..)).2, by decide, by simpa using ih⟩
  refine ⟨⟨_, glyphs, glyphs, rfl, hn, h58, rfl, h32, hall, hf⟩, ?_⟩
  cases glyphs with
  | nil => exact ⟨lit " ", [[], []], [[], []], by simp [List.intercalate, lit], hn, by decide, by decide, by decide, stripped_words.2 rfl, by decide⟩
  | cons g gs =>
    refine ⟨lit " " ++ [32].intercalate (g :: gs), [] :: g :: gs, [] :: g :: gs, ?_, hn, ?_, ?_, ?_, ?_, ?_⟩
    · rw [List.append_assoc, List.append_assoc]; rfl
    · simp only [List.mem_append, not_or]; exact ⟨by decide, h58⟩
    · rw [inter_cons2 _ [] (g :: gs) (by simp)]; rfl
    · intro p hp; rcases List.mem_cons.1 hp with rfl | hp
      · simp
      · exact h32 p hp
    · exact .cons (by rw [show ([] : PyStr) = pyStrip [] from rfl]; exact strip_stripped _) hall
    · rw [List.filter_cons_of_neg (by simp)]; exact hf

theorem joinText_eq (sep : PyStr) : ∀ l : List PyStr, joinText sep l = sep.intercalate l
  | [] => by simp [joinText, List.intercalate]
  | [x] => by simp [joinText, List.intercalate]
  | x :: y :: l => by
    rw [joinText, joinText_eq sep (y :: l)]
    simp [List.intercalate]

/-! ### all classes -/

section
variable {ops : AngleOps} {asm : AsmOps}

theorem firstClass_snoc {texts : List PyStr} {t n : PyStr} {gs : List PyStr} :
    FirstClass (texts ++ [t]) n gs ↔ FirstClass texts n gs ∨ (IsClass t n gs ∧ ∀ x ∈ texts, ¬ ∃ g, IsClass x n g) := by
  constructor
  · rintro ⟨pre, text, post, h1, h2, h3⟩
    rcases List.eq_nil_or_concat post with rfl | ⟨post, y, rfl⟩
    · obtain ⟨rfl, h⟩ := List.append_inj' h1 rfl
      cases h
      exact .inr ⟨h2, h3⟩
    · rw [List.concat_eq_append, ← List.cons_append, ← List.append_assoc] at h1
      obtain ⟨rfl, h⟩ := List.append_inj' h1 rfl
      exact .inl ⟨pre, text, post, rfl, h2, h3⟩
  · rintro (⟨pre, text, post, rfl, h2, h3⟩ | ⟨h1, h2⟩)
    · exact ⟨pre, text, post ++ [t], by simp, h2, h3⟩
    · exact ⟨texts, t, [], rfl, h1, h2⟩

theorem firstClass_unique {texts : List PyStr} {n : PyStr} {gs gs' : List PyStr} (h : FirstClass texts n gs) (h' : FirstClass texts n gs') : gs = gs' := by
  revert h h'
  induction texts using List.reverseRecOn with
  | nil => rintro ⟨pre, text, post, h, -⟩; simp at h
  | append_singleton texts t ih =>
    rw [firstClass_snoc, firstClass_snoc]
    have hno : ∀ {g}, FirstClass texts n g → (∀ x ∈ texts, ¬ ∃ g, IsClass x n g) → False := by
      rintro g ⟨pre, text, post, rfl, h2, -⟩ h
      exact h text (by simp) ⟨g, h2⟩
    rintro (h | ⟨h1, h2⟩) (h' | ⟨h1', h2'⟩)
    · exact ih h h'
    · exact (hno h h2').elim
    · exact (hno h' h2).elim
    · exact (isClass_unique h1 h1').2

theorem firstClass_exists {texts : List PyStr} {n : PyStr} : (∃ gs, FirstClass texts n gs) ↔ ∃ x ∈ texts, ∃ g, IsClass x n g := by
  induction texts using List.reverseRecOn with
  | nil =>
    constructor
    · rintro ⟨gs, pre, text, post, h, -⟩; simp at h
    · rintro ⟨x, hx, -⟩; cases hx
  | append_singleton texts t ih =>
    simp only [firstClass_snoc, List.mem_append, List.mem_singleton]
    constructor
    · rintro ⟨gs, h | ⟨h, -⟩⟩
      · obtain ⟨x, hx, hg⟩ := ih.1 ⟨gs, h⟩
        exact ⟨x, .inl hx, hg⟩
      · exact ⟨t, .inr rfl, gs, h⟩
    · rintro ⟨x, hx, g, hg⟩
      by_cases he : ∃ gs, FirstClass texts n gs
      · obtain ⟨gs, h⟩ := he; exact ⟨gs, .inl h⟩
      · rcases hx with hx | rfl
        · exact absurd (ih.2 ⟨x, hx, g, hg⟩) he
        · refine ⟨g, .inr ⟨hg, fun y hy hc => he (ih.2 ⟨y, hy, hc⟩)⟩⟩

/-- what the entries leave in the builder -/
structure FeaturesInv (o : BuildOpts) (l : List (FEntry ops asm)) (st : FeaturesPart) : Prop where
  code : (dataOf ops asm o l 1276 = [] ∧ st.code = []) ∨
    ∃ lines, (dataOf ops asm o l 1276).getLast? = some (.lines lines) ∧ st.code = joinText (lit "\n") (renameKernClasses lines)
  flags : (dataOf ops asm o l 2026 = [] ∧ st.flags = []) ∨
    ∃ f, (dataOf ops asm o l 2026).getLast? = some (.kerningFlags f) ∧ st.flags = f.map fun e => (e.1, e.2.1)
  texts : ∃ texts, dataOf ops asm o l 1277 = texts.map .str ∧ (∀ t ∈ texts, t.count 58 ≤ 1) ∧ DictOk st.groups ∧
    (∀ n gs, dictGet st.groups n = some gs ↔ FirstClass texts n gs) ∧ st.groups.map Prod.fst = keepFirst (classNames texts)

theorem addClass_cases {groups groups' : Groups} {t : PyStr} (h : addClass groups t = .ok groups') :
    (NoClass t ∧ groups' = groups) ∨ ∃ n gs, IsClass t n gs ∧ (((dictGet groups n).isSome ∧ groups' = groups) ∨
      (dictGet groups n = none ∧ groups' = dictSet groups n gs)) := by
  unfold addClass at h
  cases hp : parseClass t with
  | error e => rw [hp] at h; cases h
  | ok c =>
    rw [hp] at h
    cases c with
    | none => cases h; exact .inl ⟨parseClass_none.1 hp, rfl⟩
    | some c =>
      replace h : (if (dictGet groups c.1).isSome then Except.ok groups else Except.ok (dictSet groups c.1 c.2)) = (.ok groups' : Except PyErr Groups) := h
      refine .inr ⟨c.1, c.2, parseClass_some.1 hp, ?_⟩
      by_cases hc : (dictGet groups c.1).isSome
      · rw [if_pos hc] at h; cases h; exact .inl ⟨hc, rfl⟩
      · rw [if_neg hc] at h; cases h; exact .inr ⟨by simpa using hc, rfl⟩

theorem classNames_snoc (texts : List PyStr) (t : PyStr) : classNames (texts ++ [t]) = classNames texts ++ classNames [t] := by
  unfold classNames; simp

theorem texts_step {texts : List PyStr} {groups groups' : Groups} {t : PyStr} (h1 : ∀ t ∈ texts, t.count 58 ≤ 1) (h2 : DictOk groups)
    (h3 : ∀ n gs, dictGet groups n = some gs ↔ FirstClass texts n gs) (h4 : groups.map Prod.fst = keepFirst (classNames texts))
    (h : addClass groups t = .ok groups') :
    (∀ x ∈ texts ++ [t], x.count 58 ≤ 1) ∧ DictOk groups' ∧
    (∀ n gs, dictGet groups' n = some gs ↔ FirstClass (texts ++ [t]) n gs) ∧ groups'.map Prod.fst = keepFirst (classNames (texts ++ [t])) := by
  have hcount : ∀ k, t.count 58 ≤ k → k ≤ 1 → ∀ x ∈ texts ++ [t], x.count 58 ≤ 1 := by
    intro k hk hk1 x hx
    rcases List.mem_append.1 hx with hx | hx
    · exact h1 x hx
    · rw [List.mem_singleton] at hx; subst hx; omega
  rcases addClass_cases h with ⟨hn, rfl⟩ | ⟨n, gs, hc, ⟨hs, rfl⟩ | ⟨hs, rfl⟩⟩
  · have hno : ∀ n g, ¬ IsClass t n g := fun n g hc => hn (isClass_name hc).1
    refine ⟨hcount 0 (by rw [List.count_eq_zero.2 hn]) (by omega), h2, fun m g => ?_, ?_⟩
    · rw [h3, firstClass_snoc]
      constructor
      · exact .inl
      · rintro (h | ⟨h, -⟩)
        · exact h
        · exact absurd h (hno _ _)
    · rw [h4, classNames_snoc]
      have : classNames [t] = [] := by
        unfold classNames
        rw [List.filter_cons_of_neg (by simpa [NoClass] using hn)]
        rfl
      rw [this, List.append_nil]
  · have hname : classNames [t] = [n] := by
      obtain ⟨a, b⟩ := isClass_name hc
      unfold classNames
      rw [List.filter_cons_of_pos (by simpa using a)]
      simpa using b
    refine ⟨hcount 1 (by rw [isClass_count hc]) (by omega), h2, fun m g => ?_, ?_⟩
    · rw [h3, firstClass_snoc]
      constructor
      · exact .inl
      · rintro (h | ⟨h, hx⟩)
        · exact h
        · obtain ⟨rfl, rfl⟩ := isClass_unique h hc
          obtain ⟨g', hg'⟩ := Option.isSome_iff_exists.1 hs
          have := firstClass_exists.1 ⟨g', (h3 _ _).1 hg'⟩
          obtain ⟨x, hx1, hx2⟩ := this
          exact absurd hx2 (hx x hx1)
    · rw [h4, classNames_snoc, hname, keepFirst_snoc, if_pos]
      obtain ⟨g', hg'⟩ := Option.isSome_iff_exists.1 hs
      have : n ∈ keepFirst (classNames texts) := by
        rw [← h4]
        exact List.mem_map.2 ⟨_, dictGet_some_mem hg', rfl⟩
      exact mem_keepFirst.1 this
  · have hname : classNames [t] = [n] := by
      obtain ⟨a, b⟩ := isClass_name hc
      unfold classNames
      rw [List.filter_cons_of_pos (by simpa using a)]
      simpa using b
    have hnot : n ∉ groups.map Prod.fst := dictGet_none.1 hs
    refine ⟨hcount 1 (by rw [isClass_count hc]) (by omega), dictSet_ok h2 n gs, fun m g => ?_, ?_⟩
    · rw [dictGet_dictSet, firstClass_snoc]
      by_cases hm : n = m
      · subst hm
        rw [if_pos rfl]
        constructor
        · intro h
          cases h
          refine .inr ⟨hc, fun x hx hx' => ?_⟩
          obtain ⟨g', hg'⟩ := firstClass_exists.2 ⟨x, hx, hx'⟩
          rw [(h3 _ _).2 hg'] at hs
          cases hs
        · rintro (h | ⟨h, -⟩)
          · rw [(h3 _ _).2 h] at hs; cases hs
          · rw [(isClass_unique h hc).2]
      · rw [if_neg hm, h3]
        constructor
        · exact .inl
        · rintro (h | ⟨h, -⟩)
          · exact h
          · exact absurd (isClass_unique hc h).1 hm
    · rw [dictSet_new hnot, List.map_append, h4, classNames_snoc, hname, keepFirst_snoc, if_neg]
      · rfl
      · rw [h4] at hnot
        intro hx
        exact hnot (mem_keepFirst.2 hx)

theorem featureStep_cases {o : BuildOpts} {st st' : FeaturesPart} {e : FEntry ops asm} (h : featureStep ops asm o st e = .ok st') :
    (st' = st ∧ (e.1 ∈ skipKeys o ∨ e.2 = none)) ∨ ∃ d, e = (e.1, some d) ∧ e.1 ∉ skipKeys o ∧ featureEntry ops asm st e.1 d = .ok st' := by
  unfold featureStep at h
  by_cases h1 : e.1 ∈ skipKeys o
  · rw [if_pos h1] at h; cases h; exact .inl ⟨rfl, .inl h1⟩
  · rw [if_neg h1] at h
    cases hd : e.2 with
    | none => rw [hd] at h; cases h; exact .inl ⟨rfl, .inr rfl⟩
    | some d => rw [hd] at h; exact .inr ⟨d, by rw [← hd], h1, h⟩

theorem featuresInv_congr {o : BuildOpts} {l l' : List (FEntry ops asm)} {st : FeaturesPart} (h : FeaturesInv o l st)
    (hd : ∀ id ∈ [1276, 1277, 2026], dataOf ops asm o l' id = dataOf ops asm o l id) : FeaturesInv o l' st where
  code := by rw [hd 1276 (by decide)]; exact h.code
  flags := by rw [hd 2026 (by decide)]; exact h.flags
  texts := by rw [hd 1277 (by decide)]; exact h.texts

theorem featuresInv_step {o : BuildOpts} (l : List (FEntry ops asm)) (st : FeaturesPart) (e : FEntry ops asm) (st' : FeaturesPart)
    (h : FeaturesInv o l st) (he : featureStep ops asm o st e = .ok st') : FeaturesInv o (l ++ [e]) st' := by
  rcases featureStep_cases he with ⟨rfl, hc⟩ | ⟨d, hed, hskip, he'⟩
  · exact featuresInv_congr h fun id _ => dataOf_same ops asm (.inr hc)
  · clear he
    obtain ⟨id, dd⟩ := e
    dsimp only at hed hskip he'
    cases hed
    have hs : ∀ j, j ≠ id → dataOf ops asm o (l ++ [(id, some d)]) j = dataOf ops asm o l j := fun j hj => dataOf_same ops asm (.inl (Ne.symm hj))
    have hn : dataOf ops asm o (l ++ [(id, some d)]) id = dataOf ops asm o l id ++ [d] := dataOf_new ops asm hskip
    clear hskip
    unfold featureEntry at he'
    by_cases h1 : id = 1276
    · subst h1
      rw [if_pos rfl] at he'
      cases d <;> first | (cases he'; done) | skip
      cases he'
      refine ⟨.inr ⟨_, by rw [hn]; simp, rfl⟩, ?_, ?_⟩
      · rw [hs 2026 (by decide)]; exact h.flags
      · rw [hs 1277 (by decide)]; exact h.texts
    by_cases h2 : id = 1277
    · subst h2
      rw [if_neg h1, if_pos rfl] at he'
      cases d <;> first | (cases he'; done) | skip
      rename_i s
      replace he' : (addClass st.groups s >>= fun groups => Except.ok { st with groups := groups }) = .ok st' := he'
      cases ha : addClass st.groups s with
      | error x => rw [ha] at he'; cases he'
      | ok groups' =>
        rw [ha] at he'
        cases he'
        obtain ⟨texts, t1, t2, t3, t4, t5⟩ := h.texts
        obtain ⟨g2, g3, g4, g5⟩ := texts_step t2 t3 t4 t5 ha
        refine ⟨?_, ?_, ⟨texts ++ [s], ?_, g2, g3, g4, g5⟩⟩
        · rw [hs 1276 (by decide)]; exact h.code
        · rw [hs 2026 (by decide)]; exact h.flags
        · rw [hn, t1]; simp
    by_cases h3 : id = 2026
    · subst h3
      rw [if_neg h1, if_neg h2, if_pos rfl] at he'
      cases d <;> first | (cases he'; done) | skip
      cases he'
      refine ⟨?_, .inr ⟨_, by rw [hn]; simp, rfl⟩, ?_⟩
      · rw [hs 1276 (by decide)]; exact h.code
      · rw [hs 1277 (by decide)]; exact h.texts
    rw [if_neg h1, if_neg h2, if_neg h3] at he'
    cases he'
    refine featuresInv_congr h fun j hj => hs j ?_
    simp only [List.mem_cons, List.not_mem_nil, or_false] at hj
    omega

theorem featuresInv {o : BuildOpts} {es : List (FEntry ops asm)} {st : FeaturesPart} (h : buildFeatures ops asm o es = .ok st) :
    FeaturesInv o es st := by
  refine foldlM_inv (step := featureStep ops asm o) (FeaturesInv o) ?_ (featuresInv_step (o := o)) es st h
  have hnil : ∀ id, dataOf ops asm o [] id = [] := by intro id; unfold dataOf; simp
  refine ⟨.inl ⟨hnil _, rfl⟩, .inl ⟨hnil _, rfl⟩, ⟨[], by rw [hnil]; rfl, by simp, by simp [DictOk], ?_, rfl⟩⟩
  intro n gs
  constructor
  · intro h; cases h
  · rintro ⟨pre, text, post, h, -⟩; simp at h

/-- **C75.** The classes of every file that can be converted: they have the names of the class texts, in this order; of several texts with
the same name the first one counts, and texts without a colon do not count. -/
theorem C75_classes {o : BuildOpts} {es : List (FEntry ops asm)} {st : FeaturesPart} (h : buildFeatures ops asm o es = .ok st) :
    DictOk st.groups ∧ (∀ n gs, dictGet st.groups n = some gs ↔ FirstClass (textsOf ops asm o es 1277) n gs) ∧
    st.groups.map Prod.fst = keepFirst (classNames (textsOf ops asm o es 1277)) := by
  obtain ⟨texts, t1, t2, t3, t4, t5⟩ := (featuresInv h).texts
  rw [textsOf_of t1]
  exact ⟨t3, t4, t5⟩

/-- **C75.** Exactly when the classes can be converted: no class text has more than one colon. -/
theorem C75_success {o : BuildOpts} {es : List (FEntry ops asm)} (hw : ∀ e ∈ es, WellTyped ops asm e) :
    ((∃ st, buildFeatures ops asm o es = .ok st) ↔ ∀ t ∈ textsOf ops asm o es 1277, t.count 58 ≤ 1) ∧
    ∀ er, buildFeatures ops asm o es = .error er → er = .value := by
  have key : ∀ (es : List (FEntry ops asm)) (st : FeaturesPart), (∀ e ∈ es, WellTyped ops asm e) →
      ((∃ st', es.foldlM (featureStep ops asm o) st = .ok st') ↔ ∀ t ∈ textsOf ops asm o es 1277, t.count 58 ≤ 1) ∧
      ∀ er, es.foldlM (featureStep ops asm o) st = .error er → er = .value := by
    intro es
    induction es with
    | nil =>
      intro st _
      refine ⟨⟨fun _ t ht => ?_, fun _ => ⟨st, rfl⟩⟩, fun er h => by cases h⟩
      unfold textsOf dataOf at ht
      simp at ht
    | cons e es ih =>
      intro st hw
      have hwe := hw e (List.mem_cons_self ..)
      have hrest := fun st1 => ih st1 fun x hx => hw x (List.mem_cons_of_mem _ hx)
      have hcons : textsOf ops asm o (e :: es) 1277 = textsOf ops asm o [e] 1277 ++ textsOf ops asm o es 1277 := by
        unfold textsOf
        rw [← List.filterMap_append]
        congr 1
        unfold dataOf
        split
        · rfl
        · rw [← List.filterMap_append]; rfl
      have hstep : (∃ st1, featureStep ops asm o st e = .ok st1 ∧ ∀ t ∈ textsOf ops asm o [e] 1277, t.count 58 ≤ 1) ∨
          (featureStep ops asm o st e = .error .value ∧ ∃ t ∈ textsOf ops asm o [e] 1277, 2 ≤ t.count 58) := by
        obtain ⟨id, d⟩ := e
        have hne : id ≠ 1277 → textsOf ops asm o [((id, d) : FEntry ops asm)] 1277 = [] := by
          intro h
          unfold textsOf dataOf
          split
          · rfl
          · simp [h]
        unfold featureStep
        by_cases hsk : id ∈ skipKeys o
        · rw [if_pos hsk]
          refine .inl ⟨st, rfl, ?_⟩
          rw [hne (fun h => ?_)]
          · simp
          · subst h
            revert hsk
            unfold skipKeys minimalKeys
            cases o.vfbMinimal <;> decide
        rw [if_neg hsk]
        cases d with
        | none =>
          refine .inl ⟨st, rfl, ?_⟩
          intro t ht
          unfold textsOf dataOf at ht
          rw [ignored_eq] at ht
          by_cases h : (1277 : Int) ∈ skipKeys o <;> simp [h] at ht
        | some d =>
          show (∃ st1, featureEntry ops asm st id d = .ok st1 ∧ _) ∨ (featureEntry ops asm st id d = .error .value ∧ _)
          unfold featureEntry
          by_cases h1 : id = 1276
          · rw [if_pos h1, hne (by omega)]
            have hk := hwe .fea d (show kindOf id = _ by rw [h1]; decide +kernel) rfl
            cases d <;> first
              | (simp [Kind.cls] at hk; done)
              | exact .inl ⟨_, rfl, by simp⟩
          rw [if_neg h1]
          by_cases h2 : id = 1277
          · rw [if_pos h2]
            subst h2
            have hk := hwe .string d (show kindOf 1277 = _ by decide +kernel) rfl
            cases d <;> first
              | (simp [Kind.cls] at hk; done)
              | skip
            rename_i t
            have ht : textsOf ops asm o [((1277, some (.str t)) : FEntry ops asm)] 1277 = [t] := by
              unfold textsOf dataOf
              rw [ignored_eq, if_neg hsk]
              simp
            rw [ht]
            show (∃ st1, (addClass st.groups t >>= fun groups => Except.ok { st with groups := groups }) = .ok st1 ∧ _) ∨
              ((addClass st.groups t >>= fun groups => Except.ok { st with groups := groups }) = .error .value ∧ _)
            cases hp : parseClass t with
            | error er =>
              obtain ⟨rfl, hc⟩ := parseClass_error hp
              refine .inr ⟨?_, t, by simp, hc⟩
              unfold addClass
              rw [hp]
              rfl
            | ok c =>
              left
              have hok : ∃ g, addClass st.groups t = .ok g := by
                unfold addClass
                rw [hp]
                cases c with
                | none => exact ⟨_, rfl⟩
                | some c =>
                  by_cases hc : (dictGet st.groups c.1).isSome
                  · exact ⟨_, if_pos hc⟩
                  · exact ⟨_, if_neg hc⟩
              obtain ⟨g, hg⟩ := hok
              rw [hg]
              refine ⟨_, rfl, ?_⟩
              intro x hx
              rw [List.mem_singleton] at hx
              subst hx
              cases c with
              | none => rw [List.count_eq_zero.2 (parseClass_none.1 hp)]; omega
              | some c => rw [isClass_count (parseClass_some.1 hp)]
          rw [if_neg h2, hne h2]
          by_cases h3 : id = 2026
          · rw [if_pos h3]
            have hk := hwe .kerningFlags d (show kindOf id = _ by rw [h3]; decide +kernel) rfl
            cases d <;> first
              | (simp [Kind.cls] at hk; done)
              | exact .inl ⟨_, rfl, by simp⟩
          rw [if_neg h3]
          exact .inl ⟨st, rfl, by simp⟩
      rw [List.foldlM_cons, hcons]
      rcases hstep with ⟨st1, h1, h2⟩ | ⟨h1, t, h2, h3⟩
      · rw [h1]
        show ((∃ st', es.foldlM (featureStep ops asm o) st1 = .ok st') ↔ _) ∧ ∀ er, es.foldlM (featureStep ops asm o) st1 = .error er → _
        obtain ⟨a1, a2⟩ := hrest st1
        refine ⟨?_, a2⟩
        rw [a1]
        constructor
        · intro h t ht
          rcases List.mem_append.1 ht with ht | ht
          · exact h2 t ht
          · exact h t ht
        · intro h t ht
          exact h t (List.mem_append_right _ ht)
      · rw [h1]
        refine ⟨⟨?_, ?_⟩, ?_⟩
        · rintro ⟨st', h⟩; cases h
        · intro h; have := h t (List.mem_append_left _ h2); omega
        · intro er h; cases h; rfl
  exact key es _ hw

/-- **C75.** The feature code is that of the last entry, line by line, with renamed kerning classes; the flags of the kerning classes are
those of the last entry. -/
theorem C75_code {o : BuildOpts} {es : List (FEntry ops asm)} {st : FeaturesPart} (h : buildFeatures ops asm o es = .ok st) :
    ((dataOf ops asm o es 1276 = [] ∧ st.code = []) ∨
      ∃ lines lines', (dataOf ops asm o es 1276).getLast? = some (.lines lines) ∧ List.Forall₂ LineRenamed lines lines' ∧
        st.code = (lit "\n").intercalate lines') ∧
    ((dataOf ops asm o es 2026 = [] ∧ st.flags = []) ∨
      ∃ f, (dataOf ops asm o es 2026).getLast? = some (.kerningFlags f) ∧ st.flags = f.map fun e => (e.1, e.2.1)) := by
  obtain ⟨h1, h2, -⟩ := featuresInv h
  refine ⟨?_, h2⟩
  rcases h1 with h1 | ⟨lines, h1, h3⟩
  · exact .inl h1
  · exact .inr ⟨lines, _, h1, C77_lines lines, by rw [h3, joinText_eq]⟩

end

/-! ### groups and features of the UFO -/

theorem toFeatures_iff {o : FeaOpts} {n : PyStr} : toFeatures o n = true ↔ InFeatures o n := by
  have hd : KernName n → ¬ lit "." <+: n := by
    rintro ⟨t, rfl⟩ ⟨u, hu⟩
    simp [lit] at hu
  unfold toFeatures InFeatures KernName at *
  have hk := startsWith_iff (s := n) (p := lit "public.kern")
  have hp := startsWith_iff (s := n) (p := lit ".")
  by_cases h1 : lit "public.kern" <+: n
  · have h2 := hd h1
    rw [hk.2 h1, Bool.eq_false_iff.2 (fun h => h2 (hp.1 h))]
    cases o.addKerning <;> simp [h1]
  · rw [Bool.eq_false_iff.2 (fun h => h1 (hk.1 h))]
    by_cases h2 : lit "." <+: n
    · rw [hp.2 h2]; simp [h1, h2]
    · rw [Bool.eq_false_iff.2 (fun h => h2 (hp.1 h))]
      cases o.moveGroups <;> simp [h1, h2]

section
variable {o : FeaOpts} {minimal : Bool} {p : FeaturesPart} {order : List PyStr} {kerning : MMKerning} {d : SharedData}

theorem sharedData_cases (h : sharedData o minimal p order kerning = .ok d) :
    ∃ k, ufoKerning order (transformGroups p.groups p.flags order minimal).groups kerning (transformGroups p.groups p.flags order minimal).keys = .ok k ∧
      d.kerning = k ∧ d.groupOrder = (transformGroups p.groups p.flags order minimal).order ∧
      d.keyGlyphs = (transformGroups p.groups p.flags order minimal).keys ∧
      d.text = ((transformGroups p.groups p.flags order minimal).groups.filter fun g => toFeatures o g.1).flatMap classLine ++
        (if p.code.isEmpty then [] else lit "\n\n" ++ p.code) ∧
      d.groups = if o.moveGroups then k.groups.filter (fun g =>
        !(((transformGroups p.groups p.flags order minimal).groups.filter fun g => toFeatures o g.1).map Prod.fst).contains g.1) else k.groups := by
  unfold sharedData at h
  dsimp only at h
  generalize transformGroups p.groups p.flags order minimal = t at *
  cases hk : ufoKerning order t.groups kerning t.keys with
  | error e => rw [hk] at h; cases h
  | ok k => rw [hk] at h; cases h; exact ⟨k, rfl, rfl, rfl, rfl, rfl, rfl⟩

theorem ufoKerning_groups {groups : Groups} {keys : List (PyStr × PyStr)} {k : UfoKerning} (h : ufoKerning order groups kerning keys = .ok k) :
    k.groups = (buildGlyphToGroupMaps groups).1 := by
  unfold ufoKerning at h
  dsimp only at h
  cases hn : makeNames order (buildGlyphToGroupMaps groups).1 (reverseKeyGlyphs keys) kerning with
  | error e => rw [hn] at h; cases h
  | ok n => rw [hn] at h; cases h; rfl

/-- **C76.** The feature code of the UFO, for classes with unique names that do not look like groups of the UFO: the definitions of the
classes that the user wants there, in the order of the file, each with its glyphs, and after two line feeds the feature code of the file. -/
theorem C76_text (h : sharedData o minimal p order kerning = .ok d) (hd : DictOk p.groups) (hp : ∀ e ∈ p.groups, ¬ KernName e.1) :
    d.text = (p.groups.flatMap fun e => ((finalNames p.flags e.1).filter fun n => InFeatures o n).flatMap fun n =>
        classDefinition n (groupGlyphs order minimal e.2)) ++
      (if p.code = [] then [] else lit "\n\n" ++ p.code) := by
  obtain ⟨k, -, -, -, -, h1, -⟩ := sharedData_cases h
  rw [h1, (C58_transform p.groups p.flags order minimal hd hp).1]
  congr 1
  · rw [List.filter_flatMap, List.flatMap_assoc]
    refine congrArg (fun f => List.flatMap f p.groups) ?_
    funext e
    rw [List.filter_map, List.flatMap_map]
    have hf : ((fun g : PyStr × List PyStr => toFeatures o g.1) ∘ fun n => (n, groupGlyphs order minimal e.2)) = fun n => decide (InFeatures o n) := by
      funext n
      have := toFeatures_iff (o := o) (n := n)
      simp only [Function.comp_apply]
      by_cases hi : InFeatures o n
      · rw [this.2 hi]; simp [hi]
      · rw [Bool.eq_false_iff.2 (fun h => hi (this.1 h))]; simp [hi]
    rw [hf]
    refine congrArg (fun f => List.flatMap f _) ?_
    funext n
    unfold classLine classDefinition
    rw [joinText_eq]
  · cases p.code <;> rfl

theorem moved_iff {n : PyStr} (hd : DictOk p.groups) (hp : ∀ e ∈ p.groups, ¬ KernName e.1) :
    (((transformGroups p.groups p.flags order minimal).groups.filter fun g => toFeatures o g.1).map Prod.fst).contains n = true ↔
      InFeatures o n ∧ ∃ e ∈ p.groups, n ∈ finalNames p.flags e.1 := by
  rw [(C58_transform p.groups p.flags order minimal hd hp).1]
  simp only [List.contains_iff_mem, List.mem_map, List.mem_filter, List.mem_flatMap, toFeatures_iff]
  constructor
  · rintro ⟨x, ⟨⟨e, he, n', hn', rfl⟩, hf⟩, rfl⟩
    exact ⟨hf, e, he, hn'⟩
  · rintro ⟨hf, e, he, hn⟩
    exact ⟨_, ⟨⟨e, he, n, hn, rfl⟩, hf⟩, rfl⟩

open Classical in
/-- the groups that have been moved are missing, the others are as before -/
theorem final_get (h : sharedData o minimal p order kerning = .ok d) (hd : DictOk p.groups) (hp : ∀ e ∈ p.groups, ¬ KernName e.1) (n : PyStr) :
    dictGet d.groups n = if o.moveGroups = true ∧ InFeatures o n ∧ ∃ e ∈ p.groups, n ∈ finalNames p.flags e.1 then none else
      dictGet d.kerning.groups n := by
  obtain ⟨k, hk, e1, -, -, -, h1⟩ := sharedData_cases h
  rw [h1, e1]
  cases hm : o.moveGroups with
  | false => simp
  | true =>
    rw [if_pos rfl, dictGet_filter k.groups (fun n =>
      !(((transformGroups p.groups p.flags order minimal).groups.filter fun g => toFeatures o g.1).map Prod.fst).contains n)]
    have := moved_iff (o := o) (order := order) (minimal := minimal) (n := n) hd hp
    by_cases hc : InFeatures o n ∧ ∃ e ∈ p.groups, n ∈ finalNames p.flags e.1
    · refine Eq.trans ?_ (if_pos ⟨rfl, hc⟩).symm
      rw [this.2 hc]; rfl
    · refine Eq.trans ?_ (if_neg (fun h => hc h.2)).symm
      rw [Bool.eq_false_iff.2 (fun h => hc (this.1 h))]; rfl

theorem final_other {flags : List (PyStr × Int)} {n n' : PyStr} (hn : ¬ KernName n) (h : n ∈ finalNames flags n') : n' = n ∧ ¬ lit "_" <+: n := by
  unfold finalNames at h
  by_cases h_ : lit "_" <+: n'
  · rw [if_pos h_] at h
    exfalso
    apply hn
    split at h
    · cases h
    · rcases List.mem_append.1 h with hc | hc
      · split at hc
        · rw [List.mem_singleton] at hc; rw [hc]; exact ⟨lit "1." ++ n', rfl⟩
        · cases hc
      · split at hc
        · rw [List.mem_singleton] at hc; rw [hc]; exact ⟨lit "2." ++ n', rfl⟩
        · cases hc
  · rw [if_neg h_, List.mem_singleton] at h
    rw [h]
    exact ⟨rfl, h_⟩

/-- **C76.** A class that is no kerning class is in the groups of the UFO with all its glyphs, unless it has been moved to the feature code. -/
theorem C76_other_groups (h : sharedData o minimal p order kerning = .ok d) (hd : DictOk p.groups) (hp : ∀ e ∈ p.groups, ¬ KernName e.1)
    {n : PyStr} (hn : ¬ KernName n) (hu : ¬ lit "_" <+: n) :
    dictGet d.groups n = if o.moveGroups = true ∧ ¬ lit "." <+: n then none else (dictGet p.groups n).map (groupGlyphs order minimal) := by
  obtain ⟨k, hk, -, -, -, -, h1⟩ := sharedData_cases h
  have ht := C58_transform p.groups p.flags order minimal hd hp
  have hok := (C58_names_unique p.groups p.flags order minimal hd hp).1
  have hget : dictGet k.groups n = (dictGet p.groups n).map (groupGlyphs order minimal) := by
    rw [ufoKerning_groups hk, C49_other_groups _ hok n hn]
    have hmem : ∀ gs, dictGet (transformGroups p.groups p.flags order minimal).groups n = some gs ↔
        (dictGet p.groups n).map (groupGlyphs order minimal) = some gs := by
      intro gs
      rw [dictGet_iff hok, ht.1, List.mem_flatMap, Option.map_eq_some_iff]
      constructor
      · rintro ⟨e, he, hx⟩
        obtain ⟨n', hn', hx⟩ := List.mem_map.1 hx
        cases hx
        have : e.1 = n := (final_other hn hn').1
        exact ⟨e.2, (dictGet_iff hd).2 (by rw [← this]; exact he), rfl⟩
      · rintro ⟨gs', h1, rfl⟩
        refine ⟨(n, gs'), (dictGet_iff hd).1 h1, List.mem_map.2 ⟨n, ?_, rfl⟩⟩
        unfold finalNames
        rw [if_neg hu]
        simp
    cases hc : (dictGet p.groups n).map (groupGlyphs order minimal) with
    | none =>
      cases hc' : dictGet (transformGroups p.groups p.flags order minimal).groups n with
      | none => rfl
      | some gs => rw [hmem] at hc'; rw [hc'] at hc; cases hc
    | some gs => exact (hmem gs).2 hc
  obtain ⟨k', hk', e1, -⟩ := sharedData_cases h
  rw [hk] at hk'
  cases hk'
  rw [final_get h hd hp, e1, hget]
  by_cases hc : o.moveGroups = true ∧ ¬ lit "." <+: n
  · rw [if_pos hc]
    by_cases hex : (dictGet p.groups n).isSome
    · rw [if_pos]
      obtain ⟨gs, hgs⟩ := Option.isSome_iff_exists.1 hex
      refine ⟨hc.1, .inr ⟨hn, hc.2, hc.1⟩, _, (dictGet_iff hd).1 hgs, ?_⟩
      unfold finalNames
      rw [if_neg hu]
      simp
    · rw [Option.not_isSome_iff_eq_none.1 hex]; simp
  · rw [if_neg hc, if_neg]
    rintro ⟨h1, h2, -⟩
    rcases h2 with ⟨hf, -⟩ | ⟨-, hf, -⟩
    · exact hn hf
    · exact hc ⟨h1, hf⟩

theorem other_get_none (h : sharedData o minimal p order kerning = .ok d) (hd : DictOk p.groups) (hp : ∀ e ∈ p.groups, ¬ KernName e.1)
    {n : PyStr} (hn : KernName n) (hx : dictGet d.kerning.groups n ≠ none) : ∃ e ∈ p.groups, n ∈ finalNames p.flags e.1 := by
  obtain ⟨k, hk, e1, -⟩ := sharedData_cases h
  have hok := (C58_names_unique p.groups p.flags order minimal hd hp).1
  rw [e1, ufoKerning_groups hk] at hx
  have hs : ∃ side, (side = 1 ∨ side = 2) ∧ OfSide side n := by
    by_contra hc
    exact hx (C49_no_side_dropped _ hok n hn (fun h1 => hc ⟨1, .inl rfl, h1⟩) (fun h2 => hc ⟨2, .inr rfl, h2⟩))
  obtain ⟨side, hs, hn⟩ := hs
  rw [C49_members _ hok side hs n hn] at hx
  cases hg : dictGet (transformGroups p.groups p.flags order minimal).groups n with
  | none => rw [hg] at hx; exact absurd rfl hx
  | some gs =>
    have hm := dictGet_some_mem hg
    rw [(C58_transform p.groups p.flags order minimal hd hp).1, List.mem_flatMap] at hm
    obtain ⟨e, he, hm⟩ := hm
    obtain ⟨n', hn', hx⟩ := List.mem_map.1 hm
    cases hx
    exact ⟨e, he, hn'⟩

/-- **C76.** The kerning groups of the UFO are those to which the kerning refers (see C49, C50), unless the user wants them in the feature
code and wants groups moved there: then the UFO has got no kerning group at all. -/
theorem C76_kerning_groups (h : sharedData o minimal p order kerning = .ok d) (hd : DictOk p.groups) (hp : ∀ e ∈ p.groups, ¬ KernName e.1)
    {n : PyStr} (hn : KernName n) :
    dictGet d.groups n = if o.addKerning = true ∧ o.moveGroups = true then none else dictGet d.kerning.groups n := by
  rw [final_get h hd hp]
  by_cases hc : o.addKerning = true ∧ o.moveGroups = true
  · rw [if_pos hc]
    by_cases hx : dictGet d.kerning.groups n = none
    · rw [hx]; simp
    · rw [if_pos ⟨hc.2, .inl ⟨hn, hc.1⟩, other_get_none h hd hp hn hx⟩]
  · rw [if_neg hc, if_neg]
    rintro ⟨h1, h2, -⟩
    rcases h2 with ⟨-, h2⟩ | ⟨h2, -⟩
    · exact hc ⟨h2, h1⟩
    · exact h2 hn

/-- **C76.** No class gets lost: every class is in the groups of the UFO, with all its glyphs, or is defined in the feature code. -/
theorem C76_nothing_lost (h : sharedData o minimal p order kerning = .ok d) (hd : DictOk p.groups) (hp : ∀ e ∈ p.groups, ¬ KernName e.1)
    {name : PyStr} {gs : List PyStr} (he : (name, gs) ∈ p.groups) {n : PyStr} (hn : n ∈ finalNames p.flags name) :
    (¬ KernName n ∧ dictGet d.groups n = some (groupGlyphs order minimal gs)) ∨
    (KernName n ∧ dictGet d.groups n = dictGet d.kerning.groups n) ∨
    classDefinition n (groupGlyphs order minimal gs) <:+: d.text := by
  by_cases hf : InFeatures o n
  · right; right
    rw [C76_text h hd hp]
    have hin : ∀ {α β : Type} (l : List α) (f : α → List β) (x : α), x ∈ l → f x <:+: l.flatMap f := by
      intro α β l f x hx
      obtain ⟨a, b, rfl⟩ := List.append_of_mem hx
      exact ⟨a.flatMap f, b.flatMap f, by simp⟩
    refine List.IsInfix.trans ?_ (List.infix_append' [] _ _)
    refine List.IsInfix.trans ?_ (hin _ _ _ he)
    exact hin _ (fun n => classDefinition n (groupGlyphs order minimal gs)) n (List.mem_filter.2 ⟨hn, by simpa using hf⟩)
  · by_cases hk : KernName n
    · right; left
      refine ⟨hk, ?_⟩
      rw [C76_kerning_groups h hd hp hk, if_neg]
      rintro ⟨h1, -⟩
      exact hf (.inl ⟨hk, h1⟩)
    · left
      obtain ⟨rfl, hu⟩ := final_other hk hn
      refine ⟨hk, ?_⟩
      rw [C76_other_groups h hd hp hk hu, if_neg, (dictGet_iff hd).2 he]
      · rfl
      · rintro ⟨h1, h2⟩
        exact hf (.inr ⟨hk, h2, h1⟩)

/-- **C76.** Unless both options are given, the kerning of each master refers only to groups of the UFO and to glyphs. -/
theorem C76_no_dangling (h : sharedData o minimal p order kerning = .ok d) (hd : DictOk p.groups) (hp : ∀ e ∈ p.groups, ¬ KernName e.1)
    (ho : ¬ (o.addKerning = true ∧ o.moveGroups = true)) {m : Nat} {pairs : List ((PyStr × PyStr) × Int)}
    (hm : d.kerning.masterKerning m = .ok pairs) :
    ∀ x ∈ pairs, (KernName x.1.1 → (∃ e ∈ kerning, e.1.1 = x.1.1) ∨ (dictGet d.groups x.1.1).isSome) ∧
      (KernName x.1.2 → x.1.2 ∈ order ∨ (dictGet d.groups x.1.2).isSome) := by
  obtain ⟨k, hk, e1, -⟩ := sharedData_cases h
  intro x hx
  rw [← e1] at hk
  have := C50_no_dangling hk hm x hx
  refine ⟨fun hn => ?_, fun hn => ?_⟩
  · rw [C76_kerning_groups h hd hp hn, if_neg ho]; exact this.1
  · rw [C76_kerning_groups h hd hp hn, if_neg ho]; exact this.2

/-- **C76, defect.** "public.groupOrder" lists the groups that have been moved away. -/
theorem C76_group_order (h : sharedData o minimal p order kerning = .ok d) (hd : DictOk p.groups) (hp : ∀ e ∈ p.groups, ¬ KernName e.1) :
    d.groupOrder = p.groups.flatMap (fun e => finalNames p.flags e.1) ∧
    (o.moveGroups = true → ∀ e ∈ p.groups, ¬ lit "_" <+: e.1 → ¬ lit "." <+: e.1 → e.1 ∈ d.groupOrder ∧ dictGet d.groups e.1 = none) := by
  obtain ⟨k, hk, -, e2, -⟩ := sharedData_cases h
  have ho : d.groupOrder = p.groups.flatMap (fun e => finalNames p.flags e.1) := by
    rw [e2, (C58_transform p.groups p.flags order minimal hd hp).2.1]
  refine ⟨ho, fun hm e he h1 h2 => ⟨?_, ?_⟩⟩
  · rw [ho, List.mem_flatMap]
    refine ⟨e, he, ?_⟩
    unfold finalNames
    rw [if_neg h1]
    simp
  · rw [C76_other_groups h hd hp (hp e he) h1, if_pos ⟨hm, h2⟩]

theorem index_ok {α : Type} {l : List α} {i : Int} : (∃ x, pyIndex l i = .ok x) ↔ -(l.length : Int) ≤ i ∧ i < l.length := by
  constructor
  · rintro ⟨x, h⟩
    obtain ⟨h1, h2⟩ := pyIndex_ok h
    refine ⟨h2, ?_⟩
    obtain ⟨h3, -⟩ := List.getElem?_eq_some_iff.1 h1
    split at h3 <;> omega
  · rintro ⟨h1, h2⟩
    by_cases hi : i < 0
    · have h3 : (i + l.length).toNat < l.length := by omega
      have h4 : (l.length + i).toNat < l.length := by omega
      refine ⟨l[(l.length + i).toNat], ?_⟩
      unfold pyIndex
      rw [if_neg (by omega), if_pos h1, List.getElem?_eq_getElem h4]
    · have h3 : i.toNat < l.length := by omega
      refine ⟨l[i.toNat], ?_⟩
      unfold pyIndex
      rw [if_pos (by omega), List.getElem?_eq_getElem h3]

/-- **C76.** Exactly when the shared data can be made: every stored pair must refer to a glyph. -/
theorem C76_success : (∃ d, sharedData o minimal p order kerning = .ok d) ↔
    ∀ e ∈ kerning, -(order.length : Int) ≤ e.1.2 ∧ e.1.2 < order.length := by
  have hmk : ∀ (groups : Groups) (rev : List (Option (Nat × PyStr) × PyStr)) (kerning : MMKerning) (acc : List ((PyStr × PyStr) × List Int)),
      (∃ n, kerning.foldlM (fun names e => do
        let r ← pyIndex order e.1.2
        pure (dictSet names (sideName rev groups 1 e.1.1, sideName rev groups 2 r) e.2)) acc = .ok n) ↔
      ∀ e ∈ kerning, -(order.length : Int) ≤ e.1.2 ∧ e.1.2 < order.length := by
    intro groups rev kerning
    induction kerning with
    | nil =>
      intro acc
      refine ⟨fun _ e he => ?_, fun _ => ⟨acc, rfl⟩⟩
      cases he
    | cons e kerning ih =>
      intro acc
      rw [List.foldlM_cons]
      simp only [List.mem_cons, forall_eq_or_imp]
      cases hp : pyIndex order e.1.2 with
      | error er =>
        constructor
        · rintro ⟨n, h⟩; cases h
        · rintro ⟨h, -⟩
          obtain ⟨x, hx⟩ := index_ok.2 h
          rw [hp] at hx; cases hx
      | ok r =>
        have := index_ok.1 ⟨r, hp⟩
        have ih := ih (dictSet acc (sideName rev groups 1 e.1.1, sideName rev groups 2 r) e.2)
        constructor
        · intro h; exact ⟨this, ih.1 h⟩
        · rintro ⟨-, h⟩; exact ih.2 h
  unfold sharedData
  dsimp only
  generalize transformGroups p.groups p.flags order minimal = t
  have hk := hmk (buildGlyphToGroupMaps t.groups).1 (reverseKeyGlyphs t.keys) kerning []
  rw [← hk]
  have hu : ufoKerning order t.groups kerning t.keys = (makeNames order (buildGlyphToGroupMaps t.groups).1 (reverseKeyGlyphs t.keys) kerning >>= fun names =>
    Except.ok ⟨(buildGlyphToGroupMaps t.groups).1, (buildGlyphToGroupMaps t.groups).2.1, (buildGlyphToGroupMaps t.groups).2.2, reverseKeyGlyphs t.keys, names⟩) := rfl
  rw [hu]
  unfold makeNames
  generalize (kerning.foldlM _ _ : Except PyErr (List ((PyStr × PyStr) × List Int))) = r
  cases r with
  | error e =>
    constructor
    · rintro ⟨d, h⟩; cases h
    · rintro ⟨n, h⟩; cases h
  | ok n => exact ⟨fun _ => ⟨n, rfl⟩, fun _ => ⟨_, rfl⟩⟩

end
/-- a kerning class, a class for features and a class for metrics -/
def exampleClassFont : List (FEntry exampleAngles exampleAsm) :=
  [(1277, some (.str (lit "_A: A' Aacute"))), (1277, some (.str (lit "smcp: a b"))), (1277, some (.str (lit ".mtrx: A")))
   , (1277, some (.str (lit "smcp: c"))), (1277, some (.str (lit "nothing"))), (2026, some (.kerningFlags [(lit "_A", (1024, 0))])),
   (1276, some (.lines [lit "feature kern {", lit "  pos @_A @_A -10;", lit "} kern;"]))]

/-- the groups of the example -/
def exampleFeatures : FeaturesPart :=
  { code := lit "feature kern {\n  pos @public.kern1._A @public.kern2._A -10;\n} kern;"
    groups := [(lit "_A", [lit "A'", lit "Aacute"]), (lit "smcp", [lit "a", lit "b"]), (lit ".mtrx", [lit "A"])]
    flags := [(lit "_A", 1024)] }

/-- the hypotheses of C75 and C76 are met -/
example : buildFeatures exampleAngles exampleAsm exampleOpts exampleClassFont = .ok exampleFeatures :=
  (by decide +kernel : (buildFeatures exampleAngles exampleAsm exampleOpts exampleClassFont).toOption = some exampleFeatures) |>
    fun h => by
      cases hb : buildFeatures exampleAngles exampleAsm exampleOpts exampleClassFont with
      | error e => rw [hb] at h; cases h
      | ok st => rw [hb] at h; cases h; rfl

example : (sharedData ⟨false, true⟩ false exampleFeatures [lit "A", lit "Aacute", lit "a", lit "b"] [((lit "A", 2), [-10])]).toOption.map
      (fun d => (d.groups, d.text.length, d.groupOrder)) =
    some ([(lit ".mtrx", [lit "A"]), (lit "public.kern1._A", [lit "A", lit "Aacute"])], 84,
      [lit "public.kern1._A", lit "smcp", lit ".mtrx"]) := by decide +kernel

/-- **C76, defect.** When the user wants the kerning groups in the feature code, and groups moved there (the default), the kerning refers
to groups that the UFO has not got. -/
theorem C76_dangling_defect : ∃ (p : FeaturesPart) (order : List PyStr) (kerning : MMKerning) (d : SharedData) (pairs : List ((PyStr × PyStr) × Int)),
    sharedData ⟨true, true⟩ false p order kerning = .ok d ∧ d.kerning.masterKerning 0 = .ok pairs ∧
    pairs = [((lit "public.kern1._A", lit "V"), -10)] ∧ d.groups = [] :=
  ⟨⟨[], [(lit "_A", [lit "A'", lit "Aacute"])], [(lit "_A", 1024)]⟩, [lit "A", lit "V", lit "Aacute"], [((lit "A", 1), [-10])],
    ⟨⟨[(lit "public.kern1._A", [lit "A", lit "Aacute"])], [(lit "A", lit "public.kern1._A"), (lit "Aacute", lit "public.kern1._A")], [],
        [(some (1, lit "A"), lit "public.kern1._A")], [((lit "public.kern1._A", lit "V"), [-10])]⟩,
      [], lit "@public.kern1._A = [A Aacute];\n", [lit "public.kern1._A"], [(lit "public.kern1._A", lit "A")]⟩,
    [((lit "public.kern1._A", lit "V"), -10)], by decide +kernel, by decide +kernel, rfl, rfl⟩

end Verif.Props
