import Verif.Props.UfoSuccess
import Verif.Props.UfoMasterGlyph
/-! C96: when the text of a TrueType program is ASCII, so that it can be written as base64. -/
set_option autoImplicit false
namespace Verif.Props
open Verif Verif.Spec

theorem ascii_append {a b : PyStr} : Ascii (a ++ b) ↔ Ascii a ∧ Ascii b := by
  unfold Ascii
  constructor
  · intro h
    exact ⟨fun c hc => h c (List.mem_append.2 (.inl hc)), fun c hc => h c (List.mem_append.2 (.inr hc))⟩
  · rintro ⟨h1, h2⟩ c hc
    rcases List.mem_append.1 hc with hc | hc
    · exact h1 c hc
    · exact h2 c hc

instance (s : PyStr) : Decidable (Ascii s) := inferInstanceAs (Decidable (∀ c ∈ s, c < 128))

theorem ascii_natDec (n : Nat) : Ascii (natDec n) := fun c hc => by have := natDec_digits n c hc; omega

theorem ascii_intDec (n : Int) : Ascii (intDec n) := by
  unfold intDec
  split
  · intro c hc
    rcases List.mem_cons.1 hc with rfl | hc
    · decide
    · exact ascii_natDec _ c hc
  · exact ascii_natDec _

theorem ascii_pad2 (n : Nat) : Ascii (pad2 n) := by
  unfold pad2
  split
  · intro c hc
    rcases List.mem_cons.1 hc with rfl | hc
    · decide
    · exact ascii_natDec _ c hc
  · exact ascii_natDec _

theorem isLabel_ascii {l : PyStr} (h : IsLabel l) : Ascii l := by
  obtain ⟨code, short, k, h1, rfl⟩ := h
  have h2 : ∀ x ∈ labelCodes, Ascii x.2 := by decide +kernel
  exact ascii_append.2 ⟨h2 _ (dictGet_some_mem h1), ascii_pad2 k⟩

theorem labelOf_ascii {f : LabelFont} (hf : GoodFont f) {name : PyStr} {i : Int} {l : PyStr} (h : LabelOf f name i l) : Ascii l := by
  induction h with
  | simple h1 h2 h3 =>
    rcases h3 with h3 | ⟨-, rfl⟩ | ⟨-, rfl⟩
    · exact isLabel_ascii ((hf _ _ h1).shape _ _ h3)
    · decide
    · decide
  | comp h1 h2 h3 h4 ih => exact ascii_append.2 ⟨ascii_append.2 ⟨ih, by decide⟩, ascii_natDec _⟩
  | beyond h1 h2 h3 =>
    split
    · decide
    · split <;> decide

theorem alignPart_ascii (params : List (PyStr × Int)) : ∀ x ∈ alignPart params, Ascii x.2 := by
  intro x hx
  unfold alignPart at hx
  cases ha : dictGet params (lit "align") with
  | none => rw [ha] at hx; cases hx
  | some a =>
    rw [ha] at hx
    dsimp only at hx
    split at hx
    · cases hx
    · rw [List.mem_singleton] at hx
      rw [hx]
      unfold alignName
      dsimp only
      repeat' split
      all_goals decide

theorem stemPart_det {stems : List PyStr} {params : List (PyStr × Int)} {a b : List (PyStr × PyStr)} (h1 : StemPart stems params a)
    (h2 : StemPart stems params b) : a = b := by
  rcases h1 with ⟨h1, rfl⟩ | ⟨s, h1, c1⟩
  · rcases h2 with ⟨-, rfl⟩ | ⟨s', h2, -⟩
    · rfl
    · rw [h1] at h2; cases h2
  · rcases h2 with ⟨h2, -⟩ | ⟨s', h2, c2⟩
    · rw [h1] at h2; cases h2
    · rw [h1] at h2
      cases h2
      rcases c1 with ⟨c1, rfl⟩ | ⟨c1, rfl⟩ | ⟨k, c1, x, hx, rfl⟩ <;> rcases c2 with ⟨c2, rfl⟩ | ⟨c2, rfl⟩ | ⟨k', c2, x', hx', rfl⟩ <;>
        first | rfl | omega | skip
      have : k = k' := by omega
      subst this
      rw [hx] at hx'
      cases hx'
      rfl

theorem tthRest_det {env : TthEnv} {params : List (PyStr × Int)} {kind : TthKind} {a b : List (PyStr × PyStr)} (h1 : TthRest env params kind a)
    (h2 : TthRest env params kind b) : a = b := by
  cases kind with
  | zone bottom =>
    obtain ⟨z, x, q1, q2, rfl⟩ := h1
    obtain ⟨z', x', r1, r2, rfl⟩ := h2
    rw [q1] at r1
    cases r1
    rw [q2] at r2
    cases r2
    rfl
  | align => exact Eq.trans h1 (Eq.symm h2)
  | interpolate => exact Eq.trans h1 (Eq.symm h2)
  | link horizontal =>
    obtain ⟨s, q1, rfl⟩ := h1
    obtain ⟨s', r1, rfl⟩ := h2
    rw [stemPart_det q1 r1]
  | delta =>
    obtain ⟨s, x, y, q1, q2, q3, rfl⟩ := h1
    obtain ⟨s', x', y', r1, r2, r3, rfl⟩ := h2
    rw [q1] at r1
    rw [q2] at r2
    rw [q3] at r3
    cases r1
    cases r2
    cases r3
    rfl

theorem tthTable_kind {cmd code code' : PyStr} {kind kind' : TthKind} (h1 : (cmd, code, kind) ∈ tthTable) (h2 : (cmd, code', kind') ∈ tthTable) :
    code = code' ∧ kind = kind' := by
  have h : ∀ x ∈ tthTable, ∀ y ∈ tthTable, x.1 = y.1 → x = y := by decide +kernel
  have := h _ h1 _ h2 rfl
  injection this with _ this
  injection this with a b
  exact ⟨a, b⟩

/-- the keys of what a command has besides its code and points: written as attributes, and different -/
theorem tthRest_keys {env : TthEnv} {params : List (PyStr × Int)} {kind : TthKind} {rest : List (PyStr × PyStr)} (h : TthRest env params kind rest) :
    DictOk rest ∧ ∀ x ∈ rest, x.1 ∈ ttcAttrs ∧ x.1 ∉ [lit "code", lit "point", lit "point1", lit "point2"] := by
  have ha : alignPart params = [] ∨ ∃ v, alignPart params = [(lit "align", v)] := by
    unfold alignPart
    split
    · exact .inl rfl
    · split
      · exact .inl rfl
      · exact .inr ⟨_, rfl⟩
  cases kind with
  | zone bottom =>
    obtain ⟨z, x, -, -, rfl⟩ := h
    exact ⟨by simp [DictOk], by simp; decide⟩
  | align =>
    replace h : rest = alignPart params := h
    rw [h]
    rcases ha with ha | ⟨v, ha⟩ <;> rw [ha]
    · exact ⟨by simp [DictOk], by simp⟩
    · exact ⟨by simp [DictOk], by simp; decide⟩
  | interpolate =>
    replace h : rest = alignPart params := h
    rw [h]
    rcases ha with ha | ⟨v, ha⟩ <;> rw [ha]
    · exact ⟨by simp [DictOk], by simp⟩
    · exact ⟨by simp [DictOk], by simp; decide⟩
  | link horizontal =>
    obtain ⟨s, hs, rfl⟩ := h
    have hs' : s = [] ∨ (∃ v, s = [(lit "round", v)]) ∨ ∃ v, s = [(lit "stem", v)] := by
      rcases hs with ⟨-, rfl⟩ | ⟨_, -, ⟨-, rfl⟩ | ⟨-, rfl⟩ | ⟨k, -, x, -, rfl⟩⟩
      · exact .inl rfl
      · exact .inl rfl
      · exact .inr (.inl ⟨_, rfl⟩)
      · exact .inr (.inr ⟨_, rfl⟩)
    rcases ha with ha | ⟨v, ha⟩ <;> rw [ha] <;> rcases hs' with rfl | ⟨w, rfl⟩ | ⟨w, rfl⟩ <;> refine ⟨?_, ?_⟩ <;>
      first
      | (simp [DictOk]; done)
      | (simp; decide)
      | (unfold DictOk; simp; decide)
      | (intro x hx; simp only [List.mem_append, List.mem_singleton, List.nil_append, List.append_nil, List.not_mem_nil] at hx; rcases hx with rfl | rfl <;> decide)
  | delta =>
    obtain ⟨s, x, y, -, -, -, rfl⟩ := h
    refine ⟨by unfold DictOk; simp; decide, ?_⟩
    intro x hx
    simp only [List.mem_cons, List.not_mem_nil, or_false] at hx
    rcases hx with rfl | rfl | rfl <;> dsimp only <;> decide

/-- a command whose points have got ASCII names is ASCII exactly if the zone or stem has got an ASCII name -/
theorem translated_ascii {named : Int → PyStr → Prop} {env : TthEnv} {i : Instruction} {cmd : TthCommand} (hn : ∀ p l, named p l → Ascii l)
    (h : Translated named env i cmd) : (∀ attr v, attr ∈ lit "code" :: ttcAttrs → dictGet cmd attr = some v → Ascii v) ↔ AsciiNames env i := by
  obtain ⟨code, kind, pts, rest, h1, h2, h3, rfl⟩ := h
  obtain ⟨k1, k2⟩ := tthRest_keys h3
  have hpk : ∀ x ∈ pts, x.1 ∈ [lit "point", lit "point1", lit "point2"] ∧ Ascii x.2 := by
    intro x hx
    obtain ⟨y, hy, e, p, -, hp⟩ := corresponds_right h2 hx
    refine ⟨?_, hn _ _ hp⟩
    rw [e]
    have : ∀ kind, ∀ y ∈ tthPoints kind, y.1 ∈ [lit "point", lit "point1", lit "point2"] := by
      intro kind
      cases kind with
      | zone b => cases b <;> decide +kernel
      | link b => cases b <;> decide +kernel
      | align => decide +kernel
      | interpolate => decide +kernel
      | delta => decide +kernel
    exact this kind y hy
  constructor
  · intro h code' kind' rest' q1 q2 x hx
    obtain ⟨rfl, rfl⟩ := tthTable_kind h1 q1
    obtain rfl := tthRest_det h3 q2
    obtain ⟨r1, r2⟩ := k2 x hx
    refine h x.1 x.2 (List.mem_cons_of_mem _ r1) ?_
    rw [dictGet_append]
    have : dictGet ((lit "code", code) :: pts) x.1 = none := by
      cases hd : dictGet ((lit "code", code) :: pts) x.1 with
      | none => rfl
      | some v =>
        exfalso
        apply r2
        rcases List.mem_cons.1 (dictGet_some_mem hd) with hm | hm
        · rw [show x.1 = lit "code" from congrArg Prod.fst hm]; simp
        · exact List.mem_cons_of_mem _ (hpk _ hm).1
    rw [this, dictGet_of_mem k1 hx]
    rfl
  · intro h attr v _ hv
    rcases List.mem_append.1 (dictGet_some_mem hv) with hm | hm
    · rcases List.mem_cons.1 hm with hm | hm
      · have hcode : ∀ x ∈ tthTable, Ascii x.2.1 := by decide +kernel
        rw [show v = code from congrArg Prod.snd hm]
        exact hcode _ h1
      · exact (hpk _ hm).2
    · exact h code kind rest h1 h3 _ hm

theorem ascii_escape (s : PyStr) : Ascii (htmlEscape s) ↔ Ascii s := by
  unfold htmlEscape Ascii
  constructor
  · intro h c hc
    by_contra hlt
    have hne : c ≠ 38 ∧ c ≠ 60 ∧ c ≠ 62 ∧ c ≠ 34 ∧ c ≠ 39 := by omega
    exact hlt (h c (List.mem_flatMap.2 ⟨c, hc, by simp [hne]⟩))
  · intro h c hc
    obtain ⟨d, hd, hm⟩ := List.mem_flatMap.1 hc
    have h1 : ∀ s ∈ [lit "&amp;", lit "&lt;", lit "&gt;", lit "&quot;", lit "&#x27;"], Ascii s := by decide +kernel
    repeat' split at hm
    · exact h1 _ (by simp) c hm
    · exact h1 _ (by simp) c hm
    · exact h1 _ (by simp) c hm
    · exact h1 _ (by simp) c hm
    · exact h1 _ (by simp) c hm
    · rw [List.mem_singleton] at hm
      rw [hm]
      exact h d hd

theorem ascii_lower (s : PyStr) : Ascii (asciiLower s) ↔ Ascii s := by
  unfold asciiLower Ascii
  rw [List.forall_mem_map]
  refine forall_congr' fun c => imp_congr_right fun _ => ?_
  split <;> omega

theorem ascii_flatMap {α : Type} {f : α → PyStr} {l : List α} : Ascii (l.flatMap f) ↔ ∀ x ∈ l, Ascii (f x) := by
  unfold Ascii
  constructor
  · intro h x hx c hc
    exact h c (List.mem_flatMap.2 ⟨x, hx, hc⟩)
  · intro h c hc
    obtain ⟨x, hx, hm⟩ := List.mem_flatMap.1 hc
    exact h x hx c hm

/-- the text of a command is ASCII exactly if the written values are -/
theorem xml_ascii {cmd : TthCommand} {t : PyStr} (h : ttCmdXml cmd = .ok t) :
    Ascii t ↔ ∀ attr v, attr ∈ lit "code" :: ttcAttrs → dictGet cmd attr = some v → Ascii v := by
  unfold ttCmdXml at h
  cases hc : dictGet cmd (lit "code") with
  | none => rw [hc] at h; cases h
  | some code =>
    rw [hc] at h
    cases h
    have hattrs : ∀ a ∈ ttcAttrs, Ascii a := by decide +kernel
    simp only [ascii_append, ascii_flatMap]
    constructor
    · rintro ⟨⟨⟨⟨-, h1⟩, -⟩, h2⟩, -⟩ attr v ha hv
      rcases List.mem_cons.1 ha with rfl | ha
      · rw [hc] at hv
        cases hv
        exact h1
      · have := h2 attr ha
        rw [hv] at this
        simp only [ascii_append, ascii_escape] at this
        have h3 := this.1.2
        split at h3
        · exact (ascii_lower v).1 h3
        · exact h3
    · intro h
      refine ⟨⟨⟨⟨by decide, h _ _ (by simp) hc⟩, by decide⟩, fun attr ha => ?_⟩, by decide⟩
      cases hv : dictGet cmd attr with
      | none => exact fun c hc => by cases hc
      | some v =>
        have h1 := h attr v (List.mem_cons_of_mem _ ha) hv
        simp only [ascii_append, ascii_escape]
        refine ⟨⟨⟨⟨by decide, hattrs attr ha⟩, by decide⟩, ?_⟩, by decide⟩
        split
        · exact (ascii_lower v).2 h1
        · exact h1

theorem join_ascii (sep : PyStr) (hs : Ascii sep) : ∀ l : List PyStr, Ascii (joinWith sep l) ↔ ∀ x ∈ l, Ascii x := by
  intro l
  induction l with
  | nil => exact ⟨fun _ x hx => (by cases hx), fun _ c hc => (by cases hc)⟩
  | cons x l ih =>
    cases l with
    | nil => simp [joinWith]
    | cons y l =>
      rw [joinWith, ascii_append, ascii_append, ih]
      rw [show (∀ z ∈ x :: y :: l, Ascii z) ↔ Ascii x ∧ ∀ z ∈ y :: l, Ascii z from List.forall_mem_cons]
      · exact ⟨fun h => ⟨h.1.1, h.2⟩, fun h => ⟨⟨h.1, hs⟩, h.2⟩⟩
      · simp

/-- the text of a program is ASCII exactly if the written values of all commands are -/
theorem tthLib_ascii {cmds : List TthCommand} (hc : ∀ cmd ∈ cmds, WellFormedCmd cmd) :
    (∀ text, tthLib cmds = .ok (some text) → Ascii text) ↔
      ∀ cmd ∈ cmds, ∀ attr v, attr ∈ lit "code" :: ttcAttrs → dictGet cmd attr = some v → Ascii v := by
  obtain ⟨l, hl⟩ := (mapM_exists_iff (f := ttCmdXml) (l := cmds)).2 fun c hm => ttCmdXml_ok (hc c hm)
  have hl' := (mapM_ok_iff _ _ _).1 hl
  have hall : (∀ x ∈ l, Ascii x) ↔ ∀ cmd ∈ cmds, ∀ attr v, attr ∈ lit "code" :: ttcAttrs → dictGet cmd attr = some v → Ascii v := by
    clear hc hl
    induction l generalizing cmds with
    | nil =>
      cases cmds with
      | nil => simp
      | cons c cmds => cases hl'
    | cons x l ih =>
      cases cmds with
      | nil => cases hl'
      | cons c cmds =>
        rw [List.map_cons, List.map_cons] at hl'
        injection hl' with h1 h2
        rw [List.forall_mem_cons, List.forall_mem_cons, ih h2, xml_ascii h1]
  rw [← hall]
  unfold tthLib
  rw [hl]
  constructor
  · intro h x hx
    have hne : l.isEmpty = false := by cases l with
      | nil => cases hx
      | cons _ _ => rfl
    have := h _ (show (Except.ok (if l.isEmpty then none else some (lit "  <ttProgram>\n" ++ joinWith (lit "\n") l ++ lit "\n  </ttProgram>\n"))
      : Except PyErr (Option PyStr)) = .ok (some (lit "  <ttProgram>\n" ++ joinWith (lit "\n") l ++ lit "\n  </ttProgram>\n")) by rw [hne]; rfl)
    rw [ascii_append, ascii_append] at this
    exact (join_ascii _ (by decide) l).1 this.1.2 x hx
  · intro h text ht
    replace ht : (Except.ok (if l.isEmpty then none else some (lit "  <ttProgram>\n" ++ joinWith (lit "\n") l ++ lit "\n  </ttProgram>\n"))
      : Except PyErr (Option PyStr)) = .ok (some text) := ht
    by_cases he : l.isEmpty = true
    · rw [if_pos he] at ht; cases ht
    · rw [if_neg he] at ht
      cases ht
      exact ascii_append.2 ⟨ascii_append.2 ⟨by decide, (join_ascii _ (by decide) l).2 h⟩, by decide⟩

end Verif.Props
