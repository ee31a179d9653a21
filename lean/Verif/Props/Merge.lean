import Verif.Spec.Merge
import Verif.Props.Glyph
/-! C43: merging the temporary data of the other masters into a glyph. -/
set_option autoImplicit false
namespace Verif.Props
open Verif Verif.Spec

/-! ### Generic part: lists of items of which every master replaces a slot -/

/-- an operation that succeeds exactly when `Match` holds -/
structure MergeOp (α : Type) where
  f : Nat → α → α → α × Option PyErr
  Match : Nat → α → α → Prop
  step : Nat → α → α → α
  ok : ∀ m s t, Match m s t → f m s t = (step m s t, none)
  err : ∀ m s t, ¬ Match m s t → (f m s t).2 ≠ none
  keep : ∀ m s t, Match m s t → ∀ k s', Match k s' (step m s t) ↔ Match k s' t

/-- every target has a matching source -/
def ItemsMatch {α : Type} (M : α → α → Prop) (ss ts : List α) : Prop :=
  ∀ (i : Nat) (t : α), ts[i]? = some t → ∃ s, ss[i]? = some s ∧ M s t

theorem itemsMatch_nil {α : Type} (M : α → α → Prop) (ss : List α) : ItemsMatch M ss [] := by
  intro i t h; simp at h

theorem itemsMatch_cons {α : Type} (M : α → α → Prop) (s : α) (ss : List α) (t : α) (ts : List α) :
    ItemsMatch M (s :: ss) (t :: ts) ↔ M s t ∧ ItemsMatch M ss ts := by
  constructor
  · intro h
    constructor
    · obtain ⟨s', h1, h2⟩ := h 0 t rfl
      simp at h1; subst h1; exact h2
    · intro i t' ht
      exact h (i + 1) t' (by simpa using ht)
  · rintro ⟨h1, h2⟩ i t' ht
    cases i with
    | zero => simp at ht; subst ht; exact ⟨s, rfl, h1⟩
    | succ i => exact h2 i t' (by simpa using ht)

theorem mergeItems_ok {α : Type} (op : MergeOp α) (m : Nat) : ∀ (ss ts : List α), ItemsMatch (op.Match m) ss ts →
    mergeItems (op.f m) ss ts = (List.zipWith (op.step m) ss ts, none)
  | ss, [], _ => by cases ss <;> simp [mergeItems]
  | [], t :: ts, h => by
    obtain ⟨s, h1, _⟩ := h 0 t rfl
    simp at h1
  | s :: ss, t :: ts, h => by
    rw [itemsMatch_cons] at h
    simp only [mergeItems, op.ok m s t h.1, mergeItems_ok op m ss ts h.2, List.zipWith_cons_cons]

theorem mergeItems_err {α : Type} (op : MergeOp α) (m : Nat) : ∀ (ss ts : List α), ¬ ItemsMatch (op.Match m) ss ts →
    (mergeItems (op.f m) ss ts).2 ≠ none
  | ss, [], h => absurd (itemsMatch_nil _ ss) h
  | [], t :: ts, _ => by simp [mergeItems]
  | s :: ss, t :: ts, h => by
    rw [itemsMatch_cons] at h
    simp only [mergeItems]
    by_cases hm : op.Match m s t
    · rw [op.ok m s t hm]
      exact mergeItems_err op m ss ts (fun h' => h ⟨hm, h'⟩)
    · have he := op.err m s t hm
      rcases hf : op.f m s t with ⟨t', e⟩
      rw [hf] at he
      cases e with
      | none => exact absurd rfl he
      | some e => simp

theorem zip_length {α : Type} (M : α → α → Prop) (g : α → α → α) : ∀ (ss ts : List α), ItemsMatch M ss ts →
    (List.zipWith g ss ts).length = ts.length
  | ss, [], _ => by simp
  | [], t :: ts, h => by
    obtain ⟨s, h1, _⟩ := h 0 t rfl
    simp at h1
  | s :: ss, t :: ts, h => by
    rw [itemsMatch_cons] at h
    simp [zip_length M g ss ts h.2]

theorem zip_get {α : Type} (g : α → α → α) (ss ts : List α) (i : Nat) (t' : α) (h : (List.zipWith g ss ts)[i]? = some t') :
    ∃ s t, ss[i]? = some s ∧ ts[i]? = some t ∧ t' = g s t := by
  rw [List.getElem?_zipWith] at h
  cases hs : ss[i]? with
  | none => rw [hs] at h; simp at h
  | some s =>
    cases ht : ts[i]? with
    | none => rw [hs, ht] at h; simp at h
    | some t =>
      rw [hs, ht] at h
      simp at h
      exact ⟨s, t, rfl, rfl, h.symm⟩

theorem zip_match {α : Type} (op : MergeOp α) (m : Nat) (ss ts : List α) (h : ItemsMatch (op.Match m) ss ts)
    (k : Nat) (ss' : List α) :
    ItemsMatch (op.Match k) ss' (List.zipWith (op.step m) ss ts) ↔ ItemsMatch (op.Match k) ss' ts := by
  constructor
  · intro h' i t ht
    obtain ⟨s, hs, hm⟩ := h i t ht
    obtain ⟨s', hs', hm'⟩ := h' i (op.step m s t) (by rw [List.getElem?_zipWith, hs, ht])
    exact ⟨s', hs', (op.keep m s t hm k s').1 hm'⟩
  · intro h' i t' ht'
    obtain ⟨s, t, hs, ht, rfl⟩ := zip_get _ _ _ _ _ ht'
    obtain ⟨s0, hs0, hm⟩ := h i t ht
    rw [hs] at hs0
    injection hs0 with hs0
    subst hs0
    obtain ⟨s', hs', hm'⟩ := h' i t ht
    exact ⟨s', hs', (op.keep m s t hm k s').2 hm'⟩

/-- the condition for `mergeKey` -/
def KeyMatch {α : Type} (M : α → α → Prop) (src tgt : Option (List α)) : Prop :=
  ∀ ss, src = some ss → ∃ ts, tgt = some ts ∧ ItemsMatch M ss ts

/-- the result of `mergeKey` when it succeeds -/
def keyStep {α : Type} (g : α → α → α) (src tgt : Option (List α)) : Option (List α) :=
  match src, tgt with
  | some ss, some ts => some (List.zipWith g ss ts)
  | _, t => t

theorem mergeKey_ok {α : Type} (op : MergeOp α) (m : Nat) (src tgt : Option (List α)) (h : KeyMatch (op.Match m) src tgt) :
    mergeKey (op.f m) src tgt = (keyStep (op.step m) src tgt, none) := by
  cases src with
  | none => cases tgt <;> rfl
  | some ss =>
    obtain ⟨ts, rfl, hm⟩ := h ss rfl
    simp [mergeKey, keyStep, mergeItems_ok op m ss ts hm]

theorem mergeKey_err {α : Type} (op : MergeOp α) (m : Nat) (src tgt : Option (List α)) (h : ¬ KeyMatch (op.Match m) src tgt) :
    (mergeKey (op.f m) src tgt).2 ≠ none := by
  cases src with
  | none => exact absurd (fun ss hs => by simp at hs) h
  | some ss =>
    cases tgt with
    | none => simp [mergeKey]
    | some ts =>
      simp only [mergeKey]
      refine mergeItems_err op m ss ts (fun hm => h ?_)
      intro ss' hs
      injection hs with hs
      subst hs
      exact ⟨ts, rfl, hm⟩

theorem keyStep_match {α : Type} (op : MergeOp α) (m : Nat) (src tgt : Option (List α)) (h : KeyMatch (op.Match m) src tgt)
    (k : Nat) (src' : Option (List α)) :
    KeyMatch (op.Match k) src' (keyStep (op.step m) src tgt) ↔ KeyMatch (op.Match k) src' tgt := by
  cases src with
  | none => cases tgt <;> exact Iff.rfl
  | some ss =>
    obtain ⟨ts, rfl, hm⟩ := h ss rfl
    simp only [keyStep, KeyMatch, Option.some.injEq]
    constructor
    · intro h' ss' hs
      obtain ⟨ts', rfl, h2⟩ := h' ss' hs
      exact ⟨ts, rfl, (zip_match op m ss ts hm k ss').1 h2⟩
    · intro h' ss' hs
      obtain ⟨ts', rfl, h2⟩ := h' ss' hs
      exact ⟨_, rfl, (zip_match op m ss ts hm k ss').2 h2⟩

/-- the source lists of master `m`, `m + 1`, … -/
def srcFrom {α : Type} (m : Nat) (l : List (Option (List α))) (k : Nat) : Option (List α) :=
  if k < m then none else (l[k - m]?).join

theorem srcFrom_cons {α : Type} (m : Nat) (s : Option (List α)) (l : List (Option (List α))) (k : Nat) :
    srcFrom m (s :: l) k = if k = m then s else srcFrom (m + 1) l k := by
  unfold srcFrom
  by_cases h : k < m
  · rw [if_pos h, if_neg (by omega), if_pos (by omega)]
  · by_cases h' : k = m
    · subst h'; simp
    · rw [if_neg h, if_neg h', if_neg (by omega)]
      have : k - m = (k - (m + 1)) + 1 := by omega
      rw [this, List.getElem?_cons_succ]

/-- all remaining masters -/
def keyFold {α : Type} (g : Nat → α → α → α) (m : Nat) : List (Option (List α)) → Option (List α) → Option (List α)
  | [], t => t
  | s :: l, t => keyFold g (m + 1) l (keyStep (g m) s t)

/-- the remaining masters all match -/
def AllMatch {α : Type} (M : Nat → α → α → Prop) (m : Nat) (l : List (Option (List α))) (t : Option (List α)) : Prop :=
  ∀ k, KeyMatch (M k) (srcFrom m l k) t

theorem allMatch_nil {α : Type} (M : Nat → α → α → Prop) (m : Nat) (t : Option (List α)) : AllMatch M m [] t := by
  intro k ss h; simp [srcFrom] at h

theorem allMatch_cons {α : Type} (op : MergeOp α) (m : Nat) (s : Option (List α)) (l : List (Option (List α)))
    (t : Option (List α)) :
    AllMatch op.Match m (s :: l) t ↔
      KeyMatch (op.Match m) s t ∧ AllMatch op.Match (m + 1) l (keyStep (op.step m) s t) := by
  constructor
  · intro h
    have h0 : KeyMatch (op.Match m) s t := by
      have := h m
      rw [srcFrom_cons, if_pos rfl] at this
      exact this
    refine ⟨h0, fun k => ?_⟩
    rw [keyStep_match op m s t h0]
    have := h k
    rw [srcFrom_cons] at this
    by_cases hk : k = m
    · intro ss hs; rw [hk, srcFrom, if_pos (by omega)] at hs; simp at hs
    · rw [if_neg hk] at this; exact this
  · rintro ⟨h0, h1⟩ k
    rw [srcFrom_cons]
    by_cases hk : k = m
    · rw [if_pos hk, hk]; exact h0
    · rw [if_neg hk]
      exact (keyStep_match op m s t h0 k _).1 (h1 k)

/-- what becomes of an accessor of an item -/
structure SlotOf {α β : Type} (op : MergeOp α) (acc : α → List β) : Prop where
  src : ∀ m s t, op.Match m s t → m < (acc s).length
  tgt : ∀ m s t, op.Match m s t → m < (acc t).length
  step : ∀ m s t, op.Match m s t → ∀ k, (acc (op.step m s t))[k]? = if k = m then (acc s)[k]? else (acc t)[k]?

theorem keyFold_none {α : Type} (g : Nat → α → α → α) : ∀ (l : List (Option (List α))) (m : Nat), keyFold g m l none = none
  | [], _ => rfl
  | s :: l, m => by
    simp only [keyFold]
    have : keyStep (g m) s none = none := by cases s <;> rfl
    rw [this, keyFold_none g l]

theorem keyStep_some {α : Type} (op : MergeOp α) (m : Nat) (s : Option (List α)) (ts : List α)
    (h : KeyMatch (op.Match m) s (some ts)) :
    ∃ ts', keyStep (op.step m) s (some ts) = some ts' ∧ ts'.length = ts.length ∧
      ∀ (i : Nat) (t t' : α), ts[i]? = some t → ts'[i]? = some t' →
        match s.bind (·[i]?) with
        | some x => op.Match m x t ∧ t' = op.step m x t
        | none => t' = t := by
  cases s with
  | none =>
    refine ⟨ts, rfl, rfl, ?_⟩
    intro i t t' h1 h2
    rw [h1] at h2
    injection h2 with h2
    simp [h2]
  | some ss =>
    obtain ⟨ts', h1, h2⟩ := h ss rfl
    injection h1 with h1
    subst h1
    refine ⟨_, rfl, zip_length _ _ _ _ h2, ?_⟩
    intro i t t' ht ht'
    obtain ⟨x, t0, hx, ht0, rfl⟩ := zip_get _ _ _ _ _ ht'
    rw [ht] at ht0
    injection ht0 with ht0
    subst ht0
    obtain ⟨x', hx', hm⟩ := h2 i t ht
    rw [hx] at hx'
    injection hx' with hx'
    subst hx'
    simp only [Option.bind_some, hx]
    exact ⟨hm, trivial⟩

/-- what merging does to a slot -/
theorem keyFold_slots {α β : Type} (op : MergeOp α) (acc : α → List β) (ha : SlotOf op acc) :
    ∀ (l : List (Option (List α))) (m : Nat) (ts : List α), AllMatch op.Match m l (some ts) →
      ∃ ts', keyFold op.step m l (some ts) = some ts' ∧ ts'.length = ts.length ∧
        ∀ (i : Nat) (t t' : α), ts[i]? = some t → ts'[i]? = some t' →
          SlotsMerged (fun k => ((srcFrom m l k).bind (·[i]?)).map acc) (acc t) (acc t')
  | [], m, ts, _ => by
    refine ⟨ts, rfl, rfl, ?_⟩
    intro i t t' h1 h2 k
    rw [h1] at h2
    injection h2 with h2
    subst h2
    simp [srcFrom]
  | s :: l, m, ts, h => by
    rw [allMatch_cons] at h
    obtain ⟨ts1, e1, len1, g1⟩ := keyStep_some op m s ts h.1
    have h2 := h.2
    rw [e1] at h2
    obtain ⟨ts', e', len', g'⟩ := keyFold_slots op acc ha l (m + 1) ts1 h2
    refine ⟨ts', by rw [keyFold, e1, e'], by rw [len', len1], ?_⟩
    intro i t t' ht ht' k
    have hi : i < ts.length := (List.getElem?_eq_some_iff.1 ht).1
    obtain ⟨t1, ht1⟩ : ∃ t1, ts1[i]? = some t1 := ⟨ts1[i], List.getElem?_eq_getElem (by omega)⟩
    have a := g1 i t t1 ht ht1
    have b := g' i t1 t' ht1 ht' k
    rw [b]
    simp only [srcFrom_cons]
    by_cases hk : k = m
    · subst hk
      have : srcFrom (k + 1) l k = none := by rw [srcFrom, if_pos (by omega)]
      rw [this, if_pos rfl]
      simp only [Option.bind_none, Option.map_none]
      cases hs : s.bind (·[i]?) with
      | none => rw [hs] at a; simp only at a; rw [a]; rfl
      | some x =>
        rw [hs] at a
        simp only at a
        rw [a.2, ha.step k x t a.1 k, if_pos rfl]
        rfl
    · rw [if_neg hk]
      cases hc : ((srcFrom (m + 1) l k).bind (·[i]?)).map acc with
      | some c => rfl
      | none =>
        cases hs : s.bind (·[i]?) with
        | none => rw [hs] at a; simp only at a; rw [a]
        | some x =>
          rw [hs] at a
          simp only at a
          rw [a.2, ha.step m x t a.1 k, if_neg hk]

/-- what merging keeps -/
theorem keyFold_keeps {α γ : Type} (op : MergeOp α) (c : α → γ)
    (hc : ∀ m s t, op.Match m s t → c (op.step m s t) = c t) :
    ∀ (l : List (Option (List α))) (m : Nat) (ts ts' : List α), AllMatch op.Match m l (some ts) →
      keyFold op.step m l (some ts) = some ts' →
        ∀ (i : Nat) (t t' : α), ts[i]? = some t → ts'[i]? = some t' → c t' = c t
  | [], m, ts, ts', _, e => by
    intro i t t' h1 h2
    simp only [keyFold, Option.some.injEq] at e
    subst e
    rw [h1] at h2
    injection h2 with h2
    rw [h2]
  | s :: l, m, ts, ts', h, e => by
    rw [allMatch_cons] at h
    obtain ⟨ts1, e1, len1, g1⟩ := keyStep_some op m s ts h.1
    have h2 := h.2
    rw [e1] at h2
    rw [keyFold, e1] at e
    intro i t t' ht ht'
    have hi : i < ts.length := (List.getElem?_eq_some_iff.1 ht).1
    obtain ⟨t1, ht1⟩ : ∃ t1, ts1[i]? = some t1 := ⟨ts1[i], List.getElem?_eq_getElem (by omega)⟩
    have a := g1 i t t1 ht ht1
    rw [keyFold_keeps op c hc l (m + 1) ts1 ts' h2 e i t1 t' ht1 ht']
    cases hs : s.bind (·[i]?) with
    | none => rw [hs] at a; simp only at a; rw [a]
    | some x =>
      rw [hs] at a
      simp only at a
      rw [a.2, hc m x t a.1]

/-! ### Nodes and components -/

theorem copySlot_ok {α : Type} (m : Nat) (s t : List α) (h1 : m < s.length) (h2 : m < t.length) :
    copySlot m s t = .ok (t.set m s[m]) := by
  simp [copySlot, List.getElem?_eq_getElem h1, h2]

theorem copySlot_err {α : Type} (m : Nat) (s t : List α) (h : ¬ (m < s.length ∧ m < t.length)) :
    ∃ e, copySlot m s t = .error e := by
  unfold copySlot
  by_cases h1 : m < s.length
  · rw [List.getElem?_eq_getElem h1]
    simp only
    rw [if_neg (fun h2 => h ⟨h1, h2⟩)]
    exact ⟨_, rfl⟩
  · rw [List.getElem?_eq_none (by omega)]
    exact ⟨_, rfl⟩

/-- the list with the slot of the source -/
def setSlot {α : Type} (m : Nat) (s t : List α) : List α :=
  match s[m]? with
  | some x => t.set m x
  | none => t

theorem setSlot_eq {α : Type} (m : Nat) (s t : List α) (h1 : m < s.length) : setSlot m s t = t.set m s[m] := by
  simp [setSlot, List.getElem?_eq_getElem h1]

theorem setSlot_length {α : Type} (m : Nat) (s t : List α) : (setSlot m s t).length = t.length := by
  unfold setSlot
  cases s[m]? <;> simp

theorem setSlot_get {α : Type} (m : Nat) (s t : List α) (h1 : m < s.length) (h2 : m < t.length) (k : Nat) :
    (setSlot m s t)[k]? = if k = m then s[k]? else t[k]? := by
  rw [setSlot_eq m s t h1]
  by_cases hk : k = m
  · subst hk
    simp [h1, h2]
  · rw [if_neg hk, List.getElem?_set_ne (by omega)]

/-- merging nodes -/
def nodeOp : MergeOp MMNode where
  f := mergeNode
  Match := NodesMatch
  step m s t := { t with points := setSlot m s.points t.points }
  ok := by
    rintro m s t ⟨h1, h2, h3, h4, h5⟩
    cases hf : t.flags with
    | none => exact absurd hf h3
    | some f =>
      rw [hf] at h2
      simp [mergeNode, h1, h2, hf, copySlot_ok m _ _ h4 h5, setSlot_eq m _ _ h4]
  err := by
    intro m s t h
    unfold mergeNode
    by_cases h1 : s.type = t.type
    · rw [if_neg (by simp [h1])]
      cases hs : s.flags with
      | none => simp
      | some f =>
        cases ht : t.flags with
        | none => simp
        | some f' =>
          simp only
          by_cases hff : f = f'
          · rw [if_neg (by simp [hff])]
            obtain ⟨e, he⟩ := copySlot_err m s.points t.points (fun hh =>
              h ⟨h1, by rw [hs, ht, hff], by rw [ht]; simp, hh.1, hh.2⟩)
            rw [he]
            simp
          · rw [if_pos hff]; simp
    · rw [if_pos h1]; simp
  keep := by
    intro m s t _ k s'
    simp [NodesMatch, setSlot_length]

/-- merging components -/
def componentOp : MergeOp Component where
  f := mergeComponent
  Match := ComponentsMatch
  step m s t :=
    { t with
      offsetX := setSlot m s.offsetX t.offsetX
      offsetY := setSlot m s.offsetY t.offsetY
      scaleX := setSlot m s.scaleX t.scaleX
      scaleY := setSlot m s.scaleY t.scaleY }
  ok := by
    rintro m s t ⟨h1, ⟨a1, a2, a3, a4⟩, ⟨b1, b2, b3, b4⟩⟩
    simp [mergeComponent, h1, copySlot_ok m _ _ a1 b1, copySlot_ok m _ _ a2 b2, copySlot_ok m _ _ a3 b3,
      copySlot_ok m _ _ a4 b4, setSlot_eq m _ _ a1, setSlot_eq m _ _ a2, setSlot_eq m _ _ a3, setSlot_eq m _ _ a4]
  err := by
    intro m s t h
    unfold mergeComponent
    by_cases h1 : s.gid = t.gid
    · rw [if_neg (by simp [h1])]
      by_cases c1 : m < s.offsetX.length ∧ m < t.offsetX.length
      · rw [copySlot_ok m _ _ c1.1 c1.2]
        simp only
        by_cases c2 : m < s.offsetY.length ∧ m < t.offsetY.length
        · rw [copySlot_ok m _ _ c2.1 c2.2]
          simp only
          by_cases c3 : m < s.scaleX.length ∧ m < t.scaleX.length
          · rw [copySlot_ok m _ _ c3.1 c3.2]
            simp only
            by_cases c4 : m < s.scaleY.length ∧ m < t.scaleY.length
            · exact absurd ⟨h1, ⟨c1.1, c2.1, c3.1, c4.1⟩, ⟨c1.2, c2.2, c3.2, c4.2⟩⟩ h
            · obtain ⟨e, he⟩ := copySlot_err m _ _ c4
              rw [he]; simp
          · obtain ⟨e, he⟩ := copySlot_err m _ _ c3
            rw [he]; simp
        · obtain ⟨e, he⟩ := copySlot_err m _ _ c2
          rw [he]; simp
      · obtain ⟨e, he⟩ := copySlot_err m _ _ c1
        rw [he]; simp
    · rw [if_pos h1]; simp
  keep := by
    intro m s t _ k s'
    simp [ComponentsMatch, setSlot_length]

/-! ### All masters -/

/-- the data of the remaining masters match -/
def FromMatch (m : Nat) (rest : List MasterData) (data : MasterData) : Prop :=
  AllMatch NodesMatch m (rest.map MasterData.nodes) data.nodes ∧
  AllMatch ComponentsMatch m (rest.map MasterData.components) data.components

theorem mergeFrom_ok : ∀ (rest : List MasterData) (m : Nat) (data : MasterData), FromMatch m rest data →
    mergeFrom m rest data = (⟨keyFold nodeOp.step m (rest.map MasterData.nodes) data.nodes,
      keyFold componentOp.step m (rest.map MasterData.components) data.components⟩, none)
  | [], _, _, _ => rfl
  | src :: rest, m, data, h => by
    obtain ⟨hn, hc⟩ := h
    rw [List.map_cons] at hn hc
    have hn' := (allMatch_cons nodeOp m _ _ _).1 hn
    have hc' := (allMatch_cons componentOp m _ _ _).1 hc
    have e1 := mergeKey_ok nodeOp m _ _ hn'.1
    have e2 := mergeKey_ok componentOp m _ _ hc'.1
    have e : mergeMaster m src data = (⟨keyStep (nodeOp.step m) src.nodes data.nodes,
        keyStep (componentOp.step m) src.components data.components⟩, none) := by
      have e1' : mergeKey (mergeNode m) src.nodes data.nodes = _ := e1
      have e2' : mergeKey (mergeComponent m) src.components data.components = _ := e2
      simp only [mergeMaster, e1', e2']
    simp only [mergeFrom, e, List.map_cons, keyFold]
    exact mergeFrom_ok rest (m + 1) _ ⟨hn'.2, hc'.2⟩

theorem mergeFrom_err : ∀ (rest : List MasterData) (m : Nat) (data : MasterData), ¬ FromMatch m rest data →
    (mergeFrom m rest data).2 ≠ none
  | [], m, data, h => absurd ⟨allMatch_nil _ _ _, allMatch_nil _ _ _⟩ h
  | src :: rest, m, data, h => by
    simp only [mergeFrom]
    by_cases h1 : KeyMatch (NodesMatch m) src.nodes data.nodes
    · by_cases h2 : KeyMatch (ComponentsMatch m) src.components data.components
      · have e1 : mergeKey (mergeNode m) src.nodes data.nodes = _ := mergeKey_ok nodeOp m _ _ h1
        have e2 : mergeKey (mergeComponent m) src.components data.components = _ := mergeKey_ok componentOp m _ _ h2
        have e : mergeMaster m src data = (⟨keyStep (nodeOp.step m) src.nodes data.nodes,
            keyStep (componentOp.step m) src.components data.components⟩, none) := by
          simp only [mergeMaster, e1, e2]
        rw [e]
        refine mergeFrom_err rest (m + 1) _ (fun hh => h ?_)
        exact ⟨(allMatch_cons nodeOp m _ _ _).2 ⟨h1, hh.1⟩, (allMatch_cons componentOp m _ _ _).2 ⟨h2, hh.2⟩⟩
      · have e1 : mergeKey (mergeNode m) src.nodes data.nodes = _ := mergeKey_ok nodeOp m _ _ h1
        have e2 : (mergeKey (mergeComponent m) src.components data.components).2 ≠ none := mergeKey_err componentOp m _ _ h2
        have e : (mergeMaster m src data).2 ≠ none := by
          simp only [mergeMaster, e1]
          exact e2
        rcases hx : mergeMaster m src data with ⟨d, x⟩
        rw [hx] at e
        cases x with
        | none => exact absurd rfl e
        | some x => simp
    · have e1 : (mergeKey (mergeNode m) src.nodes data.nodes).2 ≠ none := mergeKey_err nodeOp m _ _ h1
      have e : (mergeMaster m src data).2 ≠ none := by
        simp only [mergeMaster]
        cases hx : (mergeKey (mergeNode m) src.nodes data.nodes).2 with
        | none => exact absurd hx e1
        | some x => simp
      rcases hx : mergeMaster m src data with ⟨d, x⟩
      rw [hx] at e
      cases x with
      | none => exact absurd rfl e
      | some x => simp

theorem srcFrom_tail {β : Type} (acc : MasterData → Option (List β)) (masters : List MasterData) (k : Nat) :
    srcFrom 1 (masters.tail.map acc) k = if k = 0 then none else masters[k]?.bind acc := by
  unfold srcFrom
  by_cases h : k = 0
  · subst h; simp
  · rw [if_neg (by omega), if_neg h, List.getElem?_map, List.getElem?_tail]
    have : k - 1 + 1 = k := by omega
    rw [this]
    cases masters[k]? <;> simp

theorem fromMatch_iff (masters : List MasterData) (data : MasterData) : FromMatch 1 masters.tail data ↔ Mergeable masters data := by
  unfold FromMatch AllMatch Mergeable
  simp only [srcFrom_tail]
  exact Iff.rfl

theorem slotOf_points : SlotOf nodeOp MMNode.points where
  src _ _ _ h := h.2.2.2.1
  tgt _ _ _ h := h.2.2.2.2
  step m s t h k := setSlot_get m _ _ h.2.2.2.1 h.2.2.2.2 k

theorem slotOf_offsetX : SlotOf componentOp Component.offsetX where
  src _ _ _ h := h.2.1.1
  tgt _ _ _ h := h.2.2.1
  step m s t h k := setSlot_get m _ _ h.2.1.1 h.2.2.1 k

theorem slotOf_offsetY : SlotOf componentOp Component.offsetY where
  src _ _ _ h := h.2.1.2.1
  tgt _ _ _ h := h.2.2.2.1
  step m s t h k := setSlot_get m _ _ h.2.1.2.1 h.2.2.2.1 k

theorem slotOf_scaleX : SlotOf componentOp Component.scaleX where
  src _ _ _ h := h.2.1.2.2.1
  tgt _ _ _ h := h.2.2.2.2.1
  step m s t h k := setSlot_get m _ _ h.2.1.2.2.1 h.2.2.2.2.1 k

theorem slotOf_scaleY : SlotOf componentOp Component.scaleY where
  src _ _ _ h := h.2.1.2.2.2
  tgt _ _ _ h := h.2.2.2.2.2
  step m s t h k := setSlot_get m _ _ h.2.1.2.2.2 h.2.2.2.2.2 k

theorem mergeable_short (masters : List MasterData) (data : MasterData) (h : masters.length < 2) : Mergeable masters data ∧
    ∀ m, nodesOf masters m = none ∧ componentsOf masters m = none := by
  have key : ∀ m, nodesOf masters m = none ∧ componentsOf masters m = none := by
    intro m
    unfold nodesOf componentsOf
    by_cases hm : m = 0
    · simp [hm]
    · rw [if_neg hm, if_neg hm, List.getElem?_eq_none (by omega)]
      exact ⟨rfl, rfl⟩
  refine ⟨⟨?_, ?_⟩, key⟩
  · intro m srcs h'; rw [(key m).1] at h'; simp at h'
  · intro m srcs h'; rw [(key m).2] at h'; simp at h'

/-- the result of merging, in terms of the folds -/
theorem mergeGlyph_ok (masters : List MasterData) (data : MasterData) (h : Mergeable masters data) :
    mergeGlyph masters data = (⟨keyFold nodeOp.step 1 (masters.tail.map MasterData.nodes) data.nodes,
      keyFold componentOp.step 1 (masters.tail.map MasterData.components) data.components⟩, none) := by
  unfold mergeGlyph
  by_cases hs : masters.length < 2
  · rw [if_pos hs]
    have : masters.tail = [] := by
      apply List.eq_nil_of_length_eq_zero
      rw [List.length_tail]; omega
    rw [this]
    rfl
  · rw [if_neg hs]
    exact mergeFrom_ok _ _ _ ((fromMatch_iff masters data).2 h)

/-- **C43 (merge)**: if the data of all masters match the glyph, merging succeeds, and afterwards exactly the slots of
those masters have been replaced by theirs; types, flags, component glyphs and everything of the first master stay as they
were. -/
theorem C43_merge (masters : List MasterData) (data : MasterData) (h : Mergeable masters data) :
    ∃ data', mergeGlyph masters data = (data', none) ∧ Merged masters data data' := by
  refine ⟨_, mergeGlyph_ok masters data h, ?_, ?_⟩
  · have hm := ((fromMatch_iff masters data).2 h).1
    cases hd : data.nodes with
    | none => simp only [keyFold_none]; trivial
    | some ts =>
      rw [hd] at hm
      obtain ⟨ts', e, len, g⟩ := keyFold_slots nodeOp _ slotOf_points _ _ _ hm
      simp only [e]
      refine ⟨len, ?_⟩
      intro i t t' ht ht'
      refine ⟨keyFold_keeps nodeOp MMNode.type (fun _ _ _ _ => rfl) _ _ _ _ hm e i t t' ht ht',
        keyFold_keeps nodeOp MMNode.flags (fun _ _ _ _ => rfl) _ _ _ _ hm e i t t' ht ht', ?_⟩
      have := g i t t' ht ht'
      simp only [srcFrom_tail] at this
      exact this
  · have hm := ((fromMatch_iff masters data).2 h).2
    cases hd : data.components with
    | none => simp only [keyFold_none]; trivial
    | some ts =>
      rw [hd] at hm
      obtain ⟨ts', e, len, g1⟩ := keyFold_slots componentOp _ slotOf_offsetX _ _ _ hm
      obtain ⟨_, e2, _, g2⟩ := keyFold_slots componentOp _ slotOf_offsetY _ _ _ hm
      obtain ⟨_, e3, _, g3⟩ := keyFold_slots componentOp _ slotOf_scaleX _ _ _ hm
      obtain ⟨_, e4, _, g4⟩ := keyFold_slots componentOp _ slotOf_scaleY _ _ _ hm
      rw [e] at e2 e3 e4
      injection e2 with e2
      injection e3 with e3
      injection e4 with e4
      subst e2 e3 e4
      simp only [e]
      simp only [srcFrom_tail] at g1 g2 g3 g4
      refine ⟨len, ?_⟩
      intro i t t' ht ht'
      exact ⟨keyFold_keeps componentOp Component.gid (fun _ _ _ _ => rfl) _ _ _ _ hm e i t t' ht ht',
        g1 i t t' ht ht', g2 i t t' ht ht', g3 i t t' ht ht', g4 i t t' ht ht'⟩

/-- **C43 (rejects)**: merging raises exactly when some master does not match. -/
theorem C43_rejects (masters : List MasterData) (data : MasterData) :
    (mergeGlyph masters data).2 = none ↔ Mergeable masters data := by
  constructor
  · intro h
    by_cases hs : masters.length < 2
    · exact (mergeable_short masters data hs).1
    · unfold mergeGlyph at h
      rw [if_neg hs] at h
      rw [← fromMatch_iff]
      by_contra hc
      exact mergeFrom_err _ _ _ hc h
  · intro h
    obtain ⟨d, e, _⟩ := C43_merge masters data h
    rw [e]

/-- the merged form is unique -/
theorem merged_unique (masters : List MasterData) (data d1 d2 : MasterData) (h1 : Merged masters data d1)
    (h2 : Merged masters data d2) : d1 = d2 := by
  have key : ∀ {α : Type} (P : List α → List α → Prop) (hP : ∀ l a b, P l a → P l b → a = b)
      (x y z : Option (List α)), OptMerged P x y → OptMerged P x z → y = z := by
    intro α P hP x y z hy hz
    cases x with
    | none =>
      cases y with
      | none =>
        cases z with
        | none => rfl
        | some _ => exact absurd hz (by simp [OptMerged])
      | some _ => exact absurd hy (by simp [OptMerged])
    | some l =>
      cases y with
      | none => exact absurd hy (by simp [OptMerged])
      | some a =>
        cases z with
        | none => exact absurd hz (by simp [OptMerged])
        | some b => exact congrArg _ (hP l a b hy hz)
  obtain ⟨a1, b1⟩ := h1
  obtain ⟨a2, b2⟩ := h2
  have e1 : d1.nodes = d2.nodes := by
    refine key _ ?_ _ _ _ a1 a2
    rintro l a b ⟨la, ha⟩ ⟨lb, hb⟩
    apply List.ext_getElem? 
    intro i
    by_cases hi : i < l.length
    · have x := ha i l[i] a[i] (List.getElem?_eq_getElem hi) (List.getElem?_eq_getElem (by omega))
      have y := hb i l[i] b[i] (List.getElem?_eq_getElem hi) (List.getElem?_eq_getElem (by omega))
      rw [List.getElem?_eq_getElem (by omega), List.getElem?_eq_getElem (by omega)]
      congr 1
      have hp : (a[i]).points = (b[i]).points := List.ext_getElem? (fun k => by rw [x.2.2 k, y.2.2 k])
      have ht : (a[i]).type = (b[i]).type := by rw [x.1, y.1]
      have hf : (a[i]).flags = (b[i]).flags := by rw [x.2.1, y.2.1]
      cases ha' : a[i]
      cases hb' : b[i]
      rw [ha', hb'] at hp ht hf
      simp only at hp ht hf
      rw [hp, ht, hf]
    · rw [List.getElem?_eq_none (by omega), List.getElem?_eq_none (by omega)]
  have e2 : d1.components = d2.components := by
    refine key _ ?_ _ _ _ b1 b2
    rintro l a b ⟨la, ha⟩ ⟨lb, hb⟩
    apply List.ext_getElem? 
    intro i
    by_cases hi : i < l.length
    · have x := ha i l[i] a[i] (List.getElem?_eq_getElem hi) (List.getElem?_eq_getElem (by omega))
      have y := hb i l[i] b[i] (List.getElem?_eq_getElem hi) (List.getElem?_eq_getElem (by omega))
      rw [List.getElem?_eq_getElem (by omega), List.getElem?_eq_getElem (by omega)]
      congr 1
      have h1 : (a[i]).offsetX = (b[i]).offsetX := List.ext_getElem? (fun k => by rw [x.2.1 k, y.2.1 k])
      have h2 : (a[i]).offsetY = (b[i]).offsetY := List.ext_getElem? (fun k => by rw [x.2.2.1 k, y.2.2.1 k])
      have h3 : (a[i]).scaleX = (b[i]).scaleX := List.ext_getElem? (fun k => by rw [x.2.2.2.1 k, y.2.2.2.1 k])
      have h4 : (a[i]).scaleY = (b[i]).scaleY := List.ext_getElem? (fun k => by rw [x.2.2.2.2 k, y.2.2.2.2 k])
      have h0 : (a[i]).gid = (b[i]).gid := by rw [x.1, y.1]
      cases ha' : a[i]
      cases hb' : b[i]
      rw [ha', hb'] at h0 h1 h2 h3 h4
      simp only at h0 h1 h2 h3 h4
      rw [h0, h1, h2, h3, h4]
    · rw [List.getElem?_eq_none (by omega), List.getElem?_eq_none (by omega)]
  cases d1; cases d2
  simp only at e1 e2
  rw [e1, e2]

theorem keyFold_match {α : Type} (op : MergeOp α) : ∀ (l : List (Option (List α))) (m : Nat) (t : Option (List α)),
    AllMatch op.Match m l t → ∀ k src', KeyMatch (op.Match k) src' (keyFold op.step m l t) ↔ KeyMatch (op.Match k) src' t
  | [], _, _, _, _, _ => Iff.rfl
  | s :: l, m, t, h, k, src' => by
    rw [allMatch_cons] at h
    rw [keyFold, keyFold_match op l (m + 1) _ h.2, keyStep_match op m s t h.1]

theorem slotsMerged_again {α : Type} (src : Nat → Option (List α)) (l l' : List α) (h : SlotsMerged src l l') :
    SlotsMerged src l' l' := by
  intro m
  have := h m
  cases hs : src m with
  | none => rfl
  | some s => rw [hs] at this; exact this

/-- **C43 (again)**: merging the same data a second time changes nothing. -/
theorem C43_again (masters : List MasterData) (data data' : MasterData) (h : mergeGlyph masters data = (data', none)) :
    mergeGlyph masters data' = (data', none) := by
  have hm : Mergeable masters data := (C43_rejects masters data).1 (by rw [h])
  obtain ⟨d, e, hmd⟩ := C43_merge masters data hm
  rw [h] at e
  injection e with e _
  subst e
  have hf := (fromMatch_iff masters data).2 hm
  have hm' : Mergeable masters data' := by
    have e := mergeGlyph_ok masters data hm
    rw [h] at e
    injection e with e _
    rw [← fromMatch_iff]
    subst e
    exact ⟨fun k => (keyFold_match nodeOp _ _ _ hf.1 k _).2 (hf.1 k),
      fun k => (keyFold_match componentOp _ _ _ hf.2 k _).2 (hf.2 k)⟩
  obtain ⟨d2, e2, hmd2⟩ := C43_merge masters data' hm'
  rw [e2]
  congr 1
  refine merged_unique masters data' d2 data' hmd2 ⟨?_, ?_⟩
  · have h1 := hmd.1
    cases hx : data.nodes with
    | none =>
      cases hy : data'.nodes with
      | none => trivial
      | some _ => rw [hx, hy] at h1; exact absurd h1 (by simp [OptMerged])
    | some l =>
      cases hy : data'.nodes with
      | none => rw [hx, hy] at h1; exact absurd h1 (by simp [OptMerged])
      | some l' =>
        rw [hx, hy] at h1
        refine ⟨rfl, ?_⟩
        intro i t t' ht ht'
        rw [ht] at ht'
        injection ht' with ht'
        subst ht'
        have hi : i < l'.length := (List.getElem?_eq_some_iff.1 ht).1
        obtain ⟨len, g⟩ := h1
        have := g i l[i] t (List.getElem?_eq_getElem (by omega)) ht
        exact ⟨rfl, rfl, slotsMerged_again _ _ _ this.2.2⟩
  · have h1 := hmd.2
    cases hx : data.components with
    | none =>
      cases hy : data'.components with
      | none => trivial
      | some _ => rw [hx, hy] at h1; exact absurd h1 (by simp [OptMerged])
    | some l =>
      cases hy : data'.components with
      | none => rw [hx, hy] at h1; exact absurd h1 (by simp [OptMerged])
      | some l' =>
        rw [hx, hy] at h1
        refine ⟨rfl, ?_⟩
        intro i t t' ht ht'
        rw [ht] at ht'
        injection ht' with ht'
        subst ht'
        have hi : i < l'.length := (List.getElem?_eq_some_iff.1 ht).1
        obtain ⟨len, g⟩ := h1
        have := g i l[i] t (List.getElem?_eq_getElem (by omega)) ht
        exact ⟨rfl, slotsMerged_again _ _ _ this.2.1, slotsMerged_again _ _ _ this.2.2.1,
          slotsMerged_again _ _ _ this.2.2.2.1, slotsMerged_again _ _ _ this.2.2.2.2⟩

/-- **C43 (nothing to merge)**: without temporary data, or in a single master font, the glyph is left alone. -/
theorem C43_not_merged (temp : Option (List MasterData)) (n : Nat) (data : MasterData) (h : temp = none ∨ n = 1) :
    mergeMastersData temp n data = (data, none) := by
  rcases h with rfl | rfl
  · rfl
  · cases temp <;> simp [mergeMastersData]

/-- **C43 (otherwise merged)** -/
theorem C43_merged (masters : List MasterData) (n : Nat) (data : MasterData) (h : n ≠ 1) (hm : Mergeable masters data) :
    ∃ data', mergeMastersData (some masters) n data = (data', none) ∧ Merged masters data data' := by
  simp only [mergeMastersData, if_neg h]
  exact C43_merge masters data hm

/-- **C43 (the glyph's own edits are lost)** (known defect): the temporary data are kept after they have been merged, and
win over whatever the glyph itself holds for those masters: however the points of such a master were edited after the first
merge, the next one puts the points of the temporary data back. -/
theorem C43_temporary_wins (masters : List MasterData) (edited d : MasterData)
    (h : mergeGlyph masters edited = (d, none)) (l : List MMNode) (e : d.nodes = some l)
    (m i : Nat) (srcs : List MMNode) (src t : MMNode) (hs : nodesOf masters m = some srcs) (hi : srcs[i]? = some src)
    (ht : l[i]? = some t) : t.points[m]? = src.points[m]? := by
  obtain ⟨d', e', hm⟩ := C43_merge masters edited ((C43_rejects masters edited).1 (by rw [h]))
  rw [h] at e'
  injection e' with e' _
  subst e'
  have hn := hm.1
  rw [e] at hn
  cases hx : edited.nodes with
  | none => rw [hx] at hn; exact absurd hn (by simp [OptMerged])
  | some l0 =>
    rw [hx] at hn
    obtain ⟨len, g⟩ := hn
    have hi' : i < l.length := (List.getElem?_eq_some_iff.1 ht).1
    have := (g i l0[i] t (List.getElem?_eq_getElem (by omega)) ht).2.2 m
    simp only [hs, Option.bind_some, hi, Option.map_some] at this
    exact this

/-- a glyph with two masters, a component and two nodes -/
def exampleMergeGlyph : MasterData :=
  ⟨some [⟨.move, some 0, [[(0, 0)], [(0, 0)]]⟩, ⟨.line, some 0, [[(10, 0)], [(10, 0)]]⟩],
    some [⟨7, [1, 1], [2, 2], [⟨1⟩, ⟨1⟩], [⟨1⟩, ⟨1⟩]⟩]⟩

/-- the data drawn into the second master -/
def exampleMergeSource : MasterData :=
  ⟨some [⟨.move, some 0, [[(0, 0)], [(5, 5)]]⟩, ⟨.line, some 0, [[(10, 0)], [(20, 5)]]⟩], none⟩

example : mergeGlyph [⟨none, none⟩, exampleMergeSource] exampleMergeGlyph =
    (⟨some [⟨.move, some 0, [[(0, 0)], [(5, 5)]]⟩, ⟨.line, some 0, [[(10, 0)], [(20, 5)]]⟩],
      some [⟨7, [1, 1], [2, 2], [⟨1⟩, ⟨1⟩], [⟨1⟩, ⟨1⟩]⟩]⟩, none) := by decide +kernel

example : Mergeable [⟨none, none⟩, exampleMergeSource] exampleMergeGlyph :=
  (C43_rejects _ _).1 (by decide +kernel)

/-- **C43 (surplus source nodes)** (known defect): nodes that the other master has in addition are ignored without a
message; only missing ones are noticed. -/
theorem C43_surplus_ignored (m : Nat) (srcs extra tgts : List MMNode) (h : srcs.length = tgts.length) :
    mergeItems (mergeNode m) (srcs ++ extra) tgts = mergeItems (mergeNode m) srcs tgts := by
  induction tgts generalizing srcs with
  | nil => cases srcs <;> cases extra <;> simp [mergeItems]
  | cons t ts ih =>
    cases srcs with
    | nil => simp at h
    | cons s ss =>
      simp only [List.cons_append, mergeItems, ih ss (by simpa using h)]

/-- **C43 (failure is not atomic)** (known defect): when merging raises because of a later node, earlier nodes have
already been changed. -/
theorem C43_failure_not_atomic : ∃ masters data data' e, mergeGlyph masters data = (data', some e) ∧ data' ≠ data := by
  refine ⟨[⟨none, none⟩, ⟨some [⟨.move, some 0, [[(0, 0)], [(5, 5)]]⟩, ⟨.curve, some 0, [[], []]⟩], none⟩], exampleMergeGlyph,
    (mergeGlyph [⟨none, none⟩, ⟨some [⟨.move, some 0, [[(0, 0)], [(5, 5)]]⟩, ⟨.curve, some 0, [[], []]⟩], none⟩] exampleMergeGlyph).1,
    .assertion, ?_, ?_⟩
  · decide +kernel
  · decide +kernel

end Verif.Props
