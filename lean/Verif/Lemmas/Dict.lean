import Verif.Lemmas.Base
/-! More about dictionaries (association lists), lists and loops. -/
set_option autoImplicit false
namespace Verif

theorem length_le_of_subset {α : Type} [DecidableEq α] (l m : List α) (hn : l.Nodup) (hs : ∀ x ∈ l, x ∈ m) : l.length ≤ m.length := by
  induction l generalizing m with
  | nil => simp
  | cons a l ih =>
    have ha := hs a List.mem_cons_self
    rw [List.nodup_cons] at hn
    have := ih (m.erase a) hn.2 (fun x hx => (List.mem_erase_of_ne (by rintro rfl; exact hn.1 hx)).2 (hs x (List.mem_cons_of_mem _ hx)))
    have h2 := List.length_erase_of_mem ha
    have h3 := List.length_pos_of_mem ha
    simp only [List.length_cons]
    omega

theorem dictGet_some_mem {κ ν : Type} [DecidableEq κ] {d : List (κ × ν)} {k : κ} {v : ν} (h : dictGet d k = some v) : (k, v) ∈ d := by
  induction d with
  | nil => cases h
  | cons p d ih =>
    obtain ⟨k', v'⟩ := p
    simp only [dictGet] at h
    split at h
    · rename_i he; cases h; subst he; exact List.mem_cons_self
    · exact List.mem_cons_of_mem _ (ih h)

theorem dictGet_of_mem {κ ν : Type} [DecidableEq κ] {d : List (κ × ν)} (hd : DictOk d) {k : κ} {v : ν} (h : (k, v) ∈ d) : dictGet d k = some v := by
  induction d with
  | nil => cases h
  | cons p d ih =>
    obtain ⟨k', v'⟩ := p
    simp only [DictOk, List.map_cons, List.nodup_cons] at hd
    simp only [dictGet]
    rcases List.mem_cons.1 h with h | h
    · cases h; rw [if_pos rfl]
    · rw [if_neg]
      · exact ih hd.2 h
      · rintro rfl
        exact hd.1 (List.mem_map.2 ⟨_, h, rfl⟩)

theorem dictGet_iff {κ ν : Type} [DecidableEq κ] {d : List (κ × ν)} (hd : DictOk d) {k : κ} {v : ν} : dictGet d k = some v ↔ (k, v) ∈ d :=
  ⟨dictGet_some_mem, dictGet_of_mem hd⟩

theorem dictGet_none {κ ν : Type} [DecidableEq κ] {d : List (κ × ν)} {k : κ} : dictGet d k = none ↔ k ∉ d.map Prod.fst := by
  induction d with
  | nil => simp [dictGet]
  | cons p d ih =>
    obtain ⟨k', v'⟩ := p
    simp only [dictGet, List.map_cons, List.mem_cons, not_or]
    split
    · rename_i h; subst h; simp
    · rename_i h; rw [ih]; constructor
      · intro h2; exact ⟨fun h3 => h h3.symm, h2⟩
      · exact fun h2 => h2.2

/-- two dictionaries with the same items -/
theorem dictGet_ext {κ ν : Type} [DecidableEq κ] {d d' : List (κ × ν)} (hd : DictOk d) (hd' : DictOk d') (h : ∀ x, x ∈ d ↔ x ∈ d') (k : κ) :
    dictGet d k = dictGet d' k := by
  cases h1 : dictGet d k with
  | some v => rw [dictGet_of_mem hd' ((h _).1 (dictGet_some_mem h1))]
  | none =>
    cases h2 : dictGet d' k with
    | none => rfl
    | some v => rw [dictGet_of_mem hd ((h _).2 (dictGet_some_mem h2))] at h1; cases h1

theorem R.loop_mono {σ α : Type} {body : σ → R (σ ⊕ α)} {n : Nat} {st : σ} {s r : Bytes} {a : α} (h : R.loop n body st s = .ok a r) (k : Nat) :
    R.loop (n + k) body st s = .ok a r := by
  induction n generalizing st s with
  | zero => cases h
  | succ n ih =>
    rw [Nat.succ_add, R.loop_succ]
    rw [R.loop_succ] at h
    cases hb : body st s with
    | err e r' => rw [hb] at h; cases h
    | ok x r' =>
      rw [hb] at h
      cases x with
      | inr b => exact h
      | inl st' => exact ih h

/-- a loop whose iterations each consume what was written, if every item is at least one byte -/
theorem Enc.whileTrue_ne {σ α ι : Type} {body : σ → R (σ ⊕ α)} {w : ι → W}
    {step : σ → ι → σ} {wEnd : W} {fin : α} (xs : List ι) (st : σ)
    (hne : ∀ x ∈ xs, ∀ b, w x = .ok b → 0 < b.length)
    (hstep : ∀ pre x post, xs = pre ++ x :: post →
      Enc (w x) (body (pre.foldl step st)) (.inl (step (pre.foldl step st) x)))
    (hend : Enc wEnd (body (xs.foldl step st)) (.inr fin)) :
    Enc (W.all xs w ++ wEnd) (R.whileTrue body st) fin := by
  have key : ∃ b, W.all xs w ++ wEnd = .ok b ∧ xs.length ≤ b.length ∧ ∀ rest, R.loop (xs.length + 1) body st (b ++ rest) = .ok fin rest := by
    induction xs generalizing st with
    | nil =>
      obtain ⟨b, hw, hr⟩ := hend
      refine ⟨b, by simpa using hw, by simp, fun rest => ?_⟩
      rw [R.loop_succ, show body st (b ++ rest) = .ok (.inr fin) rest from hr rest]
    | cons x xs ih =>
      obtain ⟨b, hw, hr⟩ := hstep [] x xs rfl
      obtain ⟨b', hw', hl, hr'⟩ := ih (step st x) (fun y hy => hne y (List.mem_cons_of_mem _ hy))
        (fun pre y post h => hstep (x :: pre) y post (by rw [h]; rfl)) hend
      have := hne x List.mem_cons_self b hw
      refine ⟨b ++ b', ?_, by simp; omega, fun rest => ?_⟩
      · rw [W.all_cons, W.seq_assoc, hw, hw']; rfl
      · rw [List.append_assoc, List.length_cons, R.loop_succ,
          show body st (b ++ (b' ++ rest)) = .ok (.inl (step st x)) (b' ++ rest) from hr _]
        exact hr' rest
  obtain ⟨b, h1, h2, h3⟩ := key
  refine ⟨b, h1, fun rest => ?_⟩
  have := R.loop_mono (h3 rest) (b.length - xs.length + rest.length)
  unfold R.whileTrue
  rw [List.length_append, show b.length + rest.length + 1 = xs.length + 1 + (b.length - xs.length + rest.length) by omega]
  exact this

end Verif

namespace Verif

theorem W.all_map' {α β : Type} (xs : List α) (g : α → β) (f : β → W) :
    W.all (xs.map g) f = W.all xs fun x => f (g x) := by
  induction xs with
  | nil => rfl
  | cons x xs ih => rw [List.map_cons, W.all_cons, W.all_cons, ih]

theorem W.all_congr {α : Type} {xs : List α} {f g : α → W} (h : ∀ x ∈ xs, f x = g x) : W.all xs f = W.all xs g := by
  induction xs with
  | nil => rfl
  | cons x xs ih =>
    rw [W.all_cons, W.all_cons, h x List.mem_cons_self, ih fun y hy => h y (List.mem_cons_of_mem _ hy)]

/-- a counted list -/
theorem enc_counted {α : Type} {l : List α} {f : α → W} {p : R α} (hl : l.length < 2147483648) (h : ∀ x ∈ l, Enc (f x) p x) :
    Enc (writeValue l.length ++ W.all l f) (do
      let num ← readValue
      R.forRange num p) l :=
  Enc.bind (enc_value (valOk_iff.2 (by simp only [Spec.IsInt32]; omega))) (Enc.forRange rfl h)

theorem post_counted {N : Nat} {α : Type} {p : R α} {P : α → Prop} (h : Post N p P) :
    Post N (do
      let num ← readValue
      R.forRange num p) fun l => l.length < 2147483648 ∧ ∀ x ∈ l, P x := by
  refine Post.bind (post_value true) fun n hn => Post.mono (Post.forRange h n) fun l hl => ⟨?_, hl.2⟩
  have := valOk_iff.1 hn
  simp only [Spec.IsInt32] at this
  omega

theorem rejected_of_all {α : Type} {l : List α} {f : α → W} {x : α} (hx : x ∈ l) (h : ∃ e, f x = .error e) : ∃ e, W.all l f = .error e := by
  cases hc : W.all l f with
  | error e => exact ⟨e, rfl⟩
  | ok b =>
    obtain ⟨b', hb'⟩ := W.all_ok hc x hx
    obtain ⟨e, he⟩ := h
    rw [he] at hb'; cases hb'

theorem err_left {a b : W} (h : ∃ e, a = .error e) : ∃ e, a ++ b = .error e := by
  obtain ⟨e, rfl⟩ := h; exact ⟨e, rfl⟩
theorem err_right {a b : W} (h : ∃ e, b = .error e) : ∃ e, a ++ b = .error e := by
  obtain ⟨e, rfl⟩ := h
  cases a with
  | ok x => exact ⟨e, rfl⟩
  | error e' => exact ⟨e', rfl⟩

theorem encode1252_err {s : PyStr} (h : ¬ Is1252 s) : ∃ e, encode1252 s = .error e := by
  cases he : encode1252 s with
  | error e => exact ⟨e, rfl⟩
  | ok b => exact absurd ⟨b, he⟩ h

theorem enc_counted_map {α β : Type} {l : List α} {f : α → W} {g : α → β} {p : R β} (hl : l.length < 2147483648)
    (h : ∀ x ∈ l, Enc (f x) p (g x)) : Enc (writeValue l.length ++ W.all l f) (do
      let num ← readValue
      R.forRange num p) (l.map g) :=
  Enc.bind (enc_value (valOk_iff.2 (by simp only [Spec.IsInt32]; omega))) (Enc.repMap h)

theorem dictGet_append {κ ν : Type} [DecidableEq κ] (d e : List (κ × ν)) (k : κ) :
    dictGet (d ++ e) k = (dictGet d k).or (dictGet e k) := by
  induction d with
  | nil => simp [dictGet]
  | cons x d ih =>
    obtain ⟨k', v⟩ := x
    by_cases h : k' = k <;> simp [dictGet, h, ih]

end Verif
