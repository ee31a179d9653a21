import Verif.Py
/-! Helper lemmas about the Python vocabulary of `Verif.Py`. -/
set_option autoImplicit false
namespace Verif

/-! ### readers -/
namespace R
variable {α β γ : Type}

@[simp] theorem pure_run (a : α) (s : Bytes) : (Pure.pure a : R α) s = .ok a s := rfl
theorem bind_run (p : R α) (f : α → R β) (s : Bytes) :
    (p >>= f) s = match p s with
      | .ok a r => f a r
      | .err e r => .err e r := rfl
@[simp] theorem throw_run (e : PyErr) (s : Bytes) : (throw e : R α) s = .err e s := rfl
@[simp] theorem lift_ok (a : α) (s : Bytes) : (lift (.ok a) : R α) s = .ok a s := rfl
@[simp] theorem lift_error (e : PyErr) (s : Bytes) : (lift (.error e) : R α) s = .err e s := rfl

theorem bind_of_ok {p : R α} {f : α → R β} {s r : Bytes} {a : α} (h : p s = .ok a r) :
    (p >>= f) s = f a r := by rw [bind_run, h]

theorem bind_of_err {p : R α} {f : α → R β} {s r : Bytes} {e : PyErr} (h : p s = .err e r) :
    (p >>= f) s = .err e r := by rw [bind_run, h]

theorem bind_eq_ok {p : R α} {f : α → R β} {s r : Bytes} {b : β} :
    (p >>= f) s = .ok b r ↔ ∃ a r', p s = .ok a r' ∧ f a r' = .ok b r := by
  rw [bind_run]
  cases h : p s with
  | ok a r' =>
    constructor
    · intro hf; exact ⟨a, r', rfl, hf⟩
    · rintro ⟨a', r'', h', hf⟩; cases h'; exact hf
  | err e r' =>
    constructor
    · intro hf; cases hf
    · rintro ⟨a', r'', h', hf⟩; cases h'

@[simp] theorem ite_run {c : Prop} [Decidable c] (p q : R α) (s : Bytes) :
    (if c then p else q) s = if c then p s else q s := by split <;> rfl

theorem bind_assoc' (p : R α) (f : α → R β) (g : β → R γ) :
    (p >>= f) >>= g = p >>= fun a => f a >>= g := by
  funext s; simp only [bind_run]; cases p s <;> rfl

theorem pure_bind' (a : α) (f : α → R β) : (Pure.pure a : R α) >>= f = f a := rfl

theorem bind_pure' (p : R α) : (p >>= fun a => Pure.pure a) = p := by
  funext s; simp only [bind_run]; cases p s <;> rfl

theorem map_eq_bind (f : α → β) (p : R α) : f <$> p = p >>= fun a => Pure.pure (f a) := rfl

instance : LawfulMonad R := LawfulMonad.mk'
  (id_map := fun p => by rw [map_eq_bind]; exact bind_pure' p)
  (pure_bind := fun a f => rfl)
  (bind_assoc := bind_assoc')

theorem rep_zero (p : R α) : rep 0 p = Pure.pure [] := rfl
theorem rep_succ (n : Nat) (p : R α) :
    rep (n+1) p = (do let a ← p; let as ← rep n p; Pure.pure (a :: as)) := rfl

end R

/-! ### writers -/
namespace W

@[simp] theorem seq_ok (x y : Bytes) : ((.ok x : W) ++ (.ok y : W)) = (.ok (x ++ y) : W) := rfl
@[simp] theorem seq_err_left (e : PyErr) (b : W) : ((.error e : W) ++ b) = (.error e : W) := rfl
@[simp] theorem seq_ok_err (x : Bytes) (e : PyErr) : ((.ok x : W) ++ (.error e : W)) = (.error e : W) := rfl
theorem seq_def (a b : W) : a ++ b = W.seq a b := rfl
@[simp] theorem nil_seq (a : W) : (nil ++ a) = a := by cases a <;> rfl
@[simp] theorem seq_nil (a : W) : (a ++ nil) = a := by
  cases a <;> simp [nil]
theorem seq_assoc (a b c : W) : (a ++ b) ++ c = a ++ (b ++ c) := by
  cases a <;> cases b <;> cases c <;> simp
@[simp] theorem all_nil {α} (f : α → W) : all [] f = nil := rfl
@[simp] theorem all_cons {α} (x : α) (xs) (f : α → W) : all (x :: xs) f = f x ++ all xs f := rfl
theorem all_append {α} (xs ys : List α) (f : α → W) : all (xs ++ ys) f = all xs f ++ all ys f := by
  induction xs with
  | nil => simp
  | cons x xs ih => simp [ih, seq_assoc]

theorem seq_eq_ok {a b : W} {z : Bytes} :
    a ++ b = .ok z ↔ ∃ x y, a = .ok x ∧ b = .ok y ∧ z = x ++ y := by
  cases a with
  | error e => simp
  | ok x =>
    cases b with
    | error e => simp
    | ok y => simp [eq_comm]

@[simp] theorem withVal_ok {α} (a : α) (f : α → W) : withVal (.ok a) f = f a := rfl
@[simp] theorem withVal_error {α} (e : PyErr) (f : α → W) : withVal (.error e) f = .error e := rfl

theorem all_ok {α} {xs : List α} {f : α → W} {z : Bytes} (h : all xs f = .ok z) :
    ∀ x ∈ xs, ∃ b, f x = .ok b := by
  induction xs generalizing z with
  | nil => simp
  | cons x xs ih =>
    rw [all_cons, seq_eq_ok] at h
    obtain ⟨a, b, ha, hb, -⟩ := h
    intro y hy
    rcases List.mem_cons.1 hy with rfl | hy
    · exact ⟨a, ha⟩
    · exact ih hb y hy

end W

/-! ### composition of encoders with decoders -/

/-- `w` succeeds, and `p` reads back exactly what `w` wrote, whatever follows. -/
def Enc {α : Type} (w : W) (p : R α) (a : α) : Prop :=
  ∃ b, w = .ok b ∧ ∀ rest, p (b ++ rest) = .ok a rest

/-- `w` succeeds, and `p` reads back exactly what `w` wrote when it is the whole stream. -/
def EncAll {α : Type} (w : W) (p : R α) (a : α) : Prop :=
  ∃ b, w = .ok b ∧ p b = .ok a []

/-- Postcondition of a reader on streams of at most `N` bytes: every value it returns satisfies `P`,
and it does not push bytes back. -/
def Post (N : Nat) {α : Type} (p : R α) (P : α → Prop) : Prop :=
  ∀ s a r, s.length ≤ N → p s = .ok a r → P a ∧ r.length ≤ s.length

theorem Enc.all {α} {w : W} {p : R α} {a : α} (h : Enc w p a) : EncAll w p a := by
  obtain ⟨b, hw, hp⟩ := h
  exact ⟨b, hw, by simpa using hp []⟩

theorem Enc.pure {α} (a : α) : Enc W.nil (Pure.pure a) a := ⟨[], rfl, fun _ => rfl⟩

theorem Enc.bind {α β} {w₁ w₂ : W} {p : R α} {f : α → R β} {a : α} {b : β}
    (h₁ : Enc w₁ p a) (h₂ : Enc w₂ (f a) b) : Enc (w₁ ++ w₂) (p >>= f) b := by
  obtain ⟨x, rfl, hp⟩ := h₁
  obtain ⟨y, rfl, hf⟩ := h₂
  refine ⟨x ++ y, rfl, fun rest => ?_⟩
  rw [List.append_assoc, R.bind_of_ok (hp _), hf]

theorem Enc.bindAll {α β} {w₁ w₂ : W} {p : R α} {f : α → R β} {a : α} {b : β}
    (h₁ : Enc w₁ p a) (h₂ : EncAll w₂ (f a) b) : EncAll (w₁ ++ w₂) (p >>= f) b := by
  obtain ⟨x, rfl, hp⟩ := h₁
  obtain ⟨y, rfl, hf⟩ := h₂
  exact ⟨x ++ y, rfl, by rw [R.bind_of_ok (hp _), hf]⟩

/-- last step: the reader is followed by a pure computation -/
theorem Enc.last {α β} {w : W} {p : R α} {f : α → R β} {a : α} {b : β}
    (h₁ : Enc w p a) (h₂ : f a = Pure.pure b) : Enc w (p >>= f) b := by
  have := Enc.bind (w₂ := W.nil) (f := f) h₁ (by rw [h₂]; exact Enc.pure b)
  simpa using this

theorem Enc.cast {α} {w w' : W} {p : R α} {a a' : α} (h : Enc w p a) (hw : w = w') (ha : a = a') :
    Enc w' p a' := by subst hw; subst ha; exact h

theorem Enc.rep {α} {xs : List α} {f : α → W} {p : R α}
    (h : ∀ x ∈ xs, Enc (f x) p x) : Enc (W.all xs f) (R.rep xs.length p) xs := by
  induction xs with
  | nil => exact Enc.pure []
  | cons x xs ih =>
    simp only [List.length_cons, R.rep_succ, W.all_cons]
    refine Enc.bind (h x (by simp)) ?_
    refine Enc.last (ih fun y hy => h y (by simp [hy])) rfl

theorem Enc.forRange {α} {xs : List α} {f : α → W} {p : R α} {n : Int} (hn : n = xs.length)
    (h : ∀ x ∈ xs, Enc (f x) p x) : Enc (W.all xs f) (R.forRange n p) xs := by
  subst hn; exact Enc.rep h

/-- repetition where the decoded value is a function of the encoded one -/
theorem Enc.repMap {α β} {xs : List α} {f : α → W} {g : α → β} {p : R β}
    (h : ∀ x ∈ xs, Enc (f x) p (g x)) : Enc (W.all xs f) (R.rep xs.length p) (xs.map g) := by
  induction xs with
  | nil => exact Enc.pure []
  | cons x xs ih =>
    simp only [List.length_cons, R.rep_succ, W.all_cons]
    refine Enc.bind (h x (by simp)) ?_
    refine Enc.last (ih fun y hy => h y (by simp [hy])) rfl

theorem Enc.forEach {α β} {xs : List α} {f : α → W} {g : α → β} {p : α → R β}
    (h : ∀ x ∈ xs, Enc (f x) (p x) (g x)) : Enc (W.all xs f) (R.forEach xs p) (xs.map g) := by
  induction xs with
  | nil => exact Enc.pure []
  | cons x xs ih =>
    simp only [R.forEach, W.all_cons]
    refine Enc.bind (h x (by simp)) ?_
    refine Enc.last (ih fun y hy => h y (by simp [hy])) rfl

/-! postconditions -/

theorem Post.pure {N} {α} {P : α → Prop} {a : α} (h : P a) : Post N (Pure.pure a) P := by
  intro s x r _ hx; cases hx; exact ⟨h, Nat.le_refl _⟩

theorem Post.throw {N} {α} {P : α → Prop} {e : PyErr} : Post N (R.throw e : R α) P := by
  intro s x r _ hx; cases hx

theorem Post.bind {N} {α β} {p : R α} {f : α → R β} {P : α → Prop} {Q : β → Prop}
    (h₁ : Post N p P) (h₂ : ∀ a, P a → Post N (f a) Q) : Post N (p >>= f) Q := by
  intro s b r hN h
  obtain ⟨a, r', ha, hb⟩ := R.bind_eq_ok.1 h
  obtain ⟨hP, hl⟩ := h₁ _ _ _ hN ha
  obtain ⟨hQ, hl'⟩ := h₂ a hP _ _ _ (Nat.le_trans hl hN) hb
  exact ⟨hQ, Nat.le_trans hl' hl⟩

theorem Post.mono {N} {α} {p : R α} {P Q : α → Prop} (h : Post N p P) (hPQ : ∀ a, P a → Q a) :
    Post N p Q :=
  fun s a r hN hs => ⟨hPQ a (h s a r hN hs).1, (h s a r hN hs).2⟩

theorem Post.and {N} {α} {p : R α} {P Q : α → Prop} (h : Post N p P) (h' : Post N p Q) :
    Post N p fun a => P a ∧ Q a :=
  fun s a r hN hs => ⟨⟨(h s a r hN hs).1, (h' s a r hN hs).1⟩, (h s a r hN hs).2⟩

theorem Post.ite {N} {α} {c : Prop} [Decidable c] {p q : R α} {P : α → Prop}
    (h₁ : c → Post N p P) (h₂ : ¬ c → Post N q P) : Post N (if c then p else q) P := by
  split
  · exact h₁ ‹_›
  · exact h₂ ‹_›

theorem Post.rep {N} {α} {p : R α} {P : α → Prop} (h : Post N p P) (n : Nat) :
    Post N (R.rep n p) fun l => l.length = n ∧ ∀ x ∈ l, P x := by
  induction n with
  | zero => exact Post.pure (by simp)
  | succ n ih =>
    rw [R.rep_succ]
    refine Post.bind h fun a ha => Post.bind ih fun l hl => Post.pure ?_
    simp [hl.1, ha]; exact hl.2

theorem Post.forRange {N} {α} {p : R α} {P : α → Prop} (h : Post N p P) (n : Int) :
    Post N (R.forRange n p) fun l => l.length = n.toNat ∧ ∀ x ∈ l, P x := Post.rep h _

theorem Post.forEach {N} {α β} {xs : List α} {p : α → R β} {P : β → Prop}
    (h : ∀ x ∈ xs, Post N (p x) P) :
    Post N (R.forEach xs p) fun l => l.length = xs.length ∧ ∀ x ∈ l, P x := by
  induction xs with
  | nil => exact Post.pure (by simp)
  | cons x xs ih =>
    refine Post.bind (h x (by simp)) fun a ha => Post.bind (ih fun y hy => h y (by simp [hy])) fun l hl => Post.pure ?_
    simp [hl.1, ha]; exact hl.2

theorem Post.foldR {N} {α σ} {xs : List α} {f : σ → α → R σ} {I : σ → Prop}
    (h : ∀ st, I st → ∀ x ∈ xs, Post N (f st x) I) (st : σ) (h0 : I st) :
    Post N (R.foldR xs f st) I := by
  induction xs generalizing st with
  | nil => exact Post.pure h0
  | cons x xs ih =>
    exact Post.bind (h st h0 x (by simp)) fun st' h' =>
      ih (fun st hst y hy => h st hst y (by simp [hy])) st' h'

theorem Post.readN {N : Nat} (n : Int) :
    Post N (R.readN n) fun b => b.length ≤ N ∧ (0 ≤ n → (b.length : Int) ≤ n) := by
  intro s b r hN h
  simp only [R.readN] at h
  split at h
  · cases h; exact ⟨⟨hN, by omega⟩, by simp⟩
  · cases h
    simp only [List.length_take, List.length_drop]
    omega

theorem Post.readAll {N : Nat} : Post N R.readAll fun b => b.length ≤ N := by
  intro s b r hN h; cases h; exact ⟨hN, by simp⟩

theorem Post.lift {N} {α} {x : Except PyErr α} {P : α → Prop} (h : ∀ a, x = .ok a → P a) :
    Post N (R.lift x) P := by
  intro s a r _ hs
  cases x with
  | ok a' => cases hs; exact ⟨h a rfl, Nat.le_refl _⟩
  | error e => cases hs

/-! ### bytes and numbers -/

@[simp] theorem leDigits_length (k n : Nat) : (leDigits k n).length = k := by
  induction k generalizing n with
  | zero => rfl
  | succ k ih => simp [leDigits, ih]

theorem leNat_lt (b : Bytes) : leNat b < 256 ^ b.length := by
  induction b with
  | nil => simp [leNat]
  | cons x xs ih =>
    have := x.toNat_lt
    simp only [leNat, List.length_cons, Nat.pow_succ]
    omega

theorem leNat_leDigits (k n : Nat) (h : n < 256 ^ k) : leNat (leDigits k n) = n := by
  induction k generalizing n with
  | zero => simp at h; subst h; rfl
  | succ k ih =>
    simp only [leDigits, leNat]
    rw [ih (n / 256) (by rw [Nat.pow_succ] at h; omega)]
    rw [UInt8.toNat_ofNat']
    omega

theorem leDigits_leNat (b : Bytes) : leDigits b.length (leNat b) = b := by
  induction b with
  | nil => rfl
  | cons x xs ih =>
    have := x.toNat_lt
    have h1 : (x.toNat + 256 * leNat xs) % 256 = x.toNat := by omega
    have h2 : (x.toNat + 256 * leNat xs) / 256 = leNat xs := by omega
    simp only [List.length_cons, leDigits, leNat, h1, h2, ih]
    congr 1
    exact UInt8.ofNat_toNat

theorem leDigits_inj {k m n : Nat} (hm : m < 256 ^ k) (hn : n < 256 ^ k)
    (h : leDigits k m = leDigits k n) : m = n := by
  rw [← leNat_leDigits k m hm, ← leNat_leDigits k n hn, h]

theorem pow256_pos (k : Nat) : 0 < 256 ^ k := Nat.pow_pos (by omega)

theorem beNat_lt (b : Bytes) : beNat b < 256 ^ b.length := by
  have := leNat_lt b.reverse
  simpa [beNat] using this

theorem signed_range {k : Nat} {b : Bytes} (h : b.length = k) :
    inRange k true (toSigned k (leNat b)) := by
  have := leNat_lt b
  rw [h] at this
  simp only [inRange, toSigned]
  generalize 256 ^ k = m at *
  split <;> omega

theorem emod_toNat_lt (v : Int) (k : Nat) : (v % ((256 ^ k : Nat) : Int)).toNat < 256 ^ k := by
  have h := pow256_pos k
  have h1 := Int.emod_lt_of_pos v (show (0:Int) < ((256 ^ k : Nat) : Int) by omega)
  have h2 := Int.emod_nonneg v (show ((256 ^ k : Nat) : Int) ≠ 0 by omega)
  omega

theorem toSigned_emod {k : Nat} {v : Int} (h : inRange k true v) :
    toSigned k (v % ((256 ^ k : Nat) : Int)).toNat = v := by
  simp only [inRange] at h
  obtain ⟨h1, h2⟩ := h
  have h0 := pow256_pos k
  unfold toSigned
  generalize 256 ^ k = m at *
  by_cases hv : 0 ≤ v
  · have : v % (m : Int) = v := Int.emod_eq_of_lt hv (by omega)
    rw [this]; split <;> omega
  · have : v % (m : Int) = v + m := by
      rw [← Int.add_emod_right]
      exact Int.emod_eq_of_lt (by omega) (by omega)
    rw [this]; split <;> omega

theorem unsigned_emod {k : Nat} {v : Int} (h : inRange k false v) :
    (((v % ((256 ^ k : Nat) : Int)).toNat : Nat) : Int) = v := by
  simp only [inRange] at h
  obtain ⟨h1, h2⟩ := h
  rw [Int.emod_eq_of_lt h1 h2]; omega

theorem fromLE_toBytes {k : Nat} {signed : Bool} {v : Int} (h : inRange k signed v) :
    fromLE signed (leDigits k (v % ((256 ^ k : Nat) : Int)).toNat) = v := by
  unfold fromLE
  cases signed with
  | true =>
    simp only [if_true, leDigits_length, leNat_leDigits _ _ (emod_toNat_lt v k)]
    exact toSigned_emod h
  | false =>
    simp only [Bool.false_eq_true, if_false, leNat_leDigits _ _ (emod_toNat_lt v k)]
    exact unsigned_emod h

theorem fromBE_pack {k : Nat} {signed : Bool} {v : Int} (h : inRange k signed v) :
    fromBE signed (leDigits k (v % ((256 ^ k : Nat) : Int)).toNat).reverse = v := by
  have := fromLE_toBytes h
  unfold fromLE at this
  unfold fromBE beNat
  simpa using this

theorem fromLE_range {k : Nat} {signed : Bool} {b : Bytes} (h : b.length = k) :
    inRange k signed (fromLE signed b) := by
  cases signed with
  | true => simp only [fromLE, if_true, h]; exact signed_range h
  | false =>
    have := leNat_lt b
    rw [h] at this
    simp only [fromLE, inRange, Bool.false_eq_true, if_false]
    omega

theorem inRange_mono {j k : Nat} {signed : Bool} {v : Int} (hjk : j ≤ k) (h : inRange j signed v) :
    inRange k signed v := by
  have : 256 ^ j ≤ 256 ^ k := Nat.pow_le_pow_right (by omega) hjk
  cases signed <;> simp only [inRange] at * <;> generalize 256 ^ j = m at * <;>
    generalize 256 ^ k = n at * <;> omega

theorem readN_append {b rest : Bytes} {n : Int} (h : n = b.length) :
    R.readN n (b ++ rest) = .ok b rest := by
  subst h
  have : ¬ ((b.length : Int) < 0) := by omega
  simp [R.readN, this]

theorem readN_length {n : Nat} {s b r : Bytes} (h : R.readN n s = .ok b r) :
    b.length ≤ n ∧ s = b ++ r := by
  simp only [R.readN] at h
  split at h
  · omega
  · cases h; simp; omega

/-! ### loops -/

/-- every iteration that continues consumes input -/
def Consuming {σ α : Type} (body : σ → R (σ ⊕ α)) : Prop :=
  ∀ st s st' r, body st s = .ok (.inl st') r → r.length < s.length

theorem R.loop_succ {σ α : Type} (n : Nat) (body : σ → R (σ ⊕ α)) (st : σ) (s : Bytes) :
    R.loop (n + 1) body st s = match body st s with
      | .ok (.inl st') r => R.loop n body st' r
      | .ok (.inr a) r => .ok a r
      | .err e r => .err e r := by
  simp only [R.loop, R.bind_run]
  cases body st s with
  | ok x r => cases x <;> rfl
  | err e r => rfl

/-- for a consuming loop any amount of fuel beyond the stream length gives the same result -/
theorem R.loop_fuel {σ α : Type} {body : σ → R (σ ⊕ α)} (hc : Consuming body) (n m : Nat) (st : σ)
    (s : Bytes) (hn : s.length < n) (hm : s.length < m) : R.loop n body st s = R.loop m body st s := by
  induction n generalizing m st s with
  | zero => omega
  | succ n ih =>
    cases m with
    | zero => omega
    | succ m =>
      rw [R.loop_succ, R.loop_succ]
      cases h : body st s with
      | err e r => rfl
      | ok x r =>
        cases x with
        | inr a => rfl
        | inl st' =>
          have := hc _ _ _ _ h
          exact ih m st' r (by omega) (by omega)

theorem R.whileTrue_step {σ α : Type} {body : σ → R (σ ⊕ α)} (hc : Consuming body) (st : σ) (s : Bytes) :
    R.whileTrue body st s = match body st s with
      | .ok (.inl st') r => R.whileTrue body st' r
      | .ok (.inr a) r => .ok a r
      | .err e r => .err e r := by
  rw [R.whileTrue, R.loop_succ]
  cases h : body st s with
  | err e r => rfl
  | ok x r =>
    cases x with
    | inr a => rfl
    | inl st' =>
      have := hc _ _ _ _ h
      exact R.loop_fuel hc _ _ st' r (by omega) (by omega)

theorem R.loop_no_fuel {σ α : Type} {body : σ → R (σ ⊕ α)} (hc : Consuming body)
    (hb : ∀ st s r, body st s ≠ .err .fuel r) (n : Nat) (st : σ) (s r : Bytes) (hn : s.length < n) :
    R.loop n body st s ≠ .err .fuel r := by
  induction n generalizing st s with
  | zero => omega
  | succ n ih =>
    rw [R.loop_succ]
    cases h : body st s with
    | err e r' =>
      intro he
      simp only [Res.err.injEq] at he
      exact hb st s r (by rw [h, he.1, he.2])
    | ok x r' =>
      cases x with
      | inr a => intro he; cases he
      | inl st' =>
        have := hc _ _ _ _ h
        exact ih st' r' (by omega)

/-- a consuming loop whose body terminates, terminates -/
theorem R.whileTrue_no_fuel {σ α : Type} {body : σ → R (σ ⊕ α)} (hc : Consuming body)
    (hb : ∀ st s r, body st s ≠ .err .fuel r) (st : σ) (s r : Bytes) :
    R.whileTrue body st s ≠ .err .fuel r := R.loop_no_fuel hc hb _ st s r (by omega)

theorem Post.loop {N} {σ α : Type} {body : σ → R (σ ⊕ α)} {I : σ → Prop} {P : α → Prop}
    (hb : ∀ st, I st → Post N (body st) (Sum.elim I P))
    (n : Nat) (st : σ) (h : I st) : Post N (R.loop n body st) P := by
  induction n generalizing st with
  | zero => exact Post.throw
  | succ n ih =>
    intro s a r hN hs
    rw [R.loop_succ] at hs
    cases hbs : body st s with
    | err e r' => rw [hbs] at hs; cases hs
    | ok x r' =>
      obtain ⟨hx, hl⟩ := hb st h _ _ _ hN hbs
      rw [hbs] at hs
      cases x with
      | inr a' => cases hs; exact ⟨hx, hl⟩
      | inl st' =>
        obtain ⟨hP, hl'⟩ := ih st' hx _ _ _ (Nat.le_trans hl hN) hs
        exact ⟨hP, Nat.le_trans hl' hl⟩

theorem Post.whileTrue {N} {σ α : Type} {body : σ → R (σ ⊕ α)} {I : σ → Prop} {P : α → Prop}
    (hb : ∀ st, I st → Post N (body st) (Sum.elim I P))
    (st : σ) (h : I st) : Post N (R.whileTrue body st) P := by
  intro s a r hN hs
  exact Post.loop hb _ st h _ _ _ hN hs

theorem Enc.whileTrue {σ α ι : Type} {body : σ → R (σ ⊕ α)} (hc : Consuming body) {w : ι → W}
    {step : σ → ι → σ} {wEnd : W} {fin : α} (xs : List ι) (st : σ)
    (hstep : ∀ pre x post, xs = pre ++ x :: post →
      Enc (w x) (body (pre.foldl step st)) (.inl (step (pre.foldl step st) x)))
    (hend : Enc wEnd (body (xs.foldl step st)) (.inr fin)) :
    Enc (W.all xs w ++ wEnd) (R.whileTrue body st) fin := by
  induction xs generalizing st with
  | nil =>
    obtain ⟨b, hw, hr⟩ := hend
    refine ⟨b, by simpa using hw, fun rest => ?_⟩
    rw [R.whileTrue_step hc, show body st (b ++ rest) = .ok (.inr fin) rest from hr rest]
  | cons x xs ih =>
    obtain ⟨b, hw, hr⟩ := hstep [] x xs rfl
    obtain ⟨b', hw', hr'⟩ := ih (step st x)
      (fun pre y post h => hstep (x :: pre) y post (by rw [h]; rfl)) hend
    refine ⟨b ++ b', ?_, fun rest => ?_⟩
    · rw [W.all_cons, W.seq_assoc, hw, hw']; rfl
    · rw [List.append_assoc, R.whileTrue_step hc,
        show body st (b ++ (b' ++ rest)) = .ok (.inl (step st x)) (b' ++ rest) from hr _]
      exact hr' rest

theorem EncAll.whileTrue {σ α ι : Type} {body : σ → R (σ ⊕ α)} (hc : Consuming body) {w : ι → W}
    {step : σ → ι → σ} {wEnd : W} {fin : α} (xs : List ι) (st : σ)
    (hstep : ∀ pre x post, xs = pre ++ x :: post →
      Enc (w x) (body (pre.foldl step st)) (.inl (step (pre.foldl step st) x)))
    (hend : EncAll wEnd (body (xs.foldl step st)) (.inr fin)) :
    EncAll (W.all xs w ++ wEnd) (R.whileTrue body st) fin := by
  induction xs generalizing st with
  | nil =>
    obtain ⟨b, hw, hr⟩ := hend
    refine ⟨b, by simpa using hw, ?_⟩
    rw [R.whileTrue_step hc, show body st b = .ok (.inr fin) [] from hr]
  | cons x xs ih =>
    obtain ⟨b, hw, hr⟩ := hstep [] x xs rfl
    obtain ⟨b', hw', hr'⟩ := ih (step st x)
      (fun pre y post h => hstep (x :: pre) y post (by rw [h]; rfl)) hend
    refine ⟨b ++ b', ?_, ?_⟩
    · rw [W.all_cons, W.seq_assoc, hw, hw']; rfl
    · rw [R.whileTrue_step hc,
        show body st (b ++ b') = .ok (.inl (step st x)) b' from hr _]
      exact hr'

theorem natDecAux_digit (fuel n : Nat) : ∀ c ∈ natDecAux fuel n, 48 ≤ c ∧ c ≤ 57 := by
  induction fuel generalizing n with
  | zero => simp [natDecAux]
  | succ fuel ih =>
    intro c hc
    simp only [natDecAux] at hc
    split at hc
    · simp at hc; omega
    · rcases List.mem_append.1 hc with h | h
      · exact ih _ _ h
      · simp at h; omega

theorem natDec_digit (n : Nat) : ∀ c ∈ natDec n, 48 ≤ c ∧ c ≤ 57 := natDecAux_digit _ _

/-! ### dictionaries -/

theorem dictSet_new {κ ν : Type} [DecidableEq κ] {d : List (κ × ν)} {k : κ} {v : ν}
    (h : k ∉ d.map Prod.fst) : dictSet d k v = d ++ [(k, v)] := by
  induction d with
  | nil => rfl
  | cons x d ih =>
    obtain ⟨k', v'⟩ := x
    simp only [List.map_cons, List.mem_cons, not_or] at h
    simp only [dictSet]
    rw [if_neg (fun e => h.1 e.symm), ih h.2]; rfl

theorem dictSet_keys {κ ν : Type} [DecidableEq κ] (d : List (κ × ν)) (k : κ) (v : ν) :
    (dictSet d k v).map Prod.fst = if k ∈ d.map Prod.fst then d.map Prod.fst else d.map Prod.fst ++ [k] := by
  induction d with
  | nil => simp [dictSet]
  | cons x d ih =>
    obtain ⟨k', v'⟩ := x
    simp only [dictSet, List.map_cons, List.mem_cons]
    by_cases h : k' = k
    · subst h; simp
    · rw [if_neg h]
      simp only [List.map_cons, ih]
      by_cases hk : k ∈ d.map Prod.fst
      · simp [hk]
      · have : ¬ (k = k') := fun e => h e.symm
        simp [hk, this]

theorem dictSet_ok {κ ν : Type} [DecidableEq κ] {d : List (κ × ν)} (h : DictOk d) (k : κ) (v : ν) :
    DictOk (dictSet d k v) := by
  unfold DictOk at *
  rw [dictSet_keys]
  split
  · exact h
  · rename_i hk
    rw [List.nodup_append]
    refine ⟨h, by simp, ?_⟩
    intro a ha b hb
    simp at hb; subst hb
    intro e; subst e; exact hk ha

theorem dictGet_dictSet {κ ν : Type} [DecidableEq κ] (d : List (κ × ν)) (k k' : κ) (v : ν) :
    dictGet (dictSet d k v) k' = if k = k' then some v else dictGet d k' := by
  induction d with
  | nil => simp [dictSet, dictGet]
  | cons x d ih =>
    obtain ⟨k0, v0⟩ := x
    simp only [dictSet]
    by_cases h : k0 = k
    · subst h; simp [dictGet]; split <;> rfl
    · simp only [if_neg h, dictGet, ih]
      by_cases h2 : k = k'
      · subst h2; simp [h]
      · simp [h2]

theorem dictSet_mem {κ ν : Type} [DecidableEq κ] {d : List (κ × ν)} {k : κ} {v : ν} {x : κ × ν}
    (h : x ∈ dictSet d k v) : x = (k, v) ∨ x ∈ d := by
  induction d with
  | nil => simp [dictSet] at h; exact Or.inl h
  | cons y d ih =>
    obtain ⟨k0, v0⟩ := y
    simp only [dictSet] at h
    split at h
    · rcases List.mem_cons.1 h with h | h
      · exact Or.inl h
      · exact Or.inr (by simp [h])
    · rcases List.mem_cons.1 h with h | h
      · exact Or.inr (by simp [h])
      · rcases ih h with h | h
        · exact Or.inl h
        · exact Or.inr (by simp [h])

end Verif
