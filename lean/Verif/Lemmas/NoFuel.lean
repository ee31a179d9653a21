import Verif.Lemmas.Base
/-! Termination of readers: in the model a loop that does not end shows as the error `fuel`. -/
set_option autoImplicit false
namespace Verif

/-- the reader ends on every stream -/
def NoFuel {α : Type} (p : R α) : Prop := ∀ s r, p s ≠ .err .fuel r

namespace NoFuel
variable {α β σ : Type}

theorem pure (a : α) : NoFuel (Pure.pure a : R α) := fun _ _ h => by cases h

theorem throw {e : PyErr} (he : e ≠ .fuel) : NoFuel (R.throw e : R α) := fun _ _ h => by
  cases h; exact he rfl

theorem bind {p : R α} {f : α → R β} (hp : NoFuel p) (hf : ∀ a, NoFuel (f a)) : NoFuel (p >>= f) := by
  intro s r h
  rw [R.bind_run] at h
  cases hs : p s with
  | ok a r' => rw [hs] at h; exact hf a r' r h
  | err e r' =>
    rw [hs] at h
    have h : (.err e r' : Res β) = .err .fuel r := h
    cases h
    exact hp s r hs

theorem ite {c : Prop} [Decidable c] {p q : R α} (hp : NoFuel p) (hq : NoFuel q) : NoFuel (if c then p else q) := by
  split
  · exact hp
  · exact hq

theorem rep {p : R α} (hp : NoFuel p) (n : Nat) : NoFuel (R.rep n p) := by
  induction n with
  | zero => exact pure _
  | succ n ih =>
    rw [R.rep_succ]
    exact bind hp fun _ => bind ih fun _ => pure _

theorem forRange {p : R α} (hp : NoFuel p) (n : Int) : NoFuel (R.forRange n p) := rep hp _

theorem forEach {l : List α} {p : α → R β} (hp : ∀ x ∈ l, NoFuel (p x)) : NoFuel (R.forEach l p) := by
  induction l with
  | nil => exact pure _
  | cons x l ih => exact bind (hp x (by simp)) fun _ => bind (ih fun y hy => hp y (by simp [hy])) fun _ => pure _

theorem foldR {l : List α} {f : σ → α → R σ} (hf : ∀ st, ∀ x ∈ l, NoFuel (f st x)) (st : σ) : NoFuel (R.foldR l f st) := by
  induction l generalizing st with
  | nil => exact pure _
  | cons x l ih => exact bind (hf st x (by simp)) fun st' => ih (fun st y hy => hf st y (by simp [hy])) st'

theorem readN (n : Int) : NoFuel (R.readN n) := by
  intro s r h
  unfold R.readN at h
  split at h <;> cases h

theorem readAll : NoFuel R.readAll := fun _ _ h => by cases h

theorem lift {x : Except PyErr α} (hx : x ≠ .error .fuel) : NoFuel (R.lift x) := by
  intro s r h
  cases x with
  | ok a => cases h
  | error e =>
    have h : (.err e s : Res α) = .err .fuel r := h
    cases h
    exact hx rfl

theorem whileTrue {body : σ → R (σ ⊕ α)} (hc : Consuming body) (hb : ∀ st, NoFuel (body st)) (st : σ) : NoFuel (R.whileTrue body st) :=
  fun s r => R.whileTrue_no_fuel hc (fun st s r => hb st s r) st s r

theorem int (k : Nat) (sg : Bool) : NoFuel (readInt k sg) := bind (readN _) fun _ => pure _

theorem u8 : NoFuel readU8 := int _ _

theorem value (sg : Bool) : NoFuel (readValue sg) := by
  intro s r h
  cases s with
  | nil => rw [readValue_nil] at h; cases h
  | cons b s =>
    rw [readValue_cons] at h
    repeat' split at h
    all_goals cases h

theorem doubles (n : Nat) : NoFuel (readDoubles n) := bind (readN _) fun _ => ite (pure _) (throw (by decide))

theorem decode (b : Bytes) : decode1252 b ≠ .error .fuel := by
  unfold decode1252 decodeWith
  split <;> intro h <;> cases h

theorem str (n : Int) : NoFuel (readStr n) := ite (pure _) (bind (readN _) fun b => lift (decode b))

theorem strWithLen : NoFuel readStrWithLen := bind (value _) fun _ => str _

theorem strAll : NoFuel readStrAll := bind readAll fun b => lift (decode b)

/-- parsing a payload ends -/
theorem entry {p : R α} (hp : NoFuel p) (payload : Bytes) : parseEntry p payload ≠ .error .fuel := by
  unfold parseEntry
  cases h : p payload with
  | err e r =>
    intro he
    have he : (.error e : Except PyErr α) = .error .fuel := he
    cases he
    exact hp _ _ h
  | ok a r =>
    cases r with
    | nil => intro he; cases he
    | cons b r => intro he; cases he

end NoFuel

/-- decompose a reader and close the parts that are known to end -/
macro "nofuel" : tactic => `(tactic| repeat' first
  | with_reducible assumption
  | with_reducible exact NoFuel.pure _
  | with_reducible exact NoFuel.throw (by decide)
  | with_reducible exact NoFuel.value _
  | with_reducible exact NoFuel.u8
  | with_reducible exact NoFuel.int _ _
  | with_reducible exact NoFuel.readN _
  | with_reducible exact NoFuel.readAll
  | with_reducible exact NoFuel.doubles _
  | with_reducible exact NoFuel.str _
  | with_reducible exact NoFuel.strWithLen
  | with_reducible exact NoFuel.strAll
  | with_reducible exact NoFuel.lift (NoFuel.decode _)
  | with_reducible refine NoFuel.bind ?_ fun _ => ?_
  | with_reducible refine NoFuel.ite ?_ ?_
  | with_reducible refine NoFuel.rep ?_ _
  | with_reducible refine NoFuel.forRange ?_ _
  | with_reducible refine NoFuel.forEach fun _ _ => ?_
  | with_reducible refine NoFuel.foldR (fun _ _ _ => ?_) _)

end Verif
