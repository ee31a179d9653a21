/-
Python run-time vocabulary used by the model of vfbLib (LucasFonts/vfbLib, /repo/src/vfbLib).

Nothing in this file models a particular function of the code base; it fixes how Python values,
exceptions, byte streams and loops are represented.  See DESIGN.md, "Representation".
-/
set_option autoImplicit false
namespace Verif

/-- `bytes` -/
abbrev Bytes := List UInt8

/-- `str`: the list of its code points (`ord` of each character; lone surrogates are representable). -/
abbrev PyStr := List Nat

/-- A Python string literal as a model string. -/
def lit (s : String) : PyStr := s.toList.map Char.toNat

/-- Python exception classes that the code raises, plus `fuel`, which is not an exception:
it marks a `while` loop that has not finished within the given number of iterations. -/
inductive PyErr where
  | eof            -- EOFError
  | value          -- ValueError
  | overflow       -- OverflowError
  | structError    -- struct.error
  | assertion      -- AssertionError
  | key            -- KeyError
  | index          -- IndexError
  | type           -- TypeError
  | attr           -- AttributeError
  | unicode        -- UnicodeDecodeError / UnicodeEncodeError (subclasses of ValueError)
  | runtime        -- RuntimeError
  | unbound        -- UnboundLocalError
  | notImpl        -- NotImplementedError
  | fuel           -- iteration bound of the model exhausted (the loop is still running)
  deriving DecidableEq, Repr, Inhabited

/-- Result of running code that reads from a stream: the value or the exception, and the bytes
that are still unread at that point (needed because `except` clauses continue with the stream). -/
inductive Res (α : Type) where
  | ok (a : α) (rest : Bytes)
  | err (e : PyErr) (rest : Bytes)
  deriving DecidableEq, Repr

deriving instance DecidableEq for Except

/-- Code that reads from a stream. -/
def R (α : Type) : Type := Bytes → Res α

namespace R

@[inline] def pure {α : Type} (a : α) : R α := fun s => .ok a s
@[inline] def bind {α β : Type} (p : R α) (f : α → R β) : R β := fun s =>
  match p s with
  | .ok a r => f a r
  | .err e r => .err e r

instance : Monad R where
  pure := R.pure
  bind := R.bind

/-- `raise` -/
def throw {α : Type} (e : PyErr) : R α := fun s => .err e s

/-- Run code that does not touch the stream. -/
def lift {α : Type} (x : Except PyErr α) : R α := fun s =>
  match x with
  | .ok a => .ok a s
  | .error e => .err e s

/-- `stream.read(n)`: at most `n` bytes; a negative argument reads everything. -/
def readN (n : Int) : R Bytes := fun s =>
  if n < 0 then .ok s [] else .ok (s.take n.toNat) (s.drop n.toNat)

/-- `stream.read()` -/
def readAll : R Bytes := fun s => .ok s []

/-- `[p() for _ in range(n)]` for `n ≥ 0`. -/
def rep {α : Type} : Nat → R α → R (List α)
  | 0, _ => Pure.pure []
  | n + 1, p => do
    let a ← p
    let as ← rep n p
    Pure.pure (a :: as)

/-- `[p() for _ in range(n)]`; the range is empty for a negative `n`. -/
def forRange {α : Type} (n : Int) (p : R α) : R (List α) := rep n.toNat p

/-- `[f(x) for x in xs]` where `f` reads from the stream. -/
def forEach {α β : Type} : List α → (α → R β) → R (List β)
  | [], _ => Pure.pure []
  | x :: xs, f => do
    let b ← f x
    let bs ← forEach xs f
    Pure.pure (b :: bs)

/-- `for x in xs: st = f(st, x)` where the body reads from the stream. -/
def foldR {α σ : Type} : List α → (σ → α → R σ) → σ → R σ
  | [], _, st => Pure.pure st
  | x :: xs, f, st => do
    let st' ← f st x
    foldR xs f st'

/-- A `while True:` loop whose body either goes on with a new state (`inl`) or leaves the loop with
a result (`inr`); at most `fuel` iterations. -/
def loop {σ α : Type} : Nat → (σ → R (σ ⊕ α)) → σ → R α
  | 0, _, _ => throw .fuel
  | fuel + 1, body, st => do
    match ← body st with
    | .inl st' => loop fuel body st'
    | .inr a => Pure.pure a

/-- A `while True:` loop.  The iteration bound is the number of unread bytes plus one, which is
enough for every loop whose iterations consume at least one byte (`R.loop_fuel` in
`Verif.Lemmas.Py` shows that more fuel then changes nothing).  For loops that can iterate without
consuming input, non-termination is stated with `R.loop` and an arbitrary amount of fuel. -/
def whileTrue {σ α : Type} (body : σ → R (σ ⊕ α)) (st : σ) : R α := fun s =>
  loop (s.length + 1) body st s

end R

/-- Code that writes to a fresh stream: the bytes written, or the exception.  (A partially written
buffer is never observable: `compile` returns `getvalue()` only on success.) -/
abbrev W := Except PyErr Bytes

namespace W

/-- sequential writing -/
def seq (a b : W) : W :=
  match a with
  | .ok x => match b with
    | .ok y => .ok (x ++ y)
    | .error e => .error e
  | .error e => .error e

instance : HAppend W W W := ⟨seq⟩

/-- writing nothing -/
def nil : W := .ok []

/-- `for x in xs: f(x)` -/
def all {α : Type} (xs : List α) (f : α → W) : W :=
  match xs with
  | [] => nil
  | x :: xs => seq (f x) (all xs f)

/-- continue writing with a computed value -/
def withVal {α : Type} (x : Except PyErr α) (f : α → W) : W :=
  match x with
  | .ok a => f a
  | .error e => .error e

end W

/-! ### Decimal strings -/

/-- digits of `n`, most significant first (`fuel` ≥ number of digits) -/
def natDecAux : Nat → Nat → PyStr
  | 0, _ => []
  | fuel + 1, n => if n < 10 then [48 + n] else natDecAux fuel (n / 10) ++ [48 + n % 10]

/-- `str(n)` for a non-negative integer -/
def natDec (n : Nat) : PyStr := natDecAux (n + 1) n

/-- `str(v)` for an integer -/
def intDec (v : Int) : PyStr := if v < 0 then 45 :: natDec v.natAbs else natDec v.natAbs

/-! ### Integers and bytes -/

/-- `int.from_bytes(b, byteorder="little", signed=False)` (0 for the empty string) -/
def leNat : Bytes → Nat
  | [] => 0
  | b :: bs => b.toNat + 256 * leNat bs

/-- `int.from_bytes(b, byteorder="big", signed=False)` -/
def beNat (b : Bytes) : Nat := leNat b.reverse

/-- two's complement reinterpretation of an unsigned `n` of `k` bytes -/
def toSigned (k : Nat) (n : Nat) : Int :=
  if 2 * n < 256 ^ k then (n : Int) else (n : Int) - (256 ^ k : Nat)

/-- `k` little-endian base-256 digits of `n` -/
def leDigits : Nat → Nat → Bytes
  | 0, _ => []
  | k + 1, n => UInt8.ofNat (n % 256) :: leDigits k (n / 256)

/-- value range of a `k`-byte integer -/
def inRange (k : Nat) (signed : Bool) (v : Int) : Prop :=
  match signed with
  | true => -((256 ^ k : Nat) : Int) ≤ 2 * v ∧ 2 * v < ((256 ^ k : Nat) : Int)
  | false => 0 ≤ v ∧ v < ((256 ^ k : Nat) : Int)

instance (k : Nat) (signed : Bool) (v : Int) : Decidable (inRange k signed v) := by
  cases signed <;> unfold inRange <;> infer_instance

/-- `v.to_bytes(k, byteorder="little", signed=signed)`, OverflowError outside the range -/
def toBytesLE (k : Nat) (signed : Bool) (v : Int) : W :=
  if inRange k signed v then .ok (leDigits k (v % ((256 ^ k : Nat) : Int)).toNat)
  else .error .overflow

/-- `struct.pack(">…", v)` for one integer of `k` bytes, struct.error outside the range -/
def packBE (k : Nat) (signed : Bool) (v : Int) : W :=
  if inRange k signed v then .ok (leDigits k (v % ((256 ^ k : Nat) : Int)).toNat).reverse
  else .error .structError

/-- `struct.pack("<…", v)` for one integer of `k` bytes, struct.error outside the range -/
def packLE (k : Nat) (signed : Bool) (v : Int) : W :=
  if inRange k signed v then .ok (leDigits k (v % ((256 ^ k : Nat) : Int)).toNat)
  else .error .structError

/-- `int.from_bytes(b, "little", signed=signed)`; the sign bit is that of the bytes actually present -/
def fromLE (signed : Bool) (b : Bytes) : Int :=
  if signed then toSigned b.length (leNat b) else (leNat b : Int)

/-- `int.from_bytes(b, "big", signed=signed)` -/
def fromBE (signed : Bool) (b : Bytes) : Int :=
  if signed then toSigned b.length (beNat b) else (beNat b : Int)

/-! ### Dictionaries

A `dict` is an association list in insertion order with unique keys. -/

/-- `d[k] = v`: overwrite in place or append. -/
def dictSet {κ ν : Type} [DecidableEq κ] : List (κ × ν) → κ → ν → List (κ × ν)
  | [], k, v => [(k, v)]
  | (k', v') :: d, k, v => if k' = k then (k, v) :: d else (k', v') :: dictSet d k v

/-- `d.get(k)` -/
def dictGet {κ ν : Type} [DecidableEq κ] : List (κ × ν) → κ → Option ν
  | [], _ => none
  | (k', v') :: d, k => if k' = k then some v' else dictGet d k

/-- keys of a dictionary are unique -/
def DictOk {κ ν : Type} (d : List (κ × ν)) : Prop := (d.map Prod.fst).Nodup

instance {κ ν : Type} [DecidableEq κ] (d : List (κ × ν)) : Decidable (DictOk d) := by
  unfold DictOk; infer_instance

end Verif
