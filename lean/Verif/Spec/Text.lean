import Verif.Model.TextEntries
import Verif.Spec.Entry
/-! Specification vocabulary for C27/C28. -/
set_option autoImplicit false
namespace Verif.Spec
open Verif

/-- neither starts nor ends with a NUL character -/
def NoOuterNul (s : PyStr) : Prop := s.head? ≠ some 0 ∧ s.getLast? ≠ some 0
instance (s : PyStr) : Decidable (NoOuterNul s) := by unfold NoOuterNul; infer_instance

/-- the characters at which Python's `str.splitlines` ends a line: LF, VT, FF, CR, FS, GS, RS, NEL, LS, PS -/
def lineEnds : List Nat := [10, 11, 12, 13, 28, 29, 30, 133, 8232, 8233]

/-- The lines of a text: a line ends at CR LF or at one of the `lineEnds` (CR alone only if no LF
follows); after the last line there need not be a line end. -/
inductive SplitsTo : PyStr → List PyStr → Prop
  | done : SplitsTo [] []
  | last (l : PyStr) : l ≠ [] → (∀ c ∈ l, c ∉ lineEnds) → SplitsTo l [l]
  | crlf (l rest : PyStr) (ls : List PyStr) : (∀ c ∈ l, c ∉ lineEnds) → SplitsTo rest ls →
      SplitsTo (l ++ 13 :: 10 :: rest) (l :: ls)
  | line (l rest : PyStr) (ls : List PyStr) (e : Nat) : (∀ c ∈ l, c ∉ lineEnds) → e ∈ lineEnds →
      ¬ (e = 13 ∧ rest.head? = some 10) → SplitsTo rest ls → SplitsTo (l ++ e :: rest) (l :: ls)

/-- Unicode white space -/
def whiteSpace : List Nat :=
  [9, 10, 11, 12, 13, 28, 29, 30, 31, 32, 133, 160, 5760, 8192, 8193, 8194, 8195, 8196, 8197, 8198, 8199, 8200, 8201,
   8202, 8232, 8233, 8239, 8287, 12288]

/-- the line consists of white space only -/
def blankLine (l : PyStr) : Bool := l.all whiteSpace.contains

/-- the code of a line: what precedes the comment that begins at the first `#` -/
def CodeOf (line code : PyStr) : Prop :=
  35 ∉ code ∧ (line = code ∨ ∃ comment, line = code ++ 35 :: comment)

/-- the code of the line, its comment left out, opens the feature `tag`; `search` is the regular
expression search -/
def Opens (search : PyStr → Option PyStr) (line tag : PyStr) : Prop :=
  ∃ code, CodeOf line code ∧ search code = some tag

/-- there are never more than two blank lines in a row (`seen` of them directly before the list) -/
def BlankRuns (seen : Nat) : List PyStr → Prop
  | [] => True
  | l :: ls => if blankLine l then seen < 2 ∧ BlankRuns (seen + 1) ls else BlankRuns 0 ls

/-- Normalised feature code: lines without line breaks inside, at most two consecutive blank lines,
no empty line at the end except the one that stands for the final newline. -/
def FeaNormal (lines : List PyStr) : Prop :=
  ∃ body, lines = body ++ [[]] ∧ (∀ l ∈ body, ∀ c ∈ l, c ∉ lineEnds) ∧ BlankRuns 0 body ∧
    (1 < body.length → body.getLast? ≠ some [])

/-- the characters that a name record can carry: Mac Roman for platform 1 / encoding 0, otherwise
any code point -/
def NameOk (r : NameRecord) : Prop :=
  IsInt32 r.nameID ∧ IsInt32 r.platID ∧ IsInt32 r.encID ∧ IsInt32 r.langID ∧ r.name.length < 2147483648 ∧
  if r.platID = 1 ∧ r.encID = 0 then ∀ c ∈ r.name, ∃ b, macRomanEncode c = some b
  else ∀ c ∈ r.name, c ≤ 0x10FFFF

end Verif.Spec
