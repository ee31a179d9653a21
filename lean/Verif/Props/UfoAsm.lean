import Verif.Model.UfoAsm
import Verif.Spec.UfoAsm
import Mathlib.Data.List.Basic
/-! C94: TrueType instructions as text. -/
set_option autoImplicit false
namespace Verif.Props
open Verif Verif.Spec

theorem linesOf_line (l s : PyStr) (hl : 10 ∉ l) : linesOf (l ++ lit "\n" ++ s) = (linesOf s).map fun ls => l :: ls := by
  have hnl : lit "\n" = [10] := by decide
  rw [hnl]
  induction l with
  | nil => simp [linesOf]
  | cons c l ih =>
    have hc : c ≠ 10 := fun h => hl (by simp [h])
    rw [List.cons_append, List.cons_append, linesOf, if_neg hc, ih fun h => hl (by simp [h])]
    cases linesOf s with
    | none => rfl
    | some ls => rfl

theorem spaces_flatten (n : Nat) : (List.replicate n (lit "  ")).flatten = List.replicate (2 * n) 32 := by
  have h2 : lit "  " = [32, 32] := by decide
  rw [h2]
  induction n with
  | zero => rfl
  | succ n ih =>
    rw [List.replicate_succ, List.flatten_cons, ih, show 2 * (n + 1) = 2 * n + 1 + 1 by omega, List.replicate_succ, List.replicate_succ]
    rfl

theorem formatLines_lines (A : AsmText) (before ls : List PyStr) (h : ∀ l ∈ ls, 10 ∉ l) :
    linesOf (formatLines A ((before.countP fun l => A.indents l) - (before.countP fun l => A.unindents l) : Int) ls) =
      some (ls.zipIdx.map fun x => List.replicate (2 * blockDepth A.indents A.unindents (before ++ ls.take x.2) x.1) 32 ++ x.1) := by
  induction ls generalizing before with
  | nil => rfl
  | cons line ls ih =>
    rw [formatLines]
    have hd : (if A.unindents line = true then ((before.countP fun l => A.indents l) - (before.countP fun l => A.unindents l) : Int) - 1
        else ((before.countP fun l => A.indents l) - (before.countP fun l => A.unindents l) : Int)) =
        ((before.countP fun l => A.indents l) - ((before ++ [line]).countP fun l => A.unindents l) : Int) := by
      rw [List.countP_append, List.countP_singleton]
      split <;> omega
    rw [hd]
    have hn : (if A.indents line = true then ((before.countP fun l => A.indents l) - ((before ++ [line]).countP fun l => A.unindents l) : Int) + 1
        else ((before.countP fun l => A.indents l) - ((before ++ [line]).countP fun l => A.unindents l) : Int)) =
        (((before ++ [line]).countP fun l => A.indents l) - ((before ++ [line]).countP fun l => A.unindents l) : Int) := by
      rw [List.countP_append (l₁ := before) (l₂ := [line]) (p := fun l => A.indents l), List.countP_singleton]
      split <;> omega
    rw [hn, linesOf_line, ih (before ++ [line]) fun l hl => h l (by simp [hl])]
    · rw [spaces_flatten, List.zipIdx_cons, List.map_cons, Option.map_some]
      congr 1
      congr 1
      · simp [blockDepth]
      · rw [List.zipIdx_succ, List.map_map]
        apply List.map_congr_left
        rintro ⟨x, i⟩ -
        simp [List.append_assoc]
    · rw [spaces_flatten]
      intro hm
      rcases List.mem_append.1 hm with hm | hm
      · have := List.eq_of_mem_replicate hm
        omega
      · exact h line (by simp) hm

/-- **C94** The text of a list of instructions: an empty line, then one line for each instruction in the same order, unchanged but for two spaces at its
start for each block that is open there. -/
theorem C94_lines (A : AsmText) (ls : List PyStr) (h : ∀ l ∈ ls, 10 ∉ l) :
    ∃ t, formatAssembly A (.list ls) = .ok t ∧
      linesOf t = some ([] :: ls.zipIdx.map fun x => List.replicate (2 * blockDepth A.indents A.unindents (ls.take x.2) x.1) 32 ++ x.1) := by
  refine ⟨_, rfl, ?_⟩
  have := formatLines_lines A [] ls h
  simp only [List.countP_nil, List.nil_append] at this
  replace this : linesOf (formatLines A 0 ls) = _ := this
  have hnl := linesOf_line [] (formatLines A 0 ls) (by simp)
  rw [List.nil_append] at hnl
  rw [hnl, this]
  rfl

theorem unindented_spaces (n : Nat) (l : PyStr) (h : l.head? ≠ some 32) : unindented (List.replicate n 32 ++ l) = l := by
  unfold unindented
  induction n with
  | zero =>
    cases l with
    | nil => rfl
    | cons c l =>
      have : c ≠ 32 := fun hc => h (by simp [hc])
      simp [this]
  | succ n ih =>
    rw [List.replicate_succ, List.cons_append, List.dropWhile_cons_of_pos (by simp), ih]

/-- **C94** Nothing is lost: the instructions are the lines of the text after the first, without their indentation; so different instructions have
different texts. -/
theorem C94_recover (A : AsmText) (ls : List PyStr) (h : ∀ l ∈ ls, 10 ∉ l ∧ l.head? ≠ some 32) :
    ∃ t, formatAssembly A (.list ls) = .ok t ∧ (linesOf t).map (fun l => l.tail.map unindented) = some ls := by
  obtain ⟨t, h1, h2⟩ := C94_lines A ls fun l hl => (h l hl).1
  refine ⟨t, h1, ?_⟩
  rw [h2, Option.map_some, List.tail_cons, List.map_map]
  congr 1
  have : ∀ x ∈ ls.zipIdx, (unindented ∘ fun x : PyStr × Nat => List.replicate (2 * blockDepth A.indents A.unindents (ls.take x.2) x.1) 32 ++ x.1) x = x.1 := by
    rintro ⟨l, i⟩ hx
    exact unindented_spaces _ _ (h l (List.fst_mem_of_mem_zipIdx hx)).2
  rw [List.map_congr_left this, List.zipIdx_map_fst]

theorem C94_distinct (A : AsmText) (ls ls' : List PyStr) (h : ∀ l ∈ ls, 10 ∉ l ∧ l.head? ≠ some 32) (h' : ∀ l ∈ ls', 10 ∉ l ∧ l.head? ≠ some 32)
    (he : formatAssembly A (.list ls) = formatAssembly A (.list ls')) : ls = ls' := by
  obtain ⟨t, h1, h2⟩ := C94_recover A ls h
  obtain ⟨t', h3, h4⟩ := C94_recover A ls' h'
  rw [h1, h3] at he
  cases he
  rw [h2] at h4
  injection h4

/-- **C94** The three kinds of input: binary instructions are those of their disassembly, or raise its exception; a text is that of its lines; everything
else is a TypeError. -/
theorem C94_inputs (A : AsmText) :
    (∀ b ls, A.getAssembly b = .ok ls → formatAssembly A (.bytes b) = formatAssembly A (.list ls)) ∧
    (∀ b e, A.getAssembly b = .error e → formatAssembly A (.bytes b) = .error e) ∧
    (∀ s, formatAssembly A (.str s) = formatAssembly A (.list (A.splitlines s))) ∧
    formatAssembly A .other = .error .type := by
  refine ⟨?_, ?_, fun _ => rfl, rfl⟩
  · intro b ls h
    simp only [formatAssembly]
    rw [h]
    rfl
  · intro b e h
    simp only [formatAssembly]
    rw [h]
    rfl

/-! ## The hypotheses can be met -/

def exampleAsmText : AsmText where
  getAssembly b := .ok (b.map fun x => [x.toNat])
  splitlines s := [s]
  indents l := l == lit "IF" || l == lit "ELSE"
  unindents l := l == lit "ELSE" || l == lit "EIF"

example : formatAssembly exampleAsmText (.list [lit "IF", lit "A", lit "ELSE", lit "B", lit "EIF", lit "EIF", lit "IF", lit "C"]) =
    .ok (lit "\nIF\n  A\nELSE\n  B\nEIF\nEIF\nIF\nC\n") := by decide +kernel

example : ∀ l ∈ [lit "IF", lit "A", lit "EIF"], 10 ∉ l ∧ l.head? ≠ some 32 := by decide

example : blockDepth exampleAsmText.indents exampleAsmText.unindents [lit "IF", lit "IF"] (lit "A") = 2 := by decide

end Verif.Props
