import Verif.Props.Commands
import Verif.Props.Glyph
/-! C97, continued: instructions that were read from a file. -/
set_option autoImplicit false
namespace Verif.Props
open Verif Verif.Spec
variable (ops : AngleOps) (asm : AsmOps)

/-- what the table of the export says of a command with these parameters -/
def commandFacts (c : Int × PyStr × List PyStr) : Bool :=
  tthTable.all fun x => if x.1 = c.2.1 then
      (tthPoints x.2.2).all (fun q => c.2.2.contains q.2) &&
      (if x.2.2 = .zone true then c.2.2.contains (lit "zone") && !c.2.2.contains (lit "stem") && decide (c.2.1 = lit "AlignBottom")
       else if x.2.2 = .zone false then c.2.2.contains (lit "zone") && !c.2.2.contains (lit "stem") && decide (c.2.1 ≠ lit "AlignBottom")
       else if x.2.2 = .link true then !c.2.2.contains (lit "zone") && decide (c.2.1 ∈ [lit "SingleLinkH", lit "DoubleLinkH"])
       else if x.2.2 = .link false then !c.2.2.contains (lit "zone") && decide (c.2.1 ∉ [lit "SingleLinkH", lit "DoubleLinkH"])
       else !c.2.2.contains (lit "zone") && !c.2.2.contains (lit "stem")) &&
      (x.2.2 ≠ .delta || [lit "shift", lit "ppm1", lit "ppm2"].all fun k => c.2.2.contains k)
    else true

theorem commandFacts_all : ∀ c ∈ ttCommands, commandFacts c = true ∧ ∃ x ∈ tthTable, x.1 = c.2.1 := by decide +kernel

theorem hasKey_iff {ν : Type} (d : List (PyStr × ν)) (k : PyStr) : (dictGet d k).isSome ↔ k ∈ d.map Prod.fst := by
  induction d with
  | nil => simp [dictGet]
  | cons x d ih =>
    rw [dictGet, List.map_cons, List.mem_cons]
    by_cases h : x.1 = k
    · simp [h]
    · rw [if_neg h, ih]
      exact ⟨.inr, fun e => e.resolve_left fun e => h e.symm⟩

/-- an instruction with the parameters of its command can be exported if its zone exists and there is a stem for its stem number -/
theorem usable_fits {top bottom : Nat} {st : TTStems TTStem} {i : Instruction} (hi : InstructionFits i) : Usable top bottom st i ↔
    (∀ z, dictGet i.params (lit "zone") = some z → 0 ≤ z ∧ z < ((if i.cmd = lit "AlignBottom" then bottom else top : Nat) : Int)) ∧
    ∀ s, dictGet i.params (lit "stem") = some s → 0 ≤ s →
      (if i.cmd ∈ [lit "SingleLinkH", lit "DoubleLinkH"] then st.ttStemsH else st.ttStemsV) ≠ [] := by
  obtain ⟨c, hc, hname, hpar⟩ : ∃ c ∈ ttCommands, c.2.1 = i.cmd ∧ c.2.2 = i.params.map Prod.fst := by
    have h := hi.1
    unfold paramNames at h
    obtain ⟨c, h1, h2⟩ := Option.map_eq_some_iff.1 h
    exact ⟨c, List.mem_of_find?_eq_some h1, by simpa using List.find?_some h1, h2⟩
  obtain ⟨hfacts, y, hy, hy1⟩ := commandFacts_all c hc
  have hkey : ∀ k, c.2.2.contains k = true ↔ (dictGet i.params k).isSome := by
    intro k
    rw [hasKey_iff, ← hpar, List.contains_iff_mem]
  unfold commandFacts at hfacts
  rw [List.all_eq_true] at hfacts
  have hf : ∀ code kind, (i.cmd, code, kind) ∈ tthTable → _ := fun code kind hm => hfacts (i.cmd, code, kind) hm
  simp only [hname, if_true, Bool.and_eq_true, List.all_eq_true, hkey, Bool.or_eq_true, decide_eq_true_eq] at hf
  have hno : ∀ k, (!c.2.2.contains k) = true → dictGet i.params k = none := by
    intro k h
    cases hd : dictGet i.params k with
    | none => rfl
    | some v =>
      have := (hkey k).2 (by rw [hd]; rfl)
      rw [this] at h
      cases h
  have main : ∀ code kind, (i.cmd, code, kind) ∈ tthTable → (((∀ x ∈ tthPoints kind, (dictGet i.params x.2).isSome) ∧
      (∀ b, kind = .zone b → ∃ z, dictGet i.params (lit "zone") = some z ∧ 0 ≤ z ∧ z < ((if b then bottom else top : Nat) : Int)) ∧
      (∀ h s, kind = .link h → dictGet i.params (lit "stem") = some s → 0 ≤ s → (if h then st.ttStemsH else st.ttStemsV) ≠ []) ∧
      (kind = .delta → ∀ k ∈ [lit "shift", lit "ppm1", lit "ppm2"], (dictGet i.params k).isSome)) ↔
      (∀ z, dictGet i.params (lit "zone") = some z → 0 ≤ z ∧ z < ((if i.cmd = lit "AlignBottom" then bottom else top : Nat) : Int)) ∧
      ∀ s, dictGet i.params (lit "stem") = some s → 0 ≤ s →
        (if i.cmd ∈ [lit "SingleLinkH", lit "DoubleLinkH"] then st.ttStemsH else st.ttStemsV) ≠ []) := by
    intro code kind hm
    obtain ⟨⟨h1, h2⟩, h3⟩ := hf code kind hm
    have h3' : kind = .delta → ∀ k ∈ [lit "shift", lit "ppm1", lit "ppm2"], (dictGet i.params k).isSome :=
      fun e => h3.resolve_left fun h => h e
    have hzone : ∀ b, kind = .zone b → (dictGet i.params (lit "zone")).isSome ∧ dictGet i.params (lit "stem") = none ∧ (i.cmd = lit "AlignBottom" ↔ b = true) := by
      intro b e
      subst e
      cases b
      · rw [if_neg (by simp), if_pos rfl, Bool.and_eq_true, Bool.and_eq_true, hkey, decide_eq_true_eq] at h2
        exact ⟨h2.1.1, hno _ h2.1.2, by simp [h2.2]⟩
      · rw [if_pos rfl, Bool.and_eq_true, Bool.and_eq_true, hkey, decide_eq_true_eq] at h2
        exact ⟨h2.1.1, hno _ h2.1.2, by simp [h2.2]⟩
    have hlink : ∀ b, kind = .link b → dictGet i.params (lit "zone") = none ∧ (i.cmd ∈ [lit "SingleLinkH", lit "DoubleLinkH"] ↔ b = true) := by
      intro b e
      subst e
      cases b
      · rw [if_neg (by simp), if_neg (by simp), if_neg (by simp), if_pos rfl, Bool.and_eq_true, decide_eq_true_eq] at h2
        exact ⟨hno _ h2.1, iff_of_false h2.2 (by simp)⟩
      · rw [if_neg (by simp), if_neg (by simp), if_pos rfl, Bool.and_eq_true, decide_eq_true_eq] at h2
        exact ⟨hno _ h2.1, iff_of_true h2.2 rfl⟩
    have hrest : (∀ b, kind ≠ .zone b) → (∀ b, kind ≠ .link b) → dictGet i.params (lit "zone") = none ∧ dictGet i.params (lit "stem") = none := by
      intro e1 e2
      rw [if_neg (e1 _), if_neg (e1 _), if_neg (e2 _), if_neg (e2 _), Bool.and_eq_true] at h2
      exact ⟨hno _ h2.1, hno _ h2.2⟩
    cases kind with
    | zone b =>
      obtain ⟨g1, g2, g3⟩ := hzone b rfl
      obtain ⟨z, hz⟩ := Option.isSome_iff_exists.1 g1
      simp only [g3]
      constructor
      · rintro ⟨-, k2, -, -⟩
        refine ⟨fun z' hz' => ?_, fun s hs => (by rw [g2] at hs; cases hs)⟩
        obtain ⟨z'', e1, e2, e3⟩ := k2 b rfl
        rw [hz'] at e1
        cases e1
        exact ⟨e2, e3⟩
      · rintro ⟨k1, -⟩
        exact ⟨h1, fun b' e => (by cases e; exact ⟨z, hz, k1 z hz⟩), fun _ _ e => (by cases e), fun e => (by cases e)⟩
    | link b =>
      obtain ⟨g1, g2⟩ := hlink b rfl
      simp only [g2]
      constructor
      · rintro ⟨-, -, k3, -⟩
        exact ⟨fun z hz => (by rw [g1] at hz; cases hz), fun s hs h0 => k3 b s rfl hs h0⟩
      · rintro ⟨-, k2⟩
        exact ⟨h1, fun _ e => (by cases e), fun b' s e hs h0 => (by cases e; exact k2 s hs h0), fun e => (by cases e)⟩
    | align =>
      obtain ⟨g1, g2⟩ := hrest (by simp) (by simp)
      refine iff_of_true ⟨h1, fun _ e => (by cases e), fun _ _ e => (by cases e), h3'⟩ ⟨fun z hz => ?_, fun s hs => ?_⟩
      · rw [g1] at hz; cases hz
      · rw [g2] at hs; cases hs
    | interpolate =>
      obtain ⟨g1, g2⟩ := hrest (by simp) (by simp)
      refine iff_of_true ⟨h1, fun _ e => (by cases e), fun _ _ e => (by cases e), h3'⟩ ⟨fun z hz => ?_, fun s hs => ?_⟩
      · rw [g1] at hz; cases hz
      · rw [g2] at hs; cases hs
    | delta =>
      obtain ⟨g1, g2⟩ := hrest (by simp) (by simp)
      refine iff_of_true ⟨h1, fun _ e => (by cases e), fun _ _ e => (by cases e), h3'⟩ ⟨fun z hz => ?_, fun s hs => ?_⟩
      · rw [g1] at hz; cases hz
      · rw [g2] at hs; cases hs
  unfold Usable
  constructor
  · rintro ⟨code, kind, hm, h⟩
    exact (main code kind hm).1 h
  · intro h
    refine ⟨y.2.1, y.2.2, ?_, (main y.2.1 y.2.2 ?_).2 h⟩
    · rw [← hname, ← hy1]; exact hy
    · rw [← hname, ← hy1]; exact hy

/-- **C97** The instructions of a file always have the parameters of their commands, so that they can be exported if the zone they refer to exists and, if
they refer to a stem, there is a stem in their direction. -/
theorem C97_instructions (c : Ctx) (p : Nat × Bytes) (n : Option PyStr) (is : List Instruction) (h : SeenBy ops asm c p (.glyph n (some is)))
    (top bottom : Nat) (st : TTStems TTStem) : is ≠ [] ∧ ∀ i ∈ is, (Usable top bottom st i ↔
    (∀ z, dictGet i.params (lit "zone") = some z → 0 ≤ z ∧ z < ((if i.cmd = lit "AlignBottom" then bottom else top : Nat) : Int)) ∧
    ∀ s, dictGet i.params (lit "stem") = some s → 0 ≤ s →
      (if i.cmd ∈ [lit "SingleLinkH", lit "DoubleLinkH"] then st.ttStemsH else st.ttStemsV) ≠ []) := by
  rcases h with ⟨-, h⟩ | ⟨-, d, hd, hv⟩
  · cases h
  · obtain ⟨id, payload⟩ := p
    generalize ht : TthEntry.glyph n (some is) = t at hv
    dsimp only at hv hd
    cases hv with
    | glyph g =>
      injection ht with h1 h2
      have hparse : (vfbCodec ops asm).parse (2001 : Nat) c = (do
          let x ← (Kind.glyph.cls ops asm).parse c
          pure ((Kind.glyph.cls ops asm).inj x)) := rfl
      rw [hparse, parseEntry_map] at hd
      have hg : parseEntry (parseGlyph ops asm) payload = .ok g := by
        cases ha : parseEntry ((Kind.glyph.cls ops asm).parse c) payload with
        | error e => rw [ha] at hd; cases hd
        | ok a =>
          rw [ha] at hd
          injection hd with hd
          have : a = g := by injection hd
          rw [← this]; exact ha
      have hread := parseEntry_post (post_glyph ops asm) hg
      have := hread.tth is h2.symm
      exact ⟨this.1, fun i hi => usable_fits (this.2 i hi)⟩
    | _ => cases ht

/-- what is read of the glyph of the example file -/
example (c : Ctx) : ∃ p ∈ exampleTthFile, ∃ n i j, SeenBy exampleAngles exampleAsm c p (.glyph n (some [i, j])) := by
  have hk : (match parseEntry (parseGlyph exampleAngles exampleAsm) (exampleTthFile[6]'(by decide)).2 with
    | .ok g => g.tth.map List.length
    | .error _ => none) = some 2 := by decide +kernel
  cases hg : parseEntry (parseGlyph exampleAngles exampleAsm) (exampleTthFile[6]'(by decide)).2 with
  | error e => rw [hg] at hk; cases hk
  | ok g =>
    rw [hg] at hk
    obtain ⟨l, h1, h2⟩ := Option.map_eq_some_iff.1 hk
    obtain ⟨i, j, rfl⟩ := List.length_eq_two.1 h2
    refine ⟨exampleTthFile[6]'(by decide), List.getElem_mem _, g.name, i, j, .inr ⟨by decide, .glyph g, ?_, ?_⟩⟩
    · have hparse : (vfbCodec exampleAngles exampleAsm).parse (2001 : Nat) c = (do
          let x ← (Kind.glyph.cls exampleAngles exampleAsm).parse c
          pure ((Kind.glyph.cls exampleAngles exampleAsm).inj x)) := rfl
      show parseEntry ((vfbCodec exampleAngles exampleAsm).parse (2001 : Nat) c) _ = _
      rw [hparse, parseEntry_map]
      exact congrArg (Except.map _) hg
    · rw [← h1]
      exact Viewed.glyph g

end Verif.Props
