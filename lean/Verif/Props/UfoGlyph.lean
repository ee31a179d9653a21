import Verif.Lemmas.UfoGlyph
import Verif.Props.UfoKerning
/-! C64–C66: the glyphs of the UFO. -/
set_option autoImplicit false
namespace Verif.Props
open Verif Verif.Spec

section
variable (ops : AngleOps) (asm : AsmOps)

/-- the names and the glyphs after filing one more -/
def fileOne (st : List (PyStr × BGlyph ops.Angle asm.Asm) × List PyStr) (g : BGlyph ops.Angle asm.Asm) :
    List (PyStr × BGlyph ops.Angle asm.Asm) × List PyStr :=
  if (dictGet st.1 g.name).isSome then
    match freeGlyphName st.1 g.name with
    | some n => (dictSet st.1 n g, st.2 ++ [n])
    | none => st
  else (dictSet st.1 g.name g, st.2 ++ [g.name])

/-- kerning of the glyphs -/
def kerningOf (l : List (Glyph ops.Angle asm.Asm × BGlyph ops.Angle asm.Asm)) : MMKerning :=
  l.foldl (fun k x => addKerning k x.2.name (x.1.kerning.getD [])) []

structure Inv (o : BuildOpts) (es : List (FEntry ops asm)) (st : GlyphPart ops.Angle asm.Asm) (gs : List (BGlyph ops.Angle asm.Asm)) : Prop where
  content : List.Forall₂ (Describes ops asm o) (blocks ops asm es) gs
  current : st.current = gs.getLast?
  names : (st.masters, st.order) = gs.dropLast.foldl (fileOne ops asm) ([], [])
  kerning : st.kerning = kerningOf ops asm (((blocks ops asm es).map Prod.fst).zip gs)

theorem forall₂_append_left {α β : Type} {R : α → β → Prop} : ∀ {a b : List α} {c : List β}, List.Forall₂ R (a ++ b) c →
    ∃ l1 l2, List.Forall₂ R a l1 ∧ List.Forall₂ R b l2 ∧ c = l1 ++ l2 := by
  intro a
  induction a with
  | nil => intro b c h; exact ⟨[], c, .nil, h, rfl⟩
  | cons x a ih =>
    intro b c h
    cases h with
    | cons h1 h2 =>
      obtain ⟨l1, l2, p, q, rfl⟩ := ih h2
      exact ⟨_ :: l1, l2, .cons h1 p, q, rfl⟩

theorem describes_new {o : BuildOpts} {d : Glyph ops.Angle asm.Asm} {g : BGlyph ops.Angle asm.Asm} (h : newGlyph ops asm o d = .ok g) :
    Describes ops asm o (d, []) g := by
  unfold newGlyph at h
  cases h1 : d.name with
  | none => rw [h1] at h; cases h
  | some name =>
    cases h2 : d.metrics with
    | none => rw [h1, h2] at h; cases h
    | some metrics =>
      cases h3 : d.nodes with
      | none => rw [h1, h2, h3] at h; cases h
      | some nodes =>
        rw [h1, h2, h3] at h
        simp only at h
        injection h with h
        subst h
        have hnil : ∀ id, dataOf ops asm o [] id = [] := by intro id; unfold dataOf; simp
        refine ⟨h1, h2, h3, rfl, rfl, ?_, rfl, ?_, rfl, .inl ⟨hnil _, rfl⟩, .inl ⟨hnil _, rfl⟩, .inl ⟨hnil _, rfl⟩, .inl ⟨hnil _, rfl⟩,
          rfl, .inl ⟨hnil _, rfl⟩, .inl ⟨hnil _, rfl⟩, .inl ⟨hnil _, rfl⟩, .inl ⟨hnil _, rfl⟩, .inl ⟨hnil _, rfl⟩, rfl⟩
        · intro i
          simp only
          cases h4 : d.imported with
          | none => simp
          | some imp =>
            cases h5 : imp.instructions with
            | none => simp [h5]
            | some j =>
              cases h6 : asm.isEmpty j <;> simp [h5, h6]
              · rintro rfl; exact h6
              · intro h7 h8; subst h8; rw [h6] at h7; cases h7
        · cases o.pshints with
          | false => simp
          | true =>
            simp only [if_true]
            cases h4 : d.hints with
            | none => left; simp
            | some h => right; exact ⟨h, by simp⟩

theorem inv_step {o : BuildOpts} {es : List (FEntry ops asm)} {st st' : GlyphPart ops.Angle asm.Asm} {gs : List (BGlyph ops.Angle asm.Asm)}
    {e : FEntry ops asm} (hi : Inv ops asm o es st gs) (h : glyphStep ops asm o st e = .ok st') :
    ∃ gs', Inv ops asm o (es ++ [e]) st' gs' := by
  unfold glyphStep at h
  -- entries without effect
  have other : (∀ d, e.1 ∉ skipKeys o → e.2 = some d → e.1 ≠ 2001 ∧ glyphPart ops asm e.1 d = none) → st' = st →
      ∃ gs', Inv ops asm o (es ++ [e]) st' gs' := by
    rintro he rfl
    refine ⟨gs, ?_⟩
    have hg : glyphOf ops asm e = none := by
      unfold glyphOf
      by_cases h1 : e.1 = 2001
      · rw [if_pos h1]
        cases h2 : e.2 with
        | none => rfl
        | some d =>
          by_cases hs : e.1 ∈ skipKeys o
          · exact absurd h1 (never_skipped hs).1
          · exact absurd h1 (he d hs h2).1
      · rw [if_neg h1]
    have he' : e.1 ∈ skipKeys o ∨ e.2 = none ∨ ∀ d, e.2 = some d → glyphPart ops asm e.1 d = none := by
      by_cases hs : e.1 ∈ skipKeys o
      · exact .inl hs
      · exact .inr (.inr fun d hd => (he d hs hd).2)
    rcases blocks_snoc_part ops asm es hg with ⟨h1, h2⟩ | ⟨bs, b, h1, h2⟩
    · have hc := hi.content
      have hk := hi.kerning
      rw [h1] at hc hk
      refine ⟨by rw [h2]; exact hc, hi.current, hi.names, by rw [h2]; exact hk⟩
    · have hc := hi.content
      have hk := hi.kerning
      rw [h1] at hc hk
      obtain ⟨l1, l2, c1, c2, rfl⟩ := forall₂_append_left hc
      obtain ⟨g, l3, c3, c4, rfl⟩ := List.forall₂_cons_left_iff.1 c2
      cases List.forall₂_nil_left_iff.1 c4
      refine ⟨?_, hi.current, hi.names, ?_⟩
      · rw [h2]
        refine List.rel_append c1 (.cons ?_ .nil)
        exact describes_other ops asm c3 he'
      · rw [h2, hk]
        simp
  by_cases hs : e.1 ∈ skipKeys o
  · rw [if_pos hs] at h
    injection h with h
    exact other (fun d h => absurd hs h) h.symm
  rw [if_neg hs] at h
  cases hd : e.2 with
  | none =>
    rw [hd] at h
    injection h with h
    exact other (fun d _ h' => by rw [hd] at h'; cases h') h.symm
  | some d =>
    rw [hd] at h
    simp only at h
    by_cases h1 : e.1 = 2001
    · rw [if_pos h1] at h
      cases d
      case glyph g0 =>
        simp only at h
        unfold glyphEntry at h
        cases hn : newGlyph ops asm o g0 with
        | error er => rw [hn] at h; cases h
        | ok g =>
          rw [hn] at h
          simp only [bind, Except.bind] at h
          injection h with h
          subst h
          refine ⟨gs ++ [g], ?_⟩
          have hg : glyphOf ops asm e = some g0 := by
            unfold glyphOf
            rw [if_pos h1, hd]
          have hb := blocks_snoc_glyph ops asm es hg
          have hlen := hi.content.length_eq
          refine ⟨?_, ?_, ?_, ?_⟩
          · rw [hb]
            exact List.rel_append hi.content (.cons (describes_new ops asm hn) .nil)
          · simp
          · simp only [List.dropLast_concat]
            have hnm := hi.names
            have hc := hi.current
            rcases List.eq_nil_or_concat gs with hgs | ⟨gs', g', hgs⟩
            · subst hgs
              simp only [List.getLast?_nil] at hc
              unfold fileGlyph
              rw [hc]
              simpa using hnm
            · rw [List.concat_eq_append] at hgs
              subst hgs
              simp only [List.getLast?_concat, List.dropLast_concat] at hc hnm
              rw [List.foldl_append, ← hnm]
              unfold fileGlyph
              rw [hc]
              simp only [List.foldl_cons, List.foldl_nil, fileOne]
              cases dictGet st.masters g'.name with
              | none => rfl
              | some x => cases freeGlyphName st.masters g'.name <;> rfl
          · rw [hb, List.map_append, List.zip_append (by simpa using hlen)]
            simp only [kerningOf, List.foldl_append]
            rw [← kerningOf, ← hi.kerning]
            rfl
      all_goals cases h
    · rw [if_neg h1] at h
      cases hf : glyphPart ops asm e.1 d with
      | none =>
        rw [hf] at h
        injection h with h
        exact other (fun d' _ h' => by rw [hd] at h'; injection h' with h'; subst h'; exact ⟨h1, hf⟩) h.symm
      | some f =>
        rw [hf] at h
        simp only at h
        cases hc : st.current with
        | none => rw [hc] at h; cases h
        | some g =>
          rw [hc] at h
          simp only at h
          cases hfg : f g with
          | error er => rw [hfg] at h; cases h
          | ok g' =>
            rw [hfg] at h
            simp only [bind, Except.bind] at h
            injection h with h
            subst h
            have hg : glyphOf ops asm e = none := by
              unfold glyphOf
              rw [if_neg h1]
            have hcur := hi.current
            rw [hc] at hcur
            rcases blocks_snoc_part ops asm es hg with ⟨b1, b2⟩ | ⟨bs, b, b1, b2⟩
            · have := hi.content
              rw [b1] at this
              cases List.forall₂_nil_left_iff.1 this
              cases hcur
            · have hcon := hi.content
              have hk := hi.kerning
              rw [b1] at hcon hk
              obtain ⟨l1, l2, c1, c2, rfl⟩ := forall₂_append_left hcon
              obtain ⟨g1, l3, c3, c4, rfl⟩ := List.forall₂_cons_left_iff.1 c2
              cases List.forall₂_nil_left_iff.1 c4
              rw [List.getLast?_concat] at hcur
              injection hcur with hcur
              subst hcur
              have hnew : Describes ops asm o (b.1, b.2 ++ [e]) g' := by
                have : e = (e.1, some d) := by rw [← hd]
                rw [this]
                exact describes_part ops asm c3 hs hf hfg
              refine ⟨l1 ++ [g'], ?_, ?_, ?_, ?_⟩
              · rw [b2]
                exact List.rel_append c1 (.cons hnew .nil)
              · simp
              · simpa using hi.names
              · have hlen := c1.length_eq
                rw [b2]
                simp only
                rw [hk, List.map_append, List.map_append, List.zip_append (by simpa using hlen), List.zip_append (by simpa using hlen)]
                simp only [kerningOf, List.foldl_append, List.map_cons, List.map_nil, List.zip_cons_cons, List.zip_nil_left, List.foldl_cons, List.foldl_nil]
                have n1 : b.1.name = some g.name := c3.name
                have n2 : b.1.name = some g'.name := hnew.name
                rw [n1] at n2
                injection n2 with n2
                rw [n2]

theorem inv_fold {o : BuildOpts} : ∀ (es' : List (FEntry ops asm)) {es : List (FEntry ops asm)} {st st' : GlyphPart ops.Angle asm.Asm}
    {gs : List (BGlyph ops.Angle asm.Asm)}, Inv ops asm o es st gs → es'.foldlM (glyphStep ops asm o) st = .ok st' →
    ∃ gs', Inv ops asm o (es ++ es') st' gs' := by
  intro es'
  induction es' with
  | nil =>
    intro es st st' gs hi h
    cases h
    exact ⟨gs, by simpa using hi⟩
  | cons e es' ih =>
    intro es st st' gs hi h
    rw [List.foldlM_cons] at h
    cases h1 : glyphStep ops asm o st e with
    | error er => rw [h1] at h; cases h
    | ok st1 =>
      rw [h1] at h
      obtain ⟨gs1, hi1⟩ := inv_step ops asm hi h1
      obtain ⟨gs2, hi2⟩ := ih hi1 h
      exact ⟨gs2, by simpa using hi2⟩

theorem hash_split {a a' d d' : PyStr} (h : a ++ 35 :: d = a' ++ 35 :: d') (hd : 35 ∉ d) (hd' : 35 ∉ d') : a = a' ∧ d = d' := by
  rcases List.append_eq_append_iff.1 h with ⟨c, h1, h2⟩ | ⟨c, h1, h2⟩
  · cases c with
    | nil =>
      simp only [List.append_nil, List.nil_append, List.cons.injEq, true_and] at h1 h2
      exact ⟨h1.symm, h2⟩
    | cons x c =>
      simp only [List.cons_append, List.cons.injEq] at h2
      exact absurd (by rw [h2.2]; simp) hd
  · cases c with
    | nil =>
      simp only [List.append_nil, List.nil_append, List.cons.injEq, true_and] at h1 h2
      exact ⟨h1, h2.symm⟩
    | cons x c =>
      simp only [List.cons_append, List.cons.injEq] at h2
      exact absurd (by rw [h2.2]; simp) hd'

theorem hash_name (n : PyStr) (i : Nat) : n ++ lit "#" ++ natDec i = n ++ 35 :: natDec i := by
  rw [List.append_assoc]; rfl

theorem hash_free (i : Nat) : 35 ∉ natDec i := fun h => by have := natDec_digits i 35 h; omega

theorem hash_inj {n m : PyStr} {i j : Nat} (h : n ++ lit "#" ++ natDec i = m ++ lit "#" ++ natDec j) : n = m ∧ i = j := by
  rw [hash_name, hash_name] at h
  obtain ⟨h1, h2⟩ := hash_split h (hash_free i) (hash_free j)
  exact ⟨h1, natDec_inj h2⟩

theorem freeGlyphName_some {α : Type} {masters : List (PyStr × α)} {name n : PyStr} (h : freeGlyphName masters name = some n) :
    n ∉ masters.map Prod.fst ∧ ∃ i, i < 255 ∧ n = name ++ lit "#" ++ natDec i := by
  unfold freeGlyphName at h
  cases hf : (List.range 255).find? (fun i => !(dictGet masters (name ++ lit "#" ++ natDec i)).isSome) with
  | none => rw [hf] at h; cases h
  | some i =>
    rw [hf] at h
    injection h with h
    have h1 := List.find?_some hf
    have h2 := List.mem_of_find?_eq_some hf
    refine ⟨?_, i, by simpa using h2, h.symm⟩
    rw [← h, ← dictGet_none]
    simpa using h1

theorem freeGlyphName_none {α : Type} {masters : List (PyStr × α)} {name : PyStr} :
    freeGlyphName masters name = none ↔ ∀ i, i < 255 → name ++ lit "#" ++ natDec i ∈ masters.map Prod.fst := by
  unfold freeGlyphName
  rw [Option.map_eq_none_iff, List.find?_eq_none]
  constructor
  · intro h i hi
    have := h i (by simpa using hi)
    by_contra hc
    rw [dictGet_none.2 hc] at this
    simp at this
  · intro h i hi
    have := h i (by simpa using hi)
    cases hd : dictGet masters (name ++ lit "#" ++ natDec i) with
    | none => exact absurd this (dictGet_none.1 hd)
    | some x => simp

/-- What one always knows about the names. -/
structure Filed (gs : List (BGlyph ops.Angle asm.Asm)) (st : List (PyStr × BGlyph ops.Angle asm.Asm) × List PyStr) : Prop where
  keys : st.1.map Prod.fst = st.2
  nodup : st.2.Nodup
  from' : ∀ x ∈ st.1, x.2 ∈ gs ∧ NameFrom x.2.name x.1

theorem filed_step {gs : List (BGlyph ops.Angle asm.Asm)} {st : List (PyStr × BGlyph ops.Angle asm.Asm) × List PyStr}
    (h : Filed ops asm gs st) (g : BGlyph ops.Angle asm.Asm) : Filed ops asm (gs ++ [g]) (fileOne ops asm st g) := by
  have add : ∀ n, n ∉ st.1.map Prod.fst → NameFrom g.name n → Filed ops asm (gs ++ [g]) (dictSet st.1 n g, st.2 ++ [n]) := by
    intro n hn hf
    rw [dictSet_new hn]
    refine ⟨by simp [h.keys], ?_, ?_⟩
    · rw [h.keys] at hn
      rw [List.nodup_append]
      refine ⟨h.nodup, by simp, ?_⟩
      rintro a ha b hb rfl
      simp at hb
      subst hb
      exact hn ha
    · intro x hx
      rcases List.mem_append.1 hx with hx | hx
      · exact ⟨List.mem_append_left _ (h.from' x hx).1, (h.from' x hx).2⟩
      · simp at hx
        subst hx
        exact ⟨by simp, hf⟩
  unfold fileOne
  cases hg : dictGet st.1 g.name with
  | none => simpa using add g.name (dictGet_none.1 hg) (.inl rfl)
  | some y =>
    simp only [Option.isSome_some, if_true]
    cases hf : freeGlyphName st.1 g.name with
    | none => exact ⟨h.keys, h.nodup, fun x hx => ⟨List.mem_append_left _ (h.from' x hx).1, (h.from' x hx).2⟩⟩
    | some n =>
      obtain ⟨h1, i, h2, h3⟩ := freeGlyphName_some hf
      exact add n h1 (.inr ⟨i, h2, h3⟩)

theorem filed_all (gs : List (BGlyph ops.Angle asm.Asm)) : Filed ops asm gs (gs.foldl (fileOne ops asm) ([], [])) := by
  rcases List.eq_nil_or_concat gs with h | ⟨gs', g, h⟩
  · subst h; exact ⟨rfl, by simp, by simp⟩
  · rw [List.concat_eq_append] at h
    subst h
    rw [List.foldl_append]
    exact filed_step ops asm (filed_all gs') g
termination_by gs.length
decreasing_by subst h; simp

/-- With not too many names of the same beginning, no glyph is left out. -/
theorem filed_zip (gs : List (BGlyph ops.Angle asm.Asm)) (hc : ∀ n : PyStr, (gs.filter fun g => n.isPrefixOf g.name).length ≤ 255) :
    (gs.foldl (fileOne ops asm) ([], [])).1 = (gs.foldl (fileOne ops asm) ([], [])).2.zip gs ∧
    (gs.foldl (fileOne ops asm) ([], [])).2.length = gs.length := by
  rcases List.eq_nil_or_concat gs with h | ⟨gs', g, h⟩
  · subst h; simp
  · rw [List.concat_eq_append] at h
    subst h
    obtain ⟨h1, h2⟩ := filed_zip gs' (fun n => by
      have := hc n
      rw [List.filter_append, List.length_append] at this
      omega)
    have hF := filed_all ops asm gs'
    rw [List.foldl_append, List.foldl_cons, List.foldl_nil]
    generalize hst : gs'.foldl (fileOne ops asm) ([], []) = st at *
    have add : ∀ n, n ∉ st.1.map Prod.fst → (dictSet st.1 n g = (st.2 ++ [n]).zip (gs' ++ [g])) ∧ (st.2 ++ [n]).length = (gs' ++ [g]).length := by
      intro n hn
      rw [dictSet_new hn]
      constructor
      · rw [List.zip_append h2, ← h1]; rfl
      · simp [h2]
    unfold fileOne
    cases hg : dictGet st.1 g.name with
    | none => simpa using add g.name (dictGet_none.1 hg)
    | some y =>
      simp only [Option.isSome_some, if_true]
      cases hf : freeGlyphName st.1 g.name with
      | some n => exact add n (freeGlyphName_some hf).1
      | none =>
        exfalso
        have hall := freeGlyphName_none.1 hf
        have hcount := hc g.name
        rw [List.filter_append, List.length_append] at hcount
        have hself : ([g].filter fun x => g.name.isPrefixOf x.name).length = 1 := by simp
        rw [hself] at hcount
        have hsub := length_le_of_subset ((List.range 255).map fun i => g.name ++ lit "#" ++ natDec i)
          ((st.1.filter fun x => g.name.isPrefixOf x.2.name).map Prod.fst)
          (by
            exact nodup_map_on (fun i _ j _ h => (hash_inj h).2) List.nodup_range)
          (by
            intro k hk
            obtain ⟨i, hi, rfl⟩ := List.mem_map.1 hk
            obtain ⟨x, hx, hxk⟩ := List.mem_map.1 (hall i (by simpa using hi))
            refine List.mem_map.2 ⟨x, List.mem_filter.2 ⟨hx, ?_⟩, hxk⟩
            rcases (hF.from' x hx).2 with hn | ⟨j, _, hn⟩
            · rw [← hn, hxk, List.isPrefixOf_iff_prefix]
              rw [List.append_assoc]
              exact List.prefix_append _ _
            · rw [hxk] at hn
              rw [(hash_inj hn).1, List.isPrefixOf_iff_prefix]
              exact List.prefix_refl _)
        have hz : (st.1.filter fun x => g.name.isPrefixOf x.2.name).length = (gs'.filter fun x => g.name.isPrefixOf x.name).length := by
          have : gs' = st.1.map Prod.snd := by rw [h1, List.map_snd_zip (by omega)]
          conv_rhs => rw [this, List.filter_map, List.length_map]
          rfl
        simp only [List.length_map, List.length_range] at hsub
        omega
termination_by gs.length
decreasing_by subst h; simp

/-- what `build()` makes of the entries, in terms of the glyphs that the entries describe -/
theorem build_spec {o : BuildOpts} {es : List (FEntry ops asm)} {st : GlyphPart ops.Angle asm.Asm} (h : buildGlyphs ops asm o es = .ok st) :
    ∃ gs, List.Forall₂ (Describes ops asm o) (blocks ops asm es) gs ∧
      st.kerning = kerningOf ops asm (((blocks ops asm es).map Prod.fst).zip gs) ∧
      ((gs = [] ∧ st.masters = [] ∧ st.order = []) ∨
        ∃ gs' g, gs = gs' ++ [g] ∧ st.masters = dictSet (gs'.foldl (fileOne ops asm) ([], [])).1 g.name g ∧
          st.order = (gs'.foldl (fileOne ops asm) ([], [])).2 ++ [g.name]) := by
  unfold buildGlyphs at h
  cases h1 : es.foldlM (glyphStep ops asm o) ⟨none, [], [], []⟩ with
  | error e => rw [h1] at h; cases h
  | ok st1 =>
    rw [h1] at h
    simp only [bind, Except.bind] at h
    injection h with h
    have hi0 : Inv ops asm o [] ⟨none, [], [], []⟩ [] := ⟨.nil, rfl, rfl, rfl⟩
    obtain ⟨gs, hi⟩ := inv_fold ops asm es hi0 h1
    rw [List.nil_append] at hi
    refine ⟨gs, hi.content, ?_, ?_⟩
    · rw [← hi.kerning, ← h]
      unfold lastGlyph
      cases st1.current <;> rfl
    · have hc := hi.current
      have hn := hi.names
      rcases List.eq_nil_or_concat gs with hg | ⟨gs', g, hg⟩
      · subst hg
        left
        simp only [List.getLast?_nil] at hc
        unfold lastGlyph at h
        rw [hc] at h
        subst h
        injection hn with hn1 hn2
        exact ⟨rfl, hn1, hn2⟩
      · rw [List.concat_eq_append] at hg
        subst hg
        right
        simp only [List.getLast?_concat, List.dropLast_concat] at hc hn
        unfold lastGlyph at h
        rw [hc] at h
        subst h
        refine ⟨gs', g, rfl, ?_, ?_⟩
        · rw [← hn]
        · rw [← hn]

/-- **C64** Each glyph of the UFO holds the data of its own block of the file: of its "Glyph" entry and of the entries between it
and the next one; glyphs of the UFO have the name of the file, or that with a number; and the glyph order lists exactly the
glyphs of the UFO. -/
theorem C64_content {o : BuildOpts} {es : List (FEntry ops asm)} {st : GlyphPart ops.Angle asm.Asm} (h : buildGlyphs ops asm o es = .ok st) :
    ∃ gs, List.Forall₂ (Describes ops asm o) (blocks ops asm es) gs ∧ DictOk st.masters ∧
      (∀ x ∈ st.masters, x.2 ∈ gs ∧ NameFrom x.2.name x.1) ∧ (∀ n, n ∈ st.order ↔ (dictGet st.masters n).isSome) := by
  obtain ⟨gs, h1, _, h2⟩ := build_spec ops asm h
  refine ⟨gs, h1, ?_⟩
  rcases h2 with ⟨rfl, hm, ho⟩ | ⟨gs', g, rfl, hm, ho⟩
  · rw [hm, ho]
    refine ⟨by simp [DictOk], by simp, by simp [dictGet]⟩
  · have hF := filed_all ops asm gs'
    generalize gs'.foldl (fileOne ops asm) ([], []) = p at *
    rw [hm, ho]
    have hok : DictOk p.1 := by
      unfold DictOk
      rw [hF.keys]
      exact hF.nodup
    refine ⟨dictSet_ok hok _ _, ?_, ?_⟩
    · intro x hx
      rcases dictSet_mem hx with hx | hx
      · subst hx; exact ⟨by simp, .inl rfl⟩
      · exact ⟨List.mem_append_left _ (hF.from' x hx).1, (hF.from' x hx).2⟩
    · intro n
      rw [dictGet_dictSet]
      by_cases hn : n = g.name
      · simp [hn]
      · rw [if_neg (Ne.symm hn), List.mem_append, ← hF.keys]
        simp only [List.mem_singleton, hn, or_false]
        cases hd : dictGet p.1 n with
        | none => simpa using dictGet_none.1 hd
        | some v =>
          simp only [Option.isSome_some, iff_true]
          by_contra hc
          rw [dictGet_none.2 hc] at hd
          cases hd

/-- **C65** If there are not more than 255 glyphs whose names begin with the same text, and the last glyph's name was not given
before, then the glyph with the index i in the file is the one with the i-th name of the glyph order: nothing is lost, and no two
glyphs have the same name. -/
theorem C65_indices {o : BuildOpts} {es : List (FEntry ops asm)} {st : GlyphPart ops.Angle asm.Asm} (h : buildGlyphs ops asm o es = .ok st)
    (hc : ∀ n : PyStr, ((blocks ops asm es).filter fun b => n.isPrefixOf (b.1.name.getD [])).length ≤ 255)
    (hl : ∀ n, st.order.getLast? = some n → n ∉ st.order.dropLast) :
    ∃ gs, List.Forall₂ (Describes ops asm o) (blocks ops asm es) gs ∧ st.order.length = gs.length ∧ st.order.Nodup ∧
      st.masters = st.order.zip gs ∧ List.Forall₂ (fun g n => NameFrom g.name n) gs st.order := by
  obtain ⟨gs, h1, h3, h2⟩ := build_spec ops asm h
  clear h3
  have hc' : ∀ n : PyStr, (gs.filter fun g => n.isPrefixOf g.name).length ≤ 255 := by
    intro n
    refine Nat.le_trans (Nat.le_of_eq ?_) (hc n)
    clear h2 hc h
    generalize blocks ops asm es = bs at h1
    induction h1 with
    | nil => rfl
    | cons hd _ ih =>
      rw [List.filter_cons, List.filter_cons, hd.name]
      simp only [Option.getD_some]
      split
      · simp [ih]
      · exact ih
  refine ⟨gs, h1, ?_⟩
  rcases h2 with ⟨rfl, hm, ho⟩ | ⟨gs', g, rfl, hm, ho⟩
  · rw [hm, ho]
    simp
  · have hF := filed_all ops asm gs'
    obtain ⟨z1, z2⟩ := filed_zip ops asm gs' (fun n => by
      have := hc' n
      rw [List.filter_append, List.length_append] at this
      omega)
    generalize gs'.foldl (fileOne ops asm) ([], []) = p at *
    have hg : g.name ∉ p.2 := by
      have := hl g.name (by rw [ho]; simp)
      rw [ho] at this
      simpa using this
    rw [hm, ho, dictSet_new (by rw [hF.keys]; exact hg)]
    refine ⟨by simp [z2], ?_, ?_, ?_⟩
    · rw [List.nodup_append]
      refine ⟨hF.nodup, by simp, ?_⟩
      rintro a ha b hb rfl
      simp at hb
      subst hb
      exact hg ha
    · rw [List.zip_append z2, ← z1]; rfl
    · refine List.rel_append ?_ (.cons (.inl rfl) .nil)
      have : ∀ (a : List PyStr) (b : List (BGlyph ops.Angle asm.Asm)), a.length = b.length → (∀ x ∈ a.zip b, NameFrom x.2.name x.1) →
          List.Forall₂ (fun g n => NameFrom g.name n) b a := by
        intro a
        induction a with
        | nil => intro b hb _; cases b <;> simp at hb ⊢
        | cons x a ih =>
          intro b hb hx
          cases b with
          | nil => simp at hb
          | cons y b =>
            exact .cons (hx (x, y) (by simp)) (ih b (by simpa using hb) fun z hz => hx z (by simp [hz]))
      exact this p.2 gs' z2 fun x hx => (hF.from' x (z1 ▸ hx)).2

theorem filed_distinct (gs : List (BGlyph ops.Angle asm.Asm)) (hn : (gs.map BGlyph.name).Nodup) :
    gs.foldl (fileOne ops asm) ([], []) = (gs.map fun g => (g.name, g), gs.map BGlyph.name) := by
  rcases List.eq_nil_or_concat gs with h | ⟨gs', g, h⟩
  · subst h; rfl
  · rw [List.concat_eq_append] at h
    subst h
    rw [List.map_append, List.nodup_append] at hn
    rw [List.foldl_append, List.foldl_cons, List.foldl_nil, filed_distinct gs' hn.1]
    have hg : g.name ∉ (gs'.map fun g => (g.name, g)).map Prod.fst := by
      intro hc
      obtain ⟨x, hx, hx'⟩ := List.mem_map.1 hc
      obtain ⟨y, hy, rfl⟩ := List.mem_map.1 hx
      exact hn.2.2 y.name (List.mem_map_of_mem hy) g.name (by simp) hx'
    unfold fileOne
    rw [dictGet_none.2 hg, if_neg (by simp), dictSet_new hg]
    simp
termination_by gs.length
decreasing_by subst h; simp

theorem names_of {o : BuildOpts} {bs : List (Glyph ops.Angle asm.Asm × List (FEntry ops asm))} {gs : List (BGlyph ops.Angle asm.Asm)}
    (h : List.Forall₂ (Describes ops asm o) bs gs) : bs.map (fun b => b.1.name) = gs.map fun g => some g.name := by
  induction h with
  | nil => rfl
  | cons hd _ ih => simp [hd.name, ih]

/-- **C65** If the names in the file are all different, the glyphs keep their names and their order. -/
theorem C65_distinct {o : BuildOpts} {es : List (FEntry ops asm)} {st : GlyphPart ops.Angle asm.Asm} (h : buildGlyphs ops asm o es = .ok st)
    (names : List PyStr) (hn : (blocks ops asm es).map (fun b => b.1.name) = names.map some) (hd : names.Nodup) :
    st.order = names ∧ ∃ gs, List.Forall₂ (Describes ops asm o) (blocks ops asm es) gs ∧ st.masters = names.zip gs := by
  obtain ⟨gs, h1, _, h2⟩ := build_spec ops asm h
  rw [names_of ops asm h1] at hn
  have hn : gs.map BGlyph.name = names := by
    have : (gs.map BGlyph.name).map some = names.map some := by rw [← hn]; simp
    exact List.map_injective_iff.2 (Option.some_injective _) this
  rw [← hn] at hd ⊢
  rcases h2 with ⟨rfl, hm, ho⟩ | ⟨gs', g, rfl, hm, ho⟩
  · exact ⟨ho, [], h1, hm⟩
  · rw [List.map_append, List.nodup_append] at hd
    rw [filed_distinct ops asm gs' hd.1] at hm ho
    refine ⟨by rw [ho]; simp, gs' ++ [g], h1, ?_⟩
    rw [hm, dictSet_new]
    · have hz : ∀ l : List (BGlyph ops.Angle asm.Asm), (l.map fun g => (g.name, g)) = (l.map BGlyph.name).zip l := by
        intro l
        induction l with
        | nil => rfl
        | cons x l ih => simp [ih]
      rw [← hz (gs' ++ [g]), List.map_append]
      rfl
    · intro hc
      obtain ⟨x, hx, hx'⟩ := List.mem_map.1 hc
      obtain ⟨y, hy, rfl⟩ := List.mem_map.1 hx
      exact hd.2.2 y.name (List.mem_map_of_mem hy) g.name (by simp) hx'

/-- **C65** (Known defect) If the last glyph's name was already used (and all other names are different), the glyph before it is
lost: it is replaced by the last glyph, while the glyph order lists the name twice. -/
theorem C65_last_duplicate {o : BuildOpts} {es : List (FEntry ops asm)} {st : GlyphPart ops.Angle asm.Asm} (h : buildGlyphs ops asm o es = .ok st)
    (names : List PyStr) (n : PyStr) (hn : (blocks ops asm es).map (fun b => b.1.name) = (names ++ [n]).map some) (hd : names.Nodup) (hm : n ∈ names) :
    st.order = names ++ [n] ∧ st.masters.map Prod.fst = names ∧
    ∃ gs g, List.Forall₂ (Describes ops asm o) (blocks ops asm es) (gs ++ [g]) ∧
      ∀ k, dictGet st.masters k = if k = n then some g else dictGet (names.zip gs) k := by
  obtain ⟨gs, h1, _, h2⟩ := build_spec ops asm h
  rw [names_of ops asm h1] at hn
  have hn : gs.map BGlyph.name = names ++ [n] := by
    have : (gs.map BGlyph.name).map some = (names ++ [n]).map some := by rw [← hn]; simp
    exact List.map_injective_iff.2 (Option.some_injective _) this
  rcases h2 with ⟨rfl, _, _⟩ | ⟨gs', g, rfl, hm', ho⟩
  · simp at hn
  · rw [List.map_append] at hn
    obtain ⟨e1, e2⟩ := List.append_inj' hn rfl
    simp only [List.map_cons, List.map_nil, List.cons.injEq, and_true] at e2
    rw [← e1] at hd hm
    rw [filed_distinct ops asm gs' hd] at hm' ho
    have hz : ∀ l : List (BGlyph ops.Angle asm.Asm), (l.map fun g => (g.name, g)) = (l.map BGlyph.name).zip l := by
      intro l
      induction l with
      | nil => rfl
      | cons x l ih => simp [ih]
    simp only [hz] at hm'
    rw [hm', ho, e1, e2]
    refine ⟨rfl, ?_, gs', g, h1, ?_⟩
    · rw [dictSet_keys, if_pos]
      · rw [List.map_fst_zip]
        rw [← e1]
        simp
      · rw [List.map_fst_zip (by rw [← e1]; simp), ← e1]
        exact hm
    · intro k
      rw [dictGet_dictSet]
      by_cases hk : k = n
      · rw [if_pos hk.symm, if_pos hk]
      · rw [if_neg (Ne.symm hk), if_neg hk]

/-- **C65** (Known defect) If a name and all of its 255 numbered forms are taken, a further glyph of that name that is not the
last one is left out, and all glyph indices after it refer to the wrong glyphs. -/
theorem C65_dropped {o : BuildOpts} {es : List (FEntry ops asm)} {st : GlyphPart ops.Angle asm.Asm} (h : buildGlyphs ops asm o es = .ok st)
    (pre : List PyStr) (n : PyStr) (post : List PyStr) (hn : (blocks ops asm es).map (fun b => b.1.name) = (pre ++ n :: post).map some)
    (hd : (pre ++ post).Nodup) (hm : n ∈ pre) (hall : ∀ i, i < 255 → n ++ lit "#" ++ natDec i ∈ pre) (hp : post ≠ []) :
    st.order = pre ++ post := by
  obtain ⟨gs, h1, _, h2⟩ := build_spec ops asm h
  rw [names_of ops asm h1] at hn
  have hn : gs.map BGlyph.name = pre ++ n :: post := by
    have : (gs.map BGlyph.name).map some = (pre ++ n :: post).map some := by rw [← hn]; simp
    exact List.map_injective_iff.2 (Option.some_injective _) this
  rcases h2 with ⟨rfl, _, _⟩ | ⟨gs', g, rfl, hm', ho⟩
  · simp at hn
  rcases List.eq_nil_or_concat post with hp' | ⟨post', l, hp'⟩
  · exact absurd hp' hp
  rw [List.concat_eq_append] at hp'
  subst hp'
  rw [List.map_append, show pre ++ n :: (post' ++ [l]) = (pre ++ n :: post') ++ [l] by simp] at hn
  obtain ⟨e1, e2⟩ := List.append_inj' hn rfl
  simp only [List.map_cons, List.map_nil, List.cons.injEq, and_true] at e2
  obtain ⟨l1, l2, rfl, f1, f2⟩ := List.map_eq_append_iff.1 e1
  obtain ⟨g1, l3, rfl, f3, f4⟩ := List.map_eq_cons_iff.1 f2
  rw [ho, e2, List.foldl_append, List.foldl_cons]
  have hnd : ((l1 ++ l3).map BGlyph.name).Nodup := by
    rw [List.map_append, f1, f4]
    rw [← List.append_assoc, List.nodup_append] at hd
    exact hd.1
  have hnd1 : (l1.map BGlyph.name).Nodup := by
    rw [List.map_append, List.nodup_append] at hnd
    exact hnd.1
  have hskip : fileOne ops asm (l1.foldl (fileOne ops asm) ([], [])) g1 = l1.foldl (fileOne ops asm) ([], []) := by
    rw [filed_distinct ops asm l1 hnd1]
    have hk : (l1.map fun g => (g.name, g)).map Prod.fst = pre := by rw [← f1, List.map_map]; rfl
    unfold fileOne
    rw [if_pos]
    · rw [freeGlyphName_none.2 (by rw [hk, f3]; exact hall)]
    · cases hx : dictGet (l1.map fun g => (g.name, g)) g1.name with
      | none =>
        have := dictGet_none.1 hx
        rw [hk, f3] at this
        exact absurd hm this
      | some y => rfl
  rw [hskip, ← List.foldl_append, filed_distinct ops asm _ hnd]
  simp [f1, f4]

theorem addKerning_mem : ∀ (values : List (Int × List Int)) (k : MMKerning) (name : PyStr),
    ∀ x ∈ addKerning k name values, x ∈ k ∨ (x.1.1 = name ∧ (x.1.2, x.2) ∈ values) := by
  intro values
  induction values with
  | nil => intro k name x hx; exact .inl hx
  | cons v values ih =>
    intro k name x hx
    have hx : x ∈ addKerning (dictSet k (name, v.1) v.2) name values := hx
    rcases ih _ name x hx with h | ⟨h1, h2⟩
    · rcases dictSet_mem h with h | h
      · subst h; exact .inr ⟨rfl, by simp⟩
      · exact .inl h
    · exact .inr ⟨h1, by simp [h2]⟩

theorem addKerning_new : ∀ (values : List (Int × List Int)) (k : MMKerning) (name : PyStr), DictOk values →
    (∀ x ∈ k, x.1.1 = name → x.1.2 ∉ values.map Prod.fst) → addKerning k name values = k ++ values.map fun x => ((name, x.1), x.2) := by
  intro values
  induction values with
  | nil => intro k name _ _; simp [addKerning]
  | cons v values ih =>
    intro k name hd hk
    have hd' : v.1 ∉ values.map Prod.fst ∧ DictOk values := List.nodup_cons.1 hd
    have hnew : (name, v.1) ∉ k.map Prod.fst := by
      intro hc
      obtain ⟨x, hx, hx'⟩ := List.mem_map.1 hc
      have := hk x hx (by rw [hx'])
      rw [hx'] at this
      simp at this
    have : addKerning k name (v :: values) = addKerning (dictSet k (name, v.1) v.2) name values := rfl
    rw [this, dictSet_new hnew, ih _ _ hd'.2]
    · simp
    · intro x hx hxn
      rcases List.mem_append.1 hx with hx | hx
      · have := hk x hx hxn
        simp only [List.map_cons, List.mem_cons, not_or] at this
        exact this.2
      · simp at hx
        subst hx
        exact hd'.1

theorem kerningOf_append (l l' : List (Glyph ops.Angle asm.Asm × BGlyph ops.Angle asm.Asm)) :
    kerningOf ops asm (l ++ l') = l'.foldl (fun k x => addKerning k x.2.name (x.1.kerning.getD [])) (kerningOf ops asm l) := by
  unfold kerningOf
  rw [List.foldl_append]

theorem kerningOf_mem (l : List (Glyph ops.Angle asm.Asm × BGlyph ops.Angle asm.Asm)) :
    ∀ x ∈ kerningOf ops asm l, ∃ y ∈ l, x.1.1 = y.2.name ∧ (x.1.2, x.2) ∈ y.1.kerning.getD [] := by
  rcases List.eq_nil_or_concat l with h | ⟨l', y, h⟩
  · subst h; intro x hx; cases hx
  · rw [List.concat_eq_append] at h
    subst h
    rw [kerningOf_append]
    intro x hx
    rcases addKerning_mem _ _ _ x hx with hx | hx
    · obtain ⟨z, hz, hz'⟩ := kerningOf_mem l' x hx
      exact ⟨z, by simp [hz], hz'⟩
    · exact ⟨y, by simp, hx⟩
termination_by l.length
decreasing_by subst h; simp

theorem kerningOf_distinct (l : List (Glyph ops.Angle asm.Asm × BGlyph ops.Angle asm.Asm)) (hn : (l.map fun x => x.2.name).Nodup)
    (hk : ∀ x ∈ l, DictOk (x.1.kerning.getD [])) :
    kerningOf ops asm l = l.flatMap fun x => (x.1.kerning.getD []).map fun v => ((x.2.name, v.1), v.2) := by
  rcases List.eq_nil_or_concat l with h | ⟨l', y, h⟩
  · subst h; rfl
  · rw [List.concat_eq_append] at h
    subst h
    rw [List.map_append, List.nodup_append] at hn
    rw [kerningOf_append]
    simp only [List.foldl_cons, List.foldl_nil]
    rw [addKerning_new]
    · rw [kerningOf_distinct l' hn.1 fun x hx => hk x (by simp [hx]), List.flatMap_append]
      simp
    · exact hk y (by simp)
    · intro x hx hxy
      obtain ⟨z, hz, h1, _⟩ := kerningOf_mem ops asm l' x hx
      exfalso
      exact hn.2.2 z.2.name (List.mem_map.2 ⟨z, hz, rfl⟩) y.2.name (by simp) (by rw [← h1, hxy])
termination_by l.length
decreasing_by subst h; simp

/-- **C65** The kerning of the builder is that of the glyphs, in order, if the names are all different. -/
theorem C65_kerning {o : BuildOpts} {es : List (FEntry ops asm)} {st : GlyphPart ops.Angle asm.Asm} (h : buildGlyphs ops asm o es = .ok st)
    (hd : ((blocks ops asm es).map fun b => b.1.name).Nodup) (hk : ∀ b ∈ blocks ops asm es, ∀ k, b.1.kerning = some k → DictOk k) :
    st.kerning = (blocks ops asm es).flatMap fun b => (b.1.kerning.getD []).map fun v => ((b.1.name.getD [], v.1), v.2) := by
  obtain ⟨gs, h1, h2, h3⟩ := build_spec ops asm h
  clear h3
  rw [h2]
  clear h2 h
  generalize blocks ops asm es = bs at *
  have hz : ((bs.map Prod.fst).zip gs).map (fun x => x.2.name) = gs.map BGlyph.name := by
    clear hd hk
    induction h1 with
    | nil => rfl
    | cons _ _ ih => simp [ih]
  rw [names_of ops asm h1] at hd
  rw [kerningOf_distinct]
  · clear hz hd hk
    induction h1 with
    | nil => rfl
    | cons hx _ ih => simp only [List.map_cons, List.zip_cons_cons, List.flatMap_cons, ih, hx.name, Option.getD_some]
  · rw [hz]
    have : (gs.map fun g => some g.name) = (gs.map BGlyph.name).map some := by simp
    rw [this] at hd
    exact List.Pairwise.imp_of_mem (fun _ _ hne he => hne (by rw [he])) (List.pairwise_map.1 hd)
  · intro x hx
    have : x.1 ∈ bs.map Prod.fst := (List.of_mem_zip hx).1
    obtain ⟨b, hb, hb'⟩ := List.mem_map.1 this
    cases hbk : x.1.kerning with
    | none => simp [DictOk]
    | some k => exact hk b hb k (by rw [hb', hbk])

/-- **C65** (Known defect) Kerning is filed under the name in the file, never under the numbered name of a duplicate: a glyph that
is renamed loses its kerning to the first glyph of that name. -/
theorem C65_kerning_names {o : BuildOpts} {es : List (FEntry ops asm)} {st : GlyphPart ops.Angle asm.Asm} (h : buildGlyphs ops asm o es = .ok st) :
    ∀ x ∈ st.kerning, ∃ b ∈ blocks ops asm es, b.1.name = some x.1.1 ∧ (x.1.2, x.2) ∈ b.1.kerning.getD [] := by
  obtain ⟨gs, h1, h2, h3⟩ := build_spec ops asm h
  clear h3
  rw [h2]
  intro x hx
  obtain ⟨y, hy, e1, e2⟩ := kerningOf_mem ops asm _ x hx
  clear h h2 hx
  generalize blocks ops asm es = bs at *
  induction h1 with
  | nil => cases hy
  | cons hd _ ih =>
    rcases List.mem_cons.1 hy with rfl | hy
    · exact ⟨_, by simp, by rw [hd.name, e1], e2⟩
    · obtain ⟨b, hb, hb'⟩ := ih hy
      exact ⟨b, by simp [hb], hb'⟩

end
end Verif.Props
