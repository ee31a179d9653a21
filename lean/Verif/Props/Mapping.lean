import Verif.Spec.Mapping
import Verif.Props.Table
/-! C102: a font as a mapping from glyph names to glyphs. -/
set_option autoImplicit false
namespace Verif.Props
open Verif Verif.Spec

theorem at_snoc {ids : List Int} {x y : Int} {i : Nat} :
    (ids ++ [x])[i]? = some y ↔ ids[i]? = some y ∨ (i = ids.length ∧ x = y) := by
  rcases Nat.lt_trichotomy i ids.length with h | h | h
  · rw [List.getElem?_append_left h]
    constructor
    · exact .inl
    · rintro (h' | ⟨h', _⟩)
      · exact h'
      · omega
  · subst h
    simp
  · rw [List.getElem?_eq_none (by simp; omega), List.getElem?_eq_none (by omega)]
    constructor
    · intro h; cases h
    · rintro (h' | ⟨h', _⟩)
      · cases h'
      · omega

theorem at_lt {ids : List Int} {y : Int} {i : Nat} (h : ids[i]? = some y) : i < ids.length :=
  (List.getElem?_eq_some_iff.1 h).1

theorem before_snoc {ids : List Int} {x : Int} {g j : Nat} (hj : j ≤ ids.length) :
    GlyphBefore (ids ++ [x]) g j ↔ GlyphBefore ids g j := by
  constructor
  · rintro ⟨h1, h2, h3⟩
    refine ⟨h1, ?_, ?_⟩
    · rcases at_snoc.1 h2 with h | ⟨h, _⟩
      · exact h
      · omega
    · intro k hk hk' h
      exact h3 k hk hk' (at_snoc.2 (.inl h))
  · rintro ⟨h1, h2, h3⟩
    refine ⟨h1, at_snoc.2 (.inl h2), ?_⟩
    intro k hk hk' h
    rcases at_snoc.1 h with h | ⟨h, _⟩
    · exact h3 k hk hk' h
    · omega

/-- an entry of another id does not change which one is the last of this id -/
theorem lastOf_other {ids : List Int} {x id : Int} {g j : Nat} (hx : x ≠ id) :
    LastOf (ids ++ [x]) id g j ↔ LastOf ids id g j := by
  constructor
  · rintro ⟨h1, h2, h3⟩
    have h1' : ids[j]? = some id := by
      rcases at_snoc.1 h1 with h | ⟨_, h⟩
      · exact h
      · exact absurd h hx
    refine ⟨h1', (before_snoc (Nat.le_of_lt (at_lt h1'))).1 h2, ?_⟩
    intro j' hj hj' hb
    exact h3 j' hj (at_snoc.2 (.inl hj')) ((before_snoc (Nat.le_of_lt (at_lt hj'))).2 hb)
  · rintro ⟨h1, h2, h3⟩
    refine ⟨at_snoc.2 (.inl h1), (before_snoc (Nat.le_of_lt (at_lt h1))).2 h2, ?_⟩
    intro j' hj hj' hb
    have h1' : ids[j']? = some id := by
      rcases at_snoc.1 hj' with h | ⟨_, h⟩
      · exact h
      · exact absurd h hx
    exact h3 j' hj h1' ((before_snoc (Nat.le_of_lt (at_lt h1'))).1 hb)

/-- a new entry of this id is the last one of the glyph before it -/
theorem lastOf_new {ids : List Int} {id : Int} {g j : Nat} (hg : GlyphBefore ids g ids.length) :
    LastOf (ids ++ [id]) id g j ↔ j = ids.length := by
  constructor
  · rintro ⟨h1, h2, h3⟩
    rcases at_snoc.1 h1 with h | ⟨h, _⟩
    · have := at_lt h
      exact absurd ((before_snoc (Nat.le_refl _)).2 hg) (h3 ids.length this (at_snoc.2 (.inr ⟨rfl, rfl⟩)))
    · exact h
  · rintro rfl
    refine ⟨at_snoc.2 (.inr ⟨rfl, rfl⟩), (before_snoc (Nat.le_refl _)).2 hg, ?_⟩
    intro j' hj hj' _
    have := at_lt hj'
    simp at this
    omega

/-- a new entry of this id does not matter to glyphs that are not the one before it -/
theorem lastOf_elsewhere {ids : List Int} {id : Int} {g j : Nat} (hg : ¬ GlyphBefore ids g ids.length) :
    LastOf (ids ++ [id]) id g j ↔ LastOf ids id g j := by
  constructor
  · rintro ⟨h1, h2, h3⟩
    rcases at_snoc.1 h1 with h | ⟨h, _⟩
    · refine ⟨h, (before_snoc (Nat.le_of_lt (at_lt h))).1 h2, ?_⟩
      intro j' hj hj' hb
      exact h3 j' hj (at_snoc.2 (.inl hj')) ((before_snoc (Nat.le_of_lt (at_lt hj'))).2 hb)
    · subst h
      exact absurd ((before_snoc (Nat.le_refl _)).1 h2) hg
  · rintro ⟨h1, h2, h3⟩
    refine ⟨at_snoc.2 (.inl h1), (before_snoc (Nat.le_of_lt (at_lt h1))).2 h2, ?_⟩
    intro j' hj hj' hb
    rcases at_snoc.1 hj' with h | ⟨h, _⟩
    · exact h3 j' hj h ((before_snoc (Nat.le_of_lt (at_lt h))).1 hb)
    · subst h
      exact hg ((before_snoc (Nat.le_refl _)).1 hb)

theorem not_lastOf_end {ids : List Int} {x id : Int} {j : Nat} : ¬ LastOf (ids ++ [x]) id ids.length j := by
  rintro ⟨h1, ⟨h2, _, _⟩, _⟩
  have := at_lt h1
  simp at this
  omega

/-- the last font options of the file -/
def LastOpts (src : Nat) (ids : List Int) (r : Nat × Nat) : Prop :=
  r.1 = src ∧ ids[r.2]? = some 1093 ∧ ∀ j', r.2 < j' → ids[j']? ≠ some 1093

theorem lastOpts_other {src : Nat} {ids : List Int} {x : Int} {r : Nat × Nat} (hx : x ≠ 1093) :
    LastOpts src (ids ++ [x]) r ↔ LastOpts src ids r := by
  unfold LastOpts
  constructor
  · rintro ⟨h1, h2, h3⟩
    refine ⟨h1, ?_, fun j' hj h => h3 j' hj (at_snoc.2 (.inl h))⟩
    rcases at_snoc.1 h2 with h | ⟨_, h⟩
    · exact h
    · exact absurd h hx
  · rintro ⟨h1, h2, h3⟩
    refine ⟨h1, at_snoc.2 (.inl h2), fun j' hj h => ?_⟩
    rcases at_snoc.1 h with h | ⟨_, h⟩
    · exact h3 j' hj h
    · exact absurd h hx

theorem lastOpts_new {src : Nat} {ids : List Int} {r : Nat × Nat} :
    LastOpts src (ids ++ [1093]) r ↔ r = (src, ids.length) := by
  unfold LastOpts
  constructor
  · rintro ⟨h1, h2, h3⟩
    rcases at_snoc.1 h2 with h | ⟨h, _⟩
    · exact absurd (at_snoc.2 (.inr ⟨rfl, rfl⟩)) (h3 ids.length (at_lt h))
    · exact Prod.ext h1 h
  · rintro rfl
    refine ⟨rfl, at_snoc.2 (.inr ⟨rfl, rfl⟩), fun j' hj h => ?_⟩
    have := at_lt h
    simp at this hj
    omega

/-- the local variable `name` of the loop is the last key -/
def NameOf (name : Option PyStr) (s : Lookup) : Prop := name = (s.glyphs.map Prod.fst).getLast?

theorem mirrors_nil (src : Nat) : Mirrors src [] {} :=
  { distinct := by simp
    order := rfl
    entries := by simp
    sorted := by simp
    source := by simp
    links := by simp
    options := by simp
    psOptions := by simp }

theorem mirrors_glyph {src : Nat} {ids : List Int} {s : Lookup} (h : Mirrors src ids s) (key : PyStr)
    (hk : key ∉ s.glyphs.map Prod.fst) :
    Mirrors src (ids ++ [2001])
      { s with glyphs := s.glyphs ++ [(key, { source := src, entry := ids.length })], order := s.order ++ [key] } := by
  have hlt : ∀ p ∈ s.glyphs, p.2.entry < ids.length := fun p hp => at_lt ((h.entries _).2 (List.mem_map.2 ⟨p, hp, rfl⟩))
  constructor
  · simp only [List.map_append, List.map_cons, List.map_nil, List.nodup_append]
    refine ⟨h.distinct, by simp, ?_⟩
    intro a ha b hb
    simp only [List.mem_singleton] at hb
    subst hb
    rintro rfl
    exact hk ha
  · simp [h.order]
  · intro i
    rw [at_snoc, h.entries]
    simp
  · simp only [List.map_append, List.map_cons, List.map_nil, List.pairwise_append]
    refine ⟨h.sorted, by simp, ?_⟩
    intro a ha b hb
    simp only [List.mem_singleton] at hb
    subst hb
    obtain ⟨p, hp, rfl⟩ := List.mem_map.1 ha
    exact hlt p hp
  · intro p hp
    rcases List.mem_append.1 hp with hp | hp
    · exact h.source p hp
    · simp only [List.mem_singleton] at hp
      subst hp
      rfl
  · intro p hp j
    rcases List.mem_append.1 hp with hp | hp
    · rw [lastOf_other (by decide)]
      exact h.links p hp j
    · simp only [List.mem_singleton] at hp
      subst hp
      exact ⟨fun h => (by cases h), fun h => absurd h not_lastOf_end⟩
  · intro p hp j
    rcases List.mem_append.1 hp with hp | hp
    · rw [lastOf_other (by decide)]
      exact h.options p hp j
    · simp only [List.mem_singleton] at hp
      subst hp
      exact ⟨fun h => (by cases h), fun h => absurd h not_lastOf_end⟩
  · intro r
    exact (h.psOptions r).trans (lastOpts_other (by decide)).symm

theorem mirrors_other {src : Nat} {ids : List Int} {s : Lookup} (h : Mirrors src ids s) (x : Int)
    (h1 : x ≠ 2001) (h2 : x ≠ 2008) (h3 : x ≠ 2010) (h4 : x ≠ 1093) : Mirrors src (ids ++ [x]) s := by
  constructor
  · exact h.distinct
  · exact h.order
  · intro i
    rw [at_snoc, h.entries]
    constructor
    · rintro (h | ⟨_, h⟩)
      · exact h
      · exact absurd h h1
    · exact .inl
  · exact h.sorted
  · exact h.source
  · intro p hp j
    rw [lastOf_other h2]
    exact h.links p hp j
  · intro p hp j
    rw [lastOf_other h3]
    exact h.options p hp j
  · intro r
    exact (h.psOptions r).trans (lastOpts_other h4).symm

/-- the object with the last key stands for the glyph before the end, and it is the only one -/
theorem last_is_before {src : Nat} {ids : List Int} {s : Lookup} (h : Mirrors src ids s) {n : PyStr}
    (hn : (s.glyphs.map Prod.fst).getLast? = some n) (p : PyStr × GlyphObj) (hp : p ∈ s.glyphs) :
    p.1 = n ↔ GlyphBefore ids p.2.entry ids.length := by
  obtain ⟨init, q, hq⟩ : ∃ init q, s.glyphs = init ++ [q] := by
    rcases List.eq_nil_or_concat s.glyphs with hl | ⟨init, q, hl⟩
    · rw [hl] at hp; cases hp
    · exact ⟨init, q, by simpa using hl⟩
  have hqn : q.1 = n := by
    rw [hq] at hn
    simpa using hn
  have hmem : q ∈ s.glyphs := by rw [hq]; simp
  have hbefore : GlyphBefore ids q.2.entry ids.length := by
    have hat := (h.entries q.2.entry).2 (List.mem_map.2 ⟨q, hmem, rfl⟩)
    refine ⟨at_lt hat, hat, ?_⟩
    intro k hk _ hk'
    have hm := (h.entries k).1 hk'
    have hs := h.sorted
    rw [hq] at hm hs
    simp only [List.map_append, List.map_cons, List.map_nil, List.pairwise_append, List.mem_append, List.mem_singleton] at hm hs
    rcases hm with hm | hm
    · have := hs.2.2 k hm q.2.entry rfl
      omega
    · omega
  constructor
  · intro hpn
    have hd := h.distinct
    have : p = q := by
      rw [hq] at hp hd
      rcases List.mem_append.1 hp with hp | hp
      · simp only [List.map_append, List.map_cons, List.map_nil, List.nodup_append] at hd
        exact absurd (hpn.trans hqn.symm) (hd.2.2 p.1 (List.mem_map.2 ⟨p, hp, rfl⟩) q.1 (by simp))
      · simpa using hp
    rw [this]
    exact hbefore
  · intro hb
    rcases (by rw [hq] at hp; exact List.mem_append.1 hp : p ∈ init ∨ p ∈ [q]) with hp' | hp'
    · have hs := h.sorted
      rw [hq] at hs
      simp only [List.map_append, List.map_cons, List.map_nil, List.pairwise_append] at hs
      have hlt := hs.2.2 p.2.entry (List.mem_map.2 ⟨p, hp', rfl⟩) q.2.entry (by simp)
      exact absurd hbefore.2.1 (hb.2.2 q.2.entry hlt hbefore.1)
    · simp only [List.mem_singleton] at hp'
      subst hp'
      exact hqn

theorem map_fst_update (l : List (PyStr × GlyphObj)) (n : PyStr) (f : GlyphObj → GlyphObj) :
    (updateObj l n f).map Prod.fst = l.map Prod.fst := by
  unfold updateObj
  rw [List.map_map]
  apply List.map_congr_left
  intro p _
  simp only [Function.comp_apply]
  split <;> rfl

theorem map_entry_update (l : List (PyStr × GlyphObj)) (n : PyStr) (f : GlyphObj → GlyphObj) (hf : ∀ o, (f o).entry = o.entry) :
    (updateObj l n f).map (fun p => p.2.entry) = l.map fun p => p.2.entry := by
  unfold updateObj
  rw [List.map_map]
  apply List.map_congr_left
  intro p _
  simp only [Function.comp_apply]
  split
  · exact hf _
  · rfl

theorem mirrors_aux {src : Nat} {ids : List Int} {s : Lookup} (h : Mirrors src ids s) {name : Option PyStr} (hn : NameOf name s)
    (x : Int) (hx : x = 2008 ∨ x = 2010 ∨ x = 1093) :
    Mirrors src (ids ++ [x]) (noteAux src ids.length x name s) ∧ NameOf name (noteAux src ids.length x name s) := by
  have hent : ∀ i : Nat, (ids ++ [x])[i]? = some 2001 ↔ i ∈ s.glyphs.map fun p => p.2.entry := by
    intro i
    rw [at_snoc, h.entries]
    constructor
    · rintro (h | ⟨_, h⟩)
      · exact h
      · omega
    · exact .inl
  unfold noteAux
  rcases hx with rfl | rfl | rfl
  · rw [if_pos rfl]
    cases hnm : name with
    | none =>
      subst hnm
      refine ⟨?_, hn⟩
      have hnil : s.glyphs = [] := by
        unfold NameOf at hn
        have := List.getLast?_eq_none_iff.1 hn.symm
        simpa using this
      refine ⟨h.distinct, h.order, hent, h.sorted, h.source, ?_, ?_, fun r => (h.psOptions r).trans (lastOpts_other (by decide)).symm⟩
      · rw [hnil]; simp
      · rw [hnil]; simp
    | some n =>
      have hmap := map_entry_update s.glyphs n (fun o => { o with links := some ids.length }) (fun _ => rfl)
      have hn' : (s.glyphs.map Prod.fst).getLast? = some n := by rw [← hnm]; exact hn.symm
      refine ⟨?_, ?_⟩
      · constructor
        · simp only [map_fst_update]; exact h.distinct
        · simp only [map_fst_update]; exact h.order
        · simp only [hmap]; exact hent
        · simp only [hmap]; exact h.sorted
        · intro p hp
          obtain ⟨q, hq, rfl⟩ := List.mem_map.1 hp
          split
          · exact h.source q hq
          · exact h.source q hq
        · intro p hp j
          obtain ⟨q, hq, rfl⟩ := List.mem_map.1 hp
          by_cases hqn : q.1 = n
          · rw [if_pos hqn]
            simp only
            rw [lastOf_new ((last_is_before h hn' q hq).1 hqn)]
            constructor
            · intro h; injection h with h; exact h.symm
            · rintro rfl; rfl
          · rw [if_neg hqn, lastOf_elsewhere (fun hb => hqn ((last_is_before h hn' q hq).2 hb))]
            exact h.links q hq j
        · intro p hp j
          obtain ⟨q, hq, rfl⟩ := List.mem_map.1 hp
          rw [lastOf_other (by decide)]
          split
          · exact h.options q hq j
          · exact h.options q hq j
        · intro r
          exact (h.psOptions r).trans (lastOpts_other (by decide)).symm
      · unfold NameOf
        simp only [map_fst_update]
        exact hn'.symm
  · rw [if_neg (by decide), if_pos rfl]
    cases hnm : name with
    | none =>
      subst hnm
      refine ⟨?_, hn⟩
      have hnil : s.glyphs = [] := by
        unfold NameOf at hn
        have := List.getLast?_eq_none_iff.1 hn.symm
        simpa using this
      refine ⟨h.distinct, h.order, hent, h.sorted, h.source, ?_, ?_, fun r => (h.psOptions r).trans (lastOpts_other (by decide)).symm⟩
      · rw [hnil]; simp
      · rw [hnil]; simp
    | some n =>
      have hmap := map_entry_update s.glyphs n (fun o => { o with options := some ids.length }) (fun _ => rfl)
      have hn' : (s.glyphs.map Prod.fst).getLast? = some n := by rw [← hnm]; exact hn.symm
      refine ⟨?_, ?_⟩
      · constructor
        · simp only [map_fst_update]; exact h.distinct
        · simp only [map_fst_update]; exact h.order
        · simp only [hmap]; exact hent
        · simp only [hmap]; exact h.sorted
        · intro p hp
          obtain ⟨q, hq, rfl⟩ := List.mem_map.1 hp
          split
          · exact h.source q hq
          · exact h.source q hq
        · intro p hp j
          obtain ⟨q, hq, rfl⟩ := List.mem_map.1 hp
          rw [lastOf_other (by decide)]
          split
          · exact h.links q hq j
          · exact h.links q hq j
        · intro p hp j
          obtain ⟨q, hq, rfl⟩ := List.mem_map.1 hp
          by_cases hqn : q.1 = n
          · rw [if_pos hqn]
            simp only
            rw [lastOf_new ((last_is_before h hn' q hq).1 hqn)]
            constructor
            · intro h; injection h with h; exact h.symm
            · rintro rfl; rfl
          · rw [if_neg hqn, lastOf_elsewhere (fun hb => hqn ((last_is_before h hn' q hq).2 hb))]
            exact h.options q hq j
        · intro r
          exact (h.psOptions r).trans (lastOpts_other (by decide)).symm
      · unfold NameOf
        simp only [map_fst_update]
        exact hn'.symm
  · rw [if_neg (by decide), if_neg (by decide)]
    refine ⟨⟨h.distinct, h.order, hent, h.sorted, h.source, ?_, ?_, ?_⟩, hn⟩
    · intro p hp j
      rw [lastOf_other (by decide)]
      exact h.links p hp j
    · intro p hp j
      rw [lastOf_other (by decide)]
      exact h.options p hp j
    · intro r
      have := @lastOpts_new src ids r
      unfold LastOpts at this
      rw [this]
      simp only [Option.some.injEq]
      exact eq_comm


section
variable {D T : Type}

theorem keyFor_free (names : List PyStr) (name : PyStr) : keyFor names name ∉ names := by
  unfold keyFor
  split
  · exact freeSuffix_free names _ 1
  · assumption

theorem decompile_unreadable (C : Codec D T) (ctx : Ctx) (e : Entry D T) (hid : e.id = 2008 ∨ e.id = 2010 ∨ e.id = 1093) :
    (∃ x e' err, e.decompile C ctx = (.error x, e', err) ∧ Unreadable C ctx e) ∨
    (∃ e', e.decompile C ctx = (.ok (), e', false) ∧ e'.id = e.id ∧ ¬ Unreadable C ctx e ∧ ¬ Unreadable C ctx e') := by
  have hmem : e.id ∈ [(2008 : Int), 2010, 1093] := by simpa using hid
  unfold Entry.decompile
  cases hd : e.data with
  | none => exact .inl ⟨_, _, _, rfl, hmem, .inl hd⟩
  | dec d =>
    have hn : ¬ Unreadable C ctx e := by
      rintro ⟨_, h | ⟨b, x, h, _⟩⟩
      · rw [hd] at h; cases h
      · rw [hd] at h; cases h
    exact .inr ⟨e, rfl, rfl, hn, hn⟩
  | bytes b =>
    simp only
    cases hp : parseEntry (C.parse e.id ctx) b with
    | error x => exact .inl ⟨_, _, _, rfl, hmem, .inr ⟨b, x, hd, hp⟩⟩
    | ok d =>
      refine .inr ⟨_, rfl, rfl, ?_, ?_⟩
      · rintro ⟨_, h | ⟨b', x, h, h'⟩⟩
        · rw [hd] at h; cases h
        · rw [hd] at h
          injection h with h
          subst h
          rw [hp] at h'
          cases h'
      · rintro ⟨_, h | ⟨b', x, h, h'⟩⟩
        · cases h
        · cases h

theorem objLoop_spec (C : Codec D T) (ctx : Ctx) (src : Nat) (es : List (Entry D T)) (pre : List Int) (name : Option PyStr) (s : Lookup)
    (h : Mirrors src pre s) (hn : NameOf name s) :
    ∃ n, n ≤ es.length ∧ Mirrors src (pre ++ (es.take n).map fun e => e.id) (objLoop C ctx src pre.length es name s).2.2.1 ∧
      (∀ (k : Nat) (e : Entry D T), k < n → es[k]? = some e → ¬ Unreadable C ctx e) ∧
      (((objLoop C ctx src pre.length es name s).1 = .ok () ∧ n = es.length) ∨
       (∃ x e, (objLoop C ctx src pre.length es name s).1 = .error x ∧ es[n]? = some e ∧ Unreadable C ctx e)) := by
  induction es generalizing pre name s with
  | nil => exact ⟨0, Nat.le_refl _, by simpa [objLoop] using h, by simp, .inl ⟨rfl, rfl⟩⟩
  | cons e es ih =>
    -- once the head has been dealt with
    have key : ∀ (name' : Option PyStr) (s' : Lookup), Mirrors src (pre ++ [e.id]) s' → NameOf name' s' → ¬ Unreadable C ctx e →
        ∀ r, r = objLoop C ctx src (pre.length + 1) es name' s' →
        ∃ n, n ≤ (e :: es).length ∧ Mirrors src (pre ++ ((e :: es).take n).map fun e => e.id) r.2.2.1 ∧
          (∀ (k : Nat) (x : Entry D T), k < n → (e :: es)[k]? = some x → ¬ Unreadable C ctx x) ∧
          ((r.1 = .ok () ∧ n = (e :: es).length) ∨
           (∃ x y, r.1 = .error x ∧ (e :: es)[n]? = some y ∧ Unreadable C ctx y)) := by
      intro name' s' hm hn' hu r hr
      obtain ⟨n, i1, i2, i3, i4⟩ := ih (pre ++ [e.id]) name' s' hm hn'
      rw [List.length_append, List.length_singleton, ← hr] at i2 i4
      refine ⟨n + 1, by simpa using i1, by simpa using i2, ?_, ?_⟩
      · intro k x hk hx
        cases k with
        | zero =>
          simp only [List.getElem?_cons_zero, Option.some.injEq] at hx
          subst hx
          exact hu
        | succ k => exact i3 k x (by omega) (by simpa using hx)
      · rcases i4 with ⟨h1, h2⟩ | ⟨x, y, h1, h2, h3⟩
        · exact .inl ⟨h1, by simp [h2]⟩
        · exact .inr ⟨x, y, h1, by simpa using h2, h3⟩
    rw [objLoop]
    by_cases h1 : e.id = 2001
    · rw [if_pos h1]
      simp only
      have hu : ¬ Unreadable C ctx e := by
        rintro ⟨hm, _⟩
        rw [h1] at hm
        exact absurd hm (by decide)
      have hm := mirrors_glyph h (keyFor (s.glyphs.map Prod.fst) (C.glyphName (C.emptyGlyph ctx.num_masters))) (keyFor_free _ _)
      rw [← h1] at hm
      exact key _ _ hm (by simp [NameOf]) hu _ rfl
    · rw [if_neg h1]
      by_cases h2 : e.id = 2008 ∨ e.id = 2010 ∨ e.id = 1093
      · rw [if_pos h2]
        rcases decompile_unreadable C ctx e h2 with ⟨x, e', err, hd, hu⟩ | ⟨e', hd, _, hu, _⟩
        · rw [hd]
          exact ⟨0, Nat.zero_le _, by simpa using h, fun k _ hk => absurd hk (by omega), .inr ⟨x, e, rfl, rfl, hu⟩⟩
        · rw [hd]
          obtain ⟨hm, hn'⟩ := mirrors_aux h hn e.id h2
          exact key _ _ hm hn' hu (objLoop C ctx src (pre.length + 1) es name (noteAux src pre.length e.id name s)) rfl
      · rw [if_neg h2]
        have hu : ¬ Unreadable C ctx e := by
          rintro ⟨hm, _⟩
          exact h2 (by simpa using hm)
        have h3 : e.id ≠ 2008 ∧ e.id ≠ 2010 ∧ e.id ≠ 1093 :=
          ⟨fun h => h2 (.inl h), fun h => h2 (.inr (.inl h)), fun h => h2 (.inr (.inr h))⟩
        exact key name s (mirrors_other h e.id h1 h3.1 h3.2.1 h3.2.2) hn hu (objLoop C ctx src (pre.length + 1) es name s) rfl

theorem noteAux_keys (src i : Nat) (id : Int) (name : Option PyStr) (s : Lookup) :
    (noteAux src i id name s).glyphs.map Prod.fst = s.glyphs.map Prod.fst := by
  unfold noteAux
  split
  · cases name with
    | none => rfl
    | some n => simp only [map_fst_update]
  · split
    · cases name with
      | none => rfl
      | some n => simp only [map_fst_update]
    · rfl

/-- the loop with objects does to the entries and the names what `decompileGlyphs` (C54) does -/
theorem objLoop_refines (C : Codec D T) (ctx : Ctx) (src i : Nat) (es : List (Entry D T)) (name : Option PyStr) (s : Lookup) :
    decompileGlyphs C ctx es (s.glyphs.map Prod.fst) =
      ((objLoop C ctx src i es name s).1, (objLoop C ctx src i es name s).2.1,
       (objLoop C ctx src i es name s).2.2.1.glyphs.map Prod.fst, (objLoop C ctx src i es name s).2.2.2) := by
  induction es generalizing i name s with
  | nil => rfl
  | cons e es ih =>
    rw [decompileGlyphs, objLoop]
    by_cases h1 : e.id = 2001
    · rw [if_pos h1, if_pos h1]
      simp only
      have := ih (i + 1) (some (keyFor (s.glyphs.map Prod.fst) (C.glyphName (C.emptyGlyph ctx.num_masters))))
        { s with glyphs := s.glyphs ++ [(keyFor (s.glyphs.map Prod.fst) (C.glyphName (C.emptyGlyph ctx.num_masters)),
                   { source := src, entry := i })],
                 order := s.order ++ [keyFor (s.glyphs.map Prod.fst) (C.glyphName (C.emptyGlyph ctx.num_masters))] }
      simp only [List.map_append, List.map_cons, List.map_nil] at this
      unfold keyFor at this ⊢
      rw [this]
    · rw [if_neg h1, if_neg h1]
      by_cases h2 : e.id = 2008 ∨ e.id = 2010 ∨ e.id = 1093
      · rw [if_pos h2, if_pos h2]
        cases hd : e.decompile C ctx with
        | mk r q =>
          obtain ⟨e', err⟩ := q
          cases r with
          | error x => rfl
          | ok u =>
            simp only
            have := ih (i + 1) name (noteAux src i e.id name s)
            rw [noteAux_keys] at this
            rw [this]
      · rw [if_neg h2, if_neg h2]
        simp only
        rw [ih (i + 1) name s]

theorem objLoop_err (C : Codec D T) (ctx : Ctx) (src : Nat) (es : List (Entry D T)) (i : Nat) (name : Option PyStr) (s : Lookup)
    (h : (objLoop C ctx src i es name s).1 = .ok ()) : (objLoop C ctx src i es name s).2.2.2 = false := by
  induction es generalizing i name s with
  | nil => rfl
  | cons e es ih =>
    rw [objLoop] at h ⊢
    by_cases h1 : e.id = 2001
    · rw [if_pos h1] at h ⊢
      exact ih _ _ _ h
    · rw [if_neg h1] at h ⊢
      by_cases h2 : e.id = 2008 ∨ e.id = 2010 ∨ e.id = 1093
      · rw [if_pos h2] at h ⊢
        cases hd : e.decompile C ctx with
        | mk r q =>
          obtain ⟨e', err⟩ := q
          rw [hd] at h
          cases r with
          | error x => cases h
          | ok u => exact ih _ _ _ h
      · rw [if_neg h2] at h ⊢
        exact ih _ _ _ h

/-- **C102** Looking glyphs up does to the font what C54 says of `keys()`. -/
theorem C102_refines (C : Codec D T) (f : FontObj D T) (hg : f.vfb.glyphs = f.look.glyphs.map Prod.fst) :
    (f.vfb.keys C).2 = (f.prepare C).2.vfb ∧
    (f.vfb.keys C).1 = (f.prepare C).1.map fun _ => (f.prepare C).2.look.glyphs.map Prod.fst := by
  unfold Vfb.keys FontObj.prepare
  by_cases h : f.look.glyphs = []
  · have h' : f.vfb.glyphs = [] := by rw [hg, h]; rfl
    rw [if_pos h, if_pos h']
    have := objLoop_refines C f.vfb.ctx f.reads 0 f.vfb.entries none f.look
    rw [h] at this
    simp only [List.map_nil] at this
    rw [this]
    cases hr : objLoop C f.vfb.ctx f.reads 0 f.vfb.entries none f.look with
    | mk r q =>
      obtain ⟨es, s, err⟩ := q
      cases r with
      | error x => exact ⟨rfl, rfl⟩
      | ok u =>
        have he : err = false := by
          have := objLoop_err C f.vfb.ctx f.reads f.vfb.entries 0 none f.look
          rw [hr] at this
          exact this rfl
        subst he
        simp [Except.map]
  · have h' : f.vfb.glyphs ≠ [] := by rw [hg]; simpa using h
    rw [if_neg h, if_neg h']
    exact ⟨rfl, by rw [hg]; rfl⟩


theorem find_key (l : List (PyStr × GlyphObj)) (k : PyStr) :
    (l.find? (fun p => p.1 == k) = none ∧ k ∉ l.map Prod.fst) ∨ ∃ o, l.find? (fun p => p.1 == k) = some (k, o) ∧ (k, o) ∈ l := by
  cases h : l.find? fun p => p.1 == k with
  | none =>
    left
    refine ⟨rfl, ?_⟩
    intro hm
    obtain ⟨p, hp, rfl⟩ := List.mem_map.1 hm
    have := List.find?_eq_none.1 h p hp
    simp at this
  | some p =>
    right
    have h1 := List.find?_some h
    have h2 := List.mem_of_find?_eq_some h
    have hk : p.1 = k := by simpa using h1
    obtain ⟨k', o⟩ := p
    simp only at hk
    subst hk
    exact ⟨o, rfl, h2⟩

/-- what a lookup answers when the objects are there -/
theorem lookup_answers (C : Codec D T) (f f' : FontObj D T) (c : FontCall) (hc : looksUp c = true) (hp : f.prepare C = (.ok (), f')) :
    ∃ a, f.call C c = (a, f') ∧ Answers f'.look c a := by
  cases c with
  | contains m k =>
    refine ⟨.ok (.bool (f'.look.glyphs.any fun p => p.1 == k)), by simp only [FontObj.call, FontObj.lookup, hp], .contains m k _ ?_⟩
    rw [List.any_eq_true, List.mem_map]
    simp
  | get m k =>
    simp only [FontObj.call, FontObj.lookup, hp]
    rcases find_key f'.look.glyphs k with ⟨h, hn⟩ | ⟨o, h, hm⟩
    · exact ⟨_, rfl, by rw [h]; exact .missing m k hn⟩
    · cases m with
      | none => exact ⟨_, rfl, by rw [h]; exact .get k o hm⟩
      | some i => exact ⟨_, rfl, by rw [h]; exact .getMaster i k o hm⟩
  | keys m => exact ⟨_, by simp only [FontObj.call, FontObj.lookup, hp], .keys m⟩
  | items m => exact ⟨_, by simp only [FontObj.call, FontObj.lookup, hp], .items m⟩
  | order m => cases hc
  | psOptions m => cases hc
  | getMasters => cases hc
  | read file => cases hc
  | decompile => cases hc

theorem lookup_fails (C : Codec D T) (f f' : FontObj D T) (c : FontCall) (x : PyErr) (hc : looksUp c = true)
    (hp : f.prepare C = (.error x, f')) : f.call C c = (.error x, f') := by
  cases c with
  | contains m k => simp only [FontObj.call, FontObj.lookup, hp]
  | get m k => simp only [FontObj.call, FontObj.lookup, hp]
  | keys m => simp only [FontObj.call, FontObj.lookup, hp]
  | items m => simp only [FontObj.call, FontObj.lookup, hp]
  | order m => cases hc
  | psOptions m => cases hc
  | getMasters => cases hc
  | read file => cases hc
  | decompile => cases hc

theorem prepare_fresh (C : Codec D T) (f : FontObj D T) (hf : f.look = {}) :
    ∃ n, n ≤ f.vfb.entries.length ∧ Mirrors f.reads ((f.vfb.entries.take n).map fun e => e.id) (f.prepare C).2.look ∧
      (∀ (k : Nat) (e : Entry D T), k < n → f.vfb.entries[k]? = some e → ¬ Unreadable C f.vfb.ctx e) ∧
      (((f.prepare C).1 = .ok () ∧ n = f.vfb.entries.length) ∨
       (∃ x e, (f.prepare C).1 = .error x ∧ f.vfb.entries[n]? = some e ∧ Unreadable C f.vfb.ctx e)) := by
  have h := objLoop_spec C f.vfb.ctx f.reads f.vfb.entries [] none {} (mirrors_nil f.reads) rfl
  unfold FontObj.prepare
  rw [hf, if_pos rfl]
  simpa using h

/-- **C102** The first lookup in a font whose links and hinting options can all be read: it succeeds, and gives the right answer for
objects that mirror the entries of the font. -/
theorem C102_lookup (C : Codec D T) (f : FontObj D T) (hf : f.look = {}) (c : FontCall) (hc : looksUp c = true)
    (hu : ∀ e ∈ f.vfb.entries, ¬ Unreadable C f.vfb.ctx e) :
    ∃ a f', f.call C c = (a, f') ∧ Mirrors f.reads (f.vfb.entries.map fun e => e.id) f'.look ∧ Answers f'.look c a := by
  obtain ⟨n, h1, h2, h3, h4⟩ := prepare_fresh C f hf
  rcases h4 with ⟨h4, rfl⟩ | ⟨x, e, _, h5, h6⟩
  · rw [List.take_length] at h2
    obtain ⟨a, h7, h8⟩ := lookup_answers C f (f.prepare C).2 c hc (by rw [← h4])
    exact ⟨a, _, h7, h2, h8⟩
  · exact absurd h6 (hu e (List.mem_of_getElem? h5))

/-- **C102** If some links or hinting options cannot be read, the first lookup raises an exception, and the objects that were made
mirror only the entries before the first unreadable one. -/
theorem C102_unreadable (C : Codec D T) (f : FontObj D T) (hf : f.look = {}) (c : FontCall) (hc : looksUp c = true)
    (hu : ∃ e ∈ f.vfb.entries, Unreadable C f.vfb.ctx e) :
    ∃ x f' n e, f.call C c = (.error x, f') ∧ f.vfb.entries[n]? = some e ∧ Unreadable C f.vfb.ctx e ∧
      (∀ (k : Nat) (e' : Entry D T), k < n → f.vfb.entries[k]? = some e' → ¬ Unreadable C f.vfb.ctx e') ∧
      Mirrors f.reads ((f.vfb.entries.take n).map fun e => e.id) f'.look := by
  obtain ⟨n, h1, h2, h3, h4⟩ := prepare_fresh C f hf
  rcases h4 with ⟨_, rfl⟩ | ⟨x, e, h4, h5, h6⟩
  · obtain ⟨e, he, hu⟩ := hu
    obtain ⟨k, hk, hke⟩ := List.mem_iff_getElem.1 he
    exact absurd hu (h3 k e hk (by rw [List.getElem?_eq_getElem hk, hke]))
  · exact ⟨x, _, n, e, lookup_fails C f (f.prepare C).2 c x hc (by rw [← h4]), h5, h6, h3, h2⟩

/-- one more call when there are objects -/
theorem call_keeps (C : Codec D T) (f : FontObj D T) (hg : f.look.glyphs ≠ []) (c : FontCall) :
    (f.call C c).2.look = f.look ∧ Answers f.look c (f.call C c).1 := by
  have hp : f.prepare C = (.ok (), f) := by
    unfold FontObj.prepare
    exact if_neg hg
  by_cases hc : looksUp c = true
  · obtain ⟨a, h1, h2⟩ := lookup_answers C f f c hc hp
    rw [h1]
    exact ⟨rfl, h2⟩
  · cases c with
    | contains m k => exact absurd rfl hc
    | get m k => exact absurd rfl hc
    | keys m => exact absurd rfl hc
    | items m => exact absurd rfl hc
    | order m => exact ⟨rfl, .order m⟩
    | psOptions m => exact ⟨rfl, .psOptions m⟩
    | getMasters => exact ⟨rfl, .getMasters _⟩
    | read file => exact ⟨rfl, .read file _⟩
    | decompile => exact ⟨rfl, .decompile _⟩

/-- **C102** Once there are objects, they stay: in every history of calls, all lookups give the answers for these objects, in the font
and in all its masters (known defect: also after another file has been read into the font, and after a lookup that failed half-way). -/
theorem C102_history (C : Codec D T) (f : FontObj D T) (hg : f.look.glyphs ≠ []) (cs : List FontCall) :
    (f.run C cs).2.look = f.look ∧ List.Forall₂ (Answers f.look) cs (f.run C cs).1 := by
  induction cs generalizing f with
  | nil => exact ⟨rfl, .nil⟩
  | cons c cs ih =>
    obtain ⟨h1, h2⟩ := call_keeps C f hg c
    obtain ⟨i1, i2⟩ := ih (f.call C c).2 (by rw [h1]; exact hg)
    simp only [FontObj.run]
    rw [h1] at i1 i2
    exact ⟨i1, .cons h2 i2⟩

/-- **C102** (Known defect) After another file has been read into a font whose glyphs have been looked up, all glyphs that can be
looked up belong to the old file. -/
theorem C102_stale (C : Codec D T) (f : FontObj D T) (hg : f.look.glyphs ≠ []) (hs : ∀ p ∈ f.look.glyphs, p.2.source ≤ f.reads)
    (file : Bytes) (m : Option Int) :
    ∃ f', ((f.call C (.read file)).2.call C (.items m)) = (.ok (.items f.look.glyphs), f') ∧
      ∀ p ∈ f.look.glyphs, p.2.source ≠ f'.reads := by
  have hg' : (f.call C (.read file)).2.look.glyphs ≠ [] := hg
  refine ⟨(f.call C (.read file)).2, ?_, ?_⟩
  · have hp : (f.call C (.read file)).2.prepare C = (.ok (), (f.call C (.read file)).2) := if_neg hg'
    generalize hf' : (f.call C (.read file)).2 = f' at hp ⊢
    have hl : f'.look = f.look := by rw [← hf']; rfl
    simp only [FontObj.call, FontObj.lookup, hp, hl]
  · intro p hp
    have := hs p hp
    show p.2.source ≠ f.reads + 1
    omega

/-- **C102** (Known defect) Before the first lookup the glyph order is empty, whatever the font holds. -/
theorem C102_order_before (C : Codec D T) (f : FontObj D T) (hf : f.look = {}) (m : Option Int) :
    f.call C (.order m) = (.ok (.names []), f) := by
  show (Except.ok (Answer.names f.look.order), f) = _
  rw [hf]

/-- **C102** A font without glyph entries has no keys. -/
theorem C102_no_glyphs (src : Nat) (ids : List Int) (s : Lookup) (h : Mirrors src ids s) (hn : 2001 ∉ ids) : s.glyphs = [] := by
  cases hl : s.glyphs with
  | nil => rfl
  | cons p l =>
    have := (h.entries p.2.entry).2 (by rw [hl]; simp)
    exact absurd (List.mem_of_getElem? this) hn

/-- **C102** `get_masters` gives one object for each master, with the indices in order. -/
theorem C102_masters (C : Codec D T) (f : FontObj D T) (n : Nat) (hn : f.vfb.ctx.num_masters = n) :
    ∃ l, f.call C .getMasters = (.ok (.masters l), f) ∧ l.length = n ∧ ∀ i : Nat, i < n → l[i]? = some (i : Int) := by
  refine ⟨_, rfl, ?_, ?_⟩
  · simp [hn]
  · intro i hi
    rw [hn]
    simp [hi]

/-! ### the keys -/

theorem mem_numbered {n i : Nat} : lit "#" ++ natDec (i + 1) ∈ numberedKeys n ↔ i + 1 < n := by
  cases n with
  | zero => simp [numberedKeys]
  | succ n =>
    simp only [numberedKeys, List.mem_cons, List.mem_map, List.mem_range]
    constructor
    · rintro (h | ⟨j, hj, h⟩)
      · exact absurd h (by simp [lit])
      · have := natDec_inj (List.append_cancel_left h)
        omega
    · intro h
      exact .inr ⟨i, by omega, rfl⟩

theorem freeSuffix_numbered (n fuel i : Nat) (hi : i + 1 ≤ n) (hf : n ≤ i + fuel) :
    freeSuffix (numberedKeys n) [] fuel (i + 1) = n := by
  induction fuel generalizing i with
  | zero => omega
  | succ fuel ih =>
    rw [freeSuffix, List.nil_append]
    by_cases h : i + 1 < n
    · rw [if_pos (mem_numbered.2 h)]
      exact ih (i + 1) (by omega) (by omega)
    · rw [if_neg (fun hm => h (mem_numbered.1 hm))]
      omega

theorem keyFor_numbered (n : Nat) : numberedKeys n ++ [keyFor (numberedKeys n) []] = numberedKeys (n + 1) := by
  cases n with
  | zero => rfl
  | succ n =>
    have hm : ([] : PyStr) ∈ numberedKeys (n + 1) := List.mem_cons_self
    unfold keyFor
    rw [if_pos hm, freeSuffix_numbered (n + 1) _ 0 (by omega) (by simp [numberedKeys])]
    simp [numberedKeys, List.range_succ]

theorem objLoop_keys (C : Codec D T) (ctx : Ctx) (src : Nat) (hC : C.glyphName (C.emptyGlyph ctx.num_masters) = []) (es : List (Entry D T))
    (i n : Nat) (name : Option PyStr) (s : Lookup) (hs : s.glyphs.map Prod.fst = numberedKeys n) :
    ∃ k, (objLoop C ctx src i es name s).2.2.1.glyphs.map Prod.fst = numberedKeys k := by
  induction es generalizing i n name s with
  | nil => exact ⟨n, hs⟩
  | cons e es ih =>
    rw [objLoop]
    by_cases h1 : e.id = 2001
    · rw [if_pos h1]
      exact ih _ (n + 1) _ _ (by
        simp only [List.map_append, List.map_cons, List.map_nil, hs, hC]
        exact keyFor_numbered n)
    · rw [if_neg h1]
      by_cases h2 : e.id = 2008 ∨ e.id = 2010 ∨ e.id = 1093
      · rw [if_pos h2]
        cases hd : e.decompile C ctx with
        | mk r q =>
          obtain ⟨e', err⟩ := q
          cases r with
          | error x => exact ⟨n, hs⟩
          | ok u => exact ih _ n _ _ (by rw [noteAux_keys]; exact hs)
      · rw [if_neg h2]
        exact ih _ n _ _ hs

theorem numberedKeys_length (n : Nat) : (numberedKeys n).length = n := by
  cases n <;> simp [numberedKeys]

end

/-- **C102** (Known defect) The keys are not the names of the glyphs in the file: whatever these are, the keys after the first lookup
are the empty name, `#1`, `#2` and so on. -/
theorem C102_keys (ops : AngleOps) (asm : AsmOps) (f : FontObj (Decompiled ops.Angle asm.Asm) (List MasterData)) (hf : f.look = {})
    (c : FontCall) (hc : looksUp c = true) :
    (f.call (vfbCodec ops asm) c).2.look.glyphs.map Prod.fst =
      numberedKeys (f.call (vfbCodec ops asm) c).2.look.glyphs.length := by
  have hp : ∃ k, (f.prepare (vfbCodec ops asm)).2.look.glyphs.map Prod.fst = numberedKeys k := by
    unfold FontObj.prepare
    rw [hf, if_pos rfl]
    exact objLoop_keys (vfbCodec ops asm) f.vfb.ctx f.reads rfl f.vfb.entries 0 0 none {} rfl
  obtain ⟨k, hk⟩ := hp
  have hl : k = (f.prepare (vfbCodec ops asm)).2.look.glyphs.length := by
    rw [← numberedKeys_length k, ← hk, List.length_map]
  have hcall : (f.call (vfbCodec ops asm) c).2 = (f.prepare (vfbCodec ops asm)).2 := by
    cases hpr : f.prepare (vfbCodec ops asm) with
    | mk r f' =>
      cases r with
      | error x => rw [lookup_fails _ f f' c x hc hpr]
      | ok u =>
        obtain ⟨a, h, _⟩ := lookup_answers _ f f' c hc hpr
        rw [h]
  rw [hcall, hk, ← hl]


/-! ### a font that meets the hypotheses -/

/-- two glyphs with links; the second one has them twice, and hinting options; hinting options of the font; end -/
def exampleMapped : FontObj (Decompiled exampleAngles.Angle exampleAsm.Asm) (List MasterData) :=
  { vfb := { header := .dec (headerDict 5), ctx := { num_masters := 1 }, entries :=
      [{ id := 2008, data := .dec (.links ⟨[], []⟩) }, { id := 2001, data := .bytes [1, 2] }, { id := 2008, data := .dec (.links ⟨[], []⟩) },
       { id := 2001, data := .bytes [] }, { id := 2008, data := .dec (.links ⟨[], []⟩) }, { id := 2010, data := .dec (.bitOptions ⟨[], []⟩) },
       { id := 1093, data := .dec (.bitOptions ⟨[], []⟩) }, { id := 2008, data := .dec (.links ⟨[], []⟩) }, { id := 2, data := .bytes [] }] } }

theorem exampleMapped_readable : ∀ e ∈ exampleMapped.vfb.entries, ¬ Unreadable (vfbCodec exampleAngles exampleAsm) exampleMapped.vfb.ctx e := by
  intro e he
  simp only [exampleMapped, List.mem_cons, List.not_mem_nil, or_false] at he
  rintro ⟨h1, h2⟩
  rcases he with rfl | rfl | rfl | rfl | rfl | rfl | rfl | rfl | rfl <;> rcases h2 with h2 | ⟨b, x, h2, _⟩ <;> first | cases h2 | skip
  all_goals exact absurd h1 (by decide)

/-- the second glyph has the last of its links -/
example : ∃ f', exampleMapped.call (vfbCodec exampleAngles exampleAsm) (.items none) =
    (.ok (.items [([], ⟨0, 1, some 2, none⟩), (lit "#1", ⟨0, 3, some 7, some 5⟩)]), f') ∧ f'.look.psOptions = some (0, 6) ∧
    f'.look.order = [[], lit "#1"] := ⟨_, rfl, rfl, rfl⟩

example : ∃ a f', exampleMapped.call (vfbCodec exampleAngles exampleAsm) (.get (some 1) (lit "#1")) = (a, f') ∧
    Mirrors 0 (exampleMapped.vfb.entries.map fun e => e.id) f'.look ∧ Answers f'.look (.get (some 1) (lit "#1")) a :=
  C102_lookup _ exampleMapped rfl _ rfl exampleMapped_readable

/-- a font whose second glyph has links without data: only the first glyph will ever be found -/
example : ∃ x f', FontObj.call (vfbCodec exampleAngles exampleAsm)
      { vfb := { ctx := { num_masters := 1 }, entries := [{ id := 2001, data := .bytes [1, 2] }, { id := 2008 }, { id := 2001, data := .bytes [] }] } }
      (.keys none) = (.error x, f') ∧
    ∀ cs, List.Forall₂ (Answers f'.look) cs (f'.run (vfbCodec exampleAngles exampleAsm) cs).1 ∧ f'.look.order = [[]] :=
  ⟨_, _, rfl, fun cs => ⟨(C102_history _ _ (by decide) cs).2, rfl⟩⟩

end Verif.Props
