import Verif.Props.UfoSuccess
/-! C96: when the TrueType tables and commands of a font can be converted. -/
set_option autoImplicit false
namespace Verif.Props
open Verif Verif.Spec

section
variable {ops : AngleOps} {deg : ops.Angle → Rat} {asm : AsmOps} {fmt : Int → PyStr}

theorem one_fold {α β : Type} (f : β → α → Except PyErr β) (b : β) (a : α) : [a].foldlM f b = f b a := by
  rw [List.foldlM_cons]
  cases f b a <;> rfl

theorem okStems_exists (x : Except PyErr StemTables) (st : TtPart) :
    (∃ st', (x >>= fun s => Except.ok { st with stems := s }) = .ok st') ↔ ∃ s, x = .ok s := by
  rw [bind_exists]
  exact ⟨fun ⟨a, _, h, _⟩ => ⟨a, h⟩, fun ⟨a, h⟩ => ⟨a, _, h, rfl⟩⟩

theorem okZones_exists (x : Except PyErr ZoneTables) (st : TtPart) :
    (∃ st', (x >>= fun s => Except.ok { st with zones := s }) = .ok st') ↔ ∃ s, x = .ok s := by
  rw [bind_exists]
  exact ⟨fun ⟨a, _, h, _⟩ => ⟨a, h⟩, fun ⟨a, h⟩ => ⟨a, _, h, rfl⟩⟩

theorem typed_1255 {d : Decompiled ops.Angle asm.Asm} (hw : WellTyped ops asm (1255, some d)) : ∃ x, d = .ttZones x := by
  have h1 := hw _ d (show kindOf 1255 = some .ttZones from by decide +kernel) rfl
  cases d <;> first
    | (simp [Kind.cls] at h1; done)
    | exact ⟨_, rfl⟩

theorem typed_1273 {d : Decompiled ops.Angle asm.Asm} (hw : WellTyped ops asm (1273, some d)) : ∃ x, d = .ttDeltas x := by
  have h1 := hw _ d (show kindOf 1273 = some .ttDeltas from by decide +kernel) rfl
  cases d <;> first
    | (simp [Kind.cls] at h1; done)
    | exact ⟨_, rfl⟩

theorem typed_1268 {d : Decompiled ops.Angle asm.Asm} (hw : WellTyped ops asm (1268, some d)) : ∃ x, d = .ttPpems x := by
  have h1 := hw _ d (show kindOf 1268 = some .ttPpems from by decide +kernel) rfl
  cases d <;> first
    | (simp [Kind.cls] at h1; done)
    | exact ⟨_, rfl⟩

theorem typed_1524 {d : Decompiled ops.Angle asm.Asm} (hw : WellTyped ops asm (1524, some d)) : ∃ x, d = .ttPpems x := by
  have h1 := hw _ d (show kindOf 1524 = some .ttPpems1 from by decide +kernel) rfl
  cases d <;> first
    | (simp [Kind.cls] at h1; done)
    | exact ⟨_, rfl⟩

theorem typed_1269 {d : Decompiled ops.Angle asm.Asm} (hw : WellTyped ops asm (1269, some d)) : ∃ x, d = .ttStems x := by
  have h1 := hw _ d (show kindOf 1269 = some .ttStems from by decide +kernel) rfl
  cases d <;> first
    | (simp [Kind.cls] at h1; done)
    | exact ⟨_, rfl⟩

/-- an entry for stems or zones of the right type fails only if its table cannot be used -/
theorem ttEntry_exists {st : TtPart} {id : Int} {d : Decompiled ops.Angle asm.Asm} (hw : WellTyped ops asm (id, some d))
    {s : StemTables} {z : ZoneTables} (hs : (stemTable id d).toList.foldlM stemEntry st.stems = .ok s)
    (hz : (zoneTable id d).toList.foldlM zoneEffect st.zones = .ok z) : ∃ st', ttEntry ops asm st id d = .ok st' := by
  by_cases h1 : id = 1255
  · subst h1
    obtain ⟨x, rfl⟩ := typed_1255 hw
    change [Sum.inl x].foldlM zoneEffect st.zones = _ at hz
    rw [one_fold] at hz
    exact (okZones_exists _ st).2 ⟨_, hz⟩
  by_cases h2 : id = 1273
  · subst h2
    obtain ⟨x, rfl⟩ := typed_1273 hw
    change [Sum.inr x].foldlM zoneEffect st.zones = _ at hz
    rw [one_fold] at hz
    exact (okZones_exists _ st).2 ⟨_, hz⟩
  by_cases h3 : id = 1268
  · subst h3
    obtain ⟨x, rfl⟩ := typed_1268 hw
    change [StemEntry.ppms x].foldlM stemEntry st.stems = _ at hs
    rw [one_fold] at hs
    exact (okStems_exists _ st).2 ⟨_, hs⟩
  by_cases h4 : id = 1524
  · subst h4
    obtain ⟨x, rfl⟩ := typed_1524 hw
    change [StemEntry.ppms1 x].foldlM stemEntry st.stems = _ at hs
    rw [one_fold] at hs
    exact (okStems_exists _ st).2 ⟨_, hs⟩
  by_cases h5 : id = 1269
  · subst h5
    obtain ⟨x, rfl⟩ := typed_1269 hw
    change [StemEntry.stems x].foldlM stemEntry st.stems = _ at hs
    rw [one_fold] at hs
    exact (okStems_exists _ st).2 ⟨_, hs⟩
  unfold ttEntry
  rw [if_neg h1, if_neg h2, if_neg h3, if_neg h4, if_neg h5]
  exact ⟨_, rfl⟩

theorem ttStep_exists {o : BuildOpts} {g : GlyphPart ops.Angle asm.Asm} {st : TtPart} {e : FEntry ops asm} (hw : WellTyped ops asm e)
    {s : StemTables} {z : ZoneTables}
    (hs : (if e.1 ∈ skipKeys o then [] else (e.2.bind (stemTable e.1)).toList).foldlM stemEntry st.stems = .ok s)
    (hz : (if e.1 ∈ skipKeys o then [] else (e.2.bind (zoneTable e.1)).toList).foldlM zoneEffect st.zones = .ok z) :
    ∃ st', ttStep ops asm o g st e = .ok st' := by
  unfold ttStep
  by_cases hk : e.1 ∈ skipKeys o
  · rw [if_pos hk]; exact ⟨_, rfl⟩
  · rw [if_neg hk] at hs hz ⊢
    obtain ⟨id, d⟩ := e
    cases d with
    | none => exact ⟨_, rfl⟩
    | some d =>
      dsimp only at hs hz ⊢
      by_cases hg : id = 2001
      · rw [if_pos hg]; exact ⟨_, rfl⟩
      · rw [if_neg hg]
        exact ttEntry_exists hw hs hz

theorem foldlM_append_ok {α β : Type} {f : β → α → Except PyErr β} {l m : List α} {b c : β} (h : (l ++ m).foldlM f b = .ok c) :
    ∃ d, l.foldlM f b = .ok d ∧ m.foldlM f d = .ok c := by
  rw [List.foldlM_append] at h
  obtain ⟨a, r, h1, h2⟩ := bind_exists.1 ⟨_, h⟩
  rw [h1] at h
  exact ⟨a, h1, h⟩

/-- the glyphs and the TrueType tables can be built together if each can -/
theorem buildTt_exists {o : BuildOpts} {es : List (FEntry ops asm)} (hw : ∀ e ∈ es, WellTyped ops asm e) {gp : GlyphPart ops.Angle asm.Asm}
    {stems : StemTables} {zones : ZoneTables} (hg : buildGlyphs ops asm o es = .ok gp) (hs : StemsOf ops asm o es stems) (hz : ZonesOf ops asm o es zones) :
    ∃ tt, buildGlyphsTt ops asm o es = .ok (gp, tt) ∧ tt.stems = stems ∧ tt.zones = zones := by
  have key : ∀ (es : List (FEntry ops asm)) (g g' : GlyphPart ops.Angle asm.Asm) (t : TtPart) (s : StemTables) (z : ZoneTables),
      (∀ e ∈ es, WellTyped ops asm e) → es.foldlM (glyphStep ops asm o) g = .ok g' → (stemTablesOf ops asm o es).foldlM stemEntry t.stems = .ok s →
      (zoneTablesOf ops asm o es).foldlM zoneEffect t.zones = .ok z → ∃ t', es.foldlM (glyphTtStep ops asm o) (g, t) = .ok (g', t') := by
    intro es
    induction es with
    | nil => intro g g' t s z _ h1 _ _; cases h1; exact ⟨t, rfl⟩
    | cons e es ih =>
      intro g g' t s z hw h1 h2 h3
      rw [List.foldlM_cons] at h1 ⊢
      rw [stemTables_cons] at h2
      rw [zoneTables_cons] at h3
      obtain ⟨s1, a1, a2⟩ := foldlM_append_ok h2
      obtain ⟨z1, b1, b2⟩ := foldlM_append_ok h3
      obtain ⟨t1, ht⟩ := ttStep_exists (g := g) (hw e (by simp)) a1 b1
      obtain ⟨c1, c2⟩ := ttStep_tables ht
      rw [a1] at c1
      rw [b1] at c2
      cases c1
      cases c2
      cases hg : glyphStep ops asm o g e with
      | error er => rw [hg] at h1; cases h1
      | ok g1 =>
        rw [hg] at h1
        obtain ⟨t', h⟩ := ih g1 g' t1 s z (fun x hx => hw x (by simp [hx])) h1 a2 b2
        refine ⟨t', ?_⟩
        have : glyphTtStep ops asm o (g, t) e = .ok (g1, t1) := by
          unfold glyphTtStep
          dsimp only
          rw [hg, ht]
          rfl
        rw [this]
        exact h
  unfold buildGlyphs at hg
  cases hf : es.foldlM (glyphStep ops asm o) ⟨none, [], [], []⟩ with
  | error er => rw [hf] at hg; cases hg
  | ok g =>
    rw [hf] at hg
    cases hg
    obtain ⟨t, ht⟩ := key es _ _ noTt stems zones hw hf hs hz
    have e : buildGlyphsTt ops asm o es = .ok (lastGlyph ops asm g, ttGlyph (g.current.map BGlyph.name) t) := by
      unfold buildGlyphsTt
      rw [ht]
      rfl
    obtain ⟨-, q2, q3⟩ := buildTt_spec e
    exact ⟨_, e, Except.ok.inj (q2.symm.trans hs), Except.ok.inj (q3.symm.trans hz)⟩

/-! ### the names of the zones -/

theorem deltas_names {s s' : ZoneTables} {d : TTDeltas} (h : setZoneDeltas s d = .ok s') : s'.names = s.names := by
  unfold setZoneDeltas at h
  induction d generalizing s with
  | nil => cases h; rfl
  | cons x d ih =>
    rw [List.foldlM_cons] at h
    obtain ⟨a, r, h1, h2⟩ := bind_exists.1 ⟨_, h⟩
    rw [h1] at h
    rw [ih h]
    unfold setZoneDelta at h1
    obtain ⟨n, r1, h3, h4⟩ := bind_exists.1 ⟨_, h1⟩
    rw [h3] at h1
    replace h1 : (match dictGet s.zones n with
      | none => Except.error PyErr.key
      | some z => Except.ok { s with zones := dictSet s.zones n { z with delta := some (deltaDict x.2) } }) = Except.ok a := h1
    cases hz : dictGet s.zones n with
    | none => rw [hz] at h1; cases h1
    | some z => rw [hz] at h1; cases h1; rfl

/-- every glyph knows the names of the zones -/
def ZonesKnown (g : GlyphPart ops.Angle asm.Asm) (t : TtPart) : Prop :=
  (g.current ≠ none → t.current = t.zones.names) ∧ ∀ key, (dictGet g.masters key).isSome → dictGet t.captured key = some t.zones.names

theorem ttEntry_zoneNames {st st' : TtPart} {id : Int} {d : Decompiled ops.Angle asm.Asm} (h : ttEntry ops asm st id d = .ok st') (hi : id ≠ 1255) :
    st'.zones.names = st.zones.names := by
  have hz := (ttEntry_tables h).2.1
  unfold zoneTable at hz
  split at hz
  · rw [if_neg hi] at hz; exact congrArg ZoneTables.names (Except.ok.inj hz).symm
  · split at hz
    · change [Sum.inr _].foldlM zoneEffect st.zones = _ at hz
      rw [one_fold] at hz
      exact deltas_names hz
    · exact congrArg ZoneTables.names (Except.ok.inj hz).symm
  · exact congrArg ZoneTables.names (Except.ok.inj hz).symm

/-- filing the glyph under its key -/
theorem fileGlyph_keys (st : GlyphPart ops.Angle asm.Asm) (n : PyStr) :
    (dictGet (fileGlyph ops asm st).masters n).isSome → (dictGet st.masters n).isSome ∨ filedKey ops asm st = some n ∧ st.current ≠ none := by
  unfold fileGlyph filedKey
  cases hc : st.current with
  | none => exact .inl
  | some g =>
    dsimp only
    by_cases hk : (dictGet st.masters g.name).isSome
    · rw [if_pos hk, if_pos hk]
      cases hf : freeGlyphName st.masters g.name with
      | none => exact .inl
      | some m =>
        dsimp only
        rw [dictGet_dictSet]
        by_cases hm : m = n
        · intro _; exact .inr ⟨by rw [hm], by simp⟩
        · rw [if_neg hm]; exact .inl
    · rw [if_neg hk, if_neg hk]
      dsimp only
      rw [dictGet_dictSet]
      by_cases hm : g.name = n
      · intro _; exact .inr ⟨by rw [hm], by simp⟩
      · rw [if_neg hm]; exact .inl

theorem ttGlyph_named {key : Option PyStr} {g : GlyphPart ops.Angle asm.Asm} {t : TtPart} (h : ZonesKnown g t)
    {g' : GlyphPart ops.Angle asm.Asm} (hk : ∀ n, (dictGet g'.masters n).isSome → (dictGet g.masters n).isSome ∨ key = some n ∧ g.current ≠ none)
    (hc : key ≠ none → g.current ≠ none) : ZonesKnown g' (ttGlyph key t) := by
  refine ⟨fun _ => rfl, fun n hn => ?_⟩
  unfold ttGlyph
  dsimp only
  cases key with
  | none =>
    rcases hk n hn with h1 | ⟨h1, -⟩
    · exact h.2 n h1
    · cases h1
  | some k =>
    dsimp only
    rw [dictGet_dictSet]
    by_cases hkn : k = n
    · rw [if_pos hkn, h.1 (hc (by simp))]
    · rw [if_neg hkn]
      rcases hk n hn with h1 | ⟨h1, -⟩
      · exact h.2 n h1
      · cases h1; exact absurd rfl hkn

theorem filedKey_current {g : GlyphPart ops.Angle asm.Asm} (h : filedKey ops asm g ≠ none) : g.current ≠ none := by
  intro hc
  unfold filedKey at h
  rw [hc] at h
  exact h rfl

theorem glyphStep_masters {o : BuildOpts} {g g' : GlyphPart ops.Angle asm.Asm} {e : FEntry ops asm} (h : glyphStep ops asm o g e = .ok g') :
    (e.1 ∉ skipKeys o ∧ e.2 ≠ none ∧ e.1 = 2001 ∧ g'.masters = (fileGlyph ops asm g).masters) ∨
    (e.1 ∈ skipKeys o ∨ e.2 = none ∨ e.1 ≠ 2001) ∧ g'.masters = g.masters ∧ (g'.current = none ↔ g.current = none) := by
  unfold glyphStep at h
  by_cases hs : e.1 ∈ skipKeys o
  · rw [if_pos hs] at h; cases h; exact .inr ⟨.inl hs, rfl, .rfl⟩
  rw [if_neg hs] at h
  cases hd : e.2 with
  | none => rw [hd] at h; cases h; exact .inr ⟨.inr (.inl rfl), rfl, .rfl⟩
  | some d =>
    rw [hd] at h
    dsimp only at h
    by_cases he : e.1 = 2001
    · rw [if_pos he] at h
      refine .inl ⟨hs, by simp, he, ?_⟩
      cases d <;> first
        | (cases h; done)
        | skip
      rename_i x
      replace h : glyphEntry ops asm o g x = .ok g' := h
      unfold glyphEntry at h
      obtain ⟨a, r, h1, h2⟩ := bind_exists.1 ⟨_, h⟩
      rw [h1] at h
      cases h
      rfl
    · rw [if_neg he] at h
      refine .inr ⟨.inr (.inr he), ?_⟩
      cases hp : glyphPart ops asm e.1 d with
      | none => rw [hp] at h; cases h; exact ⟨rfl, .rfl⟩
      | some f =>
        rw [hp] at h
        dsimp only at h
        cases hc : g.current with
        | none => rw [hc] at h; cases h
        | some x =>
          rw [hc] at h
          replace h : (f x >>= fun y => Except.ok { g with current := some y }) = .ok g' := h
          obtain ⟨a, r, h1, h2⟩ := bind_exists.1 ⟨_, h⟩
          rw [h1] at h
          cases h
          exact ⟨rfl, by simp⟩

/-- nothing has been begun yet -/
def Untouched (g : GlyphPart ops.Angle asm.Asm) : Prop := g.current = none ∧ g.masters = []

theorem named_of_untouched {g : GlyphPart ops.Angle asm.Asm} {t : TtPart} (h : Untouched g) : ZonesKnown g t :=
  ⟨fun hc => absurd h.1 hc, fun key hk => by rw [h.2] at hk; cases hk⟩

theorem fold_named {o : BuildOpts} : ∀ (es : List (FEntry ops asm)) (g g' : GlyphPart ops.Angle asm.Asm) (t t' : TtPart), ZonesFirst ops asm es →
    (Untouched g ∨ ∀ e ∈ es, e.1 ≠ 1255) → ZonesKnown g t → es.foldlM (glyphTtStep ops asm o) (g, t) = .ok (g', t') → ZonesKnown g' t' := by
  intro es
  induction es with
  | nil => intro g g' t t' _ _ hn h; cases h; exact hn
  | cons e es ih =>
    intro g g' t t' hf hu hn h
    rw [List.foldlM_cons] at h
    obtain ⟨⟨g1, t1⟩, r, h1, h2⟩ := bind_exists.1 ⟨_, h⟩
    rw [h1] at h
    replace h : es.foldlM (glyphTtStep ops asm o) (g1, t1) = .ok (g', t') := h
    obtain ⟨hf1, hf2⟩ := List.pairwise_cons.1 hf
    unfold glyphTtStep at h1
    dsimp only at h1
    obtain ⟨g2, r2, h3, h4⟩ := bind_exists.1 ⟨_, h1⟩
    rw [h3] at h1
    replace h1 : (ttStep ops asm o g t e >>= fun t => Except.ok (g2, t)) = .ok (g1, t1) := h1
    obtain ⟨t2, r3, h5, h6⟩ := bind_exists.1 ⟨_, h1⟩
    rw [h5] at h1
    cases h1
    rcases glyphStep_masters h3 with ⟨q1, q2, q3, q4⟩ | ⟨q1, q2, q3⟩
    · refine ih g1 g' t1 t' hf2 (.inr fun x hx => hf1 x hx q3) ?_ h
      obtain ⟨d, hd⟩ := Option.ne_none_iff_exists'.1 q2
      unfold ttStep at h5
      rw [if_neg q1, hd] at h5
      dsimp only at h5
      rw [if_pos q3] at h5
      cases h5
      refine ttGlyph_named hn (fun n => ?_) filedKey_current
      rw [q4]
      exact fileGlyph_keys g n
    · have hu1 : Untouched g1 ∨ ∀ x ∈ es, x.1 ≠ 1255 := by
        rcases hu with hu | hu
        · exact .inl ⟨q3.2 hu.1, q2.trans hu.2⟩
        · exact .inr fun x hx => hu x (by simp [hx])
      refine ih g1 g' t1 t' hf2 hu1 ?_ h
      rcases hu with hu | hu
      · exact named_of_untouched ⟨q3.2 hu.1, q2.trans hu.2⟩
      · have same : t1.zones.names = t.zones.names ∧ t1.current = t.current ∧ t1.captured = t.captured := by
          unfold ttStep at h5
          by_cases hs : e.1 ∈ skipKeys o
          · rw [if_pos hs] at h5; cases h5; exact ⟨rfl, rfl, rfl⟩
          rw [if_neg hs] at h5
          cases hd : e.2 with
          | none => rw [hd] at h5; cases h5; exact ⟨rfl, rfl, rfl⟩
          | some d =>
            rw [hd] at h5
            dsimp only at h5
            have h2001 : e.1 ≠ 2001 := by
              rcases q1 with q1 | q1 | q1
              · exact absurd q1 hs
              · rw [hd] at q1; cases q1
              · exact q1
            rw [if_neg h2001] at h5
            exact ⟨ttEntry_zoneNames h5 (hu e (by simp)), (ttEntry_tables h5).2.2⟩
        unfold ZonesKnown
        rw [same.1, same.2.1, same.2.2, q2]
        exact ⟨fun hc => hn.1 fun hc' => hc (q3.2 hc'), hn.2⟩

/-- after all, every glyph knows the names of the zones -/
theorem buildTt_named {o : BuildOpts} {es : List (FEntry ops asm)} (hz : ZonesFirst ops asm es) {gp : GlyphPart ops.Angle asm.Asm} {tt : TtPart}
    (h : buildGlyphsTt ops asm o es = .ok (gp, tt)) {e : PyStr × BGlyph ops.Angle asm.Asm} (he : e ∈ gp.masters) :
    dictGet tt.captured e.1 = some tt.zones.names := by
  unfold buildGlyphsTt at h
  obtain ⟨⟨g, t⟩, r, h1, h2⟩ := bind_exists.1 ⟨_, h⟩
  rw [h1] at h
  cases h
  have hn := fold_named es _ _ _ _ hz (.inl ⟨rfl, rfl⟩) (named_of_untouched ⟨rfl, rfl⟩) h1
  refine (ttGlyph_named (g' := lastGlyph ops asm g) hn (fun n => ?_) (by simp)).2 e.1 ?_
  · unfold lastGlyph
    cases hc : g.current with
    | none => exact .inl
    | some x =>
      dsimp only
      rw [dictGet_dictSet]
      by_cases hm : x.name = n
      · intro _; exact .inr ⟨by simp [hm], by simp⟩
      · rw [if_neg hm]; exact .inl
  · cases hd : dictGet (lastGlyph ops asm g).masters e.1 with
    | some v => rfl
    | none => exact absurd (List.mem_map_of_mem (f := Prod.fst) he) (dictGet_none.1 hd)

end
end Verif.Props
