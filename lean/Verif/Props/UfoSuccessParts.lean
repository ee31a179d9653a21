import Verif.Props.UfoSuccessAll
/-! C96: when the stems, the zones and the axes of a font can be converted. -/
set_option autoImplicit false
namespace Verif.Props
open Verif Verif.Spec

theorem fitsAll_cons {α : Type} {fits : List α → α → Prop} (x : α) (l : List α) :
    FitsAll fits (x :: l) ↔ fits [] x ∧ FitsAll (fun pre => fits (x :: pre)) l := by
  constructor
  · intro h
    exact ⟨h [] x l rfl, fun pre y post e => h (x :: pre) y post (by rw [e]; rfl)⟩
  · rintro ⟨h1, h2⟩ pre y post e
    cases pre with
    | nil => cases e; exact h1
    | cons z pre =>
      simp only [List.cons_append, List.cons.injEq] at e
      obtain ⟨rfl, e⟩ := e
      exact h2 pre y post e

/-- a loop succeeds exactly if each step fits to what was before -/
theorem fold_fitsAll {α S : Type} {f : S → α → Except PyErr S} {fits : List α → α → Prop} {Inv : List α → S → Prop} (P : α → Prop)
    (step : ∀ pre st x, P x → Inv pre st → ((∃ st', f st x = .ok st') ↔ fits pre x) ∧ ∀ st', f st x = .ok st' → Inv (pre ++ [x]) st') :
    ∀ (l pre : List α) (st : S), (∀ x ∈ l, P x) → Inv pre st → ((∃ st', l.foldlM f st = .ok st') ↔ FitsAll (fun p => fits (pre ++ p)) l) := by
  intro l
  induction l with
  | nil =>
    intro pre st _ _
    refine ⟨fun _ p x q e => ?_, fun _ => ⟨st, rfl⟩⟩
    cases p <;> cases e
  | cons x l ih =>
    intro pre st hp hi
    obtain ⟨h1, h2⟩ := step pre st x (hp x (by simp)) hi
    rw [List.foldlM_cons, fitsAll_cons, bind_exists, List.append_nil]
    constructor
    · rintro ⟨st1, r, q1, q2⟩
      refine ⟨h1.1 ⟨st1, q1⟩, ?_⟩
      have := (ih (pre ++ [x]) st1 (fun y hy => hp y (by simp [hy])) (h2 st1 q1)).1 ⟨r, q2⟩
      simpa [List.append_assoc] using this
    · rintro ⟨q1, q2⟩
      obtain ⟨st1, q3⟩ := h1.2 q1
      obtain ⟨r, q4⟩ := (ih (pre ++ [x]) st1 (fun y hy => hp y (by simp [hy])) (h2 st1 q3)).2 (by simpa [List.append_assoc] using q2)
      exact ⟨st1, r, q3, q4⟩

/-! ### stems -/

theorem ppms1_exists : ∀ (d : List TTPpem) (ppms : List StemPpm),
    ((∃ r, d.foldlM addPpm1 ppms = .ok r) ↔ ∀ x ∈ d, InRange ppms.length x.stem ∧ (dictGet x.round 1).isSome) ∧
    ∀ r, d.foldlM addPpm1 ppms = .ok r → r.map StemPpm.stem = ppms.map StemPpm.stem := by
  intro d
  induction d with
  | nil => intro ppms; exact ⟨⟨fun _ => by simp, fun _ => ⟨_, rfl⟩⟩, fun r h => by cases h; rfl⟩
  | cons x d ih =>
    intro ppms
    have hstep : ((∃ r, addPpm1 ppms x = .ok r) ↔ InRange ppms.length x.stem ∧ (dictGet x.round 1).isSome) ∧
        ∀ r, addPpm1 ppms x = .ok r → r.map StemPpm.stem = ppms.map StemPpm.stem := by
      unfold addPpm1
      rw [← pyIndex_inRange]
      cases hp : pyIndex ppms x.stem with
      | error e =>
        refine ⟨⟨?_, ?_⟩, ?_⟩
        · rintro ⟨r, h⟩; cases h
        · rintro ⟨⟨r, h⟩, -⟩; cases h
        · intro r h; cases h
      | ok r =>
        rw [okBind]
        cases hr : dictGet x.round 1 with
        | none =>
          refine ⟨⟨?_, ?_⟩, ?_⟩
          · rintro ⟨r, h⟩; cases h
          · rintro ⟨-, h⟩; cases h
          · intro r h; cases h
        | some ppm =>
          dsimp only
          by_cases hd : (dictGet r.round (intDec ppm)).isSome
          · rw [if_pos hd]
            exact ⟨⟨fun _ => ⟨⟨_, rfl⟩, rfl⟩, fun _ => ⟨_, rfl⟩⟩, fun r h => by cases h; rfl⟩
          · rw [if_neg hd]
            refine ⟨⟨fun _ => ⟨⟨_, rfl⟩, rfl⟩, fun _ => ⟨_, rfl⟩⟩, fun r' h => ?_⟩
            cases h
            have hx : ppms[pyPos ppms.length x.stem]? = some r := by
              unfold pyIndex at hp
              unfold pyPos
              by_cases h0 : 0 ≤ x.stem
              · rw [if_pos h0] at hp ⊢
                cases hg : ppms[x.stem.toNat]? with
                | none => rw [hg] at hp; cases hp
                | some y => rw [hg] at hp; cases hp; rfl
              · rw [if_neg h0] at hp ⊢
                by_cases h1 : -(ppms.length : Int) ≤ x.stem
                · rw [if_pos h1] at hp
                  cases hg : ppms[((ppms.length : Int) + x.stem).toNat]? with
                  | none => rw [hg] at hp; cases hp
                  | some y => rw [hg] at hp; cases hp; rfl
                · rw [if_neg h1] at hp; cases hp
            rw [List.map_set]
            dsimp only
            refine List.ext_getElem? fun k => ?_
            rw [List.getElem?_set]
            by_cases hk : pyPos ppms.length x.stem = k
            · rw [if_pos hk]
              subst hk
              rw [List.getElem?_map, hx]
              simp [(List.getElem?_eq_some_iff.1 hx).1]
            · rw [if_neg hk]
    have hlen : ∀ r : List StemPpm, r.map StemPpm.stem = ppms.map StemPpm.stem → r.length = ppms.length := fun r h => by
      simpa using congrArg List.length h
    rw [List.foldlM_cons]
    constructor
    · rw [bind_exists]
      constructor
      · rintro ⟨a, r, q1, q2⟩ y hy
        rcases List.mem_cons.1 hy with rfl | hy
        · exact hstep.1.1 ⟨a, q1⟩
        · rw [← hlen a (hstep.2 a q1)]
          exact (ih a).1.1 ⟨r, q2⟩ y hy
      · intro h
        obtain ⟨a, q1⟩ := hstep.1.2 (h x (by simp))
        obtain ⟨r, q2⟩ := (ih a).1.2 fun y hy => by rw [hlen a (hstep.2 a q1)]; exact h y (by simp [hy])
        exact ⟨a, r, q1, q2⟩
    · intro r h
      obtain ⟨a, r', q1, q2⟩ := bind_exists.1 ⟨_, h⟩
      rw [q1] at h
      rw [(ih a).2 r h, hstep.2 a q1]

theorem dictGet_first {β : Type} (k : Int) (v : β) (l : List (Int × β)) : dictGet ((k, v) :: l) k = some v := by
  rw [dictGet, if_pos rfl]

theorem addStem_exists (s : DirStems) (i : Nat) (x : TTStem) :
    ((∃ r, addStem s (i, x) = .ok r) ↔ x.round ≠ [] ∧ (s.ppms.map StemPpm.stem)[i]? = some (i : Int)) ∧
    ∀ r, addStem s (i, x) = .ok r → r.ppms.map StemPpm.stem = s.ppms.map StemPpm.stem := by
  unfold addStem
  dsimp only
  cases hr : x.round with
  | nil =>
    refine ⟨⟨?_, ?_⟩, ?_⟩
    · rintro ⟨r, h⟩; cases h
    · rintro ⟨h, -⟩; exact absurd rfl h
    · intro r h; cases h
  | cons kv l =>
    obtain ⟨rk, rv⟩ := kv
    dsimp only
    rw [dictGet_first]
    dsimp only
    rw [List.getElem?_map]
    have hp : pyIndex s.ppms (i : Int) = match s.ppms[i]? with
        | some y => Except.ok y
        | none => Except.error PyErr.index := by
      unfold pyIndex
      rw [if_pos (by omega), Int.toNat_natCast]
      cases s.ppms[i]? <;> rfl
    rw [hp]
    cases hx : s.ppms[i]? with
    | none =>
      refine ⟨⟨?_, ?_⟩, ?_⟩
      · rintro ⟨r, h⟩; cases h
      · rintro ⟨-, h⟩; cases h
      · intro r h; cases h
    | some y =>
      dsimp only
      rw [okBind]
      by_cases hi : (i : Int) = y.stem
      · rw [if_pos hi]
        refine ⟨⟨fun _ => ⟨by simp, by simp [hi]⟩, fun _ => ⟨_, rfl⟩⟩, fun r h => ?_⟩
        cases h
        dsimp only
        rw [List.map_set]
        dsimp only
        refine List.ext_getElem? fun k => ?_
        rw [List.getElem?_set]
        by_cases hk : i = k
        · rw [if_pos hk]
          subst hk
          rw [List.getElem?_map, hx]
          simp [(List.getElem?_eq_some_iff.1 hx).1]
        · rw [if_neg hk]
      · rw [if_neg hi]
        refine ⟨⟨?_, ?_⟩, ?_⟩
        · rintro ⟨r, h⟩; cases h
        · rintro ⟨-, h⟩
          simp only [Option.map_some, Option.some.injEq] at h
          exact absurd h.symm hi
        · intro r h; cases h

theorem addStems_exists : ∀ (d : List TTStem) (k : Nat) (s : DirStems),
    ((∃ r, (enumFrom k d).foldlM addStem s = .ok r) ↔
      ∀ (i : Nat) x, d[i]? = some x → x.round ≠ [] ∧ (s.ppms.map StemPpm.stem)[k + i]? = some ((k + i : Nat) : Int)) ∧
    ∀ r, (enumFrom k d).foldlM addStem s = .ok r → r.ppms.map StemPpm.stem = s.ppms.map StemPpm.stem := by
  intro d
  induction d with
  | nil => intro k s; exact ⟨⟨fun _ => by simp, fun _ => ⟨_, rfl⟩⟩, fun r h => by cases h; rfl⟩
  | cons x d ih =>
    intro k s
    rw [enumFrom, List.foldlM_cons]
    obtain ⟨h1, h2⟩ := addStem_exists s k x
    constructor
    · rw [bind_exists]
      constructor
      · rintro ⟨a, r, q1, q2⟩ i y hy
        cases i with
        | zero => cases hy; exact h1.1 ⟨a, q1⟩
        | succ i =>
          have := (ih (k + 1) a).1.1 ⟨r, q2⟩ i y (by simpa using hy)
          rw [h2 a q1, show k + 1 + i = k + (i + 1) by omega] at this
          exact this
      · intro h
        obtain ⟨a, q1⟩ := h1.2 (h 0 x rfl)
        obtain ⟨r, q2⟩ := (ih (k + 1) a).1.2 fun i y hy => by
          rw [h2 a q1, show k + 1 + i = k + (i + 1) by omega]
          exact h (i + 1) y (by simpa using hy)
        exact ⟨a, r, q1, q2⟩
    · intro r h
      obtain ⟨a, r', q1, q2⟩ := bind_exists.1 ⟨_, h⟩
      rw [q1] at h
      rw [(ih (k + 1) a).2 r h, h2 a q1]

/-- the stem numbers so far -/
def StemInv (l : List StemEntry) (s : StemTables) : Prop :=
  s.h.ppms.map StemPpm.stem = declaredStems TTStems.ttStemsH l ∧ s.v.ppms.map StemPpm.stem = declaredStems TTStems.ttStemsV l

theorem declared_snoc (dir : TTStems TTPpem → List TTPpem) (l : List StemEntry) (t : StemEntry) (h : ∀ d, t ≠ .ppms d) :
    declaredStems dir (l ++ [t]) = declaredStems dir l := by
  unfold declaredStems
  rw [List.flatMap_append]
  cases t with
  | ppms d => exact absurd rfl (h d)
  | ppms1 d => simp
  | stems d => simp

theorem stem_step (pre : List StemEntry) (s : StemTables) (t : StemEntry) (hi : StemInv pre s) :
    ((∃ s', stemEntry s t = .ok s') ↔ StemTableFits pre t) ∧ ∀ s', stemEntry s t = .ok s' → StemInv (pre ++ [t]) s' := by
  have hlen : s.h.ppms.length = (declaredStems TTStems.ttStemsH pre).length ∧ s.v.ppms.length = (declaredStems TTStems.ttStemsV pre).length := by
    rw [← hi.1, ← hi.2]; simp
  cases t with
  | ppms d =>
    refine ⟨⟨fun _ => ⟨fun d h => (by cases h), fun d h => (by cases h)⟩, fun _ => ⟨_, rfl⟩⟩, fun s' h => ?_⟩
    cases h
    unfold StemInv declaredStems
    rw [List.flatMap_append, List.flatMap_append]
    constructor
    · simp only [addPpms, List.map_append, hi.1, declaredStems]
      simp
    · simp only [addPpms, List.map_append, hi.2, declaredStems]
      simp
  | ppms1 d =>
    have hh := ppms1_exists d.ttStemsH s.h.ppms
    have hv := ppms1_exists d.ttStemsV s.v.ppms
    rw [hlen.1] at hh
    rw [hlen.2] at hv
    have hf : StemTableFits pre (.ppms1 d) ↔ Ppms1Fit (declaredStems TTStems.ttStemsH pre) d.ttStemsH ∧ Ppms1Fit (declaredStems TTStems.ttStemsV pre) d.ttStemsV :=
      ⟨fun h => h.1 d rfl, fun h => ⟨fun d' e => (by cases e; exact h), fun d' e => (by cases e)⟩⟩
    rw [hf]
    unfold Ppms1Fit
    rw [← hh.1, ← hv.1]
    unfold stemEntry addPpms1
    dsimp only
    constructor
    · constructor
      · rintro ⟨s', h⟩
        obtain ⟨a, r, q1, q2⟩ := bind_exists.1 ⟨_, h⟩
        obtain ⟨a', r', q3, q4⟩ := bind_exists.1 ⟨_, q2⟩
        obtain ⟨x, -, q5, -⟩ := bind_exists.1 ⟨_, q1⟩
        obtain ⟨y, -, q6, -⟩ := bind_exists.1 ⟨_, q3⟩
        exact ⟨⟨x, q5⟩, y, q6⟩
      · rintro ⟨⟨x, q5⟩, y, q6⟩
        rw [q5, q6]
        exact ⟨_, rfl⟩
    · intro s' h
      obtain ⟨a, r, q1, q2⟩ := bind_exists.1 ⟨_, h⟩
      obtain ⟨a', r', q3, q4⟩ := bind_exists.1 ⟨_, q2⟩
      obtain ⟨x, -, q5, -⟩ := bind_exists.1 ⟨_, q1⟩
      obtain ⟨y, -, q6, -⟩ := bind_exists.1 ⟨_, q3⟩
      rw [q5, q6] at h
      cases h
      unfold StemInv
      rw [declared_snoc _ _ _ (fun d h => by cases h), declared_snoc _ _ _ (fun d h => by cases h)]
      exact ⟨(hh.2 x q5).trans hi.1, (hv.2 y q6).trans hi.2⟩
  | stems d =>
    have hh := addStems_exists d.ttStemsH 0 s.h
    have hv := addStems_exists d.ttStemsV 0 s.v
    rw [hi.1] at hh
    rw [hi.2] at hv
    simp only [Nat.zero_add] at hh hv
    have hf : StemTableFits pre (.stems d) ↔ StemsFit (declaredStems TTStems.ttStemsH pre) d.ttStemsH ∧ StemsFit (declaredStems TTStems.ttStemsV pre) d.ttStemsV :=
      ⟨fun h => h.2 d rfl, fun h => ⟨fun d' e => (by cases e), fun d' e => (by cases e; exact h)⟩⟩
    rw [hf]
    unfold StemsFit
    rw [← hh.1, ← hv.1]
    unfold stemEntry addStems
    dsimp only
    constructor
    · constructor
      · rintro ⟨s', h⟩
        obtain ⟨a, r, q1, q2⟩ := bind_exists.1 ⟨_, h⟩
        obtain ⟨a', r', q3, q4⟩ := bind_exists.1 ⟨_, q2⟩
        exact ⟨⟨a, q1⟩, a', q3⟩
      · rintro ⟨⟨x, q5⟩, y, q6⟩
        rw [q5, q6]
        exact ⟨_, rfl⟩
    · intro s' h
      obtain ⟨a, r, q1, q2⟩ := bind_exists.1 ⟨_, h⟩
      obtain ⟨a', r', q3, q4⟩ := bind_exists.1 ⟨_, q2⟩
      rw [q1, q3] at h
      cases h
      unfold StemInv
      rw [declared_snoc _ _ _ (fun d h => by cases h), declared_snoc _ _ _ (fun d h => by cases h)]
      exact ⟨hh.2 a q1, hv.2 a' q3⟩

section
variable {ops : AngleOps} {deg : ops.Angle → Rat} {asm : AsmOps} {fmt : Int → PyStr}

/-- **C96** Exactly when the TrueType stems can be converted. -/
theorem C96_stems (o : BuildOpts) (es : List (FEntry ops asm)) :
    (∃ t, StemsOf ops asm o es t) ↔ FitsAll StemTableFits (stemTablesOf ops asm o es) := by
  unfold StemsOf
  have := fold_fitsAll (f := stemEntry) (fits := StemTableFits) (Inv := StemInv) (fun _ => True) (fun pre st x _ hi => stem_step pre st x hi)
    (stemTablesOf ops asm o es) [] ⟨⟨[], []⟩, ⟨[], []⟩⟩ (fun _ _ => trivial) ⟨rfl, rfl⟩
  simpa using this

/-! ### zones -/

theorem zoneSide_exists (side : PyStr) : ∀ (l : List TTZone) (s : ZoneTables), (dictGet s.names side).isSome →
    (∀ n ∈ s.all, (dictGet s.zones n).isSome) →
    ∃ s', l.foldlM (zoneSide side) s = .ok s' ∧ s'.all.length = s.all.length + l.length ∧ (∀ n ∈ s'.all, (dictGet s'.zones n).isSome) ∧
      ∀ k, (dictGet s.names k).isSome → (dictGet s'.names k).isSome := by
  intro l
  induction l with
  | nil => intro s _ h; exact ⟨s, rfl, rfl, h, fun k hk => hk⟩
  | cons z l ih =>
    intro s hs ha
    rw [List.foldlM_cons]
    obtain ⟨names, hn⟩ := Option.isSome_iff_exists.1 hs
    have e : zoneSide side s z = .ok
      { zones := dictSet s.zones z.name ⟨z.position, decide (side = lit "ttZonesT"), z.value, none⟩
        all := s.all ++ [z.name]
        names := dictSet s.names side (names ++ [z.name]) } := by
      unfold zoneSide
      rw [hn]
    have hk : ∀ k, (dictGet s.names k).isSome → (dictGet (dictSet s.names side (names ++ [z.name])) k).isSome := by
      intro k hk
      rw [dictGet_dictSet]
      split
      · rfl
      · exact hk
    rw [e, okBind]
    obtain ⟨s', h1, h2, h3, h4⟩ := ih
      { zones := dictSet s.zones z.name ⟨z.position, decide (side = lit "ttZonesT"), z.value, none⟩
        all := s.all ++ [z.name]
        names := dictSet s.names side (names ++ [z.name]) } (hk side hs) (by
      intro n hm
      dsimp only at hm ⊢
      rw [dictGet_dictSet]
      split
      · rfl
      · rename_i hne
        rcases List.mem_append.1 hm with hm | hm
        · exact ha n hm
        · rw [List.mem_singleton] at hm
          exact absurd hm.symm hne)
    exact ⟨s', h1, by rw [h2]; simp; omega, h3, fun k hk' => h4 k (hk k hk')⟩

/-- the zones so far -/
def ZoneInv (l : List (TTZones ⊕ TTDeltas)) (s : ZoneTables) : Prop := s.all.length = zoneCount l ∧ ∀ n ∈ s.all, (dictGet s.zones n).isSome

theorem zoneDeltas_exists : ∀ (d : TTDeltas) (s : ZoneTables), (∀ n ∈ s.all, (dictGet s.zones n).isSome) →
    ((∃ s', setZoneDeltas s d = .ok s') ↔ ∀ x ∈ d, InRange s.all.length x.1) ∧
    ∀ s', setZoneDeltas s d = .ok s' → s'.all = s.all ∧ ∀ n ∈ s'.all, (dictGet s'.zones n).isSome := by
  unfold setZoneDeltas
  intro d
  induction d with
  | nil => intro s ha; exact ⟨⟨fun _ => by simp, fun _ => ⟨_, rfl⟩⟩, fun s' h => by cases h; exact ⟨rfl, ha⟩⟩
  | cons x d ih =>
    intro s ha
    have hstep : ((∃ s', setZoneDelta s x = .ok s') ↔ InRange s.all.length x.1) ∧
        ∀ s', setZoneDelta s x = .ok s' → s'.all = s.all ∧ ∀ n ∈ s'.all, (dictGet s'.zones n).isSome := by
      unfold setZoneDelta
      rw [← pyIndex_inRange]
      cases hp : pyIndex s.all x.1 with
      | error e =>
        refine ⟨⟨?_, ?_⟩, ?_⟩
        · rintro ⟨r, h⟩; cases h
        · rintro ⟨r, h⟩; cases h
        · intro r h; cases h
      | ok n =>
        rw [okBind]
        have hm : n ∈ s.all := by
          unfold pyIndex at hp
          split at hp
          · split at hp
            · cases hp; exact List.mem_of_getElem? (by assumption)
            · cases hp
          · split at hp
            · split at hp
              · cases hp; exact List.mem_of_getElem? (by assumption)
              · cases hp
            · cases hp
        obtain ⟨z, hz⟩ := Option.isSome_iff_exists.1 (ha n hm)
        rw [hz]
        refine ⟨⟨fun _ => ⟨_, rfl⟩, fun _ => ⟨_, rfl⟩⟩, fun s' h => ?_⟩
        cases h
        refine ⟨rfl, fun m hm => ?_⟩
        dsimp only
        rw [dictGet_dictSet]
        split
        · rfl
        · exact ha m hm
    rw [List.foldlM_cons]
    constructor
    · rw [bind_exists]
      constructor
      · rintro ⟨a, r, q1, q2⟩ y hy
        rcases List.mem_cons.1 hy with rfl | hy
        · exact hstep.1.1 ⟨a, q1⟩
        · rw [← (hstep.2 a q1).1]
          exact (ih a (hstep.2 a q1).2).1.1 ⟨r, q2⟩ y hy
      · intro h
        obtain ⟨a, q1⟩ := hstep.1.2 (h x (by simp))
        obtain ⟨r, q2⟩ := (ih a (hstep.2 a q1).2).1.2 fun y hy => by rw [(hstep.2 a q1).1]; exact h y (by simp [hy])
        exact ⟨a, r, q1, q2⟩
    · intro r h
      obtain ⟨a, r', q1, q2⟩ := bind_exists.1 ⟨_, h⟩
      rw [q1] at h
      obtain ⟨e1, e2⟩ := (ih a (hstep.2 a q1).2).2 r h
      exact ⟨e1.trans (hstep.2 a q1).1, e2⟩

theorem zone_step (pre : List (TTZones ⊕ TTDeltas)) (s : ZoneTables) (t : TTZones ⊕ TTDeltas) (hi : ZoneInv pre s) :
    ((∃ s', Sum.elim (setZones s) (setZoneDeltas s) t = .ok s') ↔ ZoneTableFits pre t) ∧
    ∀ s', Sum.elim (setZones s) (setZoneDeltas s) t = .ok s' → ZoneInv (pre ++ [t]) s' := by
  have hcount : ∀ t, zoneCount (pre ++ [t]) = zoneCount pre + zoneCount [t] := by
    intro t
    unfold zoneCount
    rw [List.map_append, List.sum_append]
  cases t with
  | inl d =>
    rw [Sum.elim_inl]
    have hf : ZoneTableFits pre (.inl d) ↔ d.ttZonesB.isSome ∧ d.ttZonesT.isSome :=
      ⟨fun h => h.1 d rfl, fun h => ⟨fun d' e => (by cases e; exact h), fun d' e => (by cases e)⟩⟩
    rw [hf]
    unfold setZones
    cases hb : d.ttZonesB with
    | none =>
      refine ⟨⟨?_, ?_⟩, ?_⟩
      · rintro ⟨r, h⟩; cases h
      · rintro ⟨h, -⟩; cases h
      · intro r h; cases h
    | some b =>
      rw [zonesOf, okBind]
      cases ht : d.ttZonesT with
      | none =>
        refine ⟨⟨?_, ?_⟩, ?_⟩
        · rintro ⟨r, h⟩; cases h
        · rintro ⟨-, h⟩; cases h
        · intro r h; cases h
      | some t =>
        rw [zonesOf, okBind]
        obtain ⟨s1, a1, a2, a3, a4⟩ := zoneSide_exists (lit "ttZonesB") b { s with names := [(lit "ttZonesT", []), (lit "ttZonesB", [])] }
          (show (dictGet [(lit "ttZonesT", ([] : List PyStr)), (lit "ttZonesB", [])] (lit "ttZonesB")).isSome = true by decide) hi.2
        obtain ⟨s2, b1, b2, b3, b4⟩ := zoneSide_exists (lit "ttZonesT") t s1 (a4 _ (show (dictGet [(lit "ttZonesT", ([] : List PyStr)), (lit "ttZonesB", [])] (lit "ttZonesT")).isSome = true by decide)) a3
        rw [a1, okBind, b1]
        refine ⟨⟨fun _ => ⟨rfl, rfl⟩, fun _ => ⟨_, rfl⟩⟩, fun s' h => ?_⟩
        cases h
        refine ⟨?_, b3⟩
        rw [b2, a2, hcount]
        have := hi.1
        simp only [zoneCount, List.map_cons, List.map_nil, hb, ht, Option.getD_some, List.sum_cons, List.sum_nil] at this ⊢
        omega
  | inr d =>
    rw [Sum.elim_inr]
    have hf : ZoneTableFits pre (.inr d) ↔ ∀ x ∈ d, InRange (zoneCount pre) x.1 :=
      ⟨fun h => h.2 d rfl, fun h => ⟨fun d' e => (by cases e), fun d' e => (by cases e; exact h)⟩⟩
    obtain ⟨h1, h2⟩ := zoneDeltas_exists d s hi.2
    rw [hf, ← hi.1, h1]
    refine ⟨.rfl, fun s' h => ?_⟩
    obtain ⟨e1, e2⟩ := h2 s' h
    exact ⟨by rw [e1, hi.1, hcount]; rfl, e2⟩

/-- **C96** Exactly when the TrueType zones can be converted. -/
theorem C96_zones (o : BuildOpts) (es : List (FEntry ops asm)) :
    (∃ t, ZonesOf ops asm o es t) ↔ FitsAll ZoneTableFits (zoneTablesOf ops asm o es) := by
  unfold ZonesOf
  have := fold_fitsAll (f := fun s d => Sum.elim (setZones s) (setZoneDeltas s) d) (fits := ZoneTableFits) (Inv := ZoneInv) (fun _ => True)
    (fun pre st x _ hi => zone_step pre st x hi) (zoneTablesOf ops asm o es) [] ⟨[], [], []⟩ (fun _ _ => trivial) ⟨rfl, by simp⟩
  simpa using this

end
end Verif.Props
