import Verif.Spec.Commands
import Verif.Props.Tth
import Verif.Props.UfoSuccessParts
/-! C97: exactly which TrueType hinting can be exported by `vfb2tth`. -/
set_option autoImplicit false
namespace Verif.Props
open Verif Verif.Spec

/-! ## instructions -/

theorem stemPart_iff {names : List PyStr} {params : List (PyStr × Int)} :
    (∃ a, StemPart names params a) ↔ ∀ s, dictGet params (lit "stem") = some s → 0 ≤ s → names ≠ [] := by
  constructor
  · rintro ⟨a, ha⟩ s hs h0 rfl
    rcases ha with ⟨h, -⟩ | ⟨s', h, h2⟩
    · rw [h] at hs; cases hs
    · rw [h] at hs; cases hs
      rcases h2 with ⟨h2, -⟩ | ⟨h2, -⟩ | ⟨k, -, x, hx, -⟩
      · omega
      · omega
      · simp at hx
  · intro h
    cases hs : dictGet params (lit "stem") with
    | none => exact ⟨[], .inl ⟨hs, rfl⟩⟩
    | some s =>
      by_cases h1 : s = -1
      · exact ⟨[], .inr ⟨s, hs, .inl ⟨h1, rfl⟩⟩⟩
      by_cases h2 : s ≤ -2
      · exact ⟨_, .inr ⟨s, hs, .inr (.inl ⟨h2, rfl⟩)⟩⟩
      have hne := h s hs (by omega)
      have hl : 0 < names.length := List.length_pos_iff.2 hne
      obtain ⟨x, hx⟩ : ∃ x, names[if s.toNat < names.length then s.toNat else 0]? = some x := by
        split
        · exact ⟨_, List.getElem?_eq_getElem (by assumption)⟩
        · exact ⟨_, List.getElem?_eq_getElem hl⟩
      exact ⟨_, .inr ⟨s, hs, .inr (.inr ⟨s.toNat, by omega, x, hx, rfl⟩)⟩⟩

/-- what an environment must provide is the numbers of zones and stems only -/
theorem complete_usable {env : TthEnv} {top bottom : Nat} {stems : TTStems TTStem} {i : Instruction}
    (hz : ∀ (b : Bool) (z : Int), (∃ x, env.zone (if b then lit "ttZonesB" else lit "ttZonesT") z = .ok x) ↔ 0 ≤ z ∧ z < ((if b then bottom else top : Nat) : Int))
    (hH : env.stemsH = [] ↔ stems.ttStemsH = []) (hV : env.stemsV = [] ↔ stems.ttStemsV = []) :
    Spec.Complete env i ↔ Usable top bottom stems i := by
  unfold Spec.Complete Usable
  refine exists_congr fun code => exists_congr fun kind => ?_
  rw [show (∃ rest, (i.cmd, code, kind) ∈ tthTable ∧ (∀ x ∈ tthPoints kind, ∃ p, dictGet i.params x.2 = some p) ∧ TthRest env i.params kind rest) ↔
    (i.cmd, code, kind) ∈ tthTable ∧ (∀ x ∈ tthPoints kind, (dictGet i.params x.2).isSome) ∧ ∃ rest, TthRest env i.params kind rest by
    simp only [Option.isSome_iff_exists]
    constructor
    · rintro ⟨r, a, b, c⟩; exact ⟨a, b, r, c⟩
    · rintro ⟨a, b, r, c⟩; exact ⟨r, a, b, c⟩]
  refine and_congr_right fun _ => and_congr_right fun _ => ?_
  cases kind with
  | zone b =>
    simp only [TthRest]
    constructor
    · rintro ⟨rest, z, x, h1, h2, -⟩
      refine ⟨fun b' e => ?_, fun _ _ e => (by cases e), fun e => (by cases e)⟩
      cases e
      exact ⟨z, h1, (hz b z).1 ⟨x, h2⟩⟩
    · rintro ⟨h, -, -⟩
      obtain ⟨z, h1, h2⟩ := h b rfl
      obtain ⟨x, hx⟩ := (hz b z).2 h2
      exact ⟨_, z, x, h1, hx, rfl⟩
  | align => simp [TthRest]
  | interpolate => simp [TthRest]
  | link h =>
    simp only [TthRest]
    have hne : (if h = true then env.stemsH else env.stemsV) ≠ [] ↔ (if h = true then stems.ttStemsH else stems.ttStemsV) ≠ [] := by
      cases h
      · exact not_congr hV
      · exact not_congr hH
    constructor
    · rintro ⟨rest, a, ha, -⟩
      refine ⟨fun _ e => (by cases e), fun h' s e hs h0 => ?_, fun e => (by cases e)⟩
      cases e
      exact hne.1 (stemPart_iff.1 ⟨a, ha⟩ s hs h0)
    · rintro ⟨-, h2, -⟩
      obtain ⟨a, ha⟩ := stemPart_iff.2 fun s hs h0 => hne.2 (h2 h s rfl hs h0)
      exact ⟨_, a, ha, rfl⟩
  | delta =>
    simp only [TthRest]
    constructor
    · rintro ⟨rest, s, a, b, h1, h2, h3, -⟩
      refine ⟨fun _ e => (by cases e), fun _ _ e => (by cases e), fun _ k hk => ?_⟩
      simp only [List.mem_cons, List.not_mem_nil, or_false] at hk
      rcases hk with rfl | rfl | rfl
      · rw [h1]; rfl
      · rw [h2]; rfl
      · rw [h3]; rfl
    · rintro ⟨-, -, h⟩
      have h := h trivial
      obtain ⟨s, h1⟩ := Option.isSome_iff_exists.1 (h (lit "shift") (by simp))
      obtain ⟨a, h2⟩ := Option.isSome_iff_exists.1 (h (lit "ppm1") (by simp))
      obtain ⟨b, h3⟩ := Option.isSome_iff_exists.1 (h (lit "ppm2") (by simp))
      exact ⟨_, s, a, b, h1, h2, h3, rfl⟩

/-! ## the state -/

theorem setZoneNames_dom (names : List PyStr) (d : List (Int × PyStr)) (k : Int) :
    (dictGet (setZoneNames d names) k).isSome ↔ (dictGet d k).isSome ∨ 0 ≤ k ∧ k < (names.length : Int) := by
  unfold setZoneNames
  have key : ∀ (l : List PyStr) (n : Nat) (d : List (Int × PyStr)),
      (dictGet ((enumFrom n l).foldl (fun d x => dictSet d (x.1 : Int) x.2) d) k).isSome ↔ (dictGet d k).isSome ∨ (n : Int) ≤ k ∧ k < (n + l.length : Int) := by
    intro l
    induction l with
    | nil => intro n d; simp [enumFrom]; try omega
    | cons x l ih =>
      intro n d
      rw [enumFrom, List.foldl_cons, ih (n + 1), dictGet_dictSet, List.length_cons]
      by_cases h : (n : Int) = k
      · rw [if_pos h]; simp only [Option.isSome_some, true_or, true_iff]; right; omega
      · rw [if_neg h]
        constructor
        · rintro (h1 | h1)
          · exact .inl h1
          · exact .inr ⟨by omega, by omega⟩
        · rintro (h1 | h1)
          · exact .inl h1
          · exact .inr ⟨by omega, by omega⟩
  simpa using key names 0 d

theorem withNames_length {α : Type} (name : α → PyStr) (l : List α) : ∀ used, (withNames name used l).1.length = l.length := by
  induction l with
  | nil => intro _; rfl
  | cons x l ih => intro used; simp [withNames, ih]

theorem extractPpems_keys (l : List TTPpem) (t : List (Int × List (Int × Int))) (k : Int) :
    (dictGet (extractPpems t l) k).isSome ↔ (dictGet t k).isSome ∨ ∃ x ∈ l, x.stem = k := by
  unfold extractPpems
  induction l generalizing t with
  | nil => simp
  | cons x l ih =>
    rw [List.foldl_cons, ih, dictGet_dictSet]
    by_cases h : x.stem = k
    · simp [h]
    · simp [h]

/-- what the export has collected from the entries `pre` -/
structure Collected (pre : List TthEntry) (s : TthData) : Prop where
  stems : s.stems = (pre.filterMap asStems).getLast?.map extractStems
  zones : s.zones = ((pre.filterMap asZones).getLast?).bind fun z => (extractZones TthData.empty z).zones
  deltas : s.deltas = (pre.filterMap asDeltas).getLast?
  top : ∀ k, (dictGet s.zoneT k).isSome ↔ 0 ≤ k ∧ k < (mostZones TTZones.ttZonesT pre : Int)
  bottom : ∀ k, (dictGet s.zoneB k).isSome ↔ 0 ≤ k ∧ k < (mostZones TTZones.ttZonesB pre : Int)
  roundV : ∀ k, (dictGet s.roundV k).isSome ↔ ∃ p ∈ pre.filterMap asPpems, ∃ x ∈ p.ttStemsV, x.stem = k
  roundH : ∀ k, (dictGet s.roundH k).isSome ↔ ∃ p ∈ pre.filterMap asPpems, ∃ x ∈ p.ttStemsH, x.stem = k

theorem collected_nil : Collected [] TthData.empty where
  stems := rfl
  zones := rfl
  deltas := rfl
  top k := by simp [TthData.empty, dictGet, mostZones]
  bottom k := by simp [TthData.empty, dictGet, mostZones]
  roundV k := by simp [TthData.empty, dictGet]
  roundH k := by simp [TthData.empty, dictGet]

theorem mostZones_snoc (side : TTZones → Option (List TTZone)) (pre : List TthEntry) (e : TthEntry) :
    mostZones side (pre ++ [e]) = match asZones e with
      | none => mostZones side pre
      | some z => max (mostZones side pre) ((side z).getD []).length := by
  unfold mostZones
  rw [List.filterMap_append]
  cases h : asZones e with
  | none => simp [h]
  | some z =>
    simp only [h, List.filterMap_cons, List.filterMap_nil, List.map_append, List.map_cons, List.map_nil, List.foldr_append, List.foldr_cons, List.foldr_nil]
    generalize (pre.filterMap asZones).map (fun z => ((side z).getD []).length) = l
    generalize ((side z).getD []).length = n
    induction l with
    | nil => simp
    | cons a l ih => simp only [List.foldr_cons, ih]; omega

/-- an entry that changes none of the tables -/
theorem Collected.same {pre : List TthEntry} {s s' : TthData} {e : TthEntry} (h : Collected pre s) (h1 : asStems e = none) (h2 : asZones e = none)
    (h3 : asDeltas e = none) (h4 : asPpems e = none) (e1 : s'.stems = s.stems) (e2 : s'.zones = s.zones) (e3 : s'.deltas = s.deltas)
    (e4 : s'.zoneT = s.zoneT) (e5 : s'.zoneB = s.zoneB) (e6 : s'.roundV = s.roundV) (e7 : s'.roundH = s.roundH) : Collected (pre ++ [e]) s' where
  stems := by rw [e1, h.stems]; simp [List.filterMap_append, h1]
  zones := by rw [e2, h.zones]; simp [List.filterMap_append, h2]
  deltas := by rw [e3, h.deltas]; simp [List.filterMap_append, h3]
  top k := by rw [e4, h.top, mostZones_snoc, h2]
  bottom k := by rw [e5, h.bottom, mostZones_snoc, h2]
  roundV k := by rw [e6, h.roundV]; simp [List.filterMap_append, h4]
  roundH k := by rw [e7, h.roundH]; simp [List.filterMap_append, h4]

theorem collected_step {pre : List TthEntry} {s s' : TthData} {e : TthEntry} (h : Collected pre s) (he : tthEntry s e = .ok s') : Collected (pre ++ [e]) s' := by
  cases e with
  | glyph n t =>
    obtain ⟨g, rfl⟩ := extractGlyph_keeps he
    exact h.same rfl rfl rfl rfl rfl rfl rfl rfl rfl rfl rfl
  | ppems1 d =>
    simp only [tthEntry] at he
    split at he
    · cases he; exact h.same rfl rfl rfl rfl rfl rfl rfl rfl rfl rfl rfl
    · cases he
  | gasp l => cases he; exact h.same rfl rfl rfl rfl rfl rfl rfl rfl rfl rfl rfl
  | ttinfo a b => cases he; exact h.same rfl rfl rfl rfl rfl rfl rfl rfl rfl rfl rfl
  | num k v => cases he; exact h.same rfl rfl rfl rfl rfl rfl rfl rfl rfl rfl rfl
  | other => cases he; exact h.same rfl rfl rfl rfl rfl rfl rfl rfl rfl rfl rfl
  | ppems d =>
    cases he
    exact {
      stems := by rw [show _ = s.stems from rfl, h.stems]; simp [List.filterMap_append, asStems]
      zones := by rw [show _ = s.zones from rfl, h.zones]; simp [List.filterMap_append, asZones]
      deltas := by rw [show _ = s.deltas from rfl, h.deltas]; simp [List.filterMap_append, asDeltas]
      top := fun k => by rw [mostZones_snoc]; exact h.top k
      bottom := fun k => by rw [mostZones_snoc]; exact h.bottom k
      roundV := fun k => by
        dsimp only
        rw [extractPpems_keys, h.roundV, List.filterMap_append]
        simp [asPpems, or_and_right, exists_or]
      roundH := fun k => by
        dsimp only
        rw [extractPpems_keys, h.roundH, List.filterMap_append]
        simp [asPpems, or_and_right, exists_or] }
  | stems d =>
    cases he
    exact {
      stems := by simp [List.filterMap_append, asStems]
      zones := by rw [show _ = s.zones from rfl, h.zones]; simp [List.filterMap_append, asZones]
      deltas := by rw [show _ = s.deltas from rfl, h.deltas]; simp [List.filterMap_append, asDeltas]
      top := fun k => by rw [mostZones_snoc]; exact h.top k
      bottom := fun k => by rw [mostZones_snoc]; exact h.bottom k
      roundV := fun k => by rw [show _ = s.roundV from rfl, h.roundV]; simp [List.filterMap_append, asPpems]
      roundH := fun k => by rw [show _ = s.roundH from rfl, h.roundH]; simp [List.filterMap_append, asPpems] }
  | deltas d =>
    cases he
    exact {
      stems := by rw [show _ = s.stems from rfl, h.stems]; simp [List.filterMap_append, asStems]
      zones := by rw [show _ = s.zones from rfl, h.zones]; simp [List.filterMap_append, asZones]
      deltas := by simp [List.filterMap_append, asDeltas]
      top := fun k => by rw [mostZones_snoc]; exact h.top k
      bottom := fun k => by rw [mostZones_snoc]; exact h.bottom k
      roundV := fun k => by rw [show _ = s.roundV from rfl, h.roundV]; simp [List.filterMap_append, asPpems]
      roundH := fun k => by rw [show _ = s.roundH from rfl, h.roundH]; simp [List.filterMap_append, asPpems] }
  | zones z =>
    cases he
    exact {
      stems := by rw [show (extractZones s z).stems = s.stems from rfl, h.stems]; simp [List.filterMap_append, asStems]
      zones := by simp [List.filterMap_append, asZones, extractZones]
      deltas := by rw [show (extractZones s z).deltas = s.deltas from rfl, h.deltas]; simp [List.filterMap_append, asDeltas]
      top := fun k => by
        rw [mostZones_snoc]
        unfold extractZones
        dsimp only [asZones]
        rw [setZoneNames_dom, h.top, List.length_map, withNames_length]
        have : ∀ a b : Nat, ((max a b : Nat) : Int) = if (a : Int) ≤ b then (b : Int) else a := by intro a b; split <;> omega
        rw [this]
        split <;> omega
      bottom := fun k => by
        rw [mostZones_snoc]
        unfold extractZones
        dsimp only [asZones]
        rw [setZoneNames_dom, h.bottom, List.length_map, withNames_length]
        have : ∀ a b : Nat, ((max a b : Nat) : Int) = if (a : Int) ≤ b then (b : Int) else a := by intro a b; split <;> omega
        rw [this]
        split <;> omega
      roundV := fun k => by rw [show (extractZones s z).roundV = s.roundV from rfl, h.roundV]; simp [List.filterMap_append, asPpems]
      roundH := fun k => by rw [show (extractZones s z).roundH = s.roundH from rfl, h.roundH]; simp [List.filterMap_append, asPpems] }

theorem dictZone_iff {T B : List (Int × PyStr)} {side : PyStr} {k : Int} :
    (∃ x, dictZone T B side k = .ok x) ↔ (dictGet (if side = lit "ttZonesT" then T else B) k).isSome := by
  unfold dictZone
  cases dictGet (if side = lit "ttZonesT" then T else B) k with
  | none =>
    constructor
    · rintro ⟨_, h⟩; cases h
    · intro h; cases h
  | some n => exact ⟨fun _ => rfl, fun _ => ⟨n, rfl⟩⟩

theorem entry_fits {pre : List TthEntry} {s : TthData} {e : TthEntry} (h : Collected pre s) :
    (∃ s', tthEntry s e = .ok s') ↔ TthFits pre e := by
  unfold TthFits
  cases e with
  | ppems1 d =>
    simp only [tthEntry]
    constructor
    · rintro ⟨s', hs⟩
      refine ⟨fun d' e => ?_, fun _ _ e => (by cases e)⟩
      cases e
      by_cases h1 : d.ttStemsV = [] ∧ d.ttStemsH = []
      · exact h1
      · rw [if_neg h1] at hs; cases hs
    · rintro ⟨h1, -⟩
      exact ⟨s, if_pos (h1 d rfl)⟩
  | glyph n t =>
    simp only [tthEntry, extractGlyph]
    cases t with
    | none => exact ⟨fun _ => ⟨fun _ e => (by cases e), fun _ _ e => (by cases e)⟩, fun _ => ⟨s, rfl⟩⟩
    | some is =>
    cases is with
    | nil => exact ⟨fun _ => ⟨fun _ e => (by cases e), fun _ _ e hn => (by cases e; exact absurd rfl hn)⟩, fun _ => ⟨s, rfl⟩⟩
    | cons i is =>
    rw [h.stems]
    cases hl : (pre.filterMap asStems).getLast? with
    | none =>
      constructor
      · rintro ⟨s', hs⟩; cases hs
      · rintro ⟨-, h2⟩
        obtain ⟨-, s', hs', -⟩ := h2 n (i :: is) rfl (by simp)
        cases hs'
    | some st =>
    dsimp only [Option.map_some]
    have hu : ∀ j, Spec.Complete ⟨dictZone s.zoneT s.zoneB, (extractStems st).2.map TthStem.name, (extractStems st).1.map TthStem.name⟩ j ↔
        Usable (mostZones TTZones.ttZonesT pre) (mostZones TTZones.ttZonesB pre) st j := by
      intro j
      apply complete_usable
      · intro b z
        dsimp only
        rw [dictZone_iff]
        cases b
        · simp only [Bool.false_eq_true, if_false]
          rw [if_pos trivial, h.top]
        · simp only [if_true]
          rw [if_neg (by decide), h.bottom]
      · dsimp only [extractStems]
        rw [List.map_eq_nil_iff, List.map_eq_nil_iff, ← List.length_eq_zero_iff, withNames_length, List.length_eq_zero_iff]
      · dsimp only [extractStems]
        rw [List.map_eq_nil_iff, List.map_eq_nil_iff, ← List.length_eq_zero_iff, withNames_length, List.length_eq_zero_iff]
    rw [bind_exists]
    constructor
    · rintro ⟨r, s', h1, h2⟩
      refine ⟨fun _ e => (by cases e), fun n' is' e _ => ?_⟩
      cases e
      refine ⟨?_, st, rfl, fun j hj => (hu j).1 ?_⟩
      · cases n with
        | none => cases h2
        | some n => rfl
      · obtain ⟨cmds, u⟩ := r
        have := C59_index_commands h1
        obtain ⟨k, hk⟩ := List.getElem?_of_mem hj
        have hlt : k < cmds.length := by rw [← this.1]; exact (List.getElem?_eq_some_iff.1 hk).1
        exact translated_complete (this.2 k j _ hk (List.getElem?_eq_getElem hlt))
    · rintro ⟨-, h2⟩
      obtain ⟨hn, st', e, h3⟩ := h2 n (i :: is) rfl (by simp)
      cases e
      obtain ⟨cmds, hc⟩ := C59_index_succeeds fun j hj => (hu j).2 (h3 j hj)
      cases n with
      | none => cases hn
      | some n => exact ⟨_, _, hc, rfl⟩
  | _ => exact ⟨fun _ => ⟨fun _ e => (by cases e), fun _ _ e => (by cases e)⟩, fun _ => ⟨_, rfl⟩⟩

theorem fold_collected : ∀ (l pre : List TthEntry) (s s' : TthData), Collected pre s → l.foldlM tthEntry s = .ok s' → Collected (pre ++ l) s' := by
  intro l
  induction l with
  | nil => intro pre s s' h e; cases e; simpa using h
  | cons x l ih =>
    intro pre s s' h e
    rw [List.foldlM_cons] at e
    cases h1 : tthEntry s x with
    | error x => rw [h1] at e; cases e
    | ok s1 =>
      rw [h1] at e
      have := ih (pre ++ [x]) s1 s' (collected_step h h1) e
      simpa using this

/-! ## the merges -/

theorem mergeDir_iff {l : List TthStem} (data : List (Int × List (Int × Int))) : ∀ lib,
    (∃ r, mergeDir (some l) lib data = .ok r) ↔ ∀ x ∈ data, InRange l.length x.1 := by
  induction data with
  | nil => intro lib; exact ⟨fun _ x hx => (by cases hx), fun _ => ⟨lib, rfl⟩⟩
  | cons x data ih =>
    intro lib
    unfold mergeDir at ih ⊢
    rw [List.foldlM_cons, bind_exists]
    constructor
    · rintro ⟨a, r, h1, h2⟩ y hy
      dsimp only at h1
      obtain ⟨s, -, h3, -⟩ := bind_exists.1 ⟨a, h1⟩
      rcases List.mem_cons.1 hy with rfl | hy
      · exact pyIndex_inRange.1 ⟨s, h3⟩
      · exact (ih a).1 ⟨r, h2⟩ y hy
    · intro h
      obtain ⟨s, hs⟩ := pyIndex_inRange.2 (h x (by simp))
      obtain ⟨r, hr⟩ := (ih (dictSet lib s.name (mergedStem s x.2))).2 fun y hy => h y (by simp [hy])
      refine ⟨_, r, ?_, hr⟩
      dsimp only
      rw [hs]
      rfl

theorem mem_keys_iff {ν : Type} {d : List (Int × ν)} {P : Int → Prop} : (∀ x ∈ d, P x.1) ↔ ∀ k, (dictGet d k).isSome → P k := by
  constructor
  · intro h k hk
    obtain ⟨v, hv⟩ := Option.isSome_iff_exists.1 hk
    exact h (k, v) (dictGet_some_mem hv)
  · intro h x hx
    apply h
    induction d with
    | nil => cases hx
    | cons y d ih =>
      unfold dictGet
      split
      · rfl
      · rcases List.mem_cons.1 hx with rfl | hx
        · rename_i hne; exact absurd rfl hne
        · exact ih (fun k hk => h k (by
            unfold dictGet
            split
            · rfl
            · exact hk)) hx

theorem deltaFold_iff (data : TTDeltas) : ∀ all : List (PyStr × UfoZone),
    (∃ r, data.foldlM zoneStep all = .ok r) ↔ ∀ x ∈ data, InRange all.length x.1 := by
  induction data with
  | nil => intro all; exact ⟨fun _ x hx => (by cases hx), fun _ => ⟨all, rfl⟩⟩
  | cons x data ih =>
    intro all
    rw [List.foldlM_cons, bind_exists]
    have hlen : ∀ a, zoneStep all x = .ok a → a.length = all.length := by
      intro a h
      obtain ⟨z, -, hz, -⟩ := bind_exists.1 ⟨a, h⟩
      unfold zoneStep at h
      rw [hz] at h
      cases h
      exact List.length_set
    constructor
    · rintro ⟨a, r, h1, h2⟩ y hy
      obtain ⟨z, -, h3, -⟩ := bind_exists.1 ⟨a, h1⟩
      rcases List.mem_cons.1 hy with rfl | hy
      · exact pyIndex_inRange.1 ⟨z, h3⟩
      · rw [← hlen a h1]
        exact (ih a).1 ⟨r, h2⟩ y hy
    · intro h
      obtain ⟨z, hz⟩ := pyIndex_inRange.2 (h x (by simp))
      have h1 : zoneStep all x = .ok (all.set (pyPos all.length x.1) (z.1, { z.2 with delta := some (sortedDeltas x.2) })) := by
        unfold zoneStep
        rw [hz]
        rfl
      obtain ⟨r, hr⟩ := (ih _).2 fun y hy => (by rw [hlen _ h1]; exact h y (by simp [hy]))
      exact ⟨_, r, h1, hr⟩

theorem mergeStems_iff {es : List TthEntry} {s : TthData} (h : Collected es s) :
    (∃ r, mergeStems s = .ok r) ↔ ∃ st, (es.filterMap asStems).getLast? = some st ∧ ∀ p ∈ es.filterMap asPpems,
      (∀ x ∈ p.ttStemsV, InRange st.ttStemsV.length x.stem) ∧ ∀ x ∈ p.ttStemsH, InRange st.ttStemsH.length x.stem := by
  unfold mergeStems
  rw [h.stems]
  cases hl : (es.filterMap asStems).getLast? with
  | none =>
    constructor
    · intro hr
      rw [bind_exists] at hr
      obtain ⟨a, r, h1, h2⟩ := hr
      have n1 : a = [] := by
        unfold mergeDir at h1
        cases hd : s.roundV with
        | nil => rw [hd] at h1; cases h1; rfl
        | cons x l => rw [hd] at h1; cases h1
      subst n1
      obtain ⟨b, r, h1, h2⟩ := bind_exists.1 ⟨r, h2⟩
      have n2 : b = [] := by
        unfold mergeDir at h1
        cases hd : s.roundH with
        | nil => rw [hd] at h1; cases h1; rfl
        | cons x l => rw [hd] at h1; cases h1
      subst n2
      cases h2
    · rintro ⟨st, hst, -⟩; cases hst
  | some st =>
    simp only [Option.map_some, reduceCtorEq, and_false, if_false]
    have hv : (extractStems st).1.length = st.ttStemsV.length := by simp [extractStems, withNames_length]
    have hh : (extractStems st).2.length = st.ttStemsH.length := by simp [extractStems, withNames_length]
    rw [bind_exists]
    have key : (∃ a r, mergeDir (some (extractStems st).1) [] s.roundV = .ok a ∧
          (mergeDir (some (extractStems st).2) a s.roundH >>= fun lib => Except.ok lib) = .ok r) ↔
        (∀ x ∈ s.roundV, InRange st.ttStemsV.length x.1) ∧ ∀ x ∈ s.roundH, InRange st.ttStemsH.length x.1 := by
      rw [← hv, ← hh]
      constructor
      · rintro ⟨a, r, h1, h2⟩
        obtain ⟨b, -, h3, -⟩ := bind_exists.1 ⟨r, h2⟩
        exact ⟨(mergeDir_iff _ _).1 ⟨a, h1⟩, (mergeDir_iff _ _).1 ⟨b, h3⟩⟩
      · rintro ⟨h1, h2⟩
        obtain ⟨a, ha⟩ := (mergeDir_iff _ []).2 h1
        obtain ⟨b, hb⟩ := (mergeDir_iff _ a).2 h2
        exact ⟨a, b, ha, by rw [hb]; rfl⟩
    rw [key, mem_keys_iff (P := InRange st.ttStemsV.length), mem_keys_iff (P := InRange st.ttStemsH.length)]
    simp only [h.roundV, h.roundH]
    constructor
    · rintro ⟨h1, h2⟩
      exact ⟨st, rfl, fun p hp => ⟨fun x hx => h1 _ ⟨p, hp, x, hx, rfl⟩, fun x hx => h2 _ ⟨p, hp, x, hx, rfl⟩⟩⟩
    · rintro ⟨st', e, h1⟩
      cases e
      constructor
      · rintro k ⟨p, hp, x, hx, rfl⟩; exact (h1 p hp).1 x hx
      · rintro k ⟨p, hp, x, hx, rfl⟩; exact (h1 p hp).2 x hx

theorem mergeZones_iff {es : List TthEntry} {s : TthData} (h : Collected es s) :
    (∃ r, mergeZones s = .ok r) ↔ ∃ z d, (es.filterMap asZones).getLast? = some z ∧ (es.filterMap asDeltas).getLast? = some d ∧
      ∀ x ∈ d, InRange ((z.ttZonesB.getD []).length + (z.ttZonesT.getD []).length) x.1 := by
  unfold mergeZones
  rw [h.zones, h.deltas]
  cases hz : (es.filterMap asZones).getLast? with
  | none =>
    constructor
    · rintro ⟨r, h1⟩; cases h1
    · rintro ⟨z, d, e, -⟩; cases e
  | some z =>
  dsimp only [Option.bind_some, extractZones]
  cases hd : (es.filterMap asDeltas).getLast? with
  | none =>
    constructor
    · rintro ⟨r, h1⟩; cases h1
    · rintro ⟨z, d, -, e, -⟩; cases e
  | some d =>
  dsimp only [Option.getD_some]
  rw [bind_exists]
  have := deltaFold_iff d
    ((withNames TTZone.name (withNames TTZone.name [] (z.ttZonesT.getD [])).2 (z.ttZonesB.getD [])).1.map (tthZoneOf false) ++
      (withNames TTZone.name [] (z.ttZonesT.getD [])).1.map (tthZoneOf true))
  rw [List.length_append, List.length_map, List.length_map, withNames_length, withNames_length] at this
  constructor
  · rintro ⟨a, r, h1, -⟩
    exact ⟨z, d, rfl, rfl, this.1 ⟨a, h1⟩⟩
  · rintro ⟨z', d', e, e', h1⟩
    cases e; cases e'
    obtain ⟨a, ha⟩ := this.2 h1
    exact ⟨a, _, ha, rfl⟩

/-- **C97** Exactly which hinting can be exported: there are entries for stems, zones and zone deltas, the tables of ppms and deltas refer to stems and
zones that exist, the table for one pixel is empty, and all glyphs with instructions have got a name and come after the stems and zones that their
instructions, which are known and complete, refer to. -/
theorem C97_ready (es : List TthEntry) : (∃ x, exportTth es = .ok x) ↔ TthReady es := by
  have hf := fold_fitsAll (f := tthEntry) (fits := TthFits) (Inv := Collected) (fun _ => True)
    (fun pre st x _ hi => ⟨entry_fits hi, fun st' h => collected_step hi h⟩) es [] TthData.empty (fun _ _ => trivial) collected_nil
  simp only [List.nil_append] at hf
  unfold exportTth
  rw [bind_exists]
  constructor
  · rintro ⟨s, r, h1, h2⟩
    have hc : Collected es s := by simpa using fold_collected es [] _ s collected_nil h1
    obtain ⟨st, r, h3, h4⟩ := bind_exists.1 ⟨r, h2⟩
    obtain ⟨z, r, h5, h6⟩ := bind_exists.1 ⟨r, h4⟩
    exact ⟨hf.1 ⟨s, h1⟩, (mergeStems_iff hc).1 ⟨st, h3⟩, (mergeZones_iff hc).1 ⟨z, h5⟩⟩
  · rintro ⟨h1, h2, h3⟩
    obtain ⟨s, hs⟩ := hf.2 h1
    have hc : Collected es s := by simpa using fold_collected es [] _ s collected_nil hs
    obtain ⟨st, h4⟩ := (mergeStems_iff hc).2 h2
    obtain ⟨z, h5⟩ := (mergeZones_iff hc).2 h3
    refine ⟨s, ⟨st, z, s.glyphs, s.nums, s.gasp⟩, hs, ?_⟩
    rw [h4]
    show (mergeZones s >>= _) = _
    rw [h5]
    rfl

/-- an example: the hinting of `C63_example` -/
example : TthReady (exampleTthEntries ++ exampleTthGlyphs) := (C97_ready _).1 ⟨_, C63_example⟩

/-- and one that is not exported: the glyph comes before the stems -/
example : ¬ TthReady (exampleTthGlyphs ++ exampleTthEntries) := by
  rw [← C97_ready]
  rintro ⟨x, hx⟩
  have : exportTth (exampleTthGlyphs ++ exampleTthEntries) = .error .key := by decide +kernel
  rw [this] at hx
  cases hx

end Verif.Props
