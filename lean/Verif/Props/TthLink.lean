import Verif.Props.Tth
import Verif.Props.TrueType
/-! C61, C62, C63: whatever the parsers read meets the conditions of the statements about stems and zones. -/
set_option autoImplicit false
namespace Verif.Props
open Verif Verif.Spec

theorem ppmTable_of {l : List TTPpem} (h : PpemsNormal [2, 3, 4, 5] l) : PpmTable l := by
  intro i d hd
  obtain ⟨h1, h2⟩ := h i d hd
  refine ⟨h1, by rw [h2]; decide, fun x hx => ?_⟩
  have : x.1 ∈ d.round.map Prod.fst := List.mem_map.2 ⟨x, hx, rfl⟩
  rw [h2] at this
  simp only [List.mem_cons, List.not_mem_nil, or_false] at this
  omega

theorem ppm1Table_of {l : List TTPpem} (h : PpemsNormal [1] l) : Ppm1Table l := by
  intro i d hd
  obtain ⟨h1, h2⟩ := h i d hd
  refine ⟨h1, ?_⟩
  cases hr : d.round with
  | nil => rw [hr] at h2; cases h2
  | cons x r =>
    rw [hr] at h2
    simp only [List.map_cons, List.cons.injEq, List.map_eq_nil_iff] at h2
    obtain ⟨hx, rfl⟩ := h2
    exact ⟨x.2, by rw [← hx]⟩

theorem stemTable_of {l : List TTStem} (h : ∀ s ∈ l, s.round.map Prod.fst = [6]) : StemTable l := by
  intro i d hd
  have h2 := h d (List.mem_of_getElem? hd)
  cases hr : d.round with
  | nil => rw [hr] at h2; cases h2
  | cons x r =>
    rw [hr] at h2
    simp only [List.map_cons, List.cons.injEq, List.map_eq_nil_iff] at h2
    obtain ⟨hx, rfl⟩ := h2
    exact ⟨x.2, by rw [← hx]⟩

/-- the ppms for 2 to 5 pixels that the parser reads -/
theorem C61_parsed_ppms {payload : Bytes} {d : TTStems TTPpem} (h : parseEntry parseTTPpems payload = .ok d) :
    PpmTable d.ttStemsV ∧ PpmTable d.ttStemsH := by
  obtain ⟨h1, h2⟩ := parseEntry_post (post_ppems_counted [2, 3, 4, 5] (by decide)) h
  exact ⟨ppmTable_of h1.2, ppmTable_of h2.2⟩

/-- the ppms for 1 pixel that the parser reads, for given numbers of stems -/
theorem C61_parsed_ppms1 {payload : Bytes} {nv nh : Nat} {d : TTStems TTPpem} (h : parseEntry (parseTTPpems1 nv nh) payload = .ok d) :
    Ppm1Table d.ttStemsV ∧ d.ttStemsV.length = nv ∧ Ppm1Table d.ttStemsH ∧ d.ttStemsH.length = nh := by
  obtain ⟨h1, h2⟩ := parseEntry_post (P := fun d : TTStems TTPpem => (d.ttStemsV.length = (nv : Int).toNat ∧ (∀ s ∈ d.ttStemsV, RoundsFit [1] s.round) ∧ PpemsNormal [1] d.ttStemsV) ∧
        (d.ttStemsH.length = (nh : Int).toNat ∧ (∀ s ∈ d.ttStemsH, RoundsFit [1] s.round) ∧ PpemsNormal [1] d.ttStemsH))
    (Post.bind (post_ppems [1] (by decide) nv) fun v hv => Post.bind (post_ppems [1] (by decide) nh) fun h hh => Post.pure ⟨hv, hh⟩) h
  exact ⟨ppm1Table_of h1.2.2, h1.1, ppm1Table_of h2.2.2, h2.1⟩

/-- the stems that the parser reads -/
theorem C61_parsed_stems {payload : Bytes} {d : TTStems TTStem} (h : parseEntry parseTTStems payload = .ok d) :
    StemTable d.ttStemsV ∧ StemTable d.ttStemsH := by
  obtain ⟨h1, h2⟩ := parseEntry_post (P := fun d : TTStems TTStem => (∀ s ∈ d.ttStemsV, s.round.map Prod.fst = [6]) ∧ ∀ s ∈ d.ttStemsH, s.round.map Prod.fst = [6])
    (Post.bind (P := fun l : List TTStem => ∀ s ∈ l, s.round.map Prod.fst = [6])
      (Post.bind (post_value true) fun n _ => Post.mono (Post.forRange post_ttStem n) fun l hl s hs => (hl.2 s hs).2) fun v hv =>
      Post.bind (P := fun l : List TTStem => ∀ s ∈ l, s.round.map Prod.fst = [6])
      (Post.bind (post_value true) fun n _ => Post.mono (Post.forRange post_ttStem n) fun l hl s hs => (hl.2 s hs).2) fun hz hh => Post.pure ⟨hv, hh⟩) h
  exact ⟨stemTable_of h1, stemTable_of h2⟩

/-- the zone deltas that the parser reads: no zone and no ppm comes up twice -/
theorem C62_parsed_deltas {payload : Bytes} {d : TTDeltas} (h : parseEntry parseTTDeltas payload = .ok d) :
    DictOk d ∧ ∀ x ∈ d, DictOk x.2 := by
  have hf : DeltasFit d := by
    refine parseEntry_post (P := DeltasFit) ?_ h
    refine Post.bind (post_value true) fun n hn => Post.bind (Post.forRange
      (P := fun t : Int × Int × Int => IsInt32 t.1 ∧ IsInt32 t.2.1 ∧ IsInt32 t.2.2) ?_ n) fun l hl => Post.pure ?_
    · exact Post.bind (post_value true) fun _ ha => Post.bind (post_value true) fun _ hb => Post.bind (post_value true) fun _ hc =>
        Post.pure ⟨valOk_iff.1 ha, valOk_iff.1 hb, valOk_iff.1 hc⟩
    · obtain ⟨f1, f2⟩ := fold_fits l hl.2 [] ⟨by simp [DictOk], by simp⟩
      have := valOk_iff.1 hn
      simp only [IsInt32] at this
      have e : (deltaList []).length = 0 := rfl
      have := hl.1
      exact ⟨f1.1, f1.2, by omega⟩
  exact ⟨hf.1, fun x hx => (hf.2.1 x hx).2.2.1⟩

/-- from the payloads of the three entries to the stems of the UFO; the file must have as many stems as tables -/
theorem C61_from_file {pp p1 ps : Bytes} {p q : TTStems TTPpem} {s : TTStems TTStem} (h1 : parseEntry parseTTPpems pp = .ok p)
    (h2 : parseEntry (parseTTPpems1 p.ttStemsV.length p.ttStemsH.length) p1 = .ok q) (h3 : parseEntry parseTTStems ps = .ok s)
    (hv : s.ttStemsV.length ≤ p.ttStemsV.length) (hh : s.ttStemsH.length ≤ p.ttStemsH.length) :
    StemInput p.ttStemsV q.ttStemsV s.ttStemsV ∧ StemInput p.ttStemsH q.ttStemsH s.ttStemsH := by
  obtain ⟨a1, a2⟩ := C61_parsed_ppms h1
  obtain ⟨b1, b2, b3, b4⟩ := C61_parsed_ppms1 h2
  obtain ⟨c1, c2⟩ := C61_parsed_stems h3
  exact ⟨⟨a1, b1, c1, by omega, hv⟩, a2, b3, c2, by omega, hh⟩

/-- from the payloads of the entries to the condition of `C63_export` -/
theorem C63_from_file {pp ps : Bytes} {p : TTStems TTPpem} {s : TTStems TTStem} (h1 : parseEntry parseTTPpems pp = .ok p)
    (h3 : parseEntry parseTTStems ps = .ok s) (hv : p.ttStemsV.length = s.ttStemsV.length) (hh : p.ttStemsH.length = s.ttStemsH.length) :
    FullTable p.ttStemsV s.ttStemsV ∧ FullTable p.ttStemsH s.ttStemsH := by
  obtain ⟨a1, a2⟩ := C61_parsed_ppms h1
  obtain ⟨c1, c2⟩ := C61_parsed_stems h3
  exact ⟨⟨a1, c1, hv⟩, a2, c2, hh⟩

end Verif.Props
