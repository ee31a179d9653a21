import Verif.Props.Base
import Verif.Props.Numeric
import Verif.Props.Text
import Verif.Props.Ps
import Verif.Props.Options
import Verif.Props.Bitmap
/-! C21, C22, C24, C26, C28, C33, C34: exactly which parsed values compile and parse back to themselves. -/
set_option autoImplicit false
namespace Verif.Props
open Verif Verif.Spec

theorem stableExactly_of {α : Type} {compile : α → W} {parse : R α} {cond : α → Prop} (h : StableWhen compile parse cond)
    (hr : ∀ payload a, parseEntry parse payload = .ok a → RoundTrips compile parse a → cond a) :
    StableExactly compile parse cond := fun payload a hl hp => ⟨hr payload a hp, h payload a hl hp⟩

theorem not_roundTrips_of_rejected {α : Type} {compile : α → W} {parse : R α} {a : α} (h : Rejected compile a) :
    ¬ RoundTrips compile parse a := by
  rintro ⟨p, hp, _⟩
  obtain ⟨e, he⟩ := h
  rw [he] at hp; cases hp

/-- **C21** a parsed mapping mode survives exactly if its mode is one of the three known ones -/
theorem C21_mapping_mode_stable : StableExactly compileMappingMode parseMappingMode fun d =>
    d.mapping_mode ∈ [lit "names_or_index", lit "unicode_ranges", lit "codepages"] := by
  refine stableExactly_of C21_mapping_mode_stable_when ?_
  rintro _ d _ ⟨p, hc, _⟩
  have hk : ∃ k, mappingModeRev d.mapping_mode = .ok k := by
    cases hm : mappingModeRev d.mapping_mode with
    | ok k => exact ⟨k, rfl⟩
    | error e =>
      exfalso
      unfold compileMappingMode at hc
      rw [hm, W.withVal_error] at hc
      have hw : writeU8 1 = .ok [1] := by decide
      simp only [hw, W.seq_ok_err, W.seq_err_left] at hc
      cases hc
  obtain ⟨k, hk⟩ := hk
  unfold mappingModeRev at hk
  cases hg : dictGet (mappingModes.map fun p => (p.2, p.1)) d.mapping_mode with
  | none => rw [hg] at hk; cases hk
  | some k' =>
    have hmem := dictGet_some_mem hg
    simp only [mappingModes, List.map_cons, List.map_nil, List.mem_cons, List.not_mem_nil, or_false, Prod.mk.injEq] at hmem
    rcases hmem with ⟨h, _⟩ | ⟨h, _⟩ | ⟨h, _⟩ <;> rw [h] <;> decide

theorem value_of_written {v : Int} {b : Bytes} (h : writeValue v false = .ok b) : -1131 ≤ v := by
  by_cases hv : ValOk false v
  · simp only [ValOk] at hv; omega
  · rw [writeValue_err hv] at h; cases h

/-- **C22** parsed class flags survive exactly if no flag is below -1131 -/
theorem C22_class_flags_stable :
    StableExactly compileKerningFlags parseKerningFlags (fun d => ∀ p ∈ d, -1131 ≤ p.2.1 ∧ -1131 ≤ p.2.2) ∧
    StableExactly compileMetricsFlags parseMetricsFlags
      (fun d => ∀ p ∈ d, -1131 ≤ p.2.1 ∧ -1131 ≤ p.2.2.1 ∧ -1131 ≤ p.2.2.2) := by
  refine ⟨stableExactly_of C22_class_flags_stable_when.1 ?_, stableExactly_of C22_class_flags_stable_when.2 ?_⟩
  · rintro _ d _ ⟨b, hc, _⟩ p hp
    obtain ⟨_, _, _, h2, _⟩ := W.seq_eq_ok.1 hc
    obtain ⟨y, hy⟩ := W.all_ok h2 p hp
    obtain ⟨_, _, h3, h4, _⟩ := W.seq_eq_ok.1 hy
    obtain ⟨_, _, _, h5, _⟩ := W.seq_eq_ok.1 h3
    exact ⟨value_of_written h5, value_of_written h4⟩
  · rintro _ d _ ⟨b, hc, _⟩ p hp
    obtain ⟨_, _, _, h2, _⟩ := W.seq_eq_ok.1 hc
    obtain ⟨y, hy⟩ := W.all_ok h2 p hp
    obtain ⟨_, _, h3, h4, _⟩ := W.seq_eq_ok.1 hy
    obtain ⟨_, _, h6, h5, _⟩ := W.seq_eq_ok.1 h3
    obtain ⟨_, _, _, h7, _⟩ := W.seq_eq_ok.1 h6
    exact ⟨value_of_written h7, value_of_written h5, value_of_written h4⟩

/-- **C26** parsed Unicode ranges survive exactly if all bit numbers are below 128 -/
theorem C26_unicode_ranges_stable : StableExactly compileUnicodeRanges parseUnicodeRanges (fun l => ∀ b ∈ l, b < 128) := by
  refine stableExactly_of C26_unicode_ranges_stable_when fun _ l _ hr b hb => ?_
  apply Decidable.byContradiction
  intro hn
  exact not_roundTrips_of_rejected (C26_unicode_ranges_rejected l b hb (by omega)) hr

/-- **C34** parsed options survive exactly if all of them are documented -/
theorem C34_options_stable :
    StableExactly compileExportOptions parseExportOptions (fun l => ∀ o ∈ l, ∃ s, o = .name s) ∧
    StableExactly compileFontOptions parseFontOptions (fun d => ∀ p ∈ d, p.1 ∈ fontOptionNames.map Prod.snd) := by
  refine ⟨stableExactly_of C34_export_options_stable fun _ l _ hr o ho => ?_,
    stableExactly_of C34_font_options_stable fun _ d _ hr p hp => ?_⟩
  · cases o with
    | name s => exact ⟨s, rfl⟩
    | bit b => exact absurd hr (not_roundTrips_of_rejected (C34_export_options_unknown l ⟨b, ho⟩))
  · apply Decidable.byContradiction
    intro hn
    exact not_roundTrips_of_rejected (C34_font_options_unknown d ⟨p, hp, hn⟩) hr

/-- the record with the replacement character as it is written for Mac records -/
def macReplaced (r : NameRecord) : NameRecord :=
  if r.platID = 1 ∧ r.encID = 0 then { r with name := r.name.map fun c => if c = 0xFEFF then 63 else c } else r

theorem all_map {α β : Type} (f : α → β) (g : β → W) (l : List α) : W.all (l.map f) g = W.all l fun x => g (f x) := by
  induction l with
  | nil => rfl
  | cons x l ih => simp only [List.map_cons, W.all, ih]

theorem all_congr {α : Type} {f g : α → W} {l : List α} (h : ∀ x ∈ l, f x = g x) : W.all l f = W.all l g := by
  induction l with
  | nil => rfl
  | cons x l ih => simp only [W.all, h x (by simp), ih fun y hy => h y (by simp [hy])]

theorem macReplaced_compile (r : NameRecord) : compileNameRecord (macReplaced r) = compileNameRecord r := by
  unfold macReplaced
  by_cases h : r.platID = 1 ∧ r.encID = 0
  · rw [if_pos h]
    unfold compileNameRecord
    simp only [List.length_map]
    congr 1
    rw [all_map]
    apply all_congr
    intro c _
    by_cases hc : c = 0xFEFF
    · subst hc
      rw [if_pos rfl, h.1, h.2]
      decide
    · rw [if_neg hc]
  · rw [if_neg h]

/-- **C28** parsed name records survive exactly if no Mac record contains the character U+FEFF that the parser puts in place
of an invalid character code -/
theorem C28_names_stable : StableExactly compileNameRecords parseNameRecords
    (fun l => ∀ r ∈ l, r.platID = 1 → r.encID = 0 → 0xFEFF ∉ r.name) := by
  refine stableExactly_of C28_names_stable_when ?_
  rintro payload l hp ⟨b, hc, hb⟩
  obtain ⟨hlen, hl⟩ := parseEntry_post (post_names payload.length) hp
  have hok : ∀ r ∈ l.map macReplaced, NameOk r := by
    intro r hr
    obtain ⟨q, hq, rfl⟩ := List.mem_map.1 hr
    unfold macReplaced
    by_cases h : q.platID = 1 ∧ q.encID = 0
    · rw [if_pos h]
      obtain ⟨h1, h2, h3, h4, h5, h6⟩ := hl q hq
      refine ⟨h1, h2, h3, h4, by simpa using h5, ?_⟩
      rw [if_pos h] at h6 ⊢
      intro c hc
      obtain ⟨c', hc', rfl⟩ := List.mem_map.1 hc
      by_cases e : c' = 0xFEFF
      · rw [if_pos e]; exact ⟨63, by decide⟩
      · rw [if_neg e]; exact h6 c' hc' e
    · rw [if_neg h]
      obtain ⟨h1, h2, h3, h4, h5, h6⟩ := hl q hq
      rw [if_neg h] at h6
      exact ⟨h1, h2, h3, h4, h5, by rw [if_neg h]; exact h6⟩
  obtain ⟨b', hc', hb'⟩ := C28_names_roundtrip (l.map macReplaced) (by simpa using hlen) hok
  have e : compileNameRecords (l.map macReplaced) = compileNameRecords l := by
    unfold compileNameRecords
    rw [List.length_map, all_map]
    congr 1
    exact all_congr fun r _ => macReplaced_compile r
  rw [e, hc] at hc'
  cases hc'
  rw [hb] at hb'
  injection hb' with hb'
  intro r hr h1 h2 hm
  obtain ⟨i, hi, hri⟩ := List.getElem_of_mem hr
  have : l[i]? = (l.map macReplaced)[i]? := by rw [← hb']
  rw [List.getElem?_map, List.getElem?_eq_getElem hi, hri, Option.map_some, Option.some.injEq] at this
  unfold macReplaced at this
  rw [if_pos ⟨h1, h2⟩] at this
  have hn := congrArg NameRecord.name this
  simp only at hn
  rw [hn] at hm
  obtain ⟨c, _, hc⟩ := List.mem_map.1 hm
  split at hc <;> omega

/-- **C33** parsed PCLT data survives exactly if the payload was not truncated within the strings and neither the stroke
weight nor the width type is negative -/
theorem C33_pclt_stable : StableExactly compilePclt parsePclt (fun d => d.typeface.length = 16 ∧ d.file_name.length = 6 ∧
    0 ≤ d.stroke_weight ∧ 0 ≤ d.width_type) := by
  refine stableExactly_of C33_pclt_stable_when fun payload d hp hr => ?_
  have h := parseEntry_post (post_pclt' payload.length) hp
  by_cases hneg : d.stroke_weight < 0 ∨ d.width_type < 0
  · exact absurd hr (not_roundTrips_of_rejected (C33_pclt_negative_rejected d hneg))
  · have hf := h (by omega) (by omega)
    obtain ⟨b, h1, h2⟩ := hr
    obtain ⟨b', h3, h4⟩ := C33_pclt_padding d hf
    rw [h1] at h3
    cases h3
    rw [h2] at h4
    injection h4 with h4
    have e1 := congrArg Pclt.typeface h4
    have e2 := congrArg Pclt.file_name h4
    simp only at e1 e2
    have l1 := congrArg List.length e1
    have l2 := congrArg List.length e2
    have := hf.typeface.1
    have := hf.file_name.1
    simp only [padNul, List.length_append, List.length_replicate] at l1 l2
    exact ⟨by omega, by omega, by omega, by omega⟩

/-- **C24** a background parsed from a Windows file survives exactly if it has no pixels at all -/
theorem C24_windows_stable (payload : Bytes) (d : BackgroundImage) (hp : parseEntry (parseBackground true) payload = .ok d)
    (hs : d.bitmap.data.flatten.length < 1073741824) :
    RoundTrips (compileBackground true) (parseBackground true) d ↔ d.bitmap.data = [] := by
  have h := parseEntry_post (post_background (N := payload.length) true) hp hs
  refine ⟨fun hr => ?_, C24_windows_empty d h⟩
  match hd : d.bitmap.data with
  | [] => rfl
  | row :: rows =>
    exfalso
    have hrow : ∃ x, x ∈ row := by
      rcases h.bitmap.rows with ⟨hw, hr⟩ | ⟨_, hr⟩
      · rw [hd] at hr
        have hpos : 0 < row.length := by
          cases rows with
          | nil => exact hr.1
          | cons s rs => rw [hr.1]; omega
        cases row with
        | nil => simp at hpos
        | cons x row => exact ⟨x, by simp⟩
      · rw [hd] at hr; cases hr
    obtain ⟨x, hx⟩ := hrow
    have hm : row ∈ d.bitmap.data := by rw [hd]; simp
    exact not_roundTrips_of_rejected (C24_windows_rejected d row x hm hx (h.bitmap.bytes row hm x hx).1) hr

end Verif.Props
