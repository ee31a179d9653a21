import Verif.Props.UfoSuccessFont
/-! C96: exactly when the command line tool succeeds. -/
set_option autoImplicit false
namespace Verif.Props
open Verif Verif.Spec

section
variable {ops : AngleOps} {deg : ops.Angle → Rat} {asm : AsmOps} {fmt : Int → PyStr}

theorem ufoCount_pos (o : BuildOpts) (es : List (FEntry ops asm)) : 0 < ufoCount ops asm o es := by
  unfold ufoCount
  refine Nat.lt_of_lt_of_le ?_ (Nat.le_max_right _ _)
  unfold expectedMasters
  split
  · decide
  · rename_i h
    exact Nat.mul_pos (Int.natAbs_pos.2 h) (Int.natAbs_pos.2 h)

theorem ufoCount_masters {o : BuildOpts} {es : List (FEntry ops asm)} {mp : MastersPart ops.Angle} (h : buildMasters ops asm o es = .ok mp) :
    mp.masters.length = ufoCount ops asm o es := by
  obtain ⟨st0, hi, rfl⟩ := buildMasters_inv h
  unfold ufoCount
  rw [numberOf_eq hi.axisCount, textsOf_of hi.masters]
  exact fixMasters_length _ _

theorem axes_names {o : BuildOpts} {es : List (FEntry ops asm)} {mp : MastersPart ops.Angle} (h : buildMasters ops asm o es = .ok mp) :
    textsOf ops asm o es 1514 = mp.axes.map Axis.name := by
  obtain ⟨st0, hi, rfl⟩ := buildMasters_inv h
  exact textsOf_of hi.axes

variable (ops asm) in
/-- what the designspace document of a font with axes needs: the number of masters, for each of them a UFO and a location with a coordinate for each axis;
axes have got names; each instance has got a coordinate for each axis -/
def DesignspaceReady (o : BuildOpts) (es : List (FEntry ops asm)) : Prop :=
  ∃ (n axes : Int) (instances : List PrimaryInstance), (dataOf ops asm o es 1503).getLast? = some (.int n) ∧
    LastOr ops asm (dataOf ops asm o es 1513) .int 0 axes ∧ LastOr ops asm (dataOf ops asm o es 1254) .instances [] instances ∧
    n.toNat ≤ ufoCount ops asm o es ∧
    (0 < n ∨ instances ≠ [] → [] ∉ textsOf ops asm o es 1514) ∧
    (∀ i : Nat, i < n.toNat → ∃ loc, locationOf ops asm o es (i + 1) = some loc ∧ (textsOf ops asm o es 1514).length ≤ loc.length) ∧
    (∀ p ∈ instances, (textsOf ops asm o es 1514).length ≤ p.values.length) ∧
    (axes = 1 → ∀ p ∈ instances, textsOf ops asm o es 1514 ≠ [] ∧ p.values ≠ [])

theorem convert_length {o : UfoOpts} {depth : Nat} {es : List (FEntry ops asm)} {ufos : List (UfoFont asm.Asm)}
    (h : convert ops deg asm fmt o depth es = .ok ufos) : ufos.length = ufoCount ops asm o.build es := by
  obtain ⟨b, s, st, h1, h2, h3, h4, h5, h6, h7, h8, h9⟩ := convert_cases h
  rw [h7]
  exact ufoCount_masters h3

/-- the UFOs and the designspace document can be made exactly if the font can be converted, and a font with axes has got what a designspace needs -/
theorem ufosDesignspace_exists {a : UfoArgs} {depth : Nat} {l : List (FEntry ops asm)} :
    (∃ r, ufosDesignspace ops deg asm fmt a depth l = .ok r) ↔ (∃ ufos, convert ops deg asm fmt (optsOf a) depth l = .ok ufos) ∧
      (textsOf ops asm (optsOf a).build l 1514 ≠ [] → DesignspaceReady ops asm (optsOf a).build l) := by
  have ho : a.opts = optsOf a := rfl
  constructor
  · rintro ⟨⟨ufos, ds⟩, h⟩
    obtain ⟨h1, mp, ip, h2, h3, h4⟩ := ufosDesignspace_cases ops deg asm fmt h
    rw [ho] at h1 h2
    refine ⟨⟨_, h1⟩, fun hax => ?_⟩
    rcases h4 with ⟨h4, -⟩ | ⟨-, d, -, h4⟩
    · rw [axes_names h2, h4] at hax
      exact absurd rfl hax
    · have := (C72_success h2).1 ⟨d, h4⟩
      rw [ufoCount_masters h2] at this
      exact this
  · rintro ⟨⟨ufos, h⟩, hds⟩
    have hlen := convert_length h
    have hpos := ufoCount_pos (optsOf a).build l
    unfold convert at h
    obtain ⟨b, r, h1, h2⟩ := bind_exists.1 ⟨_, h⟩
    rw [h1, okBind] at h
    rw [h] at h2
    cases h2
    unfold ufosDesignspace
    rw [ho, h1, okBind, h, okBind]
    have hne : ufos.isEmpty = false := by
      cases ufos with
      | nil => simp at hlen; omega
      | cons _ _ => rfl
    rw [hne, if_neg (by decide)]
    obtain ⟨k1, k2⟩ := build_cases ops asm fmt h1
    by_cases hax : b.masters.axes = []
    · rw [if_pos (by rw [hax]; rfl)]
      exact ⟨_, rfl⟩
    · rw [if_neg (by rwa [List.isEmpty_iff])]
      have hd := hds (by rw [axes_names k1]; simpa using hax)
      unfold DesignspaceReady at hd
      rw [← ufoCount_masters k1] at hd
      obtain ⟨doc, hdoc⟩ := (C72_success (family := (dsFamilyName b.info.attrs).getD (lit "None")) (out := a.out.name) k1).2 hd
      rw [hdoc]
      exact ⟨_, rfl⟩

variable (ops asm) in
/-- there is room for the files: with `-fo` always, otherwise there is nothing at the path of a UFO (UFOs as JSON are not protected) or of the
designspace document -/
def RoomFor (a : UfoArgs) (stem : PyStr) (fs : Files asm.Asm) (l : List (FEntry ops asm)) : Prop :=
  a.force_overwrite = true ∨
  (a.json = false → ∀ i < ufoCount ops asm (optsOf a).build l, fs (ufoFile a stem i) = none) ∧
  (textsOf ops asm (optsOf a).build l 1514 ≠ [] → fs (dsPath a stem) = none)

/-- **C96** The command, from the bytes of the file: it succeeds exactly if the font in the file can be converted, and there is room for the files. -/
theorem C96_command (a : UfoArgs) (depth : Nat) (fs : Files asm.Asm) {stem : PyStr} (hn : a.input.name ≠ []) (hs : IsStem a.input.name stem)
    (minor : UInt8) (es : List (Nat × Bytes)) (tail : Bytes) (hf : fs a.input = some (.bytes (fileOf minor es ++ tail))) (ht : Terminated es)
    (hr : Readable (vfbCodec ops asm) a.unicode_strings {} es)
    {l : List (FEntry ops asm)} (hl : List.Forall₂ (Decoded ops asm (fileCtx ops asm a es)) (keptEntries es) l)
    (hz : ZonesFirst ops asm l)
    (hnest : ∀ gp, buildGlyphs ops asm (optsOf a).build l = .ok gp → ∀ e ∈ gp.masters, Nested gp.order (gidsOf ops asm gp) depth e.1) :
    (vfb3ufo ops deg asm fmt a depth fs).1 = .ok () ↔
      EntriesReady ops asm (optsOf a).build l ∧
      (∀ gp, buildGlyphs ops asm (optsOf a).build l = .ok gp → FontReady ops asm (optsOf a) l (ufoCount ops asm (optsOf a).build l) gp) ∧
      (textsOf ops asm (optsOf a).build l 1514 ≠ [] → DesignspaceReady ops asm (optsOf a).build l) ∧
      RoomFor ops asm a stem fs l := by
  have hread := (C90_read ops asm a minor es tail ht hr l).2 hl
  have hconv : converted ops deg asm fmt a depth (fileOf minor es ++ tail) = ufosDesignspace ops deg asm fmt a depth l := by
    unfold converted
    rw [hread, okBind]
  have hfont := C96_converts (deg := deg) (fmt := fmt) (o := optsOf a) (depth := depth) (decoded_typed ops asm hl) hz hnest
  rw [← and_assoc, ← hfont, ← and_assoc, ← ufosDesignspace_exists (deg := deg) (fmt := fmt) (a := a) (depth := depth)]
  obtain ⟨o1, o2⟩ := C89_outcome ops deg asm fmt a depth fs hn hs _ hf
  rw [hconv] at o1 o2
  cases hc : ufosDesignspace ops deg asm fmt a depth l with
  | error e =>
    rw [o1 e hc]
    refine ⟨fun h => (by cases h), ?_⟩
    rintro ⟨⟨r, h⟩, -⟩
    cases h
  | ok r =>
    obtain ⟨ufos, ds⟩ := r
    obtain ⟨n, hle, -, hfree, hend⟩ := o2 ufos ds hc
    obtain ⟨h1, mp, ip, h2, h3, h4⟩ := ufosDesignspace_cases ops deg asm fmt hc
    have hlen : ufos.length = ufoCount ops asm (optsOf a).build l := convert_length h1
    have hroom : RoomFor ops asm a stem fs l ↔ ∀ w ∈ outputs a stem ufos ds, ¬ Blocked a fs w := by
      unfold RoomFor
      by_cases hfo : a.force_overwrite = true
      · refine ⟨fun _ w _ hb => ?_, fun _ => .inl hfo⟩
        rw [hb.1] at hfo
        cases hfo
      · have hfo' : a.force_overwrite = false := by simpa using hfo
        constructor
        · rintro (h | ⟨ha, hb⟩) w hw ⟨-, b2, b3⟩
          · exact hfo h
          · unfold outputs at hw
            rcases List.mem_append.1 hw with hw | hw
            · obtain ⟨⟨u, i⟩, hi, rfl⟩ := List.mem_map.1 hw
              have hlt : i < ufos.length := by
                have := List.mem_zipIdx hi
                omega
              cases hj : a.json with
              | false => exact b2 (ha hj i (by omega))
              | true =>
                obtain ⟨d, hd⟩ := b3 hj
                unfold savedUfo at hd
                rw [if_pos hj] at hd
                cases hd
            · obtain ⟨d, hd, rfl⟩ := List.mem_map.1 hw
              refine b2 (hb ?_)
              rcases h4 with ⟨-, rfl⟩ | ⟨hax, -⟩
              · simp at hd
              · rw [show (optsOf a) = a.opts from rfl, axes_names h2]
                simpa using hax
        · intro h
          refine .inr ⟨fun hj i hi => ?_, fun hax => ?_⟩
          · by_contra hne
            have hi' : i < ufos.length := by omega
            refine h (ufoFile a stem i, savedUfo a ufos[i]) ?_ ⟨hfo', hne, fun hj' => by rw [hj] at hj'; cases hj'⟩
            unfold outputs
            refine List.mem_append.2 (.inl (List.mem_map.2 ⟨(ufos[i], i), ?_, rfl⟩))
            rw [List.mem_zipIdx_iff_getElem?]
            exact List.getElem?_eq_getElem hi'
          · by_contra hne
            rcases h4 with ⟨hx, -⟩ | ⟨-, d, rfl, -⟩
            · rw [show (optsOf a) = a.opts from rfl, axes_names h2, hx] at hax
              exact hax rfl
            · refine h (dsPath a stem, .designspace d) ?_ ⟨hfo', hne, fun _ => ⟨d, rfl⟩⟩
              unfold outputs
              simp
    rw [hroom]
    constructor
    · intro hok
      refine ⟨⟨_, rfl⟩, ?_⟩
      rcases hend with ⟨-, rfl⟩ | ⟨w, -, -, hw⟩
      · rw [List.take_length] at hfree
        exact hfree
      · rw [hok] at hw
        cases hw
    · rintro ⟨-, h⟩
      rcases hend with ⟨hok, -⟩ | ⟨w, hw, hb, -⟩
      · exact hok
      · exact absurd hb (h w (List.mem_of_getElem? hw))

end
/-! ### an example -/

/-- the run of the example of C90: all conditions are met -/
example : ∃ l, RoomFor exampleAngles exampleAsm { input := ⟨lit "/f", lit "A.vfb"⟩, path := some (lit "/g") } (lit "A") exampleDisk l ∧
    textsOf exampleAngles exampleAsm (optsOf { input := ⟨lit "/f", lit "A.vfb"⟩, path := some (lit "/g") }).build l 1514 ≠ [] := by
  obtain ⟨l, ufos, ds, h1, -⟩ := C90_files exampleAngles (fun _ => 0) exampleAsm exampleFmt { input := ⟨lit "/f", lit "A.vfb"⟩, path := some (lit "/g") } 10
    exampleDisk (stem := lit "A") (by decide) (.inl ⟨lit "vfb", by decide, by decide, by decide, rfl⟩) 5 exampleMmFile []
    (by rw [List.append_nil]; rfl) ⟨exampleMmFile.dropLast, [], rfl, by decide⟩ exampleMmFile_readable exampleRun_ok
  have hl := (C90_read exampleAngles exampleAsm { input := ⟨lit "/f", lit "A.vfb"⟩, path := some (lit "/g") } 5 exampleMmFile []
    ⟨exampleMmFile.dropLast, [], rfl, by decide⟩ exampleMmFile_readable l).2 h1
  have hl' : l = (readFont exampleAngles exampleAsm { input := ⟨lit "/f", lit "A.vfb"⟩, path := some (lit "/g") }
      (fileOf 5 exampleMmFile ++ [])).toOption.getD [] := by rw [hl]; rfl
  refine ⟨l, ?_, by rw [hl']; decide +kernel⟩
  refine ((C96_command (deg := fun _ => 0) (fmt := exampleFmt) { input := ⟨lit "/f", lit "A.vfb"⟩, path := some (lit "/g") } 10 exampleDisk
    (stem := lit "A") (by decide) (.inl ⟨lit "vfb", by decide, by decide, by decide, rfl⟩) 5 exampleMmFile []
    (by rw [List.append_nil]; rfl) ⟨exampleMmFile.dropLast, [], rfl, by decide⟩ exampleMmFile_readable h1 ?_ ?_).1 exampleRun_ok).2.2.2
  · rw [hl']
    unfold ZonesFirst
    decide +kernel
  · intro gp h e he
    have h1 : (buildGlyphs exampleAngles exampleAsm (optsOf { input := ⟨lit "/f", lit "A.vfb"⟩, path := some (lit "/g") }).build l).toOption.all
        (fun gp => gp.masters.all fun e => nests gp.order (gidsOf exampleAngles exampleAsm gp) 10 e.1) = true := by rw [hl']; decide +kernel
    rw [h] at h1
    exact nests_nested _ _ (List.all_eq_true.1 h1 e he)

end Verif.Props
