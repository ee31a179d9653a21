import Verif.Props.Table
/-! The entries that are decompiled while a file is read (FL version, master count, TrueType stems) stay small when they are compiled
again: at most four times the size of the payload they came from, and 40 bytes more. -/
set_option autoImplicit false
namespace Verif.Props
open Verif Verif.Spec

theorem packBE_length {k : Nat} {sg : Bool} {v : Int} {b : Bytes} (h : packBE k sg v = .ok b) : b.length = k := by
  unfold packBE at h
  split at h
  · cases h; simp
  · cases h

theorem writeValue_le_five {v : Int} {sg : Bool} {b : Bytes} (h : writeValue v sg = .ok b) : b.length ≤ 5 := by
  unfold writeValue at h
  split at h
  · have := packBE_length h; omega
  · split at h
    · have := packBE_length h; omega
    · split at h
      · have := packBE_length h; omega
      · obtain ⟨x, y, hx, hy, rfl⟩ := W.seq_eq_ok.1 h
        have := packBE_length hx
        have := packBE_length hy
        simp
        omega

/-- the size of a stem when it is compiled -/
theorem writeTTStem_length {s : TTStem} {b : Bytes} (h : writeTTStem s = .ok b) : b.length ≤ 11 + s.name.length := by
  unfold writeTTStem at h
  obtain ⟨x, y, hx, hy, rfl⟩ := W.seq_eq_ok.1 h
  obtain ⟨u, v, hu, hv, rfl⟩ := W.seq_eq_ok.1 hx
  have h1 := writeValue_le_five hu
  have h2 : v.length = 1 + s.name.length := by
    unfold W.withVal at hv
    cases he : encode1252 s.name with
    | error e => rw [he] at hv; cases hv
    | ok n =>
      rw [he] at hv
      obtain ⟨p, q, hp, hq, rfl⟩ := W.seq_eq_ok.1 hv
      have h3 := toBytesLE_length hp
      have h4 := encode1252_length he
      cases hq
      simp
      omega
  have h5 : y.length ≤ 5 := by
    unfold writeRounds at hy
    rw [W.all] at hy
    obtain ⟨p, q, hp, hq, rfl⟩ := W.seq_eq_ok.1 hy
    cases hq
    cases hd : dictGet s.round 6 with
    | none => rw [hd] at hp; cases hp
    | some r =>
      rw [hd] at hp
      have := writeValue_le_five (v := r) hp
      simpa using this
  simp
  omega

/-- the size of a list of stems -/
def stemsSize : List TTStem → Nat
  | [] => 0
  | s :: l => 11 + s.name.length + stemsSize l

theorem writeTTStems_length {l : List TTStem} {b : Bytes} (h : W.all l writeTTStem = .ok b) : b.length ≤ stemsSize l := by
  induction l generalizing b with
  | nil => cases h; simp
  | cons s l ih =>
    rw [W.all] at h
    obtain ⟨x, y, hx, hy, rfl⟩ := W.seq_eq_ok.1 h
    have h1 := writeTTStem_length hx
    have h2 := ih hy
    simp [stemsSize]
    omega

/-- a stem takes up at least three bytes and its name -/
theorem readTTStem_size {s r : Bytes} {t : TTStem} (h : readTTStem s = .ok t r) : 11 + t.name.length + 4 * r.length ≤ 4 * s.length := by
  unfold readTTStem at h
  rw [R.bind_run] at h
  cases h1 : readValue true s with
  | err e r1 => rw [h1] at h; cases h
  | ok w r1 =>
    rw [h1] at h
    simp only [R.bind_run] at h
    have hw := readValue_consume h1
    cases h2 : readU8 r1 with
    | err e r2 => rw [h2] at h; cases h
    | ok len r2 =>
      rw [h2] at h
      simp only at h
      cases h3 : R.readN len r2 with
      | err e r3 => rw [h3] at h; cases h
      | ok raw r3 =>
        rw [h3] at h
        simp only at h
        cases h4 : decode1252 raw with
        | error e => simp [R.lift, h4] at h
        | ok name =>
          simp only [R.lift, h4] at h
          cases h5 : readValue true r3 with
          | err e r4 => rw [h5] at h; cases h
          | ok v r4 =>
            rw [h5] at h
            cases h
            have hv := readValue_consume h5
            have hn := encode1252_length (encode_decode1252 h4)
            have hr : raw.length + r3.length = r2.length := by
              unfold R.readN at h3
              split at h3 <;> cases h3
              · simp
              · simp; omega
            have hu : r2.length < r1.length := by
              cases r1 with
              | nil =>
                rw [readU8_nil] at h2
                cases h2
                simp only [List.length_nil] at hr hv
                omega
              | cons b r1 =>
                rw [readU8_cons] at h2
                cases h2
                simp
            show 11 + name.length + 4 * r.length ≤ _
            omega

theorem rep_size {n : Nat} {s r : Bytes} {l : List TTStem} (h : R.rep n readTTStem s = .ok l r) :
    stemsSize l + 4 * r.length ≤ 4 * s.length := by
  induction n generalizing s l with
  | zero => cases h; simp [stemsSize]
  | succ n ih =>
    rw [R.rep, R.bind_run] at h
    cases h1 : readTTStem s with
    | err e r1 => rw [h1] at h; cases h
    | ok t r1 =>
      rw [h1] at h
      simp only [R.bind_run] at h
      cases h2 : R.rep n readTTStem r1 with
      | err e r2 => rw [h2] at h; cases h
      | ok l' r2 =>
        rw [h2] at h
        cases h
        have i1 := readTTStem_size h1
        have i2 := ih h2
        simp only [stemsSize]
        omega

theorem readCounted_size {s r : Bytes} {l : List TTStem} (h : readCounted readTTStem s = .ok l r) :
    stemsSize l + 4 + 4 * r.length ≤ 4 * s.length := by
  unfold readCounted at h
  rw [R.bind_run] at h
  cases h1 : readValue true s with
  | err e r1 => rw [h1] at h; cases h
  | ok n r1 =>
    rw [h1] at h
    have hv := readValue_consume h1
    have := rep_size h
    omega

theorem stems_size {s r b : Bytes} {d : TTStems TTStem} (h : parseTTStems s = .ok d r) (hb : compileTTStems d = .ok b) :
    b.length ≤ 4 * s.length + 2 := by
  unfold parseTTStems at h
  rw [R.bind_run] at h
  cases h1 : readCounted readTTStem s with
  | err e r1 => rw [h1] at h; cases h
  | ok v r1 =>
    rw [h1] at h
    simp only [R.bind_run] at h
    cases h2 : readCounted readTTStem r1 with
    | err e r2 => rw [h2] at h; cases h
    | ok hh r2 =>
      rw [h2] at h
      cases h
      have i1 := readCounted_size h1
      have i2 := readCounted_size h2
      unfold compileTTStems at hb
      obtain ⟨x, y, hx, hy, rfl⟩ := W.seq_eq_ok.1 hb
      obtain ⟨x1, x2, hx1, hx2, rfl⟩ := W.seq_eq_ok.1 hx
      obtain ⟨y1, y2, hy1, hy2, rfl⟩ := W.seq_eq_ok.1 hy
      have := writeValue_le_five hx1
      have := writeValue_le_five hy1
      have := writeTTStems_length (l := v) hx2
      have := writeTTStems_length (l := hh) hy2
      simp only [List.length_append]
      omega

theorem flVersion_size {d : FLVersion} {b : Bytes} (hb : compileFLVersion d = .ok b) : b.length ≤ 40 := by
  unfold compileFLVersion at hb
  obtain ⟨x6, y6, hx6, hy6, rfl⟩ := W.seq_eq_ok.1 hb
  obtain ⟨x5, y5, hx5, hy5, rfl⟩ := W.seq_eq_ok.1 hx6
  obtain ⟨x4, y4, hx4, hy4, rfl⟩ := W.seq_eq_ok.1 hx5
  obtain ⟨x3, y3, hx3, hy3, rfl⟩ := W.seq_eq_ok.1 hx4
  obtain ⟨x2, y2, hx2, hy2, rfl⟩ := W.seq_eq_ok.1 hx3
  obtain ⟨x1, y1, hx1, hy1, rfl⟩ := W.seq_eq_ok.1 hx2
  have h1 := toBytesLE_length hx1
  have h2 := toBytesLE_length hy2
  have h4 := toBytesLE_length hy4
  have h5 := writeValue_le_five hy5
  have h6 := toBytesLE_length hy6
  have h7 : y1.length ≤ 5 := by
    split at hy1
    · exact writeValue_le_five hy1
    · cases hy1
  have h8 : y3.length ≤ 5 := by
    split at hy3
    · rename_i hl
      obtain ⟨u, v, hu, hv, rfl⟩ := W.seq_eq_ok.1 hy3
      have := toBytesLE_length hu
      have : ∀ (l : List Int) (b : Bytes), W.all l writeU8 = .ok b → b.length = l.length := by
        intro l
        induction l with
        | nil => intro b h; cases h; rfl
        | cons a l ih =>
          intro b h
          rw [W.all] at h
          obtain ⟨p, q, hp, hq, rfl⟩ := W.seq_eq_ok.1 h
          have := toBytesLE_length hp
          have := ih q hq
          simp
          omega
      have := this _ _ hv
      simp
      omega
    · cases hy3
  simp only [List.length_append]
  omega

/-- what was read from a payload of one of the three entries is compiled to at most four times its size, and 40 bytes more -/
theorem special_size (ops : AngleOps) (asm : AsmOps) (id : Int) (hsp : isSpecial id = true) (c ctx : Ctx) (p b : Bytes)
    (d : Decompiled ops.Angle asm.Asm) (comp : Ctx → Option (Decompiled ops.Angle asm.Asm) → W)
    (hd : parseEntry ((vfbCodec ops asm).parse id c) p = .ok d) (hc : (vfbCodec ops asm).compile id = some comp)
    (hb : comp ctx (some d) = .ok b) : b.length ≤ 4 * p.length + 40 := by
  have hc' : tableCompile ops asm id = some comp := hc
  have hd' : parseEntry (tableParse ops asm id c) p = .ok d := hd
  unfold tableCompile at hc'
  unfold tableParse at hd'
  rcases special_kinds id hsp with ⟨h, _⟩ | ⟨h, _⟩ | ⟨h, _⟩
  · rw [h] at hc' hd'
    simp only [Option.map_some, Option.some.injEq] at hc'
    subst hc'
    obtain ⟨a, rfl⟩ := parse_inj ops asm h hd
    have := flVersion_size (d := a) hb
    omega
  · rw [h] at hc' hd'
    simp only [Option.map_some, Option.some.injEq] at hc'
    subst hc'
    obtain ⟨a, rfl⟩ := parse_inj ops asm h hd
    have : b.length = 2 := toBytesLE_length (v := a) hb
    omega
  · rw [h] at hc' hd'
    simp only [Option.map_some, Option.some.injEq] at hc'
    subst hc'
    rw [parseEntry_map] at hd'
    cases hp : parseEntry ((Kind.cls ops asm .ttStems).parse c) p with
    | error x => rw [hp] at hd'; cases hd'
    | ok a =>
      rw [hp] at hd'
      injection hd' with hd'
      subst hd'
      have hp' : parseEntry parseTTStems p = .ok a := hp
      unfold parseEntry at hp'
      cases hr : parseTTStems p with
      | err e r => rw [hr] at hp'; cases hp'
      | ok a' r =>
        rw [hr] at hp'
        cases r with
        | cons _ _ => cases hp'
        | nil =>
          injection hp' with hp'
          subst hp'
          have := stems_size hr hb
          omega

end Verif.Props
