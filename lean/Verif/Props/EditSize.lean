import Verif.Props.SpecialSize
import Verif.Props.Glyph
/-! Sizes of compiled links and glyphs: lemmas for C103. -/
set_option autoImplicit false
namespace Verif.Props
open Verif Verif.Spec

theorem all_le_mul {α : Type} {l : List α} {f : α → W} {k : Nat} (hf : ∀ a ∈ l, ∀ b, f a = .ok b → b.length ≤ k) {b : Bytes}
    (h : W.all l f = .ok b) : b.length ≤ k * l.length := by
  induction l generalizing b with
  | nil => cases h; simp
  | cons a l ih =>
    rw [W.all] at h
    obtain ⟨x, y, hx, hy, rfl⟩ := W.seq_eq_ok.1 h
    have h1 := hf a List.mem_cons_self x hx
    have h2 := ih (fun a ha => hf a (List.mem_cons_of_mem _ ha)) hy
    rw [List.length_append, List.length_cons, Nat.mul_add]
    omega

theorem pair_le_ten {x y : Int} {b : Bytes} (h : (writeValue x ++ writeValue y : W) = .ok b) : b.length ≤ 10 := by
  obtain ⟨u, v, hu, hv, rfl⟩ := W.seq_eq_ok.1 h
  have h1 := writeValue_le_five hu
  have h2 := writeValue_le_five hv
  rw [List.length_append]
  omega

theorem readPair_consume {s r : Bytes} {p : Int × Int} (h : readPair s = .ok p r) : r.length + 2 ≤ s.length := by
  unfold readPair at h
  rw [R.bind_run] at h
  cases h1 : readValue true s with
  | err e r1 => rw [h1] at h; cases h
  | ok w r1 =>
    rw [h1] at h
    simp only [R.bind_run] at h
    cases h2 : readValue true r1 with
    | err e r2 => rw [h2] at h; cases h
    | ok w2 r2 =>
      rw [h2] at h
      have a := readValue_consume h1
      have b := readValue_consume h2
      cases h
      omega

theorem rep_pairs {n : Nat} {s r : Bytes} {l : List (Int × Int)} (h : R.rep n readPair s = .ok l r) : 2 * l.length + r.length ≤ s.length := by
  induction n generalizing s l r with
  | zero => cases h; simp
  | succ n ih =>
    rw [R.rep, R.bind_run] at h
    cases h1 : readPair s with
    | err e r1 => rw [h1] at h; cases h
    | ok t r1 =>
      rw [h1] at h
      simp only [R.bind_run] at h
      cases h2 : R.rep n readPair r1 with
      | err e r2 => rw [h2] at h; cases h
      | ok l2 r2 =>
        rw [h2] at h
        have a := readPair_consume h1
        have b := ih h2
        cases h
        rw [List.length_cons]
        omega

theorem readLinkDir_consume {s r : Bytes} {l : List (Int × Int)} (h : readLinkDir s = .ok l r) : 2 * l.length + 1 + r.length ≤ s.length := by
  unfold readLinkDir at h
  rw [R.bind_run] at h
  cases h1 : readValue true s with
  | err e r1 => rw [h1] at h; cases h
  | ok n r1 =>
    rw [h1] at h
    have hv := readValue_consume h1
    have := rep_pairs (n := n.toNat) h
    omega

theorem writeLinkDir_length {l : List (Int × Int)} {b : Bytes} (h : writeLinkDir l = .ok b) : b.length ≤ 5 + 10 * l.length := by
  unfold writeLinkDir at h
  obtain ⟨u, v, hu, hv, rfl⟩ := W.seq_eq_ok.1 h
  have h1 := writeValue_le_five hu
  have h2 := all_le_mul (k := 10) (fun a _ b hb => pair_le_ten hb) hv
  rw [List.length_append]
  omega

theorem links_size {s r b : Bytes} {d : Links} (h : parseLinks s = .ok d r) (hb : compileLinks d = .ok b) : b.length ≤ 5 * s.length := by
  unfold parseLinks at h
  rw [R.bind_run] at h
  cases h1 : readLinkDir s with
  | err e r1 => rw [h1] at h; cases h
  | ok y r1 =>
    rw [h1] at h
    simp only [R.bind_run] at h
    cases h2 : readLinkDir r1 with
    | err e r2 => rw [h2] at h; cases h
    | ok x r2 =>
      rw [h2] at h
      cases h
      have a1 := readLinkDir_consume h1
      have a2 := readLinkDir_consume h2
      obtain ⟨u, v, hu, hv, rfl⟩ := W.seq_eq_ok.1 hb
      have b1 := writeLinkDir_length hu
      have b2 := writeLinkDir_length hv
      rw [List.length_append]
      simp only at b1 b2
      omega

/-! ### outlines with one point per node and master -/

theorem writeRow_length {refs row : List Point} {b : Bytes} (h : writeRow refs row = .ok b) : b.length ≤ 10 * row.length := by
  have h1 := all_le_mul (k := 10) (fun a _ b hb => pair_le_ten hb) h
  rw [List.length_zip] at h1
  have : min refs.length row.length ≤ row.length := Nat.min_le_right _ _
  omega

theorem column_length {j n : Nat} {l : List (List Point)} {row : List Point} (h : column j n l = .ok row) : row.length = n := by
  induction n generalizing l row with
  | zero => cases h; rfl
  | succ n ih =>
    cases l with
    | nil => cases h
    | cons ps rest =>
      unfold column at h
      cases h1 : ps[j]? with
      | none => rw [h1] at h; cases h
      | some p =>
        rw [h1] at h
        cases h2 : column j n rest with
        | error e => rw [h2] at h; cases h
        | ok r =>
          rw [h2] at h
          cases h
          rw [List.length_cons, ih h2]

theorem writeNodes_length {n : Nat} {refs : List Point} {nodes : List MMNode} (h1 : ∀ x ∈ nodes, ∀ ps ∈ x.points, ps.length = 1) {b : Bytes}
    (h : writeNodes n refs nodes = .ok b) : b.length ≤ (1 + 10 * n) * nodes.length := by
  induction nodes generalizing refs b with
  | nil => cases h; simp
  | cons x nodes ih =>
    rw [writeNodes] at h
    obtain ⟨u, v, hu, hv, rfl⟩ := W.seq_eq_ok.1 h
    have hu1 : u.length = 1 := by
      unfold writeU8 at hu
      exact toBytesLE_length hu
    cases hp : x.points with
    | nil => rw [hp] at hv; cases hv
    | cons ps pss =>
      rw [hp] at hv
      simp only at hv
      have hps : ps.length = 1 := h1 x List.mem_cons_self ps (by rw [hp]; exact List.mem_cons_self)
      rw [hps, writeRows] at hv
      unfold W.withVal at hv
      cases hc : column 0 n (ps :: pss) with
      | error e => rw [hc] at hv; cases hv
      | ok row =>
        rw [hc] at hv
        simp only at hv
        obtain ⟨y, z, hy, hz, rfl⟩ := W.seq_eq_ok.1 hv
        have a1 := writeRow_length hy
        rw [column_length hc] at a1
        have a2 := ih (fun x hx => h1 x (List.mem_cons_of_mem _ hx)) hz
        simp only [List.length_append, List.length_cons, Nat.mul_add]
        omega

theorem writeOutlines_length {n : Int} {nodes : List MMNode} (h1 : ∀ x ∈ nodes, ∀ ps ∈ x.points, ps.length = 1) {b : Bytes}
    (h : writeOutlines n nodes = .ok b) : b.length ≤ 15 + (1 + 10 * n.toNat) * nodes.length := by
  unfold writeOutlines at h
  obtain ⟨u, v, hu, hv, rfl⟩ := W.seq_eq_ok.1 h
  have h2 := writeValue_le_five hu
  by_cases hn : nodes = []
  · rw [if_pos hn] at hv
    obtain ⟨y, z, hy, hz, rfl⟩ := W.seq_eq_ok.1 hv
    have := writeValue_le_five hy
    have := writeValue_le_five hz
    simp only [List.length_append]
    omega
  · rw [if_neg hn] at hv
    obtain ⟨y, z, hy, hz, rfl⟩ := W.seq_eq_ok.1 hv
    obtain ⟨p, q, hp, hq, rfl⟩ := W.seq_eq_ok.1 hz
    have := writeValue_le_five hy
    have := writeValue_le_five hp
    have := writeNodes_length h1 hq
    simp only [List.length_append]
    omega

theorem writeU8_length {v : Int} {b : Bytes} (h : writeU8 v = .ok b) : b.length = 1 := by
  unfold writeU8 at h
  exact toBytesLE_length h

/-- a glyph that has nothing but an empty name, metrics and nodes with one point for each master -/
theorem bareGlyph_size (ops : AngleOps) (asm : AsmOps) (k n : Nat) (nodes : List MMNode) (h1 : ∀ x ∈ nodes, ∀ ps ∈ x.points, ps.length = 1)
    {b : Bytes} (h : compileGlyph ops asm k { emptyGlyph ops.Angle asm.Asm n with nodes := some nodes } = .ok b) :
    b.length ≤ 30 + 10 * n + (1 + 10 * n) * nodes.length := by
  unfold compileGlyph at h
  simp only [emptyGlyph] at h
  obtain ⟨u0, v0, hu0, hv0, rfl⟩ := W.seq_eq_ok.1 h
  obtain ⟨u1, v1, hu1, hv1, rfl⟩ := W.seq_eq_ok.1 hv0
  obtain ⟨u2, v2, hu2, hv2, rfl⟩ := W.seq_eq_ok.1 hv1
  obtain ⟨u3, v3, hu3, hv3, rfl⟩ := W.seq_eq_ok.1 hv2
  obtain ⟨u4, v4, hu4, hv4, rfl⟩ := W.seq_eq_ok.1 hv3
  obtain ⟨u5, v5, hu5, hv5, rfl⟩ := W.seq_eq_ok.1 hv4
  obtain ⟨u6, v6, hu6, hv6, rfl⟩ := W.seq_eq_ok.1 hv5
  obtain ⟨u7, v7, hu7, hv7, rfl⟩ := W.seq_eq_ok.1 hv6
  obtain ⟨u8, v8, hu8, hv8, rfl⟩ := W.seq_eq_ok.1 hv7
  obtain ⟨u9, v9, hu9, hv9, rfl⟩ := W.seq_eq_ok.1 hv8
  obtain ⟨a, o, ha, ho, rfl⟩ := W.seq_eq_ok.1 hu2
  have e0 : u0.length = 4 := by cases hu0; rfl
  have e1 : u1.length = 0 := by cases hu1; rfl
  have e2 := writeU8_length ha
  have e3 := writeOutlines_length h1 ho
  have e4 : u3.length ≤ 1 + 10 * n := by
    unfold writeMetrics section_ at hu3
    simp only [Int.toNat_natCast] at hu3
    cases n with
    | zero => cases hu3; simp
    | succ n =>
      simp only [List.replicate_succ] at hu3
      obtain ⟨x, y, hx, hy, rfl⟩ := W.seq_eq_ok.1 hu3
      have := writeU8_length hx
      unfold W.withVal takeExact at hy
      simp only [List.length_cons, List.length_replicate, Nat.le_refl, if_true] at hy
      have := all_le_mul (k := 10) (fun a _ b hb => pair_le_ten hb) hy
      rw [List.length_take] at this
      simp only [List.length_cons, List.length_replicate, Nat.min_self] at this
      rw [List.length_append]
      omega
  have e5 : u4.length = 0 := by cases hu4; rfl
  have e6 : u5.length = 0 := by cases hu5; rfl
  have e7 : u6.length = 0 := by cases hu6; rfl
  have e8 : u7.length = 0 := by cases hu7; rfl
  have e9 : u8.length = 0 := by cases hu8; rfl
  have e10 : u9.length = 0 := by cases hu9; rfl
  have e11 := writeU8_length hv9
  simp only [List.length_append, Int.toNat_natCast, Option.getD_some] at *
  omega

end Verif.Props
