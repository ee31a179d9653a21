import Verif.Props.EditLemmas
/-! C103: drawing glyphs of a font anew, saving it and reading it again. -/
set_option autoImplicit false
namespace Verif.Props
open Verif Verif.Spec

/-! ### the nodes -/

theorem penNodes_flatten (n : Nat) (cs : List UfoContour) : (cs.flatMap (penNodes n)).length = cs.flatten.length := by
  induction cs with
  | nil => rfl
  | cons c cs ih =>
    rw [List.flatMap_cons, List.length_append, ih, List.flatten_cons, List.length_append]
    congr 1
    cases c with
    | nil => rfl
    | cons f r => simp [penNodes]

theorem penNodes_shape (n : Nat) (cs : List UfoContour) (x : MMNode) (hx : x ∈ cs.flatMap (penNodes n)) :
    (x.flags = some 8 ∨ x.flags = some 0) ∧ x.type ≠ .curve ∧ ∀ ps ∈ x.points, ps.length = 1 := by
  obtain ⟨c, _, hx⟩ := List.mem_flatMap.1 hx
  cases c with
  | nil => cases hx
  | cons f r =>
    rcases List.mem_cons.1 hx with rfl | hx
    · refine ⟨?_, by simp, ?_⟩
      · simp only
        split
        · exact .inl rfl
        · exact .inr rfl
      · intro ps hps
        rw [List.eq_of_mem_replicate hps]
        rfl
    · obtain ⟨p, _, rfl⟩ := List.mem_map.1 hx
      refine ⟨.inr rfl, ?_, ?_⟩
      · unfold restNode
        simp only
        split <;> simp
      · intro ps hps
        rw [List.eq_of_mem_replicate hps]
        rfl

theorem penNodes_master (n m : Nat) (hm : m < n) (cs : List UfoContour) :
    masterPoints m (cs.flatMap (penNodes n)) = cs.flatten.map UfoPoint.pt := by
  have hr : ∀ r : List UfoPoint, masterPoints m (r.map (restNode n)) = r.map UfoPoint.pt := by
    intro r
    unfold masterPoints
    induction r with
    | nil => rfl
    | cons p r ih =>
      rw [List.map_cons, List.flatMap_cons, ih]
      simp [restNode, List.getElem?_replicate, hm]
  induction cs with
  | nil => rfl
  | cons c cs ih =>
    have hsplit : ∀ a b : List MMNode, masterPoints m (a ++ b) = masterPoints m a ++ masterPoints m b := by
      intro a b
      unfold masterPoints
      rw [List.flatMap_append]
    rw [List.flatMap_cons, hsplit, ih, List.flatten_cons, List.map_append]
    congr 1
    cases c with
    | nil => rfl
    | cons f r =>
      rw [penNodes]
      have : masterPoints m (⟨.move, some (if f.seg = some .move then 8 else 0), List.replicate n [f.pt]⟩ :: r.map (restNode n)) =
          [f.pt] ++ masterPoints m (r.map (restNode n)) := by
        unfold masterPoints
        rw [List.flatMap_cons]
        simp [List.getElem?_replicate, hm]
      rw [this, hr]
      rfl

theorem same_masterPoints {m : Nat} {a b : List MMNode} (h : List.Forall₂ (SameIn m) a b) : masterPoints m a = masterPoints m b := by
  unfold masterPoints
  induction h with
  | nil => rfl
  | cons h _ ih => rw [List.flatMap_cons, List.flatMap_cons, ih, h.2.2]

theorem steps_small (l : List Point) (from_ : Point) (hf : (-1000000000 ≤ from_.1 ∧ from_.1 ≤ 1000000000) ∧ (-1000000000 ≤ from_.2 ∧ from_.2 ≤ 1000000000))
    (h : ∀ p ∈ l, (-1000000000 ≤ p.1 ∧ p.1 ≤ 1000000000) ∧ (-1000000000 ≤ p.2 ∧ p.2 ≤ 1000000000)) : ∀ d ∈ stepsFrom from_ l, PairFits d := by
  induction l generalizing from_ with
  | nil => intro d hd; cases hd
  | cons p l ih =>
    intro d hd
    have hp := h p List.mem_cons_self
    rcases List.mem_cons.1 hd with rfl | hd
    · constructor
      · constructor <;> simp only <;> omega
      · constructor <;> simp only <;> omega
    · exact ih p hp (fun q hq => h q (List.mem_cons_of_mem _ hq)) d hd

theorem forall₂_mem_left {α β : Type} {r : α → β → Prop} {l1 : List α} {l2 : List β} (h : List.Forall₂ r l1 l2) {x : α} (hx : x ∈ l1) :
    ∃ y ∈ l2, r x y := by
  induction h with
  | nil => cases hx
  | cons h _ ih =>
    rcases List.mem_cons.1 hx with rfl | hx
    · exact ⟨_, List.mem_cons_self, h⟩
    · obtain ⟨y, hy, hr⟩ := ih hx
      exact ⟨y, List.mem_cons_of_mem _ hy, hr⟩

/-- the merged nodes of drawable contours can be stored -/
theorem drawn_fits {n : Nat} (hn : 1 ≤ n) (hn2 : n < 65536) {css : List (List UfoContour)} (hd : Drawable n css) {nodes : List MMNode}
    (hsame : ∀ (m : Nat) cs, css[m]? = some cs → List.Forall₂ (SameIn m) nodes (cs.flatMap (penNodes n)))
    (hend : ∀ m, n ≤ m → ∀ x ∈ nodes, x.points[m]? = none) :
    OutlineFits n nodes ∧ (∀ x ∈ nodes, ∀ ps ∈ x.points, ps.length = 1) ∧ n * nodes.length < 100000000 := by
  have hget : ∀ m, m < n → ∃ cs, css[m]? = some cs ∧ cs ∈ css := by
    intro m hm
    have : m < css.length := by rw [hd.masters]; exact hm
    exact ⟨css[m], List.getElem?_eq_getElem this, List.getElem_mem this⟩
  obtain ⟨c0, hc0, hm0⟩ := hget 0 (by omega)
  have hf0 := hsame 0 c0 hc0
  have hlen : nodes.length = c0.flatten.length := by rw [hf0.length_eq, penNodes_flatten]
  have hpts : n * nodes.length < 100000000 := by rw [hlen]; exact hd.points c0 hm0
  have hone : ∀ x ∈ nodes, ∀ ps ∈ x.points, ps.length = 1 := by
    intro x hx ps hps
    obtain ⟨m, hm, rfl⟩ := List.mem_iff_getElem.1 hps
    have hmn : m < n := by
      by_cases h : m < n
      · exact h
      · have := hend m (by omega) x hx
        rw [List.getElem?_eq_getElem hm] at this
        cases this
    obtain ⟨cs, hcs, _⟩ := hget m hmn
    obtain ⟨y, hy, _, _, hxy⟩ := forall₂_mem_left (hsame m cs hcs) hx
    rw [List.getElem?_eq_getElem hm] at hxy
    have := penNodes_shape n cs y hy
    exact this.2.2 _ (List.mem_of_getElem? hxy.symm)
  have hshape : ∀ x ∈ nodes, NodeShape n x ∧ x.type ≠ .curve := by
    intro x hx
    obtain ⟨y, hy, h1, h2, _⟩ := forall₂_mem_left hf0 hx
    obtain ⟨s1, s2, _⟩ := penNodes_shape n c0 y hy
    refine ⟨⟨?_, ?_, ?_⟩, by rw [h1]; exact s2⟩
    · rcases s1 with s1 | s1
      · exact ⟨8, by rw [h2, s1], by omega, by omega⟩
      · exact ⟨0, by rw [h2, s1], by omega, by omega⟩
    · rcases Nat.lt_trichotomy x.points.length n with h | h | h
      · obtain ⟨cs, hcs, _⟩ := hget x.points.length h
        obtain ⟨y, hy, _, _, hxy⟩ := forall₂_mem_left (hsame _ cs hcs) hx
        rw [List.getElem?_eq_none (Nat.le_refl _)] at hxy
        have := List.getElem?_eq_none_iff.1 hxy.symm
        rw [penNodes_points n cs y hy] at this
        omega
      · exact h
      · have := hend n (Nat.le_refl _) x hx
        rw [List.getElem?_eq_getElem h] at this
        cases this
    · intro ps hps
      rw [hone x hx ps hps]
      unfold pointCount
      rw [if_neg (by rw [h1]; exact s2)]
  refine ⟨⟨by omega, by omega, fun _ => by omega, ⟨fun x hx => (hshape x hx).1, ?_⟩, ?_⟩, hone, hpts⟩
  · intro m hm
    obtain ⟨cs, hcs, hmem⟩ := hget m hm
    rw [same_masterPoints (hsame m cs hcs), penNodes_master n m hm]
    refine steps_small _ _ (by simp only; omega) ?_
    intro p hp
    obtain ⟨q, hq, rfl⟩ := List.mem_map.1 hp
    obtain ⟨c, hc, hqc⟩ := List.mem_flatten.1 hq
    exact hd.coordinates cs hmem c hc q hqc
  · have hsum : (nodes.map fun x => pointCount x.type).sum = nodes.length := by
      have : ∀ l : List MMNode, (∀ x ∈ l, x.type ≠ .curve) → (l.map fun x => pointCount x.type).sum = l.length := by
        intro l
        induction l with
        | nil => intro _; rfl
        | cons x l ih =>
          intro h
          rw [List.map_cons, List.sum_cons, ih fun y hy => h y (List.mem_cons_of_mem _ hy)]
          have : pointCount x.type = 1 := if_neg (h x List.mem_cons_self)
          rw [this, List.length_cons, Nat.add_comm]
      exact this nodes fun x hx => (hshape x hx).2
    unfold outlineSize
    rw [Int.toNat_natCast, hsum, Nat.mul_assoc 2 n]
    have : nodes.length ≤ n * nodes.length := Nat.le_mul_of_pos_left _ hn
    omega

section
variable (ops : AngleOps) (asm : AsmOps)

/-- compiling and reading a glyph that has got nothing but nodes and zero metrics -/
theorem bareGlyph_cycle (ctx : Ctx) (n : Nat) (hn : 1 ≤ n) (hn2 : n < 65536) (hc : ctx.num_masters = n) (nodes : List MMNode)
    (hf : OutlineFits n nodes) (h1 : ∀ x ∈ nodes, ∀ ps ∈ x.points, ps.length = 1) (hs : n * nodes.length < 100000000) :
    ∃ b, (Kind.glyph).compileData ops asm ctx (some (.glyph { emptyGlyph ops.Angle asm.Asm n with nodes := some nodes })) = .ok b ∧
      b.length < 4294967296 ∧
      ∀ c, BareGlyph (vfbCodec ops asm) c n { id := 2001, data := .bytes b } nodes := by
  have hg : GlyphFits ops asm ctx.num_masters.toNat { emptyGlyph ops.Angle asm.Asm n with nodes := some nodes } := by
    refine ⟨n, rfl, hf, ?_, ?_, ?_, ?_, ?_, ?_, ?_, ?_⟩
    · intro s hs
      simp only [emptyGlyph, Option.some.injEq] at hs
      subst hs
      exact ⟨by decide, by simp⟩
    · intro l hl
      simp only [emptyGlyph, Option.some.injEq] at hl
      subst hl
      refine ⟨.inr (by simp), ?_⟩
      intro p hp
      rw [List.eq_of_mem_replicate hp]
      constructor <;> constructor <;> simp
    all_goals (intro d hd; cases hd)
  obtain ⟨b, b1, b2⟩ := C42_compile ops asm ctx.num_masters.toNat _ hg
  refine ⟨b, ?_, ?_, ?_⟩
  · exact b1
  · have hsz := bareGlyph_size ops asm ctx.num_masters.toNat n nodes h1 b1
    have : nodes.length ≤ n * nodes.length := Nat.le_mul_of_pos_left _ hn
    have h3 : (1 + 10 * n) * nodes.length = nodes.length + 10 * (n * nodes.length) := by
      rw [Nat.add_mul, Nat.one_mul, Nat.mul_assoc]
    rw [h3] at hsz
    omega
  · intro c
    have hk : kindOf 2001 = some .glyph := by decide +kernel
    have hparse : (vfbCodec ops asm).parse 2001 c = (do
        let a ← (Kind.glyph.cls ops asm).parse c
        pure ((Kind.glyph.cls ops asm).inj a)) := by
      show tableParse ops asm 2001 c = _
      unfold tableParse
      rw [hk]
    have hp : parseEntry ((vfbCodec ops asm).parse 2001 c) b =
        .ok (.glyph (storedGlyph ops asm { emptyGlyph ops.Angle asm.Asm n with nodes := some nodes })) := by
      rw [hparse, parseEntry_map]
      show (parseEntry (parseGlyph ops asm) b).map _ = _
      rw [b2]
      rfl
    refine ⟨{ id := 2001, data := .dec (.glyph (storedGlyph ops asm { emptyGlyph ops.Angle asm.Asm n with nodes := some nodes })) },
      by simp only [Entry.decompile, hp], ?_⟩
    congr 2
    unfold storedGlyph emptyGlyph
    obtain ⟨k, rfl⟩ : ∃ k, n = k + 1 := ⟨n - 1, by omega⟩
    simp only [dropEmpty, storedHints, storedImported, Int.toNat_natCast, List.replicate_succ, orEmpty, Option.getD_some, Option.map_none]

theorem merged_eq (ctx : Ctx) (n : Nat) (hc : ctx.num_masters = n) (g : Glyph ops.Angle asm.Asm) (d m : MasterData) (t : Option (List MasterData))
    (e : Entry (Decompiled ops.Angle asm.Asm) (List MasterData)) (he : e.id = 2001) (h : mergeMastersData t n d = (m, none)) :
    (putGlyph e g d t).merged (vfbCodec ops asm) ctx = (some (.glyph { g with nodes := m.nodes, components := m.components }), none) := by
  unfold Entry.merged putGlyph
  simp only
  unfold mergeMastersData at h
  cases t with
  | none =>
    simp only [Prod.mk.injEq, and_true] at h
    subst h
    rfl
  | some l =>
    simp only at h ⊢
    by_cases h1 : n = 1
    · rw [if_pos h1] at h
      rw [if_pos (by rw [hc, h1]; rfl)]
      simp only [Prod.mk.injEq, and_true] at h
      subst h
      rfl
    · rw [if_neg h1] at h
      rw [if_neg (by rw [hc]; omega)]
      have hv : (vfbCodec ops asm).merge = tableMerge ops asm := rfl
      rw [hv, he]
      unfold tableMerge
      simp only [if_true, h]

/-- what has become of an entry of the font when glyphs have been looked up and some of them been drawn anew -/
def Reworked (ctx : Ctx) (n : Nat) (order : List PyStr) (e e2 : Entry (Decompiled ops.Angle asm.Asm) (List MasterData)) : Prop :=
  (e.id = 2001 ∧ (e2 = freshEntry ops.Angle asm.Asm n ∨ ∃ css, Drawable n css ∧ Drawn n order css e2)) ∨
  ((e.id = 2008 ∨ e.id = 2010 ∨ e.id = 1093) ∧ e.decompile (vfbCodec ops asm) ctx = (.ok (), e2, false)) ∨
  ((e.id ≠ 2001 ∧ e.id ≠ 2008 ∧ e.id ≠ 2010 ∧ e.id ≠ 1093) ∧ e2 = e)

/-- what is read in its place -/
def ReadBack (ctx : Ctx) (n : Nat) (order : List PyStr) (e e2 y : Entry (Decompiled ops.Angle asm.Asm) (List MasterData)) : Prop :=
  y.id = e.id ∧
  (e.id = 2001 → (e2 = freshEntry ops.Angle asm.Asm n → BareGlyph (vfbCodec ops asm) ctx n y []) ∧
    ∀ css, Drawable n css → Drawn n order css e2 →
      ∃ nodes, BareGlyph (vfbCodec ops asm) ctx n y nodes ∧ ∀ (m : Nat) cs, css[m]? = some cs → extractContours nodes [] m false = .ok (cs, [])) ∧
  ((e.id = 2008 ∨ e.id = 2010 ∨ e.id = 1093) → y.decompile (vfbCodec ops asm) ctx = (.ok (), e2, false)) ∧
  ((e.id ≠ 2001 ∧ e.id ≠ 2008 ∧ e.id ≠ 2010 ∧ e.id ≠ 1093) → y = e)

/-- an entry with nodes and the data of other masters is compiled -/
theorem put_compiles (ctx : Ctx) (n : Nat) (hn : 1 ≤ n) (hn2 : n < 65536) (hc : ctx.num_masters = n) (d m : MasterData) (t : Option (List MasterData))
    (nodes : List MMNode) (hm : mergeMastersData t n d = (m, none)) (hmn : m.nodes = some nodes) (hmc : m.components = none)
    (hf : OutlineFits n nodes) (h1 : ∀ x ∈ nodes, ∀ ps ∈ x.points, ps.length = 1) (hs : n * nodes.length < 100000000) :
    ∃ b e', (putGlyph (freshEntry ops.Angle asm.Asm n) (emptyGlyph ops.Angle asm.Asm n) d t).compile (vfbCodec ops asm) ctx = (.ok true, e') ∧
      e'.id = 2001 ∧ e'.cached = none ∧ e'.data = .bytes b ∧ b.length < 4294967296 ∧
      ∀ c, BareGlyph (vfbCodec ops asm) c n { id := 2001, data := .bytes b } nodes := by
  obtain ⟨b, b1, b2, b3⟩ := bareGlyph_cycle ops asm ctx n hn hn2 hc nodes hf h1 hs
  have hk : kindOf 2001 = some .glyph := by decide +kernel
  have hcomp : (vfbCodec ops asm).compile 2001 = some (Kind.compileData ops asm .glyph) := by
    show tableCompile ops asm 2001 = _
    unfold tableCompile
    rw [hk]
    rfl
  have hmer := merged_eq ops asm ctx n hc (emptyGlyph ops.Angle asm.Asm n) d m t (freshEntry ops.Angle asm.Asm n) rfl hm
  rw [hmn, hmc] at hmer
  refine ⟨b, { putGlyph (freshEntry ops.Angle asm.Asm n) (emptyGlyph ops.Angle asm.Asm n) d t with data := .bytes b }, ?_, rfl, rfl, rfl, b2, b3⟩
  have hid : (putGlyph (freshEntry ops.Angle asm.Asm n) (emptyGlyph ops.Angle asm.Asm n) d t).id = 2001 := rfl
  have hdat : (putGlyph (freshEntry ops.Angle asm.Asm n) (emptyGlyph ops.Angle asm.Asm n) d t).data =
      .dec (.glyph { emptyGlyph ops.Angle asm.Asm n with nodes := d.nodes, components := d.components }) := rfl
  unfold Entry.compile
  rw [hdat, hid, hcomp]
  simp only [hmer]
  have b1' : Kind.compileData ops asm .glyph ctx (some (.glyph { emptyGlyph ops.Angle asm.Asm n with nodes := some nodes, components := none })) = .ok b := b1
  rw [b1']
  rfl

theorem fresh_compiles (ctx : Ctx) (n : Nat) (hn : 1 ≤ n) (hn2 : n < 65536) (hc : ctx.num_masters = n) :
    ∃ b e', (freshEntry ops.Angle asm.Asm n).compile (vfbCodec ops asm) ctx = (.ok true, e') ∧
      e'.id = 2001 ∧ e'.cached = none ∧ e'.data = .bytes b ∧ b.length < 4294967296 ∧
      ∀ c, BareGlyph (vfbCodec ops asm) c n { id := 2001, data := .bytes b } [] := by
  refine put_compiles ops asm ctx n hn hn2 hc ⟨some [], none⟩ ⟨some [], none⟩ none [] rfl rfl rfl ?_ (by simp) (by simp)
  refine ⟨by omega, by omega, fun h => absurd rfl h, ⟨by simp, ?_⟩, by simp [outlineSize]⟩
  intro m _ d hd
  cases hd

theorem drawn_compiles (ctx : Ctx) (n : Nat) (hn : 1 ≤ n) (hn2 : n < 65536) (hc : ctx.num_masters = n) (order : List PyStr)
    (css : List (List UfoContour)) (hd : Drawable n css) (e2 : Entry (Decompiled ops.Angle asm.Asm) (List MasterData)) (h2 : Drawn n order css e2) :
    ∃ b e' nodes, e2.compile (vfbCodec ops asm) ctx = (.ok true, e') ∧
      e'.id = 2001 ∧ e'.cached = none ∧ e'.data = .bytes b ∧ b.length < 4294967296 ∧
      (∀ c, BareGlyph (vfbCodec ops asm) c n { id := 2001, data := .bytes b } nodes) ∧
      ∀ (m : Nat) cs, css[m]? = some cs → extractContours nodes [] m false = .ok (cs, []) := by
  obtain ⟨g, t, d1, d2, rfl⟩ := h2
  obtain ⟨g', temp, merged, nodes, h1, h2, h3, h4, h5, h6, h7, h8⟩ :=
    redraw_merged n order css hd.masters hn hd.trueType hd.compatible ⟨some [], none⟩
  rw [h1] at d1
  injection d1 with d1 _
  subst d1
  have ht : temp = t := by
    rw [h2] at d2
    have := congrArg (Option.map (·.filterMap id)) d2
    rw [filterMap_some, filterMap_some] at this
    exact this
  subst ht
  obtain ⟨f1, f2, f3⟩ := drawn_fits hn hn2 hd h7 h8
  obtain ⟨b, e', p1, p2, p3, p4, p5, p6⟩ := put_compiles ops asm ctx n hn hn2 hc g'.data merged temp nodes h3 h4 h5 f1 f2 f3
  exact ⟨b, e', nodes, p1, p2, p3, p4, p5, p6, h6⟩

/-- an entry of a class whose data are always written as they were read -/
theorem stable_cycle (id : Int) (k : Kind) (hk : kindOf id = some k) (ctx : Ctx)
    (hst : Stable ((k.cls ops asm).compile ctx) ((k.cls ops asm).parse ctx))
    (payload : Bytes) (d : Decompiled ops.Angle asm.Asm) (hp : payload.length < 2147483648)
    (h : parseEntry ((vfbCodec ops asm).parse id ctx) payload = .ok d) :
    ∃ comp b, (vfbCodec ops asm).compile id = some comp ∧ comp ctx (some d) = .ok b ∧
      parseEntry ((vfbCodec ops asm).parse id ctx) b = .ok d ∧
      ∃ a, parseEntry ((k.cls ops asm).parse ctx) payload = .ok a ∧ (k.cls ops asm).compile ctx a = .ok b := by
  have hparse : (vfbCodec ops asm).parse id ctx = (do
      let a ← (k.cls ops asm).parse ctx
      pure ((k.cls ops asm).inj a)) := by
    show tableParse ops asm id ctx = _
    unfold tableParse
    rw [hk]
  have hcomp : (vfbCodec ops asm).compile id = some (k.compileData ops asm) := by
    show tableCompile ops asm id = _
    unfold tableCompile
    rw [hk]
    rfl
  rw [hparse, parseEntry_map] at h
  cases ha : parseEntry ((k.cls ops asm).parse ctx) payload with
  | error e => rw [ha] at h; cases h
  | ok a =>
    rw [ha] at h
    injection h with h
    obtain ⟨b, h1, h2⟩ := hst payload a (by omega) ha
    refine ⟨_, b, hcomp, ?_, ?_, a, rfl, h1⟩
    · rw [← h]
      unfold Kind.compileData
      simp only [proj_inj]
      exact h1
    · rw [hparse, parseEntry_map, h2, ← h]
      rfl

/-- links and hinting options are written and read again -/
theorem aux_cycle (id : Int) (k : Kind) (hk : kindOf id = some k) (ctx : Ctx)
    (hst : Stable ((k.cls ops asm).compile ctx) ((k.cls ops asm).parse ctx))
    (hsz : ∀ payload a b, parseEntry ((k.cls ops asm).parse ctx) payload = .ok a → (k.cls ops asm).compile ctx a = .ok b → b.length ≤ 5 * payload.length + 4)
    (payload : Bytes) (d : Decompiled ops.Angle asm.Asm) (hp : payload.length < 800000000)
    (h : parseEntry ((vfbCodec ops asm).parse id ctx) payload = .ok d) :
    ∃ comp b, (vfbCodec ops asm).compile id = some comp ∧ comp ctx (some d) = .ok b ∧ b.length < 4294967296 ∧
      parseEntry ((vfbCodec ops asm).parse id ctx) b = .ok d := by
  obtain ⟨comp, b, h1, h2, h3, a, h4, h5⟩ := stable_cycle ops asm id k hk ctx hst payload d (by omega) h
  have := hsz payload a b h4 h5
  exact ⟨comp, b, h1, h2, by omega, h3⟩

/-- the three special entries are written and read again -/
theorem special_cycle (id : Int) (hsp : isSpecial id = true) (ctx c : Ctx)
    (payload : Bytes) (d : Decompiled ops.Angle asm.Asm) (hp : payload.length < 800000000)
    (h : parseEntry ((vfbCodec ops asm).parse id c) payload = .ok d) :
    ∃ comp b, (vfbCodec ops asm).compile id = some comp ∧ comp ctx (some d) = .ok b ∧ b.length < 4294967296 ∧
      ∀ c', parseEntry ((vfbCodec ops asm).parse id c') b = .ok d := by
  have hs := vfb_special_fixed ops asm
  have h' := h
  rw [hs id hsp c ctx] at h'
  have key : ∃ comp b, (vfbCodec ops asm).compile id = some comp ∧ comp ctx (some d) = .ok b ∧
      parseEntry ((vfbCodec ops asm).parse id ctx) b = .ok d := by
    rcases special_kinds id hsp with ⟨hk, _⟩ | ⟨hk, _⟩ | ⟨hk, _⟩
    · obtain ⟨comp, b, h1, h2, h3, _⟩ := stable_cycle ops asm id _ hk ctx C29_flversion_stable payload d (by omega) h'
      exact ⟨comp, b, h1, h2, h3⟩
    · obtain ⟨comp, b, h1, h2, h3, _⟩ := stable_cycle ops asm id _ hk ctx C25_int_stable.1 payload d (by omega) h'
      exact ⟨comp, b, h1, h2, h3⟩
    · obtain ⟨comp, b, h1, h2, h3, _⟩ := stable_cycle ops asm id _ hk ctx C37_stems_stable payload d (by omega) h'
      exact ⟨comp, b, h1, h2, h3⟩
  obtain ⟨comp, b, h1, h2, h3⟩ := key
  have := special_size ops asm id hsp c ctx payload b d comp h h1 h2
  exact ⟨comp, b, h1, h2, by omega, fun c' => by rw [hs id hsp c' ctx]; exact h3⟩

theorem aux_kinds (id : Int) (hid : id = 2008 ∨ id = 2010 ∨ id = 1093) (ctx : Ctx)
    (payload : Bytes) (d : Decompiled ops.Angle asm.Asm) (hp : payload.length < 800000000)
    (h : parseEntry ((vfbCodec ops asm).parse id ctx) payload = .ok d) :
    ∃ comp b, (vfbCodec ops asm).compile id = some comp ∧ comp ctx (some d) = .ok b ∧ b.length < 4294967296 ∧
      parseEntry ((vfbCodec ops asm).parse id ctx) b = .ok d := by
  have hopt : ∀ (names : _) (x : BitOptions) (b : Bytes) (w : Int → W) (k : Nat), (∀ v b, w v = .ok b → b.length = k) →
      W.withVal (sumOptions names x) w = .ok b → b.length = k := by
    intro names x b w k hw hb
    unfold W.withVal at hb
    cases hs : sumOptions names x with
    | error e => rw [hs] at hb; cases hb
    | ok v => rw [hs] at hb; exact hw v b hb
  rcases hid with rfl | rfl | rfl
  · refine aux_cycle ops asm 2008 .links (by decide +kernel) ctx C44_links_stable ?_ payload d hp h
    intro payload a b ha hb
    have ha : parseEntry parseLinks payload = .ok a := ha
    unfold parseEntry at ha
    cases hr : parseLinks payload with
    | err e r => rw [hr] at ha; cases ha
    | ok l r =>
      rw [hr] at ha
      cases r with
      | cons x r => cases ha
      | nil =>
        injection ha with ha
        subst ha
        have := links_size hr hb
        omega
  · refine aux_cycle ops asm 2010 .psGlyphOptions (by decide +kernel) ctx C32_options_stable.2 ?_ payload d hp h
    intro payload a b _ hb
    have := hopt _ a b writeU32 4 (fun v b h => toBytesLE_length h) hb
    omega
  · refine aux_cycle ops asm 1093 .psGlobalOptions (by decide +kernel) ctx C32_options_stable.1 ?_ payload d hp h
    intro payload a b _ hb
    have := hopt _ a b writeU16 2 (fun v b h => toBytesLE_length h) hb
    omega

theorem rework_steps (ctx : Ctx) (force : Bool) (n : Nat) (hn : 1 ≤ n) (hn2 : n < 65536) (hc : ctx.num_masters = n) (order : List PyStr) :
    StepsExist ops asm ctx force (Reworked ops asm ctx n order) (ReadBack ops asm ctx n order) := by
  intro c p e2 r1 r2 r4 hR
  have hid : (loadedEntry (vfbCodec ops asm) c p : Entry _ (List MasterData)).id = p.1 := by
    unfold loadedEntry
    by_cases hsp : isSpecial p.1 = true
    · obtain ⟨d, hd⟩ := r4 hsp
      rw [if_pos hsp, hd]
    · rw [if_neg hsp]
  have hplain : ∀ q : Nat × Bytes, isSpecial q.1 ≠ true → (loadedEntry (vfbCodec ops asm) c q : Entry _ (List MasterData)) = { id := q.1, data := .bytes q.2 } := by
    intro q hq
    unfold loadedEntry
    rw [if_neg hq]
  rcases hR with ⟨h, hg⟩ | ⟨h, hg⟩ | ⟨h, rfl⟩
  · rw [hid] at h
    obtain ⟨i, b0⟩ := p
    have hi : i = 2001 := by simp only at h; omega
    subst hi
    have hsp : isSpecial (2001 : Nat) ≠ true := by decide
    have hyes : ∃ b e', e2.compile (vfbCodec ops asm) ctx = (.ok true, e') ∧ e'.id = 2001 ∧ e'.cached = none ∧ e'.data = .bytes b ∧ b.length < 4294967296 := by
      rcases hg with rfl | ⟨css, hd, hdr⟩
      · obtain ⟨b, e', x1, x2, x3, x4, x5, _⟩ := fresh_compiles ops asm ctx n hn hn2 hc
        exact ⟨b, e', x1, x2, x3, x4, x5⟩
      · obtain ⟨b, e', _, x1, x2, x3, x4, x5, _⟩ := drawn_compiles ops asm ctx n hn hn2 hc order css hd e2 hdr
        exact ⟨b, e', x1, x2, x3, x4, x5⟩
    obtain ⟨b, e', x1, x2, x3, x4, x5⟩ := hyes
    refine ⟨(2001, b), ⟨rfl, ⟨⟨true, e', x1, x2, x3, .inl x4⟩, r1, x5⟩, ?_, ?_, ?_⟩, ?_⟩
    · intro c'
      unfold ctxAfter
      rw [if_neg hsp, if_neg hsp]
    · intro h; simp at h
    · intro h; exact absurd h hsp
    · rw [hplain _ hsp, hplain _ hsp]
      refine ⟨rfl, fun _ => ⟨?_, ?_⟩, ?_, ?_⟩
      · rintro rfl
        obtain ⟨b', e'', y1, _, _, y4, _, y6⟩ := fresh_compiles ops asm ctx n hn hn2 hc
        rw [x1] at y1
        injection y1 with _ y1
        subst y1
        rw [x4] at y4
        injection y4 with y4
        subst y4
        exact y6 ctx
      · intro css hd hdr
        obtain ⟨b', e'', nodes, y1, _, _, y4, _, y6, y7⟩ := drawn_compiles ops asm ctx n hn hn2 hc order css hd e2 hdr
        rw [x1] at y1
        injection y1 with _ y1
        subst y1
        rw [x4] at y4
        injection y4 with y4
        subst y4
        exact ⟨nodes, y6 ctx, y7⟩
      · intro h; simp at h
      · intro h; exact absurd rfl h.1
  · have hh := h
    rw [hid] at hh
    have hsp : isSpecial p.1 ≠ true := by
      intro hs
      simp only [isSpecial, Bool.or_eq_true, decide_eq_true_eq] at hs
      omega
    rw [hplain p hsp] at hg h ⊢
    simp only [Entry.decompile] at hg
    cases hd : parseEntry ((vfbCodec ops asm).parse p.1 ctx) p.2 with
    | error x => rw [hd] at hg; cases hg
    | ok d =>
      rw [hd] at hg
      injection hg with _ hg
      injection hg with hg _
      obtain ⟨comp, b, c1, c2, c3, c4⟩ := aux_kinds ops asm p.1 hh ctx p.2 d r2 hd
      refine ⟨(p.1, b), ⟨rfl, yields_of_writes ?_, ?_, ?_, fun h => absurd h hsp⟩, ?_⟩
      · rw [← hg]
        exact ⟨rfl, rfl, rfl, ⟨comp, c1, c2⟩, r1, c3⟩
      · intro c'
        unfold ctxAfter
        simp only [hsp, Bool.false_eq_true, if_false]
      · intro h'
        simp only at h'
        omega
      · rw [hplain (p.1, b) hsp]
        refine ⟨rfl, ?_, ?_, ?_⟩
        · intro h'
          simp only at h'
          omega
        · intro _
          simp only [Entry.decompile, c4, hg]
        · intro h'
          simp only at h'
          omega
  · have hrb : ∀ y, y = (loadedEntry (vfbCodec ops asm) c p : Entry _ (List MasterData)) →
        ReadBack ops asm ctx n order (loadedEntry (vfbCodec ops asm) c p) (loadedEntry (vfbCodec ops asm) c p) y := by
      rintro y rfl
      refine ⟨rfl, ?_, ?_, fun _ => rfl⟩
      · intro h'; exact absurd h' h.1
      · intro h'
        rcases h' with h' | h' | h'
        · exact absurd h' h.2.1
        · exact absurd h' h.2.2.1
        · exact absurd h' h.2.2.2
    by_cases hsp : isSpecial p.1 = true
    · obtain ⟨d, hd⟩ := r4 hsp
      obtain ⟨comp, b, c1, c2, c3, c4⟩ := special_cycle ops asm p.1 hsp ctx c p.2 d r2 hd
      have hle : ∀ q : Bytes, parseEntry ((vfbCodec ops asm).parse p.1 c) q = .ok d →
          (loadedEntry (vfbCodec ops asm) c (p.1, q) : Entry _ (List MasterData)) = { id := p.1, data := .dec d } := by
        intro q hq
        unfold loadedEntry
        rw [if_pos hsp, hq]
      refine ⟨(p.1, b), ⟨rfl, yields_of_writes ?_, ?_, ?_, fun _ => ⟨d, c4 c⟩⟩, hrb _ ?_⟩
      · rw [hle p.2 hd]
        exact ⟨rfl, rfl, rfl, ⟨comp, c1, c2⟩, r1, c3⟩
      · intro c'
        unfold ctxAfter
        have hs := vfb_special_fixed ops asm
        simp only [hsp, if_true, c4 c', hs p.1 hsp c' c, hd, c4 c]
      · intro h'
        simp only at h'
        simp only [isSpecial, Bool.or_eq_true, decide_eq_true_eq] at hsp
        omega
      · rw [hle b (c4 c)]
        exact (hle p.2 hd).symm
    · refine ⟨p, ⟨rfl, yields_of_writes ?_, fun _ => rfl, fun _ => rfl, r4⟩, hrb _ rfl⟩
      rw [hplain p hsp]
      exact ⟨rfl, rfl, rfl, rfl, r1, by omega⟩

theorem loaded_plain (force : Bool) (es : List (Nat × Bytes)) (c : Ctx) :
    ∀ e ∈ (loaded (vfbCodec ops asm) force c es : List (Entry _ (List MasterData))), e.temp_masters = none ∧ e.cached = none := by
  induction es generalizing c with
  | nil => intro e he; cases he
  | cons p es ih =>
    intro e he
    rw [loaded] at he
    rcases List.mem_cons.1 he with rfl | he
    · unfold loadedEntry
      by_cases h : isSpecial p.1 = true
      · rw [if_pos h]
        cases parseEntry ((vfbCodec ops asm).parse p.1 c) p.2 <;> exact ⟨rfl, rfl⟩
      · rw [if_neg h]
        exact ⟨rfl, rfl⟩
    · exact ih _ e he

theorem read_plain (v v1 : Vfb (Decompiled ops.Angle asm.Asm) (List MasterData)) (file : Bytes)
    (ho : v.only_header = false) (hk : v.drop_keys = []) (hl : file.length < 800000000)
    (h : v.readBytes (vfbCodec ops asm) file = (.ok (), v1)) : ∀ e ∈ v1.entries, e.temp_masters = none ∧ e.cached = none := by
  obtain ⟨minor, init, b0, hi0, hread, hsum, _, hf⟩ := C10_every_file _ v v1 file ho (.inl (by omega)) h
  have ht : Terminated (init ++ [(2, b0)]) := ⟨init, b0, rfl, hi0⟩
  have h1 := hf []
  rw [read_file _ v minor _ [] ho ht hread, hk, List.filter_eq_self.2 (by simp)] at h1
  injection h1 with _ h1
  have hent : v1.entries = loaded (vfbCodec ops asm) v.force_unicode_strings v.ctx (init ++ [(2, b0)]) := by rw [← h1]
  rw [hent]
  exact loaded_plain ops asm _ _ _

theorem forall₂_at {α β : Type} {P : α → β → Prop} {l : List α} {m : List β} (h : List.Forall₂ P l m) {i : Nat} {a : α} (ha : l[i]? = some a) :
    ∃ b, m[i]? = some b ∧ P a b := by
  induction h generalizing i with
  | nil => simp at ha
  | cons h _ ih =>
    cases i with
    | zero =>
      simp only [List.getElem?_cons_zero, Option.some.injEq] at ha ⊢
      subst ha
      exact ⟨_, rfl, h⟩
    | succ i =>
      simp only [List.getElem?_cons_succ] at ha ⊢
      exact ih ha

theorem forall₂_of_at {α β : Type} {P : α → β → Prop} {l : List α} {m : List β} (hlen : m.length = l.length)
    (h : ∀ (i : Nat) a, l[i]? = some a → ∃ b, m[i]? = some b ∧ P a b) : List.Forall₂ P l m := by
  induction l generalizing m with
  | nil =>
    cases m with
    | nil => exact .nil
    | cons b m => simp at hlen
  | cons a l ih =>
    cases m with
    | nil => simp at hlen
    | cons b m =>
      obtain ⟨b', h1, h2⟩ := h 0 a rfl
      simp only [List.getElem?_cons_zero, Option.some.injEq] at h1
      subst h1
      refine .cons h2 (ih (by simpa using hlen) ?_)
      intro i a' ha
      exact h (i + 1) a' ha

/-- **C103** Whatever byte string (of less than 800 MB) is accepted as a file: after its glyphs have been looked up, and new compatible
TrueType contours have been drawn into all masters of some of them, one master after the other (`clearContours()`, `getPointPen()` and
the calls of the pen), there is no exception; the font can be written, and what is written is read again with the same header,
settings and number of entries.  Links and hinting options are decompiled to the same data, and all other entries except the glyphs
are exactly as they were.  Each glyph that was drawn has in each master just the contours that were drawn into it.  (Known defects,
also stated here: of these glyphs everything else — name, metrics, hints, guides, components, kerning, instructions — is lost, and
glyphs that were not drawn have lost their contours, too: looking up any glyph empties all of them.) -/
theorem C103_redraw (v v1 : Vfb (Decompiled ops.Angle asm.Asm) (List MasterData)) (file : Bytes)
    (ho : v.only_header = false) (hk : v.drop_keys = []) (hl : file.length < 800000000)
    (h : v.readBytes (vfbCodec ops asm) file = (.ok (), v1))
    (n : Nat) (hn : 1 ≤ n) (hn2 : n < 65536) (hc : v1.ctx.num_masters = n)
    (f f1 : FontObj (Decompiled ops.Angle asm.Asm) (List MasterData)) (hf : f.vfb = v1) (hlook : f.look = {}) (l : List (PyStr × GlyphObj))
    (hi : f.call (vfbCodec ops asm) (.items none) = (.ok (.items l), f1))
    (edits : List (PyStr × List (List UfoContour))) (hnd : (edits.map Prod.fst).Nodup) (hin : ∀ p ∈ edits, p.1 ∈ l.map Prod.fst)
    (hdr : ∀ p ∈ edits, Drawable n p.2) :
    ∃ f2 out v3 v4, redrawGlyphs (vfbCodec ops asm) edits f1 = (f2, none) ∧
      Vfb.writeBytes (vfbCodec ops asm) f2.vfb = (.ok (), out, v3) ∧ v.readBytes (vfbCodec ops asm) out = (.ok (), v4) ∧
      v4.header = v1.header ∧ v4.ctx = v1.ctx ∧ v4.entries.length = v1.entries.length ∧
      (∀ (i : Nat) e, v1.entries[i]? = some e → ∃ y, v4.entries[i]? = some y ∧ y.id = e.id ∧
        (e.id ∉ [(2001 : Int), 2008, 2010, 1093] → y = e) ∧
        (e.id ∈ [(2008 : Int), 2010, 1093] → ∃ e', e.decompile (vfbCodec ops asm) v1.ctx = (.ok (), e', false) ∧
          y.decompile (vfbCodec ops asm) v4.ctx = (.ok (), e', false))) ∧
      (∀ key o css, (key, o) ∈ l → (key, css) ∈ edits → ∃ y nodes, v4.entries[o.entry]? = some y ∧
        BareGlyph (vfbCodec ops asm) v4.ctx n y nodes ∧ ∀ (m : Nat) cs, css[m]? = some cs → extractContours nodes [] m false = .ok (cs, [])) ∧
      (∀ key o, (key, o) ∈ l → key ∉ edits.map Prod.fst → ∃ y, v4.entries[o.entry]? = some y ∧
        BareGlyph (vfbCodec ops asm) v4.ctx n y []) := by
  have hplain := read_plain ops asm v v1 file ho hk hl h
  -- the lookup
  have hprep : f.prepare (vfbCodec ops asm) = (.ok (), f1) ∧ f1.look.glyphs = l := by
    simp only [FontObj.call, FontObj.lookup] at hi
    cases hp : f.prepare (vfbCodec ops asm) with
    | mk r f' =>
      rw [hp] at hi
      cases r with
      | error x => cases hi
      | ok u =>
        simp only [Prod.mk.injEq, Except.ok.injEq, Answer.items.injEq] at hi
        obtain ⟨rfl, rfl⟩ := hi
        exact ⟨rfl, rfl⟩
  obtain ⟨hprep, rfl⟩ := hprep
  obtain ⟨k, k1, k2, _, k4⟩ := prepare_fresh (vfbCodec ops asm) f hlook
  rw [hprep] at k2 k4
  have hk' : k = f.vfb.entries.length := by
    rcases k4 with ⟨_, h⟩ | ⟨x, e, h, _⟩
    · exact h
    · cases h
  rw [hk', List.take_length, hf] at k2
  -- its effect on the entries
  have hobj : f1.reads = f.reads ∧ f1.vfb.header = v1.header ∧ f1.vfb.ctx = v1.ctx ∧
      List.Forall₂ (Prepared (vfbCodec ops asm) v1.ctx) v1.entries f1.vfb.entries := by
    unfold FontObj.prepare at hprep
    rw [hlook, if_pos rfl, hf] at hprep
    have hp := objLoop_prepared (vfbCodec ops asm) v1.ctx f.reads 0 v1.entries none {}
    cases hr : objLoop (vfbCodec ops asm) v1.ctx f.reads 0 v1.entries none {} with
    | mk r q =>
      obtain ⟨es, s, err⟩ := q
      rw [hr] at hprep hp
      injection hprep with e1 e2
      subst e2
      exact ⟨rfl, rfl, rfl, hp e1⟩
  obtain ⟨o1, o2, o3, o4⟩ := hobj
  have hlen1 : f1.vfb.entries.length = v1.entries.length := o4.length_eq.symm
  have hc1 : f1.vfb.ctx.num_masters = n := by rw [o3]; exact hc
  have hfreshAt : ∀ (i : Nat) e, v1.entries[i]? = some e → e.id = 2001 → f1.vfb.entries[i]? = some (freshEntry ops.Angle asm.Asm n) := by
    intro i e he hid
    obtain ⟨e1, h1, h2⟩ := forall₂_at o4 he
    obtain ⟨p1, p2⟩ := hplain e (List.mem_of_getElem? he)
    rw [h1]
    rcases h2 with ⟨_, h2⟩ | ⟨h2, _⟩ | ⟨h2, _⟩
    · rw [h2, hc]
      obtain ⟨a, b, c, d⟩ := e
      simp only at hid p1 p2
      subst hid p1 p2
      rfl
    · omega
    · exact absurd hid h2.1
  have hglyphAt : ∀ p ∈ f1.look.glyphs, ∃ e, v1.entries[p.2.entry]? = some e ∧ e.id = 2001 := by
    intro p hp
    have := (k2.entries p.2.entry).2 (List.mem_map.2 ⟨p, hp, rfl⟩)
    rw [List.getElem?_map] at this
    cases he : v1.entries[p.2.entry]? with
    | none => rw [he] at this; cases this
    | some e =>
      rw [he] at this
      simp only [Option.map_some, Option.some.injEq] at this
      exact ⟨e, rfl, this⟩
  obtain ⟨l2, w1, w2, w3, w4⟩ := redrawGlyphs_ok (vfbCodec ops asm) n hn edits f1 hc1 k2.distinct k2.sorted
    (fun p hp => by rw [o1]; exact k2.source p hp) hnd hin hdr (by
      intro p _ o ho'
      obtain ⟨e, h1, h2⟩ := hglyphAt _ ho'
      exact hfreshAt _ e h1 h2)
  -- what has become of the entries
  have hrew : List.Forall₂ (Reworked ops asm v1.ctx n f1.look.order) v1.entries l2 := by
    refine forall₂_of_at (by rw [w2, hlen1]) ?_
    intro i e he
    obtain ⟨e1, h1, h2⟩ := forall₂_at o4 he
    by_cases hid : e.id = 2001
    · by_cases hed : ∃ p ∈ edits, ∃ o, (p.1, o) ∈ f1.look.glyphs ∧ o.entry = i
      · obtain ⟨p, hp, o, ho', rfl⟩ := hed
        obtain ⟨e2, q1, q2⟩ := w4 p hp o ho'
        exact ⟨e2, q1, .inl ⟨hid, .inr ⟨p.2, hdr p hp, q2⟩⟩⟩
      · refine ⟨_, ?_, .inl ⟨hid, .inl rfl⟩⟩
        rw [w3 i fun p hp o ho' he' => hed ⟨p, hp, o, ho', he'⟩]
        exact hfreshAt i e he hid
    · refine ⟨e1, ?_, ?_⟩
      · rw [w3 i ?_]
        · exact h1
        · rintro p _ o ho' rfl
          obtain ⟨e', g1, g2⟩ := hglyphAt _ ho'
          simp only at g1
          rw [he] at g1
          injection g1 with g1
          rw [g1] at hid
          exact hid g2
      · rcases h2 with ⟨h2, _⟩ | h2 | h2
        · exact absurd h2 hid
        · exact .inr (.inl h2)
        · exact .inr (.inr h2)
  obtain ⟨out, v3, v4, z1, z2, z3, z4, z5, z6⟩ := rewrite_font ops asm v v1 { f1.vfb with entries := l2 } file
    (rework_steps ops asm v1.ctx v.force_unicode_strings n hn hn2 hc f1.look.order) ho hk hl h o2 o3 hrew
  refine ⟨_, out, v3, v4, w1, z1, z2, z3, z4, z5, ?_, ?_, ?_⟩
  · intro i e he
    obtain ⟨e2, g1, g2⟩ := forall₂_at hrew he
    obtain ⟨y, y1, y2, _, y4, y5⟩ := z6 i e e2 he g1
    refine ⟨y, y1, y2, ?_, ?_⟩
    · intro hid
      simp only [List.mem_cons, List.not_mem_nil, or_false, not_or] at hid
      exact y5 hid
    · intro hid
      simp only [List.mem_cons, List.not_mem_nil, or_false] at hid
      refine ⟨e2, ?_, by rw [z4]; exact y4 hid⟩
      rcases g2 with ⟨g2, _⟩ | ⟨_, g2⟩ | ⟨g2, _⟩
      · omega
      · exact g2
      · omega
  · intro key o css ho' hcss
    obtain ⟨e, g1, g2⟩ := hglyphAt _ ho'
    obtain ⟨e2, q1, q2⟩ := w4 (key, css) hcss o ho'
    obtain ⟨y, y1, _, y3, _⟩ := z6 _ e e2 g1 q1
    obtain ⟨nodes, n1, n2⟩ := (y3 g2).2 css (hdr _ hcss) q2
    exact ⟨y, nodes, y1, by rw [z4]; exact n1, n2⟩
  · intro key o ho' hkey
    obtain ⟨e, g1, g2⟩ := hglyphAt _ ho'
    have hl2 : l2[o.entry]? = some (freshEntry ops.Angle asm.Asm n) := by
      rw [w3 o.entry ?_]
      · exact hfreshAt _ e g1 g2
      · intro p hp o' ho'' he'
        have := entry_inj k2.sorted ho'' ho' he'
        injection this with hpk _
        exact hkey (List.mem_map.2 ⟨p, hp, hpk⟩)
    obtain ⟨y, y1, _, y3, _⟩ := z6 _ e _ g1 hl2
    exact ⟨y, y1, by rw [z4]; exact (y3 g2).1 rfl⟩

end
/-! ### examples -/

/-- two masters; a glyph with links, and another glyph -/
def editFile : Bytes := fileOf 5 [(1503, [2, 0]), (2001, [1, 2, 3, 4]), (2008, [139, 139]), (2001, [5]), (1250, [65, 0]), (2, [])]

def editFont : Vfb (Decompiled exampleAngles.Angle exampleAsm.Asm) (List MasterData) :=
  { header := .dec (headerDict 5), ctx := { num_masters := 2 },
    entries := [{ id := 1503, data := .dec (.int 2) }, { id := 2001, data := .bytes [1, 2, 3, 4] }, { id := 2008, data := .bytes [139, 139] },
      { id := 2001, data := .bytes [5] }, { id := 1250, data := .bytes [65, 0] }, { id := 2, data := .bytes [] }] }

theorem editFile_read : Vfb.readBytes (vfbCodec exampleAngles exampleAsm) {} editFile = (.ok (), editFont) := rfl

def editItems : List (PyStr × GlyphObj) := [([], { source := 0, entry := 1, links := some 2 }), (lit "#1", { source := 0, entry := 3 })]

theorem editItems_ok : ∃ f1, FontObj.call (vfbCodec exampleAngles exampleAsm) { vfb := editFont } (.items none) = (.ok (.items editItems), f1) :=
  ⟨_, rfl⟩

theorem editContours_drawable : Drawable 2 [examplePenContours 7, examplePenContours 9] := by
  refine ⟨rfl, ?_, ?_, ?_, ?_⟩
  · intro cs hcs
    simp at hcs
    rcases hcs with rfl | rfl
    · exact example_tt 7
    · exact example_tt 9
  · intro a ha b hb
    simp at ha hb
    rcases ha with rfl | rfl <;> rcases hb with rfl | rfl <;> rfl
  · decide
  · decide

/-- C103: the second glyph is drawn anew; the theorem applies, and the first glyph is empty afterwards -/
example : ∃ f1 f2 out v3 v4, FontObj.call (vfbCodec exampleAngles exampleAsm) { vfb := editFont } (.items none) = (.ok (.items editItems), f1) ∧
    redrawGlyphs (vfbCodec exampleAngles exampleAsm) [(lit "#1", [examplePenContours 7, examplePenContours 9])] f1 = (f2, none) ∧
    Vfb.writeBytes (vfbCodec exampleAngles exampleAsm) f2.vfb = (.ok (), out, v3) ∧
    Vfb.readBytes (vfbCodec exampleAngles exampleAsm) {} out = (.ok (), v4) ∧
    ∃ y, v4.entries[1]? = some y ∧ BareGlyph (vfbCodec exampleAngles exampleAsm) v4.ctx 2 y [] := by
  obtain ⟨f1, hi⟩ := editItems_ok
  obtain ⟨f2, out, v3, v4, h1, h2, h3, _, _, _, _, _, h9⟩ := C103_redraw exampleAngles exampleAsm {} editFont editFile rfl rfl (by decide +kernel) editFile_read
    2 (by decide) (by decide) rfl { vfb := editFont } f1 rfl rfl editItems hi [(lit "#1", [examplePenContours 7, examplePenContours 9])]
    (by decide) (by decide) (by
      intro p hp
      simp only [List.mem_singleton] at hp
      subst hp
      exact editContours_drawable)
  refine ⟨f1, f2, out, v3, v4, hi, h1, h2, h3, ?_⟩
  exact h9 [] { source := 0, entry := 1, links := some 2 } (by decide) (by decide)

end Verif.Props
