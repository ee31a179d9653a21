import Verif.Props.Outline
import Verif.Props.Guides
import Verif.Spec.Glyph
import Verif.Lemmas.NoFuel
/-! C42: the glyph entry. -/
set_option autoImplicit false
namespace Verif.Props
open Verif Verif.Spec

/-! ### keyed loops -/

/-- a loop over keyed sections consumes input: a missing key reads as 0, which is an error -/
theorem consuming_key {σ α : Type} {f : σ → Int → R (σ ⊕ α)} (h0 : ∀ st s x r, f st 0 s ≠ .ok x r)
    (hp : ∀ st v N, Post N (f st v) fun _ => True) : Consuming fun st => readU8 >>= f st := by
  intro st s st' r h
  cases s with
  | nil =>
    exact absurd ((R.bind_of_ok (f := f st) readU8_nil).symm.trans h) (h0 _ _ _ _)
  | cons b s =>
    have h := (R.bind_of_ok (f := f st) (readU8_cons b s)).symm.trans h
    have := (hp st _ s.length s _ r (Nat.le_refl _) h).2
    simp only [List.length_cons]; omega

/-- `w` is read by iterations of the loop, which change the state from `st` to `st'` -/
def Sec {σ α : Type} (body : σ → R (σ ⊕ α)) (w : W) (st st' : σ) : Prop :=
  ∀ w' fin, Enc w' (R.whileTrue body st') fin → Enc (w ++ w') (R.whileTrue body st) fin

theorem Sec.nil {σ α : Type} {body : σ → R (σ ⊕ α)} (st : σ) : Sec body W.nil st st := fun w' fin h => by rwa [W.nil_seq]

theorem Sec.step {σ α : Type} {body : σ → R (σ ⊕ α)} (hc : Consuming body) {w : W} {st st' : σ} (h : Enc w (body st) (.inl st')) :
    Sec body w st st' := by
  intro w' fin ⟨b', hw', hr'⟩
  obtain ⟨b, hw, hr⟩ := h
  refine ⟨b ++ b', by rw [hw, hw']; rfl, fun rest => ?_⟩
  rw [List.append_assoc, R.whileTrue_step hc, hr]
  exact hr' rest

theorem Sec.last {σ α : Type} {body : σ → R (σ ⊕ α)} (hc : Consuming body) {w : W} {st : σ} {fin : α} (h : Enc w (body st) (.inr fin)) :
    Enc w (R.whileTrue body st) fin := by
  obtain ⟨b, hw, hr⟩ := h
  exact ⟨b, hw, fun rest => by rw [R.whileTrue_step hc, hr]⟩

/-! ### imported data -/

section
variable (ops : AngleOps) (asm : AsmOps)

theorem post_true {α : Type} {p : R α} {P : α → Prop} (h : ∀ N, Post N p P) (N : Nat) : Post N p fun _ => True := (h N).mono fun _ _ => trivial

theorem readImpNodes_post {N : Nat} (k : Nat) (p : Point) : Post N (readImpNodes k p) fun l =>
    l.length = k ∧ (∀ nd ∈ l, IsByte nd.flags ∧ nd.on = nd.flags % 2) ∧ ∀ d ∈ stepsFrom p (l.map ImpNode.point), PairFits d := by
  induction k generalizing p with
  | zero => exact Post.pure (by simp [stepsFrom])
  | succ k ih =>
    rw [readImpNodes]
    refine Post.bind post_pair fun d hd => Post.bind post_u8 fun f hf => Post.bind (ih _) fun l hl => Post.pure ?_
    obtain ⟨h1, h2, h3⟩ := hl
    refine ⟨by simp [h1], ?_, ?_⟩
    · intro nd hnd
      rcases List.mem_cons.1 hnd with rfl | hnd
      · exact ⟨hf, rfl⟩
      · exact h2 nd hnd
    · intro q hq
      simp only [List.map_cons, stepsFrom, List.mem_cons] at hq
      rcases hq with rfl | hq
      · simpa [show p.1 + d.1 - p.1 = d.1 by omega, show p.2 + d.2 - p.2 = d.2 by omega] using hd
      · exact h3 q hq

/-- the part of `impBody` after the key -/
theorem impBody_consuming : Consuming (impBody asm) := by
  refine consuming_key ?_ ?_
  · intro st s x r h
    cases h
  · intro st v N
    refine Post.ite (fun _ => Post.pure trivial) fun _ => Post.ite (fun _ => ?_) fun _ => Post.ite (fun _ => ?_) fun _ =>
      Post.ite (fun _ => ?_) fun _ => Post.ite (fun _ => ?_) fun _ => Post.throw
    · exact Post.bind (post_value _) fun _ _ => Post.bind (post_value _) fun _ _ => Post.bind (post_value _) fun _ _ =>
        Post.bind (post_value _) fun _ _ => Post.bind (post_value _) fun _ _ => Post.bind (Post.rep (post_value _) _) fun _ _ =>
        Post.pure trivial
    · exact Post.bind (post_value _) fun _ _ => Post.bind (Post.forRange (post_value _) _) fun _ _ => Post.bind (post_value _) fun _ _ =>
        Post.bind (readImpNodes_post _ _) fun _ _ => Post.pure trivial
    · exact Post.bind (post_value _) fun _ _ => Post.bind (Post.readN _) fun _ _ => Post.bind (Post.lift (P := fun _ => True) fun _ _ => trivial) fun _ _ =>
        Post.pure trivial
    · exact Post.bind (post_value _) fun _ _ => Post.bind (Post.forRange post_u8 _) fun _ _ => Post.pure trivial

theorem enc_impNodes (l : List ImpNode) (p : Point) (hf : ∀ nd ∈ l, IsByte nd.flags) (hs : ∀ d ∈ stepsFrom p (l.map ImpNode.point), PairFits d) :
    Enc (writeImpNodes p l) (readImpNodes l.length p) (l.map fun nd => ⟨nd.flags, nd.flags % 2, nd.point⟩) := by
  induction l generalizing p with
  | nil => exact Enc.pure []
  | cons nd l ih =>
    simp only [List.map_cons, stepsFrom, List.mem_cons, forall_eq_or_imp] at hs
    simp only [List.mem_cons, forall_eq_or_imp] at hf
    rw [writeImpNodes, List.length_cons, readImpNodes]
    refine Enc.bind (enc_pair (p := (nd.point.1 - p.1, nd.point.2 - p.2)) hs.1) (Enc.bind (enc_u8 (v := nd.flags) hf.1) ?_)
    have e : ((p.1 + (nd.point.1 - p.1), p.2 + (nd.point.2 - p.2)) : Point) = nd.point := by
      obtain ⟨f, o, a, b⟩ := nd
      simp only [Prod.mk.injEq]; omega
    simp only [e]
    exact Enc.last (ih nd.point hf.2 hs.2) rfl

theorem bytecode_write (a : Option asm.Asm) {b : Bytes} (h : bytecodeOf asm a = .ok b) :
    writeImpInstructions asm a = writeValue b.length false ++ (.ok b : W) := by
  unfold bytecodeOf at h
  unfold writeImpInstructions
  have hnil : ∀ b : Bytes, (.ok [] : Except PyErr Bytes) = .ok b → writeValue 0 false = writeValue b.length false ++ (.ok b : W) := by
    intro b hb
    cases hb
    exact (W.seq_nil _).symm
  cases a with
  | none => exact hnil b h
  | some a =>
    dsimp only at h ⊢
    by_cases he : asm.isEmpty a = true
    · rw [if_pos he] at h ⊢
      exact hnil b h
    · rw [if_neg he] at h ⊢
      rw [h]; rfl

/-- the compiler's test for empty imported data -/
theorem imported_noKeys {ASM : Type} (d : Imported ASM) : d.isEmpty = NoKeys d := by
  obtain ⟨a, b, c, e, f, g⟩ := d
  cases a <;> cases b <;> cases c <;> cases e <;> cases f <;> cases g <;> rfl

/-- every imported dictionary that can be stored is read back as its stored form -/
theorem enc_imported (d : Imported asm.Asm) (hd : ImportedFits asm d) (he : NoKeys d = false) :
    ∃ d', storedImported asm (some d) = some d' ∧
      Enc ((writeU8 0x29 ++ writeImpMetrics d.metrics) ++ ((writeU8 0x2A ++ writeImpOutlines asm d) ++
      ((writeU8 0x2B ++ writeImpInstructions asm d.instructions) ++
        ((writeU8 0x2C ++ (writeValue (d.hdmx.getD []).length false ++ W.all (d.hdmx.getD []) writeU8)) ++ writeU8 0x28))))
        (readImported asm) d' := by
  obtain ⟨⟨m, hm, m1, m2, m3, m4, m5, m6, m7⟩, ⟨nc, hnc, c1, c2, c3⟩, ⟨n1, n2, n3⟩, ⟨b, a, b1, b2, b3⟩, x1, x2⟩ := hd
  have hprog : storedProgram asm d.instructions = some a := by
    unfold storedProgram
    rw [b1]; dsimp only
    rw [b3]
  refine ⟨_, by rw [storedImported, he]; rfl, ?_⟩
  rw [hm, hprog]
  let d1 : Imported asm.Asm := { Imported.empty asm.Asm with metrics := some m }
  let nodes' := (orEmpty d.nodes).map fun nd => (⟨nd.flags, nd.flags % 2, nd.point⟩ : ImpNode)
  let d2 : Imported asm.Asm := { d1 with
    numContours := some nc
    endpoints := some (orEmpty d.endpoints)
    nodes := if nodes'.isEmpty then none else some nodes' }
  let d3 : Imported asm.Asm := { d2 with instructions := some a }
  let d4 : Imported asm.Asm := { d3 with hdmx := some (orEmpty d.hdmx) }
  have hc := impBody_consuming asm
  have s1 : Sec (impBody asm) (writeU8 0x29 ++ writeImpMetrics (some m)) (Imported.empty asm.Asm) d1 := by
    refine Sec.step hc (Enc.bind (enc_u8 (by decide)) ?_)
    rw [if_neg (by decide), if_pos rfl]
    refine Enc.bind (enc_value (valOk_false.2 m1)) (Enc.bind (enc_value (valOk_iff.2 m2)) (Enc.bind (enc_value (valOk_iff.2 m3))
      (Enc.bind (enc_value (valOk_iff.2 m4)) (Enc.bind (enc_value (valOk_iff.2 m5)) (Enc.last (a := m.bbox) ?_ rfl)))))
    rw [← m6]
    exact Enc.rep fun v hv => enc_value (valOk_iff.2 (m7 v hv))
  have s2 : Sec (impBody asm) (writeU8 0x2A ++ writeImpOutlines asm d) d1 d2 := by
    refine Sec.step hc (Enc.bind (enc_u8 (by decide)) ?_)
    rw [if_neg (by decide), if_neg (by decide), if_pos rfl]
    unfold writeImpOutlines
    rw [hnc]
    refine Enc.bind (enc_value (valOk_iff.2 c1)) (Enc.bind (a := orEmpty d.endpoints) ?_ ?_)
    · rw [R.forRange, ← c2]
      exact Enc.rep fun v hv => enc_value (valOk_false.2 (c3 v hv))
    · refine Enc.bind (a := ((orEmpty d.nodes).length : Int)) (enc_value (valOk_false.2 ?_)) (Enc.last (enc_impNodes (orEmpty d.nodes) (0, 0) n2 n3) rfl)
      show IsUValue ((orEmpty d.nodes).length : Int)
      simp only [IsUValue]; omega
  have s3 : Sec (impBody asm) (writeU8 0x2B ++ writeImpInstructions asm d.instructions) d2 d3 := by
    refine Sec.step hc (Enc.bind (enc_u8 (by decide)) ?_)
    rw [if_neg (by decide), if_neg (by decide), if_neg (by decide), if_pos rfl, bytecode_write asm _ b1]
    refine Enc.bind (enc_value (valOk_false.2 (by simp only [IsUValue]; omega))) (Enc.last (a := b) ⟨b, rfl, fun rest => readN_append rfl⟩ ?_)
    rw [b3]; rfl
  have s4 : Sec (impBody asm) (writeU8 0x2C ++ (writeValue (d.hdmx.getD []).length false ++ W.all (d.hdmx.getD []) writeU8)) d3 d4 := by
    refine Sec.step hc (Enc.bind (enc_u8 (by decide)) ?_)
    rw [if_neg (by decide), if_neg (by decide), if_neg (by decide), if_neg (by decide), if_pos rfl]
    exact Enc.bind (enc_value_nonneg (by unfold orEmpty at x1; omega) false true) (Enc.last (Enc.forRange rfl fun v hv => enc_u8 (x2 v hv)) rfl)
  have s5 : Enc (writeU8 0x28) (R.whileTrue (impBody asm) d4) d4 := by
    refine Sec.last hc (Enc.last (enc_u8 (by decide)) ?_)
    rw [if_pos rfl]
  have := s1 _ _ (s2 _ _ (s3 _ _ (s4 _ _ s5)))
  refine Enc.cast this rfl ?_
  simp only [d4, d3, d2, d1, Imported.empty, Imported.mk.injEq, hnc, true_and, and_true, hprog]
  unfold nodes' orEmpty dropEmpty
  cases d.nodes with
  | none => rfl
  | some l => cases l <;> rfl

/-! ### postconditions of the sections -/

theorem mastersOf_post {N : Nat} (g : Glyph ops.Angle asm.Asm) : Post N (mastersOf ops asm g) fun n => ∃ m, g.numMasters = some m ∧ n = m.toNat := by
  unfold mastersOf
  cases h : g.numMasters with
  | none => exact Post.throw
  | some m => exact Post.pure ⟨m, rfl, rfl⟩

theorem post_metrics {N : Nat} (g : Glyph ops.Angle asm.Asm) : Post N (readMetrics ops asm g) fun l => ∀ p ∈ l, PairFits p :=
  Post.bind (mastersOf_post ops asm g) fun _ _ => Post.mono (Post.rep post_pair _) fun _ h => h.2

theorem post_hintDir {N : Nat} (g : Glyph ops.Angle asm.Asm) : Post N (readHintDir ops asm g) fun l =>
    l.length < 2147483648 ∧ ∀ mm ∈ l, ∀ p ∈ mm, PairFits p :=
  post_counted (Post.bind (mastersOf_post ops asm g) fun _ _ => Post.mono (Post.rep post_pair _) fun _ hl => hl.2)

theorem post_hintmask {N : Nat} : Post N readHintmask fun m => m.1 ∈ [lit "h", lit "v", lit "r"] ∧ IsInt32 m.2 :=
  Post.bind post_u8 fun k _ => Post.bind (post_value true) fun v hv =>
    Post.bind (Post.lift (P := fun s => s ∈ [lit "h", lit "v", lit "r"]) fun s hs => by
      unfold replaceType at hs
      split at hs
      · cases hs; simp
      split at hs
      · cases hs; simp
      split at hs
      · cases hs; simp
      · cases hs) fun s hs => Post.pure ⟨hs, valOk_iff.1 hv⟩

/-- what is known of parsed hints, apart from the number of masters -/
def HintsRead (d : Hints) : Prop :=
  (∀ l ∈ [d.h, d.v], l.length < 2147483648 ∧ ∀ mm ∈ l, ∀ p ∈ mm, PairFits p) ∧
  (orEmpty d.hintmasks).length < 2147483648 ∧ (∀ m ∈ orEmpty d.hintmasks, m.1 ∈ [lit "h", lit "v", lit "r"] ∧ IsInt32 m.2) ∧
  d.hintmasks ≠ some [] ∧ ¬ (d.h = [] ∧ d.v = [] ∧ d.hintmasks = none)

theorem orEmpty_unlessEmpty {α : Type} (l : List α) : orEmpty (unlessEmpty l) = l := by
  cases l <;> rfl

theorem unlessEmpty_ne {α : Type} (l : List α) : unlessEmpty l ≠ some [] := by
  cases l <;> simp [unlessEmpty]

theorem post_hints {N : Nat} (g : Glyph ops.Angle asm.Asm) : Post N (readHints ops asm g) fun o => ∀ d, o = some d → HintsRead d := by
  refine Post.bind (post_hintDir ops asm g) fun h hh => Post.bind (post_hintDir ops asm g) fun v hv => Post.bind (post_value true) fun k hk =>
    Post.bind (Post.forRange post_hintmask k) fun masks hm => Post.pure ?_
  have hk := valOk_iff.1 hk
  simp only [IsInt32] at hk
  intro d hd
  split at hd
  · cases hd
  · rename_i hne
    cases hd
    refine ⟨?_, ?_, ?_, unlessEmpty_ne _, ?_⟩
    · intro l hl
      simp only [List.mem_cons, List.not_mem_nil, or_false] at hl
      rcases hl with rfl | rfl
      · exact hh
      · exact hv
    · rw [orEmpty_unlessEmpty, hm.1]; omega
    · rw [orEmpty_unlessEmpty]; exact hm.2
    · rintro ⟨e1, e2, e3⟩
      dsimp only at e1 e2 e3
      exact hne (by rw [e1, e2, e3]; rfl)

theorem post_componentMaster {N : Nat} : Post N readComponentMaster fun x => IsInt32 x.1 ∧ IsInt32 x.2.1 :=
  Post.bind (post_value true) fun x hx => Post.bind (post_value true) fun y hy => Post.bind (post_doubles 2) fun ds hds => by
    match ds, hds with
    | [a, b], _ => exact Post.pure ⟨valOk_iff.1 hx, valOk_iff.1 hy⟩

theorem post_component {N : Nat} (g : Glyph ops.Angle asm.Asm) : Post N (readComponent ops asm g) fun c => ComponentFits c.offsetX.length c := by
  refine Post.bind (post_value true) fun gid hg => Post.bind (mastersOf_post ops asm g) fun n _ => Post.bind (Post.rep post_componentMaster n) fun l hl =>
    Post.pure ⟨valOk_iff.1 hg, rfl, by simp, by simp, by simp, ?_, ?_⟩
  · intro v hv
    obtain ⟨x, hx, rfl⟩ := List.mem_map.1 hv
    exact (hl.2 x hx).1
  · intro v hv
    obtain ⟨x, hx, rfl⟩ := List.mem_map.1 hv
    exact (hl.2 x hx).2

theorem post_components {N : Nat} (g : Glyph ops.Angle asm.Asm) : Post N (readComponents ops asm g) fun l =>
    l.length < 2147483648 ∧ ∀ c ∈ l, ComponentFits c.offsetX.length c := post_counted (post_component ops asm g)

theorem post_kerning {N : Nat} (g : Glyph ops.Angle asm.Asm) : Post N (readKerning ops asm g) fun d =>
    DictOk d ∧ d.length < 2147483648 ∧ ∀ p ∈ d, IsInt32 p.1 ∧ ∀ v ∈ p.2, IsInt32 v := by
  refine Post.bind (post_value true) fun k hk => Post.bind (Post.forRange (P := fun p => IsInt32 p.1 ∧ ∀ v ∈ p.2, IsInt32 v) ?_ k) fun l hl => Post.pure ?_
  · exact Post.bind (post_value true) fun gid hg => Post.bind (mastersOf_post ops asm g) fun n _ => Post.bind (Post.rep (post_value true) n) fun l hl =>
      Post.pure ⟨valOk_iff.1 hg, fun v hv => valOk_iff.1 (hl.2 v hv)⟩
  · have hk := valOk_iff.1 hk
    simp only [IsInt32] at hk
    refine ⟨dictOfList_ok l, ?_, fun p hp => hl.2 p (dictOfList_mem hp)⟩
    have := dictOfList_length l
    rw [hl.1] at this
    show (dictOfList l).length < _
    omega

theorem ttCommands_name (c : Int × PyStr × List PyStr) (h : c ∈ ttCommands) : paramNames c.2.1 = some c.2.2 ∧
    ttCommands.find? (fun x => x.2.1 == c.2.1) = some c ∧ dictGet ttCommands c.1 = some c.2 ∧ 0 ≤ c.1 ∧ c.1 < 256 ∧ c.2.2.Nodup ∧ c.2.2.length ≤ 4 := by
  revert c
  decide

theorem post_instruction {N : Nat} : Post N readInstruction InstructionFits := by
  refine Post.bind post_u8 fun cmd _ => ?_
  cases h : dictGet ttCommands cmd with
  | none => exact Post.throw
  | some c =>
    have hc := ttCommands_name (cmd, c) (dictGet_some_mem h)
    refine Post.bind (Post.rep (post_value true) c.2.length) fun ps hps => Post.pure ⟨?_, ?_⟩
    · dsimp only
      rw [List.map_fst_zip (by omega)]
      exact hc.1
    · intro p hp
      exact valOk_iff.1 (hps.2 p.2 (List.of_mem_zip (a := p.1) (b := p.2) hp).2)

theorem post_instructions {N : Nat} : Post N readInstructions fun o => ∀ l, o = some l → l ≠ [] ∧ ∀ i ∈ l, InstructionFits i := by
  refine Post.bind (post_value true) fun _ _ => Post.bind (post_value true) fun k _ => Post.bind (Post.forRange post_instruction k) fun l hl =>
    Post.bind (Post.rep (post_value true) 3) fun _ _ => Post.pure ?_
  intro l' h
  cases l with
  | nil => cases h
  | cons a l =>
    cases h
    exact ⟨by simp, hl.2⟩

/-- what is known of parsed imported data -/
def ImportedRead (d : Imported asm.Asm) : Prop :=
  (∀ m, d.metrics = some m → IsUValue m.width ∧ IsInt32 m.lsb ∧ IsInt32 m.unknown1 ∧ IsInt32 m.unknown2 ∧ IsInt32 m.unknown3 ∧
    m.bbox.length = 4 ∧ ∀ v ∈ m.bbox, IsInt32 v) ∧
  (∀ nc, d.numContours = some nc → ∃ e, d.endpoints = some e ∧ IsInt32 nc ∧ e.length = nc.toNat ∧ ∀ v ∈ e, IsUValue v) ∧
  (ImpNodesFit (orEmpty d.nodes) ∧ d.nodes ≠ some [] ∧ ∀ nd ∈ orEmpty d.nodes, nd.on = nd.flags % 2) ∧
  ((orEmpty d.hdmx).length < 2147483648 ∧ ∀ v ∈ orEmpty d.hdmx, IsByte v)

theorem post_imported {N : Nat} : Post N (readImported asm) (ImportedRead asm) := by
  refine Post.whileTrue (I := ImportedRead asm) (fun d hd => ?_) _ ⟨fun _ h => by (cases h), fun _ h => by (cases h), ⟨⟨by simp [Imported.empty, orEmpty], by simp [Imported.empty, orEmpty], by simp [Imported.empty, orEmpty, stepsFrom]⟩, by simp [Imported.empty], by simp [Imported.empty, orEmpty]⟩, by simp [Imported.empty, orEmpty]⟩
  obtain ⟨h1, h2, h3, h4⟩ := hd
  refine Post.bind post_u8 fun key _ => Post.ite (fun _ => Post.pure ⟨h1, h2, h3, h4⟩) fun _ => Post.ite (fun _ => ?_) fun _ => Post.ite (fun _ => ?_) fun _ =>
      Post.ite (fun _ => ?_) fun _ => Post.ite (fun _ => ?_) fun _ => Post.throw
  · refine Post.bind (post_value _) fun _ a1 => Post.bind (post_value _) fun _ a2 => Post.bind (post_value _) fun _ a3 =>
        Post.bind (post_value _) fun _ a4 => Post.bind (post_value _) fun _ a5 => Post.bind (Post.rep (post_value _) _) fun _ a6 =>
        Post.pure ⟨fun m hm => ?_, h2, h3, h4⟩
    cases hm
    exact ⟨valOk_false.1 a1, valOk_iff.1 a2, valOk_iff.1 a3, valOk_iff.1 a4, valOk_iff.1 a5, a6.1, fun v hv => valOk_iff.1 (a6.2 v hv)⟩
  · refine Post.bind (post_value _) fun nc a1 => Post.bind (Post.forRange (post_value _) _) fun es a2 => Post.bind (post_value _) fun nn a3 =>
        Post.bind (readImpNodes_post _ _) fun nodes a4 => Post.pure ⟨h1, fun nc' hnc => ?_, ?_, h4⟩
    · cases hnc
      exact ⟨es, rfl, valOk_iff.1 a1, a2.1, fun v hv => valOk_false.1 (a2.2 v hv)⟩
    · dsimp only
      cases nodes with
      | nil => exact h3
      | cons nd l =>
        have a3 := valOk_false.1 a3
        simp only [IsUValue] at a3
        refine ⟨⟨?_, fun x hx => (a4.2.1 x hx).1, a4.2.2⟩, by simp, fun x hx => (a4.2.1 x hx).2⟩
        show (nd :: l).length < _
        rw [a4.1]; omega
  · exact Post.bind (post_value _) fun _ _ => Post.bind (Post.readN _) fun _ _ => Post.bind (Post.lift (P := fun _ => True) fun _ _ => trivial) fun _ _ =>
        Post.pure ⟨h1, h2, h3, h4⟩
  · refine Post.bind (post_value _) fun k hk => Post.bind (Post.forRange post_u8 _) fun l hl => Post.pure ⟨h1, h2, h3, ?_⟩
    have hk := valOk_iff.1 hk
    simp only [IsInt32] at hk
    refine ⟨?_, hl.2⟩
    show l.length < _
    rw [hl.1]; omega

/-- what is known of a parsed glyph -/
structure GlyphRead (N : Nat) (g : Glyph ops.Angle asm.Asm) : Prop where
  name : ∀ s, g.name = some s → StrN N s
  masters : ∀ n, g.numMasters = some n → -1131 ≤ n ∧ NodesFit n.toNat (orEmpty g.nodes)
  nodes : g.numMasters ≠ none → g.nodes ≠ none
  metrics : ∀ l, g.metrics = some l → ∀ p ∈ l, PairFits p
  hints : ∀ d, g.hints = some d → HintsRead d
  guides : ∀ d, g.guides = some d → ∀ l ∈ [d.h, d.v], l.length < 2147483648 ∧ ∀ gd ∈ l, ∀ x ∈ gd, IsInt32 x.pos ∧ ∃ v, IsInt32 v ∧ x.angle = ops.toAngle v
  components : ∀ l, g.components = some l → l.length < 2147483648 ∧ ∀ c ∈ l, ComponentFits c.offsetX.length c
  kerning : ∀ d, g.kerning = some d → DictOk d ∧ d.length < 2147483648 ∧ ∀ p ∈ d, IsInt32 p.1 ∧ ∀ v ∈ p.2, IsInt32 v
  imported : ∀ d, g.imported = some d → ImportedRead asm d
  tth : ∀ l, g.tth = some l → l ≠ [] ∧ ∀ i ∈ l, InstructionFits i

theorem post_glyphBody {N : Nat} (g : Glyph ops.Angle asm.Asm) (h : GlyphRead ops asm N g) :
    Post N (glyphBody ops asm g) (Sum.elim (GlyphRead ops asm N) (GlyphRead ops asm N)) := by
  refine Post.bind post_u8 fun v _ => ?_
  refine Post.ite (fun _ => Post.bind post_strWithLen fun s hs => Post.pure { h with name := fun s' h' => by cases h'; exact hs }) fun _ =>
    Post.ite (fun _ => Post.bind (post_metrics ops asm g) fun s hs => Post.pure { h with metrics := fun s' h' => by cases h'; exact hs }) fun _ =>
    Post.ite (fun _ => Post.bind (post_hints ops asm g) fun o ho => Post.pure { h with hints := ?_ }) fun _ =>
    Post.ite (fun _ => Post.bind (P := fun d : MMGuides ops.Angle => ∀ l ∈ [d.h, d.v], l.length < 2147483648 ∧ ∀ gd ∈ l, ∀ x ∈ gd, IsInt32 x.pos ∧ ∃ v, IsInt32 v ∧ x.angle = ops.toAngle v) ?_
      fun s hs => Post.pure { h with guides := fun s' h' => by cases h'; exact hs }) fun _ =>
    Post.ite (fun _ => Post.bind (post_components ops asm g) fun s hs => Post.pure { h with components := fun s' h' => by cases h'; exact hs }) fun _ =>
    Post.ite (fun _ => Post.bind (post_kerning ops asm g) fun s hs => Post.pure { h with kerning := fun s' h' => by cases h'; exact hs }) fun _ =>
    Post.ite (fun _ => Post.pure h) fun _ =>
    Post.ite (fun _ => Post.bind post_outlines fun o ho => Post.pure { h with
      masters := fun n hn => by cases hn; exact ⟨ho.1, ho.2.2⟩
      nodes := fun _ h' => by cases h' }) fun _ =>
    Post.ite (fun _ => Post.bind (post_imported asm) fun s hs => Post.pure { h with imported := fun s' h' => by cases h'; exact hs }) fun _ =>
    Post.ite (fun _ => Post.bind post_instructions fun o ho => Post.pure { h with tth := ?_ }) fun _ =>
    Post.ite (fun _ => Post.pure h) fun _ => Post.throw
  · intro d hd
    cases o with
    | none => exact h.hints d hd
    | some x => exact ho d hd
  · refine Post.bind (mastersOf_post ops asm g) fun n _ => ?_
    cases g.name with
    | none => exact Post.throw
    | some s => exact Post.mono (post_guides N ops n) fun d hd l hl => ⟨(hd l hl).1, fun gd hgd => ((hd l hl).2 gd hgd).2⟩
  · intro d hd
    cases o with
    | none => exact h.tth d hd
    | some x => exact ho d hd

theorem post_glyph {N : Nat} : Post N (parseGlyph ops asm) (GlyphRead ops asm N) := by
  refine Post.bind (Post.readN 4) fun _ _ => Post.ite (fun _ => Post.throw) fun _ => Post.whileTrue (I := GlyphRead ops asm N) (fun g hg => post_glyphBody ops asm g hg) _ ?_
  constructor <;> intros <;> first | contradiction | (rename_i h _; exact absurd rfl h)  | skip

theorem glyphBody_consuming : Consuming (glyphBody ops asm) := by
  refine consuming_key ?_ ?_
  · intro st s x r h
    cases h
  · intro g v N
    refine Post.ite (fun _ => Post.bind post_strWithLen fun s hs => Post.pure trivial) fun _ =>
      Post.ite (fun _ => Post.bind (post_metrics ops asm g) fun s hs => Post.pure trivial) fun _ =>
      Post.ite (fun _ => Post.bind (post_hints ops asm g) fun o ho => Post.pure trivial) fun _ =>
      Post.ite (fun _ => Post.bind (P := fun _ => True) ?_ fun s hs => Post.pure trivial) fun _ =>
      Post.ite (fun _ => Post.bind (post_components ops asm g) fun s hs => Post.pure trivial) fun _ =>
      Post.ite (fun _ => Post.bind (post_kerning ops asm g) fun s hs => Post.pure trivial) fun _ =>
      Post.ite (fun _ => Post.pure trivial) fun _ =>
      Post.ite (fun _ => Post.bind post_outlines fun o ho => Post.pure trivial) fun _ =>
      Post.ite (fun _ => Post.bind (post_imported asm) fun s hs => Post.pure trivial) fun _ =>
      Post.ite (fun _ => Post.bind post_instructions fun o ho => Post.pure trivial) fun _ =>
      Post.ite (fun _ => Post.pure trivial) fun _ => Post.throw
    refine Post.bind (mastersOf_post ops asm g) fun n _ => ?_
    cases g.name with
    | none => exact Post.throw
    | some s => exact Post.mono (post_guides N ops n) fun d hd => trivial

/-! ### encoders of the sections -/

abbrev GSec (w : W) (g g' : Glyph ops.Angle asm.Asm) : Prop := Sec (glyphBody ops asm) w g g'

theorem enc_masters {g : Glyph ops.Angle asm.Asm} {n : Int} (h : g.numMasters = some n) : Enc W.nil (mastersOf ops asm g) n.toNat := by
  unfold mastersOf
  rw [h]
  exact Enc.pure _

theorem masters_bind {α : Type} {g : Glyph ops.Angle asm.Asm} {n : Int} (h : g.numMasters = some n) (f : Nat → R α) :
    (mastersOf ops asm g >>= f) = f n.toNat := by
  unfold mastersOf
  rw [h]; rfl

theorem takeExact_eq {α : Type} (l : List α) : takeExact l.length l = .ok l := by
  rw [takeExact, if_pos (Nat.le_refl _), List.take_length]

theorem sec_name (g : Glyph ops.Angle asm.Asm) (name : Option PyStr) (h : ∀ s, name = some s → IsLatin s ∧ s.length < 2147483648) (h0 : g.name = none) :
    GSec ops asm (writeName name) g { g with name := dropEmpty name } := by
  cases name with
  | none =>
    have : ({ g with name := dropEmpty none } : Glyph ops.Angle asm.Asm) = g := by cases g; simp only [dropEmpty] at *; rw [h0]
    rw [this]; exact Sec.nil _
  | some s =>
    cases s with
    | nil =>
      have : ({ g with name := dropEmpty (some []) } : Glyph ops.Angle asm.Asm) = g := by cases g; simp only [dropEmpty] at *; rw [h0]
      rw [this]; exact Sec.nil _
    | cons c s =>
      obtain ⟨h1, h2⟩ := h _ rfl
      refine Sec.step (glyphBody_consuming ops asm) ?_
      obtain ⟨b, hb⟩ := isLatin_iff.1 h1
      show Enc (writeU8 1 ++ W.withVal (encode1252 (c :: s)) fun enc => writeValue enc.length ++ (.ok enc : W)) _ _
      refine Enc.bind (enc_u8 (by decide)) ?_
      rw [if_pos rfl]
      exact Enc.last (enc_strWithLen ⟨⟨b, hb⟩, h2⟩) rfl

theorem sec_outlines (g : Glyph ops.Angle asm.Asm) (n : Int) (nodes : Option (List MMNode)) (h : OutlineFits n (orEmpty nodes)) :
    GSec ops asm (writeU8 8 ++ writeOutlines n (nodes.getD [])) g { g with numMasters := some n, nodes := some (orEmpty nodes) } := by
  refine Sec.step (glyphBody_consuming ops asm) (Enc.bind (enc_u8 (by decide)) ?_)
  rw [if_neg (by decide), if_neg (by decide), if_neg (by decide), if_neg (by decide), if_neg (by decide), if_neg (by decide), if_neg (by decide), if_pos rfl]
  exact Enc.last (enc_outlines h) rfl

theorem sec_metrics (g : Glyph ops.Angle asm.Asm) (n : Int) (hn : g.numMasters = some n) (metrics : Option (List Point))
    (h : ∀ l, metrics = some l → (l = [] ∨ l.length = n.toNat) ∧ ∀ p ∈ l, PairFits p) (h0 : g.metrics = none) :
    GSec ops asm (writeMetrics n.toNat metrics) g { g with metrics := dropEmpty metrics } := by
  match metrics with
  | none =>
    have : ({ g with metrics := dropEmpty none } : Glyph ops.Angle asm.Asm) = g := by cases g; simp only [dropEmpty] at *; rw [h0]
    rw [this]; exact Sec.nil _
  | some [] =>
    have : ({ g with metrics := dropEmpty (some []) } : Glyph ops.Angle asm.Asm) = g := by cases g; simp only [dropEmpty] at *; rw [h0]
    rw [this]; exact Sec.nil _
  | some (c :: s) =>
    obtain ⟨h1 | h1, h2⟩ := h _ rfl
    · cases h1
    refine Sec.step (glyphBody_consuming ops asm) ?_
    refine Enc.bind (enc_u8 (by decide)) ?_
    rw [if_neg (by decide), if_pos rfl, ← h1, takeExact_eq, W.withVal_ok]
    unfold readMetrics
    rw [masters_bind ops asm hn, ← h1]
    exact Enc.last (Enc.rep fun p hp => enc_pair (h2 p hp)) rfl

theorem enc_hintDir (g : Glyph ops.Angle asm.Asm) (n : Int) (hn : g.numMasters = some n) (l : List (List Hint))
    (h : l.length < 2147483648 ∧ ∀ mm ∈ l, mm.length = n.toNat ∧ ∀ p ∈ mm, PairFits p) :
    Enc (writeHintDir n.toNat l) (readHintDir ops asm g) l := by
  refine enc_counted h.1 fun mm hmm => ?_
  obtain ⟨h1, h2⟩ := h.2 mm hmm
  rw [masters_bind ops asm hn, ← h1, takeExact_eq, W.withVal_ok]
  exact Enc.rep fun p hp => enc_pair (h2 p hp)

theorem enc_hintmask (m : PyStr × Int) (h : m.1 ∈ [lit "h", lit "v", lit "r"] ∧ IsInt32 m.2) : Enc (writeHintmask m) readHintmask m := by
  obtain ⟨s, v⟩ := m
  obtain ⟨h1, h2⟩ := h
  simp only [List.mem_cons, List.not_mem_nil, or_false] at h1
  have hv := enc_value (valOk_iff.2 h2)
  rcases h1 with rfl | rfl | rfl
  · exact Enc.bind (enc_u8 (v := 1) (by decide)) (Enc.last hv rfl)
  · exact Enc.bind (enc_u8 (v := 2) (by decide)) (Enc.last hv rfl)
  · exact Enc.bind (enc_u8 (v := 255) (by decide)) (Enc.last hv rfl)

theorem orEmpty_dropEmpty {α : Type} (x : Option (List α)) : orEmpty (dropEmpty x) = orEmpty x := by
  match x with
  | none => rfl
  | some [] => rfl
  | some (_ :: _) => rfl

theorem dropEmpty_unless {α : Type} (x : Option (List α)) : unlessEmpty (orEmpty x) = dropEmpty x := by
  match x with
  | none => rfl
  | some [] => rfl
  | some (_ :: _) => rfl

theorem sec_hints (g : Glyph ops.Angle asm.Asm) (n : Int) (hn : g.numMasters = some n) (hints : Option Hints)
    (h : ∀ d, hints = some d → HintsFit n.toNat d) (h0 : g.hints = none) :
    GSec ops asm (writeHints n.toNat hints) g { g with hints := storedHints hints } := by
  match hints with
  | none =>
    have : ({ g with hints := storedHints none } : Glyph ops.Angle asm.Asm) = g := by cases g; simp only [storedHints] at *; rw [h0]
    rw [this]; exact Sec.nil _
  | some d =>
    obtain ⟨h1, h2, h3⟩ := h _ rfl
    refine Sec.step (glyphBody_consuming ops asm) (Enc.bind (enc_u8 (by decide)) ?_)
    rw [if_neg (by decide), if_neg (by decide), if_pos rfl]
    refine Enc.last (a := storedHints (some d)) ?_ ?_
    · refine Enc.bind (enc_hintDir ops asm g n hn d.h (h1 _ (by simp))) (Enc.bind (enc_hintDir ops asm g n hn d.v (h1 _ (by simp))) ?_)
      refine Enc.bind (enc_value_nonneg (v := ((orEmpty d.hintmasks).length : Int)) (by omega) true true) ?_
      refine Enc.last (Enc.forRange rfl fun m hm => enc_hintmask m (h3 m hm)) ?_
      dsimp only
      rw [show d.hintmasks.getD [] = orEmpty d.hintmasks from rfl, dropEmpty_unless]
      unfold storedHints
      dsimp only
      congr 1
      generalize dropEmpty d.hintmasks = m
      generalize d.h = a
      generalize d.v = b
      cases a <;> cases b <;> cases m <;> simp
    · rw [h0]
      cases storedHints (some d) <;> rfl

theorem sec_guides (vfbMasters : Nat) (g : Glyph ops.Angle asm.Asm) (n : Int) (hn : g.numMasters = some n) (guides : Option (MMGuides ops.Angle))
    (h : ∀ d, guides = some d → g.name ≠ none ∧ n = vfbMasters ∧ GuidesFit ops vfbMasters d) (h0 : g.guides = none) :
    GSec ops asm (writeGlyphGuides ops vfbMasters guides) g { g with guides := guides.map (reangle ops) } := by
  match guides with
  | none =>
    have : ({ g with guides := (none : Option (MMGuides ops.Angle)).map (reangle ops) } : Glyph ops.Angle asm.Asm) = g := by
      cases g; simp only [Option.map_none] at *; rw [h0]
    rw [this]; exact Sec.nil _
  | some d =>
    obtain ⟨h1, h2, h3⟩ := h _ rfl
    refine Sec.step (glyphBody_consuming ops asm) (Enc.bind (enc_u8 (by decide)) ?_)
    rw [if_neg (by decide), if_neg (by decide), if_neg (by decide), if_pos rfl]
    unfold readGlyphGuides
    rw [masters_bind ops asm hn, h2]
    cases hg : g.name with
    | none => exact absurd hg h1
    | some s => exact Enc.last (enc_guides ops vfbMasters d h3) rfl

theorem enc_component (g : Glyph ops.Angle asm.Asm) (n : Int) (hn : g.numMasters = some n) (c : Component) (h : ComponentFits n.toNat c) :
    Enc (writeValue c.gid ++ W.all (List.range n.toNat) (writeComponentMaster c)) (readComponent ops asm g) c := by
  obtain ⟨h1, h2, h3, h4, h5, h6, h7⟩ := h
  refine Enc.bind (enc_value (valOk_iff.2 h1)) ?_
  rw [masters_bind ops asm hn]
  obtain ⟨gid, xs, ys, sx, sy⟩ := c
  dsimp only at *
  generalize n.toNat = k at *
  clear hn
  let rows : List (Int × Int × Dbl × Dbl) := xs.zip (ys.zip (sx.zip sy))
  have hlen : rows.length = k := by simp [rows, h2, h3, h4, h5]
  have e : W.all (List.range k) (writeComponentMaster ⟨gid, xs, ys, sx, sy⟩) = W.all rows fun r =>
      writeValue r.1 ++ (writeValue r.2.1 ++ writeDoubles [r.2.2.1, r.2.2.2]) := by
    rw [← all_range_get rows fun r => writeValue r.1 ++ (writeValue r.2.1 ++ writeDoubles [r.2.2.1, r.2.2.2]), hlen]
    refine W.all_congr fun i hi => ?_
    have hi := List.mem_range.1 hi
    have e1 : xs[i]? = some (xs[i]'(by omega)) := List.getElem?_eq_getElem _
    have e2 : ys[i]? = some (ys[i]'(by omega)) := List.getElem?_eq_getElem _
    have e3 : sx[i]? = some (sx[i]'(by omega)) := List.getElem?_eq_getElem _
    have e4 : sy[i]? = some (sy[i]'(by omega)) := List.getElem?_eq_getElem _
    have ez : rows[i]? = some (xs[i]'(by omega), ys[i]'(by omega), sx[i]'(by omega), sy[i]'(by omega)) :=
      List.getElem?_zip_eq_some.2 ⟨e1, List.getElem?_zip_eq_some.2 ⟨e2, List.getElem?_zip_eq_some.2 ⟨e3, e4⟩⟩⟩
    rw [ez]
    unfold writeComponentMaster
    rw [e1, e2, e3, e4]
  rw [e, ← hlen]
  refine Enc.last (a := rows) (Enc.rep fun r hr => ?_) ?_
  · obtain ⟨x, y, a, b⟩ := r
    have hr : (x, y, a, b) ∈ xs.zip (ys.zip (sx.zip sy)) := hr
    have m1 := List.of_mem_zip hr
    have m2 := List.of_mem_zip m1.2
    refine Enc.bind (enc_value (valOk_iff.2 (h6 x m1.1))) (Enc.bind (enc_value (valOk_iff.2 (h7 y m2.1))) (Enc.last (enc_doubles [a, b]) rfl))
  · have l1 : (sx.zip sy).length = k := by simp [h4, h5]
    have l2 : (ys.zip (sx.zip sy)).length = k := by simp [h3, h4, h5]
    have r1 : rows.map (·.1) = xs := List.map_fst_zip (by omega)
    have r2 : rows.map (·.2) = ys.zip (sx.zip sy) := List.map_snd_zip (by omega)
    have r3 : (ys.zip (sx.zip sy)).map (·.1) = ys := List.map_fst_zip (by omega)
    have r4 : (ys.zip (sx.zip sy)).map (·.2) = sx.zip sy := List.map_snd_zip (by omega)
    have r5 : (sx.zip sy).map (·.1) = sx := List.map_fst_zip (by omega)
    have r6 : (sx.zip sy).map (·.2) = sy := List.map_snd_zip (by omega)
    have q2 : rows.map (·.2.1) = ys := by rw [← r3, ← r2, List.map_map]; rfl
    have q3 : rows.map (·.2.2.1) = sx := by rw [← r5, ← r4, ← r2, List.map_map, List.map_map]; rfl
    have q4 : rows.map (·.2.2.2) = sy := by rw [← r6, ← r4, ← r2, List.map_map, List.map_map]; rfl
    rw [r1, q2, q3, q4]

theorem sec_components (g : Glyph ops.Angle asm.Asm) (n : Int) (hn : g.numMasters = some n) (components : Option (List Component))
    (h : ∀ l, components = some l → l.length < 2147483648 ∧ ∀ c ∈ l, ComponentFits n.toNat c) (h0 : g.components = none) :
    GSec ops asm (writeComponents n.toNat components) g { g with components := dropEmpty components } := by
  match components with
  | none =>
    have : ({ g with components := dropEmpty none } : Glyph ops.Angle asm.Asm) = g := by cases g; simp only [dropEmpty] at *; rw [h0]
    rw [this]; exact Sec.nil _
  | some [] =>
    have : ({ g with components := dropEmpty (some []) } : Glyph ops.Angle asm.Asm) = g := by cases g; simp only [dropEmpty] at *; rw [h0]
    rw [this]; exact Sec.nil _
  | some (c :: s) =>
    obtain ⟨h1, h2⟩ := h _ rfl
    refine Sec.step (glyphBody_consuming ops asm) (Enc.bind (enc_u8 (by decide)) ?_)
    rw [if_neg (by decide), if_neg (by decide), if_neg (by decide), if_neg (by decide), if_pos rfl]
    exact Enc.last (enc_counted h1 fun c hc => enc_component ops asm g n hn c (h2 c hc)) rfl

theorem sec_kerning (g : Glyph ops.Angle asm.Asm) (n : Int) (hn : g.numMasters = some n) (kerning : Option (List (Int × List Int)))
    (h : ∀ l, kerning = some l → KerningFits n.toNat l) (h0 : g.kerning = none) :
    GSec ops asm (writeKerning kerning) g { g with kerning := dropEmpty kerning } := by
  match kerning with
  | none =>
    have : ({ g with kerning := dropEmpty none } : Glyph ops.Angle asm.Asm) = g := by cases g; simp only [dropEmpty] at *; rw [h0]
    rw [this]; exact Sec.nil _
  | some [] =>
    have : ({ g with kerning := dropEmpty (some []) } : Glyph ops.Angle asm.Asm) = g := by cases g; simp only [dropEmpty] at *; rw [h0]
    rw [this]; exact Sec.nil _
  | some (c :: s) =>
    obtain ⟨h1, h2, h3⟩ := h _ rfl
    refine Sec.step (glyphBody_consuming ops asm) (Enc.bind (enc_u8 (by decide)) ?_)
    rw [if_neg (by decide), if_neg (by decide), if_neg (by decide), if_neg (by decide), if_neg (by decide), if_pos rfl]
    refine Enc.last (a := c :: s) ?_ rfl
    refine Enc.bind (enc_value_nonneg (v := ((c :: s).length : Int)) (by omega) true true) (Enc.last (a := c :: s) (Enc.forRange rfl fun p hp => ?_) ?_)
    · obtain ⟨a1, a2, a3⟩ := h3 p hp
      refine Enc.bind (enc_value (valOk_iff.2 a1)) ?_
      rw [masters_bind ops asm hn, ← a2]
      exact Enc.last (Enc.rep fun v hv => enc_value (valOk_iff.2 (a3 v hv))) rfl
    · exact congrArg pure (dictOfList_of_ok h1)

theorem sec_imported (g : Glyph ops.Angle asm.Asm) (imported : Option (Imported asm.Asm))
    (h : ∀ d, imported = some d → NoKeys d = true ∨ ImportedFits asm d) (h0 : g.imported = none) :
    GSec ops asm (writeImported asm imported) g { g with imported := storedImported asm imported } := by
  match imported with
  | none =>
    have : ({ g with imported := storedImported asm none } : Glyph ops.Angle asm.Asm) = g := by cases g; simp only [storedImported] at *; rw [h0]
    rw [this]; exact Sec.nil _
  | some d =>
    cases he : NoKeys d with
    | true =>
      have : ({ g with imported := storedImported asm (some d) } : Glyph ops.Angle asm.Asm) = g := by
        cases g; simp only [storedImported, he] at *; rw [h0]; rfl
      rw [this]
      unfold writeImported
      dsimp only
      rw [imported_noKeys, he]; exact Sec.nil _
    | false =>
      have hf : ImportedFits asm d := by
        rcases h d rfl with h | h
        · rw [he] at h; cases h
        · exact h
      obtain ⟨d', h1, h2⟩ := enc_imported asm d hf he
      unfold writeImported
      dsimp only
      rw [imported_noKeys, he, h1]
      refine Sec.step (glyphBody_consuming ops asm) (Enc.bind (enc_u8 (by decide)) ?_)
      rw [if_neg (by decide), if_neg (by decide), if_neg (by decide), if_neg (by decide), if_neg (by decide), if_neg (by decide), if_neg (by decide), if_neg (by decide), if_pos rfl]
      exact Enc.last h2 rfl

theorem writeValue_length (v : Int) (sg : Bool) {b : Bytes} (h : writeValue v sg = .ok b) : b.length ≤ 5 := by
  by_cases h1 : -107 ≤ v ∧ v ≤ 107
  · rw [writeValue_short sg h1] at h; cases h; simp
  by_cases h2 : 107 < v ∧ v ≤ 1131
  · rw [writeValue_pos sg h2] at h; cases h; simp
  by_cases h3 : -1131 ≤ v ∧ v < -107
  · rw [writeValue_neg sg h3] at h; cases h; simp
  by_cases h4 : inRange 4 sg v
  · rw [writeValue, if_neg h1, if_neg h2, if_neg h3, writeValueLong_ok sg h4] at h
    cases h; simp
  · rw [writeValue_err] at h
    · cases h
    · cases sg <;> simp only [ValOk, inRange] at * <;> omega

theorem all_length_le {α : Type} {l : List α} {f : α → W} {k : Nat} {b : Bytes} (h : ∀ x ∈ l, ∀ c, f x = .ok c → c.length ≤ k)
    (hb : W.all l f = .ok b) : b.length ≤ l.length * k := by
  induction l generalizing b with
  | nil => cases hb; simp
  | cons x l ih =>
    rw [W.all_cons, W.seq_eq_ok] at hb
    obtain ⟨c, d, hc, hd, rfl⟩ := hb
    have h1 := h x (by simp) c hc
    have h2 := ih (fun y hy => h y (by simp [hy])) hd
    simp only [List.length_append, List.length_cons, Nat.succ_mul]
    omega

theorem enc_instruction (i : Instruction) (h : InstructionFits i) : Enc (writeInstruction i) readInstruction i ∧ ∀ b, writeInstruction i = .ok b → b.length ≤ 21 := by
  obtain ⟨cmd, params⟩ := i
  obtain ⟨h1, h2⟩ := h
  dsimp only at h1 h2
  unfold paramNames at h1
  cases hf : ttCommands.find? (fun c => c.2.1 == cmd) with
  | none => rw [hf] at h1; cases h1
  | some c =>
    rw [hf] at h1
    have hmem := List.mem_of_find?_eq_some hf
    have hcmd : c.2.1 = cmd := by simpa using List.find?_some hf
    obtain ⟨-, -, c3, c4, c5, c6, c7⟩ := ttCommands_name c hmem
    have hp : c.2.2 = params.map Prod.fst := by simpa using h1
    have hw : writeInstruction ⟨cmd, params⟩ = writeU8 c.1 ++ W.all params fun p => writeValue p.2 := by
      unfold writeInstruction
      dsimp only
      rw [hf]
      dsimp only
      congr 1
      rw [hp, W.all_map']
      refine W.all_congr fun p hpm => ?_
      rw [dictGet_of_mem (d := params) (k := p.1) (v := p.2) (by unfold DictOk; rw [← hp]; exact c6) hpm]
    rw [hw]
    constructor
    · refine Enc.bind (enc_u8 (v := c.1) ⟨c4, c5⟩) ?_
      rw [c3]
      dsimp only
      have hl : c.2.2.length = params.length := by rw [hp, List.length_map]
      rw [hl]
      refine Enc.last (a := params.map Prod.snd) (Enc.repMap fun p hpm => enc_value (valOk_iff.2 (h2 p hpm))) ?_
      congr 1
      rw [hp, hcmd]
      congr 1
      clear * -
      induction params with
      | nil => rfl
      | cons p ps ih => simp [ih]
    · intro b hb
      obtain ⟨x, y, hx, hy, rfl⟩ := W.seq_eq_ok.1 hb
      have h1 : x.length = 1 := by
        obtain ⟨z, hz, -⟩ := enc_u8 (v := c.1) ⟨c4, c5⟩
        unfold writeU8 toBytesLE at hx
        split at hx
        · cases hx; simp
        · cases hx
      have h2 := all_length_le (k := 5) (fun p _ c hc => writeValue_length _ _ hc) hy
      have hl : c.2.2.length = params.length := by rw [hp, List.length_map]
      simp only [List.length_append]
      omega

theorem sec_instructions (g : Glyph ops.Angle asm.Asm) (tth : Option (List Instruction))
    (h : ∀ l, tth = some l → l.length < 100000000 ∧ ∀ i ∈ l, InstructionFits i) (h0 : g.tth = none) :
    GSec ops asm (writeInstructions tth) g { g with tth := dropEmpty tth } := by
  match tth with
  | none =>
    have : ({ g with tth := dropEmpty none } : Glyph ops.Angle asm.Asm) = g := by cases g; simp only [dropEmpty] at *; rw [h0]
    rw [this]; exact Sec.nil _
  | some [] =>
    have : ({ g with tth := dropEmpty (some []) } : Glyph ops.Angle asm.Asm) = g := by cases g; simp only [dropEmpty] at *; rw [h0]
    rw [this]; exact Sec.nil _
  | some (c :: s) =>
    obtain ⟨h1, h2⟩ := h _ rfl
    have hi : ∀ i ∈ c :: s, Enc (writeInstruction i) readInstruction i := fun i hi => (enc_instruction i (h2 i hi)).1
    have hz : Enc (W.all [0, 0, 0] fun v => writeValue v) (R.rep 3 readValue) [0, 0, 0] :=
      Enc.rep (xs := [0, 0, 0]) fun v hv => enc_value (by
        simp only [List.mem_cons, List.not_mem_nil, or_false, or_self] at hv
        subst hv; decide)
    have hall : Enc (compileInstructions (c :: s)) (do
        let num ← readValue
        let l ← R.forRange num readInstruction
        let _ ← R.rep 3 readValue
        pure (unlessEmpty l)) (some (c :: s)) :=
      Enc.bind (enc_value_nonneg (v := ((c :: s).length : Int)) (by omega) true true) (Enc.bind (Enc.forRange rfl hi) (Enc.last hz rfl))
    have hlen : ∀ b, compileInstructions (c :: s) = .ok b → b.length < 2147483648 := by
      intro b hb
      obtain ⟨x, y, hx, hy, rfl⟩ := W.seq_eq_ok.1 hb
      obtain ⟨y, z, hy', hz', rfl⟩ := W.seq_eq_ok.1 hy
      have l1 := writeValue_length _ _ hx
      have l2 := all_length_le (k := 21) (fun i hi c hc => (enc_instruction i (h2 i hi)).2 c hc) hy'
      have l3 := all_length_le (k := 5) (fun i hi c hc => writeValue_length _ _ hc) hz'
      simp only [List.length_append]
      simp only [List.length_cons, List.length_nil] at l3 l2 h1
      omega
    refine Sec.step (glyphBody_consuming ops asm) (Enc.bind (enc_u8 (by decide)) ?_)
    rw [if_neg (by decide), if_neg (by decide), if_neg (by decide), if_neg (by decide), if_neg (by decide), if_neg (by decide), if_neg (by decide),
      if_neg (by decide), if_neg (by decide), if_pos rfl]
    obtain ⟨b, hb, hr⟩ := hall
    rw [hb, W.withVal_ok]
    refine Enc.last (a := some (c :: s)) ?_ ?_
    · exact Enc.bind (enc_value_nonneg (v := (b.length : Int)) (by have := hlen b hb; omega) true true) ⟨b, rfl, hr⟩
    · rfl

/-! ## C42 -/

/-- **C42** A glyph that can be stored is written and read back as its stored form. -/
theorem C42_compile (vfbMasters : Nat) (g : Glyph ops.Angle asm.Asm) (h : GlyphFits ops asm vfbMasters g) :
    CompilesTo (compileGlyph ops asm vfbMasters) (parseGlyph ops asm) g (storedGlyph ops asm g) := by
  obtain ⟨n, hn, h1, h2, h3, h4, h5, h6, h7, h8, h9⟩ := h
  have hname : ∀ d, g.guides = some d → dropEmpty g.name ≠ none ∧ n = vfbMasters ∧ GuidesFit ops vfbMasters d := by
    intro d hd
    obtain ⟨⟨s, hs, hs'⟩, a2, a3⟩ := h5 d hd
    refine ⟨?_, a2, a3⟩
    rw [hs]
    cases s with
    | nil => exact absurd rfl hs'
    | cons c s => simp [dropEmpty]
  obtain ⟨name, numMasters, nodes, metrics, hints, guides, components, kerning, imported, tth⟩ := g
  dsimp only at *
  subst hn
  have s1 := sec_name ops asm ⟨none, none, none, none, none, none, none, none, none, none⟩ name h2 rfl
  have s2 := sec_outlines ops asm ⟨dropEmpty name, none, none, none, none, none, none, none, none, none⟩ n nodes h1
  have s3 := sec_metrics ops asm ⟨dropEmpty name, some n, some (orEmpty nodes), none, none, none, none, none, none, none⟩ n rfl metrics h3 rfl
  have s4 := sec_hints ops asm ⟨dropEmpty name, some n, some (orEmpty nodes), dropEmpty metrics, none, none, none, none, none, none⟩ n rfl hints h4 rfl
  have s5 := sec_guides ops asm vfbMasters ⟨dropEmpty name, some n, some (orEmpty nodes), dropEmpty metrics, storedHints hints, none, none, none, none, none⟩ n rfl guides hname rfl
  have s6 := sec_components ops asm ⟨dropEmpty name, some n, some (orEmpty nodes), dropEmpty metrics, storedHints hints, guides.map (reangle ops), none, none, none, none⟩ n rfl components h6 rfl
  have s7 := sec_kerning ops asm ⟨dropEmpty name, some n, some (orEmpty nodes), dropEmpty metrics, storedHints hints, guides.map (reangle ops), dropEmpty components, none, none, none⟩ n rfl kerning h7 rfl
  have s8 := sec_imported ops asm ⟨dropEmpty name, some n, some (orEmpty nodes), dropEmpty metrics, storedHints hints, guides.map (reangle ops), dropEmpty components, dropEmpty kerning, none, none⟩ imported h8 rfl
  have s9 := sec_instructions ops asm ⟨dropEmpty name, some n, some (orEmpty nodes), dropEmpty metrics, storedHints hints, guides.map (reangle ops), dropEmpty components, dropEmpty kerning, storedImported asm imported, none⟩ tth h9 rfl
  have s10 : Enc (writeU8 15) (R.whileTrue (glyphBody ops asm) ⟨dropEmpty name, some n, some (orEmpty nodes), dropEmpty metrics, storedHints hints, guides.map (reangle ops), dropEmpty components, dropEmpty kerning, storedImported asm imported, dropEmpty tth⟩)
      ⟨dropEmpty name, some n, some (orEmpty nodes), dropEmpty metrics, storedHints hints, guides.map (reangle ops), dropEmpty components, dropEmpty kerning, storedImported asm imported, dropEmpty tth⟩ := by
    refine Sec.last (glyphBody_consuming ops asm) (Enc.last (enc_u8 (by decide)) ?_)
    rw [if_neg (by decide), if_neg (by decide), if_neg (by decide), if_neg (by decide), if_neg (by decide), if_neg (by decide), if_neg (by decide),
      if_neg (by decide), if_neg (by decide), if_neg (by decide), if_pos rfl]
  have hall := s1 _ _ (s2 _ _ (s3 _ _ (s4 _ _ (s5 _ _ (s6 _ _ (s7 _ _ (s8 _ _ (s9 _ _ s10))))))))
  clear s1 s2 s3 s4 s5 s6 s7 s8 s9 s10
  have hfin := Enc.bind (w₁ := (.ok [1, 9, 7, 1] : W)) (a := [1, 9, 7, 1]) (p := R.readN 4) (f := fun start : Bytes => if start.length ≠ 4 then R.throw .structError
    else R.whileTrue (glyphBody ops asm) (Glyph.empty ops.Angle asm.Asm)) ⟨_, rfl, fun rest => readN_append rfl⟩ (by
      rw [if_neg (by decide)]; exact hall)
  exact roundTrips_of_all hfin

theorem storedGlyph_eq (g : Glyph ops.Angle asm.Asm) (h : GlyphNormal ops asm g) : storedGlyph ops asm g = g := by
  obtain ⟨h1, h2, h3, h4, h5, h6, h7, h8, h9⟩ := h
  have hd : ∀ {α : Type} (x : Option (List α)), x ≠ some [] → dropEmpty x = x := by
    intro α x hx
    match x, hx with
    | none, _ => rfl
    | some [], hx => exact absurd rfl hx
    | some (_ :: _), _ => rfl
  have e2 : some (orEmpty g.nodes) = g.nodes := by
    cases hn : g.nodes with
    | none => exact absurd hn h2
    | some l => rfl
  have e4 : storedHints g.hints = g.hints := by
    cases hh : g.hints with
    | none => rfl
    | some d =>
      obtain ⟨a, b⟩ := h4 d hh
      unfold storedHints
      dsimp only
      rw [hd _ a, if_neg b]
  have e5 : g.guides.map (reangle ops) = g.guides := by
    cases hg : g.guides with
    | none => rfl
    | some d => rw [Option.map_some, reangle_exact ops d (h5 d hg)]
  have e9 : storedImported asm g.imported = g.imported := by
    cases hi : g.imported with
    | none => rfl
    | some d =>
      obtain ⟨a1, a2, a3, a4, ⟨b, a, b1, b2, b3⟩, a6⟩ := h9 d hi
      unfold storedImported
      dsimp only
      rw [a1]
      simp only [Bool.false_eq_true, if_false, Option.some.injEq]
      obtain ⟨m, nc, es, nodes, ins, hx⟩ := d
      dsimp only at *
      have q1 : some (orEmpty es) = es := by
        cases es with
        | none => exact absurd rfl a2
        | some l => rfl
      have q2 : some (orEmpty hx) = hx := by
        cases hx with
        | none => exact absurd rfl a6
        | some l => rfl
      have q3 : storedProgram asm ins = ins := by
        unfold storedProgram
        rw [b1]
        dsimp only
        rw [b2, b3]
      have q4 : dropEmpty (nodes.map fun l => l.map fun nd => (⟨nd.flags, nd.flags % 2, nd.point⟩ : ImpNode)) = nodes := by
        match nodes, a3, a4 with
        | none, _, _ => rfl
        | some [], a3, _ => exact absurd rfl a3
        | some (x :: l), _, a4 =>
          have : (x :: l).map (fun nd => (⟨nd.flags, nd.flags % 2, nd.point⟩ : ImpNode)) = x :: l := by
            refine (List.map_congr_left (g := id) fun nd hnd => ?_).trans (List.map_id _)
            have := a4 nd hnd
            obtain ⟨f, o, p⟩ := nd
            dsimp only at this
            rw [this]; rfl
          rw [Option.map_some, this]; rfl
      rw [q1, q2, q3, q4]
  unfold storedGlyph
  rw [hd _ h1, hd _ h3, hd _ h6, hd _ h7, hd _ h8, e2, e4, e5, e9]

/-- **C42** A glyph that is in the form in which it is stored round-trips. -/
theorem C42_roundtrip (vfbMasters : Nat) (g : Glyph ops.Angle asm.Asm) (h : GlyphFits ops asm vfbMasters g) (hn : GlyphNormal ops asm g) :
    RoundTrips (compileGlyph ops asm vfbMasters) (parseGlyph ops asm) g := by
  have := C42_compile ops asm vfbMasters g h
  rw [storedGlyph_eq ops asm g hn] at this
  exact this

/-- **C42** A parsed glyph that is complete is written and read back unchanged, apart from the angles of the guides, which are
recomputed from their slopes (see C30). -/
theorem C42_stable (hr : ∀ v, IsInt32 v → IsInt32 (ops.fromAngle (ops.toAngle v))) (vfbMasters : Nat)
    (payload : Bytes) (g : Glyph ops.Angle asm.Asm) (hp : payload.length < 2147483648) (hg : parseEntry (parseGlyph ops asm) payload = .ok g)
    (hc : GlyphComplete ops asm vfbMasters g) :
    CompilesTo (compileGlyph ops asm vfbMasters) (parseGlyph ops asm) g { g with guides := g.guides.map (reangle ops) } := by
  have hread : GlyphRead ops asm payload.length g := parseEntry_post (post_glyph ops asm) hg
  obtain ⟨⟨n, c1, c2, c3, c4, c5, c6, c7, c8, c9⟩, d1, d2, d3, d4, d5, d6⟩ := hc
  have hfit : GlyphFits ops asm vfbMasters g := by
    refine ⟨n, c1, ⟨(hread.masters n c1).1, c2, c3, (hread.masters n c1).2, c4⟩, ?_, ?_, ?_, ?_, ?_, ?_, ?_, ?_⟩
    · intro s hs
      have := hread.name s hs
      exact ⟨isLatin_iff.2 this.1, by have := this.2; omega⟩
    · exact fun l hl => ⟨.inr (c5 l hl), hread.metrics l hl⟩
    · intro d hd
      have := hread.hints d hd
      exact ⟨fun l hl => ⟨(this.1 l hl).1, fun mm hmm => ⟨c6 d hd l hl mm hmm, (this.1 l hl).2 mm hmm⟩⟩, this.2.1, this.2.2.1⟩
    · intro d hd
      obtain ⟨a1, a2, a3⟩ := c7 d hd
      refine ⟨?_, a2, fun l hl => ⟨(hread.guides d hd l hl).1, fun gd hgd => ⟨a3 l hl gd hgd, fun x hx => ?_⟩⟩⟩
      · cases hname : g.name with
        | none => exact absurd hname a1
        | some s => exact ⟨s, rfl, fun e => d1 (by rw [hname, e])⟩
      · obtain ⟨b1, v, b2, b3⟩ := (hread.guides d hd l hl).2 gd hgd x hx
        exact ⟨b1, b3 ▸ hr v b2⟩
    · intro l hl
      refine ⟨(hread.components l hl).1, fun c hc => ?_⟩
      have := (hread.components l hl).2 c hc
      rwa [c8 l hl c hc] at this
    · intro d hd
      obtain ⟨a1, a2, a3⟩ := hread.kerning d hd
      exact ⟨a1, a2, fun p hp => ⟨(a3 p hp).1, c9 d hd p hp, (a3 p hp).2⟩⟩
    · intro d hd
      obtain ⟨a1, a2, a3, b, a, a4, a5, a6, a7⟩ := d5 d hd
      obtain ⟨r1, r2, r3, r4⟩ := hread.imported d hd
      refine .inr ⟨?_, ?_, r3.1, ⟨b, a, by rw [a4]; exact a5, a6, a7⟩, r4⟩
      · cases hm : d.metrics with
        | none => exact absurd hm a1
        | some m => exact ⟨m, rfl, r1 m hm⟩
      · cases hm : d.numContours with
        | none => exact absurd hm a2
        | some m =>
          obtain ⟨e, e1, e2, e3, e4⟩ := r2 m hm
          rw [e1]
          exact ⟨m, rfl, e2, e3, e4⟩
    · exact fun l hl => ⟨d6 l hl, (hread.tth l hl).2⟩
  have := C42_compile ops asm vfbMasters g hfit
  have hn : GlyphNormal ops asm { g with guides := none } := by
    refine ⟨d1, hread.nodes (by rw [c1]; simp), d2, ?_, by (intro d hd; cases hd), d3, d4, ?_, ?_⟩
    · exact fun d hd => (hread.hints d hd).2.2.2
    · exact fun h => (hread.tth [] h).1 rfl
    · intro d hd
      obtain ⟨a1, a2, a3, b, a, a4, a5, a6, a7⟩ := d5 d hd
      obtain ⟨r1, r2, r3, r4⟩ := hread.imported d hd
      refine ⟨?_, ?_, r3.2.1, r3.2.2, ⟨b, a, by rw [a4]; exact a5, a7, a4⟩, a3⟩
      · rw [← imported_noKeys]; unfold Imported.isEmpty
        cases hm : d.metrics with
        | none => exact absurd hm a1
        | some m => rfl
      · cases hm : d.numContours with
        | none => exact absurd hm a2
        | some m =>
          obtain ⟨e, e1, -⟩ := r2 m hm
          rw [e1]; simp
  have e := storedGlyph_eq ops asm _ hn
  have : storedGlyph ops asm g = { g with guides := g.guides.map (reangle ops) } := by
    have e' := congrArg (fun x : Glyph ops.Angle asm.Asm => { x with guides := g.guides.map (reangle ops) }) e
    exact e'
  rw [← this]
  assumption

/-! termination -/

theorem ofValue_noFuel (v : Int) : PathCommand.ofValue v ≠ .error .fuel := by
  unfold PathCommand.ofValue
  repeat' split
  all_goals intro h; cases h

theorem noFuel_pair : NoFuel readPair := by unfold readPair; nofuel

theorem noFuel_nodes (n : Nat) (refs : List Point) : NoFuel (readNodes n refs) := by
  have hp := noFuel_pair
  have hrow : ∀ refs, NoFuel (readAbsolutePoint refs) := fun refs => by unfold readAbsolutePoint; nofuel
  have hnode : ∀ refs, NoFuel (readNode refs) := fun refs => by
    unfold readNode
    refine NoFuel.bind NoFuel.u8 fun b => NoFuel.bind (NoFuel.lift (ofValue_noFuel _)) fun c => NoFuel.bind (hrow _) fun _ =>
      NoFuel.ite (NoFuel.bind (hrow _) fun _ => NoFuel.bind (hrow _) fun _ => NoFuel.pure _) (NoFuel.pure _)
  induction n generalizing refs with
  | zero => exact NoFuel.pure _
  | succ n ih =>
    unfold readNodes
    exact NoFuel.bind (hnode _) fun _ => NoFuel.bind (ih _) fun _ => NoFuel.pure _

theorem noFuel_outlines : NoFuel readOutlines := by
  unfold readOutlines
  have := noFuel_nodes
  exact NoFuel.bind (NoFuel.value _) fun _ => NoFuel.bind (NoFuel.value _) fun _ => NoFuel.bind (NoFuel.value _) fun _ =>
    NoFuel.bind (this _ _) fun _ => NoFuel.pure _

theorem noFuel_guides (n : Nat) : NoFuel (parseGuides ops n) := by
  unfold parseGuides parseGuideDir parseGuide
  nofuel

theorem noFuel_impNodes (n : Nat) (p : Point) : NoFuel (readImpNodes n p) := by
  induction n generalizing p with
  | zero => exact NoFuel.pure _
  | succ n ih =>
    unfold readImpNodes
    exact NoFuel.bind noFuel_pair fun _ => NoFuel.bind NoFuel.u8 fun _ => NoFuel.bind (ih _) fun _ => NoFuel.pure _

theorem noFuel_imported (hasm : ∀ b, asm.disassemble b ≠ .error .fuel) : NoFuel (readImported asm) := by
  refine NoFuel.whileTrue (impBody_consuming asm) (fun d => ?_) _
  unfold impBody
  have h1 := fun n => noFuel_impNodes n (0, 0)
  nofuel
  · exact h1 _
  · exact NoFuel.lift (hasm _)

theorem noFuel_masters (g : Glyph ops.Angle asm.Asm) : NoFuel (mastersOf ops asm g) := by
  unfold mastersOf
  cases g.numMasters with
  | none => exact NoFuel.throw (by decide)
  | some n => exact NoFuel.pure _

theorem noFuel_instruction : NoFuel readInstruction := by
  unfold readInstruction
  refine NoFuel.bind NoFuel.u8 fun c => ?_
  cases dictGet ttCommands c with
  | none => exact NoFuel.throw (by decide)
  | some c => dsimp only; nofuel

theorem noFuel_hintmask : NoFuel readHintmask := by
  unfold readHintmask
  refine NoFuel.bind NoFuel.u8 fun k => NoFuel.bind (NoFuel.value _) fun v => NoFuel.bind (NoFuel.lift ?_) fun _ => NoFuel.pure _
  unfold replaceType
  repeat' split
  all_goals intro h; cases h

theorem noFuel_componentMaster : NoFuel readComponentMaster := by
  unfold readComponentMaster
  refine NoFuel.bind (NoFuel.value _) fun x => NoFuel.bind (NoFuel.value _) fun y => NoFuel.bind (NoFuel.doubles _) fun ds => ?_
  split
  · exact NoFuel.pure _
  · exact NoFuel.throw (by decide)

theorem noFuel_glyph (hasm : ∀ b, asm.disassemble b ≠ .error .fuel) : NoFuel (parseGlyph ops asm) := by
  unfold parseGlyph
  refine NoFuel.bind (NoFuel.readN _) fun _ => NoFuel.ite (NoFuel.throw (by decide)) (NoFuel.whileTrue (glyphBody_consuming ops asm) (fun g => ?_) _)
  have h1 := noFuel_masters ops asm g
  have h2 := noFuel_pair
  have h3 := noFuel_outlines
  have h4 := noFuel_imported asm hasm
  have h5 := noFuel_instruction
  have h6 := noFuel_hintmask
  have h7 := noFuel_componentMaster
  have h8 : NoFuel (readMetrics ops asm g) := by unfold readMetrics; nofuel
  have h9 : NoFuel (readHints ops asm g) := by unfold readHints readHintDir; nofuel
  have h10 : NoFuel (readGlyphGuides ops asm g) := by
    unfold readGlyphGuides
    refine NoFuel.bind h1 fun n => ?_
    cases g.name with
    | none => exact NoFuel.throw (by decide)
    | some s => exact noFuel_guides ops n
  have h11 : NoFuel (readComponents ops asm g) := by unfold readComponents readComponent; nofuel
  have h12 : NoFuel (readKerning ops asm g) := by unfold readKerning readKernPair; nofuel
  have h13 : NoFuel readInstructions := by unfold readInstructions; nofuel
  unfold glyphBody
  nofuel

/-- **C42** Reading a glyph ends on every payload (if disassembling does). -/
theorem C42_terminates (hasm : ∀ b, asm.disassemble b ≠ .error .fuel) (payload : Bytes) :
    parseEntry (parseGlyph ops asm) payload ≠ .error .fuel := (noFuel_glyph ops asm hasm).entry payload

/-! limits -/

/-- **C42** (limit) A glyph without `num_masters` cannot be compiled. -/
theorem C42_no_masters (vfbMasters : Nat) (g : Glyph ops.Angle asm.Asm) (h : g.numMasters = none) :
    compileGlyph ops asm vfbMasters g = .error .key := by
  unfold compileGlyph
  rw [h]

/-- **C42** (limit) Imported data without metrics or without a number of contours cannot be compiled (unless it is empty). -/
theorem C42_imported_incomplete (vfbMasters : Nat) (g : Glyph ops.Angle asm.Asm) (d : Imported asm.Asm) (h : g.imported = some d)
    (he : NoKeys d = false) (hm : d.metrics = none ∨ d.numContours = none) : Rejected (compileGlyph ops asm vfbMasters) g := by
  unfold Rejected compileGlyph
  cases hn : g.numMasters with
  | none => exact ⟨_, rfl⟩
  | some n =>
    refine err_right (err_right (err_right (err_right (err_right (err_right (err_right (err_right (err_left ?_))))))))
    unfold writeImported
    rw [h]
    dsimp only
    rw [imported_noKeys, he]
    refine err_right ?_
    rcases hm with hm | hm
    · rw [hm]
      exact err_left (err_right ⟨_, rfl⟩)
    · refine err_right (err_left (err_right ?_))
      unfold writeImpOutlines
      rw [hm]
      exact ⟨_, rfl⟩

/-- **C42** (limit) An unknown TrueType command, or one with a missing parameter, cannot be compiled. -/
theorem C42_instruction_rejected (i : Instruction) (h : ∀ ps, paramNames i.cmd = some ps → ∃ p ∈ ps, dictGet i.params p = none) :
    ∃ e, writeInstruction i = .error e := by
  unfold writeInstruction
  cases hf : ttCommands.find? (fun c => c.2.1 == i.cmd) with
  | none => exact ⟨_, rfl⟩
  | some c =>
    obtain ⟨p, hp, hn⟩ := h c.2.2 (by rw [paramNames, hf]; rfl)
    refine err_right (rejected_of_all hp ?_)
    rw [hn]
    exact ⟨_, rfl⟩

/-- **C42** (limit) The four bytes at the start are not checked: any others give the same glyph. -/
theorem C42_constants_ignored (a b : Bytes) (ha : a.length = 4) (hb : b.length = 4) (rest : Bytes) :
    parseEntry (parseGlyph ops asm) (a ++ rest) = parseEntry (parseGlyph ops asm) (b ++ rest) := by
  have key : ∀ a : Bytes, a.length = 4 → parseGlyph ops asm (a ++ rest) = R.whileTrue (glyphBody ops asm) (Glyph.empty ops.Angle asm.Asm) rest := by
    intro a ha
    unfold parseGlyph
    rw [R.bind_of_ok (readN_append (by rw [ha]; rfl)), if_neg (by rw [ha]; simp)]
  unfold parseEntry
  rw [key a ha, key b hb]

/-- **C42** (violated) The parser accepts empty names, but the compiler leaves them out; and guides can only be read after a name.
So a glyph with guides and an empty name is parsed and compiled, but what was compiled cannot be parsed. -/
theorem C42_empty_name_guides (hz : ops.fromAngle (ops.toAngle 0) = 0) : ∃ payload g b, parseEntry (parseGlyph ops asm) payload = .ok g ∧ g.name = some [] ∧
    compileGlyph ops asm 1 g = .ok b ∧ parseEntry (parseGlyph ops asm) b = .error .attr := by
  refine ⟨[1, 9, 7, 1, 1, 139, 8, 140, 139, 139, 4, 140, 139, 139, 139, 15], ⟨some [], some 1, some [], none, none, some ⟨[[⟨0, ops.toAngle 0⟩]], []⟩, none, none, none, none⟩,
    [1, 9, 7, 1, 8, 140, 139, 139, 4, 140, 139, 139, 139, 15], ?_, rfl, ?_, ?_⟩
  · rfl
  · show (.ok [1, 9, 7, 1] : W) ++ (W.nil ++ ((writeU8 8 ++ writeOutlines 1 []) ++ (W.nil ++ (W.nil ++ ((writeU8 4 ++ ((writeValue 1 ++
      W.all [[⟨0, ops.toAngle 0⟩]] (compileGuideMM ops 1)) ++ (writeValue 0 ++ W.nil))) ++ _))))) = _
    have : compileGuideMM ops 1 [⟨0, ops.toAngle 0⟩] = .ok [139, 139] := by
      show (writeValue 0 ++ writeValue (ops.fromAngle (ops.toAngle 0))) ++ W.nil = _
      rw [hz]; rfl
    rw [W.all_cons, this]
    rfl
  · rfl

/-- **C42** (violated) Empty metrics, components and kerning are parsed as empty lists, but not written: they are gone after
compiling. -/
theorem C42_empty_lost : ∃ payload g b g', parseEntry (parseGlyph ops asm) payload = .ok g ∧ compileGlyph ops asm 1 g = .ok b ∧
    parseEntry (parseGlyph ops asm) b = .ok g' ∧ g.components = some [] ∧ g.kerning = some [] ∧ g'.components = none ∧ g'.kerning = none :=
  ⟨[1, 9, 7, 1, 8, 140, 139, 139, 5, 139, 6, 139, 15], ⟨none, some 1, some [], none, none, none, some [], some [], none, none⟩,
    [1, 9, 7, 1, 8, 140, 139, 139, 15], ⟨none, some 1, some [], none, none, none, none, none, none, none⟩, rfl, rfl, rfl, rfl, rfl, rfl, rfl⟩

end

/-! A glyph with all sections that meets the hypotheses. -/

/-- an (dis)assembler for which an assembly is the bytecode itself -/
def exampleAsm : AsmOps where
  Asm := Bytes
  disassemble b := .ok b
  assemble b := .ok b
  isEmpty b := b.isEmpty

/-- angles as slopes -/
def exampleAngles : AngleOps where
  Angle := Int
  toAngle v := v
  fromAngle v := v

def exampleGlyph : Glyph exampleAngles.Angle exampleAsm.Asm where
  name := some (lit "A")
  numMasters := some 2
  nodes := some [⟨.move, some 0, [[(10, 20)], [(30, -40)]]⟩, ⟨.curve, some 2, [[(1, 2), (3, 4), (5, 6)], [(7, 8), (9, 10), (11, 12000)]]⟩]
  metrics := some [(500, 0), (600, 0)]
  hints := some ⟨[[(0, 10), (5, 10)]], [], some [(lit "h", 0), (lit "r", 1)]⟩
  guides := some ⟨[], [[⟨5, (7 : Int)⟩, ⟨6, (8 : Int)⟩]]⟩
  components := some [⟨3, [1, 2], [3, 4], [⟨0⟩, ⟨0⟩], [⟨1⟩, ⟨0⟩]⟩]
  kerning := some [(1, [-10, -20]), (7, [3, 4])]
  imported := some ⟨some ⟨500, 1, 2, 3, 4, [0, 0, 100, 100]⟩, some 1, some [1], some [⟨1, 1, (5, 5)⟩, ⟨0, 0, (-5, 70)⟩], some ([1, 2, 3] : Bytes), some [4, 5]⟩
  tth := some [⟨lit "AlignTop", [(lit "pt", 1), (lit "zone", 2)]⟩]

example : GlyphFits exampleAngles exampleAsm 2 exampleGlyph := by
  refine ⟨2, rfl, ⟨by decide, by decide, by decide, ⟨?_, ?_⟩, by decide⟩, ?_, ?_, ?_, ?_, ?_, ?_, ?_, ?_⟩
  · intro node hn
    simp only [orEmpty, exampleGlyph, Option.getD_some, List.mem_cons, List.not_mem_nil, or_false] at hn
    rcases hn with rfl | rfl
    · exact ⟨⟨0, rfl, by decide, by decide⟩, rfl, by decide⟩
    · exact ⟨⟨2, rfl, by decide, by decide⟩, rfl, by decide⟩
  · intro m hm
    match m, hm with
    | 0, _ => simp only [PairFits]; decide
    | 1, _ => simp only [PairFits]; decide
  · intro s hs; cases hs; decide +kernel
  · intro s hs; cases hs; simp only [PairFits]; decide
  · intro s hs; cases hs; simp only [HintsFit, PairFits]; decide
  · intro d hd
    cases hd
    refine ⟨⟨_, rfl, by decide⟩, rfl, ?_⟩
    intro l hl
    simp only [List.mem_cons, List.not_mem_nil, or_false] at hl
    rcases hl with rfl | rfl
    · exact ⟨by decide, fun g hg => by cases hg⟩
    · refine ⟨by decide, fun g hg => ?_⟩
      simp only [List.mem_cons, List.not_mem_nil, or_false] at hg
      subst hg
      refine ⟨rfl, fun x hx => ?_⟩
      simp only [List.mem_cons, List.not_mem_nil, or_false] at hx
      rcases hx with rfl | rfl
      · exact ⟨by decide, (by decide : IsInt32 7)⟩
      · exact ⟨by decide, (by decide : IsInt32 8)⟩
  · intro s hs; cases hs; simp only [ComponentFits]; decide
  · intro s hs; cases hs; simp only [KerningFits, DictOk]; decide
  · intro s hs; cases hs
    refine .inr ⟨⟨_, rfl, by decide, by decide, by decide, by decide, by decide, rfl, by decide⟩, ⟨1, rfl, by decide, rfl, by decide⟩,
      ⟨by decide, by decide, by simp only [PairFits]; decide⟩, ⟨[1, 2, 3], [1, 2, 3], rfl, by decide, rfl⟩, by decide, by decide⟩
  · intro s hs; cases hs; simp only [InstructionFits]; decide

/-- the TrueType commands with their numbers and parameters, in the order in which they are stored -/
def ttCommandTable : List (Int × String × List String) :=
  [(1, "AlignTop", ["pt", "zone"]), (2, "AlignBottom", ["pt", "zone"]),
   (3, "SingleLinkH", ["pt1", "pt2", "stem", "align"]), (4, "SingleLinkV", ["pt1", "pt2", "stem", "align"]),
   (5, "DoubleLinkH", ["pt1", "pt2", "stem"]), (6, "DoubleLinkV", ["pt1", "pt2", "stem"]),
   (7, "AlignH", ["pt", "align"]), (8, "AlignV", ["pt", "align"]),
   (13, "InterpolateH", ["pti", "pt1", "pt2", "align"]), (14, "InterpolateV", ["pti", "pt1", "pt2", "align"]),
   (20, "MDeltaH", ["pt", "shift", "ppm1", "ppm2"]), (21, "MDeltaV", ["pt", "shift", "ppm1", "ppm2"]),
   (22, "FDeltaH", ["pt", "shift", "ppm1", "ppm2"]), (23, "FDeltaV", ["pt", "shift", "ppm1", "ppm2"])]

theorem W.all_zip_params (ps : List PyStr) (vals : List Int) (hn : ps.Nodup) (hl : ps.length = vals.length) (pre : List (PyStr × Int))
    (hp : ∀ p ∈ ps, p ∉ pre.map Prod.fst) :
    (W.all ps fun p => match dictGet (pre ++ ps.zip vals) p with | some v => writeValue v | none => .error .key) = W.all vals fun v => writeValue v := by
  induction ps generalizing vals pre with
  | nil => cases vals with
    | nil => rfl
    | cons _ _ => simp at hl
  | cons p ps ih =>
    cases vals with
    | nil => simp at hl
    | cons v vals =>
      rw [List.nodup_cons] at hn
      have hg : dictGet (pre ++ (p :: ps).zip (v :: vals)) p = some v := by
        have := hp p (by simp)
        rw [dictGet_append, dictGet_none.2 this]
        simp [dictGet]
      rw [W.all_cons, W.all_cons, hg]
      have := ih vals hn.2 (by simpa using hl) (pre ++ [(p, v)]) (by
        intro q hq
        simp only [List.map_append, List.map_cons, List.map_nil, List.mem_append, List.mem_singleton, not_or]
        exact ⟨hp q (List.mem_cons_of_mem _ hq), by rintro rfl; exact hn.1 hq⟩)
      simp only [List.append_assoc, List.cons_append, List.nil_append] at this
      simp only [List.zip_cons_cons]
      rw [this]

/-- **C42** How TrueType commands are stored: the number of the command and its parameters in the order of the table. -/
theorem C42_command_layout (id : Int) (name : String) (params : List String) (h : (id, name, params) ∈ ttCommandTable) (vals : List Int)
    (hl : params.length = vals.length) :
    writeInstruction ⟨lit name, (params.map lit).zip vals⟩ = writeU8 id ++ W.all vals fun v => writeValue v := by
  have key : ∀ x ∈ ttCommandTable, ttCommands.find? (fun c => c.2.1 == lit x.2.1) = some (x.1, lit x.2.1, x.2.2.map lit) ∧ (x.2.2.map lit).Nodup := by
    decide +kernel
  obtain ⟨h1, h2⟩ := key _ h
  unfold writeInstruction
  simp only at h1 h2 ⊢
  rw [h1]
  have := W.all_zip_params (params.map lit) vals h2 (by simpa using hl) [] (by simp)
  simp only [List.nil_append] at this
  simp only
  congr 1

example : (5, "DoubleLinkH", ["pt1", "pt2", "stem"]) ∈ ttCommandTable ∧ ["pt1", "pt2", "stem"].length = [(3 : Int), 4, -1].length := by decide

end Verif.Props
