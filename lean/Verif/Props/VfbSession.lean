import Verif.Spec.VfbSession
import Verif.Props.UfoMasterGlyph
import Verif.Props.VfbPens
/-! C91: histories of calls on the objects for one glyph. -/
set_option autoImplicit false
namespace Verif.Props
open Verif Verif.Spec

section
variable (ops : AngleOps) (deg : ops.Angle → Rat) (asm : AsmOps)

theorem sessionRun_append (s : GlyphState) (a b : List GlyphOp) :
    (sessionRun ops deg asm s (a ++ b)).1 = (sessionRun ops deg asm (sessionRun ops deg asm s a).1 b).1 := by
  induction a generalizing s with
  | nil => rfl
  | cons c a ih =>
    simp only [List.cons_append, sessionRun]
    exact ih _

theorem stateAfter_append (s : GlyphState) (a b : List GlyphOp) :
    stateAfter ops deg asm s (a ++ b) = stateAfter ops deg asm (stateAfter ops deg asm s a) b := sessionRun_append ops deg asm s a b

theorem stateAfter_cons (s : GlyphState) (c : GlyphOp) (h : List GlyphOp) :
    stateAfter ops deg asm s (c :: h) = stateAfter ops deg asm (sessionStep ops deg asm s c).1 h := rfl

/-- a relation between states that every step keeps holds after every history -/
theorem run_rel (R : GlyphState → GlyphState → Prop) (hr : ∀ s, R s s) (ht : ∀ s t u, R s t → R t u → R s u) (P : GlyphOp → Prop)
    (hs : ∀ s c, P c → R s (sessionStep ops deg asm s c).1) (s : GlyphState) (h : List GlyphOp) (hp : ∀ c ∈ h, P c) :
    R s (stateAfter ops deg asm s h) := by
  induction h generalizing s with
  | nil => exact hr s
  | cons c h ih =>
    rw [stateAfter_cons]
    exact ht _ _ _ (hs s c (hp c (by simp))) (ih _ fun x hx => hp x (by simp [hx]))

theorem setObj_entry (s : GlyphState) (o : GlyphObject) (r : ObjRef) : (s.setObj o r).entry = s.entry ∧ (s.setObj o r).order = s.order ∧
    (s.setObj o r).count = s.count := by cases r <;> exact ⟨rfl, rfl, rfl⟩

theorem step_points_used {s : GlyphState} {r : ObjRef} {o : GlyphObject} {d : Drawing} (h : s.obj r = some o) (hc : o.cache = some d) :
    sessionStep ops deg asm s (.drawPoints r) = (s, .points (d.contours, d.components)) := by simp only [sessionStep, h, hc]

theorem step_points_fresh {s : GlyphState} {r : ObjRef} {o : GlyphObject} (h : s.obj r = some o) (hc : o.cache = none) :
    sessionStep ops deg asm s (.drawPoints r) = (s.setObj { o with cache := some (builtSoFar s.order o.points s.entry) } r,
      match buildError ops deg asm s.order o.points s.entry with
      | some e => .error e
      | none => .points ((builtSoFar s.order o.points s.entry).contours, (builtSoFar s.order o.points s.entry).components)) := by
  simp only [sessionStep, h, hc]
  rfl

theorem step_name_used {s : GlyphState} {r : ObjRef} {o : GlyphObject} {n : Option PyStr} (h : s.obj r = some o) (hc : o.nameCache = some n) :
    sessionStep ops deg asm s (.name r) = (s, .name n) := by simp only [sessionStep, h, hc]

theorem step_name_fresh {s : GlyphState} {r : ObjRef} {o : GlyphObject} (h : s.obj r = some o) (hc : o.nameCache = none) :
    sessionStep ops deg asm s (.name r) = (s.setObj { o with nameCache := some (o.cache.map Drawing.name) } r, .name (o.cache.map Drawing.name)) := by
  simp only [sessionStep, h, hc]

theorem step_none {s : GlyphState} {r : ObjRef} (h : s.obj r = none) (c : GlyphOp)
    (hc : c = .drawPoints r ∨ c = .name r ∨ c = .len r ∨ c = .clearContours r ∨ ∃ calls, c = .drawInto r calls) :
    sessionStep ops deg asm s c = (s, .done) := by
  rcases hc with rfl | rfl | rfl | rfl | ⟨calls, rfl⟩ <;> simp only [sessionStep, h]

theorem step_len {s : GlyphState} {r : ObjRef} {o : GlyphObject} (h : s.obj r = some o) :
    sessionStep ops deg asm s (.len r) = (s, match s.entry.glyphs.data.nodes with
      | none => .error .key
      | some nodes => .count (nodes.countP fun n => n.type == .move)) := by
  simp only [sessionStep, h]
  cases s.entry.glyphs.data.nodes <;> rfl

theorem step_draw (s : GlyphState) :
    sessionStep ops deg asm s .draw = (s, match drawGlyph s.order s.main.index (s.entry.glyphs.data.nodes.getD []) (s.entry.glyphs.data.components.getD []) with
      | .error e => .error e
      | .ok l => .segments l) := by
  simp only [sessionStep]
  cases drawGlyph s.order s.main.index (s.entry.glyphs.data.nodes.getD []) (s.entry.glyphs.data.components.getD []) <;> rfl

theorem step_clear {s : GlyphState} {r : ObjRef} {o : GlyphObject} (h : s.obj r = some o) :
    sessionStep ops deg asm s (.clearContours r) = ({ s with entry := { s.entry with glyphs := (clearEntry s.count r o.index s.entry.glyphs).1 } },
      resultOf (clearEntry s.count r o.index s.entry.glyphs).2) := by simp only [sessionStep, h]

theorem step_into {s : GlyphState} {r : ObjRef} {o : GlyphObject} (h : s.obj r = some o) (calls : List PenCall) :
    sessionStep ops deg asm s (.drawInto r calls) =
      ({ s with entry := { s.entry with glyphs := (drawEntry s.count o.index s.order calls s.entry.glyphs).1 } },
      resultOf (drawEntry s.count o.index s.order calls s.entry.glyphs).2) := by simp only [sessionStep, h]

theorem obj_setObj_same {s : GlyphState} {r : ObjRef} {o o' : GlyphObject} (h : s.obj r = some o) : (s.setObj o' r).obj r = some o' := by
  cases r with
  | main => rfl
  | master i =>
    have := (List.getElem?_eq_some_iff.1 h).1
    simp [GlyphState.setObj, GlyphState.obj, List.getElem?_set, this]

theorem obj_setObj_other {s : GlyphState} {r q : ObjRef} {o' : GlyphObject} (h : q ≠ r) : (s.setObj o' r).obj q = s.obj q := by
  cases r with
  | main =>
    cases q with
    | main => exact absurd rfl h
    | master i => rfl
  | master i =>
    cases q with
    | main => rfl
    | master j =>
      have : i ≠ j := fun e => h (by rw [e])
      simp [GlyphState.setObj, GlyphState.obj, List.getElem?_set, this]

/-- what one call does to an object: it is still there, it draws the same master, and each of the two things it keeps is as before, unless it was missing
and this is the call that sets it -/
theorem step_obj (s : GlyphState) (c : GlyphOp) {r : ObjRef} {o : GlyphObject} (h : s.obj r = some o) :
    ∃ o', (sessionStep ops deg asm s c).1.obj r = some o' ∧ o'.points = o.points ∧
      (∀ d, o.cache = some d → o'.cache = some d) ∧ (∀ n, o.nameCache = some n → o'.nameCache = some n) ∧
      (c ≠ .drawPoints r → o'.cache = o.cache) ∧ (c ≠ .name r → o'.nameCache = o.nameCache) := by
  have same : ∀ t : GlyphState, t.main = s.main → t.masters = s.masters → ∃ o', t.obj r = some o' ∧ o'.points = o.points ∧
      (∀ d, o.cache = some d → o'.cache = some d) ∧ (∀ n, o.nameCache = some n → o'.nameCache = some n) ∧
      (c ≠ .drawPoints r → o'.cache = o.cache) ∧ (c ≠ .name r → o'.nameCache = o.nameCache) := by
    intro t h1 h2
    refine ⟨o, ?_, rfl, fun _ h => h, fun _ h => h, fun _ => rfl, fun _ => rfl⟩
    cases r with
    | main => show some t.main = _; rw [h1]; exact h
    | master i => show t.masters[i]? = _; rw [h2]; exact h
  have set : ∀ (q : ObjRef) (p p' : GlyphObject), s.obj q = some p → p'.points = p.points → (∀ d, p.cache = some d → p'.cache = some d) →
      (∀ n, p.nameCache = some n → p'.nameCache = some n) → (c ≠ .drawPoints q → p'.cache = p.cache) → (c ≠ .name q → p'.nameCache = p.nameCache) →
      ∃ o', (s.setObj p' q).obj r = some o' ∧ o'.points = o.points ∧
      (∀ d, o.cache = some d → o'.cache = some d) ∧ (∀ n, o.nameCache = some n → o'.nameCache = some n) ∧
      (c ≠ .drawPoints r → o'.cache = o.cache) ∧ (c ≠ .name r → o'.nameCache = o.nameCache) := by
    intro q p p' hq h1 h2 h3 h4 h5
    by_cases e : r = q
    · subst e
      rw [h] at hq
      cases hq
      exact ⟨p', obj_setObj_same h, h1, h2, h3, h4, h5⟩
    · exact ⟨o, by rw [obj_setObj_other e, h], rfl, fun _ h => h, fun _ h => h, fun _ => rfl, fun _ => rfl⟩
  cases c with
  | getMaster m =>
    refine ⟨o, ?_, rfl, fun _ h => h, fun _ h => h, fun _ => rfl, fun _ => rfl⟩
    cases r with
    | main => exact h
    | master i =>
      have := (List.getElem?_eq_some_iff.1 h).1
      show (s.masters ++ [_])[i]? = _
      rw [List.getElem?_append_left this]
      exact h
  | drawPoints q =>
    cases hq : s.obj q with
    | none => rw [step_none ops deg asm hq _ (.inl rfl)]; exact same s rfl rfl
    | some p =>
      cases hc : p.cache with
      | some d => rw [step_points_used ops deg asm hq hc]; exact same s rfl rfl
      | none =>
        rw [step_points_fresh ops deg asm hq hc]
        exact set q p _ hq rfl (fun d hd => by rw [hc] at hd; cases hd) (fun _ h => h) (fun hne => absurd rfl hne) (fun _ => rfl)
  | draw => rw [step_draw]; exact same s rfl rfl
  | len q =>
    cases hq : s.obj q with
    | none => rw [step_none ops deg asm hq _ (.inr (.inr (.inl rfl)))]; exact same s rfl rfl
    | some p => rw [step_len ops deg asm hq]; exact same s rfl rfl
  | name q =>
    cases hq : s.obj q with
    | none => rw [step_none ops deg asm hq _ (.inr (.inl rfl))]; exact same s rfl rfl
    | some p =>
      cases hc : p.nameCache with
      | some d => rw [step_name_used ops deg asm hq hc]; exact same s rfl rfl
      | none =>
        rw [step_name_fresh ops deg asm hq hc]
        exact set q p _ hq rfl (fun _ h => h) (fun d hd => by rw [hc] at hd; cases hd) (fun _ => rfl) (fun hne => absurd rfl hne)
  | clearContours q =>
    cases hq : s.obj q with
    | none => rw [step_none ops deg asm hq _ (.inr (.inr (.inr (.inl rfl))))]; exact same s rfl rfl
    | some p => rw [step_clear ops deg asm hq]; exact same _ rfl rfl
  | drawInto q calls =>
    cases hq : s.obj q with
    | none => rw [step_none ops deg asm hq _ (.inr (.inr (.inr (.inr ⟨calls, rfl⟩))))]; exact same s rfl rfl
    | some p => rw [step_into ops deg asm hq]; exact same _ rfl rfl
  | setIndex m =>
    cases r with
    | main => cases h; exact ⟨_, rfl, rfl, fun _ h => h, fun _ h => h, fun _ => rfl, fun _ => rfl⟩
    | master i => exact same s rfl rfl |>.imp fun _ h => h
  | rename n => exact same _ rfl rfl

/-- what a history does to an object -/
theorem run_obj (s : GlyphState) (h : List GlyphOp) {r : ObjRef} {o : GlyphObject} (ho : s.obj r = some o) :
    ∃ o', (stateAfter ops deg asm s h).obj r = some o' ∧ o'.points = o.points ∧
      (∀ d, o.cache = some d → o'.cache = some d) ∧ (∀ n, o.nameCache = some n → o'.nameCache = some n) ∧
      (GlyphOp.drawPoints r ∉ h → o'.cache = o.cache) ∧ (GlyphOp.name r ∉ h → o'.nameCache = o.nameCache) := by
  induction h generalizing s o with
  | nil => exact ⟨o, ho, rfl, fun _ h => h, fun _ h => h, fun _ => rfl, fun _ => rfl⟩
  | cons c h ih =>
    rw [stateAfter_cons]
    obtain ⟨o1, a1, a2, a3, a4, a5, a6⟩ := step_obj ops deg asm s c ho
    obtain ⟨o2, b1, b2, b3, b4, b5, b6⟩ := ih _ a1
    refine ⟨o2, b1, b2.trans a2, fun d hd => b3 d (a3 d hd), fun n hn => b4 n (a4 n hn), fun hx => ?_, fun hx => ?_⟩
    · rw [List.mem_cons, not_or] at hx
      rw [b5 hx.2, a5 (Ne.symm hx.1)]
    · rw [List.mem_cons, not_or] at hx
      rw [b6 hx.2, a6 (Ne.symm hx.1)]

/-- **C91** Nothing that reads the glyph changes it, in whatever order and through whatever objects. -/
theorem C91_reads (s : GlyphState) (h : List GlyphOp) (hr : ∀ c ∈ h, ¬ Writes c) : (stateAfter ops deg asm s h).entry = s.entry := by
  refine run_rel ops deg asm (fun s t => t.entry = s.entry) (fun _ => rfl) (fun _ _ _ a b => b.trans a) (fun c => ¬ Writes c) ?_ s h hr
  intro s c hc
  cases c with
  | clearContours => exact absurd trivial hc
  | drawInto => exact absurd trivial hc
  | rename => exact absurd trivial hc
  | getMaster m => rfl
  | drawPoints r =>
    cases hq : s.obj r with
    | none => rw [step_none ops deg asm hq _ (.inl rfl)]
    | some p =>
      cases hc : p.cache with
      | some d => rw [step_points_used ops deg asm hq hc]
      | none =>
        rw [step_points_fresh ops deg asm hq hc]
        exact (setObj_entry s _ r).1
  | draw => rw [step_draw]
  | len r =>
    cases hq : s.obj r with
    | none => rw [step_none ops deg asm hq _ (.inr (.inr (.inl rfl)))]
    | some p => rw [step_len ops deg asm hq]
  | name r =>
    cases hq : s.obj r with
    | none => rw [step_none ops deg asm hq _ (.inr (.inl rfl))]
    | some p =>
      cases hc : p.nameCache with
      | some d => rw [step_name_used ops deg asm hq hc]
      | none =>
        rw [step_name_fresh ops deg asm hq hc]
        exact (setObj_entry s _ r).1
  | setIndex m => rfl

theorem forget_obj (s : GlyphState) (r : ObjRef) : (forget s).obj r = (s.obj r).map GlyphObject.forget := by
  cases r with
  | main => rfl
  | master i => simp [GlyphState.obj, forget]

/-- **C91** `draw` and `len` always show the glyph as it is now: they give what they would give for objects that have not been used yet. -/
theorem C91_current (s : GlyphState) (h : List GlyphOp) (c : GlyphOp) (hc : c = .draw ∨ ∃ r, c = .len r) :
    answer ops deg asm s h c = (sessionStep ops deg asm (forget (stateAfter ops deg asm s h)) c).2 := by
  unfold answer
  generalize stateAfter ops deg asm s h = t
  rcases hc with rfl | ⟨r, rfl⟩
  · rw [step_draw, step_draw]
    rfl
  · cases hq : t.obj r with
    | none => rw [step_none ops deg asm hq _ (.inr (.inr (.inl rfl))), step_none ops deg asm (by rw [forget_obj, hq]; rfl) _ (.inr (.inr (.inl rfl)))]
    | some p => rw [step_len ops deg asm hq, step_len ops deg asm (by rw [forget_obj, hq]; rfl)]; rfl

/-- **C91** The first time that an object is asked to draw its points, it draws the glyph as it is at this time, like an object that has not been used. -/
theorem C91_first (s : GlyphState) (h : List GlyphOp) (r : ObjRef) (hu : Unused s r) (hn : GlyphOp.drawPoints r ∉ h) :
    answer ops deg asm s h (.drawPoints r) = (sessionStep ops deg asm (forget (stateAfter ops deg asm s h)) (.drawPoints r)).2 := by
  obtain ⟨o, h1, h2, h3⟩ := hu
  obtain ⟨o', a1, a2, -, -, a5, -⟩ := run_obj ops deg asm s h h1
  unfold answer
  rw [step_points_fresh ops deg asm a1 ((a5 hn).trans h2),
    step_points_fresh ops deg asm (o := GlyphObject.forget o') (by rw [forget_obj, a1]; rfl) rfl]
  rfl

/-- **C91** (defect) Every later call draws what was there at the first call — whatever has been drawn into the glyph or deleted from it in between. -/
theorem C91_stale_defect (s : GlyphState) (h1 h2 : List GlyphOp) (r : ObjRef) (hu : Unused s r) (hn : GlyphOp.drawPoints r ∉ h1)
    (d : List UfoContour × List UfoComponent) (hd : answer ops deg asm s h1 (.drawPoints r) = .points d) :
    answer ops deg asm s (h1 ++ .drawPoints r :: h2) (.drawPoints r) = .points d := by
  obtain ⟨o, k1, k2, k3⟩ := hu
  obtain ⟨o', a1, a2, -, -, a5, -⟩ := run_obj ops deg asm s h1 k1
  have hs := step_points_fresh ops deg asm a1 ((a5 hn).trans k2)
  unfold answer at hd ⊢
  rw [hs] at hd
  rw [stateAfter_append, stateAfter_cons, hs]
  obtain ⟨o2, b1, -, b3, -⟩ := run_obj ops deg asm _ h2 (obj_setObj_same (o' :=
    { o' with cache := some (builtSoFar (stateAfter ops deg asm s h1).order o'.points (stateAfter ops deg asm s h1).entry) }) a1)
  rw [step_points_used ops deg asm b1 (b3 _ rfl)]
  dsimp only at hd
  split at hd
  · cases hd
  · exact hd

/-- **C91** (defect) If the first call fails, every later call succeeds, and draws what had been made before the failure. -/
theorem C91_failed_defect (s : GlyphState) (h1 h2 : List GlyphOp) (r : ObjRef) (o : GlyphObject) (ho : (stateAfter ops deg asm s h1).obj r = some o)
    (e : PyErr) (he : answer ops deg asm s h1 (.drawPoints r) = .error e) :
    answer ops deg asm s (h1 ++ .drawPoints r :: h2) (.drawPoints r) =
      .points ((builtSoFar (stateAfter ops deg asm s h1).order o.points (stateAfter ops deg asm s h1).entry).contours,
        (builtSoFar (stateAfter ops deg asm s h1).order o.points (stateAfter ops deg asm s h1).entry).components) := by
  unfold answer at he ⊢
  cases hc : o.cache with
  | some d => rw [step_points_used ops deg asm ho hc] at he; cases he
  | none =>
    have hs := step_points_fresh ops deg asm ho hc
    rw [stateAfter_append, stateAfter_cons, hs]
    obtain ⟨o2, b1, -, b3, -⟩ := run_obj ops deg asm _ h2 (obj_setObj_same (o' :=
      { o with cache := some (builtSoFar (stateAfter ops deg asm s h1).order o.points (stateAfter ops deg asm s h1).entry) }) ho)
    rw [step_points_used ops deg asm b1 (b3 _ rfl)]

theorem name_without_drawing (s : GlyphState) (h : List GlyphOp) {r : ObjRef} {o o' : GlyphObject} (h1 : s.obj r = some o) (hc : o.cache = none)
    (hn : ∀ n, o.nameCache = some n → n = none) (hd : GlyphOp.drawPoints r ∉ h) (h2 : (stateAfter ops deg asm s h).obj r = some o') {n : Option PyStr}
    (hx : o'.nameCache = some n) : n = none := by
  induction h generalizing s o with
  | nil =>
    have : s.obj r = some o' := h2
    rw [h1] at this
    cases this
    exact hn n hx
  | cons c h ih =>
    rw [stateAfter_cons] at h2
    rw [List.mem_cons, not_or] at hd
    obtain ⟨o1, a1, -, -, a4, a5, a6⟩ := step_obj ops deg asm s c h1
    refine ih _ a1 ((a5 (Ne.symm hd.1)).trans hc) ?_ hd.2 h2
    intro n' hn'
    by_cases e : c = .name r
    · subst e
      cases hold : o.nameCache with
      | none =>
        rw [step_name_fresh ops deg asm h1 hold, obj_setObj_same h1] at a1
        cases a1
        rw [hc] at hn'
        cases hn'
        rfl
      | some x =>
        rw [a4 x hold] at hn'
        cases hn'
        exact hn _ hold
    · rw [a6 e] at hn'
      exact hn _ hn'

theorem name_after_drawing (s : GlyphState) (h : List GlyphOp) {r : ObjRef} {o : GlyphObject} {d : Drawing} (h1 : s.obj r = some o)
    (hc : o.cache = some d) (hn : o.nameCache = none ∨ o.nameCache = some (some d.name)) :
    ∃ o', (stateAfter ops deg asm s h).obj r = some o' ∧ ((o'.nameCache = none ∧ o'.cache = some d) ∨ o'.nameCache = some (some d.name)) := by
  induction h generalizing s o with
  | nil =>
    refine ⟨o, h1, ?_⟩
    rcases hn with hn | hn
    · exact .inl ⟨hn, hc⟩
    · exact .inr hn
  | cons c h ih =>
    rw [stateAfter_cons]
    obtain ⟨o1, a1, -, a3, a4, a5, a6⟩ := step_obj ops deg asm s c h1
    refine ih _ a1 (a3 d hc) ?_
    rcases hn with hn | hn
    · by_cases e : c = .name r
      · subst e
        rw [step_name_fresh ops deg asm h1 hn, obj_setObj_same h1] at a1
        cases a1
        rw [hc]
        exact .inr rfl
      · exact .inl ((a6 e).trans hn)
    · exact .inr (a4 _ hn)

/-- **C91** (defect) `name` is None for ever if it is asked for before the first drawing; otherwise it is the name at the first drawing, for ever. -/
theorem C91_name_defect (s : GlyphState) (r : ObjRef) (hu : Unused s r) :
    (∀ h1 h2, GlyphOp.drawPoints r ∉ h1 → answer ops deg asm s (h1 ++ .name r :: h2) (.name r) = .name none) ∧
    (∀ h1 h2, GlyphOp.drawPoints r ∉ h1 → GlyphOp.name r ∉ h1 → GlyphOp.name r ∉ h2 → ∀ h3,
      answer ops deg asm s (h1 ++ .drawPoints r :: h2 ++ h3) (.name r) = .name (some (stateAfter ops deg asm s h1).entry.name)) := by
  obtain ⟨o, k1, k2, k3⟩ := hu
  constructor
  · intro h1 h2 hn
    obtain ⟨o1, a1, -, -, a4, a5, -⟩ := run_obj ops deg asm s h1 k1
    have hc : o1.cache = none := (a5 hn).trans k2
    unfold answer
    rw [stateAfter_append, stateAfter_cons]
    have hnone : ∃ o2, (sessionStep ops deg asm (stateAfter ops deg asm s h1) (.name r)).1.obj r = some o2 ∧ o2.nameCache = some none := by
      cases hname : o1.nameCache with
      | none =>
        rw [step_name_fresh ops deg asm a1 hname, hc]
        exact ⟨_, obj_setObj_same a1, rfl⟩
      | some n =>
        rw [step_name_used ops deg asm a1 hname]
        refine ⟨o1, a1, ?_⟩
        rw [hname, name_without_drawing ops deg asm s h1 k1 k2 (by rw [k3]; intro n hn; cases hn) hn a1 hname]
    obtain ⟨o2, b1, b2⟩ := hnone
    obtain ⟨o3, c1, -, -, c4, -⟩ := run_obj ops deg asm _ h2 b1
    rw [step_name_used ops deg asm c1 (c4 _ b2)]
  · intro h1 h2 hn hm1 hm2 h3
    obtain ⟨o1, a1, -, -, -, a5, a6⟩ := run_obj ops deg asm s h1 k1
    have hs := step_points_fresh ops deg asm a1 ((a5 hn).trans k2)
    unfold answer
    rw [stateAfter_append, stateAfter_append, stateAfter_cons, hs]
    obtain ⟨o2, b1, -, b3, -, -, b6⟩ := run_obj ops deg asm _ h2 (obj_setObj_same (o' :=
      { o1 with cache := some (builtSoFar (stateAfter ops deg asm s h1).order o1.points (stateAfter ops deg asm s h1).entry) }) a1)
    have hname : o2.nameCache = none := (b6 hm2).trans ((a6 hm1).trans k3)
    obtain ⟨o3, c1, c2⟩ := name_after_drawing ops deg asm _ h3 b1 (b3 _ rfl) (.inl hname)
    have hnm : (builtSoFar (stateAfter ops deg asm s h1).order o1.points (stateAfter ops deg asm s h1).entry).name = (stateAfter ops deg asm s h1).entry.name := by
      unfold builtSoFar
      split <;> rfl
    rcases c2 with ⟨c2, c3⟩ | c2
    · rw [step_name_fresh ops deg asm c1 c2, c3]
      exact congrArg (GlyphResult.name ∘ some) hnm
    · rw [step_name_used ops deg asm c1 c2, hnm]

/-! ## what is drawn -/

theorem contoursUntil_ok (m : Nat) : ∀ (nodes : List MMNode) (st : ContourState) (i : Nat) (st' st'' : ContourState),
    contourLoop [] m false st i nodes = .ok st' → appendContour st' = .ok st'' → contoursUntil m st i nodes = (st''.contours, true)
  | [], st, i, st', st'', h1, h2 => by
    cases h1
    rw [contoursUntil, h2]
  | n :: ns, st, i, st', st'', h1, h2 => by
    rw [contourLoop] at h1
    rw [contoursUntil]
    cases hs : contourStep [] m false st i n with
    | error e => rw [hs] at h1; cases h1
    | ok t =>
      rw [hs] at h1
      exact contoursUntil_ok m ns t (i + 1) st' st'' h1 h2

theorem componentsUntil_ok (order : List PyStr) (m : Nat) : ∀ (cs : List Component) (us : List UfoComponent),
    cs.mapM (masterComponent order m) = .ok us → componentsUntil order m cs = us
  | [], us, h => by cases h; rfl
  | c :: cs, us, h => by
    rw [List.mapM_cons] at h
    rw [componentsUntil]
    cases h1 : masterComponent order m c with
    | error e => rw [h1] at h; cases h
    | ok u =>
      rw [h1] at h
      replace h : (cs.mapM (masterComponent order m) >>= fun l => pure (u :: l)) = Except.ok us := h
      cases h2 : cs.mapM (masterComponent order m) with
      | error e => rw [h2] at h; cases h
      | ok l =>
        rw [h2] at h
        cases h
        dsimp only
        rw [componentsUntil_ok order m cs l h2]

theorem contoursUntil_cases (m : Nat) : ∀ (nodes : List MMNode) (st : ContourState) (i : Nat),
    (∃ st' st'', contourLoop [] m false st i nodes = .ok st' ∧ appendContour st' = .ok st'') ∨
    ∃ pre st', pre <+: nodes ∧ contourLoop [] m false st i pre = .ok st' ∧ contoursUntil m st i nodes = (st'.contours, false)
  | [], st, i => by
    cases h : appendContour st with
    | ok st'' => exact .inl ⟨st, st'', rfl, h⟩
    | error e => exact .inr ⟨[], st, List.prefix_rfl, rfl, by rw [contoursUntil, h]⟩
  | n :: ns, st, i => by
    rw [contoursUntil]
    cases hs : contourStep [] m false st i n with
    | error e => exact .inr ⟨[], st, List.nil_prefix, rfl, rfl⟩
    | ok t =>
      rcases contoursUntil_cases m ns t (i + 1) with ⟨a, b, h1, h2⟩ | ⟨pre, a, h1, h2, h3⟩
      · exact .inl ⟨a, b, by rw [contourLoop, hs]; exact h1, h2⟩
      · exact .inr ⟨n :: pre, a, by simpa using h1, by rw [contourLoop, hs]; exact h2, h3⟩

theorem contourLoop_has (m : Nat) : ∀ (ns : List MMNode) (j : Nat) (st st' : ContourState), contourLoop [] m false st j ns = .ok st' → HasNodes m ns
  | [], _, _, _, _ => fun n hn => by cases hn
  | n :: ns, j, st, st', h => by
    rw [contourLoop] at h
    cases h1 : contourStep [] m false st j n with
    | error e => rw [h1] at h; cases h
    | ok s =>
      rw [h1] at h
      intro x hx
      rcases List.mem_cons.1 hx with rfl | hx
      · exact step_needs h1
      · exact contourLoop_has m ns _ _ _ h x hx

theorem componentsUntil_failed (order : List PyStr) (m : Nat) (c : Component) (rest : List Component) (e : PyErr)
    (hc : masterComponent order m c = .error e) : ∀ (cs : List Component) (us : List UfoComponent),
    cs.mapM (masterComponent order m) = .ok us → componentsUntil order m (cs ++ c :: rest) = us
  | [], us, h => by
    cases h
    rw [List.nil_append, componentsUntil, hc]
    rfl
  | b :: cs, us, h => by
    rw [List.mapM_cons] at h
    rw [List.cons_append, componentsUntil]
    cases h1 : masterComponent order m b with
    | error e => rw [h1] at h; cases h
    | ok u =>
      rw [h1] at h
      replace h : (cs.mapM (masterComponent order m) >>= fun l => pure (u :: l)) = Except.ok us := h
      cases h2 : cs.mapM (masterComponent order m) with
      | error e => rw [h2] at h; cases h
      | ok l =>
        rw [h2] at h
        cases h
        dsimp only
        rw [componentsUntil_failed order m c rest e hc cs l h2]

/-- **C91** (defect) After a first call that failed, an object draws: nothing, if the entry has no metrics for the master; else, if a node lacks
something, the contours that had been finished (those of a beginning of the nodes, perhaps without the last one) and no components; else all the
contours, and the components before the first one that lacks something. -/
theorem C91_failed_parts_defect (s : GlyphState) (h1 h2 : List GlyphOp) (r : ObjRef) (o : GlyphObject)
    (ho : (stateAfter ops deg asm s h1).obj r = some o) (e : PyErr) (he : answer ops deg asm s h1 (.drawPoints r) = .error e) :
    let t := stateAfter ops deg asm s h1
    let nodes := t.entry.glyphs.data.nodes.getD []
    let components := t.entry.glyphs.data.components.getD []
    (t.entry.metrics.length ≤ o.points → answer ops deg asm s (h1 ++ .drawPoints r :: h2) (.drawPoints r) = .points ([], [])) ∧
    (o.points < t.entry.metrics.length → ¬ HasNodes o.points nodes →
      ∃ cs, answer ops deg asm s (h1 ++ .drawPoints r :: h2) (.drawPoints r) = .points (cs, []) ∧
        ∃ pre last ren, pre <+: nodes ∧ last.length ≤ 1 ∧ extractContours pre [] o.points false = .ok (cs ++ last, ren)) ∧
    (o.points < t.entry.metrics.length → ∀ cs ren, extractContours nodes [] o.points false = .ok (cs, ren) →
      ∀ good bad rest us e, components = good ++ bad :: rest → good.mapM (masterComponent t.order o.points) = .ok us →
        masterComponent t.order o.points bad = .error e →
        answer ops deg asm s (h1 ++ .drawPoints r :: h2) (.drawPoints r) = .points (cs, us)) := by
  intro t nodes components
  rw [C91_failed_defect ops deg asm s h1 h2 r o ho e he]
  change (_ → GlyphResult.points ((builtSoFar t.order o.points t.entry).contours, (builtSoFar t.order o.points t.entry).components) = _) ∧
    (_ → _ → ∃ cs, GlyphResult.points ((builtSoFar t.order o.points t.entry).contours, (builtSoFar t.order o.points t.entry).components) = _ ∧ _) ∧
    (_ → ∀ cs ren, _ → ∀ good bad rest us e, _ → _ → _ →
      GlyphResult.points ((builtSoFar t.order o.points t.entry).contours, (builtSoFar t.order o.points t.entry).components) = _)
  unfold builtSoFar
  refine ⟨fun hm => by rw [if_neg (Nat.not_lt.2 hm)], fun hm hn => ?_, fun hm cs ren hcs good bad rest us e' hg hus hb => ?_⟩
  · rw [if_pos hm]
    dsimp only
    rcases contoursUntil_cases o.points nodes ⟨[], [], [], false, false⟩ 0 with ⟨a, b, q1, -⟩ | ⟨pre, a, q1, q2, q3⟩
    · exact absurd (contourLoop_has _ _ _ _ _ q1) hn
    · refine ⟨a.contours, by rw [show contoursUntil o.points ⟨[], [], [], false, false⟩ 0 (t.entry.glyphs.data.nodes.getD []) = _ from q3]; simp, ?_⟩
      obtain ⟨x, hx⟩ := extract_exists (labels := []) (tm := false).2 (contourLoop_has _ _ _ _ _ q2)
      have hx' := hx
      unfold extractContours at hx'
      rw [q2] at hx'
      replace hx' : (appendContour a >>= fun st => .ok (st.contours, st.rename)) = Except.ok x := hx'
      unfold appendContour at hx'
      split at hx'
      · cases hx'
        exact ⟨pre, [], _, q1, by simp, by simpa using hx⟩
      · cases hf : flushContour a.contour a.isOpen with
        | error e => rw [hf] at hx'; cases hx'
        | ok y =>
          rw [hf] at hx'
          cases hx'
          exact ⟨pre, [y.1], _, q1, by simp, hx⟩
  · rw [if_pos hm]
    dsimp only
    have hcu : contoursUntil o.points ⟨[], [], [], false, false⟩ 0 (t.entry.glyphs.data.nodes.getD []) = (cs, true) := by
      unfold extractContours at hcs
      cases e1 : contourLoop [] o.points false ⟨[], [], [], false, false⟩ 0 nodes with
      | error e => rw [e1] at hcs; cases hcs
      | ok st =>
        rw [e1] at hcs
        replace hcs : (appendContour st >>= fun st => .ok (st.contours, st.rename)) = .ok (cs, ren) := hcs
        cases e2 : appendContour st with
        | error e => rw [e2] at hcs; cases hcs
        | ok st' =>
          rw [e2] at hcs
          cases hcs
          exact contoursUntil_ok _ _ _ _ _ _ e1 e2
    rw [hcu, show t.entry.glyphs.data.components.getD [] = _ from hg, if_pos rfl, componentsUntil_failed _ _ _ _ _ hb _ _ hus]

/-- **C91** What an unused object draws is the outline of its master; it fails exactly if the entry lacks something for this master. -/
theorem C91_outline (s : GlyphState) (h : List GlyphOp) (r : ObjRef) (o : GlyphObject) (ho : (stateAfter ops deg asm s h).obj r = some o)
    (hu : o.cache = none) :
    (∀ d, answer ops deg asm s h (.drawPoints r) = .points d →
      IsOutline (stateAfter ops deg asm s h).order o.points (stateAfter ops deg asm s h).entry d) ∧
    ((∃ d, answer ops deg asm s h (.drawPoints r) = .points d) ↔
      o.points < (stateAfter ops deg asm s h).entry.metrics.length ∧
      HasNodes o.points ((stateAfter ops deg asm s h).entry.glyphs.data.nodes.getD []) ∧
      ∀ c ∈ (stateAfter ops deg asm s h).entry.glyphs.data.components.getD [],
        (-((stateAfter ops deg asm s h).order.length : Int) ≤ c.gid ∧ c.gid < (stateAfter ops deg asm s h).order.length) ∧
        o.points < c.offsetX.length ∧ o.points < c.offsetY.length ∧ o.points < c.scaleX.length ∧ o.points < c.scaleY.length) := by
  unfold answer
  generalize stateAfter ops deg asm s h = t at ho
  rw [step_points_fresh ops deg asm ho hu]
  dsimp only
  have hhints : masterPsHints 0 ⟨[], []⟩ t.entry.name (hintGlyph (copiedGlyph t.entry : BGlyph ops.Angle asm.Asm)) o.points = .ok ([], ⟨[], []⟩) := rfl
  have hsucc := C83_success (ops := ops) (deg := deg) (asm := asm) ⟨false, false, true⟩ false 0 t.order ⟨[], []⟩ t.entry.name
    (copiedGlyph t.entry : BGlyph ops.Angle asm.Asm) (cmds := []) (by simp) o.points
  have hnone : buildError ops deg asm t.order o.points t.entry = none ↔
      ∃ x, masterGlyph ops deg asm ⟨false, false, true⟩ false 0 t.order ⟨[], []⟩ t.entry.name (copiedGlyph t.entry) [] o.points = .ok x := by
    unfold buildError
    cases masterGlyph ops deg asm ⟨false, false, true⟩ false 0 t.order ⟨[], []⟩ t.entry.name (copiedGlyph t.entry) [] o.points with
    | error e => simp
    | ok x => simp
  have hans : ∀ d, ((match buildError ops deg asm t.order o.points t.entry with
      | some e => GlyphResult.error e
      | none => .points ((builtSoFar t.order o.points t.entry).contours, (builtSoFar t.order o.points t.entry).components)) = .points d) ↔
      buildError ops deg asm t.order o.points t.entry = none ∧
        d = ((builtSoFar t.order o.points t.entry).contours, (builtSoFar t.order o.points t.entry).components) := by
    intro d
    cases buildError ops deg asm t.order o.points t.entry with
    | some e => simp
    | none => simp [eq_comm]
  constructor
  · intro d hd
    obtain ⟨h1, rfl⟩ := (hans d).1 hd
    obtain ⟨x, hx⟩ := hnone.1 h1
    obtain ⟨hints, tth, mask, contours, components, cmds', anchors, guides, tth', metrics, q1, -, -, q4, q5, -, -, -, -, q10, -⟩ := masterGlyph_cases hx
    rw [if_pos rfl, hhints] at q1
    cases q1
    change extractContours (t.entry.glyphs.data.nodes.getD []) [] o.points false = .ok contours at q4
    change (t.entry.glyphs.data.components.getD []).mapM (masterComponent t.order o.points) = .ok components at q5
    have hm : o.points < t.entry.metrics.length := (List.getElem?_eq_some_iff.1 (pyIndex_get?.1 q10)).1
    have hcu : contoursUntil o.points ⟨[], [], [], false, false⟩ 0 (t.entry.glyphs.data.nodes.getD []) = (contours.1, true) := by
      unfold extractContours at q4
      cases e1 : contourLoop [] o.points false ⟨[], [], [], false, false⟩ 0 (t.entry.glyphs.data.nodes.getD []) with
      | error e => rw [e1] at q4; cases q4
      | ok st =>
        rw [e1] at q4
        replace q4 : (appendContour st >>= fun st => .ok (st.contours, st.rename)) = .ok contours := q4
        cases e2 : appendContour st with
        | error e => rw [e2] at q4; cases q4
        | ok st' =>
          rw [e2] at q4
          cases q4
          exact contoursUntil_ok _ _ _ _ _ _ e1 e2
    have hb : builtSoFar t.order o.points t.entry = ⟨contours.1, components, t.entry.name⟩ := by
      unfold builtSoFar
      rw [if_pos hm, hcu]
      dsimp only
      rw [if_pos rfl, componentsUntil_ok _ _ _ _ q5]
    rw [hb]
    exact ⟨⟨contours.2, q4⟩, q5⟩
  · have : (∃ d, (match buildError ops deg asm t.order o.points t.entry with
      | some e => GlyphResult.error e
      | none => .points ((builtSoFar t.order o.points t.entry).contours, (builtSoFar t.order o.points t.entry).components)) = .points d) ↔
        buildError ops deg asm t.order o.points t.entry = none := by
      constructor
      · rintro ⟨d, hd⟩; exact ((hans d).1 hd).1
      · intro h; exact ⟨_, (hans _).2 ⟨h, rfl⟩⟩
    rw [this, hnone, hsucc]
    constructor
    · rintro ⟨-, h, -⟩
      exact ⟨h.metrics, h.nodes, h.components⟩
    · rintro ⟨h1, h2, h3⟩
      refine ⟨fun _ => ⟨_, hhints⟩, ?_, fun h => by cases h⟩
      exact {
        metrics := h1
        nodes := h2
        components := h3
        anchors := fun mm h => by cases h
        guides := fun _ gs h => by cases h
        mask := fun _ => ⟨fun n hn => absurd hn (List.not_mem_nil), fun h => absurd rfl h⟩ }

/-- **C91** (defect) A `VfbGlyph` draws the points of the first master, whatever its `master_index` is: a change of the index makes no difference
(`draw` follows it). -/
theorem C91_index_defect (s : GlyphState) (h : List GlyphOp) (m : Nat) :
    answer ops deg asm s (h ++ [.setIndex m]) (.drawPoints .main) = answer ops deg asm s h (.drawPoints .main) := by
  unfold answer
  rw [stateAfter_append]
  generalize stateAfter ops deg asm s h = t
  cases hc : t.main.cache with
  | some d =>
    rw [step_points_used ops deg asm (s := t) rfl hc, step_points_used ops deg asm (s := stateAfter ops deg asm t [.setIndex m]) (r := .main) (d := d) rfl hc]
  | none =>
    rw [step_points_fresh ops deg asm (s := t) rfl hc, step_points_fresh ops deg asm (s := stateAfter ops deg asm t [.setIndex m]) (r := .main) rfl hc]
    rfl

/-- **C91** (defect) What is drawn into another master than the first, or deleted from it, is not seen by any object: a new object for this master still
draws the old outline. -/
theorem C91_hidden_defect (s : GlyphState) (h : List GlyphOp) (i : Nat) (o : GlyphObject) (ho : (stateAfter ops deg asm s h).obj (.master i) = some o)
    (hi : o.index ≠ 0) (c : GlyphOp) (hc : c = .clearContours (.master i) ∨ ∃ calls, c = .drawInto (.master i) calls) :
    (stateAfter ops deg asm s (h ++ [c])).entry.glyphs.data = (stateAfter ops deg asm s h).entry.glyphs.data ∧
    ∀ m, answer ops deg asm s (h ++ [c, .getMaster m]) (.drawPoints (.master (stateAfter ops deg asm s h).masters.length)) =
      answer ops deg asm s (h ++ [.getMaster m]) (.drawPoints (.master (stateAfter ops deg asm s h).masters.length)) := by
  have hstep : ∃ t : GlyphState, stateAfter ops deg asm s (h ++ [c]) = t ∧ t.entry.glyphs.data = (stateAfter ops deg asm s h).entry.glyphs.data ∧
      t.entry.name = (stateAfter ops deg asm s h).entry.name ∧ t.entry.metrics = (stateAfter ops deg asm s h).entry.metrics ∧
      t.order = (stateAfter ops deg asm s h).order ∧ t.masters = (stateAfter ops deg asm s h).masters := by
    rw [stateAfter_append]
    generalize stateAfter ops deg asm s h = t at ho
    refine ⟨_, rfl, ?_⟩
    rw [stateAfter_cons]
    rcases hc with rfl | ⟨calls, rfl⟩
    · rw [step_clear ops deg asm ho]
      refine ⟨?_, rfl, rfl, rfl, rfl⟩
      show (t.entry.glyphs.clearContours t.count o.index).1.data = _
      unfold MasterGlyphs.clearContours
      rw [if_neg hi]
      dsimp only
      split <;> rfl
    · rw [step_into ops deg asm ho]
      refine ⟨?_, rfl, rfl, rfl, rfl⟩
      show (drawEntry t.count o.index t.order calls t.entry.glyphs).1.data = _
      unfold drawEntry MasterGlyphs.pen
      rw [if_neg hi]
      dsimp only
      cases (t.entry.glyphs.temp.getD [none])[o.index]? with
      | none => rfl
      | some x =>
        cases x with
        | none => rfl
        | some d =>
          dsimp only
          unfold MasterGlyphs.put
          rw [if_neg hi]
  obtain ⟨t, e, e1, e2, e3, e4, e5⟩ := hstep
  refine ⟨by rw [e, e1], fun m => ?_⟩
  have hnew : ∀ u : GlyphState, (sessionStep ops deg asm (stateAfter ops deg asm u [.getMaster m]) (.drawPoints (.master u.masters.length))).2 =
      match buildError ops deg asm u.order m u.entry with
      | some e => .error e
      | none => .points ((builtSoFar u.order m u.entry).contours, (builtSoFar u.order m u.entry).components) := by
    intro u
    have hob : (stateAfter ops deg asm u [.getMaster m]).obj (.master u.masters.length) = some ⟨m, m, none, none⟩ := by
      show (u.masters ++ [_])[u.masters.length]? = _
      simp
    rw [step_points_fresh ops deg asm hob rfl]
    rfl
  have hbuild : buildError ops deg asm t.order m t.entry = buildError ops deg asm (stateAfter ops deg asm s h).order m (stateAfter ops deg asm s h).entry ∧
      builtSoFar t.order m t.entry = builtSoFar (stateAfter ops deg asm s h).order m (stateAfter ops deg asm s h).entry := by
    unfold buildError builtSoFar copiedGlyph
    rw [e1, e2, e3, e4]
    exact ⟨rfl, rfl⟩
  unfold answer
  rw [show h ++ [c, .getMaster m] = (h ++ [c]) ++ [.getMaster m] by simp, stateAfter_append _ _ _ _ (h ++ [c]), e, ← e5, hnew t, e5,
    stateAfter_append _ _ _ _ h, hnew, hbuild.1, hbuild.2]

theorem penNodes_moves (n : Nat) : ∀ cs : List UfoContour, (∀ c ∈ cs, c ≠ []) →
    (cs.flatMap (penNodes n)).countP (fun x => x.type == .move) = cs.length
  | [], _ => rfl
  | c :: cs, h => by
    rw [List.flatMap_cons, List.countP_append, penNodes_moves n cs fun c hc => h c (by simp [hc])]
    cases c with
    | nil => exact absurd rfl (h [] (by simp))
    | cons f r =>
      have : (r.map (restNode n)).countP (fun x => x.type == .move) = 0 := by
        rw [List.countP_eq_zero]
        intro x hx
        obtain ⟨p, -, rfl⟩ := List.mem_map.1 hx
        unfold restNode
        dsimp only
        split <;> decide
      rw [penNodes, List.countP_cons, this]
      simp
      omega

/-- **C91** `len` counts the contours: after the outline has been deleted and contours (of lines and quadratic curves) have been drawn into the first master,
it is their number, in every object. -/
theorem C91_len (s : GlyphState) (h : List GlyphOp) (hi : (stateAfter ops deg asm s h).main.index = 0) (cs : List UfoContour)
    (hne : ∀ c ∈ cs, c ≠ []) (hc : ∀ c ∈ cs, ∀ p ∈ c.tail, p.seg = none ∨ p.seg = some .line ∨ p.seg = some .qcurve) (r : ObjRef) (o : GlyphObject)
    (hr : (stateAfter ops deg asm s h).obj r = some o) :
    answer ops deg asm s (h ++ [.clearContours .main, .drawInto .main (cs.flatMap contourCalls)]) (.len r) = .count cs.length := by
  unfold answer
  rw [stateAfter_append]
  obtain ⟨o', ho', -⟩ := run_obj ops deg asm (stateAfter ops deg asm s h) [.clearContours .main, .drawInto .main (cs.flatMap contourCalls)] hr
  generalize stateAfter ops deg asm s h = t at hi ho' ⊢
  rw [step_len ops deg asm ho']
  have hnodes : (stateAfter ops deg asm t [.clearContours .main, .drawInto .main (cs.flatMap contourCalls)]).entry.glyphs.data.nodes =
      some (cs.flatMap (penNodes t.count)) := by
    rw [stateAfter_cons, step_clear ops deg asm (r := .main) rfl, stateAfter_cons, step_into ops deg asm (r := .main) rfl]
    show (drawEntry t.count t.main.index t.order _ _).1.data.nodes = _
    rw [hi]
    unfold drawEntry MasterGlyphs.pen
    rw [if_pos rfl]
    dsimp only [clearEntry]
    unfold MasterGlyphs.put
    rw [if_pos rfl]
    dsimp only
    by_cases he : cs = []
    · subst he
      rfl
    · rw [runPen_contours _ _ cs _ (fun c h p hp => hc c h p hp) he]
      rfl
  rw [hnodes]
  exact congrArg GlyphResult.count (penNodes_moves _ cs hne)

/-- **C91** Drawing into the first master tells whether it has worked, at every time: contours of lines and quadratic curves are accepted; a contour with
a cubic curve or a further "move" raises ValueError, and the outline stays as it was. -/
theorem C91_accepted (s : GlyphState) (h : List GlyphOp) (r : ObjRef) (o : GlyphObject) (hr : (stateAfter ops deg asm s h).obj r = some o) (hi : o.index = 0) :
    (∀ cs : List UfoContour, (∀ c ∈ cs, ∀ p ∈ c.tail, p.seg = none ∨ p.seg = some .line ∨ p.seg = some .qcurve) →
      answer ops deg asm s h (.drawInto r (cs.flatMap contourCalls)) = .done) ∧
    ∀ (f : UfoPoint) (pre : UfoContour) (p : UfoPoint) (post : List PenCall),
      (∀ q ∈ pre, q.seg = none ∨ q.seg = some .line ∨ q.seg = some .qcurve) → (p.seg = some .curve ∨ p.seg = some .move) →
      ∀ calls, calls = .beginPath :: ((f :: pre ++ [p]).map fun p => .addPoint ((p.pt.1 : Rat), (p.pt.2 : Rat)) p.seg p.smooth p.name) ++ post →
      answer ops deg asm s h (.drawInto r calls) = .error .value ∧
      (stateAfter ops deg asm s (h ++ [.drawInto r calls])).entry = (stateAfter ops deg asm s h).entry := by
  unfold answer
  simp only [stateAfter_append]
  generalize stateAfter ops deg asm s h = t at hr ⊢
  constructor
  · intro cs hc
    rw [step_into ops deg asm hr, hi]
    unfold drawEntry MasterGlyphs.pen
    rw [if_pos rfl]
    dsimp only
    by_cases he : cs = []
    · subst he
      rfl
    · rw [runPen_contours _ _ cs _ (fun c h p hp => hc c h p hp) he]
      rfl
  · rintro f pre p post h1 h2 calls rfl
    rw [stateAfter_cons, step_into ops deg asm hr, hi]
    unfold drawEntry MasterGlyphs.pen
    rw [if_pos rfl]
    dsimp only
    obtain ⟨path, hp⟩ := C67_unsupported t.count t.order t.entry.glyphs.data f pre p post h1 h2
    rw [hp]
    exact ⟨rfl, rfl⟩

/-- **C91** (Known defect) As long as no master has been cleared, the pen of another master than the first one raises IndexError. -/
theorem C91_pen_defect (s : GlyphState) (h : List GlyphOp) (r : ObjRef) (o : GlyphObject) (hr : (stateAfter ops deg asm s h).obj r = some o)
    (hi : o.index ≠ 0) (ht : (stateAfter ops deg asm s h).entry.glyphs.temp = none) (calls : List PenCall) :
    answer ops deg asm s h (.drawInto r calls) = .error .index := by
  unfold answer
  rw [step_into ops deg asm hr]
  unfold drawEntry MasterGlyphs.pen
  rw [if_neg hi, ht]
  dsimp only [Option.getD_none]
  rw [List.getElem?_eq_none (by simp; omega)]
  rfl

/-- **C91** The `VfbGlyph` of a font draws master 0 at every time, and an object for master `m` draws `m`. -/
theorem C91_master (s : GlyphState) (h : List GlyphOp) :
    (stateAfter ops deg asm s h).main.points = s.main.points ∧
    ∀ m, ∃ i o, (stateAfter ops deg asm s (h ++ [.getMaster m])).obj (.master i) = some o ∧ o.points = m ∧ o.index = m ∧
      Unused (stateAfter ops deg asm s (h ++ [.getMaster m])) (.master i) := by
  constructor
  · obtain ⟨o, h1, h2, -⟩ := run_obj ops deg asm s h (r := .main) rfl
    cases h1
    exact h2
  · intro m
    refine ⟨(stateAfter ops deg asm s h).masters.length, ⟨m, m, none, none⟩, ?_, rfl, rfl, ⟨m, m, none, none⟩, ?_, rfl, rfl⟩ <;>
    · rw [stateAfter_append]
      show ((stateAfter ops deg asm s h).masters ++ [_])[_]? = _
      simp

end

/-! ### an example -/

/-- a glyph of two masters: a triangle -/
def exampleSession : GlyphState :=
  { count := 2
    order := [lit "A"]
    entry :=
      { name := lit "A"
        metrics := [(500, 0), (600, 0)]
        glyphs := ⟨⟨some [⟨.move, some 0, [[(0, 0)], [(0, 0)]]⟩, ⟨.line, some 0, [[(100, 0)], [(200, 0)]]⟩,
          ⟨.line, some 0, [[(50, 80)], [(100, 80)]]⟩], none⟩, none⟩ }
    main := ⟨0, 0, none, none⟩
    masters := [] }

/-- the length of what is drawn -/
def resultSize : GlyphResult → Nat
  | .points d => d.1.length
  | .count n => n
  | .name (some n) => n.length
  | _ => 1000

/-- the outline is drawn, deleted, and drawn again: still there, though `len` is 0; the name is asked for too early -/
example : (sessionRun exampleAngles (fun _ => 0) exampleAsm exampleSession
      [.name .main, .len .main, .drawPoints .main, .clearContours .main, .len .main, .drawPoints .main, .name .main, .getMaster 1, .drawPoints (.master 0)]).2.map
    resultSize = [1000, 1, 1, 1000, 0, 1, 1000, 1000, 0] := by decide +kernel

example : Unused exampleSession .main := ⟨_, rfl, rfl, rfl⟩

/-- without metrics for the master, the first drawing fails and the second one draws nothing -/
example : (sessionRun exampleAngles (fun _ => 0) exampleAsm { exampleSession with entry := { exampleSession.entry with metrics := [] } }
      [.drawPoints .main, .drawPoints .main]).2.map resultSize = [1000, 0] := by decide +kernel

end Verif.Props
