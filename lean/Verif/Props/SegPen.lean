import Verif.Spec.SegPen
import Verif.Props.VfbPens
import Verif.Props.VfbPensMasters
import Verif.Props.VfbDraw
/-! C109: drawing into a glyph with a segment pen. -/
set_option autoImplicit false
namespace Verif.Props
open Verif Verif.Spec

/-! ### the calls of the point pen -/

/-- a collected point as a point of a contour -/
def segPoint (p : Point × Option PathCommand) : UfoPoint := ⟨p.2, false, none, p.1⟩

theorem penStep_smooth (n : Nat) (order : List PyStr) (pen : PointPen) (pt : Rat × Rat) (seg : Option PathCommand) (a b : Bool) (x y : Option PyStr) :
    penStep n order pen (.addPoint pt seg a x) = penStep n order pen (.addPoint pt seg b y) := rfl

theorem runPen_smooth (n : Nat) (order : List PyStr) (post : List PenCall) : ∀ (c : SegContour) (sm : Nat → Bool) (pen : PointPen),
    runPen n order pen (c.mapIdx (fun i p => .addPoint ((p.1.1 : Rat), (p.1.2 : Rat)) p.2 (sm i) none) ++ post) =
    runPen n order pen ((c.map segPoint).map (fun p => .addPoint ((p.pt.1 : Rat), (p.pt.2 : Rat)) p.seg p.smooth p.name) ++ post) := by
  intro c
  induction c with
  | nil => intros; rfl
  | cons p c ih =>
    intro sm pen
    rw [List.mapIdx_cons]
    simp only [List.map_cons, List.cons_append, runPen]
    rw [penStep_smooth n order pen _ _ (sm 0) (segPoint p).smooth none (segPoint p).name]
    simp only [segPoint]
    cases penStep n order pen (.addPoint ((p.1.1 : Rat), (p.1.2 : Rat)) p.2 false none) with
    | mk pen' e =>
      cases e with
      | none => exact ih (fun i => sm (i + 1)) pen'
      | some e => rfl

theorem runPen_flush (smooth : SegContour → Nat → Bool) (n : Nat) (order : List PyStr) (pen : PointPen) (c : SegContour) :
    runPen n order pen (flushSeg smooth c) = runPen n order pen (contourCalls (c.map segPoint)) := by
  unfold flushSeg contourCalls
  simp only [List.singleton_append, List.cons_append, runPen, penStep]
  exact runPen_smooth n order [.endPath] c (smooth c) _

/-! ### collecting the points -/

/-- the points of a segment -/
def segPts (s : Segment) : SegContour := s.offs.map (fun p => (p, none)) ++ [(s.target, some s.kind)]

def ProperSeg (s : Segment) : Prop := IsTrueType s ∨ IsCubic s

variable (smooth : SegContour → Nat → Bool)

theorem runSeg_segs (n : Nat) (order : List PyStr) (pen : PointPen) (post : List SegCall) : ∀ (segs : List Segment) (c : SegContour),
    (∀ s ∈ segs, ProperSeg s) →
    runSeg smooth n order ⟨pen, some c⟩ (segs.flatMap segmentCall ++ post) = runSeg smooth n order ⟨pen, some (c ++ segs.flatMap segPts)⟩ post := by
  intro segs
  induction segs with
  | nil => intro c _; simp
  | cons s segs ih =>
    intro c h
    have ih' := ih (c ++ segPts s) fun t ht => h t (List.mem_cons_of_mem _ ht)
    obtain ⟨k, offs, tg⟩ := s
    rw [List.flatMap_cons, List.flatMap_cons, List.append_assoc, ← List.append_assoc c, ← ih']
    rcases h _ List.mem_cons_self with (⟨hk, ho⟩ | ⟨hk, ho⟩) | ⟨hk, ho⟩
    · dsimp only at hk ho
      subst hk ho
      simp [segmentCall, runSeg, segStep, segPts]
    · dsimp only at hk ho
      subst hk
      simp only [segmentCall, List.singleton_append, runSeg, segStep, segPts, List.getLast?_concat, List.dropLast_concat, List.append_assoc]
    · dsimp only at hk ho
      subst hk
      match offs, ho with
      | [c1, c2], _ => simp [segmentCall, runSeg, segStep, segPts]

/-- the contour that goes to the point pen -/
def figurePts (f : Figure) : SegContour :=
  if f.closed then closeSeg ((f.start, some .move) :: f.segs.flatMap segPts) else (f.start, some .move) :: f.segs.flatMap segPts

theorem runSeg_figure (n : Nat) (order : List PyStr) (t : MasterData) (f : Figure) (h : ∀ s ∈ f.segs, ProperSeg s) (post : List SegCall) :
    runSeg smooth n order ⟨⟨t, none⟩, none⟩ (f.calls ++ post) =
      match runPen n order ⟨t, none⟩ (contourCalls ((figurePts f).map segPoint)) with
      | (pen, none) => runSeg smooth n order ⟨pen, none⟩ post
      | (pen, some e) => (⟨pen, some ((f.start, some .move) :: f.segs.flatMap segPts)⟩, some e) := by
  unfold Figure.calls
  simp only [List.singleton_append, List.cons_append, runSeg, segStep, List.append_assoc, List.nil_append]
  rw [runSeg_segs smooth n order _ _ f.segs _ h]
  simp only [List.singleton_append]
  cases hc : f.closed with
  | true =>
    simp only [if_true, runSeg, segStep, endSeg, runPen_flush, figurePts, hc]
    cases runPen n order ⟨t, none⟩ _ with
    | mk pen e => cases e <;> rfl
  | false =>
    simp only [Bool.false_eq_true, if_false, runSeg, segStep, endSeg, runPen_flush, figurePts, hc]
    cases runPen n order ⟨t, none⟩ _ with
    | mk pen e => cases e <;> rfl

/-! ### reading back -/

theorem normRest_offs (l : List Point) (r : UfoContour) : ∀ b, normRest b (l.map (fun p => segPoint (p, none)) ++ r) =
    l.map (fun p => segPoint (p, none)) ++ normRest (if l = [] then b else true) r := by
  induction l with
  | nil => intro b; rfl
  | cons p l ih =>
    intro b
    simp only [List.map_cons, List.cons_append, normRest, segPoint, restSeg]
    rw [show (fun p : Point => (⟨none, false, none, p⟩ : UfoPoint)) = fun p => segPoint (p, none) from rfl, ih]
    by_cases h : l = [] <;> simp [h]

theorem normRest_segs (r : UfoContour) : ∀ (segs : List Segment), (∀ s ∈ segs, IsTrueType s) →
    normRest false ((segs.flatMap segPts).map segPoint ++ r) = (segs.flatMap segPts).map segPoint ++ normRest false r := by
  intro segs
  induction segs with
  | nil => intro _; rfl
  | cons s segs ih =>
    intro h
    have ih' := ih fun t ht => h t (List.mem_cons_of_mem _ ht)
    have e : (s.offs.map fun p => ((p, none) : Point × Option PathCommand)).map segPoint = s.offs.map fun p => segPoint (p, none) := by
      simp [Function.comp_def]
    simp only [List.flatMap_cons, segPts, List.map_append, List.append_assoc, List.map_cons, List.map_nil, e]
    rw [normRest_offs]
    simp only [List.singleton_append, List.cons_append, normRest, segPoint, restSeg]
    rcases h s List.mem_cons_self with ⟨hk, ho⟩ | ⟨hk, ho⟩
    · simp [hk, ho, ih']
    · simp [hk, ho, ih']

theorem readPoints_offs (l : List Point) (r : UfoContour) : ∀ pending, readPoints pending (l.map (fun p => segPoint (p, none)) ++ r) =
    readPoints (pending ++ l) r := by
  induction l with
  | nil => intro p; simp
  | cons p l ih =>
    intro pending
    simp only [List.map_cons, List.cons_append, readPoints, segPoint]
    exact (ih _).trans (by simp)

theorem readPoints_segs (r : UfoContour) : ∀ (segs : List Segment),
    readPoints [] ((segs.flatMap segPts).map segPoint ++ r) = (segs ++ (readPoints [] r).1, (readPoints [] r).2) := by
  intro segs
  induction segs with
  | nil => rfl
  | cons s segs ih =>
    have e : (s.offs.map fun p => ((p, none) : Point × Option PathCommand)).map segPoint = s.offs.map fun p => segPoint (p, none) := by
      simp [Function.comp_def]
    simp only [List.flatMap_cons, segPts, List.map_append, List.append_assoc, List.map_cons, List.map_nil, e]
    rw [readPoints_offs]
    simp only [List.singleton_append, List.cons_append, readPoints, segPoint, List.nil_append]
    rw [ih]

theorem segs_last (segs : List Segment) (s : Segment) : ((segs ++ [s]).flatMap segPts).getLast? = some (s.target, some s.kind) := by
  simp [segPts]

/-- the two ways in which a contour is closed -/
theorem figurePts_cases (f : Figure) (hc : f.closed = true) :
    (∃ S k offs, f.segs = S ++ [⟨k, offs, f.start⟩] ∧ figurePts f = (f.start, some k) :: (S.flatMap segPts ++ offs.map fun p => (p, none))) ∨
    (¬ endsAt f.segs f.start ∧ figurePts f = (f.start, some .line) :: f.segs.flatMap segPts) := by
  unfold figurePts
  rw [if_pos hc]
  rcases List.eq_nil_or_concat f.segs with h | ⟨S, ⟨k, offs, tg⟩, h⟩
  · right
    rw [h]
    exact ⟨(by rintro ⟨s, h1, _⟩; cases h1), rfl⟩
  · have hg : ((f.start, some PathCommand.move) :: (S ++ [(⟨k, offs, tg⟩ : Segment)]).flatMap segPts).getLast? = some (tg, some k) := by
      rw [List.getLast?_cons, segs_last]
      rfl
    have hne : (S ++ [(⟨k, offs, tg⟩ : Segment)]).flatMap segPts ≠ [] := by simp [segPts]
    rw [h, List.concat_eq_append]
    unfold closeSeg
    simp only [hg]
    by_cases ht : f.start = tg
    · left
      rw [if_pos ⟨hne, ht⟩]
      refine ⟨S, k, offs, by rw [ht], ?_⟩
      rw [ht]
      congr 1
      simp only [List.flatMap_append, List.flatMap_cons, List.flatMap_nil, List.append_nil, segPts, ← List.append_assoc, List.dropLast_concat]
    · right
      rw [if_neg fun h => ht h.2]
      refine ⟨?_, rfl⟩
      rintro ⟨s, h1, h2⟩
      rw [List.getLast?_concat] at h1
      injection h1 with h1
      subst h1
      exact ht h2.symm

theorem accepted_segs {segs : List Segment} (h : ∀ s ∈ segs, IsTrueType s) : ∀ p ∈ (segs.flatMap segPts).map segPoint,
    p.seg = none ∨ p.seg = some .line ∨ p.seg = some .qcurve := by
  intro p hp
  obtain ⟨q, hq, rfl⟩ := List.mem_map.1 hp
  obtain ⟨s, hs, hq⟩ := List.mem_flatMap.1 hq
  rcases List.mem_append.1 hq with hq | hq
  · obtain ⟨x, _, rfl⟩ := List.mem_map.1 hq
    exact .inl rfl
  · rw [List.mem_singleton.1 hq]
    rcases h s hs with ⟨hk, _⟩ | ⟨hk, _⟩
    · exact .inr (.inl (by simp [segPoint, hk]))
    · exact .inr (.inr (by simp [segPoint, hk]))

/-- the path of a contour whose last segment, of whatever kind, ends at the start -/
theorem joined_path {a : Point} {S : List Segment} {k : PathCommand} {offs : List Point} (h : ∀ s ∈ S, IsTrueType s) (hk : k ≠ .move) :
    ufoPath (norm (((a, some k) :: (S.flatMap segPts ++ offs.map fun p => (p, none))).map segPoint)) =
      if S = [] ∧ offs = [] then some ⟨a, [], [], false⟩
      else some ⟨a, S ++ [⟨if offs = [] then .line else .qcurve, offs, a⟩], [], true⟩ := by
  have e : (offs.map fun p => ((p, none) : Point × Option PathCommand)).map segPoint = offs.map fun p => segPoint (p, none) := by
    simp [Function.comp_def]
  have hn : normRest false (offs.map fun p => segPoint (p, none)) = offs.map fun p => segPoint (p, none) := by
    have := normRest_offs offs [] false
    simpa [normRest] using this
  simp only [List.map_cons, List.map_append, e, norm]
  rw [normRest_segs _ S h, hn]
  have hr : ∀ p : UfoPoint, readPoints [] ((List.map segPoint (S.flatMap segPts) ++ offs.map fun p => segPoint (p, none)) ++ [p]) =
      (S ++ (readPoints offs [p]).1, (readPoints offs [p]).2) := by
    intro p
    rw [List.append_assoc, readPoints_segs, readPoints_offs]
    rfl
  by_cases h0 : S = [] ∧ offs = []
  · obtain ⟨rfl, rfl⟩ := h0
    simp [ufoPath, firstSeg, segPoint, hk, readPoints]
  · rw [if_neg h0]
    have hf : firstSeg (segPoint (a, some k)) (List.map segPoint (S.flatMap segPts) ++ offs.map fun p => segPoint (p, none)) =
        if offs = [] then .line else .qcurve := by
      unfold firstSeg
      rw [if_neg (by simp [segPoint, hk])]
      rcases List.eq_nil_or_concat offs with ho | ⟨o, x, ho⟩
      · subst ho
        rcases List.eq_nil_or_concat S with hS | ⟨T, s, hS⟩
        · exact absurd ⟨hS, rfl⟩ h0
        · subst hS
          rw [List.map_nil, List.append_nil, List.getLast?_map, List.concat_eq_append, segs_last]
          simp [segPoint]
      · subst ho
        rw [List.concat_eq_append, List.map_append, ← List.append_assoc, List.map_cons, List.map_nil, List.getLast?_concat]
        simp [segPoint]
    rw [hf]
    unfold ufoPath
    simp only
    rw [if_neg (by by_cases ho : offs = [] <;> simp [ho]), hr]
    by_cases ho : offs = [] <;> simp [ho, readPoints, segPoint]

/-- the path that comes out for a drawn contour -/
theorem figure_path (f : Figure) (h : ∀ s ∈ f.segs, IsTrueType s) :
    Accepted ((figurePts f).map segPoint) ∧ (figurePts f).map segPoint ≠ [] ∧ ufoPath (norm ((figurePts f).map segPoint)) = some f.path := by
  by_cases hc : f.closed = true
  · have hnc : ¬ f.closed = false := by rw [hc]; decide
    rcases figurePts_cases f hc with ⟨S, k, offs, h1, h2⟩ | ⟨h1, h2⟩
    · have hS : ∀ s ∈ S, IsTrueType s := fun s hs => h s (by rw [h1]; simp [hs])
      have hl : IsTrueType ⟨k, offs, f.start⟩ := h _ (by rw [h1]; simp)
      have hk : k ≠ .move := by rcases hl with ⟨a, _⟩ | ⟨a, _⟩ <;> dsimp only at a <;> rw [a] <;> decide
      have hk' : (if offs = [] then PathCommand.line else .qcurve) = k := by
        rcases hl with ⟨a, b⟩ | ⟨a, b⟩ <;> dsimp only at a b <;> rw [a]
        · rw [if_pos b]
        · rw [if_neg b]
      rw [h2]
      refine ⟨?_, by simp, ?_⟩
      · intro p hp
        simp only [List.map_cons, List.tail_cons, List.map_append, List.mem_append] at hp
        rcases hp with hp | hp
        · exact accepted_segs hS p hp
        · simp only [List.map_map, List.mem_map, Function.comp_def] at hp
          obtain ⟨x, _, rfl⟩ := hp
          exact .inl rfl
      · rw [joined_path hS hk]
        unfold Figure.path
        rw [if_neg hnc]
        have hend : endsAt f.segs f.start := ⟨_, by rw [h1, List.getLast?_concat], rfl⟩
        have hpt : f.isPoint ↔ S = [] ∧ offs = [] := by
          unfold Figure.isPoint
          rw [h1]
          constructor
          · rintro (hx | hx)
            · simp at hx
            · cases S with
              | nil => simp at hx; exact ⟨rfl, hx.2⟩
              | cons s S => simp at hx
          · rintro ⟨rfl, rfl⟩
            right
            rw [← hk']
            rfl
        by_cases h0 : S = [] ∧ offs = []
        · rw [if_pos h0, if_pos (hpt.2 h0)]
        · rw [if_neg h0, if_neg (fun x => h0 (hpt.1 x)), if_pos hend, hk', h1, List.append_nil]
    · rw [h2]
      refine ⟨accepted_segs h, by simp, ?_⟩
      unfold Figure.path
      rw [if_neg hnc, if_neg h1]
      simp only [List.map_cons, norm]
      have hn := normRest_segs [] f.segs h
      rw [List.append_nil] at hn
      rw [hn]
      simp only [normRest, List.append_nil]
      rcases List.eq_nil_or_concat f.segs with hs | ⟨S, s, hs⟩
      · rw [hs, if_pos (.inl hs)]
        rfl
      · have hnp : ¬ f.isPoint := by
          rintro (hx | hx)
          · rw [hx] at hs; simp at hs
          · exact h1 ⟨_, by rw [hx]; rfl, rfl⟩
        rw [if_neg hnp]
        have hf : firstSeg (segPoint (f.start, some .line)) (List.map segPoint (f.segs.flatMap segPts)) = .line := by
          unfold firstSeg
          rw [if_neg (by simp [segPoint]), hs, List.getLast?_map, List.concat_eq_append, segs_last]
          simp [segPoint]
        rw [hf]
        unfold ufoPath
        simp only
        rw [if_neg (by simp), readPoints_segs]
        simp [readPoints, segPoint]
  · have hc : f.closed = false := by simpa using hc
    unfold figurePts Figure.path
    rw [hc]
    simp only [Bool.false_eq_true, if_false, if_true]
    refine ⟨accepted_segs h, by simp, ?_⟩
    simp only [List.map_cons, norm]
    have hn := normRest_segs [] f.segs h
    rw [List.append_nil] at hn
    rw [hn]
    have hr := readPoints_segs [] f.segs
    rw [List.append_nil] at hr
    simp [ufoPath, firstSeg, segPoint, normRest] at hr ⊢
    rw [hr]
    simp [readPoints]

/-! ### C109 -/

theorem runSeg_figures (n : Nat) (order : List PyStr) (post : List SegCall) : ∀ (fs : List Figure) (old : List MMNode) (comps : Option (List Component)),
    (∀ f ∈ fs, ∀ s ∈ f.segs, IsTrueType s) →
    runSeg smooth n order ⟨⟨⟨some old, comps⟩, none⟩, none⟩ (fs.flatMap Figure.calls ++ post) =
      runSeg smooth n order ⟨⟨⟨some (old ++ (fs.map fun f => (figurePts f).map segPoint).flatMap (penNodes n)), comps⟩, none⟩, none⟩ post := by
  intro fs
  induction fs with
  | nil => intro old comps _; simp
  | cons f fs ih =>
    intro old comps h
    have hf := h f List.mem_cons_self
    rw [List.flatMap_cons, List.append_assoc, runSeg_figure smooth n order _ f (fun s hs => .inl (hf s hs)),
      runPen_contour n order _ _ (figure_path f hf).1]
    dsimp only [Option.getD_some]
    rw [ih _ _ fun g hg => h g (List.mem_cons_of_mem _ hg)]
    simp [List.append_assoc]

theorem figures_read {n m : Nat} (hm : m < n) {old : List MMNode} {outs : List UfoContour} {rename : List (PyStr × PyStr)} (fs : List Figure)
    (hfs : ∀ f ∈ fs, ∀ s ∈ f.segs, IsTrueType s) (ho : extractContours old [] m false = .ok (outs, rename)) :
    ∃ cs, extractContours (old ++ (fs.map fun f => (figurePts f).map segPoint).flatMap (penNodes n)) [] m false = .ok (outs ++ cs, rename) ∧
      List.Forall₂ (fun f c => ufoPath c = some f.path ∧ ∀ p ∈ c, p.smooth = false ∧ p.name = none) fs cs := by
  refine ⟨_, extract_drawn hm ho _ (by
    intro c hc
    obtain ⟨f, hf, rfl⟩ := List.mem_map.1 hc
    exact (figure_path f (hfs f hf)).2.1), ?_⟩
  rw [List.map_map, List.forall₂_map_right_iff, List.forall₂_same]
  intro f hf
  refine ⟨(figure_path f (hfs f hf)).2.2, ?_⟩
  have hrest : ∀ (r : UfoContour) (b : Bool), ∀ p ∈ normRest b r, p.smooth = false ∧ p.name = none := by
    intro r
    induction r with
    | nil => intro b p hp; cases hp
    | cons q r ih =>
      intro b p hp
      rcases List.mem_cons.1 hp with rfl | hp
      · exact ⟨rfl, rfl⟩
      · exact ih _ p hp
  intro p hp
  dsimp only [Function.comp_def] at hp
  cases hq : (figurePts f).map segPoint with
  | nil => rw [hq] at hp; cases hp
  | cons q r =>
    rw [hq] at hp
    rcases List.mem_cons.1 hp with rfl | hp
    · exact ⟨rfl, rfl⟩
    · exact hrest _ _ p hp

/-- **C109** Contours of lines and quadratic curves, drawn into a glyph with its segment pen, are added to its contours, and come out of
drawPoints in every master, after those that were there, with exactly the path that was drawn; their points are neither smooth (whatever the pen
guesses) nor named. -/
theorem C109_drawn (n : Nat) (order : List PyStr) (fs : List Figure) (hfs : ∀ f ∈ fs, ∀ s ∈ f.segs, IsTrueType s) (old : List MMNode)
    (comps : Option (List Component)) :
    ∃ new, runSeg smooth n order ⟨⟨⟨some old, comps⟩, none⟩, none⟩ (fs.flatMap Figure.calls) = (⟨⟨⟨some (old ++ new), comps⟩, none⟩, none⟩, none) ∧
      ∀ m, m < n → ∀ outs rename, extractContours old [] m false = .ok (outs, rename) →
        ∃ cs, extractContours (old ++ new) [] m false = .ok (outs ++ cs, rename) ∧
          List.Forall₂ (fun f c => ufoPath c = some f.path ∧ ∀ p ∈ c, p.smooth = false ∧ p.name = none) fs cs := by
  refine ⟨(fs.map fun f => (figurePts f).map segPoint).flatMap (penNodes n), ?_, fun m hm outs rename ho => figures_read hm fs hfs ho⟩
  have := runSeg_figures smooth n order [] fs old comps hfs
  rw [List.append_nil] at this
  rw [this]
  rfl

/-- **C109** A contour with a cubic curve raises ValueError when it is closed or ended, and the glyph stays as it was; except if the cubic curve is
the last segment of a closed contour and ends where the contour begins. -/
theorem C109_cubic_rejected (n : Nat) (order : List PyStr) (t : MasterData) (f : Figure) (pre post : List Segment) (c : Segment)
    (hf : f.segs = pre ++ c :: post) (hpre : ∀ s ∈ pre, IsTrueType s) (hc : IsCubic c) (hpost : ∀ s ∈ post, IsTrueType s ∨ IsCubic s)
    (hx : ¬ (f.closed = true ∧ post = [] ∧ c.target = f.start)) (rest : List SegCall) :
    ∃ s, runSeg smooth n order ⟨⟨t, none⟩, none⟩ (f.calls ++ rest) = (s, some .value) ∧ s.pen.target = t := by
  have hall : ∀ s ∈ f.segs, ProperSeg s := by
    intro s hs
    rw [hf] at hs
    rcases List.mem_append.1 hs with hs | hs
    · exact .inl (hpre s hs)
    · rcases List.mem_cons.1 hs with rfl | hs
      · exact .inr hc
      · exact hpost s hs
  rw [runSeg_figure smooth n order t f hall rest]
  -- the curve point is among the points after the first one
  have hpts : ∃ first more, figurePts f = first :: ((pre.flatMap segPts ++ c.offs.map fun p => (p, none)) ++ (c.target, some .curve) :: more) := by
    have hflat : f.segs.flatMap segPts = (pre.flatMap segPts ++ c.offs.map fun p => (p, none)) ++ (c.target, some .curve) :: post.flatMap segPts := by
      rw [hf]
      simp [segPts, hc.1]
    by_cases hcl : f.closed = true
    · rcases figurePts_cases f hcl with ⟨S, k, offs, h1, h2⟩ | ⟨_, h2⟩
      · rcases List.eq_nil_or_concat post with hp | ⟨P, l, hp⟩
        · subst hp
          rw [hf] at h1
          obtain ⟨_, h4⟩ := List.append_inj' h1 rfl
          injection h4 with h4
          exact absurd ⟨hcl, rfl, by rw [h4]⟩ hx
        · rw [hp, List.concat_eq_append] at hf
          have hS : S = pre ++ c :: P := by
            rw [hf, ← List.cons_append, ← List.append_assoc] at h1
            exact (List.append_inj' h1 rfl).1.symm
          refine ⟨(f.start, some k), P.flatMap segPts ++ offs.map fun p => (p, none), ?_⟩
          rw [h2, hS]
          simp [segPts, hc.1]
      · exact ⟨_, _, by rw [h2, hflat]⟩
    · unfold figurePts
      rw [if_neg hcl, hflat]
      exact ⟨_, _, rfl⟩
  obtain ⟨first, more, hpts⟩ := hpts
  obtain ⟨path, hu⟩ := C67_unsupported n order t (segPoint first) ((pre.flatMap segPts ++ c.offs.map fun p => (p, none)).map segPoint)
    (segPoint (c.target, some .curve)) ((more.map segPoint).map (fun p => .addPoint ((p.pt.1 : Rat), (p.pt.2 : Rat)) p.seg p.smooth p.name) ++ [.endPath]) (by
      intro q hq
      rw [List.map_append] at hq
      rcases List.mem_append.1 hq with hq | hq
      · exact accepted_segs hpre q hq
      · simp only [List.map_map, List.mem_map, Function.comp_def] at hq
        obtain ⟨x, _, rfl⟩ := hq
        exact .inl rfl) (.inl rfl)
  have hcalls : contourCalls ((figurePts f).map segPoint) = .beginPath :: ((segPoint first ::
      ((pre.flatMap segPts ++ c.offs.map fun p => (p, none)).map segPoint) ++ [segPoint (c.target, some .curve)]).map fun p =>
        .addPoint ((p.pt.1 : Rat), (p.pt.2 : Rat)) p.seg p.smooth p.name) ++
      ((more.map segPoint).map (fun p => .addPoint ((p.pt.1 : Rat), (p.pt.2 : Rat)) p.seg p.smooth p.name) ++ [.endPath]) := by
    rw [hpts]
    simp [contourCalls]
  rw [hcalls, hu]
  exact ⟨_, rfl, rfl⟩

/-- **C109** (Known defect) A cubic curve that is the last segment of a closed contour and ends where the contour begins is accepted, but stored as
a quadratic curve with the same two control points, which is another curve. -/
theorem C109_cubic_closing (n : Nat) (order : List PyStr) (a c1 c2 : Point) (segs : List Segment) (hs : ∀ s ∈ segs, IsTrueType s)
    (old : List MMNode) (comps : Option (List Component)) :
    ∃ new, runSeg smooth n order ⟨⟨⟨some old, comps⟩, none⟩, none⟩ (Figure.calls ⟨a, segs ++ [⟨.curve, [c1, c2], a⟩], true⟩) =
        (⟨⟨⟨some (old ++ new), comps⟩, none⟩, none⟩, none) ∧
      ∀ m, m < n → ∀ outs rename, extractContours old [] m false = .ok (outs, rename) →
        ∃ out, extractContours (old ++ new) [] m false = .ok (outs ++ [out], rename) ∧
          ufoPath out = some ⟨a, segs ++ [⟨.qcurve, [c1, c2], a⟩], [], true⟩ := by
  have hpts : figurePts ⟨a, segs ++ [⟨.curve, [c1, c2], a⟩], true⟩ = (a, some .curve) :: (segs.flatMap segPts ++ [c1, c2].map fun p => (p, none)) := by
    rcases figurePts_cases ⟨a, segs ++ [⟨.curve, [c1, c2], a⟩], true⟩ rfl with ⟨S, k, offs, h1, h2⟩ | ⟨h1, _⟩
    · obtain ⟨h3, h4⟩ := List.append_inj' h1 rfl
      injection h4 with h4
      injection h4 with h5 h6
      rw [h2, ← h3, ← h5, ← h6]
    · exact absurd ⟨_, List.getLast?_concat, rfl⟩ h1
  have hacc : Accepted ((figurePts ⟨a, segs ++ [⟨.curve, [c1, c2], a⟩], true⟩).map segPoint) := by
    rw [hpts]
    intro p hp
    simp only [List.map_cons, List.tail_cons, List.map_append, List.mem_append] at hp
    rcases hp with hp | hp
    · exact accepted_segs hs p hp
    · rcases List.mem_cons.1 hp with rfl | hp
      · exact .inl rfl
      · rw [List.mem_singleton.1 hp]
        exact .inl rfl
  refine ⟨penNodes n ((figurePts ⟨a, segs ++ [⟨.curve, [c1, c2], a⟩], true⟩).map segPoint), ?_, ?_⟩
  · have := runSeg_figure smooth n order ⟨some old, comps⟩ ⟨a, segs ++ [⟨.curve, [c1, c2], a⟩], true⟩ (by
      intro s h
      rcases List.mem_append.1 h with h | h
      · exact .inl (hs s h)
      · rw [List.mem_singleton.1 h]
        exact .inr ⟨rfl, rfl⟩) []
    rw [List.append_nil, runPen_contour n order _ _ hacc] at this
    rw [this]
    rfl
  · intro m hm outs rename ho
    have := extract_drawn (n := n) hm ho [(figurePts ⟨a, segs ++ [⟨.curve, [c1, c2], a⟩], true⟩).map segPoint] (by
      intro c hc
      rw [List.mem_singleton.1 hc, hpts]
      simp)
    simp only [List.flatMap_cons, List.flatMap_nil, List.append_nil, List.map_cons, List.map_nil] at this
    refine ⟨_, this, ?_⟩
    rw [hpts, joined_path hs (by decide)]
    simp

/-- **C109** A moveTo before the contour is closed or ended discards what was drawn since the last moveTo. -/
theorem C109_unfinished (n : Nat) (order : List PyStr) (s : SegPen) (a b : Point) (segs : List Segment) (hs : ∀ s ∈ segs, IsTrueType s ∨ IsCubic s)
    (rest : List SegCall) :
    runSeg smooth n order s (.moveTo a :: segs.flatMap segmentCall ++ .moveTo b :: rest) = runSeg smooth n order s (.moveTo b :: rest) := by
  simp only [List.cons_append, runSeg, segStep]
  rw [runSeg_segs smooth n order s.pen _ segs _ hs]
  simp only [runSeg, segStep]

/-- **C109** Everything but moveTo and addComponent needs a moveTo before it, and addComponent must not come between a moveTo and the end of the
contour: otherwise the pen raises an error, and the glyph stays as it is. -/
theorem C109_order (n : Nat) (order : List PyStr) (s : SegPen) :
    (s.contour = none → ∀ call ∈ ([.closePath, .endPath] : List SegCall), segStep smooth n order s call = (s, some .assertion)) ∧
    (s.contour = none → ∀ g, ProperSeg g → ∀ call ∈ segmentCall g, segStep smooth n order s call = (s, some .assertion)) ∧
    (s.contour ≠ none → ∀ base sx sy ox oy, segStep smooth n order s (.addComponent base sx sy ox oy) = (s, some .assertion)) := by
  refine ⟨?_, ?_, ?_⟩
  · intro h call hc
    rcases List.mem_cons.1 hc with rfl | hc
    · simp [segStep, h]
    · rw [List.mem_singleton.1 hc]
      simp [segStep, h]
  · intro h g hg call hc
    obtain ⟨k, offs, tg⟩ := g
    rcases hg with (⟨hk, ho⟩ | ⟨hk, ho⟩) | ⟨hk, ho⟩
    · dsimp only at hk ho
      subst hk ho
      rw [List.mem_singleton.1 hc]
      simp [segStep, h]
    · dsimp only at hk
      subst hk
      rw [List.mem_singleton.1 hc]
      simp [segStep, h]
    · dsimp only at hk ho
      subst hk
      match offs, ho with
      | [c1, c2], _ =>
        rw [List.mem_singleton.1 hc]
        simp [segStep, h]
  · intro h base sx sy ox oy
    obtain ⟨c, hc⟩ := Option.ne_none_iff_exists'.1 h
    simp [segStep, hc]

/-! ### copying a glyph -/

/-- the contour of a VFB glyph, as drawn by `draw()` -/
def figureOf (c : List MasterNode) : Figure :=
  match c with
  | [] => ⟨(0, 0), [], false⟩
  | mv :: rest => ⟨mv.pt, (readNodesAs [] rest).1, !mv.isOpen⟩

theorem figureOf_calls {c : List MasterNode} (h : IsContour c) : (figureOf c).calls = contourSegCalls c := by
  obtain ⟨mv, rest, rfl, _, _⟩ := h
  cases hb : mv.isOpen <;> simp [figureOf, Figure.calls, contourSegCalls, hb]

theorem readNodes_tt : ∀ (rest : List MasterNode) (pending : List Point), (∀ x ∈ rest, x.kind ≠ .move) → (∀ x ∈ rest, x.kind ≠ .curve) →
    ∀ s ∈ (readNodesAs pending rest).1, IsTrueType s := by
  intro rest
  induction rest with
  | nil => intro p _ _ s hs; cases hs
  | cons x rest ih =>
    intro p h1 h2 s hs
    have ih' := fun p => ih p (fun y hy => h1 y (List.mem_cons_of_mem _ hy)) (fun y hy => h2 y (List.mem_cons_of_mem _ hy)) s
    unfold readNodesAs at hs
    cases hk : x.kind with
    | move => exact absurd hk (h1 x List.mem_cons_self)
    | curve => exact absurd hk (h2 x List.mem_cons_self)
    | qcurve => rw [hk] at hs; exact ih' _ hs
    | line =>
      rw [hk] at hs
      rcases List.mem_cons.1 hs with rfl | hs
      · by_cases hp : p = []
        · exact .inl ⟨by simp [hp], hp⟩
        · exact .inr ⟨by simp [hp], hp⟩
      · exact ih' _ hs

theorem readNodes_nil : ∀ (rest : List MasterNode) (pending : List Point), (readNodesAs pending rest).1 = [] → (readNodesAs pending rest).2 = [] → rest = [] := by
  intro rest
  induction rest with
  | nil => intros; rfl
  | cons x rest ih =>
    intro p h1 h2
    unfold readNodesAs at h1 h2
    cases hk : x.kind with
    | qcurve =>
      rw [hk] at h1 h2
      have hr := ih _ h1 h2
      subst hr
      simp [readNodesAs] at h2
    | _ => rw [hk] at h1; cases h1

theorem figureOf_path {c : List MasterNode} (h : IsContour c) (hq : ∀ x ∈ c, x.kind ≠ .curve) (ht : trailing c = []) :
    ∃ p, vfbPath c = some p ∧ (figureOf c).path = withoutNullLine p := by
  obtain ⟨mv, rest, rfl, _, hm⟩ := h
  have htt := readNodes_tt rest [] hm fun x hx => hq x (List.mem_cons_of_mem _ hx)
  have ht : (readNodesAs [] rest).2 = [] := ht
  unfold figureOf vfbPath
  dsimp only
  by_cases ho : mv.isOpen = true
  · refine ⟨_, if_pos (.inl ho), ?_⟩
    simp [Figure.path, withoutNullLine, ho, ht]
  · by_cases hr : rest = []
    · refine ⟨_, if_pos (.inr hr), ?_⟩
      subst hr
      simp [Figure.path, withoutNullLine, ho, readNodesAs, Figure.isPoint]
    · refine ⟨_, if_neg (fun x => x.elim ho hr), ?_⟩
      have hne : (readNodesAs [] rest).1 ≠ [] := fun e => hr (readNodes_nil rest [] e ht)
      generalize (readNodesAs [] rest).1 = segs at htt hne ⊢
      have hcl : closing segs (readNodesAs [] rest).2 mv.pt = [⟨.line, [], mv.pt⟩] := by
        unfold closing
        rw [ht, if_neg (by simp), if_neg]
        rintro ⟨s, h1, h2, _⟩
        have := htt s (List.mem_of_getLast? h1)
        rcases this with ⟨h, _⟩ | ⟨h, _⟩ <;> rw [h] at h2 <;> cases h2
      rw [hcl]
      have ho' : (!mv.isOpen) = true := by simpa using ho
      unfold Figure.path withoutNullLine
      simp only [ho', Bool.true_eq_false, if_false, true_and, List.getLast?_concat, List.dropLast_concat]
      by_cases he : endsAt segs mv.pt
      · rw [if_pos he, if_pos he]
        by_cases hp : segs = [⟨.line, [], mv.pt⟩]
        · rw [if_pos hp, if_pos (show Figure.isPoint _ from .inr hp)]
        · rw [if_neg hp, if_neg (show ¬ Figure.isPoint _ from fun x => x.elim hne hp), List.append_nil]
      · rw [if_neg he, if_neg he, if_neg]
        rintro (x | x)
        · exact hne x
        · exact he ⟨_, by dsimp only at x; rw [x]; rfl, rfl⟩

/-- the components are added -/
theorem runSeg_components {n m : Nat} {order : List PyStr} (hnd : order.Nodup) (t : MasterData) : ∀ {comps : List Component} {ccalls : List SegCall},
    Corresponds (DrawnComponent order m) comps ccalls → ∀ old,
    ∃ newc, runSeg smooth n order ⟨⟨{ t with components := old }, none⟩, none⟩ ccalls =
        (⟨⟨{ t with components := if comps = [] then old else some (old.getD [] ++ newc) }, none⟩, none⟩, none) ∧
      newc.length = comps.length ∧
      ∀ m', m' < n → List.Forall₂ (fun c c' => drawComponent order m' c' = drawComponent order m c) comps newc := by
  intro comps
  induction comps with
  | nil =>
    intro ccalls h old
    have : ccalls = [] := List.length_eq_zero_iff.1 h.1.symm
    subst this
    exact ⟨[], rfl, rfl, fun _ _ => .nil⟩
  | cons c comps ih =>
    intro ccalls h old
    cases ccalls with
    | nil => exact absurd h.1 (by simp)
    | cons call ccalls =>
      have ht : Corresponds (DrawnComponent order m) comps ccalls :=
        ⟨by simpa using h.1, fun k a b ha hb => h.2 (k + 1) a b (by simpa using ha) (by simpa using hb)⟩
      have hd := h.2 0 c call rfl rfl
      obtain ⟨i, base, sx, sy, ox, oy, g1, g2, g3, g4, g5, g6, rfl⟩ := hd
      obtain ⟨hi, hi2⟩ := List.getElem?_eq_some_iff.1 g2
      obtain ⟨c', a1, a2, a3⟩ := C67_component n order { t with components := old } base ⟨sx, ⟨0⟩, ⟨0⟩, sy, ox, oy⟩ i g2 (by
        intro j hj hx
        obtain ⟨hj1, hj2⟩ := List.getElem?_eq_some_iff.1 hx
        have := (List.Nodup.getElem_inj_iff hnd).1 (hj2.trans hi2.symm)
        omega)
      have hp : penStep n order ⟨{ t with components := old }, none⟩ (.addComponent base ⟨sx, ⟨0⟩, ⟨0⟩, sy, ox, oy⟩) =
          (⟨{ t with components := some (old.getD [] ++ [c']) }, none⟩, none) := by
        simp only [runPen] at a1
        cases hs : penStep n order ⟨{ t with components := old }, none⟩ (.addComponent base ⟨sx, ⟨0⟩, ⟨0⟩, sy, ox, oy⟩) with
        | mk pen e =>
          rw [hs] at a1
          cases e with
          | none => exact a1
          | some e => injection a1 with _ a1; cases a1
      obtain ⟨newc, b1, b3, b2⟩ := ih ht (some (old.getD [] ++ [c']))
      refine ⟨c' :: newc, ?_, by simp [b3], fun m' hm' => .cons ?_ (b2 m' hm')⟩
      · simp only [runSeg, segStep, hp]
        rw [b1]
        by_cases hcs : comps = []
        · subst hcs
          have : newc = [] := List.length_eq_zero_iff.1 b3
          subst this
          simp
        · simp [hcs]
      · obtain ⟨e1, e2, e3, e4⟩ := a3 m' hm'
        simp only [drawComponent, a2, g1, pyIndex_of_get g2, pyIndex_of_get g3, pyIndex_of_get g4, pyIndex_of_get g5, pyIndex_of_get g6,
          pyIndex_of_get e1, pyIndex_of_get e2, pyIndex_of_get e3, pyIndex_of_get e4, bind, Except.bind]

/-- **C109** What `draw()` of one glyph draws into the segment pen of another one is a copy: in every master, its contours are added with the same
paths, except that a line of no length at the end of a closed contour is left out, and its components with the same glyph, scale and offset. -/
theorem C109_copy {n m : Nat} {order : List PyStr} (hnd : order.Nodup) {nodes : List MMNode} {cs : List (List MasterNode)} {comps : List Component}
    {ccalls : List SegCall} (hn : NodesAre [] m nodes cs.flatten) (hc : ∀ c ∈ cs, IsContour c) (hq : ∀ c ∈ cs, ∀ x ∈ c, x.kind ≠ .curve)
    (ht : ∀ c ∈ cs, trailing c = []) (hcomps : Corresponds (DrawnComponent order m) comps ccalls)
    (old : List MMNode) (oldc : Option (List Component)) :
    ∃ calls new newc, drawGlyph order m nodes comps = .ok calls ∧ newc.length = comps.length ∧
      runSeg smooth n order ⟨⟨⟨some old, oldc⟩, none⟩, none⟩ calls =
        (⟨⟨⟨some (old ++ new), if comps = [] then oldc else some (oldc.getD [] ++ newc)⟩, none⟩, none⟩, none) ∧
      ∀ m', m' < n → List.Forall₂ (fun c c' => drawComponent order m' c' = drawComponent order m c) comps newc ∧
        ∀ outs rename, extractContours old [] m' false = .ok (outs, rename) →
          ∃ outs', extractContours (old ++ new) [] m' false = .ok (outs ++ outs', rename) ∧
            List.Forall₂ (fun c out => ∃ p, vfbPath c = some p ∧ ufoPath out = some (withoutNullLine p)) cs outs' := by
  have hd := C68_drawn hn hc (by
    intro c h
    have := hq c h
    refine List.Pairwise.isChain (List.pairwise_of_forall_mem_list ?_)
    intro a _ b hb hab
    exact this b hb hab.2) (fun c h => ht c (List.dropLast_subset _ h)) hcomps
  have hcalls : cs.flatMap contourSegCalls = (cs.map figureOf).flatMap Figure.calls := by
    rw [List.flatMap_map]
    exact List.flatMap_congr fun c h => (figureOf_calls (hc c h)).symm
  have hfs : ∀ f ∈ cs.map figureOf, ∀ s ∈ f.segs, IsTrueType s := by
    intro f hf
    obtain ⟨c, h, rfl⟩ := List.mem_map.1 hf
    obtain ⟨mv, rest, rfl, _, hm⟩ := hc c h
    exact readNodes_tt rest [] hm fun x hx => hq _ h x (List.mem_cons_of_mem _ hx)
  obtain ⟨newc, h1, h3, h2⟩ := runSeg_components smooth (n := n) hnd
    ⟨some (old ++ ((cs.map figureOf).map fun f => (figurePts f).map segPoint).flatMap (penNodes n)), none⟩ hcomps oldc
  refine ⟨_, ((cs.map figureOf).map fun f => (figurePts f).map segPoint).flatMap (penNodes n), newc, hd, h3, ?_, fun m' hm' => ⟨h2 m' hm', ?_⟩⟩
  · rw [hcalls, runSeg_figures smooth n order ccalls _ old oldc hfs]
    exact h1
  · intro outs rename ho
    obtain ⟨outs', e1, e2⟩ := figures_read hm' (cs.map figureOf) hfs ho
    refine ⟨outs', e1, ?_⟩
    rw [List.forall₂_map_left_iff] at e2
    clear e1 hd hcalls hfs h1 h2 hn
    induction e2 with
    | nil => exact .nil
    | cons a _ ih =>
      obtain ⟨p, p1, p2⟩ := figureOf_path (hc _ List.mem_cons_self) (hq _ List.mem_cons_self) (ht _ List.mem_cons_self)
      exact .cons ⟨p, p1, by rw [← p2]; exact a.1⟩ (ih (fun c h => hc c (List.mem_cons_of_mem _ h)) (fun c h => hq c (List.mem_cons_of_mem _ h))
        fun c h => ht c (List.mem_cons_of_mem _ h))

/-! ### examples -/

/-- a closed contour with a line and a quadratic curve back to the start, and an open one -/
def exampleFigures : List Figure :=
  [⟨(0, 0), [⟨.line, [], (100, 0)⟩, ⟨.qcurve, [(100, 100), (0, 100)], (0, 0)⟩], true⟩,
   ⟨(5, 5), [⟨.line, [], (9, 9)⟩], false⟩, ⟨(1, 1), [⟨.line, [], (2, 1)⟩, ⟨.line, [], (2, 2)⟩], true⟩]

theorem exampleFigures_tt : ∀ f ∈ exampleFigures, ∀ s ∈ f.segs, IsTrueType s := by
  unfold IsTrueType
  decide

/-- C109: these contours are drawn into a font with two masters; the paths are the expected ones -/
example (order : List PyStr) : ∃ new, runSeg smooth 2 order ⟨⟨⟨some [], none⟩, none⟩, none⟩ (exampleFigures.flatMap Figure.calls) =
      (⟨⟨⟨some ([] ++ new), none⟩, none⟩, none⟩, none) ∧
      ∃ cs, extractContours ([] ++ new) [] 1 false = .ok (cs, []) ∧ cs.map ufoPath =
        [some ⟨(0, 0), [⟨.line, [], (100, 0)⟩, ⟨.qcurve, [(100, 100), (0, 100)], (0, 0)⟩], [], true⟩,
         some ⟨(5, 5), [⟨.line, [], (9, 9)⟩], [], false⟩,
         some ⟨(1, 1), [⟨.line, [], (2, 1)⟩, ⟨.line, [], (2, 2)⟩, ⟨.line, [], (1, 1)⟩], [], true⟩] := by
  obtain ⟨new, h1, h2⟩ := C109_drawn smooth 2 order exampleFigures exampleFigures_tt [] none
  obtain ⟨cs, h3, h4⟩ := h2 1 (by decide) [] [] rfl
  refine ⟨new, h1, cs, by simpa using h3, ?_⟩
  have : ∀ (fs : List Figure) (cs : List UfoContour), List.Forall₂ (fun f c => ufoPath c = some f.path ∧ ∀ p ∈ c, p.smooth = false ∧ p.name = none) fs cs →
      cs.map ufoPath = fs.map fun f => some f.path := by
    intro fs cs h
    induction h with
    | nil => rfl
    | cons a _ ih => rw [List.map_cons, List.map_cons, ih, a.1]
  rw [this _ _ h4]
  decide

/-- C109: a cubic curve in the middle is rejected -/
example (order : List PyStr) (t : MasterData) : ∃ s, runSeg smooth 2 order ⟨⟨t, none⟩, none⟩
    ([.moveTo (0, 0), .lineTo (5, 0), .curveTo (6, 1) (6, 2) (5, 3), .lineTo (0, 0), .closePath] ++ [.moveTo (1, 1)]) = (s, some .value) ∧ s.pen.target = t :=
  C109_cubic_rejected smooth 2 order t ⟨(0, 0), [⟨.line, [], (5, 0)⟩, ⟨.curve, [(6, 1), (6, 2)], (5, 3)⟩, ⟨.line, [], (0, 0)⟩], true⟩
    [⟨.line, [], (5, 0)⟩] [⟨.line, [], (0, 0)⟩] ⟨.curve, [(6, 1), (6, 2)], (5, 3)⟩ rfl
    (fun s hs => by rw [List.mem_singleton.1 hs]; exact .inl ⟨rfl, rfl⟩) ⟨rfl, rfl⟩
    (fun s hs => by rw [List.mem_singleton.1 hs]; exact .inl (.inl ⟨rfl, rfl⟩)) (by simp) [.moveTo (1, 1)]

/-- C109: a glyph with a closed contour, whose last node is where it begins, and a component is copied; the path has no line of no length -/
example : ∃ calls new newc, drawGlyph [lit "A", lit "B"] 0
      [⟨.move, some 0, [[(0, 0)]]⟩, ⟨.line, some 0, [[(5, 0)]]⟩, ⟨.qcurve, some 0, [[(5, 5)]]⟩, ⟨.line, some 0, [[(0, 0)]]⟩]
      [⟨1, [3], [4], [⟨7⟩], [⟨8⟩]⟩] = .ok calls ∧ newc.length = 1 ∧
    runSeg smooth 1 [lit "A", lit "B"] ⟨⟨⟨some [], none⟩, none⟩, none⟩ calls = (⟨⟨⟨some ([] ++ new), some ([] ++ newc)⟩, none⟩, none⟩, none) ∧
    ∃ out, extractContours ([] ++ new) [] 0 false = .ok ([out], []) ∧
      ufoPath out = some ⟨(0, 0), [⟨.line, [], (5, 0)⟩, ⟨.qcurve, [(5, 5)], (0, 0)⟩], [], true⟩ := by
  obtain ⟨calls, new, newc, h1, h2, h3, h4⟩ := C109_copy smooth (n := 1) (m := 0) (order := [lit "A", lit "B"]) (by decide)
    (nodes := [⟨.move, some 0, [[(0, 0)]]⟩, ⟨.line, some 0, [[(5, 0)]]⟩, ⟨.qcurve, some 0, [[(5, 5)]]⟩, ⟨.line, some 0, [[(0, 0)]]⟩])
    (cs := [[⟨.move, false, false, none, (0, 0), []⟩, ⟨.line, false, false, none, (5, 0), []⟩, ⟨.qcurve, false, false, none, (5, 5), []⟩,
      ⟨.line, false, false, none, (0, 0), []⟩]])
    (comps := [⟨1, [3], [4], [⟨7⟩], [⟨8⟩]⟩]) (ccalls := [.addComponent (lit "B") ⟨7⟩ ⟨8⟩ 3 4])
    (by
      refine ⟨rfl, ?_⟩
      intro i n a hn ha
      match i with
      | 0 | 1 | 2 | 3 =>
        cases hn; cases ha
        exact ⟨rfl, rfl, ⟨0, rfl, by decide, by decide⟩, [], rfl, by decide⟩
      | i + 4 => simp at hn)
    (by
      intro c hc
      rw [List.mem_singleton.1 hc]
      exact ⟨_, _, rfl, rfl, by decide⟩)
    (by decide) (by decide)
    (by
      refine ⟨rfl, ?_⟩
      intro k a b ha hb
      match k with
      | 0 => cases ha; cases hb; exact ⟨1, lit "B", ⟨7⟩, ⟨8⟩, 3, 4, rfl, rfl, rfl, rfl, rfl, rfl, rfl⟩
      | k + 1 => simp at ha)
    [] none
  obtain ⟨_, h5⟩ := h4 0 (by decide)
  obtain ⟨outs, e1, e2⟩ := h5 [] [] rfl
  cases e2 with
  | cons a b =>
    cases b
    obtain ⟨p, p1, p2⟩ := a
    injection p1 with p1
    subst p1
    exact ⟨calls, new, newc, h1, h2, h3, _, e1, p2⟩

end Verif.Props
