import Verif.Spec.VfbPens
import Verif.Props.UfoPaths
import Verif.Props.Merge
import Verif.Lemmas.Float
/-! C67: what is drawn into a glyph with a point pen can be read back. -/
set_option autoImplicit false
namespace Verif.Props
open Verif Verif.Spec

/-! ### what comes back -/

/-- a later point of a contour when it is read back -/
def restSeg (prevOff : Bool) (p : UfoPoint) : Option PathCommand :=
  if p.seg = none then none else some (if prevOff then .qcurve else .line)

def normRest : Bool → UfoContour → UfoContour
  | _, [] => []
  | b, p :: ps => ⟨restSeg b p, false, none, p.pt⟩ :: normRest (decide (p.seg = none)) ps

/-- the type of the first point when it is read back -/
def firstSeg (f : UfoPoint) (r : UfoContour) : PathCommand :=
  if f.seg = some .move then .move
  else match r.getLast? with
    | none => .move
    | some l => if l.seg = none then .qcurve else .line

/-- the contour that is read back -/
def norm : UfoContour → UfoContour
  | [] => []
  | f :: r => ⟨some (firstSeg f r), false, none, f.pt⟩ :: normRest false r

/-- the pen accepts the contour -/
def Accepted (c : UfoContour) : Prop := ∀ p ∈ c.tail, p.seg = none ∨ p.seg = some .line ∨ p.seg = some .qcurve

/-- the nodes for the later points -/
def restNode (n : Nat) (p : UfoPoint) : MMNode := ⟨if p.seg = none then .qcurve else .line, some 0, List.replicate n [p.pt]⟩

def penNodes (n : Nat) : UfoContour → List MMNode
  | [] => []
  | f :: r => ⟨.move, some (if f.seg = some .move then 8 else 0), List.replicate n [f.pt]⟩ :: r.map (restNode n)

theorem runPen_append (n : Nat) (order : List PyStr) : ∀ (a b : List PenCall) (pen : PointPen),
    runPen n order pen (a ++ b) = match runPen n order pen a with
      | (pen', none) => runPen n order pen' b
      | r => r := by
  intro a
  induction a with
  | nil => intro b pen; rfl
  | cons c a ih =>
    intro b pen
    simp only [List.cons_append, runPen]
    cases h : penStep n order pen c with
    | mk pen' e =>
      cases e with
      | none => simp only; rw [ih]
      | some e => rfl

/-- the points after the first one -/
theorem runPen_rest (n : Nat) (order : List PyStr) (t : MasterData) : ∀ (r : UfoContour) (path : List MMNode), path ≠ [] →
    (∀ p ∈ r, p.seg = none ∨ p.seg = some .line ∨ p.seg = some .qcurve) →
    runPen n order ⟨t, some path⟩ (r.map fun p => .addPoint ((p.pt.1 : Rat), (p.pt.2 : Rat)) p.seg p.smooth p.name) =
      (⟨t, some (path ++ r.map (restNode n))⟩, none) := by
  intro r
  induction r with
  | nil => intro path _ _; simp [runPen]
  | cons p r ih =>
    intro path hp hr
    simp only [List.map_cons, runPen, penStep, penNode, List.isEmpty_iff, if_neg hp, roundEven_int]
    have hnext : runPen n order ⟨t, some (path ++ [restNode n p])⟩ (r.map fun p => .addPoint ((p.pt.1 : Rat), (p.pt.2 : Rat)) p.seg p.smooth p.name) =
        (⟨t, some (path ++ restNode n p :: r.map (restNode n))⟩, none) := by
      rw [ih _ (by simp) fun q hq => hr q (by simp [hq])]
      simp
    rcases hr p (by simp) with h | h | h
    · rw [h]; simp only; rw [← hnext]; simp [restNode, h]
    · rw [h]; simp only; rw [← hnext]; simp [restNode, h]
    · rw [h]; simp only; rw [← hnext]; simp [restNode, h]

/-- a contour is drawn -/
theorem runPen_contour (n : Nat) (order : List PyStr) (t : MasterData) (c : UfoContour) (h : Accepted c) :
    runPen n order ⟨t, none⟩ (contourCalls c) = (⟨{ t with nodes := some (t.nodes.getD [] ++ penNodes n c) }, none⟩, none) := by
  unfold contourCalls
  cases c with
  | nil => simp [runPen, penStep, penNodes]
  | cons f r =>
    rw [List.append_assoc, runPen_append]
    simp only [runPen, penStep, List.map_cons, List.cons_append]
    simp only [penNode, List.isEmpty_nil, if_true, roundEven_int]
    rw [runPen_append]
    have hr := runPen_rest n order t r [⟨.move, some (if f.seg = some .move then 8 else 0), List.replicate n [f.pt]⟩] (by simp) h
    simp only [List.nil_append]
    rw [hr]
    simp only [runPen, penStep, penNodes, List.singleton_append]

/-- all contours are drawn -/
theorem runPen_contours (n : Nat) (order : List PyStr) : ∀ (cs : List UfoContour) (t : MasterData), (∀ c ∈ cs, Accepted c) → cs ≠ [] →
    runPen n order ⟨t, none⟩ (cs.flatMap contourCalls) =
      (⟨{ t with nodes := some (t.nodes.getD [] ++ cs.flatMap (penNodes n)) }, none⟩, none) := by
  intro cs
  induction cs with
  | nil => intro t _ h; exact absurd rfl h
  | cons c cs ih =>
    intro t h _
    rw [List.flatMap_cons, runPen_append, runPen_contour n order t c (h c (by simp))]
    simp only
    by_cases hcs : cs = []
    · subst hcs; simp [runPen]
    · rw [ih _ (fun c hc => h c (by simp [hc])) hcs]
      simp [List.append_assoc]

/-! ### reading -/

theorem replicate_index {α : Type} (n m : Nat) (x : α) (h : m < n) : pyIndex (List.replicate n x) (m : Int) = .ok x := by
  apply pyIndex_of_get
  simp [List.getElem?_replicate, h]

theorem rest_loop (n m : Nat) (hm : m < n) : ∀ (r : UfoContour) (st : ContourState) (i : Nat),
    contourLoop [] m false st i (r.map (restNode n)) =
      .ok { st with
        contour := st.contour ++ normRest st.inQcurve r
        inQcurve := match r.getLast? with
          | none => st.inQcurve
          | some l => decide (l.seg = none) } := by
  intro r
  induction r with
  | nil => intro st i; simp [contourLoop, normRest]
  | cons p r ih =>
    intro st i
    have h1 : pyIndex (restNode n p).points (m : Int) = .ok [p.pt] := replicate_index n m [p.pt] hm
    have h2 : pyIndex [p.pt] 0 = .ok p.pt := rfl
    simp only [List.map_cons, contourLoop, contourStep, h1, h2, bind, Except.bind]
    by_cases hp : p.seg = none
    · have ht : (restNode n p).type = .qcurve := by simp [restNode, hp]
      have hf : (restNode n p).flags = some 0 := rfl
      rw [hf, ht]
      simp only
      have hd : (if false = true then none else dictGet ([] : List (Int × PyStr)) (i : Int)) = none := rfl
      rw [ih]
      simp only [normRest, restSeg, hp, if_true, decide_true, List.append_assoc, List.singleton_append]
      cases hl : r.getLast? with
      | none =>
        have : r = [] := by simpa using hl
        subst this
        simp [hp, dictGet, normRest]
      | some l => rw [List.getLast?_cons, hl]; simp [dictGet]
    · have ht : (restNode n p).type = .line := by simp [restNode, hp]
      have hf : (restNode n p).flags = some 0 := rfl
      rw [hf, ht]
      simp only
      rw [ih]
      simp only [normRest, restSeg, hp, if_false, decide_false, List.append_assoc, List.singleton_append]
      have h0 : flagSmooth 0 = false := rfl
      cases hl : r.getLast? with
      | none =>
        have : r = [] := by simpa using hl
        subst this
        simp [hp, dictGet, normRest, h0]
      | some l => rw [List.getLast?_cons, hl]; simp [dictGet, h0]

theorem normRest_last : ∀ (r : UfoContour) (b : Bool) (l : UfoPoint), r.getLast? = some l →
    ∃ l', (normRest b r).getLast? = some l' ∧ (l.seg = none → l'.seg = none) ∧ (l.seg ≠ none → l'.seg = some .line ∨ l'.seg = some .qcurve) := by
  intro r
  induction r with
  | nil => intro b l h; simp at h
  | cons p r ih =>
    intro b l h
    cases hr : r.getLast? with
    | none =>
      have : r = [] := by simpa using hr
      subst this
      simp at h
      subst h
      refine ⟨⟨restSeg b p, false, none, p.pt⟩, by simp [normRest], ?_, ?_⟩
      · intro h; simp [restSeg, h]
      · intro h; simp only [restSeg, if_neg h]; cases b <;> simp
    | some x =>
      rw [List.getLast?_cons, hr] at h
      simp at h
      subst h
      obtain ⟨l', h1, h2⟩ := ih (decide (p.seg = none)) x hr
      refine ⟨l', ?_, h2⟩
      simp only [normRest]
      rw [List.getLast?_cons, h1]
      rfl

theorem flush_norm (f : UfoPoint) (r : UfoContour) :
    flushContour (⟨some .move, false, none, f.pt⟩ :: normRest false r) (decide (f.seg = some .move)) = .ok (norm (f :: r), none) := by
  unfold flushContour
  by_cases hf : f.seg = some .move
  · simp [hf, norm, firstSeg]
  · rw [if_neg (by simp [hf])]
    cases hr : r.getLast? with
    | none =>
      have : r = [] := by simpa using hr
      subst this
      simp [normRest, norm, firstSeg, hf]
    | some l =>
      obtain ⟨l', h1, h2, h3⟩ := normRest_last r false l hr
      have hl : (⟨some .move, false, none, f.pt⟩ :: normRest false r : UfoContour).getLast? = some l' := by
        rw [List.getLast?_cons, h1]; rfl
      rw [hl]
      simp only
      by_cases hs : l.seg = none
      · rw [h2 hs]
        simp [norm, firstSeg, hf, hr, hs]
      · rcases h3 hs with h | h
        · rw [h]
          simp only [applyClosepath, hl]
          rw [if_neg (by simp [h])]
          simp [norm, firstSeg, hf, hr, hs]
        · rw [h]
          simp only [applyClosepath, hl]
          rw [if_neg (by simp [h])]
          simp [norm, firstSeg, hf, hr, hs]

theorem loop_append (labels : List (Int × PyStr)) (m : Nat) (k : Bool) : ∀ (a b : List MMNode) (st : ContourState) (i : Nat),
    contourLoop labels m k st i (a ++ b) = contourLoop labels m k st i a >>= fun st => contourLoop labels m k st (i + a.length) b := by
  intro a
  induction a with
  | nil => intro b st i; rfl
  | cons x a ih =>
    intro b st i
    simp only [List.cons_append, contourLoop, bind, Except.bind]
    cases contourStep labels m k st i x with
    | error e => rfl
    | ok st' =>
      simp only
      rw [ih, List.length_cons, show i + (a.length + 1) = i + 1 + a.length by omega]
      rfl

theorem contour_loop (n m : Nat) (hm : m < n) (f : UfoPoint) (r : UfoContour) (st st1 : ContourState) (i : Nat) (h : appendContour st = .ok st1) :
    ∃ st2, contourLoop [] m false st i (penNodes n (f :: r)) = .ok st2 ∧
      ∃ st3, appendContour st2 = .ok st3 ∧ st3.contours = st1.contours ++ [norm (f :: r)] ∧ st3.rename = st1.rename := by
  have h1 : pyIndex (List.replicate n [f.pt]) (m : Int) = .ok [f.pt] := replicate_index n m [f.pt] hm
  have h2 : pyIndex [f.pt] 0 = .ok f.pt := rfl
  have hs : flagSmooth (if f.seg = some .move then 8 else 0) = false := by split <;> rfl
  have ho : flagOpen (if f.seg = some .move then 8 else 0) = decide (f.seg = some .move) := by
    by_cases hf : f.seg = some .move <;> simp [hf, flagOpen]
  refine ⟨{
      contours := st1.contours
      rename := st1.rename
      contour := ⟨some .move, false, none, f.pt⟩ :: normRest false r
      isOpen := decide (f.seg = some .move)
      inQcurve := match r.getLast? with
        | none => false
        | some l => decide (l.seg = none) }, ?_, ?_⟩
  · simp only [penNodes, contourLoop, contourStep, h1, h2, bind, Except.bind, h, hs, ho, Option.getD_some]
    rw [rest_loop n m hm]
    simp [dictGet]
  · unfold appendContour
    simp only [List.isEmpty_cons, Bool.false_eq_true, if_false]
    rw [flush_norm]
    exact ⟨_, rfl, rfl, rfl⟩

theorem contours_read (n m : Nat) (hm : m < n) : ∀ (cs : List UfoContour) (st st1 : ContourState) (i : Nat), (∀ c ∈ cs, c ≠ []) →
    appendContour st = .ok st1 →
    ∃ st2, contourLoop [] m false st i (cs.flatMap (penNodes n)) = .ok st2 ∧
      ∃ st3, appendContour st2 = .ok st3 ∧ st3.contours = st1.contours ++ cs.map norm ∧ st3.rename = st1.rename := by
  intro cs
  induction cs with
  | nil => intro st st1 i _ h; exact ⟨st, rfl, st1, h, by simp, rfl⟩
  | cons c cs ih =>
    intro st st1 i hc h
    rw [List.flatMap_cons, loop_append]
    cases c with
    | nil => exact absurd rfl (hc [] (by simp))
    | cons f r =>
      obtain ⟨st2, e2, st3, e3, e4, e5⟩ := contour_loop n m hm f r st st1 i h
      rw [e2]
      obtain ⟨st4, e6, st5, e7, e8, e9⟩ := ih st2 st3 (i + (penNodes n (f :: r)).length) (fun c h => hc c (by simp [h])) e3
      exact ⟨st4, e6, st5, e7, by rw [e8, e4]; simp, by rw [e9, e5]⟩

/-- what is drawn is appended to the contours that are read -/
theorem extract_drawn {n m : Nat} (hm : m < n) {old : List MMNode} {outs : List UfoContour} {rename : List (PyStr × PyStr)}
    (ho : extractContours old [] m false = .ok (outs, rename)) (cs : List UfoContour) (hc : ∀ c ∈ cs, c ≠ []) :
    extractContours (old ++ cs.flatMap (penNodes n)) [] m false = .ok (outs ++ cs.map norm, rename) := by
  unfold extractContours at ho ⊢
  rw [loop_append]
  cases h1 : contourLoop [] m false ⟨[], [], [], false, false⟩ 0 old with
  | error e => rw [h1] at ho; cases ho
  | ok st =>
    rw [h1] at ho
    simp only [bind, Except.bind] at ho ⊢
    cases h2 : appendContour st with
    | error e => rw [h2] at ho; cases ho
    | ok st1 =>
      rw [h2] at ho
      simp only at ho
      injection ho with ho
      injection ho with ha hb
      obtain ⟨st2, e2, st3, e3, e4, e5⟩ := contours_read n m hm cs st st1 (0 + old.length) hc h2
      rw [e2]
      simp only
      rw [e3]
      simp only
      rw [e4, e5, ha, hb]

/-! ### when it is the same -/

theorem normRest_same : ∀ (r : UfoContour) (p : UfoPoint) (b : Bool), (b = decide (p.seg = none)) → List.IsChain Follows (p :: r) →
    (∀ q ∈ r, q.smooth = false ∧ q.name = none) → normRest b r = r := by
  intro r
  induction r with
  | nil => intro p b _ _ _; rfl
  | cons q r ih =>
    intro p b hb hc hq
    rw [List.isChain_cons_cons] at hc
    simp only [normRest]
    rw [ih q (decide (q.seg = none)) rfl hc.2 fun x hx => hq x (by simp [hx])]
    have hq1 := hq q (by simp)
    obtain ⟨seg, smooth, name, pt⟩ := q
    simp only at hq1
    obtain ⟨rfl, rfl⟩ := hq1
    congr 1
    simp only [restSeg]
    rcases hc.1 with h | ⟨h, hp⟩ | ⟨h, hp⟩ <;> simp only at h <;> subst h
    · rfl
    · simp [hb, hp]
    · simp [hb, hp]

theorem normRest_only : ∀ (r : UfoContour) (p : UfoPoint) (b : Bool), (b = decide (p.seg = none)) → normRest b r = r →
    List.IsChain Follows (p :: r) ∧ ∀ q ∈ r, q.smooth = false ∧ q.name = none := by
  intro r
  induction r with
  | nil => intro p b _ _; exact ⟨.singleton _, by simp⟩
  | cons q r ih =>
    intro p b hb h
    simp only [normRest] at h
    injection h with h1 h2
    obtain ⟨i1, i2⟩ := ih q _ rfl h2
    have hs : q.seg = restSeg b q := by conv_lhs => rw [← h1]
    have hm : q.smooth = false := by rw [← h1]
    have hn : q.name = none := by rw [← h1]
    refine ⟨List.isChain_cons_cons.2 ⟨?_, i1⟩, ?_⟩
    · unfold Follows
      by_cases hq : q.seg = none
      · exact .inl hq
      · right
        rw [restSeg, if_neg hq] at hs
        by_cases hp : p.seg = none
        · left; rw [hs, hb]; simp [hp]
        · right; rw [hs, hb]; simp [hp]
    · intro x hx
      rcases List.mem_cons.1 hx with rfl | hx
      · exact ⟨hm, hn⟩
      · exact i2 x hx

theorem norm_iff (c : UfoContour) (hc : c ≠ []) : norm c = c ↔ TrueTypeContour c := by
  cases c with
  | nil => exact absurd rfl hc
  | cons f r =>
    constructor
    · intro h
      simp only [norm] at h
      injection h with h1 h2
      have hs : f.seg = some (firstSeg f r) := by conv_lhs => rw [← h1]
      have hm : f.smooth = false := by rw [← h1]
      have hn : f.name = none := by rw [← h1]
      have hne : f.seg ≠ none := by rw [hs]; simp
      obtain ⟨i1, i2⟩ := normRest_only r f false (by simp [hne]) h2
      refine ⟨?_, i1, ?_⟩
      · intro p hp
        rcases List.mem_cons.1 hp with rfl | hp
        · exact ⟨hm, hn⟩
        · exact i2 p hp
      · cases hr : r.getLast? with
        | none =>
          have : r = [] := by simpa using hr
          subst this
          refine ⟨f, f, rfl, rfl, .inl ?_⟩
          rw [hs, firstSeg]
          by_cases hf : f.seg = some .move
          · rw [if_pos hf]
          · rw [if_neg hf]; rfl
        | some l =>
          refine ⟨f, l, rfl, by rw [List.getLast?_cons, hr]; rfl, ?_⟩
          by_cases hf : f.seg = some .move
          · exact .inl hf
          · right
            refine ⟨hne, ?_, ?_⟩
            · cases r with
              | nil => simp at hr
              | cons => simp
            · rw [firstSeg, if_neg hf, hr] at hs
              simp only at hs
              by_cases hl : l.seg = none
              · rw [if_pos hl] at hs; exact .inr (.inl ⟨hs, hl⟩)
              · rw [if_neg hl] at hs; exact .inr (.inr ⟨hs, hl⟩)
    · rintro ⟨h1, h2, first, last, hf, hl, h3⟩
      simp at hf
      subst hf
      have hne : f.seg ≠ none := by
        rcases h3 with h | h
        · rw [h]; simp
        · exact h.1
      have hr := normRest_same r f false (by simp [hne]) h2 fun q hq => h1 q (by simp [hq])
      simp only [norm, hr]
      obtain ⟨hm, hn⟩ := h1 f (by simp)
      have hs : some (firstSeg f r) = f.seg := by
        unfold firstSeg
        by_cases hf : f.seg = some .move
        · rw [if_pos hf, hf]
        · rw [if_neg hf]
          rcases h3 with h3 | ⟨_, hlen, h3⟩
          · exact absurd h3 hf
          · cases hx : r.getLast? with
            | none =>
              have : r = [] := by simpa using hx
              subst this
              simp at hlen
            | some l =>
              rw [List.getLast?_cons, hx] at hl
              simp at hl
              subst hl
              rcases h3 with h3 | ⟨h3, hl⟩ | ⟨h3, hl⟩
              · exact absurd h3 hne
              · simp [hl, h3]
              · simp [hl, h3]
      rw [hs]
      obtain ⟨a, b, c, d⟩ := f
      simp only at hm hn
      rw [hm, hn]

theorem accepted_of_tt {c : UfoContour} (h : TrueTypeContour c) : Accepted c := by
  obtain ⟨hx, h2, hy⟩ := h
  clear hx hy
  cases c with
  | nil => intro p hp; cases hp
  | cons f r =>
    intro p hp
    simp only [List.tail_cons] at hp
    induction r generalizing f with
    | nil => cases hp
    | cons q r ih =>
      rw [List.isChain_cons_cons] at h2
      rcases List.mem_cons.1 hp with rfl | hp
      · rcases h2.1 with h | ⟨h, _⟩ | ⟨h, _⟩
        · exact .inl h
        · exact .inr (.inr h)
        · exact .inr (.inl h)
      · exact ih q h2.2 hp

/-- **C67** What is drawn into a glyph can be read back: TrueType contours that begin on the curve (without smooth points and point
names), drawn with the point pen of the glyph, are appended to its nodes, and when the glyph is drawn to another point pen they
come out just like that, in every master, after the contours that were there before. -/
theorem C67_round_trip (n : Nat) (order : List PyStr) (cs : List UfoContour) (hcs : ∀ c ∈ cs, TrueTypeContour c) (old : List MMNode)
    (comps : Option (List Component)) :
    ∃ new, runPen n order ⟨⟨some old, comps⟩, none⟩ (cs.flatMap contourCalls) = (⟨⟨some (old ++ new), comps⟩, none⟩, none) ∧
      ∀ m, m < n → ∀ outs rename, extractContours old [] m false = .ok (outs, rename) →
        extractContours (old ++ new) [] m false = .ok (outs ++ cs, rename) := by
  have hne : ∀ c ∈ cs, c ≠ [] := by
    rintro c hc rfl
    obtain ⟨_, _, f, l, hf, _⟩ := hcs [] hc
    cases hf
  refine ⟨cs.flatMap (penNodes n), ?_, ?_⟩
  · by_cases h : cs = []
    · subst h; simp [runPen]
    · rw [runPen_contours n order cs _ (fun c hc => accepted_of_tt (hcs c hc)) h]
      simp
  · intro m hm outs rename ho
    rw [extract_drawn hm ho cs hne]
    congr 3
    conv_rhs => rw [← List.map_id cs]
    exact List.map_congr_left fun c hc => (norm_iff c (hne c hc)).2 (hcs c hc)

/-- **C67** These are the only contours that come back unchanged: if a contour is drawn into an empty glyph without an exception and
is read back just like that, then it is such a contour. -/
theorem C67_only (n m : Nat) (hm : m < n) (order : List PyStr) (c : UfoContour) (hc : c ≠ []) {pen : PointPen} {nodes : List MMNode}
    (h : runPen n order ⟨⟨some [], none⟩, none⟩ (contourCalls c) = (pen, none)) (hn : pen.target.nodes = some nodes)
    {rename : List (PyStr × PyStr)} (hr : extractContours nodes [] m false = .ok ([c], rename)) : TrueTypeContour c := by
  have hacc : Accepted c := by
    intro p hp
    by_contra hcon
    -- the first point that is not accepted
    cases c with
    | nil => cases hp
    | cons f r =>
      simp only [List.tail_cons] at hp
      have key : ∀ (r : UfoContour) (path : List MMNode), path ≠ [] → p ∈ r → ∀ t pen',
          runPen n order ⟨t, some path⟩ (r.map (fun p => PenCall.addPoint ((p.pt.1 : Rat), (p.pt.2 : Rat)) p.seg p.smooth p.name) ++ [.endPath]) ≠ (pen', none) := by
        intro r
        induction r with
        | nil => intro path _ hp; cases hp
        | cons q r ih =>
          intro path hpath hp t pen' hrun
          simp only [List.map_cons, List.cons_append, runPen, penStep, penNode, List.isEmpty_iff, if_neg hpath] at hrun
          rcases List.mem_cons.1 hp with rfl | hp
          · cases hs : p.seg with
            | none => exact hcon (.inl hs)
            | some k =>
              cases k
              · rw [hs] at hrun; simp at hrun
              · exact hcon (.inr (.inl hs))
              · rw [hs] at hrun; simp at hrun
              · exact hcon (.inr (.inr hs))
          · cases hs : q.seg with
            | none => rw [hs] at hrun; exact ih _ (by simp) hp _ _ hrun
            | some k =>
              rw [hs] at hrun
              cases k
              · simp at hrun
              · exact ih _ (by simp) hp _ _ hrun
              · simp at hrun
              · exact ih _ (by simp) hp _ _ hrun
      unfold contourCalls at h
      simp only [List.map_cons, List.append_assoc, List.cons_append, List.nil_append, runPen, penStep, penNode, List.isEmpty_nil, if_true] at h
      exact key r _ (by simp) hp _ _ h
  rw [runPen_contour n order _ c hacc] at h
  injection h with h _
  subst h
  simp at hn
  subst hn
  have he := extract_drawn (n := n) hm (old := []) (outs := []) (rename := []) rfl [c] (by simpa using hc)
  simp only [List.nil_append, List.flatMap_cons, List.flatMap_nil, List.append_nil, List.map_cons, List.map_nil] at he
  rw [he] at hr
  simp only [Except.ok.injEq, Prod.mk.injEq, List.cons.injEq, and_true] at hr
  exact (norm_iff c hc).1 hr.1

/-- **C67** A point of type "move" or "curve" after the first point raises ValueError, and nothing of the contour gets into the glyph. -/
theorem C67_unsupported (n : Nat) (order : List PyStr) (t : MasterData) (f : UfoPoint) (pre : UfoContour) (p : UfoPoint) (post : List PenCall)
    (hpre : ∀ q ∈ pre, q.seg = none ∨ q.seg = some .line ∨ q.seg = some .qcurve) (hp : p.seg = some .curve ∨ p.seg = some .move) :
    ∃ path, runPen n order ⟨t, none⟩ (.beginPath :: ((f :: pre ++ [p]).map fun p => .addPoint ((p.pt.1 : Rat), (p.pt.2 : Rat)) p.seg p.smooth p.name) ++ post) =
      (⟨t, some path⟩, some .value) := by
  have hr := runPen_rest n order t pre [⟨.move, some (if f.seg = some .move then 8 else 0), List.replicate n [f.pt]⟩] (by simp) hpre
  refine ⟨([⟨.move, some (if f.seg = some .move then 8 else 0), List.replicate n [f.pt]⟩] : List MMNode) ++ pre.map (restNode n), ?_⟩
  simp only [List.cons_append, runPen, penStep, List.map_cons, List.map_append, List.append_assoc]
  simp only [penNode, List.isEmpty_nil, if_true, roundEven_int, List.nil_append]
  rw [runPen_append, hr]
  simp only [List.map_nil, List.cons_append, List.nil_append, runPen, penStep, penNode]
  rcases hp with hp | hp <;> rw [hp] <;> simp

/-- **C67** In every contour that is accepted, all points keep their coordinates and their order, and later points stay on or off
the curve; a contour with more than one point stays open or closed.  The first point always becomes a point on the curve. -/
theorem C67_points (n m : Nat) (hm : m < n) (order : List PyStr) (f : UfoPoint) (r : UfoContour)
    (ha : ∀ p ∈ r, p.seg = none ∨ p.seg = some .line ∨ p.seg = some .qcurve) :
    ∃ nodes out, runPen n order ⟨⟨some [], none⟩, none⟩ (contourCalls (f :: r)) = (⟨⟨some nodes, none⟩, none⟩, none) ∧
      extractContours nodes [] m false = .ok ([out], []) ∧ out.map UfoPoint.pt = (f :: r).map UfoPoint.pt ∧
      out.tail.map onCurve = r.map onCurve ∧ (∃ k, out.head?.bind UfoPoint.seg = some k ∧ (r ≠ [] → (k = .move ↔ f.seg = some .move))) := by
  refine ⟨penNodes n (f :: r), norm (f :: r), ?_, ?_, ?_, ?_, ?_⟩
  · rw [runPen_contour n order _ (f :: r) ha]
    simp
  · have he := extract_drawn (n := n) hm (old := []) (outs := []) (rename := []) rfl [f :: r] (by simp)
    simpa using he
  · have : ∀ (r : UfoContour) (b : Bool), (normRest b r).map UfoPoint.pt = r.map UfoPoint.pt := by
      intro r
      induction r with
      | nil => intro b; rfl
      | cons p r ih => intro b; simp [normRest, ih]
    simp [norm, this]
  · have : ∀ (r : UfoContour) (b : Bool), (normRest b r).map onCurve = r.map onCurve := by
      intro r
      induction r with
      | nil => intro b; rfl
      | cons p r ih =>
        intro b
        simp only [normRest, List.map_cons, ih]
        congr 1
        unfold onCurve restSeg
        simp only
        by_cases h : p.seg = none
        · simp [h]
        · obtain ⟨k, hk⟩ := Option.ne_none_iff_exists'.1 h
          simp [hk]
    simp [norm, this]
  · refine ⟨firstSeg f r, rfl, ?_⟩
    intro hr
    unfold firstSeg
    by_cases hf : f.seg = some .move
    · simp [hf]
    · rw [if_neg hf]
      cases hl : r.getLast? with
      | none => exact absurd (by simpa using hl) hr
      | some l =>
        simp only [hf, iff_false]
        split <;> simp

/-- **C67** (Known defect) A contour that begins off the curve is changed: its first point is read back as a point on the curve. -/
theorem C67_off_curve_start (n m : Nat) (hm : m < n) (order : List PyStr) (f : UfoPoint) (r : UfoContour) (hf : f.seg = none) (hr : r ≠ [])
    (ha : ∀ p ∈ r, p.seg = none ∨ p.seg = some .line ∨ p.seg = some .qcurve) :
    ∃ nodes out, runPen n order ⟨⟨some [], none⟩, none⟩ (contourCalls (f :: r)) = (⟨⟨some nodes, none⟩, none⟩, none) ∧
      extractContours nodes [] m false = .ok ([out], []) ∧ out.map onCurve ≠ (f :: r).map onCurve := by
  obtain ⟨nodes, out, h1, h2, h3, h4, k, h5, h6⟩ := C67_points n m hm order f r ha
  refine ⟨nodes, out, h1, h2, ?_⟩
  cases out with
  | nil => simp at h5
  | cons o out =>
    simp at h5
    simp [onCurve, h5, hf]

/-- **C67** Coordinates that are not whole numbers are rounded to the nearest one. -/
theorem C67_rounded (n : Nat) (order : List PyStr) (pen : PointPen) (x y : Rat) (seg : Option PathCommand) (smooth : Bool) (name : Option PyStr) :
    ∃ i j : Int, |x - i| ≤ 1 / 2 ∧ |y - j| ≤ 1 / 2 ∧
      penStep n order pen (.addPoint (x, y) seg smooth name) = penStep n order pen (.addPoint ((i : Rat), (j : Rat)) seg smooth name) := by
  refine ⟨roundEven x, roundEven y, ?_, ?_, ?_⟩
  · have := roundEven_err x
    rwa [abs_sub_comm] at this
  · have := roundEven_err y
    rwa [abs_sub_comm] at this
  · simp only [penStep, penNode, roundEven_int]

end Verif.Props
