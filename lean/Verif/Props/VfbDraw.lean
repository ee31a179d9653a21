import Verif.Spec.VfbPens
import Verif.Props.UfoPaths
/-! C68, C69: a glyph is drawn to a segment pen or directly to a point pen. -/
set_option autoImplicit false
namespace Verif.Props
open Verif Verif.Spec

theorem nodeIs_get {labels : List (Int × PyStr)} {m i : Nat} {n : MMNode} {a : MasterNode} (h : NodeIs labels m i n a) :
    ∃ rest, pyIndex n.points (m : Int) = .ok (a.pt :: rest) ∧ n.type = a.kind ∧ flagOpen (n.flags.getD 0) = a.isOpen ∧
      (a.kind = .curve → ∃ c1 c2, rest = [c1, c2] ∧ a.ctrl = [c1, c2]) := by
  obtain ⟨h1, _, ⟨flags, h2, _, h3⟩, rest, h4, h5⟩ := h
  refine ⟨rest, pyIndex_of_get h4, h1.symm, ?_, ?_⟩
  · rw [h2]
    exact bool_iff h3
  · intro hk
    rw [if_pos hk] at h5
    obtain ⟨c1, c2, hc⟩ := List.length_eq_two.1 h5.2
    exact ⟨c1, c2, by rw [h5.1, hc], hc⟩

/-- a run of off-curve points does not go on with a cubic curve -/
def RunOk (pending : Bool) (l : List MasterNode) : Prop :=
  NotMixed l ∧ (pending = true → ∀ a, l.head? = some a → a.kind ≠ .curve)

theorem runOk_cons {p : Bool} {a : MasterNode} {l : List MasterNode} (h : RunOk p (a :: l)) : RunOk (decide (a.kind = .qcurve)) l := by
  obtain ⟨h1, _⟩ := h
  cases l with
  | nil => exact ⟨.nil, by simp⟩
  | cons b l =>
    unfold NotMixed at h1
    rw [List.isChain_cons_cons] at h1
    refine ⟨h1.2, ?_⟩
    intro hp x hx
    simp at hp hx
    subst hx
    intro hb
    exact h1.1 ⟨hp, hb⟩

/-- the nodes after the "move" -/
theorem draw_rest {m : Nat} (l : List MasterNode) : ∀ (ns more : List MMNode) (k : Nat) (st : DrawState), ns.length = l.length →
    (∀ (i : Nat) n a, ns[i]? = some n → l[i]? = some a → NodeIs [] m (k + i) n a) → (∀ x ∈ l, x.kind ≠ .move) →
    st.inQcurve = !st.qcurve.isEmpty → RunOk st.inQcurve l →
    (ns ++ more).foldlM (drawStep m) st = more.foldlM (drawStep m) { st with
      calls := st.calls ++ (readNodesAs st.qcurve l).1.flatMap segmentCall
      inQcurve := !(readNodesAs st.qcurve l).2.isEmpty
      qcurve := (readNodesAs st.qcurve l).2 } := by
  induction l with
  | nil =>
    intro ns more k st hl _ _ hq _
    have : ns = [] := by simpa using hl
    subst this
    obtain ⟨a, b, c, d, e⟩ := st
    simp only at hq
    simp only [readNodesAs, List.nil_append, List.flatMap_nil, List.append_nil, ← hq]
  | cons a l ih =>
    intro ns more k st hl hn hm hq hr
    cases ns with
    | nil => simp at hl
    | cons n ns =>
      obtain ⟨hna, hn'⟩ := nodesAre_tail hn
      obtain ⟨rest, g1, g2, g3, g4⟩ := nodeIs_get hna
      have hr' := runOk_cons hr
      have hstep := ih ns more (k + 1)
      have hm' : ∀ x ∈ l, x.kind ≠ .move := fun x hx => hm x (by simp [hx])
      have hl' : ns.length = l.length := by simpa using hl
      have h0 : pyIndex (a.pt :: rest) 0 = .ok a.pt := rfl
      simp only [List.cons_append, List.foldlM_cons, drawStep, g1, g2, h0, bind, Except.bind]
      cases hk : a.kind with
      | move => exact absurd hk (hm a (by simp))
      | line =>
        rw [hk] at hr'
        by_cases hp : st.qcurve = []
        · have hq' : st.inQcurve = false := by rw [hq]; simp [hp]
          simp only [hq', Bool.false_eq_true, if_false]
          have := hstep { st with calls := st.calls ++ [.lineTo a.pt] } hl' hn' hm' hq (by simpa [hq'] using hr')
          simp only [bind, Except.bind, hq'] at this ⊢
          rw [this]
          simp [readNodesAs, hk, hp, segmentCall, List.append_assoc]
        · have hq' : st.inQcurve = true := by rw [hq]; simp [hp]
          simp only [hq', if_true]
          have := hstep ⟨st.calls ++ [.qCurveTo (st.qcurve ++ [a.pt])], st.isOpen, st.inPath, false, []⟩ hl' hn' hm' (by simp) (by simpa using hr')
          simp only [bind, Except.bind] at this ⊢
          rw [this]
          simp [readNodesAs, hk, hp, segmentCall, List.append_assoc]
      | curve =>
        rw [hk] at hr'
        obtain ⟨c1, c2, hc1, hc2⟩ := g4 hk
        subst hc1
        have hq' : st.inQcurve = false := by
          by_contra hcon
          simp at hcon
          exact hr.2 hcon a rfl hk
        have hp : st.qcurve = [] := by
          rw [hq'] at hq
          simpa using hq.symm
        have := hstep { st with calls := st.calls ++ [.curveTo c1 c2 a.pt] } hl' hn' hm' hq (by simpa [hq'] using hr')
        simp only [bind, Except.bind] at this ⊢
        rw [this]
        simp [readNodesAs, hk, hp, segmentCall, hc2, List.append_assoc]
      | qcurve =>
        rw [hk] at hr'
        have := hstep ⟨st.calls, st.isOpen, st.inPath, true, st.qcurve ++ [a.pt]⟩ hl' hn' hm' (by simp) (by simpa using hr')
        simp only [bind, Except.bind] at this ⊢
        rw [this]
        simp [readNodesAs, hk]

/-- the calls for a contour without the end of the path -/
def openCalls (c : List MasterNode) : List SegCall :=
  match c with
  | [] => []
  | mv :: rest => [.moveTo mv.pt] ++ (readNodesAs [] rest).1.flatMap segmentCall

def isOpenOf (c : List MasterNode) : Bool := (c.head?.map MasterNode.isOpen).getD false

theorem contourSegCalls_eq {c : List MasterNode} (h : IsContour c) : contourSegCalls c = openCalls c ++ [closeCall (isOpenOf c)] := by
  obtain ⟨mv, rest, rfl, _, _⟩ := h
  cases h : mv.isOpen <;> simp [contourSegCalls, openCalls, closeCall, isOpenOf, h]

/-- the state after a contour -/
def afterContour (calls : List SegCall) (c : List MasterNode) : DrawState :=
  ⟨calls ++ openCalls c, isOpenOf c, true, !(trailing c).isEmpty, trailing c⟩

/-- the first contour -/
theorem draw_contour {m : Nat} {mv : MasterNode} {rest : List MasterNode} {ns more : List MMNode} {k : Nat} {st : DrawState}
    (hl : ns.length = (mv :: rest).length)
    (hn : ∀ (i : Nat) n a, ns[i]? = some n → (mv :: rest)[i]? = some a → NodeIs [] m (k + i) n a)
    (hmv : mv.kind = .move) (hm : ∀ x ∈ rest, x.kind ≠ .move) (hmix : NotMixed (mv :: rest)) :
    (ns ++ more).foldlM (drawStep m) st = more.foldlM (drawStep m) (afterContour
      (st.calls ++ (if st.inQcurve then [.qCurveTo (st.qcurve ++ [mv.pt])] else []) ++ (if st.inPath then [closeCall st.isOpen] else [])) (mv :: rest)) := by
  cases ns with
  | nil => simp at hl
  | cons n ns =>
    obtain ⟨hna, hn'⟩ := nodesAre_tail hn
    obtain ⟨r, g1, g2, g3, g4⟩ := nodeIs_get hna
    have h0 : pyIndex (mv.pt :: r) 0 = .ok mv.pt := rfl
    have hr' : RunOk (decide (mv.kind = .qcurve)) rest := runOk_cons (p := false) ⟨hmix, by simp⟩
    rw [hmv] at hr'
    have hr'' : RunOk false rest := by simpa using hr'
    simp only [List.cons_append, List.foldlM_cons, drawStep, g1, g2, h0, hmv, bind, Except.bind]
    have key := fun calls => draw_rest rest ns more (k + 1) ⟨calls ++ [.moveTo mv.pt], flagOpen (n.flags.getD 0), true, false, []⟩
      (by simpa using hl) hn' hm (by simp) hr''
    simp only [bind, Except.bind] at key
    rw [key]
    simp only [afterContour, openCalls, trailing, List.tail_cons, g3, isOpenOf, List.head?_cons, Option.map_some, Option.getD_some]
    congr 2
    cases hq : st.inQcurve <;> cases hp : st.inPath <;> simp [List.append_assoc]

/-- what is drawn for the contours from the state after one of them on -/
def drawnFrom (st : DrawState) : List (List MasterNode) → List SegCall
  | [] => st.calls ++ (if st.inPath then [closeCall st.isOpen] else [])
  | c :: cs => drawnFrom (afterContour (st.calls ++ (if st.inQcurve then [.qCurveTo (st.qcurve ++ startOf c)] else []) ++
      (if st.inPath then [closeCall st.isOpen] else [])) c) cs

theorem draw_contours {m : Nat} : ∀ (cs : List (List MasterNode)) (nodes : List MMNode) (k : Nat) (st : DrawState),
    nodes.length = cs.flatten.length →
    (∀ (i : Nat) n a, nodes[i]? = some n → cs.flatten[i]? = some a → NodeIs [] m (k + i) n a) →
    (∀ c ∈ cs, IsContour c) → (∀ c ∈ cs, NotMixed c) →
    ∃ st', nodes.foldlM (drawStep m) st = .ok st' ∧ st'.calls ++ (if st'.inPath then [closeCall st'.isOpen] else []) = drawnFrom st cs := by
  intro cs
  induction cs with
  | nil =>
    intro nodes k st hl _ _ _
    have : nodes = [] := by simpa using hl
    subst this
    exact ⟨st, rfl, rfl⟩
  | cons c cs ih =>
    intro nodes k st hl hn hc hmix
    have hcc := hc c (by simp)
    obtain ⟨mv, rest, rfl, hmv, hm⟩ := hcc
    rw [List.flatten_cons] at hl hn
    rw [List.length_append] at hl
    have hsplit : nodes = nodes.take (mv :: rest).length ++ nodes.drop (mv :: rest).length := (List.take_append_drop _ _).symm
    generalize ha : nodes.take (mv :: rest).length = a at hsplit
    generalize hb : nodes.drop (mv :: rest).length = b at hsplit
    have hla : a.length = (mv :: rest).length := by rw [← ha, List.length_take]; omega
    have hlb : b.length = cs.flatten.length := by rw [← hb, List.length_drop]; omega
    subst hsplit
    rw [draw_contour (k := k) hla (by
      intro i n x h1 h2
      refine hn i n x ?_ ?_
      · rw [List.getElem?_append_left (List.getElem?_eq_some_iff.1 h1).1]; exact h1
      · rw [List.getElem?_append_left (List.getElem?_eq_some_iff.1 h2).1]; exact h2) hmv hm (hmix _ (by simp))]
    obtain ⟨st', h1, h2⟩ := ih b (k + (mv :: rest).length) (afterContour
      (st.calls ++ (if st.inQcurve then [.qCurveTo (st.qcurve ++ [mv.pt])] else []) ++ (if st.inPath then [closeCall st.isOpen] else [])) (mv :: rest))
      hlb (by
        intro i n x h1 h2
        have := hn ((mv :: rest).length + i) n x (by rw [List.getElem?_append_right (by omega), hla]; simpa using h1)
          (by rw [List.getElem?_append_right (by omega)]; simpa using h2)
        rw [Nat.add_assoc]
        exact this) (fun c h => hc c (by simp [h])) (fun c h => hmix c (by simp [h]))
    refine ⟨st', h1, ?_⟩
    rw [h2]
    rfl

theorem readNodesAs_line (p : List Point) (l : List MasterNode) (q : Point) :
    (readNodesAs p (l ++ [⟨.line, false, false, none, q, []⟩])).1 =
      (readNodesAs p l).1 ++ [⟨if (readNodesAs p l).2 = [] then .line else .qcurve, (readNodesAs p l).2, q⟩] := by
  rw [readNodesAs_append]
  simp [readNodesAs]

/-- after a contour, the rest is drawn -/
theorem drawnFrom_after (calls : List SegCall) : ∀ (cs : List (List MasterNode)) (c : List MasterNode), IsContour c → (∀ c ∈ cs, IsContour c) →
    drawnFrom (afterContour calls c) cs = calls ++ (runOn (c :: cs)).flatMap contourSegCalls := by
  intro cs
  induction cs generalizing calls with
  | nil =>
    intro c hc _
    simp [drawnFrom, afterContour, runOn, contourSegCalls_eq hc]
  | cons c' cs ih =>
    intro c hc hcs
    have hc' := hcs c' (by simp)
    rw [drawnFrom, ih _ c' hc' fun x hx => hcs x (by simp [hx])]
    simp only [runOn, List.flatMap_cons, afterContour, if_true]
    rw [← List.append_assoc]
    congr 1
    by_cases ht : trailing c = []
    · simp [ht, contourSegCalls_eq hc]
    · obtain ⟨mv, rest, rfl, _, _⟩ := hc
      obtain ⟨mv', rest', rfl, _, _⟩ := hc'
      have ht' : (readNodesAs [] rest).2 ≠ [] := ht
      simp only [ht, decide_true, if_true, if_false, ne_eq, not_false_iff]
      simp only [startOf, List.head?_cons, Option.map_some, Option.toList_some, List.map_cons, List.map_nil, List.cons_append, contourSegCalls,
        readNodesAs_line, openCalls, isOpenOf, Option.getD_some, closeCall, trailing, List.tail_cons, if_neg ht']
      rcases Bool.eq_false_or_eq_true mv.isOpen with hmo | hmo <;> simp [segmentCall, List.append_assoc, hmo, ht']

theorem drawn_all (cs : List (List MasterNode)) (h : ∀ c ∈ cs, IsContour c) :
    drawnFrom ⟨[], false, false, false, []⟩ cs = (runOn cs).flatMap contourSegCalls := by
  cases cs with
  | nil => rfl
  | cons c cs =>
    have := drawnFrom_after [] cs c (h c (by simp)) fun x hx => h x (by simp [hx])
    simpa [drawnFrom] using this

theorem runOn_same : ∀ (cs : List (List MasterNode)), (∀ c ∈ cs.dropLast, trailing c = []) → runOn cs = cs := by
  intro cs
  induction cs with
  | nil => intro _; rfl
  | cons c cs ih =>
    intro h
    cases cs with
    | nil => rfl
    | cons c' cs =>
      simp only [List.dropLast_cons₂] at h
      rw [runOn, if_pos (h c (by simp)), ih fun x hx => h x (by simp [hx])]

/-- what is drawn for any contours without mixed curves -/
theorem draw_exact {order : List PyStr} {m : Nat} {nodes : List MMNode} {cs : List (List MasterNode)} {comps : List Component} {ccalls : List SegCall}
    (hn : NodesAre [] m nodes cs.flatten) (hc : ∀ c ∈ cs, IsContour c) (hmix : ∀ c ∈ cs, NotMixed c)
    (hcomps : comps.mapM (drawComponent order m) = .ok ccalls) :
    drawGlyph order m nodes comps = .ok ((runOn cs).flatMap contourSegCalls ++ ccalls) := by
  obtain ⟨st, h1, h2⟩ := draw_contours cs nodes 0 ⟨[], false, false, false, []⟩ hn.1 (by simpa using hn.2) hc hmix
  rw [drawn_all cs hc] at h2
  simp only [drawGlyph, h1, hcomps, bind, Except.bind]
  rw [← h2]
  cases st.inPath <;> simp

theorem components_drawn {order : List PyStr} {m : Nat} {comps : List Component} {ccalls : List SegCall}
    (h : Corresponds (DrawnComponent order m) comps ccalls) : comps.mapM (drawComponent order m) = .ok ccalls := by
  rw [mapM_ok_iff]
  apply List.ext_getElem?
  intro k
  rw [List.getElem?_map, List.getElem?_map]
  by_cases hk : k < comps.length
  · obtain ⟨hl, h⟩ := h
    obtain ⟨i, base, sx, sy, ox, oy, h1, h2, h3, h4, h5, h6, h7⟩ := h k comps[k] ccalls[k] (List.getElem?_eq_getElem hk) (List.getElem?_eq_getElem (by omega))
    rw [List.getElem?_eq_getElem hk, List.getElem?_eq_getElem (by omega), h7]
    simp only [Option.map_some, drawComponent, h1, pyIndex_of_get h2, pyIndex_of_get h3, pyIndex_of_get h4, pyIndex_of_get h5, pyIndex_of_get h6, bind, Except.bind]
  · rw [List.getElem?_eq_none (by omega), List.getElem?_eq_none (by rw [← h.1]; omega)]
    rfl

theorem direct_components {order : List PyStr} {m : Nat} {comps : List Component} {ccalls : List PointCall}
    (h : Corresponds (DirectComponent order m) comps ccalls) : comps.mapM (directComponent order m) = .ok ccalls := by
  rw [mapM_ok_iff]
  apply List.ext_getElem?
  intro k
  rw [List.getElem?_map, List.getElem?_map]
  by_cases hk : k < comps.length
  · obtain ⟨hl, h⟩ := h
    obtain ⟨i, base, sx, sy, ox, oy, h1, h2, h3, h4, h5, h6, h7⟩ := h k comps[k] ccalls[k] (List.getElem?_eq_getElem hk) (List.getElem?_eq_getElem (by omega))
    rw [List.getElem?_eq_getElem hk, List.getElem?_eq_getElem (by omega), h7]
    simp only [Option.map_some, directComponent, h1, pyIndex_of_get h2, pyIndex_of_get h3, pyIndex_of_get h4, pyIndex_of_get h5, pyIndex_of_get h6, bind, Except.bind]
  · rw [List.getElem?_eq_none (by omega), List.getElem?_eq_none (by rw [← h.1]; omega)]
    rfl

/-- **C68** A glyph is drawn to a segment pen: contour after contour, each with its start, its segments and the end of the path
("endPath" for an open, "closePath" for a closed contour), and then the components with the names of their glyphs, if no
contour but the last one ends in quadratic off-curve points and no cubic curve follows such points. -/
theorem C68_drawn {order : List PyStr} {m : Nat} {nodes : List MMNode} {cs : List (List MasterNode)} {comps : List Component} {ccalls : List SegCall}
    (hn : NodesAre [] m nodes cs.flatten) (hc : ∀ c ∈ cs, IsContour c) (hmix : ∀ c ∈ cs, NotMixed c) (ht : ∀ c ∈ cs.dropLast, trailing c = [])
    (hcomps : Corresponds (DrawnComponent order m) comps ccalls) :
    drawGlyph order m nodes comps = .ok (cs.flatMap contourSegCalls ++ ccalls) := by
  rw [draw_exact hn hc hmix (components_drawn hcomps), runOn_same cs ht]

theorem readNodesAs_run (p : List Point) (run : List MasterNode) (h : ∀ x ∈ run, x.kind = .qcurve) :
    readNodesAs p run = ([], p ++ run.map MasterNode.pt) := by
  induction run generalizing p with
  | nil => simp [readNodesAs]
  | cons a run ih =>
    simp only [readNodesAs, h a (by simp)]
    rw [ih _ fun x hx => h x (by simp [hx])]
    simp

/-- **C68** (Known defect) Quadratic off-curve points at the end of the last contour are not drawn. -/
theorem C68_last_run_lost {order : List PyStr} {m : Nat} {nodes : List MMNode} {cs : List (List MasterNode)} {c run : List MasterNode}
    {comps : List Component} {ccalls : List SegCall} (hrun : ∀ x ∈ run, x.kind = .qcurve)
    (hn : NodesAre [] m nodes (cs ++ [c ++ run]).flatten) (hc : ∀ x ∈ cs ++ [c], IsContour x) (hmix : ∀ x ∈ cs ++ [c ++ run], NotMixed x)
    (ht : ∀ x ∈ cs ++ [c], trailing x = []) (hcomps : Corresponds (DrawnComponent order m) comps ccalls) :
    drawGlyph order m nodes comps = .ok ((cs ++ [c]).flatMap contourSegCalls ++ ccalls) := by
  obtain ⟨mv, rest, rfl, hmv, hrest⟩ := hc c (by simp)
  rw [C68_drawn hn (by
    intro x hx
    rcases List.mem_append.1 hx with hx | hx
    · exact hc x (by simp [hx])
    · simp at hx
      subst hx
      refine ⟨mv, rest ++ run, rfl, hmv, ?_⟩
      intro y hy
      rcases List.mem_append.1 hy with hy | hy
      · exact hrest y hy
      · rw [hrun y hy]; simp) hmix (by
    intro x hx
    rw [List.dropLast_concat] at hx
    exact ht x (by simp [hx])) hcomps]
  have h0 : (readNodesAs [] rest).2 = [] := ht (mv :: rest) (by simp)
  simp [contourSegCalls, readNodesAs_append, h0, readNodesAs_run _ run hrun]

/-- **C68** (Known defect) Quadratic off-curve points at the end of another contour are drawn as a curve to the start of the next
contour, instead of the start of their own contour. -/
theorem C68_run_goes_on {order : List PyStr} {m : Nat} {nodes : List MMNode} {c run : List MasterNode} {next : MasterNode} {rest : List MasterNode}
    {cs : List (List MasterNode)} {comps : List Component} {ccalls : List SegCall} (hrun : ∀ x ∈ run, x.kind = .qcurve) (hne : run ≠ [])
    (hn : NodesAre [] m nodes ((c ++ run) :: (next :: rest) :: cs).flatten) (hc : ∀ x ∈ c :: (next :: rest) :: cs, IsContour x)
    (hmix : ∀ x ∈ (c ++ run) :: (next :: rest) :: cs, NotMixed x) (ht : ∀ x ∈ c :: (next :: rest) :: cs, trailing x = [])
    (hcomps : Corresponds (DrawnComponent order m) comps ccalls) :
    ∃ calls last, contourSegCalls c = calls ++ [last] ∧
      drawGlyph order m nodes comps = .ok (calls ++ [.qCurveTo (run.map MasterNode.pt ++ [next.pt])] ++ [last] ++
        ((next :: rest) :: cs).flatMap contourSegCalls ++ ccalls) := by
  obtain ⟨mv, r, rfl, hmv, hr⟩ := hc c (by simp)
  have hc' : ∀ x ∈ (mv :: r ++ run) :: (next :: rest) :: cs, IsContour x := by
    intro x hx
    rcases List.mem_cons.1 hx with rfl | hx
    · refine ⟨mv, r ++ run, rfl, hmv, ?_⟩
      intro y hy
      rcases List.mem_append.1 hy with hy | hy
      · exact hr y hy
      · rw [hrun y hy]; simp
    · exact hc x (List.mem_cons_of_mem _ hx)
  rw [draw_exact hn hc' hmix (components_drawn hcomps)]
  have h0 : (readNodesAs [] r).2 = [] := ht (mv :: r) (by simp)
  have htr : trailing (mv :: r ++ run) = run.map MasterNode.pt := by
    simp [trailing, readNodesAs_append, h0, readNodesAs_run _ run hrun]
  have hne' : trailing (mv :: r ++ run) ≠ [] := by rw [htr]; simpa using hne
  refine ⟨openCalls (mv :: r), closeCall mv.isOpen, contourSegCalls_eq ⟨mv, r, rfl, hmv, hr⟩, ?_⟩
  rw [runOn, if_neg hne', runOn_same _ fun x hx => ht x (List.mem_cons_of_mem _ ((List.dropLast_sublist _).subset hx))]
  congr 2
  rw [List.flatMap_cons]
  congr 1
  simp only [startOf, List.head?_cons, Option.map_some, Option.toList_some, List.map_cons, List.map_nil]
  have hl := readNodesAs_line [] (r ++ run) next.pt
  have h2 : (readNodesAs [] (r ++ run)).2 = run.map MasterNode.pt := htr
  have h1 : (readNodesAs [] (r ++ run)).1 = (readNodesAs [] r).1 := by
    rw [readNodesAs_append, h0, readNodesAs_run _ run hrun]
    simp
  rw [h1, h2, if_neg (by simpa using hne)] at hl
  simp only [contourSegCalls, List.cons_append, hl, openCalls, closeCall]
  cases hmo : mv.isOpen <;> simp [segmentCall, hmo]

/-- **C68** (Known defect) If a cubic curve comes directly after quadratic off-curve points, the points of both are drawn in a
different order, and the quadratic curve ends somewhere else: at the end of the segment after the cubic curve. -/
theorem C68_mixed (order : List PyStr) (a q p c1 c2 d : Point) :
    drawGlyph order 0 [⟨.move, some 0, [[a]]⟩, ⟨.qcurve, some 0, [[q]]⟩, ⟨.curve, some 0, [[p, c1, c2]]⟩, ⟨.line, some 0, [[d]]⟩] [] =
      .ok [.moveTo a, .curveTo c1 c2 p, .qCurveTo [q, d], .closePath] := rfl

/-! ### C69 -/

/-- the nodes after the "move" -/
theorem direct_rest {m : Nat} (l : List MasterNode) : ∀ (ns more : List MMNode) (k : Nat) (st : DirectState), ns.length = l.length →
    (∀ (i : Nat) n a, ns[i]? = some n → l[i]? = some a → NodeIs [] m (k + i) n a) → (∀ x ∈ l, x.kind ≠ .move) → RunOk st.inQcurve l →
    (ns ++ more).foldlM (directStep m) st = more.foldlM (directStep m) { st with
      calls := st.calls ++ (nodePts st.inQcurve l).map (fun p => .addPoint p.pt p.seg)
      inQcurve := endQ st.inQcurve l } := by
  induction l with
  | nil =>
    intro ns more k st hl _ _ _
    have : ns = [] := by simpa using hl
    subst this
    simp [nodePts, endQ]
  | cons a l ih =>
    intro ns more k st hl hn hm hr
    cases ns with
    | nil => simp at hl
    | cons n ns =>
      obtain ⟨hna, hn'⟩ := nodesAre_tail hn
      obtain ⟨rest, g1, g2, g3, g4⟩ := nodeIs_get hna
      have hr' := runOk_cons hr
      have hstep := ih ns more (k + 1)
      have hm' : ∀ x ∈ l, x.kind ≠ .move := fun x hx => hm x (by simp [hx])
      have hl' : ns.length = l.length := by simpa using hl
      have h0 : pyIndex (a.pt :: rest) 0 = .ok a.pt := rfl
      simp only [List.cons_append, List.foldlM_cons, directStep, g1, g2, h0, bind, Except.bind]
      cases hk : a.kind with
      | move => exact absurd hk (hm a (by simp))
      | line =>
        rw [hk] at hr'
        have := hstep ⟨st.calls ++ [.addPoint a.pt (some (if st.inQcurve then .qcurve else .line))], st.inPath, false⟩ hl' hn' hm' (by simpa using hr')
        simp only [bind, Except.bind] at this ⊢
        rw [this]
        simp [nodePts, hk, endQ]
      | curve =>
        rw [hk] at hr'
        obtain ⟨c1, c2, hc1, hc2⟩ := g4 hk
        subst hc1
        have hq' : st.inQcurve = false := by
          by_contra hcon
          simp at hcon
          exact hr.2 hcon a rfl hk
        have := hstep { st with calls := st.calls ++ [.addPoint c1 none, .addPoint c2 none, .addPoint a.pt (some .curve)] } hl' hn' hm' (by simpa [hq'] using hr')
        simp only [bind, Except.bind, hq'] at this ⊢
        rw [this]
        simp [nodePts, hk, endQ, hc2]
      | qcurve =>
        rw [hk] at hr'
        have := hstep ⟨st.calls ++ [.addPoint a.pt none], st.inPath, true⟩ hl' hn' hm' (by simpa using hr')
        simp only [bind, Except.bind] at this ⊢
        rw [this]
        simp [nodePts, hk, endQ]

/-- the calls for a contour without the end of the path -/
def directCalls (c : List MasterNode) : List PointCall :=
  match c with
  | [] => []
  | mv :: rest => [.beginPath, .addPoint mv.pt (some .move)] ++ (nodePts false rest).map (fun p => .addPoint p.pt p.seg)

def afterDirect (calls : List PointCall) (c : List MasterNode) : DirectState := ⟨calls ++ directCalls c, true, endQ false c.tail⟩

theorem direct_contour {m : Nat} {mv : MasterNode} {rest : List MasterNode} {ns more : List MMNode} {k : Nat} {st : DirectState}
    (hl : ns.length = (mv :: rest).length)
    (hn : ∀ (i : Nat) n a, ns[i]? = some n → (mv :: rest)[i]? = some a → NodeIs [] m (k + i) n a)
    (hmv : mv.kind = .move) (hm : ∀ x ∈ rest, x.kind ≠ .move) (hmix : NotMixed (mv :: rest)) :
    (ns ++ more).foldlM (directStep m) st = more.foldlM (directStep m) (afterDirect
      (st.calls ++ (if st.inQcurve then [.addPoint mv.pt (some .qcurve)] else []) ++ (if st.inPath then [.endPath] else [])) (mv :: rest)) := by
  cases ns with
  | nil => simp at hl
  | cons n ns =>
    obtain ⟨hna, hn'⟩ := nodesAre_tail hn
    obtain ⟨r, g1, g2, g3, g4⟩ := nodeIs_get hna
    have h0 : pyIndex (mv.pt :: r) 0 = .ok mv.pt := rfl
    have hr' : RunOk (decide (mv.kind = .qcurve)) rest := runOk_cons (p := false) ⟨hmix, by simp⟩
    rw [hmv] at hr'
    have hr'' : RunOk false rest := by simpa using hr'
    simp only [List.cons_append, List.foldlM_cons, directStep, g1, g2, h0, hmv, bind, Except.bind]
    have key := fun calls => direct_rest rest ns more (k + 1) ⟨calls ++ [.beginPath, .addPoint mv.pt (some .move)], true, false⟩
      (by simpa using hl) hn' hm hr''
    simp only [bind, Except.bind] at key
    rw [key]
    simp only [afterDirect, directCalls, List.tail_cons]
    congr 2
    cases hq : st.inQcurve <;> cases hp : st.inPath <;> simp [List.append_assoc]

def directFrom (st : DirectState) : List (List MasterNode) → List PointCall
  | [] => st.calls ++ (if st.inPath then [.endPath] else [])
  | c :: cs => directFrom (afterDirect (st.calls ++ (if st.inQcurve then (startOf c).map (fun p => .addPoint p (some .qcurve)) else []) ++
      (if st.inPath then [.endPath] else [])) c) cs

theorem direct_contours {m : Nat} : ∀ (cs : List (List MasterNode)) (nodes : List MMNode) (k : Nat) (st : DirectState),
    nodes.length = cs.flatten.length →
    (∀ (i : Nat) n a, nodes[i]? = some n → cs.flatten[i]? = some a → NodeIs [] m (k + i) n a) →
    (∀ c ∈ cs, IsContour c) → (∀ c ∈ cs, NotMixed c) →
    ∃ st', nodes.foldlM (directStep m) st = .ok st' ∧ st'.calls ++ (if st'.inPath then [.endPath] else []) = directFrom st cs := by
  intro cs
  induction cs with
  | nil =>
    intro nodes k st hl _ _ _
    have : nodes = [] := by simpa using hl
    subst this
    exact ⟨st, rfl, rfl⟩
  | cons c cs ih =>
    intro nodes k st hl hn hc hmix
    have hcc := hc c (by simp)
    obtain ⟨mv, rest, rfl, hmv, hm⟩ := hcc
    rw [List.flatten_cons] at hl hn
    rw [List.length_append] at hl
    have hsplit : nodes = nodes.take (mv :: rest).length ++ nodes.drop (mv :: rest).length := (List.take_append_drop _ _).symm
    generalize ha : nodes.take (mv :: rest).length = a at hsplit
    generalize hb : nodes.drop (mv :: rest).length = b at hsplit
    have hla : a.length = (mv :: rest).length := by rw [← ha, List.length_take]; omega
    have hlb : b.length = cs.flatten.length := by rw [← hb, List.length_drop]; omega
    subst hsplit
    rw [direct_contour (k := k) hla (by
      intro i n x h1 h2
      refine hn i n x ?_ ?_
      · rw [List.getElem?_append_left (List.getElem?_eq_some_iff.1 h1).1]; exact h1
      · rw [List.getElem?_append_left (List.getElem?_eq_some_iff.1 h2).1]; exact h2) hmv hm (hmix _ (by simp))]
    obtain ⟨st', h1, h2⟩ := ih b (k + (mv :: rest).length) (afterDirect
      (st.calls ++ (if st.inQcurve then [.addPoint mv.pt (some .qcurve)] else []) ++ (if st.inPath then [.endPath] else [])) (mv :: rest))
      hlb (by
        intro i n x h1 h2
        have := hn ((mv :: rest).length + i) n x (by rw [List.getElem?_append_right (by omega), hla]; simpa using h1)
          (by rw [List.getElem?_append_right (by omega)]; simpa using h2)
        rw [Nat.add_assoc]
        exact this) (fun c h => hc c (by simp [h])) (fun c h => hmix c (by simp [h]))
    refine ⟨st', h1, ?_⟩
    rw [h2]
    rfl

/-- the points that are drawn for a contour -/
def directContour (c : List MasterNode) : UfoContour :=
  match c with
  | [] => []
  | mv :: rest => rawContour mv rest

theorem pointCalls_eq {c : List MasterNode} (h : IsContour c) : pointCalls (directContour c) = directCalls c ++ [.endPath] := by
  obtain ⟨mv, rest, rfl, _, _⟩ := h
  simp [pointCalls, directContour, rawContour, directCalls]

theorem endQ_trailing (p : List Point) (l : List MasterNode) (h : ∀ x ∈ l, x.kind ≠ .move) :
    endQ (!p.isEmpty) l = !(readNodesAs p l).2.isEmpty := by
  induction l generalizing p with
  | nil => simp [endQ, readNodesAs]
  | cons a l ih =>
    have h' : ∀ x ∈ l, x.kind ≠ .move := fun x hx => h x (by simp [hx])
    cases hk : a.kind with
    | move => exact absurd hk (h a (by simp))
    | line => simpa [endQ, readNodesAs, hk] using ih [] h'
    | curve => simpa [endQ, readNodesAs, hk] using ih [] h'
    | qcurve =>
      have he : (p ++ [a.pt]).isEmpty = false := by cases p <;> rfl
      have := ih (p ++ [a.pt]) h'
      rw [he] at this
      simpa [endQ, readNodesAs, hk] using this

theorem directFrom_after (calls : List PointCall) : ∀ (cs : List (List MasterNode)) (c : List MasterNode), IsContour c → (∀ c ∈ cs, IsContour c) →
    directFrom (afterDirect calls c) cs = calls ++ ((runOn (c :: cs)).map directContour).flatMap pointCalls := by
  intro cs
  induction cs generalizing calls with
  | nil =>
    intro c hc _
    simp [directFrom, afterDirect, runOn, pointCalls_eq hc]
  | cons c' cs ih =>
    intro c hc hcs
    have hc' := hcs c' (by simp)
    rw [directFrom, ih _ c' hc' fun x hx => hcs x (by simp [hx])]
    simp only [runOn, List.map_cons, List.flatMap_cons, afterDirect, if_true]
    rw [← List.append_assoc]
    congr 1
    have hq : endQ false c.tail = !(trailing c).isEmpty := by
      obtain ⟨mv, rest, rfl, _, hr⟩ := hc
      have := endQ_trailing [] rest hr
      simpa [trailing] using this
    by_cases ht : trailing c = []
    · simp [hq, ht, pointCalls_eq hc]
    · rw [if_neg ht]
      obtain ⟨mv, rest, rfl, hmv, hr⟩ := hc
      obtain ⟨mv', rest', rfl, _, _⟩ := hc'
      have ht' : endQ false rest = true := by rw [show rest = (mv :: rest).tail from rfl, hq]; simpa using ht
      simp [startOf, pointCalls, directContour, rawContour, directCalls, nodePts_append, ht', nodePts]

theorem runOn_contours : ∀ (cs : List (List MasterNode)), (∀ c ∈ cs, IsContour c) → ∀ c ∈ runOn cs, IsContour c := by
  intro cs
  induction cs with
  | nil => intro _ c hc; cases hc
  | cons c cs ih =>
    intro h
    cases cs with
    | nil => exact h
    | cons c' cs =>
      intro x hx
      rcases List.mem_cons.1 hx with rfl | hx
      · obtain ⟨mv, rest, rfl, hmv, hr⟩ := h c (by simp)
        by_cases ht : trailing (mv :: rest) = []
        · rw [if_pos ht]; exact ⟨mv, rest, rfl, hmv, hr⟩
        · rw [if_neg ht]
          refine ⟨mv, _, List.cons_append, hmv, ?_⟩
          intro y hy
          rcases List.mem_append.1 hy with hy | hy
          · exact hr y hy
          · obtain ⟨p, _, rfl⟩ := List.mem_map.1 hy
            simp
      · exact ih (fun x hx => h x (by simp [hx])) x hx

theorem direct_exact {order : List PyStr} {m : Nat} {nodes : List MMNode} {cs : List (List MasterNode)} {comps : List Component}
    {ccalls : List PointCall} (hn : NodesAre [] m nodes cs.flatten) (hc : ∀ c ∈ cs, IsContour c) (hmix : ∀ c ∈ cs, NotMixed c)
    (hcomps : Corresponds (DirectComponent order m) comps ccalls) :
    drawDirect order m nodes comps = .ok (((runOn cs).map directContour).flatMap pointCalls ++ ccalls) := by
  obtain ⟨st, h1, h2⟩ := direct_contours cs nodes 0 ⟨[], false, false⟩ hn.1 (by simpa using hn.2) hc hmix
  have : directFrom ⟨[], false, false⟩ cs = ((runOn cs).map directContour).flatMap pointCalls := by
    cases cs with
    | nil => rfl
    | cons c cs =>
      have := directFrom_after [] cs c (hc c (by simp)) fun x hx => hc x (by simp [hx])
      simpa [directFrom] using this
  simp only [drawDirect, h1, direct_components hcomps, bind, Except.bind]
  rw [← this, ← h2]
  cases st.inPath <;> simp

/-- **C69** A glyph is drawn directly to a point pen, contour after contour, each as an open path with the start, the segments and the
off-curve points at the end of the contour, and then the components with the names of their glyphs, if no contour but the last
one ends in quadratic off-curve points and no cubic curve follows such points. -/
theorem C69_drawn {order : List PyStr} {m : Nat} {nodes : List MMNode} {cs : List (List MasterNode)} {comps : List Component}
    {ccalls : List PointCall} (hcomps : Corresponds (DirectComponent order m) comps ccalls) (hn : NodesAre [] m nodes cs.flatten) (hc : ∀ c ∈ cs, IsContour c) (hmix : ∀ c ∈ cs, NotMixed c) (ht : ∀ c ∈ cs.dropLast, trailing c = []) :
    ∃ outs, drawDirect order m nodes comps = .ok (outs.flatMap pointCalls ++ ccalls) ∧
      Corresponds (fun c out => ∃ mv rest, c = mv :: rest ∧
        ufoPath out = some ⟨mv.pt, (readNodesAs [] rest).1, (readNodesAs [] rest).2, false⟩) cs outs := by
  refine ⟨cs.map directContour, ?_, ?_⟩
  · rw [direct_exact hn hc hmix hcomps, runOn_same cs ht]
  · refine ⟨by simp, ?_⟩
    intro k c out h1 h2
    obtain ⟨mv, rest, rfl, _, hr⟩ := hc c (List.mem_of_getElem? h1)
    rw [List.getElem?_map, h1] at h2
    simp at h2
    subst h2
    refine ⟨mv, rest, rfl, ?_⟩
    have := readPoints_nodes [] rest hr
    simp only [ne_eq, not_true_eq_false, decide_false] at this
    simp [directContour, rawContour, ufoPath, this]

/-- **C69** The contours that are drawn are those of `drawPoints` (C55) exactly if they are open or single points. -/
theorem C69_open_only {mv : MasterNode} {rest : List MasterNode} {out : UfoContour}
    (h : ufoPath out = some ⟨mv.pt, (readNodesAs [] rest).1, (readNodesAs [] rest).2, false⟩) :
    ufoPath out = vfbPath (mv :: rest) ↔ (mv.isOpen = true ∨ rest = []) := by
  rw [h]
  constructor
  · intro he
    by_contra hcon
    simp only [vfbPath, if_neg hcon, Option.some.injEq, Path.mk.injEq] at he
    exact absurd he.2.2.2 (by simp)
  · intro ho
    simp only [vfbPath, if_pos ho]

/-- **C69** (Known defect) A closed contour with more than one point comes out as an open one. -/
theorem C69_closed_lost {order : List PyStr} {m : Nat} {nodes : List MMNode} {mv : MasterNode} {rest : List MasterNode} {comps : List Component}
    {ccalls : List PointCall} (hcomps : Corresponds (DirectComponent order m) comps ccalls) (hn : NodesAre [] m nodes (mv :: rest)) (hc : IsContour (mv :: rest)) (hmix : NotMixed (mv :: rest)) (hclosed : mv.isOpen = false) (hr : rest ≠ []) :
    ∃ out p q, drawDirect order m nodes comps = .ok (pointCalls out ++ ccalls) ∧ ufoPath out = some p ∧ vfbPath (mv :: rest) = some q ∧ q.closed = true ∧ p.closed = false := by
  obtain ⟨outs, h1, h2, h3⟩ := C69_drawn (m := m) (nodes := nodes) (cs := [mv :: rest]) hcomps (by simpa using hn) (by simpa using hc) (by simpa using hmix) (by simp)
  cases outs with
  | nil => simp at h2
  | cons out outs =>
    have : outs = [] := by simpa using h2.symm
    subst this
    obtain ⟨mv', rest', he, h4⟩ := h3 0 _ _ rfl rfl
    refine ⟨out, _, ⟨mv.pt, (readNodesAs [] rest).1 ++ closing (readNodesAs [] rest).1 (readNodesAs [] rest).2 mv.pt, [], true⟩, by simpa using h1, h4,
      by simp only [vfbPath, hclosed, Bool.false_eq_true, hr, or_self, if_false], rfl, rfl⟩

/-- **C69** (Known defect) Quadratic off-curve points at the end of a contour that is not the last one are followed by a point at the
start of the next contour that is not in this one. -/
theorem C69_run_goes_on {m : Nat} {nodes : List MMNode} {c : List MasterNode} {next : MasterNode} {rest : List MasterNode}
    {cs : List (List MasterNode)} {order : List PyStr} {comps : List Component} {ccalls : List PointCall}
    (hcomps : Corresponds (DirectComponent order m) comps ccalls) (hn : NodesAre [] m nodes (c :: (next :: rest) :: cs).flatten)
    (hc : ∀ x ∈ c :: (next :: rest) :: cs, IsContour x) (hmix : ∀ x ∈ c :: (next :: rest) :: cs, NotMixed x) (ht : trailing c ≠ []) :
    ∃ pts more, drawDirect order m nodes comps = .ok ([.beginPath] ++ pts ++ [.addPoint next.pt (some .qcurve), .endPath] ++ more) ∧ .endPath ∉ pts := by
  rw [direct_exact hn hc hmix hcomps]
  obtain ⟨mv, r, rfl, hmv, hr⟩ := hc c (by simp)
  have hq : endQ false r = true := by
    have := endQ_trailing [] r hr
    simp only [List.isEmpty_nil, Bool.not_true] at this
    rw [this]
    simpa [trailing] using ht
  refine ⟨(rawContour mv r).map (fun p => .addPoint p.pt p.seg), ((runOn ((next :: rest) :: cs)).map directContour).flatMap pointCalls ++ ccalls, ?_, by simp⟩
  rw [runOn, if_neg ht]
  simp [startOf, pointCalls, directContour, rawContour, nodePts_append, hq, nodePts]

/-! ### example -/

/-- C68_drawn and C69_drawn apply to the example of C55, with the first contour only -/
example : drawGlyph [] 0 [⟨.move, some 8, [[(0, 0)]]⟩, ⟨.qcurve, some 0, [[(5, 0)]]⟩, ⟨.line, some 0, [[(5, 5)]]⟩, ⟨.move, some 0, [[(9, 9)]]⟩, ⟨.curve, some 0, [[(1, 1), (2, 2), (3, 3)]]⟩] [] =
    .ok [.moveTo (0, 0), .qCurveTo [(5, 0), (5, 5)], .endPath, .moveTo (9, 9), .curveTo (2, 2) (3, 3) (1, 1), .closePath] := rfl

/-- a contour and a component, drawn directly -/
example : drawDirect [lit "a", lit "b"] 0 [⟨.move, some 0, [[(9, 9)]]⟩, ⟨.curve, some 0, [[(1, 1), (2, 2), (3, 3)]]⟩] [⟨1, [5, 6], [7, 8], [⟨1⟩], [⟨2⟩]⟩] =
    .ok [.beginPath, .addPoint (9, 9) (some .move), .addPoint (2, 2) none, .addPoint (3, 3) none, .addPoint (1, 1) (some .curve), .endPath,
      .addComponent (lit "b") ⟨1⟩ ⟨2⟩ 5 7] := rfl

/-- the hypotheses of C68_drawn and C69_drawn are met -/
example : ∃ (nodes : List MMNode) (cs : List (List MasterNode)), NodesAre [] 0 nodes cs.flatten ∧ (∀ c ∈ cs, IsContour c) ∧ (∀ c ∈ cs, NotMixed c) ∧
    (∀ c ∈ cs.dropLast, trailing c = []) ∧ cs.length = 2 ∧ nodes.length = 5 := by
  refine ⟨[⟨.move, some 8, [[(0, 0)]]⟩, ⟨.qcurve, some 0, [[(5, 0)]]⟩, ⟨.line, some 0, [[(5, 5)]]⟩, ⟨.move, some 0, [[(9, 9)]]⟩, ⟨.curve, some 0, [[(1, 1), (2, 2), (3, 3)]]⟩],
    [[⟨.move, false, true, none, (0, 0), []⟩, ⟨.qcurve, false, false, none, (5, 0), []⟩, ⟨.line, false, false, none, (5, 5), []⟩],
      [⟨.move, false, false, none, (9, 9), []⟩, ⟨.curve, false, false, none, (1, 1), [(2, 2), (3, 3)]⟩]], ?_, ?_, ?_, ?_, rfl, rfl⟩
  · refine ⟨rfl, ?_⟩
    intro i n a h1 h2
    match i with
    | 0 => simp at h1 h2; subst h1 h2; exact ⟨rfl, rfl, ⟨8, rfl, by simp, by simp⟩, [], rfl, by simp⟩
    | 1 => simp at h1 h2; subst h1 h2; exact ⟨rfl, rfl, ⟨0, rfl, by simp, by simp⟩, [], rfl, by simp⟩
    | 2 => simp at h1 h2; subst h1 h2; exact ⟨rfl, rfl, ⟨0, rfl, by simp, by simp⟩, [], rfl, by simp⟩
    | 3 => simp at h1 h2; subst h1 h2; exact ⟨rfl, rfl, ⟨0, rfl, by simp, by simp⟩, [], rfl, by simp⟩
    | 4 => simp at h1 h2; subst h1 h2; exact ⟨rfl, rfl, ⟨0, rfl, by simp, by simp⟩, [(2, 2), (3, 3)], rfl, by simp⟩
    | i + 5 => simp at h1
  · intro c hc
    simp at hc
    rcases hc with rfl | rfl
    · exact ⟨_, _, rfl, rfl, by simp⟩
    · exact ⟨_, _, rfl, rfl, by simp⟩
  · intro c hc
    simp at hc
    rcases hc with rfl | rfl <;> simp [NotMixed]
  · intro c hc
    simp at hc
    subst hc
    rfl

end Verif.Props
