import Verif.Spec.UfoPaths
import Verif.Props.UfoHints
/-! C55: contours of the UFO glyphs. -/
set_option autoImplicit false
namespace Verif.Props
open Verif Verif.Spec

/-! ### The loop over the nodes of a contour -/

/-- the points that are appended for the nodes after the "move" -/
def nodePts : Bool → List MasterNode → List UfoPoint
  | _, [] => []
  | q, n :: ns =>
    match n.kind with
    | .qcurve => ⟨none, false, n.name, n.pt⟩ :: nodePts true ns
    | .curve => n.ctrl.map (fun p => ⟨none, false, none, p⟩) ++ ⟨some .curve, n.smooth, n.name, n.pt⟩ :: nodePts false ns
    | _ => ⟨some (if q then .qcurve else .line), n.smooth, n.name, n.pt⟩ :: nodePts false ns

def endQ : Bool → List MasterNode → Bool
  | q, [] => q
  | _, n :: ns => endQ (decide (n.kind = .qcurve)) ns

theorem pyIndex_of_get {α : Type} {l : List α} {i : Nat} {x : α} (h : l[i]? = some x) : pyIndex l i = .ok x := by
  unfold pyIndex
  rw [if_pos (by omega), show ((i : Int)).toNat = i by omega, h]

theorem nodesAre_tail {labels : List (Int × PyStr)} {m k : Nat} {n : MMNode} {ns : List MMNode} {a : MasterNode} {l : List MasterNode}
    (h : ∀ (i : Nat) n' a', (n :: ns)[i]? = some n' → (a :: l)[i]? = some a' → NodeIs labels m (k + i) n' a') :
    NodeIs labels m k n a ∧ ∀ (i : Nat) n' a', ns[i]? = some n' → l[i]? = some a' → NodeIs labels m (k + 1 + i) n' a' := by
  refine ⟨h 0 n a rfl rfl, fun i n' a' h1 h2 => ?_⟩
  have := h (i + 1) n' a' h1 h2
  rwa [show k + (i + 1) = k + 1 + i by omega] at this

theorem bool_iff {a : Bool} {p : Prop} [Decidable p] (h : a = true ↔ p) : decide p = a := by
  cases a <;> simp_all

/-- one step for a node that is not a "move" -/
theorem contourStep_node {labels : List (Int × PyStr)} {m i : Nat} {n : MMNode} {a : MasterNode} (h : NodeIs labels m i n a)
    (hk : a.kind ≠ .move) (st : ContourState) :
    contourStep labels m false st i n = .ok { st with
      contour := st.contour ++ nodePts st.inQcurve [a]
      inQcurve := decide (a.kind = .qcurve) } := by
  obtain ⟨h1, h2, ⟨flags, h3, h4, h5⟩, rest, h6, h7⟩ := h
  have h8 : flagSmooth flags = a.smooth := bool_iff h4
  unfold contourStep
  rw [pyIndex_of_get h6]
  simp only [bind, Except.bind]
  rw [show (0 : Int) = ((0 : Nat) : Int) from rfl, pyIndex_of_get (x := a.pt) (by rfl)]
  simp only [h3, h8, ← h1, ← h2, Bool.false_eq_true, if_false]
  cases hx : a.kind with
  | move => exact absurd hx hk
  | line => simp [nodePts, hx]
  | qcurve => simp [nodePts, hx]
  | curve =>
    rw [hx, if_pos rfl] at h7
    obtain ⟨h7, h9⟩ := h7
    subst h7
    obtain ⟨c1, c2, hc⟩ : ∃ c1 c2, a.ctrl = [c1, c2] := by
      cases ha : a.ctrl with
      | nil => rw [ha] at h9; cases h9
      | cons c1 l =>
        cases l with
        | nil => rw [ha] at h9; cases h9
        | cons c2 l =>
          cases l with
          | nil => exact ⟨_, _, rfl⟩
          | cons c3 l => rw [ha] at h9; simp at h9
    simp [nodePts, hx, hc]

theorem nodePts_cons (q : Bool) (a : MasterNode) (l : List MasterNode) :
    nodePts q (a :: l) = nodePts q [a] ++ nodePts (decide (a.kind = .qcurve)) l := by
  cases hk : a.kind <;> simp [nodePts, hk]

/-- the nodes after the "move" -/
theorem contourLoop_nodes {labels : List (Int × PyStr)} {m : Nat} (l : List MasterNode) :
    ∀ (ns more : List MMNode) (k : Nat) (st : ContourState), ns.length = l.length →
    (∀ (i : Nat) n a, ns[i]? = some n → l[i]? = some a → NodeIs labels m (k + i) n a) → (∀ x ∈ l, x.kind ≠ .move) →
    contourLoop labels m false st k (ns ++ more) =
      contourLoop labels m false { st with
        contour := st.contour ++ nodePts st.inQcurve l
        inQcurve := endQ st.inQcurve l } (k + l.length) more := by
  induction l with
  | nil =>
    intro ns more k st hl _ _
    cases ns with
    | nil => simp [nodePts, endQ]
    | cons _ _ => cases hl
  | cons a l ih =>
    intro ns more k st hl hn hk
    cases ns with
    | nil => cases hl
    | cons n ns =>
      obtain ⟨h1, h2⟩ := nodesAre_tail hn
      rw [List.cons_append, contourLoop, contourStep_node h1 (hk a List.mem_cons_self)]
      simp only [bind, Except.bind]
      rw [ih ns more (k + 1) _ (by simpa using hl) h2 (fun x hx => hk x (List.mem_cons_of_mem _ hx))]
      rw [nodePts_cons st.inQcurve a l]
      simp only [endQ, List.append_assoc, List.length_cons]
      rw [show k + 1 + l.length = k + (l.length + 1) by omega]

/-! ### Closing a contour -/

/-- the points of a contour before it is closed -/
def rawContour (mv : MasterNode) (rest : List MasterNode) : UfoContour :=
  ⟨some .move, mv.smooth, mv.name, mv.pt⟩ :: nodePts false rest

theorem readPoints_append (p : List Point) (a b : UfoContour) :
    readPoints p (a ++ b) = ((readPoints p a).1 ++ (readPoints (readPoints p a).2 b).1, (readPoints (readPoints p a).2 b).2) := by
  induction a generalizing p with
  | nil => simp [readPoints]
  | cons x a ih =>
    cases hx : x.seg <;> simp [readPoints, hx, ih]

theorem readPoints_ctrl (p : List Point) (c : List Point) :
    readPoints p (c.map fun q => (⟨none, false, none, q⟩ : UfoPoint)) = ([], p ++ c) := by
  induction c generalizing p with
  | nil => simp [readPoints]
  | cons x c ih => simp [readPoints, ih]

theorem readPoints_nodes (p : List Point) (l : List MasterNode) (h : ∀ x ∈ l, x.kind ≠ .move) :
    readPoints p (nodePts (decide (p ≠ [])) l) = readNodesAs p l := by
  induction l generalizing p with
  | nil => simp [nodePts, readPoints, readNodesAs]
  | cons n l ih =>
    have hl := fun x hx => h x (List.mem_cons_of_mem _ hx)
    have ih0 := ih [] hl
    simp only [ne_eq, not_true_eq_false, decide_false] at ih0
    cases hk : n.kind with
    | move => exact absurd hk (h n List.mem_cons_self)
    | line =>
      by_cases hp : p = [] <;> simp [nodePts, readPoints, readNodesAs, hk, ih0, hp]
    | qcurve =>
      have := ih (p ++ [n.pt]) hl
      simp only [ne_eq, List.append_eq_nil_iff, List.cons_ne_self, and_false, not_false_eq_true, decide_true] at this
      simp [nodePts, readPoints, readNodesAs, hk, this]
    | curve =>
      simp only [nodePts, readNodesAs, hk]
      rw [readPoints_append, readPoints_ctrl]
      simp [readPoints, ih0]

theorem nodePts_append (q : Bool) (a b : List MasterNode) : nodePts q (a ++ b) = nodePts q a ++ nodePts (endQ q a) b := by
  induction a generalizing q with
  | nil => simp [nodePts, endQ]
  | cons x a ih => rw [List.cons_append, nodePts_cons, nodePts_cons q x a, ih]; simp [endQ]

theorem readNodesAs_append (p : List Point) (a b : List MasterNode) :
    readNodesAs p (a ++ b) = ((readNodesAs p a).1 ++ (readNodesAs (readNodesAs p a).2 b).1, (readNodesAs (readNodesAs p a).2 b).2) := by
  induction a generalizing p with
  | nil => simp [readNodesAs]
  | cons x a ih => cases hx : x.kind <;> simp [readNodesAs, hx, ih]

theorem nodePts_triples (q : Bool) (l : List MasterNode) : (nodePts q l).map pointTriple = l.flatMap nodePoints := by
  induction l generalizing q with
  | nil => rfl
  | cons n l ih => cases hk : n.kind <;> simp [nodePts, hk, nodePoints, pointTriple, ih, Function.comp_def]

/-- closing one contour -/
theorem flush_spec {mv : MasterNode} {rest : List MasterNode} (hm : mv.kind = .move) (hr : ∀ x ∈ rest, x.kind ≠ .move) :
    ∃ out ren, flushContour (rawContour mv rest) mv.isOpen = .ok (out, ren) ∧ ufoPath out = vfbPath (mv :: rest) ∧
      SamePoints (mv :: rest) out ∧ (∀ old new, ren = some (old, new) ↔ lostNames (mv :: rest) old new) := by
  have hpts := readPoints_nodes [] rest hr
  simp only [ne_eq, not_true_eq_false, decide_false] at hpts
  have htr : (rawContour mv rest).map pointTriple = (mv :: rest).flatMap nodePoints := by
    simp [rawContour, pointTriple, nodePoints, hm, nodePts_triples]
  by_cases ho : mv.isOpen = true
  · have hj : ¬ Joined (mv :: rest) := by
      rintro ⟨a, b, h1, h2, h3, _⟩
      simp only [List.head?_cons, Option.some.injEq] at h1
      subst h1; rw [ho] at h3; cases h3
    refine ⟨rawContour mv rest, none, by rw [flushContour.eq_def, if_pos ho], ?_, ⟨fun _ => htr, fun h => absurd h hj⟩, ?_⟩
    · simp [rawContour, ufoPath, vfbPath, ho, hpts]
    · intro old new
      simp only [reduceCtorEq, false_iff]
      exact fun h => hj h.1
  · have ho' : mv.isOpen = false := by simpa using ho
    rcases List.eq_nil_or_concat rest with rfl | ⟨init, last, rfl⟩
    · have hj : ¬ Joined [mv] := by
        rintro ⟨a, b, h1, h2, h3, h4, h5⟩
        simp only [List.getLast?_singleton, Option.some.injEq] at h2
        subst h2; rw [hm] at h4; cases h4
      refine ⟨rawContour mv [], none, ?_, ?_, ⟨fun _ => htr, fun h => absurd h hj⟩, ?_⟩
      · simp [flushContour, ho', rawContour, nodePts]
      · simp [rawContour, ufoPath, vfbPath, nodePts, readPoints, readNodesAs]
      · intro old new
        simp only [reduceCtorEq, false_iff]
        exact fun h => hj h.1
    · rw [List.concat_eq_append] at *
      have hlk := hr last (by simp)
      have hinit := readPoints_nodes [] init (fun x hx => hr x (by simp [hx]))
      simp only [ne_eq, not_true_eq_false, decide_false] at hinit
      have hraw : rawContour mv (init ++ [last]) = ⟨some .move, mv.smooth, mv.name, mv.pt⟩ :: (nodePts false init ++ nodePts (endQ false init) [last]) := by
        rw [rawContour, nodePts_append]
      cases hk : last.kind with
      | move => exact absurd hk hlk
      | qcurve =>
        have hj : ¬ Joined (mv :: (init ++ [last])) := by
          rintro ⟨a, b, h1, h2, h3, h4, h5⟩
          have : b = last := by simpa [List.getLast?_cons] using h2.symm
          rw [this, hk] at h4; cases h4
        refine ⟨⟨some .qcurve, mv.smooth, mv.name, mv.pt⟩ :: nodePts false (init ++ [last]), none, ?_, ?_, ⟨fun _ => ?_, fun h => absurd h hj⟩, ?_⟩
        · simp [flushContour, ho', rawContour, nodePts_append, nodePts, hk, List.getLast?_cons]
        · simp only [ufoPath, vfbPath, ho']
          rw [readPoints_append, hpts, readNodesAs_append]
          simp [readNodesAs, readPoints, hk, closing]
        · rw [← htr]; simp [rawContour, pointTriple]
        · intro old new
          simp only [reduceCtorEq, false_iff]
          exact fun h => hj h.1
      | line =>
        have hj : ¬ Joined (mv :: (init ++ [last])) := by
          rintro ⟨a, b, h1, h2, h3, h4, h5⟩
          have : b = last := by simpa [List.getLast?_cons] using h2.symm
          rw [this, hk] at h4; cases h4
        refine ⟨⟨some .line, mv.smooth, mv.name, mv.pt⟩ :: nodePts false (init ++ [last]), none, ?_, ?_, ⟨fun _ => ?_, fun h => absurd h hj⟩, ?_⟩
        · cases hq : endQ false init <;>
            simp [flushContour, ho', rawContour, nodePts_append, nodePts, hk, List.getLast?_cons, hq, applyClosepath]
        · simp only [ufoPath, vfbPath, ho']
          rw [readPoints_append, hpts, readNodesAs_append]
          have : ¬ curveEndsAt ((readNodesAs [] init).1 ++ [⟨if (readNodesAs [] init).2 = [] then .line else .qcurve, (readNodesAs [] init).2, last.pt⟩]) mv.pt := by
            rintro ⟨s, h1, h2, _⟩
            simp only [List.getLast?_append, List.getLast?_singleton, Option.some_or, Option.some.injEq] at h1
            subst h1
            by_cases he : (readNodesAs [] init).2 = [] <;> simp [he] at h2
          simp [readNodesAs, readPoints, hk, closing, this]
        · rw [← htr]; simp [rawContour, pointTriple]
        · intro old new
          simp only [reduceCtorEq, false_iff]
          exact fun h => hj h.1
      | curve =>
        by_cases hpt : last.pt = mv.pt
        · have hj : Joined (mv :: (init ++ [last])) := ⟨mv, last, rfl, by simp [List.getLast?_cons], ho', hk, hpt⟩
          have hctrl : ∃ mid, nodePts false (init ++ [last]) = mid ++ [⟨some .curve, last.smooth, last.name, last.pt⟩] := by
            rw [nodePts_append]
            exact ⟨nodePts false init ++ last.ctrl.map (fun p => ⟨none, false, none, p⟩), by simp [nodePts, hk]⟩
          obtain ⟨mid, hmid⟩ := hctrl
          have hflat : (mv :: (init ++ [last])).flatMap nodePoints =
              (mv.smooth, mv.name, mv.pt) :: mid.map pointTriple ++ [(last.smooth, last.name, last.pt)] := by
            rw [← htr, rawContour, hmid]; simp [pointTriple]
          have hread : readPoints [] mid = ((readNodesAs [] init).1, (readNodesAs [] init).2 ++ last.ctrl) := by
            have : mid = nodePts false init ++ last.ctrl.map (fun p => ⟨none, false, none, p⟩) := by
              rw [nodePts_append] at hmid
              have : (nodePts false init ++ last.ctrl.map (fun p => (⟨none, false, none, p⟩ : UfoPoint))) ++
                  [⟨some .curve, last.smooth, last.name, last.pt⟩] = mid ++ [⟨some .curve, last.smooth, last.name, last.pt⟩] := by
                rw [← hmid]; simp [nodePts, hk]
              exact (List.append_cancel_right this).symm
            rw [this, readPoints_append, hinit, readPoints_ctrl]; simp
          have hends : curveEndsAt ((readNodesAs [] init).1 ++ [⟨.curve, (readNodesAs [] init).2 ++ last.ctrl, mv.pt⟩]) mv.pt :=
            ⟨⟨.curve, (readNodesAs [] init).2 ++ last.ctrl, mv.pt⟩, by simp, rfl, rfl⟩
          have hmain : ∀ nm : Option PyStr, ufoPath (⟨some .curve, last.smooth, nm, last.pt⟩ :: mid) = vfbPath (mv :: (init ++ [last])) := by
            intro nm
            simp only [ufoPath, vfbPath, ho', readPoints_append, hread, readNodesAs_append]
            simp [readPoints, readNodesAs, hk, closing, hpt, hends]
          have hne : ∃ x y, mid ++ [⟨some .curve, last.smooth, last.name, last.pt⟩] = x :: (y : List UfoPoint) := by
            cases mid <;> simp
          obtain ⟨x, y, hxy⟩ := hne
          have hdrop : (x :: y).dropLast = mid := by rw [← hxy]; simp
          cases hn : mv.name with
          | none =>
            refine ⟨⟨some .curve, last.smooth, last.name, last.pt⟩ :: mid, none, ?_, hmain _, ⟨fun h => absurd hj h, fun _ => ?_⟩, ?_⟩
            · rw [rawContour, hmid]
              simp only [flushContour, ho', applyClosepath, List.getLast?_cons, List.getLast?_append, List.getLast?_singleton]
              rw [hxy]
              simp [hpt, hn, hdrop]
            · exact ⟨_, _, _, hflat, by simp [pointTriple, hn]⟩
            · intro old new
              simp [lostNames, hn]
          | some nm =>
            cases hl : last.name with
            | none =>
              refine ⟨⟨some .curve, last.smooth, some nm, last.pt⟩ :: mid, none, ?_, hmain _, ⟨fun h => absurd hj h, fun _ => ?_⟩, ?_⟩
              · rw [rawContour, hmid]
                simp only [flushContour, ho', applyClosepath, List.getLast?_cons, List.getLast?_append, List.getLast?_singleton]
                rw [hxy]
                simp [hpt, hn, hdrop, hl]
              · exact ⟨_, _, _, hflat, by simp [pointTriple, hn, hl]⟩
              · intro old new
                simp [lostNames, hl, List.getLast?_cons]
            | some lnm =>
              refine ⟨⟨some .curve, last.smooth, some lnm, last.pt⟩ :: mid, some (nm, lnm), ?_, hmain _, ⟨fun h => absurd hj h, fun _ => ?_⟩, ?_⟩
              · rw [rawContour, hmid]
                simp only [flushContour, ho', applyClosepath, List.getLast?_cons, List.getLast?_append, List.getLast?_singleton]
                rw [hxy]
                simp [hpt, hn, hdrop, hl]
              · exact ⟨_, _, _, hflat, by simp [pointTriple, hn, hl]⟩
              · intro old new
                simp [lostNames, hl, hn, hj, List.getLast?_cons]
        · have hj : ¬ Joined (mv :: (init ++ [last])) := by
            rintro ⟨a, b, h1, h2, h3, h4, h5⟩
            have hb : b = last := by simpa [List.getLast?_cons] using h2.symm
            simp only [List.head?_cons, Option.some.injEq] at h1
            rw [hb, ← h1] at h5
            exact hpt h5
          refine ⟨⟨some .line, mv.smooth, mv.name, mv.pt⟩ :: nodePts false (init ++ [last]), none, ?_, ?_, ⟨fun _ => ?_, fun h => absurd h hj⟩, ?_⟩
          · simp [flushContour, ho', rawContour, nodePts_append, nodePts, hk, List.getLast?_cons, applyClosepath, hpt]
          · simp only [ufoPath, vfbPath, ho']
            rw [readPoints_append, hpts, readNodesAs_append]
            have : ¬ curveEndsAt ((readNodesAs [] init).1 ++ [⟨.curve, (readNodesAs [] init).2 ++ last.ctrl, last.pt⟩]) mv.pt := by
              rintro ⟨s, h1, _, h2⟩
              simp only [List.getLast?_append, List.getLast?_singleton, Option.some_or, Option.some.injEq] at h1
              subst h1
              exact hpt h2
            simp [readNodesAs, readPoints, hk, closing, this]
          · rw [← htr]; simp [rawContour, pointTriple]
          · intro old new
            simp only [reduceCtorEq, false_iff]
            exact fun h => hj h.1

/-! ### All contours -/

theorem appendContour_raw {mv : MasterNode} {rest : List MasterNode} {out : UfoContour} {ren : Option (PyStr × PyStr)}
    (h : flushContour (rawContour mv rest) mv.isOpen = .ok (out, ren)) (st : ContourState)
    (hc : st.contour = rawContour mv rest) (ho : st.isOpen = mv.isOpen) :
    appendContour st = .ok { st with
      contours := st.contours ++ [out]
      rename := addRename st.rename ren } := by
  unfold appendContour
  rw [hc, ho, h]
  rfl

theorem contourStep_move {labels : List (Int × PyStr)} {m i : Nat} {n : MMNode} {a : MasterNode} (h : NodeIs labels m i n a)
    (hk : a.kind = .move) {st st1 : ContourState} (h1 : appendContour st = .ok st1) :
    contourStep labels m false st i n = .ok { st1 with
      contour := [⟨some .move, a.smooth, a.name, a.pt⟩]
      isOpen := a.isOpen
      inQcurve := false } := by
  obtain ⟨h2, h3, ⟨flags, h4, h5, h6⟩, rest, h7, h8⟩ := h
  have h9 : flagSmooth flags = a.smooth := bool_iff h5
  have h10 : flagOpen flags = a.isOpen := bool_iff h6
  unfold contourStep
  rw [pyIndex_of_get h7]
  simp only [bind, Except.bind]
  rw [show (0 : Int) = ((0 : Nat) : Int) from rfl, pyIndex_of_get (x := a.pt) (by rfl)]
  simp only [h4, h9, h10, ← h2, ← h3, Bool.false_eq_true, if_false, hk, h1]

theorem corresponds_cons {α β : Type} {r : α → β → Prop} {a : α} {b : β} {l : List α} {m : List β} (h : r a b)
    (ht : Corresponds r l m) : Corresponds r (a :: l) (b :: m) := by
  refine ⟨by simp [ht.1], fun k x y hx hy => ?_⟩
  cases k with
  | zero =>
    simp only [List.getElem?_cons_zero, Option.some.injEq] at hx hy
    subst hx; subst hy; exact h
  | succ k => exact ht.2 k x y hx hy

/-- the contour is made by closing that of the nodes -/
def FlushOf (c : List MasterNode) (out : UfoContour) : Prop :=
  ∃ mv rest ren, c = mv :: rest ∧ mv.kind = .move ∧ (∀ x ∈ rest, x.kind ≠ .move) ∧ flushContour (rawContour mv rest) mv.isOpen = .ok (out, ren)

theorem contours_loop {labels : List (Int × PyStr)} {m : Nat} (cs : List (List MasterNode)) :
    ∀ (nodes : List MMNode) (k : Nat) (st st1 : ContourState), nodes.length = cs.flatten.length →
    (∀ (i : Nat) n a, nodes[i]? = some n → cs.flatten[i]? = some a → NodeIs labels m (k + i) n a) →
    (∀ c ∈ cs, IsContour c) → appendContour st = .ok st1 →
    ∃ outs st2, (contourLoop labels m false st k nodes >>= appendContour) = .ok st2 ∧ st2.contours = st1.contours ++ outs ∧
      Corresponds (fun c out => (ufoPath out = vfbPath c ∧ SamePoints c out) ∧ FlushOf c out) cs outs ∧
      (∀ old new, dictGet st2.rename old = some new → (∃ c ∈ cs, lostNames c old new) ∨ dictGet st1.rename old = some new) ∧
      (∀ old, (dictGet st1.rename old).isSome → (dictGet st2.rename old).isSome) ∧
      (∀ old new, (∃ c ∈ cs, lostNames c old new) → (dictGet st2.rename old).isSome) := by
  induction cs with
  | nil =>
    intro nodes k st st1 hl _ _ h1
    cases nodes with
    | cons _ _ => cases hl
    | nil =>
      refine ⟨[], st1, ?_, by simp, ⟨rfl, fun k a b h => by simp at h⟩, fun _ _ h => .inr h, fun _ h => h, ?_⟩
      · simpa [contourLoop, bind, Except.bind] using h1
      · rintro _ _ ⟨c, hc, _⟩; cases hc
  | cons c cs ih =>
    intro nodes k st st1 hl hn hc h1
    obtain ⟨mv, rest, rfl, hm, hr⟩ := hc c List.mem_cons_self
    simp only [List.flatten_cons, List.cons_append] at hl hn
    cases nodes with
    | nil => cases hl
    | cons n ns =>
      obtain ⟨h2, h3⟩ := nodesAre_tail hn
      have hlen : rest.length ≤ ns.length := by simp at hl; omega
      have hsplit : ns = ns.take rest.length ++ ns.drop rest.length := (List.take_append_drop _ _).symm
      rw [contourLoop, contourStep_move h2 hm h1]
      simp only [bind, Except.bind]
      rw [hsplit]
      have h4 := contourLoop_nodes (labels := labels) (m := m) rest (ns.take rest.length) (ns.drop rest.length) (k + 1)
        { st1 with
          contour := [⟨some .move, mv.smooth, mv.name, mv.pt⟩]
          isOpen := mv.isOpen
          inQcurve := false } (by simp [hlen])
        (fun i n' a' hi hi' => h3 i n' a' (by
            rw [List.getElem?_take] at hi
            split at hi
            · exact hi
            · cases hi) (by
            rw [List.getElem?_append_left (List.getElem?_eq_some_iff.1 hi').1]; exact hi')) hr
      rw [h4]
      simp only [List.singleton_append]
      obtain ⟨out, ren, h5, h6, h7, h8⟩ := flush_spec hm hr
      have h9 := appendContour_raw h5 { st1 with
          contour := rawContour mv rest
          isOpen := mv.isOpen
          inQcurve := endQ false rest } rfl rfl
      obtain ⟨outs, st2, h10, h11, h12, h13, h14, h15⟩ := ih (ns.drop rest.length) (k + 1 + rest.length) _ _
        (by simp at hl ⊢; omega)
        (fun i n' a' hi hi' => by
          rw [List.getElem?_drop] at hi
          have := h3 (rest.length + i) n' a' hi (by rw [List.getElem?_append_right (by omega)]; simpa using hi')
          rwa [show k + 1 + (rest.length + i) = k + 1 + rest.length + i by omega] at this)
        (fun c hc' => hc c (List.mem_cons_of_mem _ hc')) h9
      refine ⟨out :: outs, st2, h10, by rw [h11]; simp, corresponds_cons ⟨⟨h6, h7⟩, mv, rest, ren, rfl, hm, hr, h5⟩ h12, ?_, ?_, ?_⟩
      · intro old new hg
        rcases h13 old new hg with ⟨c', hc', hl'⟩ | hg'
        · exact .inl ⟨c', List.mem_cons_of_mem _ hc', hl'⟩
        · cases ren with
          | none => exact .inr hg'
          | some e =>
            simp only [addRename, dictGet_dictSet] at hg'
            by_cases he : e.1 = old
            · rw [if_pos he] at hg'
              cases hg'
              exact .inl ⟨_, List.mem_cons_self, (h8 old e.2).1 (by rw [← he])⟩
            · rw [if_neg he] at hg'; exact .inr hg'
      · intro old ho
        refine h14 old ?_
        cases ren with
        | none => exact ho
        | some e =>
          simp only [addRename, dictGet_dictSet]
          by_cases he : e.1 = old
          · simp [he]
          · rw [if_neg he]; exact ho
      · rintro old new ⟨c', hc', hl'⟩
        rcases List.mem_cons.1 hc' with rfl | hc'
        · refine h14 old ?_
          rw [(h8 old new).2 hl']
          simp [addRename, dictGet_dictSet]
        · exact h15 old new ⟨c', hc', hl'⟩

theorem contours_flush {nodes : List MMNode} {labels : List (Int × PyStr)} {m : Nat} {cs : List (List MasterNode)}
    (hn : NodesAre labels m nodes cs.flatten) (hc : ∀ c ∈ cs, IsContour c) :
    ∃ outs rename, extractContours nodes labels m false = .ok (outs, rename) ∧
      Corresponds (fun c out => (ufoPath out = vfbPath c ∧ SamePoints c out) ∧ FlushOf c out) cs outs ∧
      (∀ old new, dictGet rename old = some new → ∃ c ∈ cs, lostNames c old new) ∧
      (∀ old new, (∃ c ∈ cs, lostNames c old new) → ∃ new', dictGet rename old = some new') := by
  obtain ⟨outs, st2, h1, h2, h3, h4, h5, h6⟩ := contours_loop (labels := labels) (m := m) cs nodes 0 ⟨[], [], [], false, false⟩
    ⟨[], [], [], false, false⟩ hn.1 (by simpa using hn.2) hc rfl
  refine ⟨outs, st2.rename, ?_, h3, ?_, ?_⟩
  · unfold extractContours
    cases hx : contourLoop labels m false ⟨[], [], [], false, false⟩ 0 nodes with
    | error e => rw [hx] at h1; cases h1
    | ok s =>
      rw [hx] at h1
      simp only [bind, Except.bind] at h1 ⊢
      rw [h1]
      simp [h2]
  · intro old new hg
    rcases h4 old new hg with h | h
    · exact h
    · simp [dictGet] at h
  · intro old new h
    exact Option.isSome_iff_exists.1 (h6 old new h)

/-- **C55** The contours of a master are, one by one and in order, those of its nodes: each UFO contour describes the same
path as the nodes (same start, same segments with the same off-curve points, closed or open), and it has the same points in
the same order with the same names and smooth flags, except that the first and last point of a closed contour that ends with
a curve to its start become one.  Names are lost only there, and then `rename_points` says which name takes their place. -/
theorem C55_contours {nodes : List MMNode} {labels : List (Int × PyStr)} {m : Nat} {cs : List (List MasterNode)}
    (hn : NodesAre labels m nodes cs.flatten) (hc : ∀ c ∈ cs, IsContour c) :
    ∃ outs rename, extractContours nodes labels m false = .ok (outs, rename) ∧
      Corresponds (fun c out => ufoPath out = vfbPath c ∧ SamePoints c out) cs outs ∧
      (∀ old new, dictGet rename old = some new → ∃ c ∈ cs, lostNames c old new) ∧
      (∀ old new, (∃ c ∈ cs, lostNames c old new) → ∃ new', dictGet rename old = some new') := by
  obtain ⟨outs, rename, h1, h2, h3⟩ := contours_flush hn hc
  exact ⟨outs, rename, h1, ⟨h2.1, fun k a b ha hb => (h2.2 k a b ha hb).1⟩, h3⟩

theorem takeWhile_contour {rest flat : List MasterNode} (hr : ∀ x ∈ rest, x.kind ≠ .move)
    (hf : ∀ a, flat.head? = some a → a.kind = .move) :
    (rest ++ flat).takeWhile (fun x => decide (x.kind ≠ .move)) = rest := by
  induction rest with
  | nil =>
    cases flat with
    | nil => rfl
    | cons a l => simp [hf a rfl]
  | cons x rest ih =>
    have hx := hr x List.mem_cons_self
    rw [List.cons_append, List.takeWhile_cons, if_pos (by simpa using hx), ih (fun y hy => hr y (List.mem_cons_of_mem _ hy))]

theorem flatten_head {cs : List (List MasterNode)} (h : ∀ c ∈ cs, IsContour c) (a : MasterNode) (ha : cs.flatten.head? = some a) :
    a.kind = .move := by
  cases cs with
  | nil => cases ha
  | cons c cs =>
    obtain ⟨mv, rest, rfl, hm, _⟩ := h c List.mem_cons_self
    simp at ha
    rw [← ha]; exact hm

theorem contours_unique (cs cs' : List (List MasterNode)) (h : ∀ c ∈ cs, IsContour c) (h' : ∀ c ∈ cs', IsContour c)
    (he : cs.flatten = cs'.flatten) : cs' = cs := by
  induction cs generalizing cs' with
  | nil =>
    cases cs' with
    | nil => rfl
    | cons c' cs' =>
      obtain ⟨mv, rest, rfl, _⟩ := h' c' List.mem_cons_self
      simp at he
  | cons c cs ih =>
    obtain ⟨mv, rest, rfl, hm, hr⟩ := h c List.mem_cons_self
    cases cs' with
    | nil => simp at he
    | cons c' cs' =>
      obtain ⟨mv', rest', rfl, hm', hr'⟩ := h' c' List.mem_cons_self
      simp only [List.flatten_cons, List.cons_append, List.cons.injEq] at he
      obtain ⟨he1, he2⟩ := he
      have e1 := takeWhile_contour hr (flatten_head (fun c hc => h c (List.mem_cons_of_mem _ hc)))
      have e2 := takeWhile_contour hr' (flatten_head (fun c hc => h' c (List.mem_cons_of_mem _ hc)))
      rw [he2, e2] at e1
      subst e1
      rw [ih cs' (fun c hc => h c (List.mem_cons_of_mem _ hc)) (fun c hc => h' c (List.mem_cons_of_mem _ hc))
        (List.append_cancel_left he2), he1]

/-- **C55** Every list of nodes that is empty or starts with a "move" is a list of contours, in just one way. -/
theorem C55_split (l : List MasterNode) (h : ∀ a, l.head? = some a → a.kind = .move) :
    ∃ cs : List (List MasterNode), l = cs.flatten ∧ (∀ c ∈ cs, IsContour c) ∧
      ∀ cs', l = cs'.flatten → (∀ c ∈ cs', IsContour c) → cs' = cs := by
  have : ∃ (pre : List MasterNode) (cs : List (List MasterNode)), l = pre ++ cs.flatten ∧ (∀ x ∈ pre, x.kind ≠ .move) ∧ ∀ c ∈ cs, IsContour c := by
    clear h
    induction l with
    | nil => exact ⟨[], [], rfl, by simp, by simp⟩
    | cons a l ih =>
      obtain ⟨pre, cs, h1, h2, h3⟩ := ih
      by_cases ha : a.kind = .move
      · refine ⟨[], (a :: pre) :: cs, by simp [h1], by simp, fun c hc => ?_⟩
        rcases List.mem_cons.1 hc with rfl | hc
        · exact ⟨a, pre, rfl, ha, h2⟩
        · exact h3 c hc
      · refine ⟨a :: pre, cs, by simp [h1], fun x hx => ?_, h3⟩
        rcases List.mem_cons.1 hx with rfl | hx
        · exact ha
        · exact h2 x hx
  obtain ⟨pre, cs, h1, h2, h3⟩ := this
  cases pre with
  | nil =>
    refine ⟨cs, by simpa using h1, h3, fun cs' h4 h5 => contours_unique cs cs' h3 h5 ?_⟩
    rw [← h4, h1]; simp
  | cons a pre => exact absurd (h a (by rw [h1]; rfl)) (h2 a List.mem_cons_self)

/-! ### Names of points -/

theorem mem_nodePoints (a : MasterNode) : ∃ s, (s, a.name, a.pt) ∈ nodePoints a := by
  cases hk : a.kind <;> simp [nodePoints, hk]

theorem nodePoints_named {a : MasterNode} {s : Bool} {x : PyStr} {p : Point} (h : (s, some x, p) ∈ nodePoints a) :
    a.name = some x ∧ a.pt = p := by
  cases hk : a.kind <;> simp [nodePoints, hk] at h
  · exact ⟨h.2.1.symm, h.2.2.symm⟩
  · exact ⟨h.2.1.symm, h.2.2.symm⟩
  · exact ⟨h.2.1.symm, h.2.2.symm⟩
  · exact ⟨h.2.1.symm, h.2.2.symm⟩

theorem joined_ends {c : List MasterNode} (hc : IsContour c) (hj : Joined c) {first last : Bool × Option PyStr × Point}
    {mid : List (Bool × Option PyStr × Point)} (h : c.flatMap nodePoints = first :: mid ++ [last]) :
    ∃ mv l, c.head? = some mv ∧ c.getLast? = some l ∧ first.2 = (mv.name, mv.pt) ∧ last.2 = (l.name, l.pt) ∧ l.pt = mv.pt := by
  obtain ⟨mv, rest, rfl, hm, hr⟩ := hc
  obtain ⟨mv', l, h1, h2, h3, h4, h5⟩ := hj
  simp only [List.head?_cons, Option.some.injEq] at h1
  subst h1
  refine ⟨mv, l, rfl, h2, ?_, ?_, h5⟩
  · simp [nodePoints, hm] at h
    rw [← h.1]
  · obtain ⟨init, hi⟩ : ∃ init, mv :: rest = init ++ [l] := ⟨_, (List.getLast?_eq_some_iff.1 h2).choose_spec⟩
    rw [hi] at h
    simp only [List.flatMap_append, List.flatMap_cons, List.flatMap_nil, List.append_nil, nodePoints, h4, ← List.append_assoc] at h
    have := List.append_inj_right' h rfl
    simp only [List.cons.injEq, and_true] at this
    rw [← this]

theorem named_point_node {c : List MasterNode} {out : UfoContour} (hc : IsContour c) (h : SamePoints c out) {p : UfoPoint}
    (hp : p ∈ out) {x : PyStr} (hx : p.name = some x) : ∃ a ∈ c, a.name = some x ∧ a.pt = p.pt := by
  have hp' : pointTriple p ∈ out.map pointTriple := List.mem_map_of_mem hp
  have key : pointTriple p ∈ c.flatMap nodePoints → ∃ a ∈ c, a.name = some x ∧ a.pt = p.pt := by
    intro h1
    obtain ⟨a, ha, h2⟩ := List.mem_flatMap.1 h1
    rw [pointTriple, hx] at h2
    exact ⟨a, ha, nodePoints_named h2⟩
  by_cases hj : Joined c
  · obtain ⟨first, mid, last, h1, h2⟩ := h.2 hj
    rw [h2] at hp'
    obtain ⟨mv, l, h3, h4, h5, h6, h7⟩ := joined_ends hc hj h1
    rcases List.mem_cons.1 hp' with h8 | h8
    · rw [pointTriple, hx] at h8
      simp only [Prod.mk.injEq] at h8
      obtain ⟨_, h9, h10⟩ := h8
      rw [h5, h6] at h9
      rw [h6] at h10
      simp only at h9 h10
      cases hl : l.name with
      | none =>
        rw [hl] at h9
        exact ⟨mv, List.mem_of_mem_head? h3, by simpa using h9.symm, by rw [h10, h7]⟩
      | some y =>
        rw [hl] at h9
        refine ⟨l, List.mem_of_getLast? h4, ?_, h10.symm⟩
        rw [hl]; simpa using h9.symm
    · refine key ?_
      rw [h1]
      exact List.mem_append_left _ (List.mem_cons_of_mem _ h8)
  · rw [h.1 hj] at hp'
    exact key hp'

theorem node_named_point {c : List MasterNode} {out : UfoContour} (hc : IsContour c) (h : SamePoints c out) {a : MasterNode}
    (ha : a ∈ c) {x : PyStr} (hx : a.name = some x) :
    (∃ p ∈ out, p.name = some x ∧ p.pt = a.pt) ∨ (∃ new, lostNames c x new) := by
  obtain ⟨s, hs⟩ := mem_nodePoints a
  have h1 : (s, a.name, a.pt) ∈ c.flatMap nodePoints := List.mem_flatMap.2 ⟨a, ha, hs⟩
  have key : ∀ t, (t, a.name, a.pt) ∈ out.map pointTriple → ∃ p ∈ out, p.name = some x ∧ p.pt = a.pt := by
    intro t ht
    obtain ⟨p, hp, h2⟩ := List.mem_map.1 ht
    simp only [pointTriple, Prod.mk.injEq] at h2
    exact ⟨p, hp, by rw [h2.2.1, hx], h2.2.2⟩
  by_cases hj : Joined c
  · obtain ⟨first, mid, last, h2, h3⟩ := h.2 hj
    obtain ⟨mv, l, h4, h5, h6, h7, h8⟩ := joined_ends hc hj h2
    rw [h2, List.cons_append] at h1
    have hlast : ∀ y, l.name = some y → (last.1, some y, l.pt) ∈ out.map pointTriple := by
      intro y hy
      rw [h3, h6, h7, hy]; simp
    rcases List.mem_cons.1 h1 with h9 | h9
    · rw [← h9] at h6
      simp only [Prod.mk.injEq] at h6
      cases hl : l.name with
      | none =>
        refine .inl (key last.1 ?_)
        rw [h3, h7, hl, ← h9, h6.2, h8]; simp
      | some y =>
        exact .inr ⟨y, hj, by rw [h4]; simp [← h6.1, hx], by rw [h5]; simp [hl]⟩
    · rcases List.mem_append.1 h9 with h10 | h10
      · refine .inl (key s ?_)
        rw [h3]; exact List.mem_cons_of_mem _ h10
      · simp only [List.mem_singleton] at h10
        rw [← h10] at h7
        simp only [Prod.mk.injEq] at h7
        refine .inl (key last.1 ?_)
        have := hlast x (by rw [← h7.1, hx])
        rwa [hx, h7.2]
  · refine .inl (key s ?_)
    rw [h.1 hj]; exact h1

/-- **C55** Every point that has a label is found in the contours: if each label belongs to one node only, the name of a
labelled node, or the one that `rename_points` has for it, is the name of a point of the contours, and every point
of that name has the coordinates of the node. -/
theorem C55_names {nodes : List MMNode} {labels : List (Int × PyStr)} {m : Nat} {cs : List (List MasterNode)} {outs : List UfoContour}
    {rename : List (PyStr × PyStr)} (hn : NodesAre labels m nodes cs.flatten) (hc : ∀ c ∈ cs, IsContour c)
    (hinj : ∀ i j l, dictGet labels i = some l → dictGet labels j = some l → i = j)
    (h : extractContours nodes labels m false = .ok (outs, rename)) {a : MasterNode} (ha : a ∈ cs.flatten) {x : PyStr} (hx : a.name = some x) :
    (∃ out ∈ outs, ∃ p ∈ out, p.name = some ((dictGet rename x).getD x) ∧ p.pt = a.pt) ∧
      (∀ out ∈ outs, ∀ p ∈ out, p.name = some ((dictGet rename x).getD x) → p.pt = a.pt) := by
  obtain ⟨outs', rename', h1, h2, h3, h4⟩ := C55_contours hn hc
  rw [h] at h1
  obtain ⟨rfl, rfl⟩ : outs = outs' ∧ rename = rename' := by simpa using h1
  have huniq : ∀ b ∈ cs.flatten, ∀ b' ∈ cs.flatten, ∀ y, b.name = some y → b'.name = some y → b = b' := by
    intro b hb b' hb' y hy hy'
    obtain ⟨i, hi⟩ := List.getElem?_of_mem hb
    obtain ⟨j, hj⟩ := List.getElem?_of_mem hb'
    have hi2 : i < nodes.length := by rw [hn.1]; exact (List.getElem?_eq_some_iff.1 hi).1
    have hj2 : j < nodes.length := by rw [hn.1]; exact (List.getElem?_eq_some_iff.1 hj).1
    have e1 := (hn.2 i _ b (List.getElem?_eq_getElem hi2) hi).2.1
    have e2 := (hn.2 j _ b' (List.getElem?_eq_getElem hj2) hj).2.1
    have := hinj i j y (by rw [← e1, hy]) (by rw [← e2, hy'])
    have : i = j := by omega
    subst this
    rw [hi] at hj
    exact Option.some.inj hj
  have hout : ∀ out ∈ outs, ∃ c ∈ cs, SamePoints c out := by
    intro out ho
    obtain ⟨i, hi⟩ := List.getElem?_of_mem ho
    have hi2 : i < cs.length := by rw [h2.1]; exact (List.getElem?_eq_some_iff.1 hi).1
    exact ⟨cs[i], List.getElem_mem hi2, (h2.2 i _ out (List.getElem?_eq_getElem hi2) hi).2⟩
  have hcout : ∀ c ∈ cs, ∃ out ∈ outs, SamePoints c out := by
    intro c hc'
    obtain ⟨i, hi⟩ := List.getElem?_of_mem hc'
    have hi2 : i < outs.length := by rw [← h2.1]; exact (List.getElem?_eq_some_iff.1 hi).1
    exact ⟨outs[i], List.getElem_mem hi2, (h2.2 i c _ hi (List.getElem?_eq_getElem hi2)).2⟩
  have hany : ∀ out ∈ outs, ∀ p ∈ out, ∀ y, p.name = some y → ∀ b ∈ cs.flatten, b.name = some y → b.pt = p.pt := by
    intro out ho p hp y hy b hb hby
    obtain ⟨c, hc', hs⟩ := hout out ho
    obtain ⟨a', ha', h5, h6⟩ := named_point_node (hc c hc') hs hp hy
    rw [huniq b hb a' (List.mem_flatten.2 ⟨c, hc', ha'⟩) y hby h5, h6]
  cases hr : dictGet rename x with
  | none =>
    simp only [Option.getD_none]
    refine ⟨?_, fun out ho p hp hpn => (hany out ho p hp x hpn a ha hx).symm⟩
    obtain ⟨c, hc', hac⟩ := List.mem_flatten.1 ha
    obtain ⟨out, ho, hs⟩ := hcout c hc'
    rcases node_named_point (hc c hc') hs hac hx with h5 | ⟨new, h5⟩
    · exact ⟨out, ho, h5⟩
    · obtain ⟨new', h6⟩ := h4 x new ⟨c, hc', h5⟩
      rw [hr] at h6; cases h6
  | some new =>
    simp only [Option.getD_some]
    obtain ⟨c, hc', hj, h5, h6⟩ := h3 x new hr
    obtain ⟨out, ho, hs⟩ := hcout c hc'
    obtain ⟨first, mid, last, h7, h8⟩ := hs.2 hj
    obtain ⟨mv, l, h9, h10, h11, h12, h13⟩ := joined_ends (hc c hc') hj h7
    rw [h9] at h5
    rw [h10] at h6
    simp only [Option.bind_some] at h5 h6
    have hmv : a = mv := huniq a ha mv (List.mem_flatten.2 ⟨c, hc', List.mem_of_mem_head? h9⟩) x hx h5
    have hlm : l ∈ cs.flatten := List.mem_flatten.2 ⟨c, hc', List.mem_of_getLast? h10⟩
    constructor
    · have : (last.1, some new, l.pt) ∈ out.map pointTriple := by rw [h8, h12, h6]; simp
      obtain ⟨p, hp, h14⟩ := List.mem_map.1 this
      simp only [pointTriple, Prod.mk.injEq] at h14
      exact ⟨out, ho, p, hp, h14.2.1, by rw [h14.2.2, h13, hmv]⟩
    · intro out' ho' p hp hpn
      rw [← hany out' ho' p hp new hpn l hlm h6, h13, hmv]

/-! ### TrueType commands -/

theorem renamePoints_spec (rename : List (PyStr × PyStr)) (keys : List PyStr) (hk : keys.Nodup) :
    ∀ (cmd : TthCommand), (∀ k ∈ keys, (dictGet cmd k).isSome) →
    ∃ cmd', keys.foldlM (renamePointInCmd rename) cmd = .ok cmd' ∧
      ∀ k, dictGet cmd' k = if k ∈ keys then (dictGet cmd k).map (fun x => (dictGet rename x).getD x) else dictGet cmd k := by
  induction keys with
  | nil => intro cmd _; exact ⟨cmd, rfl, fun k => by simp⟩
  | cons key keys ih =>
    intro cmd hp
    rw [List.nodup_cons] at hk
    obtain ⟨name, hname⟩ := Option.isSome_iff_exists.1 (hp key List.mem_cons_self)
    have h1 : ∃ c1, renamePointInCmd rename cmd key = .ok c1 ∧
        ∀ k, dictGet c1 k = if k = key then (dictGet cmd k).map (fun x => (dictGet rename x).getD x) else dictGet cmd k := by
      unfold renamePointInCmd
      rw [hname]
      cases hr : dictGet rename name with
      | none =>
        refine ⟨cmd, by simp only [hr], fun k => ?_⟩
        by_cases he : k = key
        · rw [if_pos he, he, hname]; simp [hr]
        · rw [if_neg he]
      | some new =>
        refine ⟨dictSet cmd key new, by simp only [hr], fun k => ?_⟩
        rw [dictGet_dictSet]
        by_cases he : k = key
        · rw [if_pos he, if_pos he.symm, he, hname]; simp [hr]
        · rw [if_neg he, if_neg (Ne.symm he)]
    obtain ⟨c1, h2, h3⟩ := h1
    obtain ⟨c2, h4, h5⟩ := ih hk.2 c1 (fun k hk' => by
      rw [h3, if_neg (by rintro rfl; exact hk.1 hk')]
      exact hp k (List.mem_cons_of_mem _ hk'))
    refine ⟨c2, ?_, fun k => ?_⟩
    · simp only [List.foldlM_cons, h2, bind, Except.bind]; exact h4
    · rw [h5, h3]
      by_cases he : k = key
      · subst he; simp [hk.1]
      · simp [he]

theorem finalize_one {rename : List (PyStr × PyStr)} {cmd : TthCommand} (h : WellFormedCmd cmd) :
    ∃ cmd', (match dictGet cmd (lit "code") with
      | none => Except.error PyErr.key
      | some code => pointKeys code >>= fun keys => keys.foldlM (renamePointInCmd rename) cmd) = .ok cmd' ∧ RenamedCmd rename cmd cmd' := by
  obtain ⟨code, h1, h2⟩ := h
  rw [h1]
  have key : ∀ keys : List PyStr, keys.Nodup → pointKeys code = .ok keys → (∀ k ∈ keys, (dictGet cmd k).isSome) →
      (∀ k, k ∈ pointKeyNames → k ∉ keys → dictGet cmd k = none) → (∀ k ∈ keys, k ∈ pointKeyNames) →
      ∃ cmd', (pointKeys code >>= fun keys => keys.foldlM (renamePointInCmd rename) cmd) = .ok cmd' ∧ RenamedCmd rename cmd cmd' := by
    intro keys hnd hk hs hno hsub
    obtain ⟨cmd', h3, h4⟩ := renamePoints_spec rename keys hnd cmd hs
    refine ⟨cmd', by rw [hk]; exact h3, fun k => ?_⟩
    rw [h4]
    by_cases hm : k ∈ keys
    · rw [if_pos hm, if_pos (hsub k hm)]
    · rw [if_neg hm]
      by_cases hp : k ∈ pointKeyNames
      · rw [if_pos hp, hno k hp hm]; rfl
      · rw [if_neg hp]
  rcases h2 with ⟨hc, ha, hb, hd⟩ | ⟨hc, ha, hb, hd⟩ | ⟨hc, ha, hb, hd⟩
  · refine key [lit "point"] (by decide) ?_ ?_ ?_ ?_
    · rw [pointKeys, if_pos hc]
    · simpa using ha
    · simp only [pointKeyNames, List.mem_cons, List.not_mem_nil, or_false]
      rintro k (rfl | rfl | rfl) hk
      · exact absurd rfl hk
      · exact hb
      · exact hd
    · decide
  · have hc' : code ∉ [lit "alignb", lit "alignt", lit "alignh", lit "alignv", lit "mdeltah", lit "mdeltav", lit "fdeltah", lit "fdeltav"] := by
      simp only [List.mem_cons, List.not_mem_nil, or_false] at hc
      rcases hc with rfl | rfl | rfl | rfl <;> decide
    refine key [lit "point1", lit "point2"] (by decide) ?_ ?_ ?_ ?_
    · rw [pointKeys, if_neg hc', if_pos hc]
    · simpa using ⟨hb, hd⟩
    · simp only [pointKeyNames, List.mem_cons, List.not_mem_nil, or_false]
      rintro k (rfl | rfl | rfl) hk
      · exact ha
      · exact absurd (.inl rfl) hk
      · exact absurd (.inr rfl) hk
    · decide
  · have hc' : code ∉ [lit "alignb", lit "alignt", lit "alignh", lit "alignv", lit "mdeltah", lit "mdeltav", lit "fdeltah", lit "fdeltav"] ∧
        code ∉ [lit "singleh", lit "singlev", lit "doubleh", lit "doublev"] := by
      simp only [List.mem_cons, List.not_mem_nil, or_false] at hc
      rcases hc with rfl | rfl <;> decide
    refine key [lit "point", lit "point1", lit "point2"] (by decide) ?_ ?_ ?_ ?_
    · rw [pointKeys, if_neg hc'.1, if_neg hc'.2, if_pos hc]
    · simpa using ⟨ha, hb, hd⟩
    · intro k hk hk'; exact absurd hk hk'
    · decide

theorem mapM_total {α β : Type} (f : α → Except PyErr β) (r : α → β → Prop) (l : List α) (h : ∀ a ∈ l, ∃ b, f a = .ok b ∧ r a b) :
    ∃ m, l.mapM f = .ok m ∧ Corresponds r l m := by
  induction l with
  | nil => exact ⟨[], rfl, rfl, fun k a b h => by simp at h⟩
  | cons a l ih =>
    obtain ⟨b, h1, h2⟩ := h a List.mem_cons_self
    obtain ⟨m, h3, h4⟩ := ih fun x hx => h x (List.mem_cons_of_mem _ hx)
    exact ⟨b :: m, by rw [List.mapM_cons, h1]; simp only [bind, Except.bind, h3]; rfl, corresponds_cons h2 h4⟩

/-- **C55** Finalising the TrueType commands of a master never fails for the commands the converter makes, and changes
only the names of points that were lost, in every command. -/
theorem C55_tt_commands (rename : List (PyStr × PyStr)) (cmds : List TthCommand) (h : ∀ cmd ∈ cmds, WellFormedCmd cmd) :
    ∃ cmds', finalizeTtPointLabels rename cmds = .ok cmds' ∧ Corresponds (RenamedCmd rename) cmds cmds' := by
  unfold finalizeTtPointLabels
  cases rename with
  | nil =>
    refine ⟨cmds, rfl, rfl, fun k a b ha hb key => ?_⟩
    rw [ha] at hb; cases hb
    simp [dictGet]
  | cons e rename =>
    simp only [List.isEmpty_cons, Bool.false_eq_true, if_false]
    exact mapM_total _ _ _ fun cmd hc => finalize_one (h cmd hc)

/-! ### Masks and malformed nodes -/

theorem contourStep_mask (labels : List (Int × PyStr)) (m : Nat) (st : ContourState) (i : Nat) (n : MMNode) :
    contourStep labels m true st i n = contourStep [] m false st i n := by
  simp [contourStep, dictGet]

/-- **C55** The contours of the mask are made in the same way, without names. -/
theorem C55_mask (nodes : List MMNode) (labels : List (Int × PyStr)) (m : Nat) :
    extractContours nodes labels m true = extractContours nodes [] m false := by
  have : ∀ (ns : List MMNode) (st : ContourState) (i : Nat), contourLoop labels m true st i ns = contourLoop [] m false st i ns := by
    intro ns
    induction ns with
    | nil => intros; rfl
    | cons n ns ih => intro st i; simp only [contourLoop, contourStep_mask, ih]
  simp only [extractContours, this]

theorem contourStep_view {labels : List (Int × PyStr)} {m i : Nat} {n : MMNode} {st st' : ContourState}
    (h : contourStep labels m false st i n = .ok st') : ∃ a, NodeIs labels m i n a := by
  unfold contourStep at h
  cases h1 : pyIndex n.points m with
  | error e => rw [h1] at h; cases h
  | ok pts =>
    rw [h1] at h
    simp only [bind, Except.bind] at h
    cases h2 : pyIndex pts 0 with
    | error e => rw [h2] at h; cases h
    | ok pt =>
      rw [h2] at h
      have h3 := pyIndex_nat (i := 0) h2
      have h4 := pyIndex_nat h1
      cases pts with
      | nil => cases h3
      | cons p rest =>
        simp only [List.getElem?_cons_zero, Option.some.injEq] at h3
        subst h3
        cases h5 : n.flags with
        | none => simp only [h5] at h; cases h
        | some flags =>
          by_cases hk : n.type = .curve
          · have : rest.length = 2 := by
              simp only [h5, hk] at h
              split at h
              · next heq => simp only [List.cons.injEq] at heq; rw [heq.2]; rfl
              · cases h
            exact ⟨⟨n.type, flagSmooth flags, flagOpen flags, dictGet labels i, p, rest⟩, rfl, rfl,
              ⟨flags, h5, by simp [flagSmooth], by simp [flagOpen]⟩, rest, h4, by simp [hk, this]⟩
          · exact ⟨⟨n.type, flagSmooth flags, flagOpen flags, dictGet labels i, p, []⟩, rfl, rfl,
              ⟨flags, h5, by simp [flagSmooth], by simp [flagOpen]⟩, rest, h4, by simp [hk]⟩

/-- **C55** Together with `C55_contours`: a list of nodes that starts with a "move" is converted if and only if each node
has flags and points in the master, a curve three of them; else an exception is raised and nothing is dropped
silently. -/
theorem C55_malformed {nodes : List MMNode} {labels : List (Int × PyStr)} {m : Nat} {r : List UfoContour × List (PyStr × PyStr)}
    (h : extractContours nodes labels m false = .ok r) : ∃ l, NodesAre labels m nodes l := by
  have key : ∀ (ns : List MMNode) (k : Nat) (st st' : ContourState), contourLoop labels m false st k ns = .ok st' →
      ∃ l : List MasterNode, ns.length = l.length ∧ ∀ (i : Nat) n a, ns[i]? = some n → l[i]? = some a → NodeIs labels m (k + i) n a := by
    intro ns
    induction ns with
    | nil => intro k st st' _; exact ⟨[], rfl, fun i n a hi => by simp at hi⟩
    | cons n ns ih =>
      intro k st st' h
      rw [contourLoop] at h
      cases h1 : contourStep labels m false st k n with
      | error e => rw [h1] at h; cases h
      | ok st1 =>
        rw [h1] at h
        obtain ⟨a, ha⟩ := contourStep_view h1
        obtain ⟨l, h2, h3⟩ := ih (k + 1) st1 st' h
        refine ⟨a :: l, by simp [h2], fun i n' a' hi hi' => ?_⟩
        cases i with
        | zero =>
          simp only [List.getElem?_cons_zero, Option.some.injEq] at hi hi'
          subst hi; subst hi'; exact ha
        | succ i =>
          have := h3 i n' a' hi hi'
          rwa [show k + 1 + i = k + (i + 1) by omega] at this
  unfold extractContours at h
  cases h1 : contourLoop labels m false ⟨[], [], [], false, false⟩ 0 nodes with
  | error e => rw [h1] at h; cases h
  | ok st =>
    obtain ⟨l, h2, h3⟩ := key nodes 0 _ _ h1
    exact ⟨l, h2, by simpa using h3⟩

/-! ### A concrete case -/

/-- a closed contour that ends with a curve to its start, both of which have labels, and a quadratic one -/
def exampleNodes : List MMNode :=
  [⟨.move, some 0, [[(0, 0)], [(0, 0)]]⟩, ⟨.line, some 0, [[(100, 0)], [(120, 0)]]⟩,
   ⟨.curve, some 1, [[(0, 0), (100, 50), (0, 50)], [(0, 0), (120, 60), (0, 60)]]⟩,
   ⟨.move, some 0, [[(10, 10)], [(12, 10)]]⟩, ⟨.qcurve, some 0, [[(20, 10)], [(24, 10)]]⟩, ⟨.line, some 1, [[(20, 20)], [(24, 20)]]⟩,
   ⟨.qcurve, some 0, [[(10, 20)], [(12, 20)]]⟩]

def exampleNodeLabels : List (Int × PyStr) := [(0, lit "ab01"), (2, lit "sh01"), (4, lit "mh01")]

example : extractContours exampleNodes exampleNodeLabels 1 false = .ok
    ([[⟨some .curve, true, some (lit "sh01"), (0, 0)⟩, ⟨some .line, false, none, (120, 0)⟩, ⟨none, false, none, (120, 60)⟩,
        ⟨none, false, none, (0, 60)⟩],
      [⟨some .qcurve, false, none, (12, 10)⟩, ⟨none, false, some (lit "mh01"), (24, 10)⟩, ⟨some .qcurve, true, none, (24, 20)⟩,
        ⟨none, false, none, (12, 20)⟩]],
     [(lit "ab01", lit "sh01")]) := by decide +kernel

/-- the nodes of the example in master 1 -/
def exampleMasterNodes : List (List MasterNode) :=
  [[⟨.move, false, false, some (lit "ab01"), (0, 0), []⟩, ⟨.line, false, false, none, (120, 0), []⟩,
    ⟨.curve, true, false, some (lit "sh01"), (0, 0), [(120, 60), (0, 60)]⟩],
   [⟨.move, false, false, none, (12, 10), []⟩, ⟨.qcurve, false, false, some (lit "mh01"), (24, 10), []⟩,
    ⟨.line, true, false, none, (24, 20), []⟩, ⟨.qcurve, false, false, none, (12, 20), []⟩]]

example : NodesAre exampleNodeLabels 1 exampleNodes exampleMasterNodes.flatten := by
  refine ⟨rfl, fun i n a hi ha => ?_⟩
  have hl := (List.getElem?_eq_some_iff.1 hi).1
  simp only [exampleNodes, List.length_cons, List.length_nil] at hl
  simp only [exampleNodes, exampleMasterNodes] at hi ha
  match i, hl with
  | 0, _ => cases hi; cases ha; exact ⟨rfl, by decide, ⟨_, rfl, by decide, by decide⟩, _, rfl, by decide⟩
  | 1, _ => cases hi; cases ha; exact ⟨rfl, by decide, ⟨_, rfl, by decide, by decide⟩, _, rfl, by decide⟩
  | 2, _ => cases hi; cases ha; exact ⟨rfl, by decide, ⟨_, rfl, by decide, by decide⟩, _, rfl, by decide⟩
  | 3, _ => cases hi; cases ha; exact ⟨rfl, by decide, ⟨_, rfl, by decide, by decide⟩, _, rfl, by decide⟩
  | 4, _ => cases hi; cases ha; exact ⟨rfl, by decide, ⟨_, rfl, by decide, by decide⟩, _, rfl, by decide⟩
  | 5, _ => cases hi; cases ha; exact ⟨rfl, by decide, ⟨_, rfl, by decide, by decide⟩, _, rfl, by decide⟩
  | 6, _ => cases hi; cases ha; exact ⟨rfl, by decide, ⟨_, rfl, by decide, by decide⟩, _, rfl, by decide⟩

example : ∀ c ∈ exampleMasterNodes, IsContour c := by
  intro c hc
  simp only [exampleMasterNodes, List.mem_cons, List.not_mem_nil, or_false] at hc
  rcases hc with rfl | rfl
  · exact ⟨_, _, rfl, rfl, by decide⟩
  · exact ⟨_, _, rfl, rfl, by decide⟩

example : exampleMasterNodes.map vfbPath =
    [some ⟨(0, 0), [⟨.line, [], (120, 0)⟩, ⟨.curve, [(120, 60), (0, 60)], (0, 0)⟩], [], true⟩,
     some ⟨(12, 10), [⟨.qcurve, [(24, 10)], (24, 20)⟩, ⟨.qcurve, [(12, 20)], (12, 10)⟩], [], true⟩] := by decide +kernel

example : WellFormedCmd [(lit "code", lit "alignb"), (lit "point", lit "ab01"), (lit "zone", lit "base")] :=
  ⟨_, rfl, .inl (by decide)⟩

example : finalizeTtPointLabels [(lit "ab01", lit "sh01")] [[(lit "code", lit "alignb"), (lit "point", lit "ab01"), (lit "zone", lit "base")]] =
    .ok [[(lit "code", lit "alignb"), (lit "point", lit "sh01"), (lit "zone", lit "base")]] := by decide +kernel

end Verif.Props
