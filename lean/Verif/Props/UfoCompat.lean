import Verif.Spec.UfoCompat
import Verif.Props.UfoPaths
/-! C82: the outlines of the masters of a glyph can be interpolated. -/
set_option autoImplicit false
namespace Verif.Props
open Verif Verif.Spec

/-- the same node in two masters -/
structure Alike (a b : MasterNode) : Prop where
  kind : a.kind = b.kind
  smooth : a.smooth = b.smooth
  isOpen : a.isOpen = b.isOpen
  name : a.name = b.name
  ctrl : a.ctrl.length = b.ctrl.length

theorem alike_of {labels : List (Int × PyStr)} {m m' i : Nat} {n : MMNode} {a b : MasterNode} (h : NodeIs labels m i n a)
    (h' : NodeIs labels m' i n b) : Alike a b := by
  obtain ⟨a1, a2, ⟨f, a3, a4, a5⟩, r, a6, a7⟩ := h
  obtain ⟨b1, b2, ⟨f', b3, b4, b5⟩, r', b6, b7⟩ := h'
  rw [a3] at b3
  cases b3
  refine ⟨a1.trans b1.symm, ?_, ?_, a2.trans b2.symm, ?_⟩
  · rw [Bool.eq_iff_iff, a4, b4]
  · rw [Bool.eq_iff_iff, a5, b5]
  · by_cases hk : a.kind = .curve
    · rw [if_pos hk] at a7
      rw [if_pos (by rw [b1, ← a1]; exact hk)] at b7
      rw [a7.2, b7.2]
    · rw [if_neg hk] at a7
      rw [if_neg (by rw [b1, ← a1]; exact hk)] at b7
      rw [a7, b7]

theorem nodes_alike {labels : List (Int × PyStr)} {m m' : Nat} {nodes : List MMNode} {l l' : List MasterNode}
    (h : NodesAre labels m nodes l) (h' : NodesAre labels m' nodes l') : List.Forall₂ Alike l l' := by
  rw [List.forall₂_iff_get]
  refine ⟨by rw [← h.1, h'.1], fun i hi hi' => ?_⟩
  have hn : i < nodes.length := by rw [h.1]; exact hi
  exact alike_of (h.2 i nodes[i] _ (List.getElem?_eq_getElem hn) (List.getElem?_eq_getElem hi))
    (h'.2 i nodes[i] _ (List.getElem?_eq_getElem hn) (List.getElem?_eq_getElem hi'))

theorem forall₂_split {l a b : List MasterNode} (h : List.Forall₂ Alike (a ++ b) l) :
    ∃ a' b', l = a' ++ b' ∧ List.Forall₂ Alike a a' ∧ List.Forall₂ Alike b b' := by
  induction a generalizing l with
  | nil => exact ⟨[], l, rfl, .nil, h⟩
  | cons x a ih =>
    cases h with
    | cons h1 h2 =>
      obtain ⟨a', b', rfl, h3, h4⟩ := ih h2
      exact ⟨_ :: a', b', rfl, .cons h1 h3, h4⟩

theorem alike_moves {a b : List MasterNode} (h : List.Forall₂ Alike a b) (ha : ∀ x ∈ a, x.kind ≠ .move) : ∀ x ∈ b, x.kind ≠ .move := by
  induction h with
  | nil => intro x hx; cases hx
  | cons h1 _ ih =>
    intro x hx
    rcases List.mem_cons.1 hx with rfl | hx
    · rw [← h1.kind]; exact ha _ List.mem_cons_self
    · exact ih (fun y hy => ha y (List.mem_cons_of_mem _ hy)) x hx

/-- the contours of two masters -/
theorem contours_alike : ∀ (cs cs' : List (List MasterNode)), (∀ c ∈ cs, IsContour c) → (∀ c ∈ cs', IsContour c) →
    List.Forall₂ Alike cs.flatten cs'.flatten → List.Forall₂ (List.Forall₂ Alike) cs cs' := by
  intro cs
  induction cs with
  | nil =>
    intro cs' _ hc' h
    cases cs' with
    | nil => exact .nil
    | cons c cs' =>
      obtain ⟨mv, rest, rfl, -, -⟩ := hc' c List.mem_cons_self
      cases h
  | cons c cs ih =>
    intro cs' hc hc' h
    rw [List.flatten_cons] at h
    obtain ⟨d, e, he, h1, h2⟩ := forall₂_split h
    obtain ⟨mv, rest, rfl, hm, hr⟩ := hc c List.mem_cons_self
    cases h1 with
    | @cons _ mv' _ rest' hmv hrest =>
      have hd : IsContour (mv' :: rest') := ⟨mv', rest', rfl, by rw [← hmv.kind]; exact hm, alike_moves hrest hr⟩
      have hhead : ∀ a, e.head? = some a → a.kind = .move := by
        intro a ha
        cases e with
        | nil => cases ha
        | cons y e =>
          cases ha
          cases hf : cs.flatten with
          | nil => rw [hf] at h2; cases h2
          | cons z fl =>
            rw [hf] at h2
            cases h2 with
            | cons h3 _ =>
              rw [← h3.kind]
              exact flatten_head (fun c h => hc c (List.mem_cons_of_mem _ h)) z (by rw [hf]; rfl)
      obtain ⟨es, hes, hesc, -⟩ := C55_split e hhead
      have hu := contours_unique ((mv' :: rest') :: es) cs' (by
        intro c hcc
        rcases List.mem_cons.1 hcc with rfl | hcc
        · exact hd
        · exact hesc c hcc) hc' (by rw [List.flatten_cons, ← hes, he])
      rw [hu]
      exact .cons (.cons hmv hrest) (ih es (fun c h => hc c (List.mem_cons_of_mem _ h)) hesc (by rw [← hes]; exact h2))

theorem nodePts_shape {l l' : List MasterNode} (h : List.Forall₂ Alike l l') (q : Bool) :
    (nodePts q l).map pointShape = (nodePts q l').map pointShape := by
  induction h generalizing q with
  | nil => rfl
  | @cons a b l l' hab _ ih =>
    have hctrl : (a.ctrl.map fun p => pointShape ⟨none, false, none, p⟩) = b.ctrl.map fun p => pointShape ⟨none, false, none, p⟩ := by
      have : ∀ c : List Point, (c.map fun p => pointShape ⟨none, false, none, p⟩) = List.replicate c.length (none, false, none) := by
        intro c
        induction c with
        | nil => rfl
        | cons x c ih => simp [List.replicate_succ, ih, pointShape]
      rw [this, this, hab.ctrl]
    rw [nodePts, nodePts, ← hab.kind]
    cases hk : a.kind with
    | qcurve => simp [pointShape, hab.name, ih]
    | curve =>
      dsimp only
      rw [List.map_append, List.map_append, List.map_map, List.map_map]
      rw [show (pointShape ∘ fun p => (⟨none, false, none, p⟩ : UfoPoint)) = fun p => pointShape ⟨none, false, none, p⟩ from rfl, hctrl]
      simp [pointShape, hab.name, hab.smooth, ih]
    | move => simp [pointShape, hab.name, hab.smooth, ih]
    | line => simp [pointShape, hab.name, hab.smooth, ih]

/-- closing a contour of two or more points -/
def closeShape (first : UfoPoint) (mid : List UfoPoint) (last : UfoPoint) : UfoContour :=
  match last.seg with
  | none => { first with seg := some .qcurve } :: (mid ++ [last])
  | some .move => first :: (mid ++ [last])
  | some .curve => if last.pt = first.pt then { last with name := last.name.or first.name } :: mid else { first with seg := some .line } :: (mid ++ [last])
  | some _ => { first with seg := some .line } :: (mid ++ [last])

theorem flush_two {first last : UfoPoint} {mid : List UfoPoint} {out : UfoContour} {ren : Option (PyStr × PyStr)}
    (h : flushContour (first :: (mid ++ [last])) false = .ok (out, ren)) : out = closeShape first mid last := by
  have hl : (first :: (mid ++ [last])).getLast? = some last := by rw [← List.cons_append, List.getLast?_concat]
  have hne : ∃ y ys, mid ++ [last] = y :: ys := by cases mid <;> simp
  obtain ⟨y, ys, hy⟩ := hne
  have hd : (mid ++ [last]).dropLast = mid := by simp
  unfold flushContour at h
  rw [if_neg (by simp), hl] at h
  dsimp only at h
  unfold closeShape
  cases hs : last.seg with
  | none => rw [hs] at h; cases h; rfl
  | some k =>
    rw [hs] at h
    cases k with
    | move => cases h; rfl
    | line =>
      dsimp only at h ⊢
      unfold applyClosepath at h
      rw [hl] at h
      dsimp only at h
      rw [if_neg (by rw [hs]; simp)] at h
      cases h
      rfl
    | qcurve =>
      dsimp only at h ⊢
      unfold applyClosepath at h
      rw [hl] at h
      dsimp only at h
      rw [if_neg (by rw [hs]; simp)] at h
      cases h
      rfl
    | curve =>
      dsimp only at h ⊢
      unfold applyClosepath at h
      rw [hl] at h
      dsimp only at h
      by_cases hp : last.pt = first.pt
      · rw [if_pos ⟨hp, by rw [hs]; simp, by rw [hs]; simp⟩] at h
        rw [if_pos hp]
        rw [hy] at h
        dsimp only at h
        rw [← hy, hd] at h
        cases hf : first.name with
        | none => rw [hf] at h; cases h; cases last; cases hs; simp
        | some x =>
          rw [hf] at h
          dsimp only at h
          cases hx : last.name with
          | none => rw [hx] at h; cases h; simp [hs]
          | some z => rw [hx] at h; cases h; cases last; cases hs; cases hx; simp
      · rw [if_neg (fun hc => hp hc.1)] at h
        rw [if_neg hp]
        cases h
        rfl

theorem concat_shape {a b : List UfoPoint} {x y : UfoPoint} (h : (a ++ [x]).map pointShape = (b ++ [y]).map pointShape) :
    a.map pointShape = b.map pointShape ∧ pointShape x = pointShape y := by
  rw [List.map_append, List.map_append] at h
  have hlen : (a.map pointShape).length = (b.map pointShape).length := by
    have := congrArg List.length h
    simp only [List.length_append, List.length_map, List.length_cons, List.length_nil] at this ⊢
    omega
  obtain ⟨h1, h2⟩ := List.append_inj h hlen
  exact ⟨h1, by simpa using h2⟩

theorem last_point (q : Bool) (n : MasterNode) : ∃ pre p, nodePts q [n] = pre ++ [p] ∧ p.pt = n.pt ∧ (p.seg = some .curve ↔ n.kind = .curve) := by
  cases hk : n.kind with
  | qcurve => exact ⟨[], _, by rw [nodePts, hk]; rfl, rfl, by simp⟩
  | curve => exact ⟨_, _, by rw [nodePts, hk]; rfl, rfl, by simp⟩
  | move => exact ⟨[], _, by rw [nodePts, hk]; rfl, rfl, by cases q <;> simp⟩
  | line => exact ⟨[], _, by rw [nodePts, hk]; rfl, rfl, by cases q <;> simp⟩

/-- one contour in two masters -/
theorem flush_compatible {c c' : List MasterNode} {out out' : UfoContour} (ha : List.Forall₂ Alike c c') (h : FlushOf c out)
    (h' : FlushOf c' out') : Interpolable out out' ↔ (Joined c ↔ Joined c') := by
  obtain ⟨mv, rest, ren, rfl, hm, hr, hf⟩ := h
  obtain ⟨mv', rest', ren', rfl, hm', hr', hf'⟩ := h'
  cases ha with
  | cons hmv hrest =>
    have hsh := nodePts_shape hrest false
    have hmvs : pointShape ⟨some .move, mv.smooth, mv.name, mv.pt⟩ = pointShape ⟨some .move, mv'.smooth, mv'.name, mv'.pt⟩ := by
      unfold pointShape; rw [hmv.smooth, hmv.name]
    rw [← hmv.isOpen] at hf'
    cases ho : mv.isOpen with
    | true =>
      rw [ho] at hf hf'
      cases hf; cases hf'
      have hj : ¬ Joined (mv :: rest) := by rintro ⟨a, b, h1, -, h2, -⟩; cases h1; rw [ho] at h2; cases h2
      have hj' : ¬ Joined (mv' :: rest') := by
        rintro ⟨a, b, h1, -, h2, -⟩; cases h1; rw [← hmv.isOpen, ho] at h2; cases h2
      refine ⟨fun _ => by simp [hj, hj'], fun _ => ?_⟩
      unfold Interpolable rawContour
      rw [List.map_cons, List.map_cons, hmvs, hsh]
    | false =>
      rw [ho] at hf hf'
      rcases List.eq_nil_or_concat rest with rfl | ⟨init, n, rfl⟩
      · cases hrest
        cases hf; cases hf'
        have hj : ∀ x : MasterNode, x.kind = .move → ¬ Joined [x] := by
          rintro x hx ⟨a, b, -, h1, -, h2, -⟩; cases h1; rw [show ([x].getLast (by simp)) = x from rfl, hx] at h2; cases h2
        refine ⟨fun _ => by simp [hj mv hm, hj mv' hm'], fun _ => ?_⟩
        unfold Interpolable rawContour
        simp only [nodePts, List.map_cons, List.map_nil, hmvs]
      · rw [List.concat_eq_append] at *
        obtain ⟨init', b', rfl, hinit, hn⟩ := forall₂_split hrest
        cases hn with
        | @cons _ n' _ _ hnn hnil =>
          cases hnil
          obtain ⟨pre, p, e1, e2, e3⟩ := last_point (endQ false init) n
          obtain ⟨pre', p', e1', e2', e3'⟩ := last_point (endQ false init') n'
          have r1 : rawContour mv (init ++ [n]) = ⟨some .move, mv.smooth, mv.name, mv.pt⟩ :: ((nodePts false init ++ pre) ++ [p]) := by
            unfold rawContour; rw [nodePts_append, e1, List.append_assoc]
          have r2 : rawContour mv' (init' ++ [n']) = ⟨some .move, mv'.smooth, mv'.name, mv'.pt⟩ :: ((nodePts false init' ++ pre') ++ [p']) := by
            unfold rawContour; rw [nodePts_append, e1', List.append_assoc]
          rw [nodePts_append, nodePts_append, e1, e1', ← List.append_assoc, ← List.append_assoc] at hsh
          obtain ⟨s1, s2⟩ := concat_shape hsh
          rw [r1] at hf
          rw [r2] at hf'
          rw [flush_two hf, flush_two hf']
          generalize nodePts false init ++ pre = mid at *
          generalize nodePts false init' ++ pre' = mid' at *
          have hjoin : Joined (mv :: (init ++ [n])) ↔ p.seg = some .curve ∧ p.pt = mv.pt := by
            rw [e3, e2]
            constructor
            · rintro ⟨a, b, h1, h2, -, h3, h4⟩
              cases h1
              rw [← List.cons_append, List.getLast?_concat] at h2
              cases h2
              exact ⟨h3, h4⟩
            · rintro ⟨h3, h4⟩
              exact ⟨mv, n, rfl, by rw [← List.cons_append, List.getLast?_concat], ho, h3, h4⟩
          have hjoin' : Joined (mv' :: (init' ++ [n'])) ↔ p'.seg = some .curve ∧ p'.pt = mv'.pt := by
            rw [e3', e2']
            constructor
            · rintro ⟨a, b, h1, h2, -, h3, h4⟩
              cases h1
              rw [← List.cons_append, List.getLast?_concat] at h2
              cases h2
              exact ⟨h3, h4⟩
            · rintro ⟨h3, h4⟩
              exact ⟨mv', n', rfl, by rw [← List.cons_append, List.getLast?_concat], by rw [← hmv.isOpen]; exact ho, h3, h4⟩
          rw [hjoin, hjoin']
          have s2' := s2
          unfold pointShape at s2'
          simp only [Prod.mk.injEq] at s2'
          have hmid : mid.length = mid'.length := by simpa using congrArg List.length s1
          unfold Interpolable closeShape
          rw [← s2'.1]
          cases hs : p.seg with
          | none =>
            refine ⟨fun _ => by simp, fun _ => ?_⟩
            simp only [List.map_cons, List.map_append, List.map_nil, s1, s2]
            simp [pointShape, hmv.smooth, hmv.name]
          | some k =>
            cases k with
            | move =>
              refine ⟨fun _ => by simp, fun _ => ?_⟩
              simp only [List.map_cons, List.map_append, List.map_nil, s1, s2, hmvs]
            | line =>
              refine ⟨fun _ => by simp, fun _ => ?_⟩
              simp only [List.map_cons, List.map_append, List.map_nil, s1, s2]
              simp [pointShape, hmv.smooth, hmv.name]
            | qcurve =>
              refine ⟨fun _ => by simp, fun _ => ?_⟩
              simp only [List.map_cons, List.map_append, List.map_nil, s1, s2]
              simp [pointShape, hmv.smooth, hmv.name]
            | curve =>
              dsimp only
              by_cases hp : p.pt = mv.pt <;> by_cases hp' : p'.pt = mv'.pt
              · rw [if_pos hp, if_pos hp']
                refine ⟨fun _ => by simp [hp, hp'], fun _ => ?_⟩
                simp only [List.map_cons, s1]
                simp [pointShape, s2'.1, s2'.2.1, s2'.2.2, hmv.name]
              · rw [if_pos hp, if_neg hp']
                constructor
                · intro hc
                  have := congrArg List.length hc
                  simp at this
                  omega
                · intro hc
                  exact absurd (hc.1 ⟨rfl, hp⟩).2 hp'
              · rw [if_neg hp, if_pos hp']
                constructor
                · intro hc
                  have := congrArg List.length hc
                  simp at this
                  omega
                · intro hc
                  exact absurd (hc.2 ⟨rfl, hp'⟩).2 hp
              · rw [if_neg hp, if_neg hp']
                refine ⟨fun _ => by simp [hp, hp'], fun _ => ?_⟩
                simp only [List.map_cons, List.map_append, List.map_nil, s1, s2]
                simp [pointShape, hmv.smooth, hmv.name]

/-- **C82.** The outlines of two masters of a glyph can be interpolated if and only if each closed contour that ends with a curve ends
at its start in both masters or in none of them. -/
theorem C82_compatible {nodes : List MMNode} {labels : List (Int × PyStr)} {m m' : Nat} {cs cs' : List (List MasterNode)}
    {outs outs' : List UfoContour} {ren ren' : List (PyStr × PyStr)}
    (hn : NodesAre labels m nodes cs.flatten) (hc : ∀ c ∈ cs, IsContour c)
    (hn' : NodesAre labels m' nodes cs'.flatten) (hc' : ∀ c ∈ cs', IsContour c)
    (h : extractContours nodes labels m false = .ok (outs, ren)) (h' : extractContours nodes labels m' false = .ok (outs', ren')) :
    OutlinesInterpolable outs outs' ↔
      ∀ (k : Nat) (c c' : List MasterNode), cs[k]? = some c → cs'[k]? = some c' → (Joined c ↔ Joined c') := by
  obtain ⟨o1, r1, e1, hcor, -⟩ := contours_flush hn hc
  obtain ⟨o2, r2, e2, hcor', -⟩ := contours_flush hn' hc'
  rw [h] at e1
  rw [h'] at e2
  cases e1; cases e2
  have hall := contours_alike cs cs' hc hc' (nodes_alike hn hn')
  have hlen := hall.length_eq
  have hget : ∀ (k : Nat) (c c' : List MasterNode), cs[k]? = some c → cs'[k]? = some c' → List.Forall₂ Alike c c' := by
    intro k c c' h1 h2
    rw [List.forall₂_iff_get] at hall
    obtain ⟨i1, rfl⟩ := List.getElem?_eq_some_iff.1 h1
    obtain ⟨i2, rfl⟩ := List.getElem?_eq_some_iff.1 h2
    exact hall.2 k i1 i2
  constructor
  · intro hco k c c' h1 h2
    have i1 := (List.getElem?_eq_some_iff.1 h1).1
    have i2 := (List.getElem?_eq_some_iff.1 h2).1
    have g1 : outs[k]? = some (outs[k]'(by rw [← hcor.1]; exact i1)) := List.getElem?_eq_getElem _
    have g2 : outs'[k]? = some (outs'[k]'(by rw [← hcor'.1]; exact i2)) := List.getElem?_eq_getElem _
    exact (flush_compatible (hget k c c' h1 h2) (hcor.2 k _ _ h1 g1).2 (hcor'.2 k _ _ h2 g2).2).1 (hco.2 k _ _ g1 g2)
  · intro hj
    refine ⟨by rw [← hcor.1, ← hcor'.1, hlen], fun k o o' h1 h2 => ?_⟩
    have i1 := (List.getElem?_eq_some_iff.1 h1).1
    have i2 := (List.getElem?_eq_some_iff.1 h2).1
    have g1 : cs[k]? = some (cs[k]'(by rw [hcor.1]; exact i1)) := List.getElem?_eq_getElem _
    have g2 : cs'[k]? = some (cs'[k]'(by rw [hcor'.1]; exact i2)) := List.getElem?_eq_getElem _
    exact (flush_compatible (hget k _ _ g1 g2) (hcor.2 k _ _ g1 h1).2 (hcor'.2 k _ _ g2 h2).2).2 (hj k _ _ g1 g2)

/-- In any case the outlines of all masters have got the same number of contours. -/
theorem C82_contour_count {nodes : List MMNode} {labels : List (Int × PyStr)} {m m' : Nat}
    {outs outs' : List UfoContour} {ren ren' : List (PyStr × PyStr)} (hmv : ∀ n, nodes.head? = some n → n.type = .move)
    (h : extractContours nodes labels m false = .ok (outs, ren)) (h' : extractContours nodes labels m' false = .ok (outs', ren')) :
    outs.length = outs'.length := by
  have split : ∀ {m : Nat} {r : List UfoContour × List (PyStr × PyStr)}, extractContours nodes labels m false = .ok r →
      ∃ cs : List (List MasterNode), NodesAre labels m nodes cs.flatten ∧ ∀ c ∈ cs, IsContour c := by
    intro m r hr
    obtain ⟨l, hl⟩ := C55_malformed hr
    obtain ⟨cs, rfl, hc, -⟩ := C55_split l (by
      intro a ha
      cases hnodes : nodes with
      | nil =>
        have := hl.1
        rw [hnodes] at this
        cases l with
        | nil => cases ha
        | cons x l => simp at this
      | cons n ns =>
        have := hl.2 0 n a (by rw [hnodes]; rfl) (by cases l with
          | nil => cases ha
          | cons x l => cases ha; rfl)
        rw [this.1]
        exact hmv n (by rw [hnodes]; rfl))
    exact ⟨cs, hl, hc⟩
  obtain ⟨cs, hn, hc⟩ := split h
  obtain ⟨cs', hn', hc'⟩ := split h'
  obtain ⟨o1, r1, e1, hcor, -⟩ := contours_flush hn hc
  obtain ⟨o2, r2, e2, hcor', -⟩ := contours_flush hn' hc'
  rw [h] at e1
  rw [h'] at e2
  cases e1; cases e2
  rw [← hcor.1, ← hcor'.1]
  exact (contours_alike cs cs' hc hc' (nodes_alike hn hn')).length_eq

/-- a contour of a line and a curve that ends at the start in the first master only -/
def exampleDrift : List MMNode :=
  [⟨.move, some 0, [[(0, 0)], [(0, 0)]]⟩, ⟨.line, some 0, [[(100, 0)], [(120, 0)]]⟩,
   ⟨.curve, some 0, [[(0, 0), (100, 50), (50, 100)], [(0, 1), (120, 50), (50, 100)]]⟩]

/-- **Known defect.** The two masters of this glyph have got the same nodes in the font, but outlines in the UFOs that cannot be
interpolated: two points on the curve in one, three in the other. -/
theorem C82_defect : ∃ outs outs', extractContours exampleDrift [] 0 false = .ok (outs, []) ∧ extractContours exampleDrift [] 1 false = .ok (outs', []) ∧
    outs.map List.length = [4] ∧ outs'.map List.length = [5] ∧ ¬ OutlinesInterpolable outs outs' := by
  refine ⟨_, _, rfl, rfl, rfl, rfl, ?_⟩
  intro hc
  have := congrArg List.length (hc.2 0 _ _ rfl rfl)
  simp at this

/-- two masters with contours that are closed in the same way; the hypotheses of C82 are met by both examples -/
example : ∃ outs outs', extractContours exampleNodes exampleNodeLabels 0 false = .ok outs ∧ extractContours exampleNodes exampleNodeLabels 1 false = .ok outs' ∧
    outs.1.map (fun c => c.map pointShape) = outs'.1.map (fun c => c.map pointShape) := by
  refine ⟨_, _, rfl, rfl, ?_⟩
  decide +kernel

end Verif.Props
