import Verif.Props.GlyphEntries
import Verif.Spec.Outline
/-! C41: outlines; C46: masks. -/
set_option autoImplicit false
namespace Verif.Props
open Verif Verif.Spec

/-- point `j` of every master -/
def rowOf (j : Nat) (node : MMNode) : List Point := node.points.map fun ps => ps.getD j (0, 0)

/-- all masters make a 32-bit step -/
def StepOk (refs row : List Point) : Prop :=
  row.length = refs.length ∧ ∀ q ∈ refs.zip row, PairFits (q.2.1 - q.1.1, q.2.2 - q.1.2)

/-- nodes that can be stored after the given reference coordinates -/
def NodesOk : List Point → List MMNode → Prop
  | _, [] => True
  | refs, node :: rest => NodeShape refs.length node ∧ StepOk refs (rowOf 0 node) ∧
    if node.type = .curve then StepOk (rowOf 0 node) (rowOf 1 node) ∧ StepOk (rowOf 1 node) (rowOf 2 node) ∧ NodesOk (rowOf 2 node) rest
    else NodesOk (rowOf 0 node) rest

theorem rowOf_length (j : Nat) (node : MMNode) : (rowOf j node).length = node.points.length := by simp [rowOf]

theorem column_ok (j : Nat) (points : List (List Point)) (h : ∀ ps ∈ points, j < ps.length) :
    column j points.length points = .ok (points.map fun ps => ps.getD j (0, 0)) := by
  induction points with
  | nil => rfl
  | cons ps rest ih =>
    rw [List.length_cons, column, List.getElem?_eq_getElem (h ps (by simp)), ih fun q hq => h q (by simp [hq])]
    simp [List.getD_eq_getElem?_getD, h ps (by simp)]

theorem enc_row {refs row : List Point} (h : StepOk refs row) : Enc (writeRow refs row) (readAbsolutePoint refs) row := by
  unfold writeRow readAbsolutePoint
  induction refs generalizing row with
  | nil =>
    obtain ⟨h1, -⟩ := h
    cases row with
    | nil => exact Enc.pure []
    | cons p row => simp at h1
  | cons ref refs ih =>
    obtain ⟨h1, h2⟩ := h
    cases row with
    | nil => simp at h1
    | cons p row =>
      rw [List.zip_cons_cons, W.all_cons, R.forEach]
      refine Enc.bind (a := p) ?_ (Enc.last (ih ⟨by simpa using h1, fun q hq => h2 q (by simp [hq])⟩) rfl)
      refine Enc.last (enc_pair (p := (p.1 - ref.1, p.2 - ref.2)) (h2 (ref, p) (by simp))) ?_
      congr 1
      obtain ⟨a, b⟩ := p
      obtain ⟨c, d⟩ := ref
      simp only [Prod.mk.injEq]
      omega

theorem post_row {N : Nat} (refs : List Point) : Post N (readAbsolutePoint refs) (StepOk refs) := by
  unfold readAbsolutePoint
  induction refs with
  | nil => exact Post.pure ⟨rfl, by simp⟩
  | cons ref refs ih =>
    rw [R.forEach]
    refine Post.bind (Post.bind (Q := fun p : Point => PairFits (p.1 - ref.1, p.2 - ref.2)) post_pair fun rel hrel => Post.pure ?_)
      fun p hp => Post.bind ih fun row hrow => Post.pure ⟨by simp [hrow.1], ?_⟩
    · simp only [show ref.1 + rel.1 - ref.1 = rel.1 by omega, show ref.2 + rel.2 - ref.2 = rel.2 by omega]
      exact hrel
    · intro q hq
      rw [List.zip_cons_cons, List.mem_cons] at hq
      rcases hq with rfl | hq
      · exact hp
      · exact hrow.2 q hq

theorem append1 {refs p1 : List Point} (h : p1.length = refs.length) :
    appendRow (refs.map fun _ => []) p1 = p1.map fun a => [a] := by
  unfold appendRow
  induction refs generalizing p1 with
  | nil => cases p1 with
    | nil => rfl
    | cons a p1 => simp at h
  | cons r refs ih => cases p1 with
    | nil => simp at h
    | cons a p1 => simpa using ih (p1 := p1) (by simpa using h)

theorem append3 {refs p1 p2 p3 : List Point} (h1 : p1.length = refs.length) (h2 : p2.length = p1.length) (h3 : p3.length = p2.length) :
    (appendRow (appendRow (appendRow (refs.map fun _ => []) p1) p2) p3).length = refs.length ∧
    (∀ ps ∈ appendRow (appendRow (appendRow (refs.map fun _ => []) p1) p2) p3, ps.length = 3) ∧
    (appendRow (appendRow (appendRow (refs.map fun _ => []) p1) p2) p3).map (fun ps => ps.getD 0 (0, 0)) = p1 ∧
    (appendRow (appendRow (appendRow (refs.map fun _ => []) p1) p2) p3).map (fun ps => ps.getD 1 (0, 0)) = p2 ∧
    (appendRow (appendRow (appendRow (refs.map fun _ => []) p1) p2) p3).map (fun ps => ps.getD 2 (0, 0)) = p3 := by
  unfold appendRow
  induction refs generalizing p1 p2 p3 with
  | nil =>
    obtain rfl := List.eq_nil_of_length_eq_zero h1
    obtain rfl := List.eq_nil_of_length_eq_zero h2
    obtain rfl := List.eq_nil_of_length_eq_zero h3
    simp
  | cons r refs ih =>
    match p1, p2, p3, h1, h2, h3 with
    | a :: p1, b :: p2, c :: p3, h1, h2, h3 =>
      obtain ⟨i1, i2, i3, i4, i5⟩ := ih (p1 := p1) (p2 := p2) (p3 := p3) (by simpa using h1) (by simpa using h2) (by simpa using h3)
      refine ⟨by simpa using i1, ?_, by simpa using i3, by simpa using i4, by simpa using i5⟩
      intro ps hps
      simp only [List.map_cons, List.zipWith_cons_cons, List.mem_cons] at hps
      rcases hps with rfl | hps
      · rfl
      · exact i2 ps hps

theorem points1 {points : List (List Point)} (h : ∀ ps ∈ points, ps.length = 1) :
    (points.map fun ps => ps.getD 0 (0, 0)).map (fun a => [a]) = points := by
  rw [List.map_map]
  have : ∀ ps ∈ points, ((fun a => [a]) ∘ fun ps : List Point => ps.getD 0 (0, 0)) ps = id ps := by
    intro ps hps
    match ps, h ps hps with
    | [a], _ => rfl
  rw [List.map_congr_left this, List.map_id]

theorem points3 {refs : List Point} {points : List (List Point)} (hl : points.length = refs.length) (h : ∀ ps ∈ points, ps.length = 3) :
    appendRow (appendRow (appendRow (refs.map fun _ => []) (points.map fun ps => ps.getD 0 (0, 0)))
      (points.map fun ps => ps.getD 1 (0, 0))) (points.map fun ps => ps.getD 2 (0, 0)) = points := by
  unfold appendRow
  induction points generalizing refs with
  | nil => simp
  | cons ps points ih =>
    cases refs with
    | nil => simp at hl
    | cons r refs =>
      have := ih (refs := refs) (by simpa using hl) fun q hq => h q (by simp [hq])
      match ps, h ps (by simp) with
      | [a, b, c], _ => simpa using this

theorem ofValue_value (c : PathCommand) : PathCommand.ofValue c.value = .ok c := by cases c <;> rfl

theorem value_range (c : PathCommand) : 0 ≤ c.value ∧ c.value < 16 := by cases c <;> decide

theorem enc_nodes (refs : List Point) (hr : refs ≠ []) (nodes : List MMNode) (h : NodesOk refs nodes) :
    Enc (writeNodes refs.length refs nodes) (readNodes nodes.length refs) nodes := by
  induction nodes generalizing refs with
  | nil => exact Enc.pure []
  | cons node rest ih =>
    obtain ⟨⟨⟨f, hf1, hf2⟩, hlen, hps⟩, hstep, hcurve⟩ := h
    have hv := value_range node.type
    have e1 : (f * 16 + node.type.value) % 16 = node.type.value := by omega
    have e2 : (f * 16 + node.type.value) / 16 = f := by omega
    have hbyte := enc_u8 (v := f * 16 + node.type.value) (by omega)
    have hne : ∀ j, rowOf j node ≠ [] := by
      intro j e
      have := congrArg List.length e
      rw [rowOf_length, hlen] at this
      exact hr (List.eq_nil_of_length_eq_zero this)
    obtain ⟨ps, l, hp⟩ : ∃ ps l, node.points = ps :: l := by
      cases hp : node.points with
      | nil => exact absurd (by simp [rowOf, hp]) (hne 0)
      | cons ps l => exact ⟨ps, l, rfl⟩
    have hpl : ps.length = pointCount node.type := hps ps (by simp [hp])
    unfold writeNodes
    rw [hp, hf1]
    simp only [Option.getD_some]
    rw [← hp, hpl, List.length_cons, readNodes]
    by_cases hc : node.type = .curve
    · rw [if_pos hc] at hcurve
      obtain ⟨s1, s2, hrest⟩ := hcurve
      have hps3 : ∀ ps ∈ node.points, ps.length = 3 := fun q hq => by rw [hps q hq, pointCount, if_pos hc]
      rw [show pointCount node.type = 3 by rw [pointCount, if_pos hc]]
      simp only [writeRows]
      have c0 := column_ok 0 node.points fun q hq => by rw [hps3 q hq]; omega
      have c1 := column_ok 1 node.points fun q hq => by rw [hps3 q hq]; omega
      have c2 := column_ok 2 node.points fun q hq => by rw [hps3 q hq]; omega
      rw [hlen] at c0 c1 c2
      rw [c0, W.withVal_ok, c1, W.withVal_ok, c2, W.withVal_ok]
      have hb : Enc (writeU8 (f * 16 + node.type.value) ++ (writeRow refs (rowOf 0 node) ++ (writeRow (rowOf 0 node) (rowOf 1 node) ++
          writeRow (rowOf 1 node) (rowOf 2 node)))) (readNode refs) (node, rowOf 2 node) := by
        unfold readNode
        refine Enc.bind hbyte ?_
        rw [e1, ofValue_value]
        show Enc _ (readAbsolutePoint refs >>= _) _
        refine Enc.bind (enc_row hstep) ?_
        rw [if_pos hc]
        refine Enc.bind (enc_row s1) (Enc.last (enc_row s2) ?_)
        rw [e2]
        congr 2
        unfold rowOf
        rw [points3 hlen hps3, ← hf1]
      have hlen2 : (rowOf 2 node).length = refs.length := by rw [rowOf_length, hlen]
      have hi := ih (rowOf 2 node) (hne 2) hrest
      rw [hlen2] at hi
      have := Enc.bind (f := fun r : MMNode × List Point => do
        let rest' ← readNodes rest.length r.2
        pure (r.1 :: rest')) hb (Enc.last hi rfl)
      simp only [W.seq_assoc] at this
      exact this
    · rw [if_neg hc] at hcurve
      have hps1 : ∀ ps ∈ node.points, ps.length = 1 := fun q hq => by rw [hps q hq, pointCount, if_neg hc]
      rw [show pointCount node.type = 1 by rw [pointCount, if_neg hc]]
      simp only [writeRows]
      have c0 := column_ok 0 node.points fun q hq => by rw [hps1 q hq]; omega
      rw [hlen] at c0
      rw [c0, W.withVal_ok]
      have hb : Enc (writeU8 (f * 16 + node.type.value) ++ writeRow refs (rowOf 0 node)) (readNode refs) (node, rowOf 0 node) := by
        unfold readNode
        refine Enc.bind hbyte ?_
        rw [e1, ofValue_value]
        show Enc _ (readAbsolutePoint refs >>= _) _
        refine Enc.last (enc_row hstep) ?_
        rw [if_neg hc, e2, append1 hstep.1, rowOf, points1 hps1, ← hf1]
      have hlen2 : (rowOf 0 node).length = refs.length := by rw [rowOf_length, hlen]
      have hi := ih (rowOf 0 node) (hne 0) hcurve
      rw [hlen2] at hi
      have := Enc.bind (f := fun r : MMNode × List Point => do
        let rest' ← readNodes rest.length r.2
        pure (r.1 :: rest')) hb (Enc.last hi rfl)
      simp only [W.seq_assoc] at this
      exact this

theorem post_nodes {N : Nat} (k : Nat) (refs : List Point) : Post N (readNodes k refs) fun nodes => nodes.length = k ∧ NodesOk refs nodes := by
  induction k generalizing refs with
  | zero => exact Post.pure ⟨rfl, trivial⟩
  | succ k ih =>
    rw [readNodes]
    refine Post.bind (P := fun r : MMNode × List Point => NodeShape refs.length r.1 ∧ StepOk refs (rowOf 0 r.1) ∧
      if r.1.type = .curve then StepOk (rowOf 0 r.1) (rowOf 1 r.1) ∧ StepOk (rowOf 1 r.1) (rowOf 2 r.1) ∧ r.2 = rowOf 2 r.1
      else r.2 = rowOf 0 r.1) ?_ fun r hr => Post.bind (ih r.2) fun rest hrest => Post.pure ⟨by simp [hrest.1], hr.1, hr.2.1, ?_⟩
    · unfold readNode
      refine Post.bind post_u8 fun b hb => Post.bind (Post.lift (P := fun _ => True) fun _ _ => trivial) fun cmd _ => ?_
      refine Post.bind (post_row refs) fun p1 h1 => Post.ite (fun hc => ?_) fun hc => ?_
      · refine Post.bind (post_row p1) fun p2 h2 => Post.bind (post_row p2) fun p3 h3 => Post.pure ?_
        obtain ⟨a1, a2, a3, a4, a5⟩ := append3 h1.1 h2.1 h3.1
        subst hc
        simp only [rowOf, a3, a4, a5, if_true]
        exact ⟨⟨⟨_, rfl, by omega, by omega⟩, a1, a2⟩, h1, h2, h3, trivial⟩
      · refine Post.pure ?_
        have e : (p1.map fun a : Point => [a]).map (fun ps => ps.getD 0 (0, 0)) = p1 := by
          rw [List.map_map]
          have : ∀ a ∈ p1, ((fun ps : List Point => ps.getD 0 (0, 0)) ∘ fun a => [a]) a = id a := fun _ _ => rfl
          rw [List.map_congr_left this, List.map_id]
        simp only [rowOf, append1 h1.1, if_neg hc, e]
        refine ⟨⟨⟨_, rfl, by omega, by omega⟩, by simp [h1.1], ?_⟩, h1, trivial⟩
        intro ps hps
        obtain ⟨a, -, rfl⟩ := List.mem_map.1 hps
        simp [pointCount, hc]
    · split
      · rename_i hc
        rw [if_pos hc] at hr
        obtain ⟨-, -, s1, s2, e⟩ := hr
        exact ⟨s1, s2, e ▸ hrest.2⟩
      · rename_i hc
        rw [if_neg hc] at hr
        obtain ⟨-, -, e⟩ := hr
        exact e ▸ hrest.2

/-! The recursive predicate says the same as the specification. -/

theorem stepsFrom_append (a : Point) (l m : List Point) : stepsFrom a (l ++ m) = stepsFrom a l ++ stepsFrom (l.getLastD a) m := by
  induction l generalizing a with
  | nil => rfl
  | cons p l ih =>
    rw [List.cons_append, stepsFrom, stepsFrom, List.cons_append, ih]
    congr 3
    cases l <;> rfl

theorem stepOk_iff (refs row : List Point) : StepOk refs row ↔
    row.length = refs.length ∧ ∀ m, m < refs.length → PairFits ((row.getD m (0, 0)).1 - (refs.getD m (0, 0)).1, (row.getD m (0, 0)).2 - (refs.getD m (0, 0)).2) := by
  refine and_congr_right fun hl => ⟨fun h m hm => ?_, fun h q hq => ?_⟩
  · have hm' : m < row.length := by omega
    have := h (refs[m], row[m]) (List.mem_of_getElem? (i := m) (List.getElem?_zip_eq_some.2 ⟨List.getElem?_eq_getElem hm, List.getElem?_eq_getElem hm'⟩))
    simpa [List.getD_eq_getElem?_getD, hm, hm'] using this
  · obtain ⟨m, hm⟩ := List.mem_iff_getElem?.1 hq
    obtain ⟨h1, h2⟩ := List.getElem?_zip_eq_some.1 hm
    have hlt : m < refs.length := (List.getElem?_eq_some_iff.1 h1).1
    have := h m hlt
    simpa [List.getD_eq_getElem?_getD, h1, h2] using this

theorem rowOf_getD {j m : Nat} {node : MMNode} {ps : List Point} (h : node.points[m]? = some ps) : (rowOf j node).getD m (0, 0) = ps.getD j (0, 0) := by
  simp [rowOf, List.getD_eq_getElem?_getD, h]

theorem nodesOk_iff (refs : List Point) (nodes : List MMNode) : NodesOk refs nodes ↔
    (∀ node ∈ nodes, NodeShape refs.length node) ∧
    ∀ m, m < refs.length → ∀ d ∈ stepsFrom (refs.getD m (0, 0)) (masterPoints m nodes), PairFits d := by
  induction nodes generalizing refs with
  | nil => simp [NodesOk, masterPoints, stepsFrom]
  | cons node rest ih =>
    rw [NodesOk]
    by_cases hsh : NodeShape refs.length node
    swap
    · exact ⟨fun h => absurd h.1 hsh, fun h => absurd (h.1 node (by simp)) hsh⟩
    have hget : ∀ m, m < refs.length → ∃ ps, node.points[m]? = some ps ∧ ps.length = pointCount node.type := by
      intro m hm
      have hm' : m < node.points.length := by rw [hsh.2.1]; exact hm
      exact ⟨node.points[m], List.getElem?_eq_getElem hm', hsh.2.2 _ (List.getElem_mem hm')⟩
    have hrl : ∀ j, (rowOf j node).length = refs.length := fun j => by rw [rowOf_length, hsh.2.1]
    by_cases hc : node.type = .curve
    · rw [if_pos hc, stepOk_iff, stepOk_iff, stepOk_iff, ih, hrl, hrl, hrl]
      have hsteps : ∀ m, m < refs.length → stepsFrom (refs.getD m (0, 0)) (masterPoints m (node :: rest)) =
          ((((rowOf 0 node).getD m (0, 0)).1 - (refs.getD m (0, 0)).1, ((rowOf 0 node).getD m (0, 0)).2 - (refs.getD m (0, 0)).2) ::
          (((rowOf 1 node).getD m (0, 0)).1 - ((rowOf 0 node).getD m (0, 0)).1, ((rowOf 1 node).getD m (0, 0)).2 - ((rowOf 0 node).getD m (0, 0)).2) ::
          (((rowOf 2 node).getD m (0, 0)).1 - ((rowOf 1 node).getD m (0, 0)).1, ((rowOf 2 node).getD m (0, 0)).2 - ((rowOf 1 node).getD m (0, 0)).2) ::
          stepsFrom ((rowOf 2 node).getD m (0, 0)) (masterPoints m rest)) := by
        intro m hm
        obtain ⟨ps, h1, h2⟩ := hget m hm
        rw [rowOf_getD h1, rowOf_getD h1, rowOf_getD h1]
        rw [pointCount, if_pos hc] at h2
        match ps, h2 with
        | [a, b, c], _ => simp [masterPoints, h1, stepsFrom]
      constructor
      · rintro ⟨-, ⟨-, s0⟩, ⟨-, s1⟩, ⟨-, s2⟩, hr, hs⟩
        refine ⟨by simp only [List.mem_cons]; rintro nd (rfl | h); exacts [hsh, hr nd h], fun m hm d hd => ?_⟩
        rw [hsteps m hm] at hd
        simp only [List.mem_cons] at hd
        rcases hd with rfl | rfl | rfl | hd
        exacts [s0 m hm, s1 m hm, s2 m hm, hs m hm d hd]
      · rintro ⟨hr, hs⟩
        have key : ∀ m, m < refs.length → _ := fun m hm => by
          have := hs m hm
          rw [hsteps m hm] at this
          exact this
        refine ⟨hsh, ⟨rfl, fun m hm => key m hm _ (by simp)⟩, ⟨rfl, fun m hm => key m hm _ (by simp)⟩,
          ⟨rfl, fun m hm => key m hm _ (by simp)⟩, fun nd h => hr nd (by simp [h]), fun m hm d hd => key m hm d (by simp only [List.mem_cons]; tauto)⟩
    · rw [if_neg hc, stepOk_iff, ih, hrl]
      have hsteps : ∀ m, m < refs.length → stepsFrom (refs.getD m (0, 0)) (masterPoints m (node :: rest)) =
          ((((rowOf 0 node).getD m (0, 0)).1 - (refs.getD m (0, 0)).1, ((rowOf 0 node).getD m (0, 0)).2 - (refs.getD m (0, 0)).2) ::
          stepsFrom ((rowOf 0 node).getD m (0, 0)) (masterPoints m rest)) := by
        intro m hm
        obtain ⟨ps, h1, h2⟩ := hget m hm
        rw [rowOf_getD h1]
        rw [pointCount, if_neg hc] at h2
        match ps, h2 with
        | [a], _ => simp [masterPoints, h1, stepsFrom]
      constructor
      · rintro ⟨-, ⟨-, s0⟩, hr, hs⟩
        refine ⟨by simp only [List.mem_cons]; rintro nd (rfl | h); exacts [hsh, hr nd h], fun m hm d hd => ?_⟩
        rw [hsteps m hm] at hd
        simp only [List.mem_cons] at hd
        rcases hd with rfl | hd
        exacts [s0 m hm, hs m hm d hd]
      · rintro ⟨hr, hs⟩
        have key : ∀ m, m < refs.length → _ := fun m hm => by
          have := hs m hm
          rw [hsteps m hm] at this
          exact this
        exact ⟨hsh, ⟨rfl, fun m hm => key m hm _ (by simp)⟩, fun nd h => hr nd (by simp [h]), fun m hm d hd => key m hm d (by simp only [List.mem_cons]; tauto)⟩

theorem nodesFit_iff (n : Nat) (nodes : List MMNode) : NodesFit n nodes ↔ NodesOk (List.replicate n (0, 0)) nodes := by
  rw [nodesOk_iff]
  simp only [List.length_replicate]
  unfold NodesFit
  refine and_congr_right fun _ => forall_congr' fun m => forall_congr' fun hm => ?_
  rw [show (List.replicate n ((0 : Int), (0 : Int))).getD m (0, 0) = (0, 0) by
    simp [List.getD_eq_getElem?_getD, List.getElem?_replicate, hm]]

theorem numValues_eq {n : Nat} (hn : 1 ≤ n) {nodes : List MMNode} (h : ∀ node ∈ nodes, NodeShape n node) :
    numOutlineValues n nodes = outlineSize n nodes := by
  unfold numOutlineValues outlineSize
  congr 1
  induction nodes with
  | nil => rfl
  | cons node rest ih =>
    rw [List.map_cons, List.sum_cons, ih fun nd hnd => h nd (by simp [hnd]), List.map_cons, List.sum_cons, List.length_cons]
    have hs := h node (by simp)
    have : (node.points.headD []).length = pointCount node.type := by
      cases hp : node.points with
      | nil => have := hs.2.1; rw [hp] at this; simp at this; omega
      | cons ps l => exact hs.2.2 ps (by simp [hp])
    rw [this, Nat.mul_add]
    omega

theorem enc_outlines {numMasters : Int} {nodes : List MMNode} (h : OutlineFits numMasters nodes) :
    Enc (writeOutlines numMasters nodes) readOutlines (numMasters, nodes) := by
  obtain ⟨h1, h2, h3, h4, h5⟩ := h
  unfold writeOutlines readOutlines
  refine Enc.bind (enc_value_mixed ⟨h1, h2⟩ true false) ?_
  split
  · rename_i hn
    subst hn
    exact Enc.bind (enc_value (valOk_iff.2 (by decide))) (Enc.last (enc_value (valOk_iff.2 (by decide))) rfl)
  · rename_i hn
    have hm := h3 hn
    have hk := (nodesFit_iff _ _).1 h4
    rw [numValues_eq (by omega) h4.1]
    refine Enc.bind (enc_value (valOk_iff.2 (by simp only [IsInt32]; omega))) ?_
    have hlen : nodes.length < 2147483648 := by
      unfold outlineSize at h5; omega
    refine Enc.bind (enc_value (valOk_iff.2 (by simp only [IsInt32]; omega))) ?_
    refine Enc.last (a := nodes) ?_ rfl
    have := enc_nodes (List.replicate numMasters.toNat (0, 0)) (by
      intro e
      have := congrArg List.length e
      simp at this; omega) nodes hk
    rw [List.length_replicate] at this
    exact this

theorem post_outlines {N : Nat} : Post N readOutlines fun o => -1131 ≤ o.1 ∧ o.1 < 4294967296 ∧ NodesFit o.1.toNat o.2 := by
  refine Post.bind (post_value false) fun n hn => Post.bind (post_value true) fun _ _ => Post.bind (post_value true) fun k _ => ?_
  have hn := valOk_false.1 hn
  exact Post.bind (post_nodes k.toNat _) fun nodes h => Post.pure ⟨hn.1, hn.2, (nodesFit_iff _ _).2 h.2⟩

/-! ## C41 -/

/-- **C41** An outline that fits is written, and read back with the same nodes, flags and points in all masters; reading
stops exactly where the outline ends, whatever follows. -/
theorem C41_outlines (numMasters : Int) (nodes : List MMNode) (h : OutlineFits numMasters nodes) :
    ∃ b, writeOutlines numMasters nodes = .ok b ∧ ∀ rest, readOutlines (b ++ rest) = .ok (numMasters, nodes) rest := enc_outlines h

/-- **C41** Whatever is read as an outline consists of proper nodes with 32-bit steps … -/
theorem C41_outlines_read (s r : Bytes) (numMasters : Int) (nodes : List MMNode) (h : readOutlines s = .ok (numMasters, nodes) r) :
    -1131 ≤ numMasters ∧ numMasters < 4294967296 ∧ NodesFit numMasters.toNat nodes := (post_outlines s _ r (Nat.le_refl _) h).1

/-- **C41** … so that it can be written and read again, unless it has nodes without a master, or too many masters or nodes. -/
theorem C41_outlines_stable (s r : Bytes) (numMasters : Int) (nodes : List MMNode) (h : readOutlines s = .ok (numMasters, nodes) r)
    (hm : numMasters < 2147483648) (hn : nodes ≠ [] → 1 ≤ numMasters) (hs : outlineSize numMasters.toNat nodes < 2147483648) :
    ∃ b, writeOutlines numMasters nodes = .ok b ∧ ∀ rest, readOutlines (b ++ rest) = .ok (numMasters, nodes) rest := by
  obtain ⟨h1, h2, h3⟩ := C41_outlines_read s r numMasters nodes h
  exact enc_outlines ⟨h1, hm, hn, h3, hs⟩

/-- **C41** (violated) Nodes without a master can be read, but they cannot be written; … -/
theorem C41_outlines_no_master (s r : Bytes) (numMasters : Int) (nodes : List MMNode) (h : readOutlines s = .ok (numMasters, nodes) r)
    (hm : numMasters < 1) (hn : nodes ≠ []) : ∃ e, writeOutlines numMasters nodes = .error e := by
  obtain ⟨-, -, h3, -⟩ := C41_outlines_read s r numMasters nodes h
  unfold writeOutlines
  rw [if_neg hn]
  refine err_right (err_right (err_right ?_))
  cases nodes with
  | nil => exact absurd rfl hn
  | cons node rest =>
    have := (h3 node (by simp)).2.1
    unfold writeNodes
    refine err_right ⟨.index, ?_⟩
    cases hp : node.points with
    | nil => rfl
    | cons ps l => rw [hp] at this; simp at this; omega

/-- such an outline exists: no master, one node -/
example : readOutlines [139, 139, 140, 0] = .ok (0, [⟨.move, some 0, []⟩]) [] := by decide +kernel

/-- **C41** (violated) … and neither can an outline for 2^31 or more masters, although the number is read as unsigned. -/
theorem C41_outlines_many_masters (numMasters : Int) (nodes : List MMNode) (hm : 2147483648 ≤ numMasters) :
    ∃ e, writeOutlines numMasters nodes = .error e := by
  refine err_left ⟨_, writeValue_err (sg := true) ?_⟩
  simp only [ValOk]; omega

example : readOutlines [255, 255, 255, 255, 255, 139, 139] = .ok (4294967295, []) [] := by
  have h : ∀ s, readNodes 0 s = pure [] := fun _ => rfl
  unfold readOutlines
  rw [R.bind_of_ok (a := 4294967295) (r := [139, 139]) (by decide +kernel)]
  rw [R.bind_of_ok (a := 0) (r := [139]) (by decide +kernel)]
  rw [R.bind_of_ok (a := 0) (r := []) (by decide +kernel)]
  rw [show (0 : Int).toNat = 0 from rfl, h]
  rfl

/-- **C41** Flags outside 0…15 are rejected. -/
theorem C41_flags_rejected (numMasters : Int) (nodes : List MMNode) (h : ∃ node ∈ nodes, ¬ (0 ≤ node.flags.getD 0 ∧ node.flags.getD 0 < 16)) :
    ∃ e, writeOutlines numMasters nodes = .error e := by
  have hne : nodes ≠ [] := by rintro rfl; simp at h
  unfold writeOutlines
  rw [if_neg hne]
  refine err_right (err_right (err_right ?_))
  generalize List.replicate numMasters.toNat ((0 : Int), (0 : Int)) = refs
  clear hne
  induction nodes generalizing refs with
  | nil => simp at h
  | cons node rest ih =>
    obtain ⟨nd, hnd, hf⟩ := h
    unfold writeNodes
    by_cases hfn : 0 ≤ node.flags.getD 0 ∧ node.flags.getD 0 < 16
    · refine err_right ?_
      have hrest : ∃ nd ∈ rest, ¬ (0 ≤ nd.flags.getD 0 ∧ nd.flags.getD 0 < 16) := by
        rcases List.mem_cons.1 hnd with rfl | hnd
        · exact absurd hfn hf
        · exact ⟨nd, hnd, hf⟩
      cases hp : node.points with
      | nil => exact ⟨.index, rfl⟩
      | cons ps l =>
        simp only
        suffices H : ∀ k j refs, ∃ e, writeRows numMasters.toNat (ps :: l) (fun refs' => writeNodes numMasters.toNat refs' rest) k j refs = .error e from H _ _ _
        intro k
        induction k with
        | zero => intro j refs; exact ih hrest refs
        | succ k ihk =>
          intro j refs
          rw [writeRows]
          cases column j numMasters.toNat (ps :: l) with
          | error e => exact ⟨e, rfl⟩
          | ok row => exact err_right (ihk _ _)
    · refine err_left ⟨.overflow, ?_⟩
      have hv := value_range node.type
      unfold writeU8 toBytesLE
      rw [if_neg]
      simp only [inRange]; omega

theorem writeValue_ok_int32 {v : Int} {b : Bytes} (h : writeValue v = .ok b) : IsInt32 v := by
  by_cases hv : ValOk true v
  · exact valOk_iff.1 hv
  · rw [writeValue_err (sg := true) hv] at h; cases h

theorem stepOk_of_write {refs row : List Point} {b : Bytes} (hl : row.length = refs.length) (h : writeRow refs row = .ok b) : StepOk refs row := by
  refine ⟨hl, fun q hq => ?_⟩
  obtain ⟨c, hc⟩ := W.all_ok h q hq
  obtain ⟨x, y, hx, hy, -⟩ := W.seq_eq_ok.1 hc
  exact ⟨writeValue_ok_int32 hx, writeValue_ok_int32 hy⟩

theorem nodesOk_of_write {refs : List Point} {nodes : List MMNode} {b : Bytes} (hr : refs ≠ []) (hs : ∀ node ∈ nodes, NodeShape refs.length node)
    (h : writeNodes refs.length refs nodes = .ok b) : NodesOk refs nodes := by
  induction nodes generalizing refs b with
  | nil => trivial
  | cons node rest ih =>
    have hsh := hs node (by simp)
    have hrest : ∀ nd ∈ rest, NodeShape refs.length nd := fun nd hnd => hs nd (by simp [hnd])
    have hrl : ∀ j, (rowOf j node).length = refs.length := fun j => by rw [rowOf_length, hsh.2.1]
    have hne : ∀ j, rowOf j node ≠ [] := by
      intro j e
      have := congrArg List.length e
      rw [hrl] at this
      exact hr (List.eq_nil_of_length_eq_zero this)
    obtain ⟨ps, l, hp⟩ : ∃ ps l, node.points = ps :: l := by
      cases hp : node.points with
      | nil => exact absurd (by simp [rowOf, hp]) (hne 0)
      | cons ps l => exact ⟨ps, l, rfl⟩
    unfold writeNodes at h
    rw [hp] at h
    obtain ⟨x, y, -, hy, -⟩ := W.seq_eq_ok.1 h
    simp only at hy
    rw [hsh.2.2 ps (by simp [hp]), ← hp] at hy
    refine ⟨hsh, ?_⟩
    have hcol : ∀ j, j < pointCount node.type → column j refs.length node.points = .ok (rowOf j node) := by
      intro j hj
      have := column_ok j node.points fun q hq => by rw [hsh.2.2 q hq]; exact hj
      rwa [hsh.2.1] at this
    by_cases hc : node.type = .curve
    · have hpc : pointCount node.type = 3 := by rw [pointCount, if_pos hc]
      rw [hpc] at hy hcol
      simp only [writeRows] at hy
      rw [hcol 0 (by omega), W.withVal_ok, hcol 1 (by omega), W.withVal_ok, hcol 2 (by omega), W.withVal_ok] at hy
      obtain ⟨x0, y0, h0, hy, -⟩ := W.seq_eq_ok.1 hy
      obtain ⟨x1, y1, h1, hy, -⟩ := W.seq_eq_ok.1 hy
      obtain ⟨x2, y2, h2, hy, -⟩ := W.seq_eq_ok.1 hy
      rw [if_pos hc]
      refine ⟨stepOk_of_write (hrl 0) h0, stepOk_of_write ((hrl 1).trans (hrl 0).symm) h1, stepOk_of_write ((hrl 2).trans (hrl 1).symm) h2, ?_⟩
      exact ih (hne 2) (by rw [hrl]; exact hrest) (by rw [hrl]; exact hy)
    · have hpc : pointCount node.type = 1 := by rw [pointCount, if_neg hc]
      rw [hpc] at hy hcol
      simp only [writeRows] at hy
      rw [hcol 0 (by omega), W.withVal_ok] at hy
      obtain ⟨x0, y0, h0, hy, -⟩ := W.seq_eq_ok.1 hy
      rw [if_neg hc]
      refine ⟨stepOk_of_write (hrl 0) h0, ?_⟩
      exact ih (hne 0) (by rw [hrl]; exact hrest) (by rw [hrl]; exact hy)

/-- **C41** For proper nodes, the conditions are exact: if writing succeeds, the outline fits (and so comes back as it was). -/
theorem C41_outlines_exact (numMasters : Int) (nodes : List MMNode) (hm : 1 ≤ numMasters) (hs : ∀ node ∈ nodes, NodeShape numMasters.toNat node) :
    (∃ b, writeOutlines numMasters nodes = .ok b) ↔ OutlineFits numMasters nodes := by
  refine ⟨fun ⟨b, h⟩ => ?_, fun h => (enc_outlines h).imp fun _ h => h.1⟩
  unfold writeOutlines at h
  obtain ⟨x, y, h1, h2, -⟩ := W.seq_eq_ok.1 h
  have hi := writeValue_ok_int32 h1
  simp only [IsInt32] at hi
  by_cases hn : nodes = []
  · subst hn
    exact ⟨by omega, by omega, fun e => absurd rfl e, ⟨by simp, by simp [masterPoints, stepsFrom]⟩, by simp [outlineSize]⟩
  · rw [if_neg hn] at h2
    obtain ⟨x2, y2, h3, h4, -⟩ := W.seq_eq_ok.1 h2
    obtain ⟨x3, y3, h5, h6, -⟩ := W.seq_eq_ok.1 h4
    have hi2 := writeValue_ok_int32 h3
    rw [numValues_eq (by omega) hs] at hi2
    simp only [IsInt32] at hi2
    refine ⟨by omega, by omega, fun _ => hm, (nodesFit_iff _ _).2 ?_, by omega⟩
    refine nodesOk_of_write (b := y3) ?_ (by rw [List.length_replicate]; exact hs) (by rw [List.length_replicate]; exact h6)
    intro e
    have := congrArg List.length e
    simp at this; omega

/-- **C41** (violated) A line with two points per master is written without complaint, but cannot be read back: the bytes of
the second point are taken for something else. -/
theorem C41_wrong_point_count : ∃ nodes b, writeOutlines 1 nodes = .ok b ∧ ∀ nodes', readOutlines b ≠ .ok (1, nodes') [] := by
  refine ⟨[⟨.line, some 0, [[(1, 2), (3, 4)]]⟩], [140, 149, 140, 1, 140, 141, 141, 141], by decide +kernel, fun nodes' h => ?_⟩
  rw [show readOutlines [140, 149, 140, 1, 140, 141, 141, 141] = .ok (1, [⟨.line, some 0, [[(1, 2)]]⟩]) [141, 141] by decide +kernel] at h
  cases h

/-- a fitting outline with two masters, a move, a curve and a line -/
example : OutlineFits 2 [⟨.move, some 0, [[(10, 20)], [(15, 20)]]⟩, ⟨.curve, some 1, [[(30, 40), (12, 25), (20, 35)], [(30, 40), (13, 26), (21, 36)]]⟩,
    ⟨.line, some 15, [[(100000, -7)], [(3, 4)]]⟩] := by
  refine ⟨by decide, by decide, by decide, ⟨?_, ?_⟩, by decide⟩
  · intro nd hnd
    simp only [List.mem_cons, List.not_mem_nil, or_false] at hnd
    rcases hnd with rfl | rfl | rfl <;> exact ⟨⟨_, rfl, by decide, by decide⟩, rfl, by decide⟩
  · intro m hm
    have : m = 0 ∨ m = 1 := by simp at hm; omega
    rcases this with rfl | rfl <;> (unfold PairFits; decide)

/-! ## C46 -/

/-- **C46** Global masks round-trip. -/
theorem C46_global_mask (m : GlobalMask) (h : OutlineFits m.numMasters m.nodes) : RoundTrips compileGlobalMask parseGlobalMask m :=
  roundTrips_of_enc (Enc.last (enc_outlines h) rfl)

theorem C46_global_mask_stable : StableWhen compileGlobalMask parseGlobalMask fun m =>
    m.numMasters < 2147483648 ∧ (m.nodes ≠ [] → 1 ≤ m.numMasters) ∧ outlineSize m.numMasters.toNat m.nodes < 2147483648 := by
  refine stableWhen_of_post (P := fun _ m => -1131 ≤ m.numMasters ∧ m.numMasters < 4294967296 ∧ NodesFit m.numMasters.toNat m.nodes)
    (fun _ => ?_) fun _ m _ h hc => C46_global_mask m ⟨h.1, hc.1, hc.2.1, h.2.2, hc.2.2⟩
  exact Post.bind post_outlines fun o ho => Post.pure ho

/-- the weight that is read back for a weight: hundred-millionths, rounded -/
theorem enc_weight {x : Rat} (h : IsInt32 (roundEven (fmul x 100000000))) :
    Enc (writeValue (roundEven (fmul x 100000000))) readWeight (storedWeight x) := Enc.last (enc_value (valOk_iff.2 h)) rfl

/-- **C46** Masks: the outline comes back as it was, the weights rounded to hundred-millionths. -/
theorem C46_mask (m : Mask) (hl : m.weights.length < 2147483648) (hw : ∀ x ∈ m.weights, IsInt32 (roundEven (fmul x 100000000)))
    (h : OutlineFits m.numMasters m.nodes) :
    CompilesTo compileMask parseMask m ⟨m.weights.map storedWeight, m.numMasters, m.nodes⟩ := by
  refine roundTrips_of_all ?_
  unfold compileMask
  rw [W.seq_assoc]
  refine Enc.bind (enc_value (valOk_iff.2 (by simp only [IsInt32]; omega))) ?_
  exact Enc.bind (Enc.repMap fun x hx => enc_weight (hw x hx)) (Enc.last (enc_outlines h) rfl)

/-- **C46** Whatever mask is parsed comes back exactly, weights included, if its outline can be written. -/
theorem C46_mask_stable : StableWhen compileMask parseMask fun m =>
    m.numMasters < 2147483648 ∧ (m.nodes ≠ [] → 1 ≤ m.numMasters) ∧ outlineSize m.numMasters.toNat m.nodes < 2147483648 := by
  refine stableWhen_of_post (P := fun _ m => m.weights.length < 2147483648 ∧ (∀ x ∈ m.weights, ∃ v, IsInt32 v ∧ x = fdiv v 100000000) ∧
    -1131 ≤ m.numMasters ∧ m.numMasters < 4294967296 ∧ NodesFit m.numMasters.toNat m.nodes) (fun _ => ?_) fun _ m _ h hc => ?_
  · refine Post.bind (post_value true) fun n hn => Post.bind (Post.forRange (P := fun x => ∃ v, IsInt32 v ∧ x = fdiv v 100000000) ?_ n) fun w hw =>
      Post.bind post_outlines fun o ho => Post.pure ⟨?_, hw.2, ho⟩
    · exact Post.bind (post_value true) fun v hv => Post.pure ⟨v, valOk_iff.1 hv, rfl⟩
    · have := valOk_iff.1 hn
      simp only [IsInt32] at this
      show w.length < _
      rw [hw.1]
      omega
  · obtain ⟨h1, h2, h3, h4, h5⟩ := h
    have key : ∀ x ∈ m.weights, IsInt32 (roundEven (fmul x 100000000)) ∧ storedWeight x = id x := by
      intro x hx
      obtain ⟨v, hv, rfl⟩ := h2 x hx
      have := round_restores (v := v) (n := 100000000) (by omega) hv
      unfold storedWeight
      rw [this]
      exact ⟨hv, rfl⟩
    have := C46_mask m h1 (fun x hx => (key x hx).1) ⟨h3, hc.1, hc.2.1, h5, hc.2.2⟩
    rw [List.map_congr_left fun x hx => (key x hx).2, List.map_id] at this
    exact this

/-- **C46** Rounding changes a weight by less than a hundred-millionth (for weights up to 20). -/
theorem C46_weight_error (x : Rat) (h : |x| ≤ 20) : |storedWeight x - x| < 1 / 100000000 := by
  unfold storedWeight
  have e1 := fl_err (x * (100000000 : Int))
  have e2 := roundEven_err (fmul x 100000000)
  have e3 := fl_err ((roundEven (fmul x 100000000) : Rat) / (100000000 : Int))
  have hp : (2 : Rat) ^ 53 = 9007199254740992 := by norm_num
  rw [hp] at e1 e3
  change |fmul x 100000000 - _| ≤ _ at e1
  change |fdiv (roundEven (fmul x 100000000)) 100000000 - _| ≤ _ at e3
  generalize fmul x 100000000 = y at *
  generalize (roundEven y : Rat) = t at *
  generalize fdiv (roundEven y) 100000000 = u at *
  push_cast at *
  have hx := abs_le.1 h
  have b1 : |x * 100000000| ≤ 2000000000 := by rw [abs_le]; constructor <;> linarith [hx.1, hx.2]
  have b2 : |y - x * 100000000| ≤ 1 / 1000000 := e1.trans (by linarith)
  rw [abs_le] at b1 b2 e2
  have b3 : |t / 100000000| ≤ 21 := by rw [abs_le]; constructor <;> linarith
  have b4 : |u - t / 100000000| ≤ 1 / 400000000 := e3.trans (by linarith)
  rw [abs_le] at b4
  rw [abs_lt]
  constructor <;> linarith

end Verif.Props
