import Verif.Props.UfoMasters
import Verif.Props.UfoHints
import Verif.Props.UfoGlyphBuild
import Mathlib.Data.List.TakeWhile
/-! C71–C73: masters and the designspace document. -/
set_option autoImplicit false
set_option maxRecDepth 4000
namespace Verif.Props
open Verif Verif.Spec

section
variable {ops : AngleOps} {asm : AsmOps}

theorem buildMasters_inv {o : BuildOpts} {es : List (FEntry ops asm)} {st : MastersPart ops.Angle} (h : buildMasters ops asm o es = .ok st) :
    ∃ st0, MastersInv o es st0 ∧ st = { st0 with masters := fixMasters st0.axisCount st0.masters } := by
  unfold buildMasters at h
  cases hf : es.foldlM (masterStep ops asm o) (noMasters ops.Angle) with
  | error e => rw [hf] at h; cases h
  | ok st0 => rw [hf] at h; cases h; exact ⟨st0, mastersInv hf, rfl⟩

theorem textsOf_of {o : BuildOpts} {es : List (FEntry ops asm)} {id : Int} {l : List PyStr} (h : dataOf ops asm o es id = l.map .str) :
    textsOf ops asm o es id = l := by
  unfold textsOf
  rw [h]
  clear h
  induction l with
  | nil => rfl
  | cons x l ih => simp [ih]

theorem mastersNeeded_eq (axes : Int) : (mastersNeeded axes).toNat = expectedMasters axes := by
  unfold mastersNeeded expectedMasters
  split
  · rfl
  · have : axes ^ 2 = ((axes.natAbs * axes.natAbs : Nat) : Int) := by
      rw [pow_two, ← Int.natAbs_mul_self]
    rw [this, Int.toNat_natCast]

theorem fixMasters_length (axes : Int) (l : List PyStr) : (fixMasters axes l).length = max l.length (expectedMasters axes) := by
  unfold fixMasters
  rw [mastersNeeded_eq]
  simp
  omega

/-- **C71.** For every file that can be converted, the names of the masters are the stored names in the order of the file, and after
them "m" with the number of the master, as many as are missing from the expected number; there is one UFO for each. -/
theorem C71_masters {o : BuildOpts} {es : List (FEntry ops asm)} {st : MastersPart ops.Angle} (h : buildMasters ops asm o es = .ok st) :
    ∃ axes : Int, LastOr ops asm (dataOf ops asm o es 1513) .int 0 axes ∧
      st.masters.length = max (textsOf ops asm o es 1504).length (expectedMasters axes) ∧
      (∀ (i : Nat) (name : PyStr), (textsOf ops asm o es 1504)[i]? = some name → st.masters[i]? = some name) ∧
      ∀ i : Nat, (textsOf ops asm o es 1504).length ≤ i → i < expectedMasters axes → st.masters[i]? = some (lit "m" ++ natDec i) := by
  obtain ⟨st0, hi, rfl⟩ := buildMasters_inv h
  refine ⟨st0.axisCount, hi.axisCount, ?_, ?_, ?_⟩ <;> rw [textsOf_of hi.masters] <;> dsimp only
  · exact fixMasters_length _ _
  · intro i name hn
    unfold fixMasters
    rw [List.getElem?_append_left (List.getElem?_eq_some_iff.1 hn).1, hn]
  · intro i h1 h2
    unfold fixMasters
    rw [List.getElem?_append_right h1, mastersNeeded_eq, List.getElem?_map, List.getElem?_drop, List.getElem?_range (by omega)]
    simp only [Option.map_some]
    congr 3
    omega

/-- **C71.** There is always at least one master, so that "Could not extract any UFO masters" does not happen. -/
theorem C71_at_least_one {o : BuildOpts} {es : List (FEntry ops asm)} {st : MastersPart ops.Angle} (h : buildMasters ops asm o es = .ok st) :
    st.masters ≠ [] := by
  obtain ⟨axes, -, hl, -⟩ := C71_masters h
  intro hn
  rw [hn, List.length_nil] at hl
  have : 0 < expectedMasters axes := by
    unfold expectedMasters
    split
    · omega
    · rename_i hne
      exact Nat.mul_pos (Int.natAbs_pos.2 hne) (Int.natAbs_pos.2 hne)
  omega

/-- **C71, defect.** The expected number is the square of the number of axes instead of a power of two: a font with one axis and without
stored names gets one master instead of two, a font with three axes and eight named masters gets a ninth one. -/
theorem C71_axes_defect {o : BuildOpts} {es : List (FEntry ops asm)} {st : MastersPart ops.Angle} (h : buildMasters ops asm o es = .ok st) :
    ((dataOf ops asm o es 1513).getLast? = some (.int 1) → textsOf ops asm o es 1504 = [] → st.masters = [lit "m0"]) ∧
    ((dataOf ops asm o es 1513).getLast? = some (.int 3) → (textsOf ops asm o es 1504).length = 8 →
      st.masters = textsOf ops asm o es 1504 ++ [lit "m8"]) := by
  obtain ⟨st0, hi, rfl⟩ := buildMasters_inv h
  rw [textsOf_of hi.masters]
  have hx : ∀ n : Int, (dataOf ops asm o es 1513).getLast? = some (.int n) → st0.axisCount = n := by
    intro n hn
    rcases hi.axisCount with ⟨h1, -⟩ | h1
    · rw [h1] at hn; cases hn
    · rw [h1] at hn; cases hn; rfl
  constructor
  · intro h1 h2
    dsimp only
    rw [hx 1 h1, h2]
    decide
  · intro h1 h2
    dsimp only
    rw [hx 3 h1]
    unfold fixMasters
    rw [h2]
    congr 1

/-! ### paths -/

/-- **C72.** The paths of different masters are different. -/
theorem C72_paths {name : PyStr} {i j : Nat} (h : masterPath name i = masterPath name j) : i = j := by
  unfold masterPath at h
  have hsplit : (pathSplit name).1 ++ (pathSplit name).2 = name := by
    unfold pathSplit
    split
    · split
      · exact List.take_append_drop _ _
      · simp
    · simp
  have hne : ∀ k : Nat, (pathSplit name).1 ++ lit "-" ++ natDec k ++ (pathSplit name).2 ≠ name := by
    intro k hk
    have := congrArg List.length hk
    have h2 := congrArg List.length hsplit
    simp only [List.length_append] at this h2
    have h3 : (lit "-").length = 1 := by decide
    omega
  by_cases hi : 0 < i <;> by_cases hj : 0 < j
  · rw [if_pos hi, if_pos hj] at h
    rw [List.append_assoc, List.append_assoc, List.append_assoc, List.append_assoc] at h
    have h := List.append_cancel_left h
    have h := List.append_cancel_left h
    exact natDec_inj (List.append_cancel_right h)
  · rw [if_pos hi, if_neg hj] at h; exact absurd h (hne i)
  · rw [if_neg hi, if_pos hj] at h; exact absurd h.symm (hne j)
  · omega

/-! ### locations -/

theorem times1000_perMille (d : Dbl) : IsPerMille d d.times1000 := by
  intro x hx hb
  have he : |fmul x 1000 - 1000 * x| ≤ |1000 * x| / 2 ^ 53 := by
    unfold fmul
    have := fl_err (x * (1000 : Int))
    have e1 : x * ((1000 : Int) : Rat) = 1000 * x := by push_cast; ring
    rw [e1] at this ⊢
    exact this
  refine ⟨fmul x 1000, ?_, he⟩
  unfold Dbl.times1000
  rw [hx]
  dsimp only
  rw [if_pos]
  have h1 : |fmul x 1000| ≤ |fmul x 1000 - 1000 * x| + |1000 * x| := by
    have := abs_add_le (fmul x 1000 - 1000 * x) (1000 * x)
    rwa [sub_add_cancel] at this
  have h2 : |1000 * x| = 1000 * |x| := by rw [abs_mul]; norm_num
  have h3 : (0 : Rat) < (2 : Rat) ^ (1000 : Int) := zpow_pos (by norm_num) _
  have h4 : (2 : Rat) ^ (1024 : Int) = 16777216 * (2 : Rat) ^ (1000 : Int) := by
    rw [show (1024 : Int) = 24 + 1000 by norm_num, zpow_add₀ (by norm_num)]
    norm_num
  rw [h4]
  have h5 : |1000 * x| / 2 ^ 53 ≤ |1000 * x| := by
    apply div_le_self (abs_nonneg _)
    norm_num
  have h6 : |fmul x 1000| ≤ 2000 * |x| := by
    calc |fmul x 1000| ≤ |fmul x 1000 - 1000 * x| + |1000 * x| := h1
      _ ≤ |1000 * x| + |1000 * x| := add_le_add (he.trans h5) le_rfl
      _ = 2000 * |x| := by rw [h2]; ring
  calc |fmul x 1000| ≤ 2000 * |x| := h6
    _ ≤ 2000 * (2 : Rat) ^ (1000 : Int) := by gcongr
    _ < 16777216 * (2 : Rat) ^ (1000 : Int) := by
      apply mul_lt_mul_of_pos_right _ h3
      norm_num

theorem pyIndex_get? {α : Type} {l : List α} {i : Nat} {x : α} : pyIndex l (i : Int) = .ok x ↔ l[i]? = some x := by
  unfold pyIndex
  rw [if_pos (by omega)]
  simp only [Int.toNat_natCast]
  cases l[i]? <;> simp

theorem dsLocation_spec {α β : Type} {scale : α → β} : ∀ {axes : List Axis} {i : Nat} {loc : List α} {acc r : List (PyStr × β)},
    dsLocation scale axes i loc acc = .ok r →
    (∀ a ∈ axes, a.name ≠ []) ∧ (axes = [] ∨ i + axes.length ≤ loc.length) ∧
    (∀ k name, LastAxis (axes.map Axis.name) k name → ∃ x, loc[i + k]? = some x ∧ dictGet r name = some (scale x)) ∧
    (∀ name, name ∉ axes.map Axis.name → dictGet r name = dictGet acc name) ∧ (DictOk acc → DictOk r) := by
  intro axes
  induction axes with
  | nil =>
    intro i loc acc r h
    cases h
    refine ⟨by simp, .inl rfl, ?_, fun _ _ => rfl, id⟩
    rintro k name ⟨h, -⟩
    simp at h
  | cons a axes ih =>
    intro i loc acc r h
    rw [dsLocation] at h
    by_cases ha : a.name = []
    · rw [if_pos ha] at h; cases h
    · rw [if_neg ha] at h
      cases hx : pyIndex loc (i : Int) with
      | error e => rw [hx] at h; cases h
      | ok x =>
        rw [hx] at h
        replace h : dsLocation scale axes (i + 1) loc (dictSet acc a.name (scale x)) = .ok r := h
        obtain ⟨h1, h2, h3, h4, h5⟩ := ih h
        have hx' := pyIndex_get?.1 hx
        refine ⟨?_, ?_, ?_, ?_, ?_⟩
        · intro b hb
          rcases List.mem_cons.1 hb with rfl | hb
          · exact ha
          · exact h1 b hb
        · right
          have := (List.getElem?_eq_some_iff.1 hx').1
          rcases h2 with rfl | h2
          · simp; omega
          · simp only [List.length_cons]; omega
        · rintro k name ⟨hk, hlast⟩
          cases k with
          | zero =>
            simp only [List.map_cons, List.getElem?_cons_zero, Option.some.injEq] at hk
            refine ⟨x, by simpa using hx', ?_⟩
            rw [h4, dictGet_dictSet, if_pos hk]
            intro hm
            obtain ⟨j, hj⟩ := List.getElem?_of_mem hm
            exact hlast (j + 1) (by omega) (by simpa using hj)
          | succ k =>
            obtain ⟨y, hy, hr⟩ := h3 k name ⟨by simpa using hk, fun j hj => by simpa using hlast (j + 1) (by omega)⟩
            exact ⟨y, by rw [← hy]; congr 1; omega, hr⟩
        · intro name hn
          simp only [List.map_cons, List.mem_cons, not_or] at hn
          rw [h4 name hn.2, dictGet_dictSet, if_neg (Ne.symm hn.1)]
        · intro hd
          exact h5 (dictSet_ok hd _ _)

theorem dsLocation_total {α β : Type} {scale : α → β} : ∀ {axes : List Axis} {i : Nat} {loc : List α} {acc : List (PyStr × β)},
    (∀ a ∈ axes, a.name ≠ []) → (axes = [] ∨ i + axes.length ≤ loc.length) → ∃ r, dsLocation scale axes i loc acc = .ok r := by
  intro axes
  induction axes with
  | nil => intro i loc acc _ _; exact ⟨acc, rfl⟩
  | cons a axes ih =>
    intro i loc acc h1 h2
    simp only [List.length_cons, reduceCtorEq, false_or] at h2
    rw [dsLocation, if_neg (h1 a (by simp))]
    have hx : pyIndex loc (i : Int) = .ok loc[i] := pyIndex_get?.2 (List.getElem?_eq_getElem (by omega))
    rw [hx]
    exact ih (fun b hb => h1 b (by simp [hb])) (.inr (by omega))

theorem dsLocation_for {α β : Type} {scale : α → β} {rel : α → β → Prop} (hrel : ∀ x, rel x (scale x)) {axes : List Axis} {loc : List α}
    {r : List (PyStr × β)} (h : dsLocation scale axes 0 loc [] = .ok r) : LocationFor rel (axes.map Axis.name) loc r := by
  obtain ⟨-, -, h3, h4, h5⟩ := dsLocation_spec h
  refine ⟨h5 (by simp [DictOk]), ?_, ?_⟩
  · intro name
    constructor
    · intro hm
      have hex : ∃ k, LastAxis (axes.map Axis.name) k name := by
        generalize axes.map Axis.name = l at hm
        clear h3 h4 h5 h
        induction l with
        | nil => cases hm
        | cons a l ih =>
          by_cases hl : name ∈ l
          · obtain ⟨k, hk, hk2⟩ := ih hl
            refine ⟨k + 1, by simpa using hk, ?_⟩
            intro j hj
            cases j with
            | zero => omega
            | succ j => simpa using hk2 j (by omega)
          · rcases List.mem_cons.1 hm with rfl | hm
            · refine ⟨0, rfl, ?_⟩
              intro j hj hj2
              cases j with
              | zero => omega
              | succ j => exact hl (List.mem_of_getElem? (by simpa using hj2))
            · exact absurd hm hl
      obtain ⟨k, hk⟩ := hex
      obtain ⟨x, -, hx⟩ := h3 k name hk
      exact ⟨_, hx⟩
    · rintro ⟨v, hv⟩
      by_contra hm
      rw [h4 name hm] at hv
      cases hv
  · intro k name hk
    obtain ⟨x, hx, hr⟩ := h3 k name hk
    exact ⟨x, scale x, by simpa using hx, hr, hrel x⟩

theorem strip_stripped (s : PyStr) : IsStripped s (pyStrip s) := by
  unfold pyStrip
  refine ⟨s.takeWhile isSpace, ((s.dropWhile isSpace).reverse.takeWhile isSpace).reverse, ?_, ?_, ?_, ?_, ?_⟩
  · rw [List.append_assoc, ← List.reverse_append, List.takeWhile_append_dropWhile, List.reverse_reverse, List.takeWhile_append_dropWhile]
  · intro c hc; exact List.mem_takeWhile_imp hc
  · intro c hc; exact List.mem_takeWhile_imp (List.mem_reverse.1 hc)
  · intro c hc
    rw [List.head?_reverse] at hc
    cases hd : s.dropWhile isSpace with
    | nil => rw [hd] at hc; simp at hc
    | cons a l =>
      have ha : isSpace a = false := by
        have h1 := List.head?_dropWhile_not isSpace s
        rw [hd] at h1
        simpa using h1
      rw [hd] at hc
      have hsuf : ((a :: l).reverse.dropWhile isSpace) <:+ (a :: l).reverse := List.dropWhile_suffix _
      have hne : ((a :: l).reverse.dropWhile isSpace) ≠ [] := by
        intro hn; rw [hn] at hc; cases hc
      obtain ⟨t, ht⟩ := hsuf
      have hlast : (a :: l).reverse.getLast? = some a := by simp
      rw [← ht, List.getLast?_append_of_ne_nil _ hne, hc] at hlast
      cases hlast
      exact ha
  · intro c hc
    rw [List.getLast?_reverse] at hc
    have h1 := List.head?_dropWhile_not isSpace (s.dropWhile isSpace).reverse
    rw [hc] at h1
    simpa using h1

theorem getDesignspace_cases {A : Type} {st : MastersPart A} {family out : PyStr} {doc : DsDoc} (h : getDesignspace st family out = .ok doc) :
    ∃ n, st.numMasters = some n ∧ dsLabels st = .ok doc.labels ∧ doc.axes = st.axes ∧
      (List.range n.toNat).mapM (dsSource st out) = .ok doc.sources ∧
      ((List.range st.instances.length).zip st.instances).mapM (dsInstance st family) = .ok doc.instances := by
  unfold getDesignspace at h
  cases hl : dsLabels st with
  | error e => rw [hl] at h; cases h
  | ok labels =>
    rw [hl] at h
    cases hn : st.numMasters with
    | none => rw [hn] at h; cases h
    | some n =>
      rw [hn] at h
      replace h : ((List.range n.toNat).mapM (dsSource st out) >>= fun sources =>
        ((List.range st.instances.length).zip st.instances).mapM (dsInstance st family) >>= fun instances =>
        Except.ok ⟨st.axes, labels, sources, instances⟩) = .ok doc := h
      cases hs : (List.range n.toNat).mapM (dsSource st out) with
      | error e => rw [hs] at h; cases h
      | ok sources =>
        rw [hs] at h
        replace h : (((List.range st.instances.length).zip st.instances).mapM (dsInstance st family) >>= fun instances =>
          Except.ok (⟨st.axes, labels, sources, instances⟩ : DsDoc)) = .ok doc := h
        cases hi : ((List.range st.instances.length).zip st.instances).mapM (dsInstance st family) with
        | error e => rw [hi] at h; cases h
        | ok instances =>
          rw [hi] at h
          cases h
          exact ⟨n, rfl, rfl, rfl, hs, rfl⟩

theorem dsSource_cases {A : Type} {st : MastersPart A} {out : PyStr} {i : Nat} {src : DsSource} (h : dsSource st out i = .ok src) :
    ∃ loc name, dictGet st.locations (i + 1 : Int) = some loc ∧ st.masters[i]? = some name ∧
      dsLocation Dbl.times1000 st.axes 0 loc [] = .ok src.location ∧ src.filename = masterPath out i ∧ src.name = pyStrip name ∧
      src.styleName = lit "Master " ++ natDec i := by
  unfold dsSource at h
  cases hl : dictGet st.locations (i + 1 : Int) with
  | none => rw [hl] at h; cases h
  | some loc =>
    rw [hl] at h
    replace h : (dsLocation Dbl.times1000 st.axes 0 loc [] >>= fun loc => pyIndex st.masters i >>= fun name =>
      Except.ok (⟨masterPath out i, loc, pyStrip name, lit "Master " ++ natDec i⟩ : DsSource)) = .ok src := h
    cases hd : dsLocation Dbl.times1000 st.axes 0 loc [] with
    | error e => rw [hd] at h; cases h
    | ok r =>
      rw [hd] at h
      replace h : (pyIndex st.masters i >>= fun name =>
        Except.ok (⟨masterPath out i, r, pyStrip name, lit "Master " ++ natDec i⟩ : DsSource)) = .ok src := h
      cases hm : pyIndex st.masters (i : Int) with
      | error e => rw [hm] at h; cases h
      | ok name =>
        rw [hm] at h
        cases h
        exact ⟨loc, name, rfl, pyIndex_get?.1 hm, hd, rfl, rfl, rfl⟩

theorem lastIs_some {l : List (Decompiled ops.Angle asm.Asm)} {α : Type} {wrap : α → Decompiled ops.Angle asm.Asm} {v : Option α} {x : α}
    (h : LastIs ops asm l wrap id v) (hv : v = some x) : l.getLast? = some (wrap x) := by
  rcases h with ⟨-, h⟩ | ⟨y, h1, h2⟩
  · rw [h] at hv; cases hv
  · rw [h2] at hv; cases hv; exact h1

/-- **C72.** In the designspace document of every file that can be converted, source `i` belongs to master `i`: it has its path, its name
without white space at the ends, and for each axis the coordinate that the file stores for the master, times 1000. -/
theorem C72_sources {o : BuildOpts} {es : List (FEntry ops asm)} {st : MastersPart ops.Angle} {family out : PyStr} {doc : DsDoc}
    (h : buildMasters ops asm o es = .ok st) (hd : getDesignspace st family out = .ok doc) :
    ∃ n : Int, (dataOf ops asm o es 1503).getLast? = some (.int n) ∧ doc.sources.length = n.toNat ∧
      doc.axes.map Axis.name = textsOf ops asm o es 1514 ∧
      ∀ (i : Nat) (src : DsSource), doc.sources[i]? = some src →
        src.filename = masterPath out i ∧ (∃ name, st.masters[i]? = some name ∧ IsStripped name src.name) ∧
        src.styleName = lit "Master " ++ natDec i ∧
        ∃ loc, locationOf ops asm o es (i + 1) = some loc ∧
          LocationFor IsPerMille (textsOf ops asm o es 1514) loc src.location := by
  obtain ⟨st0, hi, rfl⟩ := buildMasters_inv h
  obtain ⟨n, h1, -, h3, h4, -⟩ := getDesignspace_cases hd
  rw [mapM_ok_iff] at h4
  refine ⟨n, lastIs_some hi.numMasters h1, by simpa using (congrArg List.length h4).symm, by rw [h3]; exact (textsOf_of hi.axes).symm, ?_⟩
  intro i src hs
  have hk := congrArg (fun l => l[i]?) h4
  simp only [List.getElem?_map, hs, Option.map_some] at hk
  have hlt : i < n.toNat := by
    by_contra hc
    rw [List.getElem?_eq_none (by simpa using hc)] at hk
    cases hk
  rw [List.getElem?_range hlt, Option.map_some, Option.some.injEq] at hk
  obtain ⟨loc, name, g1, g2, g3, g4, g5, g6⟩ := dsSource_cases hk
  refine ⟨g4, ⟨name, g2, g5 ▸ strip_stripped name⟩, g6, loc, ?_, ?_⟩
  · rw [← hi.locations]; exact g1
  · rw [textsOf_of hi.axes]
    exact dsLocation_for times1000_perMille g3

/-- **C72.** The sources point to UFOs that are written: their paths are the first of the paths of the master UFOs. -/
theorem C72_written {o : BuildOpts} {es : List (FEntry ops asm)} {st : MastersPart ops.Angle} {family out : PyStr} {doc : DsDoc}
    (h : buildMasters ops asm o es = .ok st) (hd : getDesignspace st family out = .ok doc) :
    doc.sources.map DsSource.filename = (writtenPaths st.masters out).take doc.sources.length ∧ doc.sources.length ≤ st.masters.length ∧
      (writtenPaths st.masters out).Nodup := by
  obtain ⟨n, -, -, -, h4⟩ := C72_sources h hd
  have hle : doc.sources.length ≤ st.masters.length := by
    by_contra hc
    have hlt : st.masters.length < doc.sources.length := by omega
    obtain ⟨-, ⟨name, hn, -⟩, -⟩ := h4 st.masters.length _ (List.getElem?_eq_getElem hlt)
    simp at hn
  refine ⟨?_, hle, ?_⟩
  · apply List.ext_getElem?
    intro i
    by_cases hlt : i < doc.sources.length
    · obtain ⟨g, -⟩ := h4 i _ (List.getElem?_eq_getElem hlt)
      rw [List.getElem?_map, List.getElem?_eq_getElem hlt, List.getElem?_take, if_pos hlt]
      unfold writtenPaths
      rw [List.getElem?_map, List.getElem?_range (by omega)]
      simp [g]
    · rw [List.getElem?_eq_none (by simpa using hlt), List.getElem?_take, if_neg hlt]
  · unfold writtenPaths
    exact List.Nodup.map (fun i j hij => C72_paths hij) List.nodup_range

theorem rfindDot_last {stem ext : PyStr} (hd : 46 ∉ ext) : rfindDot (stem ++ lit "." ++ ext) = some stem.length := by
  have hdot : lit "." = [46] := by decide
  unfold rfindDot
  rw [if_pos (by rw [hdot]; simp)]
  have h1 : (stem ++ lit "." ++ ext).reverse = ext.reverse ++ (46 :: stem.reverse) := by rw [hdot]; simp
  have h2 : (ext.reverse ++ (46 :: stem.reverse)).idxOf 46 = ext.length := by
    rw [List.idxOf_append, if_neg (by simpa using hd)]
    simp
  rw [h1, h2, hdot]
  simp only [List.length_append, List.length_cons, List.length_nil]
  congr 1
  omega

theorem pathSplit_plain {name : PyStr} (h : ∀ stem ext : PyStr, name = stem ++ lit "." ++ ext → stem = [] ∨ ext = [] ∨ 46 ∈ ext) :
    pathSplit name = (name, []) := by
  have hdot : lit "." = [46] := by decide
  unfold pathSplit
  by_cases hc : 46 ∈ name
  · obtain ⟨as, bs, hab, hno⟩ := List.eq_append_cons_of_mem (List.mem_reverse.2 hc)
    have hname : name = bs.reverse ++ lit "." ++ as.reverse := by
      rw [hdot, ← List.reverse_reverse name, hab]; simp
    have hf : rfindDot name = some bs.reverse.length := by
      rw [hname]; exact rfindDot_last (by simpa using hno)
    rw [hf]
    dsimp only
    refine if_neg ?_
    have hl : name.length = bs.length + 1 + as.length := by rw [hname, hdot]; simp; omega
    rcases h _ _ hname with h | h | h
    · rw [h]; simp
    · have : as.length = 0 := by rw [← List.length_reverse, h]; rfl
      rw [List.length_reverse]; omega
    · exact absurd (by simpa using h) hno
  · have hf : rfindDot name = none := by unfold rfindDot; exact if_neg (by simpa using hc)
    rw [hf]

theorem pathSplit_dot {stem ext : PyStr} (hs : stem ≠ []) (he : ext ≠ []) (hd : 46 ∉ ext) :
    pathSplit (stem ++ lit "." ++ ext) = (stem, lit "." ++ ext) := by
  have hdot : lit "." = [46] := by decide
  have hf : rfindDot (stem ++ lit "." ++ ext) = some stem.length := rfindDot_last hd
  unfold pathSplit
  rw [hf]
  dsimp only
  have hs' : 0 < stem.length := List.length_pos_iff.2 hs
  have he' : 0 < ext.length := List.length_pos_iff.2 he
  rw [if_pos (by rw [hdot]; simp; omega)]
  rw [List.append_assoc, List.take_left', List.drop_left'] <;> rfl

/-- **C72.** If the file name has got no extension (no dot, or only one at the start or at the end), the number is at the end. -/
theorem C72_path_plain {name : PyStr} (h : ∀ stem ext : PyStr, name = stem ++ lit "." ++ ext → stem = [] ∨ ext = [] ∨ 46 ∈ ext) (i : Nat) :
    masterPath name (i + 1) = name ++ lit "-" ++ natDec (i + 1) := by
  unfold masterPath
  rw [if_pos (by omega), pathSplit_plain h]
  simp

/-- **C72.** The path of a further master is the path of the first one with a number before the extension. -/
theorem C72_path_form {stem ext : PyStr} (hs : stem ≠ []) (he : ext ≠ []) (hd : 46 ∉ ext) (i : Nat) :
    masterPath (stem ++ lit "." ++ ext) 0 = stem ++ lit "." ++ ext ∧
    masterPath (stem ++ lit "." ++ ext) (i + 1) = stem ++ lit "-" ++ natDec (i + 1) ++ lit "." ++ ext := by
  refine ⟨rfl, ?_⟩
  unfold masterPath
  rw [if_pos (by omega), pathSplit_dot hs he hd]
  simp

theorem mapM_exists {α β : Type} {f : α → Except PyErr β} {l : List α} : (∃ r, l.mapM f = .ok r) ↔ ∀ x ∈ l, ∃ y, f x = .ok y := by
  induction l with
  | nil => simp [pure, Except.pure]
  | cons a l ih =>
    constructor
    · rintro ⟨r, hr⟩
      rw [mapM_ok_iff] at hr
      cases r with
      | nil => cases hr
      | cons b r =>
        simp only [List.map_cons, List.cons.injEq] at hr
        intro x hx
        rcases List.mem_cons.1 hx with rfl | hx
        · exact ⟨b, hr.1⟩
        · exact ih.1 ⟨r, (mapM_ok_iff f l r).2 hr.2⟩ x hx
    · intro h
      obtain ⟨b, hb⟩ := h a (by simp)
      obtain ⟨r, hr⟩ := ih.2 fun x hx => h x (by simp [hx])
      refine ⟨b :: r, ?_⟩
      rw [mapM_ok_iff] at hr ⊢
      simp [hb, hr]

theorem dsLocation_exists {α β : Type} {scale : α → β} {axes : List Axis} {loc : List α} :
    (∃ r, dsLocation scale axes 0 loc [] = .ok r) ↔ [] ∉ axes.map Axis.name ∧ axes.length ≤ loc.length := by
  constructor
  · rintro ⟨r, hr⟩
    obtain ⟨h1, h2, -⟩ := dsLocation_spec hr
    refine ⟨?_, ?_⟩
    · intro hm
      obtain ⟨a, ha, hn⟩ := List.mem_map.1 hm
      exact h1 a ha hn
    · rcases h2 with rfl | h2
      · simp
      · omega
  · rintro ⟨h1, h2⟩
    exact dsLocation_total (fun a ha hn => h1 (List.mem_map.2 ⟨a, ha, hn⟩)) (.inr (by omega))

theorem dsSource_exists {A : Type} {st : MastersPart A} {out : PyStr} {i : Nat} : (∃ src, dsSource st out i = .ok src) ↔
    [] ∉ st.axes.map Axis.name ∧ i < st.masters.length ∧ ∃ loc, dictGet st.locations (i + 1 : Int) = some loc ∧ st.axes.length ≤ loc.length := by
  constructor
  · rintro ⟨src, hs⟩
    obtain ⟨loc, name, g1, g2, g3, -⟩ := dsSource_cases hs
    obtain ⟨h1, h2⟩ := dsLocation_exists.1 ⟨_, g3⟩
    exact ⟨h1, (List.getElem?_eq_some_iff.1 g2).1, loc, g1, h2⟩
  · rintro ⟨h1, h2, loc, h3, h4⟩
    obtain ⟨r, hr⟩ := dsLocation_exists (scale := Dbl.times1000) |>.2 ⟨h1, h4⟩
    have hm : pyIndex st.masters (i : Int) = .ok st.masters[i] := pyIndex_get?.2 (List.getElem?_eq_getElem h2)
    refine ⟨⟨masterPath out i, r, pyStrip st.masters[i], lit "Master " ++ natDec i⟩, ?_⟩
    unfold dsSource
    rw [h3]
    dsimp only
    rw [hr]
    show (pyIndex st.masters i >>= fun name => Except.ok (⟨masterPath out i, r, pyStrip name, lit "Master " ++ natDec i⟩ : DsSource)) = _
    rw [hm]
    rfl

theorem dsInstance_cases {A : Type} {st : MastersPart A} {family : PyStr} {x : Nat × PrimaryInstance} {ins : DsInstance}
    (h : dsInstance st family x = .ok ins) :
    dsLocation id st.axes 0 x.2.values [] = .ok ins.userLocation ∧
      ins.filename = lit "instance_ufo/" ++ family ++ lit "-" ++ x.2.name ++ lit ".ufo" ∧ ins.name = lit "instance_" ++ natDec x.1 ∧
      ins.styleName = x.2.name ∧ ins.styleMapFamilyName = pyStrip (family ++ lit " " ++ x.2.name) := by
  unfold dsInstance at h
  cases hd : dsLocation id st.axes 0 x.2.values [] with
  | error e => rw [hd] at h; cases h
  | ok r => rw [hd] at h; cases h; exact ⟨rfl, rfl, rfl, rfl, rfl⟩

theorem dsInstance_exists {A : Type} {st : MastersPart A} {family : PyStr} {x : Nat × PrimaryInstance} :
    (∃ ins, dsInstance st family x = .ok ins) ↔ [] ∉ st.axes.map Axis.name ∧ st.axes.length ≤ x.2.values.length := by
  rw [← dsLocation_exists (scale := (id : Rat → Rat))]
  constructor
  · rintro ⟨ins, h⟩
    exact ⟨_, (dsInstance_cases h).1⟩
  · rintro ⟨r, hr⟩
    unfold dsInstance
    rw [hr]
    exact ⟨_, rfl⟩

theorem dsLabels_exists {A : Type} {st : MastersPart A} :
    (∃ l, dsLabels st = .ok l) ↔ (st.axisCount = 1 → ∀ p ∈ st.instances, st.axes ≠ [] ∧ p.values ≠ []) := by
  unfold dsLabels
  by_cases h1 : st.axisCount = 1
  · rw [if_pos h1, mapM_exists]
    simp only [h1, forall_const]
    refine forall_congr' fun p => forall_congr' fun hp => ?_
    cases ha : st.axes with
    | nil => simp [pyIndex, bind, Except.bind]
    | cons a l =>
      cases hv : p.values with
      | nil => simp [pyIndex, bind, Except.bind]
      | cons v vs => simp [pyIndex, bind, Except.bind]
  · rw [if_neg h1]
    simp [h1]

theorem getDesignspace_exists {A : Type} {st : MastersPart A} {family out : PyStr} : (∃ doc, getDesignspace st family out = .ok doc) ↔
    (∃ l, dsLabels st = .ok l) ∧ ∃ n, st.numMasters = some n ∧ (∃ s, (List.range n.toNat).mapM (dsSource st out) = .ok s) ∧
      ∃ s, ((List.range st.instances.length).zip st.instances).mapM (dsInstance st family) = .ok s := by
  constructor
  · rintro ⟨doc, h⟩
    obtain ⟨n, h1, h2, h3, h4, h5⟩ := getDesignspace_cases h
    exact ⟨⟨_, h2⟩, n, h1, ⟨_, h4⟩, _, h5⟩
  · rintro ⟨⟨labels, h1⟩, n, h2, ⟨sources, h3⟩, instances, h4⟩
    refine ⟨⟨st.axes, labels, sources, instances⟩, ?_⟩
    unfold getDesignspace
    rw [h1, h2]
    show ((List.range n.toNat).mapM (dsSource st out) >>= fun sources =>
        ((List.range st.instances.length).zip st.instances).mapM (dsInstance st family) >>= fun instances =>
        Except.ok (⟨st.axes, labels, sources, instances⟩ : DsDoc)) = _
    rw [h3]
    show (((List.range st.instances.length).zip st.instances).mapM (dsInstance st family) >>= fun instances =>
        Except.ok (⟨st.axes, labels, sources, instances⟩ : DsDoc)) = _
    rw [h4]
    rfl

theorem lastOr_unique {l : List (Decompiled ops.Angle asm.Asm)} {α : Type} {wrap : α → Decompiled ops.Angle asm.Asm} (hw : Function.Injective wrap)
    {dflt x y : α} (hx : LastOr ops asm l wrap dflt x) (hy : LastOr ops asm l wrap dflt y) : x = y := by
  rcases hx with ⟨h1, rfl⟩ | h1
  · rcases hy with ⟨-, rfl⟩ | h2
    · rfl
    · rw [h1] at h2; cases h2
  · rcases hy with ⟨h2, rfl⟩ | h2
    · rw [h2] at h1; cases h1
    · rw [h1] at h2; exact hw (Option.some.inj h2)

theorem mem_zip_range {α : Type} {l : List α} {x : Nat × α} : x ∈ (List.range l.length).zip l ↔ l[x.1]? = some x.2 := by
  constructor
  · intro h
    obtain ⟨k, hk⟩ := List.getElem?_of_mem h
    rw [List.getElem?_zip_eq_some] at hk
    have h1 := (List.getElem?_eq_some_iff.1 hk.2).1
    rw [List.getElem?_range h1] at hk
    simp only [Option.some.injEq] at hk
    rw [← hk.1]; exact hk.2
  · intro h
    have h1 := (List.getElem?_eq_some_iff.1 h).1
    apply List.mem_of_getElem? (i := x.1)
    rw [List.getElem?_zip_eq_some, List.getElem?_range h1]
    exact ⟨rfl, h⟩

/-- **C72.** Exactly when a designspace document can be made. -/
theorem C72_success {o : BuildOpts} {es : List (FEntry ops asm)} {st : MastersPart ops.Angle} {family out : PyStr}
    (h : buildMasters ops asm o es = .ok st) :
    (∃ doc, getDesignspace st family out = .ok doc) ↔
      ∃ (n axes : Int) (instances : List PrimaryInstance), (dataOf ops asm o es 1503).getLast? = some (.int n) ∧
        LastOr ops asm (dataOf ops asm o es 1513) .int 0 axes ∧ LastOr ops asm (dataOf ops asm o es 1254) .instances [] instances ∧
        n.toNat ≤ st.masters.length ∧
        (0 < n ∨ instances ≠ [] → [] ∉ textsOf ops asm o es 1514) ∧
        (∀ i : Nat, i < n.toNat → ∃ loc, locationOf ops asm o es (i + 1) = some loc ∧
          (textsOf ops asm o es 1514).length ≤ loc.length) ∧
        (∀ p ∈ instances, (textsOf ops asm o es 1514).length ≤ p.values.length) ∧
        (axes = 1 → ∀ p ∈ instances, textsOf ops asm o es 1514 ≠ [] ∧ p.values ≠ []) := by
  obtain ⟨st0, hi, rfl⟩ := buildMasters_inv h
  rw [getDesignspace_exists, dsLabels_exists]
  rw [textsOf_of hi.axes]
  simp only [mapM_exists, dsSource_exists, dsInstance_exists, mem_zip_range, List.mem_range, List.length_map, ne_eq, List.map_eq_nil_iff]
  constructor
  · rintro ⟨hl, n, hn, hs, hins⟩
    have hins' : ∀ p ∈ st0.instances, [] ∉ st0.axes.map Axis.name ∧ st0.axes.length ≤ p.values.length := by
      intro p hp
      obtain ⟨k, hk⟩ := List.getElem?_of_mem hp
      exact hins (k, p) hk
    refine ⟨n, st0.axisCount, st0.instances, lastIs_some hi.numMasters hn, hi.axisCount, hi.instances, ?_, ?_, ?_, ?_, hl⟩
    · by_cases h0 : n.toNat = 0
      · omega
      · have := (hs (n.toNat - 1) (by omega)).2.1
        omega
    · rintro (h0 | h0)
      · exact (hs 0 (by omega)).1
      · obtain ⟨p, hp⟩ := List.exists_mem_of_ne_nil _ h0
        exact (hins' p hp).1
    · intro i hi'
      rw [← hi.locations]
      exact (hs i hi').2.2
    · intro p hp
      exact (hins' p hp).2
  · rintro ⟨n, axes, instances, h1, h2, h3, h4, h5, h6, h7, h8⟩
    have e2 := lastOr_unique (fun a b h => by cases h; rfl) h2 hi.axisCount
    have e3 := lastOr_unique (fun a b h => by cases h; rfl) h3 hi.instances
    subst e2 e3
    refine ⟨h8, n, ?_, ?_, ?_⟩
    · rcases hi.numMasters with ⟨hx, -⟩ | ⟨y, hx, hy⟩
      · rw [hx] at h1; cases h1
      · rw [hx] at h1; cases h1; exact hy
    · intro i hi'
      refine ⟨h5 (.inl (by omega)), by omega, ?_⟩
      rw [hi.locations]
      exact h6 i hi'
    · rintro x hx
      have hm := List.mem_of_getElem? hx
      exact ⟨h5 (.inr (List.ne_nil_of_mem hm)), h7 _ hm⟩

/-- **C73.** The instances of the designspace document are the primary instances of the file in the same order, each with its name, a
number and its coordinates for all axes. -/
theorem C73_instances {o : BuildOpts} {es : List (FEntry ops asm)} {st : MastersPart ops.Angle} {family out : PyStr} {doc : DsDoc}
    (h : buildMasters ops asm o es = .ok st) (hd : getDesignspace st family out = .ok doc) :
    ∃ stored, LastOr ops asm (dataOf ops asm o es 1254) .instances [] stored ∧ doc.instances.length = stored.length ∧
      ∀ (i : Nat) (p : PrimaryInstance) (ins : DsInstance), stored[i]? = some p → doc.instances[i]? = some ins →
        ins.name = lit "instance_" ++ natDec i ∧ ins.styleName = p.name ∧
        ins.filename = lit "instance_ufo/" ++ family ++ lit "-" ++ p.name ++ lit ".ufo" ∧
        IsStripped (family ++ lit " " ++ p.name) ins.styleMapFamilyName ∧
        LocationFor (fun x y => y = x) (textsOf ops asm o es 1514) p.values ins.userLocation := by
  obtain ⟨st0, hi, rfl⟩ := buildMasters_inv h
  obtain ⟨n, -, -, -, -, h5⟩ := getDesignspace_cases hd
  rw [mapM_ok_iff] at h5
  refine ⟨st0.instances, hi.instances, by simpa using (congrArg List.length h5).symm, ?_⟩
  intro i p ins hp hins
  have hk := congrArg (fun l => l[i]?) h5
  have hz : ((List.range st0.instances.length).zip st0.instances)[i]? = some (i, p) := by
    rw [List.getElem?_zip_eq_some, List.getElem?_range (List.getElem?_eq_some_iff.1 hp).1]
    exact ⟨rfl, hp⟩
  simp only [List.getElem?_map, hins, Option.map_some] at hk
  rw [hz, Option.map_some, Option.some.injEq] at hk
  obtain ⟨g1, g2, g3, g4, g5⟩ := dsInstance_cases hk
  refine ⟨g3, g4, g2, g5 ▸ strip_stripped _, ?_⟩
  rw [textsOf_of hi.axes]
  exact dsLocation_for (rel := fun x y => y = x) (fun x => rfl) g1

/-- **C73.** No two instances have the same name, and two of them have the same file name only if they have the same style name. -/
theorem C73_names {o : BuildOpts} {es : List (FEntry ops asm)} {st : MastersPart ops.Angle} {family out : PyStr} {doc : DsDoc}
    (h : buildMasters ops asm o es = .ok st) (hd : getDesignspace st family out = .ok doc) :
    (doc.instances.map DsInstance.name).Nodup ∧ ∀ a ∈ doc.instances, ∀ b ∈ doc.instances, a.filename = b.filename ↔ a.styleName = b.styleName := by
  obtain ⟨stored, -, hlen, hall⟩ := C73_instances h hd
  have hget : ∀ (i : Nat) (ins : DsInstance), doc.instances[i]? = some ins → ∃ p, stored[i]? = some p := by
    intro i ins hi
    have := (List.getElem?_eq_some_iff.1 hi).1
    exact ⟨_, List.getElem?_eq_getElem (by omega)⟩
  constructor
  · rw [List.nodup_iff_getElem?_ne_getElem?]
    intro i j hij hj he
    rw [List.length_map] at hj
    rw [List.getElem?_map, List.getElem?_map, List.getElem?_eq_getElem hj, List.getElem?_eq_getElem (by omega)] at he
    simp only [Option.map_some, Option.some.injEq] at he
    obtain ⟨p, hp⟩ := hget i _ (List.getElem?_eq_getElem (by omega))
    obtain ⟨q, hq⟩ := hget j _ (List.getElem?_eq_getElem hj)
    rw [(hall i p _ hp (List.getElem?_eq_getElem (by omega))).1, (hall j q _ hq (List.getElem?_eq_getElem hj)).1] at he
    have := natDec_inj (List.append_cancel_left he)
    omega
  · intro a ha b hb
    obtain ⟨i, hi⟩ := List.getElem?_of_mem ha
    obtain ⟨j, hj⟩ := List.getElem?_of_mem hb
    obtain ⟨p, hp⟩ := hget i _ hi
    obtain ⟨q, hq⟩ := hget j _ hj
    obtain ⟨-, h1, h2, -⟩ := hall i p a hp hi
    obtain ⟨-, h3, h4, -⟩ := hall j q b hq hj
    rw [h1, h2, h3, h4]
    constructor
    · intro he
      rw [List.append_assoc, List.append_assoc, List.append_assoc, List.append_assoc, List.append_assoc, List.append_assoc] at he
      have he := List.append_cancel_left he
      have he := List.append_cancel_left he
      have he := List.append_cancel_left he
      exact List.append_cancel_right he
    · intro he; rw [he]

/-- **C73.** A font with exactly one axis gets a label for each instance, at its first coordinate; other fonts get no labels. -/
theorem C73_labels {o : BuildOpts} {es : List (FEntry ops asm)} {st : MastersPart ops.Angle} {family out : PyStr} {doc : DsDoc}
    (h : buildMasters ops asm o es = .ok st) (hd : getDesignspace st family out = .ok doc) :
    ∃ (axes : Int) (stored : List PrimaryInstance), LastOr ops asm (dataOf ops asm o es 1513) .int 0 axes ∧
      LastOr ops asm (dataOf ops asm o es 1254) .instances [] stored ∧
      (axes ≠ 1 → doc.labels = []) ∧
      (axes = 1 → Corresponds (fun (p : PrimaryInstance) (l : PyStr × Rat) => l.1 = p.name ∧ p.values.head? = some l.2) stored doc.labels) := by
  obtain ⟨st0, hi, rfl⟩ := buildMasters_inv h
  obtain ⟨n, -, h2, -, -, -⟩ := getDesignspace_cases hd
  refine ⟨st0.axisCount, st0.instances, hi.axisCount, hi.instances, ?_, ?_⟩
  · intro hne
    unfold dsLabels at h2
    rw [if_neg hne] at h2
    exact (Except.ok.inj h2).symm
  · intro he
    unfold dsLabels at h2
    rw [if_pos he] at h2
    refine corresponds_mapM ?_ h2
    intro p l hp
    cases ha : pyIndex st0.axes 0 with
    | error e => rw [ha] at hp; cases hp
    | ok a =>
      rw [ha] at hp
      replace hp : (pyIndex p.values 0 >>= fun v => Except.ok (p.name, v)) = .ok l := hp
      cases hv : pyIndex p.values 0 with
      | error e => rw [hv] at hp; cases hp
      | ok v =>
        rw [hv] at hp
        cases hp
        refine ⟨rfl, ?_⟩
        have := pyIndex_get? (i := 0).1 hv
        rw [List.head?_eq_getElem?]
        exact this

end

/-! ### an example -/

/-- one axis, two masters, one instance -/
def exampleDesign : List (FEntry exampleAngles exampleAsm) :=
  [(1503, some (.int 2)), (1513, some (.int 1)), (1514, some (.str (lit "Weight"))),
   (1504, some (.str (lit "Light "))), (1505, some (.location (1, [⟨0⟩, ⟨0⟩, ⟨0⟩, ⟨0⟩]))),
   (1504, some (.str (lit "Bold"))), (1505, some (.location (2, [⟨0x3FF0000000000000⟩, ⟨0⟩, ⟨0⟩, ⟨0⟩]))),
   (1254, some (.instances [⟨lit "Book", [375, 0, 0, 0]⟩]))]

/-- the hypotheses of C71–C73 are met -/
example : ∃ st doc, buildMasters exampleAngles exampleAsm exampleOpts exampleDesign = .ok st ∧
    getDesignspace st (lit "Font") (lit "Font.ufo") = .ok doc ∧ doc.sources.length = 2 ∧ doc.instances.length = 1 ∧
    (doc.sources.map DsSource.filename) = [lit "Font.ufo", lit "Font-1.ufo"] ∧ doc.labels = [(lit "Book", 375)] :=
  ⟨_, _, rfl, rfl, by decide +kernel, by decide +kernel, by decide +kernel, by decide +kernel⟩

end Verif.Props
