import Verif.Spec.Cmdline
import Verif.Props.UfoDesign
import Verif.Props.UfoConvert
import Verif.Props.Table
import Mathlib.Data.List.Basic
/-! C89: the files of the command `vfb3ufo`. -/
set_option autoImplicit false
namespace Verif.Props
open Verif Verif.Spec
variable {ASM : Type}

/-! ## contents after writes -/

theorem contentAfter_nil (fs : Files ASM) : contentAfter fs [] = fs := rfl

theorem contentAfter_cons (fs : Files ASM) (w : FPath × DiskFile ASM) (ws : List (FPath × DiskFile ASM)) :
    contentAfter fs (w :: ws) = contentAfter (fs.set w.1 w.2) ws := by
  funext p
  unfold contentAfter Files.set
  rw [List.reverse_cons, List.find?_append]
  cases h : ws.reverse.find? (fun w => decide (w.1 = p)) with
  | some x => rfl
  | none =>
    simp only [Option.none_or, List.find?_cons, List.find?_nil]
    by_cases hp : w.1 = p
    · simp [hp]
    · simp [hp, Ne.symm hp]

theorem contentAfter_fold (fs : Files ASM) (ws : List (FPath × DiskFile ASM)) :
    ws.foldl (fun fs w => fs.set w.1 w.2) fs = contentAfter fs ws := by
  induction ws generalizing fs with
  | nil => rfl
  | cons w ws ih => rw [List.foldl_cons, ih, contentAfter_cons]

theorem contentAfter_append (fs : Files ASM) (ws ws' : List (FPath × DiskFile ASM)) :
    contentAfter fs (ws ++ ws') = contentAfter (contentAfter fs ws) ws' := by
  rw [← contentAfter_fold, ← contentAfter_fold, ← contentAfter_fold, List.foldl_append]

theorem contentAfter_other (fs : Files ASM) (ws : List (FPath × DiskFile ASM)) (p : FPath) (h : ∀ w ∈ ws, w.1 ≠ p) :
    contentAfter fs ws p = fs p := by
  unfold contentAfter
  rw [List.find?_eq_none.2]
  intro w hw
  simpa using h w (by simpa using hw)

theorem contentAfter_mem (fs : Files ASM) (ws : List (FPath × DiskFile ASM)) (w : FPath × DiskFile ASM) (hd : (ws.map Prod.fst).Nodup)
    (h : w ∈ ws) : contentAfter fs ws w.1 = some w.2 := by
  induction ws generalizing fs with
  | nil => cases h
  | cons x ws ih =>
    rw [List.map_cons, List.nodup_cons] at hd
    rw [contentAfter_cons]
    rcases List.mem_cons.1 h with rfl | h
    · rw [contentAfter_other]
      · simp [Files.set]
      · intro y hy he
        exact hd.1 (List.mem_map.2 ⟨y, hy, he⟩)
    · exact ih _ hd.2 h

theorem ufoSteps_content (a : UfoArgs) (fs : Files ASM) (p : FPath) (u : UfoFont ASM) :
    contentAfter fs (ufoSteps a p u) = (contentAfter fs [(p, savedUfo a u)]) ∧ ∀ w ∈ ufoSteps a p u, w.1 = p := by
  constructor
  · funext q
    unfold ufoSteps savedUfo contentAfter
    cases a.json <;> cases a.no_normalize <;> cases a.zip <;> by_cases h : p = q <;> simp [h]
  · unfold ufoSteps
    intro w hw
    split at hw
    · rw [List.mem_singleton.1 hw]
    · rcases List.mem_cons.1 hw with rfl | hw
      · rfl
      · split at hw
        · rw [List.mem_singleton.1 hw]
        · cases hw

/-! ## paths -/

theorem stem_ne_nil {name stem : PyStr} (hn : name ≠ []) (h : IsStem name stem) : stem ≠ [] := by
  rcases h with ⟨ext, h, -⟩ | ⟨-, rfl⟩
  · exact h
  · exact hn

theorem pathSplit_stem {name stem : PyStr} (h : IsStem name stem) : (pathSplit name).1 = stem := by
  rcases h with ⟨ext, h1, h2, h3, rfl⟩ | ⟨h, rfl⟩
  · rw [pathSplit_dot h1 h2 h3]
  · rw [pathSplit_plain h]

theorem ufoExt_ok (a : UfoArgs) : ufoExt a ≠ [] ∧ 46 ∉ ufoExt a := by
  unfold ufoExt
  cases a.json <;> cases a.zip <;> decide

theorem out_form (a : UfoArgs) {stem : PyStr} (hn : a.input.name ≠ []) (h : IsStem a.input.name stem) :
    a.out = ⟨outFolder a, stem ++ lit "." ++ ufoExt a⟩ := by
  have hs := pathSplit_stem h
  have hne := stem_ne_nil hn h
  have hufo : lit ".ufo" = lit "." ++ lit "ufo" := by decide
  have hz : lit "ufoz" = lit "ufo" ++ lit "z" := by decide
  have hj : lit ".json" = lit "." ++ lit "json" := by decide
  have h2 := pathSplit_dot (stem := stem) (ext := lit "ufo") hne (by decide) (by decide)
  unfold UfoArgs.out outFolder ufoExt FPath.withSuffix
  cases a.json <;> cases a.zip <;> cases a.path <;>
    simp only [hs, Bool.false_eq_true, if_false, if_true, and_false, and_true, false_and, true_and, reduceCtorEq, hz, Option.getD_none, Option.getD_some,
      hufo, hj, ← List.append_assoc, h2]

theorem master_form (a : UfoArgs) {stem : PyStr} (hn : a.input.name ≠ []) (h : IsStem a.input.name stem) (i : Nat) :
    (⟨a.out.dir, masterPath a.out.name i⟩ : FPath) = ufoFile a stem i := by
  rw [out_form a hn h]
  obtain ⟨e1, e2⟩ := ufoExt_ok a
  unfold ufoFile
  cases i with
  | zero => simp [masterPath]
  | succ i =>
    rw [(C72_path_form (stem_ne_nil hn h) e1 e2 i).2]
    simp

theorem ds_form (a : UfoArgs) {stem : PyStr} (hn : a.input.name ≠ []) (h : IsStem a.input.name stem) :
    a.out.withSuffix (lit ".designspace") = dsPath a stem := by
  rw [out_form a hn h]
  obtain ⟨e1, e2⟩ := ufoExt_ok a
  unfold FPath.withSuffix dsPath
  rw [pathSplit_dot (stem_ne_nil hn h) e1 e2]

theorem ufoFile_inj (a : UfoArgs) {stem : PyStr} (hn : a.input.name ≠ []) (h : IsStem a.input.name stem) {i j : Nat}
    (he : ufoFile a stem i = ufoFile a stem j) : i = j := by
  rw [← master_form a hn h, ← master_form a hn h] at he
  injection he with _ he
  exact C72_paths he

theorem dot_split {x y s t : PyStr} (hs : 46 ∉ s) (ht : 46 ∉ t) (h : x ++ lit "." ++ s = y ++ lit "." ++ t) : s = t := by
  have hdot : lit "." = [46] := by decide
  rw [hdot] at h
  have h' := congrArg List.reverse h
  simp only [List.reverse_append, List.reverse_cons, List.reverse_nil, List.nil_append, List.singleton_append] at h'
  have key : ∀ (s t x y : PyStr), 46 ∉ s → 46 ∉ t → s ++ 46 :: x = t ++ 46 :: y → s = t := by
    intro s
    induction s with
    | nil =>
      intro t x y _ ht h
      cases t with
      | nil => rfl
      | cons c t =>
        simp only [List.nil_append, List.cons_append, List.cons.injEq] at h
        exact absurd (by rw [← h.1]; simp) ht
    | cons c s ih =>
      intro t x y hs ht h
      cases t with
      | nil =>
        simp only [List.nil_append, List.cons_append, List.cons.injEq] at h
        exact absurd (by rw [h.1]; simp) hs
      | cons c' t =>
        simp only [List.cons_append, List.cons.injEq] at h
        rw [h.1, ih t x y (fun hm => hs (by simp [hm])) (fun hm => ht (by simp [hm])) h.2]
  have := key s.reverse t.reverse x.reverse y.reverse (by simpa using hs) (by simpa using ht) h'
  exact List.reverse_inj.1 this

theorem ds_ne_ufo (a : UfoArgs) {stem : PyStr} (i : Nat) : ufoFile a stem i ≠ dsPath a stem := by
  intro h
  injection h with _ h
  rw [show lit ".designspace" = lit "." ++ lit "designspace" by decide, ← List.append_assoc] at h
  have := dot_split (ufoExt_ok a).2 (by decide) h
  unfold ufoExt at this
  revert this
  cases a.json <;> cases a.zip <;> decide

/-! ## writing -/

/-- the files still to be written -/
def plan (a : UfoArgs) (stem : PyStr) (i : Nat) (us : List (UfoFont ASM)) (ds : Option DsDoc) : List (FPath × DiskFile ASM) :=
  ((us.zipIdx i).map fun x => (ufoFile a stem x.2, savedUfo a x.1)) ++ ds.toList.map fun d => (dsPath a stem, .designspace d)

theorem plan_paths (a : UfoArgs) {stem : PyStr} (hn : a.input.name ≠ []) (h : IsStem a.input.name stem) (i : Nat) (us : List (UfoFont ASM))
    (ds : Option DsDoc) : ((plan a stem i us ds).map Prod.fst).Nodup ∧ ∀ j < i, ufoFile a stem j ∉ (plan a stem i us ds).map Prod.fst := by
  induction us generalizing i with
  | nil =>
    cases ds with
    | none => simp [plan]
    | some d =>
      refine ⟨by simp [plan], fun j _ hj => ?_⟩
      simp only [plan, List.zipIdx_nil, List.map_nil, Option.toList_some, List.map_cons, List.nil_append, List.mem_singleton] at hj
      exact ds_ne_ufo a j hj
  | cons u us ih =>
    obtain ⟨h1, h2⟩ := ih (i + 1)
    have hp : plan a stem i (u :: us) ds = (ufoFile a stem i, savedUfo a u) :: plan a stem (i + 1) us ds := rfl
    rw [hp, List.map_cons, List.nodup_cons]
    refine ⟨⟨h2 i (by omega), h1⟩, fun j hj hm => ?_⟩
    rcases List.mem_cons.1 hm with hm | hm
    · have := ufoFile_inj a hn h hm
      omega
    · exact h2 j (by omega) hm

theorem writeSteps_spec (a : UfoArgs) {stem : PyStr} (hn : a.input.name ≠ []) (h : IsStem a.input.name stem) (fs : Files ASM) (i : Nat)
    (us : List (UfoFont ASM)) (ds : Option DsDoc) : ∃ n, n ≤ (plan a stem i us ds).length ∧
      contentAfter fs (writeSteps a fs i us ds).2 = contentAfter fs ((plan a stem i us ds).take n) ∧
      (∀ w ∈ (plan a stem i us ds).take n, ¬ Blocked a fs w) ∧
      (∀ w ∈ (writeSteps a fs i us ds).2, ∃ w' ∈ (plan a stem i us ds).take n, w'.1 = w.1) ∧
      (((writeSteps a fs i us ds).1 = .ok () ∧ n = (plan a stem i us ds).length) ∨
        ∃ w, (plan a stem i us ds)[n]? = some w ∧ Blocked a fs w ∧ (writeSteps a fs i us ds).1 = .error (.fileExists w.1)) := by
  induction us generalizing i fs with
  | nil =>
    cases ds with
    | none => exact ⟨0, by simp, rfl, by simp, by simp [writeSteps], .inl ⟨rfl, rfl⟩⟩
    | some d =>
      have hp : plan a stem i ([] : List (UfoFont ASM)) (some d) = [(dsPath a stem, .designspace d)] := rfl
      rw [hp, writeSteps, ds_form a hn h]
      by_cases hb : (fs (dsPath a stem)).isSome = true ∧ a.force_overwrite = false
      · rw [if_pos hb]
        refine ⟨0, by simp, rfl, by simp, by simp, .inr ⟨_, rfl, ⟨hb.2, ?_, fun _ => ⟨d, rfl⟩⟩, rfl⟩⟩
        exact Option.isSome_iff_ne_none.1 hb.1
      · rw [if_neg hb]
        refine ⟨1, by simp, rfl, ?_, by simp, .inl ⟨rfl, rfl⟩⟩
        intro w hw hB
        rw [List.take_of_length_le (by simp), List.mem_singleton] at hw
        subst hw
        exact hb ⟨Option.isSome_iff_ne_none.2 hB.2.1, hB.1⟩
  | cons u us ih =>
    have hp : plan a stem i (u :: us) ds = (ufoFile a stem i, savedUfo a u) :: plan a stem (i + 1) us ds := rfl
    rw [hp, writeSteps, master_form a hn h]
    dsimp only
    by_cases hb : a.json = false ∧ a.force_overwrite = false ∧ (fs (ufoFile a stem i)).isSome = true
    · rw [if_pos hb]
      refine ⟨0, by simp, rfl, by simp, by simp, .inr ⟨_, rfl, ⟨hb.2.1, Option.isSome_iff_ne_none.1 hb.2.2, ?_⟩, rfl⟩⟩
      intro hj
      rw [hb.1] at hj
      cases hj
    · rw [if_neg hb, contentAfter_fold]
      obtain ⟨c1, c2⟩ := ufoSteps_content a fs (ufoFile a stem i) u
      obtain ⟨n, n1, n2, n3, n4, n5⟩ := ih (contentAfter fs (ufoSteps a (ufoFile a stem i) u)) (i + 1)
      have hfresh := (plan_paths a hn h (i + 1) us ds).2 i (by omega)
      have hsame : ∀ w ∈ plan a stem (i + 1) us ds, contentAfter fs (ufoSteps a (ufoFile a stem i) u) w.1 = fs w.1 := by
        intro w hw
        refine contentAfter_other _ _ _ fun x hx he => ?_
        rw [c2 x hx] at he
        exact hfresh (List.mem_map.2 ⟨w, hw, he.symm⟩)
      have hblk : ∀ w ∈ plan a stem (i + 1) us ds, Blocked a (contentAfter fs (ufoSteps a (ufoFile a stem i) u)) w ↔ Blocked a fs w := by
        intro w hw
        unfold Blocked
        rw [hsame w hw]
      refine ⟨n + 1, by simpa using n1, ?_, ?_, ?_, ?_⟩
      · show contentAfter fs (_ ++ _) = _
        rw [contentAfter_append, n2, List.take_succ_cons, contentAfter_cons, c1, contentAfter_cons, contentAfter_nil]
      · intro w hw
        rw [List.take_succ_cons] at hw
        rcases List.mem_cons.1 hw with rfl | hw
        · rintro ⟨b1, b2, b3⟩
          refine hb ⟨?_, b1, Option.isSome_iff_ne_none.2 b2⟩
          cases hj : a.json with
          | false => rfl
          | true =>
            obtain ⟨d, hd⟩ := b3 hj
            simp [savedUfo, hj] at hd
        · exact fun hB => n3 w hw ((hblk w (List.mem_of_mem_take hw)).2 hB)
      · intro w hw
        rcases List.mem_append.1 hw with hw | hw
        · exact ⟨(ufoFile a stem i, savedUfo a u), by simp [List.take_succ_cons], (c2 w hw).symm⟩
        · obtain ⟨w', h1, h2⟩ := n4 w hw
          exact ⟨w', by rw [List.take_succ_cons]; exact List.mem_cons_of_mem _ h1, h2⟩
      · rcases n5 with ⟨m1, m2⟩ | ⟨w, m1, m2, m3⟩
        · exact .inl ⟨m1, by simp [m2]⟩
        · exact .inr ⟨w, by simpa using m1, (hblk w (List.mem_of_getElem? m1)).1 m2, m3⟩

/-! ## the command -/

section
variable (ops : AngleOps) (deg : ops.Angle → Rat) (asm : AsmOps) (fmt : Int → PyStr)

/-- the conversion of a file: reading, decompiling, building the UFOs and the designspace -/
def converted (a : UfoArgs) (depth : Nat) (file : Bytes) : Except PyErr (List (UfoFont asm.Asm) × Option DsDoc) :=
  readFont ops asm a file >>= ufosDesignspace ops deg asm fmt a depth

/-- **C89** What the command writes.  If the input cannot be read or converted, nothing is written.  Otherwise the UFOs and the
designspace are written one after the other (`outputs`), up to the first one that is blocked by an existing file; there the command fails with
the path of this file. -/
theorem C89_outcome (a : UfoArgs) (depth : Nat) (fs : Files asm.Asm) {stem : PyStr} (hn : a.input.name ≠ []) (hs : IsStem a.input.name stem)
    (file : Bytes) (hf : fs a.input = some (.bytes file)) :
    (∀ e, converted ops deg asm fmt a depth file = .error e → vfb3ufo ops deg asm fmt a depth fs = (.error (.exception e), [])) ∧
    (∀ ufos ds, converted ops deg asm fmt a depth file = .ok (ufos, ds) →
      ∃ n, n ≤ (outputs a stem ufos ds).length ∧
        contentAfter fs (vfb3ufo ops deg asm fmt a depth fs).2 = contentAfter fs ((outputs a stem ufos ds).take n) ∧
        (∀ w ∈ (outputs a stem ufos ds).take n, ¬ Blocked a fs w) ∧
        (((vfb3ufo ops deg asm fmt a depth fs).1 = .ok () ∧ n = (outputs a stem ufos ds).length) ∨
          ∃ w, (outputs a stem ufos ds)[n]? = some w ∧ Blocked a fs w ∧ (vfb3ufo ops deg asm fmt a depth fs).1 = .error (.fileExists w.1))) := by
  unfold vfb3ufo converted
  rw [hf]
  dsimp only
  constructor
  · intro e he
    rw [he]
  · intro ufos ds he
    rw [he]
    obtain ⟨n, n1, n2, n3, -, n5⟩ := writeSteps_spec a hn hs fs 0 ufos ds
    exact ⟨n, n1, n2, n3, n5⟩

/-- **C89** The paths of the files are all different. -/
theorem C89_paths (a : UfoArgs) {stem : PyStr} (hn : a.input.name ≠ []) (hs : IsStem a.input.name stem) (ufos : List (UfoFont asm.Asm))
    (ds : Option DsDoc) : ((outputs a stem ufos ds).map Prod.fst).Nodup := (plan_paths a hn hs 0 ufos ds).1

/-- **C89** After a successful run, all UFOs of the conversion and the designspace are on disk, and nothing else has changed. -/
theorem C89_success (a : UfoArgs) (depth : Nat) (fs : Files asm.Asm) {stem : PyStr} (hn : a.input.name ≠ []) (hs : IsStem a.input.name stem)
    (h : (vfb3ufo ops deg asm fmt a depth fs).1 = .ok ()) :
    ∃ file ufos ds, fs a.input = some (.bytes file) ∧ converted ops deg asm fmt a depth file = .ok (ufos, ds) ∧
      (∀ i u, ufos[i]? = some u → contentAfter fs (vfb3ufo ops deg asm fmt a depth fs).2 (ufoFile a stem i) = some (savedUfo a u)) ∧
      (∀ d, ds = some d → contentAfter fs (vfb3ufo ops deg asm fmt a depth fs).2 (dsPath a stem) = some (.designspace d)) ∧
      ∀ p, (∀ w ∈ outputs a stem ufos ds, w.1 ≠ p) → contentAfter fs (vfb3ufo ops deg asm fmt a depth fs).2 p = fs p := by
  have hin : ∃ file, fs a.input = some (.bytes file) := by
    unfold vfb3ufo at h
    split at h
    · exact ⟨_, by assumption⟩
    · cases h
  obtain ⟨file, hf⟩ := hin
  obtain ⟨o1, o2⟩ := C89_outcome ops deg asm fmt a depth fs hn hs file hf
  cases hc : converted ops deg asm fmt a depth file with
  | error e => rw [o1 e hc] at h; cases h
  | ok r =>
    obtain ⟨ufos, ds⟩ := r
    obtain ⟨n, -, n2, -, ⟨-, rfl⟩ | ⟨w, -, -, hw⟩⟩ := o2 ufos ds hc
    · rw [List.take_length] at n2
      rw [n2]
      have hd := C89_paths asm a hn hs ufos ds
      refine ⟨file, ufos, ds, hf, hc, fun i u hu => ?_, fun d hd' => ?_, fun p hp => contentAfter_other _ _ _ hp⟩
      · refine contentAfter_mem fs _ (ufoFile a stem i, savedUfo a u) hd ?_
        unfold outputs
        refine List.mem_append_left _ (List.mem_map.2 ⟨(u, i), ?_, rfl⟩)
        rw [List.mem_zipIdx_iff_getElem?]
        exact hu
      · refine contentAfter_mem fs _ (dsPath a stem, .designspace d) hd ?_
        unfold outputs
        rw [hd']
        simp
    · rw [hw] at h; cases h

/-- **C89** When the command succeeds: there is an input, it can be converted, and no output is blocked. -/
theorem C89_success_iff (a : UfoArgs) (depth : Nat) (fs : Files asm.Asm) {stem : PyStr} (hn : a.input.name ≠ []) (hs : IsStem a.input.name stem) :
    (vfb3ufo ops deg asm fmt a depth fs).1 = .ok () ↔
      ∃ file ufos ds, fs a.input = some (.bytes file) ∧ converted ops deg asm fmt a depth file = .ok (ufos, ds) ∧
        ∀ w ∈ outputs a stem ufos ds, ¬ Blocked a fs w := by
  constructor
  · intro h
    obtain ⟨file, ufos, ds, hf, hc, -⟩ := C89_success ops deg asm fmt a depth fs hn hs h
    obtain ⟨-, o2⟩ := C89_outcome ops deg asm fmt a depth fs hn hs file hf
    obtain ⟨n, -, -, n3, ⟨-, rfl⟩ | ⟨w, -, -, hw⟩⟩ := o2 ufos ds hc
    · rw [List.take_length] at n3
      exact ⟨file, ufos, ds, hf, hc, n3⟩
    · rw [hw] at h; cases h
  · rintro ⟨file, ufos, ds, hf, hc, hb⟩
    obtain ⟨-, o2⟩ := C89_outcome ops deg asm fmt a depth fs hn hs file hf
    obtain ⟨n, -, -, -, ⟨h, -⟩ | ⟨w, hw, hB, -⟩⟩ := o2 ufos ds hc
    · exact h
    · exact absurd hB (hb w (List.mem_of_getElem? hw))

/-- every path that is written is that of an output that is not blocked -/
theorem written_paths (a : UfoArgs) (depth : Nat) (fs : Files asm.Asm) {stem : PyStr} (hn : a.input.name ≠ []) (hs : IsStem a.input.name stem)
    {w : FPath × DiskFile asm.Asm} (hw : w ∈ (vfb3ufo ops deg asm fmt a depth fs).2) :
    ∃ ufos ds, ∃ w' ∈ outputs a stem ufos ds, w'.1 = w.1 ∧ ¬ Blocked a fs w' := by
  unfold vfb3ufo at hw
  split at hw
  · split at hw
    · cases hw
    · rename_i r _
      obtain ⟨n, -, -, n3, n4, -⟩ := writeSteps_spec a hn hs fs 0 r.1 r.2
      obtain ⟨w', h1, h2⟩ := n4 w hw
      exact ⟨r.1, r.2, w', List.mem_of_mem_take h1, h2, n3 w' h1⟩
  · cases hw

/-- **C89** Without `--force-overwrite` (and without `--json`) no existing file is touched, at any moment of the run and however it ends. -/
theorem C89_no_overwrite (a : UfoArgs) (depth : Nat) (fs : Files asm.Asm) (hn : a.input.name ≠ []) (hfo : a.force_overwrite = false)
    (hj : a.json = false) (k : Nat) (p : FPath) (hp : fs p ≠ none) :
    contentAfter fs ((vfb3ufo ops deg asm fmt a depth fs).2.take k) p = fs p := by
  refine contentAfter_other _ _ _ fun w hw he => ?_
  obtain ⟨stem, hs⟩ : ∃ stem, IsStem a.input.name stem := by
    by_cases h : ∃ s ext : PyStr, s ≠ [] ∧ ext ≠ [] ∧ 46 ∉ ext ∧ a.input.name = s ++ lit "." ++ ext
    · obtain ⟨s, ext, h1, h2, h3, h4⟩ := h
      exact ⟨s, .inl ⟨ext, h1, h2, h3, h4⟩⟩
    · refine ⟨_, .inr ⟨fun s ext hne => ?_, rfl⟩⟩
      by_contra hcon
      simp only [not_or] at hcon
      exact h ⟨s, ext, hcon.1, hcon.2.1, hcon.2.2, hne⟩
  obtain ⟨ufos, ds, w', -, h2, h3⟩ := written_paths ops deg asm fmt a depth fs hn hs (List.mem_of_mem_take hw)
  refine h3 ⟨hfo, ?_, fun h => by rw [hj] at h; cases h⟩
  rw [h2, he]
  exact hp

/-- **C89** Whatever the options, only files with the extensions of the outputs are written, in one folder.  In particular a VFB file is never
changed. -/
theorem C89_other_files (a : UfoArgs) (depth : Nat) (fs : Files asm.Asm) (hn : a.input.name ≠ []) (k : Nat) (p : FPath)
    (hp : p.dir ≠ outFolder a ∨ ∃ s ext : PyStr, p.name = s ++ lit "." ++ ext ∧ 46 ∉ ext ∧ ext ≠ lit "ufo" ∧ ext ≠ lit "ufoz" ∧ ext ≠ lit "json" ∧
      ext ≠ lit "designspace") :
    contentAfter fs ((vfb3ufo ops deg asm fmt a depth fs).2.take k) p = fs p := by
  refine contentAfter_other _ _ _ fun w hw he => ?_
  obtain ⟨stem, hs⟩ : ∃ stem, IsStem a.input.name stem := by
    by_cases h : ∃ s ext : PyStr, s ≠ [] ∧ ext ≠ [] ∧ 46 ∉ ext ∧ a.input.name = s ++ lit "." ++ ext
    · obtain ⟨s, ext, h1, h2, h3, h4⟩ := h
      exact ⟨s, .inl ⟨ext, h1, h2, h3, h4⟩⟩
    · refine ⟨_, .inr ⟨fun s ext hne => ?_, rfl⟩⟩
      by_contra hcon
      simp only [not_or] at hcon
      exact h ⟨s, ext, hcon.1, hcon.2.1, hcon.2.2, hne⟩
  obtain ⟨ufos, ds, w', h1, h2, -⟩ := written_paths ops deg asm fmt a depth fs hn hs (List.mem_of_mem_take hw)
  have hp' : p = w'.1 := by rw [h2, he]
  have hform : p.dir = outFolder a ∧ ∃ x e, p.name = x ++ lit "." ++ e ∧ 46 ∉ e ∧ (e = ufoExt a ∨ e = lit "designspace") := by
    rw [hp']
    unfold outputs at h1
    rcases List.mem_append.1 h1 with h1 | h1
    · obtain ⟨x, -, rfl⟩ := List.mem_map.1 h1
      exact ⟨rfl, _, _, rfl, (ufoExt_ok a).2, .inl rfl⟩
    · obtain ⟨d, -, rfl⟩ := List.mem_map.1 h1
      exact ⟨rfl, stem, lit "designspace", by simp [dsPath, List.append_assoc]; decide, by decide, .inr rfl⟩
  obtain ⟨f1, x, e, f2, f3, f4⟩ := hform
  rcases hp with hp | ⟨s, ext, e1, e2, e3, e4, e5, e6⟩
  · exact hp f1
  · rw [f2] at e1
    have := dot_split f3 e2 e1
    subst this
    rcases f4 with f4 | f4
    · unfold ufoExt at f4
      split at f4
      · exact e5 f4
      · split at f4
        · exact e4 f4
        · exact e3 f4
    · exact e6 f4

/-- **C89** (Known defect.) With `--json` existing files are overwritten, although `--force-overwrite` is not given: a font without designspace is
always written. -/
theorem C89_json_unprotected (a : UfoArgs) (depth : Nat) (fs : Files asm.Asm) {stem : PyStr} (hn : a.input.name ≠ [])
    (hs : IsStem a.input.name stem) (hj : a.json = true) {file : Bytes} {ufos : List (UfoFont asm.Asm)} (hf : fs a.input = some (.bytes file))
    (hc : converted ops deg asm fmt a depth file = .ok (ufos, none)) :
    (vfb3ufo ops deg asm fmt a depth fs).1 = .ok () ∧
      ∀ i u, ufos[i]? = some u → contentAfter fs (vfb3ufo ops deg asm fmt a depth fs).2 (ufoFile a stem i) = some (.json (!a.zip) u) := by
  have hok : (vfb3ufo ops deg asm fmt a depth fs).1 = .ok () := by
    refine (C89_success_iff ops deg asm fmt a depth fs hn hs).2 ⟨file, ufos, none, hf, hc, ?_⟩
    intro w hw hB
    obtain ⟨d, hd⟩ := hB.2.2 hj
    unfold outputs at hw
    simp only [Option.toList_none, List.map_nil, List.append_nil, List.mem_map] at hw
    obtain ⟨x, -, rfl⟩ := hw
    simp [savedUfo, hj] at hd
  refine ⟨hok, fun i u hu => ?_⟩
  obtain ⟨file', ufos', ds', hf', hc', h1, -⟩ := C89_success ops deg asm fmt a depth fs hn hs hok
  rw [hf] at hf'
  cases hf'
  rw [hc] at hc'
  cases hc'
  have := h1 i u hu
  rw [this]
  simp [savedUfo, hj]

/-- **C89** (Known defect.) The output path and the option `--ttx` of the command line have no effect. -/
theorem C89_outputpath_ignored (a : UfoArgs) (depth : Nat) (fs : Files asm.Asm) (x : Option FPath) (t : Bool) :
    vfb3ufo ops deg asm fmt { a with outputpath := x, ttx := t } depth fs = vfb3ufo ops deg asm fmt a depth fs := by
  have hsteps : ∀ (us : List (UfoFont asm.Asm)) (fs : Files asm.Asm) (i : Nat) (ds : Option DsDoc),
      writeSteps { a with outputpath := x, ttx := t } fs i us ds = writeSteps a fs i us ds := by
    intro us
    induction us with
    | nil =>
      intro fs i ds
      cases ds <;> rfl
    | cons u us ih =>
      intro fs i ds
      rw [writeSteps, writeSteps, ih]
      rfl
  unfold vfb3ufo
  have hconv : ∀ file, (readFont ops asm { a with outputpath := x, ttx := t } file >>=
      ufosDesignspace ops deg asm fmt { a with outputpath := x, ttx := t } depth) =
      (readFont ops asm a file >>= ufosDesignspace ops deg asm fmt a depth) := fun _ => rfl
  simp only [hconv, hsteps]

end

/-! ## an example -/

/-- a file with two masters, an axis, a glyph, and an entry that is dropped -/
def exampleMmFile : List (Nat × Bytes) :=
  [(1024, [68, 101, 109, 111]),
   (1503, [2, 0]),
   (1504, [76, 105, 103, 104, 116]),
   (1504, [66, 111, 108, 100]),
   (1513, [1, 0]),
   (1514, [87, 101, 105, 103, 104, 116]),
   (1505, [1, 0, 0, 0] ++ List.replicate 32 0),
   (1505, [2, 0, 0, 0] ++ [0, 0, 0, 0, 0, 0, 240, 63] ++ List.replicate 24 0),
   (1536, List.replicate 400 0),
   (1536, List.replicate 400 0),
   (1500, [1, 2, 3]),
   (2001, [1, 9, 7, 1, 1, 140, 65, 8, 141, 175, 141, 0, 149, 159, 169, 99, 35, 130, 121, 116, 187, 141, 141, 141, 141, 141, 141,
     141, 255, 0, 0, 46, 214, 2, 248, 136, 139, 248, 236, 139, 15]),
   (1250, [65, 0]),
   (2, [])]

/-- a disk with this file, and something at the path of the designspace -/
def exampleDisk : Files exampleAsm.Asm := fun p =>
  if p = ⟨lit "/f", lit "A.vfb"⟩ then some (.bytes (fileOf 5 exampleMmFile))
  else if p = ⟨lit "/f", lit "A.designspace"⟩ then some (.bytes [1])
  else none

/-- the UFOs are written, then the command fails because of the existing designspace -/
example : ((vfb3ufo exampleAngles (fun _ => 0) exampleAsm exampleFmt { input := ⟨lit "/f", lit "A.vfb"⟩ } 10 exampleDisk).2.map Prod.fst) =
      [⟨lit "/f", lit "A.ufo"⟩, ⟨lit "/f", lit "A.ufo"⟩, ⟨lit "/f", lit "A-1.ufo"⟩, ⟨lit "/f", lit "A-1.ufo"⟩] ∧
    (vfb3ufo exampleAngles (fun _ => 0) exampleAsm exampleFmt { input := ⟨lit "/f", lit "A.vfb"⟩ } 10 exampleDisk).1 =
      .error (.fileExists ⟨lit "/f", lit "A.designspace"⟩) := by decide +kernel

/-- in another folder, the command succeeds -/
theorem exampleRun_ok : (vfb3ufo exampleAngles (fun _ => 0) exampleAsm exampleFmt
    { input := ⟨lit "/f", lit "A.vfb"⟩, path := some (lit "/g") } 10 exampleDisk).1 = .ok () := by decide +kernel

/-- the hypotheses of `C89_success` are met -/
example : IsStem (lit "A.vfb") (lit "A") := .inl ⟨lit "vfb", by decide, by decide, by decide, rfl⟩

example : (converted exampleAngles (fun _ => 0) exampleAsm exampleFmt { input := ⟨lit "/f", lit "A.vfb"⟩ } 10
      (fileOf 5 exampleMmFile)).toOption.map (fun r => (r.1.map (fun u => u.glyphs.map Prod.fst), r.2.isSome)) =
    some ([[lit "A"], [lit "A"]], true) := by decide +kernel

end Verif.Props
