import Verif.Spec.UfoMasterInfo
import Verif.Props.UfoLib
import Verif.Props.UfoGuides
/-! C80: the font info of a master. -/
set_option autoImplicit false
namespace Verif.Props
open Verif Verif.Spec

theorem pySliceTo_eq (l : List Int) (n : Int) : pySliceTo l n = clipped l n := by
  unfold pySliceTo clipped
  by_cases h : 0 ≤ n
  · rw [if_pos h, if_neg (by omega)]; congr 1; omega
  · rw [if_neg h, if_pos (by omega)]; congr 1; omega

/-- setting a list of attributes, each of them once -/
theorem updates_list (l : Attrs) (hd : DictOk l) (a : Attrs) :
    Updates (fun attr v => (attr, v) ∈ l) a (l.foldl (fun a e => dictSet a e.1 e.2) a) := by
  induction l generalizing a with
  | nil => exact updates_nothing fun attr v h => by cases h
  | cons e l ih =>
    have hd' := List.nodup_cons.1 (show (e.1 :: l.map Prod.fst).Nodup from hd)
    have h1 : Updates (fun attr v => (attr, v) = e) a (dictSet a e.1 e.2) :=
      updates_set rfl fun attr w h => by rw [← h]
    refine updates_congr ?_ (updates_trans h1 (ih hd'.2 (dictSet a e.1 e.2)))
    intro attr v
    rw [List.mem_cons]

theorem keys_sublist {α β : Type} (f : PyStr × α → Option (PyStr × β)) (hf : ∀ e r, f e = some r → r.1 = e.1) (l : List (PyStr × α)) :
    ((l.filterMap f).map Prod.fst).Sublist (l.map Prod.fst) := by
  induction l with
  | nil => exact List.Sublist.refl _
  | cons e l ih =>
    rw [List.filterMap_cons]
    cases he : f e with
    | none => exact ih.cons _
    | some r =>
      dsimp only
      rw [List.map_cons, List.map_cons, hf e r he]
      exact ih.cons_cons _

/-- the attributes that are set -/
def psKeys : List PyStr :=
  [lit "ascender", lit "descender", lit "xHeight", lit "capHeight", lit "postscriptBlueScale", lit "postscriptBlueShift",
   lit "postscriptBlueFuzz", lit "postscriptForceBold", lit "postscriptBlueValues", lit "postscriptOtherBlues", lit "postscriptFamilyBlues",
   lit "postscriptFamilyOtherBlues", lit "postscriptStemSnapH", lit "postscriptStemSnapV"]

theorem psAttrs_sublist (pshints : Bool) (c : PsCounts) (p : PSInfo) : ((psAttrs pshints c p).map Prod.fst).Sublist psKeys := by
  cases pshints with
  | false =>
    have e : (psAttrs false c p).map Prod.fst = psKeys.take 4 := rfl
    rw [e]
    exact List.take_sublist _ _
  | true =>
    have e : psKeys = [lit "ascender", lit "descender", lit "xHeight", lit "capHeight", lit "postscriptBlueScale", lit "postscriptBlueShift",
      lit "postscriptBlueFuzz", lit "postscriptForceBold"] ++ (psLists c p).map Prod.fst := rfl
    unfold psAttrs
    rw [e, if_pos rfl, List.map_append, List.map_cons,
      show ∀ l : List PyStr, (psNumbers true p).map Prod.fst ++ (lit "postscriptForceBold", InfoVal.bool (!(p.force_bold == 0))).1 :: l =
        [lit "ascender", lit "descender", lit "xHeight", lit "capHeight", lit "postscriptBlueScale", lit "postscriptBlueShift",
      lit "postscriptBlueFuzz", lit "postscriptForceBold"] ++ l from fun l => rfl]
    refine List.Sublist.append_left (keys_sublist _ ?_ _) _
    intro e r h
    split at h
    · cases h
    · cases h; rfl

theorem psAttrs_ok (pshints : Bool) (c : PsCounts) (p : PSInfo) : DictOk (psAttrs pshints c p) :=
  (psAttrs_sublist pshints c p).nodup (by decide +kernel)

theorem guidelines_new (pshints : Bool) (c : PsCounts) (p : PSInfo) : lit "guidelines" ∉ (psAttrs pshints c p).map Prod.fst :=
  fun h => absurd ((psAttrs_sublist pshints c p).subset h) (by decide +kernel)

theorem psAttrs_says (pshints : Bool) (c : PsCounts) (p : PSInfo) (num : Int → Int)
    (hn : num 1530 = c.blue_values ∧ num 1531 = c.other_blues ∧ num 1532 = c.family_blues ∧ num 1533 = c.family_other_blues ∧
      num 1534 = c.stem_snap_h ∧ num 1535 = c.stem_snap_v) (attr : PyStr) (v : InfoVal) :
    (attr, v) ∈ psAttrs pshints c p ↔ SaysPs pshints num p attr v := by
  obtain ⟨n1, n2, n3, n4, n5, n6⟩ := hn
  constructor
  · intro h
    unfold psAttrs psNumbers at h
    simp only [List.mem_append, List.mem_cons, List.not_mem_nil, or_false, Prod.mk.injEq] at h
    rcases h with ((h | h | h | h) | h) | h
    · obtain ⟨rfl, rfl⟩ := h; exact .ascender
    · obtain ⟨rfl, rfl⟩ := h; exact .descender
    · obtain ⟨rfl, rfl⟩ := h; exact .xHeight
    · obtain ⟨rfl, rfl⟩ := h; exact .capHeight
    · cases pshints with
      | false => cases h
      | true =>
        simp only [if_true, List.mem_cons, List.not_mem_nil, or_false, Prod.mk.injEq] at h
        rcases h with h | h | h
        · obtain ⟨rfl, rfl⟩ := h; exact .blueScale rfl
        · obtain ⟨rfl, rfl⟩ := h; exact .blueShift rfl
        · obtain ⟨rfl, rfl⟩ := h; exact .blueFuzz rfl
    · cases pshints with
      | false => cases h
      | true =>
        rw [if_pos rfl, List.mem_cons] at h
        rcases h with h | h
        · cases h
          by_cases hb : p.force_bold = 0
          · rw [hb]; exact .notBold rfl hb
          · have e : (!(p.force_bold == 0)) = true := by simp [hb]
            rw [e]; exact .bold rfl hb
        · rw [List.mem_filterMap] at h
          obtain ⟨e, he, h⟩ := h
          unfold psLists at he
          split at h
          · cases h
          · rename_i hz
            cases h
            rw [pySliceTo_eq]
            simp only [List.mem_cons, List.not_mem_nil, or_false] at he
            rcases he with rfl | rfl | rfl | rfl | rfl | rfl
            · rw [← n1] at hz ⊢; exact .blues rfl hz
            · rw [← n2] at hz ⊢; exact .other rfl hz
            · rw [← n3] at hz ⊢; exact .family rfl hz
            · rw [← n4] at hz ⊢; exact .familyOther rfl hz
            · rw [← n5] at hz ⊢; exact .snapH rfl hz
            · rw [← n6] at hz ⊢; exact .snapV rfl hz
  · have key : ∀ {attr : PyStr} {l : List Int} {n : Int}, pshints = true → n ≠ 0 → (attr, l, n) ∈ psLists c p →
        (attr, InfoVal.ints (clipped l n)) ∈ psAttrs pshints c p := by
      intro attr l n hp hz hm
      unfold psAttrs
      rw [if_pos hp]
      refine List.mem_append_right _ (List.mem_cons_of_mem _ (List.mem_filterMap.2 ⟨_, hm, ?_⟩))
      rw [if_neg hz, pySliceTo_eq]
    intro h
    cases h with
    | ascender => unfold psAttrs psNumbers; simp
    | descender => unfold psAttrs psNumbers; simp
    | xHeight => unfold psAttrs psNumbers; simp
    | capHeight => unfold psAttrs psNumbers; simp
    | blueScale hp => unfold psAttrs psNumbers; rw [if_pos hp]; simp
    | blueShift hp => unfold psAttrs psNumbers; rw [if_pos hp]; simp
    | blueFuzz hp => unfold psAttrs psNumbers; rw [if_pos hp]; simp
    | bold hp hb =>
      unfold psAttrs
      rw [if_pos hp]
      refine List.mem_append_right _ ?_
      have e : (!(p.force_bold == 0)) = true := by simp [hb]
      rw [e]
      exact List.mem_cons_self
    | notBold hp hb =>
      unfold psAttrs
      rw [if_pos hp]
      refine List.mem_append_right _ ?_
      have e : (!(p.force_bold == 0)) = false := by simp [hb]
      rw [e]
      exact List.mem_cons_self
    | blues hp hz => refine key hp hz ?_; rw [n1]; simp [psLists]
    | other hp hz => refine key hp hz ?_; rw [n2]; simp [psLists]
    | family hp hz => refine key hp hz ?_; rw [n3]; simp [psLists]
    | familyOther hp hz => refine key hp hz ?_; rw [n4]; simp [psLists]
    | snapH hp hz => refine key hp hz ?_; rw [n5]; simp [psLists]
    | snapV hp hz => refine key hp hz ?_; rw [n6]; simp [psLists]

section
variable {ops : AngleOps} {asm : AsmOps} {deg : ops.Angle → Rat}

theorem numberOf_eq {o : BuildOpts} {es : List (FEntry ops asm)} {id n : Int} (h : LastOr ops asm (dataOf ops asm o es id) .int 0 n) :
    numberOf ops asm o es id = n := by
  unfold numberOf
  rcases h with ⟨h, rfl⟩ | h
  · rw [h]; rfl
  · rw [h]

theorem psInfosOf_eq {o : BuildOpts} {es : List (FEntry ops asm)} {l : List PSInfo} (h : dataOf ops asm o es 1536 = l.map .psInfo) :
    psInfosOf ops asm o es = l := by
  unfold psInfosOf
  rw [h]
  clear h
  induction l with
  | nil => rfl
  | cons x l ih => simp [ih]

theorem guidesOf_eq {o : BuildOpts} {es : List (FEntry ops asm)} {g : Option (MMGuides ops.Angle)}
    (h : LastIs ops asm (dataOf ops asm o es 1294) .guides id g) : guidesOf ops asm o es = g := by
  unfold guidesOf
  rcases h with ⟨h, rfl⟩ | ⟨x, h, rfl⟩
  · rw [h]; rfl
  · rw [h]; rfl

theorem guidePropsOf_eq {o : BuildOpts} {es : List (FEntry ops asm)} {p : GuideProps}
    (h : LastOr ops asm (dataOf ops asm o es 1296) .guideProps ⟨[], []⟩ p) : guidePropsOf ops asm o es = p := by
  unfold guidePropsOf
  rcases h with ⟨h, rfl⟩ | h
  · rw [h]; rfl
  · rw [h]

/-- what `buildMasters` has got from the file -/
theorem masters_facts {o : BuildOpts} {es : List (FEntry ops asm)} {m : MastersPart ops.Angle} (h : buildMasters ops asm o es = .ok m) :
    m.psInfos = psInfosOf ops asm o es ∧ m.guides = guidesOf ops asm o es ∧ m.guideProps = guidePropsOf ops asm o es ∧
    (numberOf ops asm o es 1530 = m.counts.blue_values ∧ numberOf ops asm o es 1531 = m.counts.other_blues ∧
      numberOf ops asm o es 1532 = m.counts.family_blues ∧ numberOf ops asm o es 1533 = m.counts.family_other_blues ∧
      numberOf ops asm o es 1534 = m.counts.stem_snap_h ∧ numberOf ops asm o es 1535 = m.counts.stem_snap_v) := by
  obtain ⟨st, hi, rfl⟩ := buildMasters_inv h
  exact ⟨(psInfosOf_eq hi.psInfos).symm, (guidesOf_eq hi.guides).symm, (guidePropsOf_eq hi.guideProps).symm, numberOf_eq hi.blue,
    numberOf_eq hi.other, numberOf_eq hi.family, numberOf_eq hi.familyOther, numberOf_eq hi.snapH, numberOf_eq hi.snapV⟩

theorem ufoGuides_length {g : MMGuides ops.Angle} {p : GuideProps} {m : Int} {l : List UfoGuide} (h : ufoGuides ops deg g p m = .ok l) :
    l.length = g.h.length + g.v.length := by
  obtain ⟨uh, uv, uh', uv', h1, h2, h3, h4, rfl⟩ := ufoGuides_cases h
  have hlen : ∀ (props : List GuideProp) {l l' : List UfoGuide}, props.foldlM applyProp l = .ok l' → l'.length = l.length := by
    intro props
    induction props with
    | nil => intro l l' h; cases h; rfl
    | cons p props ih =>
      intro l l' h
      rw [List.foldlM_cons] at h
      cases hp : applyProp l p with
      | error er => rw [hp] at h; cases h
      | ok l1 => rw [hp] at h; rw [ih h, applyProp_length hp]
  have a := congrArg List.length ((mapM_ok_iff _ _ _).1 h1)
  have b := congrArg List.length ((mapM_ok_iff _ _ _).1 h2)
  simp only [List.length_map] at a b
  rw [List.length_append, hlen _ h3, hlen _ h4, a, b]

/-- **C80.** The attributes of the font info of master number `master` are what the file says about that master — the values of its own
PostScript info, lists clipped to the stored number of values, and its guidelines —, and otherwise those of the font. -/
theorem C80_attributes {o : BuildOpts} {es : List (FEntry ops asm)} {m : MastersPart ops.Angle} {info a : Attrs} {master : Nat}
    (hm : buildMasters ops asm o es = .ok m) (h : masterInfo ops deg o m info master = .ok a) (attr : PyStr) :
    (∃ v, SaysMaster ops asm deg o es master attr v ∧ dictGet a attr = some v) ∨
    ((¬ ∃ v, SaysMaster ops asm deg o es master attr v) ∧ dictGet a attr = dictGet info attr) := by
  obtain ⟨f1, f2, f3, f4⟩ := masters_facts hm
  unfold masterInfo at h
  cases hp : pyIndex m.psInfos (master : Int) with
  | error er => rw [hp] at h; cases h
  | ok p =>
    rw [hp] at h
    have hp' := pyIndex_nat hp
    rw [f1] at hp'
    have hu := updates_congr (psAttrs_says o.pshints m.counts p (numberOf ops asm o es) f4) (updates_list _ (psAttrs_ok o.pshints m.counts p) info)
    have hnew : ∀ v, ¬ SaysPs o.pshints (numberOf ops asm o es) p (lit "guidelines") v := by
      intro v hv
      rw [← psAttrs_says o.pshints m.counts p (numberOf ops asm o es) f4] at hv
      exact guidelines_new _ _ _ (List.mem_map.2 ⟨_, hv, rfl⟩)
    rw [f2, f3] at h
    replace h : (match guidesOf ops asm o es with
      | none => Except.ok ((psAttrs o.pshints m.counts p).foldl (fun a e => dictSet a e.1 e.2) info)
      | some g => if o.minimal then .ok ((psAttrs o.pshints m.counts p).foldl (fun a e => dictSet a e.1 e.2) info) else
        ufoGuides ops deg g (guidePropsOf ops asm o es) master >>= fun l =>
          .ok (if l.isEmpty then ((psAttrs o.pshints m.counts p).foldl (fun a e => dictSet a e.1 e.2) info)
            else dictSet ((psAttrs o.pshints m.counts p).foldl (fun a e => dictSet a e.1 e.2) info) (lit "guidelines") (.guides l))) =
        (.ok a : Except PyErr Attrs) := h
    generalize (psAttrs o.pshints m.counts p).foldl (fun a e => dictSet a e.1 e.2) info = a1 at h hu
    -- without guidelines
    have hno : (¬ ∃ g l, o.minimal = false ∧ guidesOf ops asm o es = some g ∧ (g.h ≠ [] ∨ g.v ≠ []) ∧
        ufoGuides ops deg g (guidePropsOf ops asm o es) master = .ok l) → a = a1 →
        (∃ v, SaysMaster ops asm deg o es master attr v ∧ dictGet a attr = some v) ∨
        ((¬ ∃ v, SaysMaster ops asm deg o es master attr v) ∧ dictGet a attr = dictGet info attr) := by
      rintro hng rfl
      rcases hu attr with ⟨v, hv, e⟩ | ⟨hn, e⟩
      · exact .inl ⟨v, .ps hp' hv, e⟩
      · refine .inr ⟨?_, e⟩
        rintro ⟨v, hv⟩
        cases hv with
        | ps h1 h2 => rw [hp'] at h1; cases h1; exact hn ⟨v, h2⟩
        | guides h1 h2 h3 h4 => exact hng ⟨_, _, h1, h2, h3, h4⟩
    cases hg : guidesOf ops asm o es with
    | none =>
      rw [hg] at h
      cases h
      exact hno (by rintro ⟨g, l, -, h2, -⟩; rw [hg] at h2; cases h2) rfl
    | some g =>
      rw [hg] at h
      dsimp only at h
      by_cases hmin : o.minimal = true
      · rw [if_pos hmin] at h
        cases h
        exact hno (by rintro ⟨g, l, h1, -⟩; rw [hmin] at h1; cases h1) rfl
      · rw [if_neg hmin] at h
        cases hl : ufoGuides ops deg g (guidePropsOf ops asm o es) master with
        | error er => rw [hl] at h; cases h
        | ok l =>
          rw [hl] at h
          replace h : (Except.ok (if l.isEmpty then a1 else dictSet a1 (lit "guidelines") (.guides l)) : Except PyErr Attrs) = .ok a := h
          have h := Except.ok.inj h
          have hlen := ufoGuides_length hl
          by_cases he : l.isEmpty = true
          · rw [if_pos he] at h
            refine hno ?_ h.symm
            rintro ⟨g', l', -, h2, h3, -⟩
            rw [hg] at h2
            cases h2
            have : l = [] := by simpa using he
            subst this
            simp only [List.length_nil] at hlen
            rcases h3 with h3 | h3
            · exact h3 (List.length_eq_zero_iff.1 (by omega))
            · exact h3 (List.length_eq_zero_iff.1 (by omega))
          · rw [if_neg he] at h
            have hne : g.h ≠ [] ∨ g.v ≠ [] := by
              by_contra hc
              rw [not_or, not_not, not_not] at hc
              rw [hc.1, hc.2] at hlen
              exact he (by simpa using List.length_eq_zero_iff.1 hlen)
            have hsay : SaysMaster ops asm deg o es master (lit "guidelines") (.guides l) :=
              .guides (by simpa using hmin) hg hne hl
            rw [← h, dictGet_dictSet]
            by_cases hk : lit "guidelines" = attr
            · rw [if_pos hk, ← hk]
              exact .inl ⟨_, hsay, rfl⟩
            · rw [if_neg hk]
              rcases hu attr with ⟨v, hv, e⟩ | ⟨hn, e⟩
              · exact .inl ⟨v, .ps hp' hv, e⟩
              · refine .inr ⟨?_, e⟩
                rintro ⟨v, hv⟩
                cases hv with
                | ps h1 h2 => rw [hp'] at h1; cases h1; exact hn ⟨v, h2⟩
                | guides h1 h2 h3 h4 => exact hk rfl

/-- What the file says about a master is unambiguous. -/
theorem C80_unambiguous {o : BuildOpts} {es : List (FEntry ops asm)} {master : Nat} {attr : PyStr} {v w : InfoVal}
    (hv : SaysMaster ops asm deg o es master attr v) (hw : SaysMaster ops asm deg o es master attr w) : v = w := by
  have key : ∀ {p : PSInfo} {v w : InfoVal}, SaysPs o.pshints (numberOf ops asm o es) p attr v → SaysPs o.pshints (numberOf ops asm o es) p attr w → v = w := by
    intro p v w h1 h2
    let c : PsCounts := ⟨numberOf ops asm o es 1530, numberOf ops asm o es 1531, numberOf ops asm o es 1532, numberOf ops asm o es 1533,
      numberOf ops asm o es 1534, numberOf ops asm o es 1535⟩
    rw [← psAttrs_says o.pshints c p _ ⟨rfl, rfl, rfl, rfl, rfl, rfl⟩] at h1 h2
    have e1 := (dictGet_iff (psAttrs_ok o.pshints c p)).2 h1
    have e2 := (dictGet_iff (psAttrs_ok o.pshints c p)).2 h2
    rw [e1] at e2
    exact Option.some.inj e2
  have hnew : ∀ {p : PSInfo} {v : InfoVal}, SaysPs o.pshints (numberOf ops asm o es) p attr v → attr ≠ lit "guidelines" := by
    rintro p v h1 rfl
    let c : PsCounts := ⟨numberOf ops asm o es 1530, numberOf ops asm o es 1531, numberOf ops asm o es 1532, numberOf ops asm o es 1533,
      numberOf ops asm o es 1534, numberOf ops asm o es 1535⟩
    rw [← psAttrs_says o.pshints c p _ ⟨rfl, rfl, rfl, rfl, rfl, rfl⟩] at h1
    exact guidelines_new _ _ _ (List.mem_map.2 ⟨_, h1, rfl⟩)
  cases hv with
  | ps h1 h2 =>
    cases hw with
    | ps h1' h2' => rw [h1] at h1'; cases h1'; exact key h2 h2'
    | guides _ _ _ _ => exact absurd rfl (hnew h2)
  | guides a1 a2 a3 a4 =>
    generalize hk : lit "guidelines" = k at hw
    cases hw with
    | ps h1' h2' => exact absurd hk.symm (by subst hk; exact hnew h2')
    | guides b1 b2 b3 b4 => rw [a2] at b2; cases b2; rw [a4] at b4; cases b4; rfl

/-- The info of a master can be made exactly if the file has got a PostScript info for it and (unless minimal) its guidelines can be
converted. -/
theorem C80_success {o : BuildOpts} {es : List (FEntry ops asm)} {m : MastersPart ops.Angle} (hm : buildMasters ops asm o es = .ok m)
    (info : Attrs) (master : Nat) :
    (∃ a, masterInfo ops deg o m info master = .ok a) ↔
      master < (psInfosOf ops asm o es).length ∧
      (o.minimal = false → ∀ g, guidesOf ops asm o es = some g → ∃ l, ufoGuides ops deg g (guidePropsOf ops asm o es) master = .ok l) := by
  obtain ⟨f1, f2, f3, f4⟩ := masters_facts hm
  unfold masterInfo
  rw [f1, f2, f3]
  have hidx : (∃ p, pyIndex (psInfosOf ops asm o es) (master : Int) = .ok p) ↔ master < (psInfosOf ops asm o es).length := by
    rw [index_ok]; omega
  cases hp : pyIndex (psInfosOf ops asm o es) (master : Int) with
  | error er =>
    constructor
    · rintro ⟨a, h⟩; cases h
    · rintro ⟨h, -⟩
      obtain ⟨p, h⟩ := hidx.2 h
      rw [hp] at h
      cases h
  | ok p =>
    have hlt := hidx.1 ⟨p, hp⟩
    cases hg : guidesOf ops asm o es with
    | none => exact ⟨fun _ => ⟨hlt, fun _ g h => by cases h⟩, fun _ => ⟨_, rfl⟩⟩
    | some g =>
      cases hmin : o.minimal with
      | true => exact ⟨fun _ => ⟨hlt, fun h => by cases h⟩, fun _ => ⟨_, rfl⟩⟩
      | false =>
        show (∃ a, (ufoGuides ops deg g (guidePropsOf ops asm o es) master >>= fun l =>
          (Except.ok (if l.isEmpty then ((psAttrs o.pshints m.counts p).foldl (fun a e => dictSet a e.1 e.2) info)
            else dictSet ((psAttrs o.pshints m.counts p).foldl (fun a e => dictSet a e.1 e.2) info) (lit "guidelines") (.guides l)) :
              Except PyErr Attrs)) = .ok a) ↔ _
        cases hl : ufoGuides ops deg g (guidePropsOf ops asm o es) master with
        | ok l => exact ⟨fun _ => ⟨hlt, fun _ g' h => by cases h; exact ⟨l, hl⟩⟩, fun _ => ⟨_, rfl⟩⟩
        | error er =>
          constructor
          · rintro ⟨a, h⟩
            cases h
          · rintro ⟨-, h⟩
            obtain ⟨l, h⟩ := h rfl g rfl
            rw [hl] at h
            cases h

end

/-- the PostScript info of the example -/
def examplePs (n : Int) : PSInfo where
  font_matrix := []
  force_bold := 1
  blue_values := [-20, 0, 500, 520, 0]
  other_blues := []
  family_blues := [1, 2]
  family_other_blues := []
  blue_scale := ⟨0⟩
  blue_shift := 7
  blue_fuzz := 1
  std_hw := 0
  std_vw := 0
  stem_snap_h := []
  stem_snap_v := [80, 90, 100]
  bounding_box := ⟨0, 0, 0, 0⟩
  adv_width_min := 0
  adv_width_max := 0
  adv_width_avg := 0
  ascender := 700 + n
  descender := -200
  x_height := 500
  cap_height := 680

/-- a font with two masters -/
def exampleMasterInfo : List (FEntry exampleAngles exampleAsm) :=
  [(1530, some (.int 4)), (1535, some (.int (-1))), (1536, some (.psInfo (examplePs 0))), (1536, some (.psInfo (examplePs 11))),
   (1294, some (.guides ⟨[[⟨100, (0 : Int)⟩, ⟨110, (0 : Int)⟩]], []⟩))]

example :
    ((buildMasters exampleAngles exampleAsm exampleOpts exampleMasterInfo).bind fun m =>
      masterInfo exampleAngles (fun _ => 0) exampleOpts m infoDefaults 1).toOption.map (fun a =>
        [lit "ascender", lit "postscriptForceBold", lit "postscriptBlueValues", lit "postscriptFamilyBlues", lit "postscriptStemSnapV",
         lit "guidelines", lit "styleName"].map fun k => dictGet a k) =
    some [some (.int 711), some (.bool true), some (.ints [-20, 0, 500, 520]), some (.ints []), some (.ints [80, 90]),
      some (.guides [⟨0, 110, 0, none, none⟩]), some (.str (lit "Regular"))] := by decide +kernel

end Verif.Props
