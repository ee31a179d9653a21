import Verif.Spec.UfoHash
import Verif.Spec.UfoSuccess
import Verif.Lemmas.Dec
import Verif.Props.UfoConvert
import Verif.Props.UfoSuccess
import Verif.Props.UfoSuccessFont
/-! C106: the ids of TrueType instructions. -/
set_option autoImplicit false
namespace Verif.Props
open Verif Verif.Spec

/-! ### drawing -/

section
variable {ASM : Type} {glyphs : List (PyStr × UfoGlyph ASM)}

theorem outlineCalls_eq (l : List UfoContour) : l.flatMap contourPieces = outlineCalls l := by
  unfold outlineCalls
  rw [List.flatMap_def]
  rfl

theorem componentPieces_ok {draw : UfoGlyph ASM → Except PyErr (List PenPiece)} {c : UfoComponent} {l : List PenPiece} :
    componentPieces glyphs draw c = .ok l ↔ ∃ b, dictGet glyphs c.base = some b ∧ ∃ m, draw b = .ok m ∧
      l = .begin :: (m ++ [.finish c.xx c.yy c.dx c.dy]) := by
  unfold componentPieces
  cases hg : dictGet glyphs c.base with
  | none => exact ⟨fun h => (by cases h), fun ⟨_, h, _⟩ => (by cases h)⟩
  | some b =>
    dsimp only
    cases hd : draw b with
    | error e =>
      refine ⟨fun h => (by cases h), fun ⟨_, h, m, h', _⟩ => ?_⟩
      injection h with h
      subst h
      rw [hd] at h'
      cases h'
    | ok m =>
      constructor
      · intro h
        injection h with h
        exact ⟨b, rfl, m, hd, h.symm⟩
      · rintro ⟨b', h, m', h', rfl⟩
        injection h with h
        subst h
        rw [hd] at h'
        injection h' with h'
        subst h'
        rfl

theorem draw_ok_succ {depth : Nat} {g : UfoGlyph ASM} {l : List PenPiece} : drawPieces glyphs (depth + 1) g = .ok l ↔
    ∃ ls, g.components.mapM (componentPieces glyphs (drawPieces glyphs depth)) = .ok ls ∧ l = outlineCalls g.contours ++ ls.flatten := by
  rw [drawPieces, outlineCalls_eq]
  cases hm : g.components.mapM (componentPieces glyphs (drawPieces glyphs depth)) with
  | error e => exact ⟨fun h => (by cases h), fun ⟨_, h, _⟩ => (by cases h)⟩
  | ok ls =>
    constructor
    · intro h
      injection h with h
      exact ⟨ls, rfl, h.symm⟩
    · rintro ⟨ls', h, rfl⟩
      injection h with h
      subst h
      rfl

theorem components_sound {depth : Nat} (ih : ∀ g l, drawPieces glyphs depth g = .ok l → Drawing glyphs g l) : ∀ {cs : List UfoComponent} {ls : List (List PenPiece)},
    cs.mapM (componentPieces glyphs (drawPieces glyphs depth)) = Except.ok ls → ComponentCalls glyphs cs ls.flatten := by
  intro cs
  induction cs with
  | nil =>
    intro ls h
    rw [mapM_ok_iff] at h
    cases ls with
    | nil => exact .nil
    | cons _ _ => cases h
  | cons c cs ihc =>
    intro ls h
    rw [mapM_ok_iff] at h
    cases ls with
    | nil => cases h
    | cons l ls =>
      injection h with h1 h2
      have hrest := ihc ((mapM_ok_iff _ _ _).2 h2)
      obtain ⟨b, hg, m, hd, rfl⟩ := componentPieces_ok.1 h1
      obtain ⟨inner, hi, rfl⟩ := ih b m hd
      exact .cons (dictGet_some_mem hg) hi hrest

theorem draw_sound : ∀ (depth : Nat) (g : UfoGlyph ASM) (l : List PenPiece), drawPieces glyphs depth g = .ok l → Drawing glyphs g l := by
  intro depth
  induction depth with
  | zero => intro g l h; cases h
  | succ depth ih =>
    intro g l h
    obtain ⟨ls, h1, h2⟩ := draw_ok_succ.1 h
    exact ⟨_, components_sound ih h1, h2⟩

/-- with different names, a glyph has one drawing only -/
theorem calls_unique (hn : (glyphs.map Prod.fst).Nodup) {cs : List UfoComponent} {l m : List PenPiece} (h : ComponentCalls glyphs cs l)
    (h' : ComponentCalls glyphs cs m) : l = m := by
  induction h generalizing m with
  | nil => cases h'; rfl
  | cons base first others ih1 ih2 =>
    cases h' with
    | cons base' first' others' =>
      have := dictGet_of_mem hn base
      rw [dictGet_of_mem hn base'] at this
      injection this with this
      subst this
      rw [ih1 first', ih2 others']

theorem drawing_unique (hn : (glyphs.map Prod.fst).Nodup) {g : UfoGlyph ASM} {l m : List PenPiece} (h : Drawing glyphs g l) (h' : Drawing glyphs g m) : l = m := by
  obtain ⟨i, h1, rfl⟩ := h
  obtain ⟨j, h2, rfl⟩ := h'
  rw [calls_unique hn h1 h2]

theorem draw_exists_succ (depth : Nat) (g : UfoGlyph ASM) : (∃ l, drawPieces glyphs (depth + 1) g = .ok l) ↔
    ∀ c ∈ g.components, ∃ b, dictGet glyphs c.base = some b ∧ ∃ l, drawPieces glyphs depth b = .ok l := by
  constructor
  · rintro ⟨l, h⟩ c hc
    obtain ⟨ls, h1, -⟩ := draw_ok_succ.1 h
    obtain ⟨y, hy⟩ := (mapM_exists_iff _ _).1 ⟨ls, h1⟩ c hc
    obtain ⟨b, hb, m, hm, -⟩ := componentPieces_ok.1 hy
    exact ⟨b, hb, m, hm⟩
  · intro h
    obtain ⟨ls, hls⟩ := (mapM_exists_iff (componentPieces glyphs (drawPieces glyphs depth)) g.components).2 (by
        intro c hc
        obtain ⟨b, hb, l, hl⟩ := h c hc
        exact ⟨_, componentPieces_ok.2 ⟨b, hb, l, hl, rfl⟩⟩)
    exact ⟨_, draw_ok_succ.2 ⟨ls, hls, rfl⟩⟩

/-! ### cycles -/

theorem reaches_trans {a b c : PyStr} (h : Reaches glyphs a b) (h' : Reaches glyphs b c) : Reaches glyphs a c := by
  induction h with
  | one h => exact .more h h'
  | more h _ ih => exact .more h (ih h')

/-- a glyph from which a cycle of components is reached -/
def BadGlyph (glyphs : List (PyStr × UfoGlyph ASM)) (a : PyStr) : Prop := Reaches glyphs a a ∨ ∃ b, Reaches glyphs a b ∧ Reaches glyphs b b

theorem bad_next {a : PyStr} (h : BadGlyph glyphs a) : ∃ b, UsesGlyph glyphs a b ∧ BadGlyph glyphs b := by
  have key : ∀ {a b : PyStr}, Reaches glyphs a b → Reaches glyphs b b → ∃ c, UsesGlyph glyphs a c ∧ BadGlyph glyphs c := by
    intro a b h hb
    cases h with
    | one h => exact ⟨b, h, .inl hb⟩
    | more h t => exact ⟨_, h, .inr ⟨b, t, hb⟩⟩
  rcases h with h | ⟨b, h, hb⟩
  · exact key h h
  · exact key h hb

theorem bad_fails (hn : (glyphs.map Prod.fst).Nodup) : ∀ (depth : Nat) {a : PyStr} {g : UfoGlyph ASM}, (a, g) ∈ glyphs → BadGlyph glyphs a →
    ¬ ∃ l, drawPieces glyphs depth g = .ok l := by
  intro depth
  induction depth with
  | zero => rintro a g - - ⟨l, h⟩; cases h
  | succ depth ih =>
    intro a g hg hb h
    obtain ⟨b, ⟨g', hg', c, hc, rfl⟩, hb'⟩ := bad_next hb
    have : g' = g := by
      have := dictGet_of_mem hn hg
      rw [dictGet_of_mem hn hg'] at this
      injection this
    subst this
    obtain ⟨x, hx, hl⟩ := (draw_exists_succ depth g').1 h c hc
    exact ih (dictGet_some_mem hx) hb' hl

end

/-! ### texts -/

/-- a text that does not go on with a digit -/
def NoDigit (s : PyStr) : Prop := ∀ c r, s = c :: r → ¬ (48 ≤ c ∧ c ≤ 57)

theorem digits_split : ∀ {a b s t : PyStr}, (∀ c ∈ a, 48 ≤ c ∧ c ≤ 57) → (∀ c ∈ b, 48 ≤ c ∧ c ≤ 57) → NoDigit s → NoDigit t → a ++ s = b ++ t →
    a = b ∧ s = t := by
  intro a
  induction a with
  | nil =>
    intro b s t _ hb hs _ h
    cases b with
    | nil => exact ⟨rfl, h⟩
    | cons c b => exact absurd (hb c List.mem_cons_self) (hs c _ h)
  | cons c a ih =>
    intro b s t ha hb hs ht h
    cases b with
    | nil => exact absurd (ha c List.mem_cons_self) (ht c _ h.symm)
    | cons d b =>
      injection h with h1 h2
      obtain ⟨h3, h4⟩ := ih (fun x hx => ha x (List.mem_cons_of_mem _ hx)) (fun x hx => hb x (List.mem_cons_of_mem _ hx)) hs ht h2
      exact ⟨by rw [h1, h3], h4⟩

theorem natDec_split {a b : Nat} {s t : PyStr} (hs : NoDigit s) (ht : NoDigit t) (h : natDec a ++ s = natDec b ++ t) : a = b ∧ s = t := by
  obtain ⟨h1, h2⟩ := digits_split (natDec_digits a) (natDec_digits b) hs ht h
  exact ⟨natDec_inj h1, h2⟩

theorem signedDec_split {a b : Int} {s t : PyStr} (hs : NoDigit s) (ht : NoDigit t) (h : signedDec a ++ s = signedDec b ++ t) : a = b ∧ s = t := by
  unfold signedDec at h
  rw [List.cons_append, List.cons_append] at h
  injection h with h1 h2
  obtain ⟨h3, h4⟩ := natDec_split hs ht h2
  refine ⟨?_, h4⟩
  by_cases ha : a < 0 <;> by_cases hb : b < 0
  · omega
  · rw [if_pos ha, if_neg hb] at h1; cases h1
  · rw [if_neg ha, if_pos hb] at h1; cases h1
  · omega

theorem intDec_split {a b : Int} {s t : PyStr} (hs : NoDigit s) (ht : NoDigit t) (h : intDec a ++ s = intDec b ++ t) : a = b ∧ s = t := by
  have clash : ∀ {n : Nat} {r x : PyStr}, ¬ 45 :: r = natDec n ++ x := by
    intro n r x h
    cases hn : natDec n with
    | nil => exact natDec_ne_nil n hn
    | cons c l =>
      rw [hn] at h
      injection h with h _
      have := natDec_digits n c (by rw [hn]; exact List.mem_cons_self)
      omega
  unfold intDec at h
  by_cases ha : a < 0 <;> by_cases hb : b < 0
  · rw [if_pos ha, if_pos hb] at h
    injection h with _ h
    obtain ⟨h1, h2⟩ := natDec_split hs ht h
    exact ⟨by omega, h2⟩
  · rw [if_pos ha, if_neg hb] at h
    exact absurd h clash
  · rw [if_neg ha, if_pos hb] at h
    exact absurd h.symm clash
  · rw [if_neg ha, if_neg hb] at h
    obtain ⟨h1, h2⟩ := natDec_split hs ht h
    exact ⟨by omega, h2⟩

theorem gText_eq {x : Int} (h : x.natAbs < 1000000) : gText x = intDec x := by
  unfold gText intDec gDigits
  rw [if_pos h]

theorem gSigned_eq {x : Int} (h : x.natAbs < 1000000) : gSigned x = signedDec x := by
  unfold gSigned signedDec gDigits
  rw [if_pos h]

theorem signedDec_first (x : Int) (s : PyStr) : SignFirst (signedDec x ++ s) := by
  unfold signedDec
  by_cases h : x < 0
  · rw [if_pos h]; exact ⟨_, .inr rfl⟩
  · rw [if_neg h]; exact ⟨_, .inl rfl⟩

theorem sign_noDigit {s : PyStr} (h : SignFirst s) : NoDigit s := by
  obtain ⟨r, rfl | rfl⟩ := h
  · intro c r' h hc; injection h with h _; omega
  · intro c r' h hc; injection h with h _; omega

theorem scale_split {h : HashOps} (hl : LawfulHash h) {x y : UfoScale} (hx : ∀ d, x ≠ .special d) (hy : ∀ d, y ≠ .special d) {s t : PyStr}
    (hs : SignFirst s) (ht : SignFirst t) (he : scaleText h x ++ s = scaleText h y ++ t) : x = y ∧ s = t := by
  cases x with
  | special d => exact absurd rfl (hx d)
  | int m =>
    cases y with
    | special d => exact absurd rfl (hy d)
    | int n =>
      obtain ⟨h1, h2⟩ := signedDec_split (sign_noDigit hs) (sign_noDigit ht) he
      exact ⟨by rw [h1], h2⟩
    | float q => exact absurd he.symm (hl.ints q m t s ht hs)
  | float p =>
    cases y with
    | special d => exact absurd rfl (hy d)
    | int n => exact absurd he (hl.ints p n s t hs ht)
    | float q =>
      obtain ⟨h1, h2⟩ := hl.floats p q s t hs ht he
      exact ⟨by rw [h1], h2⟩

theorem segLetter_inj {a b : Option PathCommand} (h : segLetter a = segLetter b) : a = b := by
  rcases a with _ | ⟨⟨⟩⟩ <;> rcases b with _ | ⟨⟨⟩⟩ <;> first | rfl | (exact absurd h (by decide))

theorem segLetter_cases (a : Option PathCommand) : 97 ≤ segLetter a ∧ segLetter a ≤ 122 := by
  rcases a with _ | ⟨⟨⟩⟩ <;> decide

/-- the first character of the text tells the kind of the call -/
theorem piece_first (h : HashOps) (a : PenPiece) : ∃ c r, pieceText h a = c :: r ∧ ¬ (48 ≤ c ∧ c ≤ 57) := by
  cases a with
  | point seg pt =>
    have := segLetter_cases seg
    exact ⟨segLetter seg, _, rfl, by omega⟩
  | endPath => exact ⟨124, [], rfl, by omega⟩
  | «begin» => exact ⟨91, [], rfl, by omega⟩
  | finish xx yy dx dy => exact ⟨40, _, rfl, by omega⟩

theorem pieces_noDigit (h : HashOps) (l : List PenPiece) : NoDigit (l.flatMap (pieceText h)) := by
  intro c r he
  cases l with
  | nil => cases he
  | cons a l =>
    obtain ⟨d, x, hd, hn⟩ := piece_first h a
    rw [List.flatMap_cons, hd] at he
    injection he with he _
    rw [← he]
    exact hn

theorem finish_text (h : HashOps) (xx yy : UfoScale) (dx dy : Int) (s : PyStr) : pieceText h (.finish xx yy dx dy) ++ s =
    40 :: (scaleText h xx ++ (43 :: 48 :: 43 :: 48 :: (scaleText h yy ++ (signedDec dx ++ (signedDec dy ++ (41 :: 93 :: s)))))) := by
  have h1 : lit "(" = [40] := rfl
  have h2 : lit "+0+0" = [43, 48, 43, 48] := rfl
  have h3 : lit ")]" = [41, 93] := rfl
  show lit "(" ++ scaleText h xx ++ lit "+0+0" ++ scaleText h yy ++ signedDec dx ++ signedDec dy ++ lit ")]" ++ s = _
  rw [h1, h2, h3]
  simp only [List.append_assoc, List.cons_append, List.nil_append]

theorem piece_split {h : HashOps} (hl : LawfulHash h) {a b : PenPiece} (ha : Moderate a) (hb : Moderate b) {s t : PyStr} (hs : NoDigit s) (ht : NoDigit t)
    (he : pieceText h a ++ s = pieceText h b ++ t) : a = b ∧ s = t := by
  have close : NoDigit (41 :: 93 :: s) ∧ NoDigit (41 :: 93 :: t) := by
    constructor <;> (intro c r h hc; injection h with h _; omega)
  have kind : ∀ (seg : Option PathCommand) (pt : Point) (c : Nat) (r x : PyStr), c = 124 ∨ c = 91 ∨ c = 40 →
      pieceText h (.point seg pt) ++ x ≠ c :: r := by
    intro seg pt c r x hc hh
    have := segLetter_cases seg
    injection hh with hh _
    omega
  cases a with
  | point seg pt =>
    cases b with
    | point seg' pt' =>
      rcases pt with ⟨x, y⟩
      rcases pt' with ⟨x', y'⟩
      have h1 : segLetter seg :: (gText x ++ gSigned y ++ s) = segLetter seg' :: (gText x' ++ gSigned y' ++ t) := he
      injection h1 with h1 h2
      rw [gText_eq ha.1, gText_eq hb.1, gSigned_eq ha.2, gSigned_eq hb.2, List.append_assoc, List.append_assoc] at h2
      obtain ⟨h3, h4⟩ := intDec_split (sign_noDigit (signedDec_first _ _)) (sign_noDigit (signedDec_first _ _)) h2
      obtain ⟨h5, h6⟩ := signedDec_split hs ht h4
      exact ⟨by rw [segLetter_inj h1, show x = x' from h3, show y = y' from h5], h6⟩
    | endPath => exact absurd he (kind _ _ 124 _ _ (.inl rfl))
    | «begin» => exact absurd he (kind _ _ 91 _ _ (.inr (.inl rfl)))
    | finish xx yy dx dy => exact absurd he (kind _ _ 40 _ _ (.inr (.inr rfl)))
  | endPath =>
    cases b with
    | point seg pt => exact absurd he.symm (kind _ _ 124 _ _ (.inl rfl))
    | endPath => exact ⟨rfl, List.append_cancel_left he⟩
    | «begin» => injection he with he _; cases he
    | finish xx yy dx dy => injection he with he _; cases he
  | «begin» =>
    cases b with
    | point seg pt => exact absurd he.symm (kind _ _ 91 _ _ (.inr (.inl rfl)))
    | endPath => injection he with he _; cases he
    | «begin» => exact ⟨rfl, List.append_cancel_left he⟩
    | finish xx yy dx dy => injection he with he _; cases he
  | finish xx yy dx dy =>
    cases b with
    | point seg pt => exact absurd he.symm (kind _ _ 40 _ _ (.inr (.inr rfl)))
    | endPath => injection he with he _; cases he
    | «begin» => injection he with he _; cases he
    | finish xx' yy' dx' dy' =>
      rw [finish_text, finish_text] at he
      injection he with _ he
      obtain ⟨h1, he⟩ := scale_split hl ha.1 hb.1 ⟨_, .inl rfl⟩ ⟨_, .inl rfl⟩ he
      injection he with _ he
      injection he with _ he
      injection he with _ he
      injection he with _ he
      obtain ⟨h2, he⟩ := scale_split hl ha.2 hb.2 (signedDec_first _ _) (signedDec_first _ _) he
      obtain ⟨h3, he⟩ := signedDec_split (sign_noDigit (signedDec_first _ _)) (sign_noDigit (signedDec_first _ _)) he
      obtain ⟨h4, he⟩ := signedDec_split close.1 close.2 he
      injection he with _ he
      injection he with _ he
      exact ⟨by rw [h1, h2, h3, h4], he⟩

theorem pieces_inj {h : HashOps} (hl : LawfulHash h) : ∀ {l m : List PenPiece}, (∀ a ∈ l, Moderate a) → (∀ a ∈ m, Moderate a) →
    l.flatMap (pieceText h) = m.flatMap (pieceText h) → l = m := by
  intro l
  induction l with
  | nil =>
    intro m _ _ he
    cases m with
    | nil => rfl
    | cons b m =>
      obtain ⟨c, r, hc, -⟩ := piece_first h b
      rw [List.flatMap_cons, hc] at he
      cases he
  | cons a l ih =>
    intro m hm hm' he
    cases m with
    | nil =>
      obtain ⟨c, r, hc, -⟩ := piece_first h a
      rw [List.flatMap_cons, hc] at he
      cases he
    | cons b m =>
      rw [List.flatMap_cons, List.flatMap_cons] at he
      obtain ⟨h1, h2⟩ := piece_split hl (hm a List.mem_cons_self) (hm' b List.mem_cons_self) (pieces_noDigit h l) (pieces_noDigit h m) he
      rw [h1, ih (fun x hx => hm x (List.mem_cons_of_mem _ hx)) (fun x hx => hm' x (List.mem_cons_of_mem _ hx)) h2]

theorem hashData_inj {h : HashOps} (hl : LawfulHash h) {w w' : Int} {l m : List PenPiece} (hm : ∀ a ∈ l, Moderate a) (hm' : ∀ a ∈ m, Moderate a)
    (he : hashData h w l = hashData h w' m) : w = w' ∧ l = m := by
  unfold hashData at he
  rw [List.append_assoc, List.append_assoc] at he
  obtain ⟨h1, h2⟩ := intDec_split (pieces_noDigit h l) (pieces_noDigit h m) (List.append_cancel_left he)
  exact ⟨h1, pieces_inj hl hm hm' h2⟩

/-- **C106.** Two glyphs, of any UFOs, have the same id exactly if they have the same width and the same drawing (provided that SHA-512 does not
map their descriptions to the same digest). -/
theorem C106_same_id {h : HashOps} (hl : LawfulHash h) {w w' : Int} {l m : List PenPiece} (hm : ∀ a ∈ l, Moderate a) (hm' : ∀ a ∈ m, Moderate a)
    (hc : h.digest (hashData h w l) = h.digest (hashData h w' m) → hashData h w l = hashData h w' m) :
    pointHash h w l = pointHash h w' m ↔ w = w' ∧ l = m := by
  refine ⟨fun he => ?_, fun ⟨h1, h2⟩ => by rw [h1, h2]⟩
  apply hashData_inj hl hm hm'
  unfold pointHash at he
  have d1 := hl.digest (hashData h w l)
  have d2 := hl.digest (hashData h w' m)
  by_cases h1 : 128 ≤ (hashData h w l).length <;> by_cases h2 : 128 ≤ (hashData h w' m).length
  · rw [if_pos h1, if_pos h2] at he
    exact hc he
  · rw [if_pos h1, if_neg h2] at he
    rw [he] at d1
    omega
  · rw [if_neg h1, if_pos h2] at he
    rw [← he] at d2
    omega
  · rw [if_neg h1, if_neg h2] at he
    exact he

/-! ### the ids of a conversion -/

section
variable {ops : AngleOps} {deg : ops.Angle → Rat} {asm : AsmOps} {fmt : Int → PyStr}

theorem nested_draws {gp : GlyphPart ops.Angle asm.Asm} {glyphs : List (PyStr × UfoGlyph asm.Asm)} {k : Nat} {minimal : Bool} (hd : (gp.masters.map Prod.fst).Nodup)
    (hg : Corresponds (fun e x => x.1 = e.1 ∧ ∃ labels, IsMaster ops deg asm minimal gp.order labels k e.2 x.2) gp.masters glyphs) :
    ∀ (depth : Nat) {name : PyStr} {g : UfoGlyph asm.Asm}, Nested gp.order (gidsOf ops asm gp) depth name → (name, g) ∈ glyphs →
      ∃ l, drawPieces glyphs depth g = .ok l := by
  have hnames : glyphs.map Prod.fst = gp.masters.map Prod.fst := corresponds_map hg fun a b hab => hab.1
  intro depth
  induction depth with
  | zero => intro name g h _; exact h.elim
  | succ depth ih =>
    intro name g hn hm
    obtain ⟨gids, h1, h2⟩ := hn
    obtain ⟨i, hi, hx⟩ := List.getElem_of_mem hm
    obtain ⟨e, he⟩ : ∃ e, gp.masters[i]? = some e := by
      rw [← hg.1] at hi
      exact ⟨_, List.getElem?_eq_getElem hi⟩
    obtain ⟨hname, labels, hM⟩ := hg.2 i e (name, g) he (by rw [List.getElem?_eq_getElem hi, hx])
    have hget : dictGet gp.masters name = some e.2 := by
      apply dictGet_of_mem hd
      rw [show name = e.1 from hname]
      exact List.mem_of_getElem? he
    unfold gidsOf at h1
    rw [hget] at h1
    injection h1 with h1
    rw [draw_exists_succ]
    intro c hc
    obtain ⟨j, hj, hcj⟩ := List.getElem_of_mem hc
    obtain ⟨bc, hbc⟩ : ∃ bc, e.2.components[j]? = some bc := by
      have : e.2.components.length = g.components.length := hM.components.1
      exact ⟨_, List.getElem?_eq_getElem (by omega)⟩
    have hcomp := hM.components.2 j bc c hbc (by rw [List.getElem?_eq_getElem hj, hcj])
    obtain ⟨n, hn1, hn2⟩ := h2 bc.gid (by rw [← h1]; exact List.mem_map_of_mem (List.mem_of_getElem? hbc))
    rw [elementAt_iff.2 hcomp.base] at hn1
    injection hn1 with hn1
    subst hn1
    cases depth with
    | zero => exact hn2.elim
    | succ depth =>
      obtain ⟨l, hl, -⟩ := id hn2
      have hin : c.base ∈ glyphs.map Prod.fst := by
        rw [hnames]
        unfold gidsOf at hl
        cases hb : dictGet gp.masters c.base with
        | none => rw [hb] at hl; cases hl
        | some b => exact List.mem_map_of_mem (f := Prod.fst) (dictGet_some_mem hb)
      obtain ⟨x, hx, hxb⟩ := List.mem_map.1 hin
      have hmem : (c.base, x.2) ∈ glyphs := by rw [← hxb]; exact hx
      exact ⟨x.2, dictGet_of_mem (by unfold DictOk; rw [hnames]; exact hd) hmem, ih hn2 hmem⟩

theorem ids_get {h : HashOps} {glyphs : List (PyStr × UfoGlyph asm.Asm)} {depth : Nat} : ∀ {es : List (PyStr × UfoGlyph asm.Asm)}, (es.map Prod.fst).Nodup →
    (∀ e ∈ es, ∃ l, drawPieces glyphs depth e.2 = .ok l) →
    ∃ ids, (es.filter fun e => e.2.instructions.isSome).mapM (fun e => drawPieces glyphs depth e.2 >>= fun l => .ok (e.1, pointHash h e.2.width l)) = Except.ok ids ∧
      ids.map Prod.fst = (es.filter fun e => e.2.instructions.isSome).map Prod.fst ∧
      ∀ e ∈ es, ∀ l, drawPieces glyphs depth e.2 = .ok l → dictGet ids e.1 = if e.2.instructions.isSome then some (pointHash h e.2.width l) else none := by
  intro es
  induction es with
  | nil => intro _ _; exact ⟨[], rfl, rfl, fun e he => by cases he⟩
  | cons e es ih =>
    intro hnd hdr
    rw [List.map_cons, List.nodup_cons] at hnd
    obtain ⟨ids, h1, h2, h3⟩ := ih hnd.2 fun x hx => hdr x (List.mem_cons_of_mem _ hx)
    obtain ⟨m, hm⟩ := hdr e List.mem_cons_self
    have hfresh : dictGet ids e.1 = none := by
      rw [dictGet_none, h2]
      intro hin
      obtain ⟨x, hx, hxe⟩ := List.mem_map.1 hin
      exact hnd.1 (hxe ▸ List.mem_map_of_mem (f := Prod.fst) (List.mem_of_mem_filter hx))
    by_cases hi : e.2.instructions.isSome = true
    · refine ⟨(e.1, pointHash h e.2.width m) :: ids, ?_, ?_, ?_⟩
      · rw [List.filter_cons_of_pos (by exact hi), List.mapM_cons, hm]
        show (Except.ok (e.1, pointHash h e.2.width m) >>= fun y => _) = _
        rw [h1]
        rfl
      · rw [List.filter_cons_of_pos (by exact hi), List.map_cons, List.map_cons, h2]
      · intro x hx l hl
        rcases List.mem_cons.1 hx with rfl | hx
        · rw [hm] at hl
          injection hl with hl
          rw [dictGet, if_pos rfl, if_pos hi, hl]
        · have hne : ¬ e.1 = x.1 := fun he => hnd.1 (he ▸ List.mem_map_of_mem (f := Prod.fst) hx)
          rw [dictGet, if_neg hne]
          exact h3 x hx l hl
    · refine ⟨ids, ?_, ?_, ?_⟩
      · rw [List.filter_cons_of_neg (by exact hi)]
        exact h1
      · rw [List.filter_cons_of_neg (by exact hi)]
        exact h2
      · intro x hx l hl
        rcases List.mem_cons.1 hx with rfl | hx
        · rw [if_neg hi]
          exact hfresh
        · exact h3 x hx l hl

/-- **C106.** In every UFO of a conversion, exactly the glyphs with TrueType instructions have an id, and it is that of the width and of the one drawing
of the glyph in this UFO, if components do not nest too deeply. -/
theorem C106_ids (hdeg : ∀ a, -90 ≤ deg a ∧ deg a ≤ 90) (h : HashOps) {o : UfoOpts} {depth depth' : Nat} {es : List (FEntry ops asm)}
    {ufos : List (UfoFont asm.Asm)} (hc : convert ops deg asm fmt o depth es = .ok ufos)
    (hn : ∀ gp, buildGlyphs ops asm o.build es = .ok gp → ∀ e ∈ gp.masters, Nested gp.order (gidsOf ops asm gp) depth' e.1)
    {k : Nat} {u : UfoFont asm.Asm} (hk : ufos[k]? = some u) :
    ∃ ids, instructionIds h depth' u = .ok ids ∧ ids.map Prod.fst = (u.glyphs.filter fun e => e.2.instructions.isSome).map Prod.fst ∧
      ∀ e ∈ u.glyphs, ∃ l, Drawing u.glyphs e.2 l ∧ (∀ l', Drawing u.glyphs e.2 l' → l' = l) ∧
        dictGet ids e.1 = if e.2.instructions.isSome then some (pointHash h e.2.width l) else none := by
  obtain ⟨gp, stems, zones, mp, fp, ip, s, h1, -, -, -, -, -, -, -, hu⟩ := C84_fonts hdeg hc
  obtain ⟨gs, g1, g2, g3, g4⟩ := C64_content ops asm h1
  have hf := hu k u hk
  have hnames : u.glyphs.map Prod.fst = gp.masters.map Prod.fst := corresponds_map hf.glyphs fun a b hab => hab.1
  have hnd : (u.glyphs.map Prod.fst).Nodup := by rw [hnames]; exact g2
  have hdraw : ∀ e ∈ u.glyphs, ∃ l, drawPieces u.glyphs depth' e.2 = .ok l := by
    intro e he
    have : e.1 ∈ gp.masters.map Prod.fst := by rw [← hnames]; exact List.mem_map_of_mem (f := Prod.fst) he
    obtain ⟨x, hx, hxe⟩ := List.mem_map.1 this
    exact nested_draws g2 hf.glyphs depth' (hxe ▸ hn gp h1 x hx) he
  obtain ⟨ids, i1, i2, i3⟩ := ids_get (h := h) hnd hdraw
  refine ⟨ids, i1, i2, fun e he => ?_⟩
  obtain ⟨l, hl⟩ := hdraw e he
  exact ⟨l, draw_sound _ _ _ hl, fun l' hl' => drawing_unique hnd hl' (draw_sound _ _ _ hl), i3 e he l hl⟩

/-- **C106.** (Known defect.) If a glyph with TrueType instructions refers, directly or through other components, to a glyph that refers to itself in
this way, the conversion fails, whatever the recursion limit is. -/
theorem C106_cycle (hdeg : ∀ a, -90 ≤ deg a ∧ deg a ≤ 90) (h : HashOps) {o : UfoOpts} {depth depth' : Nat} {es : List (FEntry ops asm)}
    {ufos : List (UfoFont asm.Asm)} (hc : convert ops deg asm fmt o depth es = .ok ufos) {k : Nat} {u : UfoFont asm.Asm} (hk : ufos[k]? = some u)
    {a b : PyStr} {g : UfoGlyph asm.Asm} (ha : (a, g) ∈ u.glyphs) (hi : g.instructions.isSome) (hab : Reaches u.glyphs a b) (hb : Reaches u.glyphs b b) :
    ∃ e, instructionIds h depth' u = .error e := by
  obtain ⟨gs, -, hu⟩ := C84_glyphs hdeg hc
  have hnd := (hu k u hk).1
  cases hr : instructionIds h depth' u with
  | error e => exact ⟨e, rfl⟩
  | ok ids =>
    exfalso
    unfold instructionIds at hr
    obtain ⟨y, hy⟩ := (mapM_exists_iff _ _).1 ⟨ids, hr⟩ (a, g) (List.mem_filter.2 ⟨ha, hi⟩)
    refine bad_fails hnd depth' ha (.inr ⟨b, hab, hb⟩) ?_
    cases hd : drawPieces u.glyphs depth' g with
    | ok l => exact ⟨l, rfl⟩
    | error e => simp only [hd] at hy; cases hy

end

/-! ### examples -/

/-- a way of writing floats (as fractions) that fulfils the assumptions -/
def exampleHash : HashOps where
  float x := match x with
    | .float q => signedDec q.num ++ (47 :: natDec q.den)
    | _ => lit "+nan"
  digest _ := List.replicate 128 48

theorem fraction_text (q : Rat) (s : PyStr) : exampleHash.float (.float q) ++ s = signedDec q.num ++ (47 :: (natDec q.den ++ s)) := by
  show signedDec q.num ++ (47 :: natDec q.den) ++ s = _
  rw [List.append_assoc, List.cons_append]

theorem slash_noDigit (s : PyStr) : NoDigit (47 :: s) := by
  intro c r h hc
  injection h with h _
  omega

theorem exampleHash_lawful : LawfulHash exampleHash where
  floats p q s t hs ht he := by
    rw [fraction_text, fraction_text] at he
    obtain ⟨h1, he⟩ := signedDec_split (slash_noDigit _) (slash_noDigit _) he
    injection he with _ he
    obtain ⟨h2, h3⟩ := natDec_split (sign_noDigit hs) (sign_noDigit ht) he
    exact ⟨Rat.ext h1 h2, h3⟩
  ints p n s t hs ht he := by
    rw [fraction_text] at he
    obtain ⟨h1, he⟩ := signedDec_split (a := p.num) (b := n) (slash_noDigit _) (sign_noDigit ht) he
    obtain ⟨r, hr | hr⟩ := ht <;> (rw [hr] at he; injection he with he _; cases he)
  digest s := by
    show (List.replicate 128 48).length = 128
    exact List.length_replicate

/-- the ids of the example font: a glyph, a composite of it, and a second glyph, in both masters -/
theorem exampleIds : (convert exampleAngles (fun _ => 0) exampleAsm exampleFmt exampleConvertOpts 10 exampleConvertFont).toOption.map
    (fun l => l.map fun u => (instructionIds exampleHash 10 u).toOption) =
    some [some [(lit "A", lit "w500l10+20o3+4o5+6c1+2|"), (lit "A#0", lit "w500[l10+20o3+4o5+6c1+2|(+1+0+0+1+1+3)]"),
        (lit "B", lit "w500l10+20o3+4o5+6c1+2|")],
      some [(lit "A", lit "w600l30-40o9+10o11+12000c7+8|"), (lit "A#0", lit "w600[l30-40o9+10o11+12000c7+8|(+1+0+0+1/2+2+4)]"),
        (lit "B", lit "w600l30-40o9+10o11+12000c7+8|")]] := by decide +kernel

/-- the conditions of `C106_ids` for the example font -/
example : ∃ ufos, convert exampleAngles (fun _ => 0) exampleAsm exampleFmt exampleConvertOpts 10 exampleConvertFont = .ok ufos ∧
    ∀ gp, buildGlyphs exampleAngles exampleAsm exampleConvertOpts.build exampleConvertFont = .ok gp → ∀ e ∈ gp.masters,
      Nested gp.order (gidsOf exampleAngles exampleAsm gp) 10 e.1 := by
  have := exampleIds
  cases h : convert exampleAngles (fun _ => 0) exampleAsm exampleFmt exampleConvertOpts 10 exampleConvertFont with
  | error e => rw [h] at this; cases this
  | ok l => exact ⟨l, rfl, exampleConvert_nested⟩

/-- the conditions of `C106_same_id` -/
example : (∀ a ∈ [PenPiece.begin, .point (some .line) (10, -20), .endPath, .finish (.int 1) (.float (1 / 2)) 3 4], Moderate a) := by
  intro a ha
  simp only [List.mem_cons, List.not_mem_nil, or_false] at ha
  rcases ha with rfl | rfl | rfl | rfl
  · trivial
  · exact ⟨by decide, by decide⟩
  · trivial
  · exact ⟨fun d h => (by cases h), fun d h => (by cases h)⟩

/-- **C106.** (Known defect.) Coordinates of more than six digits are cut off, so that different outlines have the same id. -/
theorem C106_large (h : HashOps) : ∃ (w : Int) (l m : List PenPiece), l ≠ m ∧ pointHash h w l = pointHash h w m := by
  refine ⟨0, [.point (some .line) (1000001, 5), .endPath], [.point (some .line) (1000002, 5), .endPath], by decide, ?_⟩
  have h1 : gText 1000001 = gText 1000002 := by decide +kernel
  have h2 : hashData h 0 [.point (some .line) (1000001, 5), .endPath] = hashData h 0 [.point (some .line) (1000002, 5), .endPath] := by
    unfold hashData
    simp only [List.flatMap_cons, pieceText, h1]
  unfold pointHash
  rw [h2]

/-- the conditions of `C106_cycle`: a glyph that is a component of itself is converted up to this step -/
def exampleLoopFont : List (FEntry exampleAngles exampleAsm) :=
  exampleConvertFont.map fun e => match e.2 with
    | some (.glyph g) => (e.1, some (.glyph { g with
        hints := none
        components := g.components.map fun l => l.map fun c => { c with gid := 1 } }))
    | _ => e

/-- names, whether there are instructions, whether each component refers to the glyph itself; whether there are ids -/
def loopSummary (u : UfoFont exampleAsm.Asm) : List (PyStr × Bool × List Bool) × Bool :=
  (u.glyphs.map fun g => (g.1, g.2.instructions.isSome, g.2.components.map fun c => decide (c.base = g.1)), (instructionIds exampleHash 10 u).toOption.isSome)

set_option synthInstance.maxSize 1000 in
set_option synthInstance.maxHeartbeats 200000 in
theorem exampleLoop : (convert exampleAngles (fun _ => 0) exampleAsm exampleFmt exampleConvertOpts 10 exampleLoopFont).toOption.map (fun l => l.map loopSummary) =
    some [([(lit "A", true, []), (lit "A#0", true, [true]), (lit "B", true, [])], false),
      ([(lit "A", true, []), (lit "A#0", true, [true]), (lit "B", true, [])], false)] := by decide +kernel

end Verif.Props
