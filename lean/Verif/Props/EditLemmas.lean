import Verif.Spec.Edit
import Verif.Props.WriteRead
import Verif.Props.EditSize
import Verif.Props.VfbPensMasters
import Verif.Props.Mapping
/-! Drawing glyphs of a font anew: lemmas for C103. -/
set_option autoImplicit false
namespace Verif.Props
open Verif Verif.Spec

section
variable {D T : Type}

/-- what looking glyphs up does to an entry -/
def Prepared (C : Codec D T) (ctx : Ctx) (e e1 : Entry D T) : Prop :=
  (e.id = 2001 ∧ e1 = { e with data := .dec (C.emptyGlyph ctx.num_masters) }) ∨
  ((e.id = 2008 ∨ e.id = 2010 ∨ e.id = 1093) ∧ e.decompile C ctx = (.ok (), e1, false)) ∨
  ((e.id ≠ 2001 ∧ e.id ≠ 2008 ∧ e.id ≠ 2010 ∧ e.id ≠ 1093) ∧ e1 = e)

theorem objLoop_prepared (C : Codec D T) (ctx : Ctx) (src i : Nat) (es : List (Entry D T)) (name : Option PyStr) (s : Lookup)
    (h : (objLoop C ctx src i es name s).1 = .ok ()) : List.Forall₂ (Prepared C ctx) es (objLoop C ctx src i es name s).2.1 := by
  induction es generalizing i name s with
  | nil => exact .nil
  | cons e es ih =>
    rw [objLoop] at h ⊢
    by_cases h1 : e.id = 2001
    · rw [if_pos h1] at h ⊢
      exact .cons (.inl ⟨h1, rfl⟩) (ih _ _ _ h)
    · rw [if_neg h1] at h ⊢
      by_cases h2 : e.id = 2008 ∨ e.id = 2010 ∨ e.id = 1093
      · rw [if_pos h2] at h ⊢
        rcases decompile_unreadable C ctx e h2 with ⟨x, e', err, hd, _⟩ | ⟨e', hd, _, _, _⟩
        · rw [hd] at h; cases h
        · rw [hd] at h ⊢
          exact .cons (.inr (.inl ⟨h2, hd⟩)) (ih _ _ _ h)
      · rw [if_neg h2] at h ⊢
        exact .cons (.inr (.inr ⟨⟨h1, fun h => h2 (.inl h), fun h => h2 (.inr (.inl h)), fun h => h2 (.inr (.inr h))⟩, rfl⟩)) (ih _ _ _ h)

end

theorem filterMap_some {α : Type} (t : Option (List α)) : (t.map (·.map some)).map (·.filterMap id) = t := by
  cases t with
  | none => rfl
  | some l => simp

/-- after drawing a master anew, the data of all other masters are still dictionaries -/
theorem redraw_some (n m : Nat) (order : List PyStr) (calls : List PenCall) (g r : MasterGlyphs) (t : Option (List MasterData)) (x : Option PyErr)
    (ht : g.temp = t.map (·.map some)) (h : g.redraw n m order calls = (r, x)) : ∃ t' : Option (List MasterData), r.temp = t'.map (·.map some) := by
  obtain ⟨d0, tmp⟩ := g
  simp only at ht
  subst ht
  unfold MasterGlyphs.redraw MasterGlyphs.clearContours at h
  by_cases hm : m = 0
  · rw [if_pos hm] at h
    simp only [MasterGlyphs.pen, if_pos hm, MasterGlyphs.put, Prod.mk.injEq] at h
    rw [← h.1]
    exact ⟨t, rfl⟩
  · rw [if_neg hm] at h
    have hg : (t.map (·.map some)).getD (List.replicate n (some ⟨none, none⟩)) = (t.getD (List.replicate n ⟨none, none⟩)).map some := by
      cases t with
      | none => simp
      | some l => rfl
    simp only [hg] at h
    generalize t.getD (List.replicate n ⟨none, none⟩) = tt at h
    rw [List.getElem?_map] at h
    cases hq : tt[m]? with
    | none =>
      rw [hq] at h
      simp only [Option.map_none, Prod.mk.injEq] at h
      rw [← h.1]
      exact ⟨some tt, rfl⟩
    | some d =>
      rw [hq] at h
      have hlt : m < tt.length := (List.getElem?_eq_some_iff.1 hq).1
      simp only [Option.map_some, MasterGlyphs.pen, if_neg hm, Option.getD_some, List.getElem?_set, List.length_map, hlt, if_true, MasterGlyphs.put,
        Prod.mk.injEq] at h
      rw [← h.1]
      refine ⟨some ((tt.set m { d with nodes := some [] }).set m (runPen n order ⟨{ d with nodes := some [] }, none⟩ calls).1.target), ?_⟩
      simp only [Option.map_some, List.map_set]

section
variable {A ASM : Type}

theorem set_same {α : Type} {l : List α} {i : Nat} {a : α} (h : l[i]? = some a) : l.set i a = l := by
  obtain ⟨h1, h2⟩ := List.getElem?_eq_some_iff.1 h
  rw [← h2]
  exact List.set_getElem_self h1

/-- the entry with other nodes and components, and other data of the other masters -/
def putGlyph (e : Entry (Decompiled A ASM) (List MasterData)) (g : Glyph A ASM) (d : MasterData) (t : Option (List MasterData)) :
    Entry (Decompiled A ASM) (List MasterData) :=
  { e with data := .dec (.glyph { g with nodes := d.nodes, components := d.components }), temp_masters := t }

/-- the font with another entry -/
def putEntry (f : FontObj (Decompiled A ASM) (List MasterData)) (i : Nat) (e : Entry (Decompiled A ASM) (List MasterData)) :
    FontObj (Decompiled A ASM) (List MasterData) :=
  { f with vfb := { f.vfb with entries := f.vfb.entries.set i e } }

/-- one master -/
theorem font_redraw (C : Codec (Decompiled A ASM) (List MasterData)) (f : FontObj (Decompiled A ASM) (List MasterData)) (m : Nat) (key : PyStr)
    (o : GlyphObj) (calls : List PenCall) (hf : f.look.glyphs.find? (fun p => p.1 == key) = some (key, o)) (hs : o.source = f.reads)
    (e : Entry (Decompiled A ASM) (List MasterData)) (he : f.vfb.entries[o.entry]? = some e) :
    f.redraw C m key calls =
      (putEntry f o.entry (redrawEntry f.vfb.ctx.num_masters.toNat m f.look.order calls e).1,
       (redrawEntry f.vfb.ctx.num_masters.toNat m f.look.order calls e).2) := by
  have hg : f.look.glyphs ≠ [] := by
    intro h
    rw [h] at hf
    cases hf
  have hp : f.prepare C = (.ok (), f) := if_neg hg
  unfold FontObj.redraw
  simp only [FontObj.call, FontObj.lookup, hp, hf, if_pos hs, he]
  rfl

/-- all masters of one glyph -/
theorem redrawGlyph_eq (C : Codec (Decompiled A ASM) (List MasterData)) (key : PyStr) (o : GlyphObj) (css : List (List UfoContour)) (k : Nat)
    (f : FontObj (Decompiled A ASM) (List MasterData)) (e : Entry (Decompiled A ASM) (List MasterData)) (g : Glyph A ASM) (r : MasterGlyphs)
    (hf : f.look.glyphs.find? (fun p => p.1 == key) = some (key, o)) (hs : o.source = f.reads)
    (he : f.vfb.entries[o.entry]? = some e) (hd : e.data = .dec (.glyph g)) (hh : g.hints = none)
    (hr : redrawAll f.vfb.ctx.num_masters.toNat f.look.order k css ⟨⟨g.nodes, g.components⟩, e.temp_masters.map (·.map some)⟩ = (r, none)) :
    ∃ t' : Option (List MasterData), r.temp = t'.map (·.map some) ∧ redrawGlyph C key k css f =
      (putEntry f o.entry (putGlyph e g r.data t'), none) := by
  induction css generalizing k f e g with
  | nil =>
    simp only [redrawAll, Prod.mk.injEq, and_true] at hr
    subst hr
    refine ⟨e.temp_masters, rfl, ?_⟩
    have : putGlyph e g ⟨g.nodes, g.components⟩ e.temp_masters = e := by
      unfold putGlyph
      cases e
      simp only at hd
      rw [hd]
    simp only [redrawGlyph, this, putEntry, set_same he]
  | cons cs css ih =>
    rw [redrawAll] at hr
    cases h1 : MasterGlyphs.redraw f.vfb.ctx.num_masters.toNat k f.look.order (cs.flatMap contourCalls)
        ⟨⟨g.nodes, g.components⟩, e.temp_masters.map (·.map some)⟩ with
    | mk r1 x =>
      rw [h1] at hr
      cases x with
      | some x => simp at hr
      | none =>
        simp only at hr
        obtain ⟨t1, ht1⟩ := redraw_some _ _ _ _ _ _ e.temp_masters _ rfl h1
        have hre : redrawEntry f.vfb.ctx.num_masters.toNat k f.look.order (cs.flatMap contourCalls) e =
            (putGlyph e g r1.data t1, none) := by
          unfold redrawEntry putGlyph
          rw [hd]
          simp only [h1, ht1, filterMap_some, hh]
          by_cases hk : k = 0
          · rw [if_pos hk]
          · rw [if_neg hk]
        have hfr := font_redraw C f k key o (cs.flatMap contourCalls) hf hs e he
        rw [hre] at hfr
        have hlt : o.entry < f.vfb.entries.length := (List.getElem?_eq_some_iff.1 he).1
        obtain ⟨t', i1, i2⟩ := ih (k + 1)
          (putEntry f o.entry (putGlyph e g r1.data t1)) (putGlyph e g r1.data t1)
          { g with nodes := r1.data.nodes, components := r1.data.components } hf hs (by simp [putEntry, hlt]) rfl hh (by
            show redrawAll _ _ _ _ ⟨_, t1.map _⟩ = _
            rw [← ht1]
            exact hr)
        refine ⟨t', i1, ?_⟩
        rw [redrawGlyph, hfr]
        simp only
        rw [i2]
        simp only [putEntry, putGlyph, List.set_set]

/-- the entry of a glyph that has been looked up, in a font with `n` masters -/
def freshEntry (A ASM : Type) (n : Nat) : Entry (Decompiled A ASM) (List MasterData) := { id := 2001, data := .dec (.glyph (emptyGlyph A ASM n)) }

/-- the entry of a glyph after new contours have been drawn into all masters -/
def Drawn (n : Nat) (order : List PyStr) (css : List (List UfoContour)) (e2 : Entry (Decompiled A ASM) (List MasterData)) : Prop :=
  ∃ (g : MasterGlyphs) (t : Option (List MasterData)), redrawAll n order 0 css ⟨⟨some [], none⟩, none⟩ = (g, none) ∧ g.temp = t.map (·.map some) ∧
    e2 = putGlyph (freshEntry A ASM n) (emptyGlyph A ASM n) g.data t

theorem entry_inj {l : List (PyStr × GlyphObj)} (h : (l.map fun p => p.2.entry).Pairwise (· < ·)) {p q : PyStr × GlyphObj} (hp : p ∈ l) (hq : q ∈ l)
    (he : p.2.entry = q.2.entry) : p = q := by
  have hnd : (l.map fun p => p.2.entry).Nodup := List.Pairwise.imp (fun {a b} (h : a < b) => Nat.ne_of_lt h) h
  exact nodup_map_inj (f := fun p : PyStr × GlyphObj => p.2.entry) hnd hp hq he

/-- several glyphs -/
theorem redrawGlyphs_ok (C : Codec (Decompiled A ASM) (List MasterData)) (n : Nat) (hn : 1 ≤ n) (edits : List (PyStr × List (List UfoContour)))
    (f : FontObj (Decompiled A ASM) (List MasterData)) (hctx : f.vfb.ctx.num_masters = n)
    (hkeys : (f.look.glyphs.map Prod.fst).Nodup) (hsorted : (f.look.glyphs.map fun p => p.2.entry).Pairwise (· < ·))
    (hsrc : ∀ p ∈ f.look.glyphs, p.2.source = f.reads) (hnd : (edits.map Prod.fst).Nodup)
    (hin : ∀ p ∈ edits, p.1 ∈ f.look.glyphs.map Prod.fst) (hdr : ∀ p ∈ edits, Drawable n p.2)
    (hfresh : ∀ p ∈ edits, ∀ o, (p.1, o) ∈ f.look.glyphs → f.vfb.entries[o.entry]? = some (freshEntry A ASM n)) :
    ∃ l2, redrawGlyphs C edits f = ({ f with vfb := { f.vfb with entries := l2 } }, none) ∧ l2.length = f.vfb.entries.length ∧
      (∀ i : Nat, (∀ p ∈ edits, ∀ o, (p.1, o) ∈ f.look.glyphs → o.entry ≠ i) → l2[i]? = f.vfb.entries[i]?) ∧
      ∀ p ∈ edits, ∀ o, (p.1, o) ∈ f.look.glyphs → ∃ e2, l2[o.entry]? = some e2 ∧ Drawn n f.look.order p.2 e2 := by
  induction edits generalizing f with
  | nil => exact ⟨f.vfb.entries, rfl, rfl, fun _ _ => rfl, fun p hp => (by cases hp)⟩
  | cons p edits ih =>
    obtain ⟨key, css⟩ := p
    have hd := hdr (key, css) List.mem_cons_self
    obtain ⟨q, hq, hqk⟩ := List.mem_map.1 (hin (key, css) List.mem_cons_self)
    obtain ⟨_, o, hf, ho⟩ : ∃ _ : True, ∃ o, f.look.glyphs.find? (fun p => p.1 == key) = some (key, o) ∧ (key, o) ∈ f.look.glyphs := by
      rcases find_key f.look.glyphs key with ⟨_, h⟩ | h
      · exact absurd (List.mem_map.2 ⟨q, hq, hqk⟩) h
      · exact ⟨trivial, h⟩
    have honly : ∀ o', (key, o') ∈ f.look.glyphs → o' = o := by
      intro o' ho'
      have := nodup_map_inj (f := Prod.fst) hkeys ho' ho rfl
      injection this
    have hother : ∀ p ∈ edits, ∀ o', (p.1, o') ∈ f.look.glyphs → o'.entry ≠ o.entry := by
      intro p hp o' ho' he
      have := entry_inj hsorted ho' ho he
      injection this with h1 _
      rw [List.map_cons, List.nodup_cons] at hnd
      exact hnd.1 (List.mem_map.2 ⟨p, hp, h1⟩)
    have he := hfresh (key, css) List.mem_cons_self o ho
    have hlt : o.entry < f.vfb.entries.length := (List.getElem?_eq_some_iff.1 he).1
    obtain ⟨g, temp, merged, nodes, h1, h2, _⟩ := redraw_merged n f.look.order css hd.masters hn hd.trueType hd.compatible ⟨some [], none⟩
    have hnn : f.vfb.ctx.num_masters.toNat = n := by rw [hctx]; rfl
    obtain ⟨t', r1, r2⟩ := redrawGlyph_eq C key o css 0 f (freshEntry A ASM n) (emptyGlyph A ASM n) g hf (hsrc _ ho) he rfl rfl (by
      rw [hnn]
      exact h1)
    obtain ⟨l2, i1, i2, i3, i4⟩ := ih (putEntry f o.entry (putGlyph (freshEntry A ASM n) (emptyGlyph A ASM n) g.data t')) hctx hkeys hsorted hsrc
      (by rw [List.map_cons, List.nodup_cons] at hnd; exact hnd.2) (fun p hp => hin p (List.mem_cons_of_mem _ hp))
      (fun p hp => hdr p (List.mem_cons_of_mem _ hp)) (by
        intro p hp o' ho'
        show (f.vfb.entries.set o.entry _)[o'.entry]? = _
        rw [List.getElem?_set_ne (hother p hp o' ho').symm]
        exact hfresh p (List.mem_cons_of_mem _ hp) o' ho')
    refine ⟨l2, ?_, ?_, ?_, ?_⟩
    · rw [redrawGlyphs, r2]
      simp only
      rw [i1]
      rfl
    · rw [i2]
      simp [putEntry]
    · intro i hi
      rw [i3 i fun p hp => hi p (List.mem_cons_of_mem _ hp)]
      exact List.getElem?_set_ne (hi (key, css) List.mem_cons_self o ho)
    · intro p hp o' ho'
      rcases List.mem_cons.1 hp with rfl | hp
      · rw [honly o' ho', i3 o.entry hother]
        refine ⟨_, ?_, g, t', h1, r1, rfl⟩
        simp [putEntry, hlt]
      · exact i4 p hp o' ho'

end
end Verif.Props
