import Verif.Model.Json
import Verif.Props.Container
import Verif.Props.Save
import Verif.Props.Table
import Verif.Props.Base
import Verif.Lemmas.Dec
import Mathlib.Data.List.Forall2
/-! C88: the JSON export. -/
set_option autoImplicit false
namespace Verif.Props
open Verif Verif.Spec
variable {D T : Type}

/-! ## decompiling and compiling all entries -/

theorem decompileEntries_ok (C : Codec D T) (c : Ctx) (es es' : List (Entry D T)) (f : Bool)
    (h : decompileEntries C c [] es = (.ok (), es', f)) :
    List.Forall₂ (fun e e' => e.decompile C c = (.ok (), e', false)) es es' := by
  induction es generalizing es' f with
  | nil => cases h; exact .nil
  | cons e es ih =>
    rw [decompileEntries, if_neg (by simp)] at h
    rcases he : e.decompile C c with ⟨r, e1, b⟩
    rw [he] at h
    cases r with
    | error x => cases h
    | ok u =>
      dsimp only at h
      rcases hes : decompileEntries C c [] es with ⟨r2, es2, f2⟩
      rw [hes] at h
      cases h
      refine .cons ?_ (ih es2 f2 hes)
      have : b = false := by
        unfold Entry.decompile at he
        split at he
        · cases he
        · cases he; rfl
        · split at he
          · cases he
          · cases he; rfl
      rw [this] at he
      exact he

theorem decompileEntries_exists (C : Codec D T) (c : Ctx) (es es' : List (Entry D T))
    (h : List.Forall₂ (fun e e' => e.decompile C c = (.ok (), e', false)) es es') :
    decompileEntries C c [] es = (.ok (), es', false) := by
  induction h with
  | nil => rfl
  | cons h _ ih =>
    rw [decompileEntries, if_neg (by simp), h]
    dsimp only
    rw [ih]

theorem compileEntries_exists (C : Codec D T) (c : Ctx) (es es' : List (Entry D T))
    (h : List.Forall₂ (fun e e' => ∃ b, e.compile C c = (.ok b, e')) es es') :
    compileEntries C c es = (.ok (), es') := by
  induction h with
  | nil => rfl
  | cons h _ ih =>
    obtain ⟨b, h⟩ := h
    rw [compileEntries, h]
    dsimp only
    rw [ih]

/-- the entries of a font that has been read -/
theorem loaded_forall (C : Codec D T) (hs : SpecialFixed C) (force : Bool) (ctx c : Ctx) (es : List (Nat × Bytes)) (hr : Readable C force ctx es) :
    List.Forall₂ (fun (p : Nat × Bytes) (e : Entry D T) => e = loadedEntry C c p ∧
      (isSpecial p.1 = true → ∃ d, parseEntry (C.parse p.1 c) p.2 = .ok d)) es (loaded C force ctx es) := by
  induction es generalizing ctx with
  | nil => exact .nil
  | cons p es ih =>
    obtain ⟨_, _, _, h4, h5⟩ := hr
    refine .cons ⟨?_, ?_⟩ (ih _ h5)
    · unfold loadedEntry
      by_cases hsp : isSpecial p.1 = true
      · rw [if_pos hsp, if_pos hsp, hs _ hsp ctx c]
      · rw [if_neg hsp, if_neg hsp]
    · intro hsp
      rw [hs _ hsp c ctx]
      exact h4 hsp

theorem loadedEntry_decompile (C : Codec D T) (c : Ctx) (p : Nat × Bytes) (e : Entry D T)
    (hsp : isSpecial p.1 = true → ∃ d, parseEntry (C.parse p.1 c) p.2 = .ok d) :
    (loadedEntry C c p : Entry D T).decompile C c = (.ok (), e, false) ↔
      ∃ d, parseEntry (C.parse p.1 c) p.2 = .ok d ∧ e = { id := p.1, data := .dec d } := by
  unfold loadedEntry Entry.decompile
  by_cases h : isSpecial p.1 = true
  · obtain ⟨d, hd⟩ := hsp h
    rw [if_pos h, hd]
    simp [eq_comm]
  · rw [if_neg h]
    cases hd : parseEntry (C.parse p.1 c) p.2 with
    | error x => simp [hd]
    | ok d => simp [hd, eq_comm]

/-! ## the keys -/

/-- **C88** The key of an entry in the JSON determines its id. -/
theorem C88_keys (i j : Nat) (h : entryKey i = entryKey j) : i = j := by
  have hdig : ∀ r ∈ parserClasses, ∃ ch ∈ lit r.2.1, ¬ (48 ≤ ch ∧ ch ≤ 57) := by decide +kernel
  have hinj : ∀ r ∈ parserClasses, ∀ r' ∈ parserClasses, lit r.2.1 = lit r'.2.1 → r.1 = r'.1 := by decide +kernel
  have hnum : ∀ n : Nat, ∀ ch ∈ intDec (n : Int), 48 ≤ ch ∧ ch ≤ 57 := by
    intro n
    rw [show intDec (n : Int) = natDec n by simp [intDec]]
    exact fun ch hc => natDec_digits n ch hc
  unfold entryKey at h
  cases hi : parserClasses.find? (fun r => r.1 == (i : Int)) with
  | none =>
    cases hj : parserClasses.find? (fun r => r.1 == (j : Int)) with
    | none =>
      rw [hi, hj] at h
      have := intDec_inj h
      omega
    | some r =>
      rw [hi, hj] at h
      obtain ⟨ch, hc, hn⟩ := hdig r (List.mem_of_find?_eq_some hj)
      dsimp only at h
      rw [← h] at hc
      exact absurd (hnum i ch hc) hn
  | some r =>
    have ri : (r.1 == (i : Int)) = true := List.find?_some (p := fun r : Int × String × Kind => r.1 == (i : Int)) hi
    cases hj : parserClasses.find? (fun r => r.1 == (j : Int)) with
    | none =>
      rw [hi, hj] at h
      obtain ⟨ch, hc, hn⟩ := hdig r (List.mem_of_find?_eq_some hi)
      dsimp only at h
      rw [h] at hc
      exact absurd (hnum j ch hc) hn
    | some r' =>
      have rj : (r'.1 == (j : Int)) = true := List.find?_some (p := fun r : Int × String × Kind => r.1 == (j : Int)) hj
      rw [hi, hj] at h
      have := hinj r (List.mem_of_find?_eq_some hi) r' (List.mem_of_find?_eq_some hj) h
      rw [eq_of_beq ri, eq_of_beq rj] at this
      omega

/-! ## the exported dictionary -/

/-- the settings of a font after reading the entries -/
def jsonCtx (C : Codec D T) (o : JsonOpts) (es : List (Nat × Bytes)) : Ctx := ctxAll C o.unicode_strings {} es

/-- the font after reading -/
def jsonFont (C : Codec D T) (o : JsonOpts) (minor : UInt8) (es : List (Nat × Bytes)) : Vfb D T :=
  { only_header := o.only_header
    force_unicode_strings := o.unicode_strings
    header := .dec (headerDict minor)
    ctx := jsonCtx C o es
    entries := loaded C o.unicode_strings {} es }

theorem json_read (C : Codec D T) (o : JsonOpts) (minor : UInt8) (es : List (Nat × Bytes)) (tail : Bytes) (ho : o.only_header = false)
    (ht : Terminated es) (hr : Readable C o.unicode_strings {} es) :
    saveJson C o (fileOf minor es ++ tail) =
      (jsonRoundtrip C o (jsonFont C o minor es) >>= fun v =>
        jsonDecompile C o v >>= fun v => .ok v.asDict) := by
  unfold saveJson
  rw [read_file C { only_header := o.only_header, force_unicode_strings := o.unicode_strings } minor es tail ho ht hr]
  dsimp only
  have hfil : (loaded C o.unicode_strings {} es : List (Entry D T)).filter (fun e => decide (e.id ∉ ([] : List Int))) = loaded C o.unicode_strings {} es :=
    List.filter_eq_self.2 (by simp)
  rw [hfil]
  rfl

theorem vfb_decompile_ok (C : Codec D T) (v : Vfb D T) (es' : List (Entry D T)) (h : Header) (hh : v.header = .dec h) (hd : v.drop_keys = [])
    (he : List.Forall₂ (fun e e' => e.decompile C v.ctx = (.ok (), e', false)) v.entries es') :
    v.decompile C = (.ok (), { v with entries := es', any_errors := false }) := by
  unfold Vfb.decompile
  rw [hh, hd, decompileEntries_exists C v.ctx v.entries es' he]
  simp only [HData.decompile, ← hh, ← hd]

theorem vfb_decompile_inv (C : Codec D T) (v v' : Vfb D T) (h : Header) (hh : v.header = .dec h) (hd : v.drop_keys = [])
    (he : v.decompile C = (.ok (), v')) :
    v'.header = .dec h ∧ List.Forall₂ (fun e e' => e.decompile C v.ctx = (.ok (), e', false)) v.entries v'.entries := by
  unfold Vfb.decompile at he
  rw [hh, hd] at he
  simp only [HData.decompile] at he
  rcases hes : decompileEntries C v.ctx [] v.entries with ⟨r, es', f⟩
  rw [hes] at he
  cases he
  exact ⟨rfl, decompileEntries_ok C v.ctx v.entries es' f hes⟩

/-- the data of an entry in the JSON file are what its payload decompiles to -/
def JsonEntryOf (C : Codec D T) (c : Ctx) (p : Nat × Bytes) (j : EntryDict D) : Prop :=
  ∃ d, parseEntry (C.parse p.1 c) p.2 = .ok d ∧ j = ⟨entryKey p.1, none, .data d⟩

theorem forall₂_comp {α β γ : Type} {R : α → β → Prop} {S : β → γ → Prop} {a : List α} {b : List β} {g : List γ}
    (h : List.Forall₂ R a b) (h' : List.Forall₂ S b g) : List.Forall₂ (fun x z => ∃ y, R x y ∧ S y z) a g := by
  induction h generalizing g with
  | nil => cases h'; exact .nil
  | cons h _ ih =>
    cases h' with
    | cons k ks => exact .cons ⟨_, h, k⟩ (ih ks)

/-- **C88** The JSON file holds the whole font: one item per entry, in the order of the file, with the key of the entry and the data
its payload decompiles to; it is written exactly if all entries can be decompiled. -/
theorem C88_complete (C : Codec D T) (hs : SpecialFixed C) (o : JsonOpts) (minor : UInt8) (es : List (Nat × Bytes)) (tail : Bytes)
    (ho : o.only_header = false) (hn : o.no_decompile = false) (hrt : o.roundtrip = false) (ht : Terminated es)
    (hr : Readable C o.unicode_strings {} es) :
    (∀ doc, saveJson C o (fileOf minor es ++ tail) = .ok doc →
      doc.header = .data (headerDict minor) ∧ List.Forall₂ (JsonEntryOf C (jsonCtx C o es)) es doc.entries) ∧
    ((∃ doc, saveJson C o (fileOf minor es ++ tail) = .ok doc) ↔
      ∀ p ∈ es, ∃ d, parseEntry (C.parse p.1 (jsonCtx C o es)) p.2 = .ok d) := by
  have hl := loaded_forall C hs o.unicode_strings {} (jsonCtx C o es) es hr
  have hsave := json_read C o minor es tail ho ht hr
  generalize hv : (jsonFont C o minor es) = v at hsave
  have h1 : v.header = .dec (headerDict minor) := by rw [← hv]; rfl
  have h2 : v.drop_keys = [] := by rw [← hv]; rfl
  have h3 : v.ctx = jsonCtx C o es := by rw [← hv]; rfl
  have h4 : v.entries = loaded C o.unicode_strings {} es := by rw [← hv]; rfl
  rw [← h4, ← h3] at hl
  rw [← h3]
  have hrt' : jsonRoundtrip C o v = .ok v := by unfold jsonRoundtrip; rw [hrt]; rfl
  rw [hrt'] at hsave
  replace hsave : saveJson C o (fileOf minor es ++ tail) = (jsonDecompile C o v >>= fun v => .ok v.asDict) := hsave
  have hfwd : ∀ doc, saveJson C o (fileOf minor es ++ tail) = .ok doc →
      doc.header = .data (headerDict minor) ∧ List.Forall₂ (JsonEntryOf C v.ctx) es doc.entries := by
    intro doc h
    rw [hsave] at h
    unfold jsonDecompile at h
    rw [hn, if_neg (by simp)] at h
    rcases hd : v.decompile C with ⟨r, v'⟩
    rw [hd] at h
    cases r with
    | error x => cases h
    | ok u =>
      cases h
      obtain ⟨k1, k2⟩ := vfb_decompile_inv C v v' _ h1 h2 hd
      refine ⟨by simp [Vfb.asDict, k1, HData.asDict], ?_⟩
      simp only [Vfb.asDict, List.forall₂_map_right_iff]
      refine (forall₂_comp hl k2).imp ?_
      rintro p e' ⟨e, ⟨rfl, hsp⟩, he⟩
      obtain ⟨d, hd, rfl⟩ := (loadedEntry_decompile C v.ctx p e' hsp).1 he
      exact ⟨d, hd, rfl⟩
  refine ⟨hfwd, ?_, ?_⟩
  · rintro ⟨doc, h⟩ p hp
    obtain ⟨_, hf⟩ := hfwd doc h
    obtain ⟨i, hi, rfl⟩ := List.getElem_of_mem hp
    have := (List.forall₂_iff_get.1 hf).2 i hi (by have := (List.forall₂_iff_get.1 hf).1; omega)
    obtain ⟨d, hd, _⟩ := this
    exact ⟨d, hd⟩
  · intro h
    have : ∃ es' : List (Entry D T), List.Forall₂ (fun e e' => e.decompile C v.ctx = (.ok (), e', false)) v.entries es' := by
      generalize v.entries = l at hl
      clear hsave hfwd ht hr h4 hv h3
      induction hl with
      | nil => exact ⟨[], .nil⟩
      | @cons p e ps l hpe _ ih =>
        obtain ⟨d, hd⟩ := h p (by simp)
        obtain ⟨es', hes'⟩ := ih (fun q hq => h q (by simp [hq]))
        obtain ⟨rfl, hsp⟩ := hpe
        exact ⟨_, .cons ((loadedEntry_decompile C v.ctx p _ hsp).2 ⟨d, hd, rfl⟩) hes'⟩
    obtain ⟨es', hes'⟩ := this
    have hd := vfb_decompile_ok C v es' _ h1 h2 hes'
    refine ⟨Vfb.asDict { v with entries := es', any_errors := false }, ?_⟩
    rw [hsave]
    unfold jsonDecompile
    rw [hn, if_neg (by simp), hd]
    rfl

/-- the item of an entry that has not been decompiled: hexadecimal digits; three entries are always decompiled -/
def JsonBinaryOf (C : Codec D T) (c : Ctx) (p : Nat × Bytes) (j : EntryDict D) : Prop :=
  if isSpecial p.1 = true then JsonEntryOf C c p j
  else j = ⟨entryKey p.1, some p.2.length, .hex (hexStr p.2)⟩

/-- **C88** With `--no-decompile` the export always succeeds, and holds the binary data of each entry as hexadecimal digits (except
for the three entries that are always decompiled). -/
theorem C88_binary (C : Codec D T) (hs : SpecialFixed C) (o : JsonOpts) (minor : UInt8) (es : List (Nat × Bytes)) (tail : Bytes)
    (ho : o.only_header = false) (hn : o.no_decompile = true) (hrt : o.roundtrip = false) (ht : Terminated es)
    (hr : Readable C o.unicode_strings {} es) :
    ∃ doc, saveJson C o (fileOf minor es ++ tail) = .ok doc ∧ doc.header = .data (headerDict minor) ∧
      List.Forall₂ (JsonBinaryOf C (jsonCtx C o es)) es doc.entries := by
  have hl := loaded_forall C hs o.unicode_strings {} (jsonCtx C o es) es hr
  rw [json_read C o minor es tail ho ht hr]
  refine ⟨Vfb.asDict (jsonFont C o minor es), ?_, rfl, ?_⟩
  · unfold jsonRoundtrip
    rw [hrt]
    show (jsonDecompile C o _ >>= _) = _
    unfold jsonDecompile
    rw [hn]
    rfl
  · simp only [Vfb.asDict, List.forall₂_map_right_iff]
    refine hl.imp ?_
    rintro p e ⟨rfl, hsp⟩
    unfold JsonBinaryOf loadedEntry
    by_cases h : isSpecial p.1 = true
    · obtain ⟨d, hd⟩ := hsp h
      rw [if_pos h, if_pos h, hd]
      exact ⟨d, hd, rfl⟩
    · rw [if_neg h, if_neg h]
      rfl

theorem forall₂_two {α β : Type} {R S : α → β → Prop} {a a' : List α} {b : List β} (h : List.Forall₂ R a b) (h' : List.Forall₂ S a' b) :
    List.Forall₂ (fun x y => ∃ z, R x z ∧ S y z) a a' :=
  forall₂_comp h (List.Forall₂.flip h')

/-- **C88** Nothing is lost with `--no-decompile`: fonts with the same JSON have the same entries, in the same order, with the same
binary data (for the three entries that are always decompiled: with the same data). -/
theorem C88_recoverable (C : Codec D T) (hs : SpecialFixed C) (o : JsonOpts) (minor minor' : UInt8) (es es' : List (Nat × Bytes))
    (ho : o.only_header = false) (hn : o.no_decompile = true) (hrt : o.roundtrip = false) (ht : Terminated es) (ht' : Terminated es')
    (hr : Readable C o.unicode_strings {} es) (hr' : Readable C o.unicode_strings {} es')
    (h : saveJson C o (fileOf minor es) = saveJson C o (fileOf minor' es')) :
    minor = minor' ∧ List.Forall₂ (fun p q => p.1 = q.1 ∧ (isSpecial p.1 = false → p.2 = q.2) ∧
      (isSpecial p.1 = true → ∃ c c', parseEntry (C.parse p.1 c) p.2 = parseEntry (C.parse q.1 c') q.2)) es es' := by
  obtain ⟨doc, a1, a2, a3⟩ := C88_binary C hs o minor es [] ho hn hrt ht hr
  obtain ⟨doc', b1, b2, b3⟩ := C88_binary C hs o minor' es' [] ho hn hrt ht' hr'
  rw [List.append_nil] at a1 b1
  rw [a1, b1] at h
  cases h
  constructor
  · rw [a2] at b2
    have := congrArg (fun j => match j with | JsonData.data (h : Header) => h.version_minor | _ => 0) b2
    simp only [headerDict] at this
    exact UInt8.toNat_inj.1 (by omega)
  · refine (forall₂_two a3 b3).imp ?_
    rintro p q ⟨j, hp, hq⟩
    have hkey : entryKey p.1 = entryKey q.1 := by
      have kp : j.key = entryKey p.1 := by
        unfold JsonBinaryOf at hp
        split at hp
        · obtain ⟨d, _, rfl⟩ := hp; rfl
        · rw [hp]
      have kq : j.key = entryKey q.1 := by
        unfold JsonBinaryOf at hq
        split at hq
        · obtain ⟨d, _, rfl⟩ := hq; rfl
        · rw [hq]
      rw [← kp, ← kq]
    have hid := C88_keys _ _ hkey
    refine ⟨hid, ?_, ?_⟩
    · intro hsp
      unfold JsonBinaryOf at hp hq
      rw [if_neg (by simp [hsp])] at hp
      rw [if_neg (by simp [← hid, hsp])] at hq
      rw [hp] at hq
      simp only [EntryDict.mk.injEq, JsonData.hex.injEq] at hq
      exact C17_hex_injective _ _ hq.2.2
    · intro hsp
      unfold JsonBinaryOf at hp hq
      rw [if_pos hsp] at hp
      rw [if_pos (by rw [← hid]; exact hsp)] at hq
      obtain ⟨d, h1, rfl⟩ := hp
      obtain ⟨d', h1', h2'⟩ := hq
      simp only [EntryDict.mk.injEq, JsonData.data.injEq] at h2'
      exact ⟨_, _, by rw [h1, h1', h2'.2.2]⟩

/-- **C88** With `--header` only the header is exported; the rest of the file need not be readable. -/
theorem C88_header_only (C : Codec D T) (o : JsonOpts) (minor : UInt8) (rest : Bytes) (ho : o.only_header = true) :
    saveJson C o (fileHeader minor ++ rest) = .ok ⟨if o.roundtrip = true ∧ o.no_decompile = true then .hex (hexStr (fileHeader minor))
      else .data (headerDict minor), []⟩ := by
  unfold saveJson Vfb.readBytes Vfb.readFuel
  rw [parseHeader_file]
  dsimp only
  rw [if_pos (by simp [Vfb.clear, ho])]
  have hp := parseHeader_file minor []
  rw [List.append_nil] at hp
  obtain ⟨oh, us, nd, rt⟩ := o
  cases nd <;> cases rt <;>
    simp [jsonRoundtrip, jsonDecompile, Vfb.clear, Vfb.decompile, Vfb.compile, HData.decompile, HData.compile, compileHeader_ok,
      decompileEntries, compileEntries, Vfb.asDict, HData.asDict, hp, bind, Except.bind]

/-- **C88** A file that cannot be read is not exported: the exception is raised, and no document is written. -/
theorem C88_unreadable (C : Codec D T) (o : JsonOpts) (file : Bytes) (x : PyErr) (v : Vfb D T)
    (h : Vfb.readBytes C { only_header := o.only_header, force_unicode_strings := o.unicode_strings } file = (.error x, v)) :
    saveJson C o file = .error x := by
  unfold saveJson
  rw [h]

/-- **C88** A file that is cut off is not exported, whatever the options (except `only_header`) and wherever the cut is, with the
exceptions of C86. -/
theorem C88_cut_file (C : Codec D T) (o : JsonOpts) (ho : o.only_header = false) (minor : UInt8) (es : List (Nat × Bytes)) (b : Bytes)
    (ht : Terminated es) (hr : Readable C o.unicode_strings {} es) (hb : b <+: fileOf minor es) (hne : b ≠ fileOf minor es)
    (hl : ¬ ∃ pre e post part, CutIn minor es pre e post part b ∧ LooksComplete post e part) (doc : VfbDict D) :
    saveJson C o b ≠ .ok doc := by
  have hno := fun v' => mt (fun h => (C86_cut_file C ({ only_header := o.only_header, force_unicode_strings := o.unicode_strings } : Vfb D T)
    minor es b ho ht hr hb hne).1 ⟨v', h⟩) hl
  intro hd
  rcases hrd : Vfb.readBytes C ({ only_header := o.only_header, force_unicode_strings := o.unicode_strings } : Vfb D T) b with ⟨_ | u, v⟩
  · rw [C88_unreadable C o b _ v hrd] at hd
    cases hd
  · exact hno v hrd

/-- **C88** `--roundtrip` exports the same font: if every entry survives compiling and decompiling (or its id is unknown and it is
left alone), the JSON file with and without `--roundtrip` has the same keys in the same order, with equal data. -/
theorem C88_roundtrip (C : Codec D T) (hs : SpecialFixed C) (o : JsonOpts) (Same : D → D → Prop) (hrefl : ∀ d, Same d d) (minor : UInt8)
    (es : List (Nat × Bytes)) (tail : Bytes) (ho : o.only_header = false) (hn : o.no_decompile = false) (ht : Terminated es)
    (hr : Readable C o.unicode_strings {} es)
    (hes : ∀ p ∈ es, ∃ d, parseEntry (C.parse p.1 (jsonCtx C o es)) p.2 = .ok d ∧
      (C.compile p.1 = none ∨ ∃ comp b d', C.compile p.1 = some comp ∧ comp (jsonCtx C o es) (some d) = .ok b ∧
        parseEntry (C.parse p.1 (jsonCtx C o es)) b = .ok d' ∧ Same d d')) :
    ∃ doc doc', saveJson C { o with roundtrip := false } (fileOf minor es ++ tail) = .ok doc ∧
      saveJson C { o with roundtrip := true } (fileOf minor es ++ tail) = .ok doc' ∧ doc.header = doc'.header ∧
      List.Forall₂ (fun j j' => j.key = j'.key ∧ j.size = j'.size ∧ ∃ d d', j.decompiled = .data d ∧ j'.decompiled = .data d' ∧ Same d d')
        doc.entries doc'.entries := by
  have hl := loaded_forall C hs o.unicode_strings {} (jsonCtx C o es) es hr
  have hsave := fun rt => json_read C { o with roundtrip := rt } minor es tail ho ht hr
  have hc : ∀ rt, (jsonFont C { o with roundtrip := rt } minor es : Vfb D T) = jsonFont C o minor es := fun _ => rfl
  simp only [hc] at hsave
  generalize hv : (jsonFont C o minor es) = v at hsave
  have h1 : v.header = .dec (headerDict minor) := by rw [← hv]; rfl
  have h2 : v.drop_keys = [] := by rw [← hv]; rfl
  have h3 : v.ctx = jsonCtx C o es := by rw [← hv]; rfl
  have h4 : v.entries = loaded C o.unicode_strings {} es := by rw [← hv]; rfl
  rw [← h4, ← h3] at hl
  rw [← h3] at hes
  -- the entries at the four stages
  have stages : ∃ e1 e2 e3 : List (Entry D T),
      List.Forall₂ (fun e e' => e.decompile C v.ctx = (.ok (), e', false)) v.entries e1 ∧
      List.Forall₂ (fun e e' => ∃ b, e.compile C v.ctx = (.ok b, e')) e1 e2 ∧
      List.Forall₂ (fun e e' => e.decompile C v.ctx = (.ok (), e', false)) e2 e3 ∧
      List.Forall₂ (fun e e' => e.id = e'.id ∧ ∃ d d', e.data = .dec d ∧ e'.data = .dec d' ∧ Same d d') e1 e3 := by
    generalize v.entries = l at hl
    clear hsave hc ht hr h4 hv h3
    induction hl with
    | nil => exact ⟨[], [], [], .nil, .nil, .nil, .nil⟩
    | @cons p e ps l hpe _ ih =>
      obtain ⟨e1, e2, e3, i1, i2, i3, i4⟩ := ih (fun q hq => hes q (by simp [hq]))
      obtain ⟨rfl, hsp⟩ := hpe
      obtain ⟨d, hd, hcomp⟩ := hes p (by simp)
      have hx := (loadedEntry_decompile C v.ctx p _ hsp).2 ⟨d, hd, rfl⟩
      rcases hcomp with hcomp | ⟨comp, b, d', q1, q2, q3, q4⟩
      · refine ⟨_, _, _, .cons hx i1, .cons (b := { id := p.1, data := .dec d }) ⟨false, ?_⟩ i2,
          .cons (b := { id := p.1, data := .dec d }) ?_ i3, .cons ⟨rfl, d, d, rfl, rfl, hrefl d⟩ i4⟩
        · simp [Entry.compile, hcomp]
        · simp [Entry.decompile]
      · refine ⟨_, _, _, .cons hx i1, .cons (b := { id := p.1, data := .bytes b }) ⟨true, ?_⟩ i2,
          .cons (b := { id := p.1, data := .dec d' }) ?_ i3, .cons ⟨rfl, d, d', rfl, rfl, q4⟩ i4⟩
        · simp [Entry.compile, Entry.merged, q1, q2]
        · simp [Entry.decompile, q3]
  obtain ⟨e1, e2, e3, s1, s2, s3, s4⟩ := stages
  have d1 := vfb_decompile_ok C v e1 _ h1 h2 s1
  have c1 : Vfb.compile C { v with entries := e1, any_errors := false } =
      (.ok (), { v with header := .bytes (fileHeader minor), entries := e2, any_errors := false }) := by
    unfold Vfb.compile
    rw [h1]
    simp only [HData.compile, compileHeader_ok]
    rw [compileEntries_exists C v.ctx e1 e2 s2]
  have d2 : Vfb.decompile C { v with header := .bytes (fileHeader minor), entries := e2, any_errors := false } =
      (.ok (), { v with header := .dec (headerDict minor), entries := e3, any_errors := false }) := by
    have hp := parseHeader_file minor []
    rw [List.append_nil] at hp
    unfold Vfb.decompile
    simp only [HData.decompile, hp, h2]
    rw [decompileEntries_exists C v.ctx e2 e3 s3]
  refine ⟨⟨.data (headerDict minor), e1.map Entry.asDict⟩, ⟨.data (headerDict minor), e3.map Entry.asDict⟩, ?_, ?_, rfl, ?_⟩
  · rw [hsave false]
    unfold jsonRoundtrip
    show (jsonDecompile C _ v >>= _) = _
    unfold jsonDecompile
    rw [if_neg (by simp [hn]), d1]
    simp [bind, Except.bind, Vfb.asDict, HData.asDict, h1]
  · rw [hsave true]
    unfold jsonRoundtrip
    rw [if_pos rfl, d1]
    dsimp only
    rw [c1]
    show (jsonDecompile C _ _ >>= _) = _
    unfold jsonDecompile
    rw [if_neg (by simp [hn]), d2]
    simp [bind, Except.bind, Vfb.asDict, HData.asDict]
  · simp only [List.forall₂_map_left_iff, List.forall₂_map_right_iff]
    refine s4.imp ?_
    rintro e e' ⟨hid, d, d', hd, hd', hs⟩
    simp only [Entry.asDict, hd, hd', hid]
    exact ⟨trivial, trivial, d, d', rfl, rfl, hs⟩

/-! ## fonts -/

theorem same_refl {A ASM : Type} (d : Decompiled A ASM) : SameData d d := by
  cases d <;> first | rfl | exact fun _ => rfl | exact fun _ => ⟨rfl, fun _ => rfl⟩

/-- **C88** `--roundtrip`, for the actual table of entries: the exceptions are those listed in `Survives`. -/
theorem C88_roundtrip_font (ops : AngleOps) (asm : AsmOps) (hr : ∀ v, IsInt32 v → IsInt32 (ops.fromAngle (ops.toAngle v))) (o : JsonOpts)
    (minor : UInt8) (es : List (Nat × Bytes)) (tail : Bytes) (ho : o.only_header = false) (hn : o.no_decompile = false) (ht : Terminated es)
    (hread : Readable (vfbCodec ops asm) o.unicode_strings {} es)
    (hes : ∀ p ∈ es, kindOf p.1 = none ∨ p.2.length < 2147483648 ∧ ∃ k d, kindOf p.1 = some k ∧
      parseEntry ((vfbCodec ops asm).parse p.1 (jsonCtx (vfbCodec ops asm) o es)) p.2 = .ok d ∧
      Survives ops asm (jsonCtx (vfbCodec ops asm) o es) k d) :
    ∃ doc doc', saveJson (vfbCodec ops asm) { o with roundtrip := false } (fileOf minor es ++ tail) = .ok doc ∧
      saveJson (vfbCodec ops asm) { o with roundtrip := true } (fileOf minor es ++ tail) = .ok doc' ∧ doc.header = doc'.header ∧
      List.Forall₂ (fun j j' => j.key = j'.key ∧ j.size = j'.size ∧
        ∃ d d', j.decompiled = .data d ∧ j'.decompiled = .data d' ∧ SameData d d') doc.entries doc'.entries := by
  refine C88_roundtrip (vfbCodec ops asm) (vfb_special_fixed ops asm) o SameData same_refl minor es tail ho hn ht hread ?_
  intro p hp
  rcases hes p hp with hk | ⟨hlen, k, d, hk, hd, hsv⟩
  · obtain ⟨⟨s, h1, _⟩, h2⟩ := C15_unknown_id ops asm p.1 hk (jsonCtx (vfbCodec ops asm) o es) p.2
    exact ⟨_, h1, .inl h2⟩
  · obtain ⟨comp, b, d', q1, q2, q3, q4⟩ := C15_entry_stable ops asm hr p.1 k hk _ p.2 d hlen hd hsv
    exact ⟨d, hd, .inr ⟨comp, b, d', q1, q2, q3, q4⟩⟩

/-! ## examples -/

/-- the demonstration file satisfies the hypotheses -/
example : ∃ es : List (Nat × Bytes), es.length = 8 ∧ Terminated es ∧ Readable demo false {} es ∧ SpecialFixed demo ∧
    ∀ p ∈ es, ∃ d, parseEntry (demo.parse p.1 (jsonCtx demo {} es)) p.2 = .ok d :=
  ⟨demoEntries, rfl, demo_terminated, demo_readable, demo_fixed, by
    intro p _
    exact ⟨_, rfl⟩⟩

/-- the JSON of a small file: an entry of the table, one with unknown id, the end -/
example : saveJson demo {} (fileOf 1 [(1025, [65, 66]), (4000, [1, 255]), (2, [])]) =
      .ok ⟨.data (headerDict 1), [⟨lit "full_name", none, .data [65, 66]⟩, ⟨lit "4000", none, .data [1, 255]⟩,
        ⟨lit "Block File Data End", none, .data []⟩]⟩ ∧
    saveJson demo { no_decompile := true } (fileOf 1 [(1025, [65, 66]), (4000, [1, 255]), (2, [])]) =
      .ok ⟨.data (headerDict 1), [⟨lit "full_name", some 2, .hex (lit "4142")⟩, ⟨lit "4000", some 2, .hex (lit "01ff")⟩,
        ⟨lit "Block File Data End", some 0, .hex []⟩]⟩ := by
  decide +kernel

/-- the file of Props/Table satisfies the hypotheses of `C88_roundtrip_font` -/
example : ∃ doc doc', saveJson (vfbCodec exampleAngles exampleAsm) {} (fileOf 5 exampleFile) = .ok doc ∧
    saveJson (vfbCodec exampleAngles exampleAsm) { roundtrip := true } (fileOf 5 exampleFile) = .ok doc' ∧ doc.header = doc'.header ∧
    List.Forall₂ (fun j j' => j.key = j'.key ∧ j.size = j'.size ∧
      ∃ d d', j.decompiled = .data d ∧ j'.decompiled = .data d' ∧ SameData d d') doc.entries doc'.entries := by
  have h := C88_roundtrip_font exampleAngles exampleAsm (fun v h => h) {} 5 exampleFile [] rfl rfl
    ⟨exampleFile.dropLast, [], rfl, by decide⟩ exampleFile_readable ?_
  · rw [List.append_nil] at h
    exact h
  have hc : jsonCtx (vfbCodec exampleAngles exampleAsm) {} exampleFile = { num_masters := 1 } := rfl
  simp only [hc]
  intro p hp
  simp only [exampleFile, List.mem_cons, List.not_mem_nil, or_false] at hp
  rcases hp with rfl | rfl | rfl | rfl | rfl | rfl
  · exact .inr ⟨by decide, .int16, .int 1, by decide +kernel, rfl, trivial⟩
  · exact .inr ⟨by decide, .string, .str [65, 98], by decide +kernel, rfl, trivial⟩
  · exact .inr ⟨by decide, .unicodes, .ints [65, 97], by decide +kernel, rfl, trivial⟩
  · exact .inr ⟨by decide, .origin, .origin ⟨1, -1⟩, by decide +kernel, rfl, trivial⟩
  · exact .inr ⟨by decide, .stringHex, .str [], by decide +kernel, rfl, rfl⟩
  · exact .inr ⟨by decide, .hex, .str [], by decide +kernel, rfl, trivial⟩

end Verif.Props
