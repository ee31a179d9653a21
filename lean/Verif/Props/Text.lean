import Verif.Lemmas.Base
import Verif.Spec.Text
/-! C27, C28: text entries, name records; C56: splitting feature code. -/
set_option autoImplicit false
namespace Verif.Props
open Verif Verif.Spec

/-! ## C27 strings -/

theorem dropWhile_of_head {s : PyStr} (h : s.head? ≠ some 0) : s.dropWhile (· == 0) = s := by
  cases s with
  | nil => rfl
  | cons c s =>
    rw [List.dropWhile_cons, if_neg]
    simp only [List.head?_cons, ne_eq, Option.some.injEq] at h
    simpa using h

theorem stripNul_id {s : PyStr} (h : NoOuterNul s) : stripNul s = s := by
  unfold stripNul
  rw [dropWhile_of_head h.1, dropWhile_of_head (by rw [List.head?_reverse]; exact h.2), List.reverse_reverse]

theorem head_dropWhile (s : PyStr) : (s.dropWhile (· == 0)).head? ≠ some 0 := by
  induction s with
  | nil => simp
  | cons c s ih =>
    rw [List.dropWhile_cons]
    split
    · exact ih
    · next h =>
      intro e
      simp only [List.head?_cons, Option.some.injEq] at e
      subst e; simp at h

theorem stripNul_noOuter (s : PyStr) : NoOuterNul (stripNul s) := by
  unfold NoOuterNul stripNul
  constructor
  · intro h
    have h1 := head_dropWhile s
    generalize s.dropWhile (· == 0) = t at *
    rw [List.head?_reverse] at h
    have hs : (t.reverse.dropWhile (· == 0)) <:+ t.reverse := List.dropWhile_suffix _
    obtain ⟨pre, hp⟩ := hs
    have hne : t.reverse.dropWhile (· == 0) ≠ [] := by
      intro e; rw [e] at h; cases h
    have : t.reverse.getLast? = some 0 := by
      rw [← hp, List.getLast?_append, h]; rfl
    rw [List.getLast?_reverse] at this
    exact h1 this
  · rw [List.getLast?_reverse]
    exact head_dropWhile _

theorem stripNul_sublist (s : PyStr) : (stripNul s).Sublist s := by
  unfold stripNul
  have h1 : (s.dropWhile (· == 0)).Sublist s := (List.dropWhile_suffix _).sublist
  have h2 : ((s.dropWhile (· == 0)).reverse.dropWhile (· == 0)).Sublist (s.dropWhile (· == 0)).reverse :=
    (List.dropWhile_suffix _).sublist
  have h3 := h2.reverse
  rw [List.reverse_reverse] at h3
  exact h3.trans h1

theorem is1252_iff (s : PyStr) : Is1252 s ↔ ∀ c ∈ s, ∃ b, cp1252Encode c = some b := by
  induction s with
  | nil => exact ⟨fun _ => by simp, fun _ => ⟨[], rfl⟩⟩
  | cons c s ih =>
    unfold Is1252 encode1252 encodeWith at *
    rw [List.mapM_cons]
    cases hc : cp1252Encode c with
    | none =>
      simp only [Option.bind_eq_bind, Option.bind_none]
      constructor
      · rintro ⟨b, hb⟩; cases hb
      · intro h
        obtain ⟨b, hb⟩ := h c List.mem_cons_self
        rw [hc] at hb; cases hb
    | some x =>
      constructor
      · rintro ⟨b, hb⟩ d hd
        rcases List.mem_cons.1 hd with rfl | hd
        · exact ⟨x, hc⟩
        · refine ih.1 ?_ d hd
          cases hm : List.mapM cp1252Encode s with
          | none => rw [hm] at hb; cases hb
          | some m => exact ⟨m, rfl⟩
      · intro h
        obtain ⟨b, hb⟩ := ih.2 fun d hd => h d (List.mem_cons_of_mem _ hd)
        cases hm : List.mapM cp1252Encode s with
        | none => rw [hm] at hb; cases hb
        | some m => exact ⟨x :: m, rfl⟩

/-- **C27** A text that is encodable in cp1252 and does not begin or end with NUL round-trips. -/
theorem C27_string_roundtrip (s : PyStr) (hs : Is1252 s) (hn : NoOuterNul s) :
    RoundTrips compileString parseString s := by
  obtain ⟨b, hb, hr⟩ := encAll_strAll hs
  refine roundTrips_of_encAll ⟨b, hb, ?_⟩
  show (readStrAll >>= _) b = _
  rw [R.bind_of_ok hr, stripNul_id hn]; rfl

/-- **C27** Every string entry that can be decoded yields its text without outer NULs, and that text
compiles and parses back to itself. -/
theorem C27_string_stable : Stable compileString parseString := by
  refine stable_of_post (P := fun _ s => Is1252 s ∧ NoOuterNul s) (fun N => ?_)
    fun _ s _ h => C27_string_roundtrip s h.1 h.2
  refine Post.bind post_strAll fun s hs => Post.pure ⟨?_, stripNul_noOuter s⟩
  rw [is1252_iff]
  intro c hc
  exact (is1252_iff s).1 hs.1 c ((stripNul_sublist s).subset hc)

/-- **C27** The parsed text is the stored text without NULs at either end and otherwise complete. -/
theorem C27_string_content (pre post : Nat) (s : PyStr) (b : Bytes) (h : encode1252 s = .ok b) (hn : NoOuterNul s)
    (hne : s ≠ []) :
    parseEntry parseString (List.replicate pre 0 ++ b ++ List.replicate post 0) = .ok s := by
  have hz : ∀ n, encode1252 (List.replicate n 0) = .ok (List.replicate n 0) := by
    intro n
    unfold encode1252 encodeWith
    have : List.mapM cp1252Encode (List.replicate n 0) = some (List.replicate n 0) := by
      induction n with
      | zero => rfl
      | succ n ih => rw [List.replicate_succ, List.mapM_cons, ih]; rfl
    rw [this]
  have happ : ∀ s t : PyStr, ∀ b c, encode1252 s = .ok b → encode1252 t = .ok c → encode1252 (s ++ t) = .ok (b ++ c) := by
    intro s t b c h1 h2
    unfold encode1252 encodeWith at *
    rw [List.mapM_append]
    cases h3 : List.mapM cp1252Encode s with
    | none => rw [h3] at h1; cases h1
    | some x =>
      cases h4 : List.mapM cp1252Encode t with
      | none => rw [h4] at h2; cases h2
      | some y => rw [h3] at h1; rw [h4] at h2; cases h1; cases h2; rfl
  have hd := decode_encode1252 (happ _ _ _ _ (happ _ _ _ _ (hz pre) h) (hz post))
  rw [parseEntry_ok]
  show ((R.readAll >>= _) >>= _) _ = _
  rw [R.bind_run, R.bind_run]
  simp only [R.readAll, hd, R.lift_ok]
  have hstrip : stripNul (List.replicate pre 0 ++ s ++ List.replicate post 0) = s := by
    unfold stripNul
    have hdr : ∀ n (t : PyStr), t.head? ≠ some 0 → (List.replicate n 0 ++ t).dropWhile (· == 0) = t := by
      intro n t ht
      induction n with
      | zero => simpa using dropWhile_of_head ht
      | succ n ih => rw [List.replicate_succ, List.cons_append, List.dropWhile_cons]; simpa using ih
    have h1 : (s ++ List.replicate post 0).head? ≠ some 0 := by
      cases s with
      | nil => exact absurd rfl hne
      | cons c s => exact hn.1
    rw [List.append_assoc, hdr _ _ h1, List.reverse_append, List.reverse_replicate,
      hdr _ _ (by rw [List.head?_reverse]; exact hn.2), List.reverse_reverse]
  rw [hstrip]; rfl

/-- **C27** The vendor id round-trips; at least four bytes are stored. -/
theorem C27_vendor_roundtrip (s : PyStr) (hs : Is1252 s) (hn : NoOuterNul s) :
    ∃ payload, compileVendorId s = .ok payload ∧ payload.length = max 4 s.length ∧
      parseEntry parseString payload = .ok s := by
  obtain ⟨b, hb⟩ := hs
  have hl := encode1252_length hb
  have hw : compileVendorId s = .ok (b ++ List.replicate (4 - b.length) 0) := by
    simp only [compileVendorId, writeStr, Option.getD_some, hb, W.withVal_ok]
    split
    · rfl
    · have : 4 - b.length = 0 := by omega
      rw [this]; simp
  refine ⟨_, hw, by simp; omega, ?_⟩
  by_cases hne : s = []
  · subst hne
    cases hb
    decide
  · have := C27_string_content 0 (4 - b.length) s b hb hn hne
    simpa using this

theorem C27_vendor_stable : Stable compileVendorId parseString := by
  refine stable_of_post (P := fun _ s => Is1252 s ∧ NoOuterNul s) (fun N => ?_) fun _ s _ h => ?_
  · refine Post.bind post_strAll fun s hs => Post.pure ⟨?_, stripNul_noOuter s⟩
    rw [is1252_iff]
    intro c hc
    exact (is1252_iff s).1 hs.1 c ((stripNul_sublist s).subset hc)
  · obtain ⟨p, h1, _, h2⟩ := C27_vendor_roundtrip s h.1 h.2
    exact ⟨p, h1, h2⟩

example : RoundTrips compileString parseString (lit "Größe – €") :=
  C27_string_roundtrip _ ((is1252_iff _).2 (by
    have : ∀ c ∈ lit "Größe – €", (cp1252Encode c).isSome = true := by decide
    intro c hc
    exact Option.isSome_iff_exists.1 (this c hc))) (by decide)

/-- **C27** (finding) Two entry types are read as text but compiled as hex string: a payload that is
not itself hex text cannot be written again, and one that is changes. -/
theorem C27_string_hex_mismatch :
    parseEntry parseString [0x41] = .ok [0x41] ∧ compileHex (some [0x41]) = .error .value ∧
    parseEntry parseString [0x34, 0x31] = .ok [0x34, 0x31] ∧ compileHex (some [0x34, 0x31]) = .ok [0x41] := by
  decide

/-! ## C27 feature code -/

theorem isLineBreak_eq (c : Nat) : isLineBreak c = lineEnds.contains c := by
  rw [Bool.eq_iff_iff]
  simp only [isLineBreak, lineEnds, Bool.or_eq_true, beq_iff_eq, List.contains_iff_mem, List.mem_cons, List.not_mem_nil, or_false]
  omega

theorem isLineBreak_false {c : Nat} : isLineBreak c = false ↔ c ∉ lineEnds := by
  rw [isLineBreak_eq, ← Bool.not_eq_true, List.contains_iff_mem]

theorem isLineBreak_true {c : Nat} : isLineBreak c = true ↔ c ∈ lineEnds := by
  rw [isLineBreak_eq, List.contains_iff_mem]

theorem isSpaceChar_eq : isSpaceChar = whiteSpace.contains := by
  funext c
  rw [Bool.eq_iff_iff]
  simp only [isSpaceChar, whiteSpace, Bool.or_eq_true, Bool.and_eq_true, decide_eq_true_eq, beq_iff_eq,
    List.contains_iff_mem, List.mem_cons, List.not_mem_nil, or_false]
  omega

theorem isBlank_eq : isBlank = blankLine := by
  funext l
  rw [isBlank, blankLine, isSpaceChar_eq]

theorem splitLinesAux_splits (s : PyStr) : ∀ cur : PyStr, (∀ c ∈ cur, c ∉ lineEnds) →
    SplitsTo (cur ++ s) (splitLinesAux cur s) := by
  induction hn : s.length using Nat.strongRecOn generalizing s with
  | ind n ih =>
    intro cur hcur
    match s, hn with
    | [], _ =>
      rw [splitLinesAux, List.append_nil]
      by_cases hc : cur = []
      · rw [if_pos hc, hc]; exact .done
      · rw [if_neg hc]; exact .last cur hc hcur
    | [x], _ =>
      rw [splitLinesAux]
      by_cases hx : isLineBreak x = true
      · rw [if_pos hx]
        exact .line cur [] [] x hcur (isLineBreak_true.1 hx) (by simp) .done
      · rw [if_neg hx]
        refine .last _ (by simp) fun c hc => ?_
        rcases List.mem_append.1 hc with hc | hc
        · exact hcur c hc
        · rw [List.mem_singleton] at hc; subst hc
          exact fun h => hx (isLineBreak_true.2 h)
    | x :: y :: t, hn =>
      simp only [List.length_cons] at hn
      rw [splitLinesAux]
      by_cases hxy : x = 13 ∧ y = 10
      · rw [if_pos hxy, hxy.1, hxy.2]
        exact .crlf cur t _ hcur (by simpa using ih t.length (by omega) t rfl [] (by simp))
      · rw [if_neg hxy]
        by_cases hx : isLineBreak x = true
        · rw [if_pos hx]
          refine .line cur (y :: t) _ x hcur (isLineBreak_true.1 hx) (by simpa using hxy) ?_
          simpa using ih (y :: t).length (by simp only [List.length_cons]; omega) (y :: t) rfl [] (by simp)
        · rw [if_neg hx]
          have := ih (y :: t).length (by simp only [List.length_cons]; omega) (y :: t) rfl (cur ++ [x]) (by
            intro c hc
            rcases List.mem_append.1 hc with hc | hc
            · exact hcur c hc
            · rw [List.mem_singleton] at hc; subst hc
              exact fun h => hx (isLineBreak_true.2 h))
          simpa using this

theorem splitLinesAux_char {c : Nat} (hc : isLineBreak c = false) (cur s : PyStr) :
    splitLinesAux cur (c :: s) = splitLinesAux (cur ++ [c]) s := by
  have h13 : c ≠ 13 := by rintro rfl; exact absurd hc (by decide)
  cases s with
  | nil => simp [splitLinesAux, hc]
  | cons d s => rw [splitLinesAux, if_neg (by simp [h13]), hc]; rfl

theorem splitLinesAux_nl (cur s : PyStr) : splitLinesAux cur (10 :: s) = cur :: splitLinesAux [] s := by
  cases s with
  | nil => simp [splitLinesAux, isLineBreak]
  | cons d s => rw [splitLinesAux, if_neg (by simp), if_pos (by decide)]

theorem splitLinesAux_line (l cur rest : PyStr) (h : ∀ c ∈ l, isLineBreak c = false) :
    splitLinesAux cur (l ++ 10 :: rest) = (cur ++ l) :: splitLinesAux [] rest := by
  induction l generalizing cur with
  | nil => simpa using splitLinesAux_nl cur rest
  | cons c l ih =>
    rw [List.cons_append, splitLinesAux_char (h c List.mem_cons_self),
      ih _ fun d hd => h d (List.mem_cons_of_mem _ hd)]
    simp

theorem joinLines_body (body : List PyStr) : joinLines (body ++ [[]]) = body.flatMap (· ++ [10]) := by
  induction body with
  | nil => rfl
  | cons l body ih =>
    cases body with
    | nil => simp [joinLines]
    | cons m body =>
      simp only [List.cons_append, List.flatMap_cons] at ih ⊢
      rw [joinLines, ih]
      simp

theorem splitLines_join (body : List PyStr) (h : ∀ l ∈ body, ∀ c ∈ l, isLineBreak c = false) :
    splitLines (joinLines (body ++ [[]])) = body := by
  rw [joinLines_body, splitLines]
  induction body with
  | nil => rfl
  | cons l body ih =>
    rw [List.flatMap_cons, List.append_assoc, List.singleton_append,
      splitLinesAux_line _ _ _ (h l List.mem_cons_self), ih fun m hm => h m (List.mem_cons_of_mem _ hm)]
    rfl

theorem splitLinesAux_mem (s : PyStr) : ∀ (cur : PyStr) (l : PyStr), l ∈ splitLinesAux cur s →
    ∀ c ∈ l, c ∈ cur ∨ (c ∈ s ∧ isLineBreak c = false) := by
  induction hn : s.length using Nat.strongRecOn generalizing s with
  | ind n ih =>
    intro cur l hl c hc
    match s, hn with
    | [], _ =>
      rw [splitLinesAux] at hl
      split at hl
      · cases hl
      · rw [List.mem_singleton] at hl; subst hl; exact Or.inl hc
    | [x], _ =>
      rw [splitLinesAux] at hl
      split at hl
      · rw [List.mem_singleton] at hl; subst hl; exact Or.inl hc
      · next hx =>
        rw [List.mem_singleton] at hl; subst hl
        rcases List.mem_append.1 hc with hc | hc
        · exact Or.inl hc
        · rw [List.mem_singleton] at hc; subst hc
          exact Or.inr ⟨List.mem_cons_self, by simpa using hx⟩
    | x :: y :: t, hn =>
      simp only [List.length_cons] at hn
      rw [splitLinesAux] at hl
      split at hl
      · rcases List.mem_cons.1 hl with rfl | hl
        · exact Or.inl hc
        · rcases ih t.length (by omega) t rfl [] l hl c hc with h | ⟨h1, h2⟩
          · cases h
          · exact Or.inr ⟨by simp [h1], h2⟩
      · split at hl
        · rcases List.mem_cons.1 hl with rfl | hl
          · exact Or.inl hc
          · rcases ih (y :: t).length (by simp only [List.length_cons]; omega) (y :: t) rfl [] l hl c hc with h | ⟨h1, h2⟩
            · cases h
            · exact Or.inr ⟨List.mem_cons_of_mem _ h1, h2⟩
        · next hx =>
          rcases ih (y :: t).length (by simp only [List.length_cons]; omega) (y :: t) rfl _ l hl c hc with h | ⟨h1, h2⟩
          · rcases List.mem_append.1 h with h | h
            · exact Or.inl h
            · rw [List.mem_singleton] at h; subst h
              exact Or.inr ⟨List.mem_cons_self, by simpa using hx⟩
          · exact Or.inr ⟨List.mem_cons_of_mem _ h1, h2⟩

theorem filterBlank_id (l : List PyStr) (c : Nat) (h : BlankRuns c l) : filterBlank c l = l := by
  induction l generalizing c with
  | nil => rfl
  | cons x l ih =>
    rw [filterBlank, isBlank_eq]
    rw [BlankRuns] at h
    split
    · next hb =>
      rw [if_pos hb] at h
      rw [if_pos h.1, ih _ h.2]
    · next hb =>
      rw [if_neg hb] at h
      rw [ih _ h]

theorem filterBlank_runs_aux (l : List PyStr) :
    (∀ c, BlankRuns c (filterBlank c l)) ∧ ∀ c d, 2 ≤ c → 2 ≤ d → BlankRuns d (filterBlank c l) := by
  induction l with
  | nil => exact ⟨fun _ => trivial, fun _ _ _ _ => trivial⟩
  | cons x l ih =>
    obtain ⟨ih1, ih2⟩ := ih
    constructor
    · intro c
      rw [filterBlank, isBlank_eq]
      split
      · next hb =>
        split
        · next hc => rw [BlankRuns, if_pos hb]; exact ⟨hc, ih1 _⟩
        · next hc => exact ih2 _ _ (by omega) (by omega)
      · next hb => rw [BlankRuns, if_neg hb]; exact ih1 0
    · intro c d hc hd
      rw [filterBlank, isBlank_eq]
      split
      · rw [if_neg (by omega)]; exact ih2 _ _ (by omega) hd
      · next hy => rw [BlankRuns, if_neg hy]; exact ih1 0

theorem filterBlank_runs (l : List PyStr) (c : Nat) : BlankRuns c (filterBlank c l) :=
  (filterBlank_runs_aux l).1 c

theorem filterBlank_sub (l : List PyStr) (c : Nat) : ∀ x ∈ filterBlank c l, x ∈ l := by
  induction l generalizing c with
  | nil => simp [filterBlank]
  | cons y l ih =>
    intro x hx
    rw [filterBlank] at hx
    split at hx
    · split at hx
      · rcases List.mem_cons.1 hx with rfl | hx
        · simp
        · exact List.mem_cons_of_mem _ (ih _ x hx)
      · exact List.mem_cons_of_mem _ (ih _ x hx)
    · rcases List.mem_cons.1 hx with rfl | hx
      · simp
      · exact List.mem_cons_of_mem _ (ih _ x hx)

theorem blankRuns_prefix {l m : List PyStr} {c : Nat} (h : BlankRuns c (l ++ m)) : BlankRuns c l := by
  induction l generalizing c with
  | nil => trivial
  | cons x l ih =>
    rw [List.cons_append, BlankRuns] at h
    rw [BlankRuns]
    split
    · next hb => rw [if_pos hb] at h; exact ⟨h.1, ih h.2⟩
    · next hb => rw [if_neg hb] at h; exact ih h

theorem popEmpty_ok {l m : List PyStr} (h : popEmpty l = .ok m) :
    (∃ t, l = m ++ t) ∧ m.getLast? ≠ some [] := by
  unfold popEmpty at h
  have hs : (l.reverse.dropWhile (· == [])) <:+ l.reverse := List.dropWhile_suffix _
  have hh : (l.reverse.dropWhile (· == [])).head? ≠ some [] := by
    generalize l.reverse = r
    induction r with
    | nil => simp
    | cons x r ih =>
      rw [List.dropWhile_cons]
      split
      · exact ih
      · next hx =>
        intro e
        simp only [List.head?_cons, Option.some.injEq] at e
        subst e; simp at hx
  obtain ⟨pre, hp⟩ := hs
  have hl : l = (l.reverse.dropWhile (· == [])).reverse ++ pre.reverse := by
    rw [← List.reverse_append, hp, List.reverse_reverse]
  split at h
  · cases h
  · cases h
    exact ⟨⟨_, hl⟩, by rw [List.getLast?_reverse]; exact hh⟩

theorem popEmpty_id {l : List PyStr} (hne : l ≠ []) (h : l.getLast? ≠ some []) : popEmpty l = .ok l := by
  have hd : l.reverse.dropWhile (· == []) = l.reverse := by
    have h : l.reverse.head? ≠ some [] := by rw [List.head?_reverse]; exact h
    cases hr : l.reverse with
    | nil => rfl
    | cons x r =>
      rw [hr] at h
      rw [List.dropWhile_cons, if_neg]
      simp only [List.head?_cons, ne_eq, Option.some.injEq] at h
      simpa using h
  unfold popEmpty
  rw [hd, List.reverse_reverse]
  cases l with
  | nil => exact absurd rfl hne
  | cons x l => rfl

theorem normaliseFea_normal {lines : List PyStr} (h : FeaNormal lines) :
    normaliseFea (joinLines lines) = .ok lines := by
  obtain ⟨body, rfl, h1, h2, h3⟩ := h
  unfold normaliseFea
  rw [splitLines_join body fun l hl c hc => isLineBreak_false.2 (h1 l hl c hc), filterBlank_id body 0 h2]
  simp only
  split
  · next hl =>
    rw [popEmpty_id (by rintro rfl; simp at hl) (h3 hl)]
  · rfl

theorem normaliseFea_post {s : PyStr} {lines : List PyStr} (h : normaliseFea s = .ok lines) :
    FeaNormal lines ∧ ∀ l ∈ lines, ∀ c ∈ l, c ∈ s := by
  have hsub : ∀ l ∈ filterBlank 0 (splitLines s), ∀ c ∈ l, c ∈ s ∧ isLineBreak c = false := by
    intro l hl c hc
    rcases splitLinesAux_mem s [] l (filterBlank_sub _ _ l hl) c hc with h | h
    · cases h
    · exact h
  have hruns := filterBlank_runs (splitLines s) 0
  unfold normaliseFea at h
  generalize filterBlank 0 (splitLines s) = ls at *
  simp only at h
  split at h
  · next hl =>
    cases hp : popEmpty ls with
    | error e => rw [hp] at h; cases h
    | ok m =>
      rw [hp] at h
      cases h
      obtain ⟨⟨t, rfl⟩, hlast⟩ := popEmpty_ok hp
      refine ⟨⟨m, rfl, fun l hl c hc => isLineBreak_false.1 (hsub l (List.mem_append_left _ hl) c hc).2, blankRuns_prefix hruns, fun _ => hlast⟩, ?_⟩
      intro l hl c hc
      rcases List.mem_append.1 hl with hl | hl
      · exact (hsub l (List.mem_append_left _ hl) c hc).1
      · rw [List.mem_singleton] at hl; subst hl; cases hc
  · next hl =>
    cases h
    refine ⟨⟨ls, rfl, fun l hl c hc => isLineBreak_false.1 (hsub l hl c hc).2, hruns, fun h => absurd h hl⟩, ?_⟩
    intro l hl c hc
    rcases List.mem_append.1 hl with hl | hl
    · exact (hsub l hl c hc).1
    · rw [List.mem_singleton] at hl; subst hl; cases hc

theorem mem_joinLines {lines : List PyStr} {c : Nat} (h : c ∈ joinLines lines) :
    c = 10 ∨ ∃ l ∈ lines, c ∈ l := by
  induction lines with
  | nil => cases h
  | cons l ls ih =>
    cases ls with
    | nil => exact Or.inr ⟨l, List.mem_cons_self, h⟩
    | cons m ls =>
      rw [joinLines] at h
      rcases List.mem_append.1 h with h | h
      · exact Or.inr ⟨l, List.mem_cons_self, h⟩
      · rcases List.mem_cons.1 h with h | h
        · exact Or.inl h
        · rcases ih h with h | ⟨k, hk, h⟩
          · exact Or.inl h
          · exact Or.inr ⟨k, List.mem_cons_of_mem _ hk, h⟩

/-- **C27** Normalised feature code of encodable characters round-trips. -/
theorem C27_fea_roundtrip (lines : List PyStr) (h : FeaNormal lines)
    (he : ∀ l ∈ lines, ∀ c ∈ l, ∃ b, cp1252Encode c = some b) : RoundTrips compileFea parseFea lines := by
  have hs : Is1252 (joinLines lines) := by
    rw [is1252_iff]
    intro c hc
    rcases mem_joinLines hc with rfl | ⟨l, hl, hc⟩
    · exact ⟨10, rfl⟩
    · exact he l hl c hc
  obtain ⟨b, hb, hr⟩ := encAll_strAll hs
  refine roundTrips_of_encAll ⟨b, hb, ?_⟩
  show (readStrAll >>= _) b = _
  rw [R.bind_of_ok hr, normaliseFea_normal h]; rfl

/-- **C27** Every feature text that is parsed at all is parsed to normalised code, and compiling and
parsing that again changes nothing more. -/
theorem C27_fea_stable : Stable compileFea parseFea ∧
    ∀ payload lines, parseEntry parseFea payload = .ok lines → FeaNormal lines := by
  have hp : ∀ N, Post N parseFea fun lines => FeaNormal lines ∧ ∀ l ∈ lines, ∀ c ∈ l, ∃ b, cp1252Encode c = some b := by
    intro N
    refine Post.bind post_strAll fun s hs => Post.lift fun lines hl => ?_
    obtain ⟨h1, h2⟩ := normaliseFea_post hl
    exact ⟨h1, fun l hl c hc => (is1252_iff s).1 hs.1 c (h2 l hl c hc)⟩
  exact ⟨stable_of_post hp fun _ l _ h => C27_fea_roundtrip l h.1 h.2,
    fun payload lines h => (parseEntry_post (hp _) h).1⟩

theorem fea_keeps_code (s : PyStr) (lines : List PyStr) (h : normaliseFea s = .ok lines) :
    lines.filter (fun l => !isBlank l) = (splitLines s).filter (fun l => !isBlank l) := by
  have hf : ∀ (l : List PyStr) (c : Nat), (filterBlank c l).filter (fun l => !isBlank l) = l.filter (fun l => !isBlank l) := by
    intro l
    induction l with
    | nil => intro c; rfl
    | cons x l ih =>
      intro c
      rw [filterBlank]
      split
      · next hb =>
        split <;> simp [hb, ih]
      · next hb => simp [hb, ih]
  rw [← hf (splitLines s) 0]
  unfold normaliseFea at h
  generalize filterBlank 0 (splitLines s) = ls at *
  simp only at h
  have hnil : ([[]] : List PyStr).filter (fun l => !isBlank l) = [] := by decide
  split at h
  · cases hp : popEmpty ls with
    | error e => rw [hp] at h; cases h
    | ok m =>
      rw [hp] at h
      cases h
      rw [List.filter_append, hnil, List.append_nil]
      have : ∃ t, ls = m ++ t ∧ ∀ x ∈ t, x = [] := by
        unfold popEmpty at hp
        have hl : ls = (ls.reverse.dropWhile (· == [])).reverse ++ (ls.reverse.takeWhile (· == [])).reverse := by
          rw [← List.reverse_append, List.takeWhile_append_dropWhile, List.reverse_reverse]
        split at hp
        · cases hp
        · cases hp
          refine ⟨_, hl, fun x hx => ?_⟩
          rw [List.mem_reverse] at hx
          have key : ∀ r : List PyStr, ∀ x ∈ r.takeWhile (· == []), x = [] := by
            intro r
            induction r with
            | nil => simp
            | cons y r ih =>
              intro x hx
              rw [List.takeWhile_cons] at hx
              split at hx
              · next hy =>
                rcases List.mem_cons.1 hx with rfl | hx
                · simpa using hy
                · exact ih x hx
              · cases hx
          exact key _ x hx
      obtain ⟨t, rfl, ht⟩ := this
      rw [List.filter_append]
      have : t.filter (fun l => !isBlank l) = [] := by
        rw [List.filter_eq_nil_iff]
        intro x hx
        rw [ht x hx]; decide
      rw [this, List.append_nil]
  · cases h
    rw [List.filter_append, hnil, List.append_nil]

/-- **C27** The normalisation drops nothing but blank lines: the non-blank lines of the stored text
(as `readStrAll` decodes it) are kept, in order. -/
theorem C27_fea_keeps_code (payload : Bytes) (s : PyStr) (lines : List PyStr)
    (ht : parseEntry readStrAll payload = .ok s) (h : parseEntry parseFea payload = .ok lines) :
    ∃ ls, SplitsTo s ls ∧ lines.filter (fun l => !blankLine l) = ls.filter (fun l => !blankLine l) := by
  refine ⟨splitLines s, splitLinesAux_splits s [] (by simp), ?_⟩
  rw [← isBlank_eq]
  refine fea_keeps_code s lines ?_
  unfold parseEntry parseFea at *
  cases hr : readStrAll payload with
  | ok x rest =>
    rw [hr] at ht
    rw [R.bind_of_ok hr] at h
    cases rest with
    | cons y ys => cases ht
    | nil =>
      cases ht
      cases hn : normaliseFea s with
      | error e => rw [hn] at h; cases h
      | ok l => rw [hn] at h; cases h; rfl
  | err e rest => rw [hr] at ht; cases ht

/-- the text "a", CR LF, blank, LF, "b" is split into "a", " ", "b" and normalised to these lines -/
example : parseEntry readStrAll [97, 13, 10, 32, 10, 98] = .ok [97, 13, 10, 32, 10, 98] ∧
    parseEntry parseFea [97, 13, 10, 32, 10, 98] = .ok [[97], [32], [98], []] ∧
    SplitsTo [97, 13, 10, 32, 10, 98] [[97], [32], [98]] := by
  refine ⟨by decide, by decide, ?_⟩
  exact .crlf [97] _ _ (by decide) (.line [32] _ _ 10 (by decide) (by decide) (by decide) (.last [98] (by decide) (by decide)))

/-- **C27** (finding) A feature text of two or more line breaks and nothing else cannot be parsed. -/
theorem C27_fea_only_newlines (n : Nat) :
    parseEntry parseFea (List.replicate (n + 2) 10) = .error .index := by
  have hsplit : ∀ n, splitLines (List.replicate n 10) = List.replicate n [] := by
    intro n
    unfold splitLines
    induction n with
    | zero => rfl
    | succ n ih => rw [List.replicate_succ, splitLinesAux_nl, ih]; rfl
  have hfil : ∀ n, filterBlank 2 (List.replicate n []) = [] := by
    have : ∀ n c, 2 ≤ c → filterBlank c (List.replicate n []) = [] := by
      intro n
      induction n with
      | zero => intro c _; rfl
      | succ n ih =>
        intro c hc
        rw [List.replicate_succ, filterBlank, if_pos (by decide), if_neg (by omega)]
        exact ih _ (by omega)
    exact fun n => this n 2 (by omega)
  have hdec : ∀ n, decode1252 (List.replicate n 10) = .ok (List.replicate n 10) := by
    intro n
    unfold decode1252 decodeWith
    have : List.mapM cp1252Decode (List.replicate n 10) = some (List.replicate n 10) := by
      induction n with
      | zero => rfl
      | succ n ih => rw [List.replicate_succ, List.mapM_cons, ih]; rfl
    rw [this]
  unfold parseEntry
  have : parseFea (List.replicate (n + 2) 10) = .err .index [] := by
    show ((R.readAll >>= _) >>= _) _ = _
    rw [R.bind_run, R.bind_run]
    simp only [R.readAll, hdec, R.lift_ok]
    have : normaliseFea (List.replicate (n + 2) 10) = .error .index := by
      unfold normaliseFea
      have hall : filterBlank 0 (List.replicate (n + 2) []) = [[], []] := by
        rw [List.replicate_succ, List.replicate_succ, filterBlank, if_pos (by decide), if_pos (by decide),
          filterBlank, if_pos (by decide), if_pos (by decide), hfil]
      rw [hsplit, hall]
      rfl
    rw [this]; rfl
  rw [this]

example : FeaNormal [lit "feature liga {", [], lit "} liga;", []] :=
  ⟨[lit "feature liga {", [], lit "} liga;"], rfl, by decide, by
    simp only [BlankRuns]
    rw [if_neg (by decide), if_pos (by decide), if_neg (by decide)]
    exact ⟨by omega, trivial⟩, by decide⟩

/-! ## C28 name records -/

theorem nameChars_ord {mac : Bool} {s : PyStr}
    (h : if mac = true then ∀ c ∈ s, ∃ b, macRomanEncode c = some b else ∀ c ∈ s, c ≤ 0x10FFFF) :
    nameChars mac (s.map (nameOrd mac)) = .ok s ∧ ∀ v ∈ s.map (nameOrd mac), ValOk true v := by
  induction s with
  | nil => exact ⟨rfl, by simp⟩
  | cons c s ih =>
    have hs := ih (by
      cases mac
      · exact fun d hd => h d (List.mem_cons_of_mem _ hd)
      · exact fun d hd => h d (List.mem_cons_of_mem _ hd))
    have hc : nameChar mac (nameOrd mac c) = .ok c ∧ ValOk true (nameOrd mac c) := by
      cases mac with
      | false =>
        have := h c List.mem_cons_self
        refine ⟨?_, ?_⟩
        · simp only [nameOrd, nameChar, Bool.false_eq_true, if_false]
          rw [if_neg (by omega)]; simp
        · simp only [nameOrd, Bool.false_eq_true, if_false, ValOk]; omega
      | true =>
        obtain ⟨b, hb⟩ := h c List.mem_cons_self
        have hlt := b.toNat_lt
        refine ⟨?_, ?_⟩
        · simp only [nameOrd, nameChar, if_true, hb]
          rw [if_neg (by omega), if_neg (by omega)]
          have : UInt8.ofNat ((b.toNat : Int)).toNat = b := by simp
          rw [this, macRoman_decode_encode c b hb]
        · simp only [nameOrd, if_true, hb, ValOk]; omega
    refine ⟨?_, ?_⟩
    · rw [List.map_cons, nameChars, hc.1, hs.1]
    · intro v hv
      rw [List.map_cons] at hv
      rcases List.mem_cons.1 hv with rfl | hv
      · exact hc.2
      · exact hs.2 v hv

theorem isMac_iff (r : NameRecord) : (r.platID == 1 && r.encID == 0) = true ↔ (r.platID = 1 ∧ r.encID = 0) := by
  simp

theorem W.all_map {α β : Type} (xs : List α) (g : α → β) (f : β → W) :
    W.all (xs.map g) f = W.all xs fun x => f (g x) := by
  induction xs with
  | nil => rfl
  | cons x xs ih => rw [List.map_cons, W.all_cons, W.all_cons, ih]

theorem enc_nameRecord {r : NameRecord} (h : NameOk r) : Enc (compileNameRecord r) parseNameRecord r := by
  obtain ⟨h1, h2, h3, h4, h5, h6⟩ := h
  have hm : if (r.platID == 1 && r.encID == 0) = true then ∀ c ∈ r.name, ∃ b, macRomanEncode c = some b
      else ∀ c ∈ r.name, c ≤ 0x10FFFF := by
    split at h6
    · next hm => rw [if_pos ((isMac_iff r).2 hm)]; exact h6
    · next hm => rw [if_neg (fun h => hm ((isMac_iff r).1 h))]; exact h6
  obtain ⟨hn1, hn2⟩ := nameChars_ord hm
  unfold compileNameRecord parseNameRecord
  simp only [W.seq_assoc]
  refine Enc.bind (enc_value (valOk_iff.2 h1)) ?_
  refine Enc.bind (enc_value (valOk_iff.2 h2)) ?_
  refine Enc.bind (enc_value (valOk_iff.2 h3)) ?_
  refine Enc.bind (enc_value (valOk_iff.2 h4)) ?_
  refine Enc.bind (enc_value (by simp only [ValOk]; omega)) ?_
  rw [← W.all_map r.name (nameOrd (r.platID == 1 && r.encID == 0)) fun v => writeValue v]
  refine Enc.last (Enc.forRange (by simp) fun v hv => enc_value (hn2 v hv)) ?_
  rw [hn1]; rfl

/-- **C28** Name records round-trip: numbers of 32 bits, Mac Roman characters in Mac records, any code
points in the others. -/
theorem C28_names_roundtrip (l : List NameRecord) (hl : l.length < 2147483648) (h : ∀ r ∈ l, NameOk r) :
    RoundTrips compileNameRecords parseNameRecords l := by
  refine roundTrips_of_enc ?_
  unfold compileNameRecords parseNameRecords
  refine Enc.bind (enc_value (by simp only [ValOk]; omega)) ?_
  exact Enc.forRange rfl fun r hr => enc_nameRecord (h r hr)

theorem nameChars_post {mac : Bool} {cs : List Int} {s : PyStr} (h : nameChars mac cs = .ok s) :
    s.length = cs.length ∧
    if mac = true then ∀ c ∈ s, c ≠ 0xFEFF → ∃ b, macRomanEncode c = some b else ∀ c ∈ s, c ≤ 0x10FFFF := by
  induction cs generalizing s with
  | nil => cases h; refine ⟨rfl, ?_⟩; split <;> simp
  | cons c cs ih =>
    rw [nameChars] at h
    cases hc : nameChar mac c with
    | error e => rw [hc] at h; cases h
    | ok x =>
      cases hs : nameChars mac cs with
      | error e => rw [hc, hs] at h; cases h
      | ok xs =>
        rw [hc, hs] at h
        cases h
        obtain ⟨hl, hr⟩ := ih hs
        refine ⟨by simp [hl], ?_⟩
        unfold nameChar at hc
        cases mac with
        | false =>
          simp only [Bool.false_eq_true, if_false] at hc hr ⊢
          intro d hd
          rcases List.mem_cons.1 hd with rfl | hd
          · split at hc
            · cases hc; omega
            · cases hc; omega
          · exact hr d hd
        | true =>
          simp only [if_true] at hc hr ⊢
          intro d hd
          rcases List.mem_cons.1 hd with rfl | hd
          · intro hne
            split at hc
            · cases hc; exact absurd rfl hne
            · split at hc
              · cases hc
              · split at hc
                · next y hy => cases hc; exact ⟨_, macRoman_encode_decode _ _ hy⟩
                · cases hc; exact absurd rfl hne
          · exact hr d hd

/-- what parsed name records look like -/
theorem post_names (N : Nat) : Post N parseNameRecords fun l => l.length < 2147483648 ∧ ∀ r ∈ l,
    IsInt32 r.nameID ∧ IsInt32 r.platID ∧ IsInt32 r.encID ∧ IsInt32 r.langID ∧ r.name.length < 2147483648 ∧
      if r.platID = 1 ∧ r.encID = 0 then ∀ c ∈ r.name, c ≠ 0xFEFF → ∃ b, macRomanEncode c = some b
      else ∀ c ∈ r.name, c ≤ 0x10FFFF := by
  refine Post.bind (post_value true) fun num hnum => ?_
  refine (Post.forRange (P := fun r => IsInt32 r.nameID ∧ IsInt32 r.platID ∧ IsInt32 r.encID ∧ IsInt32 r.langID ∧ r.name.length < 2147483648 ∧
      if r.platID = 1 ∧ r.encID = 0 then ∀ c ∈ r.name, c ≠ 0xFEFF → ∃ b, macRomanEncode c = some b
      else ∀ c ∈ r.name, c ≤ 0x10FFFF) ?_ num).mono
    fun l hl => ⟨by rw [hl.1]; simp only [ValOk] at hnum; omega, hl.2⟩
  unfold parseNameRecord
  refine Post.bind (post_value true) fun a h1 => ?_
  refine Post.bind (post_value true) fun b h2 => ?_
  refine Post.bind (post_value true) fun c h3 => ?_
  refine Post.bind (post_value true) fun d h4 => ?_
  refine Post.bind (post_value true) fun n h5 => ?_
  refine Post.bind (Post.forRange (post_value true) n) fun codes h6 => ?_
  refine Post.bind (Post.lift fun s hs => nameChars_post hs) fun s hs => Post.pure ?_
  refine ⟨valOk_iff.1 h1, valOk_iff.1 h2, valOk_iff.1 h3, valOk_iff.1 h4, ?_, ?_⟩
  · simp only [ValOk] at h5
    rw [hs.1, h6.1]; omega
  · have hs2 := hs.2
    by_cases hm : b = 1 ∧ c = 0
    · rw [if_pos hm]
      rw [if_pos (by simpa using hm)] at hs2
      exact hs2
    · rw [if_neg hm]
      rw [if_neg (by simpa using hm)] at hs2
      exact hs2

/-- **C28** Parsed name records can be compiled and parsed again unless a Mac record contains the
replacement U+FEFF that the parser inserts for an invalid (negative) character code. -/
theorem C28_names_stable_when :
    StableWhen compileNameRecords parseNameRecords
      (fun l => ∀ r ∈ l, r.platID = 1 → r.encID = 0 → 0xFEFF ∉ r.name) := by
  refine stableWhen_of_post post_names fun _ l _ h hc => C28_names_roundtrip l h.1 fun r hr => ?_
  obtain ⟨h1, h2, h3, h4, h5, h6⟩ := h.2 r hr
  refine ⟨h1, h2, h3, h4, h5, ?_⟩
  by_cases hm : r.platID = 1 ∧ r.encID = 0
  · rw [if_pos hm] at h6 ⊢
    exact fun c hcm => h6 c hcm fun e => hc r hr hm.1 hm.2 (e ▸ hcm)
  · rw [if_neg hm] at h6 ⊢
    exact h6

/-- **C28** (finding) the exception is real: a Mac record with character code -1 parses to U+FEFF,
which is written as "?". -/
theorem C28_names_not_stable :
    ∃ payload l payload', parseEntry parseNameRecords payload = .ok l ∧ compileNameRecords l = .ok payload' ∧
      ∃ l', parseEntry parseNameRecords payload' = .ok l' ∧ l' ≠ l :=
  ⟨[0x8C, 0x8C, 0x8C, 0x8B, 0x8B, 0x8C, 0x8A], [⟨1, 1, 0, 0, [0xFEFF]⟩],
    [0x8C, 0x8C, 0x8C, 0x8B, 0x8B, 0x8C, 0x8B + 63], by decide, by decide, [⟨1, 1, 0, 0, [63]⟩], by decide, by decide⟩

/-- **C28** (finding) a Mac record with a character code above 255 cannot be parsed at all -/
theorem C28_names_mac_overflow :
    parseEntry parseNameRecords [0x8C, 0x8C, 0x8C, 0x8B, 0x8B, 0x8C, 0xF7, 0xFF] = .error .overflow := by decide

/-- **C28** characters without Mac Roman equivalent are written as "?" in Mac records -/
theorem C28_names_mac_replacement (c : Nat) (h : macRomanEncode c = none) : nameOrd true c = 63 := by
  simp [nameOrd, h]

example : NameOk ⟨1, 1, 0, 0, lit "Größe"⟩ := by
  refine ⟨by decide, by decide, by decide, by decide, by decide, ?_⟩
  rw [if_pos (by decide)]
  have : ∀ c ∈ lit "Größe", (macRomanEncode c).isSome = true := by decide
  intro c hc
  exact Option.isSome_iff_exists.1 (this c hc)

/-! ## C56 splitting feature code -/

theorem feaFold (search : PyStr → Option PyStr) (data : List PyStr) :
    let st := data.foldl (feaStep search) {}
    if st.inPrefix = true then
      st.prefix_ = data ∧ st.fea = ⟨[], []⟩ ∧ st.feature = [] ∧ ∀ l ∈ data, search (stripComment l) = none
    else
      st.fea.prefix_ ++ (st.fea.features.flatMap Prod.snd) ++ st.feature = data ∧
      (∀ p ∈ st.fea.features ++ [(st.tag, st.feature)], ∃ h t, p.2 = h :: t ∧ search (stripComment h) = some p.1 ∧
        ∀ l ∈ t, search (stripComment l) = none) ∧ ∀ l ∈ st.fea.prefix_, search (stripComment l) = none := by
  suffices H : ∀ rev : List PyStr, let st := rev.reverse.foldl (feaStep search) {}
      if st.inPrefix = true then
        st.prefix_ = rev.reverse ∧ st.fea = ⟨[], []⟩ ∧ st.feature = [] ∧ ∀ l ∈ rev, search (stripComment l) = none
      else
        st.fea.prefix_ ++ (st.fea.features.flatMap Prod.snd) ++ st.feature = rev.reverse ∧
        (∀ p ∈ st.fea.features ++ [(st.tag, st.feature)], ∃ h t, p.2 = h :: t ∧ search (stripComment h) = some p.1 ∧
          ∀ l ∈ t, search (stripComment l) = none) ∧ ∀ l ∈ st.fea.prefix_, search (stripComment l) = none by
    have := H data.reverse
    simpa using this
  intro rev
  induction rev with
  | nil => simp
  | cons x rev ih =>
    simp only [List.reverse_cons, List.foldl_append, List.foldl_cons, List.foldl_nil] at ih ⊢
    generalize List.foldl (feaStep search) {} rev.reverse = st at *
    unfold feaStep
    cases hs : search (stripComment x) with
    | none =>
      simp only
      cases hp : st.inPrefix with
      | true =>
        rw [hp] at ih
        simp only [if_true] at ih ⊢
        refine ⟨by rw [ih.1], ih.2.1, ih.2.2.1, ?_⟩
        intro l hl
        rcases List.mem_cons.1 hl with rfl | hl
        · exact hs
        · exact ih.2.2.2 l hl
      | false =>
        rw [hp] at ih
        simp only [Bool.false_eq_true, if_false] at ih ⊢
        obtain ⟨h1, h2, h3⟩ := ih
        refine ⟨by rw [← h1]; simp, ?_, h3⟩
        intro p hpm
        rcases List.mem_append.1 hpm with hpm | hpm
        · exact h2 p (List.mem_append_left _ hpm)
        · rw [List.mem_singleton] at hpm
          subst hpm
          obtain ⟨h, t, e1, e2, e3⟩ := h2 (st.tag, st.feature) (List.mem_append_right _ (by simp))
          refine ⟨h, t ++ [x], ?_, e2, ?_⟩
          · simp only at e1 ⊢; rw [e1]; rfl
          · intro l hl
            rcases List.mem_append.1 hl with hl | hl
            · exact e3 l hl
            · rw [List.mem_singleton] at hl; subst hl; exact hs
    | some tg =>
      simp only
      cases hp : st.inPrefix with
      | true =>
        rw [hp] at ih
        simp only [if_true, Bool.false_eq_true, if_false] at ih ⊢
        obtain ⟨h1, h2, h3, h4⟩ := ih
        rw [h2]
        refine ⟨by simp [h1], ?_, ?_⟩
        · intro p hpm
          simp only [List.nil_append, List.mem_singleton] at hpm
          subst hpm
          exact ⟨x, [], rfl, hs, by simp⟩
        · intro l hl
          rw [h1, List.mem_reverse] at hl
          exact h4 l hl
      | false =>
        rw [hp] at ih
        simp only [Bool.false_eq_true, if_false] at ih ⊢
        obtain ⟨h1, h2, h3⟩ := ih
        refine ⟨by rw [← h1]; simp, ?_, h3⟩
        intro p hpm
        rcases List.mem_append.1 hpm with hpm | hpm
        · exact h2 p hpm
        · rw [List.mem_singleton] at hpm
          subst hpm
          exact ⟨x, [], rfl, hs, by simp⟩

theorem stripComment_code (l : PyStr) : CodeOf l (stripComment l) := by
  unfold stripComment CodeOf
  induction l with
  | nil => exact ⟨by simp, Or.inl rfl⟩
  | cons c l ih =>
    by_cases hc : c = 35
    · subst hc
      exact ⟨by simp, Or.inr ⟨l, by simp⟩⟩
    · have ht : List.takeWhile (fun x => x != 35) (c :: l) = c :: List.takeWhile (fun x => x != 35) l := by
        rw [List.takeWhile_cons, if_pos (by simpa using hc)]
      rw [ht]
      refine ⟨fun h => ?_, ?_⟩
      · rcases List.mem_cons.1 h with h | h
        · exact hc h.symm
        · exact ih.1 h
      · rcases ih.2 with h | ⟨m, h⟩
        · exact Or.inl (by rw [← h])
        · exact Or.inr ⟨m, by rw [List.cons_append, ← h]⟩

theorem codeOf_unique {l a b : PyStr} (ha : CodeOf l a) (hb : CodeOf l b) : a = b := by
  induction a generalizing l b with
  | nil =>
    cases b with
    | nil => rfl
    | cons y b =>
      exfalso
      rcases ha.2 with h | ⟨m, h⟩ <;> rcases hb.2 with h' | ⟨n, h'⟩ <;> rw [h] at h' <;> cases h' <;>
        exact hb.1 List.mem_cons_self
  | cons x a ih =>
    cases b with
    | nil =>
      exfalso
      rcases ha.2 with h | ⟨m, h⟩ <;> rcases hb.2 with h' | ⟨n, h'⟩ <;> rw [h] at h' <;> cases h' <;>
        exact ha.1 List.mem_cons_self
    | cons y b =>
      cases l with
      | nil => rcases ha.2 with h | ⟨m, h⟩ <;> cases h
      | cons z l =>
        have h1 : z = x ∧ CodeOf l a := by
          refine ⟨?_, fun h => ha.1 (List.mem_cons_of_mem _ h), ?_⟩
          · rcases ha.2 with h | ⟨m, h⟩ <;> cases h <;> rfl
          · rcases ha.2 with h | ⟨m, h⟩
            · cases h; exact Or.inl rfl
            · cases h; exact Or.inr ⟨m, rfl⟩
        have h2 : z = y ∧ CodeOf l b := by
          refine ⟨?_, fun h => hb.1 (List.mem_cons_of_mem _ h), ?_⟩
          · rcases hb.2 with h | ⟨m, h⟩ <;> cases h <;> rfl
          · rcases hb.2 with h | ⟨m, h⟩
            · cases h; exact Or.inl rfl
            · cases h; exact Or.inr ⟨m, rfl⟩
        rw [← h1.1, ← h2.1, ih h1.2 h2.2]

theorem opens_iff {search : PyStr → Option PyStr} {l t : PyStr} : Opens search l t ↔ search (stripComment l) = some t := by
  constructor
  · rintro ⟨c, hc, h⟩
    rw [codeOf_unique (stripComment_code l) hc]; exact h
  · exact fun h => ⟨_, stripComment_code l, h⟩

theorem opens_none {search : PyStr → Option PyStr} {l : PyStr} :
    (∀ t, ¬ Opens search l t) ↔ search (stripComment l) = none := by
  rw [Option.eq_none_iff_forall_ne_some]
  exact forall_congr' fun t => not_congr opens_iff

/-- **C56** If some line opens a feature, then no line is lost or reordered: prefix and feature codes
together are the input, every feature begins with the line that opens it (whose tag is recorded), and
no other line of the prefix or of a feature opens a feature. -/
theorem C56_fea_dict_complete (search : PyStr → Option PyStr) (data : List PyStr)
    (h : ∃ l ∈ data, ∃ t, Opens search l t) :
    let fea := buildFeaDict search data
    fea.prefix_ ++ fea.features.flatMap Prod.snd = data ∧
    (∀ l ∈ fea.prefix_, ∀ t, ¬ Opens search l t) ∧
    ∀ p ∈ fea.features, ∃ head tail, p.2 = head :: tail ∧ Opens search head p.1 ∧
      ∀ l ∈ tail, ∀ t, ¬ Opens search l t := by
  have := feaFold search data
  simp only [opens_none]
  simp only [opens_iff] at h ⊢
  simp only [buildFeaDict]
  generalize List.foldl (feaStep search) {} data = st at *
  simp only at this
  split at this
  · obtain ⟨l, hl, t, hn⟩ := h
    rw [this.2.2.2 l hl] at hn; cases hn
  · obtain ⟨h1, h2, h3⟩ := this
    exact ⟨by rw [← h1]; simp, h3, h2⟩

/-- **C56** (finding) If no line opens a feature, all lines are lost: the prefix stays empty and one
nameless empty feature is returned. -/
theorem C56_fea_dict_prefix_only_lost (search : PyStr → Option PyStr) (data : List PyStr)
    (h : ∀ l ∈ data, ∀ t, ¬ Opens search l t) :
    (buildFeaDict search data).prefix_ = [] ∧ (buildFeaDict search data).features.flatMap Prod.snd = [] := by
  replace h : ∀ l ∈ data, search (stripComment l) = none := fun l hl => opens_none.1 (h l hl)
  have := feaFold search data
  simp only [buildFeaDict]
  generalize List.foldl (feaStep search) {} data = st at *
  simp only at this
  split at this
  · obtain ⟨_, h2, h3, _⟩ := this
    rw [h2, h3]; simp
  · obtain ⟨h1, h2, _⟩ := this
    obtain ⟨hd, t, e1, e2, _⟩ := h2 (st.tag, st.feature) (List.mem_append_right _ (by simp))
    have : hd ∈ data := by
      rw [← h1]
      apply List.mem_append_right
      simp only at e1
      rw [e1]; exact List.mem_cons_self
    rw [h hd this] at e2; cases e2

example : ∃ l ∈ [lit "# Prefix", lit "feature liga { # x"], ∃ t,
    Opens (fun l : PyStr => if l = [] then none else some l) l t :=
  ⟨lit "feature liga { # x", by decide, lit "feature liga { ", lit "feature liga { ", ⟨by decide, Or.inr ⟨lit " x", by decide⟩⟩, by decide⟩

end Verif.Props
