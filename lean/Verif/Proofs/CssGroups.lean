import Verif.Proofs.CssTrees

/-!
# The parser of selectors: compounds with combinators, lists, the shortcuts
-/

namespace Verif

open Verif.Spec

/-- The beginning of a compound selector. -/
theorem compound_start {c : CssCompound} (h : c.Ok) :
    ∃ t r, CssCompound.toks c = t :: r ∧ ((∃ v, t = .ident v) ∨ t = .delim '*' ∨ PartStart t) := by
  obtain ⟨-, -, h3⟩ := h
  rw [CssCompound.toks]
  cases he : c.elem with
  | nothing =>
    cases hi : c.items with
    | nil => exact absurd hi (h3 he)
    | cons i l =>
      obtain ⟨t, r, e, hp⟩ := item_start i
      exact ⟨t, _, by rw [List.flatMap_cons, e]; rfl, .inr (.inr hp)⟩
  | star => exact ⟨_, _, rfl, .inr (.inl rfl)⟩
  | name n => exact ⟨_, _, rfl, .inl ⟨wordValue n, rfl⟩⟩

theorem compound_not_space {c : CssCompound} (h : c.Ok) (rest : List CssTok) : (CssCompound.toks c ++ rest).head? ≠ some .space := by
  obtain ⟨t, r, e, ht⟩ := compound_start h
  rw [e]
  rcases ht with ⟨v, rfl⟩ | rfl | hp
  · simp
  · simp
  · have := (partStart_facts hp).2.2.2; simpa using this

/-- What may come after a whole selector. -/
def EndAt (ts : List CssTok) : Prop := ∃ g, ts = gapToks g ∨ ∃ r, ts = gapToks g ++ .delim ',' :: r

theorem gapToks_cases (g : CssGap) : gapToks g = [] ∨ gapToks g = [.space] := by
  rw [gapToks]
  split
  · exact .inl rfl
  · exact .inr rfl

theorem endAt_stop {ts : List CssTok} (h : EndAt ts) : StopAt false ts := by
  obtain ⟨g, rfl | ⟨r, rfl⟩⟩ := h <;> rcases gapToks_cases g with e | e <;> rw [e]
  · exact .inl rfl
  · exact .inr (.inl ⟨_, rfl⟩)
  · exact .inr (.inr ⟨_, _, rfl, by simp⟩)
  · exact .inr (.inl ⟨_, rfl⟩)

theorem endAt_skip {ts : List CssTok} (h : EndAt ts) : skipSpace ts = [] ∨ ∃ r, skipSpace ts = .delim ',' :: r := by
  obtain ⟨g, rfl | ⟨r, rfl⟩⟩ := h <;> rcases gapToks_cases g with e | e <;> rw [e]
  · exact .inl rfl
  · exact .inl rfl
  · exact .inr ⟨r, rfl⟩
  · exact .inr ⟨r, rfl⟩

theorem link_stop {l : CssLink} (h : l.Ok) (rest : List CssTok) : StopAt false (CssLink.toks l ++ rest) := by
  cases l with
  | desc g =>
    rw [CssLink.toks, gapToks, if_neg h.1]
    exact .inr (.inl ⟨_, rfl⟩)
  | child g1 g2 =>
    rcases gapToks_cases g1 with e | e <;> rw [CssLink.toks, e]
    · exact .inr (.inr ⟨_, _, rfl, by simp⟩)
    · exact .inr (.inl ⟨_, rfl⟩)
  | general g1 g2 =>
    rcases gapToks_cases g1 with e | e <;> rw [CssLink.toks, e]
    · exact .inr (.inr ⟨_, _, rfl, by simp⟩)
    · exact .inr (.inl ⟨_, rfl⟩)
  | adjacent g1 g2 =>
    rcases gapToks_cases g1 with e | e <;> rw [CssLink.toks, e]
    · exact .inr (.inr ⟨_, _, rfl, by simp⟩)
    · exact .inr (.inl ⟨_, rfl⟩)

/-- The tokens that are left when a compound selector has been read, given those before the end. -/
def leftToks (m : List (CssLink × CssCompound)) (pe : Option CssWord) (rest : List CssTok) : List CssTok :=
  match m with
  | [] => rest
  | x :: m => moreToks (x :: m) ++ (peToks pe ++ rest)

/-- Whether its pseudo-element is there. -/
def leftPe (m : List (CssLink × CssCompound)) (pe : Option CssWord) : Bool :=
  match m with
  | [] => pe.isSome
  | _ :: _ => false

theorem simple_left (all : List CssTok) {c : CssCompound} (h : c.Ok) (m : List (CssLink × CssCompound)) (hm : ∀ x ∈ m, x.1.Ok ∧ x.2.Ok)
    (pe : Option CssWord) {rest : List CssTok} (hr : EndAt rest) :
    cssSimple all (CssCompound.toks c ++ (moreToks m ++ (peToks pe ++ rest))) = .ok (c.tree, leftPe m pe, leftToks m pe rest) := by
  cases m with
  | nil => exact simple_ok all h pe (endAt_stop hr)
  | cons x m =>
    have hs : StopAt false (moreToks (x :: m) ++ (peToks pe ++ rest)) := by
      rw [moreToks, List.flatMap_cons, List.append_assoc, List.append_assoc]
      exact link_stop (hm x (by simp)).1 _
    exact simple_ok all h none hs

/-- One turn of the loop over combinators. -/
theorem combined_step (all : List CssTok) (f : Nat) (sel : Sel) {l : CssLink} (hl : l.Ok) {c : CssCompound} (hc : c.Ok) (rest : List CssTok) :
    cssCombined all (f + 1) sel false (CssLink.toks l ++ (CssCompound.toks c ++ rest)) =
      (cssSimple all (CssCompound.toks c ++ rest)).bind (fun x => cssCombined all f (.comb sel l.comb x.1) x.2.1 x.2.2) := by
  have hsp := compound_not_space hc rest
  rw [cssCombined]
  cases l with
  | desc g =>
    rw [CssLink.toks, skip_gap g hsp]
    obtain ⟨t, r, e, ht⟩ := compound_start hc
    rw [e, List.cons_append]
    rcases ht with ⟨v, rfl⟩ | rfl | ⟨v, rfl⟩ | rfl | rfl | rfl <;> rfl
  | child g1 g2 =>
    rw [CssLink.toks, List.append_assoc, List.cons_append, skip_gap g1 (by simp)]
    simp only [combOf, skip_gap g2 hsp]
    rfl
  | general g1 g2 =>
    rw [CssLink.toks, List.append_assoc, List.cons_append, skip_gap g1 (by simp)]
    simp only [combOf, skip_gap g2 hsp]
    rfl
  | adjacent g1 g2 =>
    rw [CssLink.toks, List.append_assoc, List.cons_append, skip_gap g1 (by simp)]
    simp only [combOf, skip_gap g2 hsp]
    rfl

theorem combined_ok (all : List CssTok) (pe : Option CssWord) {rest : List CssTok} (hr : EndAt rest) :
    ∀ (m : List (CssLink × CssCompound)) (f : Nat) (sel : Sel), (∀ x ∈ m, x.1.Ok ∧ x.2.Ok) → m.length < f →
    cssCombined all f sel (leftPe m pe) (leftToks m pe rest) =
      .ok (⟨m.foldl (fun s x => .comb s x.1.comb x.2.tree) sel, pe.isSome⟩, skipSpace rest)
  | _, 0, _, _, hf => absurd hf (Nat.not_lt_zero _)
  | [], f + 1, sel, _, _ => by
    rw [cssCombined, leftToks]
    rcases endAt_skip hr with e | ⟨r, e⟩ <;> rw [e] <;> rfl
  | (l, c) :: m, f + 1, sel, h, hf => by
    obtain ⟨hl, hc⟩ := h _ (List.mem_cons_self ..)
    have hm : ∀ x ∈ m, x.1.Ok ∧ x.2.Ok := fun x hx => h x (by simp [hx])
    have e : leftToks ((l, c) :: m) pe rest = CssLink.toks l ++ (CssCompound.toks c ++ (moreToks m ++ (peToks pe ++ rest))) := by
      simp [leftToks, moreToks]
    rw [e, leftPe, combined_step all f sel hl hc, simple_left all hc m hm pe hr]
    simp only [Except.bind]
    rw [combined_ok all pe hr m f _ hm (by simpa using hf)]
    rfl

theorem more_length {m : List (CssLink × CssCompound)} (h : ∀ x ∈ m, x.1.Ok ∧ x.2.Ok) : m.length ≤ (moreToks m).length := by
  induction m with
  | nil => simp
  | cons x m ih =>
    obtain ⟨t, r, e, -⟩ := compound_start (h x (by simp)).2
    have := ih (fun y hy => h y (by simp [hy]))
    simp only [moreToks] at this
    simp only [moreToks, List.flatMap_cons, e, List.length_append, List.length_cons]
    omega

theorem selector_ok (all : List CssTok) {c : CssComplex} (h : c.Ok) {rest : List CssTok} (hr : EndAt rest) :
    cssSelector all (CssComplex.toks c ++ rest) = .ok (c.meaning, skipSpace rest) := by
  obtain ⟨h1, h2, -⟩ := h
  have hlen : c.more.length < (leftToks c.more c.pseudoElement rest).length + 1 := by
    have := more_length h2
    cases hm : c.more with
    | nil => simp
    | cons x m =>
      rw [hm] at this
      simp only [leftToks, List.length_append]
      omega
  rw [cssSelector, CssComplex.toks, List.append_assoc, List.append_assoc, simple_left all h1 c.more h2 _ hr]
  simp only [bind, Except.bind]
  rw [combined_ok all _ hr c.more _ _ h2 hlen]
  rfl

theorem complex_not_space {c : CssComplex} (h : c.Ok) (rest : List CssTok) : (CssComplex.toks c ++ rest).head? ≠ some .space := by
  rw [CssComplex.toks, List.append_assoc]
  exact compound_not_space h.1 _

theorem comma_end (l : List (CssGap × CssGap × CssComplex)) (g : CssGap) : EndAt (commaToks l ++ gapToks g) := by
  cases l with
  | nil => exact ⟨g, .inl rfl⟩
  | cons x l => exact ⟨x.1, .inr ⟨_, by rw [commaToks, List.flatMap_cons, List.append_assoc, List.append_assoc]; rfl⟩⟩

theorem group_ok (all : List CssTok) (after : CssGap) : ∀ (l : List (CssGap × CssGap × CssComplex)) (c : CssComplex) (f : Nat), c.Ok →
    (∀ x ∈ l, x.1.Ok ∧ x.2.1.Ok ∧ x.2.2.Ok) → l.length < f →
    cssGroup all f (CssComplex.toks c ++ (commaToks l ++ gapToks after)) = .ok (c.meaning :: l.map (fun x => x.2.2.meaning))
  | _, _, 0, _, _, hf => absurd hf (Nat.not_lt_zero _)
  | [], c, f + 1, h, _, _ => by
    rw [cssGroup, selector_ok all h (comma_end [] after)]
    rcases gapToks_cases after with e | e <;> rw [e] <;> rfl
  | x :: l, c, f + 1, h, hl, hf => by
    obtain ⟨-, h2, h3⟩ := hl x (by simp)
    have e : commaToks (x :: l) ++ gapToks after =
        gapToks x.1 ++ .delim ',' :: (gapToks x.2.1 ++ (CssComplex.toks x.2.2 ++ (commaToks l ++ gapToks after))) := by
      simp [commaToks]
    rw [cssGroup, selector_ok all h (comma_end _ _), e, skip_gap x.1 (by simp)]
    simp only [bind, Except.bind]
    rw [skip_gap x.2.1 (complex_not_space h3 _), group_ok all after l x.2.2 f h3 (fun y hy => hl y (by simp [hy])) (by simpa using hf)]
    rfl

theorem comma_length (l : List (CssGap × CssGap × CssComplex)) : l.length ≤ (commaToks l).length := by
  induction l with
  | nil => simp
  | cons x l ih =>
    simp only [commaToks] at ih
    simp only [commaToks, List.flatMap_cons, List.length_append, List.length_cons]
    omega

/-- `parse` without the shortcuts. -/
def cssSlow (s : Str) : Py (List Selector) := do
  let ts ← cssTokens (s.length + 1) s
  cssGroup ts (ts.length + 1) (skipSpace ts)

theorem slow_text {t : CssText} (h : t.Ok) : cssSlow t.src = .ok t.meaning := by
  have hl : cssTokens (t.src.length + 1) t.src = .ok (CssText.toks t) := lex_text h
  obtain ⟨-, h2, h3, -⟩ := h
  rw [cssSlow, hl]
  simp only [bind, Except.bind]
  have hf : t.more.length < (CssText.toks t).length + 1 := by
    have := comma_length t.more
    simp only [CssText.toks, List.length_append]
    omega
  generalize (CssText.toks t).length + 1 = f at hf
  conv => lhs; arg 3; rw [CssText.toks, skip_gap t.before (complex_not_space h2 _)]
  rw [group_ok _ t.after t.more t.first f h2 h3 hf]
  rfl

/-! The shortcuts -/

theorem letter_start {c : Char} (h : isAsciiLetter c = true) : IdentStart c := by
  simp only [isAsciiLetter, Bool.or_eq_true, Bool.and_eq_true, decide_eq_true_eq] at h
  rcases h with h | h
  · exact .inr (.inl h)
  · exact .inr (.inr (.inl h))

theorem hash_ident {c : Char} (h : hashChar c = true) : IdentChar c := by
  simp only [hashChar, cssDigit, Bool.or_eq_true, Bool.and_eq_true, decide_eq_true_eq, beq_iff_eq] at h
  rcases h with ((h | h) | h) | h
  · exact .inl (letter_start h)
  · exact .inr (.inl h)
  · exact .inl (.inl h)
  · exact .inr (.inr h)

theorem cssBlank_space {c : Char} (h : cssBlank c = true) : CssSpace c := by
  simp only [cssBlank, Bool.or_eq_true, beq_iff_eq] at h
  simp only [CssSpace]
  rcases h with (((h | h) | h) | h) | h <;> simp [h]

theorem mem_takeWhile_true {p : Char → Bool} : ∀ {s : Str} {c : Char}, c ∈ s.takeWhile p → p c = true
  | [], c, h => by simp at h
  | d :: s, c, h => by
    rw [List.takeWhile_cons] at h
    split at h
    · rcases List.mem_cons.mp h with rfl | h
      · assumption
      · exact mem_takeWhile_true h
    · simp at h

/-- A word without escapes. -/
def plainWord (s : Str) : CssWord := s.map .plain

theorem plainWord_src (s : Str) : wordSrc (plainWord s) = s := by
  induction s with
  | nil => rfl
  | cons c s ih => rw [plainWord, List.map_cons, wordSrc_cons, ← plainWord, ih]; rfl

theorem plainWord_value (s : Str) : wordValue (plainWord s) = s := by
  induction s with
  | nil => rfl
  | cons c s ih => rw [plainWord, List.map_cons, wordValue_cons, ← plainWord, ih]; rfl

theorem plainWord_end (b : Bool) : ∀ s : Str, CodesEnd b (plainWord s)
  | [] => trivial
  | _ :: s => plainWord_end b s

theorem plainWord_ok {P : Char → Prop} {s : Str} (h : ∀ c ∈ s, P c) : ∀ x ∈ plainWord s, x.Ok P := by
  intro x hx
  obtain ⟨c, hc, rfl⟩ := List.mem_map.mp hx
  exact h c hc

theorem plainWord_ident {c : Char} {r : Str} (hc : IdentStart c) (hr : ∀ x ∈ r, IdentChar x) : CssIdent (plainWord (c :: r)) :=
  ⟨⟨[], .plain c, plainWord r, rfl, .inl rfl, hc, plainWord_ok hr⟩, plainWord_end _ _⟩

theorem letters_ident {e : Str} (h : ∀ c ∈ e, isAsciiLetter c = true) (hn : e ≠ []) : CssIdent (plainWord e) := by
  cases e with
  | nil => exact absurd rfl hn
  | cons c r => exact plainWord_ident (letter_start (h c (by simp))) (fun x hx => .inl (letter_start (h x (by simp [hx]))))

/-- A gap without comments. -/
def blankGap (b : Str) : CssGap := ⟨[], b, []⟩

theorem blankGap_src (b : Str) : (blankGap b).src = b := by simp [blankGap, CssGap.src]

theorem blankGap_ok {b : Str} (h : ∀ c ∈ b, CssSpace c) : (blankGap b).Ok := ⟨by simp [blankGap], h⟩

/-- What the shortcuts read is what the grammar says. -/
theorem shortcut_text {s : Str} {t : Selector} (h : cssShortcut s = some t) : ∃ x : CssText, x.Ok ∧ x.src = s ∧ x.meaning = [t] := by
  have hb : ∀ c ∈ s.takeWhile cssBlank, CssSpace c := fun c hc => cssBlank_space (mem_takeWhile_true hc)
  have hs : s = s.takeWhile cssBlank ++ s.dropWhile cssBlank := List.takeWhile_append_dropWhile.symm
  unfold cssShortcut at h
  generalize s.takeWhile cssBlank = b at hb hs
  generalize s.dropWhile cssBlank = u at h hs
  have he : ∀ c ∈ u.takeWhile isAsciiLetter, isAsciiLetter c = true := fun c hc => mem_takeWhile_true hc
  have hu : u = u.takeWhile isAsciiLetter ++ u.dropWhile isAsciiLetter := List.takeWhile_append_dropWhile.symm
  simp only at h
  generalize u.takeWhile isAsciiLetter = e at h he hu
  generalize u.dropWhile isAsciiLetter = r at h hu
  subst hu hs
  let el : CssElem := if e = [] then .nothing else .name (plainWord e)
  have hel : el.Ok ∧ el.src = e ∧ el.tree = .element (if e = [] then none else some e) := by
    by_cases hn : e = []
    · subst hn; exact ⟨trivial, rfl, rfl⟩
    · simp only [el, if_neg hn]; exact ⟨letters_ident he hn, plainWord_src e, by rw [CssElem.tree, plainWord_value]⟩
  obtain ⟨hel1, hel2, hel3⟩ := hel
  split at h
  · rename_i r
    split at h
    · rename_i hc
      cases h
      have ha : ∀ c ∈ r.dropWhile hashChar, CssSpace c := fun c hc' => cssBlank_space (List.all_eq_true.mp hc.2 c hc')
      refine ⟨⟨blankGap b, ⟨⟨el, [.part (.id (plainWord (r.takeWhile hashChar)))]⟩, [], none⟩, [], blankGap (r.dropWhile hashChar)⟩, ⟨blankGap_ok hb, ⟨⟨hel1, ?_, ?_⟩, ?_, ?_⟩, ?_, blankGap_ok ha⟩, ?_, ?_⟩
      · intro i hi
        rw [List.mem_singleton.mp hi]
        exact ⟨by simpa [plainWord] using hc.1, plainWord_ok (fun c hc' => hash_ident (mem_takeWhile_true hc')), plainWord_end _ _⟩
      · intro _; simp
      · simp
      · simp
      · simp
      · simp [CssText.src, CssComplex.src, CssCompound.src, hel2, moreSrc, pseudoElementSrc, commaSrc, CssItem.src, CssPart.src, blankGap_src, plainWord_src,
          List.takeWhile_append_dropWhile]
      · simp [CssText.meaning, CssComplex.meaning, CssCompound.tree, CssItem.add, CssPart.add, hel3, plainWord_value]
    · cases h
  · rename_i c r
    split at h
    · rename_i hc
      cases h
      have ha : ∀ c ∈ r.dropWhile hashChar, CssSpace c := fun c hc' => cssBlank_space (List.all_eq_true.mp hc.2 c hc')
      refine ⟨⟨blankGap b, ⟨⟨el, [.part (.cls (plainWord (c :: r.takeWhile hashChar)))]⟩, [], none⟩, [], blankGap (r.dropWhile hashChar)⟩,
        ⟨blankGap_ok hb, ⟨⟨hel1, ?_, ?_⟩, ?_, ?_⟩, ?_, blankGap_ok ha⟩, ?_, ?_⟩
      · intro i hi
        rw [List.mem_singleton.mp hi]
        exact plainWord_ident (letter_start hc.1) (fun c hc' => hash_ident (mem_takeWhile_true hc'))
      · intro _; simp
      · simp
      · simp
      · simp
      · simp [CssText.src, CssComplex.src, CssCompound.src, hel2, moreSrc, pseudoElementSrc, commaSrc, CssItem.src, CssPart.src, blankGap_src, plainWord_src,
          List.takeWhile_append_dropWhile]
      · simp [CssText.meaning, CssComplex.meaning, CssCompound.tree, CssItem.add, CssPart.add, hel3, plainWord_value]
    · cases h
  · split at h
    · rename_i hc
      cases h
      have ha : ∀ c ∈ r, CssSpace c := fun c hc' => cssBlank_space (List.all_eq_true.mp hc.2 c hc')
      refine ⟨⟨blankGap b, ⟨⟨el, []⟩, [], none⟩, [], blankGap r⟩, ⟨blankGap_ok hb, ⟨⟨hel1, ?_, ?_⟩, ?_, ?_⟩, ?_, blankGap_ok ha⟩, ?_, ?_⟩
      · simp
      · intro hn; simp only [el, if_neg hc.1] at hn; cases hn
      · simp
      · simp
      · simp
      · simp [CssText.src, CssComplex.src, CssCompound.src, hel2, moreSrc, pseudoElementSrc, commaSrc, blankGap_src]
      · simp [CssText.meaning, CssComplex.meaning, CssCompound.tree, hel3]
    · cases h

theorem cssParse_slow (s : Str) : cssParse s = cssSlow s := by
  unfold cssParse
  split
  · rename_i t h
    obtain ⟨x, h1, h2, h3⟩ := shortcut_text h
    rw [← h2, slow_text h1, h3]
  · rfl

end Verif
