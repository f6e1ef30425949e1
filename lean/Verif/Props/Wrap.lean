import Verif.Proofs.WrapLoop

/-!
# Properties of text wrapping: C17 to C24
-/

namespace Verif

open Spec

theorem wrap_ok {u : Uni} {o : WrapOpts} {text : Str} {out : List Str} (h : wrap u o text = .ok out) :
    0 < o.width ∧
    (∀ m, o.maxLines = some m → len (if m > 1 then o.subsequentIndent else o.initialIndent) + len (lstrip o.placeholder) ≤ o.width) ∧
    wrapLoop u o (wrapFuel (wrapInput u o text)) [] (wrapInput u o text) = .ok out := by
  unfold wrap wrapChunks at h
  split at h
  · cases h
  · rename_i hw
    refine ⟨by omega, ?_⟩
    cases hm : o.maxLines with
    | none => rw [hm] at h; exact ⟨by simp, h⟩
    | some m =>
      rw [hm] at h
      simp only at h
      by_cases hp : len (if m > 1 then o.subsequentIndent else o.initialIndent) + len (lstrip o.placeholder) > o.width
      · rw [if_pos hp] at h; cases h
      · rw [if_neg hp] at h
        refine ⟨?_, h⟩
        intro m' e
        cases e
        omega

theorem wrap_nolimit (u : Uni) (o : WrapOpts) (text : Str) (hm : o.maxLines = none) (hw : 0 < o.width) :
    wrap u o text = wrapLoop u o (wrapFuel (wrapInput u o text)) [] (wrapInput u o text) := by
  unfold wrap wrapChunks
  rw [if_neg (by omega), hm]

/-- `abc` in red, `def` and a long word, to be wrapped at 5 columns. -/
def c17Text : Str := py"\x1b[31mabc\x1b[0m  def ghijklmno"
def c17Opts : WrapOpts := { width := 5, subsequentIndent := py"- " }

/-! ## C17 -/

/-- Every line has at most `width` visible characters. -/
theorem C17 (u : Uni) (o : WrapOpts) (text : Str) (out : List Str) (hb : o.breakLong = true)
    (hi : len o.initialIndent < o.width) (hs : len o.subsequentIndent < o.width) (h : wrap u o text = .ok out) :
    ∀ l ∈ out, VisibleLe u l o.width := by
  obtain ⟨-, hp, h⟩ := wrap_ok h
  intro l hl
  rw [visibleLe_iff]
  exact wrapLoop_width u o hb hi hs hp _ [] _ out (by simp) (by simp) h l hl

/-- The red word is 12 characters long but counts as 3; the long word is cut. -/
example : wrap asciiUni c17Opts c17Text =
    .ok [py"\x1b[31mabc\x1b[0m", py"- def", py"- ghi", py"- jkl", py"- mno"] := by decide
/-- With a line limit the placeholder fits as well. -/
example : wrap asciiUni { c17Opts with maxLines := some 2, placeholder := py"+" } c17Text =
    .ok [py"\x1b[31mabc\x1b[0m+"] := by decide
/-- Without breaking long words lines can be longer, so the condition is needed. -/
example : wrap asciiUni { width := 3, breakLong := false } py"abcdef" = .ok [py"abcdef"] := by decide

/-! ## C18 -/

/-- The non-whitespace characters of the lines, indents aside, are those of the text, in order. -/
theorem C18 (u : Uni) (o : WrapOpts) (text : Str) (out : List Str) (hm : o.maxLines = none)
    (h : wrap u o text = .ok out) : ∃ bodies, Indented o [] out bodies ∧ nonws bodies.flatten = nonws text := by
  obtain ⟨-, -, h⟩ := wrap_ok h
  obtain ⟨ls, bs, h1, h2, h3⟩ := wrapLoop_text u o hm _ [] _ out h
  rw [List.nil_append] at h1
  subst h1
  exact ⟨bs, h2, h3.trans (wrapInput_nonws u o text)⟩

example : Indented c17Opts [] [py"\x1b[31mabc\x1b[0m", py"- def", py"- ghi", py"- jkl", py"- mno"]
    [py"\x1b[31mabc\x1b[0m", py"def", py"ghi", py"jkl", py"mno"] := by
  simp [Indented, indentAfter, c17Opts]

/-! ## C19 -/

/-- Wrapping finishes with a result if neither indent is longer than the line, or long words are not broken. -/
theorem C19_partial (u : Uni) (o : WrapOpts) (text : Str) (hm : o.maxLines = none) (hw : 0 < o.width)
    (hT : o.breakLong = false ∨ (len o.initialIndent ≤ o.width ∧ len o.subsequentIndent ≤ o.width)) :
    ∃ out, wrap u o text = .ok out := by
  rw [wrap_nolimit u o text hm hw]
  exact wrapLoop_total u o hT _ [] _ (Nat.le_refl _)

/-- The same with a line limit, if the placeholder is not rejected. -/
theorem C19_limit_partial (u : Uni) (o : WrapOpts) (text : Str) (m : Int) (hm : o.maxLines = some m) (hw : 0 < o.width)
    (hp : len (if m > 1 then o.subsequentIndent else o.initialIndent) + len (lstrip o.placeholder) ≤ o.width)
    (hT : o.breakLong = false ∨ (len o.initialIndent ≤ o.width ∧ len o.subsequentIndent ≤ o.width)) :
    ∃ out, wrap u o text = .ok out := by
  unfold wrap wrapChunks
  rw [if_neg (by omega), hm]
  simp only
  rw [if_neg (by omega)]
  exact wrapLoop_total u o hT _ [] _ (Nat.le_refl _)

/-- Wrapping never ends otherwise: `wrap(" ", width=1, initial_indent="  ")` is still looping after any number of
rounds. -/
theorem C19_fails (f : Nat) :
    wrapLoop asciiUni { width := 1, initialIndent := py"  " } f [] (wrapInput asciiUni { width := 1, initialIndent := py"  " } py" ") =
      .error .diverge := by
  have hi : wrapInput asciiUni { width := 1, initialIndent := py"  " } py" " = [py" "] := by decide
  have hloop : ∀ f, wrapLoop asciiUni { width := 1, initialIndent := py"  " } f [] [[]] = .error .diverge := by
    intro f
    induction f with
    | zero => rfl
    | succ f ih => exact ih
  rw [hi]
  cases f with
  | zero => rfl
  | succ f => exact hloop f

/-! ## C20 -/

/-- Without a line limit an error is raised exactly if the width is not positive. -/
theorem C20 (u : Uni) (o : WrapOpts) (text : Str) (hm : o.maxLines = none) :
    (wrap u o text = .error .valueError ↔ o.width ≤ 0) ∧
    (0 < o.width → (∃ out, wrap u o text = .ok out) ∨ wrap u o text = .error .diverge) := by
  have h2 : 0 < o.width → (∃ out, wrap u o text = .ok out) ∨ wrap u o text = .error .diverge := by
    intro hw
    rw [wrap_nolimit u o text hm hw]
    cases h : wrapLoop u o (wrapFuel (wrapInput u o text)) [] (wrapInput u o text) with
    | ok out => exact Or.inl ⟨out, rfl⟩
    | error e => right; rw [wrapLoop_error u o _ _ _ e h]
  refine ⟨⟨?_, ?_⟩, h2⟩
  · intro h
    by_cases hw : o.width ≤ 0
    · exact hw
    · rcases h2 (by omega) with ⟨out, e⟩ | e <;> rw [e] at h <;> cases h
  · intro hw
    unfold wrap wrapChunks
    rw [if_pos hw]

/-- Also for an empty text. -/
example : wrap asciiUni { width := 0 } [] = .error .valueError := by decide
example : wrap asciiUni { width := 1 } [] = .ok [] := by decide

/-! ## C21 -/

/-- The chunks are put on lines greedily. -/
theorem C21 (u : Uni) (o : WrapOpts) (text : Str) (out : List Str) (hm : o.maxLines = none)
    (hi : len o.initialIndent ≤ o.width) (hs : len o.subsequentIndent ≤ o.width)
    (hn : NoLong u o (wrapInput u o text)) (h : wrap u o text = .ok out) :
    ∃ rows, (rows.map Row.chunks).flatten = wrapInput u o text ∧ (∀ r ∈ rows, r.chunks ≠ []) ∧ Greedy u o [] rows out := by
  obtain ⟨-, -, h⟩ := wrap_ok h
  exact wrapLoop_greedy u o hm hi hs _ [] _ out hn h

/-- The chunks are the text with its whitespace replaced, cut into pieces. -/
theorem C21_chunks (u : Uni) (o : WrapOpts) (text : Str) (hf : o.fixSentence = false) :
    (wrapInput u o text).flatten = munge o text := by
  unfold wrapInput
  simp only [hf, Bool.false_eq_true, if_false]
  exact splitChunks_flatten u o _

/-- The chunks that are not whitespace are the words of the text, unless words are divided at hyphens. -/
theorem C21_words (u : Uni) (o : WrapOpts) (text : Str) (hp : PlainWs text) (hf : o.fixSentence = false)
    (ht : o.expandTabs = true → 1 ≤ o.tabsize) (hh : o.breakHyphens = false ∨ '-' ∉ text) :
    (wrapInput u o text).filter (fun c => c.any (fun x => !isSpace x)) = splitWs text := by
  have hm := munge_plain o text hp
  unfold wrapInput
  simp only [hf, Bool.false_eq_true, if_false]
  unfold splitChunks
  split
  · rename_i hb
    have hd : '-' ∉ munge o text := by
      rcases hh with h | h
      · rw [h] at hb; cases hb
      · exact munge_hyphen o text h
    have := chunkGo_words u [] .fresh [] (munge o text) (by simp) rfl (by simpa using hm) hd
    unfold isText at this
    rw [this, ← munge_words o text ht]
    rfl
  · have := simpleChunks_words (munge o text) hm
    unfold isText at this
    rw [this, munge_words o text ht]

/-- A hyphenated word is two chunks, or one. -/
example : wrapInput asciiUni {} py"a  well-known\tb" = [py"a", py"  ", py"well-", py"known", py"   ", py"b"] ∧
    wrapInput asciiUni { breakHyphens := false } py"a  well-known\tb" = [py"a", py"  ", py"well-known", py"   ", py"b"] := by decide

/-- `aa bb cc` at five columns: the space after `bb` is not shown, and `cc` does not fit after it. -/
example : wrap asciiUni { width := 5 } py"aa bb cc" = .ok [py"aa bb", py"cc"] ∧
    Greedy asciiUni { width := 5 } [] [⟨[], [py"aa", py" ", py"bb"]⟩, ⟨[py" "], [py"cc"]⟩] [py"aa bb", py"cc"] := by
  refine ⟨by decide, ?_⟩
  have e1 : visible asciiUni [py"aa", py" ", py"bb"] = 5 := by decide
  have e2 : visible asciiUni [py"cc"] = 2 := by decide
  have e3 : vlen asciiUni py" " = 1 := by decide
  have hb : ∀ c, c = 'b' ∨ c = 'c' → ¬ isSpace c = true := by rintro c (rfl | rfl) <;> decide
  simp only [Greedy]
  refine ⟨Or.inl trivial, by simp, by rw [e1]; decide, ?_, [py"aa", py" ", py"bb"], Or.inl ⟨rfl, ?_⟩, ?_⟩
  · intro c hc
    cases hc
    rw [e1, e3]; decide
  · intro _ w hw hbl
    cases hw
    exact hb 'b' (Or.inl rfl) (hbl _ (by simp))
  · refine ⟨Or.inr ⟨trivial, by simp, py" ", rfl, ?_⟩, by simp, by rw [e2]; decide, by simp, [py"cc"], Or.inl ⟨rfl, ?_⟩, ?_⟩
    · intro c hc; simp at hc; rw [hc]; decide
    · intro _ w hw hbl
      cases hw
      exact hb 'c' (Or.inr rfl) (hbl _ (by simp))
    · decide

/-- The whole text on one line is not greedy at seven columns. -/
example : ¬ Greedy asciiUni { width := 7 } [] [⟨[], [py"aa"]⟩, ⟨[py" "], [py"bb"]⟩] [py"aa", py"bb"] := by
  intro h
  have := h.2.2.2.1 py" " rfl
  revert this
  decide

/-! ## C22 -/

/-- Missing from the claim: a line can end in whitespace, but only if a long word was broken, and then the line is
exactly as wide as allowed. -/
theorem C22_partial (u : Uni) (o : WrapOpts) (text : Str) (out : List Str) (hm : o.maxLines = none)
    (hd : o.dropWs = true) (hp : PlainWs text)
    (hw : o.breakLong = false ∨ (len o.initialIndent < o.width ∧ len o.subsequentIndent < o.width))
    (h : wrap u o text = .ok out) :
    ∃ bodies, Indented o [] out bodies ∧ (∀ b ∈ bodies.tail, ¬ StartsWs b) ∧
      ∀ p ∈ out.zip bodies, EndsWs p.2 →
        o.breakLong = true ∧ ¬ NoLong u o (wrapInput u o text) ∧ ('\x1b' ∉ (wrapInput u o text).flatten → len p.1 = o.width) := by
  obtain ⟨-, -, h⟩ := wrap_ok h
  obtain ⟨ls, bs, h1, h2, h3, -, h5⟩ := wrapLoop_edges u o hm hd hw _ [] _ out (wrapInput_tidy u o text hp) h
  rw [List.nil_append] at h1
  subst h1
  exact ⟨bs, h2, h3, h5⟩

/-- `wrap("ab cdefgh", 3)` has a line that ends in a space. -/
theorem C22_fails : wrap asciiUni { width := 3 } py"ab cdefgh" = .ok [py"ab ", py"cde", py"fgh"] := by decide

/-- No space is left where nothing is broken. -/
example : wrap asciiUni { width := 3 } py"ab  cde f " = .ok [py"ab", py"cde", py"f"] := by decide

/-! ## C23 -/

/-- Wrapping chunks with colours gives, colours removed, what wrapping the chunks without colours gives. -/
theorem C23 (u : Uni) (o : WrapOpts) (cs : List Str) (hm : o.maxLines = none) (hi : '\x1b' ∉ o.initialIndent)
    (hs : '\x1b' ∉ o.subsequentIndent) (hc : ∀ c ∈ cs, Coloured u c) (hn : NoLong u o cs) :
    wrapChunks u o (cs.map (stripAnsi u)) = (wrapChunks u o cs).map (List.map (stripAnsi u)) := by
  unfold wrapChunks
  split
  · rfl
  · rename_i hw
    rw [hm]
    simp only
    have hmap := fun f => wrapLoop_map u o hm hi hs f [] cs hc hn
    simp only [List.map_nil] at hmap
    cases hcs : cs with
    | nil => rfl
    | cons c cs' =>
      rw [← hcs]
      have hT : len o.initialIndent ≤ o.width ∧ len o.subsequentIndent ≤ o.width := by
        have h1 := hn c (by rw [hcs]; simp)
        have h2 := vlen_nonneg u c
        omega
      obtain ⟨out, ho⟩ := wrapLoop_total u o (Or.inr hT) _ [] (cs.map (stripAnsi u)) (Nat.le_refl _)
      have hle : wrapFuel (cs.map (stripAnsi u)) ≤ wrapFuel cs := by
        unfold wrapFuel
        have : ∀ l : List Str, (l.map (stripAnsi u)).flatten.length ≤ l.flatten.length := by
          intro l
          induction l with
          | nil => simp
          | cons x l ih =>
            have := vlen_le_len u x
            unfold vlen len at this
            simp only [List.map_cons, List.flatten_cons, List.length_append]
            omega
        have := this cs
        simp only [List.length_map]
        omega
      have hk := wrapLoop_mono u o (wrapFuel (cs.map (stripAnsi u))) (wrapFuel cs - wrapFuel (cs.map (stripAnsi u))) [] _ out ho
      rw [Nat.add_sub_cancel' hle] at hk
      rw [← hmap (wrapFuel cs), hk]
      exact ho

/-- Removing the colours is the removal of the colour sequences from left to right. -/
theorem C23_strip (u : Uni) (s t : Str) : stripAnsi u s = t ↔ Strips u s t :=
  ⟨fun h => h ▸ stripAnsi_strips u s, fun h => strips_det (stripAnsi_strips u s) h⟩

example : wrap asciiUni { width := 5 } py"\x1b[31maa bb\x1b[0m \x1b[1;2mcc\x1b[m" =
    .ok [py"\x1b[31maa bb\x1b[0m", py"\x1b[1;2mcc\x1b[m"] := by decide
example : Coloured asciiUni py"\x1b[31maa" := by
  refine (coloured_iff _ _).2 ⟨by decide, ?_⟩
  intro h; exfalso; revert h; decide

/-! ## C24 -/

/-- There are at most as many lines as allowed. -/
theorem C24 (u : Uni) (o : WrapOpts) (text : Str) (out : List Str) (m : Int) (hm : o.maxLines = some m) (h1 : 1 ≤ m)
    (h : wrap u o text = .ok out) : (out.length : Int) ≤ m := by
  obtain ⟨-, -, h⟩ := wrap_ok h
  exact wrapLoop_limit u o m hm _ [] _ out (by simp; omega) h

example : wrap asciiUni { width := 10, maxLines := some 2 } py"aaa bbb ccc ddd eee" = .ok [py"aaa bbb", py"ccc [...]"] := by decide
/-- Exactly as many lines as allowed: nothing is cut off. -/
example : wrap asciiUni { width := 7, maxLines := some 2 } py"aaa bbb ccc ddd" = .ok [py"aaa bbb", py"ccc ddd"] := by decide

end Verif
