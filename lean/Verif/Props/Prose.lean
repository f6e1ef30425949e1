import Verif.Proofs.Prose

/-!
# Colours in running text
-/

namespace Verif

open Spec

theorem sentenceEnd_congr {p q : Str} (h : SentenceEnd p ↔ SentenceEnd q) : sentenceEnd p = sentenceEnd q := by
  rw [Bool.eq_iff_iff, sentenceEnd_iff, sentenceEnd_iff, h]

theorem fixSentence_map (u : Uni) (ps : List Str)
    (h : ∀ p ∈ ps, (stripAnsi u p = py" " ↔ p = py" ") ∧ sentenceEnd (stripAnsi u p) = sentenceEnd p) :
    fixSentenceEndings (ps.map (stripAnsi u)) = (fixSentenceEndings ps).map (stripAnsi u) := by
  induction ps using fixSentenceEndings.induct with
  | case1 a b r hc ih =>
    have ha := h a (by simp)
    have hb := h b (by simp)
    rw [fixSentenceEndings, if_pos hc]
    simp only [Bool.and_eq_true, decide_eq_true_eq] at hc
    simp only [List.map_cons]
    rw [fixSentenceEndings, if_pos (by rw [ha.2, hb.1.2 hc.1]; simpa using hc.2), ih (fun p hp => h p (by simp [hp]))]
    congr 2
  | case2 a b r hc ih =>
    have ha := h a (by simp)
    have hb := h b (by simp)
    rw [fixSentenceEndings, if_neg hc]
    simp only [List.map_cons]
    rw [fixSentenceEndings, if_neg ?_]
    · have := ih (fun p hp => h p (by simp at hp ⊢; right; exact hp))
      rw [List.map_cons] at this
      rw [this]
    · intro h2
      apply hc
      simp only [Bool.and_eq_true, decide_eq_true_eq] at h2 ⊢
      exact ⟨hb.1.1 h2.1, by rw [← ha.2]; exact h2.2⟩
  | case3 l hl =>
    match l, hl with
    | [], _ => rfl
    | [a], _ => rfl
    | a :: b :: r, hl => exact absurd rfl (hl a b r)

theorem coloured_of_word {u : Uni} {w : Str} (h : ColouredWord u w) : Coloured u w := by
  obtain ⟨⟨t, h1, h2, h3⟩, h4⟩ := h
  exact ⟨t, h1, h3, fun hb => absurd hb h2⟩

theorem coloured_of_gap {u : Uni} {g : Str} (h : SpaceGap g) : Coloured u g := by
  refine ⟨g, (C23_strip u g g).1 (gap_strip h), fun he => absurd (h.2 _ he) (by decide), fun hb => hb⟩

theorem fixSentence_coloured {u : Uni} (ps : List Str) (h : ∀ p ∈ ps, Coloured u p) : ∀ p ∈ fixSentenceEndings ps, Coloured u p := by
  induction ps using fixSentenceEndings.induct with
  | case1 a b r hc ih =>
    rw [fixSentenceEndings, if_pos hc]
    intro p hp
    simp only [List.mem_cons] at hp
    rcases hp with rfl | rfl | hp
    · exact h _ (by simp)
    · exact coloured_of_gap ⟨by decide, by decide⟩
    · exact ih (fun q hq => h q (by simp [hq])) p hp
  | case2 a b r hc ih =>
    rw [fixSentenceEndings, if_neg hc]
    intro p hp
    rcases List.mem_cons.1 hp with rfl | hp
    · exact h _ (by simp)
    · exact ih (fun q hq => h q (by simp at hq ⊢; right; exact hq)) p hp
  | case3 l hl =>
    match l, hl with
    | [], _ => exact h
    | [a], _ => exact h
    | a :: b :: r, hl => exact absurd rfl (hl a b r)

theorem prose_input {u : Uni} (o : WrapOpts) {ps : List Str} (h : Prose u ps) (hd : o.breakHyphens = true → '-' ∉ ps.flatten)
    (ht : o.expandTabs = true → '\t' ∉ ps.flatten) :
    wrapInput u o ps.flatten = if o.fixSentence then fixSentenceEndings (ps.map (mungePiece o)) else ps.map (mungePiece o) := by
  unfold wrapInput
  simp only
  rw [munge_flatten o ps ht, splitChunks_simple u o _ ?_, prose_chunks (prose_munge o h)]
  intro hb hm
  obtain ⟨q, hq, hc⟩ := List.mem_flatten.1 hm
  obtain ⟨p, hp, rfl⟩ := List.mem_map.1 hq
  rcases mungePiece_mem hc with e | e
  · cases e
  · exact hd hb (List.mem_flatten.2 ⟨p, hp, e⟩)

/-! ## C64 -/

/-- Words with colours wrap as the words without them do, if no word is longer than a line, no colour hides the end of a
sentence (where sentence endings are fixed), no word has a hyphen (where words are broken at hyphens), and there are no tabs (where
tabs are expanded). -/
theorem C64_partial (u : Uni) (o : WrapOpts) (ps : List Str) (h : Prose u ps) (hm : o.maxLines = none)
    (hi : '\x1b' ∉ o.initialIndent) (hs : '\x1b' ∉ o.subsequentIndent)
    (hd : o.breakHyphens = true → '-' ∉ ps.flatten) (ht : o.expandTabs = true → '\t' ∉ ps.flatten)
    (hf : o.fixSentence = true → ∀ p ∈ ps, ∀ t, Strips u p t → (SentenceEnd t ↔ SentenceEnd p))
    (hn : NoLong u o (wrapInput u o ps.flatten)) (plain : Str) (hp : Strips u ps.flatten plain) :
    wrap u o plain = (wrap u o ps.flatten).map (List.map (stripAnsi u)) := by
  have hall : ∀ {ps : List Str}, Prose u ps → ∀ p ∈ ps, Coloured u p := fun h p hp => by
    rcases prose_mem h p hp with hw | hg
    · exact coloured_of_word hw
    · exact coloured_of_gap hg
  have hq := prose_munge o h
  have hpl : plain = (ps.map (stripAnsi u)).flatten := by
    rw [← (C23_strip _ _ _).2 hp, stripAnsi_flatten u ps (hall h)]
  have hsub : ∀ c, c ∈ (ps.map (stripAnsi u)).flatten → c ∈ ps.flatten := by
    intro c hc
    rw [← hpl] at hc
    exact strips_mem hp _ hc
  have hcomm : (ps.map (stripAnsi u)).map (mungePiece o) = (ps.map (mungePiece o)).map (stripAnsi u) := by
    rw [List.map_map, List.map_map]
    apply List.map_congr_left
    intro p hp
    exact mungePiece_strip o (prose_mem h p hp)
  have hin : wrapInput u o plain = (wrapInput u o ps.flatten).map (stripAnsi u) := by
    rw [hpl, prose_input o (prose_strip h) (fun hb hm => hd hb (hsub _ hm)) (fun he hm => ht he (hsub _ hm)), prose_input o h hd ht, hcomm]
    split
    · rename_i hfs
      apply fixSentence_map
      intro q hq
      obtain ⟨p, hp, rfl⟩ := List.mem_map.1 hq
      rcases prose_mem h p hp with hw | hg
      · rw [mungePiece_word hw.2]
        refine ⟨?_, sentenceEnd_congr (hf hfs p hp _ (stripAnsi_strips u p))⟩
        constructor
        · intro e
          exact absurd ((word_strip hw).2.2 ' ' (by rw [e]; simp)) (by decide)
        · rintro rfl
          exact absurd (hw.2 ' ' (by simp)) (by decide)
      · rw [gap_strip (mungePiece_gap hg)]
        exact ⟨Iff.rfl, rfl⟩
    · rfl
  have hcin : ∀ c ∈ wrapInput u o ps.flatten, Coloured u c := by
    rw [prose_input o h hd ht]
    split
    · exact fixSentence_coloured _ (hall hq)
    · exact hall hq
  unfold wrap
  rw [hin]
  exact C23 u o _ hm hi hs hcin hn

/-- A colour that is switched off after a full stop: the sentence is not seen to end there. -/
theorem C64_sentence_fails :
    Strips asciiUni py"\x1b[31mab.\x1b[0m cd" py"ab. cd" ∧
    wrap asciiUni { fixSentence := true } py"ab. cd" = .ok [py"ab.  cd"] ∧
    wrap asciiUni { fixSentence := true } py"\x1b[31mab.\x1b[0m cd" = .ok [py"\x1b[31mab.\x1b[0m cd"] :=
  ⟨(C23_strip _ _ _).1 (by decide), by decide, by decide⟩

/-- A colour that is switched on after a hyphen: the word is not broken there. -/
theorem C64_hyphen_fails :
    Strips asciiUni py"xx ab-\x1b[31mbcd\x1b[0m" py"xx ab-bcd" ∧
    wrap asciiUni { width := 6 } py"xx ab-bcd" = .ok [py"xx ab-", py"bcd"] ∧
    wrap asciiUni { width := 6 } py"xx ab-\x1b[31mbcd\x1b[0m" = .ok [py"xx", py"ab-\x1b[31mbcd\x1b[0m"] :=
  ⟨(C23_strip _ _ _).1 (by decide), by decide, by decide⟩

/-- Tabs are expanded as if the colours were visible. -/
theorem C64_tab_fails :
    Strips asciiUni py"\x1b[1ma\tb" py"a\tb" ∧
    wrap asciiUni {} py"a\tb" = .ok [py"a       b"] ∧
    wrap asciiUni {} py"\x1b[1ma\tb" = .ok [py"\x1b[1ma   b"] :=
  ⟨(C23_strip _ _ _).1 (by decide), by decide, by decide⟩

/-- A word that is too long is broken inside its colour sequence. -/
theorem C64_long_fails :
    Strips asciiUni py"\x1b[31mabcdef" py"abcdef" ∧
    wrap asciiUni { width := 4 } py"abcdef" = .ok [py"abcd", py"ef"] ∧
    wrap asciiUni { width := 4 } py"\x1b[31mabcdef" = .ok [py"\x1b[31", py"mabc", py"def"] :=
  ⟨(C23_strip _ _ _).1 (by decide), by decide, by decide⟩

/-- Two words in one colour, an end of a sentence in it, a line break, and a word partly in another colour. -/
example : ∃ ps, Prose asciiUni ps ∧ ps.flatten = py"\x1b[31mab. cd\x1b[0m\ne\x1b[1mf\x1b[0m" ∧
    wrap asciiUni { width := 8, fixSentence := true } py"ab. cd\nef" = .ok [py"ab.  cd", py"ef"] ∧
    wrap asciiUni { width := 8, fixSentence := true } ps.flatten =
      .ok [py"\x1b[31mab.  cd\x1b[0m", py"e\x1b[1mf\x1b[0m"] ∧
    NoLong asciiUni { width := 8, fixSentence := true } (wrapInput asciiUni { width := 8, fixSentence := true } ps.flatten) ∧
    ∀ p ∈ ps, ∀ t, Strips asciiUni p t → (SentenceEnd t ↔ SentenceEnd p) := by
  have word : ∀ w, stripAnsi asciiUni w ≠ [] ∧ (∀ c ∈ stripAnsi asciiUni w, isSpace c = false ∧ c ≠ '\x1b') ∧
      (∀ c ∈ w, isTwSpace c = false) → ColouredWord asciiUni w := by
    intro w ⟨h1, h2, h3⟩
    refine ⟨⟨_, stripAnsi_strips _ _, ?_, fun he => (h2 _ he).2 rfl⟩, h3⟩
    intro hb
    cases ht : stripAnsi asciiUni w with
    | nil => exact h1 ht
    | cons c t =>
      have h4 := hb c (by rw [ht]; simp)
      rw [(h2 c (by rw [ht]; simp)).1] at h4
      cases h4
  refine ⟨[py"\x1b[31mab.", py" ", py"cd\x1b[0m", py"\n", py"e\x1b[1mf\x1b[0m"], ?_, by decide, by decide, by decide, by unfold NoLong; decide, ?_⟩
  · exact .wordGap (word _ (by decide)) ⟨by decide, by decide⟩ (.gapWord ⟨by decide, by decide⟩ (word _ (by decide))
      (.wordGap (word _ (by decide)) ⟨by decide, by decide⟩ (.gapWord ⟨by decide, by decide⟩ (word _ (by decide))
        (.word (word _ (by decide))))))
  · intro p hp t ht
    rw [← (C23_strip _ _ _).2 ht, ← sentenceEnd_iff, ← sentenceEnd_iff]
    revert p
    intro p hp ht
    clear ht
    revert p
    decide

end Verif
