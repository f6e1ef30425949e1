import Verif.Props.Wrap

/-!
# The characters of wrapped lines
-/

namespace Verif

open Spec

theorem trimmed_sublist {o : WrapOpts} {taken cur : List Str} (h : Trimmed o taken cur) : cur.flatten.Sublist taken.flatten := by
  cases h with
  | keep _ => exact List.Sublist.refl _
  | drop t l _ hh _ =>
    subst hh
    rw [List.flatten_append]
    exact List.sublist_append_left _ _

theorem round_sublist {u : Uni} {o : WrapOpts} {le : Bool} {w : Int} {lead taken left taken' chunks cur rest : List Str}
    (r : Round u o le w lead taken left taken' chunks cur rest) : (cur.flatten ++ rest.flatten).Sublist chunks.flatten := by
  refine (List.Sublist.append (trimmed_sublist r.trimmed) (List.Sublist.refl _)).trans ?_
  rw [broken_flatten r.broken, r.split, List.flatten_append]
  rw [← List.flatten_append]
  exact List.sublist_append_right _ _

theorem wrapLoop_sublist (u : Uni) (o : WrapOpts) (hm : o.maxLines = none) (f : Nat) (lines chunks out : List Str)
    (h : wrapLoop u o f lines chunks = .ok out) :
    ∃ ls bs, out = lines ++ ls ∧ Indented o lines ls bs ∧ bs.flatten.Sublist chunks.flatten := by
  induction f generalizing lines chunks with
  | zero =>
    cases chunks with
    | nil => rw [wrapLoop_nil] at h; cases h; exact ⟨[], [], by simp, trivial, by simp⟩
    | cons c cs => simp [wrapLoop] at h
  | succ f ih =>
    by_cases hne : chunks = []
    · subst hne; rw [wrapLoop_nil] at h; cases h; exact ⟨[], [], by simp, trivial, by simp⟩
    · obtain ⟨cur, rest, _, _, _, _, hr, h2⟩ := wrapLoop_step u o f lines chunks hne
      have hn := round_sublist hr
      rw [h2] at h
      split at h
      · rename_i hc
        obtain ⟨ls, bs, h3, h4, h5⟩ := ih _ _ h
        refine ⟨ls, bs, h3, h4, h5.trans ?_⟩
        rw [hc] at hn
        exact hn
      · have : lineAllowed o lines.length (sumLen u cur) (o.width - len (indentAfter o lines)) rest = true := by
          unfold lineAllowed; rw [hm]
        rw [if_pos this] at h
        obtain ⟨ls, bs, h3, h4, h5⟩ := ih _ _ h
        refine ⟨(indentAfter o lines ++ cur.flatten) :: ls, cur.flatten :: bs, ?_, ⟨rfl, h4⟩, ?_⟩
        · rw [h3]; simp
        · rw [List.flatten_cons]
          exact (List.Sublist.append (List.Sublist.refl _) h5).trans hn

theorem fixSentence_mem (cs : List Str) (c : Char) (h : c ∈ (fixSentenceEndings cs).flatten) : c = ' ' ∨ c ∈ cs.flatten := by
  fun_induction fixSentenceEndings cs with
  | case1 a b r hb ih =>
    simp only [List.flatten_cons, List.mem_append] at h ⊢
    rcases h with h | h | h
    · exact .inr (.inl h)
    · simp at h; exact .inl h
    · rcases ih h with h | h
      · exact .inl h
      · exact .inr (.inr (.inr h))
  | case2 a b r hb ih =>
    simp only [List.flatten_cons, List.mem_append] at h ⊢ ih
    rcases h with h | h
    · exact .inr (.inl h)
    · rcases ih h with h | h
      · exact .inl h
      · exact .inr (.inr h)
  | case3 l => exact .inr h

/-- With whitespace replaced, a space is the only ASCII whitespace in the chunks. -/
theorem wrapInput_tw (u : Uni) (o : WrapOpts) (hr : o.replaceWs = true) (s : Str) (c : Char) (h : c ∈ (wrapInput u o s).flatten)
    (ht : isTwSpace c = true) : c = ' ' := by
  have hm : c ∈ munge o s → c = ' ' := by
    intro h
    unfold munge at h
    simp only [hr, if_true, List.mem_map] at h
    obtain ⟨x, -, e⟩ := h
    by_cases hx : isTwSpace x = true
    · rw [if_pos hx] at e; exact e.symm
    · rw [if_neg hx] at e; subst e; exact absurd ht hx
  unfold wrapInput at h
  simp only at h
  split at h
  · rcases fixSentence_mem _ c h with h | h
    · exact h
    · rw [splitChunks_flatten] at h; exact hm h
  · rw [splitChunks_flatten] at h; exact hm h

theorem wrap_noNl {u : Uni} {o : WrapOpts} {text : Str} {out : List Str} (hm : o.maxLines = none) (hr : o.replaceWs = true)
    (h1 : '\n' ∉ o.initialIndent) (h2 : '\n' ∉ o.subsequentIndent) (h : wrap u o text = .ok out) : ∀ l ∈ out, '\n' ∉ l := by
  obtain ⟨-, -, h⟩ := wrap_ok h
  obtain ⟨ls, bs, e1, e2, e3⟩ := wrapLoop_sublist u o hm _ [] _ out h
  rw [List.nil_append] at e1
  subst e1
  have key : ∀ (before ls bs : List Str), Indented o before ls bs → (∀ b ∈ bs, '\n' ∉ b) → ∀ l ∈ ls, '\n' ∉ l := by
    intro before ls
    induction ls generalizing before with
    | nil => intro bs _ _ l hl; cases hl
    | cons l ls ih =>
      intro bs hi hb
      cases bs with
      | nil => exact hi.elim
      | cons b bs =>
        obtain ⟨e, hi⟩ := hi
        intro l' hl'
        rcases List.mem_cons.1 hl' with rfl | hl'
        · rw [e]
          intro hn
          rcases List.mem_append.1 hn with hn | hn
          · unfold indentAfter at hn
            split at hn
            · exact h1 hn
            · exact h2 hn
          · exact hb b (by simp) hn
        · exact ih _ bs hi (fun b' hb' => hb b' (List.mem_cons_of_mem _ hb')) l' hl'
  refine key _ _ _ e2 ?_
  intro b hb hn
  have := wrapInput_tw u o hr text '\n' (e3.subset (List.mem_flatten.2 ⟨b, hb, hn⟩)) (by decide)
  exact absurd this (by decide)

end Verif
