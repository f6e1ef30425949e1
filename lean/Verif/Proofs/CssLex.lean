import Verif.Model.CssParse

/-!
# The tokenizer of selectors

Every step consumes something, so the bound on the number of steps is never met.
-/

namespace Verif

theorem hexRun_length : ∀ (n : Nat) (s : Str), (hexRun n s).2.length ≤ s.length
  | 0, s => by simp [hexRun]
  | n + 1, [] => by simp [hexRun]
  | n + 1, c :: r => by
    rw [hexRun]
    split
    · have := hexRun_length n r
      simp only [List.length_cons]; omega
    · exact Nat.le_refl _

theorem escBlank_length (s : Str) : (escBlank s).2.length ≤ s.length := by
  unfold escBlank
  split
  · simp only [List.length_cons]; omega
  · split <;> simp
  · simp

theorem cssEscape_length {s p r : Str} (h : cssEscape s = some (p, r)) : r.length < s.length := by
  unfold cssEscape at h
  split at h
  · cases h
  · rename_i c t
    split at h
    · rename_i hc
      simp only [Option.some.injEq, Prod.mk.injEq] at h
      obtain ⟨-, rfl⟩ := h
      have h1 := escBlank_length (hexRun 6 (c :: t)).2
      have h2 : (hexRun 6 (c :: t)).2.length ≤ t.length := by
        rw [hexRun, if_pos hc]; exact hexRun_length 5 t
      simp only [List.length_cons]; omega
    · split at h
      · cases h
      · simp only [Option.some.injEq, Prod.mk.injEq] at h
        obtain ⟨-, rfl⟩ := h
        simp

theorem namePiece_length {b : Bool} {s p r : Str} (h : namePiece b s = some (p, r)) : r.length < s.length := by
  unfold namePiece at h
  split at h
  · cases h
  · split at h
    · have := cssEscape_length h
      simp only [List.length_cons]; omega
    · generalize (if b = true then cssStart _ else cssName _) = k at h
      cases k with
      | false => cases h
      | true =>
        simp only [if_true, Option.some.injEq, Prod.mk.injEq] at h
        obtain ⟨-, rfl⟩ := h
        simp

theorem nameRun_length : ∀ (f : Nat) (s : Str), (nameRun f s).2.length ≤ s.length
  | 0, s => by simp [nameRun]
  | f + 1, s => by
    rw [nameRun]
    split
    · exact Nat.le_refl _
    · rename_i p r h
      have h1 := namePiece_length h
      have h2 := nameRun_length f r
      simp only; omega

theorem identMatch_length {s v r : Str} (h : identMatch s = some (v, r)) : r.length < s.length := by
  unfold identMatch at h
  simp only at h
  split at h
  · cases h
  · rename_i p t hp
    simp only [Option.some.injEq, Prod.mk.injEq] at h
    obtain ⟨-, rfl⟩ := h
    have h1 := namePiece_length hp
    have h2 := nameRun_length t.length t
    have h3 : (leadHyphen s).2.length ≤ s.length := by
      unfold leadHyphen; split <;> simp
    omega

theorem stringRun_length (q : Char) : ∀ (f : Nat) (s : Str), (stringRun q f s).2.length ≤ s.length
  | 0, s => by simp [stringRun]
  | f + 1, [] => by simp [stringRun]
  | f + 1, c :: r => by
    have ih := stringRun_length q f
    unfold stringRun
    simp only
    split
    · split
      · have := ih (by assumption); simp only [List.length_cons]; omega
      · rename_i d t _
        split
        · have := ih t; simp only [List.length_cons]; omega
        · split
          · rename_i p t' he
            have h1 := cssEscape_length he
            have h2 := ih t'
            simp only [List.length_cons] at h1 ⊢; omega
          · exact Nat.le_refl _
      · exact Nat.le_refl _
    · split
      · exact Nat.le_refl _
      · have := ih r; simp only [List.length_cons]; omega

theorem numberMatch_length {s v r : Str} (h : numberMatch s = some (v, r)) : r.length < s.length := by
  unfold numberMatch at h
  simp only at h
  generalize e : leadSign s = sg at h
  have h3 : sg.2.length ≤ s.length := by
    rw [← e]; unfold leadSign; split <;> simp
  have h4 : (sg.2.takeWhile cssDigit).length + (sg.2.dropWhile cssDigit).length = sg.2.length := by
    rw [← List.length_append, List.takeWhile_append_dropWhile]
  have hw : ∀ {x : Str × Str}, (if sg.2.takeWhile cssDigit = [] then none
      else some (sg.1 ++ sg.2.takeWhile cssDigit, sg.2.dropWhile cssDigit)) = some x → x.2.length < s.length := by
    intro x hx
    split at hx
    · cases hx
    · rename_i hd
      simp only [Option.some.injEq] at hx
      subst hx
      have := List.length_pos_iff.mpr hd
      simp only; omega
  split at h
  · rename_i t ht
    split at h
    · exact hw h
    · simp only [Option.some.injEq, Prod.mk.injEq] at h
      obtain ⟨-, rfl⟩ := h
      rw [ht, List.length_cons] at h4
      have := (List.dropWhile_suffix (l := t) cssDigit).length_le
      omega
  · exact hw h

theorem afterComment_length : ∀ s : Str, (afterComment s).length ≤ s.length
  | [] => by simp [afterComment]
  | [c] => by
    unfold afterComment
    split
    · rename_i h; cases h
    · rename_i h; cases h; simp [afterComment]
    · simp
  | c :: d :: r => by
    unfold afterComment
    split
    · rename_i h; cases h; simp only [List.length_cons]; omega
    · rename_i h; cases h
      have := afterComment_length (d :: r)
      simp only [List.length_cons] at this ⊢; omega
    · simp

theorem cssTokens_fuel : ∀ (n : Nat) (s : Str) (f g : Nat), s.length ≤ n → s.length < f → s.length < g →
    cssTokens f s = cssTokens g s
  | _, [], f + 1, g + 1, _, _, _ => by simp [cssTokens]
  | 0, c :: s, _, _, h, _, _ => by simp at h
  | _, _, 0, _, _, h, _ => by omega
  | _, _, _, 0, _, _, h => by omega
  | n + 1, c :: s, f + 1, g + 1, hn, hf, hg => by
    simp only [List.length_cons] at hn hf hg
    have ih : ∀ r : Str, r.length ≤ s.length → cssTokens f r = cssTokens g r := fun r hr =>
      cssTokens_fuel n r f g (by omega) (by omega) (by omega)
    unfold cssTokens
    simp only
    split
    · rw [ih _ (List.dropWhile_suffix cssBlank).length_le]
    · split
      · rename_i v r h
        have := identMatch_length h
        rw [ih r (by simp only [List.length_cons] at this; omega)]
      · split
        · rw [ih _ (nameRun_length _ _)]
        · split
          · split
            · rfl
            · rename_i d r h
              have := stringRun_length c s.length s
              rw [h, List.length_cons] at this
              rw [ih r (by omega)]
          · split
            · rename_i v r h
              have := numberMatch_length h
              rw [ih r (by simp only [List.length_cons] at this; omega)]
            · split
              · rename_i r _ _ _ _ _
                have := afterComment_length r
                rw [ih _ (by simp only [List.length_cons]; omega)]
              · rw [ih _ (Nat.le_refl _)]

/-- The tokens of a text. -/
def lexCss (s : Str) : Py (List CssTok) := cssTokens (s.length + 1) s

theorem cssTokens_lex {f : Nat} {s : Str} (h : s.length < f) : cssTokens f s = lexCss s :=
  cssTokens_fuel s.length s f (s.length + 1) (Nat.le_refl _) h (Nat.lt_succ_self _)

/-- The tokenizer raises nothing but the exception for malformed selectors. -/
theorem cssTokens_error : ∀ (f : Nat) (s : Str) (e : PyErr), s.length < f → cssTokens f s = .error e → e = .selectorSyntax
  | 0, s, _, h, _ => by omega
  | f + 1, [], e, _, h => by simp [cssTokens] at h
  | f + 1, c :: s, e, hf, h => by
    simp only [List.length_cons] at hf
    have ih : ∀ (r : Str) (t : CssTok), r.length ≤ s.length → (cssTokens f r).map (t :: ·) = .error e → e = .selectorSyntax := by
      intro r t hr he
      cases hc : cssTokens f r with
      | ok x => rw [hc] at he; cases he
      | error x =>
        rw [hc] at he
        cases he
        exact cssTokens_error f r e (by omega) hc
    unfold cssTokens at h
    simp only at h
    split at h
    · exact ih _ _ (List.dropWhile_suffix cssBlank).length_le h
    · split at h
      · rename_i v r hi
        have := identMatch_length hi
        exact ih _ _ (by simp only [List.length_cons] at this; omega) h
      · split at h
        · exact ih _ _ (nameRun_length _ _) h
        · split at h
          · split at h
            · cases h; rfl
            · rename_i d r hs
              have := stringRun_length c s.length s
              rw [hs, List.length_cons] at this
              split at h
              · exact ih _ _ (by omega) h
              · cases h; rfl
          · split at h
            · rename_i v r hi
              have := numberMatch_length hi
              exact ih _ _ (by simp only [List.length_cons] at this; omega) h
            · split at h
              · rename_i r _ _ _ _ _
                have := afterComment_length r
                exact cssTokens_error f _ e (by simp only [List.length_cons] at hf; omega) h
              · exact ih _ _ (Nat.le_refl _) h

end Verif
