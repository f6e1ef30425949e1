import Verif.Spec.Wrap

/-!
# Spacing of sentences
-/

namespace Verif.Spec

/-- The text ends with a sentence: a lower case ASCII letter, a full stop, exclamation mark or question mark, and perhaps a
quotation mark. -/
def SentenceEnd (p : Str) : Prop :=
  ∃ r l e, 'a' ≤ l ∧ l ≤ 'z' ∧ e ∈ ['.', '!', '?'] ∧ (p = r ++ [l, e] ∨ ∃ q, q ∈ ['"', '\''] ∧ p = r ++ [l, e, q])

/-- Nowhere inside the line is the end of a sentence followed by one space only. -/
def WellSpaced (line : Str) : Prop := ∀ p c q, line = p ++ ' ' :: c :: q → isSpace c = false → ¬ SentenceEnd p

end Verif.Spec
