import Verif.Spec.Text

/-!
# Justified lines
-/

namespace Verif.Spec

/-- `b` is `a` with every space replaced by `n` or `n + 1` spaces. -/
inductive Stretched (n : Nat) : Str → Str → Prop where
  | nil : Stretched n [] []
  | char {c : Char} {a b : Str} (hc : c ≠ ' ') (h : Stretched n a b) : Stretched n (c :: a) (c :: b)
  | gap {k : Nat} {a b : Str} (hk : k = n ∨ k = n + 1) (h : Stretched n a b) : Stretched n (' ' :: a) (List.replicate k ' ' ++ b)

/-- `l'` is the line `l`, indented as far, with its gaps evenly widened. -/
def Widened (l l' : Str) : Prop :=
  ∃ indent indent' body body' n, l = indent ++ body ∧ l' = indent' ++ body' ∧ Blank indent ∧ Blank indent' ∧
    indent'.length = indent.length ∧ ¬ StartsWs body ∧ 1 ≤ n ∧ Stretched n body body'

/-- There is a space between two words. -/
def HasGap (l : Str) : Prop :=
  ∃ a b, l = a ++ ' ' :: b ∧ (∃ c ∈ a, isSpace c = false) ∧ (∃ c ∈ b, isSpace c = false)

end Verif.Spec
