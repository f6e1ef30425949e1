import Verif.Spec.Fewest

/-!
# Where a text can be divided
-/

namespace Verif.Spec

/-- The characters that are whitespace for wrapping. -/
def blanks : Str := py" \t\n\x0b\x0c\r"

def Letter (u : Uni) (c : Char) : Prop := u.isWord c = true ∧ u.isDigit c = false

/-- Two letters, perhaps with a hyphen between them. -/
def LetterPair (u : Uni) (s : Str) : Prop := ∃ x y, Letter u x ∧ Letter u y ∧ (s = [x, y] ∨ s = [x, '-', y])

/-- What can come before a dash. -/
def WordEnd (u : Uni) (c : Char) : Prop := u.isWord c = true ∨ c ∈ py"!\"'&.,?"

/-- Between `a` and `b` words begin or end: one side is whitespace and the other is not. -/
def AtSpace (a b : Str) : Prop := ∃ a' c d b', a = a' ++ [c] ∧ b = d :: b' ∧ ¬ (c ∈ blanks ↔ d ∈ blanks)

/-- Lines can also be broken inside of a word: after a hyphen that has two letters on both sides, each perhaps with a hyphen between them;
and before and after a dash, which is two hyphens or more, between the end of a word and the beginning of another. -/
inductive Divided (u : Uni) : Str → Str → Prop where
  | space {a b} : AtSpace a b → Divided u a b
  | hyphen {a p q b : Str} : LetterPair u p → LetterPair u q → Divided u (a ++ p ++ ['-']) (q ++ b)
  | beforeDash {a : Str} {p w : Char} {b : Str} {n : Nat} : WordEnd u p → u.isWord w = true → 2 ≤ n →
      Divided u (a ++ [p]) (List.replicate n '-' ++ w :: b)
  | afterDash {a : Str} {p w : Char} {b : Str} {n : Nat} : WordEnd u p → u.isWord w = true → 2 ≤ n →
      Divided u (a ++ p :: List.replicate n '-') (w :: b)

/-- The pieces of a text that is divided wherever `D` says. -/
structure Pieces (D : Str → Str → Prop) (s : Str) (cs : List Str) : Prop where
  text : cs.flatten = s
  none : ∀ c ∈ cs, c ≠ []
  divided : ∀ a b, a ≠ [] → b ≠ [] → a ++ b = s → ((∃ p q, cs = p ++ q ∧ p.flatten = a) ↔ D a b)

/-- The places where a text can be divided, if words are broken at hyphens or not. -/
def places (u : Uni) (o : WrapOpts) : Str → Str → Prop := if o.breakHyphens then Divided u else AtSpace

/-- The only whitespace is the blank. -/
def OnlyBlanks (s : Str) : Prop := ∀ c ∈ s, c ∈ blanks → c = ' '

end Verif.Spec
