import Verif.Spec.Layout

/-!
# All format specifications for texts
-/

namespace Verif.Spec

/-- Zeros and a number that is not larger than Python allows. -/
def Numeral (s : Str) (n : Nat) : Prop := n < 2 ^ 63 ∧ ∃ zeros, s = List.replicate zeros '0' ++ natStr n

/-- The beginning of a specification, up to the width: nothing, a side, a fill character and a side; if there is no fill character then
a zero may come after it. -/
inductive Layout.Head (l : Layout) : (fill : Bool) → Str → Prop where
  | none : l.side = .left → l.fill = ' ' → l.Head false []
  | zero : l.side = .left → l.fill = '0' → l.Head true py"0"
  | side : l.fill = ' ' → l.Head false [l.side.char]
  | sideZero : l.fill = '0' → l.Head true [l.side.char, '0']
  | fill : l.Head true [l.fill, l.side.char]

/-- All ways to ask for a layout of a text: the beginning, the width, the number of characters to cut it to, and the letter `s`. Where no
fill character is given the width does not begin with a zero. -/
def Layout.Meant (l : Layout) (spec : Str) : Prop :=
  ∃ fill head width cut letter, spec = head ++ width ++ cut ++ letter ∧ l.Head fill head ∧
    (width = [] ∧ l.width = 0 ∨ Numeral width l.width ∧ (fill = false → width.head? ≠ some '0')) ∧
    (cut = [] ∧ l.cut = none ∨ ∃ n p, cut = '.' :: n ∧ Numeral n p ∧ l.cut = some p) ∧
    (letter = [] ∨ letter = py"s")

end Verif.Spec
