import Verif.Py.Format

/-!
# Format specifications
-/

namespace Verif.Spec

/-- Where a text stands in the room it is given. -/
inductive Side where
  | left
  | right
  | middle
  deriving DecidableEq, Repr

/-- How a text is laid out: cut to a number of characters and filled up to a width. -/
structure Layout where
  fill : Char := ' '
  side : Side
  width : Nat
  cut : Option Nat := none
  deriving DecidableEq, Repr

def Side.char : Side → Char
  | .left => '<'
  | .right => '>'
  | .middle => '^'

/-- What asks for the cut. -/
def Layout.cutText (l : Layout) : Str := match l.cut with | none => [] | some p => py"." ++ natStr p

/-- The ways to ask for a layout, for texts and for numbers: the fill character, the side, the width and the cut. Blanks need not be written;
without a side texts are on the left and numbers on the right; zeros are written before the width. -/
inductive Layout.Written (number : Bool) (l : Layout) : Str → Prop where
  | full : Written number l ([l.fill, l.side.char] ++ natStr l.width ++ l.cutText)
  | blanks : l.fill = ' ' → 0 < l.width → Written number l ([l.side.char] ++ natStr l.width ++ l.cutText)
  | plain : l.fill = ' ' → 0 < l.width → l.side = (if number then .right else .left) → Written number l (natStr l.width ++ l.cutText)
  | zeros : number = false → l.fill = '0' → l.side = .left → Written number l (py"0" ++ natStr l.width ++ l.cutText)
  | cutOnly : number = false → l.fill = ' ' → l.side = .left → l.width = 0 → l.cut ≠ none → Written number l l.cutText

/-- The field of a template with this format specification; the name of the argument may be empty. -/
def fieldOf (name spec : Str) : Str := py"{" ++ name ++ py":" ++ spec ++ py"}"

/-- The layout can be written: the fill character is not a brace, and the numbers are not larger than Python allows. -/
structure Layout.Writable (l : Layout) : Prop where
  fill : l.fill ≠ '{' ∧ l.fill ≠ '}'
  width : l.width < 2 ^ 63
  cut : ∀ p, l.cut = some p → p < 2 ^ 63

/-- `y` is `x` in this layout: the beginning of `x` between fill characters. -/
def LaidOut (l : Layout) (x y : Str) : Prop :=
  ∃ (m : Nat) (n : Nat) (kept : Str), y = List.replicate m l.fill ++ kept ++ List.replicate n l.fill ∧
    kept <+: x ∧ (∀ p, l.cut = some p → kept.length = min p x.length) ∧ (l.cut = none → kept = x) ∧
    y.length = max l.width kept.length ∧
    (match l.side with
      | .left => m = 0
      | .right => n = 0
      | .middle => m ≤ n ∧ n ≤ m + 1)

end Verif.Spec
