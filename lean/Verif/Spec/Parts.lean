import Verif.Spec.Tidy

/-!
# Two documents, one after the other
-/

namespace Verif.Spec

/-- The second forest after the first. -/
def Forest.append : Forest → Forest → Forest
  | .nil, g => g
  | .text s rest, g => .text s (rest.append g)
  | .elem tag attrs kids rest, g => .elem tag attrs kids (rest.append g)

/-- The forest is empty, or its last node is a block that the default style puts on lines of its own. -/
def Forest.EndsInBlock : Forest → Prop
  | .nil => True
  | .text _ .nil => False
  | .elem tag _ _ .nil => tag ∈ blockTags
  | .text _ rest => rest.EndsInBlock
  | .elem _ _ _ rest => rest.EndsInBlock

/-- The first element on the top level. -/
def Forest.firstTag : Forest → Option Str
  | .nil => none
  | .text _ rest => rest.firstTag
  | .elem tag _ _ _ => some tag

/-- The number of nodes on the top level. -/
def Forest.length : Forest → Nat
  | .nil => 0
  | .text _ rest => rest.length + 1
  | .elem _ _ _ rest => rest.length + 1

/-- What comes before does not change how the second document begins: list items and terms leave out a line break if they are the first
element. -/
def Joins (f g : Forest) : Prop :=
  f.topCount (fun _ => true) = 0 ∨ (g.firstTag ≠ some py"li" ∧ g.firstTag ≠ some py"dt")

end Verif.Spec
