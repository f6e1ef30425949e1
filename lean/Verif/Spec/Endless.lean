import Verif.Spec.Wrap

/-!
# When wrapping does not end
-/

namespace Verif.Spec

/-- Long words are broken; if whitespace is dropped, then the indent of the first line is longer than the line and the text begins with
whitespace; if not, then the indent of the other lines is longer than the line and the text is too long for the first. -/
def Endless (u : Uni) (o : WrapOpts) (pieces : List Str) : Prop :=
  o.breakLong = true ∧
  (o.dropWs = true ∧ o.width < len o.initialIndent ∧ (∃ c r, pieces = c :: r ∧ Blank c) ∨
   o.dropWs = false ∧ o.width < len o.subsequentIndent ∧ pieces ≠ [] ∧ o.width - len o.initialIndent < visible u pieces)

end Verif.Spec
