import Verif.Spec.Sentence

/-!
# Words with colours
-/

namespace Verif.Spec

/-- A word with colour sequences in it: something of it is visible, every sequence is complete, and it has no whitespace. -/
def ColouredWord (u : Uni) (w : Str) : Prop := (∃ t, Strips u w t ∧ ¬ Blank t ∧ '\x1b' ∉ t) ∧ ∀ c ∈ w, isTwSpace c = false

/-- ASCII whitespace. -/
def SpaceGap (g : Str) : Prop := g ≠ [] ∧ ∀ c ∈ g, isTwSpace c = true

/-- Words and gaps in turn. -/
inductive Prose (u : Uni) : List Str → Prop where
  | nil : Prose u []
  | word {w : Str} (h : ColouredWord u w) : Prose u [w]
  | gap {g : Str} (h : SpaceGap g) : Prose u [g]
  | wordGap {w g : Str} {ps : List Str} (h : ColouredWord u w) (hg : SpaceGap g) (r : Prose u (g :: ps)) : Prose u (w :: g :: ps)
  | gapWord {g w : Str} {ps : List Str} (hg : SpaceGap g) (h : ColouredWord u w) (r : Prose u (w :: ps)) : Prose u (g :: w :: ps)

end Verif.Spec
