import Verif.Spec.Wrap

/-!
# The words of a text
-/

namespace Verif.Spec

/-- The words of a text, in order: `ws` are the maximal runs of non-whitespace. -/
inductive Words : Str → List Str → Prop where
  | done {b : Str} (hb : Blank b) : Words b []
  | word {b w r : Str} {ws : List Str} (hb : Blank b) (hw : w ≠ []) (hn : ∀ c ∈ w, isSpace c = false)
      (hr : ∀ c, r.head? = some c → isSpace c = true) (h : Words r ws) : Words (b ++ w ++ r) (w :: ws)

end Verif.Spec
