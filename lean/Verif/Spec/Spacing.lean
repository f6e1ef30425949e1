import Verif.Spec.Text
import Verif.Model.Parser

/-!
# Blanks and line ends of the source
-/

namespace Verif.Spec

/-- The whitespace of a text is that of source files: spaces, tabs and line ends, a line feed or a carriage return and a line
feed. -/
def SourceBlanks (x : Str) : Prop :=
  ∀ p c q, x = p ++ c :: q → isSpace c = true → c ∈ [' ', '\t', '\n'] ∨ c = '\r' ∧ q.head? = some '\n'

/-- Two texts that differ in blanks and line ends only: the words are the same, and there is whitespace at the beginning and at
the end of both or of none. -/
def SameText (x y : Str) : Prop :=
  x = y ∨ SourceBlanks x ∧ SourceBlanks y ∧ (∀ ws, Words x ws ↔ Words y ws) ∧ (StartsWs x ↔ StartsWs y) ∧ (EndsWs x ↔ EndsWs y)

/-- Two documents that differ in the blanks and line ends of texts outside `pre`. The flag tells whether they start inside. -/
inductive SameButBlanks : Bool → List Event → List Event → Prop where
  | nil {pre : Bool} : SameButBlanks pre [] []
  | start {pre : Bool} {es es' : List Event} (tag : Str) (attrs : List (Str × Option Str))
      (h : SameButBlanks (if tag = py"pre" then true else pre) es es') :
      SameButBlanks pre (.start tag attrs :: es) (.start tag attrs :: es')
  | stop {pre : Bool} {es es' : List Event} (tag : Str) (h : SameButBlanks (if tag = py"pre" then false else pre) es es') :
      SameButBlanks pre (.stop tag :: es) (.stop tag :: es')
  | data {pre : Bool} {es es' : List Event} {x y : Str} (hx : x = y ∨ pre = false ∧ SameText x y) (h : SameButBlanks pre es es') :
      SameButBlanks pre (.data x :: es) (.data y :: es')

end Verif.Spec
