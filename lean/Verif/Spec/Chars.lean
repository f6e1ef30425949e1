import Verif.Spec.TreePage
import Verif.Spec.Alike

/-!
# The characters of a page
-/

namespace Verif.Spec

/-- The characters that the default style adds: blanks and line breaks, the marks of elements, digits and dots, and the letters of `Image` and
`None`. -/
def ownChars : Str := py" \n*_~`[]()#>.:!\"0123456789ImageNone"

/-- The character is in a text of the forest, or in an attribute whose value is shown. -/
def Forest.Has (ch : Char) : Forest → Prop
  | .nil => False
  | .text s rest => ch ∈ s ∨ rest.Has ch
  | .elem tag attrs kids rest =>
    (∃ name v, name ∈ shownAttrs tag ∧ (name, some v) ∈ attrs ∧ ch ∈ v) ∨ kids.Has ch ∨ rest.Has ch

/-- The addresses of the links, in order. -/
def Forest.addresses : Forest → List (Option Str)
  | .nil => []
  | .text _ rest => rest.addresses
  | .elem tag attrs kids rest => (if tag = py"a" then [givenAttr attrs py"href"] else []) ++ kids.addresses ++ rest.addresses

/-- The lines with a tab in them. -/
def tabLines (s : Str) : List Str := (splitCh '\n' s).filter (fun l => l.contains '\t')

/-- The line of item `n`: the type, the number in brackets and the description (if they have line breaks then what follows the last one), the
selector, the host and the port, with tabs between them. -/
def MapItem (g : GopherLink) (n : Nat) (line : Str) : Prop :=
  ∃ above first description, '\t' ∉ first ∧ '\n' ∉ first ∧ (above = [] ∨ above.getLast? = some '\n') ∧
    above ++ first = g.type ++ py"[" ++ natStr n ++ py"] " ++ description ∧
    line = first ++ py"\t" ++ g.selector ++ py"\t" ++ g.host.getD py"None" ++ py"\t" ++ (g.port.map intStr).getD py"None"

/-- One line for each address, with the numbers after `n`. -/
inductive MapItems (u : Uni) (c : Cfg) : Nat → List (Option Str) → List Str → Prop where
  | nil {n} : MapItems u c n [] []
  | cons {n href hrefs g line lines} : parseHref u c.gopherHost c.gopherPort href = .ok g → MapItem g (n + 1) line →
      MapItems u c (n + 1) hrefs lines → MapItems u c n (href :: hrefs) (line :: lines)

end Verif.Spec
