import Verif.Spec.Links

/-!
# The list of links at the end of a text page
-/

namespace Verif.Spec

/-- The line of a link: its number, the beginning of its text, its address and its title. -/
def linkLine (limit number : Nat) (text : Str) (href title : Option Str) : Str :=
  py"[" ++ natStr number ++ py"] " ++ cutText limit text ++ py": " ++ href.getD py"None" ++ titlePart title

/-- What an image shows, or `Image`. -/
def altText : Option Str → Str
  | none | some [] => py"Image"
  | some t => t

/-- The line of an image; what it shows is repeated in quotes if it had to be cut. -/
def imageLine (number : Nat) (src alt : Option Str) : Str :=
  py"[" ++ natStr number ++ py"] " ++ cutText 10 (altText alt) ++ py": " ++ src.getD py"None" ++
    (if 10 < (altText alt).length then py" \"" ++ altText alt ++ py"\"" else [])

/-- So many line breaks. -/
def newlines (n : Nat) : Str := List.replicate n '\n'

/-- The line of a link or image, before the whitespace at the ends of lines is removed. -/
def FootLine (u : Uni) (es : List Event) (s : PState) (box : Box) (limit i number : Nat) (line : Str) : Prop :=
  (HasTag s.dom i py"a" ∧ ∃ text fuel, linkText u s fuel (inside box 0 0) i = .ok text ∧
    line = linkLine limit number text (attrText es i py"href") (attrText es i py"title")) ∨
  (HasTag s.dom i py"img" ∧ line = imageLine number (attrText es i py"src") (attrText es i py"alt"))

end Verif.Spec
