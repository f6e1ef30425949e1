import Verif.Model.Cli
import Verif.Spec.Accept
import Verif.Spec.Room

/-!
# What the command line program should do
-/

namespace Verif.Spec

/-- The file name in a path: what follows the last `/`, if slashes and `/.` at the end are left out. -/
inductive FileName : Str → Str → Prop where
  | plain {dir name} : dir = [] ∨ dir.getLast? = some '/' → '/' ∉ name → name ≠ [] → name ≠ py"." → FileName (dir ++ name) name
  | slash {path name} : FileName path name → FileName (path ++ py"/") name
  | dot {path name} : FileName path name → path.getLast? = some '/' → FileName (path ++ py".") name

/-- The path is that of a Markdown file: its name is something followed by `.md`. -/
def IsMarkdown (path : Str) : Prop := ∃ stem, stem ≠ [] ∧ FileName path (stem ++ py".md")

/-- The document in the file: its content, converted if it is Markdown. -/
inductive Document (w : World) (path : Str) : Str → Prop where
  | markdown {text html} : IsMarkdown path → w.read path = .ok text → w.markdown text = .ok html → Document w path html
  | html {html} : ¬ IsMarkdown path → w.read path = .ok html → Document w path html

/-- The end tags, in order, that do not belong to the innermost open element (`</br>` and `</img>` aside). -/
def ignoredEnds (st : List Str) : List Event → List Str
  | [] => []
  | e :: es => (match e with
      | .stop tag => if VoidTag tag ∨ st.head? = some tag then [] else [tag]
      | _ => []) ++ ignoredEnds (openAfter st e) es

/-- The lines printed about them. -/
def complaints (es : List Event) : Str :=
  ((ignoredEnds [] es).map (fun tag => py"Unsupported or mismatched end tag, ignoring: " ++ tag ++ py"\n")).flatten

end Verif.Spec
