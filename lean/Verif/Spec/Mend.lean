import Verif.Spec.Tree

/-!
# Documents whose tags do not match
-/

namespace Verif.Spec

/-- The document with its end tags put right: an end tag that is not that of the innermost open element is left out, and what is still
open at the end is closed. The first argument are the names of the open elements, the innermost first. -/
def mend : List Str → List Event → List Event
  | open_, [] => open_.map .stop
  | open_, .data s :: r => .data s :: mend open_ r
  | open_, .start tag attrs :: r => .start tag attrs :: mend (if VoidTag tag then open_ else tag :: open_) r
  | [], .stop _ :: r => mend [] r
  | t :: open_, .stop tag :: r => if tag = t then .stop tag :: mend open_ r else mend (t :: open_) r

/-- No end tag of `pre` is found inside a `pre` element other than where it belongs. -/
def NoStrayPre : List Str → List Event → Prop
  | _, [] => True
  | open_, .data _ :: r => NoStrayPre open_ r
  | open_, .start tag _ :: r => NoStrayPre (if VoidTag tag then open_ else tag :: open_) r
  | [], .stop _ :: r => NoStrayPre [] r
  | t :: open_, .stop tag :: r => if tag = t then NoStrayPre open_ r else (tag = py"pre" → py"pre" ∉ open_) ∧ NoStrayPre (t :: open_) r

/-- No `pre` element is inside of another. -/
def NoNestedPre : List Str → List Event → Prop
  | _, [] => True
  | open_, .data _ :: r => NoNestedPre open_ r
  | open_, .start tag _ :: r => (tag = py"pre" → py"pre" ∉ open_) ∧ NoNestedPre (if VoidTag tag then open_ else tag :: open_) r
  | [], .stop _ :: r => NoNestedPre [] r
  | t :: open_, .stop tag :: r => if tag = t then NoNestedPre open_ r else NoNestedPre (t :: open_) r

/-- The tree that the tags and texts stand for. -/
def Denotes (es : List Event) (f : Forest) : Prop := NoStrayPre [] es ∧ mend [] es = f.events

end Verif.Spec
