import Verif.Py.Basic
import Verif.Model.Box

/-!
# The class `Formatter`, `gopher_render/rendering.py` 212-260

Nothing in the project uses it; it is a base class for subclasses that override `format`, the parameter of `Formatter.call`. Settings are of any
type `V`; attributes are a list of pairs, and no attributes are an empty list. Overriding `_get_format` and `get_box` is left out.
-/

namespace Verif

/-- The keyword arguments `__call__` hands to `format`, `rendering.py` 240-245. -/
structure FormatCall (V : Type) where
  tag : Str
  content : Str
  attrs : List (Str × Option Str)
  parentBox : Option Box
  classes : List Str
  settings : List (Str × V)
  box : Option Box

/-- The loop of `__extract_classes`, `rendering.py` 222-225. -/
def classAttr : (classes : Option Str) → List (Str × Option Str) → Option Str
  | classes, [] => classes
  | classes, a :: r => classAttr (if a.1 = py"class" then a.2 else classes) r

/-- `Formatter.__extract_classes`, `rendering.py` 221-226; `None` has no `split`. -/
def formatterClasses (attrs : List (Str × Option Str)) : Py (List Str) :=
  match classAttr (some []) attrs with
  | some s => .ok (splitWs s)
  | none => .error .attributeError

/-- `Formatter._get_format`, `rendering.py` 228-237. -/
def baseFormat {V : Type} (defaults : List (Str × V)) : List (Str × V) := defaults

/-- `Formatter.get_box`, `rendering.py` 247-257; a box is always true. -/
def baseBox (parentBox : Option Box) : Option Box :=
  match parentBox with
  | some p => some (Box.new 67 {} {} {} none (some p))
  | none => none

/-- `Formatter.format`, `rendering.py` 259-260. -/
def basePrint {V : Type} (a : FormatCall V) : Py Str := .ok a.content

/-- `Formatter.__call__`, `rendering.py` 239-245, with the method `format` of a subclass. -/
def Formatter.call {V : Type} (defaults : List (Str × V)) (format : FormatCall V → Py Str) (tag content : Str)
    (attrs : List (Str × Option Str)) (parentBox : Option Box) : Py Str := do
  let classes ← formatterClasses attrs
  format { tag, content, attrs, parentBox, classes, settings := baseFormat defaults, box := baseBox parentBox }

end Verif
