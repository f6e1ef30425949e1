import Verif.Model.Namedict

/-!
# The project's tests of `namedict`

`/repo/tests/test_namedict.py`, evaluated in the model. The attributes of `dict` used as names are none of `t`, `x`, `xxx`.
-/

namespace Verif.RepoTests

/-- A few of the attributes of `dict`. -/
def dictAttr (name : Str) : Bool := [py"get", py"items", py"keys", py"update"].contains name

def empty : NDict Str := { items := [] }

/-- What reading an attribute gives, as a value. -/
def value : Py (Attr Str) → Py Str
  | .ok (.val v) => .ok v
  | .ok (.method n) => .ok n
  | .error e => .error e

def failure {α : Type} : Py α → Option PyErr
  | .ok _ => none
  | .error e => some e

/-- `test_access` -/
example : value ((empty.setItem py"t" py"present").getAttr dictAttr py"t") = .ok py"present" := by decide

/-- `test_access_failure` -/
example : failure (empty.getAttr dictAttr py"xxx") = some .attributeError ∧
    failure (empty.getItem py"xxx") = some .keyError := by decide

/-- `test_set` -/
example : (empty.setAttr dictAttr py"t" py"set").getItem py"t" = .ok py"set" := by decide

/-- `test_del` -/
example : (match (empty.setAttr dictAttr py"x" py"100").delAttr dictAttr py"x" with
    | .ok d => failure (d.getAttr dictAttr py"x") == some .attributeError && failure (d.getItem py"x") == some .keyError
    | .error _ => false) = true := by decide

/-- `test_del_failure` -/
example : failure (empty.delAttr dictAttr py"xxx") = some .attributeError ∧
    failure (empty.delItem py"xxx") = some .keyError := by decide

end Verif.RepoTests
