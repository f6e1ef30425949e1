import Verif.Py.Dict

/-!
# `namedict`, `gopher_render/_namedict.py`

An instance has the items of the dict and an instance `__dict__`. `isAttr` tells the names that attribute lookup finds
on the type, that is the attributes of `dict`. They are taken to be methods, so that the instance `__dict__` can shadow
them; assigning to data descriptors such as `__class__` is not modelled.
-/

namespace Verif

/-- A `namedict`: the items and the instance `__dict__`. -/
structure NDict (α : Type) where
  items : DictOf α
  own : DictOf α := []

/-- What reading an attribute gives: a value, or a method of `dict`. -/
inductive Attr (α : Type) where
  | val (v : α)
  | method (name : Str)

namespace NDict

variable {α : Type} (isAttr : Str → Bool)

/-- `d[name]`. -/
def getItem (d : NDict α) (name : Str) : Py α :=
  match DictOf.get d.items name with | some v => .ok v | none => .error .keyError

/-- `d[name] = v`. -/
def setItem (d : NDict α) (name : Str) (v : α) : NDict α := { d with items := DictOf.set d.items name v }

/-- `del d[name]`. -/
def delItem (d : NDict α) (name : Str) : Py (NDict α) :=
  match DictOf.get d.items name with
  | some _ => .ok { d with items := DictOf.erase d.items name }
  | none => .error .keyError

/-- The ordinary lookup `object.__getattribute__`. -/
def getAttribute (d : NDict α) (name : Str) : Option (Attr α) :=
  match DictOf.get d.own name with
  | some v => some (.val v)
  | none => if isAttr name then some (.method name) else none

/-- `d.name`: the ordinary lookup, and `__getattr__` (`_namedict.py` 7-10) if that fails. -/
def getAttr (d : NDict α) (name : Str) : Py (Attr α) :=
  match d.getAttribute isAttr name with
  | some a => .ok a
  | none => match DictOf.get d.items name with
    | some v => .ok (.val v)
    | none => .error .attributeError

/-- `hasattr(d, name)`. -/
def hasAttr (d : NDict α) (name : Str) : Bool := match d.getAttr isAttr name with | .ok _ => true | .error _ => false

/-- `name in d`. -/
def has (d : NDict α) (name : Str) : Bool := (DictOf.get d.items name).isSome

/-- `__setattr__`, `_namedict.py` 12-16. -/
def setAttr (d : NDict α) (name : Str) (v : α) : NDict α :=
  if d.hasAttr isAttr name && !d.has name then { d with own := DictOf.set d.own name v } else d.setItem name v

/-- `__delattr__`, `_namedict.py` 18-25; `object.__delattr__` deletes from the instance `__dict__`. -/
def delAttr (d : NDict α) (name : Str) : Py (NDict α) :=
  if d.hasAttr isAttr name && !d.has name then
    match DictOf.get d.own name with
    | some _ => .ok { d with own := DictOf.erase d.own name }
    | none => .error .attributeError
  else match d.delItem name with
    | .error .keyError => .error .attributeError
    | r => r

/-- What can be done with a `namedict`. -/
inductive Op (α : Type) where
  | getA (name : Str)
  | setA (name : Str) (v : α)
  | delA (name : Str)
  | getK (name : Str)
  | setK (name : Str) (v : α)
  | delK (name : Str)

/-- The effect of one operation; a failing operation changes nothing. -/
def step (d : NDict α) : Op α → NDict α
  | .getA _ => d
  | .setA n v => d.setAttr isAttr n v
  | .delA n => match d.delAttr isAttr n with | .ok d' => d' | .error _ => d
  | .getK _ => d
  | .setK n v => d.setItem n v
  | .delK n => match d.delItem n with | .ok d' => d' | .error _ => d

/-- A history of operations. -/
def run (d : NDict α) (ops : List (Op α)) : NDict α := ops.foldl (step isAttr) d

end NDict

end Verif
