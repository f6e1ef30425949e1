import Verif.Py.Str

/-!
# Dictionaries of settings

A Python `dict` with string keys is an association list in insertion order with distinct keys.
-/

namespace Verif

/-- Values that occur in settings. Lists and tuples are not distinguished. `strDict` is the value of the `templates`
setting of `LinkRenderer` and `ImageRenderer`; a plain string entry of such a dict is a one-element list. -/
inductive Val where
  | none
  | bool (b : Bool)
  | int (i : Int)
  | str (s : Str)
  | ints (l : List Int)
  | strs (l : List Str)
  | strDict (d : List (Str × List Str))
  deriving DecidableEq, Repr

/-- Python truth value. -/
def Val.truthy : Val → Bool
  | .none => false
  | .bool b => b
  | .int i => i != 0
  | .str s => !s.isEmpty
  | .ints l => !l.isEmpty
  | .strs l => !l.isEmpty
  | .strDict d => !d.isEmpty

/-- Python `==`: `True == 1` and `False == 0`, otherwise structural. -/
def Val.pyEq : Val → Val → Bool
  | .bool a, .int b => (if a then 1 else 0) == b
  | .int a, .bool b => a == (if b then 1 else 0)
  | a, b => a == b

/-- A dict with string keys. -/
abbrev DictOf (α : Type) := List (Str × α)

namespace DictOf

variable {α : Type}

/-- `d.get(k)`. -/
def get (d : DictOf α) (k : Str) : Option α := d.lookup k

/-- `d[k] = v`: an existing key keeps its place, a new key goes last. -/
def set (d : DictOf α) (k : Str) (v : α) : DictOf α :=
  match d with
  | [] => [(k, v)]
  | (k', v') :: r => if k' = k then (k, v) :: r else (k', v') :: set r k v

/-- `d.update(e)`. -/
def update (d e : DictOf α) : DictOf α := e.foldl (fun d kv => set d kv.1 kv.2) d

/-- `del d[k]` (no effect if absent). -/
def erase (d : DictOf α) (k : Str) : DictOf α :=
  match d with
  | [] => []
  | (k', v') :: r => if k' = k then r else (k', v') :: erase r k

end DictOf

/-- A settings dict. -/
abbrev Dict := DictOf Val

/-- Python `==` on settings dicts: same keys, equal values, order irrelevant. -/
def Dict.pyEq (a b : Dict) : Bool :=
  a.length == b.length && a.all (fun kv => match DictOf.get b kv.1 with | some v => kv.2.pyEq v | none => false)

end Verif
