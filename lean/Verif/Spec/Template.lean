import Verif.Py.Format

/-!
# Templates
-/

namespace Verif.Spec

/-- A character of the template, or a place for an argument, given by position or by name. -/
inductive Slot where
  | lit (c : Char)
  | arg (n : Nat)
  | key (s : Str)
  deriving DecidableEq, Repr

/-- Put the arguments in their places. -/
def Slot.fill (args : List Str) (kw : List (Str × Str)) : Slot → Str
  | .lit c => [c]
  | .arg n => args.getD n []
  | .key s => (kw.lookup s).getD []

def fillAll (args : List Str) (kw : List (Str × Str)) (slots : List Slot) : Str := (slots.map (Slot.fill args kw)).flatten

/-- The arguments as texts. -/
def shown (args : List Arg) : List Str := args.map Arg.show
def shownKw (kw : List (Str × Arg)) : List (Str × Str) := kw.map (fun p => (p.1, p.2.show))

/-- The fields of a template are plain: between the braces there is no `.`, `[`, `!` or `:`, so that there are no attributes,
indices, conversions and format specifications. The flag tells whether the text starts in a field. -/
def plainFields : Bool → Str → Bool
  | _, [] => true
  | false, '{' :: '{' :: r => plainFields false r
  | false, '{' :: r => plainFields true r
  | false, _ :: r => plainFields false r
  | true, '}' :: r => plainFields false r
  | true, c :: r => !([':', '!', '.', '['].contains c) && plainFields true r

/-- Write a text in a template: braces are doubled. -/
def escape (s : Str) : Str :=
  (s.map (fun c => if c = '{' then py"{{" else if c = '}' then py"}}" else [c])).flatten

end Verif.Spec
