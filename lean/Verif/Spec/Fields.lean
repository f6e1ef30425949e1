import Verif.Spec.NumberStyle
import Verif.Spec.Looks

/-!
# Templates with several fields
-/

namespace Verif.Spec

/-- A part of a template: text, the place of a value, or the place of a value with a format specification. -/
inductive Part where
  | text (s : Str)
  | plain (name : Str)
  | laid (name spec : Str)
  deriving DecidableEq, Repr

def Part.write : Part → Str
  | .text s => escape s
  | .plain n => py"{" ++ n ++ py"}"
  | .laid n spec => fieldOf n spec

def writeParts (ps : List Part) : Str := (ps.map Part.write).flatten

/-- The value with this name: values have names or numbers. -/
inductive Named (args : List Arg) (kw : List (Str × Arg)) : Str → Arg → Prop where
  | arg {k a} : k < 2 ^ 63 → args[k]? = some a → Named args kw (natStr k) a
  | key {s a} : PlainName s → kw.lookup s = some a → Named args kw s a

/-- The specification asks for something that can be done with the value. -/
inductive Suits : Arg → Str → Prop where
  | text {l : Layout} {x spec} : l.Writable → l.Written false spec → Suits (.str x) spec
  | number {l : Layout} {n spec} : l.Writable → l.cut = none → l.Written true spec → Suits (.int n) spec
  | style {st : NumberStyle} {n spec} : st.Writable → st.Written spec → Suits (.int n) spec

/-- The value as the specification asks for it. -/
inductive ShownIn : Arg → Str → Str → Prop where
  | text {l : Layout} {x spec y} : l.Writable → l.Written false spec → LaidOut l x y → ShownIn (.str x) spec y
  | number {l : Layout} {n spec y} : l.Writable → l.cut = none → l.Written true spec → LaidOut l (intStr n) y → ShownIn (.int n) spec y
  | style {st : NumberStyle} {n spec y} : st.Writable → st.Written spec → st.Shows n y → ShownIn (.int n) spec y

def Part.Fits (args : List Arg) (kw : List (Str × Arg)) : Part → Prop
  | .text _ => True
  | .plain n => ∃ a, Named args kw n a
  | .laid n spec => ∃ a, Named args kw n a ∧ Suits a spec

def Part.Shows (args : List Arg) (kw : List (Str × Arg)) : Part → Str → Prop
  | .text s, y => y = s
  | .plain n, y => ∃ a, Named args kw n a ∧ y = a.show
  | .laid n spec, y => ∃ a, Named args kw n a ∧ ShownIn a spec y

/-- The parts one after the other. -/
inductive Filled (args : List Arg) (kw : List (Str × Arg)) : List Part → Str → Prop where
  | nil : Filled args kw [] []
  | cons {p ps x y} : p.Shows args kw x → Filled args kw ps y → Filled args kw (p :: ps) (x ++ y)

end Verif.Spec
