import Verif.Spec.Text
import Verif.Model.Parser

/-!
# Links and lines of a document
-/

namespace Verif.Spec

/-- The node is a link or an image that the configuration places like this. -/
def placed (c : Cfg) (place : Str) (n : Node) : Bool :=
  match n.tag with
  | some t => (t = py"a" && c.linkPlacement = place) || (t = py"img" && c.imagePlacement = place)
  | none => false

/-- The node is a link or an image that is not rendered where it stands. -/
def extracted (c : Cfg) (n : Node) : Bool :=
  match n.tag with
  | some t => (t = py"a" && c.linkPlacement ≠ py"inline") || (t = py"img" && c.imagePlacement ≠ py"inline")
  | none => false

/-- The nodes with a property, in document order (which is the order of creation, see C28). -/
def nodesWhere (d : Dom) (p : Node → Bool) : List Nat := (List.range d.nodes.length).filter (fun i => (d.nodes[i]?).any p)

/-- The number a link shows. -/
def linkNumber (d : Dom) (i : Nat) : Option Nat := ((d.nodes[i]?).bind Node.link).map (fun l => l.ctx.linkReference)

/-- Put `pad` before every line: at the start of the text and after every line break that something follows. `\r\n` is
one line break. `start` tells that a line starts here. -/
def indentLines (pad : Str) : (start : Bool) → Str → Str
  | _, [] => []
  | start, c :: r => (if start then pad else []) ++ c :: indentLines pad (isLineBreak c && !(c == '\r' && r.head? == some '\n')) r

/-- `b` is `a` with the whitespace at the end of each line removed. -/
def TrimmedLines (a b : Str) : Prop :=
  ∃ la lb : List Str, a = join py"\n" la ∧ b = join py"\n" lb ∧ la ≠ [] ∧ la.length = lb.length ∧
    (∀ l ∈ la, '\n' ∉ l) ∧ ∀ p ∈ la.zip lb, (∃ t, Blank t ∧ p.1 = p.2 ++ t) ∧ ¬ EndsWs p.2

/-- Feed a parser in some state, close it, and read the result. -/
def renderFrom (u : Uni) (c : Cfg) (s : PState) (es : List Event) : Py Str := do
  let s ← feed u c s es
  let s ← close u c s
  return s.parsed

end Verif.Spec
