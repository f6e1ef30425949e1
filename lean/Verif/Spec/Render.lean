import Verif.Spec.Style
import Verif.Spec.Text

/-!
# Rendered documents
-/

namespace Verif.Spec

/-- `s` is a parser that was created, fed the events and closed. -/
def Rendered (u : Uni) (c : Cfg) (es : List Event) (s : PState) : Prop :=
  ∃ s0 s1, initParser c = .ok s0 ∧ feed u c s0 es = .ok s1 ∧ close u c s1 = .ok s

/-- The rendering of node `i` at its place, in a box. `fuel` bounds the depth (see C58). -/
def textOf (u : Uni) (s : PState) (fuel : Nat) (box : Box) (i : Nat) : Py Str :=
  renderNode u s.dom s.assigned fuel false box i

/-- What element `i` contains, rendered in a box: its children, then the links that are waiting for its end. -/
def contents (u : Uni) (s : PState) (fuel : Nat) (box : Box) (i : Nat) : Py Str :=
  match s.dom.nodes[i]? with
  | none => .error .indexError
  | some n => do
    let body ← renderAll (renderNode u s.dom s.assigned fuel false box) n.children
    let links ← renderAll (renderNode u s.dom s.assigned fuel true box) n.pending
    return body ++ (if n.pending.isEmpty then [] else py"\n") ++ links

/-- The elements with a fixed text before and after. -/
def markers : List (Str × Str × Str) :=
  [(py"em", py"_", py"_"), (py"i", py"_", py"_"), (py"strong", py"**", py"**"), (py"b", py"**", py"**"),
   (py"u", py"_", py"_"), (py"ins", py"_", py"_"), (py"s", py"~~", py"~~"), (py"del", py"~~", py"~~"), (py"span", [], [])]

/-- Fill a line up with spaces. -/
def padTo (w : Int) (l : Str) : Str := l ++ List.replicate (w - l.length).toNat ' '

/-- Each line filled up with spaces. -/
def padLines (w : Int) (s : Str) : Str := join py"\n" ((splitCh '\n' s).map (padTo w))

/-- The columns inside a box: the page less all margins and borders, and less what the line templates take. -/
def room (b : Box) : Int :=
  b.width - b.totalMargin.left - b.totalMargin.right - b.totalBorder.left - b.totalBorder.right - b.totalLineTemplatePadding

/-- A box inside another one, with margins above and below only. -/
def inside (parent : Box) (above below : Int) (template : Option Str := none) : Box :=
  Box.new 67 ⟨above, 0, below, 0⟩ {} {} template (some parent)

end Verif.Spec
