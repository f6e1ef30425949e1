import Verif.Spec.Cascade
import Verif.Model.Parser

/-!
# Which rules count
-/

namespace Verif.Spec

/-- The tree of a document when its renderers are chosen. -/
def TreeOf (u : Uni) (c : Cfg) (es : List Event) (d : Dom) : Prop :=
  ∃ s0 s1, initParser c = .ok s0 ∧ feed u c s0 es = .ok s1 ∧ d = popStack s1.dom s1.stack.reverse

/-- The rule can be compared with every node of the tree (it cannot if it compares the value of an attribute and one of the nodes has the
attribute without value, see C04). -/
def Comparable (d : Dom) (r : Rule) : Prop := ∀ i, ∀ s ∈ r.sels, ∃ b, selMatch d s.tree (.node i) = .ok b

/-- The rule can be compared with every node and matches none. -/
def Idle (d : Dom) (r : Rule) : Prop := ∀ i, ∀ s ∈ r.sels, selMatch d s.tree (.node i) = .ok false

/-- `more` are the same rules in the same order, and other rules among them that match nothing, nor do the default rules they replace. -/
structure WithIdle (d : Dom) (defaults rules more : List Rule) : Prop where
  same : rules.Sublist more
  idle : ∀ r ∈ more, r ∈ rules ∨ Idle d r ∧ ∀ q ∈ defaults, q.key = r.key → Idle d q

/-- The same rules in another order: of two rules that apply to an element with the same specificity, the same comes last. -/
structure Reordered (d : Dom) (rules other : List Rule) : Prop where
  same : ∀ r, r ∈ rules ↔ r ∈ other
  order : ∀ i sp a b, Applies d (.node i) a sp → Applies d (.node i) b sp → [a, b].Sublist rules → [a, b].Sublist other

/-- The selector asks for elements with a tag that the document does not have. -/
def Foreign (es : List Event) : Sel → Prop
  | .element (some n) => ∀ attrs, Event.start n attrs ∉ es
  | .element none => False
  | .cls s _ => Foreign es s
  | .hash s _ => Foreign es s
  | .neg s _ => Foreign es s
  | .attrib s _ _ _ => Foreign es s
  | .pseudo s _ => Foreign es s
  | .func _ _ _ => False
  | .comb _ _ sub => Foreign es sub

/-- So do all selectors of the rule. -/
def ForeignRule (es : List Event) (r : Rule) : Prop := ∀ s ∈ r.sels, Foreign es s.tree

end Verif.Spec
