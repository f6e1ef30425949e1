import Verif.Model.Cascade

/-!
# What the cascade should do
-/

namespace Verif.Spec

/-- Lexicographic order on (id, class, type) counts. -/
def LexLt (a b : Int × Int × Int) : Prop :=
  a.1 < b.1 ∨ a.1 = b.1 ∧ (a.2.1 < b.2.1 ∨ a.2.1 = b.2.1 ∧ a.2.2 < b.2.2)

instance (a b : Int × Int × Int) : Decidable (LexLt a b) := by unfold LexLt; infer_instance

/-- The kinds of simple selectors that count towards specificity. -/
inductive Kind where
  | id | cls | type
  deriving DecidableEq

/-- The simple selectors in a selector, also those inside `:not()`. The universal selector and `:not` itself do not count. -/
def kinds : Sel → List Kind
  | .element none => []
  | .element (some _) => [.type]
  | .cls s _ => kinds s ++ [.cls]
  | .hash s _ => kinds s ++ [.id]
  | .attrib s _ _ _ => kinds s ++ [.cls]
  | .pseudo s _ => kinds s ++ [.cls]
  | .func s _ _ => kinds s ++ [.cls]
  | .neg s t => kinds s ++ kinds t
  | .comb s _ t => kinds s ++ kinds t

/-- Specificity by counting; a pseudo-element counts as a type. -/
def counts (s : Selector) : Int × Int × Int :=
  let ks := kinds s.tree ++ if s.pseudoElement then [.type] else []
  (ks.count .id, ks.count .cls, ks.count .type)

/-- Rule `r` applies to the element with specificity `sp`: one of its alternatives matches with that specificity, and
no alternative that matches has a greater one. -/
def Applies (d : Dom) (p : Par) (r : Rule) (sp : Spec3) : Prop :=
  (∃ s ∈ r.sels, selMatch d s.tree p = .ok true ∧ s.spec = sp) ∧
    ∀ s ∈ r.sels, selMatch d s.tree p = .ok true → ¬ LexLt sp s.spec

/-- `r` wins among the rules with property `P` that apply: it is one of them, those before it in the table are not more
specific, those after it are less specific. -/
def Wins (d : Dom) (p : Par) (rules : List Rule) (P : Rule → Prop) (r : Rule) : Prop :=
  ∃ before after sp, rules = before ++ r :: after ∧ P r ∧ Applies d p r sp ∧
    (∀ r' ∈ before, ∀ sp', P r' → Applies d p r' sp' → ¬ LexLt sp sp') ∧
    (∀ r' ∈ after, ∀ sp', P r' → Applies d p r' sp' → LexLt sp' sp)

/-- The renderer that a specification names: a class, or the first of a pair. -/
def namedRenderer : RSpec → Option RClass
  | .cls c => some c
  | .pair r _ => r

/-- The settings that it gives: the second of a pair. -/
def givenSettings : RSpec → Option Dict
  | .cls _ => none
  | .pair _ s => s

/-- The rule names a renderer class. -/
def NamesRenderer (r : Rule) : Prop := namedRenderer r.spec ≠ none

/-- The value the rule's settings give to a key. -/
def ruleSetting (r : Rule) (k : Str) : Option Val := (givenSettings r.spec).bind (fun s => DictOf.get s k)

/-- No of these rules matches the element. -/
def Untouched (d : Dom) (rules : List Rule) (i : Nat) : Prop := ∀ r ∈ rules, ∀ sp, ¬ Applies d (.node i) r sp

end Verif.Spec
