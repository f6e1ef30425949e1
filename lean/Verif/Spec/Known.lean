import Verif.Spec.Group

/-!
# Which settings count
-/

namespace Verif.Spec

/-- The class, or a class it is derived from, declares the setting. -/
inductive Declares : RClass → Str → Prop where
  | own {c : RClass} {k : Str} (h : k ∈ c.ownSettings.map Prod.fst) : Declares c k
  | base {c b : RClass} {k : Str} (h : c.base = some b) (d : Declares b k) : Declares c k

/-- The arguments of text wrapping that no class declares. -/
def wrapNames : List Str :=
  [py"expand_tabs", py"replace_whitespace", py"drop_whitespace", py"break_on_hyphens", py"tabsize", py"placeholder"]

/-- Classes that wrap text: paragraphs and items, and classes derived from these. -/
inductive WrapsText : RClass → Prop where
  | paragraph : WrapsText .paragraph
  | listItem : WrapsText .listItem
  | defItem : WrapsText .defItem
  | base {c b : RClass} (h : c.base = some b) (w : WrapsText b) : WrapsText c

/-- Settings that mean something to a renderer. -/
def Knows (c : RClass) (k : Str) : Prop := Declares c k ∨ WrapsText c ∧ k ∈ wrapNames

/-- The strongest rule that names a renderer for the element names this one. -/
def ChosenRenderer (d : Dom) (rules : List Rule) (i : Nat) (cls : RClass) : Prop :=
  ∃ r, Wins d (.node i) rules NamesRenderer r ∧ namedRenderer r.spec = some cls

/-- For each element the rules choose the same renderer, and for each setting known to it the same value. -/
structure SameKnown (d : Dom) (rules other : List Rule) : Prop where
  renderer : ∀ i cls, ChosenRenderer d rules i cls ↔ ChosenRenderer d other i cls
  setting : ∀ i cls, ChosenRenderer d rules i cls → ∀ k, Knows cls k → ∀ v,
    (∃ r, Wins d (.node i) rules (fun r => ruleSetting r k ≠ none) r ∧ ruleSetting r k = some v) ↔
    ∃ r, Wins d (.node i) other (fun r => ruleSetting r k ≠ none) r ∧ ruleSetting r k = some v

/-- Rules for the same elements with the same renderers. The settings agree on the names in `K`; they can have any order, and be empty or
missing. -/
structure AgreeOn (K : Str → Prop) (r t : Rule) : Prop where
  key : r.key = t.key
  sels : r.sels = t.sels
  renderer : namedRenderer r.spec = namedRenderer t.spec
  settings : ∀ k, K k → ruleSetting r k = ruleSetting t k

/-- Lists of such rules, one by one; for each rule of the second list the settings agree on the names in `K`. -/
inductive RulesAgree (K : Rule → Str → Prop) : List Rule → List Rule → Prop where
  | nil : RulesAgree K [] []
  | cons {r t : Rule} {rs ts : List Rule} (h : AgreeOn (K t) r t) (hs : RulesAgree K rs ts) : RulesAgree K (r :: rs) (t :: ts)

/-- The rule applies to an element of the document, and to the same element applies a rule with a renderer that knows the setting. -/
def Counts (u : Uni) (c : Cfg) (es : List Event) (r : Rule) (k : Str) : Prop :=
  ∃ d i, TreeOf u c es d ∧ (∃ sp, Applies d (.node i) r sp) ∧
    ∃ q ∈ c.rules, (∃ sp, Applies d (.node i) q sp) ∧ ∃ cls, namedRenderer q.spec = some cls ∧ Knows cls k

/-- The specification without a setting. -/
def specWithout (k : Str) : RSpec → RSpec
  | .cls c => .cls c
  | .pair r s => .pair r (s.map (fun d => d.filter (fun e => e.1 ≠ k)))

/-- The rule without a setting. -/
def ruleWithout (k : Str) (r : Rule) : Rule := { r with spec := specWithout k r.spec }

/-- The rule with the text `a`, to which the list of links falls back if no other applies: in both tables with the same renderer, and written in
the same way, as class or as pair. -/
def SameFallback (rules other : List Rule) : Prop :=
  match rules.find? (fun q => q.key == py"a"), other.find? (fun q => q.key == py"a") with
  | some r, some t => namedRenderer r.spec = namedRenderer t.spec ∧ ((∃ c, r.spec = .cls c) ↔ ∃ c, t.spec = .cls c)
  | none, none => True
  | _, _ => False

end Verif.Spec
