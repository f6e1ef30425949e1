import Verif.Spec.Cascade
import Verif.Spec.Rules

/-!
# Groups of selectors
-/

namespace Verif.Spec

/-- Settings with the same values, in any order. -/
def SameDict (s t : Dict) : Prop := ∀ k, DictOf.get s k = DictOf.get t k

/-- For each element the strongest rule that names a renderer names the same one, and the strongest rule that gives a value to a setting
gives the same value. -/
structure SameCascade (d : Dom) (rules other : List Rule) : Prop where
  renderer : ∀ i cls, (∃ r, Wins d (.node i) rules NamesRenderer r ∧ namedRenderer r.spec = some cls) ↔
    ∃ r, Wins d (.node i) other NamesRenderer r ∧ namedRenderer r.spec = some cls
  setting : ∀ i k v, (∃ r, Wins d (.node i) rules (fun r => ruleSetting r k ≠ none) r ∧ ruleSetting r k = some v) ↔
    ∃ r, Wins d (.node i) other (fun r => ruleSetting r k ≠ none) r ∧ ruleSetting r k = some v

/-- A rule for a group of selectors, and two rules in its place for the first and the other selectors. None of the three has the text of one
of the default rules, so they replace none. -/
inductive Split (defaults : List Rule) : (grouped apart : List Rule) → Prop where
  | here (key key1 key2 : Str) (sels1 sels2 : List Selector) (spec : RSpec) (before after : List Rule)
    (new : ∀ k ∈ [key, key1, key2], k ∉ defaults.map Rule.key) :
    Split defaults (before ++ ⟨key, sels1 ++ sels2, spec⟩ :: after) (before ++ ⟨key1, sels1, spec⟩ :: ⟨key2, sels2, spec⟩ :: after)

end Verif.Spec
