import Verif.Spec.Wrap
import Verif.Spec.Tree
import Verif.Model.Parser

/-!
# Text that is not lost
-/

namespace Verif.Spec

/-- The text fed to the parser. -/
def fedText (es : List Event) : Str := (es.map (fun e => match e with | .data t => t | _ => [])).flatten

/-- The result depends on the content. -/
def Depends (f : Str → Py Str) : Prop := ∃ x y, f x ≠ f y

/-- The template has a place for the content: if it can be formatted, the content is there whole. -/
def Placed (template : Str) : Prop := ∀ x y, fmt1 template x = .ok y → x <:+: y

/-- The same for templates of links, which name the place. -/
def PlacedContent (template : Str) : Prop :=
  ∀ x others y, pyFormat template [] ((py"content", .str x) :: others) = .ok y → x <:+: y

/-- This setting does not lose text: no capitalisation, and templates with a place for the content. -/
structure KeepsValue (k : Str) (v : Val) : Prop where
  capitalized : k = py"capitalized" → v.truthy = false
  template : k ∈ [py"template", py"line_template", py"block_template", py"inline_template"] → ∀ t, v = .str t → Placed t
  templates : k = py"templates" → ∀ d, v = .strDict d → ∀ kv ∈ d, ∀ t ∈ kv.2, PlacedContent t

/-- The renderers that do not show what an element contains, or only the beginning of it. -/
def dropping : List RClass := [.nonRenderer, .image, .brk, .extractedLink, .extractedImage]

/-- This class of renderers does not lose text. The line template of items of ordered lists is formatted twice: after
the number has been put in it still has to have a place for the content. -/
structure KeepsClass (c : RClass) : Prop where
  behaviour : c.behaviour ∉ dropping
  settings : ∀ k v, DictOf.get (newSettings c) k = some v → (c.behaviour = .olItem → k ≠ py"line_template") → KeepsValue k v
  ordered : c.behaviour = .olItem → ∀ t, DictOf.get (newSettings c) py"line_template" = some (.str t) →
    ∀ n line, pyFormat t [.int n, py"{}"] = .ok line → Placed line

/-- A rule that does not lose text. -/
def KeepsSpec (s : RSpec) : Prop :=
  (∀ c, s.renderer = some c → KeepsClass c) ∧ (∀ d, s.settings = some d → ∀ kv ∈ d, KeepsValue kv.1 kv.2)

/-- The selector names a void element, so that what it matches has no content. -/
def ForVoid : Sel → Prop
  | .element t => ∃ n, t = some n ∧ VoidTag n
  | .cls s _ => ForVoid s
  | .hash s _ => ForVoid s
  | .neg s _ => ForVoid s
  | .attrib s _ _ _ => ForVoid s
  | .pseudo s _ => ForVoid s
  | .func s _ _ => ForVoid s
  | .comb _ _ t => ForVoid t

end Verif.Spec
