import Verif.Spec.Blocks
import Verif.Spec.Parser
import Verif.Spec.Footer

/-!
# Documents that fit the page
-/

namespace Verif.Spec

/-- A text node of whitespace only. -/
def BlankText (d : Dom) (i : Nat) : Prop := ∃ n t, d.nodes[i]? = some n ∧ n.data = some t ∧ Blank t

/-- A block that has no empty line above it: the first paragraph of a block quote, the first item of a list that is not
in an item, and the first term of a definition list. -/
def Flush (d : Dom) (i : Nat) : Prop :=
  FirstChild d i ∧ (HasTag d i py"p" ∧ ChildOf d py"blockquote" i ∨ HasTag d i py"li" ∧ ¬ InNestedList d i ∨ HasTag d i py"dt")

/-- Nothing, not even whitespace, is before a block without an empty line above it. -/
def Spaced (d : Dom) (is : List Nat) : Prop := ∀ before j after, is = before ++ j :: after → Flush d j → before = []

/-- What text with inline markup shows, with the markers of the default style. -/
inductive Shows (d : Dom) : List Nat → Str → Prop where
  | nil : Shows d [] []
  | text {j js} {n : Node} {t x : Str} : d.nodes[j]? = some n → n.data = some t → Shows d js x → Shows d (j :: js) (t ++ x)
  | marked {j js} {n : Node} {tag before after y x : Str} : d.nodes[j]? = some n → n.tag = some tag → (tag, before, after) ∈ markers →
      Shows d n.children y → Shows d js x → Shows d (j :: js) (before ++ y ++ after ++ x)
  | code {j js} {n : Node} {y x : Str} : d.nodes[j]? = some n → n.tag = some py"code" → ¬ ChildOf d py"pre" j →
      Shows d n.children y → '\n' ∉ y → Shows d js x → Shows d (j :: js) (py"`" ++ y ++ py"`" ++ x)
  | block {j js} {n : Node} {y x : Str} : d.nodes[j]? = some n → n.tag = some py"code" → ChildOf d py"pre" j →
      Shows d n.children y → Shows d js x → Shows d (j :: js) (y ++ x)
  | reference {j js} {n : Node} {l : LinkInfo} {y x : Str} : d.nodes[j]? = some n → n.tag = some py"a" → n.link = some l →
      l.ctx.linkPlacement ≠ py"inline" → Shows d n.children y → Shows d js x →
      Shows d (j :: js) (py"[" ++ y ++ py"][" ++ natStr l.ctx.linkReference ++ py"]" ++ x)
  | link {j js} {n : Node} {l : LinkInfo} {y x : Str} : d.nodes[j]? = some n → n.tag = some py"a" → n.link = some l →
      l.ctx.linkPlacement = py"inline" → Shows d n.children y → Shows d js x →
      Shows d (j :: js) (py"[" ++ y ++ py"](" ++ l.href.getD py"None" ++ titlePart l.title ++ py")" ++ x)
  | image {j js} {n : Node} {l : LinkInfo} {x : Str} : d.nodes[j]? = some n → n.tag = some py"img" → n.link = some l →
      l.ctx.imagePlacement = py"inline" → Shows d js x →
      Shows d (j :: js) (py"![" ++ altText l.title ++ py"](" ++ l.href.getD py"None" ++ py")" ++ x)
  | imageReference {j js} {n : Node} {l : LinkInfo} {x : Str} : d.nodes[j]? = some n → n.tag = some py"img" → n.link = some l →
      l.ctx.imagePlacement ≠ py"inline" → Shows d js x →
      Shows d (j :: js) (py"[Image][" ++ natStr l.ctx.linkReference ++ py"]" ++ x)

/-- Header elements and their levels. -/
def headerLevels : List (Str × Nat) := [(py"h1", 1), (py"h2", 2), (py"h3", 3), (py"h4", 4), (py"h5", 5), (py"h6", 6)]

/-- An element for which the default style has no rule: `html`, `body`, `section` and so on. -/
def Unstyled (tag : Str) : Prop := tag ∉ plainStyle.map Prod.fst ∧ tag ∉ [py"p", py"li", py"dt"]

/-- The node is built from headers, paragraphs, preformatted text, block quotes, lists, definition lists and elements without
layout, and text that is not wrapped fits into `w` columns. Paragraphs, items and descriptions may contain anything. -/
inductive Fits (u : Uni) (d : Dom) : Int → Nat → Prop where
  | paragraph {w i} : HasTag d i py"p" → ¬ OnlyCode d i → Fits u d w i
  | item {w i} : HasTag d i py"li" → Fits u d w i
  | description {w i} : HasTag d i py"dd" → Fits u d w i
  | term {w i} {n : Node} {text : Str} : d.nodes[i]? = some n → n.tag = some py"dt" → Shows d n.children text →
      VisibleLe u text w → Fits u d w i
  | header {w i} {n : Node} {tag text : Str} {level : Nat} : d.nodes[i]? = some n → n.tag = some tag → (tag, level) ∈ headerLevels →
      Shows d n.children text → VisibleLe u text (w - 2 * (level + 1)) → Fits u d w i
  | codeOnly {w i} {n : Node} {text : Str} : d.nodes[i]? = some n → n.tag = some py"p" → OnlyCode d i → Shows d n.children text →
      VisibleLe u text w → Fits u d w i
  | pre {w i} {n : Node} {text : Str} : d.nodes[i]? = some n → n.tag = some py"pre" → Shows d n.children text →
      (∀ ls, Lines text ls → ∀ l ∈ ls, VisibleLe u (rstrip l) (w - 4)) → Fits u d w i
  | around {w i} {n : Node} {tag : Str} : d.nodes[i]? = some n → n.tag = some tag → tag = py"div" ∨ Unstyled tag →
      (∀ j ∈ n.children, ¬ Flush d j) → (∀ j ∈ n.children, ¬ BlankText d j → Fits u d w j) → Fits u d w i
  | quote {w i} {n : Node} : d.nodes[i]? = some n → n.tag = some py"blockquote" → 2 ≤ w → Spaced d n.children →
      (∀ j ∈ n.children, ¬ BlankText d j → Fits u d (w - 2) j) → Fits u d w i
  | list {w i} {n : Node} {tag : Str} : d.nodes[i]? = some n → n.tag = some tag → tag ∈ [py"ul", py"ol", py"dl"] →
      Spaced d n.children → (∀ j ∈ n.children, ¬ BlankText d j → Fits u d w j) → Fits u d w i

/-- Links and images are shown where they are. -/
def InPlace (c : Cfg) (es : List Event) : Prop :=
  ∀ tag attrs, .start tag attrs ∈ es → (tag = py"a" → c.linkPlacement = py"inline") ∧ (tag = py"img" → c.imagePlacement = py"inline")

end Verif.Spec
