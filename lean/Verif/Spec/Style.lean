import Verif.Spec.Css
import Verif.Spec.Cascade

/-!
# The default style
-/

namespace Verif.Spec

/-- The rules of the user are a dictionary: there are no two with the same selector text, and one with the text of a default
rule has been read as the same selectors. -/
structure OwnTable (c : Cfg) : Prop where
  nodup : (c.renderers.map Rule.key).Nodup
  read : ∀ r ∈ c.renderers, ∀ r' ∈ defaultRules, r.key = r'.key → r.sels = r'.sels

/-- No rule of the user matches the element, so that it has the default style. -/
structure Unruled (c : Cfg) (d : Dom) (i : Nat) : Prop extends OwnTable c where
  free : Untouched d c.renderers i

/-- Elements whose renderer does not depend on where they are, and the renderer. -/
def plainStyle : List (Str × RClass) :=
  [(py"h1", .mdHeader), (py"h2", .mdHeader), (py"h3", .mdHeader), (py"h4", .mdHeader), (py"h5", .mdHeader),
   (py"h6", .mdHeader), (py"br", .brk), (py"blockquote", .blockQuote), (py"pre", .pre), (py"div", .block),
   (py"ul", .list), (py"ol", .list), (py"dl", .defList), (py"dd", .defItem), (py"code", .code), (py"a", .link),
   (py"img", .image), (py"em", .em), (py"i", .em), (py"strong", .strong), (py"b", .strong), (py"u", .underline),
   (py"ins", .underline), (py"s", .strike), (py"del", .strike), (py"span", .inline)]

/-- The element is the first (last) element among its siblings. -/
def FirstChild (d : Dom) (i : Nat) : Prop := ∃ before after, Around d i before after ∧ elemCount d before = 0

def LastChild (d : Dom) (i : Nat) : Prop := ∃ before after, Around d i before after ∧ elemCount d after = 0

/-- The parent of the node is an element with this tag. -/
def ChildOf (d : Dom) (tag : Str) (i : Nat) : Prop := ∃ j, ParentOf d j i ∧ HasTag d j tag

/-- The parent is a list that is itself directly in a list item. -/
def InNestedList (d : Dom) (i : Nat) : Prop :=
  ∃ j, ParentOf d j i ∧ (HasTag d j py"ol" ∨ HasTag d j py"ul") ∧ ChildOf d py"li" j

/-- Settings that only give the margins above and below. -/
def margins (above below : Int) : Dict := [(py"margin", .ints [above, 0, below, 0])]

/-- The settings of a paragraph. -/
inductive PStyle (d : Dom) (i : Nat) : Dict → Prop where
  | only : ChildOf d py"blockquote" i → FirstChild d i → LastChild d i → PStyle d i (margins 0 0)
  | first : ChildOf d py"blockquote" i → FirstChild d i → ¬ LastChild d i → PStyle d i (margins 0 1)
  | last : ChildOf d py"blockquote" i → ¬ FirstChild d i → LastChild d i → PStyle d i (margins 1 0)
  | inner : ChildOf d py"blockquote" i → ¬ FirstChild d i → ¬ LastChild d i → PStyle d i []
  | free : ¬ ChildOf d py"blockquote" i → PStyle d i []

/-- The settings of a list item. -/
inductive LiStyle (d : Dom) (i : Nat) : Dict → Prop where
  | nested : FirstChild d i → InNestedList d i → LiStyle d i (margins 1 0)
  | first : FirstChild d i → ¬ InNestedList d i → LiStyle d i (margins 0 0)
  | later : ¬ FirstChild d i → LiStyle d i []

/-- The settings of a definition list term. -/
inductive DtStyle (d : Dom) (i : Nat) : Dict → Prop where
  | first : FirstChild d i → DtStyle d i (margins 0 0)
  | later : ¬ FirstChild d i → DtStyle d i []

end Verif.Spec
