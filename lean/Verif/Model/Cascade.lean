import Verif.Model.Selectors
import Verif.Model.Renderers

/-!
# The rule table: `RendererMap`, `gopher_render/_parser.py` 303-344, and the default rules 383-450
-/

namespace Verif

/-- A renderer specification: a class, or a tuple of an optional class and optional settings. -/
inductive RSpec where
  | cls (c : RClass)
  | pair (r : Option RClass) (s : Option Dict)

/-- An entry of the table: selector text, its parsed form, and the specification. -/
structure Rule where
  key : Str
  sels : List Selector
  spec : RSpec

/-- `mapping.renderer[0]`, or the class itself (`_parser.py` 332-337). -/
def RSpec.renderer : RSpec → Option RClass
  | .cls c => some c
  | .pair r _ => r

/-- `mapping.renderer[1]`, or `None` (`_parser.py` 332-337). -/
def RSpec.settings : RSpec → Option Dict
  | .cls _ => none
  | .pair _ s => s

/-- The matching rules with their specificity, in table order (`_parser.py` 318-327). -/
def collectMatches (d : Dom) (p : Par) : List Rule → Py (List (Spec3 × Rule))
  | [] => .ok []
  | r :: rs => do
    match ← tagMatches d p r.sels with
    | (true, some sp) => return (sp, r) :: (← collectMatches d p rs)
    | _ => collectMatches d p rs

/-- Insert before the first entry that is not smaller. -/
def insertMatch (x : Spec3 × Rule) : List (Spec3 × Rule) → List (Spec3 × Rule)
  | [] => [x]
  | y :: ys => if specLt (some y.1) (some x.1) = .ok true then y :: insertMatch x ys else x :: y :: ys

/-- `all_matches.sort(key=...)`, `_parser.py` 328: a stable sort using `Specificity.__lt__`. -/
def sortMatches : List (Spec3 × Rule) → List (Spec3 × Rule)
  | [] => []
  | x :: xs => insertMatch x (sortMatches xs)

/-- The loop of `_parser.py` 329-341. -/
def applyMatches : List (Spec3 × Rule) → Option RClass → Dict → Option RClass × Dict
  | [], r, s => (r, s)
  | m :: ms, r, s =>
    applyMatches ms (match m.2.spec.renderer with | some c => some c | none => r)
      (match m.2.spec.settings with | some t => DictOf.update s t | none => s)

/-- `RendererMap.get_for_tag`, `_parser.py` 317-344. -/
def getForTag (d : Dom) (rules : List Rule) (p : Par) : Py (Option (RClass × Dict)) := do
  let ms ← collectMatches d p rules
  match applyMatches (sortMatches ms) none [] with
  | (some r, s) => return some (r, s)
  | (none, _) => return none

/-! ## Rule tables -/

/-- `renderers.update(user)`, `_parser.py` 443 and 448, for one entry: a key already present keeps its place. -/
def setRule (rules : List Rule) (r : Rule) : List Rule :=
  match rules with
  | [] => [r]
  | x :: xs => if x.key = r.key then r :: xs else x :: setRule xs r

def updateRules (rules user : List Rule) : List Rule := user.foldl setRule rules

/-- `h1` and the like. -/
def elt (name : Str) : Sel := .element (some name)

def one (s : Sel) : List Selector := [{ tree := s }]

/-- A rule for one element name. -/
def tagRule (name : Str) (c : RClass) : Rule := ⟨name, one (elt name), .cls c⟩

/-- `(None, dict(margin=...))` -/
def marginSpec (t r b l : Int) : RSpec := .pair none (some [(py"margin", .ints [t, r, b, l])])

/-- The default rules, `_parser.py` 383-442 without the entry `''`, which is the default renderer. -/
def defaultRules : List Rule :=
  [ tagRule py"h1" .mdHeader, tagRule py"h2" .mdHeader, tagRule py"h3" .mdHeader, tagRule py"h4" .mdHeader,
    tagRule py"h5" .mdHeader, tagRule py"h6" .mdHeader,
    tagRule py"p" .paragraph, tagRule py"br" .brk, tagRule py"blockquote" .blockQuote,
    ⟨py"blockquote > p:first-child",
      one (.comb (elt py"blockquote") .child (.pseudo (elt py"p") py"first-child")), marginSpec 0 0 1 0⟩,
    ⟨py"blockquote > p:last-child",
      one (.comb (elt py"blockquote") .child (.pseudo (elt py"p") py"last-child")), marginSpec 1 0 0 0⟩,
    ⟨py"blockquote > p:last-child:first-child",
      one (.comb (elt py"blockquote") .child (.pseudo (.pseudo (elt py"p") py"last-child") py"first-child")),
      marginSpec 0 0 0 0⟩,
    tagRule py"pre" .pre, tagRule py"div" .block, tagRule py"ul" .list, tagRule py"ol" .list,
    tagRule py"li" .listItem,
    ⟨py"ol > li", one (.comb (elt py"ol") .child (elt py"li")), .cls .olItem⟩,
    ⟨py"li:first-child", one (.pseudo (elt py"li") py"first-child"), marginSpec 0 0 0 0⟩,
    ⟨py"li > ol > li:first-child, li > ul > li:first-child",
      [{ tree := .comb (.comb (elt py"li") .child (elt py"ol")) .child (.pseudo (elt py"li") py"first-child") },
       { tree := .comb (.comb (elt py"li") .child (elt py"ul")) .child (.pseudo (elt py"li") py"first-child") }],
      marginSpec 1 0 0 0⟩,
    tagRule py"dl" .defList, tagRule py"dt" .defTerm, tagRule py"dd" .defItem,
    ⟨py"dt:first-child", one (.pseudo (elt py"dt") py"first-child"), marginSpec 0 0 0 0⟩,
    tagRule py"code" .code, tagRule py"a" .link, tagRule py"img" .image, tagRule py"em" .em,
    tagRule py"strong" .strong, tagRule py"i" .em, tagRule py"b" .strong, tagRule py"u" .underline,
    tagRule py"ins" .underline, tagRule py"s" .strike, tagRule py"del" .strike, tagRule py"span" .inline ]

/-- The default table for extracted links, `_parser.py` 444-447. -/
def defaultLinkRules : List Rule := [tagRule py"a" .extractedLink, tagRule py"img" .extractedImage]

end Verif
