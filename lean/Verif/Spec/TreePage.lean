import Verif.Spec.Page
import Verif.Spec.Tree
import Verif.Spec.Accept

/-!
# The page of a tree

The reference of `Spec/Page.lean` again, for a document given as a tree (a `Forest`, see `Spec/Tree.lean`), without reference to the
nodes the parser makes.
-/

namespace Verif.Spec

/-- Where an element stands. -/
structure Place where
  /-- the tags of the elements around it, innermost first -/
  up : List Str
  /-- its siblings before it: elements and texts, and elements only -/
  nodes : Nat
  elems : Nat
  /-- the elements among its siblings after it -/
  later : Nat

/-- The empty lines above and below a paragraph: one each, but none at the beginning and end of a block quote. -/
def Place.paragraphSpace (pl : Place) : Nat × Nat :=
  if pl.up.head? = some py"blockquote" then (if pl.elems = 0 then 0 else 1, if pl.later = 0 then 0 else 1) else (1, 1)

/-- In a list that is directly in a list item. -/
def Place.inNestedList (pl : Place) : Prop :=
  (pl.up.head? = some py"ol" ∨ pl.up.head? = some py"ul") ∧ pl.up[1]? = some py"li"

instance (pl : Place) : Decidable pl.inNestedList := by unfold Place.inNestedList; infer_instance

/-- The line breaks before a list item. -/
def Place.itemSpace (pl : Place) : Nat := if pl.elems = 0 ∧ ¬ pl.inNestedList then 0 else 1

/-- The line breaks before a term. -/
def Place.termSpace (pl : Place) : Nat := if pl.elems = 0 then 0 else 2

/-- The bullet of a list item: its position in an ordered list (texts are counted), an asterisk otherwise. -/
def Place.bullet (pl : Place) : Str := if pl.up.head? = some py"ol" then natStr (pl.nodes + 1) ++ py". " else py"* "

/-- Links and images that are placed like this. -/
def linkAt (c : Cfg) (place tag : Str) : Bool := (tag = py"a" && c.linkPlacement = place) || (tag = py"img" && c.imagePlacement = place)

/-- Links and images that are not shown in place but have a number. -/
def numbered (c : Cfg) (tag : Str) : Bool :=
  (tag = py"a" && c.linkPlacement ≠ py"inline") || (tag = py"img" && c.imagePlacement ≠ py"inline")

/-- The number of nodes, -/
def Forest.size : Forest → Nat
  | .nil => 0
  | .text _ rest => rest.size + 1
  | .elem _ _ kids rest => kids.size + rest.size + 1

/-- of elements with such a tag, -/
def Forest.count (p : Str → Bool) : Forest → Nat
  | .nil => 0
  | .text _ rest => rest.count p
  | .elem tag _ kids rest => (if p tag then 1 else 0) + kids.count p + rest.count p

/-- and of those on the top level. -/
def Forest.topCount (p : Str → Bool) : Forest → Nat
  | .nil => 0
  | .text _ rest => rest.topCount p
  | .elem tag _ _ rest => (if p tag then 1 else 0) + rest.topCount p

/-- Nothing but a `code` or `pre` element. -/
def Forest.OnlyCode : Forest → Prop
  | .elem tag _ _ .nil => tag = py"code" ∨ tag = py"pre"
  | _ => False

/-- The attribute, if it has a value. -/
def givenAttr (attrs : List (Str × Option Str)) (name : Str) : Option Str := (attrOf attrs name).join

/-- `Painted … r pl m attrs kids tag inner y x`: an element with this tag, these attributes and this content is drawn as `x` if its content
is drawn as `y`, with `inner` columns. If it is a link with a number, then the number is `m`. -/
inductive Painted (u : Uni) (c : Cfg) (p r : Int) (pl : Place) (m : Nat) (attrs : List (Str × Option Str)) (kids : Forest) :
    Str → Int → Str → Str → Prop where
  | marked {tag before after y : Str} : (tag, before, after) ∈ markers → Painted u c p r pl m attrs kids tag r y (before ++ y ++ after)
  | br {y : Str} : Painted u c p r pl m attrs kids py"br" r y py"\n"
  | code {y : Str} : pl.up.head? ≠ some py"pre" → '\n' ∉ y → Painted u c p r pl m attrs kids py"code" r y (py"`" ++ y ++ py"`")
  | fence {y : Str} : pl.up.head? ≠ some py"pre" → '\n' ∈ y →
      Painted u c p r pl m attrs kids py"code" r y (py"```\n" ++ y ++ py"\n```\n")
  | codeInPre {y : Str} : pl.up.head? = some py"pre" → Painted u c p r pl m attrs kids py"code" r y y
  | reference {y : Str} : c.linkPlacement ≠ py"inline" →
      Painted u c p r pl m attrs kids py"a" r y (py"[" ++ y ++ py"][" ++ natStr m ++ py"]")
  | link {y : Str} : c.linkPlacement = py"inline" → Painted u c p r pl m attrs kids py"a" r y
      (py"[" ++ y ++ py"](" ++ (givenAttr attrs py"href").getD py"None" ++ titlePart (givenAttr attrs py"title") ++ py")")
  | imageReference {y : Str} : c.imagePlacement ≠ py"inline" →
      Painted u c p r pl m attrs kids py"img" r y (py"[Image][" ++ natStr m ++ py"]")
  | image {y : Str} : c.imagePlacement = py"inline" → Painted u c p r pl m attrs kids py"img" r y
      (py"![" ++ altText (givenAttr attrs py"alt") ++ py"](" ++ (givenAttr attrs py"src").getD py"None" ++ py")")
  | header {tag y : Str} {n : Nat} : (tag, n) ∈ headerLevels → Painted u c p r pl m attrs kids tag r y
      (py"\n" ++ padLines r (List.replicate n '#' ++ py" " ++ y ++ py" " ++ List.replicate n '#') ++ py"\n")
  | pre {y : Str} {ls : List Str} : Lines y ls →
      Painted u c p r pl m attrs kids py"pre" r y (py"\n" ++ rows r (ls.map (py"    " ++ ·)) ++ py"\n")
  | quote {y : Str} {ls : List Str} : Lines y ls →
      Painted u c p r pl m attrs kids py"blockquote" (r - 2) y (py"\n" ++ rows r (ls.map (py"> " ++ ·)) ++ py"\n")
  | list {tag y : Str} : tag ∈ [py"ul", py"ol", py"dl"] → Painted u c p r pl m attrs kids tag r y (py"\n" ++ padLines r y ++ py"\n")
  | div {y : Str} : Painted u c p r pl m attrs kids py"div" r y (padLines r y)
  | term {y : Str} : Painted u c p r pl m attrs kids py"dt" r y (newlines pl.termSpace ++ padLines r y)
  | item {y : Str} {lines : List Str} : wrap u (proseOpts u (r - p - pl.bullet.length)) y = .ok lines →
      Painted u c p r pl m attrs kids py"li" (r - pl.bullet.length) y (newlines pl.itemSpace ++ rows r (hang pl.bullet lines))
  | description {y : Str} {lines : List Str} : wrap u (proseOpts u (r - p - 2)) y = .ok lines →
      Painted u c p r pl m attrs kids py"dd" (r - 2) y (py"\n" ++ rows r (hang py": " lines))
  | paragraph {segments : List Str} {parts : List (List Str)} : ¬ kids.OnlyCode →
      segments ≠ [] → (∀ l ∈ segments, '\n' ∉ l) → WrappedEach u (proseOpts u (r - p)) segments parts →
      Painted u c p r pl m attrs kids py"p" r (join py"\n" segments) (newlines pl.paragraphSpace.1 ++
        rows r (parts.map (fun p => if p = [] then [[]] else p)).flatten ++ newlines pl.paragraphSpace.2)
  | codeParagraph {y : Str} : kids.OnlyCode →
      Painted u c p r pl m attrs kids py"p" r y (newlines pl.paragraphSpace.1 ++ padLines r y ++ newlines pl.paragraphSpace.2)
  | other {tag y : Str} : Unstyled tag → Painted u c p r pl m attrs kids tag r y y

/-- `Entry … r m attrs tag y x`: a link or image with number `m` has `x` as its line in a list of links if its content is drawn as `y`. -/
inductive Entry (u : Uni) (c : Cfg) (limit : Nat) (r : Int) (m : Nat) (attrs : List (Str × Option Str)) : Str → Str → Str → Prop where
  | link {y : Str} : c.outputFormat ≠ py"gophermap" → Entry u c limit r m attrs py"a" y
      (padLines r (py"\n" ++ linkLine limit m y (givenAttr attrs py"href") (givenAttr attrs py"title")))
  | image {y : Str} : c.outputFormat ≠ py"gophermap" → Entry u c limit r m attrs py"img" y
      (padLines r (py"\n" ++ imageLine m (givenAttr attrs py"src") (givenAttr attrs py"alt")))
  | gopherLink {y : Str} {g : GopherLink} : c.outputFormat = py"gophermap" →
      parseHref u c.gopherHost c.gopherPort (givenAttr attrs py"href") = .ok g →
      Entry u c limit r m attrs py"a" y (gopherLine g m ((givenAttr attrs py"title").getD (cutText limit y)))
  | gopherImage {y : Str} {g : GopherLink} : c.outputFormat = py"gophermap" →
      parseHref u c.gopherHost c.gopherPort (givenAttr attrs py"src") = .ok g →
      Entry u c limit r m attrs py"img" y (padLines r (gopherLine g m (cutText 10 (altText (givenAttr attrs py"alt")))))

/-- What is drawn: the page itself, the list of links directly in an element, or the list of all links. -/
inductive Mode where
  | page
  | near
  | all
  deriving DecidableEq

/-- The links in such a list. -/
def Mode.lists (c : Cfg) : Mode → Str → Bool
  | .page, _ => false
  | .near, tag => linkAt c py"after_block" tag
  | .all, tag => linkAt c py"footer" tag

/-- `Draw … mode up a b k r f x`: the forest `f`, with `r` columns, is drawn as `x`. It stands in elements with the tags `up`, after
`a` siblings of which `b` are elements, and `k` links with numbers come before it. -/
inductive Draw (u : Uni) (c : Cfg) (limit : Nat) (p : Int) : Mode → List Str → Nat → Nat → Nat → Int → Forest → Str → Prop where
  | nil {mode up a b k r} : Draw u c limit p mode up a b k r .nil []
  | text {up a b k r s rest w} : Draw u c limit p .page up (a + 1) b k r rest w →
      Draw u c limit p .page up a b k r (.text s rest) (normaliseData (decide (py"pre" ∈ up)) s ++ w)
  | elem {up a b k r inner tag attrs kids rest y z x w} {k' : Nat} {own : Forest} : k' = k + (if numbered c tag then 1 else 0) →
      Draw u c limit p .page (tag :: up) 0 0 k' inner kids y →
      own = (if linkAt c py"inline" tag then .nil else kids) → Draw u c limit p .near (tag :: up) 0 0 k' inner own z →
      Painted u c p r ⟨up, a, b, rest.topCount (fun _ => true)⟩ (k + 1) attrs kids tag inner
        (y ++ (if own.topCount (Mode.lists c .near) = 0 then [] else py"\n") ++ z) x →
      Draw u c limit p .page up (a + 1) (b + 1) (k' + kids.count (numbered c)) r rest w →
      Draw u c limit p .page up a b k r (.elem tag attrs kids rest) (x ++ w)
  | skipText {mode up a b k r s rest w} : mode ≠ .page → Draw u c limit p mode up (a + 1) b k r rest w →
      Draw u c limit p mode up a b k r (.text s rest) w
  | entry {mode up a b k r tag attrs kids rest y x v w} {k' : Nat} : mode ≠ .page → mode.lists c tag = true →
      k' = k + (if numbered c tag then 1 else 0) →
      Draw u c limit p .page (tag :: up) 0 0 k' r kids y → Entry u c limit r (k + 1) attrs tag y x →
      Draw u c limit p mode (tag :: up) 0 0 k' r (if mode = .all then kids else .nil) v →
      Draw u c limit p mode up (a + 1) (b + 1) (k' + kids.count (numbered c)) r rest w →
      Draw u c limit p mode up a b k r (.elem tag attrs kids rest) (x ++ v ++ w)
  | skipElem {mode up a b k r tag attrs kids rest v w} {k' : Nat} : mode ≠ .page → mode.lists c tag = false →
      k' = k + (if numbered c tag then 1 else 0) →
      Draw u c limit p mode (tag :: up) 0 0 k' r (if mode = .all then kids else .nil) v →
      Draw u c limit p mode up (a + 1) (b + 1) (k' + kids.count (numbered c)) r rest w →
      Draw u c limit p mode up a b k r (.elem tag attrs kids rest) (v ++ w)

/-- `page` is what the tree looks like: what its top level nodes look like, an empty line and a list of links, everything moved to the
right by the left margin, and with the margins above and below. -/
def PageOfTree (u : Uni) (c : Cfg) (f : Forest) (limit : Nat) (page : Str) : Prop :=
  ∃ body foot g, g = (if c.linkPlacement = py"footer" then f else .nil) ∧
    Draw u c limit (c.pageBox.totalPadding.left + c.pageBox.totalPadding.right) .page [] 0 0 0 (room c.pageBox) f body ∧
    Draw u c limit (c.pageBox.totalPadding.left + c.pageBox.totalPadding.right) .all [] 0 0 0 (room c.pageBox) g foot ∧
    page = newlines c.pageBox.margin.top.toNat ++
      indentLines (List.replicate c.pageBox.margin.left.toNat ' ') true
        (body ++ (if g.count (Mode.lists c .all) = 0 then [] else py"\n") ++ foot) ++
      newlines c.pageBox.margin.bottom.toNat

/-- The columns that what is put in front of the lines of an element takes. -/
def Place.marker (pl : Place) (tag : Str) : Nat :=
  if tag = py"blockquote" ∨ tag = py"dd" then 2 else if tag = py"li" then pl.bullet.length else 0

/-- Every paragraph, list item and description has at least one column for its text, if there are `w` columns for the forest. -/
def Forest.HasRoom : (up : List Str) → (nodes : Nat) → (w : Int) → Forest → Prop
  | _, _, _, .nil => True
  | up, a, w, .text _ rest => rest.HasRoom up (a + 1) w
  | up, a, w, .elem tag _ kids rest =>
    (tag = py"p" ∧ ¬ kids.OnlyCode ∨ tag = py"li" ∨ tag = py"dd" → 0 < w - Place.marker ⟨up, a, 0, 0⟩ tag) ∧
    kids.HasRoom (tag :: up) 0 (w - Place.marker ⟨up, a, 0, 0⟩ tag) ∧ rest.HasRoom up (a + 1) w

/-- No element of the forest is a problem; `inside` tells whether the forest is in an element. -/
def Forest.Readable (u : Uni) (c : Cfg) : (inside : Prop) → Forest → Prop
  | _, .nil => True
  | inside, .text _ rest => rest.Readable u c inside
  | inside, .elem tag attrs kids rest => (∀ e, ¬ Problem u c inside tag attrs e) ∧ kids.Readable u c True ∧ rest.Readable u c inside

end Verif.Spec
