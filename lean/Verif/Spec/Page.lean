import Verif.Spec.Nested
import Verif.Spec.Theme

/-!
# What the page of a document looks like

A reference for the default style, read off the tree of the document. `r` columns are there for the rows of blocks, and
`p` of them are not used for text (the padding of the page).
-/

namespace Verif.Spec

/-- The empty lines above a term. -/
def DtSpace (d : Dom) (i : Nat) (above : Int) : Prop := FirstChild d i ∧ above = 0 ∨ ¬ FirstChild d i ∧ above = 2

/-- The links and images that are listed at the end of element `i`. A link that is shown in place has no such list. -/
def waiting (c : Cfg) (d : Dom) (i : Nat) : List Nat :=
  if (d.nodes[i]?).any (placed c py"inline") then []
  else nodesWhere d (fun m => placed c py"after_block" m && decide (m.parent = .node i))

/-- `Drawn … r i tag inner y x`: element `i` with this tag is drawn as `x` if its content is drawn as `y`, which has `inner`
columns. -/
inductive Drawn (u : Uni) (c : Cfg) (es : List Event) (d : Dom) (p r : Int) (i : Nat) : Str → Int → Str → Str → Prop where
  | marked {tag before after y : Str} : (tag, before, after) ∈ markers → Drawn u c es d p r i tag r y (before ++ y ++ after)
  | br {y : Str} : Drawn u c es d p r i py"br" r y py"\n"
  | code {y : Str} : ¬ ChildOf d py"pre" i → '\n' ∉ y → Drawn u c es d p r i py"code" r y (py"`" ++ y ++ py"`")
  | fence {y : Str} : ¬ ChildOf d py"pre" i → '\n' ∈ y → Drawn u c es d p r i py"code" r y (py"```\n" ++ y ++ py"\n```\n")
  | codeInPre {y : Str} : ChildOf d py"pre" i → Drawn u c es d p r i py"code" r y y
  | reference {m : Nat} {y : Str} : c.linkPlacement ≠ py"inline" → (nodesWhere d (extracted c))[m]? = some i →
      Drawn u c es d p r i py"a" r y (py"[" ++ y ++ py"][" ++ natStr (m + 1) ++ py"]")
  | link {y : Str} : c.linkPlacement = py"inline" → Drawn u c es d p r i py"a" r y
      (py"[" ++ y ++ py"](" ++ (attrText es i py"href").getD py"None" ++ titlePart (attrText es i py"title") ++ py")")
  | imageReference {m : Nat} {y : Str} : c.imagePlacement ≠ py"inline" → (nodesWhere d (extracted c))[m]? = some i →
      Drawn u c es d p r i py"img" r y (py"[Image][" ++ natStr (m + 1) ++ py"]")
  | image {y : Str} : c.imagePlacement = py"inline" → Drawn u c es d p r i py"img" r y
      (py"![" ++ altText (attrText es i py"alt") ++ py"](" ++ (attrText es i py"src").getD py"None" ++ py")")
  | header {tag y : Str} {n : Nat} : (tag, n) ∈ headerLevels → Drawn u c es d p r i tag r y
      (py"\n" ++ padLines r (List.replicate n '#' ++ py" " ++ y ++ py" " ++ List.replicate n '#') ++ py"\n")
  | pre {y : Str} {ls : List Str} : Lines y ls → Drawn u c es d p r i py"pre" r y (py"\n" ++ rows r (ls.map (py"    " ++ ·)) ++ py"\n")
  | quote {y : Str} {ls : List Str} : Lines y ls →
      Drawn u c es d p r i py"blockquote" (r - 2) y (py"\n" ++ rows r (ls.map (py"> " ++ ·)) ++ py"\n")
  | list {tag y : Str} : tag ∈ [py"ul", py"ol", py"dl"] → Drawn u c es d p r i tag r y (py"\n" ++ padLines r y ++ py"\n")
  | div {y : Str} : Drawn u c es d p r i py"div" r y (padLines r y)
  | term {y : Str} {above : Int} : DtSpace d i above → Drawn u c es d p r i py"dt" r y (newlines above.toNat ++ padLines r y)
  | item {y bullet : Str} {above : Int} {lines : List Str} : LiSpace d i above → Bullet d i bullet →
      wrap u (proseOpts u (r - p - bullet.length)) y = .ok lines →
      Drawn u c es d p r i py"li" (r - bullet.length) y (newlines above.toNat ++ rows r (hang bullet lines))
  | description {y : Str} {lines : List Str} : wrap u (proseOpts u (r - p - 2)) y = .ok lines →
      Drawn u c es d p r i py"dd" (r - 2) y (py"\n" ++ rows r (hang py": " lines))
  | paragraph {above below : Int} {segments : List Str} {parts : List (List Str)} : PSpace d i above below → ¬ OnlyCode d i →
      segments ≠ [] → (∀ l ∈ segments, '\n' ∉ l) → WrappedEach u (proseOpts u (r - p)) segments parts →
      Drawn u c es d p r i py"p" r (join py"\n" segments) (newlines above.toNat ++
        rows r (parts.map (fun p => if p = [] then [[]] else p)).flatten ++ newlines below.toNat)
  | codeParagraph {y : Str} {above below : Int} : PSpace d i above below → OnlyCode d i →
      Drawn u c es d p r i py"p" r y (newlines above.toNat ++ padLines r y ++ newlines below.toNat)
  | other {tag y : Str} : Unstyled tag → Drawn u c es d p r i tag r y y

/-- What the elements look like that rules of the user match: `own i r inner y x` as for `Drawn`. -/
abbrev OwnStyle := Nat → Int → Int → Str → Str → Prop

/-- There are no such elements. -/
def noOwnStyle : OwnStyle := fun _ _ _ _ _ => False

/-- Elements are their content between control sequences. Links and images that are shown in place have none. -/
def codesAround (c : Cfg) (d : Dom) (on off : Nat → List (List Nat)) : OwnStyle := fun i r inner y x =>
  inner = r ∧ x = if (d.nodes[i]?).any (placed c py"inline") then y else ((on i).map sgrText).flatten ++ y ++ ((off i).map sgrText).flatten

/-- Elements that no rule of the user matches are drawn in the default style. -/
def Shown (u : Uni) (c : Cfg) (es : List Event) (d : Dom) (own : OwnStyle) (p r : Int) (i : Nat) (tag : Str) (inner : Int) (y x : Str) : Prop :=
  Unruled c d i ∧ Drawn u c es d p r i tag inner y x ∨ ¬ Untouched d c.renderers i ∧ own i r inner y x

/-- `Listed … r i m tag y x`: link or image `i`, which has the number `m`, has `x` as its line in a list of links if its content is drawn
as `y`. The texts of links are cut after `limit` characters. In a gophermap the target of the link is given (see C41); only
the lines of images are filled up there. -/
inductive Listed (u : Uni) (c : Cfg) (es : List Event) (limit : Nat) (r : Int) (i m : Nat) : Str → Str → Str → Prop where
  | link {y : Str} : c.outputFormat ≠ py"gophermap" → Listed u c es limit r i m py"a" y
      (padLines r (py"\n" ++ linkLine limit m y (attrText es i py"href") (attrText es i py"title")))
  | image {y : Str} : c.outputFormat ≠ py"gophermap" → Listed u c es limit r i m py"img" y
      (padLines r (py"\n" ++ imageLine m (attrText es i py"src") (attrText es i py"alt")))
  | gopherLink {y : Str} {g : GopherLink} : c.outputFormat = py"gophermap" →
      parseHref u c.gopherHost c.gopherPort (attrText es i py"href") = .ok g →
      Listed u c es limit r i m py"a" y (gopherLine g m ((attrText es i py"title").getD (cutText limit y)))
  | gopherImage {y : Str} {g : GopherLink} : c.outputFormat = py"gophermap" →
      parseHref u c.gopherHost c.gopherPort (attrText es i py"src") = .ok g →
      Listed u c es limit r i m py"img" y (padLines r (gopherLine g m (cutText 10 (altText (attrText es i py"alt")))))

/-- `Draws … listed r is x`: the nodes `is` one after another are drawn as `x`, with `r` columns: as part of the page, or
(`listed`) as lines in a list of links. -/
inductive Draws (u : Uni) (c : Cfg) (es : List Event) (d : Dom) (own : OwnStyle) (limit : Nat) (p : Int) : Bool → Int → List Nat → Str → Prop where
  | nil {listed r} : Draws u c es d own limit p listed r [] []
  | text {r i is} {n : Node} {t x : Str} : d.nodes[i]? = some n → n.data = some t → Draws u c es d own limit p false r is x →
      Draws u c es d own limit p false r (i :: is) (t ++ x)
  | elem {r inner i is} {n : Node} {tag y z x w : Str} : d.nodes[i]? = some n → n.tag = some tag →
      Draws u c es d own limit p false inner n.children y → Draws u c es d own limit p true inner (waiting c d i) z →
      Shown u c es d own p r i tag inner (y ++ (if waiting c d i = [] then [] else py"\n") ++ z) x →
      Draws u c es d own limit p false r is w → Draws u c es d own limit p false r (i :: is) (x ++ w)
  | entry {r i is m} {n : Node} {tag y x w : Str} : d.nodes[i]? = some n → n.tag = some tag →
      (nodesWhere d (extracted c))[m]? = some i → Draws u c es d own limit p false r n.children y →
      Listed u c es limit r i (m + 1) tag y x →
      Draws u c es d own limit p true r is w → Draws u c es d own limit p true r (i :: is) (x ++ w)

/-- The links and images listed at the end of the page. -/
def footNodes (c : Cfg) (d : Dom) : List Nat := if c.linkPlacement = py"footer" then nodesWhere d (placed c py"footer") else []

/-- `page` is what the document looks like: what its top level nodes look like, an empty line and a list of links, everything
moved to the right by the left margin, and with the margins above and below. -/
def PageOf (u : Uni) (c : Cfg) (es : List Event) (d : Dom) (own : OwnStyle) (limit : Nat) (page : Str) : Prop :=
  ∃ body foot, Draws u c es d own limit (c.pageBox.totalPadding.left + c.pageBox.totalPadding.right) false (room c.pageBox) d.roots body ∧
    Draws u c es d own limit (c.pageBox.totalPadding.left + c.pageBox.totalPadding.right) true (room c.pageBox) (footNodes c d) foot ∧
    page = newlines c.pageBox.margin.top.toNat ++
      indentLines (List.replicate c.pageBox.margin.left.toNat ' ') true (body ++ (if footNodes c d = [] then [] else py"\n") ++ foot) ++
      newlines c.pageBox.margin.bottom.toNat

end Verif.Spec
