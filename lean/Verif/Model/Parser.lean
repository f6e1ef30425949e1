import Verif.Model.Cascade
import Verif.Model.Links

/-!
# `GopherHTMLParser`, `gopher_render/_parser.py`

The parser is driven by events, the calls `HTMLParser.feed` and `HTMLParser.close` make to `handle_starttag`,
`handle_endtag` and `handle_data`. The tokenizer that makes these calls is in `Model/Tokenizer.lean`.
-/

namespace Verif

/-! ## Configuration -/

/-- Constructor arguments, `_parser.py` 348-360. The entry `''` of `renderers` is `defaultRenderer`. -/
structure Cfg where
  width : Int := 67
  box : Option Box := none
  renderers : List Rule := []
  defaultRenderer : RSpec := .cls .renderer
  linkRenderers : List Rule := []
  outputFormat : Str := py"text"
  linkPlacement : Str := py"footer"
  imagePlacement : Str := py"inline"
  gopherHost : Str := []
  gopherPort : Int := 70
  optimise : Bool := true

/-- `self._box`, `_parser.py` 371-377: note that the argument `width` is not used. -/
def Cfg.pageBox (c : Cfg) : Box :=
  match c.box with
  | some b => b
  | none => Box.new 67 {} {} {} none none

/-- `self._renderer_map`, `_parser.py` 383-451. -/
def Cfg.rules (c : Cfg) : List Rule := updateRules defaultRules c.renderers

/-- `self._extracted_link_renderer_map`, `_parser.py` 444-452. -/
def Cfg.linkRules (c : Cfg) : List Rule := updateRules defaultLinkRules c.linkRenderers

/-! ## State -/

/-- The renderers assigned to a node: `renderer`, `renderer_settings` (`_parser.py` 41-42), `link_renderer` (118) and
`link_renderer_settings`, an attribute that is missing (`none`) until assigned (196). -/
structure Assigned where
  renderer : Option RClass := none
  settings : Option Dict := none
  linkRenderer : Option RClass := none
  linkSettings : Option (Option Dict) := none

/-- The mutable state of the parser, `_parser.py` 366-369 and 453-455. `log` is what was printed (528, 534). -/
structure PState where
  dom : Dom := ⟨[], []⟩
  stack : List Nat := []
  nextLink : Nat := 1
  footer : List Nat := []
  inPre : Bool := false
  assigned : List (Nat × Assigned) := []
  parts : List Str := []
  parsed : Str := []
  log : List Str := []

/-- `GopherHTMLParser.__init__`, `_parser.py` 361-456. The stack is kept bottom first. -/
def initParser (c : Cfg) : Py PState :=
  if c.outputFormat = py"gophermap" ∧ c.linkPlacement = py"inline" then .error .valueError
  else if c.outputFormat = py"gophermap" ∧ c.gopherHost = [] then .error .valueError
  else .ok {}

/-- `reset`, `_parser.py` 627-634. (`_in_pre` is not reset.) -/
def reset (s : PState) : PState :=
  { s with dom := ⟨[], []⟩, stack := [], nextLink := 1, footer := [], parts := [], parsed := [], assigned := [] }

/-! ## Building the tree -/

/-- Replace a node. -/
def Dom.modify (d : Dom) (i : Nat) (f : Node → Node) : Dom :=
  { d with nodes := d.nodes.modify i f }

/-- `parent.children.append(t)`, `_parser.py` 514-517 and 551-556. -/
def Dom.addChild (d : Dom) (p : Par) (i : Nat) : Dom :=
  match p with
  | .node j => d.modify j (fun n => { n with children := n.children ++ [i] })
  | _ => { d with roots := d.roots ++ [i] }

/-- `_get_top`, `_parser.py` 458-464. -/
def getTop (s : PState) : Option Nat :=
  match s.stack.getLast? with
  | none => none
  | some i => match s.dom.nodes[i]? with
    | some n => if n.closed then none else some i
    | none => none

/-- The parent of a new element, `_parser.py` 483 and 514-517. -/
def tagParent (s : PState) : Par := match getTop s with | some i => .node i | none => .doc

/-- The parent of a new text, `_parser.py` 549-556. -/
def dataParent (s : PState) : Par := match getTop s with | some i => .node i | none => .none

/-- `tag in ('br', 'img')`, `_parser.py` 33 and 520. -/
def isVoid (tag : Str) : Bool := tag == py"br" || tag == py"img"

/-- `tag in ('a', 'img')`, `_parser.py` 487 and 570. -/
def isLinkTag (tag : Str) : Bool := tag == py"a" || tag == py"img"

/-- The value of an attribute as the tokenizer delivers it: a string or `None`. -/
def attrVal : Option Str → AttrVal
  | some v => .str v
  | none => .none

/-- `dict(attrs)`, `_parser.py` 38: a repeated attribute keeps its last value. -/
def rawAttrs (attrs : List (Str × Option Str)) : DictOf AttrVal :=
  DictOf.update [] (attrs.map (fun kv => (kv.1, attrVal kv.2)))

/-- `__extract_classes`, `_parser.py` 52-56. -/
def extractClasses (attrs : DictOf AttrVal) : Py (DictOf AttrVal × List Str) :=
  match DictOf.get attrs py"class" with
  | none => .ok (attrs, [])
  | some (.str v) => .ok (DictOf.set attrs py"class" (.words (splitWs v)), splitWs v)
  | some _ => .error .attributeError

/-- `attrs.get(name, None)` -/
def attrStr (attrs : DictOf AttrVal) (name : Str) : Option Str :=
  match DictOf.get attrs name with
  | some (.str v) => some v
  | _ => none

/-- `TagParser.__init__`, `_parser.py` 29-44. -/
def newTag (tag : Str) (parent : Par) (attrs : List (Str × Option Str)) : Py Node := do
  let (a, classes) ← extractClasses (rawAttrs attrs)
  return { tag := some tag, data := none, parent, children := [], closed := isVoid tag, attrs := a, classes,
           id := attrStr a py"id", pending := [], link := none }

/-- `LinkParser.__init__`, `_parser.py` 105-128. -/
def newLink (u : Uni) (tag : Str) (parent : Par) (attrs : List (Str × Option Str)) (ctx : LinkCtx) : Py Node := do
  let n ← newTag tag parent attrs
  let title := attrStr n.attrs (if tag = py"a" then py"title" else py"alt")
  let href := attrStr n.attrs (if tag = py"a" then py"href" else py"src")
  let g ← parseHref u ctx.gopherHost ctx.gopherPort href
  return { n with link := some { ctx, title, href, gopherLink := g } }

/-- Collapse runs of spaces and tabs: `re.sub('[ \t]+', ' ', data)`, `_parser.py` 271. `blank` tells that the previous
character was one of them. -/
def collapse : (blank : Bool) → Str → Str
  | _, [] => []
  | blank, c :: r =>
    if c = ' ' ∨ c = '\t' then (if blank then collapse true r else ' ' :: collapse true r)
    else c :: collapse false r

/-- `_parser.py` 263-269: strip around the line breaks. -/
def stripInside (parts : List Str) : List Str :=
  match parts with
  | [] => []
  | [l] => [l]
  | first :: rest => rstrip first :: (rest.dropLast.map strip ++ (rest.getLast?.toList.map lstrip))

/-- The text kept by `DataParser.__init__`, `_parser.py` 251-272. -/
def normaliseData (inPre : Bool) (data : Str) : Str :=
  if inPre then data else collapse false (join py" " (stripInside (splitCh '\n' data)))

/-- `DataParser.__init__`, `_parser.py` 252-273. -/
def newData (parent : Par) (data : Str) : Node :=
  { tag := none, data := some data, parent, children := [], closed := true, attrs := [], classes := [], id := none,
    pending := [], link := none }

/-- The context of a link created now, `_parser.py` 492-497. -/
def linkCtx (c : Cfg) (s : PState) : LinkCtx :=
  { outputFormat := c.outputFormat, linkPlacement := c.linkPlacement, imagePlacement := c.imagePlacement,
    linkReference := s.nextLink, gopherHost := c.gopherHost, gopherPort := c.gopherPort }

/-- `self._image_placement if tag == 'img' else self._link_placement`, `_parser.py` 499. -/
def Cfg.placement (c : Cfg) (tag : Str) : Str := if tag = py"img" then c.imagePlacement else c.linkPlacement

/-- `_parser.py` 499-505: register link `i`, whose parent is `parent`. The `DocumentParser` has no
`add_pending_link`. -/
def registerLink (c : Cfg) (s : PState) (tag : Str) (parent : Par) (i : Nat) : Py PState := do
  let placement := c.placement tag
  let s ← (if placement = py"footer" then .ok { s with footer := s.footer ++ [i] }
    else if placement = py"after_block" then
      match parent with
      | .node j => .ok { s with dom := s.dom.modify j (fun n => { n with pending := n.pending ++ [i] }) }
      | _ => .error .attributeError
    else .ok s)
  if placement ≠ py"inline" then return { s with nextLink := s.nextLink + 1 } else return s

/-- `handle_starttag`, `_parser.py` 482-517. -/
def handleStart (u : Uni) (c : Cfg) (s : PState) (tag : Str) (attrs : List (Str × Option Str)) : Py PState := do
  let parent := tagParent s
  let s := if tag = py"pre" then { s with inPre := true } else s
  let i := s.dom.nodes.length
  if isLinkTag tag then
    let n ← newLink u tag parent attrs (linkCtx c s)
    let s ← registerLink c { s with dom := { s.dom with nodes := s.dom.nodes ++ [n] } } tag parent i
    return { s with dom := s.dom.addChild parent i, stack := if n.closed then s.stack else s.stack ++ [i] }
  else
    let n ← newTag tag parent attrs
    return { s with dom := Dom.addChild { s.dom with nodes := s.dom.nodes ++ [n] } parent i,
                    stack := if n.closed then s.stack else s.stack ++ [i] }

/-- The message of `_parser.py` 528 and 534. -/
def mismatchMsg (tag : Str) : Str := py"Unsupported or mismatched end tag, ignoring: " ++ tag

/-- `handle_endtag`, `_parser.py` 519-538. -/
def handleEnd (s : PState) (tag : Str) : PState :=
  if isVoid tag then s
  else
    let s := if tag = py"pre" then { s with inPre := false } else s
    match getTop s with
    | none => { s with log := s.log ++ [mismatchMsg tag] }
    | some i =>
      if (s.dom.nodes[i]?).any (fun n => n.tag == some tag) then
        { s with dom := s.dom.modify i (fun n => { n with closed := true }), stack := s.stack.dropLast }
      else { s with log := s.log ++ [mismatchMsg tag] }

/-- `handle_data`, `_parser.py` 540-556. -/
def handleData (s : PState) (data : Str) : PState :=
  let parent := dataParent s
  let n := newData parent (normaliseData s.inPre data)
  let i := s.dom.nodes.length
  { s with dom := Dom.addChild { s.dom with nodes := s.dom.nodes ++ [n] } parent i }

/-- The calls made by the tokenizer. -/
inductive Event where
  | start (tag : Str) (attrs : List (Str × Option Str))
  | stop (tag : Str)
  | data (text : Str)
  deriving DecidableEq, Repr

def step (u : Uni) (c : Cfg) (s : PState) : Event → Py PState
  | .start tag attrs => handleStart u c s tag attrs
  | .stop tag => .ok (handleEnd s tag)
  | .data text => .ok (handleData s text)

/-- `feed`. -/
def feed (u : Uni) (c : Cfg) (s : PState) (es : List Event) : Py PState := es.foldlM (step u c) s

/-! ## Assigning renderers -/

/-- `_get_renderer`, `_parser.py` 466-470. -/
def getRenderer (c : Cfg) (d : Dom) (i : Nat) : Py RSpec := do
  match ← getForTag d c.rules (.node i) with
  | some (r, s) => return .pair (some r) (some s)
  | none => return c.defaultRenderer

/-- `_get_extracted_link_renderer`, `_parser.py` 472-480; the fallback is the entry for `a`. A `KeyError` during the
lookup would be caught; selector matching raises none. -/
def getLinkRenderer (c : Cfg) (d : Dom) (i : Nat) : Py RSpec := do
  match ← getForTag d c.linkRules (.node i) with
  | some (r, s) => return .pair (some r) (some s)
  | none => match c.linkRules.find? (fun r => r.key == py"a") with
    | some r => return r.spec
    | none => .error .keyError

/-- The renderers assigned so far to node `i`. -/
def assignedTo (t : List (Nat × Assigned)) (i : Nat) : Assigned := (t.lookup i).getD {}

/-- `TagParser.assign_renderer`, `_parser.py` 61-66. -/
def assignOwn (a : Assigned) : RSpec → Assigned
  | .pair r s => { a with renderer := r, settings := s }
  | .cls c => { a with renderer := some c }

/-- The second half of `LinkParser.assign_renderer`, `_parser.py` 194-198. -/
def assignLink (a : Assigned) : RSpec → Assigned
  | .pair r s => { a with linkRenderer := r, linkSettings := some s }
  | .cls c => { a with linkRenderer := some c }

/-- One round of the loop of `_assign_renderers`, `_parser.py` 569-577. -/
def assignOne (c : Cfg) (d : Dom) (t : List (Nat × Assigned)) (i : Nat) : Py (List (Nat × Assigned)) := do
  let r ← getRenderer c d i
  let a := assignOwn (assignedTo t i) r
  match (d.nodes[i]?).bind Node.tag with
  | some tag =>
    if isLinkTag tag then return (i, assignLink a (← getLinkRenderer c d i)) :: t
    else return (i, a) :: t
  | none => return (i, a) :: t

/-- `_assign_renderers`, `_parser.py` 567-579; fuel bounds the depth of the tree. -/
def assignRenderers (c : Cfg) (d : Dom) : Nat → List Nat → List (Nat × Assigned) → Py (List (Nat × Assigned))
  | _, [], t => .ok t
  | 0, _ :: _, _ => .error .recursion
  | f + 1, is, t => is.foldlM (fun t i => do
      let t ← assignOne c d t i
      assignRenderers c d f (d.childrenOf (.node i)) t) t

/-! ## Rendering -/

/-- What a renderer can read of node `i`. -/
def tagInfo (d : Dom) (i : Nat) : TagInfo :=
  match d.nodes[i]? with
  | none => ⟨none, none, [], none⟩
  | some n =>
    { tag := n.tag
      parentTag := match n.parent with | .node j => (d.nodes[j]?).bind Node.tag | _ => none
      childTags := n.children.map (fun k => (d.nodes[k]?).bind Node.tag)
      index := match n.parent with | .none => none | p => (d.childrenOf p).findIdx? (· == i) }

/-- `''.join` of the renderings of several nodes. -/
def renderAll (r : Nat → Py Str) : List Nat → Py Str
  | [] => .ok []
  | i :: is => do return (← r i) ++ (← renderAll r is)

/-- `renderer(self, **context)`; calling `None` is a `TypeError`. -/
def callRenderer (r : Option RClass) (t : TagInfo) (ctx : Ctx) (box : Box) : Py Inst :=
  match r with
  | some c => construct c t ctx box
  | none => .error .typeError

/-- `TagParser.render`, `_parser.py` 68-100, with the recursive calls as parameters. -/
def renderTag (u : Uni) (d : Dom) (a : Assigned) (i : Nat) (n : Node) (box : Box)
    (child link : Box → Nat → Py Str) : Py Str := do
  let inst ← callRenderer a.renderer (tagInfo d i) ⟨a.settings, n.link.map LinkInfo.ctx, none⟩ box
  let inner := inst.box.getD box
  let body ← renderAll (child inner) n.children
  let links ← renderAll (link inner) n.pending
  inst.render u (body ++ (if n.pending.isEmpty then [] else py"\n") ++ links)

/-- The placement of a link node, `_parser.py` 204 and 221. -/
def LinkInfo.placement (l : LinkInfo) (tag : Option Str) : Str :=
  if tag = some py"img" then l.ctx.imagePlacement else l.ctx.linkPlacement

/-- `LinkParser.link_render`, `_parser.py` 209-248. The settings are added to the context after the renderer has been
constructed (229-231), so they have no effect; only their absence is noticed (227). -/
def renderLink (u : Uni) (d : Dom) (a : Assigned) (i : Nat) (n : Node) (l : LinkInfo) (box : Box)
    (child : Box → Nat → Py Str) : Py Str := do
  let r ← (if l.placement n.tag = py"inline" then Except.ok a.renderer
    else match a.linkSettings with
      | none => .error PyErr.attributeError
      | some _ => .ok a.linkRenderer)
  let inst ← callRenderer r (tagInfo d i) ⟨none, some l.ctx, some ⟨l.href, l.title, l.gopherLink⟩⟩ box
  let inner := inst.box.getD box
  let body ← renderAll (child inner) n.children
  inst.render u body

/-- `render` (`asLink = false`: `TagParser.render` 68-100, `LinkParser.render` 203-207, `DataParser.render` 275-276) and
`link_render` (`asLink = true`: 209-248) of node `i`; fuel bounds the depth of the tree. -/
def renderNode (u : Uni) (d : Dom) (t : List (Nat × Assigned)) : Nat → (asLink : Bool) → Box → Nat → Py Str
  | 0, _, _, _ => .error .recursion
  | f + 1, asLink, box, i =>
    match d.nodes[i]? with
    | none => .error .indexError
    | some n =>
      match n.data, n.link with
      | some data, _ => .ok data
      | none, some l =>
        if asLink || decide (l.placement n.tag = py"inline") then
          renderLink u d (assignedTo t i) i n l box (renderNode u d t f false)
        else renderTag u d (assignedTo t i) i n box (renderNode u d t f false) (renderNode u d t f true)
      | none, none =>
        if asLink then .error .attributeError
        else renderTag u d (assignedTo t i) i n box (renderNode u d t f false) (renderNode u d t f true)

/-- `_indent_body`, `_parser.py` 558-565. -/
def indentBody (box : Box) (parts : List Str) : Str :=
  ((splitlinesKeep parts.flatten).map (fun l => rep ' ' box.margin.left ++ l)).flatten

/-- `_optimise_parsed`, `_parser.py` 581-588. -/
def optimise (parsed : Str) : Str := join py"\n" ((splitCh '\n' parsed).map rstrip)

/-- `_parser.py` 595-598: empty the stack, topmost first; an element without parent goes to the tree. -/
def popStack (d : Dom) : List Nat → Dom
  | [] => d
  | i :: is =>
    popStack (match d.nodes[i]? with
      | some n => if n.parent = .none then { d with roots := d.roots ++ [i] } else d
      | none => d) is

/-- Enough fuel for any tree with this many nodes. -/
def Dom.fuel (d : Dom) : Nat := d.nodes.length + 1

/-- `close`, `_parser.py` 590-625, after the events of the final call to the tokenizer. -/
def close (u : Uni) (c : Cfg) (s : PState) : Py PState := do
  let d := popStack s.dom s.stack.reverse
  let t ← assignRenderers c d d.fuel d.roots s.assigned
  let box := c.pageBox
  let bodies ← d.roots.mapM (renderNode u d t d.fuel false box)
  let footer ← (if c.linkPlacement = py"footer" ∧ s.footer ≠ [] then do
      let ls ← s.footer.mapM (renderNode u d t d.fuel true box)
      return py"\n" :: ls
    else .ok [])
  let parts := s.parts ++ bodies ++ footer
  let parsed := rep '\n' box.margin.top ++ indentBody box parts ++ rep '\n' box.margin.bottom
  return { s with dom := d, stack := [], assigned := t, parts,
                  parsed := if c.optimise then optimise parsed else parsed }

/-- Construct a parser, feed it, close it, and read `parsed`. -/
def renderEvents (u : Uni) (c : Cfg) (es : List Event) : Py Str := do
  let s ← initParser c
  let s ← feed u c s es
  let s ← close u c s
  return s.parsed

end Verif
