import Verif.Py.Dict

/-!
# The document tree

The mutable tree of `TagParser`, `LinkParser`, `DataParser` and `DocumentParser` objects
(`gopher_render/_parser.py` 26-301) is a heap: the list of nodes in order of creation. The position of a node in the
list is its identity (Python's `is`).
-/

namespace Verif

/-- What `.parent` can be: nothing (text outside any element, `_parser.py` 549-550), the `DocumentParser`, a node. -/
inductive Par where
  | none
  | doc
  | node (i : Nat)
  deriving DecidableEq, Repr

/-- A value in `TagParser.attrs`: a string, `None` for an attribute without value, or the list of words that replaces
the value of `class` (`_parser.py` 52-56). -/
inductive AttrVal where
  | str (s : Str)
  | none
  | words (l : List Str)
  deriving DecidableEq, Repr

/-- A gophermap link target, the dict returned by `_parse_href` (`_parser.py` 149-185). -/
structure GopherLink where
  type : Str
  selector : Str
  host : Option Str
  port : Option Int
  deriving DecidableEq, Repr

/-- The keyword arguments handed to a `LinkParser` (`_parser.py` 488-498), its `_context`. -/
structure LinkCtx where
  outputFormat : Str
  linkPlacement : Str
  imagePlacement : Str
  linkReference : Nat
  gopherHost : Str
  gopherPort : Int
  deriving DecidableEq, Repr

/-- The attributes a `LinkParser` has beyond those of a `TagParser` (`_parser.py` 118-128). -/
structure LinkInfo where
  ctx : LinkCtx
  title : Option Str
  href : Option Str
  gopherLink : GopherLink
  deriving DecidableEq, Repr

/-- A `TagParser` (`_parser.py` 29-44), `LinkParser` (`link` present) or `DataParser` (`data` present, 251-273).
The assigned renderer is kept apart, see `Assigned`. -/
structure Node where
  /-- `tag`, `None` for text -/
  tag : Option Str
  /-- the `data` attribute, which only a `DataParser` has -/
  data : Option Str
  parent : Par
  children : List Nat
  closed : Bool
  attrs : DictOf AttrVal
  classes : List Str
  id : Option Str
  pending : List Nat
  link : Option LinkInfo
  deriving DecidableEq, Repr

/-- The tree: all nodes in order of creation, and `DocumentParser.children` (`_parser.py` 287-288). -/
structure Dom where
  nodes : List Node
  roots : List Nat
  deriving DecidableEq, Repr

/-- `tag.children` or `document.children`. -/
def Dom.childrenOf (d : Dom) : Par → List Nat
  | .none => []
  | .doc => d.roots
  | .node i => match d.nodes[i]? with | some n => n.children | Option.none => []

/-- `t.tag is not None` -/
def Dom.isTag (d : Dom) (i : Nat) : Bool :=
  match d.nodes[i]? with | some n => n.tag.isSome | Option.none => false

/-- `tag_children`, `_parser.py` 46-50 and 290-294. -/
def Dom.tagChildren (d : Dom) (p : Par) : List Nat := (d.childrenOf p).filter d.isTag

end Verif
