import Verif.Py.Format
import Verif.Model.Box
import Verif.Model.Justify
import Verif.Model.Dom

/-!
# The renderers: `gopher_render/rendering.py` 263-1358

User defined renderers are subclasses that only declare `settings`; renderers that override methods are not modelled.
-/

namespace Verif

/-! ## Classes and their settings -/

/-- The renderer classes. `sub base settings` is a user subclass with the given `settings` declaration. -/
inductive RClass where
  | renderer | nonRenderer | inline | block | header | mdHeader | paragraph | code | pre
  | link | extractedLink | image | extractedImage
  | em | strong | underline | strike | brk
  | blockQuote | list | listItem | olItem | defList | defTerm | defItem | ansi
  | sub (base : RClass) (settings : Dict)
  deriving Repr

/-- The base class. -/
def RClass.base : RClass → Option RClass
  | .renderer => none
  | .nonRenderer => some .renderer
  | .inline => some .renderer
  | .block => some .renderer
  | .header => some .block
  | .mdHeader => some .header
  | .paragraph => some .block
  | .code => some .inline
  | .pre => some .block
  | .link => some .inline
  | .extractedLink => some .block
  | .image => some .inline
  | .extractedImage => some .block
  | .em => some .inline
  | .strong => some .inline
  | .underline => some .inline
  | .strike => some .inline
  | .brk => some .inline
  | .blockQuote => some .block
  | .list => some .block
  | .listItem => some .block
  | .olItem => some .listItem
  | .defList => some .block
  | .defTerm => some .header
  | .defItem => some .block
  | .ansi => some .inline
  | .sub b _ => some b

/-- `templates` of the extracted link renderers, `rendering.py` 729 and 837. -/
def extractedTemplates : Val :=
  .strs [py"\n[{link_reference}] {description}: {href}", py"\n[{link_reference}] {description}: {href} \"{title}\""]

/-- `rendering.py` 730 and 838. -/
def gophermapTemplate : Val :=
  .str py"{type}[{link_reference}] {description}\t{selector}\t{host}\t{port}\n"

/-- Settings shared by list items and definition list items, `rendering.py` 998-1007 and 1113-1122. -/
def itemSettings (template : Str) : Dict :=
  [(py"line_template", .str template),
   (py"margin", .ints [1, 0, 0, 0]),
   (py"initial_indent", .int 0),
   (py"subsequent_indent", .int 0),
   (py"justification", .str py"left"),
   (py"capitalized", .bool false),
   (py"fix_sentence_endings", .bool true),
   (py"break_long_words", .bool true)]

/-- The `settings` declared in the body of each class: `Renderer` 294, `InlineRenderer` 364-367, `BlockRenderer`
379-383, `HeaderRenderer` 482-492, `ParagraphRenderer` 548-558, `CodeRenderer` 651-654, `PreRenderer` 670-674,
`LinkRenderer` 693-699, `ExtractedLinkRenderer` 728-732, `ImageRenderer` 801-807, `ExtractedImageLinkRenderer`
836-840, `EmRenderer` 891-893, `StrongRenderer` 901-903, `UnderlineRenderer` 911-913, `StrikethroughRenderer`
921-923, `BreakRenderer` 933-935, `BlockQuoteRenderer` 946-949, `ListRenderer` 991-994, `ListItemRenderer` 998-1007,
`OrderedListItemRenderer` 1074-1078, `DefinitionListRenderer` 1099-1102, `DefinitionListTermHeaderRenderer`
1106-1109, `DefinitionListItemRenderer` 1113-1122, `AnsiEscapeCodeRenderer` 1279-1297. Classes without a declaration
get an empty one from the metaclass (270-282). -/
def RClass.ownSettings : RClass → Dict
  | .renderer => []
  | .nonRenderer => []
  | .inline => [(py"template", .str py"{}"), (py"capitalized", .bool false)]
  | .block => [(py"border", .strs [[], [], [], []]), (py"margin", .ints [0, 0, 0, 0]), (py"padding", .ints [0, 0, 0, 0])]
  | .header =>
    [(py"template", .str py"{}"), (py"capitalized", .bool false), (py"spread", .int 0), (py"spread_char", .str py" "),
     (py"centered", .bool false), (py"underlined", .bool false), (py"underline_char", .str py"="),
     (py"underline_full", .bool false), (py"margin", .ints [1, 0, 1, 0])]
  | .mdHeader => []
  | .paragraph =>
    [(py"initial_indent", .int 0), (py"subsequent_indent", .int 0), (py"justification", .str py"left"),
     (py"capitalized", .bool false), (py"fix_sentence_endings", .bool true), (py"break_long_words", .bool true),
     (py"skip_for_code_or_pre", .bool true), (py"margin", .ints [1, 0, 1, 0]), (py"line_template", .str py"{}")]
  | .code => [(py"block_template", .str py"```\n{}\n```\n"), (py"inline_template", .str py"`{}`")]
  | .pre => [(py"line_template", .str py"{}"), (py"indent", .int 4), (py"margin", .ints [1, 0, 1, 0])]
  | .link =>
    [(py"templates", .strDict
        [(py"reference", [py"[{content}][{link_reference}]"]),
         (py"inline", [py"[{content}]({href})", py"[{content}]({href} \"{title}\")"])]),
     (py"capitalized", .bool false)]
  | .extractedLink =>
    [(py"templates", extractedTemplates), (py"gophermap_template", gophermapTemplate),
     (py"max_link_description", .int 10)]
  | .image =>
    [(py"templates", .strDict
        [(py"reference", [py"[{title}][{link_reference}]"]), (py"inline", [py"![{title}]({href})"])]),
     (py"capitalized", .bool false)]
  | .extractedImage =>
    [(py"templates", extractedTemplates), (py"gophermap_template", gophermapTemplate),
     (py"max_link_description", .int 10)]
  | .em => [(py"template", .str py"_{}_")]
  | .strong => [(py"template", .str py"**{}**")]
  | .underline => [(py"template", .str py"_{}_")]
  | .strike => [(py"template", .str py"~~{}~~")]
  | .brk => [(py"template", .str py"{}")]
  | .blockQuote => [(py"line_template", .str py"> {}"), (py"margin", .ints [1, 0, 1, 0])]
  | .list => [(py"margin", .ints [1, 0, 1, 0]), (py"padding", .ints [0, 0, 0, 0])]
  | .listItem => itemSettings py"* {}"
  | .olItem => [(py"line_template", .str py"{0}. {1}"), (py"start_index", .int 1), (py"step", .int 1)]
  | .defList => [(py"margin", .ints [1, 0, 1, 0]), (py"padding", .ints [0, 0, 0, 0])]
  | .defTerm => [(py"margin", .ints [2, 0, 0, 0]), (py"padding", .ints [0, 0, 0, 0])]
  | .defItem => itemSettings py": {}"
  | .ansi =>
    [(py"foreground_colour", .none), (py"background_colour", .none), (py"font", .none), (py"bold", .bool false),
     (py"underline", .bool false), (py"invert", .bool false), (py"italic", .bool false), (py"faint", .bool false),
     (py"slow_blink", .bool false), (py"rapid_blink", .bool false), (py"conceal", .bool false),
     (py"crossed_out", .bool false), (py"fraktur", .bool false), (py"framed", .bool false),
     (py"encircled", .bool false), (py"overlined", .bool false), (py"normalise", .bool false)]
  | .sub _ s => s

/-- `inspect.getmro(cls)[::-1]` without `object`, as the list of declared settings, least derived first
(`rendering.py` 302-305). -/
def RClass.chain : RClass → List Dict
  | .sub b s => b.chain ++ [s]
  | .renderer => [RClass.ownSettings .renderer]
  | .nonRenderer => [RClass.ownSettings .renderer, RClass.ownSettings .nonRenderer]
  | .inline => [RClass.ownSettings .renderer, RClass.ownSettings .inline]
  | .block => [RClass.ownSettings .renderer, RClass.ownSettings .block]
  | .mdHeader =>
    [RClass.ownSettings .renderer, RClass.ownSettings .block, RClass.ownSettings .header, RClass.ownSettings .mdHeader]
  | .defTerm =>
    [RClass.ownSettings .renderer, RClass.ownSettings .block, RClass.ownSettings .header, RClass.ownSettings .defTerm]
  | .olItem =>
    [RClass.ownSettings .renderer, RClass.ownSettings .block, RClass.ownSettings .listItem, RClass.ownSettings .olItem]
  | .code => [RClass.ownSettings .renderer, RClass.ownSettings .inline, RClass.ownSettings .code]
  | .link => [RClass.ownSettings .renderer, RClass.ownSettings .inline, RClass.ownSettings .link]
  | .image => [RClass.ownSettings .renderer, RClass.ownSettings .inline, RClass.ownSettings .image]
  | .em => [RClass.ownSettings .renderer, RClass.ownSettings .inline, RClass.ownSettings .em]
  | .strong => [RClass.ownSettings .renderer, RClass.ownSettings .inline, RClass.ownSettings .strong]
  | .underline => [RClass.ownSettings .renderer, RClass.ownSettings .inline, RClass.ownSettings .underline]
  | .strike => [RClass.ownSettings .renderer, RClass.ownSettings .inline, RClass.ownSettings .strike]
  | .brk => [RClass.ownSettings .renderer, RClass.ownSettings .inline, RClass.ownSettings .brk]
  | .ansi => [RClass.ownSettings .renderer, RClass.ownSettings .inline, RClass.ownSettings .ansi]
  | c => [RClass.ownSettings .renderer, RClass.ownSettings .block, c.ownSettings]

/-- `all_bases`, `rendering.py` 303-307: a settings dict equal to one already collected is skipped. -/
def dedupe (acc : List Dict) : List Dict → List Dict
  | [] => acc
  | d :: ds => if acc.any (fun a => Dict.pyEq d a) then dedupe acc ds else dedupe (acc ++ [d]) ds

/-- The settings made in `Renderer.__new__`, `rendering.py` 301-312. -/
def newSettings (c : RClass) : Dict := (dedupe [] c.chain).foldl DictOf.update []

/-- The built-in class whose methods a renderer class uses. -/
def RClass.behaviour : RClass → RClass
  | .sub b _ => b.behaviour
  | c => c

/-! ## Reading settings -/

/-- `settings.name`, `_namedict.py` 7-10. -/
def getA (s : Dict) (k : Str) : Py Val := match DictOf.get s k with | some v => .ok v | none => .error .attributeError

/-- `settings['name']`. -/
def getK (s : Dict) (k : Str) : Py Val := match DictOf.get s k with | some v => .ok v | none => .error .keyError

/-- Use as a template or string. Simplification: a value of another type gives `AttributeError` ("object has no
attribute 'format'"), although some uses would give `TypeError`. -/
def asStr : Val → Py Str
  | .str s => .ok s
  | _ => .error .attributeError

/-- Use as an integer. -/
def asInt : Val → Py Int
  | .int i => .ok i
  | .bool b => .ok (if b then 1 else 0)
  | _ => .error .typeError

/-- Use as a list of four numbers; `None` stands for zeros (`rendering.py` 119-124). -/
def asSides : Val → Py Sides
  | .none => .ok {}
  | .ints (a :: b :: c :: d :: _) => .ok ⟨a, b, c, d⟩
  | .ints _ => .error .indexError
  | _ => .error .typeError

/-- Use as a sequence of border strings. -/
def asBorder : Val → Py (List Str)
  | .strs l => .ok l
  | .str s => .ok (s.map (fun c => [c]))
  | _ => .error .typeError

/-- `seq[k]` on a list of strings. -/
def strAt (l : List Str) (k : Nat) : Py Str := match l[k]? with | some s => .ok s | none => .error .indexError

/-! ## Instances -/

/-- What renderers read of the `TagParser` they belong to. -/
structure TagInfo where
  tag : Option Str
  /-- `tag.parent.tag`, if the parent has a `tag` -/
  parentTag : Option Str
  /-- the `tag` attribute of each child -/
  childTags : List (Option Str)
  /-- `tag.parent.children.index(tag)` -/
  index : Option Nat
  deriving DecidableEq, Repr

/-- The entries `href`, `title` and `gopher_link` that only `link_render` provides (`_parser.py` 213-218). -/
structure Target where
  href : Option Str
  title : Option Str
  gopherLink : GopherLink
  deriving DecidableEq, Repr

/-- The context of a renderer, `self.context`: `settings` (`_parser.py` 74-75), the `_context` of a `LinkParser`
(72, 219) and the target of a link (213-218). The entry `parent_box` is passed separately. -/
structure Ctx where
  settings : Option Dict
  link : Option LinkCtx
  target : Option Target

/-- A renderer instance. -/
structure Inst where
  cls : RClass
  settings : Dict
  /-- only instances of `BlockRenderer` have one -/
  box : Option Box
  tag : TagInfo
  ctx : Ctx

/-- `Renderer._adjust_settings`, `rendering.py` 333-341. -/
def adjust (s : Dict) (ctx : Ctx) : Dict :=
  match ctx.settings with | some l => DictOf.update s l | none => s

/-- `settings.get('line_template', None)` handed to `Box`. -/
def boxTemplate (s : Dict) : Py (Option Str) :=
  match DictOf.get s py"line_template" with
  | some (.str t) => .ok (some t)
  | some v => if v.truthy then .error .typeError else .ok none
  | none => .ok none

/-- `BlockRenderer.__init__` and `_generate_box`, `rendering.py` 385-413, and with `withTemplate` the variants of
`_generate_box` at 561-584, 952-975, 1010-1033 and 1125-1148. The `parent_box` is always present under the parser. -/
def blockBox (withTemplate : Bool) (s : Dict) (parent : Box) : Py Box := do
  let border ← asBorder (← getA s py"border")
  let margin ← asSides ((DictOf.get s py"margin").getD .none)
  let padding ← asSides ((DictOf.get s py"padding").getD .none)
  let template ← (if withTemplate then boxTemplate s else .ok none)
  let t ← strAt border 0
  let r ← strAt border 1
  let b ← strAt border 2
  let l ← strAt border 3
  return Box.new 67 margin padding ⟨len t, len r, len b, len l⟩ template (some parent)

/-- Classes derived from `BlockRenderer`. -/
def RClass.isBlock : RClass → Bool
  | .block | .header | .mdHeader | .paragraph | .pre | .extractedLink | .extractedImage | .blockQuote | .list
  | .listItem | .olItem | .defList | .defTerm | .defItem => true
  | .sub b _ => b.isBlock
  | _ => false

/-- Classes whose `_generate_box` passes the line template on. -/
def RClass.boxHasTemplate : RClass → Bool
  | .paragraph | .blockQuote | .listItem | .olItem | .defItem => true
  | .sub b _ => b.boxHasTemplate
  | _ => false

/-- `MarkdownHeaderRenderer._adjust_settings`, `rendering.py` 537-539. -/
def markdownTemplate (t : TagInfo) : Py Str :=
  match t.tag with
  | none => .error .typeError
  | some name => match name[1]? with
    | none => .error .indexError
    | some c => match pyInt 10 [c] with
      | none => .error .valueError
      | some n => .ok (rep '#' n ++ py" {} " ++ rep '#' n)

/-- `OrderedListItemRenderer._get_ordinal`, `rendering.py` 1094-1095. -/
def ordinal (t : TagInfo) (start step : Int) : Py Int :=
  match t.index with
  | none => .error .attributeError
  | some k => .ok ((k : Int) * step + start)

/-- The settings of a new instance: `Renderer.__init__` 316-320 with `_adjust_settings` 333-341 and 531-539, and
`OrderedListItemRenderer.__init__` 1080-1092. -/
def initSettings (c : RClass) (t : TagInfo) (ctx : Ctx) : Py Dict :=
  match c.behaviour with
  | .olItem => do
    let s := newSettings c
    let start ← asInt (← getA s py"start_index")
    let step ← asInt (← getA s py"step")
    let order ← ordinal t start step
    let template ← asStr (← getA s py"line_template")
    let line ← pyFormat template [.int order, py"{}"]
    return adjust (DictOf.set s py"line_template" (.str line)) ctx
  | .mdHeader => do
    let template ← markdownTemplate t
    return DictOf.set (adjust (newSettings c) ctx) py"template" (.str template)
  | _ => .ok (adjust (newSettings c) ctx)

/-- `renderer(tag, **context)`. -/
def construct (c : RClass) (t : TagInfo) (ctx : Ctx) (parent : Box) : Py Inst := do
  let s ← initSettings c t ctx
  if c.isBlock then
    let box ← blockBox c.boxHasTemplate s parent
    return { cls := c.behaviour, settings := s, box := some box, tag := t, ctx }
  else
    return { cls := c.behaviour, settings := s, box := none, tag := t, ctx }

/-! ## Block layout -/

/-- `BlockRenderer._outer_render`, `rendering.py` 415-427. -/
def outerRender (box : Box) (content : Str) : Str :=
  rep '\n' box.margin.top ++ ((splitlinesKeep content).map (fun l => rep ' ' box.margin.left ++ l)).flatten ++
    rep '\n' box.margin.bottom

/-- One row of `_border_render`, `rendering.py` 441-449. -/
def borderRow (box : Box) (left right : Str) (l : Str) : Str :=
  left ++ rep ' ' box.padding.left ++ l ++ rep ' ' (box.paddedWidth - (box.padding.left + len l)) ++ right

/-- `BlockRenderer._border_render`, `rendering.py` 435-468, given the four border strings. -/
def borderLines (box : Box) (bt br bb bl : Str) (content : Str) : List Str :=
  let padded := (splitCh '\n' content).map (borderRow box bl br)
  let vertical := bl ++ rep ' ' box.paddedWidth ++ br
  let rows (n : Int) : List Str := List.replicate n.toNat vertical
  let padded := rows box.padding.top ++ padded ++ rows box.padding.bottom
  let edge (s : Str) (k : Int) : List Str := if k > 0 then s.map (fun c => rep c box.borderedWidth) else []
  edge bt box.border.top ++ padded ++ edge bb box.border.bottom

/-- `BlockRenderer._border_render`, `rendering.py` 435-468. -/
def borderRender (s : Dict) (box : Box) (content : Str) : Py Str := do
  let borders ← asBorder (← getA s py"border")
  let bt ← strAt borders 0
  let br ← strAt borders 1
  let bb ← strAt borders 2
  let bl ← strAt borders 3
  return join py"\n" (borderLines box bt br bb bl content)

/-! ## Inner rendering of the block renderers -/

/-- `capitalize if settings.capitalized else _noop`, with `capitalize` = `upper` (`rendering.py` 85-86). -/
def capIf (u : Uni) (s : Dict) (content : Str) : Py Str := do
  if (← getA s py"capitalized").truthy then return u.upper content else return content

/-- `HeaderRenderer._inner_render`, `rendering.py` 494-521. -/
def headerInner (u : Uni) (s : Dict) (box : Box) (content : Str) : Py Str := do
  let centered := (← getA s py"centered").truthy
  let capped ← capIf u s content
  let n ← asInt (← getA s py"spread")
  let width := box.innerWidth
  let template ← asStr (← getA s py"template")
  let spreadChar ← getA s py"spread_char"
  let spreaded ← (if n > 0 then do return spread capped (← asStr spreadChar) n else .ok capped)
  let inner ← fmt1 template spreaded
  let cf (t : Str) : Str := if centered then center t width else t
  if (← getK s py"underlined").truthy then
    let underlineLen := if (← getA s py"underline_full").truthy then width else len inner
    let uc ← asStr (← getA s py"underline_char")
    return cf inner ++ py"\n" ++ cf (repStr uc underlineLen)
  else return cf inner

/-- A boolean `textwrap` argument: present in the settings, or the default. -/
def wrapFlag (s : Dict) (k : Str) (dflt : Bool) : Bool :=
  match DictOf.get s k with | some v => v.truthy | none => dflt

/-- `justify_args`, `rendering.py` 601-616, 1041-1056 and 1156-1171, as `TextWrapper` arguments. The placeholder is stored
unread, and the tab size is read only if tabs are expanded. Simplification: `break_on_hyphens` counts by its truth, where
`_split` compares with `True` (`textwrap.py` 172 of the standard library). -/
def wrapOpts (u : Uni) (s : Dict) (width : Int) : Py WrapOpts := do
  let ii ← asInt (← getA s py"initial_indent")
  let si ← asInt (← getA s py"subsequent_indent")
  let placeholder := (match DictOf.get s py"placeholder" with | some (.str v) => v | _ => py" [...]")
  let tabsize ← (match DictOf.get s py"tabsize" with
    | some v => if wrapFlag s py"expand_tabs" true then asInt v else .ok 8
    | none => .ok 8)
  return {
    width
    initialIndent := rep ' ' ii
    subsequentIndent := rep ' ' si
    expandTabs := wrapFlag s py"expand_tabs" true
    replaceWs := wrapFlag s py"replace_whitespace" true
    fixSentence := wrapFlag s py"fix_sentence_endings" false
    breakLong := wrapFlag s py"break_long_words" true
    dropWs := wrapFlag s py"drop_whitespace" true
    breakHyphens := wrapFlag s py"break_on_hyphens" true
    tabsize
    maxLines := none
    placeholder
    hyphenAware := u.hyphenAware }

/-- `ParagraphRenderer._skip`, `rendering.py` 586-587. -/
def skipParagraph (t : TagInfo) : Bool :=
  match t.childTags with
  | [some c] => c == py"code" || c == py"pre"
  | _ => false

/-- `ParagraphRenderer._inner_render`, `rendering.py` 589-634. -/
def paragraphInner (u : Uni) (s : Dict) (t : TagInfo) (box : Box) (content : Str) : Py Str := do
  if (← getA s py"skip_for_code_or_pre").truthy && skipParagraph t then return content
  else
    let justify ← justification u (← asStr (← getA s py"justification"))
    let o ← wrapOpts u s box.textWidth
    let inner ← capIf u s content
    let justified ← (splitCh '\n' inner).mapM (fun chunk => justify o (strip chunk))
    let template ← asStr (← getA s py"line_template")
    let lines ← (splitCh '\n' (join py"\n" justified)).mapM (fmt1 template)
    return join py"\n" lines

/-- `PreRenderer._inner_render`, `rendering.py` 676-688. -/
def preInner (s : Dict) (content : Str) : Py Str := do
  let formatted ← (splitlines content).mapM (fun line => do
    let indent ← asInt (← getA s py"indent")
    let template ← asStr (← getA s py"line_template")
    return rep ' ' indent ++ (← fmt1 template line))
  return join py"\n" formatted

/-- `BlockQuoteRenderer._inner_render`, `rendering.py` 977-987. -/
def quoteInner (s : Dict) (content : Str) : Py Str := do
  let template ← asStr (← getA s py"line_template")
  let lines ← (splitlines content).mapM (fmt1 template)
  return join py"\n" lines

/-- `ListItemRenderer._inner_render` and `DefinitionListItemRenderer._inner_render`, `rendering.py` 1035-1070 and
1150-1185. -/
def itemInner (u : Uni) (s : Dict) (box : Box) (content : Str) : Py Str := do
  let justify ← justification u (← asStr (← getA s py"justification"))
  let o ← wrapOpts u s box.textWidth
  let inner ← capIf u s content
  let justified ← justify o inner
  let template ← asStr (← getA s py"line_template")
  match splitCh '\n' justified with
  | [] => .error .indexError
  | first :: rest =>
    let firstLine ← fmt1 template first
    return join py"\n" (firstLine :: rest.map (fun l => rep ' ' box.lineTemplatePadding ++ l))

/-- `str()` of a value that may be `None`. -/
def strOpt : Option Str → Str
  | some s => s
  | none => py"None"

/-- The truncated description, `rendering.py` 741-745 and 852-856. -/
def trimDescription (limit : Int) (content : Str) : Str :=
  if len content > limit then pyTake (strip content) limit ++ py"..." else pyTake (strip content) limit

/-- The arguments of a gophermap template, `rendering.py` 751-758 and 862-869. -/
def gophermapArgs (description : Str) (ref : Nat) (g : GopherLink) : DictOf Arg :=
  [(py"description", description), (py"link_reference", .int ref), (py"selector", g.selector), (py"type", g.type),
   (py"host", .opt g.host), (py"port", .optInt g.port)]

/-- `self.context[...]` for an entry of the link context. -/
def ctxLink (ctx : Ctx) : Py LinkCtx := match ctx.link with | some l => .ok l | none => .error .keyError

/-- `self.context[...]` for an entry of the link target. -/
def ctxTarget (ctx : Ctx) : Py Target := match ctx.target with | some t => .ok t | none => .error .keyError

/-- `settings.templates[k]` of the extracted link renderers. -/
def templateAt (v : Val) (k : Nat) : Py Str :=
  match v with
  | .strs l => strAt l k
  | _ => .error .typeError

/-- `title` is a non-empty string. -/
def truthyTitle (t : Option Str) : Bool := match t with | some s => !s.isEmpty | none => false

/-- `ExtractedLinkRenderer._inner_render`, `rendering.py` 734-771. -/
def extractedLinkInner (s : Dict) (ctx : Ctx) (content : Str) : Py Str := do
  let l ← ctxLink ctx
  let tgt ← ctxTarget ctx
  let limit ← asInt (← getA s py"max_link_description")
  let trimmed := trimDescription limit content
  if l.outputFormat = py"gophermap" then
    let description := match tgt.title with | some t => t | none => trimmed
    let template ← asStr (← getA s py"gophermap_template")
    pyFormat template [] (gophermapArgs description l.linkReference tgt.gopherLink)
  else
    let templates ← getA s py"templates"
    let kw : DictOf Arg :=
      [(py"description", trimmed), (py"link_reference", .int l.linkReference), (py"href", .opt tgt.href)]
    if truthyTitle tgt.title then
      pyFormat (← templateAt templates 1) [] (kw ++ [(py"title", .opt tgt.title)])
    else pyFormat (← templateAt templates 0) [] kw

/-- `ExtractedImageLinkRenderer._inner_render`, `rendering.py` 842-882. -/
def extractedImageInner (s : Dict) (ctx : Ctx) : Py Str := do
  let l ← ctxLink ctx
  let tgt ← ctxTarget ctx
  let title := if truthyTitle tgt.title then strOpt tgt.title else py"Image"
  let limit ← asInt (← getA s py"max_link_description")
  let trimmed := trimDescription limit title
  if l.outputFormat = py"gophermap" then
    let template ← asStr (← getA s py"gophermap_template")
    pyFormat template [] (gophermapArgs trimmed l.linkReference tgt.gopherLink)
  else
    let templates ← getA s py"templates"
    let kw : DictOf Arg :=
      [(py"description", trimmed), (py"link_reference", .int l.linkReference), (py"href", .opt tgt.href)]
    if len title > limit then
      pyFormat (← templateAt templates 1) [] (kw ++ [(py"title", .str title)])
    else pyFormat (← templateAt templates 0) [] kw

/-- `_inner_render` of each block renderer; `BlockRenderer._inner_render` is `rendering.py` 429-433. -/
def innerRender (u : Uni) (i : Inst) (box : Box) (content : Str) : Py Str :=
  match i.cls with
  | .header | .mdHeader | .defTerm => headerInner u i.settings box content
  | .paragraph => paragraphInner u i.settings i.tag box content
  | .pre => preInner i.settings content
  | .blockQuote => quoteInner i.settings content
  | .listItem | .olItem | .defItem => itemInner u i.settings box content
  | .extractedLink => extractedLinkInner i.settings i.ctx content
  | .extractedImage => extractedImageInner i.settings i.ctx
  | _ => .ok content

/-- `BlockRenderer.render`, `rendering.py` 470-477. -/
def blockRender (u : Uni) (i : Inst) (box : Box) (content : Str) : Py Str := do
  let inner ← innerRender u i box content
  let bordered ← borderRender i.settings box inner
  return outerRender box bordered

/-- `ExtractedLinkRenderer.render` and `_outer_render`, `rendering.py` 773-796. -/
def extractedLinkRender (u : Uni) (i : Inst) (box : Box) (content : Str) : Py Str := do
  let l ← ctxLink i.ctx
  if l.outputFormat = py"gophermap" then
    let inner ← innerRender u i box content
    return rep '\n' box.margin.top ++ inner ++ rep '\n' box.margin.bottom
  else blockRender u i box content

/-! ## Inline renderers -/

/-- `InlineRenderer.render`, `rendering.py` 369-374. -/
def inlineRender (u : Uni) (s : Dict) (content : Str) : Py Str := do
  let cap := (← getK s py"capitalized").truthy
  let template ← asStr (← getA s py"template")
  fmt1 template (if cap then u.upper content else content)

/-- `CodeRenderer.render`, `rendering.py` 656-665. -/
def codeRender (s : Dict) (t : TagInfo) (content : Str) : Py Str :=
  if t.parentTag = some py"pre" then .ok content
  else if content.contains '\n' then do fmt1 (← asStr (← getK s py"block_template")) content
  else do fmt1 (← asStr (← getK s py"inline_template")) content

/-- `settings.templates[name][k]` of `LinkRenderer` and `ImageRenderer`. -/
def namedTemplate (s : Dict) (name : Str) (k : Nat) : Py Str := do
  match ← getA s py"templates" with
  | .strDict d => match DictOf.get d name with
    | some l => strAt l k
    | none => .error .keyError
  | _ => .error .typeError

/-- The title in the context, if `"title" in self.context and self.context["title"]`. -/
def ctxTitle (ctx : Ctx) : Option Str :=
  match ctx.target with
  | some t => if truthyTitle t.title then t.title else none
  | none => none

/-- `LinkRenderer.render`, `rendering.py` 702-721. -/
def linkRender (u : Uni) (s : Dict) (ctx : Ctx) (content : Str) : Py Str := do
  let l ← ctxLink ctx
  let inner ← inlineRender u s content
  let inner ← capIf u s inner
  if l.linkPlacement = py"inline" then
    match ctxTitle ctx with
    | some title => do
      let template ← namedTemplate s py"inline" 1
      let tgt ← ctxTarget ctx
      pyFormat template [] [(py"content", inner), (py"href", .opt tgt.href), (py"title", title)]
    | none => do
      let template ← namedTemplate s py"inline" 0
      let tgt ← ctxTarget ctx
      pyFormat template [] [(py"content", inner), (py"href", .opt tgt.href)]
  else
    let template ← namedTemplate s py"reference" 0
    pyFormat template [] [(py"content", inner), (py"link_reference", .int l.linkReference)]

/-- `ImageRenderer.render`, `rendering.py` 809-831. -/
def imageRender (s : Dict) (ctx : Ctx) : Py Str := do
  let l ← ctxLink ctx
  let title := (ctxTitle ctx).getD py"Image"
  if l.imagePlacement = py"inline" then
    let template ← namedTemplate s py"inline" 0
    let tgt ← ctxTarget ctx
    pyFormat template [] [(py"href", .opt tgt.href), (py"title", title)]
  else
    let template ← namedTemplate s py"reference" 0
    pyFormat template [] [(py"title", title), (py"link_reference", .int l.linkReference)]

/-- `BreakRenderer.render`, `rendering.py` 937-942. -/
def breakRender (u : Uni) (s : Dict) : Py Str := do
  let inner ← inlineRender u s py"\n"
  fmt1 (← asStr (← getA s py"template")) inner

/-! ## ANSI styling -/

/-- `ansi_colours`, `rendering.py` 1188-1205. -/
def ansiColours : List (Str × Int) :=
  [(py"black", 30), (py"red", 31), (py"green", 32), (py"yellow", 33), (py"blue", 34), (py"magenta", 35),
   (py"cyan", 36), (py"white", 37), (py"bright_black", 90), (py"bright_red", 91), (py"bright_green", 92),
   (py"bright_yellow", 93), (py"bright_blue", 94), (py"bright_magenta", 95), (py"bright_cyan", 96),
   (py"bright_white", 97)]

/-- `ansi_escape_sequences`, `rendering.py` 1210-1224. -/
def ansiEffects : List (Str × Int × Int) :=
  [(py"bold", 1, 22), (py"faint", 2, 22), (py"italic", 3, 23), (py"fraktur", 20, 23), (py"underline", 4, 24),
   (py"slow_blink", 5, 25), (py"rapid_blink", 6, 25), (py"invert", 7, 27), (py"conceal", 8, 28),
   (py"crossed_out", 9, 29), (py"framed", 51, 54), (py"encircled", 52, 54), (py"overlined", 53, 55)]

/-- `ANSI_ESCAPE_SEQUENCE.format(code)`, `rendering.py` 1226. -/
def ansiSeq (code : Str) : Str := '\x1b' :: '[' :: (code ++ py"m")

/-- `int(colour[i:j], base=16)`. -/
def hexPair (s : Str) (i : Nat) : Py Int :=
  match pyInt 16 ((s.drop i).take 2) with | some n => .ok n | none => .error .valueError

/-- `_parse_html_colour`, `rendering.py` 1228-1243. -/
def parseHtmlColour (colour : Str) : Py (Int × Int × Int) := do
  let c := lstripCh '#' colour
  let c := match c with
    | [r, g, b] => [r, r, g, g, b, b]
    | c => c
  let r ← hexPair c 0
  let g ← hexPair c 2
  let b ← hexPair c 4
  return (r, g, b)

/-- The 24 bit form, `rendering.py` 1266-1271. -/
def rgbSeq (control : Str) (r g b : Int) : Str :=
  control ++ py";2;" ++ intStr r ++ py";" ++ intStr g ++ py";" ++ intStr b

/-- `_get_sequence_for_colour`, `rendering.py` 1245-1271. -/
def colourSeq (colour : Val) (isBackground : Bool) : Py Str :=
  let control := if isBackground then py"48" else py"38"
  match colour with
  | .str s =>
    match ansiColours.lookup s with
    | some n => .ok (intStr (n + if isBackground then 10 else 0))
    | none => do
      let c ← parseHtmlColour s
      return rgbSeq control c.1 c.2.1 c.2.2
  | .int n => .ok (control ++ py";5;" ++ intStr n)
  | .bool b => .ok (control ++ py";5;" ++ if b then py"True" else py"False")
  | .ints (r :: g :: b :: _) => .ok (rgbSeq control r g b)
  | .ints _ => .error .indexError
  | .strs (r :: g :: b :: _) => .ok (control ++ py";2;" ++ r ++ py";" ++ g ++ py";" ++ b)
  | .strs _ => .error .indexError
  | _ => .error .typeError

/-- The loop over the effects, `rendering.py` 1306-1318: (enable, disable). -/
def effectCodes (s : Dict) (normalise : Bool) : List (Str × Int × Int) → Py (Str × Str)
  | [] => .ok ([], [])
  | (name, on, off) :: r => do
    let v ← getK s name
    let (e, d) ← effectCodes s normalise r
    if v.truthy then
      return (ansiSeq (intStr on) ++ e, (if normalise then [] else ansiSeq (intStr off)) ++ d)
    else return (e, d)

/-- One colour setting, `rendering.py` 1327-1337 and 1338-1349: (enable, disable). -/
def colourCodes (s : Dict) (normalise : Bool) (key : Str) (isBackground : Bool) (dflt : Int) : Py (Str × Str) := do
  let v ← getA s key
  if v.truthy then
    let q ← colourSeq v isBackground
    return (ansiSeq q, if normalise then [] else ansiSeq (intStr dflt))
  else return ([], [])

/-- `AnsiEscapeCodeRenderer.render`, `rendering.py` 1299-1358. Any `font` setting runs into the undefined name
`setting` (1322). -/
def ansiRender (u : Uni) (s : Dict) (content : Str) : Py Str := do
  let inner ← inlineRender u s content
  let normalise := (← getA s py"normalise").truthy
  let (e1, d1) ← effectCodes s normalise ansiEffects
  match ← getA s py"font" with
  | .none => do
    let (e2, d2) ← colourCodes s normalise py"foreground_colour" false 39
    let (e3, d3) ← colourCodes s normalise py"background_colour" true 49
    return (e1 ++ e2 ++ e3) ++ inner ++ (d1 ++ d2 ++ d3 ++ if normalise then ansiSeq py"0" else [])
  | _ => .error .nameError

/-! ## Dispatch -/

/-- `render_inst.render(content)`: `Renderer.render` 343-347, `NonRenderer.render` 355-359, and the others above. -/
def Inst.render (u : Uni) (i : Inst) (content : Str) : Py Str :=
  match i.box with
  | some box =>
    match i.cls with
    | .extractedLink => extractedLinkRender u i box content
    | _ => blockRender u i box content
  | none =>
    match i.cls with
    | .nonRenderer => .ok []
    | .inline | .em | .strong | .underline | .strike => inlineRender u i.settings content
    | .code => codeRender i.settings i.tag content
    | .link => linkRender u i.settings i.ctx content
    | .image => imageRender i.settings i.ctx
    | .brk => breakRender u i.settings
    | .ansi => ansiRender u i.settings content
    | _ => .ok content

end Verif
