import Verif.Spec.Text
import Verif.Spec.Render
import Verif.Spec.Css

/-!
# Link targets and gophermap lines
-/

namespace Verif.Spec

/-- The item types of known file extensions. -/
def extensionTypes : List (Str × Str) :=
  [(py"html", py"h"), (py"htm", py"h"), (py"gif", py"g"), (py"jpg", py"I"), (py"jpeg", py"I"), (py"png", py"I"),
   (py"bmp", py"I"), (py"tiff", py"I"), (py"txt", py"0"), (py"csv", py"0"), (py"tsv", py"0"), (py"md", py"0")]

/-- `t` is the item type of a path. -/
inductive ItemType : Str → Str → Prop where
  | known {before ext t : Str} (hb : before ≠ []) (h : (ext, t) ∈ extensionTypes) : ItemType (before ++ '.' :: ext) t
  | other {before ext : Str} (hb : before ≠ []) (hd : '.' ∉ ext) (h : ∀ t, (ext, t) ∉ extensionTypes) :
      ItemType (before ++ '.' :: ext) py"9"
  | noDot {path : Str} (h : '.' ∉ path) : ItemType path py"1"
  | onlyExt {ext : Str} (h : '.' ∉ ext) : ItemType ('.' :: ext) py"1"

/-- `s` is the text without leading blanks and control characters, and without tabs and line ends. -/
def Clean (raw s : Str) : Prop :=
  ∃ lead body, raw = lead ++ body ∧ (∀ c ∈ lead, c.toNat ≤ 32) ∧ (∀ c, body.head? = some c → 32 < c.toNat) ∧
    s = body.filter (fun c => decide (c ∉ ['\t', '\r', '\n']))

/-- The text is a scheme, a colon and the rest. A scheme is made of ASCII letters, digits, `+`, `-` and `.`, starting
with a letter, in any case. -/
def Absolute (s scheme rest : Str) : Prop :=
  ∃ pre, s = pre ++ ':' :: rest ∧ (∃ c, pre.head? = some c ∧ c.isAlpha = true) ∧
    (∀ c ∈ pre, c.isAlphanum = true ∨ c ∈ ['+', '-', '.']) ∧ scheme = pre.map Char.toLower

def Relative (s : Str) : Prop := ∀ scheme rest, ¬ Absolute s scheme rest

/-- The scheme and what follows it; the scheme of a relative reference is empty. -/
def Schemed (s scheme rest : Str) : Prop := Absolute s scheme rest ∨ (Relative s ∧ scheme = [] ∧ rest = s)

/-- `//` and a network location up to the next `/`, `?` or `#`; without `//` it is empty. -/
def Located (rest netloc tail : Str) : Prop :=
  (rest = '/' :: '/' :: (netloc ++ tail) ∧ (∀ c ∈ netloc, c ∉ ['/', '?', '#']) ∧
      ∀ c, tail.head? = some c → c ∈ ['/', '?', '#']) ∨
    ((∀ r, rest ≠ '/' :: '/' :: r) ∧ netloc = [] ∧ tail = rest)

/-- The path: what comes before a query or fragment. -/
def PathOf (tail path : Str) : Prop :=
  ∃ more, tail = path ++ more ∧ (∀ c ∈ path, c ∉ ['?', '#']) ∧ ∀ c, more.head? = some c → c ∈ ['?', '#']

/-- The path with what follows a `;` in its last segment removed. -/
def WithoutParams (path shorter : Str) : Prop :=
  ∃ dir segment more, path = dir ++ segment ++ more ∧ shorter = dir ++ segment ∧ (dir = [] ∨ dir.getLast? = some '/') ∧
    '/' ∉ segment ++ more ∧ ';' ∉ segment ∧ (more = [] ∨ more.head? = some ';')

/-- `urllib` accepts the network location. -/
def Acceptable (u : Uni) (netloc : Str) : Prop := ('[' ∈ netloc ↔ ']' ∈ netloc) ∧ (netloc = [] ∨ u.netlocOk netloc = true)

/-- A plain host name. -/
def HostName (host : Str) : Prop := host ≠ [] ∧ ∀ c ∈ host, c ∉ ['@', ':', '[', ']', '%']

/-- What may stand before the host name. -/
def UserPart (user : Str) : Prop := user = [] ∨ user.getLast? = some '@'

/-- The attribute in the source, if it has a value. -/
def attrText (es : List Event) (i : Nat) (name : Str) : Option Str := (attrOf (srcAttrs es i) name).join

/-- The entry of link `i` in the list of links. -/
def entryOf (u : Uni) (s : PState) (fuel : Nat) (box : Box) (i : Nat) : Py Str :=
  renderNode u s.dom s.assigned fuel true box i

/-- The text of a link: its rendered children. -/
def linkText (u : Uni) (s : PState) (fuel : Nat) (box : Box) (i : Nat) : Py Str :=
  match s.dom.nodes[i]? with
  | none => .error .indexError
  | some n => renderAll (renderNode u s.dom s.assigned fuel false box) n.children

/-- The first characters, with dots if the unstripped text is longer. -/
def cutText (limit : Nat) (text : Str) : Str := (strip text).take limit ++ (if limit < text.length then py"..." else [])

/-- `inner` is the text without the whitespace around it. -/
def Stripped (text inner : Str) : Prop :=
  (∃ a b, Blank a ∧ Blank b ∧ text = a ++ inner ++ b) ∧ (∀ c, inner.head? = some c → isSpace c = false) ∧
    ∀ c, inner.getLast? = some c → isSpace c = false

/-- The limit is in force for text links: the default, or that of a class given for `a`. -/
def LimitIs (c : Cfg) (limit : Nat) : Prop :=
  (c.linkRenderers = [] ∧ limit = 10) ∨
    c.linkRenderers = [tagRule py"a" (.sub .extractedLink [(py"max_link_description", .int limit)])]

/-- A class for `a` sets a limit below zero. -/
def NegativeLimit (c : Cfg) (n : Nat) : Prop :=
  c.linkRenderers = [tagRule py"a" (.sub .extractedLink [(py"max_link_description", .int (-(n : Int)))])] ∧ 0 < n

/-- All but the last `n` characters, or nothing. -/
def butLast (n : Nat) (s : Str) : Str := s.take (s.length - n)

/-- The text without surrounding whitespace, cut after so many characters. -/
def Shortened (limit : Nat) (text description : Str) : Prop :=
  ∃ inner, Stripped text inner ∧
    ((inner.length ≤ limit ∧ description = inner) ∨ (limit < inner.length ∧ description = inner.take limit ++ py"..."))

/-- A title in quotes, if there is one. -/
def titlePart : Option Str → Str
  | none | some [] => []
  | some t => py" \"" ++ t ++ py"\""

/-- The line of a link in a gophermap. -/
def gopherLine (g : GopherLink) (number : Nat) (description : Str) : Str :=
  g.type ++ py"[" ++ natStr number ++ py"] " ++ description ++ py"\t" ++ g.selector ++ py"\t" ++ g.host.getD py"None" ++ py"\t" ++
    (g.port.map intStr).getD py"None" ++ py"\n"

/-- No tab and no line feed. -/
def Field (s : Str) : Prop := ∀ x ∈ s, x ≠ '\t' ∧ x ≠ '\n'

/-- A line of four fields separated by tabs. -/
def FourFields (line : Str) : Prop :=
  ∃ a b c d : Str, line = a ++ py"\t" ++ b ++ py"\t" ++ c ++ py"\t" ++ d ++ py"\n" ∧ Field a ∧ Field b ∧ Field c ∧ Field d

end Verif.Spec
