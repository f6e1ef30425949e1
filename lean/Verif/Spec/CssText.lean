import Verif.Spec.Source

/-!
# Selectors as text

A grammar of selectors as they are written in style sheets (without namespaces), with what they mean.
-/

namespace Verif.Spec

/-- White space in a style sheet. -/
def CssSpace (c : Char) : Prop := c = ' ' ∨ c = '\t' ∨ c = '\r' ∨ c = '\n' ∨ c = '\x0c'

/-- White space, with comments before and after it. -/
structure CssGap where
  before : List Str
  blank : Str
  after : List Str

def commentSrc (c : Str) : Str := py"/*" ++ (c ++ py"*/")

def CssGap.src (g : CssGap) : Str := g.before.flatMap commentSrc ++ (g.blank ++ g.after.flatMap commentSrc)

def CssGap.Ok (g : CssGap) : Prop := (∀ c ∈ g.before ++ g.after, ¬ py"*/" <:+: c) ∧ ∀ c ∈ g.blank, CssSpace c

def IdentStart (c : Char) : Prop := c = '_' ∨ ('a' ≤ c ∧ c ≤ 'z') ∨ ('A' ≤ c ∧ c ≤ 'Z') ∨ '\x7f' < c

def IdentChar (c : Char) : Prop := IdentStart c ∨ ('0' ≤ c ∧ c ≤ '9') ∨ c = '-'

/-- How one character of a name or a string is written. -/
inductive CssChar where
  | plain (c : Char)
  /-- `\26 `: its number in hexadecimal, and a blank to end it -/
  | code (digits blank : Str)
  /-- `\.` -/
  | escaped (c : Char)
  /-- a backslash at the end of a line, for a string that goes on in the next one -/
  | joint (newline : Str)

def CssChar.src : CssChar → Str
  | .plain c => [c]
  | .code ds b => '\\' :: (ds ++ b)
  | .escaped c => ['\\', c]
  | .joint nl => '\\' :: nl

/-- The character with a number; numbers that are too large stand for the replacement character. -/
def codeChar (n : Nat) : Char := if n ≤ 0x10ffff then Char.ofNat n else '\ufffd'

def CssChar.value : CssChar → Str
  | .plain c => [c]
  | .code ds _ => [codeChar (numberIn 16 ds)]
  | .escaped c => [c]
  | .joint _ => []

/-- The characters that may be written as they are are given. The number of a character can have six digits, and is
not that of half a surrogate pair. A backslash cannot be escaped (see `C71_backslash_fails`). -/
def CssChar.Ok (P : Char → Prop) : CssChar → Prop
  | .plain c => P c
  | .code ds b => ds ≠ [] ∧ ds.length ≤ 6 ∧ (∀ c ∈ ds, c ∈ hexDigits) ∧ b ∈ [[], py" ", py"\t", py"\n", py"\x0c", py"\r\n"] ∧
      ¬ (0xd800 ≤ numberIn 16 ds ∧ numberIn 16 ds ≤ 0xdfff) ∧ numberIn 16 ds ≠ 0 ∧ codeChar (numberIn 16 ds) ≠ '\\'
  | .escaped c => c ∉ hexDigits ∧ c ∉ py"\n\r\x0c\\"
  | .joint _ => False

/-- In a string. -/
def CssChar.InString (P : Char → Prop) : CssChar → Prop
  | .joint nl => nl ∈ [py"\n", py"\x0c", py"\r\n"]
  | x => x.Ok P

abbrev CssWord := List CssChar

def wordSrc (w : CssWord) : Str := w.flatMap CssChar.src
def wordValue (w : CssWord) : Str := w.flatMap CssChar.value

/-- A number without a blank must end where it ends: before other characters than digits and blanks, or (in a string) at the end
of the word. -/
def CodesEnd (string : Bool) : CssWord → Prop
  | [] => True
  | .code ds b :: w => (b = [] → match w with
      | [] => string = true
      | .plain c :: _ => ¬ CssSpace c ∧ (ds.length = 6 ∨ c ∉ hexDigits)
      | .joint _ :: _ => False
      | _ => True) ∧ CodesEnd string w
  | _ :: w => CodesEnd string w

/-- An identifier: a letter, an underscore, a character outside ASCII or an escape, perhaps after a hyphen; then digits and
hyphens too. -/
def CssIdent (n : CssWord) : Prop :=
  (∃ d c r, n = d ++ c :: r ∧ (d = [] ∨ d = [.plain '-']) ∧ c.Ok IdentStart ∧ ∀ x ∈ r, x.Ok IdentChar) ∧ CodesEnd false n

/-- A value in an attribute selector. -/
inductive CssValue where
  | bare (n : CssWord)
  | double (s : CssWord)
  | single (s : CssWord)

def CssValue.src : CssValue → Str
  | .bare n => wordSrc n
  | .double s => '"' :: (wordSrc s ++ py"\"")
  | .single s => '\'' :: (wordSrc s ++ py"'")

def CssValue.value : CssValue → Str
  | .bare n => wordValue n
  | .double s => wordValue s
  | .single s => wordValue s

/-- A character of a string in quotation marks `q`. -/
def StringChar (q c : Char) : Prop := c ≠ q ∧ c ≠ '\\' ∧ c ≠ '\n' ∧ c ≠ '\r' ∧ c ≠ '\x0c'

def CssValue.Ok : CssValue → Prop
  | .bare n => CssIdent n
  | .double s => (∀ c ∈ s, c.InString (StringChar '"')) ∧ CodesEnd true s
  | .single s => (∀ c ∈ s, c.InString (StringChar '\'')) ∧ CodesEnd true s

/-- How operators are written; presence has none. -/
def opSrc : AttrOp → Str
  | .exists => []
  | .eq => py"="
  | .word => py"~="
  | .dash => py"|="
  | .pre => py"^="
  | .suf => py"$="
  | .sub => py"*="
  | .ne => py"!="

/-- An argument of a functional pseudo-class: a number (with a sign or not), a name, a string or a sign. -/
inductive CssArg where
  | number (sign digits : Str)
  | value (v : CssValue)
  | plus
  | minus

def CssArg.src : CssArg → Str
  | .number sg ds => sg ++ ds
  | .value v => v.src
  | .plus => py"+"
  | .minus => py"-"

def CssArg.meaning : CssArg → Str
  | .number sg ds => sg ++ ds
  | .value v => v.value
  | .plus => py"+"
  | .minus => py"-"

def CssArg.Ok : CssArg → Prop
  | .number sg ds => (sg = [] ∨ sg = py"+" ∨ sg = py"-") ∧ ds ≠ [] ∧ ∀ c ∈ ds, '0' ≤ c ∧ c ≤ '9'
  | .value v => v.Ok
  | _ => True

/-- What comes after an argument does not belong to it: no name characters after names, no digits after numbers and signs. -/
def CssArg.Ends (a : CssArg) (rest : Str) : Prop :=
  ∀ c, rest.head? = some c → match a with
    | .number _ _ => ¬ ('0' ≤ c ∧ c ≤ '9') ∧ c ≠ '.'
    | .value (.bare _) => ¬ IdentChar c ∧ c ≠ '\\'
    | .value _ => True
    | .plus => ¬ ('0' ≤ c ∧ c ≤ '9') ∧ c ≠ '.'
    | .minus => ¬ IdentChar c ∧ c ≠ '\\' ∧ c ≠ '.'

/-- Arguments with white space or not: `2n+1` is a number, a name and a number, in `2n + 1` there is a sign too. -/
def argsSrc : List (CssArg × CssGap) → Str
  | [] => []
  | (a, g) :: r => a.src ++ (g.src ++ argsSrc r)

def ArgsOk : List (CssArg × CssGap) → Prop
  | [] => True
  | (a, g) :: r => a.Ok ∧ g.Ok ∧ a.Ends (g.src ++ (argsSrc r ++ py")")) ∧ ArgsOk r

/-- What can follow the name of the element, but for `:not`. -/
inductive CssPart where
  | cls (n : CssWord)
  | id (n : CssWord)
  | present (g1 : CssGap) (n : CssWord) (g2 : CssGap)
  | attr (g1 : CssGap) (n : CssWord) (g2 : CssGap) (op : AttrOp) (g3 : CssGap) (v : CssValue) (g4 : CssGap)
  | pseudo (n : CssWord)
  | func (n : CssWord) (g : CssGap) (args : List (CssArg × CssGap))

def CssPart.src : CssPart → Str
  | .cls n => '.' :: wordSrc n
  | .id n => '#' :: wordSrc n
  | .present g1 n g2 => '[' :: (g1.src ++ (wordSrc n ++ (g2.src ++ py"]")))
  | .attr g1 n g2 op g3 v g4 =>
      '[' :: (g1.src ++ (wordSrc n ++ (g2.src ++ (opSrc op ++ (g3.src ++ (v.src ++ (g4.src ++ py"]")))))))
  | .pseudo n => ':' :: wordSrc n
  | .func n g args => ':' :: (wordSrc n ++ '(' :: (g.src ++ (argsSrc args ++ py")")))

/-- Names of pseudo-classes that mean something else: pseudo-elements of CSS 2, `:not`, and the root `:scope` of cssselect. -/
def PseudoName (n : Str) : Prop :=
  n.map Char.toLower ∉ [py"first-line", py"first-letter", py"before", py"after", py"selection", py"not", py"scope"]

def CssPart.Ok : CssPart → Prop
  | .cls n => CssIdent n
  | .id n => n ≠ [] ∧ (∀ c ∈ n, c.Ok IdentChar) ∧ CodesEnd false n
  | .present g1 n g2 => g1.Ok ∧ CssIdent n ∧ g2.Ok
  | .attr g1 n g2 op g3 v g4 => g1.Ok ∧ CssIdent n ∧ g2.Ok ∧ op ≠ .exists ∧ g3.Ok ∧ v.Ok ∧ g4.Ok
  | .pseudo n => CssIdent n ∧ PseudoName (wordValue n)
  | .func n g args => CssIdent n ∧ PseudoName (wordValue n) ∧ g.Ok ∧ ArgsOk args

/-- What it adds to a selector. -/
def CssPart.add (s : Sel) : CssPart → Sel
  | .cls n => .cls s (wordValue n)
  | .id n => .hash s (wordValue n)
  | .present _ n _ => .attrib s (wordValue n) .exists []
  | .attr _ n _ op _ v _ => .attrib s (wordValue n) op v.value
  | .pseudo n => .pseudo s ((wordValue n).map Char.toLower)
  | .func n _ args => .func s ((wordValue n).map Char.toLower) (args.map (fun x => x.1.meaning))

/-- The element: nothing, `*`, or a name. -/
inductive CssElem where
  | nothing
  | star
  | name (n : CssWord)

def CssElem.src : CssElem → Str
  | .nothing => []
  | .star => py"*"
  | .name n => wordSrc n

def CssElem.tree : CssElem → Sel
  | .nothing => .element none
  | .star => .element none
  | .name n => .element (some (wordValue n))

def CssElem.Ok : CssElem → Prop
  | .name n => CssIdent n
  | _ => True

/-- A part, or `:not` of an element and parts. -/
inductive CssItem where
  | part (p : CssPart)
  | neg (n : CssWord) (g : CssGap) (e : CssElem) (ps : List CssPart)

def CssItem.src : CssItem → Str
  | .part p => p.src
  | .neg n g e ps => ':' :: (wordSrc n ++ '(' :: (g.src ++ (e.src ++ (ps.flatMap CssPart.src ++ py")"))))

def CssItem.Ok : CssItem → Prop
  | .part p => p.Ok
  | .neg n g e ps => CssIdent n ∧ (wordValue n).map Char.toLower = py"not" ∧ g.Ok ∧ e.Ok ∧ (∀ p ∈ ps, p.Ok) ∧ (e = .nothing → ps ≠ [])

def CssItem.add (s : Sel) : CssItem → Sel
  | .part p => p.add s
  | .neg _ _ e ps => .neg s (ps.foldl CssPart.add e.tree)

/-- An element with conditions. -/
structure CssCompound where
  elem : CssElem
  items : List CssItem

def CssCompound.src (c : CssCompound) : Str := c.elem.src ++ c.items.flatMap CssItem.src

def CssCompound.Ok (c : CssCompound) : Prop := c.elem.Ok ∧ (∀ i ∈ c.items, i.Ok) ∧ (c.elem = .nothing → c.items ≠ [])

def CssCompound.tree (c : CssCompound) : Sel := c.items.foldl CssItem.add c.elem.tree

/-- A combinator with the white space around it; between ancestor and descendant there is only white space. -/
inductive CssLink where
  | desc (g : CssGap)
  | child (g1 g2 : CssGap)
  | general (g1 g2 : CssGap)
  | adjacent (g1 g2 : CssGap)

def CssLink.src : CssLink → Str
  | .desc g => g.src
  | .child g1 g2 => g1.src ++ '>' :: g2.src
  | .general g1 g2 => g1.src ++ '~' :: g2.src
  | .adjacent g1 g2 => g1.src ++ '+' :: g2.src

def CssLink.Ok : CssLink → Prop
  | .desc g => g.blank ≠ [] ∧ g.Ok
  | .child g1 g2 => g1.Ok ∧ g2.Ok
  | .general g1 g2 => g1.Ok ∧ g2.Ok
  | .adjacent g1 g2 => g1.Ok ∧ g2.Ok

def CssLink.comb : CssLink → Comb
  | .desc _ => .desc
  | .child _ _ => .child
  | .general _ _ => .general
  | .adjacent _ _ => .adjacent

/-- Compounds with combinators, and perhaps a pseudo-element at the end. -/
structure CssComplex where
  first : CssCompound
  more : List (CssLink × CssCompound)
  pseudoElement : Option CssWord

def moreSrc (l : List (CssLink × CssCompound)) : Str := l.flatMap (fun x => x.1.src ++ x.2.src)

def pseudoElementSrc : Option CssWord → Str
  | none => []
  | some n => ':' :: ':' :: wordSrc n

def CssComplex.src (c : CssComplex) : Str := c.first.src ++ (moreSrc c.more ++ pseudoElementSrc c.pseudoElement)

def CssComplex.Ok (c : CssComplex) : Prop :=
  c.first.Ok ∧ (∀ x ∈ c.more, x.1.Ok ∧ x.2.Ok) ∧ ∀ n, c.pseudoElement = some n → CssIdent n

def CssComplex.meaning (c : CssComplex) : Selector :=
  ⟨c.more.foldl (fun s x => .comb s x.1.comb x.2.tree) c.first.tree, c.pseudoElement.isSome⟩

/-- A list of selectors with commas, with white space around everything. -/
structure CssText where
  before : CssGap
  first : CssComplex
  more : List (CssGap × CssGap × CssComplex)
  after : CssGap

def commaSrc (l : List (CssGap × CssGap × CssComplex)) : Str := l.flatMap (fun x => x.1.src ++ ',' :: (x.2.1.src ++ x.2.2.src))

def CssText.src (t : CssText) : Str := t.before.src ++ (t.first.src ++ (commaSrc t.more ++ t.after.src))

def CssText.Ok (t : CssText) : Prop :=
  t.before.Ok ∧ t.first.Ok ∧ (∀ x ∈ t.more, x.1.Ok ∧ x.2.1.Ok ∧ x.2.2.Ok) ∧ t.after.Ok

def CssText.meaning (t : CssText) : List Selector := t.first.meaning :: t.more.map (fun x => x.2.2.meaning)

end Verif.Spec
