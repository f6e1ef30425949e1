import Verif.Model.Parser

/-!
# HTML source: what a document written in the usual way means

Independent of the tokenizer: a document is a list of items, each with the text that stands in the file and the calls it
stands for.
-/

namespace Verif.Spec

/-- ASCII whitespace. -/
def HtmlBlank (c : Char) : Prop := c = ' ' ∨ c = '\t' ∨ c = '\n' ∨ c = '\r' ∨ c = '\x0c'

/-- The digits of decimal and hexadecimal numbers. -/
def decimalDigits : Str := py"0123456789"
def hexDigits : Str := py"0123456789abcdefABCDEF"

def digitValue (c : Char) : Nat := if c ∈ py"ABCDEF" then 10 + py"ABCDEF".idxOf c else py"0123456789abcdef".idxOf c

def numberIn (base : Nat) (ds : Str) : Nat := ds.foldl (fun n c => base * n + digitValue c) 0

/-- Numbers of control characters and of code points that are no characters. -/
def NoCharacter (n : Nat) : Prop :=
  (1 ≤ n ∧ n ≤ 8) ∨ n = 11 ∨ (14 ≤ n ∧ n ≤ 31) ∨ n = 127 ∨ (0xfdd0 ≤ n ∧ n ≤ 0xfdef) ∨ (n ≤ 0x10ffff ∧ 0xfffe ≤ n % 0x10000)

/-- The characters of code page 1252 from 128 to 159. -/
def codePage1252 : Str := py"€\x81‚ƒ„…†‡ˆ‰Š‹Œ\x8dŽ\x8f\x90‘’“”•–—˜™š›œ\x9džŸ"

/-- The text for a character given by its number: characters for their numbers, the replacement character for 0 and numbers
that are no code points, and nothing for control characters. The numbers 128 to 159 stand for the characters of code page 1252. -/
def Numbered (n : Nat) (t : Str) : Prop :=
  (¬ NoCharacter n ∧ (n < 128 ∨ 160 ≤ n) ∧ n ≠ 0 ∧ ∃ c : Char, c.toNat = n ∧ t = [c]) ∨
  ((n = 0 ∨ (0xd800 ≤ n ∧ n ≤ 0xdfff) ∨ 0x10ffff < n) ∧ t = py"�") ∨
  (NoCharacter n ∧ t = []) ∨
  (128 ≤ n ∧ ∃ c, codePage1252[n - 128]? = some c ∧ t = [c])

/-- A character that can be part of a name after `&`. -/
def RefName (c : Char) : Prop := isSpace c = false ∧ c ∉ ['<', '&', '#', ';']

/-- The name after `&` ends here: names have at most 32 characters. -/
def RefEnds (name next : Str) : Prop :=
  name.length ≤ 32 ∧ (name.length = 32 ∨ next = [] ∨ ∃ c r, next = c :: r ∧ c ∈ [' ', '\t', '\n', '\x0c', '<', '&', '#', ';'])

/-- The name with a semicolon is not in the table, if there is a semicolon. -/
def NotClosed (ent : Str → Option Str) (name next : Str) : Prop := next.head? = some ';' → ent (name ++ py";") = none

/-- A number ends with a semicolon, or where its digits end. -/
def NumberEnds (digits semi next : Str) : Prop :=
  semi = py";" ∨ (semi = [] ∧ ∀ c, next.head? = some c → c ≠ ';' ∧ c ∉ digits)

/-- What stands after an `&`, the text it stands for together with the `&`, and what follows it. `ent` is the table of
names. -/
inductive Ref (ent : Str → Option Str) : Str → Str → Str → Prop
  /-- `&amp;` -/
  | named {name t next} : name ≠ [] → (∀ c ∈ name, RefName c) → name.length ≤ 32 → ent (name ++ py";") = some t →
      Ref ent (name ++ py";") t next
  /-- `&#38;` -/
  | decimal {ds semi t next} : ds ≠ [] → (∀ d ∈ ds, d ∈ decimalDigits) → ds.length ≤ 32 → Numbered (numberIn 10 ds) t →
      NumberEnds decimalDigits semi next → Ref ent ('#' :: (ds ++ semi)) t next
  /-- `&#x26;` -/
  | hex {x ds semi t next} : x = 'x' ∨ x = 'X' → ds ≠ [] → (∀ d ∈ ds, d ∈ hexDigits) → ds.length ≤ 31 →
      Numbered (numberIn 16 ds) t → NumberEnds hexDigits semi next → Ref ent ('#' :: x :: (ds ++ semi)) t next
  /-- `&copy 2020`, or `&notit`: the longest name in the table counts. -/
  | unclosed {a b t next} : 2 ≤ a.length → (∀ c ∈ a ++ b, RefName c) → RefEnds (a ++ b) next → ent a = some t →
      (∀ k, a.length < k → k ≤ (a ++ b).length → ent ((a ++ b).take k) = none) → NotClosed ent (a ++ b) next →
      Ref ent (a ++ b) (t ++ b) next
  /-- `&` alone, or before something that is not in the table. -/
  | plain {name next} : (∀ c ∈ name, RefName c) → RefEnds name next → (∀ k, 1 ≤ k → k ≤ name.length → ent (name.take k) = none) →
      NotClosed ent name next → (name = [] → next.head? ≠ some '#') → Ref ent name ('&' :: name) next

/-- `raw` is a way to write the text `t`: characters stand for themselves, or are written as references. -/
inductive Spells (ent : Str → Option Str) : Str → Str → Prop
  | nil : Spells ent [] []
  | char (c : Char) {raw t : Str} : c ≠ '&' → Spells ent raw t → Spells ent (c :: raw) (c :: t)
  | ref {x t raw t' : Str} : Ref ent x t raw → Spells ent raw t' → Spells ent ('&' :: (x ++ raw)) (t ++ t')

/-- The text ends after an `&` with neither blank nor semicolon between: what comes next can change what it means. -/
def OpenEnd (raw : Str) : Prop :=
  ∃ pre post, raw = pre ++ '&' :: post ∧ '&' ∉ post ∧ post.length < 34 ∧ ∀ c ∈ post, isSpace c = false ∧ c ≠ ';'

/-- `html.escape`. -/
def escapeChar (c : Char) : Str :=
  if c = '&' then py"&amp;" else if c = '<' then py"&lt;" else if c = '>' then py"&gt;"
  else if c = '"' then py"&quot;" else if c = '\'' then py"&#x27;" else [c]

def escapeHtml (t : Str) : Str := t.flatMap escapeChar

/-- How the value of an attribute is written: not at all, in quotation marks, or bare. -/
inductive Spelling where
  | absent
  | double (raw value : Str)
  | single (raw value : Str)
  | bare (raw value : Str)

def Spelling.src : Spelling → Str
  | .absent => []
  | .double raw _ => py"=\"" ++ raw ++ py"\""
  | .single raw _ => py"='" ++ raw ++ py"'"
  | .bare raw _ => '=' :: raw

def Spelling.value : Spelling → Option Str
  | .absent => none
  | .double _ v => some v
  | .single _ v => some v
  | .bare _ v => some v

def Spelling.Ok (ent : Str → Option Str) : Spelling → Prop
  | .absent => True
  | .double raw v => '"' ∉ raw ∧ Spells ent raw v
  | .single raw v => '\'' ∉ raw ∧ Spells ent raw v
  | .bare raw v => (∃ c r, raw = c :: r ∧ c ≠ '"' ∧ c ≠ '\'' ∧ c ≠ '=') ∧ (∀ c ∈ raw, isSpace c = false ∧ c ≠ '>') ∧
      Spells ent raw v

/-- An attribute with the blanks before it. -/
structure SrcAttr where
  gap : Str
  name : Str
  spelling : Spelling

def SrcAttr.src (a : SrcAttr) : Str := a.gap ++ (a.name ++ a.spelling.src)

/-- A character of an attribute name. -/
def AttrNameChar (c : Char) : Prop :=
  isSpace c = false ∧ c ≠ '/' ∧ c ≠ '>' ∧ c ≠ '=' ∧ c ≠ '"' ∧ c ≠ '\''

def SrcAttr.Ok (ent : Str → Option Str) (a : SrcAttr) : Prop :=
  a.gap ≠ [] ∧ (∀ c ∈ a.gap, HtmlBlank c) ∧ a.name ≠ [] ∧ (∀ c ∈ a.name, AttrNameChar c) ∧ a.spelling.Ok ent

/-- A tag name: an ASCII letter and then anything but blanks, `/`, `>` and NUL. -/
def TagName (t : Str) : Prop :=
  ∃ c r, t = c :: r ∧ (('a' ≤ c ∧ c ≤ 'z') ∨ ('A' ≤ c ∧ c ≤ 'Z')) ∧
    ∀ d ∈ r, isSpace d = false ∧ d ≠ '/' ∧ d ≠ '>' ∧ d ≠ '\x00'

/-- The last attribute is written bare. -/
def LastBare (as : List SrcAttr) : Prop := ∃ a raw v, as.getLast? = some a ∧ a.spelling = .bare raw v

/-- An element whose content is not HTML. -/
def IsRaw (tag : Str) : Prop := tag.map Char.toLower = py"script" ∨ tag.map Char.toLower = py"style"

/-- The pieces of a document. -/
inductive Item where
  | text (raw t : Str)
  | start (tag : Str) (attrs : List SrcAttr) (gap : Str)
  | empty (tag : Str) (attrs : List SrcAttr) (gap : Str)
  | stop (tag : Str) (gap : Str)
  | comment (t : Str)
  | decl (t : Str)
  | verbatim (tag : Str) (attrs : List SrcAttr) (gap content : Str)

def attrsSrc (as : List SrcAttr) : Str := as.flatMap SrcAttr.src

def Item.src : Item → Str
  | .text raw _ => raw
  | .start tag as gap => '<' :: (tag ++ (attrsSrc as ++ (gap ++ py">")))
  | .empty tag as gap => '<' :: (tag ++ (attrsSrc as ++ (gap ++ py"/>")))
  | .stop tag gap => '<' :: '/' :: (tag ++ (gap ++ py">"))
  | .comment t => py"<!--" ++ (t ++ py"-->")
  | .decl t => '<' :: '!' :: (t ++ py">")
  | .verbatim tag as gap content =>
      '<' :: (tag ++ (attrsSrc as ++ (gap ++ py">"))) ++ (content ++ '<' :: '/' :: (tag ++ py">"))

def attrsMeaning (lower : Str → Str) (as : List SrcAttr) : List (Str × Option Str) :=
  as.map (fun a => (lower a.name, a.spelling.value))

/-- What an item stands for; names are converted to lower case. -/
def Item.events (lower : Str → Str) : Item → List Event
  | .text _ t => [.data t]
  | .start tag as _ => [.start (lower tag) (attrsMeaning lower as)]
  | .empty tag as _ => [.start (lower tag) (attrsMeaning lower as), .stop (lower tag)]
  | .stop tag _ => [.stop (lower tag)]
  | .comment _ => []
  | .decl _ => []
  | .verbatim tag as _ content =>
      .start (lower tag) (attrsMeaning lower as) :: ((if content = [] then [] else [.data content]) ++ [.stop (lower tag)])

def Item.Ok (ent : Str → Option Str) (lower : Str → Str) : Item → Prop
  | .text raw t => raw ≠ [] ∧ '<' ∉ raw ∧ Spells ent raw t
  | .start tag as gap => TagName tag ∧ (∀ a ∈ as, a.Ok ent) ∧ (∀ c ∈ gap, HtmlBlank c) ∧
      lower tag ≠ py"script" ∧ lower tag ≠ py"style"
  | .empty tag as gap => TagName tag ∧ (∀ a ∈ as, a.Ok ent) ∧ (∀ c ∈ gap, HtmlBlank c) ∧ (LastBare as → gap ≠ [])
  | .stop tag gap => TagName tag ∧ (∀ c ∈ gap, HtmlBlank c)
  | .comment t => ¬ py"--" <:+: t ++ py"-"
  | .decl t => '>' ∉ t ∧ ¬ py"--" <+: t ∧ t.head? ≠ some '['
  | .verbatim tag as gap content => IsRaw tag ∧ (∀ a ∈ as, a.Ok ent) ∧ (∀ c ∈ gap, HtmlBlank c) ∧ ¬ py"</" <:+: content

def Item.isText : Item → Bool
  | .text _ _ => true
  | _ => false

/-- Two texts in a row would be one. -/
def NoTextPair : List Item → Prop
  | a :: b :: r => ¬ (a.isText = true ∧ b.isText = true) ∧ NoTextPair (b :: r)
  | _ => True

/-- A document that can be written like this. -/
def DocOk (ent : Str → Option Str) (lower : Str → Str) (doc : List Item) : Prop := (∀ i ∈ doc, i.Ok ent lower) ∧ NoTextPair doc

/-- The document does not end in the middle of a reference. -/
def EndsWhole (doc : List Item) : Prop := ∀ raw t, doc.getLast? = some (.text raw t) → ¬ OpenEnd raw

/-- The text of the file. -/
def docSrc (doc : List Item) : Str := doc.flatMap Item.src

/-- What the document stands for. -/
def docEvents (lower : Str → Str) (doc : List Item) : List Event := doc.flatMap (Item.events lower)

/-- Put an event in front, joining texts. -/
def glue : Event → List Event → List Event
  | .data a, .data b :: r => .data (a ++ b) :: r
  | e, r => e :: r

/-- The events with texts in a row joined. -/
def joinTexts (es : List Event) : List Event := es.foldr glue []

/-- After `n` characters the document is in the middle of a text. -/
def InsideText : List Item → Nat → Prop
  | [], _ => False
  | i :: doc, n => (i.isText = true ∧ 0 < n ∧ n < i.src.length) ∨ (i.src.length ≤ n ∧ InsideText doc (n - i.src.length))

end Verif.Spec
