import Verif.Py.Str

/-!
# `str.format`

The arguments are strings, integers and `None`. Replacement fields are read and evaluated as in `Objects/stringlib/unicode_format.h`
and `Python/formatter_unicode.c` of CPython 3.12. Left out, with the error `PyErr.unsupported`, are attributes (`{0.real}`), `!r` and
`!a` of strings, and integers as characters, as floating point numbers or with the separators of a locale. Of the decimal digits only those of ASCII are
digits here.
-/

namespace Verif

/-- An argument of `format`. -/
inductive Arg where
  | str (s : Str)
  | int (n : Int)
  | none
  deriving DecidableEq, Repr

instance : Coe Str Arg := ⟨.str⟩

/-- `str(a)`. -/
def Arg.show : Arg → Str
  | .str s => s
  | .int n => intStr n
  | .none => py"None"

/-- A string or `None`. -/
def Arg.opt : Option Str → Arg
  | some s => .str s
  | Option.none => .none

/-- An integer or `None`. -/
def Arg.optInt : Option Int → Arg
  | some n => .int n
  | Option.none => .none

/-! ## Parsing -/

/-- One piece of a parsed template. -/
inductive Piece where
  | lit (c : Char)
  | auto
  | pos (n : Nat)
  | name (s : Str)
  /-- a field with attributes or indices, with a conversion or with a format specification -/
  | field (name : Str) (conv : Option Char) (spec : Str)
  /-- the rest of the template cannot be parsed: `ValueError`, once the pieces before have been substituted -/
  | bad
  deriving DecidableEq, Repr

/-- The value of a text of digits. -/
def decimalVal (f : Str) : Nat := f.foldl (fun n c => 10 * n + (c.toNat - 48)) 0

/-- `PY_SSIZE_T_MAX`; larger numbers in a template are a `ValueError`. -/
def ssizeMax : Nat := 2 ^ 63 - 1

/-- `get_integer` would count beyond `PY_SSIZE_T_MAX`. -/
def tooBig (f : Str) : Bool := decide (ssizeMax < decimalVal (f.takeWhile Char.isDigit))

/-- Classify the text between braces. -/
def fieldPiece (f : Str) : Piece :=
  if f = [] then .auto
  else if tooBig f then .bad
  else if f.all Char.isDigit then .pos (decimalVal f)
  else if f.any (fun c => c == '.' || c == '[') then .field f none []
  else .name f

/-- Where in a field the parser is (`parse_field`): in the name, in brackets in the name, after `!`, after the conversion, in the format
specification with so many braces open. -/
inductive InField where
  | name (f : Str)
  | item (f : Str)
  | bang (f : Str)
  | conv (f : Str) (c : Char)
  | spec (f : Str) (c : Option Char) (braces : Nat) (s : Str)
  deriving DecidableEq, Repr

/-- Parse a template (`MarkupIterator_next` and `parse_field`). -/
def parseTemplate : Option InField → Str → List Piece
  | none, [] => []
  | some _, [] => [.bad]
  | none, '{' :: '{' :: r => .lit '{' :: parseTemplate none r
  | none, '}' :: '}' :: r => .lit '}' :: parseTemplate none r
  | none, c :: r =>
    if c = '{' then parseTemplate (some (.name [])) r
    else if c = '}' then [.bad]
    else .lit c :: parseTemplate none r
  | some (.name f), c :: r =>
    if c = '}' then fieldPiece f :: parseTemplate none r
    else if c = '{' then [.bad]
    else if c = '[' then parseTemplate (some (.item (f ++ [c]))) r
    else if c = '!' then parseTemplate (some (.bang f)) r
    else if c = ':' then parseTemplate (some (.spec f none 0 [])) r
    else parseTemplate (some (.name (f ++ [c]))) r
  | some (.item f), c :: r =>
    if c = ']' then parseTemplate (some (.name (f ++ [c]))) r else parseTemplate (some (.item (f ++ [c]))) r
  | some (.bang f), c :: r => parseTemplate (some (.conv f c)) r
  | some (.conv f k), c :: r =>
    if c = '}' then .field f (some k) [] :: parseTemplate none r
    else if c = ':' then parseTemplate (some (.spec f (some k) 0 [])) r
    else [.bad]
  | some (.spec f k n s), c :: r =>
    if c = '{' then parseTemplate (some (.spec f k (n + 1) (s ++ [c]))) r
    else if c = '}' then
      match n with
      | 0 => .field f k s :: parseTemplate none r
      | n + 1 => parseTemplate (some (.spec f k n (s ++ [c]))) r
    else parseTemplate (some (.spec f k n (s ++ [c]))) r

/-! ## Finding the argument -/

/-- Numbering mode of a format call: not chosen yet, automatic (next index), manual. -/
inductive Numbering where
  | unset
  | auto (next : Nat)
  | manual
  deriving DecidableEq, Repr

/-- The argument with the next number. -/
def autoArg (args : List Arg) (m : Numbering) : Py (Arg × Numbering) :=
  match (match m with | .unset => some 0 | .auto n => some n | .manual => none) with
  | none => .error .valueError
  | some n =>
    match args[n]? with
    | none => .error .indexError
    | some a => .ok (a, .auto (n + 1))

/-- The argument with this number. -/
def posArg (args : List Arg) (m : Numbering) (n : Nat) : Py (Arg × Numbering) :=
  if (match m with | .auto _ => true | _ => false) then .error .valueError
  else match args[n]? with
    | none => .error .indexError
    | some a => .ok (a, .manual)

/-- The argument with this name. -/
def nameArg (kw : List (Str × Arg)) (m : Numbering) (s : Str) : Py (Arg × Numbering) :=
  match kw.lookup s with
  | none => .error .keyError
  | some a => .ok (a, m)

/-- `get_field_object` for the part of the name before `.` and `[`. -/
def fieldArg (args : List Arg) (kw : List (Str × Arg)) (m : Numbering) (f : Str) : Py (Arg × Numbering) :=
  if f = [] then autoArg args m
  else if tooBig f then .error .valueError
  else if f.all Char.isDigit then posArg args m (decimalVal f)
  else nameArg kw m f

/-- A step after the name: an attribute, an index, or something that cannot be read. -/
inductive Access where
  | attr (name : Str)
  | item (name : Str)
  | bad
  deriving DecidableEq, Repr

/-- `FieldNameIterator_next`. The state tells what is being read: an attribute or an index, and its name so far. -/
def parseAccess : Option (Bool × Str) → Str → List Access
  | none, [] => []
  | none, c :: r =>
    if c = '.' then parseAccess (some (true, [])) r
    else if c = '[' then parseAccess (some (false, [])) r
    else [.bad]
  | some (true, n), [] => [if n = [] then .bad else .attr n]
  | some (false, _), [] => [.bad]
  | some (true, n), c :: r =>
    if c = '.' ∨ c = '[' then
      (if n = [] then .bad else .attr n) :: parseAccess (some (decide (c = '.'), [])) r
    else parseAccess (some (true, n ++ [c])) r
  | some (false, n), c :: r =>
    if c = ']' then (if n = [] then .bad else .item n) :: parseAccess none r
    else parseAccess (some (false, n ++ [c])) r

/-- Follow the steps. Only strings have items, and only by number. -/
def access : Arg → List Access → Py Arg
  | a, [] => .ok a
  | _, .bad :: _ => .error .valueError
  | _, .attr _ :: _ => .error .unsupported
  | a, .item n :: r =>
    if tooBig n then .error .valueError
    else if n.all Char.isDigit then
      match a with
      | .str s => match s[decimalVal n]? with
        | some c => access (.str [c]) r
        | none => .error .indexError
      | _ => .error .typeError
    else .error .typeError

/-- `do_conversion`. -/
def convert (a : Arg) : Option Char → Py Arg
  | none => .ok a
  | some c =>
    if c = 's' then .ok (.str a.show)
    else if c = 'r' ∨ c = 'a' then (match a with | .str _ => .error .unsupported | _ => .ok (.str a.show))
    else .error .valueError

/-! ## Format specifications -/

/-- A format specification. -/
structure FmtSpec where
  fill : Char := ' '
  align : Char
  sign : Option Char := none
  zero : Bool := false
  alternate : Bool := false
  width : Option Nat := none
  separator : Option Char := none
  precision : Option Nat := none
  type : Char
  deriving DecidableEq, Repr

def isAlign (c : Char) : Bool := c == '<' || c == '>' || c == '=' || c == '^'

/-- The fill character, the alignment and the rest. -/
def takeAlign : Str → Option Char × Option Char × Str
  | c :: d :: r => if isAlign d then (some c, some d, r) else if isAlign c then (none, some c, d :: r) else (none, none, c :: d :: r)
  | [c] => if isAlign c then (none, some c, []) else (none, none, [c])
  | [] => (none, none, [])

/-- A character of this kind, if it comes next. -/
def takeIf (p : Char → Bool) : Str → Option Char × Str
  | c :: r => if p c then (some c, r) else (none, c :: r)
  | [] => (none, [])

/-- A number, if one comes next (`get_integer`). -/
def takeNumber (s : Str) : Py (Option Nat × Str) :=
  let d := s.takeWhile Char.isDigit
  if d = [] then .ok (none, s)
  else if tooBig d then .error .valueError
  else .ok (some (decimalVal d), s.drop d.length)

/-- The precision, if a point comes next. -/
def takePrecision : Str → Py (Option Nat × Str)
  | [] => .ok (none, [])
  | c :: r =>
    if c = '.' then do
      let (p, r) ← takeNumber r
      if p.isNone then .error .valueError else .ok (p, r)
    else .ok (none, c :: r)

/-- `parse_internal_render_format_spec`. -/
def parseSpec (number : Bool) (s : Str) : Py FmtSpec := do
  let (fill, align, s) := takeAlign s
  let (sign, s) := takeIf (fun c => c == ' ' || c == '+' || c == '-') s
  let (z, s) := takeIf (· == 'z') s
  let (alt, s) := takeIf (· == '#') s
  let (pad, s) := if fill.isNone then takeIf (· == '0') s else (none, s)
  let (width, s) ← takeNumber s
  let (comma, s) := takeIf (· == ',') s
  let (under, s) := takeIf (· == '_') s
  if comma.isSome && under.isSome then .error .valueError
  else if under.isSome && s.head? = some ',' then .error .valueError
  else
    let (precision, s) ← takePrecision s
    let type ← (match s with
      | [] => .ok (if number then 'd' else 's')
      | [c] => .ok c
      | _ => .error .valueError : Py Char)
    if (comma.isSome || under.isSome) && !(['d', 'e', 'f', 'g', 'E', 'G', '%', 'F'].contains type ||
        under.isSome && ['b', 'o', 'x', 'X'].contains type) then .error .valueError
    else .ok {
      fill := fill.getD (if pad.isSome then '0' else ' ')
      align := align.getD (if number then (if pad.isSome then '=' else '>') else '<')
      sign, zero := z.isSome, alternate := alt.isSome, width, separator := if comma.isSome then comma else under, precision, type }

/-- Padding on both sides (`calc_padding`); `=` puts it after the sign. -/
def padded (f : FmtSpec) (sign s : Str) : Str :=
  let n := f.width.getD 0 - (sign.length + s.length)
  let left := if f.align = '>' then n else if f.align = '^' then n / 2 else 0
  if f.align = '=' then sign ++ List.replicate n f.fill ++ s
  else List.replicate left f.fill ++ (sign ++ s) ++ List.replicate (n - left) f.fill

/-- `format_string_internal`. -/
def formatStr (f : FmtSpec) (s : Str) : Py Str :=
  if f.type ≠ 's' ∨ f.sign.isSome ∨ f.zero ∨ f.alternate ∨ f.align = '=' then .error .valueError
  else .ok (padded f [] (match f.precision with | some p => s.take p | none => s))

/-- The base of a presentation type. -/
def intBase (c : Char) : Option Nat :=
  if c = 'd' then some 10 else if c = 'b' then some 2 else if c = 'o' then some 8 else if c = 'x' ∨ c = 'X' then some 16 else none

/-- What comes before the digits in the alternate form. -/
def intPrefix (c : Char) : Str := if c = 'd' then [] else ['0', c]

/-- `_PyUnicode_InsertThousandsGrouping`, from right to left: the digits with a separator after every `size` of them, with zeros until
they have the width `min`. -/
def groupDigits (size : Nat) (sep : Char) : Nat → (rev : Str) → (min : Int) → Str
  | 0, _, _ => []
  | f + 1, rev, min =>
    let n := Nat.min size (Nat.max (Nat.max rev.length min.toNat) 1)
    let group := rev.take n ++ List.replicate (n - rev.length) '0'
    if (rev.drop n).isEmpty && decide (min - n ≤ 0) then group
    else group ++ sep :: groupDigits size sep f (rev.drop n) (min - n - 1)

/-- The digits as they are shown, if there are `before` characters before them. -/
def intDigits (f : FmtSpec) (base before n : Nat) : Str :=
  let ds := if f.type = 'X' then (Nat.toDigits base n).map Char.toUpper else Nat.toDigits base n
  match f.separator with
  | none => ds
  | some c =>
    let min : Int := if f.fill = '0' ∧ f.align = '=' then (f.width.getD 0 : Int) - before else 0
    (groupDigits (if base = 10 then 3 else 4) c (ds.length + min.toNat) ds.reverse min).reverse

/-- `format_long_internal` for whole numbers. -/
def formatInt (f : FmtSpec) (n : Int) : Py Str :=
  match intBase f.type with
  | some base =>
    if f.precision.isSome ∨ f.zero then .error .valueError
    else
      let sign : Str := if n < 0 then py"-" else match f.sign with
        | some '+' => py"+"
        | some ' ' => py" "
        | _ => []
      let start := sign ++ (if f.alternate then intPrefix f.type else [])
      .ok (padded f start (intDigits f base start.length n.natAbs))
  | none =>
    if ['c', 'n', 'e', 'E', 'f', 'F', 'g', 'G', '%'].contains f.type then .error .unsupported
    else .error .valueError

/-- `format(a, spec)`. -/
def formatArg (a : Arg) (spec : Str) : Py Str :=
  if spec = [] then .ok a.show
  else match a with
    | .str s => do formatStr (← parseSpec false spec) s
    | .int n => do formatInt (← parseSpec true spec) n
    | .none => .error .typeError

/-! ## Evaluation -/

/-- `output_markup`: the text of a field, with `inner` for the fields in its format specification. -/
def evalField (inner : Numbering → Str → Py (Str × Numbering)) (args : List Arg) (kw : List (Str × Arg)) (m : Numbering)
    (name : Str) (conv : Option Char) (spec : Str) : Py (Str × Numbering) := do
  let first := name.takeWhile (fun c => c != '.' && c != '[')
  let (a, m) ← fieldArg args kw m first
  let a ← access a (parseAccess none (name.drop first.length))
  let a ← convert a conv
  let (spec, m) ← (if spec.contains '{' then inner m spec else .ok (spec, m))
  return (← formatArg a spec, m)

/-- The pieces of a format specification; the fields in it have specifications without fields. -/
def evalSpec (args : List Arg) (kw : List (Str × Arg)) : Numbering → List Piece → Py (Str × Numbering)
  | m, [] => .ok ([], m)
  | m, p :: ps => do
    let (s, m) ← (match p with
      | .lit c => .ok ([c], m)
      | .auto => (autoArg args m).map (fun r => (r.1.show, r.2))
      | .pos n => (posArg args m n).map (fun r => (r.1.show, r.2))
      | .name s => (nameArg kw m s).map (fun r => (r.1.show, r.2))
      | .field n c s => evalField (fun _ _ => .error .valueError) args kw m n c s
      | .bad => .error .valueError : Py (Str × Numbering))
    let (t, m) ← evalSpec args kw m ps
    return (s ++ t, m)

/-- Substitute the arguments, left to right. -/
def evalPieces (args : List Arg) (kw : List (Str × Arg)) : Numbering → List Piece → Py Str
  | _, [] => .ok []
  | m, .lit c :: ps => (evalPieces args kw m ps).map (c :: ·)
  | m, .auto :: ps =>
    match autoArg args m with
    | .ok (a, m) => (evalPieces args kw m ps).map (a.show ++ ·)
    | .error e => .error e
  | m, .pos n :: ps =>
    match posArg args m n with
    | .ok (a, m) => (evalPieces args kw m ps).map (a.show ++ ·)
    | .error e => .error e
  | m, .name s :: ps =>
    match nameArg kw m s with
    | .ok (a, m) => (evalPieces args kw m ps).map (a.show ++ ·)
    | .error e => .error e
  | m, .field n c s :: ps =>
    match evalField (fun m s => evalSpec args kw m (parseTemplate none s)) args kw m n c s with
    | .ok (t, m) => (evalPieces args kw m ps).map (t ++ ·)
    | .error e => .error e
  | _, .bad :: _ => .error .valueError

/-- `template.format(*args, **kw)`. -/
def pyFormat (template : Str) (args : List Arg) (kw : List (Str × Arg) := []) : Py Str :=
  evalPieces args kw .unset (parseTemplate none template)

/-- `template.format(x)`. -/
def fmt1 (template : Str) (x : Str) : Py Str := pyFormat template [.str x]

example : fmt1 py"> {}" py"a{b}" = .ok py"> a{b}" := by decide
example : pyFormat py"{x} {" [] = .error .keyError ∧ pyFormat py"{ {x}" [] = .error .valueError := by decide
example : pyFormat py"{0}. {1}" [.int 3, py"{}"] = .ok py"3. {}" := by decide
example : pyFormat py"[{content}]({href})" [] [(py"content", py"x"), (py"href", py"y")] = .ok py"[x](y)" := by decide
example : pyFormat py"{0:>3}. {1}" [.int 3, py"{}"] = .ok py"  3. {}" ∧ pyFormat py"{:03}|{:+}" [.int (-3), .int 3] = .ok py"-03|+3" := by
  decide
example : fmt1 py"{:*^9.3}" py"abcd" = .ok py"***abc***" ∧ fmt1 py"{:{}}" py"x" = .error .indexError ∧
    fmt1 py"{0:{0}}" py">4" = .ok py"  >4" ∧ fmt1 py"{0[1]}" py"abc" = .ok py"b" := by decide

end Verif
