import Verif.Model.Dom

/-!
# Link targets: `LinkParser._guess_type` and `_parse_href`, `gopher_render/_parser.py` 130-185

with the parts of `urllib.parse` (CPython 3.12, `Lib/urllib/parse.py`, cited as "stdlib") they use.
-/

namespace Verif

/-- `_guess_type`, `_parser.py` 131-146. -/
def guessType (path : Str) : Str :=
  match rpartition '.' path with
  | (before, _, ext) =>
    if before = [] then py"1"
    else if ext = py"html" || ext = py"htm" then py"h"
    else if ext = py"gif" then py"g"
    else if ext = py"jpg" || ext = py"jpeg" || ext = py"png" || ext = py"bmp" || ext = py"tiff" then py"I"
    else if ext = py"txt" || ext = py"csv" || ext = py"tsv" || ext = py"md" then py"0"
    else py"9"

/-- stdlib 82-85 `scheme_chars`. -/
def isSchemeChar (c : Char) : Bool :=
  ('a' ≤ c && c ≤ 'z') || ('A' ≤ c && c ≤ 'Z') || ('0' ≤ c && c ≤ '9') || c == '+' || c == '-' || c == '.'

def isAsciiAlpha (c : Char) : Bool := ('a' ≤ c && c ≤ 'z') || ('A' ≤ c && c ≤ 'Z')

/-- stdlib 494-499: remove leading control characters and spaces, and every tab and newline. -/
def cleanUrl (s : Str) : Str :=
  (s.dropWhile (fun c => c.toNat ≤ 32)).filter (fun c => c != '\t' && c != '\r' && c != '\n')

/-- stdlib 503-509: the scheme (lower case) and the rest. Lower casing is only applied to `scheme_chars`. -/
def splitScheme (url : Str) : Str × Str :=
  match partition ':' url with
  | (before, true, after) =>
    match before with
    | c :: r => if isAsciiAlpha c && (c :: r).all isSchemeChar then ((c :: r).map Char.toLower, after) else ([], url)
    | [] => ([], url)
  | (_, false, _) => ([], url)

/-- stdlib 413-419 `_splitnetloc`: up to the first of `/?#`. -/
def splitNetloc (url : Str) : Str × Str :=
  let stop (c : Char) : Bool := c == '/' || c == '?' || c == '#'
  (url.takeWhile (fun c => !stop c), url.dropWhile (fun c => !stop c))

/-- stdlib 510-511: a network location follows `//`. -/
def splitLocation : Str → Str × Str
  | '/' :: '/' :: r => splitNetloc r
  | r => ([], r)

/-- stdlib 64-66 `uses_params`. -/
def usesParams : List Str :=
  [py"", py"ftp", py"hdl", py"prospero", py"http", py"imap", py"https", py"shttp", py"rtsp", py"rtsps", py"rtspu",
   py"sip", py"sips", py"mms", py"sftp", py"tel"]

/-- stdlib 404-411 `_splitparams`: the path without the parameters of its last segment. -/
def dropParams (path : Str) : Str :=
  match rpartition '/' path with
  | (before, true, last) => before ++ '/' :: last.takeWhile (· != ';')
  | (_, false, p) => p.takeWhile (· != ';')

/-- The fields of the parse result that are used. -/
structure Url where
  scheme : Str
  netloc : Str
  path : Str
  deriving DecidableEq, Repr

/-- stdlib 374-402 `urlparse` and 470-523 `urlsplit` on a string. -/
def urlparse (u : Uni) (url : Str) : Py Url :=
  let (scheme, rest) := splitScheme (cleanUrl url)
  let (netloc, rest) := splitLocation rest
  if netloc.contains '[' != netloc.contains ']' then .error .valueError
  else if !netloc.isEmpty && !u.netlocOk netloc then .error .valueError
  else
    let path := (rest.takeWhile (· != '#')).takeWhile (· != '?')
    let path := if usesParams.contains scheme && path.contains ';' then dropParams path else path
    .ok ⟨scheme, netloc, path⟩

/-- stdlib 206-217 `_hostinfo`: host name and port text. -/
def hostinfo (netloc : Str) : Str × Option Str :=
  let hi := (rpartition '@' netloc).2.2
  let (host, port) :=
    match partition '[' hi with
    | (_, true, br) => match partition ']' br with
      | (h, _, p) => (h, (partition ':' p).2.2)
    | (_, false, _) => match partition ':' hi with
      | (h, _, p) => (h, p)
  (host, if port = [] then none else some port)

/-- stdlib 165-173 `hostname`. -/
def hostname (u : Uni) (netloc : Str) : Option Str :=
  match (hostinfo netloc).1 with
  | [] => none
  | h => match partition '%' h with
    | (a, f, z) => some (u.lower a ++ (if f then py"%" else []) ++ z)

/-- stdlib 176-185 `port`. -/
def port (netloc : Str) : Py (Option Int) :=
  match (hostinfo netloc).2 with
  | none => .ok none
  | some p =>
    if p.all (fun c => '0' ≤ c && c ≤ '9') then
      match pyInt 10 p with
      | some n => if 0 ≤ n ∧ n ≤ 65535 then .ok (some n) else .error .valueError
      | none => .error .valueError
    else .error .valueError

/-- `_parse_href`, `_parser.py` 149-185. An absent `href` is `None`: `urlparse(None)` returns bytes, whose scheme
`b''` equals none of the strings it is compared with. -/
def parseHref (u : Uni) (host : Str) (gopherPort : Int) (href : Option Str) : Py GopherLink :=
  match href with
  | none => .ok ⟨py"h", py"URL:None", some host, some gopherPort⟩
  | some h => do
    let p ← urlparse u h
    if p.scheme = py"http" || p.scheme = py"https" then
      return ⟨py"h", py"URL:" ++ h, some host, some gopherPort⟩
    else if p.scheme = py"gopher" then do
      let pt ← port p.netloc
      return ⟨guessType p.path, p.path, hostname u p.netloc, pt⟩
    else if p.scheme = [] then
      return ⟨guessType p.path, p.path, some host, some gopherPort⟩
    else
      return ⟨py"h", py"URL:" ++ h, some host, some gopherPort⟩

end Verif
