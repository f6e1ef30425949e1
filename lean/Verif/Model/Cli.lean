import Verif.Model.Tokenizer
import Verif.Model.Themes

/-!
# The command line program: `gopher_render/cli.py`

The model starts from the parsed arguments; for the command line see `Model/Args.lean`. Files and the Markdown library are
parameters (`World`).
-/

namespace Verif

/-- The arguments, `cli.py` 13-19. -/
structure Args where
  source : Str
  destination : Str
  dump : Bool := false

/-- What the program finds around it. -/
structure World where
  /-- `open(path, 'r').read()` -/
  read : Str → Py Str
  /-- `md.convert`, `cli.py` 29-47 -/
  markdown : Str → Py Str

/-- What a run of the program does: what it prints, the files it writes (path and content), and the exception that ends it. -/
structure Run where
  printed : Str := []
  written : List (Str × Str) := []
  error : Option PyErr := none
  deriving DecidableEq

/-- `PurePath.name`: the last component, without regard to empty components and `.`. -/
def pathName (path : Str) : Str :=
  ((splitCh '/' path).filter (fun p => !(p == [] || p == py"."))).getLast?.getD []

/-- `PurePath.suffix` (Python up to 3.13). -/
def pathSuffix (path : Str) : Str :=
  let name := pathName path
  let i := rfindCh '.' name
  if 0 < i ∧ i < len name - 1 then pyDrop name i else []

/-- The arguments of `GopherHTMLParser`, `cli.py` 52-62. -/
def cliCfg : Cfg where
  outputFormat := py"text"
  gopherHost := py"my.gopher.com"
  box := some (Box.new 67 ⟨1, 0, 1, 0⟩ {} {} none none)
  linkPlacement := py"footer"
  imagePlacement := py"inline"
  renderers := icedGopherTheme

/-- `print`. -/
def printLine (s : Str) : Str := s ++ py"\n"

/-- `feed`, but with the state that is left if a call raises: what was printed until then stays printed. -/
def feedUntil (u : Uni) (c : Cfg) (s : PState) : List Event → PState × Option PyErr
  | [] => (s, none)
  | e :: es => match step u c s e with
    | .ok s' => feedUntil u c s' es
    | .error x => (s, some x)

/-- `cli.py` 63-69, after what is printed before. The lines that write to the destination (66-67) are commented out. An
exception of the tokenizer comes after the calls it made. -/
def cliRender (u : Uni) (before html : Str) : Run :=
  match initParser cliCfg with
  | .error e => { printed := before, error := some e }
  | .ok s0 =>
    let tokens := tokPieces u {} [html]
    let (s, err) := feedUntil u cliCfg s0 tokens.1
    let printed := before ++ (s.log.map printLine).flatten
    match err, tokens.2 with
    | some e, _ => { printed, error := some e }
    | none, .error e => { printed, error := some e }
    | none, .ok _ => match close u cliCfg s with
      | .error e => { printed, error := some e }
      | .ok s' => { printed := printed ++ printLine s'.parsed }

/-- `main`, `cli.py` 21-69. -/
def cliMain (u : Uni) (w : World) (a : Args) : Run :=
  match w.read a.source with
  | .error e => { error := some e }
  | .ok text =>
    match (if pathSuffix a.source = py".md" then w.markdown text else .ok text) with
    | .error e => { error := some e }
    | .ok html => cliRender u (if a.dump then printLine html else []) html

end Verif
