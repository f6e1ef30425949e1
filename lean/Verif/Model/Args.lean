import Verif.Model.Cli

/-!
# The command line: `cli.py` 13-19, with `argparse` of Python 3.12

Only what this parser uses: two positional arguments and the options `-h`/`--help` (added by argparse) and `-d`/`--dump`. Line
numbers with `argparse` are those of the standard library. The texts of the help and of the usage message are left out.
-/

namespace Verif

/-- The optional actions: `_HelpAction` and `store_true`. -/
inductive CliOption where
  | help
  | dump
  deriving DecidableEq

/-- `_option_string_actions`, `cli.py` 17. -/
def optionActions : List (Str × CliOption) := [(py"-h", .help), (py"--help", .help), (py"-d", .dump), (py"--dump", .dump)]

/-- What `_parse_optional` returns: action, option string, separator, explicit argument. -/
structure OptionTuple where
  action : Option CliOption
  text : Str
  sep : Option Str := none
  arg : Option Str := none
  deriving DecidableEq

/-- `partition('=')`; there is no `=` if the second component is `none`. -/
def partitionEq (s : Str) : Str × Option Str :=
  (s.takeWhile (· ≠ '='), match s.dropWhile (· ≠ '=') with
    | [] => none
    | _ :: v => some v)

/-- `_get_option_tuples`, argparse 2336-2376. -/
def optionTuples (s : Str) : List OptionTuple :=
  match s with
  | '-' :: '-' :: _ =>
    optionActions.filterMap (fun (o, a) =>
      if (partitionEq s).1.isPrefixOf o then some ⟨some a, o, (partitionEq s).2.map (fun _ => py"="), (partitionEq s).2⟩ else none)
  | '-' :: c :: r =>
    optionActions.filterMap (fun (o, a) =>
      if o = ['-', c] then some ⟨some a, o, some [], some r⟩
      else if s.isPrefixOf o then some ⟨some a, o, none, none⟩ else none)
  | _ => []

/-- `_negative_number_matcher`, argparse 1420: `^-\d+$|^-\d*\.\d+$`; the `$` also matches before a line feed at the end. -/
def negativeNumber (u : Uni) (s : Str) : Bool :=
  match s with
  | '-' :: r =>
    let t := if r.getLast? = some '\n' then r.dropLast else r
    (t ≠ [] && t.all u.isDigit) ||
      (List.range t.length).any (fun i => t[i]? = some '.' && (t.take i).all u.isDigit &&
        (t.drop (i + 1) ≠ [] && (t.drop (i + 1)).all u.isDigit))
  | _ => false

/-- `_parse_optional`, argparse 2279-2334: `none` for a positional argument. Ambiguous options end the program. -/
def parseOptional (u : Uni) (s : Str) : Except Unit (Option OptionTuple) :=
  if s = [] then .ok none
  else if s.head? ≠ some '-' then .ok none
  else match optionActions.lookup s with
  | some a => .ok (some ⟨some a, s, none, none⟩)
  | none =>
    if s.length = 1 then .ok none
    else match (partitionEq s).2, optionActions.lookup (partitionEq s).1 with
    | some v, some a => .ok (some ⟨some a, (partitionEq s).1, some py"=", some v⟩)
    | _, _ =>
      match optionTuples s with
      | _ :: _ :: _ => .error ()
      | [t] => .ok (some t)
      | [] => if negativeNumber u s ∨ ' ' ∈ s then .ok none else .ok (some ⟨none, s, none, none⟩)

/-- An argument with its letter in `arg_strings_pattern`, argparse 1975-1997: `A`, `-` or `O`. -/
inductive Slot where
  | arg (s : Str)
  | dashes
  | option (s : Str) (t : OptionTuple)
  deriving DecidableEq

def Slot.text : Slot → Str
  | .arg s => s
  | .dashes => py"--"
  | .option s _ => s

def Slot.isOption : Slot → Bool
  | .option _ _ => true
  | _ => false

/-- argparse 1974-1997. -/
def slots (u : Uni) : List Str → Except Unit (List Slot)
  | [] => .ok []
  | s :: rest =>
    if s = py"--" then .ok (.dashes :: rest.map .arg)
    else match parseOptional u s with
    | .error e => .error e
    | .ok o => match slots u rest with
      | .error e => .error e
      | .ok l => .ok ((match o with
        | none => .arg s
        | some t => .option s t) :: l)

/-- The loop of `consume_optional`, argparse 2035-2090, with an explicit argument: the actions to take, and what is left over. Neither
option takes an argument. `none`: the explicit argument is refused (as it is in the next turn if it begins with `=`). -/
def expandArg (a : CliOption) (text sep : Str) : Str → Option (List CliOption × Option Str)
  | [] => none
  | c :: rest =>
    if text[1]? = some '-' then none
    else if sep ≠ [] ∨ c = '-' then none
    else match optionActions.lookup ['-', c] with
    | none => some ([a], some ('-' :: c :: rest))
    | some a' =>
      if rest = [] then some ([a, a'], none)
      else if rest.head? = some '=' then none
      else (expandArg a' ['-', c] [] rest).map (fun x => (a :: x.1, x.2))

/-- The same with or without an explicit argument. An unknown option is left over. -/
def expandOption (s : Str) (t : OptionTuple) : Option (List CliOption × Option Str) :=
  match t.action, t.arg with
  | none, _ => some ([], some s)
  | some a, none => some ([a], none)
  | some a, some v => expandArg a t.text (t.sep.getD []) v

/-- A value of a positional argument: a string, or (if `--` was all there was, and it is taken away) a list. -/
inductive PosValue where
  | str (s : Str)
  | list (l : List Str)
  deriving DecidableEq

/-- The destination is not used. -/
def PosValue.text : PosValue → Str
  | .str s => s
  | .list _ => []

/-- The values so far, the positional arguments that are still missing (`source` before `destination`), and the extras. -/
structure ArgState where
  values : List PosValue := []
  left : Nat := 2
  dump : Bool := false
  extras : List Str := []
  deriving DecidableEq

/-- `(-*A-*)`, argparse 2384. -/
def matchOne (l : List Slot) : Option (List Str × List Slot) :=
  let d := l.takeWhile (· = .dashes)
  match l.dropWhile (· = .dashes) with
  | .arg s :: r => some (d.map Slot.text ++ s :: (r.takeWhile (· = .dashes)).map Slot.text, r.dropWhile (· = .dashes))
  | _ => none

/-- The pattern for several of them. The greedy `-*` at the end of one never has to give back what it took. -/
def matchAll : Nat → List Slot → Option (List (List Str) × List Slot)
  | 0, l => some ([], l)
  | n + 1, l => match matchOne l with
    | none => none
    | some (s, r) => (matchAll n r).map (fun x => (s :: x.1, x.2))

/-- `_match_arguments_partial`, argparse 2263-2277. -/
def matchPartial : Nat → List Slot → List (List Str) × List Slot
  | 0, l => ([], l)
  | n + 1, l => match matchAll (n + 1) l with
    | some x => x
    | none => matchPartial n l

/-- `_get_values`, argparse 2511-2562, for a positional argument without `nargs`. -/
def posValue (l : List Str) : PosValue :=
  match l.erase py"--" with
  | [s] => .str s
  | l => .list l

/-- `consume_positionals`, argparse 2102-2119. Of the arguments, what is not consumed. -/
def consumePositionals (st : ArgState) (l : List Slot) : ArgState × List Slot :=
  let m := matchPartial st.left l
  ({ st with values := st.values ++ m.1.map posValue, left := st.left - m.1.length }, m.2)

/-- How `parse_args` ends: with values, with the help (status 0), or with the usage message and an error (status 2). -/
inductive ArgResult where
  | ok (source destination : PosValue) (dump : Bool)
  | help
  | usage
  deriving DecidableEq

/-- After the loop, argparse 2157-2206 and 1908-1912. -/
def finishArgs (st : ArgState) (l : List Slot) : ArgResult :=
  let (st, l) := consumePositionals st l
  match st.values, st.left, st.extras ++ l.map Slot.text with
  | [s, d], 0, [] => .ok s d st.dump
  | _, _, _ => .usage

/-- The loop, argparse 2121-2155, on the arguments that are left. -/
def argLoop : Nat → ArgState → List Slot → ArgResult
  | 0, _, _ => .usage
  | f + 1, st, l =>
    if l.any Slot.isOption then
      let c := consumePositionals st l
      if ¬ (l.head?.map Slot.isOption = some true) ∧ c.2.length < l.length then argLoop f c.1 c.2
      else
        let st' := if l.head?.map Slot.isOption = some true then st
          else { c.1 with extras := st.extras ++ (l.takeWhile (fun x => !x.isOption)).map Slot.text }
        match l.dropWhile (fun x => !x.isOption) with
        | .option s t :: r =>
          match expandOption s t with
          | none => .usage
          | some (as, extra) =>
            if .help ∈ as then .help
            else argLoop f { st' with dump := st'.dump || as.contains .dump, extras := st'.extras ++ extra.toList } r
        | _ => .usage
    else finishArgs st l

/-- `_parse_arguments`, `cli.py` 13-19. -/
def parseArgs (u : Uni) (argv : List Str) : ArgResult :=
  match slots u argv with
  | .error _ => .usage
  | .ok l => argLoop (l.length + 1) {} l

/-- The status of a program and what it did. -/
structure Exit where
  status : Nat
  run : Run
  deriving DecidableEq

/-- The program with its command line, `cli.py` 21-73. The texts printed for `--help` and for errors are left out; an exception ends
the program with status 1. -/
def program (u : Uni) (w : World) (argv : List Str) : Exit :=
  match parseArgs u argv with
  | .help => ⟨0, {}⟩
  | .usage => ⟨2, {}⟩
  | .ok (.str s) d dump =>
    let run := cliMain u w { source := s, destination := d.text, dump := dump }
    ⟨if run.error = none then 0 else 1, run⟩
  | .ok (.list _) _ _ => ⟨1, { error := some .typeError }⟩

end Verif
