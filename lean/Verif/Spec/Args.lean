import Verif.Model.Args

/-!
# What a command line means
-/

namespace Verif.Spec

/-- A negative number, with or without a point. -/
def NegativeNumber (u : Uni) (s : Str) : Prop :=
  ∃ a b e, s = '-' :: (a ++ (b ++ e)) ∧ (∀ c ∈ a, u.isDigit c = true) ∧ (e = [] ∨ e = py"\n") ∧
    ((b = [] ∧ a ≠ []) ∨ ∃ f, b = '.' :: f ∧ f ≠ [] ∧ ∀ c ∈ f, u.isDigit c = true)

/-- `-d`, `-dd` and so on, or `--dump`, which can be cut short. -/
def DumpWord (s : Str) : Prop := (∃ n, s = '-' :: 'd' :: List.replicate n 'd') ∨ ∃ k, 3 ≤ k ∧ s = py"--dump".take k

/-- Letters of options, with anything but another letter, `=` or `-` behind them. -/
def Letters (l r : Str) : Prop := (∀ c ∈ l, c = 'd' ∨ c = 'h') ∧ ∀ c, r.head? = some c → c ∉ py"dh=-"

/-- `-h` among other letters, or `--help`, which can be cut short. -/
def HelpWord (s : Str) : Prop := (∃ l r, s = '-' :: (l ++ r) ∧ Letters l r ∧ 'h' ∈ l) ∨ ∃ k, 3 ≤ k ∧ s = py"--help".take k

/-- The name of a long option, perhaps cut short. -/
def LongOption (s : Str) : Prop := ∃ k, 3 ≤ k ∧ (s = py"--dump".take k ∨ s = py"--help".take k)

/-- An option with an argument. -/
def RefusedWord (s : Str) : Prop :=
  (∃ l c r, s = '-' :: (l ++ c :: r) ∧ l ≠ [] ∧ (∀ c ∈ l, c = 'd' ∨ c = 'h') ∧ (c = '=' ∨ c = '-')) ∨
  ∃ p v, s = p ++ '=' :: v ∧ LongOption p

/-- `--=`, which is short for both options. -/
def AmbiguousWord (s : Str) : Prop := py"--=" <+: s

/-- An option, or the beginning of one. -/
def OptionStart (s : Str) : Prop :=
  py"-d" <+: s ∨ py"-h" <+: s ∨ AmbiguousWord s ∨ ∃ p, LongOption p ∧ (s = p ∨ ∃ v, s = p ++ '=' :: v)

/-- A file name that needs no `--` before it: it does not begin with a hyphen, or is no more than that, or looks like a number, or
has a space in it. -/
def FileWord (u : Uni) (s : Str) : Prop :=
  s.head? ≠ some '-' ∨ s = py"-" ∨ ((NegativeNumber u s ∨ ' ' ∈ s) ∧ ¬ OptionStart s ∧ s ≠ py"--")

/-- A word before `--`. -/
inductive CommandWord where
  | file (s : Str)
  | dump (s : Str)

def CommandWord.src : CommandWord → Str
  | .file s => s
  | .dump s => s

def CommandWord.Ok (u : Uni) : CommandWord → Prop
  | .file s => FileWord u s
  | .dump s => DumpWord s

def CommandWord.file? : CommandWord → Option Str
  | .file s => some s
  | .dump _ => none

/-- A command line: words, and perhaps `--` and file names. -/
structure CommandLine where
  before : List CommandWord
  after : Option (List Str)

def CommandLine.src (l : CommandLine) : List Str :=
  l.before.map CommandWord.src ++ (match l.after with
    | none => []
    | some names => py"--" :: names)

def CommandLine.Ok (u : Uni) (l : CommandLine) : Prop := ∀ w ∈ l.before, w.Ok u

/-- The file names, in order. -/
def CommandLine.files (l : CommandLine) : List Str := l.before.filterMap CommandWord.file? ++ l.after.getD []

/-- Whether the HTML is to be printed. -/
def CommandLine.dumps (l : CommandLine) : Prop := ∃ s, CommandWord.dump s ∈ l.before

/-- The `--` stands at the end, after an option (see `C83_dashes_fails`). -/
def CommandLine.Idle (l : CommandLine) : Prop := l.after = some [] ∧ ∃ s, l.before.getLast? = some (.dump s)

end Verif.Spec
