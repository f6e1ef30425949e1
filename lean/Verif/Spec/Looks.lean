import Verif.Spec.Render
import Verif.Spec.Template

/-!
# What settings ask for
-/

namespace Verif.Spec

/-- Element `i` of a document, placed in `box`, is drawn by `inst`: the renderer the rules chose for it (C07), made with the
settings they give (C08, C11). -/
def DrawnBy (s : PState) (box : Box) (i : Nat) (inst : Inst) : Prop :=
  ∃ cls st, (assignedTo s.assigned i).renderer = some cls ∧ (assignedTo s.assigned i).settings = st ∧
    construct cls (tagInfo s.dom i) ⟨st, none, none⟩ box = .ok inst

/-- A text in capitals, if so asked. -/
def cased (u : Uni) (capitals : Bool) (x : Str) : Str := if capitals then u.upper x else x

/-- Put `gap` between any two characters. -/
def spaced (gap : Str) : Str → Str
  | [] => []
  | [c] => [c]
  | c :: d :: r => c :: (gap ++ spaced gap (d :: r))

/-- A text written `n` times. -/
def times : Nat → Str → Str
  | 0, _ => []
  | n + 1, x => x ++ times n x

/-- What the settings of a header ask for. -/
structure HeaderLook where
  before : Str := []
  after : Str := []
  capitals : Bool := false
  /-- how many times `gap` is put between two characters -/
  spread : Nat := 0
  gap : Str := py" "
  centred : Bool := false
  /-- the character of the line below -/
  underline : Option Char := none
  /-- that line takes the whole width -/
  full : Bool := false

/-- The settings `s` ask for `look`. The character of the line matters only if there is a line. -/
structure HeaderLook.In (look : HeaderLook) (s : Dict) : Prop where
  template : DictOf.get s py"template" = some (.str (escape look.before ++ py"{}" ++ escape look.after))
  capitals : DictOf.get s py"capitalized" = some (.bool look.capitals)
  spread : DictOf.get s py"spread" = some (.int look.spread)
  gap : DictOf.get s py"spread_char" = some (.str look.gap)
  centred : DictOf.get s py"centered" = some (.bool look.centred)
  underlined : DictOf.get s py"underlined" = some (.bool look.underline.isSome)
  line : ∀ c, look.underline = some c → DictOf.get s py"underline_char" = some (.str [c])
  full : DictOf.get s py"underline_full" = some (.bool look.full)

/-- The text of a header. -/
def HeaderLook.text (u : Uni) (look : HeaderLook) (x : Str) : Str :=
  look.before ++ spaced (times look.spread look.gap) (cased u look.capitals x) ++ look.after

/-- Blanks on both sides of a text of `n` characters: none, or if it is to be centred in `w` columns as many as fill them,
evenly up to one. -/
def Sides2 (centred : Bool) (w : Int) (n a b : Nat) : Prop :=
  (centred = false → a = 0 ∧ b = 0) ∧ (w ≤ n → a = 0 ∧ b = 0) ∧
    (centred = true → a ≤ b + 1 ∧ b ≤ a + 1 ∧ ((n : Int) ≤ w → (a + n + b : Int) = w))

/-- A text between blanks. -/
def between (a b : Nat) (x : Str) : Str := List.replicate a ' ' ++ x ++ List.replicate b ' '

/-- A template with named places, as it is written in the settings: braces of the text are doubled. -/
def write : List Slot → Str
  | [] => []
  | .lit c :: r => escape [c] ++ write r
  | .arg _ :: r => py"{}" ++ write r
  | .key s :: r => py"{" ++ s ++ py"}" ++ write r

/-- Names that can be used in templates as they are: letters and underscores. -/
def PlainName (s : Str) : Prop := s ≠ [] ∧ ∀ c ∈ s, c.isAlpha = true ∨ c = '_'

/-- The template uses these names only. -/
def Names (names : List Str) (t : List Slot) : Prop := ∀ x ∈ t, (∃ c, x = .lit c) ∨ ∃ s ∈ names, x = .key s

/-- The entry `name` of the templates of links and images. -/
def Templates (s : Dict) (name : Str) (ts : List (List Slot)) : Prop :=
  ∃ d, DictOf.get s py"templates" = some (.strDict d) ∧ DictOf.get d name = some (ts.map write)

/-- What is shown of a link before the template for its placement is applied: the content in the template of the link, and
capitals, if asked for, for both. -/
def linkInner (u : Uni) (capitals : Bool) (before after x : Str) : Str :=
  cased u capitals (before ++ cased u capitals x ++ after)

/-- The title of a link, if it has one that is not empty. -/
def Target.heading (t : Target) : Option Str := if t.title = some [] then none else t.title

end Verif.Spec
