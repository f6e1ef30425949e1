import Verif.Spec.Looks
import Verif.Spec.Blocks
import Verif.Spec.Justify

/-!
# What the settings of running text ask for
-/

namespace Verif.Spec

inductive Alignment where
  | asIs | left | right | centre | full

/-- The name in the settings. -/
def Alignment.name : Alignment → Str
  | .asIs => py"none"
  | .left => py"left"
  | .right => py"right"
  | .centre => py"center"
  | .full => py"full"

/-- What the settings of running text ask for. -/
structure TextLook where
  /-- around each line, or around the first line of an item -/
  before : Str := []
  after : Str := []
  /-- the indents of the first and of the other lines -/
  first : Nat := 0
  further : Nat := 0
  alignment : Alignment := .left
  capitals : Bool := false
  sentences : Bool := true
  breakWords : Bool := true
  expandTabs : Bool := true
  replaceSpace : Bool := true
  dropSpace : Bool := true
  hyphens : Bool := true
  tab : Int := 8
  mark : Str := py" [...]"

/-- A setting that can be left out. -/
def Flag (s : Dict) (k : Str) (dflt v : Bool) : Prop :=
  DictOf.get s k = some (.bool v) ∨ DictOf.get s k = none ∧ v = dflt

/-- The settings `s` ask for `look`. -/
structure TextLook.In (look : TextLook) (s : Dict) : Prop where
  template : DictOf.get s py"line_template" = some (.str (escape look.before ++ py"{}" ++ escape look.after))
  first : DictOf.get s py"initial_indent" = some (.int look.first)
  further : DictOf.get s py"subsequent_indent" = some (.int look.further)
  alignment : DictOf.get s py"justification" = some (.str look.alignment.name)
  capitals : DictOf.get s py"capitalized" = some (.bool look.capitals)
  sentences : Flag s py"fix_sentence_endings" false look.sentences
  breakWords : Flag s py"break_long_words" true look.breakWords
  expandTabs : Flag s py"expand_tabs" true look.expandTabs
  replaceSpace : Flag s py"replace_whitespace" true look.replaceSpace
  dropSpace : Flag s py"drop_whitespace" true look.dropSpace
  hyphens : Flag s py"break_on_hyphens" true look.hyphens
  tab : DictOf.get s py"tabsize" = some (.int look.tab) ∨ DictOf.get s py"tabsize" = none ∧ look.tab = 8
  mark : DictOf.get s py"placeholder" = some (.str look.mark) ∨ DictOf.get s py"placeholder" = none ∧ look.mark = py" [...]"

/-- How the text is wrapped. -/
def TextLook.opts (u : Uni) (look : TextLook) (w : Int) : WrapOpts where
  width := w
  initialIndent := List.replicate look.first ' '
  subsequentIndent := List.replicate look.further ' '
  expandTabs := look.expandTabs
  replaceWs := look.replaceSpace
  fixSentence := look.sentences
  breakLong := look.breakWords
  dropWs := look.dropSpace
  breakHyphens := look.hyphens
  tabsize := if look.expandTabs then look.tab else 8
  maxLines := none
  placeholder := look.mark
  hyphenAware := u.hyphenAware

/-- There is room for text beside the indents. -/
def TextLook.Room (look : TextLook) (w : Int) : Prop := 0 < w ∧ look.first < w ∧ look.further < w

/-- What full justification needs: it counts characters, and looks for spaces. -/
def TextLook.Even (look : TextLook) (text : Str) : Prop :=
  look.alignment = .full → look.dropSpace = true ∧ look.breakWords = true ∧ '\x1b' ∉ text ∧ PlainWs text

/-- A wrapped line in its place. -/
def Moved (a : Alignment) (w : Int) (l l' : Str) : Prop :=
  match a with
  | .right => ∃ n, l' = List.replicate n ' ' ++ l ∧ ((l.length : Int) ≤ w → (n : Int) + l.length = w) ∧ (w ≤ l.length → n = 0)
  | .centre => ∃ n m, l' = between n m l ∧ Sides2 true w l.length n m
  | _ => l' = l

/-- A line, but not the last, with its gaps widened. -/
def Evened (w : Int) (l l' : Str) : Prop :=
  (∀ ws, Words l' ws ↔ Words l ws) ∧ (HasGap l → (l'.length : Int) = w ∧ Widened l l') ∧ (¬ HasGap l → l' = l)

/-- `out` are the lines of a piece of text. -/
def Laid (u : Uni) (look : TextLook) (w : Int) (text : Str) (out : List Str) : Prop :=
  match look.alignment with
  | .asIs => text = join py"\n" out ∧ out ≠ [] ∧ ∀ l ∈ out, '\n' ∉ l
  | .full => ∃ lines, wrap u (look.opts u w) text = .ok lines ∧ out.length = lines.length ∧ out.getLast? = lines.getLast? ∧
      ∀ (k : Nat) l l', lines[k]? = some l → out[k]? = some l' → k + 1 < lines.length → Evened w l l'
  | a => ∃ lines, wrap u (look.opts u w) text = .ok lines ∧ out.length = lines.length ∧
      ∀ (k : Nat) l l', lines[k]? = some l → out[k]? = some l' → Moved a w l l'

/-- `parts` are the lines of the segments, without blanks around them. -/
def LaidEach (u : Uni) (look : TextLook) (w : Int) : (segments : List Str) → (parts : List (List Str)) → Prop
  | [], [] => True
  | x :: xs, p :: ps => Laid u look w (strip x) p ∧ LaidEach u look w xs ps
  | _, _ => False

/-- What the settings of a block say about its frame: the border, outside of it the margin, inside of it the padding. -/
structure Frame where
  top : Str := []
  right : Str := []
  bottom : Str := []
  left : Str := []
  margin : Sides := {}
  padding : Sides := {}

/-- The settings `s` ask for the frame. -/
structure Frame.In (fr : Frame) (s : Dict) : Prop where
  border : DictOf.get s py"border" = some (.strs [fr.top, fr.right, fr.bottom, fr.left])
  margin : DictOf.get s py"margin" = some (.ints [fr.margin.top, fr.margin.right, fr.margin.bottom, fr.margin.left])
  padding : DictOf.get s py"padding" = some (.ints [fr.padding.top, fr.padding.right, fr.padding.bottom, fr.padding.left])

/-- The columns which the frame takes. -/
def Frame.cols (fr : Frame) : Int :=
  fr.margin.left + fr.margin.right + fr.padding.left + fr.padding.right + fr.left.length + fr.right.length

/-- The columns inside the margins of a block with this frame in `parent`. -/
def Frame.width (fr : Frame) (parent : Box) : Int := room parent - fr.margin.left - fr.margin.right

/-- The length of its upper and lower edge. -/
def Frame.edge (fr : Frame) (parent : Box) : Int :=
  parent.width - parent.totalMargin.left - parent.totalMargin.right - fr.margin.left - fr.margin.right

/-- A line between the sides of the border, `w` columns in all. -/
def Frame.row (fr : Frame) (w : Int) (l : Str) : Str :=
  fr.left ++ List.replicate fr.padding.left.toNat ' ' ++ l ++
    List.replicate (w - fr.left.length - fr.right.length - fr.padding.left - l.length).toNat ' ' ++ fr.right

/-- An empty line between the sides of the border. -/
def Frame.empty (fr : Frame) (w : Int) : Str :=
  fr.left ++ List.replicate (w - fr.left.length - fr.right.length).toNat ' ' ++ fr.right

/-- The rows of a block: the upper edge, one row for each character given for it; empty rows; the lines; and the same below. -/
def Frame.rows (fr : Frame) (edge w : Int) (ls : List Str) : List Str :=
  fr.top.map (List.replicate edge.toNat ·) ++ List.replicate fr.padding.top.toNat (fr.empty w) ++ ls.map (fr.row w) ++
    List.replicate fr.padding.bottom.toNat (fr.empty w) ++ fr.bottom.map (List.replicate edge.toNat ·)

/-- The margins around the rows. -/
def Frame.outside (fr : Frame) (rows : List Str) : Str :=
  List.replicate fr.margin.top.toNat '\n' ++ join py"\n" (rows.map (List.replicate fr.margin.left.toNat ' ' ++ ·)) ++
    List.replicate fr.margin.bottom.toNat '\n'

/-- The lines of an item: the template is for the first line, the others are indented by `n` columns. -/
def hanging (before after : Str) (n : Nat) : List Str → List Str
  | [] => [before ++ after]
  | l :: ls => (before ++ l ++ after) :: ls.map (List.replicate n ' ' ++ ·)

/-- The columns which a line template takes, as they are written in the settings. -/
def TextLook.cols (look : TextLook) : Nat := (escape look.before).length + (escape look.after).length

end Verif.Spec
