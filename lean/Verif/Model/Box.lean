import Verif.Py.Str

/-!
# The box model: `Box` in `gopher_render/rendering.py` 94-209
-/

namespace Verif

/-- A four element list indexed by `BoxSide` (`rendering.py` 94-98): top, right, bottom, left. -/
structure Sides where
  top : Int := 0
  right : Int := 0
  bottom : Int := 0
  left : Int := 0
  deriving DecidableEq, Repr

/-- `_get_template_width`, `rendering.py` 101-103. -/
def templateWidth (t : Str) : Int := len t - 2

/-- Attributes of a `Box` instance (`rendering.py` 125-138; the `parent` reference itself is only used to compute
the totals and is not kept). -/
structure Box where
  width : Int
  margin : Sides
  totalMargin : Sides
  padding : Sides
  totalPadding : Sides
  border : Sides
  totalBorder : Sides
  lineTemplatePadding : Int
  totalLineTemplatePadding : Int
  deriving DecidableEq, Repr

/-- Left and right totals are the sum with the parent's; top and bottom keep the own value (`rendering.py` 144-149). -/
def Sides.addTotals (own parent : Sides) : Sides :=
  { own with left := own.left + parent.left, right := own.right + parent.right }

/-- `rendering.py` 133-137: `line_template_padding`; an absent or empty template counts 0. -/
def ownTemplatePadding (t : Option Str) : Int :=
  match t with
  | some (c :: r) => templateWidth (c :: r)
  | _ => 0

/-- `Box.__init__`, `rendering.py` 110-150. -/
def Box.new (width : Int) (margin padding border : Sides) (lineTemplate : Option Str) (parent : Option Box) : Box :=
  match parent with
  | none =>
    { width, margin, totalMargin := margin, padding, totalPadding := padding, border, totalBorder := border
      lineTemplatePadding := ownTemplatePadding lineTemplate
      totalLineTemplatePadding := 0 }
  | some p =>
    { width := p.width
      margin, totalMargin := margin.addTotals p.totalMargin
      padding, totalPadding := padding.addTotals p.totalPadding
      border, totalBorder := border.addTotals p.totalBorder
      lineTemplatePadding := ownTemplatePadding lineTemplate
      totalLineTemplatePadding := ownTemplatePadding lineTemplate + p.totalLineTemplatePadding }

/-- `inner_width_excluding_line_template`, `rendering.py` 159-165. -/
def Box.textWidth (b : Box) : Int :=
  b.width - (b.totalMargin.left + b.totalMargin.right + b.totalPadding.left + b.totalPadding.right +
    b.totalBorder.left + b.totalBorder.right + b.totalLineTemplatePadding)

/-- `inner_width`, `rendering.py` 171-176. -/
def Box.innerWidth (b : Box) : Int :=
  b.width - (b.totalMargin.left + b.totalMargin.right + b.totalPadding.left + b.totalPadding.right +
    b.totalBorder.left + b.totalBorder.right)

/-- `padded_width`, `rendering.py` 182-189. -/
def Box.paddedWidth (b : Box) : Int :=
  b.width - (b.totalMargin.left + b.totalMargin.right + b.totalBorder.left + b.totalBorder.right +
    (b.totalLineTemplatePadding - b.lineTemplatePadding))

/-- `bordered_width`, `rendering.py` 195-198. -/
def Box.borderedWidth (b : Box) : Int :=
  b.width - (b.totalMargin.left + b.totalMargin.right)

end Verif
