import Verif.Model.Box

/-!
# Nested boxes
-/

namespace Verif.Spec

/-- The arguments of one box. -/
structure BoxArgs where
  width : Int
  margin : Sides
  padding : Sides
  border : Sides
  template : Option Str

/-- The box made from arguments inside another one. -/
def BoxArgs.make (a : BoxArgs) (parent : Option Box) : Box := Box.new a.width a.margin a.padding a.border a.template parent

/-- The innermost of nested boxes, given from the outside in. -/
def nest (outer : BoxArgs) (inner : List BoxArgs) : Box := inner.foldl (fun b a => a.make (some b)) (outer.make none)

/-- The columns a line template takes besides its placeholder `{}`. -/
def templateCols (t : Option Str) : Int :=
  match t with
  | none => 0
  | some s => if s = [] then 0 else (s.length : Int) - 2

/-- Sides that are not negative. -/
def Sides.NonNeg (s : Sides) : Prop := 0 ≤ s.top ∧ 0 ≤ s.right ∧ 0 ≤ s.bottom ∧ 0 ≤ s.left

/-- Nothing about the box is negative. -/
def BoxArgs.NonNeg (a : BoxArgs) : Prop :=
  Sides.NonNeg a.margin ∧ Sides.NonNeg a.padding ∧ Sides.NonNeg a.border ∧ 0 ≤ templateCols a.template

end Verif.Spec
