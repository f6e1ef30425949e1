import Verif.Model.Renderers

/-!
# Indents that leave no room for the text
-/

namespace Verif.Spec

/-- The option is on unless the settings switch it off. -/
def SwitchedOff (s : Dict) (k : Str) : Prop := ∃ v, DictOf.get s k = some v ∧ v.truthy = false

/-- The indent under this name is wider than the text. -/
def BeyondRoom (s : Dict) (k : Str) (width : Int) : Prop := ∃ v n, DictOf.get s k = some v ∧ asInt v = .ok n ∧ width < n

/-- An item of a list. -/
def IsItem (c : RClass) : Prop := c = .listItem ∨ c = .olItem ∨ c = .defItem

/-- A renderer with room for text, which breaks long words, and either is an item that drops whitespace and whose first line is indented
beyond the room, or is an item or paragraph that keeps whitespace and whose other lines are. -/
def Overhang (i : Inst) : Prop :=
  ∃ box, i.box = some box ∧ 0 < box.textWidth ∧ ¬ SwitchedOff i.settings py"break_long_words" ∧
    (¬ SwitchedOff i.settings py"drop_whitespace" ∧ IsItem i.cls ∧ BeyondRoom i.settings py"initial_indent" box.textWidth ∨
     SwitchedOff i.settings py"drop_whitespace" ∧ (IsItem i.cls ∨ i.cls = .paragraph) ∧
       BeyondRoom i.settings py"subsequent_indent" box.textWidth)

end Verif.Spec
