import Verif.Model.Formatter
import Verif.Spec.Text
import Verif.Spec.Tree
import Verif.Props.Text

/-!
# C88: the base class of formatters
-/

namespace Verif

open Spec

theorem classAttr_eq (attrs : List (Str × Option Str)) (d : Option Str) :
    classAttr d attrs = (attrOf attrs py"class").getD d := by
  unfold attrOf
  induction attrs generalizing d with
  | nil => rfl
  | cons a r ih =>
    simp only [classAttr, ih, List.reverse_cons, List.find?_append]
    cases h : r.reverse.find? (fun kv => kv.1 == py"class") with
    | some x => rfl
    | none =>
      by_cases ha : a.1 = py"class"
      · simp [ha]
      · simp [ha]

/-- A formatter is called with the words of the last `class`, with the settings it was made with, and with a box inside that of the parent that has the same
widths and no margins, padding or borders of its own; without a parent there is no box. It fails exactly if this `class` has no value. -/
theorem C88 {V : Type} (defaults : List (Str × V)) (format : FormatCall V → Py Str) (tag content : Str) (attrs : List (Str × Option Str))
    (parent : Option Box) :
    (attrOf attrs py"class" = some none → Formatter.call defaults format tag content attrs parent = .error .attributeError) ∧
    (attrOf attrs py"class" ≠ some none → ∃ classes box,
      Formatter.call defaults format tag content attrs parent =
        format { tag, content, attrs, parentBox := parent, classes, settings := defaults, box } ∧
      (∀ s, attrOf attrs py"class" = some (some s) → Words s classes) ∧ (attrOf attrs py"class" = none → classes = []) ∧
      (parent = none → box = none) ∧
      ∀ p, parent = some p → ∃ b, box = some b ∧ b.textWidth = p.textWidth ∧ b.innerWidth = p.innerWidth ∧ b.borderedWidth = p.borderedWidth ∧
        b.margin = {} ∧ b.padding = {} ∧ b.border = {}) := by
  constructor
  · intro h
    simp [Formatter.call, formatterClasses, classAttr_eq, h, bind, Except.bind]
  · intro h
    have hbox : (parent = none → baseBox parent = none) ∧
        ∀ p, parent = some p → ∃ b, baseBox parent = some b ∧ b.textWidth = p.textWidth ∧ b.innerWidth = p.innerWidth ∧ b.borderedWidth = p.borderedWidth ∧
        b.margin = {} ∧ b.padding = {} ∧ b.border = {} := by
      refine ⟨fun h => by rw [h]; rfl, fun p h => ⟨_, by rw [h]; rfl, ?_⟩⟩
      simp [Box.new, Box.textWidth, Box.innerWidth, Box.borderedWidth, Sides.addTotals, ownTemplatePadding]
    cases hc : attrOf attrs py"class" with
    | none =>
      refine ⟨[], baseBox parent, ?_, by simp, by simp, hbox⟩
      simp [Formatter.call, formatterClasses, classAttr_eq, hc, bind, Except.bind, splitWs, baseFormat]
    | some v =>
      cases v with
      | none => exact absurd hc h
      | some s =>
        refine ⟨splitWs s, baseBox parent, ?_, ?_, by simp, hbox⟩
        · simp [Formatter.call, formatterClasses, classAttr_eq, hc, bind, Except.bind, baseFormat]
        · intro s' e; cases e; exact (words_iff s _).2 rfl

/-- The formatter itself prints the content. -/
theorem C88_base {V : Type} (defaults : List (Str × V)) (tag content : Str) (attrs : List (Str × Option Str)) (parent : Option Box)
    (h : attrOf attrs py"class" ≠ some none) : Formatter.call defaults basePrint tag content attrs parent = .ok content := by
  obtain ⟨classes, box, e, -⟩ := (C88 defaults basePrint tag content attrs parent).2 h
  rw [e]; rfl

/-- Of two classes the last counts. -/
example : Formatter.call [(py"n", 1)] (fun a => .ok (join py"+" a.classes)) py"p" py"text" [(py"class", some py"a b"), (py"id", none), (py"class", some py" c  d ")] none
    = .ok py"c+d" := by decide
example : Formatter.call (V := Nat) [] basePrint py"p" py"text" [(py"class", some py"a"), (py"class", none)] none = .error .attributeError := by decide
example : Formatter.call (V := Nat) [] basePrint py"p" py"text" [(py"class", none), (py"class", some py"a")] none = .ok py"text" := by decide

end Verif
