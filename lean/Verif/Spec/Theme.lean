import Verif.Spec.Ansi
import Verif.Spec.Cascade
import Verif.Spec.Render

/-!
# Colour themes
-/

namespace Verif.Spec

/-- The rule of the theme that decides the setting `k` of the element gives it the value `v`. -/
def ThemeSets (d : Dom) (theme : List Rule) (i : Nat) (k : Str) (v : Val) : Prop :=
  ∃ r, Wins d (.node i) theme (fun r => ruleSetting r k ≠ none) r ∧ ruleSetting r k = some v

/-- No rule of the theme that matches the element mentions the setting `k`. -/
def ThemeSilent (d : Dom) (theme : List Rule) (i : Nat) (k : Str) : Prop :=
  ∀ r ∈ theme, ∀ sp, Applies d (.node i) r sp → ruleSetting r k = none

/-- The colour the theme gives to the element. -/
def ThemeColour (d : Dom) (theme : List Rule) (i : Nat) (k : Str) (c : Option Colour) : Prop :=
  (∃ v x, ThemeSets d theme i k v ∧ ColourIs v x ∧ c = some x) ∨ (ThemeSilent d theme i k ∧ c = none)

/-- The control sequences `on` show the colours and effects the theme gives to the element, and `off` ends them. -/
structure ThemeCodes (d : Dom) (theme : List Rule) (i : Nat) (on off : List (List Nat)) : Prop where
  fg : ThemeColour d theme i py"foreground_colour" (on.foldl sgr plainLook).fg
  bg : ThemeColour d theme i py"background_colour" (on.foldl sgr plainLook).bg
  effects : ∀ e, (on.foldl sgr plainLook).effects e = true ↔ e ∈ effectNames ∧ ThemeSets d theme i e (.bool true)
  ends : off.foldl sgr (on.foldl sgr plainLook) = plainLook

end Verif.Spec
