import Verif.Spec.Wrap
import Verif.Model.Renderers

/-!
# What terminals do with colour sequences, and what colours mean

Select Graphic Rendition codes as listed in ECMA-48 8.3.117 and its usual extensions for colours.
-/

namespace Verif.Spec

/-- A colour: one of the sixteen named ones, an entry of the 256 colour palette, or three components. -/
inductive Colour where
  | named (n : Nat)
  | palette (n : Nat)
  | rgb (r g b : Nat)
  deriving DecidableEq

/-- How a terminal shows text: which effects are on, and the colours if they are not the default ones. -/
structure Look where
  effects : Str → Bool
  fg : Option Colour
  bg : Option Colour

def plainLook : Look := ⟨fun _ => false, none, none⟩

def Look.on (l : Look) (e : Str) : Look := { l with effects := fun x => if x = e then true else l.effects x }

def Look.off (l : Look) (es : List Str) : Look := { l with effects := fun x => if x ∈ es then false else l.effects x }

/-- The effect of the codes of one sequence. -/
def sgr (l : Look) : List Nat → Look
  | [0] => plainLook
  | [1] => l.on py"bold"
  | [2] => l.on py"faint"
  | [3] => l.on py"italic"
  | [4] => l.on py"underline"
  | [5] => l.on py"slow_blink"
  | [6] => l.on py"rapid_blink"
  | [7] => l.on py"invert"
  | [8] => l.on py"conceal"
  | [9] => l.on py"crossed_out"
  | [20] => l.on py"fraktur"
  | [51] => l.on py"framed"
  | [52] => l.on py"encircled"
  | [53] => l.on py"overlined"
  | [22] => l.off [py"bold", py"faint"]
  | [23] => l.off [py"italic", py"fraktur"]
  | [24] => l.off [py"underline"]
  | [25] => l.off [py"slow_blink", py"rapid_blink"]
  | [27] => l.off [py"invert"]
  | [28] => l.off [py"conceal"]
  | [29] => l.off [py"crossed_out"]
  | [54] => l.off [py"framed", py"encircled"]
  | [55] => l.off [py"overlined"]
  | [39] => { l with fg := none }
  | [49] => { l with bg := none }
  | [38, 5, n] => { l with fg := some (.palette n) }
  | [48, 5, n] => { l with bg := some (.palette n) }
  | [38, 2, r, g, b] => { l with fg := some (.rgb r g b) }
  | [48, 2, r, g, b] => { l with bg := some (.rgb r g b) }
  | [n] =>
    if 30 ≤ n ∧ n < 38 then { l with fg := some (.named (n - 30)) }
    else if 40 ≤ n ∧ n < 48 then { l with bg := some (.named (n - 40)) }
    else if 90 ≤ n ∧ n < 98 then { l with fg := some (.named (n - 90 + 8)) }
    else if 100 ≤ n ∧ n < 108 then { l with bg := some (.named (n - 100 + 8)) }
    else l
  | _ => l

/-- The characters of a sequence with these codes. -/
def sgrText (codes : List Nat) : Str := py"\x1b[" ++ join py";" (codes.map natStr) ++ py"m"

/-- The effects that can be chosen by name. -/
def effectNames : List Str :=
  [py"bold", py"faint", py"italic", py"fraktur", py"underline", py"slow_blink", py"rapid_blink", py"invert", py"conceal",
   py"crossed_out", py"framed", py"encircled", py"overlined"]

/-- The named colours. -/
def colourNames : List Str :=
  [py"black", py"red", py"green", py"yellow", py"blue", py"magenta", py"cyan", py"white", py"bright_black", py"bright_red",
   py"bright_green", py"bright_yellow", py"bright_blue", py"bright_magenta", py"bright_cyan", py"bright_white"]

/-- Value of a hexadecimal digit. -/
inductive Hex : Char → Nat → Prop where
  | digit (n : Nat) (c : Char) (h : (py"0123456789")[n]? = some c) : Hex c n
  | lower (n : Nat) (c : Char) (h : (py"abcdef")[n]? = some c) : Hex c (10 + n)
  | upper (n : Nat) (c : Char) (h : (py"ABCDEF")[n]? = some c) : Hex c (10 + n)

/-- The colour denoted by an HTML colour string. -/
inductive HtmlColour : Str → Nat × Nat × Nat → Prop where
  | six {r r' g g' b b' : Char} {vr vr' vg vg' vb vb' : Nat} (h1 : Hex r vr) (h2 : Hex r' vr') (h3 : Hex g vg) (h4 : Hex g' vg')
      (h5 : Hex b vb) (h6 : Hex b' vb') :
      HtmlColour ['#', r, r', g, g', b, b'] (16 * vr + vr', 16 * vg + vg', 16 * vb + vb')
  | three {r g b : Char} {v : Nat × Nat × Nat} (h : HtmlColour ['#', r, r, g, g, b, b] v) : HtmlColour ['#', r, g, b] v

/-- The colour denoted by a setting: a name, a number from 1 to 255 (see `C52_zero_fails` for 0), three components, or
an HTML colour. -/
inductive ColourIs : Val → Colour → Prop where
  | named (n : Nat) (s : Str) (h : colourNames[n]? = some s) : ColourIs (.str s) (.named n)
  | palette (n : Nat) (h1 : 0 < n) (h2 : n < 256) : ColourIs (.int n) (.palette n)
  | rgb (r g b : Nat) (h1 : r < 256) (h2 : g < 256) (h3 : b < 256) : ColourIs (.ints [r, g, b]) (.rgb r g b)
  | html (s : Str) (r g b : Nat) (h : HtmlColour s (r, g, b)) : ColourIs (.str s) (.rgb r g b)

/-- The colour chosen by a setting that may be absent. -/
def Chosen (v : Val) (c : Option Colour) : Prop := (v = .none ∧ c = none) ∨ ∃ x, ColourIs v x ∧ c = some x

/-- The effect is switched on in the settings. -/
def Enabled (s : Dict) (e : Str) : Prop := e ∈ effectNames ∧ ∃ v, DictOf.get s e = some v ∧ v.truthy = true

end Verif.Spec
