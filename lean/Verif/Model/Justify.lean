import Verif.Model.TextWrap

/-!
# Justification: `gopher_render/rendering.py` 9-91
-/

namespace Verif

/-- `center`, `rendering.py` 61-64. -/
def center (text : Str) (width : Int) : Str := if width = 0 then text else centerStr text width

/-- `right`, `rendering.py` 67-70. -/
def right (text : Str) (width : Int) : Str := if width = 0 then text else rjust text width

/-- The body of the loop of `full_justify`, `rendering.py` 17-38. `divmod` with a positive divisor is floor
division, as `Int.ediv`/`Int.emod`. -/
def justifyLine (width : Int) (line : Str) : Str :=
  let origLen := len line
  let ls := lstrip line
  let indent := rep ' ' (origLen - len ls)
  let paddingSpaces := width - origLen
  let rs := rstrip ls
  if paddingSpaces = 0 then line
  else
    let words := splitCh ' ' rs
    let gaps := words.length - 1
    if gaps = 0 then line
    else
      let n := paddingSpaces / (gaps : Int)
      let r := paddingSpaces % (gaps : Int)
      let narrow := rep ' ' (n + 1)
      if r = 0 then indent ++ join narrow words
      else
        let wide := rep ' ' (n + 2)
        indent ++ join wide (words.take r.toNat) ++ wide ++ join narrow (words.drop r.toNat)

/-- `rendering.py` 15-41: justify all lines but the last. -/
def justifyLines (width : Int) (lines : List Str) : List Str :=
  lines.dropLast.map (justifyLine width) ++ lines.getLast?.toList

/-- `full_justify`, `rendering.py` 13-41 (`o.width` is the `width` argument). -/
def fullJustify (u : Uni) (o : WrapOpts) (text : Str) : Py Str :=
  (wrap u o text).map (fun lines => join py"\n" (justifyLines o.width lines))

/-- `left_justify`, `rendering.py` 44-46. -/
def leftJustify (u : Uni) (o : WrapOpts) (text : Str) : Py Str :=
  (wrap u o text).map (join py"\n")

/-- `right_justify`, `rendering.py` 49-52. -/
def rightJustify (u : Uni) (o : WrapOpts) (text : Str) : Py Str :=
  (wrap u o text).map (fun lines => join py"\n" (lines.map (right · o.width)))

/-- `center_justify`, `rendering.py` 55-58. -/
def centerJustify (u : Uni) (o : WrapOpts) (text : Str) : Py Str :=
  (wrap u o text).map (fun lines => join py"\n" (lines.map (center · o.width)))

/-- The `justifications` table, `rendering.py` 73-79; an unknown name is a `KeyError`. -/
def justification (u : Uni) (name : Str) : Py (WrapOpts → Str → Py Str) :=
  if name = py"none" then .ok (fun _ t => .ok t)
  else if name = py"full" then .ok (fullJustify u)
  else if name = py"center" then .ok (centerJustify u)
  else if name = py"left" then .ok (leftJustify u)
  else if name = py"right" then .ok (rightJustify u)
  else .error .keyError

/-- `spread`, `rendering.py` 89-91: `(spread_char * count).join(text)`. -/
def spread (text : Str) (spreadChar : Str) (count : Int) : Str :=
  join (repStr spreadChar count) (text.map (fun c => [c]))

end Verif
