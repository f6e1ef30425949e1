import Verif.Props.Ansi
import Verif.Props.Box
import Verif.Props.Cascade
import Verif.Props.Format
import Verif.Props.Inline
import Verif.Props.Items
import Verif.Props.Justify
import Verif.Props.Links
import Verif.Props.Prose
import Verif.Props.Sentence
import Verif.Props.Settings
import Verif.Props.Text
import Verif.Props.Wrap

/-!
# The theorems about texts, boxes and settings, used on examples
-/

namespace Verif

open Spec

theorem plainWs_all {s : Str} (h : s.all (fun c => !isSpace c || isTwSpace c) = true) : PlainWs s := by
  intro c hc hs
  have := List.all_eq_true.mp h c hc
  simpa [hs] using this

theorem blank_all {s : Str} (h : s.all isSpace = true) : Blank s := fun c hc => List.all_eq_true.mp h c hc

/-! ## Wrapping -/

-- C17
example := C17 asciiUni c17Opts c17Text _ rfl (by decide) (by decide)
  (show wrap asciiUni c17Opts c17Text = .ok [py"\x1b[31mabc\x1b[0m", py"- def", py"- ghi", py"- jkl", py"- mno"] by decide)

-- C18
example := C18 asciiUni c17Opts c17Text _ rfl
  (show wrap asciiUni c17Opts c17Text = .ok [py"\x1b[31mabc\x1b[0m", py"- def", py"- ghi", py"- jkl", py"- mno"] by decide)

-- C19
example : ∃ out, wrap asciiUni { width := 3 } py"ab cdefgh" = .ok out :=
  C19_partial asciiUni { width := 3 } py"ab cdefgh" rfl (by decide) (.inr (by decide))

-- C19
example : ∃ out, wrap asciiUni { width := 10, maxLines := some 2 } py"aaa bbb ccc ddd eee" = .ok out :=
  C19_limit_partial asciiUni { width := 10, maxLines := some 2 } py"aaa bbb ccc ddd eee" 2 rfl (by decide) (by decide) (.inr (by decide))

-- C20
example : wrap asciiUni { width := 0 } py"a" = .error .valueError := (C20 asciiUni { width := 0 } py"a" rfl).1.mpr (by decide)

-- C21
example := C21 asciiUni { width := 5 } py"aa bb cc" [py"aa bb", py"cc"] rfl (by decide) (by decide)
  (by intro c hc
      have e : wrapInput asciiUni { width := 5 } py"aa bb cc" = [py"aa", py" ", py"bb", py" ", py"cc"] := by decide
      rw [e] at hc
      revert c
      decide) (by decide)

-- C21
example := C21_chunks asciiUni { width := 5 } py"aa bb cc" rfl

-- C21
example := C21_words asciiUni { width := 5 } py"aa bb cc" (plainWs_all (by decide)) rfl (by decide) (.inr (by decide))

-- C22
example := C22_partial asciiUni { width := 3 } py"ab cdefgh" [py"ab ", py"cde", py"fgh"] rfl rfl (plainWs_all (by decide)) (.inr (by decide))
  (by decide)

-- C23
example : wrapChunks asciiUni { width := 5 } [py"aa"] = (wrapChunks asciiUni { width := 5 } [py"\x1b[31maa\x1b[0m"]).map
    (List.map (stripAnsi asciiUni)) :=
  C23 asciiUni { width := 5 } [py"\x1b[31maa\x1b[0m"] rfl (by decide) (by decide)
    (by intro c hc
        cases List.mem_singleton.mp hc
        refine (coloured_iff _ _).2 ⟨by decide, ?_⟩
        intro h; exfalso; revert h; decide)
    (by intro c hc; cases List.mem_singleton.mp hc; decide)

-- C23
example : Strips asciiUni py"\x1b[31maa\x1b[0m" py"aa" := (C23_strip asciiUni _ _).mp (by decide)

-- C24
example := C24 asciiUni { width := 10, maxLines := some 2 } py"aaa bbb ccc ddd eee" [py"aaa bbb", py"ccc [...]"] 2 rfl (by decide) (by decide)

-- C25
example := C25_partial asciiUni { width := 12, initialIndent := py" " } py"aa bb cc dddddddd eee" py" aa   bb  cc\ndddddddd eee" rfl rfl rfl
  (by decide) (by decide) (blank_all (by decide)) (blank_all (by decide)) (plainWs_all (by decide)) (by decide) (by decide)

-- C26
example := C26_right asciiUni { width := 6 } py"aa bb cc" py" aa bb\n    cc" (by decide)

-- C26
example := C26_center asciiUni { width := 6 } py"aa bb cc" py"aa bb \n  cc  " (by decide)

-- C26
example := C26_partial asciiUni { width := 6 } py"aa bb cc" py" aa bb\n    cc" rfl rfl (by decide) (by decide) (blank_all (by decide))
  (blank_all (by decide)) (by decide) (.inl (by decide))

-- C62
example := C62 asciiUni { width := 20, fixSentence := true } py"It is. It was" [py"It is.  It was"] rfl rfl (plainWs_all (by decide))
  (blank_all (by decide)) (blank_all (by decide)) (by decide)

-- C62
example := C62_limit

theorem prose_red : Prose asciiUni [py"\x1b[31mab\x1b[0m", py" ", py"cd"] := by
  refine .wordGap ⟨⟨py"ab", (C23_strip _ _ _).mp (by decide), fun h => ?_, by decide⟩, by decide⟩ ⟨by decide, by decide⟩
    (.gapWord ⟨by decide, by decide⟩ ⟨⟨py"cd", (C23_strip _ _ _).mp (by decide), fun h => ?_, by decide⟩, by decide⟩
      (.word ⟨⟨py"cd", (C23_strip _ _ _).mp (by decide), fun h => ?_, by decide⟩, by decide⟩))
  · exact absurd (h 'a' (by decide)) (by decide)
  · exact absurd (h 'c' (by decide)) (by decide)
  · exact absurd (h 'c' (by decide)) (by decide)

-- C64
example := C64_partial asciiUni { width := 3 } _ prose_red rfl (by decide) (by decide) (by decide) (by decide) (by intro h; cases h)
  (by intro c hc
      have e : wrapInput asciiUni { width := 3 } ([py"\x1b[31mab\x1b[0m", py" ", py"cd"] : List Str).flatten =
        [py"\x1b[31mab\x1b[0m", py" ", py"cd"] := by decide
      rw [e] at hc
      revert c
      decide) py"ab cd" ((C23_strip _ _ _).mp (by decide))

/-! ## Boxes -/

-- C13
example := C13 c13Outer c13Inner

-- C13
example := C13_widths c13Outer c13Inner

-- C13
example := C13_own c13Outer c13Inner

theorem c13_nonneg : ∀ a ∈ c13Outer :: c13Inner, a.NonNeg := by
  intro a ha
  simp only [c13Outer, c13Inner, List.mem_cons, List.not_mem_nil, or_false] at ha
  rcases ha with rfl | rfl | rfl <;> simp [BoxArgs.NonNeg, Sides.NonNeg, templateCols]

-- C14
example := C14_order c13Outer c13Inner c13_nonneg

/-- The box of a framed block on a page of ten columns. -/
def framedBox : Box := match blockBox false (framedBlock [0, 1, 0, 1] [1, 1, 0, 1]) (Box.new 10 {} {} {} none none) with
  | .ok b => b
  | .error _ => Box.new 10 {} {} {} none none

theorem framedBox_eq : blockBox false (framedBlock [0, 1, 0, 1] [1, 1, 0, 1]) (Box.new 10 {} {} {} none none) = .ok framedBox := rfl

-- C15
example := C15_rows false (framedBlock [0, 1, 0, 1] [1, 1, 0, 1]) (Box.new 10 {} {} {} none none) framedBox py"ab\nc" py"-" py"|" py"-" py"|"
  0 1 0 1 1 1 0 1 framedBox_eq rfl rfl rfl (by decide) (by decide) (by decide) (by decide) (by decide) (by decide)

-- C15
example := C15_partial false (framedBlock [0, 1, 0, 1] [1, 1, 0, 1]) (Box.new 10 {} {} {} none none) framedBox py"ab\nc" py"-" py"|" py"-" py"|"
  0 1 0 1 1 1 0 1 framedBox_eq rfl rfl rfl (by decide) (by decide) (by decide) (by decide) (by decide) (.inr (by decide)) (by decide)

-- C16
example := C16 framedBox py"ab\nc"

-- C16
example := C16_lines py"  " py"a\r\nb\nc"

/-- A framed block as the renderers build it. -/
def framedInst : Inst := match construct .block ⟨some py"div", none, [], none⟩ ⟨some (framedBlock [0, 1, 0, 1] [1, 1, 0, 1]), none, none⟩
    (Box.new 10 {} {} {} none none) with
  | .ok i => i
  | .error _ => ⟨.block, [], none, ⟨none, none, [], none⟩, ⟨none, none, none⟩⟩

-- C16
example := C16_block asciiUni framedInst false (Box.new 10 {} {} {} none none) (framedInst.box.getD framedBox) 0 1 0 1 py"ab\nc"
  py" --------\n |      |\n | ab   |\n | c    |\n --------" rfl rfl (by decide)

end Verif
