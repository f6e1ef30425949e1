import Verif.Tests.UseTree
import Verif.Props.Args
import Verif.Props.Cli
import Verif.Props.CssText
import Verif.Props.Page
import Verif.Props.PageFit
import Verif.Props.Reset
import Verif.Props.Source
import Verif.Props.Width

/-!
# The theorems about pages and the program, used on examples
-/

namespace Verif

open Spec

/-! ## Pages -/

-- C82
example := C82 asciiUni {} useDoc useState useRendered rfl (fun _ _ _ _ => rfl) 10

-- C63
example := C63_css asciiUni {} useDoc useState useRendered monokaiTheme (by simp [bundledThemes]) 6

-- C54
example := C54_default asciiUni {} [.start py"p" [], .data py"a b", .stop py"p"] py"\na b\n" rfl rfl (by decide)

-- C54
example := C54_theme asciiUni { renderers := monokaiTheme } [.start py"p" [], .data py"a b", .stop py"p"] py"\na b\n" (by simp [bundledThemes]) rfl
  (by decide +kernel)

-- C58
example := C58_default asciiUni {} useDoc rfl rfl rfl

/-! ## Source -/

-- C68
example : renderHtml asciiUni {} [docSrc sourceExample] = .ok py"\nFish & chips & ¬itAb—Q&A\n\nif (a<b) {}" :=
  (C68 asciiUni {} sourceExample sourceExample_ok).2.2.trans (by decide +kernel)

-- C69
example := C69_partial asciiUni {} sourceExample sourceExample_ok [(docSrc sourceExample).take 30, (docSrc sourceExample).drop 30] (by simp)

-- C70
example := C70_partial asciiUni [py"<p>a<b"]

-- C70
example : renderHtml asciiUni {} [docSrc sourceExample ++ py"<!-- x"] = renderEvents asciiUni {} (docEvents asciiUni.lower sourceExample) :=
  C70_cut asciiUni {} sourceExample (.comment py" x ") sourceExample_ok
    (show ¬ py"--" <:+: py" x -" by decide) rfl (by intro a b c d h; cases h) py"<!-- x" py" -->" rfl (by decide) (by decide) (by decide) (by decide)

-- C70
example := C70_unclosed asciiUni {} sourceExample sourceExample_ok py"rest of it" (by decide)

/-! ## Selectors and tables -/

-- C72
example := C72_tables {} {} rfl [(py"p", .cls .block), ([], .cls .inline)] [] (by decide) _ [] rfl rfl

/-! ## The width -/

-- C73
example := C73_ignored asciiUni {} 20 [py"<p>abcdefg hijklmn opqrstu v</p>"]

/-! ## The program -/

theorem useDocument : Document (oneFile py"a.html" py"<p>the text</p>") py"a.html" py"<p>the text</p>" :=
  .html (fun h => absurd ((pathSuffix_iff _).mpr h) (by decide)) rfl

theorem useEnds : (cliMain asciiUni (oneFile py"a.html" py"<p>the text</p>") ⟨py"a.html", py"out", true⟩).error = none := by decide +kernel

-- C67
example := C67_partial asciiUni (oneFile py"a.html" py"<p>the text</p>") ⟨py"a.html", py"out", true⟩ _ useDocument _ rfl _ _ rfl

-- C67
example := C67_text asciiUni (oneFile py"a.html" py"<p>the text</p>") ⟨py"a.html", py"out", true⟩ _ useDocument useEnds

-- C67
example := (C67_ends asciiUni (oneFile py"a.html" py"<p>the text</p>") ⟨py"a.html", py"out", true⟩ _ useDocument).1.mp useEnds

-- C82
example := C82_program asciiUni (oneFile py"a.html" py"<p>the text</p>") ⟨py"a.html", py"out", true⟩ _ useDocument useEnds _ rfl

-- C55
example := C55_program asciiUni (oneFile py"a.html" py"<p>the text</p>") ⟨py"a.html", py"out", true⟩ _ useDocument useEnds _ rfl

-- C83
example := C83_program (oneFile py"a.html" py"<p>the text</p>") exampleLine_ok exampleLine_idle rfl

-- C83
example := C83_only (show parseArgs asciiUni exampleLine.src = .ok (.str py"page.md") (.str py"-out") true by decide +kernel)

-- C83
example := C83_help.mp (show parseArgs asciiUni [py"-dhx", py"-d="] = .help by decide +kernel)

end Verif
