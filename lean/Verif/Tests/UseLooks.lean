import Verif.Tests.UseTree
import Verif.Props.Looks
import Verif.Props.LooksFrame
import Verif.Props.LooksText
import Verif.Tests.UseText

/-!
# The theorems about classes and settings, used on examples
-/

namespace Verif

open Spec

/-- The renderer that is made. -/
def madeOf (cls : RClass) (t : TagInfo) (ctx : Ctx) (box : Box) : Inst := match construct cls t ctx box with
  | .ok i => i
  | .error _ => ⟨.block, [], none, ⟨none, none, [], none⟩, ⟨none, none, none⟩⟩

def tenCols : Box := Box.new 10 {} {} {} none none

def loudEm : Inst := madeOf .em ⟨some py"em", none, [], none⟩ ⟨some [(py"capitalized", .bool true)], none, none⟩ tenCols

-- C11
example := C11_builtin .em rfl ⟨some py"em", none, [], none⟩ ⟨some [(py"capitalized", .bool true)], none, none⟩ tenCols loudEm py"template" rfl
  (by intro l hl; cases hl; decide) (by simp [Computed, RClass.behaviour])

-- C11
example := C11_rules .em ⟨some py"em", none, [], none⟩ ⟨some [(py"capitalized", .bool true)], none, none⟩ tenCols loudEm py"capitalized" _ _ rfl rfl
  (by decide) rfl (by simp [RClass.behaviour])

-- C76
example : loudEm.render asciiUni py"ab" = .ok py"_AB_" :=
  C76_inline asciiUni .em ⟨some py"em", none, [], none⟩ ⟨some [(py"capitalized", .bool true)], none, none⟩ tenCols loudEm py"_" py"_" py"ab" true
    (by simp [RClass.behaviour]) rfl rfl rfl

-- C45
example : (madeOf .em ⟨some py"em", none, [], none⟩ ⟨some [], none, none⟩ tenCols).render asciiUni py"ab" = .ok py"_ab_" :=
  C45_template asciiUni .em ⟨some py"em", none, [], none⟩ ⟨some [], none, none⟩ tenCols _ py"_" py"_" py"ab" (by simp [RClass.behaviour]) rfl rfl rfl

-- C76
example : (madeOf .code ⟨some py"code", some py"p", [], none⟩ ⟨some [], none, none⟩ tenCols).render asciiUni py"ab" = .ok py"`ab`" :=
  C76_code asciiUni .code ⟨some py"code", some py"p", [], none⟩ ⟨some [], none, none⟩ tenCols _ py"`" py"`" py"```\n" py"\n```\n" py"ab"
    rfl rfl rfl rfl

-- C76
example : (madeOf .brk ⟨some py"br", some py"p", [], none⟩ ⟨some [], none, none⟩ tenCols).render asciiUni [] = .ok py"\n" :=
  C76_break asciiUni .brk ⟨some py"br", some py"p", [], none⟩ ⟨some [], none, none⟩ tenCols _ [] [] [] rfl rfl rfl rfl

-- C48
example := C48_bullet asciiUni .listItem ⟨some py"li", some py"ul", [], none⟩ ⟨some [], none, none⟩ tenCols _ py"* " (by simp [RClass.behaviour])
  (show construct .listItem ⟨some py"li", some py"ul", [], none⟩ ⟨some [], none, none⟩ tenCols = .ok
    (madeOf .listItem ⟨some py"li", some py"ul", [], none⟩ ⟨some [], none, none⟩ tenCols) from rfl)
  (by constructor
      all_goals first | rfl | (intro k hk
                               revert k
                               decide)) (by decide) (by decide)

-- C49
example := C49_subclass asciiUni 10 5 ⟨some py"li", some py"ol", [], some 2⟩ 2 rfl tenCols py"20. " (by decide)

def centredHead : Inst := madeOf .header ⟨some py"h1", none, [], none⟩
  ⟨some [(py"centered", .bool true), (py"underlined", .bool true), (py"underline_char", .str py"=")], none, none⟩ tenCols

-- C75
example := C75_partial asciiUni .header ⟨some py"h1", none, [], none⟩
  ⟨some [(py"centered", .bool true), (py"underlined", .bool true), (py"underline_char", .str py"=")], none, none⟩ tenCols centredHead
  { centred := true, underline := some '=' } py"ab" (by simp [RClass.behaviour]) rfl
  ⟨rfl, rfl, rfl, rfl, rfl, rfl, by intro c hc; cases hc; rfl, rfl⟩ rfl

def useLink (format link image : Str) : LinkCtx := ⟨format, link, image, 3, py"h.org", 70⟩

def useTarget : Target := ⟨some py"x.txt", some py"Title", ⟨py"0", py"/x.txt", some py"h.org", some 70⟩⟩

/-- The template `[{content}][{link_reference}]`. -/
def refSlots : List Spec.Slot := [.lit '[', .key py"content", .lit ']', .lit '[', .key py"link_reference", .lit ']']

theorem refSlots_names : Names [py"content", py"link_reference"] refSlots := by
  intro x hx
  simp only [refSlots, List.mem_cons, List.not_mem_nil, or_false] at hx
  rcases hx with rfl | rfl | rfl | rfl | rfl | rfl <;> simp

-- C76
example : (madeOf .link ⟨some py"a", none, [], none⟩ ⟨some [], some (useLink py"text" py"footer" py"inline"), some useTarget⟩ tenCols).render
    asciiUni py"t" = .ok py"[t][3]" :=
  (C76_link asciiUni .link ⟨some py"a", none, [], none⟩ ⟨some [], some (useLink py"text" py"footer" py"inline"), some useTarget⟩ tenCols _ _ [] [] py"t"
    false rfl rfl rfl rfl rfl).1 (by decide) refSlots [] ⟨_, rfl, rfl⟩ refSlots_names

/-- The template `![{title}]({href})`. -/
def imageSlots : List Spec.Slot := [.lit '!', .lit '[', .key py"title", .lit ']', .lit '(', .key py"href", .lit ')']

theorem imageSlots_names : Names [py"href", py"title"] imageSlots := by
  intro x hx
  simp only [imageSlots, List.mem_cons, List.not_mem_nil, or_false] at hx
  rcases hx with rfl | rfl | rfl | rfl | rfl | rfl | rfl <;> simp

-- C76
example : (madeOf .image ⟨some py"img", none, [], none⟩ ⟨some [], some (useLink py"text" py"footer" py"inline"), some useTarget⟩ tenCols).render
    asciiUni [] = .ok py"![Title](x.txt)" :=
  (C76_image asciiUni .image ⟨some py"img", none, [], none⟩ ⟨some [], some (useLink py"text" py"footer" py"inline"), some useTarget⟩ tenCols _ _ []
    rfl rfl rfl).2 rfl useTarget rfl imageSlots [] ⟨_, rfl, rfl⟩ imageSlots_names

-- C77
example : innerRender asciiUni (madeOf .pre ⟨some py"pre", none, [], none⟩ ⟨some [(py"indent", .int 2)], none, none⟩ tenCols) tenCols py"a\nb" =
    .ok py"  a\n  b" :=
  C77_pre asciiUni .pre ⟨some py"pre", none, [], none⟩ ⟨some [(py"indent", .int 2)], none, none⟩ tenCols tenCols _ [] [] py"a\nb" 2 [py"a", py"b"]
    rfl rfl rfl rfl ((lines_iff _ _).mpr (by decide))

-- C77
example : innerRender asciiUni (madeOf .blockQuote ⟨some py"blockquote", none, [], none⟩ ⟨some [], none, none⟩ tenCols) tenCols py"a\nb" =
    .ok py"> a\n> b" :=
  C77_quote asciiUni .blockQuote ⟨some py"blockquote", none, [], none⟩ ⟨some [], none, none⟩ tenCols tenCols _ py"> " [] py"a\nb" [py"a", py"b"]
    rfl rfl rfl ((lines_iff _ _).mpr (by decide))

-- C78
example := C78_skip asciiUni .paragraph ⟨some py"p", none, [some py"code"], none⟩ ⟨some [], none, none⟩ tenCols tenCols
  (madeOf .paragraph ⟨some py"p", none, [some py"code"], none⟩ ⟨some [], none, none⟩ tenCols) py"code" py"`x`" rfl rfl rfl rfl (by decide)

-- C78
example := C78_unknown asciiUni .listItem ⟨some py"li", none, [], none⟩ ⟨some [(py"justification", .str py"both")], none, none⟩ tenCols tenCols
  (madeOf .listItem ⟨some py"li", none, [], none⟩ ⟨some [(py"justification", .str py"both")], none, none⟩ tenCols) py"both" py"x" rfl rfl (by decide)

def c78Look : TextLook := { before := py"| ", after := py" |", first := 2, alignment := .right, capitals := true }

def twelveCols : Box := Box.new 12 {} {} {} none none

def c78Par : Inst := madeOf .paragraph ⟨some py"p", none, [none], none⟩ ⟨some c78Settings, none, none⟩ twelveCols

theorem c78Par_look : c78Look.In c78Par.settings :=
  ⟨rfl, rfl, rfl, rfl, rfl, .inl rfl, .inl rfl, .inr ⟨rfl, rfl⟩, .inr ⟨rfl, rfl⟩, .inr ⟨rfl, rfl⟩, .inr ⟨rfl, rfl⟩, .inr ⟨rfl, rfl⟩, .inr ⟨rfl, rfl⟩⟩

-- C78
example := C78_partial asciiUni .paragraph ⟨some py"p", none, [none], none⟩ ⟨some c78Settings, none, none⟩ twelveCols c78Par c78Look
  { margin := ⟨1, 0, 1, 0⟩ } true rfl rfl c78Par_look ⟨rfl, rfl, rfl⟩ rfl
  (by rintro _ ⟨tag, h, _⟩; cases h) 8 (by decide) ⟨by decide, by decide, by decide⟩ py"aa bb cc dd" [py"AA BB CC DD"] (by decide) (by decide) (by decide)
  (by intro l _ h; cases h)

-- C78
example := C78_sentences asciiUni { } 20 py"It is. It was" [py"It is.  It was"] rfl rfl (plainWs_all (by decide))
  ⟨[py"It is.  It was"], by decide, rfl, by
    intro k l l' h h'
    rw [h] at h'
    cases h'
    rfl⟩

def arrowItem : Inst := madeOf .listItem ⟨some py"li", none, [none], none⟩ ⟨some [(py"line_template", .str py"-> {}")], none, none⟩ tenCols

theorem arrowItem_look : TextLook.In { before := py"-> " } arrowItem.settings :=
  ⟨rfl, rfl, rfl, rfl, rfl, .inl rfl, .inl rfl, .inr ⟨rfl, rfl⟩, .inr ⟨rfl, rfl⟩, .inr ⟨rfl, rfl⟩, .inr ⟨rfl, rfl⟩, .inr ⟨rfl, rfl⟩, .inr ⟨rfl, rfl⟩⟩

-- C79
example := C79_lines asciiUni .listItem ⟨some py"li", none, [none], none⟩ ⟨some [(py"line_template", .str py"-> {}")], none, none⟩ tenCols arrowItem
  { before := py"-> " } { margin := ⟨1, 0, 0, 0⟩ } (by simp [RClass.behaviour]) rfl arrowItem_look ⟨rfl, rfl, rfl⟩ 7 (by decide) ⟨by decide, by decide, by decide⟩
  py"aa bb cc" (.inl rfl) (by intro h; cases h)

-- C79
example := C79_partial asciiUni .listItem ⟨some py"li", none, [none], none⟩ ⟨some [(py"line_template", .str py"-> {}")], none, none⟩ tenCols arrowItem
  { before := py"-> " } { margin := ⟨1, 0, 0, 0⟩ } (by simp [RClass.behaviour]) rfl arrowItem_look ⟨rfl, rfl, rfl⟩ rfl (by decide) 7 (by decide)
  ⟨by decide, by decide, by decide⟩ py"aa bb cc" (.inl rfl) (by intro h; cases h)

def framedDoc : List Event := pageEvents py"p" py"aa bb cc"

def framedCfg : Cfg := pageCfg 14 py"p" .paragraph c80Settings

def framedState : PState := finalState asciiUni framedCfg framedDoc

theorem framedRendered : Rendered asciiUni framedCfg framedDoc framedState := rendered_final rfl (by decide +kernel) (by decide +kernel)

theorem framedTree : treeOf framedState.dom = [(some py"p", [1]), (none, [])] := by decide +kernel

def framedPar : Inst := madeOf .paragraph (tagInfo framedState.dom 0) ⟨(assignedTo framedState.assigned 0).settings, none, none⟩ framedCfg.pageBox

def c80Frame : Frame :=
  { top := py"-", right := py"|", bottom := py"=", left := py"|", margin := ⟨1, 1, 1, 2⟩, padding := ⟨1, 1, 0, 1⟩ }

theorem framedDrawn : DrawnBy framedState framedCfg.pageBox 0 framedPar :=
  ⟨.paragraph, _, by with_unfolding_all rfl, rfl, by with_unfolding_all rfl⟩

theorem framedTag : HasTag framedState.dom 0 py"p" := hasTag_at framedTree rfl

theorem c80Frame_line : OneLine (c80Frame.top ++ c80Frame.right ++ c80Frame.bottom ++ c80Frame.left) := by
  intro c hc
  have : c ∈ py"-|=|" := hc
  revert c
  decide

-- C75
example := textOf_drawn framedRendered framedTag (by decide) (by decide) 5 framedDrawn

-- C80
example := C80_partial asciiUni framedCfg framedDoc framedState framedRendered 0 py"p" framedTag (by decide) (by decide) 5
  framedCfg.pageBox framedPar framedDrawn (by with_unfolding_all rfl) (by
    have e : framedPar.cls = .paragraph := by with_unfolding_all rfl
    rw [e]
    simp) c80Frame
  ⟨by with_unfolding_all rfl, by with_unfolding_all rfl, by with_unfolding_all rfl⟩ (by decide) c80Frame_line (by decide) (by decide)

-- C80
example := C80_rectangle c80Frame twelveCols [py"aa bb", py"cc"] (by decide) (by decide) (by decide) (.inr ⟨by decide, by decide⟩)

-- C80
example := C80_paragraph_partial asciiUni framedCfg framedDoc framedState framedRendered 0 py"p" framedTag (by decide) (by decide) 5
  framedCfg.pageBox framedPar framedDrawn (by with_unfolding_all rfl) {}
  ⟨by with_unfolding_all rfl, by with_unfolding_all rfl, by with_unfolding_all rfl, by with_unfolding_all rfl, by with_unfolding_all rfl,
    .inl (by with_unfolding_all rfl), .inl (by with_unfolding_all rfl), .inr ⟨by with_unfolding_all rfl, rfl⟩, .inr ⟨by with_unfolding_all rfl, rfl⟩,
    .inr ⟨by with_unfolding_all rfl, rfl⟩, .inr ⟨by with_unfolding_all rfl, rfl⟩, .inr ⟨by with_unfolding_all rfl, rfl⟩,
    .inr ⟨by with_unfolding_all rfl, rfl⟩⟩ c80Frame
  ⟨by with_unfolding_all rfl, by with_unfolding_all rfl, by with_unfolding_all rfl⟩ (by decide) c80Frame_line (by decide) (by decide)
  (by with_unfolding_all rfl) (by simp [OneLine]) 7 (by decide) ⟨by decide, by decide, by decide⟩

end Verif
