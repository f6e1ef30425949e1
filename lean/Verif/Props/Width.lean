import Verif.Props.PageFit
import Verif.Props.Source

/-!
# C73: the width argument
-/

namespace Verif

open Spec

/-- The same options with another width. -/
def Cfg.withWidth (c : Cfg) (w : Int) : Cfg := { c with width := w }

theorem assign_withWidth (c : Cfg) (w : Int) (d : Dom) : ∀ (f : Nat) (is : List Nat) (t : List (Nat × Assigned)),
    assignRenderers (c.withWidth w) d f is t = assignRenderers c d f is t
  | f, [], t => by cases f <;> rfl
  | 0, i :: is, t => rfl
  | f + 1, i :: is, t => by
    have : (fun t i => do
        let t ← assignOne (c.withWidth w) d t i
        assignRenderers (c.withWidth w) d f (d.childrenOf (.node i)) t) = (fun t i => do
        let t ← assignOne c d t i
        assignRenderers c d f (d.childrenOf (.node i)) t : List (Nat × Assigned) → Nat → Py (List (Nat × Assigned))) := by
      funext t i
      have h1 : assignOne (c.withWidth w) d t i = assignOne c d t i := rfl
      rw [h1]
      congr 1
      funext t'
      exact assign_withWidth c w d f _ t'
    simp only [assignRenderers]
    rw [this]

theorem close_withWidth (u : Uni) (c : Cfg) (w : Int) (s : PState) : close u (c.withWidth w) s = close u c s := by
  unfold close
  simp only [assign_withWidth]
  rfl

/-- The constructor's argument `width` changes nothing. -/
theorem C73_ignored (u : Uni) (c : Cfg) (w : Int) (pieces : List Str) :
    renderHtml u (c.withWidth w) pieces = renderHtml u c pieces := by
  have h1 : feedHtml u (c.withWidth w) = feedHtml u c := rfl
  have h2 : closeHtml u (c.withWidth w) = closeHtml u c := by
    funext s
    unfold closeHtml
    simp only [close_withWidth]
    rfl
  unfold renderHtml
  rw [h1, h2]
  rfl

/-- A paragraph of 25 columns on a page that is to have 20. -/
theorem C73_fails : renderHtml asciiUni { width := 20 } [py"<p>abcdefg hijklmn opqrstu v</p>"] = .ok py"\nabcdefg hijklmn opqrstu v\n" := by
  decide +kernel

/-- Pages have the width asked for when it is the default 67, or is given with a box. Missing: every other use of `width`. -/
theorem C73_partial (u : Uni) (c : Cfg) (es : List Event) (s : PState) (h : Rendered u c es s) (hr : c.renderers = [])
    (hw : (c.box = none ∧ c.width = 67) ∨ (c.box = some (Box.new c.width {} {} {} none none) ∧ 0 ≤ c.width))
    (hdef : ∀ j tag, HasTag s.dom j tag → Unstyled tag → c.defaultRenderer = .cls .renderer)
    (hi : InPlace c es) (hs : Spaced s.dom s.dom.roots) (hf : ∀ j ∈ s.dom.roots, ¬ BlankText s.dom j → Spec.Fits u s.dom c.width j)
    (ls : List Str) (hl : Lines s.parsed ls) : ∀ l ∈ ls, VisibleLe u (rstrip l) c.width := by
  have hb : c.pageBox = Box.new c.width {} {} {} none none ∧ 0 ≤ c.width := by
    rcases hw with ⟨h1, h2⟩ | ⟨h1, h2⟩
    · rw [Cfg.pageBox, h1, h2]; exact ⟨rfl, by decide⟩
    · rw [Cfg.pageBox, h1]; exact ⟨rfl, h2⟩
  have := C55_partial u c es s h hr hdef c.width {} {} {} none hb.1 (by decide) (by decide) (by decide) (by simpa using hb.2) hi hs
    (by simpa using hf) ls hl
  simpa using this

/-- The same for links anywhere and for gophermaps, with the rows of the blocks and of the list of links that fit in the page. -/
theorem C73_page (u : Uni) (c : Cfg) (es : List Event) (s : PState) (h : Rendered u c es s) (hr : c.renderers = [])
    (hw : (c.box = none ∧ c.width = 67) ∨ (c.box = some (Box.new c.width {} {} {} none none) ∧ 0 ≤ c.width))
    (hdef : ∀ j tag, HasTag s.dom j tag → Unstyled tag → c.defaultRenderer = .cls .renderer) (limit : Nat) (hlim : LimitIs c limit)
    (hf : PageFits u c es s.dom noOwnStyle limit c.width {}) (ls : List Str) (hl : Lines s.parsed ls) :
    ∀ l ∈ ls, VisibleLe u (rstrip l) c.width := by
  have hb : c.pageBox = Box.new c.width {} {} {} none none ∧ 0 ≤ c.width := by
    rcases hw with ⟨h1, h2⟩ | ⟨h1, h2⟩
    · rw [Cfg.pageBox, h1, h2]; exact ⟨rfl, by decide⟩
    · rw [Cfg.pageBox, h1]; exact ⟨rfl, h2⟩
  have := C55_page u c es s h hr hdef limit hlim c.width {} {} {} none hb.1 (by decide) (by decide) (by decide) (by simpa using hb.2) hf ls hl
  simpa using this

set_option maxRecDepth 20000 in
example : ∃ s, Rendered asciiUni { width := 10, box := some (Box.new 10 {} {} {} none none) } [.start py"p" [], .data py"abcdefg hijk"] s ∧
    s.parsed = py"\nabcdefg\nhijk\n" := ⟨_, ⟨_, _, rfl, rfl, rfl⟩, by decide⟩

/-- Twelve columns, and the links after the blocks. -/
def c73After : Cfg := { c55After with width := 12 }

example : (c73After.box = none ∧ c73After.width = 67) ∨
    (c73After.box = some (Box.new c73After.width {} {} {} none none) ∧ 0 ≤ c73After.width) := .inr ⟨rfl, by decide⟩

set_option maxRecDepth 20000 in
example : ∃ s, Rendered asciiUni c73After c55Term s ∧ PageFits asciiUni c73After c55Term s.dom noOwnStyle 10 12 {} ∧
    s.parsed = py"[ab][1]\n\n[1] ab: x\ncd ef gh ij\nkl\n" := by
  refine ⟨_, ⟨_, _, rfl, rfl, rfl⟩, ⟨?_, ?_, [], .nil, [], rfl, by simp⟩, by decide +kernel⟩
  · refine spaced_pair (i := 0) (j := 3) (t := py"p") rfl (by decide) ?_
    rw [childOf_mem]
    decide +kernel
  · intro j hj _
    have : j ∈ [0, 3] := hj
    simp only [List.mem_cons, List.not_mem_nil, or_false] at this
    rcases this with rfl | rfl
    · refine .term (x := py"[ab][1]\n            \n[1] ab: x   ") ((hasTag_iff _ _ _).2 rfl) (unruled_nil rfl _ _) ?_
        (rowsFit_of [py"[ab][1]", py"            ", py"[1] ab: x   "] (by decide +kernel))
      refine ⟨_, py"[ab][1]", py"            \n[1] ab: x   ", rfl, ?_, ?_, by decide +kernel⟩
      · exact .elem (tag := py"a") (x := py"[ab][1]") rfl rfl (.text rfl rfl .nil) .nil (.inl ⟨unruled_nil rfl _ _, .reference (m := 0) (by decide +kernel) rfl⟩) .nil
      · exact .entry (i := 1) (is := []) (m := 0) (y := py"ab") (x := py"            \n[1] ab: x   ") rfl rfl rfl (.text (t := py"ab") rfl rfl .nil)
          (.link (by decide +kernel)) .nil
    · refine .paragraph ((hasTag_iff _ _ _).2 rfl) (unruled_nil rfl _ _) ?_
      rw [← skip_iff rfl]
      decide +kernel

end Verif
