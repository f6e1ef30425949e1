import Verif.Props.Fit
import Verif.Props.Footer

/-!
# C55 for pages with links in the footer
-/

namespace Verif

open Spec

theorem nothing_after {u : Uni} {c : Cfg} {es : List Event} {s : PState} (h : Rendered u c es s)
    (hp : c.linkPlacement ≠ py"after_block") (hi : c.imagePlacement ≠ py"after_block") {j : Nat} {n : Node}
    (hn : s.dom.nodes[j]? = some n) : n.pending = [] := by
  obtain ⟨s0, s1, e0, e1, e2, hdom, -, hlinv, -⟩ := rendered_inv h
  rw [hdom] at hn
  rw [hlinv.pending j n hn, List.eq_nil_iff_forall_not_mem]
  intro k hk
  obtain ⟨m, -, m2⟩ := mem_nodesWhere.1 hk
  rw [pendingOf, placed] at m2
  split at m2 <;> simp [hp, hi] at m2

/-- As `C55_partial`, for a page with a list of links at its end, when the lines of this list fit. -/
theorem C55_footer (u : Uni) (c : Cfg) (es : List Event) (s : PState) (h : Rendered u c es s) (hr : c.renderers = [])
    (hdef : ∀ j tag, HasTag s.dom j tag → Unstyled tag → c.defaultRenderer = .cls .renderer)
    (width : Int) (margin padding border : Sides) (template : Option Str)
    (hbox : c.pageBox = Box.new width margin padding border template none)
    (hm : 0 ≤ margin.left) (hp : 0 ≤ padding.left ∧ 0 ≤ padding.right) (hb : 0 ≤ border.left ∧ 0 ≤ border.right)
    (hw : 0 ≤ width - margin.left - margin.right) (hfmt : c.outputFormat ≠ py"gophermap") (limit : Nat) (hlim : LimitIs c limit)
    (hfoot : c.linkPlacement = py"footer")
    (himg : c.imagePlacement ≠ py"after_block")
    (hline : ∀ i ∈ nodesWhere s.dom (placed c py"footer"), ∀ number line, linkNumber s.dom i = some number → FootLine u es s c.pageBox limit i number line →
      VisibleLe u line (width - margin.left - margin.right))
    (hs : Spaced s.dom s.dom.roots)
    (hf : ∀ j ∈ s.dom.roots, ¬ BlankText s.dom j → Spec.Fits u s.dom (width - margin.left - margin.right) j)
    (ls : List Str) (hl : Lines s.parsed ls) : ∀ l ∈ ls, VisibleLe u (rstrip l) (width - margin.right) := by
  have hpend : ∀ (j : Nat) (n : Node), s.dom.nodes[j]? = some n → n.pending = [] := fun j n hn => nothing_after h (by rw [hfoot]; decide) himg hn
  have h' := h
  obtain ⟨s0, s1, e0, e1, e2, hdom, -, hlinv, -⟩ := rendered_inv h
  obtain ⟨t, bodies, foot, q1, q2, q3, q4⟩ := close_reach e0 e1 e2
  have hall : renderAll (textOf u s s.dom.fuel c.pageBox) s.dom.roots = .ok bodies.flatten := by
    rw [renderAll_mapM]
    show Except.map _ (s.dom.roots.mapM (renderNode u s.dom s.assigned s.dom.fuel false c.pageBox)) = _
    rw [show s.assigned = t by rw [q4], hdom, q2]
    rfl
  have hlist : AllFit u (width - margin.left - margin.right) foot.flatten ∧ Quiet foot.flatten := by
    by_cases hne : nodesWhere s1.dom (placed c py"footer") = []
    · have : foot = [] := by
        rw [footerParts, if_neg (by rw [hlinv.footer]; simp [hne])] at q3
        cases q3; rfl
      subst this
      exact ⟨allFit_nil hw, quiet_nil⟩
    · obtain ⟨b, entries, p1, p2, p3, p4, -⟩ := C33_partial u c s0 s1 s es e0 e1 e2 hfoot hne
      obtain ⟨rfl, rfl⟩ : b = bodies ∧ py"\n" :: entries = foot := by
        have : s.parts = bodies ++ foot := by rw [q4]
        rw [p1] at this
        exact List.append_inj this (by rw [p2]; exact (mapM_ok q2).1.symm)
      rw [← hdom] at hne p3 p4
      obtain ⟨lines, g1, g2, g3⟩ := foot_lines (P := fun i line => ∃ number, linkNumber s.dom i = some number ∧ FootLine u es s c.pageBox limit i number line)
        (Q := fun l => padLines (room c.pageBox) ('\n' :: l)) _ entries p3 (by
          intro k i hk
          obtain ⟨e, he, hr⟩ := p4 k i hk
          obtain ⟨n, hn, hpl⟩ := nodesWhere_bound (List.mem_of_getElem? hk)
          obtain ⟨number, line, k1, k2, k3⟩ := foot_entry (e := e) h' hfmt hlim hn hpl (fuel := s.dom.nodes.length) (box := c.pageBox) hr
          exact ⟨e, he, line, ⟨number, k1, k2⟩, k3⟩)
      have each : ∀ l ∈ lines, VisibleLe u l (width - margin.left - margin.right) := by
        intro l hl
        obtain ⟨k, hk⟩ := List.getElem?_of_mem hl
        have hlt := (List.getElem?_eq_some_iff.1 hk).1
        rw [g2] at hlt
        obtain ⟨l', k1, number, k2, k3⟩ := g3 k _ (List.getElem?_eq_getElem hlt)
        rw [hk] at k1; cases k1
        exact hline _ (List.getElem_mem hlt) _ _ k2 k3
      have key : AllFit u (width - margin.left - margin.right) (lines.map (fun l => padLines (room c.pageBox) ('\n' :: l))).flatten ∧
          Quiet (lines.map (fun l => padLines (room c.pageBox) ('\n' :: l))).flatten := by
        clear g1 g2 g3
        induction lines with
        | nil => exact ⟨allFit_nil hw, quiet_nil⟩
        | cons l ls ih =>
          obtain ⟨i1, i2⟩ := ih (fun x hx => each x (by simp [hx]))
          rw [List.map_cons, List.flatten_cons]
          exact ⟨allFit_append hw (allFit_padLines hw (allFit_newlines hw 1 (lineFit_all hw (visible_fit (each l (by simp))))).1) i1 i2,
            quiet_append (quiet_pad (quiet_nl _)) i2⟩
      rw [← g1] at key
      exact ⟨(allFit_newlines hw 1 key.1).1, quiet_nl _⟩
  exact page_fit h' hr hdef hbox hm hp hb hw hpend hs hf hall hlist.1 hlist.2 (parts := bodies ++ foot) (by simp) (by rw [q4]) hl

/-- A page of 12 columns with the links in the footer. -/
def c55Foot : Cfg := { box := some (Box.new 12 {} {} {} none none) }

/-- `<h1><a href="x">ab</a></h1><p>cd ef gh ij</p>` -/
def c55Linked : List Event :=
  [.start py"h1" [], .start py"a" [(py"href", some py"x")], .data py"ab", .stop py"a", .stop py"h1",
   .start py"p" [], .data py"cd ef gh ij", .stop py"p"]

set_option maxRecDepth 20000 in
example : ∃ s, Rendered asciiUni c55Foot c55Linked s ∧ LimitIs c55Foot 10 ∧
    (∀ i ∈ nodesWhere s.dom (placed c55Foot py"footer"), ∀ number line, linkNumber s.dom i = some number →
      FootLine asciiUni c55Linked s c55Foot.pageBox 10 i number line → VisibleLe asciiUni line 12) ∧
    Spaced s.dom s.dom.roots ∧ (∀ j ∈ s.dom.roots, ¬ BlankText s.dom j → Spec.Fits asciiUni s.dom 12 j) ∧
    s.parsed = py"\n# [ab][1] #\n\ncd ef gh ij\n\n\n[1] ab: x" := by
  refine ⟨_, ⟨_, _, rfl, rfl, rfl⟩, .inl ⟨rfl, rfl⟩, ?_, ?_, ?_, by decide⟩
  · intro i hi number line hk hl
    have : i ∈ [1] := hi
    rw [List.mem_singleton.1 this] at hk hl
    have hk : some 1 = some number := hk
    cases hk
    rcases hl with ⟨-, text, fuel, ht, rfl⟩ | ⟨ht, -⟩
    · cases fuel with
      | zero => cases ht
      | succ fuel =>
        have ht : Except.ok py"ab" = Except.ok text := ht
        cases ht
        exact (visibleLe_iff _ _ _).2 (by decide)
    · rw [hasTag_iff] at ht
      have ht : some py"a" = some py"img" := ht
      cases ht
  · intro before j after e hj
    have e : [0, 3] = before ++ j :: after := e
    have hmem : j ∈ [0, 3] := by rw [e]; simp
    simp only [List.mem_cons, List.not_mem_nil, or_false] at hmem
    refine absurd hj ?_
    rcases hmem with rfl | rfl
    · exact not_flush rfl (by decide)
    · rintro ⟨-, ⟨-, hq⟩ | ⟨hq, -⟩ | hq⟩
      · rw [childOf_mem] at hq; clear e hj; revert hq; decide
      · rw [hasTag_iff] at hq
        have hq : some py"p" = some py"li" := hq
        cases hq
      · rw [hasTag_iff] at hq
        have hq : some py"p" = some py"dt" := hq
        cases hq
  · intro j hj _
    have : j ∈ [0, 3] := hj
    simp only [List.mem_cons, List.not_mem_nil, or_false] at this
    rcases this with rfl | rfl
    · refine .header (tag := py"h1") (level := 1) rfl rfl (by decide)
        (.reference rfl rfl rfl ?_ (.text (t := py"ab") rfl rfl .nil) .nil) ?_
      · show py"footer" ≠ py"inline"
        decide
      · exact (visibleLe_iff _ _ _).2 (by decide)
    · refine .paragraph ((hasTag_iff _ _ _).2 (by decide)) ?_
      rw [← skip_iff rfl]
      decide

/-- The lines of the footer are not wrapped: the last line has 14 columns. -/
theorem C55_footer_fails : renderEvents asciiUni c55Foot
    [.start py"a" [(py"href", some py"file.txt")], .data py"a", .stop py"a"] = .ok py"[a][1]\n\n[1] a: file.txt" := by decide

end Verif
