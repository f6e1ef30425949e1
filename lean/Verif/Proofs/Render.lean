import Verif.Proofs.Format
import Verif.Props.Style
import Verif.Props.Settings
import Verif.Props.Box
import Verif.Spec.Render

/-!
# Rendering one element
-/

namespace Verif

open Spec

/-- Construct a renderer and render contents in its box. -/
def renderWith (u : Uni) (c : RClass) (t : TagInfo) (ctx : Ctx) (box : Box) (content : Box → Py Str) : Py Str :=
  (construct c t ctx box).bind (fun inst => (content (inst.box.getD box)).bind (fun x => inst.render u x))

theorem renderTag_with (u : Uni) (s : PState) (f : Nat) (i : Nat) (n : Node) (box : Box) (a : Assigned) (c : RClass)
    (hn : s.dom.nodes[i]? = some n) (hc : a.renderer = some c) :
    renderTag u s.dom a i n box (renderNode u s.dom s.assigned f false) (renderNode u s.dom s.assigned f true) =
      renderWith u c (tagInfo s.dom i) ⟨a.settings, n.link.map LinkInfo.ctx, none⟩ box (fun b => contents u s f b i) := by
  simp only [renderTag, renderWith, contents, callRenderer, hc, hn, bind, Except.bind, pure, Except.pure]
  cases construct c (tagInfo s.dom i) ⟨a.settings, n.link.map LinkInfo.ctx, none⟩ box with
  | error e => rfl
  | ok inst =>
    simp only
    cases renderAll (renderNode u s.dom s.assigned f false (inst.box.getD box)) n.children with
    | error e => rfl
    | ok b =>
      simp only
      cases renderAll (renderNode u s.dom s.assigned f true (inst.box.getD box)) n.pending with
      | error e => rfl
      | ok l => rfl

/-- An element that is not a link. -/
theorem textOf_elem {u : Uni} {s : PState} {f : Nat} {i : Nat} {n : Node} {box : Box} {c : RClass}
    (hn : s.dom.nodes[i]? = some n) (hd : n.data = none) (hl : n.link = none) (hc : (assignedTo s.assigned i).renderer = some c) :
    textOf u s (f + 1) box i =
      renderWith u c (tagInfo s.dom i) ⟨(assignedTo s.assigned i).settings, none, none⟩ box (fun b => contents u s f b i) := by
  simp only [textOf, renderNode, hn, hd, hl, Bool.false_eq_true, if_false]
  rw [renderTag_with u s f i n box _ c hn hc, hl]
  rfl

/-- What is known about a rendered document. -/
theorem rendered_inv {u : Uni} {c : Cfg} {es : List Event} {s : PState} (h : Rendered u c es s) :
    ∃ s0 s1, initParser c = .ok s0 ∧ feed u c s0 es = .ok s1 ∧ close u c s1 = .ok s ∧ s.dom = s1.dom ∧
      SelInv s.dom (srcAttrs es) ∧ LInv c s1 ∧ TInv s.dom s1.stack := by
  obtain ⟨s0, s1, h0, h1, h2⟩ := h
  have hp : popStack s1.dom s1.stack.reverse = s1.dom := popStack_eq (reach_inv h0 h1) (by simp)
  obtain ⟨t, b, f, -, -, -, e⟩ := close_ok hp h2
  have hd : s.dom = s1.dom := by rw [e]
  refine ⟨s0, s1, h0, h1, h2, hd, ?_, reach_linv h0 h1, ?_⟩
  · rw [hd]; exact reach_selInv h0 h1
  · rw [hd]; exact reach_inv h0 h1

theorem rendered_elem {u : Uni} {c : Cfg} {es : List Event} {s : PState} (h : Rendered u c es s) {i : Nat} {tag : Str}
    (ht : HasTag s.dom i tag) (h1 : tag ≠ py"a") (h2 : tag ≠ py"img") :
    ∃ n, s.dom.nodes[i]? = some n ∧ n.tag = some tag ∧ n.data = none ∧ n.link = none := by
  obtain ⟨s0, s1, -, -, -, hd, hinv, hl, -⟩ := rendered_inv h
  obtain ⟨n, hn, htag⟩ := ht
  obtain ⟨m, m1, m2⟩ := isElem_node hinv ⟨tag, n, hn, htag⟩
  rw [hn] at m1; cases m1
  refine ⟨n, hn, htag, m2, ?_⟩
  have := hl.link i n (by rw [← hd]; exact hn)
  cases hlk : n.link with
  | none => rfl
  | some l =>
    have := this.1 (by rw [hlk]; rfl)
    rw [htag] at this
    rcases this with e | e
    · cases e; exact absurd rfl h1
    · cases e; exact absurd rfl h2

/-- Elements with a plain style. -/
theorem textOf_plain {u : Uni} {c : Cfg} {es : List Event} {s : PState} (h : Rendered u c es s)
    {i : Nat} (hr : Unruled c s.dom i) {tag : Str} {cls : RClass} (ht : HasTag s.dom i tag) (hm : (tag, cls) ∈ plainStyle) (h1 : tag ≠ py"a")
    (h2 : tag ≠ py"img") (f : Nat) (box : Box) :
    textOf u s (f + 1) box i =
      renderWith u cls (tagInfo s.dom i) ⟨some [], none, none⟩ box (fun b => contents u s f b i) := by
  obtain ⟨n, hn, htag, hd, hl⟩ := rendered_elem h ht h1 h2
  obtain ⟨s0, s1, e0, e1, e2, hdom, -, -, -⟩ := rendered_inv h
  rw [hdom] at ht
  obtain ⟨a1, a2⟩ := C61_plain u c s0 s1 s es e0 e1 e2 i (hdom ▸ hr) tag cls ht hm
  rw [textOf_elem hn hd hl a1, a2]

theorem bind_map_py {α β : Type} (x : Py α) (f : α → Py β) (g : α → β) (h : ∀ a, f a = .ok (g a)) : x.bind f = x.map g := by
  cases x with
  | error e => rfl
  | ok a => simp [Except.bind, Except.map, h a]

/-- Renderers without a box, once constructed. -/
theorem renderWith_inline {u : Uni} {c : RClass} {t : TagInfo} {ctx : Ctx} {box : Box} {content : Box → Py Str} {inst : Inst}
    (h : construct c t ctx box = .ok inst) (hb : inst.box = none) (g : Str → Str) (hg : ∀ x, inst.render u x = .ok (g x)) :
    renderWith u c t ctx box content = (content box).map g := by
  simp only [renderWith, h, Except.bind, hb, Option.getD_none]
  cases content box with
  | error e => rfl
  | ok x => simp [Except.map, hg]

theorem inlineRender_of {u : Uni} {s : Dict} {a b : Str} (h1 : DictOf.get s py"capitalized" = some (.bool false))
    (h2 : DictOf.get s py"template" = some (.str (a ++ py"{}" ++ b))) (ha : ∀ c ∈ a, c ≠ '{' ∧ c ≠ '}')
    (hb : ∀ c ∈ b, c ≠ '{' ∧ c ≠ '}') (x : Str) : inlineRender u s x = .ok (a ++ x ++ b) := by
  simp only [inlineRender, getK, getA, h1, h2, bind, Except.bind, asStr, Val.truthy, Bool.false_eq_true, if_false]
  exact fmt1_plain a b x ha hb

/-! ## Blocks -/

theorem outer_margin (box : Box) (h : box.margin.left = 0) (x : Str) :
    outerRender box x = rep '\n' box.margin.top ++ x ++ rep '\n' box.margin.bottom := by
  unfold outerRender
  have : (splitlinesKeep x).map (fun l => rep ' ' box.margin.left ++ l) = splitlinesKeep x := by
    conv => rhs; rw [← List.map_id (splitlinesKeep x)]
    apply List.map_congr_left
    intro l _
    rw [h]; rfl
  rw [this, splitlinesKeep_flatten]

theorem border_none {s : Dict} {box : Box} (h : DictOf.get s py"border" = some (.strs [[], [], [], []]))
    (h1 : box.border = {}) (h2 : box.padding = {}) (x : Str) :
    borderRender s box x = .ok (padLines box.paddedWidth x) := by
  simp only [borderRender, bind, Except.bind, pure, Except.pure, getA, h, asBorder, strAt, List.getElem?_cons_zero,
    List.getElem?_cons_succ, borderLines, h1, h2, padLines]
  simp only [Int.toNat_zero, List.replicate_zero, List.nil_append, List.append_nil, gt_iff_lt, Int.lt_irrefl, if_false,
    Except.ok.injEq]
  congr 1
  apply List.map_congr_left
  intro l _
  simp only [borderRow, h2, padTo, rep, len, Int.toNat_zero, List.replicate_zero, List.nil_append, List.append_nil, Int.zero_add]

theorem paddedWidth_inside (parent : Box) (above below : Int) (template : Option Str) :
    (inside parent above below template).paddedWidth = room parent := by
  simp only [inside, Box.new, Box.paddedWidth, Sides.addTotals, room]
  omega

/-- Blocks without border and padding. -/
theorem blockRender_inside {u : Uni} {i : Inst} {parent : Box} {above below : Int} {template : Option Str}
    (hb : DictOf.get i.settings py"border" = some (.strs [[], [], [], []])) (x : Str) :
    blockRender u i (inside parent above below template) x =
      (innerRender u i (inside parent above below template) x).map (fun y =>
        rep '\n' above ++ padLines (room parent) y ++ rep '\n' below) := by
  simp only [blockRender, bind, Except.bind, pure, Except.pure]
  cases innerRender u i (inside parent above below template) x with
  | error e => rfl
  | ok y =>
    simp only [border_none hb (box := inside parent above below template) rfl rfl, Except.map,
      outer_margin (inside parent above below template) rfl, paddedWidth_inside]
    rfl

/-- Block renderers, once constructed. -/
theorem renderWith_block {u : Uni} {c : RClass} {t : TagInfo} {ctx : Ctx} {parent : Box} {content : Box → Py Str} {inst : Inst}
    {above below : Int} {template : Option Str} (h : construct c t ctx parent = .ok inst)
    (hbox : inst.box = some (inside parent above below template)) (hc : inst.cls ≠ .extractedLink)
    (hb : DictOf.get inst.settings py"border" = some (.strs [[], [], [], []])) :
    renderWith u c t ctx parent content =
      ((content (inside parent above below template)).bind (innerRender u inst (inside parent above below template))).map
        (fun y => rep '\n' above ++ padLines (room parent) y ++ rep '\n' below) := by
  simp only [renderWith, h, Except.bind, hbox, Option.getD_some]
  cases content (inside parent above below template) with
  | error e => rfl
  | ok x =>
    simp only [Inst.render, hbox]
    exact blockRender_inside hb x

end Verif
