import Verif.Proofs.Render

/-!
# Inline elements: C45, C46, C56
-/

namespace Verif

open Spec

/-! ## C45 -/

/-- In every document rendered with the default rules: the element is its content between the markers. -/
theorem C45 (u : Uni) (c : Cfg) (es : List Event) (s : PState) (h : Rendered u c es s)
    (i : Nat) (hr : Unruled c s.dom i) (tag before after : Str) (ht : HasTag s.dom i tag) (hm : (tag, before, after) ∈ markers) (f : Nat) (box : Box) :
    textOf u s (f + 1) box i = (contents u s f box i).map (fun x => before ++ x ++ after) := by
  simp only [markers, List.mem_cons, List.not_mem_nil, or_false, Prod.mk.injEq] at hm
  rcases hm with ⟨rfl, rfl, rfl⟩ | ⟨rfl, rfl, rfl⟩ | ⟨rfl, rfl, rfl⟩ | ⟨rfl, rfl, rfl⟩ | ⟨rfl, rfl, rfl⟩ | ⟨rfl, rfl, rfl⟩ |
    ⟨rfl, rfl, rfl⟩ | ⟨rfl, rfl, rfl⟩ | ⟨rfl, rfl, rfl⟩ <;>
  · rw [textOf_plain h hr ht (by simp only [plainStyle, List.mem_cons, Prod.mk.injEq, List.cons.injEq]; simp; rfl) (by decide) (by decide)]
    refine renderWith_inline rfl rfl _ (fun x => ?_)
    exact inlineRender_of rfl rfl (by decide) (by decide) x

theorem isBlock_behaviour (c : RClass) : c.isBlock = c.behaviour.isBlock := by
  induction c with
  | sub b s ih => exact ih
  | _ => rfl

/-- Other templates: any class made from the inline renderers, whose template has text around its placeholder. The text
may contain braces if they are doubled. -/
theorem C45_template (u : Uni) (c : RClass) (t : TagInfo) (ctx : Ctx) (box : Box) (inst : Inst) (before after x : Str)
    (hc : c.behaviour ∈ [.inline, .em, .strong, .underline, .strike]) (h : construct c t ctx box = .ok inst)
    (h1 : DictOf.get inst.settings py"template" = some (.str (escape before ++ py"{}" ++ escape after)))
    (h2 : DictOf.get inst.settings py"capitalized" = some (.bool false)) :
    inst.render u x = .ok (before ++ x ++ after) := by
  obtain ⟨-, e1, -, -, e2⟩ := construct_settings h
  have hi : inlineRender u inst.settings x = .ok (before ++ x ++ after) := by
    simp only [inlineRender, getK, getA, h1, h2, bind, Except.bind, asStr, Val.truthy, Bool.false_eq_true, if_false]
    exact fmt1_escape before after x
  rw [isBlock_behaviour] at e2
  simp only [List.mem_cons, List.not_mem_nil, or_false] at hc
  rw [← hi]
  rcases hc with hc | hc | hc | hc | hc <;>
  · rw [hc] at e1 e2
    have hb : inst.box = none := by simpa [RClass.isBlock] using e2
    simp only [Inst.render, hb, e1]

/-- `<p>x <em>a{}b</em></p>` -/
def c45Events : List Event :=
  [.start py"p" [], .data py"x ", .start py"em" [], .data py"a{}b", .stop py"em", .stop py"p"]

example : (match feed asciiUni {} {} c45Events with
    | .ok s => match close asciiUni {} s with
      | .ok s' => decide ((s'.dom.nodes.map Node.tag)[2]? = some (some py"em") ∧
          textOf asciiUni s' 5 (Box.new 67 {} {} {} none none) 2 = .ok py"_a{}b_" ∧
          contents asciiUni s' 4 (Box.new 67 {} {} {} none none) 2 = .ok py"a{}b")
      | _ => false
    | _ => false) = true := by decide

/-! ## C46 -/

/-- The parent a renderer sees. -/
theorem parentTag_iff {d : Dom} {src} (h : SelInv d src) {i : Nat} {n : Node} (hn : d.nodes[i]? = some n) (hd : n.data = none)
    (tag : Str) : (tagInfo d i).parentTag = some tag ↔ ChildOf d tag i := by
  obtain ⟨q, A, C, h1, h2, -⟩ := elem_pos h hn hd
  have hp : n.parent = q := by
    simp only [Dom.parentOf, hn] at h1
    cases hp : n.parent with
    | none => simp [hp] at h1
    | doc => simp [hp] at h1; exact h1
    | node j => simp [hp] at h1; exact h1
  simp only [tagInfo, hn, hp]
  cases h2 with
  | doc hno =>
    simp only [reduceCtorEq, false_iff]
    rintro ⟨j, hj, -⟩
    exact hno j hj
  | node j m hm ht hlt hpo huniq =>
    simp only [hm, Option.bind]
    constructor
    · intro e; exact ⟨j, hpo, m, hm, e⟩
    · rintro ⟨k, hk, m', hm', ht'⟩
      rw [huniq k hk, hm] at hm'
      cases hm'; exact ht'

/-- In every document rendered with the default rules: a `code` element directly inside `pre` is its content; elsewhere
content without a line break is put between backticks, and content with one between fences. -/
theorem C46 (u : Uni) (c : Cfg) (es : List Event) (s : PState) (h : Rendered u c es s)
    (i : Nat) (hr : Unruled c s.dom i) (ht : HasTag s.dom i py"code") (f : Nat) (box : Box) (x : Str) (hx : contents u s f box i = .ok x) :
    (ChildOf s.dom py"pre" i → textOf u s (f + 1) box i = .ok x) ∧
    (¬ ChildOf s.dom py"pre" i → '\n' ∉ x → textOf u s (f + 1) box i = .ok (py"`" ++ x ++ py"`")) ∧
    (¬ ChildOf s.dom py"pre" i → '\n' ∈ x → textOf u s (f + 1) box i = .ok (py"```\n" ++ x ++ py"\n```\n")) := by
  obtain ⟨n, hn, htag, hd, -⟩ := rendered_elem h ht (by decide) (by decide)
  obtain ⟨-, -, -, -, -, -, hinv, -, -⟩ := rendered_inv h
  rw [textOf_plain h hr ht (cls := .code) (by simp only [plainStyle, List.mem_cons, Prod.mk.injEq, List.cons.injEq]; simp)
    (by decide) (by decide)]
  have key : renderWith u .code (tagInfo s.dom i) ⟨some [], none, none⟩ box (fun b => contents u s f b i) =
      codeRender (newSettings .code) (tagInfo s.dom i) x := by
    show (contents u s f box i).bind _ = _
    rw [hx]
    rfl
  rw [key]
  refine ⟨fun hp => ?_, fun hp hl => ?_, fun hp hl => ?_⟩
  · rw [codeRender, if_pos ((parentTag_iff hinv hn hd _).2 hp)]
  · rw [codeRender, if_neg (fun e => hp ((parentTag_iff hinv hn hd _).1 e)), if_neg (by simpa using hl)]
    exact fmt1_plain py"`" py"`" x (by decide) (by decide)
  · rw [codeRender, if_neg (fun e => hp ((parentTag_iff hinv hn hd _).1 e)), if_pos (by simpa using hl)]
    exact fmt1_plain py"```\n" py"\n```\n" x (by decide) (by decide)

/-- If the content cannot be rendered, neither can the element. -/
theorem C46_error (u : Uni) (c : Cfg) (es : List Event) (s : PState) (h : Rendered u c es s)
    (i : Nat) (hr : Unruled c s.dom i) (ht : HasTag s.dom i py"code") (f : Nat) (box : Box) (e : PyErr) (hx : contents u s f box i = .error e) :
    textOf u s (f + 1) box i = .error e := by
  rw [textOf_plain h hr ht (cls := .code) (by simp only [plainStyle, List.mem_cons, Prod.mk.injEq, List.cons.injEq]; simp)
    (by decide) (by decide)]
  show (contents u s f box i).bind _ = _
  rw [hx]
  rfl

/-- `<pre><code>a{</code></pre><code>b{}</code><code>c<br>d</code>` -/
def c46Events : List Event :=
  [.start py"pre" [], .start py"code" [], .data py"a{", .stop py"code", .stop py"pre", .start py"code" [], .data py"b{}",
   .stop py"code", .start py"code" [], .data py"c", .start py"br" [], .data py"d", .stop py"code"]

example : (match feed asciiUni {} {} c46Events with
    | .ok s => match close asciiUni {} s with
      | .ok s' => decide ((s'.dom.nodes.map Node.tag) = [some py"pre", some py"code", none, some py"code", none, some py"code",
            none, some py"br", none] ∧
          textOf asciiUni s' 5 (Box.new 67 {} {} {} none none) 1 = .ok py"a{" ∧
          textOf asciiUni s' 5 (Box.new 67 {} {} {} none none) 3 = .ok py"`b{}`" ∧
          textOf asciiUni s' 5 (Box.new 67 {} {} {} none none) 5 = .ok py"```\nc\nd\n```\n")
      | _ => false
    | _ => false) = true := by decide

/-! ## C56 -/

theorem nonRenderer_construct {c : RClass} {t : TagInfo} {ctx : Ctx} {box : Box} {inst : Inst} (h : construct c t ctx box = .ok inst)
    (hc : c.behaviour = .nonRenderer) (u : Uni) (x : Str) : inst.render u x = .ok [] := by
  obtain ⟨-, e1, -, -, e2⟩ := construct_settings h
  rw [isBlock_behaviour, hc] at e2
  rw [hc] at e1
  have hb : inst.box = none := by simpa [RClass.isBlock] using e2
  simp only [Inst.render, hb, e1]

/-- An element with the non-rendering renderer, or a class made from it, is rendered as nothing. -/
theorem C56 (u : Uni) (s : PState) (i : Nat) (n : Node) (c : RClass) (hn : s.dom.nodes[i]? = some n) (hd : n.data = none)
    (hr : (assignedTo s.assigned i).renderer = some c) (hc : c.behaviour = .nonRenderer) (f : Nat) (box : Box) (x : Str)
    (hx : textOf u s f box i = .ok x) : x = [] := by
  cases f with
  | zero => cases hx
  | succ f =>
    have tag : ∀ y, renderTag u s.dom (assignedTo s.assigned i) i n box (renderNode u s.dom s.assigned f false)
        (renderNode u s.dom s.assigned f true) = .ok y → y = [] := by
      intro y hy
      rw [renderTag_with u s f i n box _ c hn hr] at hy
      unfold renderWith at hy
      cases hk : construct c (tagInfo s.dom i) ⟨(assignedTo s.assigned i).settings, n.link.map LinkInfo.ctx, none⟩ box with
      | error e => rw [hk] at hy; cases hy
      | ok inst =>
        rw [hk] at hy
        simp only [Except.bind] at hy
        split at hy
        · cases hy
        · rw [nonRenderer_construct hk hc] at hy; cases hy; rfl
    simp only [textOf, renderNode, hn, hd, Bool.false_eq_true, if_false] at hx
    cases hl : n.link with
    | none => rw [hl] at hx; exact tag x hx
    | some l =>
      rw [hl] at hx
      simp only [Bool.false_or, decide_eq_true_eq] at hx
      split at hx
      · rename_i hp
        simp only [renderLink, hp, if_true, bind, Except.bind, hr, callRenderer] at hx
        repeat' split at hx
        all_goals first | cases hx; done | skip
        rename_i inst hk _ _ _
        rw [nonRenderer_construct hk hc] at hx; cases hx; rfl
      · exact tag x hx

/-- `script` elements suppressed by a rule: `<p>a<script>b</script>c</p>`. -/
def c56Events : List Event :=
  [.start py"p" [], .data py"a", .start py"script" [], .data py"b", .stop py"script", .data py"c", .stop py"p"]

example : renderEvents asciiUni { renderers := [tagRule py"script" .nonRenderer] } c56Events = .ok py"\nac\n" := by decide

example : (match feed asciiUni { renderers := [tagRule py"script" .nonRenderer] } {} c56Events with
    | .ok s => match close asciiUni { renderers := [tagRule py"script" .nonRenderer] } s with
      | .ok s' => (match (assignedTo s'.assigned 2).renderer with | some .nonRenderer => true | _ => false) &&
          decide (textOf asciiUni s' 3 (Box.new 67 {} {} {} none none) 2 = .ok [] ∧
            contents asciiUni s' 2 (Box.new 67 {} {} {} none none) 2 = .ok py"b")
      | _ => false
    | _ => false) = true := by decide

end Verif
