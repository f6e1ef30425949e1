import Verif.Props.LinkLines
import Verif.Spec.Footer
import Verif.Proofs.Render

/-!
# C81: links and images where they stand
-/

namespace Verif

open Spec

theorem reference_format (x n : Arg) : pyFormat py"[{content}][{link_reference}]" [] [(py"content", x), (py"link_reference", n)] =
    .ok (py"[" ++ x.show ++ py"][" ++ n.show ++ py"]") := by
  have hp : parseTemplate none py"[{content}][{link_reference}]" =
      [.lit '[', .name py"content", .lit ']', .lit '[', .name py"link_reference", .lit ']'] := by decide
  rw [pyFormat, hp]
  simp [evalPieces, nameArg, List.lookup, Except.map]

theorem inline_format (x h : Arg) : pyFormat py"[{content}]({href})" [] [(py"content", x), (py"href", h)] =
    .ok (py"[" ++ x.show ++ py"](" ++ h.show ++ py")") := by
  have hp : parseTemplate none py"[{content}]({href})" =
      [.lit '[', .name py"content", .lit ']', .lit '(', .name py"href", .lit ')'] := by decide
  rw [pyFormat, hp]
  simp [evalPieces, nameArg, List.lookup, Except.map]

theorem inline_title_format (x h t : Arg) :
    pyFormat py"[{content}]({href} \"{title}\")" [] [(py"content", x), (py"href", h), (py"title", t)] =
    .ok (py"[" ++ x.show ++ py"](" ++ h.show ++ (py" \"" ++ t.show ++ py"\"") ++ py")") := by
  have hp : parseTemplate none py"[{content}]({href} \"{title}\")" =
      [.lit '[', .name py"content", .lit ']', .lit '(', .name py"href", .lit ' ', .lit '"', .name py"title", .lit '"', .lit ')'] := by decide
  rw [pyFormat, hp]
  simp [evalPieces, nameArg, List.lookup, Except.map]

theorem image_format (h t : Arg) : pyFormat py"![{title}]({href})" [] [(py"href", h), (py"title", t)] =
    .ok (py"![" ++ t.show ++ py"](" ++ h.show ++ py")") := by
  have hp : parseTemplate none py"![{title}]({href})" =
      [.lit '!', .lit '[', .name py"title", .lit ']', .lit '(', .name py"href", .lit ')'] := by decide
  rw [pyFormat, hp]
  simp [evalPieces, nameArg, List.lookup, Except.map]

theorem image_reference_format (t n : Arg) : pyFormat py"[{title}][{link_reference}]" [] [(py"title", t), (py"link_reference", n)] =
    .ok (py"[" ++ t.show ++ py"][" ++ n.show ++ py"]") := by
  have hp : parseTemplate none py"[{title}][{link_reference}]" =
      [.lit '[', .name py"title", .lit ']', .lit '[', .name py"link_reference", .lit ']'] := by decide
  rw [pyFormat, hp]
  simp [evalPieces, nameArg, List.lookup, Except.map]

theorem opt_show (h : Option Str) : (Arg.opt h).show = h.getD py"None" := by cases h <;> rfl

theorem nodesWhere_inj {d : Dom} {p : Node → Bool} {a b i : Nat} (ha : (nodesWhere d p)[a]? = some i)
    (hb : (nodesWhere d p)[b]? = some i) : a = b :=
  (List.getElem?_inj (List.getElem?_eq_some_iff.1 ha).1 (List.nodup_range.filter _)).1 (ha.trans hb.symm)

/-- The links and images that are not shown in place are numbered in document order. -/
theorem number_known {u : Uni} {c : Cfg} {es : List Event} {s : PState} (h : Rendered u c es s) {i k : Nat} {n : Node}
    (hn : s.dom.nodes[i]? = some n) (hx : extracted c n = true) (hk : linkNumber s.dom i = some k) :
    ∃ m, k = m + 1 ∧ (nodesWhere s.dom (extracted c))[m]? = some i := by
  obtain ⟨s0, s1, e0, e1, e2, hdom, -⟩ := rendered_inv h
  have hnum := C32 u c s0 s1 es e0 e1
  rw [← hdom] at hnum
  obtain ⟨m, hm⟩ := List.getElem?_of_mem (mem_nodesWhere.2 ⟨n, hn, hx⟩)
  refine ⟨m, ?_, hm⟩
  have hk' := congrArg (fun l => l[m]?) hnum
  have hlt := (List.getElem?_eq_some_iff.1 hm).1
  simp only [List.getElem?_map, hm, Option.map_some, hk] at hk'
  rw [List.getElem?_range' (by simpa using hlt)] at hk'
  simp only [Option.map_some, Option.some.injEq] at hk'
  omega

theorem textOf_link {u : Uni} {c : Cfg} {es : List Event} {s : PState} (h : Rendered u c es s)
    {i : Nat} (hr : Unruled c s.dom i) {n : Node} {l : LinkInfo} {tag : Str} {cls : RClass} (hn : s.dom.nodes[i]? = some n) (ht : n.tag = some tag)
    (hd : n.data = none) (hl : n.link = some l) (hm : (tag, cls) ∈ plainStyle) (f : Nat) (box : Box) :
    textOf u s (f + 1) box i = if l.placement n.tag = py"inline" then
        renderWith u cls (tagInfo s.dom i) ⟨none, some l.ctx, some ⟨l.href, l.title, l.gopherLink⟩⟩ box (fun b => linkText u s f b i)
      else renderWith u cls (tagInfo s.dom i) ⟨some [], some l.ctx, none⟩ box (fun b => contents u s f b i) := by
  obtain ⟨s0, s1, e0, e1, e2, hdom, -⟩ := rendered_inv h
  obtain ⟨a1, a2⟩ := C61_plain u c s0 s1 s es e0 e1 e2 i (hdom ▸ hr) tag cls (by rw [← hdom]; exact ⟨n, hn, ht⟩) hm
  simp only [textOf, renderNode, hn, hd, hl, Bool.false_or, decide_eq_true_eq]
  split
  · rename_i hp
    simp only [renderLink, hp, if_true, a1, bind, Except.bind, callRenderer, renderWith, linkText, hn]
  · rw [renderTag_with u s f i n box _ cls hn a1, hl, a2]
    rfl

theorem link_shown {u : Uni} {S : Dict} {ctx : Ctx} {l : LinkCtx} (hl : ctx.link = some l)
    (h1 : DictOf.get S py"capitalized" = some (.bool false)) (h2 : DictOf.get S py"template" = some (.str py"{}"))
    (h3 : getA S py"templates" = .ok (.strDict [(py"reference", [py"[{content}][{link_reference}]"]),
      (py"inline", [py"[{content}]({href})", py"[{content}]({href} \"{title}\")"])])) (x : Str) :
    linkRender u S ctx x = if l.linkPlacement = py"inline" then
      (match ctx.target with
        | some t => .ok (py"[" ++ x ++ py"](" ++ t.href.getD py"None" ++ titlePart t.title ++ py")")
        | none => .error .keyError)
      else .ok (py"[" ++ x ++ py"][" ++ natStr l.linkReference ++ py"]") := by
  have hi : inlineRender u S x = .ok x := by
    have := inlineRender_of (u := u) (a := []) (b := []) h1 h2 (by simp) (by simp) x
    simpa using this
  have hc : capIf u S x = .ok x := by
    simp only [capIf, getA, h1, bind, Except.bind, pure, Except.pure, Val.truthy, Bool.false_eq_true, if_false]
  simp only [linkRender, ctxLink, hl, hi, hc, bind, Except.bind]
  split
  · cases ht : ctx.target with
    | none => simp [ctxTitle, ht, namedTemplate, h3, bind, Except.bind, DictOf.get, strAt, ctxTarget]; rfl
    | some t =>
      by_cases hn : truthyTitle t.title = true
      · obtain ⟨v, hv, hne⟩ : ∃ v, t.title = some v ∧ v ≠ [] := by
          cases hv : t.title with
          | none => rw [hv] at hn; cases hn
          | some v =>
            refine ⟨v, rfl, ?_⟩
            rintro rfl
            rw [hv] at hn; cases hn
        have hp : titlePart (some v) = py" \"" ++ v ++ py"\"" := by
          cases v with
          | nil => exact absurd rfl hne
          | cons a b => rfl
        rw [hv] at hn
        simp only [ctxTitle, ht, hv, hn, if_true, namedTemplate, h3, bind, Except.bind, DictOf.get, ctxTarget]
        rw [hp, ← opt_show]
        exact inline_title_format _ _ _
      · have hp : titlePart t.title = [] := by
          cases hv : t.title with
          | none => rfl
          | some v =>
            cases v with
            | nil => rfl
            | cons a b => rw [hv] at hn; exact absurd rfl hn
        simp only [ctxTitle, ht, hn, namedTemplate, h3, bind, Except.bind, DictOf.get, ctxTarget]
        rw [hp, ← opt_show, List.append_nil]
        exact inline_format _ _
  · simp only [namedTemplate, h3, bind, Except.bind, DictOf.get]
    exact reference_format _ _

theorem image_shown {S : Dict} {ctx : Ctx} {l : LinkCtx} (hl : ctx.link = some l)
    (h3 : getA S py"templates" = .ok (.strDict [(py"reference", [py"[{title}][{link_reference}]"]), (py"inline", [py"![{title}]({href})"])])) :
    imageRender S ctx = if l.imagePlacement = py"inline" then
      (match ctx.target with
        | some t => .ok (py"![" ++ altText t.title ++ py"](" ++ t.href.getD py"None" ++ py")")
        | none => .error .keyError)
      else .ok (py"[" ++ altText (ctx.target.bind Target.title) ++ py"][" ++ natStr l.linkReference ++ py"]") := by
  have ha : (ctxTitle ctx).getD py"Image" = altText (ctx.target.bind Target.title) := by
    unfold ctxTitle
    cases ctx.target with
    | none => rfl
    | some t =>
      show (if truthyTitle t.title then t.title else none).getD _ = altText t.title
      cases t.title with
      | none => rfl
      | some v => cases v <;> rfl
  simp only [imageRender, ctxLink, hl, bind, Except.bind]
  rw [ha]
  split
  · cases ht : ctx.target with
    | none => simp [namedTemplate, h3, bind, Except.bind, DictOf.get, strAt, ctxTarget, ht]; rfl
    | some t =>
      simp only [ht, namedTemplate, h3, bind, Except.bind, DictOf.get, ctxTarget]
      rw [← opt_show]
      exact image_format _ _
  · simp only [namedTemplate, h3, bind, Except.bind, DictOf.get]
    exact image_reference_format _ _

/-- A link that is listed elsewhere is shown as its content and its number. -/
theorem C81_reference (u : Uni) (c : Cfg) (es : List Event) (s : PState) (h : Rendered u c es s)
    (i : Nat) (hr : Unruled c s.dom i) (ht : HasTag s.dom i py"a") (hp : c.linkPlacement ≠ py"inline") :
    ∃ m, (nodesWhere s.dom (extracted c))[m]? = some i ∧ ∀ f box,
      textOf u s (f + 1) box i = (contents u s f box i).map (fun x => py"[" ++ x ++ py"][" ++ natStr (m + 1) ++ py"]") := by
  obtain ⟨n, l, hn, htag, hd, hlk, h1, h2, h3, h4, h5, h6, h7⟩ := link_known h ht (.inl rfl)
  obtain ⟨m, hm, hm'⟩ := number_known h hn (by simp [extracted, htag, hp]) h7
  refine ⟨m, hm', fun f box => ?_⟩
  have hpl : l.placement n.tag = c.linkPlacement := by rw [placement_a htag, h5]
  rw [textOf_link h hr hn htag hd hlk (cls := .link) (by simp [plainStyle]), hpl, if_neg hp]
  refine renderWith_inline rfl rfl _ (fun x => ?_)
  refine (link_shown rfl rfl rfl rfl x).trans ?_
  rw [if_neg (by rw [h5]; exact hp), hm]

/-- A link in place is shown as its content, its address and its title. -/
theorem C81_inline (u : Uni) (c : Cfg) (es : List Event) (s : PState) (h : Rendered u c es s)
    (i : Nat) (hr : Unruled c s.dom i) (ht : HasTag s.dom i py"a") (hp : c.linkPlacement = py"inline") (f : Nat) (box : Box) :
    textOf u s (f + 1) box i = (linkText u s f box i).map (fun x =>
      py"[" ++ x ++ py"](" ++ (attrText es i py"href").getD py"None" ++ titlePart (attrText es i py"title") ++ py")") := by
  obtain ⟨n, l, hn, htag, hd, hlk, h1, h2, h3, h4, h5, h6, h7⟩ := link_known h ht (.inl rfl)
  have hpl : l.placement n.tag = c.linkPlacement := by rw [placement_a htag, h5]
  rw [textOf_link h hr hn htag hd hlk (cls := .link) (by simp [plainStyle]), hpl, if_pos hp]
  refine renderWith_inline rfl rfl _ (fun x => ?_)
  simp only [if_true] at h1 h2
  rw [← h1, ← h2]
  refine (link_shown rfl rfl rfl rfl x).trans ?_
  rw [if_pos (by rw [h5]; exact hp)]

/-- An image in place is shown as its text and its address. -/
theorem C81_image (u : Uni) (c : Cfg) (es : List Event) (s : PState) (h : Rendered u c es s)
    (i : Nat) (hr : Unruled c s.dom i) (ht : HasTag s.dom i py"img") (hp : c.imagePlacement = py"inline") (f : Nat) (box : Box) :
    textOf u s (f + 1) box i = (linkText u s f box i).map (fun _ =>
      py"![" ++ altText (attrText es i py"alt") ++ py"](" ++ (attrText es i py"src").getD py"None" ++ py")") := by
  obtain ⟨n, l, hn, htag, hd, hlk, h1, h2, h3, h4, h5, h6, h7⟩ := link_known h ht (.inr rfl)
  have hpl : l.placement n.tag = c.imagePlacement := by rw [htag]; exact h6
  rw [textOf_link h hr hn htag hd hlk (cls := .image) (by simp [plainStyle]), hpl, if_pos hp]
  refine renderWith_inline rfl rfl _ (fun x => ?_)
  simp only [show py"img" ≠ py"a" by decide, if_false] at h1 h2
  rw [← h1, ← h2]
  refine (image_shown rfl rfl).trans ?_
  rw [if_pos (by rw [h6]; exact hp)]

/-- An image that is listed elsewhere is shown as its text and its number. Missing: images with a text, which are shown
without it (`C81_fails`). -/
theorem C81_partial (u : Uni) (c : Cfg) (es : List Event) (s : PState) (h : Rendered u c es s)
    (i : Nat) (hr : Unruled c s.dom i) (ht : HasTag s.dom i py"img") (hp : c.imagePlacement ≠ py"inline") :
    ∃ m, (nodesWhere s.dom (extracted c))[m]? = some i ∧ ∀ f box,
      textOf u s (f + 1) box i = (contents u s f box i).map (fun _ => py"[Image][" ++ natStr (m + 1) ++ py"]") := by
  obtain ⟨n, l, hn, htag, hd, hlk, h1, h2, h3, h4, h5, h6, h7⟩ := link_known h ht (.inr rfl)
  obtain ⟨m, hm, hm'⟩ := number_known h hn (by simp [extracted, htag, hp]) h7
  refine ⟨m, hm', fun f box => ?_⟩
  have hpl : l.placement n.tag = c.imagePlacement := by rw [htag]; exact h6
  rw [textOf_link h hr hn htag hd hlk (cls := .image) (by simp [plainStyle]), hpl, if_neg hp]
  refine renderWith_inline rfl rfl _ (fun x => ?_)
  refine (image_shown rfl rfl).trans ?_
  rw [if_neg (by rw [h6]; exact hp), hm]
  simp [altText]

/-- `<p><img src="y.png" alt="Y"></p>` with images in the footer: the text of the image is not shown in the paragraph. -/
theorem C81_fails : renderEvents asciiUni { imagePlacement := py"footer" }
      [.start py"p" [], .start py"img" [(py"src", some py"y.png"), (py"alt", some py"Y")], .stop py"p"] =
    .ok py"\n[Image][1]\n\n\n[1] Y: y.png" := by decide

/-- With images in place it is. -/
example : renderEvents asciiUni {} [.start py"p" [], .start py"img" [(py"src", some py"y.png"), (py"alt", some py"Y")], .stop py"p"] =
    .ok py"\n![Y](y.png)\n" := by decide

set_option maxRecDepth 20000 in
example : renderEvents asciiUni {} [.start py"em" [], .start py"a" [(py"href", some py"x")], .data py"b {0}", .stop py"a", .stop py"em",
      .start py"a" [], .data py"c", .stop py"a"] =
    .ok py"_[b {0}][1]_[c][2]\n\n[1] b {0}: x\n[2] c: None" := by decide

example : renderEvents asciiUni { linkPlacement := py"inline" } [.start py"a" [(py"href", some py"x"), (py"title", some py"T")],
      .data py"b", .stop py"a", .start py"a" [(py"title", some [])], .stop py"a"] = .ok py"[b](x \"T\")[](None)" := by decide

end Verif
