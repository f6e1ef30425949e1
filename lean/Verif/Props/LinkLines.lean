import Verif.Props.Links
import Verif.Proofs.LinkTargets
import Verif.Proofs.Blocks
import Verif.Props.Parser

/-!
# Entries of links: C41 to C44
-/

namespace Verif

open Spec

/-- In every document the target of a link is read from its own `href`. -/
theorem C41_document (u : Uni) (c : Cfg) (es : List Event) (s : PState) (h : Rendered u c es s) (i : Nat) (tag : Str)
    (ht : HasTag s.dom i tag) (hl : tag = py"a" ∨ tag = py"img") :
    ∃ n l, s.dom.nodes[i]? = some n ∧ n.tag = some tag ∧ n.link = some l ∧
      l.href = attrText es i (if tag = py"a" then py"href" else py"src") ∧
      l.title = attrText es i (if tag = py"a" then py"title" else py"alt") ∧
      parseHref u c.gopherHost c.gopherPort l.href = .ok l.gopherLink := by
  obtain ⟨s0, s1, e0, e1, e2, hdom, hinv, hlinv, htinv⟩ := rendered_inv h
  obtain ⟨n, hn, htag⟩ := ht
  obtain ⟨m, m1, m2⟩ := isElem_node hinv ⟨tag, n, hn, htag⟩
  rw [hn] at m1; cases m1
  have hag := hinv.agree i n hn m2
  have hlk := (hlinv.link i n (by rw [← hdom]; exact hn)).2 (by rw [htag]; rcases hl with rfl | rfl <;> simp)
  obtain ⟨l, hl'⟩ := Option.isSome_iff_exists.1 hlk
  have hok : LinksOk u c s1.dom := by
    rw [initParser_eq e0] at e1
    exact feed_linksOk (s := {}) init_inv (by intro i n l h; simp at h) e1
  obtain ⟨o1, o2, o3⟩ := hok i n l (by rw [← hdom]; exact hn) hl'
  refine ⟨n, l, hn, htag, hl', ?_, ?_, o3⟩
  · rw [o2, attrStr_src hag _ (by split <;> decide), htag]
    simp only [Option.some.injEq, attrText]
  · rw [o1, attrStr_src hag _ (by split <;> decide), htag]
    simp only [Option.some.injEq, attrText]

/-! ## The renderer of an entry -/

theorem getForTag_link {d : Dom} {src} (hinv : SelInv d src) {i : Nat} {n : Node} (hn : d.nodes[i]? = some n)
    {tag : Str} (ht : n.tag = some tag) (hd : n.data = none) (ca ci cls : RClass)
    (hc : (tag = py"a" ∧ cls = ca) ∨ (tag = py"img" ∧ cls = ci)) :
    getForTag d [tagRule py"a" ca, tagRule py"img" ci] (.node i) = .ok (some (cls, [])) := by
  have hb : ∀ r ∈ [tagRule py"a" ca, tagRule py"img" ci], ∀ s ∈ r.sels, Basic s.tree ∧ (subject s.tree).isSome := by
    simp [tagRule, one, elt, Basic, subject]
  have hf : [tagRule py"a" ca, tagRule py"img" ci].filter (concerns tag) = [tagRule tag cls] := by
    rcases hc with ⟨rfl, rfl⟩ | ⟨rfl, rfl⟩ <;> simp [concerns, tagRule, one, elt, subject]
  have hm := collect_filter hinv hn tag ht hd _ hb
  rw [hf, collect_elt hn tag ht hd] at hm
  rw [getForTag_of hm]
  rfl

theorem link_assigned {u : Uni} {c : Cfg} {es : List Event} {s : PState} (h : Rendered u c es s) {ca ci : RClass}
    (hr : c.linkRules = [tagRule py"a" ca, tagRule py"img" ci]) {i : Nat} {tag : Str} (ht : HasTag s.dom i tag) (cls : RClass)
    (hc : (tag = py"a" ∧ cls = ca) ∨ (tag = py"img" ∧ cls = ci)) :
    (assignedTo s.assigned i).linkRenderer = some cls ∧ (assignedTo s.assigned i).linkSettings = some (some []) := by
  obtain ⟨s0, s1, e0, e1, e2, hdom, hinv, hlinv, htinv⟩ := rendered_inv h
  obtain ⟨n, hn, htag⟩ := ht
  obtain ⟨m, m1, m2⟩ := isElem_node hinv ⟨tag, n, hn, htag⟩
  rw [hn] at m1; cases m1
  have ha := (closed_assigned e0 e1 e2 i n (by rw [← hdom]; exact hn)).2
  rw [← hdom] at ha
  have hg : getLinkRenderer c s.dom i = .ok (.pair (some cls) (some [])) := by
    unfold getLinkRenderer
    rw [hr, getForTag_link hinv hn htag m2 ca ci cls hc]
    rfl
  have hlt : isLinkTag tag = true := by rcases hc with ⟨rfl, -⟩ | ⟨rfl, -⟩ <;> rfl
  simp only [assignVal, bind, Except.bind, pure, Except.pure, hn, Option.bind_some, htag, hlt, if_true, hg] at ha
  split at ha
  · cases ha
  · simp only [Except.ok.injEq] at ha
    rw [← ha]
    exact ⟨rfl, rfl⟩

/-- An entry is what the renderer makes of the children. -/
theorem entry_with {u : Uni} {s : PState} {f : Nat} {i : Nat} {n : Node} {l : LinkInfo} {box : Box} {cls : RClass} {st : Option Dict}
    (hn : s.dom.nodes[i]? = some n) (hd : n.data = none) (hl : n.link = some l) (hp : l.placement n.tag ≠ py"inline")
    (h1 : (assignedTo s.assigned i).linkRenderer = some cls) (h2 : (assignedTo s.assigned i).linkSettings = some st) :
    entryOf u s (f + 1) box i =
      renderWith u cls (tagInfo s.dom i) ⟨none, some l.ctx, some ⟨l.href, l.title, l.gopherLink⟩⟩ box (fun b => linkText u s f b i) := by
  simp only [entryOf, renderNode, hn, hd, hl, Bool.true_or, if_true, renderLink, hp, if_false, h2, h1, bind, Except.bind, callRenderer, renderWith]
  cases construct cls (tagInfo s.dom i) ⟨none, some l.ctx, some ⟨l.href, l.title, l.gopherLink⟩⟩ box with
  | error e => rfl
  | ok inst =>
    simp only [linkText, hn]

/-! ## Trimming -/

theorem pyTake_nat (s : Str) (k : Nat) : pyTake s k = s.take k := by
  unfold pyTake clampIdx
  rw [if_neg (by omega), Int.toNat_natCast]
  by_cases h : k ≤ s.length
  · rw [Nat.min_eq_right h]
  · rw [Nat.min_eq_left (by omega), List.take_of_length_le (Nat.le_refl _), List.take_of_length_le (by omega)]

theorem trim_cut (limit : Nat) (text : Str) : trimDescription limit text = cutText limit text := by
  unfold trimDescription cutText
  simp only [pyTake_nat, len, gt_iff_lt, Int.ofNat_lt]
  split <;> simp

theorem trim_negative {n : Nat} (hn : 0 < n) (text : Str) : trimDescription (-(n : Int)) text = butLast n (strip text) ++ py"..." := by
  unfold trimDescription
  rw [if_pos (by unfold len; omega)]
  unfold pyTake clampIdx butLast
  rw [if_pos (by omega)]
  congr 2
  omega

theorem lstrip_first (s : Str) (c : Char) (h : (lstrip s).head? = some c) : isSpace c = false := by
  induction s with
  | nil => cases h
  | cons x s ih =>
    unfold lstrip at h ih
    rw [List.dropWhile_cons] at h
    split at h
    · exact ih h
    · rename_i hx
      simp only [List.head?_cons, Option.some.injEq] at h
      subst h
      exact eq_false_of_ne_true hx

theorem stripped_strip (text : Str) : Stripped text (strip text) := by
  obtain ⟨b, hb, hb'⟩ := rstrip_split (lstrip text)
  obtain ⟨a, ha, ha'⟩ := lstrip_split text
  refine ⟨⟨a, b, ha', hb', by conv => lhs; rw [ha, hb]
                              simp [strip]⟩, ?_, fun c hc => rstrip_end _ c hc⟩
  intro c hc
  apply lstrip_first text c
  rw [hb]
  unfold strip at hc
  cases hr : rstrip (lstrip text) with
  | nil => rw [hr] at hc; cases hc
  | cons x r => rw [hr] at hc; exact hc

theorem stripped_eq {text inner : Str} (h : Stripped text inner) : strip text = inner := by
  obtain ⟨⟨a, b, ha, hb, rfl⟩, hh, ht⟩ := h
  cases inner with
  | nil =>
    rw [strip_nil_iff]
    intro c hc
    simp only [List.append_nil, List.mem_append] at hc
    rcases hc with hc | hc
    · exact ha c hc
    · exact hb c hc
  | cons x r =>
    have e1 : lstrip (a ++ (x :: r) ++ b) = (x :: r) ++ b := by
      unfold lstrip
      rw [List.append_assoc]
      exact dropWhile_split _ _ _ ha (fun c hc => hh c (by simpa using hc))
    have e2 : rstrip ((x :: r) ++ b) = x :: r := by
      unfold rstrip
      rw [List.reverse_append, dropWhile_split _ _ _ (fun c hc => hb c (List.mem_reverse.1 hc)), List.reverse_reverse]
      intro c hc
      rw [List.head?_reverse] at hc
      exact ht c hc
    rw [strip, e1, e2]

/-! ## Entries -/

theorem limit_rules {c : Cfg} {limit : Nat} (h : LimitIs c limit) :
    ∃ cls, c.linkRules = [tagRule py"a" cls, tagRule py"img" .extractedImage] ∧
      ∀ t ctx box, ctx.settings = none → construct cls t ctx box = .ok ⟨.extractedLink, newSettings cls, some (inside box 0 0), t, ctx⟩ ∧
        DictOf.get (newSettings cls) py"max_link_description" = some (.int limit) ∧
        DictOf.get (newSettings cls) py"gophermap_template" = some gophermapTemplate ∧
        DictOf.get (newSettings cls) py"templates" = some extractedTemplates ∧
        DictOf.get (newSettings cls) py"border" = some (.strs [[], [], [], []]) := by
  rcases h with ⟨h, rfl⟩ | h
  · refine ⟨.extractedLink, by rw [Cfg.linkRules, h]; rfl, ?_⟩
    rintro t ⟨s, l, g⟩ box rfl
    exact ⟨rfl, rfl, rfl, rfl, rfl⟩
  · refine ⟨_, by rw [Cfg.linkRules, h]; rfl, ?_⟩
    rintro t ⟨s, l, g⟩ box rfl
    exact ⟨rfl, rfl, rfl, rfl, rfl⟩

theorem gopher_format (d : Str) (n : Nat) (g : GopherLink) :
    pyFormat py"{type}[{link_reference}] {description}\t{selector}\t{host}\t{port}\n" [] (gophermapArgs d n g) =
      .ok (gopherLine g n d) := by
  have hp : parseTemplate none py"{type}[{link_reference}] {description}\t{selector}\t{host}\t{port}\n" =
      [.name py"type", .lit '[', .name py"link_reference", .lit ']', .lit ' ', .name py"description", .lit '\t', .name py"selector",
        .lit '\t', .name py"host", .lit '\t', .name py"port", .lit '\n'] := by decide
  rw [pyFormat, hp]
  have e1 : (Arg.opt g.host).show = g.host.getD py"None" := by cases g.host <;> rfl
  have e2 : (Arg.optInt g.port).show = (g.port.map intStr).getD py"None" := by cases g.port <;> rfl
  simp [evalPieces, nameArg, gophermapArgs, List.lookup, Except.map, gopherLine, e1, e2, show ∀ s, (Arg.str s).show = s from fun _ => rfl,
    show (Arg.int (n : Int)).show = natStr n from rfl]

theorem text_format (d : Str) (n : Nat) (h : Arg) :
    pyFormat py"\n[{link_reference}] {description}: {href}" []
        [(py"description", d), (py"link_reference", .int n), (py"href", h)] =
      .ok (py"\n[" ++ natStr n ++ py"] " ++ d ++ py": " ++ h.show) := by
  have hp : parseTemplate none py"\n[{link_reference}] {description}: {href}" =
      [.lit '\n', .lit '[', .name py"link_reference", .lit ']', .lit ' ', .name py"description", .lit ':', .lit ' ',
        .name py"href"] := by decide
  rw [pyFormat, hp]
  simp [evalPieces, nameArg, List.lookup, Except.map, show (Arg.str d).show = d from rfl, show (Arg.int (n : Int)).show = natStr n from rfl]

theorem title_format (d : Str) (n : Nat) (h : Arg) (t : Arg) :
    pyFormat py"\n[{link_reference}] {description}: {href} \"{title}\"" []
        [(py"description", d), (py"link_reference", .int n), (py"href", h), (py"title", t)] =
      .ok (py"\n[" ++ natStr n ++ py"] " ++ d ++ py": " ++ h.show ++ (py" \"" ++ t.show ++ py"\"")) := by
  have hp : parseTemplate none py"\n[{link_reference}] {description}: {href} \"{title}\"" =
      [.lit '\n', .lit '[', .name py"link_reference", .lit ']', .lit ' ', .name py"description", .lit ':', .lit ' ',
        .name py"href", .lit ' ', .lit '"', .name py"title", .lit '"'] := by decide
  rw [pyFormat, hp]
  simp [evalPieces, nameArg, List.lookup, Except.map, show (Arg.str d).show = d from rfl, show (Arg.int (n : Int)).show = natStr n from rfl]

theorem placement_a {n : Node} {l : LinkInfo} (h : n.tag = some py"a") : l.placement n.tag = l.ctx.linkPlacement := by
  rw [h]; rfl

/-- What is known about a text link. -/
theorem link_known {u : Uni} {c : Cfg} {es : List Event} {s : PState} (h : Rendered u c es s) {i : Nat} {tag : Str}
    (ht : HasTag s.dom i tag) (hl : tag = py"a" ∨ tag = py"img") :
    ∃ n l, s.dom.nodes[i]? = some n ∧ n.tag = some tag ∧ n.data = none ∧ n.link = some l ∧
      l.href = attrText es i (if tag = py"a" then py"href" else py"src") ∧
      l.title = attrText es i (if tag = py"a" then py"title" else py"alt") ∧
      parseHref u c.gopherHost c.gopherPort l.href = .ok l.gopherLink ∧
      l.ctx.outputFormat = c.outputFormat ∧ l.ctx.linkPlacement = c.linkPlacement ∧ l.ctx.imagePlacement = c.imagePlacement ∧
      linkNumber s.dom i = some l.ctx.linkReference := by
  obtain ⟨n, l, hn, htag, hlk, h1, h2, h3⟩ := C41_document u c es s h i tag ht hl
  obtain ⟨s0, s1, e0, e1, e2, hdom, hinv, hlinv, htinv⟩ := rendered_inv h
  obtain ⟨m, m1, m2⟩ := isElem_node hinv ⟨tag, n, hn, htag⟩
  rw [hn] at m1; cases m1
  have hctx := hlinv.ctx i n l (by rw [← hdom]; exact hn) hlk
  refine ⟨n, l, hn, htag, m2, hlk, h1, h2, h3, by rw [hctx], by rw [hctx], by rw [hctx], ?_⟩
  simp [linkNumber, hn, hlk]

/-- In every gophermap document the entry of a link is its type, number and description, and its selector, host and port,
separated by tabs. The description is the title if there is one, otherwise the beginning of the text. -/
theorem C42_entry (u : Uni) (c : Cfg) (es : List Event) (s : PState) (h : Rendered u c es s) (hf : c.outputFormat = py"gophermap")
    (limit : Nat) (hlim : LimitIs c limit) (i : Nat) (ht : HasTag s.dom i py"a") :
    ∃ g number, parseHref u c.gopherHost c.gopherPort (attrText es i py"href") = .ok g ∧ linkNumber s.dom i = some number ∧
      ∀ fuel box, entryOf u s (fuel + 1) box i = (linkText u s fuel (inside box 0 0) i).map (fun text =>
        gopherLine g number ((attrText es i py"title").getD (cutText limit text))) := by
  obtain ⟨n, l, hn, htag, hd, hlk, h1, h2, h3, h4, h5, h6, h7⟩ := link_known h ht (.inl rfl)
  obtain ⟨cls, hr, hk⟩ := limit_rules hlim
  obtain ⟨a1, a2⟩ := link_assigned h hr ht cls (.inl ⟨rfl, rfl⟩)
  rw [h1] at h3
  refine ⟨l.gopherLink, l.ctx.linkReference, h3, h7, fun fuel box => ?_⟩
  have hpl : c.linkPlacement ≠ py"inline" := by
    obtain ⟨s0, s1, e0, -⟩ := h
    intro e
    simp [initParser, hf, e] at e0
  rw [entry_with hn hd hlk (by rw [placement_a htag, h5]; exact hpl) a1 a2]
  obtain ⟨k1, k2, k3, k4, k5⟩ := hk (tagInfo s.dom i) ⟨none, some l.ctx, some ⟨l.href, l.title, l.gopherLink⟩⟩ box rfl
  simp only [renderWith, k1, Except.bind, Option.getD_some]
  cases linkText u s fuel (inside box 0 0) i with
  | error e => rfl
  | ok text =>
    simp only [Except.map, Inst.render, extractedLinkRender, ctxLink, bind, Except.bind, h4, hf, if_true, innerRender, extractedLinkInner,
      ctxTarget, getA, k2, k3, asInt, asStr, gophermapTemplate, gopher_format, pure, Except.pure, trim_cut]
    simp only [if_true] at h2
    rw [← h2]
    cases l.title <;> simp [inside, Box.new, rep]

theorem text_entry {u : Uni} {c : Cfg} {es : List Event} {s : PState} (h : Rendered u c es s) (hf : c.outputFormat ≠ py"gophermap")
    (hp : c.linkPlacement ≠ py"inline") {limit : Int} {cls : RClass} (hr : c.linkRules = [tagRule py"a" cls, tagRule py"img" .extractedImage])
    (hk : ∀ t ctx box, ctx.settings = none → construct cls t ctx box = .ok ⟨.extractedLink, newSettings cls, some (inside box 0 0), t, ctx⟩ ∧
      DictOf.get (newSettings cls) py"max_link_description" = some (.int limit) ∧
      DictOf.get (newSettings cls) py"templates" = some extractedTemplates ∧
      DictOf.get (newSettings cls) py"border" = some (.strs [[], [], [], []])) {i : Nat} (ht : HasTag s.dom i py"a") :
    ∃ number, linkNumber s.dom i = some number ∧
      ∀ fuel box, entryOf u s (fuel + 1) box i = (linkText u s fuel (inside box 0 0) i).map (fun text =>
        padLines (room box) (py"\n[" ++ natStr number ++ py"] " ++ trimDescription limit text ++ py": " ++
          (attrText es i py"href").getD py"None" ++ titlePart (attrText es i py"title"))) := by
  obtain ⟨n, l, hn, htag, hd, hlk, h1, h2, h3, h4, h5, h6, h7⟩ := link_known h ht (.inl rfl)
  obtain ⟨a1, a2⟩ := link_assigned h hr ht cls (.inl ⟨rfl, rfl⟩)
  refine ⟨l.ctx.linkReference, h7, fun fuel box => ?_⟩
  rw [entry_with hn hd hlk (by rw [placement_a htag, h5]; exact hp) a1 a2]
  obtain ⟨k1, k2, k4, k5⟩ := hk (tagInfo s.dom i) ⟨none, some l.ctx, some ⟨l.href, l.title, l.gopherLink⟩⟩ box rfl
  simp only [renderWith, k1, Except.bind, Option.getD_some]
  cases linkText u s fuel (inside box 0 0) i with
  | error e => rfl
  | ok text =>
    have hin : extractedLinkInner (newSettings cls) ⟨none, some l.ctx, some ⟨l.href, l.title, l.gopherLink⟩⟩ text = .ok
        (py"\n[" ++ natStr l.ctx.linkReference ++ py"] " ++ trimDescription limit text ++ py": " ++
          (attrText es i py"href").getD py"None" ++ titlePart (attrText es i py"title")) := by
      simp only [extractedLinkInner, ctxLink, ctxTarget, getA, k2, k4, asInt, bind, Except.bind, h4, hf, if_false, templateAt, extractedTemplates,
        strAt, List.getElem?_cons_zero, List.getElem?_cons_succ, List.cons_append, List.nil_append, text_format, title_format]
      simp only [if_true] at h1 h2
      rw [← h1, ← h2]
      have e1 : (Arg.opt l.href).show = l.href.getD py"None" := by cases l.href <;> rfl
      rw [e1]
      cases l.title with
      | none => simp [truthyTitle, titlePart]
      | some t => cases t <;> simp [truthyTitle, Arg.opt, Arg.show, titlePart]
    simp only [Except.map, Inst.render, extractedLinkRender, ctxLink, bind, Except.bind, h4, hf, if_false]
    rw [blockRender_inside k5]
    simp only [innerRender, hin, Except.map]
    simp [rep]

/-- The entry of a link in a text document: number, description and address, and the title if there is one, filled up to
the width. -/
theorem C43_entry (u : Uni) (c : Cfg) (es : List Event) (s : PState) (h : Rendered u c es s) (hf : c.outputFormat ≠ py"gophermap")
    (hp : c.linkPlacement ≠ py"inline") (limit : Nat) (hlim : LimitIs c limit) (i : Nat) (ht : HasTag s.dom i py"a") :
    ∃ number, linkNumber s.dom i = some number ∧
      ∀ fuel box, entryOf u s (fuel + 1) box i = (linkText u s fuel (inside box 0 0) i).map (fun text =>
        padLines (room box) (py"\n[" ++ natStr number ++ py"] " ++ cutText limit text ++ py": " ++
          (attrText es i py"href").getD py"None" ++ titlePart (attrText es i py"title"))) := by
  obtain ⟨cls, hr, hk⟩ := limit_rules hlim
  obtain ⟨number, h1, h2⟩ := text_entry h hf hp (limit := limit) hr (fun t ctx box e => ⟨(hk t ctx box e).1, (hk t ctx box e).2.1, (hk t ctx box e).2.2.2⟩) ht
  refine ⟨number, h1, fun fuel box => ?_⟩
  rw [h2]
  simp only [trim_cut]

/-- A limit below zero leaves out characters at the end; there are always dots. -/
theorem C43_negative (u : Uni) (c : Cfg) (es : List Event) (s : PState) (h : Rendered u c es s) (hf : c.outputFormat ≠ py"gophermap")
    (hp : c.linkPlacement ≠ py"inline") (n : Nat) (hlim : NegativeLimit c n) (i : Nat) (ht : HasTag s.dom i py"a") :
    ∃ number, linkNumber s.dom i = some number ∧
      ∀ fuel box, entryOf u s (fuel + 1) box i = (linkText u s fuel (inside box 0 0) i).map (fun text =>
        padLines (room box) (py"\n[" ++ natStr number ++ py"] " ++ (butLast n (strip text) ++ py"...") ++ py": " ++
          (attrText es i py"href").getD py"None" ++ titlePart (attrText es i py"title"))) := by
  obtain ⟨number, h1, h2⟩ := text_entry h hf hp (limit := -(n : Int))
    (cls := .sub .extractedLink [(py"max_link_description", .int (-(n : Int)))]) (by rw [Cfg.linkRules, hlim.1]; rfl)
    (by rintro t ⟨s, l, g⟩ box rfl; exact ⟨rfl, rfl, rfl, rfl⟩) ht
  refine ⟨number, h1, fun fuel box => ?_⟩
  rw [h2]
  simp only [trim_negative hlim.2]

/-- In a gophermap document the entry of an image is such a line too, but it is filled up like a block: spaces follow
the line, and a line of spaces. -/
theorem C42_image (u : Uni) (c : Cfg) (es : List Event) (s : PState) (h : Rendered u c es s) (hf : c.outputFormat = py"gophermap")
    (hp : c.imagePlacement ≠ py"inline") (limit : Nat) (hlim : LimitIs c limit) (i : Nat) (ht : HasTag s.dom i py"img") :
    ∃ g number, parseHref u c.gopherHost c.gopherPort (attrText es i py"src") = .ok g ∧ linkNumber s.dom i = some number ∧
      ∀ fuel box, entryOf u s (fuel + 1) box i = (linkText u s fuel (inside box 0 0) i).map (fun _ =>
        padLines (room box) (gopherLine g number (cutText 10 (match attrText es i py"alt" with | none | some [] => py"Image" | some t => t)))) := by
  obtain ⟨n, l, hn, htag, hd, hlk, h1, h2, h3, h4, h5, h6, h7⟩ := link_known h ht (.inr rfl)
  obtain ⟨cls, hr, -⟩ := limit_rules hlim
  obtain ⟨a1, a2⟩ := link_assigned h hr ht .extractedImage (.inr ⟨rfl, rfl⟩)
  rw [h1] at h3
  simp only [show py"img" ≠ py"a" by decide, if_false] at h2 h3
  refine ⟨l.gopherLink, l.ctx.linkReference, h3, h7, fun fuel box => ?_⟩
  have hpl : l.placement n.tag = l.ctx.imagePlacement := by rw [htag]; rfl
  rw [entry_with hn hd hlk (by rw [hpl, h6]; exact hp) a1 a2]
  have k1 : construct .extractedImage (tagInfo s.dom i) ⟨none, some l.ctx, some ⟨l.href, l.title, l.gopherLink⟩⟩ box =
      .ok ⟨.extractedImage, newSettings .extractedImage, some (inside box 0 0), tagInfo s.dom i,
        ⟨none, some l.ctx, some ⟨l.href, l.title, l.gopherLink⟩⟩⟩ := rfl
  rw [renderWith_block k1 rfl (by simp) rfl]
  cases linkText u s fuel (inside box 0 0) i with
  | error e => rfl
  | ok text =>
    have k2 : DictOf.get (newSettings .extractedImage) py"max_link_description" = some (.int 10) := rfl
    have k3 : DictOf.get (newSettings .extractedImage) py"gophermap_template" = some gophermapTemplate := rfl
    have e10 : ∀ x, trimDescription 10 x = cutText 10 x := fun x => trim_cut 10 x
    simp only [Except.bind, Except.map, innerRender, extractedImageInner, ctxLink, ctxTarget, bind, getA, k2, k3, asInt, h4, hf, if_true,
      asStr, gophermapTemplate, gopher_format, e10]
    rw [← h2]
    cases l.title with
    | none => simp [truthyTitle, rep]
    | some t => cases t <;> simp [truthyTitle, rep, strOpt]

/-! ## C42 -/

instance (s : Str) : Decidable (Field s) := inferInstanceAs (Decidable (∀ x ∈ s, x ≠ '\t' ∧ x ≠ '\n'))

theorem field_append {a b : Str} : Field (a ++ b) ↔ Field a ∧ Field b := by
  constructor
  · intro h
    exact ⟨fun x hx => h x (List.mem_append_left _ hx), fun x hx => h x (List.mem_append_right _ hx)⟩
  · rintro ⟨h1, h2⟩ x hx
    rcases List.mem_append.1 hx with hx | hx
    · exact h1 x hx
    · exact h2 x hx

theorem field_sub {a b : Str} (h : Field b) (hs : ∀ x ∈ a, x ∈ b) : Field a := fun x hx => h x (hs x hx)

theorem clean_field {raw s : Str} (h : Clean raw s) : Field s := by
  obtain ⟨lead, body, -, -, -, rfl⟩ := h
  intro x hx
  have := (List.mem_filter.1 hx).2
  simp at this
  exact ⟨this.1, this.2.2⟩

theorem schemed_field {s scheme rest : Str} (h : Schemed s scheme rest) (hs : Field s) : Field rest := by
  rcases h with ⟨pre, rfl, -, -, -⟩ | ⟨-, -, rfl⟩
  · exact field_sub hs (fun x hx => by simp [hx])
  · exact hs

theorem located_field {rest netloc tail : Str} (h : Located rest netloc tail) (hs : Field rest) : Field netloc ∧ Field tail := by
  rcases h with ⟨rfl, -, -⟩ | ⟨-, rfl, rfl⟩
  · exact ⟨field_sub hs (fun x hx => by simp [hx]), field_sub hs (fun x hx => by simp [hx])⟩
  · exact ⟨fun x hx => (by cases hx), hs⟩

theorem rpartition_mem (c : Char) (s : Str) : (∀ x ∈ (rpartition c s).1, x ∈ s) ∧ (∀ x ∈ (rpartition c s).2.2, x ∈ s) ∧
    ((rpartition c s).2.1 = true → c ∈ s) := by
  by_cases h : c ∈ s
  · obtain ⟨a, b, e, hn⟩ := List.eq_append_cons_of_mem (List.mem_reverse.2 h)
    have e' := congrArg List.reverse e
    simp only [List.reverse_reverse, List.reverse_append, List.reverse_cons, List.append_assoc, List.singleton_append] at e'
    rw [e', rpartition_some _ _ _ (by simpa using hn)]
    exact ⟨fun _ hx => List.mem_append_left _ hx, fun _ hx => List.mem_append_right _ (List.mem_cons_of_mem _ hx), fun _ => by simp⟩
  · rw [rpartition_none _ _ h]
    exact ⟨by simp, fun _ hx => hx, by simp⟩

theorem partition_mem (c : Char) (s : Str) : (∀ x ∈ (partition c s).1, x ∈ s) ∧ (∀ x ∈ (partition c s).2.2, x ∈ s) := by
  rcases partition_cases c s with ⟨a, b, rfl, hn, hp⟩ | ⟨hn, hp⟩
  · rw [hp]
    exact ⟨fun x hx => by simp [hx], fun x hx => by simp [hx]⟩
  · rw [hp]
    exact ⟨fun _ hx => hx, by simp⟩

theorem takeWhile_mem (p : Char → Bool) (s : Str) : ∀ x ∈ s.takeWhile p, x ∈ s := fun _ hx => (List.takeWhile_sublist p).subset hx

theorem dropParams_mem (path : Str) : ∀ x ∈ dropParams path, x ∈ path := by
  obtain ⟨h1, h2, h3⟩ := rpartition_mem '/' path
  intro x hx
  rw [dropParams] at hx
  split at hx
  · rename_i e
    rw [e] at h1 h2 h3
    rcases List.mem_append.1 hx with hx | hx
    · exact h1 x hx
    · rcases List.mem_cons.1 hx with rfl | hx
      · exact h3 rfl
      · exact h2 x (takeWhile_mem _ _ x hx)
  · rename_i e
    rw [e] at h2
    exact h2 x (takeWhile_mem _ _ x hx)

theorem hostinfo_mem (netloc : Str) : ∀ x ∈ (hostinfo netloc).1, x ∈ netloc := by
  intro x hx
  have h0 := (rpartition_mem '@' netloc).2.1
  rw [hostinfo] at hx
  simp only at hx
  apply h0
  generalize (rpartition '@' netloc).2.2 = hi at hx
  rcases partition_cases '[' hi with ⟨a, b, rfl, hn, hp⟩ | ⟨hn, hp⟩
  · rw [hp] at hx
    simp only at hx
    have := (partition_mem ']' b).1 x hx
    simp [this]
  · rw [hp] at hx
    simp only at hx
    exact (partition_mem ':' hi).1 x hx

/-- The parts of a link target have no tabs and line feeds, unless the reference has. -/
theorem target_fields {u : Uni} {host : Str} {gopherPort : Int} {href : Option Str} {g : GopherLink}
    (h : parseHref u host gopherPort href = .ok g) (hhost : Field host) (hlow : ∀ x, Field x → Field (u.lower x))
    (hraw : ∀ raw, href = some raw → Field raw) :
    Field g.selector ∧ Field (g.host.getD py"None") ∧ ∃ t, g.type = [t] ∧ t ≠ '\t' ∧ t ≠ '\n' := by
  have hty : ∀ p, ∃ t, guessType p = [t] ∧ t ≠ '\t' ∧ t ≠ '\n' := by
    intro p
    unfold guessType
    simp only
    repeat' split
    all_goals exact ⟨_, rfl, by decide, by decide⟩
  have hurl : Field py"URL:" := by decide
  cases href with
  | none =>
    cases h
    exact ⟨show Field py"URL:None" by decide, hhost, _, rfl, by decide, by decide⟩
  | some raw =>
    obtain ⟨s, scheme, rest, netloc, tail, path, hc, hs, hl, hp⟩ := C41_total raw
    obtain ⟨f1, f2⟩ := located_field hl (schemed_field hs (clean_field hc))
    have f3 : Field path := by
      obtain ⟨more, rfl, -⟩ := hp
      exact (field_append.1 f2).1
    have f4 : Field (if usesParams.contains scheme && path.contains ';' then dropParams path else path) := by
      split
      · exact field_sub f3 (dropParams_mem path)
      · exact f3
    by_cases ha : Acceptable u netloc
    · simp only [parseHref, bind, Except.bind, pure, Except.pure, urlparse_eq u hc hs hl hp ha] at h
      have fraw := field_append.2 ⟨hurl, hraw raw rfl⟩
      split at h
      · cases h
        exact ⟨fraw, hhost, _, rfl, by decide, by decide⟩
      · split at h
        · split at h
          · cases h
          · cases h
            refine ⟨f4, ?_, hty _⟩
            simp only [hostname]
            have := hostinfo_mem netloc
            cases hh : (hostinfo netloc).1 with
            | nil => exact show Field py"None" by decide
            | cons y ys =>
              rw [hh] at this
              have f5 : Field (y :: ys) := field_sub f1 this
              obtain ⟨p1, p2⟩ := partition_mem '%' (y :: ys)
              simp only [Option.getD_some]
              refine field_append.2 ⟨field_append.2 ⟨hlow _ (field_sub f5 p1), ?_⟩, field_sub f5 p2⟩
              split
              · decide
              · intro x hx; cases hx
        · split at h
          · cases h
            exact ⟨f4, hhost, hty _⟩
          · cases h
            exact ⟨fraw, hhost, _, rfl, by decide, by decide⟩
    · simp only [parseHref, bind, Except.bind, urlparse_bad u hc hs hl ha] at h
      cases h

theorem natStr_field (n : Nat) : Field (natStr n) := fun x hx => by
  have := natStr_digits n x hx
  constructor
  · rintro rfl; exact absurd this (by decide)
  · rintro rfl; exact absurd this (by decide)

theorem intStr_field (n : Int) : Field (intStr n) := by
  cases n with
  | ofNat n => exact natStr_field n
  | negSucc n =>
    intro x hx
    rcases List.mem_cons.1 hx with rfl | hx
    · decide
    · exact natStr_field _ x hx

theorem gopherLine_fields {g : GopherLink} {number : Nat} {d : Str} (hd : Field d) (h1 : Field g.selector)
    (h2 : Field (g.host.getD py"None")) (h3 : ∃ t, g.type = [t] ∧ t ≠ '\t' ∧ t ≠ '\n') :
    FourFields (gopherLine g number d) ∧ ∃ t, g.type = [t] ∧ (gopherLine g number d).head? = some t := by
  obtain ⟨t, ht, t1, t2⟩ := h3
  refine ⟨⟨g.type ++ py"[" ++ natStr number ++ py"] " ++ d, g.selector, g.host.getD py"None", (g.port.map intStr).getD py"None", ?_, ?_, h1, h2, ?_⟩,
    t, ht, by rw [gopherLine, ht]; rfl⟩
  · rfl
  · rw [ht]
    refine field_append.2 ⟨field_append.2 ⟨field_append.2 ⟨field_append.2 ⟨?_, by decide⟩, natStr_field _⟩, by decide⟩, hd⟩
    intro x hx
    simp only [List.mem_singleton] at hx
    exact hx ▸ ⟨t1, t2⟩
  · cases g.port with
    | none => exact show Field py"None" by decide
    | some p => exact intStr_field p

/-- In a gophermap document the entry of a link is one line of four fields, and starts with the type character, if the
title or text, the address and the configured host have no tab and no line feed. (What is missing: titles and
addresses with tabs and line feeds, images, links after the block and pages with a left margin, see `C42_fails`.) -/
theorem C42_partial (u : Uni) (c : Cfg) (es : List Event) (s : PState) (h : Rendered u c es s) (hf : c.outputFormat = py"gophermap")
    (limit : Nat) (hlim : LimitIs c limit) (i : Nat) (ht : HasTag s.dom i py"a") (hlow : ∀ x, Field x → Field (u.lower x))
    (hhost : Field c.gopherHost) (hhref : ∀ v, attrText es i py"href" = some v → Field v)
    (fuel : Nat) (box : Box) (line : Str) (he : entryOf u s (fuel + 1) box i = .ok line)
    (hdesc : (∃ t, attrText es i py"title" = some t ∧ Field t) ∨
      (attrText es i py"title" = none ∧ ∀ text, linkText u s fuel (inside box 0 0) i = .ok text → Field text)) :
    FourFields line ∧ ∃ g t, parseHref u c.gopherHost c.gopherPort (attrText es i py"href") = .ok g ∧ g.type = [t] ∧ line.head? = some t := by
  obtain ⟨g, number, h1, h2, h3⟩ := C42_entry u c es s h hf limit hlim i ht
  obtain ⟨f1, f2, f3⟩ := target_fields h1 hhost hlow hhref
  rw [h3] at he
  cases hx : linkText u s fuel (inside box 0 0) i with
  | error e => rw [hx] at he; cases he
  | ok text =>
    rw [hx] at he
    cases he
    have hd : Field ((attrText es i py"title").getD (cutText limit text)) := by
      rcases hdesc with ⟨t, e, ht⟩ | ⟨e, ht⟩
      · rw [e]; exact ht
      · rw [e]
        have ht := ht text hx
        refine field_append.2 ⟨field_sub ht (fun x hx => (strip_sublist text).subset (List.mem_of_mem_take hx)), ?_⟩
        split
        · decide
        · intro x hx; cases hx
    obtain ⟨q1, t, q2, q3⟩ := gopherLine_fields (number := number) hd f1 f2 f3
    exact ⟨q1, g, t, h1, q2, q3⟩

theorem indentLines_nil (b : Bool) (x : Str) : indentLines [] b x = x := by
  induction x generalizing b with
  | nil => rfl
  | cons c r ih =>
    rw [indentLines, ih]
    split <;> rfl

/-- With links in the footer, images elsewhere and no left margin, the page ends in an empty line (or the end of the last
line) and the lines of all links in document order, each at column one. -/
theorem C42_footer (u : Uni) (c : Cfg) (es : List Event) (s : PState) (h : Rendered u c es s) (hf : c.outputFormat = py"gophermap")
    (limit : Nat) (hlim : LimitIs c limit) (hp : c.linkPlacement = py"footer") (hi : c.imagePlacement ≠ py"footer")
    (hm : c.pageBox.margin.left ≤ 0) (hne : nodesWhere s.dom (placed c py"footer") ≠ []) :
    ∃ (body : Str) (lines : List Str), lines.length = (nodesWhere s.dom (placed c py"footer")).length ∧
      (∀ (k : Nat) i, (nodesWhere s.dom (placed c py"footer"))[k]? = some i → HasTag s.dom i py"a" ∧
        ∃ g number d, parseHref u c.gopherHost c.gopherPort (attrText es i py"href") = .ok g ∧ linkNumber s.dom i = some number ∧
          lines[k]? = some (gopherLine g number d) ∧
          (attrText es i py"title" = some d ∨ attrText es i py"title" = none ∧ ∃ text fuel, d = cutText limit text ∧
            linkText u s fuel (inside c.pageBox 0 0) i = .ok text)) ∧
      ∃ out, out = List.replicate c.pageBox.margin.top.toNat '\n' ++ body ++ py"\n" ++ lines.flatten ++
          List.replicate c.pageBox.margin.bottom.toNat '\n' ∧
        (if c.optimise then TrimmedLines out s.parsed else s.parsed = out) := by
  obtain ⟨s0, s1, e0, e1, e2, hdom, hinv, hlinv, htinv⟩ := rendered_inv h
  rw [hdom] at hne
  obtain ⟨bodies, entries, p1, p2, p3, p4, -⟩ := C33_partial u c s0 s1 s es e0 e1 e2 hp hne
  obtain ⟨body, footer, out, q1, -, -, q4, q5⟩ := C39 u c s0 s1 s es e0 e1 e2
  rw [← hdom] at hne p3 p4
  refine ⟨bodies.flatten, entries, p3, fun k i hk => ?_, out, ?_, q5⟩
  · obtain ⟨e, he, hr⟩ := p4 k i hk
    obtain ⟨n, hn, hpl⟩ := nodesWhere_bound (List.mem_of_getElem? hk)
    have ht : n.tag = some py"a" := by
      unfold placed at hpl
      cases ht : n.tag with
      | none => rw [ht] at hpl; cases hpl
      | some t =>
        rw [ht] at hpl
        simp only [Bool.or_eq_true, Bool.and_eq_true, decide_eq_true_eq] at hpl
        rcases hpl with ⟨rfl, -⟩ | ⟨-, e⟩
        · rfl
        · exact absurd e hi
    refine ⟨⟨n, hn, ht⟩, ?_⟩
    obtain ⟨g, number, h1, h2, h3⟩ := C42_entry u c es s h hf limit hlim i ⟨n, hn, ht⟩
    have hr' : entryOf u s s.dom.fuel c.pageBox i = .ok e := hr
    rw [Dom.fuel, h3] at hr'
    cases hx : linkText u s s.dom.nodes.length (inside c.pageBox 0 0) i with
    | error x => rw [hx] at hr'; cases hr'
    | ok text =>
      rw [hx] at hr'
      cases hr'
      refine ⟨g, number, _, h1, h2, he, ?_⟩
      cases attrText es i py"title" with
      | none => exact .inr ⟨rfl, text, _, rfl, hx⟩
      | some t => exact .inl rfl
  · rw [q4, ← q1, p1, show c.pageBox.margin.left.toNat = 0 by omega, List.replicate_zero, indentLines_nil]
    simp

def gopherCfg : Cfg := { outputFormat := py"gophermap", gopherHost := py"h" }

/-- `<p><a ...>text</a></p>` -/
def linkIn (attrs : List (Str × Option Str)) (text : Str) : List Event :=
  [.start py"p" [], .start py"a" attrs, .data text, .stop py"a", .stop py"p"]

example : renderEvents asciiUni gopherCfg (linkIn [(py"href", some py"x.txt")] py"t") =
    .ok py"\n[t][1]\n\n0[1] t\tx.txt\th\t70\n" := by decide

/-- The claim is false: a title with a tab gives five fields; an address with a line feed two lines; in a paragraph tabs
are expanded; with a left margin the line is indented; and the second of two images follows the filling of the first. -/
theorem C42_fails :
    renderEvents asciiUni gopherCfg (linkIn [(py"href", some py"x.txt"), (py"title", some py"a\tb")] py"t") =
      .ok py"\n[t][1]\n\n0[1] a\tb\tx.txt\th\t70\n" ∧
    renderEvents asciiUni gopherCfg (linkIn [(py"href", some py"http://x\ny")] py"t") =
      .ok py"\n[t][1]\n\nh[1] t\tURL:http://x\ny\th\t70\n" ∧
    renderEvents asciiUni { gopherCfg with linkPlacement := py"after_block" } (linkIn [(py"href", some py"x.txt")] py"t") =
      .ok py"\n[t][1]\n0[1] t  x.txt   h       70\n\n" ∧
    renderEvents asciiUni { gopherCfg with box := some (Box.new 20 ⟨0, 0, 0, 2⟩ {} {} none none) }
        (linkIn [(py"href", some py"x.txt")] py"t") =
      .ok py"\n  [t][1]\n\n  0[1] t\tx.txt\th\t70\n" ∧
    renderEvents asciiUni { gopherCfg with imagePlacement := py"footer", box := some (Box.new 10 {} {} {} none none) }
        [.start py"img" [(py"src", some py"x.png")], .start py"img" [(py"src", some py"y.png")]] =
      .ok py"[Image][1][Image][2]\nI[1] Image\tx.png\th\t70\n          I[2] Image\ty.png\th\t70\n" := by
  refine ⟨?_, ?_, ?_, ?_, ?_⟩ <;> decide

/-! ## C43 -/

/-- If the text is not longer than the limit, or is longer without the whitespace around it, the description (see
`C42_entry` and `C43_entry`) is the stripped text, cut after `limit` characters with three dots if it was longer. (What is
missing: a text that is longer than the limit only because of the whitespace around it, see `C43_padded`.) -/
theorem C43_partial (limit : Nat) (text : Str)
    (h : text.length ≤ limit ∨ ∃ inner, Stripped text inner ∧ limit < inner.length) : Shortened limit text (cutText limit text) := by
  refine ⟨strip text, stripped_strip text, ?_⟩
  have hle : (strip text).length ≤ text.length := (strip_sublist text).length_le
  rcases h with h | ⟨inner, hs, h⟩
  · left
    refine ⟨by omega, ?_⟩
    rw [cutText, if_neg (by omega), List.append_nil, List.take_of_length_le (by omega)]
  · right
    rw [← stripped_eq hs] at h
    exact ⟨h, by rw [cutText, if_pos (by omega)]⟩

/-- Otherwise three dots follow although nothing has been cut. -/
theorem C43_padded (limit : Nat) (text inner : Str) (hs : Stripped text inner) (h1 : inner.length ≤ limit) (h2 : limit < text.length) :
    cutText limit text = inner ++ py"..." ∧ ¬ Shortened limit text (cutText limit text) := by
  have he : cutText limit text = inner ++ py"..." := by
    rw [cutText, if_pos h2, stripped_eq hs, List.take_of_length_le h1]
  refine ⟨he, ?_⟩
  rintro ⟨inner', hs', hh⟩
  rw [← stripped_eq hs', stripped_eq hs, he] at hh
  rcases hh with ⟨-, hh⟩ | ⟨hh, -⟩
  · have := congrArg List.length hh
    simp at this
  · omega

/-- `<p><a href="x"> 012345678 </a></p>` -/
theorem C43_fails : renderEvents asciiUni {} (linkIn [(py"href", some py"x")] py" 012345678 ") =
    .ok py"\n[ 012345678 ][1]\n\n\n[1] 012345678...: x" := by decide

example : renderEvents asciiUni {} (linkIn [(py"href", some py"x")] py"0123456789") =
      .ok py"\n[0123456789][1]\n\n\n[1] 0123456789: x" ∧
    renderEvents asciiUni {} (linkIn [(py"href", some py"x")] py" 01234567890") =
      .ok py"\n[ 01234567890][1]\n\n\n[1] 0123456789...: x" := by decide

example : renderEvents asciiUni { linkRenderers := [tagRule py"a" (.sub .extractedLink [(py"max_link_description", .int (-2))])] }
    (linkIn [(py"href", some py"x")] py"0123") = .ok py"\n[0123][1]\n\n\n[1] 01...: x" := by decide +kernel

end Verif
