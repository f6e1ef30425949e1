import Verif.Spec.Footer
import Verif.Props.LinkLines
import Verif.Props.Cli

/-!
# C74: the list of links at the end of a text page
-/

namespace Verif

open Spec

/-! ### Trimming line by line -/

theorem optimise_split (a b : Str) : optimise (a ++ '\n' :: b) = optimise a ++ '\n' :: optimise b := by
  unfold optimise
  rw [splitCh_two, List.map_append, show py"\n" = ['\n'] from rfl, join_append]
  · simp
  · simp [splitCh_ne_nil]
  · simp [splitCh_ne_nil]

theorem rstrip_blank_end (l t : Str) (h : Blank t) : rstrip (l ++ t) = rstrip l := by
  unfold rstrip
  rw [List.reverse_append, List.dropWhile_append, if_pos]
  rw [List.isEmpty_iff, dropWhile_nil_iff]
  intro x hx
  exact h x (List.mem_reverse.1 hx)

theorem optimise_pad (a : Str) (k : Nat) : optimise (a ++ List.replicate k ' ') = optimise a := by
  obtain ⟨A, p, q, B, e1, e2, e3⟩ := splitCh_glue a (List.replicate k ' ')
  rw [splitCh_none _ _ (by simp [List.mem_replicate])] at e2
  cases e2
  unfold optimise
  rw [e3, e1]
  simp only [List.map_append, List.map_cons, List.map_nil]
  rw [rstrip_blank_end]
  intro x hx
  rw [(List.mem_replicate.1 hx).2]
  decide

theorem optimise_padLines (w : Int) (x : Str) : optimise (padLines w x) = optimise x := by
  unfold optimise padLines
  rw [show py"\n" = ['\n'] from rfl, splitCh_join]
  · congr 1
    rw [List.map_map]
    apply List.map_congr_left
    intro l _
    apply rstrip_blank_end
    intro c hc
    rw [(List.mem_replicate.1 hc).2]
    decide
  · simp [splitCh_ne_nil]
  · intro l hl hm
    obtain ⟨l', h1, rfl⟩ := List.mem_map.1 hl
    unfold padTo at hm
    rcases List.mem_append.1 hm with hm | hm
    · exact mem_splitCh '\n' x l' h1 hm
    · exact absurd (List.mem_replicate.1 hm).2 (by decide)

theorem optimise_newlines (x : Str) (n : Nat) : optimise (x ++ newlines n) = optimise x ++ newlines n := by
  induction n with
  | zero => simp [newlines]
  | succ n ih =>
    have e : newlines (n + 1) = newlines n ++ ['\n'] := List.replicate_succ'
    rw [e, ← List.append_assoc, optimise_split, ih]
    simp [optimise, splitCh, join, rstrip]

theorem padLines_break (w : Int) (x : Str) : padLines w ('\n' :: x) = List.replicate w.toNat ' ' ++ '\n' :: padLines w x := by
  unfold padLines
  rw [splitCh_cons_eq, List.map_cons, join_cons_ne _ _ _ (by simp [splitCh_ne_nil])]
  simp [padTo]

theorem optimise_entries (w : Int) (n : Nat) : ∀ (ls : List Str) (x : Str),
    optimise (x ++ (ls.map (fun l => padLines w ('\n' :: l))).flatten ++ newlines n) =
      optimise x ++ (ls.map (fun l => '\n' :: optimise l)).flatten ++ newlines n
  | [], x => by simpa using optimise_newlines x n
  | l :: ls, x => by
    have e : x ++ ((l :: ls).map (fun l => padLines w ('\n' :: l))).flatten ++ newlines n =
        (x ++ List.replicate w.toNat ' ') ++ '\n' :: (padLines w l ++ (ls.map (fun l => padLines w ('\n' :: l))).flatten ++ newlines n) := by
      rw [List.map_cons, List.flatten_cons, padLines_break]
      simp
    rw [e, optimise_split, optimise_pad, optimise_entries w n ls, optimise_padLines]
    simp

/-! ### Entries -/

/-- The entry of an image in a text document. -/
theorem image_entry (u : Uni) (c : Cfg) (es : List Event) (s : PState) (h : Rendered u c es s) (hf : c.outputFormat ≠ py"gophermap")
    (hp : c.imagePlacement ≠ py"inline") (limit : Nat) (hlim : LimitIs c limit) (i : Nat) (ht : HasTag s.dom i py"img") :
    ∃ number, linkNumber s.dom i = some number ∧
      ∀ fuel box, entryOf u s (fuel + 1) box i = (linkText u s fuel (inside box 0 0) i).map (fun _ =>
        padLines (room box) ('\n' :: imageLine number (attrText es i py"src") (attrText es i py"alt"))) := by
  obtain ⟨n, l, hn, htag, hd, hlk, h1, h2, h3, h4, h5, h6, h7⟩ := link_known h ht (.inr rfl)
  obtain ⟨cls, hr, -⟩ := limit_rules hlim
  obtain ⟨a1, a2⟩ := link_assigned h hr ht .extractedImage (.inr ⟨rfl, rfl⟩)
  simp only [show py"img" ≠ py"a" by decide, if_false] at h1 h2
  refine ⟨l.ctx.linkReference, h7, fun fuel box => ?_⟩
  have hpl : l.placement n.tag = l.ctx.imagePlacement := by rw [htag]; rfl
  rw [entry_with hn hd hlk (by rw [hpl, h6]; exact hp) a1 a2]
  have k1 : construct .extractedImage (tagInfo s.dom i) ⟨none, some l.ctx, some ⟨l.href, l.title, l.gopherLink⟩⟩ box =
      .ok ⟨.extractedImage, newSettings .extractedImage, some (inside box 0 0), tagInfo s.dom i,
        ⟨none, some l.ctx, some ⟨l.href, l.title, l.gopherLink⟩⟩⟩ := rfl
  simp only [renderWith, k1, Except.bind, Option.getD_some]
  cases linkText u s fuel (inside box 0 0) i with
  | error e => rfl
  | ok text =>
    have hin : extractedImageInner (newSettings .extractedImage) ⟨none, some l.ctx, some ⟨l.href, l.title, l.gopherLink⟩⟩ = .ok
        ('\n' :: imageLine l.ctx.linkReference (attrText es i py"src") (attrText es i py"alt")) := by
      have e1 : (Arg.opt l.href).show = l.href.getD py"None" := by cases l.href <;> rfl
      have e2 : (if truthyTitle l.title then strOpt l.title else py"Image") = altText l.title := by
        cases l.title with
        | none => rfl
        | some t => cases t <;> rfl
      have e3 : trimDescription 10 (altText l.title) = cutText 10 (altText l.title) := trim_cut 10 _
      have g1 : DictOf.get (newSettings .extractedImage) py"max_link_description" = some (.int 10) := rfl
      have g2 : DictOf.get (newSettings .extractedImage) py"templates" = some extractedTemplates := rfl
      rw [← h1, ← h2]
      simp only [extractedImageInner, ctxLink, ctxTarget, getA, g1, g2, asInt, bind, Except.bind, h4, hf, if_false, templateAt,
        extractedTemplates, strAt, List.getElem?_cons_zero, List.getElem?_cons_succ, e1, e2, e3, List.cons_append,
        List.nil_append, text_format, title_format]
      by_cases hl : 10 < (altText l.title).length
      · rw [if_pos (by simp only [len]; omega)]
        simp [imageLine, hl, show ∀ s, (Arg.str s).show = s from fun _ => rfl]
      · rw [if_neg (by simp only [len]; omega)]
        simp [imageLine, hl]
    simp only [Except.map, Inst.render]
    have k5 : DictOf.get (newSettings .extractedImage) py"border" = some (.strs [[], [], [], []]) := rfl
    rw [blockRender_inside k5]
    simp only [innerRender, hin, Except.map]
    simp [rep]

theorem foot_entry {u : Uni} {c : Cfg} {es : List Event} {s : PState} (h : Rendered u c es s) (hf : c.outputFormat ≠ py"gophermap")
    {limit : Nat} (hlim : LimitIs c limit) {i : Nat} {n : Node} (hn : s.dom.nodes[i]? = some n) (hpl : placed c py"footer" n = true)
    {fuel : Nat} {box : Box} {e : Str} (he : entryOf u s (fuel + 1) box i = .ok e) :
    ∃ number line, linkNumber s.dom i = some number ∧ FootLine u es s box limit i number line ∧ e = padLines (room box) ('\n' :: line) := by
  unfold placed at hpl
  cases ht : n.tag with
  | none => rw [ht] at hpl; cases hpl
  | some t =>
    rw [ht] at hpl
    simp only [Bool.or_eq_true, Bool.and_eq_true, decide_eq_true_eq] at hpl
    rcases hpl with ⟨rfl, hp⟩ | ⟨rfl, hp⟩
    · obtain ⟨number, h1, h2⟩ := C43_entry u c es s h hf (by rw [hp]; decide) limit hlim i ⟨n, hn, ht⟩
      rw [h2] at he
      cases hx : linkText u s fuel (inside box 0 0) i with
      | error x => rw [hx] at he; cases he
      | ok text =>
        rw [hx] at he
        cases he
        refine ⟨number, _, h1, .inl ⟨⟨n, hn, ht⟩, text, fuel, hx, rfl⟩, ?_⟩
        simp [linkLine]
    · obtain ⟨number, h1, h2⟩ := image_entry u c es s h hf (by rw [hp]; decide) limit hlim i ⟨n, hn, ht⟩
      rw [h2] at he
      cases hx : linkText u s fuel (inside box 0 0) i with
      | error x => rw [hx] at he; cases he
      | ok text =>
        rw [hx] at he
        cases he
        exact ⟨number, _, h1, .inr ⟨⟨n, hn, ht⟩, rfl⟩, rfl⟩

theorem foot_lines {α : Type} {P : α → Str → Prop} {Q : Str → Str} : ∀ (is : List α) (es : List Str), es.length = is.length →
    (∀ (k : Nat) i, is[k]? = some i → ∃ e, es[k]? = some e ∧ ∃ l, P i l ∧ e = Q l) →
    ∃ ls : List Str, es = ls.map Q ∧ ls.length = is.length ∧ ∀ (k : Nat) i, is[k]? = some i → ∃ l, ls[k]? = some l ∧ P i l
  | [], [], _, _ => ⟨[], rfl, rfl, by simp⟩
  | [], e :: es, hl, _ => by simp at hl
  | i :: is, [], hl, _ => by simp at hl
  | i :: is, e :: es, hl, h => by
    obtain ⟨e', h1, l, h2, h3⟩ := h 0 i rfl
    cases h1
    obtain ⟨ls, g1, g2, g3⟩ := foot_lines is es (by simpa using hl) (fun k j hk => by simpa using h (k + 1) j (by simpa using hk))
    refine ⟨l :: ls, by rw [h3, g1]; rfl, by simp [g2], ?_⟩
    intro k j hk
    cases k with
    | zero => cases hk; exact ⟨l, rfl, h2⟩
    | succ k => simpa using g3 k j (by simpa using hk)

/-- With links in the footer and no left margin, an (optimised) text page ends with an empty line (or the end of the last
line) and one line for each link and image that is placed there, in document order. -/
theorem C74 (u : Uni) (c : Cfg) (es : List Event) (s : PState) (h : Rendered u c es s) (hf : c.outputFormat ≠ py"gophermap")
    (limit : Nat) (hlim : LimitIs c limit) (hp : c.linkPlacement = py"footer") (ho : c.optimise = true)
    (hm : c.pageBox.margin.left ≤ 0) (hne : nodesWhere s.dom (placed c py"footer") ≠ []) :
    ∃ (body page : Str) (lines : List Str),
      renderAll (textOf u s s.dom.fuel c.pageBox) s.dom.roots = .ok body ∧
      TrimmedLines (newlines c.pageBox.margin.top.toNat ++ body) page ∧
      lines.length = (nodesWhere s.dom (placed c py"footer")).length ∧
      (∀ (k : Nat) i, (nodesWhere s.dom (placed c py"footer"))[k]? = some i →
        ∃ number line trimmed, linkNumber s.dom i = some number ∧ FootLine u es s c.pageBox limit i number line ∧
          TrimmedLines line trimmed ∧ lines[k]? = some trimmed) ∧
      s.parsed = page ++ py"\n" ++ (lines.map (py"\n" ++ ·)).flatten ++ newlines c.pageBox.margin.bottom.toNat := by
  obtain ⟨s0, s1, e0, e1, e2, hdom, hinv, hlinv, htinv⟩ := rendered_inv h
  rw [hdom] at hne
  obtain ⟨bodies, entries, p1, p2, p3, p4, -⟩ := C33_partial u c s0 s1 s es e0 e1 e2 hp hne
  obtain ⟨t, b, f, q1, q2, q3, q4⟩ := close_reach e0 e1 e2
  obtain ⟨rfl, rfl⟩ : bodies = b ∧ py"\n" :: entries = f := by
    have : s.parts = b ++ f := by rw [q4]
    rw [p1] at this
    exact List.append_inj this (by rw [p2]; exact (mapM_ok q2).1.symm)
  rw [← hdom] at hne p3 p4
  obtain ⟨ls, g1, g2, g3⟩ := foot_lines (P := fun i line => ∃ number, linkNumber s.dom i = some number ∧ FootLine u es s c.pageBox limit i number line)
    (Q := fun l => padLines (room c.pageBox) ('\n' :: l)) _ entries p3 (by
      intro k i hk
      obtain ⟨e, he, hr⟩ := p4 k i hk
      obtain ⟨n, hn, hpl⟩ := nodesWhere_bound (List.mem_of_getElem? hk)
      obtain ⟨number, line, k1, k2, k3⟩ := foot_entry (e := e) h hf hlim hn hpl (fuel := s.dom.nodes.length) (box := c.pageBox) hr
      exact ⟨e, he, line, ⟨number, k1, k2⟩, k3⟩)
  refine ⟨bodies.flatten, _, ls.map optimise, ?_, trimmed_optimise _, by simpa using g2, ?_, ?_⟩
  · rw [renderAll_mapM]
    show Except.map _ (s.dom.roots.mapM (renderNode u s.dom s.assigned s.dom.fuel false c.pageBox)) = _
    rw [show s.assigned = t by rw [q4], hdom, q2]
    rfl
  · intro k i hk
    obtain ⟨l, k1, number, k2, k3⟩ := g3 k i hk
    exact ⟨number, l, _, k2, k3, trimmed_optimise l, by rw [List.getElem?_map, k1]; rfl⟩
  · have e : s.parsed = optimise (framed c (bodies ++ py"\n" :: entries)) := by
      rw [q4]
      simp only [ho, if_true]
    have e' : framed c (bodies ++ py"\n" :: entries) = (newlines c.pageBox.margin.top.toNat ++ bodies.flatten ++ py"\n") ++
        (ls.map (fun l => padLines (room c.pageBox) ('\n' :: l))).flatten ++ newlines c.pageBox.margin.bottom.toNat := by
      unfold framed indentBody
      rw [indent_eq, show rep ' ' c.pageBox.margin.left = [] by simp [rep, show c.pageBox.margin.left.toNat = 0 by omega], indentLines_nil, g1]
      simp [rep, newlines]
    rw [e, e', optimise_entries, optimise_split, List.map_map, show optimise [] = [] by decide]
    simp only [List.append_assoc]
    rfl

theorem cli_margins : cliCfg.pageBox.margin = ⟨1, 0, 1, 0⟩ := rfl

/-- If the program succeeds, it prints the rendered document. -/
theorem cli_rendered {u : Uni} {w : World} {a : Args} {html : Str} (hd : Document w a.source html) (h : (cliMain u w a).error = none)
    {es : List Event} (he : es = (tokPieces u {} [html]).1) : ∃ s, Rendered u cliCfg es s ∧
      (cliMain u w a).printed = (if a.dump then html ++ py"\n" else []) ++ complaints es ++ s.parsed ++ py"\n" := by
  obtain ⟨out, hr, hprint⟩ : ∃ out, renderEvents u cliCfg es = .ok out ∧
      (cliMain u w a).printed = (if a.dump then html ++ py"\n" else []) ++ complaints es ++ out ++ py"\n" := by
    subst he
    cases ht : tokPieces u {} [html] with
    | mk es r =>
      obtain ⟨h1, h2, h4, h3⟩ := C67_partial u w a html hd _ rfl es r ht
      by_cases hread : Readable u cliCfg es
      · cases r with
        | error e => rw [h4 e rfl hread] at h; cases h
        | ok t =>
          cases hr : renderEvents u cliCfg es with
          | ok out => exact ⟨out, rfl, by rw [h1 t out rfl hr]⟩
          | error e => rw [h2 t e rfl hread hr] at h; cases h
      · obtain ⟨g1, g2⟩ := C66_only u cliCfg {} cli_init es
        cases hf : feed u cliCfg {} es with
        | ok s => exact absurd (g1.1 ⟨s, hf⟩) hread
        | error x =>
          obtain ⟨before, tag, attrs, after, k1, k2, k3⟩ := g2 x hf
          rw [h3 before tag attrs after x k1 k2 k3] at h
          cases h
  obtain ⟨s, hren, rfl⟩ : ∃ s, Rendered u cliCfg es s ∧ s.parsed = out := by
    simp only [renderEvents, bind, Except.bind, pure, Except.pure, cli_init] at hr
    cases hf : feed u cliCfg {} es with
    | error x => rw [hf] at hr; cases hr
    | ok s1 =>
      rw [hf] at hr
      simp only at hr
      cases hc : close u cliCfg s1 with
      | error x => rw [hc] at hr; cases hr
      | ok s2 =>
        rw [hc] at hr
        cases hr
        exact ⟨s2, ⟨_, _, cli_init, hf, hc⟩, rfl⟩
  exact ⟨s, hren, hprint⟩

/-- The program lists the links of the document, and nothing else, after the page; images stay where they are. -/
theorem C74_program (u : Uni) (w : World) (a : Args) (html : Str) (hd : Document w a.source html) (h : (cliMain u w a).error = none)
    (es : List Event) (he : es = (tokPieces u {} [html]).1) :
    ∃ s, Rendered u cliCfg es s ∧ ∃ (lines : List Str) (page : Str),
      lines.length = (nodesWhere s.dom (fun n => n.tag = some py"a")).length ∧
      (∀ (k : Nat) i, (nodesWhere s.dom (fun n => n.tag = some py"a"))[k]? = some i →
        ∃ text fuel trimmed, linkText u s fuel (inside cliCfg.pageBox 0 0) i = .ok text ∧
          TrimmedLines (linkLine 10 (k + 1) text (attrText es i py"href") (attrText es i py"title")) trimmed ∧ lines[k]? = some trimmed) ∧
      (cliMain u w a).printed = (if a.dump then html ++ py"\n" else []) ++ complaints es ++ page ++
        (if lines = [] then [] else py"\n" ++ (lines.map (py"\n" ++ ·)).flatten ++ py"\n") ++ py"\n" := by
  obtain ⟨s, hren, hprint⟩ := cli_rendered hd h he
  have hpl : placed cliCfg py"footer" = fun n => decide (n.tag = some py"a") := by
    funext n
    unfold placed
    cases n.tag with
    | none => rfl
    | some t => simp [cliCfg]
  have hex : extracted cliCfg = fun n => decide (n.tag = some py"a") := by
    funext n
    unfold extracted
    cases n.tag with
    | none => rfl
    | some t => simp [cliCfg]
  refine ⟨s, hren, ?_⟩
  by_cases hne : nodesWhere s.dom (fun n => decide (n.tag = some py"a")) = []
  · refine ⟨[], s.parsed, by rw [hne]; rfl, by rw [hne]; simp, ?_⟩
    rw [hprint]
    simp
  · obtain ⟨body, page, lines, -, -, c3, c4, c5⟩ := C74 u cliCfg es s hren (by decide) 10 (.inl ⟨rfl, rfl⟩) rfl rfl (by decide) (by rw [hpl]; exact hne)
    rw [hpl] at c3 c4
    refine ⟨lines, page, c3, ?_, ?_⟩
    · intro k i hk
      obtain ⟨number, line, trimmed, k1, k2, k3, k4⟩ := c4 k i hk
      obtain ⟨n, hn, hta⟩ := nodesWhere_bound (List.mem_of_getElem? hk)
      have hta : n.tag = some py"a" := by simpa using hta
      obtain ⟨s0, s1, e0, e1, e2, hdom, -⟩ := rendered_inv hren
      have hnum := C32 u cliCfg s0 s1 es e0 e1
      rw [← hdom, hex] at hnum
      have hk' := congrArg (fun l => l[k]?) hnum
      have hlt := (List.getElem?_eq_some_iff.1 hk).1
      simp only [List.getElem?_map, hk, Option.map_some, k1] at hk'
      rw [List.getElem?_range' (by simpa using hlt)] at hk'
      simp only [Option.map_some, Option.some.injEq] at hk'
      have hk'' : number = k + 1 := by omega
      subst hk''
      rcases k2 with ⟨-, text, fuel, k5, rfl⟩ | ⟨⟨m, m1, m2⟩, -⟩
      · exact ⟨text, fuel, trimmed, k5, k3, k4⟩
      · rw [hn] at m1
        cases m1
        rw [hta] at m2
        exact absurd m2 (by decide)
    · have hl : lines ≠ [] := by
        rintro rfl
        exact hne (List.length_eq_zero_iff.1 (by rw [← c3]; rfl))
      rw [hprint, c5, cli_margins]
      simp [newlines, hl]

set_option maxRecDepth 20000 in
/-- Two links, one with a title, and an image. -/
example : (cliMain asciiUni (oneFile py"a.html"
      py"<p><a href=x.txt>the first file</a> <img src=y.png alt=Y> <a href=/z title=Zed>z</a></p>") ⟨py"a.html", py"out", false⟩) =
    { printed := py"\n\n[the first file][1] ![Y](y.png) [z][2]\n\n\n[1] the first ...: x.txt\n[2] z: /z \"Zed\"\n\n" } := by decide +kernel

set_option maxRecDepth 20000 in
/-- Images in the footer too. -/
example : renderHtml asciiUni { imagePlacement := py"footer" } [py"<img src=y.png alt='A long story'><p>a<a>b</a></p><img>"] =
    .ok py"[Image][1]\na[b][2]\n[Image][3]\n\n[1] A long sto...: y.png \"A long story\"\n[2] b: None\n[3] Image: None" := by decide +kernel

end Verif
