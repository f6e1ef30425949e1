import Verif.Proofs.Blocks
import Verif.Proofs.WrapChars
import Verif.Spec.Fit

/-!
# Headers, quotes, preformatted text, paragraphs and items: C47, C48, C50, C51, C60
-/

namespace Verif

open Spec

/-! ## C47 -/

/-- In every document rendered with the default rules: a header of level `n` is `n` hashes, a space, the content, a space
and `n` hashes, filled up to the width, with an empty line before and after. -/
theorem C47 (u : Uni) (c : Cfg) (es : List Event) (s : PState) (h : Rendered u c es s)
    (i : Nat) (hr : Unruled c s.dom i) (tag : Str) (n : Nat) (ht : HasTag s.dom i tag) (hm : (tag, n) ∈ headerLevels) (f : Nat) (box : Box) :
    textOf u s (f + 1) box i = (contents u s f (inside box 1 1) i).map (fun x =>
      py"\n" ++ padLines (room box) (List.replicate n '#' ++ py" " ++ x ++ py" " ++ List.replicate n '#') ++ py"\n") := by
  have key : ∀ (t : TagInfo) (d : Char) (cont : Box → Py Str), t.tag = some ['h', d] → pyInt 10 [d] = some (n : Int) →
      renderWith u .mdHeader t ⟨some [], none, none⟩ box cont = (cont (inside box 1 1)).map (fun x =>
      py"\n" ++ padLines (room box) (List.replicate n '#' ++ py" " ++ x ++ py" " ++ List.replicate n '#') ++ py"\n") := by
    intro t d cont h1 h2
    have hk : construct .mdHeader t ⟨some [], none, none⟩ box = .ok ⟨.mdHeader,
        DictOf.set (newSettings .mdHeader) py"template" (.str (rep '#' n ++ py" {} " ++ rep '#' n)),
        some (inside box 1 1), t, ⟨some [], none, none⟩⟩ := by
      simp only [construct, initSettings, RClass.behaviour, bind, Except.bind, markdownTemplate, h1,
        List.getElem?_cons_succ, List.getElem?_cons_zero, h2]
      rfl
    rw [renderWith_block hk rfl (by simp) rfl]
    cases cont (inside box 1 1) with
    | error e => rfl
    | ok x =>
      simp only [Except.bind]
      have : headerInner u (DictOf.set (newSettings .mdHeader) py"template" (.str (rep '#' n ++ py" {} " ++ rep '#' n)))
          (inside box 1 1) x = fmt1 (rep '#' n ++ py" {} " ++ rep '#' n) x := by
        show (fmt1 (rep '#' n ++ py" {} " ++ rep '#' n) x).bind (fun y => .ok y) = _
        cases fmt1 (rep '#' n ++ py" {} " ++ rep '#' n) x <;> rfl
      have ht : rep '#' n ++ py" {} " ++ rep '#' n = (rep '#' n ++ py" ") ++ py"{}" ++ (py" " ++ rep '#' n) := by simp
      have hsh : ∀ c ∈ rep '#' n, c ≠ '{' ∧ c ≠ '}' := by
        intro c hc
        rw [rep, List.mem_replicate] at hc
        rw [hc.2]; decide
      simp only [innerRender, this]
      rw [ht, fmt1_plain]
      · simp only [Except.map, rep, Int.toNat_natCast]
        simp
      · intro c hc
        rcases List.mem_append.1 hc with hc | hc
        · exact hsh c hc
        · simp at hc; rw [hc]; decide
      · intro c hc
        rcases List.mem_append.1 hc with hc | hc
        · simp at hc; rw [hc]; decide
        · exact hsh c hc
  obtain ⟨nd, hn, htag, -, -⟩ := rendered_elem h ht (by rintro rfl; revert hm; simp [headerLevels])
    (by rintro rfl; revert hm; simp [headerLevels])
  have hti : (tagInfo s.dom i).tag = some tag := by simp [tagInfo, hn, htag]
  have hin : (tag, RClass.mdHeader) ∈ plainStyle := by
    simp only [headerLevels, List.mem_cons, List.not_mem_nil, or_false, Prod.mk.injEq] at hm
    simp only [plainStyle, List.mem_cons, Prod.mk.injEq]
    rcases hm with ⟨rfl, -⟩ | ⟨rfl, -⟩ | ⟨rfl, -⟩ | ⟨rfl, -⟩ | ⟨rfl, -⟩ | ⟨rfl, -⟩ <;> simp
  rw [textOf_plain h hr ht hin (by rintro rfl; revert hm; simp [headerLevels]) (by rintro rfl; revert hm; simp [headerLevels])]
  simp only [headerLevels, List.mem_cons, List.not_mem_nil, or_false, Prod.mk.injEq] at hm
  rcases hm with ⟨rfl, rfl⟩ | ⟨rfl, rfl⟩ | ⟨rfl, rfl⟩ | ⟨rfl, rfl⟩ | ⟨rfl, rfl⟩ | ⟨rfl, rfl⟩ <;>
  exact key _ _ _ hti (by decide)

/-- Content without a line break gives one row; it is exactly as wide as the page if the header fits. -/
theorem C47_row (w : Int) (n : Nat) (x : Str) (hx : '\n' ∉ x) :
    padLines w (List.replicate n '#' ++ py" " ++ x ++ py" " ++ List.replicate n '#') =
      padTo w (List.replicate n '#' ++ py" " ++ x ++ py" " ++ List.replicate n '#') ∧
    (2 * (n : Int) + 2 + x.length ≤ w →
      ((padTo w (List.replicate n '#' ++ py" " ++ x ++ py" " ++ List.replicate n '#')).length : Int) = w) := by
  constructor
  · have hn : '\n' ∉ List.replicate n '#' ++ py" " ++ x ++ py" " ++ List.replicate n '#' := by
      simp [hx, List.mem_replicate]
    rw [padLines, splitCh_none _ _ hn]
    rfl
  · intro hle
    simp only [padTo, List.length_append, List.length_replicate, List.length_cons, List.length_nil]
    omega

/-- The page of a document without a box of its own. -/
example : room (Box.new 67 {} {} {} none none) = 67 := by decide

/-- `<h2>a{}b</h2>` -/
def c47Events : List Event := [.start py"h2" [], .data py"a{}b", .stop py"h2"]

example : (match feed asciiUni {} {} c47Events with
    | .ok s => match close asciiUni {} s with
      | .ok s' => decide ((s'.dom.nodes.map Node.tag)[0]? = some (some py"h2") ∧
          textOf asciiUni s' 5 (Box.new 20 {} {} {} none none) 0 = .ok py"\n## a{}b ##          \n")
      | _ => false
    | _ => false) = true := by decide

/-! ## C50, C51 -/

/-- In every document rendered with the default rules: the rows of a block quote are the lines of its content, each
after `> `. -/
theorem C50 (u : Uni) (c : Cfg) (es : List Event) (s : PState) (h : Rendered u c es s)
    (i : Nat) (hr : Unruled c s.dom i) (ht : HasTag s.dom i py"blockquote") (f : Nat) (box : Box) (x : Str) (ls : List Str)
    (hx : contents u s f (inside box 1 1 (some py"> {}")) i = .ok x) (hl : Lines x ls) :
    textOf u s (f + 1) box i = .ok (py"\n" ++ rows (room box) (ls.map (py"> " ++ ·)) ++ py"\n") := by
  rw [textOf_plain h hr ht (cls := .blockQuote) (by simp only [plainStyle, List.mem_cons, Prod.mk.injEq, List.cons.injEq]; simp)
    (by decide) (by decide)]
  rw [renderWith_block (inst := ⟨.blockQuote, newSettings .blockQuote,
    some (inside box 1 1 (some py"> {}")), tagInfo s.dom i, ⟨some [], none, none⟩⟩) rfl rfl (by simp) rfl, hx]
  have : quoteInner (newSettings .blockQuote) x = .ok (join py"\n" (ls.map (py"> " ++ ·))) := by
    show ((splitlines x).mapM (fmt1 py"> {}")).bind (fun y => .ok (join py"\n" y)) = _
    have e : ls.mapM (fmt1 py"> {}") = (.ok (ls.map (fun l => py"> " ++ l ++ [])) : Py _) := mapM_fmt py"> " [] (by decide) (by decide) ls
    rw [lines_splitlines hl, e]
    simp [Except.bind]
  simp only [Except.bind, innerRender, this, Except.map]
  rw [padLines_join]
  · rfl
  · intro l hm
    obtain ⟨l', h1, rfl⟩ := List.mem_map.1 hm
    have := oneLine_nl (lines_oneLine hl l' h1)
    simp [this]

/-- A quote whose content cannot be rendered cannot be rendered. -/
theorem C50_error (u : Uni) (c : Cfg) (es : List Event) (s : PState) (h : Rendered u c es s)
    (i : Nat) (hr : Unruled c s.dom i) (ht : HasTag s.dom i py"blockquote") (f : Nat) (box : Box) (e : PyErr)
    (hx : contents u s f (inside box 1 1 (some py"> {}")) i = .error e) : textOf u s (f + 1) box i = .error e := by
  rw [textOf_plain h hr ht (cls := .blockQuote) (by simp only [plainStyle, List.mem_cons, Prod.mk.injEq, List.cons.injEq]; simp)
    (by decide) (by decide)]
  rw [renderWith_block (inst := ⟨.blockQuote, newSettings .blockQuote,
    some (inside box 1 1 (some py"> {}")), tagInfo s.dom i, ⟨some [], none, none⟩⟩) rfl rfl (by simp) rfl, hx]
  rfl

/-- In every document rendered with the default rules: the rows of a `pre` element are the lines of its content, each
after four spaces. -/
theorem C51 (u : Uni) (c : Cfg) (es : List Event) (s : PState) (h : Rendered u c es s)
    (i : Nat) (hr : Unruled c s.dom i) (ht : HasTag s.dom i py"pre") (f : Nat) (box : Box) (x : Str) (ls : List Str)
    (hx : contents u s f (inside box 1 1) i = .ok x) (hl : Lines x ls) :
    textOf u s (f + 1) box i = .ok (py"\n" ++ rows (room box) (ls.map (py"    " ++ ·)) ++ py"\n") := by
  rw [textOf_plain h hr ht (cls := .pre) (by simp only [plainStyle, List.mem_cons, Prod.mk.injEq, List.cons.injEq]; simp)
    (by decide) (by decide)]
  rw [renderWith_block (inst := ⟨.pre, newSettings .pre,
    some (inside box 1 1), tagInfo s.dom i, ⟨some [], none, none⟩⟩) rfl rfl (by simp) rfl, hx]
  have : preInner (newSettings .pre) x = .ok (join py"\n" (ls.map (py"    " ++ ·))) := by
    show ((splitlines x).mapM (fun l => (fmt1 py"{}" l).bind (fun y => (.ok (rep ' ' 4 ++ y) : Py Str)))).bind
      (fun y => .ok (join py"\n" y)) = _
    have e : (fun l => (fmt1 py"{}" l).bind (fun y => (.ok (rep ' ' 4 ++ y) : Py Str))) = fmt1 (py"    " ++ py"{}" ++ []) := by
      funext l
      have h1 := fmt1_plain [] [] l (by decide) (by decide)
      simp only [List.nil_append, List.append_nil] at h1
      rw [fmt1_plain _ _ _ (by decide) (by decide), h1]
      simp [Except.bind, rep]
    rw [e, lines_splitlines hl, mapM_fmt py"    " [] (by decide) (by decide)]
    simp [Except.bind]
  simp only [Except.bind, innerRender, this, Except.map]
  rw [padLines_join]
  · rfl
  · intro l hm
    obtain ⟨l', h1, rfl⟩ := List.mem_map.1 hm
    have := oneLine_nl (lines_oneLine hl l' h1)
    simp [this]

/-- Every text has lines, and only one list of them. -/
theorem C51_lines (x : Str) : ∃ ls, Lines x ls ∧ ∀ ls', Lines x ls' → ls' = ls :=
  ⟨splitlines x, splitlines_lines x, fun _ h => (lines_splitlines h).symm⟩

/-- `<pre>a  b⏎⏎  {c</pre><blockquote>d<br>e</blockquote>` -/
def c51Events : List Event :=
  [.start py"pre" [], .data py"a  b\n\n  {c\n", .stop py"pre", .start py"blockquote" [], .data py"d", .start py"br" [],
   .data py"e", .stop py"blockquote"]

example : (match feed asciiUni {} {} c51Events with
    | .ok s => match close asciiUni {} s with
      | .ok s' => decide ((s'.dom.nodes.map Node.tag) = [some py"pre", none, some py"blockquote", none, some py"br", none] ∧
          contents asciiUni s' 4 (inside (Box.new 9 {} {} {} none none) 1 1) 0 = .ok py"a  b\n\n  {c\n" ∧
          textOf asciiUni s' 5 (Box.new 9 {} {} {} none none) 0 = .ok py"\n    a  b \n         \n      {c \n" ∧
          textOf asciiUni s' 5 (Box.new 5 {} {} {} none none) 2 = .ok py"\n> d  \n> e  \n")
      | _ => false
    | _ => false) = true := by decide
example : Lines py"a  b\n\n  {c\n" [py"a  b", [], py"  {c"] := by rw [lines_iff]; decide

/-! ## C60 -/

theorem skip_iff {d : Dom} {i : Nat} {n : Node} (hn : d.nodes[i]? = some n) : skipParagraph (tagInfo d i) = true ↔ OnlyCode d i := by
  have hk : (tagInfo d i).childTags = n.children.map (fun k => (d.nodes[k]?).bind Node.tag) := by simp [tagInfo, hn]
  have tag_iff : ∀ j t, (d.nodes[j]?).bind Node.tag = some t ↔ HasTag d j t := by
    intro j t
    unfold HasTag
    cases d.nodes[j]? with
    | none => simp
    | some m => simp
  unfold skipParagraph
  rw [hk]
  constructor
  · intro h
    cases hc : n.children with
    | nil => rw [hc] at h; simp at h
    | cons j js =>
      rw [hc] at h
      cases js with
      | cons k ks => simp at h
      | nil =>
        simp only [List.map_cons, List.map_nil] at h
        cases ht : (d.nodes[j]?).bind Node.tag with
        | none => rw [ht] at h; simp at h
        | some t =>
          rw [ht] at h
          simp only [Bool.or_eq_true, beq_iff_eq] at h
          refine ⟨n, j, hn, hc, ?_⟩
          rcases h with h | h
          · exact .inl ((tag_iff _ _).1 (h ▸ ht))
          · exact .inr ((tag_iff _ _).1 (h ▸ ht))
  · rintro ⟨m, j, hm, hc, ht⟩
    rw [hn] at hm; cases hm
    rw [hc]
    simp only [List.map_cons, List.map_nil]
    rcases ht with ht | ht <;> rw [(tag_iff _ _).2 ht] <;> decide

theorem textWidth_inside (parent : Box) (above below : Int) (a : Str) :
    (inside parent above below (some (a ++ py"{}"))).textWidth = textRoom parent - a.length := by
  have : ownTemplatePadding (some (a ++ py"{}")) = a.length := by
    cases a with
    | nil => rfl
    | cons c a => simp [ownTemplatePadding, templateWidth, len]; omega
  simp only [inside, Box.new, Box.textWidth, Sides.addTotals, this, textRoom, room]
  omega

theorem mapM_fmt_hole (ls : List Str) : ls.mapM (fmt1 py"{}") = (.ok ls : Py _) := by
  have : ls.mapM (fmt1 py"{}") = (.ok (ls.map (fun l => [] ++ l ++ [])) : Py _) := mapM_fmt [] [] (by decide) (by decide) ls
  rw [this]
  simp

/-- What a paragraph does with its content. -/
def paragraphBody (u : Uni) (t : TagInfo) (w : Int) (x : Str) : Py Str :=
  if skipParagraph t then .ok x
  else ((splitCh '\n' x).mapM (fun seg => leftJustify u (proseOpts u w) (strip seg))).map (join py"\n")

theorem paragraphInner_default {u : Uni} {S : Dict} (hS : S = newSettings .paragraph ∨ ∃ a b, S = DictOf.update (newSettings .paragraph) (margins a b))
    (t : TagInfo) (box : Box) (x : Str) : paragraphInner u S t box x = paragraphBody u t box.textWidth x := by
  have key : ∀ (m : Py (List Str)), m.bind (fun justified => ((splitCh '\n' (join py"\n" justified)).mapM (fmt1 py"{}")).bind
      (fun lines => (.ok (join py"\n" lines) : Py Str))) = m.map (join py"\n") := by
    intro m
    cases m with
    | error e => rfl
    | ok j =>
      simp only [Except.bind, mapM_fmt_hole, Except.map]
      rw [join_splitCh]
  have : paragraphInner u S t box x = if skipParagraph t then .ok x else
      ((splitCh '\n' x).mapM (fun seg => leftJustify u (proseOpts u box.textWidth) (strip seg))).bind
        (fun justified => ((splitCh '\n' (join py"\n" justified)).mapM (fmt1 py"{}")).bind
      (fun lines => (.ok (join py"\n" lines) : Py Str))) := by
    rcases hS with rfl | ⟨a, b, rfl⟩
    · rfl
    · rfl
  rw [this, paragraphBody, key]

/-- A paragraph and its style. -/
theorem textOf_p {u : Uni} {c : Cfg} {es : List Event} {s : PState} (h : Rendered u c es s)
    {i : Nat} (hr : Unruled c s.dom i) (ht : HasTag s.dom i py"p") (f : Nat) (box : Box) :
    ∃ above below, PSpace s.dom i above below ∧ textOf u s (f + 1) box i =
      ((contents u s f (inside box above below (some py"{}")) i).bind (paragraphBody u (tagInfo s.dom i) (textRoom box))).map
      (fun y => rep '\n' above ++ padLines (room box) y ++ rep '\n' below) := by
  obtain ⟨n, hn, htag, hd, hl⟩ := rendered_elem h ht (by decide) (by decide)
  obtain ⟨s0, s1, e0, e1, e2, hdom, -, -, -⟩ := rendered_inv h
  rw [hdom] at ht
  obtain ⟨a1, st, a2, a3⟩ := C61_p u c s0 s1 s es e0 e1 e2 i (hdom ▸ hr) ht
  rw [← hdom] at a3
  have key : ∀ (above below : Int) (S : Dict) (cont : Box → Py Str) (t : TagInfo) (ctx : Ctx),
      (S = newSettings .paragraph ∨ ∃ a b, S = DictOf.update (newSettings .paragraph) (margins a b)) →
      construct .paragraph t ctx box = .ok ⟨.paragraph, S, some (inside box above below (some py"{}")), t, ctx⟩ →
      renderWith u .paragraph t ctx box cont =
        ((cont (inside box above below (some py"{}"))).bind (paragraphBody u t (textRoom box))).map
          (fun y => rep '\n' above ++ padLines (room box) y ++ rep '\n' below) := by
    intro above below S cont t ctx hS hk
    rw [renderWith_block hk rfl (by simp) (by rcases hS with rfl | ⟨a, b, rfl⟩ <;> rfl)]
    have : innerRender u ⟨.paragraph, S, some (inside box above below (some py"{}")), t, ctx⟩ (inside box above below (some py"{}")) =
        paragraphBody u t (textRoom box) := by
      funext x
      have := textWidth_inside box above below []
      rw [List.nil_append, List.length_nil] at this
      simp only [innerRender, paragraphInner_default hS, this, Int.natCast_zero, Int.sub_zero]
    rw [this]
  rw [textOf_elem hn hd hl a1, a2]
  cases a3 with
  | only h1 h2 h3 => exact ⟨0, 0, .inl (.only h1 h2 h3), key 0 0 _ _ _ _ (.inr ⟨0, 0, rfl⟩) rfl⟩
  | first h1 h2 h3 => exact ⟨0, 1, .inl (.first h1 h2 h3), key 0 1 _ _ _ _ (.inr ⟨0, 1, rfl⟩) rfl⟩
  | last h1 h2 h3 => exact ⟨1, 0, .inl (.last h1 h2 h3), key 1 0 _ _ _ _ (.inr ⟨1, 0, rfl⟩) rfl⟩
  | inner h1 h2 h3 => exact ⟨1, 1, .inr ⟨.inner h1 h2 h3, rfl, rfl⟩, key 1 1 _ _ _ _ (.inl rfl) rfl⟩
  | free h1 => exact ⟨1, 1, .inr ⟨.free h1, rfl, rfl⟩, key 1 1 _ _ _ _ (.inl rfl) rfl⟩

theorem wrap_prose (u : Uni) (w : Int) (hw : 0 < w) (x : Str) : ∃ lines, wrap u (proseOpts u w) x = .ok lines :=
  C19_partial u _ x rfl hw (.inr ⟨by simp [proseOpts, len]; omega, by simp [proseOpts, len]; omega⟩)

theorem wrapped_each (u : Uni) (w : Int) (hw : 0 < w) (segs : List Str) :
    ∃ parts, WrappedEach u (proseOpts u w) segs parts ∧
      segs.mapM (fun seg => leftJustify u (proseOpts u w) (strip seg)) = .ok (parts.map (join py"\n")) := by
  induction segs with
  | nil => exact ⟨[], trivial, rfl⟩
  | cons x xs ih =>
    obtain ⟨ps, h1, h2⟩ := ih
    obtain ⟨p, hp⟩ := wrap_prose u w hw (strip x)
    refine ⟨p :: ps, ⟨hp, h1⟩, ?_⟩
    rw [List.mapM_cons, h2]
    simp [leftJustify, hp, Except.map, bind, Except.bind, pure, Except.pure]

theorem wrappedEach_nl {u : Uni} {w : Int} {segs : List Str} {parts : List (List Str)} (h : WrappedEach u (proseOpts u w) segs parts) :
    ∀ p ∈ parts, ∀ l ∈ p, '\n' ∉ l := by
  induction segs generalizing parts with
  | nil => cases parts with | nil => simp | cons p ps => exact h.elim
  | cons x xs ih =>
    cases parts with
    | nil => exact h.elim
    | cons p ps =>
      intro q hq
      rcases List.mem_cons.1 hq with rfl | hq
      · exact wrap_noNl (o := proseOpts u w) rfl rfl (by simp [proseOpts]) (by simp [proseOpts]) h.1
      · exact ih h.2 q hq

/-- A part without lines still takes one. -/
def partLines (p : List Str) : List Str := if p = [] then [[]] else p

theorem partLines_ne (p : List Str) : partLines p ≠ [] := by
  unfold partLines
  by_cases h : p = []
  · rw [if_pos h]; simp
  · rw [if_neg h]; exact h

theorem join_parts (parts : List (List Str)) :
    join py"\n" (parts.map (join py"\n")) = join py"\n" (parts.map partLines).flatten := by
  have one : ∀ p, join py"\n" p = join py"\n" (partLines p) := by
    intro p; unfold partLines; split
    · rename_i h; rw [h]; rfl
    · rfl
  induction parts with
  | nil => rfl
  | cons p ps ih =>
    rw [List.map_cons, List.map_cons, List.flatten_cons]
    by_cases hps : ps = []
    · subst hps; simp [join]; exact one p
    · have h1 : partLines p ≠ [] := partLines_ne p
      have h2 : (ps.map partLines).flatten ≠ [] := by
        cases ps with
        | nil => exact absurd rfl hps
        | cons q qs =>
          have := partLines_ne q
          simp [this]
      rw [join_cons _ _ _ (by simpa using hps), ih, join_append _ _ _ h1 h2, one p]

/-- In every document rendered with the default rules: a paragraph consists of its segments between line breaks, each
wrapped by itself to the width and starting on a new row; an empty segment is an empty row. -/
theorem C60 (u : Uni) (c : Cfg) (es : List Event) (s : PState) (h : Rendered u c es s)
    (i : Nat) (hr : Unruled c s.dom i) (ht : HasTag s.dom i py"p") (hs : ¬ OnlyCode s.dom i) (f : Nat) (box : Box) (hw : 0 < textRoom box) :
    ∃ above below, PSpace s.dom i above below ∧ ∀ segs : List Str, (∀ l ∈ segs, '\n' ∉ l) → segs ≠ [] →
      contents u s f (inside box above below (some py"{}")) i = .ok (join py"\n" segs) →
      ∃ parts, WrappedEach u (proseOpts u (textRoom box)) segs parts ∧ textOf u s (f + 1) box i =
        .ok (rep '\n' above ++ rows (room box) (parts.map (fun p => if p = [] then [[]] else p)).flatten ++ rep '\n' below) := by
  obtain ⟨above, below, h1, h2⟩ := textOf_p h hr ht f box
  obtain ⟨n, hn, -, -, -⟩ := rendered_elem h ht (by decide) (by decide)
  refine ⟨above, below, h1, fun segs hl hne hx => ?_⟩
  obtain ⟨parts, p1, p2⟩ := wrapped_each u (textRoom box) hw segs
  refine ⟨parts, p1, ?_⟩
  have hsk : skipParagraph (tagInfo s.dom i) = false := by
    cases hk : skipParagraph (tagInfo s.dom i) with
    | false => rfl
    | true => exact absurd ((skip_iff hn).1 hk) hs
  rw [h2, hx]
  simp only [Except.bind, paragraphBody, hsk, Bool.false_eq_true, if_false]
  rw [splitCh_join _ _ hne hl, p2]
  simp only [Except.map]
  rw [join_parts, padLines_join]
  · rfl
  · intro l hl
    obtain ⟨p', hp', hl⟩ := List.mem_flatten.1 hl
    obtain ⟨p, hp, rfl⟩ := List.mem_map.1 hp'
    unfold partLines at hl
    split at hl
    · simp at hl; simp [hl]
    · exact wrappedEach_nl p1 p hp l hl

/-- A paragraph whose only child is `code` or `pre` is not wrapped. -/
theorem C60_code (u : Uni) (c : Cfg) (es : List Event) (s : PState) (h : Rendered u c es s)
    (i : Nat) (hr : Unruled c s.dom i) (ht : HasTag s.dom i py"p") (hs : OnlyCode s.dom i) (f : Nat) (box : Box) :
    ∃ above below, PSpace s.dom i above below ∧ textOf u s (f + 1) box i =
      (contents u s f (inside box above below (some py"{}")) i).map (fun x =>
        rep '\n' above ++ padLines (room box) x ++ rep '\n' below) := by
  obtain ⟨above, below, h1, h2⟩ := textOf_p h hr ht f box
  obtain ⟨n, hn, -, -, -⟩ := rendered_elem h ht (by decide) (by decide)
  refine ⟨above, below, h1, ?_⟩
  rw [h2]
  cases contents u s f (inside box above below (some py"{}")) i with
  | error e => rfl
  | ok x => simp only [Except.bind, paragraphBody, (skip_iff hn).2 hs, if_true, Except.map]

/-- A `br` element is a line break in the content around it. -/
theorem C60_br (u : Uni) (c : Cfg) (es : List Event) (s : PState) (h : Rendered u c es s)
    (i : Nat) (hr : Unruled c s.dom i) (ht : HasTag s.dom i py"br") (f : Nat) (box : Box) :
    textOf u s (f + 1) box i = (contents u s f box i).map (fun _ => py"\n") := by
  rw [textOf_plain h hr ht (cls := .brk) (by simp only [plainStyle, List.mem_cons, Prod.mk.injEq, List.cons.injEq]; simp)
    (by decide) (by decide)]
  refine renderWith_inline rfl rfl _ (fun x => ?_)
  rfl

/-- `<p>aa bb cc<br><br>dd</p>` in a box of 6 columns. -/
def c60Events : List Event :=
  [.start py"p" [], .data py"aa bb cc", .start py"br" [], .start py"br" [], .data py"dd", .stop py"p"]

example : (match feed asciiUni {} {} c60Events with
    | .ok s => match close asciiUni {} s with
      | .ok s' => decide ((s'.dom.nodes.map Node.tag)[0]? = some (some py"p") ∧
          contents asciiUni s' 4 (inside (Box.new 6 {} {} {} none none) 1 1 (some py"{}")) 0 =
            .ok (join py"\n" [py"aa bb cc", [], py"dd"]) ∧
          textOf asciiUni s' 5 (Box.new 6 {} {} {} none none) 0 = .ok py"\naa bb \ncc    \n      \ndd    \n")
      | _ => false
    | _ => false) = true := by decide
example : WrappedEach asciiUni (proseOpts asciiUni 6) [py"aa bb cc", [], py"dd"] [[py"aa bb", py"cc"], [], [py"dd"]] := by
  simp only [WrappedEach]; decide

end Verif
