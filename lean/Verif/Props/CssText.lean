import Verif.Spec.CssText
import Verif.Proofs.Tables
import Verif.Props.Cascade
import Verif.Props.Selectors
import Verif.Model.Tokenizer

/-!
# C71, C72: selectors as text, and the tables of renderers with them
-/

namespace Verif

open Spec

/-! ## C71 -/

/-- Every text of the grammar is read as what the grammar says it means. -/
theorem C71_read (t : CssText) (h : t.Ok) : cssParse t.src = .ok t.meaning := by
  rw [cssParse_slow, slow_text h]

/-- A rule written as text applies to exactly the elements that CSS says it does. Missing: pseudo-elements, `:nth-child()` with
anything but a positive number, other pseudo-classes, and attributes the program reads differently (see the `_fails` below). -/
theorem C71_partial (u : Uni) (c : Cfg) (s0 s : PState) (es : List Event) (h0 : initParser c = .ok s0)
    (h : feed u c s0 es = .ok s) (i : Nat) (hi : IsElem s.dom i) (t : CssText) (ht : t.Ok)
    (hr : ∀ x ∈ t.meaning, x.pseudoElement = false ∧ Matchable (srcAttrs es) x.tree) :
    ∃ sels m best, cssParse t.src = .ok sels ∧ tagMatches s.dom (.node i) sels = .ok (m, best) ∧
      (m = true ↔ ∃ x ∈ t.meaning, Css s.dom (srcAttrs es) x.tree i) := by
  have hd : ∀ x ∈ t.meaning, ∃ b, selMatch s.dom x.tree (.node i) = .ok b ∧ (b = true ↔ Css s.dom (srcAttrs es) x.tree i) :=
    fun x hx => C04_nested u c s0 s es h0 h i hi x.tree (hr x hx).2
  obtain ⟨m, best, h1, h2, -, -⟩ := C06 s.dom (.node i) t.meaning (fun x hx => by
    obtain ⟨b, hb, -⟩ := hd x hx
    exact ⟨b, hb⟩)
  refine ⟨t.meaning, m, best, C71_read t ht, h1, h2.trans ⟨?_, ?_⟩⟩
  · rintro ⟨x, hx, hm⟩
    obtain ⟨b, hb, hc⟩ := hd x hx
    rw [hb] at hm
    cases hm
    exact ⟨x, hx, hc.1 rfl⟩
  · rintro ⟨x, hx, hm⟩
    obtain ⟨b, hb, hc⟩ := hd x hx
    exact ⟨x, hx, by rw [hb, hc.2 hm]⟩

/-- Every other text gives a list with at least one selector or is refused with the exception of cssselect; nothing else happens. -/
theorem C71_total (s : Str) : (∃ l, cssParse s = .ok l ∧ l ≠ []) ∨ cssParse s = .error .selectorSyntax := cssParse_total s

/-- The grammar is not ambiguous. -/
theorem C71_unique (t t' : CssText) (h : t.Ok) (h' : t'.Ok) (e : t.src = t'.src) : t.meaning = t'.meaning := by
  have h1 := C71_read t h
  rw [e, C71_read t' h'] at h1
  exact (Except.ok.inj h1).symm

/-- ` ul.a:not( #b) >/* c */li [ href ^= "gopher:\3A x" ],\tp.\31 2\.b:nth-child(2n + 1)::x ` -/
def c71Text : CssText :=
  let gap := blankGap py" "
  let none' := blankGap []
  ⟨gap,
    ⟨⟨.name (plainWord py"ul"), [.part (.cls (plainWord py"a")), .neg (plainWord py"not") gap .nothing [.id (plainWord py"b")]]⟩,
      [(.child gap ⟨[py" c "], [], []⟩, ⟨.name (plainWord py"li"), []⟩),
        (.desc gap, ⟨.nothing, [.part (.attr gap (plainWord py"href") gap .pre gap
          (.double (plainWord py"gopher" ++ [.code py"3A" py" ", .plain 'x', .joint py"\n", .escaped '"'])) gap)]⟩)], none⟩,
    [(none', blankGap py"\t", ⟨⟨.name (plainWord py"p"), [.part (.cls [.code py"31" py" ", .plain '2', .escaped '.', .plain 'b']),
      .part (.func (plainWord py"nth-child") none' [(.number [] py"2", none'), (.value (.bare (plainWord py"n")), gap), (.plus, gap), (.number [] py"1", none')])]⟩, [], some (plainWord py"x")⟩)], gap⟩

example : c71Text.src = py" ul.a:not( #b) >/* c */li [ href ^= \"gopher\\3A x\\\n\\\"\" ],\tp.\\31 2\\.b:nth-child(2n + 1)::x " ∧
    c71Text.meaning =
      [⟨.comb (.comb (.neg (.cls (elt py"ul") py"a") (.hash (.element none) py"b")) .child (elt py"li")) .desc
          (.attrib (.element none) py"href" .pre py"gopher:x\""), false⟩,
       ⟨.func (.cls (elt py"p") py"12.b") py"nth-child" [py"2", py"n", py"+", py"1"], true⟩] ∧
    cssParse c71Text.src = .ok c71Text.meaning := by decide +kernel

example : c71Text.Ok := by
  have hi : ∀ n ∈ [py"ul", py"a", py"not", py"li", py"href", py"p", py"nth-child", py"n", py"x"], CssIdent (plainWord n) := by
    intro n hn
    have : n ≠ [] ∧ (∀ c ∈ n.take 1, 'a' ≤ c ∧ c ≤ 'z') ∧ ∀ c ∈ n, ('a' ≤ c ∧ c ≤ 'z') ∨ c = '-' := by revert n; decide
    cases n with
    | nil => exact absurd rfl this.1
    | cons c r =>
      refine plainWord_ident (.inr (.inl (this.2.1 c (by simp)))) (fun x hx => ?_)
      rcases this.2.2 x (by simp [hx]) with h | h
      · exact .inl (.inr (.inl h))
      · exact .inr (.inr h)
  have hg : ∀ b ∈ [py" ", py"\t", py""], (blankGap b).Ok := by
    intro b hb
    refine blankGap_ok ?_
    simp only [List.mem_cons, List.not_mem_nil, or_false] at hb
    rcases hb with rfl | rfl | rfl <;> simp [CssSpace]
  have g1 := hg py" " (by simp)
  have g2 := hg [] (by simp)
  have hb : CssPart.Ok (.id (plainWord py"b")) :=
    ⟨by simp [plainWord], plainWord_ok (by simp only [List.mem_cons, List.not_mem_nil, or_false]; rintro c rfl; exact .inl (.inr (.inl (by decide)))),
      plainWord_end _ _⟩
  have code : ∀ (P : Char → Prop) (ds : Str), ds ∈ [py"3A", py"31"] → CssChar.Ok P (.code ds py" ") := by
    intro P ds hd
    simp only [List.mem_cons, List.not_mem_nil, or_false] at hd
    rcases hd with rfl | rfl <;> exact ⟨by decide, by decide, by decide, by decide, by decide, by decide, by decide⟩
  refine ⟨g1, ⟨⟨hi _ (by simp), ?_, by intro h; cases h⟩, ?_, by intro n h; cases h⟩, ?_, g1⟩
  · intro i h
    simp only [c71Text, List.mem_cons, List.not_mem_nil, or_false] at h
    rcases h with rfl | rfl
    · exact hi _ (by simp)
    · exact ⟨hi _ (by simp), by decide, g1, trivial, by simpa using hb, by simp⟩
  · intro x h
    simp only [c71Text, List.mem_cons, List.not_mem_nil, or_false] at h
    rcases h with rfl | rfl
    · exact ⟨⟨g1, by decide, by simp⟩, hi _ (by simp), by simp, by intro h; cases h⟩
    · refine ⟨⟨by simp [blankGap], g1⟩, trivial, ?_, by simp⟩
      simp only [List.mem_cons, List.not_mem_nil, or_false]
      rintro i rfl
      refine ⟨g1, hi _ (by simp), g1, by simp, g1, ⟨?_, ?_⟩, g1⟩
      · intro c hc
        simp only [plainWord, List.map_cons, List.map_nil, List.mem_append, List.mem_cons, List.not_mem_nil, or_false] at hc
        have plain : ∀ d ∈ py"gopherx", CssChar.InString (StringChar '"') (.plain d) := by
          have : ∀ d ∈ py"gopherx", d ≠ '"' ∧ d ≠ '\\' ∧ d ≠ '\n' ∧ d ≠ '\r' ∧ d ≠ '\x0c' := by decide
          exact this
        rcases hc with (rfl | rfl | rfl | rfl | rfl | rfl) | rfl | rfl | rfl | rfl
        · exact plain _ (by simp)
        · exact plain _ (by simp)
        · exact plain _ (by simp)
        · exact plain _ (by simp)
        · exact plain _ (by simp)
        · exact plain _ (by simp)
        · exact code (StringChar '"') py"3A" (by simp)
        · exact plain _ (by simp)
        · exact List.mem_cons_self ..
        · exact ⟨by decide, by decide⟩
      · simp [plainWord, CodesEnd]
  · intro x h
    simp only [c71Text, List.mem_cons, List.not_mem_nil, or_false] at h
    subst h
    refine ⟨g2, hg _ (by simp), ⟨hi _ (by simp), ?_, by simp⟩, by simp, ?_⟩
    · simp only [List.mem_cons, List.not_mem_nil, or_false]
      rintro i (rfl | rfl)
      · refine ⟨⟨[], _, _, rfl, .inl rfl, code _ _ (by simp), ?_⟩, by simp [CodesEnd]⟩
        simp only [List.mem_cons, List.not_mem_nil, or_false]
        rintro x (rfl | rfl | rfl)
        · exact .inr (.inl (by decide))
        · exact ⟨by decide, by decide⟩
        · exact .inl (.inr (.inl (by decide)))
      · refine ⟨hi _ (by simp), by simp only [PseudoName, plainWord_value]; decide, g2, ⟨by simp, by simp, by decide⟩, g2, ?_,
          hi _ (by simp), g1, ?_, trivial, g1, ?_, ⟨by simp, by simp, by decide⟩, g2, ?_, trivial⟩ <;> (intro c hc; cases hc)
        · exact ⟨by decide, by decide⟩
        · simp only [IdentChar, IdentStart]; decide
        · exact ⟨by decide, by decide⟩
        · exact ⟨by decide, by decide⟩
    · intro n h
      cases h
      exact hi _ (by simp)

/-- Escaped backslashes are read again as the beginning of an escape. The class of `.\\61` is `\61`, but the reader finds `a`; that of `.\5c x` is `\x`, but the reader finds `x`. -/
theorem C71_backslash_fails : cssParse py".\\\\61" = .ok [⟨.cls (.element none) py"a", false⟩] ∧
    cssParse py".\\5c x" = .ok [⟨.cls (.element none) py"x", false⟩] := by decide +kernel

/-- The end of a line in a string that goes on after a number: `"\41` and `42"` are read as the one character U+4142. -/
theorem C71_line_fails : cssParse py"[x='\\41\\\n42']" = .ok [⟨.attrib (.element none) py"x" .eq [Char.ofNat 0x4142], false⟩] := by
  decide +kernel

/-- A comment with blanks on both sides is refused before combinators, commas and the end of the text, in brackets and before the
end of arguments; without one of the blanks it is not. -/
theorem C71_comment_fails :
    (∀ s ∈ [py"a /* x */ > b", py"a /* x */ , b", py"a /* x */ ", py"[ /* x */ y]", py"[x /* y */ =z]", py"[x= /* y */ z]", py"[x=y /* z */ ]",
      py":nth-child(2 /* x */ )"], cssParse s = .error .selectorSyntax) ∧
    (∀ s ∈ [py"a/* x */ > b", py"a /* x */> b"], cssParse s = .ok [⟨.comb (elt py"a") .child (elt py"b"), false⟩]) := by decide +kernel

/-- Texts that are refused; `:not(a )` is good CSS. -/
example : ∀ s ∈ [py"", py" ", py"a,", py",a", py"a >", py"> a", py"a..b", py"a#", py"[x", py"[x=]", py"[x='y]", py"[=y]", py":not()",
    py":not(:not(a))", py":not(a b)", py":not(a )", py"a:", py"a::b c", py"a b)", py"4", py"a:nth-child(", py"a !b"], cssParse s = .error .selectorSyntax := by
  decide +kernel

/-- The tables of the program: every selector is read as the tree the other properties speak of. -/
theorem C71_defaults : readRules (tableOf defaultRules) = .ok defaultRules ∧ readRules (tableOf defaultLinkRules) = .ok defaultLinkRules :=
  defaults_read

theorem C71_themes (t : List Rule) (h : t ∈ bundledThemes) : readRules (tableOf t) = .ok t := themes_read t h

/-- The document of a source text. -/
def docOf (src : Str) : Py Dom := do
  let s ← feedHtml asciiUni {} { tok := {}, state := {} } src
  return s.state.dom

/-- Whether a rule with this text applies to a node. -/
def applies (d : Dom) (text : Str) (i : Nat) : Py Bool := do
  let sels ← cssParse text
  return (← tagMatches d (.node i) sels).1

/-- `:nth-child(2n+1)`, the odd elements, is taken for `:nth-child(2)`; `:nth-child(odd)` raises an exception. -/
theorem C71_nth_fails : ∃ d, docOf py"<ol><li>a</li><li>b</li><li>c</li></ol>" = .ok d ∧
    [1, 3, 5].map (applies d py"li:nth-child(2n+1)") = [.ok false, .ok true, .ok false] ∧
    applies d py"li:nth-child(odd)" 1 = .error .valueError := ⟨_, rfl, by decide +kernel, by decide +kernel⟩

/-- A rule for a pseudo-element is used for the whole element. -/
theorem C71_element_fails : ∃ d, docOf py"<p>a</p>" = .ok d ∧ applies d py"p::first-line" 0 = .ok true ∧
    applies d py"p:before" 0 = .ok true := ⟨_, rfl, by decide +kernel, by decide +kernel⟩

/-- Names of elements are compared with their case, but the reader of HTML has made them lower case. -/
theorem C71_case_fails : ∃ d, docOf py"<P>a</P>" = .ok d ∧ applies d py"P" 0 = .ok false ∧ applies d py"p" 0 = .ok true :=
  ⟨_, rfl, by decide +kernel, by decide +kernel⟩

/-- Namespaces are read and then forgotten: a name in some namespace stands for the name in any. -/
theorem C71_namespace_fails : ∃ d, docOf py"<p title=x>a</p>" = .ok d ∧ applies d py"svg|p" 0 = .ok true ∧ applies d py"*|p" 0 = .ok true ∧
    applies d py"svg|*" 0 = .ok true ∧ applies d py"[xlink|title]" 0 = .ok true ∧ applies d py"[xlink|title=x]" 0 = .ok true :=
  ⟨_, rfl, by decide +kernel, by decide +kernel, by decide +kernel, by decide +kernel, by decide +kernel⟩

/-- Other pseudo-classes of CSS are read, and match nothing. -/
theorem C71_pseudo_fails (d : Dom) (sel : Sel) (n : Str) (h : n ≠ py"first-child" ∧ n ≠ py"last-child") (p : Par) :
    selMatch d (.pseudo sel n) p = .ok false := by
  simp [selMatch, h.1, h.2]

example : cssParse py"p:only-child" = .ok [⟨.pseudo (elt py"p") py"only-child", false⟩] ∧
    cssParse py":root" = .ok [⟨.pseudo (.element none) py"root", false⟩] := by decide +kernel

/-! ## C72 -/

/-- The constructor's tables: the selectors of the user's table are read, the rules replace the defaults or are added; the entry
`''` is the renderer for everything else. -/
theorem C72_tables (c : Cfg) (s0 : PState) (h0 : initParser c = .ok s0) (user links : DictOf RSpec) (hu : (user.map Prod.fst).Nodup)
    (rs ls : List Rule) (hr : readRules (user.filter (fun x => decide (x.1 ≠ []))) = .ok rs) (hl : readRules links = .ok ls) :
    let c' : Cfg := { c with renderers := rs, linkRenderers := ls, defaultRenderer := (DictOf.get user []).getD (.cls .renderer) }
    initTables c user links = .ok (c'.rules, c'.linkRules, c'.defaultRenderer) := by
  have hh := update_head user (tableOf defaultRules) (.cls .renderer)
  rw [DictOf.get_reverse_of_nodup user hu] at hh
  have e1 := readRules_update defaults_read.1 hr
  have e2 := readRules_update defaults_read.2 hl
  simp only [initTables, h0, bind, Except.bind, defaultTable]
  rw [hh]
  simp only [DictOf.get_cons, if_true, DictOf.erase]
  simp only [namedEntries]
  rw [e1, e2]
  rfl

/-- It refuses exactly the two combinations of options, and tables with a text that is not a selector. -/
theorem C72 (c : Cfg) (user links : DictOf RSpec) (hu : (user.map Prod.fst).Nodup) :
    ((∃ r, initTables c user links = .ok r) ↔
      (c.outputFormat = py"gophermap" → c.linkPlacement ≠ py"inline" ∧ c.gopherHost ≠ []) ∧
      (∀ x ∈ user, x.1 ≠ [] → GoodKey x.1) ∧ (∀ x ∈ links, GoodKey x.1)) ∧
    (initTables c user links = .error .valueError ↔
      c.outputFormat = py"gophermap" ∧ (c.linkPlacement = py"inline" ∨ c.gopherHost = [])) ∧
    (∀ e, initTables c user links = .error e → e = .valueError ∨ e = .selectorSyntax) := by
  by_cases hopt : c.outputFormat = py"gophermap" ∧ (c.linkPlacement = py"inline" ∨ c.gopherHost = [])
  · have hi : initParser c = .error .valueError := by
      unfold initParser
      rcases hopt with ⟨h1, h2 | h2⟩
      · rw [if_pos ⟨h1, h2⟩]
      · split
        · rfl
        · rw [if_pos ⟨h1, h2⟩]
    have he : initTables c user links = .error .valueError := by simp [initTables, hi, bind, Except.bind]
    rw [he]
    refine ⟨⟨(by rintro ⟨r, h⟩; cases h), ?_⟩, by simpa using hopt, ?_⟩
    · rintro ⟨h, -, -⟩
      rcases hopt.2 with h2 | h2
      · exact absurd h2 (h hopt.1).1
      · exact absurd h2 (h hopt.1).2
    · rintro e h
      cases h
      exact .inl rfl
  · have hi : initParser c = .ok {} := by
      unfold initParser
      rw [if_neg (fun h => hopt ⟨h.1, .inl h.2⟩), if_neg (fun h => hopt ⟨h.1, .inr h.2⟩)]
    have hopt' : c.outputFormat = py"gophermap" → c.linkPlacement ≠ py"inline" ∧ c.gopherHost ≠ [] :=
      fun h => ⟨fun e => hopt ⟨h, .inl e⟩, fun e => hopt ⟨h, .inr e⟩⟩
    by_cases hg : (∀ x ∈ user, x.1 ≠ [] → GoodKey x.1) ∧ (∀ x ∈ links, GoodKey x.1)
    · obtain ⟨rs, hr⟩ := readRules_good (t := user.filter (fun x => decide (x.1 ≠ []))) (fun x hx => by
        have := List.mem_filter.1 hx
        exact hg.1 x this.1 (by simpa using this.2))
      obtain ⟨ls, hl⟩ := readRules_good (t := links) hg.2
      rw [C72_tables c {} hi user links hu rs ls hr hl]
      exact ⟨⟨fun _ => ⟨hopt', hg⟩, fun _ => ⟨_, rfl⟩⟩, ⟨(by intro h; cases h), fun h => absurd h hopt⟩, by intro e h; cases h⟩
    · have he : initTables c user links = .error .selectorSyntax := by
        have hh := update_head user (tableOf defaultRules) (.cls .renderer)
        simp only [initTables, hi, bind, Except.bind, defaultTable]
        rw [hh]
        simp only [DictOf.get_cons, if_true, DictOf.erase, namedEntries]
        by_cases h1 : ∀ x ∈ user, x.1 ≠ [] → GoodKey x.1
        · have h2 : ∃ x ∈ links, ¬ GoodKey x.1 := by
            apply Classical.byContradiction
            intro hn
            exact hg ⟨h1, fun x hx => Classical.byContradiction (fun hk => hn ⟨x, hx, hk⟩)⟩
          obtain ⟨rs, hr⟩ := readRules_good (t := user.filter (fun x => decide (x.1 ≠ []))) (fun x hx => by
            have := List.mem_filter.1 hx
            exact h1 x this.1 (by simpa using this.2))
          rw [readRules_update defaults_read.1 hr]
          simp only
          rw [readRules_bad (bad_update h2)]
        · have h2 : ∃ x ∈ user.filter (fun x => decide (x.1 ≠ [])), ¬ GoodKey x.1 := by
            apply Classical.byContradiction
            intro hn
            exact h1 (fun x hx hne => Classical.byContradiction (fun hk => hn ⟨x, by simp [hx, hne], hk⟩))
          rw [readRules_bad (bad_update h2)]
      rw [he]
      refine ⟨⟨(by rintro ⟨r, h⟩; cases h), fun h => absurd h.2 hg⟩, ⟨(by intro h; cases h), fun h => absurd h hopt⟩, ?_⟩
      intro e h
      cases h
      exact .inr rfl

/-- The entry `''` is accepted for the renderers of elements, but not for those of extracted links. -/
theorem C72_default (spec : RSpec) : (∃ r, initTables {} [([], spec)] [] = .ok r) ∧
    initTables {} [] [([], spec)] = .error .selectorSyntax := by
  constructor
  · exact ((C72 {} [([], spec)] [] (by simp)).1).2 ⟨(by intro h; cases h), by simp, by simp⟩
  · have hn : ¬ GoodKey [] := by
      rintro ⟨l, h⟩
      have : cssParse [] = .error .selectorSyntax := by decide +kernel
      rw [this] at h
      cases h
    have h := C72 {} [] [([], spec)] (by simp)
    rcases hx : initTables {} [] [([], spec)] with e | r
    · rcases h.2.2 e hx with rfl | rfl
      · exact absurd (h.2.1.1 hx).1 (by decide)
      · rfl
    · exact absurd (((h.1).1 ⟨r, hx⟩).2.2 ([], spec) (by simp)) hn

end Verif
