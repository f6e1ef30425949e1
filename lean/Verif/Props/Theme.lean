import Verif.Proofs.Theme
import Verif.Props.Nested

/-!
# The bundled colour themes: C63
-/

namespace Verif

open Spec

/-- The renderer and the settings an element gets. -/
theorem themed_assigned {u : Uni} {c : Cfg} {es : List Event} {s : PState} (h : Rendered u c es s) {i : Nat} {n : Node}
    (hn : s.dom.nodes[i]? = some n) {cls : RClass} {st : Dict} (hg : getRenderer c s.dom i = .ok (.pair (some cls) (some st))) :
    (assignedTo s.assigned i).renderer = some cls ∧ (assignedTo s.assigned i).settings = some st := by
  obtain ⟨s0, s1, e0, e1, e2, hdom, -, -, -⟩ := rendered_inv h
  rw [hdom] at hn hg
  have ha := (closed_assigned e0 e1 e2 i n hn).2
  simp only [assignVal, hg, bind, Except.bind, pure, Except.pure] at ha
  split at ha
  · split at ha
    · cases hl : getLinkRenderer c s1.dom i with
      | error e => rw [hl] at ha; cases ha
      | ok l => rw [hl] at ha; simp only [Except.ok.injEq] at ha; rw [← ha]; cases l <;> simp [assignLink, assignOwn]
    · simp only [Except.ok.injEq] at ha; rw [← ha]; simp [assignOwn]
  · simp only [Except.ok.injEq] at ha; rw [← ha]; simp [assignOwn]

theorem themed_renderer {u : Uni} {c : Cfg} {es : List Event} {s : PState} (h : Rendered u c es s) {i : Nat} {n : Node}
    (hn : s.dom.nodes[i]? = some n) : ∃ spec, getRenderer c s.dom i = .ok spec := by
  obtain ⟨s0, s1, e0, e1, e2, hdom, -, -, -⟩ := rendered_inv h
  rw [hdom] at hn ⊢
  have ha := (closed_assigned e0 e1 e2 i n hn).2
  cases hg : getRenderer c s1.dom i with
  | error e => simp [assignVal, hg, bind, Except.bind] at ha
  | ok spec => exact ⟨spec, rfl⟩

/-- The control sequences of an element that some rule of a theme matches. -/
theorem theme_codes {c : Cfg} {theme : List Rule} (ht : theme ∈ bundledThemes) (hr : c.renderers = theme) (u : Uni) {d : Dom} {i : Nat}
    {spec : RSpec} (hg : getRenderer c d i = .ok spec) (htouch : ¬ Untouched d theme i) :
    ∃ st on off, spec = .pair (some .ansi) (some st) ∧ ThemeCodes d theme i on off ∧
      (∀ x p, Strips u x p → Strips u ((on.map sgrText).flatten ++ x ++ (off.map sgrText).flatten) p) ∧
      ∀ t link target box, ∃ inst, construct .ansi t ⟨some st, link, target⟩ box = .ok inst ∧ inst.box = none ∧
        ∀ x, inst.render u x = .ok ((on.map sgrText).flatten ++ x ++ (off.map sgrText).flatten) := by
  obtain ⟨st, rfl, hg, hnd⟩ := theme_touched ht hr hg htouch
  have hset := fun k hk => theme_setting ht hr hg (k := k) hk
  have hok : ∀ k v, k ≠ py"margin" → DictOf.get st k = some v → settingOk (k, v) = true := by
    intro k v hk hv
    obtain ⟨r, ⟨A, B, sp, e, -⟩, hrv⟩ := (hset k hk).1 v hv
    exact ruleOk_setting (theme_rule ht (by rw [e]; simp)) hrv
  obtain ⟨inst, hc, hget⟩ : ∃ inst, (∀ box, construct .ansi (tagInfo d i) ⟨some st, none, none⟩ box = .ok inst) ∧
      ∀ k, DictOf.get inst.settings k = (DictOf.get st k).or (DictOf.get (newSettings .ansi) k) := by
    refine ⟨_, fun box => rfl, fun k => ?_⟩
    exact get_adjust (newSettings .ansi) ⟨some st, none, none⟩ k (by intro l hl; cases hl; exact hnd)
  have hfix : ∀ k w, k ≠ py"margin" → (∀ v, settingOk (k, v) = false) → DictOf.get (newSettings .ansi) k = some w →
      DictOf.get inst.settings k = some w := by
    intro k w hk hf hw
    rw [hget, hw]
    cases hv : DictOf.get st k with
    | none => rfl
    | some v => exact absurd (hok k v hk hv) (by simp [hf v])
  have hcol : ∀ k, k = py"foreground_colour" ∨ k = py"background_colour" →
      ∃ v col, DictOf.get inst.settings k = some v ∧ Chosen v col ∧ ThemeColour d theme i k col := by
    intro k hk
    have hk' : k ≠ py"margin" := by rcases hk with rfl | rfl <;> decide
    have hdef : DictOf.get (newSettings .ansi) k = some .none := by rcases hk with rfl | rfl <;> decide
    rw [hget, hdef]
    cases hv : DictOf.get st k with
    | none => exact ⟨_, none, rfl, .inl ⟨rfl, rfl⟩, .inr ⟨(hset k hk').2 hv, rfl⟩⟩
    | some v =>
      have := hok k v hk' hv
      have hco : colourOk v = true := by
        rcases hk with rfl | rfl <;> exact this
      obtain ⟨x, hx⟩ := colourOk_is hco
      exact ⟨v, some x, rfl, .inr ⟨x, hx, rfl⟩, .inl ⟨v, x, (hset k hk').1 v hv, hx, rfl⟩⟩
  obtain ⟨vf, fg, f1, f2, f3⟩ := hcol _ (.inl rfl)
  obtain ⟨vb, bg, b1, b2, b3⟩ := hcol _ (.inr rfl)
  have hfont := hfix py"font" .none (by decide) (fun v => rfl) (by decide)
  obtain ⟨on, off, g1, ⟨g2, g3, g4⟩, g5, g6⟩ := C52_partial u .ansi _ _ (Box.new 67 {} {} {} none none) inst rfl (hc _) hfont vf vb fg bg
    f1 f2 b1 b2
  have hin : ∀ x, inlineRender u inst.settings x = .ok x :=
    C52_content u _ (hfix py"capitalized" _ (by decide) (fun v => rfl) (by decide))
      (hfix py"template" _ (by decide) (fun v => rfl) (by decide))
  refine ⟨st, on, off, rfl, ⟨g2 ▸ f3, g3 ▸ b3, ?_, ?_⟩, fun x p => g6 x p, ?_⟩
  · intro e
    rw [g4 e]
    unfold Enabled
    refine and_congr_right fun he => ?_
    have hk : e ≠ py"margin" := by rintro rfl; revert he; decide
    have hdef : DictOf.get (newSettings .ansi) e = some (.bool false) := by
      revert e
      decide
    rw [hget, hdef]
    have hval : ∀ v, DictOf.get st e = some v → v = .bool true := by
      intro v hv
      have := hok e v hk hv
      have h1 : e ≠ py"foreground_colour" := by rintro rfl; revert he; decide
      have h2 : e ≠ py"background_colour" := by rintro rfl; revert he; decide
      have h3 : effectNames.contains e = true := List.contains_iff_mem.2 he
      simp only [settingOk, h1, h2, decide_false, Bool.or_false, Bool.false_eq_true, if_false, h3, if_true] at this
      cases v <;> simp_all
    cases hv : DictOf.get st e with
    | some v =>
      obtain rfl := hval v hv
      simp only [Option.some_or, Option.some.injEq]
      exact ⟨fun _ => (hset e hk).1 _ hv, fun _ => ⟨_, rfl, rfl⟩⟩
    | none =>
      simp only [Option.none_or, Option.some.injEq]
      constructor
      · rintro ⟨v, rfl, ht⟩; cases ht
      · rintro ⟨r, ⟨A, B, sp, eq, p1, p2, -⟩, -⟩
        exact absurd ((hset e hk).2 hv r (by rw [eq]; simp) sp p2) p1
  · exact g5 _ (fun x hx => (g4 x).1 hx) (fun hne => by rwa [g2] at hne) (fun hne => by rwa [g3] at hne)
  · intro t link target box
    refine ⟨_, rfl, rfl, fun x => ?_⟩
    have hx := g1 x x (hin x)
    have hi := hc box
    cases hi
    exact hx

/-- With a bundled theme, an element that some rule of the theme matches is its content between colour codes: they show
the colours and effects of the rules that win, end in the plain look, and do not change the text that is seen. Missing:
links and images, see `C63_link_fails`; the layout of blocks, see `C63_block_fails`; the backgrounds of
`C63_background_fails`. -/
theorem C63_partial (u : Uni) (c : Cfg) (es : List Event) (s : PState) (h : Rendered u c es s) (theme : List Rule)
    (ht : theme ∈ bundledThemes) (hr : c.renderers = theme) (i : Nat) (tag : Str) (hi : HasTag s.dom i tag)
    (h1 : tag ≠ py"a") (h2 : tag ≠ py"img") (htouch : ¬ Untouched s.dom theme i) :
    ∃ (on off : List (List Nat)) (fg bg : Option Colour),
      (∀ f box, textOf u s (f + 1) box i =
        (contents u s f box i).map (fun x => (on.map sgrText).flatten ++ x ++ (off.map sgrText).flatten)) ∧
      (∀ x p, Strips u x p → Strips u ((on.map sgrText).flatten ++ x ++ (off.map sgrText).flatten) p) ∧
      (on.foldl sgr plainLook).fg = fg ∧ ThemeColour s.dom theme i py"foreground_colour" fg ∧
      (on.foldl sgr plainLook).bg = bg ∧ ThemeColour s.dom theme i py"background_colour" bg ∧
      (∀ e, (on.foldl sgr plainLook).effects e = true ↔ e ∈ effectNames ∧ ThemeSets s.dom theme i e (.bool true)) ∧
      off.foldl sgr (on.foldl sgr plainLook) = plainLook := by
  obtain ⟨n, hn, htag, hd, hl⟩ := rendered_elem h hi h1 h2
  obtain ⟨spec, hg⟩ := themed_renderer h hn
  obtain ⟨st, on, off, rfl, k1, k2, k3⟩ := theme_codes ht hr u hg htouch
  obtain ⟨a1, a2⟩ := themed_assigned h hn hg
  refine ⟨on, off, _, _, fun f box => ?_, k2, rfl, k1.fg, rfl, k1.bg, k1.effects, k1.ends⟩
  obtain ⟨inst, i1, i2, i3⟩ := k3 (tagInfo s.dom i) none none box
  rw [textOf_elem hn hd hl a1, a2]
  exact renderWith_inline i1 i2 _ i3

/-- An element is mentioned by a theme when it matches one of the selectors in the sense of CSS. -/
theorem C63_css (u : Uni) (c : Cfg) (es : List Event) (s : PState) (h : Rendered u c es s) (theme : List Rule)
    (ht : theme ∈ bundledThemes) (i : Nat) :
    ¬ Untouched s.dom theme i ↔ ∃ r ∈ theme, ∃ x ∈ r.sels, Css s.dom (srcAttrs es) x.tree i := by
  obtain ⟨s0, s1, -, -, -, -, hinv, -, -⟩ := rendered_inv h
  have hsel : ∀ r ∈ theme, ∀ x ∈ r.sels, (selMatch s.dom x.tree (.node i) = .ok true ↔ Css s.dom (srcAttrs es) x.tree i) := by
    intro r hr x hx
    have hk := theme_rule ht hr
    simp only [ruleOk, Bool.and_eq_true, List.all_eq_true] at hk
    have hb := classOnly_basic _ (hk.1.1 x hx).1.1
    by_cases hel : IsEl s.dom (.node i)
    · obtain ⟨j, n, e, hn, hd⟩ := hel
      cases e
      obtain ⟨b, h1, h2⟩ := selMatch_css hinv x.tree hb i n hn hd
      rw [h1, ← h2]
      simp
    · rw [selMatch_nonElem _ _ hel]
      constructor
      · intro e; cases e
      · intro hc
        obtain ⟨n, hn, hd⟩ := isElem_node hinv (css_elem hc)
        exact absurd ⟨i, n, rfl, hn, hd⟩ hel
  constructor
  · intro hu
    apply Classical.byContradiction
    intro hno
    apply hu
    rintro r hr sp ⟨⟨x, hx, hm, -⟩, -⟩
    exact hno ⟨r, hr, x, hx, (hsel r hr x hx).1 hm⟩
  · rintro ⟨r, hr, x, hx, hc⟩ hu
    obtain ⟨m, best, e1, e2, e3, e4⟩ := C06 s.dom (.node i) r.sels (theme_sel ht hr hinv i)
    have hm := e2.2 ⟨x, hx, (hsel r hr x hx).2 hc⟩
    cases best with
    | none => rw [e3.2 rfl] at hm; cases hm
    | some sp => exact hu r hr sp ((e4 sp).1 rfl)

/-- Elements a theme does not mention get the renderer and the settings they get without the theme. -/
theorem C63_rest (u : Uni) (c : Cfg) (es : List Event) (s s' : PState) (h : Rendered u c es s) (theme : List Rule)
    (ht : theme ∈ bundledThemes) (hr : c.renderers = theme) (h' : Rendered u { c with renderers := [] } es s') :
    s'.dom = s.dom ∧ ∀ i, i < s.dom.nodes.length → Untouched s.dom theme i → assignedTo s'.assigned i = assignedTo s.assigned i := by
  obtain ⟨s0, s1, a0, a1, a2, hdom, hinv, -, -⟩ := rendered_inv h
  obtain ⟨t0, t1, b0, b1, b2, hdom', -, -, -⟩ := rendered_inv h'
  have e0 : t0 = s0 := by
    have : initParser { c with renderers := [] } = initParser c := rfl
    rw [this, a0] at b0; cases b0; rfl
  subst e0
  have e1 : t1 = s1 := by
    have : feed u { c with renderers := [] } t0 es = feed u c t0 es := rfl
    rw [this, a1] at b1; cases b1; rfl
  subst e1
  refine ⟨hdom'.trans hdom.symm, fun i hi hu => ?_⟩
  rw [hdom] at hu hinv hi
  have g1 := (closed_assigned a0 a1 a2 i _ (List.getElem?_eq_getElem hi)).2
  have g2 := (closed_assigned b0 b1 b2 i _ (List.getElem?_eq_getElem hi)).2
  have : assignVal { c with renderers := [] } t1.dom i {} = assignVal c t1.dom i {} := by
    unfold assignVal
    rw [theme_other ht hr hinv hu]
    rfl
  rw [this, g1] at g2
  exact (Except.ok.inj g2).symm

/-- A document without elements the theme mentions is rendered as without the theme. -/
theorem C63_same (u : Uni) (c : Cfg) (es : List Event) (s : PState) (theme : List Rule) (ht : theme ∈ bundledThemes)
    (hr : c.renderers = theme) (hu : ∀ i, Untouched s.dom theme i) :
    Rendered u c es s ↔ Rendered u { c with renderers := [] } es s := by
  have key : ∀ s0 s1, initParser c = .ok s0 → feed u c s0 es = .ok s1 → s.dom = s1.dom →
      close u c s1 = close u { c with renderers := [] } s1 := by
    intro s0 s1 h0 h1 hd
    have hp : popStack s1.dom s1.stack.reverse = s1.dom := popStack_eq (reach_inv h0 h1) (by simp)
    have hinv := reach_selInv h0 h1
    rw [hd] at hu
    unfold close
    simp only [hp, theme_assign ht hr hinv hu]
    rfl
  constructor
  · intro h
    obtain ⟨s0, s1, a0, a1, a2, hdom, -, -, -⟩ := rendered_inv h
    exact ⟨s0, s1, a0, a1, by rw [← key s0 s1 a0 a1 hdom]; exact a2⟩
  · intro h
    obtain ⟨s0, s1, a0, a1, a2, hdom, -, -, -⟩ := rendered_inv h
    exact ⟨s0, s1, a0, a1, by rw [key s0 s1 a0 a1 hdom]; exact a2⟩


/-! ## An example -/

def c63Events : List Event :=
  [.start py"div" [(py"class", some py"highlight")], .start py"pre" [], .start py"span" [(py"class", some py"k")], .data py"if",
   .stop py"span", .data py" x", .stop py"pre", .stop py"div"]

/-- The keyword is coloured; all conditions of `C63_partial` hold for the span, and the `pre` and the `div` are not
mentioned by the theme. -/
example : ∃ s, Rendered asciiUni { renderers := monokaiTheme } c63Events s ∧ monokaiTheme ∈ bundledThemes ∧ HasTag s.dom 2 py"span" ∧
    ¬ Untouched s.dom monokaiTheme 2 ∧ Untouched s.dom monokaiTheme 1 ∧
    s.parsed = py"\n    \x1b[38;2;102;217;239mif\x1b[39m x\n" := by
  have key : ∃ s, Rendered asciiUni { renderers := monokaiTheme } c63Events s ∧
      s.dom.nodes.map nodeView = [(some py"div", none, [1], true), (some py"pre", none, [2, 4], true), (some py"span", none, [3], true),
        (none, some py"if", [], true), (none, some py" x", [], true)] ∧
      (monokaiTheme.any (fun r => tagMatches s.dom (.node 2) r.sels == .ok (true, some (0, 1, 0)))) = true ∧
      (monokaiTheme.all (fun r => r.sels.all (fun x => selMatch s.dom x.tree (.node 1) == .ok false))) = true ∧
      s.parsed = py"\n    \x1b[38;2;102;217;239mif\x1b[39m x\n" :=
    ⟨_, ⟨_, _, rfl, rfl, rfl⟩, by decide +kernel, by decide +kernel, by decide +kernel, by decide +kernel⟩
  obtain ⟨s, h, hv, h2, h1, hout⟩ := key
  obtain ⟨n2, a2, b2, -, -, -⟩ := view_node hv (i := 2) rfl
  refine ⟨s, h, by simp [bundledThemes], ⟨n2, a2, b2⟩, ?_, ?_, hout⟩
  · rw [List.any_eq_true] at h2
    obtain ⟨r, hr, e⟩ := h2
    rw [beq_iff_eq] at e
    exact fun hu => hu r hr _ ((tagMatches_iff _ _ _ _ e _).1 e)
  · rintro r hr sp ⟨⟨x, hx, hm, -⟩, -⟩
    rw [List.all_eq_true] at h1
    have := List.all_eq_true.1 (h1 r hr) x hx
    rw [beq_iff_eq, hm] at this
    cases this

/-! ## Where the themes do not do what they say -/

/-- The theme `github` gives errors a background, under a name no renderer reads: it is not shown. -/
theorem C63_background_fails :
    (∃ r ∈ githubTheme, r.key = py".highlight .err" ∧ ruleSetting r py"background-colour" = some (.str py"#e3d2d2")) ∧
    renderEvents asciiUni { renderers := githubTheme } [.start py"div" [(py"class", some py"highlight")],
      .start py"span" [(py"class", some py"err")], .data py"x", .stop py"span", .stop py"div"] =
      .ok py"\x1b[38;2;166;23;23mx\x1b[39m" := by decide +kernel

/-- A theme that mentions a paragraph takes its layout away: the two paragraphs run together. -/
theorem C63_block_fails :
    renderEvents asciiUni { renderers := monokaiTheme } [.start py"p" [(py"class", some py"n")], .data py"a", .stop py"p",
      .start py"p" [(py"class", some py"n")], .data py"b", .stop py"p"] =
      .ok py"\x1b[38;2;248;248;242ma\x1b[39m\x1b[38;2;248;248;242mb\x1b[39m" ∧
    renderEvents asciiUni {} [.start py"p" [(py"class", some py"n")], .data py"a", .stop py"p",
      .start py"p" [(py"class", some py"n")], .data py"b", .stop py"p"] = .ok py"\na\n\nb\n" := by decide +kernel

/-- A link that a theme mentions is neither coloured nor shown with its address. -/
theorem C63_link_fails :
    renderEvents asciiUni { renderers := monokaiTheme, linkPlacement := py"inline" }
      [.start py"a" [(py"class", some py"n"), (py"href", some py"x")], .data py"t", .stop py"a"] = .ok py"t" ∧
    renderEvents asciiUni { linkPlacement := py"inline" }
      [.start py"a" [(py"class", some py"n"), (py"href", some py"x")], .data py"t", .stop py"a"] = .ok py"[t](x)" := by decide +kernel

end Verif
