import Verif.Proofs.Room
import Verif.Props.Keep

/-!
# Rendering succeeds if there is room: documents
-/

namespace Verif

open Spec

/-! ## Every element has a renderer -/

theorem collect_total {d : Dom} {p : Par} {rules : List Rule}
    (h : ∀ r ∈ rules, ∀ s ∈ r.sels, ∃ v, selMatch d s.tree p = .ok v) : ∃ ms, collectMatches d p rules = .ok ms := by
  induction rules with
  | nil => exact ⟨[], rfl⟩
  | cons r rs ih =>
    obtain ⟨m, best, e1, -⟩ := C06 d p r.sels (h r (by simp))
    obtain ⟨ms, hms⟩ := ih (fun r hr => h r (List.mem_cons_of_mem _ hr))
    simp only [collectMatches, e1, bind, Except.bind, hms, pure, Except.pure]
    split <;> exact ⟨_, rfl⟩

theorem default_sel {d : Dom} {src} (hinv : SelInv d src) (i : Nat) {r : Rule} (hr : r ∈ defaultRules) {s : Selector} (hs : s ∈ r.sels) :
    ∃ v, selMatch d s.tree (.node i) = .ok v := by
  by_cases hel : IsEl d (.node i)
  · obtain ⟨j, n, e, hn, hd⟩ := hel
    cases e
    obtain ⟨b, hb, -⟩ := selMatch_css hinv s.tree (default_basic r hr s hs).1 i n hn hd
    exact ⟨b, hb⟩
  · exact ⟨false, selMatch_nonElem d _ hel _⟩

/-- The default rules, possibly with a bundled colour theme. -/
structure Styled (c : Cfg) (theme : List Rule) : Prop where
  rules : c.renderers = theme
  theme : theme = [] ∨ theme ∈ bundledThemes
  links : c.linkRenderers = []
  fallback : c.defaultRenderer = .cls .renderer

theorem renderer_total {c : Cfg} {theme : List Rule} (hc : Styled c theme) {d : Dom} {src} (hinv : SelInv d src) (i : Nat) :
    ∃ spec, getRenderer c d i = .ok spec := by
  obtain ⟨ms, hms⟩ : ∃ ms, collectMatches d (.node i) c.rules = .ok ms := by
    apply collect_total
    intro r hr s hs
    have hr' : r ∈ defaultRules ∨ r ∈ theme := by
      have := mem_updateRules _ _ r hr
      rwa [hc.rules] at this
    rcases hr' with h | h
    · exact default_sel hinv i h hs
    · rcases hc.theme with rfl | ht
      · cases h
      · exact theme_sel ht h hinv i s hs
  simp only [getRenderer, getForTag_of hms, bind, Except.bind, pure, Except.pure]
  split <;> exact ⟨_, rfl⟩

theorem untouched_nil (d : Dom) (i : Nat) : Untouched d [] i := fun r hr => by cases hr

/-- An element the theme does not mention gets the renderer of the default rules. -/
theorem untouched_renderer {c : Cfg} {theme : List Rule} (hc : Styled c theme) {d : Dom} {src} (hinv : SelInv d src) {i : Nat}
    (hu : Untouched d theme i) : getRenderer c d i = (getForTag d defaultRules (.node i)).map (fun r => match r with
      | some (r, s) => .pair (some r) (some s) | none => .cls .renderer) := by
  have h0 : getRenderer { c with renderers := [] } d i = (getForTag d defaultRules (.node i)).map (fun r => match r with
      | some (r, s) => .pair (some r) (some s) | none => .cls .renderer) := by
    unfold getRenderer Cfg.rules
    simp only [updateRules_nil, hc.fallback, bind, Except.bind, pure, Except.pure]
    cases getForTag d defaultRules (.node i) with
    | error e => rfl
    | ok v => cases v <;> rfl
  rcases hc.theme with rfl | ht
  · rw [← h0]
    have : c = { c with renderers := [] } := by rw [← hc.rules]
    rw [← this]
  · rw [theme_other ht hc.rules hinv hu, h0]

/-- Settings that only change the margins. -/
def Margins (st : Dict) : Prop := st = [] ∨ ∃ a b, st = margins a b

theorem pStyle_margins {d : Dom} {i : Nat} {st : Dict} (h : PStyle d i st) : Margins st := by
  cases h with
  | only => exact .inr ⟨_, _, rfl⟩
  | first => exact .inr ⟨_, _, rfl⟩
  | last => exact .inr ⟨_, _, rfl⟩
  | inner => exact .inl rfl
  | free => exact .inl rfl

theorem liStyle_margins {d : Dom} {i : Nat} {st : Dict} (h : LiStyle d i st) : Margins st := by
  cases h with
  | nested => exact .inr ⟨_, _, rfl⟩
  | first => exact .inr ⟨_, _, rfl⟩
  | later => exact .inl rfl

theorem dtStyle_margins {d : Dom} {i : Nat} {st : Dict} (h : DtStyle d i st) : Margins st := by
  cases h with
  | first => exact .inr ⟨_, _, rfl⟩
  | later => exact .inl rfl

theorem hasTag_of {d : Dom} {i : Nat} {n : Node} {tag : Str} (hn : d.nodes[i]? = some n) (ht : n.tag = some tag) (t : Str) :
    HasTag d i t ↔ t = tag := by
  constructor
  · rintro ⟨m, hm, h⟩
    rw [hn] at hm; cases hm
    rw [ht] at h; cases h; rfl
  · rintro rfl
    exact ⟨n, hn, ht⟩

theorem acts_not {u : Uni} {cls : RClass} {t : TagInfo} {ctx : Ctx} {box : Box} {k : Int} {P Q : Prop} (h : Acts u cls t ctx box k P)
    (e : P ↔ Q) : Acts u cls t ctx box k Q := by
  rwa [propext e] at h

/-- What an element that is not a link does. -/
theorem element_acts (u : Uni) {c : Cfg} {theme : List Rule} (hc : Styled c theme) {d : Dom} {src} (hinv : SelInv d src) {i : Nat}
    {n : Node} {tag : Str} (hn : d.nodes[i]? = some n) (hd : n.data = none) (ht : n.tag = some tag) (h1 : tag ≠ py"a")
    (h2 : tag ≠ py"img") {spec : RSpec} (hs : getRenderer c d i = .ok spec) :
    ∃ k cls, Marker d theme i k ∧ (assignOwn {} spec).renderer = some cls ∧
      ∀ box, Acts u cls (tagInfo d i) ⟨(assignOwn {} spec).settings, none, none⟩ box k (Wrapped d theme i) := by
  by_cases hu : Untouched d theme i
  · rw [untouched_renderer hc hinv hu] at hs
    have htags := hasTag_of hn ht
    have hwrap : Wrapped d theme i ↔ (tag = py"p" ∧ ¬ OnlyCode d i ∨ tag = py"li" ∨ tag = py"dd") := by
      unfold Wrapped
      simp only [hu, true_and, htags, eq_comm]
    have quiet : ∀ {cls : RClass} {st : Option Dict} {box : Box}, tag ≠ py"p" → tag ≠ py"li" → tag ≠ py"dd" →
        Acts u cls (tagInfo d i) ⟨st, none, none⟩ box 0 False → Acts u cls (tagInfo d i) ⟨st, none, none⟩ box 0 (Wrapped d theme i) := by
      intro cls st box e1 e2 e3 h
      exact acts_not h (by rw [hwrap]; simp [e1, e2, e3])
    have hti : (tagInfo d i).tag = some tag := by simp [tagInfo, hn, ht]
    by_cases hp : tag = py"p"
    · subst hp
      obtain ⟨st, g1, g2⟩ := getForTag_p hinv hn ht hd
      rw [g1] at hs; cases hs
      refine ⟨0, .paragraph, .nothing hu (by simp [htags]) (by simp [htags]) (by simp [htags]), rfl, fun box => ?_⟩
      refine acts_not (plain_paragraph u _ box st (pStyle_margins g2)) ?_
      rw [hwrap, ← skip_iff hn]
      simp
    by_cases hli : tag = py"li"
    · subst hli
      obtain ⟨cls, st, g1, g2, g3⟩ := getForTag_li hinv hn ht hd
      rw [g1] at hs; cases hs
      rcases g3 with ⟨g3, rfl⟩ | ⟨g3, rfl⟩
      · obtain ⟨q, A, C, -, -, -, -, -, ha⟩ := elem_pos hinv hn hd
        have hA : Around d i A C := (ha A C).2 ⟨rfl, rfl⟩
        refine ⟨_, .olItem, .number hu (by simp [htags]) g3 hA, rfl, fun box => ?_⟩
        exact acts_not (plain_number u _ box A.length (index_around hinv hn hd hA) st (liStyle_margins g2)) (by rw [hwrap]; simp)
      · refine ⟨_, .listItem, .bullet hu (by simp [htags]) g3, rfl, fun box => ?_⟩
        exact acts_not (plain_item u _ box st (liStyle_margins g2)) (by rw [hwrap]; simp)
    by_cases hdt : tag = py"dt"
    · subst hdt
      obtain ⟨st, g1, g2⟩ := getForTag_dt hinv hn ht hd
      rw [g1] at hs; cases hs
      refine ⟨0, .defTerm, .nothing hu (by simp [htags]) (by simp [htags]) (by simp [htags]), rfl, fun box => ?_⟩
      exact quiet (by decide) (by decide) (by decide) (plain_term u _ box st (dtStyle_margins g2))
    by_cases hm : tag ∈ plainStyle.map Prod.fst
    · obtain ⟨⟨tag', cls⟩, hm', et⟩ := List.mem_map.1 hm
      clear hm
      have hm := hm'
      clear hm'
      dsimp only at et
      subst et
      rw [getForTag_plain hinv hn ht hd hm] at hs; cases hs
      by_cases hbq : tag' = py"blockquote"
      · subst hbq
        have : cls = .blockQuote := by simpa [plainStyle] using hm
        subst this
        refine ⟨2, .blockQuote, .quote hu (by simp [htags]), rfl, fun box => ?_⟩
        exact acts_not (plain_quote u _ box) (by rw [hwrap]; simp)
      by_cases hdd : tag' = py"dd"
      · subst hdd
        have : cls = .defItem := by simpa [plainStyle] using hm
        subst this
        refine ⟨2, .defItem, .description hu (by simp [htags]), rfl, fun box => ?_⟩
        exact acts_not (plain_description u _ box) (by rw [hwrap]; simp)
      refine ⟨0, cls, .nothing hu (by simp only [htags]; exact fun e => hbq e.symm) (by simp only [htags]; exact fun e => hdd e.symm)
        (by simp only [htags]; exact fun e => hli e.symm), rfl, fun box => quiet hp hli hdd ?_⟩
      have hin : ∀ cls, cls ∈ [RClass.renderer, .inline, .em, .strong, .underline, .strike, .brk, .code] →
          Acts u cls (tagInfo d i) ⟨some [], none, none⟩ box 0 False :=
        fun cls h => plain_inline u _ none none _ (.inr rfl) box cls h
      have hbl : ∀ cls, cls ∈ [RClass.block, .list, .defList, .pre] → Acts u cls (tagInfo d i) ⟨some [], none, none⟩ box 0 False :=
        fun cls h => plain_blocks u _ box cls h
      have hhd : ∀ (n : Nat) (ch : Char), tag' = ['h', ch] → pyInt 10 [ch] = some (n : Int) →
          Acts u .mdHeader (tagInfo d i) ⟨some [], none, none⟩ box 0 False :=
        fun n ch e1 e2 => plain_header u _ box n ch (by rw [hti, e1]) e2
      simp only [plainStyle, List.mem_cons, List.not_mem_nil, or_false, Prod.mk.injEq] at hm
      rcases hm with ⟨e, rfl⟩ | ⟨e, rfl⟩ | ⟨e, rfl⟩ | ⟨e, rfl⟩ | ⟨e, rfl⟩ | ⟨e, rfl⟩ | ⟨e, rfl⟩ | ⟨e, rfl⟩ |
        ⟨e, rfl⟩ | ⟨e, rfl⟩ | ⟨e, rfl⟩ | ⟨e, rfl⟩ | ⟨e, rfl⟩ | ⟨e, rfl⟩ | ⟨e, rfl⟩ | ⟨e, rfl⟩ | ⟨e, rfl⟩ |
        ⟨e, rfl⟩ | ⟨e, rfl⟩ | ⟨e, rfl⟩ | ⟨e, rfl⟩ | ⟨e, rfl⟩ | ⟨e, rfl⟩ | ⟨e, rfl⟩ | ⟨e, rfl⟩ | ⟨e, rfl⟩
      · exact hhd 1 '1' e (by decide)
      · exact hhd 2 '2' e (by decide)
      · exact hhd 3 '3' e (by decide)
      · exact hhd 4 '4' e (by decide)
      · exact hhd 5 '5' e (by decide)
      · exact hhd 6 '6' e (by decide)
      · exact hin _ (by simp)
      · exact absurd e hbq
      · exact hbl _ (by simp)
      · exact hbl _ (by simp)
      · exact hbl _ (by simp)
      · exact hbl _ (by simp)
      · exact hbl _ (by simp)
      · exact absurd e hdd
      · exact hin _ (by simp)
      · exact absurd e h1
      · exact absurd e h2
      · exact hin _ (by simp)
      · exact hin _ (by simp)
      · exact hin _ (by simp)
      · exact hin _ (by simp)
      · exact hin _ (by simp)
      · exact hin _ (by simp)
      · exact hin _ (by simp)
      · exact hin _ (by simp)
      · exact hin _ (by simp)
    · rw [getForTag_other hinv hn ht hd hm hp hli hdt] at hs; cases hs
      have hbq : tag ≠ py"blockquote" := by rintro rfl; exact hm (by decide)
      have hdd : tag ≠ py"dd" := by rintro rfl; exact hm (by decide)
      refine ⟨0, .renderer, .nothing hu (by simp only [htags]; exact fun e => hbq e.symm) (by simp only [htags]; exact fun e => hdd e.symm)
        (by simp only [htags]; exact fun e => hli e.symm), rfl, fun box => quiet hp hli hdd ?_⟩
      exact plain_inline u _ none none _ (.inl rfl) box _ (by simp)
  · rcases hc.theme with rfl | hb
    · exact absurd (untouched_nil d i) hu
    obtain ⟨st, rfl, hg, hnd⟩ := theme_touched hb hc.rules hs hu
    refine ⟨0, .ansi, .themed hu, rfl, fun box => ?_⟩
    refine acts_not (plain_colours u _ (some st) none none (by rintro _ ⟨⟩; exact hnd) ?_ box) ⟨fun h => h.elim, fun h => hu h.1⟩
    rintro _ ⟨⟩ k v hk hv
    obtain ⟨r, ⟨A, B, sp, e, -⟩, hrv⟩ := (theme_setting hb hc.rules hg hk).1 v hv
    exact ruleOk_setting (theme_rule hb (by rw [e]; simp)) hrv

theorem linkRenderer_total {c : Cfg} {theme : List Rule} (hc : Styled c theme) {d : Dom} {src} (hinv : SelInv d src) {i : Nat}
    {n : Node} {tag : Str} (hn : d.nodes[i]? = some n) (hd : n.data = none) (ht : n.tag = some tag) (hlt : tag = py"a" ∨ tag = py"img") :
    ∃ cls, getLinkRenderer c d i = .ok (.pair (some cls) (some [])) ∧ (cls = .extractedLink ∨ cls = .extractedImage) := by
  have hr : c.linkRules = [tagRule py"a" .extractedLink, tagRule py"img" .extractedImage] := by rw [Cfg.linkRules, hc.links]; rfl
  rcases hlt with rfl | rfl
  · refine ⟨.extractedLink, ?_, .inl rfl⟩
    unfold getLinkRenderer
    rw [hr, getForTag_link hinv hn ht hd _ _ .extractedLink (.inl ⟨rfl, rfl⟩)]
    rfl
  · refine ⟨.extractedImage, ?_, .inr rfl⟩
    unfold getLinkRenderer
    rw [hr, getForTag_link hinv hn ht hd _ _ .extractedImage (.inr ⟨rfl, rfl⟩)]
    rfl

/-- What a link does. -/
theorem link_acts (u : Uni) {c : Cfg} {theme : List Rule} (hc : Styled c theme) {d : Dom} {src} (hinv : SelInv d src) {i : Nat}
    {n : Node} {tag : Str} {l : LinkInfo} (hn : d.nodes[i]? = some n) (hd : n.data = none) (ht : n.tag = some tag)
    (hlt : tag = py"a" ∨ tag = py"img") {spec : RSpec} (hs : getRenderer c d i = .ok spec) :
    Marker d theme i 0 ∧ ¬ Wrapped d theme i ∧ ∃ cls, (assignOwn {} spec).renderer = some cls ∧ (∀ box,
      (l.placement n.tag ≠ py"inline" → Acts u cls (tagInfo d i) ⟨(assignOwn {} spec).settings, some l.ctx, none⟩ box 0 False) ∧
      ∀ g, Acts u cls (tagInfo d i) ⟨none, some l.ctx, some g⟩ box 0 False) ∧
      ∃ cls', getLinkRenderer c d i = .ok (.pair (some cls') (some [])) ∧
        ∀ box g, Acts u cls' (tagInfo d i) ⟨none, some l.ctx, some g⟩ box 0 False := by
  have htags := hasTag_of hn ht
  have e1 : tag ≠ py"p" := by rcases hlt with rfl | rfl <;> decide
  have e2 : tag ≠ py"li" := by rcases hlt with rfl | rfl <;> decide
  have e3 : tag ≠ py"dd" := by rcases hlt with rfl | rfl <;> decide
  have e4 : tag ≠ py"blockquote" := by rcases hlt with rfl | rfl <;> decide
  have hw : ¬ Wrapped d theme i := by
    rintro ⟨-, h⟩
    simp only [htags] at h
    rcases h with h | h | h
    · exact e1 h.1.symm
    · exact e2 h.symm
    · exact e3 h.symm
  have hlr : ∃ cls', getLinkRenderer c d i = .ok (.pair (some cls') (some [])) ∧
      ∀ box g, Acts u cls' (tagInfo d i) ⟨none, some l.ctx, some g⟩ box 0 False := by
    obtain ⟨cls', h, hcl⟩ := linkRenderer_total hc hinv hn hd ht hlt
    refine ⟨cls', h, fun box g => ?_⟩
    rcases hcl with rfl | rfl
    · exact plain_entry u _ _ _ _
    · exact plain_imageEntry u _ _ _ _
  by_cases hu : Untouched d theme i
  · refine ⟨.nothing hu (by simp only [htags]; exact fun e => e4 e.symm) (by simp only [htags]; exact fun e => e3 e.symm)
      (by simp only [htags]; exact fun e => e2 e.symm), hw, ?_⟩
    rw [untouched_renderer hc hinv hu] at hs
    rcases hlt with rfl | rfl
    · rw [getForTag_plain hinv hn ht hd (cls := .link) (by simp [plainStyle])] at hs; cases hs
      refine ⟨.link, rfl, fun box => ⟨fun hp => ?_, fun g => ?_⟩, hlr⟩
      · exact plain_link u _ _ (.inr rfl) _ _ (fun e => absurd (by rw [placement_a ht]; exact e) hp) box
      · exact plain_link u _ _ (.inl rfl) _ _ (fun _ => rfl) box
    · rw [getForTag_plain hinv hn ht hd (cls := .image) (by simp [plainStyle])] at hs; cases hs
      refine ⟨.image, rfl, fun box => ⟨fun hp => ?_, fun g => ?_⟩, hlr⟩
      · exact plain_image u _ _ (.inr rfl) _ _ (fun e => absurd (by rw [ht]; exact e) hp) box
      · exact plain_image u _ _ (.inl rfl) _ _ (fun _ => rfl) box
  · refine ⟨.themed hu, hw, ?_⟩
    rcases hc.theme with rfl | hb
    · exact absurd (untouched_nil d i) hu
    obtain ⟨st, rfl, hg, hnd⟩ := theme_touched hb hc.rules hs hu
    refine ⟨.ansi, rfl, fun box => ⟨fun _ => ?_, fun g => ?_⟩, hlr⟩
    · refine plain_colours u _ (some st) _ none (by rintro _ ⟨⟩; exact hnd) ?_ box
      rintro _ ⟨⟩ k v hk hv
      obtain ⟨r, ⟨A, B, sp, e, -⟩, hrv⟩ := (theme_setting hb hc.rules hg hk).1 v hv
      exact ruleOk_setting (theme_rule hb (by rw [e]; simp)) hrv
    · exact plain_colours u _ none _ _ (by rintro _ ⟨⟩) (by rintro _ ⟨⟩) box

/-! ## Assigning the renderers -/

theorem assignVal_total {c : Cfg} {theme : List Rule} (hc : Styled c theme) {d : Dom} {src} (hinv : SelInv d src) (i : Nat) (a : Assigned) :
    ∃ b, assignVal c d i a = .ok b := by
  obtain ⟨spec, hs⟩ := renderer_total hc hinv i
  simp only [assignVal, hs, bind, Except.bind, pure, Except.pure]
  cases ht : (d.nodes[i]?).bind Node.tag with
  | none => exact ⟨_, rfl⟩
  | some tag =>
    simp only
    by_cases hl : isLinkTag tag = true
    · rw [if_pos hl]
      cases hn : d.nodes[i]? with
      | none => rw [hn] at ht; cases ht
      | some n =>
        rw [hn] at ht
        obtain ⟨m, m1, m2⟩ := isElem_node hinv ⟨tag, n, hn, ht⟩
        rw [hn] at m1; cases m1
        have hlt : tag = py"a" ∨ tag = py"img" := by simpa [isLinkTag] using hl
        obtain ⟨cls, h, -⟩ := linkRenderer_total hc hinv hn m2 ht hlt
        rw [h]
        exact ⟨_, rfl⟩
    · rw [if_neg hl]
      exact ⟨_, rfl⟩

theorem assign_total {c : Cfg} {d : Dom} (hnode : ∀ i n, d.nodes[i]? = some n → NodeOk d i n)
    (h : ∀ i a, ∃ b, assignVal c d i a = .ok b) (f : Nat) (is : List Nat) (hf : ∀ i ∈ is, i < d.nodes.length ∧ d.nodes.length < i + f)
    (t : List (Nat × Assigned)) : ∃ t', assignRenderers c d f is t = .ok t' := by
  induction f generalizing is t with
  | zero =>
    cases is with
    | nil => exact ⟨t, rfl⟩
    | cons i is => have := hf i (by simp); omega
  | succ f ih =>
    rw [assignRenderers_succ]
    induction is generalizing t with
    | nil => exact ⟨t, rfl⟩
    | cons i is ih2 =>
      simp only [List.foldlM_cons, bind, Except.bind]
      obtain ⟨b, hb⟩ := h i (assignedTo t i)
      rw [assignOne_eq, hb]
      simp only [Except.map]
      obtain ⟨t2, ht2⟩ := ih (d.childrenOf (.node i)) (by
        intro j hj
        obtain ⟨n, hn⟩ : ∃ n, d.nodes[i]? = some n := ⟨_, List.getElem?_eq_getElem (hf i (by simp)).1⟩
        simp only [Dom.childrenOf, hn] at hj
        obtain ⟨h1, m, h2, -⟩ := (hnode i n hn).child j hj
        have := getElem?_lt h2
        have := hf i (by simp)
        omega) ((i, b) :: t)
      rw [ht2]
      exact ih2 (fun j hj => hf j (List.mem_cons_of_mem _ hj)) t2

/-! ## Markers -/

theorem marker_unique {d : Dom} {theme : List Rule} {src} (hinv : SelInv d src) {i : Nat} {k m : Int} (h : Marker d theme i k)
    (g : Marker d theme i m) : k = m := by
  have one : ∀ {a b : Str}, HasTag d i a → HasTag d i b → a ≠ b → False := by
    rintro a b ⟨n, h1, h2⟩ ⟨n', h3, h4⟩ e
    rw [h1] at h3; cases h3
    rw [h2] at h4; cases h4
    exact e rfl
  cases h with
  | themed h => cases g <;> first | rfl | (exfalso; exact h ‹_›)
  | quote h1 h2 =>
    cases g with
    | themed g => exact absurd h1 g
    | quote => rfl
    | description => rfl
    | bullet => rfl
    | number g1 g2 => exact (one h2 g2 (by decide)).elim
    | nothing g1 g2 => exact absurd h2 g2
  | description h1 h2 =>
    cases g with
    | themed g => exact absurd h1 g
    | quote => rfl
    | description => rfl
    | bullet => rfl
    | number g1 g2 => exact (one h2 g2 (by decide)).elim
    | nothing g1 g2 g3 => exact absurd h2 g3
  | bullet h1 h2 h3 =>
    cases g with
    | themed g => exact absurd h1 g
    | quote => rfl
    | description => rfl
    | bullet => rfl
    | number g1 g2 g3 => exact absurd g3 h3
    | nothing g1 g2 g3 g4 => exact absurd h2 g4
  | @number A C h1 h2 h3 h4 =>
    cases g with
    | themed g => exact absurd h1 g
    | quote g1 g2 => exact (one h2 g2 (by decide)).elim
    | description g1 g2 => exact (one h2 g2 (by decide)).elim
    | bullet g1 g2 g3 => exact absurd h3 g3
    | number g1 g2 g3 g4 =>
      obtain ⟨n, m1, m2⟩ := isElem_node hinv ⟨_, h2⟩
      have e1 := index_around hinv m1 m2 h4
      rw [index_around hinv m1 m2 g4, Option.some.injEq] at e1
      rw [e1]
    | nothing g1 g2 g3 g4 => exact absurd h2 g4
  | nothing h1 h2 h3 h4 =>
    cases g with
    | themed => rfl
    | quote g1 g2 => exact absurd g2 h2
    | description g1 g2 => exact absurd g2 h3
    | bullet g1 g2 => exact absurd g2 h4
    | number g1 g2 => exact absurd g2 h4
    | nothing => rfl

theorem marker_nonneg {d : Dom} {theme : List Rule} {i : Nat} {k : Int} (h : Marker d theme i k) : 0 ≤ k := by
  cases h <;> omega

/-- Everything in element `i` has room, if there are `w` columns for the element. -/
def Fits (d : Dom) (theme : List Rule) (i : Nat) (w : Int) : Prop := ∀ j k, Within d theme i j k → Wrapped d theme j → k < w

theorem fits_iff {d : Dom} {theme : List Rule} {src} (hinv : SelInv d src) {i : Nat} {n : Node} {k : Int} (hn : d.nodes[i]? = some n)
    (hk : Marker d theme i k) (w : Int) :
    Fits d theme i w ↔ (∀ j ∈ n.children, Fits d theme j (w - k)) ∧ (Wrapped d theme i → k < w) := by
  constructor
  · intro h
    refine ⟨fun j hj a m ha hw => ?_, fun hw => h i k (.self hk) hw⟩
    have := h a (k + m) (.child hk ⟨n, hn, hj⟩ ha) hw
    omega
  · rintro ⟨h1, h2⟩ j m hj hw
    cases hj with
    | self g => rw [marker_unique hinv g hk]; exact h2 hw
    | child g p q =>
      obtain ⟨n', e, hc⟩ := p
      rw [hn] at e; cases e
      have := h1 _ hc _ _ q hw
      rw [marker_unique hinv g hk]
      omega

/-! ## Rendering the tree -/

/-- Every node has been assigned its renderers. -/
def AllAssigned (c : Cfg) (d : Dom) (t : List (Nat × Assigned)) : Prop :=
  ∀ i, i < d.nodes.length → assignVal c d i {} = .ok (assignedTo t i)

/-- The links are noted in the tree as they should be. -/
structure LinksNoted (c : Cfg) (d : Dom) : Prop where
  pending : ∀ (j : Nat) n, d.nodes[j]? = some n → n.pending = nodesWhere d (pendingOf c j)
  link : ∀ (i : Nat) n, d.nodes[i]? = some n → (n.link.isSome ↔ n.tag = some py"a" ∨ n.tag = some py"img")

theorem renderTag_outcome {u : Uni} {d : Dom} {a : Assigned} {i : Nat} {n : Node} {box : Box} {child link : Box → Nat → Py Str}
    {cls : RClass} {k : Int} {W : Prop} {F : Nat → Int → Prop} (hr : a.renderer = some cls)
    (ha : Acts u cls (tagInfo d i) ⟨a.settings, n.link.map LinkInfo.ctx, none⟩ box k W) (hs : ∀ j ∈ n.pending, j ∈ n.children)
    (h1 : ∀ j ∈ n.children, ∀ b, Outcome (F j (textRoom b)) (child b j))
    (h2 : ∀ j ∈ n.pending, ∀ b, Outcome (F j (textRoom b)) (link b j)) :
    Outcome ((∀ j ∈ n.children, F j (textRoom box - k)) ∧ (W → k < textRoom box)) (renderTag u d a i n box child link) := by
  obtain ⟨inst, g1, g2, g3⟩ := ha
  have e : renderTag u d a i n box child link = (renderAll (child (inst.box.getD box)) n.children).bind (fun body =>
      (renderAll (link (inst.box.getD box)) n.pending).bind (fun links =>
        inst.render u (body ++ (if n.pending.isEmpty then [] else py"\n") ++ links))) := by
    simp only [renderTag, callRenderer, hr, g1, bind, Except.bind]
  rw [e]
  refine outcome_iff (outcome_bind (outcome_all _ (fun j hj => h1 j hj _)) (fun _ body _ =>
    outcome_bind (outcome_all _ (fun j hj => h2 j hj _)) (fun _ links _ => g3 _))) ?_
  rw [g2]
  constructor
  · rintro ⟨p1, -, p3⟩; exact ⟨p1, p3⟩
  · rintro ⟨p1, p3⟩; exact ⟨p1, fun j hj => p1 j (hs j hj), p3⟩

theorem renderLink_outcome {u : Uni} {d : Dom} {a : Assigned} {i : Nat} {n : Node} {l : LinkInfo} {box : Box} {child : Box → Nat → Py Str}
    {cls cls' : RClass} {s : Option Dict} {F : Nat → Int → Prop} (hr : a.renderer = some cls) (hl : a.linkRenderer = some cls')
    (hls : a.linkSettings = some s)
    (ha : ∀ g, Acts u cls (tagInfo d i) ⟨none, some l.ctx, some g⟩ box 0 False)
    (ha' : ∀ g, Acts u cls' (tagInfo d i) ⟨none, some l.ctx, some g⟩ box 0 False)
    (h1 : ∀ j ∈ n.children, ∀ b, Outcome (F j (textRoom b)) (child b j)) :
    Outcome (∀ j ∈ n.children, F j (textRoom box - 0)) (renderLink u d a i n l box child) := by
  have key : ∀ r, Acts u r (tagInfo d i) ⟨none, some l.ctx, some ⟨l.href, l.title, l.gopherLink⟩⟩ box 0 False →
      Outcome (∀ j ∈ n.children, F j (textRoom box - 0)) ((construct r (tagInfo d i)
        ⟨none, some l.ctx, some ⟨l.href, l.title, l.gopherLink⟩⟩ box).bind (fun inst =>
          (renderAll (child (inst.box.getD box)) n.children).bind (fun body => inst.render u body))) := by
    rintro r ⟨inst, g1, g2, g3⟩
    rw [g1]
    show Outcome _ ((renderAll (child (inst.box.getD box)) n.children).bind (fun body => inst.render u body))
    refine outcome_iff (outcome_bind (outcome_all _ (fun j hj => h1 j hj _)) (fun _ body _ => g3 _)) ?_
    rw [g2]
    exact ⟨fun h => h.1, fun h => ⟨h, fun f => f.elim⟩⟩
  by_cases hp : l.placement n.tag = py"inline"
  · have := key cls (ha _)
    simpa only [renderLink, callRenderer, hr, hp, if_pos, bind, Except.bind] using this
  · have := key cls' (ha' _)
    simpa only [renderLink, callRenderer, hl, hls, if_neg hp, bind, Except.bind] using this

/-- Rendering a node succeeds if everything in it has room, and raises `ValueError` otherwise. -/
theorem renderNode_outcome (u : Uni) {c : Cfg} {theme : List Rule} (hc : Styled c theme) {d : Dom} {src} (hinv : SelInv d src)
    (hl : LinksNoted c d) {t : List (Nat × Assigned)} (ht : AllAssigned c d t) (f : Nat) (i : Nat) (n : Node) (hn : d.nodes[i]? = some n)
    (hf : d.nodes.length < i + f) (asLink : Bool) (hal : asLink = true → n.link.isSome) (box : Box) :
    Outcome (Fits d theme i (textRoom box)) (renderNode u d t f asLink box i) := by
  induction f generalizing i n asLink box with
  | zero => have := getElem?_lt hn; omega
  | succ f ih =>
    have ok := hinv.node i n hn
    have hch : ∀ j ∈ n.children, ∀ b, Outcome (Fits d theme j (textRoom b)) (renderNode u d t f false b j) := by
      intro j hj b
      obtain ⟨h1, m, h2, -⟩ := ok.child j hj
      exact ih j m h2 (by omega) false (by simp) b
    have hps : ∀ j ∈ n.pending, j ∈ n.children ∧ ∀ b, Outcome (Fits d theme j (textRoom b)) (renderNode u d t f true b j) := by
      intro j hj
      rw [hl.pending i n hn] at hj
      obtain ⟨m, m1, m2⟩ := nodesWhere_bound hj
      simp only [pendingOf, Bool.and_eq_true, decide_eq_true_eq] at m2
      have hpar := (hinv.node j m m1).parent
      rw [m2.2] at hpar
      obtain ⟨h1, n', h2, h3, -⟩ := hpar
      rw [hn] at h2; cases h2
      refine ⟨h3, fun b => ih j m m1 (by omega) true (fun _ => ?_) b⟩
      rw [hl.link j m m1]
      have := m2.1
      unfold placed at this
      cases htag : m.tag with
      | none => rw [htag] at this; simp at this
      | some tag =>
        rw [htag] at this
        simp only [Bool.or_eq_true, Bool.and_eq_true, decide_eq_true_eq] at this
        rcases this with h | h
        · exact .inl (by rw [h.1])
        · exact .inr (by rw [h.1])
    simp only [renderNode, hn]
    cases hd : n.data with
    | some data =>
      simp only
      refine outcome_ok ?_ data
      obtain ⟨h1, h2⟩ := ok.data (by rw [hd]; rfl)
      have hno : ∀ tag, ¬ HasTag d i tag := by
        rintro tag ⟨m, m1, m2⟩
        rw [hn] at m1; cases m1
        rw [h1] at m2; cases m2
      have hm : Marker d theme i 0 := by
        by_cases hu : Untouched d theme i
        · exact .nothing hu (hno _) (hno _) (hno _)
        · exact .themed hu
      rw [fits_iff hinv hn hm]
      refine ⟨fun j hj => ?_, fun hw => ?_⟩
      · rw [h2] at hj; cases hj
      · rcases hw.2 with h | h | h
        · exact absurd h.1 (hno _)
        · exact absurd h (hno _)
        · exact absurd h (hno _)
    | none =>
      have hsome := ok.noData hd
      obtain ⟨tag, htag⟩ := Option.isSome_iff_exists.1 hsome
      have hav := ht i (getElem?_lt hn)
      obtain ⟨spec, hs⟩ := renderer_total hc hinv i
      simp only [assignVal, hs, bind, Except.bind, pure, Except.pure, hn, Option.bind_some, htag] at hav
      cases hlk : n.link with
      | none =>
        have hna : ¬ (n.tag = some py"a" ∨ n.tag = some py"img") := by
          rw [← hl.link i n hn, hlk]; simp
        have hne : tag ≠ py"a" ∧ tag ≠ py"img" := by
          constructor
          · rintro rfl; exact hna (.inl htag)
          · rintro rfl; exact hna (.inr htag)
        have hal' : asLink = false := by
          cases asLink with
          | false => rfl
          | true => have := hal rfl; rw [hlk] at this; cases this
        subst hal'
        have hil : isLinkTag tag = false := by simp [isLinkTag, hne.1, hne.2]
        rw [hil] at hav
        simp only [Bool.false_eq_true, if_false, Except.ok.injEq] at hav
        obtain ⟨k, cls, g1, g2, g3⟩ := element_acts u hc hinv hn hd htag hne.1 hne.2 hs
        simp only [Bool.false_eq_true, if_false]
        rw [← hav]
        refine outcome_iff (renderTag_outcome (F := Fits d theme) g2 (W := Wrapped d theme i) (k := k) ?_ (fun j hj => (hps j hj).1) hch
          (fun j hj => (hps j hj).2)) (fits_iff hinv hn g1 _).symm
        rw [hlk]
        exact g3 box
      | some l =>
        have hlt : tag = py"a" ∨ tag = py"img" := by
          have := (hl.link i n hn).1 (by rw [hlk]; rfl)
          rw [htag] at this
          simpa using this
        have hil : isLinkTag tag = true := by rcases hlt with rfl | rfl <;> decide
        obtain ⟨g1, g2, cls, g3, g4, cls', g5, g6⟩ := link_acts u hc hinv (l := l) hn hd htag hlt hs
        rw [hil, g5] at hav
        simp only [if_true, Except.ok.injEq] at hav
        have e1 : (assignedTo t i).renderer = some cls := by rw [← hav]; exact g3
        have e2 : (assignedTo t i).settings = (assignOwn {} spec).settings := by rw [← hav]; rfl
        simp only
        split
        · refine outcome_iff (renderLink_outcome (F := Fits d theme) e1 (by rw [← hav]; rfl) (by rw [← hav]; rfl) (fun g => (g4 box).2 g)
            (fun g => g6 box g) hch) ?_
          rw [fits_iff hinv hn g1]
          exact ⟨fun h => ⟨h, fun w => absurd w g2⟩, fun h => h.1⟩
        · rename_i hpl
          have hpl' : l.placement n.tag ≠ py"inline" := by
            intro e; apply hpl; simp [e]
          refine outcome_iff (renderTag_outcome (F := Fits d theme) e1 (W := False) (k := 0) ?_ (fun j hj => (hps j hj).1) hch
            (fun j hj => (hps j hj).2)) ?_
          · rw [hlk, e2]
            exact (g4 box).1 hpl'
          · rw [fits_iff hinv hn g1]
            exact ⟨fun h => ⟨h.1, fun w => absurd w g2⟩, fun h => ⟨h.1, fun f => f.elim⟩⟩

end Verif
