import Verif.Model.Themes
import Verif.Spec.Theme
import Verif.Proofs.Render
import Verif.Props.Ansi
import Verif.Props.Cascade
import Verif.Proofs.Finish

/-!
# The bundled themes
-/

namespace Verif

open Spec

/-- A hexadecimal digit. -/
def hexChar (c : Char) : Bool :=
  (py"0123456789").contains c || (py"abcdef").contains c || (py"ABCDEF").contains c

/-- A colour the themes may use. -/
def colourOk : Val → Bool
  | .str ('#' :: ds) => ds.all hexChar && (ds.length == 3 || ds.length == 6)
  | .str s => colourNames.contains s
  | _ => false

/-- The settings the themes may use. -/
def settingOk : Str × Val → Bool
  | (k, v) =>
    if k = py"foreground_colour" || k = py"background_colour" then colourOk v
    else if effectNames.contains k then (match v with | .bool b => b | _ => false)
    else k == py"background-colour"

/-- Every simple selector is a class. -/
def classOnly : Sel → Bool
  | .element n => n.isNone
  | .cls s _ => classOnly s
  | .comb s .desc t => classOnly s && classOnly t
  | _ => false

def ruleOk (r : Rule) : Bool :=
  r.sels.all (fun s => classOnly s.tree && !s.pseudoElement && decide (1 ≤ s.spec.2.1)) &&
  (match r.spec with
    | .pair (some .ansi) (some s) => s.all settingOk && decide ((s.map Prod.fst).Nodup)
    | _ => false) &&
  decide (r.key ∉ defaultRules.map Rule.key)

theorem themes_ok : (bundledThemes.all (fun t => t.all ruleOk)) = true := by decide +kernel

theorem themes_nodup : ∀ t ∈ bundledThemes, (t.map Rule.key).Nodup := by decide +kernel

theorem theme_rule {theme : List Rule} (ht : theme ∈ bundledThemes) {r : Rule} (hr : r ∈ theme) : ruleOk r = true :=
  List.all_eq_true.1 (List.all_eq_true.1 themes_ok theme ht) r hr

theorem ruleOk_settings {r : Rule} (h : ruleOk r = true) :
    ∃ s, r.spec = .pair (some .ansi) (some s) ∧ (∀ kv ∈ s, settingOk kv = true) ∧ (s.map Prod.fst).Nodup := by
  simp only [ruleOk, Bool.and_eq_true] at h
  obtain ⟨⟨-, h⟩, -⟩ := h
  split at h
  · rename_i s hs
    simp only [Bool.and_eq_true, List.all_eq_true, decide_eq_true_eq] at h
    exact ⟨s, hs, h.1, h.2⟩
  · cases h

theorem ruleOk_setting {r : Rule} (h : ruleOk r = true) {k : Str} {v : Val} (hv : ruleSetting r k = some v) :
    settingOk (k, v) = true := by
  obtain ⟨s, h1, h2, -⟩ := ruleOk_settings h
  simp only [ruleSetting_eq, h1, RSpec.settings, Option.bind] at hv
  exact h2 _ (get_mem hv)

theorem colourOk_is {v : Val} (h : colourOk v = true) : ∃ c, ColourIs v c := by
  unfold colourOk at h
  split at h
  · rename_i ds
    simp only [Bool.and_eq_true, List.all_eq_true, Bool.or_eq_true, beq_iff_eq] at h
    have hd : ∀ c ∈ ds, ∃ v, Hex c v := by
      intro c hc
      have := h.1 c hc
      simp only [hexChar, Bool.or_eq_true, List.contains_iff_mem] at this
      rcases this with (h | h) | h <;> obtain ⟨n, hn⟩ := List.getElem?_of_mem h
      · exact ⟨_, .digit n c hn⟩
      · exact ⟨_, .lower n c hn⟩
      · exact ⟨_, .upper n c hn⟩
    obtain ⟨r, g, b, hc⟩ := C53_total ds hd h.2
    exact ⟨_, .html _ r g b hc⟩
  · rename_i s _
    rw [List.contains_iff_mem] at h
    obtain ⟨n, hn⟩ := List.getElem?_of_mem h
    exact ⟨_, .named n s hn⟩
  · cases h

/-- The table in force with a theme. -/
theorem theme_rules {c : Cfg} {theme : List Rule} (ht : theme ∈ bundledThemes) (hr : c.renderers = theme) :
    c.rules = defaultRules ++ theme := by
  have hk : ∀ r ∈ theme, r.key ∉ defaultRules.map Rule.key := by
    intro r hm
    have := theme_rule ht hm
    simp only [ruleOk, Bool.and_eq_true, decide_eq_true_eq] at this
    exact this.2
  rw [C10 c (by rw [hr]; exact themes_nodup theme ht), hr]
  congr 1
  · conv => rhs; rw [← List.map_id defaultRules]
    apply List.map_congr_left
    intro r hm
    have : theme.find? (fun x => x.key == r.key) = none := by
      rw [List.find?_eq_none]
      intro x hx e
      simp only [beq_iff_eq] at e
      exact hk x hx (e ▸ List.mem_map_of_mem hm)
    rw [this]; rfl
  · rw [List.filter_eq_self]
    intro r hm
    simpa using hk r hm

theorem ruleOk_spec {d : Dom} {p : Par} {r : Rule} (h : ruleOk r = true) {sp : Spec3} (ha : Applies d p r sp) :
    LexLt (0, 0, 1) sp := by
  obtain ⟨⟨s, hs, -, rfl⟩, -⟩ := ha
  simp only [ruleOk, Bool.and_eq_true, List.all_eq_true, decide_eq_true_eq] at h
  have h1 := (h.1.1 s hs).2
  rw [C05_counts] at h1 ⊢
  simp only [counts] at h1 ⊢
  unfold LexLt
  simp only
  omega

theorem applyMatches_nodup (ms : List (Spec3 × Rule)) (r : Option RClass) (s : Dict) (h : (s.map Prod.fst).Nodup) :
    ((applyMatches ms r s).2.map Prod.fst).Nodup := by
  induction ms generalizing r s with
  | nil => exact h
  | cons m ms ih =>
    rw [applyMatches]
    apply ih
    split
    · exact DictOf.nodup_update _ _ h
    · exact h

/-- What a theme does to an element it mentions. -/
theorem theme_touched {c : Cfg} {theme : List Rule} (ht : theme ∈ bundledThemes) (hr : c.renderers = theme) {d : Dom} {i : Nat}
    {spec : RSpec} (h : getRenderer c d i = .ok spec) (hu : ¬ Untouched d theme i) :
    ∃ s, spec = .pair (some .ansi) (some s) ∧ getForTag d c.rules (.node i) = .ok (some (.ansi, s)) ∧ (s.map Prod.fst).Nodup := by
  obtain ⟨q, hq, spq, hap⟩ : ∃ r ∈ theme, ∃ sp, Applies d (.node i) r sp := by
    apply Classical.byContradiction
    intro hno
    exact hu fun r hr sp ha => hno ⟨r, hr, sp, ha⟩
  have hnames : ∀ r ∈ theme, NamesRenderer r := by
    intro r hm
    obtain ⟨s, hs, -⟩ := ruleOk_settings (theme_rule ht hm)
    unfold NamesRenderer
    rw [named_eq]
    rw [hs]
    simp [RSpec.renderer]
  have hw : ∀ c : Cfg, c.renderers = theme → ∀ spec, getRenderer c d i = .ok spec → ∃ s, spec = .pair (some .ansi) (some s) := by
    intro c hr spec h
    rcases C07 c d i spec h with ⟨r, s, cls, ⟨A, B, sp, e, p1, p2, p3, p4⟩, h2, rfl⟩ | ⟨hno, -⟩
    · rw [theme_rules ht hr] at e
      have hmem : r ∈ theme := by
        rcases List.append_eq_append_iff.1 e with ⟨x, e1, e2⟩ | ⟨x, e1, e2⟩
        · rw [e2]; simp
        · cases x with
          | nil => rw [List.nil_append] at e2; rw [← e2]; simp
          | cons y x =>
            exfalso
            simp only [List.cons_append, List.cons.injEq] at e2
            have hd : r ∈ defaultRules := by rw [e1, e2.1]; simp
            have hsp : LexLt sp spq := by
              obtain ⟨⟨x, hx, -, rfl⟩, -⟩ := p2
              have key : ∀ r ∈ defaultRules, r.spec.renderer.isSome = true → ∀ x ∈ r.sels, x.spec.1 = 0 ∧ x.spec.2.1 = 0 := by decide
              have k := key r hd (by rw [← named_eq, h2]; rfl) x hx
              obtain ⟨⟨y, hy, -, rfl⟩, -⟩ := hap
              have hk := theme_rule ht hq
              simp only [ruleOk, Bool.and_eq_true, List.all_eq_true, decide_eq_true_eq] at hk
              have h1 := (hk.1.1 y hy).2
              have h0 : 0 ≤ y.spec.1 := by rw [C05_counts]; simp only [counts]; omega
              unfold LexLt
              omega
            exact lexLt_irrefl _ (lexLt_trans hsp (p4 q (by rw [e2.2]; simp [hq]) spq (hnames q hq) hap))
      obtain ⟨s', hs, -⟩ := ruleOk_settings (theme_rule ht hmem)
      rw [hs] at h2
      simp only [namedRenderer, Option.some.injEq] at h2
      subst h2
      exact ⟨s, rfl⟩
    · exact absurd (hnames q hq) (hno q (by rw [theme_rules ht hr]; simp [hq]) spq hap)
  cases hg : getForTag d c.rules (.node i) with
  | error e => simp [getRenderer, hg, bind, Except.bind] at h
  | ok o =>
    cases o with
    | none =>
      have : getRenderer { c with defaultRenderer := .cls .inline } d i = .ok (.cls .inline) := by
        have hrules : ({ c with defaultRenderer := .cls .inline } : Cfg).rules = c.rules := rfl
        simp [getRenderer, hrules, hg, bind, Except.bind, pure, Except.pure]
      obtain ⟨s, hs⟩ := hw { c with defaultRenderer := .cls .inline } hr _ this
      cases hs
    | some v =>
      obtain ⟨cls, s⟩ := v
      have hspec : spec = .pair (some cls) (some s) := by
        simp only [getRenderer, hg, bind, Except.bind, pure, Except.pure, Except.ok.injEq] at h
        exact h.symm
      subst hspec
      obtain ⟨s', hs⟩ := hw c hr _ h
      simp only [RSpec.pair.injEq, Option.some.injEq] at hs
      obtain ⟨rfl, rfl⟩ := hs
      refine ⟨s, rfl, rfl, ?_⟩
      simp only [getForTag, bind, Except.bind, pure, Except.pure] at hg
      cases hc : collectMatches d (.node i) c.rules with
      | error e => rw [hc] at hg; cases hg
      | ok ms =>
        rw [hc] at hg
        simp only at hg
        have hnd := applyMatches_nodup (sortMatches ms) none [] (by simp)
        cases ha : applyMatches (sortMatches ms) none [] with
        | mk x y =>
          rw [ha] at hg hnd
          cases x with
          | none => cases hg
          | some x =>
            simp only [Except.ok.injEq, Option.some.injEq, Prod.mk.injEq] at hg
            rw [← hg.2]
            exact hnd

theorem default_margin {r : Rule} (h : r ∈ defaultRules) {k : Str} (hk : k ≠ py"margin") : ruleSetting r k = none := by
  have key : ∀ r ∈ defaultRules, (match r.spec.settings with | none => true | some s => s.map Prod.fst == [py"margin"]) = true := by
    decide
  have := key r h
  rw [ruleSetting_eq]
  cases hs : r.spec.settings with
  | none => rfl
  | some s =>
    rw [hs] at this
    simp only [beq_iff_eq] at this
    simp only [Option.bind]
    cases hg : DictOf.get s k with
    | none => rfl
    | some v =>
      have hm := List.mem_map_of_mem (f := Prod.fst) (get_mem hg)
      rw [this] at hm
      simp at hm
      exact absurd hm hk

theorem theme_dicts {c : Cfg} {theme : List Rule} (ht : theme ∈ bundledThemes) (hr : c.renderers = theme) : RuleDicts c.rules := by
  rw [theme_rules ht hr]
  intro r hm t hs
  rcases List.mem_append.1 hm with hm | hm
  · have key : ∀ r ∈ defaultRules, (match r.spec.settings with | none => true | some s => decide ((s.map Prod.fst).Nodup)) = true := by
      decide
    have := key r hm
    rw [hs] at this
    simpa using this
  · obtain ⟨s, h1, -, h2⟩ := ruleOk_settings (theme_rule ht hm)
    rw [h1] at hs
    simp only [RSpec.settings, Option.some.injEq] at hs
    exact hs ▸ h2

/-- The settings that come from the theme. -/
theorem theme_setting {c : Cfg} {theme : List Rule} (ht : theme ∈ bundledThemes) (hr : c.renderers = theme) {d : Dom} {i : Nat}
    {cls : RClass} {s : Dict} (h : getForTag d c.rules (.node i) = .ok (some (cls, s))) {k : Str} (hk : k ≠ py"margin") :
    (∀ v, DictOf.get s k = some v → ThemeSets d theme i k v) ∧ (DictOf.get s k = none → ThemeSilent d theme i k) := by
  obtain ⟨h1, h2⟩ := C08 d (.node i) c.rules (theme_dicts ht hr) cls s h k
  rw [theme_rules ht hr] at h1 h2
  refine ⟨fun v hv => ?_, fun hn r hm => h2 hn r (by simp [hm])⟩
  obtain ⟨r, ⟨A, B, sp, e, p1, p2, p3, p4⟩, hrv⟩ := h1 v hv
  refine ⟨r, ?_, hrv⟩
  rw [List.append_eq_append_iff] at e
  rcases e with ⟨x, e1, e2⟩ | ⟨x, e1, e2⟩
  · refine ⟨x, B, sp, e2, p1, p2, fun r' hr' => p3 r' (by simp [e1, hr']), p4⟩
  · cases x with
    | nil => exact ⟨[], B, sp, by simpa using e2.symm, p1, p2, by simp, p4⟩
    | cons y x =>
      simp only [List.cons_append, List.cons.injEq] at e2
      exact absurd (default_margin (by rw [e1, e2.1]; simp) hk) p1

theorem classOnly_basic : ∀ s : Sel, classOnly s = true → Basic s
  | .element _, _ => trivial
  | .cls s _, h => classOnly_basic s h
  | .comb s .desc t, h => by
    simp only [classOnly, Bool.and_eq_true] at h
    exact ⟨classOnly_basic s h.1, classOnly_basic t h.2, by decide⟩
  | .hash _ _, h => by cases h
  | .neg _ _, h => by cases h
  | .attrib _ _ _ _, h => by cases h
  | .pseudo _ _, h => by cases h
  | .func _ _ _, h => by cases h
  | .comb _ .child _, h => by cases h
  | .comb _ .adjacent _, h => by cases h
  | .comb _ .general _, h => by cases h
  | .comb _ .column _, h => by cases h

/-- Selectors of themes never raise. -/
theorem theme_sel {theme : List Rule} (ht : theme ∈ bundledThemes) {r : Rule} (hr : r ∈ theme) {d : Dom} {src}
    (hinv : SelInv d src) (i : Nat) (s : Selector) (hs : s ∈ r.sels) : ∃ v, selMatch d s.tree (.node i) = .ok v := by
  have h := theme_rule ht hr
  simp only [ruleOk, Bool.and_eq_true, List.all_eq_true] at h
  have hb := classOnly_basic _ (h.1.1 s hs).1.1
  by_cases hel : IsEl d (.node i)
  · obtain ⟨j, n, e, hn, hd⟩ := hel
    cases e
    obtain ⟨b, hb, -⟩ := selMatch_css hinv s.tree hb i n hn hd
    exact ⟨b, hb⟩
  · exact ⟨false, selMatch_nonElem d _ hel _⟩

theorem collect_theme_none {theme : List Rule} {d : Dom} {p : Par}
    (hs : ∀ r ∈ theme, ∀ s ∈ r.sels, ∃ v, selMatch d s.tree p = .ok v) (hu : ∀ r ∈ theme, ∀ sp, ¬ Applies d p r sp) :
    collectMatches d p theme = .ok [] := by
  induction theme with
  | nil => rfl
  | cons r rs ih =>
    obtain ⟨m, best, e1, e2, e3, e4⟩ := C06 d p r.sels (hs r (by simp))
    have hm : best = none := by
      cases best with
      | none => rfl
      | some sp => exact absurd ((e4 sp).1 rfl) (hu r (by simp) sp)
    subst hm
    simp only [collectMatches, e1, bind, Except.bind]
    exact ih (fun r hr => hs r (by simp [hr])) (fun r hr => hu r (by simp [hr]))

/-- An element the theme does not mention is treated as without the theme. -/
theorem theme_other {c : Cfg} {theme : List Rule} (ht : theme ∈ bundledThemes) (hr : c.renderers = theme) {d : Dom} {src}
    (hinv : SelInv d src) {i : Nat} (hu : Untouched d theme i) :
    getRenderer c d i = getRenderer { c with renderers := [] } d i := by
  have hc := collect_theme_none (fun r hr s hs => theme_sel ht hr hinv i s hs) hu
  have : getForTag d c.rules (.node i) = getForTag d ({ c with renderers := [] } : Cfg).rules (.node i) := by
    have h0 : ({ c with renderers := [] } : Cfg).rules = defaultRules := rfl
    rw [theme_rules ht hr, h0]
    unfold getForTag
    rw [collect_append, hc]
    cases collectMatches d (.node i) defaultRules with
    | error e => rfl
    | ok v => simp [Except.bind, Except.map, bind]
  unfold getRenderer
  rw [this]

theorem theme_assign {c : Cfg} {theme : List Rule} (ht : theme ∈ bundledThemes) (hr : c.renderers = theme) {d : Dom} {src}
    (hinv : SelInv d src) (hu : ∀ i, Untouched d theme i) (f : Nat) (is : List Nat) (t : List (Nat × Assigned)) :
    assignRenderers c d f is t = assignRenderers { c with renderers := [] } d f is t := by
  have hone : ∀ t i, assignOne c d t i = assignOne { c with renderers := [] } d t i := by
    intro t i
    unfold assignOne
    rw [theme_other ht hr hinv (hu i)]
    rfl
  induction f generalizing is t with
  | zero => cases is <;> rfl
  | succ f ih =>
    cases is with
    | nil => rfl
    | cons i is =>
      simp only [assignRenderers]
      congr 1
      funext t i
      rw [hone]
      congr 1
      funext t
      exact ih _ _

end Verif
