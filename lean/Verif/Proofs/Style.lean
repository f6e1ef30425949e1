import Verif.Props.Selectors
import Verif.Proofs.Assign
import Verif.Proofs.Close
import Verif.Spec.Style

/-!
# Which of the default rules apply
-/

namespace Verif

open Spec

set_option linter.unusedSimpArgs false

/-- The element name a selector ends in. -/
def subject : Sel → Option Str
  | .element n => n
  | .cls s _ => subject s
  | .hash s _ => subject s
  | .neg s _ => subject s
  | .attrib s _ _ _ => subject s
  | .pseudo s _ => subject s
  | .func s _ _ => subject s
  | .comb _ _ t => subject t

theorem css_subject {d : Dom} {src} {s : Sel} {i : Nat} {t : Str} (h : Css d src s i) (ht : subject s = some t) : HasTag d i t := by
  induction s generalizing i with
  | element name => simp only [subject] at ht; subst ht; exact h
  | cls s c ih => exact ih h.1 ht
  | hash s c ih => exact ih h.1 ht
  | neg s t ih1 ih2 => exact ih1 h.1 ht
  | attrib s name op v ih => exact ih h.1 ht
  | pseudo s ident ih => exact ih h.1 ht
  | func s name args ih => exact ih h.1 ht
  | comb s c t ih1 ih2 => cases c with
    | column => exact h.elim
    | _ => exact ih2 h.1 ht

/-- The rule can only apply to elements with one of these names. -/
def concerns (tag : Str) (r : Rule) : Bool := r.sels.any (fun s => subject s.tree == some tag)

theorem tagMatches_none {d : Dom} {p : Par} {sels : List Selector} (h : ∀ s ∈ sels, selMatch d s.tree p = .ok false) :
    tagMatches d p sels = .ok (false, none) := by
  unfold tagMatches
  generalize false = b, none = o
  induction sels generalizing b o with
  | nil => rfl
  | cons s ss ih =>
    rw [tagMatchesLoop, h s (by simp)]
    exact ih (fun x hx => h x (List.mem_cons_of_mem _ hx)) _ _

theorem collect_filter {d : Dom} {src} (hinv : SelInv d src) {i : Nat} {n : Node} (hn : d.nodes[i]? = some n)
    (tag : Str) (ht : n.tag = some tag) (hd : n.data = none) (rules : List Rule)
    (hb : ∀ r ∈ rules, ∀ s ∈ r.sels, Basic s.tree ∧ (subject s.tree).isSome) :
    collectMatches d (.node i) rules = collectMatches d (.node i) (rules.filter (concerns tag)) := by
  induction rules with
  | nil => rfl
  | cons r rs ih =>
    have ih := ih (fun x hx => hb x (List.mem_cons_of_mem _ hx))
    rw [List.filter_cons]
    by_cases hc : concerns tag r = true
    · rw [if_pos hc, collectMatches, collectMatches, ih]
    · rw [if_neg hc, ← ih, collectMatches, tagMatches_none]
      · rfl
      · intro s hs
        obtain ⟨b1, b2⟩ := hb r (by simp) s hs
        obtain ⟨b, h1, h2⟩ := selMatch_css hinv s.tree b1 i n hn hd
        cases b with
        | false => exact h1
        | true =>
          obtain ⟨t, ht'⟩ := Option.isSome_iff_exists.1 b2
          obtain ⟨m, m1, m2⟩ := css_subject (h2.1 rfl) ht'
          rw [hn] at m1; cases m1
          rw [ht] at m2; cases m2
          exact absurd (List.any_eq_true.2 ⟨s, hs, by simp [ht']⟩) hc

theorem default_basic : ∀ r ∈ defaultRules, ∀ s ∈ r.sels, Basic s.tree ∧ (subject s.tree).isSome := by
  simp [defaultRules, tagRule, one, elt, Basic, subject]

theorem updateRules_nil (l : List Rule) : updateRules l [] = l := rfl

/-- One rule left. -/
theorem collect_elt {d : Dom} {i : Nat} {n : Node} (hn : d.nodes[i]? = some n) (tag : Str) (ht : n.tag = some tag)
    (hd : n.data = none) (c : RClass) (rs : List Rule) :
    collectMatches d (.node i) (tagRule tag c :: rs) = (collectMatches d (.node i) rs).map (((0, 0, 1), tagRule tag c) :: ·) := by
  have h : tagMatches d (.node i) (tagRule tag c).sels = .ok (true, some (0, 0, 1)) := by
    simp [tagMatches, tagMatchesLoop, tagRule, one, elt, selMatch, elementMatches, hn, hd, ht, bind, Except.bind,
      moreSpecific, compareSpecificity, Except.map, Selector.spec, Sel.spec]
  rw [collectMatches, h]
  simp only [bind, Except.bind, pure, Except.pure]
  cases collectMatches d (.node i) rs <;> rfl

/-- A rule that may have matched. -/
def hit (b : Bool) (sp : Spec3) (r : Rule) : List (Spec3 × Rule) := if b then [(sp, r)] else []

theorem collect_bool {d : Dom} {i : Nat} (r : Rule) (s : Sel) (sp : Spec3) (b : Bool) (hr : r.sels = one s)
    (hs : s.spec = sp) (h : selMatch d s (.node i) = .ok b) (rs : List Rule) :
    collectMatches d (.node i) (r :: rs) = (collectMatches d (.node i) rs).map (hit b sp r ++ ·) := by
  have h : tagMatches d (.node i) r.sels = .ok (if b then (true, some sp) else (false, none)) := by
    subst hs
    rw [hr]
    cases b <;> simp [tagMatches, tagMatchesLoop, one, h, bind, Except.bind, moreSpecific, compareSpecificity, Except.map, Selector.spec]
  rw [collectMatches, h]
  cases b <;> simp only [bind, Except.bind, pure, Except.pure, hit, if_true, Bool.false_eq_true, if_false] <;>
    cases collectMatches d (.node i) rs <;> rfl

theorem getForTag_of {d : Dom} {rules : List Rule} {p : Par} {ms : List (Spec3 × Rule)} (h : collectMatches d p rules = .ok ms) :
    getForTag d rules p = .ok (match applyMatches (sortMatches ms) none [] with | (some r, s) => some (r, s) | (none, _) => none) := by
  unfold getForTag
  rw [h]
  simp only [bind, Except.bind]
  split <;> simp_all [pure, Except.pure]

theorem getForTag_plain {d : Dom} {src} (hinv : SelInv d src) {i : Nat} {n : Node} (hn : d.nodes[i]? = some n)
    {tag : Str} {cls : RClass} (ht : n.tag = some tag) (hd : n.data = none) (hm : (tag, cls) ∈ plainStyle) :
    getForTag d defaultRules (.node i) = .ok (some (cls, [])) := by
  have hf : defaultRules.filter (concerns tag) = [tagRule tag cls] := by
    simp only [plainStyle, List.mem_cons, List.not_mem_nil, or_false, Prod.mk.injEq] at hm
    rcases hm with ⟨rfl, rfl⟩ | ⟨rfl, rfl⟩ | ⟨rfl, rfl⟩ | ⟨rfl, rfl⟩ | ⟨rfl, rfl⟩ | ⟨rfl, rfl⟩ | ⟨rfl, rfl⟩ | ⟨rfl, rfl⟩ |
      ⟨rfl, rfl⟩ | ⟨rfl, rfl⟩ | ⟨rfl, rfl⟩ | ⟨rfl, rfl⟩ | ⟨rfl, rfl⟩ | ⟨rfl, rfl⟩ | ⟨rfl, rfl⟩ | ⟨rfl, rfl⟩ | ⟨rfl, rfl⟩ |
      ⟨rfl, rfl⟩ | ⟨rfl, rfl⟩ | ⟨rfl, rfl⟩ | ⟨rfl, rfl⟩ | ⟨rfl, rfl⟩ | ⟨rfl, rfl⟩ | ⟨rfl, rfl⟩ | ⟨rfl, rfl⟩ | ⟨rfl, rfl⟩ <;> rfl
  have hc : collectMatches d (.node i) defaultRules = .ok [((0, 0, 1), tagRule tag cls)] := by
    rw [collect_filter hinv hn tag ht hd _ default_basic, hf, collect_elt hn tag ht hd]
    rfl
  rw [getForTag_of hc]
  rfl

theorem getForTag_other {d : Dom} {src} (hinv : SelInv d src) {i : Nat} {n : Node} (hn : d.nodes[i]? = some n)
    {tag : Str} (ht : n.tag = some tag) (hd : n.data = none) (h1 : tag ∉ plainStyle.map Prod.fst) (h2 : tag ≠ py"p")
    (h3 : tag ≠ py"li") (h4 : tag ≠ py"dt") : getForTag d defaultRules (.node i) = .ok none := by
  have hf : defaultRules.filter (concerns tag) = [] := by
    rw [List.filter_eq_nil_iff]
    intro r hr hc
    obtain ⟨s, hs, he⟩ := List.any_eq_true.1 hc
    have he : some tag = subject s.tree := by simpa using (Eq.symm (by simpa using he))
    have all : ∀ r ∈ defaultRules, ∀ s ∈ r.sels, ∀ t, subject s.tree = some t →
        t ∈ py"p" :: py"li" :: py"dt" :: plainStyle.map Prod.fst := by
      simp [defaultRules, tagRule, one, elt, subject, plainStyle]
    have := all r hr s hs tag he.symm
    simp only [List.mem_cons] at this
    rcases this with e | e | e | e
    · exact h2 e
    · exact h3 e
    · exact h4 e
    · exact h1 e
  have hc : collectMatches d (.node i) defaultRules = .ok [] := by
    rw [collect_filter hinv hn tag ht hd _ default_basic, hf]
    rfl
  rw [getForTag_of hc]
  rfl

/-- Rendered text gets no rule. -/
theorem getForTag_text {d : Dom} {i : Nat} {n : Node} (hn : d.nodes[i]? = some n) (hd : n.data.isSome) (rules : List Rule) :
    getForTag d rules (.node i) = .ok none := by
  have hc : collectMatches d (.node i) rules = .ok [] := by
    induction rules with
    | nil => rfl
    | cons r rs ih =>
      rw [collectMatches, tagMatches_none]
      · exact ih
      · intro s _
        apply selMatch_nonElem
        rintro ⟨j, m, e, m1, m2⟩
        cases e
        rw [hn] at m1; cases m1
        simp [m2] at hd
  rw [getForTag_of hc]
  rfl

theorem css_first {d : Dom} {src} (s : Sel) (i : Nat) :
    Css d src (.pseudo s py"first-child") i ↔ Css d src s i ∧ FirstChild d i := by
  simp only [Css, FirstChild]
  constructor
  · rintro ⟨h0, b, a, h1, h2⟩
    refine ⟨h0, b, a, h1, ?_⟩
    rcases h2 with h2 | h2
    · exact h2.2
    · exact absurd h2.1 (by decide)
  · rintro ⟨h0, b, a, h1, h2⟩
    exact ⟨h0, b, a, h1, .inl ⟨trivial, h2⟩⟩

theorem css_last {d : Dom} {src} (s : Sel) (i : Nat) :
    Css d src (.pseudo s py"last-child") i ↔ Css d src s i ∧ LastChild d i := by
  simp only [Css, LastChild]
  constructor
  · rintro ⟨h0, b, a, h1, h2⟩
    refine ⟨h0, b, a, h1, ?_⟩
    rcases h2 with h2 | h2
    · exact absurd h2.1 (by decide)
    · exact h2.2
  · rintro ⟨h0, b, a, h1, h2⟩
    exact ⟨h0, b, a, h1, .inr ⟨trivial, h2⟩⟩

theorem css_child {d : Dom} {src} (t : Sel) (a : Str) (i : Nat) :
    Css d src (.comb (elt a) .child t) i ↔ Css d src t i ∧ ChildOf d a i := Iff.rfl

theorem getForTag_p {d : Dom} {src} (hinv : SelInv d src) {i : Nat} {n : Node} (hn : d.nodes[i]? = some n)
    (ht : n.tag = some py"p") (hd : n.data = none) :
    ∃ s, getForTag d defaultRules (.node i) = .ok (some (.paragraph, s)) ∧ PStyle d i s := by
  have hp : Css d src (elt py"p") i := ⟨n, hn, ht⟩
  have hm := fun s hs => selMatch_css hinv s hs i n hn hd
  obtain ⟨b1, e1, h1⟩ := hm (.comb (elt py"blockquote") .child (.pseudo (elt py"p") py"first-child")) (by simp [Basic, elt])
  obtain ⟨b2, e2, h2⟩ := hm (.comb (elt py"blockquote") .child (.pseudo (elt py"p") py"last-child")) (by simp [Basic, elt])
  obtain ⟨b3, e3, h3⟩ := hm (.comb (elt py"blockquote") .child (.pseudo (.pseudo (elt py"p") py"last-child") py"first-child"))
    (by simp [Basic, elt])
  rw [css_child, css_first] at h1
  rw [css_child, css_last] at h2
  rw [css_child, css_first, css_last] at h3
  simp only [hp, true_and] at h1 h2 h3
  have hc : collectMatches d (.node i) defaultRules = .ok (((0, 0, 1), tagRule py"p" .paragraph) ::
      (hit b1 (0, 1, 2) defaultRules[9] ++ (hit b2 (0, 1, 2) defaultRules[10] ++
       hit b3 (0, 2, 2) defaultRules[11]))) := by
    rw [collect_filter hinv hn py"p" ht hd _ default_basic]
    have hf : defaultRules.filter (concerns py"p") =
        [tagRule py"p" .paragraph, defaultRules[9], defaultRules[10], defaultRules[11]] := rfl
    rw [hf, collect_elt hn py"p" ht hd, collect_bool defaultRules[9] _ (0, 1, 2) b1 rfl rfl e1,
      collect_bool defaultRules[10] _ (0, 1, 2) b2 rfl rfl e2, collect_bool defaultRules[11] _ (0, 2, 2) b3 rfl rfl e3]
    simp [collectMatches, Except.map]
  rw [getForTag_of hc]
  by_cases hbq : ChildOf d py"blockquote" i
  · by_cases hf : FirstChild d i
    · by_cases hl : LastChild d i
      · simp only [hbq, hf, hl, and_self, iff_true] at h1 h2 h3
        subst h1 h2 h3
        exact ⟨_, rfl, .only hbq hf hl⟩
      · simp only [hbq, hf, hl, and_self, and_true, false_and, iff_true, iff_false, Bool.not_eq_true] at h1 h2 h3
        subst h1 h2 h3
        exact ⟨_, rfl, .first hbq hf hl⟩
    · by_cases hl : LastChild d i
      · simp only [hbq, hf, hl, and_self, and_true, and_false, false_and, iff_true, iff_false, Bool.not_eq_true] at h1 h2 h3
        subst h1 h2 h3
        exact ⟨_, rfl, .last hbq hf hl⟩
      · simp only [hbq, hf, hl, and_self, and_true, and_false, false_and, iff_true, iff_false, Bool.not_eq_true] at h1 h2 h3
        subst h1 h2 h3
        exact ⟨_, rfl, .inner hbq hf hl⟩
  · simp only [hbq, and_false, iff_false, Bool.not_eq_true] at h1 h2 h3
    subst h1 h2 h3
    exact ⟨_, rfl, .free hbq⟩

theorem getForTag_li {d : Dom} {src} (hinv : SelInv d src) {i : Nat} {n : Node} (hn : d.nodes[i]? = some n)
    (ht : n.tag = some py"li") (hd : n.data = none) :
    ∃ c s, getForTag d defaultRules (.node i) = .ok (some (c, s)) ∧ LiStyle d i s ∧
      (ChildOf d py"ol" i ∧ c = .olItem ∨ ¬ ChildOf d py"ol" i ∧ c = .listItem) := by
  have hp : Css d src (elt py"li") i := ⟨n, hn, ht⟩
  have hm := fun s hs => selMatch_css hinv s hs i n hn hd
  obtain ⟨b1, e1, h1⟩ := hm (.comb (elt py"ol") .child (elt py"li")) (by simp [Basic, elt])
  obtain ⟨b2, e2, h2⟩ := hm (.pseudo (elt py"li") py"first-child") (by simp [Basic, elt])
  obtain ⟨b3, e3, h3⟩ := hm (.comb (.comb (elt py"li") .child (elt py"ol")) .child (.pseudo (elt py"li") py"first-child"))
    (by simp [Basic, elt])
  obtain ⟨b4, e4, h4⟩ := hm (.comb (.comb (elt py"li") .child (elt py"ul")) .child (.pseudo (elt py"li") py"first-child"))
    (by simp [Basic, elt])
  rw [css_child] at h1
  rw [css_first] at h2
  have hn3 : ∀ a, Css d src (.comb (.comb (elt py"li") .child (elt a)) .child (.pseudo (elt py"li") py"first-child")) i ↔
      FirstChild d i ∧ ∃ j, ParentOf d j i ∧ HasTag d j a ∧ ChildOf d py"li" j := by
    intro a
    show Css d src (.pseudo (elt py"li") py"first-child") i ∧ _ ↔ _
    rw [css_first]
    simp only [hp, true_and]
    exact Iff.rfl
  rw [hn3] at h3 h4
  simp only [hp, true_and] at h1 h2
  have hor : (b3 || b4) = true ↔ FirstChild d i ∧ InNestedList d i := by
    rw [Bool.or_eq_true, h3, h4]
    unfold InNestedList
    constructor
    · rintro (⟨a, j, x, y, z⟩ | ⟨a, j, x, y, z⟩)
      · exact ⟨a, j, x, .inl y, z⟩
      · exact ⟨a, j, x, .inr y, z⟩
    · rintro ⟨a, j, x, y | y, z⟩
      · exact .inl ⟨a, j, x, y, z⟩
      · exact .inr ⟨a, j, x, y, z⟩
  have hc : collectMatches d (.node i) defaultRules = .ok (((0, 0, 1), tagRule py"li" .listItem) ::
      (hit b1 (0, 0, 2) defaultRules[17] ++ (hit b2 (0, 1, 1) defaultRules[18] ++
       hit (b3 || b4) (0, 1, 3) defaultRules[19]))) := by
    rw [collect_filter hinv hn py"li" ht hd _ default_basic]
    have hf : defaultRules.filter (concerns py"li") =
        [tagRule py"li" .listItem, defaultRules[17], defaultRules[18], defaultRules[19]] := rfl
    have hlast : collectMatches d (.node i) [defaultRules[19]] =
        .ok (hit (b3 || b4) (0, 1, 3) defaultRules[19]) := by
      have : tagMatches d (.node i) (defaultRules[19]).sels = .ok (if b3 || b4 then (true, some (0, 1, 3)) else (false, none)) := by
        have hs : (defaultRules[19]).sels =
          [{ tree := .comb (.comb (elt py"li") .child (elt py"ol")) .child (.pseudo (elt py"li") py"first-child") },
           { tree := .comb (.comb (elt py"li") .child (elt py"ul")) .child (.pseudo (elt py"li") py"first-child") }] := rfl
        rw [hs]
        simp only [tagMatches, tagMatchesLoop, e3, e4, bind, Except.bind]
        cases b3 <;> cases b4 <;> rfl
      rw [collectMatches, this]
      cases b3 <;> cases b4 <;> rfl
    rw [hf, collect_elt hn py"li" ht hd, collect_bool defaultRules[17] _ (0, 0, 2) b1 rfl rfl e1,
      collect_bool defaultRules[18] _ (0, 1, 1) b2 rfl rfl e2, hlast]
    simp [Except.map]
  rw [getForTag_of hc]
  generalize (b3 || b4) = b at hor
  by_cases hf : FirstChild d i
  · by_cases hl : InNestedList d i
    · by_cases ho : ChildOf d py"ol" i
      · simp only [hf, hl, ho, and_self, iff_true] at h1 h2 hor
        subst h1 h2 hor
        exact ⟨_, _, rfl, .nested hf hl, .inl ⟨ho, rfl⟩⟩
      · simp only [hf, hl, ho, and_self, iff_true, iff_false, Bool.not_eq_true] at h1 h2 hor
        subst h1 h2 hor
        exact ⟨_, _, rfl, .nested hf hl, .inr ⟨ho, rfl⟩⟩
    · by_cases ho : ChildOf d py"ol" i
      · simp only [hf, hl, ho, and_false, iff_true, iff_false, Bool.not_eq_true] at h1 h2 hor
        subst h1 h2 hor
        exact ⟨_, _, rfl, .first hf hl, .inl ⟨ho, rfl⟩⟩
      · simp only [hf, hl, ho, and_false, iff_true, iff_false, Bool.not_eq_true] at h1 h2 hor
        subst h1 h2 hor
        exact ⟨_, _, rfl, .first hf hl, .inr ⟨ho, rfl⟩⟩
  · by_cases ho : ChildOf d py"ol" i
    · simp only [hf, ho, false_and, iff_true, iff_false, Bool.not_eq_true] at h1 h2 hor
      subst h1 h2 hor
      exact ⟨_, _, rfl, .later hf, .inl ⟨ho, rfl⟩⟩
    · simp only [hf, ho, false_and, iff_false, Bool.not_eq_true] at h1 h2 hor
      subst h1 h2 hor
      exact ⟨_, _, rfl, .later hf, .inr ⟨ho, rfl⟩⟩

theorem getForTag_dt {d : Dom} {src} (hinv : SelInv d src) {i : Nat} {n : Node} (hn : d.nodes[i]? = some n)
    (ht : n.tag = some py"dt") (hd : n.data = none) :
    ∃ s, getForTag d defaultRules (.node i) = .ok (some (.defTerm, s)) ∧ DtStyle d i s := by
  have hp : Css d src (elt py"dt") i := ⟨n, hn, ht⟩
  obtain ⟨b1, e1, h1⟩ := selMatch_css hinv (.pseudo (elt py"dt") py"first-child") (by simp [Basic, elt]) i n hn hd
  rw [css_first] at h1
  simp only [hp, true_and] at h1
  have hc : collectMatches d (.node i) defaultRules = .ok (((0, 0, 1), tagRule py"dt" .defTerm) ::
      hit b1 (0, 1, 1) defaultRules[23]) := by
    rw [collect_filter hinv hn py"dt" ht hd _ default_basic]
    have hf : defaultRules.filter (concerns py"dt") = [tagRule py"dt" .defTerm, defaultRules[23]] := rfl
    rw [hf, collect_elt hn py"dt" ht hd, collect_bool defaultRules[23] _ (0, 1, 1) b1 rfl rfl e1]
    simp [collectMatches, Except.map]
  rw [getForTag_of hc]
  by_cases hf : FirstChild d i
  · simp only [hf, iff_true] at h1
    subst h1
    exact ⟨_, rfl, .first hf⟩
  · simp only [hf, iff_false, Bool.not_eq_true] at h1
    subst h1
    exact ⟨_, rfl, .later hf⟩

end Verif
