import Verif.Proofs.Cascade
import Verif.Proofs.RuleTable
import Verif.Model.Parser

/-!
# Properties of the cascade: C05 to C10
-/

namespace Verif

open Spec

/-! ## C05 -/

/-- All five comparisons of `Specificity` are those of the lexicographic order. -/
theorem C05 (a b : Spec3) :
    specLt (some a) (some b) = .ok (decide (LexLt a b)) ∧
    specGt (some a) (some b) = .ok (decide (LexLt b a)) ∧
    specEq (some a) (some b) = .ok (decide (a = b)) ∧
    specLe (some a) (some b) = .ok (decide (LexLt a b ∨ a = b)) ∧
    specGe (some a) (some b) = .ok (decide (LexLt b a ∨ a = b)) := by
  refine ⟨specLt_some a b, ?_, ?_, ?_, ?_⟩ <;>
    simp only [specGt, specEq, specLe, specGe, compareSpecificity_some, Except.map] <;>
    congr 1 <;> rw [decide_eq_decide] <;>
    rcases lexLt_total a b with h | h | h
  all_goals
    first
      | (have h' : ¬ LexLt b a := fun h2 => lexLt_irrefl _ (lexLt_trans h h2)
         have hne : a ≠ b := fun e => lexLt_irrefl b (by rw [e] at h; exact h)
         rw [if_neg h', if_pos h]; simp [h, h', hne])
      | (have h' : ¬ LexLt a b := fun h2 => lexLt_irrefl _ (lexLt_trans h h2)
         have hne : a ≠ b := fun e => lexLt_irrefl b (by rw [e] at h; exact h)
         rw [if_pos h]; simp [h, h', hne])
      | (subst h; rw [if_neg (lexLt_irrefl _), if_neg (lexLt_irrefl _)]; simp [lexLt_irrefl])

/-- The order is a strict total order. -/
theorem C05_total : (∀ a, ¬ LexLt a a) ∧ (∀ a b c, LexLt a b → LexLt b c → LexLt a c) ∧
    (∀ a b, LexLt a b ∨ a = b ∨ LexLt b a) :=
  ⟨lexLt_irrefl, fun _ _ _ h1 h2 => lexLt_trans h1 h2, lexLt_total⟩

/-- One id outweighs any number of classes and types. -/
example : specLt (some (0, 9, 9)) (some (1, 0, 0)) = .ok true := by decide

/-- The specificity of a selector is the triple of its numbers of ids, classes (with attributes and pseudo-classes), and
types. -/
theorem C05_counts (s : Selector) : s.spec = counts s := by
  have h : ∀ t : Sel, t.spec = (((kinds t).count .id : Int), ((kinds t).count .cls : Int), ((kinds t).count .type : Int)) := by
    intro t
    induction t with
    | element n => cases n <;> rfl
    | cls s n ih => simp [Sel.spec, kinds, ih]
    | hash s n ih => simp [Sel.spec, kinds, ih]
    | attrib s n op v ih => simp [Sel.spec, kinds, ih]
    | pseudo s n ih => simp [Sel.spec, kinds, ih]
    | func s n a ih => simp [Sel.spec, kinds, ih]
    | neg s t ih1 ih2 => simp [Sel.spec, kinds, ih1, ih2]
    | comb s c t ih1 ih2 => simp [Sel.spec, kinds, ih1, ih2]
  unfold Selector.spec counts
  rw [h]
  split <;> simp

/-- `#a > p.b:not(.c)` -/
example : Sel.spec (.comb (.hash (.element none) py"a") .child
    (.neg (.cls (.element (some py"p")) py"b") (.cls (.element none) py"c"))) = (1, 2, 1) := by decide

/-! ## C06 -/

/-- A group matches when an alternative does, and reports the greatest specificity of those that match. -/
theorem C06 (d : Dom) (p : Par) (sels : List Selector) (h : ∀ s ∈ sels, ∃ v, selMatch d s.tree p = .ok v) :
    ∃ m best, tagMatches d p sels = .ok (m, best) ∧
      (m = true ↔ ∃ s ∈ sels, selMatch d s.tree p = .ok true) ∧
      (m = false ↔ best = none) ∧
      (∀ sp, best = some sp ↔ (∃ s ∈ sels, selMatch d s.tree p = .ok true ∧ s.spec = sp) ∧
        ∀ s ∈ sels, selMatch d s.tree p = .ok true → ¬ LexLt sp s.spec) := by
  obtain ⟨v, hv⟩ : ∃ v, tagMatches d p sels = .ok v := by
    unfold tagMatches
    generalize false = m
    generalize (none : Option Spec3) = b
    induction sels generalizing m b with
    | nil => exact ⟨_, rfl⟩
    | cons s ss ih =>
      obtain ⟨w, hw⟩ := h s (by simp)
      have ih' := fun m b => ih (fun t ht => h t (List.mem_cons_of_mem _ ht)) m b
      simp only [tagMatchesLoop, bind, Except.bind, hw, moreSpecific_some]
      cases w
      · exact ih' _ _
      · simp only [if_true]
        cases b with
        | none => exact ih' _ _
        | some b =>
          simp only
          split
          · exact ih' _ _
          · exact ih' _ _
  obtain ⟨m, b⟩ := v
  have hs := tagMatchesLoop_some d p sels false none rfl hv
  have hiff := tagMatches_iff d p ⟨[], sels, .cls .renderer⟩ (m, b) hv
  have hbest := tagMatchesLoop_best d p sels false none m b hv
  refine ⟨m, b, hv, ?_, ?_, ?_⟩
  · cases b with
    | none =>
      simp at hs; subst hs
      simp only [Bool.false_eq_true, false_iff]
      rintro ⟨s, hs, hm⟩
      rw [(hbest.2.2 rfl).2 s hs] at hm
      cases hm
    | some sp =>
      simp at hs; subst hs
      simp only [true_iff]
      rcases (hbest.2.1 sp rfl).1 with h | ⟨s, hs, hm, -⟩
      · cases h
      · exact ⟨s, hs, hm⟩
  · cases b <;> simp_all
  · intro sp
    have := hiff sp
    unfold AppliesM Applies at this
    simp only [hv] at this
    rw [← this]
    cases b <;> simp_all

/-! ## C07 -/

/-- The renderer is the one named by the winner among the applicable rules that name one, or the default. -/
theorem C07 (c : Cfg) (d : Dom) (i : Nat) (spec : RSpec) (h : getRenderer c d i = .ok spec) :
    (∃ r s cls, Wins d (.node i) c.rules NamesRenderer r ∧ namedRenderer r.spec = some cls ∧
      spec = .pair (some cls) (some s)) ∨
    ((∀ r ∈ c.rules, ∀ sp, Applies d (.node i) r sp → ¬ NamesRenderer r) ∧ spec = c.defaultRenderer) := by
  simp only [getRenderer, getForTag, bind, Except.bind] at h
  cases hc : collectMatches d (.node i) c.rules with
  | error e => simp [hc] at h
  | ok ms =>
    rw [hc] at h
    simp only at h
    have hf := applyMatches_fst (sortMatches ms) none []
    cases hl : ((sortMatches ms).filter (fun m => m.2.spec.renderer.isSome)).getLast? with
    | none =>
      right
      rw [hl] at hf
      simp only at hf
      cases ha : applyMatches (sortMatches ms) none [] with
      | mk x y =>
        rw [ha] at h hf
        simp only at hf
        subst hf
        simp only [pure, Except.pure] at h
        cases h
        refine ⟨?_, rfl⟩
        intro r hr sp happ hn
        obtain ⟨v, hv⟩ := collectMatches_ok d _ _ ms hc r hr
        have := (tagMatches_iff d _ r v hv sp).2 happ
        have hm := collectMatches_complete d _ _ ms hc r hr sp this
        rw [List.getLast?_eq_none_iff, List.filter_eq_nil_iff] at hl
        have := hl (sp, r) ((mem_sortMatches _ _).2 hm)
        exact hn (by simpa [named_eq] using this)
    | some w =>
      left
      rw [hl] at hf
      simp only at hf
      have hw := wins_of_getLast d _ _ ms hc (fun r => r.spec.renderer.isSome) w hl
      have hsome : w.2.spec.renderer.isSome := (List.mem_filter.1 (List.mem_of_getLast? hl)).2
      cases hr : w.2.spec.renderer with
      | none => simp [hr] at hsome
      | some cls =>
        cases ha : applyMatches (sortMatches ms) none [] with
        | mk x y =>
          rw [ha] at h hf
          simp only [hr] at hf
          subst hf
          simp only [pure, Except.pure] at h
          cases h
          refine ⟨w.2, y, cls, ?_, (named_eq _).trans hr, rfl⟩
          obtain ⟨A, B, sp, h1, h2, h3, h4, h5⟩ := hw
          have e : ∀ r : Rule, NamesRenderer r ↔ r.spec.renderer.isSome = true := by
            intro r; unfold NamesRenderer; rw [named_eq]; cases r.spec.renderer <;> simp
          exact ⟨A, B, sp, h1, (e _).2 h2, h3, fun r hr sp hP => h4 r hr sp ((e _).1 hP),
            fun r hr sp hP => h5 r hr sp ((e _).1 hP)⟩

/-- There is at most one winner, up to its place in the table. -/
theorem C07_unique (d : Dom) (p : Par) (rules : List Rule) (P : Rule → Prop) (r r' : Rule)
    (h : Wins d p rules P r) (h' : Wins d p rules P r') : r = r' := by
  obtain ⟨A, B, sp, h1, h2, h3, h4, h5⟩ := h
  obtain ⟨A', B', sp', h1', h2', h3', h4', h5'⟩ := h'
  rw [h1] at h1'
  rw [List.append_eq_append_iff] at h1'
  rcases h1' with ⟨as, e1, e2⟩ | ⟨bs, e1, e2⟩
  · cases as with
    | nil => simp at e2; exact e2.1
    | cons a as =>
      simp at e2
      obtain ⟨rfl, rfl⟩ := e2
      have g1 : LexLt sp' sp := h5 r' (by simp) sp' h2' h3'
      have g2 : ¬ LexLt sp' sp := h4' r (by simp [e1]) sp h2 h3
      exact absurd g1 g2
  · cases bs with
    | nil => simp at e2; exact e2.1.symm
    | cons a as =>
      simp at e2
      obtain ⟨rfl, rfl⟩ := e2
      have g1 : LexLt sp sp' := h5' r (by simp) sp h2 h3
      have g2 : ¬ LexLt sp sp' := h4 r' (by simp [e1]) sp' h2' h3'
      exact absurd g1 g2

/-! ## C08 -/

/-- Rule settings are dicts. -/
def RuleDicts (rules : List Rule) : Prop :=
  ∀ r ∈ rules, ∀ t, r.spec.settings = some t → (t.map Prod.fst).Nodup

theorem C08 (d : Dom) (p : Par) (rules : List Rule) (hd : RuleDicts rules) (cls : RClass) (s : Dict)
    (h : getForTag d rules p = .ok (some (cls, s))) (k : Str) :
    (∀ v, DictOf.get s k = some v →
      ∃ r, Wins d p rules (fun r => ruleSetting r k ≠ none) r ∧ ruleSetting r k = some v) ∧
    (DictOf.get s k = none → ∀ r ∈ rules, ∀ sp, Applies d p r sp → ruleSetting r k = none) := by
  simp only [getForTag, bind, Except.bind] at h
  cases hc : collectMatches d p rules with
  | error e => simp [hc] at h
  | ok ms =>
    rw [hc] at h
    simp only at h
    have hs : s = (applyMatches (sortMatches ms) none []).2 := by
      cases ha : applyMatches (sortMatches ms) none [] with
      | mk x y =>
        rw [ha] at h
        cases x with
        | none => simp [pure, Except.pure] at h
        | some x =>
          simp only [pure, Except.pure, Except.ok.injEq, Option.some.injEq, Prod.mk.injEq] at h
          exact h.2.symm
    have hf := applyMatches_snd (sortMatches ms) none [] k (by
      intro m hm t ht
      exact hd m.2 (collectMatches_sound d p rules ms hc m ((mem_sortMatches _ _).1 hm)).1 t ht)
    rw [← hs] at hf
    have e : ∀ r : Rule, ruleSetting r k ≠ none ↔ (ruleSetting r k).isSome = true := by
      intro r; cases ruleSetting r k <;> simp
    cases hl : ((sortMatches ms).filter (fun m => (ruleSetting m.2 k).isSome)).getLast? with
    | none =>
      rw [hl] at hf
      simp only [DictOf.get_nil] at hf
      refine ⟨by simp [hf], ?_⟩
      intro _ r hr sp happ
      obtain ⟨v, hv⟩ := collectMatches_ok d _ _ ms hc r hr
      have := (tagMatches_iff d _ r v hv sp).2 happ
      have hm := collectMatches_complete d _ _ ms hc r hr sp this
      rw [List.getLast?_eq_none_iff, List.filter_eq_nil_iff] at hl
      have := hl (sp, r) ((mem_sortMatches _ _).2 hm)
      simpa using this
    | some w =>
      rw [hl] at hf
      simp only at hf
      have hw := wins_of_getLast d _ _ ms hc (fun r => (ruleSetting r k).isSome) w hl
      have hsome : (ruleSetting w.2 k).isSome := (List.mem_filter.1 (List.mem_of_getLast? hl)).2
      refine ⟨?_, ?_⟩
      · intro v hv
        refine ⟨w.2, ?_, by rw [← hf]; exact hv⟩
        obtain ⟨A, B, sp, h1, h2, h3, h4, h5⟩ := hw
        exact ⟨A, B, sp, h1, (e _).2 h2, h3, fun r hr sp hP => h4 r hr sp ((e _).1 hP),
          fun r hr sp hP => h5 r hr sp ((e _).1 hP)⟩
      · intro hn
        rw [← hf, hn] at hsome
        simp at hsome

/-! ## Examples for C07 and C08 -/

namespace CascadeExample

/-- `<div><p class="a">` -/
def dom : Dom :=
  { nodes :=
      [{ tag := some py"div", data := none, parent := .doc, children := [1], closed := false, attrs := [],
         classes := [], id := none, pending := [], link := none },
       { tag := some py"p", data := none, parent := .node 0, children := [], closed := false, attrs := [],
         classes := [py"a"], id := none, pending := [], link := none }],
    roots := [0] }

/-- Three rules: an early one of greater specificity wins over later ones for the renderer, and the settings merge. -/
def rules : List Rule :=
  [⟨py"p.a", one (.cls (elt py"p") py"a"), .pair (some .em) (some [(py"x", .int 1)])⟩,
   ⟨py"p", one (elt py"p"), .pair (some .strong) (some [(py"x", .int 2), (py"y", .int 3)])⟩,
   ⟨py"div p", one (.comb (elt py"div") .desc (elt py"p")), .pair none (some [(py"y", .int 4)])⟩]

example : (match getForTag dom rules (.node 1) with
    | .ok (some (.em, s)) => decide (s = [(py"x", .int 1), (py"y", .int 4)])
    | _ => false) = true := by decide

end CascadeExample

/-! ## C09 -/

/-- The part of C09 that holds: when some matching rule names a renderer, the settings of settings-only rules are
merged like any others. Missing: the case where no matching rule names a renderer, see `C09_fails`. -/
theorem C09_partial (c : Cfg) (d : Dom) (i : Nat) (hd : RuleDicts c.rules) (cls : RClass) (s : Dict)
    (h : getRenderer c d i = .ok (.pair (some cls) (some s)))
    (hren : ∃ r ∈ c.rules, ∃ sp, Applies d (.node i) r sp ∧ NamesRenderer r)
    (r : Rule) (hr : r ∈ c.rules) (sp : Spec3) (happ : Applies d (.node i) r sp) (k : Str) (v : Val)
    (hv : ruleSetting r k = some v) :
    ∃ r', Wins d (.node i) c.rules (fun r => ruleSetting r k ≠ none) r' ∧ DictOf.get s k = ruleSetting r' k := by
  have hg : getForTag d c.rules (.node i) = .ok (some (cls, s)) := by
    simp only [getRenderer, bind, Except.bind] at h
    cases hf : getForTag d c.rules (.node i) with
    | error e => simp [hf] at h
    | ok x =>
      rw [hf] at h
      cases x with
      | some x => simp only [pure, Except.pure, Except.ok.injEq, RSpec.pair.injEq, Option.some.injEq] at h; rw [← h.1, ← h.2]
      | none =>
        exfalso
        have h7 := C07 c d i c.defaultRenderer (by simp [getRenderer, bind, Except.bind, hf, pure, Except.pure])
        obtain ⟨q, hq, sp', ha, hn⟩ := hren
        rcases h7 with ⟨w, s', cls', hw, h1, h2⟩ | ⟨h1, -⟩
        · simp only [getForTag, bind, Except.bind] at hf
          cases hc : collectMatches d (.node i) c.rules with
          | error e => simp [hc] at hf
          | ok ms =>
            rw [hc] at hf
            simp only at hf
            have hfst := applyMatches_fst (sortMatches ms) none []
            obtain ⟨v, hv⟩ := collectMatches_ok d _ _ ms hc q hq
            have hm := collectMatches_complete d _ _ ms hc q hq sp' ((tagMatches_iff d _ q v hv sp').2 ha)
            have hmem : (sp', q) ∈ (sortMatches ms).filter (fun m => m.2.spec.renderer.isSome) := by
              rw [List.mem_filter]
              refine ⟨(mem_sortMatches _ _).2 hm, ?_⟩
              unfold NamesRenderer at hn
              rw [named_eq] at hn
              cases hq : q.spec.renderer <;> simp_all
            cases hl : ((sortMatches ms).filter (fun m => m.2.spec.renderer.isSome)).getLast? with
            | none => rw [List.getLast?_eq_none_iff] at hl; rw [hl] at hmem; simp at hmem
            | some w =>
              have hsome : w.2.spec.renderer.isSome := (List.mem_filter.1 (List.mem_of_getLast? hl)).2
              rw [hl] at hfst
              simp only at hfst
              cases ha : applyMatches (sortMatches ms) none [] with
              | mk x y =>
                rw [ha] at hf hfst
                simp only at hfst
                cases x with
                | none => rw [← hfst] at hsome; simp at hsome
                | some x => simp [pure, Except.pure] at hf
        · exact h1 q hq sp' ha hn
  obtain ⟨h1, h2⟩ := C08 d (.node i) c.rules hd cls s hg k
  cases hk : DictOf.get s k with
  | none => have := h2 hk r hr sp happ; rw [hv] at this; cases this
  | some w =>
    obtain ⟨r', hw, hrw⟩ := h1 w hk
    exact ⟨r', hw, hrw.symm⟩

/-- C09 is false: the rule for `x` changes the template of the default renderer to `[{}]`, and is ignored. -/
theorem C09_fails :
    renderEvents asciiUni
      { defaultRenderer := .cls .inline,
        renderers := [⟨py"x", one (elt py"x"), .pair none (some [(py"template", .str py"[{}]")])⟩] }
      [.start py"x" [], .data py"hi", .stop py"x"] = .ok py"hi" := by decide

/-- The same rule with a renderer named does have an effect. -/
example :
    renderEvents asciiUni
      { defaultRenderer := .cls .inline,
        renderers := [⟨py"x", one (elt py"x"), .pair (some .inline) (some [(py"template", .str py"[{}]")])⟩] }
      [.start py"x" [], .data py"hi", .stop py"x"] = .ok py"[hi]" := by decide

/-! ## C10 -/

theorem defaultRules_nodup : (defaultRules.map Rule.key).Nodup := by decide

/-- The table in force: each default rule in its place, replaced by the user's rule with the same selector text if
there is one; then the user's other rules in their order. -/
theorem C10 (c : Cfg) (hu : (c.renderers.map Rule.key).Nodup) :
    c.rules = defaultRules.map (fun r => (c.renderers.find? (fun x => x.key == r.key)).getD r) ++
      c.renderers.filter (fun x => decide (x.key ∉ defaultRules.map Rule.key)) :=
  updateRules_eq defaultRules c.renderers defaultRules_nodup hu

/-- The same for extracted links. -/
theorem C10_links (c : Cfg) (hu : (c.linkRenderers.map Rule.key).Nodup) :
    c.linkRules = defaultLinkRules.map (fun r => (c.linkRenderers.find? (fun x => x.key == r.key)).getD r) ++
      c.linkRenderers.filter (fun x => decide (x.key ∉ defaultLinkRules.map Rule.key)) :=
  updateRules_eq defaultLinkRules c.linkRenderers (by decide) hu

/-- A default that is not overridden keeps its index and content; an override takes its place; every user rule is in
force. -/
theorem C10_stays (c : Cfg) (hu : (c.renderers.map Rule.key).Nodup) :
    (∀ (n : Nat) (r : Rule), defaultRules[n]? = some r →
      (r.key ∉ c.renderers.map Rule.key → c.rules[n]? = some r) ∧
      (∀ x ∈ c.renderers, x.key = r.key → c.rules[n]? = some x)) ∧
    (∀ x ∈ c.renderers, x ∈ c.rules) := by
  have hrules := C10 c hu
  have hfind : ∀ x ∈ c.renderers, c.renderers.find? (fun y => y.key == x.key) = some x := by
    generalize c.renderers = l at hu
    intro x hx
    induction l with
    | nil => simp at hx
    | cons y ys ih =>
      simp only [List.map_cons, List.nodup_cons] at hu
      rcases List.mem_cons.1 hx with e | e
      · subst e; simp
      · have : (y.key == x.key) = false := by
          simp only [beq_eq_false_iff_ne]
          intro e'; exact hu.1 (e' ▸ List.mem_map_of_mem e)
        rw [List.find?_cons, this]
        exact ih hu.2 e
  constructor
  · intro n r hn
    have hlt : n < defaultRules.length := by
      rw [List.getElem?_eq_some_iff] at hn; exact hn.1
    have hget : c.rules[n]? = some ((c.renderers.find? (fun x => x.key == r.key)).getD r) := by
      rw [hrules, List.getElem?_append_left (by simpa using hlt), List.getElem?_map, hn]
      rfl
    constructor
    · intro hk
      have : c.renderers.find? (fun x => x.key == r.key) = none := ruleAt_none _ _ hk
      rw [hget, this]; rfl
    · intro x hx e
      rw [hget, ← e, hfind x hx]; rfl
  · intro x hx
    rw [hrules, List.mem_append]
    by_cases hk : x.key ∈ defaultRules.map Rule.key
    · left
      obtain ⟨r, hr, e⟩ := List.mem_map.1 hk
      rw [List.mem_map]
      exact ⟨r, hr, by rw [e, hfind x hx]; rfl⟩
    · right
      rw [List.mem_filter]
      exact ⟨hx, by simpa using hk⟩

/-- Overriding `p` and adding `p.x`: `p` keeps place 6, the new rule comes last. -/
example :
    (Cfg.rules { renderers := [tagRule py"p" .em, tagRule py"p.x" .strong] })[6]?.map Rule.key = some py"p" ∧
    (Cfg.rules { renderers := [tagRule py"p" .em, tagRule py"p.x" .strong] }).length = defaultRules.length + 1 := by
  decide

end Verif
