import Verif.Props.Cascade
import Verif.Proofs.Assign
import Verif.Proofs.Close

/-!
# What the renderers of a document are handed (C07, C08)
-/

namespace Verif

open Spec

/-- A renderer and settings are what the rules give to the element: the renderer of the winning rule that names one, and every setting
from the winning rule that mentions it; or, if no matching rule names a renderer, those of the fallback. -/
def Handed (d : Dom) (p : Par) (rules : List Rule) (fallback : RSpec → Prop) (cls : Option RClass) (settings : Option Dict) : Prop :=
  (∃ r s, Wins d p rules NamesRenderer r ∧ cls = namedRenderer r.spec ∧ settings = some s ∧ ∀ k,
    (∀ v, DictOf.get s k = some v ↔ ∃ r, Wins d p rules (fun r => ruleSetting r k ≠ none) r ∧ ruleSetting r k = some v) ∧
    (DictOf.get s k = none ↔ ∀ r ∈ rules, ∀ sp, Applies d p r sp → ruleSetting r k = none)) ∨
  ((∀ r ∈ rules, ∀ sp, Applies d p r sp → ¬ NamesRenderer r) ∧
    ∃ f, fallback f ∧ cls = namedRenderer f ∧ settings = givenSettings f)

theorem getForTag_wins {d : Dom} {p : Par} {rules : List Rule} {x : Option (RClass × Dict)} (h : getForTag d rules p = .ok x) :
    (∃ r s, x = some (r, s) ∧ ∃ w, Wins d p rules NamesRenderer w ∧ namedRenderer w.spec = some r) ∨
    (x = none ∧ ∀ r ∈ rules, ∀ sp, Applies d p r sp → ¬ NamesRenderer r) := by
  simp only [getForTag, bind, Except.bind] at h
  cases hc : collectMatches d p rules with
  | error e => simp [hc] at h
  | ok ms =>
    rw [hc] at h
    simp only at h
    have hf := applyMatches_fst (sortMatches ms) none []
    cases hl : ((sortMatches ms).filter (fun m => m.2.spec.renderer.isSome)).getLast? with
    | none =>
      right
      rw [hl] at hf
      simp only at hf
      cases ha : applyMatches (sortMatches ms) none [] with
      | mk x y =>
        rw [ha] at h hf
        simp only at hf
        subst hf
        simp only [pure, Except.pure] at h
        cases h
        refine ⟨rfl, ?_⟩
        intro r hr sp happ hn
        obtain ⟨v, hv⟩ := collectMatches_ok d _ _ ms hc r hr
        have := (tagMatches_iff d _ r v hv sp).2 happ
        have hm := collectMatches_complete d _ _ ms hc r hr sp this
        rw [List.getLast?_eq_none_iff, List.filter_eq_nil_iff] at hl
        have := hl (sp, r) ((mem_sortMatches _ _).2 hm)
        exact hn (by simpa [named_eq] using this)
    | some w =>
      left
      rw [hl] at hf
      simp only at hf
      have hw := wins_of_getLast d _ _ ms hc (fun r => r.spec.renderer.isSome) w hl
      have hsome : w.2.spec.renderer.isSome := (List.mem_filter.1 (List.mem_of_getLast? hl)).2
      cases hr : w.2.spec.renderer with
      | none => simp [hr] at hsome
      | some cls =>
        cases ha : applyMatches (sortMatches ms) none [] with
        | mk x y =>
          rw [ha] at h hf
          simp only [hr] at hf
          subst hf
          simp only [pure, Except.pure] at h
          cases h
          refine ⟨cls, y, rfl, w.2, ?_, (named_eq _).trans hr⟩
          obtain ⟨A, B, sp, h1, h2, h3, h4, h5⟩ := hw
          have e : ∀ r : Rule, NamesRenderer r ↔ r.spec.renderer.isSome = true := by
            intro r; unfold NamesRenderer; rw [named_eq]; cases r.spec.renderer <;> simp
          exact ⟨A, B, sp, h1, (e _).2 h2, h3, fun r hr sp hP => h4 r hr sp ((e _).1 hP),
            fun r hr sp hP => h5 r hr sp ((e _).1 hP)⟩

theorem wins_some {d : Dom} {p : Par} {rules : List Rule} {P : Rule → Prop} {r : Rule} (h : Wins d p rules P r) :
    r ∈ rules ∧ P r ∧ ∃ sp, Applies d p r sp := by
  obtain ⟨A, B, sp, h1, h2, h3, -, -⟩ := h
  exact ⟨by rw [h1]; simp, h2, sp, h3⟩

theorem handed_some {d : Dom} {p : Par} {rules : List Rule} (hd : RuleDicts rules) {cls : RClass} {s : Dict}
    (h : getForTag d rules p = .ok (some (cls, s))) (fallback : RSpec → Prop) : Handed d p rules fallback (some cls) (some s) := by
  rcases getForTag_wins h with ⟨r, s', hx, w, hw, hn⟩ | ⟨hx, -⟩
  · cases hx
    refine .inl ⟨w, s, hw, hn.symm, rfl, fun k => ?_⟩
    obtain ⟨h1, h2⟩ := C08 d p rules hd cls s h k
    refine ⟨fun v => ⟨h1 v, ?_⟩, ⟨h2, ?_⟩⟩
    · rintro ⟨r, hr, hv⟩
      cases hk : DictOf.get s k with
      | none =>
        obtain ⟨hm, -, sp, ha⟩ := wins_some hr
        have := h2 hk r hm sp ha
        rw [hv] at this; cases this
      | some w =>
        obtain ⟨r', hr', hv'⟩ := h1 w hk
        rw [C07_unique d p rules _ r r' hr hr', hv'] at hv
        exact hv
    · intro hall
      cases hk : DictOf.get s k with
      | none => rfl
      | some v =>
        obtain ⟨r, hr, hv⟩ := h1 v hk
        obtain ⟨hm, -, sp, ha⟩ := wins_some hr
        rw [hall r hm sp ha] at hv; cases hv
  · cases hx

/-- In every document, the renderer of every node is handed what the rules give it, and so is the renderer of the entry of every link; if no
rule for links names a renderer for it, that of the rule for `a` is taken. -/
theorem C08_handed (u : Uni) (c : Cfg) (s0 s : PState) (es : List Event) (h0 : initParser c = .ok s0) (h : feed u c s0 es = .ok s)
    (t : List (Nat × Assigned)) (ha : assignRenderers c s.dom s.dom.fuel s.dom.roots [] = .ok t) (hr : RuleDicts c.rules)
    (hl : RuleDicts c.linkRules) (k : Nat) (n : Node) (hn : s.dom.nodes[k]? = some n) :
    Handed s.dom (.node k) c.rules (· = c.defaultRenderer) (assignedTo t k).renderer (assignedTo t k).settings ∧
    ((n.tag = some py"a" ∨ n.tag = some py"img") →
      Handed s.dom (.node k) c.linkRules (fun f => ∃ r ∈ c.linkRules, r.key = py"a" ∧ f = r.spec) (assignedTo t k).linkRenderer
        ((assignedTo t k).linkSettings.bind id)) := by
  have hk : k ∈ visits s.dom s.dom.fuel s.dom.roots := by
    rw [visits_all (reach_inv h0 h), List.mem_range]
    exact getElem?_lt hn
  have hv := (assignRenderers_by _ _ _ _ ha k).1 hk
  rw [show assignedTo [] k = {} from rfl] at hv
  generalize assignedTo t k = b at hv ⊢
  simp only [assignVal, bind, Except.bind, pure, Except.pure, hn, Option.bind] at hv
  cases hg : getRenderer c s.dom k with
  | error e => rw [hg] at hv; cases hv
  | ok spec =>
    rw [hg] at hv
    simp only at hv
    have own : ∀ l : RSpec, ∀ b, (b = assignOwn {} spec ∨ b = assignLink (assignOwn {} spec) l) →
        Handed s.dom (.node k) c.rules (· = c.defaultRenderer) b.renderer b.settings := by
      intro l b hb
      have hb' : b.renderer = (assignOwn {} spec).renderer ∧ b.settings = (assignOwn {} spec).settings := by
        rcases hb with rfl | rfl
        · exact ⟨rfl, rfl⟩
        · cases l <;> exact ⟨rfl, rfl⟩
      rw [hb'.1, hb'.2]
      simp only [getRenderer, bind, Except.bind] at hg
      cases hf : getForTag s.dom c.rules (.node k) with
      | error e => rw [hf] at hg; cases hg
      | ok x =>
        rw [hf] at hg
        cases x with
        | some x =>
          cases hg
          exact handed_some hr hf _
        | none =>
          cases hg
          rcases getForTag_wins hf with ⟨_, _, hx, -⟩ | ⟨-, hx⟩
          · cases hx
          · refine .inr ⟨hx, _, rfl, ?_, ?_⟩ <;> cases c.defaultRenderer <;> rfl
    cases ht : n.tag with
    | none =>
      rw [ht] at hv
      cases hv
      refine ⟨own c.defaultRenderer _ (.inl rfl), fun h => ?_⟩
      rcases h with h | h <;> cases h
    | some tag =>
      rw [ht] at hv
      simp only at hv
      split at hv
      · cases hgl : getLinkRenderer c s.dom k with
        | error e => rw [hgl] at hv; cases hv
        | ok l =>
          rw [hgl] at hv
          cases hv
          refine ⟨own l _ (.inr rfl), fun _ => ?_⟩
          simp only [getLinkRenderer, bind, Except.bind] at hgl
          cases hf : getForTag s.dom c.linkRules (.node k) with
          | error e => rw [hf] at hgl; cases hgl
          | ok x =>
            rw [hf] at hgl
            cases x with
            | some x =>
              cases hgl
              exact handed_some hl hf _
            | none =>
              rcases getForTag_wins hf with ⟨_, _, hx, -⟩ | ⟨-, hx⟩
              · cases hx
              · simp only at hgl
                split at hgl
                · rename_i r hfind
                  cases hgl
                  refine .inr ⟨hx, r.spec, ⟨r, List.mem_of_find?_eq_some hfind, by simpa using List.find?_some hfind, rfl⟩, ?_, ?_⟩
                  · cases r.spec <;> rfl
                  · cases spec <;> cases r.spec <;> rfl
                · cases hgl
      · rename_i hnl
        cases hv
        refine ⟨own c.defaultRenderer _ (.inl rfl), fun h => ?_⟩
        exfalso
        apply hnl
        rcases h with h | h <;> cases h <;> decide

/-- Two rules for `x`: the settings come from both. -/
def twoRules : Cfg :=
  { renderers := [⟨py"x", one (elt py"x"), .pair (some .inline) (some [(py"template", .str py"[{}]"), (py"capitalized", .bool false)])⟩,
      ⟨py"*", one (.element none), .pair none (some [(py"template", .str py"({})"), (py"margin", .int 1)])⟩] }

example : RuleDicts twoRules.renderers ∧ ∃ s0 s t, initParser twoRules = .ok s0 ∧
    feed asciiUni twoRules s0 [.start py"x" [], .data py"hi", .stop py"x"] = .ok s ∧
    assignRenderers twoRules s.dom s.dom.fuel s.dom.roots [] = .ok t ∧ (assignedTo t 0).renderer = some .inline ∧
    (assignedTo t 0).settings.map (fun s => DictOf.get s py"template") = some (some (.str py"[{}]")) ∧
    (assignedTo t 0).settings.map (fun s => DictOf.get s py"margin") = some (some (.int 1)) := by
  refine ⟨?_, _, _, _, rfl, rfl, rfl, rfl, rfl, rfl⟩
  intro r hr t ht
  simp only [twoRules, List.mem_cons, List.not_mem_nil, or_false] at hr
  rcases hr with rfl | rfl <;> cases ht <;> decide

end Verif
