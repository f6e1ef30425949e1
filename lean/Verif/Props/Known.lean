import Verif.Spec.Known
import Verif.Proofs.KnownTable
import Verif.Props.Group
import Verif.Props.Keep

/-!
# C101: which settings count
-/

namespace Verif

open Spec

theorem render_lookups_on {u : Uni} {c : Cfg} {r l : List Rule} {es : List Event}
    (h1 : ∀ d, TreeOf u c es d → ∀ i, LookupOn (getRenderer (withRules c r l) d i) (getRenderer c d i))
    (h2 : ∀ d, TreeOf u c es d → ∀ i, LinkLookupOn (getLinkRenderer (withRules c r l) d i) (getLinkRenderer c d i)) :
    renderEvents u (withRules c r l) es = renderEvents u c es := by
  have h0 : initParser (withRules c r l) = initParser c := rfl
  simp only [renderEvents, bind, Except.bind, h0, feed_rules]
  cases hi : initParser c with
  | error e => rfl
  | ok s0 =>
    simp only
    cases hf : feed u c s0 es with
    | error e => rfl
    | ok s1 =>
      have ht : TreeOf u c es (popStack s1.dom s1.stack.reverse) := ⟨s0, s1, hi, hf, rfl⟩
      simp only [close, bind, Except.bind]
      rcases assignRenderers_on (h1 _ ht) (h2 _ ht) (popStack s1.dom s1.stack.reverse).fuel (popStack s1.dom s1.stack.reverse).roots s1.assigned
        s1.assigned (fun i => assignedOn_refl _ _) with ⟨e, e1, e2⟩ | ⟨t, t', e1, e2, q⟩
      · rw [e1, e2]
      · rw [e1, e2]
        have e : ∀ f b box, renderNode u (popStack s1.dom s1.stack.reverse) t f b box = renderNode u (popStack s1.dom s1.stack.reverse) t' f b box :=
          fun f b box => funext (fun i => renderNode_on q f b box i)
        have hp : (withRules c r l).pageBox = c.pageBox := rfl
        have hk : (withRules c r l).linkPlacement = c.linkPlacement := rfl
        have ho : (withRules c r l).optimise = c.optimise := rfl
        simp only [e, hp, hk, ho]
        generalize List.mapM (m := Except PyErr) (renderNode u (popStack s1.dom s1.stack.reverse) t' (popStack s1.dom s1.stack.reverse).fuel false c.pageBox) _ = x
        generalize (if c.linkPlacement = py"footer" ∧ s1.footer ≠ [] then _ else _) = y
        cases x with
        | error e => rfl
        | ok x => cases y <;> rfl

/-! ## By the winners -/

theorem chosen_found {d : Dom} {rules : List Rule} {i : Nat} (h : ∀ r ∈ rules, Comparable d r) :
    ∃ r s, getForTag d rules (.node i) = .ok (r.map (fun c => (c, s))) ∧ (s.map Prod.fst).Nodup ∧ (∀ cls, r = some cls ↔ ChosenRenderer d rules i cls) ∧
      (RuleDicts rules → ∀ k v, DictOf.get s k = some v ↔
        ∃ r, Wins d (.node i) rules (fun r => ruleSetting r k ≠ none) r ∧ ruleSetting r k = some v) := by
  have c1 := collect_map (i := i) h
  have n1 := applyMatches_nodup (sortMatches (rules.filterMap (matchOf d i))) none [] (by simp)
  have r1 := fun cls => found_renderer c1 cls
  have s1 := fun hd k v => found_setting hd c1 k v
  unfold getForTag
  rw [c1]
  simp only [bind, Except.bind, pure, Except.pure]
  generalize applyMatches (sortMatches (rules.filterMap (matchOf d i))) none [] = a at *
  obtain ⟨a1, a2⟩ := a
  exact ⟨a1, a2, by cases a1 <;> rfl, n1, r1, s1⟩

theorem option_ext {α : Type} {a b : Option α} (h : ∀ x, a = some x ↔ b = some x) : a = b := by
  cases a with
  | none => cases b with
    | none => rfl
    | some y => exact absurd ((h y).2 rfl) (by simp)
  | some x => exact ((h x).1 rfl).symm

theorem fallback_on {l m : List Rule} (h : SameFallback l m) : LinkLookupOn (match l.find? (fun q : Rule => q.key == py"a") with
      | some r => .ok r.spec
      | none => .error .keyError) (match m.find? (fun q : Rule => q.key == py"a") with
      | some r => .ok r.spec
      | none => .error .keyError) := by
  unfold SameFallback at h
  split at h
  · rename_i r t e1 e2
    rw [e1, e2]
    obtain ⟨h1, h2⟩ := h
    simp only
    cases e3 : r.spec with
    | cls a =>
      obtain ⟨b, e4⟩ := h2.1 ⟨a, e3⟩
      rw [e3, e4] at h1
      simp only [namedRenderer, Option.some.injEq] at h1
      rw [e4, h1]
      exact .cls b
    | pair a s =>
      cases e4 : t.spec with
      | cls b =>
        obtain ⟨x, hx⟩ := h2.2 ⟨b, e4⟩
        rw [e3] at hx
        cases hx
      | pair b v =>
        rw [e3, e4] at h1
        simp only [namedRenderer] at h1
        subst h1
        exact .pair a s v
  · rename_i e1 e2
    rw [e1, e2]
    exact .error _
  · exact h.elim

/-- Rule tables that choose the same renderers, and the same values for the settings that these know, make the same page. In the list of links
only the renderers count. -/
theorem C101 (u : Uni) (c : Cfg) (es : List Event) (r l : List Rule)
    (ha : SameFallback (withRules c r l).linkRules c.linkRules)
    (hd : RuleDicts c.rules ∧ RuleDicts (withRules c r l).rules)
    (hc : ∀ d, TreeOf u c es d → ∀ q, q ∈ c.rules ∨ q ∈ (withRules c r l).rules ∨ q ∈ c.linkRules ∨ q ∈ (withRules c r l).linkRules → Comparable d q)
    (h : ∀ d, TreeOf u c es d → SameKnown d c.rules (withRules c r l).rules ∧
      ∀ i cls, ChosenRenderer d c.linkRules i cls ↔ ChosenRenderer d (withRules c r l).linkRules i cls) :
    renderEvents u (withRules c r l) es = renderEvents u c es := by
  obtain ⟨d1, d2⟩ := hd
  refine render_lookups_on (fun d ht i => ?_) (fun d ht i => ?_)
  · obtain ⟨x, s, e1, n1, x1, s1⟩ := chosen_found (i := i) (fun q hq => hc d ht q (.inl hq))
    obtain ⟨y, t, e2, n2, y1, t1⟩ := chosen_found (i := i) (fun q hq => hc d ht q (.inr (.inl hq)))
    have e : x = y := option_ext (fun cls => (x1 cls).trans (((h d ht).1.renderer i cls).trans (y1 cls).symm))
    subst e
    unfold getRenderer
    rw [e1, e2]
    cases x with
    | none => exact lookupOn_refl _
    | some cls =>
      refine .pair (some cls) (some t) (some s) ?_
      rintro _ ⟨⟩
      refine .inr ⟨t, s, rfl, rfl, n2, n1, fun k hk => option_ext (fun v => ?_)⟩
      rw [s1 d1, t1 d2, (h d ht).1.setting i cls ((x1 cls).1 rfl) k hk]
  · obtain ⟨x, s, e1, -, x1, -⟩ := chosen_found (i := i) (fun q hq => hc d ht q (.inr (.inr (.inl hq))))
    obtain ⟨y, t, e2, -, y1, -⟩ := chosen_found (i := i) (fun q hq => hc d ht q (.inr (.inr (.inr hq))))
    have e : x = y := option_ext (fun cls => (x1 cls).trans (((h d ht).2 i cls).trans (y1 cls).symm))
    subst e
    unfold getLinkRenderer
    rw [e1, e2]
    cases x with
    | none => exact fallback_on ha
    | some cls => exact .pair (some cls) (some t) (some s)

/-! ## Rule by rule -/

theorem agreeOn_refl (K : Str → Prop) (r : Rule) : AgreeOn K r r := ⟨rfl, rfl, rfl, fun _ _ => rfl⟩

theorem rulesAgree_refl (K : Rule → Str → Prop) (l : List Rule) : RulesAgree K l l := by
  induction l with
  | nil => exact .nil
  | cons r l ih => exact .cons (agreeOn_refl _ r) ih

theorem rulesAgree_set {K : Rule → Str → Prop} {l m : List Rule} (h : RulesAgree K l m) {r t : Rule} (hr : AgreeOn (K t) r t) :
    RulesAgree K (setRule l r) (setRule m t) := by
  induction h with
  | nil => exact .cons hr .nil
  | cons q qs ih =>
    simp only [setRule, q.key, hr.key]
    split
    · exact .cons hr qs
    · exact .cons q ih

theorem rulesAgree_update {K : Rule → Str → Prop} {a b : List Rule} (h : RulesAgree K a b) : ∀ {l m : List Rule}, RulesAgree K l m →
    RulesAgree K (updateRules l a) (updateRules m b) := by
  induction h with
  | nil => exact fun h => h
  | cons q qs ih => exact fun h => ih (rulesAgree_set h q)

/-- Matches of such rules. -/
inductive MatchesAgree (K : Str → Prop) : List (Spec3 × Rule) → List (Spec3 × Rule) → Prop where
  | nil : MatchesAgree K [] []
  | cons {sp : Spec3} {r t : Rule} {rs ts : List (Spec3 × Rule)} (h : AgreeOn K r t) (hs : MatchesAgree K rs ts) :
    MatchesAgree K ((sp, r) :: rs) ((sp, t) :: ts)

theorem collect_agree {K : Rule → Str → Prop} {K0 : Str → Prop} {d : Dom} {p : Par} {l m : List Rule} (h : RulesAgree K l m)
    (hK : ∀ r sp, tagMatches d p r.sels = .ok (true, some sp) → ∀ k, K0 k → K r k) :
    (∃ e, collectMatches d p l = .error e ∧ collectMatches d p m = .error e) ∨
      ∃ x y, collectMatches d p l = .ok x ∧ collectMatches d p m = .ok y ∧ MatchesAgree K0 x y := by
  induction h with
  | nil => exact .inr ⟨_, _, rfl, rfl, .nil⟩
  | @cons r t rs ts q qs ih =>
    have hk := hK t
    simp only [collectMatches, q.sels, bind, Except.bind]
    generalize tagMatches d p _ = w at hk ⊢
    cases w with
    | error e => exact .inl ⟨e, rfl, rfl⟩
    | ok w =>
      simp only
      split
      · rename_i sp
        rcases ih with ⟨e, e1, e2⟩ | ⟨x, y, e1, e2, g⟩
        · rw [e1, e2]; exact .inl ⟨e, rfl, rfl⟩
        · rw [e1, e2]; exact .inr ⟨_, _, rfl, rfl, .cons ⟨q.key, q.sels, q.renderer, fun k h0 => q.settings k (hk sp rfl k h0)⟩ g⟩
      · exact ih

theorem insert_agree {K : Str → Prop} {x y : List (Spec3 × Rule)} (h : MatchesAgree K x y) {sp : Spec3} {r t : Rule} (q : AgreeOn K r t) :
    MatchesAgree K (insertMatch (sp, r) x) (insertMatch (sp, t) y) := by
  induction h with
  | nil => exact .cons q .nil
  | cons g gs ih =>
    simp only [insertMatch]
    split
    · exact .cons g ih
    · exact .cons q (.cons g gs)

theorem sort_agree {K : Str → Prop} {x y : List (Spec3 × Rule)} (h : MatchesAgree K x y) : MatchesAgree K (sortMatches x) (sortMatches y) := by
  induction h with
  | nil => exact .nil
  | cons g gs ih => exact insert_agree ih g

theorem apply_agree {K : Str → Prop} {x y : List (Spec3 × Rule)} (h : MatchesAgree K x y) : ∀ {r : Option RClass} {s t : Dict}, SameOn K s t →
    (∀ m ∈ x, ∀ a, m.2.spec.settings = some a → (a.map Prod.fst).Nodup) → (∀ m ∈ y, ∀ a, m.2.spec.settings = some a → (a.map Prod.fst).Nodup) →
    (applyMatches x r s).1 = (applyMatches y r t).1 ∧ SameOn K (applyMatches x r s).2 (applyMatches y r t).2 := by
  induction h with
  | nil => exact fun h _ _ => ⟨rfl, h⟩
  | @cons sp a b as bs q qs ih =>
    intro r s t h hx hy
    have qr := q.renderer
    rw [named_eq, named_eq] at qr
    simp only [applyMatches, qr]
    refine ih ?_ (fun m hm => hx m (by simp [hm])) (fun m hm => hy m (by simp [hm]))
    intro k hk
    have q1 := q.settings k hk
    have n1 := hx (sp, a) (by simp)
    have n2 := hy (sp, b) (by simp)
    rw [ruleSetting_eq, ruleSetting_eq] at q1
    simp only at n1 n2
    cases ea : a.spec.settings with
    | none =>
      cases eb : b.spec.settings with
      | none => exact h k hk
      | some w =>
        simp only [ea, eb, Option.bind_none, Option.bind_some] at q1
        simp only
        rw [DictOf.get_update_nodup _ _ (n2 w eb), ← q1]
        exact h k hk
    | some v =>
      cases eb : b.spec.settings with
      | none =>
        simp only [ea, eb, Option.bind_none, Option.bind_some] at q1
        simp only
        rw [DictOf.get_update_nodup _ _ (n1 v ea), q1]
        exact h k hk
      | some w =>
        simp only [ea, eb, Option.bind_some] at q1
        simp only
        rw [DictOf.get_update_nodup _ _ (n1 v ea), DictOf.get_update_nodup _ _ (n2 w eb), q1, h k hk]

theorem found_agree {K : Rule → Str → Prop} {K0 : Str → Prop} {d : Dom} {p : Par} {l m : List Rule} (h : RulesAgree K l m)
    (hK : ∀ r sp, tagMatches d p r.sels = .ok (true, some sp) → ∀ k, K0 k → K r k) (h1 : RuleDicts l) (h2 : RuleDicts m) :
    (∃ e, getForTag d l p = .error e ∧ getForTag d m p = .error e) ∨ (getForTag d l p = .ok none ∧ getForTag d m p = .ok none) ∨
      ∃ cls s t, getForTag d l p = .ok (some (cls, s)) ∧ getForTag d m p = .ok (some (cls, t)) ∧ (∃ r ∈ m, (∃ sp, Applies d p r sp) ∧ namedRenderer r.spec = some cls) ∧
        (s.map Prod.fst).Nodup ∧ (t.map Prod.fst).Nodup ∧ SameOn K0 s t := by
  unfold getForTag
  rcases collect_agree h hK with ⟨e, e1, e2⟩ | ⟨x, y, e1, e2, g⟩
  · rw [e1, e2]; exact .inl ⟨e, rfl, rfl⟩
  · rw [e1, e2]
    have hx : ∀ q ∈ sortMatches x, ∀ a, q.2.spec.settings = some a → (a.map Prod.fst).Nodup :=
      fun q hq => h1 q.2 (collectMatches_sound d p l x e1 q ((mem_sortMatches _ _).1 hq)).1
    have hy : ∀ q ∈ sortMatches y, ∀ a, q.2.spec.settings = some a → (a.map Prod.fst).Nodup :=
      fun q hq => h2 q.2 (collectMatches_sound d p m y e2 q ((mem_sortMatches _ _).1 hq)).1
    obtain ⟨f1, f2⟩ := apply_agree (sort_agree g) (r := none) (s := []) (t := []) (fun _ _ => rfl) hx hy
    have n1 := applyMatches_nodup (sortMatches x) none [] (by simp)
    have n2 := applyMatches_nodup (sortMatches y) none [] (by simp)
    have hc := applyMatches_fst (sortMatches y) none []
    simp only [bind, Except.bind, pure, Except.pure]
    generalize applyMatches (sortMatches x) none [] = a at *
    generalize applyMatches (sortMatches y) none [] = b at *
    obtain ⟨a1, a2⟩ := a
    obtain ⟨b1, b2⟩ := b
    simp only at f1 f2 n1 n2 hc
    subst f1
    cases a1 with
    | none => exact .inr (.inl ⟨rfl, rfl⟩)
    | some cls =>
      refine .inr (.inr ⟨cls, a2, b2, rfl, rfl, ?_, n1, n2, f2⟩)
      split at hc
      · rename_i q hq
        have hm := List.mem_of_getLast? hq
        rw [List.mem_filter] at hm
        have hq := collectMatches_sound d p m y e2 q ((mem_sortMatches _ _).1 hm.1)
        exact ⟨q.2, hq.1, ⟨q.1, (tagMatches_iff d p q.2 _ hq.2 q.1).1 hq.2⟩, hc.symm⟩
      · cases hc

/-- Settings can be written in any order, and left out where they do not count; empty settings can be left out. In the list of links settings
make no difference at all. -/
theorem C101_rules (u : Uni) (c : Cfg) (es : List Event) (r l : List Rule) (hr : RulesAgree (Counts u c es) r c.renderers)
    (hl : RulesAgree (fun _ _ => False) l c.linkRenderers) (ha : SameFallback (withRules c r l).linkRules c.linkRules)
    (hd : RuleDicts c.renderers ∧ RuleDicts r ∧ RuleDicts c.linkRenderers ∧ RuleDicts l) :
    renderEvents u (withRules c r l) es = renderEvents u c es := by
  obtain ⟨d1, d2, d3, d4⟩ := hd
  have dicts : ∀ {a b : List Rule}, RuleDicts a → RuleDicts b → RuleDicts (updateRules a b) := by
    intro a b h1 h2 q hq
    rcases mem_updateRules _ _ q hq with h | h
    · exact h1 q h
    · exact h2 q h
  have f1 : RuleDicts defaultRules := fun q hq => defaults_dicts q (List.mem_append_left _ hq)
  have f2 : RuleDicts defaultLinkRules := fun q hq => defaults_dicts q (List.mem_append_right _ hq)
  refine render_lookups_on (fun d ht i => ?_) (fun d ht i => ?_)
  · unfold getRenderer
    rcases found_agree (d := d) (p := .node i) (l := (withRules c r l).rules) (m := c.rules)
        (K0 := fun k => ∃ q ∈ c.rules, (∃ sp, Applies d (.node i) q sp) ∧ ∃ cls, namedRenderer q.spec = some cls ∧ Knows cls k)
        (rulesAgree_update hr (rulesAgree_refl _ _))
        (fun r sp hm k hk => ⟨d, i, ht, ⟨sp, (tagMatches_iff d _ r _ hm sp).1 hm⟩, hk⟩) (dicts f1 d2)
        (dicts f1 d1) with ⟨e, e1, e2⟩ | ⟨e1, e2⟩ | ⟨cls, s, t, e1, e2, ⟨q, q1, q2, q3⟩, n1, n2, g⟩
    · rw [e1, e2]; exact .error e
    · rw [e1, e2]; exact lookupOn_refl _
    · rw [e1, e2]
      refine .pair (some cls) (some s) (some t) ?_
      rintro _ ⟨⟩
      exact .inr ⟨s, t, rfl, rfl, n1, n2, fun k hk => g k ⟨q, q1, q2, cls, q3, hk⟩⟩
  · unfold getLinkRenderer
    rcases found_agree (d := d) (p := .node i) (l := (withRules c r l).linkRules) (m := c.linkRules) (K0 := fun _ => False)
        (rulesAgree_update hl (rulesAgree_refl _ _)) (fun _ _ _ _ h => h.elim) (dicts f2 d4)
        (dicts f2 d3) with ⟨e, e1, e2⟩ | ⟨e1, e2⟩ | ⟨cls, s, t, e1, e2, -⟩
    · rw [e1, e2]; exact .error e
    · rw [e1, e2]; exact fallback_on ha
    · rw [e1, e2]; exact .pair (some cls) (some s) (some t)

theorem get_filter {d : Dict} {k j : Str} (h : j ≠ k) : DictOf.get (d.filter (fun e => e.1 ≠ k)) j = DictOf.get d j := by
  induction d with
  | nil => rfl
  | cons e d ih =>
    by_cases he : e.1 = k
    · rw [List.filter_cons_of_neg (by simp [he]), ih]
      obtain ⟨a, v⟩ := e
      simp only at he
      subst he
      rw [DictOf.get_cons, if_neg h]
    · rw [List.filter_cons_of_pos (by simp [he])]
      obtain ⟨a, v⟩ := e
      rw [DictOf.get_cons, DictOf.get_cons, ih]

theorem ruleWithout_agree {K : Str → Prop} {k : Str} (hk : ¬ K k) (r : Rule) : AgreeOn K (ruleWithout k r) r := by
  obtain ⟨key, sels, spec⟩ := r
  refine ⟨rfl, rfl, by cases spec <;> rfl, fun j hj => ?_⟩
  have hne : j ≠ k := fun e => hk (e ▸ hj)
  cases spec with
  | cls c => rfl
  | pair r s => cases s with
    | none => rfl
    | some d => exact get_filter hne

/-- A setting that counts nowhere can be left out of all rules. -/
theorem C101_unknown (u : Uni) (c : Cfg) (es : List Event) (k : Str) (hk : ∀ r, ¬ Counts u c es r k) (hd : RuleDicts c.renderers)
    (hl : RuleDicts c.linkRenderers) : renderEvents u { c with renderers := c.renderers.map (ruleWithout k) } es = renderEvents u c es := by
  refine C101_rules u c es (c.renderers.map (ruleWithout k)) c.linkRenderers ?_ (rulesAgree_refl _ _) ?_ ⟨hd, ?_, hl, hl⟩
  · generalize c.renderers = rs
    induction rs with
    | nil => exact .nil
    | cons r rs ih => exact .cons (ruleWithout_agree (hk r) r) ih
  · show SameFallback c.linkRules c.linkRules
    unfold SameFallback
    split
    · rename_i r t e1 e2
      rw [e1] at e2
      cases e2
      exact ⟨rfl, .rfl⟩
    · trivial
    · rename_i h1 h2
      cases e : c.linkRules.find? (fun q : Rule => q.key == py"a") with
      | none => exact h2 e e
      | some r => exact h1 r r e e
  · intro r hr t ht
    obtain ⟨q, hq, rfl⟩ := List.mem_map.1 hr
    obtain ⟨key, sels, spec⟩ := q
    cases spec with
    | cls c => cases ht
    | pair r s => cases s with
      | none => cases ht
      | some d =>
        simp only [ruleWithout, specWithout, RSpec.settings, Option.map_some, Option.some.injEq] at ht
        subst ht
        have := hd _ hq d rfl
        exact List.Nodup.sublist (List.Sublist.map _ List.filter_sublist) this

/-! ## Examples -/

/-- A class of the project. -/
def BuiltIn : RClass → Prop
  | .sub _ _ => False
  | _ => True

/-- The names declared by a class of the project and the classes it is derived from. -/
def declaredNames (c : RClass) : List Str := (c.chain.map (fun d => d.map Prod.fst)).flatten

theorem declares_names {c : RClass} {k : Str} (hc : BuiltIn c) (h : Declares c k) : k ∈ declaredNames c := by
  induction h with
  | @own c k h =>
    unfold declaredNames
    cases c <;> first | exact hc.elim | (simp only [RClass.chain, List.map_cons, List.map_nil, List.flatten_cons, List.flatten_nil, List.append_nil, List.mem_append]; simp [h])
  | @base c b k e h ih =>
    cases c <;> first | exact hc.elim | cases e
    all_goals
      have := ih trivial
      revert this
      unfold declaredNames
      simp only [RClass.chain, List.map_cons, List.map_nil, List.flatten_cons, List.flatten_nil, List.append_nil, List.mem_append]
      grind


namespace KnownExample

/-- A frame at the left of paragraphs, and letters set apart, which only headers know. -/
def framed : Rule := ⟨py"p", one (elt py"p"), .pair (some .paragraph) (some [(py"spread", .int 3), (py"border", .strs [[], [], [], py"| "])])⟩

def cfg : Cfg := { renderers := [framed] }

theorem applies_tag {d : Dom} {i : Nat} {r : Rule} {n : Str} {sp : Spec3} (h : r.sels = one (elt n)) (ha : Applies d (.node i) r sp) :
    elementMatches d (.node i) (some n) = true := by
  obtain ⟨⟨s, h1, h2, -⟩, -⟩ := ha
  rw [h] at h1
  simp only [one, List.mem_singleton] at h1
  subst h1
  simpa [elt, selMatch] using h2

/-- The rule names no renderer that knows the setting, or is one for elements with another tag. -/
def check (q : Rule) : Bool := match q.spec.renderer with
  | some cls => (match cls with | .sub _ _ => false | _ => true) && if py"spread" ∈ declaredNames cls then
      (match q.sels with | [⟨.element (some n), false⟩] => n != py"p" | _ => false) else true
  | none => true

theorem names_tag : ∀ q ∈ cfg.rules, ∀ cls, q.spec.renderer = some cls → BuiltIn cls ∧
    (py"spread" ∈ declaredNames cls → ∃ n, n ≠ py"p" ∧ q.sels = one (elt n)) := by
  intro q hq
  have h : ∀ q ∈ cfg.rules, check q = true := by decide
  have := h q hq
  unfold check at this
  intro cls hc
  rw [hc] at this
  simp only [Bool.and_eq_true] at this
  refine ⟨by cases cls <;> first | trivial | simp at this, fun hs => ?_⟩
  have h2 := this.2
  rw [if_pos hs] at h2
  split at h2
  · rename_i n e
    exact ⟨n, by simpa using h2, e⟩
  · cases h2

theorem no_spread (es : List Event) (r : Rule) (hr : r.sels = one (elt py"p")) : ¬ Counts asciiUni cfg es r py"spread" := by
  rintro ⟨d, i, -, ⟨sp, h1⟩, q, hq, ⟨sp', h2⟩, cls, h3, h4⟩
  obtain ⟨hb, hn⟩ := names_tag q hq cls h3
  rcases h4 with h4 | ⟨-, h4⟩
  · obtain ⟨n, n1, n2⟩ := hn (declares_names hb h4)
    have e1 := applies_tag hr h1
    have e2 := applies_tag n2 h2
    unfold elementMatches at e1 e2
    simp only at e1 e2
    split at e1
    · rename_i m hm
      rw [hm] at e2
      simp only at e2
      split at e1
      · cases e1
      · rw [if_neg (by assumption)] at e2
        simp only [Option.isNone_some, Bool.or_false, beq_iff_eq] at e1 e2
        rw [e1] at e2
        exact n1 (Option.some.inj e2).symm
    · cases e1
  · exact absurd h4 (by decide)

theorem cfg_agree (es : List Event) : RulesAgree (Counts asciiUni cfg es)
    [⟨py"p", one (elt py"p"), .pair (some .paragraph) (some [(py"border", .strs [[], [], [], py"| "])])⟩] cfg.renderers :=
  .cons (ruleWithout_agree (no_spread es framed rfl) framed) .nil

def doc : List Event := [.start py"p" [], .data py"hi", .stop py"p"]

/-- For every document the page is the same without the setting. -/
example (es : List Event) : renderEvents asciiUni
      { renderers := [⟨py"p", one (elt py"p"), .pair (some .paragraph) (some [(py"border", .strs [[], [], [], py"| "])])⟩] } es =
    renderEvents asciiUni cfg es :=
  C101_rules asciiUni cfg es _ [] (cfg_agree es) .nil ⟨rfl, .rfl⟩
    (by refine ⟨?_, ?_, (by intro _ h; cases h), (by intro _ h; cases h)⟩ <;>
      (intro q hq t ht; simp only [cfg, List.mem_singleton] at hq; subst hq; simp only [framed, RSpec.settings, Option.some.injEq] at ht; subst ht; decide))

example : renderEvents asciiUni cfg doc = .ok py"\n| hi\n" := by decide +kernel

end KnownExample

open KnownExample in
/-- A setting that the renderer knows counts, also if it is a renderer that the element does not have by default. -/
theorem C101_known : renderEvents asciiUni { renderers := [⟨py"p", one (elt py"p"), .pair (some .header) (some [(py"spread", .int 3)])⟩] } doc =
      .ok py"\nh   i\n" ∧
    renderEvents asciiUni { renderers := [⟨py"p", one (elt py"p"), .pair (some .header) none⟩] } doc = .ok py"\nhi\n" := by decide +kernel

/-- The rule for `a` and one without renderer for `img`, so that images fall back to the rule for `a`. -/
def fallbackRules (a : RSpec) : List Rule := [⟨py"a", one (elt py"a"), a⟩, ⟨py"img", one (elt py"img"), .pair none (some [])⟩]

/-- In the rule to which the list of links falls back a class is not as good as a pair without settings. -/
theorem C101_fallback_fails :
    renderEvents asciiUni { linkRenderers := fallbackRules (.cls .extractedLink), imagePlacement := py"footer" }
      [.start py"img" [(py"src", some py"x.png")]] = .error .attributeError ∧
    renderEvents asciiUni { linkRenderers := fallbackRules (.pair (some .extractedLink) none), imagePlacement := py"footer" }
      [.start py"img" [(py"src", some py"x.png")]] = .ok py"[Image][1]\n\n[1] : x.png" := by decide +kernel

end Verif
