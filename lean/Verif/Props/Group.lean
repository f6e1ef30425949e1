import Verif.Spec.Group
import Verif.Proofs.SameTable
import Verif.Props.Rules

/-!
# C100: groups of selectors
-/

namespace Verif

open Spec

/-! ## The page depends on the winners -/

theorem render_lookups {u : Uni} {c : Cfg} {r l : List Rule} {es : List Event}
    (h1 : ∀ d, TreeOf u c es d → ∀ i, SameLookup (getRenderer (withRules c r l) d i) (getRenderer c d i))
    (h2 : ∀ d, TreeOf u c es d → ∀ i, SameLookup (getLinkRenderer (withRules c r l) d i) (getLinkRenderer c d i)) :
    renderEvents u (withRules c r l) es = renderEvents u c es := by
  have h0 : initParser (withRules c r l) = initParser c := rfl
  simp only [renderEvents, bind, Except.bind, h0, feed_rules]
  cases hi : initParser c with
  | error e => rfl
  | ok s0 =>
    simp only
    cases hf : feed u c s0 es with
    | error e => rfl
    | ok s1 =>
      have ht : TreeOf u c es (popStack s1.dom s1.stack.reverse) := ⟨s0, s1, hi, hf, rfl⟩
      simp only [close, bind, Except.bind]
      rcases assignRenderers_dict (h1 _ ht) (h2 _ ht) (popStack s1.dom s1.stack.reverse).fuel (popStack s1.dom s1.stack.reverse).roots s1.assigned
        s1.assigned (fun i => sameAssigned_refl _) with ⟨e, e1, e2⟩ | ⟨t, t', e1, e2, q⟩
      · rw [e1, e2]
      · rw [e1, e2]
        have e : ∀ f b box, renderNode u (popStack s1.dom s1.stack.reverse) t f b box = renderNode u (popStack s1.dom s1.stack.reverse) t' f b box :=
          fun f b box => funext (fun i => renderNode_dict q f b box i)
        have hp : (withRules c r l).pageBox = c.pageBox := rfl
        have hk : (withRules c r l).linkPlacement = c.linkPlacement := rfl
        have ho : (withRules c r l).optimise = c.optimise := rfl
        simp only [e, hp, hk, ho]
        generalize List.mapM (m := Except PyErr) (renderNode u (popStack s1.dom s1.stack.reverse) t' (popStack s1.dom s1.stack.reverse).fuel false c.pageBox) _ = x
        generalize (if c.linkPlacement = py"footer" ∧ s1.footer ≠ [] then _ else _) = y
        cases x with
        | error e => rfl
        | ok x => cases y <;> rfl

/-- The lookups find the same renderer and settings with the same values. -/
def SameFound (x y : Option (RClass × Dict)) : Prop :=
  (x = none ∧ y = none) ∨ ∃ cls s t, x = some (cls, s) ∧ y = some (cls, t) ∧ (s.map Prod.fst).Nodup ∧ (t.map Prod.fst).Nodup ∧ SameDict s t

theorem getForTag_ok {d : Dom} {rules : List Rule} {i : Nat} (h : ∀ r ∈ rules, Comparable d r) : ∃ v, getForTag d rules (.node i) = .ok v := by
  unfold getForTag
  rw [collect_map h]
  simp only [bind, Except.bind]
  split <;> exact ⟨_, rfl⟩

theorem last_wins {d : Dom} {p : Par} {rules : List Rule} {ms : List (Spec3 × Rule)} (hc : collectMatches d p rules = .ok ms) (P : Rule → Bool) (r : Rule) :
    Wins d p rules (fun r => P r = true) r ↔ ∃ w, ((sortMatches ms).filter (fun m => P m.2)).getLast? = some w ∧ w.2 = r := by
  constructor
  · intro h
    have hw := h
    obtain ⟨A, B, sp, h1, h2, h3, -, -⟩ := h
    have hr : r ∈ rules := by rw [h1]; simp
    obtain ⟨v, hv⟩ := collectMatches_ok d _ _ ms hc r hr
    have hm := collectMatches_complete d _ _ ms hc r hr sp ((tagMatches_iff d _ r v hv sp).2 h3)
    cases hl : ((sortMatches ms).filter (fun m => P m.2)).getLast? with
    | none =>
      rw [List.getLast?_eq_none_iff, List.filter_eq_nil_iff] at hl
      exact absurd h2 (hl (sp, r) ((mem_sortMatches _ _).2 hm))
    | some w => exact ⟨w, rfl, C07_unique d p rules _ _ _ (wins_of_getLast d p rules ms hc P w hl) hw⟩
  · rintro ⟨w, hl, rfl⟩
    exact wins_of_getLast d p rules ms hc P w hl

theorem wins_congr {d : Dom} {p : Par} {rules : List Rule} {P Q : Rule → Prop} (h : ∀ r, P r ↔ Q r) (r : Rule) : Wins d p rules P r ↔ Wins d p rules Q r := by
  have : P = Q := funext (fun r => propext (h r))
  rw [this]

theorem found_renderer {d : Dom} {p : Par} {rules : List Rule} {ms : List (Spec3 × Rule)} (hc : collectMatches d p rules = .ok ms) (cls : RClass) :
    (applyMatches (sortMatches ms) none []).1 = some cls ↔ ∃ r, Wins d p rules NamesRenderer r ∧ namedRenderer r.spec = some cls := by
  have e : ∀ r : Rule, NamesRenderer r ↔ r.spec.renderer.isSome = true := by
    intro r; unfold NamesRenderer; rw [named_eq]; cases r.spec.renderer <;> simp
  simp only [wins_congr e, last_wins hc]
  rw [applyMatches_fst]
  constructor
  · intro h
    split at h
    · rename_i m hm
      exact ⟨m.2, ⟨m, hm, rfl⟩, h⟩
    · cases h
  · rintro ⟨r, ⟨w, hw, rfl⟩, hr⟩
    rw [hw]
    exact hr

theorem found_setting {d : Dom} {p : Par} {rules : List Rule} {ms : List (Spec3 × Rule)} (hd : RuleDicts rules) (hc : collectMatches d p rules = .ok ms)
    (k : Str) (v : Val) : DictOf.get (applyMatches (sortMatches ms) none []).2 k = some v ↔
      ∃ r, Wins d p rules (fun r => ruleSetting r k ≠ none) r ∧ ruleSetting r k = some v := by
  have e : ∀ r : Rule, ruleSetting r k ≠ none ↔ (ruleSetting r k).isSome = true := by
    intro r; cases ruleSetting r k <;> simp
  simp only [wins_congr e, last_wins hc (fun r => (ruleSetting r k).isSome)]
  rw [applyMatches_snd _ _ _ _ (fun m hm t ht => hd m.2 (collectMatches_sound d p rules ms hc m ((mem_sortMatches _ _).1 hm)).1 t ht)]
  constructor
  · intro h
    split at h
    · rename_i m hm
      exact ⟨m.2, ⟨m, hm, rfl⟩, h⟩
    · cases h
  · rintro ⟨r, ⟨w, hw, rfl⟩, hr⟩
    rw [hw]
    exact hr

theorem cascade_found {d : Dom} {rules other : List Rule} (h1 : ∀ r ∈ rules, Comparable d r) (h2 : ∀ r ∈ other, Comparable d r)
    (d1 : RuleDicts rules) (d2 : RuleDicts other) (h : SameCascade d rules other) (i : Nat) :
    ∃ x y, getForTag d rules (.node i) = .ok x ∧ getForTag d other (.node i) = .ok y ∧ SameFound x y := by
  have c1 := collect_map (i := i) h1
  have c2 := collect_map (i := i) h2
  have n1 := applyMatches_nodup (sortMatches (rules.filterMap (matchOf d i))) none [] (by simp)
  have n2 := applyMatches_nodup (sortMatches (other.filterMap (matchOf d i))) none [] (by simp)
  have r1 := fun cls => found_renderer c1 cls
  have r2 := fun cls => found_renderer c2 cls
  have s1 := fun k v => found_setting d1 c1 k v
  have s2 := fun k v => found_setting d2 c2 k v
  simp only [← h.renderer] at r2
  simp only [← h.setting] at s2
  unfold getForTag
  rw [c1, c2]
  simp only [bind, Except.bind]
  generalize applyMatches (sortMatches (rules.filterMap (matchOf d i))) none [] = a at *
  generalize applyMatches (sortMatches (other.filterMap (matchOf d i))) none [] = b at *
  obtain ⟨a1, a2⟩ := a
  obtain ⟨b1, b2⟩ := b
  simp only at *
  have e : a1 = b1 := by
    cases a1 with
    | none =>
      cases b1 with
      | none => rfl
      | some y => exact absurd ((r1 y).2 ((r2 y).1 rfl)) (by simp)
    | some x => rw [(r2 x).2 ((r1 x).1 rfl)]
  subst e
  have g : SameDict a2 b2 := by
    intro k
    cases h1 : DictOf.get a2 k with
    | none =>
      cases h2 : DictOf.get b2 k with
      | none => rfl
      | some y => exact absurd ((s1 k y).2 ((s2 k y).1 h2)) (by simp [h1])
    | some x => rw [(s2 k x).2 ((s1 k x).1 h1)]
  cases a1 with
  | none => exact ⟨none, none, rfl, rfl, .inl ⟨rfl, rfl⟩⟩
  | some x => exact ⟨_, _, rfl, rfl, .inr ⟨x, a2, b2, rfl, rfl, n1, n2, g⟩⟩

/-- Rule tables that choose the same renderers and the same values of settings make the same page. -/
theorem C100 (u : Uni) (c : Cfg) (es : List Event) (r l : List Rule)
    (ha : (withRules c r l).linkRules.find? (fun q : Rule => q.key == py"a") = c.linkRules.find? (fun q : Rule => q.key == py"a"))
    (hd : RuleDicts c.rules ∧ RuleDicts (withRules c r l).rules ∧ RuleDicts c.linkRules ∧ RuleDicts (withRules c r l).linkRules)
    (hc : ∀ d, TreeOf u c es d → ∀ q, q ∈ c.rules ∨ q ∈ (withRules c r l).rules ∨ q ∈ c.linkRules ∨ q ∈ (withRules c r l).linkRules → Comparable d q)
    (h : ∀ d, TreeOf u c es d → SameCascade d c.rules (withRules c r l).rules ∧ SameCascade d c.linkRules (withRules c r l).linkRules) :
    renderEvents u (withRules c r l) es = renderEvents u c es := by
  obtain ⟨d1, d2, d3, d4⟩ := hd
  refine render_lookups (fun d ht i => ?_) (fun d ht i => ?_)
  · obtain ⟨x, y, e1, e2, q⟩ := cascade_found (fun q hq => hc d ht q (.inr (.inl hq))) (fun q hq => hc d ht q (.inl hq)) d2 d1
      ⟨fun i cls => ((h d ht).1.renderer i cls).symm, fun i k v => ((h d ht).1.setting i k v).symm⟩ i
    unfold getRenderer
    rw [e1, e2]
    rcases q with ⟨rfl, rfl⟩ | ⟨cls, s, t, rfl, rfl, n1, n2, q⟩
    · exact sameLookup_refl _
    · exact .inr ⟨_, _, rfl, rfl, .inr ⟨_, s, t, rfl, rfl, n1, n2, q⟩⟩
  · obtain ⟨x, y, e1, e2, q⟩ := cascade_found (fun q hq => hc d ht q (.inr (.inr (.inr hq)))) (fun q hq => hc d ht q (.inr (.inr (.inl hq)))) d4 d3
      ⟨fun i cls => ((h d ht).2.renderer i cls).symm, fun i k v => ((h d ht).2.setting i k v).symm⟩ i
    unfold getLinkRenderer
    rw [e1, e2, ha]
    rcases q with ⟨rfl, rfl⟩ | ⟨cls, s, t, rfl, rfl, n1, n2, q⟩
    · exact sameLookup_refl _
    · exact .inr ⟨_, _, rfl, rfl, .inr ⟨_, s, t, rfl, rfl, n1, n2, q⟩⟩

/-! ## Groups -/

theorem exists_max {l : List Selector} {Q : Selector → Prop} (h : ∃ t ∈ l, Q t) : ∃ t ∈ l, Q t ∧ ∀ s ∈ l, Q s → ¬ LexLt t.spec s.spec := by
  induction l with
  | nil => obtain ⟨t, ht, -⟩ := h; cases ht
  | cons x l ih =>
    by_cases hl : ∃ t ∈ l, Q t
    · obtain ⟨t, t1, t2, t3⟩ := ih hl
      by_cases hx : Q x ∧ LexLt t.spec x.spec
      · refine ⟨x, by simp, hx.1, fun s hs hq => ?_⟩
        rcases List.mem_cons.1 hs with rfl | hs
        · exact lexLt_irrefl _
        · exact fun q => t3 s hs hq (lexLt_trans hx.2 q)
      · refine ⟨t, by simp [t1], t2, fun s hs hq => ?_⟩
        rcases List.mem_cons.1 hs with rfl | hs
        · exact fun q => hx ⟨hq, q⟩
        · exact t3 s hs hq
    · obtain ⟨t, ht, hq⟩ := h
      rcases List.mem_cons.1 ht with rfl | ht
      · refine ⟨t, by simp, hq, fun s hs hs' => ?_⟩
        rcases List.mem_cons.1 hs with rfl | hs
        · exact lexLt_irrefl _
        · exact absurd ⟨s, hs, hs'⟩ hl
      · exact absurd ⟨t, ht, hq⟩ hl

theorem exists_applies {d : Dom} {p : Par} {r : Rule} {t : Selector} (h : t ∈ r.sels) (hm : selMatch d t.tree p = .ok true) :
    ∃ sp, Applies d p r sp ∧ ¬ LexLt sp t.spec := by
  obtain ⟨s, s1, s2, s3⟩ := exists_max (Q := fun s => selMatch d s.tree p = .ok true) ⟨t, h, hm⟩
  exact ⟨s.spec, ⟨⟨s, s1, s2, rfl⟩, s3⟩, s3 t h hm⟩

theorem lexLt_of_not {a b c : Spec3} (h1 : LexLt a b) (h2 : ¬ LexLt c b) : LexLt a c := by
  rcases lexLt_total b c with q | q | q
  · exact lexLt_trans h1 q
  · exact q ▸ h1
  · exact absurd q h2

section
variable {d : Dom} {p : Par} {key key1 key2 : Str} {sels1 sels2 : List Selector} {spec : RSpec}

/-- A group applies as the stronger of its parts. -/
theorem applies_group (sp : Spec3) : Applies d p ⟨key, sels1 ++ sels2, spec⟩ sp ↔
    (Applies d p ⟨key1, sels1, spec⟩ sp ∧ ∀ q, Applies d p ⟨key2, sels2, spec⟩ q → ¬ LexLt sp q) ∨
    (Applies d p ⟨key2, sels2, spec⟩ sp ∧ ∀ q, Applies d p ⟨key1, sels1, spec⟩ q → ¬ LexLt sp q) := by
  constructor
  · rintro ⟨⟨s, s1, s2, s3⟩, h⟩
    simp only [List.mem_append] at s1 h
    rcases s1 with s1 | s1
    · refine .inl ⟨⟨⟨s, s1, s2, s3⟩, fun t ht => h t (.inl ht)⟩, ?_⟩
      rintro q ⟨⟨t, t1, t2, rfl⟩, -⟩
      exact h t (.inr t1) t2
    · refine .inr ⟨⟨⟨s, s1, s2, s3⟩, fun t ht => h t (.inr ht)⟩, ?_⟩
      rintro q ⟨⟨t, t1, t2, rfl⟩, -⟩
      exact h t (.inl t1) t2
  · rintro (⟨⟨⟨s, s1, s2, s3⟩, h⟩, g⟩ | ⟨⟨⟨s, s1, s2, s3⟩, h⟩, g⟩)
    · refine ⟨⟨s, List.mem_append_left _ s1, s2, s3⟩, fun t ht hm => ?_⟩
      rcases List.mem_append.1 ht with ht | ht
      · exact h t ht hm
      · obtain ⟨q, q1, q2⟩ := exists_applies (r := ⟨key2, sels2, spec⟩) ht hm
        exact fun e => g q q1 (lexLt_of_not e q2)
    · refine ⟨⟨s, List.mem_append_right _ s1, s2, s3⟩, fun t ht hm => ?_⟩
      rcases List.mem_append.1 ht with ht | ht
      · obtain ⟨q, q1, q2⟩ := exists_applies (r := ⟨key1, sels1, spec⟩) ht hm
        exact fun e => g q q1 (lexLt_of_not e q2)
      · exact h t ht hm

/-- Where an entry of a list can be. -/
theorem place {α : Type} {A B C D : List α} {x y : α} (h : A ++ x :: B = C ++ y :: D) :
    (A = C ∧ x = y ∧ B = D) ∨ (∃ E, A = C ++ y :: E ∧ D = E ++ x :: B) ∨ ∃ E, C = A ++ x :: E ∧ B = E ++ y :: D := by
  rw [List.append_eq_append_iff] at h
  rcases h with ⟨E, e1, e2⟩ | ⟨E, e1, e2⟩
  · cases E with
    | nil => simp at e1 e2; exact .inl ⟨e1.symm, e2⟩
    | cons z E =>
      simp only [List.cons_append, List.cons.injEq] at e2
      obtain ⟨rfl, rfl⟩ := e2
      exact .inr (.inr ⟨E, e1, rfl⟩)
  · cases E with
    | nil => simp at e1 e2; exact .inl ⟨e1, e2.1.symm, e2.2.symm⟩
    | cons z E =>
      simp only [List.cons_append, List.cons.injEq] at e2
      obtain ⟨rfl, rfl⟩ := e2
      exact .inr (.inl ⟨E, e1, rfl⟩)

/-- If the group applies, so does one of its parts, and no part is stronger than the group. -/
theorem part_weaker {q : Spec3} {r : Rule} (hr : r = ⟨key1, sels1, spec⟩ ∨ r = ⟨key2, sels2, spec⟩) (h : Applies d p r q) :
    ∃ sp, Applies d p ⟨key, sels1 ++ sels2, spec⟩ sp ∧ ¬ LexLt sp q := by
  obtain ⟨⟨t, t1, t2, rfl⟩, -⟩ := h
  exact exists_applies (r := ⟨key, sels1 ++ sels2, spec⟩) (by rcases hr with rfl | rfl <;> simp_all) t2

theorem group_part {sp : Spec3} (h : Applies d p ⟨key, sels1 ++ sels2, spec⟩ sp) :
    Applies d p ⟨key1, sels1, spec⟩ sp ∨ Applies d p ⟨key2, sels2, spec⟩ sp := by
  rcases (applies_group (key1 := key1) (key2 := key2) sp).1 h with q | q
  · exact .inl q.1
  · exact .inr q.1

theorem group_wins {A B : List Rule} (P F : RSpec → Prop) :
    (∃ r, Wins d p (A ++ ⟨key, sels1 ++ sels2, spec⟩ :: B) (fun r => P r.spec) r ∧ F r.spec) ↔
    ∃ r, Wins d p (A ++ ⟨key1, sels1, spec⟩ :: ⟨key2, sels2, spec⟩ :: B) (fun r => P r.spec) r ∧ F r.spec := by
  constructor
  · rintro ⟨r, ⟨C, D, sp, e, hp, ha, hb, hc⟩, hF⟩
    rcases place e with ⟨rfl, rfl, rfl⟩ | ⟨E, rfl, rfl⟩ | ⟨E, rfl, rfl⟩
    · by_cases h2 : Applies d p ⟨key2, sels2, spec⟩ sp
      · refine ⟨⟨key2, sels2, spec⟩, ⟨A ++ [⟨key1, sels1, spec⟩], B, sp, by simp, hp, h2, ?_, hc⟩, hF⟩
        intro r hr q hq hqa
        rcases List.mem_append.1 hr with hr | hr
        · exact hb r hr q hq hqa
        · simp only [List.mem_singleton] at hr
          subst hr
          rcases (applies_group (key1 := key1) (key2 := key2) sp).1 ha with ⟨x1, x2⟩ | ⟨x1, x2⟩
          · obtain ⟨⟨s, s1, s2, s3⟩, h⟩ := x1
            obtain ⟨⟨t, t1, t2, t3⟩, -⟩ := hqa
            rw [← t3]
            exact h t t1 t2
          · exact x2 q hqa
      · have h1 := (group_part (key1 := key1) (key2 := key2) ha).resolve_right h2
        refine ⟨⟨key1, sels1, spec⟩, ⟨A, ⟨key2, sels2, spec⟩ :: B, sp, rfl, hp, h1, hb, ?_⟩, hF⟩
        intro r hr q hq hqa
        rcases List.mem_cons.1 hr with rfl | hr
        · have := ((applies_group (key1 := key1) (key2 := key2) sp).1 ha).resolve_right (fun x => h2 x.1)
          rcases lexLt_total q sp with x | x | x
          · exact x
          · exact absurd (x ▸ hqa) h2
          · exact absurd x (this.2 q hqa)
        · exact hc r hr q hq hqa
    · refine ⟨r, ⟨C, E ++ ⟨key1, sels1, spec⟩ :: ⟨key2, sels2, spec⟩ :: B, sp, by simp, hp, ha, hb, ?_⟩, hF⟩
      intro x hx q hq hqa
      have part : x = ⟨key1, sels1, spec⟩ ∨ x = ⟨key2, sels2, spec⟩ → LexLt q sp := by
        intro hx
        obtain ⟨w, w1, w2⟩ := part_weaker (key := key) hx hqa
        have := hc ⟨key, sels1 ++ sels2, spec⟩ (by simp) w (by rcases hx with rfl | rfl <;> exact hq) w1
        rcases lexLt_total q w with y | y | y
        · exact lexLt_trans y this
        · exact y ▸ this
        · exact absurd y w2
      simp only [List.mem_append, List.mem_cons] at hx
      rcases hx with hx | hx | hx | hx
      · exact hc x (by simp [hx]) q hq hqa
      · exact part (.inl hx)
      · exact part (.inr hx)
      · exact hc x (by simp [hx]) q hq hqa
    · refine ⟨r, ⟨A ++ ⟨key1, sels1, spec⟩ :: ⟨key2, sels2, spec⟩ :: E, D, sp, by simp, hp, ha, ?_, hc⟩, hF⟩
      intro x hx q hq hqa
      have part : x = ⟨key1, sels1, spec⟩ ∨ x = ⟨key2, sels2, spec⟩ → ¬ LexLt sp q := by
        intro hx h
        obtain ⟨w, w1, w2⟩ := part_weaker (key := key) hx hqa
        exact hb ⟨key, sels1 ++ sels2, spec⟩ (by simp) w (by rcases hx with rfl | rfl <;> exact hq) w1 (lexLt_of_not h w2)
      simp only [List.mem_append, List.mem_cons] at hx
      rcases hx with hx | hx | hx | hx
      · exact hb x (by simp [hx]) q hq hqa
      · exact part (.inl hx)
      · exact part (.inr hx)
      · exact hb x (by simp [hx]) q hq hqa
  · rintro ⟨r, ⟨C, D, sp, e, hp, ha, hb, hc⟩, hF⟩
    rcases place e with ⟨rfl, rfl, rfl⟩ | ⟨E, rfl, rfl⟩ | ⟨E, rfl, f⟩
    · refine ⟨⟨key, sels1 ++ sels2, spec⟩, ⟨A, B, sp, rfl, hp, (applies_group (key1 := key1) (key2 := key2) sp).2 (.inl ⟨ha, fun q hq h => ?_⟩), hb,
        fun x hx => hc x (by simp [hx])⟩, hF⟩
      exact lexLt_irrefl _ (lexLt_trans h (hc ⟨key2, sels2, spec⟩ (by simp) q hp hq))
    · refine ⟨r, ⟨C, E ++ ⟨key, sels1 ++ sels2, spec⟩ :: B, sp, by simp, hp, ha, hb, ?_⟩, hF⟩
      intro x hx q hq hqa
      simp only [List.mem_append, List.mem_cons] at hx
      rcases hx with hx | hx | hx
      · exact hc x (by simp [hx]) q hq hqa
      · subst hx
        rcases group_part (key1 := key1) (key2 := key2) hqa with y | y
        · exact hc ⟨key1, sels1, spec⟩ (by simp) q hq y
        · exact hc ⟨key2, sels2, spec⟩ (by simp) q hq y
      · exact hc x (by simp [hx]) q hq hqa
    · cases E with
      | nil =>
        injection f with e1 e2
        subst e1 e2
        refine ⟨⟨key, sels1 ++ sels2, spec⟩, ⟨A, B, sp, rfl, hp, (applies_group (key1 := key1) (key2 := key2) sp).2 (.inr ⟨ha, fun q hq => ?_⟩),
          fun x hx => hb x (by simp [hx]), hc⟩, hF⟩
        exact hb ⟨key1, sels1, spec⟩ (by simp) q hp hq
      | cons z E =>
        injection f with e1 e2
        subst e1 e2
        refine ⟨r, ⟨A ++ ⟨key, sels1 ++ sels2, spec⟩ :: E, D, sp, by simp, hp, ha, ?_, hc⟩, hF⟩
        intro x hx q hq hqa
        simp only [List.mem_append, List.mem_cons] at hx
        rcases hx with hx | hx | hx
        · exact hb x (by simp [hx]) q hq hqa
        · subst hx
          rcases group_part (key1 := key1) (key2 := key2) hqa with y | y
          · exact hb ⟨key1, sels1, spec⟩ (by simp) q hq y
          · exact hb ⟨key2, sels2, spec⟩ (by simp) q hq y
        · exact hb x (by simp [hx]) q hq hqa

theorem group_cascade {A B : List Rule} :
    SameCascade d (A ++ ⟨key, sels1 ++ sels2, spec⟩ :: B) (A ++ ⟨key1, sels1, spec⟩ :: ⟨key2, sels2, spec⟩ :: B) :=
  ⟨fun _ cls => group_wins (fun s => s.renderer ≠ none) (fun s => s.renderer = some cls),
    fun _ k v => group_wins (fun s => s.settings.bind (fun t => DictOf.get t k) ≠ none) (fun s => s.settings.bind (fun t => DictOf.get t k) = some v)⟩

end

theorem split_table {t us us' : List Rule} (ht : KeysDiffer t) (hu : KeysDiffer us) (hu' : KeysDiffer us') (h : Split t us us') (d : Dom) :
    SameCascade d (updateRules t us) (updateRules t us') ∧
      (∀ k ∈ t.map Rule.key, (updateRules t us').find? (fun x : Rule => x.key == k) = (updateRules t us).find? (fun x : Rule => x.key == k)) := by
  cases h with
  | here key key1 key2 sels1 sels2 spec A B new =>
    have hfind : ∀ k ∈ t.map Rule.key, ruleAt (A ++ ⟨key, sels1 ++ sels2, spec⟩ :: B) k = ruleAt (A ++ ⟨key1, sels1, spec⟩ :: ⟨key2, sels2, spec⟩ :: B) k := by
      intro k hk
      have n0 : key ≠ k := fun e => new key (by simp) (e ▸ hk)
      have n1 : key1 ≠ k := fun e => new key1 (by simp) (e ▸ hk)
      have n2 : key2 ≠ k := fun e => new key2 (by simp) (e ▸ hk)
      simp [ruleAt, List.find?_append, n0, n1, n2]
    have hmap : t.map (fun r => (ruleAt (A ++ ⟨key, sels1 ++ sels2, spec⟩ :: B) r.key).getD r) =
        t.map (fun r => (ruleAt (A ++ ⟨key1, sels1, spec⟩ :: ⟨key2, sels2, spec⟩ :: B) r.key).getD r) :=
      List.map_congr_left (fun r hr => by rw [hfind r.key (List.mem_map_of_mem hr)])
    have hz : ∀ k ∈ t.map Rule.key, ∀ l : List Rule, (l.filter (fun x => decide (x.key ∉ t.map Rule.key))).find? (fun x => x.key == k) = none := by
      intro k hk l
      rw [List.find?_eq_none]
      intro x hx e
      simp only [beq_iff_eq] at e
      have := (List.mem_filter.1 hx).2
      rw [e] at this
      simp only [decide_eq_true_eq] at this
      exact this hk
    rw [updateRules_eq t _ ht hu, updateRules_eq t _ ht hu', hmap]
    refine ⟨?_, fun k hk => by rw [List.find?_append, List.find?_append, hz k hk, hz k hk]⟩
    simp only [List.filter_append]
    rw [List.filter_cons_of_pos (by simpa using new key (by simp)), List.filter_cons_of_pos (by simpa using new key1 (by simp)),
      List.filter_cons_of_pos (by simpa using new key2 (by simp)), ← List.append_assoc, ← List.append_assoc]
    exact group_cascade

/-- Selectors that can be compared with anything. -/
def SafeSel : Sel → Bool
  | .element _ => true
  | .cls s _ => SafeSel s
  | .hash s _ => SafeSel s
  | .neg s t => SafeSel s && SafeSel t
  | .attrib _ _ _ _ => false
  | .pseudo s _ => SafeSel s
  | .func _ _ _ => false
  | .comb s .child t => SafeSel s && SafeSel t
  | .comb _ _ _ => false

theorem safeSel_ok {d : Dom} {s : Sel} (h : SafeSel s = true) : ∀ p, ∃ b, selMatch d s p = .ok b := by
  induction s with
  | element n => intro p; exact ⟨_, rfl⟩
  | cls s n ih =>
    intro p
    obtain ⟨b, hb⟩ := ih h p
    simp only [selMatch, hb]
    repeat' split
    all_goals exact ⟨_, rfl⟩
  | hash s n ih =>
    intro p
    obtain ⟨b, hb⟩ := ih h p
    simp only [selMatch, hb]
    repeat' split
    all_goals exact ⟨_, rfl⟩
  | neg s t ih1 ih2 =>
    intro p
    simp only [SafeSel, Bool.and_eq_true] at h
    obtain ⟨b, hb⟩ := ih1 h.1 p
    obtain ⟨b', hb'⟩ := ih2 h.2 p
    simp only [selMatch, hb, hb', bind, Except.bind, pure, Except.pure]
    repeat' split
    all_goals exact ⟨_, rfl⟩
  | attrib s n o v ih => simp [SafeSel] at h
  | pseudo s n ih =>
    intro p
    obtain ⟨b, hb⟩ := ih h p
    simp only [selMatch, hb]
    repeat' split
    all_goals exact ⟨_, rfl⟩
  | func s n a ih => simp [SafeSel] at h
  | comb s k t ih1 ih2 =>
    intro p
    cases k <;> simp [SafeSel] at h
    obtain ⟨b, hb⟩ := ih2 h.2 p
    simp only [selMatch, hb, bind, Except.bind, pure, Except.pure]
    repeat' split
    all_goals first | exact ⟨_, rfl⟩ | exact ih1 h.1 _

theorem defaults_comparable {d : Dom} {r : Rule} (h : r ∈ defaultRules ∨ r ∈ defaultLinkRules) : Comparable d r := by
  have : ∀ r ∈ defaultRules ++ defaultLinkRules, ∀ s ∈ r.sels, SafeSel s.tree = true := by decide
  exact fun i s hs => safeSel_ok (this r (List.mem_append.2 h) s hs) _

theorem defaults_dicts : RuleDicts (defaultRules ++ defaultLinkRules) := by
  have : ∀ r ∈ defaultRules ++ defaultLinkRules, ((r.spec.settings.getD []).map Prod.fst).Nodup := by decide
  intro r hr t ht
  have := this r hr
  rwa [ht] at this

theorem update_prop {Q : Rule → Prop} {t us : List Rule} (h1 : ∀ r ∈ t, Q r) (h2 : ∀ r ∈ us, Q r) : ∀ r ∈ updateRules t us, Q r := by
  have hset : ∀ (t : List Rule) (x : Rule), (∀ r ∈ t, Q r) → Q x → ∀ r ∈ setRule t x, Q r := by
    intro t x
    induction t with
    | nil => intro _ hx r hr; simp only [setRule, List.mem_singleton] at hr; exact hr ▸ hx
    | cons y t ih =>
      intro ht hx r hr
      unfold setRule at hr
      split at hr
      · rcases List.mem_cons.1 hr with rfl | hr
        · exact hx
        · exact ht r (by simp [hr])
      · rcases List.mem_cons.1 hr with rfl | hr
        · exact ht r (by simp)
        · exact ih (fun z hz => ht z (by simp [hz])) hx r hr
  unfold updateRules
  induction us generalizing t with
  | nil => exact h1
  | cons x us ih => exact ih (hset t x h1 (h2 x (by simp))) (fun r hr => h2 r (by simp [hr]))

theorem split_prop {Q : List Selector → RSpec → Prop} {t us us' : List Rule} (h : Split t us us') (hQ : ∀ a b s, Q (a ++ b) s → Q a s ∧ Q b s)
    (hus : ∀ r ∈ us, Q r.sels r.spec) : ∀ r ∈ us', Q r.sels r.spec := by
  cases h with
  | here key key1 key2 sels1 sels2 spec A B new =>
    intro r hr
    have hg := hQ _ _ _ (hus ⟨key, sels1 ++ sels2, spec⟩ (by simp))
    simp only [List.mem_append, List.mem_cons] at hr
    rcases hr with hr | rfl | rfl | hr
    · exact hus r (by simp [hr])
    · exact hg.1
    · exact hg.2
    · exact hus r (by simp [hr])

theorem split_found {d : Dom} {t us us' : List Rule} (ht : KeysDiffer t) (ht1 : ∀ r ∈ t, Comparable d r) (ht2 : RuleDicts t) (hu : KeysDiffer us)
    (hu' : KeysDiffer us') (h : Split t us us') (hd : RuleDicts us) (hc : ∀ r ∈ us, Comparable d r) (i : Nat) :
    ∃ x y, getForTag d (updateRules t us') (.node i) = .ok x ∧ getForTag d (updateRules t us) (.node i) = .ok y ∧ SameFound x y := by
  have hc' : ∀ r ∈ us', Comparable d r := split_prop (Q := fun l _ => ∀ i, ∀ s ∈ l, ∃ b, selMatch d s.tree (.node i) = .ok b) h
    (fun a b s hab => ⟨fun i s hs => hab i s (by simp [hs]), fun i s hs => hab i s (by simp [hs])⟩) hc
  have hd' : RuleDicts us' := split_prop (Q := fun _ s => ∀ t, s.settings = some t → (t.map Prod.fst).Nodup) h (fun a b s hab => ⟨hab, hab⟩) hd
  have hs := (split_table ht hu hu' h d).1
  exact cascade_found (update_prop ht1 hc') (update_prop ht1 hc) (update_prop ht2 hd') (update_prop ht2 hd)
    ⟨fun i cls => (hs.renderer i cls).symm, fun i k v => (hs.setting i k v).symm⟩ i

/-- A rule for a group of selectors is the same as rules for each of them. -/
theorem C100_group (u : Uni) (c : Cfg) (es : List Event) (r : List Rule) (hr : KeysDiffer c.renderers) (hr' : KeysDiffer r)
    (h : Split defaultRules c.renderers r) (hd : RuleDicts c.renderers) (hc : ∀ d, TreeOf u c es d → ∀ q ∈ c.renderers, Comparable d q) :
    renderEvents u { c with renderers := r } es = renderEvents u c es := by
  refine render_lookups (r := r) (l := c.linkRenderers) (fun d ht i => ?_) (fun d ht i => sameLookup_refl _)
  obtain ⟨x, y, e1, e2, q⟩ := split_found (d := d) defaultRules_nodup (fun q hq => defaults_comparable (.inl hq))
    (fun q hq => defaults_dicts q (List.mem_append_left _ hq)) hr hr' h hd (hc d ht) i
  unfold getRenderer
  show SameLookup (do match ← getForTag d (updateRules defaultRules r) (.node i) with
    | some (r, s) => return RSpec.pair (some r) (some s)
    | none => return c.defaultRenderer) (do match ← getForTag d (updateRules defaultRules c.renderers) (.node i) with
    | some (r, s) => return RSpec.pair (some r) (some s)
    | none => return c.defaultRenderer)
  rw [e1, e2]
  rcases q with ⟨rfl, rfl⟩ | ⟨cls, s, t, rfl, rfl, n1, n2, q⟩
  · exact sameLookup_refl _
  · exact .inr ⟨_, _, rfl, rfl, .inr ⟨_, s, t, rfl, rfl, n1, n2, q⟩⟩

/-- So is one for the list of links. -/
theorem C100_group_links (u : Uni) (c : Cfg) (es : List Event) (l : List Rule) (hl : KeysDiffer c.linkRenderers) (hl' : KeysDiffer l)
    (h : Split defaultLinkRules c.linkRenderers l) (hd : RuleDicts c.linkRenderers)
    (hc : ∀ d, TreeOf u c es d → ∀ q ∈ c.linkRenderers, Comparable d q) :
    renderEvents u { c with linkRenderers := l } es = renderEvents u c es := by
  refine render_lookups (r := c.renderers) (l := l) (fun d ht i => sameLookup_refl _) (fun d ht i => ?_)
  obtain ⟨x, y, e1, e2, q⟩ := split_found (d := d) linkRules_nodup (fun q hq => defaults_comparable (.inr hq))
    (fun q hq => defaults_dicts q (List.mem_append_right _ hq)) hl hl' h hd (hc d ht) i
  have ha := (split_table linkRules_nodup hl hl' h d).2 py"a" (by decide)
  unfold getLinkRenderer
  show SameLookup (do match ← getForTag d (updateRules defaultLinkRules l) (.node i) with
    | some (r, s) => return RSpec.pair (some r) (some s)
    | none => match (updateRules defaultLinkRules l).find? (fun r : Rule => r.key == py"a") with
      | some r => return r.spec
      | none => .error .keyError) (do match ← getForTag d (updateRules defaultLinkRules c.linkRenderers) (.node i) with
    | some (r, s) => return RSpec.pair (some r) (some s)
    | none => match (updateRules defaultLinkRules c.linkRenderers).find? (fun r : Rule => r.key == py"a") with
      | some r => return r.spec
      | none => .error .keyError)
  rw [e1, e2, ha]
  rcases q with ⟨rfl, rfl⟩ | ⟨cls, s, t, rfl, rfl, n1, n2, q⟩
  · exact sameLookup_refl _
  · exact .inr ⟨_, _, rfl, rfl, .inr ⟨_, s, t, rfl, rfl, n1, n2, q⟩⟩

namespace GroupExample

/-- Some borders for some elements. -/
def bar (key : Str) (sels : List Sel) : Rule :=
  ⟨key, sels.map (fun s => { tree := s }), .pair none (some [(py"border", .strs [py"", py"", py"", py"| "])])⟩

def px : Sel := .cls (elt py"p") py"x"
def lix : Sel := .cls (elt py"li") py"x"

def doc : List Event := [.start py"p" [(py"class", some py"x")], .data py"hi", .stop py"p"]

theorem comparable {d : Dom} {q : Rule} (h : q ∈ [bar py"p.x, li.x" [px, lix]]) : Comparable d q := by
  simp only [List.mem_singleton] at h
  subst h
  intro i s hs
  simp only [bar, List.map_cons, List.map_nil, List.mem_cons, List.not_mem_nil, or_false] at hs
  rcases hs with rfl | rfl
  · exact safeSel_ok (by decide) _
  · exact safeSel_ok (by decide) _

example : renderEvents asciiUni { renderers := [bar py"p.x" [px], bar py"li.x" [lix]] } doc =
      renderEvents asciiUni { renderers := [bar py"p.x, li.x" [px, lix]] } doc ∧
    renderEvents asciiUni { renderers := [bar py"p.x, li.x" [px, lix]] } doc = .ok py"\n| hi\n" := by
  refine ⟨C100_group asciiUni { renderers := [bar py"p.x, li.x" [px, lix]] } doc _ (by unfold KeysDiffer; decide) (by unfold KeysDiffer; decide)
    (.here py"p.x, li.x" py"p.x" py"li.x" [{ tree := px }] [{ tree := lix }] _ [] [] (by decide)) ?_ (fun d _ q hq => comparable hq), by decide +kernel⟩
  intro q hq t ht
  simp only [List.mem_singleton] at hq
  subst hq
  simp only [bar, RSpec.settings, Option.some.injEq] at ht
  subst ht
  decide

end GroupExample

open GroupExample in
/-- Rules of their own for `p` and `li` would replace the default rules for them, a rule for the group does not. -/
theorem C100_group_fails : renderEvents asciiUni { renderers := [bar py"p, li" [elt py"p", elt py"li"]] } GroupExample.doc = .ok py"\n| hi\n" ∧
    renderEvents asciiUni { renderers := [bar py"p" [elt py"p"], bar py"li" [elt py"li"]] } GroupExample.doc = .ok py"hi" := by decide +kernel

end Verif
