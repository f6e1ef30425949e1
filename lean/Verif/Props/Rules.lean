import Verif.Spec.Rules
import Verif.Props.Cascade
import Verif.Props.Source

/-!
# C99: which rules count
-/

namespace Verif

open Spec

/-! ## The page depends on the renderers chosen -/

theorem foldlM_same {α β : Type} {f g : β → α → Py β} (l : List α) (h : ∀ x ∈ l, ∀ b, f b x = g b x) (b : β) : l.foldlM f b = l.foldlM g b := by
  induction l generalizing b with
  | nil => rfl
  | cons x l ih =>
    simp only [List.foldlM_cons, h x (by simp)]
    congr 1
    funext b
    exact ih (fun y hy => h y (by simp [hy])) b

theorem assign_same {c c' : Cfg} {d : Dom} (h1 : ∀ i, getRenderer c d i = getRenderer c' d i) (h2 : ∀ i, getLinkRenderer c d i = getLinkRenderer c' d i)
    (f : Nat) : ∀ is t, assignRenderers c d f is t = assignRenderers c' d f is t := by
  have hone : ∀ t i, assignOne c d t i = assignOne c' d t i := by
    intro t i
    simp only [assignOne, h1, h2]
  induction f with
  | zero => intro is t; cases is <;> rfl
  | succ f ih =>
    intro is t
    cases is with
    | nil => rfl
    | cons i is =>
      rw [assignRenderers, assignRenderers]
      · refine foldlM_same _ (fun x _ b => ?_) _
        rw [hone]
        congr 1
        funext t
        exact ih _ _
      all_goals simp

/-- The options with other rules. -/
def withRules (c : Cfg) (r l : List Rule) : Cfg := { c with renderers := r, linkRenderers := l }

theorem feed_rules (u : Uni) (c : Cfg) (r l : List Rule) (s : PState) (es : List Event) : feed u (withRules c r l) s es = feed u c s es := rfl

theorem render_rules {u : Uni} {c : Cfg} {r l : List Rule} {es : List Event}
    (h1 : ∀ d, TreeOf u c es d → ∀ i, getRenderer (withRules c r l) d i = getRenderer c d i)
    (h2 : ∀ d, TreeOf u c es d → ∀ i, getLinkRenderer (withRules c r l) d i = getLinkRenderer c d i) :
    renderEvents u (withRules c r l) es = renderEvents u c es := by
  have h0 : initParser (withRules c r l) = initParser c := rfl
  simp only [renderEvents, bind, Except.bind, h0, feed_rules]
  cases hi : initParser c with
  | error e => rfl
  | ok s0 =>
    simp only
    cases hf : feed u c s0 es with
    | error e => rfl
    | ok s1 =>
      have ht : TreeOf u c es (popStack s1.dom s1.stack.reverse) := ⟨s0, s1, hi, hf, rfl⟩
      have : close u (withRules c r l) s1 = close u c s1 := by
        simp only [close, assign_same (h1 _ ht) (h2 _ ht)]
        rfl
      simp only [this]

/-! ## Tables -/

/-- Rules in a table have different texts. -/
def KeysDiffer (l : List Rule) : Prop := (l.map Rule.key).Nodup

theorem keysDiffer_nodup {l : List Rule} (h : KeysDiffer l) : l.Nodup := by
  unfold KeysDiffer at h
  rw [List.Nodup, List.pairwise_map] at h
  exact h.imp (fun q e => q (by rw [e]))

theorem keysDiffer_unique {l : List Rule} (h : KeysDiffer l) {a b : Rule} (ha : a ∈ l) (hb : b ∈ l) (e : a.key = b.key) : a = b := by
  induction l with
  | nil => cases ha
  | cons x l ih =>
    unfold KeysDiffer at h ih
    simp only [List.map_cons, List.nodup_cons] at h
    rcases List.mem_cons.1 ha with rfl | ha' <;> rcases List.mem_cons.1 hb with rfl | hb'
    · rfl
    · exact absurd (by rw [e]; exact List.mem_map_of_mem hb') h.1
    · exact absurd (by rw [← e]; exact List.mem_map_of_mem ha') h.1
    · exact ih h.2 ha' hb'

/-- Looking up a text gives the same, if the rules with this text are the same. -/
theorem ruleAt_same {l l' : List Rule} (h' : KeysDiffer l') (k : Str) (h1 : ∀ r ∈ l, r ∈ l') (h2 : ∀ r ∈ l', r.key = k → r ∈ l) :
    ruleAt l' k = ruleAt l k := by
  unfold ruleAt
  cases e : l'.find? (fun x => x.key == k) with
  | none =>
    rw [List.find?_eq_none] at e
    symm
    rw [List.find?_eq_none]
    exact fun x hx => e x (h1 x hx)
  | some x =>
    have hx := List.find?_some e
    have hm := List.mem_of_find?_eq_some e
    simp only [beq_iff_eq] at hx
    have hl := h2 x hm hx
    cases e' : l.find? (fun x => x.key == k) with
    | none =>
      rw [List.find?_eq_none] at e'
      exact absurd hx (by simpa using e' x hl)
    | some y =>
      have hy := List.find?_some e'
      simp only [beq_iff_eq] at hy
      rw [keysDiffer_unique h' hm (h1 y (List.mem_of_find?_eq_some e')) (by rw [hx, hy])]

/-- What a default rule is replaced with has its text. -/
theorem replaced_key (us : List Rule) (r : Rule) : ((ruleAt us r.key).getD r).key = r.key := by
  unfold ruleAt
  cases e : us.find? (fun x => x.key == r.key) with
  | none => rfl
  | some x => simpa using List.find?_some e

/-! ## Idle rules -/

theorem idle_matches {d : Dom} {r : Rule} (h : Idle d r) (i : Nat) : tagMatches d (.node i) r.sels = .ok (false, none) := by
  have h := h i
  unfold tagMatches
  generalize r.sels = l at h
  induction l with
  | nil => rfl
  | cons s l ih =>
    simp only [tagMatchesLoop, h s (by simp), bind, Except.bind, Bool.false_eq_true, if_false]
    exact ih (fun x hx => h x (by simp [hx]))

theorem collect_active {d : Dom} {i : Nat} {p : Rule → Bool} {l : List Rule} (h : ∀ r ∈ l, p r = false → Idle d r) :
    collectMatches d (.node i) l = collectMatches d (.node i) (l.filter p) := by
  induction l with
  | nil => rfl
  | cons r l ih =>
    have ih := ih (fun x hx => h x (by simp [hx]))
    cases hp : p r with
    | true => rw [List.filter_cons_of_pos hp, collectMatches, collectMatches, ih]
    | false =>
      rw [List.filter_cons_of_neg (by simp [hp]), collectMatches, idle_matches (h r (by simp) hp)]
      simp only [bind, Except.bind]
      exact ih

theorem ruleAt_mem {l : List Rule} {k : Str} {r : Rule} (h : ruleAt l k = some r) : r ∈ l ∧ r.key = k :=
  ⟨List.mem_of_find?_eq_some h, by simpa using List.find?_some h⟩

theorem mem_ruleAt {l : List Rule} (h : KeysDiffer l) {r : Rule} (hr : r ∈ l) : ruleAt l r.key = some r := by
  cases e : ruleAt l r.key with
  | none => rw [ruleAt, List.find?_eq_none] at e; exact absurd (e r hr) (by simp)
  | some x =>
    obtain ⟨h1, h2⟩ := ruleAt_mem e
    rw [keysDiffer_unique h h1 hr h2]

/-- The rule is not one of `us`. -/
def isNew (us us' : List Rule) (k : Str) : Bool := (ruleAt us' k).isSome && (ruleAt us k).isNone

theorem new_none {us us' : List Rule} {k : Str} (h : isNew us us' k = true) : ruleAt us k = none := by
  unfold isNew at h
  simp only [Bool.and_eq_true, Option.isNone_iff_eq_none] at h
  exact h.2

theorem new_idle {d : Dom} {t us us' : List Rule} (hu : KeysDiffer us) (h : WithIdle d t us us') {r : Rule} (hr : r ∈ us')
    (hn : isNew us us' r.key = true) : Idle d r ∧ ∀ q ∈ t, q.key = r.key → Idle d q := by
  rcases h.idle r hr with q | q
  · have := mem_ruleAt hu q
    rw [new_none hn] at this
    cases this
  · exact q

theorem filter_sub {us us' : List Rule} (hs : us.Sublist us') (hu : KeysDiffer us') : us'.filter (fun r => !isNew us us' r.key) = us := by
  have hmem : ∀ r ∈ us', (!isNew us us' r.key) = true ↔ r ∈ us := by
    intro r hr
    simp only [isNew, mem_ruleAt hu hr, Option.isSome_some, Bool.true_and, Bool.not_eq_true', Option.isNone_eq_false_iff, Option.isSome_iff_exists]
    constructor
    · rintro ⟨x, hx⟩
      obtain ⟨h1, h2⟩ := ruleAt_mem hx
      rw [← keysDiffer_unique hu (hs.subset h1) hr h2]
      exact h1
    · intro h
      exact ⟨r, mem_ruleAt ((hs.map Rule.key).nodup hu) h⟩
  have : ∀ (p : Rule → Bool) (l l' : List Rule), l.Sublist l' → l'.Nodup → (∀ r ∈ l', p r = true ↔ r ∈ l) → l'.filter p = l := by
    intro p l l' hs
    induction hs with
    | slnil => intro _ _; rfl
    | cons a hs ih =>
      intro hn h
      rw [List.nodup_cons] at hn
      rw [List.filter_cons_of_neg (by rw [h a (by simp)]; exact fun q => hn.1 (hs.subset q))]
      exact ih hn.2 (fun r hr => h r (by simp [hr]))
    | cons_cons a hs ih =>
      intro hn h
      rw [List.nodup_cons] at hn
      rw [List.filter_cons_of_pos ((h a (by simp)).2 (by simp))]
      congr 1
      refine ih hn.2 (fun r hr => ?_)
      rw [h r (by simp [hr]), List.mem_cons]
      refine ⟨fun q => q.resolve_left ?_, .inr⟩
      rintro rfl
      exact hn.1 hr
  exact this _ _ _ hs (keysDiffer_nodup hu) hmem

theorem idle_filter {d : Dom} {t us us' : List Rule} (ht : KeysDiffer t) (hu : KeysDiffer us') (h : WithIdle d t us us') :
    (updateRules t us').filter (fun r => !isNew us us' r.key) = (updateRules t us).filter (fun r => !isNew us us' r.key) ∧
    (∀ r ∈ updateRules t us', (!isNew us us' r.key) = false → Idle d r) ∧ ∀ r ∈ updateRules t us, (!isNew us us' r.key) = false → Idle d r := by
  have hu0 : KeysDiffer us := (h.same.map Rule.key).nodup hu
  rw [updateRules_eq t us' ht hu, updateRules_eq t us ht hu0]
  refine ⟨?_, fun r hr hn => ?_, fun r hr hn => ?_⟩
  · rw [List.filter_append, List.filter_append]
    congr 1
    · rw [List.filter_map, List.filter_map]
      have e : ∀ l : List Rule, (fun r => !isNew us us' r.key) ∘ (fun r => (ruleAt l r.key).getD r) = (fun r => !isNew us us' r.key) := by
        intro l
        funext r
        simp only [Function.comp, replaced_key]
      rw [e, e]
      refine List.map_congr_left (fun r hr => ?_)
      have hn := (List.mem_filter.1 hr).2
      congr 1
      simp only [isNew, Bool.not_eq_true', Bool.and_eq_false_iff] at hn
      rcases hn with hn | hn
      · have e1 : ruleAt us' r.key = none := by simpa using hn
        rw [e1]
        cases e2 : ruleAt us r.key with
        | none => rfl
        | some x =>
          obtain ⟨h1, h2⟩ := ruleAt_mem e2
          rw [← h2, mem_ruleAt hu (h.same.subset h1)] at e1
          cases e1
      · obtain ⟨x, hx⟩ : ∃ x, ruleAt us r.key = some x := by
          cases e : ruleAt us r.key with
          | none => rw [e] at hn; cases hn
          | some x => exact ⟨x, rfl⟩
        obtain ⟨h1, h2⟩ := ruleAt_mem hx
        rw [hx, ← h2]
        exact mem_ruleAt hu (h.same.subset h1)
    · rw [List.filter_filter, List.filter_filter]
      refine Eq.trans ?_ (congrArg (List.filter _) (filter_sub h.same hu))
      rw [List.filter_filter]
      refine List.filter_congr (fun r _ => ?_)
      cases isNew us us' r.key <;> simp
  · simp only [Bool.not_eq_false'] at hn
    rcases List.mem_append.1 hr with hr | hr
    · obtain ⟨q, hq, rfl⟩ := List.mem_map.1 hr
      cases e : ruleAt us' q.key with
      | none =>
        exfalso
        rw [replaced_key] at hn
        simp [isNew, e] at hn
      | some x =>
        simp only [Option.getD_some]
        rw [e, Option.getD_some] at hn
        exact (new_idle hu0 h (ruleAt_mem e).1 hn).1
    · exact (new_idle hu0 h (List.mem_filter.1 hr).1 hn).1
  · simp only [Bool.not_eq_false'] at hn
    rcases List.mem_append.1 hr with hr | hr
    · obtain ⟨q, hq, rfl⟩ := List.mem_map.1 hr
      rw [replaced_key] at hn
      rw [new_none hn, Option.getD_none]
      obtain ⟨x, hx⟩ : ∃ x, ruleAt us' q.key = some x := by
        cases e : ruleAt us' q.key with
        | none => simp [isNew, e] at hn
        | some x => exact ⟨x, rfl⟩
      obtain ⟨h1, h2⟩ := ruleAt_mem hx
      exact (new_idle hu0 h h1 (by rw [h2]; exact hn)).2 q hq h2.symm
    · have := mem_ruleAt hu0 (List.mem_filter.1 hr).1
      rw [new_none hn] at this
      cases this

theorem idle_get {d : Dom} {t us us' : List Rule} (ht : KeysDiffer t) (hu : KeysDiffer us') (h : WithIdle d t us us') (i : Nat) :
    getForTag d (updateRules t us') (.node i) = getForTag d (updateRules t us) (.node i) := by
  obtain ⟨h1, h2, h3⟩ := idle_filter ht hu h
  unfold getForTag
  rw [collect_active h2, collect_active h3, h1]

theorem idle_find {d : Dom} {t us us' : List Rule} (ht : KeysDiffer t) (hu : KeysDiffer us') (h : WithIdle d t us us') {k : Str}
    (hk : isNew us us' k = false) : (updateRules t us').find? (fun x => x.key == k) = (updateRules t us).find? (fun x => x.key == k) := by
  have e : ∀ l : List Rule, l.find? (fun x => x.key == k) = (l.filter (fun r => !isNew us us' r.key)).find? (fun x => x.key == k) := by
    intro l
    rw [List.find?_filter]
    congr 1
    funext r
    by_cases e : r.key = k
    · subst e; simp [hk]
    · simp [e]
  rw [e, (idle_filter ht hu h).1, ← e]

theorem linkRules_nodup : KeysDiffer defaultLinkRules := by unfold KeysDiffer; decide

/-- Rules that match nothing in a document make no difference to it. (The rule `a` for the list of links is used for links that no rule
matches.) -/
theorem C99 (u : Uni) (c : Cfg) (es : List Event) (r l : List Rule) (hr : KeysDiffer r) (hl : KeysDiffer l)
    (ha : ∀ q ∈ l, q.key = py"a" → q ∈ c.linkRenderers)
    (h : ∀ d, TreeOf u c es d → WithIdle d defaultRules c.renderers r ∧ WithIdle d defaultLinkRules c.linkRenderers l) :
    renderEvents u (withRules c r l) es = renderEvents u c es := by
  refine render_rules (fun d hd i => ?_) (fun d hd i => ?_)
  · unfold getRenderer
    show (do match ← getForTag d (updateRules defaultRules r) (.node i) with
      | some (r, s) => return RSpec.pair (some r) (some s)
      | none => return c.defaultRenderer) = _
    rw [idle_get defaultRules_nodup hr (h d hd).1]
    rfl
  · unfold getLinkRenderer
    show (do match ← getForTag d (updateRules defaultLinkRules l) (.node i) with
      | some (r, s) => return RSpec.pair (some r) (some s)
      | none => match (updateRules defaultLinkRules l).find? (fun r : Rule => r.key == py"a") with
        | some r => return r.spec
        | none => .error .keyError) = _
    have hnew : isNew c.linkRenderers l py"a" = false := by
      cases e : isNew c.linkRenderers l py"a" with
      | false => rfl
      | true =>
        cases e' : ruleAt l py"a" with
        | none => simp [isNew, e'] at e
        | some x =>
          obtain ⟨x1, x2⟩ := ruleAt_mem e'
          have := mem_ruleAt (((h d hd).2.same.map Rule.key).nodup hl) (ha x x1 x2)
          rw [x2, new_none e] at this
          cases this
    rw [idle_get linkRules_nodup hl (h d hd).2, idle_find linkRules_nodup hl (h d hd).2 hnew]
    rfl

/-! ## The order of rules -/

/-- Lists with the same members in the same order. -/
theorem order_eq {α : Type} {l l' : List α} (hn : l.Nodup) (hn' : l'.Nodup) (h1 : ∀ r, r ∈ l ↔ r ∈ l')
    (h2 : ∀ a b, [a, b].Sublist l → [a, b].Sublist l') : l = l' := by
  induction l generalizing l' with
  | nil =>
    cases l' with
    | nil => rfl
    | cons b l' => exact absurd ((h1 b).2 (by simp)) (by simp)
  | cons a l ih =>
    rw [List.nodup_cons] at hn
    cases l' with
    | nil => exact absurd ((h1 a).1 (by simp)) (by simp)
    | cons b l' =>
      rw [List.nodup_cons] at hn'
      have e : a = b := by
        refine Classical.byContradiction fun hne => ?_
        have hb : b ∈ l := by
          rcases List.mem_cons.1 ((h1 b).2 (by simp)) with q | q
          · exact absurd q.symm hne
          · exact q
        have := h2 a b (List.Sublist.cons_cons a (List.singleton_sublist.2 hb))
        cases this with
        | cons _ q => exact hn'.1 (q.subset (by simp))
        | cons_cons _ q => exact hne rfl
      subst e
      congr 1
      refine ih hn.2 hn'.2 (fun r => ?_) (fun x y hs => ?_)
      · have := h1 r
        simp only [List.mem_cons] at this
        constructor
        · intro hr
          rcases this.1 (.inr hr) with q | q
          · exact absurd (q ▸ hr) hn.1
          · exact q
        · intro hr
          rcases this.2 (.inr hr) with q | q
          · exact absurd (q ▸ hr) hn'.1
          · exact q
      · have := h2 x y (hs.cons a)
        cases this with
        | cons _ q => exact q
        | cons_cons _ q => exact absurd (hs.subset (by simp)) hn.1

/-- Sorted lists with the same members of each specificity are the same. -/
theorem sorted_eq {l l' : List (Spec3 × Rule)} (h : SortedM l) (h' : SortedM l')
    (he : ∀ sp, l.filter (fun m => decide (m.1 = sp)) = l'.filter (fun m => decide (m.1 = sp))) : l = l' := by
  have mem : ∀ {x : Spec3 × Rule} {k k' : List (Spec3 × Rule)}, (∀ sp, k.filter (fun m => decide (m.1 = sp)) = k'.filter (fun m => decide (m.1 = sp))) →
      x ∈ k → x ∈ k' := by
    intro x k k' e hx
    have : x ∈ k.filter (fun m => decide (m.1 = x.1)) := List.mem_filter.2 ⟨hx, by simp⟩
    rw [e] at this
    exact (List.mem_filter.1 this).1
  induction l generalizing l' with
  | nil =>
    cases l' with
    | nil => rfl
    | cons b l' => exact absurd (mem (fun sp => (he sp).symm) (show b ∈ b :: l' by simp)) (by simp)
  | cons a l ih =>
    cases l' with
    | nil => exact absurd (mem he (show a ∈ a :: l by simp)) (by simp)
    | cons b l' =>
      unfold SortedM at h h'
      rw [List.pairwise_cons] at h h'
      have hab : ¬ LexLt b.1 a.1 := by
        rcases List.mem_cons.1 (mem (fun sp => (he sp).symm) (show b ∈ b :: l' by simp)) with q | q
        · rw [q]; exact lexLt_irrefl _
        · exact h.1 b q
      have hba : ¬ LexLt a.1 b.1 := by
        rcases List.mem_cons.1 (mem he (show a ∈ a :: l by simp)) with q | q
        · rw [q]; exact lexLt_irrefl _
        · exact h'.1 a q
      have e1 : a.1 = b.1 := by
        rcases lexLt_total a.1 b.1 with q | q | q
        · exact absurd q hba
        · exact q
        · exact absurd q hab
      have e2 : a = b := by
        have := he a.1
        rw [List.filter_cons_of_pos (by simp), List.filter_cons_of_pos (by simp [e1])] at this
        exact (List.cons.inj this).1
      subst e2
      congr 1
      refine ih h.2 h'.2 (fun sp => ?_)
      have := he sp
      by_cases q : a.1 = sp
      · rw [List.filter_cons_of_pos (by simp [q]), List.filter_cons_of_pos (by simp [q])] at this
        exact (List.cons.inj this).2
      · rw [List.filter_cons_of_neg (by simp [q]), List.filter_cons_of_neg (by simp [q])] at this
        exact this

theorem sort_eq {l l' : List (Spec3 × Rule)} (he : ∀ sp, l.filter (fun m => decide (m.1 = sp)) = l'.filter (fun m => decide (m.1 = sp))) :
    sortMatches l = sortMatches l' :=
  sorted_eq (sortMatches_sorted l) (sortMatches_sorted l') (fun sp => by rw [filter_sortMatches, filter_sortMatches, he])

/-- The entry of a rule among the matches. -/
def matchOf (d : Dom) (i : Nat) (r : Rule) : Option (Spec3 × Rule) :=
  match tagMatches d (.node i) r.sels with
  | .ok (true, some sp) => some (sp, r)
  | _ => none

theorem comparable_ok {d : Dom} {r : Rule} (h : Comparable d r) (i : Nat) : ∃ v, tagMatches d (.node i) r.sels = .ok v := by
  have h := h i
  unfold tagMatches
  have : ∀ (l : List Selector) (m : Bool) (b : Option Spec3), (∀ s ∈ l, ∃ v, selMatch d s.tree (.node i) = .ok v) →
      ∃ v, tagMatchesLoop d (.node i) l m b = .ok v := by
    intro l
    induction l with
    | nil => intro m b _; exact ⟨_, rfl⟩
    | cons s l ih =>
      intro m b hl
      obtain ⟨v, hv⟩ := hl s (by simp)
      have ih := fun m b => ih m b (fun x hx => hl x (by simp [hx]))
      simp only [tagMatchesLoop, hv, bind, Except.bind]
      cases v with
      | false => exact ih _ _
      | true =>
        simp only [if_true]
        obtain ⟨w, hw⟩ : ∃ w, moreSpecific (some s.spec) b = .ok w := by
          cases b <;> exact ⟨_, rfl⟩
        rw [hw]
        cases w <;> exact ih _ _
  exact this _ _ _ h

theorem collect_map {d : Dom} {i : Nat} {l : List Rule} (h : ∀ r ∈ l, Comparable d r) :
    collectMatches d (.node i) l = .ok (l.filterMap (matchOf d i)) := by
  induction l with
  | nil => rfl
  | cons r l ih =>
    obtain ⟨v, hv⟩ := comparable_ok (h r (by simp)) i
    rw [collectMatches, hv, ih (fun x hx => h x (by simp [hx])), List.filterMap_cons, matchOf, hv]
    obtain ⟨m, b⟩ := v
    cases m <;> cases b <;> rfl

theorem matchOf_spec {d : Dom} {i : Nat} {r : Rule} (h : Comparable d r) (x : Spec3 × Rule) :
    matchOf d i r = some x ↔ x.2 = r ∧ Applies d (.node i) r x.1 := by
  obtain ⟨v, hv⟩ := comparable_ok h i
  rw [← tagMatches_iff d (.node i) r v hv]
  unfold matchOf AppliesM
  rw [hv]
  obtain ⟨m, b⟩ := v
  obtain ⟨sp, q⟩ := x
  cases m <;> cases b <;> simp [and_comm, eq_comm]

/-- The matches of one specificity. -/
theorem filter_matches {d : Dom} {i : Nat} {l : List Rule} (sp : Spec3) :
    (l.filterMap (matchOf d i)).filter (fun m => decide (m.1 = sp)) =
      (l.filter (fun r => decide ((matchOf d i r).map Prod.fst = some sp))).map (fun r => (sp, r)) := by
  induction l with
  | nil => rfl
  | cons r l ih =>
    rw [List.filterMap_cons]
    cases hm : matchOf d i r with
    | none => rw [List.filter_cons_of_neg (by simp [hm])]; exact ih
    | some x =>
      have hx : x.2 = r := by
        unfold matchOf at hm
        split at hm
        · cases hm; rfl
        · cases hm
      by_cases e : x.1 = sp
      · rw [List.filter_cons_of_pos (by simp [e]), List.filter_cons_of_pos (by simp [hm, e]), ih, List.map_cons]
        congr 1
        rw [← e, ← hx]
      · rw [List.filter_cons_of_neg (by simp [e]), List.filter_cons_of_neg (by simp [hm, e]), ih]

theorem reordered_get {d : Dom} {t us us' : List Rule} (ht : KeysDiffer t) (hu : KeysDiffer us) (hu' : KeysDiffer us') (h : Reordered d us us')
    (hc : ∀ r ∈ us, Comparable d r) (i : Nat) : getForTag d (updateRules t us') (.node i) = getForTag d (updateRules t us) (.node i) := by
  have hfind : ∀ r : Rule, ruleAt us' r.key = ruleAt us r.key :=
    fun r => ruleAt_same hu' r.key (fun x hx => (h.same x).1 hx) (fun x hx _ => (h.same x).2 hx)
  have hc' : ∀ r ∈ us', Comparable d r := fun r hr => hc r ((h.same r).2 hr)
  rw [updateRules_eq t us' ht hu', updateRules_eq t us ht hu]
  simp only [hfind]
  unfold getForTag
  rw [collect_append, collect_append]
  cases collectMatches d (.node i) (t.map (fun r => (ruleAt us r.key).getD r)) with
  | error e => rfl
  | ok a =>
    rw [collect_map (fun r hr => hc' r (List.mem_filter.1 hr).1), collect_map (fun r hr => hc r (List.mem_filter.1 hr).1)]
    simp only [Except.bind, Except.map, bind]
    rw [sort_eq (fun sp => ?_)]
    rw [List.filter_append, List.filter_append]
    congr 1
    rw [filter_matches, filter_matches, List.filter_filter, List.filter_filter]
    congr 1
    symm
    refine order_eq ((keysDiffer_nodup hu).filter _) ((keysDiffer_nodup hu').filter _) (fun r => ?_) (fun x y hs => ?_)
    · rw [List.mem_filter, List.mem_filter, h.same]
    · have key : ∀ z ∈ [x, y], Applies d (.node i) z sp ∧ (decide ((matchOf d i z).map Prod.fst = some sp) && decide (z.key ∉ t.map Rule.key)) = true := by
        intro z hz
        obtain ⟨z1, z2⟩ := List.mem_filter.1 (hs.subset hz)
        refine ⟨?_, z2⟩
        simp only [Bool.and_eq_true, decide_eq_true_eq] at z2
        cases hm : matchOf d i z with
        | none => rw [hm] at z2; simp at z2
        | some w =>
          rw [hm] at z2
          simp only [Option.map_some, Option.some.injEq] at z2
          rw [← z2.1]
          exact ((matchOf_spec (hc z z1) w).1 hm).2
      have := (h.order i sp x y (key x (by simp)).1 (key y (by simp)).1 (hs.trans List.filter_sublist)).filter
        (fun z => decide ((matchOf d i z).map Prod.fst = some sp) && decide (z.key ∉ t.map Rule.key))
      rwa [List.filter_eq_self.2 (fun z hz => (key z hz).2)] at this

theorem reordered_find {d : Dom} {t us us' : List Rule} (ht : KeysDiffer t) (hu : KeysDiffer us) (hu' : KeysDiffer us') (h : Reordered d us us')
    {k : Str} (hk : k ∈ t.map Rule.key) : (updateRules t us').find? (fun x => x.key == k) = (updateRules t us).find? (fun x => x.key == k) := by
  have hfind : ∀ r : Rule, ruleAt us' r.key = ruleAt us r.key :=
    fun r => ruleAt_same hu' r.key (fun x hx => (h.same x).1 hx) (fun x hx _ => (h.same x).2 hx)
  have hz : ∀ l : List Rule, (l.filter (fun x => decide (x.key ∉ t.map Rule.key))).find? (fun x => x.key == k) = none := by
    intro l
    rw [List.find?_eq_none]
    intro x hx e
    simp only [beq_iff_eq] at e
    have := (List.mem_filter.1 hx).2
    rw [e] at this
    simp only [decide_eq_true_eq] at this
    exact this hk
  rw [updateRules_eq t us' ht hu', updateRules_eq t us ht hu, List.find?_append, List.find?_append, hz, hz]
  simp only [hfind]

/-- The order of the rules matters only for rules that apply to the same element with the same specificity. -/
theorem C99_order (u : Uni) (c : Cfg) (es : List Event) (r l : List Rule) (hr : KeysDiffer r) (hl : KeysDiffer l)
    (hr' : KeysDiffer c.renderers) (hl' : KeysDiffer c.linkRenderers)
    (h : ∀ d, TreeOf u c es d → Reordered d c.renderers r ∧ Reordered d c.linkRenderers l)
    (hc : ∀ d, TreeOf u c es d → ∀ q, q ∈ c.renderers ∨ q ∈ c.linkRenderers → Comparable d q) :
    renderEvents u (withRules c r l) es = renderEvents u c es := by
  refine render_rules (fun d hd i => ?_) (fun d hd i => ?_)
  · unfold getRenderer
    show (do match ← getForTag d (updateRules defaultRules r) (.node i) with
      | some (r, s) => return RSpec.pair (some r) (some s)
      | none => return c.defaultRenderer) = _
    rw [reordered_get defaultRules_nodup hr' hr (h d hd).1 (fun q hq => hc d hd q (.inl hq))]
    rfl
  · unfold getLinkRenderer
    show (do match ← getForTag d (updateRules defaultLinkRules l) (.node i) with
      | some (r, s) => return RSpec.pair (some r) (some s)
      | none => match (updateRules defaultLinkRules l).find? (fun r : Rule => r.key == py"a") with
        | some r => return r.spec
        | none => .error .keyError) = _
    rw [reordered_get linkRules_nodup hl' hl (h d hd).2 (fun q hq => hc d hd q (.inr hq)),
      reordered_find linkRules_nodup hl' hl (h d hd).2 (by decide)]
    rfl

namespace RulesExample

/-- A rule that draws something around texts. -/
def around (key : Str) (sel : Sel) (template : Str) : Rule := ⟨key, one sel, .pair (some .inline) (some [(py"template", .str template)])⟩

def x : Rule := around py".x" (.cls (.element none) py"x") py"[{}]"
def y : Rule := around py".y" (.cls (.element none) py"y") py"<{}>"
def span : Rule := around py"span" (elt py"span") py"({})"
def nav : Rule := around py"nav b" (.comb (elt py"nav") .desc (elt py"b")) py"_{}_"

def doc : List Event := [.start py"p" [], .start py"span" [(py"class", some py"x y")], .data py"hi", .stop py"span", .stop py"p"]

theorem x_spec {d : Dom} {i : Nat} {sp : Spec3} (h : Applies d (.node i) x sp) : sp = (0, 1, 0) := by
  obtain ⟨⟨s, hs, -, e⟩, -⟩ := h
  simp only [x, around, one, List.mem_singleton] at hs
  subst hs
  rw [← e]
  rfl

theorem span_spec {d : Dom} {i : Nat} {sp : Spec3} (h : Applies d (.node i) span sp) : sp = (0, 0, 1) := by
  obtain ⟨⟨s, hs, -, e⟩, -⟩ := h
  simp only [span, around, one, List.mem_singleton] at hs
  subst hs
  rw [← e]
  rfl

theorem comparable {d : Dom} {q : Rule} (h : q ∈ [span, x]) : Comparable d q := by
  intro i s hs
  simp only [List.mem_cons, List.not_mem_nil, or_false] at h
  rcases h with rfl | rfl
  · simp only [span, around, one, List.mem_singleton] at hs
    subst hs
    exact ⟨_, rfl⟩
  · simp only [x, around, one, List.mem_singleton] at hs
    subst hs
    simp only [selMatch]
    repeat' split
    all_goals exact ⟨_, rfl⟩

/-- A rule for a class is stronger than one for a tag, before or after it. -/
example : renderEvents asciiUni { renderers := [x, span] } doc = renderEvents asciiUni { renderers := [span, x] } doc ∧
    renderEvents asciiUni { renderers := [span, x] } doc = .ok py"\n[hi]\n" := by
  refine ⟨C99_order asciiUni { renderers := [span, x] } doc [x, span] [] (by unfold KeysDiffer; decide) (by simp [KeysDiffer])
    (by unfold KeysDiffer; decide) (by simp [KeysDiffer]) (fun d _ => ⟨⟨by simp [or_comm], ?_⟩, ⟨by simp, fun _ _ _ _ _ _ h => h⟩⟩)
    (fun d _ q hq => comparable (by simpa using hq)), by decide +kernel⟩
  intro i sp a b ha hb hs
  have hmem : ∀ z ∈ [a, b], z = span ∨ z = x := fun z hz => by simpa using hs.subset hz
  have hne : a ≠ b := by
    rintro rfl
    have := hs.eq_of_length_le (by simp)
    simp only [List.cons.injEq] at this
    exact absurd (congrArg Rule.key (this.1.symm.trans this.2.1)) (by decide)
  rcases hmem a (by simp) with rfl | rfl <;> rcases hmem b (by simp) with rfl | rfl
  · exact absurd rfl hne
  · rw [span_spec ha] at hb
    exact absurd (x_spec hb) (by decide)
  · rw [x_spec ha] at hb
    exact absurd (span_spec hb) (by decide)
  · exact absurd rfl hne

end RulesExample

open RulesExample in
/-- Of rules with the same specificity the last counts. -/
theorem C99_order_fails : renderEvents asciiUni { renderers := [x, y] } doc = .ok py"\n<hi>\n" ∧
    renderEvents asciiUni { renderers := [y, x] } doc = .ok py"\n[hi]\n" := by decide +kernel

/-! ## Rules for tags that do not occur -/

theorem foreign_match {u : Uni} {c : Cfg} {es : List Event} {d : Dom} (h : TreeOf u c es d) {s : Sel} (hs : Foreign es s) (i : Nat) :
    selMatch d s (.node i) = .ok false := by
  obtain ⟨s0, s1, h0, h1, rfl⟩ := h
  rw [popStack_eq (reach_inv h0 h1) (fun i hi => List.mem_reverse.1 hi)]
  obtain ⟨-, hlen, hlab⟩ := C28 u c s0 s1 es h0 h1
  induction s with
  | element n =>
    cases n with
    | none => exact hs.elim
    | some n =>
      simp only [selMatch, elementMatches]
      cases hn : s1.dom.nodes[i]? with
      | none => rfl
      | some m =>
        have hi : i < (es.filter creates).length := by
          rw [← hlen]
          exact (List.getElem?_eq_some_iff.1 hn).1
        obtain ⟨m', e1, e2⟩ := hlab i _ (List.getElem?_eq_getElem hi)
        rw [hn] at e1
        cases e1
        have hmem : (es.filter creates)[i] ∈ es := (List.mem_filter.1 (List.getElem_mem hi)).1
        generalize (es.filter creates)[i] = e at e2 hmem
        cases e with
        | stop t => exact e2.elim
        | data t =>
          have : m.data.isSome = true := by rcases e2.2 with q | q <;> rw [q] <;> rfl
          simp [this]
        | start t attrs =>
          simp only [e2.2.1, e2.1]
          by_cases q : t = n
          · subst q; exact absurd hmem (hs attrs)
          · simp [q]
  | cls s n ih =>
    simp only [selMatch, ih hs]
    cases s1.dom.nodes[i]? with
    | none => rfl
    | some m => cases m.data <;> simp
  | hash s n ih =>
    simp only [selMatch, ih hs]
    repeat' split
    all_goals rfl
  | neg s t ih _ =>
    simp only [selMatch, ih hs, bind, Except.bind, pure, Except.pure]
    cases s1.dom.hasData (.node i) <;> rfl
  | attrib s n o v ih => simp only [selMatch, ih hs, bind, Except.bind, pure, Except.pure]; rfl
  | pseudo s n ih =>
    simp only [selMatch, ih hs]
    repeat' split
    all_goals rfl
  | func s n a ih => exact hs.elim
  | comb s k t _ ih =>
    have ih := ih hs
    cases k with
    | desc => simp only [selMatch, ih, bind, Except.bind, pure, Except.pure]; rfl
    | column => rfl
    | child => simp only [selMatch, ih, bind, Except.bind, pure, Except.pure]; split <;> rfl
    | general => simp only [selMatch, ih, bind, Except.bind, pure, Except.pure]; split <;> rfl
    | adjacent => simp only [selMatch, ih, bind, Except.bind, pure, Except.pure]; split <;> rfl

/-- Rules for elements with tags that the document does not have make no difference to it. -/
theorem C99_tags (u : Uni) (c : Cfg) (es : List Event) (r : List Rule) (hr : KeysDiffer r) (hl : KeysDiffer c.linkRenderers)
    (h1 : c.renderers.Sublist r)
    (h2 : ∀ q ∈ r, q ∈ c.renderers ∨ ForeignRule es q ∧ ∀ p ∈ defaultRules, p.key = q.key → ForeignRule es p) :
    renderEvents u { c with renderers := r } es = renderEvents u c es := by
  have idle : ∀ d, TreeOf u c es d → ∀ q, ForeignRule es q → Idle d q := fun d hd q hq i s hs => foreign_match hd (hq s hs) i
  refine C99 u c es r c.linkRenderers hr hl (fun q hq _ => hq) (fun d hd => ⟨⟨h1, fun q hq => ?_⟩, ⟨List.Sublist.refl _, fun q hq => .inl hq⟩⟩)
  rcases h2 q hq with a | ⟨a, b⟩
  · exact .inl a
  · exact .inr ⟨idle d hd q a, fun p hp e => idle d hd p (b p hp e)⟩

example : renderEvents asciiUni { renderers := [RulesExample.span, RulesExample.nav] } RulesExample.doc =
      renderEvents asciiUni { renderers := [RulesExample.span] } RulesExample.doc ∧
    renderEvents asciiUni { renderers := [RulesExample.span] } RulesExample.doc = .ok py"\n(hi)\n" := by
  refine ⟨C99_tags asciiUni { renderers := [RulesExample.span] } RulesExample.doc _ (by unfold KeysDiffer; decide) (by simp [KeysDiffer])
    (List.Sublist.cons_cons _ (List.nil_sublist _)) (fun q hq => ?_), by decide +kernel⟩
  simp only [List.mem_cons, List.not_mem_nil, or_false] at hq
  rcases hq with rfl | rfl
  · exact .inl (by simp)
  · refine .inr ⟨fun s hs => ?_, fun p hp e => ?_⟩
    · simp only [RulesExample.nav, RulesExample.around, one, List.mem_singleton] at hs
      subst hs
      intro attrs
      simp [RulesExample.doc]
    · have : RulesExample.nav.key ∉ defaultRules.map Rule.key := by decide
      exact absurd (e ▸ List.mem_map_of_mem hp) this

end Verif
