import Verif.Proofs.Tree
import Verif.Proofs.Dict

namespace Verif

open Spec

/-! ## Attributes -/

theorem get_map {α β : Type} (f : α → β) (d : DictOf α) (k : Str) :
    DictOf.get (d.map (fun kv => (kv.1, f kv.2))) k = (DictOf.get d k).map f := by
  induction d with
  | nil => rfl
  | cons x xs ih =>
    obtain ⟨a, b⟩ := x
    simp only [List.map_cons, DictOf.get_cons, ih]
    split <;> rfl

theorem get_eq_find {α : Type} (d : DictOf α) (k : Str) :
    DictOf.get d k = (d.find? (fun kv => kv.1 == k)).map Prod.snd := by
  induction d with
  | nil => rfl
  | cons x xs ih =>
    obtain ⟨a, b⟩ := x
    rw [DictOf.get_cons, List.find?_cons]
    by_cases h : k = a
    · subst h; simp
    · have : (a == k) = false := by simpa using fun e => h e.symm
      simp [h, this, ih]

theorem rawAttrs_get (attrs : List (Str × Option Str)) (k : Str) :
    DictOf.get (rawAttrs attrs) k =
      (attrOf attrs k).map attrVal := by
  unfold rawAttrs attrOf
  rw [DictOf.get_update, ← List.map_reverse, get_map attrVal, get_eq_find]
  cases List.find? (fun kv => kv.fst == k) attrs.reverse <;> rfl

theorem newTag_agree {tag : Str} {p : Par} {attrs : List (Str × Option Str)} {n : Node} (h : newTag tag p attrs = .ok n) :
    AttrsAgree attrs n := by
  simp only [newTag, bind, Except.bind] at h
  cases he : extractClasses (rawAttrs attrs) with
  | error e => simp [he] at h
  | ok v =>
    obtain ⟨a, cl⟩ := v
    rw [he] at h
    simp only [pure, Except.pure, Except.ok.injEq] at h
    subst h
    unfold extractClasses at he
    have hc := rawAttrs_get attrs py"class"
    have hid : ∀ a : DictOf AttrVal, (∀ k, k ≠ py"class" → DictOf.get a k =
        (attrOf attrs k).map attrVal) →
        attrStr a py"id" = (attrOf attrs py"id").join := by
      intro a ha
      unfold attrStr
      rw [ha py"id" (by decide)]
      cases attrOf attrs py"id" with
      | none => rfl
      | some v => cases v <;> rfl
    cases hcl : attrOf attrs py"class" with
    | none =>
      rw [hcl] at hc
      simp only [Option.map_none] at hc
      rw [hc] at he
      simp only [Except.ok.injEq, Prod.mk.injEq] at he
      obtain ⟨rfl, rfl⟩ := he
      exact ⟨fun k _ => rawAttrs_get attrs k, by rw [hc, hcl]; rfl, by rw [hcl], hid _ (fun k _ => rawAttrs_get attrs k), by simp [hcl]⟩
    | some v =>
      rw [hcl] at hc
      cases v with
      | none =>
        simp only [Option.map_some, attrVal] at hc
        rw [hc] at he
        simp at he
      | some v =>
        simp only [Option.map_some, attrVal] at hc
        rw [hc] at he
        simp only [Except.ok.injEq, Prod.mk.injEq] at he
        obtain ⟨rfl, rfl⟩ := he
        have ho : ∀ k, k ≠ py"class" → DictOf.get (DictOf.set (rawAttrs attrs) py"class" (.words (splitWs v))) k =
            (attrOf attrs k).map attrVal := by
          intro k hk
          rw [DictOf.get_set, if_neg hk, rawAttrs_get]
        exact ⟨ho, by rw [DictOf.get_set, if_pos rfl, hcl]; rfl, by rw [hcl], hid _ ho, by simp [hcl]⟩

theorem newLink_agree {u : Uni} {tag : Str} {p : Par} {attrs : List (Str × Option Str)} {ctx} {n : Node}
    (h : newLink u tag p attrs ctx = .ok n) : AttrsAgree attrs n := by
  simp only [newLink, bind, Except.bind] at h
  cases he : newTag tag p attrs with
  | error e => simp [he] at h
  | ok m =>
    rw [he] at h
    simp only at h
    split at h
    · simp at h
    · simp only [pure, Except.pure, Except.ok.injEq] at h
      subst h
      obtain ⟨h1, h2, h3, h4, h5⟩ := newTag_agree he
      exact ⟨h1, h2, h3, h4, h5⟩

/-! ## Labels -/

theorem agree_congr {attrs : List (Str × Option Str)} {n m : Node} (h : AttrsAgree attrs n) (h1 : m.attrs = n.attrs)
    (h2 : m.classes = n.classes) (h3 : m.id = n.id) : AttrsAgree attrs m :=
  ⟨by rw [h1]; exact h.other, by rw [h1]; exact h.cls, by rw [h2]; exact h.classes, by rw [h3]; exact h.id, h.valued⟩

theorem label_congr {e : Event} {n m : Node} (h : Label e n) (h1 : m.tag = n.tag) (h2 : m.data = n.data)
    (h3 : m.attrs = n.attrs) (h4 : m.classes = n.classes) (h5 : m.id = n.id) : Label e m := by
  cases e with
  | start tag attrs => exact ⟨h1 ▸ h.1, h2 ▸ h.2.1, agree_congr h.2.2 h3 h4 h5⟩
  | stop tag => exact h
  | data t => exact ⟨h1 ▸ h.1, by rw [h2]; exact h.2⟩

/-- Each node so far is what its event asks for. -/
def Labelled (d : Dom) (es : List Event) : Prop :=
  d.nodes.length = (es.filter creates).length ∧
    ∀ (k : Nat) (e : Event), (es.filter creates)[k]? = some e → ∃ n, d.nodes[k]? = some n ∧ Label e n

theorem labelled_extends {d d' : Dom} {p : Par} {n : Node} {es : List Event} {e : Event} (h : Labelled d es)
    (he : Extends d d' p n) (hc : creates e = true) (hl : Label e n) : Labelled d' (es ++ [e]) := by
  have hf : (es ++ [e]).filter creates = es.filter creates ++ [e] := by simp [List.filter_append, hc]
  refine ⟨by rw [hf, he.len, h.1]; simp, ?_⟩
  intro k e' hk
  rw [hf] at hk
  by_cases hlt : k < (es.filter creates).length
  · rw [List.getElem?_append_left hlt] at hk
    obtain ⟨m, hm, hlm⟩ := h.2 k e' hk
    obtain ⟨pend, hm'⟩ := he.old _ _ hm
    exact ⟨_, hm', label_congr hlm rfl rfl rfl rfl rfl⟩
  · rw [List.getElem?_append_right (by omega)] at hk
    have hk0 : k - (es.filter creates).length = 0 := by
      have := getElem?_lt hk; simp at this; omega
    rw [hk0] at hk
    simp at hk
    subst hk
    have : k = d.nodes.length := by rw [h.1]; omega
    subst this
    exact ⟨n, he.last, hl⟩

theorem labelled_stop {d : Dom} {es : List Event} {tag : Str} (h : Labelled d es) : Labelled d (es ++ [.stop tag]) := by
  have hf : (es ++ [Event.stop tag]).filter creates = es.filter creates := by simp [List.filter_append, creates]
  unfold Labelled
  rw [hf]; exact h

theorem labelled_closes {d d' : Dom} {i : Nat} {es : List Event} (h : Labelled d es) (hc : Closes d d' i) : Labelled d' es := by
  refine ⟨by rw [hc.len]; exact h.1, ?_⟩
  intro k e hk
  obtain ⟨m, hm, hl⟩ := h.2 k e hk
  exact ⟨_, hc.old _ _ hm, label_congr hl rfl rfl rfl rfl rfl⟩

theorem start_label {u : Uni} {c : Cfg} {s s' : PState} (h : TInv s.dom s.stack) {tag : Str} {attrs}
    (hs : handleStart u c s tag attrs = .ok s') :
    ∃ n, Extends s.dom s'.dom (tagParent s) n ∧ Fresh n (tagParent s) ∧ n.tag = some tag ∧ n.data = none ∧
      AttrsAgree attrs n ∧ s'.stack = (if isVoid tag then s.stack else s.stack ++ [s.dom.nodes.length]) ∧
      s'.inPre = (if tag = py"pre" then true else s.inPre) := by
  obtain ⟨n, h1, h2, h3, h4, h5, h6, h7, h8⟩ := handleStart_extends h hs
  refine ⟨n, h1, h2, h3, h4, ?_, h6, h7⟩
  split at h8
  · exact newLink_agree h8
  · exact newTag_agree h8

theorem step_labelled {u : Uni} {c : Cfg} {s s' : PState} (h : TInv s.dom s.stack) {e : Event} {es : List Event}
    (hl : Labelled s.dom es) (hs : step u c s e = .ok s') : Labelled s'.dom (es ++ [e]) := by
  cases e with
  | start tag attrs =>
    obtain ⟨n, h1, h2, h3, h4, h5, -⟩ := start_label h hs
    exact labelled_extends hl h1 rfl ⟨h3, h4, h5⟩
  | stop tag =>
    simp only [step, Except.ok.injEq] at hs
    subst hs
    rcases handleEnd_cases h tag with ⟨i, n, -, -, -, h4, -⟩ | ⟨-, h4, -⟩
    · rw [h4]; exact labelled_stop (labelled_closes hl (closes_modify _ _))
    · rw [h4]; exact labelled_stop hl
  | data text =>
    simp only [step, Except.ok.injEq] at hs
    subst hs
    refine labelled_extends hl (handleData_extends h text) rfl ⟨rfl, ?_⟩
    cases s.inPre
    · right; rfl
    · left; rfl

theorem feed_labelled {u : Uni} {c : Cfg} {s s' : PState} (h : TInv s.dom s.stack) {es es' : List Event}
    (hl : Labelled s.dom es) (hs : feed u c s es' = .ok s') : Labelled s'.dom (es ++ es') := by
  induction es' generalizing s es with
  | nil => simp [feed_nil] at hs; subst hs; simpa using hl
  | cons e es' ih =>
    rw [feed_cons] at hs
    cases h1 : step u c s e with
    | error x => simp [h1, Except.bind] at hs
    | ok s1 =>
      rw [h1] at hs
      have := ih (step_inv h h1) (step_labelled h hl h1) hs
      simpa using this

theorem init_labelled : Labelled (⟨[], []⟩ : Dom) [] := ⟨rfl, by simp⟩

/-! ## Forests -/

/-- `Rep` with all node numbers at least `lo`. -/
def RepB (d : Dom) (lo : Nat) : (pre : Bool) → List Nat → Forest → Prop
  | _, ids, .nil => ids = []
  | pre, ids, .elem tag attrs kids rest => ∃ i is n, ids = i :: is ∧ lo ≤ i ∧ d.nodes[i]? = some n ∧ n.tag = some tag ∧
      n.data = none ∧ AttrsAgree attrs n ∧ RepB d lo (pre || tag == py"pre") n.children kids ∧ RepB d lo pre is rest
  | pre, ids, .text s rest => ∃ i is n, ids = i :: is ∧ lo ≤ i ∧ d.nodes[i]? = some n ∧ n.tag = none ∧
      n.data = some (normaliseData pre s) ∧ RepB d lo pre is rest

theorem repB_rep {d : Dom} {lo : Nat} {pre : Bool} {ids : List Nat} {f : Forest} (h : RepB d lo pre ids f) : Rep d pre ids f := by
  induction f generalizing pre ids with
  | nil => exact h
  | elem tag attrs kids rest ihk ihr =>
    obtain ⟨i, is, n, h1, -, h2, h3, h4, h5, h6, h7⟩ := h
    exact ⟨i, is, n, h1, h2, h3, h4, h5, ihk h6, ihr h7⟩
  | text s rest ih =>
    obtain ⟨i, is, n, h1, -, h2, h3, h4, h5⟩ := h
    exact ⟨i, is, n, h1, h2, h3, h4, ih h5⟩

theorem repB_frame {d d' : Dom} {lo lo' : Nat} (hlo : lo' ≤ lo)
    (hf : ∀ (k : Nat) (m : Node), lo ≤ k → d.nodes[k]? = some m → ∃ pend cl, d'.nodes[k]? = some { m with pending := pend, closed := cl })
    {pre : Bool} {ids : List Nat} {f : Forest} (h : RepB d lo pre ids f) : RepB d' lo' pre ids f := by
  induction f generalizing pre ids with
  | nil => exact h
  | elem tag attrs kids rest ihk ihr =>
    obtain ⟨i, is, n, h1, h0, h2, h3, h4, h5, h6, h7⟩ := h
    obtain ⟨pend, cl, h8⟩ := hf i n h0 h2
    exact ⟨i, is, _, h1, by omega, h8, h3, h4, agree_congr h5 rfl rfl rfl, ihk h6, ihr h7⟩
  | text s rest ih =>
    obtain ⟨i, is, n, h1, h0, h2, h3, h4, h5⟩ := h
    obtain ⟨pend, cl, h8⟩ := hf i n h0 h2
    exact ⟨i, is, _, h1, by omega, h8, h3, h4, ih h5⟩

/-- `s'` is `s` after siblings `ids` have been added at the current place. -/
structure Grows (s s' : PState) (ids : List Nat) : Prop where
  len : s.dom.nodes.length ≤ s'.dom.nodes.length
  stack : s'.stack = s.stack
  inPre : s'.inPre = s.inPre
  old : ∀ (k : Nat) (m : Node), s.dom.nodes[k]? = some m → ∃ pend, s'.dom.nodes[k]? =
    some { m with children := m.children ++ (if s.stack.getLast? = some k then ids else []), pending := pend }
  roots : s'.dom.roots = s.dom.roots ++ (if s.stack = [] then ids else [])

theorem stack_bound {s : PState} (h : TInv s.dom s.stack) {k : Nat} (hk : s.stack.getLast? = some k) : k < s.dom.nodes.length := by
  obtain ⟨m, h1, -⟩ := open_mem h.spine k (List.mem_of_getLast? hk)
  exact getElem?_lt h1

theorem extends_grows {s s' : PState} {p : Par} {n : Node} (he : Extends s.dom s'.dom p n)
    (hp : ∀ j, p = .node j ↔ s.stack.getLast? = some j) (hst : s'.stack = s.stack) (hpre : s'.inPre = s.inPre) :
    Grows s s' [s.dom.nodes.length] := by
  refine ⟨by rw [he.len]; omega, hst, hpre, ?_, ?_⟩
  · intro k m hk
    obtain ⟨pend, h1⟩ := he.old k m hk
    refine ⟨pend, ?_⟩
    rw [h1]
    by_cases e : p = .node k
    · simp [e, (hp k).1 e]
    · have : ¬ s.stack.getLast? = some k := fun e' => e ((hp k).2 e')
      simp [e, this]
  · rw [he.roots]
    cases p with
    | node j =>
      have := (hp j).1 rfl
      have : s.stack ≠ [] := by intro e; rw [e] at this; simp at this
      simp [this, rootPart]
    | doc =>
      have : s.stack = [] := by
        cases hl : s.stack.getLast? with
        | none => simpa using hl
        | some j => have := (hp j).2 hl; cases this
      simp [this, rootPart]
    | none =>
      have : s.stack = [] := by
        cases hl : s.stack.getLast? with
        | none => simpa using hl
        | some j => have := (hp j).2 hl; cases this
      simp [this, rootPart]

theorem grows_trans {s s1 s2 : PState} {a b : List Nat} (h1 : Grows s s1 a) (h2 : Grows s1 s2 b) : Grows s s2 (a ++ b) := by
  refine ⟨by have := h1.len; have := h2.len; omega, by rw [h2.stack, h1.stack], by rw [h2.inPre, h1.inPre], ?_, ?_⟩
  · intro k m hk
    obtain ⟨p1, g1⟩ := h1.old k m hk
    obtain ⟨p2, g2⟩ := h2.old _ _ g1
    refine ⟨p2, ?_⟩
    rw [g2, h1.stack]
    by_cases e : s.stack.getLast? = some k <;> simp [e]
  · rw [h2.roots, h1.roots, h1.stack]
    by_cases e : s.stack = [] <;> simp [e]

theorem feed_forest {u : Uni} {c : Cfg} {s s' : PState} (h : TInv s.dom s.stack) (f : Forest) (hw : f.WellFormed s.inPre)
    (hs : feed u c s f.events = .ok s') :
    ∃ ids, Grows s s' ids ∧ RepB s'.dom s.dom.nodes.length s.inPre ids f := by
  induction f generalizing s s' with
  | nil =>
    simp [Forest.events, feed_nil] at hs
    subst hs
    refine ⟨[], ⟨by omega, rfl, rfl, ?_, by simp⟩, rfl⟩
    intro k m hk
    exact ⟨m.pending, by simp [hk]⟩
  | text t rest ih =>
    simp only [Forest.events, feed_cons, step, Except.bind] at hs
    have he := handleData_extends h t
    have hg := extends_grows he (top_iff h .none (by simp)) rfl rfl
    obtain ⟨ids, g2, r2⟩ := ih (s := handleData s t) (handleData_inv h t) hw hs
    refine ⟨_, grows_trans hg g2, ?_⟩
    obtain ⟨pend, hnew⟩ := g2.old _ _ he.last
    have hne : ¬ s.stack.getLast? = some s.dom.nodes.length := fun e => by have := stack_bound h e; omega
    refine ⟨_, ids, _, rfl, by omega, hnew, rfl, rfl, ?_⟩
    exact repB_frame (by have := hg.len; omega) (fun k m _ hk => ⟨m.pending, m.closed, hk⟩) r2
  | elem tag attrs kids rest ihk ihr =>
    obtain ⟨hvoid, hpre, hwk, hwr⟩ := hw
    simp only [Forest.events, feed_cons] at hs
    cases h1 : step u c s (.start tag attrs) with
    | error x => simp [h1, Except.bind] at hs
    | ok s1 =>
      rw [h1] at hs
      simp only [Except.bind] at hs
      obtain ⟨n, he, hf, ht, hd, ha, hst, hip⟩ := start_label h h1
      have hinv1 := step_inv h h1
      have hne : ¬ s.stack.getLast? = some s.dom.nodes.length := fun e => by have := stack_bound h e; omega
      have htop : ∀ j, tagParent s = .node j ↔ s.stack.getLast? = some j := top_iff h .doc (by simp)
      by_cases hv : VoidTag tag
      · have hv' : isVoid tag = true := by
          rcases hv with e | e <;> simp [e, isVoid]
        have hk := hvoid hv
        subst hk
        simp only [hv, if_true, Forest.events, List.nil_append] at hs
        have hnp : ¬ tag = py"pre" := by
          rcases hv with e | e <;> rw [e] <;> decide
        rw [if_neg hnp] at hip
        rw [hv', if_pos rfl] at hst
        have hg := extends_grows he htop hst hip
        obtain ⟨ids, g2, r2⟩ := ihr hinv1 (by rw [hip]; exact hwr) hs
        refine ⟨_, grows_trans hg g2, ?_⟩
        obtain ⟨pend, hnew⟩ := g2.old _ _ he.last
        refine ⟨_, ids, _, rfl, by omega, hnew, ht, hd, agree_congr ha rfl rfl rfl, ?_, ?_⟩
        · rw [hst]; simp [hne, hf.children, RepB]
        · rw [hip] at r2
          exact repB_frame (by have := hg.len; omega) (fun k m _ hk => ⟨m.pending, m.closed, hk⟩) r2
      · have hv' : isVoid tag = false := by
          unfold VoidTag at hv
          simp only [not_or] at hv
          simp [isVoid, hv]
        simp only [hv, if_false] at hs
        rw [feed_append, feed_append] at hs
        cases h2 : feed u c s1 kids.events with
        | error x => simp [h2, Except.bind] at hs
        | ok s2 =>
          rw [h2] at hs
          simp only [Except.bind, feed_cons, feed_nil, step] at hs
          rw [hv'] at hst
          simp only [Bool.false_eq_true, if_false] at hst
          have hip' : s1.inPre = (s.inPre || tag == py"pre") := by
            rw [hip]
            by_cases e : tag = py"pre" <;> simp [e]
          obtain ⟨kk, gk, rk⟩ := ihk hinv1 (by rw [hip']; exact hwk) h2
          have hinv2 := feed_inv hinv1 h2
          have hst2 : s2.stack = s.stack ++ [s.dom.nodes.length] := by rw [gk.stack, hst]
          -- the element after its content
          obtain ⟨pend2, hn2⟩ := gk.old _ _ he.last
          have hl1 : s1.stack.getLast? = some s.dom.nodes.length := by rw [hst]; simp
          rw [hl1] at hn2
          simp only [if_true, hf.children, List.nil_append] at hn2
          -- the end tag
          rcases handleEnd_cases hinv2 tag with ⟨i, m, e1, e2, e3, e4, e5⟩ | ⟨e1, -, -⟩
          · rw [hst2] at e1 e5
            simp at e1 e5
            subst e1
            have hcl := closes_modify s2.dom s.dom.nodes.length
            rw [← e4] at hcl
            have hinv3 := handleEnd_inv hinv2 tag
            have hip3 : (handleEnd s2 tag).inPre = s.inPre := by
              have : (handleEnd s2 tag).inPre = if tag = py"pre" then false else s2.inPre := by
                unfold handleEnd
                rw [hv']
                simp only [Bool.false_eq_true, if_false]
                by_cases e : tag = py"pre"
                · simp only [e, if_true]
                  split
                  · rfl
                  · split <;> rfl
                · simp only [e, if_false]
                  split
                  · rfl
                  · split <;> rfl
              rw [this]
              by_cases e : tag = py"pre"
              · simp [e, hpre e]
              · rw [if_neg e, gk.inPre, hip, if_neg e]
            have g3 : Grows s (handleEnd s2 tag) [s.dom.nodes.length] := by
              refine ⟨?_, e5, hip3, ?_, ?_⟩
              · rw [hcl.len]; have := gk.len; have := he.len; omega
              · intro k m hk
                have hklt := getElem?_lt hk
                obtain ⟨pe, q1⟩ := he.old k m hk
                obtain ⟨pe2, q2⟩ := gk.old _ _ q1
                have q3 := hcl.old _ _ q2
                have hk1 : ¬ s1.stack.getLast? = some k := by rw [hl1]; simp; omega
                have hk2 : ¬ s.dom.nodes.length = k := by omega
                refine ⟨pe2, ?_⟩
                rw [q3]
                by_cases e : tagParent s = .node k
                · simp [e, (htop k).1 e, hk1, hk2]
                · have : ¬ s.stack.getLast? = some k := fun e' => e ((htop k).2 e')
                  simp [e, this, hk1, hk2]
              · rw [hcl.roots, gk.roots, hst]
                have := he.roots
                rw [this]
                cases hp : tagParent s with
                | node j =>
                  have := (htop j).1 hp
                  have : s.stack ≠ [] := by intro e; rw [e] at this; simp at this
                  simp [this, rootPart]
                | doc =>
                  have : s.stack = [] := by
                    cases hl : s.stack.getLast? with
                    | none => simpa using hl
                    | some j => have := (htop j).2 hl; rw [hp] at this; cases this
                  simp [this, rootPart]
                | none => exact absurd hp (tagParent_ne_none s)
            obtain ⟨ids, g4, r4⟩ := ihr hinv3 (by rw [hip3]; exact hwr) hs
            refine ⟨_, grows_trans g3 g4, ?_⟩
            have q := hcl.old _ _ hn2
            obtain ⟨pend4, hn4⟩ := g4.old _ _ q
            have hne4 : ¬ (handleEnd s2 tag).stack.getLast? = some s.dom.nodes.length := by rw [e5]; exact hne
            rw [if_neg hne4] at hn4
            simp only [List.append_nil] at hn4
            refine ⟨_, ids, _, rfl, by omega, hn4, ht, hd, agree_congr ha rfl rfl rfl, ?_, ?_⟩
            · rw [hip'] at rk
              refine repB_frame (by rw [he.len]; omega) ?_ rk
              intro k m hk hkm
              have q1 := hcl.old _ _ hkm
              obtain ⟨pe, q2⟩ := g4.old _ _ q1
              have : ¬ (handleEnd s2 tag).stack.getLast? = some k := by
                rw [e5]
                intro e
                have := stack_bound h e
                rw [he.len] at hk
                omega
              rw [if_neg this] at q2
              simp only [List.append_nil] at q2
              exact ⟨_, _, q2⟩
            · rw [hip3] at r4
              exact repB_frame (by have := g3.len; omega) (fun k m _ hk => ⟨m.pending, m.closed, hk⟩) r4
          · exfalso
            exact e1 s.dom.nodes.length _ (by rw [hst2]; simp) hn2 ht

end Verif
