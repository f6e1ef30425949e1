import Verif.Proofs.Style
import Verif.Props.Cascade

/-!
# The default style: C61
-/

namespace Verif

open Spec

/-- What closing assigns to the nodes. -/
theorem closed_assigned {u : Uni} {c : Cfg} {s0 s s' : PState} {es : List Event} (h0 : initParser c = .ok s0)
    (h : feed u c s0 es = .ok s) (hc : close u c s = .ok s') (i : Nat) (n : Node) (hn : s.dom.nodes[i]? = some n) :
    s'.dom = s.dom ∧ assignVal c s.dom i {} = .ok (assignedTo s'.assigned i) := by
  have hp : popStack s.dom s.stack.reverse = s.dom := popStack_eq (reach_inv h0 h) (by simp)
  obtain ⟨t, b, f, h1, h2, h3, rfl⟩ := close_ok hp hc
  refine ⟨rfl, ?_⟩
  obtain ⟨l1, l2, l3⟩ := (reach_linv h0 h).log
  rw [l3] at h1
  have := (assignRenderers_by _ _ _ _ h1 i).1 (by rw [visits_all (reach_inv h0 h)]; simpa using getElem?_lt hn)
  exact this

theorem unruled_nil {c : Cfg} (h : c.renderers = []) (d : Dom) (i : Nat) : Unruled c d i :=
  ⟨⟨by rw [h]; exact .nil, by rw [h]; simp⟩, by rw [h]; intro r hr; cases hr⟩

instance {c : Cfg} {d : Dom} {i : Nat} : Coe (c.renderers = []) (Unruled c d i) := ⟨fun h => unruled_nil h d i⟩

theorem collect_append {d : Dom} {p : Par} {a b : List Rule} :
    collectMatches d p (a ++ b) =
      (collectMatches d p a).bind (fun x => (collectMatches d p b).map (fun y => x ++ y)) := by
  induction a with
  | nil =>
    simp only [List.nil_append, collectMatches, Except.bind]
    cases collectMatches d p b <;> simp [Except.map]
  | cons r rs ih =>
    simp only [List.cons_append, collectMatches, bind, Except.bind, ih, pure, Except.pure]
    cases tagMatches d p r.sels with
    | error e => rfl
    | ok v =>
      simp only
      rcases v with ⟨_ | _, _ | sp⟩ <;> simp only
      all_goals
        first
        | rfl
        | cases collectMatches d p rs with
          | error e => rfl
          | ok x =>
            simp only
            cases collectMatches d p b <;> rfl

/-- Where no rule applies nothing is collected. -/
theorem collect_none {d : Dom} {p : Par} {rules : List Rule} {ms : List (Spec3 × Rule)}
    (h : collectMatches d p rules = .ok ms) (hn : ∀ r ∈ rules, ∀ sp, ¬ Applies d p r sp) : ms = [] := by
  cases ms with
  | nil => rfl
  | cons m ms =>
    obtain ⟨h1, h2⟩ := collectMatches_sound d p rules _ h m (by simp)
    exact absurd ((tagMatches_iff d p m.2 _ h2 m.1).1 h2) (hn _ h1 _)

/-- The matches of an element that no rule of the user matches are those of the default rules. -/
theorem collect_unruled {d : Dom} {p : Par} {user : List Rule} (hno : ∀ r ∈ user, ∀ sp, ¬ Applies d p r sp) (rules : List Rule)
    (hread : ∀ r ∈ user, ∀ r' ∈ rules, r.key = r'.key → r.sels = r'.sels) {ms : List (Spec3 × Rule)}
    (h : collectMatches d p (rules.map (fun r => (user.find? (fun x => x.key == r.key)).getD r)) = .ok ms) :
    collectMatches d p rules = .ok ms := by
  induction rules generalizing ms with
  | nil => exact h
  | cons r rs ih =>
    have ih := fun {ms} => ih (ms := ms) (fun x hx y hy => hread x hx y (List.mem_cons_of_mem _ hy))
    rw [List.map_cons] at h
    cases hf : user.find? (fun x => x.key == r.key) with
    | none =>
      rw [hf, Option.getD_none] at h
      simp only [collectMatches, bind, Except.bind, pure, Except.pure] at h ⊢
      cases ht : tagMatches d p r.sels with
      | error e => rw [ht] at h; cases h
      | ok v =>
        rw [ht] at h
        rcases v with ⟨_ | _, _ | sp⟩
        all_goals simp only at h ⊢
        · exact ih h
        · exact ih h
        · exact ih h
        · cases hc : collectMatches d p (rs.map (fun r => (user.find? (fun x => x.key == r.key)).getD r)) with
          | error e => rw [hc] at h; cases h
          | ok xs => rw [hc] at h; rw [ih hc]; exact h
    | some r' =>
      have hmem := List.mem_of_find?_eq_some hf
      have hkey : r'.key = r.key := by simpa using List.find?_some hf
      have hs : r'.sels = r.sels := hread r' hmem r (by simp) hkey
      rw [hf, Option.getD_some] at h
      simp only [collectMatches, bind, Except.bind, pure, Except.pure] at h ⊢
      rw [hs] at h
      cases ht : tagMatches d p r.sels with
      | error e => rw [ht] at h; cases h
      | ok v =>
        rw [ht] at h
        rcases v with ⟨_ | _, _ | sp⟩
        all_goals simp only at h ⊢
        · exact ih h
        · exact ih h
        · exact ih h
        · exfalso
          rw [← hs] at ht
          exact hno r' hmem sp ((tagMatches_iff d p r' _ ht sp).1 ht)

theorem getRenderer_unruled {c : Cfg} {d : Dom} {i : Nat} (hr : Unruled c d i) {spec : RSpec} (h : getRenderer c d i = .ok spec) :
    getRenderer { c with renderers := [] } d i = .ok spec := by
  have hk : ∀ ms, collectMatches d (.node i) c.rules = .ok ms → collectMatches d (.node i) defaultRules = .ok ms := by
    intro ms hms
    rw [C10 c hr.nodup, collect_append] at hms
    cases ha : collectMatches d (.node i) (defaultRules.map (fun r => (c.renderers.find? (fun x => x.key == r.key)).getD r)) with
    | error e => rw [ha] at hms; cases hms
    | ok a =>
      rw [ha] at hms
      cases hb : collectMatches d (.node i) (c.renderers.filter (fun x => decide (x.key ∉ defaultRules.map Rule.key))) with
      | error e => simp only [Except.bind, Except.map, hb] at hms; cases hms
      | ok b =>
        simp only [Except.bind, Except.map, hb, Except.ok.injEq] at hms
        obtain rfl := collect_none hb (fun r hr' => hr.free r (List.mem_filter.1 hr').1)
        rw [collect_unruled hr.free _ hr.read ha, ← hms, List.append_nil]
  simp only [getRenderer, getForTag, bind, Except.bind, pure, Except.pure] at h ⊢
  cases hm : collectMatches d (.node i) c.rules with
  | error e => rw [hm] at h; cases h
  | ok ms =>
    rw [hm] at h
    have : collectMatches d (.node i) (Cfg.rules { c with renderers := [] }) = .ok ms := hk ms hm
    rw [this]
    exact h

theorem assignVal_own {c : Cfg} {d : Dom} {i : Nat} {a : Assigned} {cls : RClass} {st : Dict} (hr : Unruled c d i)
    (h : assignVal c d i {} = .ok a) (hg : getForTag d defaultRules (.node i) = .ok (some (cls, st))) :
    a.renderer = some cls ∧ a.settings = some st := by
  have : getRenderer c d i = .ok (.pair (some cls) (some st)) := by
    have hd : getRenderer { c with renderers := [] } d i = .ok (.pair (some cls) (some st)) := by
      unfold getRenderer Cfg.rules
      rw [updateRules_nil, hg]
      rfl
    cases hx : getRenderer c d i with
    | error e => simp [assignVal, hx, bind, Except.bind] at h
    | ok spec =>
      rw [getRenderer_unruled hr hx] at hd
      exact hd
  simp only [assignVal, this, bind, Except.bind, pure, Except.pure] at h
  split at h
  · split at h
    · cases hl : getLinkRenderer c d i with
      | error e => rw [hl] at h; cases h
      | ok l => rw [hl] at h; cases h; cases l <;> simp [assignLink, assignOwn]
    · cases h; simp [assignOwn]
  · cases h; simp [assignOwn]

/-- Elements whose style does not depend on where they stand. -/
theorem C61_plain (u : Uni) (c : Cfg) (s0 s s' : PState) (es : List Event) (h0 : initParser c = .ok s0)
    (h : feed u c s0 es = .ok s) (hc : close u c s = .ok s') (i : Nat) (hr : Unruled c s.dom i) (tag : Str) (cls : RClass)
    (ht : HasTag s.dom i tag) (hm : (tag, cls) ∈ plainStyle) :
    (assignedTo s'.assigned i).renderer = some cls ∧ (assignedTo s'.assigned i).settings = some [] := by
  obtain ⟨n, hn, htag⟩ := ht
  have hinv := reach_selInv h0 h
  obtain ⟨m, m1, m2⟩ := isElem_node hinv ⟨tag, n, hn, htag⟩
  rw [hn] at m1; cases m1
  exact assignVal_own hr (closed_assigned h0 h hc i n hn).2 (getForTag_plain hinv hn htag m2 hm)

/-- Paragraphs: in a block quote the first has no line above and the last none below. -/
theorem C61_p (u : Uni) (c : Cfg) (s0 s s' : PState) (es : List Event) (h0 : initParser c = .ok s0)
    (h : feed u c s0 es = .ok s) (hc : close u c s = .ok s') (i : Nat) (hr : Unruled c s.dom i)
    (ht : HasTag s.dom i py"p") :
    (assignedTo s'.assigned i).renderer = some .paragraph ∧
      ∃ st, (assignedTo s'.assigned i).settings = some st ∧ PStyle s.dom i st := by
  obtain ⟨n, hn, htag⟩ := ht
  have hinv := reach_selInv h0 h
  obtain ⟨m, m1, m2⟩ := isElem_node hinv ⟨_, n, hn, htag⟩
  rw [hn] at m1; cases m1
  obtain ⟨st, g1, g2⟩ := getForTag_p hinv hn htag m2
  obtain ⟨a1, a2⟩ := assignVal_own hr (closed_assigned h0 h hc i n hn).2 g1
  exact ⟨a1, st, a2, g2⟩

/-- List items: numbered in ordered lists, with a bullet elsewhere; the first item of a list has no line above, or one
if the list is in another item. -/
theorem C61_li (u : Uni) (c : Cfg) (s0 s s' : PState) (es : List Event) (h0 : initParser c = .ok s0)
    (h : feed u c s0 es = .ok s) (hc : close u c s = .ok s') (i : Nat) (hr : Unruled c s.dom i)
    (ht : HasTag s.dom i py"li") :
    (ChildOf s.dom py"ol" i → (assignedTo s'.assigned i).renderer = some .olItem) ∧
    (¬ ChildOf s.dom py"ol" i → (assignedTo s'.assigned i).renderer = some .listItem) ∧
      ∃ st, (assignedTo s'.assigned i).settings = some st ∧ LiStyle s.dom i st := by
  obtain ⟨n, hn, htag⟩ := ht
  have hinv := reach_selInv h0 h
  obtain ⟨m, m1, m2⟩ := isElem_node hinv ⟨_, n, hn, htag⟩
  rw [hn] at m1; cases m1
  obtain ⟨cl, st, g1, g2, g3⟩ := getForTag_li hinv hn htag m2
  obtain ⟨a1, a2⟩ := assignVal_own hr (closed_assigned h0 h hc i n hn).2 g1
  refine ⟨fun ho => ?_, fun ho => ?_, st, a2, g2⟩
  · rcases g3 with ⟨-, rfl⟩ | ⟨g3, -⟩
    · exact a1
    · exact absurd ho g3
  · rcases g3 with ⟨g3, -⟩ | ⟨-, rfl⟩
    · exact absurd g3 ho
    · exact a1

/-- Terms of definition lists: the first has no line above. -/
theorem C61_dt (u : Uni) (c : Cfg) (s0 s s' : PState) (es : List Event) (h0 : initParser c = .ok s0)
    (h : feed u c s0 es = .ok s) (hc : close u c s = .ok s') (i : Nat) (hr : Unruled c s.dom i)
    (ht : HasTag s.dom i py"dt") :
    (assignedTo s'.assigned i).renderer = some .defTerm ∧
      ∃ st, (assignedTo s'.assigned i).settings = some st ∧ DtStyle s.dom i st := by
  obtain ⟨n, hn, htag⟩ := ht
  have hinv := reach_selInv h0 h
  obtain ⟨m, m1, m2⟩ := isElem_node hinv ⟨_, n, hn, htag⟩
  rw [hn] at m1; cases m1
  obtain ⟨st, g1, g2⟩ := getForTag_dt hinv hn htag m2
  obtain ⟨a1, a2⟩ := assignVal_own hr (closed_assigned h0 h hc i n hn).2 g1
  exact ⟨a1, st, a2, g2⟩

/-- Any other element is rendered as its content. -/
theorem C61_other (u : Uni) (c : Cfg) (s0 s s' : PState) (es : List Event) (h0 : initParser c = .ok s0)
    (h : feed u c s0 es = .ok s) (hc : close u c s = .ok s') (i : Nat) (hr : Unruled c s.dom i)
    (hd : c.defaultRenderer = .cls .renderer) (tag : Str) (ht : HasTag s.dom i tag) (h1 : tag ∉ plainStyle.map Prod.fst)
    (h2 : tag ∉ [py"p", py"li", py"dt"]) :
    (assignedTo s'.assigned i).renderer = some .renderer ∧ (assignedTo s'.assigned i).settings = none := by
  obtain ⟨n, hn, htag⟩ := ht
  have hinv := reach_selInv h0 h
  obtain ⟨m, m1, m2⟩ := isElem_node hinv ⟨_, n, hn, htag⟩
  rw [hn] at m1; cases m1
  simp only [List.mem_cons, List.not_mem_nil, or_false, not_or] at h2
  have hg := getForTag_other hinv hn htag m2 h1 h2.1 h2.2.1 h2.2.2
  have ha := (closed_assigned h0 h hc i n hn).2
  have : getRenderer c s.dom i = .ok (.cls .renderer) := by
    have hx' : getRenderer { c with renderers := [] } s.dom i = .ok (.cls .renderer) := by
      unfold getRenderer Cfg.rules
      rw [updateRules_nil, hg]
      simp [bind, Except.bind, pure, Except.pure, hd]
    cases hx : getRenderer c s.dom i with
    | error e => simp [assignVal, hx, bind, Except.bind] at ha
    | ok spec =>
      rw [getRenderer_unruled hr hx] at hx'
      exact hx'
  have hlink : isLinkTag tag = false := by
    unfold isLinkTag
    rw [Bool.or_eq_false_iff]
    refine ⟨?_, ?_⟩
    · rw [beq_eq_false_iff_ne]; rintro rfl; exact h1 (by decide)
    · rw [beq_eq_false_iff_ne]; rintro rfl; exact h1 (by decide)
  simp only [assignVal, this, bind, Except.bind, pure, Except.pure, hn, Option.bind, htag, hlink, Bool.false_eq_true, if_false] at ha
  cases hv : assignedTo s'.assigned i with
  | mk a b c d => rw [hv] at ha; cases ha; exact ⟨rfl, rfl⟩

/-- `<blockquote><p>a</p><p>b</p></blockquote><ol><li>c<ul><li>d</li></ul></li></ol><em>e</em>`. -/
def c61Events : List Event :=
  [.start py"blockquote" [], .start py"p" [], .data py"a", .stop py"p", .start py"p" [], .data py"b", .stop py"p",
   .stop py"blockquote", .start py"ol" [], .start py"li" [], .data py"c", .start py"ul" [], .start py"li" [], .data py"d",
   .stop py"li", .stop py"ul", .stop py"li", .stop py"ol", .start py"em" [], .data py"e", .stop py"em"]

set_option maxRecDepth 20000 in
/-- The hypotheses are met and every clause is used: first and last paragraph, first item, nested first item, `em`. -/
example : (match feed asciiUni {} {} c61Events with
    | .ok s => match close asciiUni {} s with
      | .ok s' => decide ((s.dom.nodes.map Node.tag) = [some py"blockquote", some py"p", none, some py"p", none, some py"ol",
            some py"li", none, some py"ul", some py"li", none, some py"em", none]) &&
          (match (assignedTo s'.assigned 1).settings, (assignedTo s'.assigned 3).settings, (assignedTo s'.assigned 6).settings,
              (assignedTo s'.assigned 9).settings, (assignedTo s'.assigned 11).settings with
            | some a, some b, some c, some d, some e => a.pyEq (margins 0 1) && b.pyEq (margins 1 0) && c.pyEq (margins 0 0) &&
                d.pyEq (margins 1 0) && e.pyEq []
            | _, _, _, _, _ => false)
      | _ => false
    | _ => false) = true := by decide

end Verif
