import Verif.Proofs.Parse
import Verif.Proofs.Close

/-!
# Properties of the tree: C28 to C31
-/

namespace Verif

open Spec

/-! ## C28 -/

/-- Walking the tree visits every node once, in order of creation, and the nodes are those asked for by the start tags
and texts, in order. -/
theorem C28 (u : Uni) (c : Cfg) (s0 s : PState) (es : List Event) (h0 : initParser c = .ok s0)
    (h : feed u c s0 es = .ok s) :
    Walk s.dom s.dom.roots (List.range s.dom.nodes.length) ∧
    s.dom.nodes.length = (es.filter creates).length ∧
    (∀ (k : Nat) (e : Event), (es.filter creates)[k]? = some e → ∃ n, s.dom.nodes[k]? = some n ∧ Label e n) := by
  have hinv := reach_inv h0 h
  rw [initParser_eq h0] at h
  have hl := feed_labelled (s := {}) init_inv init_labelled h
  rw [List.nil_append] at hl
  exact ⟨hinv.walk, hl.1, hl.2⟩

/-- The walk visits nothing else. -/
theorem C28_unique (d : Dom) (is a b : List Nat) (h1 : Walk d is a) (h2 : Walk d is b) : a = b := walk_det h1 h2

/-- The tree that is rendered is the tree that was built. -/
theorem C28_close (u : Uni) (c : Cfg) (s0 s s' : PState) (es : List Event) (h0 : initParser c = .ok s0)
    (h : feed u c s0 es = .ok s) (hc : close u c s = .ok s') : s'.dom = s.dom := by
  have hinv := reach_inv h0 h
  have hp : popStack s.dom s.stack.reverse = s.dom := popStack_eq hinv (by simp)
  simp only [close, hp, bind, Except.bind] at hc
  split at hc
  · cases hc
  · split at hc
    · cases hc
    · split at hc
      · cases hc
      · simp only [pure, Except.pure, Except.ok.injEq] at hc
        subst hc
        rfl

/-- `a<p>b<br>c</div></p>d`: eight events, six nodes. -/
def c28Example : List Event :=
  [.data py"a", .start py"p" [], .data py"b", .start py"br" [], .data py"c", .stop py"div", .stop py"p", .data py"d"]

example : (match feed asciiUni {} {} c28Example with
    | .ok s => decide (s.dom.roots = [0, 1, 5] ∧ s.dom.childrenOf (.node 1) = [2, 3, 4] ∧ s.dom.nodes.length = 6)
    | _ => false) = true := by decide

/-! ## C29 -/

/-- Parent and child links agree; the parent is older and is an element or the root; void elements are childless. -/
theorem C29 (u : Uni) (c : Cfg) (s0 s : PState) (es : List Event) (h0 : initParser c = .ok s0)
    (h : feed u c s0 es = .ok s) (i : Nat) (n : Node) (hn : s.dom.nodes[i]? = some n) :
    (match n.parent with
      | .node j => j < i ∧ ∃ m, s.dom.nodes[j]? = some m ∧ m.tag.isSome ∧ m.children.count i = 1
      | _ => s.dom.roots.count i = 1) ∧
    (∀ ch ∈ n.children, ∃ m, s.dom.nodes[ch]? = some m ∧ m.parent = .node i) ∧
    (∀ t, n.tag = some t → VoidTag t → n.children = []) ∧
    (n.data ≠ none → n.children = []) := by
  have hinv := reach_inv h0 h
  have ok := hinv.node i n hn
  refine ⟨?_, fun ch hc => (ok.child ch hc).2, fun t ht hv => (ok.void t ht hv).1, ?_⟩
  · have := ok.parent
    cases hp : n.parent with
    | node j =>
      rw [hp] at this
      obtain ⟨h1, m, h2, h3, h4⟩ := this
      refine ⟨h1, m, h2, h4, ?_⟩
      rw [List.Nodup.count (hinv.node j m h2).nodup]
      simp [h3]
    | doc =>
      rw [hp] at this
      simp only
      rw [List.Nodup.count hinv.rootsNodup]
      simp only [ite_eq_left_iff]
      exact fun h => absurd this h
    | none =>
      rw [hp] at this
      simp only
      rw [List.Nodup.count hinv.rootsNodup]
      simp only [ite_eq_left_iff]
      exact fun h => absurd this h
  · intro hd
    apply (ok.data ?_).2
    cases hdd : n.data <;> simp_all

/-- Every listed root has no element as parent. -/
theorem C29_roots (u : Uni) (c : Cfg) (s0 s : PState) (es : List Event) (h0 : initParser c = .ok s0)
    (h : feed u c s0 es = .ok s) (r : Nat) (hr : r ∈ s.dom.roots) :
    ∃ m, s.dom.nodes[r]? = some m ∧ (m.parent = .doc ∨ m.parent = .none) := (reach_inv h0 h).root r hr

/-! ## C30 -/

/-- The open elements are those on the stack. -/
def OpenIff (d : Dom) (stack : List Nat) : Prop :=
  ∀ (k : Nat) (n : Node), d.nodes[k]? = some n → (n.closed = false ↔ k ∈ stack)

theorem stack_mem_bound {s : PState} (h : TInv s.dom s.stack) {k : Nat} (hk : k ∈ s.stack) : k < s.dom.nodes.length := by
  obtain ⟨n, h1, -⟩ := open_mem h.spine k hk
  exact getElem?_lt h1

theorem openIff_extends {s s' : PState} {p : Par} {n : Node} (h : TInv s.dom s.stack) (ho : OpenIff s.dom s.stack)
    (he : Extends s.dom s'.dom p n) (hst : s'.stack = if n.closed then s.stack else s.stack ++ [s.dom.nodes.length]) :
    OpenIff s'.dom s'.stack := by
  intro k m hk
  by_cases hlt : k < s.dom.nodes.length
  · have hk2 : s.dom.nodes[k]? = some s.dom.nodes[k] := List.getElem?_eq_getElem hlt
    obtain ⟨pend, h1⟩ := he.old _ _ hk2
    rw [hk] at h1
    cases h1
    simp only
    rw [ho k _ hk2, hst]
    have : k ≠ s.dom.nodes.length := by omega
    split <;> simp [this]
  · have hk3 := getElem?_lt hk
    rw [he.len] at hk3
    have e : k = s.dom.nodes.length := by omega
    subst e
    rw [he.last] at hk
    cases hk
    have hnot : s.dom.nodes.length ∉ s.stack := fun hm => by have := stack_mem_bound h hm; omega
    rw [hst]
    cases n.closed <;> simp [hnot]

theorem stack_pairwise {d : Dom} (hnode : ∀ i n, d.nodes[i]? = some n → NodeOk d i n) {is st : List Nat}
    (ho : Open d is st) : st.Pairwise (· < ·) := by
  induction st generalizing is with
  | nil => exact .nil
  | cons s st ih =>
    have hlt := open_lt hnode ho
    obtain ⟨-, n, -, -, -, ho'⟩ := ho
    exact .cons hlt (ih ho')

theorem step_openIff {u : Uni} {c : Cfg} {s s' : PState} (h : TInv s.dom s.stack) (ho : OpenIff s.dom s.stack) {e : Event}
    (hs : step u c s e = .ok s') : OpenIff s'.dom s'.stack := by
  cases e with
  | start tag attrs =>
    obtain ⟨n, h1, -, -, -, h5, h6, -⟩ := handleStart_extends h hs
    exact openIff_extends h ho h1 (by rw [h6, h5])
  | data text =>
    simp only [step, Except.ok.injEq] at hs
    subst hs
    exact openIff_extends h ho (handleData_extends h text) rfl
  | stop tag =>
    simp only [step, Except.ok.injEq] at hs
    subst hs
    rcases handleEnd_cases h tag with ⟨i, n, h1, h2, h3, h4, h5⟩ | ⟨-, h4, h5⟩
    · rw [h4, h5]
      intro k m hk
      have hc := closes_modify s.dom i
      have hlt : k < s.dom.nodes.length := by rw [← hc.len]; exact getElem?_lt hk
      have hk2 : s.dom.nodes[k]? = some s.dom.nodes[k] := List.getElem?_eq_getElem hlt
      have := hc.old _ _ hk2
      rw [hk] at this
      cases this
      simp only [Bool.or_eq_false_iff, decide_eq_false_iff_not]
      rw [ho k _ hk2]
      -- the innermost element occurs only at the end
      obtain ⟨pre, hpre⟩ : ∃ pre, s.stack = pre ++ [i] := by
        obtain ⟨ys, hy⟩ := List.getLast?_eq_some_iff.1 h1
        exact ⟨ys, hy⟩
      have hpw := stack_pairwise h.node h.spine
      rw [hpre] at hpw ⊢
      rw [List.pairwise_append] at hpw
      simp only [List.dropLast_concat, List.mem_append, List.mem_singleton]
      constructor
      · rintro ⟨h | h, h'⟩
        · exact h
        · exact absurd h.symm h'
      · intro hm
        have := hpw.2.2 k hm i (by simp)
        exact ⟨Or.inl hm, by omega⟩
    · rw [h4, h5]; exact ho

theorem feed_openIff {u : Uni} {c : Cfg} {s s' : PState} (h : TInv s.dom s.stack) (ho : OpenIff s.dom s.stack)
    {es : List Event} (hs : feed u c s es = .ok s') : OpenIff s'.dom s'.stack := by
  induction es generalizing s with
  | nil => simp [feed_nil] at hs; subst hs; exact ho
  | cons e es ih =>
    rw [feed_cons] at hs
    cases h1 : step u c s e with
    | error x => simp [h1, Except.bind] at hs
    | ok s1 => rw [h1] at hs; exact ih (step_inv h h1) (step_openIff h ho h1) hs

/-- Each element of the list is the parent of the next one. -/
def ParentChain (d : Dom) : List Nat → Prop
  | i :: j :: r => (∃ n, d.nodes[j]? = some n ∧ n.parent = .node i) ∧ ParentChain d (j :: r)
  | _ => True

theorem open_chain {d : Dom} (hnode : ∀ i n, d.nodes[i]? = some n → NodeOk d i n) {is st : List Nat}
    (ho : Open d is st) : ParentChain d st := by
  induction st generalizing is with
  | nil => trivial
  | cons s st ih =>
    cases st with
    | nil => trivial
    | cons t ts =>
      obtain ⟨-, n, hn, -, -, ho'⟩ := ho
      obtain ⟨⟨A, hA⟩, -⟩ := id ho'
      exact ⟨((hnode s n hn).child t (by rw [hA]; simp)).2, ih ho'⟩

/-- The stack lists exactly the open elements, outermost first, each the parent of the next. -/
theorem C30_stack (u : Uni) (c : Cfg) (s0 s : PState) (es : List Event) (h0 : initParser c = .ok s0)
    (h : feed u c s0 es = .ok s) :
    (∀ (k : Nat) (n : Node), s.dom.nodes[k]? = some n → (n.closed = false ↔ k ∈ s.stack)) ∧ ParentChain s.dom s.stack := by
  have hinv := reach_inv h0 h
  rw [initParser_eq h0] at h
  exact ⟨feed_openIff (s := {}) init_inv (by intro k n hk; simp at hk) h, open_chain hinv.node hinv.spine⟩

/-- An end tag closes the innermost open element if that has its name, and otherwise changes neither the tree nor the
open elements. -/
theorem C30 (u : Uni) (c : Cfg) (s0 s : PState) (es : List Event) (h0 : initParser c = .ok s0)
    (h : feed u c s0 es = .ok s) (tag : Str) :
    (∀ i n, s.stack.getLast? = some i → s.dom.nodes[i]? = some n → n.tag = some tag →
      (handleEnd s tag).stack = s.stack.dropLast ∧ (handleEnd s tag).dom.roots = s.dom.roots ∧
      ∀ (k : Nat), (handleEnd s tag).dom.nodes[k]? =
        if k = i then some { n with closed := true } else s.dom.nodes[k]?) ∧
    ((∀ i n, s.stack.getLast? = some i → s.dom.nodes[i]? = some n → n.tag ≠ some tag) →
      (handleEnd s tag).dom = s.dom ∧ (handleEnd s tag).stack = s.stack) := by
  have hinv := reach_inv h0 h
  constructor
  · intro i n hi hn ht
    rcases handleEnd_cases hinv tag with ⟨i', n', h1, h2, h3, h4, h5⟩ | ⟨hno, -, -⟩
    · rw [hi] at h1
      cases h1
      refine ⟨h5, by rw [h4]; rfl, ?_⟩
      intro k
      rw [h4]
      simp only [Dom.modify, List.getElem?_modify]
      by_cases e : i = k
      · subst e; simp [hn]
      · have e' : ¬ k = i := fun e2 => e e2.symm
        simp [e, e']
    · exact absurd ht (hno i n hi hn)
  · intro hno
    rcases handleEnd_cases hinv tag with ⟨i', n', h1, h2, h3, h4, h5⟩ | ⟨-, h4, h5⟩
    · exact absurd h3 (hno i' n' h1 h2)
    · exact ⟨h4, h5⟩

/-- With `<div><p>` open, `</p>` closes `p` and `</div>` does nothing. -/
example : (match feed asciiUni {} {} [.start py"div" [], .start py"p" []] with
    | .ok s => decide (s.stack = [0, 1] ∧ (handleEnd s py"p").stack = [0] ∧ (handleEnd s py"div").stack = [0, 1])
    | _ => false) = true := by decide

/-! ## C31 -/

/-- Feeding the tags and texts of a forest to a new parser builds that forest. -/
theorem C31 (u : Uni) (c : Cfg) (s0 s : PState) (f : Forest) (hw : f.WellFormed false) (h0 : initParser c = .ok s0)
    (h : feed u c s0 f.events = .ok s) : Rep s.dom false s.dom.roots f ∧ s.stack = [] := by
  rw [initParser_eq h0] at h
  obtain ⟨ids, g, r⟩ := feed_forest (s := {}) init_inv f hw h
  have hr : s.dom.roots = ids := by rw [g.roots]; simp
  rw [hr]
  exact ⟨repB_rep r, g.stack⟩

/-- `<div class="a b"><p>x</p><br>y</div><pre> z </pre>` -/
def c31Example : Forest :=
  .elem py"div" [(py"class", some py"a b")]
    (.elem py"p" [] (.text py"x" .nil) (.elem py"br" [] .nil (.text py"y" .nil)))
    (.elem py"pre" [] (.text py" z " .nil) .nil)

example : c31Example.WellFormed false ∧ (match feed asciiUni {} {} c31Example.events with
    | .ok s => decide (s.dom.roots = [0, 5] ∧ s.dom.childrenOf (.node 0) = [1, 3, 4])
    | _ => false) = true := by
  constructor
  · simp [c31Example, Forest.WellFormed, VoidTag]
  · decide

/-- The limit on `pre` is needed: text after an inner `pre` is normalised although the outer one is still open. -/
theorem C31_nested_pre :
    (match feed asciiUni {} {} (Forest.events
        (.elem py"pre" [] (.elem py"pre" [] .nil (.text py"a  b" .nil)) .nil)) with
      | .ok s => decide ((s.dom.nodes[2]?).bind Node.data = some py"a b")
      | _ => false) = true := by decide

end Verif
