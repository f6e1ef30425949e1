import Verif.Props.Page
import Verif.Props.Room
import Verif.Spec.Alike

/-!
# Documents that differ in attributes or texts only: their trees
-/

namespace Verif

open Spec

/-! ## Trees of the same shape -/

/-- What the shape of a tree depends on. -/
def Node.shape (n : Node) : Option Str × Bool × Par × List Nat × Bool × List Nat :=
  (n.tag, n.data.isSome, n.parent, n.children, n.closed, n.pending)

/-- Two trees of the same shape; the nodes in `S` have the same text. -/
structure Skel (S : Nat → Prop) (d d' : Dom) : Prop where
  roots : d.roots = d'.roots
  nodes : d.nodes.map Node.shape = d'.nodes.map Node.shape
  data : ∀ i : Nat, S i → (d.nodes[i]?).map Node.data = (d'.nodes[i]?).map Node.data

theorem Skel.symm {S : Nat → Prop} {d d' : Dom} (h : Skel S d d') : Skel S d' d :=
  ⟨h.roots.symm, h.nodes.symm, fun i hi => (h.data i hi).symm⟩

theorem Skel.length {S : Nat → Prop} {d d' : Dom} (h : Skel S d d') : d.nodes.length = d'.nodes.length := by
  have := congrArg List.length h.nodes
  simpa using this

theorem Skel.node {S : Nat → Prop} {d d' : Dom} (h : Skel S d d') {i : Nat} {n : Node} (hn : d.nodes[i]? = some n) :
    ∃ n', d'.nodes[i]? = some n' ∧ n'.tag = n.tag ∧ n'.data.isSome = n.data.isSome ∧ n'.parent = n.parent ∧
      n'.children = n.children ∧ n'.closed = n.closed ∧ n'.pending = n.pending := by
  have := congrArg (fun l => l[i]?) h.nodes
  simp only [List.getElem?_map, hn, Option.map_some] at this
  cases hn' : d'.nodes[i]? with
  | none => rw [hn'] at this; cases this
  | some n' =>
    rw [hn'] at this
    simp only [Option.map_some, Option.some.injEq, Node.shape, Prod.mk.injEq] at this
    obtain ⟨a, b, c, e, f, g⟩ := this
    exact ⟨n', rfl, a.symm, b.symm, c.symm, e.symm, f.symm, g.symm⟩

theorem Skel.addNode {S : Nat → Prop} {d d' : Dom} (h : Skel S d d') {n n' : Node} (hs : n.shape = n'.shape)
    (hd : S d.nodes.length → n.data = n'.data) :
    Skel S { d with nodes := d.nodes ++ [n] } { d' with nodes := d'.nodes ++ [n'] } := by
  refine ⟨h.roots, ?_, fun i hi => ?_⟩
  · simp [h.nodes, hs]
  · by_cases hlt : i < d.nodes.length
    · have hlt' : i < d'.nodes.length := h.length ▸ hlt
      have := h.data i hi
      simpa [List.getElem?_append_left hlt, List.getElem?_append_left hlt'] using this
    · have hlt' : ¬ i < d'.nodes.length := h.length ▸ hlt
      simp only [List.getElem?_append_right (Nat.le_of_not_lt hlt), List.getElem?_append_right (Nat.le_of_not_lt hlt'), ← h.length]
      cases hk : i - d.nodes.length with
      | zero =>
        have : i = d.nodes.length := by omega
        simp [hd (this ▸ hi)]
      | succ k => simp

theorem map_modify_eq {α β : Type} (g : α → β) (f f' : α → α) {l l' : List α} (h : l.map g = l'.map g)
    (hf : ∀ a b, g a = g b → g (f a) = g (f' b)) (i : Nat) : (l.modify i f).map g = (l'.modify i f').map g := by
  apply List.ext_getElem?
  intro k
  have hk := congrArg (fun l => l[k]?) h
  simp only [List.getElem?_map] at hk
  simp only [List.getElem?_map, List.getElem?_modify]
  cases h1 : l[k]? with
  | none =>
    rw [h1] at hk
    cases h2 : l'[k]? with
    | none => rfl
    | some b => rw [h2] at hk; cases hk
  | some a =>
    rw [h1] at hk
    cases h2 : l'[k]? with
    | none => rw [h2] at hk; cases hk
    | some b =>
      rw [h2] at hk
      simp only [Option.map_some, Option.some.injEq] at hk
      by_cases e : i = k
      · subst e; simpa using hf a b hk
      · simpa [e] using hk

theorem Skel.modify {S : Nat → Prop} {d d' : Dom} (h : Skel S d d') (i : Nat) (f : Node → Node)
    (hf : ∀ a b : Node, a.shape = b.shape → (f a).shape = (f b).shape) (hd : ∀ a, (f a).data = a.data) :
    Skel S (d.modify i f) (d'.modify i f) := by
  refine ⟨h.roots, map_modify_eq _ _ _ h.nodes hf i, fun k hk => ?_⟩
  have e : ∀ l : List Node, (l.modify i f)[k]?.map Node.data = (l[k]?).map Node.data := by
    intro l
    rw [List.getElem?_modify]
    cases l[k]? with
    | none => rfl
    | some a => by_cases e : i = k <;> simp [e, hd]
  simp only [Dom.modify, e]
  exact h.data k hk

theorem Skel.addChild {S : Nat → Prop} {d d' : Dom} (h : Skel S d d') (p : Par) (i : Nat) : Skel S (d.addChild p i) (d'.addChild p i) := by
  cases p with
  | node j =>
    refine h.modify j _ (fun a b e => ?_) (fun _ => rfl)
    simp only [Node.shape, Prod.mk.injEq] at e ⊢
    simp [e]
  | doc => exact ⟨by simp [Dom.addChild, h.roots], h.nodes, h.data⟩
  | none => exact ⟨by simp [Dom.addChild, h.roots], h.nodes, h.data⟩

/-! ## Reading them -/

/-- The parsers are in the same situation. -/
structure SameState (S : Nat → Prop) (s s' : PState) : Prop where
  dom : Skel S s.dom s'.dom
  stack : s.stack = s'.stack
  next : s.nextLink = s'.nextLink
  footer : s.footer = s'.footer
  inPre : s.inPre = s'.inPre

theorem SameState.top {S : Nat → Prop} {s s' : PState} (h : SameState S s s') : getTop s = getTop s' := by
  unfold getTop
  rw [h.stack]
  cases s'.stack.getLast? with
  | none => rfl
  | some i =>
    simp only
    cases hn : s.dom.nodes[i]? with
    | none =>
      cases hn' : s'.dom.nodes[i]? with
      | none => rfl
      | some n' =>
        obtain ⟨n, e, -⟩ := h.dom.symm.node hn'
        rw [hn] at e; cases e
    | some n =>
      obtain ⟨n', e, -, -, -, -, hc, -⟩ := h.dom.node hn
      simp [e, hc]

theorem SameState.parent {S : Nat → Prop} {s s' : PState} (h : SameState S s s') : tagParent s = tagParent s' := by
  simp only [tagParent, h.top]

theorem newTag_shape {tag : Str} {p : Par} {attrs} {n : Node} (h : newTag tag p attrs = .ok n) :
    n.shape = (some tag, false, p, [], isVoid tag, []) ∧ n.data = none := by
  simp only [newTag, bind, Except.bind] at h
  split at h
  · cases h
  · cases h
    exact ⟨rfl, rfl⟩

theorem newLink_shape {u : Uni} {tag : Str} {p : Par} {attrs ctx} {n : Node} (h : newLink u tag p attrs ctx = .ok n) :
    n.shape = (some tag, false, p, [], isVoid tag, []) ∧ n.data = none := by
  simp only [newLink, bind, Except.bind, pure, Except.pure] at h
  split at h
  · cases h
  · rename_i m hm
    split at h
    · cases h
    · cases h
      have k := newTag_shape hm
      exact k

theorem shape_closed {a b : Node} (h : a.shape = b.shape) : a.closed = b.closed := by
  simp only [Node.shape, Prod.mk.injEq] at h
  exact h.2.2.2.2.1

theorem registerLink_same {S : Nat → Prop} {c : Cfg} {s s' t t' : PState} (h : SameState S s s') {tag : Str} {p : Par} {i : Nat}
    (ht : registerLink c s tag p i = .ok t) (ht' : registerLink c s' tag p i = .ok t') : SameState S t t' := by
  simp only [registerLink, bind, Except.bind, pure, Except.pure] at ht ht'
  have fin : ∀ a a' : PState, SameState S a a' → (if c.placement tag ≠ py"inline" then Except.ok (ε := PyErr) { a with nextLink := a.nextLink + 1 } else .ok a) = .ok t →
      (if c.placement tag ≠ py"inline" then Except.ok (ε := PyErr) { a' with nextLink := a'.nextLink + 1 } else .ok a') = .ok t' → SameState S t t' := by
    intro a a' ha e e'
    split at e <;> rename_i hpl
    · rw [if_pos hpl] at e'
      cases e; cases e'
      exact ⟨ha.dom, ha.stack, by simp [ha.next], ha.footer, ha.inPre⟩
    · rw [if_neg hpl] at e'
      cases e; cases e'
      exact ha
  by_cases h1 : c.placement tag = py"footer"
  · rw [if_pos h1] at ht ht'
    exact fin { s with footer := s.footer ++ [i] } { s' with footer := s'.footer ++ [i] }
      ⟨h.dom, h.stack, h.next, by simp [h.footer], h.inPre⟩ ht ht'
  · rw [if_neg h1] at ht ht'
    by_cases h2 : c.placement tag = py"after_block"
    · rw [if_pos h2] at ht ht'
      cases p with
      | node j =>
        refine fin { s with dom := s.dom.modify j (fun n => { n with pending := n.pending ++ [i] }) }
          { s' with dom := s'.dom.modify j (fun n => { n with pending := n.pending ++ [i] }) } ⟨h.dom.modify j _ (fun a b e => ?_) (fun _ => rfl), h.stack, h.next, h.footer, h.inPre⟩ ht ht'
        simp only [Node.shape, Prod.mk.injEq] at e ⊢
        simp [e]
      | doc => cases ht
      | none => cases ht
    · rw [if_neg h2] at ht ht'
      exact fin s s' h ht ht'

theorem handleStart_same {S : Nat → Prop} {u : Uni} {c : Cfg} {s s' t t' : PState} (h : SameState S s s') {tag : Str} {attrs attrs'}
    (ht : handleStart u c s tag attrs = .ok t) (ht' : handleStart u c s' tag attrs' = .ok t') : SameState S t t' := by
  simp only [handleStart, bind, Except.bind, pure, Except.pure] at ht ht'
  rw [← h.parent] at ht'
  have h0 : SameState S (if tag = py"pre" then { s with inPre := true } else s) (if tag = py"pre" then { s' with inPre := true } else s') := by
    split
    · exact ⟨h.dom, h.stack, h.next, h.footer, rfl⟩
    · exact h
  revert ht ht'
  generalize (if tag = py"pre" then { s with inPre := true } else s) = a at h0 ⊢
  generalize (if tag = py"pre" then { s' with inPre := true } else s') = a' at h0 ⊢
  intro ht ht'
  have hlen := h0.dom.length
  by_cases hl : isLinkTag tag = true
  · rw [if_pos hl] at ht ht'
    split at ht
    · cases ht
    rename_i n hn
    split at ht'
    · cases ht'
    rename_i n' hn'
    split at ht
    · cases ht
    rename_i b hb
    split at ht'
    · cases ht'
    rename_i b' hb'
    cases ht; cases ht'
    obtain ⟨e1, e2⟩ := newLink_shape hn
    obtain ⟨e1', e2'⟩ := newLink_shape hn'
    rw [← hlen] at hb'
    have hb2 := registerLink_same (S := S) (s := { a with dom := { a.dom with nodes := a.dom.nodes ++ [n] } })
      (s' := { a' with dom := { a'.dom with nodes := a'.dom.nodes ++ [n'] } }) ⟨h0.dom.addNode (e1.trans e1'.symm) (fun _ => e2.trans e2'.symm), h0.stack, h0.next, h0.footer, h0.inPre⟩ hb hb'
    have hc : n.closed = n'.closed := shape_closed (e1.trans e1'.symm)
    rw [← hlen]
    exact ⟨hb2.dom.addChild _ _, by simp only [hc, hb2.stack], hb2.next, hb2.footer, hb2.inPre⟩
  · rw [if_neg hl] at ht ht'
    split at ht
    · cases ht
    rename_i n hn
    split at ht'
    · cases ht'
    rename_i n' hn'
    cases ht; cases ht'
    obtain ⟨e1, e2⟩ := newTag_shape hn
    obtain ⟨e1', e2'⟩ := newTag_shape hn'
    have hc : n.closed = n'.closed := shape_closed (e1.trans e1'.symm)
    rw [← hlen]
    exact ⟨(h0.dom.addNode (e1.trans e1'.symm) (fun _ => e2.trans e2'.symm)).addChild _ _, by simp only [hc, h0.stack], h0.next, h0.footer, h0.inPre⟩

theorem handleEnd_same {S : Nat → Prop} {s s' : PState} (h : SameState S s s') (tag : Str) : SameState S (handleEnd s tag) (handleEnd s' tag) := by
  simp only [handleEnd]
  split
  · exact h
  have h0 : SameState S (if tag = py"pre" then { s with inPre := false } else s) (if tag = py"pre" then { s' with inPre := false } else s') := by
    split
    · exact ⟨h.dom, h.stack, h.next, h.footer, rfl⟩
    · exact h
  revert h0
  generalize (if tag = py"pre" then { s with inPre := false } else s) = a
  generalize (if tag = py"pre" then { s' with inPre := false } else s') = a'
  intro h0
  rw [← h0.top]
  cases getTop a with
  | none => exact ⟨h0.dom, h0.stack, h0.next, h0.footer, h0.inPre⟩
  | some i =>
    simp only
    have ht : (a.dom.nodes[i]?).any (fun n => n.tag == some tag) = (a'.dom.nodes[i]?).any (fun n => n.tag == some tag) := by
      cases hn : a.dom.nodes[i]? with
      | none =>
        cases hn' : a'.dom.nodes[i]? with
        | none => rfl
        | some n' =>
          obtain ⟨n, e, -⟩ := h0.dom.symm.node hn'
          rw [hn] at e; cases e
      | some n =>
        obtain ⟨n', e, e2, -⟩ := h0.dom.node hn
        simp [e, e2]
    rw [← ht]
    split
    · refine ⟨h0.dom.modify i _ (fun a b e => ?_) (fun _ => rfl), by simp only [h0.stack], h0.next, h0.footer, h0.inPre⟩
      simp only [Node.shape, Prod.mk.injEq] at e ⊢
      simp [e]
    · exact ⟨h0.dom, h0.stack, h0.next, h0.footer, h0.inPre⟩

theorem handleData_same {S : Nat → Prop} {s s' : PState} (h : SameState S s s') {x y : Str} (hx : S s.dom.nodes.length → x = y) :
    SameState S (handleData s x) (handleData s' y) := by
  have hp : dataParent s = dataParent s' := by simp only [dataParent, h.top]
  simp only [handleData, ← hp, ← h.dom.length, ← h.inPre]
  refine ⟨(h.dom.addNode (by rfl) (fun g => ?_)).addChild _ _, h.stack, h.next, h.footer, by rfl⟩
  simp only [newData, hx g]

/-- The calls agree in kind, and those that make the nodes in `S` agree in the text. -/
inductive Paired (S : Nat → Prop) : Nat → List Event → List Event → Prop where
  | nil {k} : Paired S k [] []
  | start {k t a a' es es'} : Paired S (k + 1) es es' → Paired S k (.start t a :: es) (.start t a' :: es')
  | stop {k t es es'} : Paired S k es es' → Paired S k (.stop t :: es) (.stop t :: es')
  | data {k x y es es'} : (S k → x = y) → Paired S (k + 1) es es' → Paired S k (.data x :: es) (.data y :: es')

theorem addChild_length (d : Dom) (p : Par) (i : Nat) : (d.addChild p i).nodes.length = d.nodes.length := by
  cases p <;> simp [Dom.addChild, Dom.modify]

theorem feed_same {S : Nat → Prop} {u : Uni} {c : Cfg} {es es' : List Event} {k : Nat} (hp : Paired S k es es') {s s' t t' : PState}
    (h : SameState S s s') (hi : TInv s.dom s.stack) (hk : k = s.dom.nodes.length)
    (ht : feed u c s es = .ok t) (ht' : feed u c s' es' = .ok t') : SameState S t t' := by
  induction hp generalizing s s' with
  | nil => cases ht; cases ht'; exact h
  | start hp ih =>
    simp only [feed, List.foldlM_cons, bind, Except.bind, step] at ht ht'
    split at ht
    · cases ht
    rename_i b hb
    split at ht'
    · cases ht'
    rename_i b' hb'
    obtain ⟨n, he, -⟩ := handleStart_extends hi hb
    exact ih (handleStart_same h hb hb') (handleStart_inv hi hb) (by rw [he.len, hk]) ht ht'
  | @stop k t es es' hp ih =>
    simp only [feed, List.foldlM_cons, bind, Except.bind, step] at ht ht'
    have hl : (handleEnd s t).dom.nodes.length = s.dom.nodes.length := by
      simp only [handleEnd]
      repeat' split
      all_goals simp [Dom.modify]
    exact ih (handleEnd_same h t) (step_inv (u := u) (c := c) hi (e := .stop t) rfl) (by rw [hl, hk]) ht ht'
  | @data k x y es es' hx hp ih =>
    simp only [feed, List.foldlM_cons, bind, Except.bind, step] at ht ht'
    have hl : (handleData s x).dom.nodes.length = s.dom.nodes.length + 1 := by
      simp [handleData, addChild_length]
    exact ih (handleData_same h (hk ▸ hx)) (step_inv (u := u) (c := c) hi (e := .data x) rfl) (by rw [hl, hk]) ht ht'

/-! ## What depends on the shape only -/

section shape

variable {S : Nat → Prop} {d d' : Dom}

theorem Skel.hasTag (h : Skel S d d') {i : Nat} {t : Str} (g : HasTag d i t) : HasTag d' i t := by
  obtain ⟨n, h1, h2⟩ := g
  obtain ⟨n', e1, e2, -⟩ := h.node h1
  exact ⟨n', e1, e2.trans h2⟩

theorem Skel.hasTag_iff (h : Skel S d d') {i : Nat} {t : Str} : HasTag d i t ↔ HasTag d' i t := ⟨h.hasTag, h.symm.hasTag⟩

theorem Skel.parentOf (h : Skel S d d') {j i : Nat} (g : ParentOf d j i) : ParentOf d' j i := by
  obtain ⟨n, h1, h2⟩ := g
  obtain ⟨n', e1, -, -, -, e2, -⟩ := h.node h1
  exact ⟨n', e1, by rw [e2]; exact h2⟩

theorem Skel.around (h : Skel S d d') {i : Nat} {b a : List Nat} (g : Around d i b a) : Around d' i b a := by
  rcases g with g | ⟨j, n, h1, h2⟩
  · exact .inl (g.trans h.roots)
  · obtain ⟨n', e1, -, -, -, e2, -⟩ := h.node h1
    exact .inr ⟨j, n', e1, h2.trans e2.symm⟩

theorem Skel.isTag (h : Skel S d d') (i : Nat) : d.isTag i = d'.isTag i := by
  unfold Dom.isTag
  cases hn : d.nodes[i]? with
  | none =>
    cases hn' : d'.nodes[i]? with
    | none => rfl
    | some n' =>
      obtain ⟨n, e, -⟩ := h.symm.node hn'
      rw [hn] at e; cases e
  | some n =>
    obtain ⟨n', e, e2, -⟩ := h.node hn
    simp [e, e2]

theorem Skel.elemCount (h : Skel S d d') (l : List Nat) : elemCount d l = elemCount d' l := by
  unfold Spec.elemCount
  congr 1
  funext i
  exact h.isTag i

theorem Skel.firstChild (h : Skel S d d') {i : Nat} (g : FirstChild d i) : FirstChild d' i := by
  obtain ⟨b, a, h1, h2⟩ := g
  exact ⟨b, a, h.around h1, by rw [← h.elemCount]; exact h2⟩

theorem Skel.lastChild (h : Skel S d d') {i : Nat} (g : LastChild d i) : LastChild d' i := by
  obtain ⟨b, a, h1, h2⟩ := g
  exact ⟨b, a, h.around h1, by rw [← h.elemCount]; exact h2⟩

theorem Skel.childOf (h : Skel S d d') {t : Str} {i : Nat} (g : ChildOf d t i) : ChildOf d' t i := by
  obtain ⟨j, h1, h2⟩ := g
  exact ⟨j, h.parentOf h1, h.hasTag h2⟩

theorem Skel.notChildOf (h : Skel S d d') {t : Str} {i : Nat} (g : ¬ ChildOf d t i) : ¬ ChildOf d' t i := fun k => g (h.symm.childOf k)

theorem Skel.inNestedList (h : Skel S d d') {i : Nat} (g : InNestedList d i) : InNestedList d' i := by
  obtain ⟨j, h1, h2, h3⟩ := g
  exact ⟨j, h.parentOf h1, h2.imp h.hasTag h.hasTag, h.childOf h3⟩

theorem Skel.pStyle (h : Skel S d d') {i : Nat} {st : Dict} (g : PStyle d i st) : PStyle d' i st := by
  cases g with
  | only a b c => exact .only (h.childOf a) (h.firstChild b) (h.lastChild c)
  | first a b c => exact .first (h.childOf a) (h.firstChild b) (fun k => c (h.symm.lastChild k))
  | last a b c => exact .last (h.childOf a) (fun k => b (h.symm.firstChild k)) (h.lastChild c)
  | inner a b c => exact .inner (h.childOf a) (fun k => b (h.symm.firstChild k)) (fun k => c (h.symm.lastChild k))
  | free a => exact .free (h.notChildOf a)

theorem Skel.liStyle (h : Skel S d d') {i : Nat} {st : Dict} (g : LiStyle d i st) : LiStyle d' i st := by
  cases g with
  | nested a b => exact .nested (h.firstChild a) (h.inNestedList b)
  | first a b => exact .first (h.firstChild a) (fun k => b (h.symm.inNestedList k))
  | later a => exact .later (fun k => a (h.symm.firstChild k))

theorem Skel.pSpace (h : Skel S d d') {i : Nat} {a b : Int} (g : PSpace d i a b) : PSpace d' i a b :=
  g.imp h.pStyle (fun k => ⟨h.pStyle k.1, k.2⟩)

theorem Skel.liSpace (h : Skel S d d') {i : Nat} {a : Int} (g : LiSpace d i a) : LiSpace d' i a :=
  g.imp h.liStyle (fun k => ⟨h.liStyle k.1, k.2⟩)

theorem Skel.dtSpace (h : Skel S d d') {i : Nat} {a : Int} (g : DtSpace d i a) : DtSpace d' i a :=
  g.imp (fun k => ⟨h.firstChild k.1, k.2⟩) (fun k => ⟨fun k' => k.1 (h.symm.firstChild k'), k.2⟩)

theorem Skel.onlyCode (h : Skel S d d') {i : Nat} (g : OnlyCode d i) : OnlyCode d' i := by
  obtain ⟨n, j, h1, h2, h3⟩ := g
  obtain ⟨n', e1, -, -, -, e2, -⟩ := h.node h1
  exact ⟨n', j, e1, e2.trans h2, h3.imp h.hasTag h.hasTag⟩

theorem Skel.bullet (h : Skel S d d') {i : Nat} {a : Str} (g : Bullet d i a) : Bullet d' i a := by
  rcases g with ⟨h1, b, e, h2, h3⟩ | ⟨h1, h2⟩
  · exact .inl ⟨h.childOf h1, b, e, h.around h2, h3⟩
  · exact .inr ⟨h.notChildOf h1, h2⟩

theorem Skel.nodesWhere (h : Skel S d d') {p : Node → Bool} (hp : ∀ n n' : Node, n.tag = n'.tag → n.parent = n'.parent → p n = p n') :
    nodesWhere d p = nodesWhere d' p := by
  unfold Spec.nodesWhere
  rw [h.length]
  congr 1
  funext i
  cases hn : d.nodes[i]? with
  | none =>
    cases hn' : d'.nodes[i]? with
    | none => rfl
    | some n' =>
      obtain ⟨n, e, -⟩ := h.symm.node hn'
      rw [hn] at e; cases e
  | some n =>
    obtain ⟨n', e, e2, -, e3, -⟩ := h.node hn
    simp [e, hp n n' e2.symm e3.symm]

theorem Skel.extracted (h : Skel S d d') (c : Cfg) : Spec.nodesWhere d (extracted c) = Spec.nodesWhere d' (extracted c) :=
  h.nodesWhere (fun n n' e _ => by simp only [Spec.extracted, e])

theorem Skel.footNodes (h : Skel S d d') (c : Cfg) : footNodes c d = footNodes c d' := by
  unfold Spec.footNodes
  rw [h.nodesWhere (p := placed c py"footer") (fun n n' e _ => by simp only [placed, e])]

theorem Skel.placed (h : Skel S d d') (c : Cfg) (w : Str) (i : Nat) : (d.nodes[i]?).any (placed c w) = (d'.nodes[i]?).any (placed c w) := by
  cases hn : d.nodes[i]? with
  | none =>
    cases hn' : d'.nodes[i]? with
    | none => rfl
    | some n' =>
      obtain ⟨n, e, -⟩ := h.symm.node hn'
      rw [hn] at e; cases e
  | some n =>
    obtain ⟨n', e, e2, -⟩ := h.node hn
    simp [e, Spec.placed, e2]

theorem Skel.waiting (h : Skel S d d') (c : Cfg) (i : Nat) : waiting c d i = waiting c d' i := by
  unfold Spec.waiting
  rw [h.placed, h.nodesWhere (fun n n' e e' => by simp only [Spec.placed, e, e'])]

theorem Skel.marker (h : Skel S d d') {i : Nat} {k : Int} (g : Marker d [] i k) : Marker d' [] i k := by
  have hu : Untouched d' [] i := by intro r hr; cases hr
  cases g with
  | themed a => exact absurd (by intro r hr; cases hr) a
  | quote _ a => exact .quote hu (h.hasTag a)
  | description _ a => exact .description hu (h.hasTag a)
  | bullet _ a b => exact .bullet hu (h.hasTag a) (h.notChildOf b)
  | number _ a b c => exact .number hu (h.hasTag a) (h.childOf b) (h.around c)
  | nothing _ a b c => exact .nothing hu (fun k => a (h.symm.hasTag k)) (fun k => b (h.symm.hasTag k)) (fun k => c (h.symm.hasTag k))

theorem Skel.within (h : Skel S d d') {r i : Nat} {k : Int} (g : Within d [] r i k) : Within d' [] r i k := by
  induction g with
  | self a => exact .self (h.marker a)
  | child a b _ ih => exact .child (h.marker a) (h.parentOf b) ih

theorem Skel.hasRoom (h : Skel S d d') {w : Int} (g : HasRoom d [] w) : HasRoom d' [] w := by
  intro r hr i k hw hp
  refine g r (h.roots ▸ hr) i k (h.symm.within hw) ⟨(by intro r hr; cases hr), ?_⟩
  rcases hp.2 with ⟨a, b⟩ | a | a
  · exact .inl ⟨h.symm.hasTag a, fun k => b (h.onlyCode k)⟩
  · exact .inr (.inl (h.symm.hasTag a))
  · exact .inr (.inr (h.symm.hasTag a))

/-- Elements with the same attributes are drawn in the same way. -/
theorem Skel.drawn (h : Skel S d d') {u : Uni} {c : Cfg} {es es' : List Event} {p r inner : Int} {i : Nat} {tag y x : Str}
    (ha : ∀ k ∈ shownAttrs tag, attrText es i k = attrText es' i k) (g : Drawn u c es d p r i tag inner y x) :
    Drawn u c es' d' p r i tag inner y x := by
  cases g with
  | marked a => exact .marked a
  | br => exact .br
  | code a b => exact .code (h.notChildOf a) b
  | fence a b => exact .fence (h.notChildOf a) b
  | codeInPre a => exact .codeInPre (h.childOf a)
  | reference a b => exact .reference a (h.extracted c ▸ b)
  | link a =>
    rw [ha py"href" (by decide), ha py"title" (by decide)]
    exact .link a
  | imageReference a b => exact .imageReference a (h.extracted c ▸ b)
  | image a =>
    rw [ha py"alt" (by decide), ha py"src" (by decide)]
    exact .image a
  | header a => exact .header a
  | pre a => exact .pre a
  | quote a => exact .quote a
  | list a => exact .list a
  | div => exact .div
  | term a => exact .term (h.dtSpace a)
  | item a b e => exact .item (h.liSpace a) (h.bullet b) e
  | description a => exact .description a
  | paragraph a b e f g => exact .paragraph (h.pSpace a) (fun k => b (h.symm.onlyCode k)) e f g
  | codeParagraph a b => exact .codeParagraph (h.pSpace a) (h.onlyCode b)
  | other a => exact .other a

theorem listed_same {u : Uni} {c : Cfg} {es es' : List Event} {limit : Nat} {r : Int} {i m : Nat} {tag y x : Str}
    (ha : ∀ k ∈ shownAttrs tag, attrText es i k = attrText es' i k) (g : Listed u c es limit r i m tag y x) :
    Listed u c es' limit r i m tag y x := by
  cases g with
  | link a =>
    rw [ha py"href" (by decide), ha py"title" (by decide)]
    exact .link a
  | image a =>
    rw [ha py"alt" (by decide), ha py"src" (by decide)]
    exact .image a
  | gopherLink a b =>
    rw [ha py"href" (by decide)] at b
    rw [ha py"title" (by decide)]
    exact .gopherLink a b
  | gopherImage a b =>
    rw [ha py"src" (by decide)] at b
    rw [ha py"alt" (by decide)]
    exact .gopherImage a b

/-- Nodes in `S` are drawn in the same way, if everything that belongs to them is in `S` too. -/
theorem Skel.draws (h : Skel S d d') {u : Uni} {c : Cfg} {es es' : List Event} (hr : c.renderers = [])
    (hs : ∀ i, S i → ∀ n, d.nodes[i]? = some n → (∀ j ∈ n.children, S j) ∧ ∀ j ∈ Spec.waiting c d i, S j)
    (ha : ∀ i, S i → ∀ tag, HasTag d i tag → ∀ k ∈ shownAttrs tag, attrText es i k = attrText es' i k)
    {limit : Nat} {p r : Int} {listed : Bool} {is : List Nat} {x : Str} (hi : ∀ i ∈ is, S i)
    (g : Draws u c es d noOwnStyle limit p listed r is x) : Draws u c es' d' noOwnStyle limit p listed r is x := by
  induction g with
  | nil => exact .nil
  | @text r i is n t x hn hd _ ih =>
    obtain ⟨n', e1, -⟩ := h.node hn
    have := h.data i (hi i (by simp))
    rw [hn, e1] at this
    simp only [Option.map_some, Option.some.injEq] at this
    exact .text e1 (this.symm.trans hd) (ih (fun j hj => hi j (by simp [hj])))
  | @elem r inner i is n tag y z x w hn ht _ _ hsh _ ih1 ih2 ih3 =>
    obtain ⟨n', e1, e2, -, -, e3, -⟩ := h.node hn
    obtain ⟨k1, k2⟩ := hs i (hi i (by simp)) n hn
    have hw := h.waiting c i
    refine .elem e1 (e2.trans ht) (e3 ▸ ih1 k1) (hw ▸ ih2 k2) (.inl ⟨⟨⟨?_, ?_⟩, ?_⟩, ?_⟩) (ih3 (fun j hj => hi j (by simp [hj])))
    · simp [hr]
    · simp [hr]
    · intro r h'; rw [hr] at h'; cases h'
    · rcases hsh with ⟨-, hsh⟩ | ⟨k, -⟩
      · rw [← hw]
        exact h.drawn (ha i (hi i (by simp)) tag ⟨n, hn, ht⟩) hsh
      · exact absurd (by intro r h'; rw [hr] at h'; cases h') k
  | @entry r i is m n tag y x w hn ht hm _ hl _ ih1 ih2 =>
    obtain ⟨n', e1, e2, -, -, e3, -⟩ := h.node hn
    obtain ⟨k1, -⟩ := hs i (hi i (by simp)) n hn
    exact .entry e1 (e2.trans ht) (h.extracted c ▸ hm) (e3 ▸ ih1 k1) (listed_same (ha i (hi i (by simp)) tag ⟨n, hn, ht⟩) hl)
      (ih2 (fun j hj => hi j (by simp [hj])))

end shape

end Verif
