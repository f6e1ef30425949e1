import Verif.Spec.Tree

namespace Verif

open Spec

/-! ## Lists -/

theorem getElem?_modify_same {α : Type} (l : List α) (i : Nat) (f : α → α) (x : α) (h : l[i]? = some x) :
    (l.modify i f)[i]? = some (f x) := by
  rw [List.getElem?_modify]; simp [h]

/-! ## Extending and closing -/

/-- What is added to the list of roots when `i` gets parent `p`. -/
def rootPart (p : Par) (i : Nat) : List Nat := match p with | .node _ => [] | _ => [i]

/-- `d'` is `d` with node `n` added as last child of `p`; lists of pending links may differ. -/
structure Extends (d d' : Dom) (p : Par) (n : Node) : Prop where
  len : d'.nodes.length = d.nodes.length + 1
  last : d'.nodes[d.nodes.length]? = some n
  old : ∀ (k : Nat) (m : Node), d.nodes[k]? = some m → ∃ pend, d'.nodes[k]? =
    some { m with children := m.children ++ (if p = .node k then [d.nodes.length] else []), pending := pend }
  roots : d'.roots = d.roots ++ rootPart p d.nodes.length

theorem getElem?_lt {α : Type} {l : List α} {k : Nat} {x : α} (h : l[k]? = some x) : k < l.length := by
  rw [List.getElem?_eq_some_iff] at h; exact h.1

theorem extends_addChild (d : Dom) (p : Par) (n : Node) (hp : ∀ j, p = .node j → j < d.nodes.length) :
    Extends d (Dom.addChild { d with nodes := d.nodes ++ [n] } p d.nodes.length) p n := by
  cases p with
  | node j =>
    have hj := hp j rfl
    refine ⟨?_, ?_, ?_, ?_⟩
    · simp [Dom.addChild, Dom.modify]
    · simp only [Dom.addChild, Dom.modify, List.getElem?_modify]
      have : ¬ j = d.nodes.length := by omega
      simp [this]
    · intro k m hk
      have hk' := getElem?_lt hk
      refine ⟨m.pending, ?_⟩
      simp only [Dom.addChild, Dom.modify, List.getElem?_modify, List.getElem?_append_left hk', hk]
      by_cases h : j = k
      · subst h; simp
      · have : ¬ (Par.node j = Par.node k) := by simpa using h
        simp [h]
    · simp [Dom.addChild, Dom.modify, rootPart]
  | none =>
    refine ⟨by simp [Dom.addChild], by simp [Dom.addChild], ?_, by simp [Dom.addChild, rootPart]⟩
    intro k m hk
    exact ⟨m.pending, by simp [Dom.addChild, List.getElem?_append_left (getElem?_lt hk), hk]⟩
  | doc =>
    refine ⟨by simp [Dom.addChild], by simp [Dom.addChild], ?_, by simp [Dom.addChild, rootPart]⟩
    intro k m hk
    exact ⟨m.pending, by simp [Dom.addChild, List.getElem?_append_left (getElem?_lt hk), hk]⟩

/-- Adding a pending link before adding the child. -/
theorem extends_addPending (d : Dom) (j : Nat) (n : Node) (hj : j < d.nodes.length) (i : Nat) :
    Extends d (Dom.addChild (Dom.modify { d with nodes := d.nodes ++ [n] } j
      (fun m => { m with pending := m.pending ++ [i] })) (.node j) d.nodes.length) (.node j) n := by
  refine ⟨?_, ?_, ?_, ?_⟩
  · simp [Dom.addChild, Dom.modify]
  · simp only [Dom.addChild, Dom.modify, List.getElem?_modify]
    have : ¬ j = d.nodes.length := by omega
    simp [this]
  · intro k m hk
    have hk' := getElem?_lt hk
    refine ⟨if j = k then m.pending ++ [i] else m.pending, ?_⟩
    simp only [Dom.addChild, Dom.modify, List.getElem?_modify, List.getElem?_append_left hk', hk]
    by_cases h : j = k
    · subst h; simp
    · simp [h]
  · simp [Dom.addChild, Dom.modify, rootPart]

/-- `d'` is `d` with node `i` closed. -/
structure Closes (d d' : Dom) (i : Nat) : Prop where
  len : d'.nodes.length = d.nodes.length
  old : ∀ (k : Nat) (m : Node), d.nodes[k]? = some m → d'.nodes[k]? = some { m with closed := m.closed || decide (i = k) }
  roots : d'.roots = d.roots

theorem closes_modify (d : Dom) (i : Nat) : Closes d (d.modify i (fun n => { n with closed := true })) i := by
  refine ⟨by simp [Dom.modify], ?_, rfl⟩
  intro k m hk
  simp only [Dom.modify, List.getElem?_modify, hk]
  by_cases h : i = k <;> simp [h]

/-! ## The invariant -/

/-- What holds of each node. -/
structure NodeOk (d : Dom) (i : Nat) (n : Node) : Prop where
  data : n.data.isSome → n.tag = none ∧ n.children = []
  noData : n.data = none → n.tag.isSome
  child : ∀ c ∈ n.children, i < c ∧ ∃ m, d.nodes[c]? = some m ∧ m.parent = .node i
  nodup : n.children.Nodup
  parent : match n.parent with
    | .node j => j < i ∧ ∃ m, d.nodes[j]? = some m ∧ i ∈ m.children ∧ m.tag.isSome
    | _ => i ∈ d.roots
  noParent : n.parent = .none → n.data.isSome
  void : ∀ t, n.tag = some t → VoidTag t → n.children = [] ∧ n.closed = true

/-- The open elements: the first is the last of the siblings, the others are its last child, and so on. -/
def Open (d : Dom) : List Nat → List Nat → Prop
  | _, [] => True
  | is, s :: st => (∃ A, is = A ++ [s]) ∧ ∃ n, d.nodes[s]? = some n ∧ n.closed = false ∧ n.data = none ∧ Open d n.children st

structure TInv (d : Dom) (stack : List Nat) : Prop where
  walk : Walk d d.roots (List.range d.nodes.length)
  spine : Open d d.roots stack
  node : ∀ i n, d.nodes[i]? = some n → NodeOk d i n
  root : ∀ r ∈ d.roots, ∃ m, d.nodes[r]? = some m ∧ (m.parent = .doc ∨ m.parent = .none)
  rootsNodup : d.roots.Nodup

/-! ## Walks -/

theorem walk_mem {d : Dom} {is out : List Nat} (h : Walk d is out) : ∀ i ∈ is, i ∈ out := by
  induction h with
  | nil => simp
  | cons hn hk hr ihk ihr =>
    intro j hj
    rcases List.mem_cons.1 hj with e | e
    · simp [e]
    · have := ihr j e; simp [this]

theorem walk_bound {d : Dom} {is out : List Nat} (h : Walk d is out) : ∀ i ∈ out, i < d.nodes.length := by
  induction h with
  | nil => simp
  | cons hn hk hr ihk ihr =>
    intro j hj
    simp only [List.cons_append, List.mem_cons, List.mem_append] at hj
    rcases hj with e | e | e
    · subst e; exact getElem?_lt hn
    · exact ihk j e
    · exact ihr j e

theorem walk_append {d : Dom} {is js a b : List Nat} (h1 : Walk d is a) (h2 : Walk d js b) : Walk d (is ++ js) (a ++ b) := by
  induction h1 with
  | nil => exact h2
  | cons hn hk hr ihk ihr =>
    have := Walk.cons hn hk ihr
    simpa using this

theorem walk_append_inv {d : Dom} {is js out : List Nat} (h : Walk d (is ++ js) out) :
    ∃ a b, out = a ++ b ∧ Walk d is a ∧ Walk d js b := by
  induction is generalizing out with
  | nil => exact ⟨[], out, rfl, .nil, h⟩
  | cons i is ih =>
    cases h with
    | cons hn hk hr =>
      obtain ⟨a, b, rfl, h1, h2⟩ := ih hr
      exact ⟨_, b, by simp, .cons hn hk h1, h2⟩

/-- A walk determines its result. -/
theorem walk_det {d : Dom} {is a b : List Nat} (h1 : Walk d is a) (h2 : Walk d is b) : a = b := by
  induction h1 generalizing b with
  | nil => cases h2; rfl
  | cons hn hk hr ihk ihr =>
    cases h2 with
    | cons hn' hk' hr' =>
      rw [hn] at hn'
      cases hn'
      rw [ihk hk', ihr hr']

/-- Nodes off the path are walked as before. -/
theorem walk_frame {d d' : Dom} {p : Par} {n : Node} (he : Extends d d' p n) {is out : List Nat} (h : Walk d is out)
    (hp : ∀ j, p = .node j → j ∉ out) : Walk d' is out := by
  induction h with
  | nil => exact .nil
  | @cons i m is a b hn hk hr ihk ihr =>
    obtain ⟨pend, hm⟩ := he.old _ _ hn
    have hne : ¬ p = .node i := by
      intro e
      exact hp i e (by simp)
    refine .cons hm ?_ ?_
    · simp only [hne, if_false, List.append_nil]
      exact ihk (fun j e hj => hp j e (by simp [hj]))
    · exact ihr (fun j e hj => hp j e (by simp [hj]))

/-- The innermost open element as a parent. -/
def topPar (stack : List Nat) : Option Nat := stack.getLast?

theorem open_top_mem {d : Dom} {is stack out : List Nat} (h : Walk d is out) (ho : Open d is stack) {j : Nat}
    (hj : stack.getLast? = some j) : j ∈ out := by
  induction stack generalizing is out with
  | nil => simp at hj
  | cons s st ih =>
    obtain ⟨⟨A, rfl⟩, n, hn, -, -, ho⟩ := ho
    obtain ⟨a, b, rfl, h1, h2⟩ := walk_append_inv h
    cases h2 with
    | cons hn' hk hr =>
      rw [hn] at hn'
      cases hn'
      cases st with
      | nil => simp at hj; simp [hj]
      | cons t ts =>
        rw [List.getLast?_cons_cons] at hj
        have := ih hk ho hj
        simp [this]

theorem walk_extend {d d' : Dom} {n : Node} {stack : List Nat} {p : Par} (hn0 : n.children = [])
    (hp : ∀ j, p = .node j ↔ stack.getLast? = some j) (he : Extends d d' p n) {is out : List Nat}
    (h : Walk d is out) (hnd : out.Nodup) (ho : Open d is stack) :
    Walk d' (if stack = [] then is ++ [d.nodes.length] else is) (out ++ [d.nodes.length]) := by
  have hnew : Walk d' [d.nodes.length] [d.nodes.length] := by
    have hk : Walk d' n.children [] := by rw [hn0]; exact .nil
    exact Walk.cons he.last hk .nil
  induction stack generalizing is out with
  | nil =>
    simp only [if_true]
    refine walk_append (walk_frame he h ?_) hnew
    intro j e
    have := (hp j).1 e
    simp at this
  | cons s st ih =>
    simp only [reduceCtorEq, if_false]
    have ho0 := ho
    obtain ⟨⟨A, rfl⟩, m, hm, hcl, hda, ho⟩ := ho
    obtain ⟨a, b, rfl, h1, h2⟩ := walk_append_inv h
    obtain ⟨j, hj⟩ : ∃ j, (s :: st).getLast? = some j := ⟨_, List.getLast?_cons ..⟩
    have hjmem := open_top_mem (stack := s :: st) h2 (⟨⟨[], rfl⟩, m, hm, hcl, hda, ho⟩ : Open d [s] (s :: st)) hj
    rw [List.append_assoc]
    have hdisj := List.nodup_append.1 hnd
    refine walk_append (walk_frame he h1 ?_) ?_
    · intro j' e hmem
      have := (hp j').1 e
      rw [hj] at this
      cases this
      exact hdisj.2.2 _ hmem _ hjmem rfl
    · cases h2 with
      | @cons _ m' _ a' b' hn' hk hr =>
        rw [hm] at hn'
        cases hn'
        cases hr
        simp only [List.append_nil] at *
        obtain ⟨pend, hm'⟩ := he.old _ _ hm
        have hnd' : a'.Nodup := (List.nodup_cons.1 hdisj.2.1).2
        have hs : s ∉ a' := (List.nodup_cons.1 hdisj.2.1).1
        have := Walk.cons (is := []) (b := []) hm' (a := a' ++ [d.nodes.length]) ?_ .nil
        · simpa using this
        · cases st with
          | nil =>
            have e : p = .node s := (hp s).2 (by simp)
            simp only [e, if_true]
            refine walk_append (walk_frame he hk ?_) hnew
            intro j' e' hmem
            rw [e] at e'
            cases e'
            exact hs hmem
          | cons t ts =>
            have ih' := ih (fun j => by rw [hp j, List.getLast?_cons_cons]) hk hnd' ho
            simp only [reduceCtorEq, if_false] at ih'
            have hne : ¬ p = .node s := by
              intro e
              have := (hp s).1 e
              rw [List.getLast?_cons_cons] at this
              have := open_top_mem hk ho this
              exact hs this
            simp only [hne, if_false, List.append_nil]
            exact ih'

/-! ## Preservation -/

theorem open_lt {d : Dom} (hnode : ∀ i n, d.nodes[i]? = some n → NodeOk d i n) {is : List Nat} {s : Nat} {st : List Nat}
    (ho : Open d is (s :: st)) : ∀ t ∈ st, s < t := by
  induction st generalizing is s with
  | nil => simp
  | cons t ts ih =>
    obtain ⟨-, n, hn, -, -, ho'⟩ := ho
    obtain ⟨⟨A, hA⟩, -⟩ := id ho'
    have : s < t := ((hnode s n hn).child t (by rw [hA]; simp)).1
    intro x hx
    rcases List.mem_cons.1 hx with e | e
    · omega
    · have := ih ho' x e; omega

theorem open_mem {d : Dom} {is stack : List Nat} (ho : Open d is stack) :
    ∀ s ∈ stack, ∃ n, d.nodes[s]? = some n ∧ n.closed = false ∧ n.data = none := by
  induction stack generalizing is with
  | nil => simp
  | cons t ts ih =>
    obtain ⟨-, n, hn, h1, h2, ho'⟩ := ho
    intro s hs
    rcases List.mem_cons.1 hs with e | e
    · subst e; exact ⟨n, hn, h1, h2⟩
    · exact ih ho' s e

theorem open_extend {d d' : Dom} {n : Node} {stack : List Nat} {p : Par}
    (hnode : ∀ i n, d.nodes[i]? = some n → NodeOk d i n)
    (hp : ∀ j, p = .node j ↔ stack.getLast? = some j) (he : Extends d d' p n) {is : List Nat}
    (ho : Open d is stack) :
    Open d' (if stack = [] then is ++ [d.nodes.length] else is) stack ∧
    (n.closed = false → n.data = none →
      Open d' (if stack = [] then is ++ [d.nodes.length] else is) (stack ++ [d.nodes.length])) := by
  induction stack generalizing is with
  | nil =>
    simp only [if_true, List.nil_append]
    refine ⟨trivial, fun h1 h2 => ⟨⟨is, rfl⟩, n, he.last, h1, h2, trivial⟩⟩
  | cons s st ih =>
    simp only [reduceCtorEq, if_false]
    have hlt := open_lt hnode ho
    obtain ⟨hA, m, hm, hcl, hda, ho'⟩ := ho
    obtain ⟨pend, hm'⟩ := he.old _ _ hm
    cases st with
    | nil =>
      have e : p = .node s := (hp s).2 (by simp)
      refine ⟨⟨hA, _, hm', hcl, hda, trivial⟩, fun h1 h2 => ⟨hA, _, hm', hcl, hda, ?_⟩⟩
      refine ⟨⟨m.children, by simp [e]⟩, n, he.last, h1, h2, trivial⟩
    | cons t ts =>
      have hne : ¬ p = .node s := by
        intro e
        have := (hp s).1 e
        rw [List.getLast?_cons_cons] at this
        have := hlt s (List.mem_of_getLast? this)
        omega
      obtain ⟨i1, i2⟩ := ih (fun j => by rw [hp j, List.getLast?_cons_cons]) ho'
      simp only [reduceCtorEq, if_false] at i1 i2
      refine ⟨⟨hA, _, hm', hcl, hda, ?_⟩, fun h1 h2 => ⟨hA, _, hm', hcl, hda, ?_⟩⟩
      · simpa [hne] using i1
      · simpa [hne] using i2 h1 h2

theorem walk_closes {d d' : Dom} {i : Nat} (hc : Closes d d' i) {is out : List Nat} (h : Walk d is out) : Walk d' is out := by
  induction h with
  | nil => exact .nil
  | cons hn hk hr ihk ihr => exact .cons (hc.old _ _ hn) ihk ihr

theorem open_closes {d d' : Dom} {i : Nat} (hnode : ∀ i n, d.nodes[i]? = some n → NodeOk d i n) (hc : Closes d d' i)
    {is stack : List Nat} (ho : Open d is stack) (hi : stack.getLast? = some i) : Open d' is stack.dropLast := by
  induction stack generalizing is with
  | nil => trivial
  | cons s st ih =>
    have hlt := open_lt hnode ho
    obtain ⟨hA, m, hm, hcl, hda, ho'⟩ := ho
    cases st with
    | nil => trivial
    | cons t ts =>
      rw [List.getLast?_cons_cons] at hi
      have hne : ¬ i = s := by
        have := hlt i (List.mem_of_getLast? hi)
        omega
      exact ⟨hA, _, hc.old _ _ hm, by simp [hcl, hne], hda, ih ho' hi⟩

theorem inv_closes {d d' : Dom} {i : Nat} {stack : List Nat} (h : TInv d stack) (hc : Closes d d' i)
    (hi : stack.getLast? = some i) : TInv d' stack.dropLast := by
  have back : ∀ (k : Nat) (m' : Node), d'.nodes[k]? = some m' → ∃ m, d.nodes[k]? = some m ∧
      m' = { m with closed := m.closed || decide (i = k) } := by
    intro k m' hk
    have : k < d.nodes.length := by rw [← hc.len]; exact getElem?_lt hk
    have hk2 : d.nodes[k]? = some d.nodes[k] := List.getElem?_eq_getElem this
    refine ⟨_, hk2, ?_⟩
    have := hc.old _ _ hk2
    rw [hk] at this
    exact Option.some.inj this
  refine ⟨?_, ?_, ?_, ?_, ?_⟩
  · rw [hc.len, hc.roots]; exact walk_closes hc h.walk
  · rw [hc.roots]; exact open_closes h.node hc h.spine hi
  · intro k m' hk
    obtain ⟨m, hm, rfl⟩ := back k m' hk
    have ok := h.node k m hm
    refine ⟨ok.data, ok.noData, ?_, ok.nodup, ?_, ok.noParent, ?_⟩
    · intro c hcm
      obtain ⟨h1, m2, h2, h3⟩ := ok.child c hcm
      exact ⟨h1, _, hc.old _ _ h2, h3⟩
    · have := ok.parent
      revert this
      simp only
      cases m.parent with
      | node j =>
        rintro ⟨h1, m2, h2, h3, h4⟩
        exact ⟨h1, _, hc.old _ _ h2, h3, h4⟩
      | doc => intro h; rw [hc.roots]; exact h
      | none => intro h; rw [hc.roots]; exact h
    · intro t ht hv
      have := ok.void t ht hv
      simp [this]
  · intro r hr
    rw [hc.roots] at hr
    obtain ⟨m, h1, h2⟩ := h.root r hr
    exact ⟨_, hc.old _ _ h1, h2⟩
  · rw [hc.roots]; exact h.rootsNodup

/-- What a fresh node must satisfy. -/
structure Fresh (n : Node) (p : Par) : Prop where
  children : n.children = []
  parent : n.parent = p
  data : n.data.isSome → n.tag = none
  noData : n.data = none → n.tag.isSome
  noParent : n.parent = .none → n.data.isSome
  void : ∀ t, n.tag = some t → VoidTag t → n.closed = true

theorem inv_extends {d d' : Dom} {n : Node} {p : Par} {stack : List Nat} (h : TInv d stack) (he : Extends d d' p n)
    (hp : ∀ j, p = .node j ↔ stack.getLast? = some j) (hf : Fresh n p) :
    TInv d' stack ∧ (n.closed = false → n.data = none → TInv d' (stack ++ [d.nodes.length])) := by
  have hrange : List.range d.nodes.length ++ [d.nodes.length] = List.range d'.nodes.length := by
    rw [he.len, List.range_succ]
  have hroots : (if stack = [] then d.roots ++ [d.nodes.length] else d.roots) = d'.roots := by
    rw [he.roots]
    cases p with
    | node j =>
      have := (hp j).1 rfl
      have : stack ≠ [] := by intro e; subst e; simp at this
      simp [this, rootPart]
    | doc =>
      have : stack = [] := by
        cases hl : stack.getLast? with
        | none => simpa using hl
        | some j => have := (hp j).2 hl; cases this
      simp [this, rootPart]
    | none =>
      have : stack = [] := by
        cases hl : stack.getLast? with
        | none => simpa using hl
        | some j => have := (hp j).2 hl; cases this
      simp [this, rootPart]
  have hw := walk_extend hf.children hp he h.walk List.nodup_range h.spine
  obtain ⟨o1, o2⟩ := open_extend h.node hp he h.spine
  rw [hroots] at hw o1 o2
  rw [hrange] at hw
  have back : ∀ (k : Nat) (m' : Node), d'.nodes[k]? = some m' → (k = d.nodes.length ∧ m' = n) ∨ ∃ m pend, d.nodes[k]? = some m ∧
      m' = { m with children := m.children ++ (if p = .node k then [d.nodes.length] else []), pending := pend } := by
    intro k m' hk
    have hlt : k < d.nodes.length + 1 := by rw [← he.len]; exact getElem?_lt hk
    by_cases hkl : k = d.nodes.length
    · left
      subst hkl
      rw [he.last] at hk
      exact ⟨rfl, (Option.some.inj hk).symm⟩
    · right
      have : k < d.nodes.length := by omega
      have hk2 : d.nodes[k]? = some d.nodes[k] := List.getElem?_eq_getElem this
      obtain ⟨pend, h3⟩ := he.old _ _ hk2
      rw [hk] at h3
      exact ⟨_, pend, hk2, Option.some.inj h3⟩
  -- the parent of the new node
  have hpar : match p with
      | .node j => ∃ m, d.nodes[j]? = some m ∧ m.closed = false ∧ m.data = none ∧ j < d.nodes.length
      | _ => True := by
    cases p with
    | node j =>
      have := (hp j).1 rfl
      obtain ⟨m, h1, h2, h3⟩ := open_mem h.spine j (List.mem_of_getLast? this)
      exact ⟨m, h1, h2, h3, getElem?_lt h1⟩
    | doc => trivial
    | none => trivial
  have hrmem : ∀ r ∈ d.roots, r ∈ d'.roots := by intro r hr; rw [he.roots]; simp [hr]
  have hnode' : ∀ i n, d'.nodes[i]? = some n → NodeOk d' i n := by
    intro k m' hk
    rcases back k m' hk with ⟨rfl, rfl⟩ | ⟨m, pend, hm, rfl⟩
    · refine ⟨fun hd => ⟨hf.data hd, hf.children⟩, hf.noData, ?_, ?_, ?_, hf.noParent,
        fun t h1 h2 => ⟨hf.children, hf.void t h1 h2⟩⟩
      · rw [hf.children]; simp
      · rw [hf.children]; simp
      · rw [hf.parent]
        cases p with
        | node j =>
          obtain ⟨m, h1, h2, h3, h4⟩ := hpar
          obtain ⟨pend, h5⟩ := he.old _ _ h1
          exact ⟨h4, _, h5, by simp, (h.node j m h1).noData h3⟩
        | doc => simp [he.roots, rootPart]
        | none => simp [he.roots, rootPart]
    · have ok := h.node k m hm
      refine ⟨?_, ok.noData, ?_, ?_, ?_, ok.noParent, ?_⟩
      · intro hd
        have hne : ¬ p = .node k := by
          intro e
          subst e
          obtain ⟨m2, h1, h2, h3, h4⟩ := hpar
          rw [hm] at h1
          cases h1
          simp [h3] at hd
        have := ok.data hd
        simp [this, hne]
      · intro c hc
        simp only [List.mem_append] at hc
        rcases hc with hc | hc
        · obtain ⟨h1, m2, h2, h3⟩ := ok.child c hc
          obtain ⟨pend2, h4⟩ := he.old _ _ h2
          exact ⟨h1, _, h4, h3⟩
        · by_cases e : p = .node k
          · simp only [e, if_true, List.mem_singleton] at hc
            subst hc
            exact ⟨getElem?_lt hm, n, he.last, by rw [hf.parent, e]⟩
          · simp [e] at hc
      · show (m.children ++ _).Nodup
        by_cases e : p = .node k
        · simp only [e, if_true]
          rw [List.nodup_append]
          refine ⟨ok.nodup, by simp, ?_⟩
          intro a ha b hb
          simp at hb
          subst hb
          obtain ⟨-, m2, h2, -⟩ := ok.child a ha
          have := getElem?_lt h2
          omega
        · simp [e, ok.nodup]
      · have := ok.parent
        revert this
        simp only
        cases m.parent with
        | node j =>
          rintro ⟨h1, m2, h2, h3, h4⟩
          obtain ⟨pend2, h5⟩ := he.old _ _ h2
          exact ⟨h1, _, h5, by simp [h3], h4⟩
        | doc => intro h; exact hrmem k h
        | none => intro h; exact hrmem k h
      · intro t ht hv
        obtain ⟨h1, h2⟩ := ok.void t ht hv
        have hne : ¬ p = .node k := by
          intro e
          subst e
          obtain ⟨m2, g1, g2, g3, g4⟩ := hpar
          rw [hm] at g1
          cases g1
          rw [h2] at g2
          cases g2
        simp [h1, h2, hne]
  have hroot' : ∀ r ∈ d'.roots, ∃ m, d'.nodes[r]? = some m ∧ (m.parent = .doc ∨ m.parent = .none) := by
    intro r hr
    rw [he.roots, List.mem_append] at hr
    rcases hr with hr | hr
    · obtain ⟨m, h1, h2⟩ := h.root r hr
      obtain ⟨pend, h3⟩ := he.old _ _ h1
      exact ⟨_, h3, h2⟩
    · cases p with
      | node j => simp [rootPart] at hr
      | doc => simp [rootPart] at hr; subst hr; exact ⟨n, he.last, Or.inl hf.parent⟩
      | none => simp [rootPart] at hr; subst hr; exact ⟨n, he.last, Or.inr hf.parent⟩
  have hrn : d'.roots.Nodup := by
    rw [he.roots, List.nodup_append]
    refine ⟨h.rootsNodup, by cases p <;> simp [rootPart], ?_⟩
    intro a ha b hb
    obtain ⟨m, h1, -⟩ := h.root a ha
    have := getElem?_lt h1
    cases p <;> simp [rootPart] at hb <;> omega
  exact ⟨⟨hw, o1, hnode', hroot', hrn⟩, fun h1 h2 => ⟨hw, o2 h1 h2, hnode', hroot', hrn⟩⟩

/-! ## The parser -/

theorem getTop_of_inv {s : PState} (h : TInv s.dom s.stack) : getTop s = s.stack.getLast? := by
  unfold getTop
  cases hl : s.stack.getLast? with
  | none => rfl
  | some i =>
    obtain ⟨n, h1, h2, -⟩ := open_mem h.spine i (List.mem_of_getLast? hl)
    simp [h1, h2]

theorem newTag_fresh {tag : Str} {p : Par} {attrs} {n : Node} (hp : p ≠ .none) (h : newTag tag p attrs = .ok n) :
    Fresh n p ∧ n.tag = some tag ∧ n.data = none ∧ n.closed = isVoid tag ∧ n.link = none ∧ n.pending = [] := by
  simp only [newTag, bind, Except.bind] at h
  cases he : extractClasses (rawAttrs attrs) with
  | error e => simp [he] at h
  | ok v =>
    obtain ⟨a, cl⟩ := v
    rw [he] at h
    simp only [pure, Except.pure, Except.ok.injEq] at h
    subst h
    refine ⟨⟨rfl, rfl, by simp, by simp, by simp [hp], ?_⟩, rfl, rfl, rfl, rfl, rfl⟩
    intro t ht hv
    cases ht
    rcases hv with e | e <;> simp [e, isVoid]

theorem newLink_fresh {u : Uni} {tag : Str} {p : Par} {attrs ctx} {n : Node} (hp : p ≠ .none)
    (h : newLink u tag p attrs ctx = .ok n) :
    Fresh n p ∧ n.tag = some tag ∧ n.data = none ∧ n.closed = isVoid tag ∧ n.pending = [] := by
  simp only [newLink, bind, Except.bind] at h
  cases he : newTag tag p attrs with
  | error e => simp [he] at h
  | ok m =>
    rw [he] at h
    simp only at h
    split at h
    · simp at h
    · simp only [pure, Except.pure, Except.ok.injEq] at h
      subst h
      obtain ⟨f, h1, h2, h3, -, h4⟩ := newTag_fresh hp he
      exact ⟨⟨f.children, f.parent, f.data, f.noData, f.noParent, f.void⟩, h1, h2, h3, h4⟩

/-- The parent given to a new element or text. -/
theorem top_iff {s : PState} (h : TInv s.dom s.stack) (dflt : Par) (hd : ∀ j, dflt ≠ .node j) (j : Nat) :
    (match getTop s with | some i => Par.node i | none => dflt) = .node j ↔ s.stack.getLast? = some j := by
  rw [getTop_of_inv h]
  cases hl : s.stack.getLast? with
  | none => simp [hd j]
  | some i => simp

theorem top_bound {s : PState} (h : TInv s.dom s.stack) (dflt : Par) (hd : ∀ j, dflt ≠ .node j) (j : Nat)
    (hj : (match getTop s with | some i => Par.node i | none => dflt) = .node j) : j < s.dom.nodes.length := by
  have := (top_iff h dflt hd j).1 hj
  obtain ⟨m, h1, -⟩ := open_mem h.spine j (List.mem_of_getLast? this)
  exact getElem?_lt h1

theorem handleData_extends {s : PState} (h : TInv s.dom s.stack) (text : Str) :
    Extends s.dom (handleData s text).dom (dataParent s) (newData (dataParent s) (normaliseData s.inPre text)) :=
  extends_addChild _ _ _ (top_bound h .none (by simp))

theorem newData_fresh (p : Par) (text : Str) : Fresh (newData p text) p :=
  ⟨rfl, rfl, fun _ => rfl, by simp [newData], fun _ => rfl, by simp [newData]⟩

theorem tagParent_ne_none (s : PState) : tagParent s ≠ .none := by
  unfold tagParent; cases getTop s <;> simp

/-- A start tag adds one node with that tag under the innermost open element and pushes it unless it is void. -/
theorem handleStart_extends {u : Uni} {c : Cfg} {s s' : PState} (h : TInv s.dom s.stack) {tag : Str} {attrs}
    (hs : handleStart u c s tag attrs = .ok s') :
    ∃ n, Extends s.dom s'.dom (tagParent s) n ∧ Fresh n (tagParent s) ∧ n.tag = some tag ∧ n.data = none ∧
      n.closed = isVoid tag ∧ s'.stack = (if isVoid tag then s.stack else s.stack ++ [s.dom.nodes.length]) ∧
      s'.inPre = (if tag = py"pre" then true else s.inPre) ∧
      (if isLinkTag tag then newLink u tag (tagParent s) attrs (linkCtx c s) = .ok n
        else newTag tag (tagParent s) attrs = .ok n) := by
  have hb := top_bound h .doc (by simp)
  simp only [handleStart] at hs
  have e1 : (if tag = py"pre" then { s with inPre := true } else s) =
      { s with inPre := if tag = py"pre" then true else s.inPre } := by split <;> rfl
  rw [e1] at hs
  simp only at hs
  have hctx : linkCtx c { s with inPre := if tag = py"pre" then true else s.inPre } = linkCtx c s := rfl
  by_cases hl : isLinkTag tag
  · simp only [hl, if_true, bind, Except.bind, hctx] at hs ⊢
    cases hn : newLink u tag (tagParent s) attrs (linkCtx c s) with
    | error e => simp [hn] at hs
    | ok n =>
      rw [hn] at hs
      simp only at hs
      obtain ⟨f, h1, h2, h3, h4⟩ := newLink_fresh (tagParent_ne_none s) hn
      cases hreg : registerLink c { s with dom := { s.dom with nodes := s.dom.nodes ++ [n] }, inPre := if tag = py"pre" then true else s.inPre } tag (tagParent s) s.dom.nodes.length with
      | error e => rw [hreg] at hs; simp at hs
      | ok s2 =>
        rw [hreg] at hs
        simp only [pure, Except.pure, Except.ok.injEq] at hs
        subst hs
        refine ⟨n, ?_, f, h1, h2, h3, ?_, ?_, rfl⟩
        all_goals
          simp only [registerLink, bind, Except.bind] at hreg
          by_cases hf : c.placement tag = py"footer"
          · simp only [hf, if_true, pure, Except.pure] at hreg
            simp only [show py"footer" ≠ py"inline" by decide, ne_eq, not_false_eq_true, if_true, Except.ok.injEq] at hreg
            subst hreg
            first
              | exact extends_addChild _ _ _ hb
              | simp [h3]
          · simp only [hf, if_false] at hreg
            by_cases ha : c.placement tag = py"after_block"
            · simp only [ha, if_true] at hreg
              cases hp : tagParent s with
              | doc => rw [hp] at hreg; simp at hreg
              | none => rw [hp] at hreg; simp at hreg
              | node j =>
                rw [hp] at hreg
                simp only [pure, Except.pure] at hreg
                simp only [show py"after_block" ≠ py"inline" by decide, ne_eq, not_false_eq_true, if_true,
                  Except.ok.injEq] at hreg
                subst hreg
                first
                  | exact extends_addPending _ _ _ (hb j hp) _
                  | simp [h3]
            · simp only [ha, if_false, pure, Except.pure] at hreg
              split at hreg <;> simp only [Except.ok.injEq] at hreg <;> subst hreg <;> first
                | exact extends_addChild _ _ _ hb
                | simp [h3]
  · simp only [hl, Bool.false_eq_true, if_false, bind, Except.bind] at hs ⊢
    cases hn : newTag tag (tagParent s) attrs with
    | error e => simp [hn] at hs
    | ok n =>
      rw [hn] at hs
      simp only [pure, Except.pure, Except.ok.injEq] at hs
      subst hs
      obtain ⟨f, h1, h2, h3, h4⟩ := newTag_fresh (tagParent_ne_none s) hn
      refine ⟨n, extends_addChild _ _ _ hb, f, h1, h2, h3, ?_, rfl, rfl⟩
      simp [h3]

theorem handleStart_inv {u : Uni} {c : Cfg} {s s' : PState} (h : TInv s.dom s.stack) {tag : Str} {attrs}
    (hs : handleStart u c s tag attrs = .ok s') : TInv s'.dom s'.stack := by
  obtain ⟨n, he, hf, -, hd, hc, hst, -⟩ := handleStart_extends h hs
  obtain ⟨h1, h2⟩ := inv_extends h he (top_iff h .doc (by simp)) hf
  rw [hst]
  cases hv : isVoid tag with
  | true => exact h1
  | false => exact h2 (by rw [hc, hv]) hd

theorem handleData_inv {s : PState} (h : TInv s.dom s.stack) (text : Str) :
    TInv (handleData s text).dom (handleData s text).stack :=
  (inv_extends h (handleData_extends h text) (top_iff h .none (by simp)) (newData_fresh _ _)).1

/-- What an end tag does to tree and stack. -/
theorem handleEnd_cases {s : PState} (h : TInv s.dom s.stack) (tag : Str) :
    (∃ i n, s.stack.getLast? = some i ∧ s.dom.nodes[i]? = some n ∧ n.tag = some tag ∧
      (handleEnd s tag).dom = s.dom.modify i (fun n => { n with closed := true }) ∧
      (handleEnd s tag).stack = s.stack.dropLast) ∨
    ((∀ i n, s.stack.getLast? = some i → s.dom.nodes[i]? = some n → n.tag ≠ some tag) ∧
      (handleEnd s tag).dom = s.dom ∧ (handleEnd s tag).stack = s.stack) := by
  unfold handleEnd
  by_cases hv : isVoid tag
  · right
    simp only [hv, if_true, and_self, and_true]
    intro i n hi hn ht
    obtain ⟨m, h1, h2, h3⟩ := open_mem h.spine i (List.mem_of_getLast? hi)
    rw [hn] at h1
    cases h1
    have hV : VoidTag tag := by
      simp only [isVoid, Bool.or_eq_true, beq_iff_eq] at hv; exact hv
    have := ((h.node i n hn).void tag ht hV).2
    rw [h2] at this
    cases this
  · simp only [hv, Bool.false_eq_true, if_false]
    have e1 : (if tag = py"pre" then { s with inPre := false } else s) =
        { s with inPre := if tag = py"pre" then false else s.inPre } := by split <;> rfl
    rw [e1]
    have e2 : getTop { s with inPre := if tag = py"pre" then false else s.inPre } = s.stack.getLast? := getTop_of_inv h
    rw [e2]
    cases hl : s.stack.getLast? with
    | none => right; simp
    | some i =>
      obtain ⟨n, h1, h2, h3⟩ := open_mem h.spine i (List.mem_of_getLast? hl)
      by_cases ht : n.tag = some tag
      · left
        exact ⟨i, n, rfl, h1, ht, by simp [h1, ht], by simp [h1, ht]⟩
      · right
        refine ⟨?_, by simp [h1, ht], by simp [h1, ht]⟩
        intro i' n' hi hn
        cases hi
        rw [h1] at hn
        cases hn
        exact ht

theorem handleEnd_inv {s : PState} (h : TInv s.dom s.stack) (tag : Str) :
    TInv (handleEnd s tag).dom (handleEnd s tag).stack := by
  rcases handleEnd_cases h tag with ⟨i, n, h1, h2, h3, h4, h5⟩ | ⟨-, h4, h5⟩
  · rw [h4, h5]; exact inv_closes h (closes_modify _ _) h1
  · rw [h4, h5]; exact h

theorem step_inv {u : Uni} {c : Cfg} {s s' : PState} (h : TInv s.dom s.stack) {e : Event} (hs : step u c s e = .ok s') :
    TInv s'.dom s'.stack := by
  cases e with
  | start tag attrs => exact handleStart_inv h hs
  | stop tag =>
    simp only [step, Except.ok.injEq] at hs
    subst hs
    exact handleEnd_inv h tag
  | data text =>
    simp only [step, Except.ok.injEq] at hs
    subst hs
    exact handleData_inv h text

theorem feed_nil (u : Uni) (c : Cfg) (s : PState) : feed u c s [] = .ok s := rfl

theorem feed_cons (u : Uni) (c : Cfg) (s : PState) (e : Event) (es : List Event) :
    feed u c s (e :: es) = (step u c s e).bind (fun s => feed u c s es) := by
  simp [feed, List.foldlM_cons, bind]

theorem feed_append (u : Uni) (c : Cfg) (s : PState) (es fs : List Event) :
    feed u c s (es ++ fs) = (feed u c s es).bind (fun s => feed u c s fs) := by
  simp [feed, List.foldlM_append, bind]

theorem feed_inv {u : Uni} {c : Cfg} {s s' : PState} (h : TInv s.dom s.stack) {es : List Event}
    (hs : feed u c s es = .ok s') : TInv s'.dom s'.stack := by
  induction es generalizing s with
  | nil => simp [feed_nil] at hs; subst hs; exact h
  | cons e es ih =>
    rw [feed_cons] at hs
    cases h1 : step u c s e with
    | error x => simp [h1, Except.bind] at hs
    | ok s1 => rw [h1] at hs; exact ih (step_inv h h1) hs

theorem init_inv : TInv (⟨[], []⟩ : Dom) [] :=
  ⟨.nil, trivial, by simp, by simp, by simp⟩

end Verif
