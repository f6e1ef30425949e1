import Verif.Spec.Parser
import Verif.Proofs.Tree

/-!
# The bookkeeping of links
-/

namespace Verif

open Spec

/-- A property of nodes that ignores what changes after creation. -/
def Stable (p : Node → Bool) : Prop := ∀ m ch pe cl, p { m with children := ch, pending := pe, closed := cl } = p m

theorem nodesWhere_bound {d : Dom} {p : Node → Bool} {i : Nat} (h : i ∈ nodesWhere d p) :
    ∃ n, d.nodes[i]? = some n ∧ p n = true := by
  simp only [nodesWhere, List.mem_filter, List.mem_range] at h
  obtain ⟨h1, h2⟩ := h
  have h3 : d.nodes[i]? = some d.nodes[i] := List.getElem?_eq_getElem h1
  rw [h3] at h2
  exact ⟨_, h3, by simpa using h2⟩

theorem mem_nodesWhere {d : Dom} {p : Node → Bool} {i : Nat} :
    i ∈ nodesWhere d p ↔ ∃ n, d.nodes[i]? = some n ∧ p n = true := by
  refine ⟨nodesWhere_bound, ?_⟩
  rintro ⟨n, h1, h2⟩
  simp only [nodesWhere, List.mem_filter, List.mem_range, h1]
  exact ⟨getElem?_lt h1, by simpa using h2⟩

theorem nodesWhere_extends {d d' : Dom} {par : Par} {n : Node} {p : Node → Bool} (hp : Stable p)
    (he : Extends d d' par n) : nodesWhere d' p = nodesWhere d p ++ (if p n then [d.nodes.length] else []) := by
  unfold nodesWhere
  rw [he.len, List.range_succ, List.filter_append]
  congr 1
  · apply List.filter_congr
    intro i hi
    have hi' := List.mem_range.1 hi
    have h3 : d.nodes[i]? = some d.nodes[i] := List.getElem?_eq_getElem hi'
    obtain ⟨pe, h4⟩ := he.old _ _ h3
    rw [h4, h3]
    exact hp _ _ _ _
  · simp only [List.filter_cons, List.filter_nil, he.last, Option.any_some]

theorem nodesWhere_closes {d d' : Dom} {k : Nat} {p : Node → Bool} (hp : Stable p) (hc : Closes d d' k) :
    nodesWhere d' p = nodesWhere d p := by
  unfold nodesWhere
  rw [hc.len]
  apply List.filter_congr
  intro i hi
  have hi' := List.mem_range.1 hi
  have h3 : d.nodes[i]? = some d.nodes[i] := List.getElem?_eq_getElem hi'
  rw [hc.old _ _ h3, h3]
  exact hp _ _ _ _

/-- The effect of a start tag on the bookkeeping. -/
theorem handleStart_links {u : Uni} {c : Cfg} {s s' : PState} {tag : Str} {attrs} (h : TInv s.dom s.stack)
    (hs : handleStart u c s tag attrs = .ok s') :
    s'.footer = s.footer ++ (if isLinkTag tag && decide (c.placement tag = py"footer") then [s.dom.nodes.length] else []) ∧
    s'.nextLink = s.nextLink + (if isLinkTag tag && decide (c.placement tag ≠ py"inline") then 1 else 0) ∧
    (∀ k m, s.dom.nodes[k]? = some m → ∃ m', s'.dom.nodes[k]? = some m' ∧ m'.pending = m.pending ++
      (if isLinkTag tag && decide (c.placement tag = py"after_block" ∧ tagParent s = .node k) then [s.dom.nodes.length] else [])) ∧
    (isLinkTag tag = true → c.placement tag = py"after_block" → ∃ j, tagParent s = .node j) ∧
    s'.log = s.log ∧ s'.parts = s.parts ∧ s'.parsed = s.parsed ∧ s'.assigned = s.assigned := by
  have hb := top_bound h .doc (by simp)
  have hold : ∀ (n : Node) (k : Nat) (m : Node), s.dom.nodes[k]? = some m →
      ∃ m', (Dom.addChild { s.dom with nodes := s.dom.nodes ++ [n] } (tagParent s) s.dom.nodes.length).nodes[k]? = some m' ∧
        m'.pending = m.pending := by
    intro n k m hk
    have hlt := getElem?_lt hk
    cases tagParent s with
    | none => exact ⟨m, by simp [Dom.addChild, List.getElem?_append_left hlt, hk], rfl⟩
    | doc => exact ⟨m, by simp [Dom.addChild, List.getElem?_append_left hlt, hk], rfl⟩
    | node j =>
      by_cases e : j = k
      · exact ⟨{ m with children := m.children ++ [s.dom.nodes.length] }, by simp [Dom.addChild, Dom.modify, List.getElem?_append_left hlt, hk, e], rfl⟩
      · exact ⟨m, by simp [Dom.addChild, Dom.modify, List.getElem?_append_left hlt, hk, e], rfl⟩
  simp only [handleStart] at hs
  have e1 : (if tag = py"pre" then { s with inPre := true } else s) =
      { s with inPre := if tag = py"pre" then true else s.inPre } := by split <;> rfl
  rw [e1] at hs
  simp only at hs
  by_cases hl : isLinkTag tag
  · simp only [hl, if_true, bind, Except.bind] at hs ⊢
    split at hs
    · cases hs
    · rename_i n hn
      cases hreg : registerLink c { s with dom := { s.dom with nodes := s.dom.nodes ++ [n] }, inPre := if tag = py"pre" then true else s.inPre } tag (tagParent s) s.dom.nodes.length with
      | error e => rw [hreg] at hs; simp at hs
      | ok s2 =>
        rw [hreg] at hs
        simp only [pure, Except.pure, Except.ok.injEq] at hs
        subst hs
        simp only [registerLink, bind, Except.bind] at hreg
        by_cases hf : c.placement tag = py"footer"
        · simp only [hf, if_true, pure, Except.pure] at hreg
          simp only [show py"footer" ≠ py"inline" by decide, ne_eq, not_false_eq_true, if_true, Except.ok.injEq] at hreg
          subst hreg
          refine ⟨by simp [hf], by simp [hf], ?_, ?_, rfl, rfl, rfl, rfl⟩
          · intro k m hk
            obtain ⟨m', h1, h2⟩ := hold n k m hk
            refine ⟨m', h1, ?_⟩
            simp [h2, hf]
          · intro _ ha; rw [hf] at ha; simp at ha
        · simp only [hf, if_false] at hreg
          by_cases ha : c.placement tag = py"after_block"
          · simp only [ha, if_true] at hreg
            cases hp : tagParent s with
            | doc => rw [hp] at hreg; simp at hreg
            | none => rw [hp] at hreg; simp at hreg
            | node j =>
              rw [hp] at hreg
              simp only [pure, Except.pure] at hreg
              simp only [show py"after_block" ≠ py"inline" by decide, ne_eq, not_false_eq_true, if_true,
                Except.ok.injEq] at hreg
              subst hreg
              refine ⟨by simp [ha], by simp [ha], ?_, ?_, rfl, rfl, rfl, rfl⟩
              · intro k m hk
                have hlt := getElem?_lt hk
                by_cases e : j = k
                · exact ⟨{ m with pending := m.pending ++ [s.dom.nodes.length], children := m.children ++ [s.dom.nodes.length] }, by simp [Dom.addChild, Dom.modify, List.getElem?_append_left hlt, hk, e], by simp [ha, e]⟩
                · exact ⟨m, by simp [Dom.addChild, Dom.modify, List.getElem?_append_left hlt, hk, e], by simp [e]⟩
              · exact fun _ _ => ⟨j, rfl⟩
          · simp only [ha, if_false, pure, Except.pure] at hreg
            have hpend : ∀ (k : Nat) (m : Node), s.dom.nodes[k]? = some m → ∃ m',
                (Dom.addChild { s.dom with nodes := s.dom.nodes ++ [n] } (tagParent s) s.dom.nodes.length).nodes[k]? = some m' ∧
                m'.pending = m.pending ++
                  (if true && decide (c.placement tag = py"after_block" ∧ tagParent s = .node k) then [s.dom.nodes.length] else []) := by
              intro k m hk
              obtain ⟨m', h1, h2⟩ := hold n k m hk
              exact ⟨m', h1, by simp [h2, ha]⟩
            split at hreg <;> simp only [Except.ok.injEq] at hreg <;> subst hreg
            · rename_i hi
              exact ⟨by simp [hf], by simp [hi], hpend, fun _ h => absurd h ha, rfl, rfl, rfl, rfl⟩
            · rename_i hi
              exact ⟨by simp [hf], by simp at hi; simp [hi], hpend, fun _ h => absurd h ha, rfl, rfl, rfl, rfl⟩
  · simp only [hl, Bool.false_eq_true, if_false, bind, Except.bind] at hs ⊢
    split at hs
    · cases hs
    · rename_i n hn
      simp only [pure, Except.pure, Except.ok.injEq] at hs
      subst hs
      refine ⟨by simp, by simp, ?_, by simp, rfl, rfl, rfl, rfl⟩
      intro k m hk
      obtain ⟨m', h1, h2⟩ := hold n k m hk
      exact ⟨m', h1, by simp [h2]⟩

theorem placed_iff (c : Cfg) (place tag : Str) (n : Node) (h : n.tag = some tag) :
    placed c place n = (isLinkTag tag && decide (c.placement tag = place)) := by
  simp only [placed, h, isLinkTag, Cfg.placement]
  by_cases h1 : tag = py"img"
  · subst h1; simp
  · by_cases h2 : tag = py"a"
    · subst h2; simp
    · simp [h1, h2]

theorem extracted_iff (c : Cfg) (tag : Str) (n : Node) (h : n.tag = some tag) :
    extracted c n = (isLinkTag tag && decide (c.placement tag ≠ py"inline")) := by
  simp only [extracted, h, isLinkTag, Cfg.placement]
  by_cases h1 : tag = py"img"
  · subst h1; simp
  · by_cases h2 : tag = py"a"
    · subst h2; simp
    · simp [h1, h2]

theorem placed_stable (c : Cfg) (place : Str) : Stable (placed c place) := fun _ _ _ _ => rfl
theorem extracted_stable (c : Cfg) : Stable (extracted c) := fun _ _ _ _ => rfl

/-- A link placed after the block of this parent. -/
def pendingOf (c : Cfg) (j : Nat) (n : Node) : Bool := placed c py"after_block" n && decide (n.parent = .node j)

theorem pendingOf_stable (c : Cfg) (j : Nat) : Stable (pendingOf c j) := fun _ _ _ _ => rfl

/-- What holds of the link bookkeeping. -/
structure LInv (c : Cfg) (s : PState) : Prop where
  next : s.nextLink = (nodesWhere s.dom (extracted c)).length + 1
  footer : s.footer = nodesWhere s.dom (placed c py"footer")
  pending : ∀ j n, s.dom.nodes[j]? = some n → n.pending = nodesWhere s.dom (pendingOf c j)
  link : ∀ (i : Nat) n, s.dom.nodes[i]? = some n → (n.link.isSome ↔ n.tag = some py"a" ∨ n.tag = some py"img")
  ctx : ∀ (i : Nat) n l, s.dom.nodes[i]? = some n → n.link = some l →
    l.ctx = ⟨c.outputFormat, c.linkPlacement, c.imagePlacement,
      ((nodesWhere s.dom (extracted c)).filter (· < i)).length + 1, c.gopherHost, c.gopherPort⟩
  parent : ∀ (i : Nat) n, s.dom.nodes[i]? = some n → placed c py"after_block" n = true → ∃ j, n.parent = .node j
  log : s.parts = [] ∧ s.parsed = [] ∧ s.assigned = []

theorem init_linv (c : Cfg) : LInv c {} := by
  refine ⟨rfl, rfl, ?_, ?_, ?_, ?_, rfl, rfl, rfl⟩ <;> intros <;> simp at *

theorem filter_lt_all (l : List Nat) (k : Nat) (h : ∀ i ∈ l, i < k) : l.filter (· < k) = l := by
  rw [List.filter_eq_self]
  intro i hi
  simpa using h i hi

theorem nodesWhere_lt (d : Dom) (p : Node → Bool) : ∀ i ∈ nodesWhere d p, i < d.nodes.length := by
  intro i hi
  obtain ⟨n, h1, -⟩ := nodesWhere_bound hi
  exact getElem?_lt h1

theorem newTag_parent {tag : Str} {p : Par} {attrs} {n : Node} (h : newTag tag p attrs = .ok n) : n.parent = p ∧ n.link = none := by
  simp only [newTag, bind, Except.bind] at h
  split at h
  · cases h
  · simp only [pure, Except.pure, Except.ok.injEq] at h; subst h; exact ⟨rfl, rfl⟩

theorem newLink_ctx {u : Uni} {tag : Str} {p : Par} {attrs ctx} {n : Node} (h : newLink u tag p attrs ctx = .ok n) :
    ∃ l, n.link = some l ∧ l.ctx = ctx := by
  simp only [newLink, bind, Except.bind] at h
  split at h
  · cases h
  · split at h
    · cases h
    · simp only [pure, Except.pure, Except.ok.injEq] at h; subst h; exact ⟨_, rfl, rfl⟩

/-- Extending with a node keeps the bookkeeping if the new fields fit. -/
theorem linv_extends {c : Cfg} {s s' : PState} {p : Par} {n : Node} (hinv : TInv s.dom s.stack) (hl : LInv c s)
    (he : Extends s.dom s'.dom p n)
    (hnp : n.parent = p) (hpend : n.pending = [])
    (hnext : s'.nextLink = s.nextLink + (if extracted c n then 1 else 0))
    (hfoot : s'.footer = s.footer ++ (if placed c py"footer" n then [s.dom.nodes.length] else []))
    (hold : ∀ k m, s.dom.nodes[k]? = some m → ∃ m', s'.dom.nodes[k]? = some m' ∧ m'.pending = m.pending ++
      (if pendingOf c k n then [s.dom.nodes.length] else []))
    (hlink : n.link.isSome ↔ n.tag = some py"a" ∨ n.tag = some py"img")
    (hctx : ∀ l, n.link = some l → l.ctx = linkCtx c s)
    (hpar : placed c py"after_block" n = true → ∃ j, n.parent = .node j)
    (hpb : ∀ j, p = .node j → j < s.dom.nodes.length)
    (hlog : s'.parts = [] ∧ s'.parsed = [] ∧ s'.assigned = []) : LInv c s' := by
  have hx := nodesWhere_extends (extracted_stable c) he
  have cases_k : ∀ (k : Nat) (m' : Node), s'.dom.nodes[k]? = some m' →
      (k < s.dom.nodes.length ∧ ∃ m pe, s.dom.nodes[k]? = some m ∧ m' =
        { m with children := m.children ++ (if p = .node k then [s.dom.nodes.length] else []), pending := pe }) ∨
      (k = s.dom.nodes.length ∧ m' = n) := by
    intro k m' hk
    have hlt := getElem?_lt hk
    rw [he.len] at hlt
    by_cases h : k < s.dom.nodes.length
    · left
      have h3 : s.dom.nodes[k]? = some s.dom.nodes[k] := List.getElem?_eq_getElem h
      obtain ⟨pe, h4⟩ := he.old _ _ h3
      rw [hk] at h4
      exact ⟨h, _, pe, h3, by simpa using h4⟩
    · right
      have e : k = s.dom.nodes.length := by omega
      subst e
      rw [he.last] at hk
      cases hk
      exact ⟨rfl, rfl⟩
  refine ⟨?_, ?_, ?_, ?_, ?_, ?_, hlog⟩
  · rw [hx, hnext, hl.next]
    split <;> simp <;> omega
  · rw [hfoot, hl.footer, nodesWhere_extends (placed_stable c _) he]
  · intro j m' hj
    rw [nodesWhere_extends (pendingOf_stable c j) he]
    rcases cases_k j m' hj with ⟨hlt, m, pe, h1, h2⟩ | ⟨rfl, rfl⟩
    · obtain ⟨m'', h3, h4⟩ := hold j m h1
      rw [hj] at h3
      cases h3
      rw [h4, hl.pending j m h1]
    · -- nothing points to the new node yet
      have hnone : ∀ m, pendingOf c s.dom.nodes.length m = true → m.parent = .node s.dom.nodes.length := by
        intro m hm
        simp only [pendingOf, Bool.and_eq_true, decide_eq_true_eq] at hm
        exact hm.2
      have e1 : nodesWhere s.dom (pendingOf c s.dom.nodes.length) = [] := by
        rw [List.eq_nil_iff_forall_not_mem]
        intro i hi
        obtain ⟨m, h1, h2⟩ := nodesWhere_bound hi
        have h3 := (hinv.node i m h1).parent
        rw [hnone m h2] at h3
        have := getElem?_lt h1
        have := h3.1
        omega
      have e2 : pendingOf c s.dom.nodes.length m' = false := by
        cases hb : pendingOf c s.dom.nodes.length m' with
        | false => rfl
        | true => have := hpb _ (by rw [← hnp]; exact hnone _ hb); omega
      simp [e1, e2, hpend]
  · intro i m' hi
    rcases cases_k i m' hi with ⟨-, m, pe, h1, rfl⟩ | ⟨rfl, rfl⟩
    · exact hl.link i m h1
    · exact hlink
  · intro i m' l hi hlk
    rcases cases_k i m' hi with ⟨hlt, m, pe, h1, rfl⟩ | ⟨rfl, rfl⟩
    · rw [hl.ctx i m l h1 hlk, hx, List.filter_append]
      have : (if extracted c n = true then [s.dom.nodes.length] else []).filter (· < i) = [] := by
        split
        · simp; omega
        · rfl
      rw [this, List.append_nil]
    · rw [hctx l hlk, hx, List.filter_append]
      have : (if extracted c m' = true then [s.dom.nodes.length] else []).filter (· < s.dom.nodes.length) = [] := by
        split <;> simp
      rw [this, List.append_nil, filter_lt_all _ _ (nodesWhere_lt _ _), linkCtx, hl.next]
  · intro i m' hi hpl
    rcases cases_k i m' hi with ⟨-, m, pe, h1, rfl⟩ | ⟨rfl, rfl⟩
    · exact hl.parent i m h1 hpl
    · exact hpar hpl

theorem step_linv {u : Uni} {c : Cfg} {s s' : PState} (hinv : TInv s.dom s.stack) (hl : LInv c s) {e : Event}
    (hs : step u c s e = .ok s') : LInv c s' := by
  cases e with
  | start tag attrs =>
    obtain ⟨n, he, hf, ht, -, -, -, -, hnew⟩ := handleStart_extends hinv hs
    obtain ⟨h1, h2, h3, h4, -, h5, h6, h7⟩ := handleStart_links hinv hs
    have hpar : n.parent = tagParent s := hf.parent
    have hpend : n.pending = [] := by
      split at hnew
      · exact (newLink_fresh (tagParent_ne_none s) hnew).2.2.2.2
      · exact (newTag_fresh (tagParent_ne_none s) hnew).2.2.2.2.2
    refine linv_extends hinv hl he hpar hpend ?_ ?_ ?_ ?_ ?_ ?_ (top_bound hinv .doc (by simp)) ?_
    · rw [h2, extracted_iff c tag n ht]
    · rw [h1, placed_iff c _ tag n ht]
    · intro k m hk
      obtain ⟨m', h8, h9⟩ := h3 k m hk
      refine ⟨m', h8, ?_⟩
      rw [h9, pendingOf, placed_iff c _ tag n ht, hpar]
      congr 2
      cases isLinkTag tag <;> simp
    · rw [ht]
      split at hnew
      · rename_i hlt
        obtain ⟨l, h8, -⟩ := newLink_ctx hnew
        rw [h8]
        simpa [isLinkTag] using hlt
      · rename_i hlt
        rw [(newTag_parent hnew).2]
        simpa [isLinkTag] using hlt
    · intro l hlk
      split at hnew
      · obtain ⟨l', h8, h9⟩ := newLink_ctx hnew
        rw [hlk] at h8
        cases h8
        exact h9
      · rw [(newTag_parent hnew).2] at hlk
        cases hlk
    · intro hpl
      rw [placed_iff c _ tag n ht] at hpl
      simp only [Bool.and_eq_true, decide_eq_true_eq] at hpl
      rw [hpar]
      exact h4 hpl.1 hpl.2
    · rw [h5, h6, h7]; exact hl.log
  | data text =>
    simp only [step, Except.ok.injEq] at hs
    subst hs
    have he := handleData_extends hinv text
    have hnp : ∀ place, placed c place (newData (dataParent s) (normaliseData s.inPre text)) = false := fun _ => rfl
    have hnx : extracted c (newData (dataParent s) (normaliseData s.inPre text)) = false := rfl
    refine linv_extends hinv hl he rfl rfl (by rw [hnx]; rfl) (by rw [hnp]; simp [handleData]) ?_ (by simp [newData])
      (by simp [newData]) (by rw [hnp]; simp) (top_bound hinv .none (by simp)) hl.log
    intro k m hk
    have hlt := getElem?_lt hk
    have hpd : pendingOf c k (newData (dataParent s) (normaliseData s.inPre text)) = false := rfl
    rw [hpd]
    simp only [handleData]
    cases dataParent s with
    | none => exact ⟨m, by simp [Dom.addChild, List.getElem?_append_left hlt, hk], by simp⟩
    | doc => exact ⟨m, by simp [Dom.addChild, List.getElem?_append_left hlt, hk], by simp⟩
    | node j =>
      by_cases e : j = k
      · exact ⟨{ m with children := m.children ++ [s.dom.nodes.length] }, by simp [Dom.addChild, Dom.modify, List.getElem?_append_left hlt, hk, e], by simp⟩
      · exact ⟨m, by simp [Dom.addChild, Dom.modify, List.getElem?_append_left hlt, hk, e], by simp⟩
  | stop tag =>
    simp only [step, Except.ok.injEq] at hs
    subst hs
    have hfields : (handleEnd s tag).nextLink = s.nextLink ∧ (handleEnd s tag).footer = s.footer ∧
        (handleEnd s tag).parts = s.parts ∧ (handleEnd s tag).parsed = s.parsed ∧ (handleEnd s tag).assigned = s.assigned := by
      simp only [handleEnd]
      split
      · simp
      · by_cases ht : tag = py"pre"
        · simp only [ht, if_true]
          split
          · simp
          · split <;> simp
        · simp only [ht, if_false]
          split
          · simp
          · split <;> simp
    obtain ⟨h1, h2, h3, h4, h5⟩ := hfields
    rcases handleEnd_cases hinv tag with ⟨i, n, -, -, -, hd, -⟩ | ⟨-, hd, -⟩
    · have hc := closes_modify s.dom i
      rw [← hd] at hc
      have cases_k : ∀ (k : Nat) (m' : Node), (handleEnd s tag).dom.nodes[k]? = some m' →
          ∃ m cl, s.dom.nodes[k]? = some m ∧ m' = { m with closed := cl } := by
        intro k m' hk
        have hlt := getElem?_lt hk
        rw [hc.len] at hlt
        have h3 : s.dom.nodes[k]? = some s.dom.nodes[k] := List.getElem?_eq_getElem hlt
        have h4 := hc.old _ _ h3
        rw [hk] at h4
        exact ⟨_, _, h3, by simpa using h4⟩
      refine ⟨?_, ?_, ?_, ?_, ?_, ?_, ?_⟩
      · rw [h1, hl.next, nodesWhere_closes (extracted_stable c) hc]
      · rw [h2, hl.footer, nodesWhere_closes (placed_stable c _) hc]
      · intro j m' hj
        obtain ⟨m, cl, h8, rfl⟩ := cases_k j m' hj
        rw [nodesWhere_closes (pendingOf_stable c j) hc]
        exact hl.pending j m h8
      · intro j m' hj
        obtain ⟨m, cl, h8, rfl⟩ := cases_k j m' hj
        exact hl.link j m h8
      · intro j m' l hj hlk
        obtain ⟨m, cl, h8, rfl⟩ := cases_k j m' hj
        rw [nodesWhere_closes (extracted_stable c) hc]
        exact hl.ctx j m l h8 hlk
      · intro j m' hj hpl
        obtain ⟨m, cl, h8, rfl⟩ := cases_k j m' hj
        exact hl.parent j m h8 hpl
      · rw [h3, h4, h5]; exact hl.log
    · refine ⟨by rw [hd, h1]; exact hl.next, by rw [hd, h2]; exact hl.footer, ?_, ?_, ?_, ?_,
        by rw [h3, h4, h5]; exact hl.log⟩ <;> rw [hd]
      · exact hl.pending
      · exact hl.link
      · exact hl.ctx
      · exact hl.parent

theorem feed_linv {u : Uni} {c : Cfg} {s s' : PState} (hinv : TInv s.dom s.stack) (hl : LInv c s) {es : List Event}
    (hs : feed u c s es = .ok s') : LInv c s' := by
  induction es generalizing s with
  | nil => simp [feed_nil] at hs; subst hs; exact hl
  | cons e es ih =>
    rw [feed_cons] at hs
    cases h1 : step u c s e with
    | error x => simp [h1, Except.bind] at hs
    | ok s1 => rw [h1] at hs; exact ih (step_inv hinv h1) (step_linv hinv hl h1) hs

end Verif
