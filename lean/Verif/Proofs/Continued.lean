import Verif.Props.Alike

/-!
# A document that goes on
-/

namespace Verif

open Spec

/-! ## The tree -/

/-- `d'` has further elements at the top level, and all that is in them. -/
structure Continued (d d' : Dom) : Prop where
  old : ∀ (i : Nat) (n : Node), d.nodes[i]? = some n → ∃ n', d'.nodes[i]? = some n' ∧ n'.tag = n.tag ∧ n'.data = n.data ∧
    n'.parent = n.parent ∧ n'.children = n.children
  len : d.nodes.length ≤ d'.nodes.length
  roots : ∃ more, d'.roots = d.roots ++ more ∧ ∀ r ∈ more, d.nodes.length ≤ r
  later : ∀ (i : Nat) (n' : Node), d.nodes.length ≤ i → d'.nodes[i]? = some n' → ∀ j, n'.parent = .node j → d.nodes.length ≤ j

theorem continued_extends {d d1 d2 : Dom} {p : Par} {n : Node} (h : Continued d d1) (he : Extends d1 d2 p n) (hn : n.parent = p)
    (hp : ∀ j, p = .node j → d.nodes.length ≤ j) : Continued d d2 := by
  have hold : ∀ (i : Nat) m, d1.nodes[i]? = some m → ∃ m', d2.nodes[i]? = some m' ∧ m'.tag = m.tag ∧ m'.data = m.data ∧
      m'.parent = m.parent ∧ (i < d.nodes.length → m'.children = m.children) := by
    intro i m hm
    obtain ⟨pend, e⟩ := he.old i m hm
    refine ⟨_, e, rfl, rfl, rfl, fun hlt => ?_⟩
    have : p ≠ .node i := fun hpi => by have := hp i hpi; omega
    simp [this]
  refine ⟨fun i m hm => ?_, by rw [he.len]; have := h.len; omega, ?_, fun i m hi hm j hj => ?_⟩
  · obtain ⟨m1, e1, a1, a2, a3, a4⟩ := h.old i m hm
    obtain ⟨m2, e2, b1, b2, b3, b4⟩ := hold i m1 e1
    exact ⟨m2, e2, b1.trans a1, b2.trans a2, b3.trans a3, (b4 (getElem?_lt hm)).trans a4⟩
  · obtain ⟨more, e, hm⟩ := h.roots
    refine ⟨more ++ rootPart p d1.nodes.length, by rw [he.roots, e, List.append_assoc], fun r hr => ?_⟩
    rcases List.mem_append.1 hr with hr | hr
    · exact hm r hr
    · have := h.len
      cases p <;> simp [rootPart] at hr <;> omega
  · have hlt := getElem?_lt hm
    rw [he.len] at hlt
    by_cases hi2 : i < d1.nodes.length
    · obtain ⟨m', e, -, -, a3, -⟩ := hold i _ (List.getElem?_eq_getElem hi2)
      rw [hm] at e; cases e
      exact h.later i _ hi (List.getElem?_eq_getElem hi2) j (a3 ▸ hj)
    · have : i = d1.nodes.length := by omega
      subst this
      rw [he.last] at hm; cases hm
      exact hp j (hn.symm.trans hj)

theorem continued_closes {d d1 d2 : Dom} {i : Nat} (h : Continued d d1) (he : Closes d1 d2 i) : Continued d d2 := by
  refine ⟨fun k m hm => ?_, by rw [he.len]; exact h.len, ?_, fun k m hk hm j hj => ?_⟩
  · obtain ⟨m1, e1, a⟩ := h.old k m hm
    exact ⟨_, he.old k m1 e1, a⟩
  · rw [he.roots]; exact h.roots
  · have hlt := getElem?_lt hm
    rw [he.len] at hlt
    have e := he.old k _ (List.getElem?_eq_getElem hlt)
    rw [hm] at e; cases e
    exact h.later k _ hk (List.getElem?_eq_getElem hlt) j hj

theorem feed_continued {u : Uni} {c : Cfg} {d : Dom} {es : List Event} {s t : PState} (hi : TInv s.dom s.stack) (hg : Continued d s.dom)
    (hst : ∀ x ∈ s.stack, d.nodes.length ≤ x) (h : feed u c s es = .ok t) : Continued d t.dom := by
  induction es generalizing s with
  | nil => cases h; exact hg
  | cons e es ih =>
    rw [feed_cons] at h
    cases h1 : step u c s e with
    | error x => rw [h1] at h; cases h
    | ok s1 =>
      rw [h1] at h
      have hi1 := step_inv hi h1
      cases e with
      | start tag attrs =>
        obtain ⟨n, he, hf, -, -, -, e6, -⟩ := handleStart_extends hi h1
        refine ih hi1 (continued_extends hg he hf.parent (fun j hj => ?_)) (fun x hx => ?_) h
        · exact hst j (List.mem_of_getLast? ((top_iff hi .doc (by simp) j).1 hj))
        · rw [e6] at hx
          split at hx
          · exact hst x hx
          · rcases List.mem_append.1 hx with hx | hx
            · exact hst x hx
            · simp at hx; subst hx; exact hg.len
      | stop tag =>
        cases h1
        rcases handleEnd_cases hi tag with ⟨i, n, g1, g2, g3, g4, g5⟩ | ⟨-, g4, g5⟩
        · refine ih hi1 ?_ ?_ h
          · rw [g4]; exact continued_closes hg (closes_modify _ _)
          · rw [g5]; exact fun x hx => hst x (List.dropLast_subset _ hx)
        · refine ih hi1 ?_ ?_ h
          · rw [g4]; exact hg
          · rw [g5]; exact hst
      | data text =>
        cases h1
        refine ih hi1 (continued_extends hg (handleData_extends hi text) rfl (fun j hj => ?_)) (fun x hx => hst x hx) h
        exact hst j (List.mem_of_getLast? ((top_iff hi .none (by simp) j).1 hj))

/-! ## What elements look like -/

section grow

variable {d d' : Dom} {src src' : Nat → List (Str × Option Str)}

theorem Continued.hasTag (h : Continued d d') {i : Nat} {t : Str} (g : HasTag d i t) : HasTag d' i t := by
  obtain ⟨n, h1, h2⟩ := g
  obtain ⟨n', e1, e2, -⟩ := h.old i n h1
  exact ⟨n', e1, e2.trans h2⟩

theorem Continued.hasTag_back (h : Continued d d') {i : Nat} (hi : i < d.nodes.length) {t : Str} (g : HasTag d' i t) : HasTag d i t := by
  obtain ⟨n', h1, h2⟩ := g
  obtain ⟨m, e1, e2, -⟩ := h.old i _ (List.getElem?_eq_getElem hi)
  rw [h1] at e1; cases e1
  exact ⟨_, List.getElem?_eq_getElem hi, e2.symm.trans h2⟩

theorem Continued.parentOf (h : Continued d d') {j i : Nat} (g : ParentOf d j i) : ParentOf d' j i := by
  obtain ⟨n, h1, h2⟩ := g
  obtain ⟨n', e1, -, -, -, e2⟩ := h.old j n h1
  exact ⟨n', e1, by rw [e2]; exact h2⟩

theorem Continued.parentOf_back (h : Continued d d') (hinv : SelInv d' src') {j i : Nat} (hi : i < d.nodes.length) (g : ParentOf d' j i) :
    ParentOf d j i ∧ j < d.nodes.length := by
  obtain ⟨n', h1, h2⟩ := g
  have hlt := ((hinv.node j n' h1).child i h2).1
  have hj : j < d.nodes.length := by omega
  obtain ⟨m, e1, -, -, -, e2⟩ := h.old j _ (List.getElem?_eq_getElem hj)
  rw [h1] at e1; cases e1
  exact ⟨⟨_, List.getElem?_eq_getElem hj, by rw [← e2]; exact h2⟩, hj⟩

theorem Continued.childOf (h : Continued d d') {t : Str} {i : Nat} (g : ChildOf d t i) : ChildOf d' t i := by
  obtain ⟨j, h1, h2⟩ := g
  exact ⟨j, h.parentOf h1, h.hasTag h2⟩

theorem Continued.childOf_back (h : Continued d d') (hinv : SelInv d' src') {t : Str} {i : Nat} (hi : i < d.nodes.length) (g : ChildOf d' t i) :
    ChildOf d t i := by
  obtain ⟨j, h1, h2⟩ := g
  obtain ⟨k1, k2⟩ := h.parentOf_back hinv hi h1
  exact ⟨j, k1, h.hasTag_back k2 h2⟩

theorem Continued.inNestedList (h : Continued d d') {i : Nat} (g : InNestedList d i) : InNestedList d' i := by
  obtain ⟨j, h1, h2, h3⟩ := g
  exact ⟨j, h.parentOf h1, h2.imp h.hasTag h.hasTag, h.childOf h3⟩

theorem Continued.inNestedList_back (h : Continued d d') (hinv : SelInv d' src') {i : Nat} (hi : i < d.nodes.length) (g : InNestedList d' i) :
    InNestedList d i := by
  obtain ⟨j, h1, h2, h3⟩ := g
  obtain ⟨k1, k2⟩ := h.parentOf_back hinv hi h1
  exact ⟨j, k1, h2.imp (h.hasTag_back k2) (h.hasTag_back k2), h.childOf_back hinv k2 h3⟩

theorem Continued.isTag (h : Continued d d') {i : Nat} (hi : i < d.nodes.length) : d'.isTag i = d.isTag i := by
  obtain ⟨m, e1, e2, -⟩ := h.old i _ (List.getElem?_eq_getElem hi)
  simp only [Dom.isTag, e1, List.getElem?_eq_getElem hi, e2]

theorem Continued.elemCount (h : Continued d d') {l : List Nat} (hl : ∀ i ∈ l, i < d.nodes.length) : elemCount d' l = elemCount d l := by
  unfold Spec.elemCount
  exact List.countP_congr (fun i hi => by rw [h.isTag (hl i hi)])

/-- Siblings in the shorter document: the same before, and after unless at the top level. -/
theorem Continued.around (h : Continued d d') (hinv : SelInv d src) {i : Nat} {b a : List Nat} (g : Around d i b a) :
    (∀ j ∈ b ++ i :: a, j < d.nodes.length) ∧ ∃ more, Around d' i b (a ++ more) ∧ ((∃ j, ParentOf d j i) → Around d' i b a) := by
  have hroot : ∀ r ∈ d.roots, r < d.nodes.length := fun r hr => by
    obtain ⟨m, hm, -⟩ := hinv.root r hr
    exact getElem?_lt hm
  rcases g with g | ⟨j, n, h1, h2⟩
  · refine ⟨fun j hj => hroot j (g ▸ hj), ?_⟩
    obtain ⟨more, e, -⟩ := h.roots
    refine ⟨more, .inl ?_, fun ⟨j, m, hm, hc⟩ => ?_⟩
    · rw [e, ← g]; simp
    · obtain ⟨-, x, hx, hxp⟩ := (hinv.node j m hm).child i hc
      obtain ⟨y, hy, hyp⟩ := hinv.root i (by rw [← g]; simp)
      rw [hx] at hy; cases hy
      rw [hxp] at hyp
      rcases hyp with e | e <;> cases e
  · refine ⟨fun k hk => ?_, [], ?_, fun _ => ?_⟩
    · obtain ⟨-, m, hm, -⟩ := (hinv.node j n h1).child k (h2 ▸ hk)
      exact getElem?_lt hm
    · obtain ⟨n', e1, -, -, -, e2⟩ := h.old j n h1
      exact .inr ⟨j, n', e1, by rw [List.append_nil, h2, e2]⟩
    · obtain ⟨n', e1, -, -, -, e2⟩ := h.old j n h1
      exact .inr ⟨j, n', e1, by rw [h2, e2]⟩

theorem Continued.firstChild (h : Continued d d') (hinv : SelInv d src) {i : Nat} (g : FirstChild d i) : FirstChild d' i := by
  obtain ⟨b, a, h1, h2⟩ := g
  obtain ⟨k1, more, k2, -⟩ := h.around hinv h1
  exact ⟨b, _, k2, by rw [h.elemCount (fun j hj => k1 j (by simp [hj]))]; exact h2⟩

theorem Continued.firstChild_back (h : Continued d d') (hinv : SelInv d src) (hinv' : SelInv d' src') {i : Nat} {n : Node} (hn : d.nodes[i]? = some n)
    (hd : n.data = none) (g : FirstChild d' i) : FirstChild d i := by
  obtain ⟨b', a', h1, h2⟩ := g
  obtain ⟨n', e1, -, e2, -⟩ := h.old i n hn
  obtain ⟨-, A, C, -, -, -, -, -, e3⟩ := elem_pos hinv hn hd
  obtain ⟨-, A', C', -, -, -, -, -, e4⟩ := elem_pos hinv' e1 (e2.trans hd)
  have g1 := (e3 A C).2 ⟨rfl, rfl⟩
  obtain ⟨k1, more, k2, -⟩ := h.around hinv g1
  obtain ⟨rfl, -⟩ := (e4 _ _).1 k2
  obtain ⟨rfl, -⟩ := (e4 _ _).1 h1
  exact ⟨_, C, g1, by rw [← h.elemCount (fun j hj => k1 j (by simp [hj]))]; exact h2⟩

theorem Continued.lastChild (h : Continued d d') (hinv : SelInv d src) {i : Nat} (hp : ∃ j, ParentOf d j i) (g : LastChild d i) : LastChild d' i := by
  obtain ⟨b, a, h1, h2⟩ := g
  obtain ⟨k1, more, -, k2⟩ := h.around hinv h1
  exact ⟨b, _, k2 hp, by rw [h.elemCount (fun j hj => k1 j (by simp [hj]))]; exact h2⟩

theorem Continued.lastChild_back (h : Continued d d') (hinv : SelInv d src) (hinv' : SelInv d' src') {i : Nat} {n : Node} (hn : d.nodes[i]? = some n)
    (hd : n.data = none) (hp : ∃ j, ParentOf d j i) (g : LastChild d' i) : LastChild d i := by
  obtain ⟨b', a', h1, h2⟩ := g
  obtain ⟨n', e1, -, e2, -⟩ := h.old i n hn
  obtain ⟨-, A, C, -, -, -, -, -, e3⟩ := elem_pos hinv hn hd
  obtain ⟨-, A', C', -, -, -, -, -, e4⟩ := elem_pos hinv' e1 (e2.trans hd)
  have g1 := (e3 A C).2 ⟨rfl, rfl⟩
  obtain ⟨k1, more, -, k2⟩ := h.around hinv g1
  obtain ⟨-, rfl⟩ := (e4 _ _).1 (k2 hp)
  obtain ⟨-, rfl⟩ := (e4 _ _).1 h1
  exact ⟨A, _, g1, by rw [← h.elemCount (fun j hj => k1 j (by simp [hj]))]; exact h2⟩

theorem Continued.pStyle (h : Continued d d') (hinv : SelInv d src) (hinv' : SelInv d' src') {i : Nat} {n : Node} (hn : d.nodes[i]? = some n)
    (hd : n.data = none) {st : Dict} (g : PStyle d i st) : PStyle d' i st := by
  have hp : ChildOf d py"blockquote" i → ∃ j, ParentOf d j i := fun ⟨j, k, _⟩ => ⟨j, k⟩
  cases g with
  | only a b c => exact .only (h.childOf a) (h.firstChild hinv b) (h.lastChild hinv (hp a) c)
  | first a b c => exact .first (h.childOf a) (h.firstChild hinv b) (fun k => c (h.lastChild_back hinv hinv' hn hd (hp a) k))
  | last a b c => exact .last (h.childOf a) (fun k => b (h.firstChild_back hinv hinv' hn hd k)) (h.lastChild hinv (hp a) c)
  | inner a b c =>
    exact .inner (h.childOf a) (fun k => b (h.firstChild_back hinv hinv' hn hd k)) (fun k => c (h.lastChild_back hinv hinv' hn hd (hp a) k))
  | free a => exact .free (fun k => a (h.childOf_back hinv' (getElem?_lt hn) k))

theorem Continued.liStyle (h : Continued d d') (hinv : SelInv d src) (hinv' : SelInv d' src') {i : Nat} {n : Node} (hn : d.nodes[i]? = some n)
    (hd : n.data = none) {st : Dict} (g : LiStyle d i st) : LiStyle d' i st := by
  cases g with
  | nested a b => exact .nested (h.firstChild hinv a) (h.inNestedList b)
  | first a b => exact .first (h.firstChild hinv a) (fun k => b (h.inNestedList_back hinv' (getElem?_lt hn) k))
  | later a => exact .later (fun k => a (h.firstChild_back hinv hinv' hn hd k))

theorem Continued.onlyCode (h : Continued d d') {i : Nat} (g : OnlyCode d i) : OnlyCode d' i := by
  obtain ⟨n, j, h1, h2, h3⟩ := g
  obtain ⟨n', e1, -, -, -, e2⟩ := h.old i n h1
  exact ⟨n', j, e1, e2.trans h2, h3.imp h.hasTag h.hasTag⟩

theorem Continued.onlyCode_back (h : Continued d d') (hinv : SelInv d src) {i : Nat} (hi : i < d.nodes.length) (g : OnlyCode d' i) : OnlyCode d i := by
  obtain ⟨n', j, h1, h2, h3⟩ := g
  obtain ⟨m, e1, -, -, -, e2⟩ := h.old i _ (List.getElem?_eq_getElem hi)
  rw [h1] at e1; cases e1
  have hc : j ∈ (d.nodes[i]).children := by rw [← e2, h2]; simp
  obtain ⟨-, k, hk, -⟩ := (hinv.node i _ (List.getElem?_eq_getElem hi)).child j hc
  have hj := getElem?_lt hk
  exact ⟨_, j, List.getElem?_eq_getElem hi, e2.symm.trans h2, h3.imp (h.hasTag_back hj) (h.hasTag_back hj)⟩

theorem Continued.bullet (h : Continued d d') (hinv : SelInv d src) (hinv' : SelInv d' src') {i : Nat} (hi : i < d.nodes.length) {a : Str} (g : Bullet d i a) :
    Bullet d' i a := by
  rcases g with ⟨h1, b, e, h2, h3⟩ | ⟨h1, h2⟩
  · obtain ⟨-, more, k2, -⟩ := h.around hinv h2
    exact .inl ⟨h.childOf h1, b, _, k2, h3⟩
  · exact .inr ⟨fun k => h1 (h.childOf_back hinv' hi k), h2⟩

theorem filter_range_prefix (p q : Nat → Bool) (a b : Nat) (hab : a ≤ b) (h : ∀ i, i < a → p i = q i) :
    ∃ more, (List.range b).filter q = (List.range a).filter p ++ more ∧ ∀ i ∈ more, a ≤ i := by
  obtain ⟨k, rfl⟩ := Nat.exists_eq_add_of_le hab
  refine ⟨((List.range k).map (a + ·)).filter q, ?_, ?_⟩
  · rw [List.range_add, List.filter_append]
    congr 1
    exact List.filter_congr (fun i hi => (h i (List.mem_range.1 hi)).symm)
  · intro i hi
    obtain ⟨hi, -⟩ := List.mem_filter.1 hi
    obtain ⟨x, -, rfl⟩ := List.mem_map.1 hi
    omega

theorem Continued.nodesWhere (h : Continued d d') {p : Node → Bool} (hp : ∀ n n' : Node, n.tag = n'.tag → n.parent = n'.parent → p n = p n') :
    ∃ more, nodesWhere d' p = Spec.nodesWhere d p ++ more ∧ ∀ i ∈ more, d.nodes.length ≤ i := by
  refine filter_range_prefix _ _ _ _ h.len (fun i hi => ?_)
  obtain ⟨m, e1, e2, -, e3, -⟩ := h.old i _ (List.getElem?_eq_getElem hi)
  rw [e1, List.getElem?_eq_getElem hi]
  exact hp _ _ e2.symm e3.symm

theorem Continued.number (h : Continued d d') (c : Cfg) {m i : Nat} (g : (Spec.nodesWhere d (extracted c))[m]? = some i) :
    (Spec.nodesWhere d' (extracted c))[m]? = some i := by
  obtain ⟨more, e, -⟩ := h.nodesWhere (p := extracted c) (fun n n' e _ => by simp only [extracted, e])
  rw [e, List.getElem?_append_left (getElem?_lt g)]
  exact g

theorem Continued.waiting (h : Continued d d') (c : Cfg) {i : Nat} (hi : i < d.nodes.length) : Spec.waiting c d' i = Spec.waiting c d i := by
  obtain ⟨m, e1, e2, -, e3, -⟩ := h.old i _ (List.getElem?_eq_getElem hi)
  unfold Spec.waiting
  have : (d'.nodes[i]?).any (placed c py"inline") = (d.nodes[i]?).any (placed c py"inline") := by
    rw [e1, List.getElem?_eq_getElem hi]
    simp [placed, e2]
  rw [this]
  obtain ⟨more, e, hm⟩ := h.nodesWhere (p := fun m => placed c py"after_block" m && decide (m.parent = .node i))
    (fun n n' e e' => by simp only [placed, e, e'])
  split
  · rfl
  · rw [e]
    cases more with
    | nil => simp
    | cons x xs =>
      have hx : x ∈ Spec.nodesWhere d' (fun m => placed c py"after_block" m && decide (m.parent = .node i)) := by rw [e]; simp
      simp only [Spec.nodesWhere, List.mem_filter, List.mem_range] at hx
      rw [List.getElem?_eq_getElem hx.1] at hx
      simp only [Option.any_some, Bool.and_eq_true, decide_eq_true_eq] at hx
      have := h.later x _ (hm x (by simp)) (List.getElem?_eq_getElem hx.1) i hx.2.2
      omega

theorem Continued.drawn (h : Continued d d') (hinv : SelInv d src) (hinv' : SelInv d' src') {u : Uni} {c : Cfg} {es es' : List Event} {p r inner : Int} {i : Nat}
    {n : Node} (hn : d.nodes[i]? = some n) (hd : n.data = none) {tag y x : Str} (ha : ∀ k, attrText es i k = attrText es' i k)
    (g : Drawn u c es d p r i tag inner y x) : Drawn u c es' d' p r i tag inner y x := by
  have hi := getElem?_lt hn
  have hsp : ∀ {a b : Int}, PSpace d i a b → PSpace d' i a b := fun g =>
    g.imp (h.pStyle hinv hinv' hn hd) (fun k => ⟨h.pStyle hinv hinv' hn hd k.1, k.2⟩)
  have hls : ∀ {a : Int}, LiSpace d i a → LiSpace d' i a := fun g =>
    g.imp (h.liStyle hinv hinv' hn hd) (fun k => ⟨h.liStyle hinv hinv' hn hd k.1, k.2⟩)
  have hds : ∀ {a : Int}, DtSpace d i a → DtSpace d' i a := fun g =>
    g.imp (fun k => ⟨h.firstChild hinv k.1, k.2⟩) (fun k => ⟨fun k' => k.1 (h.firstChild_back hinv hinv' hn hd k'), k.2⟩)
  have hpre : ∀ {t}, ¬ ChildOf d t i → ¬ ChildOf d' t i := fun g k => g (h.childOf_back hinv' hi k)
  cases g with
  | marked a => exact .marked a
  | br => exact .br
  | code a b => exact .code (hpre a) b
  | fence a b => exact .fence (hpre a) b
  | codeInPre a => exact .codeInPre (h.childOf a)
  | reference a b => exact .reference a (h.number c b)
  | link a => rw [ha, ha]; exact .link a
  | imageReference a b => exact .imageReference a (h.number c b)
  | image a => rw [ha, ha]; exact .image a
  | header a => exact .header a
  | pre a => exact .pre a
  | quote a => exact .quote a
  | list a => exact .list a
  | div => exact .div
  | term a => exact .term (hds a)
  | item a b e => exact .item (hls a) (h.bullet hinv hinv' hi b) e
  | description a => exact .description a
  | paragraph a b e f g => exact .paragraph (hsp a) (fun k => b (h.onlyCode_back hinv hi k)) e f g
  | codeParagraph a b => exact .codeParagraph (hsp a) (h.onlyCode b)
  | other a => exact .other a

theorem Continued.draws (h : Continued d d') (hinv : SelInv d src) (hinv' : SelInv d' src') {u : Uni} {c : Cfg} {es es' : List Event} (hr : c.renderers = [])
    (ha : ∀ i, i < d.nodes.length → ∀ k, attrText es i k = attrText es' i k)
    {limit : Nat} {p r : Int} {listed : Bool} {is : List Nat} {x : Str}
    (g : Draws u c es d noOwnStyle limit p listed r is x) : Draws u c es' d' noOwnStyle limit p listed r is x := by
  induction g with
  | nil => exact .nil
  | @text r i is n t x hn hd _ ih =>
    obtain ⟨n', e1, -, e2, -⟩ := h.old i n hn
    exact .text e1 (e2.trans hd) ih
  | @elem r inner i is n tag y z x w hn ht _ _ hsh _ ih1 ih2 ih3 =>
    obtain ⟨n', e1, e2, -, -, e3⟩ := h.old i n hn
    have hw := h.waiting c (getElem?_lt hn)
    have hd : n.data = none := by
      cases hx : n.data with
      | none => rfl
      | some y => have := ((hinv.node i n hn).data (by simp [hx])).1; rw [ht] at this; cases this
    refine .elem e1 (e2.trans ht) (e3.symm ▸ ih1) (hw.symm ▸ ih2) (.inl ⟨⟨⟨?_, ?_⟩, ?_⟩, ?_⟩) ih3
    · simp [hr]
    · simp [hr]
    · intro r h'; rw [hr] at h'; cases h'
    · rcases hsh with ⟨-, hsh⟩ | ⟨k, -⟩
      · rw [hw]
        exact h.drawn hinv hinv' hn hd (ha i (getElem?_lt hn)) hsh
      · exact absurd (by intro r h'; rw [hr] at h'; cases h') k
  | @entry r i is m n tag y x w hn ht hm _ hl _ ih1 ih2 =>
    obtain ⟨n', e1, e2, -, -, e3⟩ := h.old i n hn
    exact .entry e1 (e2.trans ht) (h.number c hm) (e3.symm ▸ ih1) (listed_same (fun k _ => ha i (getElem?_lt hn) k) hl) ih2

end grow

end Verif
