import Verif.Props.Continued
import Verif.Spec.TreePage

/-!
# The tree of the parser and the tree of the document
-/

namespace Verif

open Spec

/-! ## Where the nodes of a forest are -/

/-- The siblings `ids` are the forest, their nodes are numbered in document order from `i`, and `E` are the start tags and texts of the
document. -/
def Sits (d : Dom) (E : List Event) : (pre : Bool) → Nat → List Nat → Forest → Prop
  | _, _, ids, .nil => ids = []
  | pre, i, ids, .text s rest => ∃ is n, ids = i :: is ∧ d.nodes[i]? = some n ∧ n.tag = none ∧ n.data = some (normaliseData pre s) ∧
      Sits d E pre (i + 1) is rest
  | pre, i, ids, .elem tag attrs kids rest => ∃ is n, ids = i :: is ∧ d.nodes[i]? = some n ∧ n.tag = some tag ∧ n.data = none ∧
      E[i]? = some (.start tag attrs) ∧ Sits d E (pre || tag == py"pre") (i + 1) n.children kids ∧ Sits d E pre (i + 1 + kids.size) is rest

theorem range'_split {i : Nat} {a b : List Nat} (h : i :: (a ++ b) = List.range' i (a ++ b).length.succ) :
    a = List.range' (i + 1) a.length ∧ b = List.range' (i + 1 + a.length) b.length := by
  rw [List.range'_succ, List.length_append, ← List.range'_append_1] at h
  have h2 := (List.cons.inj h).2
  exact List.append_inj h2 (by simp)

theorem elem_creates (tag : Str) (attrs : List (Str × Option Str)) (kids rest : Forest) :
    (Forest.elem tag attrs kids rest).events.filter creates = .start tag attrs :: (kids.events.filter creates ++ rest.events.filter creates) := by
  simp only [Forest.events, List.filter_cons, creates, if_true, List.filter_append]
  by_cases h : VoidTag tag
  · simp [h]
  · simp [h, creates]

theorem size_creates (f : Forest) : (f.events.filter creates).length = f.size := by
  induction f with
  | nil => rfl
  | text s rest ih => simp [Forest.events, List.filter_cons, creates, Forest.size, ih]
  | elem tag attrs kids rest ih1 ih2 => rw [elem_creates]; simp [Forest.size, ih1, ih2]

theorem sits_of {d : Dom} {src} (hinv : SelInv d src) {E : List Event} (f : Forest) : ∀ {pre : Bool} {i : Nat} {ids l : List Nat} {A B : List Event},
    Rep d pre ids f → Walk d ids l → l = List.range' i l.length → E = A ++ f.events.filter creates ++ B → A.length = i →
    Sits d E pre i ids f ∧ f.size = l.length := by
  induction f with
  | nil =>
    intro pre i ids l A B h w _ _ _
    cases h
    cases w
    exact ⟨rfl, rfl⟩
  | text s rest ih =>
    intro pre i ids l A B h w hl hE hA
    obtain ⟨j, is, n, rfl, hn, ht, hd, hr⟩ := h
    cases w with
    | @cons _ n' _ a b hn' hk hr' =>
      rw [hn] at hn'; cases hn'
      have hj : j = i := by
        rw [List.cons_append, List.length_cons, List.range'_succ] at hl
        exact (List.cons.inj hl).1
      subst hj
      obtain ⟨ha, hb⟩ := range'_split (by simpa using hl)
      have hz : a = [] := by
        rw [((hinv.node _ n hn).data (by simp [hd])).2] at hk
        cases hk; rfl
      subst hz
      obtain ⟨h1, h2⟩ := ih (A := A ++ [.data s]) (B := B) hr hr' hb (by rw [hE]; simp [Forest.events, List.filter_cons, creates]) (by simp [hA])
      exact ⟨⟨is, n, rfl, hn, ht, hd, h1⟩, by simp [Forest.size, h2]⟩
  | elem tag attrs kids rest ih1 ih2 =>
    intro pre i ids l A B h w hl hE hA
    obtain ⟨j, is, n, rfl, hn, ht, hd, -, hk1, hr⟩ := h
    cases w with
    | @cons _ n' _ a b hn' hk hr' =>
      rw [hn] at hn'; cases hn'
      have hj : j = i := by
        rw [List.cons_append, List.length_cons, List.range'_succ] at hl
        exact (List.cons.inj hl).1
      subst hj
      obtain ⟨ha, hb⟩ := range'_split (by simpa using hl)
      rw [elem_creates] at hE
      obtain ⟨h1, h2⟩ := ih1 (A := A ++ [.start tag attrs]) (B := rest.events.filter creates ++ B) hk1 hk ha (by rw [hE]; simp) (by simp [hA])
      rw [← h2] at hb
      obtain ⟨h3, h4⟩ := ih2 (A := A ++ [.start tag attrs] ++ kids.events.filter creates) (B := B) hr hr' hb (by rw [hE]; simp)
        (by simp [hA, size_creates]; omega)
      refine ⟨⟨is, n, rfl, hn, ht, hd, ?_, h1, h3⟩, by simp [Forest.size, h2, h4]⟩
      rw [hE, List.append_assoc, List.getElem?_append_right (by omega), hA]
      simp

/-! ## Where an element stands -/

/-- The siblings `L` are in elements with the tags `up`. -/
inductive UpAt (d : Dom) : List Nat → List Str → Prop where
  | root : UpAt d d.roots []
  | child {L : List Nat} {up : List Str} {j : Nat} {n : Node} {t : Str} : UpAt d L up → j ∈ L → d.nodes[j]? = some n → n.tag = some t →
      UpAt d n.children (t :: up)

theorem upAt_siblings {d : Dom} {L : List Nat} {up : List Str} (h : UpAt d L up) : Siblings d L := by
  cases h with
  | root => exact .inl rfl
  | child _ _ hn _ => exact .inr ⟨_, _, hn, rfl⟩

section

variable {d : Dom} {src : Nat → List (Str × Option Str)} (hinv : SelInv d src)

include hinv

theorem childOf_iff {L : List Nat} {up : List Str} (h : UpAt d L up) {i : Nat} (hi : i ∈ L) (t : Str) :
    ChildOf d t i ↔ up.head? = some t := by
  cases h with
  | root =>
    constructor
    · rintro ⟨j, ⟨n, hn, hc⟩, -⟩
      obtain ⟨-, x, hx, hxp⟩ := (hinv.node j n hn).child i hc
      obtain ⟨y, hy, hyp⟩ := hinv.root i hi
      rw [hx] at hy; cases hy
      rw [hxp] at hyp
      rcases hyp with e | e <;> cases e
    · intro h; cases h
  | @child L up j n t' _ _ hn ht =>
    obtain ⟨-, x, hx, hxp⟩ := (hinv.node j n hn).child i hi
    constructor
    · rintro ⟨j', ⟨n', hn', hc⟩, m, hm, hmt⟩
      obtain ⟨-, y, hy, hyp⟩ := (hinv.node j' n' hn').child i hc
      rw [hx] at hy; cases hy
      rw [hxp] at hyp; cases hyp
      rw [hn] at hm; cases hm
      rw [ht] at hmt
      simpa using hmt
    · intro e
      simp only [List.head?_cons, Option.some.injEq] at e
      subst e
      exact ⟨j, ⟨n, hn, hi⟩, n, hn, ht⟩

theorem inNestedList_iff {L : List Nat} {up : List Str} (h : UpAt d L up) {i : Nat} (hi : i ∈ L) :
    InNestedList d i ↔ (up.head? = some py"ol" ∨ up.head? = some py"ul") ∧ up[1]? = some py"li" := by
  have key : ∀ t, (∃ j, ParentOf d j i ∧ HasTag d j t) ↔ up.head? = some t := fun t => childOf_iff hinv h hi t
  cases h with
  | root =>
    constructor
    · rintro ⟨j, h1, h2, -⟩
      rcases h2 with h2 | h2
      · have := (key _).1 ⟨j, h1, h2⟩; cases this
      · have := (key _).1 ⟨j, h1, h2⟩; cases this
    · rintro ⟨h1, -⟩
      rcases h1 with h1 | h1 <;> cases h1
  | @child L up j n t' hu hj hn ht =>
    obtain ⟨-, x, hx, hxp⟩ := (hinv.node j n hn).child i hi
    have huniq : ∀ j', ParentOf d j' i → j' = j := by
      rintro j' ⟨n', hn', hc⟩
      obtain ⟨-, y, hy, hyp⟩ := (hinv.node j' n' hn').child i hc
      rw [hx] at hy; cases hy
      rw [hxp] at hyp; cases hyp
      rfl
    constructor
    · rintro ⟨j', h1, h2, h3⟩
      have := huniq j' h1
      subst this
      refine ⟨h2.imp (fun k => (key _).1 ⟨_, h1, k⟩) (fun k => (key _).1 ⟨_, h1, k⟩), ?_⟩
      have := (childOf_iff hinv hu hj _).1 h3
      simpa [List.head?_eq_getElem?] using this
    · rintro ⟨h2, h3⟩
      refine ⟨j, ⟨n, hn, hi⟩, ?_, ?_⟩
      · rcases h2 with h2 | h2
        · obtain ⟨j', k1, k2⟩ := (key _).2 h2
          rw [huniq j' k1] at k2
          exact .inl k2
        · obtain ⟨j', k1, k2⟩ := (key _).2 h2
          rw [huniq j' k1] at k2
          exact .inr k2
      · refine (childOf_iff hinv hu hj _).2 ?_
        simpa [List.head?_eq_getElem?] using h3

theorem around_iff {L done is : List Nat} {up : List Str} (h : UpAt d L up) {i : Nat} {n : Node} (hL : L = done ++ i :: is)
    (hn : d.nodes[i]? = some n) (hd : n.data = none) (b a : List Nat) : Around d i b a ↔ b = done ∧ a = is := by
  obtain ⟨-, A, C, -, -, -, -, -, e⟩ := elem_pos hinv hn hd
  have h1 : Around d i done is := by unfold Around; rw [← hL]; exact upAt_siblings h
  obtain ⟨rfl, rfl⟩ := (e _ _).1 h1
  exact e b a

theorem firstChild_iff {L done is : List Nat} {up : List Str} (h : UpAt d L up) {i : Nat} {n : Node} (hL : L = done ++ i :: is)
    (hn : d.nodes[i]? = some n) (hd : n.data = none) : FirstChild d i ↔ elemCount d done = 0 := by
  constructor
  · rintro ⟨b, a, h1, h2⟩
    obtain ⟨rfl, rfl⟩ := (around_iff hinv h hL hn hd _ _).1 h1
    exact h2
  · intro h2
    exact ⟨_, _, (around_iff hinv h hL hn hd _ _).2 ⟨rfl, rfl⟩, h2⟩

theorem lastChild_iff {L done is : List Nat} {up : List Str} (h : UpAt d L up) {i : Nat} {n : Node} (hL : L = done ++ i :: is)
    (hn : d.nodes[i]? = some n) (hd : n.data = none) : LastChild d i ↔ elemCount d is = 0 := by
  constructor
  · rintro ⟨b, a, h1, h2⟩
    obtain ⟨rfl, rfl⟩ := (around_iff hinv h hL hn hd _ _).1 h1
    exact h2
  · intro h2
    exact ⟨_, _, (around_iff hinv h hL hn hd _ _).2 ⟨rfl, rfl⟩, h2⟩

end

/-! ## Counting -/

theorem sits_top {d : Dom} {E : List Event} (q : Node → Bool) (p : Str → Bool) (hq : ∀ n : Node, q n = (n.tag).any p) (f : Forest) :
    ∀ {pre i ids}, Sits d E pre i ids f → (ids.filter (fun j => (d.nodes[j]?).any q)).length = f.topCount p := by
  induction f with
  | nil => intro pre i ids h; cases h; rfl
  | text s rest ih =>
    intro pre i ids h
    obtain ⟨is, n, rfl, hn, ht, hd, hr⟩ := h
    simp [hn, hq, ht, Forest.topCount, ih hr]
  | elem tag attrs kids rest _ ih =>
    intro pre i ids h
    obtain ⟨is, n, rfl, hn, ht, hd, -, -, hr⟩ := h
    simp only [List.filter_cons, hn, Option.any_some, hq, ht, Forest.topCount, ← ih hr]
    by_cases h : p tag
    · simp [h]; omega
    · simp [h]

theorem sits_elems {d : Dom} {E : List Event} (f : Forest) {pre i ids} (h : Sits d E pre i ids f) :
    elemCount d ids = f.topCount (fun _ => true) := by
  rw [← sits_top (fun n => n.tag.isSome) (fun _ => true) (fun n => by cases n.tag <;> rfl) f h]
  unfold elemCount
  rw [List.countP_eq_length_filter]
  congr 1
  apply List.filter_congr
  intro j _
  unfold Dom.isTag
  cases d.nodes[j]? <;> rfl

/-- How many nodes before `i` have a property. -/
def before (d : Dom) (q : Node → Bool) (i : Nat) : Nat := ((List.range i).filter (fun j => (d.nodes[j]?).any q)).length

theorem before_succ (d : Dom) (q : Node → Bool) (i : Nat) :
    before d q (i + 1) = before d q i + (if (d.nodes[i]?).any q then 1 else 0) := by
  unfold before
  rw [List.range_succ, List.filter_append, List.length_append]
  congr 1
  by_cases h : (d.nodes[i]?).any q <;> simp [h]

theorem before_sits {d : Dom} {E : List Event} (q : Node → Bool) (p : Str → Bool) (hq : ∀ n : Node, q n = (n.tag).any p) (f : Forest) :
    ∀ {pre i ids}, Sits d E pre i ids f → before d q (i + f.size) = before d q i + f.count p := by
  induction f with
  | nil => intro pre i ids h; rfl
  | text s rest ih =>
    intro pre i ids h
    obtain ⟨is, n, rfl, hn, ht, hd, hr⟩ := h
    have := ih hr
    rw [before_succ, hn] at this
    simp only [Option.any_some, hq, ht, Option.any_none, Bool.false_eq_true, if_false, Nat.add_zero] at this
    simp only [Forest.size, Forest.count]
    rw [← this]; congr 1; omega
  | elem tag attrs kids rest ih1 ih2 =>
    intro pre i ids h
    obtain ⟨is, n, rfl, hn, ht, hd, -, hk, hr⟩ := h
    have h1 := ih1 hk
    have h2 := ih2 hr
    rw [before_succ, hn] at h1
    simp only [Option.any_some, hq, ht] at h1
    simp only [Forest.size, Forest.count]
    rw [show i + (kids.size + rest.size + 1) = i + 1 + kids.size + rest.size by omega, h2, h1]
    omega

theorem filter_range_get (P : Nat → Bool) (n m i : Nat) :
    ((List.range n).filter P)[m]? = some i ↔ i < n ∧ P i = true ∧ m = ((List.range i).filter P).length := by
  induction n with
  | zero => simp
  | succ n ih =>
    rw [List.range_succ, List.filter_append]
    by_cases hm : m < ((List.range n).filter P).length
    · rw [List.getElem?_append_left hm, ih]
      constructor
      · rintro ⟨h1, h2⟩; exact ⟨by omega, h2⟩
      · rintro ⟨h1, h2, h3⟩
        refine ⟨?_, h2, h3⟩
        rcases Nat.lt_succ_iff_lt_or_eq.1 h1 with h | rfl
        · exact h
        · omega
    · rw [List.getElem?_append_right (by omega)]
      have hz : ∀ {P : Nat → Bool} {a b : Nat}, a < b → P a = true → ((List.range a).filter P).length < ((List.range b).filter P).length := by
        intro P a b hab ha
        obtain ⟨k, rfl⟩ := Nat.exists_eq_add_of_lt hab
        rw [show a + k + 1 = (a + 1) + k by omega, List.range_add, List.filter_append, List.range_succ, List.filter_append]
        simp [ha]
      by_cases hp : P n
      · simp only [List.filter_cons, hp, if_true, List.filter_nil]
        constructor
        · intro h
          have := getElem?_lt h
          simp only [List.length_cons, List.length_nil] at this
          have e : m - ((List.range n).filter P).length = 0 := by omega
          rw [e] at h
          simp only [List.getElem?_cons_zero, Option.some.injEq] at h
          subst h
          exact ⟨by omega, hp, by omega⟩
        · rintro ⟨h1, h2, h3⟩
          rcases Nat.lt_succ_iff_lt_or_eq.1 h1 with h | rfl
          · have := hz h h2; omega
          · rw [h3]; simp
      · have : [n].filter P = [] := by simp [hp]
        rw [this]
        constructor
        · intro h; simp at h
        · rintro ⟨h1, h2, h3⟩
          rcases Nat.lt_succ_iff_lt_or_eq.1 h1 with h | rfl
          · have := hz h h2; omega
          · exact absurd h2 hp

theorem number_iff {d : Dom} {q : Node → Bool} {i : Nat} {n : Node} (hn : d.nodes[i]? = some n) (hq : q n = true) (m : Nat) :
    (nodesWhere d q)[m]? = some i ↔ m = before d q i := by
  unfold nodesWhere before
  rw [filter_range_get]
  constructor
  · exact fun h => h.2.2
  · exact fun h => ⟨getElem?_lt hn, by rw [hn]; exact hq, h⟩

theorem number_lt {d : Dom} {q : Node → Bool} {i m : Nat} (h : (nodesWhere d q)[m]? = some i) : ∃ n, d.nodes[i]? = some n ∧ q n = true := by
  unfold nodesWhere at h
  rw [filter_range_get] at h
  obtain ⟨h1, h2, -⟩ := h
  rw [List.getElem?_eq_getElem h1] at h2
  exact ⟨_, List.getElem?_eq_getElem h1, h2⟩

/-! ## What elements look like -/

/-- What is known of an element of the forest. -/
structure TreeSpot (c : Cfg) (es : List Event) (d : Dom) (i : Nat) (pl : Place) (m : Nat) (attrs : List (Str × Option Str)) (kids : Forest)
    (tag : Str) : Prop where
  pos : 0 < m
  child : ∀ t, ChildOf d t i ↔ pl.up.head? = some t
  nested : InNestedList d i ↔ pl.inNestedList
  first : FirstChild d i ↔ pl.elems = 0
  last : LastChild d i ↔ pl.later = 0
  around : ∃ b a, Around d i b a ∧ b.length = pl.nodes ∧ ∀ b' a', Around d i b' a' → b' = b
  number : numbered c tag = true → ∀ k, (nodesWhere d (extracted c))[k]? = some i ↔ k + 1 = m
  attr : ∀ k, attrText es i k = givenAttr attrs k
  code : OnlyCode d i ↔ kids.OnlyCode

theorem margins_inj {a b a' b' : Int} (h : margins a b = margins a' b') : a = a' ∧ b = b' := by
  simp only [margins, List.cons.injEq, Prod.mk.injEq, Val.ints.injEq, and_true, true_and] at h
  exact h

theorem margins_ne {a b : Int} (h : margins a b = []) : False := by cases h

section

variable {c : Cfg} {es : List Event} {d : Dom} {i : Nat} {pl : Place} {m : Nat} {attrs : List (Str × Option Str)} {kids : Forest} {tag : Str}

theorem TreeSpot.pStyle (h : TreeSpot c es d i pl m attrs kids tag) {st : Dict} (g : PStyle d i st) :
    st = margins pl.paragraphSpace.1 pl.paragraphSpace.2 ∨ st = [] ∧ pl.paragraphSpace = (1, 1) := by
  unfold Place.paragraphSpace
  cases g with
  | only a b c => rw [if_pos ((h.child _).1 a), if_pos (h.first.1 b), if_pos (h.last.1 c)]; exact .inl rfl
  | first a b c => rw [if_pos ((h.child _).1 a), if_pos (h.first.1 b), if_neg (fun k => c (h.last.2 k))]; exact .inl rfl
  | last a b c => rw [if_pos ((h.child _).1 a), if_neg (fun k => b (h.first.2 k)), if_pos (h.last.1 c)]; exact .inl rfl
  | inner a b c =>
    rw [if_pos ((h.child _).1 a), if_neg (fun k => b (h.first.2 k)), if_neg (fun k => c (h.last.2 k))]; exact .inr ⟨rfl, rfl⟩
  | free a => rw [if_neg (fun k => a ((h.child _).2 k))]; exact .inr ⟨rfl, rfl⟩

theorem TreeSpot.pSpace (h : TreeSpot c es d i pl m attrs kids tag) {a b : Int} :
    PSpace d i a b ↔ a = pl.paragraphSpace.1 ∧ b = pl.paragraphSpace.2 := by
  constructor
  · rintro (g | ⟨g, rfl, rfl⟩)
    · rcases h.pStyle g with e | ⟨e, -⟩
      · exact margins_inj e
      · exact (margins_ne e).elim
    · rcases h.pStyle g with e | ⟨-, e⟩
      · exact (margins_ne e.symm).elim
      · rw [e]; exact ⟨rfl, rfl⟩
  · rintro ⟨rfl, rfl⟩
    unfold Place.paragraphSpace
    by_cases h1 : pl.up.head? = some py"blockquote"
    · rw [if_pos h1]
      have c1 := (h.child _).2 h1
      by_cases h2 : pl.elems = 0
      · by_cases h3 : pl.later = 0
        · rw [if_pos h2, if_pos h3]; exact .inl (.only c1 (h.first.2 h2) (h.last.2 h3))
        · rw [if_pos h2, if_neg h3]; exact .inl (.first c1 (h.first.2 h2) (fun k => h3 (h.last.1 k)))
      · by_cases h3 : pl.later = 0
        · rw [if_neg h2, if_pos h3]; exact .inl (.last c1 (fun k => h2 (h.first.1 k)) (h.last.2 h3))
        · rw [if_neg h2, if_neg h3]; exact .inr ⟨.inner c1 (fun k => h2 (h.first.1 k)) (fun k => h3 (h.last.1 k)), rfl, rfl⟩
    · rw [if_neg h1]
      exact .inr ⟨.free (fun k => h1 ((h.child _).1 k)), rfl, rfl⟩

theorem TreeSpot.liSpace (h : TreeSpot c es d i pl m attrs kids tag) {a : Int} : LiSpace d i a ↔ a = pl.itemSpace := by
  have key : ∀ st, LiStyle d i st → st = margins pl.itemSpace 0 ∨ st = [] ∧ pl.itemSpace = 1 := by
    intro st g
    unfold Place.itemSpace
    cases g with
    | nested a b => rw [if_neg (fun k => k.2 (h.nested.1 b))]; exact .inl rfl
    | first a b => rw [if_pos ⟨h.first.1 a, fun k => b (h.nested.2 k)⟩]; exact .inl rfl
    | later a => rw [if_neg (fun k => a (h.first.2 k.1))]; exact .inr ⟨rfl, rfl⟩
  constructor
  · rintro (g | ⟨g, rfl⟩)
    · rcases key _ g with e | ⟨e, -⟩
      · exact (margins_inj e).1
      · exact (margins_ne e).elim
    · rcases key _ g with e | ⟨-, e⟩
      · exact (margins_ne e.symm).elim
      · rw [e]; rfl
  · rintro rfl
    unfold Place.itemSpace
    by_cases h1 : pl.elems = 0
    · by_cases h2 : pl.inNestedList
      · rw [if_neg (fun k => k.2 h2)]; exact .inl (.nested (h.first.2 h1) (h.nested.2 h2))
      · rw [if_pos ⟨h1, h2⟩]; exact .inl (.first (h.first.2 h1) (fun k => h2 (h.nested.1 k)))
    · rw [if_neg (fun k => h1 k.1)]; exact .inr ⟨.later (fun k => h1 (h.first.1 k)), rfl⟩

theorem TreeSpot.dtSpace (h : TreeSpot c es d i pl m attrs kids tag) {a : Int} : DtSpace d i a ↔ a = pl.termSpace := by
  unfold DtSpace Place.termSpace
  rw [h.first]
  by_cases h1 : pl.elems = 0 <;> simp [h1]

theorem TreeSpot.bullet (h : TreeSpot c es d i pl m attrs kids tag) {x : Str} : Bullet d i x ↔ x = pl.bullet := by
  obtain ⟨b, a, h1, h2, h3⟩ := h.around
  unfold Bullet Place.bullet
  rw [h.child]
  by_cases hc : pl.up.head? = some py"ol"
  · simp only [hc, true_and, not_true_eq_false, false_and, or_false, if_true]
    constructor
    · rintro ⟨b', a', k1, k2⟩
      rw [h3 _ _ k1, h2] at k2
      exact k2
    · intro e
      exact ⟨b, a, h1, by rw [h2]; exact e⟩
  · simp [hc]

theorem numbered_a (h : c.linkPlacement ≠ py"inline") : numbered c py"a" = true := by simp [numbered, h]

theorem numbered_img (h : c.imagePlacement ≠ py"inline") : numbered c py"img" = true := by simp [numbered, h]

theorem TreeSpot.painted (h : TreeSpot c es d i pl m attrs kids tag) {u : Uni} {p r inner : Int} {y x : Str} :
    Drawn u c es d p r i tag inner y x ↔ Painted u c p r pl m attrs kids tag inner y x := by
  constructor
  · intro g
    cases g with
    | marked a => exact .marked a
    | br => exact .br
    | code a b => exact .code (fun k => a ((h.child _).2 k)) b
    | fence a b => exact .fence (fun k => a ((h.child _).2 k)) b
    | codeInPre a => exact .codeInPre ((h.child _).1 a)
    | reference a b =>
      rw [(h.number (numbered_a a) _).1 b]
      exact .reference a
    | link a => rw [h.attr, h.attr]; exact .link a
    | imageReference a b =>
      rw [(h.number (numbered_img a) _).1 b]
      exact .imageReference a
    | image a => rw [h.attr, h.attr]; exact .image a
    | header a => exact .header a
    | pre a => exact .pre a
    | quote a => exact .quote a
    | list a => exact .list a
    | div => exact .div
    | term a => rw [h.dtSpace.1 a]; exact .term
    | item a b e => rw [h.liSpace.1 a, h.bullet.1 b]; exact .item (h.bullet.1 b ▸ e)
    | description a => exact .description a
    | paragraph a b e f g => rw [(h.pSpace.1 a).1, (h.pSpace.1 a).2]; exact .paragraph (fun k => b (h.code.2 k)) e f g
    | codeParagraph a b => rw [(h.pSpace.1 a).1, (h.pSpace.1 a).2]; exact .codeParagraph (h.code.1 b)
    | other a => exact .other a
  · intro g
    cases g with
    | marked a => exact .marked a
    | br => exact .br
    | code a b => exact .code (fun k => a ((h.child _).1 k)) b
    | fence a b => exact .fence (fun k => a ((h.child _).1 k)) b
    | codeInPre a => exact .codeInPre ((h.child _).2 a)
    | reference a =>
      have : ∃ k, k + 1 = m := ⟨m - 1, by have := h.pos; omega⟩
      obtain ⟨k, rfl⟩ := this
      exact .reference a ((h.number (numbered_a a) _).2 rfl)
    | link a => rw [← h.attr, ← h.attr]; exact .link a
    | imageReference a =>
      have : ∃ k, k + 1 = m := ⟨m - 1, by have := h.pos; omega⟩
      obtain ⟨k, rfl⟩ := this
      exact .imageReference a ((h.number (numbered_img a) _).2 rfl)
    | image a => rw [← h.attr, ← h.attr]; exact .image a
    | header a => exact .header a
    | pre a => exact .pre a
    | quote a => exact .quote a
    | list a => exact .list a
    | div => exact .div
    | term => exact .term (h.dtSpace.2 rfl)
    | item e => exact .item (h.liSpace.2 rfl) (h.bullet.2 rfl) e
    | description a => exact .description a
    | paragraph b e f g => exact .paragraph (h.pSpace.2 ⟨rfl, rfl⟩) (fun k => b (h.code.1 k)) e f g
    | codeParagraph b => exact .codeParagraph (h.pSpace.2 ⟨rfl, rfl⟩) (h.code.2 b)
    | other a => exact .other a

end

/-! ## Lists of links -/

theorem sorted_ext : ∀ {l l' : List Nat}, l.Pairwise (· < ·) → l'.Pairwise (· < ·) → (∀ x, x ∈ l ↔ x ∈ l') → l = l'
  | [], [], _, _, _ => rfl
  | [], b :: l', _, _, h => by have := (h b).2 (by simp); cases this
  | a :: l, [], _, _, h => by have := (h a).1 (by simp); cases this
  | a :: l, b :: l', h1, h2, h => by
    rw [List.pairwise_cons] at h1 h2
    have hab : a = b := by
      rcases List.mem_cons.1 ((h a).1 (by simp)) with e | e
      · exact e
      · rcases List.mem_cons.1 ((h b).2 (by simp)) with e' | e'
        · exact e'.symm
        · have := h1.1 _ e'; have := h2.1 _ e; omega
    subst hab
    rw [sorted_ext h1.2 h2.2 (fun x => ?_)]
    constructor
    · intro hx
      rcases List.mem_cons.1 ((h x).1 (by simp [hx])) with e | e
      · subst e; have := h1.1 _ hx; omega
      · exact e
    · intro hx
      rcases List.mem_cons.1 ((h x).2 (by simp [hx])) with e | e
      · subst e; have := h2.1 _ hx; omega
      · exact e

theorem sits_sorted {d : Dom} {E : List Event} (f : Forest) : ∀ {pre i ids}, Sits d E pre i ids f →
    ids.Pairwise (· < ·) ∧ ∀ j ∈ ids, i ≤ j := by
  induction f with
  | nil => intro pre i ids h; cases h; simp
  | text s rest ih =>
    intro pre i ids h
    obtain ⟨is, n, rfl, hn, ht, hd, hr⟩ := h
    obtain ⟨h1, h2⟩ := ih hr
    refine ⟨List.pairwise_cons.2 ⟨fun j hj => h2 j hj, h1⟩, fun j hj => ?_⟩
    rcases List.mem_cons.1 hj with rfl | hj
    · exact Nat.le_refl _
    · have := h2 j hj; omega
  | elem tag attrs kids rest _ ih =>
    intro pre i ids h
    obtain ⟨is, n, rfl, hn, ht, hd, -, -, hr⟩ := h
    obtain ⟨h1, h2⟩ := ih hr
    refine ⟨List.pairwise_cons.2 ⟨fun j hj => ?_, h1⟩, fun j hj => ?_⟩
    · have := h2 j hj; omega
    · rcases List.mem_cons.1 hj with rfl | hj
      · exact Nat.le_refl _
      · have := h2 j hj; omega

theorem waiting_eq {d : Dom} {src} (hinv : SelInv d src) {E : List Event} (c : Cfg) {pre : Bool} {i k : Nat} {n : Node} {kids : Forest}
    (hn : d.nodes[i]? = some n) (hk : Sits d E pre k n.children kids) : waiting c d i =
      if (d.nodes[i]?).any (placed c py"inline") then [] else n.children.filter (fun j => (d.nodes[j]?).any (placed c py"after_block")) := by
  unfold waiting
  split
  · rfl
  · refine sorted_ext ?_ ?_ (fun x => ?_)
    · exact List.pairwise_lt_range.filter _
    · exact (sits_sorted kids hk).1.filter _
    · simp only [nodesWhere, List.mem_filter, List.mem_range]
      constructor
      · rintro ⟨h1, h2⟩
        rw [List.getElem?_eq_getElem h1] at h2 ⊢
        simp only [Option.any_some, Bool.and_eq_true, decide_eq_true_eq] at h2
        refine ⟨?_, h2.1⟩
        have := (hinv.node x _ (List.getElem?_eq_getElem h1)).parent
        rw [h2.2] at this
        obtain ⟨-, m, hm, hx, -⟩ := this
        rw [hn] at hm; cases hm
        exact hx
      · rintro ⟨h1, h2⟩
        obtain ⟨-, m, hm, hp⟩ := (hinv.node i n hn).child x h1
        refine ⟨getElem?_lt hm, ?_⟩
        rw [hm] at h2 ⊢
        simp only [Option.any_some] at h2 ⊢
        simp [h2, hp]

theorem draws_join {u : Uni} {c : Cfg} {es : List Event} {d : Dom} {own : OwnStyle} {limit : Nat} {p r : Int} {listed : Bool} {is js : List Nat} {a b : Str}
    (h : Draws u c es d own limit p listed r is a) (h' : Draws u c es d own limit p listed r js b) :
    Draws u c es d own limit p listed r (is ++ js) (a ++ b) := by
  induction h with
  | nil => exact h'
  | text hn hd _ ih => rw [List.append_assoc]; exact .text hn hd (ih h')
  | elem hn ht hy hz hsh _ _ _ ih => rw [List.append_assoc]; exact .elem hn ht hy hz hsh (ih h')
  | entry hn ht hm hy hl _ _ ih => rw [List.append_assoc]; exact .entry hn ht hm hy hl (ih h')

theorem placed_tag (c : Cfg) (place : Str) (n : Node) : placed c place n = n.tag.any (linkAt c place) := by
  unfold placed linkAt
  cases n.tag <;> rfl

theorem extracted_tag (c : Cfg) (n : Node) : extracted c n = n.tag.any (numbered c) := by
  unfold extracted numbered
  cases n.tag <;> rfl

theorem lists_numbered {c : Cfg} {mode : Mode} {tag : Str} (h : mode.lists c tag = true) : numbered c tag = true := by
  cases mode with
  | page => cases h
  | near =>
    simp only [Mode.lists, linkAt, Bool.or_eq_true, Bool.and_eq_true, decide_eq_true_eq] at h
    rcases h with ⟨rfl, h⟩ | ⟨rfl, h⟩ <;> simp [numbered, h]
  | all =>
    simp only [Mode.lists, linkAt, Bool.or_eq_true, Bool.and_eq_true, decide_eq_true_eq] at h
    rcases h with ⟨rfl, h⟩ | ⟨rfl, h⟩ <;> simp [numbered, h]

theorem TreeSpot.entry {c : Cfg} {es : List Event} {d : Dom} {i : Nat} {pl : Place} {m : Nat} {attrs : List (Str × Option Str)} {kids : Forest} {tag : Str}
    (h : TreeSpot c es d i pl m attrs kids tag) {u : Uni} {limit : Nat} {r : Int} {y x : Str} :
    Listed u c es limit r i m tag y x ↔ Entry u c limit r m attrs tag y x := by
  constructor
  · intro g
    cases g with
    | link a => rw [h.attr, h.attr]; exact .link a
    | image a => rw [h.attr, h.attr]; exact .image a
    | gopherLink a b => rw [h.attr]; exact .gopherLink a (h.attr _ ▸ b)
    | gopherImage a b => rw [h.attr]; exact .gopherImage a (h.attr _ ▸ b)
  · intro g
    cases g with
    | link a => rw [← h.attr, ← h.attr]; exact .link a
    | image a => rw [← h.attr, ← h.attr]; exact .image a
    | gopherLink a b => rw [← h.attr]; exact .gopherLink a (h.attr _ ▸ b)
    | gopherImage a b => rw [← h.attr]; exact .gopherImage a (h.attr _ ▸ b)

/-! ## Drawing -/

/-- The siblings `ids`, the first of which has number `i`, are the forest; they stand in elements with the tags `up`, after `a` siblings of
which `b` are elements, and there are `k` numbered links before them. -/
def StandsAt (c : Cfg) (d : Dom) (E : List Event) (up : List Str) (a b k i : Nat) (ids : List Nat) (f : Forest) : Prop :=
  ∃ L done, UpAt d L up ∧ L = done ++ ids ∧ a = done.length ∧ b = elemCount d done ∧ k = before d (extracted c) i ∧
    Sits d E (decide (py"pre" ∈ up)) i ids f

section

variable {d : Dom} {src : Nat → List (Str × Option Str)} {c : Cfg} {es : List Event} {up : List Str} {a b k i : Nat} {ids : List Nat}

theorem standsAt_text {s : Str} {rest : Forest} (h : StandsAt c d (es.filter creates) up a b k i ids (.text s rest)) :
    ∃ is n, ids = i :: is ∧ d.nodes[i]? = some n ∧ n.tag = none ∧ n.data = some (normaliseData (decide (py"pre" ∈ up)) s) ∧
      StandsAt c d (es.filter creates) up (a + 1) b k (i + 1) is rest := by
  obtain ⟨L, done, h1, h2, h3, h4, h5, is, n, rfl, hn, ht, hd, hr⟩ := h
  refine ⟨is, n, rfl, hn, ht, hd, L, done ++ [i], h1, by rw [h2]; simp, by simp [h3], ?_, ?_, hr⟩
  · rw [h4]; simp [elemCount, Dom.isTag, hn, ht]
  · rw [before_succ, hn, h5]; simp [extracted, ht]

theorem standsAt_elem (hinv : SelInv d src) {tag : Str} {attrs : List (Str × Option Str)} {kids rest : Forest}
    (h : StandsAt c d (es.filter creates) up a b k i ids (.elem tag attrs kids rest)) :
    ∃ is n, ids = i :: is ∧ d.nodes[i]? = some n ∧ n.tag = some tag ∧ n.data = none ∧
      TreeSpot c es d i ⟨up, a, b, rest.topCount (fun _ => true)⟩ (k + 1) attrs kids tag ∧
      StandsAt c d (es.filter creates) (tag :: up) 0 0 (k + (if numbered c tag then 1 else 0)) (i + 1) n.children kids ∧
      StandsAt c d (es.filter creates) up (a + 1) (b + 1) (k + (if numbered c tag then 1 else 0) + kids.count (numbered c)) (i + 1 + kids.size) is rest := by
  obtain ⟨L, done, h1, h2, h3, h4, h5, is, n, rfl, hn, ht, hd, hE, hk, hr⟩ := h
  have hi : i ∈ L := by rw [h2]; simp
  have hnum : before d (extracted c) (i + 1) = k + (if numbered c tag then 1 else 0) := by
    rw [before_succ, hn, h5]; simp [extracted_tag, ht]
  refine ⟨is, n, rfl, hn, ht, hd, ⟨by omega, ?_, ?_, ?_, ?_, ?_, ?_, ?_, ?_⟩, ?_, ?_⟩
  · exact childOf_iff hinv h1 hi
  · exact inNestedList_iff hinv h1 hi
  · rw [firstChild_iff hinv h1 h2 hn hd, h4]
  · rw [lastChild_iff hinv h1 h2 hn hd, sits_elems rest hr]
  · refine ⟨done, is, (around_iff hinv h1 h2 hn hd _ _).2 ⟨rfl, rfl⟩, h3.symm, fun b' a' g => ((around_iff hinv h1 h2 hn hd _ _).1 g).1⟩
  · intro hq m
    rw [number_iff hn (by rw [extracted_tag, ht]; exact hq), h5]
    omega
  · intro key
    simp only [attrText, givenAttr, srcAttrs, hE]
  · constructor
    · rintro ⟨n', j, k1, k2, k3⟩
      rw [hn] at k1; cases k1
      cases kids with
      | nil => rw [k2] at hk; cases hk
      | text s r =>
        obtain ⟨is', n', e, hn', ht', -⟩ := hk
        rw [k2] at e
        obtain ⟨rfl, -⟩ := List.cons.inj e
        rcases k3 with ⟨m, g1, g2⟩ | ⟨m, g1, g2⟩ <;> rw [hn'] at g1 <;> cases g1 <;> rw [ht'] at g2 <;> cases g2
      | elem t at' kk r =>
        obtain ⟨is', n', e, hn', ht', -, -, -, hr'⟩ := hk
        rw [k2] at e
        obtain ⟨rfl, rfl⟩ := List.cons.inj e
        cases r with
        | nil =>
          rcases k3 with ⟨m, g1, g2⟩ | ⟨m, g1, g2⟩ <;> rw [hn'] at g1 <;> cases g1 <;> rw [ht'] at g2 <;> cases g2
          · exact .inl rfl
          · exact .inr rfl
        | text s r => obtain ⟨_, _, e, -⟩ := hr'; cases e
        | elem t at' kk r => obtain ⟨_, _, e, -⟩ := hr'; cases e
    · intro g
      cases kids with
      | nil => exact g.elim
      | text s r => exact g.elim
      | elem t at' kk r =>
        cases r with
        | nil =>
          obtain ⟨is', n', e, hn', ht', -, -, -, hr'⟩ := hk
          cases hr'
          refine ⟨n, _, hn, e, ?_⟩
          rcases g with rfl | rfl
          · exact .inl ⟨n', hn', ht'⟩
          · exact .inr ⟨n', hn', ht'⟩
        | text s r => exact g.elim
        | elem t at' kk r => exact g.elim
  · refine ⟨n.children, [], .child h1 hi hn ht, by simp, rfl, rfl, hnum.symm, ?_⟩
    have : decide (py"pre" ∈ tag :: up) = (decide (py"pre" ∈ up) || tag == py"pre") := by
      by_cases e : tag = py"pre"
      · subst e; simp
      · have : py"pre" ≠ tag := fun k => e k.symm
        simp [e, this]
    rw [this]
    exact hk
  · refine ⟨L, done ++ [i], h1, by rw [h2]; simp, by simp [h3], ?_, ?_, hr⟩
    · rw [h4]; simp [elemCount, Dom.isTag, hn, ht]
    · rw [before_sits (extracted c) (numbered c) (extracted_tag c) kids hk, hnum]

end

/-- The tree of the document is drawn as the tree of the parser is. -/
theorem draws_draw {d : Dom} {src : Nat → List (Str × Option Str)} {c : Cfg} {es : List Event} (hinv : SelInv d src) (hr : c.renderers = [])
    (u : Uni) (limit : Nat) (p : Int) (f : Forest) : ∀ {up a b k i ids}, StandsAt c d (es.filter creates) up a b k i ids f →
    (∀ r x, Draws u c es d noOwnStyle limit p false r ids x ↔ Draw u c limit p .page up a b k r f x) ∧
    (∀ r x, Draws u c es d noOwnStyle limit p true r (ids.filter (fun j => (d.nodes[j]?).any (placed c py"after_block"))) x ↔
      Draw u c limit p .near up a b k r f x) ∧
    (∀ r x, Draws u c es d noOwnStyle limit p true r ((List.range' i f.size).filter (fun j => (d.nodes[j]?).any (placed c py"footer"))) x ↔
      Draw u c limit p .all up a b k r f x) := by
  induction f with
  | nil =>
    intro up a b k i ids h
    obtain ⟨L, done, -, -, -, -, -, hs⟩ := h
    cases hs
    refine ⟨fun r x => ?_, fun r x => ?_, fun r x => ?_⟩ <;> exact ⟨fun g => by cases g; exact .nil, fun g => by cases g; exact .nil⟩
  | text s rest ih =>
    intro up a b k i ids h
    obtain ⟨is, n, rfl, hn, ht, hd, h'⟩ := standsAt_text h
    obtain ⟨i1, i2, i3⟩ := ih h'
    have hnp : ∀ place, placed c place n = false := fun place => by rw [placed_tag, ht]; rfl
    refine ⟨fun r x => ⟨fun g => ?_, fun g => ?_⟩, fun r x => ?_, fun r x => ?_⟩
    · cases g with
      | text hn' hd' g =>
        rw [hn] at hn'; cases hn'
        rw [hd] at hd'; cases hd'
        exact .text ((i1 _ _).1 g)
      | elem hn' ht' => rw [hn] at hn'; cases hn'; rw [ht] at ht'; cases ht'
    · cases g with
      | text g => exact .text hn hd ((i1 _ _).2 g)
      | skipText g => exact absurd rfl g
    · simp only [List.filter_cons, hn, Option.any_some, hnp, Bool.false_eq_true, if_false, i2]
      exact ⟨fun g => .skipText (by decide) g, fun g => by cases g; assumption⟩
    · simp only [Forest.size, List.range'_succ, List.filter_cons, hn, Option.any_some, hnp, Bool.false_eq_true, if_false, i3]
      exact ⟨fun g => .skipText (by decide) g, fun g => by cases g; assumption⟩
  | elem tag attrs kids rest ihk ihr =>
    intro up a b k i ids h
    obtain ⟨is, n, rfl, hn, ht, hd, hst, hk, hr'⟩ := standsAt_elem hinv h
    obtain ⟨k1, k2, k3⟩ := ihk hk
    obtain ⟨r1, r2, r3⟩ := ihr hr'
    have hpl : ∀ place, placed c place n = linkAt c place tag := fun place => by rw [placed_tag, ht]; rfl
    obtain ⟨-, -, -, -, -, -, -, hks⟩ := hk
    have hw : waiting c d i = if linkAt c py"inline" tag then [] else n.children.filter (fun j => (d.nodes[j]?).any (placed c py"after_block")) := by
      rw [waiting_eq hinv c hn hks, hn, Option.any_some, hpl]
    have hnear : ∀ r z, Draws u c es d noOwnStyle limit p true r (waiting c d i) z ↔
        Draw u c limit p .near (tag :: up) 0 0 (k + (if numbered c tag then 1 else 0)) r (if linkAt c py"inline" tag then .nil else kids) z := by
      intro r z
      rw [hw]
      split
      · exact ⟨fun g => by cases g; exact .nil, fun g => by cases g; exact .nil⟩
      · exact k2 r z
    have hemp : waiting c d i = [] ↔ (if linkAt c py"inline" tag then Forest.nil else kids).topCount (Mode.lists c .near) = 0 := by
      rw [hw]
      split
      · exact ⟨fun _ => rfl, fun _ => rfl⟩
      · rw [← sits_top (placed c py"after_block") (Mode.lists c .near) (placed_tag c _) kids hks]
        simp
    have hentry : ∀ r y x, Listed u c es limit r i (k + 1) tag y x ↔ Entry u c limit r (k + 1) attrs tag y x := fun r y x => hst.entry
    refine ⟨fun r x => ⟨fun g => ?_, fun g => ?_⟩, fun r x => ?_, fun r x => ?_⟩
    · cases g with
      | text hn' hd' g => rw [hn] at hn'; cases hn'; rw [hd] at hd'; cases hd'
      | @elem _ inner _ _ n' tag' y z x' w hn' ht' hy hz hsh hx =>
        rw [hn] at hn'; cases hn'
        rw [ht] at ht'; cases ht'
        rcases hsh with ⟨-, hsh⟩ | ⟨g, -⟩
        · refine .elem rfl ((k1 _ _).1 hy) rfl ((hnear _ _).1 hz) ?_ ((r1 _ _).1 hx)
          rw [← hst.painted]
          by_cases e : waiting c d i = []
          · rw [if_pos (hemp.1 e)]; rw [if_pos e] at hsh; exact hsh
          · rw [if_neg (fun q => e (hemp.2 q))]; rw [if_neg e] at hsh; exact hsh
        · exact absurd (by intro r h'; rw [hr] at h'; cases h') g
    · cases g with
      | @elem _ _ _ _ _ inner _ _ _ _ y z x' w k' own hk' hy hown hz hl hx =>
        subst hk'; subst hown
        refine .elem hn ht ((k1 _ _).2 hy) ((hnear _ _).2 hz) (.inl ⟨⟨⟨?_, ?_⟩, ?_⟩, ?_⟩) ((r1 _ _).2 hx)
        · simp [hr]
        · simp [hr]
        · intro r h'; rw [hr] at h'; cases h'
        · rw [hst.painted]
          by_cases e : waiting c d i = []
          · rw [if_pos e]; rw [if_pos (hemp.1 e)] at hl; exact hl
          · rw [if_neg e]; rw [if_neg (fun q => e (hemp.2 q))] at hl; exact hl
      | entry g => exact absurd rfl g
      | skipElem g => exact absurd rfl g
    · simp only [List.filter_cons, hn, Option.any_some, hpl]
      by_cases hq : linkAt c py"after_block" tag = true
      · rw [if_pos hq]
        have hnumb := lists_numbered (mode := .near) hq
        constructor
        · intro g
          cases g with
          | entry hn' ht' hm hy hl hx =>
            rw [hn] at hn'; cases hn'
            rw [ht] at ht'; cases ht'
            rw [(hst.number hnumb _).1 hm, hentry] at hl
            have := Draw.entry (mode := .near) (v := []) (by decide) hq rfl ((k1 _ _).1 hy) hl .nil ((r2 _ _).1 hx)
            simpa using this
        · intro g
          cases g with
          | entry _ _ hk' hy hl hv hx =>
            subst hk'
            cases hv
            have := Draws.entry hn ht ((hst.number hnumb _).2 rfl) ((k1 _ _).2 hy) ((hentry _ _ _).2 hl) ((r2 _ _).2 hx)
            simpa using this
          | skipElem _ e => rw [show Mode.lists c .near tag = true from hq] at e; cases e
      · rw [if_neg hq, r2]
        constructor
        · intro g
          have := Draw.skipElem (mode := .near) (tag := tag) (attrs := attrs) (kids := kids) (a := a) (b := b) (k := k) (v := []) (by decide)
            (by simpa [Mode.lists] using hq) rfl .nil g
          simpa using this
        · intro g
          cases g with
          | entry _ e => exact absurd e hq
          | skipElem _ _ hk' hv hx => subst hk'; cases hv; exact hx
    · have hrange : (List.range' i (Forest.elem tag attrs kids rest).size) = i :: (List.range' (i + 1) kids.size ++ List.range' (i + 1 + kids.size) rest.size) := by
        simp only [Forest.size]
        rw [List.range'_succ, ← List.range'_append_1]
      rw [hrange]
      simp only [List.filter_cons, List.filter_append, hn, Option.any_some, hpl]
      by_cases hq : linkAt c py"footer" tag = true
      · rw [if_pos hq]
        have hnumb := lists_numbered (mode := .all) hq
        constructor
        · intro g
          cases g with
          | entry hn' ht' hm hy hl hx =>
            rw [hn] at hn'; cases hn'
            rw [ht] at ht'; cases ht'
            rw [(hst.number hnumb _).1 hm, hentry] at hl
            obtain ⟨v, w, rfl, g1, g2⟩ := draws_append hx
            rw [← List.append_assoc]
            exact Draw.entry (mode := .all) (by decide) hq rfl ((k1 _ _).1 hy) hl ((k3 _ _).1 g1) ((r3 _ _).1 g2)
        · intro g
          cases g with
          | entry _ _ hk' hy hl hv hx =>
            subst hk'
            rw [List.append_assoc]
            exact Draws.entry hn ht ((hst.number hnumb _).2 rfl) ((k1 _ _).2 hy) ((hentry _ _ _).2 hl)
              (draws_join ((k3 _ _).2 hv) ((r3 _ _).2 hx))
          | skipElem _ e => rw [show Mode.lists c .all tag = true from hq] at e; cases e
      · rw [if_neg hq]
        constructor
        · intro g
          obtain ⟨v, w, rfl, g1, g2⟩ := draws_append g
          exact Draw.skipElem (mode := .all) (by decide) (by simpa [Mode.lists] using hq) rfl ((k3 _ _).1 g1) ((r3 _ _).1 g2)
        · intro g
          cases g with
          | entry _ e => exact absurd e hq
          | skipElem _ _ hk' hv hx => subst hk'; exact draws_join ((k3 _ _).2 hv) ((r3 _ _).2 hx)

end Verif
