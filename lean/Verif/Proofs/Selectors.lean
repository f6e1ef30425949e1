import Verif.Proofs.Str
import Verif.Proofs.Parse

namespace Verif

open Spec

/-- The computation succeeds and its result tells whether `P` holds. -/
def Decides (x : Py Bool) (P : Prop) : Prop := ∃ b, x = .ok b ∧ (b = true ↔ P)

theorem decides_false {P : Prop} (h : ¬ P) : Decides (.ok false) P := ⟨false, rfl, by simp [h]⟩
theorem decides_congr {x : Py Bool} {P Q : Prop} (h : Decides x P) (e : P ↔ Q) : Decides x Q := by
  obtain ⟨b, h1, h2⟩ := h; exact ⟨b, h1, h2.trans e⟩

theorem decides_seq {x y : Py Bool} {P Q : Prop} (hx : Decides x P) (hy : P → Decides y Q) :
    Decides (do if ← x then y else return false) (P ∧ Q) := by
  obtain ⟨b, rfl, hb⟩ := hx
  cases b with
  | false => exact decides_false (by simp at hb; simp [hb])
  | true =>
    have hp : P := hb.1 rfl
    obtain ⟨b', rfl, hb'⟩ := hy hp
    exact ⟨b', rfl, by simp [hb', hp]⟩

/-- What is needed of a document. -/
structure SelInv (d : Dom) (src : Nat → List (Str × Option Str)) : Prop where
  node : ∀ (i : Nat) (n : Node), d.nodes[i]? = some n → NodeOk d i n
  root : ∀ r ∈ d.roots, ∃ m, d.nodes[r]? = some m ∧ (m.parent = .doc ∨ m.parent = .none)
  rootsNodup : d.roots.Nodup
  agree : ∀ (i : Nat) (n : Node), d.nodes[i]? = some n → n.data = none → AttrsAgree (src i) n

theorem selInv_of {d : Dom} {stack : List Nat} {es : List Event} (h : TInv d stack) (hl : Labelled d es) :
    SelInv d (srcAttrs es) := by
  refine ⟨h.node, h.root, h.rootsNodup, ?_⟩
  intro i n hn hd
  have hlt := getElem?_lt hn
  rw [hl.1] at hlt
  obtain ⟨m, hm, hlab⟩ := hl.2 i _ (List.getElem?_eq_getElem hlt)
  rw [hn] at hm
  cases hm
  unfold srcAttrs
  rw [List.getElem?_eq_getElem hlt]
  revert hlab
  cases (es.filter creates)[i] with
  | start tag attrs => exact fun h => h.2.2
  | stop tag => exact fun h => h.elim
  | data t =>
    intro h
    rcases h.2 with e | e <;> simp [e] at hd

/-! ## Text and the root -/

/-- Whether a position is an element. -/
def IsEl (d : Dom) (p : Par) : Prop := ∃ i n, p = .node i ∧ d.nodes[i]? = some n ∧ n.data = none

theorem bind_false (f : Bool → Py Bool) : (Except.ok false >>= f) = f false := rfl

theorem selMatch_nonElem (d : Dom) (p : Par) (h : ¬ IsEl d p) (s : Sel) : selMatch d s p = .ok false := by
  have hcase : (p = .none ∨ p = .doc) ∨ ∃ i, p = .node i := by cases p <;> simp
  have hdata : ∀ i n, p = .node i → d.nodes[i]? = some n → n.data.isSome = true := by
    intro i n h1 h2
    cases hd : n.data with
    | none => exact absurd ⟨i, n, h1, h2, hd⟩ h
    | some x => rfl
  have hpar : ∀ q, d.parentOf p = some q → d.hasData p = true := by
    intro q hq
    cases p with
    | none => simp [Dom.parentOf] at hq
    | doc => simp [Dom.parentOf] at hq
    | node i =>
      cases hn : d.nodes[i]? with
      | none => simp [Dom.parentOf, hn] at hq
      | some n => simp [Dom.hasData, hn, hdata i n rfl hn]
  induction s with
  | element name =>
    simp only [selMatch, elementMatches]
    cases p with
    | none => rfl
    | doc => rfl
    | node i =>
      cases hn : d.nodes[i]? with
      | none => simp [hn]
      | some n => simp [hn, hdata i n rfl hn]
  | cls s c ih =>
    simp only [selMatch]
    cases p with
    | none => rfl
    | doc => rfl
    | node i =>
      cases hn : d.nodes[i]? with
      | none => simp [hn]
      | some n => simp [hn, hdata i n rfl hn]
  | hash s c ih =>
    simp only [selMatch]
    cases p with
    | none => rfl
    | doc => rfl
    | node i =>
      cases hn : d.nodes[i]? with
      | none => simp [hn]
      | some n => cases hid : n.id <;> simp [hn, hid, hdata i n rfl hn]
  | neg s t ih1 ih2 =>
    simp only [selMatch]
    split
    · rfl
    · rw [ih1]; rfl
  | attrib s name op v ih => simp only [selMatch]; rw [ih]; rfl
  | pseudo s ident ih =>
    simp only [selMatch]
    cases hq : d.parentOf p with
    | none => simp
    | some q => simp [hpar q hq]
  | func s name args ih =>
    simp only [selMatch]
    cases hq : d.parentOf p with
    | none => simp
    | some q => simp [hpar q hq]
  | comb s c t ih1 ih2 =>
    cases c with
    | desc => simp only [selMatch]; rw [ih2]; rfl
    | column => simp only [selMatch]
    | child =>
      simp only [selMatch]
      cases d.parentOf p with
      | none => rfl
      | some q => simp only; rw [ih2]; rfl
    | general =>
      simp only [selMatch]
      cases d.parentOf p with
      | none => rfl
      | some q => simp only; rw [ih2]; rfl
    | adjacent =>
      simp only [selMatch]
      cases d.parentOf p with
      | none => rfl
      | some q => simp only; rw [ih2]; rfl

/-! ## Siblings and parents -/

/-- What a node's parent is. -/
inductive ParentIs (d : Dom) (i : Nat) : Par → Prop where
  | doc (h : ∀ j, ¬ ParentOf d j i) : ParentIs d i .doc
  | node (j : Nat) (m : Node) (hm : d.nodes[j]? = some m) (ht : m.tag.isSome) (hlt : j < i) (hp : ParentOf d j i)
      (huniq : ∀ k, ParentOf d k i → k = j) : ParentIs d i (.node j)

theorem elem_pos {d : Dom} {src} (h : SelInv d src) {i : Nat} {n : Node} (hn : d.nodes[i]? = some n) (hd : n.data = none) :
    ∃ q A C, d.parentOf (.node i) = some q ∧ ParentIs d i q ∧ d.childrenOf q = A ++ i :: C ∧ i ∉ A ∧ i ∉ C ∧
      ∀ A' C', Around d i A' C' ↔ A' = A ∧ C' = C := by
  have ok := h.node i n hn
  have hne : n.parent ≠ .none := fun e => by have := ok.noParent e; simp [hd] at this
  have hq : d.parentOf (.node i) = some n.parent := by
    simp only [Dom.parentOf, hn]
  -- the list of siblings
  have key : ∃ L, d.childrenOf n.parent = L ∧ i ∈ L ∧ L.Nodup ∧ Siblings d L ∧ (∀ L', Siblings d L' → i ∈ L' → L' = L) ∧
      ParentIs d i n.parent := by
    have hparent := ok.parent
    cases hp : n.parent with
    | none => exact absurd hp hne
    | doc =>
      rw [hp] at hparent
      have hno : ∀ j, ¬ ParentOf d j i := by
        rintro j ⟨m, hm, hi⟩
        obtain ⟨-, m', hm', hpar⟩ := (h.node j m hm).child i hi
        rw [hn] at hm'; cases hm'
        rw [hp] at hpar; cases hpar
      refine ⟨d.roots, rfl, hparent, h.rootsNodup, Or.inl rfl, ?_, .doc hno⟩
      rintro L' (rfl | ⟨j, m, hm, rfl⟩) hi
      · rfl
      · exact absurd ⟨m, hm, hi⟩ (hno j)
    | node j =>
      rw [hp] at hparent
      obtain ⟨hlt, m, hm, hi, ht⟩ := hparent
      have hun : ∀ k, ParentOf d k i → k = j := by
        rintro k ⟨m', hm', hi'⟩
        obtain ⟨-, n', hn', hpar⟩ := (h.node k m' hm').child i hi'
        rw [hn] at hn'; cases hn'
        rw [hp] at hpar; cases hpar; rfl
      refine ⟨m.children, by simp [Dom.childrenOf, hm], hi, (h.node j m hm).nodup, Or.inr ⟨j, m, hm, rfl⟩, ?_,
        .node j m hm ht hlt ⟨m, hm, hi⟩ hun⟩
      rintro L' (rfl | ⟨k, m', hm', rfl⟩) hi'
      · obtain ⟨n', hn', hpar⟩ := h.root i hi'
        rw [hn] at hn'; cases hn'
        rw [hp] at hpar; simp at hpar
      · have := hun k ⟨m', hm', hi'⟩
        subst this
        rw [hm] at hm'; cases hm'; rfl
  obtain ⟨L, h1, h2, h3, h4, h5, h6⟩ := key
  obtain ⟨A, C, rfl⟩ := List.append_of_mem h2
  have hnA : i ∉ A := by
    intro hi
    rw [List.nodup_append] at h3
    exact h3.2.2 i hi i (by simp) rfl
  have hnC : i ∉ C := by
    rw [List.nodup_append] at h3
    have := h3.2.1
    simp at this
    exact this.1
  refine ⟨n.parent, A, C, hq, h6, h1, hnA, hnC, ?_⟩
  intro A' C'
  constructor
  · intro ha
    have := h5 _ ha (by simp)
    rw [List.append_eq_append_iff] at this
    rcases this with ⟨as, e1, e2⟩ | ⟨bs, e1, e2⟩
    · cases as with
      | nil => simp at e1 e2; exact ⟨e1.symm, e2⟩
      | cons x as =>
        simp only [List.cons_append, List.cons.injEq] at e2
        obtain ⟨rfl, -⟩ := e2
        exact absurd (by rw [e1]; simp) hnA
    · cases bs with
      | nil => simp at e1 e2; exact ⟨e1, e2.symm⟩
      | cons x bs =>
        simp only [List.cons_append, List.cons.injEq] at e2
        obtain ⟨rfl, rfl⟩ := e2
        exact absurd (by simp) hnC
  · rintro ⟨rfl, rfl⟩; exact h4

theorem isTag_iff (d : Dom) (i : Nat) : d.isTag i = true ↔ IsElem d i := by
  unfold Dom.isTag IsElem HasTag
  cases hn : d.nodes[i]? with
  | none => simp
  | some n =>
    cases ht : n.tag with
    | none => simp [ht]
    | some t => simp [ht]

theorem elemCount_eq (d : Dom) (l : List Nat) : elemCount d l = (l.filter d.isTag).length := by
  rw [elemCount, List.countP_eq_length_filter]

theorem elemCount_zero (d : Dom) (l : List Nat) : elemCount d l = 0 ↔ l.filter d.isTag = [] := by
  rw [elemCount_eq, List.length_eq_zero_iff]

/-- The elements among the children of the parent, around element `i`. -/
theorem tagChildren_split {d : Dom} {q : Par} {A C : List Nat} {i : Nat} (h : d.childrenOf q = A ++ i :: C)
    (ht : d.isTag i = true) : d.tagChildren q = A.filter d.isTag ++ i :: C.filter d.isTag := by
  unfold Dom.tagChildren
  rw [h, List.filter_append, List.filter_cons, if_pos ht]

theorem siblingLoop_spec {m : Par → Py Bool} {P : Nat → Prop} {i : Nat} (A C : List Nat) (hi : i ∉ A)
    (h : ∀ j ∈ A, Decides (m (.node j)) (P j)) :
    Decides (siblingLoop m (.node i) (A ++ i :: C)) (∃ j ∈ A, P j) := by
  induction A with
  | nil => simp only [List.nil_append, siblingLoop, if_true]; exact decides_false (by simp)
  | cons a A ih =>
    have hne : ¬ (Par.node a = Par.node i) := by
      intro e; cases e; exact hi (by simp)
    simp only [List.cons_append, siblingLoop, if_neg hne]
    obtain ⟨b, hb1, hb2⟩ := h a (by simp)
    rw [hb1]
    cases b with
    | true => exact ⟨true, rfl, by simp; exact Or.inl (hb2.1 rfl)⟩
    | false =>
      have := ih (fun hm => hi (List.mem_cons_of_mem _ hm)) (fun j hj => h j (List.mem_cons_of_mem _ hj))
      have hna : ¬ P a := by simpa using hb2
      refine decides_congr (x := siblingLoop m (.node i) (A ++ i :: C)) this ?_
      simp [hna]

theorem findIdx_spec (i : Nat) (A C : List Nat) (hi : i ∉ A) :
    (A ++ i :: C).findIdx? (fun j => decide (Par.node j = Par.node i)) = some A.length := by
  induction A with
  | nil => simp [List.findIdx?_cons]
  | cons a A ih =>
    have hne : ¬ a = i := by
      intro e; subst e; exact hi (by simp)
    have := ih (fun hm => hi (List.mem_cons_of_mem _ hm))
    rw [List.cons_append, List.findIdx?_cons, this]
    simp [hne]

theorem adjacentCheck_spec {m : Par → Py Bool} {P : Nat → Prop} {i : Nat} (A C : List Nat) (hi : i ∉ A)
    (h : ∀ j ∈ A, Decides (m (.node j)) (P j)) :
    Decides (adjacentCheck m (.node i) (A ++ i :: C)) (∃ j, A.getLast? = some j ∧ P j) := by
  unfold adjacentCheck
  rw [findIdx_spec i A C hi]
  rcases List.eq_nil_or_concat A with rfl | ⟨B, b, rfl⟩
  · exact decides_false (by simp)
  · have hl : (B.concat b).length = B.length + 1 := by simp
    rw [hl]
    simp only [List.concat_eq_append]
    have : (B ++ [b] ++ i :: C)[B.length]? = some b := by simp
    rw [this]
    simp only
    refine decides_congr (h b (by simp)) ?_
    simp

/-! ## Ancestors -/

theorem anyAncestor_spec {d : Dom} {src} (hinv : SelInv d src) {m : Par → Py Bool} {P : Nat → Prop}
    (hdoc : m .doc = .ok false)
    (h : ∀ j n, d.nodes[j]? = some n → n.data = none → Decides (m (.node j)) (P j)) (i : Nat) (n : Node)
    (hn : d.nodes[i]? = some n) (hd : n.data = none) (f : Nat) (hf : i < f) :
    Decides (anyAncestor d m (f + 1) (.node i)) (∃ j, AncestorOf d j i ∧ P j) := by
  induction i using Nat.strongRecOn generalizing n f with
  | ind i ih =>
    obtain ⟨q, A, C, hq, hpi, -⟩ := elem_pos hinv hn hd
    have hpar : n.parent = q := by
      simp only [Dom.parentOf, hn] at hq
      split at hq
      · cases hq
      · cases hq; rfl
    unfold anyAncestor
    simp only [hn]
    cases hpi with
    | doc hno =>
      rw [hpar]
      simp only [hdoc]
      have hna : ¬ ∃ j, AncestorOf d j i ∧ P j := by
        rintro ⟨j, ha, -⟩
        cases ha with
        | parent hp => exact hno _ hp
        | step hp _ => exact hno _ hp
      cases f with
      | zero => omega
      | succ f => exact decides_false hna
    | node j k hk ht hlt hp hun =>
      rw [hpar]
      simp only
      have hkd : k.data = none := by
        cases hkd : k.data with
        | none => rfl
        | some x =>
          have := ((hinv.node j k hk).data (by simp [hkd])).1
          simp [this] at ht
      obtain ⟨b, hb1, hb2⟩ := h j k hk hkd
      rw [hb1]
      have heq : (∃ a, AncestorOf d a i ∧ P a) ↔ P j ∨ ∃ a, AncestorOf d a j ∧ P a := by
        constructor
        · rintro ⟨a, ha, hpa⟩
          cases ha with
          | parent hpp => rw [hun _ hpp] at hpa; exact Or.inl hpa
          | step hpp hrest => rw [hun _ hpp] at hrest; exact Or.inr ⟨a, hrest, hpa⟩
        · rintro (hpj | ⟨a, ha, hpa⟩)
          · exact ⟨j, .parent hp, hpj⟩
          · exact ⟨a, .step hp ha, hpa⟩
      cases b with
      | true =>
        refine ⟨true, rfl, ?_⟩
        simp only [true_iff]
        exact heq.2 (Or.inl (hb2.1 rfl))
      | false =>
        have hnj : ¬ P j := by simpa using hb2
        cases f with
        | zero => omega
        | succ f =>
          have := ih j hlt k hk hkd f (by omega)
          refine decides_congr (x := anyAncestor d m (f + 1) (.node j)) this ?_
          rw [heq]; simp [hnj]

/-! ## The n-th element -/

theorem pyIndex_fwd {α : Type} (l : List α) (n : Nat) (hn : 1 ≤ n) : pyIndex l ((n : Int) - 1) = l[n - 1]? := by
  unfold pyIndex
  rw [if_neg (by omega)]
  congr 1
  omega

theorem pyIndex_bwd {α : Type} (l : List α) (n : Nat) (hn : 1 ≤ n) (hl : n ≤ l.length) :
    pyIndex l (-(n : Int)) = l[l.length - n]? := by
  unfold pyIndex
  rw [if_pos (by omega), if_neg (by omega)]
  congr 1
  omega

theorem getElem?_split_iff {i : Nat} (A C : List Nat) (hA : i ∉ A) (hC : i ∉ C) (k : Nat) :
    (A ++ i :: C)[k]? = some i ↔ k = A.length := by
  constructor
  · intro h
    rcases Nat.lt_trichotomy k A.length with hlt | rfl | hgt
    · rw [List.getElem?_append_left hlt] at h
      exact absurd (List.mem_of_getElem? h) hA
    · rfl
    · rw [List.getElem?_append_right (by omega)] at h
      have : k - A.length = (k - A.length - 1) + 1 := by omega
      rw [this, List.getElem?_cons_succ] at h
      exact absurd (List.mem_of_getElem? h) hC
  · rintro rfl; simp

theorem nthCheck_spec {i : Nat} (A C : List Nat) (hA : i ∉ A) (hC : i ∉ C) (last : Bool) (n : Nat) (hn : 1 ≤ n) :
    Decides (nthCheck (A ++ i :: C) (.node i) last n) (if last then C.length + 1 = n else A.length + 1 = n) := by
  unfold nthCheck
  have hlen : (A ++ i :: C).length = A.length + C.length + 1 := by simp; omega
  split
  · rename_i h
    apply decides_false
    split <;> omega
  · rename_i h
    have hle : n ≤ (A ++ i :: C).length := by omega
    have hidx : pyIndex (A ++ i :: C) (if last then -(n : Int) else (n : Int) - 1) =
        (A ++ i :: C)[if last then (A ++ i :: C).length - n else n - 1]? := by
      cases last with
      | true => simp only [if_true]; exact pyIndex_bwd _ _ hn hle
      | false => simp only [Bool.false_eq_true, if_false]; exact pyIndex_fwd _ _ hn
    rw [hidx]
    have hlt : (if last then (A ++ i :: C).length - n else n - 1) < (A ++ i :: C).length := by split <;> omega
    have hget := getElem?_split_iff A C hA hC (if last then (A ++ i :: C).length - n else n - 1)
    rw [List.getElem?_eq_getElem hlt] at hget ⊢
    simp only
    refine ⟨_, rfl, ?_⟩
    simp only [decide_eq_true_eq, Par.node.injEq]
    rw [Option.some.injEq] at hget
    rw [hget]
    cases last with
    | true => simp only [if_true]; omega
    | false => simp only [Bool.false_eq_true, if_false]; omega

/-! ## Agreement -/

theorem css_elem {d : Dom} {src} {s : Sel} {i : Nat} (h : Css d src s i) : IsElem d i := by
  induction s generalizing i with
  | element name => cases name with
    | none => exact h
    | some t => exact ⟨t, h⟩
  | cls s c ih => exact ih h.1
  | hash s c ih => exact ih h.1
  | neg s t ih1 ih2 => exact ih1 h.1
  | attrib s name op v ih => exact ih h.1
  | pseudo s ident ih => exact ih h.1
  | func s name args ih => exact ih h.1
  | comb s c t ih1 ih2 => cases c with
    | column => exact h.elim
    | _ => exact ih2 h.1

theorem elem_tag {d : Dom} {src} (h : SelInv d src) {i : Nat} {n : Node} (hn : d.nodes[i]? = some n) (hd : n.data = none) :
    d.isTag i = true := by
  simp only [Dom.isTag, hn]
  exact (h.node i n hn).noData hd

theorem tag_elem {d : Dom} {src} (h : SelInv d src) {i : Nat} (ht : d.isTag i = true) :
    ∃ n, d.nodes[i]? = some n ∧ n.data = none := by
  simp only [Dom.isTag] at ht
  cases hn : d.nodes[i]? with
  | none => simp [hn] at ht
  | some n =>
    rw [hn] at ht
    refine ⟨n, rfl, ?_⟩
    cases hd : n.data with
    | none => rfl
    | some x =>
      have := ((h.node i n hn).data (by simp [hd])).1
      simp [this] at ht

theorem attribCheck_str {attrs : DictOf AttrVal} {name : Str} {op : AttrOp} {value v : Str} (hne : name ≠ py"class")
    (hop : CssOp op) (hg : DictOf.get attrs name = some (.str v)) :
    Decides (attribCheck attrs name op value) (AttrHolds op value v) := by
  unfold attribCheck
  simp only [hg, if_neg hne]
  cases op with
  | «exists» => exact ⟨true, rfl, by simp [AttrHolds]⟩
  | eq => exact ⟨_, rfl, by simp [AttrHolds]⟩
  | word => exact ⟨_, rfl, by simp [AttrHolds, ← mem_splitWs]⟩
  | dash => exact ⟨_, rfl, by simp [AttrHolds, startsWith_iff]⟩
  | pre => exact ⟨_, rfl, by simp [AttrHolds, startsWith_iff]⟩
  | suf => exact ⟨_, rfl, by simp [AttrHolds, endsWith_iff]⟩
  | sub => exact ⟨_, rfl, by simp [AttrHolds, contains_iff]⟩
  | ne => exact absurd rfl hop

/-- What `class` is compared as. -/
theorem attribCheck_class {attrs : DictOf AttrVal} {op : AttrOp} {value : Str} {ws : List Str}
    (hop : CssOp op) (hg : DictOf.get attrs py"class" = some (.words ws)) :
    Decides (attribCheck attrs py"class" op value) (AttrHolds op value (join py" " ws)) := by
  unfold attribCheck
  simp only [hg, if_true]
  cases op with
  | «exists» => exact ⟨true, rfl, by simp [AttrHolds]⟩
  | eq => exact ⟨_, rfl, by simp [AttrHolds]⟩
  | word => exact ⟨_, rfl, by simp [AttrHolds, ← mem_splitWs]⟩
  | dash => exact ⟨_, rfl, by simp [AttrHolds, startsWith_iff]⟩
  | pre => exact ⟨_, rfl, by simp [AttrHolds, startsWith_iff]⟩
  | suf => exact ⟨_, rfl, by simp [AttrHolds, endsWith_iff]⟩
  | sub => exact ⟨_, rfl, by simp [AttrHolds, contains_iff]⟩
  | ne => exact absurd rfl hop

/-- The operators on the attributes of a node that agree with its start tag. -/
theorem attrib_agree {attrs : List (Str × Option Str)} {n : Node} (hag : AttrsAgree attrs n) {name : Str} {op : AttrOp} {value : Str}
    (hop : CssOp op) (hr : AttrRead attrs name op) :
    Decides (attribCheck n.attrs name op value) ((op = .exists ∧ attrOf attrs name ≠ none) ∨
      (op ≠ .exists ∧ ∃ v, attrOf attrs name = some (some v) ∧ AttrHolds op value v)) := by
  obtain ⟨hval, hcls⟩ := hr
  by_cases hc : name = py"class"
  · subst hc
    have hcl := hag.cls
    cases ha : attrOf (attrs) py"class" with
    | none =>
      rw [ha] at hcl
      simp only [Option.map_none] at hcl
      simp only [attribCheck, hcl]
      exact decides_false (by simp)
    | some v =>
      rw [ha] at hcl
      simp only [Option.map_some] at hcl
      refine decides_congr (attribCheck_class hop hcl) ?_
      cases v with
      | none =>
        exact absurd ha hag.valued
      | some v =>
        rcases hcls v rfl ha with hj | rfl | rfl
        · simp only [Option.getD_some, hj]
          by_cases ho : op = .exists
          · subst ho; simp [AttrHolds]
          · simp [ho]
        · simp [AttrHolds]
        · simp only [AttrHolds, Option.getD_some, ← mem_splitWs, splitWs_join _ (splitWs_spec v)]
          simp
  · have ho := hag.other name hc
    cases ha : attrOf (attrs) name with
    | none =>
      rw [ha] at ho
      simp only [Option.map_none] at ho
      simp only [attribCheck, ho]
      exact decides_false (by simp)
    | some v =>
      rw [ha] at ho
      simp only [Option.map_some] at ho
      cases v with
      | none =>
        have hv : op = .exists ∨ op = .eq := by
          rcases hval with hv | hv
          · exact absurd ha hv
          · exact hv
        simp only [attrVal] at ho
        unfold attribCheck
        simp only [ho, if_neg hc]
        rcases hv with rfl | rfl
        · exact ⟨true, by simp, by simp⟩
        · exact ⟨false, by simp, by simp⟩
      | some v =>
        simp only [attrVal] at ho
        refine decides_congr (attribCheck_str hc hop ho) ?_
        by_cases hx : op = .exists
        · subst hx; simp [AttrHolds]
        · simp [hx]

theorem selMatch_read {d : Dom} {src} (h : SelInv d src) (s : Sel) (hs : Matchable src s) (i : Nat) (n : Node)
    (hn : d.nodes[i]? = some n) (hd : n.data = none) : Decides (selMatch d s (.node i)) (Css d src s i) := by
  have hnd : d.hasData (.node i) = false := by simp [Dom.hasData, hn, hd]
  induction s generalizing i n with
  | element name =>
    have ht := (h.node i n hn).noData hd
    cases name with
    | none =>
      refine ⟨true, by simp [selMatch, elementMatches, hn, hd], ?_⟩
      simp only [true_iff]
      cases htt : n.tag with
      | none => simp [htt] at ht
      | some t => exact ⟨t, n, hn, htt⟩
    | some t =>
      refine ⟨n.tag == some t, by simp [selMatch, elementMatches, hn, hd], ?_⟩
      simp only [beq_iff_eq, Css, HasTag, hn]
      simp
  | cls s c ih =>
    have hag := h.agree i n hn hd
    simp only [selMatch, hn, hd, Option.isSome_none, Bool.false_eq_true, if_false]
    have hmem : n.classes.contains c = true ↔ ∃ v, attrOf (src i) py"class" = some (some v) ∧ IsWord c v := by
      rw [hag.classes, List.contains_iff_mem]
      cases hcl : attrOf (src i) py"class" with
      | none => simp
      | some v => cases v with
        | none => simp
        | some v => simp [mem_splitWs]
    split
    · rename_i hc
      refine decides_congr (ih hs i n hn hd hnd) ?_
      simp only [Css]
      exact ⟨fun hx => ⟨hx, hmem.1 hc⟩, fun hx => hx.1⟩
    · rename_i hc
      apply decides_false
      rintro ⟨-, h2⟩
      exact hc (hmem.2 h2)
  | hash s id ih =>
    have hag := h.agree i n hn hd
    simp only [selMatch, hn]
    have hid := hag.id
    cases hni : n.id with
    | none =>
      simp only
      apply decides_false
      rintro ⟨-, h2⟩
      rw [hni, h2] at hid
      simp at hid
    | some nid =>
      simp only [hd, Option.isSome_none, Bool.false_eq_true, if_false]
      have hsrc : attrOf (src i) py"id" = some (some nid) := by
        rw [hni] at hid
        cases ha : attrOf (src i) py"id" with
        | none => rw [ha] at hid; simp at hid
        | some v => rw [ha] at hid; simp at hid; rw [hid]
      split
      · rename_i he
        subst he
        refine decides_congr (ih hs i n hn hd hnd) ?_
        simp only [Css]
        exact ⟨fun hx => ⟨hx, hsrc⟩, fun hx => hx.1⟩
      · rename_i he
        apply decides_false
        rintro ⟨-, h2⟩
        rw [hsrc] at h2
        simp at h2
        exact he h2
  | neg s t ih1 ih2 =>
    simp only [selMatch, hnd, Bool.false_eq_true, if_false]
    obtain ⟨b, hb1, hb2⟩ := ih1 hs.1 i n hn hd hnd
    obtain ⟨b', hb1', hb2'⟩ := ih2 hs.2 i n hn hd hnd
    rw [hb1, hb1']
    refine ⟨b && !b', by cases b <;> rfl, ?_⟩
    simp only [Css]
    rw [← hb2, ← hb2']
    simp
  | attrib s name op v ih =>
    obtain ⟨hs1, hop, ha⟩ := hs
    simp only [selMatch, hn]
    exact decides_congr (decides_seq (ih hs1 i n hn hd hnd) (fun _ => attrib_agree (h.agree i n hn hd) hop (ha i))) (by simp [Css])
  | pseudo s ident ih =>
    obtain ⟨hs1, hs2⟩ := hs
    obtain ⟨q, A, C, hq, hpi, hch, hA, hC, haround⟩ := elem_pos h hn hd
    have htag := elem_tag h hn hd
    have htc := tagChildren_split hch htag
    have hA' : i ∉ A.filter d.isTag := fun hm => hA (List.mem_filter.1 hm).1
    have hC' : i ∉ C.filter d.isTag := fun hm => hC (List.mem_filter.1 hm).1
    have IH := ih hs1 i n hn hd hnd
    rcases hs2 with rfl | rfl
    · have hcss : Css d src (.pseudo s py"first-child") i ↔ Css d src s i ∧ elemCount d A = 0 := by
        simp only [Css]
        constructor
        · rintro ⟨h1, b, a, h2, h3⟩
          rw [haround] at h2
          obtain ⟨rfl, rfl⟩ := h2
          rcases h3 with h3 | h3
          · exact ⟨h1, h3.2⟩
          · exact absurd h3.1 (by decide)
        · rintro ⟨h1, h2⟩
          exact ⟨h1, A, C, (haround _ _).2 ⟨rfl, rfl⟩, Or.inl ⟨trivial, h2⟩⟩
      simp only [selMatch, if_true, hq, hnd, Bool.false_eq_true, if_false, htc]
      rw [elemCount_zero] at hcss
      cases hf : A.filter d.isTag with
      | nil =>
        simp only [List.nil_append, List.head?_cons, if_true]
        refine decides_congr IH ?_
        rw [hcss, hf]; simp
      | cons a fa =>
        simp only [List.cons_append, List.head?_cons]
        have : ¬ Par.node a = Par.node i := by
          intro e; cases e; exact hA' (by rw [hf]; simp)
        rw [if_neg this]
        apply decides_false
        rw [hcss, hf]; simp
    · have hcss : Css d src (.pseudo s py"last-child") i ↔ Css d src s i ∧ elemCount d C = 0 := by
        simp only [Css]
        constructor
        · rintro ⟨h1, b, a, h2, h3⟩
          rw [haround] at h2
          obtain ⟨rfl, rfl⟩ := h2
          rcases h3 with h3 | h3
          · exact absurd h3.1 (by decide)
          · exact ⟨h1, h3.2⟩
        · rintro ⟨h1, h2⟩
          exact ⟨h1, A, C, (haround _ _).2 ⟨rfl, rfl⟩, Or.inr ⟨trivial, h2⟩⟩
      have hne : ¬ (py"last-child" = py"first-child") := by decide
      simp only [selMatch, if_neg hne, if_true, hq, hnd, Bool.false_eq_true, if_false, htc]
      rw [elemCount_zero] at hcss
      rw [List.getLast?_append, List.getLast?_cons]
      cases hf : (C.filter d.isTag).getLast? with
      | none =>
        have hnil : C.filter d.isTag = [] := by simpa using hf
        simp only [Option.getD_none, Option.some_or, if_true]
        refine decides_congr IH ?_
        rw [hcss, hnil]; simp
      | some a =>
        have hmem := List.mem_of_getLast? hf
        have hnn : C.filter d.isTag ≠ [] := by intro e; rw [e] at hmem; cases hmem
        simp only [Option.getD_some, Option.some_or]
        have : ¬ Par.node a = Par.node i := by
          intro e; cases e; exact hC' hmem
        rw [if_neg this]
        apply decides_false
        rw [hcss]
        exact fun hx => hnn hx.2
  | func s name args ih =>
    obtain ⟨hs1, hname, k, hk, rfl⟩ := hs
    obtain ⟨q, A, C, hq, hpi, hch, hA, hC, haround⟩ := elem_pos h hn hd
    have htag := elem_tag h hn hd
    have htc := tagChildren_split hch htag
    have hA' : i ∉ A.filter d.isTag := fun hm => hA (List.mem_filter.1 hm).1
    have hC' : i ∉ C.filter d.isTag := fun hm => hC (List.mem_filter.1 hm).1
    have IH := ih hs1 i n hn hd hnd
    have hcss : Css d src (.func s name [natStr k]) i ↔
        (if (name == py"nth-last-child") then (C.filter d.isTag).length + 1 = k else (A.filter d.isTag).length + 1 = k) ∧
          Css d src s i := by
      simp only [Css]
      constructor
      · rintro ⟨h1, b, a, m, h2, h3, h4⟩
        rw [haround] at h2
        obtain ⟨rfl, rfl⟩ := h2
        have hkm : k = m := by
          have e := (List.cons.inj h3).1
          have e1 := pyInt_natStr k
          rw [e, pyInt_natStr] at e1
          simp at e1
          omega
        subst hkm
        refine ⟨?_, h1⟩
        rw [elemCount_eq, elemCount_eq] at h4
        rcases h4 with ⟨rfl, h4⟩ | ⟨rfl, h4⟩
        · rw [if_neg (by decide)]; exact h4
        · rw [if_pos (by decide)]; exact h4
      · rintro ⟨h1, h2⟩
        refine ⟨h2, A, C, k, (haround _ _).2 ⟨rfl, rfl⟩, rfl, ?_⟩
        rw [elemCount_eq, elemCount_eq]
        rcases hname with rfl | rfl
        · rw [if_neg (by decide)] at h1; exact Or.inl ⟨rfl, h1⟩
        · rw [if_pos (by decide)] at h1; exact Or.inr ⟨rfl, h1⟩
    have hcond : (decide (name = py"nth-child") || decide (name = py"nth-last-child")) = true := by simpa using hname
    have hfirst : firstArg [natStr k] = .ok (k : Int) := by simp [firstArg, pyInt_natStr]
    simp only [selMatch, hcond, if_true, hq, hnd, Bool.false_eq_true, if_false, htc, hfirst]
    refine decides_congr (decides_seq (nthCheck_spec (A.filter d.isTag) (C.filter d.isTag) hA' hC'
      (name == py"nth-last-child") k hk) (fun _ => IH)) ?_
    rw [hcss]
  | comb s c t ih1 ih2 =>
    obtain ⟨hs1, hs2, hs3⟩ := hs
    have IH2 := ih2 hs2 i n hn hd hnd
    have IH1 : ∀ j m, d.nodes[j]? = some m → m.data = none → Decides (selMatch d s (.node j)) (Css d src s j) :=
      fun j m hj hm => ih1 hs1 j m hj hm (by simp [Dom.hasData, hj, hm])
    obtain ⟨q, A, C, hq, hpi, hch, hA, hC, haround⟩ := elem_pos h hn hd
    have htag := elem_tag h hn hd
    have htc := tagChildren_split hch htag
    have hA' : i ∉ A.filter d.isTag := fun hm => hA (List.mem_filter.1 hm).1
    cases c with
    | column => exact absurd rfl hs3
    | desc =>
      simp only [selMatch, Css]
      refine decides_seq IH2 (fun _ => ?_)
      exact anyAncestor_spec h (selMatch_nonElem d .doc (by rintro ⟨j, m, e, -⟩; cases e) s) IH1 i n hn hd _ (getElem?_lt hn)
    | child =>
      simp only [selMatch, Css, hq]
      refine decides_seq IH2 (fun _ => ?_)
      cases hpi with
      | doc hno =>
        rw [selMatch_nonElem d .doc (by rintro ⟨j, m, e, -⟩; cases e) s]
        apply decides_false
        rintro ⟨j, hj, -⟩
        exact hno j hj
      | node j m hm ht hlt hp hun =>
        have hmd : m.data = none := by
          cases hmd : m.data with
          | none => rfl
          | some x =>
            have := ((h.node j m hm).data (by simp [hmd])).1
            simp [this] at ht
        refine decides_congr (IH1 j m hm hmd) ⟨fun hx => ⟨j, hp, hx⟩, ?_⟩
        rintro ⟨j', hj', hx⟩
        rw [hun j' hj'] at hx
        exact hx
    | general =>
      simp only [selMatch, Css, hq, htc]
      refine decides_seq IH2 (fun _ => ?_)
      refine decides_congr (siblingLoop_spec (P := Css d src s) _ _ hA' ?_) ?_
      · intro j hj
        obtain ⟨m, hm, hmd⟩ := tag_elem h (List.mem_filter.1 hj).2
        exact IH1 j m hm hmd
      · constructor
        · rintro ⟨j, hj, hx⟩
          rw [List.mem_filter] at hj
          exact ⟨A, C, j, (haround _ _).2 ⟨rfl, rfl⟩, hj.1, (isTag_iff d j).1 hj.2, hx⟩
        · rintro ⟨b, a, j, h1, h2, h3, h4⟩
          rw [haround] at h1
          obtain ⟨rfl, rfl⟩ := h1
          exact ⟨j, List.mem_filter.2 ⟨h2, (isTag_iff d j).2 h3⟩, h4⟩
    | adjacent =>
      simp only [selMatch, Css, hq, htc]
      refine decides_seq IH2 (fun _ => ?_)
      refine decides_congr (adjacentCheck_spec (P := Css d src s) _ _ hA' ?_) ?_
      · intro j hj
        obtain ⟨m, hm, hmd⟩ := tag_elem h (List.mem_filter.1 hj).2
        exact IH1 j m hm hmd
      · constructor
        · rintro ⟨j, hj, hx⟩
          have : ∃ B D, A = B ++ j :: D ∧ D.filter d.isTag = [] ∧ d.isTag j = true := by
            clear hch haround htc hA hA' hq hpi
            induction A with
            | nil => simp at hj
            | cons a A ihA =>
              rw [List.filter_cons] at hj
              by_cases hta : d.isTag a = true
              · rw [if_pos hta, List.getLast?_cons] at hj
                cases hl : (A.filter d.isTag).getLast? with
                | none =>
                  rw [hl] at hj
                  simp at hj
                  subst hj
                  exact ⟨[], A, rfl, by simpa using hl, hta⟩
                | some y =>
                  rw [hl] at hj
                  simp at hj
                  subst hj
                  obtain ⟨B, D, rfl, h1, h2⟩ := ihA hl
                  exact ⟨a :: B, D, rfl, h1, h2⟩
              · rw [if_neg hta] at hj
                obtain ⟨B, D, rfl, h1, h2⟩ := ihA hj
                exact ⟨a :: B, D, rfl, h1, h2⟩
          obtain ⟨B, D, rfl, h1, h2⟩ := this
          exact ⟨B, D, C, j, (haround _ _).2 ⟨rfl, rfl⟩, (isTag_iff d j).1 h2, (elemCount_zero d D).2 h1, hx⟩
        · rintro ⟨B, D, a, j, h1, h2, h3, h4⟩
          rw [haround] at h1
          obtain ⟨rfl, rfl⟩ := h1
          refine ⟨j, ?_, h4⟩
          rw [List.filter_append, List.filter_cons, if_pos ((isTag_iff d j).2 h2), (elemCount_zero d D).1 h3]
          simp

theorem basic_matchable (src : Nat → List (Str × Option Str)) : ∀ s : Sel, Basic s → Matchable src s
  | .element _, _ => trivial
  | .cls s _, h => basic_matchable src s h
  | .hash s _, h => basic_matchable src s h
  | .neg s t, h => ⟨basic_matchable src s h.1, basic_matchable src t h.2⟩
  | .attrib s _ _ _, ⟨h, e⟩ => by
    subst e
    exact ⟨basic_matchable src s h, by simp [CssOp], fun _ => ⟨.inr (.inl rfl), fun _ _ _ => .inr (.inl rfl)⟩⟩
  | .pseudo s _, h => ⟨basic_matchable src s h.1, h.2⟩
  | .func s _ _, h => ⟨basic_matchable src s h.1, h.2⟩
  | .comb s _ t, h => ⟨basic_matchable src s h.1, basic_matchable src t h.2.1, h.2.2⟩

theorem selMatch_css {d : Dom} {src} (h : SelInv d src) (s : Sel) (hs : Basic s) (i : Nat) (n : Node)
    (hn : d.nodes[i]? = some n) (hd : n.data = none) : Decides (selMatch d s (.node i)) (Css d src s i) :=
  selMatch_read h s (basic_matchable src s hs) i n hn hd

end Verif
