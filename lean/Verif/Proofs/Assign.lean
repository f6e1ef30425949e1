import Verif.Proofs.Tree

/-!
# Assigning renderers
-/

namespace Verif

open Spec

/-- What assigning does to the entry of one node. -/
def assignVal (c : Cfg) (d : Dom) (i : Nat) (a : Assigned) : Py Assigned := do
  let r ← getRenderer c d i
  match (d.nodes[i]?).bind Node.tag with
  | some tag => if isLinkTag tag then return assignLink (assignOwn a r) (← getLinkRenderer c d i) else return assignOwn a r
  | none => return assignOwn a r

theorem assignOne_eq (c : Cfg) (d : Dom) (t : List (Nat × Assigned)) (i : Nat) :
    assignOne c d t i = (assignVal c d i (assignedTo t i)).map (fun a => (i, a) :: t) := by
  simp only [assignOne, assignVal, bind, Except.bind, pure, Except.pure]
  cases getRenderer c d i with
  | error e => rfl
  | ok r =>
    simp only
    cases (d.nodes[i]?).bind Node.tag with
    | none => rfl
    | some tag =>
      simp only
      split
      · cases getLinkRenderer c d i <;> rfl
      · rfl

theorem assignOwn_idem (a : Assigned) (r : RSpec) : assignOwn (assignOwn a r) r = assignOwn a r := by cases r <;> rfl

theorem assignLink_idem (a : Assigned) (r l : RSpec) :
    assignLink (assignOwn (assignLink (assignOwn a r) l) r) l = assignLink (assignOwn a r) l := by cases r <;> cases l <;> rfl

/-- Assigning again gives the same. -/
theorem assignVal_idem {c : Cfg} {d : Dom} {i : Nat} {a b : Assigned} (h : assignVal c d i a = .ok b) :
    assignVal c d i b = .ok b := by
  simp only [assignVal, bind, Except.bind, pure, Except.pure] at h ⊢
  cases hr : getRenderer c d i with
  | error e => rw [hr] at h; cases h
  | ok r =>
    rw [hr] at h
    simp only at h ⊢
    cases ht : (d.nodes[i]?).bind Node.tag with
    | none => rw [ht] at h; cases h; simp [assignOwn_idem]
    | some tag =>
      rw [ht] at h
      simp only at h ⊢
      split at h
      · rename_i hl
        rw [if_pos hl]
        cases hg : getLinkRenderer c d i with
        | error e => rw [hg] at h; cases h
        | ok l => rw [hg] at h; cases h; simp [assignLink_idem]
      · rename_i hl
        rw [if_neg hl]
        cases h; simp [assignOwn_idem]

/-- Whether assigning succeeds does not depend on what was there. -/
theorem assignVal_error {c : Cfg} {d : Dom} {i : Nat} {a : Assigned} {e : PyErr} (h : assignVal c d i a = .error e) (b : Assigned) :
    assignVal c d i b = .error e := by
  simp only [assignVal, bind, Except.bind, pure, Except.pure] at h ⊢
  cases hr : getRenderer c d i with
  | error e => rw [hr] at h; exact h
  | ok r =>
    rw [hr] at h
    simp only at h ⊢
    cases ht : (d.nodes[i]?).bind Node.tag with
    | none => rw [ht] at h; cases h
    | some tag =>
      rw [ht] at h
      simp only at h ⊢
      split at h
      · rename_i hl
        rw [if_pos hl]
        cases hg : getLinkRenderer c d i with
        | error e => rw [hg] at h; exact h
        | ok l => rw [hg] at h; cases h
      · cases h

theorem assignedTo_cons (i : Nat) (a : Assigned) (t : List (Nat × Assigned)) (j : Nat) :
    assignedTo ((i, a) :: t) j = if j = i then a else assignedTo t j := by
  unfold assignedTo
  rw [List.lookup_cons]
  by_cases h : j = i
  · subst h; simp
  · have : (j == i) = false := by simpa using h
    simp [this, h]

/-- The nodes visited, in order. -/
def visits (d : Dom) : Nat → List Nat → List Nat
  | 0, _ => []
  | f + 1, is => is.flatMap (fun i => i :: visits d f (d.childrenOf (.node i)))

/-- `t'` is `t` with the nodes `V` assigned. -/
def AssignedBy (c : Cfg) (d : Dom) (V : List Nat) (t t' : List (Nat × Assigned)) : Prop :=
  ∀ j, (j ∈ V → assignVal c d j (assignedTo t j) = .ok (assignedTo t' j)) ∧ (j ∉ V → assignedTo t' j = assignedTo t j)

theorem assignedBy_refl (c : Cfg) (d : Dom) (t : List (Nat × Assigned)) : AssignedBy c d [] t t :=
  fun _ => ⟨by simp, fun _ => rfl⟩

theorem assignedBy_trans {c : Cfg} {d : Dom} {V W : List Nat} {t t1 t2 : List (Nat × Assigned)}
    (h1 : AssignedBy c d V t t1) (h2 : AssignedBy c d W t1 t2) : AssignedBy c d (V ++ W) t t2 := by
  intro j
  by_cases hv : j ∈ V
  · refine ⟨fun _ => ?_, fun h => absurd (List.mem_append_left _ hv) h⟩
    have e1 := (h1 j).1 hv
    by_cases hw : j ∈ W
    · have e2 := (h2 j).1 hw
      have e3 := assignVal_idem e1
      rw [e2, Except.ok.injEq] at e3
      rw [e3]; exact e1
    · rw [(h2 j).2 hw]; exact e1
  · by_cases hw : j ∈ W
    · refine ⟨fun _ => ?_, fun h => absurd (List.mem_append_right _ hw) h⟩
      have := (h2 j).1 hw
      rw [(h1 j).2 hv] at this
      exact this
    · refine ⟨fun h => ?_, fun _ => ?_⟩
      · rcases List.mem_append.1 h with h | h
        · exact absurd h hv
        · exact absurd h hw
      · rw [(h2 j).2 hw, (h1 j).2 hv]

theorem assignOne_by {c : Cfg} {d : Dom} {t t' : List (Nat × Assigned)} {i : Nat} (h : assignOne c d t i = .ok t') :
    AssignedBy c d [i] t t' := by
  rw [assignOne_eq] at h
  cases hv : assignVal c d i (assignedTo t i) with
  | error e => rw [hv] at h; cases h
  | ok a =>
    rw [hv] at h
    cases h
    intro j
    rw [assignedTo_cons]
    by_cases e : j = i
    · subst e; simp [hv]
    · simp [e]

theorem assignRenderers_succ (c : Cfg) (d : Dom) (f : Nat) (is : List Nat) (t : List (Nat × Assigned)) :
    assignRenderers c d (f + 1) is t = is.foldlM (fun t i => do
      let t ← assignOne c d t i
      assignRenderers c d f (d.childrenOf (.node i)) t) t := by
  cases is with
  | nil => simp [assignRenderers, pure, Except.pure]
  | cons i is => rw [assignRenderers]; simp

theorem assignRenderers_by {c : Cfg} {d : Dom} (f : Nat) (is : List Nat) (t t' : List (Nat × Assigned))
    (h : assignRenderers c d f is t = .ok t') : AssignedBy c d (visits d f is) t t' := by
  induction f generalizing is t t' with
  | zero =>
    cases is with
    | nil => simp only [assignRenderers, Except.ok.injEq] at h; subst h; exact assignedBy_refl c d t
    | cons i is => simp [assignRenderers] at h
  | succ f ih =>
    rw [assignRenderers_succ] at h
    simp only [visits]
    induction is generalizing t with
    | nil => simp only [List.foldlM_nil, pure, Except.pure, Except.ok.injEq] at h; subst h; exact assignedBy_refl c d t
    | cons i is ih2 =>
      simp only [List.foldlM_cons, bind, Except.bind] at h
      cases h1 : assignOne c d t i with
      | error e => rw [h1] at h; cases h
      | ok t1 =>
        rw [h1] at h
        simp only at h
        cases h2 : assignRenderers c d f (d.childrenOf (.node i)) t1 with
        | error e => rw [h2] at h; cases h
        | ok t2 =>
          rw [h2] at h
          have a1 := assignOne_by h1
          have a2 := ih _ _ _ h2
          have a3 := ih2 t2 h
          have := assignedBy_trans (assignedBy_trans a1 a2) a3
          simpa using this

/-- Assigning again, the table reads the same. -/
theorem assignRenderers_again {c : Cfg} {d : Dom} (f : Nat) (is : List Nat) (t t1 : List (Nat × Assigned))
    (h : assignRenderers c d f is t = .ok t1) :
    ∃ t2, assignRenderers c d f is t1 = .ok t2 ∧ ∀ j, assignedTo t2 j = assignedTo t1 j := by
  have total : ∀ (f : Nat) (is : List Nat) (t t1 t' : List (Nat × Assigned)), assignRenderers c d f is t = .ok t1 →
      ∃ t2, assignRenderers c d f is t' = .ok t2 := by
    intro f
    induction f with
    | zero =>
      intro is t t1 t' h
      cases is with
      | nil => exact ⟨_, rfl⟩
      | cons i is => simp [assignRenderers] at h
    | succ f ih =>
      intro is
      induction is with
      | nil => intro t t1 t' h; exact ⟨t', by simp [assignRenderers]⟩
      | cons i is ih2 =>
        intro t t1 t' h
        rw [assignRenderers_succ] at h ⊢
        simp only [List.foldlM_cons, bind, Except.bind] at h ⊢
        cases h1 : assignOne c d t i with
        | error e => rw [h1] at h; cases h
        | ok s1 =>
          rw [h1] at h
          simp only at h
          obtain ⟨s2, hs2⟩ : ∃ s2, assignOne c d t' i = .ok s2 := by
            rw [assignOne_eq] at h1 ⊢
            cases hv : assignVal c d i (assignedTo t' i) with
            | error e => rw [assignVal_error hv] at h1; cases h1
            | ok a => exact ⟨_, rfl⟩
          rw [hs2]
          simp only
          cases h2 : assignRenderers c d f (d.childrenOf (.node i)) s1 with
          | error e => rw [h2] at h; cases h
          | ok u1 =>
            rw [h2] at h
            obtain ⟨u2, hu2⟩ := ih _ _ _ s2 h2
            rw [hu2]
            have := ih2 u1 t1 u2
            rw [assignRenderers_succ, assignRenderers_succ] at this
            exact this h
  obtain ⟨t2, ht2⟩ := total f is t t1 t1 h
  refine ⟨t2, ht2, fun j => ?_⟩
  have h1 := assignRenderers_by f is t t1 h j
  have h2 := assignRenderers_by f is t1 t2 ht2 j
  by_cases hj : j ∈ visits d f is
  · have e1 := assignVal_idem (h1.1 hj)
    rw [h2.1 hj, Except.ok.injEq] at e1
    exact e1
  · exact h2.2 hj

/-! ## Which nodes are visited -/

theorem visits_nil (d : Dom) (f : Nat) : visits d f [] = [] := by cases f <;> simp [visits]

theorem visits_append (d : Dom) (f : Nat) (a b : List Nat) : visits d f (a ++ b) = visits d f a ++ visits d f b := by
  cases f <;> simp [visits]

/-- With enough fuel the visits are the walk over the tree. -/
theorem visits_walk {d : Dom} (hnode : ∀ i n, d.nodes[i]? = some n → NodeOk d i n) (f : Nat) (is out : List Nat)
    (hf : ∀ i ∈ is, d.nodes.length ≤ i + f) (h : Walk d is out) : visits d f is = out := by
  induction h generalizing f with
  | nil => exact visits_nil d f
  | @cons i n is a b hn hk hr ih1 ih2 =>
    cases f with
    | zero => have := hf i (by simp); have := getElem?_lt hn; omega
    | succ f =>
      have e1 : visits d f n.children = a := by
        apply ih1
        intro j hj
        have := ((hnode i n hn).child j hj).1
        have := hf i (by simp)
        omega
      have e2 : visits d (f + 1) is = b := ih2 (f + 1) (fun j hj => hf j (List.mem_cons_of_mem _ hj))
      have e3 : d.childrenOf (.node i) = n.children := by simp [Dom.childrenOf, hn]
      rw [show i :: is = [i] ++ is from rfl, visits_append, e2]
      simp [visits, e3, e1]

/-- Every node is visited exactly once, in document order. -/
theorem visits_all {d : Dom} {stack : List Nat} (h : TInv d stack) : visits d d.fuel d.roots = List.range d.nodes.length := by
  apply visits_walk h.node _ _ _ _ h.walk
  intro i _
  unfold Dom.fuel
  omega

end Verif
