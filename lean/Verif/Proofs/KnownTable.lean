import Verif.Proofs.Known

/-!
# Pages of rule tables that choose the same renderers and agree on the settings known to them
-/

namespace Verif

open Spec

/-- What two tables of rules find for an element: the same, or the same renderer with settings that agree on what it knows. -/
inductive LookupOn : Py RSpec → Py RSpec → Prop where
  | error (e : PyErr) : LookupOn (.error e) (.error e)
  | cls (c : RClass) : LookupOn (.ok (.cls c)) (.ok (.cls c))
  | pair (r : Option RClass) (s t : Option Dict) (h : ∀ c, r = some c → GivenOn (Knows c) s t) : LookupOn (.ok (.pair r s)) (.ok (.pair r t))

/-- The same for the list of links, where the settings make no difference. -/
inductive LinkLookupOn : Py RSpec → Py RSpec → Prop where
  | error (e : PyErr) : LinkLookupOn (.error e) (.error e)
  | cls (c : RClass) : LinkLookupOn (.ok (.cls c)) (.ok (.cls c))
  | pair (r : Option RClass) (s t : Option Dict) : LinkLookupOn (.ok (.pair r s)) (.ok (.pair r t))

theorem lookupOn_refl (x : Py RSpec) : LookupOn x x := by
  cases x with
  | error e => exact .error e
  | ok a => cases a with
    | cls c => exact .cls c
    | pair r s => exact .pair r s s (fun _ _ => .inl rfl)

theorem linkLookupOn_refl (x : Py RSpec) : LinkLookupOn x x := by
  cases x with
  | error e => exact .error e
  | ok a => cases a with
    | cls c => exact .cls c
    | pair r s => exact .pair r s s

/-- What is assigned to an element for which `x` is found. -/
structure AssignedOn (x : Py RSpec) (a b : Assigned) : Prop where
  renderer : a.renderer = b.renderer
  settings : a.settings = b.settings ∨ (∃ r s, x = .ok (.pair r s)) ∧ ∀ c, a.renderer = some c → GivenOn (Knows c) a.settings b.settings
  linkRenderer : a.linkRenderer = b.linkRenderer
  linkSettings : a.linkSettings.isSome = b.linkSettings.isSome

theorem assignedOn_refl (x : Py RSpec) (a : Assigned) : AssignedOn x a a := ⟨rfl, .inl rfl, rfl, rfl⟩

theorem assignOwn_on {a b : Assigned} {x y : RSpec} (h : AssignedOn (.ok x) a b) (hs : LookupOn (.ok x) (.ok y)) :
    AssignedOn (.ok x) (assignOwn a x) (assignOwn b y) := by
  cases hs with
  | cls c =>
    refine ⟨rfl, ?_, h.linkRenderer, h.linkSettings⟩
    rcases h.settings with e | ⟨⟨r, s, e⟩, -⟩
    · exact .inl e
    · simp at e
  | pair r s t q => exact ⟨rfl, .inr ⟨⟨r, s, rfl⟩, q⟩, h.linkRenderer, h.linkSettings⟩

theorem assignLink_on {z : Py RSpec} {a b : Assigned} {x y : RSpec} (h : AssignedOn z a b) (hs : LinkLookupOn (.ok x) (.ok y)) :
    AssignedOn z (assignLink a x) (assignLink b y) := by
  cases hs with
  | cls c => exact ⟨h.renderer, h.settings, rfl, h.linkSettings⟩
  | pair r s t => exact ⟨h.renderer, h.settings, rfl, rfl⟩

/-- Tables of assigned renderers that agree. -/
def TableOn (find : Nat → Py RSpec) (t t' : List (Nat × Assigned)) : Prop := ∀ i, AssignedOn (find i) (assignedTo t i) (assignedTo t' i)

theorem tableOn_cons {find : Nat → Py RSpec} {t t' : List (Nat × Assigned)} {a b : Assigned} {i : Nat} (h : TableOn find t t')
    (hs : AssignedOn (find i) a b) : TableOn find ((i, a) :: t) ((i, b) :: t') := by
  intro j
  have := h j
  unfold assignedTo at this ⊢
  simp only [List.lookup_cons]
  by_cases e : j = i
  · subst e
    simpa using hs
  · have : (j == i) = false := by simp [e]
    simp only [this]
    assumption

/-- Both fail alike, or both succeed with tables that agree. -/
def TablesOn (find : Nat → Py RSpec) (x y : Py (List (Nat × Assigned))) : Prop :=
  (∃ e, x = .error e ∧ y = .error e) ∨ ∃ t t', x = .ok t ∧ y = .ok t' ∧ TableOn find t t'

theorem assignOne_on {c c' : Cfg} {d : Dom} {i : Nat} {t t' : List (Nat × Assigned)} (h1 : LookupOn (getRenderer c d i) (getRenderer c' d i))
    (h2 : LinkLookupOn (getLinkRenderer c d i) (getLinkRenderer c' d i)) (h : TableOn (getRenderer c d) t t') :
    TablesOn (getRenderer c d) (assignOne c d t i) (assignOne c' d t' i) := by
  unfold assignOne
  cases e1 : getRenderer c d i with
  | error e =>
    rw [e1] at h1
    generalize getRenderer c' d i = g at h1 ⊢
    cases h1
    exact .inl ⟨e, rfl, rfl⟩
  | ok a =>
    have hi := h i
    rw [e1] at h1 hi
    cases e2 : getRenderer c' d i with
    | error e => rw [e2] at h1; cases h1
    | ok b =>
      rw [e2] at h1
      have hown := assignOwn_on hi h1
      rw [← e1] at hown
      simp only [bind, Except.bind, pure, Except.pure]
      split
      · split
        · generalize getLinkRenderer c d i = g at h2 ⊢
          generalize getLinkRenderer c' d i = g' at h2 ⊢
          cases g with
          | error e => cases h2; exact .inl ⟨e, rfl, rfl⟩
          | ok x => cases g' with
            | error e => cases h2
            | ok y => exact .inr ⟨_, _, rfl, rfl, tableOn_cons h (assignLink_on hown h2)⟩
        · exact .inr ⟨_, _, rfl, rfl, tableOn_cons h hown⟩
      · exact .inr ⟨_, _, rfl, rfl, tableOn_cons h hown⟩

theorem assignRenderers_on {c c' : Cfg} {d : Dom} (h1 : ∀ i, LookupOn (getRenderer c d i) (getRenderer c' d i))
    (h2 : ∀ i, LinkLookupOn (getLinkRenderer c d i) (getLinkRenderer c' d i)) (f : Nat) :
    ∀ is t t', TableOn (getRenderer c d) t t' → TablesOn (getRenderer c d) (assignRenderers c d f is t) (assignRenderers c' d f is t') := by
  induction f with
  | zero =>
    intro is t t' h
    cases is with
    | nil => exact .inr ⟨t, t', rfl, rfl, h⟩
    | cons i is => exact .inl ⟨_, rfl, rfl⟩
  | succ f ih =>
    intro is t t' h
    cases is with
    | nil => exact .inr ⟨t, t', rfl, rfl, h⟩
    | cons i is =>
      rw [assignRenderers, assignRenderers]
      · generalize i :: is = l
        induction l generalizing t t' with
        | nil => exact .inr ⟨t, t', rfl, rfl, h⟩
        | cons x l ihl =>
          simp only [List.foldlM_cons, bind, Except.bind]
          rcases assignOne_on (h1 x) (h2 x) h with ⟨e, e1, e2⟩ | ⟨a, b, e1, e2, q⟩
          · rw [e1, e2]; exact .inl ⟨e, rfl, rfl⟩
          · rw [e1, e2]
            simp only
            rcases ih (d.childrenOf (.node x)) a b q with ⟨e, f1, f2⟩ | ⟨v, w, f1, f2, r⟩
            · rw [f1, f2]; exact .inl ⟨e, rfl, rfl⟩
            · rw [f1, f2]; exact ihl v w r
      all_goals simp

theorem renderTag_on {u : Uni} {d : Dom} {z : Py RSpec} {a b : Assigned} (h : AssignedOn z a b) (i : Nat) (n : Node) (box : Box)
    (child link : Box → Nat → Py Str) : renderTag u d a i n box child link = renderTag u d b i n box child link := by
  unfold renderTag
  have hs := h.settings
  have hr := h.renderer
  generalize a.renderer = r at *
  subst hr
  cases hb : b.renderer with
  | none => rfl
  | some c =>
    have hg : GivenOn (Knows c) a.settings b.settings := by
      rcases hs with e | ⟨-, q⟩
      · exact .inl e
      · exact q c hb
    simp only [callRenderer]
    rcases construct_on (c := c) (t := tagInfo d i) (p := box) (x := ⟨a.settings, n.link.map LinkInfo.ctx, none⟩)
        (y := ⟨b.settings, n.link.map LinkInfo.ctx, none⟩) hg rfl rfl with ⟨e, e1, e2⟩ | ⟨x, y, e1, e2, q⟩
    · rw [e1, e2]
    · rw [e1, e2]
      simp only [bind, Except.bind, q.box, render_on q u]

theorem renderLink_on {u : Uni} {d : Dom} {z : Py RSpec} {a b : Assigned} (h : AssignedOn z a b) (i : Nat) (n : Node) (l : LinkInfo) (box : Box)
    (child : Box → Nat → Py Str) : renderLink u d a i n l box child = renderLink u d b i n l box child := by
  unfold renderLink
  have h1 := h.linkSettings
  rw [h.renderer, h.linkRenderer]
  cases e1 : a.linkSettings <;> cases e2 : b.linkSettings <;> simp_all

theorem renderNode_on {u : Uni} {d : Dom} {find : Nat → Py RSpec} {t t' : List (Nat × Assigned)} (h : TableOn find t t') (f : Nat) :
    ∀ asLink box i, renderNode u d t f asLink box i = renderNode u d t' f asLink box i := by
  induction f with
  | zero => intro _ _ _; rfl
  | succ f ih =>
    intro asLink box i
    have e : ∀ b, renderNode u d t f b = renderNode u d t' f b := fun b => by funext x y; exact ih b x y
    simp only [renderNode, e, renderTag_on (h i), renderLink_on (h i)]

end Verif
