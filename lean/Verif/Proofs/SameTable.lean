import Verif.Proofs.SameDict
import Verif.Model.Parser

/-!
# Pages of rule tables that choose the same renderers and settings
-/

namespace Verif

open Spec

/-- The same renderers, and settings with the same values. -/
structure SameAssigned (a b : Assigned) : Prop where
  renderer : a.renderer = b.renderer
  settings : SameGiven a.settings b.settings
  linkRenderer : a.linkRenderer = b.linkRenderer
  linkSettings : a.linkSettings.isSome = b.linkSettings.isSome

theorem sameAssigned_refl (a : Assigned) : SameAssigned a a := ⟨rfl, .inl rfl, rfl, rfl⟩

/-- The same for specifications. -/
def SameSpec (x y : RSpec) : Prop :=
  x = y ∨ ∃ r s t, x = .pair r (some s) ∧ y = .pair r (some t) ∧ (s.map Prod.fst).Nodup ∧ (t.map Prod.fst).Nodup ∧ SameDict s t

/-- The same for lookups. -/
def SameLookup (x y : Py RSpec) : Prop := (∃ e, x = .error e ∧ y = .error e) ∨ ∃ a b, x = .ok a ∧ y = .ok b ∧ SameSpec a b

theorem sameLookup_refl (x : Py RSpec) : SameLookup x x := by
  cases x with
  | error e => exact .inl ⟨e, rfl, rfl⟩
  | ok a => exact .inr ⟨a, a, rfl, rfl, .inl rfl⟩

theorem assignOwn_dict {a b : Assigned} {x y : RSpec} (h : SameAssigned a b) (hs : SameSpec x y) : SameAssigned (assignOwn a x) (assignOwn b y) := by
  rcases hs with rfl | ⟨r, s, t, rfl, rfl, n1, n2, q⟩
  · cases x with
    | cls c => exact ⟨rfl, h.settings, h.linkRenderer, h.linkSettings⟩
    | pair r s => exact ⟨rfl, .inl rfl, h.linkRenderer, h.linkSettings⟩
  · exact ⟨rfl, .inr ⟨s, t, rfl, rfl, n1, n2, q⟩, h.linkRenderer, h.linkSettings⟩

theorem assignLink_dict {a b : Assigned} {x y : RSpec} (h : SameAssigned a b) (hs : SameSpec x y) : SameAssigned (assignLink a x) (assignLink b y) := by
  rcases hs with rfl | ⟨r, s, t, rfl, rfl, n1, n2, q⟩
  · cases x with
    | cls c => exact ⟨h.renderer, h.settings, rfl, h.linkSettings⟩
    | pair r s => exact ⟨h.renderer, h.settings, rfl, rfl⟩
  · exact ⟨h.renderer, h.settings, rfl, rfl⟩

/-- Tables of assigned renderers that agree. -/
def SameTable (t t' : List (Nat × Assigned)) : Prop := ∀ i, SameAssigned (assignedTo t i) (assignedTo t' i)

theorem sameTable_cons {t t' : List (Nat × Assigned)} {a b : Assigned} (h : SameTable t t') (hs : SameAssigned a b) (i : Nat) :
    SameTable ((i, a) :: t) ((i, b) :: t') := by
  intro j
  have := h j
  unfold assignedTo at this ⊢
  simp only [List.lookup_cons]
  split
  · exact hs
  · exact this

/-- Both fail alike, or both succeed with tables that agree. -/
def SameTables (x y : Py (List (Nat × Assigned))) : Prop :=
  (∃ e, x = .error e ∧ y = .error e) ∨ ∃ t t', x = .ok t ∧ y = .ok t' ∧ SameTable t t'

theorem assignOne_dict {c c' : Cfg} {d : Dom} {i : Nat} {t t' : List (Nat × Assigned)} (h1 : SameLookup (getRenderer c d i) (getRenderer c' d i))
    (h2 : SameLookup (getLinkRenderer c d i) (getLinkRenderer c' d i)) (h : SameTable t t') :
    SameTables (assignOne c d t i) (assignOne c' d t' i) := by
  unfold assignOne
  rcases h1 with ⟨e, e1, e2⟩ | ⟨a, b, e1, e2, q⟩
  · rw [e1, e2]; exact .inl ⟨e, rfl, rfl⟩
  · rw [e1, e2]
    simp only [bind, Except.bind, pure, Except.pure]
    have hown := assignOwn_dict (h i) q
    split
    · split
      · rcases h2 with ⟨e, f1, f2⟩ | ⟨x, y, f1, f2, r⟩
        · rw [f1, f2]; exact .inl ⟨e, rfl, rfl⟩
        · rw [f1, f2]; exact .inr ⟨_, _, rfl, rfl, sameTable_cons h (assignLink_dict hown r) i⟩
      · exact .inr ⟨_, _, rfl, rfl, sameTable_cons h hown i⟩
    · exact .inr ⟨_, _, rfl, rfl, sameTable_cons h hown i⟩

theorem assignRenderers_dict {c c' : Cfg} {d : Dom} (h1 : ∀ i, SameLookup (getRenderer c d i) (getRenderer c' d i))
    (h2 : ∀ i, SameLookup (getLinkRenderer c d i) (getLinkRenderer c' d i)) (f : Nat) :
    ∀ is t t', SameTable t t' → SameTables (assignRenderers c d f is t) (assignRenderers c' d f is t') := by
  induction f with
  | zero =>
    intro is t t' h
    cases is with
    | nil => exact .inr ⟨t, t', rfl, rfl, h⟩
    | cons i is => exact .inl ⟨_, rfl, rfl⟩
  | succ f ih =>
    intro is t t' h
    cases is with
    | nil => exact .inr ⟨t, t', rfl, rfl, h⟩
    | cons i is =>
      rw [assignRenderers, assignRenderers]
      · generalize i :: is = l
        induction l generalizing t t' with
        | nil => exact .inr ⟨t, t', rfl, rfl, h⟩
        | cons x l ihl =>
          simp only [List.foldlM_cons, bind, Except.bind]
          rcases assignOne_dict (h1 x) (h2 x) h with ⟨e, e1, e2⟩ | ⟨a, b, e1, e2, q⟩
          · rw [e1, e2]; exact .inl ⟨e, rfl, rfl⟩
          · rw [e1, e2]
            simp only
            rcases ih (d.childrenOf (.node x)) a b q with ⟨e, f1, f2⟩ | ⟨v, w, f1, f2, r⟩
            · rw [f1, f2]; exact .inl ⟨e, rfl, rfl⟩
            · rw [f1, f2]; exact ihl v w r
      all_goals simp

theorem callRenderer_dict {r : Option RClass} {t : TagInfo} {x y : Ctx} {p : Box} (h : SameGiven x.settings y.settings) (h1 : x.link = y.link)
    (h2 : x.target = y.target) :
    (∃ e, callRenderer r t x p = .error e ∧ callRenderer r t y p = .error e) ∨
      ∃ i j, callRenderer r t x p = .ok i ∧ callRenderer r t y p = .ok j ∧ SameInst i j := by
  cases r with
  | none => exact .inl ⟨_, rfl, rfl⟩
  | some c => exact construct_dict h h1 h2

theorem renderTag_dict {u : Uni} {d : Dom} {a b : Assigned} (h : SameAssigned a b) (i : Nat) (n : Node) (box : Box)
    (child link : Box → Nat → Py Str) : renderTag u d a i n box child link = renderTag u d b i n box child link := by
  unfold renderTag
  rw [h.renderer]
  rcases callRenderer_dict (r := b.renderer) (t := tagInfo d i) (p := box) (x := ⟨a.settings, n.link.map LinkInfo.ctx, none⟩)
      (y := ⟨b.settings, n.link.map LinkInfo.ctx, none⟩) h.settings rfl rfl with ⟨e, e1, e2⟩ | ⟨x, y, e1, e2, q⟩
  · rw [e1, e2]
  · rw [e1, e2]
    simp only [bind, Except.bind, q.box, render_same q u]

theorem renderLink_dict {u : Uni} {d : Dom} {a b : Assigned} (h : SameAssigned a b) (i : Nat) (n : Node) (l : LinkInfo) (box : Box)
    (child : Box → Nat → Py Str) : renderLink u d a i n l box child = renderLink u d b i n l box child := by
  unfold renderLink
  have := h.linkSettings
  rw [h.renderer, h.linkRenderer]
  cases h1 : a.linkSettings <;> cases h2 : b.linkSettings <;> simp_all

theorem renderNode_dict {u : Uni} {d : Dom} {t t' : List (Nat × Assigned)} (h : SameTable t t') (f : Nat) :
    ∀ asLink box i, renderNode u d t f asLink box i = renderNode u d t' f asLink box i := by
  induction f with
  | zero => intro _ _ _; rfl
  | succ f ih =>
    intro asLink box i
    have e : ∀ b, renderNode u d t f b = renderNode u d t' f b := fun b => by funext x y; exact ih b x y
    simp only [renderNode, e, renderTag_dict (h i), renderLink_dict (h i)]

end Verif
