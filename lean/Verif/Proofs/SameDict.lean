import Verif.Spec.Group
import Verif.Proofs.Dict

/-!
# Rendering depends on the values of settings, not on their order
-/

namespace Verif

open Spec

theorem sameDict_set {s t : Dict} (h : SameDict s t) (k : Str) (v : Val) : SameDict (DictOf.set s k v) (DictOf.set t k v) := by
  intro j
  rw [DictOf.get_set, DictOf.get_set, h]

/-- Settings given to a renderer: the same, or dicts with the same values. -/
def SameGiven (a b : Option Dict) : Prop :=
  a = b ∨ ∃ s t, a = some s ∧ b = some t ∧ (s.map Prod.fst).Nodup ∧ (t.map Prod.fst).Nodup ∧ SameDict s t

theorem sameDict_adjust {c c' : Ctx} (h : SameGiven c.settings c'.settings) (s : Dict) : SameDict (adjust s c) (adjust s c') := by
  intro k
  unfold adjust
  rcases h with e | ⟨x, y, e1, e2, n1, n2, q⟩
  · rw [e]
  · rw [e1, e2]
    simp only
    rw [DictOf.get_update_nodup _ _ n1, DictOf.get_update_nodup _ _ n2, q]

/-- Both fail alike, or both succeed with the same settings. -/
def SameRes (a b : Py Dict) : Prop := (∃ e, a = .error e ∧ b = .error e) ∨ ∃ s t, a = .ok s ∧ b = .ok t ∧ SameDict s t

theorem sameRes_ok {s t : Dict} (h : SameDict s t) : SameRes (.ok s) (.ok t) := .inr ⟨s, t, rfl, rfl, h⟩

theorem sameRes_bind {α : Type} (x : Py α) {f g : α → Py Dict} (h : ∀ a, SameRes (f a) (g a)) : SameRes (x >>= f) (x >>= g) := by
  cases x with
  | error e => exact .inl ⟨e, rfl, rfl⟩
  | ok a => exact h a

theorem initSettings_dict {c : RClass} {t : TagInfo} {x y : Ctx} (h : SameGiven x.settings y.settings) :
    SameRes (initSettings c t x) (initSettings c t y) := by
  unfold initSettings
  split
  · refine sameRes_bind _ (fun a => sameRes_bind _ (fun a => sameRes_bind _ (fun a => sameRes_bind _ (fun a => ?_))))
    refine sameRes_bind _ (fun a => sameRes_bind _ (fun a => sameRes_bind _ (fun a => sameRes_bind _ (fun a => ?_))))
    exact sameRes_ok (sameDict_adjust h _)
  · exact sameRes_bind _ (fun a => sameRes_ok (sameDict_set (sameDict_adjust h _) _ _))
  · exact sameRes_ok (sameDict_adjust h _)

theorem blockBox_dict {s t : Dict} (h : SameDict s t) (w : Bool) (p : Box) : blockBox w s p = blockBox w t p := by
  unfold SameDict at h
  simp only [blockBox, boxTemplate, getA, h]

/-- Instances that differ in the order of their settings. -/
structure SameInst (i j : Inst) : Prop where
  cls : i.cls = j.cls
  settings : SameDict i.settings j.settings
  box : i.box = j.box
  tag : i.tag = j.tag
  link : i.ctx.link = j.ctx.link
  target : i.ctx.target = j.ctx.target

theorem construct_dict {c : RClass} {t : TagInfo} {x y : Ctx} {p : Box} (h : SameGiven x.settings y.settings) (h1 : x.link = y.link)
    (h2 : x.target = y.target) :
    (∃ e, construct c t x p = .error e ∧ construct c t y p = .error e) ∨
      ∃ i j, construct c t x p = .ok i ∧ construct c t y p = .ok j ∧ SameInst i j := by
  unfold construct
  rcases initSettings_dict (c := c) (t := t) h with ⟨e, e1, e2⟩ | ⟨a, b, e1, e2, q⟩
  · rw [e1, e2]; exact .inl ⟨e, rfl, rfl⟩
  · rw [e1, e2]
    simp only [bind, Except.bind, pure, Except.pure]
    split
    · rw [blockBox_dict q]
      cases blockBox c.boxHasTemplate b p with
      | error e => exact .inl ⟨e, rfl, rfl⟩
      | ok box => exact .inr ⟨_, _, rfl, rfl, ⟨rfl, q, rfl, rfl, h1, h2⟩⟩
    · exact .inr ⟨_, _, rfl, rfl, ⟨rfl, q, rfl, rfl, h1, h2⟩⟩

theorem render_same {i j : Inst} (h : SameInst i j) (u : Uni) (content : Str) : i.render u content = j.render u content := by
  obtain ⟨cls, s, box, tag, ⟨cs, cl, ct⟩⟩ := i
  obtain ⟨cls', s', box', tag', ⟨cs', cl', ct'⟩⟩ := j
  obtain ⟨h1, h2, h3, h4, h5, h6⟩ := h
  simp only at h1 h2 h3 h4 h5 h6
  subst h1 h3 h4 h5 h6
  unfold SameDict at h2
  have heff : ∀ (n : Bool) (l : List (Str × Int × Int)), effectCodes s n l = effectCodes s' n l := by
    intro n l
    induction l with
    | nil => rfl
    | cons x l ih => obtain ⟨a, b, c⟩ := x; simp only [effectCodes, getK, h2, ih]
  have hflag : ∀ k b, wrapFlag s k b = wrapFlag s' k b := by intro k b; simp only [wrapFlag, h2]
  have hwrap : ∀ w, wrapOpts u s w = wrapOpts u s' w := by
    intro w
    simp only [wrapOpts, hflag, getA, h2]
  unfold Inst.render
  cases box with
  | none =>
    cases cls <;>
      simp only [inlineRender, codeRender, linkRender, imageRender, breakRender, ansiRender, colourCodes, namedTemplate, capIf, getA, getK, h2, heff,
        ctxLink, ctxTarget, ctxTitle]
  | some box =>
    cases cls <;>
      simp only [blockRender, extractedLinkRender, innerRender, borderRender, headerInner, paragraphInner, preInner, quoteInner, itemInner,
        extractedLinkInner, extractedImageInner, hwrap, capIf, getA, getK, h2, ctxLink, ctxTarget]

end Verif
