import Verif.Proofs.Links
import Verif.Proofs.Parse

/-!
# The targets of links
-/

namespace Verif

open Spec

/-- What a link node keeps is read from its attributes. -/
structure LinkOk (u : Uni) (c : Cfg) (n : Node) (l : LinkInfo) : Prop where
  title : l.title = attrStr n.attrs (if n.tag = some py"a" then py"title" else py"alt")
  href : l.href = attrStr n.attrs (if n.tag = some py"a" then py"href" else py"src")
  target : parseHref u c.gopherHost c.gopherPort l.href = .ok l.gopherLink

def LinksOk (u : Uni) (c : Cfg) (d : Dom) : Prop :=
  ∀ (i : Nat) n l, d.nodes[i]? = some n → n.link = some l → LinkOk u c n l

theorem newLink_ok {u : Uni} {c : Cfg} {s : PState} {tag : Str} {p : Par} {attrs} {n : Node} {l : LinkInfo}
    (h : newLink u tag p attrs (linkCtx c s) = .ok n) (ht : n.tag = some tag) (hl : n.link = some l) : LinkOk u c n l := by
  simp only [newLink, bind, Except.bind, pure, Except.pure] at h
  split at h
  · cases h
  · rename_i m hm
    split at h
    · cases h
    · rename_i g hg
      cases h
      cases hl
      simp only at ht
      refine ⟨?_, ?_, hg⟩
      · simp only [ht, Option.some.injEq]
      · simp only [ht, Option.some.injEq]

theorem linksOk_extends {u : Uni} {c : Cfg} {d d' : Dom} {p : Par} {n : Node} (h : LinksOk u c d) (he : Extends d d' p n)
    (hn : ∀ l, n.link = some l → LinkOk u c n l) : LinksOk u c d' := by
  intro k m l hk hl
  have hlt := getElem?_lt hk
  rw [he.len] at hlt
  by_cases e : k = d.nodes.length
  · subst e
    rw [he.last] at hk
    cases hk
    exact hn l hl
  · have hlt' : k < d.nodes.length := by omega
    obtain ⟨pe, h1⟩ := he.old k _ (List.getElem?_eq_getElem hlt')
    rw [h1] at hk
    cases hk
    obtain ⟨a, b, c⟩ := h k _ l (List.getElem?_eq_getElem hlt') hl
    exact ⟨a, b, c⟩

theorem linksOk_closes {u : Uni} {c : Cfg} {d d' : Dom} {i : Nat} (h : LinksOk u c d) (hc : Closes d d' i) : LinksOk u c d' := by
  intro k m l hk hl
  have hlt := getElem?_lt hk
  rw [hc.len] at hlt
  rw [hc.old k _ (List.getElem?_eq_getElem hlt)] at hk
  cases hk
  obtain ⟨a, b, c⟩ := h k _ l (List.getElem?_eq_getElem hlt) hl
  exact ⟨a, b, c⟩

theorem step_linksOk {u : Uni} {c : Cfg} {s s' : PState} (h : TInv s.dom s.stack) {e : Event} (hl : LinksOk u c s.dom)
    (hs : step u c s e = .ok s') : LinksOk u c s'.dom := by
  cases e with
  | start tag attrs =>
    obtain ⟨n, h1, h2, h3, h4, h5, h6, h7, h8⟩ := handleStart_extends h hs
    refine linksOk_extends hl h1 (fun l hnl => ?_)
    split at h8
    · exact newLink_ok h8 h3 hnl
    · rw [(newTag_parent h8).2] at hnl
      cases hnl
  | stop tag =>
    simp only [step, Except.ok.injEq] at hs
    subst hs
    rcases handleEnd_cases h tag with ⟨i, n, -, -, -, h4, -⟩ | ⟨-, h4, -⟩
    · rw [h4]; exact linksOk_closes hl (closes_modify _ _)
    · rw [h4]; exact hl
  | data text =>
    simp only [step, Except.ok.injEq] at hs
    subst hs
    exact linksOk_extends hl (handleData_extends h text) (fun l hnl => by cases hnl)

theorem feed_linksOk {u : Uni} {c : Cfg} {s s' : PState} (h : TInv s.dom s.stack) {es : List Event} (hl : LinksOk u c s.dom)
    (hs : feed u c s es = .ok s') : LinksOk u c s'.dom := by
  induction es generalizing s with
  | nil => simp [feed_nil] at hs; subst hs; exact hl
  | cons e es ih =>
    rw [feed_cons] at hs
    cases h1 : step u c s e with
    | error x => simp [h1, Except.bind] at hs
    | ok s1 =>
      rw [h1] at hs
      exact ih (step_inv h h1) (step_linksOk h hl h1) hs

theorem attrStr_src {attrs : List (Str × Option Str)} {n : Node} (h : AttrsAgree attrs n) (k : Str) (hk : k ≠ py"class") :
    attrStr n.attrs k = (attrOf attrs k).join := by
  unfold attrStr
  rw [h.other k hk]
  cases attrOf attrs k with
  | none => rfl
  | some v => cases v <;> rfl

end Verif
