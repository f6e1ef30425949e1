import Verif.Proofs.Assign
import Verif.Proofs.Links
import Verif.Proofs.Splitlines

/-!
# `close` and `reset`
-/

namespace Verif

open Spec

/-! ## Lists of results -/

theorem mapM_ok {α β : Type} {f : α → Py β} {l : List α} {r : List β} (h : l.mapM f = .ok r) :
    r.length = l.length ∧ ∀ (k : Nat) x, l[k]? = some x → ∃ y, r[k]? = some y ∧ f x = .ok y := by
  induction l generalizing r with
  | nil => simp [pure, Except.pure] at h; subst h; simp
  | cons a l ih =>
    simp only [List.mapM_cons, bind, Except.bind] at h
    cases ha : f a with
    | error e => rw [ha] at h; cases h
    | ok b =>
      rw [ha] at h
      simp only at h
      cases hl : l.mapM f with
      | error e => rw [hl] at h; cases h
      | ok bs =>
        rw [hl] at h
        simp only [pure, Except.pure, Except.ok.injEq] at h
        subst h
        obtain ⟨h1, h2⟩ := ih hl
        refine ⟨by simp [h1], ?_⟩
        intro k x hk
        cases k with
        | zero => simp at hk; subst hk; exact ⟨b, rfl, ha⟩
        | succ k => simp at hk ⊢; exact h2 k x hk

theorem mapM_congr {α β : Type} {f g : α → Py β} {l : List α} (h : ∀ x ∈ l, f x = g x) : l.mapM f = l.mapM g := by
  induction l with
  | nil => rfl
  | cons a l ih => rw [List.mapM_cons, List.mapM_cons, h a (by simp), ih (fun x hx => h x (List.mem_cons_of_mem _ hx))]

theorem renderAll_congr {f g : Nat → Py Str} {l : List Nat} (h : ∀ i ∈ l, f i = g i) : renderAll f l = renderAll g l := by
  induction l with
  | nil => rfl
  | cons a l ih => rw [renderAll, renderAll, h a (by simp), ih (fun x hx => h x (List.mem_cons_of_mem _ hx))]

theorem renderAll_mapM (f : Nat → Py Str) (l : List Nat) : renderAll f l = (l.mapM f).map List.flatten := by
  induction l with
  | nil => rfl
  | cons a l ih =>
    rw [renderAll, List.mapM_cons, ih]
    simp only [bind, Except.bind, pure, Except.pure]
    cases f a with
    | error e => rfl
    | ok b =>
      simp only
      cases l.mapM f with
      | error e => rfl
      | ok bs => simp [Except.map]

/-! ## Closing -/

theorem initParser_eq {c : Cfg} {s : PState} (h : initParser c = .ok s) : s = {} := by
  unfold initParser at h
  split at h
  · cases h
  · split at h
    · cases h
    · cases h; rfl

theorem reach_inv {u : Uni} {c : Cfg} {s0 s : PState} {es : List Event} (h0 : initParser c = .ok s0)
    (h : feed u c s0 es = .ok s) : TInv s.dom s.stack := by
  rw [initParser_eq h0] at h
  exact feed_inv (s := {}) init_inv h

theorem reach_linv {u : Uni} {c : Cfg} {s0 s : PState} {es : List Event} (h0 : initParser c = .ok s0)
    (h : feed u c s0 es = .ok s) : LInv c s := by
  rw [initParser_eq h0] at h
  exact feed_linv (s := {}) init_inv (init_linv c) h

/-- Taking the elements off the stack when closing does not change the tree. -/
theorem popStack_eq {d : Dom} {stack l : List Nat} (h : TInv d stack) (hl : ∀ i ∈ l, i ∈ stack) : popStack d l = d := by
  induction l with
  | nil => rfl
  | cons i is ih =>
    obtain ⟨n, h1, h2, h3⟩ := open_mem h.spine i (hl i (by simp))
    have hne : ¬ n.parent = .none := by
      intro e
      have := (h.node i n h1).noParent e
      simp [h3] at this
    simp only [popStack, h1, hne, if_false]
    exact ih (fun j hj => hl j (List.mem_cons_of_mem _ hj))

/-- The renderings of the footer. -/
def footerParts (u : Uni) (c : Cfg) (s : PState) (d : Dom) (t : List (Nat × Assigned)) : Py (List Str) :=
  if c.linkPlacement = py"footer" ∧ s.footer ≠ [] then
    (s.footer.mapM (renderNode u d t d.fuel true c.pageBox)).map (py"\n" :: ·)
  else .ok []

/-- What is shown for the parts. -/
def framed (c : Cfg) (parts : List Str) : Str :=
  rep '\n' c.pageBox.margin.top ++ indentBody c.pageBox parts ++ rep '\n' c.pageBox.margin.bottom

theorem close_eq (u : Uni) (c : Cfg) (s : PState) (d : Dom) (hd : popStack s.dom s.stack.reverse = d) :
    close u c s = (assignRenderers c d d.fuel d.roots s.assigned).bind (fun t =>
      (d.roots.mapM (renderNode u d t d.fuel false c.pageBox)).bind (fun bodies =>
        (footerParts u c s d t).bind (fun foot =>
          .ok { s with dom := d, stack := [], assigned := t, parts := s.parts ++ bodies ++ foot,
                       parsed := if c.optimise then optimise (framed c (s.parts ++ bodies ++ foot))
                        else framed c (s.parts ++ bodies ++ foot) }))) := by
  simp only [close, hd, bind, Except.bind, footerParts, framed]
  cases assignRenderers c d d.fuel d.roots s.assigned with
  | error e => rfl
  | ok t =>
    simp only
    cases d.roots.mapM (renderNode u d t d.fuel false c.pageBox) with
    | error e => rfl
    | ok bodies =>
      simp only
      by_cases hc : c.linkPlacement = py"footer" ∧ s.footer ≠ []
      · rw [if_pos hc, if_pos hc]
        cases s.footer.mapM (renderNode u d t d.fuel true c.pageBox) <;> rfl
      · rw [if_neg hc, if_neg hc]
        rfl

theorem close_ok {u : Uni} {c : Cfg} {s s' : PState} {d : Dom} (hd : popStack s.dom s.stack.reverse = d)
    (h : close u c s = .ok s') : ∃ t bodies foot,
      assignRenderers c d d.fuel d.roots s.assigned = .ok t ∧
      d.roots.mapM (renderNode u d t d.fuel false c.pageBox) = .ok bodies ∧
      footerParts u c s d t = .ok foot ∧
      s' = { s with dom := d, stack := [], assigned := t, parts := s.parts ++ bodies ++ foot, parsed := if c.optimise then optimise (framed c (s.parts ++ bodies ++ foot)) else framed c (s.parts ++ bodies ++ foot) } := by
  rw [close_eq u c s d hd] at h
  cases h1 : assignRenderers c d d.fuel d.roots s.assigned with
  | error e => rw [h1] at h; cases h
  | ok t =>
    rw [h1] at h
    simp only [Except.bind] at h
    cases h2 : d.roots.mapM (renderNode u d t d.fuel false c.pageBox) with
    | error e => rw [h2] at h; cases h
    | ok bodies =>
      rw [h2] at h
      simp only at h
      cases h3 : footerParts u c s d t with
      | error e => rw [h3] at h; cases h
      | ok foot =>
        rw [h3] at h
        simp only [Except.ok.injEq] at h
        exact ⟨t, bodies, foot, rfl, h2, h3, h.symm⟩

/-- Rendering depends on the assigned renderers only. -/
theorem renderNode_congr {u : Uni} {d : Dom} {t t' : List (Nat × Assigned)} (h : ∀ j, assignedTo t j = assignedTo t' j)
    (f : Nat) : renderNode u d t f = renderNode u d t' f := by
  induction f with
  | zero => rfl
  | succ f ih =>
    funext asLink box i
    simp only [renderNode, ih, h]

/-! ## The log -/

/-- Forget what was printed. -/
def quiet (s : PState) : PState := { s with log := [] }

theorem handleStart_log {u : Uni} {c : Cfg} (s : PState) (l : List Str) (tag : Str) (attrs) :
    handleStart u c { s with log := l } tag attrs = (handleStart u c s tag attrs).map (fun s' => { s' with log := l }) := by
  simp only [handleStart]
  have e1 : (if tag = py"pre" then { s with log := l, inPre := true } else { s with log := l }) =
      { s with log := l, inPre := if tag = py"pre" then true else s.inPre } := by split <;> rfl
  have e2 : (if tag = py"pre" then { s with inPre := true } else s) =
      { s with inPre := if tag = py"pre" then true else s.inPre } := by split <;> rfl
  have e3 : tagParent { s with log := l } = tagParent s := rfl
  rw [e1, e2, e3]
  simp only [bind, Except.bind, pure, Except.pure]
  split
  · have e4 : linkCtx c { s with log := l, inPre := if tag = py"pre" then true else s.inPre } =
        linkCtx c { s with inPre := if tag = py"pre" then true else s.inPre } := rfl
    rw [e4]
    cases newLink u tag (tagParent s) attrs (linkCtx c { s with inPre := if tag = py"pre" then true else s.inPre }) with
    | error e => rfl
    | ok n =>
      simp only [registerLink, bind, Except.bind, pure, Except.pure]
      by_cases hf : c.placement tag = py"footer"
      · simp only [hf, if_true]
        simp only [show py"footer" ≠ py"inline" by decide, ne_eq, not_false_eq_true, if_true]
        rfl
      · simp only [hf, if_false]
        by_cases ha : c.placement tag = py"after_block"
        · simp only [ha, if_true]
          cases tagParent s with
          | doc => rfl
          | none => rfl
          | node j =>
            simp only [show py"after_block" ≠ py"inline" by decide, ne_eq, not_false_eq_true, if_true]
            rfl
        · simp only [ha, if_false]
          by_cases hi : c.placement tag = py"inline"
          · simp only [hi, ne_eq, not_true_eq_false, if_false]; rfl
          · simp only [hi, ne_eq, not_false_eq_true, if_true]; rfl
  · cases newTag tag (tagParent s) attrs <;> rfl

theorem step_quiet (u : Uni) (c : Cfg) (s : PState) (e : Event) :
    (step u c s e).map quiet = (step u c (quiet s) e).map quiet := by
  cases e with
  | start tag attrs =>
    have h : handleStart u c (quiet s) tag attrs = _ := handleStart_log s [] tag attrs
    simp only [step]
    rw [h]
    cases handleStart u c s tag attrs <;> rfl
  | data text => rfl
  | stop tag =>
    simp only [step, Except.map, quiet, Except.ok.injEq]
    simp only [handleEnd]
    split
    · rfl
    · have e1 : (if tag = py"pre" then { s with log := [], inPre := false } else { s with log := [] }) =
          { s with log := [], inPre := if tag = py"pre" then false else s.inPre } := by split <;> rfl
      have e2 : (if tag = py"pre" then { s with inPre := false } else s) =
          { s with inPre := if tag = py"pre" then false else s.inPre } := by split <;> rfl
      rw [e1, e2]
      have e3 : getTop { s with log := [], inPre := if tag = py"pre" then false else s.inPre } = getTop s := rfl
      have e4 : getTop { s with inPre := if tag = py"pre" then false else s.inPre } = getTop s := rfl
      rw [e3, e4]
      cases getTop s with
      | none => rfl
      | some i =>
        simp only
        split <;> rfl

theorem feed_quiet (u : Uni) (c : Cfg) (s : PState) (es : List Event) :
    (feed u c s es).map quiet = (feed u c (quiet s) es).map quiet := by
  induction es generalizing s with
  | nil => rfl
  | cons e es ih =>
    rw [feed_cons, feed_cons]
    have h := step_quiet u c s e
    cases h1 : step u c s e with
    | error x =>
      rw [h1] at h
      cases h2 : step u c (quiet s) e with
      | error y => rw [h2] at h; cases h; rfl
      | ok s2 => rw [h2] at h; cases h
    | ok s1 =>
      rw [h1] at h
      cases h2 : step u c (quiet s) e with
      | error y => rw [h2] at h; cases h
      | ok s2 =>
        rw [h2] at h
        simp only [Except.map, Except.ok.injEq] at h
        simp only [Except.bind]
        rw [ih s1, ih s2, h]

theorem close_quiet (u : Uni) (c : Cfg) (s : PState) : (close u c s).map PState.parsed = (close u c (quiet s)).map PState.parsed := by
  rw [close_eq u c s _ rfl, close_eq u c (quiet s) _ rfl]
  simp only [quiet]
  cases assignRenderers c (popStack s.dom s.stack.reverse) (popStack s.dom s.stack.reverse).fuel
      (popStack s.dom s.stack.reverse).roots s.assigned with
  | error e => rfl
  | ok t =>
    simp only [Except.bind]
    split
    · rfl
    · have : footerParts u c { s with log := [] } (popStack s.dom s.stack.reverse) t =
          footerParts u c s (popStack s.dom s.stack.reverse) t := rfl
      rw [this]
      cases footerParts u c s (popStack s.dom s.stack.reverse) t <;> rfl

theorem renderFrom_eq (u : Uni) (c : Cfg) (s : PState) (es : List Event) :
    renderFrom u c s es = (feed u c s es).bind (fun s => (close u c s).map PState.parsed) := by
  simp only [renderFrom, bind, pure]
  cases feed u c s es with
  | error e => rfl
  | ok s1 => simp only [Except.bind]; cases close u c s1 <;> rfl

/-- What was printed does not influence the result. -/
theorem renderFrom_quiet (u : Uni) (c : Cfg) (s : PState) (es : List Event) :
    renderFrom u c s es = renderFrom u c (quiet s) es := by
  rw [renderFrom_eq, renderFrom_eq]
  have h := feed_quiet u c s es
  cases h1 : feed u c s es with
  | error x =>
    rw [h1] at h
    cases h2 : feed u c (quiet s) es with
    | error y => rw [h2] at h; cases h; rfl
    | ok s2 => rw [h2] at h; cases h
  | ok s1 =>
    rw [h1] at h
    cases h2 : feed u c (quiet s) es with
    | error y => rw [h2] at h; cases h
    | ok s2 =>
      rw [h2] at h
      simp only [Except.map, Except.ok.injEq] at h
      simp only [Except.bind]
      rw [close_quiet, close_quiet u c s2, h]

end Verif
