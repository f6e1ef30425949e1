import Verif.Proofs.RoomTree
import Verif.Props.Accept

/-!
# C65: rendering succeeds if there is room
-/

namespace Verif

open Spec

theorem marker_exists {d : Dom} {theme : List Rule} {src} (hinv : SelInv d src) (i : Nat) : ∃ k, Marker d theme i k := by
  by_cases hu : Untouched d theme i
  · by_cases h1 : HasTag d i py"blockquote"
    · exact ⟨_, .quote hu h1⟩
    by_cases h2 : HasTag d i py"dd"
    · exact ⟨_, .description hu h2⟩
    by_cases h3 : HasTag d i py"li"
    · by_cases h4 : ChildOf d py"ol" i
      · obtain ⟨n, m1, m2⟩ := isElem_node hinv ⟨_, h3⟩
        obtain ⟨q, A, C, -, -, -, -, -, ha⟩ := elem_pos hinv m1 m2
        exact ⟨_, .number hu h3 h4 ((ha A C).2 ⟨rfl, rfl⟩)⟩
      · exact ⟨_, .bullet hu h3 h4⟩
    · exact ⟨_, .nothing hu h1 h2 h3⟩
  · exact ⟨_, .themed hu⟩

theorem fits_mono {d : Dom} {theme : List Rule} {i : Nat} {w w' : Int} (h : Fits d theme i w) (hw : w ≤ w') : Fits d theme i w' :=
  fun j k hj hk => by have := h j k hj hk; omega

/-- If the document has room then so has every element in it. -/
theorem fits_all {d : Dom} {theme : List Rule} {src} (hinv : SelInv d src) {w : Int} (h : HasRoom d theme w) (i : Nat) (n : Node)
    (hn : d.nodes[i]? = some n) : Fits d theme i w := by
  induction i using Nat.strongRecOn generalizing n with
  | _ i ih =>
    have hp := (hinv.node i n hn).parent
    have root : i ∈ d.roots → Fits d theme i w := fun hr => h i hr
    split at hp
    · rename_i j _
      obtain ⟨h1, m, h2, h3, -⟩ := hp
      obtain ⟨k, hk⟩ := marker_exists (theme := theme) hinv j
      exact fits_mono (((fits_iff hinv h2 hk w).1 (ih j h1 m h2)).1 i h3) (by have := marker_nonneg hk; omega)
    · exact root hp

theorem close_outcome (u : Uni) {c : Cfg} {theme : List Rule} (hc : Styled c theme) {s0 s : PState} {es : List Event}
    (h0 : initParser c = .ok s0) (h : feed u c s0 es = .ok s) : Outcome (HasRoom s.dom theme (textRoom c.pageBox)) (close u c s) := by
  have hT := reach_inv h0 h
  have hL := reach_linv h0 h
  have hS := reach_selInv h0 h
  have hroots : ∀ r ∈ s.dom.roots, ∃ m, s.dom.nodes[r]? = some m := fun r hr => (hS.root r hr).imp (fun _ h => h.1)
  obtain ⟨t, ht⟩ := assign_total hS.node (fun i a => assignVal_total hc hS i a) s.dom.fuel s.dom.roots
    (fun i hi => by obtain ⟨m, hm⟩ := hroots i hi; have := getElem?_lt hm; unfold Dom.fuel; omega) s.assigned
  have hall : AllAssigned c s.dom t := by
    intro i hi
    have := assignRenderers_by _ _ _ _ ht i
    rw [visits_all hT] at this
    have := this.1 (by simpa using hi)
    rwa [hL.log.2.2] at this
  have hnode : ∀ i n, s.dom.nodes[i]? = some n → ∀ al, (al = true → n.link.isSome) →
      Outcome (Fits s.dom theme i (textRoom c.pageBox)) (renderNode u s.dom t s.dom.fuel al c.pageBox i) := by
    intro i n hn al hal
    exact renderNode_outcome u hc hS ⟨hL.pending, hL.link⟩ hall _ i n hn (by unfold Dom.fuel; omega) al hal _
  have hfoot : Outcome (c.linkPlacement = py"footer" ∧ s.footer ≠ [] → ∀ i ∈ s.footer, Fits s.dom theme i (textRoom c.pageBox))
      (footerParts u c s s.dom t) := by
    unfold footerParts
    split
    · rename_i hf
      refine outcome_iff (outcome_map (outcome_mapM s.footer (fun i hi => ?_)) _) ⟨fun h _ => h, fun h => h hf⟩
      rw [hL.footer] at hi
      obtain ⟨n, m1, m2⟩ := nodesWhere_bound hi
      refine hnode i n m1 true (fun _ => ?_)
      rw [hL.link i n m1]
      unfold placed at m2
      cases htag : n.tag with
      | none => rw [htag] at m2; cases m2
      | some tag =>
        rw [htag] at m2
        simp only [Bool.or_eq_true, Bool.and_eq_true, decide_eq_true_eq] at m2
        rcases m2 with h | h
        · exact .inl (by rw [h.1])
        · exact .inr (by rw [h.1])
    · rename_i hf
      exact outcome_ok (fun h => absurd h hf) _
  rw [close_eq u c s s.dom (popStack_eq hT (by simp)), ht]
  show Outcome _ ((s.dom.roots.mapM (renderNode u s.dom t s.dom.fuel false c.pageBox)).bind _)
  refine outcome_iff (outcome_bind (outcome_mapM (P := fun r => Fits s.dom theme r (textRoom c.pageBox)) _ (fun r hr => ?_))
    (fun _ bodies _ => outcome_bind (Q := True) hfoot (fun _ foot _ => outcome_ok trivial _))) ?_
  · obtain ⟨m, hm⟩ := hroots r hr
    exact hnode r m hm false (by simp)
  · constructor
    · rintro ⟨h1, -⟩; exact h1
    · intro hr
      refine ⟨hr, fun _ i hi => ?_, trivial⟩
      rw [hL.footer] at hi
      obtain ⟨n, m1, -⟩ := nodesWhere_bound hi
      exact fits_all hS hr i n m1

/-- After the document has been read without an error, closing succeeds if every element whose text is broken into lines
has a column left for it, and raises `ValueError` otherwise. -/
theorem C65 (u : Uni) (c : Cfg) (theme : List Rule) (es : List Event) (s0 s : PState) (hr : c.renderers = theme)
    (ht : theme = [] ∨ theme ∈ bundledThemes) (hl : c.linkRenderers = []) (hd : c.defaultRenderer = .cls .renderer)
    (h0 : initParser c = .ok s0) (h : feed u c s0 es = .ok s) :
    (HasRoom s.dom theme (textRoom c.pageBox) → ∃ s', close u c s = .ok s') ∧
    (¬ HasRoom s.dom theme (textRoom c.pageBox) → close u c s = .error .valueError) :=
  close_outcome u ⟨hr, ht, hl, hd⟩ h0 h

/-- So a document is rendered exactly if it can be read and there is room for it, and the only exceptions are `ValueError`
and `AttributeError`. -/
theorem C65_render (u : Uni) (c : Cfg) (theme : List Rule) (es : List Event) (s0 : PState) (hr : c.renderers = theme)
    (ht : theme = [] ∨ theme ∈ bundledThemes) (hl : c.linkRenderers = []) (hd : c.defaultRenderer = .cls .renderer)
    (h0 : initParser c = .ok s0) :
    ((∃ out, renderEvents u c es = .ok out) ↔ Readable u c es ∧ ∃ s, feed u c s0 es = .ok s ∧ HasRoom s.dom theme (textRoom c.pageBox)) ∧
    ∀ e, renderEvents u c es = .error e → e = .valueError ∨ e = .attributeError := by
  obtain ⟨g1, g2⟩ := C66_only u c s0 h0 es
  simp only [renderEvents, h0, bind, Except.bind, pure, Except.pure]
  cases hf : feed u c s0 es with
  | error e =>
    refine ⟨⟨fun ⟨_, h⟩ => (by cases h), fun ⟨_, _, h, _⟩ => (by cases h)⟩, ?_⟩
    rintro _ ⟨⟩
    obtain ⟨_, _, _, _, -, -, h⟩ := g2 e hf
    cases h
    · exact .inr rfl
    · exact .inl rfl
    · exact .inr rfl
  | ok s =>
    have hread := g1.1 ⟨s, hf⟩
    obtain ⟨k1, k2⟩ := C65 u c theme es s0 s hr ht hl hd h0 hf
    by_cases hroom : HasRoom s.dom theme (textRoom c.pageBox)
    · obtain ⟨s', hs'⟩ := k1 hroom
      simp only [hs']
      exact ⟨⟨fun _ => ⟨hread, s, rfl, hroom⟩, fun _ => ⟨_, rfl⟩⟩, fun e h => (by cases h)⟩
    · simp only [k2 hroom]
      refine ⟨⟨fun ⟨_, h⟩ => (by cases h), fun ⟨_, s', h, hr'⟩ => ?_⟩, ?_⟩
      · cases h; exact absurd hr' hroom
      · rintro _ ⟨⟩; exact .inl rfl

/-- A paragraph in `n` nested quotations. -/
def quoted (text : Str) : Nat → Forest
  | 0 => .elem py"p" [] (.text text .nil) .nil
  | n + 1 => .elem py"blockquote" [] (quoted text n) .nil

theorem quoted_wf (text : Str) (n : Nat) : (quoted text n).WellFormed false := by
  induction n with
  | zero => simp [quoted, Forest.WellFormed, VoidTag]
  | succ n ih => simpa [quoted, Forest.WellFormed, VoidTag] using ih

theorem quoted_fits {d : Dom} {src} (hinv : SelInv d src) (text : Str) (n : Nat) (ids : List Nat) (h : Rep d false ids (quoted text n)) (w : Int) :
    (∀ i ∈ ids, Fits d [] i w) ↔ 2 * n < w := by
  induction n generalizing ids w with
  | zero =>
    obtain ⟨i, is, m, rfl, h1, h2, h3, -, h5, rfl⟩ := h
    obtain ⟨j, js, k, e, h6, h7, -, rfl⟩ := h5
    have ht := hasTag_of h1 h2
    have hm : Marker d [] i 0 := .nothing (untouched_nil _ _) (by simp [ht]) (by simp [ht]) (by simp [ht])
    have hw : Wrapped d [] i := by
      refine ⟨untouched_nil _ _, .inl ⟨by simp [ht], ?_⟩⟩
      rintro ⟨m', j', g1, g2, g3⟩
      rw [h1] at g1; cases g1
      rw [e] at g2; cases g2
      rcases g3 with ⟨k', g4, g5⟩ | ⟨k', g4, g5⟩ <;> (rw [h6] at g4; cases g4; rw [h7] at g5; cases g5)
    have hj : Fits d [] j (w - 0) := by
      have no : ∀ t, ¬ HasTag d j t := by
        rintro t ⟨k', g4, g5⟩
        rw [h6] at g4; cases g4; rw [h7] at g5; cases g5
      have hd : k.children = [] := by
        have ok := hinv.node j k h6
        cases hd : k.data with
        | none => have := ok.noData hd; rw [h7] at this; cases this
        | some x => exact (ok.data (by rw [hd]; rfl)).2
      rw [fits_iff hinv h6 (.nothing (untouched_nil _ _) (no _) (no _) (no _)), hd]
      refine ⟨by simp, ?_⟩
      rintro ⟨-, h | h | h⟩
      · exact absurd h.1 (no _)
      · exact absurd h (no _)
      · exact absurd h (no _)
    have := fits_iff hinv h1 hm w
    rw [e] at this
    simp only [List.mem_singleton, forall_eq, this, hw, forall_const, hj, true_and]
    omega
  | succ n ih =>
    obtain ⟨i, is, m, rfl, h1, h2, h3, -, h5, rfl⟩ := h
    have ht := hasTag_of h1 h2
    have hm : Marker d [] i 2 := .quote (untouched_nil _ _) (by simp [ht])
    have hw : ¬ Wrapped d [] i := by
      rintro ⟨-, h | h | h⟩
      · simp [ht] at h
      · simp [ht] at h
      · simp [ht] at h
    simp only [List.mem_singleton, forall_eq, fits_iff hinv h1 hm w, hw, false_implies, and_true]
    rw [ih m.children (by simpa using h5)]
    omega

/-- Quotations that are nested too deeply cannot be rendered: on `w` columns the limit is `(w - 1) / 2`. -/
theorem C65_quotes (u : Uni) (c : Cfg) (text : Str) (n : Nat) (s0 s : PState) (hr : c.renderers = []) (hl : c.linkRenderers = [])
    (hd : c.defaultRenderer = .cls .renderer) (h0 : initParser c = .ok s0) (h : feed u c s0 (quoted text n).events = .ok s) :
    (2 * n < textRoom c.pageBox → ∃ s', close u c s = .ok s') ∧
    (¬ 2 * n < textRoom c.pageBox → close u c s = .error .valueError) := by
  have hrep := (C31 u c s0 s (quoted text n) (quoted_wf text n) h0 h).1
  have := C65 u c [] _ s0 s hr (.inl rfl) hl hd h0 h
  rwa [show HasRoom s.dom [] (textRoom c.pageBox) ↔ 2 * n < textRoom c.pageBox from
    quoted_fits (reach_selInv h0 h) text n _ hrep _] at this

/-- Thirty-three quotations fit on the standard page of 67 columns. -/
example : textRoom ({} : Cfg).pageBox = 67 := by decide

/-- Six quotations are too many for a page of 12 columns. -/
example : renderEvents asciiUni { box := some (Box.new 12 {} {} {} none none) } (quoted py"x" 6).events = .error .valueError ∧
    (∃ s, feed asciiUni { box := some (Box.new 12 {} {} {} none none) } {} (quoted py"x" 6).events = .ok s) ∧
    ∃ r, renderEvents asciiUni { box := some (Box.new 13 {} {} {} none none) } (quoted py"x" 6).events = .ok r :=
  ⟨by decide, ⟨_, rfl⟩, ⟨_, rfl⟩⟩

end Verif
