import Verif.Props.Sentence
import Verif.Props.Items
import Verif.Props.LooksText

/-!
# C62 in documents
-/

namespace Verif

open Spec

/-- What has no lower case letters can stand before a line. -/
theorem wellSpaced_prefix {a l : Str} (ha : ∀ c ∈ a, ¬ ('a' ≤ c ∧ c ≤ 'z')) (h : WellSpaced l) : WellSpaced (a ++ l) := by
  intro p c q e hc ⟨r, x, m, h1, h2, h3, h4⟩
  have hx : x ∉ a := fun hm => ha x hm ⟨h1, h2⟩
  have hp : ∃ t, p = r ++ x :: t := by
    rcases h4 with h4 | ⟨k, -, h4⟩
    · exact ⟨[m], h4⟩
    · exact ⟨[m, k], h4⟩
  obtain ⟨t, ht⟩ := hp
  rcases List.append_eq_append_iff.1 (e : a ++ l = p ++ ' ' :: c :: q) with ⟨p', e1, e2⟩ | ⟨a', e1, e2⟩
  · -- `p` goes beyond `a`
    rcases List.append_eq_append_iff.1 (ht.symm.trans e1) with ⟨b, f1, f2⟩ | ⟨r', f1, f2⟩
    · cases b with
      | nil =>
        rw [List.append_nil] at f1
        rw [List.nil_append] at f2
        refine h p' c q e2 hc ⟨[], x, m, h1, h2, h3, ?_⟩
        rw [← f2]
        rcases h4 with h4 | ⟨k, k1, h4⟩
        · rw [ht] at h4
          exact .inl (by rw [List.append_cancel_left h4]; rfl)
        · rw [ht] at h4
          exact .inr ⟨k, k1, by rw [List.append_cancel_left h4]; rfl⟩
      | cons y b =>
        rw [List.cons_append] at f2
        cases f2
        exact hx (by rw [f1]; simp)
    · refine h p' c q e2 hc ⟨r', x, m, h1, h2, h3, ?_⟩
      rw [f2]
      rcases h4 with h4 | ⟨k, k1, h4⟩
      · rw [ht] at h4
        exact .inl (by rw [List.append_cancel_left h4])
      · rw [ht] at h4
        exact .inr ⟨k, k1, by rw [List.append_cancel_left h4]⟩
  · exact hx (by rw [e1, ht]; simp)

theorem plainWs_strip {x : Str} (h : PlainWs x) : PlainWs (strip x) := fun c hc => h c ((strip_sublist x).subset hc)

theorem wellSpaced_nil : WellSpaced [] := by
  intro p c q e
  cases p <;> cases e

theorem wrapped_spaced {u : Uni} {w : Int} {x : Str} {lines : List Str} (hp : PlainWs x) (h : wrap u (proseOpts u w) x = .ok lines) :
    ∀ l ∈ lines, WellSpaced l :=
  C62 u (proseOpts u w) x lines rfl rfl hp (fun c hc => by cases hc) (fun c hc => by cases hc) h

theorem wrappedEach_spaced {u : Uni} {w : Int} {segs : List Str} {parts : List (List Str)} (hp : ∀ x ∈ segs, PlainWs x)
    (h : WrappedEach u (proseOpts u w) segs parts) : ∀ p ∈ parts, ∀ l ∈ p, WellSpaced l := by
  induction segs generalizing parts with
  | nil => cases parts <;> simp_all [WrappedEach]
  | cons x xs ih =>
    cases parts with
    | nil => simp
    | cons p ps =>
      intro r hr l hl
      rcases List.mem_cons.1 hr with rfl | hr
      · exact wrapped_spaced (plainWs_strip (hp x (by simp))) h.1 l hl
      · exact ih (fun y hy => hp y (by simp [hy])) h.2 r hr l hl

theorem hang_spaced {a : Str} {lines : List Str} (ha : ∀ c ∈ a, ¬ ('a' ≤ c ∧ c ≤ 'z')) (h : ∀ l ∈ lines, WellSpaced l) :
    ∀ l ∈ hang a lines, WellSpaced l := by
  have hs : ∀ n c, c ∈ List.replicate n ' ' → ¬ ('a' ≤ c ∧ c ≤ 'z') := by
    intro n c hc
    rw [List.eq_of_mem_replicate hc]
    decide
  intro l hl
  cases lines with
  | nil =>
    simp only [hang, List.mem_singleton] at hl
    rw [hl]
    have := wellSpaced_prefix ha wellSpaced_nil
    rwa [List.append_nil] at this
  | cons x xs =>
    simp only [hang, List.mem_cons, List.mem_map] at hl
    rcases hl with rfl | ⟨y, hy, rfl⟩
    · exact wellSpaced_prefix ha (h x (by simp))
    · exact wellSpaced_prefix (hs _) (h y (by simp [hy]))

/-! ## Whole texts -/

theorem sentenceEnd_after {a p : Str} {n : Char} (hn : ¬ ('a' ≤ n ∧ n ≤ 'z')) (h2 : n ∉ ['.', '!', '?']) (h3 : n ∉ ['"', '\''])
    (h : SentenceEnd (a ++ n :: p)) : SentenceEnd p := by
  obtain ⟨r, x, m, k1, k2, k3, k4⟩ := h
  rcases k4 with k4 | ⟨k, k5, k4⟩
  · have : (a ++ n :: p).reverse = [m, x] ++ r.reverse := by rw [k4]; simp
    rw [List.reverse_append, List.reverse_cons, List.append_assoc] at this
    match hp : p.reverse, this with
    | [], this => simp at this; exact absurd k3 (this.1 ▸ h2)
    | [y], this => simp at this; exact absurd ⟨k1, k2⟩ (this.2.1 ▸ hn)
    | y :: z :: t, this =>
      simp at this
      refine ⟨t.reverse, x, m, k1, k2, k3, .inl ?_⟩
      have := congrArg List.reverse hp
      simp at this
      simp [*]
  · have : (a ++ n :: p).reverse = [k, m, x] ++ r.reverse := by rw [k4]; simp
    rw [List.reverse_append, List.reverse_cons, List.append_assoc] at this
    match hp : p.reverse, this with
    | [], this => simp at this; exact absurd k5 (this.1 ▸ h3)
    | [y], this => simp at this; exact absurd k3 (this.2.1 ▸ h2)
    | [y, z], this => simp at this; exact absurd ⟨k1, k2⟩ (this.2.2.1 ▸ hn)
    | y :: z :: v :: t, this =>
      simp at this
      refine ⟨t.reverse, x, m, k1, k2, k3, .inr ⟨k, k5, ?_⟩⟩
      have := congrArg List.reverse hp
      simp at this
      simp [*]

theorem wellSpaced_newline {a b : Str} (ha : WellSpaced a) (hb : WellSpaced b) : WellSpaced (a ++ '\n' :: b) := by
  intro p c q e hc hs
  rcases List.append_eq_append_iff.1 (e : a ++ '\n' :: b = p ++ ' ' :: c :: q) with ⟨p', e1, e2⟩ | ⟨a', e1, e2⟩
  · cases p' with
    | nil => cases e2
    | cons y p' =>
      cases e2
      rw [e1] at hs
      exact hb p' c q rfl hc (sentenceEnd_after (by decide) (by decide) (by decide) hs)
  · match a', e1, e2 with
    | [], e1, e2 => cases e2
    | [y], e1, e2 =>
      cases e2
      revert hc
      decide
    | y :: z :: t, e1, e2 =>
      cases e2
      exact ha p c t e1 hc hs

theorem wellSpaced_pad {l : Str} (n : Nat) (h : WellSpaced l) : WellSpaced (l ++ List.replicate n ' ') := by
  intro p c q e hc hs
  have hsp : ∀ y, y ∈ List.replicate n ' ' → y = ' ' := fun y hy => List.eq_of_mem_replicate hy
  rcases List.append_eq_append_iff.1 (e : l ++ List.replicate n ' ' = p ++ ' ' :: c :: q) with ⟨p', e1, e2⟩ | ⟨a', e1, e2⟩
  · have : c = ' ' := hsp c (by rw [e2]; simp)
    rw [this] at hc
    revert hc
    decide
  · match a', e1, e2 with
    | [], e1, e2 =>
      have : c = ' ' := hsp c (by rw [← List.nil_append (List.replicate n ' '), ← e2]; simp)
      rw [this] at hc
      revert hc
      decide
    | [y], e1, e2 =>
      have : c = ' ' := hsp c (by
        rw [List.cons_append, List.nil_append] at e2
        rw [← (List.cons.inj e2).2]; simp)
      rw [this] at hc
      revert hc
      decide
    | y :: z :: t, e1, e2 =>
      cases e2
      exact h p c t e1 hc hs

theorem wellSpaced_rows (w : Int) {lines : List Str} (h : ∀ l ∈ lines, WellSpaced l) : WellSpaced (rows w lines) := by
  have key : ∀ ls : List Str, (∀ l ∈ ls, WellSpaced l) → WellSpaced (join py"\n" (ls.map (padTo w))) := by
    intro ls
    induction ls with
    | nil => exact fun _ => wellSpaced_nil
    | cons l ls ih =>
      intro hl
      have h1 : WellSpaced (padTo w l) := wellSpaced_pad _ (hl l (by simp))
      cases ls with
      | nil => exact h1
      | cons m ms =>
        have := wellSpaced_newline h1 (ih (fun x hx => hl x (by simp [hx])))
        simp only [List.map_cons, join] at this ⊢
        simpa using this
  unfold rows
  split
  · exact key [[]] (by simpa using wellSpaced_nil)
  · exact key lines h

theorem wellSpaced_above {n : Int} {l : Str} (h : WellSpaced l) : WellSpaced (rep '\n' n ++ l) :=
  wellSpaced_prefix (fun c hc => by rw [List.eq_of_mem_replicate hc]; decide) h

theorem wellSpaced_below {n : Int} {l : Str} (h : WellSpaced l) : WellSpaced (l ++ rep '\n' n) := by
  unfold rep
  generalize n.toNat = k
  induction k generalizing l with
  | zero => simpa using h
  | succ k ih =>
    rw [List.replicate_succ, show l ++ '\n' :: List.replicate k '\n' = (l ++ ['\n']) ++ List.replicate k '\n' by simp]
    exact ih (wellSpaced_newline h wellSpaced_nil)

/-! ## Documents -/

/-- In every document rendered with the default rules: sentences in paragraphs are spaced well. -/
theorem C62_paragraph (u : Uni) (c : Cfg) (es : List Event) (s : PState) (h : Rendered u c es s)
    (i : Nat) (hr : Unruled c s.dom i) (ht : HasTag s.dom i py"p") (hs : ¬ OnlyCode s.dom i) (f : Nat) (box : Box) (hw : 0 < textRoom box) :
    ∃ above below, PSpace s.dom i above below ∧ ∀ x, contents u s f (inside box above below (some py"{}")) i = .ok x →
      PlainWs x → ∃ out, textOf u s (f + 1) box i = .ok out ∧ WellSpaced out := by
  obtain ⟨above, below, h1, h2⟩ := C60 u c es s h i hr ht hs f box hw
  refine ⟨above, below, h1, fun x hx hp => ?_⟩
  obtain ⟨parts, p1, p2⟩ := h2 (splitCh '\n' x) (mem_splitCh '\n' x) (splitCh_ne_nil _ _) (by
    rw [hx, show join py"\n" (splitCh '\n' x) = x from join_splitCh '\n' x])
  refine ⟨_, p2, wellSpaced_below ?_⟩
  refine wellSpaced_above (wellSpaced_rows _ ?_)
  have hw := wrappedEach_spaced (fun y hy => fun c hc => hp c (splitCh_chars hy hc)) p1
  intro l hl
  simp only [List.mem_flatten, List.mem_map] at hl
  obtain ⟨q, ⟨p, hp, rfl⟩, hl⟩ := hl
  split at hl
  · rw [List.mem_singleton.1 hl]; exact wellSpaced_nil
  · exact hw p hp l hl

/-- The same for the items of lists without numbers, -/
theorem C62_item (u : Uni) (c : Cfg) (es : List Event) (s : PState) (h : Rendered u c es s)
    (i : Nat) (hr : Unruled c s.dom i) (ht : HasTag s.dom i py"li") (ho : ¬ ChildOf s.dom py"ol" i) (f : Nat) (box : Box) (hw : 0 < textRoom box - 2) :
    ∃ above, LiSpace s.dom i above ∧ ∀ x, contents u s f (inside box above 0 (some py"* {}")) i = .ok x →
      PlainWs x → ∃ out, textOf u s (f + 1) box i = .ok out ∧ WellSpaced out := by
  obtain ⟨above, h1, h2⟩ := C48 u c es s h i hr ht ho f box hw
  refine ⟨above, h1, fun x hx hp => ?_⟩
  obtain ⟨lines, k1, k2, -, -⟩ := h2 x hx
  exact ⟨_, k2, wellSpaced_above (wellSpaced_rows _ (hang_spaced (by decide) (wrapped_spaced hp k1)))⟩

/-- for the items of lists with numbers, -/
theorem C62_numbered (u : Uni) (c : Cfg) (es : List Event) (s : PState) (h : Rendered u c es s)
    (i : Nat) (hr : Unruled c s.dom i) (ht : HasTag s.dom i py"li") (ho : ChildOf s.dom py"ol" i) (before after : List Nat)
    (ha : Around s.dom i before after) (f : Nat) (box : Box) (bullet : Str)
    (hbu : bullet = natStr (before.length + 1) ++ py". ") (hw : 0 < textRoom box - bullet.length) :
    ∃ above, LiSpace s.dom i above ∧ ∀ x, contents u s f (inside box above 0 (some (bullet ++ py"{}"))) i = .ok x →
      PlainWs x → ∃ out, textOf u s (f + 1) box i = .ok out ∧ WellSpaced out := by
  obtain ⟨above, h1, h2⟩ := C49_index u c es s h i hr ht ho before after ha f box bullet hbu hw
  refine ⟨above, h1, fun x hx hp => ?_⟩
  obtain ⟨lines, k1, k2, -, -⟩ := h2 x hx
  refine ⟨_, k2, wellSpaced_above (wellSpaced_rows _ (hang_spaced ?_ (wrapped_spaced hp k1)))⟩
  intro c hc
  rw [hbu] at hc
  rcases List.mem_append.1 hc with hc | hc
  · intro ⟨k3, _⟩
    have k4 : c.isDigit = true := Nat.isDigit_of_mem_toDigits (by omega) (by omega) hc
    simp only [Char.isDigit, Bool.and_eq_true, decide_eq_true_eq] at k4
    exact absurd (Nat.le_trans k3 k4.2) (by decide)
  · simp only [List.mem_cons, List.not_mem_nil, or_false] at hc
    rcases hc with rfl | rfl <;> decide

/-- and for descriptions. -/
theorem C62_description (u : Uni) (c : Cfg) (es : List Event) (s : PState) (h : Rendered u c es s)
    (i : Nat) (hr : Unruled c s.dom i) (ht : HasTag s.dom i py"dd") (f : Nat) (box : Box) (hw : 0 < textRoom box - 2) (x : Str)
    (hx : contents u s f (inside box 1 0 (some py": {}")) i = .ok x) (hp : PlainWs x) :
    ∃ out, textOf u s (f + 1) box i = .ok out ∧ WellSpaced out := by
  obtain ⟨lines, k1, k2, -, -⟩ := C48_dd u c es s h i hr ht f box hw x hx
  exact ⟨_, k2, wellSpaced_prefix (a := py"\n") (by decide)
    (wellSpaced_rows _ (hang_spaced (by decide) (wrapped_spaced hp k1)))⟩

example : renderEvents asciiUni {} [.start py"p" [], .data py"It is. Yes! No.", .start py"br" [], .data py"So.", .stop py"p",
    .start py"ul" [], .start py"li" [], .data py"it is. Yes", .stop py"li", .stop py"ul"] =
    .ok py"\nIt is.  Yes!  No.\nSo.\n\n* it is.  Yes\n" := by decide +kernel

end Verif
