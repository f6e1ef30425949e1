import Verif.Spec.Cut
import Verif.Props.Wrap
import Verif.Proofs.Lines

/-!
# C87: what a line limit leaves
-/

namespace Verif

open Spec

theorem nextLine_free (u : Uni) (o : WrapOpts) (le : Bool) (w : Int) (cs : List Str) :
    nextLine u { o with maxLines := none } le w cs = nextLine u o le w cs := rfl

theorem nonws_ne {cs : List Str} {c : Str} (h : c ∈ cs) (hc : WordChunk c) : nonws cs.flatten ≠ [] := by
  intro e
  obtain ⟨hne, hw⟩ := hc
  cases c with
  | nil => exact hne rfl
  | cons x c =>
    have : x ∈ nonws cs.flatten := by
      simp only [nonws, List.mem_filter, List.mem_flatten]
      exact ⟨⟨_, h, by simp⟩, by simp [hw x (by simp)]⟩
    rw [e] at this; cases this

/-- Tidy chunks that are not done hold a word. -/
theorem tidy_more {o : WrapOpts} {lines rest : List Str} (ht : Tidy rest) (hd : o.dropWs = true) (hl : lines ≠ []) (hn : ¬ Done o lines rest) :
    ∃ c ∈ rest, WordChunk c := by
  cases rest with
  | nil => exact absurd (.inl rfl) hn
  | cons a r =>
    rcases ht.pure a (by simp) with ha | ha
    · exact ⟨a, by simp, ha⟩
    · cases r with
      | nil => exact absurd (.inr ⟨hl, hd, a, rfl, strip_space ha⟩) hn
      | cons b r => exact ⟨b, by simp, ht.alt.1 ha⟩

theorem wrapLoop_cut (u : Uni) (o : WrapOpts) (m : Int) (hm : o.maxLines = some m) (f : Nat) (lines chunks out full : List Str)
    (hl : (lines.length : Int) < m) (h : wrapLoop u o f lines chunks = .ok out) (h0 : wrapLoop u { o with maxLines := none } f lines chunks = .ok full) :
    (out = full ∧ (full.length : Int) ≤ m) ∨ ∃ kept cur more, (kept.length : Int) + 1 = m ∧ full = kept ++ (indentAfter o kept ++ cur.flatten) :: more ∧
      out = truncateLines u o kept (indentAfter o kept) (o.width - len (indentAfter o kept)) cur (sumLen u cur) ∧
      (o.dropWs = true → o.breakLong = true → len o.initialIndent < o.width → len o.subsequentIndent < o.width → Tidy chunks → more ≠ []) ∧
      (NoLong u o chunks → cur <:+: chunks) := by
  induction f generalizing lines chunks with
  | zero =>
    cases chunks with
    | nil => rw [wrapLoop_nil] at h h0; cases h; cases h0; exact .inl ⟨rfl, by omega⟩
    | cons c cs => simp [wrapLoop] at h
  | succ f ih =>
    cases chunks with
    | nil => rw [wrapLoop_nil] at h h0; cases h; cases h0; exact .inl ⟨rfl, by omega⟩
    | cons c cs =>
      obtain ⟨cur, rest, e, lead, taken, left, taken', hr⟩ := nextLine_spec u o lines.isEmpty (o.width - len (indentAfter o lines)) (c :: cs)
      have e1 : lineIndent { o with maxLines := none } lines.isEmpty = indentAfter o lines := lineIndent_eq o lines
      simp only [wrapLoop, lineIndent_eq, e] at h
      simp only [wrapLoop, e1, nextLine_free, e] at h0
      have hsub : NoLong u o (c :: cs) → taken' = taken ∧ rest = left ∧ NoLong u o rest := by
        intro hn
        obtain ⟨a, b⟩ := round_noLong hr (noLong_indent hn lines)
        exact ⟨a, b, fun x hx => hn x (by rw [hr.split]; simp [← b, hx])⟩
      have hrest : NoLong u o (c :: cs) → rest <:+: (c :: cs) := by
        intro hn
        obtain ⟨-, b, -⟩ := hsub hn
        exact ⟨lead ++ taken, [], by rw [hr.split, b]; simp⟩
      have hcur : NoLong u o (c :: cs) → cur <:+: (c :: cs) := by
        intro hn
        obtain ⟨a, b, -⟩ := hsub hn
        have ht := hr.trimmed
        cases ht with
        | keep _ => exact ⟨lead, left, by rw [hr.split, ← a]; simp⟩
        | drop t' l _ et _ => exact ⟨lead, l :: left, by rw [hr.split, ← a, et]; simp⟩
      have htidy : o.dropWs = true → o.breakLong = true → len o.initialIndent < o.width → len o.subsequentIndent < o.width → Tidy (c :: cs) → Tidy rest := by
        intro h1 h2 h3 h4 h5
        refine (round_edges hr h1 h5 (.inr ?_)).1
        unfold indentAfter; split <;> omega
      by_cases hc : cur.isEmpty = true
      · simp only [hc, if_true] at h h0
        rcases ih _ _ hl h h0 with k | ⟨kept, cur', more, k1, k2, k3, k4, k5⟩
        · exact .inl k
        · exact .inr ⟨kept, cur', more, k1, k2, k3, fun a b c d g => k4 a b c d (htidy a b c d g), fun hn => (k5 (hsub hn).2.2).trans (hrest hn)⟩
      · rw [if_neg hc] at h h0
        have h0' : wrapLoop u { o with maxLines := none } f (lines ++ [indentAfter o lines ++ cur.flatten]) rest = .ok full := by
          simpa [lineAllowed] using h0
        split at h
        · rename_i ha
          rcases allowed_done hm ha with h1 | ⟨-, h1⟩
          · rcases ih _ _ (by simp; omega) h h0' with k | ⟨kept, cur', more, k1, k2, k3, k4, k5⟩
            · exact .inl k
            · exact .inr ⟨kept, cur', more, k1, k2, k3, fun a b c d g => k4 a b c d (htidy a b c d g), fun hn => (k5 (hsub hn).2.2).trans (hrest hn)⟩
          · have a1 := wrapLoop_done u o f _ _ _ (h1 _ (by simp)) h
            have a2 := wrapLoop_done u { o with maxLines := none } f _ _ _ (h1 _ (by simp)) h0'
            rw [a1, a2]
            exact .inl ⟨rfl, by simp; omega⟩
        · rename_i ha
          cases h
          obtain ⟨ls, bs, b1, b2, b3⟩ := wrapLoop_text u { o with maxLines := none } rfl f _ _ _ h0'
          have hlen : (lines.length : Int) + 1 = m := by
            apply Classical.byContradiction
            intro hn
            apply ha
            unfold lineAllowed
            rw [hm]
            have : (lines.length : Int) + 1 < m := by omega
            simp [this]
          refine .inr ⟨lines, cur, ls, hlen, by rw [b1]; simp, rfl, fun g1 g2 g3 g4 g5 => ?_, hcur⟩
          rintro rfl
          have hfit := round_fits hr (by unfold indentAfter; split <;> omega) g2
          obtain ⟨x, hx, hw⟩ := tidy_more (o := o) (lines := [[]]) (htidy g1 g2 g3 g4 g5) g1 (by simp) (by
            intro hdone
            apply ha
            unfold lineAllowed
            rw [hm]
            rcases hdone with rfl | ⟨-, -, y, rfl, hy⟩
            · simp [hfit]
            · simp [hfit, g1, hy])
          cases bs with
          | nil => exact nonws_ne hx hw b3.symm
          | cons _ _ => exact b2.elim

/-! ## The last line -/

theorem canEnd_iff (u : Uni) (o : WrapOpts) (ind : Str) (q : List Str) (c : Str) : CanEnd u o ind (q ++ [c]) ↔
    (!(strip c).isEmpty && decide (sumLen u (q ++ [c]) + len o.placeholder ≤ o.width - len ind)) = true := by
  have hb : ¬ Blank c ↔ (!(strip c).isEmpty) = true := by
    rw [← strip_nil_iff]
    cases strip c <;> simp
  simp only [CanEnd, visible_eq, Bool.and_eq_true, decide_eq_true_eq, ← hb]
  simp

theorem canEnd_nil (u : Uni) (o : WrapOpts) (ind : Str) : ¬ CanEnd u o ind [] := by
  rintro ⟨⟨w, h, -⟩, -⟩
  cases h

theorem placeholder_spec (u : Uni) (o : WrapOpts) (ind : Str) (rcur : List Str) :
    (placeholderLine u o ind (o.width - len ind) rcur (sumLen u rcur.reverse) = none ∧ ∀ q, q <+: rcur.reverse → ¬ CanEnd u o ind q) ∨
    ∃ p, placeholderLine u o ind (o.width - len ind) rcur (sumLen u rcur.reverse) = some (ind ++ p.flatten ++ o.placeholder) ∧ p <+: rcur.reverse ∧
      CanEnd u o ind p ∧ ∀ q, q <+: rcur.reverse → CanEnd u o ind q → q.length ≤ p.length := by
  induction rcur with
  | nil =>
    refine .inl ⟨rfl, fun q hq => ?_⟩
    rw [List.reverse_nil, List.prefix_nil] at hq
    subst hq; exact canEnd_nil u o ind
  | cons c rcur ih =>
    simp only [placeholderLine]
    have he := canEnd_iff u o ind rcur.reverse c
    rw [← List.reverse_cons] at he
    split
    · rename_i hc
      exact .inr ⟨_, rfl, List.prefix_refl _, he.2 hc, fun q hq _ => hq.length_le⟩
    · rename_i hc
      have e : sumLen u (c :: rcur).reverse - vlen u c = sumLen u rcur.reverse := by
        rw [List.reverse_cons, sumLen_append]
        simp only [sumLen]; omega
      rw [e]
      have hq : ∀ q, q <+: (c :: rcur).reverse → CanEnd u o ind q → q <+: rcur.reverse := by
        intro q hq hcan
        rw [List.reverse_cons, List.prefix_concat_iff] at hq
        rcases hq with rfl | hq
        · rw [← List.reverse_cons] at hcan
          exact absurd (he.1 hcan) hc
        · exact hq
      rcases ih with ⟨h1, h2⟩ | ⟨p, h1, h2, h3, h4⟩
      · exact .inl ⟨h1, fun q a b => h2 q (hq q a b) b⟩
      · exact .inr ⟨p, h1, h2.trans (by rw [List.reverse_cons]; exact List.prefix_append _ _), h3, fun q a b => h4 q (hq q a b) b⟩

theorem rstrip_blank_tail {l t : Str} (h : Blank t) : rstrip (l ++ t) = rstrip l := by
  unfold rstrip
  rw [List.reverse_append, List.dropWhile_append, if_pos]
  rw [List.isEmpty_iff, dropWhile_nil_iff]
  intro x hx
  exact h x (by simpa using hx)

theorem endTrimmed_rstrip (s : Str) : EndTrimmed s (rstrip s) := by
  obtain ⟨t, h1, h2⟩ := rstrip_split s
  refine ⟨t, h1, h2, ?_⟩
  rintro ⟨c, h3, h4⟩
  rw [rstrip_end s c h3] at h4; cases h4

theorem endTrimmed_eq {s r : Str} (h : EndTrimmed s r) : r = rstrip s := by
  obtain ⟨t, rfl, h1, h2⟩ := h
  rw [rstrip_blank_tail h1]
  refine (rstrip_of_end _ fun c hc => ?_).symm
  cases hs : isSpace c with
  | false => rfl
  | true => exact absurd ⟨c, hc, hs⟩ h2

theorem startTrimmed_lstrip (s : Str) : StartTrimmed s (lstrip s) := by
  obtain ⟨t, h1, h2⟩ := lstrip_split s
  refine ⟨t, h1, h2, ?_⟩
  rintro ⟨c, h3, h4⟩
  have := List.head?_dropWhile_not isSpace s
  unfold lstrip at h3
  rw [h3] at this
  simp [h4] at this

theorem truncate_spec (u : Uni) (o : WrapOpts) (kept cur : List Str) :
    CutAfter u o kept cur (truncateLines u o kept (indentAfter o kept) (o.width - len (indentAfter o kept)) cur (sumLen u cur)) := by
  have hs := placeholder_spec u o (indentAfter o kept) cur.reverse
  rw [List.reverse_reverse] at hs
  unfold truncateLines
  rcases hs with ⟨h1, h2⟩ | ⟨p, h1, h2, h3, h4⟩
  · rw [h1]
    simp only
    cases hl : kept.getLast? with
    | none => exact .alone h2 (fun last t h => by rw [hl] at h; cases h) (startTrimmed_lstrip _)
    | some last =>
      simp only
      split
      · rename_i hf
        exact .before h2 hl (endTrimmed_rstrip last) ((visibleLe_iff _ _ _).2 (by omega))
      · rename_i hf
        refine .alone h2 (fun last' t h ht hv => ?_) (startTrimmed_lstrip _)
        rw [hl] at h; cases h
        rw [endTrimmed_eq ht, visibleLe_iff] at hv
        omega
  · rw [h1]
    exact .words h2 h3 h4

/-! ## C87 -/

/-- With a line limit, a text that needs no more lines is wrapped as without it. Of any other text the lines before the last one that is
allowed stay, and it is cut after them, in the way `CutAfter` says. -/
theorem C87 (u : Uni) (o : WrapOpts) (text : Str) (m : Int) (out full : List Str) (hm : o.maxLines = some m) (h1 : 1 ≤ m)
    (hd : o.dropWs = true) (hb : o.breakLong = true) (hi : len o.initialIndent < o.width) (hs : len o.subsequentIndent < o.width)
    (hp : PlainWs text) (h : wrap u o text = .ok out) (h0 : wrap u { o with maxLines := none } text = .ok full) :
    ((full.length : Int) ≤ m → out = full) ∧
    (m < full.length → ∃ kept cur more, (kept.length : Int) + 1 = m ∧ full = kept ++ (indentAfter o kept ++ cur.flatten) :: more ∧
      CutAfter u o kept cur out ∧ (NoLong u o (wrapInput u o text) → cur <:+: wrapInput u o text)) := by
  obtain ⟨-, -, h⟩ := wrap_ok h
  obtain ⟨-, -, h0⟩ := wrap_ok h0
  have e : wrapInput u { o with maxLines := none } text = wrapInput u o text := rfl
  rw [e] at h0
  rcases wrapLoop_cut u o m hm _ [] _ out full (by simp; omega) h h0 with ⟨k1, k2⟩ | ⟨kept, cur, more, k1, k2, k3, k4, k5⟩
  · exact ⟨fun _ => k1, fun hlt => by omega⟩
  · have hmore := k4 hd hb hi hs (wrapInput_tidy u o text hp)
    refine ⟨fun hle => ?_, fun _ => ⟨kept, cur, more, k1, k2, by rw [k3]; exact truncate_spec u o kept cur, k5⟩⟩
    exfalso
    have := congrArg List.length k2
    have hpos : 0 < more.length := List.length_pos_iff.2 hmore
    simp at this
    omega

/-- There is one way to cut. -/
theorem C87_unique (u : Uni) (o : WrapOpts) (kept cur a b : List Str) (ha : CutAfter u o kept cur a) (hb : CutAfter u o kept cur b) : a = b := by
  cases ha with
  | words p1 p2 p3 =>
    cases hb with
    | words q1 q2 q3 =>
      have hle := Nat.le_antisymm (q3 _ p1 p2) (p3 _ q1 q2)
      rw [List.prefix_iff_eq_take.1 p1, List.prefix_iff_eq_take.1 q1, hle]
    | before hno _ _ _ => exact absurd p2 (hno _ p1)
    | alone hno _ _ => exact absurd p2 (hno _ p1)
  | before hno hl hr hf =>
    cases hb with
    | words q1 q2 q3 => exact absurd q2 (hno _ q1)
    | before _ hl' hr' _ =>
      rw [hl] at hl'; cases hl'
      rw [endTrimmed_eq hr, endTrimmed_eq hr']
    | alone _ hf' _ => exact absurd hf (hf' _ _ hl hr)
  | alone hno hf hr =>
    cases hb with
    | words q1 q2 q3 => exact absurd q2 (hno _ q1)
    | before _ hl' hr' hf' => exact absurd hf' (hf _ _ hl' hr')
    | alone _ _ hr' =>
      obtain ⟨t, e, h1, h2⟩ := hr
      obtain ⟨t', e', h1', h2'⟩ := hr'
      have : ∀ {s r t : Str}, s = t ++ r → Blank t → ¬ StartsWs r → r = lstrip s := by
        intro s r t e ht hr
        subst e
        induction t with
        | nil =>
          cases r with
          | nil => rfl
          | cons x r =>
            have : isSpace x = false := by
              cases hx : isSpace x with
              | false => rfl
              | true => exact absurd ⟨x, rfl, hx⟩ hr
            simp [lstrip, this]
        | cons x t ih =>
          have := ih (fun c hc => ht c (by simp [hc]))
          simp [lstrip, ht x (by simp)] at this ⊢
          exact this
      rw [this e h1 h2, this e' h1' h2']

/-- Three ways to cut: after a word, at the end of the line before, and on a line of its own. -/
example : wrap asciiUni { width := 9, maxLines := some 2, placeholder := py" [.]" } py"one two three four five" = .ok [py"one two", py"three [.]"] := by decide
example : wrap asciiUni { width := 9, maxLines := some 2, placeholder := py" [.]" } py"one thirteens five" = .ok [py"one [.]"] := by decide
example : wrap asciiUni { width := 9, maxLines := some 2, placeholder := py" [.]" } py"sevens thirteens five" = .ok [py"sevens", py"[.]"] := by decide

/-- The first of them as the theorem has it. -/
example : ∃ kept cur more, (kept.length : Int) + 1 = 2 ∧
    [py"one two", py"three", py"four five"] = kept ++ (indentAfter { width := 9, maxLines := some 2, placeholder := py" [.]" } kept ++ cur.flatten) :: more ∧
    CutAfter asciiUni { width := 9, maxLines := some 2, placeholder := py" [.]" } kept cur [py"one two", py"three [.]"] := by
  obtain ⟨kept, cur, more, h1, h2, h3, -⟩ := (C87 asciiUni { width := 9, maxLines := some 2, placeholder := py" [.]" } py"one two three four five" 2
    [py"one two", py"three [.]"] [py"one two", py"three", py"four five"] rfl (by decide) rfl rfl (by decide) (by decide)
    (by intro c hc; revert c; decide) (by decide) (by decide)).2 (by decide)
  exact ⟨kept, cur, more, h1, h2, h3⟩

/-- The conditions are needed. Whitespace at the end that is two pieces is taken for more text, and a last word that is too long and not broken is cut
off. -/
theorem C87_space_fails : wrap asciiUni { width := 3, placeholder := py"." } py"one \u00a0" = .ok [py"one"] ∧
    wrap asciiUni { width := 3, placeholder := py".", maxLines := some 1 } py"one \u00a0" = .ok [py"."] := by decide
theorem C87_long_fails : wrap asciiUni { width := 3, placeholder := py".", breakLong := false } py"once" = .ok [py"once"] ∧
    wrap asciiUni { width := 3, placeholder := py".", breakLong := false, maxLines := some 1 } py"once" = .ok [py"."] := by decide

end Verif
