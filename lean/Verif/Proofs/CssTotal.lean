import Verif.Proofs.CssGroups

/-!
# The parser of selectors ends on every text
-/

namespace Verif

/-- Either a result that leaves fewer than `n` tokens, or the exception for wrong selectors. -/
def CssUses {α : Type} (n : Nat) (rest : α → List CssTok) : Py α → Prop
  | .ok x => (rest x).length < n
  | .error e => e = .selectorSyntax

theorem uses_bind {α β : Type} {n m : Nat} {ra : α → List CssTok} {rb : β → List CssTok} {x : Py α} {k : α → Py β}
    (hx : CssUses n ra x) (hk : ∀ a, (ra a).length < n → CssUses m rb (k a)) : CssUses m rb (x.bind k) := by
  cases x with
  | error e => exact hx
  | ok a => exact hk a hx

theorem uses_map {α β : Type} {n : Nat} {ra : α → List CssTok} {rb : β → List CssTok} {x : Py α} {k : α → β}
    (hx : CssUses n ra x) (hk : ∀ a, rb (k a) = ra a) : CssUses n rb (x.map k) := by
  cases x with
  | error e => exact hx
  | ok a => simp only [Except.map, CssUses, hk]; exact hx

theorem uses_mono {α : Type} {n m : Nat} {ra : α → List CssTok} {x : Py α} (hx : CssUses n ra x) (h : n ≤ m) : CssUses m ra x := by
  cases x with
  | error e => exact hx
  | ok a => exact Nat.lt_of_lt_of_le hx h

theorem uses_error {α : Type} (n : Nat) (ra : α → List CssTok) : CssUses n ra (.error .selectorSyntax) := rfl

theorem uses_ite {α : Type} {n : Nat} {ra : α → List CssTok} {p : Prop} [Decidable p] {x y : Py α}
    (hx : p → CssUses n ra x) (hy : ¬p → CssUses n ra y) : CssUses n ra (if p then x else y) := by
  by_cases h : p
  · rw [if_pos h]; exact hx h
  · rw [if_neg h]; exact hy h

theorem skip_length (ts : List CssTok) : (skipSpace ts).length ≤ ts.length := by
  unfold skipSpace
  split <;> simp

theorem uses_nextIdent (ts : List CssTok) : CssUses ts.length (·.2) (nextIdent ts) := by
  unfold nextIdent
  split
  · simp [CssUses]
  · rfl

theorem uses_nextStar (ts : List CssTok) : CssUses ts.length (·.2) (nextIdentOrStar ts) := by
  unfold nextIdentOrStar
  split
  · simp [CssUses]
  · simp [CssUses]
  · rfl

theorem uses_arguments : ∀ (b : Bool) (ts : List CssTok), CssUses ts.length (·.2) (cssArguments b ts) := by
  have key : ∀ (n : Nat) (b : Bool) (ts : List CssTok), ts.length ≤ n → CssUses ts.length (·.2) (cssArguments b ts) := by
    intro n
    induction n with
    | zero =>
      intro b ts h
      cases ts with
      | nil => cases b <;> rfl
      | cons t r => simp at h
    | succ n ih =>
      intro b ts h
      rw [cssArguments.eq_def]
      split
      · exact uses_mono (ih _ _ (by simpa using h)) (by simp)
      · exact uses_map (uses_mono (ih _ _ (by simpa using h)) (by simp)) (fun _ => rfl)
      · exact uses_map (uses_mono (ih _ _ (by simpa using h)) (by simp)) (fun _ => rfl)
      · exact uses_map (uses_mono (ih _ _ (by simpa using h)) (by simp)) (fun _ => rfl)
      · split
        · exact uses_map (uses_mono (ih _ _ (by simpa using h)) (by simp)) (fun _ => rfl)
        · split
          · simp [CssUses]
          · rfl
      · rfl
  exact fun b ts => key _ b ts (Nat.le_refl _)

theorem uses_attrTail (sel : Sel) (n : Str) (op : AttrOp) (ts : List CssTok) : CssUses (ts.length + 1) (·.2) (attrTail sel n op ts) := by
  have h := skip_length ts
  have fin : ∀ (v : Str) (r : List CssTok), r.length < ts.length → CssUses (ts.length + 1) (·.2) (match skipSpace r with
      | .delim ']' :: r => (.ok (.attrib sel n op v, r) : Py (Sel × List CssTok))
      | _ => .error .selectorSyntax) := by
    intro v r hr
    have h2 := skip_length r
    split
    · rename_i e
      rw [e] at h2
      simp only [List.length_cons] at h2
      simp only [CssUses]
      omega
    · rfl
  unfold attrTail
  split
  · rename_i e; rw [e] at h; exact fin _ _ h
  · rename_i e; rw [e] at h; exact fin _ _ h
  · rfl

theorem uses_attrOperator (sel : Sel) (n : Str) (ts : List CssTok) : CssUses (ts.length + 1) (·.2) (attrOperator sel n ts) := by
  have h := skip_length ts
  unfold attrOperator
  split
  · rename_i e; rw [e] at h; simp only [List.length_cons] at h; simp only [CssUses]; omega
  · rename_i e; rw [e] at h; simp only [List.length_cons] at h; exact uses_mono (uses_attrTail _ _ _ _) (by omega)
  · rename_i e
    rw [e] at h
    simp only [List.length_cons] at h
    split
    · exact uses_mono (uses_attrTail _ _ _ _) (by omega)
    · rfl
  · rfl

theorem uses_attrib (sel : Sel) (ts : List CssTok) : CssUses (ts.length + 1) (·.2) (cssAttrib sel ts) := by
  have h := skip_length ts
  unfold cssAttrib
  refine uses_bind (uses_nextStar _) ?_
  rintro ⟨a, r⟩ ha
  simp only at ha
  simp only
  split
  · simp only [List.length_cons] at ha
    exact uses_mono (uses_attrTail _ _ _ _) (by omega)
  · simp only [List.length_cons] at ha
    refine uses_bind (uses_nextIdent _) ?_
    rintro ⟨b, r'⟩ hb
    exact uses_mono (uses_attrOperator _ _ _) (by simp only at hb ⊢; omega)
  · rfl
  · exact uses_mono (uses_attrOperator _ _ _) (by omega)

theorem uses_element (ts : List CssTok) : CssUses (ts.length + 1) (·.2.2) (cssElement ts) := by
  unfold cssElement
  split
  · exact uses_map (uses_mono (uses_nextStar _) (by simp; omega)) (fun _ => rfl)
  · exact uses_map (uses_mono (uses_nextStar _) (by simp; omega)) (fun _ => rfl)
  · simp only [CssUses, List.length_cons]; omega
  · simp only [CssUses, List.length_cons]; omega
  · exact Nat.lt_succ_self _

theorem uses_loop (all : List CssTok) : ∀ (f : Nat) (inside : Bool) (sel : Sel) (ns pe : Bool) (ts : List CssTok), ts.length < f →
    CssUses (ts.length + 1) (·.2.2) (cssLoop all f inside sel ns pe ts)
  | 0, _, _, _, _, _, h => absurd h (Nat.not_lt_zero _)
  | f + 1, inside, sel, ns, pe, ts, hf => by
    have ih : ∀ (inside : Bool) (sel : Sel) (ns pe : Bool) (r : List CssTok), r.length < ts.length →
        CssUses (ts.length + 1) (·.2.2) (cssLoop all f inside sel ns pe r) := fun inside sel ns pe r hr =>
      uses_mono (uses_loop all f inside sel ns pe r (by omega)) (by omega)
    rw [cssLoop.eq_def]
    simp only
    split
    · exact Nat.lt_succ_self _
    · exact Nat.lt_succ_self _
    · split
      · rfl
      · exact ih _ _ _ _ _ (by simp)
    · rename_i c r
      refine uses_ite (fun _ => ?_) (fun _ => ?_)
      · exact Nat.lt_succ_self _
      refine uses_ite (fun _ => ?_) (fun _ => ?_)
      · rfl
      refine uses_ite (fun _ => ?_) (fun _ => ?_)
      · refine uses_bind (uses_nextIdent _) ?_
        rintro ⟨v, r'⟩ hr
        exact ih _ _ _ _ _ (by simp only [List.length_cons] at hr ⊢; omega)
      refine uses_ite (fun _ => ?_) (fun _ => ?_)
      · refine uses_bind (uses_nextIdent _) ?_
        rintro ⟨v, r'⟩ hr
        exact ih _ _ _ _ _ (by simp only [List.length_cons] at hr ⊢; omega)
      refine uses_ite (fun _ => ?_) (fun _ => ?_)
      · refine uses_bind (uses_attrib _ _) ?_
        rintro ⟨v, r'⟩ hr
        exact ih _ _ _ _ _ (by simp only [List.length_cons] at hr ⊢; omega)
      refine uses_ite (fun _ => ?_) (fun _ => ?_)
      · split
        · refine uses_bind (uses_nextIdent _) ?_
          rintro ⟨v, r'⟩ hr
          simp only at hr
          split
          · rename_i e
            simp only at e
            subst e
            refine uses_bind (uses_arguments _ _) ?_
            rintro ⟨w, r''⟩ hr'
            exact ih _ _ _ _ _ (by simp only [List.length_cons] at hr hr' ⊢; omega)
          · exact ih _ _ _ _ _ (by simp only [List.length_cons] at hr ⊢; omega)
        · refine uses_bind (uses_nextIdent _) ?_
          rintro ⟨v, r'⟩ hr
          simp only at hr
          simp only
          split
          · exact ih _ _ _ _ _ (by simp only [List.length_cons] at hr ⊢; omega)
          split
          · rename_i r1
            simp only [List.length_cons] at hr
            split
            · have hs : (skipSpace (skipSpace r1)).length ≤ r1.length := Nat.le_trans (skip_length _) (skip_length _)
              split
              · rfl
              refine uses_bind (uses_element _) ?_
              rintro ⟨e, ns', r2⟩ h2
              simp only at h2
              refine uses_bind (uses_loop all f true e ns' false r2 (by simp only [List.length_cons] at hf; omega)) ?_
              rintro ⟨arg, pe', r3⟩ h3
              simp only at h3
              simp only
              split
              · rfl
              split
              · split
                · rfl
                · exact ih _ _ _ _ _ (by simp only [List.length_cons] at h3 ⊢; omega)
              · rfl
            · have hs := skip_length r1
              refine uses_bind (uses_arguments _ _) ?_
              rintro ⟨w, r''⟩ hr'
              exact ih _ _ _ _ _ (by simp only [List.length_cons] at hr' ⊢; omega)
          · split
            · rfl
            · exact ih _ _ _ _ _ (by simp only [List.length_cons] at hr ⊢; omega)
      · rfl
    · rfl

theorem uses_simple (all ts : List CssTok) : CssUses ts.length (·.2.2) (cssSimple all ts) := by
  have hs := skip_length ts
  unfold cssSimple
  refine uses_bind (uses_element _) ?_
  rintro ⟨e, ns, r⟩ h
  simp only at h
  refine uses_bind (uses_loop all _ _ _ _ _ r (by omega)) ?_
  rintro ⟨s, pe, r'⟩ h'
  simp only at h'
  simp only
  split
  · rfl
  · simp only [CssUses, pure, Except.pure]
    omega

theorem uses_combined (all : List CssTok) : ∀ (f : Nat) (sel : Sel) (pe : Bool) (ts : List CssTok), ts.length < f →
    CssUses (ts.length + 1) (·.2) (cssCombined all f sel pe ts)
  | 0, _, _, _, h => absurd h (Nat.not_lt_zero _)
  | f + 1, sel, pe, ts, hf => by
    have hs := skip_length ts
    have more : ∀ (c : Comb) (r : List CssTok), r.length ≤ ts.length →
        CssUses (ts.length + 1) (·.2) ((do
          if pe then .error .selectorSyntax
          let (s, pe, r) ← cssSimple all r
          cssCombined all f (.comb sel c s) pe r : Py (Selector × List CssTok))) := by
      intro c r hr
      split
      · rfl
      refine uses_bind (uses_simple _ _) ?_
      rintro ⟨s, pe', r'⟩ h
      simp only at h
      exact uses_mono (uses_combined all f _ _ r' (by omega)) (by omega)
    rw [cssCombined]
    split
    · simp [CssUses]
    · rename_i c r e
      rw [e] at hs
      split
      · simp only [CssUses]; omega
      split
      · exact more _ _ (by have := skip_length r; simp only [List.length_cons] at hs; omega)
      · exact more _ _ hs
    · exact more _ _ hs

theorem uses_selector (all ts : List CssTok) : CssUses ts.length (·.2) (cssSelector all ts) := by
  unfold cssSelector
  refine uses_bind (uses_simple _ _) ?_
  rintro ⟨s, pe, r⟩ h
  simp only at h
  exact uses_mono (uses_combined all _ _ _ r (by omega)) (by omega)

theorem group_total (all : List CssTok) : ∀ (f : Nat) (ts : List CssTok), ts.length < f →
    (∃ l, cssGroup all f ts = .ok l ∧ l ≠ []) ∨ cssGroup all f ts = .error .selectorSyntax
  | 0, _, h => absurd h (Nat.not_lt_zero _)
  | f + 1, ts, hf => by
    have h := uses_selector all ts
    rw [cssGroup]
    revert h
    cases cssSelector all ts with
    | error e =>
      intro h
      cases h
      exact .inr rfl
    | ok x =>
      obtain ⟨s, r⟩ := x
      intro h
      simp only [CssUses] at h
      simp only [bind, Except.bind]
      split
      · rename_i r'
        have hl : (skipSpace r').length < f := by
          have := skip_length r'
          simp only [List.length_cons] at h
          omega
        rcases group_total all f (skipSpace r') hl with ⟨l, e, -⟩ | e
        · rw [e]; exact .inl ⟨_, rfl, by simp⟩
        · rw [e]; exact .inr rfl
      · exact .inl ⟨_, rfl, by simp⟩

theorem cssParse_total (s : Str) : (∃ l, cssParse s = .ok l ∧ l ≠ []) ∨ cssParse s = .error .selectorSyntax := by
  rw [cssParse_slow, cssSlow]
  cases h : cssTokens (s.length + 1) s with
  | error e =>
    cases cssTokens_error _ _ _ (Nat.lt_succ_self _) h
    exact .inr rfl
  | ok ts =>
    simp only [bind, Except.bind]
    exact group_total ts _ _ (by have := skip_length ts; omega)

end Verif
