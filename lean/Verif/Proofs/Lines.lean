import Verif.Proofs.WrapText
import Verif.Model.Parser

/-!
# Splitting and joining lines
-/

namespace Verif

open Spec

theorem splitCh_ne_nil (c : Char) (s : Str) : splitCh c s ≠ [] := by
  cases s with
  | nil => simp [splitCh]
  | cons x xs =>
    simp only [splitCh]
    split
    · simp
    · split <;> simp

/-- `split` on a string that starts with a character other than the separator. -/
theorem splitCh_cons_ne (c x : Char) (xs : Str) (h : x ≠ c) :
    ∃ l ls, splitCh c xs = l :: ls ∧ splitCh c (x :: xs) = (x :: l) :: ls := by
  cases hs : splitCh c xs with
  | nil => exact absurd hs (splitCh_ne_nil c xs)
  | cons l ls => exact ⟨l, ls, rfl, by simp [splitCh, h, hs]⟩

theorem splitCh_cons_eq (c : Char) (xs : Str) : splitCh c (c :: xs) = [] :: splitCh c xs := by simp [splitCh]

theorem join_cons_ne (sep w : Str) (ws : List Str) (h : ws ≠ []) : join sep (w :: ws) = w ++ sep ++ join sep ws :=
  join_cons sep w ws h

theorem join_splitCh (c : Char) (s : Str) : join [c] (splitCh c s) = s := by
  induction s with
  | nil => rfl
  | cons x xs ih =>
    by_cases h : x = c
    · subst h
      rw [splitCh_cons_eq, join_cons _ _ _ (splitCh_ne_nil _ _), ih]
      simp
    · obtain ⟨l, ls, h1, h2⟩ := splitCh_cons_ne c x xs h
      rw [h2]
      rw [h1] at ih
      cases ls with
      | nil => simp [join] at ih ⊢; exact ih
      | cons l' ls =>
        rw [join_cons _ _ _ (by simp)] at ih ⊢
        simp at ih ⊢
        exact ih

theorem splitCh_none (c : Char) (s : Str) (h : c ∉ s) : splitCh c s = [s] := by
  induction s with
  | nil => rfl
  | cons x xs ih =>
    have hx : x ≠ c := fun e => h (by simp [e])
    obtain ⟨l, ls, h1, h2⟩ := splitCh_cons_ne c x xs hx
    rw [ih (fun hm => h (List.mem_cons_of_mem _ hm))] at h1
    cases h1
    exact h2

theorem splitCh_append (c : Char) (a b : Str) (h : c ∉ a) : splitCh c (a ++ c :: b) = a :: splitCh c b := by
  induction a with
  | nil => exact splitCh_cons_eq c b
  | cons x xs ih =>
    have hx : x ≠ c := fun e => h (by simp [e])
    obtain ⟨l, ls, h1, h2⟩ := splitCh_cons_ne c x (xs ++ c :: b) hx
    rw [ih (fun hm => h (List.mem_cons_of_mem _ hm))] at h1
    cases h1
    exact h2

theorem mem_splitCh (c : Char) (s : Str) : ∀ l ∈ splitCh c s, c ∉ l := by
  induction s with
  | nil => simp [splitCh]
  | cons x xs ih =>
    by_cases h : x = c
    · subst h
      rw [splitCh_cons_eq]
      intro l hl
      rcases List.mem_cons.1 hl with e | e
      · simp [e]
      · exact ih l e
    · obtain ⟨l, ls, h1, h2⟩ := splitCh_cons_ne c x xs h
      rw [h1] at ih
      rw [h2]
      intro m hm
      rcases List.mem_cons.1 hm with e | e
      · subst e
        have := ih l (by simp)
        simp [this]
        exact fun e => h e.symm
      · exact ih m (List.mem_cons_of_mem _ e)

/-- Splitting joined lines gives the lines back. -/
theorem splitCh_join (c : Char) (ls : List Str) (hne : ls ≠ []) (h : ∀ l ∈ ls, c ∉ l) : splitCh c (join [c] ls) = ls := by
  induction ls with
  | nil => exact absurd rfl hne
  | cons l ls ih =>
    cases ls with
    | nil => exact splitCh_none c l (h l (by simp))
    | cons l' ls =>
      rw [join_cons _ _ _ (by simp), List.append_assoc, List.singleton_append, splitCh_append _ _ _ (h l (by simp)),
        ih (by simp) (fun m hm => h m (List.mem_cons_of_mem _ hm))]

theorem splitCh_two (c : Char) (a b : Str) : splitCh c (a ++ c :: b) = splitCh c a ++ splitCh c b := by
  induction a with
  | nil => simp [splitCh_cons_eq]; rfl
  | cons x xs ih =>
    by_cases hx : x = c
    · subst hx
      rw [List.cons_append, splitCh_cons_eq, splitCh_cons_eq, ih]; rfl
    · obtain ⟨l, ls, h1, h2⟩ := splitCh_cons_ne c x (xs ++ c :: b) hx
      obtain ⟨m, ms, h3, h4⟩ := splitCh_cons_ne c x xs hx
      rw [List.cons_append, h2, h4]
      rw [ih, h3] at h1
      simp at h1
      rw [← h1.1, ← h1.2]; rfl

theorem join_append (sep : Str) (a b : List Str) (ha : a ≠ []) (hb : b ≠ []) :
    join sep (a ++ b) = join sep a ++ sep ++ join sep b := by
  induction a with
  | nil => exact absurd rfl ha
  | cons x xs ih =>
    cases xs with
    | nil => rw [List.singleton_append, join_cons _ _ _ hb]; rfl
    | cons y ys =>
      rw [List.cons_append, join_cons sep x (y :: ys ++ b) (by simp), ih (by simp), join_cons sep x (y :: ys) (by simp)]
      simp

theorem mem_join {sep : Str} {ls : List Str} {x : Char} (h : x ∈ join sep ls) : x ∈ sep ∨ ∃ l ∈ ls, x ∈ l := by
  induction ls with
  | nil => simp [join] at h
  | cons l ls ih =>
    cases ls with
    | nil => exact Or.inr ⟨l, by simp, h⟩
    | cons m ms =>
      rw [join_cons _ _ _ (by simp)] at h
      simp only [List.mem_append] at h
      rcases h with (h | h) | h
      · exact Or.inr ⟨l, by simp, h⟩
      · exact Or.inl h
      · rcases ih h with h | ⟨l', h1, h2⟩
        · exact Or.inl h
        · exact Or.inr ⟨l', List.mem_cons_of_mem _ h1, h2⟩

theorem nonws_join (ls : List Str) (sep : Str) (hs : Blank sep) : nonws (join sep ls) = nonws ls.flatten := by
  induction ls with
  | nil => rfl
  | cons l ls ih =>
    cases ls with
    | nil => simp [join]
    | cons m ms =>
      rw [join_cons _ _ _ (by simp), nonws_append, nonws_append, ih, nonws_blank _ hs, List.flatten_cons (l := l), nonws_append l]
      simp

/-! ## Words -/

theorem splitWs_mid (a : Str) (x : Char) (b : Str) (hx : isSpace x = true) : splitWs (a ++ x :: b) = splitWs a ++ splitWs b := by
  induction a with
  | nil => simp [splitWs_space x b hx, splitWs_nil]
  | cons c r ih =>
    by_cases hc : isSpace c = true
    · rw [List.cons_append, splitWs_space _ _ hc, splitWs_space _ _ hc, ih]
    · have hc' : isSpace c = false := by simpa using hc
      rw [List.cons_append, splitWs_cons _ _ hc', splitWs_cons _ _ hc']
      cases r with
      | nil => simp [headSp, hx, splitWs_nil, splitWs_space x b hx]
      | cons d r =>
        have e : headSp (d :: r ++ x :: b) = headSp (d :: r) := rfl
        rw [e, ih]
        by_cases hd : headSp (d :: r) = true
        · simp [hd]
        · have hd' : isSpace d = false := by simpa [headSp] using hd
          rw [if_neg hd, if_neg hd, splitWs_word d r hd']
          rfl

theorem splitWs_join_words (ls : List Str) : splitWs (join py" " ls) = (ls.map splitWs).flatten := by
  induction ls with
  | nil => rfl
  | cons l ls ih =>
    cases ls with
    | nil => simp [join]
    | cons m ms =>
      rw [join_cons _ _ _ (by simp), List.append_assoc, List.singleton_append, splitWs_mid _ _ _ (by decide), ih]
      simp

theorem splitWs_lines (ls : List Str) : splitWs (join py"\n" ls) = (ls.map splitWs).flatten := by
  induction ls with
  | nil => rfl
  | cons l ls ih =>
    cases ls with
    | nil => simp [join]
    | cons m ms =>
      rw [join_cons _ _ _ (by simp), List.append_assoc, List.singleton_append, splitWs_mid _ _ _ (by decide), ih]
      simp

theorem splitWs_lstrip (s : Str) : splitWs (lstrip s) = splitWs s := by
  induction s with
  | nil => rfl
  | cons c r ih =>
    by_cases hc : isSpace c = true
    · have : lstrip (c :: r) = lstrip r := by simp [lstrip, hc]
      rw [this, ih, splitWs_space _ _ hc]
    · have hc' : isSpace c = false := by simpa using hc
      simp [lstrip, hc']

theorem splitWs_blank (s : Str) (h : Blank s) : splitWs s = [] := by
  induction s with
  | nil => rfl
  | cons c r ih => rw [splitWs_space _ _ (h c (by simp)), ih (fun x hx => h x (List.mem_cons_of_mem _ hx))]

theorem splitWs_append_blank (s t : Str) (h : Blank t) : splitWs (s ++ t) = splitWs s := by
  cases t with
  | nil => simp
  | cons x t =>
    rw [splitWs_mid _ _ _ (h x (by simp)), splitWs_blank t (fun y hy => h y (List.mem_cons_of_mem _ hy))]
    simp

/-- `rstrip` removes a blank suffix. -/
theorem rstrip_split (s : Str) : ∃ t, s = rstrip s ++ t ∧ Blank t := by
  refine ⟨(s.reverse.takeWhile isSpace).reverse, ?_, ?_⟩
  · unfold rstrip
    rw [← List.reverse_append, List.takeWhile_append_dropWhile, List.reverse_reverse]
  · intro x hx
    have := List.all_takeWhile (p := isSpace) (l := s.reverse)
    rw [List.all_eq_true] at this
    exact this x (by simpa using hx)

/-- `lstrip` removes a blank prefix. -/
theorem lstrip_split (s : Str) : ∃ t, s = t ++ lstrip s ∧ Blank t := by
  refine ⟨s.takeWhile isSpace, by unfold lstrip; rw [List.takeWhile_append_dropWhile], ?_⟩
  intro x hx
  have := List.all_takeWhile (p := isSpace) (l := s)
  rw [List.all_eq_true] at this
  exact this x hx

theorem splitWs_rstrip (s : Str) : splitWs (rstrip s) = splitWs s := by
  obtain ⟨t, h1, h2⟩ := rstrip_split s
  conv => rhs; rw [h1]
  rw [splitWs_append_blank _ _ h2]

theorem splitWs_strip (s : Str) : splitWs (strip s) = splitWs s := by
  unfold strip; rw [splitWs_rstrip, splitWs_lstrip]

theorem nonws_rstrip (s : Str) : nonws (rstrip s) = nonws s := by
  obtain ⟨t, h1, h2⟩ := rstrip_split s
  conv => rhs; rw [h1]
  rw [nonws_append, nonws_blank _ h2, List.append_nil]

theorem nonws_lstrip (s : Str) : nonws (lstrip s) = nonws s := by
  obtain ⟨t, h1, h2⟩ := lstrip_split s
  conv => rhs; rw [h1]
  rw [nonws_append, nonws_blank _ h2, List.nil_append]

theorem nonws_strip (s : Str) : nonws (strip s) = nonws s := by unfold strip; rw [nonws_rstrip, nonws_lstrip]

theorem rstrip_sublist (s : Str) : (rstrip s).Sublist s := by
  obtain ⟨t, h1, -⟩ := rstrip_split s
  conv => rhs; rw [h1]
  exact List.sublist_append_left _ _

theorem lstrip_sublist (s : Str) : (lstrip s).Sublist s := by
  obtain ⟨t, h1, -⟩ := lstrip_split s
  conv => rhs; rw [h1]
  exact List.sublist_append_right _ _

theorem strip_sublist (s : Str) : (strip s).Sublist s := (rstrip_sublist _).trans (lstrip_sublist s)

/-- `rstrip` leaves no whitespace at the end. -/
theorem rstrip_end (s : Str) (c : Char) (h : (rstrip s).getLast? = some c) : isSpace c = false := by
  unfold rstrip at h
  rw [List.getLast?_reverse] at h
  have := List.head?_dropWhile_not isSpace s.reverse
  rw [h] at this
  simpa using this

theorem rstrip_of_end (s : Str) (h : ∀ c, s.getLast? = some c → isSpace c = false) : rstrip s = s := by
  unfold rstrip
  have : s.reverse.dropWhile isSpace = s.reverse := by
    cases hr : s.reverse with
    | nil => rfl
    | cons c r =>
      have := h c (by rw [← List.head?_reverse, hr]; rfl)
      simp [this]
  rw [this, List.reverse_reverse]

theorem rstrip_idem (s : Str) : rstrip (rstrip s) = rstrip s := rstrip_of_end _ (rstrip_end s)

/-! ## Collapsing blanks -/

theorem collapse_words (b : Bool) (s : Str) : splitWs (collapse b s) = splitWs s ∧ headSp (collapse false s) = headSp s := by
  induction s generalizing b with
  | nil => simp [collapse]
  | cons c r ih =>
    constructor
    · simp only [collapse]
      split
      · rename_i hc
        have hs : isSpace c = true := by rcases hc with e | e <;> subst e <;> decide
        rw [splitWs_space c r hs]
        split
        · exact (ih true).1
        · rw [splitWs_space _ _ (by decide)]; exact (ih true).1
      · by_cases hs : isSpace c = true
        · rw [splitWs_space _ _ hs, splitWs_space _ _ hs]; exact (ih false).1
        · have hs' : isSpace c = false := by simpa using hs
          rw [splitWs_cons _ _ hs', splitWs_cons _ _ hs', (ih false).1, (ih false).2]
    · simp only [collapse]
      split
      · rename_i hc
        have hs : isSpace c = true := by rcases hc with e | e <;> subst e <;> decide
        simp [headSp, hs]; decide
      · rfl

end Verif
