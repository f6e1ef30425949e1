import Verif.Spec.Parser
import Verif.Proofs.Lines

/-!
# `splitlines`
-/

namespace Verif

open Spec

theorem indentLines_start (pad : Str) (c : Char) (r : Str) : indentLines pad true (c :: r) = pad ++ indentLines pad false (c :: r) := by
  simp [indentLines]

theorem splitlinesKeep_flatten (s : Str) : (splitlinesKeep s).flatten = s := by
  fun_induction splitlinesKeep s <;> simp_all

theorem splitlinesKeep_nil_iff (s : Str) : splitlinesKeep s = [] ↔ s = [] := by
  constructor
  · intro h
    have := splitlinesKeep_flatten s
    rw [h] at this
    simpa using this.symm
  · rintro rfl; rfl

theorem indent_eq (pad s : Str) : ((splitlinesKeep s).map (pad ++ ·)).flatten = indentLines pad true s := by
  fun_induction splitlinesKeep s with
  | case1 => rfl
  | case2 xs ih =>
    simp only [List.map_cons, List.flatten_cons, ih, indentLines]
    simp [show isLineBreak '\n' = true by decide]
  | case3 c xs hne hb ih =>
    simp only [List.map_cons, List.flatten_cons, ih, indentLines]
    have : (c == '\r' && xs.head? == some '\n') = false := by
      cases xs with
      | nil => simp
      | cons y ys =>
        simp only [List.head?_cons, Bool.and_eq_false_iff]
        by_cases hc : c = '\r'
        · subst hc
          right
          have : y ≠ '\n' := fun e => by subst e; exact hne ys rfl rfl
          simpa using this
        · left; simpa using hc
    simp [hb, this]
  | case4 c xs hne hb hx ih =>
    rw [splitlinesKeep_nil_iff] at hx
    subst hx
    simp [indentLines]
  | case5 c xs hne hb l ls hx ih =>
    rw [hx] at ih
    have hxs : xs ≠ [] := by rintro rfl; simp [splitlinesKeep] at hx
    obtain ⟨y, ys, rfl⟩ := List.exists_cons_of_ne_nil hxs
    rw [indentLines_start] at ih
    simp only [List.map_cons, List.flatten_cons, List.append_assoc, List.append_cancel_left_eq] at ih
    have hb' : isLineBreak c = false := by simpa using hb
    rw [indentLines_start]
    simp only [List.map_cons, List.flatten_cons, List.append_assoc, List.cons_append]
    rw [ih]
    conv => rhs; rw [indentLines]
    simp [hb']

theorem nonws_indentLines (pad : Str) (h : Blank pad) (b : Bool) (s : Str) : nonws (indentLines pad b s) = nonws s := by
  induction s generalizing b with
  | nil => rfl
  | cons c r ih =>
    rw [indentLines, nonws_append]
    have : nonws (if b = true then pad else []) = [] := by split; exact nonws_blank _ h; rfl
    rw [this, List.nil_append]
    simp only [nonws, List.filter_cons] at ih ⊢
    rw [ih]

theorem blank_rep_space (n : Int) : Blank (rep ' ' n) := by
  intro c hc
  simp only [rep, List.mem_replicate] at hc
  rw [hc.2]; decide

theorem blank_rep_nl (n : Int) : Blank (rep '\n' n) := by
  intro c hc
  simp only [rep, List.mem_replicate] at hc
  rw [hc.2]; decide

theorem optimise_nonws (s : Str) : nonws (optimise s) = nonws s := by
  unfold optimise
  rw [nonws_join _ _ (by intro c hc; simp at hc; subst hc; decide)]
  have : ∀ ls : List Str, nonws (ls.map rstrip).flatten = nonws ls.flatten := by
    intro ls
    induction ls with
    | nil => rfl
    | cons l ls ih => simp only [List.map_cons, List.flatten_cons, nonws_append, nonws_rstrip, ih]
  rw [this, ← nonws_join _ py"\n" (by intro c hc; simp at hc; subst hc; decide), join_splitCh]

end Verif
