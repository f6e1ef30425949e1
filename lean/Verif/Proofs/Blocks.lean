import Verif.Spec.Blocks
import Verif.Proofs.Render

/-!
# Blocks
-/

namespace Verif

open Spec

/-! ## Lines -/

theorem splitlines_brk (c : Char) (r : Str) (hb : isLineBreak c = true) (h : c = '\r' → r.head? ≠ some '\n') :
    splitlines (c :: r) = [] :: splitlines r := by
  rw [splitlines.eq_def]
  split
  · simp at *
  · rename_i e; cases e; exact absurd rfl (h rfl)
  · rename_i e; cases e; rw [if_pos hb]

/-- Put a character in front of the first line. -/
def consLine (c : Char) : List Str → List Str
  | [] => [[c]]
  | l :: ls => (c :: l) :: ls

theorem splitlines_char (c : Char) (r : Str) (hb : isLineBreak c = false) :
    splitlines (c :: r) = consLine c (splitlines r) := by
  conv => lhs; rw [splitlines.eq_def]
  split
  · simp at *
  · rename_i e; cases e; exact absurd hb (by decide)
  · rename_i e; cases e; rw [if_neg (by simp [hb])]; unfold consLine; cases splitlines r <;> rfl

theorem splitlines_line (l r : Str) (hl : OneLine l) (ls : List Str) (h : splitlines r = [] :: ls) :
    splitlines (l ++ r) = l :: ls := by
  induction l with
  | nil => exact h
  | cons c l ih =>
    rw [List.cons_append, splitlines_char _ _ (hl c (by simp)), ih (fun x hx => hl x (List.mem_cons_of_mem _ hx))]
    rfl

theorem splitlines_last (l : Str) (h : l ≠ []) (hl : OneLine l) : splitlines l = [l] := by
  induction l with
  | nil => exact absurd rfl h
  | cons c l ih =>
    rw [splitlines_char _ _ (hl c (by simp))]
    by_cases hn : l = []
    · subst hn; rfl
    · rw [ih hn (fun x hx => hl x (List.mem_cons_of_mem _ hx))]
      rfl

theorem lines_splitlines {s : Str} {ls : List Str} (h : Lines s ls) : splitlines s = ls := by
  induction h with
  | nil => rfl
  | last h hl => exact splitlines_last _ h hl
  | crlf hl _ ih => exact splitlines_line _ _ hl _ (by rw [← ih]; rfl)
  | brk hl hb hn _ ih => exact splitlines_line _ _ hl _ (by rw [splitlines_brk _ _ hb hn, ih])

theorem lines_cons {c : Char} {s : Str} {ls : List Str} (hc : isLineBreak c = false) (h : Lines s ls) :
    Lines (c :: s) (consLine c ls) := by
  have one : ∀ l, OneLine l → OneLine (c :: l) := by
    intro l hl x hx
    rcases List.mem_cons.1 hx with e | e
    · rw [e]; exact hc
    · exact hl x e
  cases h with
  | nil => exact .last (by simp) (one [] (by intro x hx; cases hx))
  | last h hl => exact .last (by simp) (one _ hl)
  | crlf hl h => exact .crlf (one _ hl) h
  | brk hl hb hn h => exact .brk (one _ hl) hb hn h

theorem splitlines_lines (s : Str) : Lines s (splitlines s) := by
  fun_induction splitlines s with
  | case1 => exact .nil
  | case2 xs ih => exact .crlf (l := []) (by intro x hx; cases hx) ih
  | case3 c xs hne hb ih =>
    refine .brk (l := []) (by intro x hx; cases hx) hb ?_ ih
    intro hc hx
    cases xs with
    | nil => simp at hx
    | cons y ys =>
      simp only [List.head?_cons, Option.some.injEq] at hx
      subst hx
      exact hne ys hc rfl
  | case4 c xs hne hb hx ih =>
    have := lines_cons (by simpa using hb) ih
    rwa [hx] at this
  | case5 c xs hne hb l ls hx ih =>
    have := lines_cons (by simpa using hb) ih
    rwa [hx] at this

theorem lines_iff (s : Str) (ls : List Str) : Lines s ls ↔ splitlines s = ls :=
  ⟨lines_splitlines, fun h => h ▸ splitlines_lines s⟩

theorem lines_oneLine {s : Str} {ls : List Str} (h : Lines s ls) : ∀ l ∈ ls, OneLine l := by
  induction h with
  | nil => simp
  | last _ hl => intro l hm; rcases List.mem_singleton.1 hm with rfl; exact hl
  | crlf hl _ ih =>
    intro l hm
    rcases List.mem_cons.1 hm with rfl | e
    · exact hl
    · exact ih l e
  | brk hl _ _ _ ih =>
    intro l hm
    rcases List.mem_cons.1 hm with rfl | e
    · exact hl
    · exact ih l e

/-! ## Rows -/

theorem padLines_join (w : Int) (ls : List Str) (h : ∀ l ∈ ls, '\n' ∉ l) : padLines w (join py"\n" ls) = rows w ls := by
  unfold padLines rows
  by_cases hne : ls = []
  · subst hne; rfl
  · rw [if_neg hne, splitCh_join '\n' ls hne h]

theorem mapM_fmt (a b : Str) (ha : ∀ c ∈ a, c ≠ '{' ∧ c ≠ '}') (hb : ∀ c ∈ b, c ≠ '{' ∧ c ≠ '}') (ls : List Str) :
    ls.mapM (fmt1 (a ++ py"{}" ++ b)) = (.ok (ls.map (fun l => a ++ l ++ b)) : Py _) := by
  induction ls with
  | nil => rfl
  | cons l ls ih =>
    rw [List.mapM_cons, fmt1_plain a b l ha hb]
    simp only [bind, Except.bind, ih, pure, Except.pure, List.map_cons]

theorem oneLine_nl {l : Str} (h : OneLine l) : '\n' ∉ l := fun hm => by
  have := h _ hm
  revert this; decide

end Verif
