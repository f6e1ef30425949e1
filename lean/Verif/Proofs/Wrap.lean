import Verif.Spec.Wrap
import Verif.Proofs.Str

namespace Verif

open Spec

/-! ## Visible length -/

def bufLen : Option (Bool × Str) → Nat
  | none => 0
  | some (_, b) => b.length

theorem stripFrom_buf (u : Uni) (st : Option (Bool × Str)) (s : Str) :
    (stripAnsiFrom u st s).length ≤ bufLen st + (stripAnsiFrom u none s).length := by
  induction s generalizing st with
  | nil =>
    cases st with
    | none => simp [stripAnsiFrom]
    | some x => obtain ⟨b, buf⟩ := x; simp [stripAnsiFrom, bufLen]
  | cons c r ih =>
    cases st with
    | none => simp [bufLen]
    | some x =>
      obtain ⟨b, buf⟩ := x
      have hesc : u.isDigit esc = false := u.digit_esc
      cases b with
      | false =>
        simp only [stripAnsiFrom, bufLen]
        by_cases h1 : c = '['
        · subst h1
          have := ih (some (true, buf ++ ['[']))
          have he : ¬ '[' = esc := by decide
          simp [bufLen, he] at this ⊢
          omega
        · by_cases h2 : c = esc
          · simp [h2]
            rw [if_neg (by decide)]
            simp
          · simp [h1, h2]
      | true =>
        simp only [stripAnsiFrom, bufLen]
        by_cases h1 : (decide (c = ';') || u.isDigit c) = true
        · rw [if_pos h1]
          have := ih (some (true, buf ++ [c]))
          have he : ¬ c = esc := by
            rintro rfl
            rw [hesc] at h1
            revert h1; decide
          simp [bufLen, he] at this ⊢
          omega
        · rw [if_neg h1]
          by_cases h2 : c = 'm'
          · subst h2
            have he : ¬ 'm' = esc := by decide
            simp [he]
            omega
          · by_cases h3 : c = esc
            · simp [h3]
              rw [if_neg (by decide)]
              simp
            · simp [h2, h3]

theorem stripFrom_append (u : Uni) (st : Option (Bool × Str)) (s t : Str) :
    (stripAnsiFrom u st (s ++ t)).length ≤ (stripAnsiFrom u st s).length + (stripAnsiFrom u none t).length := by
  induction s generalizing st with
  | nil =>
    have := stripFrom_buf u st t
    cases st with
    | none => simp [stripAnsiFrom]
    | some x => obtain ⟨b, buf⟩ := x; simpa [stripAnsiFrom, bufLen] using this
  | cons c r ih =>
    rw [List.cons_append]
    cases st with
    | none =>
      simp only [stripAnsiFrom]
      split
      · exact ih _
      · have := ih none; simp only [List.length_cons]; omega
    | some x =>
      obtain ⟨b, buf⟩ := x
      cases b with
      | false =>
        simp only [stripAnsiFrom]
        split
        · exact ih _
        · split
          · have := ih (some (false, [c])); simp only [List.length_append]; omega
          · have := ih none; simp only [List.length_append, List.length_cons]; omega
      | true =>
        simp only [stripAnsiFrom]
        split
        · exact ih _
        · split
          · exact ih _
          · split
            · have := ih (some (false, [c])); simp only [List.length_append]; omega
            · have := ih none; simp only [List.length_append, List.length_cons]; omega

theorem vlen_nonneg (u : Uni) (s : Str) : 0 ≤ vlen u s := by unfold vlen; omega

theorem vlen_append (u : Uni) (s t : Str) : vlen u (s ++ t) ≤ vlen u s + vlen u t := by
  unfold vlen stripAnsi
  have := stripFrom_append u none s t
  omega

theorem stripFrom_len (u : Uni) (st : Option (Bool × Str)) (s : Str) :
    (stripAnsiFrom u st s).length ≤ bufLen st + s.length := by
  induction s generalizing st with
  | nil =>
    cases st with
    | none => simp [stripAnsiFrom]
    | some x => obtain ⟨b, buf⟩ := x; simp [stripAnsiFrom, bufLen]
  | cons c r ih =>
    cases st with
    | none =>
      simp only [stripAnsiFrom]
      split
      · have := ih (some (false, [c])); simp [bufLen] at this ⊢; omega
      · have := ih none; simp [bufLen] at this ⊢; omega
    | some x =>
      obtain ⟨b, buf⟩ := x
      have h0 := ih none
      have h1 := ih (some (false, [c]))
      have h2 := ih (some (true, buf ++ [c]))
      simp [bufLen] at h0 h1 h2
      cases b with
      | false =>
        simp only [stripAnsiFrom, bufLen]
        split
        · simp; omega
        · split <;> simp <;> omega
      | true =>
        simp only [stripAnsiFrom, bufLen]
        split
        · simp; omega
        · split
          · simp; omega
          · split <;> simp <;> omega

theorem vlen_le_len (u : Uni) (s : Str) : vlen u s ≤ len s := by
  unfold vlen stripAnsi len
  have := stripFrom_len u none s
  simp [bufLen] at this
  omega

theorem vlen_nil (u : Uni) : vlen u [] = 0 := rfl

theorem sumLen_append (u : Uni) (a b : List Str) : sumLen u (a ++ b) = sumLen u a + sumLen u b := by
  induction a with
  | nil => simp [sumLen]
  | cons x a ih => simp [sumLen, ih]; omega

theorem sumLen_nonneg (u : Uni) (a : List Str) : 0 ≤ sumLen u a := by
  induction a with
  | nil => simp [sumLen]
  | cons x a ih => have := vlen_nonneg u x; simp [sumLen]; omega

theorem vlen_flatten (u : Uni) (a : List Str) : vlen u a.flatten ≤ sumLen u a := by
  induction a with
  | nil => simp [sumLen, vlen_nil]
  | cons x a ih =>
    have := vlen_append u x a.flatten
    simp [sumLen]; omega

/-! ## Slices -/

theorem take_drop (s : Str) (k : Int) : pyTake s k ++ pyDrop s k = s := by
  unfold pyTake pyDrop; exact List.take_append_drop _ _

theorem pyTake_len (s : Str) (k : Int) (hk : 0 ≤ k) : len (pyTake s k) ≤ k := by
  unfold pyTake clampIdx len
  rw [if_neg (by omega)]
  simp
  omega

theorem pyDrop_len (s : Str) (k : Int) (hk : 1 ≤ k) (hs : s ≠ []) : (pyDrop s k).length < s.length := by
  unfold pyDrop clampIdx
  rw [if_neg (by omega)]
  have : 0 < s.length := List.length_pos_iff.2 hs
  simp
  omega

theorem pyDrop_len_le (s : Str) (k : Int) : (pyDrop s k).length ≤ s.length := by
  unfold pyDrop; simp

theorem rfind_lt (c : Char) (s : Str) : rfindCh c s < s.length := by
  induction s with
  | nil => simp [rfindCh]
  | cons x xs ih =>
    simp only [rfindCh, List.length_cons]
    split
    · omega
    · split <;> omega

/-! ## One line -/

theorem fillLine_spec (u : Uni) (w : Int) (cur : List Str) (n : Int) (cs : List Str) :
    ∃ t r, fillLine u w cur n cs = (cur ++ t, n + sumLen u t, r) ∧ cs = t ++ r ∧ (t = [] ∨ n + sumLen u t ≤ w) ∧
      ∀ c r', r = c :: r' → n + sumLen u t + vlen u c > w := by
  induction cs generalizing cur n with
  | nil => exact ⟨[], [], by simp [fillLine, sumLen], by simp, by simp, by simp⟩
  | cons c cs ih =>
    simp only [fillLine]
    split
    · rename_i h
      obtain ⟨t, r, h1, h2, h3, h4⟩ := ih (cur ++ [c]) (n + vlen u c)
      refine ⟨c :: t, r, ?_, by simp [h2], Or.inr ?_, ?_⟩
      · rw [h1]; simp [sumLen]; omega
      · rcases h3 with rfl | h3
        · simp [sumLen]; omega
        · simp [sumLen]; omega
      · intro c' r' e
        have := h4 c' r' e
        simp [sumLen]; omega
    · rename_i h
      refine ⟨[], c :: cs, by simp [sumLen], by simp, by simp, ?_⟩
      intro c' r' e
      cases e
      simp [sumLen]; omega

/-- Where a long word is cut. -/
def cutPos (o : WrapOpts) (spaceLeft : Int) (c : Str) : Int :=
  if o.hyphenAware && o.breakHyphens && decide (len c > spaceLeft) then
    let h := rfindCh '-' (pyTake c spaceLeft)
    if h > 0 && (pyTake c h).any (· != '-') then h + 1 else spaceLeft
  else spaceLeft

theorem cutPos_bounds (o : WrapOpts) (sl : Int) (c : Str) (h : 0 ≤ sl) :
    0 ≤ cutPos o sl c ∧ cutPos o sl c ≤ sl ∧ (1 ≤ sl → 1 ≤ cutPos o sl c) := by
  unfold cutPos
  split
  · have h1 := rfind_lt '-' (pyTake c sl)
    have h2 := pyTake_len c sl h
    unfold len at h2
    simp only
    split
    · rename_i hc
      simp at hc
      omega
    · omega
  · omega

/-- The result of lines 92-94. -/
inductive Broken (u : Uni) (o : WrapOpts) (w : Int) (t r : List Str) : List Str → List Str → Prop where
  | fits (h : ∀ c r', r = c :: r' → vlen u c ≤ w) : Broken u o w t r t r
  | cut (c : Str) (cs : List Str) (hr : r = c :: cs) (hl : vlen u c > w) (hb : o.breakLong = true) (e : Int)
      (he : e = cutPos o (if w < 1 then 1 else w - sumLen u t) c) :
      Broken u o w t r (t ++ [pyTake c e]) (pyDrop c e :: cs)
  | whole (c : Str) (cs : List Str) (hr : r = c :: cs) (hl : vlen u c > w) (hb : o.breakLong = false) (ht : t = []) :
      Broken u o w t r [c] cs
  | later (c : Str) (cs : List Str) (hr : r = c :: cs) (hl : vlen u c > w) (hb : o.breakLong = false) (ht : t ≠ []) :
      Broken u o w t r t r

/-- The result of lines 97-99. -/
inductive Trimmed (o : WrapOpts) (t : List Str) : List Str → Prop where
  | keep (h : o.dropWs = true → ∀ l, t.getLast? = some l → strip l ≠ []) : Trimmed o t t
  | drop (t' : List Str) (l : Str) (hd : o.dropWs = true) (ht : t = t' ++ [l]) (hl : strip l = []) : Trimmed o t t'

theorem breakLong_spec (u : Uni) (o : WrapOpts) (w : Int) (t : List Str) (r : List Str) :
    ∃ t' r', breakLongChunk u o w t (sumLen u t) r = (t', sumLen u t', r') ∧ Broken u o w t r t' r' := by
  cases r with
  | nil => exact ⟨t, [], rfl, .fits (by simp)⟩
  | cons c cs =>
    simp only [breakLongChunk]
    split
    · rename_i hl
      simp only [handleLongWord]
      by_cases hb : o.breakLong = true
      · simp only [hb, if_true]
        exact ⟨_, _, rfl, .cut c cs rfl hl hb _ rfl⟩
      · have hb' : o.breakLong = false := by simpa using hb
        simp only [hb', Bool.false_eq_true, if_false]
        cases t with
        | nil => exact ⟨[c], cs, by simp, .whole c cs rfl hl hb' rfl⟩
        | cons x t => exact ⟨x :: t, c :: cs, by simp, .later c cs rfl hl hb' (by simp)⟩
    · rename_i hl
      exact ⟨t, c :: cs, rfl, .fits (by intro c' r' e; cases e; omega)⟩

theorem dropTrail_spec (u : Uni) (o : WrapOpts) (t : List Str) :
    ∃ t', dropTrail u o t (sumLen u t) = (t', sumLen u t') ∧ Trimmed o t t' := by
  unfold dropTrail
  cases hl : t.getLast? with
  | none => exact ⟨t, rfl, .keep (by simp [hl])⟩
  | some l =>
    simp only
    split
    · rename_i h
      simp at h
      have ht : t = t.dropLast ++ [l] := by
        rw [List.getLast?_eq_some_iff] at hl
        obtain ⟨ys, rfl⟩ := hl
        simp
      refine ⟨t.dropLast, ?_, .drop _ l h.1 ht h.2⟩
      have : sumLen u t = sumLen u t.dropLast + vlen u l := by
        conv => lhs; rw [ht]
        rw [sumLen_append]; simp [sumLen]
      simp [this]
    · rename_i h
      refine ⟨t, rfl, .keep ?_⟩
      intro hd l' hl'
      rw [hl] at hl'
      cases hl'
      intro e
      simp [hd, e] at h

/-- One round of the loop. -/
structure Round (u : Uni) (o : WrapOpts) (le : Bool) (w : Int) (lead taken left taken' chunks cur rest : List Str) : Prop where
  split : chunks = lead ++ (taken ++ left)
  leadOk : lead = [] ∨ ∃ l, lead = [l] ∧ strip l = [] ∧ o.dropWs = true ∧ le = false
  noLead : lead = [] → o.dropWs = true → le = false → ∀ c r, chunks = c :: r → strip c ≠ []
  fit : taken = [] ∨ sumLen u taken ≤ w
  full : ∀ c r', left = c :: r' → sumLen u taken + vlen u c > w
  broken : Broken u o w taken left taken' rest
  trimmed : Trimmed o taken' cur

theorem dropLead_spec (o : WrapOpts) (le : Bool) (chunks : List Str) :
    ∃ lead, chunks = lead ++ dropLead o le chunks ∧
      (lead = [] ∨ ∃ l, lead = [l] ∧ strip l = [] ∧ o.dropWs = true ∧ le = false) ∧
      (lead = [] → o.dropWs = true → le = false → ∀ c r, chunks = c :: r → strip c ≠ []) := by
  cases chunks with
  | nil => exact ⟨[], by simp [dropLead], by simp, by simp⟩
  | cons c cs =>
    simp only [dropLead]
    split
    · rename_i h
      simp at h
      exact ⟨[c], by simp, Or.inr ⟨c, rfl, h.1.2, h.1.1, h.2⟩, by simp⟩
    · rename_i h
      simp at h
      refine ⟨[], by simp, by simp, ?_⟩
      intro _ hd hl c' r e hs
      cases e
      have := h hd hs
      rw [hl] at this
      cases this

theorem nextLine_spec (u : Uni) (o : WrapOpts) (le : Bool) (w : Int) (chunks : List Str) :
    ∃ cur rest, nextLine u o le w chunks = (cur, sumLen u cur, rest) ∧
      ∃ lead taken left taken', Round u o le w lead taken left taken' chunks cur rest := by
  obtain ⟨lead, h1, h2, h3⟩ := dropLead_spec o le chunks
  obtain ⟨t, r, e1, e2, e3, e4⟩ := fillLine_spec u w [] 0 (dropLead o le chunks)
  obtain ⟨t', r', e5, e6⟩ := breakLong_spec u o w t r
  obtain ⟨t'', e7, e8⟩ := dropTrail_spec u o t'
  refine ⟨t'', r', ?_, lead, t, r, t', by rw [← e2]; exact h1, h2, h3, by simpa using e3, by simpa using e4, e6, e8⟩
  simp only [nextLine, e1, List.nil_append, Int.zero_add, e5, e7]

/-! ## Blank strings -/

theorem dropWhile_nil_iff {α : Type} (p : α → Bool) (l : List α) : l.dropWhile p = [] ↔ ∀ x ∈ l, p x = true := by
  induction l with
  | nil => simp
  | cons x l ih =>
    rw [List.dropWhile_cons]
    split
    · rename_i h; simp [ih, h]
    · rename_i h; simp [h]

theorem strip_nil_iff (s : Str) : strip s = [] ↔ Blank s := by
  constructor
  · intro h c hc
    unfold strip rstrip lstrip at h
    simp only [List.reverse_eq_nil_iff, dropWhile_nil_iff, List.mem_reverse] at h
    -- every character of the left stripped string is a space
    by_cases hm : c ∈ s.dropWhile isSpace
    · exact h c hm
    · have hs := List.takeWhile_append_dropWhile (p := isSpace) (l := s)
      rw [← hs, List.mem_append] at hc
      rcases hc with hc | hc
      · have := List.all_takeWhile (p := isSpace) (l := s)
        rw [List.all_eq_true] at this
        exact this c hc
      · exact absurd hc hm
  · intro h
    have : s.dropWhile isSpace = [] := by
      rw [dropWhile_nil_iff]; exact h
    unfold strip rstrip lstrip
    rw [this]; rfl

theorem nonws_append (a b : Str) : nonws (a ++ b) = nonws a ++ nonws b := by simp [nonws]

theorem nonws_blank (s : Str) (h : Blank s) : nonws s = [] := by
  unfold nonws
  rw [List.filter_eq_nil_iff]
  intro c hc
  simp [h c hc]

theorem nonws_strip_nil (s : Str) (h : strip s = []) : nonws s = [] := nonws_blank s ((strip_nil_iff s).1 h)

theorem broken_flatten {u : Uni} {o : WrapOpts} {w : Int} {t r t' r' : List Str} (h : Broken u o w t r t' r') :
    t'.flatten ++ r'.flatten = t.flatten ++ r.flatten := by
  cases h with
  | fits _ => rfl
  | cut c cs hr _ _ e _ =>
    subst hr
    simp [← List.append_assoc]
    rw [List.append_assoc t.flatten, take_drop]
  | whole c cs hr _ _ ht => subst hr; subst ht; simp
  | later c cs hr _ _ ht => rfl

theorem trimmed_nonws {o : WrapOpts} {t t' : List Str} (h : Trimmed o t t') : nonws t'.flatten = nonws t.flatten := by
  cases h with
  | keep _ => rfl
  | drop t' l hd ht hl => subst ht; simp [nonws_append, nonws_strip_nil l hl]

theorem round_nonws {u : Uni} {o : WrapOpts} {le : Bool} {w : Int} {lead taken left taken' chunks cur rest : List Str}
    (r : Round u o le w lead taken left taken' chunks cur rest) : nonws cur.flatten ++ nonws rest.flatten = nonws chunks.flatten := by
  rw [trimmed_nonws r.trimmed, ← nonws_append, broken_flatten r.broken, r.split]
  rcases r.leadOk with h | ⟨l, h, hl, -⟩
  · simp [h]
  · simp [h, nonws_append, nonws_strip_nil l hl]

/-! ## Length of a line -/

theorem round_fits {u : Uni} {o : WrapOpts} {le : Bool} {w : Int} {lead taken left taken' chunks cur rest : List Str}
    (r : Round u o le w lead taken left taken' chunks cur rest) (hw : 1 ≤ w) (hb : o.breakLong = true) : sumLen u cur ≤ w := by
  have h1 : sumLen u taken ≤ w := by
    rcases r.fit with h | h
    · rw [h]; simp [sumLen]; omega
    · exact h
  have h2 : sumLen u taken' ≤ w := by
    have hbr := r.broken
    cases hbr with
    | fits _ => exact h1
    | cut c cs hr hl _ e he =>
      rw [if_neg (by omega)] at he
      have hc := cutPos_bounds o (w - sumLen u taken) c (by omega)
      rw [← he] at hc
      have h3 := vlen_le_len u (pyTake c e)
      have h4 := pyTake_len c e hc.1
      rw [sumLen_append]
      simp [sumLen]
      omega
    | whole c cs _ _ hb' _ => rw [hb] at hb'; cases hb'
    | later c cs _ _ hb' _ => rw [hb] at hb'; cases hb'
  have ht := r.trimmed
  cases ht with
  | keep _ => exact h2
  | drop t'' l hd hh hl =>
    subst hh
    rw [sumLen_append] at h2
    have := vlen_nonneg u l
    simp [sumLen] at h2
    omega

/-! ## Progress -/

def measure (chunks : List Str) : Nat := chunks.flatten.length + chunks.length

theorem measure_append (a b : List Str) : measure (a ++ b) = measure a + measure b := by
  unfold measure; simp; omega

theorem round_progress {u : Uni} {o : WrapOpts} {le : Bool} {w : Int} {lead taken left taken' chunks cur rest : List Str}
    (r : Round u o le w lead taken left taken' chunks cur rest) (hne : chunks ≠ []) (hw : 0 ≤ w ∨ o.breakLong = false) :
    measure rest < measure chunks := by
  have hs : measure chunks = measure lead + (measure taken + measure left) := by
    conv => lhs; rw [r.split]
    rw [measure_append, measure_append]
  have hpos : ∀ l : List Str, l ≠ [] → 0 < measure l := by
    intro l hl
    have := List.length_pos_iff.2 hl
    unfold measure; omega
  have hbr := r.broken
  have key : measure rest < measure taken + measure left ∨ (rest = left ∧ taken = [] ∧ left = []) := by
    cases hbr with
    | fits hf =>
      by_cases ht : taken = []
      · right
        refine ⟨rfl, ht, ?_⟩
        cases hl : left with
        | nil => rfl
        | cons c r' =>
          have h1 := hf c r' hl
          have h2 := r.full c r' hl
          rw [ht] at h2
          simp [sumLen] at h2
          omega
      · left
        have := hpos _ ht
        omega
    | cut c cs hr hl hb e he =>
      left
      have hw0 : 0 ≤ w := by
        rcases hw with h | h
        · exact h
        · rw [hb] at h; cases h
      have hcne : c ≠ [] := by
        rintro rfl
        rw [vlen_nil] at hl; omega
      rw [hr]
      have e1 : measure (c :: cs) = c.length + 1 + measure cs := by unfold measure; simp; omega
      have e2 : measure (pyDrop c e :: cs) = (pyDrop c e).length + 1 + measure cs := by unfold measure; simp; omega
      rw [e1, e2]
      by_cases ht : taken = []
      · have hle : 1 ≤ e := by
          rw [ht] at he
          simp only [sumLen] at he
          by_cases hw1 : w < 1
          · rw [if_pos hw1] at he; rw [he]; exact (cutPos_bounds o 1 c (by omega)).2.2 (by omega)
          · rw [if_neg hw1] at he; rw [he]; exact (cutPos_bounds o (w - 0) c (by omega)).2.2 (by omega)
        have := pyDrop_len c e hle hcne
        omega
      · have := hpos _ ht
        have h2 := pyDrop_len_le c e
        omega
    | whole c cs hr hl hb ht =>
      left
      rw [hr]
      have e1 : measure (c :: rest) = c.length + 1 + measure rest := by unfold measure; simp; omega
      omega
    | later c cs hr hl hb ht =>
      left
      have := hpos _ ht
      omega
  rcases key with h | ⟨h1, h2, h3⟩
  · omega
  · rw [h1, h3]
    have hc : measure chunks = measure lead := by rw [hs, h2, h3]; simp [measure]
    have : lead ≠ [] := by
      intro e
      apply hne
      rw [r.split, e, h2, h3]; rfl
    have := hpos _ this
    have h0 : measure ([] : List Str) = 0 := rfl
    omega

end Verif
