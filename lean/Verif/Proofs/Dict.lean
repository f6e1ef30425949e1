import Verif.Py.Dict

namespace Verif

namespace DictOf

variable {α : Type}

theorem get_nil (k : Str) : get ([] : DictOf α) k = none := rfl

theorem get_cons (k k' : Str) (v : α) (d : DictOf α) :
    get ((k', v) :: d) k = if k = k' then some v else get d k := by
  unfold get
  rw [List.lookup_cons]
  by_cases h : k = k'
  · simp [h]
  · have : (k == k') = false := by simpa using h
    simp [h, this]

theorem get_set (d : DictOf α) (k k' : Str) (v : α) :
    get (set d k' v) k = if k = k' then some v else get d k := by
  induction d with
  | nil => simp [set, get_cons, get_nil]
  | cons x xs ih =>
    obtain ⟨a, b⟩ := x
    unfold set
    by_cases h : a = k'
    · simp only [h, if_true, get_cons]
      split <;> simp_all
    · simp only [h, if_false, get_cons, ih]
      by_cases h1 : k = a
      · subst h1; simp [h]
      · simp [h1]

/-- The last value for a key in a list of pairs. -/
theorem get_update (d e : DictOf α) (k : Str) :
    get (update d e) k = (match get e.reverse k with | some v => some v | none => get d k) := by
  unfold update
  induction e generalizing d with
  | nil => simp [get_nil]
  | cons x xs ih =>
    obtain ⟨a, b⟩ := x
    simp only [List.foldl_cons, ih, List.reverse_cons, get_set]
    have happ : get (xs.reverse ++ [(a, b)]) k = (match get xs.reverse k with | some v => some v | none => get [(a, b)] k) := by
      unfold get
      rw [List.lookup_append]
      cases List.lookup k xs.reverse <;> simp
    rw [happ]
    cases get xs.reverse k with
    | some v => rfl
    | none => simp only [get_cons, get_nil]; split <;> simp_all

theorem get_eq_none (d : DictOf α) (k : Str) : get d k = none ↔ k ∉ d.map Prod.fst := by
  induction d with
  | nil => simp [get_nil]
  | cons x xs ih =>
    obtain ⟨a, b⟩ := x
    rw [get_cons]
    by_cases h : k = a <;> simp [h, ih]

theorem get_reverse_of_nodup (d : DictOf α) (h : (d.map Prod.fst).Nodup) (k : Str) :
    get d.reverse k = get d k := by
  induction d with
  | nil => rfl
  | cons x xs ih =>
    obtain ⟨a, b⟩ := x
    simp only [List.map_cons, List.nodup_cons] at h
    have happ : get (xs.reverse ++ [(a, b)]) k = (match get xs.reverse k with | some v => some v | none => get [(a, b)] k) := by
      unfold get
      rw [List.lookup_append]
      cases List.lookup k xs.reverse <;> simp
    rw [List.reverse_cons, happ, ih h.2, get_cons]
    by_cases hk : k = a
    · subst hk
      rw [(get_eq_none xs k).2 h.1]; simp [get_cons]
    · simp only [hk, if_false]
      rw [get_cons, get_nil, if_neg hk]
      cases hx : get xs k <;> rfl

theorem map_fst_set (d : DictOf α) (k : Str) (v : α) :
    (set d k v).map Prod.fst = if k ∈ d.map Prod.fst then d.map Prod.fst else d.map Prod.fst ++ [k] := by
  induction d with
  | nil => simp [set]
  | cons x xs ih =>
    obtain ⟨a, b⟩ := x
    unfold set
    by_cases h : a = k
    · subst h; simp
    · simp only [h, if_false, List.map_cons, ih, List.mem_cons]
      have : ¬ k = a := fun e => h e.symm
      simp only [this, false_or]
      split <;> simp

theorem nodup_set (d : DictOf α) (k : Str) (v : α) (h : (d.map Prod.fst).Nodup) :
    ((set d k v).map Prod.fst).Nodup := by
  rw [map_fst_set]
  split
  · exact h
  · rw [List.nodup_append]
    refine ⟨h, by simp, ?_⟩
    intro a ha b hb
    simp at hb
    subst hb
    intro e
    subst e
    contradiction

theorem nodup_update (d e : DictOf α) (h : (d.map Prod.fst).Nodup) : ((update d e).map Prod.fst).Nodup := by
  unfold update
  induction e generalizing d with
  | nil => exact h
  | cons x xs ih => exact ih _ (nodup_set _ _ _ h)

/-- `d.update(e)` for a dict `e`: its entries win. -/
theorem get_update_nodup (d e : DictOf α) (h : (e.map Prod.fst).Nodup) (k : Str) :
    get (update d e) k = (match get e k with | some v => some v | none => get d k) := by
  rw [get_update, get_reverse_of_nodup e h]

end DictOf

end Verif
