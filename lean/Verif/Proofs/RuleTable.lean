import Verif.Model.Cascade

namespace Verif

theorem setRule_mem (rules : List Rule) (u : Rule) (hn : (rules.map Rule.key).Nodup) (h : u.key ∈ rules.map Rule.key) :
    setRule rules u = rules.map (fun r => if r.key = u.key then u else r) := by
  induction rules with
  | nil => simp at h
  | cons x xs ih =>
    simp only [List.map_cons, List.nodup_cons] at hn
    unfold setRule
    by_cases hx : x.key = u.key
    · simp only [hx, if_true, List.map_cons]
      congr 1
      have : ∀ r ∈ xs, r.key ≠ u.key := by
        intro r hr e
        apply hn.1
        rw [hx, ← e]
        exact List.mem_map_of_mem hr
      rw [List.map_congr_left (g := id)]
      · simp
      · intro r hr; simp [this r hr]
    · simp only [hx, if_false, List.map_cons]
      rw [ih hn.2]
      simp only [List.map_cons, List.mem_cons] at h
      rcases h with h | h
      · exact absurd h.symm hx
      · exact h

theorem setRule_not_mem (rules : List Rule) (u : Rule) (h : u.key ∉ rules.map Rule.key) : setRule rules u = rules ++ [u] := by
  induction rules with
  | nil => rfl
  | cons x xs ih =>
    simp only [List.map_cons, List.mem_cons, not_or] at h
    unfold setRule
    have : ¬ x.key = u.key := fun e => h.1 e.symm
    simp [this, ih h.2]

theorem map_key_setRule_mem (rules : List Rule) (u : Rule) :
    (rules.map (fun r => if r.key = u.key then u else r)).map Rule.key = rules.map Rule.key := by
  rw [List.map_map]
  apply List.map_congr_left
  intro r _
  simp only [Function.comp]
  split <;> simp_all

/-- Lookup of a rule by selector text. -/
def ruleAt (rules : List Rule) (k : Str) : Option Rule := rules.find? (fun r => r.key == k)

theorem ruleAt_none (rules : List Rule) (k : Str) (h : k ∉ rules.map Rule.key) : ruleAt rules k = none := by
  unfold ruleAt
  rw [List.find?_eq_none]
  intro r hr e
  apply h
  simp at e
  exact List.mem_map.2 ⟨r, hr, e⟩

theorem updateRules_eq (base user : List Rule) (hb : (base.map Rule.key).Nodup) (hu : (user.map Rule.key).Nodup) :
    updateRules base user =
      base.map (fun r => (ruleAt user r.key).getD r) ++ user.filter (fun u => decide (u.key ∉ base.map Rule.key)) := by
  induction user generalizing base with
  | nil => simp [updateRules, ruleAt]
  | cons u us ih =>
    simp only [List.map_cons, List.nodup_cons] at hu
    have hstep : updateRules base (u :: us) = updateRules (setRule base u) us := rfl
    rw [hstep]
    by_cases h : u.key ∈ base.map Rule.key
    · rw [setRule_mem base u hb h, ih _ (by rw [map_key_setRule_mem]; exact hb) hu.2, map_key_setRule_mem]
      rw [List.map_map]
      simp only [List.filter_cons, h, not_true_eq_false, decide_false, Bool.false_eq_true, if_false]
      congr 1
      apply List.map_congr_left
      intro r _
      simp only [Function.comp]
      by_cases hr : r.key = u.key
      · have := ruleAt_none us u.key hu.1
        simp only [hr, if_true, this]
        simp [ruleAt]
      · have : (u.key == r.key) = false := by simpa using fun e => hr e.symm
        simp [hr, ruleAt, this]
    · have hn : (base ++ [u]).map Rule.key = base.map Rule.key ++ [u.key] := by simp
      rw [setRule_not_mem base u h, ih _ ?_ hu.2, hn, List.map_append, List.append_assoc]
      · simp only [List.filter_cons, h, not_false_eq_true, decide_true, if_true, List.map_cons, List.map_nil,
          ruleAt_none us u.key hu.1, Option.getD_none, List.singleton_append]
        congr 1
        · apply List.map_congr_left
          intro r hr
          have : (u.key == r.key) = false := by
            simp only [beq_eq_false_iff_ne, ne_eq]
            intro e; exact h (e ▸ List.mem_map_of_mem hr)
          simp [ruleAt, this]
        · congr 1
          apply List.filter_congr
          intro v hv
          have : v.key ≠ u.key := fun e => hu.1 (e ▸ List.mem_map_of_mem hv)
          simp [this]
      · rw [hn, List.nodup_append]
        refine ⟨hb, by simp, ?_⟩
        intro a ha b hb' e
        simp at hb'
        exact h (hb' ▸ e ▸ ha)

end Verif
