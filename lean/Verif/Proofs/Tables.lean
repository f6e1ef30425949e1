import Verif.Model.Tables
import Verif.Model.Themes
import Verif.Proofs.CssTotal
import Verif.Proofs.Dict

/-!
# Tables of renderers
-/

namespace Verif

/-- A text that is a list of selectors. -/
def GoodKey (k : Str) : Prop := ∃ l, cssParse k = .ok l

theorem badKey {k : Str} (h : ¬ GoodKey k) : cssParse k = .error .selectorSyntax := by
  rcases cssParse_total k with ⟨l, e, -⟩ | e
  · exact absurd ⟨l, e⟩ h
  · exact e

theorem readRules_keys {t : DictOf RSpec} {rs : List Rule} (h : readRules t = .ok rs) : tableOf rs = t := by
  induction t generalizing rs with
  | nil => cases h; rfl
  | cons x t ih =>
    obtain ⟨k, v⟩ := x
    simp only [readRules, bind, Except.bind] at h
    split at h
    · cases h
    · split at h
      · cases h
      · rename_i r hr
        cases h
        simp only [tableOf, List.map_cons]
        rw [← ih hr]
        rfl

theorem readRules_good {t : DictOf RSpec} (h : ∀ x ∈ t, GoodKey x.1) : ∃ rs, readRules t = .ok rs := by
  induction t with
  | nil => exact ⟨_, rfl⟩
  | cons x t ih =>
    obtain ⟨k, v⟩ := x
    obtain ⟨rs, hr⟩ := ih (fun y hy => h y (by simp [hy]))
    obtain ⟨l, hl⟩ := h (k, v) (by simp)
    exact ⟨⟨k, l, v⟩ :: rs, by simp only at hl; simp [readRules, hl, hr, bind, Except.bind, pure, Except.pure]⟩

theorem readRules_bad {t : DictOf RSpec} (h : ∃ x ∈ t, ¬ GoodKey x.1) : readRules t = .error .selectorSyntax := by
  induction t with
  | nil => simp at h
  | cons x t ih =>
    obtain ⟨k, v⟩ := x
    by_cases hk : GoodKey k
    · obtain ⟨l, hl⟩ := hk
      have : ∃ x ∈ t, ¬ GoodKey x.1 := by
        obtain ⟨y, hy, hn⟩ := h
        rcases List.mem_cons.mp hy with rfl | hy
        · exact absurd ⟨l, hl⟩ hn
        · exact ⟨y, hy, hn⟩
      simp [readRules, hl, ih this, bind, Except.bind]
    · simp [readRules, badKey hk, bind, Except.bind]

theorem readRules_set {t : DictOf RSpec} {rs : List Rule} (h : readRules t = .ok rs) {k : Str} {v : RSpec} {l : List Selector}
    (hk : cssParse k = .ok l) : readRules (DictOf.set t k v) = .ok (setRule rs ⟨k, l, v⟩) := by
  induction t generalizing rs with
  | nil => cases h; simp [DictOf.set, readRules, hk, setRule, bind, Except.bind, pure, Except.pure]
  | cons x t ih =>
    obtain ⟨k', v'⟩ := x
    simp only [readRules, bind, Except.bind] at h
    split at h
    · cases h
    · rename_i l' hl'
      split at h
      · cases h
      · rename_i r hr
        cases h
        rw [DictOf.set]
        by_cases e : k' = k
        · subst e
          simp [readRules, hk, hr, setRule, bind, Except.bind, pure, Except.pure]
        · simp [readRules, hl', ih hr, setRule, bind, Except.bind, pure, Except.pure, if_neg e]

theorem readRules_update {t user : DictOf RSpec} {rs us : List Rule} (h : readRules t = .ok rs) (hu : readRules user = .ok us) :
    readRules (DictOf.update t user) = .ok (updateRules rs us) := by
  induction user generalizing t rs us with
  | nil => cases hu; exact h
  | cons x user ih =>
    obtain ⟨k, v⟩ := x
    simp only [readRules, bind, Except.bind] at hu
    split at hu
    · cases hu
    · rename_i l hl
      split at hu
      · cases hu
      · rename_i r hr
        cases hu
        exact ih (t := DictOf.set t k v) (rs := setRule rs ⟨k, l, v⟩) (us := r) (readRules_set h hl) hr

/-- The entries a user gives other than the default renderer. -/
def namedEntries (user : DictOf RSpec) : DictOf RSpec := user.filter (fun x => decide (x.1 ≠ []))

/-- The default renderer stays at the head of the table. -/
theorem update_head (user base : DictOf RSpec) (d : RSpec) :
    DictOf.update (([], d) :: base) user = ([], (DictOf.get user.reverse []).getD d) :: DictOf.update base (namedEntries user) := by
  induction user generalizing base d with
  | nil => rfl
  | cons x user ih =>
    obtain ⟨k, v⟩ := x
    have e : ∀ t : DictOf RSpec, DictOf.update t ((k, v) :: user) = DictOf.update (DictOf.set t k v) user := fun _ => rfl
    rw [e, DictOf.set]
    have hget : DictOf.get ((k, v) :: user).reverse [] = (DictOf.get user.reverse []).or (if k = [] then some v else none) := by
      rw [List.reverse_cons]
      simp only [DictOf.get, List.lookup_append]
      congr 1
      rw [List.lookup_cons]
      by_cases hk : k = []
      · subst hk; simp
      · rw [if_neg hk]
        have : ([] == k) = false := by cases k with
          | nil => exact absurd rfl hk
          | cons c r => rfl
        simp [this]
    by_cases hk : k = []
    · subst hk
      rw [if_pos rfl, ih, hget]
      simp only [namedEntries, List.filter_cons]
      cases DictOf.get user.reverse [] <;> simp
    · rw [if_neg (fun e => hk e.symm), ih, hget, if_neg hk]
      simp only [namedEntries, List.filter_cons]
      simp [hk]
      rfl

theorem mem_keys_set {t : DictOf RSpec} {k k' : Str} {v : RSpec} (h : k' = k ∨ ∃ x ∈ t, x.1 = k') :
    ∃ x ∈ DictOf.set t k v, x.1 = k' := by
  have hm := DictOf.map_fst_set t k v
  have : k' ∈ (DictOf.set t k v).map Prod.fst := by
    rw [hm]
    split
    · rename_i hk
      rcases h with rfl | ⟨x, hx, rfl⟩
      · exact hk
      · exact List.mem_map.2 ⟨x, hx, rfl⟩
    · rcases h with rfl | ⟨x, hx, rfl⟩
      · simp
      · exact List.mem_append_left _ (List.mem_map.2 ⟨x, hx, rfl⟩)
  obtain ⟨x, hx, e⟩ := List.mem_map.1 this
  exact ⟨x, hx, e⟩

theorem mem_keys_update {t user : DictOf RSpec} {k : Str} (h : (∃ x ∈ user, x.1 = k) ∨ ∃ x ∈ t, x.1 = k) :
    ∃ x ∈ DictOf.update t user, x.1 = k := by
  induction user generalizing t with
  | nil =>
    rcases h with ⟨x, hx, -⟩ | h
    · cases hx
    · exact h
  | cons y user ih =>
    apply ih (t := DictOf.set t y.1 y.2)
    rcases h with ⟨x, hx, rfl⟩ | h
    · rcases List.mem_cons.1 hx with rfl | hx
      · exact .inr (mem_keys_set (.inl rfl))
      · exact .inl ⟨x, hx, rfl⟩
    · exact .inr (mem_keys_set (.inr h))

theorem bad_update {t user : DictOf RSpec} (h : ∃ x ∈ user, ¬ GoodKey x.1) : ∃ x ∈ DictOf.update t user, ¬ GoodKey x.1 := by
  obtain ⟨x, hx, hk⟩ := h
  obtain ⟨y, hy, e⟩ := mem_keys_update (t := t) (.inl ⟨x, hx, rfl⟩)
  exact ⟨y, hy, by rwa [e]⟩

theorem readRules_table {rules : List Rule} (h : rules.all (fun r => decide (cssParse r.key = .ok r.sels)) = true) :
    readRules (tableOf rules) = .ok rules := by
  induction rules with
  | nil => rfl
  | cons r rules ih =>
    simp only [List.all_cons, Bool.and_eq_true, decide_eq_true_eq] at h
    have := ih h.2
    simp only [tableOf] at this
    simp [tableOf, readRules, h.1, this, bind, Except.bind, pure, Except.pure]

set_option maxRecDepth 20000 in
theorem defaults_read : readRules (tableOf defaultRules) = .ok defaultRules ∧ readRules (tableOf defaultLinkRules) = .ok defaultLinkRules :=
  ⟨readRules_table (by decide +kernel), readRules_table (by decide +kernel)⟩

set_option maxRecDepth 20000 in
theorem themes_read : ∀ t ∈ bundledThemes, readRules (tableOf t) = .ok t := by
  have h : ∀ t ∈ bundledThemes, t.all (fun r => decide (cssParse r.key = .ok r.sels)) = true := by decide +kernel
  exact fun t ht => readRules_table (h t ht)

end Verif
