import Verif.Spec.Cascade
import Verif.Proofs.Dict

namespace Verif

open Spec

/-! ## Specificity comparison -/

theorem compareSpecificity_some (a b : Spec3) :
    compareSpecificity (some a) (some b) = .ok (if LexLt b a then 1 else if LexLt a b then -1 else 0) := by
  obtain ⟨a1, a2, a3⟩ := a
  obtain ⟨b1, b2, b3⟩ := b
  simp only [compareSpecificity, compare3, LexLt]
  congr 1
  repeat' split
  all_goals first | omega | (exfalso; omega) | skip

theorem specLt_some (a b : Spec3) : specLt (some a) (some b) = .ok (decide (LexLt a b)) := by
  simp only [specLt, compareSpecificity_some, Except.map]
  congr 1
  rw [decide_eq_decide]
  by_cases h1 : LexLt b a
  · rw [if_pos h1]; unfold LexLt at *; constructor <;> intro h <;> omega
  · rw [if_neg h1]
    by_cases h2 : LexLt a b
    · rw [if_pos h2]; simp [h2]
    · rw [if_neg h2]; simp [h2]

theorem lexLt_irrefl (a : Spec3) : ¬ LexLt a a := by unfold LexLt; omega

theorem lexLt_trans {a b c : Spec3} (h1 : LexLt a b) (h2 : LexLt b c) : LexLt a c := by
  unfold LexLt at *; omega

theorem lexLt_total (a b : Spec3) : LexLt a b ∨ a = b ∨ LexLt b a := by
  obtain ⟨a1, a2, a3⟩ := a
  obtain ⟨b1, b2, b3⟩ := b
  simp only [LexLt, Prod.mk.injEq]
  omega

theorem not_lexLt_trans {a b c : Spec3} (h1 : ¬ LexLt a b) (h2 : ¬ LexLt b c) : ¬ LexLt a c := by
  unfold LexLt at *; omega

/-! ## Stable sort -/

theorem insertMatch_cons (x y : Spec3 × Rule) (ys : List (Spec3 × Rule)) :
    insertMatch x (y :: ys) = if LexLt y.1 x.1 then y :: insertMatch x ys else x :: y :: ys := by
  rw [insertMatch, specLt_some]
  by_cases h : LexLt y.1 x.1 <;> simp [h]

/-- Sorted: no element is smaller than an earlier one. -/
def SortedM (l : List (Spec3 × Rule)) : Prop := l.Pairwise (fun a b => ¬ LexLt b.1 a.1)

theorem mem_insertMatch (x : Spec3 × Rule) (l : List (Spec3 × Rule)) (z : Spec3 × Rule) :
    z ∈ insertMatch x l ↔ z = x ∨ z ∈ l := by
  induction l with
  | nil => simp [insertMatch]
  | cons y ys ih =>
    rw [insertMatch_cons]
    split
    · simp only [List.mem_cons, ih]
      constructor
      · rintro (h | h | h) <;> simp [h]
      · rintro (h | h | h) <;> simp [h]
    · simp

theorem mem_sortMatches (l : List (Spec3 × Rule)) (z : Spec3 × Rule) : z ∈ sortMatches l ↔ z ∈ l := by
  induction l with
  | nil => simp [sortMatches]
  | cons x xs ih => simp [sortMatches, mem_insertMatch, ih]

theorem insertMatch_sorted (x : Spec3 × Rule) (l : List (Spec3 × Rule)) (h : SortedM l) :
    SortedM (insertMatch x l) := by
  induction l with
  | nil => simp [insertMatch, SortedM]
  | cons y ys ih =>
    rw [insertMatch_cons]
    unfold SortedM at h ih
    rw [List.pairwise_cons] at h
    split
    · rename_i hlt
      unfold SortedM
      rw [List.pairwise_cons]
      refine ⟨?_, ih h.2⟩
      intro z hz
      rcases (mem_insertMatch x ys z).1 hz with hz | hz
      · subst hz
        intro hc
        exact lexLt_irrefl _ (lexLt_trans hlt hc)
      · exact h.1 z hz
    · rename_i hnlt
      unfold SortedM
      rw [List.pairwise_cons]
      refine ⟨?_, List.pairwise_cons.2 h⟩
      intro z hz
      rcases List.mem_cons.1 hz with hz | hz
      · subst hz; exact hnlt
      · exact not_lexLt_trans (h.1 z hz) hnlt

theorem sortMatches_sorted (l : List (Spec3 × Rule)) : SortedM (sortMatches l) := by
  induction l with
  | nil => simp [sortMatches, SortedM]
  | cons x xs ih => exact insertMatch_sorted x _ ih

theorem filter_insertMatch (P : Spec3 × Rule → Bool) (x : Spec3 × Rule) (l : List (Spec3 × Rule)) (h : SortedM l) :
    (insertMatch x l).filter P = if P x then insertMatch x (l.filter P) else l.filter P := by
  induction l with
  | nil => by_cases hx : P x <;> simp [insertMatch, hx]
  | cons y ys ih =>
    unfold SortedM at h ih
    rw [List.pairwise_cons] at h
    rw [insertMatch_cons]
    split
    · rename_i hlt
      simp only [List.filter_cons, ih h.2]
      by_cases hy : P y <;> by_cases hx : P x <;> simp [hy, hx, insertMatch_cons, hlt]
    · rename_i hnlt
      by_cases hx : P x
      · simp only [List.filter_cons, hx, if_true]
        by_cases hy : P y
        · simp [hy, insertMatch_cons, hnlt]
        · simp only [hy]
          cases hf : ys.filter P with
          | nil => simp [insertMatch]
          | cons z zs =>
            have hz : z ∈ ys := by
              have : z ∈ ys.filter P := by rw [hf]; simp
              exact (List.mem_filter.1 this).1
            have : ¬ LexLt z.1 x.1 := not_lexLt_trans (h.1 z hz) hnlt
            simp [insertMatch_cons, this]
      · simp [List.filter_cons, hx]

theorem filter_sortMatches (P : Spec3 × Rule → Bool) (l : List (Spec3 × Rule)) :
    (sortMatches l).filter P = sortMatches (l.filter P) := by
  induction l with
  | nil => simp [sortMatches]
  | cons x xs ih =>
    simp only [sortMatches, filter_insertMatch P x _ (sortMatches_sorted xs), ih, List.filter_cons]
    split <;> simp [sortMatches]

theorem getLast_insertMatch (x : Spec3 × Rule) (l : List (Spec3 × Rule)) :
    (insertMatch x l).getLast? = some x ∧ (∀ y ∈ l, LexLt y.1 x.1) ∨
    l ≠ [] ∧ (insertMatch x l).getLast? = l.getLast? ∧ (SortedM l → ∀ w, l.getLast? = some w → ¬ LexLt w.1 x.1) := by
  induction l with
  | nil => simp [insertMatch]
  | cons y ys ih =>
    rw [insertMatch_cons]
    split
    · rename_i hlt
      rcases ih with ⟨h1, h2⟩ | ⟨h1, h2, h3⟩
      · left
        constructor
        · rw [List.getLast?_cons, h1]; simp
        · intro z hz
          rcases List.mem_cons.1 hz with hz | hz
          · subst hz; exact hlt
          · exact h2 z hz
      · right
        refine ⟨by simp, ?_, ?_⟩
        · rw [List.getLast?_cons, List.getLast?_cons, h2]
        · intro hs w hw
          unfold SortedM at hs h3
          rw [List.pairwise_cons] at hs
          apply h3 hs.2
          rw [List.getLast?_cons] at hw
          cases hl : ys.getLast? with
          | none => simp [List.getLast?_eq_none_iff] at hl; contradiction
          | some v => rw [hl] at hw; simpa using hw
    · rename_i hnlt
      right
      refine ⟨by simp, by rw [List.getLast?_cons_cons], ?_⟩
      intro hs w hw
      unfold SortedM at hs
      rw [List.pairwise_cons] at hs
      have hw' : w ∈ y :: ys := List.mem_of_getLast? hw
      rcases List.mem_cons.1 hw' with h | h
      · subst h; exact hnlt
      · exact not_lexLt_trans (hs.1 w h) hnlt

/-- The last element of the sorted list, in terms of the unsorted one. -/
theorem getLast_sortMatches (l : List (Spec3 × Rule)) (w : Spec3 × Rule) (h : (sortMatches l).getLast? = some w) :
    ∃ A B, l = A ++ w :: B ∧ (∀ x ∈ A, ¬ LexLt w.1 x.1) ∧ (∀ y ∈ B, LexLt y.1 w.1) := by
  induction l with
  | nil => simp [sortMatches] at h
  | cons x xs ih =>
    simp only [sortMatches] at h
    rcases getLast_insertMatch x (sortMatches xs) with ⟨h1, h2⟩ | ⟨h1, h2, h3⟩
    · rw [h1] at h
      cases h
      refine ⟨[], xs, rfl, by simp, ?_⟩
      intro y hy
      exact h2 y ((mem_sortMatches xs y).2 hy)
    · rw [h2] at h
      obtain ⟨A, B, hl, hA, hB⟩ := ih h
      refine ⟨x :: A, B, by simp [hl], ?_, hB⟩
      intro z hz
      rcases List.mem_cons.1 hz with hz | hz
      · subst hz; exact h3 (sortMatches_sorted xs) w h
      · exact hA z hz

theorem sortMatches_eq_nil (l : List (Spec3 × Rule)) : sortMatches l = [] ↔ l = [] := by
  constructor
  · intro h
    cases l with
    | nil => rfl
    | cons x xs =>
      have : x ∈ sortMatches (x :: xs) := (mem_sortMatches _ _).2 (by simp)
      rw [h] at this
      simp at this
  · intro h; subst h; rfl

/-! ## Collecting and applying -/

/-- Rule `r` applies with specificity `sp`, as computed. -/
def AppliesM (d : Dom) (p : Par) (r : Rule) (sp : Spec3) : Prop := tagMatches d p r.sels = .ok (true, some sp)

theorem named_eq (s : RSpec) : namedRenderer s = s.renderer := by cases s <;> rfl

theorem given_eq (s : RSpec) : givenSettings s = s.settings := by cases s <;> rfl

theorem ruleSetting_eq (r : Rule) (k : Str) : ruleSetting r k = r.spec.settings.bind (fun s => DictOf.get s k) := by
  rw [ruleSetting, given_eq]

theorem applyMatches_fst (ms : List (Spec3 × Rule)) (r : Option RClass) (s : Dict) :
    (applyMatches ms r s).1 =
      match (ms.filter (fun m => m.2.spec.renderer.isSome)).getLast? with
      | some m => m.2.spec.renderer
      | none => r := by
  induction ms generalizing r s with
  | nil => simp [applyMatches]
  | cons m ms ih =>
    simp only [applyMatches, ih, List.filter_cons]
    cases hr : m.2.spec.renderer with
    | none => simp
    | some c =>
      simp only [Option.isSome_some, if_true, List.getLast?_cons]
      cases (ms.filter (fun m => m.2.spec.renderer.isSome)).getLast? <;> simp [hr]

theorem applyMatches_snd (ms : List (Spec3 × Rule)) (r : Option RClass) (s : Dict) (k : Str)
    (hd : ∀ m ∈ ms, ∀ t, m.2.spec.settings = some t → (t.map Prod.fst).Nodup) :
    DictOf.get (applyMatches ms r s).2 k =
      match (ms.filter (fun m => (ruleSetting m.2 k).isSome)).getLast? with
      | some m => ruleSetting m.2 k
      | none => DictOf.get s k := by
  induction ms generalizing r s with
  | nil => simp [applyMatches]
  | cons m ms ih =>
    have hd' := fun m' hm' => hd m' (List.mem_cons_of_mem _ hm')
    simp only [applyMatches, ih _ _ hd', List.filter_cons]
    cases hr : ruleSetting m.2 k with
    | none =>
      simp only [Option.isSome_none, Bool.false_eq_true, if_false]
      cases (ms.filter (fun m => (ruleSetting m.2 k).isSome)).getLast? with
      | some w => rfl
      | none =>
        cases hs : m.2.spec.settings with
        | none => rfl
        | some t =>
          simp only [ruleSetting_eq, hs, Option.bind_some] at hr
          simp [DictOf.get_update_nodup _ _ (hd m (by simp) t hs), hr]
    | some v =>
      simp only [Option.isSome_some, if_true, List.getLast?_cons]
      cases (ms.filter (fun m => (ruleSetting m.2 k).isSome)).getLast? with
      | some w => rfl
      | none =>
        cases hs : m.2.spec.settings with
        | none => simp [ruleSetting_eq, hs] at hr
        | some t =>
          have hr' := hr
          simp only [ruleSetting_eq, hs, Option.bind_some] at hr
          simp [DictOf.get_update_nodup _ _ (hd m (by simp) t hs), hr, hr']

/-- `(true, none)` is not a result of `tagMatches`. -/
theorem tagMatchesLoop_some (d : Dom) (p : Par) (sels : List Selector) (m : Bool) (b : Option Spec3)
    (h : m = b.isSome) {m' b'} (hr : tagMatchesLoop d p sels m b = .ok (m', b')) : m' = b'.isSome := by
  induction sels generalizing m b with
  | nil => simp [tagMatchesLoop] at hr; obtain ⟨rfl, rfl⟩ := hr; exact h
  | cons s ss ih =>
    simp only [tagMatchesLoop, bind, Except.bind] at hr
    cases hm : selMatch d s.tree p with
    | error e => simp [hm] at hr
    | ok v =>
      rw [hm] at hr
      cases v with
      | false => simp at hr; exact ih _ _ h hr
      | true =>
        simp only [if_true] at hr
        cases hs : moreSpecific (some s.spec) b with
        | error e => simp [hs] at hr
        | ok w =>
          rw [hs] at hr
          cases w with
          | false => simp at hr; exact ih _ _ h hr
          | true => simp at hr; exact ih true (some s.spec) rfl hr

theorem moreSpecific_some (a : Spec3) (b : Option Spec3) :
    moreSpecific (some a) b = .ok (match b with | none => true | some b => decide (LexLt b a)) := by
  cases b with
  | none => rfl
  | some b =>
    simp only [moreSpecific, compareSpecificity_some, Except.map]
    congr 1
    rw [decide_eq_decide]
    by_cases h1 : LexLt b a
    · rw [if_pos h1]; simp [h1]
    · rw [if_neg h1]
      by_cases h2 : LexLt a b
      · rw [if_pos h2]; simp [h1]
      · rw [if_neg h2]; simp [h1]

/-- What the loop over the alternatives returns, starting from a best so far. -/
theorem tagMatchesLoop_best (d : Dom) (p : Par) (sels : List Selector) (m : Bool) (b : Option Spec3) (m' b')
    (hr : tagMatchesLoop d p sels m b = .ok (m', b')) :
    (∀ s ∈ sels, ∃ v, selMatch d s.tree p = .ok v) ∧
    (∀ sp, b' = some sp → (b = some sp ∨ ∃ s ∈ sels, selMatch d s.tree p = .ok true ∧ s.spec = sp) ∧
      (∀ s ∈ sels, selMatch d s.tree p = .ok true → ¬ LexLt sp s.spec) ∧ (∀ sp', b = some sp' → ¬ LexLt sp sp')) ∧
    (b' = none → b = none ∧ ∀ s ∈ sels, selMatch d s.tree p = .ok false) := by
  induction sels generalizing m b with
  | nil =>
    simp [tagMatchesLoop] at hr
    obtain ⟨rfl, rfl⟩ := hr
    refine ⟨by simp, ?_, by simp⟩
    intro sp h
    refine ⟨Or.inl h, by simp, ?_⟩
    intro sp' h'
    rw [h] at h'
    cases h'
    exact lexLt_irrefl sp
  | cons s ss ih =>
    simp only [tagMatchesLoop, bind, Except.bind] at hr
    cases hm : selMatch d s.tree p with
    | error e => simp [hm] at hr
    | ok v =>
      rw [hm] at hr
      cases v with
      | false =>
        simp at hr
        obtain ⟨h1, h2, h3⟩ := ih _ _ hr
        refine ⟨?_, ?_, ?_⟩
        · intro t ht
          rcases List.mem_cons.1 ht with e | e
          · subst e; exact ⟨_, hm⟩
          · exact h1 t e
        · intro sp hsp
          obtain ⟨h4, h5, h6⟩ := h2 sp hsp
          refine ⟨?_, ?_, h6⟩
          · rcases h4 with h4 | ⟨t, ht, h4⟩
            · exact Or.inl h4
            · exact Or.inr ⟨t, List.mem_cons_of_mem _ ht, h4⟩
          · intro t ht htm
            rcases List.mem_cons.1 ht with e | e
            · subst e; rw [hm] at htm; cases htm
            · exact h5 t e htm
        · intro hb
          obtain ⟨h4, h5⟩ := h3 hb
          refine ⟨h4, ?_⟩
          intro t ht
          rcases List.mem_cons.1 ht with e | e
          · subst e; exact hm
          · exact h5 t e
      | true =>
        simp only [if_true, moreSpecific_some] at hr
        have key : ∃ m2 b2, tagMatchesLoop d p ss m2 (some b2) = .ok (m', b') ∧ (b = some b2 ∨ b2 = s.spec) ∧
            ¬ LexLt b2 s.spec ∧ (∀ sp', b = some sp' → ¬ LexLt b2 sp') := by
          cases b with
          | none => exact ⟨_, _, hr, Or.inr rfl, lexLt_irrefl _, by simp⟩
          | some b =>
            simp only at hr
            by_cases hlt : LexLt b s.spec
            · simp [hlt] at hr
              refine ⟨_, _, hr, Or.inr rfl, lexLt_irrefl _, ?_⟩
              intro sp' h; cases h
              intro hc; exact lexLt_irrefl _ (lexLt_trans hlt hc)
            · simp [hlt] at hr
              refine ⟨_, _, hr, Or.inl rfl, hlt, ?_⟩
              intro sp' h; cases h
              exact lexLt_irrefl _
        obtain ⟨m2, b2, hr2, hb2, hle, hbb⟩ := key
        obtain ⟨h1, h2, h3⟩ := ih _ _ hr2
        refine ⟨?_, ?_, ?_⟩
        · intro t ht
          rcases List.mem_cons.1 ht with e | e
          · subst e; exact ⟨_, hm⟩
          · exact h1 t e
        · intro sp hsp
          obtain ⟨h4, h5, h6⟩ := h2 sp hsp
          refine ⟨?_, ?_, ?_⟩
          · rcases h4 with h4 | ⟨t, ht, h4⟩
            · cases h4
              rcases hb2 with h | h
              · exact Or.inl h
              · exact Or.inr ⟨s, by simp, hm, h.symm⟩
            · exact Or.inr ⟨t, List.mem_cons_of_mem _ ht, h4⟩
          · intro t ht htm
            rcases List.mem_cons.1 ht with e | e
            · subst e; exact not_lexLt_trans (h6 b2 rfl) hle
            · exact h5 t e htm
          · intro sp' hsp'
            exact not_lexLt_trans (h6 b2 rfl) (hbb sp' hsp')
        · intro hb
          have := (h3 hb).1
          cases this

theorem tagMatches_iff (d : Dom) (p : Par) (r : Rule) (v) (h : tagMatches d p r.sels = .ok v) (sp : Spec3) :
    AppliesM d p r sp ↔ Applies d p r sp := by
  obtain ⟨m, b⟩ := v
  have hs := tagMatchesLoop_some d p r.sels false none rfl h
  obtain ⟨h1, h2, h3⟩ := tagMatchesLoop_best d p r.sels false none m b h
  unfold AppliesM Applies
  rw [h]
  cases b with
  | none =>
    simp only [Except.ok.injEq, Prod.mk.injEq, reduceCtorEq, and_false, false_iff]
    rintro ⟨⟨s, hs, hm, -⟩, -⟩
    rw [(h3 rfl).2 s hs] at hm
    cases hm
  | some b =>
    obtain ⟨h4, h5, -⟩ := h2 b rfl
    simp at hs
    subst hs
    simp only [Except.ok.injEq, Prod.mk.injEq, true_and, Option.some.injEq]
    constructor
    · rintro rfl
      rcases h4 with h4 | h4
      · cases h4
      · exact ⟨h4, h5⟩
    · rintro ⟨⟨s, hs, hm, rfl⟩, hmax⟩
      rcases h4 with h4 | ⟨t, ht, htm, rfl⟩
      · cases h4
      · rcases lexLt_total t.spec s.spec with h | h | h
        · exact absurd h (h5 s hs hm)
        · exact h
        · exact absurd h (hmax t ht htm)

/-- The collected matches are the rules that apply, in table order. -/
theorem collectMatches_mem (d : Dom) (p : Par) (rules : List Rule) (ms : List (Spec3 × Rule))
    (h : collectMatches d p rules = .ok ms) (A B : List (Spec3 × Rule)) (w : Spec3 × Rule) (hms : ms = A ++ w :: B) :
    ∃ RA RB, rules = RA ++ w.2 :: RB ∧ AppliesM d p w.2 w.1 ∧
      (∀ r ∈ RA, ∀ sp, AppliesM d p r sp → (sp, r) ∈ A) ∧ (∀ r ∈ RB, ∀ sp, AppliesM d p r sp → (sp, r) ∈ B) := by
  induction rules generalizing ms A B with
  | nil => simp [collectMatches] at h; subst h; simp at hms
  | cons r rs ih =>
    simp only [collectMatches, bind, Except.bind] at h
    cases ht : tagMatches d p r.sels with
    | error e => simp [ht] at h
    | ok v =>
      rw [ht] at h
      obtain ⟨m, b⟩ := v
      have hmb := tagMatchesLoop_some d p r.sels false none rfl ht
      cases b with
      | none =>
        simp at hmb
        subst hmb
        simp only at h
        obtain ⟨RA, RB, h1, h2, h3, h4⟩ := ih ms h A B hms
        refine ⟨r :: RA, RB, by simp [h1], h2, ?_, h4⟩
        intro r' hr' sp hsp
        rcases List.mem_cons.1 hr' with e | e
        · subst e; rw [AppliesM, ht] at hsp; simp at hsp
        · exact h3 r' e sp hsp
      | some sp =>
        simp at hmb
        subst hmb
        simp only at h
        cases hc : collectMatches d p rs with
        | error e => simp [hc] at h
        | ok ms' =>
          rw [hc] at h
          simp only [pure, Except.pure, Except.ok.injEq] at h
          subst h
          cases A with
          | nil =>
            simp only [List.nil_append, List.cons.injEq] at hms
            obtain ⟨rfl, rfl⟩ := hms
            refine ⟨[], rs, rfl, ht, by simp, ?_⟩
            intro r' hr' sp' hsp'
            clear ih
            -- every applying rule is collected
            revert hc
            generalize ms' = ms'
            induction rs generalizing ms' with
            | nil => simp at hr'
            | cons q qs ihq =>
              intro hc
              simp only [collectMatches, bind, Except.bind] at hc
              cases hq : tagMatches d p q.sels with
              | error e => simp [hq] at hc
              | ok v =>
                rw [hq] at hc
                obtain ⟨m2, b2⟩ := v
                have hmb2 := tagMatchesLoop_some d p q.sels false none rfl hq
                cases b2 with
                | none =>
                  simp at hmb2; subst hmb2
                  simp only at hc
                  rcases List.mem_cons.1 hr' with e | e
                  · subst e; rw [AppliesM, hq] at hsp'; simp at hsp'
                  · exact ihq e _ hc
                | some sp2 =>
                  simp at hmb2; subst hmb2
                  simp only at hc
                  cases hcq : collectMatches d p qs with
                  | error e => simp [hcq] at hc
                  | ok ms2 =>
                    rw [hcq] at hc
                    simp only [pure, Except.pure, Except.ok.injEq] at hc
                    subst hc
                    rcases List.mem_cons.1 hr' with e | e
                    · subst e
                      rw [AppliesM, hq] at hsp'
                      simp at hsp'
                      subst hsp'
                      simp
                    · exact List.mem_cons_of_mem _ (ihq e _ hcq)
          | cons a A =>
            simp only [List.cons_append, List.cons.injEq] at hms
            obtain ⟨rfl, hms⟩ := hms
            obtain ⟨RA, RB, h1, h2, h3, h4⟩ := ih ms' hc A B hms
            refine ⟨r :: RA, RB, by simp [h1], h2, ?_, h4⟩
            intro r' hr' sp' hsp'
            rcases List.mem_cons.1 hr' with e | e
            · subst e
              rw [AppliesM, ht] at hsp'
              simp at hsp'
              subst hsp'
              simp
            · exact List.mem_cons_of_mem _ (h3 r' e sp' hsp')

theorem collectMatches_complete (d : Dom) (p : Par) (rules : List Rule) (ms : List (Spec3 × Rule))
    (h : collectMatches d p rules = .ok ms) (r : Rule) (hr : r ∈ rules) (sp : Spec3) (ha : AppliesM d p r sp) :
    (sp, r) ∈ ms := by
  induction rules generalizing ms with
  | nil => simp at hr
  | cons q qs ih =>
    simp only [collectMatches, bind, Except.bind] at h
    cases hq : tagMatches d p q.sels with
    | error e => simp [hq] at h
    | ok v =>
      rw [hq] at h
      obtain ⟨m2, b2⟩ := v
      have hmb2 := tagMatchesLoop_some d p q.sels false none rfl hq
      cases b2 with
      | none =>
        simp at hmb2; subst hmb2
        simp only at h
        rcases List.mem_cons.1 hr with e | e
        · subst e; rw [AppliesM, hq] at ha; simp at ha
        · exact ih _ h e
      | some sp2 =>
        simp at hmb2; subst hmb2
        simp only at h
        cases hcq : collectMatches d p qs with
        | error e => simp [hcq] at h
        | ok ms2 =>
          rw [hcq] at h
          simp only [pure, Except.pure, Except.ok.injEq] at h
          subst h
          rcases List.mem_cons.1 hr with e | e
          · subst e
            rw [AppliesM, hq] at ha
            simp at ha
            subst ha
            simp
          · exact List.mem_cons_of_mem _ (ih _ hcq e)

theorem collectMatches_sound (d : Dom) (p : Par) (rules : List Rule) (ms : List (Spec3 × Rule))
    (h : collectMatches d p rules = .ok ms) (m : Spec3 × Rule) (hm : m ∈ ms) :
    m.2 ∈ rules ∧ AppliesM d p m.2 m.1 := by
  obtain ⟨A, B, hAB⟩ := List.append_of_mem hm
  obtain ⟨RA, RB, h1, h2, -, -⟩ := collectMatches_mem d p rules ms h A B m hAB
  exact ⟨by simp [h1], h2⟩

theorem collectMatches_ok (d : Dom) (p : Par) (rules : List Rule) (ms : List (Spec3 × Rule))
    (h : collectMatches d p rules = .ok ms) (r : Rule) (hr : r ∈ rules) : ∃ v, tagMatches d p r.sels = .ok v := by
  induction rules generalizing ms with
  | nil => simp at hr
  | cons q qs ih =>
    simp only [collectMatches, bind, Except.bind] at h
    cases hq : tagMatches d p q.sels with
    | error e => simp [hq] at h
    | ok v =>
      rcases List.mem_cons.1 hr with e | e
      · subst e; exact ⟨v, hq⟩
      · rw [hq] at h
        simp only at h
        split at h
        · cases hcq : collectMatches d p qs with
          | error e => simp [hcq] at h
          | ok ms2 => exact ih _ hcq e
        · exact ih _ h e

/-- The winner among the rules with a property is the last of the sorted matches that have it. -/
theorem wins_of_getLast (d : Dom) (p : Par) (rules : List Rule) (ms : List (Spec3 × Rule))
    (h : collectMatches d p rules = .ok ms) (P : Rule → Bool) (w : Spec3 × Rule)
    (hw : ((sortMatches ms).filter (fun m => P m.2)).getLast? = some w) : Wins d p rules (fun r => P r = true) w.2 := by
  have hPw : P w.2 = true := (List.mem_filter.1 (List.mem_of_getLast? hw)).2
  rw [filter_sortMatches] at hw
  obtain ⟨A, B, hAB, hA, hB⟩ := getLast_sortMatches _ _ hw
  obtain ⟨A', B', hms, hfA, hfB⟩ : ∃ A' B', ms = A' ++ w :: B' ∧ A'.filter (fun m => P m.2) = A ∧
      B'.filter (fun m => P m.2) = B := by
    rw [List.filter_eq_append_iff] at hAB
    obtain ⟨l1, l2, e, h1, h2⟩ := hAB
    rw [List.filter_eq_cons_iff] at h2
    obtain ⟨l3, l4, e2, h3, h4, h5⟩ := h2
    refine ⟨l1 ++ l3, l4, by simp [e, e2], ?_, h5⟩
    rw [List.filter_append, h1]
    have : l3.filter (fun m => P m.2) = [] := by
      rw [List.filter_eq_nil_iff]; exact h3
    simp [this]
  obtain ⟨RA, RB, h1, h2, h3, h4⟩ := collectMatches_mem d p rules ms h A' B' w hms
  have hiff : ∀ r ∈ rules, ∀ sp, AppliesM d p r sp ↔ Applies d p r sp := by
    intro r hr sp
    obtain ⟨v, hv⟩ := collectMatches_ok d p rules ms h r hr
    exact tagMatches_iff d p r v hv sp
  refine ⟨RA, RB, w.1, h1, hPw, (hiff w.2 (by simp [h1]) w.1).1 h2, ?_, ?_⟩
  · intro r hr sp hP ha
    have := h3 r hr sp ((hiff r (by simp [h1, hr]) sp).2 ha)
    exact hA (sp, r) (by rw [← hfA]; exact List.mem_filter.2 ⟨this, hP⟩)
  · intro r hr sp hP ha
    have := h4 r hr sp ((hiff r (by simp [h1, hr]) sp).2 ha)
    exact hB (sp, r) (by rw [← hfB]; exact List.mem_filter.2 ⟨this, hP⟩)

end Verif
