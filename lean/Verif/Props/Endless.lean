import Verif.Spec.Endless
import Verif.Props.Wrap
import Verif.Props.Fewest

/-!
# C19: exactly when wrapping does not end
-/

namespace Verif

open Spec

theorem measure_cons (c : Str) (cs : List Str) : measure (c :: cs) = c.length + 1 + measure cs := by
  unfold measure; simp; omega

theorem visible_sumLen (u : Uni) (cs : List Str) : visible u cs = sumLen u cs := by
  induction cs with
  | nil => rfl
  | cons c cs ih => simp only [visible, List.map_cons, List.sum_cons, sumLen] at ih ⊢; rw [ih]

/-- A line that is too short for its indent takes one character. -/
theorem round_negative {u : Uni} {o : WrapOpts} {le : Bool} {w : Int} {lead taken left taken' chunks cur rest : List Str}
    (r : Round u o le w lead taken left taken' chunks cur rest) (hw : w < 0) (hb : o.breakLong = true) :
    taken = [] ∧ (left = [] ∧ taken' = [] ∧ rest = [] ∨ ∃ c cs, left = c :: cs ∧ taken' = [pyTake c 1] ∧ rest = pyDrop c 1 :: cs) := by
  have ht : taken = [] := by
    rcases r.fit with h | h
    · exact h
    · have := sumLen_nonneg u taken; omega
  refine ⟨ht, ?_⟩
  cases hl : left with
  | nil =>
    left
    have h := r.broken
    rw [hl, ht] at h
    cases h with
    | fits _ => exact ⟨rfl, rfl, rfl⟩
    | cut c cs hr => cases hr
    | whole c cs hr => cases hr
    | later c cs hr => cases hr
  | cons c cs =>
    right
    have h := r.broken
    rw [hl, ht] at h
    cases h with
    | fits hf => have := hf c cs rfl; have := vlen_nonneg u c; omega
    | cut c' cs' hr hl' hb' e he =>
      cases hr
      rw [if_pos (by omega)] at he
      have := cutPos_bounds o 1 c (by omega)
      have : e = 1 := by rw [he]; omega
      subst this
      exact ⟨c, cs, rfl, rfl, rfl⟩
    | whole c' cs' hr hl' hb' => rw [hb] at hb'; cases hb'
    | later c' cs' hr hl' hb' => rw [hb] at hb'; cases hb'

theorem pyTake_one (c : Char) (s : Str) : pyTake (c :: s) 1 = [c] := by simp [pyTake, clampIdx]

theorem allowed_always (o : WrapOpts) (hm : o.maxLines = none) (n : Nat) (a b : Int) (l : List Str) : lineAllowed o n a b l = true := by
  unfold lineAllowed; rw [hm]

/-- After the first line wrapping ends if whitespace is dropped. -/
theorem ends_later (u : Uni) (o : WrapOpts) (hd : o.dropWs = true) (f : Nat) (lines chunks : List Str) (hl : lines ≠ [])
    (hf : measure chunks ≤ f) : ∃ out, wrapLoop u o f lines chunks = .ok out := by
  induction f generalizing lines chunks with
  | zero =>
    cases chunks with
    | nil => exact ⟨lines, wrapLoop_nil u o 0 lines⟩
    | cons c cs => unfold measure at hf; simp at hf
  | succ f ih =>
    by_cases hne : chunks = []
    · subst hne; exact ⟨lines, wrapLoop_nil u o _ lines⟩
    · obtain ⟨cur, rest, lead, taken, left, taken', hr, h2⟩ := wrapLoop_step u o f lines chunks hne
      have hle : lines.isEmpty = false := by cases lines with | nil => exact absurd rfl hl | cons _ _ => rfl
      have hp : measure rest < measure chunks := by
        by_cases hw : 0 ≤ o.width - len (indentAfter o lines) ∨ o.breakLong = false
        · exact round_progress hr hne hw
        · have hb : o.breakLong = true := by
            cases h : o.breakLong with
            | true => rfl
            | false => exact absurd (.inr h) hw
          obtain ⟨ht, h⟩ := round_negative hr (by have : ¬ 0 ≤ o.width - len (indentAfter o lines) := fun h => hw (.inl h); omega) hb
          have hs := hr.split
          rw [ht, List.nil_append] at hs
          have hms : measure chunks = measure lead + measure left := by rw [hs, measure_append]
          rcases h with ⟨h1, -, h3⟩ | ⟨c, cs, h1, -, h3⟩
          · rw [h3]
            have : 0 < chunks.length := List.length_pos_iff.2 hne
            have : measure ([] : List Str) = 0 := rfl
            unfold measure at this ⊢
            omega
          · rw [h3, hms, h1, measure_cons, measure_cons]
            have hdl := pyDrop_len_le c 1
            rcases hr.leadOk with h | ⟨l, h, -⟩
            · have hcne : strip c ≠ [] := hr.noLead h hd hle c cs (by rw [hs, h, h1]; rfl)
              have hc : c ≠ [] := by rintro rfl; exact hcne rfl
              have := pyDrop_len c 1 (by omega) hc
              omega
            · rw [h, measure_cons]
              omega
      rw [h2]
      split
      · exact ih _ _ hl (by omega)
      · split
        · exact ih _ _ (by simp) (by omega)
        · exact ⟨_, rfl⟩

/-- So it ends if the first line is long enough, or if the text does not begin with whitespace. -/
theorem ends_first (u : Uni) (o : WrapOpts) (hd : o.dropWs = true) (f : Nat) (chunks : List Str)
    (h : len o.initialIndent ≤ o.width ∨ ∀ c r, chunks = c :: r → ¬ Blank c) (hf : measure chunks ≤ f) :
    ∃ out, wrapLoop u o f [] chunks = .ok out := by
  induction f generalizing chunks with
  | zero =>
    cases chunks with
    | nil => exact ⟨[], wrapLoop_nil u o 0 []⟩
    | cons c cs => unfold measure at hf; simp at hf
  | succ f ih =>
    by_cases hne : chunks = []
    · subst hne; exact ⟨[], wrapLoop_nil u o _ []⟩
    · obtain ⟨cur, rest, lead, taken, left, taken', hr, h2⟩ := wrapLoop_step u o f [] chunks hne
      have key : measure rest < measure chunks ∧
          (cur = [] → len o.initialIndent ≤ o.width ∨ ∀ c r, rest = c :: r → ¬ Blank c) := by
        have hi : indentAfter o [] = o.initialIndent := rfl
        rw [hi] at hr
        by_cases hw : 0 ≤ o.width - len o.initialIndent ∨ o.breakLong = false
        · refine ⟨round_progress hr hne hw, fun hc => ?_⟩
          by_cases hi : len o.initialIndent ≤ o.width
          · exact .inl hi
          · right
            have hb : o.breakLong = false := by
              rcases hw with h | h
              · omega
              · exact h
            -- without breaking, the first chunk alone is on the line
            have ht : taken = [] := by
              rcases hr.fit with h | h
              · exact h
              · have := sumLen_nonneg u taken; omega
            have hlead : lead = [] := by
              rcases hr.leadOk with h | ⟨l, -, -, -, h⟩
              · exact h
              · cases h
            have hs := hr.split
            rw [ht, hlead, List.nil_append, List.nil_append] at hs
            have hbk := hr.broken
            rw [ht] at hbk
            have hnb : ∀ c r, chunks = c :: r → ¬ Blank c := by
              rcases h with h | h
              · exact absurd h hi
              · exact h
            cases hbk with
            | fits hf' =>
              intro c r e
              exact hnb c r (by rw [hs, e])
            | cut c cs h1 h2 h3 => rw [hb] at h3; cases h3
            | whole c cs h1 h2 h3 h4 =>
              have htr := hr.trimmed
              rw [hc] at htr
              cases htr with
              | drop t' l hd' ht' hl' =>
                have : l = c := by simpa using ht'.symm
                subst this
                exact absurd ((strip_nil_iff l).1 hl') (hnb l _ (by rw [hs, h1]))
            | later c cs h1 h2 h3 h4 => exact absurd rfl h4
        · have hb : o.breakLong = true := by
            cases h : o.breakLong with
            | true => rfl
            | false => exact absurd (.inr h) hw
          have hneg : o.width - len o.initialIndent < 0 := by
            have : ¬ 0 ≤ o.width - len o.initialIndent := fun h => hw (.inl h)
            omega
          obtain ⟨ht, h'⟩ := round_negative hr hneg hb
          have hlead : lead = [] := by
            rcases hr.leadOk with h | ⟨l, -, -, -, h⟩
            · exact h
            · cases h
          have hs := hr.split
          rw [ht, hlead, List.nil_append, List.nil_append] at hs
          have hnb : ∀ c r, chunks = c :: r → ¬ Blank c := by
            rcases h with h | h
            · omega
            · exact h
          rcases h' with ⟨h1, -, -⟩ | ⟨c, cs, h1, h2, h3⟩
          · exact absurd (hs.trans h1) hne
          · have hc := hnb c cs (hs.trans h1)
            have hcne : c ≠ [] := by rintro rfl; exact hc (by intro x hx; cases hx)
            refine ⟨?_, fun hcur => .inr ?_⟩
            · rw [hs, h1, h3, measure_cons, measure_cons]
              have := pyDrop_len c 1 (by omega) hcne
              omega
            · intro c' r' e hbl
              rw [h3] at e
              cases e
              have htr := hr.trimmed
              rw [hcur, h2] at htr
              cases htr with
              | drop t' l hd' ht' hl' =>
                have : l = pyTake c 1 := by simpa using ht'.symm
                subst this
                apply hc
                rw [← take_drop c 1]
                intro x hx
                rcases List.mem_append.1 hx with hx | hx
                · exact (strip_nil_iff _).1 hl' x hx
                · exact hbl x hx
      rw [h2]
      split
      · rename_i hc
        exact ih _ (key.2 hc) (by omega)
      · split
        · exact ends_later u o hd _ _ _ (by simp) (by omega)
        · exact ⟨_, rfl⟩

/-- Whitespace at the beginning of a line that is too short for its indent is dropped for ever. -/
theorem never_first (u : Uni) (o : WrapOpts) (hb : o.breakLong = true) (hd : o.dropWs = true) (hi : o.width < len o.initialIndent) (f : Nat)
    (c : Str) (cs : List Str) (hc : Blank c) : wrapLoop u o f [] (c :: cs) = .error .diverge := by
  induction f generalizing c with
  | zero => rfl
  | succ f ih =>
    obtain ⟨cur, rest, lead, taken, left, taken', hr, h2⟩ := wrapLoop_step u o f [] (c :: cs) (by simp)
    have hi' : indentAfter o [] = o.initialIndent := rfl
    rw [hi'] at hr
    obtain ⟨ht, h'⟩ := round_negative hr (by omega) hb
    have hlead : lead = [] := by
      rcases hr.leadOk with h | ⟨l, -, -, -, h⟩
      · exact h
      · cases h
    have hs := hr.split
    rw [ht, hlead, List.nil_append, List.nil_append] at hs
    rcases h' with ⟨h1, -, -⟩ | ⟨c', cs', h1, h3, h4⟩
    · rw [h1] at hs; cases hs
    · rw [h1] at hs
      cases hs
      have hbt : Blank (pyTake c 1) ∧ Blank (pyDrop c 1) := by
        constructor <;> intro x hx <;> refine hc x ?_ <;> rw [← take_drop c 1]
        · exact List.mem_append_left _ hx
        · exact List.mem_append_right _ hx
      have hcur : cur = [] := by
        have htr := hr.trimmed
        rw [h3] at htr
        cases htr with
        | keep h => exact absurd ((strip_nil_iff _).2 hbt.1) (h hd _ rfl)
        | drop t' l _ ht' _ => cases cur with
          | nil => rfl
          | cons x t' => simp at ht'
      rw [h2, if_pos hcur, h4]
      exact ih _ hbt.2

/-- If whitespace is kept, every line that is too short for its indent leaves something for the next. -/
theorem never_later (u : Uni) (o : WrapOpts) (hm : o.maxLines = none) (hb : o.breakLong = true) (hd : o.dropWs = false)
    (hi : o.width < len o.subsequentIndent) (f : Nat) (lines chunks : List Str) (hl : lines ≠ []) (hne : chunks ≠ []) :
    wrapLoop u o f lines chunks = .error .diverge := by
  induction f generalizing lines chunks with
  | zero =>
    cases chunks with
    | nil => exact absurd rfl hne
    | cons c cs => rfl
  | succ f ih =>
    obtain ⟨cur, rest, lead, taken, left, taken', hr, h2⟩ := wrapLoop_step u o f lines chunks hne
    have hi' : indentAfter o lines = o.subsequentIndent := by
      unfold indentAfter; cases lines with | nil => exact absurd rfl hl | cons _ _ => rfl
    rw [hi'] at hr
    obtain ⟨ht, h'⟩ := round_negative hr (by omega) hb
    have hlead : lead = [] := by
      rcases hr.leadOk with h | ⟨l, -, -, h, -⟩
      · exact h
      · rw [hd] at h; cases h
    have hs := hr.split
    rw [ht, hlead, List.nil_append, List.nil_append] at hs
    rcases h' with ⟨h1, -, -⟩ | ⟨c, cs, h1, h3, h4⟩
    · exact absurd (hs.trans h1) hne
    · have hcur : cur = [pyTake c 1] := by
        have htr := hr.trimmed
        rw [h3] at htr
        cases htr with
        | keep h => rfl
        | drop t' l hd' => rw [hd] at hd'; cases hd'
      rw [h2, if_neg (by rw [hcur]; simp), if_pos (allowed_always o hm ..), h4]
      exact ih _ _ (by simp) (by simp)

theorem later_long_enough (u : Uni) (o : WrapOpts) (hs : len o.subsequentIndent ≤ o.width) (f : Nat) (lines chunks : List Str) (hl : lines ≠ [])
    (hf : measure chunks ≤ f) : ∃ out, wrapLoop u o f lines chunks = .ok out := by
  induction f generalizing lines chunks with
  | zero =>
    cases chunks with
    | nil => exact ⟨lines, wrapLoop_nil u o 0 lines⟩
    | cons c cs => unfold measure at hf; simp at hf
  | succ f ih =>
    by_cases hne : chunks = []
    · subst hne; exact ⟨lines, wrapLoop_nil u o _ lines⟩
    · obtain ⟨cur, rest, _, _, _, _, hr, h2⟩ := wrapLoop_step u o f lines chunks hne
      have hi' : indentAfter o lines = o.subsequentIndent := by
        unfold indentAfter; cases lines with | nil => exact absurd rfl hl | cons _ _ => rfl
      have hp : measure rest < measure chunks := round_progress hr hne (.inl (by rw [hi']; omega))
      rw [h2]
      split
      · exact ih _ _ hl (by omega)
      · split
        · exact ih _ _ (by simp) (by omega)
        · exact ⟨_, rfl⟩

/-- If whitespace is kept, then the first line takes everything or leaves something. -/
theorem kept_first (u : Uni) (o : WrapOpts) (hm : o.maxLines = none) (hb : o.breakLong = true) (hd : o.dropWs = false) (chunks : List Str)
    (hne : chunks ≠ []) (hcs : ∀ c ∈ chunks, c ≠ []) :
    (visible u chunks ≤ o.width - len o.initialIndent → ∀ f, ∃ out, wrapLoop u o (f + 1) [] chunks = .ok out) ∧
    (o.width - len o.initialIndent < visible u chunks → ∃ line rest, rest ≠ [] ∧ measure rest < measure chunks ∧
      ∀ f, wrapLoop u o (f + 1) [] chunks = wrapLoop u o f [line] rest) := by
  obtain ⟨cur, rest, h1, lead, taken, left, taken', hr⟩ := nextLine_spec u o true (o.width - len o.initialIndent) chunks
  have step : ∀ f, wrapLoop u o (f + 1) [] chunks = if cur = [] then wrapLoop u o f [] rest else wrapLoop u o f [o.initialIndent ++ cur.flatten] rest := by
    intro f
    cases chunks with
    | nil => exact absurd rfl hne
    | cons c cs =>
      have hi' : lineIndent o true = o.initialIndent := rfl
      simp only [wrapLoop, List.isEmpty_nil, hi', h1, allowed_always o hm, if_true, List.nil_append]
      cases cur <;> simp
  have hlead : lead = [] := by
    rcases hr.leadOk with h | ⟨l, -, -, -, h⟩
    · exact h
    · cases h
  have hs := hr.split
  rw [hlead, List.nil_append] at hs
  have hcur : cur = taken' := by
    cases hr.trimmed with
    | keep h => rfl
    | drop t' l hd' => rw [hd] at hd'; cases hd'
  have hsum : visible u chunks = sumLen u taken + sumLen u left := by rw [visible_sumLen, hs, sumLen_append]
  constructor
  · intro hle f
    have hleft : left = [] := by
      cases hl : left with
      | nil => rfl
      | cons c r =>
        have h := hr.full c r hl
        rw [hsum, hl] at hle
        have := sumLen_nonneg u r
        simp only [sumLen] at hle
        omega
    have hrest : rest = [] := by
      have hbk := hr.broken
      rw [hleft] at hbk
      cases hbk with
      | fits _ => rfl
      | cut c cs h => cases h
      | whole c cs h => cases h
      | later c cs h => cases h
    rw [step, hrest]
    split
    · exact ⟨_, wrapLoop_nil ..⟩
    · exact ⟨_, wrapLoop_nil ..⟩
  · intro hlt
    have hleft : left ≠ [] := by
      intro hl
      rw [hl, List.append_nil] at hs
      rw [hsum, hl] at hlt
      simp only [sumLen] at hlt
      rcases hr.fit with h | h
      · exact hne (hs.trans h)
      · omega
    obtain ⟨c, r, hl⟩ := List.exists_cons_of_ne_nil hleft
    have key : cur ≠ [] ∧ rest ≠ [] ∧ measure rest < measure chunks := by
      rw [hcur]
      by_cases hw : 0 ≤ o.width - len o.initialIndent
      · have hp := round_progress hr hne (.inl hw)
        have hbk := hr.broken
        cases hbk with
        | fits hf =>
          refine ⟨?_, hleft, hp⟩
          rintro rfl
          have h1 := hf c r hl
          have h2 := hr.full c r hl
          simp only [sumLen] at h2
          omega
        | cut c cs h => exact ⟨by simp, by simp, hp⟩
        | whole c cs h1 h2 h3 => rw [hb] at h3; cases h3
        | later c cs h1 h2 h3 => rw [hb] at h3; cases h3
      · obtain ⟨ht, h'⟩ := round_negative hr (by omega) hb
        rcases h' with ⟨h, -, -⟩ | ⟨c', cs', h1, h3, h4⟩
        · exact absurd h hleft
        · rw [h3, h4]
          refine ⟨by simp, by simp, ?_⟩
          rw [ht, List.nil_append, h1] at hs
          rw [hs, measure_cons, measure_cons]
          have := pyDrop_len c' 1 (by omega) (hcs c' (by rw [hs]; simp))
          omega
    exact ⟨_, rest, key.2.1, key.2.2, fun f => by rw [step, if_neg key.1]⟩

theorem chunkGo_ne (u : Uni) (b : Str) (m : ChunkMode) (cur s : Str) (h : m = .fresh ∨ cur ≠ []) : ∀ c ∈ chunkGo u b m cur s, c ≠ [] := by
  induction s generalizing b m cur with
  | nil =>
    cases m with
    | fresh => simp [chunkGo]
    | ws | dash | word =>
      rcases h with h | h
      · cases h
      · simp [chunkGo, h]
  | cons x r ih =>
    cases m with
    | fresh => simp only [chunkGo]; exact ih _ _ _ (.inr (by simp))
    | ws =>
      have h := h.resolve_left (by simp)
      simp only [chunkGo]
      split
      · exact ih _ _ _ (.inr (by simp))
      · intro c hc
        rcases List.mem_cons.1 hc with rfl | hc
        · simpa using h
        · exact ih _ _ _ (.inr (by simp)) c hc
    | dash =>
      have h := h.resolve_left (by simp)
      simp only [chunkGo]
      split
      · exact ih _ _ _ (.inr (by simp))
      · intro c hc
        rcases List.mem_cons.1 hc with rfl | hc
        · simpa using h
        · exact ih _ _ _ (.inr (by simp)) c hc
    | word =>
      have h := h.resolve_left (by simp)
      simp only [chunkGo]
      split
      · intro c hc
        rcases List.mem_cons.1 hc with rfl | hc
        · simp
        · exact ih _ _ _ (.inl rfl) c hc
      · split
        · intro c hc
          rcases List.mem_cons.1 hc with rfl | hc
          · simpa using h
          · exact ih _ _ _ (.inr (by simp)) c hc
        · exact ih _ _ _ (.inr (by simp))

theorem simpleChunks_ne (s : Str) : ∀ c ∈ simpleChunks s, c ≠ [] := by
  induction s with
  | nil => simp [simpleChunks]
  | cons x r ih =>
    simp only [simpleChunks]
    split
    · simp
    · rename_i ls e
      exact absurd rfl (ih [] (by rw [e]; simp))
    · rename_i d l ls e
      rw [e] at ih
      split
      · intro c hc
        rcases List.mem_cons.1 hc with rfl | hc
        · simp
        · exact ih c (by simp [hc])
      · intro c hc
        rcases List.mem_cons.1 hc with rfl | hc
        · simp
        · exact ih c hc

theorem fixed_ne (cs : List Str) (h : ∀ c ∈ cs, c ≠ []) : ∀ c ∈ fixSentenceEndings cs, c ≠ [] := by
  fun_induction fixSentenceEndings cs with
  | case1 a b r h1 ih =>
    intro c hc
    simp only [List.mem_cons] at hc
    rcases hc with rfl | rfl | hc
    · exact h _ (by simp)
    · simp
    · exact ih (fun c hc => h c (by simp [hc])) c hc
  | case2 a b r h1 ih =>
    intro c hc
    rcases List.mem_cons.1 hc with rfl | hc
    · exact h _ (by simp)
    · exact ih (fun c hc => h c (List.mem_cons_of_mem _ hc)) c hc
  | case3 l _ => exact h

theorem wrapInput_ne (u : Uni) (o : WrapOpts) (s : Str) : ∀ c ∈ wrapInput u o s, c ≠ [] := by
  have h : ∀ c ∈ splitChunks u o (munge o s), c ≠ [] := by
    unfold splitChunks
    split
    · exact chunkGo_ne _ _ _ _ _ (.inl rfl)
    · exact simpleChunks_ne _
  unfold wrapInput
  simp only
  split
  · exact fixed_ne _ h
  · exact h

/-- Exactly when wrapping does not end; the number of rounds in `wrap` is enough otherwise. -/
theorem C19_exact (u : Uni) (o : WrapOpts) (text : Str) (hm : o.maxLines = none) (hw : 0 < o.width) :
    (Endless u o (wrapInput u o text) → ∀ f, wrapLoop u o f [] (wrapInput u o text) = .error .diverge) ∧
    (¬ Endless u o (wrapInput u o text) → ∃ out, wrap u o text = .ok out) := by
  have hne := wrapInput_ne u o text
  rw [wrap_nolimit u o text hm hw]
  generalize wrapInput u o text = cs at hne ⊢
  constructor
  · rintro ⟨hb, ⟨hd, hi, c, r, rfl, hc⟩ | ⟨hd, hs, h1, h2⟩⟩ f
    · exact never_first u o hb hd hi f c r hc
    · cases f with
      | zero =>
        cases cs with
        | nil => exact absurd rfl h1
        | cons c r => rfl
      | succ f =>
        obtain ⟨line, rest, h3, -, h4⟩ := (kept_first u o hm hb hd cs h1 hne).2 h2
        rw [h4]
        exact never_later u o hm hb hd hs f _ _ (by simp) h3
  · intro hn
    by_cases h0 : cs = []
    · subst h0; exact ⟨[], wrapLoop_nil ..⟩
    cases hb : o.breakLong with
    | false => exact wrapLoop_total u o (.inl hb) _ _ _ (Nat.le_refl _)
    | true =>
      cases hd : o.dropWs with
      | true =>
        refine ends_first u o hd _ cs ?_ (Nat.le_refl _)
        by_cases hi : len o.initialIndent ≤ o.width
        · exact .inl hi
        · exact .inr fun c r e hc => hn ⟨hb, .inl ⟨hd, by omega, c, r, e, hc⟩⟩
      | false =>
        obtain ⟨k1, k2⟩ := kept_first u o hm hb hd cs h0 hne
        obtain ⟨f, hf⟩ : ∃ f, wrapFuel cs = f + 1 := by
          have := List.length_pos_iff.2 h0
          exact ⟨wrapFuel cs - 1, by unfold wrapFuel; omega⟩
        by_cases hv : o.width - len o.initialIndent < visible u cs
        · obtain ⟨line, rest, h3, h5, h4⟩ := k2 hv
          rw [hf, h4]
          refine later_long_enough u o ?_ f _ _ (by simp) (by change measure cs = f + 1 at hf; omega)
          by_cases hs : len o.subsequentIndent ≤ o.width
          · exact hs
          · exact absurd ⟨hb, .inr ⟨hd, by omega, h0, hv⟩⟩ hn
        · rw [hf]
          exact k1 (by omega) f

/-- So a text that does not begin with whitespace is wrapped, whatever the indents, if whitespace is dropped. -/
theorem C19_words (u : Uni) (o : WrapOpts) (text : Str) (hm : o.maxLines = none) (hw : 0 < o.width) (hd : o.dropWs = true)
    (hp : PlainWs text) (hs : ¬ StartsWs text) : ∃ out, wrap u o text = .ok out := by
  refine (C19_exact u o text hm hw).2 ?_
  rintro ⟨-, ⟨-, -, c, r, e, hc⟩ | ⟨h, -⟩⟩
  · exact wrapInput_head hp hs c (by rw [e]; rfl) hc
  · rw [hd] at h; cases h

example : Endless asciiUni { width := 1, dropWs := false, subsequentIndent := py"  " } (wrapInput asciiUni { width := 1, dropWs := false, subsequentIndent := py"  " } py"ab") := by
  refine ⟨rfl, .inr ⟨rfl, by decide, by decide, by decide⟩⟩
example : wrap asciiUni { width := 1, initialIndent := py"  ", subsequentIndent := py"   " } py"ab c" = .ok [py"  a", py"   b", py"   c"] := by decide

end Verif
