import Verif.Proofs.WrapText

namespace Verif

open Spec

theorem lineIndent_eq (o : WrapOpts) (lines : List Str) : lineIndent o lines.isEmpty = indentAfter o lines := by
  unfold lineIndent indentAfter
  cases lines <;> simp

/-- One step of the loop, in terms of a round. -/
theorem wrapLoop_step (u : Uni) (o : WrapOpts) (f : Nat) (lines : List Str) (chunks : List Str) (hne : chunks ≠ []) :
    ∃ cur rest lead taken left taken',
      Round u o lines.isEmpty (o.width - len (indentAfter o lines)) lead taken left taken' chunks cur rest ∧
      wrapLoop u o (f + 1) lines chunks =
        if cur = [] then wrapLoop u o f lines rest
        else if lineAllowed o lines.length (sumLen u cur) (o.width - len (indentAfter o lines)) rest then
          wrapLoop u o f (lines ++ [indentAfter o lines ++ cur.flatten]) rest
        else .ok (truncateLines u o lines (indentAfter o lines) (o.width - len (indentAfter o lines)) cur (sumLen u cur)) := by
  cases chunks with
  | nil => exact absurd rfl hne
  | cons c cs =>
    obtain ⟨cur, rest, h1, lead, taken, left, taken', h2⟩ :=
      nextLine_spec u o lines.isEmpty (o.width - len (indentAfter o lines)) (c :: cs)
    refine ⟨cur, rest, lead, taken, left, taken', h2, ?_⟩
    simp only [wrapLoop, lineIndent_eq, h1]
    cases cur <;> simp

theorem wrapLoop_nil (u : Uni) (o : WrapOpts) (f : Nat) (lines : List Str) : wrapLoop u o f lines [] = .ok lines := by
  cases f <;> rfl

theorem indented_append {o : WrapOpts} {b ls bs ls' bs' : List Str} (h : Indented o b ls bs)
    (h' : Indented o (b ++ ls) ls' bs') : Indented o b (ls ++ ls') (bs ++ bs') := by
  induction ls generalizing b bs with
  | nil =>
    cases bs with
    | nil => simpa using h'
    | cons x bs => exact h.elim
  | cons l ls ih =>
    cases bs with
    | nil => exact h.elim
    | cons x bs =>
      refine ⟨h.1, ih h.2 ?_⟩
      simpa using h'

/-- The loop can only fail by not ending. -/
theorem wrapLoop_error (u : Uni) (o : WrapOpts) (f : Nat) (lines chunks : List Str) (e : PyErr)
    (h : wrapLoop u o f lines chunks = .error e) : e = .diverge := by
  induction f generalizing lines chunks with
  | zero =>
    cases chunks with
    | nil => rw [wrapLoop_nil] at h; cases h
    | cons c cs => simp [wrapLoop] at h; exact h.symm
  | succ f ih =>
    by_cases hne : chunks = []
    · subst hne; rw [wrapLoop_nil] at h; cases h
    · obtain ⟨cur, rest, _, _, _, _, -, h2⟩ := wrapLoop_step u o f lines chunks hne
      rw [h2] at h
      split at h
      · exact ih _ _ h
      · split at h
        · exact ih _ _ h
        · cases h

theorem wrapLoop_text (u : Uni) (o : WrapOpts) (hm : o.maxLines = none) (f : Nat) (lines chunks out : List Str)
    (h : wrapLoop u o f lines chunks = .ok out) :
    ∃ ls bs, out = lines ++ ls ∧ Indented o lines ls bs ∧ nonws bs.flatten = nonws chunks.flatten := by
  induction f generalizing lines chunks with
  | zero =>
    cases chunks with
    | nil => rw [wrapLoop_nil] at h; cases h; exact ⟨[], [], by simp, trivial, rfl⟩
    | cons c cs => simp [wrapLoop] at h
  | succ f ih =>
    by_cases hne : chunks = []
    · subst hne; rw [wrapLoop_nil] at h; cases h; exact ⟨[], [], by simp, trivial, rfl⟩
    · obtain ⟨cur, rest, _, _, _, _, hr, h2⟩ := wrapLoop_step u o f lines chunks hne
      have hn := round_nonws hr
      rw [h2] at h
      split at h
      · rename_i hc
        obtain ⟨ls, bs, h3, h4, h5⟩ := ih _ _ h
        refine ⟨ls, bs, h3, h4, ?_⟩
        rw [h5, ← hn, hc]
        rfl
      · have : lineAllowed o lines.length (sumLen u cur) (o.width - len (indentAfter o lines)) rest = true := by
          unfold lineAllowed; rw [hm]
        rw [if_pos this] at h
        obtain ⟨ls, bs, h3, h4, h5⟩ := ih _ _ h
        refine ⟨(indentAfter o lines ++ cur.flatten) :: ls, cur.flatten :: bs, ?_, ⟨rfl, h4⟩, ?_⟩
        · rw [h3]; simp
        · rw [List.flatten_cons, nonws_append, h5, hn]

theorem wrapLoop_total (u : Uni) (o : WrapOpts)
    (hT : o.breakLong = false ∨ (len o.initialIndent ≤ o.width ∧ len o.subsequentIndent ≤ o.width))
    (f : Nat) (lines chunks : List Str) (hf : measure chunks ≤ f) : ∃ out, wrapLoop u o f lines chunks = .ok out := by
  induction f generalizing lines chunks with
  | zero =>
    cases chunks with
    | nil => exact ⟨lines, wrapLoop_nil u o 0 lines⟩
    | cons c cs => unfold measure at hf; simp at hf
  | succ f ih =>
    by_cases hne : chunks = []
    · subst hne; exact ⟨lines, wrapLoop_nil u o _ lines⟩
    · obtain ⟨cur, rest, _, _, _, _, hr, h2⟩ := wrapLoop_step u o f lines chunks hne
      have hp : measure rest < measure chunks := by
        refine round_progress hr hne ?_
        rcases hT with h | ⟨h3, h4⟩
        · exact Or.inr h
        · left
          unfold indentAfter
          split <;> omega
      rw [h2]
      split
      · exact ih _ _ (by omega)
      · split
        · exact ih _ _ (by omega)
        · exact ⟨_, rfl⟩

/-! ## Line limit -/

/-- A single blank chunk after the first line gives nothing. -/
theorem nextLine_blank (u : Uni) (o : WrapOpts) (w : Int) (c : Str) (hd : o.dropWs = true) (hc : strip c = []) :
    nextLine u o false w [c] = ([], 0, []) := by
  simp [nextLine, dropLead, hd, hc, fillLine, breakLongChunk, dropTrail]

/-- What is left cannot give another line. -/
def Done (o : WrapOpts) (lines chunks : List Str) : Prop :=
  chunks = [] ∨ (lines ≠ [] ∧ o.dropWs = true ∧ ∃ c, chunks = [c] ∧ strip c = [])

theorem wrapLoop_done (u : Uni) (o : WrapOpts) (f : Nat) (lines chunks out : List Str) (h : Done o lines chunks)
    (ho : wrapLoop u o f lines chunks = .ok out) : out = lines := by
  rcases h with rfl | ⟨h1, h2, c, rfl, h3⟩
  · rw [wrapLoop_nil] at ho; cases ho; rfl
  · cases f with
    | zero => simp [wrapLoop] at ho
    | succ f =>
      have hl : lines.isEmpty = false := by cases lines with | nil => exact absurd rfl h1 | cons _ _ => rfl
      simp only [wrapLoop, hl, nextLine_blank u o _ c h2 h3, List.isEmpty_nil, if_true] at ho
      first
        | (rw [wrapLoop_nil] at ho; cases ho; rfl)
        | (cases ho; rfl)

theorem allowed_done {o : WrapOpts} {n : Nat} {cl w : Int} {rest : List Str} {m : Int} (hm : o.maxLines = some m)
    (h : lineAllowed o n cl w rest = true) :
    (n : Int) + 1 < m ∨ (cl ≤ w ∧ ∀ lines, lines ≠ [] → Done o lines rest) := by
  unfold lineAllowed at h
  rw [hm] at h
  simp only [Bool.or_eq_true, Bool.and_eq_true, decide_eq_true_eq] at h
  rcases h with h | ⟨h, h2⟩
  · exact Or.inl h
  · right
    refine ⟨h2, ?_⟩
    intro lines hl
    cases rest with
    | nil => exact Or.inl rfl
    | cons c r =>
      cases r with
      | nil =>
        simp at h
        exact Or.inr ⟨hl, h.1, c, rfl, h.2⟩
      | cons _ _ => simp at h

theorem truncate_length (u : Uni) (o : WrapOpts) (lines : List Str) (ind : Str) (w : Int) (cur : List Str) (cl : Int) :
    (truncateLines u o lines ind w cur cl).length ≤ lines.length + 1 := by
  unfold truncateLines
  split
  · simp
  · split
    · simp only
      split
      · simp
      · simp
    · simp

theorem wrapLoop_limit (u : Uni) (o : WrapOpts) (m : Int) (hm : o.maxLines = some m) (f : Nat) (lines chunks out : List Str)
    (hl : (lines.length : Int) < m) (h : wrapLoop u o f lines chunks = .ok out) : (out.length : Int) ≤ m := by
  induction f generalizing lines chunks with
  | zero =>
    cases chunks with
    | nil => rw [wrapLoop_nil] at h; cases h; omega
    | cons c cs => simp [wrapLoop] at h
  | succ f ih =>
    by_cases hne : chunks = []
    · subst hne; rw [wrapLoop_nil] at h; cases h; omega
    · obtain ⟨cur, rest, _, _, _, _, hr, h2⟩ := wrapLoop_step u o f lines chunks hne
      rw [h2] at h
      split at h
      · exact ih _ _ hl h
      · split at h
        · rename_i ha
          rcases allowed_done hm ha with h3 | ⟨-, h3⟩
          · exact ih _ _ (by simp; omega) h
          · rw [wrapLoop_done u o f _ _ _ (h3 _ (by simp)) h]
            simp; omega
        · cases h
          have := truncate_length u o lines (indentAfter o lines) (o.width - len (indentAfter o lines)) cur (sumLen u cur)
          omega

/-! ## Width -/

theorem placeholder_fits (u : Uni) (o : WrapOpts) (ind : Str) (w : Int) (rcur : List Str) (l : Str)
    (h : placeholderLine u o ind w rcur (sumLen u rcur.reverse) = some l) : vlen u l ≤ len ind + w := by
  induction rcur with
  | nil => simp [placeholderLine] at h
  | cons c rcur ih =>
    simp only [placeholderLine] at h
    split at h
    · rename_i hc
      simp only [Bool.and_eq_true, decide_eq_true_eq] at hc
      cases h
      have h1 := vlen_append u (ind ++ (c :: rcur).reverse.flatten) o.placeholder
      have h2 := vlen_append u ind (c :: rcur).reverse.flatten
      have h3 := vlen_flatten u (c :: rcur).reverse
      have h4 := vlen_le_len u ind
      have h5 := vlen_le_len u o.placeholder
      omega
    · apply ih
      rw [List.reverse_cons, sumLen_append] at h
      simp only [sumLen] at h
      have e : sumLen u rcur.reverse + (vlen u c + 0) - vlen u c = sumLen u rcur.reverse := by omega
      rw [e] at h
      exact h

theorem wrapLoop_width (u : Uni) (o : WrapOpts) (hb : o.breakLong = true) (hi : len o.initialIndent < o.width)
    (hs : len o.subsequentIndent < o.width)
    (hph : ∀ m, o.maxLines = some m → len (if m > 1 then o.subsequentIndent else o.initialIndent) + len (lstrip o.placeholder) ≤ o.width)
    (f : Nat) (lines chunks out : List Str) (hl : ∀ l ∈ lines, vlen u l ≤ o.width)
    (hd : ∀ m, o.maxLines = some m → m ≤ 1 → lines ≠ [] → Done o lines chunks)
    (h : wrapLoop u o f lines chunks = .ok out) : ∀ l ∈ out, vlen u l ≤ o.width := by
  induction f generalizing lines chunks with
  | zero =>
    cases chunks with
    | nil => rw [wrapLoop_nil] at h; cases h; exact hl
    | cons c cs => simp [wrapLoop] at h
  | succ f ih =>
    by_cases hne : chunks = []
    · subst hne; rw [wrapLoop_nil] at h; cases h; exact hl
    · by_cases hdone : Done o lines chunks
      · rw [wrapLoop_done u o _ _ _ _ hdone h]; exact hl
      obtain ⟨cur, rest, _, _, _, _, hr, h2⟩ := wrapLoop_step u o f lines chunks hne
      have hind : len (indentAfter o lines) < o.width := by unfold indentAfter; split <;> assumption
      have hfit := round_fits hr (by omega) hb
      have hnd : ∀ m, o.maxLines = some m → m ≤ 1 → lines = [] := by
        intro m hm h1
        by_cases he : lines = []
        · exact he
        · exact absurd (hd m hm h1 he) hdone
      rw [h2] at h
      split at h
      · refine ih _ _ hl ?_ h
        intro m hm h1 h3
        exact absurd (hnd m hm h1) h3
      · split at h
        · rename_i ha
          refine ih _ _ ?_ ?_ h
          · intro l hm
            rcases List.mem_append.1 hm with e | e
            · exact hl l e
            · simp at e
              subst e
              have h1 := vlen_append u (indentAfter o lines) cur.flatten
              have h3 := vlen_flatten u cur
              have h4 := vlen_le_len u (indentAfter o lines)
              omega
          · intro m hm h1 h3
            rcases allowed_done hm ha with h4 | ⟨-, h4⟩
            · omega
            · exact h4 _ h3
        · rename_i ha
          cases h
          intro l hm
          unfold truncateLines at hm
          have hlast : (∃ m, o.maxLines = some m) → vlen u (indentAfter o lines ++ lstrip o.placeholder) ≤ o.width := by
            rintro ⟨m, hm⟩
            have hp := hph m hm
            have h1 := vlen_append u (indentAfter o lines) (lstrip o.placeholder)
            have h3 := vlen_le_len u (indentAfter o lines)
            have h4 := vlen_le_len u (lstrip o.placeholder)
            have : indentAfter o lines = if m > 1 then o.subsequentIndent else o.initialIndent := by
              unfold indentAfter
              by_cases he : lines = []
              · have hm1 : ¬ m > 1 := by
                  intro hgt
                  apply ha
                  unfold lineAllowed
                  rw [hm, he]
                  simp
                  omega
                rw [if_pos he, if_neg hm1]
              · have hm1 : m > 1 := by
                  by_cases hle : m ≤ 1
                  · exact absurd (hnd m hm hle) he
                  · omega
                rw [if_neg he, if_pos hm1]
            rw [← this] at hp
            omega
          have hsome : ∃ m, o.maxLines = some m := by
            cases hmm : o.maxLines with
            | none => exfalso; apply ha; unfold lineAllowed; rw [hmm]
            | some m => exact ⟨m, rfl⟩
          cases hpl : placeholderLine u o (indentAfter o lines) (o.width - len (indentAfter o lines)) cur.reverse (sumLen u cur) with
          | some pl =>
            rw [hpl] at hm
            rcases List.mem_append.1 hm with e | e
            · exact hl l e
            · simp at e
              subst e
              have e : sumLen u cur = sumLen u cur.reverse.reverse := by simp
              rw [e] at hpl
              have := placeholder_fits u o _ _ _ _ hpl
              omega
          | none =>
            rw [hpl] at hm
            simp only at hm
            cases hgl : lines.getLast? with
            | none =>
              rw [hgl] at hm
              rcases List.mem_append.1 hm with e | e
              · exact hl l e
              · simp at e; subst e; exact hlast hsome
            | some last =>
              rw [hgl] at hm
              simp only at hm
              split at hm
              · rename_i hle
                rcases List.mem_append.1 hm with e | e
                · exact hl l ((List.dropLast_sublist lines).subset e)
                · simp at e
                  subst e
                  have h1 := vlen_append u (rstrip last) o.placeholder
                  have h3 := vlen_le_len u o.placeholder
                  omega
              · rcases List.mem_append.1 hm with e | e
                · exact hl l e
                · simp at e; subst e; exact hlast hsome

/-! ## Greediness -/

theorem visible_eq (u : Uni) (cs : List Str) : visible u cs = sumLen u cs := by
  unfold visible
  induction cs with
  | nil => rfl
  | cons c cs ih => simp [sumLen, ih]

theorem noLong_indent {u : Uni} {o : WrapOpts} {cs : List Str} (h : NoLong u o cs) (lines : List Str) :
    ∀ c ∈ cs, vlen u c ≤ o.width - len (indentAfter o lines) := by
  intro c hc
  unfold indentAfter
  split
  · exact (h c hc).1
  · exact (h c hc).2

theorem broken_noLong {u : Uni} {o : WrapOpts} {w : Int} {t r t' r' : List Str} (h : Broken u o w t r t' r')
    (hn : ∀ c ∈ r, vlen u c ≤ w) : t' = t ∧ r' = r := by
  cases h with
  | fits _ => exact ⟨rfl, rfl⟩
  | cut c cs hr hl _ e _ => have := hn c (by rw [hr]; simp); omega
  | whole c cs hr hl _ _ => have := hn c (by rw [hr]; simp); omega
  | later c cs hr hl _ _ => exact ⟨rfl, rfl⟩

theorem wrapLoop_greedy (u : Uni) (o : WrapOpts) (hm : o.maxLines = none) (hi : len o.initialIndent ≤ o.width)
    (hs : len o.subsequentIndent ≤ o.width) (f : Nat) (lines chunks out : List Str) (hn : NoLong u o chunks)
    (h : wrapLoop u o f lines chunks = .ok out) :
    ∃ rows, (rows.map Row.chunks).flatten = chunks ∧ (∀ r ∈ rows, r.chunks ≠ []) ∧ Greedy u o lines rows out := by
  induction f generalizing lines chunks with
  | zero =>
    cases chunks with
    | nil => rw [wrapLoop_nil] at h; cases h; exact ⟨[], rfl, by simp, rfl⟩
    | cons c cs => simp [wrapLoop] at h
  | succ f ih =>
    by_cases hne : chunks = []
    · subst hne; rw [wrapLoop_nil] at h; cases h; exact ⟨[], rfl, by simp, rfl⟩
    · obtain ⟨cur, rest, lead, taken, left, taken', hr, h2⟩ := wrapLoop_step u o f lines chunks hne
      have hind : len (indentAfter o lines) ≤ o.width := by unfold indentAfter; split <;> assumption
      have hsub : ∀ c ∈ left, c ∈ chunks := by intro c hc; rw [hr.split]; simp [hc]
      obtain ⟨rfl, rfl⟩ := broken_noLong hr.broken (fun c hc => noLong_indent hn lines c (hsub c hc))
      have hrest : NoLong u o rest := fun c hc => hn c (hsub c hc)
      have hnew : wrapLoop u o f (if cur = [] then lines else lines ++ [indentAfter o lines ++ cur.flatten]) rest = .ok out := by
        rw [h2] at h
        split at h
        · rename_i hc; rw [if_pos hc]; exact h
        · rename_i hc
          have : lineAllowed o lines.length (sumLen u cur) (o.width - len (indentAfter o lines)) rest = true := by
            unfold lineAllowed; rw [hm]
          rw [if_pos this] at h
          rw [if_neg hc]; exact h
      obtain ⟨rows, h3, h4, h5⟩ := ih _ _ hrest hnew
      refine ⟨⟨lead, taken'⟩ :: rows, ?_, ?_, ?_, ?_, ?_, ?_, cur, ?_, h5⟩
      · rw [List.map_cons, List.flatten_cons, h3]
        simp only [Row.chunks]
        rw [hr.split]; simp
      · intro r hrm
        rcases List.mem_cons.1 hrm with e | e
        · subst e
          simp only [Row.chunks]
          intro e
          simp at e
          obtain ⟨e1, e2⟩ := e
          -- nothing taken: the next chunk does not fit on an empty line
          cases hl : rest with
          | nil => apply hne; rw [hr.split, e1, e2, hl]; rfl
          | cons c r' =>
            have := hr.full c r' hl
            rw [e2] at this
            simp [sumLen] at this
            have h6 := noLong_indent hn lines c (hsub c (by rw [hl]; simp))
            omega
        · exact h4 r e
      · rcases hr.leadOk with h6 | ⟨l, h6, h7, h8, h9⟩
        · exact Or.inl h6
        · right
          refine ⟨h8, ?_, l, h6, (strip_nil_iff l).1 h7⟩
          intro e; rw [e] at h9; cases h9
      · intro hd hl he w hw hb
        obtain ⟨t, et⟩ := List.head?_eq_some_iff.1 hw
        simp only at he et
        refine hr.noLead he hd (by cases lines <;> simp_all) w (t ++ rest) ?_ ((strip_nil_iff w).2 hb)
        rw [hr.split, he, et]; rfl
      · rw [visible_eq]
        rcases hr.fit with h6 | h6
        · rw [h6]; simp [sumLen]; omega
        · exact h6
      · intro c hc
        rw [h3] at hc
        rw [visible_eq]
        cases hl : rest with
        | nil => rw [hl] at hc; cases hc
        | cons c' r' =>
          rw [hl] at hc
          cases hc
          exact hr.full c r' hl
      · have ht := hr.trimmed
        cases ht with
        | keep hk =>
          left
          refine ⟨rfl, ?_⟩
          intro hd w hw hb
          exact hk hd w hw ((strip_nil_iff w).2 hb)
        | drop t' l hd ht hl => exact Or.inr ⟨hd, l, (strip_nil_iff l).1 hl, ht⟩

/-! ## Edges of lines -/

theorem word_not_starts {c r : Str} (h : WordChunk c) : ¬ StartsWs (c ++ r) := by
  rintro ⟨x, h1, h2⟩
  obtain ⟨hne, hw⟩ := h
  cases c with
  | nil => exact hne rfl
  | cons y c =>
    simp at h1
    subst h1
    rw [hw y (by simp)] at h2
    cases h2

theorem word_not_ends {c r : Str} (h : WordChunk c) : ¬ EndsWs (r ++ c) := by
  rintro ⟨x, h1, h2⟩
  obtain ⟨hne, hw⟩ := h
  have hx : x ∈ c := by
    rw [List.getLast?_append] at h1
    cases hl : c.getLast? with
    | none => rw [List.getLast?_eq_none_iff] at hl; exact absurd hl hne
    | some y => rw [hl] at h1; cases h1; exact List.mem_of_getLast? hl
  have := hx
  rw [hw x this] at h2
  cases h2

/-- Two adjacent chunks: at least one is a word. -/
theorem alt_mid {a : List Str} {x y : Str} {b : List Str} (h : Alt (a ++ x :: y :: b)) (hx : SpaceChunk x) : WordChunk y := by
  induction a with
  | nil => exact h.1 hx
  | cons z a ih => exact ih (alt_tail h)

theorem tidy_right {a b : List Str} (h : Tidy (a ++ b)) : Tidy b := by
  induction a with
  | nil => exact h
  | cons z a ih => exact ih (tidy_tail h)

theorem strip_space {c : Str} (h : SpaceChunk c) : strip c = [] := (strip_nil_iff c).2 h.2

theorem word_of_nonblank {c : Str} (h : WordChunk c ∨ SpaceChunk c) (hs : strip c ≠ []) : WordChunk c := by
  rcases h with h | h
  · exact h
  · exact absurd (strip_space h) hs

theorem space_of_blank {c : Str} (h : WordChunk c ∨ SpaceChunk c) (hs : strip c = []) : SpaceChunk c := by
  rcases h with h | h
  · exfalso
    refine not_both h ⟨h.1, (strip_nil_iff c).1 hs⟩
  · exact h

theorem pyTake_mem {c : Str} {e : Int} {x : Char} (h : x ∈ pyTake c e) : x ∈ c := by
  unfold pyTake at h; exact List.mem_of_mem_take h

theorem pyDrop_mem {c : Str} {e : Int} {x : Char} (h : x ∈ pyDrop c e) : x ∈ c := by
  unfold pyDrop at h; exact List.mem_of_mem_drop h

theorem pyTake_ne {c : Str} {e : Int} (hc : c ≠ []) (he : 1 ≤ e) : pyTake c e ≠ [] := by
  unfold pyTake clampIdx
  rw [if_neg (by omega)]
  have hp := List.length_pos_iff.2 hc
  intro h
  rw [List.take_eq_nil_iff] at h
  rcases h with h | h
  · have : 1 ≤ e.toNat := by omega
    omega
  · exact hc h

theorem pyDrop_ne {c : Str} {e : Int} (h0 : 0 ≤ e) (he : e < len c) : pyDrop c e ≠ [] := by
  unfold pyDrop clampIdx
  unfold len at he
  rw [if_neg (by omega)]
  intro h
  have := congrArg List.length h
  simp at this
  omega

theorem piece {c d : Str} (hd : d ≠ []) (hm : ∀ x ∈ d, x ∈ c) :
    (WordChunk c → WordChunk d) ∧ (SpaceChunk c → SpaceChunk d) :=
  ⟨fun h => ⟨hd, fun x hx => h.2 x (hm x hx)⟩, fun h => ⟨hd, fun x hx => h.2 x (hm x hx)⟩⟩

theorem pyTake_zero (c : Str) : pyTake c 0 = [] := by simp [pyTake, clampIdx]

/-- What one round does to the edges of its line. -/
theorem round_edges {u : Uni} {o : WrapOpts} {le : Bool} {w : Int} {lead taken left taken' chunks cur rest : List Str}
    (r : Round u o le w lead taken left taken' chunks cur rest) (hd : o.dropWs = true) (ht : Tidy chunks)
    (hw : o.breakLong = false ∨ 1 ≤ w) :
    Tidy rest ∧ (le = false → ¬ StartsWs cur.flatten) ∧
      (EndsWs cur.flatten → o.breakLong = true ∧ sumLen u cur = w ∧ ∃ c ∈ chunks, vlen u c > w) := by
  have htl : Tidy (taken ++ left) := by
    have := ht; rw [r.split] at this; exact tidy_right this
  have hleft : Tidy left := tidy_right htl
  have hbnd : ∀ c, vlen u c > w → 1 ≤ w → ∀ e, e = cutPos o (if w < 1 then 1 else w - sumLen u taken) c →
      0 ≤ e ∧ e < len c ∧ e ≤ w - sumLen u taken ∧ (1 ≤ w - sumLen u taken → 1 ≤ e) := by
    intro c hc hw1 e he
    rw [if_neg (by omega)] at he
    have hfit : sumLen u taken ≤ w := by
      rcases r.fit with h | h
      · rw [h]; simp [sumLen]; omega
      · exact h
    have h1 := cutPos_bounds o (w - sumLen u taken) c (by omega)
    have h2 := vlen_le_len u c
    have h3 := sumLen_nonneg u taken
    rw [← he] at h1
    omega
  have hword : le = false → ∀ c r', taken ++ left = c :: r' → WordChunk c := by
    intro hle c r' e
    rcases r.leadOk with h | ⟨l, h1, h2, h3, h4⟩
    · have hs := r.split
      rw [h, List.nil_append, e] at hs
      have := r.noLead h hd hle c r' hs
      exact word_of_nonblank (ht.pure c (by rw [hs]; simp)) this
    · have hs := r.split
      rw [h1, e] at hs
      have hal := ht.alt
      rw [hs] at hal
      exact hal.1 (space_of_blank (ht.pure l (by rw [hs]; simp)) h2)
  -- elements of `taken'`
  have hbr := r.broken
  have htr := r.trimmed
  have hstart : le = false → ∀ c r', taken' = c :: r' → WordChunk c := by
    intro hle c r' e
    cases hbr with
    | fits _ => exact hword hle c (r' ++ left) (by rw [e]; rfl)
    | later _ _ _ _ _ _ => exact hword hle c (r' ++ left) (by rw [e]; rfl)
    | whole c' cs hr hl hb hnil =>
      cases e
      exact hword hle c rest (by rw [hnil, hr]; rfl)
    | cut c' cs hr hl hb k hk =>
      cases htk : taken with
      | cons x xs =>
        rw [htk] at e
        cases e
        exact hword hle c (xs ++ left) (by rw [htk]; rfl)
      | nil =>
        rw [htk] at e
        cases e
        have hwc := hword hle c' cs (by rw [htk, hr]; rfl)
        have hw1 : 1 ≤ w := by rcases hw with h | h; (· rw [h] at hb; cases hb); exact h
        have hb' := hbnd c' hl hw1 k hk
        rw [htk] at hb'
        simp [sumLen] at hb'
        exact (piece (pyTake_ne hwc.1 (by omega)) (fun x hx => pyTake_mem hx)).1 hwc
  refine ⟨?_, ?_, ?_⟩
  · cases hbr with
    | fits _ => exact hleft
    | later _ _ _ _ _ _ => exact hleft
    | whole c' cs hr hl hb hnil => rw [hr] at hleft; exact tidy_tail hleft
    | cut c' cs hr hl hb k hk =>
      have hw1 : 1 ≤ w := by rcases hw with h | h; (· rw [h] at hb; cases hb); exact h
      have hb' := hbnd c' hl hw1 k hk
      rw [hr] at hleft
      have hp := piece (pyDrop_ne hb'.1 hb'.2.1) (fun x hx => pyDrop_mem hx)
      refine tidy_cons ?_ (tidy_tail hleft) ?_
      · rcases hleft.pure c' (by simp) with h | h
        · exact Or.inl (hp.1 h)
        · exact Or.inr (hp.2 h)
      · intro hsp b hb''
        have hc' : SpaceChunk c' := by
          rcases hleft.pure c' (by simp) with h | h
          · exact absurd hsp (fun hsp => not_both (hp.1 h) hsp)
          · exact h
        cases cs with
        | nil => cases hb''
        | cons d cs => cases hb''; exact hleft.alt.1 hc'
  · intro hle
    cases hcur : cur with
    | nil => rintro ⟨x, h, -⟩; cases h
    | cons c cs =>
      have : ∃ r', taken' = c :: r' := by
        cases htr with
        | keep _ => exact ⟨cs, hcur⟩
        | drop t' l _ e _ => exact ⟨cs ++ [l], by rw [e, hcur]; rfl⟩
      obtain ⟨r', e⟩ := this
      rw [List.flatten_cons]
      exact word_not_starts (hstart hle c r' e)
  · intro he
    -- a word at the end rules this out
    have hnw : ∀ a c, cur = a ++ [c] → ¬ WordChunk c := by
      intro a c e hc
      rw [e] at he
      simp only [List.flatten_append, List.flatten_cons, List.flatten_nil, List.append_nil] at he
      exact word_not_ends hc he
    have hcne : cur ≠ [] := by
      intro e; rw [e] at he; obtain ⟨x, h, -⟩ := he; cases h
    have hlast := List.dropLast_concat_getLast hcne
    have hsub : ∀ c ∈ left, c ∈ chunks := by intro c hc; rw [r.split]; simp [hc]
    -- the chunks of an unbroken line
    have hplain : ∀ (t rr : List Str), Tidy (t ++ rr) → Trimmed o t cur → False := by
      intro t rr htt htr
      cases htr with
      | keep hk =>
        refine hnw _ _ hlast.symm ?_
        refine word_of_nonblank (htt.pure _ ?_) (hk hd _ (List.getLast?_eq_some_getLast hcne))
        simp
      | drop t' l _ e hl =>
        rw [e] at htt
        have hls : SpaceChunk l := space_of_blank (htt.pure l (by simp)) hl
        have hal := htt.alt
        rw [← hlast] at hal
        refine hnw _ _ hlast.symm ?_
        rcases htt.pure (cur.getLast hcne) (by simp) with h | h
        · exact h
        · have := alt_mid (a := cur.dropLast) (x := cur.getLast hcne) (y := l) (b := rr) (by simpa using hal) h
          exact (not_both this hls).elim
    cases hbr with
    | fits _ => exact (hplain _ _ htl htr).elim
    | later _ _ _ _ _ _ => exact (hplain _ _ htl htr).elim
    | whole c' cs hr hl hb hnil =>
      refine (hplain [c'] rest ?_ htr).elim
      rw [hr] at hleft; exact hleft
    | cut c' cs hr hl hb k hk =>
      have hw1 : 1 ≤ w := by rcases hw with h | h; (· rw [h] at hb; cases hb); exact h
      have hb' := hbnd c' hl hw1 k hk
      by_cases hk0 : k = 0
      · refine ⟨hb, ?_, c', hsub c' (by rw [hr]; simp), hl⟩
        rw [hk0, pyTake_zero] at htr
        have hfull : sumLen u taken = w := by
          have := sumLen_nonneg u taken
          rcases r.fit with h | h <;> rw [hk0] at hb'
          · rw [h] at hb' ; simp [sumLen] at hb'; omega
          · omega
        cases htr with
        | keep hkp => exact absurd rfl (hkp hd [] (by simp))
        | drop t' l _ e _ =>
          have := List.append_inj' e rfl
          rw [← this.1]
          exact hfull
      · exfalso
        have hpne : pyTake c' k ≠ [] := by
          have : len c' > 0 := by omega
          refine pyTake_ne ?_ (by omega)
          intro e; rw [e] at this; simp [len] at this
        have hcp := hleft.pure c' (by rw [hr]; simp)
        have hp := piece hpne (fun x hx => pyTake_mem hx)
        refine hplain (taken ++ [pyTake c' k]) [] ?_ htr
        constructor
        · intro d hdm
          simp at hdm
          rcases hdm with h | h
          · exact htl.pure d (by simp [h])
          · rw [h]
            rcases hcp with h' | h'
            · exact Or.inl (hp.1 h')
            · exact Or.inr (hp.2 h')
        · have hal := htl.alt
          rw [hr] at hal
          rw [List.append_nil]
          clear hplain hnw htr hstart hword he r hbnd htl hk hb'
          induction taken with
          | nil => trivial
          | cons a tk ih =>
            refine alt_cons (ih (alt_tail hal)) ?_
            intro ha b hbh
            cases tk with
            | nil =>
              cases hbh
              exact hp.1 (hal.1 ha)
            | cons b' tk =>
              cases hbh
              exact hal.1 ha

theorem stripAnsi_noesc (u : Uni) (s : Str) (h : esc ∉ s) : stripAnsi u s = s := by
  unfold stripAnsi
  induction s with
  | nil => rfl
  | cons c s ih =>
    simp only [List.mem_cons, not_or] at h
    simp only [stripAnsiFrom]
    rw [if_neg (fun e => h.1 e.symm), ih h.2]

theorem sumLen_noesc (u : Uni) (cs : List Str) (h : esc ∉ cs.flatten) : sumLen u cs = len cs.flatten := by
  induction cs with
  | nil => rfl
  | cons c cs ih =>
    simp only [List.flatten_cons, List.mem_append, not_or] at h
    simp only [sumLen, List.flatten_cons, ih h.2]
    unfold vlen
    rw [stripAnsi_noesc u c h.1]
    simp [len]

theorem broken_mem {u : Uni} {o : WrapOpts} {w : Int} {t r t' r' : List Str} (h : Broken u o w t r t' r') (x : Char) :
    (x ∈ t'.flatten ∨ x ∈ r'.flatten) ↔ (x ∈ t.flatten ∨ x ∈ r.flatten) := by
  rw [← List.mem_append, ← List.mem_append, broken_flatten h]

theorem round_mem {u : Uni} {o : WrapOpts} {le : Bool} {w : Int} {lead taken left taken' chunks cur rest : List Str}
    (r : Round u o le w lead taken left taken' chunks cur rest) (x : Char) :
    x ∈ cur.flatten ∨ x ∈ rest.flatten → x ∈ chunks.flatten := by
  intro h
  have h1 : x ∈ cur.flatten → x ∈ taken'.flatten := by
    intro h
    have ht := r.trimmed
    cases ht with
    | keep _ => exact h
    | drop t' l _ e _ => rw [e]; simp only [List.flatten_append, List.mem_append]; exact Or.inl h
  have h2 : x ∈ taken'.flatten ∨ x ∈ rest.flatten := h.imp h1 id
  rw [broken_mem r.broken] at h2
  rw [r.split]
  simp only [List.flatten_append, List.mem_append]
  exact Or.inr h2

theorem round_noLong {u : Uni} {o : WrapOpts} {le : Bool} {w : Int} {lead taken left taken' chunks cur rest : List Str}
    (r : Round u o le w lead taken left taken' chunks cur rest) (h : ∀ c ∈ chunks, vlen u c ≤ w) : taken' = taken ∧ rest = left :=
  broken_noLong r.broken (fun c hc => h c (by rw [r.split]; simp [hc]))

/-- The part of a wrapped text after `lines`: its bodies, and what is known about their edges. -/
theorem wrapLoop_edges (u : Uni) (o : WrapOpts) (hm : o.maxLines = none) (hd : o.dropWs = true)
    (hw : o.breakLong = false ∨ (len o.initialIndent < o.width ∧ len o.subsequentIndent < o.width))
    (f : Nat) (lines chunks out : List Str) (ht : Tidy chunks) (h : wrapLoop u o f lines chunks = .ok out) :
    ∃ ls bs, out = lines ++ ls ∧ Indented o lines ls bs ∧
      (∀ b ∈ bs.tail, ¬ StartsWs b) ∧ (lines ≠ [] → ∀ b, bs.head? = some b → ¬ StartsWs b) ∧
      (∀ p ∈ ls.zip bs, EndsWs p.2 → o.breakLong = true ∧ ¬ NoLong u o chunks ∧ (esc ∉ chunks.flatten → len p.1 = o.width)) := by
  induction f generalizing lines chunks with
  | zero =>
    cases chunks with
    | nil => rw [wrapLoop_nil] at h; cases h; exact ⟨[], [], by simp, trivial, by simp, by simp, by simp⟩
    | cons c cs => simp [wrapLoop] at h
  | succ f ih =>
    by_cases hne : chunks = []
    · subst hne; rw [wrapLoop_nil] at h; cases h; exact ⟨[], [], by simp, trivial, by simp, by simp, by simp⟩
    · obtain ⟨cur, rest, lead, taken, left, taken', hr, h2⟩ := wrapLoop_step u o f lines chunks hne
      have hw' : o.breakLong = false ∨ 1 ≤ o.width - len (indentAfter o lines) := by
        rcases hw with h | ⟨h3, h4⟩
        · exact Or.inl h
        · right; unfold indentAfter; split <;> omega
      obtain ⟨htr, hst, hen⟩ := round_edges hr hd ht hw'
      have hnl : NoLong u o chunks → NoLong u o rest := by
        intro hn
        obtain ⟨-, e⟩ := round_noLong hr (noLong_indent hn lines)
        intro c hc
        rw [e] at hc
        exact hn c (by rw [hr.split]; simp [hc])
      have hes : esc ∉ chunks.flatten → esc ∉ rest.flatten := fun h hm => h (round_mem hr esc (Or.inr hm))
      rw [h2] at h
      split at h
      · obtain ⟨ls, bs, h3, h4, h5, h6, h7⟩ := ih _ _ htr h
        refine ⟨ls, bs, h3, h4, h5, h6, ?_⟩
        intro p hp he
        obtain ⟨g1, g2, g3⟩ := h7 p hp he
        exact ⟨g1, fun hn => g2 (hnl hn), fun hn => g3 (hes hn)⟩
      · have : lineAllowed o lines.length (sumLen u cur) (o.width - len (indentAfter o lines)) rest = true := by
          unfold lineAllowed; rw [hm]
        rw [if_pos this] at h
        obtain ⟨ls, bs, h3, h4, h5, h6, h7⟩ := ih _ _ htr h
        refine ⟨(indentAfter o lines ++ cur.flatten) :: ls, cur.flatten :: bs, ?_, ⟨rfl, h4⟩, ?_, ?_, ?_⟩
        · rw [h3]; simp
        · intro b hb
          rw [List.tail_cons] at hb
          cases bs with
          | nil => cases hb
          | cons b0 bs =>
            rcases List.mem_cons.1 hb with e | e
            · exact h6 (by simp) b (by rw [e]; rfl)
            · exact h5 b e
        · intro hl b hb
          cases hb
          exact hst (by cases lines with | nil => exact absurd rfl hl | cons _ _ => rfl)
        · intro p hp he
          rw [List.zip_cons_cons] at hp
          rcases List.mem_cons.1 hp with e | e
          · subst e
            obtain ⟨g1, g2, c, hc, g3⟩ := hen he
            refine ⟨g1, fun hn => ?_, fun hn => ?_⟩
            · have := noLong_indent hn lines c hc
              omega
            · rw [sumLen_noesc u cur (fun hm => hn (round_mem hr esc (Or.inl hm)))] at g2
              simp only [len, List.length_append] at g2 ⊢
              omega
          · obtain ⟨g1, g2, g3⟩ := h7 p e he
            exact ⟨g1, fun hn => g2 (hnl hn), fun hn => g3 (hes hn)⟩

/-! ## Colours -/

theorem stripFrom_append_eq (u : Uni) (st : Option (Bool × Str)) (a b : Str) (hst : ∀ x, st = some x → esc ∈ x.2)
    (h : esc ∉ stripAnsiFrom u st a) : stripAnsiFrom u st (a ++ b) = stripAnsiFrom u st a ++ stripAnsiFrom u none b := by
  induction a generalizing st with
  | nil =>
    cases st with
    | none => rfl
    | some x =>
      obtain ⟨f, buf⟩ := x
      exact absurd (hst _ rfl) (by cases f <;> exact h)
  | cons c a ih =>
    rw [List.cons_append]
    cases st with
    | none =>
      simp only [stripAnsiFrom] at h ⊢
      split
      · rename_i hc
        rw [if_pos hc] at h
        exact ih _ (by intro x hx; cases hx; simp [hc]) h
      · rename_i hc
        rw [if_neg hc] at h
        rw [ih none (by simp) (fun hm => h (List.mem_cons_of_mem _ hm))]
        rfl
    | some x =>
      obtain ⟨f, buf⟩ := x
      have hb : esc ∈ buf := hst _ rfl
      cases f with
      | false =>
        simp only [stripAnsiFrom] at h ⊢
        split
        · rename_i hc
          rw [if_pos hc] at h
          exact ih _ (by intro x hx; cases hx; simp [hb]) h
        · rename_i hc
          rw [if_neg hc] at h
          exfalso
          apply h
          split <;> exact List.mem_append_left _ hb
      | true =>
        simp only [stripAnsiFrom] at h ⊢
        split
        · rename_i hc
          rw [if_pos hc] at h
          exact ih _ (by intro x hx; cases hx; simp [hb]) h
        · rename_i hc
          rw [if_neg hc] at h
          split
          · rename_i hc'
            rw [if_pos hc'] at h
            exact ih none (by simp) h
          · rename_i hc'
            rw [if_neg hc'] at h
            exfalso
            apply h
            split <;> exact List.mem_append_left _ hb

theorem stripAnsi_append (u : Uni) (a b : Str) (h : esc ∉ stripAnsi u a) : stripAnsi u (a ++ b) = stripAnsi u a ++ stripAnsi u b :=
  stripFrom_append_eq u none a b (by simp) h

theorem coloured_iff (u : Uni) (c : Str) : Coloured u c ↔ esc ∉ stripAnsi u c ∧ (strip (stripAnsi u c) = [] → strip c = []) := by
  constructor
  · rintro ⟨t, h1, h2, h3⟩
    rw [strips_det (stripAnsi_strips u c) h1]
    refine ⟨h2, ?_⟩
    rw [strip_nil_iff, strip_nil_iff]
    exact h3
  · rintro ⟨h1, h2⟩
    rw [strip_nil_iff, strip_nil_iff] at h2
    exact ⟨_, stripAnsi_strips u c, h1, h2⟩

theorem blank_noesc {s : Str} (h : Blank s) : esc ∉ s := by
  intro hm
  have := h _ hm
  revert this; decide

theorem coloured_blank {u : Uni} {c : Str} (h : Coloured u c) : (strip (stripAnsi u c)).isEmpty = (strip c).isEmpty := by
  obtain ⟨h1, h2⟩ := (coloured_iff u c).1 h
  by_cases hb : strip c = []
  · rw [stripAnsi_noesc u c (blank_noesc ((strip_nil_iff c).1 hb))]
  · have : ¬ strip (stripAnsi u c) = [] := fun e => hb (h2 e)
    rw [show (strip c).isEmpty = false by simpa using hb]
    simpa using this

theorem vlen_strip {u : Uni} {c : Str} (h : Coloured u c) : vlen u (stripAnsi u c) = vlen u c := by
  unfold vlen
  rw [stripAnsi_noesc u _ ((coloured_iff u c).1 h).1]

theorem stripAnsi_flatten (u : Uni) (cs : List Str) (h : ∀ c ∈ cs, Coloured u c) :
    stripAnsi u cs.flatten = (cs.map (stripAnsi u)).flatten := by
  induction cs with
  | nil => rfl
  | cons c cs ih =>
    rw [List.flatten_cons, stripAnsi_append u c _ ((coloured_iff u c).1 (h c (by simp))).1,
      ih (fun d hd => h d (List.mem_cons_of_mem _ hd))]
    rfl

theorem fillLine_map (u : Uni) (w : Int) (cur : List Str) (n : Int) (cs : List Str) (h : ∀ c ∈ cs, Coloured u c) :
    fillLine u w (cur.map (stripAnsi u)) n (cs.map (stripAnsi u)) =
      ((fillLine u w cur n cs).1.map (stripAnsi u), (fillLine u w cur n cs).2.1, (fillLine u w cur n cs).2.2.map (stripAnsi u)) := by
  induction cs generalizing cur n with
  | nil => rfl
  | cons c cs ih =>
    simp only [List.map_cons, fillLine, vlen_strip (h c (by simp))]
    split
    · rw [← ih _ _ (fun d hd => h d (List.mem_cons_of_mem _ hd))]
      simp
    · rfl

theorem dropLead_map (u : Uni) (o : WrapOpts) (le : Bool) (cs : List Str) (h : ∀ c ∈ cs, Coloured u c) :
    dropLead o le (cs.map (stripAnsi u)) = (dropLead o le cs).map (stripAnsi u) := by
  cases cs with
  | nil => rfl
  | cons c cs =>
    simp only [List.map_cons, dropLead, coloured_blank (h c (by simp))]
    split <;> rfl

theorem breakLong_none (u : Uni) (o : WrapOpts) (w : Int) (cur : List Str) (n : Int) (cs : List Str)
    (h : ∀ c ∈ cs, vlen u c ≤ w) : breakLongChunk u o w cur n cs = (cur, n, cs) := by
  cases cs with
  | nil => rfl
  | cons c cs =>
    have := h c (by simp)
    simp only [breakLongChunk]
    rw [if_neg (by omega)]

theorem dropTrail_map (u : Uni) (o : WrapOpts) (cur : List Str) (n : Int) (h : ∀ c ∈ cur, Coloured u c) :
    dropTrail u o (cur.map (stripAnsi u)) n = ((dropTrail u o cur n).1.map (stripAnsi u), (dropTrail u o cur n).2) := by
  unfold dropTrail
  rw [List.getLast?_map]
  cases hl : cur.getLast? with
  | none => rfl
  | some l =>
    have hc := h l (List.mem_of_getLast? hl)
    simp only [Option.map_some, coloured_blank hc, vlen_strip hc]
    split
    · simp [List.map_dropLast]
    · rfl

theorem dropLead_sub (o : WrapOpts) (le : Bool) (cs : List Str) : ∀ c ∈ dropLead o le cs, c ∈ cs := by
  intro c hc
  obtain ⟨lead, h, -⟩ := dropLead_spec o le cs
  rw [h]; simp [hc]

theorem fillLine_sub (u : Uni) (w : Int) (cs : List Str) :
    (∀ c ∈ (fillLine u w [] 0 cs).1, c ∈ cs) ∧ ∀ c ∈ (fillLine u w [] 0 cs).2.2, c ∈ cs := by
  obtain ⟨t, r, h, h1, -⟩ := fillLine_spec u w [] 0 cs
  rw [h, h1]
  constructor <;> intro c hc <;> simp at hc ⊢ <;> simp [hc]

theorem nextLine_map (u : Uni) (o : WrapOpts) (le : Bool) (w : Int) (cs : List Str) (h : ∀ c ∈ cs, Coloured u c)
    (hw : ∀ c ∈ cs, vlen u c ≤ w) :
    nextLine u o le w (cs.map (stripAnsi u)) =
      ((nextLine u o le w cs).1.map (stripAnsi u), (nextLine u o le w cs).2.1, (nextLine u o le w cs).2.2.map (stripAnsi u)) := by
  have hf := fillLine_map u w [] 0 (dropLead o le cs) (fun c hc => h c (dropLead_sub o le cs c hc))
  simp only [List.map_nil] at hf
  have hs := fillLine_sub u w (dropLead o le cs)
  have h1 : ∀ c ∈ (fillLine u w [] 0 (dropLead o le cs)).2.2, c ∈ cs := fun c hc => dropLead_sub o le cs c (hs.2 c hc)
  have h2 : ∀ c ∈ (fillLine u w [] 0 (dropLead o le cs)).1, c ∈ cs := fun c hc => dropLead_sub o le cs c (hs.1 c hc)
  simp only [nextLine, dropLead_map u o le cs h, hf]
  rw [breakLong_none u o w _ _ _ (fun c hc => hw c (h1 c hc))]
  rw [breakLong_none]
  · simp only
    rw [dropTrail_map u o _ _ (fun c hc => h c (h2 c hc))]
  · intro c hc
    simp only [List.mem_map] at hc
    obtain ⟨d, hd, rfl⟩ := hc
    rw [vlen_strip (h d (h1 d hd))]
    exact hw d (h1 d hd)

theorem nextLine_sub (u : Uni) (o : WrapOpts) (le : Bool) (w : Int) (cs : List Str) (hw : ∀ c ∈ cs, vlen u c ≤ w) :
    (∀ c ∈ (nextLine u o le w cs).1, c ∈ cs) ∧ ∀ c ∈ (nextLine u o le w cs).2.2, c ∈ cs := by
  obtain ⟨cur, rest, h1, lead, taken, left, taken', hr⟩ := nextLine_spec u o le w cs
  rw [h1]
  obtain ⟨e1, e2⟩ := round_noLong hr hw
  subst e1; subst e2
  rw [hr.split]
  have ht := hr.trimmed
  constructor
  · intro c hc
    cases ht with
    | keep _ => simp only [List.mem_append]; exact Or.inr (Or.inl hc)
    | drop t' l _ e _ => rw [e]; simp only [List.mem_append]; exact Or.inr (Or.inl (Or.inl hc))
  · intro c hc
    simp only [List.mem_append]; exact Or.inr (Or.inr hc)

theorem map_isEmpty {α β : Type} (f : α → β) (l : List α) : (l.map f).isEmpty = l.isEmpty := by cases l <;> rfl

theorem wrapLoop_map (u : Uni) (o : WrapOpts) (hm : o.maxLines = none) (hi : esc ∉ o.initialIndent)
    (hs : esc ∉ o.subsequentIndent) (f : Nat) (lines cs : List Str) (hc : ∀ c ∈ cs, Coloured u c) (hn : NoLong u o cs) :
    wrapLoop u o f (lines.map (stripAnsi u)) (cs.map (stripAnsi u)) =
      (wrapLoop u o f lines cs).map (List.map (stripAnsi u)) := by
  induction f generalizing lines cs with
  | zero => cases cs <;> rfl
  | succ f ih =>
    cases hcs : cs with
    | nil => rfl
    | cons c cs' =>
      rw [← hcs]
      have e : wrapLoop u o (f + 1) lines cs = if (nextLine u o lines.isEmpty (o.width - len (lineIndent o lines.isEmpty)) cs).1.isEmpty then
          wrapLoop u o f lines (nextLine u o lines.isEmpty (o.width - len (lineIndent o lines.isEmpty)) cs).2.2
          else wrapLoop u o f (lines ++ [lineIndent o lines.isEmpty ++ (nextLine u o lines.isEmpty (o.width - len (lineIndent o lines.isEmpty)) cs).1.flatten])
            (nextLine u o lines.isEmpty (o.width - len (lineIndent o lines.isEmpty)) cs).2.2 := by
        rw [hcs]; simp [wrapLoop, lineAllowed, hm]
      have hw : ∀ c ∈ cs, vlen u c ≤ o.width - len (lineIndent o lines.isEmpty) := by
        rw [lineIndent_eq]; exact noLong_indent hn lines
      have e' : wrapLoop u o (f + 1) (lines.map (stripAnsi u)) (cs.map (stripAnsi u)) =
          if (nextLine u o lines.isEmpty (o.width - len (lineIndent o lines.isEmpty)) cs).1.isEmpty then
          wrapLoop u o f (lines.map (stripAnsi u)) ((nextLine u o lines.isEmpty (o.width - len (lineIndent o lines.isEmpty)) cs).2.2.map (stripAnsi u))
          else wrapLoop u o f (lines.map (stripAnsi u) ++ [lineIndent o lines.isEmpty ++ ((nextLine u o lines.isEmpty (o.width - len (lineIndent o lines.isEmpty)) cs).1.map (stripAnsi u)).flatten])
            ((nextLine u o lines.isEmpty (o.width - len (lineIndent o lines.isEmpty)) cs).2.2.map (stripAnsi u)) := by
        have h1 := nextLine_map u o lines.isEmpty _ cs hc hw
        rw [hcs] at h1 ⊢
        simp only [List.map_cons] at h1 ⊢
        simp only [wrapLoop, lineAllowed, hm, map_isEmpty, h1, if_true]
      obtain ⟨h1, h2⟩ := nextLine_sub u o lines.isEmpty _ cs hw
      rw [e, e']
      split
      · exact ih _ _ (fun c h => hc c (h2 c h)) (fun c h => hn c (h2 c h))
      · rw [← ih _ _ (fun c h => hc c (h2 c h)) (fun c h => hn c (h2 c h))]
        congr 1
        rw [List.map_append, List.map_cons, List.map_nil]
        have hind : esc ∉ lineIndent o lines.isEmpty := by unfold lineIndent; split <;> assumption
        rw [stripAnsi_append u _ _ (by rw [stripAnsi_noesc u _ hind]; exact hind), stripAnsi_noesc u _ hind,
          stripAnsi_flatten u _ (fun c h => hc c (h1 c h))]

theorem wrapLoop_mono (u : Uni) (o : WrapOpts) (f k : Nat) (lines cs out : List Str) (h : wrapLoop u o f lines cs = .ok out) :
    wrapLoop u o (f + k) lines cs = .ok out := by
  induction f generalizing lines cs with
  | zero =>
    cases cs with
    | nil => rw [wrapLoop_nil] at h ⊢; exact h
    | cons c cs => simp [wrapLoop] at h
  | succ f ih =>
    cases cs with
    | nil => rw [wrapLoop_nil] at h ⊢; exact h
    | cons c cs =>
      rw [Nat.add_right_comm]
      simp only [wrapLoop] at h ⊢
      split
      · rename_i hc; rw [if_pos hc] at h; exact ih _ _ h
      · rename_i hc; rw [if_neg hc] at h
        split
        · rename_i hc'; rw [if_pos hc'] at h; exact ih _ _ h
        · rename_i hc'; rw [if_neg hc'] at h; exact h

end Verif
