import Verif.Spec.Fewest
import Verif.Proofs.Prose

/-!
# C98: wrapping makes as few lines as possible
-/

namespace Verif

open Spec

theorem rowVisible_append (u : Uni) (a b : List Str) : visible u (a ++ b) = visible u a + visible u b := by
  simp only [visible_eq, sumLen_append]

theorem visible_nonneg (u : Uni) (a : List Str) : 0 ≤ visible u a := by rw [visible_eq]; exact sumLen_nonneg u a

theorem visible_cons (u : Uni) (c : Str) (b : List Str) : visible u (c :: b) = vlen u c + visible u b := by
  simp only [visible_eq, sumLen]

/-- A greedy row takes at least as much as any other. -/
theorem row_reaches {u : Uni} {o : WrapOpts} {first : Bool} {w : Int} {r : Row} {rest cs skipped taken left : List Str} (hr : r.chunks ≠ [])
    (h2 : o.dropWs = true → first = false → r.skipped = [] → ∀ w, r.taken.head? = some w → ¬ Blank w)
    (h4 : ∀ c, rest.head? = some c → visible u r.taken + vlen u c > w) (hs : r.chunks ++ rest <:+ cs) (hc : cs = skipped ++ (taken ++ left))
    (hk : skipped = [] ∨ o.dropWs = true ∧ first = false ∧ ∃ w, skipped = [w] ∧ Blank w) (ht : visible u taken ≤ w) : rest <:+ left := by
  subst hc
  have s1 : rest <:+ skipped ++ (taken ++ left) := (List.suffix_append _ _).trans hs
  have s2 : left <:+ skipped ++ (taken ++ left) := by rw [← List.append_assoc]; exact List.suffix_append _ _
  rcases List.suffix_or_suffix_of_suffix s1 s2 with h | ⟨m, rfl⟩
  · exact h
  · cases m with
    | nil => exact List.suffix_refl _
    | cons c m =>
      exfalso
      obtain ⟨pre, hp⟩ := hs
      have hp' : (pre ++ r.skipped) ++ (r.taken ++ c :: m) = skipped ++ taken := by
        have : ((pre ++ r.skipped) ++ (r.taken ++ c :: m)) ++ left = (skipped ++ taken) ++ left := by
          simpa [Row.chunks] using hp
        exact List.append_cancel_right this
      have hfull := h4 c rfl
      have big : ∀ q, taken = q ++ (r.taken ++ c :: m) → False := by
        rintro q rfl
        have a1 := visible_nonneg u q
        have a2 := visible_nonneg u m
        rw [rowVisible_append, rowVisible_append, visible_cons] at ht
        omega
      rcases hk with rfl | ⟨hd, hf, w', rfl, hb⟩
      · exact big (pre ++ r.skipped) (by simpa using hp'.symm)
      · cases hq : pre ++ r.skipped with
        | nil =>
          rw [hq, List.nil_append] at hp'
          have he : r.skipped = [] := (List.append_eq_nil_iff.1 hq).2
          cases htk : r.taken with
          | nil => exact hr (by simp [Row.chunks, he, htk])
          | cons x t =>
            rw [htk] at hp'
            simp only [List.cons_append, List.nil_append, List.cons.injEq] at hp'
            exact h2 hd hf he x (by rw [htk]; rfl) (hp'.1 ▸ hb)
        | cons x q =>
          rw [hq] at hp'
          simp only [List.cons_append, List.nil_append, List.cons.injEq] at hp'
          exact big q hp'.2.symm

theorem chunks_nil {rows : List Row} (h : ∀ r ∈ rows, r.chunks ≠ []) (e : (rows.map Row.chunks).flatten = []) : rows = [] := by
  cases rows with
  | nil => rfl
  | cons r rows =>
    rw [List.map_cons, List.flatten_cons, List.append_eq_nil_iff] at e
    exact absurd e.1 (h r (by simp))

/-- A single whitespace chunk gives no line. -/
theorem blank_row {o : WrapOpts} {r : Row} {shown : List Str} {w : Str} (hd : o.dropWs = true) (hb : Blank w) (hr : r.chunks = [w])
    (h : shown = r.taken ∧ (o.dropWs = true → ∀ w, shown.getLast? = some w → ¬ Blank w) ∨ o.dropWs = true ∧ ∃ w, Blank w ∧ r.taken = shown ++ [w]) :
    shown = [] := by
  have ht : r.taken = [] ∨ r.taken = [w] := by
    cases hs : r.skipped with
    | nil => right; simpa [Row.chunks, hs] using hr
    | cons x s => left; simp [Row.chunks, hs] at hr; exact hr.2.2
  rcases h with ⟨rfl, h⟩ | ⟨-, w', -, h⟩
  · rcases ht with ht | ht
    · exact ht
    · rw [ht] at h; exact absurd hb (h hd w rfl)
  · rcases ht with ht | ht
    · rw [ht] at h; simp at h
    · rw [ht] at h
      cases shown with
      | nil => rfl
      | cons x s => simp at h

theorem one_chunk {r : Row} {rows : List Row} {w : Str} (hne : ∀ r' ∈ r :: rows, r'.chunks ≠ [])
    (h : r.chunks ++ (rows.map Row.chunks).flatten <:+ [w]) : r.chunks = [w] ∧ rows = [] := by
  obtain ⟨pre, hp⟩ := h
  have hr := hne r (by simp)
  have hl := congrArg List.length hp
  have h1 : 0 < r.chunks.length := List.length_pos_iff.2 hr
  simp only [List.length_append, List.length_singleton] at hl
  have e1 : pre = [] := List.eq_nil_of_length_eq_zero (by omega)
  have e2 : (rows.map Row.chunks).flatten = [] := List.eq_nil_of_length_eq_zero (by omega)
  subst e1
  rw [e2] at hp
  exact ⟨by simpa using hp, chunks_nil (fun r' hr' => hne r' (by simp [hr'])) e2⟩

/-- After the first line. -/
theorem greedy_later {u : Uni} {o : WrapOpts} {rows : List Row} {lines out : List Str} (hl : lines ≠ []) (hne : ∀ r ∈ rows, r.chunks ≠ [])
    (hg : Greedy u o lines rows out) {k n : Nat} {cs : List Str} (hk : 0 < k) (ha : Arranged u o k cs n)
    (hs : (rows.map Row.chunks).flatten <:+ cs) : out.length ≤ lines.length + n := by
  induction rows generalizing lines k n cs with
  | nil => rw [show out = lines from hg]; omega
  | cons r rows ih =>
    obtain ⟨-, g2, -, g4, shown, g5, g6⟩ := hg
    rw [List.map_cons, List.flatten_cons] at hs
    have hne' : ∀ r' ∈ rows, r'.chunks ≠ [] := fun r' hr' => hne r' (by simp [hr'])
    cases ha with
    | done =>
      have := List.append_eq_nil_iff.1 (List.suffix_nil.1 hs)
      exact absurd this.1 (hne r (by simp))
    | drop hd hb =>
      obtain ⟨e1, rfl⟩ := one_chunk hne hs
      have := blank_row hd hb e1 g5
      rw [if_pos this] at g6
      rw [show out = lines from g6]; omega
    | line hsk ht hw ha =>
      rename_i n' skipped taken left
      have hreach : (rows.map Row.chunks).flatten <:+ left := by
        refine row_reaches (first := false) (hne r (by simp)) (fun a _ c => g2 a hl c) g4 hs rfl
          (hsk.imp id (fun q => ⟨q.1, rfl, q.2.2⟩)) ?_
        rw [indentAfter, if_neg hl]
        rw [lineRoom, if_neg (by omega)] at hw
        exact hw
      have := ih (lines := if shown = [] then lines else lines ++ [indentAfter o lines ++ shown.flatten]) (by split <;> simp [hl]) hne' g6
        (Nat.succ_pos k) ha hreach
      have hlen : (if shown = [] then lines else lines ++ [indentAfter o lines ++ shown.flatten]).length ≤ lines.length + 1 := by
        split <;> simp
      omega

/-- If the first line is still to come, there is at most one more. -/
theorem greedy_behind {u : Uni} {o : WrapOpts} {rows : List Row} {out : List Str} (hne : ∀ r ∈ rows, r.chunks ≠ [])
    (hg : Greedy u o [] rows out) {k n : Nat} {cs : List Str} (hk : 0 < k) (ha : Arranged u o k cs n)
    (hs : (rows.map Row.chunks).flatten <:+ cs) : out.length ≤ n + 1 := by
  induction rows with
  | nil => rw [show out = [] from hg]; simp
  | cons r rows ih =>
    obtain ⟨-, -, -, -, shown, -, g6⟩ := hg
    rw [List.map_cons, List.flatten_cons] at hs
    have hs' := (List.suffix_append _ _).trans hs
    have hne' : ∀ r' ∈ rows, r'.chunks ≠ [] := fun r' hr' => hne r' (by simp [hr'])
    by_cases he : shown = []
    · rw [if_pos he] at g6; exact ih hne' g6 hs'
    · rw [if_neg he] at g6
      have := greedy_later (by simp) hne' g6 hk ha hs'
      simp at this
      omega

theorem greedy_fewest {u : Uni} {o : WrapOpts} {rows : List Row} {out : List Str} (hne : ∀ r ∈ rows, r.chunks ≠ [])
    (hg : Greedy u o [] rows out) {n : Nat} (ha : Arranged u o 0 (rows.map Row.chunks).flatten n) : out.length ≤ n := by
  cases rows with
  | nil => rw [show out = [] from hg]; simp
  | cons r rows =>
    obtain ⟨g1, -, -, g4, shown, g5, g6⟩ := hg
    rw [List.map_cons, List.flatten_cons] at ha
    have hne' : ∀ r' ∈ rows, r'.chunks ≠ [] := fun r' hr' => hne r' (by simp [hr'])
    generalize hcs : r.chunks ++ (rows.map Row.chunks).flatten = cs at ha
    cases ha with
    | done => exact absurd (List.append_eq_nil_iff.1 hcs).1 (hne r (by simp))
    | drop hd hb =>
      obtain ⟨e1, rfl⟩ := one_chunk hne (by rw [hcs]; exact List.suffix_refl _)
      rw [if_pos (blank_row hd hb e1 g5)] at g6
      rw [show out = [] from g6]; simp
    | line hsk ht hw ha =>
      rename_i n' skipped taken left
      have hreach : (rows.map Row.chunks).flatten <:+ left := by
        refine row_reaches (o := o) (first := true) (hne r (by simp)) (fun _ q => by cases q) g4 (by rw [hcs]; exact List.suffix_refl _) rfl
          (.inl (hsk.resolve_right (fun q => absurd q.2.1 (by omega)))) ?_
        simpa [indentAfter, lineRoom] using hw
      by_cases he : shown = []
      · rw [if_pos he] at g6
        exact greedy_behind hne' g6 (Nat.succ_pos 0) ha hreach
      · rw [if_neg he] at g6
        have := greedy_later (by simp) hne' g6 (Nat.succ_pos 0) ha hreach
        simp at this
        omega

/-- No way to put the pieces of the text on lines takes fewer lines than wrapping. -/
theorem C98 (u : Uni) (o : WrapOpts) (text : Str) (out : List Str) (hm : o.maxLines = none)
    (hi : len o.initialIndent ≤ o.width) (hs : len o.subsequentIndent ≤ o.width) (hn : NoLong u o (wrapInput u o text))
    (h : wrap u o text = .ok out) (n : Nat) (ha : Arranged u o 0 (wrapInput u o text) n) : out.length ≤ n := by
  obtain ⟨rows, h1, h2, h3⟩ := C21 u o text out hm hi hs hn h
  rw [← h1] at ha
  exact greedy_fewest h2 h3 ha

/-! ## Words -/

/-- The words with blanks between them. -/
def spaced : List Str → List Str
  | [] => []
  | [w] => [w]
  | w :: v :: r => w :: py" " :: spaced (v :: r)

theorem spaced_flatten (ws : List Str) : (spaced ws).flatten = join py" " ws := by
  fun_induction spaced ws with
  | case1 => rfl
  | case2 w => simp [join]
  | case3 w v r ih => simp [join, ih]

theorem spaced_chunks {ws : List Str} (h : ∀ w ∈ ws, w ≠ [] ∧ ∀ c ∈ w, isTwSpace c = false) : simpleChunks (spaced ws).flatten = spaced ws := by
  fun_induction spaced ws with
  | case1 => rfl
  | case2 w => simpa [simpleChunks] using simpleChunks_run (b := false) (s := []) (h w (by simp)) (by simp)
  | case3 w v r ih =>
    have hv := h v (by simp)
    have ih := ih (fun x hx => h x (by simp [hx]))
    obtain ⟨t, ht⟩ : ∃ t, spaced (v :: r) = v :: t := by cases r <;> exact ⟨_, rfl⟩
    rw [List.flatten_cons, List.flatten_cons, simpleChunks_run (b := false) (h w (by simp)) (by simp; decide),
      simpleChunks_run (b := true) (p := py" ") ⟨by simp, by decide⟩, ih]
    intro c hc
    rw [ht, List.flatten_cons] at hc
    exact uniform_head (b := false) hv c hc

theorem spaced_mem {ws : List Str} {c : Str} (h : c ∈ spaced ws) : c ∈ ws ∨ c = py" " := by
  fun_induction spaced ws with
  | case1 => cases h
  | case2 w => exact .inl h
  | case3 w v r ih =>
    simp only [List.mem_cons] at h ih ⊢
    rcases h with h | h | h
    · exact .inl (.inl h)
    · exact .inr h
    · exact (ih h).imp .inr id

theorem wrapInput_spaced {u : Uni} {o : WrapOpts} {ws : List Str} (hf : o.fixSentence = false)
    (h : ∀ w ∈ ws, w ≠ [] ∧ ∀ c ∈ w, isTwSpace c = false) (hh : o.breakHyphens = true → ∀ w ∈ ws, '-' ∉ w) :
    wrapInput u o (join py" " ws) = spaced ws := by
  have hmem : ∀ x, x ∈ (spaced ws).flatten → x = ' ' ∨ ∃ w ∈ ws, x ∈ w := by
    intro x hx
    obtain ⟨c, hc, hx⟩ := List.mem_flatten.1 hx
    rcases spaced_mem hc with hc | rfl
    · exact .inr ⟨c, hc, hx⟩
    · exact .inl (by simpa using hx)
  have hm : munge o (spaced ws).flatten = (spaced ws).flatten := by
    rw [munge_flatten o _ (fun _ ht => by
      rcases hmem _ ht with e | ⟨w, hw, hx⟩
      · cases e
      · exact absurd ((h w hw).2 _ hx) (by decide))]
    congr 1
    conv => rhs; rw [← List.map_id (spaced ws)]
    refine List.map_congr_left fun c hc => ?_
    rcases spaced_mem hc with hc | rfl
    · exact mungePiece_word (h c hc).2
    · unfold mungePiece; split <;> rfl
  have hd : o.breakHyphens = true → '-' ∉ (spaced ws).flatten := by
    intro hb hx
    rcases hmem _ hx with e | ⟨w, hw, hx⟩
    · cases e
    · exact hh hb w hw hx
  rw [wrapInput, ← spaced_flatten, hm, splitChunks_simple u o _ hd, spaced_chunks h]
  simp [hf]

theorem visible_spaced {u : Uni} {ws : List Str} (h : ws ≠ []) : visible u (spaced ws) = visible u ws + (ws.length - 1) := by
  fun_induction spaced ws with
  | case1 => exact absurd rfl h
  | case2 w => simp
  | case3 w v r ih =>
    have e : vlen u py" " = 1 := rfl
    have ih := ih (by simp)
    simp only [visible_cons, List.length_cons, e] at ih ⊢
    rw [ih]
    omega

theorem spaced_append {a b : List Str} (ha : a ≠ []) (hb : b ≠ []) : spaced (a ++ b) = spaced a ++ py" " :: spaced b := by
  fun_induction spaced a with
  | case1 => exact absurd rfl ha
  | case2 w =>
    cases b with
    | nil => exact absurd rfl hb
    | cons v r => rfl
  | case3 w v r ih => rw [List.cons_append, List.cons_append, spaced, ← List.cons_append, ih (by simp)]; rfl

theorem spaced_ne {a : List Str} (h : a ≠ []) : spaced a ≠ [] := by
  fun_cases spaced a <;> simp_all

theorem grouped_arranged {u : Uni} {o : WrapOpts} (hd : o.dropWs = true) {k : Nat} {ws : List Str} {gs : List (List Str)} (h : Grouped u o k ws gs) :
    ws ≠ [] → Arranged u o k (spaced ws) gs.length ∧ (0 < k → Arranged u o k (py" " :: spaced ws) gs.length) := by
  induction h with
  | done => intro q; exact absurd rfl q
  | line hg hw hr ih =>
    rename_i k g ws gs
    intro _
    rw [← visible_spaced hg] at hw
    have hb : Blank py" " := by intro c hc; simp at hc; rw [hc]; decide
    have hrest : ∃ rest, spaced (g ++ ws) = spaced g ++ rest ∧ Arranged u o (k + 1) rest gs.length := by
      cases ws with
      | nil =>
        generalize hx : ([] : List Str) = x at hr
        cases hr with
        | done => exact ⟨[], by simp, .done⟩
        | line hg' => simp at hx; exact absurd hx.1 hg'
      | cons v r => exact ⟨_, spaced_append hg (by simp), (ih (by simp)).2 (Nat.succ_pos k)⟩
    obtain ⟨rest, e, ha⟩ := hrest
    rw [e]
    refine ⟨.line (skipped := []) (.inl rfl) (spaced_ne hg) hw ha, fun hk => ?_⟩
    exact .line (skipped := [py" "]) (.inr ⟨hd, hk, _, rfl, hb⟩) (spaced_ne hg) hw ha

/-- For words with single blanks between them: whatever words are put on which line, wrapping takes no more lines. -/
theorem C98_words (u : Uni) (o : WrapOpts) (ws : List Str) (out : List Str) (hm : o.maxLines = none) (hd : o.dropWs = true)
    (hf : o.fixSentence = false) (hi : len o.initialIndent < o.width) (hs : len o.subsequentIndent < o.width)
    (h : ∀ w ∈ ws, w ≠ [] ∧ ∀ c ∈ w, isTwSpace c = false) (hh : o.breakHyphens = true → ∀ w ∈ ws, '-' ∉ w)
    (hl : ∀ w ∈ ws, vlen u w ≤ o.width - len o.initialIndent ∧ vlen u w ≤ o.width - len o.subsequentIndent)
    (hw : wrap u o (join py" " ws) = .ok out) (gs : List (List Str)) (hg : Grouped u o 0 ws gs) : out.length ≤ gs.length := by
  have e := wrapInput_spaced (u := u) hf h hh
  by_cases hne : ws = []
  · subst hne
    have : wrapInput u o (join py" " []) = [] := by rw [e]; rfl
    refine Nat.le_trans (C98 u o _ out hm (by omega) (by omega) ?_ hw 0 ?_) (Nat.zero_le _)
    · rw [this]; simp [NoLong]
    · rw [this]; exact .done
  · refine C98 u o _ out hm (by omega) (by omega) ?_ hw _ (by rw [e]; exact (grouped_arranged hd hg hne).1)
    rw [e]
    intro c hc
    rcases spaced_mem hc with hc | rfl
    · exact hl c hc
    · have e1 : vlen u py" " = 1 := rfl
      rw [e1]; omega

/-! ## Wider lines -/

theorem lineRoom_after (o : WrapOpts) (lines : List Str) : lineRoom o lines.length = o.width - len (indentAfter o lines) := by
  unfold lineRoom indentAfter
  cases lines <;> simp

/-- The rows of greedy filling can also be put on other lines with at least as much room. -/
theorem greedy_arranged {u : Uni} {o o' : WrapOpts} (ho : o'.dropWs = o.dropWs) (hw : ∀ k, lineRoom o k ≤ lineRoom o' k)
    {rows : List Row} {lines out : List Str} (hn : NoLong u o (rows.map Row.chunks).flatten) (ht : Tidy (rows.map Row.chunks).flatten)
    (hne : ∀ r ∈ rows, r.chunks ≠ []) (h0 : lines = [] → ∀ c, (rows.map Row.chunks).flatten.head? = some c → ¬ Blank c)
    (hg : Greedy u o lines rows out) :
    ∃ n, Arranged u o' lines.length (rows.map Row.chunks).flatten n ∧ out.length = lines.length + n := by
  induction rows generalizing lines with
  | nil => exact ⟨0, .done, by rw [show out = lines from hg]; rfl⟩
  | cons r rows ih =>
    obtain ⟨g1, g2, g3, g4, shown, g5, g6⟩ := hg
    rw [List.map_cons, List.flatten_cons] at hn ht h0 ⊢
    have hne' : ∀ r' ∈ rows, r'.chunks ≠ [] := fun r' hr' => hne r' (by simp [hr'])
    rw [← lineRoom_after] at g3 g4
    have hroom := hw lines.length
    -- a line is shown
    have line : r.taken ≠ [] → shown ≠ [] → ∃ n, Arranged u o' lines.length (r.chunks ++ (rows.map Row.chunks).flatten) n ∧
        out.length = lines.length + n := by
      intro hk he
      rw [if_neg he] at g6
      obtain ⟨n, a1, a2⟩ := ih (fun c hc => hn c (by simp [hc])) (tidy_right ht) hne' (fun q => by simp at q) g6
      rw [List.length_append, List.length_singleton] at a1 a2
      refine ⟨n + 1, ?_, by omega⟩
      rw [Row.chunks, List.append_assoc]
      refine .line ?_ hk (by omega) a1
      rcases g1 with q | ⟨q1, q2, q3⟩
      · exact .inl q
      · exact .inr ⟨by rw [ho, q1], List.length_pos_iff.2 q2, q3⟩
    cases hd : o.dropWs with
    | false =>
      have e1 : r.skipped = [] := g1.resolve_right (fun q => by rw [hd] at q; exact absurd q.1 (by simp))
      have e2 : shown = r.taken := (g5.resolve_right (fun q => by rw [hd] at q; exact absurd q.1 (by simp))).1
      have hk : r.taken ≠ [] := fun q => hne r (by simp) (by simp [Row.chunks, e1, q])
      exact line hk (e2 ▸ hk)
    | true =>
      have hhead : ∀ x t, r.taken = x :: t → ¬ Blank x := by
        intro x t e hb
        rcases g1 with q | ⟨hd, hl, s, q, hs⟩
        · by_cases hl : lines = []
          · exact h0 hl x (by simp [Row.chunks, q, e]) hb
          · exact g2 hd hl q x (by rw [e]; rfl) hb
        · have ha := ht.alt
          have hp := ht.pure
          simp only [Row.chunks, q, e, List.cons_append, List.nil_append] at ha hp
          have h1 := space_of_blank (hp s (by simp)) ((strip_nil_iff s).2 hs)
          exact not_both (ha.1 h1) (space_of_blank (hp x (by simp)) ((strip_nil_iff x).2 hb))
      cases htk : r.taken with
      | nil =>
        rcases g1 with q | ⟨-, hl, s, q, hs⟩
        · exact absurd (by simp [Row.chunks, q, htk]) (hne r (by simp))
        · have hz : shown = [] := by
            rcases g5 with ⟨e, -⟩ | ⟨-, w, -, e⟩
            · rw [e, htk]
            · rw [htk] at e; simp at e
          have hrows : rows = [] := by
            refine chunks_nil hne' ?_
            cases hf : (rows.map Row.chunks).flatten with
            | nil => rfl
            | cons c t =>
              have := g4 c (by rw [hf]; rfl)
              have hc := hn c (by rw [hf]; simp)
              rw [htk, lineRoom_after, indentAfter, if_neg hl] at this
              simp only [visible, List.map_nil, List.sum_nil] at this
              omega
          subst hrows
          rw [if_pos hz] at g6
          refine ⟨0, ?_, by rw [show out = lines from g6]; rfl⟩
          simp only [Row.chunks, q, htk, List.append_nil, List.map_nil, List.flatten_nil]
          exact .drop (by rw [ho, hd]) hs
      | cons x t =>
        refine line (by rw [htk]; simp) ?_
        rintro rfl
        rcases g5 with ⟨e, -⟩ | ⟨-, w, hb, e⟩
        · rw [htk] at e; cases e
        · exact hhead x t htk (by rw [htk] at e; simp at e; rw [e.1]; exact hb)

/-- The same if a blank comes before the text: on the narrower line it may be left out; then the first word fills the line, and there is room
for both on a line that is wider. -/
theorem greedy_arranged_blank {u : Uni} {o o' : WrapOpts} (ho : o'.dropWs = o.dropWs) (hd : o.dropWs = true) (hw : ∀ k, lineRoom o k ≤ lineRoom o' k)
    (hw0 : lineRoom o 0 + 1 ≤ lineRoom o' 0) {rows : List Row} {out : List Str} {x : Str} {cs : List Str}
    (hc : (rows.map Row.chunks).flatten = x :: cs) (hb : Blank x) (hv : vlen u x = 1)
    (hn : NoLong u o (rows.map Row.chunks).flatten) (ht : Tidy (rows.map Row.chunks).flatten) (hne : ∀ r ∈ rows, r.chunks ≠ [])
    (hg : Greedy u o [] rows out) : ∃ n, Arranged u o' 0 (rows.map Row.chunks).flatten n ∧ out.length = n := by
  cases rows with
  | nil => cases hc
  | cons r rows =>
    obtain ⟨g1, g2, g3, g4, shown, g5, g6⟩ := hg
    have hsk : r.skipped = [] := g1.resolve_right (fun q => q.2.1 rfl)
    have hne' : ∀ r' ∈ rows, r'.chunks ≠ [] := fun r' hr' => hne r' (by simp [hr'])
    rw [List.map_cons, List.flatten_cons] at hn ht hc ⊢
    rw [show indentAfter o [] = o.initialIndent from rfl] at g3 g4
    have hroom : ∀ {o : WrapOpts}, lineRoom o 0 = o.width - len o.initialIndent := fun {o} => by simp [lineRoom]
    have htk : ∃ t, r.taken = x :: t := by
      cases e : r.taken with
      | nil => exact absurd (by simp [Row.chunks, hsk, e]) (hne r (by simp))
      | cons y t =>
        simp [Row.chunks, hsk, e] at hc
        exact ⟨t, by rw [hc.1]⟩
    obtain ⟨t, htk⟩ := htk
    by_cases hs : shown = []
    · -- only the blank
      have e1 : r.taken = [x] := by
        rcases g5 with ⟨e, -⟩ | ⟨-, w, -, e⟩
        · rw [← e, hs] at htk; cases htk
        · rw [hs, htk] at e; simp at e; rw [htk, e.2]
      rw [if_pos hs] at g6
      have e2 : r.chunks = [x] := by simp [Row.chunks, hsk, e1]
      rw [e2] at hn ht ⊢
      cases rows with
      | nil =>
        refine ⟨0, ?_, by rw [show out = [] from g6]; rfl⟩
        exact .drop (by rw [ho, hd]) hb
      | cons r2 rows =>
        obtain ⟨k1, k2, k3, k4, shown2, k5, k6⟩ := g6
        have hsk2 : r2.skipped = [] := k1.resolve_right (fun q => q.2.1 rfl)
        rw [List.map_cons, List.flatten_cons] at g4 hn ht ⊢
        rw [show indentAfter o [] = o.initialIndent from rfl] at k3
        obtain ⟨y, t2, htk2⟩ : ∃ y t, r2.taken = y :: t := by
          cases e : r2.taken with
          | nil => exact absurd (by simp [Row.chunks, hsk2, e]) (hne' r2 (by simp))
          | cons y t => exact ⟨y, t, rfl⟩
        have e3 : r2.chunks = r2.taken := by simp [Row.chunks, hsk2]
        rw [e3] at hn ht ⊢
        have hy : ¬ Blank y := by
          intro hb'
          have ha := ht.alt
          have hp := ht.pure
          rw [htk2] at ha hp
          simp only [List.singleton_append, List.cons_append] at ha hp
          have h1 := space_of_blank (hp x (by simp)) ((strip_nil_iff x).2 hb)
          exact not_both (ha.1 h1) (space_of_blank (hp y (by simp)) ((strip_nil_iff y).2 hb'))
        have hs2 : shown2 ≠ [] := by
          rintro rfl
          rcases k5 with ⟨e, -⟩ | ⟨-, w, hbw, e⟩
          · rw [htk2] at e; cases e
          · rw [htk2] at e; simp at e; exact hy (e.1 ▸ hbw)
        rw [if_neg hs2] at k6
        obtain ⟨n, a1, a2⟩ := greedy_arranged ho hw (fun c hc => hn c (by simp only [List.mem_append]; exact .inr (.inr hc)))
          (tidy_right (tidy_right ht)) (fun r' hr' => hne' r' (by simp [hr'])) (fun q => by simp at q) k6
        refine ⟨n + 1, ?_, by rw [a2]; simp; omega⟩
        have := Arranged.line (u := u) (o := o') (k := 0) (skipped := []) (taken := x :: r2.taken) (.inl rfl) (by simp) ?_ a1
        · simpa using this
        · have h1 : visible u (x :: r2.taken) = 1 + visible u r2.taken := by simp [visible, hv]
          rw [h1, hroom]
          rw [hroom, hroom] at hw0
          omega
    · rw [if_neg hs] at g6
      obtain ⟨n, a1, a2⟩ := greedy_arranged ho hw (fun c hc => hn c (by simp only [List.mem_append]; exact .inr hc)) (tidy_right ht) hne' (fun q => by simp at q) g6
      refine ⟨n + 1, ?_, by rw [a2]; simp; omega⟩
      have := Arranged.line (u := u) (o := o') (k := 0) (skipped := []) (taken := r.taken) (.inl rfl) (by rw [htk]; simp) ?_ a1
      · simpa [Row.chunks, hsk] using this
      · have := hw 0
        rw [hroom] at this ⊢
        rw [hroom] at this
        omega

theorem munge_head {o : WrapOpts} {c : Char} {r : Str} (h : isSpace c = false) : ∃ t, munge o (c :: r) = c :: t := by
  have h1 : isTwSpace c = false := by
    cases e : isTwSpace c with
    | false => rfl
    | true => rw [tw_isSpace c e] at h; cases h
  have ht : c ≠ '\t' := by rintro rfl; revert h; decide
  obtain ⟨t, e⟩ : ∃ t, (if o.expandTabs then expandtabs o.tabsize (c :: r) else c :: r) = c :: t := by
    split
    · simp only [expandtabs, expandtabsFrom]
      rw [if_neg ht]
      split <;> exact ⟨_, rfl⟩
    · exact ⟨_, rfl⟩
  unfold munge
  simp only [e]
  split
  · refine ⟨t.map (fun c => if isTwSpace c then ' ' else c), ?_⟩
    simp [h1]
  · exact ⟨_, rfl⟩

theorem wrapInput_head {u : Uni} {o : WrapOpts} {s : Str} (hp : PlainWs s) (hs : ¬ StartsWs s) (b : Str) (h : (wrapInput u o s).head? = some b) :
    ¬ Blank b := by
  have ht : Tidy (splitChunks u o (munge o s)) := by
    have hm := munge_plain o s hp
    unfold splitChunks
    split
    · exact (chunkGo_tidy u [] .fresh [] _ rfl (by simpa using hm)).1
    · exact (simpleChunks_tidy _ hm).1
  have hb : (splitChunks u o (munge o s)).head? = some b := by
    unfold wrapInput at h
    simp only at h
    split at h
    · exact (fixSentence_tidy _ ht).2 b h
    · exact h
  have hf := splitChunks_flatten u o (munge o s)
  cases hq : splitChunks u o (munge o s) with
  | nil => rw [hq] at hb; cases hb
  | cons x q =>
    rw [hq] at hb hf ht
    cases hb
    have hne : b ≠ [] := by rcases ht.pure b (by simp) with h | h <;> exact h.1
    cases s with
    | nil =>
      exfalso
      have : munge o [] = [] := by unfold munge; simp [expandtabs, expandtabsFrom]
      rw [this, List.flatten_cons] at hf
      exact hne (List.append_eq_nil_iff.1 hf).1
    | cons c r =>
      have hc : isSpace c = false := by
        cases e : isSpace c with
        | false => rfl
        | true => exact absurd ⟨c, rfl, e⟩ hs
      obtain ⟨t, e⟩ := munge_head (o := o) (r := r) hc
      rw [e, List.flatten_cons] at hf
      cases b with
      | nil => exact absurd rfl hne
      | cons y b =>
        simp at hf
        intro hb
        have := hb y (by simp)
        rw [hf.1, hc] at this
        cases this

theorem munge_blank {o : WrapOpts} {t : Str} (hs : ¬ StartsWs t) : ∃ t', munge o (' ' :: t) = ' ' :: t' ∧ ¬ StartsWs t' := by
  have key : ∀ col, ¬ StartsWs (expandtabsFrom o.tabsize col t) := by
    intro col
    cases t with
    | nil => simp [expandtabsFrom, StartsWs]
    | cons c r =>
      have hc : isSpace c = false := by
        cases e : isSpace c with
        | false => rfl
        | true => exact absurd ⟨c, rfl, e⟩ hs
      have ht : c ≠ '\t' := by rintro rfl; revert hc; decide
      simp only [expandtabsFrom]
      rw [if_neg ht]
      split <;> simp [StartsWs, hc]
  have map : ∀ s : Str, ¬ StartsWs s → ¬ StartsWs (s.map (fun c => if isTwSpace c then ' ' else c)) := by
    intro s h
    cases s with
    | nil => simpa using h
    | cons c r =>
      have hc : isSpace c = false := by
        cases e : isSpace c with
        | false => rfl
        | true => exact absurd ⟨c, rfl, e⟩ h
      have h1 : isTwSpace c = false := by
        cases e : isTwSpace c with
        | false => rfl
        | true => rw [tw_isSpace c e] at hc; cases hc
      simp [StartsWs, h1, hc]
  obtain ⟨t1, e, h1⟩ : ∃ t1, (if o.expandTabs then expandtabs o.tabsize (' ' :: t) else ' ' :: t) = ' ' :: t1 ∧ ¬ StartsWs t1 := by
    split
    · exact ⟨expandtabsFrom o.tabsize 1 t, by simp [expandtabs, expandtabsFrom], key 1⟩
    · exact ⟨t, rfl, hs⟩
  unfold munge
  simp only [e]
  split
  · exact ⟨_, by rw [List.map_cons]; rfl, map _ h1⟩
  · exact ⟨_, rfl, h1⟩

theorem wrapInput_blank {u : Uni} {o : WrapOpts} {t : Str} (hp : PlainWs (' ' :: t)) (hs : ¬ StartsWs t) :
    ∃ cs, wrapInput u o (' ' :: t) = py" " :: cs := by
  obtain ⟨t', em, ht'⟩ := munge_blank (o := o) hs
  have ht : Tidy (splitChunks u o (munge o (' ' :: t))) := by
    have hm := munge_plain o _ hp
    unfold splitChunks
    split
    · exact (chunkGo_tidy u [] .fresh [] _ rfl (by simpa using hm)).1
    · exact (simpleChunks_tidy _ hm).1
  have hf := splitChunks_flatten u o (munge o (' ' :: t))
  rw [em] at hf ht
  cases hq : splitChunks u o (' ' :: t') with
  | nil => rw [hq] at hf; cases hf
  | cons x q =>
    rw [hq] at hf ht
    have hx : x = py" " := by
      cases x with
      | nil => rcases ht.pure [] (by simp) with h | h <;> exact absurd rfl h.1
      | cons a r =>
        simp at hf
        obtain ⟨rfl, hf⟩ := hf
        cases r with
        | nil => rfl
        | cons a r =>
          exfalso
          have hb : isSpace a = true := by
            rcases ht.pure (' ' :: a :: r) (by simp) with h | h
            · exact absurd (h.2 ' ' (by simp)) (by decide)
            · exact h.2 a (by simp)
          exact ht' ⟨a, by rw [← hf]; rfl, hb⟩
    subst hx
    unfold wrapInput
    simp only [em, hq]
    split
    · cases hh : fixSentenceEndings (py" " :: q) with
      | nil =>
        exfalso
        cases q with
        | nil => simp [fixSentenceEndings] at hh
        | cons b q =>
          simp only [fixSentenceEndings] at hh
          split at hh <;> cases hh
      | cons y ys =>
        have := (fixSentence_tidy _ ht).2 y (by rw [hh]; rfl)
        simp at this
        subst this
        exact ⟨_, rfl⟩
    · exact ⟨_, rfl⟩

/-- The options with another width and other indents. -/
def resized (o : WrapOpts) (w : Int) (a b : Str) : WrapOpts := { o with width := w, initialIndent := a, subsequentIndent := b }

/-- With more room (a wider line, or smaller indents) the text does not take more lines, if it has no whitespace before it and no chunk longer
than a line. -/
theorem C98_wider (u : Uni) (o : WrapOpts) (w : Int) (a b : Str) (text : Str) (out out' : List Str) (hm : o.maxLines = none) (hp : PlainWs text)
    (hst : ¬ StartsWs text) (hi : len o.initialIndent ≤ o.width) (hs : len o.subsequentIndent ≤ o.width)
    (hn : NoLong u o (wrapInput u o text)) (h1 : o.width - len o.initialIndent ≤ w - len a) (h2 : o.width - len o.subsequentIndent ≤ w - len b)
    (h : wrap u o text = .ok out) (h' : wrap u (resized o w a b) text = .ok out') : out'.length ≤ out.length := by
  obtain ⟨rows, r1, r2, r3⟩ := C21 u o text out hm hi hs hn h
  have hw : ∀ k, lineRoom o k ≤ lineRoom (resized o w a b) k := by
    intro k
    unfold lineRoom resized
    split <;> simp <;> omega
  obtain ⟨n, a1, a2⟩ := greedy_arranged (o := o) (o' := resized o w a b) rfl hw (by rw [r1]; exact hn) (by rw [r1]; exact wrapInput_tidy u o text hp) r2
    (fun _ => by rw [r1]; exact wrapInput_head hp hst) r3
  rw [r1] at a1
  have e : wrapInput u (resized o w a b) text = wrapInput u o text := rfl
  have := C98 u (resized o w a b) text out' hm (by show len a ≤ w; omega) (by show len b ≤ w; omega) (fun c hc => by
    have := hn c (by rw [← e]; exact hc)
    show vlen u c ≤ w - len a ∧ vlen u c ≤ w - len b
    omega) h' n (by rw [e]; exact a1)
  simp at a2
  omega

/-- One blank before the text makes no difference: a wider line does not take more lines. -/
theorem C98_wider_blank (u : Uni) (o : WrapOpts) (w : Int) (t : Str) (out out' : List Str) (hm : o.maxLines = none) (hd : o.dropWs = true)
    (hp : PlainWs (' ' :: t)) (hst : ¬ StartsWs t) (hi : len o.initialIndent ≤ o.width) (hs : len o.subsequentIndent ≤ o.width)
    (hn : NoLong u o (wrapInput u o (' ' :: t))) (hw : o.width ≤ w)
    (h : wrap u o (' ' :: t) = .ok out) (h' : wrap u (resized o w o.initialIndent o.subsequentIndent) (' ' :: t) = .ok out') :
    out'.length ≤ out.length := by
  by_cases he : w = o.width
  · subst he
    have e : resized o o.width o.initialIndent o.subsequentIndent = o := rfl
    rw [e, h] at h'
    cases h'
    exact Nat.le_refl _
  · obtain ⟨rows, r1, r2, r3⟩ := C21 u o _ out hm hi hs hn h
    obtain ⟨cs, hc⟩ := wrapInput_blank (u := u) (o := o) hp hst
    have e : wrapInput u (resized o w o.initialIndent o.subsequentIndent) (' ' :: t) = wrapInput u o (' ' :: t) := rfl
    obtain ⟨n, a1, a2⟩ := greedy_arranged_blank (o := o) (o' := resized o w o.initialIndent o.subsequentIndent) rfl hd
      (fun k => by unfold lineRoom resized; split <;> simp <;> omega) (by simp [lineRoom, resized]; omega) (by rw [r1]; exact hc)
      (by unfold Blank; decide) rfl (by rw [r1]; exact hn) (by rw [r1]; exact wrapInput_tidy u o _ hp) r2 r3
    rw [r1] at a1
    have := C98 u (resized o w o.initialIndent o.subsequentIndent) _ out' hm (by show len o.initialIndent ≤ w; omega)
      (by show len o.subsequentIndent ≤ w; omega) (fun c hc => by
        have := hn c (by rw [← e]; exact hc)
        show vlen u c ≤ w - len o.initialIndent ∧ vlen u c ≤ w - len o.subsequentIndent
        omega) h' n (by rw [e]; exact a1)
    omega

/-- With a word longer than the narrower line, more room can mean more lines: the word is broken, so that its pieces fill the lines. -/
theorem C98_long_fails : ∃ (w w' : Int) (text : Str) (out out' : List Str), w ≤ w' ∧ ¬ StartsWs text ∧ PlainWs text ∧
    wrap asciiUni { width := w } text = .ok out ∧ wrap asciiUni { width := w' } text = .ok out' ∧ out.length < out'.length :=
  ⟨6, 7, py"a bbbbbbb cc", [py"a bbbb", py"bbb cc"], [py"a", py"bbbbbbb", py"cc"], by decide, by simp [StartsWs]; decide, by unfold PlainWs; decide,
    by decide +kernel, by decide +kernel, by decide⟩

/-- With whitespace before the text, too: on the narrower line it is left out, on the wider one there is room for it, but not for all words after
it. -/
theorem C98_blank_fails : ∃ (w w' : Int) (text : Str) (out out' : List Str), w ≤ w' ∧ PlainWs text ∧
    NoLong asciiUni { width := w } (wrapInput asciiUni { width := w } text) ∧
    wrap asciiUni { width := w } text = .ok out ∧ wrap asciiUni { width := w' } text = .ok out' ∧ out.length < out'.length :=
  ⟨6, 9, py"     aaaa b", [py"aaaa b"], [py"     aaaa", py"b"], by decide, by unfold PlainWs; decide, by unfold NoLong; decide +kernel,
    by decide +kernel, by decide +kernel, by decide⟩

/-- Three lines for `aaa bb cc dddd e` in six columns, and none can be saved: other groups of the words take three lines or more. -/
example (gs : List (List Str)) (h : Grouped asciiUni { width := 6 } 0 [py"aaa", py"bb", py"cc", py"dddd", py"e"] gs) : 3 ≤ gs.length :=
  C98_words asciiUni { width := 6 } [py"aaa", py"bb", py"cc", py"dddd", py"e"] [py"aaa bb", py"cc", py"dddd e"] rfl rfl rfl (by decide) (by decide)
    (by decide) (by decide) (by decide +kernel) (by decide +kernel) gs h

/-- Another way to put them on three lines. -/
example : Grouped asciiUni { width := 6 } 0 [py"aaa", py"bb", py"cc", py"dddd", py"e"] [[py"aaa"], [py"bb", py"cc"], [py"dddd", py"e"]] :=
  .line (g := [py"aaa"]) (by simp) (by decide +kernel) (.line (g := [py"bb", py"cc"]) (by simp) (by decide +kernel)
    (.line (g := [py"dddd", py"e"]) (ws := []) (by simp) (by decide +kernel) .done))

/-- The same text at nine columns. -/
example : [py"aaa bb cc", py"dddd e"].length ≤ [py"aaa bb", py"cc", py"dddd e"].length :=
  C98_wider asciiUni { width := 6 } 9 [] [] py"aaa bb cc dddd e" _ _ rfl (by unfold PlainWs; decide) (by simp [StartsWs]; decide) (by decide) (by decide)
    (by unfold NoLong; decide +kernel) (by decide) (by decide) (by decide +kernel) (by decide +kernel)

end Verif
