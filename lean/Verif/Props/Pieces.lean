import Verif.Spec.Pieces
import Verif.Props.Fewest

/-!
# C104: where lines can be broken
-/

namespace Verif

open Spec

/-! ## Cutting at every place -/

open Classical in
/-- Cut wherever `D` says; the text before the place and the piece that is being read are reversed. -/
noncomputable def cutGo (D : Str → Str → Prop) : (before cur rest : Str) → List Str
  | _, cur, [] => [cur.reverse]
  | before, cur, c :: r => if D before (c :: r) then cur.reverse :: cutGo D (c :: before) [c] r else cutGo D (c :: before) (c :: cur) r

theorem cutGo_head (D : Str → Str → Prop) (before cur rest : Str) : ∃ z l, cutGo D before cur rest = (cur.reverse ++ z) :: l := by
  induction rest generalizing before cur with
  | nil => exact ⟨[], [], by simp [cutGo]⟩
  | cons c r ih =>
    rw [cutGo]
    split
    · exact ⟨[], _, by simp; rfl⟩
    · obtain ⟨z, l, h⟩ := ih (c :: before) (c :: cur)
      exact ⟨c :: z, l, by rw [h]; simp⟩

theorem cutGo_flatten (D : Str → Str → Prop) (before cur rest : Str) : (cutGo D before cur rest).flatten = cur.reverse ++ rest := by
  induction rest generalizing before cur with
  | nil => simp [cutGo]
  | cons c r ih =>
    rw [cutGo]
    split
    · simp [ih]
    · simp [ih]

theorem cutGo_none (D : Str → Str → Prop) {before cur rest : Str} (h : cur ≠ []) : ∀ c ∈ cutGo D before cur rest, c ≠ [] := by
  induction rest generalizing before cur with
  | nil => simpa [cutGo] using h
  | cons c r ih =>
    rw [cutGo]
    split
    · intro x hx
      rcases List.mem_cons.1 hx with rfl | hx
      · simpa using h
      · exact ih (by simp) x hx
    · exact ih (by simp)

theorem cutGo_divided (D : Str → Str → Prop) {before cur rest : Str} (h : cur ≠ []) {x y : Str} (hy : y ≠ []) (e : x ++ y = rest) :
    (∃ p q, cutGo D before cur rest = p ++ q ∧ p.flatten = cur.reverse ++ x) ↔ D (x.reverse ++ before) y := by
  induction rest generalizing before cur x with
  | nil => exact absurd (List.append_eq_nil_iff.1 e).2 hy
  | cons c r ih =>
    rw [cutGo]
    cases x with
    | nil =>
      rw [List.nil_append] at e
      subst e
      simp only [List.append_nil, List.reverse_nil, List.nil_append]
      split
      · rename_i hd
        exact iff_of_true ⟨[cur.reverse], _, rfl, by simp⟩ hd
      · rename_i hd
        refine iff_of_false ?_ hd
        rintro ⟨p, q, h1, h2⟩
        obtain ⟨z, l, h3⟩ := cutGo_head D (c :: before) (c :: cur) r
        rw [h3] at h1
        cases p with
        | nil => exact h (by simpa using h2.symm)
        | cons a p =>
          rw [List.cons_append, List.cons.injEq] at h1
          have := congrArg List.length h2
          rw [← h1.1] at this
          simp at this
    | cons c' x =>
      rw [List.cons_append, List.cons.injEq] at e
      obtain ⟨rfl, e⟩ := e
      split
      · have := ih (before := c' :: before) (cur := [c']) (by simp) e
        rw [show (c' :: x).reverse ++ before = x.reverse ++ c' :: before by simp, ← this]
        constructor
        · rintro ⟨p, q, h1, h2⟩
          cases p with
          | nil => simp at h2
          | cons a p =>
            rw [List.cons_append, List.cons.injEq] at h1
            refine ⟨p, q, h1.2, ?_⟩
            rw [List.flatten_cons, ← h1.1] at h2
            simpa using h2
        · rintro ⟨p, q, h1, h2⟩
          exact ⟨cur.reverse :: p, q, by rw [h1]; rfl, by simp [h2]⟩
      · have := ih (before := c' :: before) (cur := c' :: cur) (by simp) e
        rw [show (c' :: x).reverse ++ before = x.reverse ++ c' :: before by simp, ← this]
        simp

/-! ## The places, with the text before them reversed -/

/-- The place is after two hyphens or more that come after the end of a word. -/
def AfterDash (u : Uni) (before : Str) (rest : Str) : Prop :=
  ∃ k p t, before = List.replicate (k + 1) '-' ++ p :: t ∧ isWordPunct u p = true ∧ dashesThenWord u (k + 1) rest = true

def PlaceAt (u : Uni) (before rest : Str) : Prop :=
  (∃ p t d r, before = p :: t ∧ rest = d :: r ∧ isTwSpace p ≠ isTwSpace d) ∨
  (∃ t, before = '-' :: t ∧ hyphenBreak u t rest = true) ∨ emDashAt u before rest = true ∨
  (AfterDash u before rest ∧ rest.head? ≠ some '-')

theorem dash_notPunct {u : Uni} (hw : u.isWord '-' = false) : isWordPunct u '-' = false := by simp [isWordPunct, hw]

theorem dash_notLetter {u : Uni} (hw : u.isWord '-' = false) : isLetter u '-' = false := by simp [isLetter, hw]

theorem letter_notSpace {u : Uni} {c : Char} (h : isTwSpace c = true) : isLetter u c = false := by
  simp [isLetter, u.word_space c (tw_isSpace c h)]

theorem hyphenBreak_after {u : Uni} {t rest : Str} (h : hyphenBreak u t rest = true) : ∃ l r, rest = l :: r ∧ isLetter u l = true := by
  unfold hyphenBreak at h
  simp only [Bool.and_eq_true] at h
  obtain ⟨-, h⟩ := h
  split at h
  · simp only [Bool.and_eq_true] at h
    exact ⟨_, _, rfl, h.1⟩
  · cases h

theorem hyphenBreak_before {u : Uni} {t rest : Str} (h : hyphenBreak u t rest = true) : ∃ l r, t = l :: r ∧ isLetter u l = true := by
  unfold hyphenBreak at h
  simp only [Bool.and_eq_true] at h
  obtain ⟨h, -⟩ := h
  split at h
  · simp only [Bool.and_eq_true] at h
    exact ⟨_, _, rfl, h.1⟩
  · cases h

theorem emDashAt_iff {u : Uni} {before rest : Str} :
    emDashAt u before rest = true ↔ ∃ p t, before = p :: t ∧ isWordPunct u p = true ∧ dashesThenWord u 0 rest = true := by
  unfold emDashAt
  split
  · simp
  · simp

theorem dashes_zero {u : Uni} {c : Char} {r : Str} (h : dashesThenWord u 0 (c :: r) = true) : c = '-' ∧ dashesThenWord u 1 r = true := by
  rw [dashesThenWord] at h
  split at h
  · exact ⟨‹_›, h⟩
  · simp at h

/-- What is known while a piece is read. -/
def Reading (u : Uni) : ChunkMode → (before rest : Str) → Prop
  | .fresh, _, _ => False
  | .ws, before, _ => ∃ c t, before = c :: t ∧ isTwSpace c = true
  | .dash, before, rest => AfterDash u before rest
  | .word, before, rest => (∃ c t, before = c :: t ∧ isTwSpace c = false ∧ (c = '-' → hyphenBreak u t rest = false)) ∧ ¬ AfterDash u before rest

theorem afterDash_step {u : Uni} {before r : Str} {c : Char} (h : AfterDash u (c :: before) r) :
    c = '-' ∧ (emDashAt u before (c :: r) = true ∨ AfterDash u before (c :: r)) := by
  obtain ⟨k, p, t, h1, h2, h3⟩ := h
  rw [List.replicate_succ, List.cons_append, List.cons.injEq] at h1
  obtain ⟨rfl, rfl⟩ := h1
  refine ⟨rfl, ?_⟩
  cases k with
  | zero => left; rw [emDashAt_iff]; exact ⟨p, t, rfl, h2, by rw [dashesThenWord]; simpa using h3⟩
  | succ k => right; exact ⟨k, p, t, rfl, h2, by rw [dashesThenWord]; simpa using h3⟩

/-- How a piece begins. -/
theorem reading_begin {u : Uni} {before r : Str} {c : Char} (h1 : ¬ (AfterDash u before (c :: r) ∧ c = '-'))
    (h2 : c = '-' → hyphenBreak u before r = false) : Reading u (chunkMode u before (c :: r)) (c :: before) r := by
  unfold chunkMode
  simp only
  split
  · exact ⟨c, before, rfl, ‹_›⟩
  · split
    · rename_i he
      rw [emDashAt_iff] at he
      obtain ⟨p, t, rfl, hp, hd⟩ := he
      obtain ⟨rfl, hd⟩ := dashes_zero hd
      exact ⟨0, p, t, rfl, hp, hd⟩
    · rename_i hs he
      refine ⟨⟨c, before, rfl, by simpa using hs, h2⟩, fun h => ?_⟩
      obtain ⟨e, h | h⟩ := afterDash_step h
      · exact he h
      · exact h1 ⟨h, e⟩

/-- The pieces that are read are those that result if the text is cut at every place. -/
theorem chunkGo_cut {u : Uni} (hw : u.isWord '-' = false) {before cur rest : Str} {m : ChunkMode} (h : Reading u m before rest) :
    chunkGo u before m cur rest = cutGo (PlaceAt u) before cur rest := by
  match rest with
  | [] =>
    cases m with
    | fresh => exact h.elim
    | ws | dash | word => simp [chunkGo, cutGo]
  | c :: r =>
    have ih : ∀ {before cur : Str} {m : ChunkMode}, Reading u m before r → chunkGo u before m cur r = cutGo (PlaceAt u) before cur r :=
      fun h => chunkGo_cut hw h
    have dsp : isTwSpace '-' = false := by decide
    cases m with
    | fresh => exact h.elim
    | ws =>
      obtain ⟨p, t, rfl, hp⟩ := h
      have hpd : p ≠ '-' := by rintro rfl; rw [dsp] at hp; cases hp
      rw [chunkGo, cutGo]
      by_cases hs : isTwSpace c = true
      · have hcd : c ≠ '-' := by rintro rfl; rw [dsp] at hs; cases hs
        rw [if_pos hs, if_neg]
        · exact ih ⟨c, _, rfl, hs⟩
        · rintro (⟨p', t', d, r', h1, h2, h3⟩ | ⟨t', h1, h2⟩ | h1 | ⟨⟨k, q, t', h1, h2, h3⟩, -⟩)
          · cases h1; cases h2; exact h3 (by rw [hp, hs])
          · cases h1; exact hpd rfl
          · rw [emDashAt_iff] at h1
            obtain ⟨_, _, -, -, h1⟩ := h1
            exact hcd (dashes_zero h1).1
          · rw [List.replicate_succ] at h1; cases h1; exact hpd rfl
      · rw [if_neg hs, if_pos (.inl ⟨p, t, c, r, rfl, rfl, by rw [hp]; exact fun q => hs q.symm⟩)]
        congr 1
        refine ih (reading_begin ?_ ?_)
        · rintro ⟨⟨k, q, t', h1, -⟩, -⟩
          rw [List.replicate_succ] at h1; cases h1; exact hpd rfl
        · intro _
          cases hb : hyphenBreak u (p :: t) r with
          | false => rfl
          | true =>
            obtain ⟨l, _, e, hl⟩ := hyphenBreak_before hb
            cases e
            rw [letter_notSpace hp] at hl; cases hl
    | dash =>
      obtain ⟨k, q, t, hb, hq, hd⟩ := h
      have hb' : before = '-' :: (List.replicate k '-' ++ q :: t) := by rw [hb, List.replicate_succ]; rfl
      rw [chunkGo, cutGo]
      by_cases hcd : c = '-'
      · subst hcd
        rw [if_pos rfl, if_neg]
        · refine ih ?_
          refine ⟨k + 1, q, t, by rw [hb, List.replicate_succ (n := k + 1)]; rfl, hq, ?_⟩
          rw [dashesThenWord] at hd; simpa using hd
        · rintro (⟨p', t', d, r', h1, h2, h3⟩ | ⟨t', h1, h2⟩ | h1 | ⟨-, h1⟩)
          · rw [hb'] at h1; cases h1; cases h2; exact h3 rfl
          · obtain ⟨l, _, e, hl⟩ := hyphenBreak_after h2
            cases e
            rw [dash_notLetter hw] at hl; cases hl
          · rw [emDashAt_iff, hb'] at h1
            obtain ⟨_, _, e, h1, -⟩ := h1
            cases e
            rw [dash_notPunct hw] at h1; cases h1
          · exact h1 rfl
      · rw [if_neg hcd, if_pos (.inr (.inr (.inr ⟨⟨k, q, t, hb, hq, hd⟩, by simpa using hcd⟩)))]
        congr 1
        exact ih (reading_begin (fun h => hcd h.2) (fun h => absurd h hcd))
    | word =>
      obtain ⟨⟨p, t, rfl, hp, hh⟩, hd⟩ := h
      rw [chunkGo, cutGo]
      have noHyphen : ¬ ∃ t', p :: t = '-' :: t' ∧ hyphenBreak u t' (c :: r) = true := by
        rintro ⟨t', h1, h2⟩
        cases h1
        rw [hh rfl] at h2; cases h2
      by_cases hb : (c = '-' && hyphenBreak u (p :: t) r) = true
      · rw [if_pos hb]
        simp only [Bool.and_eq_true, decide_eq_true_eq] at hb
        obtain ⟨rfl, hb⟩ := hb
        obtain ⟨l, r', rfl, hl⟩ := hyphenBreak_after hb
        have hld : l ≠ '-' := by rintro rfl; rw [dash_notLetter hw] at hl; cases hl
        rw [if_neg, cutGo, if_pos (.inr (.inl ⟨_, rfl, hb⟩)), chunkGo]
        · congr 1
          refine chunkGo_cut hw (reading_begin (fun h => hld h.2) (fun h => absurd h hld))
        · rintro (⟨p', t', d, r', h1, h2, h3⟩ | h1 | h1 | ⟨-, h1⟩)
          · cases h1; cases h2; exact h3 (by rw [hp, dsp])
          · exact noHyphen h1
          · rw [emDashAt_iff] at h1
            obtain ⟨_, _, -, -, h1⟩ := h1
            have := (dashes_zero h1).2
            rw [dashesThenWord, if_neg hld] at this
            simp at this
          · exact h1 rfl
      · rw [if_neg hb]
        by_cases hs : (isTwSpace c || emDashAt u (p :: t) (c :: r)) = true
        · rw [if_pos hs, if_pos]
          · congr 1
            refine ih (reading_begin (fun h => hd h.1) ?_)
            rintro rfl
            simpa using hb
          · rcases Bool.or_eq_true_iff.1 hs with hs | hs
            · exact .inl ⟨p, t, c, r, rfl, rfl, by rw [hp, hs]; simp⟩
            · exact .inr (.inr (.inl hs))
        · rw [if_neg hs]
          simp only [Bool.or_eq_true, not_or] at hs
          rw [if_neg]
          · refine ih ⟨⟨c, _, rfl, by simpa using hs.1, ?_⟩, ?_⟩
            · rintro rfl; simpa using hb
            · intro h
              obtain ⟨-, h | h⟩ := afterDash_step h
              · exact hs.2 h
              · exact hd h
          · rintro (⟨p', t', d, r', h1, h2, h3⟩ | h1 | h1 | ⟨h1, -⟩)
            · cases h1; cases h2; exact h3 (by rw [hp]; simpa using hs.1)
            · exact noHyphen h1
            · exact hs.2 h1
            · exact hd h1
termination_by rest.length

/-! ## The places, as they are specified -/

theorem blanks_iff {c : Char} : c ∈ blanks ↔ isTwSpace c = true := by
  simp only [blanks, List.mem_cons, List.not_mem_nil, or_false, isTwSpace, Bool.or_eq_true, Bool.and_eq_true, decide_eq_true_eq, beq_iff_eq,
    ← Char.toNat_inj]
  simp only [show ' '.toNat = 32 from rfl, show '\t'.toNat = 9 from rfl, show '\n'.toNat = 10 from rfl, show '\x0b'.toNat = 11 from rfl,
    show '\x0c'.toNat = 12 from rfl, show '\r'.toNat = 13 from rfl]
  omega

theorem letter_iff {u : Uni} {c : Char} : isLetter u c = true ↔ Letter u c := by simp [isLetter, Letter]

theorem wordPunct_iff {u : Uni} {c : Char} : isWordPunct u c = true ↔ WordEnd u c := by
  simp only [isWordPunct, WordEnd, Bool.or_eq_true, beq_iff_eq, List.mem_cons, List.not_mem_nil, or_false]
  simp only [or_assoc]

theorem dashes_iff {u : Uni} (hw : u.isWord '-' = false) {k : Nat} {s : Str} :
    dashesThenWord u k s = true ↔ ∃ n w b, s = List.replicate n '-' ++ w :: b ∧ u.isWord w = true ∧ 2 ≤ k + n := by
  induction s generalizing k with
  | nil => simp [dashesThenWord]
  | cons c r ih =>
    rw [dashesThenWord]
    split
    · rename_i hc
      subst hc
      rw [ih]
      constructor
      · rintro ⟨n, w, b, rfl, h1, h2⟩
        exact ⟨n + 1, w, b, by simp [List.replicate_succ], h1, by omega⟩
      · rintro ⟨n, w, b, h0, h1, h2⟩
        cases n with
        | zero =>
          simp only [List.replicate_zero, List.nil_append, List.cons.injEq] at h0
          rw [← h0.1, hw] at h1; cases h1
        | succ n =>
          rw [List.replicate_succ, List.cons_append, List.cons.injEq] at h0
          exact ⟨n, w, b, h0.2, h1, by omega⟩
    · rename_i hc
      simp only [Bool.and_eq_true, decide_eq_true_eq]
      constructor
      · rintro ⟨h1, h2⟩
        exact ⟨0, c, r, rfl, h2, by omega⟩
      · rintro ⟨n, w, b, h0, h1, h2⟩
        cases n with
        | zero =>
          simp only [List.replicate_zero, List.nil_append, List.cons.injEq] at h0
          exact ⟨by omega, h0.1 ▸ h1⟩
        | succ n =>
          rw [List.replicate_succ, List.cons_append, List.cons.injEq] at h0
          exact absurd h0.1 hc

/-- Two letters, perhaps with a hyphen between them, at the beginning. -/
theorem letters_match {u : Uni} {s : Str} :
    (match s with
      | x1 :: x2 :: r => isLetter u x1 && (isLetter u x2 || (x2 == '-' && match r with | x3 :: _ => isLetter u x3 | [] => false))
      | _ => false) = true ↔ ∃ p r, LetterPair u p ∧ s = p ++ r := by
  constructor
  · intro h
    split at h
    · rename_i x1 x2 r
      simp only [Bool.and_eq_true, Bool.or_eq_true, beq_iff_eq] at h
      obtain ⟨h1, h2 | ⟨rfl, h2⟩⟩ := h
      · exact ⟨[x1, x2], r, ⟨x1, x2, letter_iff.1 h1, letter_iff.1 h2, .inl rfl⟩, rfl⟩
      · split at h2
        · rename_i x3 r
          exact ⟨[x1, '-', x3], r, ⟨x1, x3, letter_iff.1 h1, letter_iff.1 h2, .inr rfl⟩, rfl⟩
        · cases h2
    · cases h
  · rintro ⟨p, r, ⟨x, y, hx, hy, rfl | rfl⟩, rfl⟩
    · simp [letter_iff.2 hx, letter_iff.2 hy]
    · simp [letter_iff.2 hx, letter_iff.2 hy]

theorem letters_reverse {u : Uni} {p : Str} (h : LetterPair u p) : LetterPair u p.reverse := by
  obtain ⟨x, y, hx, hy, rfl | rfl⟩ := h
  · exact ⟨y, x, hy, hx, .inl rfl⟩
  · exact ⟨y, x, hy, hx, .inr rfl⟩

theorem hyphenBreak_iff {u : Uni} {t rest : Str} :
    hyphenBreak u t rest = true ↔ (∃ p r, LetterPair u p ∧ t = p ++ r) ∧ ∃ p r, LetterPair u p ∧ rest = p ++ r := by
  unfold hyphenBreak
  rw [Bool.and_eq_true]
  exact and_congr letters_match letters_match

theorem reverse_replicate_dash {n : Nat} {p : Char} {t : Str} :
    (List.replicate n '-' ++ p :: t).reverse = t.reverse ++ p :: List.replicate n '-' := by simp

theorem placeAt_iff {u : Uni} (hw : u.isWord '-' = false) {before rest : Str} : PlaceAt u before rest ↔ Divided u before.reverse rest := by
  constructor
  · rintro (⟨p, t, d, r, rfl, rfl, h⟩ | ⟨t, rfl, h⟩ | h | ⟨⟨k, p, t, rfl, hp, hd⟩, hr⟩)
    · refine .space ⟨t.reverse, p, d, r, by simp, rfl, ?_⟩
      rw [blanks_iff, blanks_iff]
      exact fun q => h (Bool.eq_iff_iff.2 q)
    · rw [hyphenBreak_iff] at h
      obtain ⟨⟨p, r, hp, rfl⟩, q, b, hq, rfl⟩ := h
      have := Divided.hyphen (u := u) (a := r.reverse) (b := b) (letters_reverse hp) hq
      simpa using this
    · rw [emDashAt_iff] at h
      obtain ⟨p, t, rfl, hp, hd⟩ := h
      rw [dashes_iff hw] at hd
      obtain ⟨n, w, b, rfl, h1, h2⟩ := hd
      rw [List.reverse_cons]
      exact .beforeDash (wordPunct_iff.1 hp) h1 (by omega)
    · rw [dashes_iff hw] at hd
      obtain ⟨n, w, b, rfl, h1, h2⟩ := hd
      cases n with
      | succ n => exact absurd rfl hr
      | zero =>
        rw [reverse_replicate_dash]
        exact .afterDash (wordPunct_iff.1 hp) h1 (by omega)
  · intro h
    generalize hb : before.reverse = a at h
    have hb : before = a.reverse := by rw [← hb, List.reverse_reverse]
    subst hb
    cases h with
    | space h =>
      obtain ⟨a', c, d, b', rfl, rfl, h⟩ := h
      refine .inl ⟨c, a'.reverse, d, b', by simp, rfl, fun q => h ?_⟩
      rw [blanks_iff, blanks_iff, q]
    | hyphen hp hq =>
      rename_i a p q b
      refine .inr (.inl ⟨p.reverse ++ a.reverse, by simp, ?_⟩)
      rw [hyphenBreak_iff]
      exact ⟨⟨_, _, letters_reverse hp, rfl⟩, _, _, hq, rfl⟩
    | beforeDash hp h1 h2 =>
      rename_i a p w b n
      refine .inr (.inr (.inl ?_))
      rw [emDashAt_iff]
      exact ⟨p, a.reverse, by simp, wordPunct_iff.2 hp, (dashes_iff hw).2 ⟨n, w, b, rfl, h1, by omega⟩⟩
    | afterDash hp h1 h2 =>
      rename_i a p w b n
      obtain ⟨k, rfl⟩ : ∃ k, n = k + 1 := ⟨n - 1, by omega⟩
      refine .inr (.inr (.inr ⟨⟨k, p, a.reverse, by simp, wordPunct_iff.2 hp, (dashes_iff hw).2 ⟨0, w, b, rfl, h1, by omega⟩⟩, ?_⟩))
      rintro ⟨⟩
      rw [hw] at h1; cases h1

/-! ## The pieces -/

theorem chunks_pieces {u : Uni} (hw : u.isWord '-' = false) (s : Str) : Pieces (Divided u) s (chunkGo u [] .fresh [] s) := by
  cases s with
  | nil => exact ⟨rfl, by simp [chunkGo], fun a b ha _ e => absurd (List.append_eq_nil_iff.1 e).1 ha⟩
  | cons c r =>
    have hr : Reading u (chunkMode u [] (c :: r)) (c :: []) r := by
      refine reading_begin ?_ ?_
      · rintro ⟨⟨k, p, t, h, -⟩, -⟩
        rw [List.replicate_succ] at h; cases h
      · intro _; rfl
    rw [chunkGo, chunkGo_cut hw hr]
    refine ⟨by rw [cutGo_flatten]; rfl, cutGo_none _ (by simp), fun a b ha hb e => ?_⟩
    cases a with
    | nil => exact absurd rfl ha
    | cons c' x =>
      rw [List.cons_append, List.cons.injEq] at e
      obtain ⟨rfl, e⟩ := e
      have := cutGo_divided (PlaceAt u) (before := [c']) (cur := [c']) (by simp) hb e
      rw [placeAt_iff hw] at this
      simpa using this

theorem simple_pieces (s : Str) : Pieces AtSpace s (simpleChunks s) := by
  induction s with
  | nil => exact ⟨rfl, by simp [simpleChunks], fun a b ha _ e => absurd (List.append_eq_nil_iff.1 e).1 ha⟩
  | cons c r ih =>
    obtain ⟨h1, h2, h3⟩ := ih
    have shift : ∀ {x b}, x ≠ [] → (AtSpace (c :: x) b ↔ AtSpace x b) := by
      intro x b hx
      constructor
      · rintro ⟨a', p, d, b', e, rfl, h⟩
        cases a' with
        | nil => simp at e; exact absurd e.2 hx
        | cons y a' => rw [List.cons_append, List.cons.injEq] at e; exact ⟨a', p, d, b', e.2, rfl, h⟩
      · rintro ⟨a', p, d, b', rfl, rfl, h⟩
        exact ⟨c :: a', p, d, b', rfl, rfl, h⟩
    have one : ∀ {d b}, AtSpace [c] (d :: b) ↔ isTwSpace c ≠ isTwSpace d := by
      intro d b
      constructor
      · rintro ⟨a', p, d', b', e, e', h⟩ q
        cases e'
        cases a' with
        | nil => cases e; rw [blanks_iff, blanks_iff, q] at h; exact h Iff.rfl
        | cons y a' => simp at e
      · intro h
        refine ⟨[], c, d, b, rfl, rfl, ?_⟩
        rw [blanks_iff, blanks_iff]
        exact fun q => h (Bool.eq_iff_iff.2 q)
    rw [simpleChunks]
    split
    · rename_i e
      rw [e] at h1
      simp only [List.flatten_nil] at h1
      subst h1
      refine ⟨rfl, by simp, fun a b ha hb e => ?_⟩
      cases a with
      | nil => exact absurd rfl ha
      | cons x a => simp at e; exact absurd e.2.2 hb
    · rename_i e
      exact absurd rfl (h2 [] (by rw [e]; simp))
    · rename_i d l ls e
      rw [e] at h1 h2 h3
      by_cases hs : isTwSpace c = isTwSpace d
      · rw [if_pos hs]
        refine ⟨by simp [← h1], ?_, fun a b ha hb e => ?_⟩
        · intro x hx
          rcases List.mem_cons.1 hx with rfl | hx
          · simp
          · exact h2 x (by simp [hx])
        · cases a with
          | nil => exact absurd rfl ha
          | cons y x =>
            rw [List.cons_append, List.cons.injEq] at e
            obtain ⟨rfl, e⟩ := e
            cases x with
            | nil =>
              rw [List.nil_append] at e
              subst e
              rw [List.flatten_cons] at h1
              refine iff_of_false ?_ ?_
              · rintro ⟨p, q, e1, e2⟩
                cases p with
                | nil => cases e2
                | cons z p => rw [List.cons_append, List.cons.injEq] at e1; rw [← e1.1] at e2; simp at e2
              · rw [← h1, List.cons_append, one]; exact fun q => q hs
            | cons z x =>
              rw [shift (by simp), ← h3 (z :: x) b (by simp) hb e]
              constructor
              · rintro ⟨p, q, e1, e2⟩
                cases p with
                | nil => cases e2
                | cons w p =>
                  rw [List.cons_append, List.cons.injEq] at e1
                  refine ⟨(d :: l) :: p, q, by rw [e1.2]; rfl, ?_⟩
                  rw [← e1.1] at e2
                  simpa using e2
              · rintro ⟨p, q, e1, e2⟩
                cases p with
                | nil => cases e2
                | cons w p =>
                  rw [List.cons_append, List.cons.injEq] at e1
                  refine ⟨(y :: d :: l) :: p, q, by rw [e1.2]; rfl, ?_⟩
                  rw [← e1.1] at e2
                  simpa using e2
      · rw [if_neg hs]
        refine ⟨by simp [← h1], ?_, fun a b ha hb e => ?_⟩
        · intro x hx
          rcases List.mem_cons.1 hx with rfl | hx
          · simp
          · exact h2 x hx
        · cases a with
          | nil => exact absurd rfl ha
          | cons y x =>
            rw [List.cons_append, List.cons.injEq] at e
            obtain ⟨rfl, e⟩ := e
            cases x with
            | nil =>
              rw [List.nil_append] at e
              subst e
              rw [List.flatten_cons] at h1
              refine iff_of_true ⟨[[y]], _, rfl, rfl⟩ ?_
              rw [← h1, List.cons_append, one]; exact hs
            | cons z x =>
              rw [shift (by simp), ← h3 (z :: x) b (by simp) hb e]
              constructor
              · rintro ⟨p, q, e1, e2⟩
                cases p with
                | nil => cases e2
                | cons w p =>
                  rw [List.cons_append, List.cons.injEq] at e1
                  refine ⟨p, q, e1.2, ?_⟩
                  rw [← e1.1] at e2
                  simpa using e2
              · rintro ⟨p, q, e1, e2⟩
                exact ⟨[y] :: p, q, by rw [e1]; rfl, by simp [e2]⟩

theorem pieces_unique {D : Str → Str → Prop} {s : Str} {cs cs' : List Str} (h : Pieces D s cs) (h' : Pieces D s cs') : cs = cs' := by
  induction cs generalizing D s cs' with
  | nil =>
    have := h.text
    rw [← h'.text] at this
    cases cs' with
    | nil => rfl
    | cons c r =>
      simp at this
      exact absurd this.1 (h'.none c (by simp))
  | cons c r ih =>
    cases cs' with
    | nil =>
      have := h.text
      rw [← h'.text] at this
      simp at this
      exact absurd this.1 (h.none c (by simp))
    | cons c' r' =>
      have hc := h.none c (by simp)
      have hc' := h'.none c' (by simp)
      have key : ∀ {D : Str → Str → Prop} {c c' : Str} {r r' : List Str} {s : Str}, Pieces D s (c :: r) → Pieces D s (c' :: r') → c.length ≤ c'.length → c = c' := by
        intro D c c' r r' s h h' hl
        have e : c ++ r.flatten = c' ++ r'.flatten := by rw [← List.flatten_cons, ← List.flatten_cons, h.text, h'.text]
        have hp : c <+: c' := List.prefix_of_prefix_length_le (l₃ := c ++ r.flatten) (List.prefix_append _ _) (e ▸ List.prefix_append _ _) hl
        obtain ⟨t, rfl⟩ := hp
        cases t with
        | nil => simp
        | cons x t =>
          exfalso
          have hr : r.flatten ≠ [] := by
            intro q
            have := congrArg List.length e
            rw [q] at this
            simp at this
          have := (h.divided c r.flatten (h.none c (by simp)) hr (by rw [← h.text]; rfl)).1 ⟨[c], r, rfl, by simp⟩
          obtain ⟨p, q, e1, e2⟩ := (h'.divided c r.flatten (h.none c (by simp)) hr (by rw [← h.text]; rfl)).2 this
          cases p with
          | nil => exact h.none c (by simp) e2.symm
          | cons y p =>
            rw [List.cons_append, List.cons.injEq] at e1
            rw [← e1.1] at e2
            have := congrArg List.length e2
            simp at this
      have hcc : c = c' := by
        rcases Nat.le_total c.length c'.length with hl | hl
        · exact key h h' hl
        · exact (key h' h hl).symm
      subst hcc
      congr 1
      have tail : ∀ {r : List Str}, Pieces D s (c :: r) → Pieces (fun a b => D (c ++ a) b) r.flatten r := by
        intro r h
        refine ⟨rfl, fun x hx => h.none x (by simp [hx]), fun a b ha hb e => ?_⟩
        rw [← h.divided (c ++ a) b (by simp [ha]) hb (by rw [← h.text, List.append_assoc, e]; rfl)]
        constructor
        · rintro ⟨p, q, rfl, e2⟩
          exact ⟨c :: p, q, rfl, by simp [e2]⟩
        · rintro ⟨p, q, e1, e2⟩
          cases p with
          | nil => exact absurd (List.append_eq_nil_iff.1 e2.symm).1 hc
          | cons y p =>
            rw [List.cons_append, List.cons.injEq] at e1
            rw [← e1.1] at e2
            exact ⟨p, q, e1.2, by simpa using e2⟩
      have e : r.flatten = r'.flatten := by
        have : c ++ r.flatten = c ++ r'.flatten := by rw [← List.flatten_cons, ← List.flatten_cons, h.text, h'.text]
        exact List.append_cancel_left this
      have h1 := tail h
      have h2 := tail h'
      rw [← e] at h2
      exact ih h1 h2

theorem munge_blanks (o : WrapOpts) {s : Str} (h : OnlyBlanks s) : munge o s = s := by
  have ht : '\t' ∉ s := fun q => absurd (h _ q (by decide)) (by decide)
  have := munge_flatten o [s] (fun _ => by simpa using ht)
  simp only [List.flatten_cons, List.flatten_nil, List.append_nil, List.map_cons, List.map_nil] at this
  rw [this]
  unfold mungePiece
  split
  · conv => rhs; rw [← List.map_id s]
    refine List.map_congr_left fun c hc => ?_
    split
    · rename_i hs; exact (h c hc (blanks_iff.2 hs)).symm
    · rfl
  · rfl

/-- The text, with its whitespace replaced, is divided at every place where it can be divided and nowhere else. (The hyphen is not a
character of words.) -/
theorem C104 (u : Uni) (hw : u.isWord '-' = false) (o : WrapOpts) (hf : o.fixSentence = false) (text : Str) :
    Pieces (places u o) (munge o text) (wrapInput u o text) := by
  unfold wrapInput places splitChunks
  simp only [hf, Bool.false_eq_true, if_false]
  split
  · exact chunks_pieces hw _
  · exact simple_pieces _

/-- There is one way to divide it like that. -/
theorem C104_unique {D : Str → Str → Prop} {s : Str} {cs cs' : List Str} (h : Pieces D s cs) (h' : Pieces D s cs') : cs = cs' :=
  pieces_unique h h'

/-- For a text with no other whitespace than blanks: if no piece is longer than a line, then the pieces are put on lines greedily, and on no
more lines than needed. -/
theorem C104_lines (u : Uni) (hw : u.isWord '-' = false) (o : WrapOpts) (hf : o.fixSentence = false) (hm : o.maxLines = none)
    (hi : len o.initialIndent ≤ o.width) (hs : len o.subsequentIndent ≤ o.width) (text : Str) (hb : OnlyBlanks text) (cs : List Str)
    (hc : Pieces (places u o) text cs) (hn : NoLong u o cs) (out : List Str) (h : wrap u o text = .ok out) :
    (∃ rows, (rows.map Row.chunks).flatten = cs ∧ (∀ r ∈ rows, r.chunks ≠ []) ∧ Greedy u o [] rows out) ∧
      ∀ n, Arranged u o 0 cs n → out.length ≤ n := by
  have hp := C104 u hw o hf text
  rw [munge_blanks o hb] at hp
  obtain rfl := pieces_unique hp hc
  exact ⟨C21 u o text out hm hi hs hn h, fun n => C98 u o text out hm hi hs hn h n⟩

/-- Lines can be broken after the hyphen of `well-known` and around the dash of `yes--no`, but not after that of `e-mail`, `-b` or `a-1`. -/
example : wrap asciiUni { width := 6 } py"well-known yes--no e-mail -b a-1" =
    .ok [py"well-", py"known", py"yes--", py"no", py"e-mail", py"-b a-1"] := by decide
example : wrapInput asciiUni {} py"a well-known yes--no" =
    [py"a", py" ", py"well-", py"known", py" ", py"yes", py"--", py"no"] := by decide
example : Divided asciiUni py"a well-" py"known" :=
  .hyphen (a := py"a we") (p := py"ll") (q := py"kn") (b := py"own") 
    ⟨'l', 'l', ⟨by decide, by decide⟩, ⟨by decide, by decide⟩, .inl rfl⟩ ⟨'k', 'n', ⟨by decide, by decide⟩, ⟨by decide, by decide⟩, .inl rfl⟩

/-- If sentence endings are fixed, whitespace is added that is not in the text. -/
theorem C104_sentence_fails :
    ¬ Pieces (places asciiUni { fixSentence := true }) (munge { fixSentence := true } py"a. B") (wrapInput asciiUni { fixSentence := true } py"a. B") :=
  fun h => absurd h.text (by decide)

end Verif
