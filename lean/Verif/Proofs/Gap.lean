import Verif.Proofs.WrapLoop
import Verif.Props.Blocks
import Verif.Spec.Nested
import Verif.Proofs.Fit
import Verif.Props.Sentence

/-!
# Wrapping a text with a wide gap in it

Where two pieces of text are further apart than what is left of the line, they are wrapped on their own.
-/

namespace Verif

open Spec

/-! ## Chunks on both sides of a gap -/

theorem word_sp (u : Uni) : u.isWord ' ' = false := u.word_space ' ' (by decide)

theorem letter_sp (u : Uni) : isLetter u ' ' = false := by simp [isLetter, word_sp]

theorem wordPunct_sp (u : Uni) : isWordPunct u ' ' = false := by simp [isWordPunct, word_sp]

theorem dashes_gap (u : Uni) (n : Nat) (a r : Str) : dashesThenWord u n (a ++ ' ' :: r) = dashesThenWord u n a := by
  induction a generalizing n with
  | nil => simp [dashesThenWord, word_sp]
  | cons c a ih =>
    simp only [List.cons_append, dashesThenWord]
    split
    · exact ih _
    · rfl

theorem emDash_gap (u : Uni) (b a r : Str) : emDashAt u b (a ++ ' ' :: r) = emDashAt u b a := by
  unfold emDashAt
  cases b with
  | nil => rfl
  | cons p b => simp only [dashes_gap]

theorem hyphen_gap (u : Uni) (b a r : Str) : hyphenBreak u b (a ++ ' ' :: r) = hyphenBreak u b a := by
  have hs := letter_sp u
  unfold hyphenBreak
  congr 1
  match a with
  | [] => cases r <;> simp [hs]
  | [x] => simp [hs]
  | [x, y] => simp [hs]
  | x :: y :: z :: a => rfl

theorem chunkMode_gap (u : Uni) (b : Str) (c : Char) (a r : Str) : chunkMode u b (c :: (a ++ ' ' :: r)) = chunkMode u b (c :: a) := by
  simp only [chunkMode]
  rw [← List.cons_append, emDash_gap]

/-- Text up to a gap. -/
theorem chunkGo_left (u : Uni) (a : Str) (before : Str) (m : ChunkMode) (cur r : Str) (hm : a = [] → m ≠ .ws)
    (ha : ∀ c, a.getLast? = some c → isTwSpace c = false) :
    chunkGo u before m cur (a ++ ' ' :: r) = chunkGo u before m cur a ++ chunkGo u (a.reverse ++ before) .fresh [] (' ' :: r) := by
  have tw : isTwSpace ' ' = true := by decide
  induction a generalizing before m cur with
  | nil =>
    have hm := hm rfl
    cases m with
    | fresh => simp [chunkGo]
    | ws => exact absurd rfl hm
    | dash => simp [chunkGo]
    | word => simp [chunkGo, tw]
  | cons c a ih =>
    have hl : ∀ x, a.getLast? = some x → isTwSpace x = false := by
      intro x hx
      cases a with
      | nil => cases hx
      | cons y a => exact ha x (by rw [List.getLast?_cons_cons]; exact hx)
    have hc : a = [] → isTwSpace c = false := by rintro rfl; exact ha c rfl
    have hmode : a = [] → chunkMode u before (c :: a) ≠ .ws := by
      intro e; simp only [chunkMode, hc e]; simp; split <;> simp
    have rev : (c :: a).reverse ++ before = a.reverse ++ c :: before := by simp
    rw [rev, List.cons_append]
    cases m with
    | fresh =>
      simp only [chunkGo, chunkMode_gap]
      exact ih _ _ _ hmode hl
    | ws =>
      simp only [chunkGo, chunkMode_gap]
      split
      · rename_i hsp
        exact ih _ _ _ (fun e => by rw [hc e] at hsp; cases hsp) hl
      · rw [ih _ _ _ hmode hl, List.cons_append]; rfl
    | dash =>
      simp only [chunkGo, chunkMode_gap]
      split
      · exact ih _ _ _ (by simp) hl
      · rw [ih _ _ _ hmode hl, List.cons_append]; rfl
    | word =>
      have e1 : emDashAt u before (c :: (a ++ ' ' :: r)) = emDashAt u before (c :: a) := by rw [← List.cons_append, emDash_gap]
      simp only [chunkGo, chunkMode_gap, hyphen_gap, e1]
      split
      · rw [ih _ _ _ (by simp) hl, List.cons_append]; rfl
      · split
        · rw [ih _ _ _ hmode hl, List.cons_append]; rfl
        · exact ih _ _ _ (by simp) hl

/-- The gap. -/
theorem chunkGo_spaces (u : Uni) (n : Nat) (before cur b : Str) (hb : ∀ c, b.head? = some c → isTwSpace c = false) :
    chunkGo u before .ws cur (List.replicate n ' ' ++ b) =
      (cur.reverse ++ List.replicate n ' ') :: chunkGo u (List.replicate n ' ' ++ before) .fresh [] b := by
  have tw : isTwSpace ' ' = true := by decide
  induction n generalizing before cur with
  | zero =>
    cases b with
    | nil => simp [chunkGo]
    | cons c b => simp [chunkGo, hb c rfl]
  | succ n ih =>
    simp only [List.replicate_succ, List.cons_append, chunkGo, tw, if_true]
    rw [ih]
    simp only [List.reverse_cons, List.append_assoc, List.cons_append, List.nil_append]
    congr 2
    rw [← List.cons_append, ← List.replicate_succ, List.replicate_succ', List.append_assoc]
    rfl

theorem hyphen_before (u : Uni) (w bef after : Str) : hyphenBreak u (w ++ ' ' :: bef) after = hyphenBreak u w after := by
  have hs := letter_sp u
  unfold hyphenBreak
  congr 1
  match w with
  | [] => cases bef <;> simp [hs]
  | [x] => simp [hs]
  | [x, y] => simp [hs]
  | x :: y :: z :: w => rfl

theorem emDash_before (u : Uni) (w bef s : Str) : emDashAt u (w ++ ' ' :: bef) s = emDashAt u w s := by
  cases w with
  | nil => simp [emDashAt, wordPunct_sp]
  | cons c w => rfl

theorem chunkMode_before (u : Uni) (w bef s : Str) : chunkMode u (w ++ ' ' :: bef) s = chunkMode u w s := by
  simp only [chunkMode, emDash_before]

/-- What is before a space does not matter. -/
theorem chunkGo_before (u : Uni) (w bef : Str) (m : ChunkMode) (cur s : Str) :
    chunkGo u (w ++ ' ' :: bef) m cur s = chunkGo u w m cur s := by
  induction s generalizing w m cur with
  | nil => cases m <;> simp [chunkGo]
  | cons c s ih =>
    have e : ∀ m cur, chunkGo u (c :: (w ++ ' ' :: bef)) m cur s = chunkGo u (c :: w) m cur s := fun m cur => ih (c :: w) m cur
    cases m <;> simp only [chunkGo, chunkMode_before, hyphen_before, emDash_before, e]

theorem chunkGo_gap (u : Uni) (a : Str) (n : Nat) (b : Str) (ha : ∀ c, a.getLast? = some c → isTwSpace c = false)
    (hb : ∀ c, b.head? = some c → isTwSpace c = false) :
    chunkGo u [] .fresh [] (a ++ List.replicate (n + 1) ' ' ++ b) =
      chunkGo u [] .fresh [] a ++ List.replicate (n + 1) ' ' :: chunkGo u [] .fresh [] b := by
  have tw : isTwSpace ' ' = true := by decide
  rw [List.append_assoc, List.replicate_succ, List.cons_append, chunkGo_left u a [] .fresh [] _ (by simp) ha]
  congr 1
  simp only [chunkGo, chunkMode, tw, if_true, List.append_nil]
  rw [chunkGo_spaces u n _ _ b hb]
  congr 1
  cases n with
  | zero => exact chunkGo_before u [] _ _ _ _
  | succ n =>
    rw [List.replicate_succ, List.cons_append]
    exact chunkGo_before u [] _ _ _ _

/-! ## Sentence endings -/

theorem sentenceEnd_ne {s : Str} (h : sentenceEnd s = true) : s ≠ [] := by rintro rfl; cases h

theorem sentenceEnd_spaces (n : Nat) : sentenceEnd (List.replicate n ' ') = false := by
  unfold sentenceEnd
  rw [List.reverse_replicate]
  match n with
  | 0 => rfl
  | 1 => rfl
  | n + 2 => simp [List.replicate_succ]

/-- A gap splits the chunks; it may become wider. -/
theorem fixSentence_gap (n : Nat) (A B : List Str) : ∃ m, n ≤ m ∧
    fixSentenceEndings (A ++ List.replicate (n + 1) ' ' :: B) = fixSentenceEndings A ++ List.replicate (m + 1) ' ' :: fixSentenceEndings B := by
  have base : fixSentenceEndings (List.replicate (n + 1) ' ' :: B) = List.replicate (n + 1) ' ' :: fixSentenceEndings B := by
    cases B with
    | nil => rfl
    | cons b B => rw [fixSentenceEndings, if_neg (by simp [sentenceEnd_spaces])]
  induction A using fixSentenceEndings.induct with
  | case1 a b r hc ih =>
    obtain ⟨m, h1, h2⟩ := ih
    refine ⟨m, h1, ?_⟩
    rw [List.cons_append, List.cons_append, fixSentenceEndings, if_pos hc, fixSentenceEndings, if_pos hc, h2]
    rfl
  | case2 a b r hc ih =>
    obtain ⟨m, h1, h2⟩ := ih
    refine ⟨m, h1, ?_⟩
    rw [List.cons_append, List.cons_append, fixSentenceEndings, if_neg hc, fixSentenceEndings, if_neg hc, ← List.cons_append, h2]
    rfl
  | case3 l hl =>
    match l with
    | [] => exact ⟨n, by omega, base⟩
    | [a] =>
      by_cases hc : (decide (List.replicate (n + 1) ' ' = py" ") && sentenceEnd a) = true
      · refine ⟨1, ?_, ?_⟩
        · simp only [Bool.and_eq_true, decide_eq_true_eq] at hc
          have := congrArg List.length hc.1
          simp at this
          omega
        · show fixSentenceEndings (a :: _ :: B) = _
          rw [fixSentenceEndings, if_pos hc]
          rfl
      · refine ⟨n, by omega, ?_⟩
        show fixSentenceEndings (a :: _ :: B) = _
        rw [fixSentenceEndings, if_neg hc, base]
        rfl
    | a :: b :: r => exact absurd rfl (hl a b r)

/-! ## The loop at a gap -/

theorem fillLine_append (u : Uni) (w : Int) (cur : List Str) (n : Int) (D X : List Str) :
    fillLine u w cur n (D ++ X) =
      (if (fillLine u w cur n D).2.2 = [] then fillLine u w (fillLine u w cur n D).1 (fillLine u w cur n D).2.1 X
       else ((fillLine u w cur n D).1, (fillLine u w cur n D).2.1, (fillLine u w cur n D).2.2 ++ X)) := by
  induction D generalizing cur n with
  | nil => simp [fillLine]
  | cons c D ih =>
    simp only [List.cons_append, fillLine]
    split
    · exact ih _ _
    · simp

theorem dropLead_append (o : WrapOpts) (le : Bool) (C X : List Str) (h : C ≠ []) : dropLead o le (C ++ X) = dropLead o le C ++ X := by
  cases C with
  | nil => exact absurd rfl h
  | cons c C => simp only [List.cons_append, dropLead]; split <;> simp

theorem breakLong_append (u : Uni) (o : WrapOpts) (w : Int) (t : List Str) (n : Int) (c : Str) (r X : List Str) :
    breakLongChunk u o w t n (c :: r ++ X) =
      ((breakLongChunk u o w t n (c :: r)).1, (breakLongChunk u o w t n (c :: r)).2.1, (breakLongChunk u o w t n (c :: r)).2.2 ++ X) := by
  simp only [List.cons_append, breakLongChunk]
  split
  · simp only [handleLongWord]
    split
    · simp
    · split <;> simp
  · simp

/-- The last chunk is a word. -/
def EndsWord (cs : List Str) : Prop := ∃ a c, cs = a ++ [c] ∧ WordChunk c

theorem endsWord_tail {c : Str} {cs : List Str} (h : EndsWord (c :: cs)) (hne : cs ≠ []) : EndsWord cs := by
  obtain ⟨a, d, e, hd⟩ := h
  cases a with
  | nil => simp at e; exact absurd e.2 hne
  | cons b a => simp at e; exact ⟨a, d, e.2, hd⟩

theorem endsWord_right {a b : List Str} (h : EndsWord (a ++ b)) (hne : b ≠ []) : EndsWord b := by
  induction a with
  | nil => exact h
  | cons x a ih => exact ih (endsWord_tail h (by simp [hne]))

theorem endsWord_strip {a : List Str} (h : EndsWord a) : ∀ l, a.getLast? = some l → strip l ≠ [] := by
  obtain ⟨x, c, rfl, hc⟩ := h
  intro l hl
  simp at hl
  subst hl
  intro e
  exact not_both hc ⟨hc.1, (strip_nil_iff c).1 e⟩

theorem dropTrail_word (u : Uni) (o : WrapOpts) (a : List Str) (n : Int) (h : EndsWord a) : dropTrail u o a n = (a, n) := by
  have hs := endsWord_strip h
  unfold dropTrail
  cases hl : a.getLast? with
  | none => rfl
  | some l => simp [hs l hl]

theorem blank_drop {S : Str} (h : Blank S) (e : Int) : Blank (pyDrop S e) := fun c hc => h c (pyDrop_mem hc)
theorem blank_take {S : Str} (h : Blank S) (e : Int) : Blank (pyTake S e) := fun c hc => h c (pyTake_mem hc)

/-- One round at a gap: either the line ends before it, or the line is all that is before it. -/
theorem nextLine_gap (u : Uni) (o : WrapOpts) (hd : o.dropWs = true) (hb : o.breakLong = true) (le : Bool) (w : Int) (hw : 1 ≤ w)
    (C : List Str) (hC : EndsWord C) :
    (∃ cur rest, EndsWord rest ∧ ∀ X, nextLine u o le w (C ++ X) = (cur, sumLen u cur, rest ++ X)) ∨
    (∃ D, EndsWord D ∧ (∃ L, C = L ++ D) ∧ nextLine u o le w C = (D, sumLen u D, []) ∧
      (∀ S R, Blank S → sumLen u D + vlen u S > w → ∃ S', Blank S' ∧ nextLine u o le w (C ++ S :: R) = (D, sumLen u D, S' :: R)) ∧
      (∀ S, Blank S → sumLen u D + vlen u S ≤ w → nextLine u o le w (C ++ [S]) = (D, sumLen u D, [])) ∧
      ∀ S c R, Blank S → sumLen u D + vlen u S ≤ w → vlen u c ≤ w → sumLen u D + vlen u S + vlen u c > w →
        nextLine u o le w (C ++ S :: c :: R) = (D, sumLen u D, c :: R)) := by
  have hne : C ≠ [] := by rintro rfl; obtain ⟨a, c, e, -⟩ := hC; simp at e
  obtain ⟨lead, l1, l2, l3⟩ := dropLead_spec o le C
  generalize hD : dropLead o le C = D at *
  have hDne : D ≠ [] := by
    rintro rfl
    rcases l2 with rfl | ⟨l, rfl, hs, -⟩
    · exact hne (by simpa using l1)
    · rw [List.append_nil] at l1
      rw [l1] at hC
      exact endsWord_strip hC l rfl hs
  have hDw : EndsWord D := by rw [l1] at hC; exact endsWord_right hC hDne
  obtain ⟨t, r, e1, e2, e3, e4⟩ := fillLine_spec u w [] 0 D
  simp only [List.nil_append, Int.zero_add] at e1 e3 e4
  cases hr : r with
  | cons c cs =>
    left
    rw [hr] at e1 e2 e4
    obtain ⟨t', r', b1, b2⟩ := breakLong_spec u o w t (c :: cs)
    obtain ⟨t'', d1, d2⟩ := dropTrail_spec u o t'
    refine ⟨t'', r', ?_, ?_⟩
    · have hcs : EndsWord (c :: cs) := by rw [e2] at hDw; exact endsWord_right hDw (by simp)
      cases b2 with
      | fits _ => exact hcs
      | later _ _ _ _ _ _ => exact hcs
      | whole _ _ _ _ hbl _ => rw [hb] at hbl; cases hbl
      | cut c' cs' hr' hl _ k hk =>
        cases hr'
        by_cases hcs0 : cs = []
        · subst hcs0
          obtain ⟨a, d, ed, hdw⟩ := hcs
          have : d = c := by
            have := congrArg List.getLast? ed
            simpa using this.symm
          subst this
          refine ⟨[], _, rfl, ?_⟩
          rw [if_neg (by omega)] at hk
          have hfit : sumLen u t ≤ w := by
            rcases e3 with h | h
            · rw [h]; simp [sumLen]; omega
            · exact h
          have h1 := cutPos_bounds o (w - sumLen u t) d (by omega)
          have h2 := vlen_le_len u d
          have h3 := sumLen_nonneg u t
          rw [← hk] at h1
          exact (piece (pyDrop_ne h1.1 (by omega)) (fun x hx => pyDrop_mem hx)).1 hdw
        · obtain ⟨a, d, ed, hdw⟩ := endsWord_tail hcs hcs0
          exact ⟨_ :: a, d, by rw [ed]; rfl, hdw⟩
    · intro X
      simp only [nextLine]
      rw [dropLead_append _ _ _ _ hne, hD, fillLine_append, e1]
      simp only [List.cons_ne_nil, if_false]
      rw [breakLong_append, b1]
      simp only [d1]
  | nil =>
    right
    rw [hr] at e1 e2 e4
    simp only [List.append_nil] at e2
    subst e2
    refine ⟨D, hDw, ⟨lead, l1⟩, ?_, ?_, ?_, ?_⟩
    · simp only [nextLine, hD, e1, breakLongChunk, dropTrail_word u o D _ hDw]
    · intro S R hS hlen
      have hf : fillLine u w [] 0 (D ++ S :: R) = (D, sumLen u D, S :: R) := by
        rw [fillLine_append, e1]
        simp only [if_true, fillLine]
        rw [if_neg (by omega)]
      have hn : nextLine u o le w (C ++ S :: R) =
          (let b := breakLongChunk u o w D (sumLen u D) (S :: R); let d := dropTrail u o b.1 b.2.1; (d.1, d.2, b.2.2)) := by
        simp only [nextLine]
        rw [dropLead_append _ _ _ _ hne, hD, hf]
      rw [hn]
      by_cases hl : vlen u S > w
      · obtain ⟨e, he⟩ : ∃ e, breakLongChunk u o w D (sumLen u D) (S :: R) =
            (D ++ [pyTake S e], sumLen u (D ++ [pyTake S e]), pyDrop S e :: R) := by
          simp only [breakLongChunk, hl, if_true, handleLongWord, hb]
          exact ⟨_, rfl⟩
        refine ⟨pyDrop S e, blank_drop hS e, ?_⟩
        have hst : strip (pyTake S e) = [] := (strip_nil_iff _).2 (blank_take hS e)
        simp only [he, dropTrail, List.getLast?_append, List.getLast?_singleton, Option.some_or, hd, hst, List.isEmpty_nil,
          Bool.and_self, if_true, List.dropLast_concat, sumLen_append, sumLen]
        simp
      · refine ⟨S, hS, ?_⟩
        simp only [breakLongChunk, if_neg hl, dropTrail_word u o D _ hDw]
    · intro S hS hlen
      have hf : fillLine u w [] 0 (D ++ [S]) = (D ++ [S], sumLen u (D ++ [S]), []) := by
        rw [fillLine_append, e1]
        simp only [if_true, fillLine]
        rw [if_pos (by omega), sumLen_append]
        simp [sumLen]
      have hst : strip S = [] := (strip_nil_iff _).2 hS
      simp only [nextLine]
      rw [dropLead_append _ _ _ _ hne, hD, hf]
      simp only [breakLongChunk, dropTrail, List.getLast?_append, List.getLast?_singleton, Option.some_or, hd, hst, List.isEmpty_nil,
        Bool.and_self, if_true, List.dropLast_concat, sumLen_append, sumLen]
      simp
    · intro S c R hS hlen hc hlong
      have hf : fillLine u w [] 0 (D ++ S :: c :: R) = (D ++ [S], sumLen u (D ++ [S]), c :: R) := by
        rw [fillLine_append, e1]
        simp only [if_true, fillLine]
        rw [if_pos (by omega), if_neg (by omega), sumLen_append]
        simp [sumLen]
      have hst : strip S = [] := (strip_nil_iff _).2 hS
      simp only [nextLine]
      rw [dropLead_append _ _ _ _ hne, hD, hf]
      simp only [breakLongChunk, show ¬ vlen u c > w by omega, if_false, dropTrail, List.getLast?_append, List.getLast?_singleton,
        Option.some_or, hd, hst, List.isEmpty_nil, Bool.and_self, if_true, List.dropLast_concat, sumLen_append, sumLen]
      simp

/-- Options for running text. -/
structure Plain (o : WrapOpts) : Prop where
  limit : o.maxLines = none
  initial : o.initialIndent = []
  subsequent : o.subsequentIndent = []
  drop : o.dropWs = true
  break_ : o.breakLong = true
  width : 1 ≤ o.width

theorem wrapLoop_plain {u : Uni} {o : WrapOpts} (hp : Plain o) (f : Nat) (lines C : List Str) (hne : C ≠ []) :
    wrapLoop u o (f + 1) lines C =
      if (nextLine u o lines.isEmpty o.width C).1 = [] then wrapLoop u o f lines (nextLine u o lines.isEmpty o.width C).2.2
      else wrapLoop u o f (lines ++ [(nextLine u o lines.isEmpty o.width C).1.flatten]) (nextLine u o lines.isEmpty o.width C).2.2 := by
  cases C with
  | nil => exact absurd rfl hne
  | cons c cs =>
    have hi : lineIndent o lines.isEmpty = [] := by unfold lineIndent; rw [hp.initial, hp.subsequent]; simp
    have hz : o.width - len ([] : Str) = o.width := by simp [len]
    simp only [wrapLoop, hi, hz, lineAllowed, hp.limit, if_true, List.nil_append, List.isEmpty_iff]

theorem endsWord_ne {a : List Str} (h : EndsWord a) : a ≠ [] := by
  obtain ⟨x, c, rfl, -⟩ := h; simp

/-- The chunks before a gap are wrapped on their own, if the gap and the first word after it do not fit on their last
line. -/
theorem loop_gap {u : Uni} {o : WrapOpts} (hp : Plain o) (f : Nat) (lines C out : List Str) (hC : EndsWord C)
    (h : wrapLoop u o f lines C = .ok out) (S : Str) (R : List Str) (hS : Blank S)
    (hlen : ∀ D, EndsWord D → (∃ L, out = L ++ [D.flatten]) → (∀ c ∈ D, ∀ x ∈ c, x ∈ C.flatten) → sumLen u D + vlen u S > o.width ∨
      ∃ c R', R = c :: R' ∧ vlen u c ≤ o.width ∧ sumLen u D + vlen u S + vlen u c > o.width) :
    out ≠ [] ∧ ∃ f' T, (T = R ∨ ∃ S', Blank S' ∧ T = S' :: R) ∧
      ∀ k, wrapLoop u o (f + k) lines (C ++ S :: R) = wrapLoop u o (f' + k) out T := by
  induction f generalizing lines C with
  | zero => cases C with | nil => exact absurd rfl (endsWord_ne hC) | cons c C => simp [wrapLoop] at h
  | succ f ih =>
    rw [wrapLoop_plain hp f lines C (endsWord_ne hC)] at h
    have hk : ∀ k, wrapLoop u o (f + 1 + k) lines (C ++ S :: R) = wrapLoop u o ((f + k) + 1) lines (C ++ S :: R) := by
      intro k; rw [Nat.add_right_comm]
    rcases nextLine_gap u o hp.drop hp.break_ lines.isEmpty o.width hp.width C hC with ⟨cur, rest, h1, h2⟩ | ⟨D, h1, ⟨L, hL⟩, h2, h3, -, h4⟩
    · have h20 := h2 []
      rw [List.append_nil, List.append_nil] at h20
      rw [h20] at h
      simp only at h
      have hmem : ∀ x ∈ rest.flatten, x ∈ C.flatten := by
        intro x hx
        obtain ⟨cur', rest', e1, lead, taken, left, taken', r⟩ := nextLine_spec u o lines.isEmpty o.width C
        rw [h20] at e1
        cases e1
        exact round_mem r x (.inr hx)
      have hlen' : ∀ D, EndsWord D → (∃ L, out = L ++ [D.flatten]) → (∀ c ∈ D, ∀ x ∈ c, x ∈ rest.flatten) → sumLen u D + vlen u S > o.width ∨
          ∃ c R', R = c :: R' ∧ vlen u c ≤ o.width ∧ sumLen u D + vlen u S + vlen u c > o.width :=
        fun D d1 d2 d3 => hlen D d1 d2 (fun c hc x hx => hmem x (d3 c hc x hx))
      split at h
      · rename_i hc
        obtain ⟨g1, f', S', g2, g3⟩ := ih _ _ h1 h hlen'
        refine ⟨g1, f', S', g2, fun k => ?_⟩
        rw [hk, wrapLoop_plain hp _ _ _ (by simp), h2]
        simp only [hc, if_true]
        exact g3 k
      · rename_i hc
        obtain ⟨g1, f', S', g2, g3⟩ := ih _ _ h1 h hlen'
        refine ⟨g1, f', S', g2, fun k => ?_⟩
        rw [hk, wrapLoop_plain hp _ _ _ (by simp), h2]
        simp only [hc, if_false]
        exact g3 k
    · rw [h2] at h
      simp only [endsWord_ne h1, if_false, wrapLoop_nil, Except.ok.injEq] at h
      have hD := hlen D h1 ⟨lines, h.symm⟩ (by
        intro c hc x hx
        rw [hL, List.flatten_append, List.mem_append]
        exact .inr (List.mem_flatten.2 ⟨c, hc, hx⟩))
      have hout : out ≠ [] := by rw [← h]; simp
      by_cases hl : sumLen u D + vlen u S > o.width
      · obtain ⟨S', s1, s2⟩ := h3 S R hS hl
        refine ⟨hout, f, S' :: R, .inr ⟨S', s1, rfl⟩, fun k => ?_⟩
        rw [hk, wrapLoop_plain hp _ _ _ (by simp), s2]
        simp only [endsWord_ne h1, if_false, h]
      · obtain ⟨c, R', rfl, c1, c2⟩ := hD.resolve_left hl
        refine ⟨hout, f, c :: R', .inl rfl, fun k => ?_⟩
        rw [hk, wrapLoop_plain hp _ _ _ (by simp), h4 S c R' hS (by omega) c1 c2]
        simp only [endsWord_ne h1, if_false, h]

/-- Lines already there stay. -/
theorem loop_lines {u : Uni} {o : WrapOpts} (hp : Plain o) (f : Nat) (pre lines C : List Str) (hl : lines ≠ []) :
    wrapLoop u o f (pre ++ lines) C = (wrapLoop u o f lines C).map (pre ++ ·) := by
  induction f generalizing lines C with
  | zero => cases C <;> simp [wrapLoop, Except.map]
  | succ f ih =>
    cases C with
    | nil => simp [wrapLoop, Except.map]
    | cons c C =>
      rw [wrapLoop_plain hp _ _ _ (by simp), wrapLoop_plain hp _ _ _ (by simp)]
      have he : (pre ++ lines).isEmpty = lines.isEmpty := by cases lines <;> cases pre <;> simp_all
      rw [he]
      split
      · exact ih _ _ hl
      · rw [List.append_assoc]; exact ih _ _ (by simp)

theorem dropLead_word (o : WrapOpts) (le : Bool) (c : Str) (C : List Str) (hc : WordChunk c) : dropLead o le (c :: C) = c :: C := by
  have : strip c ≠ [] := endsWord_strip (a := [c]) ⟨[], c, rfl, hc⟩ c rfl
  simp [dropLead, this]

theorem nextLine_word {u : Uni} {o : WrapOpts} (hb : o.breakLong = true) (le : Bool) (w : Int) (hw : 1 ≤ w) (c : Str) (C : List Str)
    (hc : WordChunk c) : (nextLine u o le w (c :: C)).1 ≠ [] := by
  obtain ⟨cur, rest, e1, lead, taken, left, taken', r⟩ := nextLine_spec u o le w (c :: C)
  rw [e1]
  intro hcur
  simp only at hcur
  subst hcur
  have hns : strip c ≠ [] := endsWord_strip (a := [c]) ⟨[], c, rfl, hc⟩ c rfl
  have hlead : lead = [] := by
    rcases r.leadOk with h | ⟨l, rfl, h, -⟩
    · exact h
    · have := r.split
      simp at this
      rw [this.1] at hns
      exact absurd h hns
  have hs := r.split
  rw [hlead, List.nil_append] at hs
  have hbr := r.broken
  have key : ∀ x xs, taken' = x :: xs → strip x ≠ [] → False := by
    intro x xs e hx
    subst e
    cases r.trimmed with
    | drop _ l _ e hl =>
      simp at e
      rw [e.1] at hx
      exact hx hl
  cases htk : taken with
  | cons x xs =>
    rw [htk, List.cons_append, List.cons.injEq] at hs
    obtain ⟨rfl, hs⟩ := hs
    cases hbr with
    | fits _ => exact key _ _ htk hns
    | later _ _ _ _ _ _ => exact key _ _ htk hns
    | whole _ _ _ _ hbl _ => rw [hb] at hbl; cases hbl
    | cut _ _ _ _ _ _ _ => exact key c (xs ++ [_]) (by rw [htk]; rfl) hns
  | nil =>
    rw [htk, List.nil_append] at hs
    have hlong := r.full c C hs.symm
    rw [htk] at hlong
    simp only [sumLen, Int.zero_add] at hlong
    cases hbr with
    | fits h => have := h c C hs.symm; omega
    | later _ _ _ _ hbl _ => rw [hb] at hbl; cases hbl
    | whole _ _ _ _ hbl _ => rw [hb] at hbl; cases hbl
    | cut c' cs hr hl _ k hk =>
      rw [hr, List.cons.injEq] at hs
      obtain ⟨rfl, -⟩ := hs
      rw [if_neg (by omega), htk] at hk
      simp only [sumLen, Int.sub_zero] at hk
      have h1 := cutPos_bounds o w c (by omega)
      rw [← hk] at h1
      have hpw := (piece (pyTake_ne hc.1 (h1.2.2 hw)) (fun x hx => pyTake_mem hx)).1 hc
      exact key _ _ (by rw [htk]; rfl) (endsWord_strip (a := [_]) ⟨[], _, rfl, hpw⟩ _ rfl)

/-- After a gap the loop starts anew. -/
theorem loop_start {u : Uni} {o : WrapOpts} (hp : Plain o) (f : Nat) (lines C : List Str)
    (hC : ∀ c r, C = c :: r → WordChunk c) : wrapLoop u o f lines C = (wrapLoop u o f [] C).map (lines ++ ·) := by
  cases C with
  | nil => simp [wrapLoop_nil, Except.map]
  | cons c C =>
    cases f with
    | zero => simp [wrapLoop, Except.map]
    | succ f =>
      have hn : ∀ le, nextLine u o le o.width (c :: C) = nextLine u o true o.width (c :: C) := by
        intro le; simp only [nextLine, dropLead_word _ _ _ _ (hC c C rfl)]
      rw [wrapLoop_plain hp _ _ _ (by simp), wrapLoop_plain hp _ _ _ (by simp), hn, hn ([] : List Str).isEmpty]
      split
      · rename_i hc
        exact absurd hc (nextLine_word hp.break_ _ _ hp.width _ _ (hC c C rfl))
      · rw [loop_lines hp f lines [_] _ (by simp)]
        rfl

/-- The rest of a gap is dropped. -/
theorem loop_skip {u : Uni} {o : WrapOpts} (hp : Plain o) (f : Nat) (lines : List Str) (S : Str) (C : List Str) (hl : lines ≠ [])
    (hS : Blank S) (hC : ∀ c r, C = c :: r → WordChunk c) : wrapLoop u o (f + 1) lines (S :: C) = wrapLoop u o (f + 1) lines C := by
  have he : lines.isEmpty = false := by cases lines <;> simp_all
  have hs : (strip S).isEmpty = true := by rw [(strip_nil_iff S).2 hS]; rfl
  have hd : dropLead o false (S :: C) = C := by simp [dropLead, hp.drop, hs]
  rw [wrapLoop_plain hp _ _ _ (by simp), he]
  cases C with
  | nil =>
    have : nextLine u o false o.width [S] = ([], 0, []) := by
      simp [nextLine, hd, fillLine, breakLongChunk, dropTrail]
    rw [this]
    simp [wrapLoop_nil]
  | cons c C =>
    rw [wrapLoop_plain hp _ _ _ (by simp), he]
    have : nextLine u o false o.width (S :: c :: C) = nextLine u o false o.width (c :: C) := by
      simp only [nextLine, hd, dropLead_word _ _ _ _ (hC c C rfl)]
    rw [this]

/-- Whitespace at the end is dropped. -/
theorem loop_end {u : Uni} {o : WrapOpts} (hp : Plain o) (f : Nat) (lines C out : List Str) (hC : EndsWord C)
    (h : wrapLoop u o f lines C = .ok out) (S : Str) (hS : Blank S) : out ≠ [] ∧ wrapLoop u o (f + 1) lines (C ++ [S]) = .ok out := by
  induction f generalizing lines C with
  | zero => cases C with | nil => exact absurd rfl (endsWord_ne hC) | cons c C => simp [wrapLoop] at h
  | succ f ih =>
    rw [wrapLoop_plain hp f lines C (endsWord_ne hC)] at h
    rw [wrapLoop_plain hp _ _ _ (by simp)]
    rcases nextLine_gap u o hp.drop hp.break_ lines.isEmpty o.width hp.width C hC with ⟨cur, rest, h1, h2⟩ | ⟨D, h1, -, h2, h3, h4, -⟩
    · have h20 := h2 []
      rw [List.append_nil, List.append_nil] at h20
      rw [h20] at h
      rw [h2]
      simp only at h ⊢
      split at h
      · rename_i hc; rw [if_pos hc]; exact ih _ _ h1 h
      · rename_i hc; rw [if_neg hc]; exact ih _ _ h1 h
    · rw [h2] at h
      simp only [endsWord_ne h1, if_false, wrapLoop_nil, Except.ok.injEq] at h
      have hne : out ≠ [] := by rw [← h]; simp
      refine ⟨hne, ?_⟩
      by_cases hlen : sumLen u D + vlen u S ≤ o.width
      · rw [h4 S hS hlen]
        simp only [endsWord_ne h1, if_false, wrapLoop_nil, h]
      · obtain ⟨S', s1, s2⟩ := h3 S [] hS (by omega)
        rw [s2]
        simp only [endsWord_ne h1, if_false, h]
        rw [loop_skip hp _ _ _ _ hne s1 (by simp), wrapLoop_nil]

/-! ## Texts -/

theorem simple_append {a b : Str} : Simple (a ++ b) ↔ Simple a ∧ Simple b := by
  constructor
  · rintro ⟨h1, h2⟩
    exact ⟨⟨fun h => h1 (by simp [h]), fun c hc => h2 c (by simp [hc])⟩, ⟨fun h => h1 (by simp [h]), fun c hc => h2 c (by simp [hc])⟩⟩
  · rintro ⟨⟨h1, h2⟩, h3, h4⟩
    exact ⟨by simp [h1, h3], fun c hc => (List.mem_append.1 hc).elim (h2 c) (h4 c)⟩

theorem simple_plainWs {a : Str} (h : Simple a) : PlainWs a := by
  intro c hc hs
  rcases h.2 c hc hs with rfl | rfl <;> decide

theorem expandtabs_simple {s : Str} (ts : Int) (col : Nat) (h : '\t' ∉ s) : expandtabsFrom ts col s = s := by
  induction s generalizing col with
  | nil => rfl
  | cons c s ih =>
    simp only [List.mem_cons, not_or] at h
    simp only [expandtabsFrom]
    rw [if_neg (Ne.symm h.1)]
    split <;> simp [ih _ h.2]

/-- A whitespace character becomes a space. -/
def toSp (c : Char) : Char := if isTwSpace c then ' ' else c

theorem munge_simple {u : Uni} {w : Int} {s : Str} (h : Simple s) : munge (proseOpts u w) s = s.map toSp := by
  have ht : '\t' ∉ s := fun hm => by rcases h.2 _ hm (by decide) with e | e <;> cases e
  simp only [munge, proseOpts, if_true, expandtabs, expandtabs_simple _ _ ht]
  rfl

theorem toSp_space {c : Char} : isSpace (toSp c) = isSpace c := by
  unfold toSp
  split
  · rename_i h; rw [tw_isSpace c h]; decide
  · rfl

theorem toSp_word {c : Char} (h : isSpace c = false) : toSp c = c := by
  unfold toSp
  rw [if_neg]
  intro ht
  rw [tw_isSpace c ht] at h
  cases h

theorem toSp_blank {g : Str} (hs : Simple g) (h : Blank g) : g.map toSp = List.replicate g.length ' ' := by
  rw [List.eq_replicate_iff]
  refine ⟨by simp, fun c hc => ?_⟩
  obtain ⟨x, hx, rfl⟩ := List.mem_map.1 hc
  rcases hs.2 x hx (h x hx) with rfl | rfl <;> decide

theorem endsWord_fix (C : List Str) (h : EndsWord C) : EndsWord (fixSentenceEndings C) := by
  induction C using fixSentenceEndings.induct with
  | case1 a b r hc ih =>
    rw [fixSentenceEndings, if_pos hc]
    by_cases hr : r = []
    · subst hr
      exfalso
      simp only [Bool.and_eq_true, decide_eq_true_eq] at hc
      exact endsWord_strip h b rfl (by rw [hc.1]; decide)
    · obtain ⟨x, c, e, hw⟩ := ih (endsWord_right (a := [a, b]) h hr)
      exact ⟨a :: py"  " :: x, c, by rw [e]; rfl, hw⟩
  | case2 a b r hc ih =>
    rw [fixSentenceEndings, if_neg hc]
    obtain ⟨x, c, e, hw⟩ := ih (endsWord_right (a := [a]) h (by simp))
    exact ⟨a :: x, c, by rw [e]; rfl, hw⟩
  | case3 l hl =>
    match l with
    | [] => exact h
    | [a] => exact h
    | a :: b :: r => exact absurd rfl (hl a b r)

theorem splitChunks_tidy (u : Uni) (s : Str) (hp : PlainWs s) : Tidy (chunkGo u [] .fresh [] s) :=
  (chunkGo_tidy u [] .fresh [] s rfl (by simpa using hp)).1

theorem toSp_plain (s : Str) (hp : PlainWs s) : PlainWs (s.map toSp) := by
  intro c hc hs
  obtain ⟨x, hx, rfl⟩ := List.mem_map.1 hc
  rw [toSp_space] at hs
  have := hp x hx hs
  simp only [toSp, this, if_true]
  decide

theorem input_simple {u : Uni} {w : Int} {s : Str} (h : Simple s) :
    wrapInput u (proseOpts u w) s = fixSentenceEndings (chunkGo u [] .fresh [] (s.map toSp)) := by
  simp only [wrapInput, munge_simple h]
  rfl

/-- The first, the last character is not whitespace. -/
def HeadOk (s : Str) : Prop := ∀ c, s.head? = some c → isSpace c = false
def LastOk (s : Str) : Prop := ∃ r c, s = r ++ [c] ∧ isSpace c = false

theorem input_ends {u : Uni} {w : Int} {s : Str} (h : Simple s) (hl : LastOk s) : EndsWord (wrapInput u (proseOpts u w) s) := by
  rw [input_simple h]
  apply endsWord_fix
  obtain ⟨r, c, e, hc⟩ := hl
  have ht := splitChunks_tidy u (s.map toSp) (toSp_plain s (simple_plainWs h))
  have hf := chunkGo_flatten u [] .fresh [] (s.map toSp) (fun _ => rfl)
  simp only [List.reverse_nil, List.nil_append] at hf
  generalize chunkGo u [] .fresh [] (s.map toSp) = C at *
  cases hC : C.getLast? with
  | none =>
    rw [List.getLast?_eq_none_iff] at hC
    rw [hC, e] at hf
    simp at hf
  | some d =>
    rw [List.getLast?_eq_some_iff] at hC
    obtain ⟨a, rfl⟩ := hC
    refine ⟨a, d, rfl, ?_⟩
    rcases ht.pure d (by simp) with h' | h'
    · exact h'
    · exfalso
      have h2 := congrArg List.getLast? hf
      rw [e] at h2
      simp only [List.flatten_append, List.flatten_cons, List.flatten_nil, List.append_nil, List.map_append, List.map_cons, List.map_nil,
        List.getLast?_append, List.getLast?_singleton, Option.some_or] at h2
      cases hd : d.getLast? with
      | none => rw [List.getLast?_eq_none_iff] at hd; exact h'.1 hd
      | some x =>
        rw [hd] at h2
        simp at h2
        have := h'.2 x (List.mem_of_getLast? hd)
        rw [h2, toSp_space, hc] at this
        cases this

theorem input_heads {u : Uni} {w : Int} {s : Str} (h : Simple s) (hl : HeadOk s) :
    ∀ c r, wrapInput u (proseOpts u w) s = c :: r → WordChunk c := by
  intro c r e
  rw [input_simple h] at e
  have ht := splitChunks_tidy u (s.map toSp) (toSp_plain s (simple_plainWs h))
  have hf := chunkGo_flatten u [] .fresh [] (s.map toSp) (fun _ => rfl)
  simp only [List.reverse_nil, List.nil_append] at hf
  have hh := fix_head (chunkGo u [] .fresh [] (s.map toSp))
  rw [e] at hh
  generalize chunkGo u [] .fresh [] (s.map toSp) = C at *
  cases C with
  | nil => cases hh
  | cons d C =>
    cases hh
    rcases ht.pure c (by simp) with h' | h'
    · exact h'
    · exfalso
      cases hc : c with
      | nil => exact h'.1 hc
      | cons x c' =>
        rw [hc] at hf
        cases s with
        | nil => simp at hf
        | cons y s =>
          simp at hf
          have := h'.2 x (by rw [hc]; simp)
          rw [hf.1, toSp_space, hl y rfl] at this
          cases this

theorem input_gap {u : Uni} {w : Int} {a g b : Str} (ha : Simple a) (hg : Simple g) (hb : Simple b) (hB : Blank g) (hne : g ≠ [])
    (hla : LastOk a) (hhb : HeadOk b) : ∃ m, g.length ≤ m + 1 ∧ wrapInput u (proseOpts u w) (a ++ g ++ b) =
      wrapInput u (proseOpts u w) a ++ List.replicate (m + 1) ' ' :: wrapInput u (proseOpts u w) b := by
  rw [input_simple ha, input_simple hb, input_simple (simple_append.2 ⟨simple_append.2 ⟨ha, hg⟩, hb⟩)]
  rw [List.map_append, List.map_append, toSp_blank hg hB]
  obtain ⟨n, hn⟩ : ∃ n, g.length = n + 1 := ⟨g.length - 1, by have := List.length_pos_iff.2 hne; omega⟩
  have hm : ∀ c, isSpace c = false → isTwSpace (toSp c) = false := by
    intro c hc
    rw [toSp_word hc]
    cases ht : isTwSpace c with
    | false => rfl
    | true => rw [tw_isSpace c ht] at hc; cases hc
  rw [hn, chunkGo_gap]
  · obtain ⟨m, h1, h2⟩ := fixSentence_gap n (chunkGo u [] .fresh [] (a.map toSp)) (chunkGo u [] .fresh [] (b.map toSp))
    exact ⟨m, by omega, h2⟩
  · intro c hc
    obtain ⟨r, d, rfl, hd⟩ := hla
    simp at hc
    rw [← hc]; exact hm d hd
  · intro c hc
    cases b with
    | nil => cases hc
    | cons d b => simp at hc; rw [← hc]; exact hm d (hhb d rfl)

theorem prose_plain (u : Uni) {w : Int} (hw : 0 < w) : Plain (proseOpts u w) := ⟨rfl, rfl, rfl, rfl, rfl, hw⟩

theorem esc_input {u : Uni} {o : WrapOpts} {s : Str} (h : '\x1b' ∉ s) : '\x1b' ∉ (wrapInput u o s).flatten := by
  intro hm
  have h1 : '\x1b' ∈ nonws (wrapInput u o s).flatten := by
    simp only [nonws, List.mem_filter]
    exact ⟨hm, by decide⟩
  rw [wrapInput_nonws] at h1
  simp only [nonws, List.mem_filter] at h1
  exact h h1.1

theorem vlen_length {u : Uni} {s : Str} (h : '\x1b' ∉ s) : vlen u s = s.length := by
  unfold vlen; rw [stripAnsi_noesc u s h]

/-- The length of the first word, up to a hyphen. -/
def leadLen (s : Str) : Nat := (s.takeWhile (fun c => !isSpace c && c != '-')).length

theorem leadLen_le (s : Str) : leadLen s ≤ s.length := (List.takeWhile_sublist _).length_le

/-- The first chunk is at least that long. -/
theorem input_lead {u : Uni} {w : Int} {s : Str} (h : Simple s) {c : Str} {r : List Str}
    (e : wrapInput u (proseOpts u w) s = c :: r) : leadLen s ≤ c.length := by
  rw [input_simple h] at e
  have ht := splitChunks_tidy u (s.map toSp) (toSp_plain s (simple_plainWs h))
  have hf := chunkGo_flatten u [] .fresh [] (s.map toSp) (fun _ => rfl)
  have hd := chunkGo_dashed u [] .fresh [] (s.map toSp) (by simp) (by simp)
  simp only [List.reverse_nil, List.nil_append] at hf
  have hh := fix_head (chunkGo u [] .fresh [] (s.map toSp))
  rw [e] at hh
  generalize chunkGo u [] .fresh [] (s.map toSp) = C at *
  cases C with
  | nil => cases hh
  | cons d C =>
    cases hh
    apply Classical.byContradiction
    intro hlt
    obtain ⟨q, hq⟩ : ∃ q, s = s.takeWhile (fun c => !isSpace c && c != '-') ++ q := ⟨_, (List.takeWhile_append_dropWhile).symm⟩
    unfold leadLen at hlt
    have hp : ∀ x ∈ s.takeWhile (fun c => !isSpace c && c != '-'), isSpace x = false ∧ x ≠ '-' := by
      intro x hx
      have := List.all_eq_true.1 List.all_takeWhile x hx
      simpa using this
    generalize s.takeWhile (fun c => !isSpace c && c != '-') = p at *
    have hpm : p.map toSp = p := (List.map_congr_left (g := id) fun x hx => toSp_word (hp x hx).1).trans (by simp)
    rw [hq, List.map_append, hpm, List.flatten_cons] at hf
    obtain ⟨z, z1, z2⟩ : ∃ z, p = c ++ z ∧ C.flatten = z ++ q.map toSp := by
      rcases List.append_eq_append_iff.1 hf with ⟨z, e1, e2⟩ | ⟨z, e1, e2⟩
      · exact ⟨z, e1, e2⟩
      · have := congrArg List.length e1
        rw [List.length_append] at this
        omega
    have hzne : z ≠ [] := by
      rintro rfl
      rw [List.append_nil] at z1
      rw [z1] at hlt
      exact hlt (Nat.le_refl _)
    have hcw : WordChunk c := by
      rcases ht.pure c (by simp) with h' | h'
      · exact h'
      · exfalso
        cases hc : c with
        | nil => exact h'.1 hc
        | cons x c' =>
          have h1 := h'.2 x (by rw [hc]; simp)
          rw [(hp x (by rw [z1, hc]; simp)).1] at h1
          cases h1
    cases C with
    | nil => simp at z2; exact hzne z2.1
    | cons y C =>
      have hyne : y ≠ [] := by rcases ht.pure y (by simp) with h' | h' <;> exact h'.1
      cases y with
      | nil => exact hyne rfl
      | cons x y =>
        cases z with
        | nil => exact hzne rfl
        | cons x' z =>
          simp only [List.flatten_cons, List.cons_append, List.cons.injEq] at z2
          obtain ⟨rfl, -⟩ := z2
          have hx := hp x (by rw [z1]; simp)
          have hyw : WordChunk (x :: y) := by
            rcases ht.pure (x :: y) (by simp) with h' | h'
            · exact h'
            · have h1 := h'.2 x (by simp)
              rw [hx.1] at h1; cases h1
          rcases hd.1 hcw hyw with h' | h'
          · exact (hp '-' (by rw [z1]; exact List.mem_append.2 (.inl (List.mem_of_getLast? h')))).2 rfl
          · simp at h'; exact hx.2 h'

/-- The first chunk is no longer than the text before the first whitespace. -/
theorem input_first {u : Uni} {w : Int} {r t : Str} (h : Simple (r ++ t)) (hh : HeadOk (r ++ t)) (ht : ∀ c, t.head? = some c → isSpace c = true)
    {c : Str} {R : List Str} (e : wrapInput u (proseOpts u w) (r ++ t) = c :: R) : c.length ≤ r.length := by
  have hcw := input_heads h hh c R e
  rw [input_simple h] at e
  have hf := chunkGo_flatten u [] .fresh [] ((r ++ t).map toSp) (fun _ => rfl)
  simp only [List.reverse_nil, List.nil_append] at hf
  have hx := fix_head (chunkGo u [] .fresh [] ((r ++ t).map toSp))
  rw [e] at hx
  generalize chunkGo u [] .fresh [] ((r ++ t).map toSp) = C at *
  cases C with
  | nil => cases hx
  | cons d C =>
    cases hx
    rw [List.flatten_cons, List.map_append] at hf
    rcases List.append_eq_append_iff.1 hf with ⟨z, e1, e2⟩ | ⟨z, e1, e2⟩
    · have := congrArg List.length e1
      simp only [List.length_append, List.length_map] at this
      omega
    · cases z with
      | nil => rw [List.append_nil] at e1; rw [e1]; simp
      | cons x z =>
        exfalso
        cases t with
        | nil => simp at e2
        | cons y t =>
          simp only [List.map_cons, List.cons_append, List.cons.injEq] at e2
          have h1 := hcw.2 x (by rw [e1]; simp)
          rw [← e2.1, toSp_space, ht y rfl] at h1
          cases h1

/-- Two texts so far apart that the first word of the second does not fit on the last line of the first are wrapped on their
own. -/
theorem wrap_gap {u : Uni} {w : Int} {a g b : Str} (ha : Simple a) (hg : Simple g) (hb : Simple b) (hB : Blank g) (hne : g ≠ [])
    (hla : LastOk a) (hhb : HeadOk b) {la lb : List Str} (h1 : wrap u (proseOpts u w) a = .ok la)
    (h2 : wrap u (proseOpts u w) b = .ok lb) (hfirst : ∀ c r, wrapInput u (proseOpts u w) b = c :: r → (c.length : Int) ≤ w)
    (hlen : ∀ L l, la = L ++ [l] → (l.length : Int) + g.length + leadLen b > w) :
    wrap u (proseOpts u w) (a ++ g ++ b) = .ok (la ++ lb) := by
  obtain ⟨hw, -, l1⟩ := wrap_ok h1
  obtain ⟨-, -, l2⟩ := wrap_ok h2
  have hw' : 0 < w := hw
  have hp := prose_plain u hw'
  obtain ⟨m, m1, m2⟩ := input_gap (u := u) (w := w) ha hg hb hB hne hla hhb
  have hS : Blank (List.replicate (m + 1) ' ') := by
    intro c hc; rw [(List.mem_replicate.1 hc).2]; decide
  have hSe : '\x1b' ∉ List.replicate (m + 1) ' ' := by
    intro hc; have := (List.mem_replicate.1 hc).2; cases this
  obtain ⟨g1, f', T, g2, g3⟩ := loop_gap hp _ _ _ _ (input_ends ha hla) l1 (List.replicate (m + 1) ' ')
    (wrapInput u (proseOpts u w) b) hS (by
      rintro D d1 ⟨L, d2⟩ d3
      have he : '\x1b' ∉ D.flatten := by
        intro hm
        obtain ⟨c, hc, hx⟩ := List.mem_flatten.1 hm
        exact esc_input ha.1 (d3 c hc _ hx)
      rw [sumLen_noesc u D he, vlen_length hSe]
      have := hlen L _ d2
      simp only [len, List.length_replicate]
      show _ > w ∨ ∃ c R', _ ∧ _ ≤ w ∧ _ > w
      by_cases hl : (D.flatten.length : Int) + ((m + 1 : Nat) : Int) > w
      · exact .inl hl
      · right
        cases hb' : wrapInput u (proseOpts u w) b with
        | nil =>
          exfalso
          have hb0 : leadLen b = 0 := by
            have hn : nonws b = [] := by rw [← wrapInput_nonws u (proseOpts u w) b, hb']; rfl
            cases b with
            | nil => rfl
            | cons x b =>
              have := hhb x rfl
              simp [nonws, this] at hn
          omega
        | cons c R' =>
          have hc : '\x1b' ∉ c := fun hm => esc_input hb.1 (u := u) (o := proseOpts u w) (by rw [hb']; simp [hm])
          refine ⟨c, R', rfl, ?_, ?_⟩
          · rw [vlen_length hc]; exact hfirst c R' hb'
          · rw [vlen_length hc]
            have := input_lead (u := u) (w := w) hb hb'
            omega)
  obtain ⟨lines, hl⟩ := wrap_prose u w hw' (a ++ g ++ b)
  obtain ⟨-, -, l3⟩ := wrap_ok hl
  rw [m2] at l3
  rw [hl]
  -- enough rounds
  let K := wrapFuel (wrapInput u (proseOpts u w) b) + 1
  have e1 := wrapLoop_mono u _ _ (wrapFuel (wrapInput u (proseOpts u w) a) + K) _ _ _ l3
  have e2 := g3 (wrapFuel (wrapInput u (proseOpts u w) a ++ List.replicate (m + 1) ' ' :: wrapInput u (proseOpts u w) b) + K)
  rw [show ∀ x y z : Nat, x + (y + z) = y + (x + z) from fun x y z => by omega] at e1
  rw [e1] at e2
  rw [e2]
  generalize wrapFuel (wrapInput u (proseOpts u w) a ++ List.replicate (m + 1) ' ' :: wrapInput u (proseOpts u w) b) = F
  have hK : ∃ G, f' + (F + K) = wrapFuel (wrapInput u (proseOpts u w) b) + G + 1 := ⟨f' + F, by simp only [K]; omega⟩
  obtain ⟨G, hG⟩ := hK
  rw [hG]
  have l2' := wrapLoop_mono u _ _ (G + 1) _ _ _ l2
  rw [← Nat.add_assoc] at l2'
  have hT : wrapLoop u (proseOpts u w) (wrapFuel (wrapInput u (proseOpts u w) b) + G + 1) la T =
      wrapLoop u (proseOpts u w) (wrapFuel (wrapInput u (proseOpts u w) b) + G + 1) la (wrapInput u (proseOpts u w) b) := by
    rcases g2 with rfl | ⟨S', g2, rfl⟩
    · rfl
    · exact loop_skip hp _ _ _ _ g1 g2 (input_heads hb hhb)
  rw [hT, loop_start hp _ _ _ (input_heads hb hhb), l2']
  rfl

/-! ## A line that fits -/

theorem fix_id (C : List Str) (h : ∀ A a B, C = A ++ a :: py" " :: B → sentenceEnd a = false) : fixSentenceEndings C = C := by
  induction C using fixSentenceEndings.induct with
  | case1 a b r hc ih =>
    simp only [Bool.and_eq_true, decide_eq_true_eq] at hc
    have := h [] a r (by rw [hc.1]; rfl)
    rw [hc.2] at this; cases this
  | case2 a b r hc ih =>
    rw [fixSentenceEndings, if_neg hc, ih]
    intro A a' B e
    exact h (a :: A) a' B (by rw [e]; rfl)
  | case3 l hl =>
    match l with
    | [] => rfl
    | [a] => rfl
    | a :: b :: r => exact absurd rfl (hl a b r)

theorem fillLine_all (u : Uni) (w : Int) (cs : List Str) (h : sumLen u cs ≤ w) : fillLine u w [] 0 cs = (cs, sumLen u cs, []) := by
  obtain ⟨t, r, e1, e2, e3, e4⟩ := fillLine_spec u w [] 0 cs
  cases r with
  | nil => rw [e1, e2]; simp
  | cons c r =>
    exfalso
    have := e4 c r rfl
    rw [e2, sumLen_append] at h
    simp only [sumLen] at h
    have := sumLen_nonneg u r
    omega

theorem wrap_row {u : Uni} {w : Int} {r : Str} (hs : Simple r) (hn : '\n' ∉ r) (hh : HeadOk r) (hl : LastOk r) (hlen : (r.length : Int) ≤ w)
    (hsp : WellSpaced r) : wrap u (proseOpts u w) r = .ok [r] := by
  have hmap : r.map toSp = r := by
    refine (List.map_congr_left (g := id) fun c hc => ?_).trans (by simp)
    cases hc' : isSpace c with
    | false => exact toSp_word hc'
    | true =>
      rcases hs.2 c hc hc' with rfl | rfl
      · rfl
      · exact absurd hc hn
  have hw : 0 < w := by
    obtain ⟨a, c, rfl, -⟩ := hl
    simp at hlen; omega
  have hin : wrapInput u (proseOpts u w) r = chunkGo u [] .fresh [] r := by
    rw [input_simple hs, hmap]
    have ht := splitChunks_tidy u r (simple_plainWs hs)
    have hf := chunkGo_flatten u [] .fresh [] r (fun _ => rfl)
    simp only [List.reverse_nil, List.nil_append] at hf
    apply fix_id
    intro A a B e
    rw [e] at ht hf
    cases hse : sentenceEnd a with
    | false => rfl
    | true =>
      exfalso
      have hB : ∃ c q, B.flatten = c :: q ∧ isSpace c = false := by
        cases B with
        | nil =>
          obtain ⟨x, c, e', hc⟩ := hl
          rw [e'] at hf
          have := congrArg List.getLast? hf
          simp at this
          rw [← this] at hc
          exact absurd hc (by decide)
        | cons b B =>
          have hw := alt_mid (a := A ++ [a]) (x := py" ") (y := b) (b := B) (by simpa using ht.alt) space1
          cases b with
          | nil => exact absurd rfl hw.1
          | cons y b => exact ⟨y, b ++ B.flatten, rfl, hw.2 y (by simp)⟩
      obtain ⟨c, q, hB, hc⟩ := hB
      exact hsp (A.flatten ++ a) c q (by rw [← hf]; simp [hB]) hc (sentenceEnd_mono _ ((sentenceEnd_iff a).1 hse))
  have hew := input_ends (u := u) (w := w) hs hl
  have hf : (wrapInput u (proseOpts u w) r).flatten = r := by
    rw [hin, chunkGo_flatten u [] .fresh [] r (fun _ => rfl)]; rfl
  rw [wrap_nolimit u _ _ rfl hw]
  generalize wrapInput u (proseOpts u w) r = C at *
  have hp := prose_plain u hw
  obtain ⟨F, hF⟩ : ∃ F, wrapFuel C = F + 1 := by
    obtain ⟨a, c, rfl, -⟩ := hew
    exact ⟨_, by unfold wrapFuel; simp only [List.length_append, List.length_singleton]; rw [← Nat.add_assoc]⟩
  have hsum : sumLen u C ≤ w := by
    rw [sumLen_noesc u C (by rw [hf]; exact hs.1), hf]; exact hlen
  have hn : nextLine u (proseOpts u w) true w C = (C, sumLen u C, []) := by
    have hdl : dropLead (proseOpts u w) true C = C := by cases C <;> simp [dropLead]
    simp only [nextLine, hdl, fillLine_all u w C hsum, breakLongChunk, dropTrail_word u _ C _ hew]
  rw [hF, wrapLoop_plain hp _ _ _ (endsWord_ne hew)]
  show (if (nextLine u (proseOpts u w) true w C).1 = [] then _ else wrapLoop u _ F ([] ++ [(nextLine u (proseOpts u w) true w C).1.flatten]) (nextLine u (proseOpts u w) true w C).2.2) = _
  rw [hn]
  simp only [endsWord_ne hew, if_false, wrapLoop_nil, List.nil_append, hf]

/-- Whitespace after a text does not matter. -/
theorem wrap_trail {u : Uni} {w : Int} {a t : Str} (ha : Simple a) (hl : LastOk a) (ht : Simple t) (hb : Blank t) {la : List Str}
    (h : wrap u (proseOpts u w) a = .ok la) : wrap u (proseOpts u w) (a ++ t) = .ok la := by
  by_cases hne : t = []
  · rw [hne, List.append_nil]; exact h
  obtain ⟨hw, -, l1⟩ := wrap_ok h
  have hw' : 0 < w := hw
  have hp := prose_plain u hw'
  have hnil : Simple [] := ⟨by simp, by simp⟩
  obtain ⟨m, m1, m2⟩ := input_gap (u := u) (w := w) ha ht hnil hb hne hl (by intro c hc; cases hc)
  have hi : wrapInput u (proseOpts u w) [] = [] := by rw [input_simple hnil]; rfl
  rw [List.append_nil, hi] at m2
  have hS : Blank (List.replicate (m + 1) ' ') := by
    intro c hc; rw [(List.mem_replicate.1 hc).2]; decide
  obtain ⟨-, g⟩ := loop_end hp _ _ _ _ (input_ends ha hl) l1 _ hS
  obtain ⟨lines, hl'⟩ := wrap_prose u w hw' (a ++ t)
  obtain ⟨-, -, l3⟩ := wrap_ok hl'
  rw [m2] at l3
  rw [hl']
  have e1 := wrapLoop_mono u _ _ (wrapFuel (wrapInput u (proseOpts u w) a) + 1) _ _ _ l3
  have e2 := wrapLoop_mono u _ _ (wrapFuel (wrapInput u (proseOpts u w) a ++ [List.replicate (m + 1) ' '])) _ _ _ g
  rw [Nat.add_comm] at e1
  rw [e1] at e2
  exact e2

theorem wrap_empty (u : Uni) {w : Int} (hw : 0 < w) : wrap u (proseOpts u w) [] = .ok [] := by
  have hi : wrapInput u (proseOpts u w) [] = [] := by rw [input_simple ⟨by simp, by simp⟩]; rfl
  rw [wrap_nolimit u _ _ rfl hw, hi]
  rfl

/-! ## Rows with gaps between them -/

/-- A row: it fits, and does not start or end with whitespace. -/
structure RowOk (w : Int) (r : Str) : Prop where
  simple : Simple r
  nl : '\n' ∉ r
  head : HeadOk r
  last : LastOk r
  fits : (r.length : Int) ≤ w
  spaced : WellSpaced r

/-- Rows with something before each, and an end. -/
def weave (t : Str) : List (Str × Str) → Str
  | [] => t
  | (g, r) :: ps => g ++ (r ++ weave t ps)

/-- Rows with whitespace before each, so much that the first word of a row does not fit on the line of the row before it, and
that of the first not after `n` characters. -/
def Woven (w : Int) : Int → List (Str × Str) → Prop
  | _, [] => True
  | n, (g, r) :: ps => Blank g ∧ Simple g ∧ (g ≠ [] ∧ n + g.length + leadLen r > w) ∧ RowOk w r ∧ Woven w r.length ps

theorem woven_simple {w n : Int} {ps : List (Str × Str)} (h : Woven w n ps) {t : Str} (ht : Simple t) : Simple (weave t ps) := by
  induction ps generalizing n with
  | nil => exact ht
  | cons p ps ih =>
    obtain ⟨g, r⟩ := p
    exact simple_append.2 ⟨h.2.1, simple_append.2 ⟨h.2.2.2.1.simple, ih h.2.2.2.2⟩⟩

theorem headOk_append {r x : Str} (h : HeadOk r) (hl : LastOk r) : HeadOk (r ++ x) := by
  cases r with
  | nil => obtain ⟨a, c, e, -⟩ := hl; simp at e
  | cons y r => intro c hc; exact h c (by simpa using hc)

theorem leadLen_append (r x : Str) : leadLen r ≤ leadLen (r ++ x) := by
  unfold leadLen
  induction r with
  | nil => simp
  | cons c r ih =>
    simp only [List.cons_append, List.takeWhile_cons]
    split
    · simpa using ih
    · simp

theorem weave_head {w n : Int} {t : Str} (hb : Blank t) {ps : List (Str × Str)} (h : Woven w n ps) :
    ∀ c, (weave t ps).head? = some c → isSpace c = true := by
  intro c hc
  cases ps with
  | nil => exact hb c (List.mem_of_head? hc)
  | cons p ps =>
    obtain ⟨g, r⟩ := p
    cases g with
    | nil => exact absurd rfl h.2.2.1.1
    | cons x g =>
      simp only [weave, List.cons_append, List.head?_cons, Option.some.injEq] at hc
      subst hc
      exact h.1 x (by simp)

theorem row_first {u : Uni} {w n : Int} {r : Str} (hr : RowOk w r) {t : Str} (ht : Simple t) (hb : Blank t) {ps : List (Str × Str)}
    (h : Woven w n ps) : ∀ c R, wrapInput u (proseOpts u w) (r ++ weave t ps) = c :: R → (c.length : Int) ≤ w := by
  intro c R e
  have := input_first (simple_append.2 ⟨hr.simple, woven_simple h ht⟩) (headOk_append hr.head hr.last) (weave_head hb h) e
  have := hr.fits
  omega

theorem wrap_woven {u : Uni} {w : Int} {r : Str} (hr : RowOk w r) {t : Str} (ht : Simple t) (hb : Blank t) {ps : List (Str × Str)}
    (h : Woven w r.length ps) : wrap u (proseOpts u w) (r ++ weave t ps) = .ok (r :: ps.map Prod.snd) := by
  induction ps generalizing r with
  | nil => exact wrap_trail hr.simple hr.last ht hb (wrap_row hr.simple hr.nl hr.head hr.last hr.fits hr.spaced)
  | cons p ps ih =>
    obtain ⟨g, r'⟩ := p
    obtain ⟨h1, h2, h3, h4, h5⟩ := h
    obtain ⟨hne, h3⟩ := h3
    have := wrap_gap (u := u) (w := w) hr.simple h2 (simple_append.2 ⟨h4.simple, woven_simple h5 ht⟩) h1 hne hr.last
      (headOk_append (x := weave t ps) h4.head h4.last) (wrap_row hr.simple hr.nl hr.head hr.last hr.fits hr.spaced) (ih h4 h5)
      (row_first h4 ht hb h5) (by
        intro L l e
        have : l = r := by
          have := congrArg List.getLast? e
          simpa using this.symm
        have h6 := leadLen_append r' (weave t ps)
        rw [this]; omega)
    rw [List.append_assoc] at this
    exact this

/-- Text, then rows. -/
theorem wrap_own {u : Uni} {w : Int} {a t : Str} (ha : Simple a) (hl : LastOk a) (ht : Simple t) (hb : Blank t) {la : List Str}
    (h1 : wrap u (proseOpts u w) a = .ok la) {ps : List (Str × Str)} (h : Woven w 0 ps) :
    wrap u (proseOpts u w) (a ++ weave t ps) = .ok (la ++ ps.map Prod.snd) := by
  cases ps with
  | nil => rw [List.map_nil, List.append_nil]; exact wrap_trail ha hl ht hb h1
  | cons p ps =>
    obtain ⟨g, r⟩ := p
    obtain ⟨h2, h3, h4, h5, h6⟩ := h
    have hw : 0 < w := (wrap_ok h1).1
    obtain ⟨hne, h4⟩ := h4
    have := wrap_gap (u := u) (w := w) ha h3 (simple_append.2 ⟨h5.simple, woven_simple h6 ht⟩) h2 hne hl
      (headOk_append (x := weave t ps) h5.head h5.last) h1 (wrap_woven h5 ht hb h6)
      (row_first h5 ht hb h6) (by intro L l _; have := leadLen_append r (weave t ps); omega)
    rw [List.append_assoc] at this
    exact this

theorem woven_mono {w n n' : Int} {ps : List (Str × Str)} (hn : ps ≠ [] → n ≤ n') (h : Woven w n ps) : Woven w n' ps := by
  cases ps with
  | nil => trivial
  | cons p ps =>
    have := hn (by simp)
    exact ⟨h.1, h.2.1, ⟨h.2.2.1.1, by have := h.2.2.1.2; omega⟩, h.2.2.2⟩

/-- Whitespace before the rows. -/
theorem woven_gap {w n : Int} {ps : List (Str × Str)} {t g : Str} (hg : Blank g) (hs : Simple g) (h : Woven w n ps) :
    ∃ ps' t', g ++ weave t ps = weave t' ps' ∧ Woven w (n - g.length) ps' ∧ ps'.map Prod.snd = ps.map Prod.snd ∧
      (Blank t → Blank t') ∧ (Simple t → Simple t') ∧
      ∀ p qs, ps' = p :: qs → ∃ p0, ps = p0 :: qs ∧ p = (g ++ p0.1, p0.2) := by
  cases ps with
  | nil => exact ⟨[], g ++ t, rfl, trivial, rfl, fun h => blank_append hg h, fun h => simple_append.2 ⟨hs, h⟩, by simp⟩
  | cons p ps =>
    obtain ⟨g0, r⟩ := p
    obtain ⟨h1, h2, h3, h4⟩ := h
    refine ⟨(g ++ g0, r) :: ps, t, by simp [weave], ⟨blank_append hg h1, simple_append.2 ⟨hs, h2⟩, ⟨by simp [h3.1], ?_⟩, h4⟩, rfl, id, id, ?_⟩
    · rw [List.length_append]; have := h3.2; omega
    · intro p qs e
      cases e
      exact ⟨(g0, r), rfl, rfl⟩

/-- The length of the last row. -/
def lastLen : Int → List (Str × Str) → Int
  | n, [] => n
  | _, (_, r) :: ps => lastLen r.length ps

theorem woven_append {w n : Int} {ps qs : List (Str × Str)} {t t' : Str} (ht : Blank t) (hs : Simple t) (h : Woven w n ps)
    (h' : Woven w (lastLen n ps + t.length) qs) :
    ∃ rs t'', weave t ps ++ weave t' qs = weave t'' rs ∧ Woven w n rs ∧ rs.map Prod.snd = ps.map Prod.snd ++ qs.map Prod.snd ∧
      (Blank t' → Blank t'') ∧ (Simple t' → Simple t'') ∧
      ∀ p ps', ps = p :: ps' → ∃ rs', rs = p :: rs' := by
  induction ps generalizing n with
  | nil =>
    obtain ⟨rs, t'', e1, e2, e3, e4, e5, -⟩ := woven_gap (t := t') ht hs h'
    refine ⟨rs, t'', e1, ?_, by simpa using e3, e4, e5, by simp⟩
    have : lastLen n [] + (t.length : Int) - t.length = n := by simp only [lastLen]; omega
    rwa [this] at e2
  | cons p ps ih =>
    obtain ⟨g, r⟩ := p
    obtain ⟨h1, h2, h3, h4, h5⟩ := h
    obtain ⟨rs, t'', e1, e2, e3, e4, e5, -⟩ := ih h5 h'
    refine ⟨(g, r) :: rs, t'', ?_, ⟨h1, h2, h3, h4, e2⟩, by simp [e3], e4, e5, ?_⟩
    · simp only [weave, List.append_assoc, ← e1]
    · rintro p ps' e; cases e; exact ⟨rs, rfl⟩

end Verif
