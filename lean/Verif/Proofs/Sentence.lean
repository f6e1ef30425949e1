import Verif.Proofs.WrapLoop
import Verif.Spec.Sentence

/-!
# Lemmas for `Props/Sentence`
-/

namespace Verif

open Spec

theorem sentenceEnd_iff (p : Str) : sentenceEnd p = true ↔ SentenceEnd p := by
  have low : ∀ l : Char, (('a' ≤ l && l ≤ 'z') : Bool) = true ↔ 'a' ≤ l ∧ l ≤ 'z' := by intro l; simp
  constructor
  · intro h
    unfold sentenceEnd at h
    cases hr : p.reverse with
    | nil => rw [hr] at h; cases h
    | cons e t =>
      have hp : p = t.reverse ++ [e] := by rw [← List.reverse_reverse p, hr]; simp
      cases t with
      | nil => rw [hr] at h; cases h
      | cons l r =>
        rw [hr] at h
        simp only [Bool.or_eq_true, Bool.and_eq_true, beq_iff_eq, decide_eq_true_eq] at h
        rcases h with ⟨h1, h2, h3⟩ | ⟨h1, h2⟩
        · exact ⟨r.reverse, l, e, h2, h3, by simpa [or_assoc] using h1, .inl (by rw [hp]; simp)⟩
        · cases r with
          | nil => cases h2
          | cons l' r =>
            simp only [Bool.or_eq_true, Bool.and_eq_true, beq_iff_eq, decide_eq_true_eq] at h2
            exact ⟨r.reverse, l', l, h2.2.1, h2.2.2, by simpa [or_assoc] using h2.1, .inr ⟨e, by simpa using h1, by rw [hp]; simp⟩⟩
  · rintro ⟨r, l, e, h1, h2, h3, rfl | ⟨q, hq, rfl⟩⟩
    · simp only [List.mem_cons, List.not_mem_nil, or_false] at h3
      unfold sentenceEnd
      rw [show (r ++ [l, e]).reverse = e :: l :: r.reverse by simp]
      simp only [Bool.or_eq_true, Bool.and_eq_true, beq_iff_eq, decide_eq_true_eq]
      exact .inl ⟨by simpa [or_assoc] using h3, h1, h2⟩
    · simp only [List.mem_cons, List.not_mem_nil, or_false] at h3 hq
      unfold sentenceEnd
      rw [show (r ++ [l, e, q]).reverse = q :: e :: l :: r.reverse by simp]
      simp only [Bool.or_eq_true, Bool.and_eq_true, beq_iff_eq, decide_eq_true_eq]
      exact .inr ⟨hq, by simpa [or_assoc] using h3, h1, h2⟩

theorem sentenceEnd_mono (x : Str) {a : Str} (h : SentenceEnd a) : SentenceEnd (x ++ a) := by
  obtain ⟨r, l, e, h1, h2, h3, rfl | ⟨q, hq, rfl⟩⟩ := h
  · exact ⟨x ++ r, l, e, h1, h2, h3, .inl (by simp)⟩
  · exact ⟨x ++ r, l, e, h1, h2, h3, .inr ⟨q, hq, by simp⟩⟩

/-- A character that is no part of the end of a sentence. -/
def Neutral (d : Char) : Prop := ¬ ('a' ≤ d ∧ d ≤ 'z') ∧ d ∉ ['.', '!', '?', '"', '\'']

theorem sentenceEnd_cut {x : Str} {d : Char} {a : Str} (hd : Neutral d) : SentenceEnd (x ++ d :: a) ↔ SentenceEnd a := by
  constructor
  · rintro ⟨r, l, e, h1, h2, h3, h | ⟨q, hq, h⟩⟩
    · match hr : a.reverse with
      | [] =>
        have : a = [] := by simpa using hr
        subst this
        have := congrArg List.getLast? h
        simp at this
        subst this
        simp only [List.mem_cons, List.not_mem_nil, or_false] at h3
        exact absurd (by simp only [List.mem_cons, List.not_mem_nil, or_false]; rcases h3 with h | h | h <;> simp [h]) hd.2
      | [p] =>
        have : a = [p] := by rw [← List.reverse_reverse a, hr]; rfl
        subst this
        have := congrArg List.reverse h
        simp at this
        obtain ⟨rfl, rfl, -⟩ := this
        exact absurd ⟨h1, h2⟩ hd.1
      | p :: l' :: t =>
        have : a = t.reverse ++ [l', p] := by rw [← List.reverse_reverse a, hr]; simp
        subst this
        have := congrArg List.reverse h
        simp at this
        obtain ⟨rfl, rfl, -⟩ := this
        exact ⟨t.reverse, _, _, h1, h2, h3, .inl rfl⟩
    · match hr : a.reverse with
      | [] =>
        have : a = [] := by simpa using hr
        subst this
        have := congrArg List.getLast? h
        simp at this
        subst this
        simp only [List.mem_cons, List.not_mem_nil, or_false] at hq
        exact absurd (by simp only [List.mem_cons, List.not_mem_nil, or_false]; rcases hq with h | h <;> simp [h]) hd.2
      | [p] =>
        have : a = [p] := by rw [← List.reverse_reverse a, hr]; rfl
        subst this
        have := congrArg List.reverse h
        simp at this
        obtain ⟨rfl, rfl, -⟩ := this
        simp only [List.mem_cons, List.not_mem_nil, or_false] at h3
        exact absurd (by simp only [List.mem_cons, List.not_mem_nil, or_false]; rcases h3 with h | h | h <;> simp [h]) hd.2
      | [p, l'] =>
        have : a = [l', p] := by rw [← List.reverse_reverse a, hr]; rfl
        subst this
        have := congrArg List.reverse h
        simp at this
        obtain ⟨rfl, rfl, rfl, -⟩ := this
        exact absurd ⟨h1, h2⟩ hd.1
      | p :: l' :: l'' :: t =>
        have : a = t.reverse ++ [l'', l', p] := by rw [← List.reverse_reverse a, hr]; simp
        subst this
        have := congrArg List.reverse h
        simp at this
        obtain ⟨rfl, rfl, rfl, -⟩ := this
        exact ⟨t.reverse, _, _, h1, h2, h3, .inr ⟨_, hq, rfl⟩⟩
  · intro h
    have := sentenceEnd_mono (x ++ [d]) h
    simpa using this

theorem neutral_dash : Neutral '-' := by unfold Neutral; decide

theorem neutral_space {c : Char} (h : isSpace c = true) : Neutral c := by
  constructor
  · rintro ⟨h1, h2⟩
    have e1 := UInt32.le_iff_toNat_le.1 h1
    have e2 := UInt32.le_iff_toNat_le.1 h2
    simp only [isSpace, Char.toNat, Bool.or_eq_true, Bool.and_eq_true, decide_eq_true_eq, beq_iff_eq] at h
    simp only [Char.reduceVal, UInt32.reduceToNat] at e1 e2
    omega
  · intro hm
    simp only [List.mem_cons, List.not_mem_nil, or_false] at hm
    rcases hm with rfl | rfl | rfl | rfl | rfl <;> revert h <;> decide

/-! ## Chunks -/

/-- Two words in a row have a hyphen between them. -/
def Dashed : List Str → Prop
  | x :: y :: r => (WordChunk x → WordChunk y → x.getLast? = some '-' ∨ y.head? = some '-') ∧ Dashed (y :: r)
  | _ => True

theorem dashed_cons {x : Str} {cs : List Str} (h : Dashed cs)
    (hx : ∀ y, cs.head? = some y → WordChunk x → WordChunk y → x.getLast? = some '-' ∨ y.head? = some '-') : Dashed (x :: cs) := by
  cases cs with
  | nil => trivial
  | cons y cs => exact ⟨hx y rfl, h⟩

theorem dashed_mid {A : List Str} {x y : Str} {B : List Str} (h : Dashed (A ++ x :: y :: B)) :
    WordChunk x → WordChunk y → x.getLast? = some '-' ∨ y.head? = some '-' := by
  induction A with
  | nil => exact h.1
  | cons a A ih =>
    apply ih
    cases A with
    | nil => exact h.2
    | cons b A => exact h.2

theorem chunkGo_head (u : Uni) (b : Str) (m : ChunkMode) (cur s : Str) (hm : m ≠ .fresh) (hc : cur ≠ []) :
    ∀ x, (chunkGo u b m cur s).head? = some x → x.head? = cur.getLast? := by
  induction s generalizing b m cur with
  | nil => intro x hx; cases m <;> simp_all [chunkGo]; (all_goals (subst hx; simp))
  | cons c s ih =>
    intro x hx
    have hlast : (c :: cur).getLast? = cur.getLast? := by cases cur with | nil => exact absurd rfl hc | cons y cur => rw [List.getLast?_cons_cons]
    cases m with
    | fresh => exact absurd rfl hm
    | ws =>
      simp only [chunkGo] at hx
      split at hx
      · rw [← hlast]; exact ih _ _ _ (by simp) (by simp) x hx
      · simp at hx; subst hx; simp
    | dash =>
      simp only [chunkGo] at hx
      split at hx
      · rw [← hlast]; exact ih _ _ _ (by simp) (by simp) x hx
      · simp at hx; subst hx; simp
    | word =>
      simp only [chunkGo] at hx
      split at hx
      · rw [← hlast]
        simp only [List.head?_cons, Option.some.injEq] at hx
        rw [← hx, List.head?_reverse]
      · split at hx
        · simp at hx; subst hx; simp
        · rw [← hlast]; exact ih _ _ _ (by simp) (by simp) x hx

theorem emDash_dash {u : Uni} {b : Str} {c : Char} {r : Str} (h : emDashAt u b (c :: r) = true) : c = '-' := by
  by_cases hc : c = '-'
  · exact hc
  · rw [emDash_none u b (c :: r) (by simpa using hc)] at h; cases h

theorem chunkGo_dashed (u : Uni) (b : Str) (m : ChunkMode) (cur s : Str) (hc : m = .dash → cur.head? = some '-')
    (hws : m = .ws → ∃ x ∈ cur, isSpace x = true) : Dashed (chunkGo u b m cur s) := by
  induction s generalizing b m cur with
  | nil => cases m <;> simp [chunkGo, Dashed]
  | cons c s ih =>
    have hstart : ∀ b', Dashed (chunkGo u (c :: b') (chunkMode u b' (c :: s)) [c] s) := by
      intro b'
      refine ih _ _ _ ?_ ?_
      · intro hm
        simp only [chunkMode] at hm
        split at hm
        · cases hm
        · split at hm
          · rename_i h; rw [emDash_dash h]; rfl
          · cases hm
      · intro hm
        simp only [chunkMode] at hm
        split at hm
        · rename_i h; exact ⟨c, by simp, tw_isSpace c h⟩
        · split at hm <;> cases hm
    have hhead : ∀ b' y, (chunkGo u (c :: b') (chunkMode u b' (c :: s)) [c] s).head? = some y → y.head? = some c := by
      intro b' y hy
      exact chunkGo_head u _ _ _ _ (chunkMode_ne u b' c s) (by simp) y hy
    cases m with
    | fresh => simp only [chunkGo]; exact hstart b
    | ws =>
      obtain ⟨x, hx, hxs⟩ := hws rfl
      simp only [chunkGo]
      split
      · exact ih _ _ _ (by simp) (fun _ => ⟨x, by simp [hx], hxs⟩)
      · refine dashed_cons (hstart b) ?_
        intro y _ hw _
        have := hw.2 x (by simp [hx])
        rw [hxs] at this; cases this
    | dash =>
      simp only [chunkGo]
      split
      · rename_i h
        exact ih _ _ _ (fun _ => by rw [h]; rfl) (by simp)
      · refine dashed_cons (hstart b) ?_
        intro y _ _ _
        left
        rw [List.getLast?_reverse]; exact hc rfl
    | word =>
      simp only [chunkGo]
      split
      · rename_i h
        simp only [Bool.and_eq_true, decide_eq_true_eq] at h
        refine dashed_cons (ih _ _ _ (by simp) (by simp)) ?_
        intro y _ _ _
        left
        rw [List.getLast?_reverse, h.1]; rfl
      · split
        · rename_i h
          refine dashed_cons (hstart b) ?_
          intro y hy _ hwy
          have hyc := hhead b y hy
          rw [Bool.or_eq_true] at h
          rcases h with h | h
          · exfalso
            have := hwy.2 c (List.mem_of_mem_head? hyc)
            rw [tw_isSpace c h] at this; cases this
          · right; rw [hyc, emDash_dash h]
        · exact ih _ _ _ (by simp) (by simp)

theorem simpleChunks_dashed (s : Str) (hp : PlainWs s) : Dashed (simpleChunks s) := by
  induction s with
  | nil => trivial
  | cons c r ih =>
    have ih := ih (fun x hx => hp x (List.mem_cons_of_mem _ hx))
    simp only [simpleChunks]
    split
    · trivial
    · rename_i ls h; rw [h] at ih; refine dashed_cons ?_ ?_
      · cases ls with
        | nil => trivial
        | cons y ls => exact ih.2
      · exfalso
        have := (simpleChunks_tidy r (fun x hx => hp x (List.mem_cons_of_mem _ hx))).1.pure [] (by rw [h]; simp)
        rcases this with h | h <;> exact h.1 rfl
    · rename_i d l ls h
      rw [h] at ih
      split
      · cases ls with
        | nil => trivial
        | cons y ls =>
          refine ⟨?_, ih.2⟩
          intro hx hy
          have := ih.1 ⟨by simp, fun z hz => hx.2 z (by simp only [List.mem_cons] at hz ⊢; exact .inr hz)⟩ hy
          rwa [List.getLast?_cons_cons]
      · rename_i he
        refine ⟨?_, ih⟩
        intro hx hy
        exfalso
        apply he
        have h1 := hx.2 c (by simp)
        have h2 := hy.2 d (by simp)
        have tw : ∀ z, isSpace z = false → isTwSpace z = false := by
          intro z hz
          cases ht : isTwSpace z with
          | false => rfl
          | true => rw [tw_isSpace z ht] at hz; cases hz
        rw [tw c h1, tw d h2]

theorem fix_head (C : List Str) : (fixSentenceEndings C).head? = C.head? := by
  match C with
  | [] => rfl
  | [a] => rfl
  | a :: b :: r => rw [fixSentenceEndings]; split <;> rfl

theorem fix_dashed (C : List Str) (h : Dashed C) : Dashed (fixSentenceEndings C) := by
  have tail : ∀ {a : Str} {r : List Str}, Dashed (a :: r) → Dashed r := by
    intro a r h
    cases r with
    | nil => trivial
    | cons b r => exact h.2
  induction C using fixSentenceEndings.induct with
  | case1 a b r hc ih =>
    rw [fixSentenceEndings, if_pos hc]
    refine dashed_cons (dashed_cons (ih (tail (tail h))) ?_) ?_
    · intro y _ hw; exact (not_both hw space2).elim
    · intro y hy _ hw
      cases hy
      exact (not_both hw space2).elim
  | case2 a b r hc ih =>
    rw [fixSentenceEndings, if_neg hc]
    refine dashed_cons (ih (tail h)) ?_
    intro y hy
    rw [fix_head] at hy
    cases hy
    exact h.1
  | case3 l hl =>
    match l with
    | [] => exact h
    | [a] => exact h
    | a :: b :: r => exact absurd rfl (hl a b r)

/-- No single space after the end of a sentence. -/
theorem fix_spaced (C : List Str) : ∀ A a B, fixSentenceEndings C = A ++ a :: py" " :: B → sentenceEnd a = false := by
  induction C using fixSentenceEndings.induct with
  | case1 a b r hc ih =>
    intro A a' B e
    rw [fixSentenceEndings, if_pos hc] at e
    match A with
    | [] => simp at e
    | [x] => simp at e; rw [← e.2.1]; rfl
    | x :: y :: A => simp at e; exact ih A a' B e.2.2
  | case2 a b r hc ih =>
    intro A a' B e
    rw [fixSentenceEndings, if_neg hc] at e
    cases A with
    | nil =>
      simp only [List.nil_append, List.cons.injEq] at e
      have hh := fix_head (b :: r)
      rw [e.2] at hh
      simp at hh
      rw [← e.1]
      cases hs : sentenceEnd a with
      | false => rfl
      | true => rw [hs] at hc; simp [← hh] at hc
    | cons x A => simp at e; exact ih A a' B e.2
  | case3 l hl =>
    intro A a' B e
    match l with
    | [] => rw [fixSentenceEndings] at e <;> simp_all
    | [a] =>
      have e' : [a] = A ++ a' :: py" " :: B := e
      match A with
      | [] => simp at e'
      | x :: A => simp at e'
    | a :: b :: r => exact absurd rfl (hl a b r)

/-- Find the chunk a character is in. -/
theorem flatten_at {cs : List Str} {p : Str} {d : Char} {q : Str} (h : cs.flatten = p ++ d :: q) :
    ∃ A y1 y2 B, cs = A ++ (y1 ++ d :: y2) :: B ∧ p = A.flatten ++ y1 ∧ q = y2 ++ B.flatten := by
  induction cs generalizing p with
  | nil => simp at h
  | cons c cs ih =>
    rw [List.flatten_cons] at h
    rcases List.append_eq_append_iff.1 h with ⟨a, h1, h2⟩ | ⟨a, h1, h2⟩
    · obtain ⟨A, y1, y2, B, e1, e2, e3⟩ := ih h2
      exact ⟨c :: A, y1, y2, B, by rw [e1]; rfl, by rw [h1, e2]; simp, e3⟩
    · cases a with
      | nil =>
        simp only [List.append_nil] at h1
        simp only [List.nil_append] at h2
        obtain ⟨A, y1, y2, B, e1, e2, e3⟩ := ih (p := []) h2.symm
        exact ⟨c :: A, y1, y2, B, by rw [e1]; rfl, by rw [← h1, List.flatten_cons, List.append_assoc, ← e2, List.append_nil], e3⟩
      | cons d' a =>
        simp at h2
        obtain ⟨rfl, h2⟩ := h2
        exact ⟨[], p, a, cs, by rw [h1]; rfl, by simp, h2⟩

theorem chunks_spaced {cs : List Str} (ht : Tidy cs) (hd : Dashed cs)
    (hf : ∀ A a B, cs = A ++ a :: py" " :: B → sentenceEnd a = false) : WellSpaced cs.flatten := by
  intro p c q e hc hse
  obtain ⟨A, y1, y2, B, e1, e2, e3⟩ := flatten_at e
  have hy : SpaceChunk (y1 ++ ' ' :: y2) := by
    rcases ht.pure (y1 ++ ' ' :: y2) (by rw [e1]; simp) with h | h
    · have := h.2 ' ' (by simp)
      exact absurd this (by decide)
    · exact h
  have hy2 : y2 = [] := by
    cases y2 with
    | nil => rfl
    | cons x y2 =>
      simp at e3
      have := hy.2 x (by simp)
      rw [← e3.1, hc] at this; cases this
  have hy1 : y1 = [] := by
    cases hl : y1.getLast? with
    | none => simpa using hl
    | some x =>
      exfalso
      rw [List.getLast?_eq_some_iff] at hl
      obtain ⟨z, rfl⟩ := hl
      have hx := hy.2 x (by simp)
      rw [e2, ← List.append_assoc, sentenceEnd_cut (neutral_space hx)] at hse
      obtain ⟨r, l, e, -, -, -, h | ⟨q, -, h⟩⟩ := hse <;> simp at h
  subst hy1 hy2
  simp only [List.nil_append, List.append_nil] at e1 e2
  cases hA : A.getLast? with
  | none =>
    have : A = [] := by simpa using hA
    rw [this] at e2
    rw [e2] at hse
    obtain ⟨r, l, e, -, -, -, h | ⟨q, -, h⟩⟩ := hse <;> simp at h
  | some a =>
    rw [List.getLast?_eq_some_iff] at hA
    obtain ⟨A', rfl⟩ := hA
    have hea := hf A' a B (by rw [e1]; simp)
    have hna : ¬ SentenceEnd a := by rw [← sentenceEnd_iff, hea]; simp
    have haw : WordChunk a := by
      rcases ht.pure a (by rw [e1]; simp) with h | h
      · exact h
      · exfalso
        have hal := ht.alt
        rw [e1, List.append_assoc] at hal
        exact not_both (alt_mid hal h) space1
    simp only [List.flatten_append, List.flatten_cons, List.flatten_nil, List.append_nil] at e2
    rw [e2] at hse
    cases hb : A'.getLast? with
    | none =>
      have : A' = [] := by simpa using hb
      rw [this] at hse
      exact hna hse
    | some b =>
      rw [List.getLast?_eq_some_iff] at hb
      obtain ⟨A'', rfl⟩ := hb
      simp only [List.flatten_append, List.flatten_cons, List.flatten_nil, List.append_nil, List.append_assoc] at hse
      have key : (∃ z d, b = z ++ [d] ∧ Neutral d) ∨ (∃ a', a = '-' :: a') := by
        rcases ht.pure b (by rw [e1]; simp) with h | h
        · rcases dashed_mid (A := A'') (x := b) (y := a) (B := py" " :: B) (by rw [e1] at hd; simpa using hd) h haw with h' | h'
          · left
            rw [List.getLast?_eq_some_iff] at h'
            obtain ⟨z, rfl⟩ := h'
            exact ⟨z, '-', rfl, neutral_dash⟩
          · right
            cases a with
            | nil => cases h'
            | cons x a => simp at h'; exact ⟨a, by rw [h']⟩
        · left
          cases hl : b.getLast? with
          | none => exact absurd (by simpa using hl) h.1
          | some x =>
            rw [List.getLast?_eq_some_iff] at hl
            obtain ⟨z, rfl⟩ := hl
            exact ⟨z, x, rfl, neutral_space (h.2 x (by simp))⟩
      rcases key with ⟨z, d, rfl, hn⟩ | ⟨a', rfl⟩
      · rw [List.append_assoc, ← List.append_assoc, List.singleton_append, sentenceEnd_cut hn] at hse
        exact hna hse
      · rw [← List.append_assoc, sentenceEnd_cut neutral_dash] at hse
        exact hna (sentenceEnd_mono ['-'] hse)

theorem spaced_infix {x y z : Str} (h : WellSpaced (x ++ y ++ z)) : WellSpaced y := by
  intro p c q e hc hse
  refine h (x ++ p) c (q ++ z) (by rw [e]; simp) hc (sentenceEnd_mono x hse)

theorem spaced_indent {i y : Str} (hi : Blank i) (h : WellSpaced y) : WellSpaced (i ++ y) := by
  induction i with
  | nil => exact h
  | cons d i ih =>
    have ih := ih (fun c hc => hi c (List.mem_cons_of_mem _ hc))
    have hn : Neutral d := neutral_space (hi d (by simp))
    intro p c q e hc hse
    cases p with
    | nil => obtain ⟨r, l, e, -, -, -, h | ⟨q, -, h⟩⟩ := hse <;> simp at h
    | cons x p =>
      simp at e
      obtain ⟨rfl, e⟩ := e
      have := (sentenceEnd_cut (x := []) (a := p) hn).1 hse
      exact ih p c q e hc this

theorem round_infix {u : Uni} {o : WrapOpts} {le : Bool} {w : Int} {lead taken left taken' chunks cur rest : List Str}
    (r : Round u o le w lead taken left taken' chunks cur rest) : ∃ x y, chunks.flatten = x ++ cur.flatten ++ y ++ rest.flatten := by
  have h1 := broken_flatten r.broken
  have h2 : ∃ y, taken'.flatten = cur.flatten ++ y := by
    cases r.trimmed with
    | keep _ => exact ⟨[], by simp⟩
    | drop t l _ e _ => exact ⟨l, by rw [e]; simp⟩
  obtain ⟨y, h2⟩ := h2
  refine ⟨lead.flatten, y, ?_⟩
  rw [r.split, List.flatten_append, List.flatten_append, ← h1, h2]
  simp

theorem wrapLoop_spaced (u : Uni) (o : WrapOpts) (hm : o.maxLines = none) (hi : Blank o.initialIndent) (hs : Blank o.subsequentIndent)
    (f : Nat) (lines chunks out : List Str) (hc : WellSpaced chunks.flatten) (hl : ∀ l ∈ lines, WellSpaced l)
    (h : wrapLoop u o f lines chunks = .ok out) : ∀ l ∈ out, WellSpaced l := by
  induction f generalizing lines chunks with
  | zero =>
    cases chunks with
    | nil => rw [wrapLoop_nil] at h; cases h; exact hl
    | cons c cs => simp [wrapLoop] at h
  | succ f ih =>
    by_cases hne : chunks = []
    · subst hne; rw [wrapLoop_nil] at h; cases h; exact hl
    · obtain ⟨cur, rest, _, _, _, _, hr, h2⟩ := wrapLoop_step u o f lines chunks hne
      obtain ⟨x, y, hx⟩ := round_infix hr
      have hcur : WellSpaced cur.flatten := by
        rw [hx, List.append_assoc] at hc
        exact spaced_infix hc
      have hrest : WellSpaced rest.flatten := by
        rw [hx, ← List.append_nil (x ++ _ ++ y ++ _)] at hc
        exact spaced_infix hc
      rw [h2] at h
      split at h
      · exact ih _ _ hrest hl h
      · have : lineAllowed o lines.length (sumLen u cur) (o.width - len (indentAfter o lines)) rest = true := by
          unfold lineAllowed; rw [hm]
        rw [if_pos this] at h
        refine ih _ _ hrest ?_ h
        intro l hl'
        rcases List.mem_append.1 hl' with h' | h'
        · exact hl l h'
        · rw [List.mem_singleton.1 h']
          refine spaced_indent ?_ hcur
          unfold indentAfter
          split
          · exact hi
          · exact hs

end Verif
