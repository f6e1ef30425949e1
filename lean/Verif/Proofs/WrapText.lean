import Verif.Proofs.Wrap
import Verif.Proofs.Str

namespace Verif

open Spec

/-! ## `stripAnsi` removes the colour sequences -/

theorem ansiSeq_head {u : Uni} {q : Str} (h : AnsiSeq u q) : ∃ r, q = '\x1b' :: '[' :: r := by
  obtain ⟨ds, -, rfl⟩ := h; exact ⟨ds ++ py"m", by simp⟩

theorem strips_plain {u : Uni} {c : Char} {s t : Str} (hc : c ≠ '\x1b') (h : Strips u s t) : Strips u (c :: s) (c :: t) := by
  refine .other ?_ h
  intro q r hq e
  obtain ⟨r', rfl⟩ := ansiSeq_head hq
  simp at e
  exact hc e.1

theorem strips_plains {u : Uni} {p s t : Str} (hp : ∀ c ∈ p, c ≠ '\x1b') (h : Strips u s t) : Strips u (p ++ s) (p ++ t) := by
  induction p with
  | nil => exact h
  | cons c p ih =>
    exact strips_plain (hp c (by simp)) (ih (fun x hx => hp x (List.mem_cons_of_mem _ hx)))

/-- A sequence cannot begin at an escape whose parameters are followed by something else. -/
theorem noSeq {u : Uni} {ds : Str} (hds : ∀ c ∈ ds, c = ';' ∨ u.isDigit c = true) {s : Str}
    (hs : ∀ c, s.head? = some c → ¬ (c = ';' ∨ u.isDigit c = true) ∧ c ≠ 'm') :
    ∀ q r, AnsiSeq u q → '\x1b' :: '[' :: (ds ++ s) ≠ q ++ r := by
  rintro q r ⟨ds', hds', rfl⟩ e
  simp only [List.cons_append, List.append_assoc, List.cons.injEq, true_and, List.nil_append] at e
  rw [List.append_eq_append_iff] at e
  rcases e with ⟨as, e1, e2⟩ | ⟨bs, e1, e2⟩
  · -- ds' = ds ++ as, s = as ++ 'm' :: r
    cases as with
    | nil => simp at e2; exact (hs 'm' (by rw [e2]; rfl)).2 rfl
    | cons x as =>
      have := (hs x (by rw [e2]; rfl)).1
      exact this (hds' x (by rw [e1]; simp))
  · -- ds = ds' ++ bs, 'm' :: r = bs ++ s
    cases bs with
    | nil => simp at e2; exact (hs 'm' (by rw [← e2]; rfl)).2 rfl
    | cons x bs =>
      simp only [List.cons_append, List.cons.injEq] at e2
      rcases hds x (by rw [e1]; simp) with h | h
      · rw [← e2.1] at h; revert h; decide
      · rw [← e2.1, u.digit_m] at h; cases h

theorem digits_ne_esc {u : Uni} {ds : Str} (hds : ∀ c ∈ ds, c = ';' ∨ u.isDigit c = true) : ∀ c ∈ ds, c ≠ '\x1b' := by
  intro c hc e
  rcases hds c hc with h | h
  · rw [e] at h; revert h; decide
  · rw [e, u.digit_esc] at h; cases h

theorem strips_fail {u : Uni} {ds s t : Str} (hds : ∀ c ∈ ds, c = ';' ∨ u.isDigit c = true)
    (hs : ∀ c, s.head? = some c → ¬ (c = ';' ∨ u.isDigit c = true) ∧ c ≠ 'm') (h : Strips u s t) :
    Strips u ('\x1b' :: '[' :: (ds ++ s)) ('\x1b' :: '[' :: (ds ++ t)) :=
  .other (noSeq hds hs) (strips_plain (by decide) (strips_plains (digits_ne_esc hds) h))

theorem strips_esc {u : Uni} {s t : Str} (hs : s.head? ≠ some '[') (h : Strips u s t) :
    Strips u ('\x1b' :: s) ('\x1b' :: t) := by
  refine .other ?_ h
  intro q r hq e
  obtain ⟨r', rfl⟩ := ansiSeq_head hq
  simp at e
  rw [e] at hs
  exact hs rfl

theorem stripFrom_strips (u : Uni) (s : Str) :
    Strips u s (stripAnsiFrom u none s) ∧
    (Strips u ('\x1b' :: s) (stripAnsiFrom u (some (false, [esc])) s)) ∧
    (∀ ds, (∀ c ∈ ds, c = ';' ∨ u.isDigit c = true) →
      Strips u ('\x1b' :: '[' :: (ds ++ s)) (stripAnsiFrom u (some (true, '\x1b' :: '[' :: ds)) s)) := by
  induction s with
  | nil =>
    refine ⟨.nil, ?_, ?_⟩
    · exact strips_esc (by simp) .nil
    · intro ds hds
      have := strips_fail (u := u) (s := []) (t := []) hds (by simp) .nil
      simpa [stripAnsiFrom] using this
  | cons c r ih =>
    obtain ⟨h0, h1, h2⟩ := ih
    have hnone : Strips u (c :: r) (stripAnsiFrom u none (c :: r)) := by
      simp only [stripAnsiFrom]
      split
      · rename_i he; subst he; exact h1
      · rename_i he; exact strips_plain he h0
    refine ⟨hnone, ?_, ?_⟩
    · simp only [stripAnsiFrom]
      split
      · rename_i he
        subst he
        have := h2 [] (by simp)
        exact this
      · rename_i hb
        split
        · rename_i he
          subst he
          exact strips_esc (by simp [esc]) h1
        · rename_i he
          exact strips_esc (by simp [hb]) (strips_plain he h0)
    · intro ds hds
      simp only [stripAnsiFrom]
      split
      · rename_i hd
        have hd' : c = ';' ∨ u.isDigit c = true := by simpa using hd
        have := h2 (ds ++ [c]) (by
          intro x hx
          rcases List.mem_append.1 hx with e | e
          · exact hds x e
          · simp at e; subst e; exact hd')
        simpa using this
      · rename_i hd
        have hd' : ¬ (c = ';' ∨ u.isDigit c = true) := by simpa using hd
        split
        · rename_i hm
          subst hm
          have := Strips.seq (u := u) (q := '\x1b' :: '[' :: ds ++ py"m") ⟨ds, hds, rfl⟩ h0
          simpa using this
        · rename_i hm
          split
          · rename_i he
            subst he
            have := strips_fail hds (by intro x hx; simp at hx; subst hx; exact ⟨hd', hm⟩) h1
            exact this
          · rename_i he
            have := strips_fail hds (by intro x hx; simp at hx; subst hx; exact ⟨hd', hm⟩) (strips_plain he h0)
            exact this

theorem stripAnsi_strips (u : Uni) (s : Str) : Strips u s (stripAnsi u s) := (stripFrom_strips u s).1

theorem ansiSeq_prefix {u : Uni} {q q' s s' : Str} (h : AnsiSeq u q) (h' : AnsiSeq u q') (e : q ++ s = q' ++ s') : q = q' ∧ s = s' := by
  obtain ⟨ds, hds, rfl⟩ := h
  obtain ⟨ds', hds', rfl⟩ := h'
  have hm : ∀ ds : Str, (∀ c ∈ ds, c = ';' ∨ u.isDigit c = true) → 'm' ∉ ds := by
    intro ds hds hm
    rcases hds _ hm with h | h
    · revert h; decide
    · rw [u.digit_m] at h; cases h
  simp only [List.cons_append, List.append_assoc, List.cons.injEq, true_and, List.nil_append] at e
  rw [List.append_eq_append_iff] at e
  rcases e with ⟨as, e1, e2⟩ | ⟨bs, e1, e2⟩
  · cases as with
    | nil => simp at e1 e2; simp [e1, e2]
    | cons x as =>
      simp only [List.cons_append, List.cons.injEq] at e2
      exact absurd (by rw [e1, e2.1]; simp) (hm ds' hds')
  · cases bs with
    | nil => simp at e1 e2; simp [e1, e2]
    | cons x bs =>
      simp only [List.cons_append, List.cons.injEq] at e2
      exact absurd (by rw [e1, e2.1]; simp) (hm ds hds)

/-- There is only one way to remove the sequences. -/
theorem strips_det {u : Uni} {s a b : Str} (ha : Strips u s a) (hb : Strips u s b) : a = b := by
  induction ha generalizing b with
  | nil =>
    generalize hs : ([] : Str) = s at hb
    cases hb with
    | nil => rfl
    | seq h _ =>
      obtain ⟨r, rfl⟩ := ansiSeq_head h
      simp at hs
    | other _ _ => cases hs
  | @seq q s t h r ih =>
    generalize hs : q ++ s = s' at hb
    cases hb with
    | nil =>
      obtain ⟨r, rfl⟩ := ansiSeq_head h
      simp at hs
    | seq h' r' =>
      obtain ⟨rfl, rfl⟩ := ansiSeq_prefix h h' hs
      exact ih r'
    | other h' _ => exact absurd hs.symm (h' q s h)
  | @other c s t h r ih =>
    generalize hs : c :: s = s' at hb
    cases hb with
    | nil => cases hs
    | seq h' r' => exact absurd hs (h _ _ h')
    | other h' r' =>
      cases hs
      rw [ih r']

theorem visibleLe_iff (u : Uni) (s : Str) (n : Int) : VisibleLe u s n ↔ vlen u s ≤ n := by
  constructor
  · rintro ⟨t, h1, h2⟩
    rw [strips_det h1 (stripAnsi_strips u s)] at h2
    exact h2
  · intro h
    exact ⟨_, stripAnsi_strips u s, h⟩

/-! ## The chunks make up the text -/

theorem chunkMode_ne (u : Uni) (b : Str) (c : Char) (r : Str) : chunkMode u b (c :: r) ≠ .fresh := by
  unfold chunkMode
  simp only
  split
  · simp
  · split <;> simp

theorem chunkGo_flatten (u : Uni) (before : Str) (m : ChunkMode) (cur s : Str) (h : m = .fresh → cur = []) :
    (chunkGo u before m cur s).flatten = cur.reverse ++ s := by
  induction s generalizing before m cur with
  | nil => cases m <;> simp [chunkGo]; simp [h rfl]
  | cons c r ih =>
    have hm := fun b => chunkMode_ne u b c r
    cases m with
    | fresh =>
      rw [h rfl]
      simp only [chunkGo]
      rw [ih _ _ _ (fun e => absurd e (hm _))]; simp
    | ws =>
      simp only [chunkGo]
      split
      · rw [ih _ _ _ (by simp)]; simp
      · rw [List.flatten_cons, ih _ _ _ (fun e => absurd e (hm _))]; simp
    | dash =>
      simp only [chunkGo]
      split
      · rw [ih _ _ _ (by simp)]; simp
      · rw [List.flatten_cons, ih _ _ _ (fun e => absurd e (hm _))]; simp
    | word =>
      simp only [chunkGo]
      split
      · rw [List.flatten_cons, ih _ _ _ (by simp)]; simp
      · split
        · rw [List.flatten_cons, ih _ _ _ (fun e => absurd e (hm _))]; simp
        · rw [ih _ _ _ (by simp)]; simp

theorem simpleChunks_flatten (s : Str) : (simpleChunks s).flatten = s := by
  induction s with
  | nil => rfl
  | cons c r ih =>
    simp only [simpleChunks]
    split
    · rename_i h; rw [h] at ih; simp at ih; simp [ih]
    · rename_i ls h; rw [h] at ih; simp at ih; simp [ih]
    · rename_i d l ls h
      rw [h] at ih
      split
      · simp at ih ⊢; exact ih
      · simp at ih ⊢; exact ih

theorem splitChunks_flatten (u : Uni) (o : WrapOpts) (s : Str) : (splitChunks u o s).flatten = s := by
  unfold splitChunks
  split
  · rw [chunkGo_flatten u [] .fresh [] s (fun _ => rfl)]; rfl
  · exact simpleChunks_flatten s

theorem fixSentence_nonws (cs : List Str) : nonws (fixSentenceEndings cs).flatten = nonws cs.flatten := by
  fun_induction fixSentenceEndings cs with
  | case1 a b r h ih =>
    simp only [Bool.and_eq_true, decide_eq_true_eq] at h
    rw [h.1]
    have e1 : nonws py"  " = [] := by decide
    have e2 : nonws py" " = [] := by decide
    simp only [List.flatten_cons, nonws_append, ih, e1, e2]
  | case2 a b r h ih => simp only [List.flatten_cons, nonws_append] at ih ⊢; rw [ih]
  | case3 l => rfl

theorem expandtabs_nonws (ts : Int) (col : Nat) (s : Str) : nonws (expandtabsFrom ts col s) = nonws s := by
  have ht : isSpace '\t' = true := by decide
  have hsp : isSpace ' ' = true := by decide
  induction s generalizing col with
  | nil => rfl
  | cons c r ih =>
    simp only [expandtabsFrom]
    split
    · rename_i h
      subst h
      have : nonws ('\t' :: r) = nonws r := by simp [nonws, ht]
      rw [this]
      split
      · exact ih _
      · simp only [nonws_append, ih]
        have : ∀ n, nonws (List.replicate n ' ') = [] := fun n => nonws_blank _ (by
          intro c hc; rw [List.mem_replicate] at hc; rw [hc.2]; exact hsp)
        rw [this]; rfl
    · split
      · have : ∀ t, nonws (c :: t) = nonws [c] ++ nonws t := fun t => by rw [← nonws_append]; rfl
        rw [this, this r, ih]
      · have : ∀ t, nonws (c :: t) = nonws [c] ++ nonws t := fun t => by rw [← nonws_append]; rfl
        rw [this, this r, ih]

theorem tw_isSpace (c : Char) (h : isTwSpace c = true) : isSpace c = true := by
  unfold isTwSpace at h
  unfold isSpace
  simp only [Bool.or_eq_true, Bool.and_eq_true, decide_eq_true_eq, beq_iff_eq] at h ⊢
  omega

theorem replaceWs_nonws (s : Str) : nonws (s.map (fun c => if isTwSpace c then ' ' else c)) = nonws s := by
  have hsp : isSpace ' ' = true := by decide
  induction s with
  | nil => rfl
  | cons c r ih =>
    simp only [List.map_cons]
    by_cases h : isTwSpace c = true
    · rw [if_pos h]
      have h2 := tw_isSpace c h
      simp only [nonws, List.filter_cons] at ih ⊢
      simp [h2, hsp, ih]
    · rw [if_neg h]
      simp only [nonws, List.filter_cons] at ih ⊢
      rw [ih]

theorem munge_nonws (o : WrapOpts) (s : Str) : nonws (munge o s) = nonws s := by
  unfold munge
  simp only
  have h : nonws (if o.expandTabs = true then expandtabs o.tabsize s else s) = nonws s := by
    split
    · exact expandtabs_nonws _ _ _
    · rfl
  split
  · rw [replaceWs_nonws, h]
  · exact h

theorem wrapInput_nonws (u : Uni) (o : WrapOpts) (s : Str) : nonws (wrapInput u o s).flatten = nonws s := by
  unfold wrapInput
  simp only
  split
  · rw [fixSentence_nonws, splitChunks_flatten, munge_nonws]
  · rw [splitChunks_flatten, munge_nonws]

/-! ## Chunks are whitespace or words, and whitespace chunks are separated by words -/

def WordChunk (c : Str) : Prop := c ≠ [] ∧ ∀ x ∈ c, isSpace x = false
def SpaceChunk (c : Str) : Prop := c ≠ [] ∧ Blank c

/-- No two whitespace chunks in a row. -/
def Alt : List Str → Prop
  | a :: b :: r => (SpaceChunk a → WordChunk b) ∧ Alt (b :: r)
  | _ => True

structure Tidy (cs : List Str) : Prop where
  pure : ∀ c ∈ cs, WordChunk c ∨ SpaceChunk c
  alt : Alt cs

theorem not_both {c : Str} (h1 : WordChunk c) (h2 : SpaceChunk c) : False := by
  obtain ⟨hne, h1⟩ := h1
  cases c with
  | nil => exact hne rfl
  | cons x c =>
    have := h2.2 x (by simp)
    rw [h1 x (by simp)] at this
    cases this

theorem alt_tail {a : Str} {r : List Str} (h : Alt (a :: r)) : Alt r := by
  cases r with
  | nil => trivial
  | cons b r => exact h.2

theorem tidy_tail {a : Str} {r : List Str} (h : Tidy (a :: r)) : Tidy r :=
  ⟨fun c hc => h.pure c (List.mem_cons_of_mem _ hc), alt_tail h.alt⟩

theorem alt_cons {a : Str} {r : List Str} (h : Alt r) (hh : SpaceChunk a → ∀ b, r.head? = some b → WordChunk b) : Alt (a :: r) := by
  cases r with
  | nil => trivial
  | cons b r => exact ⟨fun ha => hh ha b rfl, h⟩

theorem tidy_cons {a : Str} {r : List Str} (ha : WordChunk a ∨ SpaceChunk a) (h : Tidy r)
    (hh : SpaceChunk a → ∀ b, r.head? = some b → WordChunk b) : Tidy (a :: r) :=
  ⟨fun c hc => by rcases List.mem_cons.1 hc with e | e; (· rw [e]; exact ha); exact h.pure c e, alt_cons h.alt hh⟩

theorem chunkMode_cases (u : Uni) (b : Str) (c : Char) (r : Str) :
    (isTwSpace c = true ∧ chunkMode u b (c :: r) = .ws) ∨
    (isTwSpace c = false ∧ (chunkMode u b (c :: r) = .dash ∨ chunkMode u b (c :: r) = .word)) := by
  unfold chunkMode
  simp only
  by_cases h : isTwSpace c = true
  · left; simp [h]
  · right
    have h' : isTwSpace c = false := by simpa using h
    simp only [h', Bool.false_eq_true, if_false, true_and]
    split <;> simp

/-- The chunk being read is as its mode says. -/
def CurOk : ChunkMode → Str → Prop
  | .fresh, cur => cur = []
  | .ws, cur => cur ≠ [] ∧ ∀ x ∈ cur, isTwSpace x = true
  | .dash, cur => cur ≠ [] ∧ ∀ x ∈ cur, isTwSpace x = false
  | .word, cur => cur ≠ [] ∧ ∀ x ∈ cur, isTwSpace x = false

theorem curOk_start (u : Uni) (b : Str) (c : Char) (r : Str) : CurOk (chunkMode u b (c :: r)) [c] := by
  rcases chunkMode_cases u b c r with ⟨h1, h2⟩ | ⟨h1, h2 | h2⟩ <;> rw [h2] <;> simp [CurOk, h1]

theorem space_of_tw {c : Str} (hne : c ≠ []) (h : ∀ x ∈ c, isTwSpace x = true) : SpaceChunk c.reverse :=
  ⟨by simpa using hne, fun x hx => tw_isSpace x (h x (by simpa using hx))⟩

theorem word_of_tw {c : Str} (hp : PlainWs c) (hne : c ≠ []) (h : ∀ x ∈ c, isTwSpace x = false) : WordChunk c.reverse := by
  refine ⟨by simpa using hne, ?_⟩
  intro x hx
  have hx' : x ∈ c := by simpa using hx
  cases hs : isSpace x with
  | false => rfl
  | true =>
    have := hp x hx' hs
    rw [h x hx'] at this
    cases this

theorem plain_append {a b : Str} : PlainWs (a ++ b) ↔ PlainWs a ∧ PlainWs b := by
  constructor
  · intro h
    exact ⟨fun c hc => h c (by simp [hc]), fun c hc => h c (by simp [hc])⟩
  · rintro ⟨h1, h2⟩ c hc
    rcases List.mem_append.1 hc with e | e
    · exact h1 c e
    · exact h2 c e

theorem chunkGo_tidy (u : Uni) (before : Str) (m : ChunkMode) (cur s : Str) (hc : CurOk m cur) (hp : PlainWs (cur ++ s)) :
    Tidy (chunkGo u before m cur s) ∧
      ((m = .dash ∨ m = .word) → ∀ b, (chunkGo u before m cur s).head? = some b → WordChunk b) := by
  induction s generalizing before m cur with
  | nil =>
    have hp' : PlainWs cur := (plain_append.1 hp).1
    cases m with
    | fresh => exact ⟨⟨by simp [chunkGo], trivial⟩, by simp⟩
    | ws =>
      refine ⟨⟨?_, trivial⟩, by simp⟩
      intro c h
      simp [chunkGo] at h
      subst h
      exact Or.inr (space_of_tw hc.1 hc.2)
    | dash =>
      have := word_of_tw hp' hc.1 hc.2
      refine ⟨⟨?_, trivial⟩, ?_⟩
      · intro c h
        simp [chunkGo] at h
        subst h
        exact Or.inl this
      · intro _ b hb
        simp [chunkGo] at hb
        subst hb
        exact this
    | word =>
      have := word_of_tw hp' hc.1 hc.2
      refine ⟨⟨?_, trivial⟩, ?_⟩
      · intro c h
        simp [chunkGo] at h
        subst h
        exact Or.inl this
      · intro _ b hb
        simp [chunkGo] at hb
        subst hb
        exact this
  | cons c r ih =>
    have hp' : PlainWs cur := (plain_append.1 hp).1
    have hpc : PlainWs ([c] ++ r) := (plain_append.1 hp).2
    have hpr : PlainWs r := (plain_append.1 hpc).2
    have hpcc : PlainWs [c] := (plain_append.1 hpc).1
    have start := fun b => ih (c :: b) (chunkMode u b (c :: r)) [c] (curOk_start u b c r) hpc
    -- a chunk ends and another begins
    have next : ∀ b, (WordChunk cur.reverse ∨ (SpaceChunk cur.reverse ∧ isTwSpace c = false)) →
        Tidy (cur.reverse :: chunkGo u (c :: b) (chunkMode u b (c :: r)) [c] r) := by
      intro b h
      refine tidy_cons (by rcases h with h | h; (· exact Or.inl h); exact Or.inr h.1) (start b).1 ?_
      intro hs x hx
      rcases h with h | ⟨-, h⟩
      · exact (not_both h hs).elim
      · rcases chunkMode_cases u b c r with ⟨h1, h2⟩ | ⟨h1, h2⟩
        · rw [h] at h1; cases h1
        · exact (start b).2 h2 x hx
    have grow : ∀ (d : Char) (l : Str), PlainWs (d :: cur ++ l) ↔ PlainWs (cur ++ d :: l) := by
      intro d l
      unfold PlainWs
      constructor
      · intro h x hx; apply h; simp at hx ⊢; rcases hx with h | h | h <;> simp [h]
      · intro h x hx; apply h; simp at hx ⊢; rcases hx with h | h | h <;> simp [h]
    cases m with
    | fresh =>
      simp only [chunkGo]
      exact ⟨(start before).1, by simp⟩
    | ws =>
      simp only [chunkGo]
      refine ⟨?_, by simp⟩
      split
      · rename_i h
        refine (ih (c :: before) .ws (c :: cur) ⟨by simp, ?_⟩ ((grow c r).2 hp)).1
        intro x hx
        rcases List.mem_cons.1 hx with e | e
        · rw [e]; exact h
        · exact hc.2 x e
      · rename_i h
        exact next before (Or.inr ⟨space_of_tw hc.1 hc.2, by simpa using h⟩)
    | dash =>
      have hw := word_of_tw hp' hc.1 hc.2
      simp only [chunkGo]
      split
      · rename_i h
        have := ih (c :: before) .dash (c :: cur) ⟨by simp, by
          intro x hx
          rcases List.mem_cons.1 hx with e | e
          · rw [e, h]; decide
          · exact hc.2 x e⟩ ((grow c r).2 hp)
        exact ⟨this.1, fun _ => this.2 (Or.inl rfl)⟩
      · refine ⟨next before (Or.inl hw), ?_⟩
        intro _ b hb
        simp at hb
        subst hb
        exact hw
    | word =>
      have hw := word_of_tw hp' hc.1 hc.2
      simp only [chunkGo]
      split
      · rename_i h
        simp only [Bool.and_eq_true, decide_eq_true_eq] at h
        have hw2 : WordChunk (c :: cur).reverse := by
          refine word_of_tw ?_ (by simp) ?_
          · have := (grow c []).2 (by rw [plain_append]; exact ⟨hp', hpcc⟩)
            simpa using this
          · intro x hx
            rcases List.mem_cons.1 hx with e | e
            · rw [e, h.1]; decide
            · exact hc.2 x e
        refine ⟨tidy_cons (Or.inl hw2) (ih (c :: before) .fresh [] rfl (by simpa using hpr)).1 ?_, ?_⟩
        · intro hs; exact (not_both hw2 hs).elim
        · intro _ b hb
          simp only [List.head?_cons, Option.some.injEq] at hb
          rw [← hb]; exact hw2
      · split
        · refine ⟨next before (Or.inl hw), ?_⟩
          intro _ b hb
          simp at hb
          subst hb
          exact hw
        · rename_i h
          simp only [Bool.or_eq_true, not_or, Bool.not_eq_true] at h
          have := ih (c :: before) .word (c :: cur) ⟨by simp, by
            intro x hx
            rcases List.mem_cons.1 hx with e | e
            · rw [e]; exact h.1
            · exact hc.2 x e⟩ ((grow c r).2 hp)
          exact ⟨this.1, fun _ => this.2 (Or.inr rfl)⟩

theorem simpleChunks_tidy (s : Str) (hp : PlainWs s) :
    Tidy (simpleChunks s) ∧ ∀ d l ls, simpleChunks s = (d :: l) :: ls → ∀ x ∈ d :: l, isTwSpace x = isTwSpace d := by
  induction s with
  | nil => exact ⟨⟨by simp [simpleChunks], trivial⟩, by simp [simpleChunks]⟩
  | cons c r ih =>
    have hpr : PlainWs r := fun x hx => hp x (List.mem_cons_of_mem _ hx)
    obtain ⟨ih1, ih2⟩ := ih hpr
    have hc1 : WordChunk [c] ∨ SpaceChunk [c] := by
      cases h : isSpace c with
      | true => exact Or.inr ⟨by simp, by intro x hx; simp at hx; rw [hx]; exact h⟩
      | false => exact Or.inl ⟨by simp, by intro x hx; simp at hx; rw [hx]; exact h⟩
    simp only [simpleChunks]
    split
    · refine ⟨⟨by simpa using hc1, trivial⟩, ?_⟩
      intro d l ls e
      simp at e
      obtain ⟨⟨rfl, rfl⟩, rfl⟩ := e
      simp
    · rename_i ls h
      exfalso
      rw [h] at ih1
      rcases ih1.pure [] (by simp) with h | h <;> exact h.1 rfl
    · rename_i d l ls h
      have hh := ih2 d l ls h
      rw [h] at ih1
      have hd1 := ih1.pure (d :: l) (by simp)
      have key : isSpace c = isTwSpace c := by
        cases hs : isSpace c with
        | true => exact (hp c (by simp) hs).symm
        | false =>
          cases ht : isTwSpace c with
          | false => rfl
          | true => rw [tw_isSpace c ht] at hs; cases hs
      have hdm : d ∈ r := by
        have := simpleChunks_flatten r
        rw [h] at this
        rw [← this]; simp
      have keyd : isSpace d = isTwSpace d := by
        cases hs : isSpace d with
        | true => exact (hpr d hdm hs).symm
        | false =>
          cases ht : isTwSpace d with
          | false => rfl
          | true => rw [tw_isSpace d ht] at hs; cases hs
      split
      · rename_i he
        have hsame : WordChunk (c :: d :: l) ∨ SpaceChunk (c :: d :: l) := by
          rcases hd1 with h1 | h1
          · left
            refine ⟨by simp, ?_⟩
            intro x hx
            rcases List.mem_cons.1 hx with e | e
            · rw [e, key, he, ← keyd]; exact h1.2 d (by simp)
            · exact h1.2 x e
          · right
            refine ⟨by simp, ?_⟩
            intro x hx
            rcases List.mem_cons.1 hx with e | e
            · rw [e, key, he, ← keyd]; exact h1.2 d (by simp)
            · exact h1.2 x e
        refine ⟨tidy_cons hsame (tidy_tail ih1) ?_, ?_⟩
        · intro hs b hb
          have hds : SpaceChunk (d :: l) := by
            rcases hd1 with h1 | h1
            · exfalso
              have := hs.2 d (by simp)
              rw [h1.2 d (by simp)] at this
              cases this
            · exact h1
          cases ls with
          | nil => simp at hb
          | cons b' ls =>
            simp at hb
            subst hb
            exact ih1.alt.1 hds
        · intro d' l' ls' e
          simp at e
          obtain ⟨⟨rfl, rfl⟩, rfl⟩ := e
          intro x hx
          rcases List.mem_cons.1 hx with e | e
          · rw [e]
          · rw [hh x e, he]
      · rename_i he
        refine ⟨tidy_cons hc1 ih1 ?_, ?_⟩
        · intro hs b hb
          simp at hb
          subst hb
          rcases hd1 with h1 | h1
          · exact h1
          · exfalso
            apply he
            rw [← key, ← keyd, hs.2 c (by simp), h1.2 d (by simp)]
        · intro d' l' ls' e
          simp at e
          obtain ⟨⟨rfl, rfl⟩, rfl⟩ := e
          simp

theorem space2 : SpaceChunk py"  " := ⟨by simp, by intro x hx; simp at hx; rw [hx]; decide⟩
theorem space1 : SpaceChunk py" " := ⟨by simp, by intro x hx; simp at hx; rw [hx]; decide⟩

theorem fixSentence_tidy (cs : List Str) (h : Tidy cs) : Tidy (fixSentenceEndings cs) ∧
    ∀ b, (fixSentenceEndings cs).head? = some b → cs.head? = some b := by
  fun_induction fixSentenceEndings cs with
  | case1 a b r hb ih =>
    simp only [Bool.and_eq_true, decide_eq_true_eq] at hb
    obtain ⟨hb, -⟩ := hb
    subst hb
    have ht := ih (tidy_tail (tidy_tail h))
    have ha : SpaceChunk a → False := fun hs => not_both (h.alt.1 hs) space1
    refine ⟨tidy_cons (h.pure a (by simp)) (tidy_cons (Or.inr space2) ht.1 ?_) (fun hs => (ha hs).elim), by simp⟩
    intro _ b hbb
    have := ht.2 b hbb
    cases r with
    | nil => simp at this
    | cons b' r =>
      simp at this
      subst this
      exact h.alt.2.1 space1
  | case2 a b r hb ih =>
    have ht := ih (tidy_tail h)
    refine ⟨tidy_cons (h.pure a (by simp)) ht.1 ?_, by simp⟩
    intro hs b' hb'
    have := ht.2 b' hb'
    simp at this
    subst this
    exact h.alt.1 hs
  | case3 l hl => exact ⟨h, fun _ hb => hb⟩

theorem munge_plain (o : WrapOpts) (s : Str) (hp : PlainWs s) : PlainWs (munge o s) := by
  have hsp : isTwSpace ' ' = true := by decide
  have hexp : ∀ ts col s, PlainWs s → PlainWs (expandtabsFrom ts col s) := by
    intro ts col s
    induction s generalizing col with
    | nil => intro h; exact h
    | cons c r ih =>
      intro h
      have hr : PlainWs r := fun x hx => h x (List.mem_cons_of_mem _ hx)
      simp only [expandtabsFrom]
      split
      · split
        · exact ih _ hr
        · rw [plain_append]
          refine ⟨?_, ih _ hr⟩
          intro x hx _
          rw [List.mem_replicate] at hx
          rw [hx.2]; exact hsp
      · split
        all_goals
          intro x hx
          rcases List.mem_cons.1 hx with e | e
          · rw [e]; exact h c (by simp)
          · exact ih _ hr x e
  unfold munge
  simp only
  have h1 : PlainWs (if o.expandTabs = true then expandtabs o.tabsize s else s) := by
    split
    · exact hexp _ _ _ hp
    · exact hp
  split
  · intro x hx
    rw [List.mem_map] at hx
    obtain ⟨y, hy, rfl⟩ := hx
    intro hs
    split
    · exact hsp
    · rename_i ht
      rw [if_neg ht] at hs
      exact h1 y hy hs
  · exact h1

theorem wrapInput_tidy (u : Uni) (o : WrapOpts) (s : Str) (hp : PlainWs s) : Tidy (wrapInput u o s) := by
  have hm := munge_plain o s hp
  have : Tidy (splitChunks u o (munge o s)) := by
    unfold splitChunks
    split
    · exact (chunkGo_tidy u [] .fresh [] _ rfl (by simpa using hm)).1
    · exact (simpleChunks_tidy _ hm).1
  unfold wrapInput
  simp only
  split
  · exact (fixSentence_tidy _ this).1
  · exact this

/-! ## Words -/

/-- The chunk is not whitespace. -/
def isText (c : Str) : Bool := c.any (fun x => !isSpace x)

theorem isText_word {c : Str} (h : WordChunk c) : isText c = true := by
  obtain ⟨hne, h⟩ := h
  cases c with
  | nil => exact absurd rfl hne
  | cons x c => simp [isText, h x (by simp)]

theorem isText_space {c : Str} (h : SpaceChunk c) : isText c = false := by
  unfold isText
  rw [List.any_eq_false]
  intro x hx
  simp [h.2 x hx]

theorem dashes_none (u : Uni) (s : Str) (h : s.head? ≠ some '-') : dashesThenWord u 0 s = false := by
  cases s with
  | nil => rfl
  | cons c r =>
    have : c ≠ '-' := fun e => h (by rw [e]; rfl)
    simp [dashesThenWord, this]

theorem emDash_none (u : Uni) (b s : Str) (h : s.head? ≠ some '-') : emDashAt u b s = false := by
  unfold emDashAt
  cases b with
  | nil => rfl
  | cons p b => simp [dashes_none u s h]

theorem chunkMode_nodash (u : Uni) (b : Str) (c : Char) (r : Str) (h : c ≠ '-') :
    chunkMode u b (c :: r) = if isTwSpace c then .ws else .word := by
  unfold chunkMode
  simp only
  rw [emDash_none u b (c :: r) (by simpa using h)]
  simp

theorem chunkGo_words (u : Uni) (before : Str) (m : ChunkMode) (cur s : Str) (hm : m ≠ .dash) (hc : CurOk m cur)
    (hp : PlainWs (cur ++ s)) (hd : '-' ∉ s) :
    (chunkGo u before m cur s).filter isText = splitWs ((if m = .word then cur.reverse else []) ++ s) := by
  induction s generalizing before m cur with
  | nil =>
    have hp' : PlainWs cur := (plain_append.1 hp).1
    cases m with
    | fresh => rfl
    | ws =>
      simp [chunkGo, isText_space (space_of_tw hc.1 hc.2), splitWs]
    | dash => exact absurd rfl hm
    | word =>
      have hw := word_of_tw hp' hc.1 hc.2
      have := splitWs_append cur.reverse [] hw.1 hw.2 (by simp)
      simp only [chunkGo, if_true, this, List.filter_cons, isText_word hw, List.filter_nil]
      rfl
  | cons c r ih =>
    simp only [List.mem_cons, not_or] at hd
    have hcd : c ≠ '-' := fun e => hd.1 e.symm
    have hpc : PlainWs (c :: r) := (plain_append.1 hp).2
    have hpcur : PlainWs cur := (plain_append.1 hp).1
    -- a chunk that starts with `c`
    have hstart : ∀ b, (chunkGo u b (chunkMode u before (c :: r)) [c] r).filter isText = splitWs (c :: r) := by
      intro b
      have hmode := chunkMode_nodash u before c r hcd
      have hcur := curOk_start u before c r
      rw [ih b _ [c] (by rw [hmode]; split <;> simp) hcur (by simpa using hpc) hd.2, hmode]
      by_cases ht : isTwSpace c = true
      · simp [ht, splitWs_space c r (tw_isSpace c ht)]
      · simp [ht]
    have hspace : isTwSpace c = true → isSpace c = true := tw_isSpace c
    cases m with
    | fresh => simp only [chunkGo]; rw [hstart]; rfl
    | dash => exact absurd rfl hm
    | ws =>
      simp only [chunkGo]
      split
      · rename_i ht
        rw [ih _ .ws (c :: cur) (by simp) ⟨by simp, by simpa [ht] using hc.2⟩ ?_ hd.2]
        · simp [splitWs_space c r (hspace ht)]
        · rw [List.cons_append]
          intro x hx
          refine hp x ?_
          simp at hx ⊢
          rcases hx with h | h | h <;> simp [h]
      · rw [List.filter_cons, isText_space (space_of_tw hc.1 hc.2)]
        simp only [Bool.false_eq_true, if_false]
        rw [hstart]; rfl
    | word =>
      simp only [chunkGo, emDash_none u before (c :: r) (by simpa using hcd), Bool.or_false]
      rw [if_neg (by simp [hcd])]
      have hw := word_of_tw hpcur hc.1 hc.2
      split
      · rename_i ht
        rw [List.filter_cons, isText_word hw]
        simp only [if_true]
        rw [hstart, splitWs_append cur.reverse (c :: r) hw.1 hw.2 (by simp [hspace ht])]
      · rename_i ht
        rw [ih _ .word (c :: cur) (by simp) ⟨by simp, by simpa [ht] using hc.2⟩ ?_ hd.2]
        · simp
        · rw [List.cons_append]
          intro x hx
          refine hp x ?_
          simp at hx ⊢
          rcases hx with h | h | h <;> simp [h]

def headSp : Str → Bool
  | [] => true
  | c :: _ => isSpace c

def consHead (c : Char) : List Str → List Str
  | [] => [[c]]
  | w :: ws => (c :: w) :: ws

theorem splitWs_cons (c : Char) (r : Str) (h : isSpace c = false) :
    splitWs (c :: r) = if headSp r then [c] :: splitWs r else consHead c (splitWs r) := by
  cases r with
  | nil => simp [splitWs, h, headSp]
  | cons d r =>
    rw [splitWs]
    have e : headSp (d :: r) = isSpace d := rfl
    rw [e]
    simp only [h, Bool.false_eq_true, if_false]
    by_cases hd : isSpace d = true
    · rw [if_pos hd, if_pos hd]
    · rw [if_neg hd, if_neg hd]; cases splitWs (d :: r) <;> rfl

theorem simpleChunks_words (s : Str) (hp : PlainWs s) : (simpleChunks s).filter isText = splitWs s := by
  induction s with
  | nil => rfl
  | cons c r ih =>
    have hpr : PlainWs r := fun x hx => hp x (List.mem_cons_of_mem _ hx)
    have ih := ih hpr
    have htidy := (simpleChunks_tidy r hpr).1
    have key : ∀ x ∈ c :: r, isTwSpace x = isSpace x := by
      intro x hx
      cases hs : isSpace x with
      | true => exact hp x hx hs
      | false =>
        cases ht : isTwSpace x with
        | false => rfl
        | true => rw [tw_isSpace x ht] at hs; cases hs
    have hfl := simpleChunks_flatten r
    simp only [simpleChunks]
    split
    · rename_i h
      rw [h] at hfl
      have : r = [] := by simpa using hfl.symm
      subst this
      cases hs : isSpace c <;> simp [splitWs, hs, isText]
    · rename_i ls h
      exfalso
      rw [h] at htidy
      rcases htidy.pure [] (by simp) with h | h <;> exact h.1 rfl
    · rename_i d l ls h
      rw [h] at htidy hfl ih
      have hr : r = d :: (l ++ ls.flatten) := by rw [← hfl]; simp
      have hd := htidy.pure (d :: l) (by simp)
      have kc := key c (by simp)
      have kd := key d (by rw [hr]; simp)
      rw [kc, kd]
      cases hsd : isSpace d with
      | true =>
        have hdl : SpaceChunk (d :: l) := by
          rcases hd with h | h
          · rw [h.2 d (by simp)] at hsd; cases hsd
          · exact h
        cases hsc : isSpace c with
        | true =>
          have : SpaceChunk (c :: d :: l) := ⟨by simp, by
            intro x hx; rcases List.mem_cons.1 hx with e | e
            · rw [e]; exact hsc
            · exact hdl.2 x e⟩
          rw [List.filter_cons, isText_space hdl] at ih
          simp only [if_true, List.filter_cons, isText_space this, splitWs_space c r hsc, ← ih, Bool.false_eq_true, if_false]
        | false =>
          have : WordChunk [c] := ⟨by simp, by simp [hsc]⟩
          simp only [Bool.false_eq_true, if_false]
          rw [List.filter_cons, isText_word this, ih]
          conv => rhs; rw [hr]
          simp only [splitWs, hsc, hsd, if_true]
          rw [hr]
          simp [splitWs, hsd]
      | false =>
        have hdl : WordChunk (d :: l) := by
          rcases hd with h | h
          · exact h
          · have := h.2 d (by simp); rw [hsd] at this; cases this
        rw [List.filter_cons, isText_word hdl] at ih
        simp only [if_true] at ih
        cases hsc : isSpace c with
        | true =>
          have : SpaceChunk [c] := ⟨by simp, by intro x hx; simp at hx; rw [hx]; exact hsc⟩
          simp only [Bool.true_eq_false, if_false, List.filter_cons, isText_space this, isText_word hdl, if_true,
            Bool.false_eq_true, splitWs_space c r hsc, ← ih]
        | false =>
          have : WordChunk (c :: d :: l) := ⟨by simp, by
            intro x hx; rcases List.mem_cons.1 hx with e | e
            · rw [e]; exact hsc
            · exact hdl.2 x e⟩
          simp only [if_true, List.filter_cons, isText_word this]
          rw [splitWs_cons c r hsc, ← ih, hr]
          simp [headSp, hsd, consHead]

theorem splitWs_map (f : Char → Char) (hf : ∀ c, isSpace (f c) = isSpace c) (hk : ∀ c, isSpace c = false → f c = c) (s : Str) :
    splitWs (s.map f) = splitWs s := by
  induction s with
  | nil => rfl
  | cons c r ih =>
    rw [List.map_cons]
    cases h : isSpace c with
    | true => rw [splitWs_space _ _ (by rw [hf, h]), splitWs_space _ _ h, ih]
    | false =>
      rw [splitWs_cons _ _ (by rw [hf, h]), splitWs_cons _ _ h, ih, hk c h]
      have : headSp (r.map f) = headSp r := by cases r <;> simp [headSp, hf]
      rw [this]

theorem splitWs_replicate (n : Nat) (s : Str) : splitWs (List.replicate n ' ' ++ s) = splitWs s := by
  induction n with
  | zero => rfl
  | succ n ih => rw [List.replicate_succ, List.cons_append, splitWs_space _ _ (by decide), ih]

theorem expandtabs_head (ts : Int) (h : 1 ≤ ts) (col : Nat) (s : Str) : headSp (expandtabsFrom ts col s) = headSp s := by
  cases s with
  | nil => rfl
  | cons c r =>
    simp only [expandtabsFrom]
    split
    · rename_i hc
      rw [if_neg (by omega)]
      have : 1 ≤ ts.toNat - col % ts.toNat := by
        have := Nat.mod_lt col (show 0 < ts.toNat by omega)
        omega
      obtain ⟨k, hk⟩ : ∃ k, ts.toNat - col % ts.toNat = k + 1 := ⟨ts.toNat - col % ts.toNat - 1, by omega⟩
      simp only [hk, List.replicate_succ, List.cons_append, headSp, hc]
      decide
    · split <;> rfl

theorem expandtabs_words (ts : Int) (h : 1 ≤ ts) (col : Nat) (s : Str) : splitWs (expandtabsFrom ts col s) = splitWs s := by
  induction s generalizing col with
  | nil => rfl
  | cons c r ih =>
    simp only [expandtabsFrom]
    split
    · rename_i hc
      rw [if_neg (by omega), splitWs_replicate, ih, hc, splitWs_space _ _ (by decide)]
    · have step : ∀ k, splitWs (c :: expandtabsFrom ts k r) = splitWs (c :: r) := by
        intro k
        cases hs : isSpace c with
        | true => rw [splitWs_space _ _ hs, splitWs_space _ _ hs, ih]
        | false => rw [splitWs_cons _ _ hs, splitWs_cons _ _ hs, ih, expandtabs_head ts h]
      split <;> exact step _

theorem munge_words (o : WrapOpts) (s : Str) (h : o.expandTabs = true → 1 ≤ o.tabsize) : splitWs (munge o s) = splitWs s := by
  unfold munge
  simp only
  have h1 : splitWs (if o.expandTabs = true then expandtabs o.tabsize s else s) = splitWs s := by
    split
    · rename_i he; exact expandtabs_words _ (h he) _ _
    · rfl
  split
  · rw [splitWs_map, h1]
    · intro c
      by_cases ht : isTwSpace c = true
      · rw [if_pos ht, tw_isSpace c ht]; decide
      · rw [if_neg ht]
    · intro c hc
      rw [if_neg]
      intro ht
      rw [tw_isSpace c ht] at hc
      cases hc
  · exact h1

theorem munge_hyphen (o : WrapOpts) (s : Str) (h : '-' ∉ s) : '-' ∉ munge o s := by
  unfold munge
  simp only
  have h1 : '-' ∉ (if o.expandTabs = true then expandtabs o.tabsize s else s) := by
    split
    · have : ∀ col, '-' ∉ expandtabsFrom o.tabsize col s := by
        induction s with
        | nil => intro col; simp [expandtabsFrom]
        | cons c r ih =>
          intro col
          simp only [List.mem_cons, not_or] at h
          simp only [expandtabsFrom]
          split
          · split
            · exact ih h.2 _
            · simp only [List.mem_append, List.mem_replicate, not_or]
              exact ⟨fun e => absurd e.2 (by decide), ih h.2 _⟩
          · split <;> exact fun hm => (List.mem_cons.1 hm).elim h.1 (ih h.2 _)
      exact this 0
    · exact h
  split
  · intro hm
    rw [List.mem_map] at hm
    obtain ⟨c, hc, e⟩ := hm
    split at e
    · revert e; decide
    · rw [e] at hc; exact h1 hc
  · exact h1

end Verif
