import Verif.Spec.Prose
import Verif.Proofs.Gap
import Verif.Proofs.Sentence
import Verif.Props.Wrap

/-!
# Chunks of text with colours
-/

namespace Verif

open Spec

/-- All whitespace, or none. -/
def Uniform (b : Bool) (p : Str) : Prop := p ≠ [] ∧ ∀ c ∈ p, isTwSpace c = b

theorem simpleChunks_run {b : Bool} {p s : Str} (hp : Uniform b p) (hs : ∀ c, s.head? = some c → isTwSpace c = !b) :
    simpleChunks (p ++ s) = p :: simpleChunks s := by
  obtain ⟨hne, hall⟩ := hp
  induction p with
  | nil => exact absurd rfl hne
  | cons c r ih =>
    cases r with
    | nil =>
      simp only [List.cons_append, List.nil_append, simpleChunks]
      cases s with
      | nil => rfl
      | cons d s =>
        have hd := hs d rfl
        have hc := hall c (by simp)
        have hform : ∃ l ls, simpleChunks (d :: s) = (d :: l) :: ls := by
          simp only [simpleChunks]
          split
          · exact ⟨_, _, rfl⟩
          · exact ⟨_, _, rfl⟩
          · split <;> exact ⟨_, _, rfl⟩
        obtain ⟨l, ls, e⟩ := hform
        rw [e]
        simp only
        rw [if_neg]
        rw [hc, hd]
        cases b <;> simp
    | cons d r =>
      have := ih (by simp) (fun x hx => hall x (by simp at hx ⊢; right; exact hx))
      rw [List.cons_append, simpleChunks, this]
      simp only
      rw [if_pos]
      rw [hall c (by simp), hall d (by simp)]

theorem chunkGo_simple (u : Uni) (before : Str) (b : Bool) (cur s : Str) (hc : Uniform b cur) (hd : '-' ∉ s) :
    chunkGo u before (if b then .ws else .word) cur s = simpleChunks (cur.reverse ++ s) := by
  have hrev : ∀ {cur : Str}, Uniform b cur → Uniform b cur.reverse := by
    intro cur h
    exact ⟨by simpa using h.1, fun c hc => h.2 c (by simpa using hc)⟩
  induction s generalizing before b cur with
  | nil =>
    rw [simpleChunks_run (hrev hc) (by simp)]
    cases b <;> simp [chunkGo, simpleChunks]
  | cons c r ih =>
    simp only [List.mem_cons, not_or] at hd
    have hcd : c ≠ '-' := fun e => hd.1 e.symm
    have same : ∀ bf, isTwSpace c = b → chunkGo u bf (if b then .ws else .word) (c :: cur) r = simpleChunks (cur.reverse ++ c :: r) := by
      intro bf hb
      rw [ih bf b (c :: cur) ⟨by simp, ?_⟩ hd.2 ?_]
      · simp
      · intro x hx
        rcases List.mem_cons.1 hx with rfl | hx
        · exact hb
        · exact hc.2 x hx
      · intro cur h
        exact ⟨by simpa using h.1, fun c hc => h.2 c (by simpa using hc)⟩
    have diff : isTwSpace c = !b → ∀ bf, cur.reverse :: chunkGo u bf (chunkMode u before (c :: r)) [c] r = simpleChunks (cur.reverse ++ c :: r) := by
      intro hb bf
      rw [simpleChunks_run (hrev hc) (by intro x hx; cases hx; exact hb)]
      congr 1
      rw [chunkMode_nodash u before c r hcd, ih bf (isTwSpace c) [c] ⟨by simp, by simp⟩ hd.2]
      · rfl
      · intro cur h
        exact ⟨by simpa using h.1, fun c hc => h.2 c (by simpa using hc)⟩
    cases b with
    | true =>
      simp only [if_true, chunkGo]
      split
      · rename_i ht; exact same _ ht
      · rename_i ht; exact diff (by simpa using ht) _
    | false =>
      simp only [Bool.false_eq_true, if_false, chunkGo, emDash_none u before (c :: r) (by simpa using hcd), Bool.or_false]
      rw [if_neg (by simp [hcd])]
      split
      · rename_i ht; exact diff (by simpa using ht) _
      · rename_i ht; exact same _ (by simpa using ht)

theorem splitChunks_simple (u : Uni) (o : WrapOpts) (s : Str) (hd : o.breakHyphens = true → '-' ∉ s) :
    splitChunks u o s = simpleChunks s := by
  unfold splitChunks
  split
  · rename_i hb
    have hd := hd hb
    cases s with
    | nil => rfl
    | cons c r =>
      simp only [List.mem_cons, not_or] at hd
      have hcd : c ≠ '-' := fun e => hd.1 e.symm
      rw [chunkGo, chunkMode_nodash u [] c r hcd]
      exact chunkGo_simple u _ (isTwSpace c) [c] r ⟨by simp, by simp⟩ hd.2
  · rfl

/-- What is left of a string is part of it. -/
theorem strips_mem {u : Uni} {s t : Str} (h : Strips u s t) : ∀ c ∈ t, c ∈ s := by
  induction h with
  | nil => simp
  | seq h r ih => intro c hc; exact List.mem_append_right _ (ih c hc)
  | other h r ih =>
    intro c hc
    rcases List.mem_cons.1 hc with rfl | hc
    · simp
    · exact List.mem_cons_of_mem _ (ih c hc)

theorem colouredWord_uniform {u : Uni} {w : Str} (h : ColouredWord u w) : Uniform false w := by
  obtain ⟨⟨t, h1, h2, h3⟩, h4⟩ := h
  refine ⟨?_, h4⟩
  rintro rfl
  cases t with
  | nil => exact h2 (by simp [Blank])
  | cons c t => exact absurd (strips_mem h1 c (by simp)) (by simp)

theorem spaceGap_uniform {g : Str} (h : SpaceGap g) : Uniform true g := h

theorem uniform_head {b : Bool} {p s : Str} (h : Uniform b p) : ∀ c, (p ++ s).head? = some c → isTwSpace c = b := by
  obtain ⟨h1, h2⟩ := h
  cases p with
  | nil => exact absurd rfl h1
  | cons x p => intro c hc; cases hc; exact h2 _ (by simp)

theorem prose_chunks {u : Uni} {ps : List Str} (h : Prose u ps) : simpleChunks ps.flatten = ps := by
  induction h with
  | nil => rfl
  | word h => simpa [simpleChunks] using simpleChunks_run (s := []) (colouredWord_uniform h) (by simp)
  | gap h => simpa [simpleChunks] using simpleChunks_run (s := []) (spaceGap_uniform h) (by simp)
  | wordGap h hg r ih =>
    rw [List.flatten_cons, simpleChunks_run (colouredWord_uniform h), ih]
    rw [List.flatten_cons]
    exact uniform_head (spaceGap_uniform hg)
  | gapWord hg h r ih =>
    rw [List.flatten_cons, simpleChunks_run (spaceGap_uniform hg), ih]
    rw [List.flatten_cons]
    exact uniform_head (colouredWord_uniform h)

theorem prose_mem {u : Uni} {ps : List Str} (h : Prose u ps) : ∀ p ∈ ps, ColouredWord u p ∨ SpaceGap p := by
  induction h with
  | nil => simp
  | word h => simp [h]
  | gap h => simp [h]
  | wordGap h hg r ih =>
    intro p hp
    rcases List.mem_cons.1 hp with rfl | hp
    · exact .inl h
    · exact ih p hp
  | gapWord hg h r ih =>
    intro p hp
    rcases List.mem_cons.1 hp with rfl | hp
    · exact .inr hg
    · exact ih p hp

theorem word_strip {u : Uni} {w : Str} (h : ColouredWord u w) :
    ¬ Blank (stripAnsi u w) ∧ '\x1b' ∉ stripAnsi u w ∧ ∀ c ∈ stripAnsi u w, isTwSpace c = false := by
  obtain ⟨⟨t, h1, h2, h3⟩, h4⟩ := h
  rw [(C23_strip u w t).2 h1]
  exact ⟨h2, h3, fun c hc => h4 c (strips_mem h1 c hc)⟩

theorem colouredWord_strip {u : Uni} {w : Str} (h : ColouredWord u w) : ColouredWord u (stripAnsi u w) := by
  obtain ⟨h1, h2, h3⟩ := word_strip h
  refine ⟨⟨stripAnsi u w, ?_, h1, h2⟩, h3⟩
  rw [← C23_strip]
  exact stripAnsi_noesc u _ h2

theorem gap_strip {u : Uni} {g : Str} (h : SpaceGap g) : stripAnsi u g = g := by
  apply stripAnsi_noesc
  intro he
  exact absurd (h.2 _ he) (by decide)

theorem prose_strip {u : Uni} {ps : List Str} (h : Prose u ps) : Prose u (ps.map (stripAnsi u)) := by
  induction h with
  | nil => exact .nil
  | word h => exact .word (colouredWord_strip h)
  | gap h => exact .gap (by rw [gap_strip h]; exact h)
  | wordGap h hg r ih =>
    exact .wordGap (colouredWord_strip h) (by rw [gap_strip hg]; exact hg) ih
  | gapWord hg h r ih =>
    exact .gapWord (by rw [gap_strip hg]; exact hg) (colouredWord_strip h) ih

/-- What becomes of a piece when whitespace is replaced. -/
def mungePiece (o : WrapOpts) (p : Str) : Str := if o.replaceWs then p.map (fun c => if isTwSpace c then ' ' else c) else p

theorem mungePiece_word {o : WrapOpts} {p : Str} (h : ∀ c ∈ p, isTwSpace c = false) : mungePiece o p = p := by
  unfold mungePiece
  split
  · conv => rhs; rw [← List.map_id p]
    apply List.map_congr_left
    intro c hc
    rw [h c hc]; rfl
  · rfl

theorem mungePiece_gap {o : WrapOpts} {p : Str} (h : SpaceGap p) : SpaceGap (mungePiece o p) := by
  unfold mungePiece
  split
  · refine ⟨by simpa using h.1, fun c hc => ?_⟩
    obtain ⟨x, hx, rfl⟩ := List.mem_map.1 hc
    rw [if_pos (h.2 x hx)]; decide
  · exact h

theorem prose_munge {u : Uni} (o : WrapOpts) {ps : List Str} (h : Prose u ps) : Prose u (ps.map (mungePiece o)) := by
  induction h with
  | nil => exact .nil
  | word h => exact .word (by rw [mungePiece_word h.2]; exact h)
  | gap h => exact .gap (mungePiece_gap h)
  | wordGap h hg r ih => exact .wordGap (by rw [mungePiece_word h.2]; exact h) (mungePiece_gap hg) ih
  | gapWord hg h r ih => exact .gapWord (mungePiece_gap hg) (by rw [mungePiece_word h.2]; exact h) ih

theorem munge_flatten (o : WrapOpts) (ps : List Str) (h : o.expandTabs = true → '\t' ∉ ps.flatten) :
    munge o ps.flatten = (ps.map (mungePiece o)).flatten := by
  have e : (if o.expandTabs then expandtabs o.tabsize ps.flatten else ps.flatten) = ps.flatten := by
    split
    · rename_i he; simp only [expandtabs, expandtabs_simple _ _ (h he)]
    · rfl
  simp only [munge, e]
  split
  · rename_i hr
    have : mungePiece o = List.map (fun c => if isTwSpace c then ' ' else c) := by funext p; simp [mungePiece, hr]
    rw [List.map_flatten, this]
  · rename_i hr
    have : mungePiece o = id := by funext p; simp [mungePiece, hr]
    rw [this, List.map_id]

theorem mungePiece_strip {u : Uni} (o : WrapOpts) {p : Str} (h : ColouredWord u p ∨ SpaceGap p) :
    mungePiece o (stripAnsi u p) = stripAnsi u (mungePiece o p) := by
  rcases h with h | h
  · rw [mungePiece_word h.2, mungePiece_word (word_strip h).2.2]
  · rw [gap_strip h, gap_strip (mungePiece_gap h)]

theorem mungePiece_mem {o : WrapOpts} {p : Str} {c : Char} (h : c ∈ mungePiece o p) : c = ' ' ∨ c ∈ p := by
  unfold mungePiece at h
  split at h
  · obtain ⟨x, hx, rfl⟩ := List.mem_map.1 h
    split
    · exact .inl rfl
    · exact .inr hx
  · exact .inr h

end Verif
