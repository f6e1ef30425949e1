import Verif.Model.Tokenizer

/-!
# The tokenizer makes progress
-/

namespace Verif

theorem dropWhile_len {α} (p : α → Bool) (l : List α) : (l.dropWhile p).length ≤ l.length := by
  induction l with
  | nil => simp
  | cons a l ih => rw [List.dropWhile_cons]; split <;> simp <;> omega

theorem takeDrop_len {α} (p : α → Bool) (l : List α) :
    (l.takeWhile p).length + (l.dropWhile p).length = l.length := by
  rw [← List.length_append, List.takeWhile_append_dropWhile]

theorem skipSep_len (p : Char) (s : Str) : (skipSep p s).2.length ≤ s.length := by
  induction s generalizing p with
  | nil => simp [skipSep]
  | cons c r ih =>
    rw [skipSep]
    split
    · have := ih c; simp; omega
    · split
      · have := ih c; simp; omega
      · simp

theorem skipSlash_len (p : Char) (s : Str) : (skipSlash p s).2.length ≤ s.length := by
  induction s generalizing p with
  | nil => simp [skipSlash]
  | cons c r ih =>
    rw [skipSlash]
    split
    · have := ih c; simp; omega
    · simp

theorem quotedVal_len {q : Char} {s v t : Str} (h : quotedVal q s = some (v, t)) : t.length < s.length := by
  induction s generalizing v with
  | nil => simp [quotedVal] at h
  | cons c r ih =>
    rw [quotedVal] at h
    split at h
    · cases h; simp
    · cases e : quotedVal q r with
      | none => rw [e] at h; simp at h
      | some x =>
        rw [e] at h
        simp only [Option.map_some, Option.some.injEq, Prod.mk.injEq] at h
        have := ih (v := x.1) (by rw [e, ← h.2])
        simp; omega

theorem bareValue_len (s : Str) : (bareValue s).2.2.length ≤ s.length := dropWhile_len _ _

theorem attrValue_len {s v t : Str} {p : Char} (h : attrValue s = some (v, p, t)) : t.length ≤ s.length := by
  simp only [attrValue] at h
  have h1 := dropWhile_len isSpace s
  have h2 := takeDrop_len (· == '=') (s.dropWhile isSpace)
  have h3 := dropWhile_len isSpace ((s.dropWhile isSpace).dropWhile (· == '='))
  revert h
  generalize (s.dropWhile isSpace).takeWhile (· == '=') = eqs at *
  generalize (s.dropWhile isSpace).dropWhile (· == '=') = s2 at *
  generalize s2.dropWhile isSpace = s3 at *
  intro h
  split at h
  · cases h
  · split at h
    · cases h; simp
    · split at h
      · split at h
        · rename_i e
          cases h
          have := quotedVal_len e
          simp at h3; omega
        · split at h
          · cases h; omega
          · split at h
            · simp only [Option.some.injEq] at h
              have := bareValue_len ('=' :: (‹Char› :: ‹Str›))
              rw [h] at this
              simp at this h3 ⊢
              omega
            · cases h
      · simp only [Option.some.injEq] at h
        have := bareValue_len (‹Char› :: ‹Str›)
        rw [h] at this
        simp only at this
        omega

theorem attrAt_len {p q : Char} {s t : Str} {a : Str × Option Str} (h : attrAt p s = some (a, q, t)) :
    t.length < s.length := by
  cases s with
  | nil => simp [attrAt] at h
  | cons c r =>
    rw [attrAt] at h
    have h1 := dropWhile_len isAttrChar r
    split at h
    · simp only at h
      split at h
      · rename_i v q' t' e
        simp only [Option.some.injEq, Prod.mk.injEq] at h
        have h2 := attrValue_len e
        have h3 := skipSep_len q' t'
        rw [h.2] at h3
        simp at h3 ⊢; omega
      · simp only [Option.some.injEq, Prod.mk.injEq] at h
        have h3 := skipSep_len ((c :: r.takeWhile isAttrChar).getLast?.getD c) (r.dropWhile isAttrChar)
        rw [h.2] at h3
        simp at h3 ⊢; omega
    · cases h

theorem attrLoop_len (stop f : Nat) (p : Char) (s : Str) : (attrLoop stop f p s).2.length ≤ s.length := by
  induction f generalizing p s with
  | zero => simp [attrLoop]
  | succ f ih =>
    rw [attrLoop]
    split
    · simp
    · split
      · simp
      · rename_i a q t e
        have := attrAt_len e
        have := ih q t
        simp; omega

theorem locateEnd_len (s : Str) : (locateEnd s).length ≤ s.length := by
  simp only [locateEnd]
  refine Nat.le_trans (dropWhile_len _ _) (Nat.le_trans (attrLoop_len _ _ _ _) (Nat.le_trans (skipSlash_len _ _) ?_))
  simp

theorem wholeStartTag_len {s t : Str} (h : wholeStartTag s = some t) : t.length ≤ s.length := by
  have h1 := locateEnd_len s
  rw [wholeStartTag] at h
  split at h
  · rename_i e; cases h; rw [e] at h1; simp at h1; omega
  · rename_i e; cases h; rw [e] at h1; simp at h1; omega
  · cases h
  · cases h
  · rename_i e
    split at h
    · cases h
    · cases h; rw [e] at h1; exact h1

theorem parseStart_rest {u : Uni} {cd : Option Str} {s : Str} {p : Piece1} (h : parseStart u cd s = some p) :
    p.rest.length ≤ s.length := by
  simp only [parseStart, Option.map_eq_some_iff] at h
  obtain ⟨t, h1, h2⟩ := h
  have := wholeStartTag_len h1
  have e : p.rest = t := by
    rw [← h2]
    split
    · rfl
    · split <;> rfl
  rw [e]; exact this

theorem afterGt_len {s t : Str} (h : afterGt s = some t) : t.length < s.length := by
  induction s with
  | nil => simp [afterGt] at h
  | cons c r ih =>
    rw [afterGt] at h
    split at h
    · cases h; simp
    · have := ih h; simp; omega

theorem parseEnd_rest {u : Uni} {cd : Option Str} {s : Str} {p : Piece1} (h : parseEnd u cd s = some p) :
    p.rest.length < s.length := by
  simp only [parseEnd, Option.map_eq_some_iff] at h
  obtain ⟨t, h1, h2⟩ := h
  have := afterGt_len h1
  have e : p.rest = t := by
    rw [← h2]
    split
    · split
      · rfl
      · split <;> rfl
    · split
      · split <;> rfl
      · rfl
  rw [e]; exact this

theorem commentCloseAt_len {s t : Str} (h : commentCloseAt s = some t) : t.length ≤ s.length := by
  rw [commentCloseAt.eq_def] at h
  split at h
  · rename_i r
    have := dropWhile_len isSpace r
    split at h
    · rename_i e; cases h; rw [e] at this; simp at this ⊢; omega
    · cases h
  · cases h

theorem msCloseAt_len {s t : Str} (h : msCloseAt s = some t) : t.length ≤ s.length := by
  rw [msCloseAt.eq_def] at h
  split at h
  · rename_i r
    have := dropWhile_len isSpace r
    split at h
    · rename_i e; cases h; rw [e] at this; simp at this ⊢; omega
    · cases h
  · cases h

theorem sectionCloseAt_len {s t : Str} (h : sectionCloseAt s = some t) : t.length ≤ s.length := by
  rw [sectionCloseAt.eq_def] at h
  split at h
  · rename_i r
    have := dropWhile_len isSpace r
    have := msCloseAt_len h
    simp; omega
  · cases h

theorem searchFor_len {f : Str → Option Str} (hf : ∀ s t, f s = some t → t.length ≤ s.length) {s t : Str}
    (h : searchFor f s = some t) : t.length ≤ s.length := by
  induction s with
  | nil => exact hf _ _ h
  | cons c r ih =>
    rw [searchFor] at h
    split at h
    · rename_i e; cases h; exact hf _ _ e
    · have := ih h; simp; omega

theorem markedSection_len {s t : Str} (h : markedSection s = .ok (some t)) : t.length ≤ s.length := by
  simp only [markedSection, bind, Except.bind, pure, Except.pure] at h
  split at h
  · cases h
  · split at h
    · cases h
    · split at h
      · simp only [Except.ok.injEq] at h
        exact searchFor_len (fun _ _ => sectionCloseAt_len) h
      · split at h
        · simp only [Except.ok.injEq] at h
          exact searchFor_len (fun _ _ => msCloseAt_len) h
        · cases h

theorem parseMarkup_rest {u : Uni} {fin : Bool} {cd : Option Str} {r : Str} {p : Piece1}
    (h : parseMarkup u fin cd r = .ok (some p)) : p.rest.length ≤ r.length := by
  simp only [parseMarkup] at h
  split at h
  · simp only [Except.ok.injEq] at h
    have := parseEnd_rest h; simp; omega
  · simp only [Except.ok.injEq, Option.map_eq_some_iff] at h
    obtain ⟨t, h1, h2⟩ := h
    have := searchFor_len (fun _ _ => commentCloseAt_len) h1
    rw [← h2]; simp; omega
  · simp only [Except.ok.injEq, Option.map_eq_some_iff] at h
    obtain ⟨t, h1, h2⟩ := h
    have := afterGt_len h1
    rw [← h2]; simp; omega
  · rename_i s
    cases e : markedSection s with
    | error x => rw [e] at h; cases h
    | ok o =>
      rw [e] at h
      simp only [Except.map, Except.ok.injEq, Option.map_eq_some_iff] at h
      obtain ⟨t, h1, h2⟩ := h
      subst h1
      have := markedSection_len e
      rw [← h2]; simp; omega
  · simp only [Except.ok.injEq, Option.map_eq_some_iff] at h
    obtain ⟨t, h1, h2⟩ := h
    have := afterGt_len h1
    rw [← h2]; simp; omega
  · split at h
    · cases h; simp
    · cases h
  · split at h
    · simp only [Except.ok.injEq] at h
      exact parseStart_rest h
    · simp only [Except.ok.injEq, Option.some.injEq] at h
      rw [← h]
      exact Nat.le_refl _

theorem cdataText_eq {e s a b : Str} (h : cdataText e s = some (a, b)) : s = a ++ b := by
  induction s generalizing a with
  | nil => simp [cdataText] at h
  | cons c r ih =>
    rw [cdataText] at h
    split at h
    · cases h; rfl
    · simp only [Option.map_eq_some_iff] at h
      obtain ⟨x, h1, h2⟩ := h
      cases h2
      rw [ih (a := x.1) h1]; rfl

theorem nextText_len {u : Uni} {s : TokState} {es : List Event} {rest : Str} (h : nextText u s = some (es, rest)) :
    rest.length ≤ s.raw.length := by
  simp only [nextText] at h
  split at h
  · split at h
    · cases h
    · cases h; exact dropWhile_len _ _
  · simp only [Option.map_eq_some_iff] at h
    obtain ⟨x, h1, h2⟩ := h
    cases h2
    have := cdataText_eq (a := x.1) (b := x.2) h1
    rw [this]; simp

/-- More fuel than characters makes no difference. -/
theorem goahead_fuel (u : Uni) (fin : Bool) (f g : Nat) (s : TokState) (h : s.raw.length < f) (h' : s.raw.length < g) :
    goahead u fin f s = goahead u fin g s := by
  induction f generalizing s g with
  | zero => omega
  | succ f ih =>
    cases g with
    | zero => omega
    | succ g =>
      simp only [goahead]
      split
      · rfl
      · split
        · rfl
        · rename_i es rest e
          have hl := nextText_len e
          congr 1
          split
          · rfl
          · rename_i r
            split
            · rfl
            · rename_i p e'
              have h1 := parseMarkup_rest e'
              simp at hl
              rw [ih g ⟨p.rest, p.cdata⟩ (by simp; omega) (by simp; omega)]
            · rfl

/-- The loop with enough fuel. -/
def tokRun (u : Uni) (fin : Bool) (s : TokState) : List Event × Py TokState := goahead u fin (s.raw.length + 1) s

theorem tokFeed_eq (u : Uni) (s : TokState) (text : Str) :
    tokFeed u s text = tokRun u false { s with raw := s.raw ++ text } :=
  goahead_fuel _ _ _ _ _ (by simp) (by simp)

theorem tokClose_eq (u : Uni) (s : TokState) : tokClose u s = tokRun u true s := rfl

theorem tokRun_nil (u : Uni) (fin : Bool) (s : TokState) (h : s.raw = []) : tokRun u fin s = ([], .ok s) := by
  simp [tokRun, goahead, h, finishTok]

/-- The loop waits for more text. -/
theorem tokRun_wait (u : Uni) (fin : Bool) (s : TokState) (h : nextText u s = none) :
    tokRun u fin s = finishTok u fin s := by
  simp only [tokRun, goahead, h]
  split <;> rfl

theorem tokRun_end (u : Uni) (fin : Bool) (s : TokState) (es : List Event) (hr : s.raw ≠ [])
    (h : nextText u s = some (es, [])) : tokRun u fin s = (es, .ok { s with raw := [] }) := by
  simp [tokRun, goahead, h, hr, emit, finishTok]

theorem tokRun_markup (u : Uni) (fin : Bool) (s : TokState) (es : List Event) (c : Char) (r : Str) (p : Piece1)
    (h : nextText u s = some (es, c :: r)) (hp : parseMarkup u fin s.cdata r = .ok (some p)) :
    tokRun u fin s = emit es (emit p.events (tokRun u fin ⟨p.rest, p.cdata⟩)) := by
  have hl := nextText_len h
  have h1 := parseMarkup_rest hp
  have hr : s.raw ≠ [] := by intro e; rw [e] at hl; simp at hl
  simp at hl
  rw [tokRun, goahead]
  simp only [h, hp, hr, if_false]
  rw [goahead_fuel u fin s.raw.length (p.rest.length + 1) ⟨p.rest, p.cdata⟩ (by simp; omega) (by simp)]
  rfl

/-- Incomplete markup is kept for later. -/
theorem tokRun_keep (u : Uni) (s : TokState) (es : List Event) (c : Char) (r : Str)
    (h : nextText u s = some (es, c :: r)) (hp : parseMarkup u false s.cdata r = .ok none) :
    tokRun u false s = (es, .ok { s with raw := c :: r }) := by
  have hl := nextText_len h
  have hr : s.raw ≠ [] := by intro e; rw [e] at hl; simp at hl
  rw [tokRun, goahead]
  simp [h, hp, hr, finishTok, emit]

end Verif
