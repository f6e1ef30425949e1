import Verif.Proofs.Tokenizer

/-!
# How the tokenizer ends
-/

namespace Verif

theorem suffix_cons_of {α} {a b : List α} {c : α} (h : a <:+ b) : a <:+ c :: b := h.trans (List.suffix_cons _ _)

theorem skipSep_suffix (p : Char) (s : Str) : (skipSep p s).2 <:+ s := by
  induction s generalizing p with
  | nil => simp [skipSep]
  | cons c r ih =>
    rw [skipSep]
    split
    · exact suffix_cons_of (ih c)
    · split
      · exact suffix_cons_of (ih c)
      · exact List.suffix_refl _

theorem skipSlash_suffix (p : Char) (s : Str) : (skipSlash p s).2 <:+ s := by
  induction s generalizing p with
  | nil => simp [skipSlash]
  | cons c r ih =>
    rw [skipSlash]
    split
    · exact suffix_cons_of (ih c)
    · exact List.suffix_refl _

theorem quotedVal_suffix {q : Char} {s v t : Str} (h : quotedVal q s = some (v, t)) : t <:+ s := by
  induction s generalizing v with
  | nil => simp [quotedVal] at h
  | cons c r ih =>
    rw [quotedVal] at h
    split at h
    · cases h; exact List.suffix_cons _ _
    · cases e : quotedVal q r with
      | none => rw [e] at h; simp at h
      | some x =>
        rw [e] at h
        simp only [Option.map_some, Option.some.injEq, Prod.mk.injEq] at h
        exact suffix_cons_of (ih (v := x.1) (by rw [e, ← h.2]))

theorem bareValue_suffix (s : Str) : (bareValue s).2.2 <:+ s := List.dropWhile_suffix _

theorem attrValue_suffix {s v t : Str} {p : Char} (h : attrValue s = some (v, p, t)) : t <:+ s := by
  simp only [attrValue] at h
  have h1 := List.dropWhile_suffix isSpace (l := s)
  have h2 := List.dropWhile_suffix (· == '=') (l := s.dropWhile isSpace)
  have h3 := List.dropWhile_suffix isSpace (l := (s.dropWhile isSpace).dropWhile (· == '='))
  have h4 : (s.dropWhile isSpace).takeWhile (· == '=') ++ (s.dropWhile isSpace).dropWhile (· == '=') = s.dropWhile isSpace :=
    List.takeWhile_append_dropWhile
  revert h
  generalize (s.dropWhile isSpace).takeWhile (· == '=') = eqs at *
  generalize (s.dropWhile isSpace).dropWhile (· == '=') = s2 at *
  generalize s2.dropWhile isSpace = s3 at *
  have h0 : s3 <:+ s := (h3.trans h2).trans h1
  intro h
  split at h
  · cases h
  · split at h
    · cases h; exact List.nil_suffix
    · split at h
      · split at h
        · rename_i e
          cases h
          exact ((quotedVal_suffix e).trans (List.suffix_cons _ _)).trans h0
        · split at h
          · cases h; exact h0
          · split at h
            · simp only [Option.some.injEq] at h
              have : (bareValue ('=' :: (‹Char› :: ‹Str›))).2.2 <:+ (‹Char› :: ‹Str› : Str) := by
                simp only [bareValue]
                rw [List.dropWhile_cons, if_pos (by decide)]
                exact List.dropWhile_suffix _
              rw [h] at this
              exact this.trans h0
            · cases h
      · simp only [Option.some.injEq] at h
        have := bareValue_suffix (‹Char› :: ‹Str›)
        rw [h] at this
        exact this.trans h0

theorem attrAt_suffix {p q : Char} {s t : Str} {a : Str × Option Str} (h : attrAt p s = some (a, q, t)) : t <:+ s := by
  cases s with
  | nil => simp [attrAt] at h
  | cons c r =>
    rw [attrAt] at h
    have h1 : r.dropWhile isAttrChar <:+ c :: r := suffix_cons_of (List.dropWhile_suffix _)
    split at h
    · simp only at h
      split at h
      · rename_i v q' t' e
        simp only [Option.some.injEq, Prod.mk.injEq] at h
        have h3 := skipSep_suffix q' t'
        rw [h.2] at h3
        exact (h3.trans (attrValue_suffix e)).trans h1
      · simp only [Option.some.injEq, Prod.mk.injEq] at h
        have h3 := skipSep_suffix ((c :: r.takeWhile isAttrChar).getLast?.getD c) (r.dropWhile isAttrChar)
        rw [h.2] at h3
        exact h3.trans h1
    · cases h

theorem attrLoop_suffix (stop f : Nat) (p : Char) (s : Str) : (attrLoop stop f p s).2 <:+ s := by
  induction f generalizing p s with
  | zero => exact List.suffix_refl _
  | succ f ih =>
    rw [attrLoop]
    split
    · exact List.suffix_refl _
    · split
      · exact List.suffix_refl _
      · rename_i a q t e
        exact (ih q t).trans (attrAt_suffix e)

theorem locateEnd_suffix (s : Str) : locateEnd s <:+ s := by
  simp only [locateEnd]
  exact ((List.dropWhile_suffix _).trans (attrLoop_suffix _ _ _ _)).trans ((skipSlash_suffix _ _).trans (List.drop_suffix _ _))

theorem wholeStartTag_suffix {s t : Str} (h : wholeStartTag s = some t) : t <:+ s := by
  have h1 := locateEnd_suffix s
  rw [wholeStartTag] at h
  split at h
  · rename_i e; cases h; rw [e] at h1; exact (List.suffix_cons _ _).trans h1
  · rename_i e; cases h; rw [e] at h1; exact (suffix_cons_of (List.suffix_cons _ _)).trans h1
  · cases h
  · cases h
  · rename_i e
    split at h
    · cases h
    · cases h; rw [e] at h1; exact h1

theorem parseStart_suffix {u : Uni} {cd : Option Str} {s : Str} {p : Piece1} (h : parseStart u cd s = some p) : p.rest <:+ s := by
  simp only [parseStart, Option.map_eq_some_iff] at h
  obtain ⟨t, h1, h2⟩ := h
  have e : p.rest = t := by
    rw [← h2]
    split
    · rfl
    · split <;> rfl
  rw [e]; exact wholeStartTag_suffix h1

theorem afterGt_suffix {s t : Str} (h : afterGt s = some t) : t <:+ s := by
  induction s with
  | nil => simp [afterGt] at h
  | cons c r ih =>
    rw [afterGt] at h
    split at h
    · cases h; exact List.suffix_cons _ _
    · exact suffix_cons_of (ih h)

theorem parseEnd_suffix {u : Uni} {cd : Option Str} {s : Str} {p : Piece1} (h : parseEnd u cd s = some p) : p.rest <:+ s := by
  simp only [parseEnd, Option.map_eq_some_iff] at h
  obtain ⟨t, h1, h2⟩ := h
  have e : p.rest = t := by
    rw [← h2]
    split
    · split
      · rfl
      · split <;> rfl
    · split
      · split <;> rfl
      · rfl
  rw [e]; exact afterGt_suffix h1

theorem commentCloseAt_suffix {s t : Str} (h : commentCloseAt s = some t) : t <:+ s := by
  rw [commentCloseAt.eq_def] at h
  split at h
  · rename_i r
    have := List.dropWhile_suffix isSpace (l := r)
    split at h
    · rename_i e; cases h; rw [e] at this
      exact suffix_cons_of (suffix_cons_of ((List.suffix_cons _ _).trans this))
    · cases h
  · cases h

theorem msCloseAt_suffix {s t : Str} (h : msCloseAt s = some t) : t <:+ s := by
  rw [msCloseAt.eq_def] at h
  split at h
  · rename_i r
    have := List.dropWhile_suffix isSpace (l := r)
    split at h
    · rename_i e; cases h; rw [e] at this
      exact suffix_cons_of ((List.suffix_cons _ _).trans this)
    · cases h
  · cases h

theorem sectionCloseAt_suffix {s t : Str} (h : sectionCloseAt s = some t) : t <:+ s := by
  rw [sectionCloseAt.eq_def] at h
  split at h
  · exact suffix_cons_of ((msCloseAt_suffix h).trans (List.dropWhile_suffix _))
  · cases h

theorem searchFor_suffix {f : Str → Option Str} (hf : ∀ s t, f s = some t → t <:+ s) {s t : Str}
    (h : searchFor f s = some t) : t <:+ s := by
  induction s with
  | nil => exact hf _ _ h
  | cons c r ih =>
    rw [searchFor] at h
    split at h
    · rename_i e; cases h; exact hf _ _ e
    · exact suffix_cons_of (ih h)

theorem markedSection_suffix {s t : Str} (h : markedSection s = .ok (some t)) : t <:+ s := by
  simp only [markedSection, bind, Except.bind, pure, Except.pure] at h
  split at h
  · cases h
  · split at h
    · cases h
    · split at h
      · simp only [Except.ok.injEq] at h
        exact searchFor_suffix (fun _ _ => sectionCloseAt_suffix) h
      · split at h
        · simp only [Except.ok.injEq] at h
          exact searchFor_suffix (fun _ _ => msCloseAt_suffix) h
        · cases h

theorem markedSection_error {s : Str} {e : PyErr} (h : markedSection s = .error e) : e = .assertionError := by
  simp only [markedSection, bind, Except.bind, pure, Except.pure] at h
  split at h
  · rename_i e' he
    cases h
    rw [scanName.eq_def] at he
    split at he
    · cases he
    · split at he
      · split at he <;> cases he
      · cases he; rfl
  · split at h
    · cases h
    · split at h
      · cases h
      · split at h
        · cases h
        · cases h; rfl

theorem parseMarkup_suffix {u : Uni} {fin : Bool} {cd : Option Str} {r : Str} {p : Piece1}
    (h : parseMarkup u fin cd r = .ok (some p)) : p.rest <:+ r := by
  simp only [parseMarkup] at h
  split at h
  · simp only [Except.ok.injEq] at h
    exact suffix_cons_of (parseEnd_suffix h)
  · simp only [Except.ok.injEq, Option.map_eq_some_iff] at h
    obtain ⟨t, h1, h2⟩ := h
    rw [← h2]
    exact suffix_cons_of (suffix_cons_of (suffix_cons_of (searchFor_suffix (fun _ _ => commentCloseAt_suffix) h1)))
  · simp only [Except.ok.injEq, Option.map_eq_some_iff] at h
    obtain ⟨t, h1, h2⟩ := h
    rw [← h2]
    exact suffix_cons_of (afterGt_suffix h1)
  · rename_i s
    cases e : markedSection s with
    | error x => rw [e] at h; cases h
    | ok o =>
      rw [e] at h
      simp only [Except.map, Except.ok.injEq, Option.map_eq_some_iff] at h
      obtain ⟨t, h1, h2⟩ := h
      subst h1
      rw [← h2]
      exact suffix_cons_of (suffix_cons_of (markedSection_suffix e))
  · simp only [Except.ok.injEq, Option.map_eq_some_iff] at h
    obtain ⟨t, h1, h2⟩ := h
    rw [← h2]
    exact suffix_cons_of (afterGt_suffix h1)
  · split at h
    · cases h; exact List.suffix_refl _
    · cases h
  · split at h
    · simp only [Except.ok.injEq] at h
      exact parseStart_suffix h
    · simp only [Except.ok.injEq, Option.some.injEq] at h
      rw [← h]
      exact List.suffix_refl _

/-- The only exception is raised for marked sections. -/
theorem parseMarkup_error {u : Uni} {fin : Bool} {cd : Option Str} {r : Str} {e : PyErr}
    (h : parseMarkup u fin cd r = .error e) : e = .assertionError ∧ ∃ t, r = '!' :: '[' :: t := by
  simp only [parseMarkup] at h
  split at h
  · cases h
  · cases h
  · cases h
  · rename_i s
    cases hm : markedSection s with
    | ok o => rw [hm] at h; cases h
    | error x =>
      rw [hm] at h
      cases h
      exact ⟨markedSection_error hm, s, rfl⟩
  · cases h
  · cases h
  · split at h <;> cases h

theorem cdataText_end {e s a b : Str} (h : cdataText e s = some (a, b)) : cdataEndAt e b = true := by
  induction s generalizing a with
  | nil => simp [cdataText] at h
  | cons c r ih =>
    rw [cdataText] at h
    split at h
    · cases h; assumption
    · simp only [Option.map_eq_some_iff] at h
      obtain ⟨x, h1, h2⟩ := h
      cases h2
      exact ih (a := x.1) h1

theorem nextText_suffix {u : Uni} {s : TokState} {es : List Event} {rest : Str} (h : nextText u s = some (es, rest)) :
    rest <:+ s.raw ∧ (rest = [] ∨ ∃ r, rest = '<' :: r) := by
  simp only [nextText] at h
  split at h
  · split at h
    · cases h
    · cases h
      refine ⟨List.dropWhile_suffix _, ?_⟩
      cases he : s.raw.dropWhile (· != '<') with
      | nil => exact .inl rfl
      | cons c r =>
        have := List.head?_dropWhile_not (p := (· != '<')) (l := s.raw)
        rw [he] at this
        simp only [List.head?_cons] at this
        right
        exact ⟨r, by simpa using this⟩
  · simp only [Option.map_eq_some_iff] at h
    obtain ⟨x, h1, h2⟩ := h
    cases h2
    refine ⟨?_, ?_⟩
    · have := cdataText_eq (a := x.1) (b := x.2) h1
      rw [this]; exact List.suffix_append _ _
    · have := cdataText_end (a := x.1) (b := x.2) h1
      rw [cdataEndAt.eq_def] at this
      split at this
      · rename_i r e; exact .inr ⟨'/' :: r, e⟩
      · cases this

theorem finishTok_ok (u : Uni) (fin : Bool) (s : TokState) : ∃ s', (finishTok u fin s).2 = .ok s' ∧ s'.raw <:+ s.raw := by
  rw [finishTok]
  split
  · exact ⟨_, rfl, List.nil_suffix⟩
  · exact ⟨_, rfl, List.suffix_refl _⟩

/-- The tokenizer ends; if it does not end with an exception, what it keeps is the end of the text, and if it does, the
text contains a marked section. -/
theorem goahead_end (u : Uni) (fin : Bool) (f : Nat) (s : TokState) (h : s.raw.length < f) :
    (∃ s', (goahead u fin f s).2 = .ok s' ∧ s'.raw <:+ s.raw) ∨
    ((goahead u fin f s).2 = .error .assertionError ∧ py"<![" <:+: s.raw) := by
  induction f generalizing s with
  | zero => omega
  | succ f ih =>
    simp only [goahead]
    split
    · exact .inl (finishTok_ok u fin s)
    · split
      · exact .inl (finishTok_ok u fin s)
      · rename_i es rest e
        obtain ⟨hs, hr⟩ := nextText_suffix e
        simp only [emit]
        split
        · obtain ⟨s', h1, h2⟩ := finishTok_ok u fin { s with raw := [] }
          exact .inl ⟨s', h1, h2.trans List.nil_suffix⟩
        · rename_i c r
          have hc : c = '<' := by
            rcases hr with hr | ⟨k, hr⟩
            · cases hr
            · cases hr; rfl
          subst hc
          split
          · rename_i x he
            obtain ⟨hx, t, ht⟩ := parseMarkup_error he
            subst hx ht
            exact .inr ⟨rfl, (List.IsPrefix.isInfix ⟨t, rfl⟩ : py"<![" <:+: '<' :: '!' :: '[' :: t).trans hs.isInfix⟩
          · rename_i p he
            have h1 := parseMarkup_suffix he
            have h2 : p.rest <:+ s.raw := (suffix_cons_of h1).trans hs
            have h3 := h1.length_le
            have h4 := hs.length_le
            simp only [List.length_cons] at h4
            rcases ih ⟨p.rest, p.cdata⟩ (by simp; omega) with ⟨s', g1, g2⟩ | ⟨g1, g2⟩
            · exact .inl ⟨s', g1, g2.trans h2⟩
            · exact .inr ⟨g1, g2.trans h2.isInfix⟩
          · split
            · obtain ⟨s', h1, h2⟩ := finishTok_ok u fin { s with raw := [] }
              exact .inl ⟨s', h1, h2.trans List.nil_suffix⟩
            · obtain ⟨s', h1, h2⟩ := finishTok_ok u fin { s with raw := '<' :: r }
              exact .inl ⟨s', h1, h2.trans hs⟩

theorem tokPieces_end (u : Uni) (ps : List Str) (s : TokState) :
    (∃ s', (tokPieces u s ps).2 = .ok s') ∨
    ((tokPieces u s ps).2 = .error .assertionError ∧ py"<![" <:+: s.raw ++ ps.flatten) := by
  induction ps generalizing s with
  | nil =>
    rcases goahead_end u true (s.raw.length + 1) s (by omega) with ⟨s', h, _⟩ | ⟨h, h'⟩
    · exact .inl ⟨s', h⟩
    · exact .inr ⟨h, by simpa using h'⟩
  | cons p ps ih =>
    have hg := goahead_end u false (s.raw.length + p.length + 1) { s with raw := s.raw ++ p } (by simp)
    rw [tokPieces]
    cases e : tokFeed u s p with
    | mk es r =>
      rw [tokFeed] at e
      rw [e] at hg
      simp only at hg
      rcases hg with ⟨s', h1, h2⟩ | ⟨h1, h2⟩
      · subst h1
        simp only [emit]
        rcases ih s' with ⟨s2, h⟩ | ⟨h, h'⟩
        · exact .inl ⟨s2, h⟩
        · refine .inr ⟨h, h'.trans ?_⟩
          obtain ⟨k, hk⟩ := h2
          rw [List.flatten_cons, ← List.append_assoc, ← hk, List.append_assoc]
          exact (List.suffix_append _ _).isInfix
      · subst h1
        refine .inr ⟨rfl, h2.trans ?_⟩
        rw [List.flatten_cons, ← List.append_assoc]
        exact (List.prefix_append _ _).isInfix

end Verif
