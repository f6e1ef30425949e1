import Verif.Proofs.SourceTags

/-!
# Reading whole documents
-/

namespace Verif

open Spec

theorem alpha_of {c : Char} (h : ('a' ≤ c ∧ c ≤ 'z') ∨ ('A' ≤ c ∧ c ≤ 'Z')) : isAsciiAlpha c = true := by
  rcases h with h | h <;> simp [isAsciiAlpha, h]

theorem alpha_ne {c : Char} (h : ('a' ≤ c ∧ c ≤ 'z') ∨ ('A' ≤ c ∧ c ≤ 'Z')) (d : Char)
    (hd : ¬(('a' ≤ d ∧ d ≤ 'z') ∨ ('A' ≤ d ∧ d ≤ 'Z'))) : c ≠ d := by
  rintro rfl; exact hd h

theorem alpha_space {c : Char} (h : ('a' ≤ c ∧ c ≤ 'z') ∨ ('A' ≤ c ∧ c ≤ 'Z')) : isSpace c = false := by
  have hn : c.toNat < 128 ∧ 64 < c.toNat := by
    rcases h with ⟨h1, h2⟩ | ⟨h1, h2⟩
    · have h1 : 'a'.toNat ≤ c.toNat := h1
      have h2 : c.toNat ≤ 'z'.toNat := h2
      have : 'a'.toNat = 97 := rfl
      have : 'z'.toNat = 122 := rfl
      omega
    · have h1 : 'A'.toNat ≤ c.toNat := h1
      have h2 : c.toNat ≤ 'Z'.toNat := h2
      have : 'A'.toNat = 65 := rfl
      have : 'Z'.toNat = 90 := rfl
      omega
  have hf : ∀ n < 128, 64 < n → isSpace (Char.ofNat n) = false := by decide
  have := hf c.toNat hn.1 hn.2
  rwa [Char.ofNat_toNat] at this

theorem parseMarkup_alpha (u : Uni) (fin : Bool) (cd : Option Str) {c : Char} (s : Str)
    (h : ('a' ≤ c ∧ c ≤ 'z') ∨ ('A' ≤ c ∧ c ≤ 'Z')) :
    parseMarkup u fin cd (c :: s) = .ok (parseStart u cd (c :: s)) := by
  have h1 := alpha_ne h '/' (by decide)
  have h2 := alpha_ne h '!' (by decide)
  have h3 := alpha_ne h '?' (by decide)
  simp [parseMarkup, h1, h2, h3, alpha_of h]

theorem parseMarkup_tag (u : Uni) (fin : Bool) (cd : Option Str) {tag : Str} (s : Str) (h : TagName tag) :
    parseMarkup u fin cd (tag ++ s) = .ok (parseStart u cd (tag ++ s)) := by
  obtain ⟨c, r, rfl, hc, _⟩ := h
  exact parseMarkup_alpha u fin cd (r ++ s) hc

/-! ## End tags -/

theorem afterGt_append {a t : Str} (h : '>' ∉ a) : afterGt (a ++ '>' :: t) = some t := by
  induction a with
  | nil => simp [afterGt]
  | cons c a ih =>
    simp only [List.mem_cons, not_or] at h
    rw [List.cons_append, afterGt, if_neg (fun e => h.1 e.symm), ih h.2]

theorem afterGt_none {a : Str} (h : '>' ∉ a) : afterGt a = none := by
  induction a with
  | nil => rfl
  | cons c a ih =>
    simp only [List.mem_cons, not_or] at h
    rw [afterGt, if_neg (fun e => h.1 e.symm), ih h.2]

theorem blank_no_gt {gap : Str} (hg : ∀ c ∈ gap, HtmlBlank c) : '>' ∉ gap := by
  intro h
  rcases hg _ h with h | h | h | h | h <;> cases h

theorem tag_no_gt {tag : Str} (h : TagName tag) : '>' ∉ tag := by
  obtain ⟨c, r, rfl, hc, hr⟩ := h
  intro hm
  rcases List.mem_cons.1 hm with rfl | hm
  · revert hc; decide
  · exact (hr _ hm).2.2.1 rfl

/-- The name of an end tag, by either of the two ways. -/
theorem endTag_name {tag : Str} (h : TagName tag) {gap : Str} (hg : ∀ c ∈ gap, HtmlBlank c) (t : Str) :
    (endTagName (tag ++ (gap ++ '>' :: t)) = some tag) ∨
    (endTagName (tag ++ (gap ++ '>' :: t)) = none ∧ (tag ++ (gap ++ '>' :: t)).head?.any isAsciiAlpha = true ∧
      (tag ++ (gap ++ '>' :: t)).takeWhile (fun c => !endsTagName c) = tag) := by
  have hscan := tag_scan h (blank_head hg (.inr ⟨'>', t, rfl, by decide⟩))
  obtain ⟨c, r, rfl, hc, hr⟩ := h
  have ha := alpha_of hc
  have hsp := alpha_space hc
  have e1 : (c :: r ++ (gap ++ '>' :: t)).dropWhile isSpace = c :: (r ++ (gap ++ '>' :: t)) := by
    rw [List.cons_append, List.dropWhile_cons, if_neg (by simp [hsp])]
  have hstop : ∀ r : Str, (∀ d ∈ r, isSpace d = false ∧ d ≠ '/' ∧ d ≠ '>' ∧ d ≠ '\x00') →
      ((∀ d ∈ r, isEndNameChar d = true) ∨
        ∃ d s, (r ++ (gap ++ '>' :: t)).dropWhile isEndNameChar = d :: s ∧ isSpace d = false ∧ d ≠ '>') := by
    intro r hr
    induction r with
    | nil => exact .inl (by simp)
    | cons d r ih =>
      cases hd : isEndNameChar d with
      | true =>
        rcases ih (fun k hk => hr k (by simp [hk])) with h | ⟨k, s, h, h'⟩
        · left
          intro k hk
          rcases List.mem_cons.1 hk with rfl | hk
          · exact hd
          · exact h k hk
        · right
          exact ⟨k, s, by rw [List.cons_append, List.dropWhile_cons, if_pos hd, h], h'⟩
      | false =>
        right
        have := hr d (by simp)
        exact ⟨d, _, by rw [List.cons_append, List.dropWhile_cons, if_neg (by simp [hd])], this.1, this.2.2.1⟩
  rcases hstop r hr with hall | ⟨d, s, hd, h1, h2⟩
  · left
    have := takeWhile_stop (p := isEndNameChar) (a := r) (b := gap ++ '>' :: t) hall (by
      right
      cases gap with
      | nil => exact ⟨'>', t, rfl, by decide⟩
      | cons g gs =>
        refine ⟨g, gs ++ '>' :: t, rfl, ?_⟩
        rcases hg g (by simp) with rfl | rfl | rfl | rfl | rfl <;> decide)
    simp only [endTagName, e1, ha, if_true, this.1, this.2]
    have e2 : (gap ++ '>' :: t).dropWhile isSpace = '>' :: t := by
      rw [dropBlank hg]; rfl
    simp only [e2]
  · right
    refine ⟨?_, by simp [ha], hscan⟩
    simp only [endTagName, e1, ha, if_true, hd]
    have e2 : (d :: s).dropWhile isSpace = d :: s := by rw [List.dropWhile_cons, if_neg (by simp [h1])]
    rw [e2]
    split
    · rename_i e; simp only [List.cons.injEq] at e; exact absurd e.1 h2
    · rfl

theorem parseEnd_ok (u : Uni) {tag : Str} (h : TagName tag) {gap : Str} (hg : ∀ c ∈ gap, HtmlBlank c) (t : Str) :
    parseEnd u none (tag ++ (gap ++ '>' :: t)) = some ⟨[.stop (u.lower tag)], t, none⟩ := by
  have h1 : afterGt (tag ++ (gap ++ '>' :: t)) = some t := by
    rw [← List.append_assoc]
    refine afterGt_append ?_
    intro hm
    rcases List.mem_append.1 hm with hm | hm
    · exact tag_no_gt h hm
    · exact blank_no_gt hg hm
  simp only [parseEnd, h1, Option.map_some]
  rcases endTag_name h hg t with h2 | ⟨h2, h3, h4⟩
  · simp only [h2]
  · simp only [h2, h3, if_true, h4]

/-! ## Comments and declarations -/

theorem close_two {s : Str} (h : commentCloseAt s ≠ none) : ∃ r, s = '-' :: '-' :: r ∧ r ≠ [] := by
  rw [commentCloseAt.eq_def] at h
  split at h
  · rename_i r
    refine ⟨r, rfl, ?_⟩
    rintro rfl
    exact h rfl
  · exact absurd rfl h

theorem comment_search {t : Str} (h : ¬ py"--" <:+: t ++ py"-") (s : Str) :
    searchFor commentCloseAt (t ++ ('-' :: '-' :: '>' :: s)) = some s := by
  induction t with
  | nil => simp [searchFor, commentCloseAt, show isSpace '>' = false by decide]
  | cons c t ih =>
    have hn : commentCloseAt (c :: (t ++ ('-' :: '-' :: '>' :: s))) = none := by
      cases he : commentCloseAt (c :: (t ++ ('-' :: '-' :: '>' :: s))) with
      | none => rfl
      | some x =>
        exfalso
        obtain ⟨r, e, _⟩ := close_two (by rw [he]; simp : commentCloseAt (c :: (t ++ ('-' :: '-' :: '>' :: s))) ≠ none)
        refine h ?_
        cases t with
        | nil => simp only [List.nil_append, List.cons.injEq] at e; rw [e.1]; exact ⟨[], [], rfl⟩
        | cons d t =>
          simp only [List.cons_append, List.cons.injEq] at e
          rw [e.1, e.2.1]
          exact ⟨[], t ++ py"-", rfl⟩
    rw [List.cons_append, searchFor, hn]
    refine ih ?_
    rintro ⟨a, b, e⟩
    exact h ⟨c :: a, b, by simp [← e]⟩

theorem comment_cut {t : Str} (h : ¬ py"--" <:+: t ++ py"-") {x y : Str} (e : t ++ py"-->" = x ++ y) (hy : y ≠ []) :
    searchFor commentCloseAt x = none := by
  induction x generalizing t with
  | nil => rfl
  | cons c x ih =>
    have hn : commentCloseAt (c :: x) = none := by
      cases he : commentCloseAt (c :: x) with
      | none => rfl
      | some k =>
        exfalso
        obtain ⟨r, e1, hr⟩ := close_two (by rw [he]; simp : commentCloseAt (c :: x) ≠ none)
        rw [e1] at e
        cases t with
        | nil =>
          simp only [List.nil_append, List.cons_append, List.cons.injEq, true_and] at e
          obtain ⟨r1, r2, rfl⟩ := List.exists_cons_of_ne_nil hr
          simp only [List.cons_append, List.cons.injEq] at e
          exact hy (List.append_eq_nil_iff.1 e.2.symm).2
        | cons d t =>
          simp only [List.cons_append, List.cons.injEq] at e
          refine h ?_
          cases t with
          | nil => rw [e.1]; exact ⟨[], [], rfl⟩
          | cons d' t =>
            simp only [List.cons_append, List.cons.injEq] at e
            rw [e.1, e.2.1]
            exact ⟨[], t ++ py"-", rfl⟩
    rw [searchFor, hn]
    cases t with
    | nil =>
      simp only [List.nil_append, List.cons_append, List.cons.injEq] at e
      cases x with
      | nil => rfl
      | cons c2 x =>
        simp only [List.cons_append, List.cons.injEq] at e
        cases x with
        | nil => rw [← e.2.1]; rfl
        | cons c3 x =>
          simp only [List.cons_append, List.cons.injEq] at e
          exact absurd (List.append_eq_nil_iff.1 e.2.2.2.symm).2 hy
    | cons d t =>
      simp only [List.cons_append, List.cons.injEq] at e
      refine ih ?_ e.2
      rintro ⟨a, b, e'⟩
      exact h ⟨d :: a, b, by simp [← e']⟩

theorem parseMarkup_bang (u : Uni) (fin : Bool) (cd : Option Str) {s : Str} (h1 : ¬ py"--" <+: s) (h2 : s.head? ≠ some '[') :
    parseMarkup u fin cd ('!' :: s) = .ok ((afterGt s).map fun t => ⟨[], t, cd⟩) := by
  simp only [parseMarkup]
  split
  · rename_i e; cases e
  · rename_i r e; cases e; exact absurd ⟨r, rfl⟩ h1
  · rename_i e; cases e
  · rename_i e; cases e; simp at h2
  · rename_i e; cases e; rfl
  · rename_i e; cases e
  · rename_i heq; exact absurd (List.cons.inj heq).1.symm (by assumption)

/-! ## Raw text -/

theorem ascii_of_lower {c d : Char} (h : c.toLower = d) (hd : d.toNat < 128) : c.toNat < 128 := by
  subst h
  simp only [Char.toLower] at hd
  split at hd
  · rename_i hc
    have := hc.2
    have h2 : c.toNat ≤ 'Z'.toNat := this
    have : 'Z'.toNat = 90 := rfl
    omega
  · exact hd

theorem raw_lower (u : Uni) {tag : Str} (h : IsRaw tag) : u.lower tag = tag.map Char.toLower := by
  refine u.lower_ascii tag fun c hc => ?_
  have hm : c.toLower ∈ tag.map Char.toLower := List.mem_map_of_mem hc
  have key : ∀ d ∈ tag.map Char.toLower, d.toNat < 128 := by
    rcases h with h | h <;> rw [h] <;> decide
  exact ascii_of_lower rfl (key _ hm)

theorem raw_alpha {c : Char} (h : 'a' ≤ c.toLower ∧ c.toLower ≤ 'z') : ('a' ≤ c ∧ c ≤ 'z') ∨ ('A' ≤ c ∧ c ≤ 'Z') := by
  simp only [Char.toLower] at h
  split at h
  · rename_i hc; exact .inr hc
  · exact .inl h

theorem raw_letters {tag : Str} (h : IsRaw tag) : ∀ c ∈ tag, ('a' ≤ c ∧ c ≤ 'z') ∨ ('A' ≤ c ∧ c ≤ 'Z') := by
  intro c hc
  have hm : c.toLower ∈ tag.map Char.toLower := List.mem_map_of_mem hc
  have key : ∀ d ∈ tag.map Char.toLower, 'a' ≤ d ∧ d ≤ 'z' := by
    rcases h with h | h <;> rw [h] <;> decide
  exact raw_alpha (key _ hm)

theorem raw_tagName {tag : Str} (h : IsRaw tag) : TagName tag := by
  have hl := raw_letters h
  cases tag with
  | nil => rcases h with h | h <;> cases h
  | cons c r =>
    refine ⟨c, r, rfl, hl c (by simp), fun d hd => ?_⟩
    have hd := hl d (by simp [hd])
    exact ⟨alpha_space hd, alpha_ne hd _ (by decide), alpha_ne hd _ (by decide), alpha_ne hd _ (by decide)⟩

theorem afterName_self (tag t : Str) : afterName (tag.map Char.toLower) (tag ++ t) = some t := by
  induction tag with
  | nil => rfl
  | cons c r ih =>
    rw [List.map_cons, List.cons_append, afterName, if_pos (by simp [sameLetter]), ih]

theorem cdataEnd_self {tag : Str} (h : IsRaw tag) (t : Str) :
    cdataEndAt (tag.map Char.toLower) ('<' :: '/' :: (tag ++ '>' :: t)) = true := by
  obtain ⟨c, r, e, hc, _⟩ := raw_tagName h
  have e1 : (tag ++ '>' :: t).dropWhile isSpace = tag ++ '>' :: t := by
    rw [e, List.cons_append, List.dropWhile_cons, if_neg (by simp [alpha_space hc])]
  simp only [cdataEndAt, e1, afterName_self]
  rfl

theorem cdataEnd_two {e s : Str} (h : cdataEndAt e s = true) : ∃ r, s = '<' :: '/' :: r := by
  rw [cdataEndAt.eq_def] at h
  split at h
  · exact ⟨_, rfl⟩
  · cases h

theorem cdata_ok {tag : Str} (h : IsRaw tag) {content : Str} (hc : ¬ py"</" <:+: content) (t : Str) :
    cdataText (tag.map Char.toLower) (content ++ ('<' :: '/' :: (tag ++ '>' :: t))) =
      some (content, '<' :: '/' :: (tag ++ '>' :: t)) := by
  induction content with
  | nil => rw [List.nil_append, cdataText, if_pos (cdataEnd_self h t)]
  | cons c r ih =>
    have hn : ¬ cdataEndAt (tag.map Char.toLower) (c :: (r ++ ('<' :: '/' :: (tag ++ '>' :: t)))) = true := by
      intro he
      obtain ⟨k, e⟩ := cdataEnd_two he
      cases r with
      | nil => simp at e
      | cons d r =>
        simp only [List.cons_append, List.cons.injEq] at e
        refine hc ⟨[], r, ?_⟩
        rw [e.1, e.2.1]; rfl
    rw [List.cons_append, cdataText, if_neg hn, ih]
    · rfl
    · rintro ⟨a, b, e⟩
      exact hc ⟨c :: a, b, by simp [← e]⟩

theorem afterName_gt {n s t : Str} (h : afterName n s = some t) (hn : ∀ c ∈ n, sameLetter c '>' = false) :
    '>' ∈ t → '>' ∈ s := by
  induction n generalizing s with
  | nil => simp only [afterName, Option.some.injEq] at h; rw [h]; exact id
  | cons p ps ih =>
    cases s with
    | nil => cases h
    | cons c s =>
      rw [afterName] at h
      split at h
      · intro hm
        exact List.mem_cons_of_mem _ (ih h (fun c hc => hn c (by simp [hc])) hm)
      · cases h

theorem mem_dropWhile {α} {p : α → Bool} {l : List α} {x : α} (h : x ∈ l.dropWhile p) : x ∈ l :=
  (List.dropWhile_suffix p).subset h

theorem cdataEnd_gt {tag s : Str} (h : IsRaw tag) (he : cdataEndAt (tag.map Char.toLower) s = true) :
    ∃ r, s = '<' :: '/' :: r ∧ '>' ∈ r := by
  obtain ⟨r, rfl⟩ := cdataEnd_two he
  refine ⟨r, rfl, ?_⟩
  simp only [cdataEndAt] at he
  split at he
  · rename_i t e
    have h1 : '>' ∈ t := by
      cases ht : t.dropWhile isSpace with
      | nil => rw [ht] at he; simp at he
      | cons c k =>
        rw [ht] at he
        simp only [List.head?_cons, beq_iff_eq, Option.some.injEq] at he
        exact mem_dropWhile (by rw [ht, he]; simp)
    have h2 := afterName_gt e (by rcases h with h | h <;> rw [h] <;> decide) h1
    exact mem_dropWhile h2
  · cases he

theorem cdata_cut {tag : Str} (h : IsRaw tag) {content : Str} (hc : ¬ py"</" <:+: content) {x y : Str}
    (e : content ++ ('<' :: '/' :: (tag ++ py">")) = x ++ y) (hy : y ≠ []) : cdataText (tag.map Char.toLower) x = none := by
  have hgt : '>' ∉ tag := tag_no_gt (raw_tagName h)
  -- no end tag can start within the end tag either
  have key : ∀ (tl x y : Str), (∀ c ∈ tl, c ≠ '<') → tl ++ py">" = x ++ y → cdataText (tag.map Char.toLower) x = none := by
    intro tl x
    induction x generalizing tl with
    | nil => intro _ _ _; rfl
    | cons c x ih =>
      intro y htl e
      have hn : ¬ cdataEndAt (tag.map Char.toLower) (c :: x) = true := by
        intro he
        obtain ⟨k, e'⟩ := cdataEnd_two he
        cases e'
        cases tl with
        | nil => simp at e
        | cons d tl => simp only [List.cons_append, List.cons.injEq] at e; exact htl d (by simp) e.1
      rw [cdataText, if_neg hn]
      cases tl with
      | nil =>
        simp only [List.nil_append, List.cons_append, List.cons.injEq] at e
        rw [(List.append_eq_nil_iff.1 e.2.symm).1]
        rfl
      | cons d tl =>
        simp only [List.cons_append, List.cons.injEq] at e
        rw [ih tl y (fun k hk => htl k (by simp [hk])) e.2]
        rfl
  induction content generalizing x with
  | nil =>
    cases x with
    | nil => rfl
    | cons c x =>
      simp only [List.nil_append, List.cons_append, List.cons.injEq] at e
      have hn : ¬ cdataEndAt (tag.map Char.toLower) (c :: x) = true := by
        intro he
        obtain ⟨k, e', hk⟩ := cdataEnd_gt h he
        cases e'
        simp only [List.cons_append, List.cons.injEq] at e
        rcases cut_append e.2.2 with ⟨d, h1, h2, hd⟩ | ⟨d, h1, h2⟩
        · rw [h1] at hgt; exact hgt (by simp [hk])
        · cases d with
          | nil => rw [h1] at hk; simp [hgt] at hk
          | cons _ d =>
            simp only [List.cons_append, List.cons.injEq] at h2
            exact hy (List.append_eq_nil_iff.1 h2.2.symm).2
      rw [cdataText, if_neg hn]
      have hl := raw_letters h
      rw [key ('/' :: tag) x y (by
        intro k hk
        rcases List.mem_cons.1 hk with rfl | hk
        · decide
        · exact alpha_ne (hl k hk) _ (by decide)) (by simpa using e.2)]
      rfl
  | cons c r ih =>
    cases x with
    | nil => rfl
    | cons c' x =>
      simp only [List.cons_append, List.cons.injEq] at e
      obtain ⟨rfl, e⟩ := e
      have hn : ¬ cdataEndAt (tag.map Char.toLower) (c :: x) = true := by
        intro he
        obtain ⟨k, e'⟩ := cdataEnd_two he
        cases e'
        cases r with
        | nil => simp at e
        | cons d r =>
          simp only [List.cons_append, List.cons.injEq] at e
          refine hc ⟨[], r, ?_⟩
          rw [e.1]; rfl
      rw [cdataText, if_neg hn, ih _ e]
      · rfl
      · rintro ⟨a, b, e⟩
        exact hc ⟨c :: a, b, by simp [← e]⟩

theorem parseEnd_raw (u : Uni) {tag : Str} (h : IsRaw tag) (t : Str) :
    parseEnd u (some (tag.map Char.toLower)) (tag ++ '>' :: t) = some ⟨[.stop (u.lower tag)], t, none⟩ := by
  have h1 : afterGt (tag ++ '>' :: t) = some t := afterGt_append (tag_no_gt (raw_tagName h))
  have h2 : endTagName (tag ++ '>' :: t) = some tag := by
    rcases endTag_name (raw_tagName h) (gap := []) (by simp) t with h2 | ⟨h2, _, _⟩
    · exact h2
    · exfalso
      obtain ⟨c, r, e, hc, _⟩ := raw_tagName h
      have hl := raw_letters h
      have := takeWhile_stop (p := isEndNameChar) (a := r) (b := '>' :: t) (by
        intro d hd
        have := alpha_of (hl d (by rw [e]; simp [hd]))
        simp [isEndNameChar, this]) (.inr ⟨'>', t, rfl, by decide⟩)
      rw [List.nil_append, e, endTagName, List.cons_append, List.dropWhile_cons, if_neg (by simp [alpha_space hc])] at h2
      simp only [alpha_of hc, if_true, this.2] at h2
      cases h2
  simp only [parseEnd, h1, Option.map_some, h2]
  rw [if_neg (by rw [raw_lower u h]; simp)]

/-! ## One step -/

theorem nextText_lt (u : Uni) (r : Str) : nextText u ⟨'<' :: r, none⟩ = some ([], '<' :: r) := by
  simp [nextText, dataEvents]

theorem takeWhile_lt {raw t : Str} (h : '<' ∉ raw) (ht : t = [] ∨ ∃ r, t = '<' :: r) :
    (raw ++ t).takeWhile (· != '<') = raw ∧ (raw ++ t).dropWhile (· != '<') = t := by
  refine takeWhile_stop ?_ ?_
  · intro c hc
    simp only [bne_iff_ne, ne_eq]
    rintro rfl
    exact h hc
  · rcases ht with rfl | ⟨r, rfl⟩
    · exact .inl rfl
    · exact .inr ⟨'<', r, rfl, by simp⟩

/-- Text before markup or at the end. -/
theorem tokRun_text (u : Uni) (fin : Bool) {raw t : Str} (h0 : raw ≠ []) (h1 : '<' ∉ raw) (h2 : Spells u.entity raw t) {s : Str}
    (hs : (s = [] ∧ (fin = false → ¬ OpenEnd raw)) ∨ ∃ r, s = '<' :: r) :
    tokRun u fin ⟨raw ++ s, none⟩ = emit [.data t] (tokRun u fin ⟨s, none⟩) := by
  have htw := takeWhile_lt (t := s) h1 (hs.imp (·.1) id)
  have hne : raw ++ s ≠ [] := by simp [h0]
  have hnext : ¬ (s = [] ∧ mayBeCut raw = true) → nextText u ⟨raw ++ s, none⟩ = some ([.data t], s) := by
    intro hcut
    simp only [nextText, htw.1, htw.2, if_neg hcut, dataEvents, if_neg h0, unescape_spells u h2]
  rcases hs with ⟨rfl, ho⟩ | ⟨r, rfl⟩
  · cases hm : mayBeCut raw with
    | false =>
      rw [tokRun_end u fin _ _ hne (hnext (by simp [hm])), tokRun_nil u fin ⟨[], none⟩ rfl]
      rfl
    | true =>
      have hf : fin = true := by
        cases fin with
        | true => rfl
        | false => exact absurd ((mayBeCut_open raw).1 hm) (ho rfl)
      subst hf
      rw [tokRun_wait u true _ (by simp only [nextText, htw.1, htw.2, hm, and_self, if_true]), tokRun_nil u true ⟨[], none⟩ rfl]
      rw [List.append_nil, finishTok, if_pos (by simpa using h0), unescape_spells u h2]
      rfl
  · have e : ∀ f, goahead u fin (f + 1) ⟨raw ++ '<' :: r, none⟩ = emit [.data t] (goahead u fin (f + 1) ⟨'<' :: r, none⟩) := by
      intro f
      simp only [goahead, hnext (by simp), nextText_lt, hne, if_false]
      simp [emit]
    rw [tokRun, tokRun, e, goahead_fuel u fin ((raw ++ '<' :: r).length + 1) (('<' :: r).length + 1) ⟨'<' :: r, none⟩
      (by simp; omega) (by simp)]

theorem tokRun_piece (u : Uni) (fin : Bool) {r : Str} {p : Piece1} (hp : parseMarkup u fin none r = .ok (some p)) :
    tokRun u fin ⟨'<' :: r, none⟩ = emit p.events (tokRun u fin ⟨p.rest, p.cdata⟩) := by
  rw [tokRun_markup u fin ⟨'<' :: r, none⟩ [] '<' r p (nextText_lt u r) hp]
  simp [emit]

theorem tokRun_cut (u : Uni) {r : Str} (hp : parseMarkup u false none r = .ok none) :
    tokRun u false ⟨'<' :: r, none⟩ = ([], .ok ⟨'<' :: r, none⟩) :=
  tokRun_keep u ⟨'<' :: r, none⟩ [] '<' r (nextText_lt u r) hp

/-- Raw text and the end tag after it. -/
theorem tokRun_raw (u : Uni) (fin : Bool) {tag : Str} (h : IsRaw tag) {content : Str} (hc : ¬ py"</" <:+: content) (s : Str) :
    tokRun u fin ⟨content ++ ('<' :: '/' :: (tag ++ '>' :: s)), some (tag.map Char.toLower)⟩ =
      emit ((if content = [] then [] else [.data content]) ++ [.stop (u.lower tag)]) (tokRun u fin ⟨s, none⟩) := by
  have hnext : nextText u ⟨content ++ ('<' :: '/' :: (tag ++ '>' :: s)), some (tag.map Char.toLower)⟩ =
      some (if content = [] then [] else [.data content], '<' :: '/' :: (tag ++ '>' :: s)) := by
    simp [nextText, cdata_ok h hc, dataEvents]
  rw [tokRun_markup u fin _ _ _ _ ⟨[.stop (u.lower tag)], s, none⟩ hnext (by
    simp only [parseMarkup, parseEnd_raw u h s])]
  simp [emit]

theorem tokRun_rawCut (u : Uni) {tag : Str} (h : IsRaw tag) {content : Str} (hc : ¬ py"</" <:+: content) {x y : Str}
    (e : content ++ ('<' :: '/' :: (tag ++ py">")) = x ++ y) (hy : y ≠ []) :
    tokRun u false ⟨x, some (tag.map Char.toLower)⟩ = ([], .ok ⟨x, some (tag.map Char.toLower)⟩) := by
  rw [tokRun_wait u false _ (by simp [nextText, cdata_cut h hc e hy])]
  rfl

theorem endFor {ent : Str → Option Str} {as : List SrcAttr} (has : ∀ a ∈ as, a.Ok ent) {gap : Str} (hg : ∀ c ∈ gap, HtmlBlank c) (s : Str) :
    TagEnd as gap ('>' :: s) s := ⟨fun a ha => ok_shape (has a ha), hg, .inl rfl⟩

/-- The state after an item. -/
def Item.after : Item → Option Str
  | .verbatim tag _ _ _ => some (tag.map Char.toLower)
  | _ => none

/-- Each item is read as it is meant. -/
theorem tokRun_item (u : Uni) (fin : Bool) {i : Item} (h : i.Ok u.entity u.lower) {s : Str}
    (hs : i.isText = true → (s = [] ∧ (fin = false → ¬ OpenEnd i.src)) ∨ ∃ r, s = '<' :: r) :
    tokRun u fin ⟨i.src ++ s, none⟩ = emit (i.events u.lower) (tokRun u fin ⟨s, none⟩) := by
  cases i with
  | text raw t => exact tokRun_text u fin h.1 h.2.1 h.2.2 (hs rfl)
  | start tag as gap =>
    obtain ⟨h1, h2, h3, h4, h5⟩ := h
    have e : (Item.start tag as gap).src ++ s = '<' :: (tag ++ (attrsSrc as ++ (gap ++ '>' :: s))) := by simp [Item.src]
    rw [e, tokRun_piece u fin (by rw [parseMarkup_tag u fin none _ h1, parseStart_ok u none h1 h2 (endFor h2 h3 s)])]
    simp [h4, h5, Item.events]
  | empty tag as gap =>
    obtain ⟨h1, h2, h3, h4⟩ := h
    have e : (Item.empty tag as gap).src ++ s = '<' :: (tag ++ (attrsSrc as ++ (gap ++ '/' :: '>' :: s))) := by
      simp [Item.src]
    rw [e, tokRun_piece u fin (by
      rw [parseMarkup_tag u fin none _ h1, parseStart_ok u none h1 h2 (e := '/' :: '>' :: s) (after := s)
        ⟨fun a ha => ok_shape (h2 a ha), h3, .inr ⟨rfl, h4⟩⟩])]
    simp [Item.events]
  | stop tag gap =>
    obtain ⟨h1, h2⟩ := h
    have e : (Item.stop tag gap).src ++ s = '<' :: '/' :: (tag ++ (gap ++ '>' :: s)) := by simp [Item.src]
    rw [e, tokRun_piece u fin (p := ⟨[.stop (u.lower tag)], s, none⟩) (by
      simp only [parseMarkup, parseEnd_ok u h1 h2 s])]
    rfl
  | comment t =>
    have e : (Item.comment t).src ++ s = '<' :: '!' :: '-' :: '-' :: (t ++ '-' :: '-' :: '>' :: s) := by simp [Item.src]
    rw [e, tokRun_piece u fin (p := ⟨[], s, none⟩) (by
      simp only [parseMarkup, comment_search h s, Option.map_some])]
    rfl
  | decl t =>
    obtain ⟨h1, h2, h3⟩ := h
    have e : (Item.decl t).src ++ s = '<' :: '!' :: (t ++ '>' :: s) := by simp [Item.src]
    rw [e, tokRun_piece u fin (p := ⟨[], s, none⟩) (by
      rw [parseMarkup_bang u fin none, afterGt_append h1]
      · rfl
      · rintro ⟨k, hk⟩
        cases t with
        | nil => simp at hk
        | cons a t =>
          cases t with
          | nil => simp at hk
          | cons b t =>
            simp only [List.cons_append, List.cons.injEq] at hk
            exact h2 ⟨t, by rw [← hk.1, ← hk.2.1]; rfl⟩
      · cases t with
        | nil => simp
        | cons a t => simpa using h3)]
    rfl
  | verbatim tag as gap content =>
    obtain ⟨h1, h2, h3, h4⟩ := h
    have e : (Item.verbatim tag as gap content).src ++ s =
        '<' :: (tag ++ (attrsSrc as ++ (gap ++ '>' :: (content ++ ('<' :: '/' :: (tag ++ '>' :: s)))))) := by simp [Item.src]
    have hraw : u.lower tag = py"script" ∨ u.lower tag = py"style" := by rw [raw_lower u h1]; exact h1
    have ht := raw_tagName h1
    rw [e, tokRun_piece u fin (by rw [parseMarkup_tag u fin none _ ht, parseStart_ok u none ht h2 (endFor h2 h3 _)])]
    simp only [if_true, hraw]
    have hl := raw_lower u h1
    conv => lhs; rw [hl]
    rw [tokRun_raw u fin h1 h4, ← hl]
    simp [emit, Item.events]

theorem item_src_ne {ent : Str → Option Str} {lower : Str → Str} {i : Item} (h : i.Ok ent lower) : i.src ≠ [] := by
  cases i with
  | text raw t => exact h.1
  | _ => simp [Item.src]

theorem noPair_tail {i : Item} {doc : List Item} (h : NoTextPair (i :: doc)) : NoTextPair doc := by
  cases doc with
  | nil => trivial
  | cons a r => exact h.2

theorem docOk_tail {ent : Str → Option Str} {lower : Str → Str} {i : Item} {doc : List Item} (h : DocOk ent lower (i :: doc)) : DocOk ent lower doc :=
  ⟨fun j hj => h.1 j (by simp [hj]), noPair_tail h.2⟩

theorem src_lt {i : Item} (h : i.isText = false) : ∃ r, i.src = '<' :: r := by
  cases i with
  | text => cases h
  | _ => exact ⟨_, rfl⟩

/-- What follows a text. -/
theorem after_text {ent : Str → Option Str} {lower : Str → Str} {i : Item} {doc : List Item} (h : DocOk ent lower (i :: doc)) (hi : i.isText = true) :
    docSrc doc = [] ∨ ∃ r, docSrc doc = '<' :: r := by
  cases doc with
  | nil => exact .inl rfl
  | cons j r =>
    have hj : j.isText = false := by
      cases e : j.isText with
      | false => rfl
      | true => exact absurd ⟨hi, e⟩ h.2.1
    obtain ⟨k, hk⟩ := src_lt hj
    exact .inr ⟨k ++ docSrc r, by simp [docSrc, hk]⟩

/-- A document is read as it is meant, whatever markup comes after it. -/
theorem tokRun_docBefore (u : Uni) (fin : Bool) {doc : List Item} (h : DocOk u.entity u.lower doc) (r : Str) :
    tokRun u fin ⟨docSrc doc ++ '<' :: r, none⟩ = emit (docEvents u.lower doc) (tokRun u fin ⟨'<' :: r, none⟩) := by
  induction doc with
  | nil => simp [docSrc, docEvents, emit]
  | cons i doc ih =>
    have e : docSrc (i :: doc) ++ '<' :: r = i.src ++ (docSrc doc ++ '<' :: r) := by simp [docSrc]
    rw [e, tokRun_item u fin (h.1 i (by simp)), ih (docOk_tail h)]
    · simp [emit, docEvents]
    · intro ht
      rcases after_text h ht with he | ⟨k, he⟩
      · exact .inr ⟨r, by rw [he]; rfl⟩
      · exact .inr ⟨k ++ '<' :: r, by rw [he]; rfl⟩

theorem endsWhole_tail {i j : Item} {doc : List Item} (h : EndsWhole (i :: j :: doc)) : EndsWhole (j :: doc) := by
  intro raw t e
  exact h raw t (by rw [List.getLast?_cons_cons]; exact e)

/-- A document is read as it is meant. -/
theorem tokRun_doc (u : Uni) (fin : Bool) {doc : List Item} (h : DocOk u.entity u.lower doc) (hw : fin = false → EndsWhole doc) :
    tokRun u fin ⟨docSrc doc, none⟩ = (docEvents u.lower doc, .ok {}) := by
  induction doc with
  | nil => exact tokRun_nil u fin _ rfl
  | cons i doc ih =>
    have e : docSrc (i :: doc) = i.src ++ docSrc doc := by simp [docSrc]
    rw [e, tokRun_item u fin (h.1 i (by simp)), ih (docOk_tail h)]
    · simp [emit, docEvents]
    · intro hf
      cases doc with
      | nil => intro raw t e; cases e
      | cons j doc => exact endsWhole_tail (hw hf)
    · intro ht
      cases doc with
      | nil =>
        refine .inl ⟨rfl, fun hf => ?_⟩
        cases i with
        | text raw t => exact hw hf raw t rfl
        | _ => cases ht
      | cons j doc =>
        rcases after_text h ht with he | he
        · exact absurd (List.append_eq_nil_iff.1 (show j.src ++ docSrc doc = [] by rw [← he]; simp [docSrc])).1
            (item_src_ne (h.1 j (by simp)))
        · exact .inr he

/-- Feeding a document reads all of it, but for a text at its end perhaps. -/
theorem tokRun_fed (u : Uni) {doc : List Item} (h : DocOk u.entity u.lower doc) :
    ∃ es s' ev, tokRun u false ⟨docSrc doc, none⟩ = (es, .ok s') ∧ docEvents u.lower doc = es ++ ev ∧ (ev = [] ∨ ∃ t, ev = [.data t]) := by
  induction doc with
  | nil => exact ⟨[], {}, [], tokRun_nil u false _ rfl, rfl, .inl rfl⟩
  | cons i doc ih =>
    have e : docSrc (i :: doc) = i.src ++ docSrc doc := by simp [docSrc]
    have ev : docEvents u.lower (i :: doc) = i.events u.lower ++ docEvents u.lower doc := by simp [docEvents]
    by_cases hc : doc = [] ∧ i.isText = true ∧ OpenEnd i.src
    · obtain ⟨rfl, ht, ho⟩ := hc
      cases i with
      | text raw t =>
        refine ⟨[], ⟨raw, none⟩, [.data t], ?_, rfl, .inr ⟨t, rfl⟩⟩
        have hcut := (mayBeCut_open raw).2 ho
        rw [e, show docSrc ([] : List Item) = [] from rfl, List.append_nil, tokRun_wait u false _ ?_]
        · simp [finishTok, Item.src]
        · have htw := takeWhile_lt (h.1 (.text raw t) (by simp)).2.1 (t := []) (.inl rfl)
          rw [List.append_nil] at htw
          simp [nextText, Item.src, htw.1, htw.2, hcut]
      | _ => cases ht
    · obtain ⟨es, s', ev', h1, h2, h3⟩ := ih (docOk_tail h)
      refine ⟨i.events u.lower ++ es, s', ev', ?_, by rw [ev, h2, List.append_assoc], h3⟩
      rw [e, tokRun_item u false (h.1 i (by simp)), h1]
      · rfl
      · intro ht
        cases doc with
        | nil => exact .inl ⟨rfl, fun _ ho => hc ⟨rfl, ht, ho⟩⟩
        | cons j doc =>
          rcases after_text h ht with he | he
          · exact absurd (List.append_eq_nil_iff.1 (show j.src ++ docSrc doc = [] by rw [← he]; simp [docSrc])).1
              (item_src_ne (h.1 j (by simp)))
          · exact .inr he

end Verif
