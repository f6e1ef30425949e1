import Verif.Proofs.Source

/-!
# Reading tags written in the usual way
-/

namespace Verif

open Spec

theorem blank_space {c : Char} (h : HtmlBlank c) : isSpace c = true := by
  rcases h with rfl | rfl | rfl | rfl | rfl <;> decide

theorem blank_ends {c : Char} (h : HtmlBlank c) : endsTagName c = true := by
  rcases h with rfl | rfl | rfl | rfl | rfl <;> decide

/-- Where attributes may go on or the tag ends: nothing is skipped here. -/
def AtStop (s : Str) : Prop :=
  s = [] ∨ (∃ t, s = '>' :: t) ∨ (∃ t, s = '/' :: '>' :: t) ∨ ∃ c t, s = c :: t ∧ isSpace c = false ∧ c ≠ '/'

theorem skipSep_stop (p : Char) {s : Str} (h : AtStop s) : skipSep p s = (p, s) := by
  rcases h with rfl | ⟨t, rfl⟩ | ⟨t, rfl⟩ | ⟨c, t, rfl, h1, h2⟩
  · rfl
  · rw [skipSep, if_neg (by decide), if_neg (by simp)]
  · rw [skipSep, if_neg (by decide), if_neg (by simp)]
  · rw [skipSep, if_neg (by simp [h1]), if_neg (by simp [h2])]

theorem skipSep_gap (p : Char) {gap s : Str} (hg : ∀ c ∈ gap, HtmlBlank c) (h : AtStop s) :
    skipSep p (gap ++ s) = (gap.getLast?.getD p, s) := by
  induction gap generalizing p with
  | nil => simpa using skipSep_stop p h
  | cons c g ih =>
    rw [List.cons_append, skipSep, if_pos (blank_space (hg c (by simp))), ih c (fun d hd => hg d (by simp [hd]))]
    cases g with
    | nil => simp
    | cons d g => simp [List.getLast?_cons_cons, List.getLast?_cons]

theorem skipSlash_gap (p : Char) {gap s : Str} (hg : ∀ c ∈ gap, HtmlBlank c)
    (h : s = [] ∨ ∃ c t, s = c :: t ∧ isSpace c = false ∧ c ≠ '/') :
    skipSlash p (gap ++ s) = (gap.getLast?.getD p, s) := by
  induction gap generalizing p with
  | nil =>
    rcases h with rfl | ⟨c, t, rfl, h1, h2⟩
    · rfl
    · simp [skipSlash, h1, h2]
  | cons c g ih =>
    rw [List.cons_append, skipSlash, if_pos (by simp [blank_space (hg c (by simp))]), ih c (fun d hd => hg d (by simp [hd]))]
    cases g with
    | nil => simp
    | cons d g => simp [List.getLast?_cons_cons, List.getLast?_cons]

theorem skipSlash_all (p : Char) {s : Str} (h : ∀ c ∈ s, HtmlBlank c ∨ c = '/') : (skipSlash p s).2 = [] := by
  induction s generalizing p with
  | nil => rfl
  | cons c s ih =>
    have hc : (isSpace c || c == '/') = true := by
      rcases h c (by simp) with h | rfl
      · simp [blank_space h]
      · simp
    rw [skipSlash, if_pos hc, ih c (fun d hd => h d (by simp [hd]))]

theorem gap_last {gap : Str} (p : Char) (hn : gap ≠ []) (hg : ∀ c ∈ gap, HtmlBlank c) :
    mayStartAttr (gap.getLast?.getD p) = true := by
  rw [List.getLast?_eq_some_getLast hn]
  simp [mayStartAttr, blank_space (hg _ (List.getLast_mem hn))]

theorem takeWhile_stop {α} {p : α → Bool} {a b : List α} (ha : ∀ x ∈ a, p x = true)
    (hb : b = [] ∨ ∃ x t, b = x :: t ∧ p x = false) : (a ++ b).takeWhile p = a ∧ (a ++ b).dropWhile p = b := by
  induction a with
  | nil =>
    rcases hb with rfl | ⟨x, t, rfl, h⟩
    · simp
    · simp [List.takeWhile_cons, List.dropWhile_cons, h]
  | cons x a ih =>
    have hx := ha x (by simp)
    have := ih (fun y hy => ha y (by simp [hy]))
    simp [List.takeWhile_cons, List.dropWhile_cons, hx, this.1, this.2]

theorem quotedVal_close (q : Char) (raw t : Str) (h : q ∉ raw) : quotedVal q (raw ++ q :: t) = some (raw, t) := by
  induction raw with
  | nil => simp [quotedVal]
  | cons c r ih =>
    simp only [List.mem_cons, not_or] at h
    rw [List.cons_append, quotedVal, if_neg (fun e => h.1 e.symm), ih h.2]
    rfl

theorem quotedVal_open (q : Char) (raw : Str) (h : q ∉ raw) : quotedVal q raw = none := by
  induction raw with
  | nil => simp [quotedVal]
  | cons c r ih =>
    simp only [List.mem_cons, not_or] at h
    rw [quotedVal, if_neg (fun e => h.1 e.symm), ih h.2]
    rfl

/-! ## Values -/

theorem attrValue_double {raw : Str} (h : '"' ∉ raw) (t : Str) :
    attrValue ('=' :: '"' :: (raw ++ '"' :: t)) = some (raw, '"', t) := by
  simp [attrValue, List.dropWhile_cons, List.takeWhile_cons, show isSpace '=' = false by decide,
    show isSpace '"' = false by decide, quotedVal_close _ _ _ h]

theorem attrValue_single {raw : Str} (h : '\'' ∉ raw) (t : Str) :
    attrValue ('=' :: '\'' :: (raw ++ '\'' :: t)) = some (raw, '\'', t) := by
  simp [attrValue, List.dropWhile_cons, List.takeWhile_cons, show isSpace '=' = false by decide,
    show isSpace '\'' = false by decide, quotedVal_close _ _ _ h]

theorem attrValue_unclosed {q : Char} (hq : q = '"' ∨ q = '\'') {raw : Str} (h : q ∉ raw) :
    attrValue ('=' :: q :: raw) = none := by
  rcases hq with rfl | rfl
  · simp [attrValue, List.dropWhile_cons, List.takeWhile_cons, show isSpace '=' = false by decide,
      show isSpace '"' = false by decide, quotedVal_open _ _ h]
  · simp [attrValue, List.dropWhile_cons, List.takeWhile_cons, show isSpace '=' = false by decide,
      show isSpace '\'' = false by decide, quotedVal_open _ _ h]

theorem attrValue_bare {c : Char} {r : Str} (h1 : c ≠ '"') (h2 : c ≠ '\'') (h3 : c ≠ '=')
    (h : ∀ d ∈ c :: r, isSpace d = false ∧ d ≠ '>') (t : Str)
    (ht : t = [] ∨ ∃ x s, t = x :: s ∧ (isSpace x = true ∨ x = '>')) :
    ∃ q, attrValue ('=' :: c :: (r ++ t)) = some (c :: r, q, t) := by
  have hc := h c (by simp)
  have := takeWhile_stop (p := fun c => !(c == '>' || isSpace c)) (a := c :: r) (b := t)
    (by intro d hd; simp [h d hd]) (by
      rcases ht with rfl | ⟨x, s, rfl, hx⟩
      · exact .inl rfl
      · exact .inr ⟨x, s, rfl, by rcases hx with hx | rfl <;> simp [*]⟩)
  simp only [List.cons_append] at this
  refine ⟨(bareValue (c :: (r ++ t))).2.1, ?_⟩
  have e : bareValue (c :: (r ++ t)) = (c :: r, (bareValue (c :: (r ++ t))).2.1, t) := by
    simp only [bareValue, this.1, this.2]
  have e2 : attrValue ('=' :: c :: (r ++ t)) = some (bareValue (c :: (r ++ t))) := by
    simp [attrValue, List.dropWhile_cons, List.takeWhile_cons, show isSpace '=' = false by decide, hc, h1, h2, h3]
  rw [e2, ← e]

theorem attrValue_absent {s : Str} (h : s.dropWhile isSpace = [] ∨ ∃ c t, s.dropWhile isSpace = c :: t ∧ c ≠ '=') :
    attrValue s = none := by
  rcases h with h | ⟨c, t, h, hc⟩
  · simp [attrValue, h]
  · simp [attrValue, h, List.takeWhile_cons, hc]

/-! ## Attributes -/

theorem attrName_char {c : Char} (h : AttrNameChar c) : isAttrChar c = true := by
  obtain ⟨h1, h2, h3, h4, _⟩ := h
  simp [isAttrChar, *]

/-- The value of an attribute as it is written. -/
def rawVal : Spelling → Option Str
  | .absent => none
  | .double raw _ => some raw
  | .single raw _ => some raw
  | .bare raw _ => some raw

/-- An attribute that is well formed, except perhaps for the references in its value. -/
structure Shape (a : SrcAttr) : Prop where
  gap : a.gap ≠ []
  blank : ∀ c ∈ a.gap, HtmlBlank c
  ne : a.name ≠ []
  name : ∀ c ∈ a.name, AttrNameChar c
  double : ∀ raw v, a.spelling = .double raw v → '"' ∉ raw
  single : ∀ raw v, a.spelling = .single raw v → '\'' ∉ raw
  bare : ∀ raw v, a.spelling = .bare raw v → (∃ c r, raw = c :: r ∧ c ≠ '"' ∧ c ≠ '\'' ∧ c ≠ '=') ∧
    ∀ c ∈ raw, isSpace c = false ∧ c ≠ '>'

theorem ok_shape {ent : Str → Option Str} {a : SrcAttr} (h : a.Ok ent) : Shape a := by
  obtain ⟨h1, h2, h3, h4, h5⟩ := h
  refine ⟨h1, h2, h3, h4, ?_, ?_, ?_⟩ <;> intro raw v e <;> rw [e] at h5
  · exact h5.1
  · exact h5.1
  · exact ⟨h5.1, h5.2.1⟩

theorem ok_value (u : Uni) {a : SrcAttr} (h : a.Ok u.entity) : (rawVal a.spelling).map (unescape u) = a.spelling.value := by
  obtain ⟨_, _, _, _, h5⟩ := h
  cases e : a.spelling with
  | absent => rfl
  | double raw v => rw [e] at h5; simp [rawVal, Spelling.value, unescape_spells u h5.2]
  | single raw v => rw [e] at h5; simp [rawVal, Spelling.value, unescape_spells u h5.2]
  | bare raw v => rw [e] at h5; simp [rawVal, Spelling.value, unescape_spells u h5.2.2]

/-- What may follow an attribute. -/
structure Follows (a : SrcAttr) (t : Str) : Prop where
  head : t = [] ∨ ∃ x s, t = x :: s ∧ (isSpace x = true ∨ x = '>' ∨ x = '/')
  noEq : t.dropWhile isSpace = [] ∨ ∃ c s, t.dropWhile isSpace = c :: s ∧ c ≠ '='
  bare : ∀ raw v, a.spelling = .bare raw v → t = [] ∨ ∃ x s, t = x :: s ∧ (isSpace x = true ∨ x = '>')

theorem name_stop {s : Str} (hs : s = [] ∨ ∃ x r, s = x :: r ∧ isAttrChar x = false) {name : Str}
    (hn : ∀ c ∈ name, AttrNameChar c) : (name ++ s).takeWhile isAttrChar = name ∧ (name ++ s).dropWhile isAttrChar = s :=
  takeWhile_stop (fun c hc => attrName_char (hn c hc)) hs

/-- An attribute is read as it is written. -/
theorem attrAt_ok {p : Char} (hp : mayStartAttr p = true) {a : SrcAttr} (ha : Shape a) {t : Str} (ht : Follows a t) :
    ∃ q, attrAt p (a.name ++ (a.spelling.src ++ t)) = some ((a.name, rawVal a.spelling), skipSep q t) := by
  obtain ⟨c, r, e⟩ := List.exists_cons_of_ne_nil ha.ne
  have hc := ha.name c (by rw [e]; simp)
  have hr : ∀ d ∈ r, AttrNameChar d := fun d hd => ha.name d (by rw [e]; simp [hd])
  have hstart : (mayStartAttr p && !(isSpace c || c == '/' || c == '>')) = true := by
    obtain ⟨h1, h2, h3, _⟩ := hc
    simp [*]
  have eqChar : isAttrChar '=' = false := by decide
  rw [e]
  cases hsp : a.spelling with
  | absent =>
    have hst := name_stop (s := t) (by
      rcases ht.head with rfl | ⟨x, s, rfl, hx⟩
      · exact .inl rfl
      · refine .inr ⟨x, s, rfl, ?_⟩
        rcases hx with hx | rfl | rfl
        · simp [isAttrChar, hx]
        · decide
        · decide) hr
    refine ⟨(c :: r).getLast?.getD c, ?_⟩
    simp only [Spelling.src, rawVal, List.nil_append, List.cons_append]
    rw [attrAt, if_pos hstart]
    simp only [hst.1, hst.2, attrValue_absent ht.noEq]
  | double raw v =>
    have hst := name_stop (s := '=' :: '"' :: (raw ++ '"' :: t)) (.inr ⟨'=', _, rfl, eqChar⟩) hr
    refine ⟨'"', ?_⟩
    simp only [Spelling.src, rawVal, List.cons_append, List.append_assoc, List.nil_append]
    rw [attrAt, if_pos hstart]
    simp only [hst.1, hst.2, attrValue_double (ha.double _ _ hsp)]
  | single raw v =>
    have hst := name_stop (s := '=' :: '\'' :: (raw ++ '\'' :: t)) (.inr ⟨'=', _, rfl, eqChar⟩) hr
    refine ⟨'\'', ?_⟩
    simp only [Spelling.src, rawVal, List.cons_append, List.append_assoc, List.nil_append]
    rw [attrAt, if_pos hstart]
    simp only [hst.1, hst.2, attrValue_single (ha.single _ _ hsp)]
  | bare raw v =>
    obtain ⟨⟨d, s, rfl, h1, h2, h3⟩, h4⟩ := ha.bare _ _ hsp
    obtain ⟨q, hq⟩ := attrValue_bare h1 h2 h3 h4 t (ht.bare _ _ hsp)
    have hst := name_stop (s := '=' :: d :: (s ++ t)) (.inr ⟨'=', _, rfl, eqChar⟩) hr
    refine ⟨q, ?_⟩
    simp only [Spelling.src, rawVal, List.cons_append, List.append_assoc, List.nil_append]
    rw [attrAt, if_pos hstart]
    simp only [hst.1, hst.2, hq]

/-! ## Lists of attributes -/

theorem name_first {a : SrcAttr} (ha : Shape a) (t : Str) :
    ∃ c r, a.name ++ t = c :: r ∧ isSpace c = false ∧ c ≠ '/' ∧ c ≠ '>' ∧ c ≠ '=' := by
  obtain ⟨c, r, e⟩ := List.exists_cons_of_ne_nil ha.ne
  obtain ⟨h1, h2, h3, h4, _⟩ := ha.name c (by rw [e]; simp)
  exact ⟨c, r ++ t, by rw [e]; rfl, h1, h2, h3, h4⟩

theorem dropBlank {gap s : Str} (hg : ∀ c ∈ gap, HtmlBlank c) : (gap ++ s).dropWhile isSpace = s.dropWhile isSpace := by
  induction gap with
  | nil => rfl
  | cons c g ih =>
    rw [List.cons_append, List.dropWhile_cons, if_pos (blank_space (hg c (by simp))), ih (fun d hd => hg d (by simp [hd]))]

/-- A blank and then the name of an attribute may follow every attribute. -/
theorem follows_blank (b : SrcAttr) {gap s : Str} (hn : gap ≠ []) (hg : ∀ c ∈ gap, HtmlBlank c)
    (hs : s.dropWhile isSpace = [] ∨ ∃ c r, s.dropWhile isSpace = c :: r ∧ c ≠ '=') : Follows b (gap ++ s) := by
  obtain ⟨c, r, rfl⟩ := List.exists_cons_of_ne_nil hn
  have hc := blank_space (hg c (by simp))
  exact ⟨.inr ⟨c, r ++ s, rfl, .inl hc⟩, by rw [dropBlank hg]; exact hs, fun _ _ _ => .inr ⟨c, r ++ s, rfl, .inl hc⟩⟩

theorem follows_attr (b : SrcAttr) {a : SrcAttr} (ha : Shape a) (s : Str) : Follows b (a.gap ++ (a.name ++ s)) := by
  refine follows_blank b ha.gap ha.blank (.inr ?_)
  obtain ⟨c, r, e, h1, _, _, h4⟩ := name_first ha s
  exact ⟨c, r, by rw [e, List.dropWhile_cons, if_neg (by simp [h1])], h4⟩

theorem attrsSrc_cons (a : SrcAttr) (as : List SrcAttr) (z : Str) :
    attrsSrc (a :: as) ++ z = a.gap ++ (a.name ++ (a.spelling.src ++ (attrsSrc as ++ z))) := by
  simp [attrsSrc, SrcAttr.src]

/-- The attributes are read as they are written. -/
theorem attrs_read {as : List SrcAttr} (has : ∀ a ∈ as, Shape a) {z : Str} (hz : ∀ a, as.getLast? = some a → Follows a z)
    {stop : Nat} (hstop : stop ≤ z.length) (p : Char) (f : Nat) :
    ∃ q, (as = [] → q = p) ∧ attrLoop stop (as.length + f) (skipSep p (attrsSrc as ++ z)).1 (skipSep p (attrsSrc as ++ z)).2 =
      (as.map (fun a => (a.name, rawVal a.spelling)) ++ (attrLoop stop f (skipSep q z).1 (skipSep q z).2).1,
        (attrLoop stop f (skipSep q z).1 (skipSep q z).2).2) := by
  induction as generalizing p with
  | nil => exact ⟨p, fun _ => rfl, by simp [attrsSrc]⟩
  | cons a as ih =>
    have ha := has a (by simp)
    have hfol : Follows a (attrsSrc as ++ z) := by
      cases as with
      | nil => exact hz a rfl
      | cons b bs => rw [attrsSrc_cons]; exact follows_attr a (has b (by simp)) _
    obtain ⟨c, r, e, h1, h2, _, _⟩ := name_first ha (a.spelling.src ++ (attrsSrc as ++ z))
    rw [attrsSrc_cons, skipSep_gap p ha.blank (.inr (.inr (.inr ⟨c, r, e, h1, h2⟩)))]
    obtain ⟨q, hq⟩ := attrAt_ok (gap_last p ha.gap ha.blank) ha hfol
    obtain ⟨q', _, hq'⟩ := ih (fun b hb => has b (by simp [hb])) (by
      intro b hb
      refine hz b ?_
      cases as with
      | nil => cases hb
      | cons d ds => simpa [List.getLast?_cons_cons] using hb) q
    refine ⟨q', fun h => (by cases h), ?_⟩
    have hlen : ¬ (a.name ++ (a.spelling.src ++ (attrsSrc as ++ z))).length ≤ stop := by
      have := List.length_pos_iff.2 ha.ne
      simp; omega
    rw [show (a :: as).length + f = (as.length + f) + 1 by simp; omega, attrLoop, if_neg hlen]
    simp only [hq, hq', List.map_cons, List.cons_append]

/-- What stands after the attributes of a whole tag. -/
structure TagEnd (as : List SrcAttr) (gap e after : Str) : Prop where
  shape : ∀ a ∈ as, Shape a
  blank : ∀ c ∈ gap, HtmlBlank c
  ends : e = '>' :: after ∨ (e = '/' :: '>' :: after ∧ (LastBare as → gap ≠ []))

theorem tagEnd_follows {as : List SrcAttr} {gap e after : Str} (h : TagEnd as gap e after) (a : SrcAttr)
    (ha : as.getLast? = some a) : Follows a (gap ++ e) := by
  by_cases hg : gap = []
  · subst hg
    rcases h.ends with rfl | ⟨rfl, hb⟩
    · exact ⟨.inr ⟨_, _, rfl, by simp⟩, .inr ⟨'>', after, rfl, by decide⟩, fun _ _ _ => .inr ⟨_, _, rfl, by simp⟩⟩
    · exact ⟨.inr ⟨_, _, rfl, by simp⟩, .inr ⟨'/', _, rfl, by decide⟩,
        fun raw v hs => absurd rfl (hb ⟨a, raw, v, ha, hs⟩)⟩
  · refine follows_blank a hg h.blank (.inr ?_)
    rcases h.ends with rfl | ⟨rfl, _⟩
    · exact ⟨'>', after, rfl, by decide⟩
    · exact ⟨'/', _, rfl, by decide⟩

theorem tagEnd_stop {as : List SrcAttr} {gap e after : Str} (h : TagEnd as gap e after) : AtStop e := by
  rcases h.ends with rfl | ⟨rfl, _⟩
  · exact .inr (.inl ⟨_, rfl⟩)
  · exact .inr (.inr (.inl ⟨_, rfl⟩))

theorem attrAt_gt (p : Char) (t : Str) : attrAt p ('>' :: t) = none := by
  rw [attrAt, if_neg (by simp)]

theorem attrAt_slash (p : Char) (t : Str) : attrAt p ('/' :: t) = none := by
  rw [attrAt, if_neg (by simp)]

theorem attrLoop_none {stop f : Nat} {p : Char} {s : Str} (h : attrAt p s = none) : attrLoop stop f p s = ([], s) := by
  cases f with
  | zero => rfl
  | succ f => simp [attrLoop, h]

theorem attrsSrc_len {as : List SrcAttr} (has : ∀ a ∈ as, Shape a) : as.length ≤ (attrsSrc as).length := by
  induction as with
  | nil => simp
  | cons a as ih =>
    have := ih (fun b hb => has b (by simp [hb]))
    have := List.length_pos_iff.2 (has a (by simp)).ne
    simp [attrsSrc, SrcAttr.src] at *
    omega

/-- After skipping blanks there is still a character for each attribute. -/
theorem skip_len {as : List SrcAttr} (has : ∀ a ∈ as, Shape a) (p : Char) (z : Str) (hz : AtStop z ∨ as ≠ []) :
    as.length + z.length ≤ (skipSep p (attrsSrc as ++ z)).2.length := by
  cases as with
  | nil =>
    rcases hz with hz | hz
    · simp [attrsSrc, skipSep_stop p hz]
    · simp at hz
  | cons a as =>
    have ha := has a (by simp)
    obtain ⟨c, r, e, h1, h2, _, _⟩ := name_first ha (a.spelling.src ++ (attrsSrc as ++ z))
    rw [attrsSrc_cons, skipSep_gap p ha.blank (.inr (.inr (.inr ⟨c, r, e, h1, h2⟩)))]
    have := attrsSrc_len (fun b hb => has b (by simp [hb]) : ∀ b ∈ as, Shape b)
    have := List.length_pos_iff.2 ha.ne
    simp; omega

theorem attrLoop_end {as : List SrcAttr} {gap e after : Str} (h : TagEnd as gap e after) (p : Char) {stop : Nat}
    (hstop : stop ≤ e.length) :
    attrLoop stop (skipSep p (attrsSrc as ++ (gap ++ e))).2.length (skipSep p (attrsSrc as ++ (gap ++ e))).1
      (skipSep p (attrsSrc as ++ (gap ++ e))).2 = (as.map (fun a => (a.name, rawVal a.spelling)), e) := by
  have hne : attrAt ' ' e = none ∧ ∀ q, attrAt q e = none := by
    rcases h.ends with rfl | ⟨rfl, _⟩
    · exact ⟨attrAt_gt _ _, fun q => attrAt_gt _ _⟩
    · exact ⟨attrAt_slash _ _, fun q => attrAt_slash _ _⟩
  have hlen : as.length ≤ (skipSep p (attrsSrc as ++ (gap ++ e))).2.length := by
    by_cases has : as = []
    · subst has; simp
    · have := skip_len h.shape p (gap ++ e) (.inr has); omega
  obtain ⟨f, hf⟩ := Nat.exists_eq_add_of_le hlen
  obtain ⟨q, _, hq⟩ := attrs_read h.shape (tagEnd_follows h) (stop := stop) (by simp; omega) p f
  rw [hf, hq, skipSep_gap q h.blank (tagEnd_stop h)]
  simp only [attrLoop_none (hne.2 _), List.append_nil]

/-- The blanks before the first attribute are skipped in the same way by both expressions. -/
theorem skip_same {a : SrcAttr} (ha : Shape a) (p : Char) (s : Str) :
    skipSlash p (a.gap ++ (a.name ++ s)) = skipSep p (a.gap ++ (a.name ++ s)) := by
  obtain ⟨c, r, e, h1, h2, _, _⟩ := name_first ha s
  rw [skipSep_gap p ha.blank (.inr (.inr (.inr ⟨c, r, e, h1, h2⟩))), skipSlash_gap p ha.blank (.inr ⟨c, r, e, h1, h2⟩)]

theorem tag_scan {tag : Str} (ht : TagName tag) {s : Str} (hs : s = [] ∨ ∃ c t, s = c :: t ∧ endsTagName c = true) :
    (tag ++ s).takeWhile (fun c => !endsTagName c) = tag := by
  obtain ⟨c, r, rfl, hc, hr⟩ := ht
  refine (takeWhile_stop ?_ ?_).1
  · intro d hd
    rcases List.mem_cons.1 hd with rfl | hd
    · simp only [endsTagName]
      rcases hc with hc | hc <;> simp <;> refine ⟨⟨⟨⟨⟨⟨⟨?_, ?_⟩, ?_⟩, ?_⟩, ?_⟩, ?_⟩, ?_⟩, ?_⟩ <;> rintro rfl <;> revert hc <;> decide
    · obtain ⟨h1, h2, h3, h4⟩ := hr d hd
      have : ∀ e, isSpace e = true → d ≠ e := fun e he hde => by rw [hde, he] at h1; cases h1
      simp [endsTagName, h2, h3, h4, this '\t' (by decide), this '\n' (by decide), this '\r' (by decide),
        this '\x0c' (by decide), this ' ' (by decide)]
  · rcases hs with rfl | ⟨c, t, rfl, h⟩
    · exact .inl rfl
    · exact .inr ⟨c, t, rfl, by simp [h]⟩

theorem blank_head {gap s : Str} (hg : ∀ c ∈ gap, HtmlBlank c)
    (hs : s = [] ∨ ∃ c t, s = c :: t ∧ endsTagName c = true) : gap ++ s = [] ∨ ∃ c t, gap ++ s = c :: t ∧ endsTagName c = true := by
  cases gap with
  | nil => exact hs
  | cons c g => exact .inr ⟨c, g ++ s, rfl, blank_ends (hg c (by simp))⟩

theorem attrs_head {as : List SrcAttr} (has : ∀ a ∈ as, Shape a) {s : Str}
    (hs : s = [] ∨ ∃ c t, s = c :: t ∧ endsTagName c = true) :
    attrsSrc as ++ s = [] ∨ ∃ c t, attrsSrc as ++ s = c :: t ∧ endsTagName c = true := by
  cases as with
  | nil => exact hs
  | cons a as =>
    have ha := has a (by simp)
    obtain ⟨c, r, e⟩ := List.exists_cons_of_ne_nil ha.gap
    rw [attrsSrc_cons, e]
    exact .inr ⟨c, _, rfl, blank_ends (ha.blank c (by rw [e]; simp))⟩

theorem tagEnd_head {as : List SrcAttr} {gap e after : Str} (h : TagEnd as gap e after) :
    attrsSrc as ++ (gap ++ e) = [] ∨ ∃ c t, attrsSrc as ++ (gap ++ e) = c :: t ∧ endsTagName c = true := by
  refine attrs_head h.shape (blank_head h.blank ?_)
  rcases h.ends with rfl | ⟨rfl, _⟩
  · exact .inr ⟨_, _, rfl, by decide⟩
  · exact .inr ⟨_, _, rfl, by decide⟩

/-- The end of a whole tag is found. -/
theorem whole_ok {tag : Str} (ht : TagName tag) {as : List SrcAttr} {gap e after : Str} (h : TagEnd as gap e after) :
    wholeStartTag (tag ++ (attrsSrc as ++ (gap ++ e))) = some after := by
  have hscan := tag_scan ht (tagEnd_head h)
  have key : locateEnd (tag ++ (attrsSrc as ++ (gap ++ e))) = e ∨
      locateEnd (tag ++ (attrsSrc as ++ (gap ++ e))) = '>' :: after := by
    simp only [locateEnd, hscan, List.drop_left]
    cases as with
    | nil =>
      right
      simp only [attrsSrc, List.flatMap_nil, List.nil_append]
      rcases h.ends with rfl | ⟨rfl, _⟩
      · rw [skipSlash_gap _ h.blank (.inr ⟨_, _, rfl, by decide, by decide⟩), attrLoop_none (attrAt_gt _ _)]
        rfl
      · have e2 : ∀ p, (skipSlash p (gap ++ '/' :: '>' :: after)).2 = '>' :: after := by
          intro p
          have : ∀ (g : Str) p, (∀ c ∈ g, HtmlBlank c) → (skipSlash p (g ++ '/' :: '>' :: after)).2 = '>' :: after := by
            intro g
            induction g with
            | nil => intro p _; simp [skipSlash, show isSpace '>' = false by decide]
            | cons c g ih =>
              intro p hg
              rw [List.cons_append, skipSlash, if_pos (by simp [blank_space (hg c (by simp))])]
              exact ih c (fun d hd => hg d (by simp [hd]))
          exact this gap p h.blank
        rw [e2, attrLoop_none (attrAt_gt _ _)]
        rfl
    | cons a as =>
      left
      rw [attrsSrc_cons, skip_same (h.shape a (by simp)), ← attrsSrc_cons, attrLoop_end h _ (Nat.zero_le _)]
      rcases h.ends with rfl | ⟨rfl, _⟩ <;> rfl
  rw [wholeStartTag]
  rcases key with k | k <;> rw [k]
  · rcases h.ends with rfl | ⟨rfl, _⟩ <;> rfl
  · rfl

/-- A whole tag is read as it is meant. -/
theorem parseStart_ok (u : Uni) (cd : Option Str) {tag : Str} (ht : TagName tag) {as : List SrcAttr} (has : ∀ a ∈ as, a.Ok u.entity)
    {gap e after : Str} (h : TagEnd as gap e after) :
    parseStart u cd (tag ++ (attrsSrc as ++ (gap ++ e))) = some
      (if e = '>' :: after then
        ⟨[.start (u.lower tag) (attrsMeaning u.lower as)], after,
          if u.lower tag = py"script" ∨ u.lower tag = py"style" then some (u.lower tag) else cd⟩
      else ⟨[.start (u.lower tag) (attrsMeaning u.lower as), .stop (u.lower tag)], after, cd⟩) := by
  have hscan := tag_scan ht (tagEnd_head h)
  have hat : List.map (fun a => (u.lower a.1, a.2.map (unescape u))) (as.map (fun a => (a.name, rawVal a.spelling))) =
      attrsMeaning u.lower as := by
    simp only [attrsMeaning, List.map_map]
    refine List.map_congr_left fun a ha => ?_
    simp only [Function.comp, ok_value u (has a ha)]
  have hl : after.length ≤ e.length := by rcases h.ends with rfl | ⟨rfl, _⟩ <;> simp <;> omega
  simp only [parseStart, whole_ok ht h, Option.map_some, hscan, List.drop_left, attrLoop_end h _ hl, hat]
  rcases h.ends with rfl | ⟨rfl, _⟩
  · have : strip (List.take (('>' :: after).length - after.length) ('>' :: after)) = py">" := by simp; decide
    rw [this, if_neg (by decide), if_pos rfl, if_pos rfl]
  · have : strip (List.take (('/' :: '>' :: after).length - after.length) ('/' :: '>' :: after)) = py"/>" := by
      rw [show ('/' :: '>' :: after).length - after.length = 2 by simp; omega]; simp; decide
    rw [this, if_pos rfl, if_neg (by simp)]

/-! ## Tags that are not complete -/

/-- What stands after the last whole attribute if a tag is cut. -/
inductive CutEnd (as : List SrcAttr) : Str → Prop
  | blank (g : Str) : (∀ c ∈ g, HtmlBlank c) → CutEnd as g
  | slash (g : Str) : (∀ c ∈ g, HtmlBlank c) → (LastBare as → g ≠ []) → CutEnd as (g ++ ['/'])
  | value (a : SrcAttr) (v : Str) : Shape a →
      (v = [] ∨ ∃ q raw, v = q :: raw ∧ (q = '"' ∨ q = '\'') ∧ q ∉ raw) → CutEnd as (a.gap ++ (a.name ++ '=' :: v))

theorem dropBlank_all {g : Str} (hg : ∀ c ∈ g, HtmlBlank c) : g.dropWhile isSpace = [] := by
  have := dropBlank (s := []) hg
  simpa using this

theorem cutEnd_follows {as : List SrcAttr} {z : Str} (h : CutEnd as z) (a : SrcAttr) (ha : as.getLast? = some a) :
    Follows a z := by
  cases h with
  | blank _ hg =>
    have := dropBlank_all hg
    cases z with
    | nil => exact ⟨.inl rfl, .inl rfl, fun _ _ _ => .inl rfl⟩
    | cons c g =>
      have hc := blank_space (hg c (by simp))
      exact ⟨.inr ⟨c, g, rfl, .inl hc⟩, .inl this, fun _ _ _ => .inr ⟨c, g, rfl, .inl hc⟩⟩
  | slash g hg hb =>
    by_cases hn : g = []
    · subst hn
      exact ⟨.inr ⟨'/', [], rfl, by simp⟩, .inr ⟨'/', [], rfl, by decide⟩,
        fun raw v hs => absurd rfl (hb ⟨a, raw, v, ha, hs⟩)⟩
    · exact follows_blank a hn hg (.inr ⟨'/', [], rfl, by decide⟩)
  | value b v hb hv => exact follows_attr a hb _

theorem skipSep_all (p : Char) {g : Str} (hg : ∀ c ∈ g, HtmlBlank c) : (skipSep p g).2 = [] := by
  have := skipSep_gap p hg (s := []) (.inl rfl)
  rw [List.append_nil] at this
  rw [this]

theorem skipSep_slash (p : Char) {g : Str} (hg : ∀ c ∈ g, HtmlBlank c) : (skipSep p (g ++ ['/'])).2 = [] := by
  induction g generalizing p with
  | nil => simp [skipSep]
  | cons c g ih =>
    rw [List.cons_append, skipSep, if_pos (blank_space (hg c (by simp)))]
    exact ih c (fun d hd => hg d (by simp [hd]))

theorem attrLoop_nil (stop f : Nat) (p : Char) : attrLoop stop f p [] = ([], []) := by
  cases f <;> simp [attrLoop]

/-- The expression stops at the end, or at the `=` before a value that is not complete. -/
theorem loop_value {a : SrcAttr} (ha : Shape a) {v : Str}
    (hv : v = [] ∨ ∃ q raw, v = q :: raw ∧ (q = '"' ∨ q = '\'') ∧ q ∉ raw) (p : Char) (hp : mayStartAttr p = true) (f : Nat) :
    (attrLoop 0 (f + 1) p (a.name ++ '=' :: v)).2 = [] ∨ ∃ r, (attrLoop 0 (f + 1) p (a.name ++ '=' :: v)).2 = '=' :: r := by
  obtain ⟨c, r, e⟩ := List.exists_cons_of_ne_nil ha.ne
  have hc := ha.name c (by rw [e]; simp)
  have hr : ∀ d ∈ r, AttrNameChar d := fun d hd => ha.name d (by rw [e]; simp [hd])
  have hstart : (mayStartAttr p && !(isSpace c || c == '/' || c == '>')) = true := by
    obtain ⟨h1, h2, h3, _⟩ := hc
    simp [*]
  have hst := name_stop (s := '=' :: v) (.inr ⟨'=', _, rfl, by decide⟩) hr
  have hlast : mayStartAttr ((c :: r).getLast?.getD c) = false := by
    rw [List.getLast?_eq_some_getLast (by simp)]
    obtain ⟨h1, h2, _, _, h5, h6⟩ := ha.name _ (by rw [e]; exact List.getLast_mem (by simp : c :: r ≠ []))
    simp [mayStartAttr, *]
  rw [e, List.cons_append, attrLoop, if_neg (by simp), attrAt, if_pos hstart]
  simp only [hst.1, hst.2]
  rcases hv with rfl | ⟨q, raw, rfl, hq, hn⟩
  · left
    rw [show attrValue ['='] = some ([], '=', []) by decide]
    simp [skipSep, attrLoop_nil]
  · right
    rw [attrValue_unclosed hq hn]
    simp only
    rw [skipSep_stop _ (.inr (.inr (.inr ⟨'=', _, rfl, by decide, by decide⟩))), attrLoop_none]
    · exact ⟨_, rfl⟩
    · rw [attrAt, if_neg (by simp [hlast])]

theorem cutEnd_head {as : List SrcAttr} {z : Str} (h : CutEnd as z) : z = [] ∨ ∃ c t, z = c :: t ∧ endsTagName c = true := by
  cases h with
  | blank _ hg => have := blank_head hg (.inl rfl); simpa using this
  | slash g hg _ => exact blank_head hg (.inr ⟨_, _, rfl, by decide⟩)
  | value a v ha _ =>
    obtain ⟨c, r, e⟩ := List.exists_cons_of_ne_nil ha.gap
    exact .inr ⟨c, r ++ (a.name ++ '=' :: v), by rw [e]; rfl, blank_ends (ha.blank c (by rw [e]; simp))⟩

theorem loop_cut {as : List SrcAttr} (has : ∀ a ∈ as, Shape a) {z : Str} (h : CutEnd as z) (p : Char) (hn : as ≠ [] ∨ ∃ a v, Shape a ∧ z = a.gap ++ (a.name ++ '=' :: v)) :
    (attrLoop 0 (skipSep p (attrsSrc as ++ z)).2.length (skipSep p (attrsSrc as ++ z)).1 (skipSep p (attrsSrc as ++ z)).2).2
      = [] ∨ ∃ r, (attrLoop 0 (skipSep p (attrsSrc as ++ z)).2.length (skipSep p (attrsSrc as ++ z)).1
        (skipSep p (attrsSrc as ++ z)).2).2 = '=' :: r := by
  have hlen : as.length ≤ (skipSep p (attrsSrc as ++ z)).2.length ∧
      (z ≠ [] → as.length < (skipSep p (attrsSrc as ++ z)).2.length) := by
    by_cases has' : as = []
    · subst has'
      rcases hn with hn | ⟨a, v, ha, rfl⟩
      · exact absurd rfl hn
      · refine ⟨by simp, fun _ => ?_⟩
        obtain ⟨c, r, e, h1, h2, _, _⟩ := name_first ha ('=' :: v)
        simp only [attrsSrc, List.flatMap_nil, List.nil_append]
        rw [skipSep_gap p ha.blank (.inr (.inr (.inr ⟨c, r, e, h1, h2⟩))), e]
        simp
    · have := skip_len has p z (.inr has')
      refine ⟨by omega, fun hz => ?_⟩
      have := List.length_pos_iff.2 hz
      omega
  obtain ⟨f, hf⟩ := Nat.exists_eq_add_of_le hlen.1
  obtain ⟨q, _, hq⟩ := attrs_read has (cutEnd_follows h) (Nat.zero_le _) p f
  rw [hf, hq]
  simp only
  cases h with
  | blank _ hg => left; rw [skipSep_all _ hg, attrLoop_nil]
  | slash g hg _ => left; rw [skipSep_slash _ hg, attrLoop_nil]
  | value a v ha hv =>
    have : f ≠ 0 := by
      intro h0
      have := hlen.2 (by simp)
      omega
    obtain ⟨f, rfl⟩ := Nat.exists_eq_succ_of_ne_zero this
    obtain ⟨c, r, e, h1, h2, _, _⟩ := name_first ha ('=' :: v)
    rw [skipSep_gap q ha.blank (.inr (.inr (.inr ⟨c, r, e, h1, h2⟩)))]
    exact loop_value ha hv _ (gap_last q ha.gap ha.blank) f

/-- A tag that is cut is not complete. -/
theorem whole_cut {tag : Str} (ht : TagName tag) {as : List SrcAttr} (has : ∀ a ∈ as, Shape a) {z : Str} (h : CutEnd as z) :
    wholeStartTag (tag ++ (attrsSrc as ++ z)) = none := by
  have hscan := tag_scan ht (attrs_head has (cutEnd_head h))
  have key : locateEnd (tag ++ (attrsSrc as ++ z)) = [] ∨ ∃ r, locateEnd (tag ++ (attrsSrc as ++ z)) = '=' :: r := by
    simp only [locateEnd, hscan, List.drop_left]
    have fin : ∀ s : Str, (s = [] ∨ ∃ r, s = '=' :: r) → s.dropWhile isSpace = [] ∨ ∃ r, s.dropWhile isSpace = '=' :: r := by
      rintro s (rfl | ⟨r, rfl⟩)
      · exact .inl rfl
      · exact .inr ⟨r, rfl⟩
    cases as with
    | cons a as =>
      rw [attrsSrc_cons, skip_same (has a (by simp)), ← attrsSrc_cons]
      exact fin _ (loop_cut has h _ (.inl (by simp)))
    | nil =>
      have h' := h
      cases h with
      | blank _ hg =>
        left
        simp only [attrsSrc, List.flatMap_nil, List.nil_append]
        rw [skipSlash_all _ (fun c hc => .inl (hg c hc)), attrLoop_nil]
        rfl
      | slash g hg _ =>
        left
        simp only [attrsSrc, List.flatMap_nil, List.nil_append]
        rw [skipSlash_all, attrLoop_nil]
        · rfl
        · intro c hc
          rcases List.mem_append.1 hc with hc | hc
          · exact .inl (hg c hc)
          · exact .inr (by simpa using hc)
      | value a v ha hv =>
        have e : skipSlash (tag.getLast?.getD ' ') (attrsSrc [] ++ (a.gap ++ (a.name ++ '=' :: v))) =
            skipSep (tag.getLast?.getD ' ') (attrsSrc [] ++ (a.gap ++ (a.name ++ '=' :: v))) := skip_same ha _ _
        rw [e]
        exact fin _ (loop_cut has h' _ (.inr ⟨a, v, ha, rfl⟩))
  rw [wholeStartTag]
  rcases key with k | ⟨r, k⟩ <;> rw [k]
  rfl

/-- Cutting a list in two parts. -/
theorem cut_append {α} {a b x y : List α} (h : a ++ b = x ++ y) :
    (∃ c, a = x ++ c ∧ y = c ++ b ∧ c ≠ []) ∨ ∃ c, x = a ++ c ∧ b = c ++ y := by
  rcases List.append_eq_append_iff.1 h with ⟨c, h1, h2⟩ | ⟨c, h1, h2⟩
  · exact .inr ⟨c, h1, h2⟩
  · by_cases hc : c = []
    · subst hc; exact .inr ⟨[], by simpa using h1.symm, by simpa using h2.symm⟩
    · exact .inl ⟨c, h1, h2, hc⟩

theorem shape_absent {gap name : Str} (h1 : gap ≠ []) (h2 : ∀ c ∈ gap, HtmlBlank c) (h3 : name ≠ [])
    (h4 : ∀ c ∈ name, AttrNameChar c) : Shape ⟨gap, name, .absent⟩ :=
  ⟨h1, h2, h3, h4, fun _ _ h => (by cases h), fun _ _ h => (by cases h), fun _ _ h => (by cases h)⟩

/-- An attribute that is cut. -/
theorem cut_attr {a : SrcAttr} (ha : Shape a) {x y : Str} (h : a.src = x ++ y) (hy : y ≠ []) :
    ∃ as z, x = attrsSrc as ++ z ∧ (∀ a ∈ as, Shape a) ∧ ∀ pre, CutEnd (pre ++ as) z := by
  obtain ⟨gap, name, sp⟩ := a
  simp only [SrcAttr.src] at h
  rcases cut_append h with ⟨c, h1, h2, hc⟩ | ⟨x1, rfl, h1⟩
  · exact ⟨[], x, rfl, by simp, fun _ => .blank _ (fun d hd => ha.blank d (by simp [h1, hd]))⟩
  · rcases cut_append h1 with ⟨c, h2, h3, hc⟩ | ⟨x2, rfl, h2⟩
    · by_cases hx : x1 = []
      · subst hx
        exact ⟨[], gap, by simp [attrsSrc], by simp, fun _ => .blank _ ha.blank⟩
      · refine ⟨[⟨gap, x1, .absent⟩], [], by simp [attrsSrc, SrcAttr.src, Spelling.src], ?_, fun _ => .blank _ (by simp)⟩
        intro b hb
        rw [List.mem_singleton.1 hb]
        exact shape_absent ha.gap ha.blank hx (fun d hd => ha.name d (by simp [h2, hd]))
    · by_cases hx : x2 = []
      · subst hx
        refine ⟨[⟨gap, name, .absent⟩], [], by simp [attrsSrc, SrcAttr.src, Spelling.src], ?_, fun _ => .blank _ (by simp)⟩
        intro b hb
        rw [List.mem_singleton.1 hb]
        exact shape_absent ha.gap ha.blank ha.ne ha.name
      · obtain ⟨d, x3, rfl⟩ := List.exists_cons_of_ne_nil hx
        have quote : ∀ q raw, (q = '"' ∨ q = '\'') → q ∉ raw → q :: (raw ++ [q]) = x3 ++ y →
            (x3 = [] ∨ ∃ q raw, x3 = q :: raw ∧ (q = '"' ∨ q = '\'') ∧ q ∉ raw) := by
          intro q raw hq hn e
          cases x3 with
          | nil => exact .inl rfl
          | cons q' x4 =>
            simp only [List.cons_append, List.cons.injEq] at e
            obtain ⟨rfl, e⟩ := e
            refine .inr ⟨q, x4, rfl, hq, ?_⟩
            rcases cut_append e with ⟨c, e1, _, _⟩ | ⟨c, e1, e2⟩
            · rw [e1] at hn
              exact fun hm => hn (by simp [hm])
            · cases c with
              | nil => rw [e1]; simpa using hn
              | cons _ c =>
                simp only [List.cons_append, List.cons.injEq] at e2
                exact absurd (List.append_eq_nil_iff.1 e2.2.symm).2 hy
        have value : ∀ v, d = '=' → (x3 = [] ∨ ∃ q raw, x3 = q :: raw ∧ (q = '"' ∨ q = '\'') ∧ q ∉ raw) → v = x3 →
            ∃ as z, gap ++ (name ++ d :: x3) = attrsSrc as ++ z ∧ (∀ a ∈ as, Shape a) ∧ ∀ pre, CutEnd (pre ++ as) z := by
          intro v hd hv _
          subst hd
          refine ⟨[], gap ++ (name ++ '=' :: x3), by simp [attrsSrc], by simp, fun pre => ?_⟩
          exact .value (as := pre ++ []) ⟨gap, name, .absent⟩ x3 (shape_absent ha.gap ha.blank ha.ne ha.name) hv
        cases sp with
        | absent => simp [Spelling.src] at h2
        | double raw v =>
          simp only [Spelling.src, List.cons_append, List.nil_append, List.cons.injEq] at h2
          exact value x3 h2.1.symm (quote '"' raw (.inl rfl) (ha.double _ _ rfl) h2.2) rfl
        | single raw v =>
          simp only [Spelling.src, List.cons_append, List.nil_append, List.cons.injEq] at h2
          exact value x3 h2.1.symm (quote '\'' raw (.inr rfl) (ha.single _ _ rfl) h2.2) rfl
        | bare raw v =>
          simp only [Spelling.src, List.cons_append, List.cons.injEq] at h2
          by_cases h3 : x3 = []
          · exact value x3 h2.1.symm (.inl h3) rfl
          · obtain ⟨⟨c, r, hr, h4⟩, h5⟩ := ha.bare _ _ rfl
            obtain ⟨c', x4, rfl⟩ := List.exists_cons_of_ne_nil h3
            have hraw := h2.2
            rw [hr] at hraw
            simp only [List.cons_append, List.cons.injEq] at hraw
            obtain ⟨rfl, hraw⟩ := hraw
            refine ⟨[⟨gap, name, .bare (c :: x4) v⟩], [], ?_, ?_, fun _ => .blank _ (by simp)⟩
            · rw [← h2.1]; simp [attrsSrc, SrcAttr.src, Spelling.src]
            · intro b hb
              rw [List.mem_singleton.1 hb]
              refine ⟨ha.gap, ha.blank, ha.ne, ha.name, fun _ _ h => (by cases h), fun _ _ h => (by cases h), ?_⟩
              intro raw' v' e
              cases e
              exact ⟨⟨c, x4, rfl, h4⟩, fun k hk => h5 k (by rw [h2.2]; exact List.mem_append_left _ hk)⟩

/-- The part of a tag after the name, cut. -/
theorem cut_tag {as : List SrcAttr} {gap e : Str} (has : ∀ a ∈ as, Shape a) (hg : ∀ c ∈ gap, HtmlBlank c)
    (he : e = ['>'] ∨ (e = ['/', '>'] ∧ (LastBare as → gap ≠ []))) {x y : Str} (h : attrsSrc as ++ (gap ++ e) = x ++ y)
    (hy : y ≠ []) : ∃ as' z, x = attrsSrc as' ++ z ∧ (∀ a ∈ as', Shape a) ∧ CutEnd as' z := by
  have key : ∀ (pre as : List SrcAttr), (∀ a ∈ as, Shape a) → (e = ['>'] ∨ (e = ['/', '>'] ∧ (LastBare (pre ++ as) → gap ≠ []))) →
      ∀ x, attrsSrc as ++ (gap ++ e) = x ++ y →
      ∃ as' z, x = attrsSrc as' ++ z ∧ (∀ a ∈ as', Shape a) ∧ CutEnd (pre ++ as') z := by
    intro pre as
    induction as generalizing pre with
    | nil =>
      intro _ he x h
      refine ⟨[], x, by simp [attrsSrc], by simp, ?_⟩
      simp only [attrsSrc, List.flatMap_nil, List.nil_append] at h
      rcases cut_append h with ⟨c, h1, h2, hc⟩ | ⟨x1, rfl, h1⟩
      · exact .blank _ (fun d hd => hg d (by simp [h1, hd]))
      · cases x1 with
        | nil => exact .blank _ (by simpa using hg)
        | cons d x2 =>
          rcases he with rfl | ⟨rfl, hb⟩
          · simp only [List.cons_append, List.cons.injEq] at h1
            exact absurd (List.append_eq_nil_iff.1 h1.2.symm).2 hy
          · simp only [List.cons_append, List.cons.injEq] at h1
            cases x2 with
            | nil => rw [← h1.1]; exact .slash _ hg hb
            | cons d' x3 =>
              simp only [List.cons_append, List.cons.injEq] at h1
              exact absurd (List.append_eq_nil_iff.1 h1.2.2.symm).2 hy
    | cons a as ih =>
      intro has he x h
      have e1 : attrsSrc (a :: as) ++ (gap ++ e) = a.src ++ (attrsSrc as ++ (gap ++ e)) := by simp [attrsSrc]
      rw [e1] at h
      rcases cut_append h with ⟨c, h1, h2, hc⟩ | ⟨x1, rfl, h1⟩
      · obtain ⟨as', z, h3, h4, h5⟩ := cut_attr (has a (by simp)) h1 hc
        exact ⟨as', z, h3, h4, h5 pre⟩
      · obtain ⟨as', z, h3, h4, h5⟩ := ih (pre ++ [a]) (fun b hb => has b (by simp [hb])) (by simpa using he) x1 h1
        refine ⟨a :: as', z, by rw [h3]; simp [attrsSrc], ?_, by simpa using h5⟩
        intro b hb
        rcases List.mem_cons.1 hb with rfl | hb
        · exact has b (by simp)
        · exact h4 b hb
  exact key [] as has he x h

theorem tagName_prefix {tag x y : Str} (ht : TagName tag) (h : tag = x ++ y) (hx : x ≠ []) : TagName x := by
  obtain ⟨c, r, rfl, h1, h2⟩ := ht
  obtain ⟨c', x', rfl⟩ := List.exists_cons_of_ne_nil hx
  simp only [List.cons_append, List.cons.injEq] at h
  obtain ⟨rfl, rfl⟩ := h
  exact ⟨c, x', rfl, h1, fun d hd => h2 d (by simp [hd])⟩

theorem parseStart_cut (u : Uni) (cd : Option Str) {tag : Str} (ht : TagName tag) {as : List SrcAttr} {gap e : Str}
    (has : ∀ a ∈ as, Shape a) (hg : ∀ c ∈ gap, HtmlBlank c)
    (he : e = ['>'] ∨ (e = ['/', '>'] ∧ (LastBare as → gap ≠ []))) {x y : Str}
    (h : tag ++ (attrsSrc as ++ (gap ++ e)) = x ++ y) (hx : x ≠ []) (hy : y ≠ []) : parseStart u cd x = none := by
  have : wholeStartTag x = none := by
    rcases cut_append h with ⟨c, h1, h2, hc⟩ | ⟨x1, rfl, h1⟩
    · have := whole_cut (tagName_prefix ht h1 hx) (as := []) (by simp) (z := []) (.blank _ (by simp))
      simpa [attrsSrc] using this
    · obtain ⟨as', z, rfl, h3, h4⟩ := cut_tag has hg he h1 hy
      exact whole_cut ht h3 h4
  simp [parseStart, this]

end Verif
