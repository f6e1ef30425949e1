import Verif.Proofs.CssLex
import Verif.Spec.CssText

/-!
# The tokens of selectors

What the tokenizer makes of the words of `Verif/Spec/CssText.lean`, whatever follows them.
-/

namespace Verif
open Verif.Spec

theorem blank_iff (c : Char) : cssBlank c = true ↔ CssSpace c := by
  simp [cssBlank, CssSpace, or_assoc]

theorem start_iff (c : Char) : cssStart c = true ↔ IdentStart c := by
  simp [cssStart, IdentStart, or_assoc]

theorem name_iff (c : Char) : cssName c = true ↔ IdentChar c := by
  simp [cssName, IdentChar, start_iff, or_assoc]

/-- Nothing that would belong to a name. -/
def NameEnd (s : Str) : Prop := ∀ c, s.head? = some c → cssName c = false ∧ c ≠ '\\'

/-- Nothing that would belong to white space. -/
def BlankEnd (s : Str) : Prop := ∀ c, s.head? = some c → cssBlank c = false

theorem nameEnd_nil : NameEnd [] := by intro c h; cases h

theorem nameEnd_cons {c : Char} {s : Str} (h : cssName c = false ∧ c ≠ '\\') : NameEnd (c :: s) := by
  intro d hd; cases hd; exact h

theorem blankEnd_nil : BlankEnd [] := by intro c h; cases h

theorem blankEnd_cons {c : Char} {s : Str} (h : cssBlank c = false) : BlankEnd (c :: s) := by
  intro d hd; cases hd; exact h

theorem space_nameEnd {c : Char} (h : CssSpace c) : cssName c = false ∧ c ≠ '\\' := by
  rcases h with rfl | rfl | rfl | rfl | rfl <;> decide

theorem nameEnd_comment {c rest : Str} : NameEnd (commentSrc c ++ rest) := nameEnd_cons (by decide)

theorem nameEnd_comments {l : List Str} {rest : Str} (h : NameEnd rest) : NameEnd (l.flatMap commentSrc ++ rest) := by
  cases l with
  | nil => exact h
  | cons c l => rw [List.flatMap_cons, List.append_assoc]; exact nameEnd_comment

theorem nameEnd_blanks {b rest : Str} (hb : ∀ c ∈ b, CssSpace c) (h : NameEnd rest) : NameEnd (b ++ rest) := by
  cases b with
  | nil => exact h
  | cons c b => exact nameEnd_cons (space_nameEnd (hb c (by simp)))

theorem nameEnd_gap {g : CssGap} {rest : Str} (hg : g.Ok) (h : NameEnd rest) : NameEnd (g.src ++ rest) := by
  rw [CssGap.src, List.append_assoc, List.append_assoc]
  exact nameEnd_comments (nameEnd_blanks hg.2 (nameEnd_comments h))

theorem name_not_bs {c : Char} (h : IdentChar c) : c ≠ '\\' := by
  rintro rfl
  rw [← name_iff] at h
  revert h; decide

theorem start_name {c : Char} (h : IdentStart c) : IdentChar c := .inl h

theorem start_not_blank {c : Char} (h : IdentChar c) : cssBlank c = false := by
  cases hb : cssBlank c with
  | false => rfl
  | true =>
    have := (space_nameEnd ((blank_iff c).mp hb)).1
    rw [(name_iff c).mpr h] at this
    cases this

theorem namePiece_char {b : Bool} {c : Char} {r : Str} (h : IdentChar c) (hs : b = true → IdentStart c) :
    namePiece b (c :: r) = some ([c], r) := by
  rw [namePiece, if_neg (name_not_bs h)]
  cases b with
  | false => simp [(name_iff c).mpr h]
  | true => simp [(start_iff c).mpr (hs rfl)]

theorem namePiece_end {b : Bool} {s : Str} (h : NameEnd s) : namePiece b s = none := by
  cases s with
  | nil => rfl
  | cons c r =>
    obtain ⟨h1, h2⟩ := h c rfl
    have h3 : cssStart c = false := by
      cases hc : cssStart c with
      | false => rfl
      | true => simp [cssName, hc] at h1
    rw [namePiece, if_neg h2]
    cases b <;> simp [h1, h3]

theorem nameRun_end {f : Nat} {s : Str} (h : NameEnd s) : nameRun f s = ([], s) := by
  cases f with
  | zero => rfl
  | succ f => rw [nameRun, namePiece_end h]

/-! ### Escapes -/

theorem hex_iff (c : Char) : cssHex c = true ↔ c ∈ hexDigits := by
  constructor
  · intro h
    simp only [cssHex, Bool.or_eq_true, Bool.and_eq_true, decide_eq_true_eq] at h
    have key : ∀ a b : Nat, a ≤ c.toNat ∧ c.toNat ≤ b → c ∈ (List.range (b + 1)).map Char.ofNat := by
      intro a b hb
      exact List.mem_map.mpr ⟨c.toNat, List.mem_range.mpr (by omega), Char.ofNat_toNat c⟩
    have le : ∀ {a b : Char}, a ≤ b ↔ a.toNat ≤ b.toNat := by
      intro a b; simp [Char.le_def, UInt32.le_iff_toNat_le]
    have sub : ∀ d ∈ (List.range 103).map Char.ofNat, cssHex d = true → d ∈ hexDigits := by decide
    refine sub c ?_ (by simpa [cssHex] using h)
    refine List.mem_map.mpr ⟨c.toNat, List.mem_range.mpr ?_, Char.ofNat_toNat c⟩
    rcases h with (h | h) | h <;> have := le.mp h.2 <;> simp at this <;> omega
  · have : ∀ d ∈ hexDigits, cssHex d = true := by decide
    exact this c

theorem hex_plain {c : Char} (h : c ∈ hexDigits) : c ≠ '\\' ∧ cssNewline c = false ∧ cssBlank c = false := by
  have : ∀ d ∈ hexDigits, d ≠ '\\' ∧ cssNewline d = false ∧ cssBlank d = false := by decide
  exact this c h

/-- Nothing that would belong to the number of a character. -/
def CodeStop (ds s : Str) : Prop := ∀ c, s.head? = some c → cssBlank c = false ∧ (ds.length = 6 ∨ cssHex c = false)

theorem hexRun_digits : ∀ (n : Nat) (ds s : Str), (∀ c ∈ ds, c ∈ hexDigits) → ds.length ≤ n →
    (ds.length = n ∨ ∀ c, s.head? = some c → cssHex c = false) → hexRun n (ds ++ s) = (ds, s)
  | 0, [], s, _, _, _ => by simp [hexRun]
  | 0, c :: ds, s, _, h, _ => by simp at h
  | n + 1, [], s, _, _, h => by
    rcases h with h | h
    · simp at h
    · cases s with
      | nil => simp [hexRun]
      | cons c r => simp [hexRun, h c rfl]
  | n + 1, c :: ds, s, hd, hl, h => by
    rw [List.cons_append, hexRun, if_pos ((hex_iff c).mpr (hd c (by simp))),
      hexRun_digits n ds s (fun x hx => hd x (by simp [hx])) (by simpa using hl) (by simpa using h)]

/-- The blanks that may end a number. -/
def codeBlanks : List Str := [[], py" ", py"\t", py"\n", py"\x0c", py"\r\n"]

theorem hexRun_code {ds b s : Str} (hd : ∀ c ∈ ds, c ∈ hexDigits) (hl : ds.length ≤ 6) (hb : b ∈ codeBlanks) (h : b = [] → CodeStop ds s) :
    hexRun 6 (ds ++ (b ++ s)) = (ds, b ++ s) ∧ escBlank (b ++ s) = (b, s) := by
  have cases6 : b = [] ∨ b = py" " ∨ b = py"\t" ∨ b = py"\n" ∨ b = py"\x0c" ∨ b = py"\r\n" := by
    simpa [codeBlanks] using hb
  constructor
  · apply hexRun_digits 6 ds _ hd hl
    rcases cases6 with rfl | rfl | rfl | rfl | rfl | rfl
    · by_cases h6 : ds.length = 6
      · exact .inl h6
      · refine .inr (fun c hc => ?_)
        rcases (h rfl c hc).2 with h' | h'
        · exact absurd h' h6
        · exact h'
    all_goals exact .inr (by intro c hc; cases hc; decide)
  · rcases cases6 with rfl | rfl | rfl | rfl | rfl | rfl
    · cases s with
      | nil => rfl
      | cons c r =>
        have hc := (h rfl c rfl).1
        rw [List.nil_append]
        unfold escBlank
        split
        · rename_i e; cases e; exact absurd hc (by decide)
        · rename_i e; cases e; simp [hc]
        · rename_i e; cases e
    all_goals rfl

theorem cssEscape_code {ds b s : Str} (hn : ds ≠ []) (hd : ∀ c ∈ ds, c ∈ hexDigits) (hl : ds.length ≤ 6) (hb : b ∈ codeBlanks)
    (h : b = [] → CodeStop ds s) : cssEscape (ds ++ (b ++ s)) = some ('\\' :: (ds ++ b), s) := by
  obtain ⟨h1, h2⟩ := hexRun_code hd hl hb h
  cases ds with
  | nil => exact absurd rfl hn
  | cons c ds =>
    simp only [List.cons_append] at h1 ⊢
    rw [cssEscape]
    simp only [(hex_iff c).mpr (hd c (by simp)), if_true, h1, h2, List.cons_append]

theorem escaped_plain {c : Char} (h : c ∉ py"\n\r\x0c\\") : cssNewline c = false ∧ c ≠ '\\' ∧ c ≠ '\r' ∧ c ≠ '\n' := by
  simp only [List.mem_cons, not_or, List.not_mem_nil, not_false_eq_true, and_true] at h
  obtain ⟨h1, h2, h3, h4⟩ := h
  exact ⟨by simp [cssNewline, h1, h2, h3], h4, h2, h1⟩

theorem cssEscape_escaped {c : Char} {s : Str} (h : c ∉ hexDigits) (h2 : c ∉ py"\n\r\x0c\\") :
    cssEscape (c :: s) = some (['\\', c], s) := by
  rw [cssEscape]
  have h3 : cssHex c = false := by
    cases hc : cssHex c with
    | false => rfl
    | true => exact absurd ((hex_iff c).mp hc) h
  simp [h3, (escaped_plain h2).1]

/-- What a number at the beginning of a word needs after it. -/
theorem code_stop {b : Bool} {ds : Str} {w : CssWord} {P : Char → Prop} (hw : ∀ x ∈ w, x.InString P)
    (h : CodesEnd b (.code ds [] :: w)) {rest : Str} (hr : b = true → CodeStop ds rest) : CodeStop ds (wordSrc w ++ rest) := by
  have h1 := h.1 rfl
  cases w with
  | nil => exact hr h1
  | cons x w =>
    cases x with
    | plain c =>
      simp only at h1
      intro d hd
      have : d = c := by simpa [wordSrc, CssChar.src] using hd.symm
      subst this
      refine ⟨?_, ?_⟩
      · cases hb : cssBlank d with
        | false => rfl
        | true => exact absurd ((blank_iff d).mp hb) h1.1
      · rcases h1.2 with h2 | h2
        · exact .inl h2
        · refine .inr ?_
          cases hx : cssHex d with
          | false => rfl
          | true => exact absurd ((hex_iff d).mp hx) h2
    | code ds' b' =>
      intro d hd
      have : d = '\\' := by simpa [wordSrc, CssChar.src] using hd.symm
      subst this
      exact ⟨by decide, .inr (by decide)⟩
    | escaped c =>
      intro d hd
      have : d = '\\' := by simpa [wordSrc, CssChar.src] using hd.symm
      subst this
      exact ⟨by decide, .inr (by decide)⟩
    | joint nl => exact absurd h1 (by simp)

theorem codesEnd_tail {b : Bool} {x : CssChar} {w : CssWord} (h : CodesEnd b (x :: w)) : CodesEnd b w := by
  cases x with
  | code ds bl => exact h.2
  | plain c => exact h
  | escaped c => exact h
  | joint nl => exact h

theorem ok_inString {P : Char → Prop} {x : CssChar} (h : x.Ok P) : x.InString P := by
  cases x with
  | joint nl => exact absurd h (by simp [CssChar.Ok])
  | plain c => exact h
  | code ds b => exact h
  | escaped c => exact h

theorem wordSrc_cons (x : CssChar) (w : CssWord) : wordSrc (x :: w) = x.src ++ wordSrc w := rfl
theorem wordValue_cons (x : CssChar) (w : CssWord) : wordValue (x :: w) = x.value ++ wordValue w := rfl

/-- One piece of a name. -/
theorem namePiece_word {b : Bool} {x : CssChar} {w : CssWord} {rest : Str} (hx : x.Ok IdentChar) (hs : b = true → x.Ok IdentStart)
    (hw : ∀ y ∈ w, y.Ok IdentChar) (he : CodesEnd false (x :: w)) :
    namePiece b (x.src ++ (wordSrc w ++ rest)) = some (x.src, wordSrc w ++ rest) := by
  cases x with
  | plain c => exact namePiece_char hx hs
  | code ds bl =>
    obtain ⟨h1, h2, h3, h4, -⟩ := hx
    have hstop : bl = [] → CodeStop ds (wordSrc w ++ rest) := by
      rintro rfl
      exact code_stop (fun y hy => ok_inString (hw y hy)) he (by intro h; cases h)
    have := cssEscape_code (s := wordSrc w ++ rest) h1 h3 h2 h4 hstop
    rw [CssChar.src, List.cons_append, List.append_assoc, namePiece, if_pos rfl, this]
  | escaped c =>
    obtain ⟨h1, h2⟩ := hx
    rw [CssChar.src, List.cons_append, List.cons_append, List.nil_append, namePiece, if_pos rfl, cssEscape_escaped h1 h2]
  | joint nl => exact absurd hx (by simp [CssChar.Ok])

theorem src_pos {P : Char → Prop} {x : CssChar} (h : x.InString P) : 0 < x.src.length := by
  cases x <;> simp [CssChar.src]

theorem nameRun_name : ∀ (w : CssWord) (f : Nat) (rest : Str), (∀ x ∈ w, x.Ok IdentChar) → CodesEnd false w → NameEnd rest →
    (wordSrc w).length ≤ f → nameRun f (wordSrc w ++ rest) = (wordSrc w, rest)
  | [], f, rest, _, _, hr, _ => nameRun_end hr
  | x :: w, 0, rest, hn, _, _, hf => by
    have := src_pos (ok_inString (hn x (by simp)))
    rw [wordSrc_cons, List.length_append] at hf
    omega
  | x :: w, f + 1, rest, hn, he, hr, hf => by
    have h1 := src_pos (ok_inString (hn x (by simp)))
    rw [wordSrc_cons, List.length_append] at hf
    have hw : ∀ y ∈ w, y.Ok IdentChar := fun y hy => hn y (by simp [hy])
    rw [wordSrc_cons, List.append_assoc, nameRun, namePiece_word (hn x (by simp)) (by intro h; cases h) hw he]
    simp only
    rw [nameRun_name w f rest hw (codesEnd_tail he) hr (by omega)]

/-! ### The values of words -/

theorem baseValue_digit {c : Char} (h : c ∈ hexDigits) : unicodeEscape.baseValue c = digitValue c := by
  have : ∀ d ∈ hexDigits, unicodeEscape.baseValue d = digitValue d := by decide
  exact this c h

theorem unicodeEscape_code {ds : Str} (h : ∀ c ∈ ds, c ∈ hexDigits) (hv : ¬ (0xd800 ≤ numberIn 16 ds ∧ numberIn 16 ds ≤ 0xdfff)) :
    unicodeEscape ds = codeChar (numberIn 16 ds) := by
  have key : ∀ (l : Str) (n : Nat), (∀ c ∈ l, c ∈ hexDigits) →
      l.foldl (fun a c => 16 * a + unicodeEscape.baseValue c) n = l.foldl (fun a c => 16 * a + digitValue c) n := by
    intro l
    induction l with
    | nil => intro n _; rfl
    | cons c l ih =>
      intro n hl
      rw [List.foldl_cons, List.foldl_cons, baseValue_digit (hl c (by simp)), ih _ (fun x hx => hl x (by simp [hx]))]
  rw [unicodeEscape]
  simp only [key ds 0 h, codeChar]
  have e : ds.foldl (fun a c => 16 * a + digitValue c) 0 = numberIn 16 ds := rfl
  rw [e]
  by_cases hle : numberIn 16 ds ≤ 0x10ffff
  · rw [if_pos hle, if_pos]
    simp only [Nat.isValidChar]
    omega
  · rw [if_neg hle, if_neg]
    simp only [Nat.isValidChar]
    omega

/-- A word after its numbers have been replaced. -/
def CssChar.mid : CssChar → Str
  | .plain c => [c]
  | .code ds _ => [codeChar (numberIn 16 ds)]
  | .escaped c => ['\\', c]
  | .joint nl => '\\' :: nl

theorem subUnicode_word {P : Char → Prop} (hP : ∀ c, P c → c ≠ '\\') {b : Bool} : ∀ (w : CssWord) (f : Nat), (∀ x ∈ w, x.Ok P) →
    CodesEnd b w → (wordSrc w).length ≤ f → subUnicode f (wordSrc w) = w.flatMap CssChar.mid
  | [], f, _, _, _ => by cases f <;> simp [subUnicode, wordSrc]
  | x :: w, 0, hw, _, hf => by
    have := src_pos (ok_inString (hw x (by simp)))
    rw [wordSrc_cons, List.length_append] at hf
    omega
  | .plain c :: w, f + 1, hw, he, hf => by
    have hc := hP c (hw (.plain c) (List.mem_cons_self ..))
    rw [wordSrc_cons, List.length_append] at hf
    rw [wordSrc_cons, CssChar.src, List.cons_append, List.nil_append, subUnicode, if_neg (fun e => hc e.1),
      subUnicode_word hP w f (fun y hy => hw y (by simp [hy])) (codesEnd_tail he) (by simp only [CssChar.src, List.length_cons] at hf; omega)]
    rfl
  | .code ds bl :: w, f + 1, hw, he, hf => by
    obtain ⟨h1, h2, h3, h4, h5, -⟩ := hw _ (List.mem_cons_self ..)
    have hw' : ∀ y ∈ w, y.Ok P := fun y hy => hw y (by simp [hy])
    have hstop : bl = [] → CodeStop ds (wordSrc w) := by
      rintro rfl
      have := code_stop (fun y hy => ok_inString (hw' y hy)) he (rest := []) (fun _ => by intro c hc; cases hc)
      simpa using this
    obtain ⟨e1, e2⟩ := hexRun_code h3 h2 h4 hstop
    rw [wordSrc_cons, List.length_append] at hf
    rw [wordSrc_cons, CssChar.src, List.cons_append, List.append_assoc, subUnicode, if_pos ⟨rfl, by rw [e1]; exact h1⟩, e1]
    simp only
    rw [e2]
    simp only
    rw [unicodeEscape_code h3 h5, subUnicode_word hP w f hw' (codesEnd_tail he) (by simp only [CssChar.src, List.length_cons] at hf; omega)]
    rfl
  | .escaped c :: w, f + 1, hw, he, hf => by
    obtain ⟨h1, h2⟩ := hw _ (List.mem_cons_self ..)
    have h3 : cssHex c = false := by
      cases hc : cssHex c with
      | false => rfl
      | true => exact absurd ((hex_iff c).mp hc) h1
    rw [wordSrc_cons, List.length_append] at hf
    simp only [CssChar.src, List.length_cons, List.length_nil] at hf
    obtain ⟨g, rfl⟩ : ∃ g, f = g + 1 := ⟨f - 1, by omega⟩
    rw [wordSrc_cons, CssChar.src, List.cons_append, List.cons_append, List.nil_append, subUnicode,
      if_neg (by simp [hexRun, h3]), subUnicode, if_neg (fun e => (escaped_plain h2).2.1 e.1),
      subUnicode_word hP w g (fun y hy => hw y (by simp [hy])) (codesEnd_tail he) (by omega)]
    rfl
  | .joint nl :: w, f + 1, hw, _, _ => absurd (hw _ (List.mem_cons_self ..)) (by simp [CssChar.Ok])

theorem subSimple_cons {c : Char} {r : Str} (h : c ≠ '\\') : subSimple (c :: r) = c :: subSimple r := by
  conv => lhs; unfold subSimple
  split
  · rename_i e; cases e; exact absurd rfl h
  · rename_i e; cases e; rfl
  · rename_i e; cases e

theorem subSimple_word {P : Char → Prop} (hP : ∀ c, P c → c ≠ '\\') : ∀ (w : CssWord), (∀ x ∈ w, x.Ok P) →
    subSimple (w.flatMap CssChar.mid) = wordValue w
  | [], _ => rfl
  | x :: w, hw => by
    have ih := subSimple_word hP w (fun y hy => hw y (by simp [hy]))
    have hx := hw x (by simp)
    rw [List.flatMap_cons, wordValue_cons]
    cases x with
    | plain c =>
      rw [CssChar.mid, List.cons_append, List.nil_append, subSimple_cons (hP c hx), ih]; rfl
    | code ds b =>
      obtain ⟨-, -, -, -, -, -, h7⟩ := hx
      rw [CssChar.mid, List.cons_append, List.nil_append, subSimple_cons h7, ih]; rfl
    | escaped c =>
      rw [CssChar.mid, List.cons_append, List.cons_append, List.nil_append, subSimple, if_neg (escaped_plain hx.2).2.2.2, ih]; rfl
    | joint nl => exact absurd hx (by simp [CssChar.Ok])

theorem nameValue_word {P : Char → Prop} (hP : ∀ c, P c → c ≠ '\\') {b : Bool} {w : CssWord} (hw : ∀ x ∈ w, x.Ok P) (he : CodesEnd b w) :
    nameValue (wordSrc w) = wordValue w := by
  rw [nameValue, subUnicode_word hP w _ hw he (Nat.le_refl _), subSimple_word hP w hw]

/-! ### Strings that go on in the next line -/

def notJoint : CssChar → Bool
  | .joint _ => false
  | _ => true

theorem subNewline_cons {c : Char} {r : Str} (h : c ≠ '\\') : subNewline (c :: r) = c :: subNewline r := by
  conv => lhs; unfold subNewline
  split
  · rename_i e; cases e; exact absurd rfl h
  · rename_i e; cases e; exact absurd rfl h
  · rename_i e; cases e; rfl
  · rename_i e; cases e

theorem subNewline_append : ∀ {a r : Str}, '\\' ∉ a → subNewline (a ++ r) = a ++ subNewline r
  | [], _, _ => rfl
  | c :: a, r, h => by
    simp only [List.mem_cons, not_or] at h
    rw [List.cons_append, subNewline_cons (fun e => h.1 e.symm), subNewline_append h.2, List.cons_append]

theorem subNewline_bs {d : Char} {r : Str} (h : cssNewline d = false) : subNewline ('\\' :: d :: r) = '\\' :: subNewline (d :: r) := by
  conv => lhs; unfold subNewline
  split
  · rename_i e; cases e; exact absurd h (by decide)
  · rename_i e; cases e; simp [h]
  · rename_i h1 e; cases e; exact absurd rfl (h1 _ _ rfl)
  · rename_i e; cases e

theorem subNewline_word {P : Char → Prop} (hP : ∀ c, P c → c ≠ '\\') : ∀ (w : CssWord), (∀ x ∈ w, x.InString P) →
    subNewline (wordSrc w) = wordSrc (w.filter notJoint)
  | [], _ => rfl
  | x :: w, hw => by
    have ih := subNewline_word hP w (fun y hy => hw y (by simp [hy]))
    have hx := hw x (by simp)
    rw [wordSrc_cons]
    cases x with
    | plain c =>
      rw [List.filter_cons_of_pos (by rfl), wordSrc_cons, CssChar.src, subNewline_append (by simpa using (hP c hx).symm), ih]
    | code ds b =>
      obtain ⟨h1, -, h3, h4, -⟩ := hx
      cases ds with
      | nil => exact absurd rfl h1
      | cons d ds =>
        have hb : '\\' ∉ d :: ds ++ b := by
          simp only [List.mem_append, not_or]
          refine ⟨fun hm => (hex_plain (h3 _ hm)).1 rfl, fun hm => ?_⟩
          have : ∀ b ∈ codeBlanks, '\\' ∉ b := by decide
          exact this b h4 hm
        rw [List.filter_cons_of_pos (by rfl), wordSrc_cons, CssChar.src, List.cons_append, List.cons_append, List.cons_append,
          subNewline_bs (hex_plain (h3 d (by simp))).2.1]
        have := subNewline_append (r := wordSrc w) hb
        simp only [List.cons_append] at this
        rw [this, ih]
        simp
    | escaped c =>
      obtain ⟨h1, h2⟩ := hx
      rw [List.filter_cons_of_pos (by rfl), wordSrc_cons, CssChar.src, List.cons_append, List.cons_append, List.nil_append,
        subNewline_bs (escaped_plain h2).1, subNewline_cons (escaped_plain h2).2.1, ih]
      rfl
    | joint nl =>
      rw [List.filter_cons_of_neg (by simp [notJoint]), ← ih]
      have : nl = py"\n" ∨ nl = py"\x0c" ∨ nl = py"\r\n" := by simpa [CssChar.InString] using hx
      rcases this with rfl | rfl | rfl <;> simp [CssChar.src, subNewline, cssNewline]

theorem value_filter : ∀ (w : CssWord), wordValue (w.filter notJoint) = wordValue w
  | [] => rfl
  | x :: w => by
    have ih := value_filter w
    cases x with
    | joint nl => rw [List.filter_cons_of_neg (by simp [notJoint]), ih]; rfl
    | plain c => rw [List.filter_cons_of_pos (by rfl), wordValue_cons, ih]; rfl
    | code ds b => rw [List.filter_cons_of_pos (by rfl), wordValue_cons, ih]; rfl
    | escaped c => rw [List.filter_cons_of_pos (by rfl), wordValue_cons, ih]; rfl

theorem codesEnd_filter {b : Bool} : ∀ (w : CssWord), CodesEnd b w → CodesEnd b (w.filter notJoint)
  | [], _ => trivial
  | .joint nl :: w, h => by rw [List.filter_cons_of_neg (by simp [notJoint])]; exact codesEnd_filter w h
  | .plain c :: w, h => by rw [List.filter_cons_of_pos (by rfl)]; exact codesEnd_filter w h
  | .escaped c :: w, h => by rw [List.filter_cons_of_pos (by rfl)]; exact codesEnd_filter w h
  | .code ds bl :: w, h => by
    rw [List.filter_cons_of_pos (by rfl)]
    refine ⟨fun hb => ?_, codesEnd_filter w h.2⟩
    have h1 := h.1 hb
    cases w with
    | nil => exact h1
    | cons x w =>
      cases x with
      | joint nl => exact absurd h1 (by simp)
      | plain c => rw [List.filter_cons_of_pos (by rfl)]; exact h1
      | code ds b => rw [List.filter_cons_of_pos (by rfl)]; trivial
      | escaped c => rw [List.filter_cons_of_pos (by rfl)]; trivial

theorem stringValue_word {P : Char → Prop} (hP : ∀ c, P c → c ≠ '\\') {w : CssWord} (hw : ∀ x ∈ w, x.InString P) (he : CodesEnd true w) :
    nameValue (subNewline (wordSrc w)) = wordValue w := by
  rw [subNewline_word hP w hw, nameValue_word hP (b := true) (fun x hx => ?_) (codesEnd_filter w he), value_filter]
  have h1 := List.mem_filter.mp hx
  have h2 := hw x h1.1
  cases x with
  | joint nl => exact absurd h1.2 (by simp [notJoint])
  | plain c => exact h2
  | code ds b => exact h2
  | escaped c => exact h2

/-! ### Identifiers -/

theorem ok_start {x : CssChar} (h : x.Ok IdentStart) : x.Ok IdentChar := by
  cases x with
  | plain c => exact .inl h
  | code ds b => exact h
  | escaped c => exact h
  | joint nl => exact h

theorem ident_chars {n : CssWord} (h : CssIdent n) : ∀ c ∈ n, c.Ok IdentChar := by
  obtain ⟨⟨d, c, r, rfl, hd, hc, hr⟩, -⟩ := h
  intro x hx
  simp only [List.mem_append, List.mem_cons] at hx
  rcases hx with hx | rfl | hx
  · rcases hd with rfl | rfl
    · cases hx
    · simp only [List.mem_singleton] at hx; subst hx; exact .inr (.inr rfl)
  · exact ok_start hc
  · exact hr x hx

theorem leadHyphen_start {c : Char} {s : Str} (h : IdentStart c) : leadHyphen (c :: s) = ([], c :: s) := by
  unfold leadHyphen
  split
  · rename_i e
    cases e
    rw [← start_iff] at h
    exact absurd h (by decide)
  · rfl

theorem leadHyphen_ok {x : CssChar} {s : Str} (h : x.Ok IdentStart) : leadHyphen (x.src ++ s) = ([], x.src ++ s) := by
  cases x with
  | plain c => exact leadHyphen_start h
  | code ds b => rfl
  | escaped c => rfl
  | joint nl => exact absurd h (by simp [CssChar.Ok])

theorem identMatch_ident {n : CssWord} {rest : Str} (h : CssIdent n) (hr : NameEnd rest) :
    identMatch (wordSrc n ++ rest) = some (wordSrc n, rest) := by
  obtain ⟨⟨d, c, r, rfl, hd, hc, hx⟩, he⟩ := h
  have he' : CodesEnd false (c :: r) := by
    rcases hd with rfl | rfl
    · exact he
    · exact codesEnd_tail he
  have e0 : wordSrc (d ++ c :: r) = wordSrc d ++ (c.src ++ wordSrc r) := by simp [wordSrc]
  have h1 : leadHyphen (wordSrc (d ++ c :: r) ++ rest) = (wordSrc d, c.src ++ (wordSrc r ++ rest)) := by
    rw [e0]
    rcases hd with rfl | rfl
    · simpa [wordSrc] using leadHyphen_ok (s := wordSrc r ++ rest) hc
    · simp [wordSrc, CssChar.src, leadHyphen]
  rw [identMatch]
  simp only [h1]
  rw [namePiece_word (ok_start hc) (fun _ => hc) hx he']
  simp only
  rw [nameRun_name r _ rest hx (codesEnd_tail he') hr (by simp), e0]

/-- What cannot begin an identifier. -/
theorem identMatch_none {c : Char} {s : Str} (h1 : cssStart c = false) (h2 : c ≠ '\\') (h3 : c ≠ '-') : identMatch (c :: s) = none := by
  have e : leadHyphen (c :: s) = ([], c :: s) := by
    unfold leadHyphen
    split
    · rename_i e; cases e; exact absurd rfl h3
    · rfl
  rw [identMatch]
  simp only [e]
  rw [namePiece, if_neg h2]
  simp [h1]

theorem lex_nil : lexCss [] = .ok [] := rfl

theorem cssTokens_cons (n : Nat) (c : Char) (s : Str) : cssTokens (n + 1) (c :: s) =
    (if cssBlank c then (cssTokens n (s.dropWhile cssBlank)).map (CssTok.space :: ·)
    else match identMatch (c :: s) with
    | some (v, r) => (cssTokens n r).map (CssTok.ident (nameValue v) :: ·)
    | none =>
      if c = '#' ∧ (nameRun s.length s).1 ≠ [] then
        (cssTokens n (nameRun s.length s).2).map (CssTok.hash (nameValue (nameRun s.length s).1) :: ·)
      else if c = '"' ∨ c = '\'' then
        match (stringRun c s.length s).2 with
        | [] => .error .selectorSyntax
        | d :: r => if d = c then
              (cssTokens n r).map (CssTok.string (nameValue (subNewline (stringRun c s.length s).1)) :: ·)
            else .error .selectorSyntax
      else match numberMatch (c :: s) with
      | some (v, r) => (cssTokens n r).map (CssTok.number v :: ·)
      | none => match c, s with
        | '/', '*' :: r => cssTokens n (afterComment r)
        | c, r => (cssTokens n r).map (CssTok.delim c :: ·)) := by
  rw [cssTokens.eq_def]
  rfl

theorem identChar_not_bs : ∀ c, IdentChar c → c ≠ '\\' := fun _ h => name_not_bs h

/-- Words begin with a character of the name, or a backslash. -/
theorem ok_head {x : CssChar} (h : x.Ok IdentChar) : ∃ c r, x.src = c :: r ∧ (IdentChar c ∨ c = '\\') := by
  cases x with
  | plain c => exact ⟨c, [], rfl, .inl h⟩
  | code ds b => exact ⟨_, _, rfl, .inr rfl⟩
  | escaped c => exact ⟨_, _, rfl, .inr rfl⟩
  | joint nl => exact absurd h (by simp [CssChar.Ok])

theorem lex_ident {n : CssWord} {rest : Str} (h : CssIdent n) (hr : NameEnd rest) :
    lexCss (wordSrc n ++ rest) = (lexCss rest).map (CssTok.ident (wordValue n) :: ·) := by
  have hm := identMatch_ident h hr
  have hv := nameValue_word (b := false) identChar_not_bs (ident_chars h) h.2
  cases hn : n with
  | nil => obtain ⟨⟨d, c, r, e, -⟩, -⟩ := h; rw [hn] at e; simp at e
  | cons x m =>
    obtain ⟨c, t, e, hc⟩ := ok_head (ident_chars h x (by simp [hn]))
    have hb : cssBlank c = false := by
      rcases hc with hc | rfl
      · exact start_not_blank hc
      · decide
    subst hn
    rw [wordSrc_cons, e] at hm hv ⊢
    simp only [List.cons_append] at hm hv ⊢
    rw [lexCss, List.length_cons, cssTokens_cons, if_neg (by simp [hb]), hm]
    simp only
    rw [hv, cssTokens_lex (by simp; omega)]

theorem dropWhile_blanks {g rest : Str} (h : ∀ c ∈ g, CssSpace c) (hr : BlankEnd rest) : (g ++ rest).dropWhile cssBlank = rest := by
  induction g with
  | nil =>
    cases rest with
    | nil => rfl
    | cons c r => simp [hr c rfl]
  | cons c g ih =>
    rw [List.cons_append, List.dropWhile_cons, if_pos ((blank_iff c).mpr (h c (by simp)))]
    exact ih (fun x hx => h x (by simp [hx]))

/-- The tokens for white space. -/
def gapToks (g : CssGap) : List CssTok := if g.blank = [] then [] else [.space]

theorem map_nil (x : Py (List CssTok)) : x.map (([] : List CssTok) ++ ·) = x := by
  cases x <;> rfl

theorem afterComment_body : ∀ {c rest : Str}, ¬ py"*/" <:+: c → afterComment (c ++ '*' :: '/' :: rest) = rest
  | [], rest, _ => rfl
  | x :: c, rest, h => by
    have hc : ¬ py"*/" <:+: c := fun hi => h (hi.trans (List.suffix_cons x c).isInfix)
    have ih := afterComment_body (rest := rest) hc
    rw [List.cons_append]
    conv => lhs; unfold afterComment
    split
    · rename_i r e
      injection e with e1 e2
      exfalso
      cases c with
      | nil => injection e2 with e3; exact absurd e3 (by decide)
      | cons y c =>
        injection e2 with e3
        subst e1 e3
        exact h ⟨[], c, rfl⟩
    · rename_i e; cases e; exact ih
    · rename_i e; cases e

theorem lex_comment {c rest : Str} (h : ¬ py"*/" <:+: c) : lexCss (commentSrc c ++ rest) = lexCss rest := by
  have e : commentSrc c ++ rest = '/' :: '*' :: (c ++ '*' :: '/' :: rest) := by simp [commentSrc]
  have hn : numberMatch ('/' :: '*' :: (c ++ '*' :: '/' :: rest)) = none := rfl
  rw [e, lexCss, List.length_cons, cssTokens_cons, if_neg (by decide), identMatch_none (by decide) (by decide) (by decide)]
  simp only
  rw [if_neg (by simp), if_neg (by decide), hn]
  simp only
  rw [afterComment_body h, cssTokens_lex (by simp; omega)]

theorem lex_comments : ∀ {l : List Str} {rest : Str}, (∀ c ∈ l, ¬ py"*/" <:+: c) → lexCss (l.flatMap commentSrc ++ rest) = lexCss rest
  | [], _, _ => rfl
  | c :: l, rest, h => by
    rw [List.flatMap_cons, List.append_assoc, lex_comment (h c (by simp)), lex_comments (fun x hx => h x (by simp [hx]))]

theorem blankEnd_comments {l : List Str} {rest : Str} (h : BlankEnd rest) : BlankEnd (l.flatMap commentSrc ++ rest) := by
  cases l with
  | nil => exact h
  | cons c l => exact blankEnd_cons (by decide)

theorem lex_gap {g : CssGap} {rest : Str} (h : g.Ok) (hr : BlankEnd rest) :
    lexCss (g.src ++ rest) = (lexCss rest).map (gapToks g ++ ·) := by
  obtain ⟨h1, h2⟩ := h
  rw [CssGap.src, List.append_assoc, List.append_assoc, lex_comments (fun c hc => h1 c (by simp [hc]))]
  have h3 := lex_comments (rest := rest) (fun c (hc : c ∈ g.after) => h1 c (by simp [hc]))
  cases hb : g.blank with
  | nil => rw [gapToks, if_pos hb, map_nil, List.nil_append, h3]
  | cons c b =>
    rw [hb] at h2
    rw [List.cons_append, lexCss, List.length_cons, cssTokens_cons, if_pos ((blank_iff c).mpr (h2 c (by simp)))]
    rw [dropWhile_blanks (fun x hx => h2 x (by simp [hx])) (blankEnd_comments hr), cssTokens_lex (by simp; omega), h3,
      gapToks, if_neg (by simp [hb])]
    rfl

theorem wordSrc_ne {n : CssWord} (hn : n ≠ []) : wordSrc n ≠ [] := by
  cases n with
  | nil => exact absurd rfl hn
  | cons x n => rw [wordSrc_cons]; cases x <;> simp [CssChar.src]

theorem lex_hash {n : CssWord} {rest : Str} (hn : n ≠ []) (h : ∀ c ∈ n, c.Ok IdentChar) (he : CodesEnd false n) (hr : NameEnd rest) :
    lexCss ('#' :: (wordSrc n ++ rest)) = (lexCss rest).map (CssTok.hash (wordValue n) :: ·) := by
  have hm := nameRun_name n (wordSrc n ++ rest).length rest h he hr (by simp)
  rw [lexCss, List.length_cons, cssTokens_cons, if_neg (by decide), identMatch_none (by decide) (by decide) (by decide)]
  simp only [hm, true_and, ne_eq, wordSrc_ne hn, not_false_eq_true, if_true]
  rw [nameValue_word (b := false) identChar_not_bs h he, cssTokens_lex (by simp; omega)]

theorem stringRun_plain {q : Char} (hq : q = '"' ∨ q = '\'') : ∀ (w : CssWord) (f : Nat) (rest : Str),
    (∀ x ∈ w, x.InString (StringChar q)) → CodesEnd true w → (wordSrc w).length < f →
    stringRun q f (wordSrc w ++ q :: rest) = (wordSrc w, q :: rest)
  | _, 0, _, _, _, hf => by omega
  | [], f + 1, rest, _, _, _ => by
    rcases hq with rfl | rfl <;> simp [stringRun, wordSrc]
  | .plain c :: w, f + 1, rest, h, he, hf => by
    obtain ⟨h1, h2, h3, h4, h5⟩ : StringChar q c := h _ (List.mem_cons_self ..)
    rw [wordSrc_cons, List.length_append] at hf
    have ih := stringRun_plain hq w f rest (fun x hx => h x (by simp [hx])) (codesEnd_tail he)
      (by simp only [CssChar.src, List.length_cons] at hf; omega)
    rw [wordSrc_cons, CssChar.src, List.cons_append, List.cons_append, List.nil_append]
    unfold stringRun
    simp only
    rw [if_neg h2, if_neg (by simp [cssNewline, h1, h3, h4, h5]), ih]
    rfl
  | .code ds b :: w, f + 1, rest, h, he, hf => by
    have hw : ∀ x ∈ w, x.InString (StringChar q) := fun x hx => h x (by simp [hx])
    obtain ⟨h1, h2, h3, h4, -⟩ := h _ (List.mem_cons_self ..)
    rw [wordSrc_cons, List.length_append] at hf
    have ih := stringRun_plain hq w f rest hw (codesEnd_tail he) (by simp only [CssChar.src, List.length_cons] at hf; omega)
    have hstop : b = [] → CodeStop ds (wordSrc w ++ q :: rest) := by
      rintro rfl
      refine code_stop hw he (fun _ => ?_)
      intro c hc
      cases hc
      rcases hq with rfl | rfl <;> exact ⟨by decide, .inr (by decide)⟩
    have hesc := cssEscape_code h1 h3 h2 h4 hstop
    cases ds with
    | nil => exact absurd rfl h1
    | cons d ds =>
      have hd := (hex_plain (h3 d (by simp))).2.1
      rw [wordSrc_cons, CssChar.src, List.cons_append, List.cons_append, List.append_assoc, List.append_assoc]
      unfold stringRun
      simp only [if_true]
      simp only [List.cons_append] at hesc ⊢
      split
      · rename_i e; injection e with e1 e2; subst e1; exact absurd hd (by decide)
      · rename_i e
        injection e with e1 e2
        subst e1 e2
        simp only [hd, Bool.false_eq_true, if_false]
        rw [hesc]
        simp only
        rw [ih]
        simp
      · rename_i e; cases e
  | .escaped c :: w, f + 1, rest, h, he, hf => by
    obtain ⟨h1, h2⟩ := h _ (List.mem_cons_self ..)
    rw [wordSrc_cons, List.length_append] at hf
    have ih := stringRun_plain hq w f rest (fun x hx => h x (by simp [hx])) (codesEnd_tail he)
      (by simp only [CssChar.src, List.length_cons] at hf; omega)
    have hc := escaped_plain h2
    rw [wordSrc_cons, CssChar.src]
    simp only [List.cons_append, List.nil_append]
    unfold stringRun
    simp only [if_true]
    split
    · rename_i e; injection e with e1 e2; exact absurd e1 hc.2.2.1
    · rename_i e
      injection e with e1 e2
      subst e1 e2
      simp only [hc.1, Bool.false_eq_true, if_false]
      rw [cssEscape_escaped h1 h2]
      simp only
      rw [ih]
      rfl
    · rename_i e; cases e
  | .joint nl :: w, f + 1, rest, h, he, hf => by
    rw [wordSrc_cons, List.length_append] at hf
    have ih := stringRun_plain hq w f rest (fun x hx => h x (by simp [hx])) (codesEnd_tail he)
      (by simp only [CssChar.src, List.length_cons] at hf; omega)
    have : nl = py"\n" ∨ nl = py"\x0c" ∨ nl = py"\r\n" := by simpa [CssChar.InString] using h _ (List.mem_cons_self ..)
    rw [wordSrc_cons]
    rcases this with rfl | rfl | rfl <;>
      simp [CssChar.src, stringRun, cssNewline, ih]

theorem stringChar_not_bs {q : Char} : ∀ c, StringChar q c → c ≠ '\\' := fun _ h => h.2.1

theorem lex_string {q : Char} {s : CssWord} {rest : Str} (hq : q = '"' ∨ q = '\'') (h : ∀ c ∈ s, c.InString (StringChar q))
    (he : CodesEnd true s) :
    lexCss (q :: (wordSrc s ++ q :: rest)) = (lexCss rest).map (CssTok.string (wordValue s) :: ·) := by
  have e1 : cssBlank q = false := by rcases hq with rfl | rfl <;> decide
  have e2 : identMatch (q :: (wordSrc s ++ q :: rest)) = none := by
    rcases hq with rfl | rfl <;> exact identMatch_none (by decide) (by decide) (by decide)
  have e3 : ¬ (q = '#' ∧ (nameRun (wordSrc s ++ q :: rest).length (wordSrc s ++ q :: rest)).1 ≠ []) := by
    rcases hq with rfl | rfl <;> simp
  rw [lexCss, List.length_cons, cssTokens_cons, if_neg (by simp [e1]), e2]
  simp only
  rw [if_neg e3, if_pos hq, stringRun_plain hq s _ rest h he (by simp)]
  simp only [if_true]
  rw [stringValue_word stringChar_not_bs h he, cssTokens_lex (by simp; omega)]

/-- Nothing that would belong to a number. -/
def DigitEnd (s : Str) : Prop := ∀ c, s.head? = some c → cssDigit c = false ∧ c ≠ '.'

theorem digits_split {ds rest : Str} (h : ∀ c ∈ ds, '0' ≤ c ∧ c ≤ '9') (hr : DigitEnd rest) :
    (ds ++ rest).takeWhile cssDigit = ds ∧ (ds ++ rest).dropWhile cssDigit = rest := by
  induction ds with
  | nil =>
    cases rest with
    | nil => exact ⟨rfl, rfl⟩
    | cons c r => simp [(hr c rfl).1]
  | cons c ds ih =>
    have hc : cssDigit c = true := by simpa [cssDigit] using h c (by simp)
    obtain ⟨h1, h2⟩ := ih (fun x hx => h x (by simp [hx]))
    simp [hc, h1, h2]

theorem numberMatch_number {sg ds rest : Str} (hs : sg = [] ∨ sg = py"+" ∨ sg = py"-") (hd : ds ≠ [])
    (h : ∀ c ∈ ds, '0' ≤ c ∧ c ≤ '9') (hr : DigitEnd rest) : numberMatch (sg ++ (ds ++ rest)) = some (sg ++ ds, rest) := by
  obtain ⟨h1, h2⟩ := digits_split h hr
  have e : leadSign (sg ++ (ds ++ rest)) = (sg, ds ++ rest) := by
    rcases hs with rfl | rfl | rfl
    · cases ds with
      | nil => exact absurd rfl hd
      | cons c ds =>
        have hc := h c (by simp)
        simp only [List.nil_append, List.cons_append]
        unfold leadSign
        split
        · rename_i e; cases e; exact absurd hc (by decide)
        · rename_i e; cases e; exact absurd hc (by decide)
        · rfl
    · rfl
    · rfl
  rw [numberMatch]
  simp only [e, h1, h2, if_neg hd]
  split
  · exact absurd rfl (hr '.' rfl).2
  · rfl

theorem lex_number {sg ds rest : Str} (hs : sg = [] ∨ sg = py"+" ∨ sg = py"-") (hd : ds ≠ [])
    (h : ∀ c ∈ ds, '0' ≤ c ∧ c ≤ '9') (hr : DigitEnd rest) :
    lexCss (sg ++ (ds ++ rest)) = (lexCss rest).map (CssTok.number (sg ++ ds) :: ·) := by
  have hm := numberMatch_number hs hd h hr
  cases hw : sg ++ (ds ++ rest) with
  | nil =>
    cases ds with
    | nil => exact absurd rfl hd
    | cons c ds => simp at hw
  | cons c w =>
    have hlen : rest.length ≤ w.length := by
      have := numberMatch_length hm
      rw [hw] at this; simpa using Nat.lt_succ_iff.mp this
    have key : cssBlank c = false ∧ identMatch (c :: w) = none ∧ c ≠ '#' ∧ c ≠ '"' ∧ c ≠ '\'' := by
      have digit : ∀ d : Char, '0' ≤ d ∧ d ≤ '9' → cssStart d = false ∧ d ≠ '\\' ∧ d ≠ '-' ∧ cssBlank d = false ∧ d ≠ '#' ∧
          d ≠ '"' ∧ d ≠ '\'' := by
        intro d hd
        have h1 : (48 : Nat) ≤ d.toNat := by simpa [Char.le_def, UInt32.le_iff_toNat_le] using hd.1
        have h2 : d.toNat ≤ 57 := by simpa [Char.le_def, UInt32.le_iff_toNat_le] using hd.2
        refine ⟨?_, ?_, ?_, ?_, ?_, ?_, ?_⟩
        · simp only [cssStart, Bool.or_eq_false_iff, beq_eq_false_iff_ne, Bool.and_eq_false_iff, decide_eq_false_iff_not]
          refine ⟨⟨⟨?_, .inl ?_⟩, .inl ?_⟩, ?_⟩
          · rintro rfl; simp at h2
          · intro h; have : (97 : Nat) ≤ d.toNat := by simpa [Char.le_def, UInt32.le_iff_toNat_le] using h
            omega
          · intro h; have : (65 : Nat) ≤ d.toNat := by simpa [Char.le_def, UInt32.le_iff_toNat_le] using h
            omega
          · intro h; have : (127 : Nat) < d.toNat := by simpa [Char.lt_def, UInt32.lt_iff_toNat_lt] using h
            omega
        · rintro rfl; simp at h2
        · rintro rfl; simp at h1
        · cases hb : cssBlank d with
          | false => rfl
          | true =>
            exfalso
            rw [blank_iff] at hb
            rcases hb with rfl | rfl | rfl | rfl | rfl <;> simp at h1
        · rintro rfl; simp at h1
        · rintro rfl; simp at h1
        · rintro rfl; simp at h1
      rcases hs with rfl | rfl | rfl
      · cases ds with
        | nil => exact absurd rfl hd
        | cons d ds =>
          simp only [List.nil_append, List.cons_append, List.cons.injEq] at hw
          obtain ⟨rfl, rfl⟩ := hw
          obtain ⟨h1, h2, h3, h4, h5, h6, h7⟩ := digit d (h d (by simp))
          exact ⟨h4, identMatch_none h1 h2 h3, h5, h6, h7⟩
      · simp only [List.cons_append, List.nil_append, List.cons.injEq] at hw
        obtain ⟨rfl, rfl⟩ := hw
        exact ⟨by decide, identMatch_none (by decide) (by decide) (by decide), by decide, by decide, by decide⟩
      · simp only [List.cons_append, List.nil_append, List.cons.injEq] at hw
        obtain ⟨rfl, rfl⟩ := hw
        refine ⟨by decide, ?_, by decide, by decide, by decide⟩
        cases ds with
        | nil => exact absurd rfl hd
        | cons d ds =>
          obtain ⟨h1, h2, h3, -⟩ := digit d (h d (by simp))
          simp [identMatch, leadHyphen, namePiece, h1, h2]
    obtain ⟨k1, k2, k3, k4, k5⟩ := key
    rw [hw] at hm
    rw [lexCss, List.length_cons, cssTokens_cons, if_neg (by simp [k1]), k2]
    simp only
    rw [if_neg (fun e => k3 e.1), if_neg (by simp [k4, k5]), hm]
    simp only
    rw [cssTokens_lex (by omega)]

/-- The punctuation of selectors. -/
def cssPunct : List Char := py".:[]()=~^$*!|>+,"

/-- Punctuation; a plus sign or a point must not begin a number. -/
theorem lex_delim {c : Char} {rest : Str} (hc : c ∈ cssPunct) (hn : c = '+' ∨ c = '.' → numberMatch (c :: rest) = none) :
    lexCss (c :: rest) = (lexCss rest).map (CssTok.delim c :: ·) := by
  have facts : ∀ d ∈ cssPunct, cssBlank d = false ∧ cssStart d = false ∧ d ≠ '\\' ∧ d ≠ '-' ∧ d ≠ '#' ∧ d ≠ '"' ∧ d ≠ '\'' ∧
      d ≠ '/' ∧ cssDigit d = false := by decide
  obtain ⟨h1, h2, h3, h4, h5, h6, h7, h8, h9⟩ := facts c hc
  have hm : numberMatch (c :: rest) = none := by
    by_cases e : c = '+' ∨ c = '.'
    · exact hn e
    · have : leadSign (c :: rest) = ([], c :: rest) := by
        unfold leadSign
        split
        · rename_i q; cases q; exact absurd (.inl rfl) e
        · rename_i q; cases q; exact absurd rfl h4
        · rfl
      rw [numberMatch]
      simp only [this, List.takeWhile_cons, h9, List.dropWhile_cons, Bool.false_eq_true, if_false, if_true]
      split
      · rename_i q; cases q; exact absurd (.inr rfl) e
      · rfl
  rw [lexCss, List.length_cons, cssTokens_cons, if_neg (by simp [h1]), identMatch_none h2 h3 h4]
  simp only
  rw [if_neg (fun e => h5 e.1), if_neg (by simp [h6, h7]), hm]
  simp only
  split
  · exact absurd rfl h8
  · rw [cssTokens_lex (by simp)]

end Verif
