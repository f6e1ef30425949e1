import Verif.Spec.Numbers
import Verif.Props.Ansi
import Verif.Props.Selectors
import Verif.Props.Footer

/-!
# C106: which texts are numbers
-/

namespace Verif

open Spec

theorem digitVal_hex {base : Nat} {c : Char} {v : Nat} (h : digitVal base c = some v) : DigitOf base c v := by
  have ec : c = Char.ofNat c.toNat := (Char.ofNat_toNat c).symm
  have d1 : ∀ n, n < 10 → (py"0123456789")[n]? = some (Char.ofNat (48 + n)) := by decide
  have d2 : ∀ n, n < 6 → (py"abcdef")[n]? = some (Char.ofNat (97 + n)) := by decide
  have d3 : ∀ n, n < 6 → (py"ABCDEF")[n]? = some (Char.ofNat (65 + n)) := by decide
  unfold digitVal at h
  simp only at h
  split at h
  · rename_i m hm
    split at h
    · rename_i hb
      cases h
      refine ⟨?_, hb⟩
      split at hm
      · rename_i hc
        simp only [Bool.and_eq_true, decide_eq_true_eq] at hc
        have h1 : 48 ≤ c.toNat := hc.1
        have h2 : c.toNat ≤ 57 := hc.2
        cases hm
        refine .digit _ _ ?_
        rw [d1 _ (by omega), show 48 + (c.toNat - 48) = c.toNat by omega, ← ec]
      · split at hm
        · rename_i hc
          simp only [Bool.and_eq_true, decide_eq_true_eq] at hc
          have h1 : 97 ≤ c.toNat := hc.1
          have h2 : c.toNat ≤ 102 := hc.2
          cases hm
          rw [show c.toNat - 87 = 10 + (c.toNat - 97) by omega]
          refine .lower _ _ ?_
          rw [d2 _ (by omega), show 97 + (c.toNat - 97) = c.toNat by omega, ← ec]
        · split at hm
          · rename_i hc
            simp only [Bool.and_eq_true, decide_eq_true_eq] at hc
            have h1 : 65 ≤ c.toNat := hc.1
            have h2 : c.toNat ≤ 70 := hc.2
            cases hm
            rw [show c.toNat - 55 = 10 + (c.toNat - 65) by omega]
            refine .upper _ _ ?_
            rw [d3 _ (by omega), show 65 + (c.toNat - 65) = c.toNat by omega, ← ec]
          · cases hm
    · cases h
  · cases h

theorem digitVal_iff {base : Nat} {c : Char} {v : Nat} : digitVal base c = some v ↔ DigitOf base c v := by
  refine ⟨digitVal_hex, fun ⟨h, hb⟩ => ?_⟩
  have h16 := (hex_digit h).1
  unfold digitVal at h16 ⊢
  simp only at h16 ⊢
  split at h16
  · rename_i m hm
    split at h16
    · cases h16; simp [hb]
    · cases h16
  · cases h16

theorem digitsVal_more' {base n : Nat} (len : Nat) : ∀ (s : Str) (acc : Nat), s.length ≤ len →
    (digitsVal base acc false s = some n ↔ MoreDigits base acc s n) := by
  induction len with
  | zero =>
    intro s acc hl
    have : s = [] := List.length_eq_zero_iff.1 (by omega)
    subst this
    simp only [digitsVal, Bool.false_eq_true, if_false, Option.some.injEq]
    exact ⟨fun h => h ▸ .done, fun h => by cases h; rfl⟩
  | succ len ih =>
  intro s acc hl
  match s, hl with
  | [], _ =>
    simp only [digitsVal, Bool.false_eq_true, if_false, Option.some.injEq]
    exact ⟨fun h => h ▸ .done, fun h => by cases h; rfl⟩
  | c :: r, hl =>
    simp only [digitsVal, Bool.false_eq_true, if_false]
    by_cases hc : c = '_'
    · subst hc
      rw [if_pos rfl]
      cases r with
      | nil =>
        simp only [digitsVal, if_true]
        refine ⟨fun h => (by cases h), fun h => ?_⟩
        cases h with
        | digit hd _ => exact absurd rfl (hex_digit hd.1).2.2.2.1
      | cons d r =>
        simp only [digitsVal]
        by_cases hd : d = '_'
        · subst hd
          simp only [if_true]
          refine ⟨fun h => (by cases h), fun h => ?_⟩
          cases h with
          | digit hd _ => exact absurd rfl (hex_digit hd.1).2.2.2.1
          | after hd _ => exact absurd rfl (hex_digit hd.1).2.2.2.1
        · rw [if_neg hd]
          constructor
          · intro h
            split at h
            · rename_i v hv
              exact .after (digitVal_iff.1 hv) ((ih r _ (by simp at hl; omega)).1 h)
            · cases h
          · intro h
            cases h with
            | digit hd _ => exact absurd rfl (hex_digit hd.1).2.2.2.1
            | after hd h => rw [digitVal_iff.2 hd]; exact (ih r _ (by simp at hl; omega)).2 h
    · rw [if_neg hc]
      constructor
      · intro h
        split at h
        · rename_i v hv
          exact .digit (digitVal_iff.1 hv) ((ih r _ (by simp at hl; omega)).1 h)
        · cases h
      · intro h
        cases h with
        | digit hd h => rw [digitVal_iff.2 hd]; exact (ih r _ (by simp at hl; omega)).2 h
        | after _ _ => exact absurd rfl hc

theorem digitsVal_more {base acc n : Nat} {s : Str} : digitsVal base acc false s = some n ↔ MoreDigits base acc s n :=
  digitsVal_more' s.length s acc (Nat.le_refl _)

theorem digitsVal_digits {base n : Nat} {s : Str} : digitsVal base 0 true s = some n ↔ Digits base s n := by
  cases s with
  | nil => simp [digitsVal, Digits]
  | cons c r =>
    simp only [digitsVal, if_true]
    by_cases hc : c = '_'
    · subst hc
      rw [if_pos rfl]
      refine ⟨fun h => (by cases h), ?_⟩
      rintro ⟨c, v, r', e, hd, -⟩
      cases e
      exact absurd rfl (hex_digit hd.1).2.2.2.1
    · rw [if_neg hc]
      constructor
      · intro h
        split at h
        · rename_i v hv
          rw [Nat.mul_zero, Nat.zero_add] at h
          exact ⟨c, v, r, rfl, digitVal_iff.1 hv, digitsVal_more.1 h⟩
        · cases h
      · rintro ⟨c, v, r', e, hd, h⟩
        cases e
        rw [digitVal_iff.2 hd]
        simp only [Nat.mul_zero, Nat.zero_add]
        exact digitsVal_more.2 h

theorem numeral_iff {base n : Nat} {s : Str} : digitsVal base 0 true (dropHexPrefix base s) = some n ↔ Unsigned base s n := by
  unfold dropHexPrefix
  split
  · rename_i x r
    by_cases hp : (base = 16 && (x = 'x' || x = 'X')) = true
    · rw [if_pos hp]
      simp only [Bool.and_eq_true, Bool.or_eq_true, decide_eq_true_eq] at hp
      obtain ⟨rfl, hx⟩ := hp
      have hno : ¬ Digits 16 ('0' :: x :: r) n := by
        rintro ⟨c, v, r', e, -, h⟩
        cases e
        have hxd : ∀ {v}, ¬ DigitOf 16 x v := by
          intro v hd
          have := hex_digit hd.1
          rcases hx with rfl | rfl
          · exact this.2.2.2.2.2.2.1 rfl
          · exact this.2.2.2.2.2.2.2.1 rfl
        cases h with
        | digit hd _ => exact hxd hd
        | after _ _ => rcases hx with hx | hx <;> cases hx
      split
      · rename_i r'
        rw [digitsVal_digits]
        constructor
        · intro h; exact .inr ⟨rfl, x, r', hx, h, .inr rfl⟩
        · rintro (h | ⟨-, x', t, -, h, e | e⟩)
          · exact absurd h hno
          · cases e
            obtain ⟨c, v, r, e, hd, -⟩ := h
            cases e
            exact absurd rfl (hex_digit hd.1).2.2.2.1
          · cases e; exact h
      · rename_i hu
        rw [digitsVal_digits]
        constructor
        · intro h; exact .inr ⟨rfl, x, r, hx, h, .inl rfl⟩
        · rintro (h | ⟨-, x', t, -, h, e | e⟩)
          · exact absurd h hno
          · cases e; exact h
          · cases e; exact absurd rfl (hu t)
    · rw [if_neg hp, digitsVal_digits]
      constructor
      · exact .inl
      · rintro (h | ⟨rfl, x', t, hx, h, e | e⟩)
        · exact h
        · cases e; simp [hx] at hp
        · cases e; simp [hx] at hp
  · rename_i hne
    rw [digitsVal_digits]
    constructor
    · exact .inl
    · rintro (h | ⟨rfl, x', t, hx, h, e | e⟩)
      · exact h
      · exact absurd e (hne _ _)
      · exact absurd e (hne _ _)

theorem moreDigits_ends {base acc n : Nat} {s : Str} (h : MoreDigits base acc s n) : ∀ c, s.getLast? = some c → isSpace c = false := by
  induction h with
  | done => simp
  | digit hd _ ih =>
    rename_i s _ _
    intro c hc
    cases s with
    | nil => simp at hc; subst hc; exact (hex_digit hd.1).2.2.1
    | cons d s => exact ih c (by simpa using hc)
  | after hd _ ih =>
    rename_i s _ _
    intro c hc
    cases s with
    | nil => simp at hc; subst hc; exact (hex_digit hd.1).2.2.1
    | cons d s => exact ih c (by simpa using hc)

theorem digits_ends {base n : Nat} {s : Str} (h : Digits base s n) :
    (∃ c r, s = c :: r ∧ isSpace c = false ∧ c ≠ '-' ∧ c ≠ '+') ∧ ∃ r c, s = r ++ [c] ∧ isSpace c = false := by
  obtain ⟨c, v, r, rfl, hd, hm⟩ := h
  have := hex_digit hd.1
  refine ⟨⟨c, r, rfl, this.2.2.1, this.2.2.2.2.1, this.2.2.2.2.2.1⟩, ?_⟩
  cases hl : (c :: r).getLast? with
  | none => simp at hl
  | some d =>
    obtain ⟨q, e⟩ := List.getLast?_eq_some_iff.1 hl
    refine ⟨q, d, e, ?_⟩
    cases r with
    | nil => simp at hl; rw [← hl]; exact this.2.2.1
    | cons x r => exact moreDigits_ends hm d (by simpa using hl)

theorem numeral_ends {base n : Nat} {s : Str} (h : Unsigned base s n) :
    (∃ c r, s = c :: r ∧ isSpace c = false ∧ c ≠ '-' ∧ c ≠ '+') ∧ ∃ r c, s = r ++ [c] ∧ isSpace c = false := by
  rcases h with h | ⟨-, x, t, -, h, rfl | rfl⟩
  · exact digits_ends h
  · obtain ⟨-, r, c, rfl, hc⟩ := digits_ends h
    exact ⟨⟨'0', _, rfl, by decide, by decide, by decide⟩, '0' :: x :: r, c, rfl, hc⟩
  · obtain ⟨-, r, c, rfl, hc⟩ := digits_ends h
    exact ⟨⟨'0', _, rfl, by decide, by decide, by decide⟩, '0' :: x :: '_' :: r, c, rfl, hc⟩

theorem lstrip_blank_start {a : Str} (h : Blank a) (s : Str) : lstrip (a ++ s) = lstrip s := by
  induction a with
  | nil => rfl
  | cons c a ih =>
    have := ih (fun x hx => h x (by simp [hx]))
    unfold lstrip at this ⊢
    rw [List.cons_append, List.dropWhile_cons, if_pos (h c (by simp))]
    exact this

theorem strip_around {a b s : Str} (ha : Blank a) (hb : Blank b) (h1 : ∃ c r, s = c :: r ∧ isSpace c = false)
    (h2 : ∃ r c, s = r ++ [c] ∧ isSpace c = false) : strip (a ++ s ++ b) = s := by
  obtain ⟨c, r, hs, hc⟩ := h1
  unfold strip
  rw [List.append_assoc, lstrip_blank_start ha]
  have : lstrip (s ++ b) = s ++ b := by rw [hs]; simp [lstrip, hc]
  rw [this, rstrip_blank_end _ _ hb]
  obtain ⟨r', d, hs', hd⟩ := h2
  refine rstrip_of_end _ fun x hx => ?_
  rw [hs'] at hx
  simp at hx
  exact hx ▸ hd

theorem pySign_cases (s : Str) : (∃ r, s = '-' :: r ∧ pySign s = (true, r)) ∨ (∃ r, s = '+' :: r ∧ pySign s = (false, r)) ∨
    (pySign s = (false, s)) := by
  unfold pySign
  split
  · exact .inl ⟨_, rfl, rfl⟩
  · exact .inr (.inl ⟨_, rfl, rfl⟩)
  · exact .inr (.inr rfl)

/-- `int` reads exactly these texts. -/
theorem C106 (base : Nat) (s : Str) (n : Int) : pyInt base s = some n ↔ IntText base s n := by
  constructor
  · intro h
    unfold pyInt at h
    split at h
    · rename_i k hk
      obtain ⟨a, ha, hab⟩ := lstrip_split s
      obtain ⟨b, hb, hbb⟩ := rstrip_split (lstrip s)
      have hs : s = a ++ strip s ++ b := by
        conv => lhs; rw [ha, hb]
        simp [strip]
      rw [numeral_iff] at hk
      rw [hs]
      rcases pySign_cases (strip s) with ⟨r, e1, e2⟩ | ⟨r, e1, e2⟩ | e2
      · rw [e2] at hk h
        simp at h
        rw [e1, ← h]
        exact .minus hab hbb hk
      · rw [e2] at hk h
        simp at h
        rw [e1, ← h]
        exact .plus hab hbb hk
      · rw [e2] at hk h
        simp at h
        rw [← h]
        exact .plain hab hbb hk
    · cases h
  · intro h
    cases h with
    | plain ha hb ht =>
      obtain ⟨⟨c, r, e, h1, h2, h3⟩, h4⟩ := numeral_ends ht
      unfold pyInt
      rw [strip_around ha hb ⟨c, r, e, h1⟩ h4]
      have : pySign (c :: r) = (false, c :: r) := by
        rcases pySign_cases (c :: r) with ⟨r', e1, -⟩ | ⟨r', e1, -⟩ | e2
        · cases e1; exact absurd rfl h2
        · cases e1; exact absurd rfl h3
        · exact e2
      rw [e, this]
      simp only
      rw [← e, numeral_iff.2 ht]
      simp
    | plus ha hb ht =>
      obtain ⟨⟨c, r, e, h1, h2, h3⟩, r', d, e', hd⟩ := numeral_ends ht
      unfold pyInt
      rw [strip_around ha hb ⟨'+', _, rfl, by decide⟩ ⟨'+' :: r', d, by rw [e']; rfl, hd⟩]
      simp only [pySign]
      rw [numeral_iff.2 ht]
      simp
    | minus ha hb ht =>
      obtain ⟨⟨c, r, e, h1, h2, h3⟩, r', d, e', hd⟩ := numeral_ends ht
      unfold pyInt
      rw [strip_around ha hb ⟨'-', _, rfl, by decide⟩ ⟨'-' :: r', d, by rw [e']; rfl, hd⟩]
      simp only [pySign]
      rw [numeral_iff.2 ht]
      simp

theorem pyInt_none {base : Nat} {s : Str} : pyInt base s = none ↔ ¬ ∃ n, IntText base s n := by
  constructor
  · rintro h ⟨n, hn⟩
    rw [(C106 base s n).2 hn] at h; cases h
  · intro h
    cases hp : pyInt base s with
    | none => rfl
    | some n => exact absurd ⟨n, (C106 base s n).1 hp⟩ h

/-- A text is at most one number. -/
theorem C106_unique (base : Nat) (s : Str) (m n : Int) (hm : IntText base s m) (hn : IntText base s n) : m = n := by
  have h1 := (C106 base s m).2 hm
  rw [(C106 base s n).2 hn] at h1
  exact (Option.some.inj h1).symm

/-- Which argument of a positional pseudo-class selects which elements. -/
theorem C106_nth (u : Uni) (c : Cfg) (s0 s : PState) (es : List Event) (h0 : initParser c = .ok s0) (h : feed u c s0 es = .ok s)
    (i : Nat) (hi : IsElem s.dom i) (sel : Sel) (before after : List Nat) (ha : Around s.dom i before after) :
    (∀ name ∈ [py"nth-child", py"nth-last-child"], ∀ arg args, (¬ ∃ n, IntText 10 arg n) →
      selMatch s.dom (.func sel name (arg :: args)) (.node i) = .error .valueError) ∧
    ∀ arg args (n : Int), IntText 10 arg n →
      selMatch s.dom (.func sel py"nth-child" (arg :: args)) (.node i) =
        (if (elemCount s.dom before : Int) + elemCount s.dom after < -n then .error .indexError
         else if (elemCount s.dom before : Int) + 1 = n ∨ (elemCount s.dom after : Int) = -n then selMatch s.dom sel (.node i) else .ok false) ∧
      selMatch s.dom (.func sel py"nth-last-child" (arg :: args)) (.node i) =
        (if (elemCount s.dom before : Int) + elemCount s.dom after < -n then .error .indexError
         else if (elemCount s.dom after : Int) + 1 = n ∨ (elemCount s.dom before : Int) = -n then selMatch s.dom sel (.node i) else .ok false) := by
  obtain ⟨h1, h2⟩ := C03_any u c s0 s es h0 h i hi sel before after ha
  exact ⟨fun name hn arg args he => (h1 name hn).2 arg args (pyInt_none.2 he), fun arg args n he => h2 arg args n ((C106 10 arg n).2 he)⟩

/-- Which texts are accepted as colours: after any number of `#`, three characters, each of which is doubled, or at least five, of which the
first two, the next two and the next one or two are read as numbers. -/
theorem C106_colour (s : Str) (r g b : Int) : parseHtmlColour s = .ok (r, g, b) ↔
    ∃ k t, s = List.replicate k '#' ++ t ∧ t.head? ≠ some '#' ∧
      ((∃ x y z, t = [x, y, z] ∧ IntText 16 [x, x] r ∧ IntText 16 [y, y] g ∧ IntText 16 [z, z] b) ∨
       t.length ≠ 3 ∧ IntText 16 (t.take 2) r ∧ IntText 16 ((t.drop 2).take 2) g ∧ IntText 16 ((t.drop 4).take 2) b) := by
  have pair : ∀ (c : Str) (i : Nat) (n : Int), hexPair c i = .ok n ↔ IntText 16 ((c.drop i).take 2) n := by
    intro c i n
    unfold hexPair
    rw [← C106]
    cases pyInt 16 ((c.drop i).take 2) with
    | none => simp
    | some m => simp
  have three : ∀ (c : Str), (do let r ← hexPair c 0; let g ← hexPair c 2; let b ← hexPair c 4; return (r, g, b) : Py (Int × Int × Int)) = .ok (r, g, b) ↔
      IntText 16 (c.take 2) r ∧ IntText 16 ((c.drop 2).take 2) g ∧ IntText 16 ((c.drop 4).take 2) b := by
    intro c
    rw [← pair, ← pair, show c.take 2 = (c.drop 0).take 2 from rfl, ← pair]
    simp only [bind, Except.bind, pure, Except.pure]
    cases hexPair c 0 with
    | error e => simp
    | ok r' =>
      cases hexPair c 2 with
      | error e => simp
      | ok g' =>
        cases hexPair c 4 with
        | error e => simp
        | ok b' => simp
  have hl : ∃ k, s = List.replicate k '#' ++ lstripCh '#' s ∧ (lstripCh '#' s).head? ≠ some '#' := by
    induction s with
    | nil => exact ⟨0, rfl, by simp [lstripCh]⟩
    | cons c s ih =>
      by_cases hc : c = '#'
      · obtain ⟨k, h1, h2⟩ := ih
        have e : lstripCh '#' (c :: s) = lstripCh '#' s := by rw [hc]; simp [lstripCh]
        rw [e]
        refine ⟨k + 1, ?_, h2⟩
        rw [List.replicate_succ, List.cons_append, ← h1, hc]
      · have e : lstripCh '#' (c :: s) = c :: s := by simp [lstripCh, hc]
        rw [e]
        exact ⟨0, rfl, by simpa using hc⟩
  have huniq : ∀ {k k' : Nat} {t t' : Str}, List.replicate k '#' ++ t = List.replicate k' '#' ++ t' → t.head? ≠ some '#' → t'.head? ≠ some '#' → t = t' := by
    intro k
    induction k with
    | zero =>
      intro k' t t' e h1 h2
      cases k' with
      | zero => simpa using e
      | succ k' => rw [List.replicate_zero, List.nil_append, List.replicate_succ] at e; rw [e] at h1; simp at h1
    | succ k ih =>
      intro k' t t' e h1 h2
      cases k' with
      | zero => rw [List.replicate_zero, List.nil_append, List.replicate_succ] at e; rw [← e] at h2; simp at h2
      | succ k' =>
        rw [List.replicate_succ, List.replicate_succ, List.cons_append, List.cons_append, List.cons.injEq] at e
        exact ih e.2 h1 h2
  obtain ⟨k0, e0, h0⟩ := hl
  have main : parseHtmlColour s = .ok (r, g, b) ↔
      ((∃ x y z, lstripCh '#' s = [x, y, z] ∧ IntText 16 [x, x] r ∧ IntText 16 [y, y] g ∧ IntText 16 [z, z] b) ∨
       (lstripCh '#' s).length ≠ 3 ∧ IntText 16 ((lstripCh '#' s).take 2) r ∧ IntText 16 (((lstripCh '#' s).drop 2).take 2) g ∧
        IntText 16 (((lstripCh '#' s).drop 4).take 2) b) := by
    unfold parseHtmlColour
    simp only
    split
    · rename_i x y z e
      rw [three, e]
      constructor
      · rintro ⟨h1, h2, h3⟩; exact .inl ⟨x, y, z, rfl, h1, h2, h3⟩
      · rintro (⟨x, y, z, e, h1, h2, h3⟩ | ⟨h, -⟩)
        · cases e; exact ⟨h1, h2, h3⟩
        · simp at h
    · rename_i hne
      rw [three]
      constructor
      · intro h
        refine .inr ⟨fun q => ?_, h⟩
        match hq : lstripCh '#' s, q with
        | [x, y, z], _ => exact hne x y z hq
      · rintro (⟨x, y, z, e, -⟩ | ⟨-, h⟩)
        · exact absurd e (hne x y z)
        · exact h
  rw [main]
  constructor
  · intro h; exact ⟨k0, _, e0, h0, h⟩
  · rintro ⟨k, t, e, ht, h⟩
    have : lstripCh '#' s = t := huniq (by rw [← e0, ← e]) h0 ht
    rw [this]; exact h

/-- So texts are accepted that are no colours, and give components that are less than zero. -/
theorem C106_colour_fails : parseHtmlColour py"#-1-2 3" = .ok (-1, -2, 3) ∧ parseHtmlColour py"#aabbc and more" = .ok (170, 187, 12) := by decide

example : IntText 10 py" +1_0\n" 10 :=
  .plus (a := py" ") (b := py"\n") (t := py"1_0") (n := 10) (by intro c hc; simp at hc; rw [hc]; decide) (by intro c hc; simp at hc; rw [hc]; decide)
    (.inl ⟨'1', 1, py"_0", rfl, ⟨.digit 1 _ rfl, by decide⟩, .after (v := 0) ⟨.digit 0 _ rfl, by decide⟩ .done⟩)
example : pyInt 10 py" +1_0\n" = some 10 ∧ pyInt 10 py"1__0" = none ∧ pyInt 10 py"- 1" = none ∧ pyInt 16 py"0x_f" = some 15 := by decide

end Verif
