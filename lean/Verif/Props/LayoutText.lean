import Verif.Spec.LayoutText
import Verif.Props.Layout

/-!
# Property C89 for all format specifications of texts
-/

namespace Verif

open Spec

/-! ## Numbers -/

theorem decimalVal_snoc (s : Str) (c : Char) : decimalVal (s ++ [c]) = 10 * decimalVal s + (c.toNat - 48) := by
  simp [decimalVal]

theorem digitChar_isDigit {c : Char} (h : c.isDigit = true) : ∃ d, d < 10 ∧ c.toNat - 48 = d ∧ c = Nat.digitChar d := by
  have h1 : 48 ≤ c.toNat ∧ c.toNat ≤ 57 := by
    simp only [Char.isDigit, Bool.and_eq_true, decide_eq_true_eq] at h
    exact ⟨h.1, h.2⟩
  refine ⟨c.toNat - 48, by omega, rfl, ?_⟩
  have key : ∀ k : Fin 10, (Nat.digitChar k.val).toNat = 48 + k.val := by decide
  have := key ⟨c.toNat - 48, by omega⟩
  apply Char.toNat_inj.1
  simp only at this
  omega

theorem natStr_snoc {v d : Nat} (hv : 0 < v) (hd : d < 10) : natStr (10 * v + d) = natStr v ++ [Nat.digitChar d] := by
  rw [natStr_ge _ (by omega)]
  congr 3 <;> omega

theorem numeral_snoc (s : Str) : (∀ c ∈ s, c.isDigit = true) → s ≠ [] → ∃ zeros, s = List.replicate zeros '0' ++ natStr (decimalVal s) := by
  suffices ∀ (n : Nat) (s : Str), s.length = n → (∀ c ∈ s, c.isDigit = true) → s ≠ [] →
      ∃ zeros, s = List.replicate zeros '0' ++ natStr (decimalVal s) from this _ s rfl
  intro n
  induction n with
  | zero => intro s hl _ hne; exact absurd (List.length_eq_zero_iff.1 hl) hne
  | succ n ih =>
    intro s hl h hne
    obtain ⟨t, c, rfl⟩ : ∃ t c, s = t ++ [c] := ⟨s.dropLast, s.getLast hne, (List.dropLast_concat_getLast hne).symm⟩
    obtain ⟨d, hd, e1, e2⟩ := digitChar_isDigit (h c (by simp))
    rw [decimalVal_snoc, e1]
    by_cases ht : t = []
    · subst ht
      refine ⟨0, ?_⟩
      have : decimalVal [] = 0 := rfl
      rw [this, natStr_lt _ (by omega)]
      simp [e2]
    · obtain ⟨k, hk⟩ := ih t (by simpa using hl) (fun c hc => h c (by simp [hc])) ht
      by_cases h0 : decimalVal t = 0
      · refine ⟨k + 1, ?_⟩
        rw [h0] at hk ⊢
        have e0 : natStr 0 = py"0" := by decide
        rw [natStr_lt _ (by omega)]
        rw [hk, e0, List.replicate_succ', e2]
        simp
      · refine ⟨k, ?_⟩
        rw [natStr_snoc (by omega) hd, ← List.append_assoc, ← hk, e2]

theorem decimalVal_zeros (k : Nat) (s : Str) : decimalVal (List.replicate k '0' ++ s) = decimalVal s := by
  induction k with
  | zero => rfl
  | succ k ih => rw [List.replicate_succ, List.cons_append]; exact ih

theorem numeral_digits {s : Str} {n : Nat} (h : Numeral s n) : (∀ c ∈ s, c.isDigit = true) ∧ s ≠ [] ∧ decimalVal s = n ∧ n < 2 ^ 63 := by
  obtain ⟨h1, k, rfl⟩ := h
  refine ⟨fun c hc => ?_, by simp [natStr_ne_nil], by rw [decimalVal_zeros, decimalVal_natStr], h1⟩
  rcases List.mem_append.1 hc with hc | hc
  · rw [List.eq_of_mem_replicate hc]; decide
  · exact natStr_isDigit _ c hc

theorem takeWhile_numeral {s r : Str} (h : ∀ c ∈ s, c.isDigit = true) (hr : ∀ c, r.head? = some c → c.isDigit = false) :
    (s ++ r).takeWhile Char.isDigit = s := by
  rw [List.takeWhile_append_of_pos h]
  cases r with
  | nil => simp
  | cons c r => rw [List.takeWhile_cons_of_neg (by rw [hr c rfl]; simp)]; simp

theorem takeNumber_numeral {s r : Str} {n : Nat} (h : Numeral s n) (hr : ∀ c, r.head? = some c → c.isDigit = false) :
    takeNumber (s ++ r) = .ok (some n, r) := by
  obtain ⟨h1, h2, h3, h4⟩ := numeral_digits h
  have hb : tooBig s = false := by
    have := takeWhile_numeral (r := []) h1 (by simp)
    rw [List.append_nil] at this
    rw [tooBig, this, h3, ssizeMax]
    simp only [decide_eq_false_iff_not]
    omega
  simp only [takeNumber, takeWhile_numeral h1 hr, h2, if_false, hb, Bool.false_eq_true, h3, List.drop_left]

theorem takeNumber_none {r : Str} (hr : ∀ c, r.head? = some c → c.isDigit = false) : takeNumber r = .ok (none, r) := by
  have := takeWhile_numeral (s := []) (r := r) (by simp) hr
  rw [List.nil_append] at this
  simp [takeNumber, this]

theorem drop_takeWhile (p : Char → Bool) (s : Str) : s.drop (s.takeWhile p).length = s.dropWhile p := by
  induction s with
  | nil => rfl
  | cons c s ih => cases hc : p c <;> simp [hc, ih]

theorem takeNumber_inv {s r : Str} {n : Option Nat} (h : takeNumber s = .ok (n, r)) :
    (∀ c, r.head? = some c → c.isDigit = false) ∧ (n = none ∧ r = s ∨ ∃ m ds, n = some m ∧ Numeral ds m ∧ s = ds ++ r) := by
  have hdrop : ∀ c, (s.drop (s.takeWhile Char.isDigit).length).head? = some c → c.isDigit = false := by
    intro c hc
    rw [drop_takeWhile] at hc
    have := List.head?_dropWhile_not Char.isDigit s
    rw [hc] at this
    simpa using this
  unfold takeNumber at h
  simp only at h
  split at h
  · rename_i h0
    cases h
    rw [h0] at hdrop
    exact ⟨by simpa using hdrop, .inl ⟨rfl, rfl⟩⟩
  · rename_i h0
    split at h
    · cases h
    · rename_i hb
      cases h
      have hall : ∀ c ∈ s.takeWhile Char.isDigit, c.isDigit = true := fun c hc => List.all_eq_true.1 List.all_takeWhile c hc
      refine ⟨hdrop, .inr ⟨_, _, rfl, ⟨?_, numeral_snoc _ hall h0⟩, ?_⟩⟩
      · have := takeWhile_numeral (r := []) hall (by simp)
        rw [List.append_nil] at this
        rw [tooBig, this, ssizeMax] at hb
        simp only [decide_eq_true_eq] at hb
        omega
      · rw [drop_takeWhile, List.takeWhile_append_dropWhile]

theorem takeNumber_error {s : Str} {e : PyErr} (h : takeNumber s = .error e) : e = .valueError := by
  unfold takeNumber at h
  simp only at h
  split at h
  · cases h
  · split at h
    · cases h; rfl
    · cases h

/-! ## The parts of a specification -/

theorem takeIf_inv {p : Char → Bool} {s r : Str} {c : Option Char} (h : takeIf p s = (c, r)) :
    (c = none ∧ r = s ∧ ∀ d, s.head? = some d → p d = false) ∨ ∃ d, c = some d ∧ p d = true ∧ s = d :: r := by
  cases s with
  | nil => cases h; exact .inl ⟨rfl, rfl, by simp⟩
  | cons d t =>
    simp only [takeIf] at h
    split at h
    · rename_i hp; cases h; exact .inr ⟨d, rfl, hp, rfl⟩
    · rename_i hp; cases h; exact .inl ⟨rfl, rfl, by simpa using hp⟩

theorem takeAlign_inv {s r : Str} {fill align : Option Char} (h : takeAlign s = (fill, align, r)) :
    (∃ c d, fill = some c ∧ align = some d ∧ isAlign d = true ∧ s = c :: d :: r) ∨
    (∃ c, fill = none ∧ align = some c ∧ isAlign c = true ∧ s = c :: r) ∨ fill = none ∧ align = none ∧ r = s := by
  match s with
  | [] => cases h; exact .inr (.inr ⟨rfl, rfl, rfl⟩)
  | [c] =>
    simp only [takeAlign] at h
    split at h
    · rename_i hc; cases h; exact .inr (.inl ⟨c, rfl, rfl, hc, rfl⟩)
    · cases h; exact .inr (.inr ⟨rfl, rfl, rfl⟩)
  | c :: d :: t =>
    simp only [takeAlign] at h
    split at h
    · rename_i hd; cases h; exact .inl ⟨c, d, rfl, rfl, hd, rfl⟩
    · split at h
      · rename_i hc; cases h; exact .inr (.inl ⟨c, rfl, rfl, hc, rfl⟩)
      · cases h; exact .inr (.inr ⟨rfl, rfl, rfl⟩)

theorem takePrecision_inv {s r : Str} {p : Option Nat} (h : takePrecision s = .ok (p, r)) :
    p = none ∧ r = s ∧ s.head? ≠ some '.' ∨ ∃ m ds, p = some m ∧ Numeral ds m ∧ s = '.' :: (ds ++ r) := by
  cases s with
  | nil => cases h; exact .inl ⟨rfl, rfl, by simp⟩
  | cons c t =>
    simp only [takePrecision] at h
    split at h
    · rename_i hc
      subst hc
      cases h1 : takeNumber t with
      | error e => rw [h1] at h; cases h
      | ok q =>
        obtain ⟨m, t'⟩ := q
        rw [h1] at h
        simp only [bind, Except.bind] at h
        split at h
        · cases h
        · rename_i hm
          cases h
          rcases (takeNumber_inv h1).2 with ⟨rfl, -⟩ | ⟨k, ds, rfl, h2, h3⟩
          · exact absurd rfl hm
          · exact .inr ⟨k, ds, rfl, h2, by rw [h3]⟩
    · rename_i hc; cases h; exact .inl ⟨rfl, rfl, by simpa using hc⟩

theorem takePrecision_error {s : Str} {e : PyErr} (h : takePrecision s = .error e) : e = .valueError := by
  cases s with
  | nil => cases h
  | cons c t =>
    simp only [takePrecision] at h
    split at h
    · cases h1 : takeNumber t with
      | error e' => rw [h1] at h; cases h; exact takeNumber_error h1
      | ok q =>
        obtain ⟨m, t'⟩ := q
        rw [h1] at h
        simp only [bind, Except.bind] at h
        split at h
        · cases h; rfl
        · cases h
    · cases h

/-- Reading a specification, step by step. -/
theorem parseSpec_steps (number : Bool) (s : Str) : ∃ fill align s1 sign s2 z s3 alt s4 pad s5,
    takeAlign s = (fill, align, s1) ∧ takeIf (fun c => c == ' ' || c == '+' || c == '-') s1 = (sign, s2) ∧ takeIf (· == 'z') s2 = (z, s3) ∧
    takeIf (· == '#') s3 = (alt, s4) ∧ (if fill.isNone then takeIf (· == '0') s4 else (none, s4)) = (pad, s5) ∧
    ((∃ e, parseSpec number s = .error e ∧ e = .valueError) ∨ ∃ width s6 comma s7 under s8 precision s9 type,
      takeNumber s5 = .ok (width, s6) ∧ takeIf (· == ',') s6 = (comma, s7) ∧ takeIf (· == '_') s7 = (under, s8) ∧
      takePrecision s8 = .ok (precision, s9) ∧ (s9 = [] ∧ type = (if number then 'd' else 's') ∨ s9 = [type]) ∧
      ¬ ((comma.isSome || under.isSome) && !(['d', 'e', 'f', 'g', 'E', 'G', '%', 'F'].contains type ||
        under.isSome && ['b', 'o', 'x', 'X'].contains type)) = true ∧
      parseSpec number s = .ok {
        fill := fill.getD (if pad.isSome then '0' else ' ')
        align := align.getD (if number then (if pad.isSome then '=' else '>') else '<')
        sign, zero := z.isSome, alternate := alt.isSome, width, separator := if comma.isSome then comma else under, precision, type }) := by
  rcases h1 : takeAlign s with ⟨fill, align, s1⟩
  rcases h2 : takeIf (fun c => c == ' ' || c == '+' || c == '-') s1 with ⟨sign, s2⟩
  rcases h3 : takeIf (· == 'z') s2 with ⟨z, s3⟩
  rcases h4 : takeIf (· == '#') s3 with ⟨alt, s4⟩
  rcases h5 : (if fill.isNone then takeIf (· == '0') s4 else (none, s4)) with ⟨pad, s5⟩
  refine ⟨fill, align, s1, sign, s2, z, s3, alt, s4, pad, s5, rfl, h2, h3, h4, h5, ?_⟩
  simp only [parseSpec, h1, h2, h3, h4, h5, bind, Except.bind]
  cases h6 : takeNumber s5 with
  | error e => exact .inl ⟨e, rfl, takeNumber_error h6⟩
  | ok q =>
    obtain ⟨width, s6⟩ := q
    rcases h7 : takeIf (· == ',') s6 with ⟨comma, s7⟩
    rcases h8 : takeIf (· == '_') s7 with ⟨under, s8⟩
    simp only [h7, h8]
    by_cases c1 : (comma.isSome && under.isSome) = true
    · rw [if_pos c1]; exact .inl ⟨_, rfl, rfl⟩
    rw [if_neg c1]
    by_cases c2 : (under.isSome && decide (s8.head? = some ',')) = true
    · rw [if_pos c2]; exact .inl ⟨_, rfl, rfl⟩
    rw [if_neg c2]
    cases h9 : takePrecision s8 with
    | error e => exact .inl ⟨e, rfl, takePrecision_error h9⟩
    | ok q =>
      obtain ⟨precision, s9⟩ := q
      simp only
      match s9 with
      | _ :: _ :: _ => exact .inl ⟨_, rfl, rfl⟩
      | [] =>
        simp only
        by_cases c3 : ((comma.isSome || under.isSome) && !(['d', 'e', 'f', 'g', 'E', 'G', '%', 'F'].contains (if number then 'd' else 's') ||
            under.isSome && ['b', 'o', 'x', 'X'].contains (if number then 'd' else 's'))) = true
        · rw [if_pos c3]; exact .inl ⟨_, rfl, rfl⟩
        · rw [if_neg c3]; exact .inr ⟨width, s6, comma, s7, under, s8, precision, [], _, rfl, h7, h8, h9, .inl ⟨rfl, rfl⟩, c3, rfl⟩
      | [t] =>
        simp only
        by_cases c3 : ((comma.isSome || under.isSome) && !(['d', 'e', 'f', 'g', 'E', 'G', '%', 'F'].contains t ||
            under.isSome && ['b', 'o', 'x', 'X'].contains t)) = true
        · rw [if_pos c3]; exact .inl ⟨_, rfl, rfl⟩
        · rw [if_neg c3]; exact .inr ⟨width, s6, comma, s7, under, s8, precision, [t], t, rfl, h7, h8, h9, .inr rfl, c3, rfl⟩

theorem parseSpec_error {number : Bool} {s : Str} {e : PyErr} (h : parseSpec number s = .error e) : e = .valueError := by
  obtain ⟨_, _, _, _, _, _, _, _, _, _, _, -, -, -, -, -, ⟨e', h1, h2⟩ | ⟨_, _, _, _, _, _, _, _, _, -, -, -, -, -, -, h1⟩⟩ := parseSpec_steps number s
  · rw [h1] at h; cases h; exact h2
  · rw [h1] at h; cases h

theorem formatArg_error {x spec : Str} {e : PyErr} (h : formatArg (.str x) spec = .error e) : e = .valueError := by
  simp only [formatArg] at h
  split at h
  · cases h
  · cases h1 : parseSpec false spec with
    | error e' => rw [h1] at h; cases h; exact parseSpec_error h1
    | ok f =>
      rw [h1] at h
      simp only [bind, Except.bind, formatStr] at h
      split at h
      · cases h; rfl
      · cases h

theorem side_of {c : Char} (h : isAlign c = true) (h' : c ≠ '=') : ∃ s : Side, s.char = c := by
  simp only [isAlign, Bool.or_eq_true, beq_iff_eq] at h
  rcases h with ((rfl | rfl) | h) | rfl
  · exact ⟨.left, rfl⟩
  · exact ⟨.right, rfl⟩
  · exact absurd h h'
  · exact ⟨.middle, rfl⟩

theorem formatStr_ok {f : FmtSpec} {x y : Str} (h : formatStr f x = .ok y) :
    f.type = 's' ∧ f.sign = none ∧ f.zero = false ∧ f.alternate = false ∧ f.align ≠ '=' := by
  unfold formatStr at h
  split at h
  · cases h
  · rename_i hok
    simpa only [ne_eq, not_or, Decidable.not_not, Bool.not_eq_true, Option.isSome_eq_false_iff, Option.isNone_iff_eq_none] using hok

/-- A specification that is accepted for a text asks for a layout. -/
theorem formatArg_meant {x spec y : Str} (hne : spec ≠ []) (h : formatArg (.str x) spec = .ok y) :
    ∃ (l : Layout) (f : FmtSpec), l.Meant spec ∧ parseSpec false spec = .ok f ∧ Asks false l f := by
  simp only [formatArg, hne, if_false] at h
  obtain ⟨fill, align, s1, sign, s2, z, s3, alt, s4, pad, s5, h1, h2, h3, h4, h5, ⟨e, he, -⟩ |
    ⟨width, s6, comma, s7, under, s8, precision, s9, type, h6, h7, h8, h9, h10, h11, h12⟩⟩ := parseSpec_steps false spec
  · rw [he] at h; cases h
  rw [h12] at h
  have hok := formatStr_ok h
  simp only [Bool.false_eq_true, if_false, Option.isSome_eq_false_iff, Option.isNone_iff_eq_none] at hok
  obtain ⟨rfl, rfl, rfl, rfl, halign⟩ := hok
  have hs2 : s2 = s1 := by rcases takeIf_inv h2 with ⟨-, h, -⟩ | ⟨_, h, -⟩; exact h; cases h
  have hs3 : s3 = s2 := by rcases takeIf_inv h3 with ⟨-, h, -⟩ | ⟨_, h, -⟩; exact h; cases h
  have hs4 : s4 = s3 := by rcases takeIf_inv h4 with ⟨-, h, -⟩ | ⟨_, h, -⟩; exact h; cases h
  have hsep : comma = none ∧ under = none := by
    cases comma with
    | some a => exact absurd (by simp) h11
    | none =>
      cases under with
      | some a => exact absurd (by simp) h11
      | none => exact ⟨rfl, rfl⟩
  obtain ⟨rfl, rfl⟩ := hsep
  have hs7 : s7 = s6 := by rcases takeIf_inv h7 with ⟨-, h, -⟩ | ⟨_, h, -⟩; exact h; cases h
  have hs8 : s8 = s7 := by rcases takeIf_inv h8 with ⟨-, h, -⟩ | ⟨_, h, -⟩; exact h; cases h
  subst hs2 hs3 hs4 hs7 hs8
  have hcut : ∃ cut, s8 = cut ++ s9 ∧ (cut = [] ∧ precision = none ∨ ∃ n p, cut = '.' :: n ∧ Numeral n p ∧ precision = some p) := by
    rcases takePrecision_inv h9 with ⟨rfl, rfl, -⟩ | ⟨p, n, rfl, hn, hs⟩
    · exact ⟨[], rfl, .inl ⟨rfl, rfl⟩⟩
    · exact ⟨'.' :: n, hs, .inr ⟨n, p, rfl, hn, rfl⟩⟩
  obtain ⟨cut, hs8, hcut⟩ := hcut
  have hletter : s9 = [] ∨ s9 = py"s" := by
    rcases h10 with ⟨h, -⟩ | h
    · exact .inl h
    · exact .inr h
  -- the beginning
  have hhead : ∃ (side : Side) (fl : Char) (given : Bool) (head : Str), (∀ w p, (Layout.mk fl side w p).Head given head) ∧ spec = head ++ s5 ∧
      (given = false → s5.head? ≠ some '0') ∧ fill.getD (if pad.isSome then '0' else ' ') = fl ∧ align.getD '<' = side.char := by
    rcases takeAlign_inv h1 with ⟨c, d, rfl, rfl, hd, rfl⟩ | ⟨c, rfl, rfl, hc, rfl⟩ | ⟨rfl, rfl, rfl⟩
    · cases h5
      obtain ⟨side, rfl⟩ := side_of hd halign
      exact ⟨side, c, true, [c, side.char], fun w p => .fill, rfl, by simp, rfl, rfl⟩
    · obtain ⟨side, rfl⟩ := side_of hc halign
      rcases takeIf_inv h5 with ⟨rfl, rfl, h⟩ | ⟨d, rfl, h, rfl⟩
      · exact ⟨side, ' ', false, [side.char], fun w p => .side rfl, rfl, fun _ he => by simpa using h _ he, rfl, rfl⟩
      · simp only [beq_iff_eq] at h
        subst h
        exact ⟨side, '0', true, [side.char, '0'], fun w p => .sideZero rfl, rfl, by simp, rfl, rfl⟩
    · rcases takeIf_inv h5 with ⟨rfl, rfl, h⟩ | ⟨d, rfl, h, rfl⟩
      · exact ⟨.left, ' ', false, [], fun w p => .none rfl rfl, rfl, fun _ he => by simpa using h _ he, rfl, rfl⟩
      · simp only [beq_iff_eq] at h
        subst h
        exact ⟨.left, '0', true, ['0'], fun w p => .zero rfl rfl, rfl, by simp, rfl, rfl⟩
  obtain ⟨side, fl, given, head, hh, hspec, hzero, hfill, hside⟩ := hhead
  refine ⟨⟨fl, side, width.getD 0, precision⟩, _, ?_, h12, ⟨hfill, hside, rfl, rfl, rfl, rfl, rfl, rfl, rfl⟩⟩
  rcases (takeNumber_inv h6).2 with ⟨rfl, rfl⟩ | ⟨m, ds, rfl, hn, hs5⟩
  · exact ⟨given, head, [], cut, s9, by rw [hspec, hs8]; simp, hh _ _, .inl ⟨rfl, rfl⟩, hcut, hletter⟩
  · refine ⟨given, head, ds, cut, s9, by rw [hspec, hs5, hs8]; simp, hh _ _, .inr ⟨hn, fun hg he => hzero hg ?_⟩, hcut, hletter⟩
    rw [hs5]
    cases ds with
    | nil => cases he
    | cons => simpa using he

/-- Characters of the part after the beginning. -/
def AfterHead (c : Char) : Prop := c.isDigit = true ∨ c = '.' ∨ c = 's'

theorem afterHead_ne {c : Char} (h : AfterHead c) (d : Char) (h1 : d.isDigit = false) (h2 : d ≠ '.') (h3 : d ≠ 's') : (c == d) = false := by
  rw [beq_eq_false_iff_ne]
  rintro rfl
  rcases h with h | h | h
  · rw [h1] at h; cases h
  · exact h2 h
  · exact h3 h

theorem afterHead_align {c : Char} (h : AfterHead c) : isAlign c = false := by
  have ne := afterHead_ne h
  simp [isAlign, ne '<' (by decide) (by decide) (by decide), ne '>' (by decide) (by decide) (by decide), ne '=' (by decide) (by decide) (by decide),
    ne '^' (by decide) (by decide) (by decide)]

theorem takeAlign_none {s : Str} (h : ∀ c ∈ s, AfterHead c) : takeAlign s = (none, none, s) := by
  match s with
  | [] => rfl
  | [c] => simp [takeAlign, afterHead_align (h c (by simp))]
  | c :: d :: r => simp [takeAlign, afterHead_align (h c (by simp)), afterHead_align (h d (by simp))]

theorem takeAlign_side {s : Str} (h : ∀ c ∈ s, AfterHead c) {c : Char} (hc : isAlign c = true) : takeAlign (c :: s) = (none, some c, s) := by
  cases s with
  | nil => simp [takeAlign, hc]
  | cons d r => simp [takeAlign, hc, afterHead_align (h d (by simp))]

theorem parseSpec_after {l : Layout} {cut letter : Str} (hcut : cut = [] ∧ l.cut = none ∨ ∃ n p, cut = '.' :: n ∧ Numeral n p ∧ l.cut = some p)
    (hletter : letter = [] ∨ letter = py"s") (s r r' : Str) (fill align pad : Option Char) (width : Option Nat)
    (h1 : takeAlign s = (fill, align, r)) (hr : ∀ c ∈ r, AfterHead c)
    (h2 : (if fill.isNone then takeIf (· == '0') r else (none, r)) = (pad, r')) (h3 : takeNumber r' = .ok (width, cut ++ letter)) :
    parseSpec false s = .ok {
      fill := fill.getD (if pad.isSome then '0' else ' ')
      align := align.getD '<'
      width, precision := l.cut, type := 's' } := by
  have ne : ∀ (d : Char), d.isDigit = false → d ≠ '.' → d ≠ 's' → ∀ c, r.head? = some c → (c == d) = false :=
    fun d h1 h2 h3 c hc => afterHead_ne (hr c (List.mem_of_mem_head? hc)) d h1 h2 h3
  have n1 := takeIf_other (fun c => c == ' ' || c == '+' || c == '-') r (by
    intro c hc
    simp [ne ' ' (by decide) (by decide) (by decide) c hc, ne '+' (by decide) (by decide) (by decide) c hc,
      ne '-' (by decide) (by decide) (by decide) c hc])
  have n2 := takeIf_other (· == 'z') r (ne 'z' (by decide) (by decide) (by decide))
  have n3 := takeIf_other (· == '#') r (ne '#' (by decide) (by decide) (by decide))
  have hd : ∀ c, (cut ++ letter).head? = some c → c = '.' ∨ c = 's' := by
    intro c hc
    rcases hcut with ⟨rfl, -⟩ | ⟨n, p, rfl, -⟩
    · rcases hletter with rfl | rfl
      · cases hc
      · cases hc; exact .inr rfl
    · cases hc; exact .inl rfl
  have n5 := takeIf_other (· == ',') (cut ++ letter) (fun c hc => by rcases hd c hc with rfl | rfl <;> rfl)
  have n6 := takeIf_other (· == '_') (cut ++ letter) (fun c hc => by rcases hd c hc with rfl | rfl <;> rfl)
  have n7 : takePrecision (cut ++ letter) = .ok (l.cut, letter) := by
    rcases hcut with ⟨rfl, e⟩ | ⟨n, p, rfl, hn, e⟩
    · rcases hletter with rfl | rfl <;> rw [e] <;> rfl
    · have := takeNumber_numeral hn (r := letter) (by rcases hletter with rfl | rfl <;> simp)
      simp [takePrecision, this, bind, Except.bind, e]
  simp only [parseSpec, h1, n1, n2, n3, h2, h3, n5, n6, n7, bind, Except.bind, Option.isSome_none, Bool.false_and, Bool.false_eq_true, if_false,
    Bool.or_false]
  rcases hletter with rfl | rfl <;> rfl

theorem parseSpec_meant {l : Layout} {spec : Str} (h : l.Meant spec) : ∃ f, parseSpec false spec = .ok f ∧ Asks false l f := by
  obtain ⟨fill, head, width, cut, letter, rfl, hhead, hwidth, hcut, hletter⟩ := h
  have ha : isAlign l.side.char = true := by cases l.side <;> rfl
  have hafter : ∀ c ∈ width ++ (cut ++ letter), AfterHead c := by
    intro c hc
    simp only [List.mem_append] at hc
    rcases hc with hc | hc | hc
    · rcases hwidth with ⟨rfl, -⟩ | ⟨hn, -⟩
      · cases hc
      · exact .inl ((numeral_digits hn).1 c hc)
    · rcases hcut with ⟨rfl, -⟩ | ⟨n, p, rfl, hn, -⟩
      · cases hc
      · rcases List.mem_cons.1 hc with rfl | hc
        · exact .inr (.inl rfl)
        · exact .inl ((numeral_digits hn).1 c hc)
    · rcases hletter with rfl | rfl
      · cases hc
      · exact .inr (.inr (List.mem_singleton.1 hc))
  have hd : ∀ c, (cut ++ letter).head? = some c → c = '.' ∨ c = 's' := by
    intro c hc
    rcases hcut with ⟨rfl, -⟩ | ⟨n, p, rfl, -⟩
    · rcases hletter with rfl | rfl
      · cases hc
      · cases hc; exact .inr rfl
    · cases hc; exact .inl rfl
  have hdig : ∀ c, (cut ++ letter).head? = some c → c.isDigit = false := fun c hc => by rcases hd c hc with rfl | rfl <;> rfl
  obtain ⟨w, hw, hnum⟩ : ∃ w : Option Nat, w.getD 0 = l.width ∧ takeNumber (width ++ (cut ++ letter)) = .ok (w, cut ++ letter) := by
    rcases hwidth with ⟨rfl, e⟩ | ⟨hn, -⟩
    · exact ⟨none, e.symm, takeNumber_none hdig⟩
    · exact ⟨some l.width, rfl, takeNumber_numeral hn hdig⟩
  have hz : fill = false → takeIf (· == '0') (width ++ (cut ++ letter)) = (none, width ++ (cut ++ letter)) := by
    intro hf
    refine takeIf_other _ _ (fun c hc => ?_)
    rcases hwidth with ⟨rfl, -⟩ | ⟨hn, h0⟩
    · rcases hd c hc with rfl | rfl <;> rfl
    · cases width with
      | nil => exact absurd rfl (numeral_digits hn).2.1
      | cons a t =>
        cases hc
        simpa using h0 hf
  have hzero : ∀ c ∈ '0' :: (width ++ (cut ++ letter)), AfterHead c := by
    intro c hc
    rcases List.mem_cons.1 hc with rfl | hc
    · exact .inl rfl
    · exact hafter c hc
  rw [List.append_assoc, List.append_assoc]
  cases hhead with
  | none h1 h2 =>
    refine ⟨_, parseSpec_after hcut hletter _ _ _ none none none w (takeAlign_none hafter) hafter (hz rfl) hnum, ?_⟩
    constructor <;> first | rfl | exact h2.symm | exact hw | (rw [h1]; rfl)
  | zero h1 h2 =>
    refine ⟨_, parseSpec_after hcut hletter _ _ _ none none (some '0') w (takeAlign_none hzero) hzero rfl hnum, ?_⟩
    constructor <;> first | rfl | exact h2.symm | exact hw | (rw [h1]; rfl)
  | side h2 =>
    refine ⟨_, parseSpec_after hcut hletter _ _ _ none (some l.side.char) none w (takeAlign_side hafter ha) hafter (hz rfl) hnum, ?_⟩
    constructor <;> first | rfl | exact h2.symm | exact hw
  | sideZero h2 =>
    refine ⟨_, parseSpec_after hcut hletter _ _ _ none (some l.side.char) (some '0') w (takeAlign_side hzero ha) hzero rfl hnum, ?_⟩
    constructor <;> first | rfl | exact h2.symm | exact hw
  | fill =>
    refine ⟨_, parseSpec_after hcut hletter _ _ _ (some l.fill) (some l.side.char) none w (by simp [takeAlign, ha]) hafter rfl hnum, ?_⟩
    constructor <;> first | rfl | exact hw

theorem formatArg_asks {l : Layout} {spec : Str} {f : FmtSpec} (hne : spec ≠ []) (h1 : parseSpec false spec = .ok f) (h2 : Asks false l f) (x : Str) :
    ∃ y, formatArg (.str x) spec = .ok y ∧ LaidOut l x y := by
  have ha : f.align ≠ '=' := by rw [h2.align]; cases l.side <;> decide
  simp only [formatArg, hne, if_false, h1, bind, Except.bind, formatStr, h2.type, h2.sign, h2.zero, h2.alternate, ha, Option.isSome_none,
    Bool.false_eq_true, ne_eq, not_true, or_self]
  refine ⟨_, rfl, laid_padded l [] x _ h2.fill h2.align h2.width _ ?_ ?_ ?_ _ rfl⟩
  · rw [h2.cut]
    cases l.cut with
    | none => exact List.prefix_refl _
    | some p => exact List.take_prefix ..
  · intro p hp; rw [h2.cut, hp]; simp
  · intro hp; rw [h2.cut, hp]; rfl

theorem formatArg_layout {l : Layout} {spec : Str} (h : l.Meant spec) (x : Str) : ∃ y, formatArg (.str x) spec = .ok y ∧ LaidOut l x y := by
  obtain ⟨f, h1, h2⟩ := parseSpec_meant h
  by_cases hne : spec = []
  · subst hne
    obtain ⟨fill, head, width, cut, letter, he, hhead, hwidth, hcut, hletter⟩ := h
    simp only [List.nil_eq, List.append_eq_nil_iff] at he
    obtain ⟨⟨⟨rfl, rfl⟩, rfl⟩, rfl⟩ := he
    have hw : l.width = 0 := by
      rcases hwidth with ⟨-, h⟩ | ⟨h, -⟩
      · exact h
      · exact absurd rfl (numeral_digits h).2.1
    have hc : l.cut = none := by
      rcases hcut with ⟨-, h⟩ | ⟨n, p, h, -⟩
      · exact h
      · cases h
    cases hhead with
    | none h1 h2 =>
      refine ⟨x, rfl, 0, 0, x, by simp, List.prefix_refl _, by simp [hc], fun _ => rfl, by simp [hw], ?_⟩
      rw [h1]
  · exact formatArg_asks hne h1 h2 x

/-- A field with something as its format specification: either it asks for a layout and the content is put there in that layout, or it does
not, and nothing is written, with a `ValueError`. -/
theorem C89_text (spec : Str) (hb : ∀ c ∈ spec, c ≠ '{' ∧ c ≠ '}') (before after content : Str) :
    (∀ l : Layout, l.Meant spec → ∃ y, fmt1 (escape before ++ fieldOf [] spec ++ escape after) content = .ok (before ++ y ++ after) ∧
      LaidOut l content y) ∧
    ((¬ ∃ l : Layout, l.Meant spec) → fmt1 (escape before ++ fieldOf [] spec ++ escape after) content = .error .valueError) := by
  have hafter : parseTemplate none (escape after) = after.map Piece.lit := by
    have := parse_escape after []
    rw [List.append_nil] at this
    rw [this]; simp [parseTemplate]
  have he := eval_lits [.str content] [] (.auto 1) after []
  rw [List.append_nil] at he
  have hfield : ∀ inner, evalField inner [.str content] [] .unset [] none spec = (formatArg (.str content) spec).map (fun y => (y, Numbering.auto 1)) := by
    intro inner
    simp only [evalField, List.takeWhile_nil, fieldArg, autoArg, if_true, List.getElem?_cons_zero, bind, Except.bind, List.length_nil, List.drop_nil,
      parseAccess, access, convert, no_fields hb, Bool.false_eq_true, if_false, pure, Except.pure]
    cases formatArg (.str content) spec <;> rfl
  have key : fmt1 (escape before ++ fieldOf [] spec ++ escape after) content = (formatArg (.str content) spec).map (fun y => before ++ y ++ after) := by
    rw [fmt1, pyFormat, List.append_assoc, parse_escape, parse_layout hb [] _ (by simp), hafter, eval_lits]
    simp only [evalPieces, hfield]
    cases formatArg (.str content) spec with
    | error e => rfl
    | ok y =>
      simp only [Except.map, he]
      simp [evalPieces]
  rw [key]
  refine ⟨fun l hl => ?_, fun hn => ?_⟩
  · obtain ⟨y, h1, h2⟩ := formatArg_layout hl content
    exact ⟨y, by rw [h1]; rfl, h2⟩
  · cases h : formatArg (.str content) spec with
    | error e => rw [formatArg_error h]; rfl
    | ok y =>
      refine absurd ?_ hn
      by_cases hne : spec = []
      · subst hne
        exact ⟨⟨' ', .left, 0, none⟩, false, [], [], [], [], rfl, .none rfl rfl, .inl ⟨rfl, rfl⟩, .inl ⟨rfl, rfl⟩, .inl rfl⟩
      · obtain ⟨l, f, h1, -⟩ := formatArg_meant hne h
        exact ⟨l, h1⟩

/-- It asks for one layout. -/
theorem C89_unique (spec : Str) (l l' : Layout) (h : l.Meant spec) (h' : l'.Meant spec) : l = l' := by
  obtain ⟨f, h1, h2⟩ := parseSpec_meant h
  obtain ⟨f', h3, h4⟩ := parseSpec_meant h'
  rw [h1] at h3
  cases h3
  have e1 := h2.fill.symm.trans h4.fill
  have e2 := h2.align.symm.trans h4.align
  have e3 := h2.width.symm.trans h4.width
  have e4 := h2.cut.symm.trans h4.cut
  obtain ⟨fill, side, width, cut⟩ := l
  obtain ⟨fill', side', width', cut'⟩ := l'
  simp only at e1 e2 e3 e4
  subst e1 e3 e4
  cases side <;> cases side' <;> first | rfl | exact absurd e2 (by decide)

example : Layout.Meant ⟨'0', .right, 7, some 2⟩ py">007.02s" ∧ fmt1 py"{:>007.02s}" py"abc" = .ok py"00000ab" :=
  ⟨⟨true, py">0", py"07", py".02", py"s", rfl, .sideZero rfl, .inr ⟨⟨by decide, 1, rfl⟩, by simp⟩, .inr ⟨py"02", 2, rfl, ⟨by decide, 1, rfl⟩, rfl⟩, .inr rfl⟩,
    by decide⟩

example : fmt1 py"{:3.}" py"abc" = .error .valueError ∧ fmt1 py"{:+3}" py"abc" = .error .valueError ∧ fmt1 py"{:=3}" py"abc" = .error .valueError := by decide

/-! ## Single characters -/

theorem parse_item (f n r : Str) (h : ']' ∉ n) : parseTemplate (some (.item f)) (n ++ ']' :: r) = parseTemplate (some (.name (f ++ n ++ py"]"))) r := by
  induction n generalizing f with
  | nil => simp [parseTemplate]
  | cons c n ih =>
    simp only [List.mem_cons, not_or] at h
    rw [List.cons_append, parseTemplate, if_neg (fun e => h.1 e.symm), ih _ h.2]
    simp

theorem parseAccess_item (a n : Str) (h : ']' ∉ n) (hne : a ++ n ≠ []) : parseAccess (some (false, a)) (n ++ py"]") = [.item (a ++ n)] := by
  induction n generalizing a with
  | nil =>
    rw [List.append_nil] at hne
    simp [parseAccess, hne]
  | cons c n ih =>
    simp only [List.mem_cons, not_or] at h
    rw [List.cons_append, parseAccess, if_neg (fun e => h.1 e.symm), ih _ h.2 (by simp)]
    simp

/-- A field with a number in brackets is the character with this number. -/
theorem C59_item (k : Nat) (hk : k < 2 ^ 63) (before after content : Str) :
    fmt1 (escape before ++ (py"{0[" ++ natStr k ++ py"]}") ++ escape after) content = (match content[k]? with
      | some c => .ok (before ++ [c] ++ after)
      | none => .error .indexError) := by
  have hdig := natStr_isDigit k
  have hb : ']' ∉ natStr k := fun h => absurd (hdig _ h) (by decide)
  have hafter : parseTemplate none (escape after) = after.map Piece.lit := by
    have := parse_escape after []
    rw [List.append_nil] at this
    rw [this]; simp [parseTemplate]
  have he := eval_lits [.str content] [] .manual after []
  rw [List.append_nil] at he
  have hbig : tooBig (natStr k) = false := by
    have := takeWhile_numeral (r := []) hdig (by simp)
    rw [List.append_nil] at this
    rw [tooBig, this, decimalVal_natStr, ssizeMax]
    simp only [decide_eq_false_iff_not]
    omega
  have hpiece : fieldPiece (py"0[" ++ natStr k ++ py"]") = .field (py"0[" ++ natStr k ++ py"]") none [] := by
    simp [fieldPiece, tooBig, show Char.isDigit '0' = true by decide,
      show Char.isDigit '[' = false by decide, decimalVal, ssizeMax]
  have hparse : parseTemplate none ((py"{0[" ++ natStr k ++ py"]}") ++ escape after) =
      .field (py"0[" ++ natStr k ++ py"]") none [] :: after.map Piece.lit := by
    have e : (py"{0[" ++ natStr k ++ py"]}") ++ escape after = '{' :: '0' :: '[' :: (natStr k ++ ']' :: ('}' :: escape after)) := by simp
    rw [e, show parseTemplate none ('{' :: '0' :: '[' :: (natStr k ++ ']' :: ('}' :: escape after))) =
      parseTemplate (some (.item py"0[")) (natStr k ++ ']' :: ('}' :: escape after)) by simp [parseTemplate], parse_item _ _ _ hb,
      show parseTemplate (some (.name (py"0[" ++ natStr k ++ py"]"))) ('}' :: escape after) =
        fieldPiece (py"0[" ++ natStr k ++ py"]") :: parseTemplate none (escape after) by simp [parseTemplate], hpiece, hafter]
  have hfield : ∀ inner, evalField inner [.str content] [] .unset (py"0[" ++ natStr k ++ py"]") none [] = (match content[k]? with
      | some c => .ok ([c], .manual)
      | none => .error .indexError) := by
    intro inner
    have h1 : (py"0[" ++ natStr k ++ py"]").takeWhile (fun c => c != '.' && c != '[') = py"0" := by simp
    have h2 : fieldArg [.str content] [] .unset py"0" = .ok (.str content, .manual) := by simp [fieldArg, posArg, show tooBig ['0'] = false by decide, show Char.isDigit '0' = true by decide, show decimalVal ['0'] = 0 by decide]
    have h3 : (py"0[" ++ natStr k ++ py"]").drop (py"0").length = '[' :: (natStr k ++ py"]") := by simp
    have h4 : parseAccess none ('[' :: (natStr k ++ py"]")) = [.item (natStr k)] := by
      simpa [parseAccess] using parseAccess_item [] (natStr k) hb (by simp [natStr_ne_nil])
    have h5 : (natStr k).all Char.isDigit = true := List.all_eq_true.2 hdig
    simp only [evalField, h1, h2, h3, h4, bind, Except.bind, access, hbig, Bool.false_eq_true, if_false, h5, if_true, decimalVal_natStr]
    cases content[k]? with
    | none => rfl
    | some c => rfl
  rw [fmt1, pyFormat, List.append_assoc, parse_escape, hparse, eval_lits]
  simp only [evalPieces, hfield]
  cases content[k]? with
  | none => rfl
  | some c =>
    simp only [he]
    simp [evalPieces, Except.map]

example : fmt1 py"{0[1]}" py"abc" = .ok py"b" ∧ fmt1 py"{0[3]}" py"abc" = .error .indexError := by decide

end Verif
