import Verif.Props.Layout
import Verif.Props.Numbers
import Verif.Spec.NumberStyle

/-!
# How numbers are shown: C107
-/

namespace Verif

open Spec

/-! ## Digits -/

theorem notation_digit (k : Notation) {v : Nat} (hv : v < k.base) :
    k.digits[v]? = some (if k.char = 'X' then (Nat.digitChar v).toUpper else Nat.digitChar v) := by
  have h : ∀ (k : Notation) (v : Fin 16), v.val < k.base → k.digits[v.val]? = some (if k.char = 'X' then (Nat.digitChar v.val).toUpper else Nat.digitChar v.val) := by
    intro k; cases k <;> decide
  have : k.base ≤ 16 := by cases k <;> decide
  exact h k ⟨v, by omega⟩ hv

theorem base_two (k : Notation) : 2 ≤ k.base := by cases k <;> decide

theorem places_toDigits (k : Notation) (n : Nat) :
    Places k n (if k.char = 'X' then (Nat.toDigits k.base n).map Char.toUpper else Nat.toDigits k.base n) := by
  have hb := base_two k
  induction n using Nat.strongRecOn with
  | _ n ih =>
    by_cases hn : n < k.base
    · have h := Places.one hn (notation_digit k hn)
      rw [Nat.toDigits_of_lt_base hn]
      split <;> simp_all
    · have hv : n % k.base < k.base := Nat.mod_lt _ (by omega)
      have h0 : 0 < n / k.base := Nat.div_pos (by omega) (by omega)
      have h := Places.more (ih (n / k.base) (Nat.div_lt_self (by omega) (by omega))) h0 hv (notation_digit k hv)
      rw [Nat.div_add_mod] at h
      rw [Nat.toDigits_of_base_le (by omega) (by omega)]
      split <;> simp_all

theorem places_ne {k : Notation} {n : Nat} {ds : Str} (h : Places k n ds) : ds ≠ [] := by
  cases h <;> simp

theorem groups_ne {size : Nat} {sep : Char} {ds b : Str} (h : Groups size sep ds b) : b ≠ [] ∧ ds ≠ [] := by
  induction h with
  | first h _ => exact ⟨h, h⟩
  | next _ _ ih => simp [ih.1, ih.2]

/-- What the grouping of digits gives, from right to left. -/
theorem groupDigits_shape {size : Nat} (hs : 0 < size) (sep : Char) (fuel : Nat) : ∀ (rev : Str) (min : Int), rev ≠ [] ∨ 0 ≤ min → 0 < fuel →
    rev.length + min.toNat ≤ fuel →
    ∃ k, Groups size sep (List.replicate k '0' ++ rev.reverse) (groupDigits size sep fuel rev min).reverse ∧
      min ≤ (groupDigits size sep fuel rev min).length ∧
      (0 < k → ((groupDigits size sep fuel rev min).length : Int) = min ∨
        ((groupDigits size sep fuel rev min).length : Int) = min + 1 ∧ min % (size + 1) = 0) := by
  induction fuel with
  | zero => intro _ _ _ h; cases h
  | succ f ih =>
    intro rev min h0 _ hf
    rw [groupDigits]
    generalize hn : Nat.min size (Nat.max (Nat.max rev.length min.toNat) 1) = n
    have hn' : n = if size ≤ max (max rev.length min.toNat) 1 then size else max (max rev.length min.toNat) 1 := by
      rw [← hn]; rfl
    by_cases hc : ((rev.drop n).isEmpty && decide (min - n ≤ 0)) = true
    · simp only [hc, if_true]
      simp only [Bool.and_eq_true, List.isEmpty_iff, List.drop_eq_nil_iff, decide_eq_true_eq] at hc
      obtain ⟨h1, h2⟩ := hc
      have hlen : (rev.take n ++ List.replicate (n - rev.length) '0').length = n := by simp; omega
      refine ⟨n - rev.length, ?_, ?_, ?_⟩
      · have e : (rev.take n ++ List.replicate (n - rev.length) '0').reverse = List.replicate (n - rev.length) '0' ++ rev.reverse := by
          simp [List.take_of_length_le h1]
        rw [← e]
        have hl : (rev.take n ++ List.replicate (n - rev.length) '0').reverse.length = n := by rw [List.length_reverse, hlen]
        refine .first ?_ ?_
        · intro e; rw [e] at hl; simp at hl; split at hn' <;> omega
        · rw [hl]; split at hn' <;> omega
      · rw [hlen]; omega
      · intro hk
        rw [hlen]
        by_cases hm : min = 0
        · right
          subst hm
          constructor
          · simp only [Int.toNat_zero] at hn'
            split at hn' <;> omega
          · simp
        · left
          have h0' : 0 < rev.length ∨ 0 ≤ min := h0.imp_left List.length_pos_iff.2
          split at hn' <;> omega
    · simp only [hc, if_false, Bool.false_eq_true]
      have hsz : n = size ∧ (rev.drop n ≠ [] ∨ 0 ≤ min - n - 1) := by
        simp only [Bool.and_eq_true, List.isEmpty_iff, decide_eq_true_eq] at hc
        by_cases hd : rev.drop n = []
        · have : ¬ min - n ≤ 0 := fun h => hc ⟨hd, h⟩
          refine ⟨?_, .inr (by omega)⟩
          split at hn' <;> omega
        · refine ⟨?_, .inl hd⟩
          have : ¬ rev.length ≤ n := fun h => hd (List.drop_eq_nil_iff.2 h)
          split at hn' <;> omega
      obtain ⟨hsz, hr⟩ := hsz
      subst hsz
      have hlen : (rev.take n ++ List.replicate (n - rev.length) '0').length = n := by simp; omega
      have hfuel : 0 < f ∧ (rev.drop n).length + (min - n - 1).toNat ≤ f := by
        rw [List.length_drop]
        rcases hr with hr | hr
        · have : ¬ rev.length ≤ n := fun h => hr (List.drop_eq_nil_iff.2 h)
          omega
        · omega
      obtain ⟨k, g1, g2, g3⟩ := ih (rev.drop n) (min - n - 1) hr hfuel.1 hfuel.2
      have hk0 : 0 < n - rev.length → 0 < k := by
        intro h
        have hd : rev.drop n = [] := List.drop_eq_nil_iff.2 (by omega)
        have := (groups_ne g1).2
        rw [hd] at this
        cases k with
        | zero => simp at this
        | succ k => omega
      refine ⟨k + (n - rev.length), ?_, ?_, ?_⟩
      · have e1 : (rev.take n ++ List.replicate (n - rev.length) '0' ++ sep :: groupDigits n sep f (rev.drop n) (min - n - 1)).reverse =
            (groupDigits n sep f (rev.drop n) (min - n - 1)).reverse ++ sep :: (rev.take n ++ List.replicate (n - rev.length) '0').reverse := by simp
        have e2 : List.replicate (k + (n - rev.length)) '0' ++ rev.reverse =
            (List.replicate k '0' ++ (rev.drop n).reverse) ++ (rev.take n ++ List.replicate (n - rev.length) '0').reverse := by
          by_cases hl : rev.length ≤ n
          · rw [List.drop_eq_nil_iff.2 hl, List.take_of_length_le hl]
            simp [List.replicate_append_replicate, ← List.append_assoc]
          · rw [show n - rev.length = 0 by omega]
            have : rev.reverse = (rev.drop n).reverse ++ (rev.take n).reverse := by
              rw [← List.reverse_append, List.take_append_drop]
            rw [this]; simp
        rw [e1, e2]
        exact .next g1 (by rw [List.length_reverse, hlen])
      · rw [List.length_append, hlen, List.length_cons]; omega
      · intro hk
        rw [List.length_append, hlen, List.length_cons]
        rcases g3 (by omega) with h | ⟨h, h'⟩
        · left; omega
        · right
          refine ⟨by omega, ?_⟩
          have e : min = (min - n - 1) + (n + 1 : Int) := by omega
          rw [e, Int.add_emod_right]; exact h'

/-! ## Reading the style -/

theorem takeIf_opt (p : Char → Bool) (o : Option Char) (r : Str) (ho : ∀ c, o = some c → p c = true)
    (hr : o = none → ∀ c, r.head? = some c → p c = false) : takeIf p (o.toList ++ r) = (o, r) := by
  cases o with
  | none => exact takeIf_other p r (hr rfl)
  | some c => simp [takeIf, ho c rfl]

/-- What comes after the sign and the mark. -/
def StyleEnd (s : Str) : Prop := ∀ c ∈ s, c.isDigit = true ∨ c ∈ py",_dboxX"

theorem styleEnd_ne {s : Str} (h : StyleEnd s) {d : Char} (h1 : d.isDigit = false) (h2 : d ∉ py",_dboxX") :
    ∀ c, s.head? = some c → (c == d) = false := by
  intro c hc
  rw [beq_eq_false_iff_ne]
  rintro rfl
  rcases h c (List.mem_of_mem_head? hc) with h | h
  · rw [h1] at h; cases h
  · exact h2 h

/-- The separator and the notation. -/
theorem style_end {st : NumberStyle} (h : st.Writable) {t : Str} (ht : st.notation'.Written t) :
    ∀ c ∈ st.separator.toList ++ t, c ∈ py",_dboxX" := by
  intro c hc
  rcases List.mem_append.1 hc with hc | hc
  · have := h.separator c (by cases e : st.separator <;> simp_all)
    rcases this with rfl | ⟨rfl, _⟩ <;> decide
  · generalize st.notation' = k at ht
    cases ht with
    | char => rw [List.mem_singleton.1 hc]; cases k <;> decide
    | decimal => cases hc

theorem style_end_digit {c : Char} (h : c ∈ py",_dboxX") : c.isDigit = false := by
  have : ∀ c ∈ py",_dboxX", c.isDigit = false := by decide
  exact this c h

/-- Reading what comes after the fill character and the alignment. -/
theorem parseSpec_style {st : NumberStyle} (h : st.Writable) {t : Str} (ht : st.notation'.Written t) (s ws : Str) (fill align sg pd : Option Char)
    (width : Option Nat) (hsg : ∀ c, sg = some c → c = ' ' ∨ c = '+' ∨ c = '-') (hpd : pd = none ∨ pd = some '0' ∧ fill = none)
    (hws : ws = [] ∧ width = none ∨ ∃ w, w < 2 ^ 63 ∧ ws = natStr w ∧ width = some w) (hfill : fill ≠ none ∨ pd ≠ none ∨ ws = [])
    (h1 : takeAlign s = (fill, align, sg.toList ++ ((if st.marked then some '#' else none).toList ++ (pd.toList ++ (ws ++ (st.separator.toList ++ t)))))) :
    parseSpec true s = .ok {
      fill := fill.getD (if pd.isSome then '0' else ' ')
      align := align.getD (if pd.isSome then '=' else '>')
      sign := sg, alternate := st.marked, width, separator := st.separator, type := st.notation'.char } := by
  have hend := style_end h ht
  have hw : StyleEnd (ws ++ (st.separator.toList ++ t)) := by
    intro c hc
    rcases List.mem_append.1 hc with hc | hc
    · rcases hws with ⟨rfl, _⟩ | ⟨w, _, rfl, _⟩
      · cases hc
      · exact .inl (natStr_isDigit w c hc)
    · exact .inr (hend c hc)
  have hp : StyleEnd (pd.toList ++ (ws ++ (st.separator.toList ++ t))) := by
    intro c hc
    rcases List.mem_append.1 hc with hc | hc
    · rcases hpd with rfl | ⟨rfl, _⟩
      · cases hc
      · rw [List.mem_singleton.1 hc]; exact .inl (by decide)
    · exact hw c hc
  have n1 : takeIf (fun c => c == ' ' || c == '+' || c == '-')
      (sg.toList ++ ((if st.marked then some '#' else none).toList ++ (pd.toList ++ (ws ++ (st.separator.toList ++ t))))) =
      (sg, (if st.marked then some '#' else none).toList ++ (pd.toList ++ (ws ++ (st.separator.toList ++ t)))) := by
    refine takeIf_opt _ _ _ (fun c hc => ?_) (fun _ c hc => ?_)
    · rcases hsg c hc with rfl | rfl | rfl <;> rfl
    · cases hm : st.marked
      · simp only [hm, Bool.false_eq_true, if_false, Option.toList_none, List.nil_append] at hc
        simp [styleEnd_ne hp (by decide : (' ').isDigit = false) (by decide) c hc, styleEnd_ne hp (by decide : ('+').isDigit = false) (by decide) c hc,
          styleEnd_ne hp (by decide : ('-').isDigit = false) (by decide) c hc]
      · simp [hm] at hc; subst hc; decide
  have n2 : takeIf (· == 'z') ((if st.marked then some '#' else none).toList ++ (pd.toList ++ (ws ++ (st.separator.toList ++ t)))) =
      (none, (if st.marked then some '#' else none).toList ++ (pd.toList ++ (ws ++ (st.separator.toList ++ t)))) := by
    refine takeIf_other _ _ (fun c hc => ?_)
    cases hm : st.marked
    · simp only [hm, Bool.false_eq_true, if_false, Option.toList_none, List.nil_append] at hc
      exact styleEnd_ne hp (by decide) (by decide) c hc
    · simp [hm] at hc; subst hc; decide
  have n3 : takeIf (· == '#') ((if st.marked then some '#' else none).toList ++ (pd.toList ++ (ws ++ (st.separator.toList ++ t)))) =
      (if st.marked then some '#' else none, pd.toList ++ (ws ++ (st.separator.toList ++ t))) := by
    refine takeIf_opt _ _ _ (fun c hc => ?_) (fun _ => styleEnd_ne hp (by decide) (by decide))
    cases hm : st.marked <;> simp [hm] at hc
    subst hc; decide
  have n4 : (if fill.isNone then takeIf (· == '0') (pd.toList ++ (ws ++ (st.separator.toList ++ t))) else (none, pd.toList ++ (ws ++ (st.separator.toList ++ t)))) =
      (pd, ws ++ (st.separator.toList ++ t)) := by
    rcases hpd with rfl | ⟨rfl, rfl⟩
    · cases fill with
      | some c => simp
      | none =>
        have hws : ws = [] := by simpa using hfill
        subst hws
        simp only [Option.isNone_none, if_true]
        refine takeIf_other _ _ (fun c hc => ?_)
        rw [beq_eq_false_iff_ne]
        rintro rfl
        have := hend _ (List.mem_of_mem_head? hc)
        revert this; decide
    · simp [takeIf]
  have n5 : takeNumber (ws ++ (st.separator.toList ++ t)) = .ok (width, st.separator.toList ++ t) := by
    have hd : ∀ c, (st.separator.toList ++ t).head? = some c → c.isDigit = false :=
      fun c hc => style_end_digit (hend c (List.mem_of_mem_head? hc))
    rcases hws with ⟨rfl, rfl⟩ | ⟨w, hlt, rfl, rfl⟩
    · have : (st.separator.toList ++ t).takeWhile Char.isDigit = [] := by
        cases e : st.separator.toList ++ t with
        | nil => rfl
        | cons c r => rw [List.takeWhile_cons_of_neg]; rw [hd c (by rw [e]; rfl)]; simp
      simp [takeNumber, this]
    · exact takeNumber_natStr hlt _ hd
  have n6 : (if st.marked then some '#' else none : Option Char).isSome = st.marked := by cases st.marked <;> rfl
  have hsep := h.separator
  simp only [parseSpec, h1, n1, n2, n3, n4, n5, n6, bind, Except.bind]
  generalize st.separator = sp at hsep ⊢
  generalize st.notation' = k at ht hsep ⊢
  have : sp = none ∨ sp = some '_' ∨ sp = some ',' ∧ k = .decimal := by
    cases sp with
    | none => exact .inl rfl
    | some c => rcases hsep c rfl with rfl | ⟨rfl, hk⟩ <;> simp_all
  rcases this with rfl | rfl | ⟨rfl, rfl⟩
  · cases ht with
    | char => cases k <;> simp [takeIf, takePrecision, Notation.char]
    | decimal => simp [takeIf, takePrecision, Notation.char]
  · cases ht with
    | char => cases k <;> simp [takeIf, takePrecision, Notation.char]
    | decimal => simp [takeIf, takePrecision, Notation.char]
  · cases ht with
    | char => simp [takeIf, takePrecision, Notation.char]
    | decimal => simp [takeIf, takePrecision, Notation.char]

/-- What a format specification says about the style. -/
structure AsksStyle (st : NumberStyle) (f : FmtSpec) : Prop where
  fill : f.fill = st.fill
  align : f.align = st.padding.char
  sign : st.sign.Written f.sign
  zero : f.zero = false
  alternate : f.alternate = st.marked
  width : f.width.getD 0 = st.width
  separator : f.separator = st.separator
  precision : f.precision = none
  type : f.type = st.notation'.char

theorem takeAlign_style {s : Str} (h : ∀ c ∈ s, isAlign c = false) : takeAlign s = (none, none, s) := by
  match s with
  | [] => rfl
  | [c] => simp [takeAlign, h c (by simp)]
  | c :: d :: r => simp [takeAlign, h c (by simp), h d (by simp)]

theorem marked_text (b : Bool) : (if b then py"#" else []) = (if b then some '#' else none : Option Char).toList := by cases b <;> rfl

theorem sign_written {s : SignOf} {o : Option Char} (h : s.Written o) : ∀ c, o = some c → c = ' ' ∨ c = '+' ∨ c = '-' := by
  cases h <;> simp

/-- The characters of a style other than the fill character and the alignment. -/
def styleChars : Str := py" +-#0123456789,_dboxX"

theorem digit_style {c : Char} (h : c.isDigit = true) : c ∈ styleChars := by
  have hv : 48 ≤ c.toNat ∧ c.toNat ≤ 57 := by
    simp only [Char.isDigit, Bool.and_eq_true, decide_eq_true_eq] at h
    exact ⟨h.1, h.2⟩
  have : ∀ n : Fin 58, 48 ≤ n.val → Char.ofNat n.val ∈ styleChars := by decide
  have := this ⟨c.toNat, by omega⟩ hv.1
  simpa using this

theorem style_chars {st : NumberStyle} (h : st.Writable) {sg : Option Char} {t : Str} (hsg : st.sign.Written sg) (ht : st.notation'.Written t) (z ws : Str)
    (hz : ∀ c ∈ z, c = '0') (hws : ws = [] ∨ ws = natStr st.width) :
    ∀ c ∈ sg.toList ++ ((if st.marked then some '#' else none : Option Char).toList ++ (z ++ (ws ++ (st.separator.toList ++ t)))), c ∈ styleChars := by
  intro c hc
  simp only [List.mem_append] at hc
  rcases hc with hc | hc | hc | hc | hc
  · have := sign_written hsg c (by simpa using hc)
    rcases this with rfl | rfl | rfl <;> decide
  · cases hm : st.marked <;> simp [hm] at hc
    subst hc; decide
  · rw [hz c hc]; decide
  · rcases hws with rfl | rfl
    · cases hc
    · exact digit_style (natStr_isDigit _ c hc)
  · have := style_end h ht c (List.mem_append.2 hc)
    revert this
    have : ∀ c ∈ py",_dboxX", c ∈ styleChars := by decide
    exact this c

theorem styleChars_plain {c : Char} (h : c ∈ styleChars) : isAlign c = false ∧ c ≠ '{' ∧ c ≠ '}' := by
  have : ∀ c ∈ styleChars, isAlign c = false ∧ c ≠ '{' ∧ c ≠ '}' := by decide
  exact this c h

theorem style_read {st : NumberStyle} (h : st.Writable) {s : Str} (hs : st.Written s) :
    (∃ f, parseSpec true s = .ok f ∧ AsksStyle st f) ∧ s ≠ [] ∧ ∀ c ∈ s, c ≠ '{' ∧ c ≠ '}' := by
  cases hs with
  | @full sg t hsg ht =>
    have hc := style_chars h hsg ht [] (natStr st.width) (by simp) (.inr rfl)
    have e : [st.fill, st.padding.char] ++ sg.toList ++ (if st.marked then py"#" else []) ++ natStr st.width ++ st.separator.toList ++ t =
        st.fill :: st.padding.char :: (sg.toList ++ ((if st.marked then some '#' else none : Option Char).toList ++
          ((none : Option Char).toList ++ (natStr st.width ++ (st.separator.toList ++ t))))) := by
      rw [marked_text]; simp
    have ha : isAlign st.padding.char = true := by cases st.padding <;> rfl
    refine ⟨⟨_, parseSpec_style h ht _ (natStr st.width) (some st.fill) (some st.padding.char) sg none (some st.width) (sign_written hsg)
      (.inl rfl) (.inr ⟨_, h.width, rfl, rfl⟩) (.inl (by simp)) (by rw [e]; simp only [takeAlign, ha, if_true]), ?_⟩, ?_, ?_⟩
    · constructor <;> first | rfl | exact hsg
    · simp
    · rw [e]
      intro c hm
      rcases List.mem_cons.1 hm with rfl | hm
      · exact h.fill
      rcases List.mem_cons.1 hm with rfl | hm
      · cases st.padding <;> decide
      · exact (styleChars_plain (hc c hm)).2
  | @zeros sg t hf hp hsg ht =>
    have hc := style_chars h hsg ht py"0" (natStr st.width) (by simp) (.inr rfl)
    have e : sg.toList ++ (if st.marked then py"#" else []) ++ py"0" ++ natStr st.width ++ st.separator.toList ++ t =
        sg.toList ++ ((if st.marked then some '#' else none : Option Char).toList ++ ((some '0').toList ++ (natStr st.width ++ (st.separator.toList ++ t)))) := by
      rw [marked_text]; simp
    refine ⟨⟨_, parseSpec_style h ht _ (natStr st.width) none none sg (some '0') (some st.width) (sign_written hsg)
      (.inr ⟨rfl, rfl⟩) (.inr ⟨_, h.width, rfl, rfl⟩) (.inr (.inl (by simp)))
      (by rw [e]; exact takeAlign_style (fun c hm => (styleChars_plain (hc c hm)).1)), ?_⟩, ?_, ?_⟩
    · constructor <;> first | rfl | exact hsg | exact hf.symm | (rw [hp]; rfl)
    · simp
    · rw [e]; exact fun c hm => (styleChars_plain (hc c hm)).2
  | @bare sg t hf hp hw hsg ht hne =>
    have hc := style_chars h hsg ht [] [] (by simp) (.inl rfl)
    have e : sg.toList ++ (if st.marked then py"#" else []) ++ st.separator.toList ++ t =
        sg.toList ++ ((if st.marked then some '#' else none : Option Char).toList ++ ((none : Option Char).toList ++ ([] ++ (st.separator.toList ++ t)))) := by
      rw [marked_text]; simp
    refine ⟨⟨_, parseSpec_style h ht _ [] none none sg none none (sign_written hsg)
      (.inl rfl) (.inl ⟨rfl, rfl⟩) (.inr (.inr rfl)) (by rw [e]; exact takeAlign_style (fun c hm => (styleChars_plain (hc c hm)).1)), ?_⟩, hne, ?_⟩
    · constructor <;> first | rfl | exact hsg | exact hf.symm | (rw [hp]; rfl) | exact hw.symm
    · rw [e]; exact fun c hm => (styleChars_plain (hc c hm)).2

/-! ## Showing numbers -/

theorem intBase_char (k : Notation) : intBase k.char = some k.base := by cases k <;> rfl

theorem intPrefix_char (k : Notation) : intPrefix k.char = k.mark := by cases k <;> rfl

theorem group_size (k : Notation) : (if k.base = 10 then 3 else 4) = k.group := by cases k <;> rfl

theorem group_pos (k : Notation) : 0 < k.group := by cases k <;> decide

theorem sign_shown {s : SignOf} {o : Option Char} (h : s.Written o) (n : Int) :
    (if n < 0 then py"-" else match (generalizing := false) o with | some '+' => py"+" | some ' ' => py" " | _ => []) = s.shown n := by
  cases h <;> rfl

/-- The digits of a number with its separators. -/
theorem intDigits_body {st : NumberStyle} {f : FmtSpec} (ha : AsksStyle st f) (before n : Nat) :
    ∃ ds k, Places st.notation' n ds ∧ st.Body (List.replicate k '0' ++ ds) (intDigits f st.notation'.base before n) ∧
      (¬ (st.fill = '0' ∧ st.padding = .inside) → k = 0) ∧ (st.separator = none → k = 0) ∧
      (st.separator ≠ none → st.fill = '0' ∧ st.padding = .inside → st.width ≤ before + (intDigits f st.notation'.base before n).length ∧
        (0 < k → before + (intDigits f st.notation'.base before n).length = st.width ∨
          before + (intDigits f st.notation'.base before n).length = st.width + 1 ∧ (st.width - before) % (st.notation'.group + 1) = 0)) := by
  have hp := places_toDigits st.notation' n
  rw [← ha.type] at hp
  have hpad : f.align = '=' ↔ st.padding = .inside := by rw [ha.align]; cases st.padding <;> decide
  simp only [intDigits, group_size, ha.separator, ha.fill, hpad, ha.width]
  generalize (if f.type = 'X' then (Nat.toDigits st.notation'.base n).map Char.toUpper else Nat.toDigits st.notation'.base n) = ds at hp ⊢
  have hne := places_ne hp
  cases hs : st.separator with
  | none => exact ⟨ds, 0, hp, by simp [NumberStyle.Body, hs], by simp⟩
  | some c =>
    simp only
    generalize hmin : (if st.fill = '0' ∧ st.padding = .inside then (st.width : Int) - before else 0) = min
    have hpos := List.length_pos_iff.2 hne
    obtain ⟨k, g1, g2, g3⟩ := groupDigits_shape (group_pos st.notation') c (ds.length + min.toNat) ds.reverse min
      (.inl (by simpa using hne)) (by omega) (by rw [List.length_reverse]; omega)
    rw [List.reverse_reverse] at g1
    have hk : min ≤ 0 → k = 0 := by
      intro hm
      cases hk : k with
      | zero => rfl
      | succ j =>
        exfalso
        have h1 : 2 ≤ (List.replicate k '0' ++ ds).length := by simp; omega
        have h2 : ∀ {d b : Str}, Groups st.notation'.group c d b → d.length ≤ b.length := by
          intro d b h
          induction h with
          | first => exact Nat.le_refl _
          | next _ _ ih => simp; omega
        have := h2 g1
        rw [List.length_reverse] at this
        rcases g3 (by omega) with h | ⟨h, _⟩ <;> omega
    refine ⟨ds, k, hp, by rw [NumberStyle.Body, hs]; exact g1, ?_, by simp, ?_⟩
    · intro hz
      rw [if_neg hz] at hmin
      exact hk (by omega)
    · intro _ hz
      rw [if_pos hz] at hmin
      rw [List.length_reverse]
      refine ⟨by omega, fun h0 => ?_⟩
      have hm : 0 < min := by
        rcases Int.lt_or_le 0 min with h | h
        · exact h
        · have := hk h; omega
      rcases g3 h0 with h | ⟨h, h'⟩
      · left; omega
      · right
        refine ⟨by omega, ?_⟩
        have : ((st.width - before : Nat) : Int) = min := by omega
        rw [← this] at h'
        exact_mod_cast h'

theorem formatInt_style {st : NumberStyle} {f : FmtSpec} (ha : AsksStyle st f) (n : Int) : ∃ y, formatInt f n = .ok y ∧ st.Shows n y := by
  have e : formatInt f n = .ok (padded f (st.start n) (intDigits f st.notation'.base (st.start n).length n.natAbs)) := by
    simp only [formatInt, ha.type, intBase_char, intPrefix_char, ha.precision, ha.zero, ha.alternate, Option.isSome_none, Bool.false_eq_true, or_self,
      if_false, NumberStyle.start]
    rw [← sign_shown ha.sign n]
    rfl
  refine ⟨_, e, ?_⟩
  obtain ⟨ds, k, h1, h2, h3, h4, h5⟩ := intDigits_body ha (st.start n).length n.natAbs
  generalize intDigits f st.notation'.base (st.start n).length n.natAbs = body at h2 h5
  by_cases hz : st.fill = '0' ∧ st.padding = .inside
  · have hal : f.align = '=' := by rw [ha.align, hz.2]; rfl
    simp only [padded, hal, if_true, ha.fill, hz.1, ha.width]
    by_cases hs : st.separator = none
    · have hb : body = ds := by simpa [NumberStyle.Body, hs, h4 hs] using h2
      subst hb
      rw [List.append_assoc]
      refine .zeros hz.1 hz.2 h1 (k := st.width - ((st.start n).length + body.length)) ?_ ?_ ?_
      · simp [NumberStyle.Body, hs]
      · simp; omega
      · intro h; left; simp; omega
    · obtain ⟨h6, h7⟩ := h5 hs hz
      rw [show st.width - ((st.start n).length + body.length) = 0 by omega]
      simp only [List.replicate_zero, List.append_nil]
      refine .zeros hz.1 hz.2 h1 (k := k) h2 (by simpa using h6) ?_
      intro h0
      rw [List.length_append]
      rcases h7 h0 with h | ⟨h, h'⟩
      · exact .inl h
      · exact .inr ⟨h, hs, h'⟩
  · have hk := h3 hz
    subst hk
    rw [List.replicate_zero, List.nil_append] at h2
    have hm := @NumberStyle.Shows.filled st n ds body
    simp only [padded, ha.fill, ha.width, ha.align]
    generalize hw : st.width - ((st.start n).length + body.length) = w
    cases hp : st.padding with
    | after =>
      have := @hm 0 0 w hz h1 h2 (by simp; omega) (by rw [hp]; simp)
      simpa [Padding.char] using this
    | before =>
      have := @hm w 0 0 hz h1 h2 (by simp; omega) (by rw [hp]; simp)
      simpa [Padding.char] using this
    | around =>
      have := @hm (w / 2) 0 (w - w / 2) hz h1 h2 (by simp; omega) (by rw [hp]; simp; omega)
      simpa [Padding.char] using this
    | inside =>
      have := @hm 0 w 0 hz h1 h2 (by simp; omega) (by rw [hp]; simp)
      simpa [Padding.char] using this

/-- A number in the line template of numbered items is shown in the style the template asks for, however the style is written. -/
theorem C107 (st : NumberStyle) (h : st.Writable) (spec : Str) (hs : st.Written spec) (before middle after : Str) (n : Int) :
    ∃ y, pyFormat (escape before ++ fieldOf py"0" spec ++ escape middle ++ py"{1}" ++ escape after) [.int n, py"{}"] =
      .ok (before ++ y ++ middle ++ py"{}" ++ after) ∧ st.Shows n y := by
  obtain ⟨⟨f, hf, ha⟩, hne, hc⟩ := style_read h hs
  obtain ⟨y, h1, h2⟩ := formatInt_style ha n
  exact ⟨y, number_template hc n y (by simp [formatArg, hne, hf, bind, Except.bind, h1]) before middle after, h2⟩

/-! ## Reading the numbers again -/

theorem notation_hex (k : Notation) {v : Nat} {c : Char} (hv : v < k.base) (h : k.digits[v]? = some c) : DigitOf k.base c v ∧ c ≠ '_' ∧ isSpace c = false := by
  have hb : k.base ≤ 16 := by cases k <;> decide
  have hu : k.digits = py"0123456789ABCDEF" ∨ k.digits = py"0123456789abcdef" := by cases k <;> simp [Notation.digits]
  have h16 : v < 16 := by omega
  have hh : Hex c v ∧ c ≠ '_' ∧ isSpace c = false := by
    rcases hu with hu | hu <;> rw [hu] at h
    · by_cases h10 : v < 10
      · have e : ∀ w : Fin 10, (py"0123456789ABCDEF")[w.val]? = (py"0123456789")[w.val]? := by decide
        refine ⟨.digit v c (by rw [← e ⟨v, h10⟩]; exact h), ?_⟩
        have e : ∀ w : Fin 10, ∀ d, (py"0123456789ABCDEF")[w.val]? = some d → d ≠ '_' ∧ isSpace d = false := by
          intro w d hd
          have : ∀ w : Fin 10, ((py"0123456789ABCDEF")[w.val]?).all (fun d => d != '_' && !isSpace d) = true := by decide
          have := this w
          rw [hd] at this
          simpa using this
        exact e ⟨v, h10⟩ c h
      · have e : ∀ w : Fin 6, (py"0123456789ABCDEF")[10 + w.val]? = (py"ABCDEF")[w.val]? := by decide
        have hv' : v = 10 + (v - 10) := by omega
        have := e ⟨v - 10, by omega⟩
        simp only [← hv'] at this
        refine ⟨by rw [hv']; exact .upper _ c (by rw [← this]; exact h), ?_⟩
        have e : ∀ w : Fin 16, ((py"0123456789ABCDEF")[w.val]?).all (fun d => d != '_' && !isSpace d) = true := by decide
        have := e ⟨v, h16⟩
        simp only [h] at this
        simpa using this
    · by_cases h10 : v < 10
      · have e : ∀ w : Fin 10, (py"0123456789abcdef")[w.val]? = (py"0123456789")[w.val]? := by decide
        refine ⟨.digit v c (by rw [← e ⟨v, h10⟩]; exact h), ?_⟩
        have e : ∀ w : Fin 16, ((py"0123456789abcdef")[w.val]?).all (fun d => d != '_' && !isSpace d) = true := by decide
        have := e ⟨v, h16⟩
        simp only [h] at this
        simpa using this
      · have e : ∀ w : Fin 6, (py"0123456789abcdef")[10 + w.val]? = (py"abcdef")[w.val]? := by decide
        have hv' : v = 10 + (v - 10) := by omega
        have := e ⟨v - 10, by omega⟩
        simp only [← hv'] at this
        refine ⟨by rw [hv']; exact .lower _ c (by rw [← this]; exact h), ?_⟩
        have e : ∀ w : Fin 16, ((py"0123456789abcdef")[w.val]?).all (fun d => d != '_' && !isSpace d) = true := by decide
        have := e ⟨v, h16⟩
        simp only [h] at this
        simpa using this
  exact ⟨⟨hh.1, hv⟩, hh.2⟩

theorem moreDigits_append {base acc m n : Nat} {s t : Str} (h1 : MoreDigits base acc s m) (h2 : MoreDigits base m t n) : MoreDigits base acc (s ++ t) n := by
  induction h1 with
  | done => exact h2
  | digit hd _ ih => exact .digit hd (ih h2)
  | after hd _ ih => exact .after hd (ih h2)

theorem moreDigits_split {base n : Nat} {t : Str} : ∀ {s : Str} {acc : Nat}, (∀ c ∈ s, c ≠ '_') → MoreDigits base acc (s ++ t) n →
    ∃ m, MoreDigits base acc s m ∧ MoreDigits base m t n := by
  intro s
  induction s with
  | nil => intro acc _ h; exact ⟨acc, .done, h⟩
  | cons c s ih =>
    intro acc hs h
    rw [List.cons_append] at h
    generalize hst : s ++ t = q at h
    cases h with
    | digit hd h =>
      obtain ⟨m, h1, h2⟩ := ih (fun x hx => hs x (List.mem_cons_of_mem _ hx)) (by rw [hst]; exact h)
      exact ⟨m, .digit hd h1, h2⟩
    | after hd h => exact absurd rfl (hs '_' (by simp))

theorem places_more {k : Notation} {n : Nat} {ds : Str} (h : Places k n ds) : MoreDigits k.base 0 ds n ∧ ∀ c ∈ ds, c ≠ '_' := by
  induction h with
  | one hv hc =>
    obtain ⟨h1, h2, _⟩ := notation_hex k hv hc
    exact ⟨.digit h1 (by rw [Nat.mul_zero, Nat.zero_add]; exact .done), by simpa using h2⟩
  | more _ _ hv hc ih =>
    obtain ⟨h1, h2, _⟩ := notation_hex k hv hc
    refine ⟨moreDigits_append ih.1 (.digit h1 .done), ?_⟩
    intro c hc
    rcases List.mem_append.1 hc with hc | hc
    · exact ih.2 c hc
    · rw [List.mem_singleton.1 hc]; exact h2

theorem zeros_more {k : Notation} (j : Nat) : MoreDigits k.base 0 (List.replicate j '0') 0 := by
  induction j with
  | zero => exact .done
  | succ j ih =>
    have h0 : DigitOf k.base '0' 0 := ⟨.digit 0 '0' rfl, by have := base_two k; omega⟩
    exact .digit h0 (by simpa using ih)

theorem groups_more {size base : Nat} (hs : 0 < size) {ds b : Str} (h : Groups size '_' ds b) :
    ∀ {acc n : Nat}, (∀ c ∈ ds, c ≠ '_') → MoreDigits base acc ds n → MoreDigits base acc b n ∧ b.head? = ds.head? := by
  induction h with
  | first => intro acc n _ h; exact ⟨h, rfl⟩
  | @next ds b g hg hl ih =>
    intro acc n hc h
    obtain ⟨m, h1, h2⟩ := moreDigits_split (fun c hm => hc c (List.mem_append.2 (.inl hm))) h
    obtain ⟨i1, i2⟩ := ih (fun c hm => hc c (List.mem_append.2 (.inl hm))) h1
    refine ⟨moreDigits_append i1 ?_, ?_⟩
    · cases h2 with
      | done => simp at hl; omega
      | digit hd h => exact .after hd h
      | after hd h => exact absurd rfl (hc '_' (by simp))
    · obtain ⟨n1, n2⟩ := groups_ne hg
      obtain ⟨c, r, rfl⟩ := List.exists_cons_of_ne_nil n1
      obtain ⟨d, q, rfl⟩ := List.exists_cons_of_ne_nil n2
      simpa using i2

/-- The digits as they are shown are the number, if the separators are underscores. -/
theorem body_digits {st : NumberStyle} (hsep : st.separator = none ∨ st.separator = some '_') {n j : Nat} {ds body : Str}
    (h : Places st.notation' n ds) (hb : st.Body (List.replicate j '0' ++ ds) body) : Digits st.notation'.base body n := by
  obtain ⟨h1, h2⟩ := places_more h
  have hall : ∀ c ∈ List.replicate j '0' ++ ds, c ≠ '_' := by
    intro c hc
    rcases List.mem_append.1 hc with hc | hc
    · rw [(List.mem_replicate.1 hc).2]; decide
    · exact h2 c hc
  have hm := moreDigits_append (zeros_more (k := st.notation') j) h1
  have hne : List.replicate j '0' ++ ds ≠ [] := by simp [places_ne h]
  have key : MoreDigits st.notation'.base 0 body n ∧ body ≠ [] ∧ body.head? ≠ some '_' := by
    have hh : (List.replicate j '0' ++ ds).head? ≠ some '_' := by
      intro e
      exact hall '_' (List.mem_of_mem_head? e) rfl
    rcases hsep with hs | hs
    · simp only [NumberStyle.Body, hs] at hb
      subst hb
      exact ⟨hm, hne, hh⟩
    · simp only [NumberStyle.Body, hs] at hb
      obtain ⟨g1, g2⟩ := groups_more (group_pos _) hb hall hm
      exact ⟨g1, (groups_ne hb).1, by rw [g2]; exact hh⟩
  obtain ⟨k1, k2, k3⟩ := key
  cases k1 with
  | done => exact absurd rfl k2
  | @digit _ c v r _ hd hr => exact ⟨c, v, r, rfl, hd, by simpa using hr⟩
  | after => simp at k3

/-- Numbers can be read again: `int` gives the number that was shown, if the padding is blanks around it or zeros, and the separators are not
commas. With the base 16 the mark can be there. -/
theorem C107_read (st : NumberStyle) (hk : st.notation' = .decimal ∨ st.notation' = .hex ∨ st.notation' = .upperHex)
    (hsep : st.separator = none ∨ st.separator = some '_')
    (hf : st.fill = '0' ∧ st.padding = .inside ∨ st.fill = ' ' ∧ st.padding ≠ .inside) (n : Int) (y : Str) (h : st.Shows n y) :
    pyInt st.notation'.base y = some n := by
  rw [C106]
  have blanks : ∀ a, Blank (List.replicate a ' ') := by
    intro a c hc
    rw [(List.mem_replicate.1 hc).2]; decide
  -- the sign, the mark and the digits, with blanks around them
  have key : ∀ (a b : Nat) (body : Str), Digits st.notation'.base body n.natAbs →
      IntText st.notation'.base (List.replicate a ' ' ++ (st.start n ++ body) ++ List.replicate b ' ') n := by
    intro a b body hd
    have hu : Unsigned st.notation'.base ((if st.marked then st.notation'.mark else []) ++ body) n.natAbs := by
      cases hm : st.marked
      · exact .inl hd
      · rcases hk with hk | hk | hk <;> rw [hk] at hd ⊢
        · exact .inl hd
        · exact .inr ⟨rfl, 'x', body, .inl rfl, hd, .inl rfl⟩
        · exact .inr ⟨rfl, 'X', body, .inr rfl, hd, .inl rfl⟩
    rw [NumberStyle.start, SignOf.shown.eq_def, List.append_assoc]
    by_cases hn : n < 0
    · have e : n = -(n.natAbs : Int) := by omega
      rw [if_pos hn]
      have := IntText.minus (blanks a) (blanks b) hu
      rw [← e] at this
      simpa using this
    · have e : n = (n.natAbs : Int) := by omega
      rw [if_neg hn]
      cases st.sign with
      | nothing =>
        have := IntText.plain (blanks a) (blanks b) hu
        rw [← e] at this
        simpa using this
      | plus =>
        have := IntText.plus (blanks a) (blanks b) hu
        rw [← e] at this
        simpa using this
      | blank =>
        have := IntText.plain (blanks (a + 1)) (blanks b) hu
        rw [← e] at this
        simpa [List.replicate_succ', List.append_assoc] using this
  cases h with
  | zeros _ _ h1 h2 _ _ => simpa using key 0 0 _ (body_digits hsep h1 h2)
  | @filled ds body a i b hz h1 h2 _ hp =>
    obtain ⟨hf, hin⟩ := hf.resolve_left hz
    have hi : i = 0 := by cases e : st.padding <;> simp_all
    have := key a b body (body_digits (j := 0) hsep h1 (by simpa using h2))
    rw [hi, hf]
    simpa using this

/-- Different numbers are shown differently. -/
theorem C107_differ (st : NumberStyle) (hk : st.notation' = .decimal ∨ st.notation' = .hex ∨ st.notation' = .upperHex)
    (hsep : st.separator = none ∨ st.separator = some '_')
    (hf : st.fill = '0' ∧ st.padding = .inside ∨ st.fill = ' ' ∧ st.padding ≠ .inside) (m n : Int) (y : Str) (hm : st.Shows m y) (hn : st.Shows n y) :
    m = n := by
  have := (C107_read st hk hsep hf m y hm).symm.trans (C107_read st hk hsep hf n y hn)
  simpa using this

/-! ## What is refused -/

/-- The first field of a template fails, whatever comes after it. -/
theorem number_refused {spec : Str} (h : ∀ c ∈ spec, c ≠ '{' ∧ c ≠ '}') (n : Int) (e : PyErr) (he : formatArg (.int n) spec = .error e)
    (before rest : Str) (args : List Arg) :
    pyFormat (escape before ++ (fieldOf py"0" spec ++ rest)) (.int n :: args) = .error e := by
  rw [pyFormat, parse_escape, parse_layout h py"0" rest (by decide), eval_lits]
  have hf : ∀ inner, evalField inner (.int n :: args) [] .unset py"0" none spec = .error e := by
    intro inner
    have e1 : fieldArg (.int n :: args) [] .unset py"0" = .ok (.int n, .manual) := rfl
    have ht : (py"0").takeWhile (fun c => c != '.' && c != '[') = py"0" := by decide
    simp only [evalField, ht, e1, bind, Except.bind, List.drop_length, parseAccess, access, convert, no_fields h, Bool.false_eq_true, if_false, he]
  simp only [evalPieces, hf]
  rfl

/-- Numbers have no precision, and commas separate the digits of decimal numbers only: such templates are errors. -/
theorem C107_refused (fill : Char) (hfill : fill ≠ '{' ∧ fill ≠ '}') (p : Padding) (w : Nat) (hw : w < 2 ^ 63) (k : Notation) (last : Str)
    (hl : (∃ q < 2 ^ 63, last = py"." ++ natStr q ++ [k.char]) ∨ k ≠ .decimal ∧ last = [',', k.char]) (before rest : Str) (n : Int) (args : List Arg) :
    pyFormat (escape before ++ (fieldOf py"0" ([fill, p.char] ++ natStr w ++ last) ++ rest)) (.int n :: args) = .error .valueError := by
  have ha : isAlign p.char = true := by cases p <;> rfl
  have hpc : p.char ≠ '{' ∧ p.char ≠ '}' := by cases p <;> decide
  have hkc : k.char ≠ '{' ∧ k.char ≠ '}' ∧ k.char.isDigit = false := by cases k <;> decide
  have dig : ∀ c : Char, c.isDigit = true → c ≠ '{' ∧ c ≠ '}' := by
    intro c hc
    constructor <;> (rintro rfl; revert hc; decide)
  refine number_refused ?_ n _ ?_ before rest args
  · intro c hc
    simp only [List.cons_append, List.nil_append, List.mem_cons, List.mem_append] at hc
    rcases hc with rfl | rfl | hc | hc
    · exact hfill
    · exact hpc
    · exact dig c (natStr_isDigit _ c hc)
    · rcases hl with ⟨q, _, rfl⟩ | ⟨_, rfl⟩
      · simp only [List.mem_append, List.mem_singleton] at hc
        rcases hc with (rfl | hc) | rfl
        · decide
        · exact dig c (natStr_isDigit _ c hc)
        · exact ⟨hkc.1, hkc.2.1⟩
      · simp only [List.mem_cons, List.not_mem_nil, or_false] at hc
        rcases hc with rfl | rfl
        · decide
        · exact ⟨hkc.1, hkc.2.1⟩
  · have hd : ∀ c, last.head? = some c → c.isDigit = false := by
      intro c hc
      rcases hl with ⟨q, _, rfl⟩ | ⟨_, rfl⟩ <;> simp at hc <;> subst hc <;> decide
    have hdig : ∀ (d : Char) , d.isDigit = false → ∀ c : Char, c.isDigit = true → (c == d) = false := by
      intro d h c hc
      rw [beq_eq_false_iff_ne]
      rintro rfl
      rw [h] at hc; cases hc
    have t1 : takeAlign ([fill, p.char] ++ natStr w ++ last) = (some fill, some p.char, natStr w ++ last) := by simp [takeAlign, ha]
    have t2 := takeIf_natStr (fun c => c == ' ' || c == '+' || c == '-') w last (fun c hc => by
      simp [hdig ' ' (by decide) c hc, hdig '+' (by decide) c hc, hdig '-' (by decide) c hc])
    have t3 := takeIf_natStr (· == 'z') w last (hdig 'z' (by decide))
    have t4 := takeIf_natStr (· == '#') w last (hdig '#' (by decide))
    have t5 := takeNumber_natStr hw last hd
    simp only [formatArg, show ([fill, p.char] ++ natStr w ++ last = []) = False by simp, if_false, bind, Except.bind, parseSpec, t1, t2, t3, t4, t5,
      Option.isNone_some, Bool.false_eq_true]
    rcases hl with ⟨q, hq, rfl⟩ | ⟨hk, rfl⟩
    · have t6 := takeNumber_natStr hq [k.char] (by simpa using hkc.2.2)
      have t7 : takePrecision (py"." ++ natStr q ++ [k.char]) = .ok (some q, [k.char]) := by
        simp [takePrecision, t6, bind, Except.bind]
      have u1 : takeIf (· == ',') (py"." ++ natStr q ++ [k.char]) = (none, py"." ++ natStr q ++ [k.char]) := by simp [takeIf]
      have u2 : takeIf (· == '_') (py"." ++ natStr q ++ [k.char]) = (none, py"." ++ natStr q ++ [k.char]) := by simp [takeIf]
      simp only [u1, u2, t7, Option.isSome_none, Bool.false_and, Bool.false_eq_true, if_false, Bool.or_false]
      simp [formatInt, intBase_char]
    · cases k
      · exact absurd rfl hk
      all_goals simp [takeIf, takePrecision, Notation.char]

example : pyFormat py"{0:#06x}. {1}" [.int 255, py"{}"] = .ok py"0x00ff. {}" ∧ pyFormat py"{0:=+12,}. {1}" [.int 1234567, py"{}"] = .ok py"+  1,234,567. {}" ∧
    pyFormat py"{0:b}. {1}" [.int (-5), py"{}"] = .ok py"-101. {}" ∧ pyFormat py"{0:08,}" [.int 1234] = .ok py"0,001,234" ∧
    pyFormat py"{0:07,}" [.int 1234] = .ok py"001,234" ∧ pyFormat py"{0:*^9X}" [.int 48879] = .ok py"**BEEF***" := by decide +kernel
example : (⟨'0', .inside, .nothing, false, 8, some ',', .decimal⟩ : NumberStyle).Written py"08," :=
  .zeros (sg := none) (t := []) rfl rfl .nothing .decimal
example : (⟨'0', .inside, .nothing, false, 8, some ',', .decimal⟩ : NumberStyle).Writable := ⟨by decide, by decide, by simp⟩
example : (⟨' ', .before, .nothing, false, 0, none, .hex⟩ : NumberStyle).Shows 255 py"ff" :=
  .filled (ds := py"ff") (body := py"ff") (a := 0) (i := 0) (b := 0) (by decide)
    (.more (k := .hex) (ds := py"f") (n := 15) (v := 15) (.one (by decide) rfl) (by decide) (by decide) rfl) rfl (by decide) ⟨rfl, rfl⟩
/-- Commas are not read by `int`, and blanks inside a number are not either. -/
example : pyInt 10 py"1,234" = none ∧ pyInt 10 py"- 12" = none ∧ pyInt 10 py"1_234" = some 1234 := by decide +kernel

end Verif
