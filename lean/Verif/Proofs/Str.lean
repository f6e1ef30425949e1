import Verif.Py.Str
import Verif.Spec.Css

namespace Verif

open Spec

theorem contains_iff (p s : Str) : contains p s = true ↔ p <:+: s := by
  induction s with
  | nil => simp [contains]
  | cons c s ih =>
    simp only [contains, Bool.or_eq_true, ih, List.isPrefixOf_iff_prefix]
    rw [List.infix_cons_iff]

theorem startsWith_iff (s p : Str) : startsWith s p = true ↔ p <+: s := by
  simp [startsWith]

theorem endsWith_iff (s p : Str) : endsWith s p = true ↔ p <:+ s := by
  simp [endsWith]

/-! ## `split()` -/

theorem splitWs_space (x : Char) (xs : Str) (h : isSpace x = true) : splitWs (x :: xs) = splitWs xs := by
  simp [splitWs, h]

theorem splitWs_word (x : Char) (xs : Str) (h : isSpace x = false) :
    splitWs (x :: xs) = (x :: xs.takeWhile (fun c => !isSpace c)) :: splitWs (xs.dropWhile (fun c => !isSpace c)) := by
  induction xs generalizing x with
  | nil => simp [splitWs, h]
  | cons y ys ih =>
    by_cases hy : isSpace y = true
    · conv => lhs; unfold splitWs
      simp [h, hy]
    · have hy' : isSpace y = false := by simpa using hy
      conv => lhs; unfold splitWs
      simp [h, ih y hy', hy']

theorem splitWs_nil : splitWs [] = [] := rfl

theorem isWord_space (w : Str) (x : Char) (xs : Str) (h : isSpace x = true) : IsWord w (x :: xs) ↔ IsWord w xs := by
  constructor
  · rintro ⟨h1, h2, a, b, h3, h4, h5⟩
    refine ⟨h1, h2, ?_⟩
    cases a with
    | nil =>
      cases w with
      | nil => exact absurd rfl h1
      | cons c w =>
        simp at h3
        have := h2 c (by simp)
        rw [← h3.1, h] at this
        cases this
    | cons c a =>
      simp at h3
      refine ⟨a, b, by simp [h3.2], ?_, h5⟩
      intro e he
      apply h4
      rw [List.getLast?_cons, he]
      rfl
  · rintro ⟨h1, h2, a, b, h3, h4, h5⟩
    refine ⟨h1, h2, x :: a, b, by simp [h3], ?_, h5⟩
    intro e he
    rw [List.getLast?_cons] at he
    cases ha : a.getLast? with
    | none => rw [ha] at he; simp at he; subst he; exact h
    | some y => rw [ha] at he; simp at he; subst he; exact h4 _ ha

theorem isWord_append (w t r : Str) (ht : t ≠ []) (hns : ∀ c ∈ t, isSpace c = false) (hr : ∀ c, r.head? = some c → isSpace c = true) :
    IsWord w (t ++ r) ↔ w = t ∨ IsWord w r := by
  constructor
  · rintro ⟨h1, h2, a, b, h3, h4, h5⟩
    have h3' : t ++ r = a ++ (w ++ b) := by rw [h3, List.append_assoc]
    rw [List.append_eq_append_iff] at h3'
    rcases h3' with ⟨as, rfl, e2⟩ | ⟨bs, e1, e2⟩
    · -- the word lies in r
      right
      refine ⟨h1, h2, as, b, by simp [e2], ?_, h5⟩
      intro c hc
      apply h4
      rw [List.getLast?_append, hc]
      rfl
    · -- t = a ++ bs, w ++ b = bs ++ r
      by_cases hbs : bs = []
      · subst hbs
        simp at e1 e2
        subst e1
        right
        refine ⟨h1, h2, [], b, by simp [e2], by simp, h5⟩
      · -- a is empty: its last character would be in t
        have ha : a = [] := by
          cases hl : a.getLast? with
          | none => simpa using hl
          | some c =>
            have hm : c ∈ t := by rw [e1]; simp [List.mem_of_getLast? hl]
            have := hns c hm
            rw [h4 c hl] at this
            cases this
        subst ha
        simp at e1
        subst e1
        left
        -- w ++ b = t ++ r
        have e2' := e2
        rw [List.append_eq_append_iff] at e2'
        rcases e2' with ⟨as, e3, e4⟩ | ⟨cs, e3, e4⟩
        · -- t = w ++ as, b = as ++ r
          cases as with
          | nil => simp at e3; exact e3.symm
          | cons c as =>
            exfalso
            have := hns c (by rw [e3]; simp)
            have h6 := h5 c (by rw [e4]; simp)
            rw [h6] at this
            cases this
        · -- w = t ++ cs, r = cs ++ b
          cases cs with
          | nil => simpa using e3
          | cons c cs =>
            exfalso
            have := h2 c (by rw [e3]; simp)
            have h6 := hr c (by rw [e4]; simp)
            rw [h6] at this
            cases this
  · rintro (rfl | ⟨h1, h2, a, b, h3, h4, h5⟩)
    · exact ⟨ht, hns, [], r, by simp, by simp, hr⟩
    · refine ⟨h1, h2, t ++ a, b, by simp [h3], ?_, h5⟩
      intro c hc
      rw [List.getLast?_append] at hc
      cases ha : a.getLast? with
      | some x => rw [ha] at hc; simp at hc; subst hc; exact h4 _ ha
      | none =>
        have ha' : a = [] := by simpa using ha
        subst ha'
        exfalso
        -- r begins with the word, but r begins with a space
        cases w with
        | nil => exact h1 rfl
        | cons y w =>
          have := hr y (by rw [h3]; simp)
          have h6 := h2 y (by simp)
          rw [this] at h6
          cases h6

theorem mem_splitWs (w s : Str) : w ∈ splitWs s ↔ IsWord w s := by
  match s with
  | [] =>
    simp only [splitWs_nil, List.not_mem_nil, false_iff]
    rintro ⟨h1, -, a, b, h3, -⟩
    simp at h3
    exact h1 h3.2.1
  | x :: xs =>
    by_cases hx : isSpace x = true
    · rw [splitWs_space x xs hx, isWord_space w x xs hx]
      exact mem_splitWs w xs
    · have hx' : isSpace x = false := by simpa using hx
      rw [splitWs_word x xs hx', List.mem_cons, mem_splitWs w (xs.dropWhile _)]
      have hsplit : x :: xs = (x :: xs.takeWhile (fun c => !isSpace c)) ++ xs.dropWhile (fun c => !isSpace c) := by
        simp [List.takeWhile_append_dropWhile]
      conv => rhs; rw [hsplit]
      rw [isWord_append]
      · simp
      · intro c hc
        rcases List.mem_cons.1 hc with e | e
        · subst e; exact hx'
        · have := List.all_takeWhile (p := fun c => !isSpace c) (l := xs)
          rw [List.all_eq_true] at this
          simpa using this c e
      · intro c hc
        have := List.head?_dropWhile_not (fun c => !isSpace c) xs
        rw [hc] at this
        simpa using this
termination_by s.length
decreasing_by
  · simp
  · have := (List.dropWhile_sublist (fun c => !isSpace c) (l := xs)).length_le
    simp only [List.length_cons]
    omega

theorem takeWhile_prefix {α : Type} (p : α → Bool) (w r : List α) (h : ∀ c ∈ w, p c = true) (hr : ∀ c, r.head? = some c → p c = false) :
    (w ++ r).takeWhile p = w ∧ (w ++ r).dropWhile p = r := by
  induction w with
  | nil =>
    cases r with
    | nil => simp
    | cons c r => simp [hr c rfl]
  | cons c w ih =>
    have h1 := h c (by simp)
    have := ih (fun x hx => h x (List.mem_cons_of_mem _ hx))
    simp [h1, this]

/-- A nonempty run without whitespace is split off. -/
theorem splitWs_append (w r : Str) (hw : w ≠ []) (h : ∀ c ∈ w, isSpace c = false) (hr : ∀ c, r.head? = some c → isSpace c = true) :
    splitWs (w ++ r) = w :: splitWs r := by
  cases w with
  | nil => exact absurd rfl hw
  | cons c w =>
    rw [List.cons_append, splitWs_word _ _ (h c (by simp))]
    have := takeWhile_prefix (fun c => !isSpace c) w r (fun x hx => by simp [h x (List.mem_cons_of_mem _ hx)])
      (fun x hx => by simp [hr x hx])
    rw [this.1, this.2]

theorem splitWs_spec (s : Str) : ∀ w ∈ splitWs s, w ≠ [] ∧ ∀ c ∈ w, isSpace c = false := by
  intro w hw
  rw [mem_splitWs] at hw
  exact ⟨hw.1, hw.2.1⟩

theorem join_cons (sep w : Str) (ws : List Str) (h : ws ≠ []) : join sep (w :: ws) = w ++ sep ++ join sep ws := by
  cases ws with
  | nil => exact absurd rfl h
  | cons a as => rfl

/-- Words joined by single spaces are split again. -/
theorem splitWs_join (ws : List Str) (h : ∀ w ∈ ws, w ≠ [] ∧ ∀ c ∈ w, isSpace c = false) : splitWs (join py" " ws) = ws := by
  match ws with
  | [] => rfl
  | [w] =>
    have := splitWs_append w [] (h w (by simp)).1 (h w (by simp)).2 (by simp)
    simpa [join, splitWs_nil] using this
  | w :: w' :: ws =>
    have ih := splitWs_join (w' :: ws) (fun x hx => h x (List.mem_cons_of_mem _ hx))
    rw [join_cons _ _ _ (by simp), List.append_assoc, splitWs_append w _ (h w (by simp)).1 (h w (by simp)).2]
    · rw [List.cons_append, List.nil_append, splitWs_space _ _ (by decide)]
      rw [ih]
    · intro c hc
      simp at hc
      subst hc
      decide

/-! ## Numbers -/

theorem digitVal_digitChar (d : Nat) (h : d < 10) : digitVal 10 (Nat.digitChar d) = some d := by
  have : d = 0 ∨ d = 1 ∨ d = 2 ∨ d = 3 ∨ d = 4 ∨ d = 5 ∨ d = 6 ∨ d = 7 ∨ d = 8 ∨ d = 9 := by omega
  rcases this with h | h | h | h | h | h | h | h | h | h <;> subst h <;> decide

theorem digitVal_ne (d : Nat) (h : d < 10) :
    Nat.digitChar d ≠ '_' ∧ isSpace (Nat.digitChar d) = false ∧ Nat.digitChar d ≠ '-' ∧ Nat.digitChar d ≠ '+' := by
  have : d = 0 ∨ d = 1 ∨ d = 2 ∨ d = 3 ∨ d = 4 ∨ d = 5 ∨ d = 6 ∨ d = 7 ∨ d = 8 ∨ d = 9 := by omega
  rcases this with h | h | h | h | h | h | h | h | h | h <;> subst h <;> decide

theorem natStr_lt (n : Nat) (h : n < 10) : natStr n = [Nat.digitChar n] := Nat.toDigits_of_lt_base h

theorem natStr_ge (n : Nat) (h : 10 ≤ n) : natStr n = natStr (n / 10) ++ [Nat.digitChar (n % 10)] :=
  Nat.toDigits_of_base_le (by omega) h

theorem natStr_chars (n : Nat) : ∀ c ∈ natStr n, c ≠ '_' ∧ isSpace c = false ∧ c ≠ '-' ∧ c ≠ '+' := by
  induction n using Nat.strongRecOn with
  | ind n ih =>
    by_cases h : n < 10
    · rw [natStr_lt n h]
      intro c hc
      simp at hc
      subst hc
      exact digitVal_ne n h
    · rw [natStr_ge n (by omega)]
      intro c hc
      rcases List.mem_append.1 hc with e | e
      · exact ih (n / 10) (by omega) c e
      · simp at e
        subst e
        exact digitVal_ne _ (Nat.mod_lt _ (by omega))

theorem natStr_ne_nil (n : Nat) : natStr n ≠ [] := Nat.toDigits_ne_nil

theorem digitsVal_append (b acc : Nat) (sep : Bool) (s t : Str) (v : Nat) (hs : s ≠ []) (h : digitsVal b acc sep s = some v) :
    digitsVal b acc sep (s ++ t) = digitsVal b v false t := by
  induction s generalizing acc sep with
  | nil => exact absurd rfl hs
  | cons c s ih =>
    rw [List.cons_append]
    simp only [digitsVal] at h ⊢
    split
    · rename_i hc
      rw [if_pos hc] at h
      split at h
      · cases h
      · rename_i hsep
        rw [if_neg hsep]
        by_cases hs' : s = []
        · subst hs'; simp [digitsVal] at h
        · exact ih _ _ hs' h
    · rename_i hc
      rw [if_neg hc] at h
      cases hd : digitVal b c with
      | none => rw [hd] at h; cases h
      | some d =>
        rw [hd] at h
        simp only at h ⊢
        by_cases hs' : s = []
        · subst hs'; simp [digitsVal] at h; subst h; rfl
        · exact ih _ _ hs' h

theorem digitsVal_natStr (n : Nat) : digitsVal 10 0 true (natStr n) = some n := by
  induction n using Nat.strongRecOn with
  | ind n ih =>
    by_cases h : n < 10
    · rw [natStr_lt n h]
      simp [digitsVal, digitVal_digitChar n h, (digitVal_ne n h).1]
    · rw [natStr_ge n (by omega), digitsVal_append _ _ _ _ _ _ (natStr_ne_nil _) (ih (n / 10) (by omega))]
      have hm : n % 10 < 10 := Nat.mod_lt _ (by omega)
      simp only [digitsVal, digitVal_digitChar _ hm, (digitVal_ne _ hm).1, if_false]
      simp
      omega

theorem dropWhile_none {α : Type} (p : α → Bool) (l : List α) (h : ∀ c ∈ l, p c = false) : l.dropWhile p = l := by
  cases l with
  | nil => rfl
  | cons c l => simp [h c (by simp)]

theorem strip_noSpace (s : Str) (h : ∀ c ∈ s, isSpace c = false) : strip s = s := by
  unfold strip rstrip lstrip
  rw [dropWhile_none _ s h, dropWhile_none _ s.reverse (fun c hc => h c (by simpa using hc)), List.reverse_reverse]

/-- `int(str(n)) = n` -/
theorem pyInt_natStr (n : Nat) : pyInt 10 (natStr n) = some (n : Int) := by
  unfold pyInt
  rw [strip_noSpace _ (fun c hc => (natStr_chars n c hc).2.1)]
  have hv := digitsVal_natStr n
  have hc := natStr_chars n
  generalize natStr n = s at hv hc
  cases s with
  | nil => simp [digitsVal] at hv
  | cons c r =>
    have h1 := hc c (by simp)
    have e : pySign (c :: r) = (false, c :: r) := by
      unfold pySign
      split
      · rename_i e; simp at e; exact absurd e.1 h1.2.2.1
      · rename_i e; simp at e; exact absurd e.1 h1.2.2.2
      · rfl
    have e2 : dropHexPrefix 10 (c :: r) = c :: r := by
      unfold dropHexPrefix
      split <;> simp_all
    rw [e]
    simp only
    rw [e2, hv]
    simp

end Verif
