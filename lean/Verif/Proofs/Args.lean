import Verif.Spec.Args

/-!
# Lemmas about command lines
-/

namespace Verif

open Spec

/-! ### The loop -/

theorem matchOne_length {l : List Slot} {s : List Str} {r : List Slot} (h : matchOne l = some (s, r)) :
    r.length < l.length := by
  unfold matchOne at h
  have h1 := (List.dropWhile_sublist (l := l) (fun x => decide (x = Slot.dashes))).length_le
  split at h
  · rename_i x r' e
    cases h
    rw [e] at h1
    have h2 := (List.dropWhile_sublist (l := r') (fun x => decide (x = Slot.dashes))).length_le
    simp only [List.length_cons] at h1
    omega
  · cases h

theorem matchAll_none {n : Nat} {l : List Slot} (h : matchOne l = none) : matchPartial n l = ([], l) := by
  induction n with
  | zero => rfl
  | succ n ih =>
    have : matchAll (n + 1) l = none := by simp [matchAll, h]
    simp only [matchPartial, this, ih]

theorem matchPartial_some {n : Nat} {l : List Slot} {s : List Str} {r : List Slot} (h : matchOne l = some (s, r)) :
    matchPartial (n + 1) l = (s :: (matchPartial n r).1, (matchPartial n r).2) := by
  induction n with
  | zero => simp [matchPartial, matchAll, h]
  | succ n ih =>
    have e : matchAll (n + 1 + 1) l = (matchAll (n + 1) r).map (fun x => (s :: x.1, x.2)) := by
      rw [matchAll, h]
    cases hm : matchAll (n + 1) r with
    | some x =>
      rw [hm] at e
      simp [matchPartial, e, hm]
    | none =>
      rw [hm] at e
      have e2 : matchPartial (n + 1 + 1) l = matchPartial (n + 1) l := by rw [matchPartial, e]; rfl
      have e3 : matchPartial (n + 1) r = matchPartial n r := by rw [matchPartial, hm]
      rw [e2, e3, ih]

theorem matchPartial_length (n : Nat) (l : List Slot) : (matchPartial n l).2.length ≤ l.length := by
  induction n generalizing l with
  | zero => exact Nat.le_refl _
  | succ n ih =>
    cases h : matchOne l with
    | none => rw [matchAll_none h]; exact Nat.le_refl _
    | some x =>
      obtain ⟨s, r⟩ := x
      rw [matchPartial_some h]
      have := ih r
      have := matchOne_length h
      simp only
      omega

theorem dropWhile_option_length {l : List Slot} {x : Slot} {r : List Slot}
    (h : l.dropWhile (fun x => !x.isOption) = x :: r) : r.length < l.length := by
  have h1 := (List.dropWhile_sublist (l := l) (fun x => !x.isOption)).length_le
  rw [h] at h1
  simp only [List.length_cons] at h1
  omega

/-- The bound on the number of turns does not matter. -/
theorem argLoop_fuel (f g : Nat) (st : ArgState) (l : List Slot) (hf : l.length < f) (hg : l.length < g) :
    argLoop f st l = argLoop g st l := by
  induction f generalizing g st l with
  | zero => omega
  | succ f ih =>
    cases g with
    | zero => omega
    | succ g =>
      simp only [argLoop]
      split
      · split
        · rename_i h
          exact ih _ _ _ (by omega) (by omega)
        · split
          · rename_i s t r e
            have := dropWhile_option_length e
            split
            · rfl
            · split
              · rfl
              · exact ih _ _ _ (by omega) (by omega)
          · rfl
      · rfl

/-- The loop with as many turns as it needs. -/
def scan (st : ArgState) (l : List Slot) : ArgResult := argLoop (l.length + 1) st l

theorem argLoop_scan {f : Nat} {st : ArgState} {l : List Slot} (h : l.length < f) : argLoop f st l = scan st l :=
  argLoop_fuel _ _ _ _ h (by omega)

theorem consume_none {st : ArgState} {l : List Slot} (h : st.left = 0 ∨ matchOne l = none) :
    consumePositionals st l = (st, l) := by
  have : matchPartial st.left l = ([], l) := by
    rcases h with h | h
    · rw [h]; rfl
    · exact matchAll_none h
  simp [consumePositionals, this]

def push (st : ArgState) (s : List Str) : ArgState :=
  { st with values := st.values ++ [posValue s], left := st.left - 1 }

theorem consume_some {st : ArgState} {l : List Slot} {s : List Str} {r : List Slot} (hl : st.left ≠ 0)
    (h : matchOne l = some (s, r)) : consumePositionals st l = consumePositionals (push st s) r := by
  obtain ⟨n, hn⟩ : ∃ n, st.left = n + 1 := ⟨st.left - 1, by omega⟩
  have hp : (push st s).left = n := by simp [push, hn]
  simp only [consumePositionals, hn, matchPartial_some h, hp]
  simp [push]

theorem consume_length (st : ArgState) (l : List Slot) : (consumePositionals st l).2.length ≤ l.length :=
  matchPartial_length _ _

theorem scan_nil (st : ArgState) : scan st [] = match st.values, st.left, st.extras with
    | [s, d], 0, [] => .ok s d st.dump
    | _, _, _ => .usage := by
  have : consumePositionals st [] = (st, []) := consume_none (.inr rfl)
  simp only [scan, argLoop, finishArgs, this, List.any_nil, List.map_nil, List.append_nil]
  rfl

theorem scan_option (st : ArgState) (s : Str) (t : OptionTuple) (r : List Slot) :
    scan st (.option s t :: r) = match expandOption s t with
      | none => .usage
      | some (as, extra) => if .help ∈ as then .help
        else scan { st with dump := st.dump || as.contains .dump, extras := st.extras ++ extra.toList } r := by
  rw [scan, argLoop]
  have h1 : (Slot.option s t :: r).any Slot.isOption = true := by simp [Slot.isOption]
  have h2 : (Slot.option s t :: r).head?.map Slot.isOption = some true := rfl
  have h3 : (Slot.option s t :: r).dropWhile (fun x => !x.isOption) = .option s t :: r := rfl
  simp only [h1, h2, h3, if_true, not_true, false_and, if_false]
  cases expandOption s t with
  | none => rfl
  | some x =>
    obtain ⟨as, ex⟩ := x
    simp only
    split
    · rfl
    · exact argLoop_scan (by simp)

theorem mem_takeWhile_dashes {l : List Slot} {x : Slot} (h : x ∈ l.takeWhile (fun x => decide (x = Slot.dashes))) : x = .dashes := by
  induction l with
  | nil => cases h
  | cons y l ih =>
    rw [List.takeWhile_cons] at h
    split at h
    · rename_i hy
      rcases List.mem_cons.mp h with rfl | h
      · simpa using hy
      · exact ih h
    · cases h

theorem matchOne_parts {l : List Slot} {s : List Str} {r : List Slot} (h : matchOne l = some (s, r)) :
    ∃ a, l = a ++ r ∧ ∀ x ∈ a, x.isOption = false := by
  unfold matchOne at h
  have h1 := List.takeWhile_append_dropWhile (p := fun x => decide (x = Slot.dashes)) (l := l)
  split at h
  · rename_i x r' e
    cases h
    have h2 := List.takeWhile_append_dropWhile (p := fun x => decide (x = Slot.dashes)) (l := r')
    rw [e] at h1
    refine ⟨l.takeWhile (fun x => decide (x = Slot.dashes)) ++ .arg x :: r'.takeWhile (fun x => decide (x = Slot.dashes)), ?_, ?_⟩
    · rw [List.append_assoc, List.cons_append, h2, h1]
    · intro y hy
      rcases List.mem_append.mp hy with hy | hy
      · have := mem_takeWhile_dashes hy
        rw [this]; rfl
      · rcases List.mem_cons.mp hy with rfl | hy
        · rfl
        · have := mem_takeWhile_dashes hy
          rw [this]; rfl
  · cases h

theorem any_option_parts {a r : List Slot} (h : ∀ x ∈ a, x.isOption = false) :
    (a ++ r).any Slot.isOption = r.any Slot.isOption := by
  rw [List.any_append, List.any_eq_false.mpr (by simpa using h), Bool.false_or]

theorem scan_match {st : ArgState} {l : List Slot} {s : List Str} {r : List Slot} (hl : st.left ≠ 0)
    (hh : l.head?.map Slot.isOption ≠ some true) (h : matchOne l = some (s, r)) : scan st l = scan (push st s) r := by
  obtain ⟨a, ea, ha⟩ := matchOne_parts h
  have hlt := matchOne_length h
  have hany : l.any Slot.isOption = r.any Slot.isOption := by rw [ea, any_option_parts ha]
  have hc := consume_some hl h
  have hle := consume_length (push st s) r
  rw [scan, argLoop]
  by_cases ho : r.any Slot.isOption = true
  · rw [if_pos (hany.trans ho)]
    simp only
    rw [if_pos ⟨hh, by rw [hc]; omega⟩, hc]
    rw [argLoop_scan (by omega)]
    by_cases hr : (consumePositionals (push st s) r).2.length < r.length ∧ r.head?.map Slot.isOption ≠ some true
    · rw [scan, scan, argLoop.eq_2 (push st s) r r.length, if_pos ho]
      simp only
      rw [if_pos ⟨hr.2, hr.1⟩]
      rw [argLoop_scan hr.1, scan]
    · have : consumePositionals (push st s) r = (push st s, r) := by
        by_cases hr2 : r.head?.map Slot.isOption = some true
        · refine consume_none (.inr ?_)
          cases r with
          | nil => cases hr2
          | cons x r =>
            cases x with
            | option => simp [matchOne]
            | arg => cases hr2
            | dashes => cases hr2
        · cases hl2 : (push st s).left with
          | zero => exact consume_none (.inl hl2)
          | succ n =>
            cases hm : matchOne r with
            | none => exact consume_none (.inr hm)
            | some x =>
              obtain ⟨s', r'⟩ := x
              refine absurd ⟨?_, hr2⟩ hr
              rw [consume_some (by omega) hm]
              have := consume_length (push (push st s) s') r'
              have := matchOne_length hm
              omega
      rw [this]
  · rw [if_neg (by rw [hany]; exact ho), scan, argLoop, if_neg ho]
    simp only [finishArgs, hc]

theorem matchOne_none_tail {x : Slot} {l : List Slot} (hx : x.isOption = false) (h : matchOne (x :: l) = none) : matchOne l = none := by
  cases x with
  | option => cases hx
  | arg s => simp [matchOne] at h
  | dashes =>
    unfold matchOne at h ⊢
    simp only [List.dropWhile_cons, decide_true, if_true] at h
    split at h
    · cases h
    · rename_i hn
      cases e : l.dropWhile (fun x => decide (x = Slot.dashes)) with
      | nil => rfl
      | cons y r =>
        cases y with
        | arg s => exact absurd e (hn _ _)
        | dashes => rfl
        | option => rfl

theorem finish_extras {st : ArgState} {l : List Slot} (h : st.extras ≠ []) : finishArgs st l = .usage := by
  simp only [finishArgs]
  split
  · rename_i e
    exact absurd (List.append_eq_nil_iff.mp e).1 h
  · rfl

theorem scan_extra {st : ArgState} {x : Slot} {l : List Slot} (hx : x.isOption = false)
    (h : st.left = 0 ∨ matchOne (x :: l) = none) : scan st (x :: l) = scan { st with extras := st.extras ++ [x.text] } l := by
  have h2 : st.left = 0 ∨ matchOne l = none := h.imp id (matchOne_none_tail hx)
  have hh : ¬ (((x :: l).head?.map Slot.isOption) = some true) := by simp [hx]
  rw [scan, argLoop]
  simp only [consume_none h]
  by_cases ho : (x :: l).any Slot.isOption = true
  · have ho2 : l.any Slot.isOption = true := by simpa [hx] using ho
    rw [if_pos ho, if_neg (by simp), if_neg hh]
    rw [scan, argLoop]
    simp only [consume_none (st := { st with extras := st.extras ++ [x.text] }) h2, ho2, if_true]
    rw [if_neg (by simp)]
    have e : (x :: l).dropWhile (fun x => !x.isOption) = l.dropWhile (fun x => !x.isOption) := by
      simp [hx]
    have e2 : (x :: l).takeWhile (fun x => !x.isOption) = x :: l.takeWhile (fun x => !x.isOption) := by
      simp [hx]
    rw [e, e2]
    have e3 : (if l.head?.map Slot.isOption = some true then ({ st with extras := st.extras ++ [x.text] } : ArgState)
        else { st with extras := (st.extras ++ [x.text]) ++ (l.takeWhile (fun x => !x.isOption)).map Slot.text }) =
        { st with extras := st.extras ++ (x :: l.takeWhile (fun x => !x.isOption)).map Slot.text } := by
      split
      · rename_i hl
        cases l with
        | nil => cases hl
        | cons y l =>
          have : y.isOption = true := by simpa using hl
          simp [this]
      · simp
    rw [e3]
    cases hd : l.dropWhile (fun x => !x.isOption) with
    | nil => rfl
    | cons y r =>
      have := dropWhile_option_length hd
      cases y with
      | arg => rfl
      | dashes => rfl
      | option s t =>
        simp only
        cases expandOption s t with
        | none => rfl
        | some z =>
          obtain ⟨as, ex⟩ := z
          simp only
          split
          · rfl
          · exact argLoop_fuel _ _ _ _ (by simp; omega) (by omega)
  · have ho2 : ¬ l.any Slot.isOption = true := by simpa [hx] using ho
    rw [if_neg ho, scan, argLoop, if_neg ho2, finish_extras (st := { st with extras := st.extras ++ [x.text] }) (by simp)]
    simp only [finishArgs, consume_none h]
    split
    · rename_i e
      simp at e
    · rfl

/-! ### Words -/

theorem action_some {s : Str} {a : CliOption} (h : optionActions.lookup s = some a) :
    s = py"-h" ∨ s = py"--help" ∨ s = py"-d" ∨ s = py"--dump" := by
  simp only [optionActions, List.lookup] at h
  split at h
  · rename_i e; exact .inl (by simpa using e)
  split at h
  · rename_i e; exact .inr (.inl (by simpa using e))
  split at h
  · rename_i e; exact .inr (.inr (.inl (by simpa using e)))
  split at h
  · rename_i e; exact .inr (.inr (.inr (by simpa using e)))
  · cases h

theorem action_none {s : Str} (h : s ≠ py"-h") (h1 : s ≠ py"--help") (h2 : s ≠ py"-d") (h3 : s ≠ py"--dump") :
    optionActions.lookup s = none := by
  cases e : optionActions.lookup s with
  | none => rfl
  | some a => rcases action_some e with e | e | e | e <;> contradiction

/-- The option of a letter. -/
def letterOption (c : Char) : CliOption := if c = 'h' then .help else .dump

theorem action_letter {c : Char} (h : c = 'd' ∨ c = 'h') : optionActions.lookup ['-', c] = some (letterOption c) := by
  rcases h with rfl | rfl <;> rfl

theorem action_other {c : Char} (h : c ≠ 'd') (h2 : c ≠ 'h') : optionActions.lookup ['-', c] = none := by
  apply action_none <;> simp [h, h2]

theorem expandArg_nil {a : CliOption} {x : Char} {r : Str} (hx : x = 'd' ∨ x = 'h') (hr : ∀ c, r.head? = some c → c ∉ py"dh=")
    (hn : r ≠ []) : expandArg a ['-', x] [] r = if r.head? = some '-' then none else some ([a], some ('-' :: r)) := by
  cases r with
  | nil => exact absurd rfl hn
  | cons c r =>
    have hc := hr c rfl
    simp only [List.mem_cons, not_or] at hc
    have hx2 : x ≠ '-' := by rcases hx with rfl | rfl <;> decide
    simp only [expandArg, action_other hc.1 hc.2.1]
    by_cases h : c = '-' <;> simp [h, hx2]

/-- A run of letters and what stands behind it. -/
theorem expandArg_run {l : Str} (hl : ∀ c ∈ l, c = 'd' ∨ c = 'h') {a : CliOption} {x : Char} {r : Str} (hx : x = 'd' ∨ x = 'h')
    (hr : ∀ c, r.head? = some c → c ∉ py"dh") (hn : l ++ r ≠ []) (he : l = [] → r.head? ≠ some '=') :
    expandArg a ['-', x] [] (l ++ r) =
      if r = [] then some (a :: l.map letterOption, none)
      else if r.head? = some '=' ∨ r.head? = some '-' then none
      else some (a :: l.map letterOption, some ('-' :: r)) := by
  induction l generalizing a x with
  | nil =>
    have he := he rfl
    rw [List.nil_append] at hn ⊢
    rw [expandArg_nil hx (fun c hc => by
      have h1 := hr c hc
      rw [hc] at he
      simp only [List.mem_cons, List.not_mem_nil, or_false, not_or] at h1 ⊢
      exact ⟨h1.1, h1.2, fun e => he (by rw [e])⟩) hn, if_neg hn]
    simp [he]
  | cons c l ih =>
    have hc := hl c (.head _)
    have hc2 : c ≠ '-' := by rcases hc with rfl | rfl <;> decide
    have hx2 : x ≠ '-' := by rcases hx with rfl | rfl <;> decide
    rw [List.cons_append]
    simp only [expandArg, action_letter hc]
    rw [if_neg (by simp [hx2]), if_neg (by simp [hc2])]
    by_cases h0 : l ++ r = []
    · obtain ⟨rfl, rfl⟩ := List.append_eq_nil_iff.mp h0
      simp
    · rw [if_neg h0]
      by_cases h1 : (l ++ r).head? = some '='
      · have hl0 : l = [] := by
          cases l with
          | nil => rfl
          | cons y l =>
            have hy := hl y (.tail _ (.head _))
            simp only [List.cons_append, List.head?_cons, Option.some.injEq] at h1
            subst h1
            rcases hy with hy | hy <;> cases hy
        subst hl0
        rw [List.nil_append] at h1 h0
        simp [h1, h0]
      · rw [if_neg h1, ih (fun c h => hl c (.tail _ h)) hc h0 (by rintro rfl; exact h1)]
        split
        · rfl
        · split <;> rfl

theorem partitionEq_noEq {s : Str} (h : '=' ∉ s) : partitionEq s = (s, none) := by
  have hp : ∀ c ∈ s, decide (c ≠ '=') = true := by
    intro c hc
    simp only [decide_eq_true_eq]
    rintro rfl
    exact h hc
  have h1 : s.takeWhile (fun c => decide (c ≠ '=')) = s := by
    have := List.takeWhile_append_of_pos (p := fun c => decide (c ≠ '=')) (l₁ := s) (l₂ := []) hp
    simpa using this
  have h2 : s.dropWhile (fun c => decide (c ≠ '=')) = [] := by
    have := List.dropWhile_append_of_pos (p := fun c => decide (c ≠ '=')) (l₁ := s) (l₂ := []) hp
    simpa using this
  simp only [partitionEq, h1, h2]

theorem partitionEq_eq {p v : Str} (h : '=' ∉ p) : partitionEq (p ++ '=' :: v) = (p, some v) := by
  have hp : ∀ c ∈ p, decide (c ≠ '=') = true := by
    intro c hc
    simp only [decide_eq_true_eq]
    rintro rfl
    exact h hc
  have h1 : (p ++ '=' :: v).takeWhile (fun c => decide (c ≠ '=')) = p := by
    rw [List.takeWhile_append_of_pos hp]; simp
  have h2 : (p ++ '=' :: v).dropWhile (fun c => decide (c ≠ '=')) = '=' :: v := by
    rw [List.dropWhile_append_of_pos hp]; simp
  simp only [partitionEq, h1, h2]

theorem partitionEq_cases (s : Str) : ('=' ∉ s ∧ partitionEq s = (s, none)) ∨
    ∃ p v, '=' ∉ p ∧ s = p ++ '=' :: v ∧ partitionEq s = (p, some v) := by
  by_cases h : '=' ∈ s
  · obtain ⟨p, v, e, hp⟩ := List.eq_append_cons_of_mem h
    exact .inr ⟨p, v, hp, e, by rw [e]; exact partitionEq_eq hp⟩
  · exact .inl ⟨h, partitionEq_noEq h⟩

/-- Letters after `-d` or `-h`. -/
theorem parse_letters {u : Uni} {x : Char} {v : Str} (hx : x = 'd' ∨ x = 'h') (hv : v ≠ []) (he : v.head? ≠ some '=') :
    parseOptional u ('-' :: x :: v) = .ok (some ⟨some (letterOption x), ['-', x], some [], some v⟩) := by
  obtain ⟨y, v, rfl⟩ := List.exists_cons_of_ne_nil hv
  have hx2 : x ≠ '-' := by rcases hx with rfl | rfl <;> decide
  have hx3 : x ≠ '=' := by rcases hx with rfl | rfl <;> decide
  have hy : y ≠ '=' := by simpa using he
  have h1 : optionActions.lookup ('-' :: x :: y :: v) = none := by apply action_none <;> simp [hx2]
  have h2 : optionActions.lookup (partitionEq ('-' :: x :: y :: v)).1 = none := by
    rcases partitionEq_cases ('-' :: x :: y :: v) with ⟨_, e⟩ | ⟨p, w, _, e, e2⟩
    · rw [e]; exact h1
    · rw [e2]
      match p with
      | [] => simp at e
      | [a] => simp [hx3] at e
      | [a, b] => simp [hy] at e
      | a :: b :: c :: p =>
        simp only [List.cons_append, List.cons.injEq] at e
        obtain ⟨rfl, rfl, rfl, _⟩ := e
        apply action_none <;> simp [hx2]
  have h3 : optionTuples ('-' :: x :: y :: v) = [⟨some (letterOption x), ['-', x], some [], some (y :: v)⟩] := by
    rcases hx with rfl | rfl <;> simp [optionTuples, optionActions, letterOption]
  unfold parseOptional
  rw [if_neg (by simp), if_neg (by simp), h1]
  simp only
  rw [if_neg (by simp), h2, h3]
  cases (partitionEq ('-' :: x :: y :: v)).2 <;> rfl

theorem parse_letter_eq {u : Uni} {x : Char} {v : Str} (hx : x = 'd' ∨ x = 'h') :
    parseOptional u ('-' :: x :: '=' :: v) = .ok (some ⟨some (letterOption x), ['-', x], some py"=", some v⟩) := by
  have hx2 : x ≠ '-' := by rcases hx with rfl | rfl <;> decide
  have hx3 : x ≠ '=' := by rcases hx with rfl | rfl <;> decide
  have h1 : optionActions.lookup ('-' :: x :: '=' :: v) = none := by apply action_none <;> simp [hx2]
  have h2 : partitionEq ('-' :: x :: '=' :: v) = (['-', x], some v) :=
    partitionEq_eq (p := ['-', x]) (by simp; exact fun e => hx3 e.symm)
  unfold parseOptional
  rw [if_neg (by simp), if_neg (by simp), h1]
  simp only
  rw [if_neg (by simp), h2, action_letter hx]

theorem parse_letter {u : Uni} {x : Char} (hx : x = 'd' ∨ x = 'h') :
    parseOptional u ['-', x] = .ok (some ⟨some (letterOption x), ['-', x], none, none⟩) := by
  rcases hx with rfl | rfl <;> rfl

/-- What a word of letters does. -/
theorem letters_outcome {u : Uni} {l r : Str} (hl : ∀ c ∈ l, c = 'd' ∨ c = 'h') (hn : l ≠ [])
    (hr : ∀ c, r.head? = some c → c ∉ py"dh") :
    ∃ t, parseOptional u ('-' :: (l ++ r)) = .ok (some t) ∧ expandOption ('-' :: (l ++ r)) t =
      if r = [] then some (l.map letterOption, none)
      else if r.head? = some '=' ∨ r.head? = some '-' then none
      else some (l.map letterOption, some ('-' :: r)) := by
  obtain ⟨x, l, rfl⟩ := List.exists_cons_of_ne_nil hn
  have hx := hl x (.head _)
  have hl' : ∀ c ∈ l, c = 'd' ∨ c = 'h' := fun c h => hl c (.tail _ h)
  rw [List.cons_append]
  by_cases h0 : l ++ r = []
  · obtain ⟨rfl, rfl⟩ := List.append_eq_nil_iff.mp h0
    exact ⟨_, parse_letter hx, by simp [expandOption]⟩
  · by_cases h1 : (l ++ r).head? = some '='
    · have hl0 : l = [] := by
        cases l with
        | nil => rfl
        | cons y l =>
          have hy := hl' y (.head _)
          simp only [List.cons_append, List.head?_cons, Option.some.injEq] at h1
          subst h1
          rcases hy with hy | hy <;> cases hy
      subst hl0
      rw [List.nil_append] at h1 h0 ⊢
      obtain ⟨y, r, rfl⟩ := List.exists_cons_of_ne_nil h0
      have : y = '=' := by simpa using h1
      subst this
      refine ⟨_, parse_letter_eq hx, ?_⟩
      have hx2 : x ≠ '-' := by rcases hx with rfl | rfl <;> decide
      cases r <;> simp [expandOption, expandArg, hx2]
    · refine ⟨_, parse_letters hx h0 h1, ?_⟩
      simp only [expandOption, Option.getD_some]
      rw [expandArg_run hl' hx hr h0 (by rintro rfl; exact h1)]
      rfl

theorem long_cases {p : Str} : LongOption p ↔ p ∈ [py"--d", py"--du", py"--dum", py"--dump", py"--h", py"--he", py"--hel", py"--help"] := by
  constructor
  · rintro ⟨k, hk, e⟩
    match k, hk with
    | 3, _ => rcases e with rfl | rfl <;> decide
    | 4, _ => rcases e with rfl | rfl <;> decide
    | 5, _ => rcases e with rfl | rfl <;> decide
    | k + 6, _ =>
      rw [List.take_of_length_le (by simp), List.take_of_length_le (by simp)] at e
      rcases e with rfl | rfl <;> decide
  · intro h
    simp only [List.mem_cons, List.not_mem_nil, or_false] at h
    rcases h with rfl | rfl | rfl | rfl | rfl | rfl | rfl | rfl
    · exact ⟨3, by decide, .inl rfl⟩
    · exact ⟨4, by decide, .inl rfl⟩
    · exact ⟨5, by decide, .inl rfl⟩
    · exact ⟨6, by decide, .inl rfl⟩
    · exact ⟨3, by decide, .inr rfl⟩
    · exact ⟨4, by decide, .inr rfl⟩
    · exact ⟨5, by decide, .inr rfl⟩
    · exact ⟨6, by decide, .inr rfl⟩

/-- An abbreviated name with an argument. -/
theorem long_refused {u : Uni} {p v : Str} (h : LongOption p) :
    ∃ t, parseOptional u (p ++ '=' :: v) = .ok (some t) ∧ expandOption (p ++ '=' :: v) t = none := by
  rw [long_cases] at h
  have hq : '=' ∉ p := by
    simp only [List.mem_cons, List.not_mem_nil, or_false] at h
    rcases h with rfl | rfl | rfl | rfl | rfl | rfl | rfl | rfl <;> decide
  have h1 : optionActions.lookup (p ++ '=' :: v) = none := by
    cases e : optionActions.lookup (p ++ '=' :: v) with
    | none => rfl
    | some a =>
      have : '=' ∈ p ++ '=' :: v := by simp
      rcases action_some e with e | e | e | e <;> rw [e] at this <;> exact absurd this (by decide)
  have h4 : p ++ '=' :: v ≠ [] := by simp
  have h5 : (p ++ '=' :: v).head? = some '-' := by
    simp only [List.mem_cons, List.not_mem_nil, or_false] at h
    rcases h with rfl | rfl | rfl | rfl | rfl | rfl | rfl | rfl <;> rfl
  have h6 : (p ++ '=' :: v).length ≠ 1 := by
    simp only [List.mem_cons, List.not_mem_nil, or_false] at h
    rcases h with rfl | rfl | rfl | rfl | rfl | rfl | rfl | rfl <;> simp
  have h7 : ∃ o a, optionTuples (p ++ '=' :: v) = [⟨some a, '-' :: '-' :: o, some py"=", some v⟩] := by
    have hpe := partitionEq_eq (v := v) hq
    simp only [List.mem_cons, List.not_mem_nil, or_false] at h
    rcases h with rfl | rfl | rfl | rfl | rfl | rfl | rfl | rfl <;>
      simp only [List.cons_append, List.nil_append] at hpe ⊢ <;> simp [optionTuples, optionActions, hpe]
  unfold parseOptional
  rw [if_neg h4, if_neg (by rw [h5]; simp), h1]
  simp only
  rw [if_neg h6, partitionEq_eq hq]
  simp only
  cases e : optionActions.lookup p with
  | some a =>
    refine ⟨_, rfl, ?_⟩
    cases v with
    | nil => rfl
    | cons c v => simp [expandOption, expandArg]
  | none =>
    obtain ⟨o, a, e7⟩ := h7
    rw [e7]
    refine ⟨_, rfl, ?_⟩
    cases v with
    | nil => rfl
    | cons c v => simp [expandOption, expandArg]

theorem ambiguous_error {u : Uni} {s : Str} (h : AmbiguousWord s) : parseOptional u s = .error () := by
  obtain ⟨v, rfl⟩ := h
  have hpe : partitionEq ('-' :: '-' :: '=' :: v) = (py"--", some v) := partitionEq_eq (p := py"--") (by decide)
  have h1 : optionActions.lookup ('-' :: '-' :: '=' :: v) = none := by apply action_none <;> simp
  have h2 : optionActions.lookup py"--" = none := rfl
  simp only [List.cons_append, List.nil_append]
  unfold parseOptional
  rw [if_neg (by simp), if_neg (by simp), h1]
  simp only
  rw [if_neg (by simp), hpe]
  simp only [h2]
  simp [optionTuples, optionActions, hpe]

/-- A word that begins with a hyphen but not like an option. -/
theorem parse_unknown {u : Uni} {s : Str} (h0 : s.head? = some '-') (h1 : s ≠ py"-") (h2 : s ≠ py"--") (hs : ¬ OptionStart s) :
    parseOptional u s = if negativeNumber u s ∨ ' ' ∈ s then .ok none else .ok (some ⟨none, s, none, none⟩) := by
  have hl : ¬ LongOption s := fun h => hs (.inr (.inr (.inr ⟨s, h, .inl rfl⟩)))
  have hlk : ∀ p, (∃ r, s = p ++ r ∧ (r = [] ∨ ∃ v, r = '=' :: v)) → optionActions.lookup p = none := by
    rintro p ⟨r, e, hr⟩
    cases e2 : optionActions.lookup p with
    | none => rfl
    | some a =>
      exfalso
      rcases action_some e2 with rfl | rfl | rfl | rfl
      · exact hs (.inr (.inl ⟨r, e.symm⟩))
      · rcases hr with rfl | ⟨v, rfl⟩
        · rw [List.append_nil] at e
          exact hl (e ▸ ⟨6, by decide, .inr rfl⟩)
        · exact hs (.inr (.inr (.inr ⟨_, ⟨6, by decide, .inr rfl⟩, .inr ⟨v, e⟩⟩)))
      · exact hs (.inl ⟨r, e.symm⟩)
      · rcases hr with rfl | ⟨v, rfl⟩
        · rw [List.append_nil] at e
          exact hl (e ▸ ⟨6, by decide, .inl rfl⟩)
        · exact hs (.inr (.inr (.inr ⟨_, ⟨6, by decide, .inl rfl⟩, .inr ⟨v, e⟩⟩)))
  have k1 : optionActions.lookup s = none := hlk s ⟨[], by simp, .inl rfl⟩
  have k2 : optionActions.lookup (partitionEq s).1 = none := by
    rcases partitionEq_cases s with ⟨_, e⟩ | ⟨p, v, _, e, e2⟩
    · rw [e]; exact k1
    · rw [e2]; exact hlk p ⟨_, e, .inr ⟨v, rfl⟩⟩
  have k3 : optionTuples s = [] := by
    obtain ⟨d, r', rfl⟩ := List.exists_cons_of_ne_nil (l := s) (by rintro rfl; cases h0)
    have hd : d = '-' := by simpa using h0
    subst hd
    obtain ⟨c, r, rfl⟩ := List.exists_cons_of_ne_nil (l := r') (by rintro rfl; exact h1 rfl)
    by_cases hc : c = '-'
    · subst hc
      have key : ∀ o, (o = py"--help" ∨ o = py"--dump") → ¬ (partitionEq ('-' :: '-' :: r)).1 <+: o := by
        intro o ho hp
        have hlong : ∀ p, p <+: o → 3 ≤ p.length → LongOption p := by
          intro p hp h3
          rcases ho with rfl | rfl
          · exact ⟨p.length, h3, .inr (List.prefix_iff_eq_take.mp hp)⟩
          · exact ⟨p.length, h3, .inl (List.prefix_iff_eq_take.mp hp)⟩
        rcases partitionEq_cases ('-' :: '-' :: r) with ⟨_, e⟩ | ⟨p, v, _, e, e2⟩
        · rw [e] at hp
          refine hl (hlong _ hp ?_)
          cases r with
          | nil => exact absurd rfl h2
          | cons => simp
        · rw [e2] at hp
          match p, e, hp with
          | [], e, _ => simp at e
          | [a], e, _ => simp at e
          | [a, b], e, _ =>
            simp only [List.cons_append, List.nil_append, List.cons.injEq] at e
            obtain ⟨rfl, rfl, rfl⟩ := e
            exact hs (.inr (.inr (.inl ⟨v, rfl⟩)))
          | a :: b :: c :: p, e, hp => exact hs (.inr (.inr (.inr ⟨_, hlong _ hp (by simp), .inr ⟨v, e⟩⟩)))
      have key2 : ∀ c, ¬ (partitionEq ('-' :: '-' :: r)).1 <+: ['-', c] ∨ c = '-' := by
        intro c
        rcases Decidable.em (c = '-') with hc | hc
        · exact .inr hc
        · left
          intro hp
          rcases partitionEq_cases ('-' :: '-' :: r) with ⟨_, e⟩ | ⟨p, v, _, e, e2⟩
          · rw [e] at hp
            have := List.cons_prefix_cons.mp (List.cons_prefix_cons.mp hp).2
            exact hc this.1.symm
          · rw [e2] at hp
            match p, e, hp with
            | [], e, _ => simp at e
            | [a], e, _ => simp at e
            | a :: b :: p, e, hp =>
              simp only [List.cons_append, List.cons.injEq] at e
              obtain ⟨rfl, rfl, _⟩ := e
              have := List.cons_prefix_cons.mp (List.cons_prefix_cons.mp hp).2
              exact hc this.1.symm
      have n1 := key _ (.inl rfl)
      have n2 := key _ (.inr rfl)
      have n3 := (key2 'h').resolve_right (by decide)
      have n4 := (key2 'd').resolve_right (by decide)
      simp only [← List.isPrefixOf_iff_prefix] at n1 n2 n3 n4
      simp only [optionTuples, optionActions, List.filterMap_cons, List.filterMap_nil]
      simp only [n1, n2, n3, n4]
      rfl
    · have c1 : c ≠ 'd' := by rintro rfl; exact hs (.inl ⟨r, rfl⟩)
      have c2 : c ≠ 'h' := by rintro rfl; exact hs (.inr (.inl ⟨r, rfl⟩))
      simp [optionTuples, optionActions, hc, c1, c2, Ne.symm c1, Ne.symm c2]
  unfold parseOptional
  rw [if_neg (by rintro rfl; cases h0), if_neg (by rw [h0]; simp), k1]
  simp only
  rw [if_neg (by
    intro e
    match s, h0, e with
    | [c], h0, _ => simp at h0; subst h0; exact h1 rfl), k2, k3]
  cases (partitionEq s).2 <;> rfl

theorem negativeNumber_iff {u : Uni} {s : Str} : negativeNumber u s = true ↔ NegativeNumber u s := by
  have hnl : u.isDigit '\n' = false := u.digit_space _ (by decide)
  constructor
  · intro h
    unfold negativeNumber at h
    split at h
    · rename_i r
      have hr : ∃ t e, r = t ++ e ∧ (e = [] ∨ e = py"\n") ∧ (if r.getLast? = some '\n' then r.dropLast else r) = t := by
        split
        · rename_i hl
          refine ⟨r.dropLast, py"\n", ?_, .inr rfl, rfl⟩
          obtain ⟨ys, rfl⟩ := List.getLast?_eq_some_iff.mp hl
          simp
        · exact ⟨r, [], by simp, .inl rfl, rfl⟩
      obtain ⟨t, e, e1, he, e2⟩ := hr
      simp only [e2] at h
      rw [Bool.or_eq_true] at h
      rcases h with h | h
      · simp only [Bool.and_eq_true, decide_eq_true_eq, List.all_eq_true] at h
        exact ⟨t, [], e, by simp [e1], h.2, he, .inl ⟨rfl, h.1⟩⟩
      · simp only [List.any_eq_true, Bool.and_eq_true, decide_eq_true_eq, List.all_eq_true] at h
        obtain ⟨i, _, ⟨h1, h2⟩, h3, h4⟩ := h
        refine ⟨t.take i, '.' :: t.drop (i + 1), e, ?_, h2, he, .inr ⟨_, rfl, h3, h4⟩⟩
        obtain ⟨hi, h1⟩ := List.getElem?_eq_some_iff.mp h1
        rw [e1, ← List.append_assoc, ← h1, List.getElem_cons_drop, List.take_append_drop]
    · cases h
  · rintro ⟨a, b, e, rfl, ha, he, hb⟩
    have hlast : (a ++ b).getLast? ≠ some '\n' := by
      intro hl
      have hm : ∃ c, (a ++ b).getLast? = some c ∧ u.isDigit c = true := by
        rcases hb with ⟨rfl, hn⟩ | ⟨f, rfl, hn, hf⟩
        · rw [List.append_nil]
          exact ⟨_, List.getLast?_eq_some_getLast hn, ha _ (List.getLast_mem hn)⟩
        · refine ⟨f.getLast hn, ?_, hf _ (List.getLast_mem hn)⟩
          rw [List.getLast?_append, List.getLast?_cons, List.getLast?_eq_some_getLast hn]
          rfl
      obtain ⟨c, h1, h2⟩ := hm
      rw [hl] at h1
      cases h1
      rw [hnl] at h2
      cases h2
    have e2 : (if (a ++ (b ++ e)).getLast? = some '\n' then (a ++ (b ++ e)).dropLast else a ++ (b ++ e)) = a ++ b := by
      rcases he with rfl | rfl
      · rw [List.append_nil, if_neg hlast]
      · rw [← List.append_assoc, if_pos (by simp), List.dropLast_concat]
    simp only [negativeNumber, e2]
    rw [Bool.or_eq_true]
    rcases hb with ⟨rfl, hn⟩ | ⟨f, rfl, hn, hf⟩
    · left
      simpa [hn] using ha
    · right
      rw [List.any_eq_true]
      refine ⟨a.length, by simp, ?_⟩
      have h1 : (a ++ '.' :: f)[a.length]? = some '.' := by simp
      have h2 : (a ++ '.' :: f).take a.length = a := by simp
      have h3 : (a ++ '.' :: f).drop (a.length + 1) = f := by simp
      simp only [h1, h2, h3, Bool.and_eq_true, decide_eq_true_eq, List.all_eq_true]
      exact ⟨⟨trivial, ha⟩, hn, hf⟩

theorem parse_file {u : Uni} {s : Str} (h : FileWord u s) : parseOptional u s = .ok none := by
  by_cases h0 : s.head? = some '-'
  · by_cases h1 : s = py"-"
    · subst h1; rfl
    · obtain ⟨hn, hs, h2⟩ := (h.resolve_left (fun k => k h0)).resolve_left h1
      rw [parse_unknown h0 h1 h2 hs, if_pos (hn.imp negativeNumber_iff.mpr id)]
  · unfold parseOptional
    split
    · rfl
    · rfl

theorem file_not_dashes {u : Uni} {s : Str} (h : FileWord u s) : s ≠ py"--" := by
  rintro rfl
  rcases h with h | h | h
  · exact h rfl
  · cases h
  · exact h.2.2 rfl

theorem take_cases {s : Str} (hs : s.length = 6) {k : Nat} (hk : 3 ≤ k) : s.take k = s.take 3 ∨ s.take k = s.take 4 ∨ s.take k = s.take 5 ∨ s.take k = s := by
  match k, hk with
  | 3, _ => exact .inl rfl
  | 4, _ => exact .inr (.inl rfl)
  | 5, _ => exact .inr (.inr (.inl rfl))
  | k + 6, _ => exact .inr (.inr (.inr (List.take_of_length_le (by omega))))

theorem parse_dump {u : Uni} {s : Str} (h : DumpWord s) :
    ∃ t as, parseOptional u s = .ok (some t) ∧ expandOption s t = some (as, none) ∧ .help ∉ as ∧ as.contains .dump = true := by
  rcases h with ⟨n, rfl⟩ | ⟨k, hk, rfl⟩
  · have hl : ∀ c ∈ 'd' :: List.replicate n 'd', c = 'd' ∨ c = 'h' := by
      intro c hc
      rcases List.mem_cons.mp hc with rfl | hc
      · exact .inl rfl
      · exact .inl (List.eq_of_mem_replicate hc)
    obtain ⟨t, h1, h2⟩ := letters_outcome (u := u) (r := []) hl (by simp) (by simp)
    rw [List.append_nil] at h1 h2
    refine ⟨t, _, h1, h2, ?_, ?_⟩
    · simp [letterOption]
    · simp [letterOption]
  · rcases take_cases (s := py"--dump") rfl hk with e | e | e | e <;> rw [e] <;> exact ⟨_, _, rfl, rfl, by decide, rfl⟩

theorem dump_not_dashes {s : Str} (h : DumpWord s) : s ≠ py"--" := by
  rintro rfl
  rcases h with ⟨n, h⟩ | ⟨k, hk, h⟩
  · cases h
  · have := congrArg List.length h
    simp at this
    omega

theorem letters_split (s : Str) : ∃ l r, s = l ++ r ∧ (∀ c ∈ l, c = 'd' ∨ c = 'h') ∧ ∀ c, r.head? = some c → c ∉ py"dh" := by
  induction s with
  | nil => exact ⟨[], [], rfl, by simp, by simp⟩
  | cons x s ih =>
    by_cases hx : x = 'd' ∨ x = 'h'
    · obtain ⟨l, r, rfl, hl, hr⟩ := ih
      refine ⟨x :: l, r, rfl, ?_, hr⟩
      intro c hc
      rcases List.mem_cons.mp hc with rfl | hc
      · exact hx
      · exact hl c hc
    · refine ⟨[], x :: s, rfl, by simp, ?_⟩
      intro c hc
      simp only [List.head?_cons, Option.some.injEq] at hc
      subst hc
      simpa using hx

theorem parse_help {u : Uni} {s : Str} (h : HelpWord s) :
    ∃ t as e, parseOptional u s = .ok (some t) ∧ expandOption s t = some (as, e) ∧ .help ∈ as := by
  rcases h with ⟨l, r, rfl, ⟨hl, hr⟩, hh⟩ | ⟨k, hk, rfl⟩
  · obtain ⟨t, h1, h2⟩ := letters_outcome (u := u) hl (by rintro rfl; cases hh) (fun c hc => by
      have := hr c hc
      simp only [List.mem_cons, not_or] at this ⊢
      exact ⟨this.1, this.2.1, by simp⟩)
    have hm : CliOption.help ∈ l.map letterOption := List.mem_map.mpr ⟨'h', hh, rfl⟩
    by_cases h0 : r = []
    · rw [if_pos h0] at h2
      exact ⟨t, _, _, h1, h2, hm⟩
    · rw [if_neg h0, if_neg (by
        rintro (e | e)
        · exact hr _ e (by simp)
        · exact hr _ e (by simp))] at h2
      exact ⟨t, _, _, h1, h2, hm⟩
  · rcases take_cases (s := py"--help") rfl hk with e | e | e | e <;> rw [e] <;> exact ⟨_, _, _, rfl, rfl, by decide⟩

theorem parse_refused {u : Uni} {s : Str} (h : RefusedWord s) :
    ∃ t, parseOptional u s = .ok (some t) ∧ expandOption s t = none := by
  rcases h with ⟨l, c, r, rfl, hn, hl, hc⟩ | ⟨p, v, rfl, hp⟩
  · obtain ⟨t, h1, h2⟩ := letters_outcome (u := u) (r := c :: r) hl hn (fun x hx => by
      simp only [List.head?_cons, Option.some.injEq] at hx
      subst hx
      rcases hc with rfl | rfl <;> decide)
    rw [if_neg (by simp), if_pos (by simpa using hc)] at h2
    exact ⟨t, h1, h2⟩
  · exact long_refused hp

/-- A word that is neither a file name nor an option that the program has. -/
def Stray (u : Uni) (s : Str) : Prop :=
  ∃ t as e, parseOptional u s = .ok (some t) ∧ expandOption s t = some (as, some e) ∧ .help ∉ as

theorem word_cases (u : Uni) {s : Str} (h : s ≠ py"--") :
    FileWord u s ∨ DumpWord s ∨ HelpWord s ∨ RefusedWord s ∨ AmbiguousWord s ∨ Stray u s := by
  by_cases h0 : s.head? = some '-'
  · by_cases h1 : s = py"-"
    · exact .inl (.inr (.inl h1))
    · by_cases hd : py"-d" <+: s ∨ py"-h" <+: s
      · obtain ⟨x, v, hx, rfl⟩ : ∃ x v, (x = 'd' ∨ x = 'h') ∧ s = '-' :: x :: v := by
          rcases hd with ⟨v, rfl⟩ | ⟨v, rfl⟩
          · exact ⟨_, v, .inl rfl, rfl⟩
          · exact ⟨_, v, .inr rfl, rfl⟩
        obtain ⟨l, r, e, hl, hr⟩ := letters_split (x :: v)
        have hn : l ≠ [] := by
          rintro rfl
          rw [List.nil_append] at e
          subst e
          exact hr x rfl (by simpa using hx)
        rw [e]
        by_cases hq : r.head? = some '=' ∨ r.head? = some '-'
        · obtain ⟨c, r', rfl⟩ := List.exists_cons_of_ne_nil (l := r) (by rintro rfl; simp at hq)
          exact .inr (.inr (.inr (.inl (.inl ⟨l, c, r', rfl, hn, hl, by simpa using hq⟩))))
        · by_cases hh : 'h' ∈ l
          · refine .inr (.inr (.inl (.inl ⟨l, r, rfl, ⟨hl, ?_⟩, hh⟩)))
            intro c hc
            have := hr c hc
            rw [hc] at hq
            simp only [List.mem_cons, List.not_mem_nil, or_false, not_or, Option.some.injEq] at this hq ⊢
            exact ⟨this.1, this.2, hq.1, hq.2⟩
          · by_cases hr0 : r = []
            · subst hr0
              refine .inr (.inl (.inl ?_))
              have hall : ∀ c ∈ l, c = 'd' := fun c hc => (hl c hc).resolve_right (by rintro rfl; exact hh hc)
              have : l = List.replicate l.length 'd' := List.eq_replicate_iff.mpr ⟨rfl, hall⟩
              obtain ⟨n, hn⟩ : ∃ n, l.length = n + 1 := ⟨l.length - 1, by have := List.length_pos_iff.mpr hn; omega⟩
              rw [hn] at this
              exact ⟨n, by rw [List.append_nil, this]; rfl⟩
            · obtain ⟨t, h2, h3⟩ := letters_outcome (u := u) hl hn hr
              rw [if_neg hr0, if_neg hq] at h3
              refine .inr (.inr (.inr (.inr (.inr ⟨t, _, _, h2, h3, ?_⟩))))
              intro hm
              obtain ⟨c, hc, hc2⟩ := List.mem_map.mp hm
              unfold letterOption at hc2
              split at hc2
              · rename_i e
                subst e
                exact hh hc
              · cases hc2
      · by_cases ha : AmbiguousWord s
        · exact .inr (.inr (.inr (.inr (.inl ha))))
        · by_cases hs : OptionStart s
          · rcases hs with k | k | k | ⟨p, hp, k | ⟨v, k⟩⟩
            · exact absurd (.inl k) hd
            · exact absurd (.inr k) hd
            · exact absurd k ha
            · subst k
              obtain ⟨k, hk, e | e⟩ := hp
              · exact .inr (.inl (.inr ⟨k, hk, e⟩))
              · exact .inr (.inr (.inl (.inr ⟨k, hk, e⟩)))
            · exact .inr (.inr (.inr (.inl (.inr ⟨p, v, k, hp⟩))))
          · by_cases hn : NegativeNumber u s ∨ ' ' ∈ s
            · exact .inl (.inr (.inr ⟨hn, hs, h⟩))
            · refine .inr (.inr (.inr (.inr (.inr ⟨⟨none, s, none, none⟩, [], s, ?_, rfl, by simp⟩))))
              have hn2 : ¬ (negativeNumber u s = true ∨ ' ' ∈ s) := fun k => hn (k.imp negativeNumber_iff.mp id)
              rw [parse_unknown h0 h1 h hs, if_neg hn2]
  · exact .inl (.inl h0)

/-! ### Command lines -/

theorem slots_names (u : Uni) (l : List Str) : slots u (py"--" :: l) = .ok (.dashes :: l.map .arg) := rfl

theorem slots_file {u : Uni} {s : Str} {argv : List Str} {l : List Slot} (h : FileWord u s) (hl : slots u argv = .ok l) :
    slots u (s :: argv) = .ok (.arg s :: l) := by
  rw [slots, if_neg (file_not_dashes h), parse_file h]
  simp only [hl]

theorem slots_option {u : Uni} {s : Str} {t : OptionTuple} {argv : List Str} {l : List Slot} (hs : s ≠ py"--")
    (h : parseOptional u s = .ok (some t)) (hl : slots u argv = .ok l) : slots u (s :: argv) = .ok (.option s t :: l) := by
  rw [slots, if_neg hs, h]
  simp only [hl]

theorem slots_cons {u : Uni} {s : Str} {argv : List Str} {l : List Slot} (hs : s ≠ py"--") (h : slots u (s :: argv) = .ok l) :
    ∃ o l', parseOptional u s = .ok o ∧ slots u argv = .ok l' ∧ l = (match o with
      | none => .arg s
      | some t => .option s t) :: l' := by
  rw [slots, if_neg hs] at h
  cases hp : parseOptional u s with
  | error => rw [hp] at h; cases h
  | ok o =>
    rw [hp] at h
    cases ho : slots u argv with
    | error => simp only [ho] at h; cases h
    | ok l' =>
      simp only [ho] at h
      injection h with h
      exact ⟨o, l', rfl, rfl, h.symm⟩

theorem posValue_one {s : Str} (h : s ≠ py"--") : posValue [s] = .str s := by
  have h' : (s == py"--") = false := by simpa using h
  simp [posValue, h']

theorem posValue_before (s : Str) : posValue [py"--", s] = .str s := by simp [posValue]

theorem posValue_after {s : Str} (h : s ≠ py"--") : posValue [s, py"--"] = .str s := by
  have h' : (s == py"--") = false := by simpa using h
  simp [posValue, h']

theorem matchOne_arg {s : Str} {l : List Slot} (h : l.head? ≠ some .dashes) : matchOne (.arg s :: l) = some ([s], l) := by
  cases l with
  | nil => rfl
  | cons x l =>
    have hx : x ≠ .dashes := by simpa using h
    simp [matchOne, hx]

theorem matchOne_arg_dashes {s : Str} {l : List Str} :
    matchOne (.arg s :: .dashes :: l.map .arg) = some ([s, py"--"], l.map .arg) := by
  cases l <;> simp [matchOne, Slot.text]

theorem matchOne_dashes_arg {s : Str} {l : List Str} :
    matchOne (.dashes :: .arg s :: l.map .arg) = some ([py"--", s], l.map .arg) := by
  cases l <;> simp [matchOne, Slot.text]

theorem matchOne_name {s : Str} {l : List Str} : matchOne (.arg s :: l.map .arg) = some ([s], l.map .arg) := by
  apply matchOne_arg
  cases l <;> simp

/-- With anything left over, the arguments are refused. -/
theorem scan_extras (n : Nat) (st : ArgState) (l : List Slot) (hn : l.length ≤ n) (h : st.extras ≠ []) (s d : PosValue) (b : Bool) :
    scan st l ≠ .ok s d b := by
  induction n generalizing st l with
  | zero =>
    have : l = [] := List.length_eq_zero_iff.mp (by omega)
    subst this
    rw [scan_nil]
    split
    · rename_i e; exact absurd e h
    · simp
  | succ n ih =>
    cases l with
    | nil =>
      rw [scan_nil]
      split
      · rename_i e; exact absurd e h
      · simp
    | cons x l =>
      simp only [List.length_cons] at hn
      cases hx : x.isOption with
      | true =>
        cases x with
        | arg => cases hx
        | dashes => cases hx
        | option w t =>
          rw [scan_option]
          split
          · simp
          · split
            · simp
            · exact ih _ _ (by omega) (by simp [h])
      | false =>
        by_cases hm : st.left = 0 ∨ matchOne (x :: l) = none
        · rw [scan_extra hx hm]
          exact ih _ _ (by omega) (by simp)
        · obtain ⟨h1, h2⟩ := not_or.mp hm
          obtain ⟨y, hy⟩ := Option.ne_none_iff_exists'.mp h2
          obtain ⟨w, r⟩ := y
          have := matchOne_length hy
          simp only [List.length_cons] at this
          rw [scan_match h1 (by simp [hx]) hy]
          exact ih _ _ (by omega) h

theorem scan_extra_ne {st : ArgState} {x : Slot} {l : List Slot} (hx : x.isOption = false)
    (h : st.left = 0 ∨ matchOne (x :: l) = none) (s d : PosValue) (b : Bool) : scan st (x :: l) ≠ .ok s d b := by
  rw [scan_extra hx h]
  exact scan_extras _ _ _ (Nat.le_refl _) (by simp) _ _ _

/-- The values of the file names after `--`. -/
theorem scan_names (l : List Str) (st : ArgState) (h : st.left = l.length) (hv : st.values.length + st.left = 2) (he : st.extras = []) :
    ∃ s d, st.values ++ l.map (fun s => posValue [s]) = [s, d] ∧ scan st (l.map .arg) = .ok s d st.dump := by
  induction l generalizing st with
  | nil =>
    obtain ⟨vs, left, dump, ex⟩ := st
    simp only [List.length_nil] at h hv he
    subst h he
    match vs, hv with
    | [s, d], _ => exact ⟨s, d, rfl, by rw [List.map_nil, scan_nil]; rfl⟩
  | cons n l ih =>
    simp only [List.length_cons] at h
    have hs : scan st ((n :: l).map .arg) = scan (push st [n]) (l.map .arg) := by
      rw [List.map_cons, scan_match (by omega) (by simp [Slot.isOption]) matchOne_name]
    obtain ⟨s, d, h1, h2⟩ := ih (push st [n]) (by simp [push]; omega) (by simp [push]; omega) he
    exact ⟨s, d, by rw [← h1]; simp [push], hs.trans h2⟩

theorem scan_names_only (l : List Str) (st : ArgState) {s d : PosValue} {b : Bool} (h : scan st (l.map .arg) = .ok s d b) :
    l.length = st.left := by
  induction l generalizing st with
  | nil =>
    rw [List.map_nil, scan_nil] at h
    split at h
    · rename_i e _; simp [e]
    · cases h
  | cons n l ih =>
    by_cases h0 : st.left = 0
    · exact absurd h (scan_extra_ne rfl (.inl h0) _ _ _)
    · rw [List.map_cons, scan_match h0 (by simp [Slot.isOption]) matchOne_name] at h
      have := ih _ h
      simp only [push] at this
      simp only [List.length_cons]
      omega

/-- How a value stands for a file name. -/
def Stands (v : PosValue) (s : Str) : Prop := s ≠ py"--" → v = .str s

theorem stands_one (s : Str) : Stands (posValue [s]) s := posValue_one

theorem slots_dashes_head {u : Uni} {before : List CommandWord} {after : Option (List Str)} (hok : ∀ w ∈ before, w.Ok u)
    {l : List Slot} (hb : before = [] → after = none)
    (h : slots u (CommandLine.src ⟨before, after⟩) = .ok l) : l.head? ≠ some .dashes := by
  cases before with
  | nil =>
    rw [hb rfl] at h
    simp only [CommandLine.src, List.map_nil, List.append_nil, slots, Except.ok.injEq] at h
    subst h
    simp
  | cons w ws =>
    have hw := hok w (.head _)
    simp only [CommandLine.src, List.map_cons, List.cons_append] at h
    cases w with
    | file s =>
      obtain ⟨o, l', hp, _, rfl⟩ := slots_cons (file_not_dashes hw) h
      rw [parse_file hw] at hp
      cases hp
      simp
    | dump s =>
      obtain ⟨o, l', hp, _, rfl⟩ := slots_cons (dump_not_dashes hw) h
      obtain ⟨t, _, hp2, _⟩ := parse_dump (u := u) hw
      rw [hp2] at hp
      cases hp
      simp

theorem dumps_file {s : Str} {ws : List CommandWord} {a : Option (List Str)} :
    CommandLine.dumps ⟨.file s :: ws, a⟩ ↔ CommandLine.dumps ⟨ws, a⟩ := by
  simp [CommandLine.dumps]

theorem dumps_dump {s : Str} {ws : List CommandWord} {a : Option (List Str)} : CommandLine.dumps ⟨.dump s :: ws, a⟩ :=
  ⟨s, .head _⟩

theorem idle_cons {w : CommandWord} {ws : List CommandWord} {a : Option (List Str)} (h : ¬ CommandLine.Idle ⟨w :: ws, a⟩) :
    ¬ CommandLine.Idle ⟨ws, a⟩ := by
  rintro ⟨h1, s, h2⟩
  refine h ⟨h1, s, ?_⟩
  simp only at h2 ⊢
  rw [List.getLast?_cons, h2]
  rfl

/-- The values of the file names of a line. -/
def lineValues : List CommandWord → Option (List Str) → List PosValue
  | [], none => []
  | [], some [] => []
  | [], some (n :: ns) => .str n :: ns.map (fun s => posValue [s])
  | [.file s], a => .str s :: (a.getD []).map (fun s => posValue [s])
  | .file s :: w :: ws, a => .str s :: lineValues (w :: ws) a
  | .dump _ :: ws, a => lineValues ws a

def StandAll : List PosValue → List Str → Prop
  | [], [] => True
  | v :: vs, s :: l => Stands v s ∧ StandAll vs l
  | _, _ => False

theorem forall_stands : ∀ (l : List Str), StandAll (l.map (fun s => posValue [s])) l
  | [] => trivial
  | s :: l => ⟨stands_one s, forall_stands l⟩

theorem lineValues_stands (ws : List CommandWord) (a : Option (List Str)) :
    StandAll (lineValues ws a) (CommandLine.files ⟨ws, a⟩) := by
  induction ws with
  | nil =>
    match a with
    | none => trivial
    | some [] => trivial
    | some (n :: ns) => exact ⟨fun _ => rfl, forall_stands ns⟩
  | cons w ws ih =>
    cases w with
    | dump s => exact ih
    | file s =>
      cases ws with
      | nil => rw [lineValues]; exact ⟨fun _ => rfl, forall_stands _⟩
      | cons w ws => rw [lineValues]; exact ⟨fun _ => rfl, ih⟩

theorem lineValues_head (ws : List CommandWord) (a : Option (List Str)) {v : PosValue} (h : (lineValues ws a).head? = some v) :
    ∃ s, v = .str s ∧ (CommandLine.files ⟨ws, a⟩).head? = some s := by
  induction ws with
  | nil =>
    match a with
    | none => cases h
    | some [] => cases h
    | some (n :: ns) => cases h; exact ⟨n, rfl, rfl⟩
  | cons w ws ih =>
    cases w with
    | dump s => exact ih h
    | file s =>
      cases ws with
      | nil => rw [lineValues] at h; cases h; exact ⟨s, rfl, rfl⟩
      | cons w ws => rw [lineValues] at h; cases h; exact ⟨s, rfl, rfl⟩

theorem src_cons (w : CommandWord) (ws : List CommandWord) (a : Option (List Str)) :
    CommandLine.src ⟨w :: ws, a⟩ = w.src :: CommandLine.src ⟨ws, a⟩ := rfl

/-- The scan of a good command line. -/
theorem scan_line {u : Uni} (before : List CommandWord) (after : Option (List Str)) (st : ArgState)
    (hok : ∀ w ∈ before, w.Ok u) (hi : ¬ CommandLine.Idle ⟨before, after⟩) (hb : before = [] → after ≠ some [])
    (hl : st.left = (CommandLine.files ⟨before, after⟩).length) (hv : st.values.length + st.left = 2) (he : st.extras = []) :
    ∃ l s d dump, slots u (CommandLine.src ⟨before, after⟩) = .ok l ∧ scan st l = .ok s d dump ∧
      st.values ++ lineValues before after = [s, d] ∧ (dump = true ↔ st.dump = true ∨ CommandLine.dumps ⟨before, after⟩) := by
  induction before generalizing st with
  | nil =>
    have hd : ¬ CommandLine.dumps ⟨[], after⟩ := by simp [CommandLine.dumps]
    match after with
    | none =>
      obtain ⟨s, d, h1, h2⟩ := scan_names [] st hl hv he
      exact ⟨[], s, d, _, rfl, h2, h1, by simp [hd]⟩
    | some [] => exact absurd rfl (hb rfl)
    | some (n :: ns) =>
      simp only [CommandLine.files, List.filterMap_nil, List.nil_append, Option.getD_some, List.length_cons] at hl
      obtain ⟨s, d, h1, h2⟩ := scan_names ns (push st [py"--", n]) (by simp [push]; omega) (by simp [push]; omega) he
      refine ⟨_, s, d, st.dump, slots_names u (n :: ns), ?_, ?_, by simp [hd]⟩
      · rw [List.map_cons, scan_match (by omega) (by simp [Slot.isOption]) matchOne_dashes_arg]
        exact h2
      · rw [← h1]
        simp [push, lineValues, posValue_before]
  | cons w ws ih =>
    have hw := hok w (.head _)
    have hok' : ∀ w ∈ ws, w.Ok u := fun w h => hok w (.tail _ h)
    cases w with
    | dump s =>
      obtain ⟨t, as, hp, hx, hh, hd⟩ := parse_dump (u := u) hw
      obtain ⟨l, v1, v2, dump, h1, h2, h3, h4⟩ := ih { st with dump := true } hok' (idle_cons hi) (by
        rintro rfl rfl
        exact hi ⟨rfl, s, rfl⟩) hl hv he
      refine ⟨_, v1, v2, dump, slots_option (dump_not_dashes hw) hp h1, ?_, h3, ?_⟩
      · rw [scan_option]
        simp only [CommandWord.src, hx]
        rw [if_neg hh, ← h2, hd]
        simp
      · rw [h4]
        simp [dumps_dump]
    | file s =>
      have hn := file_not_dashes hw
      have hl' : st.left = (CommandLine.files ⟨ws, after⟩).length + 1 := hl
      by_cases hspec : ws = [] ∧ ∃ names, after = some names
      · obtain ⟨rfl, names, rfl⟩ := hspec
        have hl2 : st.left = names.length + 1 := hl'
        obtain ⟨v1, v2, h1, h2⟩ := scan_names names (push st [s, py"--"]) (by simp [push]; omega) (by simp [push]; omega) he
        refine ⟨_, v1, v2, st.dump, slots_file hw (slots_names u names), ?_, ?_, ?_⟩
        · rw [scan_match (by omega) (by simp [Slot.isOption]) matchOne_arg_dashes]
          exact h2
        · rw [← h1]
          simp [push, lineValues, posValue_after hn]
        · simp [CommandLine.dumps]
      · have hnone : ws = [] → after = none := by
          intro h
          cases after with
          | none => rfl
          | some names => exact absurd ⟨h, names, rfl⟩ hspec
        obtain ⟨l, v1, v2, dump, h1, h2, h3, h4⟩ := ih (push st [s]) hok' (idle_cons hi) (by
          intro h; rw [hnone h]; simp) (by simp [push]; omega) (by simp [push]; omega) he
        refine ⟨_, v1, v2, dump, slots_file hw h1, ?_, ?_, ?_⟩
        · rw [scan_match (by omega) (by simp [Slot.isOption]) (matchOne_arg (slots_dashes_head hok' hnone h1))]
          exact h2
        · rw [← h3]
          simp only [push, posValue_one hn, List.append_assoc, List.singleton_append]
          cases ws with
          | nil => rw [hnone rfl]; rfl
          | cons w ws => rfl
        · rw [h4, dumps_file]
          rfl

/-- Only good command lines are accepted. -/
theorem scan_only {u : Uni} (n : Nat) (argv : List Str) (st : ArgState) (l : List Slot) (hn : argv.length ≤ n)
    (hl : slots u argv = .ok l) {s d : PosValue} {b : Bool} (h : scan st l = .ok s d b) :
    ∃ c : CommandLine, c.Ok u ∧ c.src = argv ∧ c.files.length = st.left ∧ ¬ c.Idle ∧ (c.before = [] → c.after ≠ some []) := by
  induction n generalizing argv st l with
  | zero =>
    have : argv = [] := List.length_eq_zero_iff.mp (by omega)
    subst this
    cases hl
    have := scan_names_only [] st h
    exact ⟨⟨[], none⟩, by simp [CommandLine.Ok], rfl, this, by simp [CommandLine.Idle], by simp⟩
  | succ n ih =>
    cases argv with
    | nil =>
      cases hl
      have := scan_names_only [] st h
      exact ⟨⟨[], none⟩, by simp [CommandLine.Ok], rfl, this, by simp [CommandLine.Idle], by simp⟩
    | cons w argv =>
      simp only [List.length_cons] at hn
      by_cases hw : w = py"--"
      · subst hw
        rw [slots_names] at hl
        injection hl with hl
        subst hl
        cases argv with
        | nil => exact absurd h (scan_extra_ne rfl (.inr rfl) _ _ _)
        | cons a argv =>
          by_cases h0 : st.left = 0
          · exact absurd h (scan_extra_ne rfl (.inl h0) _ _ _)
          · rw [List.map_cons, scan_match h0 (by simp [Slot.isOption]) matchOne_dashes_arg] at h
            have := scan_names_only _ _ h
            refine ⟨⟨[], some (a :: argv)⟩, by simp [CommandLine.Ok], rfl, ?_, by simp [CommandLine.Idle], by simp⟩
            simp only [push] at this
            simp only [CommandLine.files, List.filterMap_nil, List.nil_append, Option.getD_some, List.length_cons]
            omega
      · obtain ⟨o, l', hp, hl', rfl⟩ := slots_cons hw hl
        rcases word_cases u hw with k | k | k | k | k | k
        · rw [parse_file k] at hp
          cases hp
          by_cases h0 : st.left = 0
          · exact absurd h (scan_extra_ne rfl (.inl h0) _ _ _)
          · cases argv with
            | nil =>
              cases hl'
              rw [scan_match h0 (by simp [Slot.isOption]) (matchOne_arg (by simp))] at h
              have := scan_names_only [] _ h
              simp only [push, List.length_nil] at this
              refine ⟨⟨[.file w], none⟩, by simpa [CommandLine.Ok, CommandWord.Ok] using k, rfl, ?_, by simp [CommandLine.Idle], by simp⟩
              simp [CommandLine.files, CommandWord.file?]
              omega
            | cons a argv =>
              by_cases ha : a = py"--"
              · subst ha
                rw [slots_names] at hl'
                injection hl' with hl'
                subst hl'
                rw [scan_match h0 (by simp [Slot.isOption]) matchOne_arg_dashes] at h
                have := scan_names_only _ _ h
                simp only [push] at this
                refine ⟨⟨[.file w], some argv⟩, by simpa [CommandLine.Ok, CommandWord.Ok] using k, rfl, ?_, by simp [CommandLine.Idle], by simp⟩
                simp [CommandLine.files, CommandWord.file?]
                omega
              · obtain ⟨o, l2, _, _, rfl⟩ := slots_cons ha hl'
                rw [scan_match h0 (by simp [Slot.isOption]) (matchOne_arg (by cases o <;> simp))] at h
                obtain ⟨c, c1, c2, c3, c4, c5⟩ := ih _ _ _ (by omega) hl' h
                simp only [push] at c3
                refine ⟨⟨.file w :: c.before, c.after⟩, ?_, ?_, ?_, ?_, by simp⟩
                · intro x hx
                  rcases List.mem_cons.mp hx with rfl | hx
                  · exact k
                  · exact c1 x hx
                · rw [src_cons, c2]; rfl
                · have : (CommandLine.files ⟨.file w :: c.before, c.after⟩).length = c.files.length + 1 := rfl
                  omega
                · rintro ⟨h1, x, h2⟩
                  refine c4 ⟨h1, x, ?_⟩
                  simp only [List.getLast?_cons, Option.some.injEq] at h2
                  cases hg : c.before.getLast? with
                  | none => rw [hg] at h2; cases h2
                  | some y => rw [hg] at h2; cases h2; rfl
        · obtain ⟨t, as, hp2, hx, hh, hd⟩ := parse_dump (u := u) k
          rw [hp2] at hp
          cases hp
          rw [scan_option] at h
          simp only [hx] at h
          rw [if_neg hh] at h
          obtain ⟨c, c1, c2, c3, c4, c5⟩ := ih _ _ _ (by omega) hl' h
          refine ⟨⟨.dump w :: c.before, c.after⟩, ?_, ?_, c3, ?_, by simp⟩
          · intro x hx
            rcases List.mem_cons.mp hx with rfl | hx
            · exact k
            · exact c1 x hx
          · rw [src_cons, c2]; rfl
          · rintro ⟨h1, x, h2⟩
            cases hb : c.before with
            | nil => exact c5 hb h1
            | cons y ys =>
              refine c4 ⟨h1, x, ?_⟩
              rw [← h2, hb]
              rfl
        · obtain ⟨t, as, e, hp2, hx, hh⟩ := parse_help (u := u) k
          rw [hp2] at hp
          cases hp
          rw [scan_option] at h
          simp only [hx] at h
          rw [if_pos hh] at h
          cases h
        · obtain ⟨t, hp2, hx⟩ := parse_refused (u := u) k
          rw [hp2] at hp
          cases hp
          rw [scan_option] at h
          simp only [hx] at h
          cases h
        · rw [ambiguous_error k] at hp
          cases hp
        · obtain ⟨t, as, e, hp2, hx, hh⟩ := k
          rw [hp2] at hp
          cases hp
          rw [scan_option] at h
          simp only [hx] at h
          rw [if_neg hh] at h
          exact absurd h (scan_extras _ _ _ (Nat.le_refl _) (by simp) _ _ _)

/-! ### Help -/

def Slot.helps : Slot → Prop
  | .option s t => ∃ as e, expandOption s t = some (as, e) ∧ .help ∈ as
  | _ => False

def Slot.refused : Slot → Prop
  | .option s t => expandOption s t = none
  | _ => False

theorem not_helps {x : Slot} (h : x.isOption = false) : ¬ x.helps := by
  cases x <;> simp [Slot.helps, Slot.isOption] at h ⊢

theorem not_refused {x : Slot} (h : x.isOption = false) : ¬ x.refused := by
  cases x <;> simp [Slot.refused, Slot.isOption] at h ⊢

/-- A slot asks for help and none before it ends the program. -/
def Helps : List Slot → Prop
  | [] => False
  | x :: l => x.helps ∨ (¬ x.refused ∧ Helps l)

theorem helps_append {a l : List Slot} (h : ∀ x ∈ a, x.isOption = false) : Helps (a ++ l) ↔ Helps l := by
  induction a with
  | nil => rfl
  | cons x a ih =>
    rw [List.cons_append, Helps, ih (fun y hy => h y (.tail _ hy))]
    simp [not_helps (h x (.head _)), not_refused (h x (.head _))]

theorem scan_help (n : Nat) (st : ArgState) (l : List Slot) (hn : l.length ≤ n) : scan st l = .help ↔ Helps l := by
  have hnil : ∀ st, ¬ scan st [] = .help := by
    intro st
    rw [scan_nil]
    split <;> simp
  induction n generalizing st l with
  | zero =>
    have : l = [] := List.length_eq_zero_iff.mp (by omega)
    subst this
    simp [hnil, Helps]
  | succ n ih =>
    cases l with
    | nil => simp [hnil, Helps]
    | cons x l =>
      simp only [List.length_cons] at hn
      cases hx : x.isOption with
      | true =>
        cases x with
        | arg => cases hx
        | dashes => cases hx
        | option w t =>
          rw [scan_option, Helps]
          cases he : expandOption w t with
          | none => simp [Slot.helps, Slot.refused, he]
          | some y =>
            obtain ⟨as, e⟩ := y
            simp only
            by_cases hh : .help ∈ as
            · simp [hh, Slot.helps, he]
            · rw [if_neg hh]
              refine (ih _ l (by omega)).trans ?_
              simp [Slot.helps, Slot.refused, he, hh]
      | false =>
        by_cases hm : st.left = 0 ∨ matchOne (x :: l) = none
        · rw [scan_extra hx hm, Helps]
          refine (ih _ l (by omega)).trans ?_
          simp [not_helps hx, not_refused hx]
        · obtain ⟨h1, h2⟩ := not_or.mp hm
          obtain ⟨y, hy⟩ := Option.ne_none_iff_exists'.mp h2
          obtain ⟨w, r⟩ := y
          have := matchOne_length hy
          simp only [List.length_cons] at this
          obtain ⟨a, ea, ha⟩ := matchOne_parts hy
          rw [scan_match h1 (by simp [hx]) hy, ea, helps_append ha]
          exact ih _ r (by omega)

/-- The words before `--`. -/
def beforeDashes (argv : List Str) : List Str := argv.takeWhile (· ≠ py"--")

theorem slots_ok {u : Uni} {argv : List Str} : (∃ l, slots u argv = .ok l) ↔ ∀ s ∈ beforeDashes argv, ¬ AmbiguousWord s := by
  induction argv with
  | nil => simp [slots, beforeDashes]
  | cons w argv ih =>
    by_cases hw : w = py"--"
    · subst hw
      simp [slots, beforeDashes]
    · have e : beforeDashes (w :: argv) = w :: beforeDashes argv := by simp [beforeDashes, hw]
      rw [e, List.forall_mem_cons, ← ih]
      constructor
      · rintro ⟨l, h⟩
        obtain ⟨o, l', hp, hl, _⟩ := slots_cons hw h
        refine ⟨fun k => ?_, l', hl⟩
        rw [ambiguous_error k] at hp
        cases hp
      · rintro ⟨h1, l, h2⟩
        rcases word_cases u hw with k | k | k | k | k | k
        · exact ⟨_, slots_file k h2⟩
        · obtain ⟨t, as, hp2, _⟩ := parse_dump (u := u) k
          exact ⟨_, slots_option hw hp2 h2⟩
        · obtain ⟨t, as, e, hp2, _⟩ := parse_help (u := u) k
          exact ⟨_, slots_option hw hp2 h2⟩
        · obtain ⟨t, hp2, _⟩ := parse_refused (u := u) k
          exact ⟨_, slots_option hw hp2 h2⟩
        · exact absurd k h1
        · obtain ⟨t, as, e, hp2, _⟩ := k
          exact ⟨_, slots_option hw hp2 h2⟩

theorem help_not_dashes {s : Str} (h : HelpWord s) : s ≠ py"--" := by
  rintro rfl
  obtain ⟨t, as, e, hp, hx, hh⟩ := parse_help (u := asciiUni) h
  have : parseOptional asciiUni py"--" = .error () := rfl
  rw [this] at hp
  cases hp

/-- A slot and its word. -/
theorem slot_help {u : Uni} {s : Str} {o : Option OptionTuple} (hs : s ≠ py"--") (hp : parseOptional u s = .ok o) :
    ((match o with
      | none => Slot.arg s
      | some t => .option s t).helps ↔ HelpWord s) ∧
    ((match o with
      | none => Slot.arg s
      | some t => .option s t).refused ↔ RefusedWord s) := by
  have help2 : HelpWord s → ∃ t as e, o = some t ∧ expandOption s t = some (as, e) ∧ .help ∈ as := by
    intro k
    obtain ⟨t, as, e, hp2, hx, hh⟩ := parse_help (u := u) k
    rw [hp2] at hp
    cases hp
    exact ⟨t, as, e, rfl, hx, hh⟩
  have ref2 : RefusedWord s → ∃ t, o = some t ∧ expandOption s t = none := by
    intro k
    obtain ⟨t, hp2, hx⟩ := parse_refused (u := u) k
    rw [hp2] at hp
    cases hp
    exact ⟨t, rfl, hx⟩
  constructor
  · constructor
    · intro h
      cases o with
      | none => exact absurd h (by simp [Slot.helps])
      | some t =>
        obtain ⟨as, e, h1, h2⟩ := h
        rcases word_cases u hs with k | k | k | k | k | k
        · rw [parse_file k] at hp; cases hp
        · obtain ⟨t', as', hp2, hx, hh, hd⟩ := parse_dump (u := u) k
          rw [hp2] at hp
          cases hp
          rw [h1] at hx
          cases hx
          exact absurd h2 hh
        · exact k
        · obtain ⟨t', e1, hx⟩ := ref2 k
          cases e1
          rw [h1] at hx
          cases hx
        · rw [ambiguous_error k] at hp; cases hp
        · obtain ⟨t', as', e', hp2, hx, hh⟩ := k
          rw [hp2] at hp
          cases hp
          rw [h1] at hx
          cases hx
          exact absurd h2 hh
    · intro h
      obtain ⟨t, as, e, rfl, hx, hh⟩ := help2 h
      exact ⟨as, e, hx, hh⟩
  · constructor
    · intro h
      cases o with
      | none => exact absurd h (by simp [Slot.refused])
      | some t =>
        have h1 : expandOption s t = none := h
        rcases word_cases u hs with k | k | k | k | k | k
        · rw [parse_file k] at hp; cases hp
        · obtain ⟨t', as', hp2, hx, hh, hd⟩ := parse_dump (u := u) k
          rw [hp2] at hp
          cases hp
          rw [h1] at hx
          cases hx
        · obtain ⟨t', as', e', e1, hx, _⟩ := help2 k
          cases e1
          rw [h1] at hx
          cases hx
        · exact k
        · rw [ambiguous_error k] at hp; cases hp
        · obtain ⟨t', as', e', hp2, hx, hh⟩ := k
          rw [hp2] at hp
          cases hp
          rw [h1] at hx
          cases hx
    · intro h
      obtain ⟨t, rfl, hx⟩ := ref2 h
      exact hx

theorem helps_slots {u : Uni} (argv : List Str) (l : List Slot) (h : slots u argv = .ok l) :
    Helps l ↔ ∃ pre s post, argv = pre ++ s :: post ∧ py"--" ∉ pre ∧ HelpWord s ∧ ∀ x ∈ pre, ¬ RefusedWord x := by
  induction argv generalizing l with
  | nil =>
    cases h
    simp [Helps]
  | cons w argv ih =>
    by_cases hw : w = py"--"
    · subst hw
      rw [slots_names] at h
      injection h with h
      subst h
      have : ¬ Helps (.dashes :: argv.map .arg) := by
        have := helps_append (a := .dashes :: argv.map .arg) (l := []) (by
          intro x hx
          rcases List.mem_cons.mp hx with rfl | hx
          · rfl
          · obtain ⟨y, _, rfl⟩ := List.mem_map.mp hx
            rfl)
        rw [List.append_nil] at this
        rw [this]
        exact id
      refine iff_of_false this ?_
      rintro ⟨pre, s, post, e, h1, h2, h3⟩
      cases pre with
      | nil =>
        injection e with e _
        exact help_not_dashes h2 e.symm
      | cons x pre =>
        injection e with e _
        exact h1 (e ▸ .head _)
    · obtain ⟨o, l', hp, hl, rfl⟩ := slots_cons hw h
      obtain ⟨k1, k2⟩ := slot_help hw hp
      rw [Helps, k1, k2, ih l' hl]
      constructor
      · rintro (k | ⟨k, pre, s, post, rfl, h1, h2, h3⟩)
        · exact ⟨[], w, argv, rfl, by simp, k, by simp⟩
        · refine ⟨w :: pre, s, post, rfl, ?_, h2, ?_⟩
          · intro hm
            rcases List.mem_cons.mp hm with e | hm
            · exact hw e.symm
            · exact h1 hm
          · intro x hx
            rcases List.mem_cons.mp hx with rfl | hx
            · exact k
            · exact h3 x hx
      · rintro ⟨pre, s, post, e, h1, h2, h3⟩
        cases pre with
        | nil =>
          injection e with e _
          exact .inl (e ▸ h2)
        | cons x pre =>
          injection e with e1 e2
          subst e1
          exact .inr ⟨h3 _ (.head _), pre, s, post, e2, fun hm => h1 (.tail _ hm), h2, fun y hy => h3 y (.tail _ hy)⟩

end Verif
