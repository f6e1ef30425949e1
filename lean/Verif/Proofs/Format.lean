import Verif.Spec.Template

/-!
# `str.format`
-/

namespace Verif

open Spec

/-- Find the slots of a parsed template, given how many arguments and which names there are. -/
def resolve (n : Nat) (keys : List Str) : Numbering → List Piece → Py (List Slot)
  | _, [] => .ok []
  | m, .lit c :: ps => (resolve n keys m ps).map (.lit c :: ·)
  | m, .auto :: ps =>
    match (match m with | .unset => some 0 | .auto k => some k | .manual => none) with
    | none => .error .valueError
    | some k => if k < n then (resolve n keys (.auto (k + 1)) ps).map (.arg k :: ·) else .error .indexError
  | m, .pos k :: ps =>
    if (match m with | .auto _ => true | _ => false) then .error .valueError
    else if k < n then (resolve n keys .manual ps).map (.arg k :: ·) else .error .indexError
  | m, .name s :: ps => if s ∈ keys then (resolve n keys m ps).map (.key s :: ·) else .error .keyError
  | _, .bad :: _ => .error .valueError
  | _, .field _ _ _ :: _ => .error .unsupported

/-- A piece without index, conversion and format specification. -/
def Piece.plain : Piece → Bool
  | .field _ _ _ => false
  | _ => true

theorem map_map_py {α β γ : Type} (x : Py α) (f : α → β) (g : β → γ) : (x.map f).map g = x.map (fun a => g (f a)) := by
  cases x <;> rfl

theorem map_congr_py {α β : Type} (x : Py α) (f g : α → β) (h : ∀ a, f a = g a) : x.map f = x.map g := by
  cases x with
  | error e => rfl
  | ok a => simp [Except.map, h a]

theorem lookup_some_of_mem {α : Type} (kw : List (Str × α)) (s : Str) (h : s ∈ kw.map Prod.fst) : ∃ v, kw.lookup s = some v := by
  induction kw with
  | nil => simp at h
  | cons p kw ih =>
    rw [List.lookup_cons]
    by_cases e : s = p.1
    · subst e; exact ⟨p.2, by simp⟩
    · rw [show (s == p.1) = false by simpa using e]
      refine ih ?_
      simp only [List.map_cons, List.mem_cons] at h
      rcases h with h | h
      · exact absurd h e
      · exact h

theorem lookup_none_of_not_mem {α : Type} (kw : List (Str × α)) (s : Str) (h : s ∉ kw.map Prod.fst) : kw.lookup s = none := by
  induction kw with
  | nil => rfl
  | cons p kw ih =>
    simp only [List.map_cons, List.mem_cons, not_or] at h
    rw [List.lookup_cons, show (s == p.1) = false by simpa using h.1]
    exact ih h.2

theorem lookup_shown (kw : List (Str × Arg)) (s : Str) : (shownKw kw).lookup s = (kw.lookup s).map Arg.show := by
  induction kw with
  | nil => rfl
  | cons p kw ih =>
    rw [shownKw, List.map_cons, List.lookup_cons, List.lookup_cons]
    cases s == p.1
    · exact ih
    · rfl

theorem fill_arg {args : List Arg} {kw : List (Str × Str)} {k : Nat} {a : Arg} (h : args[k]? = some a) :
    Slot.fill (shown args) kw (.arg k) = a.show := by
  simp [Slot.fill, shown, List.getD_eq_getElem?_getD, h]

theorem fill_key {args : List Str} {kw : List (Str × Arg)} {s : Str} {a : Arg} (h : kw.lookup s = some a) :
    Slot.fill args (shownKw kw) (.key s) = a.show := by
  simp [Slot.fill, lookup_shown, h]

theorem evalPieces_resolve (args : List Arg) (kw : List (Str × Arg)) (m : Numbering) (ps : List Piece) (hp : ∀ p ∈ ps, p.plain = true) :
    evalPieces args kw m ps = (resolve args.length (kw.map Prod.fst) m ps).map (fillAll (shown args) (shownKw kw)) := by
  induction ps generalizing m with
  | nil => rfl
  | cons p ps ih =>
    have ih := fun m => ih m (fun q hq => hp q (List.mem_cons_of_mem _ hq))
    have put : ∀ (x : Slot) (a : Str) (m : Numbering), x.fill (shown args) (shownKw kw) = a →
        (evalPieces args kw m ps).map (a ++ ·) =
          ((resolve args.length (kw.map Prod.fst) m ps).map (x :: ·)).map (fillAll (shown args) (shownKw kw)) := by
      intro x a m hx
      rw [ih, map_map_py, map_map_py]
      refine map_congr_py _ _ _ (fun b => ?_)
      simp [fillAll, hx]
    cases p with
    | lit c =>
      simp only [evalPieces, resolve, ih, map_map_py]
      exact map_congr_py _ _ _ (fun a => rfl)
    | auto =>
      have step : ∀ k : Nat,
          (match (match args[k]? with
              | none => (.error .indexError : Py (Arg × Numbering))
              | some a => .ok (a, .auto (k + 1))) with
            | .ok (a, m) => (evalPieces args kw m ps).map (a.show ++ ·)
            | .error e => .error e) =
          (if k < args.length then (resolve args.length (kw.map Prod.fst) (.auto (k + 1)) ps).map (.arg k :: ·)
            else .error .indexError : Py (List Slot)).map (fillAll (shown args) (shownKw kw)) := by
        intro k
        by_cases hk : k < args.length
        · have e := List.getElem?_eq_getElem hk
          rw [if_pos hk, e]
          exact put _ _ _ (fill_arg e)
        · rw [if_neg hk, List.getElem?_eq_none (by omega)]
          rfl
      cases m with
      | unset => exact step 0
      | auto k => exact step k
      | manual => rfl
    | pos k =>
      have step :
          (match (match args[k]? with
              | none => (.error .indexError : Py (Arg × Numbering))
              | some a => .ok (a, .manual)) with
            | .ok (a, m) => (evalPieces args kw m ps).map (a.show ++ ·)
            | .error e => .error e) =
          (if k < args.length then (resolve args.length (kw.map Prod.fst) .manual ps).map (.arg k :: ·)
            else .error .indexError : Py (List Slot)).map (fillAll (shown args) (shownKw kw)) := by
        by_cases hk : k < args.length
        · have e := List.getElem?_eq_getElem hk
          rw [if_pos hk, e]
          exact put _ _ _ (fill_arg e)
        · rw [if_neg hk, List.getElem?_eq_none (by omega)]
          rfl
      cases m with
      | unset => exact step
      | auto k => rfl
      | manual => exact step
    | name s =>
      simp only [evalPieces, nameArg, resolve]
      by_cases hs : s ∈ kw.map Prod.fst
      · obtain ⟨v, hv⟩ := lookup_some_of_mem kw s hs
        rw [if_pos hs, hv]
        exact put _ _ _ (fill_key hv)
      · rw [if_neg hs, lookup_none_of_not_mem kw s hs]
        rfl
    | bad => rfl
    | field _ _ _ => exact absurd (hp _ (List.mem_cons_self ..)) (by simp [Piece.plain])

theorem fillAll_cons (args : List Str) (kw : List (Str × Str)) (x : Slot) (xs : List Slot) :
    fillAll args kw (x :: xs) = x.fill args kw ++ fillAll args kw xs := by simp [fillAll]

theorem fillAll_append (args : List Str) (kw : List (Str × Str)) (a b : List Slot) :
    fillAll args kw (a ++ b) = fillAll args kw a ++ fillAll args kw b := by simp [fillAll]

theorem resolve_slots {n : Nat} {keys : List Str} {m : Numbering} {ps : List Piece} {slots : List Slot}
    (h : resolve n keys m ps = .ok slots) : (∀ k, .arg k ∈ slots → k < n) ∧ ∀ s, .key s ∈ slots → s ∈ keys := by
  induction ps generalizing m slots with
  | nil => cases h; simp
  | cons p ps ih =>
    have step : ∀ (m' : Numbering) (x : Slot), (resolve n keys m' ps).map (x :: ·) = .ok slots →
        (∀ k, x = .arg k → k < n) → (∀ s, x = .key s → s ∈ keys) →
        (∀ k, .arg k ∈ slots → k < n) ∧ ∀ s, .key s ∈ slots → s ∈ keys := by
      intro m' x hx h1 h2
      cases hr : resolve n keys m' ps with
      | error e => rw [hr] at hx; cases hx
      | ok r =>
        rw [hr] at hx
        cases hx
        obtain ⟨i1, i2⟩ := ih hr
        constructor
        · intro k hk
          rcases List.mem_cons.1 hk with e | e
          · exact h1 k e.symm
          · exact i1 k e
        · intro s hs
          rcases List.mem_cons.1 hs with e | e
          · exact h2 s e.symm
          · exact i2 s e
    cases p with
    | lit c => exact step m _ h (by simp) (by simp)
    | auto =>
      simp only [resolve] at h
      split at h
      · cases h
      · rename_i k _
        by_cases hk : k < n
        · rw [if_pos hk] at h
          exact step _ _ h (by intro k' e; cases e; exact hk) (by simp)
        · rw [if_neg hk] at h; cases h
    | pos k =>
      simp only [resolve] at h
      split at h
      · cases h
      · by_cases hk : k < n
        · rw [if_pos hk] at h
          exact step _ _ h (by intro k' e; cases e; exact hk) (by simp)
        · rw [if_neg hk] at h; cases h
    | name s =>
      simp only [resolve] at h
      by_cases hs : s ∈ keys
      · rw [if_pos hs] at h
        exact step _ _ h (by simp) (by intro s' e; cases e; exact hs)
      · rw [if_neg hs] at h; cases h
    | bad => cases h
    | field _ _ _ => cases h

/-! ## Plain fields -/

theorem fieldPiece_plain {f : Str} (h : ∀ c ∈ f, c ≠ '.' ∧ c ≠ '[') : (fieldPiece f).plain = true := by
  unfold fieldPiece
  have : f.any (fun c => c == '.' || c == '[') = false := by
    simp only [List.any_eq_false, Bool.or_eq_true, beq_iff_eq, not_or]
    exact h
  rw [this]
  split
  · rfl
  · split
    · rfl
    · split <;> rfl

theorem parse_plain_aux (n : Nat) : ∀ t : Str, t.length ≤ n →
    (plainFields false t = true → ∀ p ∈ parseTemplate none t, p.plain = true) ∧
    (∀ f : Str, (∀ c ∈ f, c ≠ '.' ∧ c ≠ '[') → plainFields true t = true → ∀ p ∈ parseTemplate (some (.name f)) t, p.plain = true) := by
  induction n with
  | zero =>
    intro t ht
    cases t with
    | nil => simp [parseTemplate, Piece.plain]
    | cons c r => simp at ht
  | succ n ih =>
    intro t ht
    have lit : ∀ (c : Char) (l : List Piece), (∀ p ∈ l, p.plain = true) → ∀ p ∈ Piece.lit c :: l, p.plain = true := by
      intro c l h p hp
      rcases List.mem_cons.1 hp with rfl | hp
      · rfl
      · exact h p hp
    constructor
    · intro h
      unfold parseTemplate
      split
      · simp
      · simp [Piece.plain]
      · rename_i r _
        refine lit _ _ ((ih r (by simp at ht; omega)).1 ?_)
        simpa [plainFields] using h
      · rename_i r _
        refine lit _ _ ((ih r (by simp at ht; omega)).1 ?_)
        simpa [plainFields] using h
      · rename_i c r h1 h2 _
        split
        · rename_i hc
          subst hc
          refine (ih r (by simp at ht; omega)).2 [] (by simp) ?_
          rw [plainFields] at h
          · exact h
          · intro r' e; exact h1 r' rfl e
        · split
          · simp [Piece.plain]
          · refine lit _ _ ((ih r (by simp at ht; omega)).1 ?_)
            unfold plainFields at h
            split at h <;> simp_all
      all_goals simp_all
    · intro f hf h
      cases t with
      | nil => simp [parseTemplate, Piece.plain]
      | cons c r =>
        rw [parseTemplate]
        split
        · rename_i hc
          subst hc
          intro p hp
          rcases List.mem_cons.1 hp with rfl | hp
          · exact fieldPiece_plain hf
          · exact (ih r (by simp at ht; omega)).1 (by simpa [plainFields] using h) p hp
        · rename_i hc
          have h' : (!([':', '!', '.', '['].contains c) && plainFields true r) = true := by
            unfold plainFields at h
            split at h <;> simp_all
          simp only [List.contains_cons, List.contains_nil, Bool.or_false, Bool.not_eq_true', Bool.or_eq_false_iff, beq_eq_false_iff_ne, ne_eq,
            Bool.and_eq_true] at h'
          obtain ⟨⟨h1, h2, h3, h4⟩, h5⟩ := h'
          split
          · simp [Piece.plain]
          · refine (ih r (by simp at ht; omega)).2 _ ?_ h5
            intro x hx
            rcases List.mem_append.1 hx with hx | hx
            · exact hf x hx
            · rw [List.mem_singleton.1 hx]; exact ⟨h3, h4⟩

theorem parse_plain {t : Str} (h : plainFields false t = true) : ∀ p ∈ parseTemplate none t, p.plain = true :=
  (parse_plain_aux t.length t (Nat.le_refl _)).1 h

/-! ## Written templates -/

theorem escape_cons (c : Char) (a : Str) :
    escape (c :: a) = (if c = '{' then py"{{" else if c = '}' then py"}}" else [c]) ++ escape a := by simp [escape]

theorem escape_plain (s : Str) (h : ∀ c ∈ s, c ≠ '{' ∧ c ≠ '}') : escape s = s := by
  induction s with
  | nil => rfl
  | cons c s ih =>
    obtain ⟨h1, h2⟩ := h c (by simp)
    rw [escape_cons, if_neg h1, if_neg h2, ih (fun x hx => h x (List.mem_cons_of_mem _ hx))]
    rfl

theorem parse_escape (a r : Str) :
    parseTemplate none (escape a ++ r) = a.map Piece.lit ++ parseTemplate none r := by
  induction a with
  | nil => rfl
  | cons c a ih =>
    rw [escape_cons]
    by_cases h1 : c = '{'
    · subst h1
      simp only [if_true, List.cons_append, List.nil_append, parseTemplate, ih, List.map_cons]
    · by_cases h2 : c = '}'
      · subst h2
        rw [if_neg (by decide), if_pos rfl]
        simp only [List.cons_append, List.nil_append, parseTemplate, ih, List.map_cons]
      · rw [if_neg h1, if_neg h2]
        have : parseTemplate none (c :: (escape a ++ r)) = .lit c :: parseTemplate none (escape a ++ r) := by
          generalize escape a ++ r = q
          rw [parseTemplate.eq_def]
          split
          · simp at *
          · simp at *
          · rename_i e; cases e; exact absurd rfl h1
          · rename_i e; cases e; exact absurd rfl h2
          · rename_i e; cases e; rw [if_neg h1, if_neg h2]
          all_goals simp at *
        simp only [List.cons_append, List.nil_append]
        rw [this, ih]
        rfl

theorem parse_hole (r : Str) : parseTemplate none ('{' :: '}' :: r) = .auto :: parseTemplate none r := by
  simp [parseTemplate, fieldPiece]

theorem eval_lits (args : List Arg) (kw : List (Str × Arg)) (m : Numbering) (a : Str) (ps : List Piece) :
    evalPieces args kw m (a.map Piece.lit ++ ps) = (evalPieces args kw m ps).map (a ++ ·) := by
  induction a with
  | nil => simp; cases evalPieces args kw m ps <;> rfl
  | cons c a ih =>
    simp only [List.map_cons, List.cons_append, evalPieces, ih, map_map_py]

theorem fmt1_escape (a b x : Str) : fmt1 (escape a ++ py"{}" ++ escape b) x = .ok (a ++ x ++ b) := by
  have h2 : parseTemplate none (escape b) = b.map Piece.lit := by
    have := parse_escape b []
    rw [List.append_nil] at this
    rw [this]; simp [parseTemplate]
  have h1 : parseTemplate none (escape a ++ py"{}" ++ escape b) = a.map Piece.lit ++ Piece.auto :: b.map Piece.lit := by
    rw [List.append_assoc, parse_escape]
    have : py"{}" ++ escape b = '{' :: '}' :: escape b := rfl
    rw [this, parse_hole, h2]
  unfold fmt1 pyFormat
  rw [h1, eval_lits]
  have h3 := eval_lits [.str x] [] (.auto 1) b []
  rw [List.append_nil] at h3
  simp only [evalPieces, autoArg, Arg.show, List.getElem?_cons_zero, h3, Except.map, List.append_nil, List.append_assoc]

/-- Templates written without braces. -/
theorem fmt1_plain (a b x : Str) (ha : ∀ c ∈ a, c ≠ '{' ∧ c ≠ '}') (hb : ∀ c ∈ b, c ≠ '{' ∧ c ≠ '}') :
    fmt1 (a ++ py"{}" ++ b) x = .ok (a ++ x ++ b) := by
  have := fmt1_escape a b x
  rwa [escape_plain a ha, escape_plain b hb] at this

end Verif
