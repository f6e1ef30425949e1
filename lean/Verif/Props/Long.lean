import Verif.Spec.Long
import Verif.Props.Pieces
import Verif.Props.Cli
import Verif.Props.LinkLines

/-!
# C105: words that are longer than a line
-/

namespace Verif

open Spec

theorem pyDrop_nat (s : Str) (n : Nat) : pyDrop s n = s.drop n := by
  have h1 := take_drop s n
  rw [pyTake_nat] at h1
  exact List.append_cancel_left (h1.trans (List.take_append_drop n s).symm)

theorem cutPos_breaks {o : WrapOpts} {n : Nat} {c : Str} (hn : n < c.length) :
    BreaksWord o n (pyTake c (cutPos o n c)) (pyDrop c (cutPos o n c)) := by
  have plain : (o.hyphenAware = true → o.breakHyphens = true → ∀ a b, c.take n = a ++ '-' :: b → '-' ∉ b → ∀ x ∈ a, x = '-') →
      BreaksWord o n (pyTake c n) (pyDrop c n) := by
    intro h
    rw [pyTake_nat, pyDrop_nat]
    exact .full (by simp; omega) h
  unfold cutPos
  by_cases hh : (o.hyphenAware && o.breakHyphens && decide (len c > n)) = true
  · rw [if_pos hh]
    simp only [Bool.and_eq_true, decide_eq_true_eq] at hh
    rw [pyTake_nat]
    rcases lastDot '-' (c.take n) with h0 | ⟨a, b, h0, hb⟩
    · rw [rfind_none _ _ h0]
      simp only
      rw [if_neg (by simp)]
      refine plain fun _ _ a b e => ?_
      rw [e] at h0; simp at h0
    · rw [h0, rfind_last _ _ _ hb]
      simp only
      have hl := congrArg List.length h0
      simp only [List.length_take, List.length_append, List.length_cons] at hl
      have ha : pyTake c a.length = a := by
        rw [pyTake_nat]
        have : c.take a.length = (c.take n).take a.length := by rw [List.take_take]; congr 1; omega
        rw [this, h0]; simp
      rw [ha]
      by_cases hx : a.any (· != '-') = true
      · have hpos : 0 < a.length := by
          cases a with
          | nil => cases hx
          | cons _ _ => simp
        rw [if_pos (by simp only [Bool.and_eq_true, decide_eq_true_eq]; exact ⟨by omega, hx⟩)]
        have e1 : ((a.length : Int) + 1) = ((a.length + 1 : Nat) : Int) := by omega
        rw [e1, pyTake_nat, pyDrop_nat]
        have ec : c = (a ++ ['-']) ++ (b ++ c.drop n) := by
          conv => lhs; rw [← List.take_append_drop n c, h0]
          simp
        have e2 : c.take (a.length + 1) = a ++ ['-'] := by rw [ec]; exact List.take_left' (by simp)
        have e3 : c.drop (a.length + 1) = b ++ c.drop n := by
          conv => lhs; rw [ec]
          exact List.drop_left' (by simp)
        rw [e2, e3]
        refine .hyphen hh.1.1 hh.1.2 ?_ hb (by omega)
        obtain ⟨x, h1, h2⟩ := List.any_eq_true.1 hx
        exact ⟨x, h1, by simpa using h2⟩
      · rw [if_neg (by simp only [Bool.and_eq_true]; exact fun q => hx q.2)]
        refine plain fun _ _ a' b' e hb' x hxa => ?_
        have : a' = a := by
          rw [h0] at e
          have h1 := rfind_last '-' a b hb
          rw [e, rfind_last _ _ _ hb'] at h1
          exact (List.append_inj e (by omega)).1.symm
        subst this
        apply Classical.byContradiction
        intro q
        exact hx (List.any_eq_true.2 ⟨x, hxa, by simpa using q⟩)
  · rw [if_neg hh]
    refine plain fun h1 h2 => ?_
    exfalso
    apply hh
    simp only [h1, h2, Bool.true_and, decide_eq_true_eq]
    unfold len; omega

theorem wrapLoop_fills (u : Uni) (o : WrapOpts) (hm : o.maxLines = none) (hi : len o.initialIndent < o.width)
    (hs : len o.subsequentIndent < o.width) (f : Nat) (lines chunks out : List Str) (h : wrapLoop u o f lines chunks = .ok out) :
    Fills u o lines chunks out := by
  induction f generalizing lines chunks with
  | zero =>
    cases chunks with
    | nil => rw [wrapLoop_nil] at h; cases h; exact .done
    | cons c cs => simp [wrapLoop] at h
  | succ f ih =>
    by_cases hne : chunks = []
    · subst hne; rw [wrapLoop_nil] at h; cases h; exact .done
    · obtain ⟨cur, rest, lead, taken, left, taken', hr, h2⟩ := wrapLoop_step u o f lines chunks hne
      have hind : len (indentAfter o lines) < o.width := by unfold indentAfter; split <;> assumption
      have hnew : wrapLoop u o f (if cur = [] then lines else lines ++ [indentAfter o lines ++ cur.flatten]) rest = .ok out := by
        rw [h2] at h
        split at h
        · rename_i hc; rw [if_pos hc]; exact h
        · rename_i hc
          have : lineAllowed o lines.length (sumLen u cur) (o.width - len (indentAfter o lines)) rest = true := by
            unfold lineAllowed; rw [hm]
          rw [if_pos this] at h
          rw [if_neg hc]; exact h
      have hfit : visible u taken ≤ o.width - len (indentAfter o lines) := by
        rw [visible_eq]
        rcases hr.fit with h6 | h6
        · rw [h6]; simp [sumLen]; omega
        · exact h6
      have hends : ∃ piece, taken' = taken ++ piece ∧ Ends u o (o.width - len (indentAfter o lines)) taken left piece rest := by
        have hb := hr.broken
        cases hb with
        | fits hf =>
          refine ⟨[], by simp, ?_⟩
          cases rest with
          | nil => exact .text
          | cons c r => exact .short (hf c r rfl)
        | cut c cs hl hv hbl e he =>
          subst hl
          refine ⟨_, rfl, ?_⟩
          rw [if_neg (by omega)] at he
          obtain ⟨n, hn⟩ : ∃ n : Nat, (n : Int) = o.width - len (indentAfter o lines) - visible u taken := ⟨(o.width - len (indentAfter o lines) - visible u taken).toNat, by omega⟩
          rw [← visible_eq, ← hn] at he
          subst he
          have hlen := vlen_le_len u c
          have hnn := visible_nonneg u taken
          unfold len at hlen
          have hw := cutPos_breaks (o := o) (n := n) (c := c) (by omega)
          have := Ends.broken (u := u) (o := o) (room := o.width - len (indentAfter o lines)) (taken := taken) (r := cs)
            (by rw [take_drop]; exact hv) hbl hn hw
          rw [take_drop] at this
          exact this
        | whole c cs hl hv hbl ht =>
          subst hl; subst ht
          exact ⟨[c], rfl, .whole hv hbl⟩
        | later c cs hl hv hbl ht =>
          subst hl
          exact ⟨[], by simp, .later hv hbl ht⟩
      obtain ⟨piece, rfl, hends⟩ := hends
      have hshown : Displayed o (taken ++ piece) cur := by
        have ht := hr.trimmed
        generalize taken ++ piece = tp at ht
        cases ht with
        | keep hk => exact .all fun hd w hw hb => hk hd w hw ((strip_nil_iff w).2 hb)
        | drop _ l hd ht hl => subst ht; exact .butLast hd ((strip_nil_iff l).1 hl)
      have hsplit := hr.split
      rw [hsplit] at hne ⊢
      refine .line hne ?_ hfit ?_ hends hshown (ih _ _ hnew)
      · rcases hr.leadOk with h6 | ⟨l, h6, h7, h8, h9⟩
        · refine .inl ⟨h6, fun hd hl w hw hb => ?_⟩
          obtain ⟨t, et⟩ := List.head?_eq_some_iff.1 hw
          exact hr.noLead h6 hd (by cases lines <;> simp_all) w t (by rw [hsplit, h6, et]; rfl) ((strip_nil_iff w).2 hb)
        · refine .inr ⟨h8, ?_, l, h6, (strip_nil_iff l).1 h7⟩
          intro e; rw [e] at h9; cases h9
      · intro c hc
        obtain ⟨t, et⟩ := List.head?_eq_some_iff.1 hc
        rw [visible_eq]
        exact hr.full c t et

/-! ## There is one way to do it -/

theorem taken_unique {u : Uni} {room : Int} {t r t' r' : List Str} (e : t ++ r = t' ++ r') (h1 : visible u t ≤ room)
    (h2 : ∀ c, r.head? = some c → visible u t + vlen u c > room) (h1' : visible u t' ≤ room)
    (h2' : ∀ c, r'.head? = some c → visible u t' + vlen u c > room) : t = t' ∧ r = r' := by
  have key : ∀ {t r t' r' : List Str}, t ++ r = t' ++ r' → (∀ c, r.head? = some c → visible u t + vlen u c > room) → visible u t' ≤ room →
      t.length ≤ t'.length → t = t' := by
    intro t r t' r' e h2 h1' hl
    obtain ⟨x, rfl⟩ : t <+: t' := List.prefix_of_prefix_length_le (l₃ := t ++ r) (List.prefix_append _ _) (e ▸ List.prefix_append _ _) hl
    cases x with
    | nil => simp
    | cons c x =>
      exfalso
      rw [List.append_assoc] at e
      have hr := List.append_cancel_left e
      have := h2 c (by rw [hr]; rfl)
      have hx := visible_nonneg u x
      rw [rowVisible_append, visible_cons] at h1'
      omega
  have ht : t = t' := by
    rcases Nat.le_total t.length t'.length with hl | hl
    · exact key e h2 h1' hl
    · exact (key e.symm h2' h1 hl).symm
  subst ht
  exact ⟨rfl, List.append_cancel_left e⟩

theorem breaksWord_unique {o : WrapOpts} {n : Nat} {x y x' y' : Str} (h : BreaksWord o n x y) (h' : BreaksWord o n x' y') (e : x ++ y = x' ++ y') :
    x = x' ∧ y = y' := by
  have one : ∀ {a b r x : Str}, (∃ c ∈ a, c ≠ '-') → '-' ∉ b → a.length + 1 + b.length = n → (a ++ ['-']) ++ (b ++ r) = x → x.take n = a ++ '-' :: b := by
    rintro a b r x - - hn rfl
    rw [show (a ++ ['-']) ++ (b ++ r) = (a ++ '-' :: b) ++ r by simp]
    exact List.take_left' (by simp; omega)
  have last : ∀ {a b a' b' : Str}, a ++ '-' :: b = a' ++ '-' :: b' → '-' ∉ b → '-' ∉ b' → a = a' := by
    intro a b a' b' e hb hb'
    have h1 := rfind_last '-' a b hb
    rw [e, rfind_last _ _ _ hb'] at h1
    exact (List.append_inj e (by omega)).1
  have mixed : ∀ {x y x' y' : Str}, BreaksWord o n x y → x'.length = n →
      (o.hyphenAware = true → o.breakHyphens = true → ∀ a b, x' = a ++ '-' :: b → '-' ∉ b → ∀ c ∈ a, c = '-') → x ++ y = x' ++ y' → x = x' := by
    intro x y x' y' h hl hno e
    cases h with
    | hyphen ha hb hc hd hn =>
      have := one hc hd hn e
      rw [List.take_left' hl] at this
      obtain ⟨c, h1, h2⟩ := hc
      exact absurd (hno ha hb _ _ this hd c h1) h2
    | full hl' _ => exact (List.append_inj e (by omega)).1
  have hx : x = x' := by
    cases h' with
    | full hl hno => exact mixed h hl hno e
    | hyphen ha hb hc hd hn =>
      cases h with
      | full hl hno => exact (mixed (.hyphen ha hb hc hd hn) hl hno e.symm).symm
      | hyphen ha' hb' hc' hd' hn' =>
        have h1 := one hc' hd' hn' e
        rw [one hc hd hn rfl] at h1
        rw [last h1 hd hd']
  subst hx
  exact ⟨rfl, List.append_cancel_left e⟩

theorem displayed_unique {o : WrapOpts} {t s s' : List Str} (h : Displayed o t s) (h' : Displayed o t s') : s = s' := by
  cases h with
  | all hk =>
    cases h' with
    | all _ => rfl
    | butLast hd hb => exact absurd hb (hk hd _ (by simp))
  | butLast hd hb =>
    generalize ht : s ++ _ = t at h'
    cases h' with
    | all hk => subst ht; exact absurd hb (hk hd _ (by simp))
    | butLast _ _ => exact (List.append_inj' ht rfl).1

theorem ends_unique {u : Uni} {o : WrapOpts} {room : Int} {t r p q p' q' : List Str} (h : Ends u o room t r p q) (h' : Ends u o room t r p' q') :
    p = p' ∧ q = q' := by
  cases h with
  | text => cases h'; exact ⟨rfl, rfl⟩
  | short hv =>
    cases h' with
    | short _ => exact ⟨rfl, rfl⟩
    | broken hv' => omega
    | whole hv' => omega
    | later hv' => omega
  | whole hv hb =>
    cases h' with
    | short _ => omega
    | broken _ hb' => rw [hb] at hb'; cases hb'
    | whole _ _ => exact ⟨rfl, rfl⟩
    | later _ _ ht => exact absurd rfl ht
  | later hv hb ht =>
    cases h' with
    | short _ => omega
    | broken _ hb' => rw [hb] at hb'; cases hb'
    | whole _ _ => exact absurd rfl ht
    | later _ _ ht => exact ⟨rfl, rfl⟩
  | broken hv hb hn hw =>
    rename_i x y r n
    generalize hc : x ++ y = c at h' hv
    cases h' with
    | short _ => omega
    | whole _ hb' => rw [hb] at hb'; cases hb'
    | later _ hb' => rw [hb] at hb'; cases hb'
    | broken _ _ hn' hw' =>
      rename_i x' y' n' _ _
      obtain rfl : n = n' := by omega
      obtain ⟨rfl, rfl⟩ := breaksWord_unique hw hw' hc
      exact ⟨rfl, rfl⟩

theorem fills_unique {u : Uni} {o : WrapOpts} {lines chunks out out' : List Str} (h : Fills u o lines chunks out) (h' : Fills u o lines chunks out') :
    out = out' := by
  induction h with
  | done =>
    generalize hc : ([] : List Str) = c at h'
    cases h' with
    | done => rfl
    | line hne => exact absurd hc.symm hne
  | line hne hk hf hfull he hsh hrest ih =>
    rename_i lines skipped taken rest piece rest' shown out
    generalize hc : skipped ++ (taken ++ rest) = c at h'
    cases h' with
    | done => exact absurd hc hne
    | line hne' hk' hf' hfull' he' hsh' hrest' =>
      rename_i skipped' taken' rest1 piece' rest1' shown'
      have hs : skipped = skipped' ∧ taken ++ rest = taken' ++ rest1 := by
        rcases hk with ⟨rfl, hk⟩ | ⟨hd, hl, w, rfl, hb⟩
        · rcases hk' with ⟨rfl, -⟩ | ⟨hd, hl, w, rfl, hb⟩
          · exact ⟨rfl, by simpa using hc⟩
          · rw [List.nil_append] at hc
            exact absurd hb (hk hd hl w (by rw [hc]; rfl))
        · rcases hk' with ⟨rfl, hk'⟩ | ⟨-, -, w', rfl, -⟩
          · rw [List.nil_append] at hc
            exact absurd hb (hk' hd hl w (by rw [← hc]; rfl))
          · simp only [List.cons_append, List.nil_append, List.cons.injEq] at hc
            exact ⟨by rw [hc.1], hc.2⟩
      obtain ⟨rfl, hc'⟩ := hs
      obtain ⟨rfl, rfl⟩ := taken_unique hc' hf hfull hf' hfull'
      obtain ⟨rfl, rfl⟩ := ends_unique he he'
      obtain rfl := displayed_unique hsh hsh'
      exact ih hrest'

/-- Without a line limit, the pieces of a text are put on lines like this, whether they are longer than lines or not. -/
theorem C105 (u : Uni) (o : WrapOpts) (text : Str) (out : List Str) (hm : o.maxLines = none) (hi : len o.initialIndent < o.width)
    (hs : len o.subsequentIndent < o.width) : wrap u o text = .ok out ↔ Fills u o [] (wrapInput u o text) out := by
  constructor
  · intro h
    obtain ⟨-, -, h⟩ := wrap_ok h
    exact wrapLoop_fills u o hm hi hs _ [] _ out h
  · intro h
    obtain ⟨out', h'⟩ := C19_partial u o text hm (by unfold len at hi; omega) (.inr ⟨by omega, by omega⟩)
    obtain ⟨-, -, h1⟩ := wrap_ok h'
    rw [h', fills_unique h (wrapLoop_fills u o hm hi hs _ [] _ out' h1)]

/-- The lines of a text with no other whitespace than blanks, from the places where it can be divided. -/
theorem C105_text (u : Uni) (hw : u.isWord '-' = false) (o : WrapOpts) (hf : o.fixSentence = false) (text : Str) (hb : OnlyBlanks text)
    (cs out : List Str) (hm : o.maxLines = none) (hi : len o.initialIndent < o.width) (hs : len o.subsequentIndent < o.width)
    (hc : Pieces (places u o) text cs) : wrap u o text = .ok out ↔ Fills u o [] cs out := by
  have hp := C104 u hw o hf text
  rw [munge_blanks o hb] at hp
  obtain rfl := pieces_unique hp hc
  exact C105 u o text out hm hi hs

theorem C105_unique {u : Uni} {o : WrapOpts} {lines chunks out out' : List Str} (h : Fills u o lines chunks out) (h' : Fills u o lines chunks out') :
    out = out' := fills_unique h h'

/-- `a-1-2345` cannot be divided, but if it is too long it is broken after a hyphen; otherwise it is broken where the line ends. -/
example : wrap asciiUni { width := 5 } py"x a-1-2345 6789012" = .ok [py"x a-", py"1-", py"2345 ", py"67890", py"12"] := by decide
example : wrap asciiUni { width := 5, breakHyphens := false } py"x a-1-2345" = .ok [py"x a-1", py"-2345"] := by decide
/-- Hyphens at the beginning do not count. -/
example : wrap asciiUni { width := 5 } py"--345678" = .ok [py"--345", py"678"] := by decide
example : wrap asciiUni { width := 5, breakLong := false } py"ab 345678 9" = .ok [py"ab", py"345678", py"9"] := by decide

end Verif
