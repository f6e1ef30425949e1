import Verif.Props.Wrap
import Verif.Props.Text
import Verif.Model.Justify
import Verif.Spec.Justify

/-!
# Justification: C25 and C26
-/

namespace Verif

open Spec

/-! ## Stretching -/

theorem stretched_append {n : Nat} {a b c d : Str} (h : Stretched n a b) (h' : Stretched n c d) : Stretched n (a ++ c) (b ++ d) := by
  induction h with
  | nil => exact h'
  | char hc _ ih => exact .char hc ih
  | gap hk _ ih => rw [List.append_assoc]; exact .gap hk ih

theorem stretched_word {n : Nat} (w : Str) (h : ' ' ∉ w) : Stretched n w w := by
  induction w with
  | nil => exact .nil
  | cons c w ih => exact .char (fun e => h (by simp [e])) (ih (fun e => h (List.mem_cons_of_mem _ e)))

theorem stretched_refl (w : Str) : Stretched 1 w w := by
  induction w with
  | nil => exact .nil
  | cons c w ih =>
    by_cases h : c = ' '
    · subst h
      exact Stretched.gap (k := 1) (.inl rfl) ih
    · exact .char h ih

theorem stretched_gap {n k : Nat} (hk : k = n ∨ k = n + 1) : Stretched n [' '] (List.replicate k ' ') := by
  have := Stretched.gap hk (Stretched.nil (n := n))
  rwa [List.append_nil] at this

theorem stretched_join {n k : Nat} (hk : k = n ∨ k = n + 1) (ws : List Str) (h : ∀ w ∈ ws, ' ' ∉ w) :
    Stretched n (join [' '] ws) (join (List.replicate k ' ') ws) := by
  induction ws with
  | nil => exact .nil
  | cons w ws ih =>
    have hw := stretched_word (n := n) w (h w (by simp))
    cases ws with
    | nil => exact hw
    | cons v ws =>
      rw [join_cons_ne [' '] w (v :: ws) (by simp), join_cons_ne (List.replicate k ' ') w (v :: ws) (by simp)]
      exact stretched_append (stretched_append hw (stretched_gap hk)) (ih (fun x hx => h x (List.mem_cons_of_mem _ hx)))

theorem stretched_words {n : Nat} (hn : 1 ≤ n) {a b : Str} (h : Stretched n a b) :
    splitWs b = splitWs a ∧ (a.head?.map isSpace = b.head?.map isSpace) := by
  induction h with
  | nil => exact ⟨rfl, rfl⟩
  | @char c a b hc h ih =>
    refine ⟨?_, rfl⟩
    obtain ⟨h1, h2⟩ := ih
    by_cases hs : isSpace c = true
    · rw [splitWs_space _ _ hs, splitWs_space _ _ hs, h1]
    · cases a with
      | nil =>
        cases b with
        | nil => rfl
        | cons y b => simp at h2
      | cons x a =>
        cases b with
        | nil => simp at h2
        | cons y b =>
          simp only [List.head?_cons, Option.map_some, Option.some.injEq] at h2
          rw [splitWs, splitWs, if_neg hs, if_neg hs, h1]
          simp only [h2]
  | @gap k a b hk h ih =>
    obtain ⟨k', rfl⟩ : ∃ k', k = k' + 1 := ⟨k - 1, by omega⟩
    refine ⟨?_, by simp [List.replicate_succ]⟩
    have sp : ∀ m, splitWs (List.replicate m ' ' ++ b) = splitWs b := by
      intro m
      induction m with
      | zero => rfl
      | succ m ihm => rw [List.replicate_succ, List.cons_append, splitWs_space _ _ (by decide), ihm]
    rw [sp, splitWs_space _ _ (by decide)]
    exact ih.1

theorem splitWs_blank_append (t s : Str) (h : Blank t) : splitWs (t ++ s) = splitWs s := by
  induction t with
  | nil => rfl
  | cons c t ih => rw [List.cons_append, splitWs_space _ _ (h c (by simp)), ih (fun x hx => h x (List.mem_cons_of_mem _ hx))]

theorem widened_words {l l' : Str} (h : Widened l l') : splitWs l' = splitWs l := by
  obtain ⟨i, i', b, b', n, rfl, rfl, h1, h2, -, -, hn, hst⟩ := h
  rw [splitWs_blank_append _ _ h1, splitWs_blank_append _ _ h2]
  exact (stretched_words hn hst).1

theorem length_join (k : Nat) (ws : List Str) :
    (join (List.replicate k ' ') ws).length + (ws.length - 1) = (join [' '] ws).length + k * (ws.length - 1) := by
  induction ws with
  | nil => rfl
  | cons w ws ih =>
    cases ws with
    | nil => rfl
    | cons v ws =>
      rw [join_cons_ne [' '] w (v :: ws) (by simp), join_cons_ne (List.replicate k ' ') w (v :: ws) (by simp)]
      simp only [List.length_append, List.length_cons, List.length_replicate, List.length_nil, Nat.add_sub_cancel] at ih ⊢
      rw [Nat.mul_add, Nat.mul_one]
      omega

/-! ## One line -/

theorem lstrip_head (s : Str) : ¬ StartsWs (lstrip s) := by
  rintro ⟨c, h, hc⟩
  have := List.head?_dropWhile_not isSpace s
  unfold lstrip at h
  rw [h] at this
  simp at this
  rw [hc] at this
  cases this

theorem rstrip_last (s : Str) : ¬ EndsWs (rstrip s) := by
  rintro ⟨c, h, hc⟩
  have := rstrip_end s c h
  rw [hc] at this
  cases this

theorem hasGap_iff (l : Str) : HasGap l ↔ ' ' ∈ strip l := by
  obtain ⟨t, ht, hb⟩ := lstrip_split l
  obtain ⟨t', ht', hb'⟩ := rstrip_split (lstrip l)
  have hl : l = t ++ strip l ++ t' := by
    unfold strip
    rw [List.append_assoc, ← ht', ← ht]
  constructor
  · rintro ⟨a, b, e, ⟨c, hca, hc⟩, ⟨d, hdb, hd⟩⟩
    have e' : t ++ (strip l ++ t') = a ++ ' ' :: b := by rw [← List.append_assoc, ← hl, e]
    -- `a` reaches beyond `t`
    rcases List.append_eq_append_iff.1 e' with ⟨a', h1, h2⟩ | ⟨c', h1, h2⟩
    · rcases List.append_eq_append_iff.1 h2 with ⟨a'', h3, h4⟩ | ⟨c'', h3, h4⟩
      · -- `t'` contains the space and b
        have : d ∈ t' := by rw [h4]; simp [hdb]
        rw [hb' d this] at hd; cases hd
      · cases c'' with
        | nil =>
          simp at h4
          have : d ∈ t' := by rw [← h4]; simp [hdb]
          rw [hb' d this] at hd; cases hd
        | cons x c'' =>
          simp at h4
          rw [h3, h4.1]
          simp
    · have : c ∈ t := by rw [h1]; simp [hca]
      rw [hb c this] at hc; cases hc
  · intro h
    obtain ⟨a, b, e⟩ := List.append_of_mem h
    have hne : strip l ≠ [] := by rw [e]; simp
    refine ⟨t ++ a, b ++ t', ?_, ?_, ?_⟩
    · rw [hl]
      conv => lhs; rw [e]
      simp
    · cases a with
      | nil =>
        exfalso
        have hp : strip l <+: lstrip l := ⟨t', ht'.symm⟩
        obtain ⟨r, hr⟩ := hp
        apply lstrip_head l
        refine ⟨' ', ?_, by decide⟩
        rw [← hr, e]; rfl
      | cons x a =>
        refine ⟨x, by simp, ?_⟩
        obtain ⟨r, hr⟩ : strip l <+: lstrip l := ⟨t', ht'.symm⟩
        cases hx : isSpace x with
        | false => rfl
        | true => exact absurd ⟨x, by rw [← hr, e]; rfl, hx⟩ (lstrip_head l)
    · have hlast := rstrip_last (lstrip l)
      cases hbl : b.getLast? with
      | none =>
        rw [List.getLast?_eq_none_iff] at hbl
        exfalso
        apply hlast
        refine ⟨' ', ?_, by decide⟩
        show (strip l).getLast? = _
        rw [e, hbl]; simp
      | some y =>
        have hy : (strip l).getLast? = some y := by
          rw [e, List.getLast?_append, List.getLast?_cons, hbl]; rfl
        refine ⟨y, List.mem_append_left _ (List.mem_of_getLast? hbl), ?_⟩
        cases hys : isSpace y with
        | false => rfl
        | true => exact absurd ⟨y, hy, hys⟩ hlast

theorem splitCh_length_one (c : Char) (s : Str) : (splitCh c s).length - 1 = 0 ↔ c ∉ s := by
  constructor
  · intro h hc
    obtain ⟨a, b, e⟩ := List.append_of_mem hc
    rw [e, splitCh_two] at h
    have h1 := List.length_pos_iff.2 (splitCh_ne_nil c a)
    have h2 := List.length_pos_iff.2 (splitCh_ne_nil c b)
    simp only [List.length_append] at h
    omega
  · intro h
    rw [splitCh_none c s h]; rfl

/-- A line is left alone or filled up. -/
theorem justifyLine_spec (w : Int) (l : Str) (hle : len l ≤ w) (he : EndsWs l → len l = w ∨ Blank l) :
    (¬ HasGap l → justifyLine w l = l) ∧
    (HasGap l → len (justifyLine w l) = w ∧ Widened l (justifyLine w l)) := by
  have hws := splitCh_length_one ' ' (strip l)
  constructor
  · intro hg
    rw [hasGap_iff] at hg
    unfold justifyLine
    by_cases hw : w - len l = 0
    · exact if_pos hw
    · refine (if_neg hw).trans (if_pos ?_)
      exact hws.2 hg
  · intro hg
    have hg' := (hasGap_iff l).1 hg
    obtain ⟨t, ht, hb⟩ := lstrip_split l
    by_cases hw : w - len l = 0
    · have : justifyLine w l = l := by
        unfold justifyLine
        simp only
        rw [if_pos hw]
      rw [this]
      exact ⟨by omega, t, t, lstrip l, lstrip l, 1, ht, ht, hb, hb, rfl, lstrip_head l, Nat.le_refl _, stretched_refl _⟩
    · have hend : ¬ EndsWs l := by
        intro h
        rcases he h with h | h
        · omega
        · obtain ⟨a, b, e, ⟨c, hc, hcs⟩, -⟩ := hg
          have := h c (by rw [e]; simp [hc])
          rw [hcs] at this; cases this
      have hrs : rstrip (lstrip l) = lstrip l := by
        apply rstrip_of_end
        intro c hc
        cases hs : isSpace c with
        | false => rfl
        | true =>
          exfalso
          apply hend
          refine ⟨c, ?_, hs⟩
          conv => lhs; rw [ht]
          rw [List.getLast?_append, hc]; rfl
      have hstrip : strip l = lstrip l := hrs
      have hlen : len l - len (lstrip l) = (t.length : Int) := by
        have : len l = t.length + len (lstrip l) := by
          conv => lhs; rw [ht]
          simp [len]
        omega
      generalize hwords : splitCh ' ' (lstrip l) = words
      have hjoin : join [' '] words = lstrip l := by rw [← hwords]; exact join_splitCh ' ' _
      have hno : ∀ x ∈ words, ' ' ∉ x := by rw [← hwords]; exact mem_splitCh _ _
      have hgaps : words.length - 1 ≠ 0 := by
        rw [← hwords, Ne, splitCh_length_one, ← hstrip]
        simpa using hg'
      have hll : len l = t.length + (lstrip l).length := by
        unfold len at hlen ⊢; omega
      -- the numbers
      obtain ⟨g, hg1⟩ : ∃ g, words.length = g + 1 := ⟨words.length - 1, by omega⟩
      obtain ⟨p, hp⟩ : ∃ p : Nat, w - len l = (p : Int) := ⟨(w - len l).toNat, by omega⟩
      have hg0 : 0 < g := by omega
      have hdm := Nat.div_add_mod p g
      have hr : p % g < g := Nat.mod_lt _ hg0
      have e1 : ((p : Int) / ((words.length - 1 : Nat) : Int)) = ((p / g : Nat) : Int) := by
        rw [hg1, Nat.add_sub_cancel, Int.natCast_ediv]
      have e2 : ((p : Int) % ((words.length - 1 : Nat) : Int)) = ((p % g : Nat) : Int) := by
        rw [hg1, Nat.add_sub_cancel, Int.natCast_emod]
      generalize hn : p / g = n at *
      generalize hrr : p % g = r at *
      have rep1 : rep ' ' ((n : Int) + 1) = List.replicate (n + 1) ' ' := by unfold rep; congr 1
      have rep2 : rep ' ' ((n : Int) + 2) = List.replicate (n + 2) ' ' := by unfold rep; congr 1
      have rep0 : rep ' ' (t.length : Int) = List.replicate t.length ' ' := by unfold rep; congr 1
      have hblank : Blank (List.replicate t.length ' ') := by
        intro c hc; rw [List.eq_of_mem_replicate hc]; decide
      have hjl : justifyLine w l =
          if (r : Int) = 0 then List.replicate t.length ' ' ++ join (List.replicate (n + 1) ' ') words
          else List.replicate t.length ' ' ++ join (List.replicate (n + 2) ' ') (words.take r) ++ List.replicate (n + 2) ' ' ++
            join (List.replicate (n + 1) ' ') (words.drop r) := by
        unfold justifyLine
        simp only
        rw [if_neg hw, hrs, hwords, if_neg hgaps, hp, e1, e2, rep1, rep2, hlen, rep0]
        rfl
      rw [hjl]
      by_cases hr0 : r = 0
      · rw [if_pos (by omega)]
        constructor
        · have hl := length_join (n + 1) words
          rw [hjoin, hg1, Nat.add_sub_cancel, Nat.add_mul, Nat.one_mul] at hl
          rw [Nat.mul_comm] at hdm
          simp only [len, List.length_append, List.length_replicate] at hll hp ⊢
          omega
        · exact ⟨t, List.replicate t.length ' ', lstrip l, _, n + 1, ht, rfl, hb, hblank, by simp, lstrip_head l, by omega, by
            rw [← hjoin]; exact stretched_join (.inl rfl) words hno⟩
      · rw [if_neg (by omega)]
        have ht1 : words.take r ≠ [] := by
          intro e
          have := congrArg List.length e
          simp [hg1] at this
          omega
        have ht2 : words.drop r ≠ [] := by
          intro e
          have := congrArg List.length e
          simp [hg1] at this
          omega
        have hsplit : join [' '] (words.take r) ++ [' '] ++ join [' '] (words.drop r) = lstrip l := by
          rw [← join_append _ _ _ ht1 ht2, List.take_append_drop, hjoin]
        constructor
        · have h1 := length_join (n + 2) (words.take r)
          have h2 := length_join (n + 1) (words.drop r)
          have h3 := congrArg List.length hsplit
          have l1 : (words.take r).length = r := by simp; omega
          have l2 : (words.drop r).length = g + 1 - r := by simp [hg1]
          rw [l1] at h1
          rw [l2] at h2
          obtain ⟨r', rfl⟩ : ∃ r', r = r' + 1 := ⟨r - 1, by omega⟩
          obtain ⟨d, rfl⟩ : ∃ d, g = r' + 1 + d := ⟨g - (r' + 1), by omega⟩
          have a2 : r' + 1 + d + 1 - (r' + 1) - 1 = d := by omega
          rw [a2] at h2
          simp only [List.length_append, List.length_cons, List.length_nil] at h3
          simp only [Nat.add_sub_cancel] at h1
          have m1 : (n + 2) * r' = n * r' + 2 * r' := Nat.add_mul _ _ _
          have m2 : (n + 1) * d = n * d + d := by rw [Nat.add_mul, Nat.one_mul]
          have m3 : (r' + 1 + d) * n = n * r' + n + n * d := by
            rw [Nat.add_mul, Nat.add_mul, Nat.one_mul, Nat.mul_comm r' n, Nat.mul_comm d n]
          rw [m1] at h1
          rw [m2] at h2
          rw [m3] at hdm
          simp only [len, List.length_append, List.length_replicate] at hll hp ⊢
          omega
        · refine ⟨t, List.replicate t.length ' ', lstrip l, join (List.replicate (n + 2) ' ') (words.take r) ++
              List.replicate (n + 2) ' ' ++ join (List.replicate (n + 1) ' ') (words.drop r), n + 1, ht, ?_, hb, hblank,
              by simp, lstrip_head l, by omega, ?_⟩
          · simp
          · rw [← hsplit]
            refine stretched_append (stretched_append (stretched_join (.inr rfl) _ ?_) (stretched_gap (.inr rfl)))
              (stretched_join (.inl rfl) _ ?_)
            · exact fun x hx => hno x (List.mem_of_mem_take hx)
            · exact fun x hx => hno x (List.mem_of_mem_drop hx)

/-! ## Wrapped lines -/

theorem indented_mem {o : WrapOpts} {before lines bodies : List Str} (h : Indented o before lines bodies) :
    ∀ l ∈ lines, ∃ b, (l, b) ∈ lines.zip bodies ∧ b ∈ bodies ∧ (l = o.initialIndent ++ b ∨ l = o.subsequentIndent ++ b) := by
  induction lines generalizing before bodies with
  | nil => simp
  | cons l ls ih =>
    cases bodies with
    | nil => exact absurd h (by simp [Indented])
    | cons b bs =>
      obtain ⟨h1, h2⟩ := h
      intro x hx
      rcases List.mem_cons.1 hx with rfl | hx
      · refine ⟨b, by simp, by simp, ?_⟩
        unfold indentAfter at h1
        split at h1
        · exact .inl h1
        · exact .inr h1
      · obtain ⟨b', hb1, hb2, hb3⟩ := ih h2 x hx
        exact ⟨b', by simp [hb1], List.mem_cons_of_mem _ hb2, hb3⟩

theorem mem_nonws {c : Char} {s : Str} (hc : isSpace c = false) : c ∈ nonws s ↔ c ∈ s := by
  unfold nonws
  rw [List.mem_filter]
  simp [hc]

/-- Lines of a text without escape characters have no more characters than columns. -/
theorem wrap_plain_lines {u : Uni} {o : WrapOpts} {text : Str} {lines : List Str} (hm : o.maxLines = none)
    (hb : o.breakLong = true) (hi : len o.initialIndent < o.width) (hs : len o.subsequentIndent < o.width)
    (hbi : Blank o.initialIndent) (hbs : Blank o.subsequentIndent) (he : '\x1b' ∉ text) (h : wrap u o text = .ok lines) :
    ∀ l ∈ lines, '\x1b' ∉ l ∧ len l ≤ o.width := by
  obtain ⟨bodies, hind, hnon⟩ := C18 u o text lines hm h
  intro l hl
  have hno : '\x1b' ∉ l := by
    obtain ⟨b, -, hbm, hor⟩ := indented_mem hind l hl
    have hb' : '\x1b' ∉ b := by
      intro hc
      have : '\x1b' ∈ nonws bodies.flatten := (mem_nonws (by decide)).2 (List.mem_flatten.2 ⟨b, hbm, hc⟩)
      rw [hnon, mem_nonws (by decide)] at this
      exact he this
    intro hc
    rcases hor with e | e
    · rw [e] at hc
      rcases List.mem_append.1 hc with hc | hc
      · have := hbi _ hc; revert this; decide
      · exact hb' hc
    · rw [e] at hc
      rcases List.mem_append.1 hc with hc | hc
      · have := hbs _ hc; revert this; decide
      · exact hb' hc
  refine ⟨hno, ?_⟩
  have := (visibleLe_iff u l o.width).1 (C17 u o text lines hb hi hs h l hl)
  unfold vlen at this
  rw [stripAnsi_noesc u l hno] at this
  exact this

theorem getElem?_dropLast {α : Type} (l : List α) (k : Nat) (h : k + 1 < l.length) : l.dropLast[k]? = l[k]? := by
  rw [List.getElem?_dropLast]
  split
  · rfl
  · omega

theorem justifyLines_get (w : Int) (lines : List Str) :
    (justifyLines w lines).length = lines.length ∧ (justifyLines w lines).getLast? = lines.getLast? ∧
    (∀ k l, lines[k]? = some l → k + 1 < lines.length → (justifyLines w lines)[k]? = some (justifyLine w l)) := by
  cases hl : lines.getLast? with
  | none =>
    rw [List.getLast?_eq_none_iff] at hl
    subst hl
    exact ⟨rfl, rfl, by simp⟩
  | some a =>
    obtain ⟨ys, rfl⟩ := List.getLast?_eq_some_iff.1 hl
    have e : justifyLines w (ys ++ [a]) = ys.map (justifyLine w) ++ [a] := by simp [justifyLines]
    rw [e]
    refine ⟨by simp, by simp, ?_⟩
    intro k l hk hlt
    simp at hlt
    rw [List.getElem?_append_left hlt] at hk
    rw [List.getElem?_append_left (by simpa using hlt), List.getElem?_map, hk]
    rfl

theorem nonws_join_nl (ls : List Str) : nonws (join py"\n" ls) = (ls.map nonws).flatten := by
  induction ls with
  | nil => rfl
  | cons l ls ih =>
    cases ls with
    | nil => simp [join]
    | cons m ls =>
      rw [join_cons_ne _ _ _ (by simp), nonws_append, nonws_append, ih]
      have : nonws py"\n" = [] := by decide
      rw [this]
      simp

theorem nonws_splitWs (s : Str) : nonws s = (splitWs s).flatten := by
  induction s with
  | nil => rfl
  | cons c r ih =>
    by_cases hc : isSpace c = true
    · rw [splitWs_space _ _ hc, ← ih]
      simp [nonws, hc]
    · have hc' : isSpace c = false := by simpa using hc
      have : nonws (c :: r) = c :: nonws r := by simp [nonws, hc']
      rw [this, ih]
      cases r with
      | nil => simp [splitWs, hc']
      | cons y r =>
        rw [splitWs.eq_def (c :: y :: r)]
        simp only [hc', Bool.false_eq_true, if_false]
        split
        · rfl
        · split
          · rename_i h; rw [h]; rfl
          · rename_i h; rw [h]; rfl

/-! ## C25 -/

theorem splitCh_chars {d c : Char} {x l : Str} (hl : l ∈ splitCh d x) (h : c ∈ l) : c ∈ x := by
  rw [← join_splitCh d x]
  generalize splitCh d x = ls at hl
  induction ls with
  | nil => cases hl
  | cons y ys ih =>
    by_cases hn : ys = []
    · subst hn
      simp only [List.mem_singleton] at hl
      subst hl
      simpa [join] using h
    · rw [join_cons _ _ _ hn]
      rcases List.mem_cons.1 hl with rfl | hl
      · simp [h]
      · simp [ih hl]

/-- Justifying adds spaces only. -/
theorem justifyLine_chars (w : Int) (l : Str) (c : Char) (h : c ∈ justifyLine w l) : c = ' ' ∨ c ∈ l := by
  have hword : ∀ x ∈ splitCh ' ' (rstrip (lstrip l)), ∀ c ∈ x, c ∈ l := fun x hx c hc =>
    (strip_sublist l).subset (splitCh_chars hx hc)
  have hrep : ∀ n, c ∈ rep ' ' n → c = ' ' := fun n hc => (List.mem_replicate.1 hc).2
  unfold justifyLine at h
  simp only at h
  split at h
  · exact .inr h
  · split at h
    · exact .inr h
    · split at h
      · rcases List.mem_append.1 h with h | h
        · exact .inl (hrep _ h)
        · rcases mem_join h with h | ⟨x, hx, h⟩
          · exact .inl (hrep _ h)
          · exact .inr (hword x hx c h)
      · simp only [List.mem_append] at h
        rcases h with ((h | h) | h) | h
        · exact .inl (hrep _ h)
        · rcases mem_join h with h | ⟨x, hx, h⟩
          · exact .inl (hrep _ h)
          · exact .inr (hword x (List.mem_of_mem_take hx) c h)
        · exact .inl (hrep _ h)
        · rcases mem_join h with h | ⟨x, hx, h⟩
          · exact .inl (hrep _ h)
          · exact .inr (hword x (List.mem_of_mem_drop hx) c h)

theorem justifyLines_chars (w : Int) (lines : List Str) (l' : Str) (h : l' ∈ justifyLines w lines) (c : Char) (hc : c ∈ l') :
    c = ' ' ∨ ∃ l ∈ lines, c ∈ l := by
  rcases List.mem_append.1 h with h | h
  · obtain ⟨l, hl, rfl⟩ := List.mem_map.1 h
    rcases justifyLine_chars w l c hc with h | h
    · exact .inl h
    · exact .inr ⟨l, List.dropLast_subset _ hl, h⟩
  · simp only [Option.mem_toList] at h
    exact .inr ⟨l', List.mem_of_getLast? h, hc⟩

/-- Full justification of text without escape sequences and with ASCII whitespace only, indents being blank: `lines`
are the wrapped lines and `lines'` the justified ones. (What is missing: with escape sequences, and with other
whitespace, lines come out too short or words are glued together, see `C25_fails` and `C25_nbsp_fails`.) -/
theorem C25_partial (u : Uni) (o : WrapOpts) (text out : Str) (hm : o.maxLines = none) (hd : o.dropWs = true)
    (hb : o.breakLong = true) (hi : len o.initialIndent < o.width) (hs : len o.subsequentIndent < o.width)
    (hbi : Blank o.initialIndent) (hbs : Blank o.subsequentIndent) (hp : PlainWs text) (he : '\x1b' ∉ text)
    (h : fullJustify u o text = .ok out) :
    ∃ lines lines', wrap u o text = .ok lines ∧ out = join py"\n" lines' ∧ lines'.length = lines.length ∧
      lines'.getLast? = lines.getLast? ∧ nonws out = nonws text ∧ (∀ l' ∈ lines', ∀ c ∈ l', c = ' ' ∨ ∃ l ∈ lines, c ∈ l) ∧
      ∀ k l, lines[k]? = some l → k + 1 < lines.length → ∃ l', lines'[k]? = some l' ∧
        (∀ ws, Words l' ws ↔ Words l ws) ∧
        (HasGap l → len l' = o.width ∧ Widened l l') ∧ (¬ HasGap l → l' = l) := by
  unfold fullJustify at h
  cases hw : wrap u o text with
  | error e => rw [hw] at h; cases h
  | ok lines =>
    rw [hw] at h
    simp only [Except.map, Except.ok.injEq] at h
    have hplain := wrap_plain_lines hm hb hi hs hbi hbs he hw
    obtain ⟨bodies, hind, -, hends⟩ := C22_partial u o text lines hm hd hp (.inr ⟨hi, hs⟩) hw
    have hesc : '\x1b' ∉ (wrapInput u o text).flatten := by
      intro hc
      rw [← mem_nonws (by decide), wrapInput_nonws, mem_nonws (by decide)] at hc
      exact he hc
    have hend : ∀ l ∈ lines, EndsWs l → len l = o.width ∨ Blank l := by
      intro l hl hE
      obtain ⟨b, hz, -, hor⟩ := indented_mem hind l hl
      by_cases hbe : b = []
      · right
        rcases hor with e | e <;> rw [e, hbe, List.append_nil] <;> assumption
      · left
        refine (hends (l, b) hz ?_).2.2 hesc
        obtain ⟨c, hc, hcs⟩ := hE
        refine ⟨c, ?_, hcs⟩
        rcases hor with e | e
        all_goals
          rw [e, List.getLast?_append] at hc
          cases hbl : b.getLast? with
          | none => exact absurd (List.getLast?_eq_none_iff.1 hbl) hbe
          | some y => rw [hbl] at hc; simpa using hc
    have hline := fun l hl => justifyLine_spec o.width l (hplain l hl).2 (hend l hl)
    have hwords : ∀ l ∈ lines, splitWs (justifyLine o.width l) = splitWs l := by
      intro l hl
      by_cases hg : HasGap l
      · exact widened_words ((hline l hl).2 hg).2
      · rw [(hline l hl).1 hg]
    obtain ⟨j1, j2, j3⟩ := justifyLines_get o.width lines
    refine ⟨lines, justifyLines o.width lines, rfl, h.symm, j1, j2, ?_, justifyLines_chars o.width lines, ?_⟩
    · obtain ⟨bodies', hind', hnon⟩ := C18 u o text lines hm hw
      rw [← h, nonws_join_nl]
      have a1 : (justifyLines o.width lines).map nonws = lines.map nonws := by
        cases hl : lines.getLast? with
        | none => rw [List.getLast?_eq_none_iff] at hl; subst hl; rfl
        | some a =>
          obtain ⟨ys, rfl⟩ := List.getLast?_eq_some_iff.1 hl
          have e : justifyLines o.width (ys ++ [a]) = ys.map (justifyLine o.width) ++ [a] := by simp [justifyLines]
          rw [e, List.map_append, List.map_append, List.map_map]
          congr 1
          apply List.map_congr_left
          intro l hl
          simp only [Function.comp]
          rw [nonws_splitWs, nonws_splitWs, hwords l (by simp [hl])]
      rw [a1, ← hnon]
      have a2 : ∀ (before lines bodies : List Str), Indented o before lines bodies →
          (lines.map nonws).flatten = nonws bodies.flatten := by
        intro before lines
        induction lines generalizing before with
        | nil => intro bodies hI; cases bodies with
          | nil => rfl
          | cons b bs => exact absurd hI (by simp [Indented])
        | cons l ls ih =>
          intro bodies hI
          cases bodies with
          | nil => exact absurd hI (by simp [Indented])
          | cons b bs =>
            obtain ⟨e, hI⟩ := hI
            rw [List.map_cons, List.flatten_cons, List.flatten_cons, nonws_append, ih _ _ hI, e, nonws_append]
            have : nonws (indentAfter o before) = [] := by
              apply nonws_blank
              unfold indentAfter
              split <;> assumption
            rw [this, List.nil_append]
      exact a2 [] lines bodies' hind'
    · intro k l hk hlt
      have hl := List.mem_of_getElem? hk
      refine ⟨_, j3 k l hk hlt, ?_, (hline l hl).2, (hline l hl).1⟩
      intro ws
      rw [words_iff, words_iff, hwords l hl]

/-- Three words in twelve columns: gaps of three and two spaces. -/
example : fullJustify asciiUni { width := 12, initialIndent := py" " } py"aa bb cc dddddddd eee" =
    .ok py" aa   bb  cc\ndddddddd eee" := by decide
example : fullJustify asciiUni { width := 12 } py"aaaaaaaa bbbbbbbb cc" = .ok py"aaaaaaaa\nbbbbbbbb cc" := by decide
example : HasGap py" aa bb cc" := ⟨py" aa", py"bb cc", rfl, ⟨'a', by simp, by decide⟩, ⟨'b', by simp, by decide⟩⟩

/-- Colour sequences count as columns: the words of the first line are glued together. -/
theorem C25_fails : fullJustify asciiUni { width := 6 } py"\x1b[31ma\x1b[0m b c dddddd" =
    .ok py"\x1b[31ma\x1b[0mbc\ndddddd" := by decide

/-- A non-breaking space at the end of a line: the line is one column short. -/
theorem C25_nbsp_fails : fullJustify asciiUni { width := 7 } py"a b c\u00a0 ddddddd" = .ok py"a  b c\nddddddd" := by decide

/-! ## C26 -/

/-- Right justification: each line is spaces and the wrapped line, and as wide as requested if it has no more
characters than that. -/
theorem C26_right (u : Uni) (o : WrapOpts) (text out : Str) (h : rightJustify u o text = .ok out) :
    ∃ lines lines', wrap u o text = .ok lines ∧ out = join py"\n" lines' ∧ lines'.length = lines.length ∧
      ∀ (k : Nat) l, lines[k]? = some l → ∃ n, lines'[k]? = some (List.replicate n ' ' ++ l) ∧
        (len l ≤ o.width → (n : Int) + len l = o.width) ∧ (o.width ≤ len l → n = 0) := by
  unfold rightJustify at h
  cases hw : wrap u o text with
  | error e => rw [hw] at h; cases h
  | ok lines =>
    rw [hw] at h
    simp only [Except.map, Except.ok.injEq] at h
    have h0 := (wrap_ok hw).1
    refine ⟨lines, _, rfl, h.symm, by simp, ?_⟩
    intro k l hk
    refine ⟨(o.width - len l).toNat, ?_, by omega, by omega⟩
    rw [List.getElem?_map, hk, Option.map_some, right, if_neg (by omega)]
    rfl

/-- Centring: each line is spaces, the wrapped line and spaces, the two differing by at most one. -/
theorem C26_center (u : Uni) (o : WrapOpts) (text out : Str) (h : centerJustify u o text = .ok out) :
    ∃ lines lines', wrap u o text = .ok lines ∧ out = join py"\n" lines' ∧ lines'.length = lines.length ∧
      ∀ (k : Nat) l, lines[k]? = some l → ∃ a b, lines'[k]? = some (List.replicate a ' ' ++ l ++ List.replicate b ' ') ∧
        a ≤ b + 1 ∧ b ≤ a + 1 ∧ (len l ≤ o.width → (a : Int) + len l + b = o.width) ∧ (o.width ≤ len l → a = 0 ∧ b = 0) := by
  unfold centerJustify at h
  cases hw : wrap u o text with
  | error e => rw [hw] at h; cases h
  | ok lines =>
    rw [hw] at h
    simp only [Except.map, Except.ok.injEq] at h
    have h0 := (wrap_ok hw).1
    refine ⟨lines, _, rfl, h.symm, by simp, ?_⟩
    intro k l hk
    by_cases hle : o.width ≤ len l
    · refine ⟨0, 0, ?_, by omega, by omega, by omega, by simp⟩
      rw [List.getElem?_map, hk, Option.map_some, center, if_neg (by omega), centerStr, if_pos hle]
      simp
    · generalize hpad : (o.width - len l).toNat = pad
      generalize hleft : pad / 2 + (if pad % 2 = 1 ∧ o.width.toNat % 2 = 1 then 1 else 0) = left
      refine ⟨left, pad - left, ?_, ?_, ?_, ?_, by omega⟩
      · rw [List.getElem?_map, hk, Option.map_some, center, if_neg (by omega), centerStr, if_neg hle]
        simp only [hpad, hleft]
      all_goals
        revert hleft
        split <;> intro hleft <;> omega

/-- For text without escape sequences that means: every line is exactly as wide as requested. (What is missing: colour
sequences count as columns, so coloured lines come out too short on the screen, see `C26_fails`.) -/
theorem C26_partial (u : Uni) (o : WrapOpts) (text out : Str) (hm : o.maxLines = none)
    (hb : o.breakLong = true) (hi : len o.initialIndent < o.width) (hs : len o.subsequentIndent < o.width)
    (hbi : Blank o.initialIndent) (hbs : Blank o.subsequentIndent) (he : '\x1b' ∉ text)
    (h : rightJustify u o text = .ok out ∨ centerJustify u o text = .ok out) :
    ∃ lines', out = join py"\n" lines' ∧ ∀ l ∈ lines', len l = o.width ∧ stripAnsi u l = l := by
  have hrep : ∀ n, '\x1b' ∉ List.replicate n ' ' := by
    intro n hc
    have := List.eq_of_mem_replicate hc
    revert this; decide
  rcases h with h | h
  · obtain ⟨lines, lines', hw, ho, hl, hk⟩ := C26_right u o text out h
    have hplain := wrap_plain_lines hm hb hi hs hbi hbs he hw
    refine ⟨lines', ho, ?_⟩
    intro x hx
    obtain ⟨k, hkx⟩ := List.getElem?_of_mem hx
    have hkl : k < lines.length := by rw [← hl]; exact getElem?_lt hkx
    obtain ⟨n, e, e1, -⟩ := hk k lines[k] (List.getElem?_eq_getElem hkl)
    rw [hkx] at e
    cases e
    obtain ⟨p1, p2⟩ := hplain _ (List.getElem_mem hkl)
    refine ⟨?_, stripAnsi_noesc u _ ?_⟩
    · rw [← e1 p2]; simp [len]
    · rw [List.mem_append, not_or]; exact ⟨hrep n, p1⟩
  · obtain ⟨lines, lines', hw, ho, hl, hk⟩ := C26_center u o text out h
    have hplain := wrap_plain_lines hm hb hi hs hbi hbs he hw
    refine ⟨lines', ho, ?_⟩
    intro x hx
    obtain ⟨k, hkx⟩ := List.getElem?_of_mem hx
    have hkl : k < lines.length := by rw [← hl]; exact getElem?_lt hkx
    obtain ⟨a, b, e, -, -, e1, -⟩ := hk k lines[k] (List.getElem?_eq_getElem hkl)
    rw [hkx] at e
    cases e
    obtain ⟨p1, p2⟩ := hplain _ (List.getElem_mem hkl)
    refine ⟨?_, stripAnsi_noesc u _ ?_⟩
    · rw [← e1 p2]; simp [len]; omega
    · rw [List.mem_append, List.mem_append, not_or, not_or]; exact ⟨⟨hrep a, p1⟩, hrep b⟩

example : rightJustify asciiUni { width := 6 } py"aa bb cc" = .ok py" aa bb\n    cc" ∧
    centerJustify asciiUni { width := 6 } py"aa bb cc" = .ok py"aa bb \n  cc  " ∧
    centerJustify asciiUni { width := 7 } py"aa bb ccc" = .ok py" aa bb \n  ccc  " := by decide

/-- A red word is not moved to the right: its colour codes fill the line. -/
theorem C26_fails : rightJustify asciiUni { width := 6 } py"\x1b[31ma\x1b[0m" = .ok py"\x1b[31ma\x1b[0m" ∧
    centerJustify asciiUni { width := 6 } py"\x1b[31ma\x1b[0m" = .ok py"\x1b[31ma\x1b[0m" := by decide

end Verif
