import Verif.Proofs.Tokenizer
import Verif.Spec.Source

/-!
# Reading documents written in the usual way
-/

namespace Verif

open Spec

/-! ## Character references -/

theorem unescapeGo_skip (u : Uni) (a r : Str) : unescapeGo u a.length (a ++ r) = unescapeGo u 0 r := by
  induction a with
  | nil => rfl
  | cons c a ih => simpa [unescapeGo] using ih

theorem refName_char {c : Char} (h : RefName c) : isRefChar c = true ∧ c ≠ '#' ∧ c ≠ '&' ∧ c ≠ ';' := by
  obtain ⟨h1, h2⟩ := h
  simp only [List.mem_cons, List.not_mem_nil, or_false, not_or] at h2
  refine ⟨?_, h2.2.2.1, h2.2.1, h2.2.2.2⟩
  have key : ∀ d, isSpace d = true → c ≠ d := by
    rintro d hd rfl
    rw [h1] at hd
    cases hd
  simp [isRefChar, key '\t' (by decide), key '\n' (by decide), key '\x0c' (by decide), key ' ' (by decide), h2]

theorem takeWhile_name {name next : Str} (hn : ∀ c ∈ name, RefName c) (he : RefEnds name next) :
    ((name ++ next).takeWhile isRefChar).take 32 = name := by
  have h1 : ∀ c ∈ name, isRefChar c = true := fun c hc => (refName_char (hn c hc)).1
  rw [List.takeWhile_append_of_pos h1]
  obtain ⟨h2, h3⟩ := he
  rcases h3 with h3 | h3
  · rw [← h3, List.take_left']
    rfl
  · have : next.takeWhile isRefChar = [] := by
      rcases h3 with rfl | ⟨c, r, rfl, hc⟩
      · rfl
      · rw [List.takeWhile_cons_of_neg]
        simp only [List.mem_cons, List.not_mem_nil, or_false] at hc
        rcases hc with rfl | rfl | rfl | rfl | rfl | rfl | rfl | rfl <;> decide
    rw [this, List.append_nil, List.take_of_length_le h2]

theorem prefixRef_at (u : Uni) {s a t : Str} {n : Nat} (ha : 2 ≤ a.length) (hs : s.take a.length = a) (hn : a.length ≤ n)
    (he : u.entity a = some t) (hk : ∀ k, a.length < k → k ≤ n → u.entity (s.take k) = none) :
    prefixRef u s n = t ++ s.drop a.length := by
  induction n with
  | zero => omega
  | succ n ih =>
    rw [prefixRef, if_neg (by omega)]
    by_cases e : a.length = n + 1
    · rw [← e, hs, he]
    · rw [hk (n + 1) (by omega) (Nat.le_refl _)]
      exact ih (by omega) (fun k h1 h2 => hk k h1 (by omega))

theorem prefixRef_none (u : Uni) {s : Str} {n : Nat} (hk : ∀ k, 1 ≤ k → k ≤ n → u.entity (s.take k) = none) :
    prefixRef u s n = '&' :: s := by
  induction n with
  | zero => rfl
  | succ n ih =>
    rw [prefixRef]
    split
    · rfl
    · rw [hk (n + 1) (by omega) (Nat.le_refl _)]
      exact ih (fun k h1 h2 => hk k h1 (by omega))

theorem charref_name (u : Uni) {name next : Str} (h0 : name ≠ []) (hn : ∀ c ∈ name, RefName c) (he : RefEnds name next) :
    charref u (name ++ next) = some (namedRef u (name ++ next.take (semi next)), name.length + semi next) := by
  obtain ⟨c, r, rfl⟩ := List.exists_cons_of_ne_nil h0
  have hc := (refName_char (hn c (by simp))).2.1
  have ht := takeWhile_name hn he
  have hd : charref u (c :: r ++ next) = (let name := ((c :: r ++ next).takeWhile isRefChar).take 32
    let n := name.length + semi ((c :: r ++ next).drop name.length)
    if name = [] then none else some (namedRef u ((c :: r ++ next).take n), n)) := by
    rw [List.cons_append, charref.eq_def]
    split
    · rename_i h; simp only [List.cons.injEq] at h; exact absurd h.1 hc
    · rfl
  rw [hd, ht]
  simp only [if_neg h0, List.drop_left, List.take_length_add_append]

theorem unescape_step (u : Uni) {x next t : Str} {n : Nat} (h : charref u (x ++ next) = some (t, n)) :
    unescapeGo u 0 ('&' :: (x ++ next)) = t ++ unescapeGo u n (x ++ next) := by
  simp only [unescapeGo, if_true, h]

theorem unescapeGo_semi (u : Uni) (next : Str) : next.take (semi next) ++ unescapeGo u (semi next) next = unescapeGo u 0 next := by
  cases next with
  | nil => rfl
  | cons c r =>
    by_cases hc : c = ';'
    · subst hc
      simp [semi, unescapeGo]
    · have : semi (c :: r) = 0 := by
        unfold semi
        split
        · rename_i h; simp only [List.cons.injEq] at h; exact absurd h.1 hc
        · rfl
      simp [this]

theorem unescapeGo_skip' (u : Uni) (a r : Str) (n : Nat) : unescapeGo u (a.length + n) (a ++ r) = unescapeGo u n r := by
  induction a with
  | nil => simp
  | cons c a ih =>
    rw [List.length_cons, Nat.add_right_comm, List.cons_append]
    simpa [unescapeGo] using ih

theorem takeWhile_digits {base : Nat} {digits ds semi next : Str} (hb : ∀ c, isBaseDigit base c = true ↔ c ∈ digits)
    (hd : ∀ d ∈ ds, d ∈ digits) (hs : ';' ∉ digits) (he : NumberEnds digits semi next) :
    (ds ++ semi ++ next).takeWhile (isBaseDigit base) = ds ∧ Verif.semi ((ds ++ semi ++ next).drop ds.length) = semi.length := by
  have h1 : ∀ c ∈ ds, isBaseDigit base c = true := fun c hc => (hb c).2 (hd c hc)
  rw [List.append_assoc, List.takeWhile_append_of_pos h1, List.drop_left]
  rcases he with rfl | ⟨rfl, he⟩
  · rw [List.cons_append, List.takeWhile_cons_of_neg (by rw [hb]; exact hs)]
    simp [Verif.semi]
  · cases next with
    | nil => simp [Verif.semi]
    | cons c r =>
      obtain ⟨h2, h3⟩ := he c rfl
      rw [List.nil_append, List.takeWhile_cons_of_neg (by rw [hb]; exact h3)]
      refine ⟨by simp, ?_⟩
      unfold Verif.semi
      split
      · rename_i h; simp only [List.cons.injEq] at h; exact absurd h.1 h2
      · rfl

theorem char_le (a b : Char) : a ≤ b ↔ a.toNat ≤ b.toNat := Iff.rfl

theorem isBaseDigit_ten (c : Char) : isBaseDigit 10 c = true ↔ c ∈ decimalDigits := by
  constructor
  · intro h
    have h : '0' ≤ c ∧ c ≤ '9' := by simpa [isBaseDigit] using h
    rw [char_le, char_le] at h
    have hc : c = Char.ofNat c.toNat := (Char.ofNat_toNat c).symm
    have h1 : 48 ≤ c.toNat := h.1
    have h2 : c.toNat ≤ 57 := h.2
    rw [hc]
    generalize c.toNat = n at h1 h2
    have : ∀ n < 58, 48 ≤ n → Char.ofNat n ∈ decimalDigits := by decide
    exact this n (by omega) h1
  · intro h
    have : ∀ c ∈ decimalDigits, isBaseDigit 10 c = true := by decide
    exact this c h

theorem isBaseDigit_sixteen (c : Char) : isBaseDigit 16 c = true ↔ c ∈ hexDigits := by
  constructor
  · intro h
    have h : ('0' ≤ c ∧ c ≤ '9') ∨ ('a' ≤ c ∧ c ≤ 'f') ∨ ('A' ≤ c ∧ c ≤ 'F') := by simpa [isBaseDigit] using h
    simp only [char_le] at h
    have h : (48 ≤ c.toNat ∧ c.toNat ≤ 57) ∨ (97 ≤ c.toNat ∧ c.toNat ≤ 102) ∨ (65 ≤ c.toNat ∧ c.toNat ≤ 70) := h
    have hc : c = Char.ofNat c.toNat := (Char.ofNat_toNat c).symm
    rw [hc]
    generalize c.toNat = n at h
    have : ∀ n < 103, (48 ≤ n ∧ n ≤ 57) ∨ (97 ≤ n ∧ n ≤ 102) ∨ (65 ≤ n ∧ n ≤ 70) → Char.ofNat n ∈ hexDigits := by decide
    exact this n (by omega) h
  · intro h
    have : ∀ c ∈ hexDigits, isBaseDigit 16 c = true := by decide
    exact this c h

theorem number_eq {base : Nat} {ds : Str} (h : ∀ d ∈ ds, d ∈ hexDigits) :
    ds.foldl (fun n c => base * n + baseDigit c) 0 = numberIn base ds := by
  have key : ∀ c ∈ hexDigits, baseDigit c = digitValue c := by decide
  have : ∀ n, ds.foldl (fun n c => base * n + baseDigit c) n = ds.foldl (fun n c => base * n + digitValue c) n := by
    induction ds with
    | nil => intro n; rfl
    | cons d ds ih =>
      intro n
      simp only [List.foldl_cons]
      rw [key d (h d (by simp)), ih (fun e he => h e (by simp [he]))]
  exact this 0

theorem decimal_hex {d : Char} (h : d ∈ decimalDigits) : d ∈ hexDigits := by
  have : ∀ d ∈ decimalDigits, d ∈ hexDigits := by decide
  exact this d h

theorem lookup_none {n : Nat} (h : n ≠ 0 ∧ n ≠ 13 ∧ (n < 128 ∨ 160 ≤ n)) : invalidCharrefs.lookup n = none := by
  have : ∀ x ∈ invalidCharrefs, x.1 = 0 ∨ x.1 = 13 ∨ (128 ≤ x.1 ∧ x.1 < 160) := by decide
  rw [List.lookup_eq_none_iff]
  intro x hx
  have := this x hx
  simp only [beq_iff_eq, bne_iff_ne, ne_eq]
  omega

theorem noCharacter_iff {n : Nat} (h : n < 128 ∨ 160 ≤ n) (h' : n ≤ 0x10ffff) : invalidCodepoint n = true ↔ NoCharacter n := by
  simp only [invalidCodepoint, NoCharacter, Bool.or_eq_true, Bool.and_eq_true, decide_eq_true_eq, beq_iff_eq]
  omega

theorem numericRef_ok {n : Nat} {t : Str} (h : Numbered n t) : numericRef n = t := by
  rcases h with ⟨h1, h2, h3, c, hc, rfl⟩ | ⟨h1, rfl⟩ | ⟨h1, rfl⟩ | ⟨h1, c, hc, rfl⟩
  · have hv : n.isValidChar := by rw [← hc]; exact c.valid
    by_cases h13 : n = 13
    · subst h13
      rw [show c = '\r' from by rw [← Char.ofNat_toNat c, hc]]
      decide
    · have hle : n ≤ 0x10ffff ∧ ¬ (0xd800 ≤ n ∧ n ≤ 0xdfff) := by
        rcases hv with h | h <;> constructor <;> omega
      rw [numericRef, lookup_none ⟨h3, h13, h2⟩]
      simp only
      rw [if_neg (by simp; omega), if_neg (by rw [noCharacter_iff h2 hle.1]; exact h1), ← hc, Char.ofNat_toNat]
  · rcases h1 with rfl | h1
    · decide
    · rw [numericRef, lookup_none (by omega)]
      simp only
      rw [if_pos (by simp; omega)]
  · have h2 : n < 128 ∨ 160 ≤ n := by simp only [NoCharacter] at h1; omega
    have hle : n ≤ 0x10ffff ∧ ¬ (0xd800 ≤ n ∧ n ≤ 0xdfff) ∧ n ≠ 0 ∧ n ≠ 13 := by simp only [NoCharacter] at h1; omega
    rw [numericRef, lookup_none ⟨hle.2.2.1, hle.2.2.2, h2⟩]
    simp only
    rw [if_neg (by simp; omega), if_pos ((noCharacter_iff h2 hle.1).2 h1)]
  · have key : ∀ k ∈ List.range 32, ∀ c ∈ codePage1252[k]?, numericRef (k + 128) = [c] := by decide
    have hk : n - 128 < 32 := by
      obtain ⟨h, -⟩ := List.getElem?_eq_some_iff.mp hc
      exact h
    have := key (n - 128) (List.mem_range.mpr hk) c hc
    rwa [Nat.sub_add_cancel h1] at this

theorem unescape_ref (u : Uni) {x t next : Str} (h : Ref u.entity x t next) :
    unescapeGo u 0 ('&' :: (x ++ next)) = t ++ unescapeGo u 0 next := by
  cases h with
  | @named name t next h0 hn hl he =>
    have := charref_name u h0 hn (next := py";" ++ next) ⟨hl, .inr (.inr ⟨';', next, rfl, by decide⟩)⟩
    rw [show semi (py";" ++ next) = 1 from rfl, show (py";" ++ next).take 1 = py";" from rfl, ← List.append_assoc] at this
    rw [unescape_step u this, namedRef, he]
    simp only
    rw [show name.length + 1 = (name ++ py";").length by simp, unescapeGo_skip]
  | @decimal ds sm t next h0 hd hl hv he =>
    obtain ⟨e1, e2⟩ := takeWhile_digits isBaseDigit_ten hd (by decide) he
    have : charref u ('#' :: (ds ++ sm) ++ next) = some (t, ('#' :: (ds ++ sm)).length) := by
      simp only [List.cons_append, charref, e1, e2, h0, ne_eq, not_false_eq_true, if_true]
      rw [number_eq (fun d hh => decimal_hex (hd d hh)), numericRef_ok hv]
      simp; omega
    rw [unescape_step u this, unescapeGo_skip]
  | @hex x ds sm t next hx h0 hd hl hv he =>
    obtain ⟨e1, e2⟩ := takeWhile_digits isBaseDigit_sixteen hd (by decide) he
    have hx' : isBaseDigit 10 x = false := by rcases hx with rfl | rfl <;> decide
    have : charref u ('#' :: x :: (ds ++ sm) ++ next) = some (t, ('#' :: x :: (ds ++ sm)).length) := by
      simp only [List.cons_append, charref]
      rw [List.takeWhile_cons_of_neg (by simp [hx'])]
      simp only [e1, e2, h0, hx, ne_eq, not_true_eq_false, not_false_eq_true, if_true, if_false, and_self]
      rw [number_eq hd, numericRef_ok hv]
      simp; omega
    rw [unescape_step u this, unescapeGo_skip]
  | @unclosed a b t next ha hn he hent hk hc =>
    have h0 : a ++ b ≠ [] := by
      intro e
      have : a.length = 0 := by rw [(List.append_eq_nil_iff.1 e).1]; rfl
      omega
    rw [unescape_step u (charref_name u h0 hn he), unescapeGo_skip']
    have key : namedRef u (a ++ b ++ next.take (semi next)) = t ++ b ++ next.take (semi next) := by
      have hdrop : ∀ z : Str, (a ++ b ++ z).drop a.length = b ++ z := by intro z; simp
      have htake : ∀ z : Str, (a ++ b ++ z).take a.length = a := by intro z; simp
      have hk' : ∀ z : Str, ∀ k, a.length < k → k ≤ (a ++ b).length → u.entity ((a ++ b ++ z).take k) = none := by
        intro z k h1 h2
        rw [List.take_append_of_le_length h2]
        exact hk k h1 h2
      cases next with
      | nil =>
        simp only [semi, List.take_nil, List.append_nil]
        by_cases hb : b = []
        · subst hb; simp [namedRef, hent]
        · have hbl := List.length_pos_iff.2 hb
          rw [namedRef, show u.entity (a ++ b) = none by
            have := hk (a ++ b).length (by simp; omega) (Nat.le_refl _)
            rwa [List.take_length] at this]
          have := prefixRef_at u (s := a ++ b) (n := (a ++ b).length - 1) ha (by simp) (by simp; omega) hent
            (fun k h1 h2 => hk k h1 (by omega))
          simp only [this]
          simp
      | cons c r =>
        by_cases hcs : c = ';'
        · subst hcs
          simp only [semi, List.take_succ_cons, List.take_zero]
          rw [namedRef, hc rfl]
          have := prefixRef_at u (s := a ++ b ++ [';']) (n := (a ++ b ++ [';']).length - 1) ha (htake _) (by simp) hent
            (fun k h1 h2 => hk' _ k h1 (by simp at h2; simp; omega))
          simp only [this, hdrop]
          simp
        · have hs0 : semi (c :: r) = 0 := by
            unfold semi
            split
            · rename_i h; simp only [List.cons.injEq] at h; exact absurd h.1 hcs
            · rfl
          simp only [hs0, List.take_zero, List.append_nil]
          by_cases hb : b = []
          · subst hb; simp [namedRef, hent]
          · have hbl := List.length_pos_iff.2 hb
            rw [namedRef, show u.entity (a ++ b) = none by
              have := hk (a ++ b).length (by simp; omega) (Nat.le_refl _)
              rwa [List.take_length] at this]
            have := prefixRef_at u (s := a ++ b) (n := (a ++ b).length - 1) ha (by simp) (by simp; omega) hent
              (fun k h1 h2 => hk k h1 (by omega))
            simp only [this]
            simp
    rw [key, List.append_assoc, unescapeGo_semi]
  | @plain name next hn he hk hc h0 =>
    by_cases hname : x = []
    · subst hname
      have hnone : charref u next = none := by
        rcases he.2 with h | rfl | ⟨c, r, rfl, hm⟩
        · cases h
        · rfl
        · have hne : c ≠ '#' := fun e => h0 rfl (by rw [e]; rfl)
          rw [charref.eq_def]
          split
          · rename_i h; simp only [List.cons.injEq] at h; exact absurd h.1 hne
          · rw [List.takeWhile_cons_of_neg]
            · simp
            · simp only [List.mem_cons, List.not_mem_nil, or_false] at hm
              rcases hm with rfl | rfl | rfl | rfl | rfl | rfl | rfl | rfl <;> decide
      simp [unescapeGo, hnone]
    · rw [unescape_step u (charref_name u hname hn he), unescapeGo_skip']
      have key : namedRef u (x ++ next.take (semi next)) = '&' :: (x ++ next.take (semi next)) := by
        have hwhole : u.entity (x ++ next.take (semi next)) = none := by
          cases next with
          | nil =>
            have := hk x.length (List.length_pos_iff.2 hname) (Nat.le_refl _)
            simpa [semi] using this
          | cons c r =>
            by_cases hcs : c = ';'
            · subst hcs; simpa [semi] using hc rfl
            · have hs0 : semi (c :: r) = 0 := by
                unfold semi
                split
                · rename_i h; simp only [List.cons.injEq] at h; exact absurd h.1 hcs
                · rfl
              have := hk x.length (List.length_pos_iff.2 hname) (Nat.le_refl _)
              simpa [hs0] using this
        rw [namedRef, hwhole]
        refine prefixRef_none u (fun k h1 h2 => ?_)
        have hlen : (next.take (semi next)).length ≤ 1 := by
          rw [List.length_take]
          unfold semi
          split <;> omega
        have : k ≤ x.length := by rw [List.length_append] at h2; omega
        rw [List.take_append_of_le_length this]
        exact hk k h1 this
      rw [key, List.cons_append, List.append_assoc, unescapeGo_semi]
      rfl

theorem unescape_spells (u : Uni) {raw t : Str} (h : Spells u.entity raw t) : unescape u raw = t := by
  induction h with
  | nil => rfl
  | char c hc _ ih => simp only [unescape, unescapeGo, if_neg hc] at ih ⊢; rw [ih]
  | ref hm _ ih => rw [unescape] at ih ⊢; rw [unescape_ref u hm, ih]

theorem refName_of {name : Str} (h : (name.all (fun c => !isSpace c && !(['<', '&', '#', ';'].contains c))) = true) :
    ∀ c ∈ name, RefName c := by
  intro c hc
  have := List.all_eq_true.1 h c hc
  simp only [Bool.and_eq_true, Bool.not_eq_true'] at this
  exact ⟨this.1, by simpa using this.2⟩

theorem spells_refs (u : Uni) : ∀ x ∈ [(py"amp;", '&'), (py"lt;", '<'), (py"gt;", '>'), (py"quot;", '"'), (py"#x27;", '\'')],
    ∀ next, Ref u.entity x.1 [x.2] next := by
  simp only [List.mem_cons, List.not_mem_nil, or_false]
  rintro x (rfl | rfl | rfl | rfl | rfl) next
  · exact .named (name := py"amp") (by simp) (refName_of (by decide)) (by decide) u.entity_amp
  · exact .named (name := py"lt") (by simp) (refName_of (by decide)) (by decide) u.entity_lt
  · exact .named (name := py"gt") (by simp) (refName_of (by decide)) (by decide) u.entity_gt
  · exact .named (name := py"quot") (by simp) (refName_of (by decide)) (by decide) u.entity_quot
  · exact .hex (ds := py"27") (.inl rfl) (by simp) (by decide) (by decide)
      (.inl ⟨by unfold NoCharacter; decide, by decide, by decide, '\'', by decide, rfl⟩) (.inl rfl)

theorem spells_known (u : Uni) {name raw t : Str} {c : Char}
    (hm : (name, c) ∈ [(py"amp;", '&'), (py"lt;", '<'), (py"gt;", '>'), (py"quot;", '"'), (py"#x27;", '\'')])
    (h : Spells u.entity raw t) : Spells u.entity ('&' :: (name ++ raw)) (c :: t) := by
  have := Spells.ref (spells_refs u _ hm raw) h
  exact this

theorem spells_escape (u : Uni) (t : Str) : Spells u.entity (escapeHtml t) t := by
  induction t with
  | nil => exact .nil
  | cons c t ih =>
    simp only [escapeHtml, List.flatMap_cons]
    change Spells u.entity (escapeChar c ++ escapeHtml t) (c :: t)
    rw [escapeChar]
    split
    · subst c; exact spells_known u (name := py"amp;") (by decide) ih
    · split
      · subst c; exact spells_known u (name := py"lt;") (by decide) ih
      · split
        · subst c; exact spells_known u (name := py"gt;") (by decide) ih
        · split
          · subst c; exact spells_known u (name := py"quot;") (by decide) ih
          · split
            · subst c; exact spells_known u (name := py"#x27;") (by decide) ih
            · rename_i h1 _ _ _ _
              exact .char c h1 ih

theorem spells_chars {ent : Str → Option Str} {s raw t : Str} (h : '&' ∉ s) (hr : Spells ent raw t) :
    Spells ent (s ++ raw) (s ++ t) := by
  induction s with
  | nil => exact hr
  | cons c s ih =>
    simp only [List.mem_cons, not_or] at h
    exact .char c (fun e => h.1 e.symm) (ih h.2)

theorem spells_self {ent : Str → Option Str} {t : Str} (h : '&' ∉ t) : Spells ent t t := by
  have := spells_chars (ent := ent) h .nil
  simpa using this

theorem cutAux (bad : Char → Bool) (n : Nat) (l : Str) :
    ((l.take n).contains '&' && !((l.take n).takeWhile (· != '&')).any bad) = true ↔
      ∃ a b, l = a ++ '&' :: b ∧ '&' ∉ a ∧ a.length < n ∧ ∀ c ∈ a, bad c = false := by
  induction l generalizing n with
  | nil => simp
  | cons c l ih =>
    cases n with
    | zero => simp
    | succ n =>
      by_cases hc : c = '&'
      · subst hc
        refine ⟨fun _ => ⟨[], l, rfl, by simp, by simp, by simp⟩, fun _ => ?_⟩
        simp
      · have hc' : ('&' == c) = false := by simp [Ne.symm hc]
        have := ih n
        simp only [List.take_succ_cons, List.contains_cons, hc', Bool.false_or]
        rw [List.takeWhile_cons_of_pos (by simp [hc])]
        simp only [List.any_cons, Bool.not_or]
        constructor
        · intro h
          simp only [Bool.and_eq_true, Bool.not_eq_true'] at h this
          obtain ⟨a, b, e, h1, h2, h3⟩ := this.1 ⟨h.1, h.2.2⟩
          refine ⟨c :: a, b, by rw [e]; rfl, by simp [h1, Ne.symm hc], by simpa using h2, ?_⟩
          intro d hd
          rcases List.mem_cons.1 hd with rfl | hd
          · exact h.2.1
          · exact h3 d hd
        · rintro ⟨a, b, e, h1, h2, h3⟩
          cases a with
          | nil => simp only [List.nil_append, List.cons.injEq] at e; exact absurd e.1 hc
          | cons d a =>
            simp only [List.cons_append, List.cons.injEq] at e
            obtain ⟨rfl, e⟩ := e
            have := this.2 ⟨a, b, e, fun h => h1 (by simp [h]), by simpa using h2, fun x hx => h3 x (by simp [hx])⟩
            have h4 := h3 c (by simp)
            simp only [Bool.and_eq_true, Bool.not_eq_true'] at this ⊢
            exact ⟨this.1, h4, this.2⟩

/-- The text stops after an ampersand with neither blank nor semicolon between. -/
theorem mayBeCut_iff (s : Str) : mayBeCut s = true ↔
    ∃ pre post, s = pre ++ '&' :: post ∧ '&' ∉ post ∧ post.length < 34 ∧ ∀ c ∈ post, isSpace c = false ∧ c ≠ ';' := by
  have e : (s.drop (s.length - 34)).reverse = s.reverse.take 34 := by
    rw [List.reverse_drop]
    by_cases h : 34 ≤ s.length
    · congr 1; omega
    · rw [List.take_of_length_le (by rw [List.length_reverse]; omega), List.take_of_length_le (by rw [List.length_reverse]; omega)]
  simp only [mayBeCut, e]
  rw [cutAux]
  constructor
  · rintro ⟨a, b, h, h1, h2, h3⟩
    refine ⟨b.reverse, a.reverse, ?_, by simpa using h1, by simpa using h2, ?_⟩
    · rw [← List.reverse_reverse s, h]; simp
    · intro c hc
      have := h3 c (by simpa using hc)
      simpa using this
  · rintro ⟨pre, post, h, h1, h2, h3⟩
    refine ⟨post.reverse, pre.reverse, by rw [h]; simp, by simpa using h1, by simpa using h2, ?_⟩
    intro c hc
    have := h3 c (by simpa using hc)
    simp [this.1, this.2]

theorem mayBeCut_open (s : Str) : mayBeCut s = true ↔ OpenEnd s := mayBeCut_iff s

/-- References are not longer than what the tokenizer waits for. -/
theorem ref_prefix {ent : Str → Option Str} {x t next a b : Str} (h : Ref ent x t next) (e : x = a ++ b) (hb : b ≠ [] ∨ ';' ∉ x) :
    '&' ∉ a ∧ a.length < 34 ∧ ∀ d ∈ a, isSpace d = false ∧ d ≠ ';' := by
  have main : ∀ y : Str, ∀ sm : Str, x = y ++ sm → (sm = [] ∨ sm = py";") → y.length < 34 → (∀ d ∈ y, d ≠ '&' ∧ isSpace d = false ∧ d ≠ ';') →
      '&' ∉ a ∧ a.length < 34 ∧ ∀ d ∈ a, isSpace d = false ∧ d ≠ ';' := by
    intro y sm hx hsm hl hy
    have ha : ∃ k, y = a ++ k := by
      rcases hsm with rfl | rfl
      · exact ⟨b, by rw [← e, hx, List.append_nil]⟩
      · have hb : b ≠ [] := by
          rcases hb with hb | hb
          · exact hb
          · exact absurd (by rw [hx]; simp) hb
        obtain ⟨b', c, rfl⟩ : ∃ b' c, b = b' ++ [c] := ⟨b.dropLast, b.getLast hb, (List.dropLast_concat_getLast hb).symm⟩
        refine ⟨b', ?_⟩
        have := hx.symm.trans e
        rw [← List.append_assoc] at this
        exact (List.append_inj' this rfl).1
    obtain ⟨k, hk⟩ := ha
    have hm : ∀ d ∈ a, d ∈ y := fun d hd => by rw [hk]; simp [hd]
    refine ⟨fun hd => (hy _ (hm _ hd)).1 rfl, ?_, fun d hd => (hy _ (hm _ hd)).2⟩
    rw [hk, List.length_append] at hl
    omega
  have hdec : ∀ d ∈ decimalDigits, d ≠ '&' ∧ isSpace d = false ∧ d ≠ ';' := by decide
  have hhex : ∀ d ∈ hexDigits, d ≠ '&' ∧ isSpace d = false ∧ d ≠ ';' := by decide
  have hname : ∀ {d : Char}, RefName d → d ≠ '&' ∧ isSpace d = false ∧ d ≠ ';' := fun h =>
    ⟨(refName_char h).2.2.1, h.1, (refName_char h).2.2.2⟩
  cases h with
  | @named name t next h0 hn hl he => exact main name _ rfl (.inr rfl) (by omega) (fun d hd => hname (hn d hd))
  | @decimal ds sm t next h0 hd hl hv he =>
    refine main ('#' :: ds) sm rfl (he.elim .inr (fun h => .inl h.1)) (by simp; omega) ?_
    intro d hd'
    rcases List.mem_cons.1 hd' with rfl | hd'
    · decide
    · exact hdec d (hd d hd')
  | @hex y ds sm t next hx h0 hd hl hv he =>
    refine main ('#' :: y :: ds) sm rfl (he.elim .inr (fun h => .inl h.1)) (by simp; omega) ?_
    intro d hd'
    rcases List.mem_cons.1 hd' with rfl | hd'
    · decide
    · rcases List.mem_cons.1 hd' with rfl | hd'
      · rcases hx with rfl | rfl <;> decide
      · exact hhex d (hd d hd')
  | @unclosed y z t next ha hn he hent hk hc =>
    exact main (y ++ z) [] (by simp) (.inl rfl) (by have := he.1; omega) (fun d hd => hname (hn d hd))
  | @plain name next hn he hk hc h0 => exact main x [] (by simp) (.inl rfl) (by have := he.1; omega) (fun d hd => hname (hn d hd))

/-- What a reference means depends on the next character only, and not even on that if it ends with a semicolon. -/
theorem ref_next {ent : Str → Option Str} {x t next next' : Str} (h : Ref ent x t next) (e : next'.head? = next.head? ∨ ';' ∈ x) :
    Ref ent x t next' := by
  have hname : ∀ {y : Str}, (∀ c ∈ y, RefName c) → ';' ∉ y := fun h hm => (refName_char (h _ hm)).2.2.2 rfl
  have hends : ∀ y : Str, next'.head? = next.head? → RefEnds y next → RefEnds y next' := by
    rintro y e ⟨h1, h2⟩
    refine ⟨h1, ?_⟩
    rcases h2 with h2 | rfl | ⟨c, r, rfl, hc⟩
    · exact .inl h2
    · exact .inr (.inl (by simpa using e))
    · cases next' with
      | nil => cases e
      | cons d r' =>
        simp only [List.head?_cons, Option.some.injEq] at e
        exact .inr (.inr ⟨d, r', rfl, e ▸ hc⟩)
  have hnum : ∀ digits sm : Str, (next'.head? = next.head? ∨ ';' ∈ sm) → NumberEnds digits sm next → NumberEnds digits sm next' := by
    intro digits sm e h
    rcases h with h | ⟨h1, h2⟩
    · exact .inl h
    · rcases e with e | e
      · exact .inr ⟨h1, by rw [e]; exact h2⟩
      · rw [h1] at e; cases e
  have hdec : ∀ d ∈ decimalDigits, d ≠ ';' := by decide
  have hhex : ∀ d ∈ hexDigits, d ≠ ';' := by decide
  cases h with
  | named h0 hn hl he => exact .named h0 hn hl he
  | decimal h0 hd hl hv he =>
    refine .decimal h0 hd hl hv (hnum _ _ (e.imp id fun h => ?_) he)
    simp only [List.mem_cons, List.mem_append] at h
    rcases h with h | h | h
    · cases h
    · exact absurd rfl (hdec _ (hd _ h))
    · exact h
  | @hex y ds sm t next hx h0 hd hl hv he =>
    refine .hex hx h0 hd hl hv (hnum _ _ (e.imp id fun h => ?_) he)
    simp only [List.mem_cons, List.mem_append] at h
    rcases h with h | h | h | h
    · cases h
    · rcases hx with rfl | rfl <;> cases h
    · exact absurd rfl (hhex _ (hd _ h))
    · exact h
  | @unclosed y z t next ha hn he hent hk hc =>
    rcases e with e | e
    · exact .unclosed ha hn (hends _ e he) hent hk (by rw [NotClosed, e]; exact hc)
    · exact absurd e (hname hn)
  | @plain name next hn he hk hc h0 =>
    rcases e with e | e
    · exact .plain hn (hends _ e he) hk (by rw [NotClosed, e]; exact hc) (by rw [e]; exact h0)
    · exact absurd e (hname hn)

theorem openEnd_append {a b : Str} (h : OpenEnd b) : OpenEnd (a ++ b) := by
  obtain ⟨pre, post, e, h⟩ := h
  exact ⟨a ++ pre, post, by rw [e, List.append_assoc], h⟩

/-- A text cut in two is cut between characters, or the first part ends in the middle of a reference. -/
theorem spells_cut {ent : Str → Option Str} {raw t : Str} (h : Spells ent raw t) (a b : Str) (e : raw = a ++ b) (ho : ¬ OpenEnd a) :
    ∃ ta tb, Spells ent a ta ∧ Spells ent b tb ∧ t = ta ++ tb := by
  induction h generalizing a with
  | nil =>
    cases a with
    | nil => exact ⟨[], [], .nil, by rw [← show ([] : Str) = b from e]; exact .nil, rfl⟩
    | cons x a => simp at e
  | char c hc hs ih =>
    cases a with
    | nil => exact ⟨[], _, .nil, by rw [← show _ = b from e]; exact .char c hc hs, rfl⟩
    | cons x a =>
      simp only [List.cons_append, List.cons.injEq] at e
      obtain ⟨rfl, e⟩ := e
      obtain ⟨ta, tb, h1, h2, h3⟩ := ih a e (fun h => ho (openEnd_append (a := [c]) h))
      exact ⟨c :: ta, tb, .char c hc h1, h2, by rw [h3]; rfl⟩
  | @ref x t raw t' hm hs ih =>
    cases a with
    | nil => exact ⟨[], _, .nil, by rw [← show _ = b from e]; exact .ref hm hs, rfl⟩
    | cons y a =>
      simp only [List.cons_append, List.cons.injEq] at e
      obtain ⟨rfl, e⟩ := e
      have hopen : ∀ z, x = a ++ z → (z ≠ [] ∨ ';' ∉ x) → False := fun z e1 hz =>
        ho ⟨[], a, rfl, ref_prefix hm e1 hz⟩
      rcases List.append_eq_append_iff.1 e with ⟨r, e1, e2⟩ | ⟨z, e1, e2⟩
      · obtain ⟨ta, tb, h1, h2, h3⟩ := ih r e2 (fun h => ho (by rw [e1]; exact openEnd_append (a := '&' :: x) h))
        have hr : Ref ent x t r := by
          refine ref_next hm ?_
          cases r with
          | nil =>
            by_cases hx : ';' ∈ x
            · exact .inr hx
            · exact (hopen [] (by rw [e1]; simp) (.inr hx)).elim
          | cons c r => rw [e2]; exact .inl rfl
        exact ⟨t ++ ta, tb, by rw [e1]; exact .ref hr h1, h2, by rw [h3, List.append_assoc]⟩
      · cases z with
        | nil =>
          rw [List.append_nil] at e1
          subst e1
          by_cases hx : ';' ∈ x
          · refine ⟨t, t', ?_, by rw [e2]; exact hs, rfl⟩
            have := Spells.ref (ref_next hm (next' := []) (.inr hx)) .nil
            simpa using this
          · exact (hopen [] (by simp) (.inr hx)).elim
        | cons y z => exact (hopen _ e1 (.inl (by simp))).elim

end Verif
