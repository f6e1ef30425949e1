import Verif.Spec.Links
import Verif.Proofs.Str
import Verif.Props.Selectors
import Verif.Proofs.Close

/-!
# Link targets
-/

namespace Verif

open Spec

theorem rpartition_none (c : Char) (s : Str) (h : c ∉ s) : rpartition c s = ([], false, s) := by
  induction s with
  | nil => rfl
  | cons x s ih =>
    simp only [List.mem_cons, not_or] at h
    simp only [rpartition, ih h.2]
    rw [if_neg (fun e => h.1 e.symm)]

theorem rpartition_some (c : Char) (a b : Str) (h : c ∉ b) : rpartition c (a ++ c :: b) = (a, true, b) := by
  induction a with
  | nil => simp [rpartition, rpartition_none c b h]
  | cons x a ih => simp [rpartition, ih]

theorem partition_none (c : Char) (s : Str) (h : c ∉ s) : partition c s = (s, false, []) := by
  induction s with
  | nil => rfl
  | cons x s ih =>
    simp only [List.mem_cons, not_or] at h
    simp only [partition, ih h.2]
    rw [if_neg (fun e => h.1 e.symm)]

theorem partition_some (c : Char) (a b : Str) (h : c ∉ a) : partition c (a ++ c :: b) = (a, true, b) := by
  induction a with
  | nil => simp [partition]
  | cons x a ih =>
    simp only [List.mem_cons, not_or] at h
    simp only [List.cons_append, partition, ih h.2]
    rw [if_neg (fun e => h.1 e.symm)]

theorem partition_cases (c : Char) (s : Str) :
    (∃ a b, s = a ++ c :: b ∧ c ∉ a ∧ partition c s = (a, true, b)) ∨ (c ∉ s ∧ partition c s = (s, false, [])) := by
  by_cases h : c ∈ s
  · left
    obtain ⟨a, b, e, hn⟩ := List.eq_append_cons_of_mem h
    exact ⟨a, b, e, hn, e ▸ partition_some c a b hn⟩
  · exact .inr ⟨h, partition_none c s h⟩

/-! ## C40 -/

/-- The item type follows the text after the last dot. -/
theorem C40 (path t : Str) (h : ItemType path t) : guessType path = t := by
  cases h with
  | known hb h =>
    have hd : ∀ p ∈ extensionTypes, '.' ∉ p.1 := by decide
    rw [guessType, rpartition_some _ _ _ (hd _ h)]
    simp only [hb, if_false]
    simp only [extensionTypes, List.mem_cons, List.not_mem_nil, or_false, Prod.mk.injEq] at h
    rcases h with h | h | h | h | h | h | h | h | h | h | h | h <;> obtain ⟨rfl, rfl⟩ := h <;> decide
  | other hb hd h =>
    rename_i before ext
    rw [guessType, rpartition_some _ _ _ hd]
    simp only [hb, if_false]
    have hne : ∀ e t', (e, t') ∈ extensionTypes → ext ≠ e := fun e t' hm he => h t' (he ▸ hm)
    have hne' : ∀ p ∈ extensionTypes, ext ≠ p.1 := fun p hp => hne p.1 p.2 hp
    simp only [extensionTypes, List.forall_mem_cons] at hne'
    simp only [hne', decide_false, Bool.or_false, Bool.false_eq_true, if_false]
  | noDot h => rw [guessType, rpartition_none _ _ h]; rfl
  | onlyExt h =>
    have := rpartition_some '.' [] _ h
    rw [List.nil_append] at this
    rw [guessType, this]; rfl

/-- Every path has exactly one item type. -/
theorem C40_total (path : Str) : ∃ t, ItemType path t ∧ ∀ t', ItemType path t' → t' = t := by
  refine ⟨guessType path, ?_, fun t' h => (C40 path t' h).symm⟩
  by_cases h : '.' ∈ path
  · have key : ∃ a b, path = a ++ '.' :: b ∧ '.' ∉ b := by
      obtain ⟨a, b, e, hn⟩ := List.eq_append_cons_of_mem (List.mem_reverse.2 h)
      refine ⟨b.reverse, a.reverse, ?_, by simpa using hn⟩
      have := congrArg List.reverse e
      simpa using this
    obtain ⟨a, b, rfl, hb⟩ := key
    by_cases ha : a = []
    · subst ha
      have := ItemType.onlyExt hb
      rw [List.nil_append, C40 _ _ this]
      exact this
    · by_cases hk : ∃ t, (b, t) ∈ extensionTypes
      · obtain ⟨t, ht⟩ := hk
        have := ItemType.known ha ht
        rw [C40 _ _ this]
        exact this
      · have := ItemType.other ha hb (fun t ht => hk ⟨t, ht⟩)
        rw [C40 _ _ this]
        exact this
  · have := ItemType.noDot h
    rw [C40 _ _ this]
    exact this

example : guessType py"a.b/c.jpeg" = py"I" ∧ guessType py"a.tar.gz" = py"9" ∧ guessType py"dir" = py"1" ∧ guessType py".htm" = py"1" ∧
    guessType py"A.HTM" = py"9" := by decide

/-! ## C41 -/

theorem dropWhile_split (p : Char → Bool) (a b : Str) (ha : ∀ c ∈ a, p c = true) (hb : ∀ c, b.head? = some c → p c = false) :
    (a ++ b).dropWhile p = b := by
  induction a with
  | nil =>
    cases b with
    | nil => rfl
    | cons c b => simp [hb c rfl]
  | cons x a ih =>
    simp only [List.mem_cons, forall_eq_or_imp] at ha
    simp [ha.1, ih ha.2]

theorem takeWhile_split (p : Char → Bool) (a b : Str) (ha : ∀ c ∈ a, p c = true) (hb : ∀ c, b.head? = some c → p c = false) :
    (a ++ b).takeWhile p = a := by
  induction a with
  | nil =>
    cases b with
    | nil => rfl
    | cons c b => simp [hb c rfl]
  | cons x a ih =>
    simp only [List.mem_cons, forall_eq_or_imp] at ha
    simp [ha.1, ih ha.2]

theorem exists_split (p : Char → Bool) (s : Str) :
    ∃ a b, s = a ++ b ∧ (∀ c ∈ a, p c = true) ∧ ∀ c, b.head? = some c → p c = false := by
  induction s with
  | nil => exact ⟨[], [], rfl, by simp, by simp⟩
  | cons x s ih =>
    by_cases hx : p x = true
    · obtain ⟨a, b, rfl, ha, hb⟩ := ih
      exact ⟨x :: a, b, rfl, by simpa [hx] using ha, hb⟩
    · exact ⟨[], x :: s, rfl, by simp, by simpa using hx⟩

theorem clean_eq {raw s : Str} (h : Clean raw s) : cleanUrl raw = s := by
  obtain ⟨lead, body, rfl, hl, hb, rfl⟩ := h
  rw [cleanUrl, dropWhile_split _ lead body (fun c hc => by simpa using hl c hc) (fun c hc => by simpa using hb c hc)]
  congr 1
  funext c
  rw [Bool.eq_iff_iff]
  simp [and_assoc]

theorem clean_exists (raw : Str) : ∃ s, Clean raw s := by
  obtain ⟨a, b, e, ha, hb⟩ := exists_split (fun c => decide (c.toNat ≤ 32)) raw
  exact ⟨_, a, b, e, fun c hc => by simpa using ha c hc, fun c hc => by simpa using hb c hc, rfl⟩

theorem schemeChar_iff (c : Char) : isSchemeChar c = true ↔ c.isAlphanum = true ∨ c ∈ ['+', '-', '.'] := by
  simp only [isSchemeChar, Char.isAlphanum, Char.isAlpha, Char.isUpper, Char.isLower, Char.isDigit, Bool.or_eq_true, Bool.and_eq_true, decide_eq_true_eq, beq_iff_eq, List.mem_cons, List.not_mem_nil, or_false, Char.le_def, ge_iff_le]
  constructor
  · rintro (((((h | h) | h) | h) | h) | h)
    · exact .inl (.inl (.inr h))
    · exact .inl (.inl (.inl h))
    · exact .inl (.inr h)
    · exact .inr (.inl h)
    · exact .inr (.inr (.inl h))
    · exact .inr (.inr (.inr h))
  · rintro (((h | h) | h) | (h | h | h))
    · exact .inl (.inl (.inl (.inl (.inr h))))
    · exact .inl (.inl (.inl (.inl (.inl h))))
    · exact .inl (.inl (.inl (.inr h)))
    · exact .inl (.inl (.inr h))
    · exact .inl (.inr h)
    · exact .inr h

theorem asciiAlpha_iff (c : Char) : isAsciiAlpha c = true ↔ c.isAlpha = true := by
  simp only [isAsciiAlpha, Char.isAlpha, Char.isUpper, Char.isLower, Bool.or_eq_true, Bool.and_eq_true, decide_eq_true_eq, Char.le_def, ge_iff_le]
  exact Or.comm

theorem absolute_eq {s scheme rest : Str} (h : Absolute s scheme rest) : splitScheme s = (scheme, rest) := by
  obtain ⟨pre, rfl, ⟨c, hc, ha⟩, hall, rfl⟩ := h
  have hcol : ':' ∉ pre := by
    intro hm
    have := hall _ hm
    revert this
    decide
  rw [splitScheme, partition_some _ _ _ hcol]
  cases pre with
  | nil => cases hc
  | cons x r =>
    simp only [List.head?_cons, Option.some.injEq] at hc
    subst hc
    simp only
    rw [if_pos]
    rw [Bool.and_eq_true, List.all_eq_true]
    exact ⟨(asciiAlpha_iff x).2 ha, fun c hc => (schemeChar_iff c).2 (hall c hc)⟩

theorem relative_eq {s : Str} (h : Relative s) : splitScheme s = ([], s) := by
  rw [splitScheme]
  rcases partition_cases ':' s with ⟨a, b, e, hn, hp⟩ | ⟨hn, hp⟩
  · rw [hp]
    cases a with
    | nil => rfl
    | cons x r =>
      simp only
      rw [if_neg]
      intro hh
      rw [Bool.and_eq_true, List.all_eq_true] at hh
      exact h _ b ⟨x :: r, e, ⟨x, rfl, (asciiAlpha_iff x).1 hh.1⟩, fun c hc => (schemeChar_iff c).1 (hh.2 c hc), rfl⟩
  · rw [hp]

theorem located_eq {rest netloc tail : Str} (h : Located rest netloc tail) : splitLocation rest = (netloc, tail) := by
  rcases h with ⟨rfl, hn, ht⟩ | ⟨hr, rfl, rfl⟩
  · rw [splitLocation, splitNetloc]
    simp only
    rw [takeWhile_split _ netloc tail, dropWhile_split _ netloc tail]
    all_goals
      intro c hc
      first
        | have := hn c hc
          simpa [and_assoc] using this
        | have := ht c hc
          simp only [List.mem_cons, List.not_mem_nil, or_false] at this
          rcases this with rfl | rfl | rfl <;> decide
  · rw [splitLocation]
    exact hr

theorem pathOf_eq {tail path : Str} (h : PathOf tail path) : (tail.takeWhile (· != '#')).takeWhile (· != '?') = path := by
  obtain ⟨more, rfl, hp, hm⟩ := h
  have hall : ∀ c ∈ path, c ≠ '?' ∧ c ≠ '#' := fun c hc => by simpa using hp c hc
  have hq : path.takeWhile (· != '?') = path := by
    have := takeWhile_split (· != '?') path [] (fun c hc => by simp [(hall c hc).1]) (by simp)
    rwa [List.append_nil] at this
  cases more with
  | nil => rw [takeWhile_split _ _ _ (fun c hc => by simp [(hall c hc).2]) (by simp), hq]
  | cons x more =>
    have hx := hm x rfl
    simp only [List.mem_cons, List.not_mem_nil, or_false] at hx
    rcases hx with rfl | rfl
    · obtain ⟨a, b, rfl, ha, hb⟩ := exists_split (· != '#') more
      rw [show path ++ '?' :: (a ++ b) = (path ++ '?' :: a) ++ b by simp]
      rw [takeWhile_split _ (path ++ '?' :: a) b]
      · exact takeWhile_split _ _ _ (fun c hc => by simp [(hall c hc).1]) (by simp)
      · intro c hc
        simp only [List.mem_append, List.mem_cons] at hc
        rcases hc with hc | rfl | hc
        · simp [(hall c hc).2]
        · decide
        · exact ha c hc
      · exact hb
    · rw [takeWhile_split _ _ _ (fun c hc => by simp [(hall c hc).2]) (by simp), hq]

theorem schemed_eq {s scheme rest : Str} (h : Schemed s scheme rest) : splitScheme s = (scheme, rest) := by
  rcases h with h | ⟨h, rfl, rfl⟩
  · exact absolute_eq h
  · exact relative_eq h

theorem acceptable_iff (u : Uni) (netloc : Str) :
    Acceptable u netloc ↔ (netloc.contains '[' != netloc.contains ']') = false ∧ (!netloc.isEmpty && !u.netlocOk netloc) = false := by
  simp only [Acceptable, bne_eq_false_iff_eq, Bool.and_eq_false_iff, Bool.not_eq_false', List.isEmpty_iff]
  rw [Bool.eq_iff_iff (a := netloc.contains '['), List.contains_iff_mem, List.contains_iff_mem]

theorem urlparse_eq (u : Uni) {raw s scheme rest netloc tail path : Str} (hc : Clean raw s) (hs : Schemed s scheme rest)
    (hl : Located rest netloc tail) (hp : PathOf tail path) (ha : Acceptable u netloc) :
    urlparse u raw = .ok ⟨scheme, netloc, if usesParams.contains scheme && path.contains ';' then dropParams path else path⟩ := by
  obtain ⟨h1, h2⟩ := (acceptable_iff u netloc).1 ha
  simp only [urlparse, clean_eq hc, schemed_eq hs, located_eq hl, pathOf_eq hp, h1, h2]
  rfl

theorem urlparse_bad (u : Uni) {raw s scheme rest netloc tail : Str} (hc : Clean raw s) (hs : Schemed s scheme rest)
    (hl : Located rest netloc tail) (ha : ¬ Acceptable u netloc) : urlparse u raw = .error .valueError := by
  have := mt (acceptable_iff u netloc).2 ha
  simp only [urlparse, clean_eq hc, schemed_eq hs, located_eq hl]
  split
  · rfl
  · rename_i h1
    rw [if_pos]
    refine eq_true_of_ne_false fun h2 => this ⟨eq_false_of_ne_true h1, h2⟩

theorem usesParams_empty : usesParams.contains ([] : Str) = true := by decide

theorem usesParams_gopher : usesParams.contains py"gopher" = false := by decide

/-- Every reference can be read: it has one cleaned text, scheme, network location and path. -/
theorem C41_total (raw : Str) : ∃ s scheme rest netloc tail path,
    Clean raw s ∧ Schemed s scheme rest ∧ Located rest netloc tail ∧ PathOf tail path := by
  obtain ⟨s, hc⟩ := clean_exists raw
  obtain ⟨scheme, rest, hs⟩ : ∃ scheme rest, Schemed s scheme rest := by
    by_cases h : Relative s
    · exact ⟨[], s, .inr ⟨h, rfl, rfl⟩⟩
    · simp only [Relative, Classical.not_forall] at h
      obtain ⟨scheme, rest, h⟩ := h
      exact ⟨scheme, rest, .inl (Classical.not_not.1 h)⟩
  obtain ⟨netloc, tail, hl⟩ : ∃ netloc tail, Located rest netloc tail := by
    by_cases h : ∃ r, rest = '/' :: '/' :: r
    · obtain ⟨r, rfl⟩ := h
      obtain ⟨a, b, rfl, ha, hb⟩ := exists_split (fun c => decide (c ∉ ['/', '?', '#'])) r
      refine ⟨a, b, .inl ⟨rfl, fun c hc => by simpa using ha c hc, fun c hc => ?_⟩⟩
      have := hb c hc
      simp only [decide_eq_false_iff_not, Decidable.not_not] at this
      exact this
    · exact ⟨[], rest, .inr ⟨fun r e => h ⟨r, e⟩, rfl, rfl⟩⟩
  obtain ⟨path, hp⟩ : ∃ path, PathOf tail path := by
    obtain ⟨a, b, e, ha, hb⟩ := exists_split (fun c => decide (c ∉ ['?', '#'])) tail
    exact ⟨a, b, e, fun c hc => by simpa using ha c hc, fun c hc => by have := hb c hc; simp only [decide_eq_false_iff_not, Decidable.not_not] at this; exact this⟩
  exact ⟨s, scheme, rest, netloc, tail, path, hc, hs, hl, hp⟩

/-- A web address, or one with any other scheme than `gopher`, becomes a `URL:` item on the configured host. -/
theorem C41_web (u : Uni) (host : Str) (gopherPort : Int) {raw s scheme rest netloc tail : Str} (hc : Clean raw s)
    (hs : Absolute s scheme rest) (hl : Located rest netloc tail) (ha : Acceptable u netloc) (hg : scheme ≠ py"gopher") :
    parseHref u host gopherPort (some raw) = .ok ⟨py"h", py"URL:" ++ raw, some host, some gopherPort⟩ := by
  obtain ⟨path, hp⟩ : ∃ path, PathOf tail path := by
    obtain ⟨a, b, e, ha, hb⟩ := exists_split (fun c => decide (c ∉ ['?', '#'])) tail
    exact ⟨a, b, e, fun c hc => by simpa using ha c hc, fun c hc => by have := hb c hc; simp only [decide_eq_false_iff_not, Decidable.not_not] at this; exact this⟩
  have hne : scheme ≠ [] := by
    obtain ⟨pre, _, ⟨c, hh, _⟩, _, rfl⟩ := hs
    cases pre with
    | nil => cases hh
    | cons => simp
  simp only [parseHref, bind, Except.bind, pure, Except.pure, urlparse_eq u hc (.inl hs) hl hp ha, hg, hne, if_false, ite_self]

/-- A relative reference becomes an item on the configured host, with its path as the selector.
The statement is for a path without `;`: see `C41_fails`. -/
theorem C41_relative_partial (u : Uni) (host : Str) (gopherPort : Int) {raw s netloc tail path t : Str} (hc : Clean raw s)
    (hs : Relative s) (hl : Located s netloc tail) (hp : PathOf tail path) (ha : Acceptable u netloc) (hsc : ';' ∉ path)
    (ht : ItemType path t) : parseHref u host gopherPort (some raw) = .ok ⟨t, path, some host, some gopherPort⟩ := by
  have hsc' : path.contains ';' = false := by simpa using hsc
  simp only [parseHref, bind, Except.bind, pure, Except.pure, urlparse_eq u hc (.inr ⟨hs, rfl, rfl⟩) hl hp ha, hsc', Bool.and_false,
    Bool.false_eq_true, if_false]
  rw [C40 path t ht]
  simp

theorem last_slash (s : Str) : (∃ a b, s = a ++ '/' :: b ∧ '/' ∉ b) ∨ '/' ∉ s := by
  by_cases h : '/' ∈ s
  · left
    obtain ⟨a, b, e, hn⟩ := List.eq_append_cons_of_mem (List.mem_reverse.2 h)
    refine ⟨b.reverse, a.reverse, ?_, by simpa using hn⟩
    have := congrArg List.reverse e
    simpa using this
  · exact .inr h

theorem dropParams_eq {path shorter : Str} (h : WithoutParams path shorter) : dropParams path = shorter := by
  obtain ⟨dir, segment, more, rfl, rfl, hd, hsl, hseg, hm⟩ := h
  have hmore : ∀ c, more.head? = some c → (c != ';') = false := by
    rcases hm with rfl | hm
    · simp
    · intro c hc
      rw [hm] at hc
      simp only [Option.some.injEq] at hc
      subst hc; rfl
  have hsegm : (segment ++ more).takeWhile (· != ';') = segment :=
    takeWhile_split _ _ _ (fun c hc => by simpa using fun e : c = ';' => hseg (e ▸ hc)) hmore
  rcases hd with rfl | hd
  · rw [List.nil_append, dropParams, rpartition_none _ _ hsl]
    simpa using hsegm
  · obtain ⟨d, rfl⟩ : ∃ d, dir = d ++ ['/'] := by
      obtain ⟨d, e⟩ := List.getLast?_eq_some_iff.1 hd
      exact ⟨d, e⟩
    rw [show d ++ ['/'] ++ segment ++ more = d ++ '/' :: (segment ++ more) by simp, dropParams, rpartition_some _ _ _ hsl]
    simp only [hsegm]
    simp

/-- What follows a `;` in the last segment of a relative reference is lost. -/
theorem C41_params (u : Uni) (host : Str) (gopherPort : Int) {raw s netloc tail path shorter t : Str} (hc : Clean raw s)
    (hs : Relative s) (hl : Located s netloc tail) (hp : PathOf tail path) (ha : Acceptable u netloc)
    (hw : WithoutParams path shorter) (ht : ItemType shorter t) :
    parseHref u host gopherPort (some raw) = .ok ⟨t, shorter, some host, some gopherPort⟩ := by
  have key : (if usesParams.contains ([] : Str) && path.contains ';' then dropParams path else path) = shorter := by
    rw [usesParams_empty, Bool.true_and, dropParams_eq hw]
    by_cases hsc : path.contains ';' = true
    · rw [if_pos hsc]
    · rw [if_neg hsc]
      obtain ⟨dir, segment, more, rfl, rfl, hd, hsl, hseg, hm⟩ := hw
      rcases hm with rfl | hm
      · simp
      · exfalso
        apply hsc
        cases more with
        | nil => cases hm
        | cons x more =>
          simp only [List.head?_cons, Option.some.injEq] at hm
          subst hm
          simp
  simp only [parseHref, bind, Except.bind, pure, Except.pure, urlparse_eq u hc (.inr ⟨hs, rfl, rfl⟩) hl hp ha, key]
  rw [C40 shorter t ht]
  simp

theorem userPart_rpartition {user host : Str} (hu : UserPart user) (hh : '@' ∉ host) : (rpartition '@' (user ++ host)).2.2 = host := by
  rcases hu with rfl | hu
  · rw [List.nil_append, rpartition_none _ _ hh]
  · obtain ⟨d, rfl⟩ := List.getLast?_eq_some_iff.1 hu
    rw [show d ++ ['@'] ++ host = d ++ '@' :: host by simp, rpartition_some _ _ _ hh]

theorem hostName_mem {host : Str} (h : HostName host) : '@' ∉ host ∧ ':' ∉ host ∧ '[' ∉ host ∧ ']' ∉ host ∧ '%' ∉ host := by
  have := h.2
  refine ⟨?_, ?_, ?_, ?_, ?_⟩ <;> intro hm <;> exact absurd (this _ hm) (by decide)

theorem hostinfo_port {user host p : Str} (hu : UserPart user) (hh : HostName host) (hp : '@' ∉ p ∧ '[' ∉ p) :
    hostinfo (user ++ host ++ ':' :: p) = (host, if p = [] then none else some p) := by
  obtain ⟨h1, h2, h3, h4, h5⟩ := hostName_mem hh
  have e : (rpartition '@' (user ++ host ++ ':' :: p)).2.2 = host ++ ':' :: p := by
    rw [List.append_assoc]
    exact userPart_rpartition hu (by simp [h1, hp.1])
  rw [hostinfo, e, partition_none '[' _ (by simp [h3, hp.2]), partition_some ':' _ _ h2]

theorem hostinfo_none {user host : Str} (hu : UserPart user) (hh : HostName host) :
    hostinfo (user ++ host) = (host, none) := by
  obtain ⟨h1, h2, h3, h4, h5⟩ := hostName_mem hh
  rw [hostinfo, userPart_rpartition hu h1, partition_none '[' _ h3, partition_none ':' _ h2]
  rfl

theorem hostname_of (u : Uni) {netloc host : Str} {p : Option Str} (h : hostinfo netloc = (host, p)) (hh : HostName host) :
    hostname u netloc = some (u.lower host) := by
  rw [hostname, h]
  cases host with
  | nil => exact absurd rfl hh.1
  | cons x r =>
    simp only
    rw [partition_none '%' _ (hostName_mem hh).2.2.2.2]
    simp

theorem natStr_digits (n : Nat) : ∀ c ∈ natStr n, '0' ≤ c ∧ c ≤ '9' := by
  have digit : ∀ k, k < 10 → '0' ≤ Nat.digitChar k ∧ Nat.digitChar k ≤ '9' := by decide
  induction n using Nat.strongRecOn with
  | ind n ih =>
    by_cases h : n < 10
    · rw [natStr_lt n h]
      intro c hc
      simp only [List.mem_singleton] at hc
      exact hc ▸ digit n h
    · rw [natStr_ge n (by omega)]
      intro c hc
      rcases List.mem_append.1 hc with hc | hc
      · exact ih (n / 10) (by omega) c hc
      · simp only [List.mem_singleton] at hc
        exact hc ▸ digit _ (by omega)

/-- A `gopher:` address with a host name and a port becomes an item on that host and port. -/
theorem C41_gopher (u : Uni) (host : Str) (gopherPort : Int) {raw s rest netloc tail path t user name : Str} {n : Nat}
    (hc : Clean raw s) (hs : Absolute s py"gopher" rest) (hl : Located rest netloc tail) (hp : PathOf tail path)
    (ha : Acceptable u netloc) (ht : ItemType path t) (hu : UserPart user) (hh : HostName name) (hn : n ≤ 65535)
    (e : netloc = user ++ name ++ ':' :: natStr n) :
    parseHref u host gopherPort (some raw) = .ok ⟨t, path, some (u.lower name), some n⟩ := by
  have hd := natStr_digits n
  have hi := hostinfo_port (p := natStr n) hu hh
    ⟨fun h => absurd (hd _ h) (by decide), fun h => absurd (hd _ h) (by decide)⟩
  rw [if_neg (natStr_ne_nil n), ← e] at hi
  have hport : port netloc = .ok (some (n : Int)) := by
    rw [port, hi]
    simp only [pyInt_natStr]
    rw [if_pos (by rw [List.all_eq_true]; intro c hc; simpa using hd c hc), if_pos (by omega)]
  simp only [parseHref, bind, Except.bind, pure, Except.pure, urlparse_eq u hc (.inl hs) hl hp ha, usesParams_gopher, Bool.false_and,
    Bool.false_eq_true, if_false, hport, hostname_of u hi hh, C40 path t ht]
  rfl

/-- Without a port in the address the item has none, and `None` is written. -/
theorem C41_gopher_noport (u : Uni) (host : Str) (gopherPort : Int) {raw s rest netloc tail path t user name : Str}
    (hc : Clean raw s) (hs : Absolute s py"gopher" rest) (hl : Located rest netloc tail) (hp : PathOf tail path)
    (ha : Acceptable u netloc) (ht : ItemType path t) (hu : UserPart user) (hh : HostName name) (e : netloc = user ++ name) :
    parseHref u host gopherPort (some raw) = .ok ⟨t, path, some (u.lower name), none⟩ := by
  have hi := hostinfo_none hu hh
  rw [← e] at hi
  have hport : port netloc = .ok none := by rw [port, hi]
  simp only [parseHref, bind, Except.bind, pure, Except.pure, urlparse_eq u hc (.inl hs) hl hp ha, usesParams_gopher, Bool.false_and,
    Bool.false_eq_true, if_false, hport, hostname_of u hi hh, C40 path t ht]
  rfl

/-- A port that is not a number, or is too large, is an error. -/
theorem C41_gopher_badport (u : Uni) (host : Str) (gopherPort : Int) {raw s rest netloc tail path user name p : Str}
    (hc : Clean raw s) (hs : Absolute s py"gopher" rest) (hl : Located rest netloc tail) (hp : PathOf tail path)
    (hu : UserPart user) (hh : HostName name) (e : netloc = user ++ name ++ ':' :: p) (hb : '@' ∉ p ∧ '[' ∉ p) (hne : p ≠ [])
    (hbad : (∃ c ∈ p, ¬ ('0' ≤ c ∧ c ≤ '9')) ∨ ∃ n : Nat, p = natStr n ∧ 65535 < n) :
    parseHref u host gopherPort (some raw) = .error .valueError := by
  by_cases ha : Acceptable u netloc
  · have hi := hostinfo_port (p := p) hu hh hb
    rw [if_neg hne, ← e] at hi
    have hport : port netloc = .error .valueError := by
      rw [port, hi]
      simp only
      rcases hbad with ⟨c, hc, hd⟩ | ⟨n, rfl, hn⟩
      · rw [if_neg]
        rw [List.all_eq_true]
        intro hall
        exact hd (by simpa using hall c hc)
      · simp only [pyInt_natStr]
        rw [if_neg (c := (0 : Int) ≤ n ∧ (n : Int) ≤ 65535) (by omega), ite_self]
    simp only [parseHref, bind, Except.bind, pure, Except.pure, urlparse_eq u hc (.inl hs) hl hp ha, usesParams_gopher, Bool.false_and,
      Bool.false_eq_true, if_false, hport]
    rfl
  · simp only [parseHref, bind, Except.bind, urlparse_bad u hc (.inl hs) hl ha]

/-- A reference `urllib` does not accept is an error, and there are no other errors than `ValueError`. -/
theorem C41_error (u : Uni) (host : Str) (gopherPort : Int) :
    (∀ raw s scheme rest netloc tail : Str, Clean raw s → Schemed s scheme rest → Located rest netloc tail → ¬ Acceptable u netloc →
      parseHref u host gopherPort (some raw) = .error .valueError) ∧
    ∀ href e, parseHref u host gopherPort href = .error e → e = .valueError := by
  refine ⟨fun raw s scheme rest netloc tail hc hs hl ha => ?_, fun href e h => ?_⟩
  · simp only [parseHref, bind, Except.bind, urlparse_bad u hc hs hl ha]
  · cases href with
    | none => cases h
    | some raw =>
      obtain ⟨s, scheme, rest, netloc, tail, path, hc, hs, hl, hp⟩ := C41_total raw
      by_cases ha : Acceptable u netloc
      · have hport : ∀ e, port netloc = .error e → e = .valueError := by
          intro e he
          rw [port] at he
          repeat' split at he
          all_goals cases he
          all_goals rfl
        simp only [parseHref, bind, Except.bind, pure, Except.pure, urlparse_eq u hc hs hl hp ha] at h
        split at h
        · cases h
        · split at h
          · split at h
            · rename_i h'
              cases h
              exact hport _ h'
            · cases h
          · split at h <;> cases h
      · simp only [parseHref, bind, Except.bind, urlparse_bad u hc hs hl ha] at h
        cases h
        rfl

/-- The claim is false: without a port the link has none; a relative path is cut at `;`; and a link without an address
points at `None`. -/
theorem C41_fails :
    parseHref asciiUni py"h" 70 (some py"gopher://k/x.txt") = .ok ⟨py"0", py"/x.txt", some py"k", none⟩ ∧
    parseHref asciiUni py"h" 70 (some py"a;b.txt") = .ok ⟨py"1", py"a", some py"h", some 70⟩ ∧
    parseHref asciiUni py"h" 70 none = .ok ⟨py"h", py"URL:None", some py"h", some 70⟩ := by decide

example : parseHref asciiUni py"h" 70 (some py" HTTP://k:1/x") = .ok ⟨py"h", py"URL: HTTP://k:1/x", some py"h", some 70⟩ ∧
    parseHref asciiUni py"h" 70 (some py"mailto:x") = .ok ⟨py"h", py"URL:mailto:x", some py"h", some 70⟩ ∧
    parseHref asciiUni py"h" 70 (some py"a/b.gif?q#f") = .ok ⟨py"g", py"a/b.gif", some py"h", some 70⟩ ∧
    parseHref asciiUni py"h" 70 (some py"Gopher://u@K:7070/x.txt#y") = .ok ⟨py"0", py"/x.txt", some py"k", some 7070⟩ ∧
    parseHref asciiUni py"h" 70 (some py"gopher://k:x/") = .error .valueError ∧
    parseHref asciiUni py"h" 70 (some py"http://[k/") = .error .valueError := by decide

example : ∃ s rest netloc tail path, Clean py"gopher://u@k:70/x.txt" s ∧ Absolute s py"gopher" rest ∧ Located rest netloc tail ∧
    PathOf tail path ∧ Acceptable asciiUni netloc ∧ ItemType path py"0" ∧ UserPart py"u@" ∧ HostName py"k" ∧
    netloc = py"u@" ++ py"k" ++ ':' :: natStr 70 :=
  ⟨py"gopher://u@k:70/x.txt", py"//u@k:70/x.txt", py"u@k:70", py"/x.txt", py"/x.txt",
    ⟨[], py"gopher://u@k:70/x.txt", by decide, by decide, by simp, by decide⟩,
    ⟨py"gopher", by decide, ⟨'g', by decide, by decide⟩, by decide, by decide⟩, .inl ⟨by decide, by decide, by simp⟩,
    ⟨[], by decide, by decide, by simp⟩, ⟨by decide, .inr (by decide)⟩, .known (before := py"/x") (ext := py"txt") (by decide) (by decide),
    .inr (by decide), ⟨by decide, by decide⟩, by decide⟩


end Verif
