import Verif.Spec.Accept
import Verif.Props.Links
import Verif.Props.Tree
import Verif.Proofs.LinkTargets

/-!
# C66: which documents can be read
-/

namespace Verif

open Spec

/-! ## Addresses -/

theorem digitsVal_decimal (p : Str) (hp : ∀ c ∈ p, '0' ≤ c ∧ c ≤ '9') (acc : Nat) (sep : Bool) (hne : p ≠ [] ∨ sep = false) :
    digitsVal 10 acc sep p = some (p.foldl (fun n c => 10 * n + (c.toNat - '0'.toNat)) acc) := by
  induction p generalizing acc sep with
  | nil => rcases hne with h | rfl; exact absurd rfl h; rfl
  | cons c p ih =>
    have hc := hp c (by simp)
    have h1 : 48 ≤ c.toNat := hc.1
    have h2 : c.toNat ≤ 57 := hc.2
    have hne : c ≠ '_' := by rintro rfl; revert h2; decide
    have hv : digitVal 10 c = some (c.toNat - 48) := by
      unfold digitVal
      simp [hc.1, hc.2]
      omega
    simp only [digitsVal, hne, if_false, hv]
    rw [ih (fun c hc => hp c (List.mem_cons_of_mem _ hc)) _ _ (.inr rfl)]
    rfl

theorem digit_noSpace {c : Char} (h1 : '0' ≤ c) (h2 : c ≤ '9') : isSpace c = false ∧ c ≠ '-' ∧ c ≠ '+' := by
  have h1 : 48 ≤ c.toNat := h1
  have h2 : c.toNat ≤ 57 := h2
  have e : c = Char.ofNat c.toNat := (Char.ofNat_toNat c).symm
  rw [e]
  have : ∀ n, 48 ≤ n → n ≤ 57 → isSpace (Char.ofNat n) = false ∧ Char.ofNat n ≠ '-' ∧ Char.ofNat n ≠ '+' := by
    intro n h1 h2
    have : n = 48 ∨ n = 49 ∨ n = 50 ∨ n = 51 ∨ n = 52 ∨ n = 53 ∨ n = 54 ∨ n = 55 ∨ n = 56 ∨ n = 57 := by omega
    rcases this with rfl | rfl | rfl | rfl | rfl | rfl | rfl | rfl | rfl | rfl <;> decide
  exact this _ h1 h2

theorem pyInt_decimal (p : Str) (hp : ∀ c ∈ p, '0' ≤ c ∧ c ≤ '9') (hne : p ≠ []) : pyInt 10 p = some (decimal p : Int) := by
  unfold pyInt
  rw [strip_noSpace _ (fun c hc => (digit_noSpace (hp c hc).1 (hp c hc).2).1)]
  have hv := digitsVal_decimal p hp 0 true (.inl hne)
  cases p with
  | nil => exact absurd rfl hne
  | cons c r =>
    have h1 := digit_noSpace (hp c (by simp)).1 (hp c (by simp)).2
    have e : pySign (c :: r) = (false, c :: r) := by
      unfold pySign
      split
      · rename_i e; simp at e; exact absurd e.1 h1.2.1
      · rename_i e; simp at e; exact absurd e.1 h1.2.2
      · rfl
    have e2 : dropHexPrefix 10 (c :: r) = c :: r := by
      unfold dropHexPrefix
      split <;> simp_all
    rw [e]
    simp only
    rw [e2, hv]
    simp [decimal]

theorem afterColon_partition (s : Str) (p : Str) : AfterColon s p ↔ p = (partition ':' s).2.2 := by
  unfold AfterColon
  rcases partition_cases ':' s with ⟨a, b, rfl, h1, h2⟩ | ⟨h1, h2⟩
  · rw [h2]
    constructor
    · rintro (⟨name, e, hn⟩ | ⟨hn, -⟩)
      · have := partition_some ':' name p hn
        rw [← e, h2] at this
        simp only [Prod.mk.injEq] at this
        exact this.2.2.symm
      · exact absurd (by simp) hn
    · rintro rfl
      exact .inl ⟨a, rfl, h1⟩
  · rw [h2]
    constructor
    · rintro (⟨name, e, hn⟩ | ⟨-, e⟩)
      · exact absurd (by rw [e]; simp) h1
      · exact e
    · rintro rfl
      exact .inr ⟨h1, rfl⟩

theorem userPart_split (s : Str) : ∃ user place, s = user ++ place ∧ UserPart user ∧ '@' ∉ place := by
  induction s with
  | nil => exact ⟨[], [], rfl, .inl rfl, by simp⟩
  | cons x s ih =>
    obtain ⟨user, place, rfl, h1, h2⟩ := ih
    rcases h1 with rfl | h1
    · by_cases hx : x = '@'
      · subst hx; exact ⟨['@'], place, rfl, .inr rfl, h2⟩
      · exact ⟨[], x :: place, rfl, .inl rfl, by simp [h2, Ne.symm hx]⟩
    · refine ⟨x :: user, place, rfl, .inr ?_, h2⟩
      rw [List.getLast?_cons, h1]
      rfl

/-- The port text is what `urllib` finds. -/
theorem portText_iff (netloc p : Str) : PortText netloc p ↔ (hostinfo netloc).2 = if p = [] then none else some p := by
  have key : ∀ q : Str, (if q = [] then none else some q) = (if p = [] then none else some p : Option Str) ↔ p = q := by
    intro q
    by_cases h1 : q = [] <;> by_cases h2 : p = [] <;> simp [h1, h2, eq_comm]
  constructor
  · rintro ⟨user, place, rfl, h1, h2, h3⟩
    rw [hostinfo, userPart_rpartition h1 h2]
    rcases h3 with ⟨h3, h4⟩ | ⟨before, inside, after, h3, h4, h5⟩
    · rw [partition_none _ _ h3]
      rw [afterColon_partition] at h4
      subst h4
      rfl
    · rcases h5 with ⟨rfl, rfl⟩ | ⟨rfl, h5⟩
      · rw [partition_some _ _ _ h3]
        simp only [partition_none _ _ h4]
        rfl
      · rw [partition_some _ _ _ h3]
        simp only [partition_some _ _ _ h4]
        rw [afterColon_partition] at h5
        subst h5
        rfl
  · obtain ⟨user, place, rfl, h1, h2⟩ := userPart_split netloc
    rw [hostinfo, userPart_rpartition h1 h2]
    intro h
    refine ⟨user, place, rfl, h1, h2, ?_⟩
    rcases partition_cases '[' place with ⟨a, b, rfl, h3, h4⟩ | ⟨h3, h4⟩
    · right
      rw [h4] at h
      simp only at h
      rcases partition_cases ']' b with ⟨a', b', rfl, h5, h6⟩ | ⟨h5, h6⟩
      · refine ⟨a, a', b', h3, h5, .inr ⟨rfl, ?_⟩⟩
        rw [h6] at h
        simp only [key] at h
        rw [afterColon_partition]; exact h
      · refine ⟨a, b, [], h3, h5, .inl ⟨rfl, ?_⟩⟩
        rw [h6] at h
        simp only [key] at h
        exact h
    · left
      refine ⟨h3, ?_⟩
      rw [h4] at h
      simp only [key] at h
      rw [afterColon_partition]; exact h

theorem portText_unique {netloc p q : Str} (hp : PortText netloc p) (hq : PortText netloc q) : p = q := by
  rw [portText_iff] at hp hq
  rw [hp] at hq
  by_cases h1 : p = [] <;> by_cases h2 : q = [] <;> simp_all

theorem port_iff (netloc : Str) : (∃ x, port netloc = .ok x) ↔ PortOk netloc := by
  have ex : ∃ p, PortText netloc p := by
    obtain ⟨q, hq⟩ : ∃ q : Str, (hostinfo netloc).2 = if q = [] then none else some q := ⟨_, rfl⟩
    exact ⟨q, (portText_iff _ _).2 hq⟩
  obtain ⟨p, hp⟩ := ex
  have hi := (portText_iff netloc p).1 hp
  rw [port, hi]
  constructor
  · rintro ⟨x, hx⟩
    refine ⟨p, hp, ?_⟩
    by_cases hne : p = []
    · exact .inl hne
    · right
      rw [if_neg hne] at hx
      simp only at hx
      split at hx
      · rename_i hd
        have hd' : ∀ c ∈ p, '0' ≤ c ∧ c ≤ '9' := by
          rw [List.all_eq_true] at hd
          intro c hc
          simpa using hd c hc
        refine ⟨hd', ?_⟩
        rw [pyInt_decimal p hd' hne] at hx
        simp only at hx
        split at hx
        · omega
        · cases hx
      · cases hx
  · rintro ⟨q, hq, h⟩
    cases portText_unique hp hq
    rcases h with rfl | ⟨h1, h2⟩
    · exact ⟨none, rfl⟩
    · by_cases hne : p = []
      · subst hne; exact ⟨none, rfl⟩
      · rw [if_neg hne]
        simp only
        rw [if_pos (by rw [List.all_eq_true]; intro c hc; simpa using h1 c hc), pyInt_decimal p h1 hne]
        simp only
        rw [if_pos (by omega)]
        exact ⟨_, rfl⟩

/-- The address of a link is understood exactly if it should be; otherwise there is a `ValueError`. -/
theorem C66_address (u : Uni) (host : Str) (gopherPort : Int) (raw : Str) :
    (AddressOk u raw → ∃ g, parseHref u host gopherPort (some raw) = .ok g) ∧
    (¬ AddressOk u raw → parseHref u host gopherPort (some raw) = .error .valueError) := by
  have key : (∃ g, parseHref u host gopherPort (some raw) = .ok g) ↔ AddressOk u raw := by
    constructor
    · rintro ⟨g, hg⟩
      obtain ⟨s, scheme, rest, netloc, tail, path, hc, hs, hl, hp⟩ := C41_total raw
      by_cases ha : Acceptable u netloc
      · refine ⟨s, scheme, rest, netloc, tail, hc, hs, hl, ha, fun e => ?_⟩
        subst e
        rw [← port_iff]
        simp only [parseHref, bind, Except.bind, pure, Except.pure, urlparse_eq u hc hs hl hp ha] at hg
        cases hpt : port netloc with
        | ok x => exact ⟨x, rfl⟩
        | error e => rw [hpt] at hg; cases hg
      · simp only [parseHref, bind, Except.bind, urlparse_bad u hc hs hl ha] at hg
        cases hg
    · rintro ⟨s, scheme, rest, netloc, tail, hc, hs, hl, ha, hport⟩
      obtain ⟨path, hp⟩ : ∃ path, PathOf tail path := by
        refine ⟨tail.takeWhile (fun c => decide (c ∉ ['?', '#'])), tail.dropWhile (fun c => decide (c ∉ ['?', '#'])),
          (List.takeWhile_append_dropWhile).symm, fun c hc => ?_, fun c hc => ?_⟩
        · have := List.all_eq_true.1 (List.all_takeWhile (p := fun c => decide (c ∉ ['?', '#'])) (l := tail)) c hc
          simpa using this
        · have := List.head?_dropWhile_not (fun c => decide (c ∉ ['?', '#'])) tail
          rw [hc] at this
          simp only [decide_eq_false_iff_not, Decidable.not_not] at this
          exact this
      simp only [parseHref, bind, Except.bind, pure, Except.pure, urlparse_eq u hc hs hl hp ha]
      split
      · exact ⟨_, rfl⟩
      · split
        · rename_i e
          obtain ⟨x, hx⟩ := (port_iff netloc).2 (hport e)
          rw [hx]
          exact ⟨_, rfl⟩
        · split <;> exact ⟨_, rfl⟩
  refine ⟨key.2, fun h => ?_⟩
  cases hg : parseHref u host gopherPort (some raw) with
  | ok g => exact absurd (key.1 ⟨g, hg⟩) h
  | error e => rw [(C41_error u host gopherPort).2 _ e hg]

/-! ## The open elements -/

/-- The stack lists the open elements. -/
def StackTags (s : PState) (tags : List Str) : Prop :=
  s.stack.reverse.map (fun i => (s.dom.nodes[i]?).bind Node.tag) = tags.map some

theorem stackTags_extends {d d' : Dom} {p : Par} {n : Node} {st : List Nat} (he : Extends d d' p n) (hb : ∀ i ∈ st, i < d.nodes.length) :
    st.reverse.map (fun i => (d'.nodes[i]?).bind Node.tag) = st.reverse.map (fun i => (d.nodes[i]?).bind Node.tag) := by
  apply List.map_congr_left
  intro i hi
  have hlt := hb i (by simpa using hi)
  obtain ⟨pend, e⟩ := he.old i _ (List.getElem?_eq_getElem hlt)
  rw [e, List.getElem?_eq_getElem hlt]
  rfl

theorem step_stackTags {u : Uni} {c : Cfg} {s s' : PState} (h : TInv s.dom s.stack) {tags : List Str} (ht : StackTags s tags) {e : Event}
    (hs : step u c s e = .ok s') : StackTags s' (openAfter tags e) := by
  have hb : ∀ i ∈ s.stack, i < s.dom.nodes.length := by
    intro i hi
    obtain ⟨n, h1, -⟩ := open_mem h.spine i hi
    exact getElem?_lt h1
  unfold StackTags at ht ⊢
  cases e with
  | start tag attrs =>
    obtain ⟨n, h1, -, h3, -, -, h6, -⟩ := handleStart_extends h hs
    rw [h6]
    simp only [openAfter]
    by_cases hv : VoidTag tag
    · have : isVoid tag = true := by rcases hv with rfl | rfl <;> decide
      rw [if_pos hv, this, if_pos rfl, stackTags_extends h1 hb, ht]
    · have : isVoid tag = false := by
        simp only [VoidTag, not_or] at hv
        simp [isVoid, hv.1, hv.2]
      rw [if_neg hv, this, if_neg (by simp), List.reverse_append, List.reverse_singleton, List.map_append, stackTags_extends h1 hb, ht]
      simp [h1.last, h3]
  | stop tag =>
    simp only [step, Except.ok.injEq] at hs
    subst hs
    have hhead : ∀ i n, s.stack.getLast? = some i → s.dom.nodes[i]? = some n → tags.head? = n.tag := by
      intro i n hi hn
      obtain ⟨d, e⟩ := List.getLast?_eq_some_iff.1 hi
      rw [e] at ht
      simp only [List.reverse_append, List.reverse_singleton, List.singleton_append, List.map_cons, hn, Option.bind_some] at ht
      cases tags with
      | nil => cases ht
      | cons a b => simp only [List.map_cons, List.cons.injEq] at ht; rw [ht.1]; rfl
    have htag : ∀ (j k : Nat), (((s.dom.modify j (fun n => { n with closed := true })).nodes[k]?).bind Node.tag) = (s.dom.nodes[k]?).bind Node.tag := by
      intro j k
      simp only [Dom.modify, List.getElem?_modify]
      by_cases e : j = k
      · subst e; cases s.dom.nodes[j]? <;> simp
      · simp [e]
    simp only [openAfter]
    rcases handleEnd_cases h tag with ⟨i, n, h1, h2, h3, h4, h5⟩ | ⟨hno, h4, h5⟩
    · rw [if_pos (by rw [hhead i n h1 h2, h3]), h4, h5]
      simp only [htag]
      obtain ⟨d, e⟩ := List.getLast?_eq_some_iff.1 h1
      rw [e] at ht ⊢
      rw [List.dropLast_concat]
      simp only [List.reverse_append, List.reverse_singleton, List.singleton_append, List.map_cons] at ht
      cases tags with
      | nil => cases ht
      | cons a b => simp only [List.map_cons, List.cons.injEq] at ht; exact ht.2
    · rw [h4, h5, if_neg, ht]
      intro e
      cases hl : s.stack.getLast? with
      | none =>
        rw [List.getLast?_eq_none_iff.1 hl] at ht
        cases tags with
        | nil => cases e
        | cons a b => cases ht
      | some i =>
        obtain ⟨n, h1, -⟩ := open_mem h.spine i (List.mem_of_getLast? hl)
        exact hno i n hl h1 ((hhead i n hl h1).symm.trans e)
  | data text =>
    simp only [step, Except.ok.injEq] at hs
    subst hs
    rw [show (handleData s text).stack = s.stack from rfl, stackTags_extends (handleData_extends h text) hb, ht]
    rfl

theorem feed_stackTags {u : Uni} {c : Cfg} {s s' : PState} (h : TInv s.dom s.stack) {tags : List Str} (ht : StackTags s tags)
    {es : List Event} (hs : feed u c s es = .ok s') : StackTags s' (es.foldl openAfter tags) := by
  induction es generalizing s tags with
  | nil => simp [feed_nil] at hs; subst hs; exact ht
  | cons e es ih =>
    rw [feed_cons] at hs
    cases h1 : step u c s e with
    | error x => simp [h1, Except.bind] at hs
    | ok s1 => rw [h1] at hs; exact ih (step_inv h h1) (step_stackTags h ht h1) hs

theorem tagParent_open {u : Uni} {c : Cfg} {s0 s : PState} {es : List Event} (h0 : initParser c = .ok s0)
    (h : feed u c s0 es = .ok s) : (∃ j, tagParent s = .node j) ↔ openTags es ≠ [] := by
  have hinv := reach_inv h0 h
  rw [initParser_eq h0] at h
  have ht := feed_stackTags (s := {}) (tags := []) init_inv rfl h
  unfold tagParent
  rw [getTop_of_inv hinv]
  unfold StackTags at ht
  unfold openTags
  cases hl : s.stack.getLast? with
  | none =>
    rw [List.getLast?_eq_none_iff.1 hl] at ht
    have := List.map_eq_nil_iff.1 ht.symm
    simp [this]
  | some i =>
    have hne : s.stack ≠ [] := by rintro e; rw [e] at hl; cases hl
    simp only [Par.node.injEq, exists_eq', true_iff]
    intro e
    rw [e] at ht
    simp at ht
    exact hne ht

/-! ## Start tags -/

theorem newTag_outcome (tag : Str) (p : Par) (attrs : List (Str × Option Str)) :
    (attrOf attrs py"class" = some none → newTag tag p attrs = .error .attributeError) ∧
    (attrOf attrs py"class" ≠ some none → ∃ n, newTag tag p attrs = .ok n) := by
  have hc := rawAttrs_get attrs py"class"
  constructor
  · intro h
    rw [h] at hc
    simp only [newTag, extractClasses, hc, Option.map_some, attrVal, bind, Except.bind]
  · intro h
    cases ha : attrOf attrs py"class" with
    | none =>
      rw [ha] at hc
      simp only [newTag, extractClasses, hc, Option.map_none, bind, Except.bind, pure, Except.pure]
      exact ⟨_, rfl⟩
    | some v =>
      cases v with
      | none => exact absurd ha h
      | some v =>
        rw [ha] at hc
        simp only [newTag, extractClasses, hc, Option.map_some, attrVal, bind, Except.bind, pure, Except.pure]
        exact ⟨_, rfl⟩

theorem newLink_outcome (u : Uni) (tag : Str) (p : Par) (attrs : List (Str × Option Str)) (ctx : LinkCtx) :
    (attrOf attrs py"class" = some none → newLink u tag p attrs ctx = .error .attributeError) ∧
    (attrOf attrs py"class" ≠ some none → ∀ raw, attrOf attrs (addressAttr tag) = some (some raw) → ¬ AddressOk u raw →
      newLink u tag p attrs ctx = .error .valueError) ∧
    (attrOf attrs py"class" ≠ some none → (∀ raw, attrOf attrs (addressAttr tag) = some (some raw) → AddressOk u raw) →
      ∃ n, newLink u tag p attrs ctx = .ok n) := by
  have hatt : ∀ n, newTag tag p attrs = .ok n → attrStr n.attrs (if tag = py"a" then py"href" else py"src") =
      (attrOf attrs (addressAttr tag)).join := by
    intro n hn
    exact attrStr_src (newTag_agree hn) (addressAttr tag) (by unfold addressAttr; split <;> decide)
  refine ⟨fun h => ?_, fun h raw hr ha => ?_, fun h ha => ?_⟩
  · simp only [newLink, (newTag_outcome tag p attrs).1 h, bind, Except.bind]
  · obtain ⟨n, hn⟩ := (newTag_outcome tag p attrs).2 h
    simp only [newLink, hn, bind, Except.bind, hatt n hn, hr, Option.join_some, (C66_address u ctx.gopherHost ctx.gopherPort raw).2 ha]
  · obtain ⟨n, hn⟩ := (newTag_outcome tag p attrs).2 h
    have : ∃ g, parseHref u ctx.gopherHost ctx.gopherPort (attrOf attrs (addressAttr tag)).join = .ok g := by
      cases hr : attrOf attrs (addressAttr tag) with
      | none => exact ⟨_, rfl⟩
      | some v =>
        cases v with
        | none => exact ⟨_, rfl⟩
        | some raw => exact (C66_address u ctx.gopherHost ctx.gopherPort raw).1 (ha raw hr)
    obtain ⟨g, hg⟩ := this
    simp only [newLink, hn, bind, Except.bind, hatt n hn, hg, pure, Except.pure]
    exact ⟨_, rfl⟩

theorem registerLink_outcome (c : Cfg) (s : PState) (tag : Str) (p : Par) (i : Nat) :
    (c.placement tag = py"after_block" → (∀ j, p ≠ .node j) → registerLink c s tag p i = .error .attributeError) ∧
    ((c.placement tag = py"after_block" → ∃ j, p = .node j) → ∃ s', registerLink c s tag p i = .ok s') := by
  constructor
  · intro h hp
    have h1 : py"after_block" ≠ py"footer" := by decide
    simp only [registerLink, h, if_neg h1, if_true, bind, Except.bind]
  · intro h
    simp only [registerLink, bind, Except.bind, pure, Except.pure]
    by_cases h1 : c.placement tag = py"footer"
    · rw [if_pos h1]
      simp only
      split <;> exact ⟨_, rfl⟩
    · rw [if_neg h1]
      by_cases h2 : c.placement tag = py"after_block"
      · obtain ⟨j, rfl⟩ := h h2
        rw [if_pos h2]
        simp only
        split <;> exact ⟨_, rfl⟩
      · rw [if_neg h2]
        simp only
        split <;> exact ⟨_, rfl⟩

theorem placement_after (c : Cfg) {tag : Str} (hl : tag = py"a" ∨ tag = py"img") : c.placement tag = py"after_block" ↔
    (tag = py"a" ∧ c.linkPlacement = py"after_block" ∨ tag = py"img" ∧ c.imagePlacement = py"after_block") := by
  rcases hl with rfl | rfl
  · simp [Cfg.placement]
  · simp [Cfg.placement]

theorem handleStart_outcome {u : Uni} {c : Cfg} {s : PState} {P : Prop} (hp : (∃ j, tagParent s = .node j) ↔ P) (tag : Str)
    (attrs : List (Str × Option Str)) :
    (∀ e, Problem u c P tag attrs e → handleStart u c s tag attrs = .error e) ∧
    ((∀ e, ¬ Problem u c P tag attrs e) → ∃ s', handleStart u c s tag attrs = .ok s') := by
  by_cases hl : tag = py"a" ∨ tag = py"img"
  · have hl' : isLinkTag tag = true := by rcases hl with rfl | rfl <;> decide
    simp only [handleStart, hl', if_true]
    generalize hs1 : (if tag = py"pre" then { s with inPre := true } else s) = s1
    obtain ⟨g1, g2, g3⟩ := newLink_outcome u tag (tagParent s) attrs (linkCtx c s1)
    constructor
    · intro e he
      cases he with
      | «class» h => simp only [g1 h, bind, Except.bind]
      | address h1 h2 h3 h4 => simp only [g2 h1 _ h3 h4, bind, Except.bind]
      | place h1 h2 h3 h4 =>
        obtain ⟨n, hn⟩ := g3 h1 h2
        simp only [hn, bind, Except.bind]
        rw [(registerLink_outcome c _ tag (tagParent s) _).1 ((placement_after c hl).2 h3) (fun j e => h4 (hp.1 ⟨j, e⟩))]
    · intro hno
      have h1 : attrOf attrs py"class" ≠ some none := fun h => hno _ (.class h)
      have h2 : ∀ raw, attrOf attrs (addressAttr tag) = some (some raw) → AddressOk u raw :=
        fun raw hr => Classical.byContradiction fun hn => hno _ (.address h1 hl hr hn)
      obtain ⟨n, hn⟩ := g3 h1 h2
      simp only [hn, bind, Except.bind]
      obtain ⟨s', hs'⟩ := (registerLink_outcome c { s1 with dom := { s1.dom with nodes := s1.dom.nodes ++ [n] } } tag (tagParent s)
        s1.dom.nodes.length).2 (fun h => hp.2 (Classical.byContradiction fun hn => hno _ (.place h1 h2 ((placement_after c hl).1 h) hn)))
      rw [hs']
      exact ⟨_, rfl⟩
  · have hl' : isLinkTag tag = false := by
      simp only [not_or] at hl
      simp [isLinkTag, hl.1, hl.2]
    simp only [handleStart, hl', Bool.false_eq_true, if_false]
    obtain ⟨g1, g2⟩ := newTag_outcome tag (tagParent s) attrs
    constructor
    · intro e he
      cases he with
      | «class» h => simp only [g1 h, bind, Except.bind]
      | address h1 h2 h3 h4 => exact absurd h2 hl
      | place h1 h2 h3 h4 => exact absurd (h3.imp And.left And.left) hl
    · intro hno
      obtain ⟨n, hn⟩ := g2 (fun h => hno _ (.class h))
      simp only [hn, bind, Except.bind]
      exact ⟨_, rfl⟩

theorem readable_prefix {u : Uni} {c : Cfg} {a b : List Event} (h : Readable u c (a ++ b)) : Readable u c a := by
  intro before tag attrs after e he
  exact h before tag attrs (after ++ b) e (by rw [he]; simp)

/-- A document is read without an exception exactly if none of its start tags is a problem; otherwise the exception is
that of the first problem. -/
theorem C66 (u : Uni) (c : Cfg) (s0 : PState) (h0 : initParser c = .ok s0) (es : List Event) :
    (Readable u c es → ∃ s, feed u c s0 es = .ok s) ∧
    ∀ before tag attrs after e, es = before ++ .start tag attrs :: after → Readable u c before →
      Problem u c (openTags before ≠ []) tag attrs e → feed u c s0 es = .error e := by
  have main : ∀ es, Readable u c es → ∃ s, feed u c s0 es = .ok s := by
    intro es
    generalize hn : es.length = n
    induction n generalizing es with
    | zero => intro _; rw [List.length_eq_zero_iff.1 hn]; exact ⟨s0, by simp [feed_nil]⟩
    | succ n ih =>
      intro h
      obtain ⟨es, e, rfl⟩ : ∃ es' e, es = es' ++ [e] :=
        ⟨es.dropLast, es.getLast (by rintro rfl; cases hn), (List.dropLast_concat_getLast _).symm⟩
      have ih := ih es (by simpa using hn)
      obtain ⟨s, hs⟩ := ih (readable_prefix h)
      rw [feed_append, hs]
      simp only [Except.bind, feed_cons, feed_nil]
      cases e with
      | start tag attrs =>
        obtain ⟨s', hs'⟩ := (handleStart_outcome (tagParent_open h0 hs) tag attrs).2 (fun e he => h es tag attrs [] e rfl he)
        simp only [step, hs']
        exact ⟨_, rfl⟩
      | stop tag => exact ⟨_, rfl⟩
      | data text => exact ⟨_, rfl⟩
  refine ⟨main es, ?_⟩
  rintro before tag attrs after e rfl hr hp
  obtain ⟨s, hs⟩ := main before hr
  rw [feed_append, hs]
  simp only [Except.bind, feed_cons, step]
  rw [(handleStart_outcome (tagParent_open h0 hs) tag attrs).1 e hp]

/-- Every exception while reading comes from such a problem. -/
theorem C66_only (u : Uni) (c : Cfg) (s0 : PState) (h0 : initParser c = .ok s0) (es : List Event) :
    ((∃ s, feed u c s0 es = .ok s) ↔ Readable u c es) ∧
    ∀ e, feed u c s0 es = .error e → ∃ before tag attrs after, es = before ++ .start tag attrs :: after ∧ Readable u c before ∧
      Problem u c (openTags before ≠ []) tag attrs e := by
  have main : ∀ es, Readable u c es ∨ ∃ before tag attrs after e, es = before ++ .start tag attrs :: after ∧ Readable u c before ∧
      Problem u c (openTags before ≠ []) tag attrs e := by
    intro es
    generalize hn : es.length = n
    induction n generalizing es with
    | zero =>
      left
      rw [List.length_eq_zero_iff.1 hn]
      intro before tag attrs after e he
      simp at he
    | succ n ih =>
      obtain ⟨es, ev, rfl⟩ : ∃ es' e, es = es' ++ [e] :=
        ⟨es.dropLast, es.getLast (by rintro rfl; cases hn), (List.dropLast_concat_getLast _).symm⟩
      rcases ih es (by simpa using hn) with h | ⟨before, tag, attrs, after, e, rfl, h1, h2⟩
      · by_cases hp : ∃ tag attrs e, ev = .start tag attrs ∧ Problem u c (openTags es ≠ []) tag attrs e
        · obtain ⟨tag, attrs, e, rfl, hp⟩ := hp
          exact .inr ⟨es, tag, attrs, [], e, rfl, h, hp⟩
        · left
          intro before tag attrs after e he hpr
          rcases List.eq_nil_or_concat after with rfl | ⟨after', x, rfl⟩
          · obtain ⟨rfl, h2⟩ := List.append_inj' he rfl
            simp only [List.cons.injEq, and_true] at h2
            exact hp ⟨tag, attrs, e, h2, hpr⟩
          · rw [show before ++ Event.start tag attrs :: after'.concat x = (before ++ Event.start tag attrs :: after') ++ [x] by simp] at he
            obtain ⟨h1, -⟩ := List.append_inj' he rfl
            exact h before tag attrs after' e h1 hpr
      · exact .inr ⟨before, tag, attrs, after ++ [ev], e, by simp, h1, h2⟩
  obtain ⟨g1, g2⟩ := C66 u c s0 h0 es
  refine ⟨⟨fun ⟨s, hs⟩ => ?_, g1⟩, fun e he => ?_⟩
  · rcases main es with h | ⟨before, tag, attrs, after, e, h1, h2, h3⟩
    · exact h
    · rw [g2 before tag attrs after e h1 h2 h3] at hs; cases hs
  · rcases main es with h | ⟨before, tag, attrs, after, e', h1, h2, h3⟩
    · obtain ⟨s, hs⟩ := g1 h
      rw [hs] at he; cases he
    · rw [g2 before tag attrs after e' h1 h2 h3] at he
      cases he
      exact ⟨before, tag, attrs, after, h1, h2, h3⟩

/-- A problem of each kind, and none. -/
example : Problem asciiUni {} False py"p" [(py"class", none)] .attributeError ∧
    Problem asciiUni { linkPlacement := py"after_block" } False py"a" [] .attributeError ∧
    (∀ P e, ¬ Problem asciiUni {} P py"p" [(py"class", none), (py"class", some [])] e) ∧
    ¬ PortOk py"u@h:65536" ∧ PortOk py"u@[::1]:065535" := by
  refine ⟨.class rfl, .place (by decide) (by intro raw h; cases h) (.inl ⟨rfl, rfl⟩) (by simp), ?_, ?_, ?_⟩
  · intro P e h
    cases h with
    | «class» h => cases h
    | address h1 h2 => rcases h2 with h | h <;> cases h
    | place h1 h2 h3 => rcases h3 with h | h <;> cases h.1
  · rw [← port_iff]
    rintro ⟨x, h⟩
    revert h
    rw [show port py"u@h:65536" = .error .valueError by decide]
    simp
  · rw [← port_iff]
    exact ⟨some 65535, by decide⟩

example : feed asciiUni {} {} [.start py"a" [(py"href", some py"gopher://h:65536")]] = .error .valueError ∧
    feed asciiUni { linkPlacement := py"after_block" } {} [.start py"p" [], .stop py"p", .start py"a" []] = .error .attributeError ∧
    ∃ s, feed asciiUni { linkPlacement := py"after_block" } {} [.start py"p" [], .stop py"q", .start py"a" []] = .ok s :=
  ⟨rfl, rfl, ⟨_, rfl⟩⟩

end Verif
