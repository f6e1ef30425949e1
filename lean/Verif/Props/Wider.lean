import Verif.Spec.Wider
import Verif.Props.Parts
import Verif.Props.Fewest
import Verif.Props.Reset
import Verif.Proofs.WrapChars

/-!
# Property C102: a wider page is not longer
-/

namespace Verif

open Spec

/-! ## Texts with no more lines -/

def EndsNl (s : Str) : Prop := s.getLast? = some '\n'

instance (s : Str) : Decidable (EndsNl s) := by unfold EndsNl; infer_instance

/-- The second text has at most as many lines, and it begins and ends like the first. -/
structure NoMore (x x' : Str) : Prop where
  count : x'.count '\n' ≤ x.count '\n'
  nil : x = [] ↔ x' = []
  ends : EndsNl x ↔ EndsNl x'

theorem NoMore.refl (x : Str) : NoMore x x := ⟨Nat.le_refl _, Iff.rfl, Iff.rfl⟩

theorem endsNl_append (x y : Str) : EndsNl (x ++ y) ↔ if y = [] then EndsNl x else EndsNl y := by
  unfold EndsNl
  split
  · rename_i h; subst h; simp
  · rename_i h
    rw [List.getLast?_append]
    cases hl : y.getLast? with
    | none => exact absurd (by simpa using hl) h
    | some c => simp

theorem NoMore.append {x x' y y' : Str} (h : NoMore x x') (k : NoMore y y') : NoMore (x ++ y) (x' ++ y') := by
  refine ⟨?_, ?_, ?_⟩
  · have := h.count; have := k.count
    simp only [List.count_append]; omega
  · simp only [List.append_eq_nil_iff, h.nil, k.nil]
  · rw [endsNl_append, endsNl_append]
    simp only [k.nil, h.ends, k.ends]

theorem NoMore.around {y y' : Str} (h : NoMore y y') (a b : Str) : NoMore (a ++ y ++ b) (a ++ y' ++ b) :=
  ((NoMore.refl a).append h).append (.refl b)

theorem padTo_noNl {w : Int} {l : Str} (h : '\n' ∉ l) : '\n' ∉ padTo w l := by
  unfold padTo
  intro hm
  rcases List.mem_append.1 hm with hm | hm
  · exact h hm
  · exact absurd (List.eq_of_mem_replicate hm) (by decide)

theorem padTo_ne {w : Int} (hw : 0 < w) (l : Str) : padTo w l ≠ [] := by
  unfold padTo
  intro e
  obtain ⟨e1, e2⟩ := List.append_eq_nil_iff.1 e
  subst e1
  simp at e2
  omega

/-- Rows do not end with a line break. -/
theorem join_padded {w : Int} {ls : List Str} (hne : ls ≠ []) (hp : ∀ l ∈ ls, padTo w l ≠ []) (h : ∀ l ∈ ls, '\n' ∉ l) :
    join py"\n" (ls.map (padTo w)) ≠ [] ∧ ¬ EndsNl (join py"\n" (ls.map (padTo w))) := by
  induction ls with
  | nil => exact absurd rfl hne
  | cons l ls ih =>
    cases ls with
    | nil =>
      refine ⟨by simpa [join] using hp l (by simp), ?_⟩
      intro he
      have : '\n' ∈ padTo w l := List.mem_of_getLast? (by simpa [join, EndsNl] using he)
      exact padTo_noNl (h l (by simp)) this
    | cons m ms =>
      obtain ⟨h1, h2⟩ := ih (by simp) (fun x hx => hp x (by simp [hx])) (fun x hx => h x (by simp [hx]))
      have e : join py"\n" ((l :: m :: ms).map (padTo w)) = padTo w l ++ py"\n" ++ join py"\n" ((m :: ms).map (padTo w)) := rfl
      rw [e]
      refine ⟨by simp, ?_⟩
      rw [endsNl_append, if_neg h1]
      exact h2

theorem count_rows {w : Int} {ls : List Str} (h : ∀ l ∈ ls, '\n' ∉ l) : (rows w ls).count '\n' = ls.length - 1 := by
  unfold rows
  rw [count_join]
  · split
    · rename_i e; subst e; rfl
    · simp
  · intro l hl
    obtain ⟨m, hm, rfl⟩ := List.mem_map.1 hl
    refine padTo_noNl ?_
    split at hm
    · rw [List.mem_singleton.1 hm]; simp
    · exact h m hm

theorem rows_end {w : Int} {ls : List Str} (hw : 0 < w) (h : ∀ l ∈ ls, '\n' ∉ l) : rows w ls ≠ [] ∧ ¬ EndsNl (rows w ls) := by
  unfold rows
  refine join_padded ?_ (fun l _ => padTo_ne hw l) ?_
  · split
    · simp
    · assumption
  · intro l hl
    split at hl
    · rw [List.mem_singleton.1 hl]; simp
    · exact h l hl

theorem NoMore.rows {w w' : Int} {ls ls' : List Str} (hw : 0 < w) (hw' : 0 < w') (h : ∀ l ∈ ls, '\n' ∉ l) (h' : ∀ l ∈ ls', '\n' ∉ l)
    (hl : ls'.length ≤ ls.length) : NoMore (rows w ls) (rows w' ls') := by
  obtain ⟨a1, a2⟩ := rows_end hw h
  obtain ⟨b1, b2⟩ := rows_end hw' h'
  refine ⟨?_, by simp [a1, b1], by simp [a2, b2]⟩
  rw [count_rows h, count_rows h']
  omega

theorem padLines_rows (w : Int) (s : Str) : padLines w s = rows w (splitCh '\n' s) := by
  unfold padLines rows
  rw [if_neg (splitCh_ne_nil _ _)]

theorem length_splitCh (s : Str) : (splitCh '\n' s).length = s.count '\n' + 1 := by
  have h1 := count_join (splitCh '\n' s) (mem_splitCh '\n' s)
  rw [show join py"\n" (splitCh '\n' s) = s from join_splitCh '\n' s] at h1
  have := List.length_pos_iff.2 (splitCh_ne_nil '\n' s)
  omega

theorem NoMore.padLines {w w' : Int} {y y' : Str} (hw : 0 < w) (hw' : 0 < w') (h : NoMore y y') : NoMore (padLines w y) (padLines w' y') := by
  rw [padLines_rows, padLines_rows]
  refine .rows hw hw' (mem_splitCh _ _) (mem_splitCh _ _) ?_
  rw [length_splitCh, length_splitCh]
  have := h.count
  omega

theorem count_padLines (w : Int) (y : Str) : (padLines w y).count '\n' = y.count '\n' := by
  rw [padLines_rows, count_rows (mem_splitCh _ _), length_splitCh]
  omega

theorem oneLine_noNl {l : Str} (h : OneLine l) : '\n' ∉ l := fun hm => by have := h _ hm; revert this; decide

theorem lines_count {y : Str} {ls : List Str} (h : Lines y ls) (hb : PlainBreaks y) :
    ls.length = y.count '\n' + (if y = [] ∨ EndsNl y then 0 else 1) := by
  induction h with
  | nil => simp
  | last h hl =>
    rename_i l
    have h0 : '\n' ∉ l := oneLine_noNl hl
    have h1 : ¬ EndsNl l := fun e => h0 (List.mem_of_getLast? e)
    rw [List.count_eq_zero.2 h0]
    simp [h, h1]
  | crlf hl h ih =>
    have := hb '\r' (by simp) (by decide)
    exact absurd this (by decide)
  | brk hl hb' hn h ih =>
    rename_i l r b ls
    have e : b = '\n' := hb b (by simp) hb'
    subst e
    have ih := ih (fun c hc => hb c (by simp [hc]))
    rw [List.length_cons, ih, List.count_append, List.count_eq_zero.2 (oneLine_noNl hl), List.count_cons_self]
    have e2 : EndsNl (l ++ '\n' :: r) ↔ if r = [] then True else EndsNl r := by
      rw [endsNl_append, if_neg (by simp)]
      have := endsNl_append ['\n'] r
      rw [List.singleton_append] at this
      rw [this]
      simp [EndsNl]
    simp only [e2]
    by_cases hr : r = []
    · simp [hr]
    · simp [hr]; omega

theorem NoMore.lines {y y' : Str} {ls ls' : List Str} (h : NoMore y y') (hl : Lines y ls) (hl' : Lines y' ls') (hb : PlainBreaks y)
    (hb' : PlainBreaks y') : ls'.length ≤ ls.length := by
  rw [lines_count hl hb, lines_count hl' hb']
  have := h.count
  simp only [h.nil, h.ends]
  omega

/-! ## Breaks -/

theorem plainBreaks_append {a b : Str} : PlainBreaks (a ++ b) ↔ PlainBreaks a ∧ PlainBreaks b := by
  unfold PlainBreaks
  constructor
  · intro h; exact ⟨fun c hc => h c (by simp [hc]), fun c hc => h c (by simp [hc])⟩
  · rintro ⟨h1, h2⟩ c hc
    rcases List.mem_append.1 hc with hc | hc
    · exact h1 c hc
    · exact h2 c hc

theorem plainBreaks_oneLine {l : Str} (h : OneLine l) : PlainBreaks l := fun c hc hb => by rw [h c hc] at hb; cases hb

theorem oneLine_app {a b : Str} (ha : OneLine a) (hb : OneLine b) : OneLine (a ++ b) := fun c hc => (List.mem_append.1 hc).elim (ha c) (hb c)

theorem oneLine_blanks (n : Nat) : OneLine (List.replicate n ' ') := fun c hc => by rw [List.eq_of_mem_replicate hc]; decide

theorem oneLine_nat (n : Nat) : OneLine (natStr n) := by
  intro c hc
  have h := (natStr_chars n c hc).2.1
  cases e : isLineBreak c with
  | false => rfl
  | true => rw [isLineBreak_space c e] at h; cases h

theorem plainBreaks_newlines (n : Nat) : PlainBreaks (newlines n) := fun _ hc _ => List.eq_of_mem_replicate hc

theorem plainBreaks_join {ls : List Str} (h : ∀ l ∈ ls, PlainBreaks l) : PlainBreaks (join py"\n" ls) := by
  intro c hc hb
  rcases mem_join hc with hc | ⟨m, hm, hc⟩
  · simpa using hc
  · exact h m hm c hc hb

theorem plainBreaks_padTo {w : Int} {l : Str} (h : PlainBreaks l) : PlainBreaks (padTo w l) :=
  plainBreaks_append.2 ⟨h, plainBreaks_oneLine (oneLine_blanks _)⟩

theorem plainBreaks_rows {w : Int} {ls : List Str} (h : ∀ l ∈ ls, PlainBreaks l) : PlainBreaks (rows w ls) := by
  refine plainBreaks_join ?_
  intro l hl
  obtain ⟨m, hm, rfl⟩ := List.mem_map.1 hl
  refine plainBreaks_padTo ?_
  split at hm
  · rw [List.mem_singleton.1 hm]; intro c hc; cases hc
  · exact h m hm

theorem mem_join_of {sep l : Str} {ls : List Str} {c : Char} (hl : l ∈ ls) (hc : c ∈ l) : c ∈ join sep ls := by
  induction ls with
  | nil => cases hl
  | cons a as ih =>
    cases as with
    | nil => rw [List.mem_singleton.1 hl] at hc; exact hc
    | cons b bs =>
      show c ∈ a ++ sep ++ join sep (b :: bs)
      rcases List.mem_cons.1 hl with rfl | hl
      · simp [hc]
      · exact List.mem_append_right _ (ih hl)

theorem kept_mem {pre : Bool} {s : Str} {c : Char} (h : c ∈ normaliseData pre s) : c = ' ' ∨ c ∈ s := by
  unfold normaliseData at h
  split at h
  · exact .inr h
  · obtain ⟨-, rfl | h⟩ := collapse_mem _ _ _ h
    · exact .inl rfl
    · rcases mem_join h with h | ⟨m, hm, h⟩
      · exact .inl (by simpa using h)
      · obtain ⟨l, hl, hsub⟩ := stripInside_mem _ m hm
        refine .inr ?_
        rw [← join_splitCh '\n' s]
        exact mem_join_of hl (hsub.subset h)

theorem plainBreaks_padLines {w : Int} {s : Str} (h : PlainBreaks s) : PlainBreaks (padLines w s) := by
  rw [padLines_rows]
  refine plainBreaks_rows ?_
  intro l hl c hc
  refine h c ?_
  have : s = join ['\n'] (splitCh '\n' s) := (join_splitCh '\n' s).symm
  rw [this]
  exact mem_join_of hl hc

theorem plainBreaks_kept {pre : Bool} {s : Str} (h : PlainBreaks s) : PlainBreaks (normaliseData pre s) := by
  intro c hc hb
  rcases kept_mem hc with rfl | hc
  · revert hb; decide
  · exact h c hc hb

theorem expandtabs_chars {ts : Int} {col : Nat} {s : Str} {c : Char} (h : c ∈ expandtabsFrom ts col s) : c = ' ' ∨ c ∈ s := by
  induction s generalizing col with
  | nil => cases h
  | cons x s ih =>
    simp only [expandtabsFrom] at h
    split at h
    · split at h
      · exact (ih h).imp id (List.mem_cons_of_mem _)
      · rcases List.mem_append.1 h with h | h
        · exact .inl (List.eq_of_mem_replicate h)
        · exact (ih h).imp id (List.mem_cons_of_mem _)
    · split at h <;> rcases List.mem_cons.1 h with rfl | h
      · exact .inr (by simp)
      · exact (ih h).imp id (List.mem_cons_of_mem _)
      · exact .inr (by simp)
      · exact (ih h).imp id (List.mem_cons_of_mem _)

theorem wrapInput_mem {u : Uni} {o : WrapOpts} {s : Str} {c : Char} (hr : o.replaceWs = true) (h : c ∈ (wrapInput u o s).flatten) :
    c = ' ' ∨ c ∈ s ∧ isTwSpace c = false := by
  cases ht : isTwSpace c with
  | true => exact .inl (wrapInput_tw u o hr s c h ht)
  | false =>
    have hm : c ∈ munge o s → c = ' ' ∨ c ∈ s := by
      intro h
      unfold munge at h
      simp only [hr, if_true, List.mem_map] at h
      obtain ⟨x, hx, e⟩ := h
      by_cases hx' : isTwSpace x = true
      · rw [if_pos hx'] at e; exact .inl e.symm
      · rw [if_neg hx'] at e
        subst e
        split at hx
        · exact expandtabs_chars hx
        · exact .inr hx
    have : c = ' ' ∨ c ∈ s := by
      unfold wrapInput at h
      simp only at h
      split at h
      · rcases fixSentence_mem _ c h with h | h
        · exact .inl h
        · rw [splitChunks_flatten] at h; exact hm h
      · rw [splitChunks_flatten] at h; exact hm h
    exact this.imp id (fun h => ⟨h, rfl⟩)

theorem oneLine_wrap {u : Uni} {w : Int} {y : Str} {out : List Str} (hy : PlainBreaks y) (h : wrap u (proseOpts u w) y = .ok out) :
    ∀ l ∈ out, OneLine l := by
  obtain ⟨-, -, h⟩ := wrap_ok h
  obtain ⟨ls, bs, e1, e2, e3⟩ := wrapLoop_sublist u (proseOpts u w) rfl _ [] _ out h
  rw [List.nil_append] at e1
  subst e1
  have key : ∀ (before ls bs : List Str), Indented (proseOpts u w) before ls bs → ls = bs := by
    intro before ls
    induction ls generalizing before with
    | nil =>
      intro bs hi
      cases bs with
      | nil => rfl
      | cons b bs => exact hi.elim
    | cons l ls ih =>
      intro bs hi
      cases bs with
      | nil => exact hi.elim
      | cons b bs =>
        obtain ⟨e, hi⟩ := hi
        rw [ih _ bs hi, e]
        simp [indentAfter, proseOpts]
  have e := key _ _ _ e2
  subst e
  intro l hl c hc
  cases hb : isLineBreak c with
  | false => rfl
  | true =>
    have hm := e3.subset (List.mem_flatten.2 ⟨l, hl, hc⟩)
    rcases wrapInput_mem (u := u) (o := proseOpts u w) rfl hm with rfl | ⟨h1, h2⟩
    · revert hb; decide
    · have := hy c h1 hb
      subst this
      revert h2; decide

theorem count_near {c : Cfg} {f : Forest} (h : f.count (linkAt c py"after_block") = 0) : f.topCount (Mode.lists c .near) = 0 := by
  induction f with
  | nil => rfl
  | text s rest ih => exact ih h
  | elem tag attrs kids rest _ ih =>
    simp only [Forest.count, Nat.add_eq_zero_iff] at h
    simp only [Forest.topCount, Nat.add_eq_zero_iff]
    exact ⟨h.1.1, ih h.2⟩

theorem draw_near {u : Uni} {c : Cfg} {limit : Nat} {p : Int} {f : Forest} {up : List Str} {a b k : Nat} {r : Int} {x : Str}
    (h : f.topCount (Mode.lists c .near) = 0) : Draw u c limit p .near up a b k r f x ↔ x = [] := by
  induction f generalizing a b k x with
  | nil => exact ⟨fun h => by cases h; rfl, fun h => by subst h; exact .nil⟩
  | text s rest ih =>
    constructor
    · intro g
      cases g with
      | skipText hm g => exact (ih h).1 g
    · intro g; exact .skipText (by simp) ((ih h).2 g)
  | elem tag attrs kids rest _ ih =>
    simp only [Forest.topCount, Nat.add_eq_zero_iff] at h
    have ht : Mode.lists c .near tag = false := by simpa using h.1
    constructor
    · intro g
      cases g with
      | entry hm hl => rw [ht] at hl; cases hl
      | skipElem hm hl e1 d1 d2 =>
        simp at d1
        cases d1
        rw [(ih h.2).1 d2]; rfl
    · rintro rfl
      exact .skipElem (v := []) (by simp) ht rfl .nil ((ih h.2).2 rfl)

/-- Without links listed after blocks, an element is its content, drawn. -/
theorem draw_elem {u : Uni} {c : Cfg} {limit : Nat} {p : Int} {up : List Str} {a b k : Nat} {r : Int} {tag : Str}
    {attrs : List (Str × Option Str)} {kids rest : Forest} {x : Str} (h : kids.count (linkAt c py"after_block") = 0) :
    Draw u c limit p .page up a b k r (.elem tag attrs kids rest) x ↔ ∃ inner y z w,
      Draw u c limit p .page (tag :: up) 0 0 (k + (if numbered c tag then 1 else 0)) inner kids y ∧
      Painted u c p r ⟨up, a, b, rest.topCount (fun _ => true)⟩ (k + 1) attrs kids tag inner y z ∧
      Draw u c limit p .page up (a + 1) (b + 1) (k + (if numbered c tag then 1 else 0) + kids.count (numbered c)) r rest w ∧ x = z ++ w := by
  have h1 : (if linkAt c py"inline" tag then Forest.nil else kids).topCount (Mode.lists c .near) = 0 := by
    split
    · rfl
    · exact count_near h
  constructor
  · intro g
    cases g with
    | elem e1 d1 e2 d2 hp d3 =>
      subst e1 e2
      have e := (draw_near h1).1 d2
      subst e
      rw [if_pos h1, List.append_nil, List.append_nil] at hp
      exact ⟨_, _, _, _, d1, hp, d3, rfl⟩
    | entry hm => exact absurd rfl hm
    | skipElem hm => exact absurd rfl hm
  · rintro ⟨inner, y, z, w, d1, hp, d3, rfl⟩
    refine .elem rfl d1 rfl ((draw_near h1).2 rfl) ?_ d3
    rw [if_pos h1, List.append_nil, List.append_nil]
    exact hp

theorem given_mem {attrs : List (Str × Option Str)} {name v : Str} (h : givenAttr attrs name = some v) : (name, some v) ∈ attrs := by
  unfold givenAttr attrOf at h
  cases hf : attrs.reverse.find? (fun kv => kv.1 == name) with
  | none => rw [hf] at h; cases h
  | some kv =>
    rw [hf] at h
    have h1 := List.find?_some hf
    have h2 := List.mem_of_find?_eq_some hf
    simp at h1 h h2
    obtain ⟨n, w⟩ := kv
    simp at h1 h
    subst h1 h
    exact h2

theorem plainBreaks_cons {c : Char} {s : Str} : PlainBreaks (c :: s) ↔ (isLineBreak c = true → c = '\n') ∧ PlainBreaks s := by
  simp [PlainBreaks]

theorem plainBreaks_lit {s : Str} (h : s.all (fun c => !isLineBreak c || c == '\n') = true) : PlainBreaks s := by
  intro c hc hb
  have := List.all_eq_true.1 h c hc
  simpa [hb] using this

theorem plainBreaks_given {attrs : List (Str × Option Str)} (h : ∀ name v, (name, some v) ∈ attrs → PlainBreaks v) (name : Str) :
    PlainBreaks ((givenAttr attrs name).getD py"None") ∧ PlainBreaks (titlePart (givenAttr attrs name)) ∧
      PlainBreaks (altText (givenAttr attrs name)) := by
  cases e : givenAttr attrs name with
  | none => exact ⟨plainBreaks_lit (by decide), plainBreaks_lit (by decide), plainBreaks_lit (by decide)⟩
  | some v =>
    have hv := h name v (given_mem e)
    cases v with
    | nil => exact ⟨hv, plainBreaks_lit (by decide), plainBreaks_lit (by decide)⟩
    | cons x v =>
      refine ⟨hv, ?_, hv⟩
      exact plainBreaks_append.2 ⟨plainBreaks_append.2 ⟨plainBreaks_lit (by decide), hv⟩, plainBreaks_lit (by decide)⟩

theorem oneLine_hang {bullet : Str} {ls : List Str} (hb : OneLine bullet) (h : ∀ l ∈ ls, OneLine l) : ∀ l ∈ hang bullet ls, OneLine l := by
  cases ls with
  | nil => intro l hl; rw [List.mem_singleton.1 hl]; exact hb
  | cons a as =>
    intro l hl
    rcases List.mem_cons.1 hl with rfl | hl
    · exact oneLine_app hb (h a (by simp))
    · obtain ⟨m, hm, rfl⟩ := List.mem_map.1 hl
      exact oneLine_app (oneLine_blanks _) (h m (by simp [hm]))

theorem oneLine_bullet (pl : Place) : OneLine pl.bullet := by
  unfold Place.bullet
  split
  · exact oneLine_app (oneLine_nat _) (by unfold OneLine; decide)
  · unfold OneLine; decide

theorem wrappedEach_lines {u : Uni} {w : Int} {segs : List Str} {parts : List (List Str)} (h : WrappedEach u (proseOpts u w) segs parts)
    (hs : ∀ l ∈ segs, PlainBreaks l) : ∀ l ∈ (parts.map (fun p => if p = [] then [[]] else p)).flatten, OneLine l := by
  induction segs generalizing parts with
  | nil =>
    cases parts with
    | nil => intro l hl; cases hl
    | cons => exact h.elim
  | cons x xs ih =>
    cases parts with
    | nil => exact h.elim
    | cons q qs =>
      intro l hl
      simp only [List.map_cons, List.flatten_cons, List.mem_append] at hl
      rcases hl with hl | hl
      · split at hl
        · rw [List.mem_singleton.1 hl]; intro c hc; cases hc
        · exact oneLine_wrap (fun c hc => hs x (by simp) c ((strip_sublist x).subset hc)) h.1 l hl
      · exact ih h.2 (fun m hm => hs m (by simp [hm])) l hl

theorem painted_breaks {u : Uni} {c : Cfg} {p r : Int} {pl : Place} {m : Nat} {attrs : List (Str × Option Str)} {kids : Forest}
    {tag : Str} {inner : Int} {y x : Str} (ha : ∀ name v, (name, some v) ∈ attrs → PlainBreaks v) (hy : PlainBreaks y)
    (h : Painted u c p r pl m attrs kids tag inner y x) : PlainBreaks x := by
  have app : ∀ {a b : Str}, PlainBreaks a → PlainBreaks b → PlainBreaks (a ++ b) := fun ha hb => plainBreaks_append.2 ⟨ha, hb⟩
  have lit : ∀ {s : Str}, s.all (fun c => !isLineBreak c || c == '\n') = true → PlainBreaks s := plainBreaks_lit
  cases h with
  | marked h =>
    have : ∀ q ∈ markers, q.2.1.all (fun c => !isLineBreak c || c == '\n') = true ∧ q.2.2.all (fun c => !isLineBreak c || c == '\n') = true := by decide
    exact app (app (lit (this _ h).1) hy) (lit (this _ h).2)
  | br => exact lit (by decide)
  | code h1 h2 => exact app (app (lit (by decide)) hy) (lit (by decide))
  | fence h1 h2 => exact app (app (lit (by decide)) hy) (lit (by decide))
  | codeInPre h => exact hy
  | reference h => exact app (app (app (app (lit (by decide)) hy) (lit (by decide))) (plainBreaks_oneLine (oneLine_nat _))) (lit (by decide))
  | link h =>
    exact app (app (app (app (app (lit (by decide)) hy) (lit (by decide))) (plainBreaks_given ha _).1) (plainBreaks_given ha _).2.1) (lit (by decide))
  | imageReference h => exact app (app (lit (by decide)) (plainBreaks_oneLine (oneLine_nat _))) (lit (by decide))
  | image h =>
    exact app (app (app (app (lit (by decide)) (plainBreaks_given ha _).2.2) (lit (by decide))) (plainBreaks_given ha _).1) (lit (by decide))
  | header h =>
    have hash : ∀ n, PlainBreaks (List.replicate n '#') := fun n c hc hb => by rw [List.eq_of_mem_replicate hc] at hb; exact absurd hb (by decide)
    exact app (app (lit (by decide)) (plainBreaks_padLines (app (app (app (app (hash _) (lit (by decide))) hy) (lit (by decide))) (hash _)))) (lit (by decide))
  | pre h =>
    refine app (app (lit (by decide)) (plainBreaks_rows ?_)) (lit (by decide))
    intro l hl
    obtain ⟨m, hm, rfl⟩ := List.mem_map.1 hl
    exact app (lit (by decide)) (plainBreaks_oneLine (lines_oneLine h m hm))
  | quote h =>
    refine app (app (lit (by decide)) (plainBreaks_rows ?_)) (lit (by decide))
    intro l hl
    obtain ⟨m, hm, rfl⟩ := List.mem_map.1 hl
    exact app (lit (by decide)) (plainBreaks_oneLine (lines_oneLine h m hm))
  | list h => exact app (app (lit (by decide)) (plainBreaks_padLines hy)) (lit (by decide))
  | div => exact plainBreaks_padLines hy
  | term => exact app (plainBreaks_newlines _) (plainBreaks_padLines hy)
  | item h =>
    exact app (plainBreaks_newlines _) (plainBreaks_rows fun l hl => plainBreaks_oneLine (oneLine_hang (oneLine_bullet pl) (oneLine_wrap hy h) l hl))
  | description h =>
    exact app (lit (by decide)) (plainBreaks_rows fun l hl => plainBreaks_oneLine (oneLine_hang (by unfold OneLine; decide) (oneLine_wrap hy h) l hl))
  | paragraph h1 h2 h3 h4 =>
    refine app (app (plainBreaks_newlines _) (plainBreaks_rows fun l hl => plainBreaks_oneLine (wrappedEach_lines h4 ?_ l hl))) (plainBreaks_newlines _)
    intro m hm c hc
    exact hy c (mem_join_of hm hc)
  | codeParagraph h => exact app (app (plainBreaks_newlines _) (plainBreaks_padLines hy)) (plainBreaks_newlines _)
  | other h => exact hy

theorem draw_breaks {u : Uni} {c : Cfg} {limit : Nat} {p : Int} {up : List Str} {a b k : Nat} {r : Int} {f : Forest} {x : Str}
    (hb : f.PlainBreaks) (hl : f.count (linkAt c py"after_block") = 0) (h : Draw u c limit p .page up a b k r f x) : PlainBreaks x := by
  induction f generalizing up a b k r x with
  | nil => cases h; intro c hc; cases hc
  | text s rest ih =>
    cases h with
    | text h => exact plainBreaks_append.2 ⟨plainBreaks_kept hb.1, ih hb.2 hl h⟩
    | skipText hm => exact absurd rfl hm
  | elem tag attrs kids rest ih1 ih2 =>
    simp only [Forest.count, Nat.add_eq_zero_iff] at hl
    obtain ⟨inner, y, z, w, d1, hp, d2, rfl⟩ := (draw_elem hl.1.2).1 h
    exact plainBreaks_append.2 ⟨painted_breaks hb.1 (ih1 hb.2.1 hl.1.2 d1) hp, ih2 hb.2.2 hl.2 d2⟩

/-! ## Elements in a line -/

theorem painted_inline {u : Uni} {c : Cfg} {p r : Int} {pl : Place} {m : Nat} {attrs : List (Str × Option Str)} {kids : Forest}
    {tag : Str} {inner : Int} {y x : Str} (ht : tag ∉ lineTags) (h : Painted u c p r pl m attrs kids tag inner y x) (p' r' : Int) :
    inner = r ∧ Painted u c p' r' pl m attrs kids tag r' y x := by
  cases h with
  | marked h => exact ⟨rfl, .marked h⟩
  | br => exact ⟨rfl, .br⟩
  | code h1 h2 => exact ⟨rfl, .code h1 h2⟩
  | fence h1 h2 => exact ⟨rfl, .fence h1 h2⟩
  | codeInPre h => exact ⟨rfl, .codeInPre h⟩
  | reference h => exact ⟨rfl, .reference h⟩
  | link h => exact ⟨rfl, .link h⟩
  | imageReference h => exact ⟨rfl, .imageReference h⟩
  | image h => exact ⟨rfl, .image h⟩
  | other h => exact ⟨rfl, .other h⟩
  | header h =>
    have : ∀ q ∈ headerLevels, q.1 ∈ lineTags := by decide
    exact absurd (this _ h) ht
  | list h =>
    have : ∀ q ∈ [py"ul", py"ol", py"dl"], q ∈ lineTags := by decide
    exact absurd (this _ h) ht
  | _ => exact absurd (by decide) ht

theorem draw_inline {u : Uni} {c : Cfg} {limit : Nat} {p : Int} {up : List Str} {a b k : Nat} {r : Int} {f : Forest} {x : Str}
    (hi : f.Inline) (hl : f.count (linkAt c py"after_block") = 0) (h : Draw u c limit p .page up a b k r f x) (p' r' : Int) :
    Draw u c limit p' .page up a b k r' f x := by
  induction f generalizing up a b k x with
  | nil => cases h; exact .nil
  | text s rest ih =>
    cases h with
    | text h => exact .text (ih hi hl h)
    | skipText hm => exact absurd rfl hm
  | elem tag attrs kids rest ih1 ih2 =>
    simp only [Forest.count, Nat.add_eq_zero_iff] at hl
    simp only [Forest.Inline, Forest.count, Nat.add_eq_zero_iff] at hi
    obtain ⟨inner, y, z, w, d1, hp, d2, rfl⟩ := (draw_elem hl.1.2).1 h
    have ht : tag ∉ lineTags := by simpa using hi.1.1
    obtain ⟨rfl, hp'⟩ := painted_inline ht hp p' r'
    exact (draw_elem hl.1.2).2 ⟨_, _, _, _, ih1 hi.1.2 hl.1.2 d1, hp', ih2 hi.2 hl.2 d2, rfl⟩

/-! ## Wider -/

theorem wrap_wider {u : Uni} {w w' : Int} {y : Str} {ls : List Str} (hw : w ≤ w') (hs : Smooth u w y) (h : wrap u (proseOpts u w) y = .ok ls) :
    ∃ ls', wrap u (proseOpts u w') y = .ok ls' ∧ ls'.length ≤ ls.length := by
  have h0 : 0 < w := (wrap_ok h).1
  obtain ⟨ls', h'⟩ := wrap_prose u w' (by omega) y
  refine ⟨ls', h', ?_⟩
  obtain ⟨h1, h2 | ⟨t, rfl, h2⟩, h3⟩ := hs
  · exact C98_wider u (proseOpts u w) w' [] [] y ls ls' rfl h1 h2 (by simp [proseOpts, len]; omega) (by simp [proseOpts, len]; omega) h3
      (by simp [proseOpts, len]; omega) (by simp [proseOpts, len]; omega) h h'
  · exact C98_wider_blank u (proseOpts u w) w' t ls ls' rfl rfl h1 h2 (by simp [proseOpts, len]; omega) (by simp [proseOpts, len]; omega) h3 hw h h'

theorem wrappedEach_wider {u : Uni} {w w' : Int} (hw : w ≤ w') {segs : List Str} {parts : List (List Str)}
    (hs : ∀ l ∈ segs, Smooth u w (strip l)) (h : WrappedEach u (proseOpts u w) segs parts) :
    ∃ parts', WrappedEach u (proseOpts u w') segs parts' ∧ (parts'.map (fun p => if p = [] then [[]] else p)).flatten.length ≤
      (parts.map (fun p => if p = [] then [[]] else p)).flatten.length := by
  induction segs generalizing parts with
  | nil =>
    cases parts with
    | nil => exact ⟨[], trivial, Nat.le_refl _⟩
    | cons => exact h.elim
  | cons x xs ih =>
    cases parts with
    | nil => exact h.elim
    | cons q qs =>
      obtain ⟨qs', h1, h2⟩ := ih (fun l hl => hs l (by simp [hl])) h.2
      obtain ⟨q', h3, h4⟩ := wrap_wider hw (hs x (by simp)) h.1
      refine ⟨q' :: qs', ⟨h3, h1⟩, ?_⟩
      simp only [List.map_cons, List.flatten_cons, List.length_append]
      refine Nat.add_le_add ?_ h2
      cases q' with
      | nil =>
        cases q with
        | nil => exact Nat.le_refl _
        | cons => simp
      | cons a as =>
        cases q with
        | nil => simp at h4
        | cons => simpa using h4

theorem hang_length (bullet : Str) (ls : List Str) : (hang bullet ls).length = max 1 ls.length := by
  cases ls with
  | nil => rfl
  | cons a as => simp [hang]

theorem segments_mem {segs : List Str} (h0 : segs ≠ []) (h : ∀ l ∈ segs, '\n' ∉ l) : splitCh '\n' (join py"\n" segs) = segs := splitCh_join '\n' segs h0 h

theorem draw_wider {u : Uni} {c : Cfg} {limit : Nat} {p p' : Int} {up : List Str} {a b k : Nat} {r r' : Int} {f : Forest} {x : Str}
    (hr : r ≤ r') (hp : r - p ≤ r' - p') (hl : f.count (linkAt c py"after_block") = 0) (hb : f.PlainBreaks) (hn : f.Nests)
    (hf : f.Flows u c limit p up a k r) (h : Draw u c limit p .page up a b k r f x) :
    ∃ x', Draw u c limit p' .page up a b k r' f x' ∧ NoMore x x' := by
  induction f generalizing up a b k r r' x with
  | nil => cases h; exact ⟨[], .nil, .refl _⟩
  | text s rest ih =>
    cases h with
    | text h =>
      obtain ⟨x', h1, h2⟩ := ih hr hp hl hb.2 hn hf h
      exact ⟨_, .text h1, (NoMore.refl _).append h2⟩
    | skipText hm => exact absurd rfl hm
  | elem tag attrs kids rest ih1 ih2 =>
    simp only [Forest.count, Nat.add_eq_zero_iff] at hl
    obtain ⟨hb1, hb2, hb3⟩ := hb
    obtain ⟨hn1, hn2, hn3⟩ := hn
    obtain ⟨f1, f2, f3, f4, f5⟩ := hf
    obtain ⟨inner, y, z, w, d1, hpt, d2, rfl⟩ := (draw_elem hl.1.2).1 h
    obtain ⟨w', e1, e2⟩ := ih2 hr hp hl.2 hb3 hn3 f5 d2
    have hby := draw_breaks hb2 hl.1.2 d1
    clear h
    -- it is enough to draw the element
    refine (?_ : ∃ inner' y' z', Draw u c limit p' .page (tag :: up) 0 0 (k + (if numbered c tag then 1 else 0)) inner' kids y' ∧
      Painted u c p' r' ⟨up, a, b, rest.topCount (fun _ => true)⟩ (k + 1) attrs kids tag inner' y' z' ∧ NoMore z z').elim ?_
    rotate_left
    · rintro inner' ⟨y', z', g1, g2, g3⟩
      exact ⟨z' ++ w', (draw_elem hl.1.2).2 ⟨_, _, _, _, g1, g2, e1, rfl⟩, g3.append e2⟩
    have same : kids.Inline → ∀ q, Draw u c limit p' .page (tag :: up) 0 0 (k + (if numbered c tag then 1 else 0)) q kids y :=
      fun hi q => draw_inline hi hl.1.2 d1 p' q
    have step : ∀ q q' : Int, inner = q → q = r - Place.marker ⟨up, a, 0, 0⟩ tag → q ≤ q' → q - p ≤ q' - p' →
        ∃ y', Draw u c limit p' .page (tag :: up) 0 0 (k + (if numbered c tag then 1 else 0)) q' kids y' ∧ NoMore y y' := by
      intro q q' h1 h2 h3 h4
      subst h1
      exact ih1 h3 h4 hl.1.2 hb2 hn2 (h2 ▸ f4) d1
    have mark0 : tag ≠ py"blockquote" → tag ≠ py"dd" → tag ≠ py"li" → Place.marker ⟨up, a, 0, 0⟩ tag = 0 := by
      intro h1 h2 h3; simp [Place.marker, h1, h2, h3]
    cases hpt with
    | marked h =>
      have : ∀ q ∈ markers, q.1 ≠ py"blockquote" ∧ q.1 ≠ py"dd" ∧ q.1 ≠ py"li" := by decide
      obtain ⟨t1, t2, t3⟩ := this _ h
      obtain ⟨y', g1, g2⟩ := step r r' rfl (by rw [mark0 t1 t2 t3]; simp) hr hp
      exact ⟨_, _, _, g1, .marked h, g2.around _ _⟩
    | br =>
      obtain ⟨y', g1, g2⟩ := step r r' rfl (by rw [mark0 (by decide) (by decide) (by decide)]; simp) hr hp
      exact ⟨_, _, _, g1, .br, .refl _⟩
    | code h1 h2 => exact ⟨_, _, _, same (hn1 (.inr (by decide))) r', .code h1 h2, .refl _⟩
    | fence h1 h2 => exact ⟨_, _, _, same (hn1 (.inr (by decide))) r', .fence h1 h2, .refl _⟩
    | codeInPre h => exact ⟨_, _, _, same (hn1 (.inr (by decide))) r', .codeInPre h, .refl _⟩
    | reference h => exact ⟨_, _, _, same (hn1 (.inr (by decide))) r', .reference h, .refl _⟩
    | link h => exact ⟨_, _, _, same (hn1 (.inr (by decide))) r', .link h, .refl _⟩
    | imageReference h => exact ⟨_, _, _, same (hn1 (.inr (by decide))) r', .imageReference h, .refl _⟩
    | image h => exact ⟨_, _, _, same (hn1 (.inr (by decide))) r', .image h, .refl _⟩
    | header h =>
      have hq : ∀ q ∈ headerLevels, q.1 ∈ lineTags ∧ q.1 ≠ py"blockquote" ∧ q.1 ≠ py"dd" ∧ q.1 ≠ py"li" := by decide
      obtain ⟨t0, t1, t2, t3⟩ := hq _ h
      have hr0 := f1 t0
      obtain ⟨y', g1, g2⟩ := step r r' rfl (by rw [mark0 t1 t2 t3]; simp) hr hp
      refine ⟨_, _, _, g1, .header h, NoMore.around (NoMore.padLines hr0 (by omega) ?_) _ _⟩
      exact (g2.around _ _).append (.refl _)
    | pre h =>
      have hr0 := f1 (by decide)
      obtain ⟨y', g1, g2⟩ := step r r' rfl (by rw [mark0 (by decide) (by decide) (by decide)]; simp) hr hp
      have h' := splitlines_lines y'
      refine ⟨_, _, _, g1, .pre h', (NoMore.rows hr0 (by omega) ?_ ?_ ?_).around _ _⟩
      · intro l hl
        obtain ⟨m, hm, rfl⟩ := List.mem_map.1 hl
        exact oneLine_noNl (oneLine_app (by unfold OneLine; decide) (lines_oneLine h m hm))
      · intro l hl
        obtain ⟨m, hm, rfl⟩ := List.mem_map.1 hl
        exact oneLine_noNl (oneLine_app (by unfold OneLine; decide) (lines_oneLine h' m hm))
      · simp only [List.length_map]
        exact g2.lines h h' hby (draw_breaks hb2 hl.1.2 g1)
    | quote h =>
      have hr0 := f1 (by decide)
      obtain ⟨y', g1, g2⟩ := step (r - 2) (r' - 2) rfl (by simp [Place.marker]) (by omega) (by omega)
      have h' := splitlines_lines y'
      refine ⟨_, _, _, g1, .quote h', (NoMore.rows hr0 (by omega) ?_ ?_ ?_).around _ _⟩
      · intro l hl
        obtain ⟨m, hm, rfl⟩ := List.mem_map.1 hl
        exact oneLine_noNl (oneLine_app (by unfold OneLine; decide) (lines_oneLine h m hm))
      · intro l hl
        obtain ⟨m, hm, rfl⟩ := List.mem_map.1 hl
        exact oneLine_noNl (oneLine_app (by unfold OneLine; decide) (lines_oneLine h' m hm))
      · simp only [List.length_map]
        exact g2.lines h h' hby (draw_breaks hb2 hl.1.2 g1)
    | list h =>
      have hq : ∀ q ∈ [py"ul", py"ol", py"dl"], q ∈ lineTags ∧ q ≠ py"blockquote" ∧ q ≠ py"dd" ∧ q ≠ py"li" := by decide
      obtain ⟨t0, t1, t2, t3⟩ := hq _ h
      have hr0 := f1 t0
      obtain ⟨y', g1, g2⟩ := step r r' rfl (by rw [mark0 t1 t2 t3]; simp) hr hp
      exact ⟨_, _, _, g1, .list h, (g2.padLines hr0 (by omega)).around _ _⟩
    | div =>
      have hr0 := f1 (by decide)
      obtain ⟨y', g1, g2⟩ := step r r' rfl (by rw [mark0 (by decide) (by decide) (by decide)]; simp) hr hp
      exact ⟨_, _, _, g1, .div, g2.padLines hr0 (by omega)⟩
    | term =>
      have hr0 := f1 (by decide)
      obtain ⟨y', g1, g2⟩ := step r r' rfl (by rw [mark0 (by decide) (by decide) (by decide)]; simp) hr hp
      exact ⟨_, _, _, g1, .term, (NoMore.refl _).append (g2.padLines hr0 (by omega))⟩
    | item h =>
      have hr0 := f1 (by decide)
      have hm : Place.marker ⟨up, a, 0, 0⟩ py"li" = (Place.bullet ⟨up, a, b, rest.topCount (fun _ => true)⟩).length := by
        simp [Place.marker, Place.bullet]
      have hs := f3 (.inl rfl)
      rw [hm] at hs
      obtain ⟨ls', h1, h2⟩ := wrap_wider (w' := r' - p' - (Place.bullet ⟨up, a, b, rest.topCount (fun _ => true)⟩).length) (by omega) (hs y (by simpa [numbered] using d1)) h
      refine ⟨_, _, _, same (hn1 (.inr (by decide))) _, .item h1, (NoMore.refl _).append (.rows hr0 (by omega) ?_ ?_ ?_)⟩
      · exact fun l hl => oneLine_noNl (oneLine_hang (oneLine_bullet _) (oneLine_wrap hby h) l hl)
      · exact fun l hl => oneLine_noNl (oneLine_hang (oneLine_bullet _) (oneLine_wrap hby h1) l hl)
      · rw [hang_length, hang_length]; omega
    | description h =>
      have hr0 := f1 (by decide)
      have hm : Place.marker ⟨up, a, 0, 0⟩ py"dd" = 2 := by simp [Place.marker]
      have hs := f3 (.inr rfl)
      rw [hm] at hs
      obtain ⟨ls', h1, h2⟩ := wrap_wider (w' := r' - p' - 2) (by omega) (hs y (by simpa [numbered] using d1)) h
      refine ⟨_, _, _, same (hn1 (.inr (by decide))) _, .description h1, (NoMore.refl _).append (.rows hr0 (by omega) ?_ ?_ ?_)⟩
      · exact fun l hl => oneLine_noNl (oneLine_hang (by unfold OneLine; decide) (oneLine_wrap hby h) l hl)
      · exact fun l hl => oneLine_noNl (oneLine_hang (by unfold OneLine; decide) (oneLine_wrap hby h1) l hl)
      · rw [hang_length, hang_length]; omega
    | paragraph h1 h2 h3 h4 =>
      have hr0 := f1 (by decide)
      rename_i segs parts
      have hs := f2 ⟨rfl, h1⟩ _ (by simpa [numbered] using d1)
      rw [segments_mem h2 h3] at hs
      have hbs : ∀ l ∈ segs, PlainBreaks l := fun m hm c hc => hby c (mem_join_of hm hc)
      have h0 : 0 < r - p := by
        cases segs with
        | nil => exact absurd rfl h2
        | cons s ss =>
          cases parts with
          | nil => exact h4.elim
          | cons q qs => exact (wrap_ok h4.1).1
      obtain ⟨parts', g1, g2⟩ := wrappedEach_wider hp hs h4
      refine ⟨_, _, _, same (hn1 (.inl ⟨rfl, h1⟩)) r', .paragraph h1 h2 h3 g1, (NoMore.rows hr0 (by omega) ?_ ?_ g2).around _ _⟩
      · exact fun l hl => oneLine_noNl (wrappedEach_lines h4 hbs l hl)
      · exact fun l hl => oneLine_noNl (wrappedEach_lines g1 hbs l hl)
    | codeParagraph h =>
      have hr0 := f1 (by decide)
      obtain ⟨y', g1, g2⟩ := step r r' rfl (by rw [mark0 (by decide) (by decide) (by decide)]; simp) hr hp
      exact ⟨_, _, _, g1, .codeParagraph h, (g2.padLines hr0 (by omega)).around _ _⟩
    | other h =>
      have t : tag ≠ py"blockquote" ∧ tag ≠ py"dd" ∧ tag ≠ py"li" := by
        refine ⟨?_, ?_, ?_⟩ <;> rintro rfl <;> revert h <;> unfold Unstyled <;> decide
      obtain ⟨y', g1, g2⟩ := step r r' rfl (by rw [mark0 t.1 t.2.1 t.2.2]; simp) hr hp
      exact ⟨_, _, _, g1, .other h, g2⟩

theorem entry_wider {u : Uni} {c : Cfg} {limit : Nat} {r : Int} {m : Nat} {attrs : List (Str × Option Str)} {tag y x : Str}
    (h : Entry u c limit r m attrs tag y x) (r' : Int) : ∃ x', Entry u c limit r' m attrs tag y x' ∧ x'.count '\n' = x.count '\n' := by
  cases h with
  | link h => exact ⟨_, .link h, by rw [count_padLines, count_padLines]⟩
  | image h => exact ⟨_, .image h, by rw [count_padLines, count_padLines]⟩
  | gopherLink h1 h2 => exact ⟨_, .gopherLink h1 h2, rfl⟩
  | gopherImage h1 h2 => exact ⟨_, .gopherImage h1 h2, by rw [count_padLines, count_padLines]⟩

theorem foot_wider {u : Uni} {c : Cfg} {limit : Nat} {p p' : Int} {up : List Str} {a b k : Nat} {r : Int} {f : Forest} {x : Str}
    (hl : f.count (linkAt c py"after_block") = 0) (hn : f.Nests) (r' : Int) (h : Draw u c limit p .all up a b k r f x) :
    ∃ x', Draw u c limit p' .all up a b k r' f x' ∧ x'.count '\n' = x.count '\n' := by
  induction f generalizing up a b k x with
  | nil => cases h; exact ⟨[], .nil, rfl⟩
  | text s rest ih =>
    cases h with
    | skipText hm h =>
      obtain ⟨x', h1, h2⟩ := ih hl hn h
      exact ⟨x', .skipText hm h1, h2⟩
  | elem tag attrs kids rest ih1 ih2 =>
    simp only [Forest.count, Nat.add_eq_zero_iff] at hl
    obtain ⟨hn1, hn2, hn3⟩ := hn
    cases h with
    | entry hm hs e1 d1 he d2 d3 =>
      rw [if_pos rfl] at d2
      have ht : tag ∈ [py"li", py"dd", py"a", py"img", py"code"] := by
        simp only [Mode.lists, linkAt, Bool.or_eq_true, Bool.and_eq_true, decide_eq_true_eq] at hs
        rcases hs with ⟨rfl, -⟩ | ⟨rfl, -⟩ <;> decide
      obtain ⟨v', g1, g2⟩ := ih1 hl.1.2 hn2 d2
      obtain ⟨w', g3, g4⟩ := ih2 hl.2 hn3 d3
      obtain ⟨z', g5, g6⟩ := entry_wider he r'
      refine ⟨z' ++ v' ++ w', .entry hm hs e1 (draw_inline (hn1 (.inr ht)) hl.1.2 d1 p' r') g5 (by rw [if_pos rfl]; exact g1) g3, ?_⟩
      simp only [List.count_append, g2, g4, g6]
    | skipElem hm hs e1 d1 d2 =>
      rw [if_pos rfl] at d1
      obtain ⟨v', g1, g2⟩ := ih1 hl.1.2 hn2 d1
      obtain ⟨w', g3, g4⟩ := ih2 hl.2 hn3 d2
      refine ⟨v' ++ w', .skipElem hm hs e1 (by rw [if_pos rfl]; exact g1) g3, ?_⟩
      simp only [List.count_append, g2, g4]

/-! ## Another box -/

theorem painted_box {u : Uni} {c : Cfg} {p r : Int} {pl : Place} {m : Nat} {attrs : List (Str × Option Str)} {kids : Forest}
    {tag : Str} {inner : Int} {y x : Str} (box : Option Box) (h : Painted u c p r pl m attrs kids tag inner y x) :
    Painted u { c with box } p r pl m attrs kids tag inner y x := by
  cases h with
  | marked h => exact .marked h
  | br => exact .br
  | code h1 h2 => exact .code h1 h2
  | fence h1 h2 => exact .fence h1 h2
  | codeInPre h => exact .codeInPre h
  | reference h => exact .reference h
  | link h => exact .link h
  | imageReference h => exact .imageReference h
  | image h => exact .image h
  | header h => exact .header h
  | pre h => exact .pre h
  | quote h => exact .quote h
  | list h => exact .list h
  | div => exact .div
  | term => exact .term
  | item h => exact .item h
  | description h => exact .description h
  | paragraph h1 h2 h3 h4 => exact .paragraph h1 h2 h3 h4
  | codeParagraph h => exact .codeParagraph h
  | other h => exact .other h

theorem draw_box {u : Uni} {c : Cfg} {limit : Nat} {p : Int} {mode : Mode} {up : List Str} {a b k : Nat} {r : Int} {f : Forest} {x : Str}
    (box : Option Box) (h : Draw u c limit p mode up a b k r f x) : Draw u { c with box } limit p mode up a b k r f x := by
  have lists : ∀ (mode : Mode) tag, mode.lists { c with box } tag = mode.lists c tag := by
    intro mode tag
    cases mode <;> rfl
  induction h with
  | nil => exact .nil
  | text _ ih => exact .text ih
  | elem e1 d1 e2 d2 hp d3 ih1 ih2 ih3 => exact .elem e1 ih1 e2 ih2 (painted_box box hp) ih3
  | skipText hm _ ih => exact .skipText hm ih
  | entry hm hl e1 d1 he d2 d3 ih1 ih2 ih3 =>
    refine .entry hm ((lists _ _).trans hl) e1 ih1 ?_ ih2 ih3
    cases he with
    | link h => exact .link h
    | image h => exact .image h
    | gopherLink h1 h2 => exact .gopherLink h1 h2
    | gopherImage h1 h2 => exact .gopherImage h1 h2
  | skipElem hm hl e1 d1 d2 ih1 ih2 => exact .skipElem hm ((lists _ _).trans hl) e1 ih1 ih2

theorem readable_box {u : Uni} {c : Cfg} (box : Option Box) {f : Forest} {inside : Prop} (h : f.Readable u c inside) :
    f.Readable u { c with box } inside := by
  induction f generalizing inside with
  | nil => trivial
  | text s rest ih => exact ih h
  | elem tag attrs kids rest ih1 ih2 =>
    refine ⟨fun e he => h.1 e ?_, ih1 h.2.1, ih2 h.2.2⟩
    cases he with
    | «class» h => exact .class h
    | address h1 h2 h3 h4 => exact .address h1 h2 h3 h4
    | place h1 h2 h3 h4 => exact .place h1 h2 h3 h4

theorem hasRoom_wider {f : Forest} {up : List Str} {a : Nat} {w w' : Int} (hw : w ≤ w') (h : f.HasRoom up a w) : f.HasRoom up a w' := by
  induction f generalizing up a w w' with
  | nil => trivial
  | text s rest ih => exact ih hw h
  | elem tag attrs kids rest ih1 ih2 =>
    refine ⟨fun q => ?_, ih1 (by omega) h.2.1, ih2 hw h.2.2⟩
    have := h.1 q
    omega

theorem count_indent (pad : Str) (h : '\n' ∉ pad) (st : Bool) (s : Str) : (indentLines pad st s).count '\n' = s.count '\n' := by
  induction s generalizing st with
  | nil => cases st <;> rfl
  | cons c r ih =>
    simp only [indentLines, List.count_append, List.count_cons, ih]
    split
    · rw [List.count_eq_zero.2 h]; omega
    · simp

theorem count_trimmed {c : Cfg} {page out : Str} (h : if c.optimise then TrimmedLines page out else out = page) :
    out.count '\n' = page.count '\n' := by
  split at h
  · rw [trimmed_unique h, count_optimise]
  · rw [h]

theorem count_newlines (n : Nat) : (newlines n).count '\n' = n := by simp [newlines]

/-- On a wider page a document has at most as many lines, if no word is broken, no blocks are in paragraphs and items, and no links are
listed after blocks. -/
theorem C102 (u : Uni) (c : Cfg) (box : Box) (f : Forest) (hw : f.WellFormed false) (hr : c.renderers = []) (hl : c.linkRenderers = [])
    (hd : c.defaultRenderer = .cls .renderer) (h0 : c.outputFormat = py"gophermap" → c.linkPlacement ≠ py"inline" ∧ c.gopherHost ≠ [])
    (hb : f.PlainBreaks) (hn : f.Nests) (hafter : f.count (linkAt c py"after_block") = 0)
    (hf : f.Flows u c 10 (c.pageBox.totalPadding.left + c.pageBox.totalPadding.right) [] 0 0 (room c.pageBox)) (hwider : Wider c.pageBox box)
    (out : Str) (h : renderEvents u c f.events = .ok out) :
    ∃ out', renderEvents u { c with box := some box } f.events = .ok out' ∧ out'.count '\n' ≤ out.count '\n' := by
  obtain ⟨k1, k2, page, ⟨body, foot, g, rfl, d1, d2, rfl⟩, k3⟩ := (C91 u c f hw hr hl hd h0 out).1 h
  have hbox : ({ c with box := some box } : Cfg).pageBox = box := rfl
  have hrows := hwider.rows
  have htext := hwider.text
  unfold textRoom at htext
  obtain ⟨body', e1, e2⟩ := draw_wider (p' := box.totalPadding.left + box.totalPadding.right) hrows (by omega) hafter hb hn hf d1
  obtain ⟨foot', e3, e4⟩ := foot_wider (p' := box.totalPadding.left + box.totalPadding.right) (by split; exact hafter; rfl)
    (by split; exact hn; trivial) (room box) d2
  have e1 := draw_box (some box) e1
  have e3 := draw_box (some box) e3
  obtain ⟨page', out', m1, m2, m3, m4⟩ := C91_unique u { c with box := some box } f hw hr hl hd h0 (readable_box _ k1) (hasRoom_wider hwider.text k2)
  refine ⟨out', m3, ?_⟩
  have e5 := m2 _ ⟨body', foot', _, rfl, e1, e3, rfl⟩
  rw [count_trimmed k3, count_trimmed m4, ← e5]
  have hpad : ∀ n, '\n' ∉ List.replicate n ' ' := fun n hm => absurd (List.eq_of_mem_replicate hm) (by decide)
  simp only [List.count_append, count_newlines, count_indent _ (hpad _), hbox, e4]
  have h1 := hwider.top
  have h2 := hwider.bottom
  have h3 := e2.count
  show _ + (_ + List.count '\n' (if (if c.linkPlacement = py"footer" then f else .nil).count (Mode.lists c .all) = 0 then [] else py"\n") + _) + _ ≤ _
  omega

/-- The pages of two widths with the same margins. -/
theorem C102_width (u : Uni) (c : Cfg) (w w' : Int) (m : Sides) (f : Forest) (hw : f.WellFormed false) (hr : c.renderers = [])
    (hl : c.linkRenderers = []) (hd : c.defaultRenderer = .cls .renderer)
    (h0 : c.outputFormat = py"gophermap" → c.linkPlacement ≠ py"inline" ∧ c.gopherHost ≠ []) (hb : f.PlainBreaks) (hn : f.Nests)
    (hafter : f.count (linkAt c py"after_block") = 0) (hle : w ≤ w')
    (hf : f.Flows u { c with box := some (Box.new w m {} {} none none) } 10 0 [] 0 0 (w - (m.left + m.right)))
    (out : Str) (h : renderEvents u { c with box := some (Box.new w m {} {} none none) } f.events = .ok out) :
    ∃ out', renderEvents u { c with box := some (Box.new w' m {} {} none none) } f.events = .ok out' ∧ out'.count '\n' ≤ out.count '\n' := by
  refine C102 u { c with box := some (Box.new w m {} {} none none) } (Box.new w' m {} {} none none) f hw hr hl hd h0 hb hn hafter ?_ ?_ out h
  · have e1 : room (Box.new w m {} {} none none) = w - (m.left + m.right) := by simp [Box.new, room]; try omega
    show f.Flows u { c with box := some (Box.new w m {} {} none none) } 10 0 [] 0 0 (room (Box.new w m {} {} none none))
    rw [e1]
    exact hf
  · constructor <;> simp [Cfg.pageBox, Box.new, room, textRoom] <;> omega

/-- The same for the text of a document. -/
theorem C102_source (u : Uni) (c : Cfg) (box : Box) (doc : List Item) (hdoc : DocOk u.entity u.lower doc) (f : Forest)
    (hden : Denotes (docEvents u.lower doc) f) (hw : f.WellFormed false) (hr : c.renderers = []) (hl : c.linkRenderers = [])
    (hd : c.defaultRenderer = .cls .renderer) (h0 : c.outputFormat = py"gophermap" → c.linkPlacement ≠ py"inline" ∧ c.gopherHost ≠ [])
    (hb : f.PlainBreaks) (hn : f.Nests) (hafter : f.count (linkAt c py"after_block") = 0)
    (hf : f.Flows u c 10 (c.pageBox.totalPadding.left + c.pageBox.totalPadding.right) [] 0 0 (room c.pageBox)) (hwider : Wider c.pageBox box)
    (out : Str) (h : renderHtml u c [docSrc doc] = .ok out) :
    ∃ out', renderHtml u { c with box := some box } [docSrc doc] = .ok out' ∧ out'.count '\n' ≤ out.count '\n' := by
  rw [(C68 u c doc hdoc).2.2, renderEvents_denotes u c hden] at h
  rw [(C68 u _ doc hdoc).2.2, renderEvents_denotes u _ hden]
  exact C102 u c box f hw hr hl hd h0 hb hn hafter hf hwider out h

/-- A page of that width, without margins. -/
def c102Box (w : Int) : Box := Box.new w {} {} {} none none

/-- A heading, a paragraph, and a list with an item. -/
def c102Example : Forest :=
  .elem py"h1" [] (.text py"A" .nil) (.elem py"p" [] (.text py"one two" .nil) (.elem py"ul" [] (.elem py"li" [] (.text py"six ten" .nil) .nil) .nil))

theorem draw_onlyText {u : Uni} {c : Cfg} {limit : Nat} {p : Int} {up : List Str} {a b k : Nat} {r : Int} {s y : Str}
    (h : Draw u c limit p .page up a b k r (.text s .nil) y) : y = normaliseData (decide (py"pre" ∈ up)) s := by
  cases h with
  | text h => cases h; simp
  | skipText hm => exact absurd rfl hm

theorem c102Example_flows : c102Example.Flows asciiUni { box := some (c102Box 5) } 10 0 [] 0 0 5 := by
  have smooth : ∀ (w : Int) (y : Str), w = 5 ∨ w = 3 → y = py"one two" ∨ y = py"six ten" → Smooth asciiUni w y := by
    intro w y hw hy
    refine ⟨?_, .inl ?_, ?_⟩
    · rcases hy with rfl | rfl <;> unfold PlainWs <;> decide
    · rcases hy with rfl | rfl <;> unfold StartsWs <;> decide +kernel
    · rcases hy with rfl | rfl <;> rcases hw with rfl | rfl <;> unfold NoLong <;> decide +kernel
  refine ⟨fun _ => by decide, fun h => absurd h.1 (by decide), fun h => absurd h (by decide), trivial, ?_⟩
  refine ⟨fun _ => by decide, ?_, fun h => absurd h (by decide), trivial, ?_⟩
  · intro _ y hy line hl
    rw [draw_onlyText hy] at hl
    refine smooth _ _ (.inl (by decide)) (.inl ?_)
    revert line
    decide +kernel
  · refine ⟨fun _ => by decide, fun h => absurd h.1 (by decide), fun h => absurd h (by decide), ?_, trivial⟩
    refine ⟨fun _ => by decide, fun h => absurd h.1 (by decide), ?_, trivial, trivial⟩
    intro _ y hy
    rw [draw_onlyText hy]
    exact smooth _ _ (.inr (by decide +kernel)) (.inr (by decide +kernel))

example : renderEvents asciiUni { box := some (c102Box 5) } c102Example.events = .ok py"\n# A #\n\none\ntwo\n\n* six\n  ten\n" ∧
    ∃ out', renderEvents asciiUni { box := some (c102Box 12) } c102Example.events = .ok out' ∧ out'.count '\n' ≤ 8 := by
  have h : renderEvents asciiUni { box := some (c102Box 5) } c102Example.events = .ok py"\n# A #\n\none\ntwo\n\n* six\n  ten\n" := by decide +kernel
  refine ⟨h, ?_⟩
  refine C102 asciiUni { box := some (c102Box 5) } (c102Box 12) c102Example (by simp [c102Example, Forest.WellFormed, VoidTag]) rfl rfl rfl
    (fun h => by cases h) ?_ ?_ (by decide) c102Example_flows ?_ _ h
  · simp only [c102Example, Forest.PlainBreaks, Spec.PlainBreaks, List.not_mem_nil, false_implies, implies_true, true_and, and_true]
    decide
  · simp [c102Example, Forest.Nests, Forest.OnlyCode, Forest.Inline, Forest.count]
  · constructor <;> decide

/-- Words that are broken: the wider page has three lines in its paragraph, the other one has two. -/
theorem C102_long_fails : ∃ (f : Forest) (w w' : Int) (out out' : Str), w ≤ w' ∧ f.Nests ∧ f.PlainBreaks ∧
    renderEvents asciiUni { box := some (c102Box w) } f.events = .ok out ∧
    renderEvents asciiUni { box := some (c102Box w') } f.events = .ok out' ∧ out.count '\n' < out'.count '\n' := by
  refine ⟨.elem py"p" [] (.text py"a bbbbbb c" .nil) .nil, 5, 6, py"\na bbb\nbbb c\n", py"\na\nbbbbbb\nc\n", by decide, ?_, ?_, ?_, ?_, ?_⟩
  · simp [Forest.Nests, Forest.OnlyCode, Forest.Inline, Forest.count]
  · simp only [Forest.PlainBreaks, Spec.PlainBreaks, List.not_mem_nil, false_implies, implies_true, true_and, and_true]
    decide
  · decide +kernel
  · decide +kernel
  · decide

end Verif
