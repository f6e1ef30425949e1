import Verif.Props.Text
import Verif.Props.Source
import Verif.Spec.Spacing

/-!
# Blanks and line ends of the source: C90
-/

namespace Verif

open Spec

/-! ## Texts with single spaces -/

/-- All whitespace is single spaces. -/
structure SingleSpaced (a : Str) : Prop where
  only : ∀ c ∈ a, isSpace c = true → c = ' '
  once : ¬ py"  " <:+: a

theorem SingleSpaced.part {a b c : Str} (h : SingleSpaced (a ++ b ++ c)) : SingleSpaced b :=
  ⟨fun x hx hs => h.only x (by simp [hx]) hs, fun hd => h.once (hd.trans ⟨a, c, rfl⟩)⟩

theorem blank_single {b : Str} (hb : Blank b) (h : SingleSpaced b) : b = [] ∨ b = [' '] := by
  match b with
  | [] => exact .inl rfl
  | [c] => exact .inr (by rw [h.only c (by simp) (hb c (by simp))])
  | c :: d :: r =>
    have h1 := h.only c (by simp) (hb c (by simp))
    have h2 := h.only d (by simp) (hb d (by simp))
    exact absurd ⟨[], r, by simp [h1, h2]⟩ h.once

theorem startsWs_cons (c : Char) (r : Str) : StartsWs (c :: r) ↔ isSpace c = true := by simp [StartsWs]

theorem not_startsWs_nil : ¬ StartsWs [] := by simp [StartsWs]

theorem not_endsWs_nil : ¬ EndsWs [] := by simp [EndsWs]

theorem endsWs_append {a b : Str} (hb : b ≠ []) : EndsWs (a ++ b) ↔ EndsWs b := by
  unfold EndsWs
  rw [List.getLast?_append]
  cases hl : b.getLast? with
  | none => exact absurd (by simpa using hl) hb
  | some c => simp

theorem not_endsWs_word {w : Str} (hn : ∀ c ∈ w, isSpace c = false) : ¬ EndsWs w := by
  rintro ⟨c, h1, h2⟩
  rw [hn c (List.mem_of_getLast? h1)] at h2
  cases h2

/-- The words and the edges determine a text with single spaces. -/
theorem single_unique {a : Str} {ws : List Str} (hw : Words a ws) : ∀ {a' : Str}, Words a' ws → SingleSpaced a → SingleSpaced a' →
    (StartsWs a ↔ StartsWs a') → (EndsWs a ↔ EndsWs a') → a = a' := by
  induction hw with
  | @done b hb =>
    intro a' hw' h1 h2 hs _
    cases hw' with
    | done hb' =>
      rcases blank_single hb h1 with rfl | rfl <;> rcases blank_single hb' h2 with rfl | rfl
      · rfl
      · exact absurd (hs.2 ((startsWs_cons _ _).2 rfl)) not_startsWs_nil
      · exact absurd (hs.1 ((startsWs_cons _ _).2 rfl)) not_startsWs_nil
      · rfl
  | @word b w r ws hb hw hn hr h ih =>
    intro a' hw' h1 h2 hs he
    cases hw' with
    | @word b' _ r' _ hb' _ _ hr' h' =>
      have start : ∀ {b r : Str}, Blank b → (StartsWs (b ++ w ++ r) ↔ b ≠ []) := by
        intro b r hb
        cases b with
        | cons c b => simp [startsWs_cons, hb c (by simp)]
        | nil =>
          cases w with
          | nil => exact absurd rfl hw
          | cons x w => simp [startsWs_cons, hn x (by simp)]
      have stop : ∀ {b r : Str}, (EndsWs (b ++ w ++ r) ↔ EndsWs r) := by
        intro b r
        by_cases hr : r = []
        · subst hr
          rw [List.append_nil, endsWs_append hw]
          simp [not_endsWs_word hn, not_endsWs_nil]
        · rw [endsWs_append hr]
      have hbb : b = b' := by
        rw [start hb, start hb'] at hs
        rcases blank_single hb ⟨fun x hx => h1.only x (by simp [hx]), fun hd => h1.once (hd.trans ⟨[], w ++ r, by simp⟩)⟩ with rfl | rfl <;>
        rcases blank_single hb' ⟨fun x hx => h2.only x (by simp [hx]), fun hd => h2.once (hd.trans ⟨[], w ++ r', by simp⟩)⟩ with rfl | rfl
        · rfl
        · exact absurd (hs.2 (by simp)) (by simp)
        · exact absurd (hs.1 (by simp)) (by simp)
        · rfl
      rw [stop, stop] at he
      have hrs : ∀ {r : Str}, (∀ c, r.head? = some c → isSpace c = true) → (StartsWs r ↔ r ≠ []) := by
        intro r hr
        cases r with
        | nil => simp [not_startsWs_nil]
        | cons c r => simp [startsWs_cons, hr c rfl]
      have hempty : ∀ {r r' : Str}, Words r ws → Words r' ws → (∀ c, r'.head? = some c → isSpace c = true) →
          (EndsWs r ↔ EndsWs r') → r = [] → r' = [] := by
        intro r r' h h' hr' he e
        subst e
        have hws : ws = [] := by rw [(words_iff _ _).1 h]; rfl
        subst hws
        cases h' with
        | done hb =>
          cases hl : r'.getLast? with
          | none => simpa using hl
          | some c => exact absurd (he.2 ⟨c, hl, hb c (List.mem_of_getLast? hl)⟩) not_endsWs_nil
      have hrr : r = r' := by
        refine ih h' ⟨fun x hx => h1.only x (by simp [hx]), fun hd => h1.once (hd.trans ⟨b ++ w, [], by simp⟩)⟩
          ⟨fun x hx => h2.only x (by simp [hx]), fun hd => h2.once (hd.trans ⟨b' ++ w, [], by simp⟩)⟩ ?_ he
        rw [hrs hr, hrs hr']
        exact ⟨fun h0 e => h0 (hempty h' h hr he.symm e), fun h0 e => h0 (hempty h h' hr' he e)⟩
      rw [hbb, hrr]

/-! ## What is kept of a text -/

theorem join_mid (c : Char) (A : List Str) (l : Str) (B : List Str) :
    ∃ P, join [c] (A ++ l :: B) = P ++ (l ++ if B = [] then [] else c :: join [c] B) := by
  have h1 : ∃ P, join [c] (A ++ l :: B) = P ++ join [c] (l :: B) := by
    cases A with
    | nil => exact ⟨[], rfl⟩
    | cons a A => exact ⟨_, join_append _ _ _ (by simp) (by simp)⟩
  obtain ⟨P, hP⟩ := h1
  refine ⟨P, ?_⟩
  rw [hP]
  cases B with
  | nil => simp [join]
  | cons b B => simp [join]

theorem rstrip_end_char {s a : Str} {c : Char} (h : rstrip s = a ++ [c]) : isSpace c = false := by
  have := List.head?_dropWhile_not isSpace s.reverse
  have e : (s.reverse.dropWhile isSpace) = c :: a.reverse := by
    have := congrArg List.reverse h
    simpa [rstrip] using this
  rw [e] at this
  simpa using this

/-- A whitespace character that stays stands before something else in its line, or is in the last line. -/
theorem stripInside_stays {ls : List Str} {m : Str} (hm : m ∈ stripInside ls) {c : Char} (hc : c ∈ m) (hs : isSpace c = true) :
    ∃ A l B p q, ls = A ++ l :: B ∧ l = p ++ c :: q ∧ (q ≠ [] ∨ B = []) := by
  obtain ⟨a, b, rfl⟩ := List.append_of_mem hc
  have inner : ∀ {s : Str}, rstrip s = a ++ c :: b → b ≠ [] := by
    intro s h e
    subst e
    rw [rstrip_end_char h] at hs
    cases hs
  match ls with
  | [] => simp [stripInside] at hm
  | [l] =>
    simp only [stripInside, List.mem_singleton] at hm
    exact ⟨[], l, [], a, b, rfl, hm.symm, .inr rfl⟩
  | l :: k :: ks =>
    have hne : k :: ks ≠ [] := by simp
    have e : k :: ks = (k :: ks).dropLast ++ [(k :: ks).getLast hne] := (List.dropLast_concat_getLast hne).symm
    simp only [stripInside, List.getLast?_eq_some_getLast hne, List.mem_cons, List.mem_append, List.mem_map, Option.toList,
      List.not_mem_nil, or_false] at hm
    rcases hm with hm | ⟨y, hy, hm⟩ | ⟨y, hy, hm⟩
    · obtain ⟨t, h1, -⟩ := rstrip_split l
      rw [← hm] at h1
      exact ⟨[], l, k :: ks, a, b ++ t, rfl, by rw [h1]; simp, .inl (by simp [inner hm.symm])⟩
    · obtain ⟨t, h1, -⟩ := lstrip_split y
      obtain ⟨t', h2, -⟩ := rstrip_split (lstrip y)
      unfold strip at hm
      rw [hm] at h2
      obtain ⟨A, B, hAB⟩ := List.append_of_mem hy
      refine ⟨l :: A, y, B ++ [(k :: ks).getLast hne], t ++ a, b ++ t', ?_, ?_, .inl (by simp [inner hm])⟩
      · have : k :: ks = (A ++ y :: B) ++ [(k :: ks).getLast hne] := by rw [← hAB]; exact e
        generalize (k :: ks).getLast hne = z at this
        rw [this]; simp
      · conv => lhs; rw [h1, h2]
        simp
    · obtain ⟨t, h1, -⟩ := lstrip_split y
      rw [hm] at h1
      refine ⟨l :: (k :: ks).dropLast, y, [], t ++ a, b, ?_, by rw [h1]; simp, .inr rfl⟩
      rw [hy]
      generalize (k :: ks).dropLast = A at e
      generalize (k :: ks).getLast hne = z at e
      rw [e]; simp

/-- The text kept for a text with the whitespace of source files. -/
theorem kept_single {x : Str} (h : SourceBlanks x) : SingleSpaced (normaliseData false x) := by
  have hk : normaliseData false x = collapse false (join py" " (stripInside (splitCh '\n' x))) := by simp [normaliseData]
  refine ⟨fun c hc hs => ?_, by rw [hk]; exact (collapse_single _ _).1⟩
  rw [hk] at hc
  obtain ⟨ht, rfl | hc⟩ := collapse_mem _ _ _ hc
  · rfl
  · rcases mem_join hc with hc | ⟨m, hm, hc⟩
    · simpa using hc
    · obtain ⟨A, l, B, p, q, e1, e2, e3⟩ := stripInside_stays hm hc hs
      obtain ⟨P, hP⟩ := join_mid '\n' A l B
      rw [← e1, join_splitCh] at hP
      have hl : ∀ c ∈ l, c ≠ '\n' := fun c hc e => mem_splitCh '\n' x l (by rw [e1]; simp) (e ▸ hc)
      rcases h (P ++ p) c (q ++ if B = [] then [] else '\n' :: join ['\n'] B) (by rw [hP, e2]; simp) hs with hm | ⟨-, hq⟩
      · simp only [List.mem_cons, List.not_mem_nil, or_false] at hm
        rcases hm with e | e | e
        · exact e
        · exact absurd e ht
        · exact absurd e (hl c (by rw [e2]; simp))
      · cases q with
        | cons d q =>
          simp only [List.cons_append, List.head?_cons, Option.some.injEq] at hq
          exact absurd hq (hl d (by rw [e2]; simp))
        | nil =>
          rcases e3 with e3 | e3
          · exact absurd rfl e3
          · subst e3; simp at hq

theorem kept_words (x : Str) : splitWs (normaliseData false x) = splitWs x := by
  simp only [normaliseData, Bool.false_eq_true, if_false]
  rw [(collapse_words _ _).1, splitWs_join_words, stripInside_words, ← splitWs_lines, join_splitCh]

theorem kept_edges (x : Str) : (StartsWs (normaliseData false x) ↔ StartsWs x) ∧ (EndsWs (normaliseData false x) ↔ EndsWs x) := by
  obtain ⟨n, kept, -, h1, -, h2, -, -, -, -, h3, h4, -⟩ := C27 {} x rfl
  have e : kept = normaliseData false x := by
    simp [handleData, dataParent, getTop, Dom.addChild] at h1
    subst h1
    simpa [newData] using h2.symm
  rw [e] at h3 h4
  exact ⟨h3, h4⟩

theorem kept_same {x y : Str} (h : SameText x y) : normaliseData false x = normaliseData false y := by
  rcases h with rfl | ⟨h1, h2, h3, h4, h5⟩
  · rfl
  · refine single_unique ((words_iff _ _).2 rfl) ((words_iff _ _).2 ?_) (kept_single h1) (kept_single h2) ?_ ?_
    · rw [kept_words, kept_words, ← words_iff]
      exact (h3 _).1 ((words_iff _ _).2 rfl)
    · rw [(kept_edges x).1, (kept_edges y).1, h4]
    · rw [(kept_edges x).2, (kept_edges y).2, h5]

/-! ## Documents -/

theorem start_inPre {u : Uni} {c : Cfg} {s s1 : PState} {tag : Str} {attrs : List (Str × Option Str)}
    (h1 : handleStart u c s tag attrs = .ok s1) : s1.inPre = if tag = py"pre" then true else s.inPre := by
  simp only [handleStart, bind, Except.bind, pure, Except.pure] at h1
  split at h1
  · split at h1
    · cases h1
    · simp only [registerLink, bind, Except.bind, pure, Except.pure] at h1
      split at h1
      · cases h1
      · cases h1
        rename_i hreg
        split at hreg
        · cases hreg
        · rename_i hreg2
          split at hreg2
          · cases hreg2
            split at hreg <;> (cases hreg; by_cases ht : tag = py"pre" <;> simp [ht])
          · split at hreg2
            · split at hreg2
              · cases hreg2
                split at hreg <;> (cases hreg; by_cases ht : tag = py"pre" <;> simp [ht])
              · cases hreg2
            · cases hreg2
              split at hreg <;> (cases hreg; by_cases ht : tag = py"pre" <;> simp [ht])
  · split at h1
    · cases h1
    · cases h1
      by_cases ht : tag = py"pre" <;> simp [ht]

theorem end_inPre (s : PState) (tag : Str) : (handleEnd s tag).inPre = if tag = py"pre" then false else s.inPre := by
  simp only [handleEnd]
  split
  · rename_i hv
    have : tag ≠ py"pre" := by
      rintro rfl
      revert hv
      decide
    rw [if_neg this]
  · by_cases ht : tag = py"pre" <;> simp only [ht, if_true, if_false] <;> split <;> try rfl
    all_goals split <;> rfl

theorem init_inPre {c : Cfg} {s : PState} (h : initParser c = .ok s) : s.inPre = false := by
  unfold initParser at h
  repeat' split at h
  all_goals cases h
  all_goals rfl

theorem feed_blanks {u : Uni} {c : Cfg} {pre : Bool} {es es' : List Event} (h : SameButBlanks pre es es') :
    ∀ s : PState, s.inPre = pre → feed u c s es = feed u c s es' := by
  induction h with
  | nil => intro s _; rfl
  | @start pre es es' tag attrs h ih =>
    intro s hs
    rw [feed_cons, feed_cons]
    cases h1 : step u c s (.start tag attrs) with
    | error e => rfl
    | ok s1 =>
      refine ih s1 ?_
      rw [← hs]
      exact start_inPre h1
  | @stop pre es es' tag h ih =>
    intro s hs
    rw [feed_cons, feed_cons]
    refine ih _ ?_
    rw [← hs]
    exact end_inPre s tag
  | @data pre es es' x y hx h ih =>
    intro s hs
    rw [feed_cons, feed_cons]
    have : step u c s (.data x) = step u c s (.data y) := by
      rcases hx with rfl | ⟨rfl, hx⟩
      · rfl
      · simp only [step, handleData, hs, kept_same hx]
    rw [this]
    refine ih _ ?_
    simp only [handleData, hs]

/-- How the source is laid out makes no difference: documents that differ only in the blanks and line ends of texts outside
`pre` have the same page, whatever the style. -/
theorem C90 (u : Uni) (c : Cfg) (es es' : List Event) (h : SameButBlanks false es es') :
    renderEvents u c es = renderEvents u c es' := by
  simp only [renderEvents, bind, Except.bind]
  cases hi : initParser c with
  | error e => rfl
  | ok s => simp only [feed_blanks h s (init_inPre hi)]

/-- The same for the source itself, written in the usual way. -/
theorem C90_source (u : Uni) (c : Cfg) (doc doc' : List Item) (h : DocOk u.entity u.lower doc) (h' : DocOk u.entity u.lower doc')
    (hs : SameButBlanks false (docEvents u.lower doc) (docEvents u.lower doc')) :
    renderHtml u c [docSrc doc] = renderHtml u c [docSrc doc'] := by
  rw [(C68 u c doc h).2.2, (C68 u c doc' h').2.2, C90 u c _ _ hs]

/-- `<p>a&nbsp;⏎b</p>` and `<p>a&nbsp; b</p>`: whitespace that is not a blank, next to a line end, is dropped. -/
theorem C90_nbsp_fails :
    renderEvents asciiUni {} [.start py"p" [], .data py"a\u00a0\nb", .stop py"p"] = .ok py"\na b\n" ∧
    renderEvents asciiUni {} [.start py"p" [], .data py"a\u00a0 b", .stop py"p"] = .ok py"\na\u00a0 b\n" := by decide +kernel

theorem words_split (x : Str) : Words x (splitWs x) := (words_iff _ _).2 rfl

/-- Checking the condition on whitespace. -/
theorem sourceBlanks_of {x : Str} (h : ∀ i (hi : i < x.length), isSpace x[i] = true →
    x[i] ∈ [' ', '\t', '\n'] ∨ x[i] = '\r' ∧ x[i + 1]? = some '\n') : SourceBlanks x := by
  rintro p c q rfl hc
  have := h p.length (by simp) (by simpa using hc)
  simp only [List.getElem_append_right (Nat.le_refl _), Nat.sub_self, List.getElem_cons_zero] at this
  refine this.imp id (fun ⟨a, b⟩ => ⟨a, ?_⟩)
  rw [List.getElem?_append_right (by omega)] at b
  simpa [List.head?_eq_getElem?] using b

/-- `<p>⏎␉one⏎␉two three</p><pre>x⏎</pre>` with line ends of two characters, and `<p> one two  three</p><pre>x⏎</pre>`. -/
example : SameButBlanks false
    [.start py"p" [], .data py"\r\n\tone\r\n\ttwo three", .stop py"p", .start py"pre" [], .data py"x\n", .stop py"pre"]
    [.start py"p" [], .data py" one two  three", .stop py"p", .start py"pre" [], .data py"x\n", .stop py"pre"] := by
  refine .start _ _ (.data (.inr ⟨by decide, .inr ⟨sourceBlanks_of (by decide), sourceBlanks_of (by decide), fun ws => ?_, ?_, ?_⟩⟩)
    (.stop _ (.start _ _ (.data (.inl rfl) (.stop _ .nil)))))
  · rw [words_iff, words_iff, show splitWs py"\r\n\tone\r\n\ttwo three" = splitWs py" one two  three" by decide]
  · simp [StartsWs]; decide
  · simp [EndsWs]

end Verif
