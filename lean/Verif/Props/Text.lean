import Verif.Proofs.Lines
import Verif.Proofs.Tree
import Verif.Spec.Text

/-!
# Text nodes: C27
-/

namespace Verif

open Spec

theorem words_iff (s : Str) (ws : List Str) : Words s ws ↔ ws = splitWs s := by
  constructor
  · intro h
    induction h with
    | done hb => rw [splitWs_blank _ hb]
    | @word b w r ws hb hw hn hr h ih =>
      have e : splitWs (b ++ w ++ r) = splitWs (w ++ r) := by
        clear h ih
        induction b with
        | nil => rfl
        | cons c b ihb =>
          rw [List.cons_append, List.cons_append, splitWs_space _ _ (hb c (by simp))]
          exact ihb (fun x hx => hb x (List.mem_cons_of_mem _ hx))
      rw [e, splitWs_append w r hw hn hr, ih]
  · rintro rfl
    have main : ∀ n (s : Str), s.length ≤ n → Words s (splitWs s) := by
      intro n
      induction n with
      | zero =>
        intro s hs
        cases s with
        | nil => exact .done (by intro c hc; simp at hc)
        | cons c r => simp at hs
      | succ n ih =>
        intro s hs
        obtain ⟨b, hb1, hb2⟩ := lstrip_split s
        rw [← splitWs_lstrip s]
        cases hl : lstrip s with
        | nil => rw [hl, List.append_nil] at hb1; rw [hb1]; exact .done hb2
        | cons x xs =>
          have hx : isSpace x = false := by
            have := List.head?_dropWhile_not isSpace s
            unfold lstrip at hl
            rw [hl] at this
            simpa using this
          rw [splitWs_word x xs hx]
          have e : s = b ++ (x :: xs.takeWhile (fun c => !isSpace c)) ++ xs.dropWhile (fun c => !isSpace c) := by
            rw [hb1, hl]; simp [List.takeWhile_append_dropWhile]
          have hlen : (xs.dropWhile (fun c => !isSpace c)).length ≤ n := by
            have h1 := (List.dropWhile_sublist (fun c => !isSpace c) (l := xs)).length_le
            have h2 : s.length = b.length + (xs.length + 1) := by rw [hb1, hl]; simp
            omega
          conv => lhs; rw [e]
          refine .word hb2 (by simp) ?_ ?_ (ih _ hlen)
          · intro c hc
            rcases List.mem_cons.1 hc with e | e
            · subst e; exact hx
            · have := List.all_takeWhile (p := fun c => !isSpace c) (l := xs)
              rw [List.all_eq_true] at this
              simpa using this c e
          · intro c hc
            have := List.head?_dropWhile_not (fun c => !isSpace c) xs
            rw [hc] at this
            simpa using this
    exact main s.length s (Nat.le_refl _)

/-! ## Collapsing -/

theorem collapse_mem (b : Bool) (s : Str) (x : Char) (h : x ∈ collapse b s) : x ≠ '\t' ∧ (x = ' ' ∨ x ∈ s) := by
  induction s generalizing b with
  | nil => simp [collapse] at h
  | cons c r ih =>
    simp only [collapse] at h
    split at h
    · split at h
      · exact ⟨(ih _ h).1, (ih _ h).2.imp id (List.mem_cons_of_mem _)⟩
      · rcases List.mem_cons.1 h with e | e
        · subst e; exact ⟨by decide, .inl rfl⟩
        · exact ⟨(ih _ e).1, (ih _ e).2.imp id (List.mem_cons_of_mem _)⟩
    · rename_i hc
      rcases List.mem_cons.1 h with e | e
      · subst e; exact ⟨fun e => hc (.inr e), .inr (by simp)⟩
      · exact ⟨(ih _ e).1, (ih _ e).2.imp id (List.mem_cons_of_mem _)⟩

theorem double_cons (c : Char) (r : Str) :
    py"  " <:+: (c :: r) ↔ (c = ' ' ∧ r.head? = some ' ') ∨ py"  " <:+: r := by
  rw [List.infix_cons_iff]
  apply or_congr _ Iff.rfl
  cases r with
  | nil => simp
  | cons d r =>
    simp only [List.cons_prefix_cons, List.nil_prefix, and_true, List.head?_cons, Option.some.injEq]
    exact ⟨fun ⟨a, b⟩ => ⟨a.symm, b.symm⟩, fun ⟨a, b⟩ => ⟨a.symm, b.symm⟩⟩

theorem collapse_single (b : Bool) (s : Str) : ¬ py"  " <:+: collapse b s ∧ (b = true → (collapse b s).head? ≠ some ' ') := by
  induction s generalizing b with
  | nil => simp [collapse]
  | cons c r ih =>
    simp only [collapse]
    split
    · split
      · rename_i hb; exact ⟨(ih true).1, fun _ => (ih true).2 rfl⟩
      · rename_i hb
        refine ⟨?_, fun h => absurd h hb⟩
        rw [double_cons]
        rintro (⟨-, h⟩ | h)
        · exact (ih true).2 rfl h
        · exact (ih true).1 h
    · rename_i hc
      have hne : c ≠ ' ' := fun e => hc (.inl e)
      refine ⟨?_, fun _ => by simpa using hne⟩
      rw [double_cons]
      rintro (⟨h, -⟩ | h)
      · exact hne h
      · exact (ih false).1 h

theorem collapse_fix (b : Bool) (s : Str) (ht : '\t' ∉ s) (hd : ¬ py"  " <:+: s) (hb : b = true → s.head? ≠ some ' ') :
    collapse b s = s := by
  induction s generalizing b with
  | nil => rfl
  | cons c r ih =>
    have ht' : '\t' ∉ r := fun h => ht (List.mem_cons_of_mem _ h)
    rw [double_cons] at hd
    have hd' : ¬ py"  " <:+: r := fun h => hd (.inr h)
    simp only [collapse]
    split
    · rename_i hc
      have hc' : c = ' ' := by
        rcases hc with e | e
        · exact e
        · subst e; simp at ht
      split
      · rename_i hbt; exact absurd (by simp [hc']) (hb hbt)
      · rw [ih true ht' hd' (fun _ h => hd (.inl ⟨hc', h⟩)), hc']
    · rw [ih false ht' hd' (by simp)]

/-- Whether the last character is whitespace, `d` for the empty string. -/
def lastOr (d : Bool) (s : Str) : Bool := match s.getLast? with | some c => isSpace c | none => d

theorem lastOr_cons (d : Bool) (c : Char) (s : Str) : lastOr d (c :: s) = lastOr (isSpace c) s := by
  unfold lastOr
  rw [List.getLast?_cons]
  cases s.getLast? <;> rfl

theorem collapse_last (b d : Bool) (h : b = true → d = true) (s : Str) : lastOr d (collapse b s) = lastOr d s := by
  induction s generalizing b d with
  | nil => rfl
  | cons c r ih =>
    simp only [collapse]
    split
    · rename_i hc
      have hs : isSpace c = true := by rcases hc with e | e <;> subst e <;> decide
      split
      · rename_i hb
        rw [lastOr_cons, hs, h hb]
        exact ih true true (fun _ => rfl)
      · rw [lastOr_cons, lastOr_cons, hs]
        exact ih true _ (fun _ => by decide)
    · rw [lastOr_cons, lastOr_cons]
      exact ih false _ (by simp)

theorem lastOr_append (d : Bool) (a b : Str) : lastOr d (a ++ b) = lastOr (lastOr d a) b := by
  induction a generalizing d with
  | nil => rfl
  | cons c a ih => rw [List.cons_append, lastOr_cons, lastOr_cons, ih]

theorem endsWs_iff (s : Str) : EndsWs s ↔ lastOr false s = true := by
  unfold EndsWs lastOr
  cases s.getLast? with
  | none => simp
  | some c => simp

/-! ## The lines of a text -/

theorem stripInside_words (ls : List Str) : (stripInside ls).map splitWs = ls.map splitWs := by
  match ls with
  | [] => rfl
  | [l] => rfl
  | l :: m :: ms =>
    have hne : m :: ms ≠ [] := by simp
    have e : m :: ms = (m :: ms).dropLast ++ [(m :: ms).getLast hne] := (List.dropLast_concat_getLast hne).symm
    simp only [stripInside, List.map_cons, splitWs_rstrip]
    congr 1
    rw [List.getLast?_eq_some_getLast hne]
    rw [← List.map_cons (f := splitWs)]
    conv => rhs; rw [e]
    simp [splitWs_strip, splitWs_lstrip, Function.comp_def]

theorem stripInside_mem (ls : List Str) : ∀ l ∈ stripInside ls, ∃ m ∈ ls, l.Sublist m := by
  match ls with
  | [] => simp [stripInside]
  | [l] => intro x hx; simp only [stripInside, List.mem_singleton] at hx; exact ⟨l, by simp, by rw [hx]; exact List.Sublist.refl _⟩
  | l :: m :: ms =>
    intro x hx
    have hne : m :: ms ≠ [] := by simp
    simp only [stripInside, List.getLast?_eq_some_getLast hne, List.mem_cons, List.mem_append, List.mem_map, Option.toList,
      List.not_mem_nil, or_false] at hx
    rcases hx with rfl | ⟨y, hy, rfl⟩ | ⟨y, hy, rfl⟩
    · exact ⟨l, by simp, rstrip_sublist l⟩
    · exact ⟨y, List.mem_cons_of_mem _ ((List.dropLast_sublist _).subset hy), strip_sublist y⟩
    · exact ⟨y, by rw [hy]; exact List.mem_cons_of_mem _ (List.getLast_mem hne), lstrip_sublist y⟩

theorem headSp_rstrip (s b : Str) (hb : headSp b = true) : headSp (rstrip s ++ b) = headSp s := by
  obtain ⟨t, h1, h2⟩ := rstrip_split s
  cases hr : rstrip s with
  | nil =>
    rw [hr, List.nil_append] at h1
    rw [List.nil_append, hb, h1]
    cases t with
    | nil => rfl
    | cons c t => exact (h2 c (by simp)).symm
  | cons c r => rw [h1, hr]; rfl

theorem lastOr_lstrip (s : Str) : lastOr true (lstrip s) = lastOr true s := by
  obtain ⟨t, h1, h2⟩ := lstrip_split s
  conv => rhs; rw [h1]
  rw [lastOr_append]
  have : lastOr true t = true := by
    unfold lastOr
    split
    · rename_i c hc; exact h2 c (List.mem_of_getLast? hc)
    · rfl
  rw [this]

/-- Joining the stripped lines keeps whether the text starts and ends with whitespace. -/
theorem unwrap_edges (data : Str) :
    headSp (join py" " (stripInside (splitCh '\n' data))) = headSp data ∧
    lastOr false (join py" " (stripInside (splitCh '\n' data))) = lastOr false data ∧
    (join py" " (stripInside (splitCh '\n' data)) = [] ↔ data = []) := by
  have hj := join_splitCh '\n' data
  generalize splitCh '\n' data = ls at hj
  match ls, hj with
  | [], hj => simp only [join] at hj; subst hj; simp [stripInside, join]
  | [l], hj => simp only [join] at hj; subst hj; simp [stripInside, join]
  | l :: m :: ms, hj =>
    have hne : m :: ms ≠ [] := by simp
    have e : m :: ms = (m :: ms).dropLast ++ [(m :: ms).getLast hne] := (List.dropLast_concat_getLast hne).symm
    rw [join_cons _ _ _ hne] at hj
    simp only [stripInside, List.getLast?_eq_some_getLast hne]
    rw [join_cons _ _ _ (by simp [Option.toList])]
    generalize (m :: ms).getLast hne = z at e
    generalize (m :: ms).dropLast = ys at e
    refine ⟨?_, ?_, ?_⟩
    · rw [← hj]
      simp only [List.append_assoc, List.cons_append, List.nil_append]
      rw [headSp_rstrip _ _ (by simp only [headSp]; decide)]
      cases l with
      | nil => simp only [headSp, List.nil_append]; decide
      | cons c l => rfl
    · -- the last line
      have step : ∀ (x : Char) (a : Str) (zs : List Str) (w : Str), isSpace x = true →
          lastOr false (a ++ [x] ++ join [x] (zs ++ [w])) = lastOr true w := by
        intro x a zs w hx
        rw [lastOr_append, lastOr_append]
        have : lastOr (lastOr false a) [x] = true := by simp [lastOr, hx]
        rw [this]
        cases zs with
        | nil => rfl
        | cons y zs =>
          rw [join_append _ _ _ (by simp) (by simp), lastOr_append, lastOr_append]
          have : ∀ b, lastOr b [x] = true := by simp [lastOr, hx]
          rw [this]; rfl
      rw [← hj, e, step '\n' _ _ _ (by decide)]
      simp only [Option.toList, List.map_cons, List.map_nil]
      rw [step ' ' _ _ _ (by decide), lastOr_lstrip]
    · rw [← hj]; simp

/-! ## C27 -/

/-- Outside `pre` the text kept for a text node has the words of the source text, no newline or tab, no two spaces in a
row, and begins and ends with whitespace exactly if the source does. Normalising again changes nothing. -/
theorem C27 (s : PState) (text : Str) (hp : s.inPre = false) :
    ∃ n kept, (handleData s text).dom.nodes.length = s.dom.nodes.length + 1 ∧
      (handleData s text).dom.nodes[s.dom.nodes.length]? = some n ∧ n.tag = none ∧ n.data = some kept ∧
      (∀ ws, Words kept ws ↔ Words text ws) ∧ '\n' ∉ kept ∧ '\t' ∉ kept ∧ ¬ py"  " <:+: kept ∧
      (StartsWs kept ↔ StartsWs text) ∧ (EndsWs kept ↔ EndsWs text) ∧
      (∀ s' : PState, s'.inPre = false → ∃ m, (handleData s' kept).dom.nodes[s'.dom.nodes.length]? = some m ∧
        m.data = some kept) := by
  have hlast : ∀ (s : PState) (n : Node) (p : Par), (∀ j, p = .node j → j < s.dom.nodes.length) →
      (Dom.addChild { s.dom with nodes := s.dom.nodes ++ [n] } p s.dom.nodes.length).nodes[s.dom.nodes.length]? = some n := by
    intro s n p hj
    cases p with
    | none => simp [Dom.addChild]
    | doc => simp [Dom.addChild]
    | node j =>
      have := hj j rfl
      simp only [Dom.addChild, Dom.modify, List.getElem?_modify]
      have : j ≠ s.dom.nodes.length := by omega
      simp [this]
  have hpar : ∀ (s : PState) j, dataParent s = .node j → j < s.dom.nodes.length := by
    intro s j hj
    unfold dataParent at hj
    cases ht : getTop s with
    | none => rw [ht] at hj; cases hj
    | some i =>
      rw [ht] at hj
      cases hj
      unfold getTop at ht
      split at ht
      · cases ht
      · split at ht
        · rename_i h
          split at ht
          · cases ht
          · cases ht; exact getElem?_lt h
        · cases ht
  have hw : splitWs (normaliseData false text) = splitWs text := by
    simp only [normaliseData, Bool.false_eq_true, if_false]
    rw [(collapse_words _ _).1, splitWs_join_words, stripInside_words, ← splitWs_lines, join_splitCh]
  have hnl : '\n' ∉ join py" " (stripInside (splitCh '\n' text)) := by
    intro h
    rcases mem_join h with h | ⟨l, h1, h2⟩
    · simp at h
    · obtain ⟨m, h3, h4⟩ := stripInside_mem _ l h1
      exact mem_splitCh _ _ m h3 (h4.subset h2)
  have hk : normaliseData false text = collapse false (join py" " (stripInside (splitCh '\n' text))) := by
    simp [normaliseData]
  have hnl2 : '\n' ∉ normaliseData false text := by
    intro h
    rw [hk] at h
    rcases (collapse_mem _ _ _ h).2 with e | e
    · simp at e
    · exact hnl e
  have htab : '\t' ∉ normaliseData false text := by
    intro h; rw [hk] at h; exact (collapse_mem _ _ _ h).1 rfl
  have hdbl : ¬ py"  " <:+: normaliseData false text := by rw [hk]; exact (collapse_single _ _).1
  have hidem : normaliseData false (normaliseData false text) = normaliseData false text := by
    generalize normaliseData false text = k at hnl2 htab hdbl
    simp only [normaliseData, Bool.false_eq_true, if_false]
    rw [splitCh_none _ _ hnl2]
    exact collapse_fix false _ htab hdbl (by simp)
  obtain ⟨he1, he2, he3⟩ := unwrap_edges text
  have hempty : normaliseData false text = [] ↔ text = [] := by
    rw [hk, ← he3]
    generalize join py" " (stripInside (splitCh '\n' text)) = t
    cases t with
    | nil => simp [collapse]
    | cons c r => simp only [collapse]; split <;> simp
  refine ⟨newData (dataParent s) (normaliseData false text), normaliseData false text, ?_, ?_, rfl, rfl, ?_, hnl2, htab, hdbl,
    ?_, ?_, ?_⟩
  · simp only [handleData]
    cases dataParent s <;> simp [Dom.addChild, Dom.modify]
  · simp only [handleData, hp]
    exact hlast s _ _ (hpar s)
  · intro ws; rw [words_iff, words_iff, hw]
  · have hh : headSp (normaliseData false text) = headSp text := by rw [hk, (collapse_words false _).2, he1]
    unfold StartsWs
    cases h1 : normaliseData false text with
    | nil => rw [hempty] at h1; subst h1; simp
    | cons c r =>
      cases h2 : text with
      | nil => rw [hempty.2 h2] at h1; cases h1
      | cons c' r' => rw [h1, h2] at hh; simp only [headSp] at hh; simp [hh]
  · rw [endsWs_iff, endsWs_iff, hk, collapse_last false false (by simp), he2]
  · intro s' hp'
    refine ⟨newData (dataParent s') (normaliseData false (normaliseData false text)), ?_, ?_⟩
    · simp only [handleData, hp']
      exact hlast s' _ _ (hpar s')
    · rw [hidem]; rfl

/-- Inside `pre` the text is kept as it is. -/
theorem C27_pre (s : PState) (text : Str) (hp : s.inPre = true) (h : TInv s.dom s.stack) :
    ∃ n, (handleData s text).dom.nodes[s.dom.nodes.length]? = some n ∧ n.tag = none ∧ n.data = some text := by
  have := (handleData_extends h text).last
  refine ⟨_, this, rfl, ?_⟩
  simp [newData, normaliseData, hp]

/-- After `<pre>` text is preformatted until the next `</pre>`; before the first `<pre>` it is not. -/
theorem C27_scope (u : Uni) (c : Cfg) (s : PState) (es : List Event)
    (h : feed u c {} es = .ok s) :
    s.inPre = true ↔ ∃ before after attrs, es = before ++ .start py"pre" attrs :: after ∧
      (∀ e ∈ after, e ≠ .stop py"pre") := by
  have gen : ∀ (es : List Event) (s0 s : PState), feed u c s0 es = .ok s →
      (s.inPre = true ↔ (∃ before after attrs, es = before ++ .start py"pre" attrs :: after ∧
        (∀ e ∈ after, e ≠ .stop py"pre")) ∨ (s0.inPre = true ∧ ∀ e ∈ es, e ≠ .stop py"pre")) := by
    intro es
    induction es with
    | nil =>
      intro s0 s h
      simp [feed_nil] at h
      subst h
      simp
    | cons e es ih =>
      intro s0 s h
      rw [feed_cons] at h
      cases h1 : step u c s0 e with
      | error x => simp [h1, Except.bind] at h
      | ok s1 =>
        rw [h1] at h
        rw [ih s1 s h]
        have hs1 : s1.inPre = true ↔ (∃ attrs, e = .start py"pre" attrs) ∨ (s0.inPre = true ∧ e ≠ .stop py"pre") := by
          cases e with
          | start tag attrs =>
            simp only [step] at h1
            have : s1.inPre = (s0.inPre || tag == py"pre") := by
              simp only [handleStart, bind, Except.bind, pure, Except.pure] at h1
              split at h1
              · split at h1
                · cases h1
                · simp only [registerLink, bind, Except.bind, pure, Except.pure] at h1
                  split at h1
                  · cases h1
                  · cases h1
                    rename_i hreg
                    split at hreg
                    · cases hreg
                    · rename_i hreg2
                      split at hreg2
                      · cases hreg2
                        split at hreg <;> (cases hreg; by_cases ht : tag = py"pre" <;> simp [ht])
                      · split at hreg2
                        · split at hreg2
                          · cases hreg2
                            split at hreg <;> (cases hreg; by_cases ht : tag = py"pre" <;> simp [ht])
                          · cases hreg2
                        · cases hreg2
                          split at hreg <;> (cases hreg; by_cases ht : tag = py"pre" <;> simp [ht])
              · split at h1
                · cases h1
                · cases h1
                  by_cases ht : tag = py"pre" <;> simp [ht]
            rw [this]
            simp only [Bool.or_eq_true, beq_iff_eq, Event.start.injEq]
            constructor
            · rintro (h | h)
              · exact .inr ⟨h, by simp⟩
              · exact .inl ⟨attrs, h, rfl⟩
            · rintro (⟨a, h, -⟩ | ⟨h, -⟩)
              · exact .inr h
              · exact .inl h
          | stop tag =>
            simp only [step, Except.ok.injEq] at h1
            subst h1
            have : (handleEnd s0 tag).inPre = (s0.inPre && tag != py"pre") := by
              simp only [handleEnd]
              split
              · rename_i hv
                have : tag ≠ py"pre" := by
                  intro e; subst e; simp [isVoid] at hv
                simp [this]
              · by_cases ht : tag = py"pre"
                · simp only [ht, if_true]
                  split
                  · simp
                  · split <;> simp
                · simp only [ht, if_false]
                  split
                  · simp [ht]
                  · split <;> simp [ht]
            rw [this]
            simp
          | data t =>
            simp only [step, Except.ok.injEq] at h1
            subst h1
            simp [handleData]
        rw [hs1]
        constructor
        · rintro (⟨b, a, at', rfl, h3⟩ | ⟨h | ⟨h, h'⟩, h2⟩)
          · exact .inl ⟨e :: b, a, at', rfl, h3⟩
          · obtain ⟨at', rfl⟩ := h
            exact .inl ⟨[], es, at', rfl, h2⟩
          · refine .inr ⟨h, ?_⟩
            intro x hx
            rcases List.mem_cons.1 hx with rfl | hx
            · exact h'
            · exact h2 x hx
        · rintro (⟨b, a, at', h, h2⟩ | ⟨h, h2⟩)
          · cases b with
            | nil =>
              simp at h
              exact .inr ⟨.inl ⟨at', h.1⟩, by rw [h.2]; exact h2⟩
            | cons x b =>
              simp at h
              exact .inl ⟨b, a, at', h.2, h2⟩
          · exact .inr ⟨.inr ⟨h, h2 e (by simp)⟩, fun x hx => h2 x (List.mem_cons_of_mem _ hx)⟩
  rw [gen es {} s h]
  simp

example : normaliseData false py" a \n\t b\tc  d\n" = py" a b c d " := by decide
example : (match feed asciiUni {} {} [.data py"a  b", .start py"pre" [], .data py"a  b\n"] with
    | .ok s => decide (s.dom.nodes.map Node.data = [some py"a b", none, some py"a  b\n"] ∧ s.inPre = true)
    | _ => false) = true := by decide

end Verif
