import Verif.Props.Source

/-!
# C35 for HTML source, and when it holds
-/

namespace Verif

open Spec

namespace Spec

/-- Feed pieces of text to a parser in some state, close it, and read the result. -/
def renderRest (u : Uni) (c : Cfg) (s : HtmlParser) (pieces : List Str) : Py Str := do
  let s ← pieces.foldlM (feedHtml u c) s
  let s ← closeHtml u c s
  return s.state.parsed

/-- The last tag of a `pre` among the calls is a start tag. `open_` tells how it was before. -/
def insidePre (open_ : Bool) : List Event → Bool
  | [] => open_
  | .start t _ :: es => insidePre (if t = py"pre" then true else open_) es
  | .stop t :: es => insidePre (if t = py"pre" then false else open_) es
  | .data _ :: es => insidePre open_ es

end Spec

/-! ## The state of `pre` -/

theorem registerLink_inPre {c : Cfg} {s s' : PState} {tag : Str} {p : Par} {i : Nat} (h : registerLink c s tag p i = .ok s') :
    s'.inPre = s.inPre := by
  simp only [registerLink, bind, Except.bind, pure, Except.pure] at h
  split at h
  · cases h
  · rename_i x s1 h1
    have h2 : s1.inPre = s.inPre := by
      split at h1
      · cases h1; rfl
      · split at h1
        · split at h1
          · cases h1; rfl
          · cases h1
        · cases h1; rfl
    split at h <;> (cases h; exact h2)

theorem step_inPre {u : Uni} {c : Cfg} {s s' : PState} {e : Event} (h : step u c s e = .ok s') :
    s'.inPre = insidePre s.inPre [e] := by
  cases e with
  | start tag attrs =>
    simp only [step, handleStart, bind, Except.bind, pure, Except.pure] at h
    have key : (if tag = py"pre" then { s with inPre := true } else s).inPre = insidePre s.inPre [.start tag attrs] := by
      simp only [insidePre]
      split <;> rfl
    generalize (if tag = py"pre" then { s with inPre := true } else s) = s1 at h key
    split at h
    · split at h
      · cases h
      · split at h
        · cases h
        · rename_i s2 hr
          cases h
          exact (registerLink_inPre hr).trans key
    · split at h
      · cases h
      · cases h
        exact key
  | stop tag =>
    simp only [step, Except.ok.injEq] at h
    subst h
    simp only [insidePre]
    unfold handleEnd
    split
    · rename_i hv
      rw [if_neg]
      rintro rfl
      revert hv
      decide
    · have key : (if tag = py"pre" then { s with inPre := false } else s).inPre = if tag = py"pre" then false else s.inPre := by
        split <;> rfl
      generalize (if tag = py"pre" then { s with inPre := false } else s) = s1 at key
      simp only
      split
      · exact key
      · split <;> exact key
  | data t =>
    simp only [step, Except.ok.injEq] at h
    subst h
    rfl

theorem insidePre_cons (b : Bool) (e : Event) (es : List Event) : insidePre b (e :: es) = insidePre (insidePre b [e]) es := by
  cases e <;> rfl

theorem feed_inPre {u : Uni} {c : Cfg} {es : List Event} : ∀ {s s' : PState}, feed u c s es = .ok s' → s'.inPre = insidePre s.inPre es := by
  induction es with
  | nil => intro s s' h; cases h; rfl
  | cons e es ih =>
    intro s s' h
    rw [feed_cons] at h
    cases h1 : step u c s e with
    | error x => rw [h1] at h; cases h
    | ok s1 =>
      rw [h1] at h
      rw [insidePre_cons, ← step_inPre h1]
      exact ih h

/-! ## A page with one text -/

theorem collectMatches_text (d : Dom) (p : Par) (hp : ¬ IsEl d p) (rules : List Rule) : collectMatches d p rules = .ok [] := by
  induction rules with
  | nil => rfl
  | cons r rs ih => simp only [collectMatches, C02_rules d p hp, ih, bind, Except.bind]

theorem renderFrom_text (u : Uni) (c : Cfg) (b : Bool) (t : Str) :
    renderFrom u c { inPre := b } [.data t] = .ok (shown c [normaliseData b t]) := by
  rw [renderFrom_eq]
  simp only [feed_cons, step, Except.bind]
  show (close u c (handleData { inPre := b } t)).map PState.parsed = _
  have hdom : (handleData { inPre := b } t).dom = ⟨[newData .none (normaliseData b t)], [0]⟩ := rfl
  have hst : (handleData { inPre := b } t).stack = [] := rfl
  rw [close_eq u c _ ⟨[newData .none (normaliseData b t)], [0]⟩ (by rw [hdom, hst]; rfl)]
  have hp : ¬ IsEl ⟨[newData .none (normaliseData b t)], [0]⟩ (.node 0) := by
    rintro ⟨i, n, h1, h2, h3⟩
    cases h1
    cases h2
    cases h3
  have hr : getRenderer c ⟨[newData .none (normaliseData b t)], [0]⟩ 0 = .ok c.defaultRenderer := by
    simp only [getRenderer, getForTag_of (collectMatches_text _ _ hp c.rules), bind, Except.bind]
    rfl
  have ha : ∃ T, assignRenderers c ⟨[newData .none (normaliseData b t)], [0]⟩ 2 [0] [] = .ok T := by
    refine ⟨[(0, assignOwn (assignedTo [] 0) c.defaultRenderer)], ?_⟩
    simp only [assignRenderers, List.foldlM_cons, List.foldlM_nil, assignOne, hr, bind, Except.bind]
    rfl
  obtain ⟨T, hT⟩ := ha
  show ((assignRenderers c ⟨[newData .none (normaliseData b t)], [0]⟩ 2 [0] []).bind _).map PState.parsed = _
  rw [hT]
  have hf : footerParts u c (handleData { inPre := b } t) ⟨[newData .none (normaliseData b t)], [0]⟩ T = .ok [] := by
    simp [footerParts, handleData]
  simp only [Except.bind, hf]
  rfl

theorem count_join (ls : List Str) (h : ∀ l ∈ ls, '\n' ∉ l) : (join py"\n" ls).count '\n' = ls.length - 1 := by
  induction ls with
  | nil => rfl
  | cons l ls ih =>
    have hl : l.count '\n' = 0 := List.count_eq_zero.2 (h l (by simp))
    cases ls with
    | nil => simpa [join] using hl
    | cons m ms =>
      have := ih (fun x hx => h x (by simp [hx]))
      simp only [join, List.count_append, hl, this]
      simp
      omega

theorem count_optimise (s : Str) : (optimise s).count '\n' = s.count '\n' := by
  have h1 := count_join (splitCh '\n' s) (mem_splitCh '\n' s)
  have h2 := count_join ((splitCh '\n' s).map rstrip) (by
    intro l hl hm
    obtain ⟨m, hm1, rfl⟩ := List.mem_map.1 hl
    exact mem_splitCh '\n' s m hm1 ((rstrip_sublist m).subset hm))
  have h3 : join py"\n" (splitCh '\n' s) = s := join_splitCh '\n' s
  rw [h3] at h1
  unfold optimise
  rw [h2, h1, List.length_map]

/-! ## C35 -/

/-- A line break is kept inside a `pre` only. -/
theorem shown_newline (c : Cfg) :
    (shown c [normaliseData true py"a\nb"]).count '\n' = (shown c [normaliseData false py"a\nb"]).count '\n' + 1 := by
  have h1 : splitlinesKeep [normaliseData true py"a\nb"].flatten = [py"a\n", py"b"] := by decide
  have h2 : splitlinesKeep [normaliseData false py"a\nb"].flatten = [py"a b"] := by decide
  have h3 : ∀ n, (rep ' ' n).count '\n' = 0 := fun n => List.count_eq_zero.2 (by
    intro h
    have := List.eq_of_mem_replicate h
    revert this
    decide)
  have h4 : ∀ parts, (shown c parts).count '\n' = (framed c parts).count '\n' := by
    intro parts
    unfold shown
    split
    · exact count_optimise _
    · rfl
  rw [h4, h4]
  unfold framed indentBody
  rw [h1, h2]
  simp only [List.count_append, List.map_cons, List.map_nil, List.flatten_cons, List.flatten_nil, h3]
  have e1 : List.count '\n' py"a\n" = 1 := by decide
  have e2 : List.count '\n' py"b" = 0 := by decide
  have e3 : List.count '\n' py"a b" = 0 := by decide
  rw [e1, e2, e3]
  simp only [List.count_nil]
  omega

/-- Exactly: a parser that is reset goes on like a new one for all further calls if and only if it is not inside a `pre`. -/
theorem C35_exact (u : Uni) (c : Cfg) (s0 s : PState) (es : List Event) (h0 : initParser c = .ok s0)
    (h : feed u c s0 es = .ok s) :
    (∀ es', renderFrom u c (reset s) es' = renderFrom u c s0 es') ↔ insidePre false es = false := by
  have hs := feed_inPre h
  rw [initParser_eq h0] at hs
  rw [← show s.inPre = insidePre false es from hs]
  constructor
  · intro h1
    cases hp : s.inPre with
    | false => rfl
    | true =>
      have h2 := h1 [.data py"a\nb"]
      rw [C35_general u c s0 s _ h0, initParser_eq h0, hp] at h2
      have h3 := renderFrom_text u c true py"a\nb"
      have h4 := renderFrom_text u c false py"a\nb"
      have h5 : shown c [normaliseData true py"a\nb"] = shown c [normaliseData false py"a\nb"] := by
        apply Except.ok.inj (ε := PyErr)
        rw [← h3, ← h4]
        exact h2
      have h6 := shown_newline c
      rw [h5] at h6
      omega
  · exact fun hp es' => C35_partial u c s0 s es' h0 hp

theorem renderRest_eq (u : Uni) (c : Cfg) (s : HtmlParser) (ps : List Str) :
    renderRest u c s ps = (feed u c s.state (tokPieces u s.tok ps).1).bind fun s' => (tokPieces u s.tok ps).2.bind fun _ =>
      (close u c s').map PState.parsed := by
  have h := fold_pieces u c ps s
  have h1 : renderRest u c s ps = ((ps.foldlM (feedHtml u c) s).bind (closeHtml u c)).map (fun s => s.state.parsed) := by
    simp only [renderRest, bind, Except.bind, pure, Except.pure]
    cases ps.foldlM (feedHtml u c) s with
    | error e => rfl
    | ok s1 =>
      simp only
      cases closeHtml u c s1 <;> rfl
  rw [h1, h]
  cases feed u c s.state (tokPieces u s.tok ps).1 with
  | error e => rfl
  | ok s' =>
    simp only [Except.bind]
    cases (tokPieces u s.tok ps).2 with
    | error e => rfl
    | ok t =>
      simp only
      cases close u c s' <;> rfl

theorem renderRest_quiet (u : Uni) (c : Cfg) (t : TokState) (s s' : PState) (hq : quiet s = quiet s') (ps : List Str) :
    renderRest u c ⟨t, s⟩ ps = renderRest u c ⟨t, s'⟩ ps := by
  rw [renderRest_eq, renderRest_eq]
  cases (tokPieces u t ps).2 with
  | ok t' =>
    have h1 := renderFrom_quiet u c s (tokPieces u t ps).1
    have h2 := renderFrom_quiet u c s' (tokPieces u t ps).1
    rw [hq, ← h2, renderFrom_eq, renderFrom_eq] at h1
    exact h1
  | error e =>
    have h1 := feed_quiet u c s (tokPieces u t ps).1
    have h2 := feed_quiet u c s' (tokPieces u t ps).1
    rw [hq, ← h2] at h1
    simp only
    revert h1
    cases feed u c s (tokPieces u t ps).1 <;> cases feed u c s' (tokPieces u t ps).1 <;> intro h1
    · cases h1; rfl
    · cases h1
    · cases h1
    · rfl

theorem renderHtml_rest {u : Uni} {c : Cfg} {s0 : PState} (h0 : initParser c = .ok s0) (ps : List Str) :
    renderHtml u c ps = renderRest u c { state := s0 } ps := by
  simp only [renderHtml, renderRest, h0, bind, Except.bind, pure, Except.pure]

/-- Source: whatever was fed before, even if reading it raised, and whatever part of a tag or a reference is still unread: if
the parser is not inside a `pre`, a document after `reset()` gives the page it gives for a new parser. (What is missing:
`C35_source_fails`.) -/
theorem C35_source_partial (u : Uni) (c : Cfg) (s0 : PState) (s : HtmlParser) (h0 : initParser c = .ok s0)
    (hpre : s.state.inPre = false) (ps : List Str) : renderRest u c (resetHtml s) ps = renderHtml u c ps := by
  rw [renderHtml_rest h0 ps]
  exact renderRest_quiet u c {} _ _ (by rw [initParser_eq h0]; simp [quiet, reset, hpre]) ps

theorem insidePre_data (b : Bool) (es : List Event) (t : Str) : insidePre b (es ++ [.data t]) = insidePre b es := by
  induction es generalizing b with
  | nil => rfl
  | cons e es ih => cases e <;> exact ih _

theorem feedHtml_doc {u : Uni} {c : Cfg} {s0 : PState} {doc : List Item} (h : DocOk u.entity u.lower doc) {s : HtmlParser}
    (hf : feedHtml u c { state := s0 } (docSrc doc) = .ok s) :
    ∃ es, feed u c s0 es = .ok s.state ∧ ∀ b, insidePre b es = insidePre b (docEvents u.lower doc) := by
  obtain ⟨es, s', ev, h1, h2, h3⟩ := tokRun_fed u h
  have h4 : tokFeed u {} (docSrc doc) = (es, .ok s') := by rw [tokFeed_eq]; exact h1
  simp only [feedHtml, h4, bind, Except.bind, pure, Except.pure] at hf
  split at hf
  · cases hf
  · rename_i s1 h5
    cases hf
    refine ⟨es, h5, fun b => ?_⟩
    rcases h3 with rfl | ⟨t, rfl⟩
    · rw [h2, List.append_nil]
    · rw [h2, insidePre_data]

/-- Exactly: after feeding any document, `reset()` gives a parser that renders everything like a new one if and only if the
last `pre` tag of the document is an end tag (or there is none). -/
theorem C35_document (u : Uni) (c : Cfg) (s0 : PState) (s : HtmlParser) (doc : List Item) (h0 : initParser c = .ok s0)
    (h : DocOk u.entity u.lower doc) (hf : feedHtml u c { state := s0 } (docSrc doc) = .ok s) :
    (∀ ps, renderRest u c (resetHtml s) ps = renderHtml u c ps) ↔ insidePre false (docEvents u.lower doc) = false := by
  obtain ⟨es, hes, hpre⟩ := feedHtml_doc h hf
  have hs := feed_inPre hes
  rw [initParser_eq h0, hpre] at hs
  rw [← show s.state.inPre = insidePre false (docEvents u.lower doc) from hs]
  constructor
  · intro h1
    cases hp : s.state.inPre with
    | false => rfl
    | true =>
      have hd : DocOk u.entity u.lower [.text py"a\nb" py"a\nb"] := by
        refine ⟨fun i hi => ?_, trivial⟩
        rw [List.mem_singleton] at hi
        subst hi
        exact ⟨by decide, by decide, spells_self (by decide)⟩
      have ht : tokPieces u {} [py"a\nb"] = ([.data py"a\nb"], .ok {}) := by
        exact (C68 u c _ hd).1
      have key : ∀ b, renderRest u c { state := { inPre := b } } [py"a\nb"] = .ok (shown c [normaliseData b py"a\nb"]) := by
        intro b
        rw [renderRest_eq, ← renderFrom_text, renderFrom_eq]
        show (feed u c { inPre := b } (tokPieces u {} [py"a\nb"]).1).bind _ = _
        rw [ht]
        rfl
      have h2 := h1 [py"a\nb"]
      rw [renderHtml_rest h0, initParser_eq h0] at h2
      have h3 : renderRest u c (resetHtml s) [py"a\nb"] = renderRest u c { state := { inPre := true } } [py"a\nb"] :=
        renderRest_quiet u c {} _ _ (by simp [quiet, reset, hp]) _
      rw [h3, key true] at h2
      have h4 := h2.trans (key false)
      have h5 := shown_newline c
      rw [Except.ok.inj h4] at h5
      omega
  · exact fun hp ps => C35_source_partial u c s0 s h0 hp ps

/-- The page after a reset shows a text as if it were still in the `pre` that was left open. -/
theorem C35_source_fails : ∃ s, feedHtml asciiUni {} {} py"<p>x</p><pre>y" = .ok s ∧
    renderRest asciiUni {} (resetHtml s) [py"<p>a   b</p>"] ≠ renderHtml asciiUni {} [py"<p>a   b</p>"] := by
  refine ⟨_, rfl, ?_⟩
  decide +kernel

/-- Reading stopped in the middle of a tag, after a link and inside a script: nothing of that is left. -/
example : (match feedHtml asciiUni {} {} py"<p><a href='x'>old</a><script>if (a < b" with
    | .ok s => decide (s.tok ≠ {} ∧ renderRest asciiUni {} (resetHtml s) [py"<p>new <a href='y'>z</a></p>"] =
        .ok py"\nnew [z][1]\n\n\n[1] z: y")
    | _ => false) = true := by decide +kernel

example : DocOk asciiUni.entity asciiUni.lower sourceExample ∧ insidePre false (docEvents asciiUni.lower sourceExample) = false :=
  ⟨sourceExample_ok, by decide +kernel⟩

end Verif
