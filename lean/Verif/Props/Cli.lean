import Verif.Spec.Cli
import Verif.Proofs.Lines
import Verif.Proofs.Theme
import Verif.Props.Room
import Verif.Props.Keep
import Verif.Props.Finish
import Verif.Props.Source

/-!
# C67: the command line program
-/

namespace Verif

open Spec

/-! ## The suffix of a path -/

theorem lastSlash (s : Str) : '/' ∉ s ∨ ∃ a b, s = a ++ '/' :: b ∧ '/' ∉ b := by
  induction s with
  | nil => left; simp
  | cons x xs ih =>
    rcases ih with h | ⟨a, b, e, h⟩
    · by_cases hx : x = '/'
      · exact .inr ⟨[], xs, by rw [hx]; rfl, h⟩
      · left; simp [h, Ne.symm hx]
    · exact .inr ⟨x :: a, b, by rw [e]; rfl, h⟩

theorem pathName_plain (s : Str) (h : '/' ∉ s) (h1 : s ≠ []) (h2 : s ≠ py".") : pathName s = s := by
  simp [pathName, splitCh_none '/' s h, h1, h2]

theorem pathName_blank (s : Str) (h : '/' ∉ s) (h1 : s = [] ∨ s = py".") : pathName s = [] := by
  rcases h1 with rfl | rfl <;> rfl

theorem pathName_snoc (a b : Str) (h : '/' ∉ b) : pathName (a ++ '/' :: b) = if b = [] ∨ b = py"." then pathName a else b := by
  unfold pathName
  rw [splitCh_two, splitCh_none '/' b h, List.filter_append]
  by_cases hb : b = [] ∨ b = py"."
  · rw [if_pos hb]
    have : [b].filter (fun p => !(p == [] || p == py".")) = [] := by rcases hb with rfl | rfl <;> rfl
    rw [this, List.append_nil]
  · rw [if_neg hb]
    have : [b].filter (fun p => !(p == [] || p == py".")) = [b] := by
      simp only [not_or] at hb
      simp [hb.1, hb.2]
    rw [this, List.getLast?_concat]
    rfl

theorem getLast_slash {path : Str} (h : path.getLast? = some '/') : ∃ a, path = a ++ ['/'] :=
  List.getLast?_eq_some_iff.1 h

theorem fileName_eq {path name : Str} (h : FileName path name) : pathName path = name := by
  induction h with
  | @plain dir name h1 h2 h3 h4 =>
    rcases h1 with rfl | h1
    · exact pathName_plain name h2 h3 h4
    · obtain ⟨a, rfl⟩ := getLast_slash h1
      rw [List.append_assoc]
      show pathName (a ++ '/' :: name) = name
      rw [pathName_snoc a name h2, if_neg (by simp [h3, h4])]
  | @slash path name _ ih =>
    show pathName (path ++ '/' :: []) = name
    rw [pathName_snoc path [] (by simp), if_pos (.inl rfl), ih]
  | @dot path name _ hl ih =>
    obtain ⟨a, rfl⟩ := getLast_slash hl
    rw [List.append_assoc]
    show pathName (a ++ '/' :: py".") = name
    rw [pathName_snoc a _ (by decide), if_pos (.inr rfl), ← ih]
    show pathName a = pathName (a ++ '/' :: [])
    rw [pathName_snoc a [] (by simp), if_pos (.inl rfl)]

theorem fileName_of (path : Str) (h : pathName path ≠ []) : FileName path (pathName path) := by
  generalize hn : path.length = n
  induction n using Nat.strongRecOn generalizing path with
  | _ n ih =>
    rcases lastSlash path with hs | ⟨a, b, e, hb⟩
    · by_cases h1 : path = [] ∨ path = py"."
      · exact absurd (pathName_blank path hs h1) h
      · simp only [not_or] at h1
        rw [pathName_plain path hs h1.1 h1.2]
        exact FileName.plain (dir := []) (.inl rfl) hs h1.1 h1.2
    · subst e
      rw [pathName_snoc a b hb] at h ⊢
      by_cases h1 : b = [] ∨ b = py"."
      · rw [if_pos h1] at h ⊢
        have key := ih a.length (by rw [← hn]; simp) a h rfl
        rcases h1 with rfl | rfl
        · exact key.slash
        · have := key.slash.dot (by simp)
          rwa [List.append_assoc] at this
      · rw [if_neg h1]
        simp only [not_or] at h1
        have := FileName.plain (dir := a ++ ['/']) (name := b) (.inr (by simp)) hb h1.1 h1.2
        rwa [List.append_assoc] at this

theorem rfind_none (c : Char) (s : Str) (h : c ∉ s) : rfindCh c s = -1 := by
  induction s with
  | nil => rfl
  | cons x xs ih =>
    simp only [List.mem_cons, not_or] at h
    simp only [rfindCh, ih h.2]
    simp [Ne.symm h.1]

theorem rfind_last (c : Char) (a b : Str) (h : c ∉ b) : rfindCh c (a ++ c :: b) = a.length := by
  induction a with
  | nil => simp [rfindCh, rfind_none c b h]
  | cons x xs ih =>
    simp only [List.cons_append, rfindCh, ih, List.length_cons]
    rw [if_pos (by omega)]
    omega

theorem lastDot (c : Char) (s : Str) : c ∉ s ∨ ∃ a b, s = a ++ c :: b ∧ c ∉ b := by
  induction s with
  | nil => left; simp
  | cons x xs ih =>
    rcases ih with h | ⟨a, b, e, h⟩
    · by_cases hx : x = c
      · exact .inr ⟨[], xs, by rw [hx]; rfl, h⟩
      · left; simp [h, Ne.symm hx]
    · exact .inr ⟨x :: a, b, by rw [e]; rfl, h⟩

theorem pathSuffix_iff (path : Str) : pathSuffix path = py".md" ↔ IsMarkdown path := by
  have key : pathSuffix path = py".md" ↔ ∃ stem, stem ≠ [] ∧ pathName path = stem ++ py".md" := by
    unfold pathSuffix
    generalize pathName path = name
    simp only
    rcases lastDot '.' name with h | ⟨a, b, e, h⟩
    · rw [rfind_none _ _ h, if_neg (by omega)]
      constructor
      · intro h'; cases h'
      · rintro ⟨stem, -, rfl⟩
        exact absurd (by simp) h
    · subst e
      rw [rfind_last _ _ _ h]
      have hdrop : pyDrop (a ++ '.' :: b) (a.length : Int) = '.' :: b := by
        unfold pyDrop clampIdx
        rw [if_neg (by omega)]
        simp
      rw [hdrop]
      constructor
      · intro h'
        split at h'
        · rename_i hc
          cases h'
          refine ⟨a, ?_, rfl⟩
          rintro rfl
          simp at hc
        · cases h'
      · rintro ⟨stem, h1, h2⟩
        have h3 : a = stem ∧ '.' :: b = py".md" := by
          rcases List.append_eq_append_iff.1 h2 with ⟨x, e1, e2⟩ | ⟨x, e1, e2⟩
          · cases x with
            | nil => simp only [List.append_nil, List.nil_append] at e1 e2; exact ⟨e1.symm, e2⟩
            | cons y ys =>
              simp only [List.cons_append, List.cons.injEq] at e2
              exact absurd (by rw [e2.2]; simp) h
          · cases x with
            | nil => simp only [List.append_nil, List.nil_append] at e1 e2; exact ⟨e1, e2.symm⟩
            | cons y ys =>
              simp only [List.cons_append, List.cons.injEq] at e2
              have : '.' ∈ py"md" := by rw [e2.2]; simp
              exact absurd this (by decide)
        obtain ⟨rfl, e⟩ := h3
        rw [if_pos, e]
        have hl : ('.' :: b).length = 3 := by rw [e]; rfl
        have : a.length ≠ 0 := by simpa using h1
        simp only [len, List.length_append, hl]
        omega
  rw [key]
  constructor
  · rintro ⟨stem, h1, h2⟩
    exact ⟨stem, h1, h2 ▸ fileName_of path (by rw [h2]; simp)⟩
  · rintro ⟨stem, h1, h2⟩
    exact ⟨stem, h1, fileName_eq h2⟩

/-! ## Messages -/

theorem start_log {u : Uni} {c : Cfg} {s s' : PState} {tag : Str} {attrs} (h : handleStart u c s tag attrs = .ok s') : s'.log = s.log := by
  have := handleStart_log (u := u) (c := c) s s.log tag attrs
  rw [show ({ s with log := s.log } : PState) = s from rfl, h] at this
  simp only [Except.map, Except.ok.injEq] at this
  rw [this]

theorem step_log {u : Uni} {c : Cfg} {s s' : PState} (h : TInv s.dom s.stack) {tags : List Str} (ht : StackTags s tags) {e : Event}
    (hs : step u c s e = .ok s') : s'.log = s.log ++ (ignoredEnds tags [e]).map mismatchMsg := by
  cases e with
  | start tag attrs => simpa [ignoredEnds] using start_log hs
  | data text =>
    simp only [step, Except.ok.injEq] at hs
    subst hs
    simp [ignoredEnds, handleData]
  | stop tag =>
    simp only [step, Except.ok.injEq] at hs
    subst hs
    simp only [ignoredEnds, List.append_nil]
    by_cases hv : VoidTag tag
    · have : isVoid tag = true := by rcases hv with rfl | rfl <;> decide
      simp [handleEnd, this, hv]
    · have hv' : isVoid tag = false := by
        simp only [VoidTag, not_or] at hv
        simp [isVoid, hv.1, hv.2]
      simp only [hv, false_or]
      generalize hs1 : (if tag = py"pre" then { s with inPre := false } else s) = s1
      have e1 : s1.log = s.log ∧ s1.stack = s.stack ∧ s1.dom = s.dom := by subst hs1; split <;> exact ⟨rfl, rfl, rfl⟩
      have htop : getTop s1 = s.stack.getLast? := by
        rw [getTop_of_inv (by rw [e1.2.1, e1.2.2]; exact h), e1.2.1]
      simp only [handleEnd, hv', Bool.false_eq_true, if_false, hs1, htop, e1.2.2]
      unfold StackTags at ht
      cases hl : s.stack.getLast? with
      | none =>
        rw [List.getLast?_eq_none_iff.1 hl] at ht
        cases tags with
        | nil => simp [e1.1]
        | cons a b => cases ht
      | some i =>
        obtain ⟨n, h1, -⟩ := open_mem h.spine i (List.mem_of_getLast? hl)
        obtain ⟨d, e⟩ := List.getLast?_eq_some_iff.1 hl
        rw [e] at ht
        simp only [List.reverse_append, List.reverse_singleton, List.singleton_append, List.map_cons, h1, Option.bind_some] at ht
        cases tags with
        | nil => cases ht
        | cons a b =>
          simp only [List.map_cons, List.cons.injEq] at ht
          simp only [h1, Option.any_some, ht.1, List.head?_cons, Option.some.injEq, beq_iff_eq]
          by_cases hat : a = tag
          · simp [hat, e1.1]
          · simp [hat, e1.1]

theorem ignoredEnds_cons (st : List Str) (e : Event) (es : List Event) :
    ignoredEnds st (e :: es) = ignoredEnds st [e] ++ ignoredEnds (openAfter st e) es := by
  simp [ignoredEnds]

theorem feed_log {u : Uni} {c : Cfg} {s s' : PState} (h : TInv s.dom s.stack) {tags : List Str} (ht : StackTags s tags)
    {es : List Event} (hs : feed u c s es = .ok s') : s'.log = s.log ++ (ignoredEnds tags es).map mismatchMsg := by
  induction es generalizing s tags with
  | nil => simp [feed_nil] at hs; subst hs; simp [ignoredEnds]
  | cons e es ih =>
    rw [feed_cons] at hs
    cases h1 : step u c s e with
    | error x => simp [h1, Except.bind] at hs
    | ok s1 =>
      rw [h1] at hs
      rw [ih (step_inv h h1) (step_stackTags h ht h1) hs, step_log h ht h1, ignoredEnds_cons tags e es, List.map_append, List.append_assoc]

theorem feedUntil_ok {u : Uni} {c : Cfg} {s s' : PState} {es : List Event} (h : feed u c s es = .ok s') : feedUntil u c s es = (s', none) := by
  induction es generalizing s with
  | nil => simp [feed_nil] at h; subst h; rfl
  | cons e es ih =>
    rw [feed_cons] at h
    cases h1 : step u c s e with
    | error x => simp [h1, Except.bind] at h
    | ok s1 => rw [h1] at h; simp only [feedUntil, h1]; exact ih h

theorem feedUntil_stop {u : Uni} {c : Cfg} {s s' : PState} {es rest : List Event} {e : Event} {x : PyErr} (h : feed u c s es = .ok s')
    (hx : step u c s' e = .error x) : feedUntil u c s (es ++ e :: rest) = (s', some x) := by
  induction es generalizing s with
  | nil => simp [feed_nil] at h; subst h; simp [feedUntil, hx]
  | cons e es ih =>
    rw [feed_cons] at h
    cases h1 : step u c s e with
    | error x => simp [h1, Except.bind] at h
    | ok s1 => rw [h1] at h; simp only [List.cons_append, feedUntil, h1]; exact ih h

theorem cli_init : initParser cliCfg = .ok {} := rfl

theorem complaints_log {u : Uni} {es : List Event} {s : PState} (h : feed u cliCfg {} es = .ok s) :
    (s.log.map printLine).flatten = complaints es := by
  rw [feed_log (s := {}) (tags := []) init_inv rfl h]
  simp only [List.nil_append, List.map_map, complaints]
  rfl

/-! ## The program -/

/-- What the program does with the document: it prints the page for the calls the tokenizer makes, after the HTML if it is
asked to, and after a line for every end tag it ignores. If the document cannot be rendered the exception ends the program;
the end tags before the start tag with a problem have been complained about. -/
theorem C67_partial (u : Uni) (w : World) (a : Args) (html : Str) (hd : Document w a.source html) (dumped : Str)
    (hdump : dumped = if a.dump then html ++ py"\n" else []) (es : List Event) (r : Py TokState)
    (ht : tokPieces u {} [html] = (es, r)) :
    (∀ t out, r = .ok t → renderEvents u cliCfg es = .ok out →
      cliMain u w a = { printed := dumped ++ complaints es ++ out ++ py"\n" }) ∧
    (∀ t e, r = .ok t → Readable u cliCfg es → renderEvents u cliCfg es = .error e →
      cliMain u w a = { printed := dumped ++ complaints es, error := some e }) ∧
    (∀ e, r = .error e → Readable u cliCfg es → cliMain u w a = { printed := dumped ++ complaints es, error := some e }) ∧
    (∀ before tag attrs after e, es = before ++ .start tag attrs :: after → Readable u cliCfg before →
      Problem u cliCfg (openTags before ≠ []) tag attrs e →
      cliMain u w a = { printed := dumped ++ complaints before, error := some e }) := by
  have hmain : cliMain u w a = cliRender u dumped html := by
    rw [hdump]
    cases hd with
    | markdown h1 h2 h3 => simp only [cliMain, h2, (pathSuffix_iff _).2 h1, if_true, h3, printLine]
    | html h1 h2 => simp only [cliMain, h2, show ¬ pathSuffix a.source = py".md" from fun h => h1 ((pathSuffix_iff _).1 h), if_false, printLine]
  rw [hmain]
  refine ⟨fun t out hr h => ?_, fun t e hok hr h => ?_, fun e hx hr => ?_, fun before tag attrs after e he hr hp => ?_⟩
  · subst hr
    simp only [renderEvents, cli_init, bind, Except.bind, pure, Except.pure] at h
    cases hf : feed u cliCfg {} es with
    | error x => rw [hf] at h; cases h
    | ok s =>
      rw [hf] at h
      simp only at h
      cases hc : close u cliCfg s with
      | error x => rw [hc] at h; cases h
      | ok s' =>
        rw [hc] at h
        cases h
        simp only [cliRender, cli_init, ht, feedUntil_ok hf, hc, complaints_log hf, printLine, List.append_assoc]
  · subst hok
    obtain ⟨s, hf⟩ := (C66 u cliCfg {} cli_init es).1 hr
    simp only [renderEvents, cli_init, bind, Except.bind, pure, Except.pure, hf] at h
    cases hc : close u cliCfg s with
    | ok s' => rw [hc] at h; cases h
    | error x =>
      rw [hc] at h
      cases h
      simp only [cliRender, cli_init, ht, feedUntil_ok hf, hc, complaints_log hf]
  · subst hx
    obtain ⟨s, hf⟩ := (C66 u cliCfg {} cli_init es).1 hr
    simp only [cliRender, cli_init, ht, feedUntil_ok hf, complaints_log hf]
  · obtain ⟨s, hf⟩ := (C66 u cliCfg {} cli_init before).1 hr
    have hx : step u cliCfg s (.start tag attrs) = .error e := (handleStart_outcome (tagParent_open cli_init hf) tag attrs).1 e hp
    subst he
    simp only [cliRender, cli_init, ht, feedUntil_stop hf hx, complaints_log hf]

/-- For a document written in the usual way these are the calls it stands for. -/
theorem C67_source (u : Uni) (doc : List Item) (h : DocOk u.entity u.lower doc) :
    tokPieces u {} [docSrc doc] = (docEvents u.lower doc, .ok {}) := (C68 u {} doc h).1

/-- A file that cannot be read or converted ends the program before anything is printed. -/
theorem C67_unread (u : Uni) (w : World) (a : Args) :
    (∀ e, w.read a.source = .error e → cliMain u w a = { error := some e }) ∧
    (∀ text e, w.read a.source = .ok text → IsMarkdown a.source → w.markdown text = .error e → cliMain u w a = { error := some e }) := by
  refine ⟨fun e h => by simp only [cliMain, h], fun text e h h1 h2 => ?_⟩
  simp only [cliMain, h, (pathSuffix_iff _).2 h1, if_true, h2]

theorem settingOk_key {kv : Str × Val} (h : settingOk kv = true) :
    kv.1 ∈ py"foreground_colour" :: py"background_colour" :: py"background-colour" :: effectNames := by
  obtain ⟨k, v⟩ := kv
  simp only [settingOk, Bool.or_eq_true, decide_eq_true_eq] at h
  split at h
  · rename_i hk
    rcases hk with rfl | rfl <;> simp
  · split at h
    · rename_i hk
      simp only [List.contains_iff_mem] at hk
      simp [hk]
    · simp only [beq_iff_eq] at h
      simp [h]

/-- No rule of the bundled themes loses text. -/
theorem theme_keeps {theme : List Rule} (ht : theme ∈ bundledThemes) {r : Rule} (hr : r ∈ theme) : KeepsSpec r.spec := by
  obtain ⟨s, e, hs, -⟩ := ruleOk_settings (theme_rule ht hr)
  rw [e]
  refine ⟨fun c hc => by cases hc; exact builtin_keeps _ rfl (by simp [dropping]), fun d hd kv hkv => ?_⟩
  cases hd
  have hk := settingOk_key (hs kv hkv)
  have no : ∀ k ∈ [py"capitalized", py"templates", py"template", py"line_template", py"block_template", py"inline_template"],
      k ∉ py"foreground_colour" :: py"background_colour" :: py"background-colour" :: effectNames := by decide
  refine ⟨fun e => ?_, fun e => ?_, fun e => ?_⟩
  · exact absurd hk (no _ (by rw [e]; simp))
  · refine absurd hk (no _ ?_)
    simp only [List.mem_cons, List.not_mem_nil, or_false] at e
    rcases e with e | e | e | e <;> rw [e] <;> simp
  · exact absurd hk (no _ (by rw [e]; simp))

/-- With any bundled theme nothing but whitespace is lost of the text. -/
theorem C54_theme (u : Uni) (c : Cfg) (es : List Event) (out : Str) (h1 : c.renderers ∈ bundledThemes)
    (h2 : c.defaultRenderer = .cls .renderer) (h : renderEvents u c es = .ok out) : (nonws (fedText es)).Sublist out := by
  refine C54_partial u c es out (fun r hr => .inr (theme_keeps h1 hr)) ?_ h
  rw [h2]
  exact ⟨fun c hc => by cases hc; exact builtin_keeps _ rfl (by simp [dropping]), fun d hd => by cases hd⟩

theorem cli_theme : icedGopherTheme ∈ bundledThemes := by simp [bundledThemes]

/-- If the program does not end with an exception then the text of the document is printed, apart from whitespace. -/
theorem C67_text (u : Uni) (w : World) (a : Args) (html : Str) (hd : Document w a.source html) (h : (cliMain u w a).error = none) :
    (nonws (fedText (tokPieces u {} [html]).1)).Sublist (cliMain u w a).printed := by
  cases ht : tokPieces u {} [html] with
  | mk es r =>
    obtain ⟨h1, h2, h4, h3⟩ := C67_partial u w a html hd _ rfl es r ht
    by_cases hread : Readable u cliCfg es
    · cases r with
      | error e => rw [h4 e rfl hread] at h; cases h
      | ok t =>
        cases hr : renderEvents u cliCfg es with
        | ok out =>
          rw [h1 t out rfl hr]
          exact ((C54_theme u cliCfg _ out cli_theme rfl hr).trans (List.sublist_append_right _ _)).trans (List.sublist_append_left _ _)
        | error e => rw [h2 t e rfl hread hr] at h; cases h
    · obtain ⟨g1, g2⟩ := C66_only u cliCfg {} cli_init es
      cases hf : feed u cliCfg {} es with
      | ok s => exact absurd (g1.1 ⟨s, hf⟩) hread
      | error x =>
        obtain ⟨before, tag, attrs, after, k1, k2, k3⟩ := g2 x hf
        rw [h3 before tag attrs after x k1 k2 k3] at h
        cases h

/-- The program ends, for every document, without an exception exactly if the tokenizer accepts it (C70), the calls can be
read (C66) and the document has room on 67 columns (C65); the only other endings are `ValueError`, `AttributeError`, and
`AssertionError` for documents with `<![`. -/
theorem C67_ends (u : Uni) (w : World) (a : Args) (html : Str) (hd : Document w a.source html) :
    ((cliMain u w a).error = none ↔ (∃ t, (tokPieces u {} [html]).2 = .ok t) ∧ Readable u cliCfg (tokPieces u {} [html]).1 ∧
      ∃ s, feed u cliCfg {} (tokPieces u {} [html]).1 = .ok s ∧ HasRoom s.dom icedGopherTheme 67) ∧
    ∀ e, (cliMain u w a).error = some e → e = .valueError ∨ e = .attributeError ∨
      (e = .assertionError ∧ py"<![" <:+: html) := by
  have hend := C70_partial u [html]
  cases ht : tokPieces u {} [html] with
  | mk es r =>
    rw [ht] at hend
    obtain ⟨h1, h2, h4, h3⟩ := C67_partial u w a html hd _ rfl es r ht
    obtain ⟨k1, k2⟩ := C65_render u cliCfg icedGopherTheme es {} rfl (.inr cli_theme) rfl rfl cli_init
    rw [show textRoom cliCfg.pageBox = 67 from rfl] at k1
    by_cases hread : Readable u cliCfg es
    · cases r with
      | error e =>
        rw [h4 e rfl hread]
        refine ⟨⟨fun h => (by cases h), fun ⟨⟨_, h⟩, _⟩ => (by cases h)⟩, fun x hx => ?_⟩
        cases hx
        rcases hend with ⟨s, hs⟩ | ⟨hs, hi⟩
        · cases hs
        · cases hs
          exact .inr (.inr ⟨rfl, by simpa using hi⟩)
      | ok t =>
        simp only
        rw [← k1]
        cases hr : renderEvents u cliCfg es with
        | ok out =>
          rw [h1 t out rfl hr]
          exact ⟨⟨fun _ => ⟨⟨t, rfl⟩, out, rfl⟩, fun _ => rfl⟩, fun e h => (by cases h)⟩
        | error e =>
          rw [h2 t e rfl hread hr]
          refine ⟨⟨fun h => (by cases h), fun ⟨_, _, h⟩ => (by cases h)⟩, fun x hx => ?_⟩
          cases hx
          rcases k2 _ hr with h | h
          · exact .inl h
          · exact .inr (.inl h)
    · obtain ⟨g1, g2⟩ := C66_only u cliCfg {} cli_init es
      cases hf : feed u cliCfg {} es with
      | ok s => exact absurd (g1.1 ⟨s, hf⟩) hread
      | error x =>
        obtain ⟨before, tag, attrs, after, k1', k2', k3⟩ := g2 x hf
        have hr : renderEvents u cliCfg es = .error x := by
          simp only [renderEvents, cli_init, bind, Except.bind, hf]
        rw [h3 before tag attrs after _ k1' k2' k3]
        refine ⟨⟨fun h => (by cases h), fun ⟨_, h, _⟩ => absurd h hread⟩, fun y hy => ?_⟩
        cases hy
        rcases k2 _ hr with h | h
        · exact .inl h
        · exact .inr (.inl h)

/-! ## What it does not do -/

/-- Nothing is ever written to the destination. -/
theorem C67_written_fails (u : Uni) (w : World) (a : Args) : (cliMain u w a).written = [] := by
  simp only [cliMain, cliRender]
  repeat' split
  all_goals rfl

/-- A file system with one document, and a Markdown library that knows paragraphs only. -/
def oneFile (path content : Str) : World where
  read := fun p => if p = path then .ok content else .error .keyError
  markdown := fun t => .ok (py"<p>" ++ t ++ py"</p>")

set_option maxRecDepth 20000 in
/-- The messages about end tags are mixed with the page. -/
theorem C67_printed_fails :
    (cliMain asciiUni (oneFile py"a.html" py"<p>the text</p></p>") ⟨py"a.html", py"out", false⟩).printed =
      py"Unsupported or mismatched end tag, ignoring: p\n\n\nthe text\n\n\n" := by decide +kernel

set_option maxRecDepth 20000 in
example : (cliMain asciiUni (oneFile py"a.b/notes.md" py"the text") ⟨py"a.b/notes.md", py"out", true⟩) =
    { printed := py"<p>the text</p>\n\n\nthe text\n\n\n" } := by decide +kernel

set_option maxRecDepth 20000 in
example : (cliMain asciiUni (oneFile py"a.html" py"</b><![x]>") ⟨py"a.html", py"out", false⟩) =
    { printed := py"Unsupported or mismatched end tag, ignoring: b\n", error := some .assertionError } := by decide +kernel

example : IsMarkdown py"a.b/notes.md" ∧ IsMarkdown py"x.md/./" ∧ ¬ IsMarkdown py"a/.md" ∧ ¬ IsMarkdown py"md" ∧ ¬ IsMarkdown py"a.md/b" := by
  simp only [← pathSuffix_iff]
  decide

example : complaints [.stop py"p", .start py"ul" [], .stop py"li", .stop py"br", .stop py"ul"] =
    py"Unsupported or mismatched end tag, ignoring: p\nUnsupported or mismatched end tag, ignoring: li\n" := by decide

end Verif
