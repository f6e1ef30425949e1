import Verif.Proofs.SourcePieces
import Verif.Proofs.TokenizerSafe
import Verif.Props.Keep
import Verif.Props.Room

/-!
# C68-C70: reading HTML source
-/

namespace Verif

open Spec

/-! ## The parser with its tokenizer -/

theorem fold_pieces (u : Uni) (c : Cfg) (ps : List Str) (s : HtmlParser) :
    (ps.foldlM (feedHtml u c) s).bind (closeHtml u c) =
      (feed u c s.state (tokPieces u s.tok ps).1).bind fun s' => (tokPieces u s.tok ps).2.bind fun t =>
        (close u c s').map fun s'' => { tok := t, state := s'' } := by
  induction ps generalizing s with
  | nil =>
    simp only [List.foldlM_nil, pure, Except.pure, bind, Except.bind, closeHtml, tokPieces, Except.map]
  | cons p ps ih =>
    simp only [List.foldlM_cons, tokPieces, feedHtml, bind, Except.bind, pure, Except.pure]
    cases he : tokFeed u s.tok p with
    | mk es r =>
      cases r with
      | error e =>
        simp only
        cases feed u c s.state es with
        | error e => rfl
        | ok s' => rfl
      | ok t =>
        simp only [emit, feed_append]
        cases feed u c s.state es with
        | error e => rfl
        | ok s' =>
          have := ih { tok := t, state := s' }
          simp only [bind, Except.bind] at this ⊢
          exact this

/-- The page for pieces of text is the page for the calls the tokenizer makes, unless it raises. -/
theorem renderHtml_eq (u : Uni) (c : Cfg) (ps : List Str) {es : List Event} {t : TokState}
    (h : tokPieces u {} ps = (es, .ok t)) : renderHtml u c ps = renderEvents u c es := by
  simp only [renderHtml, renderEvents, bind, Except.bind, pure, Except.pure]
  cases initParser c with
  | error e => rfl
  | ok s =>
    have := fold_pieces u c ps { state := s }
    simp only [h, bind, Except.bind, Except.map] at this
    simp only
    cases hf : ps.foldlM (feedHtml u c) { state := s } with
    | error e =>
      rw [hf] at this
      simp only at this ⊢
      cases he : feed u c s es with
      | error e' => rw [he] at this; simpa using this
      | ok s' =>
        rw [he] at this
        simp only at this ⊢
        cases hc : close u c s' with
        | error e' => rw [hc] at this; simpa using this
        | ok s'' => rw [hc] at this; cases this
    | ok s1 =>
      rw [hf] at this
      simp only at this ⊢
      rw [this]
      cases he : feed u c s es with
      | error e' => rfl
      | ok s' =>
        simp only
        cases hc : close u c s' with
        | error e' => rfl
        | ok s'' => rfl

/-! ## C68: what is meant is read -/

theorem insideText_bounds {doc : List Item} {n : Nat} (h : InsideText doc n) : n ≠ 0 ∧ n < (docSrc doc).length := by
  induction doc generalizing n with
  | nil => exact h.elim
  | cons i doc ih =>
    have e : (docSrc (i :: doc)).length = i.src.length + (docSrc doc).length := by simp [docSrc]
    rcases h with ⟨-, h1, h2⟩ | ⟨h1, h2⟩
    · omega
    · have := ih h2
      omega

/-- A document written in the usual way, with any tags, attributes, references, comments and declarations in any order, is
rendered as the page for the calls it stands for. -/
theorem C68 (u : Uni) (c : Cfg) (doc : List Item) (h : DocOk u.entity u.lower doc) :
    tokPieces u {} [docSrc doc] = (docEvents u.lower doc, .ok {}) ∧
    (EndsWhole doc → tokFeed u {} (docSrc doc) = (docEvents u.lower doc, .ok {})) ∧
    renderHtml u c [docSrc doc] = renderEvents u c (docEvents u.lower doc) := by
  have h1 : tokPieces u {} [docSrc doc] = (docEvents u.lower doc, .ok {}) := by
    obtain ⟨es, g1, g2, g3⟩ := pieces_rest u [docSrc doc] (s := {}) (ev := docEvents u.lower doc) (cut := InsideText doc) (by
      simpa using Rest.doc doc h)
    rw [g1, g3]
    intro k hk
    cases k with
    | zero => exact insideText_bounds (n := 0) (by simpa using hk) |>.1 rfl
    | succ k => exact absurd (insideText_bounds (n := (docSrc doc).length) (by simpa using hk)).2 (Nat.lt_irrefl _)
  exact ⟨h1, fun hw => by rw [tokFeed_eq]; exact tokRun_doc u false h (fun _ => hw), renderHtml_eq u c _ h1⟩

/-- In particular escaped text and attribute values, whatever characters they have, are never taken for markup. -/
theorem C68_escape (u : Uni) (lower : Str → Str) (t : Str) :
    (t ≠ [] → (Item.text (escapeHtml t) t).Ok u.entity lower) ∧ (Spelling.double (escapeHtml t) t).Ok u.entity ∧
    (Spelling.single (escapeHtml t) t).Ok u.entity := by
  have hno : ∀ c, (c = '<' ∨ c = '"' ∨ c = '\'') → c ∉ escapeHtml t := by
    intro c hc hm
    simp only [escapeHtml, List.mem_flatMap] at hm
    obtain ⟨d, _, hd⟩ := hm
    rw [escapeChar] at hd
    split at hd
    · rcases hc with rfl | rfl | rfl <;> revert hd <;> decide
    · split at hd
      · rcases hc with rfl | rfl | rfl <;> revert hd <;> decide
      · split at hd
        · rcases hc with rfl | rfl | rfl <;> revert hd <;> decide
        · split at hd
          · rcases hc with rfl | rfl | rfl <;> revert hd <;> decide
          · split at hd
            · rcases hc with rfl | rfl | rfl <;> revert hd <;> decide
            · rw [List.mem_singleton] at hd
              subst hd
              rcases hc with rfl | rfl | rfl <;> contradiction
  refine ⟨fun ht => ⟨?_, hno _ (.inl rfl), spells_escape u t⟩, ⟨hno _ (.inr (.inl rfl)), spells_escape u t⟩,
    ⟨hno _ (.inr (.inr rfl)), spells_escape u t⟩⟩
  intro h0
  have := spells_escape u t
  rw [h0] at this
  cases this
  exact ht rfl

/-! ## C69: documents in pieces -/

/-- However the document is cut in pieces, it is read completely and the calls are the same if texts in a row are joined.
They are exactly the same, and so is the page, if no text is cut. -/
theorem C69_partial (u : Uni) (c : Cfg) (doc : List Item) (h : DocOk u.entity u.lower doc) (ps : List Str) (hp : ps.flatten = docSrc doc) :
    (∃ es, tokPieces u {} ps = (es, .ok {}) ∧ joinTexts es = joinTexts (docEvents u.lower doc) ∧
      renderHtml u c ps = renderEvents u c es) ∧
    ((∀ k, ¬ InsideText doc (ps.take k).flatten.length) → renderHtml u c ps = renderHtml u c [docSrc doc]) := by
  obtain ⟨es, h1, h2, h3⟩ := pieces_rest u ps (s := {}) (ev := docEvents u.lower doc) (cut := InsideText doc) (by
    rw [List.nil_append, hp]; exact .doc doc h)
  refine ⟨⟨es, h1, h2, renderHtml_eq u c ps h1⟩, fun hc => ?_⟩
  rw [renderHtml_eq u c ps h1, (C68 u c doc h).2.2, h3]
  intro k hk
  rw [List.length_nil, Nat.zero_add] at hk
  exact hc k hk

theorem fedText_glue (e : Event) (r : List Event) : fedText (glue e r) = fedText (e :: r) := by
  cases e with
  | data a =>
    cases r with
    | nil => rfl
    | cons b r =>
      cases b <;> simp [glue, fedText]
  | start _ _ => rfl
  | stop _ => rfl

theorem fedText_join (es : List Event) : fedText (joinTexts es) = fedText es := by
  induction es with
  | nil => rfl
  | cons e r ih =>
    show fedText (glue e (joinTexts r)) = fedText (e :: r)
    rw [fedText_glue]
    cases e <;> simp [fedText] at ih ⊢ <;> simp [ih]

/-- The page has all the text in any case, whitespace aside. -/
theorem C69_text (u : Uni) (c : Cfg) (doc : List Item) (h : DocOk u.entity u.lower doc) (ps : List Str) (hp : ps.flatten = docSrc doc)
    (out : Str) (h1 : c.renderers = []) (h2 : c.defaultRenderer = ({} : Cfg).defaultRenderer)
    (hr : renderHtml u c ps = .ok out) : (nonws (fedText (docEvents u.lower doc))).Sublist out := by
  obtain ⟨⟨es, g1, g2, g3⟩, -⟩ := C69_partial u c doc h ps hp
  rw [g3] at hr
  have := C54_default u c es out h1 h2 hr
  rwa [← fedText_join es, g2, fedText_join] at this

/-! ## C70: any text -/

/-- Whatever the text and the pieces, the tokenizer ends. It raises at most `AssertionError`, and only if the text contains
`<![`. -/
theorem C70_partial (u : Uni) (ps : List Str) :
    (∃ s, (tokPieces u {} ps).2 = .ok s) ∨ ((tokPieces u {} ps).2 = .error .assertionError ∧ py"<![" <:+: ps.flatten) :=
  tokPieces_end u ps {}

/-- Markup that is not complete at the end of the text is dropped. -/
theorem tokPieces_cut (u : Uni) {doc : List Item} (h : DocOk u.entity u.lower doc) {r : Str} (h1 : r ≠ []) (h2 : r ≠ py"/")
    (hc : ∀ fin, parseMarkup u fin none r = .ok none) :
    tokPieces u {} [docSrc doc ++ '<' :: r] = (docEvents u.lower doc, .ok {}) := by
  have e1 : tokFeed u {} (docSrc doc ++ '<' :: r) = (docEvents u.lower doc, .ok ⟨'<' :: r, none⟩) := by
    rw [tokFeed_eq]
    show tokRun u false ⟨docSrc doc ++ '<' :: r, none⟩ = _
    rw [tokRun_docBefore u false h, tokRun_cut u (hc false)]
    simp [emit]
  have e2 : tokClose u ⟨'<' :: r, none⟩ = ([], .ok {}) := by
    simp only [tokClose, goahead, nextText_lt, hc true, incompleteEvents, if_neg h2]
    simp [emit, finishTok]
  simp [tokPieces, e1, e2, emit]

/-- A document that ends in the middle of a tag, comment or declaration is rendered as if that were not there, if more than
`<` or `</` is left of it. -/
theorem C70_cut (u : Uni) (c : Cfg) (doc : List Item) (i : Item) (h : DocOk u.entity u.lower doc) (hi : i.Ok u.entity u.lower)
    (ht : i.isText = false) (hv : ∀ a b c d, i ≠ .verbatim a b c d) (x y : Str) (e : i.src = x ++ y) (hx : x ≠ []) (hy : y ≠ [])
    (h1 : x ≠ py"<") (h2 : x ≠ py"</") : renderHtml u c [docSrc doc ++ x] = renderEvents u c (docEvents u.lower doc) := by
  obtain ⟨k, hk⟩ := src_lt ht
  obtain ⟨d, r, rfl⟩ := List.exists_cons_of_ne_nil hx
  have hd : d = '<' := by
    rw [e] at hk
    simp only [List.cons_append, List.cons.injEq] at hk
    exact hk.1
  subst hd
  have hr : r ≠ [] := by rintro rfl; exact h1 rfl
  exact renderHtml_eq u c _ (tokPieces_cut u h hr (by rintro rfl; exact h2 rfl)
    (fun fin => markup_cut u fin hi ht hv e hy hr))

/-- So a quotation mark that is not closed swallows the rest of the document, without an error. -/
theorem C70_unclosed (u : Uni) (c : Cfg) (doc : List Item) (h : DocOk u.entity u.lower doc) (t : Str) (ht : '"' ∉ t) :
    renderHtml u c [docSrc doc ++ (py"<p title=\"" ++ t)] = renderEvents u c (docEvents u.lower doc) := by
  have hn : TagName py"p" := ⟨'p', [], rfl, by decide, by simp⟩
  have hs : Shape ⟨py" ", py"title", .double t []⟩ := by
    refine ⟨by simp, ?_, by simp, ?_, ?_, fun _ _ h => (by cases h), fun _ _ h => (by cases h)⟩
    · intro d hd; simp only [List.mem_singleton] at hd; exact .inl hd
    · simp only [AttrNameChar]; decide
    · intro raw v e; cases e; exact ht
  refine renderHtml_eq u c _ (tokPieces_cut u h (r := py"p title=\"" ++ t) (by simp) (by simp) fun fin => ?_)
  have := parseStart_cut u none hn (as := [⟨py" ", py"title", .double t []⟩]) (gap := []) (e := py">") (by simpa using hs)
    (by simp) (.inl rfl) (x := py"p title=\"" ++ t) (y := py"\">") (by simp [attrsSrc, SrcAttr.src, Spelling.src]) (by simp) (by simp)
  rw [show py"p title=\"" ++ t = py"p" ++ (py" title=\"" ++ t) from rfl] at this ⊢
  rw [parseMarkup_tag u fin none _ hn, this]

/-- A marked section that does not begin with a letter ends the program with an exception. -/
theorem C70_raises (u : Uni) (c : Cfg) (s0 s : PState) (doc : List Item) (h : DocOk u.entity u.lower doc) (h0 : initParser c = .ok s0)
    (hf : feed u c s0 (docEvents u.lower doc) = .ok s) (x : Char) (hx : ¬(('a' ≤ x ∧ x ≤ 'z') ∨ ('A' ≤ x ∧ x ≤ 'Z'))) (t : Str) :
    renderHtml u c [docSrc doc ++ (py"<![" ++ x :: t)] = .error .assertionError := by
  have ha : isAsciiAlpha x = false := by
    cases e : isAsciiAlpha x with
    | false => rfl
    | true => exact absurd (by simpa [isAsciiAlpha] using e) hx
  have e1 : tokFeed u {} (docSrc doc ++ (py"<![" ++ x :: t)) = (docEvents u.lower doc, .error .assertionError) := by
    rw [tokFeed_eq]
    show tokRun u false ⟨docSrc doc ++ '<' :: ('!' :: '[' :: x :: t), none⟩ = _
    rw [tokRun_docBefore u false h]
    have : tokRun u false ⟨'<' :: ('!' :: '[' :: x :: t), none⟩ = ([], .error .assertionError) := by
      simp [tokRun, goahead, nextText_lt, parseMarkup, markedSection, scanName, ha, bind, Except.bind, Except.map, emit]
    rw [this]
    simp [emit]
  have := fold_pieces u c [docSrc doc ++ (py"<![" ++ x :: t)] { state := s0 }
  simp only [tokPieces, e1, hf, Except.bind] at this
  simp only [renderHtml, h0, bind, Except.bind, pure, Except.pure]
  revert this
  cases List.foldlM (feedHtml u c) { state := s0 } [docSrc doc ++ (py"<![" ++ x :: t)] with
  | error e => intro this; simpa using this
  | ok s' => intro this; simp only at this ⊢; rw [this]

/-! ## Witnesses -/

/-- `<!DOCTYPE html><P Class='a&quot;b' id=x&y hidden >Fish &amp; chips & &notit&#65;b&#X2014;Q&A<br/><!-- - --></p ><script>if (a<b) {}</script>` -/
def sourceExample : List Item :=
  [.decl py"DOCTYPE html",
   .start py"P" [⟨py" ", py"Class", .single py"a&quot;b" py"a\"b"⟩, ⟨py" ", py"id", .bare py"x&y" py"x&y"⟩,
      ⟨py"\n", py"hidden", .absent⟩] py" ",
   .text py"Fish &amp; chips & &notit&#65;b&#X2014;Q&A" py"Fish & chips & ¬itAb—Q&A",
   .empty py"br" [] [],
   .comment py" - ",
   .stop py"p" py" ",
   .verbatim py"script" [] [] py"if (a<b) {}"]

theorem sourceExample_ok : DocOk asciiUni.entity asciiUni.lower sourceExample := by
  have hp : Spells asciiUni.entity py"Fish &amp; chips & &notit&#65;b&#X2014;Q&A" py"Fish & chips & ¬itAb—Q&A" := by
    have h1 : Spells asciiUni.entity py"Q&A" py"Q&A" := .char _ (by decide) (.ref (x := py"A") (raw := [])
      (.plain (refName_of (by decide)) ⟨by decide, .inr (.inl rfl)⟩ (fun k h1 h2 => by
        have h2 : k ≤ 1 := h2
        obtain rfl : k = 1 := by omega
        decide) (fun h => by cases h) (fun h => by cases h)) .nil)
    have h2 : Spells asciiUni.entity py"b&#X2014;Q&A" py"b—Q&A" := .char _ (by decide) (.ref (x := py"#X2014;")
      (.hex (ds := py"2014") (.inr rfl) (by simp) (by decide) (by decide)
        (.inl ⟨by unfold NoCharacter; decide, by decide, by decide, '—', by decide, rfl⟩) (.inl rfl)) h1)
    have h3 : Spells asciiUni.entity py"&#65;b&#X2014;Q&A" py"Ab—Q&A" := .ref (x := py"#65;")
      (.decimal (ds := py"65") (by simp) (by decide) (by decide)
        (.inl ⟨by unfold NoCharacter; decide, by decide, by decide, 'A', by decide, rfl⟩) (.inl rfl)) h2
    have h4 : Spells asciiUni.entity py"&notit&#65;b&#X2014;Q&A" py"¬itAb—Q&A" := .ref (x := py"notit")
      (.unclosed (a := py"not") (b := py"it") (t := py"¬") (by decide) (refName_of (by decide))
        ⟨by decide, .inr (.inr ⟨'&', _, rfl, by decide⟩)⟩ (by decide) (fun k h1 h2 => by
          have h1 : 3 < k := h1
          have h2 : k ≤ 5 := h2
          obtain rfl | rfl : k = 4 ∨ k = 5 := by omega
          · decide
          · decide) (fun h => by cases h)) h3
    have h5 : Spells asciiUni.entity py"& &notit&#65;b&#X2014;Q&A" py"& ¬itAb—Q&A" := .ref (x := [])
      (.plain (by simp) ⟨by decide, .inr (.inr ⟨' ', _, rfl, by decide⟩)⟩ (fun k h1 h2 => by
        have h2 : k ≤ 0 := h2
        omega) (fun h => by cases h) (fun _ h => by cases h)) (.char _ (by decide) h4)
    exact spells_chars (s := py"Fish ") (by decide) (spells_known asciiUni (name := py"amp;") (by decide)
      (spells_chars (s := py" chips ") (by decide) h5))
  have hq : Spells asciiUni.entity py"a&quot;b" py"a\"b" :=
    .char _ (by decide) (spells_known asciiUni (name := py"quot;") (by decide) (.char _ (by decide) .nil))
  have hx : Spells asciiUni.entity py"x&y" py"x&y" := .char _ (by decide) (.ref (x := py"y") (raw := [])
    (.plain (refName_of (by decide)) ⟨by decide, .inr (.inl rfl)⟩ (fun k h1 h2 => by
      have h2 : k ≤ 1 := h2
      obtain rfl : k = 1 := by omega
      decide) (fun h => by cases h) (fun h => by cases h)) .nil)
  have b1 : HtmlBlank ' ' := .inl rfl
  have b2 : HtmlBlank '\n' := .inr (.inr (.inl rfl))
  refine ⟨?_, by simp [NoTextPair, sourceExample, Item.isText]⟩
  intro i hi
  simp only [sourceExample, List.mem_cons, List.not_mem_nil, or_false] at hi
  rcases hi with rfl | rfl | rfl | rfl | rfl | rfl | rfl
  · simp only [Item.Ok]; decide
  · refine ⟨⟨'P', [], rfl, by decide, by simp⟩, ?_, by simpa using b1, by decide, by decide⟩
    intro a ha
    simp only [List.mem_cons, List.not_mem_nil, or_false] at ha
    rcases ha with rfl | rfl | rfl
    · exact ⟨by simp, by simpa using b1, by simp, by simp only [AttrNameChar]; decide, by decide, hq⟩
    · exact ⟨by simp, by simpa using b1, by simp, by simp only [AttrNameChar]; decide,
        ⟨'x', py"&y", rfl, by decide, by decide, by decide⟩, by decide, hx⟩
    · exact ⟨by simp, by simpa using b2, by simp, by simp only [AttrNameChar]; decide, trivial⟩
  · exact ⟨by simp, by decide, hp⟩
  · exact ⟨⟨'b', py"r", rfl, by decide, by decide⟩, by simp, by simp, by rintro ⟨a, _, _, h, _⟩; cases h⟩
  · simp only [Item.Ok]; decide
  · exact ⟨⟨'p', [], rfl, by decide, by simp⟩, by simpa using b1⟩
  · exact ⟨.inl rfl, by simp, by simp, by decide⟩

example : docSrc sourceExample = py"<!DOCTYPE html><P Class='a&quot;b' id=x&y\nhidden >Fish &amp; chips & &notit&#65;b&#X2014;Q&A<br/><!-- - --></p ><script>if (a<b) {}</script>" :=
  rfl

example : docEvents asciiUni.lower sourceExample =
    [.start py"p" [(py"class", some py"a\"b"), (py"id", some py"x&y"), (py"hidden", none)], .data py"Fish & chips & ¬itAb—Q&A",
     .start py"br" [], .stop py"br", .stop py"p", .start py"script" [], .data py"if (a<b) {}", .stop py"script"] := by decide

set_option maxRecDepth 20000 in
example : renderHtml asciiUni {} [docSrc sourceExample] = .ok py"\nFish & chips & ¬itAb—Q&A\n\nif (a<b) {}" := by decide +kernel

/-- Whitespace that is cut in two is not joined again, and counts as two children when items are numbered. -/
theorem C69_fails :
    renderHtml asciiUni {} [py"<p>a  b</p>"] = .ok py"\na b\n" ∧
    renderHtml asciiUni {} [py"<p>a ", py" b</p>"] = .ok py"\na  b\n" ∧
    renderHtml asciiUni {} [py"<ol><li>a</li>\n\n<li>b</li></ol>"] = .ok py"\n1. a\n3. b\n" ∧
    renderHtml asciiUni {} [py"<ol><li>a</li>\n", py"\n<li>b</li></ol>"] = .ok py"\n1. a\n4. b\n" := by decide +kernel

/-- A reference with many digits is not recognised if the text is cut in the middle of it. -/
theorem C69_reference_fails :
    renderHtml asciiUni {} [py"<p>&#00000000000000000000000000000000065;</p>"] = .ok py"\nA\n" ∧
    renderHtml asciiUni {} [py"<p>&#00000000000000000000000000000000065", py";</p>"] = .ok py"\nA;\n" := by decide +kernel

/-- Text that ends in an `&` is complete only when the parser is closed. -/
example : tokFeed asciiUni {} py"a &notit" = ([], .ok ⟨py"a &notit", none⟩) ∧
    tokPieces asciiUni {} [py"a &notit"] = ([.data py"a ¬it"], .ok {}) ∧ OpenEnd py"a &notit" :=
  ⟨by decide +kernel, by decide +kernel, (mayBeCut_open _).1 (by decide +kernel)⟩

/-- Not every text can be rendered, and not all text that is read is on the page. -/
theorem C70_fails :
    renderHtml asciiUni {} [py"<p>a</p><![x]>"] = .error .assertionError ∧
    renderHtml asciiUni {} [py"<p>a</p><![CDATA[b]]>"] = .ok py"\na\n" ∧
    renderHtml asciiUni {} [py"<p>a</p><p title=\"x>b</p>"] = .ok py"\na\n" := by decide +kernel

end Verif
