import Verif.Props.Items
import Verif.Props.LinkLines
import Verif.Spec.Looks

/-!
# What settings do: C75, C76
-/

namespace Verif

open Spec

/-- An element that is not a link is its contents, drawn in the box of its renderer, or in the box around if that has none. -/
theorem textOf_drawn {u : Uni} {c : Cfg} {es : List Event} {s : PState} (h : Rendered u c es s) {i : Nat} {tag : Str}
    (ht : HasTag s.dom i tag) (h1 : tag ≠ py"a") (h2 : tag ≠ py"img") (f : Nat) {box : Box} {inst : Inst}
    (hd : DrawnBy s box i inst) :
    textOf u s (f + 1) box i = (contents u s f (inst.box.getD box) i).bind (inst.render u) := by
  obtain ⟨n, hn, -, hdata, hl⟩ := rendered_elem h ht h1 h2
  obtain ⟨cls, st, e1, e2, e3⟩ := hd
  rw [textOf_elem hn hdata hl e1, renderWith, e2, e3]
  rfl

/-! ## C75 -/

theorem spread_spaced (x g : Str) (n : Nat) : spread x g n = spaced (times n g) x := by
  have ht : repStr g n = times n g := by
    simp only [repStr, Int.toNat_natCast]
    induction n with
    | zero => rfl
    | succ n ih => rw [List.replicate_succ, List.flatten_cons, ih]; rfl
  simp only [spread, ht]
  match x with
  | [] => rfl
  | [c] => rfl
  | c :: d :: r =>
    have ih := spread_spaced (d :: r) g n
    simp only [spread, ht] at ih
    simp only [List.map_cons, join, spaced] at ih ⊢
    rw [ih]
    simp

theorem spaced_zero (g x : Str) : spaced (times 0 g) x = x := by
  match x with
  | [] => rfl
  | [c] => rfl
  | c :: d :: r => rw [spaced, spaced_zero g (d :: r)]; rfl

/-- Centring. -/
theorem center_sides (w : Int) (n : Nat) : ∃ a b, Sides2 true w n a b ∧ ∀ x : Str, x.length = n → center x w = between a b x := by
  by_cases hle : w ≤ n
  · refine ⟨0, 0, ⟨by simp, by simp, fun _ => ⟨by omega, by omega, by omega⟩⟩, fun x hx => ?_⟩
    have hl : w ≤ len x := by rw [len, hx]; exact hle
    simp only [center, centerStr, if_pos hl, between, List.replicate_zero, List.nil_append, List.append_nil, ite_self]
  · generalize hpad : (w - n).toNat = pad
    generalize hleft : pad / 2 + (if pad % 2 = 1 ∧ w.toNat % 2 = 1 then 1 else 0) = left
    refine ⟨left, pad - left, ⟨by simp, by omega, fun _ => ?_⟩, fun x hx => ?_⟩
    · revert hleft
      split <;> intro hleft <;> omega
    · have hl : ¬ w ≤ len x := by rw [len, hx]; exact hle
      rw [center, if_neg (by omega), centerStr, if_neg hl]
      simp only [len, hx, hpad, hleft, between]

theorem between_none (x : Str) : between 0 0 x = x := by simp [between]

theorem repStr_one (c : Char) (n : Int) : repStr [c] n = List.replicate n.toNat c := by
  simp only [repStr]
  induction n.toNat with
  | zero => rfl
  | succ n ih => rw [List.replicate_succ, List.flatten_cons, ih]; rfl

/-- The content of a header, centred in any width. -/
theorem header_content (u : Uni) (look : HeaderLook) (s : Dict) (h : look.In s) (b : Box) (x : Str) :
    ∃ a1 a2, Sides2 look.centred b.innerWidth (look.text u x).length a1 a2 ∧
      headerInner u s b x = .ok (match look.underline with
        | none => between a1 a2 (look.text u x)
        | some c => between a1 a2 (look.text u x) ++ py"\n" ++
          (if look.full then List.replicate b.innerWidth.toNat c
            else between a1 a2 (List.replicate (look.text u x).length c))) := by
  have hcap : capIf u s x = .ok (cased u look.capitals x) := by
    simp only [capIf, getA, h.capitals, bind, Except.bind, pure, Except.pure, Val.truthy, cased]
    cases look.capitals <;> rfl
  have hspread : (if (look.spread : Int) > 0 then (asStr (.str look.gap)).bind (fun y =>
        (.ok (spread (cased u look.capitals x) y look.spread) : Py Str)) else .ok (cased u look.capitals x)) =
      .ok (spaced (times look.spread look.gap) (cased u look.capitals x)) := by
    cases hn : look.spread with
    | zero => rw [spaced_zero]; rfl
    | succ n => rw [if_pos (by omega), ← spread_spaced]; rfl
  have hfmt : fmt1 (escape look.before ++ py"{}" ++ escape look.after)
      (spaced (times look.spread look.gap) (cased u look.capitals x)) = .ok (look.text u x) := fmt1_escape _ _ _
  have key : headerInner u s b x = (match look.underline with
      | none => (.ok (if look.centred then center (look.text u x) b.innerWidth else look.text u x) : Py Str)
      | some c => .ok ((if look.centred then center (look.text u x) b.innerWidth else look.text u x) ++ py"\n" ++
          let line := repStr [c] (if look.full = true then b.innerWidth else len (look.text u x))
          if look.centred then center line b.innerWidth else line)) := by
    simp only [headerInner, getA, getK, bind, Except.bind, pure, Except.pure, h.centred, h.spread, h.template, h.gap,
      h.underlined, h.full, hcap, asInt, asStr, Val.truthy] at hspread hfmt ⊢
    simp only [hspread, hfmt]
    cases hu : look.underline with
    | none => rfl
    | some c => simp only [h.line c hu]; rfl
  rw [key]
  cases hc : look.centred with
  | false =>
    refine ⟨0, 0, ⟨by simp, by simp, by simp⟩, ?_⟩
    cases look.underline with
    | none => simp [between_none]
    | some c =>
      simp only [between_none, Bool.false_eq_true, if_false, repStr_one]
      split <;> simp [len]
  | true =>
    obtain ⟨a, b', h1, h2⟩ := center_sides b.innerWidth (look.text u x).length
    refine ⟨a, b', h1, ?_⟩
    cases look.underline with
    | none => simp [h2 _ rfl]
    | some c =>
      simp only [if_true, repStr_one]
      rw [h2 _ rfl]
      split
      · have : center (List.replicate b.innerWidth.toNat c) b.innerWidth = List.replicate b.innerWidth.toNat c := by
          have hl : b.innerWidth ≤ len (List.replicate b.innerWidth.toNat c) := by simp only [len, List.length_replicate]; omega
          simp only [center, centerStr, if_pos hl, ite_self]
        rw [this]
      · rw [h2]
        · simp [len]
        · simp [len]

/-- What a header shows, inside its frame, is laid out as its settings say, provided that no element around it marks its
lines: the text in capitals, spread out, between the texts of the template, in the middle of its room, and below it a line
that is as long as the text and starts in the same column, or fills the room. Lengths are in characters. (What is missing:
escape sequences are counted, see `C75_colour_fails`, a text of several lines is treated as one, see `C75_lines_fails`, the
marks of block quotes around are not taken into account, see `C75_quote_fails`, and the line is too long if it is to be made
from more than one character, see `C75_line_fails`.) -/
theorem C75_partial (u : Uni) (cls : RClass) (t : TagInfo) (ctx : Ctx) (parent : Box) (inst : Inst) (look : HeaderLook) (x : Str)
    (hc : cls.behaviour ∈ [.header, .mdHeader, .defTerm]) (h : construct cls t ctx parent = .ok inst)
    (hl : look.In inst.settings) (hp : parent.totalLineTemplatePadding = 0) :
    ∃ b a1 a2, inst.box = some b ∧ Sides2 look.centred b.textWidth (look.text u x).length a1 a2 ∧
      innerRender u inst b x = .ok (match look.underline with
        | none => between a1 a2 (look.text u x)
        | some c => between a1 a2 (look.text u x) ++ py"\n" ++
          (if look.full then List.replicate b.textWidth.toNat c
            else between a1 a2 (List.replicate (look.text u x).length c))) := by
  obtain ⟨e1, e2, -, -, e3⟩ := construct_settings h
  simp only [List.mem_cons, List.not_mem_nil, or_false] at hc
  have hb : cls.behaviour.isBlock = true ∧ cls.behaviour.boxHasTemplate = false := by
    rcases hc with hc | hc | hc <;> rw [hc] <;> exact ⟨rfl, rfl⟩
  simp only [construct, e1, bind, Except.bind] at h
  rw [isBlock_behaviour, boxHasTemplate_behaviour, hb.1, hb.2] at h
  simp only [if_true] at h
  cases hk : blockBox false inst.settings parent with
  | error e => rw [hk] at h; cases h
  | ok b =>
    rw [hk] at h
    simp only [pure, Except.pure, Except.ok.injEq] at h
    have hw : b.textWidth = b.innerWidth := by
      have : b.totalLineTemplatePadding = 0 := by
        simp only [blockBox, bind, Except.bind, Bool.false_eq_true, if_false] at hk
        repeat' split at hk
        all_goals first | cases hk; done | skip
        simp only [pure, Except.pure, Except.ok.injEq] at hk
        rw [← hk]
        simp [Box.new, hp, ownTemplatePadding]
      simp [Box.textWidth, Box.innerWidth, this]
    obtain ⟨a1, a2, k1, k2⟩ := header_content u look inst.settings hl b x
    rw [← hw] at k1 k2
    refine ⟨b, a1, a2, by rw [← h], k1, ?_⟩
    rw [← k2]
    rcases hc with hc | hc | hc <;> simp only [innerRender, e2, hc]

/-- A page of `w` columns with a rule for `h1`, no empty lines around headers. -/
def headCfg (w : Int) (settings : Dict) : Cfg :=
  { box := some (Box.new w {} {} {} none none)
    optimise := false
    renderers := [⟨py"h1", one (elt py"h1"), .pair (some .header) (some ((py"margin", .ints [0, 0, 0, 0]) :: settings))⟩] }

/-- `<h1>x</h1>` -/
def headEvents (x : Str) : List Event := [.start py"h1" [], .data x, .stop py"h1"]

example : renderEvents asciiUni (headCfg 12 [(py"capitalized", .bool true), (py"spread", .int 1), (py"spread_char", .str py"."),
      (py"template", .str py"{{{}}}"), (py"centered", .bool true), (py"underlined", .bool true)]) (headEvents py"abc") =
    .ok py"  {A.B.C}   \n  =======   " := by decide +kernel

example : renderEvents asciiUni (headCfg 9 [(py"underlined", .bool true), (py"underline_full", .bool true),
      (py"underline_char", .str py"-")]) (headEvents py"a{}") = .ok py"a{}      \n---------" := by decide +kernel

/-- Those settings ask for the look of the first example. -/
def c75Look : HeaderLook :=
  { before := py"{", after := py"}", capitals := true, spread := 1, gap := py".", centred := true, underline := some '=' }

example : c75Look.In (DictOf.update (newSettings .header) [(py"capitalized", .bool true), (py"spread", .int 1),
    (py"spread_char", .str py"."), (py"template", .str py"{{{}}}"), (py"centered", .bool true), (py"underlined", .bool true)]) :=
  ⟨rfl, rfl, rfl, rfl, rfl, rfl, by intro c h; cases h; rfl, rfl⟩

example : Sides2 true 12 (c75Look.text asciiUni py"abc").length 2 3 := by
  refine ⟨by simp, by decide, fun _ => ⟨by decide, by decide, by decide⟩⟩

/-- A header that is too long is not centred, and its underline is longer than the page. -/
example : renderEvents asciiUni (headCfg 2 [(py"centered", .bool true), (py"underlined", .bool true)]) (headEvents py"abc") =
    .ok py"abc\n===" := by decide +kernel

/-- The two lines of a header are not centred one by one, and the line below is as long as both together. -/
theorem C75_lines_fails :
    renderEvents asciiUni (headCfg 12 [(py"centered", .bool true), (py"underlined", .bool true)])
      [.start py"h1" [], .data py"ab", .start py"br" [], .data py"abcd", .stop py"h1"] =
    .ok py"  ab        \nabcd        \n  =======   " := by decide +kernel

/-- The line below coloured text is longer than what is seen of it. -/
theorem C75_colour_fails :
    renderEvents asciiUni { headCfg 16 [(py"underlined", .bool true)] with
        renderers := (headCfg 16 [(py"underlined", .bool true)]).renderers ++
          [⟨py"em", one (elt py"em"), .pair (some .ansi) (some [(py"foreground_colour", .str py"red")])⟩] }
      [.start py"h1" [], .start py"em" [], .data py"ab", .stop py"em", .stop py"h1"] =
    .ok py"\x1b[31mab\x1b[39m    \n============    " := by decide +kernel

/-- In a block quote the line below a header is longer than the page. -/
theorem C75_quote_fails :
    renderEvents asciiUni (headCfg 8 [(py"underlined", .bool true), (py"underline_full", .bool true)])
      [.start py"blockquote" [], .start py"h1" [], .data py"ab", .stop py"h1", .stop py"blockquote"] =
    .ok py"\n> ab    \n> ========\n" := by decide +kernel

/-- A line made from two characters is twice as long as the text. -/
theorem C75_line_fails :
    renderEvents asciiUni (headCfg 8 [(py"underlined", .bool true), (py"underline_char", .str py"-=")]) (headEvents py"abc") =
    .ok py"abc     \n-=-=-=  " := by decide +kernel

/-! ## C76 -/

theorem parse_name (f s r : Str) (h : ∀ c ∈ s, c ≠ '}' ∧ c ≠ '{' ∧ c ≠ '[' ∧ c ≠ ':' ∧ c ≠ '!') :
    parseTemplate (some (.name f)) (s ++ '}' :: r) = fieldPiece (f ++ s) :: parseTemplate none r := by
  induction s generalizing f with
  | nil => simp [parseTemplate]
  | cons c s ih =>
    obtain ⟨h1, h2, h3, h4, h5⟩ := h c (by simp)
    rw [List.cons_append, parseTemplate, if_neg h1, if_neg h2, if_neg h3, if_neg h5, if_neg h4, ih _ (fun x hx => h x (List.mem_cons_of_mem _ hx))]
    simp

theorem parse_key {s : Str} (h : PlainName s) (r : Str) :
    parseTemplate none (py"{" ++ s ++ py"}" ++ r) = .name s :: parseTemplate none r := by
  have h1 : ∀ c ∈ s, c ≠ '}' ∧ c ≠ '{' ∧ c ≠ '.' ∧ c ≠ '[' ∧ c ≠ ':' ∧ c ≠ '!' ∧ c.isDigit = false := by
    intro c hc
    have ne : ∀ d : Char, d.isAlpha = false → d ≠ '_' → c ≠ d := by
      intro d h1 h2 e
      subst e
      rcases h.2 c hc with h3 | h3
      · rw [h1] at h3; cases h3
      · exact h2 h3
    refine ⟨ne _ (by decide) (by decide), ne _ (by decide) (by decide), ne _ (by decide) (by decide), ne _ (by decide) (by decide),
      ne _ (by decide) (by decide), ne _ (by decide) (by decide), ?_⟩
    rcases h.2 c hc with h3 | h3
    · cases hd : c.isDigit with
      | false => rfl
      | true =>
        simp only [Char.isAlpha, Char.isUpper, Char.isLower, Char.isDigit, Bool.or_eq_true, decide_eq_true_eq,
          Bool.and_eq_true] at h3 hd
        have e1 := hd.1; have e2 := hd.2
        simp only [ge_iff_le, UInt32.le_iff_toNat_le] at e1 e2 h3
        rcases h3 with ⟨h3, -⟩ | ⟨h3, -⟩ <;> (revert e2 h3; simp; omega)
    · subst h3; decide
  obtain ⟨c, t, rfl⟩ : ∃ c t, s = c :: t := by
    cases s with
    | nil => exact absurd rfl h.1
    | cons c t => exact ⟨c, t, rfl⟩
  have h2 : parseTemplate none (py"{" ++ (c :: t) ++ py"}" ++ r) = parseTemplate (some (.name [])) ((c :: t) ++ '}' :: r) := by
    have e : py"{" ++ (c :: t) ++ py"}" ++ r = '{' :: c :: (t ++ '}' :: r) := by simp
    rw [e, parseTemplate.eq_def]
    split
    · simp at *
    · simp at *
    · rename_i e; cases e; exact absurd rfl (h1 '{' (by simp)).2.1
    · rename_i e; cases e
    · rename_i e; cases e; rw [if_pos rfl]; rfl
    all_goals simp at *
  rw [h2, parse_name [] (c :: t) r (fun x hx => by
    obtain ⟨a0, a1, a2, a3, a4, a5, -⟩ := h1 x hx
    exact ⟨a0, a1, a3, a4, a5⟩), List.nil_append]
  have h3 : fieldPiece (c :: t) = .name (c :: t) := by
    unfold fieldPiece
    have hd : ¬ c.isDigit = true := by simp [(h1 c (by simp)).2.2.2.2.2.2]
    rw [if_neg (by simp), if_neg, if_neg, if_neg]
    · simp only [List.any_eq_true, not_exists, not_and]
      intro x hx
      obtain ⟨-, a1, a2, a3, a4, a5, -⟩ := h1 x hx
      simp [a1, a2, a3, a4, a5]
    · simp [hd]
    · rw [tooBig, List.takeWhile_cons_of_neg hd]
      decide
  rw [h3]

/-- Templates with names. -/
theorem format_write (names : List Str) (t : List Slot) (kw : List (Str × Arg)) (kw' : List (Str × Str)) (hs : shownKw kw = kw')
    (ht : Names names t) (hn : ∀ s ∈ names, PlainName s) (hk : ∀ s ∈ names, s ∈ kw.map Prod.fst) :
    pyFormat (write t) [] kw = .ok (fillAll [] kw' t) := by
  subst hs
  have key : ∀ m, evalPieces [] kw m (parseTemplate none (write t)) = .ok (fillAll [] (shownKw kw) t) := by
    induction t with
    | nil => intro m; rfl
    | cons x t ih =>
      intro m
      have ih := ih (fun y hy => ht y (List.mem_cons_of_mem _ hy))
      rcases ht x (by simp) with ⟨c, rfl⟩ | ⟨s, hs, rfl⟩
      · rw [write, parse_escape]
        simp only [List.map_cons, List.map_nil, List.cons_append, List.nil_append, evalPieces, ih, Except.map, fillAll_cons,
          Slot.fill]
      · obtain ⟨v, hv⟩ := lookup_some_of_mem kw s (hk s hs)
        rw [write, parse_key (hn s hs)]
        simp only [evalPieces, nameArg, hv, ih, Except.map, fillAll_cons, fill_key hv]
  exact key _

/-- The content of an inline element, in capitals if asked for, in its template. -/
theorem inline_content {u : Uni} {s : Dict} {before after : Str} {capitals : Bool}
    (h1 : DictOf.get s py"template" = some (.str (escape before ++ py"{}" ++ escape after)))
    (h2 : DictOf.get s py"capitalized" = some (.bool capitals)) (x : Str) :
    inlineRender u s x = .ok (before ++ cased u capitals x ++ after) := by
  simp only [inlineRender, getK, getA, h1, h2, bind, Except.bind, asStr, Val.truthy]
  exact fmt1_escape before after _

theorem inline_box {c : RClass} {t : TagInfo} {ctx : Ctx} {box : Box} {inst : Inst} (h : construct c t ctx box = .ok inst)
    (hc : c.behaviour.isBlock = false) : inst.box = none ∧ inst.cls = c.behaviour ∧ inst.ctx = ctx ∧ inst.tag = t := by
  obtain ⟨-, e1, e2, e3, e4⟩ := construct_settings h
  rw [isBlock_behaviour, hc] at e4
  exact ⟨by simpa using e4, e1, e3, e2⟩

/-- Inline elements: the content, in capitals if asked for, between the texts of the template. -/
theorem C76_inline (u : Uni) (c : RClass) (t : TagInfo) (ctx : Ctx) (box : Box) (inst : Inst) (before after x : Str)
    (capitals : Bool) (hc : c.behaviour ∈ [.inline, .em, .strong, .underline, .strike]) (h : construct c t ctx box = .ok inst)
    (h1 : DictOf.get inst.settings py"template" = some (.str (escape before ++ py"{}" ++ escape after)))
    (h2 : DictOf.get inst.settings py"capitalized" = some (.bool capitals)) :
    inst.render u x = .ok (before ++ cased u capitals x ++ after) := by
  simp only [List.mem_cons, List.not_mem_nil, or_false] at hc
  rw [← inline_content h1 h2]
  rcases hc with hc | hc | hc | hc | hc <;>
  · obtain ⟨e1, e2, -, -⟩ := inline_box h (by rw [hc]; rfl)
    simp only [Inst.render, e1, e2, hc]

/-- Code: content without a line break in one template, with line breaks in the other; directly in `pre` there is no
template. -/
theorem C76_code (u : Uni) (c : RClass) (t : TagInfo) (ctx : Ctx) (box : Box) (inst : Inst) (b1 a1 b2 a2 x : Str)
    (hc : c.behaviour = .code) (h : construct c t ctx box = .ok inst)
    (h1 : DictOf.get inst.settings py"inline_template" = some (.str (escape b1 ++ py"{}" ++ escape a1)))
    (h2 : DictOf.get inst.settings py"block_template" = some (.str (escape b2 ++ py"{}" ++ escape a2))) :
    inst.render u x = .ok (if t.parentTag = some py"pre" then x else if '\n' ∈ x then b2 ++ x ++ a2 else b1 ++ x ++ a1) := by
  obtain ⟨e1, e2, -, e4⟩ := inline_box h (by rw [hc]; rfl)
  simp only [Inst.render, e1, e2, hc, codeRender, e4]
  by_cases hp : t.parentTag = some py"pre"
  · rw [if_pos hp, if_pos hp]
  · rw [if_neg hp, if_neg hp]
    simp only [getK, h1, h2, bind, Except.bind, asStr, List.contains_iff_mem]
    by_cases hn : '\n' ∈ x
    · rw [if_pos hn, if_pos hn]; exact fmt1_escape _ _ _
    · rw [if_neg hn, if_neg hn]; exact fmt1_escape _ _ _

theorem template_nth {s : Dict} {name : Str} {ts : List (List Slot)} (h : Templates s name ts) {k : Nat} {t : List Slot}
    (hk : ts[k]? = some t) : namedTemplate s name k = .ok (write t) := by
  obtain ⟨d, h1, h2⟩ := h
  simp only [namedTemplate, getA, h1, bind, Except.bind, h2, strAt, List.getElem?_map, hk, Option.map_some]

theorem link_content {u : Uni} {s : Dict} {before after : Str} {capitals : Bool}
    (h1 : DictOf.get s py"template" = some (.str (escape before ++ py"{}" ++ escape after)))
    (h2 : DictOf.get s py"capitalized" = some (.bool capitals)) (x : Str) :
    (inlineRender u s x).bind (capIf u s) = .ok (linkInner u capitals before after x) := by
  rw [inline_content h1 h2]
  simp only [Except.bind, capIf, getA, h2, bind, pure, Except.pure, Val.truthy, linkInner, cased]
  cases capitals <;> rfl

theorem ctxTitle_heading {ctx : Ctx} {tgt : Target} (h : ctx.target = some tgt) : ctxTitle ctx = Spec.Target.heading tgt := by
  simp only [ctxTitle, h, truthyTitle, Spec.Target.heading]
  cases tgt.title with
  | none => rfl
  | some x => cases x <;> simp

theorem strOpt_getD (x : Option Str) : strOpt x = x.getD py"None" := by cases x <;> rfl
theorem opt_getD (x : Option Str) : (Arg.opt x).show = x.getD py"None" := by cases x <;> rfl
theorem optInt_getD (x : Option Int) : (Arg.optInt x).show = (x.map intStr).getD py"None" := by cases x <;> rfl

/-- The arguments as texts. -/
macro "show_args" : tactic => `(tactic| simp [shownKw, opt_getD, optInt_getD, show ∀ s, (Arg.str s).show = s from fun _ => rfl,
  show ∀ n : Nat, (Arg.int (n : Int)).show = natStr n from fun _ => rfl])

/-- Links: with a reference, the content and the number of the link are put in the template for references; in place, the
content, the address and the title, if there is one, are put in the template for links without or with a title. -/
theorem C76_link (u : Uni) (c : RClass) (t : TagInfo) (ctx : Ctx) (box : Box) (inst : Inst) (l : LinkCtx) (before after x : Str)
    (capitals : Bool) (hc : c.behaviour = .link) (h : construct c t ctx box = .ok inst) (hl : ctx.link = some l)
    (h1 : DictOf.get inst.settings py"template" = some (.str (escape before ++ py"{}" ++ escape after)))
    (h2 : DictOf.get inst.settings py"capitalized" = some (.bool capitals)) :
    (l.linkPlacement ≠ py"inline" → ∀ t0 ts, Templates inst.settings py"reference" (t0 :: ts) →
      Names [py"content", py"link_reference"] t0 →
      inst.render u x = .ok (fillAll [] [(py"content", linkInner u capitals before after x),
        (py"link_reference", natStr l.linkReference)] t0)) ∧
    (l.linkPlacement = py"inline" → ∀ tgt, ctx.target = some tgt → ∀ t0 t1 ts,
      Templates inst.settings py"inline" (t0 :: t1 :: ts) → Names [py"content", py"href"] t0 →
      Names [py"content", py"href", py"title"] t1 →
      inst.render u x = .ok (match Spec.Target.heading tgt with
        | none => fillAll [] [(py"content", linkInner u capitals before after x), (py"href", tgt.href.getD py"None")] t0
        | some title => fillAll [] [(py"content", linkInner u capitals before after x), (py"href", tgt.href.getD py"None"),
          (py"title", title)] t1)) := by
  obtain ⟨e1, e2, e3, -⟩ := inline_box h (by rw [hc]; rfl)
  have hk := link_content (u := u) h1 h2 x
  obtain ⟨y, hi, hcap⟩ : ∃ y, inlineRender u inst.settings x = .ok y ∧
      capIf u inst.settings y = .ok (linkInner u capitals before after x) := by
    cases hi : inlineRender u inst.settings x with
    | error e => rw [hi] at hk; cases hk
    | ok y => rw [hi] at hk; exact ⟨y, rfl, hk⟩
  have hstart : inst.render u x = (fun inner =>
      if l.linkPlacement = py"inline" then
        match ctxTitle ctx with
        | some title => do
          let template ← namedTemplate inst.settings py"inline" 1
          let tgt ← ctxTarget ctx
          pyFormat template [] [(py"content", inner), (py"href", .opt tgt.href), (py"title", title)]
        | none => do
          let template ← namedTemplate inst.settings py"inline" 0
          let tgt ← ctxTarget ctx
          pyFormat template [] [(py"content", inner), (py"href", .opt tgt.href)]
      else do
        let template ← namedTemplate inst.settings py"reference" 0
        pyFormat template [] [(py"content", inner), (py"link_reference", .int l.linkReference)])
        (linkInner u capitals before after x) := by
    simp only [Inst.render, e1, e2, hc, linkRender, e3, ctxLink, hl, bind, Except.bind, hi, hcap]
    cases ctxTitle ctx <;> rfl
  have names : ∀ s ∈ [py"content", py"href", py"title", py"link_reference"], PlainName s := by
    intro s hs
    simp only [List.mem_cons, List.not_mem_nil, or_false] at hs
    rcases hs with rfl | rfl | rfl | rfl <;> exact ⟨by decide, by decide⟩
  rw [hstart]
  refine ⟨fun hp t0 ts ht hn => ?_, fun hp tgt htgt t0 t1 ts ht hn0 hn1 => ?_⟩
  · simp only [if_neg hp, template_nth ht (k := 0) rfl, bind, Except.bind]
    refine format_write _ t0 _ _ (by show_args) hn (fun s hs => names s ?_) (by simp)
    simp only [List.mem_cons, List.not_mem_nil, or_false] at hs ⊢
    rcases hs with rfl | rfl <;> simp
  · simp only [if_pos hp, ctxTitle_heading htgt]
    cases Spec.Target.heading tgt with
    | none =>
      simp only [template_nth ht (k := 0) rfl, bind, Except.bind, ctxTarget, htgt]
      refine format_write _ t0 _ _ (by show_args) hn0 (fun s hs => names s ?_) (by simp)
      simp only [List.mem_cons, List.not_mem_nil, or_false] at hs ⊢
      rcases hs with rfl | rfl <;> simp
    | some title =>
      simp only [template_nth ht (k := 1) rfl, bind, Except.bind, ctxTarget, htgt]
      refine format_write _ t1 _ _ (by show_args) hn1 (fun s hs => names s ?_) (by simp)
      simp only [List.mem_cons, List.not_mem_nil, or_false] at hs ⊢
      rcases hs with rfl | rfl | rfl <;> simp

/-- Images: the title, or the word `Image`, and the number or the address in the template for their placement. -/
theorem C76_image (u : Uni) (c : RClass) (t : TagInfo) (ctx : Ctx) (box : Box) (inst : Inst) (l : LinkCtx) (x : Str)
    (hc : c.behaviour = .image) (h : construct c t ctx box = .ok inst) (hl : ctx.link = some l) :
    (l.imagePlacement ≠ py"inline" → ∀ t0 ts, Templates inst.settings py"reference" (t0 :: ts) →
      Names [py"title", py"link_reference"] t0 →
      inst.render u x = .ok (fillAll [] [(py"title", (ctx.target.bind Spec.Target.heading).getD py"Image"),
        (py"link_reference", natStr l.linkReference)] t0)) ∧
    (l.imagePlacement = py"inline" → ∀ tgt, ctx.target = some tgt → ∀ t0 ts, Templates inst.settings py"inline" (t0 :: ts) →
      Names [py"href", py"title"] t0 →
      inst.render u x = .ok (fillAll [] [(py"href", tgt.href.getD py"None"),
        (py"title", (Spec.Target.heading tgt).getD py"Image")] t0)) := by
  obtain ⟨e1, e2, e3, -⟩ := inline_box h (by rw [hc]; rfl)
  have names : ∀ s ∈ [py"content", py"href", py"title", py"link_reference"], PlainName s := by
    intro s hs
    simp only [List.mem_cons, List.not_mem_nil, or_false] at hs
    rcases hs with rfl | rfl | rfl | rfl <;> exact ⟨by decide, by decide⟩
  have htitle : ctxTitle ctx = ctx.target.bind Spec.Target.heading := by
    cases hg : ctx.target with
    | none => simp [ctxTitle, hg]
    | some tgt => rw [ctxTitle_heading hg]; rfl
  simp only [Inst.render, e1, e2, hc, imageRender, e3, ctxLink, hl, bind, Except.bind, htitle]
  refine ⟨fun hp t0 ts ht hn => ?_, fun hp tgt htgt t0 ts ht hn => ?_⟩
  · simp only [if_neg hp, template_nth ht (k := 0) rfl]
    refine format_write _ t0 _ _ (by show_args) hn (fun s hs => names s ?_) (by simp)
    simp only [List.mem_cons, List.not_mem_nil, or_false] at hs ⊢
    rcases hs with rfl | rfl <;> simp
  · simp only [if_pos hp, template_nth ht (k := 0) rfl, ctxTarget, htgt, Option.bind_some]
    refine format_write _ t0 _ _ (by show_args) hn (fun s hs => names s ?_) (by simp)
    simp only [List.mem_cons, List.not_mem_nil, or_false] at hs ⊢
    rcases hs with rfl | rfl <;> simp

theorem entry_names {s : Str} (h : s ∈ [py"description", py"link_reference", py"href", py"title", py"selector", py"type", py"host",
    py"port"]) : PlainName s := by
  simp only [List.mem_cons, List.not_mem_nil, or_false] at h
  rcases h with rfl | rfl | rfl | rfl | rfl | rfl | rfl | rfl <;> exact ⟨by decide, by decide⟩

theorem entry_template (names : List Str) (t : List Slot) (kw : List (Str × Arg)) (kw' : List (Str × Str)) (hs : shownKw kw = kw')
    (ht : Names names t)
    (hn : ∀ s ∈ names, s ∈ [py"description", py"link_reference", py"href", py"title", py"selector", py"type", py"host", py"port"])
    (hk : ∀ s ∈ names, s ∈ kw.map Prod.fst) : pyFormat (write t) [] kw = .ok (fillAll [] kw' t) :=
  format_write names t kw kw' hs ht (fun s hs => entry_names (hn s hs)) hk

/-- Entries of links on a text page: number, description and address in the first template, or with the title in the second
if there is one. -/
theorem C76_entry (u : Uni) (c : RClass) (t : TagInfo) (ctx : Ctx) (box b : Box) (inst : Inst) (l : LinkCtx) (tgt : Target)
    (limit : Nat) (t0 t1 : List Slot) (ts : List Str) (x : Str)
    (hc : c.behaviour = .extractedLink) (h : construct c t ctx box = .ok inst) (hl : ctx.link = some l) (hg : ctx.target = some tgt)
    (hf : l.outputFormat ≠ py"gophermap") (h1 : DictOf.get inst.settings py"max_link_description" = some (.int limit))
    (h2 : DictOf.get inst.settings py"templates" = some (.strs (write t0 :: write t1 :: ts)))
    (hn0 : Names [py"description", py"link_reference", py"href"] t0)
    (hn1 : Names [py"description", py"link_reference", py"href", py"title"] t1) :
    innerRender u inst b x = .ok (
      let kw := [(py"description", cutText limit x), (py"link_reference", natStr l.linkReference), (py"href", tgt.href.getD py"None")]
      match Spec.Target.heading tgt with
      | none => fillAll [] kw t0
      | some title => fillAll [] (kw ++ [(py"title", title)]) t1) := by
  obtain ⟨-, e1, -, e3, -⟩ := construct_settings h
  have hh : ctxTitle ctx = if truthyTitle tgt.title then tgt.title else none := by simp only [ctxTitle, hg]
  rw [ctxTitle_heading hg] at hh
  simp only [innerRender, e1, hc, extractedLinkInner, e3, ctxLink, ctxTarget, hl, hg, hf, getA, h1, h2, asInt, bind, Except.bind,
    if_false, templateAt, strAt, List.getElem?_cons_zero, List.getElem?_cons_succ, trim_cut, strOpt_getD, hh]
  cases ht : truthyTitle tgt.title with
  | false =>
    simp only [Bool.false_eq_true, if_false]
    exact entry_template _ t0 _ _ (by show_args) hn0 (by simp) (by simp)
  | true =>
    cases hv : tgt.title with
    | none => rw [hv] at ht; cases ht
    | some title =>
      simp only [if_true, Option.getD_some]
      exact entry_template _ t1 _ _ (by show_args) hn1 (by simp) (by simp)

/-- Entries of images on a text page: as for links, the title, or the word `Image`, being the description too; the second
template is used if the description is too short for it. -/
theorem C76_entry_image (u : Uni) (c : RClass) (t : TagInfo) (ctx : Ctx) (box b : Box) (inst : Inst) (l : LinkCtx) (tgt : Target)
    (limit : Nat) (t0 t1 : List Slot) (ts : List Str) (x : Str)
    (hc : c.behaviour = .extractedImage) (h : construct c t ctx box = .ok inst) (hl : ctx.link = some l) (hg : ctx.target = some tgt)
    (hf : l.outputFormat ≠ py"gophermap") (h1 : DictOf.get inst.settings py"max_link_description" = some (.int limit))
    (h2 : DictOf.get inst.settings py"templates" = some (.strs (write t0 :: write t1 :: ts)))
    (hn0 : Names [py"description", py"link_reference", py"href"] t0)
    (hn1 : Names [py"description", py"link_reference", py"href", py"title"] t1) :
    innerRender u inst b x = .ok (
      let title := (Spec.Target.heading tgt).getD py"Image"
      let kw := [(py"description", cutText limit title), (py"link_reference", natStr l.linkReference), (py"href", tgt.href.getD py"None")]
      if limit < title.length then fillAll [] (kw ++ [(py"title", title)]) t1 else fillAll [] kw t0) := by
  obtain ⟨-, e1, -, e3, -⟩ := construct_settings h
  have hh : (if truthyTitle tgt.title then tgt.title.getD py"None" else py"Image") = (Spec.Target.heading tgt).getD py"Image" := by
    rw [← ctxTitle_heading hg]
    simp only [ctxTitle, hg]
    cases ht : truthyTitle tgt.title with
    | false => rfl
    | true =>
      cases hv : tgt.title with
      | none => rw [hv] at ht; cases ht
      | some title => rfl
  simp only [innerRender, e1, hc, extractedImageInner, e3, ctxLink, ctxTarget, hl, hg, hf, getA, h1, h2, asInt, bind, Except.bind,
    if_false, templateAt, strAt, List.getElem?_cons_zero, List.getElem?_cons_succ, trim_cut, strOpt_getD, hh]
  have hlen : (len ((Spec.Target.heading tgt).getD py"Image") > (limit : Int)) ↔
      limit < ((Spec.Target.heading tgt).getD py"Image").length := by simp only [len]; omega
  simp only [hlen]
  split
  · exact entry_template _ t1 _ _ (by show_args) hn1 (by simp) (by simp)
  · exact entry_template _ t0 _ _ (by show_args) hn0 (by simp) (by simp)

/-- Entries on a gophermap: type, number, description, selector, host and port in the template. The description of a link is
its title, even an empty one, or the beginning of its text, that of an image the beginning of its title or the word
`Image`. -/
theorem C76_gophermap (u : Uni) (c : RClass) (t : TagInfo) (ctx : Ctx) (box b : Box) (inst : Inst) (l : LinkCtx) (tgt : Target)
    (limit : Nat) (t0 : List Slot) (x : Str) (h : construct c t ctx box = .ok inst) (hl : ctx.link = some l)
    (hg : ctx.target = some tgt) (hf : l.outputFormat = py"gophermap")
    (h1 : DictOf.get inst.settings py"max_link_description" = some (.int limit))
    (h2 : DictOf.get inst.settings py"gophermap_template" = some (.str (write t0)))
    (hn : Names [py"description", py"link_reference", py"selector", py"type", py"host", py"port"] t0) :
    let kw := fun d => [(py"description", d), (py"link_reference", natStr l.linkReference), (py"selector", tgt.gopherLink.selector),
      (py"type", tgt.gopherLink.type), (py"host", tgt.gopherLink.host.getD py"None"),
      (py"port", (tgt.gopherLink.port.map intStr).getD py"None")]
    (c.behaviour = .extractedLink → innerRender u inst b x = .ok (fillAll [] (kw (tgt.title.getD (cutText limit x))) t0)) ∧
    (c.behaviour = .extractedImage → innerRender u inst b x =
      .ok (fillAll [] (kw (cutText limit ((Spec.Target.heading tgt).getD py"Image"))) t0)) := by
  obtain ⟨-, e1, -, e3, -⟩ := construct_settings h
  intro kw
  refine ⟨fun hc => ?_, fun hc => ?_⟩
  · simp only [innerRender, e1, hc, extractedLinkInner, e3, ctxLink, ctxTarget, hl, hg, hf, getA, h1, h2, asInt, asStr, bind,
      Except.bind, if_true, trim_cut, gophermapArgs]
    cases tgt.title <;> exact entry_template _ t0 _ _ (by unfold kw; show_args) hn (by simp) (by simp)
  · have hh : (if truthyTitle tgt.title then tgt.title.getD py"None" else py"Image") = (Spec.Target.heading tgt).getD py"Image" := by
      rw [← ctxTitle_heading hg]
      simp only [ctxTitle, hg]
      cases ht : truthyTitle tgt.title with
      | false => rfl
      | true =>
        cases hv : tgt.title with
        | none => rw [hv] at ht; cases ht
        | some title => rfl
    simp only [innerRender, e1, hc, extractedImageInner, e3, ctxLink, ctxTarget, hl, hg, hf, getA, h1, h2, asInt, asStr, bind,
      Except.bind, if_true, trim_cut, gophermapArgs, strOpt_getD, hh]
    exact entry_template _ t0 _ _ (by unfold kw; show_args) hn (by simp) (by simp)

/-- On a gophermap only the margins above and below are around the entry of a link: as many empty lines, and neither margins at its sides nor
a border nor padding. -/
theorem C76_gophermap_margins (u : Uni) (c : RClass) (t : TagInfo) (ctx : Ctx) (box : Box) (inst : Inst) (l : LinkCtx) (tgt : Target)
    (limit : Nat) (t0 : List Slot) (x : Str) (mt mr mb ml : Int) (hc : c.behaviour = .extractedLink) (h : construct c t ctx box = .ok inst)
    (hl : ctx.link = some l) (hg : ctx.target = some tgt) (hf : l.outputFormat = py"gophermap")
    (h1 : DictOf.get inst.settings py"max_link_description" = some (.int limit))
    (h2 : DictOf.get inst.settings py"gophermap_template" = some (.str (write t0)))
    (h3 : DictOf.get inst.settings py"margin" = some (.ints [mt, mr, mb, ml]))
    (hn : Names [py"description", py"link_reference", py"selector", py"type", py"host", py"port"] t0) :
    inst.render u x = .ok (List.replicate mt.toNat '\n' ++ fillAll [] [(py"description", tgt.title.getD (cutText limit x)),
      (py"link_reference", natStr l.linkReference), (py"selector", tgt.gopherLink.selector), (py"type", tgt.gopherLink.type),
      (py"host", tgt.gopherLink.host.getD py"None"), (py"port", (tgt.gopherLink.port.map intStr).getD py"None")] t0 ++
      List.replicate mb.toNat '\n') := by
  obtain ⟨-, e1, -, e3, e4⟩ := construct_settings h
  have hin := fun b => (C76_gophermap u c t ctx box b inst l tgt limit t0 x h hl hg hf h1 h2 hn).1 hc
  have hblock : c.isBlock = true := by rw [isBlock_behaviour, hc]; rfl
  have hb : ∃ b, inst.box = some b ∧ b.margin = ⟨mt, mr, mb, ml⟩ := by
    simp only [construct, bind, Except.bind, hblock, if_true, pure, Except.pure] at h
    split at h
    · cases h
    · split at h
      · cases h
      · rename_i b hb
        cases h
        exact ⟨b, rfl, blockBox_margin hb h3⟩
  obtain ⟨b, hb, hm⟩ := hb
  simp only [Inst.render, hb, e1, hc, extractedLinkRender, e3, ctxLink, hl, hf, bind, Except.bind, if_true, hin, pure, Except.pure, hm, rep]

/-- A line break: its template is applied twice. -/
theorem C76_break (u : Uni) (c : RClass) (t : TagInfo) (ctx : Ctx) (box : Box) (inst : Inst) (before after x : Str)
    (hc : c.behaviour = .brk) (h : construct c t ctx box = .ok inst)
    (h1 : DictOf.get inst.settings py"template" = some (.str (escape before ++ py"{}" ++ escape after)))
    (h2 : DictOf.get inst.settings py"capitalized" = some (.bool false)) :
    inst.render u x = .ok (before ++ (before ++ py"\n" ++ after) ++ after) := by
  obtain ⟨e1, e2, -, -⟩ := inline_box h (by rw [hc]; rfl)
  simp only [Inst.render, e1, e2, hc, breakRender, inline_content h1 h2, bind, Except.bind, getA, h1, asStr, cased,
    Bool.false_eq_true, if_false]
  exact fmt1_escape _ _ _

/-- A document with one more rule, not optimised. -/
def ruleCfg (tag : Str) (c : RClass) (settings : Dict) : Cfg :=
  { renderers := [⟨tag, one (elt tag), .pair (some c) (some settings)⟩], optimise := false }

/-- `x<br>y` -/
theorem C76_break_fails : renderEvents asciiUni (ruleCfg py"br" .brk [(py"template", .str py"{}-> ")])
    [.data py"x", .start py"br" [], .data py"y"] = .ok py"x\n-> -> y" := by decide +kernel

/-- The alternative text of an image with a reference is not shown, although the template has a place for it: it is shown in
the list of links only. -/
theorem C76_image_fails : renderEvents asciiUni { imagePlacement := py"footer", optimise := false }
    [.start py"img" [(py"src", some py"x.png"), (py"alt", some py"A cat")]] = .ok (py"[Image][1]\n" ++ List.replicate 67 ' ' ++
      py"\n[1] A cat: x.png" ++ List.replicate 51 ' ') := by decide +kernel

example : renderEvents asciiUni (ruleCfg py"em" .em [(py"template", .str py"<{{{}}}>"), (py"capitalized", .bool true)])
    [.start py"em" [], .data py"a{}", .stop py"em"] = .ok py"<{A{}}>" := by decide +kernel

example : renderEvents asciiUni (ruleCfg py"code" .code [(py"inline_template", .str py"'{}'"), (py"block_template", .str py"<\n{}\n>")])
    [.start py"code" [], .data py"a", .stop py"code", .start py"code" [], .data py"a", .start py"br" [], .data py"b", .stop py"code"] =
    .ok py"'a'<\na\nb\n>" := by decide +kernel

/-- The template of links given to a class, here for links in place. -/
def c76Link : RClass := .sub .link
  [(py"template", .str py"see {}"), (py"templates", .strDict [(py"inline", [py"<{href}>", py"{{{title}}} {content} <{href}>"])])]

example : renderEvents asciiUni { renderers := [tagRule py"a" c76Link], linkPlacement := py"inline", optimise := false }
    [.start py"a" [(py"href", some py"x"), (py"title", some py"{t}")], .data py"y", .stop py"a", .start py"a" [(py"href", some py"z")],
      .data py"y", .stop py"a"] = .ok py"{{t}} see y <x><z>" := by decide +kernel

example : write [.lit '{', .key py"title", .lit '}', .lit ' ', .key py"content"] = py"{{{title}}} {content}" ∧
    Names [py"content", py"href", py"title"] [.lit '{', .key py"title", .lit '}', .lit ' ', .key py"content"] := by
  refine ⟨by decide, ?_⟩
  intro x hx
  simp only [List.mem_cons, List.not_mem_nil, or_false] at hx
  rcases hx with rfl | rfl | rfl | rfl | rfl <;> simp

/-- Rules give the settings to links with references. -/
example : renderEvents asciiUni (ruleCfg py"a" .link [(py"capitalized", .bool true), (py"template", .str py"see {}"),
      (py"templates", .strDict [(py"reference", [py"{content}*{link_reference}"])])])
    [.start py"a" [(py"href", some py"x")], .data py"y", .stop py"a"] = .ok (py"SEE Y*1\n" ++ List.replicate 67 ' ' ++
      py"\n[1] y: x" ++ List.replicate 59 ' ') := by decide +kernel

/-- Entries with margins and a border. -/
def c76Margins : RClass :=
  .sub .extractedLink [(py"margin", .ints [2, 0, 1, 3]), (py"border", .strs [py"-", py"|", py"-", py"|"])]

/-- Two lines above an entry and one below it; the margin to the left and the border are not drawn. -/
example : renderEvents asciiUni { optimise := false, outputFormat := py"gophermap", gopherHost := py"g", linkRenderers := [tagRule py"a" c76Margins] }
    [.start py"a" [(py"href", some py"gopher://h/1/s")], .data py"t", .stop py"a"] = .ok py"[t][1]\n\n\n1[1] t\t/1/s\th\tNone\n\n" := by decide +kernel

/-- Entries with templates of a class. -/
def c76Entry : RClass := .sub .extractedLink [(py"templates", .strs [py"{href}", py"{title}: {href} ({link_reference})"]),
  (py"gophermap_template", .str py"{type}{description}\t{selector}\n")]

example : renderEvents asciiUni { optimise := false, linkRenderers := [tagRule py"a" c76Entry], box := some (Box.new 9 {} {} {} none none) }
    [.start py"a" [(py"href", some py"x"), (py"title", some py"t")], .stop py"a", .start py"a" [(py"href", some py"z")],
      .stop py"a"] = .ok py"[][1][][2]\nt: x (1) z        " := by decide +kernel

example : renderEvents asciiUni { optimise := false, linkRenderers := [tagRule py"a" c76Entry], outputFormat := py"gophermap", gopherHost := py"h" }
    [.start py"a" [(py"href", some py"x.txt")], .data py"y", .stop py"a"] =
    .ok py"[y][1]\n0y\tx.txt\n" := by decide +kernel

end Verif
