import Verif.Props.Blocks
import Verif.Props.Inline

/-!
# Items of lists: C48, C49
-/

namespace Verif

open Spec

/-! ## C48 -/

theorem wrapOpts_plain {u : Uni} {s : Dict} {a : Str} (h : PlainItem s a) (w : Int) : wrapOpts u s w = .ok (proseOpts u w) := by
  have o := fun k hk => h.others k hk
  simp only [wrapOpts, getA, h.initial, h.subsequent, asInt, bind, Except.bind, pure, Except.pure, wrapFlag, h.fix, h.long,
    Val.truthy, o py"expand_tabs" (by simp), o py"replace_whitespace" (by simp), o py"drop_whitespace" (by simp),
    o py"break_on_hyphens" (by simp), o py"placeholder" (by simp), o py"tabsize" (by simp)]
  rfl

theorem hang_split {bullet : Str} {lines : List Str} (h : ∀ l ∈ lines, '\n' ∉ l) :
    ∃ first rest, splitCh '\n' (join py"\n" lines) = first :: rest ∧
      hang bullet lines = (bullet ++ first) :: rest.map (List.replicate bullet.length ' ' ++ ·) := by
  cases lines with
  | nil => exact ⟨[], [], rfl, by simp [hang]⟩
  | cons l ls => exact ⟨l, ls, splitCh_join _ _ (by simp) h, rfl⟩

theorem itemInner_plain {u : Uni} {s : Dict} {a : Str} (h : PlainItem s a) (ha : ∀ c ∈ a, c ≠ '{' ∧ c ≠ '}') (b : Box)
    (hb : b.lineTemplatePadding = a.length) (hw : 0 < b.textWidth) (x : Str) :
    ∃ lines, wrap u (proseOpts u b.textWidth) x = .ok lines ∧ itemInner u s b x = .ok (join py"\n" (hang a lines)) := by
  obtain ⟨lines, hl⟩ := wrap_prose u b.textWidth hw x
  have hnl : ∀ l ∈ lines, '\n' ∉ l := wrap_noNl (o := proseOpts u b.textWidth) rfl rfl (by simp [proseOpts]) (by simp [proseOpts]) hl
  obtain ⟨first, rest, e1, e2⟩ := hang_split (bullet := a) hnl
  refine ⟨lines, hl, ?_⟩
  have hj : justification u py"left" = .ok (leftJustify u) := by simp [justification]
  simp only [itemInner, getA, h.justification, asStr, bind, Except.bind, hj, wrapOpts_plain h, capIf, h.capitalized, Val.truthy,
    Bool.false_eq_true, if_false, pure, Except.pure, leftJustify, hl, Except.map, h.template, e1, hb]
  have hf := fmt1_plain a [] first ha (by simp)
  simp only [List.append_nil] at hf
  rw [hf, e2]
  rfl

theorem visible_append {u : Uni} {a l : Str} {w : Int} (ha : '\x1b' ∉ a) (h : VisibleLe u l w) : VisibleLe u (a ++ l) (a.length + w) := by
  obtain ⟨t, h1, h2⟩ := h
  refine ⟨a ++ t, strips_plains (fun c hc e => ha (e ▸ hc)) h1, ?_⟩
  rw [List.length_append]
  omega

theorem hang_visible {u : Uni} {a : Str} {lines : List Str} {w : Int} (ha : '\x1b' ∉ a) (hw : 0 ≤ w)
    (h : ∀ l ∈ lines, VisibleLe u l w) : ∀ l ∈ hang a lines, VisibleLe u l (a.length + w) := by
  intro l hl
  cases lines with
  | nil =>
    simp only [hang, List.mem_singleton] at hl
    rw [hl]
    have := visible_append ha (w := w) (l := []) (u := u) ⟨[], .nil, by simpa using hw⟩
    simpa using this
  | cons x xs =>
    rcases List.mem_cons.1 hl with rfl | hl
    · exact visible_append ha (h x (by simp))
    · obtain ⟨y, hy, rfl⟩ := List.mem_map.1 hl
      have := visible_append (a := List.replicate a.length ' ') (by simp [List.mem_replicate]) (h y (List.mem_cons_of_mem _ hy))
      simpa using this

theorem prose_visible {u : Uni} {w : Int} {x : Str} {lines : List Str} (hw : 0 < w) (h : wrap u (proseOpts u w) x = .ok lines) :
    ∀ l ∈ lines, VisibleLe u l w :=
  C17 u _ x lines rfl (by simpa [proseOpts, len] using hw) (by simpa [proseOpts, len] using hw) h

theorem prose_nonws {u : Uni} {w : Int} {x : Str} {lines : List Str} (h : wrap u (proseOpts u w) x = .ok lines) :
    nonws lines.flatten = nonws x := by
  obtain ⟨bodies, h1, h2⟩ := C18 u _ x lines rfl h
  have key : ∀ (before ls bs : List Str), Indented (proseOpts u w) before ls bs → ls = bs := by
    intro before ls
    induction ls generalizing before with
    | nil => intro bs hi; cases bs with | nil => rfl | cons b bs => exact hi.elim
    | cons l ls ih =>
      intro bs hi
      cases bs with
      | nil => exact hi.elim
      | cons b bs =>
        obtain ⟨e, hi⟩ := hi
        rw [ih _ _ hi]
        simp [e, indentAfter, proseOpts]
  rw [key _ _ _ h1, h2]

theorem blockBox_template {s : Dict} {parent b : Box} {t : Str} (h : blockBox true s parent = .ok b)
    (ht : DictOf.get s py"line_template" = some (.str t)) :
    ∃ margin padding border, b = Box.new 67 margin padding border (some t) (some parent) := by
  simp only [blockBox, bind, Except.bind, pure, Except.pure, if_true, boxTemplate, ht] at h
  repeat' split at h
  all_goals first | cases h; done | skip
  cases h
  exact ⟨_, _, _, rfl⟩

theorem padding_bullet (a : Str) : ownTemplatePadding (some (a ++ py"{}")) = a.length := by
  cases a with
  | nil => rfl
  | cons c a => simp [ownTemplatePadding, templateWidth, len]; omega

theorem boxHasTemplate_behaviour (c : RClass) : c.boxHasTemplate = c.behaviour.boxHasTemplate := by
  induction c with
  | sub b s ih => exact ih
  | _ => rfl

/-- Any bullet: an item of a class made from the built-in ones, with a bullet that needs no escaping. -/
theorem C48_bullet (u : Uni) (c : RClass) (t : TagInfo) (ctx : Ctx) (parent : Box) (inst : Inst) (a : Str)
    (hc : c.behaviour ∈ [.listItem, .olItem, .defItem]) (h : construct c t ctx parent = .ok inst) (hp : PlainItem inst.settings a)
    (ha : ∀ x ∈ a, x ≠ '{' ∧ x ≠ '}') (he : '\x1b' ∉ a) :
    ∃ b, inst.box = some b ∧ (0 < b.textWidth → ∀ x, ∃ lines, wrap u (proseOpts u b.textWidth) x = .ok lines ∧
      innerRender u inst b x = .ok (join py"\n" (hang a lines)) ∧ nonws lines.flatten = nonws x ∧
      (∀ l ∈ hang a lines, '\n' ∉ a → '\n' ∉ l) ∧ ∀ l ∈ hang a lines, VisibleLe u l (a.length + b.textWidth)) := by
  obtain ⟨e1, e2, -, -, -⟩ := construct_settings h
  simp only [construct, e1, bind, Except.bind] at h
  rw [isBlock_behaviour, boxHasTemplate_behaviour] at h
  have hb : c.behaviour.isBlock = true ∧ c.behaviour.boxHasTemplate = true := by
    simp only [List.mem_cons, List.not_mem_nil, or_false] at hc
    rcases hc with hc | hc | hc <;> rw [hc] <;> exact ⟨rfl, rfl⟩
  rw [hb.1, hb.2] at h
  simp only [if_true] at h
  cases hk : blockBox true inst.settings parent with
  | error e => rw [hk] at h; cases h
  | ok b =>
    rw [hk] at h
    simp only [pure, Except.pure, Except.ok.injEq] at h
    have hbox : inst.box = some b := by rw [← h]
    obtain ⟨m, p, bd, hb'⟩ := blockBox_template hk hp.template
    have hpad : b.lineTemplatePadding = a.length := by rw [hb', Box.new]; exact padding_bullet a
    refine ⟨b, hbox, fun hw x => ?_⟩
    obtain ⟨lines, h1, h2⟩ := itemInner_plain (u := u) hp ha b hpad hw x
    refine ⟨lines, h1, ?_, prose_nonws h1, ?_, hang_visible he (by omega) (prose_visible hw h1)⟩
    · rw [← h2, innerRender, e2]
      simp only [List.mem_cons, List.not_mem_nil, or_false] at hc
      rcases hc with hc | hc | hc <;> rw [hc]
    · intro l hl hn
      have hnl : ∀ l ∈ lines, '\n' ∉ l := wrap_noNl (o := proseOpts u b.textWidth) rfl rfl (by simp [proseOpts]) (by simp [proseOpts]) h1
      cases lines with
      | nil => simp only [hang, List.mem_singleton] at hl; rw [hl]; exact hn
      | cons y ys =>
        rcases List.mem_cons.1 hl with rfl | hl
        · simp [hn, hnl y (by simp)]
        · obtain ⟨z, hz, rfl⟩ := List.mem_map.1 hl
          simp [hnl z (List.mem_cons_of_mem _ hz)]

/-- An item in a document, once its renderer is constructed. -/
theorem item_rows {u : Uni} {cls : RClass} {t : TagInfo} {ctx : Ctx} {box : Box} {cont : Box → Py Str} {above : Int} {S : Dict}
    {a : Str} (hcls : cls ∈ [.listItem, .olItem, .defItem])
    (hk : construct cls t ctx box = .ok ⟨cls, S, some (inside box above 0 (some (a ++ py"{}"))), t, ctx⟩) (hp : PlainItem S a)
    (hb : DictOf.get S py"border" = some (.strs [[], [], [], []])) (ha : ∀ x ∈ a, x ≠ '{' ∧ x ≠ '}') (he : '\x1b' ∉ a)
    (hn : '\n' ∉ a) (hw : 0 < textRoom box - a.length) (x : Str)
    (hx : cont (inside box above 0 (some (a ++ py"{}"))) = .ok x) :
    ∃ lines, wrap u (proseOpts u (textRoom box - a.length)) x = .ok lines ∧
      renderWith u cls t ctx box cont = .ok (rep '\n' above ++ rows (room box) (hang a lines)) ∧
      nonws lines.flatten = nonws x ∧ ∀ l ∈ hang a lines, VisibleLe u l (textRoom box) := by
  have hbeh : cls.behaviour = cls := by
    simp only [List.mem_cons, List.not_mem_nil, or_false] at hcls
    rcases hcls with rfl | rfl | rfl <;> rfl
  obtain ⟨b, e1, e2⟩ := C48_bullet u cls t ctx box _ a (by rw [hbeh]; exact hcls) hk hp ha he
  simp only [Option.some.injEq] at e1
  subst e1
  rw [textWidth_inside] at e2
  obtain ⟨lines, l1, l2, l3, l4, l5⟩ := e2 hw x
  refine ⟨lines, l1, ?_, l3, ?_⟩
  · rw [renderWith_block hk rfl (by rintro rfl; simp at hcls) hb, hx]
    simp only [Except.bind, l2, Except.map]
    rw [padLines_join _ _ (fun l hl => l4 l hl hn)]
    simp [rep]
  · intro l hl
    have := l5 l hl
    rwa [show (a.length : Int) + (textRoom box - a.length) = textRoom box by omega] at this

/-- In every document rendered with the default rules: an item of an unordered list (or a `li` element anywhere but in
`ol`) is its text wrapped, with `* ` before the first line and two spaces before the others. -/
theorem C48 (u : Uni) (c : Cfg) (es : List Event) (s : PState) (h : Rendered u c es s)
    (i : Nat) (hr : Unruled c s.dom i) (ht : HasTag s.dom i py"li") (ho : ¬ ChildOf s.dom py"ol" i) (f : Nat) (box : Box) (hw : 0 < textRoom box - 2) :
    ∃ above, LiSpace s.dom i above ∧ ∀ x, contents u s f (inside box above 0 (some py"* {}")) i = .ok x →
      ∃ lines, wrap u (proseOpts u (textRoom box - 2)) x = .ok lines ∧
        textOf u s (f + 1) box i = .ok (rep '\n' above ++ rows (room box) (hang py"* " lines)) ∧
        nonws lines.flatten = nonws x ∧ ∀ l ∈ hang py"* " lines, VisibleLe u l (textRoom box) := by
  obtain ⟨n, hn, htag, hd, hl⟩ := rendered_elem h ht (by decide) (by decide)
  obtain ⟨s0, s1, e0, e1, e2, hdom, -, -, -⟩ := rendered_inv h
  rw [hdom] at ht ho
  obtain ⟨-, a1, st, a2, a3⟩ := C61_li u c s0 s1 s es e0 e1 e2 i (hdom ▸ hr) ht
  rw [← hdom] at a3
  rw [textOf_elem hn hd hl (a1 ho), a2]
  have plain : ∀ a b, PlainItem (DictOf.update (newSettings .listItem) (margins a b)) py"* " := by
    intro a b
    refine ⟨rfl, rfl, rfl, rfl, rfl, rfl, rfl, ?_⟩
    simp only [List.mem_cons, List.not_mem_nil, or_false]
    rintro k (rfl | rfl | rfl | rfl | rfl | rfl) <;> rfl
  cases a3 with
  | nested h1 h2 =>
    refine ⟨1, .inl (.nested h1 h2), fun x hx => ?_⟩
    exact item_rows (by simp) rfl (plain 1 0) rfl (by decide) (by decide) (by decide) hw x hx
  | first h1 h2 =>
    refine ⟨0, .inl (.first h1 h2), fun x hx => ?_⟩
    exact item_rows (by simp) rfl (plain 0 0) rfl (by decide) (by decide) (by decide) hw x hx
  | later h1 =>
    refine ⟨1, .inr ⟨.later h1, rfl⟩, fun x hx => ?_⟩
    refine item_rows (cls := .listItem) (a := py"* ") (S := newSettings .listItem) (by simp) rfl ⟨rfl, rfl, rfl, rfl, rfl, rfl, rfl, ?_⟩ rfl (by decide) (by decide)
      (by decide) hw x hx
    simp only [List.mem_cons, List.not_mem_nil, or_false]
    rintro k (rfl | rfl | rfl | rfl | rfl | rfl) <;> rfl

/-- The same for the descriptions in a definition list, with `: `. -/
theorem C48_dd (u : Uni) (c : Cfg) (es : List Event) (s : PState) (h : Rendered u c es s)
    (i : Nat) (hr : Unruled c s.dom i) (ht : HasTag s.dom i py"dd") (f : Nat) (box : Box) (hw : 0 < textRoom box - 2) (x : Str)
    (hx : contents u s f (inside box 1 0 (some py": {}")) i = .ok x) :
    ∃ lines, wrap u (proseOpts u (textRoom box - 2)) x = .ok lines ∧
      textOf u s (f + 1) box i = .ok (py"\n" ++ rows (room box) (hang py": " lines)) ∧
      nonws lines.flatten = nonws x ∧ ∀ l ∈ hang py": " lines, VisibleLe u l (textRoom box) := by
  rw [textOf_plain h hr ht (cls := .defItem) (by simp only [plainStyle, List.mem_cons, Prod.mk.injEq, List.cons.injEq]; simp)
    (by decide) (by decide)]
  refine item_rows (cls := .defItem) (a := py": ") (above := 1) (cont := fun b => contents u s f b i) (S := newSettings .defItem) (by simp) rfl ⟨rfl, rfl, rfl, rfl, rfl, rfl, rfl, ?_⟩ rfl (by decide) (by decide)
      (by decide) hw x hx
  simp only [List.mem_cons, List.not_mem_nil, or_false]
  rintro k (rfl | rfl | rfl | rfl | rfl | rfl) <;> rfl

/-- `<ul><li>aa bb cc</li></ul>` and `<dl><dd>a</dd></dl>` -/
def c48Events : List Event :=
  [.start py"ul" [], .start py"li" [], .data py"aa bb cc", .stop py"li", .stop py"ul", .start py"dl" [], .start py"dd" [],
   .data py"a", .stop py"dd", .stop py"dl"]

example : (match feed asciiUni {} {} c48Events with
    | .ok s => match close asciiUni {} s with
      | .ok s' => decide ((s'.dom.nodes.map Node.tag) = [some py"ul", some py"li", none, some py"dl", some py"dd", none] ∧
          textOf asciiUni s' 5 (Box.new 8 {} {} {} none none) 1 = .ok py"* aa bb \n  cc    " ∧
          textOf asciiUni s' 5 (Box.new 8 {} {} {} none none) 4 = .ok py"\n: a     ")
      | _ => false
    | _ => false) = true := by decide

/-! ## C49 -/

theorem index_around {d : Dom} {src} (h : SelInv d src) {i : Nat} {n : Node} (hn : d.nodes[i]? = some n) (hd : n.data = none)
    {before after : List Nat} (ha : Around d i before after) : (tagInfo d i).index = some before.length := by
  obtain ⟨q, A, C, h1, h2, h3, h4, h5, h6⟩ := elem_pos h hn hd
  obtain ⟨rfl, rfl⟩ := (h6 _ _).1 ha
  have hp : n.parent = q := by
    simp only [Dom.parentOf, hn] at h1
    cases hp : n.parent with
    | none => simp [hp] at h1
    | doc => simp [hp] at h1; exact h1
    | node j => simp [hp] at h1; exact h1
  have hq : q ≠ .none := by cases h2 <;> simp
  have hf : (d.childrenOf q).findIdx? (· == i) = some before.length := by
    rw [h3, List.findIdx?_append]
    have : before.findIdx? (· == i) = none := by
      rw [List.findIdx?_eq_none_iff]
      intro x hx
      have : x ≠ i := fun e => h4 (e ▸ hx)
      simpa using this
    rw [this]
    simp [List.findIdx?_cons]
  simp only [tagInfo, hn, hp]
  cases q with
  | none => exact absurd rfl hq
  | doc => exact hf
  | node j => exact hf

theorem intStr_nat (n : Nat) : intStr (n : Int) = natStr n := rfl

theorem number_format (n : Arg) : pyFormat py"{0}. {1}" [n, py"{}"] = .ok (n.show ++ py". {}") := by
  have hp : parseTemplate none py"{0}. {1}" = [.pos 0, .lit '.', .lit ' ', .pos 1] := by decide
  rw [pyFormat, hp]
  simp [evalPieces, posArg, Except.map, show ∀ s, (Arg.str s).show = s from fun _ => rfl]

theorem natStr_plain (n : Nat) : ∀ c ∈ natStr n, c ≠ '{' ∧ c ≠ '}' ∧ c ≠ '\x1b' ∧ c ≠ '\n' := by
  intro c hc
  have h2 : c.isDigit = true := Nat.isDigit_of_mem_toDigits (by omega) (by omega) hc
  refine ⟨?_, ?_, ?_, ?_⟩ <;> (rintro rfl; revert h2; decide)

/-- The number of an item is its position among all children of the list, text included. -/
theorem C49_index (u : Uni) (c : Cfg) (es : List Event) (s : PState) (h : Rendered u c es s)
    (i : Nat) (hr : Unruled c s.dom i) (ht : HasTag s.dom i py"li") (ho : ChildOf s.dom py"ol" i) (before after : List Nat)
    (ha : Around s.dom i before after) (f : Nat) (box : Box) (bullet : Str)
    (hbu : bullet = natStr (before.length + 1) ++ py". ") (hw : 0 < textRoom box - bullet.length) :
    ∃ above, LiSpace s.dom i above ∧ ∀ x, contents u s f (inside box above 0 (some (bullet ++ py"{}"))) i = .ok x →
      ∃ lines, wrap u (proseOpts u (textRoom box - bullet.length)) x = .ok lines ∧
        textOf u s (f + 1) box i = .ok (rep '\n' above ++ rows (room box) (hang bullet lines)) ∧
        nonws lines.flatten = nonws x ∧ ∀ l ∈ hang bullet lines, VisibleLe u l (textRoom box) := by
  obtain ⟨n, hn, htag, hd, hl⟩ := rendered_elem h ht (by decide) (by decide)
  obtain ⟨s0, s1, e0, e1, e2, hdom, hinv, -, -⟩ := rendered_inv h
  have hidx := index_around hinv hn hd ha
  rw [hdom] at ht ho
  obtain ⟨a1, -, st, a2, a3⟩ := C61_li u c s0 s1 s es e0 e1 e2 i (hdom ▸ hr) ht
  rw [← hdom] at a3
  rw [textOf_elem hn hd hl (a1 ho), a2]
  -- the renderer
  have hcon : ∀ (st : Dict) (above : Int),
      blockBox true (DictOf.update (DictOf.set (newSettings .olItem) py"line_template" (.str (bullet ++ py"{}"))) st) box =
        .ok (inside box above 0 (some (bullet ++ py"{}"))) →
      construct .olItem (tagInfo s.dom i) ⟨some st, none, none⟩ box = .ok ⟨.olItem,
        DictOf.update (DictOf.set (newSettings .olItem) py"line_template" (.str (bullet ++ py"{}"))) st,
        some (inside box above 0 (some (bullet ++ py"{}"))), tagInfo s.dom i, ⟨some st, none, none⟩⟩ := by
    intro st above hb
    have hord : ordinal (tagInfo s.dom i) 1 1 = .ok ((before.length + 1 : Nat) : Int) := by
      simp only [ordinal, hidx]
      congr 1
      omega
    have hinit : initSettings .olItem (tagInfo s.dom i) ⟨some st, none, none⟩ = .ok
        (DictOf.update (DictOf.set (newSettings .olItem) py"line_template" (.str (bullet ++ py"{}"))) st) := by
      show (ordinal (tagInfo s.dom i) 1 1).bind (fun order => (pyFormat py"{0}. {1}" [intStr order, py"{}"]).bind (fun line =>
        .ok (DictOf.update (DictOf.set (newSettings .olItem) py"line_template" (.str line)) st))) = _
      rw [hord]
      simp only [Except.bind, intStr_nat, number_format, hbu, List.append_assoc]
      rfl
    simp only [construct, hinit, bind, Except.bind, RClass.isBlock, if_true, RClass.boxHasTemplate, hb]
    rfl
  have plain : ∀ a b, PlainItem (DictOf.update (DictOf.set (newSettings .olItem) py"line_template" (.str (bullet ++ py"{}")))
      (margins a b)) bullet := by
    intro a b
    refine ⟨rfl, rfl, rfl, rfl, rfl, rfl, rfl, ?_⟩
    simp only [List.mem_cons, List.not_mem_nil, or_false]
    rintro k (rfl | rfl | rfl | rfl | rfl | rfl) <;> rfl
  have hch : ∀ c ∈ bullet, c ≠ '{' ∧ c ≠ '}' ∧ c ≠ '\x1b' ∧ c ≠ '\n' := by
    intro c hc
    rw [hbu] at hc
    rcases List.mem_append.1 hc with hc | hc
    · exact natStr_plain _ c hc
    · simp at hc; rcases hc with rfl | rfl <;> decide
  have c1 : ∀ c ∈ bullet, c ≠ '{' ∧ c ≠ '}' := fun c hc => ⟨(hch c hc).1, (hch c hc).2.1⟩
  have c2 : '\x1b' ∉ bullet := fun hc => (hch _ hc).2.2.1 rfl
  have c3 : '\n' ∉ bullet := fun hc => (hch _ hc).2.2.2 rfl
  cases a3 with
  | nested h1 h2 =>
    exact ⟨1, .inl (.nested h1 h2), fun x hx => item_rows (by simp) (hcon _ 1 rfl) (plain 1 0) rfl c1 c2 c3 hw x hx⟩
  | first h1 h2 =>
    exact ⟨0, .inl (.first h1 h2), fun x hx => item_rows (by simp) (hcon _ 0 rfl) (plain 0 0) rfl c1 c2 c3 hw x hx⟩
  | later h1 =>
    refine ⟨1, .inr ⟨.later h1, rfl⟩, fun x hx => item_rows (by simp) (hcon _ 1 rfl) ⟨rfl, rfl, rfl, rfl, rfl, rfl, rfl, ?_⟩ rfl
      c1 c2 c3 hw x hx⟩
    simp only [List.mem_cons, List.not_mem_nil, or_false]
    rintro k (rfl | rfl | rfl | rfl | rfl | rfl) <;> rfl

/-- If only items precede an item, it is numbered 1 plus their number. Missing: lists with text (such as line breaks)
between the items, see `C49_fails`; `start_index` and `step` from rules, see `C49_start_fails`. -/
theorem C49_partial (u : Uni) (c : Cfg) (es : List Event) (s : PState) (h : Rendered u c es s)
    (i : Nat) (hr : Unruled c s.dom i) (ht : HasTag s.dom i py"li") (ho : ChildOf s.dom py"ol" i) (before after : List Nat)
    (ha : Around s.dom i before after) (hb : ∀ j ∈ before, HasTag s.dom j py"li") (items : Nat)
    (hi : items = elemCount s.dom before) (f : Nat) (box : Box) (hw : 0 < textRoom box - ((natStr (items + 1)).length + 2)) :
    ∃ above, LiSpace s.dom i above ∧ ∀ x,
      contents u s f (inside box above 0 (some (natStr (items + 1) ++ py". {}"))) i = .ok x →
      ∃ lines, wrap u (proseOpts u (textRoom box - ((natStr (items + 1)).length + 2))) x = .ok lines ∧
        textOf u s (f + 1) box i = .ok (rep '\n' above ++ rows (room box) (hang (natStr (items + 1) ++ py". ") lines)) := by
  have hcount : items = before.length := by
    rw [hi, elemCount, List.countP_eq_length]
    intro j hj
    obtain ⟨m, hm, htag⟩ := hb j hj
    simp [Dom.isTag, hm, htag]
  have hlen : ((natStr (items + 1) ++ py". ").length : Int) = (natStr (items + 1)).length + 2 := by simp
  obtain ⟨above, h1, h2⟩ := C49_index u c es s h i hr ht ho before after ha f box (natStr (items + 1) ++ py". ")
    (by rw [hcount]) (by rw [hlen]; exact hw)
  refine ⟨above, h1, fun x hx => ?_⟩
  rw [hlen] at h2
  obtain ⟨lines, l1, l2, -⟩ := h2 x (by simpa using hx)
  exact ⟨lines, l1, l2⟩

/-- `<ol><li>a</li><li>b</li></ol>` -/
def c49Events : List Event :=
  [.start py"ol" [], .start py"li" [], .data py"a", .stop py"li", .start py"li" [], .data py"b", .stop py"li", .stop py"ol"]

example : renderEvents asciiUni { box := some (Box.new 6 {} {} {} none none) } c49Events = .ok py"\n1. a\n2. b\n" := by
  decide

/-- The same list with line breaks between the items is numbered 2, 4. -/
theorem C49_fails : renderEvents asciiUni { box := some (Box.new 6 {} {} {} none none) }
    [.start py"ol" [], .data py"\n", .start py"li" [], .data py"a", .stop py"li", .data py"\n", .start py"li" [], .data py"b",
     .stop py"li", .data py"\n", .stop py"ol"] = .ok py"\n 2. a\n4. b\n" := by decide

/-- A rule setting `start_index` to 5 has no effect. -/
theorem C49_start_fails : renderEvents asciiUni { box := some (Box.new 6 {} {} {} none none), renderers :=
      [⟨py"ol > li", one (.comb (elt py"ol") .child (elt py"li")), .pair (some .olItem) (some [(py"start_index", .int 5)])⟩] }
    c49Events = .ok py"\n1. a\n2. b\n" := by decide

/-- Declared by a subclass, start and step do count: the item at position `k` of its parent is numbered `start + k * step`. -/
theorem C49_subclass (u : Uni) (start step : Int) (t : TagInfo) (k : Nat) (hk : t.index = some k) (box : Box) (bullet : Str)
    (hb : bullet = intStr (start + k * step) ++ py". ") :
    ∃ inst b, construct (.sub .olItem [(py"start_index", .int start), (py"step", .int step)]) t ⟨some [], none, none⟩ box =
      .ok inst ∧ inst.box = some b ∧ (0 < b.textWidth → ∀ x, ∃ lines, wrap u (proseOpts u b.textWidth) x = .ok lines ∧
        innerRender u inst b x = .ok (join py"\n" (hang bullet lines)) ∧ nonws lines.flatten = nonws x) := by
  have hch : ∀ c ∈ bullet, c ≠ '{' ∧ c ≠ '}' ∧ c ≠ '\x1b' := by
    intro c hc
    rw [hb] at hc
    rcases List.mem_append.1 hc with hc | hc
    · have hn := fun n (hc : c ∈ natStr n) => natStr_plain n c hc
      unfold intStr at hc
      split at hc
      · exact ⟨(hn _ hc).1, (hn _ hc).2.1, (hn _ hc).2.2.1⟩
      · rcases List.mem_cons.1 hc with rfl | hc
        · decide
        · exact ⟨(hn _ hc).1, (hn _ hc).2.1, (hn _ hc).2.2.1⟩
    · simp at hc; rcases hc with rfl | rfl <;> decide
  have hinit : initSettings (.sub .olItem [(py"start_index", .int start), (py"step", .int step)]) t ⟨some [], none, none⟩ = .ok
      (DictOf.set (newSettings (.sub .olItem [(py"start_index", .int start), (py"step", .int step)])) py"line_template"
        (.str (bullet ++ py"{}"))) := by
    show (ordinal t start step).bind (fun order => (pyFormat py"{0}. {1}" [intStr order, py"{}"]).bind (fun line =>
        .ok (DictOf.set (newSettings (.sub .olItem [(py"start_index", .int start), (py"step", .int step)]))
          py"line_template" (.str line)))) = _
    simp only [ordinal, hk, Except.bind, number_format, hb, List.append_assoc, Int.add_comm]
    rfl
  have hcon : ∃ b, construct (.sub .olItem [(py"start_index", .int start), (py"step", .int step)]) t ⟨some [], none, none⟩ box =
      .ok ⟨.olItem, DictOf.set (newSettings (.sub .olItem [(py"start_index", .int start), (py"step", .int step)]))
        py"line_template" (.str (bullet ++ py"{}")), some b, t, ⟨some [], none, none⟩⟩ := by
    simp only [construct, hinit, bind, Except.bind, RClass.isBlock, if_true, RClass.boxHasTemplate]
    exact ⟨_, rfl⟩
  obtain ⟨b0, hcon⟩ := hcon
  obtain ⟨b, e1, e2⟩ := C48_bullet u _ t _ box _ bullet (by simp [RClass.behaviour]) hcon
    (by
      refine ⟨rfl, rfl, rfl, rfl, rfl, rfl, rfl, ?_⟩
      simp only [List.mem_cons, List.not_mem_nil, or_false]
      rintro k (rfl | rfl | rfl | rfl | rfl | rfl) <;> rfl)
    (fun c hc => ⟨(hch c hc).1, (hch c hc).2.1⟩) (fun hc => (hch _ hc).2.2 rfl)
  refine ⟨_, b, hcon, e1, fun hw x => ?_⟩
  obtain ⟨lines, l1, l2, l3, -⟩ := e2 hw x
  exact ⟨lines, l1, l2, l3⟩

/-- Numbers 10, 15, 20. -/
example : renderEvents asciiUni { box := some (Box.new 7 {} {} {} none none), renderers :=
      [⟨py"ol > li", one (.comb (elt py"ol") .child (elt py"li")),
        .cls (.sub .olItem [(py"start_index", .int 10), (py"step", .int 5)])⟩] }
    c49Events = .ok py"\n10. a\n15. b\n" := by decide

end Verif
