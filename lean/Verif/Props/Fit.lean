import Verif.Props.Items
import Verif.Props.Refs
import Verif.Proofs.Fit
import Verif.Spec.Nested

/-!
# Output fits the page: C55
-/

namespace Verif

open Spec

theorem visible_fit {u : Uni} {w : Int} {l : Str} (h : VisibleLe u l w) : LineFit u w l :=
  ⟨l, [], by simp, by simp [Blank], (visibleLe_iff u l w).1 h⟩

theorem lineFit_all {u : Uni} {w : Int} (h0 : 0 ≤ w) {x : Str} (h : LineFit u w x) : AllFit u w x := by
  have hj := join_splitCh '\n' x
  unfold AllFit
  rw [← hj] at h
  clear hj
  generalize splitCh '\n' x = ls at h
  induction ls with
  | nil => simp
  | cons l ls ih =>
    by_cases he : ls = []
    · subst he
      intro m hm
      rw [List.mem_singleton.1 hm]; exact h
    · rw [join_cons _ _ _ he, List.append_assoc] at h
      obtain ⟨h1, h2⟩ := lineFit_split (c := '\n') h0 (by decide) h
      intro m hm
      rcases List.mem_cons.1 hm with rfl | hm
      · exact h1
      · exact ih h2 m hm

/-! ## Paragraphs and items -/

theorem wrap_pos {u : Uni} {w : Int} {x : Str} {lines : List Str} (h : wrap u (proseOpts u w) x = .ok lines) : 0 < w := by
  have := (C20 u (proseOpts u w) x rfl).1
  by_cases hw : w ≤ 0
  · rw [this.2 hw] at h; cases h
  · omega

theorem paragraphBody_fit {u : Uni} {t : TagInfo} {w : Int} {x y : Str} (ht : skipParagraph t = false)
    (h : paragraphBody u t w x = .ok y) : 0 < w ∧ AllFit u w y := by
  rw [paragraphBody, ht] at h
  simp only [Bool.false_eq_true, if_false] at h
  have hw : 0 < w := by
    cases hs : splitCh '\n' x with
    | nil => exact absurd hs (splitCh_ne_nil _ _)
    | cons a as =>
      rw [hs, List.mapM_cons] at h
      cases hl : wrap u (proseOpts u w) (strip a) with
      | error e => simp [leftJustify, hl, Except.map, bind, Except.bind] at h
      | ok ls => exact wrap_pos hl
  refine ⟨hw, ?_⟩
  obtain ⟨parts, p1, p2⟩ := wrapped_each u w hw (splitCh '\n' x)
  rw [p2] at h
  simp only [Except.map, Except.ok.injEq] at h
  rw [← h, join_parts]
  have hv : ∀ (segs : List Str) (parts : List (List Str)), WrappedEach u (proseOpts u w) segs parts → ∀ p ∈ parts, ∀ l ∈ p, LineFit u w l := by
    intro segs
    induction segs with
    | nil => intro parts h; cases parts with | nil => simp | cons p ps => exact h.elim
    | cons s segs ih =>
      intro parts h
      cases parts with
      | nil => exact h.elim
      | cons p ps =>
        intro q hq
        rcases List.mem_cons.1 hq with rfl | hq
        · intro l hl; exact visible_fit (prose_visible hw h.1 l hl)
        · exact ih ps h.2 q hq
  have each : ∀ l ∈ (parts.map partLines).flatten, '\n' ∉ l ∧ LineFit u w l := by
    intro l hl
    obtain ⟨p', hp', hl⟩ := List.mem_flatten.1 hl
    obtain ⟨p, hp, rfl⟩ := List.mem_map.1 hp'
    unfold partLines at hl
    split at hl
    · rw [List.mem_singleton.1 hl]; exact ⟨by simp, lineFit_nil (by omega)⟩
    · exact ⟨wrappedEach_nl p1 p hp l hl, hv _ _ p1 p hp l hl⟩
  exact allFit_join (by omega) (fun l hl => (each l hl).1) (fun l hl => (each l hl).2)

theorem item_ran {u : Uni} {cls : RClass} {t : TagInfo} {ctx : Ctx} {box : Box} {cont : Box → Py Str} {above : Int} {S : Dict}
    {a : Str} (hcls : cls ∈ [.listItem, .olItem, .defItem])
    (hk : construct cls t ctx box = .ok ⟨cls, S, some (inside box above 0 (some (a ++ py"{}"))), t, ctx⟩) (hp : PlainItem S a)
    (hb : DictOf.get S py"border" = some (.strs [[], [], [], []]))
    {y : Str} (hy : renderWith u cls t ctx box cont = .ok y) :
    0 < textRoom box - a.length ∧ ∃ x, cont (inside box above 0 (some (a ++ py"{}"))) = .ok x := by
  rw [renderWith_block hk rfl (by rintro rfl; simp at hcls) hb] at hy
  cases hx : cont (inside box above 0 (some (a ++ py"{}"))) with
  | error e => rw [hx] at hy; simp [Except.bind, Except.map] at hy
  | ok x =>
    refine ⟨?_, x, rfl⟩
    rw [hx] at hy
    have hin : innerRender u ⟨cls, S, some (inside box above 0 (some (a ++ py"{}"))), t, ctx⟩ (inside box above 0 (some (a ++ py"{}"))) x =
        itemInner u S (inside box above 0 (some (a ++ py"{}"))) x := by
      simp only [List.mem_cons, List.not_mem_nil, or_false] at hcls
      rcases hcls with rfl | rfl | rfl <;> rfl
    simp only [Except.bind, hin] at hy
    cases hl : wrap u (proseOpts u (textRoom box - a.length)) x with
    | ok ls => exact wrap_pos hl
    | error e =>
      have hj : justification u py"left" = .ok (leftJustify u) := by simp [justification]
      simp only [itemInner, getA, hp.justification, asStr, bind, Except.bind, hj, wrapOpts_plain hp, capIf, hp.capitalized,
        Val.truthy, Bool.false_eq_true, if_false, pure, Except.pure, leftJustify, textWidth_inside, hl, Except.map] at hy
      cases hy

theorem item_fit {u : Uni} {cls : RClass} {t : TagInfo} {ctx : Ctx} {box : Box} {cont : Box → Py Str} {above : Int} {S : Dict}
    {a : Str} (hcls : cls ∈ [.listItem, .olItem, .defItem])
    (hk : construct cls t ctx box = .ok ⟨cls, S, some (inside box above 0 (some (a ++ py"{}"))), t, ctx⟩) (hp : PlainItem S a)
    (hb : DictOf.get S py"border" = some (.strs [[], [], [], []])) (ha : ∀ x ∈ a, x ≠ '{' ∧ x ≠ '}') (he : '\x1b' ∉ a)
    (hn : '\n' ∉ a) {y : Str} (hy : renderWith u cls t ctx box cont = .ok y) :
    0 < textRoom box ∧ ∃ z, AllFit u (textRoom box) z ∧ y = rep '\n' above ++ z := by
  obtain ⟨hw, x, hx⟩ := item_ran hcls hk hp hb hy
  have hroom : 0 < textRoom box := by omega
  refine ⟨hroom, ?_⟩
  obtain ⟨lines, l1, l2, -, l4⟩ := item_rows (u := u) hcls hk hp hb ha he hn hw x hx
  rw [l2] at hy
  cases hy
  refine ⟨_, ?_, rfl⟩
  apply allFit_rows (by omega)
  · intro l hl
    have hnl : ∀ l ∈ lines, '\n' ∉ l := wrap_noNl (o := proseOpts u _) rfl rfl (by simp [proseOpts]) (by simp [proseOpts]) l1
    cases lines with
    | nil => simp only [hang, List.mem_singleton] at hl; rw [hl]; exact hn
    | cons y ys =>
      rcases List.mem_cons.1 hl with rfl | hl
      · simp [hn, hnl y (by simp)]
      · obtain ⟨z, hz, rfl⟩ := List.mem_map.1 hl
        simp [hnl z (List.mem_cons_of_mem _ hz)]
  · intro l hl; exact visible_fit (l4 l hl)

/-- What a list item is made of. -/
theorem li_parts {u : Uni} {c : Cfg} {es : List Event} {s : PState} (h : Rendered u c es s)
    {i : Nat} (hr : Unruled c s.dom i) (ht : HasTag s.dom i py"li") (f : Nat) (box : Box) :
    ∃ (above : Int) (S : Dict) (cls : RClass) (a : Str) (ctx : Ctx), LiSpace s.dom i above ∧ cls ∈ [.listItem, .olItem, .defItem] ∧
      construct cls (tagInfo s.dom i) ctx box = .ok ⟨cls, S, some (inside box above 0 (some (a ++ py"{}"))), tagInfo s.dom i, ctx⟩ ∧
      PlainItem S a ∧ DictOf.get S py"border" = some (.strs [[], [], [], []]) ∧
      (∀ x ∈ a, x ≠ '{' ∧ x ≠ '}' ∧ x ≠ '\x1b' ∧ x ≠ '\n') ∧
      textOf u s (f + 1) box i = renderWith u cls (tagInfo s.dom i) ctx box (fun b => contents u s f b i) ∧ Bullet s.dom i a := by
  obtain ⟨n, hn, htag, hd, hl⟩ := rendered_elem h ht (by decide) (by decide)
  obtain ⟨s0, s1, e0, e1, e2, hdom, hinv, -, -⟩ := rendered_inv h
  have ht' := ht
  rw [hdom] at ht
  obtain ⟨a0, a1, st, a2, a3⟩ := C61_li u c s0 s1 s es e0 e1 e2 i (hdom ▸ hr) ht
  rw [← hdom] at a3 a0 a1
  by_cases ho : ChildOf s.dom py"ol" i
  · have haround : ∃ before after, Around s.dom i before after := by
      obtain ⟨q, A, C, h1, h2, h3, h4, h5, h6⟩ := elem_pos hinv hn hd
      exact ⟨A, C, (h6 _ _).2 ⟨rfl, rfl⟩⟩
    obtain ⟨before, after, ha⟩ := haround
    have hidx := index_around hinv hn hd ha
    obtain ⟨bullet, hbu⟩ : ∃ bullet, bullet = natStr (before.length + 1) ++ py". " := ⟨_, rfl⟩
    have hcon : ∀ (st : Dict) (above : Int),
        blockBox true (DictOf.update (DictOf.set (newSettings .olItem) py"line_template" (.str (bullet ++ py"{}"))) st) box =
          .ok (inside box above 0 (some (bullet ++ py"{}"))) →
        construct .olItem (tagInfo s.dom i) ⟨some st, none, none⟩ box = .ok ⟨.olItem,
          DictOf.update (DictOf.set (newSettings .olItem) py"line_template" (.str (bullet ++ py"{}"))) st,
          some (inside box above 0 (some (bullet ++ py"{}"))), tagInfo s.dom i, ⟨some st, none, none⟩⟩ := by
      intro st above hb
      have hord : ordinal (tagInfo s.dom i) 1 1 = .ok ((before.length + 1 : Nat) : Int) := by
        simp only [ordinal, hidx]
        congr 1
        omega
      have hinit : initSettings .olItem (tagInfo s.dom i) ⟨some st, none, none⟩ = .ok
          (DictOf.update (DictOf.set (newSettings .olItem) py"line_template" (.str (bullet ++ py"{}"))) st) := by
        show (ordinal (tagInfo s.dom i) 1 1).bind (fun order => (pyFormat py"{0}. {1}" [intStr order, py"{}"]).bind (fun line =>
          .ok (DictOf.update (DictOf.set (newSettings .olItem) py"line_template" (.str line)) st))) = _
        rw [hord]
        simp only [Except.bind, intStr_nat, number_format, hbu, List.append_assoc]
        rfl
      simp only [construct, hinit, bind, Except.bind, RClass.isBlock, if_true, RClass.boxHasTemplate, hb]
      rfl
    have plain : ∀ st, (st = [] ∨ ∃ a b, st = margins a b) → PlainItem (DictOf.update (DictOf.set (newSettings .olItem) py"line_template" (.str (bullet ++ py"{}")))
        st) bullet := by
      rintro st (rfl | ⟨a, b, rfl⟩) <;>
      · refine ⟨rfl, rfl, rfl, rfl, rfl, rfl, rfl, ?_⟩
        simp only [List.mem_cons, List.not_mem_nil, or_false]
        rintro k (rfl | rfl | rfl | rfl | rfl | rfl) <;> rfl
    have hch : ∀ c ∈ bullet, c ≠ '{' ∧ c ≠ '}' ∧ c ≠ '\x1b' ∧ c ≠ '\n' := by
      intro c hc
      rw [hbu] at hc
      rcases List.mem_append.1 hc with hc | hc
      · exact natStr_plain _ c hc
      · simp at hc; rcases hc with rfl | rfl <;> decide
    have hbul : Bullet s.dom i bullet := .inl ⟨ho, before, after, ha, hbu⟩
    rw [textOf_elem hn hd hl (a0 ho), a2]
    cases a3 with
    | nested h1 h2 => exact ⟨1, _, .olItem, bullet, _, .inl (.nested h1 h2), by simp, hcon _ 1 rfl, plain _ (.inr ⟨1, 0, rfl⟩), rfl, hch, rfl, hbul⟩
    | first h1 h2 => exact ⟨0, _, .olItem, bullet, _, .inl (.first h1 h2), by simp, hcon _ 0 rfl, plain _ (.inr ⟨0, 0, rfl⟩), rfl, hch, rfl, hbul⟩
    | later h1 => exact ⟨1, _, .olItem, bullet, _, .inr ⟨.later h1, rfl⟩, by simp, hcon _ 1 rfl, plain _ (.inl rfl), rfl, hch, rfl, hbul⟩
  · have plain : ∀ st, (st = [] ∨ ∃ a b, st = margins a b) → PlainItem (DictOf.update (newSettings .listItem) st) py"* " := by
      rintro st (rfl | ⟨a, b, rfl⟩) <;>
      · refine ⟨rfl, rfl, rfl, rfl, rfl, rfl, rfl, ?_⟩
        simp only [List.mem_cons, List.not_mem_nil, or_false]
        rintro k (rfl | rfl | rfl | rfl | rfl | rfl) <;> rfl
    have hch : ∀ c ∈ py"* ", c ≠ '{' ∧ c ≠ '}' ∧ c ≠ '\x1b' ∧ c ≠ '\n' := by decide
    rw [textOf_elem hn hd hl (a1 ho), a2]
    cases a3 with
    | nested h1 h2 => exact ⟨1, _, .listItem, py"* ", _, .inl (.nested h1 h2), by simp, rfl, plain _ (.inr ⟨1, 0, rfl⟩), rfl, hch, rfl, .inr ⟨ho, rfl⟩⟩
    | first h1 h2 => exact ⟨0, _, .listItem, py"* ", _, .inl (.first h1 h2), by simp, rfl, plain _ (.inr ⟨0, 0, rfl⟩), rfl, hch, rfl, .inr ⟨ho, rfl⟩⟩
    | later h1 => exact ⟨1, _, .listItem, py"* ", _, .inr ⟨.later h1, rfl⟩, by simp, rfl, plain _ (.inl rfl), rfl, hch, rfl, .inr ⟨ho, rfl⟩⟩

theorem li_text {u : Uni} {c : Cfg} {es : List Event} {s : PState} (h : Rendered u c es s)
    {i : Nat} (hr : Unruled c s.dom i) (ht : HasTag s.dom i py"li") {f : Nat} {box : Box} {y : Str} (hy : textOf u s (f + 1) box i = .ok y) :
    ∃ above a x lines, LiSpace s.dom i above ∧ Bullet s.dom i a ∧ (∀ c ∈ a, c ≠ '{' ∧ c ≠ '}' ∧ c ≠ '\x1b' ∧ c ≠ '\n') ∧
      contents u s f (inside box above 0 (some (a ++ py"{}"))) i = .ok x ∧
      wrap u (proseOpts u (textRoom box - a.length)) x = .ok lines ∧ y = rep '\n' above ++ rows (room box) (hang a lines) := by
  obtain ⟨above, S, cls, a, ctx, b1, b2, b3, b4, b5, b6, b7, b8⟩ := li_parts h hr ht f box
  rw [b7] at hy
  obtain ⟨hw, x, hx⟩ := item_ran b2 b3 b4 b5 hy
  obtain ⟨lines, l1, l2, -, -⟩ := item_rows (u := u) (cont := fun b => contents u s f b i) b2 b3 b4 b5 (fun c hc => ⟨(b6 c hc).1, (b6 c hc).2.1⟩)
    (fun hc => (b6 _ hc).2.2.1 rfl) (fun hc => (b6 _ hc).2.2.2 rfl) hw x hx
  rw [l2] at hy
  cases hy
  exact ⟨above, a, x, lines, b1, b8, b6, hx, l1, rfl⟩

theorem dd_fit {u : Uni} {c : Cfg} {es : List Event} {s : PState} (h : Rendered u c es s)
    {i : Nat} (hr : Unruled c s.dom i) (ht : HasTag s.dom i py"dd") (f : Nat) (box : Box) {y : Str} (hy : textOf u s (f + 1) box i = .ok y) :
    0 < textRoom box ∧ ∃ z, AllFit u (textRoom box) z ∧ y = py"\n" ++ z := by
  rw [textOf_plain h hr ht (cls := .defItem) (by simp only [plainStyle, List.mem_cons, Prod.mk.injEq, List.cons.injEq]; simp)
    (by decide) (by decide)] at hy
  refine item_fit (cls := .defItem) (a := py": ") (above := 1) (cont := fun b => contents u s f b i) (S := newSettings .defItem)
    (by simp) rfl ⟨rfl, rfl, rfl, rfl, rfl, rfl, rfl, ?_⟩ rfl (by decide) (by decide) (by decide) hy
  simp only [List.mem_cons, List.not_mem_nil, or_false]
  rintro k (rfl | rfl | rfl | rfl | rfl | rfl) <;> rfl

theorem list_text {u : Uni} {c : Cfg} {es : List Event} {s : PState} (h : Rendered u c es s)
    {i : Nat} (hr : Unruled c s.dom i) {tag : Str} (ht : HasTag s.dom i tag) (hm : tag ∈ [py"ul", py"ol", py"dl"]) (f : Nat) (box : Box) :
    textOf u s (f + 1) box i = (contents u s f (inside box 1 1) i).map (fun x => py"\n" ++ padLines (room box) x ++ py"\n") := by
  have key : ∀ cls : RClass, cls = .list ∨ cls = .defList → ∀ t ctx cont, ctx = (⟨some [], none, none⟩ : Ctx) →
      renderWith u cls t ctx box cont = (cont (inside box 1 1)).map (fun x => py"\n" ++ padLines (room box) x ++ py"\n") := by
    rintro cls hc t ctx cont rfl
    have : construct cls t ⟨some [], none, none⟩ box = .ok ⟨cls, newSettings cls, some (inside box 1 1), t, ⟨some [], none, none⟩⟩ := by
      rcases hc with rfl | rfl <;> rfl
    rw [renderWith_block this rfl (by rcases hc with rfl | rfl <;> simp) (by rcases hc with rfl | rfl <;> rfl)]
    cases cont (inside box 1 1) with
    | error e => rfl
    | ok x => rcases hc with rfl | rfl <;> rfl
  simp only [List.mem_cons, List.not_mem_nil, or_false] at hm
  rcases hm with rfl | rfl | rfl
  · rw [textOf_plain h hr ht (cls := .list) (by simp only [plainStyle, List.mem_cons, Prod.mk.injEq, List.cons.injEq]; simp)
      (by decide) (by decide)]
    exact key _ (.inl rfl) _ _ _ rfl
  · rw [textOf_plain h hr ht (cls := .list) (by simp only [plainStyle, List.mem_cons, Prod.mk.injEq, List.cons.injEq]; simp)
      (by decide) (by decide)]
    exact key _ (.inl rfl) _ _ _ rfl
  · rw [textOf_plain h hr ht (cls := .defList) (by simp only [plainStyle, List.mem_cons, Prod.mk.injEq, List.cons.injEq]; simp)
      (by decide) (by decide)]
    exact key _ (.inr rfl) _ _ _ rfl

theorem dt_text {u : Uni} {c : Cfg} {es : List Event} {s : PState} (h : Rendered u c es s)
    {i : Nat} (hr : Unruled c s.dom i) (ht : HasTag s.dom i py"dt") (f : Nat) (box : Box) :
    ∃ above, (¬ FirstChild s.dom i ∧ above = 2 ∨ FirstChild s.dom i ∧ above = 0) ∧
    textOf u s (f + 1) box i = (contents u s f (inside box above 0) i).map (fun x => rep '\n' above ++ padLines (room box) x) := by
  obtain ⟨n, hn, htag, hd, hl⟩ := rendered_elem h ht (by decide) (by decide)
  obtain ⟨s0, s1, e0, e1, e2, hdom, -, -, -⟩ := rendered_inv h
  rw [hdom] at ht
  obtain ⟨a1, st, a2, a3⟩ := C61_dt u c s0 s1 s es e0 e1 e2 i (hdom ▸ hr) ht
  rw [← hdom] at a3
  rw [textOf_elem hn hd hl a1, a2]
  have key : ∀ (st : Dict) (above : Int) (t : TagInfo) (cont : Box → Py Str),
      (st = [] ∨ ∃ a b, st = margins a b) →
      construct .defTerm t ⟨some st, none, none⟩ box = .ok ⟨.defTerm, DictOf.update (newSettings .defTerm) st, some (inside box above 0), t, ⟨some st, none, none⟩⟩ →
      renderWith u .defTerm t ⟨some st, none, none⟩ box cont = (cont (inside box above 0)).map (fun x => rep '\n' above ++ padLines (room box) x) := by
    intro st above t cont hst hk
    rw [renderWith_block hk rfl (by simp) (by rcases hst with rfl | ⟨a, b, rfl⟩ <;> rfl)]
    cases cont (inside box above 0) with
    | error e => rfl
    | ok x =>
      have hin : headerInner u (DictOf.update (newSettings .defTerm) st) (inside box above 0) x = .ok x := by
        have : headerInner u (DictOf.update (newSettings .defTerm) st) (inside box above 0) x = (fmt1 py"{}" x).bind (fun y => .ok y) := by
          rcases hst with rfl | ⟨a, b, rfl⟩ <;> rfl
        rw [this]
        have h1 := fmt1_plain [] [] x (by decide) (by decide)
        simp only [List.nil_append, List.append_nil] at h1
        rw [h1]; rfl
      simp only [Except.bind, innerRender, hin, Except.map]
      simp [rep]
  cases a3 with
  | first h1 => exact ⟨0, .inr ⟨h1, rfl⟩, key _ 0 _ _ (.inr ⟨0, 0, rfl⟩) rfl⟩
  | later h1 => exact ⟨2, .inl ⟨h1, rfl⟩, key _ 2 _ _ (.inl rfl) rfl⟩

/-! ## Nodes -/

theorem contents_children {u : Uni} {s : PState} {f : Nat} {box : Box} {i : Nat} {n : Node} {x : Str}
    (hn : s.dom.nodes[i]? = some n) (hp : n.pending = []) (h : contents u s f box i = .ok x) :
    renderAll (textOf u s f box) n.children = .ok x := by
  simp only [contents, hn, hp, bind, Except.bind, pure, Except.pure, renderAll] at h
  show renderAll (renderNode u s.dom s.assigned f false box) n.children = .ok x
  cases hb : renderAll (renderNode u s.dom s.assigned f false box) n.children with
  | error e => rw [hb] at h; cases h
  | ok b => rw [hb] at h; simpa using h

theorem renderAll_cons {g : Nat → Py Str} {i : Nat} {b : List Nat} {x : Str} (h : renderAll g (i :: b) = .ok x) :
    ∃ y z, g i = .ok y ∧ renderAll g b = .ok z ∧ x = y ++ z := by
  simp only [renderAll, bind, Except.bind, pure, Except.pure] at h
  cases h1 : g i with
  | error e => rw [h1] at h; cases h
  | ok y =>
    rw [h1] at h
    simp only at h
    cases h2 : renderAll g b with
    | error e => rw [h2] at h; cases h
    | ok z => rw [h2] at h; simp only [Except.ok.injEq] at h; exact ⟨y, z, rfl, rfl, h.symm⟩

/-- How the rendering of a block starts. -/
def StartsOk (d : Dom) (i : Nat) (y : Str) : Prop := Quiet y ∨ Flush d i

theorem quiet_nl (r : Str) : Quiet ('\n' :: r) := ⟨[], '\n' :: r, rfl, by simp [Blank], .inr ⟨r, rfl⟩⟩

theorem quiet_nil : Quiet [] := ⟨[], [], rfl, by simp [Blank], .inl rfl⟩

theorem quiet_append {y z : Str} (hy : Quiet y) (hz : Quiet z) : Quiet (y ++ z) := by
  obtain ⟨t, r, rfl, ht, rfl | ⟨r', rfl⟩⟩ := hy
  · obtain ⟨t', r', rfl, ht', hr⟩ := hz
    exact ⟨t ++ t', r', by simp, blank_append ht ht', hr⟩
  · exact ⟨t, '\n' :: (r' ++ z), by simp, ht, .inr ⟨_, rfl⟩⟩

theorem quiet_pad {w : Int} {x : Str} (h : Quiet x) : Quiet (padLines w x) := by
  obtain ⟨t, r, rfl, ht, hr⟩ := h
  have key : ∀ (t r : Str), Blank t → (r = [] ∨ ∃ r', r = '\n' :: r') → ∃ l ls, splitCh '\n' (t ++ r) = l :: ls ∧ Blank l := by
    intro t
    induction t with
    | nil =>
      intro r _ hr
      rcases hr with rfl | ⟨r', rfl⟩
      · exact ⟨[], [], rfl, by simp [Blank]⟩
      · exact ⟨[], _, splitCh_cons_eq _ _, by simp [Blank]⟩
    | cons c t ih =>
      intro r ht hr
      have ht' : Blank t := fun x hx => ht x (by simp [hx])
      by_cases hc : c = '\n'
      · subst hc; exact ⟨[], _, splitCh_cons_eq _ _, by simp [Blank]⟩
      · obtain ⟨l, ls, e, hb⟩ := ih r ht' hr
        obtain ⟨l', ls', e1, e2⟩ := splitCh_cons_ne '\n' c (t ++ r) hc
        rw [e, List.cons.injEq] at e1
        obtain ⟨rfl, rfl⟩ := e1
        refine ⟨c :: l, ls, e2, ?_⟩
        intro x hx
        rcases List.mem_cons.1 hx with rfl | hx
        · exact ht _ (by simp)
        · exact hb x hx
  obtain ⟨l, ls, e, hb⟩ := key t r ht hr
  have hp : Blank (padTo w l) := blank_append hb (fun x hx => by rw [(List.mem_replicate.1 hx).2]; decide)
  unfold padLines
  rw [e, List.map_cons]
  cases ls with
  | nil => exact ⟨padTo w l, [], by simp [join], hp, .inl rfl⟩
  | cons m ms => exact ⟨padTo w l, _, by rw [join_cons_ne _ _ _ (by simp), List.append_assoc]; rfl, hp, .inr ⟨_, rfl⟩⟩

/-- Inline content is rendered as the text it shows. -/
theorem shows_text {u : Uni} {c : Cfg} {es : List Event} {s : PState} (h : Rendered u c es s) (hr : c.renderers = [])
    (hp : ∀ (j : Nat) (n : Node), s.dom.nodes[j]? = some n → n.pending = []) {js : List Nat} {text : Str}
    (hs : Shows s.dom js text) : ∀ (f : Nat) (box : Box) (x : Str), renderAll (textOf u s f box) js = .ok x → x = text := by
  have inner : ∀ {j : Nat} {n : Node} {y : Str}, s.dom.nodes[j]? = some n →
      (∀ (f : Nat) (box : Box) (x : Str), renderAll (textOf u s f box) n.children = .ok x → x = y) →
      ∀ f box x, contents u s f box j = .ok x → x = y :=
    fun hn ih f box x hx => ih f box x (contents_children hn (hp _ _ hn) hx)
  induction hs with
  | nil =>
    intro f box x hx
    simp only [renderAll, Except.ok.injEq] at hx
    exact hx.symm
  | @text j js n t x hn hd _ ih =>
    intro f box z hz
    obtain ⟨a, b, h1, h2, rfl⟩ := renderAll_cons hz
    cases f with
    | zero => cases h1
    | succ f =>
      simp only [textOf, renderNode, hn, hd, Except.ok.injEq] at h1
      rw [← h1, ih _ _ _ h2]
  | @marked j js n tag before after y x hn ht hm _ _ ih1 ih2 =>
    intro f box z hz
    obtain ⟨a, b, h1, h2, rfl⟩ := renderAll_cons hz
    cases f with
    | zero => cases h1
    | succ f =>
      rw [C45 u c es s h j hr tag before after ⟨n, hn, ht⟩ hm f box] at h1
      cases hc : contents u s f box j with
      | error e => rw [hc] at h1; cases h1
      | ok v =>
        rw [hc] at h1
        simp only [Except.map, Except.ok.injEq] at h1
        rw [← h1, ih2 _ _ _ h2, inner hn ih1 _ _ _ hc]
  | @code j js n y x hn ht hnp _ hnl _ ih1 ih2 =>
    intro f box z hz
    obtain ⟨a, b, h1, h2, rfl⟩ := renderAll_cons hz
    cases f with
    | zero => cases h1
    | succ f =>
      cases hc : contents u s f box j with
      | error e => rw [C46_error u c es s h j hr ⟨n, hn, ht⟩ f box e hc] at h1; cases h1
      | ok v =>
        have hv := inner hn ih1 _ _ _ hc
        subst hv
        rw [(C46 u c es s h j hr ⟨n, hn, ht⟩ f box v hc).2.1 hnp hnl] at h1
        simp only [Except.ok.injEq] at h1
        rw [← h1, ih2 _ _ _ h2]
  | @block j js n y x hn ht hpre _ _ ih1 ih2 =>
    intro f box z hz
    obtain ⟨a, b, h1, h2, rfl⟩ := renderAll_cons hz
    cases f with
    | zero => cases h1
    | succ f =>
      cases hc : contents u s f box j with
      | error e => rw [C46_error u c es s h j hr ⟨n, hn, ht⟩ f box e hc] at h1; cases h1
      | ok v =>
        rw [(C46 u c es s h j hr ⟨n, hn, ht⟩ f box v hc).1 hpre] at h1
        simp only [Except.ok.injEq] at h1
        rw [← h1, ih2 _ _ _ h2, inner hn ih1 _ _ _ hc]
  | @reference j js n l y x hn ht hlk hpl _ _ ih1 ih2 =>
    intro f box z hz
    obtain ⟨a, b, h1, h2, rfl⟩ := renderAll_cons hz
    cases f with
    | zero => cases h1
    | succ f =>
      obtain ⟨n', l', k1, -, -, k2, -, -, -, -, k3, -, k4⟩ := link_known h ⟨n, hn, ht⟩ (.inl rfl)
      rw [hn] at k1; cases k1
      rw [hlk] at k2; cases k2
      rw [k3] at hpl
      obtain ⟨m, hm, hm'⟩ := number_known h hn (by simp [extracted, ht, hpl]) k4
      obtain ⟨m', g1, g2⟩ := C81_reference u c es s h j hr ⟨n, hn, ht⟩ hpl
      have hmm : m' = m := nodesWhere_inj g1 hm'
      rw [g2] at h1
      cases hc : contents u s f box j with
      | error e => rw [hc] at h1; cases h1
      | ok v =>
        rw [hc] at h1
        simp only [Except.map, Except.ok.injEq] at h1
        rw [← h1, ih2 _ _ _ h2, inner hn ih1 _ _ _ hc, hm, hmm]
  | @link j js n l y x hn ht hlk hpl _ _ ih1 ih2 =>
    intro f box z hz
    obtain ⟨a, b, h1, h2, rfl⟩ := renderAll_cons hz
    cases f with
    | zero => cases h1
    | succ f =>
      obtain ⟨n', l', k1, -, -, k2, k5, k6, -, -, k3, -, k4⟩ := link_known h ⟨n, hn, ht⟩ (.inl rfl)
      rw [hn] at k1; cases k1
      rw [hlk] at k2; cases k2
      rw [k3] at hpl
      simp only [if_true] at k5 k6
      rw [C81_inline u c es s h j hr ⟨n, hn, ht⟩ hpl, linkText, hn, ← k5, ← k6] at h1
      simp only at h1
      cases hc : renderAll (renderNode u s.dom s.assigned f false box) n.children with
      | error e => rw [hc] at h1; cases h1
      | ok v =>
        rw [hc] at h1
        simp only [Except.map, Except.ok.injEq] at h1
        rw [← h1, ih2 _ _ _ h2, ih1 _ _ _ hc]
  | @image j js n l x hn ht hlk hpl _ ih2 =>
    intro f box z hz
    obtain ⟨a, b, h1, h2, rfl⟩ := renderAll_cons hz
    cases f with
    | zero => cases h1
    | succ f =>
      obtain ⟨n', l', k1, -, -, k2, k5, k6, -, -, -, k3, k4⟩ := link_known h ⟨n, hn, ht⟩ (.inr rfl)
      rw [hn] at k1; cases k1
      rw [hlk] at k2; cases k2
      rw [k3] at hpl
      simp only [show py"img" ≠ py"a" by decide, if_false] at k5 k6
      rw [C81_image u c es s h j hr ⟨n, hn, ht⟩ hpl, ← k5, ← k6] at h1
      cases hc : linkText u s f box j with
      | error e => rw [hc] at h1; cases h1
      | ok v =>
        rw [hc] at h1
        simp only [Except.map, Except.ok.injEq] at h1
        rw [← h1, ih2 _ _ _ h2]
  | @imageReference j js n l x hn ht hlk hpl _ ih2 =>
    intro f box z hz
    obtain ⟨a, b, h1, h2, rfl⟩ := renderAll_cons hz
    cases f with
    | zero => cases h1
    | succ f =>
      obtain ⟨n', l', k1, -, -, k2, -, -, -, -, -, k3, k4⟩ := link_known h ⟨n, hn, ht⟩ (.inr rfl)
      rw [hn] at k1; cases k1
      rw [hlk] at k2; cases k2
      rw [k3] at hpl
      obtain ⟨m, hm, hm'⟩ := number_known h hn (by simp [extracted, ht, hpl]) k4
      obtain ⟨m', g1, g2⟩ := C81_partial u c es s h j hr ⟨n, hn, ht⟩ hpl
      have hmm : m' = m := nodesWhere_inj g1 hm'
      rw [g2] at h1
      cases hc : contents u s f box j with
      | error e => rw [hc] at h1; cases h1
      | ok v =>
        rw [hc] at h1
        simp only [Except.map, Except.ok.injEq] at h1
        rw [← h1, ih2 _ _ _ h2, hm, hmm]

/-- An element for which there is no rule is its content. -/
theorem textOf_unstyled {u : Uni} {c : Cfg} {es : List Event} {s : PState} (h : Rendered u c es s)
    {i : Nat} (hr : Unruled c s.dom i) (hdef : c.defaultRenderer = .cls .renderer) {tag : Str} (ht : HasTag s.dom i tag) (hu : Unstyled tag) (f : Nat) (box : Box) :
    textOf u s (f + 1) box i = contents u s f box i := by
  obtain ⟨n, hn, htag, hd, hl⟩ := rendered_elem h ht (by rintro rfl; exact hu.1 (by decide)) (by rintro rfl; exact hu.1 (by decide))
  obtain ⟨s0, s1, e0, e1, e2, hdom, -, -, -⟩ := rendered_inv h
  rw [hdom] at ht
  obtain ⟨a1, a2⟩ := C61_other u c s0 s1 s es e0 e1 e2 i (hdom ▸ hr) hdef tag ht hu.1 hu.2
  rw [textOf_elem hn hd hl a1, a2]
  show (contents u s f box i).bind _ = _
  cases contents u s f box i with
  | error e => rfl
  | ok x => rfl

/-- A `div` is its content. -/
theorem textOf_div {u : Uni} {c : Cfg} {es : List Event} {s : PState} (h : Rendered u c es s)
    {i : Nat} (hr : Unruled c s.dom i) (ht : HasTag s.dom i py"div") (f : Nat) (box : Box) :
    textOf u s (f + 1) box i = (contents u s f (inside box 0 0) i).map (padLines (room box)) := by
  rw [textOf_plain h hr ht (cls := .block) (by simp only [plainStyle, List.mem_cons, Prod.mk.injEq, List.cons.injEq]; simp)
    (by decide) (by decide)]
  rw [renderWith_block (inst := ⟨.block, newSettings .block, some (inside box 0 0), tagInfo s.dom i, ⟨some [], none, none⟩⟩) rfl rfl
    (by simp) rfl]
  cases contents u s f (inside box 0 0) i with
  | error e => rfl
  | ok x => simp [Except.bind, Except.map, innerRender, rep]

theorem children_fit {u : Uni} {d : Dom} {w : Int} (h0 : 0 ≤ w) (g : Nat → Py Str) {is : List Nat} (hs : Spaced d is)
    (hb : ∀ j ∈ is, BlankText d j → ∀ y, g j = .ok y → Blank y)
    (hf : ∀ j ∈ is, ¬ BlankText d j → ∀ y, g j = .ok y → AllFit u w y ∧ StartsOk d j y) {x : Str}
    (h : renderAll g is = .ok x) : AllFit u w x := by
  have gen : ∀ (rest before : List Nat) (x : Str), is = before ++ rest → renderAll g rest = .ok x →
      AllFit u w x ∧ (Quiet x ∨ ∃ j after, rest = j :: after ∧ Flush d j) := by
    intro rest
    induction rest with
    | nil =>
      intro before x _ h
      simp only [renderAll, Except.ok.injEq] at h
      subst h
      exact ⟨allFit_nil h0, .inl ⟨[], [], rfl, by simp [Blank], .inl rfl⟩⟩
    | cons j rest ih =>
      intro before x e h
      have hj : j ∈ is := by rw [e]; simp
      simp only [renderAll, bind, Except.bind, pure, Except.pure] at h
      cases h1 : g j with
      | error e => rw [h1] at h; cases h
      | ok y =>
        rw [h1] at h
        simp only at h
        cases h2 : renderAll g rest with
        | error e => rw [h2] at h; cases h
        | ok z =>
          rw [h2] at h
          simp only [Except.ok.injEq] at h
          subst h
          obtain ⟨q1, q2⟩ := ih (before ++ [j]) z (by rw [e]; simp) h2
          have q3 : Quiet z := by
            rcases q2 with q | ⟨k, after, rfl, hk⟩
            · exact q
            · have := hs (before ++ [j]) k after (by rw [e]; simp) hk
              simp at this
          by_cases hbt : BlankText d j
          · have hy := hb j hj hbt y h1
            refine ⟨allFit_append h0 (lineFit_all h0 (lineFit_blank h0 hy)) q1 q3, .inl ?_⟩
            obtain ⟨t, r, rfl, ht, hr⟩ := q3
            exact ⟨y ++ t, r, by simp, blank_append hy ht, hr⟩
          · obtain ⟨a1, a2⟩ := hf j hj hbt y h1
            refine ⟨allFit_append h0 a1 q1 q3, ?_⟩
            rcases a2 with a2 | a2
            · exact .inl (quiet_append a2 q3)
            · exact .inr ⟨j, rest, rfl, a2⟩
  exact (gen is [] x rfl h).1

theorem blank_textOf {u : Uni} {s : PState} {f : Nat} {box : Box} {i : Nat} {y : Str} (h : BlankText s.dom i)
    (hy : textOf u s f box i = .ok y) : Blank y := by
  obtain ⟨n, t, h1, h2, h3⟩ := h
  cases f with
  | zero => cases hy
  | succ f =>
    simp only [textOf, renderNode, h1, h2, Except.ok.injEq] at hy
    rw [← hy]; exact h3

theorem allFit_mono {u : Uni} {w w' : Int} {x : Str} (hw : w ≤ w') (h : AllFit u w x) : AllFit u w' x := fun l hl => lineFit_mono hw (h l hl)

theorem node_fit {u : Uni} {c : Cfg} {es : List Event} {s : PState} (h : Rendered u c es s) (hr : c.renderers = [])
    (hp : ∀ (j : Nat) (n : Node), s.dom.nodes[j]? = some n → n.pending = [])
    (hdef : ∀ j tag, HasTag s.dom j tag → Unstyled tag → c.defaultRenderer = .cls .renderer) {w : Int} {i : Nat} (hf : Fits u s.dom w i) :
    ∀ (f : Nat) (box : Box) (y : Str), 0 ≤ w → textRoom box ≤ w → textOf u s f box i = .ok y → AllFit u w y ∧ StartsOk s.dom i y := by
  have nl : ∀ {d : Dom} {i : Nat} {r : Str}, StartsOk d i (py"\n" ++ r) := fun {d i r} => .inl (quiet_nl r)
  have rep1 : ∀ r : Str, rep '\n' 1 ++ r = py"\n" ++ r := fun r => rfl
  have pStarts : ∀ {i : Nat} {above below : Int} {r : Str}, HasTag s.dom i py"p" → PSpace s.dom i above below →
      StartsOk s.dom i (rep '\n' above ++ r) := by
    intro i above below r ht h1
    rcases h1 with h1 | ⟨-, rfl, -⟩
    · generalize hm : margins above below = m at h1
      have inj : ∀ a b a' b', margins a b = margins a' b' → a = a' := by
        intro a b a' b' e
        simp only [margins, List.cons.injEq, Prod.mk.injEq, Val.ints.injEq] at e
        exact e.1.2.1
      cases h1 with
      | only h1 h2 h3 => exact .inr ⟨h2, .inl ⟨ht, h1⟩⟩
      | first h1 h2 h3 => exact .inr ⟨h2, .inl ⟨ht, h1⟩⟩
      | last h1 h2 h3 => rw [inj _ _ _ _ hm]; exact nl
      | inner => exact absurd hm (by simp [margins])
      | free => exact absurd hm (by simp [margins])
    · exact nl
  induction hf with
  | @paragraph w i ht hs =>
    intro f box y h0 hw hy
    cases f with
    | zero => cases hy
    | succ f =>
      obtain ⟨above, below, h1, h2⟩ := textOf_p h hr ht f box
      obtain ⟨n, hn, -, -, -⟩ := rendered_elem h ht (by decide) (by decide)
      rw [h2] at hy
      cases hc : contents u s f (inside box above below (some py"{}")) i with
      | error e => rw [hc] at hy; cases hy
      | ok x =>
        rw [hc] at hy
        simp only [Except.bind] at hy
        cases hq : paragraphBody u (tagInfo s.dom i) (textRoom box) x with
        | error e => rw [hq] at hy; cases hy
        | ok z =>
          rw [hq] at hy
          simp only [Except.map, Except.ok.injEq] at hy
          have hsk : skipParagraph (tagInfo s.dom i) = false := by
            cases hk : skipParagraph (tagInfo s.dom i) with
            | false => rfl
            | true => exact absurd ((skip_iff hn).1 hk) hs
          have hz := allFit_mono hw (paragraphBody_fit hsk hq).2
          subst hy
          refine ⟨(allFit_newlines h0 below (allFit_newlines h0 above (allFit_padLines h0 hz)).1).2, ?_⟩
          rw [List.append_assoc]
          exact pStarts ht h1
  | @item w i ht =>
    intro f box y h0 hw hy
    cases f with
    | zero => cases hy
    | succ f =>
      obtain ⟨above, S, cls, a, ctx, b1, b2, b3, b4, b5, b6, b7, -⟩ := li_parts h hr ht f box
      rw [b7] at hy
      obtain ⟨-, z, z1, rfl⟩ := item_fit b2 b3 b4 b5 (fun x hx => ⟨(b6 x hx).1, (b6 x hx).2.1⟩) (fun hx => (b6 _ hx).2.2.1 rfl)
        (fun hx => (b6 _ hx).2.2.2 rfl) hy
      refine ⟨(allFit_newlines h0 above (allFit_mono hw z1)).1, ?_⟩
      rcases b1 with b1 | ⟨-, rfl⟩
      · generalize hm : margins above 0 = m at b1
        have inj : ∀ a b a' b', margins a b = margins a' b' → a = a' := by
          intro a b a' b' e
          simp only [margins, List.cons.injEq, Prod.mk.injEq, Val.ints.injEq] at e
          exact e.1.2.1
        cases b1 with
        | nested h1 h2 => rw [inj _ _ _ _ hm]; exact nl
        | first h1 h2 => exact .inr ⟨h1, .inr (.inl ⟨ht, h2⟩)⟩
        | later => exact absurd hm (by simp [margins])
      · exact nl
  | @description w i ht =>
    intro f box y h0 hw hy
    cases f with
    | zero => cases hy
    | succ f =>
      obtain ⟨-, z, z1, rfl⟩ := dd_fit h hr ht f box hy
      exact ⟨(allFit_newlines h0 1 (allFit_mono hw z1)).1, nl⟩
  | @term w i n text hn ht hc hv =>
    intro f box y h0 hw hy
    cases f with
    | zero => cases hy
    | succ f =>
      obtain ⟨above, h1, h2⟩ := dt_text h hr ⟨n, hn, ht⟩ f box
      rw [h2] at hy
      cases hx : contents u s f (inside box above 0) i with
      | error e => rw [hx] at hy; cases hy
      | ok x =>
        rw [hx] at hy
        simp only [Except.map, Except.ok.injEq] at hy
        subst hy
        have htext : x = text := shows_text h hr hp hc _ _ _ (contents_children hn (hp _ _ hn) hx)
        subst htext
        refine ⟨(allFit_newlines h0 above (allFit_padLines h0 (lineFit_all h0 (visible_fit hv)))).1, ?_⟩
        rcases h1 with ⟨-, rfl⟩ | ⟨h1, rfl⟩
        · exact nl
        · exact .inr ⟨h1, .inr (.inr ⟨n, hn, ht⟩)⟩
  | @header w i n tag text level hn ht hm hc hv =>
    intro f box y h0 hw hy
    cases f with
    | zero => cases hy
    | succ f =>
      rw [C47 u c es s h i hr tag level ⟨n, hn, ht⟩ hm f box] at hy
      cases hx : contents u s f (inside box 1 1) i with
      | error e => rw [hx] at hy; cases hy
      | ok x =>
        rw [hx] at hy
        simp only [Except.map, Except.ok.injEq] at hy
        have htext : x = text := shows_text h hr hp hc _ _ _ (contents_children hn (hp _ _ hn) hx)
        subst htext hy
        refine ⟨?_, by rw [List.append_assoc]; exact nl⟩
        refine (allFit_newlines h0 1 (allFit_newlines h0 1 (allFit_padLines h0 (lineFit_all h0 (visible_fit ?_)))).1).2
        rw [visibleLe_iff] at hv ⊢
        have hh : '\x1b' ∉ List.replicate level '#' := by simp [List.mem_replicate]
        have e1 : List.replicate level '#' ++ py" " ++ x ++ py" " ++ List.replicate level '#' =
            (List.replicate level '#' ++ py" ") ++ (x ++ ' ' :: List.replicate level '#') := by simp
        have e2 := vlen_plain (u := u) hh []
        rw [List.append_nil, vlen_nil] at e2
        rw [e1, vlen_plain (by simp [hh]), vlen_mid (by decide), e2]
        simp only [List.length_append, List.length_replicate, List.length_cons, List.length_nil]
        omega
  | @codeOnly w i n text hn ht ho hc hv =>
    intro f box y h0 hw hy
    cases f with
    | zero => cases hy
    | succ f =>
      obtain ⟨above, below, h1, h2⟩ := textOf_p h hr ⟨n, hn, ht⟩ f box
      rw [h2] at hy
      cases hx : contents u s f (inside box above below (some py"{}")) i with
      | error e => rw [hx] at hy; cases hy
      | ok x =>
        rw [hx] at hy
        have htext : x = text := shows_text h hr hp hc _ _ _ (contents_children hn (hp _ _ hn) hx)
        have hq : paragraphBody u (tagInfo s.dom i) (textRoom box) x = .ok x := by
          rw [paragraphBody, (skip_iff hn).2 ho]; rfl
        simp only [Except.bind, hq, Except.map, Except.ok.injEq] at hy
        subst htext hy
        refine ⟨(allFit_newlines h0 below (allFit_newlines h0 above (allFit_padLines h0 (lineFit_all h0 (visible_fit hv)))).1).2, ?_⟩
        rw [List.append_assoc]
        exact pStarts ⟨n, hn, ht⟩ h1
  | @pre w i n text hn ht hc hv =>
    intro f box y h0 hw hy
    cases f with
    | zero => cases hy
    | succ f =>
      cases hx : contents u s f (inside box 1 1) i with
      | error e =>
        rw [textOf_plain h hr ⟨n, hn, ht⟩ (cls := .pre) (by simp only [plainStyle, List.mem_cons, Prod.mk.injEq, List.cons.injEq]; simp)
          (by decide) (by decide), renderWith_block (inst := ⟨.pre, newSettings .pre, some (inside box 1 1), tagInfo s.dom i,
          ⟨some [], none, none⟩⟩) rfl rfl (by simp) rfl, hx] at hy
        cases hy
      | ok x =>
        obtain ⟨ls, hl, -⟩ := C51_lines x
        rw [C51 u c es s h i hr ⟨n, hn, ht⟩ f box x ls hx hl] at hy
        simp only [Except.ok.injEq] at hy
        have htext : x = text := shows_text h hr hp hc _ _ _ (contents_children hn (hp _ _ hn) hx)
        subst htext hy
        refine ⟨?_, by rw [List.append_assoc]; exact nl⟩
        refine (allFit_newlines h0 1 (allFit_newlines h0 1 (allFit_rows h0 ?_ ?_)).1).2
        · intro l hm
          obtain ⟨l', h1, rfl⟩ := List.mem_map.1 hm
          have := oneLine_nl (lines_oneLine hl l' h1)
          simp [this]
        · intro l hm
          obtain ⟨l', h1, rfl⟩ := List.mem_map.1 hm
          obtain ⟨t, e, hb⟩ := rstrip_split l'
          have hfit : LineFit u (w - 4) l' := by
            rw [e]; exact lineFit_pad (visible_fit (hv ls hl l' h1)) hb
          exact lineFit_mono (by simp; omega) (lineFit_prefix (p := py"    ") (by decide) hfit)
  | @around w i n tag hn ht hu hfl hall ih =>
    intro f box y h0 hw hy
    have sub : ∀ (f : Nat) (b : Box) (x : Str), textRoom b ≤ w → contents u s f b i = .ok x → AllFit u w x ∧ Quiet x := by
      intro f b x hb hx
      have hk := contents_children hn (hp _ _ hn) hx
      have each : ∀ j ∈ n.children, ∀ y, textOf u s f b j = .ok y → AllFit u w y ∧ Quiet y := by
        intro j hj y hy
        by_cases hbt : BlankText s.dom j
        · have := blank_textOf hbt hy
          exact ⟨lineFit_all h0 (lineFit_blank h0 this), y, [], by simp, this, .inl rfl⟩
        · obtain ⟨a1, a2⟩ := ih j hj hbt f b y h0 hb hy
          exact ⟨a1, a2.resolve_right (hfl j hj)⟩
      clear hx
      generalize n.children = is at hk each
      induction is generalizing x with
      | nil =>
        simp only [renderAll, Except.ok.injEq] at hk
        subst hk
        exact ⟨allFit_nil h0, quiet_nil⟩
      | cons j js ihj =>
        obtain ⟨y, z, k1, k2, rfl⟩ := renderAll_cons hk
        obtain ⟨a1, a2⟩ := each j (by simp) y k1
        obtain ⟨b1, b2⟩ := ihj z k2 (fun j hj => each j (by simp [hj]))
        exact ⟨allFit_append h0 a1 b1 b2, quiet_append a2 b2⟩
    cases f with
    | zero => cases hy
    | succ f =>
      rcases hu with rfl | hu
      · rw [textOf_div h hr ⟨n, hn, ht⟩ f box] at hy
        cases hx : contents u s f (inside box 0 0) i with
        | error e => rw [hx] at hy; cases hy
        | ok x =>
          rw [hx] at hy
          simp only [Except.map, Except.ok.injEq] at hy
          subst hy
          have hroom : textRoom (inside box 0 0) ≤ w := by
            have : textRoom (inside box 0 0) = textRoom box := by
              simp only [inside, Box.new, textRoom, room, Sides.addTotals, ownTemplatePadding]
              omega
            omega
          obtain ⟨a1, a2⟩ := sub f _ x hroom hx
          exact ⟨allFit_padLines h0 a1, .inl (quiet_pad a2)⟩
      · rw [textOf_unstyled h hr (hdef i tag ⟨n, hn, ht⟩ hu) ⟨n, hn, ht⟩ hu] at hy
        obtain ⟨a1, a2⟩ := sub f _ y hw hy
        exact ⟨a1, .inl a2⟩
  | @quote w i n hn ht h2 hs hall ih =>
    intro f box y h0 hw hy
    cases f with
    | zero => cases hy
    | succ f =>
      cases hx : contents u s f (inside box 1 1 (some py"> {}")) i with
      | error e => rw [C50_error u c es s h i hr ⟨n, hn, ht⟩ f box e hx] at hy; cases hy
      | ok x =>
        obtain ⟨ls, hl, -⟩ := C51_lines x
        rw [C50 u c es s h i hr ⟨n, hn, ht⟩ f box x ls hx hl] at hy
        simp only [Except.ok.injEq] at hy
        subst hy
        have hroom : textRoom (inside box 1 1 (some py"> {}")) ≤ w - 2 := by
          have : textRoom (inside box 1 1 (some py"> {}")) = textRoom box - 2 := by
            simp only [inside, Box.new, textRoom, room, Sides.addTotals, ownTemplatePadding, templateWidth, len]
            simp
            omega
          omega
        have hfit : AllFit u (w - 2) x := children_fit (by omega) _ hs (fun j _ hb y hy => blank_textOf hb hy)
          (fun j hj hb y hy => ih j hj hb f _ y (by omega) hroom hy) (contents_children hn (hp _ _ hn) hx)
        have hrows : AllFit u w (rows (room box) (ls.map (py"> " ++ ·))) := by
          apply allFit_rows h0
          · intro l hm
            obtain ⟨l', h1, rfl⟩ := List.mem_map.1 hm
            have := oneLine_nl (lines_oneLine hl l' h1)
            simp [this]
          · intro l hm
            obtain ⟨l', h1, rfl⟩ := List.mem_map.1 hm
            have := lineFit_prefix (p := py"> ") (by decide) (allFit_lines (by omega) hfit hl l' h1)
            exact lineFit_mono (by simp; omega) this
        refine ⟨?_, by rw [List.append_assoc]; exact nl⟩
        exact (allFit_newlines h0 1 (allFit_newlines h0 1 hrows).1).2
  | @list w i n tag hn ht hm hs hall ih =>
    intro f box y h0 hw hy
    cases f with
    | zero => cases hy
    | succ f =>
      rw [list_text h hr ⟨n, hn, ht⟩ hm] at hy
      cases hx : contents u s f (inside box 1 1) i with
      | error e => rw [hx] at hy; cases hy
      | ok x =>
        rw [hx] at hy
        simp only [Except.map, Except.ok.injEq] at hy
        subst hy
        have hroom : textRoom (inside box 1 1) ≤ w := by
          have : textRoom (inside box 1 1) = textRoom box := by
            simp only [inside, Box.new, textRoom, room, Sides.addTotals, ownTemplatePadding]
            omega
          omega
        have hfit : AllFit u w x := children_fit h0 _ hs (fun j _ hb y hy => blank_textOf hb hy)
          (fun j hj hb y hy => ih j hj hb f _ y h0 hroom hy) (contents_children hn (hp _ _ hn) hx)
        refine ⟨?_, by rw [List.append_assoc]; exact nl⟩
        exact (allFit_newlines h0 1 (allFit_newlines h0 1 (allFit_padLines h0 hfit)).1).2

/-! ## The page -/

theorem inPlace_placed {u : Uni} {c : Cfg} {es : List Event} {s0 s1 : PState} (h0 : initParser c = .ok s0)
    (h1 : feed u c s0 es = .ok s1) (hi : InPlace c es) (place : Str) (hne : place ≠ py"inline") (i : Nat) (n : Node)
    (hn : s1.dom.nodes[i]? = some n) : placed c place n = false := by
  have hlab : Labelled s1.dom es := by
    rw [initParser_eq h0] at h1
    have := feed_labelled (s := {}) (es := []) init_inv init_labelled h1
    simpa using this
  have hlt : i < (es.filter creates).length := by rw [← hlab.1]; exact getElem?_lt hn
  obtain ⟨m, hm, hl⟩ := hlab.2 i _ (List.getElem?_eq_getElem hlt)
  rw [hn] at hm; cases hm
  have hmem : (es.filter creates)[i] ∈ es := (List.mem_filter.1 (List.getElem_mem hlt)).1
  generalize (es.filter creates)[i] = e at hl hmem
  cases e with
  | stop t => exact hl.elim
  | data t => simp [placed, hl.1]
  | start tag attrs =>
    obtain ⟨q1, q2⟩ := hi tag attrs hmem
    simp only [placed, hl.1, Bool.or_eq_false_iff, Bool.and_eq_false_iff, decide_eq_false_iff_not]
    constructor
    · by_cases ht : tag = py"a"
      · exact .inr (by rw [q1 ht]; exact fun e => hne e.symm)
      · exact .inl ht
    · by_cases ht : tag = py"img"
      · exact .inr (by rw [q2 ht]; exact fun e => hne e.symm)
      · exact .inl ht

theorem framed_fit {u : Uni} {c : Cfg} {w : Int} (h0 : 0 ≤ w) (hm : 0 ≤ c.pageBox.margin.left) {parts : List Str}
    (h : AllFit u w parts.flatten) : CutFit u (c.pageBox.margin.left + w) (framed c parts) := by
  have newl : ∀ (k : Nat) (x : Str), CutFit u (c.pageBox.margin.left + w) x →
      CutFit u (c.pageBox.margin.left + w) (List.replicate k '\n' ++ x) ∧ CutFit u (c.pageBox.margin.left + w) (x ++ List.replicate k '\n') := by
    intro k
    induction k with
    | zero => intro x hx; simpa using hx
    | succ k ih =>
      intro x hx
      obtain ⟨i1, i2⟩ := ih x hx
      have hnil : CutFit u (c.pageBox.margin.left + w) [] := cutFit_nil (by omega)
      constructor
      · exact (cutFit_brk (c := '\n') (a := []) (by decide)).2 ⟨hnil, i1⟩
      · have e : x ++ List.replicate (k + 1) '\n' = (x ++ List.replicate k '\n') ++ '\n' :: [] := by
          rw [List.replicate_succ', List.append_assoc]
        rw [e]
        exact (cutFit_brk (by decide)).2 ⟨i2, hnil⟩
  have hb : CutFit u (c.pageBox.margin.left + w) (indentBody c.pageBox parts) := by
    have e : indentBody c.pageBox parts = indentLines (rep ' ' c.pageBox.margin.left) true parts.flatten := by
      rw [← indent_eq]; rfl
    rw [e]
    have := cutFit_indent (pad := rep ' ' c.pageBox.margin.left) (u := u) (w := w) (by simp [rep, List.mem_replicate])
      (by intro x hx; rw [rep, List.mem_replicate] at hx; rw [hx.2]; decide) true _ (allFit_cuts h0 h)
    have hl : ((rep ' ' c.pageBox.margin.left).length : Int) = c.pageBox.margin.left := by simp [rep]; omega
    rwa [hl] at this
  unfold framed rep
  exact (newl _ _ (newl _ _ hb).1).2

/-- A page of blocks that fit, and of something after them. -/
theorem page_fit {u : Uni} {c : Cfg} {es : List Event} {s : PState} (h : Rendered u c es s) (hr : c.renderers = [])
    (hdef : ∀ j tag, HasTag s.dom j tag → Unstyled tag → c.defaultRenderer = .cls .renderer)
    {width : Int} {margin padding border : Sides} {template : Option Str}
    (hbox : c.pageBox = Box.new width margin padding border template none)
    (hm : 0 ≤ margin.left) (hp : 0 ≤ padding.left ∧ 0 ≤ padding.right) (hb : 0 ≤ border.left ∧ 0 ≤ border.right)
    (hw : 0 ≤ width - margin.left - margin.right) (hpend : ∀ (j : Nat) (n : Node), s.dom.nodes[j]? = some n → n.pending = [])
    (hs : Spaced s.dom s.dom.roots)
    (hf : ∀ j ∈ s.dom.roots, ¬ BlankText s.dom j → Fits u s.dom (width - margin.left - margin.right) j)
    {fuel : Nat} {body foot : Str} {parts : List Str} (hbody : renderAll (textOf u s fuel c.pageBox) s.dom.roots = .ok body)
    (hfoot : AllFit u (width - margin.left - margin.right) foot) (hq : Quiet foot) (hparts : parts.flatten = body ++ foot)
    (hparsed : s.parsed = if c.optimise = true then optimise (framed c parts) else framed c parts)
    {ls : List Str} (hl : Lines s.parsed ls) : ∀ l ∈ ls, VisibleLe u (rstrip l) (width - margin.right) := by
  have hroom : textRoom c.pageBox ≤ width - margin.left - margin.right := by
    rw [hbox]
    simp only [Box.new, textRoom, room]
    omega
  have hfit : AllFit u (width - margin.left - margin.right) body :=
    children_fit hw _ hs (fun j _ hb y hy => blank_textOf hb hy)
      (fun j hj hb y hy => node_fit h hr hpend hdef (hf j hj hb) _ _ y hw hroom hy) hbody
  have hml : c.pageBox.margin.left = margin.left := by rw [hbox]; rfl
  have hfr := framed_fit (c := c) hw (by rw [hml]; exact hm) (parts := parts) (by rw [hparts]; exact allFit_append hw hfit hfoot hq)
  rw [hml, show margin.left + (width - margin.left - margin.right) = width - margin.right by omega] at hfr
  have hcut : CutFit u (width - margin.right) s.parsed := by
    rw [hparsed]
    split
    · exact cutFit_optimise (by omega) hfr
    · exact hfr
  intro l hm
  rw [visibleLe_iff]
  exact lineFit_rstrip (by omega) (cutFit_lines hcut hl l hm)

/-- No line of the output is wider than the page, whitespace at its end aside. Missing: documents with text that is not
wrapped and does not fit (`C55_term_fails`, `C55_quote_fails`, `C55_code_fails`, `C55_text_fails`), and those with text or
whitespace between the start tag of a list or quote and its first block (`C55_mixed_fails`, `C55_blank_fails`,
`C55_blank_list_fails`). For links in the footer see `C55_footer`, for links after blocks and for themes `C55_page` and
`C55_theme`. -/
theorem C55_partial (u : Uni) (c : Cfg) (es : List Event) (s : PState) (h : Rendered u c es s) (hr : c.renderers = [])
    (hdef : ∀ j tag, HasTag s.dom j tag → Unstyled tag → c.defaultRenderer = .cls .renderer)
    (width : Int) (margin padding border : Sides) (template : Option Str)
    (hbox : c.pageBox = Box.new width margin padding border template none)
    (hm : 0 ≤ margin.left) (hp : 0 ≤ padding.left ∧ 0 ≤ padding.right) (hb : 0 ≤ border.left ∧ 0 ≤ border.right)
    (hw : 0 ≤ width - margin.left - margin.right) (hi : InPlace c es) (hs : Spaced s.dom s.dom.roots)
    (hf : ∀ j ∈ s.dom.roots, ¬ BlankText s.dom j → Fits u s.dom (width - margin.left - margin.right) j)
    (ls : List Str) (hl : Lines s.parsed ls) : ∀ l ∈ ls, VisibleLe u (rstrip l) (width - margin.right) := by
  have h' := h
  obtain ⟨s0, s1, e0, e1, e2, hdom, -, hlinv, -⟩ := rendered_inv h
  have hpend : ∀ (j : Nat) (n : Node), s.dom.nodes[j]? = some n → n.pending = [] := by
    intro j n hn
    rw [hdom] at hn
    rw [hlinv.pending j n hn, List.eq_nil_iff_forall_not_mem]
    intro k hk
    obtain ⟨m, m1, m2⟩ := mem_nodesWhere.1 hk
    rw [pendingOf, inPlace_placed e0 e1 hi _ (by decide) k m m1] at m2
    cases m2
  have hfoot : s1.footer = [] := by
    rw [hlinv.footer, List.eq_nil_iff_forall_not_mem]
    intro k hk
    obtain ⟨m, m1, m2⟩ := mem_nodesWhere.1 hk
    rw [inPlace_placed e0 e1 hi _ (by decide) k m m1] at m2
    cases m2
  have hparts : s1.parts = [] := hlinv.log.1
  have hpop : popStack s1.dom s1.stack.reverse = s1.dom := popStack_eq (reach_inv e0 e1) (by simp)
  obtain ⟨t, bodies, foot, -, c2, c3, c4⟩ := close_ok hpop e2
  have hft : foot = [] := by
    rw [footerParts, if_neg (by rw [hfoot]; simp)] at c3
    cases c3; rfl
  have hassigned : s.assigned = t := by rw [c4]
  have hall : renderAll (textOf u s s1.dom.fuel c.pageBox) s.dom.roots = .ok bodies.flatten := by
    rw [renderAll_mapM]
    show Except.map _ (s.dom.roots.mapM (renderNode u s.dom s.assigned s1.dom.fuel false c.pageBox)) = _
    rw [hdom, hassigned, c2]
    rfl
  exact page_fit h' hr hdef hbox hm hp hb hw hpend hs hf hall (allFit_nil hw) quiet_nil (parts := s1.parts ++ bodies ++ foot)
    (by rw [hparts, hft]; simp) (by rw [c4]) hl

/-! ### The hypotheses can be met -/

/-- A page of 9 columns, one of them a margin. -/
def c55Cfg : Cfg := { box := some (Box.new 9 ⟨0, 0, 0, 1⟩ {} {} none none) }

/-- `<blockquote><p>abc def</p></blockquote><dl><dt>ghi</dt><dd>jk lm no</dd></dl>` -/
def c55Events : List Event :=
  [.start py"blockquote" [], .start py"p" [], .data py"abc def", .stop py"p", .stop py"blockquote",
   .start py"dl" [], .start py"dt" [], .data py"ghi", .stop py"dt", .start py"dd" [], .data py"jk lm no", .stop py"dd", .stop py"dl"]

theorem spaced_one (d : Dom) (i : Nat) : Spaced d [i] := by
  intro before j after e _
  cases before with
  | nil => rfl
  | cons b bs => simp at e

theorem hasTag_iff (d : Dom) (j : Nat) (t : Str) : HasTag d j t ↔ (d.nodes[j]?).bind Node.tag = some t := by
  unfold HasTag
  cases d.nodes[j]? with
  | none => simp
  | some m => simp

theorem spaced_two {d : Dom} {i j : Nat} {t : Str} (ht : HasTag d j t) (hn : t ∉ [py"p", py"li", py"dt"]) : Spaced d [i, j] := by
  intro before k after e hk
  simp only [List.mem_cons, List.not_mem_nil, or_false, not_or] at hn
  have key : ∀ t', HasTag d j t' → t' = t := by
    intro t' h
    rw [hasTag_iff] at ht h
    rw [ht] at h; cases h; rfl
  cases before with
  | nil => rfl
  | cons b bs =>
    cases bs with
    | nil =>
      simp only [List.cons_append, List.nil_append, List.cons.injEq] at e
      obtain ⟨-, rfl, -⟩ := e
      rcases hk.2 with ⟨hk, -⟩ | ⟨hk, -⟩ | hk
      · exact absurd (key _ hk).symm hn.1
      · exact absurd (key _ hk).symm hn.2.1
      · exact absurd (key _ hk).symm hn.2.2
    | cons b' bs => simp at e

set_option maxRecDepth 20000 in
example : ∃ s, Rendered asciiUni c55Cfg c55Events s ∧ c55Cfg.renderers = [] ∧ InPlace c55Cfg c55Events ∧
    Spaced s.dom s.dom.roots ∧ (∀ j ∈ s.dom.roots, ¬ BlankText s.dom j → Fits asciiUni s.dom 8 j) ∧
    s.parsed = py"\n > abc\n > def\n\n ghi\n : jk lm\n   no\n" := by
  refine ⟨_, ⟨_, _, rfl, rfl, rfl⟩, rfl, ?_, ?_, ?_, by decide⟩
  · intro tag attrs h
    simp only [c55Events, List.mem_cons, List.not_mem_nil, or_false, Event.start.injEq, reduceCtorEq, false_or, or_false] at h
    refine ⟨?_, ?_⟩ <;> rintro rfl <;> simp at h
  · exact spaced_two (i := 0) (j := 3) (t := py"dl") ((hasTag_iff _ _ _).2 (by decide)) (by decide)
  · intro j hj _
    have : j ∈ [0, 3] := hj
    simp only [List.mem_cons, List.not_mem_nil, or_false] at this
    rcases this with rfl | rfl
    · refine .quote rfl rfl (by decide) (spaced_one _ 1) ?_
      intro k hk _
      have : k ∈ [1] := hk
      rw [List.mem_singleton.1 this]
      refine .paragraph ((hasTag_iff _ _ _).2 (by decide)) ?_
      rw [← skip_iff rfl]
      decide
    · refine .list rfl rfl (by decide) (spaced_two (i := 4) (j := 6) (t := py"dd") ((hasTag_iff _ _ _).2 (by decide)) (by decide)) ?_
      intro k hk _
      have : k ∈ [4, 6] := hk
      simp only [List.mem_cons, List.not_mem_nil, or_false] at this
      rcases this with rfl | rfl
      · exact .term (text := py"ghi" ++ []) rfl rfl (.text rfl rfl .nil) ((visibleLe_iff _ _ _).2 (by decide))
      · exact .description ((hasTag_iff _ _ _).2 (by decide))

/-- `<body> <h1><em>b</em></h1> <pre><code>x⏎y z</code></pre><div><p><code>c</code></p></div></body>` -/
def c55Body : List Event :=
  [.start py"body" [], .data py" ", .start py"h1" [], .start py"em" [], .data py"b", .stop py"em", .stop py"h1",
   .data py" ", .start py"pre" [], .start py"code" [], .data py"x\ny z", .stop py"code", .stop py"pre", .start py"div" [],
   .start py"p" [], .start py"code" [], .data py"c", .stop py"code", .stop py"p", .stop py"div", .stop py"body"]

theorem not_flush {d : Dom} {j : Nat} {t : Option Str} (ht : (d.nodes[j]?).bind Node.tag = t)
    (hn : t ∉ [some py"p", some py"li", some py"dt"]) : ¬ Flush d j := by
  rintro ⟨-, h⟩
  rcases h with ⟨h, -⟩ | ⟨h, -⟩ | h <;>
  · rw [hasTag_iff, ht] at h
    exact hn (by rw [h]; simp)

theorem childOf_mem (d : Dom) (t : Str) (j : Nat) : ChildOf d t j ↔ ∃ n ∈ d.nodes, n.tag = some t ∧ j ∈ n.children := by
  constructor
  · rintro ⟨i, ⟨n, hn, hc⟩, m, hm, ht⟩
    rw [hn] at hm; cases hm
    exact ⟨n, List.mem_of_getElem? hn, ht, hc⟩
  · rintro ⟨n, hn, ht, hc⟩
    obtain ⟨i, hi⟩ := List.getElem?_of_mem hn
    exact ⟨i, ⟨n, hi, hc⟩, n, hi, ht⟩

set_option maxRecDepth 20000 in
example : ∃ s, Rendered asciiUni c55Cfg c55Body s ∧ (∀ j tag, HasTag s.dom j tag → Unstyled tag → c55Cfg.defaultRenderer = .cls .renderer) ∧
    Spaced s.dom s.dom.roots ∧ (∀ j ∈ s.dom.roots, ¬ BlankText s.dom j → Fits asciiUni s.dom 8 j) ∧
    s.parsed = py"\n # _b_ #\n\n     x\n     y z\n\n `c`\n" := by
  refine ⟨_, ⟨_, _, rfl, rfl, rfl⟩, fun _ _ _ _ => rfl, spaced_one _ 0, ?_, ?_⟩
  · intro j hj _
    have : j ∈ [0] := hj
    rw [List.mem_singleton.1 this]
    refine .around (tag := py"body") rfl rfl (.inr (by unfold Unstyled; decide)) ?_ ?_
    · intro j hj
      have : j ∈ [1, 2, 5, 6, 9] := hj
      simp only [List.mem_cons, List.not_mem_nil, or_false] at this
      rcases this with rfl | rfl | rfl | rfl | rfl <;> exact not_flush rfl (by decide)
    · intro j hj hb
      have : j ∈ [1, 2, 5, 6, 9] := hj
      simp only [List.mem_cons, List.not_mem_nil, or_false] at this
      rcases this with rfl | rfl | rfl | rfl | rfl
      · exact absurd ⟨_, py" ", rfl, rfl, by unfold Blank; decide⟩ hb
      · exact .header (tag := py"h1") (level := 1) (text := py"_" ++ (py"b" ++ []) ++ py"_" ++ []) rfl rfl (by decide)
          (.marked (tag := py"em") rfl rfl (by decide) (.text rfl rfl .nil) .nil) ((visibleLe_iff _ _ _).2 (by decide))
      · exact absurd ⟨_, py" ", rfl, rfl, by unfold Blank; decide⟩ hb
      · refine .pre (text := py"x\ny z" ++ [] ++ []) rfl rfl (.block rfl rfl ?_ (.text rfl rfl .nil) .nil) ?_
        · rw [childOf_mem]; decide
        · intro ls hls l hl
          rw [← lines_splitlines hls] at hl
          have : l ∈ [py"x", py"y z"] := hl
          simp only [List.mem_cons, List.not_mem_nil, or_false] at this
          rcases this with rfl | rfl <;> exact (visibleLe_iff _ _ _).2 (by decide)
      · refine .around (tag := py"div") rfl rfl (.inl rfl) ?_ ?_
        · intro j hj
          have : j ∈ [10] := hj
          rw [List.mem_singleton.1 this]
          rintro ⟨-, ⟨-, h⟩ | ⟨h, -⟩ | h⟩
          · rw [childOf_mem] at h; revert h; decide
          · rw [hasTag_iff] at h; revert h; decide
          · rw [hasTag_iff] at h; revert h; decide
        · intro j hj _
          have : j ∈ [10] := hj
          rw [List.mem_singleton.1 this]
          refine .codeOnly (text := py"`" ++ (py"c" ++ []) ++ py"`" ++ []) rfl rfl ?_ (.code rfl rfl ?_ (.text rfl rfl .nil) (by decide) .nil)
            ((visibleLe_iff _ _ _).2 (by decide))
          · rw [← skip_iff rfl]; decide
          · rw [childOf_mem]; decide
  · decide

/-! ### Documents that do not fit -/

/-- A page of 9 columns. -/
def c55Page : Cfg := { box := some (Box.new 9 {} {} {} none none) }

/-- The term of a definition list is not wrapped: the line has 11 columns. -/
theorem C55_term_fails : renderEvents asciiUni c55Page
    [.start py"dl" [], .start py"dt" [], .data py"abc def ghi", .stop py"dt", .stop py"dl"] = .ok py"\nabc def ghi\n" := by decide

/-- Text that is directly in a block quote is not wrapped. -/
theorem C55_quote_fails : renderEvents asciiUni c55Page
    [.start py"blockquote" [], .data py"abc def ghi", .stop py"blockquote"] = .ok py"\n> abc def ghi\n" := by decide

/-- Text that follows a paragraph in a block quote is put beside the paragraph. -/
theorem C55_mixed_fails : renderEvents asciiUni c55Page
    [.start py"blockquote" [], .start py"p" [], .data py"abc", .stop py"p", .data py"defg", .stop py"blockquote"] =
      .ok py"\n> abc    defg\n" := by decide

/-- A line break between `<blockquote>` and `<p>` moves the first row by one column: it has 10. -/
theorem C55_blank_fails : renderEvents asciiUni c55Page
    [.start py"blockquote" [], .data py"\n", .start py"p" [], .data py"abc efg h", .stop py"p", .stop py"blockquote"] =
      .ok py"\n>  abc efg\n> h\n" := by decide

/-- The same for a list. -/
theorem C55_blank_list_fails : renderEvents asciiUni c55Page
    [.start py"ul" [], .data py"\n", .start py"li" [], .data py"abc efg h", .stop py"li", .stop py"ul"] =
      .ok py"\n * abc efg\n  h\n" := by decide

/-- A paragraph that consists of code is not wrapped. -/
theorem C55_code_fails : renderEvents asciiUni c55Page
    [.start py"p" [], .start py"code" [], .data py"abc def ghi", .stop py"code", .stop py"p"] = .ok py"\n`abc def ghi`\n" := by decide

/-- Text outside of all elements is not wrapped. -/
theorem C55_text_fails : renderEvents asciiUni c55Page [.data py"abc def ghi"] = .ok py"abc def ghi" := by decide

/-- So the claim without conditions is false. -/
theorem C55_fails : ¬ ∀ (u : Uni) (c : Cfg) (es : List Event) (s : PState) (width : Int), Rendered u c es s → c.renderers = [] →
    c.pageBox = Box.new width {} {} {} none none → (∀ e ∈ es, ∀ tag attrs, e = .start tag attrs →
      tag ∈ [py"p", py"blockquote", py"ul", py"ol", py"li", py"dl", py"dt", py"dd"]) → ∀ ls, Lines s.parsed ls →
      ∀ l ∈ ls, VisibleLe u (rstrip l) width := by
  intro h
  have := h asciiUni c55Page [.start py"blockquote" [], .data py"\n", .start py"p" [], .data py"abc efg h", .stop py"p", .stop py"blockquote"]
    _ 9 ⟨_, _, rfl, rfl, rfl⟩ rfl rfl (by
      intro e he tag attrs h
      subst h
      simp only [List.mem_cons, List.not_mem_nil, or_false, Event.start.injEq, reduceCtorEq, false_or] at he
      rcases he with ⟨rfl, -⟩ | ⟨rfl, -⟩ <;> decide)
    [[], py">  abc efg", py"> h"] ((lines_iff _ _).2 (by decide)) py">  abc efg" (by simp)
  rw [visibleLe_iff] at this
  revert this
  decide

end Verif
