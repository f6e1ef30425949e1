import Verif.Proofs.Continued
import Verif.Props.Footer

/-!
# C86: what is added at the end
-/

namespace Verif

open Spec

theorem rendered_continued {u : Uni} {c : Cfg} {es more : List Event} {s0 s t : PState} (h0 : initParser c = .ok s0) (h : feed u c s0 es = .ok s)
    (ho : openTags es = []) (h' : feed u c s more = .ok t) : Continued s.dom t.dom := by
  have hinv := reach_inv h0 h
  have hst : s.stack = [] := by
    have := (tagParent_open h0 h).1
    cases hl : s.stack.getLast? with
    | none => simpa using hl
    | some j =>
      have hj : tagParent s = .node j := by simp only [tagParent, getTop_of_inv hinv, hl]
      exact absurd ho (this ⟨j, hj⟩)
  refine feed_continued hinv ⟨fun i n hn => ⟨n, hn, rfl, rfl, rfl, rfl⟩, by omega, ⟨[], by simp, by simp⟩, fun i n hi hn => ?_⟩ ?_ h'
  · have := getElem?_lt hn; omega
  · rw [hst]; simp

theorem attrText_prefix (es more : List Event) {i : Nat} (hi : i < (es.filter creates).length) (k : Str) :
    attrText es i k = attrText (es ++ more) i k := by
  simp only [attrText, srcAttrs, List.filter_append, List.getElem?_append_left hi]

theorem continued_split {u : Uni} {c : Cfg} {es more : List Event} {s s' : PState} (h : Rendered u c es s) (h' : Rendered u c (es ++ more) s')
    (ho : openTags es = []) : Continued s.dom s'.dom := by
  obtain ⟨s0, s1, e0, e1, -, hdom, -⟩ := rendered_inv h
  obtain ⟨t0, t1, f0, f1, -, fdom, -⟩ := rendered_inv h'
  rw [e0] at f0; cases f0
  rw [feed_append, e1] at f1
  rw [hdom, fdom]
  exact rendered_continued e0 e1 ho f1

theorem continued_draws {u : Uni} {c : Cfg} {es more : List Event} {s s' : PState} (h : Rendered u c es s) (h' : Rendered u c (es ++ more) s')
    (ho : openTags es = []) (hr : c.renderers = []) {limit : Nat} {p r : Int} {listed : Bool} {is : List Nat} {x : Str}
    (g : Draws u c es s.dom noOwnStyle limit p listed r is x) : Draws u c (es ++ more) s'.dom noOwnStyle limit p listed r is x := by
  obtain ⟨s0, s1, e0, e1, -, hdom, hinv, -⟩ := rendered_inv h
  obtain ⟨t0, t1, f0, f1, -, fdom, hinv', -⟩ := rendered_inv h'
  refine (continued_split h h' ho).draws hinv hinv' hr (fun i hi k => attrText_prefix es more ?_ k) g
  rw [hdom, (C28 u c s0 s1 es e0 e1).2.1] at hi
  exact hi

theorem draws_append {u : Uni} {c : Cfg} {es : List Event} {d : Dom} {own : OwnStyle} {limit : Nat} {p r : Int} {listed : Bool} {is js : List Nat} {x : Str}
    (h : Draws u c es d own limit p listed r (is ++ js) x) :
    ∃ a b, x = a ++ b ∧ Draws u c es d own limit p listed r is a ∧ Draws u c es d own limit p listed r js b := by
  generalize hl : is ++ js = l at h
  induction h generalizing is with
  | nil =>
    obtain ⟨rfl, rfl⟩ := List.append_eq_nil_iff.1 hl
    exact ⟨[], [], rfl, .nil, .nil⟩
  | text hn hd hx ih =>
    cases is with
    | nil => exact ⟨[], _, rfl, .nil, by subst hl; exact .text hn hd hx⟩
    | cons i is =>
      cases hl
      obtain ⟨a, b, e, k1, k2⟩ := ih rfl
      exact ⟨_, b, by rw [e, ← List.append_assoc], .text hn hd k1, k2⟩
  | elem hn ht hy hz hsh hx _ _ ih =>
    cases is with
    | nil => exact ⟨[], _, rfl, .nil, by subst hl; exact .elem hn ht hy hz hsh hx⟩
    | cons i is =>
      cases hl
      obtain ⟨a, b, e, k1, k2⟩ := ih rfl
      exact ⟨_, b, by rw [e, ← List.append_assoc], .elem hn ht hy hz hsh k1, k2⟩
  | entry hn ht hm hy hsh hx _ ih =>
    cases is with
    | nil => exact ⟨[], _, rfl, .nil, by subst hl; exact .entry hn ht hm hy hsh hx⟩
    | cons i is =>
      cases hl
      obtain ⟨a, b, e, k1, k2⟩ := ih rfl
      exact ⟨_, b, by rw [e, ← List.append_assoc], .entry hn ht hm hy hsh k1, k2⟩

theorem continued_footNodes {d d' : Dom} (h : Continued d d') (c : Cfg) : footNodes c d <+: footNodes c d' := by
  unfold footNodes
  split
  · obtain ⟨more, e, -⟩ := h.nodesWhere (p := placed c py"footer") (fun n n' e _ => by simp only [placed, e])
    exact ⟨more, e.symm⟩
  · exact List.prefix_refl _

/-- Going on after a document does not change what is already on the page: if all elements are closed, then what the document looks like is
followed by what is added, piece by piece, and so is the list of links. -/
theorem C86 (u : Uni) (c : Cfg) (es more : List Event) (s s' : PState) (h : Rendered u c es s) (h' : Rendered u c (es ++ more) s')
    (ho : openTags es = []) (hr : c.renderers = []) (hd : c.defaultRenderer = .cls .renderer) (limit : Nat) (hlim : LimitIs c limit)
    (parts parts' : List Str) (foot foot' : Str) (hp : PageParts u c es s limit parts foot)
    (hp' : PageParts u c (es ++ more) s' limit parts' foot') : parts <+: parts' ∧ foot <+: foot' := by
  have hc := continued_split h h' ho
  have huniq : ∀ {listed : Bool} {is : List Nat} {x y : Str},
      Draws u c (es ++ more) s'.dom noOwnStyle limit (c.pageBox.totalPadding.left + c.pageBox.totalPadding.right) listed (room c.pageBox) is x →
      Draws u c (es ++ more) s'.dom noOwnStyle limit (c.pageBox.totalPadding.left + c.pageBox.totalPadding.right) listed (room c.pageBox) is y → x = y :=
    fun a b => draws_unique h' (ownTable_nil hr) (fun _ _ _ _ => hd) hlim (fun _ _ _ _ _ g => (no_own hr g).elim) a b
  constructor
  · obtain ⟨rs, hrs, -⟩ := hc.roots
    rw [List.prefix_iff_eq_take]
    apply List.ext_getElem?
    intro k
    by_cases hk : k < parts.length
    · rw [List.getElem?_take_of_lt hk]
      have hk' : k < s.dom.roots.length := hp.1 ▸ hk
      obtain ⟨x, e1, g1⟩ := hp.2.1 k _ (List.getElem?_eq_getElem hk')
      obtain ⟨y, e2, g2⟩ := hp'.2.1 k (s.dom.roots[k]) (by rw [hrs, List.getElem?_append_left hk', List.getElem?_eq_getElem hk'])
      rw [e1, e2, huniq (continued_draws h h' ho hr g1) g2]
    · rw [List.getElem?_eq_none (by omega), List.getElem?_eq_none (by simp; omega)]
  · obtain ⟨fs, hfs⟩ := continued_footNodes hc c
    have g := hp'.2.2.1
    rw [← hfs] at g
    obtain ⟨a, b, rfl, g1, -⟩ := draws_append g
    rw [huniq (continued_draws h h' ho hr hp.2.2.1) g1]
    exact ⟨b, rfl⟩

/-! ## The text of the page -/

theorem rstrip_prefix (l z : Str) : rstrip l <+: rstrip (l ++ z) := by
  obtain ⟨t, e, ht⟩ := rstrip_split (l ++ z)
  obtain ⟨t', e', -⟩ := rstrip_split l
  have h1 : rstrip l <+: l ++ z := ⟨t' ++ z, by rw [← List.append_assoc, ← e']⟩
  have h2 : rstrip (l ++ z) <+: l ++ z := ⟨t, e.symm⟩
  rcases List.prefix_or_prefix_of_prefix h1 h2 with h | h
  · exact h
  · obtain ⟨w, hw⟩ := h
    rcases List.eq_nil_or_concat w with rfl | ⟨w', x, rfl⟩
    · rw [← hw]; simp
    · exfalso
      have hx : isSpace x = false := rstrip_end l x (by rw [← hw]; simp)
      have hmem : x ∈ t := by
        obtain ⟨v, hv⟩ := h1
        rw [e, ← hw] at hv
        have : (w' ++ [x]) ++ v = t := by
          have : rstrip (l ++ z) ++ ((w' ++ [x]) ++ v) = rstrip (l ++ z) ++ t := by rw [← hv]; simp
          exact List.append_cancel_left this
        rw [← this]; simp
      have := ht x hmem
      rw [hx] at this; cases this

theorem last_line (a : Str) : '\n' ∉ a ∨ ∃ b l, a = b ++ '\n' :: l ∧ '\n' ∉ l := by
  induction a with
  | nil => exact .inl (by simp)
  | cons x a ih =>
    rcases ih with h | ⟨b, l, rfl, h⟩
    · by_cases hx : x = '\n'
      · subst hx; exact .inr ⟨[], a, rfl, h⟩
      · exact .inl (by simp [h, Ne.symm hx])
    · exact .inr ⟨x :: b, l, rfl, h⟩

theorem first_line (a : Str) : '\n' ∉ a ∨ ∃ l b, a = l ++ '\n' :: b ∧ '\n' ∉ l := by
  induction a with
  | nil => exact .inl (by simp)
  | cons x a ih =>
    by_cases hx : x = '\n'
    · subst hx; exact .inr ⟨[], a, rfl, by simp⟩
    · rcases ih with h | ⟨l, b, rfl, h⟩
      · exact .inl (by simp [h, Ne.symm hx])
      · exact .inr ⟨x :: l, b, rfl, by simp [h, Ne.symm hx]⟩

theorem optimise_line {l : Str} (h : '\n' ∉ l) : optimise l = rstrip l := by
  simp [optimise, splitCh_none _ _ h, join]

theorem optimise_prefix (a b : Str) : optimise a <+: optimise (a ++ b) := by
  have key : ∀ l : Str, '\n' ∉ l → optimise l <+: optimise (l ++ b) := by
    intro l hl
    rw [optimise_line hl]
    rcases first_line b with hb | ⟨k, r, rfl, hk⟩
    · rw [optimise_line (by simp [hl, hb])]
      exact rstrip_prefix l b
    · rw [← List.append_assoc, optimise_split, optimise_line (by simp [hl, hk])]
      exact (rstrip_prefix l k).trans (List.prefix_append _ _)
  rcases last_line a with h | ⟨c, l, rfl, h⟩
  · exact key a h
  · rw [List.append_assoc, List.cons_append, optimise_split, optimise_split]
    exact (List.prefix_append_right_inj _).2 (List.cons_prefix_cons.2 ⟨rfl, key l h⟩)

theorem indentLines_prefix (pad : Str) (st : Bool) (a b : Str) : indentLines pad st a <+: indentLines pad st (a ++ b) := by
  induction a generalizing st with
  | nil => simp [indentLines]
  | cons x a ih =>
    simp only [List.cons_append, indentLines]
    refine (List.prefix_append_right_inj _).2 (List.cons_prefix_cons.2 ⟨rfl, ?_⟩)
    cases a with
    | nil => simp [indentLines]
    | cons y a => exact ih _

theorem continued_room {d d' : Dom} {src src'} (h : Continued d d') (hinv : SelInv d src) (hinv' : SelInv d' src') {w : Int} (g : HasRoom d' [] w) :
    HasRoom d [] w := by
  have hu : ∀ (d : Dom) i, Untouched d [] i := by intro d i r hr; cases hr
  have hm : ∀ {i k}, i < d.nodes.length → Marker d [] i k → Marker d' [] i k := by
    intro i k hi g
    have hb : ∀ {t}, ¬ HasTag d i t → ¬ HasTag d' i t := fun a k => a (h.hasTag_back hi k)
    cases g with
    | themed a => exact absurd (hu d i) a
    | quote _ a => exact .quote (hu _ _) (h.hasTag a)
    | description _ a => exact .description (hu _ _) (h.hasTag a)
    | bullet _ a b => exact .bullet (hu _ _) (h.hasTag a) (fun k => b (h.childOf_back hinv' hi k))
    | number _ a b c =>
      obtain ⟨-, more, k, -⟩ := h.around hinv c
      exact .number (hu _ _) (h.hasTag a) (h.childOf b) k
    | nothing _ a b c => exact .nothing (hu _ _) (hb a) (hb b) (hb c)
  have hw : ∀ {r i k}, Within d [] r i k → r < d.nodes.length → Within d' [] r i k ∧ i < d.nodes.length := by
    intro r i k g
    induction g with
    | self a => exact fun hi => ⟨.self (hm hi a), hi⟩
    | child a b _ ih =>
      intro hi
      obtain ⟨n, h1, h2⟩ := b
      obtain ⟨-, m, hk, -⟩ := (hinv.node _ n h1).child _ h2
      obtain ⟨k1, k2⟩ := ih (getElem?_lt hk)
      exact ⟨.child (hm hi a) (h.parentOf ⟨n, h1, h2⟩) k1, k2⟩
  intro r hr i k hwi hp
  obtain ⟨m, hmr, -⟩ := hinv.root r hr
  obtain ⟨k1, k2⟩ := hw hwi (getElem?_lt hmr)
  obtain ⟨more, e, -⟩ := h.roots
  refine g r (by rw [e]; exact List.mem_append_left _ hr) i k k1 ⟨hu _ _, ?_⟩
  rcases hp.2 with ⟨a, b⟩ | a | a
  · exact .inl ⟨h.hasTag a, fun k => b (h.onlyCode_back hinv k2 k)⟩
  · exact .inr (.inl (h.hasTag a))
  · exact .inr (.inr (h.hasTag a))

/-- The text of a document without a list of links is the beginning of the text of every document that begins with it. -/
theorem C86_page (u : Uni) (c : Cfg) (es more : List Event) (ho : openTags es = []) (hr : c.renderers = []) (hl : c.linkRenderers = [])
    (hd : c.defaultRenderer = .cls .renderer) (hb : c.pageBox.margin.bottom ≤ 0)
    (hf : c.linkPlacement = py"footer" → ∀ t a, .start t a ∈ es ++ more → t ≠ py"a" ∧ (t = py"img" → c.imagePlacement ≠ py"footer"))
    (page' : Str) (h : renderEvents u c (es ++ more) = .ok page') : ∃ page, renderEvents u c es = .ok page ∧ page <+: page' := by
  obtain ⟨s', h', rfl⟩ := renderEvents_rendered.1 h
  obtain ⟨s0, t1, e0, f1, f2, fdom, hinv', -⟩ := rendered_inv h'
  have f1' := f1
  rw [feed_append] at f1'
  cases e1 : feed u c s0 es with
  | error x => rw [e1] at f1'; cases f1'
  | ok s1 =>
    rw [e1] at f1'
    have hc := rendered_continued e0 e1 ho f1'
    have hinv := reach_selInv e0 e1
    have hroom : HasRoom t1.dom [] (textRoom c.pageBox) := by
      apply Classical.byContradiction
      intro hn
      have := (C65 u c [] (es ++ more) s0 t1 hr (.inl rfl) hl hd e0 f1).2 hn
      rw [f2] at this; cases this
    obtain ⟨s, e2⟩ := (C65 u c [] es s0 s1 hr (.inl rfl) hl hd e0 e1).1 (continued_room hc hinv (fdom ▸ hinv') hroom)
    have hs : Rendered u c es s := ⟨s0, s1, e0, e1, e2⟩
    refine ⟨s.parsed, renderEvents_rendered.2 ⟨s, hs, rfl⟩, ?_⟩
    obtain ⟨parts, foot, hp⟩ := C85_parts u c es s hs hr hd 10 (.inl ⟨hl, rfl⟩)
    obtain ⟨parts', foot', hp'⟩ := C85_parts u c _ s' h' hr hd 10 (.inl ⟨hl, rfl⟩)
    obtain ⟨⟨rest, k1⟩, -⟩ := C86 u c es more s s' hs h' ho hr hd 10 (.inl ⟨hl, rfl⟩) _ _ _ _ hp hp'
    have hfoot' : footNodes c s'.dom = [] := by
      unfold footNodes
      split
      · rename_i hpl
        rw [List.eq_nil_iff_forall_not_mem]
        intro i hi
        simp only [nodesWhere, List.mem_filter, List.mem_range] at hi
        obtain ⟨hi1, hi2⟩ := hi
        rw [List.getElem?_eq_getElem hi1] at hi2
        have hlen := (C28 u c s0 t1 _ e0 f1).2.1
        rw [fdom, hlen] at hi1
        obtain ⟨n, g1, g2⟩ := (C28 u c s0 t1 _ e0 f1).2.2 i _ (List.getElem?_eq_getElem hi1)
        have hmem := (List.mem_filter.1 (List.getElem_mem hi1)).1
        revert g2 hmem
        generalize ((es ++ more).filter creates)[i] = e
        intro g2 hmem
        rw [← fdom] at g1
        have hn : s'.dom.nodes[i]'(by rw [fdom, hlen]; exact hi1) = n := by
          have := List.getElem?_eq_some_iff.1 g1
          exact this.2
        rw [hn] at hi2
        cases e with
        | start t a =>
          obtain ⟨q1, q2⟩ := hf hpl t a hmem
          simp only [Option.any_some, placed, g2.1, Bool.or_eq_true, Bool.and_eq_true, decide_eq_true_eq] at hi2
          rcases hi2 with ⟨e, -⟩ | ⟨e, e2⟩
          · exact q1 e
          · exact q2 e e2
        | stop t => exact g2.elim
        | data x => simp [placed, g2.1] at hi2
      · rfl
    have hfoot : footNodes c s.dom = [] := by
      obtain ⟨x, hx⟩ := continued_footNodes (continued_split hs h' ho) c
      rw [hfoot'] at hx
      exact (List.append_eq_nil_iff.1 hx).1
    obtain ⟨-, -, g, page, rfl, hpage⟩ := hp
    obtain ⟨-, -, g', page', rfl, hpage'⟩ := hp'
    rw [hfoot] at g hpage
    rw [hfoot'] at g' hpage'
    cases g; cases g'
    have hz : c.pageBox.margin.bottom.toNat = 0 := by omega
    simp only [hz, newlines, List.replicate_zero, List.append_nil, if_true] at hpage hpage'
    have hpre : (newlines c.pageBox.margin.top.toNat ++ indentLines (List.replicate c.pageBox.margin.left.toNat ' ') true parts.flatten) <+:
        (newlines c.pageBox.margin.top.toNat ++ indentLines (List.replicate c.pageBox.margin.left.toNat ' ') true parts'.flatten) := by
      refine (List.prefix_append_right_inj _).2 ?_
      rw [← k1, List.flatten_append]
      exact indentLines_prefix _ _ _ _
    obtain ⟨z, hz⟩ := hpre
    simp only [newlines] at hz
    split at hpage
    · rename_i hopt
      rw [if_pos hopt] at hpage'
      rw [trimmed_unique hpage, trimmed_unique hpage', ← hz]
      exact optimise_prefix _ _
    · rename_i hopt
      rw [if_neg hopt] at hpage'
      rw [hpage, hpage', ← hz]
      exact List.prefix_append _ _

/-- A document and what it begins with. -/
example : ∃ page, renderEvents asciiUni {} (c85Events py"one") = .ok page ∧ page <+: py"\n# A #\n\none\n\n* x\n" := by
  refine C86_page asciiUni {} (c85Events py"one") [.start py"ul" [], .start py"li" [], .data py"x", .stop py"li", .stop py"ul"] (by decide +kernel) rfl rfl rfl
    (by decide) ?_ _ (by decide +kernel)
  intro _ t a ht
  simp [c85Events] at ht
  rcases ht with ⟨rfl, -⟩ | ⟨rfl, -⟩ | ⟨rfl, -⟩ | ⟨rfl, -⟩ <;> decide

/-- Inside an open element more text can change what was there: here the line breaks. -/
theorem C86_open : ∃ a b, renderEvents asciiUni { box := some (Box.new 5 {} {} {} none none) } [.start py"p" [], .data py"ab c"] = .ok a ∧
    renderEvents asciiUni { box := some (Box.new 5 {} {} {} none none) } ([.start py"p" [], .data py"ab c"] ++ [.data py"def"]) = .ok b ∧ ¬ a <+: b :=
  ⟨_, _, rfl, rfl, by decide +kernel⟩

end Verif
