import Verif.Proofs.Alike

/-!
# C84 and C85: what the page does not depend on
-/

namespace Verif

open Spec

/-! ## Documents that agree call by call -/

theorem sameShown_kind {e e' : Event} (h : SameShown e e') : SameKind e e' := by
  cases e <;> cases e' <;> simp_all [SameShown, SameKind]

theorem sameShown_symm {e e' : Event} (h : SameShown e e') : SameShown e' e := by
  cases e <;> cases e' <;> simp_all [SameShown]

theorem eachAlike_imp {R R' : Event → Event → Prop} (hi : ∀ e e', R e e' → R' e e') {es es' : List Event} (h : EachAlike R es es') :
    EachAlike R' es es' := by
  induction h with
  | nil => exact .nil
  | cons a _ ih => exact .cons (hi _ _ a) ih

theorem eachAlike_kind {es es' : List Event} (h : EachAlike SameShown es es') : EachAlike SameKind es es' :=
  eachAlike_imp (fun _ _ => sameShown_kind) h

theorem eachAlike_symm {es es' : List Event} (h : EachAlike SameShown es es') : EachAlike SameShown es' es := by
  induction h with
  | nil => exact .nil
  | cons a _ ih => exact .cons (sameShown_symm a) ih

theorem sameKind_creates {e e' : Event} (h : SameKind e e') : creates e = creates e' := by
  cases e <;> cases e' <;> simp_all [SameKind, creates]

theorem paired_of {S : Nat → Prop} {es es' : List Event} (h : EachAlike SameKind es es') (k : Nat)
    (hs : ∀ j, S (k + j) → SameAt es es' j) : Paired S k es es' := by
  induction h generalizing k with
  | nil => exact .nil
  | @cons e e' es es' a _ ih =>
    have shift : ∀ (e e' : Event), creates e = true → creates e' = true → (∀ j, S (k + j) → SameAt (e :: es) (e' :: es') j) →
        ∀ j, S (k + 1 + j) → SameAt es es' j := by
      intro e e' h1 h2 hs j hj
      obtain ⟨x, y, g1, g2, g3⟩ := hs (j + 1) (by rw [show k + (j + 1) = k + 1 + j by omega]; exact hj)
      simp only [List.filter_cons, h1, h2, if_true, List.getElem?_cons_succ] at g1 g2
      exact ⟨x, y, g1, g2, g3⟩
    cases e with
    | start t x =>
      cases e' with
      | start t' x' => cases a; exact .start (ih _ (shift _ _ rfl rfl hs))
      | stop t' => exact a.elim
      | data y => exact a.elim
    | stop t =>
      cases e' with
      | start t' x' => exact a.elim
      | stop t' =>
        cases a
        refine .stop (ih _ (fun j hj => ?_))
        have := hs j hj
        simpa [SameAt, List.filter_cons, creates] using this
      | data y => exact a.elim
    | data x =>
      cases e' with
      | start t' x' => exact a.elim
      | stop t' => exact a.elim
      | data y =>
        refine .data (fun hk => ?_) (ih _ (shift _ _ rfl rfl hs))
        obtain ⟨p, q, g1, g2, g3⟩ := hs 0 hk
        simp only [List.filter_cons, creates, if_true, List.getElem?_cons_zero, Option.some.injEq] at g1 g2
        subst g1; subst g2
        simpa [SameShown] using g3

theorem sameAt_all {es es' : List Event} (h : EachAlike SameShown es es') (j : Nat) (hj : j < (es.filter creates).length) :
    SameAt es es' j := by
  induction h generalizing j with
  | nil => simp at hj
  | @cons e e' es es' a _ ih =>
    have hc := sameKind_creates (sameShown_kind a)
    cases hb : creates e with
    | false =>
      simp only [List.filter_cons, hb, Bool.false_eq_true, if_false] at hj
      simpa [SameAt, List.filter_cons, hb, ← hc] using ih j hj
    | true =>
      simp only [List.filter_cons, hb, if_true, List.length_cons] at hj
      cases j with
      | zero => exact ⟨e, e', by simp [hb], by simp [← hc, hb], a⟩
      | succ j =>
        have := ih j (by omega)
        simpa [SameAt, List.filter_cons, hb, ← hc] using this

/-! ## Their trees -/

theorem rendered_skel {u : Uni} {c : Cfg} {es es' : List Event} {s s' : PState} (h : Rendered u c es s) (h' : Rendered u c es' s')
    (ha : EachAlike SameKind es es') : Skel (SameAt es es') s.dom s'.dom := by
  obtain ⟨s0, s1, e0, e1, -, hdom, -⟩ := rendered_inv h
  obtain ⟨t0, t1, f0, f1, -, fdom, -⟩ := rendered_inv h'
  rw [hdom, fdom]
  rw [initParser_eq e0] at e1
  rw [initParser_eq f0] at f1
  exact (feed_same (paired_of ha 0 (fun j hj => by simpa using hj)) ⟨⟨rfl, rfl, fun _ _ => rfl⟩, rfl, rfl, rfl, rfl⟩ init_inv rfl e1 f1).dom

theorem same_attrs {u : Uni} {c : Cfg} {es es' : List Event} {s : PState} (h : Rendered u c es s) {i : Nat} (hi : SameAt es es' i)
    {tag : Str} (ht : HasTag s.dom i tag) : ∀ k ∈ shownAttrs tag, attrText es i k = attrText es' i k := by
  intro k hk
  obtain ⟨e, e', h1, h2, h3⟩ := hi
  obtain ⟨s0, s1, e0, e1, -, hdom, -⟩ := rendered_inv h
  obtain ⟨n, g1, g2⟩ := (C28 u c s0 s1 es e0 e1).2.2 i e h1
  obtain ⟨m, m1, m2⟩ := ht
  rw [hdom, g1] at m1; cases m1
  cases e with
  | start t a =>
    cases e' with
    | start t' a' =>
      have : tag = t := by have := g2.1; rw [m2] at this; simpa using this
      subst this
      have := h3.2 k hk
      simpa [attrText, srcAttrs, h1, h2] using this
    | stop t' => cases h3
    | data y => cases h3
  | stop t => exact g2.elim
  | data x =>
    have := g2.1
    rw [m2] at this; cases this

/-- Everything that belongs to a node is inside of it. -/
theorem inside_closed {u : Uni} {c : Cfg} {es : List Event} {s : PState} (h : Rendered u c es s) {r i : Nat} (hi : Inside s.dom r i) (n : Node)
    (hn : s.dom.nodes[i]? = some n) : (∀ j ∈ n.children, Inside s.dom r j) ∧ ∀ j ∈ waiting c s.dom i, Inside s.dom r j := by
  obtain ⟨s0, s1, e0, e1, -, hdom, hinv, -⟩ := rendered_inv h
  have down : ∀ j, ParentOf s.dom i j → Inside s.dom r j := by
    intro j hj
    rcases hi with rfl | hi
    · exact .inr (.parent hj)
    · exact .inr (.step hj hi)
  refine ⟨fun j hj => down j ⟨n, hn, hj⟩, fun j hj => ?_⟩
  unfold waiting at hj
  split at hj
  · cases hj
  · simp only [nodesWhere, List.mem_filter] at hj
    cases hm : s.dom.nodes[j]? with
    | none => rw [hm] at hj; simp at hj
    | some m =>
      rw [hm] at hj
      simp only [Option.any_some, Bool.and_eq_true, decide_eq_true_eq] at hj
      have := (hinv.node j m hm).parent
      rw [hj.2.2] at this
      obtain ⟨-, k, k1, k2, -⟩ := this
      rw [hn] at k1; cases k1
      exact down j ⟨n, hn, k2⟩

/-- Nodes that agree in all that is inside of them are drawn in the same way. -/
theorem draws_same {u : Uni} {c : Cfg} {es es' : List Event} {s s' : PState} (h : Rendered u c es s) (h' : Rendered u c es' s')
    (ha : EachAlike SameKind es es') (hr : c.renderers = []) {is : List Nat} (hi : ∀ i ∈ is, ∀ j, Inside s.dom i j → SameAt es es' j)
    {limit : Nat} {p r : Int} {listed : Bool} {x : Str} (g : Draws u c es s.dom noOwnStyle limit p listed r is x) :
    Draws u c es' s'.dom noOwnStyle limit p listed r is x := by
  have hk := rendered_skel h h' ha
  refine Skel.draws (S := fun j => ∃ i ∈ is, Inside s.dom i j) ⟨hk.roots, hk.nodes, fun j hj => ?_⟩ hr (fun j hj n hn => ?_) (fun j hj => ?_)
    (fun i hi => ⟨i, hi, .inl rfl⟩) g
  · obtain ⟨i, h1, h2⟩ := hj
    exact hk.data j (hi i h1 j h2)
  · obtain ⟨i, h1, h2⟩ := hj
    obtain ⟨k1, k2⟩ := inside_closed h h2 n hn
    exact ⟨fun j hj => ⟨i, h1, k1 j hj⟩, fun j hj => ⟨i, h1, k2 j hj⟩⟩
  · obtain ⟨i, h1, h2⟩ := hj
    intro tag ht
    exact same_attrs h (hi i h1 j h2) ht

theorem inside_exists {u : Uni} {c : Cfg} {es : List Event} {s : PState} (h : Rendered u c es s) {i j : Nat} (hi : ∃ n, s.dom.nodes[i]? = some n)
    (hj : Inside s.dom i j) : ∃ n, s.dom.nodes[j]? = some n := by
  obtain ⟨s0, s1, e0, e1, -, hdom, hinv, -⟩ := rendered_inv h
  have down : ∀ k j, ParentOf s.dom k j → ∃ n, s.dom.nodes[j]? = some n := by
    intro k j hk
    obtain ⟨n, h1, h2⟩ := hk
    obtain ⟨m, hm, -⟩ := ((hinv.node k n h1).child j h2).2
    exact ⟨m, hm⟩
  rcases hj with rfl | hj
  · exact hi
  · cases hj with
    | parent a => exact down _ _ a
    | step a _ => exact down _ _ a

/-! ## C84 -/

theorem alike_parsed {u : Uni} {c : Cfg} {es es' : List Event} {s s' : PState} (h : Rendered u c es s) (h' : Rendered u c es' s')
    (ha : EachAlike SameShown es es') (hr : c.renderers = []) (hd : c.defaultRenderer = .cls .renderer) {limit : Nat} (hlim : LimitIs c limit) :
    s.parsed = s'.parsed := by
  have hk := rendered_skel h h' (eachAlike_kind ha)
  obtain ⟨s0, s1, e0, e1, -, hdom, hinv, -⟩ := rendered_inv h
  have hlen := (C28 u c s0 s1 es e0 e1).2.1
  rw [← hdom] at hlen
  have hall : ∀ i, (∃ n, s.dom.nodes[i]? = some n) → ∀ j, Inside s.dom i j → SameAt es es' j := by
    intro i hi j hj
    obtain ⟨n, hn⟩ := inside_exists h hi hj
    exact sameAt_all ha j (by rw [← hlen]; exact getElem?_lt hn)
  obtain ⟨page, ⟨body, foot, b1, b2, rfl⟩, p1⟩ := C82 u c es s h hr (fun _ _ _ _ => hd) limit hlim
  obtain ⟨page', q, p2⟩ := C82 u c es' s' h' hr (fun _ _ _ _ => hd) limit hlim
  have hroot : ∀ i ∈ s.dom.roots, ∃ n, s.dom.nodes[i]? = some n := by
    intro i hi
    obtain ⟨m, hm, -⟩ := hinv.root i hi
    exact ⟨m, hm⟩
  have hfoot : ∀ i ∈ footNodes c s.dom, ∃ n, s.dom.nodes[i]? = some n := by
    intro i hi
    unfold footNodes at hi
    split at hi
    · simp only [nodesWhere, List.mem_filter, List.mem_range] at hi
      exact ⟨_, List.getElem?_eq_getElem hi.1⟩
    · cases hi
  have b1' := draws_same h h' (eachAlike_kind ha) hr (fun i hi => hall i (hroot i hi)) b1
  have b2' := draws_same h h' (eachAlike_kind ha) hr (fun i hi => hall i (hfoot i hi)) b2
  rw [hk.roots] at b1'
  rw [hk.footNodes] at b2' p1
  have : page' = _ := C82_unique u c es' s' h' hr (fun _ _ _ _ => hd) limit hlim _ _ q ⟨body, foot, b1', b2', rfl⟩
  rw [this] at p2
  split at p1
  · rename_i ho
    rw [if_pos ho] at p2
    exact C37_unique _ _ _ p1 p2
  · rename_i ho
    rw [if_neg ho] at p2
    rw [p1, p2]

theorem alike_split {es es' : List Event} (h : EachAlike SameShown es es') {b' : List Event} {t : Str} {a' : List (Str × Option Str)} {r' : List Event}
    (he : es' = b' ++ .start t a' :: r') : ∃ b a r, es = b ++ .start t a :: r ∧ EachAlike SameShown b b' ∧ SameShown (.start t a) (.start t a') := by
  induction h generalizing b' with
  | nil => cases b' <;> cases he
  | @cons e e' es es' x hx ih =>
    cases b' with
    | nil =>
      cases he
      cases e with
      | start t2 a2 => obtain ⟨rfl, -⟩ := id x; exact ⟨[], a2, es, rfl, .nil, x⟩
      | stop t2 => cases x
      | data y => cases x
    | cons y b' =>
      cases he
      obtain ⟨b, a, r, h1, h2, h3⟩ := ih rfl
      exact ⟨e :: b, a, r, by rw [h1]; rfl, .cons x h2, h3⟩

theorem alike_open {es es' : List Event} (h : EachAlike SameShown es es') (st : List Str) : es.foldl openAfter st = es'.foldl openAfter st := by
  induction h generalizing st with
  | nil => rfl
  | @cons e e' es es' x hx ih =>
    have : openAfter st e = openAfter st e' := by
      cases e <;> cases e' <;> simp_all [SameShown, openAfter]
    simp only [List.foldl_cons, this, ih]

theorem alike_readable {u : Uni} {c : Cfg} {es es' : List Event} (h : EachAlike SameShown es es') (hc : ClassesValued es')
    (hr : Readable u c es) : Readable u c es' := by
  intro b' t a' r' e he hp
  obtain ⟨b, a, r, rfl, h2, h3⟩ := alike_split h he
  have hb : openTags b = openTags b' := alike_open h2 []
  have hcls : attrOf a py"class" ≠ some none := fun k => hr b t a r _ rfl (.class k)
  have haddr : t = py"a" ∨ t = py"img" → ∀ raw, attrOf a (addressAttr t) = some (some raw) ↔ attrOf a' (addressAttr t) = some (some raw) := by
    intro ht raw
    have := h3.2 (addressAttr t) (by rcases ht with rfl | rfl <;> decide)
    revert this
    cases attrOf a (addressAttr t) <;> cases attrOf a' (addressAttr t) <;> intro this
    all_goals simp only [Option.join_none, Option.join_some] at this
    all_goals first | subst this | skip
    all_goals simp_all
  refine hr b t a r e rfl ?_
  rw [hb]
  cases hp with
  | «class» k => exact absurd k (hc t a' (he ▸ by simp))
  | address k1 k2 k3 k4 => exact .address hcls k2 ((haddr k2 _).2 k3) k4
  | place k1 k2 k3 k4 =>
    refine .place hcls (fun raw hraw => k2 raw ?_) k3 k4
    exact (haddr (k3.imp And.left And.left) raw).1 hraw

theorem renderEvents_rendered {u : Uni} {c : Cfg} {es : List Event} {page : Str} :
    renderEvents u c es = .ok page ↔ ∃ s, Rendered u c es s ∧ s.parsed = page := by
  simp only [renderEvents, Rendered, bind, Except.bind, pure, Except.pure]
  constructor
  · intro h
    split at h
    · cases h
    rename_i s0 h0
    split at h
    · cases h
    rename_i s1 h1
    split at h
    · cases h
    rename_i s h2
    cases h
    exact ⟨s, ⟨s0, s1, h0, h1, h2⟩, rfl⟩
  · rintro ⟨s, ⟨s0, s1, h0, h1, h2⟩, rfl⟩
    simp [h0, h1, h2]

theorem alike_renders {u : Uni} {c : Cfg} {es es' : List Event} (hr : c.renderers = []) (hl : c.linkRenderers = [])
    (hd : c.defaultRenderer = .cls .renderer) (ha : EachAlike SameShown es es') (hc : ClassesValued es') {page : Str}
    (h : renderEvents u c es = .ok page) : renderEvents u c es' = .ok page := by
  obtain ⟨s, hs, rfl⟩ := renderEvents_rendered.1 h
  obtain ⟨s0, s1, e0, e1, e2, hdom, -⟩ := rendered_inv hs
  have hread := ((C66_only u c s0 e0 es).1).1 ⟨s1, e1⟩
  obtain ⟨t1, f1⟩ := ((C66_only u c s0 e0 es').1).2 (alike_readable ha hc hread)
  have hk : Skel (SameAt es es') s1.dom t1.dom := by
    have g1 := e1; have g2 := f1
    rw [initParser_eq e0] at g1 g2
    exact (feed_same (paired_of (eachAlike_kind ha) 0 (fun j hj => by simpa using hj)) ⟨⟨rfl, rfl, fun _ _ => rfl⟩, rfl, rfl, rfl, rfl⟩ init_inv rfl g1 g2).dom
  have hroom : HasRoom s1.dom [] (textRoom c.pageBox) := by
    apply Classical.byContradiction
    intro hn
    have := (C65 u c [] es s0 s1 hr (.inl rfl) hl hd e0 e1).2 hn
    rw [e2] at this; cases this
  obtain ⟨t, ht⟩ := (C65 u c [] es' s0 t1 hr (.inl rfl) hl hd e0 f1).1 (hk.hasRoom hroom)
  have hs' : Rendered u c es' t := ⟨s0, t1, e0, f1, ht⟩
  refine renderEvents_rendered.2 ⟨t, hs', ?_⟩
  exact (alike_parsed hs hs' ha hr hd (.inl ⟨hl, rfl⟩)).symm

/-- In the default style, classes, ids and all attributes but the addresses and titles of links and the addresses and alternative texts
of images make no difference: two documents that agree otherwise have the same page, or both have none. -/
theorem C84 (u : Uni) (c : Cfg) (es es' : List Event) (hr : c.renderers = []) (hl : c.linkRenderers = [])
    (hd : c.defaultRenderer = .cls .renderer) (ha : EachAlike SameShown es es') (hc : ClassesValued es) (hc' : ClassesValued es') (page : Str) :
    renderEvents u c es = .ok page ↔ renderEvents u c es' = .ok page :=
  ⟨alike_renders hr hl hd ha hc', alike_renders hr hl hd (eachAlike_symm ha) hc⟩

def c84Events : List Event := [.start py"p" [(py"class", some py"note")], .data py"see ", .start py"a" [(py"href", some py"u"), (py"rel", none)],
  .data py"it", .stop py"a", .stop py"p"]

def c84Plain : List Event := [.start py"p" [], .data py"see ", .start py"a" [(py"id", some py"k"), (py"href", some py"u")],
  .data py"it", .stop py"a", .stop py"p"]

theorem c84_alike : EachAlike SameShown c84Events c84Plain :=
  .cons ⟨rfl, by simp [shownAttrs]⟩ (.cons rfl (.cons ⟨rfl, by decide⟩ (.cons rfl (.cons rfl (.cons rfl .nil)))))

theorem c84_valued : ClassesValued c84Events ∧ ClassesValued c84Plain := by
  refine ⟨?_, ?_⟩ <;> intro t a h <;> simp [c84Events, c84Plain] at h <;> rcases h with ⟨-, rfl⟩ | ⟨-, rfl⟩ <;> decide

/-- Two documents that differ in class, id and other attributes. -/
example : renderEvents asciiUni {} c84Events = .ok py"\nsee [it][1]\n\n\n[1] it: u" ∧
    renderEvents asciiUni {} c84Plain = .ok py"\nsee [it][1]\n\n\n[1] it: u" := by
  have h : renderEvents asciiUni {} c84Events = .ok py"\nsee [it][1]\n\n\n[1] it: u" := by decide +kernel
  exact ⟨h, (C84 asciiUni {} _ _ rfl rfl rfl c84_alike c84_valued.1 c84_valued.2 _).1 h⟩

/-- The addresses of links are shown, so they have to agree; a class without value is an error. -/
example : ¬ SameShown (.start py"a" [(py"href", some py"u")]) (.start py"a" [(py"href", some py"v")]) ∧
    renderEvents asciiUni {} [.start py"p" [(py"class", none)]] = .error .attributeError :=
  ⟨fun h => by have := h.2 py"href" (by decide); exact absurd this (by decide), by decide +kernel⟩

/-! ## C85 -/

theorem draws_parts {u : Uni} {c : Cfg} {es : List Event} {d : Dom} {own : OwnStyle} {limit : Nat} {p r : Int} {is : List Nat} {x : Str}
    (h : Draws u c es d own limit p false r is x) : ∃ parts : List Str, parts.length = is.length ∧ x = parts.flatten ∧
      ∀ (k i : Nat), is[k]? = some i → ∃ part : Str, parts[k]? = some part ∧ Draws u c es d own limit p false r [i] part := by
  generalize hb : false = listed at h
  induction h with
  | nil => exact ⟨[], rfl, rfl, by simp⟩
  | @text r i is n t x hn hd _ ih =>
    obtain ⟨parts, h1, h2, h3⟩ := ih hb
    refine ⟨t :: parts, by simp [h1], by simp [h2], fun k j hk => ?_⟩
    cases k with
    | zero =>
      cases hk
      refine ⟨t, rfl, ?_⟩
      have := Draws.text (u := u) (c := c) (es := es) (own := own) (limit := limit) (p := p) (r := r) hn hd .nil
      simpa using this
    | succ k => exact h3 k j hk
  | @elem r inner i is n tag y z x w hn ht hy hz hsh _ _ _ ih =>
    obtain ⟨parts, h1, h2, h3⟩ := ih hb
    refine ⟨x :: parts, by simp [h1], by simp [h2], fun k j hk => ?_⟩
    cases k with
    | zero =>
      cases hk
      refine ⟨x, rfl, ?_⟩
      have := Draws.elem hn ht hy hz hsh .nil
      simpa using this
    | succ k => exact h3 k j hk
  | entry => cases hb

/-- Every page is made of such pieces. -/
theorem C85_parts (u : Uni) (c : Cfg) (es : List Event) (s : PState) (h : Rendered u c es s) (hr : c.renderers = [])
    (hd : c.defaultRenderer = .cls .renderer) (limit : Nat) (hlim : LimitIs c limit) :
    ∃ parts foot, PageParts u c es s limit parts foot := by
  obtain ⟨page, ⟨body, foot, b1, b2, rfl⟩, p1⟩ := C82 u c es s h hr (fun _ _ _ _ => hd) limit hlim
  obtain ⟨parts, h1, rfl, h3⟩ := draws_parts b1
  exact ⟨parts, foot, h1, h3, b2, _, rfl, p1⟩

/-- Changing texts or attributes in one part of a document leaves the other parts of the page alone: if two documents have the same tags in
the same order, then what stands at the top level and does not differ in anything inside of it looks the same in both pages, and so
does the list of links if nothing differs in the links. -/
theorem C85 (u : Uni) (c : Cfg) (es es' : List Event) (s s' : PState) (h : Rendered u c es s) (h' : Rendered u c es' s')
    (ha : EachAlike SameKind es es') (hr : c.renderers = []) (hd : c.defaultRenderer = .cls .renderer) (limit : Nat) (hlim : LimitIs c limit)
    (parts parts' : List Str) (foot foot' : Str) (hp : PageParts u c es s limit parts foot) (hp' : PageParts u c es' s' limit parts' foot') :
    s.dom.roots = s'.dom.roots ∧
    (∀ k i : Nat, s.dom.roots[k]? = some i → (∀ j, Inside s.dom i j → SameAt es es' j) → parts[k]? = parts'[k]?) ∧
    ((∀ i ∈ footNodes c s.dom, ∀ j, Inside s.dom i j → SameAt es es' j) → foot = foot') := by
  have hk := rendered_skel h h' ha
  refine ⟨hk.roots, fun k i hi hs => ?_, fun hs => ?_⟩
  · obtain ⟨x, e1, g1⟩ := hp.2.1 k i hi
    obtain ⟨y, e2, g2⟩ := hp'.2.1 k i (hk.roots ▸ hi)
    have g3 := draws_same h h' ha hr (is := [i]) (by simpa using hs) g1
    rw [e1, e2, draws_unique h' (ownTable_nil hr) (fun _ _ _ _ => hd) hlim (fun _ _ _ _ _ g => (no_own hr g).elim) g3 g2]
  · have g3 := draws_same h h' ha hr hs hp.2.2.1
    rw [hk.footNodes] at g3
    exact draws_unique h' (ownTable_nil hr) (fun _ _ _ _ => hd) hlim (fun _ _ _ _ _ g => (no_own hr g).elim) g3 hp'.2.2.1

def c85Events (x : Str) : List Event := [.start py"h1" [], .data py"A", .stop py"h1", .start py"p" [], .data x, .stop py"p"]

theorem c85_alike (x y : Str) : EachAlike SameKind (c85Events x) (c85Events y) :=
  .cons rfl (.cons trivial (.cons rfl (.cons rfl (.cons trivial (.cons rfl .nil)))))

/-- Whatever the paragraph says, the header above it looks the same. -/
theorem c85_head (x y : Str) (s s' : PState) (h : Rendered asciiUni {} (c85Events x) s) (h' : Rendered asciiUni {} (c85Events y) s')
    (hroots : s.dom.roots = [0, 2]) (hin : ∀ j, Inside s.dom 0 j → j < 2) :
    ∃ head rest rest' foot foot', PageParts asciiUni {} (c85Events x) s 10 [head, rest] foot ∧
      PageParts asciiUni {} (c85Events y) s' 10 [head, rest'] foot' := by
  obtain ⟨parts, foot, hp⟩ := C85_parts _ _ _ _ h rfl rfl 10 (.inl ⟨rfl, rfl⟩)
  obtain ⟨parts', foot', hp'⟩ := C85_parts _ _ _ _ h' rfl rfl 10 (.inl ⟨rfl, rfl⟩)
  obtain ⟨k1, k2, -⟩ := C85 _ _ _ _ _ _ h h' (c85_alike x y) rfl rfl 10 (.inl ⟨rfl, rfl⟩) _ _ _ _ hp hp'
  have e := k2 0 0 (by rw [hroots]; rfl) (fun j hj => by
    have := hin j hj
    match j, this with
    | 0, _ => exact ⟨_, _, rfl, rfl, rfl, by simp [shownAttrs]⟩
    | 1, _ => exact ⟨_, _, rfl, rfl, rfl⟩)
  have l1 := hp.1
  have l2 := hp'.1
  rw [← k1] at l2
  rw [hroots] at l1 l2
  match parts, l1, parts', l2 with
  | [a, b], _, [a', b'], _ =>
    cases e
    exact ⟨a, b, b', foot, foot', hp, hp'⟩

example : ∃ s s' head rest rest' foot foot', Rendered asciiUni {} (c85Events py"one") s ∧ Rendered asciiUni {} (c85Events py"two") s' ∧
    PageParts asciiUni {} (c85Events py"one") s 10 [head, rest] foot ∧ PageParts asciiUni {} (c85Events py"two") s' 10 [head, rest'] foot' ∧
    s.parsed = py"\n# A #\n\none\n" ∧ s'.parsed = py"\n# A #\n\ntwo\n" := by
  have h : ∃ s, Rendered asciiUni {} (c85Events py"one") s ∧ s.dom.roots = [0, 2] ∧ (s.dom.nodes.map Node.children) = [[1], [], [3], []] ∧
      s.parsed = py"\n# A #\n\none\n" := ⟨_, ⟨_, _, rfl, rfl, rfl⟩, by decide +kernel, by decide +kernel, by decide +kernel⟩
  have h' : ∃ s, Rendered asciiUni {} (c85Events py"two") s ∧ s.parsed = py"\n# A #\n\ntwo\n" := ⟨_, ⟨_, _, rfl, rfl, rfl⟩, by decide +kernel⟩
  obtain ⟨s, h1, h2, h3, h4⟩ := h
  obtain ⟨s', h1', h4'⟩ := h'
  have hpar : ∀ k j, ParentOf s.dom k j → k = 0 ∧ j = 1 ∨ k = 2 ∧ j = 3 := by
    intro k j hk
    obtain ⟨n, hn, hj⟩ := hk
    have := congrArg (fun l => l[k]?) h3
    simp only [List.getElem?_map, hn, Option.map_some] at this
    match k, this with
    | 0, this => simp at this; rw [this] at hj; simp at hj; exact .inl ⟨rfl, hj⟩
    | 1, this => simp at this; rw [this] at hj; simp at hj
    | 2, this => simp at this; rw [this] at hj; simp at hj; exact .inr ⟨rfl, hj⟩
    | 3, this => simp at this; rw [this] at hj; simp at hj
    | k + 4, this => simp at this
  have hanc : ∀ i j, AncestorOf s.dom i j → i = 0 → j = 1 := by
    intro i j ha
    induction ha with
    | parent a => intro e; rcases hpar _ _ a with ⟨-, e2⟩ | ⟨e1, -⟩ <;> omega
    | step a _ ih => intro e; have := ih e; rcases hpar _ _ a with ⟨e1, -⟩ | ⟨e1, -⟩ <;> omega
  have hin : ∀ j, Inside s.dom 0 j → j < 2 := by
    intro j hj
    rcases hj with rfl | hj
    · omega
    · have := hanc 0 j hj rfl
      omega
  obtain ⟨a, b, b', f, f', k1, k2⟩ := c85_head _ _ _ _ h1 h1' h2 hin
  exact ⟨s, s', a, b, b', f, f', h1, h1', k1, k2, h4, h4'⟩

end Verif
