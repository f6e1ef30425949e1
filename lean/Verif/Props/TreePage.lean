import Verif.Proofs.TreePage
import Verif.Proofs.Mend

/-!
# C91: the page of a tree
-/

namespace Verif

open Spec

/-! ## Room -/

theorem wrapped_iff {c : Cfg} {es : List Event} {d : Dom} {i : Nat} {pl : Place} {m : Nat} {attrs : List (Str × Option Str)} {kids : Forest} {tag : Str}
    (h : TreeSpot c es d i pl m attrs kids tag) {n : Node} (hn : d.nodes[i]? = some n) (ht : n.tag = some tag) :
    Wrapped d [] i ↔ tag = py"p" ∧ ¬ kids.OnlyCode ∨ tag = py"li" ∨ tag = py"dd" := by
  have key : ∀ t, HasTag d i t ↔ tag = t := by
    intro t
    constructor
    · rintro ⟨n', h1, h2⟩
      rw [hn] at h1; cases h1
      rw [ht] at h2; simpa using h2
    · rintro rfl; exact ⟨n, hn, ht⟩
  unfold Wrapped
  rw [key, key, key, h.code]
  simp [untouched_nil]

theorem marker_iff {c : Cfg} {es : List Event} {d : Dom} {i : Nat} {pl : Place} {m : Nat} {attrs : List (Str × Option Str)} {kids : Forest} {tag : Str}
    (h : TreeSpot c es d i pl m attrs kids tag) {n : Node} (hn : d.nodes[i]? = some n) (ht : n.tag = some tag) (k : Int) :
    Marker d [] i k ↔ k = pl.marker tag := by
  have key : ∀ t, HasTag d i t ↔ tag = t := by
    intro t
    constructor
    · rintro ⟨n', h1, h2⟩
      rw [hn] at h1; cases h1
      rw [ht] at h2; simpa using h2
    · rintro rfl; exact ⟨n, hn, ht⟩
  obtain ⟨b, a, h1, h2, h3⟩ := h.around
  have hu := untouched_nil d i
  constructor
  · intro g
    unfold Place.marker Place.bullet
    cases g with
    | themed a => exact absurd hu a
    | quote _ a => have := (key _).1 a; subst this; rfl
    | description _ a => have := (key _).1 a; subst this; rfl
    | bullet _ a b =>
      have := (key _).1 a; subst this
      rw [if_neg (by decide), if_pos rfl, if_neg (fun q => b ((h.child _).2 q))]
      rfl
    | number _ a b e =>
      have := (key _).1 a; subst this
      rw [if_neg (by decide), if_pos rfl, if_pos ((h.child _).1 b), h3 _ _ e, h2]
      simp [natStr]
    | nothing _ a b e =>
      rw [if_neg (fun q => q.elim (fun q => a ((key _).2 q)) (fun q => b ((key _).2 q))), if_neg (fun q => e ((key _).2 q))]
      rfl
  · rintro rfl
    unfold Place.marker Place.bullet
    by_cases e1 : tag = py"blockquote"
    · rw [if_pos (.inl e1)]; exact .quote hu ((key _).2 e1)
    by_cases e2 : tag = py"dd"
    · rw [if_pos (.inr e2)]; exact .description hu ((key _).2 e2)
    rw [if_neg (fun q => q.elim e1 e2)]
    by_cases e3 : tag = py"li"
    · rw [if_pos e3]
      by_cases e4 : pl.up.head? = some py"ol"
      · rw [if_pos e4]
        have := Marker.number hu ((key _).2 e3) ((h.child _).2 e4) h1
        rw [h2] at this
        simpa [natStr] using this
      · rw [if_neg e4]
        exact .bullet hu ((key _).2 e3) (fun q => e4 ((h.child _).1 q))
    · rw [if_neg e3]
      exact .nothing hu (fun q => e1 ((key _).1 q)) (fun q => e2 ((key _).1 q)) (fun q => e3 ((key _).1 q))

theorem hasRoom_iff {d : Dom} {src : Nat → List (Str × Option Str)} {c : Cfg} {es : List Event} (hinv : SelInv d src) (f : Forest) :
    ∀ {up a b k i ids} {w : Int}, StandsAt c d (es.filter creates) up a b k i ids f →
    ((∀ r ∈ ids, ∀ i k, Within d [] r i k → Wrapped d [] i → k < w) ↔ f.HasRoom up a w) := by
  induction f with
  | nil =>
    intro up a b k i ids w h
    obtain ⟨L, done, -, -, -, -, -, hs⟩ := h
    cases hs
    simp [Forest.HasRoom]
  | text s rest ih =>
    intro up a b k i ids w h
    obtain ⟨is, n, rfl, hn, ht, hd, h'⟩ := standsAt_text h
    rw [Forest.HasRoom, ← ih h']
    simp only [List.mem_cons, forall_eq_or_imp]
    refine ⟨fun g => g.2, fun g => ⟨fun j q hw hwr => ?_, g⟩⟩
    cases hw with
    | self _ =>
      obtain ⟨-, (⟨⟨n', h1, h2⟩, -⟩ | ⟨n', h1, h2⟩ | ⟨n', h1, h2⟩)⟩ := hwr <;>
        (rw [hn] at h1; cases h1; rw [ht] at h2; cases h2)
    | child _ hp _ =>
      obtain ⟨n', h1, h2⟩ := hp
      rw [hn] at h1; cases h1
      rw [((hinv.node i _ hn).data (by simp [hd])).2] at h2
      cases h2
  | elem tag attrs kids rest ihk ihr =>
    intro up a b k i ids w h
    obtain ⟨is, n, rfl, hn, ht, hd, hst, hk, hr'⟩ := standsAt_elem hinv h
    have hm := marker_iff hst hn ht
    have hmk : Place.marker ⟨up, a, b, rest.topCount (fun _ => true)⟩ tag = Place.marker ⟨up, a, 0, 0⟩ tag := rfl
    rw [hmk] at hm
    rw [Forest.HasRoom, ← ihk hk, ← ihr hr', ← wrapped_iff hst hn ht]
    simp only [List.mem_cons, forall_eq_or_imp]
    rw [← and_assoc]
    refine and_congr_left' ?_
    constructor
    · intro g
      refine ⟨fun hw => ?_, fun r hr j q hw hwr => ?_⟩
      · have := g i _ (.self ((hm _).2 rfl)) hw
        omega
      · have := g j _ (.child ((hm _).2 rfl) ⟨n, hn, hr⟩ hw) hwr
        omega
    · rintro ⟨g1, g2⟩ j q hw hwr
      cases hw with
      | self a =>
        have := g1 hwr
        have := (hm _).1 a
        omega
      | child a hp hw =>
        obtain ⟨n', h1, h2⟩ := hp
        rw [hn] at h1; cases h1
        have := g2 _ h2 _ _ hw hwr
        have := (hm _).1 a
        omega

/-! ## Start tags -/

theorem wf_open (f : Forest) : ∀ {pre : Bool} (st : List Str), f.WellFormed pre → f.events.foldl openAfter st = st := by
  induction f with
  | nil => intro pre st _; rfl
  | text s rest ih => intro pre st h; exact ih st h
  | elem tag attrs kids rest ihk ihr =>
    intro pre st h
    obtain ⟨h1, -, h2, h3⟩ := h
    simp only [Forest.events, List.foldl_cons, List.foldl_append, openAfter]
    by_cases hv : VoidTag tag
    · rw [h1 hv]
      simp [Forest.events, hv, ihr st h3]
    · rw [if_neg hv, ihk _ h2]
      simp [hv, openAfter, ihr st h3]

/-- No start tag is a problem, after the elements `st` have been opened. -/
def ReadableFrom (u : Uni) (c : Cfg) (st : List Str) (es : List Event) : Prop :=
  ∀ before tag attrs after e, es = before ++ .start tag attrs :: after → ¬ Problem u c (before.foldl openAfter st ≠ []) tag attrs e

theorem readableFrom_nil (u : Uni) (c : Cfg) (st : List Str) : ReadableFrom u c st [] := by
  intro b t a r e h; simp at h

theorem readableFrom_cons (u : Uni) (c : Cfg) (st : List Str) (ev : Event) (es : List Event) :
    ReadableFrom u c st (ev :: es) ↔ (∀ tag attrs e, ev = .start tag attrs → ¬ Problem u c (st ≠ []) tag attrs e) ∧
      ReadableFrom u c (openAfter st ev) es := by
  constructor
  · intro h
    refine ⟨fun t a e he => h [] t a es e (by rw [he]; rfl), fun b t a r e he => ?_⟩
    exact h (ev :: b) t a r e (by rw [he]; rfl)
  · rintro ⟨h1, h2⟩ b t a r e he
    cases b with
    | nil => cases he; exact h1 t a e rfl
    | cons x b =>
      cases he
      exact h2 b t a r e rfl

theorem readableFrom_append (u : Uni) (c : Cfg) (xs ys : List Event) : ∀ st, ReadableFrom u c st (xs ++ ys) ↔
    ReadableFrom u c st xs ∧ ReadableFrom u c (xs.foldl openAfter st) ys := by
  induction xs with
  | nil => intro st; simp [readableFrom_nil]
  | cons x xs ih => intro st; simp only [List.cons_append, readableFrom_cons, ih, List.foldl_cons, and_assoc]

theorem problem_congr {u : Uni} {c : Cfg} {p q : Prop} (h : p ↔ q) (tag : Str) (attrs : List (Str × Option Str)) (e : PyErr) :
    Problem u c p tag attrs e ↔ Problem u c q tag attrs e := by rw [propext h]

theorem readable_forest (u : Uni) (c : Cfg) (f : Forest) : ∀ {pre : Bool} (st : List Str), f.WellFormed pre →
    (ReadableFrom u c st f.events ↔ f.Readable u c (st ≠ [])) := by
  induction f with
  | nil => intro pre st _; simp [Forest.events, readableFrom_nil, Forest.Readable]
  | text s rest ih =>
    intro pre st h
    simp only [Forest.events, readableFrom_cons, Forest.Readable, openAfter]
    rw [ih st h]
    simp
  | elem tag attrs kids rest ihk ihr =>
    intro pre st h
    obtain ⟨h1, -, h2, h3⟩ := h
    simp only [Forest.events, readableFrom_cons, readableFrom_append, Forest.Readable]
    have h0 : (∀ t a e, Event.start tag attrs = .start t a → ¬ Problem u c (st ≠ []) t a e) ↔ ∀ e, ¬ Problem u c (st ≠ []) tag attrs e :=
      ⟨fun g e => g _ _ e rfl, fun g t a e he => by cases he; exact g e⟩
    rw [h0]
    by_cases hv : VoidTag tag
    · rw [h1 hv]
      simp [Forest.events, hv, readableFrom_nil, Forest.Readable, openAfter, ihr st h3]
    · simp only [openAfter, if_neg hv]
      rw [ihk _ h2, List.foldl_append, wf_open kids _ h2]
      have : (tag :: st ≠ []) = True := by simp
      rw [this]
      simp [readableFrom_cons, readableFrom_nil, openAfter, ihr st h3]

/-! ## The page -/

theorem forest_stands {u : Uni} {c : Cfg} {f : Forest} {s0 s : PState} (hw : f.WellFormed false) (h0 : initParser c = .ok s0)
    (h : feed u c s0 f.events = .ok s) : StandsAt c s.dom (f.events.filter creates) [] 0 0 0 0 s.dom.roots f ∧
      s.dom.nodes.length = f.size := by
  obtain ⟨h1, h2, -⟩ := C28 u c s0 s f.events h0 h
  obtain ⟨h3, -⟩ := C31 u c s0 s f hw h0 h
  rw [List.range_eq_range'] at h1
  obtain ⟨h4, h5⟩ := sits_of (E := f.events.filter creates) (reach_selInv h0 h) f (A := []) (B := []) h3 h1 (by simp) (by simp) rfl
  exact ⟨⟨_, [], .root, by simp, rfl, rfl, rfl, h4⟩, by rw [h2, size_creates]⟩

theorem pageOfTree_iff {u : Uni} {c : Cfg} {f : Forest} {s0 s : PState} (hw : f.WellFormed false) (h0 : initParser c = .ok s0)
    (h : feed u c s0 f.events = .ok s) (hr : c.renderers = []) (limit : Nat) (page : Str) :
    PageOf u c f.events s.dom noOwnStyle limit page ↔ PageOfTree u c f limit page := by
  obtain ⟨hs, hlen⟩ := forest_stands hw h0 h
  have hinv := reach_selInv h0 h
  obtain ⟨g1, -, g3⟩ := draws_draw hinv hr u limit (c.pageBox.totalPadding.left + c.pageBox.totalPadding.right) f hs
  have hfoot : footNodes c s.dom = if c.linkPlacement = py"footer" then
      (List.range' 0 f.size).filter (fun j => (s.dom.nodes[j]?).any (placed c py"footer")) else [] := by
    unfold footNodes nodesWhere
    rw [hlen, List.range_eq_range']
  have hall : ∀ x, Draws u c f.events s.dom noOwnStyle limit (c.pageBox.totalPadding.left + c.pageBox.totalPadding.right) true (room c.pageBox)
      (footNodes c s.dom) x ↔ Draw u c limit (c.pageBox.totalPadding.left + c.pageBox.totalPadding.right) .all [] 0 0 0 (room c.pageBox)
        (if c.linkPlacement = py"footer" then f else .nil) x := by
    intro x
    rw [hfoot]
    split
    · exact g3 _ _
    · exact ⟨fun g => by cases g; exact .nil, fun g => by cases g; exact .nil⟩
  have hemp : footNodes c s.dom = [] ↔ (if c.linkPlacement = py"footer" then f else .nil).count (Mode.lists c .all) = 0 := by
    rw [hfoot]
    split
    · obtain ⟨-, -, -, -, -, -, -, hsits⟩ := hs
      have := before_sits (placed c py"footer") (Mode.lists c .all) (placed_tag c _) f hsits
      simp only [Nat.zero_add, before, List.range_zero, List.filter_nil, List.length_nil] at this
      rw [← this, List.range_eq_range', List.length_eq_zero_iff]
    · exact ⟨fun _ => rfl, fun _ => rfl⟩
  constructor
  · rintro ⟨body, foot, h1, h2, h3⟩
    refine ⟨body, foot, _, rfl, (g1 _ _).1 h1, (hall _).1 h2, ?_⟩
    by_cases e : footNodes c s.dom = []
    · rw [if_pos (hemp.1 e)]; rw [if_pos e] at h3; exact h3
    · rw [if_neg (fun q => e (hemp.2 q))]; rw [if_neg e] at h3; exact h3
  · rintro ⟨body, foot, g, rfl, h1, h2, h3⟩
    refine ⟨body, foot, (g1 _ _).2 h1, (hall _).2 h2, ?_⟩
    by_cases e : footNodes c s.dom = []
    · rw [if_pos e]; rw [if_pos (hemp.1 e)] at h3; exact h3
    · rw [if_neg e]; rw [if_neg (fun q => e (hemp.2 q))] at h3; exact h3

/-- There is a page if the tree can be read and has room, and only one. -/
theorem C91_unique (u : Uni) (c : Cfg) (f : Forest) (hw : f.WellFormed false) (hr : c.renderers = []) (hl : c.linkRenderers = [])
    (hd : c.defaultRenderer = .cls .renderer) (h0 : c.outputFormat = py"gophermap" → c.linkPlacement ≠ py"inline" ∧ c.gopherHost ≠ [])
    (h1 : f.Readable u c False) (h2 : f.HasRoom [] 0 (textRoom c.pageBox)) :
    ∃ page out, PageOfTree u c f 10 page ∧ (∀ page', PageOfTree u c f 10 page' → page' = page) ∧
      renderEvents u c f.events = .ok out ∧ (if c.optimise then TrimmedLines page out else out = page) := by
  have hi : initParser c = .ok {} := by
    unfold initParser
    rw [if_neg (fun q => (h0 q.1).1 q.2), if_neg (fun q => (h0 q.1).2 q.2)]
  have hread : Readable u c f.events := by
    have := readable_forest u c f (pre := false) [] hw
    simp only [ne_eq, not_true_eq_false] at this
    exact this.2 h1
  have hlim : LimitIs c 10 := .inl ⟨hl, rfl⟩
  obtain ⟨s, hs⟩ := ((C66_only u c {} hi f.events).1).2 hread
  obtain ⟨out, h'⟩ := (C65_render u c [] f.events {} hr (.inl rfl) hl hd hi).1.2
    ⟨hread, s, hs, (hasRoom_iff (reach_selInv hi hs) f (forest_stands hw hi hs).1).2 h2⟩
  obtain ⟨s', hs', rfl⟩ := renderEvents_rendered.1 h'
  obtain ⟨page, q1, q2⟩ := C82 u c f.events s' hs' hr (fun _ _ _ _ => hd) 10 hlim
  obtain ⟨t0, t1, e0, e1, -, hdom, -⟩ := rendered_inv hs'
  rw [hi] at e0; cases e0
  have key := fun page => pageOfTree_iff hw hi e1 hr 10 page
  rw [← hdom] at key
  exact ⟨page, s'.parsed, (key _).1 q1, fun page' p' => C82_unique u c f.events s' hs' hr (fun _ _ _ _ => hd) 10 hlim _ _ ((key _).2 p') q1, h', q2⟩

/-- What a document in the default style is rendered as: it must be readable and have room for its text, and the page is the one that
belongs to its tree. -/
theorem C91 (u : Uni) (c : Cfg) (f : Forest) (hw : f.WellFormed false) (hr : c.renderers = []) (hl : c.linkRenderers = [])
    (hd : c.defaultRenderer = .cls .renderer) (h0 : c.outputFormat = py"gophermap" → c.linkPlacement ≠ py"inline" ∧ c.gopherHost ≠ [])
    (out : Str) : renderEvents u c f.events = .ok out ↔ f.Readable u c False ∧ f.HasRoom [] 0 (textRoom c.pageBox) ∧
      ∃ page, PageOfTree u c f 10 page ∧ (if c.optimise then TrimmedLines page out else out = page) := by
  have hi : initParser c = .ok {} := by
    unfold initParser
    rw [if_neg (fun q => (h0 q.1).1 q.2), if_neg (fun q => (h0 q.1).2 q.2)]
  constructor
  · intro h
    obtain ⟨k1, s, k2, k3⟩ := (C65_render u c [] f.events {} hr (.inl rfl) hl hd hi).1.1 ⟨out, h⟩
    have h1 : f.Readable u c False := by
      have := readable_forest u c f (pre := false) [] hw
      simp only [ne_eq, not_true_eq_false] at this
      exact this.1 k1
    have h2 := (hasRoom_iff (reach_selInv hi k2) f (forest_stands hw hi k2).1).1 k3
    obtain ⟨page, out', p1, -, p2, p3⟩ := C91_unique u c f hw hr hl hd h0 h1 h2
    rw [h] at p2; cases p2
    exact ⟨h1, h2, page, p1, p3⟩
  · rintro ⟨k1, k2, page, p1, p2⟩
    obtain ⟨page', out', -, q2, q3, q4⟩ := C91_unique u c f hw hr hl hd h0 k1 k2
    have := q2 _ p1
    subst this
    rw [q3]
    congr 1
    by_cases ho : c.optimise
    · rw [if_pos ho] at p2 q4
      rw [trimmed_unique p2, trimmed_unique q4]
    · rw [if_neg ho] at p2 q4
      rw [p2, q4]

/-- The same for the source of a document. -/
theorem C91_source (u : Uni) (c : Cfg) (doc : List Item) (hdoc : DocOk u.entity u.lower doc) (f : Forest) (hf : Denotes (docEvents u.lower doc) f)
    (hw : f.WellFormed false) (hr : c.renderers = []) (hl : c.linkRenderers = [])
    (hd : c.defaultRenderer = .cls .renderer) (h0 : c.outputFormat = py"gophermap" → c.linkPlacement ≠ py"inline" ∧ c.gopherHost ≠ [])
    (out : Str) : renderHtml u c [docSrc doc] = .ok out ↔ f.Readable u c False ∧ f.HasRoom [] 0 (textRoom c.pageBox) ∧
      ∃ page, PageOfTree u c f 10 page ∧ (if c.optimise then TrimmedLines page out else out = page) := by
  rw [(C68 u c doc hdoc).2.2, renderEvents_denotes u c hf]
  exact C91 u c f hw hr hl hd h0 out

/-- A heading and a list with a link. -/
def c91Example : Forest :=
  .elem py"h1" [] (.text py"A" .nil) (.elem py"ol" [] (.elem py"li" [] (.elem py"a" [(py"href", some py"x")] (.text py"one" .nil) .nil)
    (.elem py"li" [] (.text py"two" .nil) .nil)) .nil)

example : c91Example.Readable asciiUni {} False ∧ c91Example.HasRoom [] 0 67 ∧
    ∃ page, PageOfTree asciiUni {} c91Example 10 page ∧ TrimmedLines page py"\n# A #\n\n1. [one][1]\n2. two\n\n\n[1] one: x" :=
  (C91 asciiUni {} c91Example (by simp [c91Example, Forest.WellFormed, VoidTag]) rfl rfl rfl (fun h => by cases h) _).1 (by decide +kernel)

end Verif
