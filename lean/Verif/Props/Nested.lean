import Verif.Proofs.Nested

/-!
# Lists in list items: C57
-/

namespace Verif

open Spec

theorem weave_tail (t z : Str) (ps : List (Str × Str)) : weave t ps ++ z = weave (t ++ z) ps := by
  induction ps with
  | nil => rfl
  | cons p ps ih => simp only [weave, List.append_assoc, ih]

theorem woven_first {w n : Int} {ps : List (Str × Str)} (h : Woven w n ps) (hg : ∀ p qs, ps = p :: qs → (p.1.length : Int) > w) :
    Woven w 0 ps := by
  cases ps with
  | nil => trivial
  | cons p ps => exact ⟨h.1, h.2.1, ⟨h.2.2.1.1, by have := hg p ps rfl; omega⟩, h.2.2.2⟩

theorem room_item (box : Box) (above : Int) (a : Str) : room (inside box above 0 (some (a ++ py"{}"))) = room box - a.length := by
  simp only [inside, Box.new, room, Sides.addTotals, padding_bullet]
  omega

theorem room_list (box : Box) : room (inside box 1 1) = room box := by
  simp only [inside, Box.new, room, Sides.addTotals, ownTemplatePadding]
  omega

theorem textRoom_item (box : Box) (above : Int) (a : Str) : textRoom (inside box above 0 (some (a ++ py"{}"))) = textRoom box - a.length := by
  simp only [inside, Box.new, textRoom, room, Sides.addTotals, padding_bullet]
  omega

theorem textRoom_list (box : Box) : textRoom (inside box 1 1) = textRoom box := by
  simp only [inside, Box.new, textRoom, room, Sides.addTotals, ownTemplatePadding]
  omega

theorem lastLen_nonneg (ps : List (Str × Str)) : ∀ n : Int, 0 ≤ n → 0 ≤ lastLen n ps := by
  induction ps with
  | nil => intro n hn; exact hn
  | cons p ps ih => intro n _; exact ih _ (by omega)

/-- The text of the lists of an item, and of the whitespace between them: rows, the first of them after more whitespace than
fits on a row. -/
theorem lists_weave {u : Uni} {c : Cfg} {es : List Event} {s : PState} (h : Rendered u c es s) (hr : c.renderers = []) {f i : Nat}
    (ht : HasTag s.dom i py"li") {n : Node} (hn : s.dom.nodes[i]? = some n) {B : Box} (hpad : textRoom B ≤ room B) :
    ∀ (rest : List Nat) (z : Str), (∀ l ∈ rest, l ∈ n.children) →
    (∀ l ∈ rest, BlankText s.dom l ∧ (∀ k b y, textOf u s k b l = .ok y → Simple y) ∨ PlainList u s f B l) →
    renderAll (textOf u s (f + 2) B) rest = .ok z →
    ∃ ps t rs, z = weave t ps ∧ Woven (textRoom B) 0 ps ∧ ps.map Prod.snd = rs ∧ ListsOf u s f B rest rs ∧ Blank t ∧ Simple t ∧
      ∀ p qs, ps = p :: qs → (p.1.length : Int) > textRoom B := by
  have hnl1 : Blank py"\n" := by simp [Blank, isSpace]
  intro rest
  induction rest with
  | nil =>
    intro z _ _ hz
    simp only [renderAll, Except.ok.injEq] at hz
    subst hz
    exact ⟨[], [], [], rfl, trivial, rfl, .nil, by simp [Blank], ⟨by simp, by simp⟩, by simp⟩
  | cons l rest ih =>
    intro z hmem hok hz
    obtain ⟨y, z', z1, z2, rfl⟩ := renderAll_cons hz
    obtain ⟨ps2, t2, rs2, i1, i2, i3, i4, i5, i6, i7⟩ :=
      ih z' (fun l hl => hmem l (by simp [hl])) (fun l hl => hok l (by simp [hl])) z2
    rcases hok l (by simp) with ⟨hb, hs⟩ | ⟨hl, m, hm, hmp, hkids, hblank, hitems, hapart⟩
    · -- whitespace
      obtain ⟨ps', t', e1, e2, e3, e4, e5, e6⟩ := woven_gap (t := t2) (blank_textOf hb z1) (hs _ _ y z1) i2
      refine ⟨ps', t', rs2, by rw [i1, e1], woven_mono (fun _ => by omega) e2, by rw [e3, i3], .blank hb i4, e4 i5, e5 i6, ?_⟩
      intro p qs e
      obtain ⟨p0, q1, rfl⟩ := e6 p qs e
      have := i7 p0 qs q1
      simp only [List.length_append]
      omega
    · -- a list
      have hlt : ∃ tag, HasTag s.dom l tag ∧ tag ∈ [py"ul", py"ol", py"dl"] := by
        rcases hl with hl | hl
        · exact ⟨_, hl, by simp⟩
        · exact ⟨_, hl, by simp⟩
      obtain ⟨tag, t1, t3⟩ := hlt
      rw [list_text h hr t1 t3 (f + 1)] at z1
      cases hc : contents u s (f + 1) (inside B 1 1) l with
      | error e => rw [hc] at z1; cases z1
      | ok X =>
        rw [hc] at z1
        simp only [Except.map, Except.ok.injEq] at z1
        have hX := contents_children hm hmp hc
        have hnest : ∀ j ∈ m.children, HasTag s.dom j py"li" → InNestedList s.dom j := by
          intro j hj _
          refine ⟨l, ⟨m, hm, hj⟩, ?_, i, ⟨n, hn, hmem l (by simp)⟩, ht⟩
          rcases hl with hl | hl
          · exact .inr hl
          · exact .inl hl
        obtain ⟨ps, t, ws, _, rs, j1, j2, j3, j4, j5, j6, j7, -⟩ := list_weave h hr (f := f) (box := inside B 1 1)
          (by rw [room_list, textRoom_list]; omega) m.children X (fun j hj => (hkids j hj).imp_right (fun k => ⟨k, hnest j hj k⟩))
          (fun j hj hb y hy => hblank j hj hb _ _ y hy) hitems
          (fun before' j between k after' e a' b' hj hk ha hb => by
            obtain ⟨-, -, -, -, -, -, hinv, -, -⟩ := rendered_inv h
            exact bullet_mono hinv hm e hj hk ha hb) hapart hX
        rw [textRoom_list] at j2
        -- its rows filled up
        obtain ⟨ps', t', p1, p2, p3, p4, p5, p6⟩ := padFrom_weave (W := room B) j5 j6 ps 0 _ j2
        have hwide : ∀ p qs, ps' = p :: qs → (p.1.length : Int) > textRoom B := by
          intro p qs e
          cases ps with
          | nil => rw [e] at p3; simp at p3
          | cons p0 qs0 =>
            obtain ⟨p', qs', e', q⟩ := p6 p0 qs0 rfl (j7 p0 qs0 rfl)
            rw [e, List.cons.injEq] at e'
            rw [e'.1]
            omega
        have hfirst : Woven (textRoom B) 0 ps' := woven_first p2 hwide
        have hpl : padLines (room B) X = weave t' ps' := by rw [padLines_from, j1, p1]
        rw [hpl] at z1
        -- the newlines around it
        obtain ⟨psA, tA, g1, g2, g3, g4, g5, g6⟩ := woven_gap (t := t' ++ py"\n") hnl1 simple_nl hfirst
        have hyA : y = weave tA psA := by rw [← z1, ← g1, List.append_assoc, weave_tail]
        have hbA := g4 (blank_append p4 hnl1)
        have hsA := g5 (simple_append.2 ⟨p5, simple_nl⟩)
        have hwA : ∀ p qs, psA = p :: qs → (p.1.length : Int) > textRoom B := by
          intro p qs e
          obtain ⟨p0, q1, rfl⟩ := g6 p qs e
          have := hwide p0 qs q1
          simp only [List.length_append]
          omega
        have hA : Woven (textRoom B) 0 psA := woven_mono (fun _ => by simp) g2
        have hrs : psA.map Prod.snd = rs := by rw [g3, p3, j3]
        have hlists : ListsOf u s f B (l :: rest) (rs ++ rs2) := .list hl hm j4 i4
        cases psA with
        | nil =>
          obtain ⟨ps3, t3, e1, e2, e3, e4, e5, e6⟩ := woven_gap (t := t2) hbA hsA i2
          refine ⟨ps3, t3, rs ++ rs2, by rw [hyA, i1]; exact e1, woven_mono (fun _ => by omega) e2, by rw [e3, i3, ← hrs]; rfl,
            hlists, e4 i5, e5 i6, ?_⟩
          intro p qs e
          obtain ⟨p0, q1, rfl⟩ := e6 p qs e
          have := i7 p0 qs q1
          simp only [List.length_append]
          omega
        | cons p qs =>
          obtain ⟨ps3, t3, e1, e2, e3, e4, e5, e6⟩ := woven_append (t := tA) (t' := t2) hbA hsA hA
            (woven_mono (fun _ => by have := lastLen_nonneg (p :: qs) 0 (by omega); omega) i2)
          refine ⟨ps3, t3, rs ++ rs2, by rw [hyA, i1]; exact e1, e2, by rw [e3, i3, hrs], hlists, e4 i5, e5 i6, ?_⟩
          intro p' qs' e
          obtain ⟨rs', e'⟩ := e6 p qs rfl
          rw [e, List.cons.injEq] at e'
          rw [e'.1]
          exact hwA p qs rfl

/-- A list item with text and then lists, in any document rendered with the default rules: its rows are the bullet and its
own text wrapped, and then the rows of the items of the lists, each item with its bullet on a new row, and all of them
indented by the width of the bullet of the outer item. The item of the conclusion can itself be one of the items of a list in
an item, whose lines are then given by this theorem.

Missing: items with an inner item of several rows that has no whitespace between it and the next, for which the claim is false
(`C57_fails`); that the inner items are indented further than the outer ones in all depths, which is false
(`C57_depth_fails`); items without text before the list, for which the claim is false (`C57_bare_fails`); items with text after
a list, which can end up in the last row of the list (`C57_after_fails`); colours. -/
theorem C57_partial (u : Uni) (c : Cfg) (es : List Event) (s : PState) (h : Rendered u c es s) (hr : c.renderers = [])
    (i : Nat) (ht : HasTag s.dom i py"li") (n : Node) (hn : s.dom.nodes[i]? = some n) (hnp : n.pending = [])
    (before lists : List Nat) (hch : n.children = before ++ lists)
    (f : Nat) (box : Box) (hpad : textRoom box ≤ room box)
    (hown : ∀ b own, renderAll (textOf u s (f + 2) b) before = .ok own → ¬ Blank own ∧ Simple own)
    (hlists : ∀ above a, Bullet s.dom i a → ∀ l ∈ lists, BlankText s.dom l ∧ (∀ k b y, textOf u s k b l = .ok y → Simple y) ∨
      PlainList u s f (inside box above 0 (some (a ++ py"{}"))) l)
    (y : Str) (hy : textOf u s (f + 3) box i = .ok y) :
    ∃ above a own lines rs, LiSpace s.dom i above ∧ Bullet s.dom i a ∧
      renderAll (textOf u s (f + 2) (inside box above 0 (some (a ++ py"{}")))) before = .ok own ∧
      wrap u (proseOpts u (textRoom box - a.length)) own = .ok lines ∧
      ListsOf u s f (inside box above 0 (some (a ++ py"{}"))) lists rs ∧
      ItemLines u s (f + 2) box i a (lines ++ rs) ∧
      y = rep '\n' above ++ rows (room box) (hang a (lines ++ rs)) := by
  obtain ⟨above, a, x, L, l1, l2, l3, l4, l5, l6⟩ := li_text h hr ht hy
  have hx := contents_children hn hnp l4
  rw [hch] at hx
  obtain ⟨own, z, x1, x2, rfl⟩ := renderAll_split hx
  obtain ⟨o1, o2⟩ := hown _ own x1
  have hroom := room_item box above a
  have htext := textRoom_item box above a
  obtain ⟨ps, t, rs, i1, i2, i3, i4, i5, i6, -⟩ := lists_weave h hr ht hn (B := inside box above 0 (some (a ++ py"{}")))
    (by rw [hroom, htext]; omega) lists z (fun l hl => by rw [hch]; simp [hl]) (hlists above a l2) x2
  rw [htext] at i2
  -- its own text
  obtain ⟨tl, r1, r2, r3⟩ := rstrip_parts o1
  have hs1 := simple_append.1 (r1 ▸ o2)
  have hpos := wrap_pos l5
  obtain ⟨lines, w1⟩ := wrap_prose u _ hpos (rstrip own)
  have w2 : wrap u (proseOpts u (textRoom box - a.length)) own = .ok lines := by
    rw [r1]
    exact wrap_trail hs1.1 r3 hs1.2 r2 w1
  obtain ⟨ps2, t3, g1, g2, g3, g4, g5, -⟩ := woven_gap (t := t) r2 hs1.2 i2
  have hwhole : own ++ z = rstrip own ++ weave t3 ps2 := by
    have : own ++ z = (rstrip own ++ tl) ++ z := by rw [← r1]
    rw [this, i1, List.append_assoc, g1]
  have w3 := wrap_own hs1.1 r3 (g5 i6) (g4 i5) w1 (woven_mono (fun _ => by omega) g2)
  rw [g3, i3, ← hwhole] at w3
  have hL : L = lines ++ rs := by rw [l5] at w3; cases w3; rfl
  rw [hL] at l5 l6
  exact ⟨above, a, own, lines, rs, l1, l2, x1, w2, i4, ⟨ht, l2, above, _, l1, l4, l5⟩, l6⟩

def c57Cfg : Cfg := { box := some (Box.new 14 {} {} {} none none) }

/-- `<ul><li>par. Ent<ul><li>one two three</li>⏎ <li>four</li></ul></li></ul>` -/
def c57Events : List Event :=
  [.start py"ul" [], .start py"li" [], .data py"par. Ent", .start py"ul" [], .start py"li" [], .data py"one two three", .stop py"li",
    .data py"\n ", .start py"li" [], .data py"four", .stop py"li", .stop py"ul", .stop py"li", .stop py"ul"]

theorem text_contents {u : Uni} {s : PState} {f : Nat} {b : Box} {i j : Nat} {n m : Node} {d x : Str} (hn : s.dom.nodes[i]? = some n)
    (hp : n.pending = []) (hc : n.children = [j]) (hm : s.dom.nodes[j]? = some m) (hd : m.data = some d)
    (h : contents u s f b i = .ok x) : x = d := by
  have h := contents_children hn hp h
  rw [hc] at h
  obtain ⟨y, z, h1, h2, rfl⟩ := renderAll_cons h
  simp only [renderAll, Except.ok.injEq] at h2
  subst h2
  cases f with
  | zero => cases h1
  | succ f =>
    simp only [textOf, renderNode, hm, hd, Except.ok.injEq] at h1
    rw [← h1]; simp

/-- What the conditions look at. -/
def nodeView (n : Node) : Option Str × Option Str × List Nat × Bool := (n.tag, n.data, n.children, n.pending.isEmpty)

theorem view_node {d : Dom} {vs : List (Option Str × Option Str × List Nat × Bool)} (h : d.nodes.map nodeView = vs) {i : Nat}
    {t : Option Str} {x : Option Str} {cs : List Nat} (hv : vs[i]? = some (t, x, cs, true)) :
    ∃ n, d.nodes[i]? = some n ∧ n.tag = t ∧ n.data = x ∧ n.children = cs ∧ n.pending = [] := by
  subst h
  rw [List.getElem?_map] at hv
  cases hn : d.nodes[i]? with
  | none => rw [hn] at hv; cases hv
  | some n =>
    rw [hn] at hv
    simp only [Option.map_some, Option.some.injEq, nodeView, Prod.mk.injEq] at hv
    exact ⟨n, rfl, hv.1, hv.2.1, hv.2.2.1, by simpa using hv.2.2.2⟩

set_option maxRecDepth 20000 in
theorem c57_doc : ∃ s, Rendered asciiUni c57Cfg c57Events s ∧ s.dom.nodes.map nodeView =
    [(some py"ul", none, [1], true), (some py"li", none, [2, 3], true), (none, some py"par. Ent", [], true),
      (some py"ul", none, [4, 6, 7], true), (some py"li", none, [5], true), (none, some py"one two three", [], true),
      (none, some py" ", [], true), (some py"li", none, [8], true), (none, some py"four", [], true)] ∧
    s.parsed = py"\n* par.  Ent\n  * one two\n  three\n  * four\n" :=
  ⟨_, ⟨_, _, rfl, rfl, rfl⟩, by decide, by decide⟩

/-- All conditions hold in an example: the outer item is number 1 and the inner list number 3. -/
example : ∃ s n, Rendered asciiUni c57Cfg c57Events s ∧ c57Cfg.renderers = [] ∧ HasTag s.dom 1 py"li" ∧
    s.dom.nodes[1]? = some n ∧ n.pending = [] ∧ n.children = [2] ++ [3] ∧
    (∀ f b own, renderAll (textOf asciiUni s (f + 2) b) [2] = .ok own → ¬ Blank own ∧ Simple own) ∧
    (∀ f box, PlainList asciiUni s f box 3) ∧
    s.parsed = py"\n* par.  Ent\n  * one two\n  three\n  * four\n" := by
  obtain ⟨s, h, hv, hout⟩ := c57_doc
  obtain ⟨n1, a1, b1, -, d1, e1⟩ := view_node hv (i := 1) rfl
  obtain ⟨n2, a2, -, c2, -, -⟩ := view_node hv (i := 2) rfl
  obtain ⟨n3, a3, b3, -, d3, e3⟩ := view_node hv (i := 3) rfl
  obtain ⟨n4, a4, b4, c4, d4, e4⟩ := view_node hv (i := 4) rfl
  obtain ⟨n5, a5, -, c5, -, -⟩ := view_node hv (i := 5) rfl
  obtain ⟨n6, a6, b6, c6, d6, e6⟩ := view_node hv (i := 6) rfl
  obtain ⟨n7, a7, b7, c7, d7, e7⟩ := view_node hv (i := 7) rfl
  obtain ⟨n8, a8, -, c8, -, -⟩ := view_node hv (i := 8) rfl
  have h4 : HasTag s.dom 4 py"li" := ⟨n4, a4, b4⟩
  have h7 : HasTag s.dom 7 py"li" := ⟨n7, a7, b7⟩
  have h6 : ¬ HasTag s.dom 6 py"li" := by rintro ⟨n, x1, x2⟩; rw [a6] at x1; cases x1; rw [b6] at x2; cases x2
  have s1 : Simple py"one two three" := ⟨by decide, by decide⟩
  have s2 : Simple py"four" := ⟨by decide, by decide⟩
  have s3 : Simple py" " := ⟨by decide, by decide⟩
  refine ⟨s, n1, h, rfl, ⟨n1, a1, b1⟩, a1, e1, d1, ?_, fun f box => ⟨.inl ⟨n3, a3, b3⟩, n3, a3, e3, ?_, ?_, ?_, ?_⟩, hout⟩
  · intro f b own h
    obtain ⟨y, z, h1, h2, rfl⟩ := renderAll_cons h
    simp only [textOf, renderNode, a2, c2, Except.ok.injEq] at h1
    simp only [renderAll, Except.ok.injEq] at h2
    subst h1 h2
    refine ⟨fun hb => ?_, by decide, by decide⟩
    have := hb 'p' (by simp)
    revert this; decide
  · rw [d3]
    intro j hj
    simp only [List.mem_cons, List.not_mem_nil, or_false] at hj
    rcases hj with rfl | rfl | rfl
    · exact .inr h4
    · exact .inl ⟨n6, _, a6, c6, by simp [Blank, isSpace]⟩
    · exact .inr h7
  · rw [d3]
    intro j hj hb k b y hy
    obtain ⟨n, t, x1, x2, -⟩ := hb
    cases k with
    | zero => cases hy
    | succ k =>
      simp only [textOf, renderNode, x1, x2, Except.ok.injEq] at hy
      subst hy
      simp only [List.mem_cons, List.not_mem_nil, or_false] at hj
      rcases hj with rfl | rfl | rfl
      · rw [a4] at x1; cases x1; rw [c4] at x2; cases x2
      · rw [a6] at x1; cases x1; rw [c6] at x2; cases x2; exact s3
      · rw [a7] at x1; cases x1; rw [c7] at x2; cases x2
  · rw [d3]
    intro j hj b x hx
    simp only [List.mem_cons, List.not_mem_nil, or_false] at hj
    rcases hj with rfl | rfl | rfl
    · rw [text_contents a4 e4 d4 a5 c5 hx]; exact s1
    · have := contents_children a6 e6 hx
      rw [d6] at this
      simp only [renderAll, Except.ok.injEq] at this
      subst this
      exact ⟨by simp, by simp⟩
    · rw [text_contents a7 e7 d7 a8 c8 hx]; exact s2
  · rw [d3]
    intro before j between k after e hk hb a lines hi
    rcases before with _ | ⟨x, _ | ⟨x', _ | ⟨x'', before⟩⟩⟩
    · simp only [List.nil_append, List.cons.injEq] at e
      obtain ⟨rfl, e⟩ := e
      rcases between with _ | ⟨b, _ | ⟨b', between⟩⟩
      · simp only [List.nil_append, List.cons.injEq] at e
        obtain ⟨rfl, e⟩ := e
        exact absurd hk h6
      · simp only [List.cons_append, List.nil_append, List.cons.injEq] at e
        obtain ⟨rfl, rfl, e⟩ := e
        right
        exact ⟨py" ", by simp [renderAll, textOf, renderNode, a6, c6, bind, Except.bind, pure, Except.pure], by simp⟩
      · simp at e
    · simp only [List.cons_append, List.nil_append, List.cons.injEq] at e
      obtain ⟨rfl, rfl, e⟩ := e
      exact absurd hi.1 h6
    · simp at e
    · simp at e

/-- `<ul><li>parent<ul><li>one two three</li><li>four</li></ul></li></ul>` -/
def c57Close : List Event :=
  [.start py"ul" [], .start py"li" [], .data py"parent", .start py"ul" [], .start py"li" [], .data py"one two three", .stop py"li",
    .start py"li" [], .data py"four", .stop py"li", .stop py"ul", .stop py"li", .stop py"ul"]

set_option maxRecDepth 20000 in
/-- Without whitespace between the items, the bullet of the second inner item ends up at the end of the last row of the first. -/
theorem C57_fails : ∃ out, renderEvents asciiUni c57Cfg c57Close = .ok out ∧
    out = py"\n* parent\n  * one two\n  three      *\n  four\n" ∧
    ∀ line ∈ splitCh '\n' out, startsWith line py"  * four" = false :=
  ⟨_, rfl, by decide, by decide⟩

/-- `<ul><li>p<ul><li>q<ul><li>r</li></ul></li></ul></li></ul>` -/
def c57Deep : List Event :=
  [.start py"ul" [], .start py"li" [], .data py"p", .start py"ul" [], .start py"li" [], .data py"q", .start py"ul" [], .start py"li" [],
    .data py"r", .stop py"li", .stop py"ul", .stop py"li", .stop py"ul", .stop py"li", .stop py"ul"]

set_option maxRecDepth 20000 in
/-- An item of the third level is not indented further than its parent item. -/
theorem C57_depth_fails : renderEvents asciiUni c57Cfg c57Deep = .ok py"\n* p\n  * q\n  * r\n" := by decide

/-- `<ul><li><ul><li>a</li> <li>b</li></ul></li></ul>` -/
def c57Bare : List Event :=
  [.start py"ul" [], .start py"li" [], .start py"ul" [], .start py"li" [], .data py"a", .stop py"li", .data py" ", .start py"li" [],
    .data py"b", .stop py"li", .stop py"ul", .stop py"li", .stop py"ul"]

set_option maxRecDepth 20000 in
/-- In an item without text of its own, the first inner item is in the row of the outer bullet. -/
theorem C57_bare_fails : renderEvents asciiUni c57Cfg c57Bare = .ok py"\n*   * a\n  * b\n" := by decide

/-- `<ul><li>x<ul><li>one two three</li></ul>y z</li></ul>` -/
def c57After : List Event :=
  [.start py"ul" [], .start py"li" [], .data py"x", .start py"ul" [], .start py"li" [], .data py"one two three", .stop py"li",
    .stop py"ul", .data py"y z", .stop py"li", .stop py"ul"]

set_option maxRecDepth 20000 in
/-- Text of an item after its list can start in the last row of the inner item. -/
theorem C57_after_fails : renderEvents asciiUni c57Cfg c57After = .ok py"\n* x\n  * one two\n  three      y\n  z\n" := by decide

end Verif
