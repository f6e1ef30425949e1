import Verif.Proofs.Close

/-!
# Links, resetting, closing: C32 to C39
-/

namespace Verif

open Spec

/-! ## C32 -/

theorem count_lt_pairwise (l : List Nat) (h : l.Pairwise (· < ·)) (k i : Nat) (hk : l[k]? = some i) :
    (l.filter (· < i)).length = k := by
  induction l generalizing k with
  | nil => simp at hk
  | cons a l ih =>
    cases h with
    | cons ha hp =>
      cases k with
      | zero =>
        simp only [List.getElem?_cons_zero, Option.some.injEq] at hk
        subst hk
        rw [List.filter_cons]
        simp only [Nat.lt_irrefl, decide_false, Bool.false_eq_true, if_false]
        rw [List.length_eq_zero_iff, List.filter_eq_nil_iff]
        intro b hb
        have := ha b hb
        simp; omega
      | succ k =>
        simp only [List.getElem?_cons_succ] at hk
        have := ha i (List.mem_of_getElem? hk)
        rw [List.filter_cons]
        simp only [this, decide_true, if_true, List.length_cons]
        rw [ih hp k hk]

theorem nodesWhere_sorted (d : Dom) (p : Node → Bool) : (nodesWhere d p).Pairwise (· < ·) :=
  List.Pairwise.filter _ List.pairwise_lt_range

/-- The extracted links and images, in document order, show the numbers 1, 2, 3 and so on. -/
theorem C32 (u : Uni) (c : Cfg) (s0 s : PState) (es : List Event) (h0 : initParser c = .ok s0)
    (h : feed u c s0 es = .ok s) :
    (nodesWhere s.dom (extracted c)).map (linkNumber s.dom) =
      (List.range' 1 (nodesWhere s.dom (extracted c)).length).map some := by
  have hl := reach_linv h0 h
  apply List.ext_getElem?
  intro k
  rw [List.getElem?_map, List.getElem?_map]
  cases hk : (nodesWhere s.dom (extracted c))[k]? with
  | none =>
    rw [List.getElem?_eq_none_iff] at hk
    rw [List.getElem?_eq_none (by simpa using hk)]
    rfl
  | some i =>
    have hlt := getElem?_lt hk
    rw [List.getElem?_range' hlt]
    simp only [Option.map_some, Nat.one_mul, Option.some.injEq]
    obtain ⟨n, h1, h2⟩ := nodesWhere_bound (List.mem_of_getElem? hk)
    have ht : n.tag = some py"a" ∨ n.tag = some py"img" := by
      unfold extracted at h2
      cases ht : n.tag with
      | none => rw [ht] at h2; cases h2
      | some t =>
        rw [ht] at h2
        simp only [Bool.or_eq_true, Bool.and_eq_true, decide_eq_true_eq] at h2
        rcases h2 with h2 | h2 <;> simp [h2.1]
    have hs := (hl.link i n h1).2 ht
    obtain ⟨l, hl'⟩ := Option.isSome_iff_exists.1 hs
    have hc := hl.ctx i n l h1 hl'
    unfold linkNumber
    rw [h1]
    simp only [Option.bind_some, hl', Option.map_some, Option.some.injEq]
    rw [hc]
    simp only
    rw [count_lt_pairwise _ (nodesWhere_sorted _ _) k i hk]
    omega

/-- The links and images of the tree are those of the start tags. -/
theorem C32_count (u : Uni) (c : Cfg) (s0 s : PState) (es : List Event) (h0 : initParser c = .ok s0)
    (h : feed u c s0 es = .ok s) (i : Nat) (n : Node) (hn : s.dom.nodes[i]? = some n) :
    (linkNumber s.dom i).isSome ↔ n.tag = some py"a" ∨ n.tag = some py"img" := by
  have hl := reach_linv h0 h
  rw [← hl.link i n hn]
  unfold linkNumber
  rw [hn]
  simp

/-- `<p><a href="x">t</a><img src="y"></p><a href="z">`, images left inline. -/
def c32Example : List Event :=
  [.start py"p" [], .start py"a" [(py"href", some py"x")], .data py"t", .stop py"a",
   .start py"img" [(py"src", some py"y")], .stop py"p", .start py"a" [(py"href", some py"z")]]

example : (match feed asciiUni {} {} c32Example with
    | .ok s => decide (nodesWhere s.dom (extracted {}) = [1, 4] ∧
        (nodesWhere s.dom (extracted {})).map (linkNumber s.dom) = [some 1, some 2])
    | _ => false) = true := by decide

/-! ## C33 -/

theorem close_reach {u : Uni} {c : Cfg} {s0 s s' : PState} {es : List Event} (h0 : initParser c = .ok s0)
    (h : feed u c s0 es = .ok s) (hc : close u c s = .ok s') : ∃ t bodies foot,
      assignRenderers c s.dom s.dom.fuel s.dom.roots [] = .ok t ∧
      s.dom.roots.mapM (renderNode u s.dom t s.dom.fuel false c.pageBox) = .ok bodies ∧
      footerParts u c s s.dom t = .ok foot ∧
      s' = { s with dom := s.dom, stack := [], assigned := t, parts := bodies ++ foot, parsed := if c.optimise then optimise (framed c (bodies ++ foot)) else framed c (bodies ++ foot) } := by
  have hp : popStack s.dom s.stack.reverse = s.dom := popStack_eq (reach_inv h0 h) (by simp)
  obtain ⟨t, b, f, h1, h2, h3, h4⟩ := close_ok hp hc
  obtain ⟨l1, l2, l3⟩ := (reach_linv h0 h).log
  rw [l3] at h1
  rw [l1, List.nil_append] at h4
  exact ⟨t, b, f, h1, h2, h3, h4⟩

/-- With links in the footer: after the renderings of the roots come a line break and then the footer entries, one for
each link or image placed in the footer, in document order, which is the order of their numbers. (What is missing: if
links are placed elsewhere, there is no footer, even if images are placed there, see `C33_fails`.) -/
theorem C33_partial (u : Uni) (c : Cfg) (s0 s s' : PState) (es : List Event) (h0 : initParser c = .ok s0)
    (h : feed u c s0 es = .ok s) (hc : close u c s = .ok s') (hp : c.linkPlacement = py"footer")
    (hne : nodesWhere s.dom (placed c py"footer") ≠ []) :
    ∃ bodies entries, s'.parts = bodies ++ py"\n" :: entries ∧ bodies.length = s.dom.roots.length ∧
      entries.length = (nodesWhere s.dom (placed c py"footer")).length ∧
      (∀ (k : Nat) i, (nodesWhere s.dom (placed c py"footer"))[k]? = some i → ∃ e, entries[k]? = some e ∧
        renderNode u s'.dom s'.assigned s'.dom.fuel true c.pageBox i = .ok e) ∧
      (nodesWhere s.dom (placed c py"footer")).Pairwise (fun i j =>
        ∃ a b, linkNumber s.dom i = some a ∧ linkNumber s.dom j = some b ∧ a < b) := by
  obtain ⟨t, b, f, h1, h2, h3, rfl⟩ := close_reach h0 h hc
  have hl := reach_linv h0 h
  unfold footerParts at h3
  rw [hl.footer, if_pos ⟨hp, hne⟩] at h3
  cases he : (nodesWhere s.dom (placed c py"footer")).mapM (renderNode u s.dom t s.dom.fuel true c.pageBox) with
  | error e => rw [he] at h3; cases h3
  | ok ls =>
    rw [he] at h3
    simp only [Except.map, Except.ok.injEq] at h3
    subst h3
    refine ⟨b, ls, rfl, (mapM_ok h2).1, (mapM_ok he).1, (mapM_ok he).2, ?_⟩
    have num : ∀ i, i ∈ nodesWhere s.dom (placed c py"footer") → i ∈ nodesWhere s.dom (extracted c) ∧
        linkNumber s.dom i = some (((nodesWhere s.dom (extracted c)).filter (· < i)).length + 1) := by
      intro i hi
      obtain ⟨n, m1, m2⟩ := nodesWhere_bound hi
      unfold placed at m2
      cases ht : n.tag with
      | none => rw [ht] at m2; cases m2
      | some tg =>
        rw [ht] at m2
        simp only [Bool.or_eq_true, Bool.and_eq_true, decide_eq_true_eq] at m2
        refine ⟨mem_nodesWhere.2 ⟨n, m1, ?_⟩, ?_⟩
        · unfold extracted
          rw [ht]
          simp only [Bool.or_eq_true, Bool.and_eq_true, decide_eq_true_eq]
          rcases m2 with ⟨m2, m3⟩ | ⟨m2, m3⟩
          · exact .inl ⟨m2, by rw [m3]; decide⟩
          · exact .inr ⟨m2, by rw [m3]; decide⟩
        · have hs := (hl.link i n m1).2 (by rw [ht]; rcases m2 with m2 | m2 <;> simp [m2.1])
          obtain ⟨l, hl'⟩ := Option.isSome_iff_exists.1 hs
          unfold linkNumber
          rw [m1]
          simp only [Option.bind_some, hl', Option.map_some, Option.some.injEq]
          rw [hl.ctx i n l m1 hl']
    refine List.Pairwise.imp_of_mem ?_ (nodesWhere_sorted _ _)
    intro i j hi hj hlt
    refine ⟨_, _, (num i hi).2, (num j hj).2, ?_⟩
    have hsub : ((nodesWhere s.dom (extracted c)).filter (· < i)).Sublist
        (((nodesWhere s.dom (extracted c)).filter (· < j)).filter (· < i)) := by
      rw [List.filter_filter]
      have : (nodesWhere s.dom (extracted c)).filter (fun x => decide (x < i) && decide (x < j)) =
          (nodesWhere s.dom (extracted c)).filter (· < i) := by
        apply List.filter_congr
        intro x _
        by_cases hx : x < i
        · have : x < j := by omega
          simp [hx, this]
        · simp [hx]
      rw [this]
      exact List.Sublist.refl _
    have h5 := hsub.length_le
    have h6 : (((nodesWhere s.dom (extracted c)).filter (· < j)).filter (· < i)).length <
        ((nodesWhere s.dom (extracted c)).filter (· < j)).length := by
      apply List.length_filter_lt_length_iff_exists.2
      exact ⟨i, List.mem_filter.2 ⟨(num i hi).1, by simpa using hlt⟩, by simp⟩
    omega

/-- If links are not placed in the footer, or no link or image is, there is no footer. -/
theorem C33_absent (u : Uni) (c : Cfg) (s0 s s' : PState) (es : List Event) (h0 : initParser c = .ok s0)
    (h : feed u c s0 es = .ok s) (hc : close u c s = .ok s')
    (hp : c.linkPlacement ≠ py"footer" ∨ nodesWhere s.dom (placed c py"footer") = []) :
    s'.parts.length = s.dom.roots.length := by
  obtain ⟨t, b, f, h1, h2, h3, rfl⟩ := close_reach h0 h hc
  have hl := reach_linv h0 h
  unfold footerParts at h3
  rw [hl.footer, if_neg (by rintro ⟨a, b⟩; rcases hp with e | e <;> contradiction)] at h3
  cases h3
  simpa using (mapM_ok h2).1

/-- Images placed in the footer are lost if links are placed elsewhere: `<img src="x.png" alt="y">` renders to the
reference only. -/
theorem C33_fails : renderEvents asciiUni { linkPlacement := py"inline", imagePlacement := py"footer" }
    [.start py"img" [(py"src", some py"x.png"), (py"alt", some py"y")]] = .ok py"[Image][1]" := by decide

example : renderEvents asciiUni {} [.start py"p" [], .start py"a" [(py"href", some py"http://x.y")], .data py"t",
    .stop py"a", .stop py"p"] = .ok py"\n[t][1]\n\n\n[1] t: http://x.y" := by decide

/-! ## C34 -/

/-- The elements that hand their pending links to a renderer. -/
def rendersPending (n : Node) : Prop := n.data = none ∧ ∀ l, n.link = some l → l.placement n.tag ≠ py"inline"

/-- Rendering an element: the renderer gets the renderings of the children, and if links are placed after the block, a
line break and the entry of each link or image whose parent the element is, in document order. Every such link has a
parent. (What is missing: an inlined link ignores what is pending in it, and a link without enclosing element is
an error, see `C34_fails`.) -/
theorem C34_partial (u : Uni) (c : Cfg) (s0 s : PState) (es : List Event) (h0 : initParser c = .ok s0)
    (h : feed u c s0 es = .ok s) (t : List (Nat × Assigned)) (f : Nat) (box : Box) (j : Nat) (n : Node) (out : Str)
    (hn : s.dom.nodes[j]? = some n) (hr : rendersPending n)
    (ho : renderNode u s.dom t (f + 1) false box j = .ok out) :
    ∃ (inst : Inst) (ctx : Ctx) (kids entries : List Str),
      callRenderer (assignedTo t j).renderer (tagInfo s.dom j) ctx box = .ok inst ∧
      inst.render u (kids.flatten ++ (if entries = [] then [] else py"\n") ++ entries.flatten) = .ok out ∧
      kids.length = n.children.length ∧
      (∀ (k : Nat) i, n.children[k]? = some i → ∃ e, kids[k]? = some e ∧
        renderNode u s.dom t f false (inst.box.getD box) i = .ok e) ∧
      entries.length = (nodesWhere s.dom (fun m => placed c py"after_block" m && decide (m.parent = .node j))).length ∧
      (∀ (k : Nat) i, (nodesWhere s.dom (fun m => placed c py"after_block" m && decide (m.parent = .node j)))[k]? = some i →
        ∃ e, entries[k]? = some e ∧ renderNode u s.dom t f true (inst.box.getD box) i = .ok e) := by
  have hl := reach_linv h0 h
  have e : renderNode u s.dom t (f + 1) false box j =
      renderTag u s.dom (assignedTo t j) j n box (renderNode u s.dom t f false) (renderNode u s.dom t f true) := by
    simp only [renderNode, hn]
    cases hd : n.data with
    | some x => rw [hr.1] at hd; cases hd
    | none =>
      cases hk : n.link with
      | none => rfl
      | some l => simp [hr.2 l hk]
  rw [e] at ho
  simp only [renderTag, bind, Except.bind] at ho
  cases hi : callRenderer (assignedTo t j).renderer (tagInfo s.dom j) ⟨(assignedTo t j).settings, n.link.map LinkInfo.ctx, none⟩ box with
  | error x => rw [hi] at ho; cases ho
  | ok inst =>
    rw [hi] at ho
    simp only at ho
    rw [renderAll_mapM] at ho
    cases hk : n.children.mapM (renderNode u s.dom t f false (inst.box.getD box)) with
    | error x => rw [hk] at ho; cases ho
    | ok kids =>
      rw [hk, renderAll_mapM] at ho
      simp only [Except.map] at ho
      cases he : n.pending.mapM (renderNode u s.dom t f true (inst.box.getD box)) with
      | error x => rw [he] at ho; cases ho
      | ok entries =>
        rw [he] at ho
        simp only at ho
        have hpend : n.pending = nodesWhere s.dom (fun m => placed c py"after_block" m && decide (m.parent = .node j)) :=
          hl.pending j n hn
        have hlen := (mapM_ok he).1
        refine ⟨inst, _, kids, entries, hi, ?_, (mapM_ok hk).1, (mapM_ok hk).2, by rw [← hpend]; exact hlen, by rw [← hpend]; exact (mapM_ok he).2⟩
        rw [← ho]
        congr 3
        cases hp : n.pending with
        | nil => rw [hp] at hlen; rw [List.length_eq_zero_iff.1 hlen]; rfl
        | cons a l => rw [hp] at hlen; cases entries with | nil => simp at hlen | cons b m => rfl

/-- Every link or image placed after the block has an enclosing element. -/
theorem C34_parent (u : Uni) (c : Cfg) (s0 s : PState) (es : List Event) (h0 : initParser c = .ok s0)
    (h : feed u c s0 es = .ok s) (i : Nat) (n : Node) (hn : s.dom.nodes[i]? = some n)
    (hp : placed c py"after_block" n = true) : ∃ j, n.parent = .node j ∧ j < i := by
  obtain ⟨j, hj⟩ := (reach_linv h0 h).parent i n hn hp
  have := ((reach_inv h0 h).node i n hn).parent
  rw [hj] at this
  exact ⟨j, hj, this.1⟩

/-- A link without enclosing element cannot be placed after the block. -/
theorem C34_fails : renderEvents asciiUni { linkPlacement := py"after_block" } [.start py"a" [(py"href", some py"x")]] =
    .error .attributeError := by decide

/-- An image placed after the block is lost inside an inlined link: only the reference remains. -/
theorem C34_fails_inline : renderEvents asciiUni { linkPlacement := py"inline", imagePlacement := py"after_block" }
    [.start py"p" [], .start py"a" [(py"href", some py"x")], .start py"img" [(py"src", some py"y"), (py"alt", some py"z")],
     .stop py"a", .stop py"p"] = .ok py"\n[[Image][1]](x)\n" := by decide

example : renderEvents asciiUni { linkPlacement := py"after_block" } [.start py"p" [], .start py"a" [(py"href", some py"x")],
    .data py"t", .stop py"a", .data py" u", .stop py"p", .data py"end"] = .ok py"\n[t][1] u\n\n[1] t: x\nend" := by decide

/-! ## C35 -/

/-- If the parser is not inside a `pre` when it is reset, it goes on like a new one. (What is missing: `reset` forgets
to leave the `pre`, see `C35_fails`.) -/
theorem C35_partial (u : Uni) (c : Cfg) (s0 s : PState) (es : List Event) (h0 : initParser c = .ok s0)
    (hpre : s.inPre = false) : renderFrom u c (reset s) es = renderFrom u c s0 es := by
  rw [renderFrom_quiet, initParser_eq h0]
  congr 1
  simp only [quiet, reset, hpre]

/-- In general: like a new parser inside a `pre` or not. -/
theorem C35_general (u : Uni) (c : Cfg) (s0 s : PState) (es : List Event) (h0 : initParser c = .ok s0) :
    renderFrom u c (reset s) es = renderFrom u c { s0 with inPre := s.inPre } es := by
  rw [renderFrom_quiet, initParser_eq h0]
  rfl

/-- After feeding `<pre>` and resetting, the blanks in `a  b` are kept; a new parser collapses them. -/
theorem C35_fails : ∃ s, feed asciiUni {} {} [.start py"pre" []] = .ok s ∧
    renderFrom asciiUni {} (reset s) [.data py"a  b"] = .ok py"a  b" ∧
    renderFrom asciiUni {} {} [.data py"a  b"] = .ok py"a b" := by
  refine ⟨_, rfl, ?_, ?_⟩ <;> decide

example : (match feed asciiUni {} {} [.start py"p" [], .start py"a" [(py"href", some py"x")], .data py"old"] with
    | .ok s => decide (renderFrom asciiUni {} (reset s) [.data py"a  b", .start py"a" [(py"href", some py"x")]] =
        .ok py"a b[][1]\n\n[1] : x")
    | _ => false) = true := by decide

/-! ## C36 -/

theorem nonws_framed (c : Cfg) (parts : List Str) : nonws (framed c parts) = nonws parts.flatten := by
  unfold framed indentBody
  rw [indent_eq, nonws_append, nonws_append, nonws_blank _ (blank_rep_nl _), nonws_blank _ (blank_rep_nl _),
    nonws_indentLines _ (blank_rep_space _)]
  simp

/-- What closing shows. -/
def shown (c : Cfg) (parts : List Str) : Str := if c.optimise then optimise (framed c parts) else framed c parts

theorem nonws_shown (c : Cfg) (parts : List Str) : nonws (shown c parts) = nonws parts.flatten := by
  unfold shown
  split
  · rw [optimise_nonws, nonws_framed]
  · exact nonws_framed c parts

theorem close_again {u : Uni} {c : Cfg} {s0 s s1 : PState} {es : List Event} (h0 : initParser c = .ok s0)
    (h : feed u c s0 es = .ok s) (hc : close u c s = .ok s1) :
    ∃ s2, close u c s1 = .ok s2 ∧ s1.parsed = shown c s1.parts ∧ s2.parsed = shown c (s1.parts ++ s1.parts) := by
  obtain ⟨t, b, f, h1, h2, h3, rfl⟩ := close_reach h0 h hc
  obtain ⟨t2, h4, h5⟩ := assignRenderers_again _ _ _ _ h1
  rw [close_eq u c _ s.dom rfl]
  have hcong := renderNode_congr (u := u) (d := s.dom) h5 s.dom.fuel
  simp only [h4, Except.bind]
  rw [hcong, h2]
  simp only
  have h6 : ∀ s' : PState, s'.footer = s.footer → footerParts u c s' s.dom t2 = .ok f := by
    intro s' e
    rw [← h3]
    unfold footerParts
    rw [hcong, e]
  rw [h6 _ (by rfl)]
  refine ⟨_, rfl, rfl, ?_⟩
  simp only [List.append_assoc, shown]

/-- Closing twice leaves the text unchanged if nothing was rendered. (What is missing: all other cases; closing again
renders everything again, see `C36_fails`.) -/
theorem C36_partial (u : Uni) (c : Cfg) (s0 s s1 : PState) (es : List Event) (h0 : initParser c = .ok s0)
    (h : feed u c s0 es = .ok s) (hc : close u c s = .ok s1) (hb : s1.parts.flatten = []) :
    ∃ s2, close u c s1 = .ok s2 ∧ s2.parsed = s1.parsed := by
  obtain ⟨s2, h1, h2, h3⟩ := close_again h0 h hc
  refine ⟨s2, h1, ?_⟩
  rw [h2, h3]
  have : framed c (s1.parts ++ s1.parts) = framed c s1.parts := by
    simp [framed, indentBody, hb]
  simp only [shown, this]

/-- Closing twice doubles the visible text of every document. -/
theorem C36_fails (u : Uni) (c : Cfg) (s0 s s1 : PState) (es : List Event) (h0 : initParser c = .ok s0)
    (h : feed u c s0 es = .ok s) (hc : close u c s = .ok s1) :
    ∃ s2, close u c s1 = .ok s2 ∧ nonws s2.parsed = nonws s1.parsed ++ nonws s1.parsed ∧
      (nonws s1.parsed ≠ [] → s2.parsed ≠ s1.parsed) := by
  obtain ⟨s2, h1, h2, h3⟩ := close_again h0 h hc
  have e : nonws s2.parsed = nonws s1.parsed ++ nonws s1.parsed := by
    rw [h2, h3, nonws_shown, nonws_shown, List.flatten_append, nonws_append]
  refine ⟨s2, h1, e, ?_⟩
  intro hne heq
  rw [heq] at e
  have := congrArg List.length e
  rw [List.length_append] at this
  exact hne (List.length_eq_zero_iff.1 (by omega))

/-- `<p>a</p>`. -/
theorem C36_witness : (do
      let s ← feed asciiUni {} {} [.start py"p" [], .data py"a", .stop py"p"]
      let s1 ← close asciiUni {} s
      let s2 ← close asciiUni {} s1
      return (s1.parsed, s2.parsed)) = .ok (py"\na\n", py"\na\n\na\n") := by decide

/-! ## C37 -/

theorem trimmed_optimise (s : Str) : TrimmedLines s (optimise s) := by
  refine ⟨splitCh '\n' s, (splitCh '\n' s).map rstrip, (join_splitCh '\n' s).symm, rfl, splitCh_ne_nil _ _, by simp,
    mem_splitCh '\n' s, ?_⟩
  intro p hp
  rw [List.zip_map_right] at hp
  obtain ⟨q, hq, rfl⟩ := List.mem_map.1 hp
  have : q.1 = q.2 := by
    obtain ⟨a, b⟩ := q
    have : ∀ l : List Str, ∀ q ∈ l.zip l, q.1 = q.2 := by
      intro l
      induction l with
      | nil => simp
      | cons x l ih => intro q hq; rw [List.zip_cons_cons] at hq; exact (List.mem_cons.1 hq).elim (fun e => by rw [e]) (ih q)
    exact this _ _ hq
  simp only [Prod.map_fst, Prod.map_snd, id, this]
  obtain ⟨t, h1, h2⟩ := rstrip_split q.2
  refine ⟨⟨t, h2, h1⟩, ?_⟩
  rintro ⟨c, h3, h4⟩
  rw [rstrip_end _ _ h3] at h4
  cases h4

theorem rstrip_unique {a b t : Str} (ht : Blank t) (h : a = b ++ t) (he : ¬ EndsWs b) : b = rstrip a := by
  have e : rstrip a = rstrip b := by
    rw [h]
    unfold rstrip
    rw [List.reverse_append, List.dropWhile_append]
    rw [if_pos]
    rw [List.isEmpty_iff, dropWhile_nil_iff]
    intro x hx
    exact ht x (List.mem_reverse.1 hx)
  rw [e, rstrip_of_end]
  intro c hc
  cases hs : isSpace c with
  | false => rfl
  | true => exact absurd ⟨c, hc, hs⟩ he

theorem trimmed_unique {a b : Str} (h : TrimmedLines a b) : b = optimise a := by
  obtain ⟨la, lb, rfl, rfl, hne, hlen, hnl, hz⟩ := h
  unfold optimise
  rw [splitCh_join '\n' la hne hnl]
  congr 1
  clear hne hnl
  induction la generalizing lb with
  | nil => cases lb with | nil => rfl | cons x l => simp at hlen
  | cons a la ih =>
    cases lb with
    | nil => simp at hlen
    | cons b lb =>
      rw [List.map_cons]
      obtain ⟨⟨t, h1, h2⟩, h3⟩ := hz (a, b) (by simp)
      rw [← rstrip_unique h1 h2 h3]
      congr 1
      exact ih lb (by simpa using hlen) (fun p hp => hz p (by rw [List.zip_cons_cons]; exact List.mem_cons_of_mem _ hp))

theorem optimise_idem (s : Str) : optimise (optimise s) = optimise s := by
  have h : optimise (optimise s) = join py"\n" (((splitCh '\n' s).map rstrip).map rstrip) := by
    unfold optimise
    rw [splitCh_join]
    · simpa using splitCh_ne_nil '\n' s
    · intro l hl hm
      obtain ⟨l', h1, rfl⟩ := List.mem_map.1 hl
      exact mem_splitCh '\n' s l' h1 ((rstrip_sublist l').subset hm)
  rw [h]
  unfold optimise
  congr 1
  rw [List.map_map]
  apply List.map_congr_left
  intro l _
  exact rstrip_idem l

theorem assignRenderers_optimise (c : Cfg) (b b' : Bool) (d : Dom) (f : Nat) :
    assignRenderers { c with optimise := b } d f = assignRenderers { c with optimise := b' } d f := by
  induction f with
  | zero => funext is t; cases is <;> rfl
  | succ f ih =>
    funext is t
    rw [assignRenderers_succ, assignRenderers_succ, ih]
    rfl

/-- Optimised output is the unoptimised output with the whitespace at the end of each line removed, for the same
documents; errors are the same. -/
theorem C37 (u : Uni) (c : Cfg) (es : List Event) (e : PyErr) :
    (∀ a, renderEvents u { c with optimise := false } es = .ok a →
      ∃ b, renderEvents u { c with optimise := true } es = .ok b ∧ TrimmedLines a b ∧ TrimmedLines b b) ∧
    (renderEvents u { c with optimise := false } es = .error e ↔ renderEvents u { c with optimise := true } es = .error e) := by
  have key : renderEvents u { c with optimise := true } es =
      (renderEvents u { c with optimise := false } es).map optimise := by
    have e1 : initParser { c with optimise := true } = initParser { c with optimise := false } := rfl
    have e2 : feed u { c with optimise := true } = feed u { c with optimise := false } := rfl
    simp only [renderEvents, bind, Except.bind, pure, Except.pure, e1, e2]
    cases initParser { c with optimise := false } with
    | error e => rfl
    | ok s0 =>
      simp only
      cases feed u { c with optimise := false } s0 es with
      | error e => rfl
      | ok s =>
        simp only
        rw [close_eq u { c with optimise := true } s _ rfl, close_eq u { c with optimise := false } s _ rfl]
        have e3 := assignRenderers_optimise c true false
        have e4 : ∀ t, footerParts u { c with optimise := true } s (popStack s.dom s.stack.reverse) t =
          footerParts u { c with optimise := false } s (popStack s.dom s.stack.reverse) t := fun _ => rfl
        have e5 : ({ c with optimise := true } : Cfg).pageBox = ({ c with optimise := false } : Cfg).pageBox := rfl
        simp only [e3, e4, e5, Except.bind]
        cases assignRenderers { c with optimise := false } (popStack s.dom s.stack.reverse)
            (popStack s.dom s.stack.reverse).fuel (popStack s.dom s.stack.reverse).roots s.assigned with
        | error e => rfl
        | ok t =>
          simp only
          cases List.mapM (renderNode u (popStack s.dom s.stack.reverse) t (popStack s.dom s.stack.reverse).fuel false
              ({ c with optimise := false } : Cfg).pageBox) (popStack s.dom s.stack.reverse).roots with
          | error e => rfl
          | ok b =>
            simp only
            cases footerParts u { c with optimise := false } s (popStack s.dom s.stack.reverse) t with
            | error e => rfl
            | ok f => rfl
  rw [key]
  constructor
  · intro a ha
    rw [ha]
    refine ⟨_, rfl, trimmed_optimise a, ?_⟩
    have := trimmed_optimise (optimise a)
    rwa [optimise_idem] at this
  · cases renderEvents u { c with optimise := false } es <;> simp [Except.map]

/-- The trimmed text is determined. -/
theorem C37_unique (a b b' : Str) (h : TrimmedLines a b) (h' : TrimmedLines a b') : b = b' := by
  rw [trimmed_unique h, trimmed_unique h']

example : renderEvents asciiUni { optimise := false } [.data py"a ", .start py"br" [], .data py" ", .start py"br" [], .data py"b "] =
      .ok py"a \n \nb " ∧
    renderEvents asciiUni { optimise := true } [.data py"a ", .start py"br" [], .data py" ", .start py"br" [], .data py"b "] =
      .ok py"a\n\nb" := by decide

/-! ## C38 -/

/-- A parser can be constructed unless gophermap output is asked for with inlined links or without a host; otherwise
`ValueError`. -/
theorem C38 (c : Cfg) :
    ((∃ s, initParser c = .ok s) ↔
      (c.outputFormat = py"gophermap" → c.linkPlacement ≠ py"inline" ∧ c.gopherHost ≠ [])) ∧
    (∀ e, initParser c = .error e → e = .valueError) := by
  unfold initParser
  by_cases h1 : c.outputFormat = py"gophermap" <;> by_cases h2 : c.linkPlacement = py"inline" <;>
    by_cases h3 : c.gopherHost = [] <;> simp [h1, h2, h3, eq_comm]

example : initParser { outputFormat := py"gophermap", gopherHost := py"h" } = .ok {} ∧
    initParser { outputFormat := py"gophermap", gopherHost := py"h", linkPlacement := py"inline" } = .error .valueError ∧
    initParser { outputFormat := py"gophermap" } = .error .valueError ∧
    initParser { outputFormat := py"text", linkPlacement := py"inline" } = .ok {} := ⟨rfl, rfl, rfl, rfl⟩

/-! ## C39 -/

/-- The output: newlines for the top margin, every line of the rendered parts after the left margin, newlines for the
bottom margin; if optimising, with the ends of the lines trimmed. The parts are the renderings of the roots and the
footer. -/
theorem C39 (u : Uni) (c : Cfg) (s0 s s' : PState) (es : List Event) (h0 : initParser c = .ok s0)
    (h : feed u c s0 es = .ok s) (hc : close u c s = .ok s') :
    ∃ body footer out, s'.parts.flatten = body ++ footer ∧
      renderAll (renderNode u s.dom s'.assigned s.dom.fuel false c.pageBox) s.dom.roots = .ok body ∧
      (nodesWhere s.dom (placed c py"footer") = [] → footer = []) ∧
      out = List.replicate c.pageBox.margin.top.toNat '\n' ++
        indentLines (List.replicate c.pageBox.margin.left.toNat ' ') true (body ++ footer) ++
        List.replicate c.pageBox.margin.bottom.toNat '\n' ∧
      (if c.optimise then TrimmedLines out s'.parsed else s'.parsed = out) := by
  obtain ⟨t, b, f, h1, h2, h3, rfl⟩ := close_reach h0 h hc
  have hl := reach_linv h0 h
  refine ⟨b.flatten, f.flatten, framed c (b ++ f), by simp, ?_, ?_, ?_, ?_⟩
  · rw [renderAll_mapM, h2]; rfl
  · intro he
    unfold footerParts at h3
    rw [hl.footer, if_neg (by simp [he])] at h3
    cases h3
    rfl
  · unfold framed indentBody
    rw [indent_eq, List.flatten_append]
    rfl
  · simp only
    split
    · exact trimmed_optimise _
    · rfl

example : renderEvents asciiUni { box := some (Box.new 20 ⟨1, 0, 2, 3⟩ {} {} none none) }
    [.start py"p" [], .data py"a", .stop py"p", .data py"b"] = .ok py"\n\n   a\n   b\n\n" := by decide

end Verif
