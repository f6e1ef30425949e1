import Verif.Props.Blocks
import Verif.Props.Inline
import Verif.Props.Items
import Verif.Props.Refs
import Verif.Props.SentenceDoc
import Verif.Props.LinkLines
import Verif.Props.Footer

/-!
# The theorems about elements, used on one document

Every theorem is applied to an element of the same document, so that its conditions are seen to hold somewhere. What the elements
contain is computed.
-/

namespace Verif

open Spec

/-! ## Computing the hypotheses -/

/-- The parser after the document has been fed. -/
def fedState (u : Uni) (c : Cfg) (es : List Event) : PState :=
  match initParser c with
  | .error _ => {}
  | .ok s0 => match feed u c s0 es with
    | .error _ => {}
    | .ok s1 => s1

/-- The parser after the document has been fed and closed. -/
def finalState (u : Uni) (c : Cfg) (es : List Event) : PState :=
  match close u c (fedState u c es) with
  | .error _ => {}
  | .ok s => s

def readsAll (u : Uni) (c : Cfg) (es : List Event) : Bool :=
  match initParser c with
  | .error _ => false
  | .ok s0 => match feed u c s0 es with
    | .error _ => false
    | .ok _ => true

def closes (u : Uni) (c : Cfg) (es : List Event) : Bool :=
  match close u c (fedState u c es) with
  | .error _ => false
  | .ok _ => true

theorem fed_state {u : Uni} {c : Cfg} {es : List Event} {s0 : PState} (h0 : initParser c = .ok s0) (h : readsAll u c es = true) :
    feed u c s0 es = .ok (fedState u c es) := by
  unfold readsAll at h
  unfold fedState
  rw [h0] at h ⊢
  simp only at h ⊢
  split at h
  · cases h
  · rename_i s1 e1
    rw [e1]

theorem closed_state {u : Uni} {c : Cfg} {es : List Event} (h : closes u c es = true) :
    close u c (fedState u c es) = .ok (finalState u c es) := by
  unfold closes at h
  unfold finalState
  split at h
  · cases h
  · rename_i s e
    rw [e]

theorem rendered_final {u : Uni} {c : Cfg} {es : List Event} {s0 : PState} (h0 : initParser c = .ok s0)
    (h : readsAll u c es = true) (h' : closes u c es = true) : Rendered u c es (finalState u c es) :=
  ⟨s0, _, h0, fed_state h0 h, closed_state h'⟩

/-- The tags and children of the nodes. -/
def treeOf (d : Dom) : List (Option Str × List Nat) := d.nodes.map (fun n => (n.tag, n.children))

theorem treeOf_at {d : Dom} {tree : List (Option Str × List Nat)} (e : treeOf d = tree) {i : Nat} {x : Option Str × List Nat}
    (h : tree[i]? = some x) : ∃ n, d.nodes[i]? = some n ∧ n.tag = x.1 ∧ n.children = x.2 := by
  subst e
  rw [treeOf, List.getElem?_map] at h
  cases e : d.nodes[i]? with
  | none => rw [e] at h; cases h
  | some n => rw [e] at h; cases h; exact ⟨n, rfl, rfl, rfl⟩

theorem hasTag_at {d : Dom} {tree : List (Option Str × List Nat)} (e : treeOf d = tree) {i : Nat} {t : Str}
    (h : (tree[i]?.bind Prod.fst) = some t) : HasTag d i t := by
  cases e' : tree[i]? with
  | none => rw [e'] at h; cases h
  | some x =>
    rw [e'] at h
    obtain ⟨n, hn, ht, _⟩ := treeOf_at e e'
    exact ⟨n, hn, ht.trans h⟩

theorem childOf_at {d : Dom} {tree : List (Option Str × List Nat)} (e : treeOf d = tree) {i : Nat} {t : Str} (j : Nat)
    (h : (tree[j]?.bind Prod.fst) = some t) (h' : i ∈ (tree[j]?.map Prod.snd).getD []) : ChildOf d t i := by
  refine ⟨j, ?_, hasTag_at e h⟩
  cases e' : tree[j]? with
  | none => rw [e'] at h; cases h
  | some x =>
    rw [e'] at h'
    obtain ⟨n, hn, _, hc⟩ := treeOf_at e e'
    exact ⟨n, hn, by rw [hc]; exact h'⟩

theorem childOf_not {d : Dom} {tree : List (Option Str × List Nat)} (e : treeOf d = tree) {i : Nat} {t : Str}
    (h : tree.all (fun m => !(decide (m.1 = some t) && decide (i ∈ m.2))) = true) : ¬ ChildOf d t i := by
  rintro ⟨j, ⟨n, hn, hi⟩, n', hn', ht⟩
  rw [hn] at hn'
  cases hn'
  have hm : (n.tag, n.children) ∈ tree := by
    rw [← e]
    exact List.mem_map.mpr ⟨n, List.mem_of_getElem? hn, rfl⟩
  have := List.all_eq_true.mp h _ hm
  simp only [ht, hi, decide_true, Bool.and_self, Bool.not_true, Bool.false_eq_true] at this

theorem around_at {d : Dom} {tree : List (Option Str × List Nat)} (e : treeOf d = tree) {i : Nat} {before after : List Nat} (j : Nat)
    (h : (tree[j]?.map Prod.snd) = some (before ++ i :: after)) : Around d i before after := by
  cases e' : tree[j]? with
  | none => rw [e'] at h; cases h
  | some x =>
    rw [e'] at h
    obtain ⟨n, hn, _, hc⟩ := treeOf_at e e'
    exact .inr ⟨j, n, hn, (Option.some.inj h).symm.trans hc.symm⟩

/-! ## A document -/

/-- ```html
<h2>A b</h2><blockquote>q</blockquote><pre>x
 y</pre><p>one two.<br><em>e</em><code>c</code></p><ul><li>i</li><li>j</li></ul><ol><li>k</li><li>l</li></ol>
<dl><dt>t</dt><dd>d</dd></dl><p><a href="x.txt">link</a><img src="y.png" alt="Y"></p><pre><code>z</code></pre><div>w</div>
<p><code>only</code></p>
``` -/
def useDoc : List Event :=
  [.start py"h2" [], .data py"A b", .stop py"h2",
   .start py"blockquote" [], .data py"q", .stop py"blockquote",
   .start py"pre" [], .data py"x\n y", .stop py"pre",
   .start py"p" [], .data py"one two.", .start py"br" [], .start py"em" [], .data py"e", .stop py"em", .start py"code" [], .data py"c",
     .stop py"code", .stop py"p",
   .start py"ul" [], .start py"li" [], .data py"i", .stop py"li", .start py"li" [], .data py"j", .stop py"li", .stop py"ul",
   .start py"ol" [], .start py"li" [], .data py"k", .stop py"li", .start py"li" [], .data py"l", .stop py"li", .stop py"ol",
   .start py"dl" [], .start py"dt" [], .data py"t", .stop py"dt", .start py"dd" [], .data py"d", .stop py"dd", .stop py"dl",
   .start py"p" [], .start py"a" [(py"href", some py"x.txt")], .data py"link", .stop py"a",
     .start py"img" [(py"src", some py"y.png"), (py"alt", some py"Y")], .stop py"p",
   .start py"pre" [], .start py"code" [], .data py"z", .stop py"code", .stop py"pre",
   .start py"div" [], .data py"w", .stop py"div",
   .start py"p" [], .start py"code" [], .data py"only", .stop py"code", .stop py"p"]

def useFed : PState := fedState asciiUni {} useDoc

def useState : PState := finalState asciiUni {} useDoc

theorem useFeed : feed asciiUni {} {} useDoc = .ok useFed := fed_state rfl (by decide +kernel)

theorem useClose : close asciiUni {} useFed = .ok useState := closed_state (by decide +kernel)

theorem useRendered : Rendered asciiUni {} useDoc useState := ⟨{}, useFed, rfl, useFeed, useClose⟩

theorem useFree (d : Dom) (i : Nat) : Unruled {} d i := unruled_nil rfl d i

def useNodes : List (Option Str × List Nat) :=
  [(some py"h2", [1]), (none, []), (some py"blockquote", [3]), (none, []), (some py"pre", [5]), (none, []),
   (some py"p", [7, 8, 9, 11]), (none, []), (some py"br", []), (some py"em", [10]), (none, []), (some py"code", [12]), (none, []),
   (some py"ul", [14, 16]), (some py"li", [15]), (none, []), (some py"li", [17]), (none, []),
   (some py"ol", [19, 21]), (some py"li", [20]), (none, []), (some py"li", [22]), (none, []),
   (some py"dl", [24, 26]), (some py"dt", [25]), (none, []), (some py"dd", [27]), (none, []),
   (some py"p", [29, 31]), (some py"a", [30]), (none, []), (some py"img", []),
   (some py"pre", [33]), (some py"code", [34]), (none, []), (some py"div", [36]), (none, []),
   (some py"p", [38]), (some py"code", [39]), (none, [])]

theorem useTree : treeOf useState.dom = useNodes := by decide +kernel

theorem useSame : useState.dom = useFed.dom := C28_close asciiUni {} {} useFed useState useDoc rfl useFeed useClose

theorem useTreeFed : treeOf useFed.dom = useNodes := useSame ▸ useTree

def useBox : Box := Box.new 20 {} {} {} none none

/-! ## Headers, quotes, preformatted text, paragraphs -/

-- C47
example : textOf asciiUni useState 6 useBox 0 = (contents asciiUni useState 5 (inside useBox 1 1) 0).map (fun x =>
    py"\n" ++ padLines 20 (py"## " ++ x ++ py" ##") ++ py"\n") :=
  C47 asciiUni {} useDoc useState useRendered 0 (useFree _ _) py"h2" 2 (hasTag_at useTree rfl) (by decide) 5 useBox

-- C47
example := C47_row 20 2 py"A b" (by decide)

-- C50
example : textOf asciiUni useState 6 useBox 2 = .ok (py"\n" ++ rows 20 [py"> q"] ++ py"\n") :=
  C50 asciiUni {} useDoc useState useRendered 2 (useFree _ _) (hasTag_at useTree rfl) 5 useBox py"q" [py"q"]
    (by decide +kernel) ((lines_iff _ _).mpr (by decide))

-- C50
example : textOf asciiUni useState 1 useBox 2 = .error .recursion :=
  C50_error asciiUni {} useDoc useState useRendered 2 (useFree _ _) (hasTag_at useTree rfl) 0 useBox .recursion (by decide +kernel)

-- C51
example : textOf asciiUni useState 6 useBox 4 = .ok (py"\n" ++ rows 20 [py"    x", py"     y"] ++ py"\n") :=
  C51 asciiUni {} useDoc useState useRendered 4 (useFree _ _) (hasTag_at useTree rfl) 5 useBox py"x\n y" [py"x", py" y"]
    (by decide +kernel) ((lines_iff _ _).mpr (by decide))

-- C51
example := C51_lines py"x\n y"

theorem useNotOnly : ¬ OnlyCode useState.dom 6 := by
  rintro ⟨n, j, hn, hc, _⟩
  obtain ⟨n', hn', _, hc'⟩ := treeOf_at useTree (i := 6) rfl
  rw [hn'] at hn
  cases hn
  rw [hc'] at hc
  cases hc

theorem useOnly : OnlyCode useState.dom 37 :=
  have ⟨n, hn, _, hc⟩ := treeOf_at useTree (i := 37) rfl
  ⟨n, 38, hn, hc, .inl (hasTag_at useTree rfl)⟩

theorem useSpace {above below : Int} (h : PSpace useState.dom 6 above below) : above = 1 ∧ below = 1 := by
  have hn : ¬ ChildOf useState.dom py"blockquote" 6 := childOf_not useTree (by decide)
  rcases h with h | ⟨_, h⟩
  · generalize e : margins above below = st at h
    cases h with
    | free _ => cases e
    | only h _ _ => exact absurd h hn
    | first h _ _ => exact absurd h hn
    | last h _ _ => exact absurd h hn
    | inner h _ _ => exact absurd h hn
  · exact h

-- C60
example : ∃ out, textOf asciiUni useState 6 useBox 6 = .ok out ∧ out = py"\none two.            \n_e_`c`              \n" := by
  obtain ⟨above, below, h1, h2⟩ := C60 asciiUni {} useDoc useState useRendered 6 (useFree _ _) (hasTag_at useTree rfl) useNotOnly 5 useBox
    (by decide)
  obtain ⟨rfl, rfl⟩ := useSpace h1
  obtain ⟨parts, h3, h4⟩ := h2 [py"one two.", py"_e_`c`"] (by decide) (by decide) (by decide +kernel)
  match parts, h3 with
  | [p, q], ⟨hp, hq, _⟩ =>
    cases hp.symm.trans (show _ = Except.ok [py"one two."] by decide +kernel)
    cases hq.symm.trans (show _ = Except.ok [py"_e_`c`"] by decide +kernel)
    exact ⟨_, h4, by decide⟩

-- C60
example := C60_code asciiUni {} useDoc useState useRendered 37 (useFree _ _) (hasTag_at useTree rfl) useOnly 5 useBox

-- C60
example : textOf asciiUni useState 6 useBox 8 = (contents asciiUni useState 5 useBox 8).map (fun _ => py"\n") :=
  C60_br asciiUni {} useDoc useState useRendered 8 (useFree _ _) (hasTag_at useTree rfl) 5 useBox

/-! ## Inline elements -/

-- C45
example : textOf asciiUni useState 6 useBox 9 = (contents asciiUni useState 5 useBox 9).map (fun x => py"_" ++ x ++ py"_") :=
  C45 asciiUni {} useDoc useState useRendered 9 (useFree _ _) py"em" py"_" py"_" (hasTag_at useTree rfl) (by decide) 5 useBox

-- C46: between backticks, and as it is in a `pre`
example : textOf asciiUni useState 6 useBox 11 = .ok py"`c`" :=
  (C46 asciiUni {} useDoc useState useRendered 11 (useFree _ _) (hasTag_at useTree rfl) 5 useBox py"c" (by decide +kernel)).2.1
    (childOf_not useTree (by decide)) (by decide)

-- C46
example : textOf asciiUni useState 6 useBox 33 = .ok py"z" :=
  (C46 asciiUni {} useDoc useState useRendered 33 (useFree _ _) (hasTag_at useTree rfl) 5 useBox py"z" (by decide +kernel)).1
    (childOf_at useTree 32 rfl (by decide))

-- C46
example : textOf asciiUni useState 1 useBox 11 = .error .recursion :=
  C46_error asciiUni {} useDoc useState useRendered 11 (useFree _ _) (hasTag_at useTree rfl) 0 useBox .recursion (by decide +kernel)

/-! ## Items -/

-- C48
example := C48 asciiUni {} useDoc useState useRendered 14 (useFree _ _) (hasTag_at useTree rfl) (childOf_not useTree (by decide)) 5 useBox
  (by decide)

-- C48
example := C48_dd asciiUni {} useDoc useState useRendered 26 (useFree _ _) (hasTag_at useTree rfl) 5 useBox (by decide) py"d"
  (by decide +kernel)

-- C49: the second item
example := C49_index asciiUni {} useDoc useState useRendered 21 (useFree _ _) (hasTag_at useTree rfl) (childOf_at useTree 18 rfl (by decide))
  [19] [] (around_at useTree 18 rfl) 5 useBox py"2. " (by decide) (by decide)

theorem useItems : elemCount useState.dom [19] = 1 := by decide +kernel

-- C49
example := C49_partial asciiUni {} useDoc useState useRendered 21 (useFree _ _) (hasTag_at useTree rfl)
  (childOf_at useTree 18 rfl (by decide)) [19] [] (around_at useTree 18 rfl)
  (by intro j hj; cases List.mem_singleton.mp hj; exact hasTag_at useTree rfl) 1 useItems.symm 5 useBox (by decide)

/-! ## Sentences -/

-- C62
example := C62_paragraph asciiUni {} useDoc useState useRendered 6 (useFree _ _) (hasTag_at useTree rfl) useNotOnly 5 useBox (by decide)

-- C62
example := C62_item asciiUni {} useDoc useState useRendered 14 (useFree _ _) (hasTag_at useTree rfl) (childOf_not useTree (by decide)) 5
  useBox (by decide)

-- C62
example := C62_numbered asciiUni {} useDoc useState useRendered 21 (useFree _ _) (hasTag_at useTree rfl)
  (childOf_at useTree 18 rfl (by decide)) [19] [] (around_at useTree 18 rfl) 5 useBox py"2. " (by decide) (by decide)

-- C62
example := C62_description asciiUni {} useDoc useState useRendered 26 (useFree _ _) (hasTag_at useTree rfl) 5 useBox (by decide) py"d"
  (by decide +kernel) (by intro c hc; cases List.mem_singleton.mp hc; decide)

/-! ## The default style -/

-- C61
example : (assignedTo useState.assigned 9).renderer = some .em ∧ (assignedTo useState.assigned 9).settings = some [] :=
  C61_plain asciiUni {} {} useFed useState useDoc rfl useFeed useClose 9 (useFree _ _) py"em" .em
    (hasTag_at useTreeFed rfl) (by simp [plainStyle])

-- C61
example := C61_p asciiUni {} {} useFed useState useDoc rfl useFeed useClose 6 (useFree _ _) (hasTag_at useTreeFed rfl)

-- C61
example := C61_li asciiUni {} {} useFed useState useDoc rfl useFeed useClose 14 (useFree _ _) (hasTag_at useTreeFed rfl)

-- C61
example := C61_dt asciiUni {} {} useFed useState useDoc rfl useFeed useClose 24 (useFree _ _) (hasTag_at useTreeFed rfl)

/-! ## Links -/

-- C41
example := C41_document asciiUni {} useDoc useState useRendered 29 py"a" (hasTag_at useTree rfl) (.inl rfl)

-- C81: a link in the footer has the number 1
example := C81_reference asciiUni {} useDoc useState useRendered 29 (useFree _ _) (hasTag_at useTree rfl) (by decide)

-- C81: an image
example := C81_image asciiUni {} useDoc useState useRendered 31 (useFree _ _) (hasTag_at useTree rfl) rfl 5 useBox

-- C32
example := C32 asciiUni {} {} useFed useDoc rfl useFeed

end Verif
