import Verif.Tests.Use
import Verif.Props.Accept
import Verif.Props.Cli
import Verif.Props.Cascade
import Verif.Props.Finish
import Verif.Props.Reset
import Verif.Props.Room
import Verif.Props.Settings
import Verif.Props.Theme
import Verif.Props.Keep
import Verif.Props.Text

/-!
# The theorems about the tree, rules and reading, used on documents
-/

namespace Verif

open Spec

/-- ```html
<div class="a b" id="d"><p title="x y">one</p> <p>two</p></div>
``` -/
def useSmall : List Event :=
  [.start py"div" [(py"class", some py"a b"), (py"id", some py"d")], .start py"p" [(py"title", some py"x y")], .data py"one", .stop py"p",
   .data py" ", .start py"p" [], .data py"two", .stop py"p", .stop py"div"]

def smallFed : PState := fedState asciiUni {} useSmall

def smallState : PState := finalState asciiUni {} useSmall

theorem smallFeed : feed asciiUni {} {} useSmall = .ok smallFed := fed_state rfl (by decide +kernel)

theorem smallClose : close asciiUni {} smallFed = .ok smallState := closed_state (by decide +kernel)

theorem smallRendered : Rendered asciiUni {} useSmall smallState := ⟨{}, smallFed, rfl, smallFeed, smallClose⟩

def smallNodes : List (Option Str × List Nat) :=
  [(some py"div", [1, 3, 4]), (some py"p", [2]), (none, []), (none, []), (some py"p", [5]), (none, [])]

theorem smallTree : treeOf smallFed.dom = smallNodes := by decide +kernel

theorem small_node (i : Nat) {x : Option Str × List Nat} (h : smallNodes[i]? = some x) :
    ∃ n, smallFed.dom.nodes[i]? = some n ∧ n.tag = x.1 ∧ n.children = x.2 := treeOf_at smallTree h

/-! ## Selectors -/

-- C01: `div.a > p`
example := C01 asciiUni {} {} smallFed useSmall rfl smallFeed 1 ⟨_, hasTag_at smallTree rfl⟩
  (.comb (.cls (.element (some py"div")) py"a") .child (.element (some py"p"))) ⟨trivial, trivial, by decide⟩

-- C02: no selector matches the document or a text
example : selMatch smallFed.dom (.element none) .doc = .ok false :=
  C02 asciiUni {} {} smallFed useSmall rfl smallFeed .doc (.inl rfl) (.element none)

-- C02
example : tagMatches smallFed.dom .doc (one (elt py"p")) = .ok (false, none) :=
  C02_rules smallFed.dom .doc (by rintro ⟨i, n, h, _⟩; cases h) (one (elt py"p"))

-- C03: `p:nth-child(2)`
example := C03_partial asciiUni {} {} smallFed useSmall rfl smallFeed 4 ⟨_, hasTag_at smallTree rfl⟩ (.element (some py"p")) trivial 2
  (by decide)

-- C03
example := C03_first asciiUni {} {} smallFed useSmall rfl smallFeed 4 ⟨_, hasTag_at smallTree rfl⟩ (.element (some py"p")) trivial

-- C04: `p[title~=y]`
example := C04_partial asciiUni {} {} smallFed useSmall rfl smallFeed 1 ⟨_, hasTag_at smallTree rfl⟩ (.element (some py"p")) trivial
  py"title" py"y" .word (by simp [CssOp]) (.inl (by decide)) (by intro v h; exact absurd h (by decide))

-- C04: the selector matches
example : ∃ b, selMatch smallFed.dom (.attrib (.element (some py"p")) py"title" .word py"y") (.node 1) = .ok b ∧ b = true := by
  obtain ⟨b, h1, h2⟩ := C04_partial asciiUni {} {} smallFed useSmall rfl smallFeed 1 ⟨_, hasTag_at smallTree rfl⟩
    (.element (some py"p")) trivial py"title" py"y" .word (by simp [CssOp]) (.inl (by decide)) (by intro v h; exact absurd h (by decide))
  refine ⟨b, h1, h2.mpr ⟨hasTag_at smallTree rfl, .inr ⟨by simp, py"x y", by decide, ?_⟩⟩⟩
  exact ⟨by decide, by decide, py"x ", [], rfl, by decide, by decide⟩

-- C04: `div[class~=b] p`
example := C04_nested asciiUni {} {} smallFed useSmall rfl smallFeed 1 ⟨_, hasTag_at smallTree rfl⟩
  (.comb (.element none) .desc (.element (some py"p"))) ⟨trivial, trivial, by decide⟩

-- C04
example := C04_empty

/-! ## Rules -/

theorem smallRule : getRenderer {} smallFed.dom 1 = .ok (.pair (some .paragraph) (some [])) := by
  with_unfolding_all rfl

-- C06: `p, .a`
example := C06 smallFed.dom (.node 1) [⟨.element (some py"p"), false⟩, ⟨.cls (.element none) py"a", false⟩]
  (by intro s hs
      simp only [List.mem_cons, List.not_mem_nil, or_false] at hs
      rcases hs with rfl | rfl <;> exact ⟨_, rfl⟩)

-- C07
example := C07 {} smallFed.dom 1 _ smallRule

theorem cascade_dicts : RuleDicts CascadeExample.rules := by
  intro r hr t ht
  simp only [CascadeExample.rules, List.mem_cons, List.not_mem_nil, or_false] at hr
  rcases hr with rfl | rfl | rfl <;> cases ht <;> decide

-- C08
example := C08 CascadeExample.dom (.node 1) CascadeExample.rules cascade_dicts .em [(py"x", .int 1), (py"y", .int 4)] (by with_unfolding_all rfl) py"x"

theorem dicts_all {rules : List Rule} (h : (rules.all (fun r => match r.spec.settings with
      | some t => decide ((t.map Prod.fst).Nodup)
      | none => true)) = true) : RuleDicts rules := by
  intro r hr t ht
  have := List.all_eq_true.mp h r hr
  rw [ht] at this
  exact of_decide_eq_true this

/-- A rule of the user with settings only. -/
def useOwn : Cfg := { renderers := [⟨py"p.x", one (.cls (elt py"p") py"x"), .pair none (some [(py"indent", .int 2)])⟩] }

def ownFed : PState := fedState asciiUni useOwn [.start py"p" [(py"class", some py"x")]]

-- C09
example : ∃ r', Wins ownFed.dom (.node 0) useOwn.rules (fun r => ruleSetting r py"indent" ≠ none) r' ∧
    DictOf.get [(py"indent", Val.int 2)] py"indent" = ruleSetting r' py"indent" := by
  have hp : tagRule py"p" .paragraph ∈ useOwn.rules := List.mem_of_getElem? (i := 6) (by with_unfolding_all rfl)
  have hx : (⟨py"p.x", one (.cls (elt py"p") py"x"), .pair none (some [(py"indent", .int 2)])⟩ : Rule) ∈ useOwn.rules :=
    (C10_stays useOwn (by decide)).2 _ (.head _)
  refine C09_partial useOwn ownFed.dom 0 (dicts_all (by decide +kernel)) .paragraph [(py"indent", .int 2)] (by with_unfolding_all rfl)
    ⟨_, hp, (0, 0, 1), ⟨⟨⟨elt py"p", false⟩, .head _, by decide, by decide⟩, ?_⟩, by simp [NamesRenderer, tagRule, namedRenderer]⟩
    _ hx (0, 1, 1) ⟨⟨⟨.cls (elt py"p") py"x", false⟩, .head _, by decide, by decide⟩, ?_⟩ py"indent" (.int 2) (by decide)
  · intro s hs _
    cases List.mem_singleton.mp hs
    decide
  · intro s hs _
    cases List.mem_singleton.mp hs
    decide

-- C10
example := C10 { renderers := [tagRule py"p" .em, tagRule py"p.x" .strong] } (by decide)

-- C10
example := C10_stays { renderers := [tagRule py"p" .em, tagRule py"p.x" .strong] } (by decide)

-- C10
example := C10_links { linkRenderers := [tagRule py"a" .em] } (by decide)

/-! ## The tree -/

-- C28
example := C28 asciiUni {} {} smallFed useSmall rfl smallFeed

-- C28
example : smallState.dom = smallFed.dom := C28_close asciiUni {} {} smallFed smallState useSmall rfl smallFeed smallClose

-- C29
example := C29_roots asciiUni {} {} smallFed useSmall rfl smallFeed 0 (by decide +kernel)

-- C30
example := C30 asciiUni {} {} smallFed useSmall rfl smallFeed py"p"

-- C30
example := C30_stack asciiUni {} {} smallFed useSmall rfl smallFeed

-- C27
example := C27 smallFed py" a\tb  c " (by decide +kernel)

-- C27: in a `pre`
example := C27_pre (fedState asciiUni {} [.start py"pre" []]) py" a\tb  c " (by decide)
  (reach_inv rfl (fed_state (u := asciiUni) (c := {}) rfl (by decide)))

-- C27
example := C27_scope asciiUni {} smallFed useSmall smallFeed

/-! ## Links -/

-- C32
example := C32_count asciiUni {} {} useFed useDoc rfl useFeed

-- C33
example := C33_partial asciiUni {} {} useFed useState useDoc rfl useFeed useClose rfl (by decide +kernel)

-- C33: there are no links
example := C33_absent asciiUni {} {} smallFed smallState useSmall rfl smallFeed smallClose (.inr (by decide +kernel))

/-- Links after the element they are in. -/
def useAfter : Cfg := { linkPlacement := py"after_block" }

def afterDoc : List Event := linkIn [(py"href", some py"x.txt")] py"t"

def afterFed : PState := fedState asciiUni useAfter afterDoc

def afterState : PState := finalState asciiUni useAfter afterDoc

theorem afterFeed : feed asciiUni useAfter {} afterDoc = .ok afterFed := fed_state rfl (by decide +kernel)

theorem afterTree : treeOf afterFed.dom = [(some py"p", [1]), (some py"a", [2]), (none, [])] := by decide +kernel

-- C34: the paragraph has one entry after its text
example : ∃ (inst : Inst) (kids entries : List Str) (out : Str),
    inst.render asciiUni (kids.flatten ++ (if entries = [] then [] else py"\n") ++ entries.flatten) = .ok out ∧
    out = py"\n[t][1]              \n                    \n[1] t: x.txt        \n" ∧
    kids.length = 1 ∧ entries.length = 1 := by
  have hv : (afterFed.dom.nodes[0]?.map (fun n => (n.data, n.link.isSome))) = some (none, false) := by decide +kernel
  obtain ⟨n, hn, ht, hk⟩ := treeOf_at afterTree (i := 0) rfl
  rw [hn] at hv
  have hl : n.link = none := by
    have := congrArg Prod.snd (Option.some.inj hv)
    cases e : n.link with
    | none => rfl
    | some l => simp [e] at this
  obtain ⟨inst, ctx, kids, entries, h1, h2, h3, h4, h5, h6⟩ := C34_partial asciiUni useAfter {} afterFed afterDoc rfl afterFeed
    afterState.assigned 4 useBox 0 n py"\n[t][1]              \n                    \n[1] t: x.txt        \n" hn
    ⟨congrArg Prod.fst (Option.some.inj hv), by intro l h; rw [hl] at h; cases h⟩ (by decide +kernel)
  refine ⟨inst, kids, entries, _, h2, rfl, by rw [h3, hk]; rfl, h5.trans (by decide +kernel)⟩

-- C34
example : ∃ n, afterFed.dom.nodes[1]? = some n ∧ ∃ j, n.parent = .node j ∧ j < 1 := by
  obtain ⟨n, hn, ht, _⟩ := treeOf_at afterTree (i := 1) rfl
  exact ⟨n, hn, C34_parent asciiUni useAfter {} afterFed afterDoc rfl afterFeed 1 n hn (by rw [placed, ht]; rfl)⟩

/-! ## Reset and closing twice -/

-- C35
example := C35_partial asciiUni {} {} smallFed useSmall rfl (by decide +kernel)

-- C35
example := C35_general asciiUni {} {} smallFed useSmall rfl

-- C35
example := C35_exact asciiUni {} {} smallFed useSmall rfl smallFeed

-- C36: for an empty document
example : ∃ s2, close asciiUni {} (finalState asciiUni {} []) = .ok s2 ∧ s2.parsed = (finalState asciiUni {} []).parsed :=
  C36_partial asciiUni {} {} _ _ [] rfl (fed_state rfl (by decide)) (closed_state (by decide)) (by decide)

-- C39
example := C39 asciiUni {} {} smallFed smallState useSmall rfl smallFeed smallClose

/-! ## The default style of other elements -/

-- C61
example : ∃ s s', feed asciiUni {} {} [.start py"table" []] = .ok s ∧ close asciiUni {} s = .ok s' ∧
    (assignedTo s'.assigned 0).renderer = some .renderer ∧ (assignedTo s'.assigned 0).settings = none :=
  ⟨_, _, fed_state rfl (by decide), closed_state (by decide),
    C61_other asciiUni {} {} _ _ [.start py"table" []] rfl (fed_state rfl (by decide)) (closed_state (by decide)) 0 (unruled_nil rfl _ _) rfl
      py"table" ⟨_, rfl, rfl⟩ (by decide) (by decide)⟩

/-! ## Reading, room and ends -/

-- C58
example := C58_assign asciiUni {} {} smallFed useSmall rfl smallFeed

-- C58
example := C58_partial asciiUni {} useSmall (by simp) (by simp) (builtin_small _ rfl)

-- C65
example := C65 asciiUni {} [] useSmall {} smallFed rfl (.inl rfl) rfl rfl rfl smallFeed

-- C65
example := C65_render asciiUni {} [] useSmall {} rfl (.inl rfl) rfl rfl rfl

-- C65: with the theme of the program
example := C65_render asciiUni cliCfg icedGopherTheme useSmall {} rfl (.inr cli_theme) rfl rfl rfl

-- C65
example := C65_quotes asciiUni {} py"x" 6 {} _ rfl rfl rfl rfl (fed_state (es := (quoted py"x" 6).events) rfl (by decide +kernel))

-- C66
example := C66 asciiUni {} {} rfl useSmall

-- C66
example := C66_only asciiUni {} {} rfl useSmall

-- C66
example := C66_address asciiUni py"h" 70 py"gopher://x:70/y"

end Verif
