import Verif.Tests.Use
import Verif.Props.Accept
import Verif.Props.Footer
import Verif.Props.LinkSettings

/-!
# The theorems about links, used on documents
-/

namespace Verif

open Spec

/-! ## Addresses -/

-- C40
example : guessType py"x.txt" = py"0" := C40 py"x.txt" py"0" (.known (before := py"x") (ext := py"txt") (by decide) (by decide))

-- C40
example := C40_total py"x.tar.gz"

-- C41
example := C41_total py"gopher://k:70/x.txt"

-- C41
example : parseHref asciiUni py"h" 70 (some py"http://k/x") = .ok ⟨py"h", py"URL:http://k/x", some py"h", some 70⟩ :=
  C41_web asciiUni py"h" 70 (s := py"http://k/x") (scheme := py"http") (rest := py"//k/x") (netloc := py"k") (tail := py"/x")
    ⟨[], py"http://k/x", by decide, by decide, by simp, by decide⟩ ⟨py"http", by decide, ⟨'h', by decide, by decide⟩, by decide, by decide⟩
    (.inl ⟨by decide, by decide, by simp⟩) ⟨by decide, .inr (by decide)⟩ (by decide)

theorem relative_plain {s : Str} (h : ':' ∉ s) : Relative s := by
  rintro scheme rest ⟨pre, e, _⟩
  exact h (by rw [e]; simp)

-- C41
example : parseHref asciiUni py"h" 70 (some py"a/b.gif?q") = .ok ⟨py"g", py"a/b.gif", some py"h", some 70⟩ :=
  C41_relative_partial asciiUni py"h" 70 (s := py"a/b.gif?q") (netloc := []) (tail := py"a/b.gif?q") (path := py"a/b.gif")
    ⟨[], py"a/b.gif?q", by decide, by decide, by simp, by decide⟩ (relative_plain (by decide)) (.inr ⟨by simp, rfl, rfl⟩)
    ⟨py"?q", by decide, by decide, by simp⟩ ⟨by decide, .inl rfl⟩ (by decide)
    (.known (before := py"a/b") (ext := py"gif") (by decide) (by decide))

-- C41
example : parseHref asciiUni py"h" 70 (some py"a;b.txt") = .ok ⟨py"1", py"a", some py"h", some 70⟩ :=
  C41_params asciiUni py"h" 70 (s := py"a;b.txt") (netloc := []) (tail := py"a;b.txt") (path := py"a;b.txt")
    ⟨[], py"a;b.txt", by decide, by decide, by simp, by decide⟩ (relative_plain (by decide)) (.inr ⟨by simp, rfl, rfl⟩)
    ⟨[], by decide, by decide, by simp⟩ ⟨by decide, .inl rfl⟩
    ⟨[], py"a", py";b.txt", by decide, by decide, .inl rfl, by decide, by decide, .inr rfl⟩ (.noDot (by decide))

-- C41
example : parseHref asciiUni py"h" 70 (some py"gopher://u@k:70/x.txt") = .ok ⟨py"0", py"/x.txt", some py"k", some 70⟩ :=
  C41_gopher asciiUni py"h" 70 (s := py"gopher://u@k:70/x.txt") (rest := py"//u@k:70/x.txt") (netloc := py"u@k:70") (tail := py"/x.txt")
    (path := py"/x.txt") (user := py"u@") (name := py"k") (n := 70)
    ⟨[], py"gopher://u@k:70/x.txt", by decide, by decide, by simp, by decide⟩
    ⟨py"gopher", by decide, ⟨'g', by decide, by decide⟩, by decide, by decide⟩ (.inl ⟨by decide, by decide, by simp⟩)
    ⟨[], by decide, by decide, by simp⟩ ⟨by decide, .inr (by decide)⟩ (.known (before := py"/x") (ext := py"txt") (by decide) (by decide))
    (.inr (by decide)) ⟨by decide, by decide⟩ (by decide) (by decide)

-- C41
example : parseHref asciiUni py"h" 70 (some py"gopher://k/x.txt") = .ok ⟨py"0", py"/x.txt", some py"k", none⟩ :=
  C41_gopher_noport asciiUni py"h" 70 (s := py"gopher://k/x.txt") (rest := py"//k/x.txt") (netloc := py"k") (tail := py"/x.txt")
    (path := py"/x.txt") (user := []) (name := py"k")
    ⟨[], py"gopher://k/x.txt", by decide, by decide, by simp, by decide⟩
    ⟨py"gopher", by decide, ⟨'g', by decide, by decide⟩, by decide, by decide⟩ (.inl ⟨by decide, by decide, by simp⟩)
    ⟨[], by decide, by decide, by simp⟩ ⟨by decide, .inr (by decide)⟩ (.known (before := py"/x") (ext := py"txt") (by decide) (by decide))
    (.inl rfl) ⟨by decide, by decide⟩ (by decide)

-- C41
example : parseHref asciiUni py"h" 70 (some py"gopher://k:x/") = .error .valueError :=
  C41_gopher_badport asciiUni py"h" 70 (s := py"gopher://k:x/") (rest := py"//k:x/") (netloc := py"k:x") (tail := py"/")
    (path := py"/") (user := []) (name := py"k") (p := py"x")
    ⟨[], py"gopher://k:x/", by decide, by decide, by simp, by decide⟩
    ⟨py"gopher", by decide, ⟨'g', by decide, by decide⟩, by decide, by decide⟩ (.inl ⟨by decide, by decide, by simp⟩)
    ⟨[], by decide, by decide, by simp⟩ (.inl rfl) ⟨by decide, by decide⟩ (by decide) ⟨by decide, by decide⟩ (by decide)
    (.inl ⟨'x', by decide, by decide⟩)

-- C41
example : parseHref asciiUni py"h" 70 (some py"http://[k/") = .error .valueError :=
  (C41_error asciiUni py"h" 70).1 py"http://[k/" py"http://[k/" py"http" py"//[k/" py"[k" py"/"
    ⟨[], py"http://[k/", by decide, by decide, by simp, by decide⟩
    (.inl ⟨py"http", by decide, ⟨'h', by decide, by decide⟩, by decide, by decide⟩) (.inl ⟨by decide, by decide, by simp⟩)
    (by rintro ⟨h, _⟩; exact absurd (h.mp (by decide)) (by decide))

/-! ## Entries -/

/-- A document with a link and an image, for all placements. -/
def linkDoc : List Event :=
  [.start py"p" [], .start py"a" [(py"href", some py"x.txt")], .data py"t", .stop py"a",
   .start py"img" [(py"src", some py"y.png"), (py"alt", some py"Y")], .stop py"p"]

def linkNodes : List (Option Str × List Nat) := [(some py"p", [1, 3]), (some py"a", [2]), (none, []), (some py"img", [])]

def gopherUse : Cfg := { gopherCfg with imagePlacement := py"footer" }

def gopherState : PState := finalState asciiUni gopherUse linkDoc

theorem gopherRendered : Rendered asciiUni gopherUse linkDoc gopherState := rendered_final rfl (by decide +kernel) (by decide +kernel)

theorem gopherTree : treeOf gopherState.dom = linkNodes := by decide +kernel

-- C42
example := C42_entry asciiUni gopherUse linkDoc gopherState gopherRendered rfl 10 (.inl ⟨rfl, rfl⟩) 1 (hasTag_at gopherTree rfl)

-- C42
example := C42_image asciiUni gopherUse linkDoc gopherState gopherRendered rfl (by decide) 10 (.inl ⟨rfl, rfl⟩) 3 (hasTag_at gopherTree rfl)

theorem ascii_field (x : Str) (h : Field x) : Field (asciiUni.lower x) := by
  intro c hc
  obtain ⟨a, ha, rfl⟩ := List.mem_map.mp hc
  have := h a ha
  unfold Char.toLower
  split
  · rename_i hr
    have h1 : 65 ≤ a.val := hr.1
    have h2 : a.val ≤ 90 := hr.2
    constructor
    all_goals
      intro e
      have := congrArg (fun c : Char => c.val.toNat) e
      simp only [UInt32.toNat_add] at this
      have h1' : 65 ≤ a.val.toNat := h1
      have h2' : a.val.toNat ≤ 90 := h2
      have h3 : ('a'.val - 'A'.val).toNat = 32 := rfl
      have h4 : ('\t' : Char).val.toNat = 9 := rfl
      have h5 : ('\n' : Char).val.toNat = 10 := rfl
      omega
  · exact this

-- C42: the line for the link
example : FourFields py"0[1] t\tx.txt\th\t70\n" :=
  (C42_partial asciiUni gopherUse linkDoc gopherState gopherRendered rfl 10 (.inl ⟨rfl, rfl⟩) 1 (hasTag_at gopherTree rfl) ascii_field
    (by intro x hx; cases List.mem_singleton.mp hx; decide)
    (by intro v hv; cases hv; decide) 4 useBox _ (by decide +kernel)
    (.inr ⟨by decide, by intro text ht; cases ht.symm.trans (show _ = Except.ok py"t" by decide +kernel); decide⟩)).1

def gopherState1 : PState := finalState asciiUni gopherCfg linkDoc

theorem gopherRendered1 : Rendered asciiUni gopherCfg linkDoc gopherState1 := rendered_final rfl (by decide +kernel) (by decide +kernel)

-- C42
example := C42_footer asciiUni gopherCfg linkDoc gopherState1 gopherRendered1 rfl 10 (.inl ⟨rfl, rfl⟩) rfl (by decide) (by decide)
  (by decide +kernel)

-- C43
example := C43_entry asciiUni {} useDoc useState useRendered (by decide) (by decide) 10 (.inl ⟨rfl, rfl⟩) 29 (hasTag_at useTree rfl)

-- C43
example : Shortened 10 py"0123456789 x" (cutText 10 py"0123456789 x") :=
  C43_partial 10 py"0123456789 x" (.inr ⟨py"0123456789 x", ⟨⟨[], [], by simp [Blank], by simp [Blank], rfl⟩, by simp; decide, by simp; decide⟩, by decide⟩)

-- C43
example : cutText 10 py" 012345678 " = py"012345678..." :=
  (C43_padded 10 py" 012345678 " py"012345678" ⟨⟨py" ", py" ", by simp [Blank]; decide, by simp [Blank]; decide, rfl⟩, by simp; decide, by simp; decide⟩ (by decide) (by decide)).1

-- C74
example := C74 asciiUni {} useDoc useState useRendered (by decide) 10 (.inl ⟨rfl, rfl⟩) rfl rfl (by decide) (by decide +kernel)

-- C81: links where they are
def inlineState : PState := finalState asciiUni { linkPlacement := py"inline", imagePlacement := py"footer" } linkDoc

theorem inlineRendered : Rendered asciiUni { linkPlacement := py"inline", imagePlacement := py"footer" } linkDoc inlineState :=
  rendered_final rfl (by decide +kernel) (by decide +kernel)

theorem inlineTree : treeOf inlineState.dom = linkNodes := by decide +kernel

-- C81
example := C81_inline asciiUni { linkPlacement := py"inline", imagePlacement := py"footer" } linkDoc inlineState inlineRendered 1
  (unruled_nil rfl _ _) (hasTag_at inlineTree rfl) rfl 5 useBox

-- C81: images in the footer
example := C81_partial asciiUni { linkPlacement := py"inline", imagePlacement := py"footer" } linkDoc inlineState inlineRendered 3
  (unruled_nil rfl _ _) (hasTag_at inlineTree rfl) (by decide)

/-! ## Rules for links -/

/-- A class of the user for the entries of links. -/
def entryClass : RClass := .sub .extractedLink [(py"max_link_description", .int 3)]

def entryUse : Cfg := { linkRenderers := [tagRule py"a" entryClass] }

def entryState : PState := finalState asciiUni entryUse linkDoc

theorem entryRendered : Rendered asciiUni entryUse linkDoc entryState := rendered_final rfl (by decide +kernel) (by decide +kernel)

theorem entryTree : treeOf entryState.dom = linkNodes := by decide +kernel

theorem entry_dicts : DictSettings entryClass := by
  intro a h
  cases h with
  | refl => decide
  | step hb h => cases hb; exact (builtin_noRepeat .extractedLink rfl []).2 a h

-- C44
example := C44_partial asciiUni entryUse linkDoc entryState entryRendered (by decide) entryClass rfl rfl entry_dicts 1 (hasTag_at entryTree rfl)

-- C44: settings for links in the text
example := C44_ignored asciiUni (entryRule (.pair (some .extractedLink) (some [(py"max_link_description", .int 3)]))) _
  (show SameRules _ (entryRule (.pair (some .extractedLink) none)).linkRenderers from .cons ⟨rfl, rfl, .pair _ _ _⟩ .nil) linkDoc

def capitalState : PState := finalState asciiUni capitals linkDoc

theorem capitalNode : (capitalState.dom.nodes[1]?.map (fun n => (n.data, n.link.map (fun l => l.placement n.tag)))) =
    some (none, some py"footer") := by decide +kernel

-- C44
example : ∃ ctx : Ctx, ∀ fuel box, textOf asciiUni capitalState (fuel + 1) box 1 =
    renderWith asciiUni .link (tagInfo capitalState.dom 1) ctx box (fun b => contents asciiUni capitalState fuel b 1) := by
  have hv := capitalNode
  cases hn : capitalState.dom.nodes[1]? with
  | none => rw [hn] at hv; cases hv
  | some n =>
    rw [hn] at hv
    simp only [Option.map_some, Option.some.injEq, Prod.mk.injEq, Option.map_eq_some_iff] at hv
    obtain ⟨hd, l, hl, hp⟩ := hv
    obtain ⟨ctx, h⟩ := C44_reference asciiUni capitalState 1 n l .link [(py"capitalized", .bool true)] hn hd hl (by rw [hp]; decide)
      (by with_unfolding_all rfl) (by with_unfolding_all rfl) (by decide)
    exact ⟨ctx, fun fuel box => (h fuel box).1⟩

end Verif
