import Verif.Proofs.Splitlines
import Verif.Proofs.Close
import Verif.Proofs.Dict
import Verif.Spec.Box

/-!
# Boxes: C13 to C16
-/

namespace Verif

open Spec

/-! ## C13 -/

theorem ownTemplatePadding_eq (t : Option Str) : ownTemplatePadding t = templateCols t := by
  cases t with
  | none => rfl
  | some s => cases s <;> simp [ownTemplatePadding, templateCols, templateWidth, len]

/-- Totals are sums over the box and its ancestors; the width is that of the outermost box; the outermost line template
does not count. -/
theorem C13 (outer : BoxArgs) (inner : List BoxArgs) :
    let b := nest outer inner
    let all := outer :: inner
    b.width = outer.width ∧
    b.totalMargin.left = (all.map (fun a => a.margin.left)).sum ∧
    b.totalMargin.right = (all.map (fun a => a.margin.right)).sum ∧
    b.totalPadding.left = (all.map (fun a => a.padding.left)).sum ∧
    b.totalPadding.right = (all.map (fun a => a.padding.right)).sum ∧
    b.totalBorder.left = (all.map (fun a => a.border.left)).sum ∧
    b.totalBorder.right = (all.map (fun a => a.border.right)).sum ∧
    b.totalLineTemplatePadding = (inner.map (fun a => templateCols a.template)).sum := by
  have main : ∀ (inner : List BoxArgs) (b0 : Box),
      let b := inner.foldl (fun b a => a.make (some b)) b0
      b.width = b0.width ∧
      b.totalMargin.left = b0.totalMargin.left + (inner.map (fun a => a.margin.left)).sum ∧
      b.totalMargin.right = b0.totalMargin.right + (inner.map (fun a => a.margin.right)).sum ∧
      b.totalPadding.left = b0.totalPadding.left + (inner.map (fun a => a.padding.left)).sum ∧
      b.totalPadding.right = b0.totalPadding.right + (inner.map (fun a => a.padding.right)).sum ∧
      b.totalBorder.left = b0.totalBorder.left + (inner.map (fun a => a.border.left)).sum ∧
      b.totalBorder.right = b0.totalBorder.right + (inner.map (fun a => a.border.right)).sum ∧
      b.totalLineTemplatePadding = b0.totalLineTemplatePadding + (inner.map (fun a => templateCols a.template)).sum := by
    intro inner
    induction inner with
    | nil => simp
    | cons a inner ih =>
      intro b0
      have := ih (a.make (some b0))
      simp only [List.foldl_cons, List.map_cons, List.sum_cons] at this ⊢
      obtain ⟨h1, h2, h3, h4, h5, h6, h7, h8⟩ := this
      refine ⟨h1, ?_, ?_, ?_, ?_, ?_, ?_, ?_⟩
      · rw [h2]; simp only [BoxArgs.make, Box.new, Sides.addTotals]; omega
      · rw [h3]; simp only [BoxArgs.make, Box.new, Sides.addTotals]; omega
      · rw [h4]; simp only [BoxArgs.make, Box.new, Sides.addTotals]; omega
      · rw [h5]; simp only [BoxArgs.make, Box.new, Sides.addTotals]; omega
      · rw [h6]; simp only [BoxArgs.make, Box.new, Sides.addTotals]; omega
      · rw [h7]; simp only [BoxArgs.make, Box.new, Sides.addTotals]; omega
      · rw [h8]; simp only [BoxArgs.make, Box.new, ownTemplatePadding_eq]; omega
  have := main inner (outer.make none)
  simp only [List.map_cons, List.sum_cons]
  simp only at this
  obtain ⟨h1, h2, h3, h4, h5, h6, h7, h8⟩ := this
  refine ⟨h1, h2, h3, h4, h5, h6, h7, ?_⟩
  rw [nest, h8]
  simp [BoxArgs.make, Box.new]

/-- The widths are the width of the outermost box less these sums: for text everything counts, inside the padding all but
line templates, and inside the margins the margins only. The padded width leaves the padding in, and the line template
of the box itself. -/
theorem C13_widths (outer : BoxArgs) (inner : List BoxArgs) :
    let b := nest outer inner
    let all := outer :: inner
    let margins := (all.map (fun a => a.margin.left + a.margin.right)).sum
    let paddings := (all.map (fun a => a.padding.left + a.padding.right)).sum
    let borders := (all.map (fun a => a.border.left + a.border.right)).sum
    b.textWidth = outer.width - margins - paddings - borders - (inner.map (fun a => templateCols a.template)).sum ∧
    b.innerWidth = outer.width - margins - paddings - borders ∧
    b.borderedWidth = outer.width - margins ∧
    (∀ init last, inner = init ++ [last] →
      b.paddedWidth = outer.width - margins - borders - (init.map (fun a => templateCols a.template)).sum) := by
  have hsum : ∀ (f g : BoxArgs → Int) (l : List BoxArgs), (l.map (fun a => f a + g a)).sum = (l.map f).sum + (l.map g).sum := by
    intro f g l
    induction l with
    | nil => rfl
    | cons x xs ih => simp only [List.map_cons, List.sum_cons, ih]; omega
  obtain ⟨h1, h2, h3, h4, h5, h6, h7, h8⟩ := C13 outer inner
  simp only [hsum, Box.textWidth, Box.innerWidth, Box.borderedWidth, Box.paddedWidth, h1, h2, h3, h4, h5, h6, h7, h8]
  refine ⟨by omega, by omega, trivial, ?_⟩
  rintro init last rfl
  have ho : (nest outer (init ++ [last])).lineTemplatePadding = templateCols last.template := by
    simp only [nest, List.foldl_append, List.foldl_cons, List.foldl_nil, BoxArgs.make, Box.new]
    exact ownTemplatePadding_eq _
  simp only [ho, List.map_append, List.sum_append, List.map_cons, List.map_nil, List.sum_cons, List.sum_nil]
  omega

/-- The box keeps its own sides. -/
theorem C13_own (outer : BoxArgs) (inner : List BoxArgs) :
    let b := nest outer inner
    let own := (outer :: inner).getLast (by simp)
    b.margin = own.margin ∧ b.padding = own.padding ∧ b.border = own.border ∧
      b.lineTemplatePadding = templateCols own.template := by
  cases hl : inner.getLast? with
  | none =>
    rw [List.getLast?_eq_none_iff] at hl
    subst hl
    exact ⟨rfl, rfl, rfl, ownTemplatePadding_eq _⟩
  | some a =>
    obtain ⟨ys, rfl⟩ := List.getLast?_eq_some_iff.1 hl
    simp only [nest, List.foldl_append, List.foldl_cons, List.foldl_nil]
    have : (outer :: (ys ++ [a])).getLast (by simp) = a := by
      rw [List.getLast_cons (by simp)]; simp
    rw [this]
    exact ⟨rfl, rfl, rfl, ownTemplatePadding_eq _⟩

/-- A page 70 wide, a quote in it and a paragraph in that. -/
def c13Outer : BoxArgs := ⟨70, ⟨1, 2, 3, 4⟩, {}, {}, some py"not counted {}"⟩
def c13Inner : List BoxArgs := [⟨67, {}, ⟨0, 1, 0, 1⟩, ⟨1, 1, 1, 1⟩, some py"> {}"⟩, ⟨67, ⟨1, 0, 1, 5⟩, {}, {}, none⟩]

example : (nest c13Outer c13Inner).textWidth = 70 - (4 + 2 + 5 + 2 + 2 + 2) ∧
    (nest c13Outer c13Inner).innerWidth = 70 - (4 + 2 + 5 + 2 + 2) ∧ (nest c13Outer c13Inner).borderedWidth = 70 - (4 + 2 + 5) ∧
    (nest c13Outer c13Inner).paddedWidth = 70 - (4 + 2 + 5 + 2 + 2) := by decide

/-! ## C14 -/

theorem nonneg_totals (outer : BoxArgs) (inner : List BoxArgs) (h : ∀ a ∈ outer :: inner, a.NonNeg) :
    let b := nest outer inner
    0 ≤ b.totalMargin.left ∧ 0 ≤ b.totalMargin.right ∧ 0 ≤ b.totalPadding.left ∧ 0 ≤ b.totalPadding.right ∧
    0 ≤ b.totalBorder.left ∧ 0 ≤ b.totalBorder.right ∧ 0 ≤ b.totalLineTemplatePadding := by
  have sum : ∀ (l : List BoxArgs) (f : BoxArgs → Int), (∀ a ∈ l, 0 ≤ f a) → 0 ≤ (l.map f).sum := by
    intro l f hf
    induction l with
    | nil => simp
    | cons a l ih =>
      have h1 := hf a (by simp)
      have h2 := ih (fun b hb => hf b (List.mem_cons_of_mem _ hb))
      rw [List.map_cons, List.sum_cons]
      omega
  obtain ⟨-, h2, h3, h4, h5, h6, h7, h8⟩ := C13 outer inner
  simp only at h2 h3 h4 h5 h6 h7 h8 ⊢
  rw [h2, h3, h4, h5, h6, h7, h8]
  refine ⟨sum _ _ ?_, sum _ _ ?_, sum _ _ ?_, sum _ _ ?_, sum _ _ ?_, sum _ _ ?_, sum _ _ ?_⟩
  · exact fun a ha => (h a ha).1.2.2.2
  · exact fun a ha => (h a ha).1.2.1
  · exact fun a ha => (h a ha).2.1.2.2.2
  · exact fun a ha => (h a ha).2.1.2.1
  · exact fun a ha => (h a ha).2.2.1.2.2.2
  · exact fun a ha => (h a ha).2.2.1.2.1
  · exact fun a ha => (h a (List.mem_cons_of_mem _ ha)).2.2.2

/-- The widths of one box are ordered. -/
theorem C14_order (outer : BoxArgs) (inner : List BoxArgs) (h : ∀ a ∈ outer :: inner, a.NonNeg) :
    let b := nest outer inner
    b.textWidth ≤ b.innerWidth ∧ b.innerWidth ≤ b.borderedWidth ∧ b.borderedWidth ≤ b.width := by
  have := nonneg_totals outer inner h
  simp only at this ⊢
  unfold Box.textWidth Box.innerWidth Box.borderedWidth
  omega

/-- Text inside a nested box has no more room than in its parent, and the widths of one box are ordered. -/
theorem C14 (outer : BoxArgs) (inner : List BoxArgs) (a : BoxArgs) (h : ∀ x ∈ outer :: (inner ++ [a]), x.NonNeg) :
    (nest outer (inner ++ [a])).textWidth ≤ (nest outer inner).textWidth ∧
    (nest outer (inner ++ [a])).innerWidth ≤ (nest outer inner).innerWidth := by
  have ha := h a (by simp)
  obtain ⟨h1, h2, h3, h4⟩ := ha
  have e : nest outer (inner ++ [a]) = a.make (some (nest outer inner)) := by simp [nest]
  have ho := ownTemplatePadding_eq a.template
  rw [e]
  unfold Sides.NonNeg at h1 h2 h3
  simp only [BoxArgs.make, Box.new, Sides.addTotals, Box.textWidth, Box.innerWidth]
  omega

example : (∀ a ∈ c13Outer :: c13Inner, a.NonNeg) ∧ (nest c13Outer c13Inner).textWidth = 53 ∧
    (nest c13Outer (c13Inner.take 1)).textWidth = 58 := by
  refine ⟨?_, by decide, by decide⟩
  intro a ha
  simp only [c13Outer, c13Inner, List.mem_cons, List.not_mem_nil, or_false] at ha
  rcases ha with rfl | rfl | rfl <;> simp [BoxArgs.NonNeg, Sides.NonNeg, templateCols]

/-! ## C15 -/

/-- The columns that a box and its ancestors leave for its rows: the page less all margins, less the borders and line
templates of the ancestors. -/
def rowWidth (parent : Box) (margin : Sides) : Int :=
  parent.width - (margin.left + parent.totalMargin.left) - (margin.right + parent.totalMargin.right) -
    (parent.totalBorder.left + parent.totalBorder.right) - parent.totalLineTemplatePadding

/-- The box of a block renderer comes from its settings. -/
theorem blockBox_settings {wt : Bool} {s : Dict} {parent box : Box} {bt br bb bl : Str} {mt mr mb ml pt pr pb pl : Int}
    (h : blockBox wt s parent = .ok box) (hs : DictOf.get s py"border" = some (.strs [bt, br, bb, bl]))
    (hm : DictOf.get s py"margin" = some (.ints [mt, mr, mb, ml]))
    (hp : DictOf.get s py"padding" = some (.ints [pt, pr, pb, pl])) :
    ∃ template, box = Box.new 67 ⟨mt, mr, mb, ml⟩ ⟨pt, pr, pb, pl⟩ ⟨len bt, len br, len bb, len bl⟩ template (some parent) := by
  simp only [blockBox, bind, Except.bind, pure, Except.pure, getA, hs, hm, hp, asBorder, asSides, strAt, Option.getD_some] at h
  cases wt
  · simp at h
    exact ⟨none, h.symm⟩
  · cases ht : boxTemplate s with
    | error e => simp [ht] at h
    | ok t =>
      simp [ht] at h
      exact ⟨t, h.symm⟩

theorem len_rep (c : Char) (n : Int) : len (rep c n) = if 0 ≤ n then n else 0 := by
  simp only [len, rep, List.length_replicate]
  split <;> omega

theorem len_append (a b : Str) : len (a ++ b) = len a + len b := by simp [len]

theorem splitCh_borderLines {box : Box} {bt br bb bl content : Str} (h1 : '\n' ∉ bt) (h2 : '\n' ∉ br) (h3 : '\n' ∉ bb)
    (h4 : '\n' ∉ bl) : ∀ l ∈ borderLines box bt br bb bl content, '\n' ∉ l := by
  have hrep : ∀ (n : Int), '\n' ∉ rep ' ' n := by
    intro n h
    have := List.eq_of_mem_replicate h
    revert this
    decide
  intro l hl
  simp only [borderLines, List.mem_append] at hl
  have hv : ∀ n : Int, l ∈ List.replicate n.toNat (bl ++ rep ' ' box.paddedWidth ++ br) → '\n' ∉ l := by
    intro n h
    rw [List.eq_of_mem_replicate h]
    simp only [List.mem_append, not_or]
    exact ⟨⟨h4, hrep _⟩, h2⟩
  have he : ∀ (s : Str) (k : Int), '\n' ∉ s → l ∈ (if k > 0 then s.map (fun c => rep c box.borderedWidth) else []) → '\n' ∉ l := by
    intro s k hs h
    split at h
    · obtain ⟨c, hc, rfl⟩ := List.mem_map.1 h
      intro hm
      have := List.eq_of_mem_replicate hm
      subst this
      exact hs hc
    · simp at h
  rcases hl with (hl | (hl | hl) | hl) | hl
  · exact he _ _ h1 hl
  · exact hv _ hl
  · obtain ⟨l', hl', rfl⟩ := List.mem_map.1 hl
    simp only [borderRow, List.mem_append, not_or]
    exact ⟨⟨⟨⟨h4, hrep _⟩, mem_splitCh _ _ _ hl'⟩, hrep _⟩, h2⟩
  · exact hv _ hl
  · exact he _ _ h3 hl

theorem box_rows (w : Int) (margin padding : Sides) (bt br bb bl : Str) (template : Option Str) (parent : Box)
    (s : Dict) (content : Str) (hs : DictOf.get s py"border" = some (.strs [bt, br, bb, bl]))
    (hp : 0 ≤ padding.left) (h1 : '\n' ∉ bt) (h2 : '\n' ∉ br) (h3 : '\n' ∉ bb) (h4 : '\n' ∉ bl) :
    let box := Box.new w margin padding ⟨len bt, len br, len bb, len bl⟩ template (some parent)
    let W := rowWidth parent margin
    (∀ l ∈ splitCh '\n' content, padding.left + len l ≤ W - len bl - len br) →
    ∃ out top rows bottom, borderRender s box content = .ok out ∧ splitCh '\n' out = top ++ rows ++ bottom ∧
      top = bt.map (fun c => rep c box.borderedWidth) ∧ bottom = bb.map (fun c => rep c box.borderedWidth) ∧
      (∀ l ∈ top ++ bottom, len l = if 0 ≤ box.borderedWidth then box.borderedWidth else 0) ∧
      rows.length = padding.top.toNat + (splitCh '\n' content).length + padding.bottom.toNat ∧
      (∀ l ∈ rows, len l = W) ∧
      (∀ (k : Nat) l, (splitCh '\n' content)[k]? = some l →
        ∃ r, rows[padding.top.toNat + k]? = some (bl ++ rep ' ' padding.left ++ l ++ rep ' ' r ++ br)) := by
  intro box W hfit
  have hpw : box.paddedWidth = W - len bl - len br := by
    simp only [box, W, Box.paddedWidth, Box.new, Sides.addTotals, rowWidth]
    omega
  have hlines := splitCh_borderLines (box := box) (content := content) h1 h2 h3 h4
  have hne : borderLines box bt br bb bl content ≠ [] := by
    simp [borderLines, splitCh_ne_nil]
  have hedge : ∀ (t : Str) (k : Int), k = len t →
      (if k > 0 then t.map (fun c => rep c box.borderedWidth) else []) = t.map (fun c => rep c box.borderedWidth) := by
    intro t k hk
    subst hk
    cases t with
    | nil => rfl
    | cons c t => rw [if_pos]; simp [len]
  refine ⟨join py"\n" (borderLines box bt br bb bl content), bt.map (fun c => rep c box.borderedWidth),
    List.replicate padding.top.toNat (bl ++ rep ' ' box.paddedWidth ++ br) ++
      (splitCh '\n' content).map (borderRow box bl br) ++
      List.replicate padding.bottom.toNat (bl ++ rep ' ' box.paddedWidth ++ br),
    bb.map (fun c => rep c box.borderedWidth), ?_, ?_, rfl, rfl, ?_, by simp; omega, ?_, ?_⟩
  · simp only [borderRender, bind, Except.bind, pure, Except.pure, getA, hs, asBorder, strAt]
    rfl
  · rw [splitCh_join _ _ hne hlines]
    simp only [borderLines]
    rw [hedge bt box.border.top rfl, hedge bb box.border.bottom rfl]
    rfl
  · intro l hl
    rcases List.mem_append.1 hl with hl | hl
    · obtain ⟨c, -, rfl⟩ := List.mem_map.1 hl
      exact len_rep _ _
    · obtain ⟨c, -, rfl⟩ := List.mem_map.1 hl
      exact len_rep _ _
  · have hw : 0 ≤ box.paddedWidth := by
      rw [hpw]
      cases hc : splitCh '\n' content with
      | nil => exact absurd hc (splitCh_ne_nil _ _)
      | cons l ls =>
        have := hfit l (by rw [hc]; simp)
        have hl : 0 ≤ len l := by simp [len]
        omega
    have hv : len (bl ++ rep ' ' box.paddedWidth ++ br) = W := by
      rw [len_append, len_append, len_rep, if_pos hw]
      omega
    intro l hl
    rcases List.mem_append.1 hl with hl | hl
    · rcases List.mem_append.1 hl with hl | hl
      · rw [List.eq_of_mem_replicate hl]; exact hv
      · obtain ⟨l', hl', rfl⟩ := List.mem_map.1 hl
        have := hfit l' hl'
        simp only [borderRow, len_append]
        have hpl : box.padding.left = padding.left := rfl
        rw [len_rep, len_rep, hpl, if_pos hp, if_pos (by omega)]
        omega
    · rw [List.eq_of_mem_replicate hl]; exact hv
  · intro k l hk
    refine ⟨box.paddedWidth - (box.padding.left + len l), ?_⟩
    have hlt := getElem?_lt hk
    rw [List.append_assoc, List.getElem?_append_right (by simp), List.getElem?_append_left (by simp; exact hlt)]
    simp only [List.length_replicate, Nat.add_sub_cancel_left, List.getElem?_map, hk]
    rfl

/-- The rows of a block: the content rows are all as long as the row width, in order and with the content unchanged
between the borders; rows of padding too; the rows of the top and bottom border, one for each character, are as long as
the box without its margins. -/
theorem C15_rows (wt : Bool) (s : Dict) (parent box : Box) (content bt br bb bl : Str) (mt mr mb ml pt pr pb pl : Int)
    (hb : blockBox wt s parent = .ok box)
    (hs : DictOf.get s py"border" = some (.strs [bt, br, bb, bl]))
    (hm : DictOf.get s py"margin" = some (.ints [mt, mr, mb, ml]))
    (hp : DictOf.get s py"padding" = some (.ints [pt, pr, pb, pl]))
    (h0 : 0 ≤ pl) (h1 : '\n' ∉ bt) (h2 : '\n' ∉ br) (h3 : '\n' ∉ bb) (h4 : '\n' ∉ bl) :
    let page := parent.width - (ml + parent.totalMargin.left) - (mr + parent.totalMargin.right)
    let W := page - (parent.totalBorder.left + parent.totalBorder.right) - parent.totalLineTemplatePadding
    (∀ l ∈ splitCh '\n' content, pl + len l ≤ W - len bl - len br) →
    ∃ out top rows bottom, borderRender s box content = .ok out ∧ splitCh '\n' out = top ++ rows ++ bottom ∧
      top = bt.map (fun c => List.replicate page.toNat c) ∧ bottom = bb.map (fun c => List.replicate page.toNat c) ∧
      rows.length = pt.toNat + (splitCh '\n' content).length + pb.toNat ∧
      (∀ l ∈ rows, len l = W) ∧
      (∀ (k : Nat) l, (splitCh '\n' content)[k]? = some l →
        ∃ n, rows[pt.toNat + k]? = some (bl ++ List.replicate pl.toNat ' ' ++ l ++ List.replicate n ' ' ++ br)) := by
  intro page W hfit
  obtain ⟨template, rfl⟩ := blockBox_settings hb hs hm hp
  obtain ⟨out, top, rows, bottom, e1, e2, e3, e4, -, e6, e7, e8⟩ :=
    box_rows 67 ⟨mt, mr, mb, ml⟩ ⟨pt, pr, pb, pl⟩ bt br bb bl template parent s content hs h0 h1 h2 h3 h4 hfit
  have hpage : (Box.new 67 ⟨mt, mr, mb, ml⟩ ⟨pt, pr, pb, pl⟩ ⟨len bt, len br, len bb, len bl⟩ template
      (some parent)).borderedWidth = page := by
    simp only [page, Box.borderedWidth, Box.new, Sides.addTotals]
    omega
  rw [hpage] at e3 e4
  refine ⟨out, top, rows, bottom, e1, e2, e3, e4, e6, e7, ?_⟩
  intro k l hk
  obtain ⟨r, hr⟩ := e8 k l hk
  exact ⟨r.toNat, hr⟩

/-- A block is a rectangle, provided that it has no top and bottom border, or that no ancestor has a border or a line
template. (What is missing: otherwise the top and bottom borders stick out, see `C15_fails`.) -/
theorem C15_partial (wt : Bool) (s : Dict) (parent box : Box) (content bt br bb bl : Str)
    (mt mr mb ml pt pr pb pl : Int) (hb : blockBox wt s parent = .ok box)
    (hs : DictOf.get s py"border" = some (.strs [bt, br, bb, bl]))
    (hm : DictOf.get s py"margin" = some (.ints [mt, mr, mb, ml]))
    (hp : DictOf.get s py"padding" = some (.ints [pt, pr, pb, pl]))
    (h0 : 0 ≤ pl) (h1 : '\n' ∉ bt) (h2 : '\n' ∉ br) (h3 : '\n' ∉ bb) (h4 : '\n' ∉ bl)
    (hanc : (bt = [] ∧ bb = []) ∨
      (parent.totalBorder.left + parent.totalBorder.right = 0 ∧ parent.totalLineTemplatePadding = 0)) :
    let W := parent.width - (ml + parent.totalMargin.left) - (mr + parent.totalMargin.right) -
      (parent.totalBorder.left + parent.totalBorder.right) - parent.totalLineTemplatePadding
    (∀ l ∈ splitCh '\n' content, pl + len l ≤ W - len bl - len br) →
    ∃ out, borderRender s box content = .ok out ∧
      (∀ l ∈ splitCh '\n' out, len l = W) ∧
      (splitCh '\n' out).length =
        (splitCh '\n' content).length + pt.toNat + pb.toNat + bt.length + bb.length ∧
      (∀ (k : Nat) l, (splitCh '\n' content)[k]? = some l →
        ∃ n, (splitCh '\n' out)[bt.length + pt.toNat + k]? =
          some (bl ++ List.replicate pl.toNat ' ' ++ l ++ List.replicate n ' ' ++ br)) := by
  intro W hfit
  obtain ⟨out, top, rows, bottom, e1, e2, e3, e4, e6, e7, e8⟩ :=
    C15_rows wt s parent box content bt br bb bl mt mr mb ml pt pr pb pl hb hs hm hp h0 h1 h2 h3 h4 hfit
  have hW : 0 ≤ W := by
    cases hc : splitCh '\n' content with
    | nil => exact absurd hc (splitCh_ne_nil _ _)
    | cons l ls =>
      have := hfit l (by rw [hc]; simp)
      have a1 : 0 ≤ len l := by simp [len]
      have a2 : 0 ≤ len bl := by simp [len]
      have a3 : 0 ≤ len br := by simp [len]
      omega
  refine ⟨out, e1, ?_, ?_, ?_⟩
  · rw [e2]
    intro l hl
    have edge : ∀ t : Str, (t = [] ∨ (parent.totalBorder.left + parent.totalBorder.right = 0 ∧
        parent.totalLineTemplatePadding = 0)) → l ∈ t.map (fun c => List.replicate (parent.width - (ml + parent.totalMargin.left) -
          (mr + parent.totalMargin.right)).toNat c) → len l = W := by
      intro t ht hl
      obtain ⟨c, hc, rfl⟩ := List.mem_map.1 hl
      rcases ht with rfl | ⟨a, b⟩
      · simp at hc
      · simp only [len, List.length_replicate]
        omega
    rcases List.mem_append.1 hl with hl | hl
    · rcases List.mem_append.1 hl with hl | hl
      · rw [e3] at hl
        exact edge bt (hanc.imp (·.1) id) hl
      · exact e7 l hl
    · rw [e4] at hl
      exact edge bb (hanc.imp (·.2) id) hl
  · rw [e2, List.length_append, List.length_append, e3, e4, e6, List.length_map, List.length_map]
    omega
  · intro k l hk
    obtain ⟨r, hr⟩ := e8 k l hk
    refine ⟨r, ?_⟩
    have hlt := getElem?_lt hr
    have ht : top.length = bt.length := by rw [e3, List.length_map]
    rw [e2, List.append_assoc, List.getElem?_append_right (by omega), List.getElem?_append_left (by omega), ← hr]
    congr 1
    omega

/-- Settings of a framed block. -/
def framedBlock (m p : List Int) : Dict :=
  [(py"border", .strs [py"-", py"|", py"-", py"|"]), (py"margin", .ints m), (py"padding", .ints p)]

/-- A framed block in a framed block: the upper edge is two columns longer than the rows. -/
theorem C15_fails :
    (do let outer ← blockBox false (framedBlock [0, 0, 0, 0] [0, 0, 0, 0]) (Box.new 10 {} {} {} none none)
        let inner ← blockBox false (framedBlock [0, 0, 0, 0] [0, 0, 0, 0]) outer
        borderRender (framedBlock [0, 0, 0, 0] [0, 0, 0, 0]) inner py"a") =
      .ok py"----------\n|a     |\n----------" := by decide

example : (do let box ← blockBox false (framedBlock [0, 1, 0, 1] [1, 1, 0, 1]) (Box.new 10 {} {} {} none none)
              borderRender (framedBlock [0, 1, 0, 1] [1, 1, 0, 1]) box py"ab\nc") =
    .ok py"--------\n|      |\n| ab   |\n| c    |\n--------" := by decide

/-- A border can also be given as one text: its first four characters are the sides, from the top clockwise. -/
theorem C15_chars (wt : Bool) (s : Dict) (parent box : Box) (content more : Str) (t r b l : Char)
    (hs : DictOf.get s py"border" = some (.str (t :: r :: b :: l :: more))) :
    let s' := DictOf.set s py"border" (.strs [[t], [r], [b], [l]])
    blockBox wt s parent = blockBox wt s' parent ∧ borderRender s box content = borderRender s' box content := by
  intro s'
  have h1 : DictOf.get s' py"border" = some (.strs [[t], [r], [b], [l]]) := by simp [s', DictOf.get_set]
  have h2 : ∀ k, k ≠ py"border" → DictOf.get s' k = DictOf.get s k := fun k hk => by simp [s', DictOf.get_set, hk]
  constructor
  · simp only [blockBox, bind, Except.bind, pure, Except.pure, getA, hs, h1, asBorder, strAt, boxTemplate,
      h2 py"margin" (by decide), h2 py"padding" (by decide), h2 py"line_template" (by decide)]
    rfl
  · simp only [borderRender, bind, Except.bind, pure, Except.pure, getA, hs, h1, asBorder, strAt]
    rfl

/-- With less than four characters there is no block. -/
theorem C15_short (wt : Bool) (s : Dict) (parent : Box) (x : Str) (hs : DictOf.get s py"border" = some (.str x)) (hx : x.length < 4) (box : Box) :
    blockBox wt s parent ≠ .ok box := by
  intro h
  simp only [blockBox, bind, Except.bind, pure, Except.pure, getA, hs, asBorder, strAt] at h
  match x, hx with
  | [], _ => revert h; repeat' (first | (intro h; cases h; done) | split)
  | [_], _ => revert h; repeat' (first | (intro h; cases h; done) | split)
  | [_, _], _ => revert h; repeat' (first | (intro h; cases h; done) | split)
  | [_, _, _], _ => revert h; repeat' (first | (intro h; cases h; done) | split)

example : (do let s : Dict := [(py"border", .str py"-|-|"), (py"margin", .ints [0, 0, 0, 0]), (py"padding", .ints [0, 0, 0, 0])]
              let box ← blockBox false s (Box.new 10 {} {} {} none none)
              borderRender s box py"a") = .ok py"----------\n|a       |\n----------" := by decide

/-! ## C16 -/

theorem blockBox_margin {wt : Bool} {s : Dict} {parent box : Box} {mt mr mb ml : Int}
    (h : blockBox wt s parent = .ok box) (hm : DictOf.get s py"margin" = some (.ints [mt, mr, mb, ml])) :
    box.margin = ⟨mt, mr, mb, ml⟩ := by
  simp only [blockBox, bind, Except.bind, pure, Except.pure, hm, asSides, Option.getD_some] at h
  repeat (first | (cases h; rfl) | (split at h <;> try (cases h; done)))
  all_goals (cases h; rfl)

/-- Applying the margins: newlines above and below, spaces at the start of every line. -/
theorem C16 (box : Box) (content : Str) :
    outerRender box content = List.replicate box.margin.top.toNat '\n' ++
      indentLines (List.replicate box.margin.left.toNat ' ') true content ++
      List.replicate box.margin.bottom.toNat '\n' := by
  unfold outerRender
  rw [indent_eq]
  rfl

/-- The characters that end lines. -/
theorem C16_breaks (c : Char) : isLineBreak c = true ↔
    c ∈ ['\n', '\x0b', '\x0c', '\r', '\x1c', '\x1d', '\x1e', '\u0085', '\u2028', '\u2029'] := by
  have char : ∀ (d : Char), c.toNat = d.toNat ↔ c = d := fun d => ⟨Char.toNat_inj.1, fun h => h ▸ rfl⟩
  simp only [List.mem_cons, List.not_mem_nil, or_false, ← char, isLineBreak, Bool.or_eq_true, Bool.and_eq_true, decide_eq_true_eq, beq_iff_eq]
  have e : '\n'.toNat = 10 ∧ '\x0b'.toNat = 11 ∧ '\x0c'.toNat = 12 ∧ '\r'.toNat = 13 ∧ '\x1c'.toNat = 28 ∧ '\x1d'.toNat = 29 ∧
      '\x1e'.toNat = 30 ∧ '\u0085'.toNat = 133 ∧ '\u2028'.toNat = 8232 ∧ '\u2029'.toNat = 8233 := by decide
  omega

/-- That is what every block renderer does last, with the margins in its settings. -/
theorem C16_block (u : Uni) (i : Inst) (wt : Bool) (parent box : Box) (mt mr mb ml : Int) (content out : Str)
    (hb : blockBox wt i.settings parent = .ok box)
    (hm : DictOf.get i.settings py"margin" = some (.ints [mt, mr, mb, ml]))
    (h : blockRender u i box content = .ok out) :
    ∃ inner bordered, innerRender u i box content = .ok inner ∧ borderRender i.settings box inner = .ok bordered ∧
      out = List.replicate mt.toNat '\n' ++ indentLines (List.replicate ml.toNat ' ') true bordered ++
        List.replicate mb.toNat '\n' := by
  have hmargin : box.margin = ⟨mt, mr, mb, ml⟩ := blockBox_margin hb hm
  simp only [blockRender, bind, Except.bind] at h
  cases h1 : innerRender u i box content with
  | error e => rw [h1] at h; cases h
  | ok inner =>
    rw [h1] at h
    simp only at h
    cases h2 : borderRender i.settings box inner with
    | error e => rw [h2] at h; cases h
    | ok bordered =>
      rw [h2] at h
      simp only [pure, Except.pure, Except.ok.injEq] at h
      exact ⟨inner, bordered, rfl, h2, by rw [← h, C16, hmargin]⟩

/-- Indenting only adds the indents: taking them away gives back the content. -/
theorem C16_lines (pad content : Str) :
    ∃ pieces : List Str, pieces.flatten = content ∧ indentLines pad true content = (pieces.map (pad ++ ·)).flatten ∧
      (∀ p ∈ pieces, p ≠ []) ∧
      ∀ p ∈ pieces, ∀ a c b, p = a ++ c :: b → isLineBreak c = true → b = [] ∨ (c = '\r' ∧ b = ['\n']) := by
  refine ⟨splitlinesKeep content, splitlinesKeep_flatten content, (indent_eq pad content).symm, ?_, ?_⟩
  · fun_induction splitlinesKeep content with
    | case1 => simp
    | case2 xs ih => simpa using ih
    | case3 c xs _ _ ih => simpa using ih
    | case4 => simp
    | case5 c xs _ _ l ls heq ih =>
      intro p hp
      rcases List.mem_cons.1 hp with rfl | hp
      · simp
      · exact ih p (by rw [heq]; exact List.mem_cons_of_mem _ hp)
  · fun_induction splitlinesKeep content with
    | case1 => simp
    | case2 xs ih =>
      intro p hp
      rcases List.mem_cons.1 hp with rfl | hp
      · intro a c b e hc
        cases a with
        | nil => simp at e; exact .inr ⟨e.1.symm, e.2.symm⟩
        | cons x a =>
          simp at e
          obtain ⟨-, e⟩ := e
          cases a with
          | nil => simp at e; exact .inl e.2
          | cons y a => simp at e
      · exact ih p hp
    | case3 c xs _ _ ih =>
      intro p hp
      rcases List.mem_cons.1 hp with rfl | hp
      · intro a x b e hx
        cases a with
        | nil => simp at e; exact .inl e.2
        | cons y a => simp at e
      · exact ih p hp
    | case4 c xs _ hb _ _ =>
      intro p hp a x b e hx
      simp at hp
      subst hp
      cases a with
      | nil => simp at e; obtain ⟨e1, e2⟩ := e; subst e1; exact absurd hx hb
      | cons y a => simp at e
    | case5 c xs _ hb l ls heq ih =>
      intro p hp
      rcases List.mem_cons.1 hp with rfl | hp
      · intro a x b e hx
        cases a with
        | nil => simp at e; obtain ⟨e1, e2⟩ := e; subst e1; exact absurd hx hb
        | cons y a =>
          simp at e
          exact ih l (by rw [heq]; simp) a x b e.2 hx
      · exact ih p (by rw [heq]; exact List.mem_cons_of_mem _ hp)

example : outerRender (Box.new 67 ⟨1, 0, 2, 2⟩ {} {} none none) py"a\r\nb\x0cc" = py"\n  a\r\n  b\x0c  c\n\n" := by decide

end Verif
