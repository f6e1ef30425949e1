import Verif.Props.LooksText

/-!
# The frame of a block in a document: C80
-/

namespace Verif

open Spec

theorem indentLines_line {pad l : Str} (h : OneLine l) (r : Str) :
    indentLines pad false (l ++ '\n' :: r) = l ++ '\n' :: indentLines pad true r := by
  induction l with
  | nil => simp [indentLines, show isLineBreak '\n' = true by decide]
  | cons c l ih =>
    have hc := h c (by simp)
    simp only [List.cons_append, indentLines, hc, Bool.false_and, Bool.false_eq_true, if_false, List.nil_append]
    rw [ih (fun x hx => h x (List.mem_cons_of_mem _ hx))]

theorem indentLines_end {pad l : Str} (h : OneLine l) : indentLines pad false l = l := by
  induction l with
  | nil => rfl
  | cons c l ih =>
    have hc := h c (by simp)
    simp only [indentLines, hc, Bool.false_and, Bool.false_eq_true, if_false, List.nil_append]
    rw [ih (fun x hx => h x (List.mem_cons_of_mem _ hx))]

/-- Lines that are not empty are indented one by one. -/
theorem indentLines_join (pad : Str) (ls : List Str) (h : ∀ l ∈ ls, OneLine l ∧ l ≠ []) :
    indentLines pad true (join py"\n" ls) = join py"\n" (ls.map (pad ++ ·)) := by
  have start : ∀ c r, isLineBreak c = false → indentLines pad true (c :: r) = pad ++ indentLines pad false (c :: r) := by
    intro c r hc
    simp [indentLines]
  induction ls with
  | nil => rfl
  | cons l ls ih =>
    obtain ⟨h1, h2⟩ := h l (by simp)
    have ih := ih (fun x hx => h x (List.mem_cons_of_mem _ hx))
    cases l with
    | nil => exact absurd rfl h2
    | cons c l =>
      by_cases hn : ls = []
      · subst hn
        simp only [join, List.map_cons, List.map_nil]
        rw [start c l (h1 c (by simp)), indentLines_end h1]
      · rw [join_cons _ _ _ hn, List.map_cons, join_cons _ _ _ (by simpa using hn), ← ih]
        simp only [List.append_assoc, List.cons_append, List.nil_append]
        rw [start c _ (h1 c (by simp)), ← List.cons_append, indentLines_line h1]
        simp

theorem frame_box {cls : RClass} {t : TagInfo} {ctx : Ctx} {parent : Box} {inst : Inst} {fr : Frame}
    (hc : cls.behaviour.isBlock = true) (h : construct cls t ctx parent = .ok inst) (hf : fr.In inst.settings) :
    ∃ b, inst.box = some b ∧ b.margin = fr.margin ∧ b.padding = fr.padding ∧ b.border.top = fr.top.length ∧
      b.border.bottom = fr.bottom.length ∧ b.borderedWidth = fr.edge parent ∧
      b.paddedWidth = fr.width parent - fr.left.length - fr.right.length := by
  obtain ⟨e1, e2, -, -, -⟩ := construct_settings h
  simp only [construct, e1, bind, Except.bind] at h
  rw [isBlock_behaviour, boxHasTemplate_behaviour, hc] at h
  simp only [if_true] at h
  cases hk : blockBox cls.behaviour.boxHasTemplate inst.settings parent with
  | error e => rw [hk] at h; cases h
  | ok b =>
    rw [hk] at h
    simp only [pure, Except.pure, Except.ok.injEq] at h
    have hbox : inst.box = some b := by rw [← h]
    obtain ⟨tm, hb'⟩ := blockBox_settings hk hf.border hf.margin hf.padding
    refine ⟨b, hbox, ?_⟩
    rw [hb', Box.new]
    refine ⟨rfl, rfl, rfl, rfl, ?_, ?_⟩
    · simp only [Box.borderedWidth, Sides.addTotals, Frame.edge]
      omega
    · simp only [Box.paddedWidth, Sides.addTotals, Frame.width, room, len]
      omega

/-- The border around lines. -/
theorem frame_border {s : Dict} {b parent : Box} {fr : Frame} (hf : fr.In s) (h2 : b.padding = fr.padding)
    (h3 : b.border.top = fr.top.length) (h4 : b.border.bottom = fr.bottom.length) (h5 : b.borderedWidth = fr.edge parent)
    (h6 : b.paddedWidth = fr.width parent - fr.left.length - fr.right.length) (ls : List Str) (hne : ls ≠ [])
    (hn : ∀ l ∈ ls, '\n' ∉ l) :
    borderRender s b (join py"\n" ls) = .ok (join py"\n" (fr.rows (fr.edge parent) (fr.width parent) ls)) := by
  have edge : ∀ x : Str, (if (x.length : Int) > 0 then x.map (fun c => rep c (fr.edge parent)) else []) =
      x.map (fun c => List.replicate (fr.edge parent).toNat c) := by
    intro x
    cases x with
    | nil => rfl
    | cons c x => rw [if_pos (by simp)]; rfl
  simp only [borderRender, bind, Except.bind, pure, Except.pure, getA, hf.border, asBorder, strAt, List.getElem?_cons_zero,
    List.getElem?_cons_succ, borderLines, splitCh_join _ _ hne hn, h3, h4, h5, edge]
  congr 2
  have hrow : borderRow b fr.left fr.right = fr.row (fr.width parent) := by
    funext l
    simp only [borderRow, Frame.row, h2, h6, rep, len]
    congr 4
    omega
  rw [hrow]
  simp only [Frame.rows, Frame.empty, h2, h6, rep, List.append_assoc]

theorem oneLine_append {a b : Str} (ha : OneLine a) (hb : OneLine b) : OneLine (a ++ b) := by
  intro c hc
  rcases List.mem_append.1 hc with h | h
  · exact ha c h
  · exact hb c h

theorem oneLine_rep {n : Nat} {c : Char} (hc : isLineBreak c = false) : OneLine (List.replicate n c) := by
  intro x hx
  rw [(List.mem_replicate.1 hx).2]
  exact hc

theorem row_length (fr : Frame) (w : Int) (l : Str) (hp : 0 ≤ fr.padding.left) :
    w ≤ (fr.row w l).length ∧ (fr.padding.left + l.length + fr.left.length + fr.right.length ≤ w → ((fr.row w l).length : Int) = w) := by
  simp only [Frame.row, List.length_append, List.length_replicate]
  omega

theorem empty_length (fr : Frame) (w : Int) :
    w ≤ (fr.empty w).length ∧ ((fr.left.length + fr.right.length : Int) ≤ w → ((fr.empty w).length : Int) = w) := by
  simp only [Frame.empty, List.length_append, List.length_replicate]
  omega

/-- Every row of a frame. -/
theorem frame_rows {fr : Frame} {edge w : Int} {ls : List Str} {P : Str → Prop} (h1 : ∀ c ∈ fr.top ++ fr.bottom, P (List.replicate edge.toNat c))
    (h2 : P (fr.empty w)) (h3 : ∀ l ∈ ls, P (fr.row w l)) : ∀ r ∈ fr.rows edge w ls, P r := by
  intro r hr
  simp only [Frame.rows, List.mem_append, List.mem_map, List.mem_replicate] at hr h1
  rcases hr with (((⟨c, hc, rfl⟩ | ⟨-, rfl⟩) | ⟨l, hl, rfl⟩) | ⟨-, rfl⟩) | ⟨c, hc, rfl⟩
  · exact h1 c (.inl hc)
  · exact h2
  · exact h3 l hl
  · exact h2
  · exact h1 c (.inr hc)

/-- In every document: a block whose content is the lines `ls` is its margins, and inside of them the rows of its frame. -/
theorem C80_partial (u : Uni) (c : Cfg) (es : List Event) (s : PState) (h : Rendered u c es s) (i : Nat) (tag : Str)
    (ht : HasTag s.dom i tag) (h1 : tag ≠ py"a") (h2 : tag ≠ py"img") (f : Nat) (box : Box) (inst : Inst)
    (hd : DrawnBy s box i inst) (hb : inst.cls.isBlock = true) (hx : inst.cls ≠ .extractedLink) (fr : Frame)
    (hf : fr.In inst.settings) (hp : 0 ≤ fr.padding.left)
    (ho : OneLine (fr.top ++ fr.right ++ fr.bottom ++ fr.left)) (hw : 0 < fr.width box) (he : 0 < fr.edge box) :
    ∃ b, inst.box = some b ∧ ∀ x ls, contents u s f b i = .ok x → innerRender u inst b x = .ok (join py"\n" ls) → ls ≠ [] →
      (∀ l ∈ ls, OneLine l) →
      textOf u s (f + 1) box i = .ok (fr.outside (fr.rows (fr.edge box) (fr.width box) ls)) := by
  have hd' := hd
  obtain ⟨cls, st, a1, a2, a3⟩ := hd
  obtain ⟨-, e2, -, -, -⟩ := construct_settings a3
  rw [e2] at hb hx
  obtain ⟨b, b0, b1, b2, b3, b4, b5, b6⟩ := frame_box hb a3 hf
  refine ⟨b, b0, fun x ls k1 k2 hne hl => ?_⟩
  have hn : ∀ l ∈ ls, '\n' ∉ l := fun l hm hc => absurd (hl l hm _ hc) (by decide)
  rw [textOf_drawn h ht h1 h2 f hd', b0, Option.getD_some, k1]
  have hr : inst.render u x = blockRender u inst b x := by
    simp only [Inst.render, b0, e2]
  simp only [Except.bind, hr, blockRender, bind, pure, Except.pure, k2, frame_border hf b2 b3 b4 b5 b6 ls hne hn]
  rw [C16, b1]
  congr 1
  rw [indentLines_join]
  · rfl
  · have hone : ∀ c ∈ fr.top ++ fr.right ++ fr.bottom ++ fr.left, isLineBreak c = false := ho
    simp only [List.mem_append] at hone
    have hleft : OneLine fr.left := fun c hc => hone c (by simp [hc])
    have hright : OneLine fr.right := fun c hc => hone c (by simp [hc])
    have hsp : isLineBreak ' ' = false := by decide
    refine frame_rows ?_ ?_ ?_
    · intro c hc
      refine ⟨oneLine_rep (hone c (by simp only [List.mem_append] at hc; rcases hc with h | h <;> simp [h])), ?_⟩
      intro e
      have := congrArg List.length e
      simp at this
      omega
    · refine ⟨oneLine_append (oneLine_append hleft (oneLine_rep hsp)) hright, fun e => ?_⟩
      have := (empty_length fr (fr.width box)).1
      rw [e] at this
      simp at this
      omega
    · intro l hm
      refine ⟨oneLine_append (oneLine_append (oneLine_append (oneLine_append hleft (oneLine_rep hsp)) (hl l hm)) (oneLine_rep hsp))
        hright, fun e => ?_⟩
      have := (row_length fr (fr.width box) l hp).1
      rw [e] at this
      simp at this
      omega

/-- These rows are a rectangle if the lines are narrow enough, and none of the blocks around has sides or a line template, or
there are no edges. -/
theorem C80_rectangle (fr : Frame) (box : Box) (ls : List Str) (hp : 0 ≤ fr.padding.left)
    (hw : (fr.left.length + fr.right.length : Int) ≤ fr.width box)
    (hl : ∀ l ∈ ls, fr.padding.left + l.length + fr.left.length + fr.right.length ≤ fr.width box)
    (ha : fr.top = [] ∧ fr.bottom = [] ∨ box.totalBorder.left + box.totalBorder.right = 0 ∧ box.totalLineTemplatePadding = 0) :
    ∀ r ∈ fr.rows (fr.edge box) (fr.width box) ls, (r.length : Int) = fr.width box := by
  refine frame_rows ?_ ((empty_length fr _).2 hw) (fun l hm => (row_length fr _ l hp).2 (hl l hm))
  intro c hc
  rcases ha with ⟨h1, h2⟩ | ⟨h1, h2⟩
  · simp [h1, h2] at hc
  · rw [List.length_replicate]
    simp only [Frame.edge, Frame.width, room] at hw ⊢
    omega

/-- In every document: a paragraph with any settings and any frame. -/
theorem C80_paragraph_partial (u : Uni) (c : Cfg) (es : List Event) (s : PState) (h : Rendered u c es s) (i : Nat) (tag : Str)
    (ht : HasTag s.dom i tag) (h1 : tag ≠ py"a") (h2 : tag ≠ py"img") (f : Nat) (box : Box) (inst : Inst)
    (hd : DrawnBy s box i inst) (hc : inst.cls = .paragraph) (look : TextLook) (hl : look.In inst.settings) (fr : Frame)
    (hf : fr.In inst.settings) (hp : 0 ≤ fr.padding.left) (ho : OneLine (fr.top ++ fr.right ++ fr.bottom ++ fr.left))
    (hw : 0 < fr.width box) (he : 0 < fr.edge box)
    (hk : DictOf.get inst.settings py"skip_for_code_or_pre" = some (.bool false))
    (hlo : OneLine (look.before ++ look.after)) (w : Int) (hwt : w = textRoom box - fr.cols - look.cols) (hroom : look.Room w) :
    ∃ b, inst.box = some b ∧ ∀ x segs, contents u s f b i = .ok x → cased u look.capitals x = join py"\n" segs → segs ≠ [] →
      (∀ l ∈ segs, OneLine l ∧ look.Even (strip l)) →
      ∃ parts, LaidEach u look w segs parts ∧ textOf u s (f + 1) box i = .ok (fr.outside (fr.rows (fr.edge box) (fr.width box)
        ((parts.map (fun p => if p = [] then [[]] else p)).flatten.map (fun l => look.before ++ l ++ look.after)))) := by
  obtain ⟨b, b0, hall⟩ := C80_partial u c es s h i tag ht h1 h2 f box inst hd (by rw [hc]; rfl) (by rw [hc]; simp) fr hf hp ho hw he
  refine ⟨b, b0, fun x segs k1 k2 hne hs => ?_⟩
  obtain ⟨cls, st, a1, a2, a3⟩ := hd
  obtain ⟨-, e2, -, -, -⟩ := construct_settings a3
  have hn : ∀ l ∈ segs, '\n' ∉ l := fun l hm hx => absurd ((hs l hm).1 _ hx) (by decide)
  obtain ⟨b', parts, lines, m0, m1, m2, m3, m4, -, -, m7⟩ := C78_partial u cls _ _ box inst look fr false (by rw [← e2, hc]) a3 hl hf hk
    (by simp) w hwt hroom x segs k2 hne hn (fun l hm => (hs l hm).2)
  rw [b0] at m0
  cases m0
  subst m2
  refine ⟨parts, m1, hall x _ k1 m4 ?_ ?_⟩
  · intro e
    cases parts with
    | nil => cases segs with | nil => exact hne rfl | cons a as => exact m1.elim
    | cons q qs =>
      simp only [List.map_cons, List.flatten_cons, List.map_append, List.append_eq_nil_iff, List.map_eq_nil_iff] at e
      have := e.1
      split at this <;> simp_all
  · intro l hl
    obtain ⟨l0, hl0, rfl⟩ := List.mem_map.1 hl
    intro d hd
    simp only [List.mem_append] at hd
    have hb : ∀ d ∈ look.before ++ look.after, isLineBreak d = false := hlo
    simp only [List.mem_append] at hb
    rcases hd with (hd | hd) | hd
    · exact hb d (.inl hd)
    · rcases m7 l0 hl0 d hd with rfl | ⟨y, hy, hd⟩
      · decide
      · exact (hs y hy).1 d hd
    · exact hb d (.inr hd)

/-- A paragraph in a frame, inside margins. -/
def c80Settings : Dict :=
  [(py"border", .strs [py"-", py"|", py"=", py"|"]), (py"margin", .ints [1, 1, 1, 2]), (py"padding", .ints [1, 1, 0, 1]),
   (py"skip_for_code_or_pre", .bool false)]

example : renderEvents asciiUni (pageCfg 14 py"p" .paragraph c80Settings) (pageEvents py"p" py"aa bb cc") =
    .ok py"\n  -----------\n  |         |\n  | aa bb   |\n  | cc      |\n  ===========\n" := by decide +kernel

example : Frame.In { top := py"-", right := py"|", bottom := py"=", left := py"|", margin := ⟨1, 1, 1, 2⟩, padding := ⟨1, 1, 0, 1⟩ }
    (DictOf.update (newSettings .paragraph) c80Settings) := ⟨rfl, rfl, rfl⟩

/-- In a block quote the edges are longer than the rows, and than the page. -/
theorem C80_quote_fails :
    renderEvents asciiUni (pageCfg 10 py"p" .paragraph [(py"border", .strs [py"-", py"|", py"-", py"|"])])
      [.start py"blockquote" [], .start py"p" [], .data py"aa", .stop py"p", .stop py"blockquote"] =
    .ok py"\n> ----------\n> |aa    |\n> ----------\n" := by decide +kernel

/-- Coloured lines are not filled up to the width: the right side is out of line. -/
theorem C80_colour_fails :
    renderEvents asciiUni { pageCfg 10 py"p" .paragraph [(py"border", .strs [py"-", py"|", py"-", py"|"])] with
        renderers := (pageCfg 10 py"p" .paragraph [(py"border", .strs [py"-", py"|", py"-", py"|"])]).renderers ++
          [⟨py"em", one (elt py"em"), .pair (some .ansi) (some [(py"foreground_colour", .str py"red")])⟩] }
      [.start py"p" [], .start py"em" [], .data py"aa", .stop py"em", .stop py"p"] =
    .ok py"\n----------\n|\x1b[31maa\x1b[39m|\n----------\n" := by decide +kernel

end Verif
