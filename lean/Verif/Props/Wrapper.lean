import Verif.Props.OnlyBlocks

/-!
# C94: an element around the whole document
-/

namespace Verif

open Spec

/-- Links that are shown after their block are not at the top level of a document that can be read. -/
theorem readable_near {u : Uni} {c : Cfg} {f : Forest} (h : f.Readable u c False) : f.topCount (Mode.lists c .near) = 0 := by
  induction f with
  | nil => rfl
  | text s rest ih => exact ih h
  | elem tag attrs kids rest _ ih =>
    obtain ⟨h1, -, h3⟩ := h
    have hn : linkAt c py"after_block" tag = false := by
      cases hl : linkAt c py"after_block" tag with
      | false => rfl
      | true =>
        exfalso
        simp only [linkAt, Bool.or_eq_true, Bool.and_eq_true, decide_eq_true_eq] at hl
        by_cases hc : attrOf attrs py"class" = some none
        · exact h1 _ (.class hc)
        · by_cases ha : ∀ raw, attrOf attrs (addressAttr tag) = some (some raw) → AddressOk u raw
          · exact h1 _ (.place hc ha hl (fun q => q))
          · simp only [Classical.not_forall] at ha
            obtain ⟨raw, e1, e2⟩ := ha
            exact h1 _ (.address hc (hl.imp (·.1) (·.1)) e1 e2)
    have := ih h3
    simpa [Forest.topCount, Mode.lists, hn] using this

theorem drawNear_none {u : Uni} {c : Cfg} {limit : Nat} {p : Int} {mode : Mode} {f : Forest} {up : List Str} {a b k : Nat} {r : Int} {x : Str}
    (hd : Draw u c limit p mode up a b k r f x) (hm : mode = .near) (h0 : f.topCount (Mode.lists c .near) = 0) : x = [] := by
  induction hd with
  | nil => rfl
  | text => cases hm
  | elem => cases hm
  | skipText _ _ ih => exact ih hm h0
  | entry _ h2 => subst hm; simp [Forest.topCount, h2] at h0
  | skipElem _ _ _ h4 _ ih1 ih2 =>
    subst hm
    simp only [Forest.topCount, Nat.add_eq_zero_iff] at h0
    rw [if_neg (by decide)] at h4
    cases h4
    rw [ih2 rfl h0.2]; rfl

theorem drawNear_nil (u : Uni) (c : Cfg) (limit : Nat) (p : Int) {f : Forest} (up : List Str) (a b k : Nat) (r : Int)
    (h0 : f.topCount (Mode.lists c .near) = 0) : Draw u c limit p .near up a b k r f [] := by
  induction f generalizing a b k with
  | nil => exact .nil
  | text s rest ih => exact .skipText (by decide) (ih _ _ _ h0)
  | elem tag attrs kids rest _ ih =>
    simp only [Forest.topCount, Nat.add_eq_zero_iff] at h0
    refine .skipElem (by decide) (by simpa using h0.1) rfl (v := []) (w := []) ?_ (ih _ _ _ h0.2)
    rw [if_neg (show ¬ (Mode.near = Mode.all) by decide)]
    exact .nil

/-- The page in a container. -/
theorem draw_wrapped {u : Uni} {c : Cfg} {limit : Nat} {p : Int} {f : Forest} {tag : Str} {attrs : List (Str × Option Str)} {r : Int} {x : Str}
    (hc : Container tag) (h0 : f.topCount (Mode.lists c .near) = 0) (h : Draw u c limit p .page [] 0 0 0 r f x) :
    Draw u c limit p .page [] 0 0 0 r (.elem tag attrs f .nil) (if tag = py"div" then padLines r x else x) := by
  have e : (if tag = py"div" then padLines r x else x) = (if tag = py"div" then padLines r x else x) ++ [] := by simp
  rw [e]
  refine .elem (k' := 0) (by simp [numbered_container hc]) (draw_around h (sameAround_container hc)) (y := x) (inner := r) (own := f) (z := [])
    (by simp [linkAt_container hc]) (drawNear_nil _ _ _ _ _ _ _ _ _ h0) ?_ .nil
  rw [if_pos h0]
  simp only [List.append_nil]
  by_cases ht : tag = py"div"
  · subst ht; exact .div
  · rw [if_neg ht]
    exact .other (hc.resolve_left ht)

theorem drawAll_wrapped {u : Uni} {c : Cfg} {limit : Nat} {p : Int} {f : Forest} {tag : Str} {attrs : List (Str × Option Str)} {r : Int} {x : Str}
    (hc : Container tag) (h : Draw u c limit p .all [] 0 0 0 r f x) :
    Draw u c limit p .all [] 0 0 0 r (.elem tag attrs f .nil) x := by
  have := Draw.skipElem (u := u) (c := c) (limit := limit) (p := p) (mode := .all) (up := []) (a := 0) (b := 0) (k := 0) (r := r) (tag := tag)
    (attrs := attrs) (kids := f) (rest := .nil) (v := x) (w := []) (k' := 0) (by decide) (by simp [Mode.lists, linkAt_container hc])
    (by simp [numbered_container hc]) (by simpa using draw_around h (sameAround_container hc)) .nil
  simpa using this

theorem page_wrapped {u : Uni} {c : Cfg} {limit : Nat} {f : Forest} {tag : Str} {attrs : List (Str × Option Str)} {page : Str}
    (hc : Container tag) (h0 : f.topCount (Mode.lists c .near) = 0) (h : PageOfTree u c f limit page) :
    ∃ page', PageOfTree u c (.elem tag attrs f .nil) limit page' ∧ optimise page = optimise page' ∧ (tag ≠ py"div" → page = page') := by
  obtain ⟨body, foot, g, rfl, h1, h2, rfl⟩ := h
  have hpad : Void (List.replicate c.pageBox.margin.left.toNat ' ') := by
    refine ⟨blank_spaces _, fun hc => ?_⟩
    have := List.eq_of_mem_replicate hc
    revert this; decide
  have h3 := draw_wrapped (attrs := attrs) hc h0 h1
  have hb : optimise (if tag = py"div" then padLines (room c.pageBox) body else body) = optimise body := by
    split
    · exact optimise_padLines _ _
    · rfl
  have hcnt : (Forest.elem tag attrs f .nil).count (Mode.lists c .all) = f.count (Mode.lists c .all) := by
    simp [Forest.count, Mode.lists, linkAt_container hc]
  by_cases hf : c.linkPlacement = py"footer"
  · simp only [if_pos hf] at h2 ⊢
    refine ⟨_, ⟨_, foot, _, rfl, h3, by rw [if_pos hf]; exact drawAll_wrapped hc h2, rfl⟩, page_like hpad ?_ _ _, ?_⟩
    · simp only [if_pos hf, List.append_assoc, hcnt]
      split
      · rename_i h0
        rw [drawAll_none h2 rfl h0]
        simpa using hb.symm
      · simp only [List.cons_append, List.nil_append]
        rw [optimise_split, optimise_split, hb]
    · intro ht
      simp only [if_pos hf, hcnt, if_neg ht]
  · simp only [if_neg hf] at h2 ⊢
    cases h2
    refine ⟨_, ⟨_, [], _, rfl, h3, by rw [if_neg hf]; exact .nil, rfl⟩, page_like hpad ?_ _ _, ?_⟩
    · simpa [hf, Forest.count] using hb.symm
    · intro ht
      simp only [if_neg hf, if_neg ht]

/-- Whether a document is in an element that the default style does not know, such as `html` or `body`, or not makes no difference. For
`div` this holds if whitespace at the end of lines is removed. -/
theorem C94 (u : Uni) (c : Cfg) (f : Forest) (tag : Str) (attrs : List (Str × Option Str)) (ht : Container tag)
    (ha : attrOf attrs py"class" ≠ some none) (hw : f.WellFormed false) (hr : c.renderers = [])
    (hl : c.linkRenderers = []) (hd : c.defaultRenderer = .cls .renderer)
    (h0 : c.outputFormat = py"gophermap" → c.linkPlacement ≠ py"inline" ∧ c.gopherHost ≠ []) (ho : tag = py"div" → c.optimise = true)
    (hread : f.Readable u c False) (out : Str) :
    renderEvents u c f.events = .ok out ↔ renderEvents u c (Forest.elem tag attrs f .nil).events = .ok out := by
  have hn := container_not ht
  have e : (tag == py"pre") = false := by simpa using hn.1
  have hv : ¬ VoidTag tag := fun hv => hv.elim hn.2.2.2.2.2.2.2 hn.2.2.2.2.2.2.1
  have hw' : (Forest.elem tag attrs f .nil).WellFormed false := by
    simp [Forest.WellFormed, e, hv, hw]
  have hrest : ∀ (f : Forest) (i : Prop), f.Readable u c i → f.Readable u c True := by
    intro f
    induction f with
    | nil => intro i _; trivial
    | text s rest ih => exact fun i h => ih i h
    | elem tag attrs kids rest ih1 ih2 =>
      intro i h
      refine ⟨fun e he => ?_, h.2.1, ih2 i h.2.2⟩
      cases he with
      | «class» h' => exact h.1 _ (.class h')
      | address h1 h2 h3 h4 => exact h.1 _ (.address h1 h2 h3 h4)
      | place _ _ _ h' => exact h' trivial
  have hread' : (Forest.elem tag attrs f .nil).Readable u c False := by
    refine ⟨fun e he => ?_, hrest f _ hread, trivial⟩
    rw [problem_plain hn.2.2.2.2.2.1 hn.2.2.2.2.2.2.1] at he
    exact ha he.1
  have hroom : f.HasRoom [] 0 (textRoom c.pageBox) ↔ (Forest.elem tag attrs f .nil).HasRoom [] 0 (textRoom c.pageBox) := by
    have e : Place.marker ⟨[], 0, 0, 0⟩ tag = 0 := by simp [Place.marker, hn.2.1, hn.2.2.2.1, hn.2.2.2.2.1]
    have q := (sameAround_container ht).head py"ol" (by decide)
    simp only [Forest.HasRoom, e, hn.2.2.1, hn.2.2.2.1, hn.2.2.2.2.1, false_and, or_self, false_implies, true_and, and_true, Int.natCast_zero,
      Int.sub_zero]
    exact ⟨hasRoom_around q, hasRoom_around q.symm⟩
  have key : ∀ out, renderEvents u c f.events = .ok out → renderEvents u c (Forest.elem tag attrs f .nil).events = .ok out := by
    intro out hout
    obtain ⟨h1, h2, page, h3, h4⟩ := (C91 u c f hw hr hl hd h0 out).1 hout
    obtain ⟨page', h5, h6, h7⟩ := page_wrapped (attrs := attrs) ht (readable_near hread) h3
    refine (C91 u c _ hw' hr hl hd h0 out).2 ⟨hread', hroom.1 h2, page', h5, ?_⟩
    by_cases hop : c.optimise
    · rw [if_pos hop] at h4 ⊢
      rw [trimmed_unique h4, h6]
      exact trimmed_optimise _
    · rw [if_neg hop] at h4 ⊢
      rw [h4, h7 (fun q => hop (ho q))]
  refine ⟨key out, fun hout => ?_⟩
  obtain ⟨-, h2, -⟩ := (C91 u c _ hw' hr hl hd h0 out).1 hout
  obtain ⟨page, out', -, -, h3, -⟩ := C91_unique u c f hw hr hl hd h0 hread (hroom.2 h2)
  have := key _ h3
  rw [hout] at this
  cases this
  exact h3

/-- A whole page and its content. -/
theorem C94_html (u : Uni) (c : Cfg) (f : Forest) (attrs attrs' : List (Str × Option Str)) (ha : attrOf attrs py"class" ≠ some none)
    (ha' : attrOf attrs' py"class" ≠ some none) (hw : f.WellFormed false) (hr : c.renderers = [])
    (hl : c.linkRenderers = []) (hd : c.defaultRenderer = .cls .renderer)
    (h0 : c.outputFormat = py"gophermap" → c.linkPlacement ≠ py"inline" ∧ c.gopherHost ≠ []) (out : Str)
    (h : renderEvents u c f.events = .ok out) :
    renderEvents u c (Forest.elem py"html" attrs (.elem py"body" attrs' f .nil) .nil).events = .ok out := by
  have k1 : Container py"html" := .inr (by unfold Unstyled; decide)
  have k2 : Container py"body" := .inr (by unfold Unstyled; decide)
  have h1 := ((C91 u c f hw hr hl hd h0 out).1 h).1
  have h2 := (C94 u c f py"body" attrs' k2 ha' hw hr hl hd h0 (fun q => by cases q) h1 out).1 h
  have hw' : (Forest.elem py"body" attrs' f .nil).WellFormed false := by
    simp [Forest.WellFormed, VoidTag, hw]
  have h3 := ((C91 u c _ hw' hr hl hd h0 out).1 h2).1
  exact (C94 u c _ py"html" attrs k1 ha hw' hr hl hd h0 (fun q => by cases q) h3 out).1 h2

example : renderEvents asciiUni {} (Forest.elem py"html" [(py"lang", some py"en")] (.elem py"body" [] c91Example .nil) .nil).events =
    .ok py"\n# A #\n\n1. [one][1]\n2. two\n\n\n[1] one: x" :=
  C94_html asciiUni {} c91Example [(py"lang", some py"en")] [] (by decide) (by decide) (by simp [c91Example, Forest.WellFormed, VoidTag])
    rfl rfl rfl (fun h => by cases h) _ (by decide +kernel)

/-- A link that is to be shown after its block needs an element around it. -/
theorem C94_link_fails :
    renderHtml asciiUni { linkPlacement := py"after_block" } [py"<a href='x'>a</a>"] = .error .attributeError ∧
    renderHtml asciiUni { linkPlacement := py"after_block" } [py"<body><a href='x'>a</a></body>"] = .ok py"[a][1]\n\n[1] a: x" := by
  decide +kernel

end Verif
