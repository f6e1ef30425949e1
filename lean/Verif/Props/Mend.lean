import Verif.Props.TreePage
import Verif.Props.Source

/-!
# C96: documents whose tags do not match
-/

namespace Verif

open Spec

/-- A document is rendered as if end tags that are not those of the innermost open element were left out, and what is still open at the
end were closed there. This holds for every configuration, and errors are the same as well. -/
theorem C96 (u : Uni) (c : Cfg) (es : List Event) (hs : NoStrayPre [] es) : renderEvents u c es = renderEvents u c (mend [] es) :=
  (renderEvents_mend u c es hs).symm

/-- Whatever the tags are, the document stands for a tree. -/
theorem C96_tree (es : List Event) (hn : NoNestedPre [] es) : ∃ f : Forest, f.WellFormed false ∧ mend [] es = f.events := by
  obtain ⟨f, es', -, h1, -, h2⟩ := mend_forest es.length es (Nat.le_refl _) [] hn
  exact ⟨f, h2 false (fun q => by cases q), by simpa [mendRest] using h1⟩

/-- The tags end here. -/
def EndsHere : List Event → Prop
  | [] => True
  | .stop _ :: _ => True
  | _ => False

theorem events_unique {f g : Forest} {b b' : Bool} (hf : f.WellFormed b) (hg : g.WellFormed b') {t t' : List Event} (ht : EndsHere t)
    (ht' : EndsHere t') (h : f.events ++ t = g.events ++ t') : f = g ∧ t = t' := by
  induction f generalizing g b b' t t' with
  | nil =>
    cases g with
    | nil => exact ⟨rfl, h⟩
    | text s g => simp only [Forest.events, List.nil_append] at h; rw [h] at ht; exact ht.elim
    | elem tag attrs k g => simp only [Forest.events, List.nil_append] at h; rw [h] at ht; exact ht.elim
  | text s f ih =>
    cases g with
    | nil => simp only [Forest.events, List.nil_append] at h; rw [← h] at ht'; exact ht'.elim
    | text s' g =>
      simp only [Forest.events, List.cons_append, List.cons.injEq, Event.data.injEq] at h
      obtain ⟨e1, e2⟩ := ih (g := g) (b := b) (b' := b') hf hg ht ht' h.2
      exact ⟨by rw [h.1, e1], e2⟩
    | elem tag attrs k g => simp [Forest.events] at h
  | elem tag attrs k f ih1 ih2 =>
    cases g with
    | nil => simp only [Forest.events, List.nil_append] at h; rw [← h] at ht'; exact ht'.elim
    | text s' g => simp [Forest.events] at h
    | elem tag' attrs' k' g =>
      simp only [Forest.events, List.cons_append, List.cons.injEq, Event.start.injEq, List.append_assoc] at h
      obtain ⟨⟨rfl, rfl⟩, h⟩ := h
      obtain ⟨w1, -, w3, w4⟩ := hf
      obtain ⟨w1', -, w3', w4'⟩ := hg
      by_cases hv : VoidTag tag
      · rw [w1 hv, w1' hv] at h ⊢
        simp only [if_pos hv, Forest.events, List.nil_append] at h
        obtain ⟨e1, e2⟩ := ih2 w4 w4' ht ht' h
        exact ⟨by rw [e1], e2⟩
      · simp only [if_neg hv, List.cons_append, List.nil_append] at h
        obtain ⟨rfl, e2⟩ := ih1 w3 w3' (t := .stop tag :: _) (t' := .stop tag :: _) trivial trivial h
        simp only [List.cons.injEq, true_and] at e2
        obtain ⟨e1, e2⟩ := ih2 w4 w4' ht ht' e2
        exact ⟨by rw [e1], e2⟩

/-- There is only one such tree. -/
theorem C96_unique (es : List Event) (f g : Forest) (hf : f.WellFormed false) (hg : g.WellFormed false) (h1 : mend [] es = f.events)
    (h2 : mend [] es = g.events) : f = g :=
  (events_unique (t := []) (t' := []) hf hg trivial trivial (by rw [List.append_nil, List.append_nil, ← h1, h2])).1

/-- A document whose tags match is its own mended form. -/
theorem C96_proper (f : Forest) (hf : f.WellFormed false) : NoStrayPre [] f.events ∧ mend [] f.events = f.events :=
  denotes_events hf

/-- So the page of every document is known, whether its tags match or not. -/
theorem C96_page (u : Uni) (c : Cfg) (es : List Event) (hs : NoStrayPre [] es) (hn : NoNestedPre [] es) (hr : c.renderers = [])
    (hl : c.linkRenderers = []) (hd : c.defaultRenderer = .cls .renderer)
    (h0 : c.outputFormat = py"gophermap" → c.linkPlacement ≠ py"inline" ∧ c.gopherHost ≠ []) :
    ∃ f : Forest, f.WellFormed false ∧ mend [] es = f.events ∧ ∀ out, renderEvents u c es = .ok out ↔
      f.Readable u c False ∧ f.HasRoom [] 0 (textRoom c.pageBox) ∧
        ∃ page, PageOfTree u c f 10 page ∧ (if c.optimise then TrimmedLines page out else out = page) := by
  obtain ⟨f, h1, h2⟩ := C96_tree es hn
  refine ⟨f, h1, h2, fun out => ?_⟩
  rw [renderEvents_denotes u c ⟨hs, h2⟩]
  exact C91 u c f h1 hr hl hd h0 out

/-- The same for the source of a document. -/
theorem C96_source (u : Uni) (c : Cfg) (doc : List Item) (hdoc : DocOk u.entity u.lower doc) (hs : NoStrayPre [] (docEvents u.lower doc)) :
    renderHtml u c [docSrc doc] = renderEvents u c (mend [] (docEvents u.lower doc)) := by
  rw [(C68 u c doc hdoc).2.2, C96 u c _ hs]

/-! ## Examples -/

/-- `<ul><li>a</b><li>b<br></br></ul>`: the second item is inside the first, and the list is closed at the end. -/
def mendExample : List Event :=
  [.start py"ul" [], .start py"li" [], .data py"a", .stop py"b", .start py"li" [], .data py"b", .start py"br" [], .stop py"br", .stop py"ul"]

example : mend [] mendExample = (Forest.elem py"ul" [] (.elem py"li" [] (.text py"a" (.elem py"li" [] (.text py"b" (.elem py"br" [] .nil .nil)) .nil)) .nil)
    .nil).events := by decide +kernel

example : NoStrayPre [] mendExample := by simp [mendExample, NoStrayPre, VoidTag]

example : NoNestedPre [] mendExample := by simp [mendExample, NoNestedPre, VoidTag]

example : renderHtml asciiUni {} [py"<h1>a</b> c"] = .ok py"\n# a c #\n" ∧ renderHtml asciiUni {} [py"<h1>a c</h1>"] = .ok py"\n# a c #\n" := by
  decide +kernel

/-- An end tag of `pre` that is found inside of another element does not close the `pre`, but text is no longer kept as it is. -/
theorem C96_fails :
    renderHtml asciiUni {} [py"<pre><b>a</pre>  c  d</b></pre>"] = .ok py"\n    **a c d**\n" ∧
    renderHtml asciiUni {} [py"<pre><b>a  c  d</b></pre>"] = .ok py"\n    **a  c  d**\n" := by
  decide +kernel

end Verif
