import Verif.Props.Tidy
import Verif.Props.Continued

/-!
# C93: only the blocks count
-/

namespace Verif

open Spec

/-! ## Texts with empty lines at the beginning and at the end -/

def StartsVoid (x : Str) : Prop := Void x ∨ ∃ a t, Void a ∧ x = a ++ '\n' :: t

def EndsVoid (x : Str) : Prop := Void x ∨ ∃ t a, Void a ∧ x = t ++ '\n' :: a

theorem optimise_void_line {a t : Str} (h : Void a) : optimise (a ++ '\n' :: t) = '\n' :: optimise t := by
  rw [optimise_split, optimise_void h]; rfl

theorem optimise_join {x y : Str} (hx : EndsVoid x) (hy : StartsVoid y) : optimise (x ++ y) = optimise x ++ optimise y := by
  have key : ∀ a, Void a → optimise (a ++ y) = optimise y := by
    intro a ha
    rcases hy with hy | ⟨b, t, hb, rfl⟩
    · rw [optimise_void (void_append ha hy), optimise_void hy]
    · rw [← List.append_assoc, optimise_void_line (void_append ha hb), optimise_void_line hb]
  rcases hx with hx | ⟨t, a, ha, rfl⟩
  · rw [key x hx, optimise_void hx]; rfl
  · rw [List.append_assoc, List.cons_append, optimise_split, key a ha, optimise_split, optimise_void ha]
    simp

theorem startsVoid_append {x y : Str} (hx : StartsVoid x) (hy : StartsVoid y) : StartsVoid (x ++ y) := by
  rcases hx with hx | ⟨a, t, ha, rfl⟩
  · rcases hy with hy | ⟨a, t, ha, rfl⟩
    · exact .inl (void_append hx hy)
    · exact .inr ⟨x ++ a, t, void_append hx ha, by simp⟩
  · exact .inr ⟨a, t ++ y, ha, by simp⟩

theorem endsVoid_append {x y : Str} (hx : EndsVoid x) (hy : EndsVoid y) : EndsVoid (x ++ y) := by
  rcases hy with hy | ⟨t, a, ha, rfl⟩
  · rcases hx with hx | ⟨t, a, ha, rfl⟩
    · exact .inl (void_append hx hy)
    · exact .inr ⟨t, a ++ y, void_append ha hy, by simp⟩
  · exact .inr ⟨x ++ t, a, ha, by simp⟩

theorem startsVoid_pad {w : Int} {x : Str} (hx : StartsVoid x) : StartsVoid (padLines w x) := by
  rcases hx with hx | ⟨a, t, ha, rfl⟩
  · exact .inl (padLines_void hx)
  · rw [padLines_two]; exact .inr ⟨_, _, padLines_void ha, rfl⟩

theorem endsVoid_pad {w : Int} {x : Str} (hx : EndsVoid x) : EndsVoid (padLines w x) := by
  rcases hx with hx | ⟨t, a, ha, rfl⟩
  · exact .inl (padLines_void hx)
  · rw [padLines_two]; exact .inr ⟨_, _, padLines_void ha, rfl⟩

/-! ## Indented text -/

theorem indentLines_blank {pad : Str} (hp : Void pad) {t : Str} (ht : Void t) (l : Str) (st : Bool) :
    ∃ b, Blank b ∧ indentLines pad st (l ++ t) = indentLines pad st l ++ b := by
  induction l generalizing st with
  | nil => exact ⟨_, (indentLines_void hp ht st).1, by simp [indentLines]⟩
  | cons c l ih =>
    simp only [List.cons_append, indentLines, List.append_assoc]
    cases l with
    | cons d l =>
      obtain ⟨b, h1, h2⟩ := ih (isLineBreak c && !(c == '\r' && (d :: l).head? == some '\n'))
      exact ⟨b, h1, by simpa using h2⟩
    | nil => exact ⟨_, (indentLines_void hp ht _).1, by simp [indentLines]; rfl⟩

theorem indentBefore_blank {pad : Str} (hp : Void pad) {t : Str} (ht : Void t) (l : Str) (st : Bool) :
    ∃ b, Blank b ∧ indentBefore pad st (l ++ t) = indentLines pad st l ++ b := by
  induction l generalizing st with
  | nil => exact ⟨_, (indentBefore_void hp ht st).1, by simp [indentLines]⟩
  | cons c l ih =>
    simp only [List.cons_append, indentLines, indentBefore, List.append_assoc]
    cases l with
    | cons d l =>
      obtain ⟨b, h1, h2⟩ := ih (isLineBreak c && !(c == '\r' && (d :: l).head? == some '\n'))
      exact ⟨b, h1, by simpa using h2⟩
    | nil => exact ⟨_, (indentBefore_void hp ht _).1, by simp [indentLines]; rfl⟩

theorem void_rest {l t : Str} (h : l = rstrip l ++ t) (ht : Blank t) (hn : '\n' ∉ l) : Void t :=
  ⟨ht, fun hm => hn (by rw [h]; simp [hm])⟩

/-- Indenting and trimming, line by line. -/
theorem optimise_indent {pad : Str} (hp : Void pad) (x : Str) : optimise (indentLines pad true x) =
    join py"\n" (((splitCh '\n' x).map rstrip).map (fun l => rstrip (indentLines pad true l))) := by
  have line : ∀ l, '\n' ∉ l → rstrip (indentLines pad true l) = rstrip (indentLines pad true (rstrip l)) := by
    intro l hl
    obtain ⟨t, h1, h2⟩ := rstrip_split l
    obtain ⟨b, h3, h4⟩ := indentLines_blank hp (void_rest h1 h2 hl) (rstrip l) true
    rw [← h1] at h4
    rw [h4, rstrip_blank_end _ _ h3]
  have line' : ∀ l, '\n' ∉ l → rstrip (indentBefore pad true l) = rstrip (indentLines pad true (rstrip l)) := by
    intro l hl
    obtain ⟨t, h1, h2⟩ := rstrip_split l
    obtain ⟨b, h3, h4⟩ := indentBefore_blank hp (void_rest h1 h2 hl) (rstrip l) true
    rw [← h1] at h4
    rw [h4, rstrip_blank_end _ _ h3]
  have gen : ∀ (l : Str) (st : Bool), '\n' ∉ l → '\n' ∉ indentLines pad st l ∧ '\n' ∉ indentBefore pad st l := by
    intro l
    induction l with
    | nil => intro st _; refine ⟨by simp [indentLines], ?_⟩; cases st <;> simp [indentBefore, hp.2]
    | cons c l ih =>
      intro st h
      simp only [List.mem_cons, not_or] at h
      refine ⟨?_, ?_⟩
      · cases st <;> simp [indentLines, hp.2, h.1, (ih _ h.2).1]
      · cases st <;> simp [indentBefore, hp.2, h.1, (ih _ h.2).2]
  have main : ∀ (n : Nat) (x : Str), x.length = n → optimise (indentLines pad true x) =
      join py"\n" (((splitCh '\n' x).map rstrip).map (fun l => rstrip (indentLines pad true l))) := by
    intro n
    induction n using Nat.strongRecOn with
    | _ n ih =>
      intro x hx
      by_cases hn : '\n' ∈ x
      · obtain ⟨l, r, rfl, hl⟩ := List.eq_append_cons_of_mem hn
        rw [indentLines_two, optimise_split, ih r.length (by simp at hx; omega) r rfl, splitCh_two, splitCh_none _ _ hl,
          optimise_line (gen l true hl).2, line' l hl]
        rw [List.map_append, List.map_append, show py"\n" = ['\n'] from rfl, join_append]
        · simp [join]
        · simp
        · simp [splitCh_ne_nil]
      · rw [optimise_line (gen x true hn).1, splitCh_none _ _ hn, line x hn]
        simp [join]
  exact main _ x rfl

theorem lines_of_optimise {x y : Str} (h : optimise x = optimise y) : (splitCh '\n' x).map rstrip = (splitCh '\n' y).map rstrip := by
  have key : ∀ x, splitCh '\n' (optimise x) = (splitCh '\n' x).map rstrip := by
    intro x
    unfold optimise
    refine splitCh_join '\n' _ (by simp [splitCh_ne_nil]) ?_
    intro l hl
    obtain ⟨m, hm, rfl⟩ := List.mem_map.1 hl
    exact fun hc => mem_splitCh _ _ _ hm ((rstrip_sublist m).mem hc)
  rw [← key, ← key, h]

theorem page_like {pad x y : Str} (hp : Void pad) (h : optimise x = optimise y) (top bottom : Nat) :
    optimise (newlines top ++ indentLines pad true x ++ newlines bottom) =
      optimise (newlines top ++ indentLines pad true y ++ newlines bottom) := by
  rw [optimise_newlines, optimise_newlines, optimise_above, optimise_above, optimise_indent hp, optimise_indent hp, lines_of_optimise h]

/-! ## Where a block stands -/

/-- Tags that matter for the elements directly in an element. -/
def parentTags : List Str := [py"blockquote", py"ol", py"ul", py"pre", py"li"]

/-- Two lists of tags around an element that make no difference to it. -/
structure SameAround (up up' : List Str) : Prop where
  head : ∀ t ∈ parentTags, up.head? = some t ↔ up'.head? = some t
  pre : py"pre" ∈ up ↔ py"pre" ∈ up'
  nested : up[1]? = some py"li" ↔ up'[1]? = some py"li"

theorem SameAround.cons {up up' : List Str} (h : SameAround up up') (tag : Str) : SameAround (tag :: up) (tag :: up') := by
  refine ⟨fun _ _ => Iff.rfl, by simp [h.pre], ?_⟩
  have := h.head py"li" (by decide)
  cases up <;> cases up' <;> simp_all

theorem container_parent {t : Str} (h : Container t) : t ∉ parentTags := by
  have := container_not h
  intro hm
  rcases h with rfl | h
  · exact absurd hm (by decide)
  · have key : ∀ q ∈ parentTags, q ∈ plainStyle.map Prod.fst ∨ q ∈ [py"p", py"li", py"dt"] := by decide
    exact (key t hm).elim h.1 h.2

/-- A block in containers and at the top level. -/
theorem sameAround_block (tag : Str) {up : List Str} (h : ∀ t ∈ up, Container t) : SameAround (tag :: up) [tag] := by
  refine ⟨fun _ _ => Iff.rfl, ?_, ?_⟩
  · simp only [List.mem_cons, List.not_mem_nil, or_false]
    exact ⟨fun hp => hp.elim id (fun hp => absurd rfl (container_not (h _ hp)).1), .inl⟩
  · cases up with
    | nil => rfl
    | cons t up =>
      simp only [List.getElem?_cons_succ, List.getElem?_cons_zero, List.getElem?_nil, Option.some.injEq, reduceCtorEq, iff_false]
      exact (container_not (h t (by simp))).2.2.2.1

/-- The top level and a container. -/
theorem sameAround_container {tag : Str} (h : Container tag) : SameAround [] [tag] := by
  refine ⟨fun t ht => ?_, ?_, by simp⟩
  · simp only [List.head?_nil, reduceCtorEq, List.head?_cons, Option.some.injEq, false_iff]
    rintro rfl; exact container_parent h ht
  · simp only [List.not_mem_nil, List.mem_singleton, false_iff]
    exact fun e => (container_not h).1 e.symm

theorem painted_around {u : Uni} {c : Cfg} {p r : Int} {up up' : List Str} {a b l m : Nat} {attrs : List (Str × Option Str)} {kids : Forest}
    {tag : Str} {inner : Int} {y x : Str} (hs : SameAround up up') (h : Painted u c p r ⟨up, a, b, l⟩ m attrs kids tag inner y x) :
    Painted u c p r ⟨up', a, b, l⟩ m attrs kids tag inner y x := by
  have q1 := hs.head py"blockquote" (by decide)
  have q2 := hs.head py"ol" (by decide)
  have q3 := hs.head py"ul" (by decide)
  have q4 := hs.head py"pre" (by decide)
  have e1 : Place.paragraphSpace ⟨up, a, b, l⟩ = Place.paragraphSpace ⟨up', a, b, l⟩ := by simp only [Place.paragraphSpace, q1]
  have e2 : Place.bullet ⟨up, a, b, l⟩ = Place.bullet ⟨up', a, b, l⟩ := by simp only [Place.bullet, q2]
  have e3 : Place.itemSpace ⟨up, a, b, l⟩ = Place.itemSpace ⟨up', a, b, l⟩ := by
    have : Place.inNestedList ⟨up, a, b, l⟩ ↔ Place.inNestedList ⟨up', a, b, l⟩ := by simp only [Place.inNestedList, q2, q3, hs.nested]
    simp only [Place.itemSpace, this]
  cases h with
  | marked h => exact .marked h
  | br => exact .br
  | code h1 h2 => exact .code (fun q => h1 (q4.2 q)) h2
  | fence h1 h2 => exact .fence (fun q => h1 (q4.2 q)) h2
  | codeInPre h => exact .codeInPre (q4.1 h)
  | reference h => exact .reference h
  | link h => exact .link h
  | imageReference h => exact .imageReference h
  | image h => exact .image h
  | header h => exact .header h
  | pre h => exact .pre h
  | quote h => exact .quote h
  | list h => exact .list h
  | div => exact .div
  | term => exact .term (pl := ⟨up', a, b, l⟩)
  | item h => rw [e2] at h ⊢; rw [e3]; exact .item (pl := ⟨up', a, b, l⟩) h
  | description h => exact .description h
  | paragraph h1 h2 h3 h4 => rw [e1]; exact .paragraph (pl := ⟨up', a, b, l⟩) h1 h2 h3 h4
  | codeParagraph h => rw [e1]; exact .codeParagraph (pl := ⟨up', a, b, l⟩) h
  | other h => exact .other h

theorem draw_around {u : Uni} {c : Cfg} {limit : Nat} {p : Int} {mode : Mode} {up : List Str} {a b k : Nat} {r : Int} {f : Forest} {x : Str}
    (h : Draw u c limit p mode up a b k r f x) {up' : List Str} (hs : SameAround up up') : Draw u c limit p mode up' a b k r f x := by
  induction h generalizing up' with
  | nil => exact .nil
  | @text up a b k r s rest w _ ih =>
    have e : decide (py"pre" ∈ up) = decide (py"pre" ∈ up') := by simp only [hs.pre]
    rw [e]; exact .text (ih hs)
  | elem e1 _ e2 _ hp _ ih1 ih2 ih3 => exact .elem e1 (ih1 (hs.cons _)) e2 (ih2 (hs.cons _)) (painted_around hs hp) (ih3 hs)
  | skipText hm _ ih => exact .skipText hm (ih hs)
  | entry hm h1 e1 _ he _ _ ih1 ih2 ih3 => exact .entry hm h1 e1 (ih1 (hs.cons _)) he (ih2 (hs.cons _)) (ih3 hs)
  | skipElem hm h1 e1 _ _ ih1 ih2 => exact .skipElem hm h1 e1 (ih1 (hs.cons _)) (ih2 hs)

theorem hasRoom_around {f : Forest} {up up' : List Str} {a : Nat} {w : Int} (hs : up.head? = some py"ol" ↔ up'.head? = some py"ol")
    (h : f.HasRoom up a w) : f.HasRoom up' a w := by
  induction f generalizing up up' a w with
  | nil => trivial
  | text s rest ih => exact ih hs h
  | elem tag attrs kids rest ih1 ih2 =>
    have e : Place.marker ⟨up, a, 0, 0⟩ tag = Place.marker ⟨up', a, 0, 0⟩ tag := by simp only [Place.marker, Place.bullet, hs]
    obtain ⟨h1, h2, h3⟩ := h
    rw [e] at h1 h2
    exact ⟨h1, ih1 (up := tag :: up) (up' := tag :: up') Iff.rfl h2, ih2 hs h3⟩

/-! ## The document without containers -/

/-- The blocks one after the other. -/
def flat : List Block → Forest
  | [] => .nil
  | (tag, attrs, kids) :: bs => .elem tag attrs kids (flat bs)

theorem count_flat_append (p : Str → Bool) (as bs : List Block) : (flat (as ++ bs)).count p = (flat as).count p + (flat bs).count p := by
  induction as with
  | nil => simp [flat, Forest.count]
  | cons a as ih => obtain ⟨t, at', k⟩ := a; simp only [List.cons_append, flat, Forest.count, ih]; omega

theorem Spec.MadeOf.count {f : Forest} {bs : List Block} (h : MadeOf f bs) (p : Str → Bool) (hp : ∀ tag, Container tag → p tag = false) :
    f.count p = (flat bs).count p := by
  induction h with
  | nil => rfl
  | blank _ _ ih => exact ih
  | block _ _ ih => simp only [Forest.count, flat, ih]
  | container hc _ _ _ ih1 ih2 => simp [Forest.count, count_flat_append, ih1, ih2, hp _ hc]

theorem numbered_container {c : Cfg} {tag : Str} (h : Container tag) : numbered c tag = false := by
  have := container_not h
  simp [numbered, this.2.2.2.2.2.1, this.2.2.2.2.2.2.1]

theorem linkAt_container {c : Cfg} {place tag : Str} (h : Container tag) : linkAt c place tag = false :=
  linkAt_none (container_not h).2.2.2.2.2.1 (container_not h).2.2.2.2.2.2.1

theorem Spec.MadeOf.flat {bs : List Block} (h : ∀ b ∈ bs, b.1 ∈ blockTags) : MadeOf (flat bs) bs := by
  induction bs with
  | nil => exact .nil
  | cons b bs ih => obtain ⟨t, at', k⟩ := b; exact .block (h (t, at', k) (by simp)) (ih (fun b hb => h b (by simp [hb])))

theorem Spec.MadeOf.blocks {f : Forest} {bs : List Block} (h : MadeOf f bs) : ∀ b ∈ bs, b.1 ∈ blockTags := by
  induction h with
  | nil => simp
  | blank _ _ ih => exact ih
  | block ht _ ih => simp [ht]; exact fun a b c hb => ih _ hb
  | container _ _ _ _ ih1 ih2 => exact fun b hb => (List.mem_append.1 hb).elim (ih1 b) (ih2 b)

theorem wellFormed_flat (bs : List Block) (pre : Bool) : (Verif.flat bs).WellFormed pre ↔
    ∀ b ∈ bs, (VoidTag b.1 → b.2.2 = .nil) ∧ (b.1 = py"pre" → pre = false) ∧ b.2.2.WellFormed (pre || b.1 == py"pre") := by
  induction bs with
  | nil => simp [Verif.flat, Forest.WellFormed]
  | cons b bs ih => obtain ⟨t, at', k⟩ := b; simp only [Verif.flat, Forest.WellFormed, ih, List.forall_mem_cons, and_assoc]

theorem Spec.MadeOf.wellFormed {f : Forest} {bs : List Block} (h : MadeOf f bs) : f.WellFormed false ↔ (Verif.flat bs).WellFormed false := by
  induction h with
  | nil => rfl
  | blank _ _ ih => exact ih
  | block _ _ ih => simp only [Verif.flat, Forest.WellFormed, ih]
  | @container tag _ _ _ _ _ hc _ _ _ ih1 ih2 =>
    have hn := container_not hc
    have e : (tag == py"pre") = false := by simpa using hn.1
    have hv : ¬ VoidTag tag := fun hv => hv.elim hn.2.2.2.2.2.2.2 hn.2.2.2.2.2.2.1
    rw [wellFormed_flat, List.forall_mem_append, ← wellFormed_flat, ← wellFormed_flat, ← ih1, ← ih2]
    simp [Forest.WellFormed, e, hv, hn.1]

theorem readable_flat (u : Uni) (c : Cfg) (bs : List Block) (inside : Prop) : (Verif.flat bs).Readable u c inside ↔
    ∀ b ∈ bs, (∀ e, ¬ Problem u c inside b.1 b.2.1 e) ∧ b.2.2.Readable u c True := by
  induction bs with
  | nil => simp [Verif.flat, Forest.Readable]
  | cons b bs ih => obtain ⟨t, at', k⟩ := b; simp only [Verif.flat, Forest.Readable, ih, List.forall_mem_cons, and_assoc]

/-- Whether a start tag of anything but a link or an image is a problem does not depend on where it stands. -/
theorem problem_plain {u : Uni} {c : Cfg} {inside : Prop} {tag : Str} {attrs : List (Str × Option Str)} {e : PyErr} (h1 : tag ≠ py"a")
    (h2 : tag ≠ py"img") : Problem u c inside tag attrs e ↔ attrOf attrs py"class" = some none ∧ e = .attributeError := by
  constructor
  · intro h
    cases h with
    | «class» h => exact ⟨h, rfl⟩
    | address _ h => exact absurd h (by simp [h1, h2])
    | place _ _ h => exact absurd h (by simp [h1, h2])
  · rintro ⟨h, rfl⟩; exact .class h

theorem Spec.MadeOf.readable {u : Uni} {c : Cfg} {f : Forest} {bs : List Block} (h : MadeOf f bs) (inside : Prop) :
    f.Readable u c inside ↔ (Verif.flat bs).Readable u c False := by
  induction h generalizing inside with
  | nil => rfl
  | blank _ _ ih => exact ih _
  | block hb _ ih =>
    have hn := block_not hb
    simp only [Verif.flat, Forest.Readable, ih, problem_plain hn.2.1 hn.2.2]
  | container hc hcl _ _ ih1 ih2 =>
    have hn := container_not hc
    rw [readable_flat, List.forall_mem_append, ← readable_flat, ← readable_flat, ← ih1 True, ← ih2 inside]
    simp only [Forest.Readable, problem_plain hn.2.2.2.2.2.1 hn.2.2.2.2.2.2.1, hcl, false_and, not_false_eq_true, implies_true, true_and]

theorem hasRoom_flat (bs : List Block) (hbs : ∀ b ∈ bs, b.1 ∈ blockTags) (a : Nat) (w : Int) : (Verif.flat bs).HasRoom [] a w ↔
    ∀ b ∈ bs, (Verif.flat [b]).HasRoom [] 0 w := by
  induction bs generalizing a with
  | nil => simp [Verif.flat, Forest.HasRoom]
  | cons b bs ih =>
    obtain ⟨t, at', k⟩ := b
    have e := marker_nodes (block_not (hbs _ (List.mem_cons_self ..))).1 [] a 0 0 0 0 0
    have := ih (fun b hb => hbs b (by simp [hb])) (a + 1)
    simp only [Verif.flat, Forest.HasRoom, List.forall_mem_cons, and_assoc, e, true_and, this]

theorem Spec.MadeOf.hasRoom {f : Forest} {bs : List Block} (h : MadeOf f bs) {up : List Str} (hup : ∀ t ∈ up, Container t) (a : Nat) (w : Int) :
    f.HasRoom up a w ↔ (Verif.flat bs).HasRoom [] 0 w := by
  induction h generalizing up a with
  | nil => exact Iff.rfl
  | blank _ _ ih => exact ih hup _
  | @block tag attrs kids rest bs hb hr ih =>
    have e := marker_nodes (block_not hb).1 up a 0 0 0 0 0
    have e' : Place.marker ⟨up, 0, 0, 0⟩ tag = Place.marker ⟨[], 0, 0, 0⟩ tag := by simp [Place.marker, (block_not hb).1]
    rw [hasRoom_flat _ (MadeOf.block hb hr (attrs := attrs) (kids := kids)).blocks, List.forall_mem_cons, ← hasRoom_flat _ hr.blocks 0,
      ← ih hup (a + 1)]
    simp only [Verif.flat, Forest.HasRoom, e, e', and_assoc, true_and]
    have k : ∀ w', kids.HasRoom (tag :: up) 0 w' ↔ kids.HasRoom [tag] 0 w' :=
      fun w' => ⟨hasRoom_around Iff.rfl, hasRoom_around Iff.rfl⟩
    rw [k]
  | @container tag attrs kids rest as bs hc hcl hk hr ih1 ih2 =>
    have hn := container_not hc
    have e : Place.marker ⟨up, a, 0, 0⟩ tag = 0 := by simp [Place.marker, hn.2.1, hn.2.2.2.1, hn.2.2.2.2.1]
    have hup' : ∀ t ∈ tag :: up, Container t := fun t ht => (List.mem_cons.1 ht).elim (fun q => q ▸ hc) (hup t)
    rw [hasRoom_flat _ (MadeOf.container hc hcl hk hr).blocks, List.forall_mem_append, ← hasRoom_flat _ hk.blocks 0,
      ← hasRoom_flat _ hr.blocks 0, ← ih1 hup' 0, ← ih2 hup (a + 1)]
    simp [Forest.HasRoom, e, hn.2.2.1, hn.2.2.2.1, hn.2.2.2.2.1]

/-! ## The pages -/

/-- Outside block quotes a block does not depend on where it stands. -/
theorem painted_top {u : Uni} {c : Cfg} {p r : Int} {pl pl' : Place} {m : Nat} {attrs : List (Str × Option Str)} {kids : Forest}
    {tag : Str} {inner : Int} {y x : Str} (h1 : pl.up.head? ≠ some py"blockquote") (h2 : pl'.up.head? ≠ some py"blockquote")
    (ht : tag ∈ blockTags) (h : Painted u c p r pl m attrs kids tag inner y x) : Painted u c p r pl' m attrs kids tag inner y x := by
  have e : pl.paragraphSpace = pl'.paragraphSpace := by simp only [Place.paragraphSpace, h1, h2, if_false]
  cases h with
  | marked h =>
    have : ∀ q ∈ markers, q.1 ∉ blockTags := by decide
    exact absurd ht (this _ h)
  | header h => exact .header h
  | pre h => exact .pre h
  | quote h => exact .quote h
  | list h => exact .list h
  | paragraph h1 h2 h3 h4 => rw [e]; exact .paragraph h1 h2 h3 h4
  | codeParagraph h => rw [e]; exact .codeParagraph h
  | other h => exact .other h
  | _ => exact absurd ht (by decide)

theorem up_not_quote {up : List Str} (h : ∀ t ∈ up, Container t) : up.head? ≠ some py"blockquote" := by
  cases up with
  | nil => simp
  | cons t up => simpa using (container_not (h t (by simp))).2.1

theorem draw_flat_move {u : Uni} {c : Cfg} {limit : Nat} {p : Int} {mode : Mode} {bs : List Block} (hb : ∀ b ∈ bs, b.1 ∈ blockTags)
    {a b k : Nat} {r : Int} {x : Str} (h : Draw u c limit p mode [] a b k r (Verif.flat bs) x) (a' b' : Nat) :
    Draw u c limit p mode [] a' b' k r (Verif.flat bs) x := by
  induction bs generalizing a b k x a' b' with
  | nil => cases h; exact .nil
  | cons q bs ih =>
    obtain ⟨tag, attrs, kids⟩ := q
    have ht : tag ∈ blockTags := hb (tag, attrs, kids) (by simp)
    have hb' : ∀ b ∈ bs, b.1 ∈ blockTags := fun b h => hb b (by simp [h])
    cases h with
    | elem e1 d1 e2 d2 hp d3 => exact .elem e1 d1 e2 d2 (painted_top (by simp) (by simp) ht hp) (ih hb' d3 _ _)
    | entry hm h1 e1 d1 he d2 d3 => exact .entry hm h1 e1 d1 he d2 (ih hb' d3 _ _)
    | skipElem hm h1 e1 d1 d2 => exact .skipElem hm h1 e1 d1 (ih hb' d2 _ _)

theorem draw_flat_append {u : Uni} {c : Cfg} {limit : Nat} {p : Int} {mode : Mode} {as bs : List Block} (ha : ∀ b ∈ as, b.1 ∈ blockTags)
    (hb : ∀ b ∈ bs, b.1 ∈ blockTags) {a b k a' b' k' : Nat} {r : Int} {x y : Str}
    (h : Draw u c limit p mode [] a b k r (Verif.flat as) x) (hk : k' = k + (Verif.flat as).count (numbered c))
    (h' : Draw u c limit p mode [] a' b' k' r (Verif.flat bs) y) : Draw u c limit p mode [] a b k r (Verif.flat (as ++ bs)) (x ++ y) := by
  induction as generalizing a b k x with
  | nil =>
    cases h
    simp only [Verif.flat, Forest.count, Nat.add_zero] at hk
    subst hk
    exact draw_flat_move hb h' a b
  | cons q as ih =>
    obtain ⟨tag, attrs, kids⟩ := q
    have ht : tag ∈ blockTags := ha (tag, attrs, kids) (by simp)
    have ha' : ∀ b ∈ as, b.1 ∈ blockTags := fun b h => ha b (by simp [h])
    simp only [Verif.flat, Forest.count] at hk
    cases h with
    | elem e1 d1 e2 d2 hp d3 =>
      have := ih ha' d3 (by omega)
      rw [List.append_assoc]
      exact .elem e1 d1 e2 d2 (painted_top (by simp) (by simp) ht hp) this
    | entry hm h1 e1 d1 he d2 d3 =>
      have := ih ha' d3 (by omega)
      rw [List.append_assoc]
      exact .entry hm h1 e1 d1 he d2 this
    | skipElem hm h1 e1 d1 d2 =>
      have := ih ha' d2 (by omega)
      rw [List.append_assoc]
      exact .skipElem hm h1 e1 d1 this

theorem Spec.MadeOf.near {f : Forest} {bs : List Block} (h : MadeOf f bs) (c : Cfg) : f.topCount (Mode.lists c .near) = 0 := by
  induction h with
  | nil => rfl
  | blank _ _ ih => exact ih
  | block hb _ ih => simp [Forest.topCount, Mode.lists, linkAt_none (block_not hb).2.1 (block_not hb).2.2] at ih ⊢; exact ih
  | container hc _ _ _ _ ih => simp [Forest.topCount, Mode.lists, linkAt_container hc] at ih ⊢; exact ih

theorem Spec.MadeOf.drawNear {u : Uni} {c : Cfg} {limit : Nat} {p : Int} {f : Forest} {bs : List Block} (h : MadeOf f bs)
    {up : List Str} {a b k : Nat} {r : Int} {x : Str} (hd : Draw u c limit p .near up a b k r f x) : x = [] := by
  induction h generalizing up a b k r x with
  | nil => cases hd; rfl
  | blank hs _ ih =>
    cases hd with
    | skipText _ hd => exact ih hd
  | block hb _ ih =>
    have hn := block_not hb
    cases hd with
    | entry _ h2 => simp [Mode.lists, linkAt_none hn.2.1 hn.2.2] at h2
    | skipElem h1 h2 h3 h4 h5 => cases h4; exact ih h5
  | container hc _ hk _ ih1 ih2 =>
    cases hd with
    | entry _ h2 => simp [Mode.lists, linkAt_container hc] at h2
    | skipElem h1 h2 h3 h4 h5 => cases h4; exact ih2 h5

/-- The list of links is that of the blocks. -/
theorem Spec.MadeOf.drawAll {u : Uni} {c : Cfg} {limit : Nat} {p : Int} {f : Forest} {bs : List Block} (h : MadeOf f bs)
    {up : List Str} (hup : ∀ t ∈ up, Container t) {a b k : Nat} {r : Int} {x : Str} (hd : Draw u c limit p .all up a b k r f x) :
    Draw u c limit p .all [] 0 0 k r (Verif.flat bs) x := by
  induction h generalizing up a b k r x with
  | nil => cases hd; exact .nil
  | blank hs _ ih =>
    cases hd with
    | skipText _ hd => exact ih hup hd
  | block hb hr ih =>
    have hn := block_not hb
    cases hd with
    | entry _ h2 => simp [Mode.lists, linkAt_none hn.2.1 hn.2.2] at h2
    | skipElem h1 h2 h3 h4 h5 =>
      exact .skipElem h1 h2 h3 (draw_around h4 (sameAround_block _ hup)) (draw_flat_move hr.blocks (ih hup h5) _ _)
  | @container tag _ _ _ _ _ hc _ hk hr ih1 ih2 =>
    cases hd with
    | entry _ h2 => simp [Mode.lists, linkAt_container hc] at h2
    | skipElem h1 h2 h3 h4 h5 =>
      rw [numbered_container hc] at h3
      simp only [Bool.false_eq_true, if_false, Nat.add_zero] at h3
      subst h3
      refine draw_flat_append hk.blocks hr.blocks (ih1 (up := tag :: up) (fun t ht => (List.mem_cons.1 ht).elim (fun q => q ▸ hc) (hup t)) h4) ?_
        (ih2 hup h5)
      rw [hk.count _ (fun _ h => numbered_container h)]

/-- The page is that of the blocks. -/
theorem Spec.MadeOf.draw {u : Uni} {c : Cfg} {limit : Nat} {p : Int} {f : Forest} {bs : List Block} (h : MadeOf f bs)
    {up : List Str} (hup : ∀ t ∈ up, Container t) {a b k : Nat} {r : Int} {x : Str} (hd : Draw u c limit p .page up a b k r f x) :
    ∃ x', Draw u c limit p .page [] 0 0 k r (Verif.flat bs) x' ∧ StartsVoid x ∧ EndsVoid x ∧ StartsVoid x' ∧ EndsVoid x' ∧
      optimise x = optimise x' := by
  induction h generalizing up a b k r x with
  | nil => cases hd; exact ⟨[], .nil, .inl void_nil, .inl void_nil, .inl void_nil, .inl void_nil, rfl⟩
  | blank hs _ ih =>
    cases hd with
    | text hd =>
      obtain ⟨x', h1, h2, h3, h4, h5, h6⟩ := ih hup hd
      have e : decide (py"pre" ∈ up) = false := by
        simp only [decide_eq_false_iff_not]
        exact fun hp => (container_not (hup _ hp)).1 rfl
      rw [e]
      have hv := kept_void hs
      refine ⟨x', h1, startsVoid_append (.inl hv) h2, endsVoid_append (.inl hv) h3, h4, h5, ?_⟩
      rw [optimise_join (.inl hv) h2, optimise_void hv]
      exact h6
    | skipText hm => exact absurd rfl hm
  | block hb hr ih =>
    cases hd with
    | elem e1 d1 e2 d2 hp d3 =>
      obtain ⟨x', h1, h2, h3, h4, h5, h6⟩ := ih hup d3
      obtain ⟨t, rfl⟩ := painted_block hup hb hp
      have v1 : StartsVoid ('\n' :: (t ++ py"\n")) := .inr ⟨[], _, void_nil, rfl⟩
      have v2 : EndsVoid ('\n' :: (t ++ py"\n")) := .inr ⟨'\n' :: t, [], void_nil, rfl⟩
      refine ⟨_, .elem e1 (draw_around d1 (sameAround_block _ hup)) e2 (draw_around d2 (sameAround_block _ hup))
        (painted_top (up_not_quote hup) (by simp) hb hp) (draw_flat_move hr.blocks h1 _ _), startsVoid_append v1 h2, endsVoid_append v2 h3,
        startsVoid_append v1 h4, endsVoid_append v2 h5, ?_⟩
      rw [optimise_join v2 h2, optimise_join v2 h4, h6]
    | skipElem hm => exact absurd rfl hm
    | entry hm => exact absurd rfl hm
  | @container tag attrs kids rest as bs hc hcl hk hr ih1 ih2 =>
    have hn := container_not hc
    cases hd with
    | @elem _ _ _ _ _ inner _ _ _ _ y z x w k' own e1 d1 e2 d2 hp d3 =>
      rw [linkAt_container hc] at e2
      simp only [Bool.false_eq_true, if_false] at e2
      subst e2
      rw [numbered_container hc] at e1
      simp only [Bool.false_eq_true, if_false, Nat.add_zero] at e1
      subst e1
      obtain ⟨y', g1, g2, g3, g4, g5, g6⟩ := ih1 (up := tag :: up) (fun t ht => (List.mem_cons.1 ht).elim (fun q => q ▸ hc) (hup t)) d1
      obtain ⟨x', h1, h2, h3, h4, h5, h6⟩ := ih2 hup d3
      have hz := hk.drawNear d2
      subst hz
      rw [if_pos (hk.near c)] at hp
      simp only [List.append_nil] at hp
      obtain ⟨rfl, hx⟩ := painted_container hc hp
      have hx' : StartsVoid x ∧ EndsVoid x ∧ optimise x = optimise y := by
        rcases hx with ⟨rfl, -⟩ | ⟨rfl, -⟩
        · exact ⟨g2, g3, rfl⟩
        · exact ⟨startsVoid_pad g2, endsVoid_pad g3, optimise_padLines _ _⟩
      refine ⟨y' ++ x', draw_flat_append hk.blocks hr.blocks g1 (by rw [hk.count _ (fun _ h => numbered_container h)]) h1,
        startsVoid_append hx'.1 h2, endsVoid_append hx'.2.1 h3, startsVoid_append g4 h4, endsVoid_append g5 h5, ?_⟩
      rw [optimise_join hx'.2.1 h2, optimise_join g5 h4, hx'.2.2, g6, h6]
    | skipElem hm => exact absurd rfl hm
    | entry hm => exact absurd rfl hm

theorem Spec.MadeOf.page {u : Uni} {c : Cfg} {limit : Nat} {f : Forest} {bs : List Block} (h : MadeOf f bs) {page : Str}
    (hp : PageOfTree u c f limit page) : ∃ page', PageOfTree u c (Verif.flat bs) limit page' ∧ optimise page = optimise page' := by
  obtain ⟨body, foot, g, rfl, h1, h2, rfl⟩ := hp
  obtain ⟨body', h3, v1, v2, v3, v4, h4⟩ := h.draw (by simp) h1
  have hpad : Void (List.replicate c.pageBox.margin.left.toNat ' ') := by
    refine ⟨blank_spaces _, fun hc => ?_⟩
    have := List.eq_of_mem_replicate hc
    revert this; decide
  by_cases hf : c.linkPlacement = py"footer"
  · simp only [if_pos hf] at h2 ⊢
    have h2' := h.drawAll (by simp) h2
    refine ⟨_, ⟨body', foot, _, rfl, h3, by rw [if_pos hf]; exact h2', rfl⟩, page_like hpad ?_ _ _⟩
    have hcnt : f.count (Mode.lists c .all) = (Verif.flat bs).count (Mode.lists c .all) :=
      h.count _ (fun tag h => by simp [Mode.lists, linkAt_container h])
    simp only [if_pos hf, List.append_assoc, hcnt]
    split
    · rename_i h0
      rw [drawAll_none h2' rfl h0]
      simpa using h4
    · simp only [List.cons_append, List.nil_append]
      rw [optimise_split, optimise_split, h4]
  · simp only [if_neg hf] at h2 ⊢
    cases h2
    refine ⟨_, ⟨body', [], _, rfl, h3, by rw [if_neg hf]; exact .nil, rfl⟩, page_like hpad ?_ _ _⟩
    simpa [hf, Forest.count] using h4

theorem Spec.MadeOf.rendered {u : Uni} {c : Cfg} {f : Forest} {bs : List Block} (h : MadeOf f bs) (hw : f.WellFormed false)
    (hr : c.renderers = []) (hl : c.linkRenderers = []) (hd : c.defaultRenderer = .cls .renderer)
    (h0 : c.outputFormat = py"gophermap" → c.linkPlacement ≠ py"inline" ∧ c.gopherHost ≠ []) (ho : c.optimise = true) (out : Str) :
    renderEvents u c f.events = .ok out ↔ renderEvents u c (Verif.flat bs).events = .ok out := by
  have hw' := h.wellFormed.1 hw
  have key : ∀ out, renderEvents u c f.events = .ok out → renderEvents u c (Verif.flat bs).events = .ok out := by
    intro out hout
    obtain ⟨h1, h2, page, h3, h4⟩ := (C91 u c f hw hr hl hd h0 out).1 hout
    obtain ⟨page', h5, h6⟩ := h.page h3
    refine (C91 u c _ hw' hr hl hd h0 out).2 ⟨(h.readable _).1 h1, (h.hasRoom (by simp) 0 _).1 h2, page', h5, ?_⟩
    rw [if_pos ho] at h4 ⊢
    rw [trimmed_unique h4, h6]
    exact trimmed_optimise _
  refine ⟨key out, fun hout => ?_⟩
  obtain ⟨h1, h2, -⟩ := (C91 u c _ hw' hr hl hd h0 out).1 hout
  obtain ⟨page, out', -, -, h3, -⟩ := C91_unique u c f hw hr hl hd h0 ((h.readable _).2 h1) ((h.hasRoom (by simp) 0 _).2 h2)
  have := key _ h3
  rw [hout] at this
  cases this
  exact h3

/-- Of a document made of blocks only the blocks count: two documents made of the same blocks are rendered as the same text, or both are not
rendered, whatever containers the blocks are in and whatever whitespace is between them. -/
theorem C93 (u : Uni) (c : Cfg) (f f' : Forest) (bs : List Block) (h : MadeOf f bs) (h' : MadeOf f' bs) (hw : f.WellFormed false)
    (hr : c.renderers = []) (hl : c.linkRenderers = []) (hd : c.defaultRenderer = .cls .renderer)
    (h0 : c.outputFormat = py"gophermap" → c.linkPlacement ≠ py"inline" ∧ c.gopherHost ≠ []) (ho : c.optimise = true)
    (out : Str) : renderEvents u c f.events = .ok out ↔ renderEvents u c f'.events = .ok out := by
  rw [h.rendered hw hr hl hd h0 ho, h'.rendered (h'.wellFormed.2 (h.wellFormed.1 hw)) hr hl hd h0 ho]

/-- The same for the source of the documents. -/
theorem C93_source (u : Uni) (c : Cfg) (doc doc' : List Item) (hdoc : DocOk u.entity u.lower doc) (hdoc' : DocOk u.entity u.lower doc')
    (f f' : Forest) (hf : Denotes (docEvents u.lower doc) f) (hf' : Denotes (docEvents u.lower doc') f') (bs : List Block)
    (h : MadeOf f bs) (h' : MadeOf f' bs) (hw : f.WellFormed false) (hr : c.renderers = []) (hl : c.linkRenderers = [])
    (hd : c.defaultRenderer = .cls .renderer) (h0 : c.outputFormat = py"gophermap" → c.linkPlacement ≠ py"inline" ∧ c.gopherHost ≠ [])
    (ho : c.optimise = true) (out : Str) : renderHtml u c [docSrc doc] = .ok out ↔ renderHtml u c [docSrc doc'] = .ok out := by
  rw [(C68 u c doc hdoc).2.2, renderEvents_denotes u c hf, (C68 u c doc' hdoc').2.2, renderEvents_denotes u c hf']
  exact C93 u c f f' bs h h' hw hr hl hd h0 ho out

/-- A heading and two paragraphs: bare, and in a page with sections. -/
def c93Blocks : List Block :=
  [(py"h1", [], .text py"A" .nil), (py"p", [], .text py"b" .nil), (py"p", [], .text py"c" .nil)]

def c93Page : Forest :=
  .elem py"html" [] (.text py"\n" (.elem py"body" [(py"class", some py"x")] (.elem py"h1" [] (.text py"A" .nil) (.elem py"div" []
    (.elem py"p" [] (.text py"b" .nil) (.text py" " (.elem py"section" [] (.elem py"p" [] (.text py"c" .nil) .nil) .nil)))
    .nil)) .nil)) .nil

theorem c93_made : MadeOf c93Page c93Blocks := by
  have b : ∀ s : Str, s.all isSpace = true → Blank s := fun s hs c hc => List.all_eq_true.1 hs c hc
  have h1 : MadeOf (.elem py"section" [] (.elem py"p" [] (.text py"c" .nil) .nil) .nil) ([(py"p", [], .text py"c" .nil)] ++ []) :=
    .container (.inr (by unfold Unstyled; decide)) (by decide) (.block (by decide) .nil) .nil
  have h2 : MadeOf (.elem py"div" [] (.elem py"p" [] (.text py"b" .nil) (.text py" " (.elem py"section" []
      (.elem py"p" [] (.text py"c" .nil) .nil) .nil))) .nil)
      ([(py"p", [], .text py"b" .nil), (py"p", [], .text py"c" .nil)] ++ []) :=
    .container (.inl rfl) (by decide) (.block (by decide) (.blank (b _ (by decide)) h1)) .nil
  have h3 : MadeOf (.elem py"body" [(py"class", some py"x")] (.elem py"h1" [] (.text py"A" .nil) (.elem py"div" []
      (.elem py"p" [] (.text py"b" .nil) (.text py" " (.elem py"section" [] (.elem py"p" [] (.text py"c" .nil) .nil) .nil)))
      .nil)) .nil) (c93Blocks ++ []) :=
    .container (.inr (by unfold Unstyled; decide)) (by decide) (.block (by decide) h2) .nil
  exact .container (.inr (by unfold Unstyled; decide)) (by decide) (.blank (b _ (by decide)) h3) .nil

example : renderEvents asciiUni {} (flat c93Blocks).events = .ok py"\n# A #\n\nb\n\nc\n" ∧
    renderEvents asciiUni {} c93Page.events = .ok py"\n# A #\n\nb\n\nc\n" :=
  have h : renderEvents asciiUni {} (flat c93Blocks).events = .ok py"\n# A #\n\nb\n\nc\n" := by decide +kernel
  ⟨h, (C93 asciiUni {} _ _ c93Blocks (.flat (by decide)) c93_made (by simp [flat, c93Blocks, Forest.WellFormed, VoidTag]) rfl rfl rfl
    (fun h => by cases h) rfl _).1 h⟩

/-- A container with text of its own does count: nothing separates the text from the text after it. -/
theorem C93_text_fails :
    renderHtml asciiUni {} [py"<section>a</section><section>b</section>"] = .ok py"ab" ∧
    renderHtml asciiUni {} [py"<div>a</div><div>b</div>"] ≠ renderHtml asciiUni {} [py"ab"] := by
  decide +kernel

end Verif
