import Verif.Spec.Parts
import Verif.Props.OnlyBlocks
import Verif.Props.Mend

/-!
# Two documents, one after the other
-/

namespace Verif

open Spec

theorem events_append (f g : Forest) : (f.append g).events = f.events ++ g.events := by
  induction f with
  | nil => rfl
  | text s rest ih => simp [Forest.append, Forest.events, ih]
  | elem tag attrs kids rest _ ih => simp [Forest.append, Forest.events, ih]

theorem wellFormed_append (f g : Forest) (pre : Bool) : (f.append g).WellFormed pre ↔ f.WellFormed pre ∧ g.WellFormed pre := by
  induction f with
  | nil => simp [Forest.append, Forest.WellFormed]
  | text s rest ih => simp only [Forest.append, Forest.WellFormed, ih]
  | elem tag attrs kids rest _ ih => simp only [Forest.append, Forest.WellFormed, ih, and_assoc]

theorem readable_append (u : Uni) (c : Cfg) (f g : Forest) (inside : Prop) :
    (f.append g).Readable u c inside ↔ f.Readable u c inside ∧ g.Readable u c inside := by
  induction f with
  | nil => simp [Forest.append, Forest.Readable]
  | text s rest ih => simp only [Forest.append, Forest.Readable, ih]
  | elem tag attrs kids rest _ ih => simp only [Forest.append, Forest.Readable, ih, and_assoc]

theorem hasRoom_append (f g : Forest) (up : List Str) (a : Nat) (w : Int) :
    (f.append g).HasRoom up a w ↔ f.HasRoom up a w ∧ g.HasRoom up (a + f.length) w := by
  induction f generalizing a with
  | nil => simp [Forest.append, Forest.HasRoom, Forest.length]
  | text s rest ih =>
    simp only [Forest.append, Forest.HasRoom, Forest.length, ih, Nat.add_assoc, Nat.add_comm 1]
  | elem tag attrs kids rest _ ih =>
    simp only [Forest.append, Forest.HasRoom, Forest.length, ih, Nat.add_assoc, Nat.add_comm 1, and_assoc]

theorem hasRoom_top (g : Forest) (a a' : Nat) (w : Int) (h : g.HasRoom [] a w) : g.HasRoom [] a' w := by
  induction g generalizing a a' with
  | nil => trivial
  | text s rest ih => exact ih _ _ h
  | elem tag attrs kids rest _ ih =>
    have e : Place.marker ⟨[], a, 0, 0⟩ tag = Place.marker ⟨[], a', 0, 0⟩ tag := by simp [Place.marker, Place.bullet]
    simp only [Forest.HasRoom, e] at h ⊢
    exact ⟨h.1, h.2.1, ih _ _ h.2.2⟩

theorem count_append (p : Str → Bool) (f g : Forest) : (f.append g).count p = f.count p + g.count p := by
  induction f with
  | nil => simp [Forest.append, Forest.count]
  | text s rest ih => simp only [Forest.append, Forest.count, ih]
  | elem tag attrs kids rest _ ih => simp only [Forest.append, Forest.count, ih]; omega

/-- On the top level it does not matter how many elements follow, and items and terms only ask whether there are elements before. -/
theorem painted_place {u : Uni} {c : Cfg} {p r : Int} {a a' b b' l l' m : Nat} {attrs : List (Str × Option Str)} {kids : Forest}
    {tag : Str} {inner : Int} {y x : Str} (hb : (b = 0 ↔ b' = 0) ∨ tag ≠ py"li" ∧ tag ≠ py"dt")
    (h : Painted u c p r ⟨[], a, b, l⟩ m attrs kids tag inner y x) : Painted u c p r ⟨[], a', b', l'⟩ m attrs kids tag inner y x := by
  have e1 : Place.paragraphSpace ⟨[], a, b, l⟩ = Place.paragraphSpace ⟨[], a', b', l'⟩ := by simp [Place.paragraphSpace]
  have e2 : Place.bullet ⟨[], a, b, l⟩ = Place.bullet ⟨[], a', b', l'⟩ := by simp [Place.bullet]
  cases h with
  | marked h => exact .marked h
  | br => exact .br
  | code h1 h2 => exact .code (by simp) h2
  | fence h1 h2 => exact .fence (by simp) h2
  | codeInPre h => simp at h
  | reference h => exact .reference h
  | link h => exact .link h
  | imageReference h => exact .imageReference h
  | image h => exact .image h
  | header h => exact .header h
  | pre h => exact .pre h
  | quote h => exact .quote h
  | list h => exact .list h
  | div => exact .div
  | term =>
    have hb' : b = 0 ↔ b' = 0 := hb.resolve_right (by simp)
    have e3 : Place.termSpace ⟨[], a, b, l⟩ = Place.termSpace ⟨[], a', b', l'⟩ := by simp [Place.termSpace, hb']
    rw [e3]; exact .term
  | item h =>
    have hb' : b = 0 ↔ b' = 0 := hb.resolve_right (by simp)
    have e3 : Place.itemSpace ⟨[], a, b, l⟩ = Place.itemSpace ⟨[], a', b', l'⟩ := by simp [Place.itemSpace, Place.inNestedList, hb']
    rw [e3, e2]; rw [e2] at h; exact .item h
  | description h => exact .description h
  | paragraph h1 h2 h3 h4 => rw [e1]; exact .paragraph h1 h2 h3 h4
  | codeParagraph h => rw [e1]; exact .codeParagraph h
  | other h => exact .other h

theorem draw_place {u : Uni} {c : Cfg} {limit : Nat} {p : Int} {mode : Mode} {g : Forest} {a a' b b' k : Nat} {r : Int} {x : Str}
    (hb : (b = 0 ↔ b' = 0) ∨ g.firstTag ≠ some py"li" ∧ g.firstTag ≠ some py"dt")
    (h : Draw u c limit p mode [] a b k r g x) : Draw u c limit p mode [] a' b' k r g x := by
  induction g generalizing a a' b b' k x with
  | nil => cases h; exact .nil
  | text s rest ih =>
    cases h with
    | text h => exact .text (ih hb h)
    | skipText hm h => exact .skipText hm (ih hb h)
  | elem tag attrs kids rest _ ih =>
    have hb' : (b = 0 ↔ b' = 0) ∨ tag ≠ py"li" ∧ tag ≠ py"dt" := by simpa [Forest.firstTag] using hb
    cases h with
    | elem e1 d1 e2 d2 hp d3 => exact .elem e1 d1 e2 d2 (painted_place hb' hp) (ih (.inl (by omega)) d3)
    | entry hm h1 e1 d1 he d2 d3 => exact .entry hm h1 e1 d1 he d2 (ih (.inl (by omega)) d3)
    | skipElem hm h1 e1 d1 d2 => exact .skipElem hm h1 e1 d1 (ih (.inl (by omega)) d2)

theorem topCount_elem (tag : Str) (attrs : List (Str × Option Str)) (kids rest : Forest) :
    (Forest.elem tag attrs kids rest).topCount (fun _ => true) = rest.topCount (fun _ => true) + 1 := by
  simp only [Forest.topCount, if_true]; omega

/-- The elements before, and the links before. -/
theorem draw_append {u : Uni} {c : Cfg} {limit : Nat} {p : Int} {mode : Mode} {f g : Forest} {a b k : Nat} {r : Int} {x : Str} :
    Draw u c limit p mode [] a b k r (f.append g) x ↔ ∃ x1 x2, x = x1 ++ x2 ∧ Draw u c limit p mode [] a b k r f x1 ∧
      Draw u c limit p mode [] (a + f.length) (b + f.topCount (fun _ => true)) (k + f.count (numbered c)) r g x2 := by
  induction f generalizing a b k x with
  | nil =>
    constructor
    · intro h; exact ⟨[], x, rfl, .nil, h⟩
    · rintro ⟨x1, x2, rfl, h1, h2⟩; cases h1; exact h2
  | text s rest ih =>
    have e : a + (rest.length + 1) = a + 1 + rest.length := by omega
    simp only [Forest.append, Forest.length, Forest.topCount, Forest.count, e]
    constructor
    · intro h
      cases h with
      | text h =>
        obtain ⟨x1, x2, rfl, h1, h2⟩ := ih.1 h
        exact ⟨_, x2, (List.append_assoc ..).symm, .text h1, h2⟩
      | skipText hm h =>
        obtain ⟨x1, x2, rfl, h1, h2⟩ := ih.1 h
        exact ⟨_, x2, rfl, .skipText hm h1, h2⟩
    · rintro ⟨x1, x2, rfl, h1, h2⟩
      cases h1 with
      | text h => rw [List.append_assoc]; exact .text (ih.2 ⟨_, _, rfl, h, h2⟩)
      | skipText hm h => exact .skipText hm (ih.2 ⟨_, _, rfl, h, h2⟩)
  | elem tag attrs kids rest _ ih =>
    have ea : a + (rest.length + 1) = a + 1 + rest.length := by omega
    have eb : b + (rest.topCount (fun _ => true) + 1) = b + 1 + rest.topCount (fun _ => true) := by omega
    have ek : k + ((if numbered c tag then 1 else 0) + kids.count (numbered c) + rest.count (numbered c)) =
      k + (if numbered c tag then 1 else 0) + kids.count (numbered c) + rest.count (numbered c) := by omega
    simp only [Forest.append, Forest.length, topCount_elem, Forest.count, ea, eb, ek]
    constructor
    · intro h
      cases h with
      | elem e1 d1 e2 d2 hp d3 =>
        obtain ⟨x1, x2, rfl, h1, h2⟩ := ih.1 d3
        subst e1
        exact ⟨_, x2, (List.append_assoc ..).symm, .elem rfl d1 e2 d2 (painted_place (.inl Iff.rfl) hp) h1, h2⟩
      | entry hm hl e1 d1 he d2 d3 =>
        obtain ⟨x1, x2, rfl, h1, h2⟩ := ih.1 d3
        subst e1
        exact ⟨_, x2, (List.append_assoc ..).symm, .entry hm hl rfl d1 he d2 h1, h2⟩
      | skipElem hm hl e1 d1 d2 =>
        obtain ⟨x1, x2, rfl, h1, h2⟩ := ih.1 d2
        subst e1
        exact ⟨_, x2, (List.append_assoc ..).symm, .skipElem hm hl rfl d1 h1, h2⟩
    · rintro ⟨x1, x2, rfl, h1, h2⟩
      cases h1 with
      | elem e1 d1 e2 d2 hp d3 =>
        subst e1
        rw [List.append_assoc]
        exact .elem rfl d1 e2 d2 (painted_place (.inl Iff.rfl) hp) (ih.2 ⟨_, _, rfl, d3, h2⟩)
      | entry hm hl e1 d1 he d2 d3 =>
        subst e1
        rw [List.append_assoc]
        exact .entry hm hl rfl d1 he d2 (ih.2 ⟨_, _, rfl, d3, h2⟩)
      | skipElem hm hl e1 d1 d2 =>
        subst e1
        rw [List.append_assoc]
        exact .skipElem hm hl rfl d1 (ih.2 ⟨_, _, rfl, d2, h2⟩)

theorem numbered_of_lists {c : Cfg} {mode : Mode} {tag : Str} (h : mode.lists c tag = true) : numbered c tag = true := by
  cases mode with
  | page => simp [Mode.lists] at h
  | near => simp only [Mode.lists, linkAt, Bool.or_eq_true, Bool.and_eq_true, decide_eq_true_eq] at h; rcases h with ⟨rfl, h⟩ | ⟨rfl, h⟩ <;> simp [numbered, h]
  | all => simp only [Mode.lists, linkAt, Bool.or_eq_true, Bool.and_eq_true, decide_eq_true_eq] at h; rcases h with ⟨rfl, h⟩ | ⟨rfl, h⟩ <;> simp [numbered, h]

/-- Without links with numbers it does not matter how many came before. -/
theorem painted_number {u : Uni} {c : Cfg} {p r : Int} {pl : Place} {m m' : Nat} {attrs : List (Str × Option Str)} {kids : Forest}
    {tag : Str} {inner : Int} {y x : Str} (hn : numbered c tag = false)
    (h : Painted u c p r pl m attrs kids tag inner y x) : Painted u c p r pl m' attrs kids tag inner y x := by
  cases h with
  | marked h => exact .marked h
  | br => exact .br
  | code h1 h2 => exact .code h1 h2
  | fence h1 h2 => exact .fence h1 h2
  | codeInPre h => exact .codeInPre h
  | reference h => simp [numbered, h] at hn
  | link h => exact .link h
  | imageReference h => simp [numbered, h] at hn
  | image h => exact .image h
  | header h => exact .header h
  | pre h => exact .pre h
  | quote h => exact .quote h
  | list h => exact .list h
  | div => exact .div
  | term => exact .term
  | item h => exact .item h
  | description h => exact .description h
  | paragraph h1 h2 h3 h4 => exact .paragraph h1 h2 h3 h4
  | codeParagraph h => exact .codeParagraph h
  | other h => exact .other h

theorem draw_number {u : Uni} {c : Cfg} {limit : Nat} {p : Int} {mode : Mode} {up : List Str} {a b k k' : Nat} {r : Int} {g : Forest} {x : Str}
    (hn : g.count (numbered c) = 0) (h : Draw u c limit p mode up a b k r g x) : Draw u c limit p mode up a b k' r g x := by
  induction h generalizing k' with
  | nil => exact .nil
  | text _ ih => exact .text (ih hn)
  | elem e1 d1 e2 d2 hp d3 ih1 ih2 ih3 =>
    simp only [Forest.count, Nat.add_eq_zero_iff] at hn
    rename_i tag _ _ _ _ _ _ _ _ _
    have ht : numbered c tag = false := by simpa using hn.1.1
    refine .elem rfl (ih1 hn.1.2) e2 (ih2 ?_) (painted_number ht hp) (ih3 hn.2)
    subst e2
    split
    · rfl
    · exact hn.1.2
  | skipText hm _ ih => exact .skipText hm (ih hn)
  | entry hm hl e1 d1 he d2 d3 =>
    simp only [Forest.count, numbered_of_lists hl] at hn
    simp at hn
  | skipElem hm hl e1 d1 d2 ih1 ih2 =>
    simp only [Forest.count, Nat.add_eq_zero_iff] at hn
    refine .skipElem hm hl rfl (ih1 ?_) (ih2 hn.2)
    split
    · exact hn.1.2
    · rfl

/-- No links at the end of the page. -/
theorem draw_none {u : Uni} {c : Cfg} {limit : Nat} {p : Int} {up : List Str} {a b k : Nat} {r : Int} {f : Forest} {x : Str}
    (hn : f.count (Mode.lists c .all) = 0) : Draw u c limit p .all up a b k r f x ↔ x = [] := by
  induction f generalizing up a b k x with
  | nil => exact ⟨fun h => by cases h; rfl, fun h => by subst h; exact .nil⟩
  | text s rest ih =>
    constructor
    · intro h
      cases h with
      | skipText hm h => exact (ih hn).1 h
    · intro h; exact .skipText (by simp) ((ih hn).2 h)
  | elem tag attrs kids rest ih1 ih2 =>
    simp only [Forest.count, Nat.add_eq_zero_iff] at hn
    have ht : Mode.lists c .all tag = false := by simpa using hn.1.1
    constructor
    · intro h
      cases h with
      | entry hm hl => rw [ht] at hl; cases hl
      | skipElem hm hl e1 d1 d2 => rw [(ih1 hn.1.2).1 d1, (ih2 hn.2).1 d2]; rfl
    · rintro rfl
      exact .skipElem (v := []) (by simp) ht rfl ((ih1 hn.1.2).2 rfl) ((ih2 hn.2).2 rfl)

theorem count_le {p q : Str → Bool} (h : ∀ tag, p tag = true → q tag = true) {f : Forest} (hq : f.count q = 0) : f.count p = 0 := by
  induction f with
  | nil => rfl
  | text s rest ih => exact ih hq
  | elem tag attrs kids rest ih1 ih2 =>
    simp only [Forest.count, Nat.add_eq_zero_iff] at hq ⊢
    refine ⟨⟨?_, ih1 hq.1.2⟩, ih2 hq.2⟩
    have : q tag ≠ true := by simpa using hq.1.1
    rw [if_neg (fun e => this (h tag e))]

/-- Blocks end with a line break. -/
theorem painted_ends {u : Uni} {c : Cfg} {p r : Int} {a b l m : Nat} {attrs : List (Str × Option Str)} {kids : Forest}
    {tag : Str} {inner : Int} {y x : Str} (ht : tag ∈ blockTags) (h : Painted u c p r ⟨[], a, b, l⟩ m attrs kids tag inner y x) :
    ∃ z, x = z ++ py"\n" := by
  have e : Place.paragraphSpace ⟨[], a, b, l⟩ = (1, 1) := by simp [Place.paragraphSpace]
  cases h with
  | marked h =>
    have : ∀ q ∈ markers, q.1 ∉ blockTags := by decide
    exact absurd ht (this _ h)
  | header h => exact ⟨_, rfl⟩
  | pre h => exact ⟨_, rfl⟩
  | quote h => exact ⟨_, rfl⟩
  | list h => exact ⟨_, rfl⟩
  | paragraph h1 h2 h3 h4 => rw [e]; exact ⟨_, rfl⟩
  | codeParagraph h => rw [e]; exact ⟨_, rfl⟩
  | other h =>
    have : ∀ q ∈ blockTags, q ∈ plainStyle.map Prod.fst ∨ q ∈ [py"p", py"li", py"dt"] := by decide
    rcases this _ ht with q | q
    · exact absurd q h.1
    · exact absurd q h.2
  | _ => exact absurd ht (by decide)

theorem draw_ends {u : Uni} {c : Cfg} {limit : Nat} {p : Int} {a b k : Nat} {r : Int} {f : Forest} {x : Str} (hf : f.EndsInBlock)
    (hne : f ≠ .nil) (h : Draw u c limit p .page [] a b k r f x) : ∃ z, x = z ++ py"\n" := by
  fun_induction Forest.EndsInBlock f generalizing a b k x with
  | case1 => exact absurd rfl hne
  | case2 => exact hf.elim
  | case3 tag attrs kids =>
    cases h with
    | elem e1 d1 e2 d2 hp d3 =>
      cases d3
      obtain ⟨z, rfl⟩ := painted_ends hf hp
      exact ⟨z, by simp⟩
    | entry hm => exact absurd rfl hm
    | skipElem hm => exact absurd rfl hm
  | case4 s rest hr ih =>
    cases h with
    | text h =>
      obtain ⟨z, rfl⟩ := ih hf hr h
      exact ⟨_, (List.append_assoc ..).symm⟩
    | skipText hm => exact absurd rfl hm
  | case5 tag attrs kids rest hr ih =>
    cases h with
    | elem e1 d1 e2 d2 hp d3 =>
      obtain ⟨z, rfl⟩ := ih hf hr d3
      exact ⟨_, (List.append_assoc ..).symm⟩
    | entry hm => exact absurd rfl hm
    | skipElem hm => exact absurd rfl hm

/-- What is between the margins. -/
def Inside (u : Uni) (c : Cfg) (f : Forest) (text : Str) : Prop :=
  ∃ body foot g, g = (if c.linkPlacement = py"footer" then f else .nil) ∧
    Draw u c 10 (c.pageBox.totalPadding.left + c.pageBox.totalPadding.right) .page [] 0 0 0 (room c.pageBox) f body ∧
    Draw u c 10 (c.pageBox.totalPadding.left + c.pageBox.totalPadding.right) .all [] 0 0 0 (room c.pageBox) g foot ∧
    text = body ++ (if g.count (Mode.lists c .all) = 0 then [] else py"\n") ++ foot

theorem pageOfTree_inside {u : Uni} {c : Cfg} {f : Forest} {page : Str} : PageOfTree u c f 10 page ↔ ∃ text, Inside u c f text ∧
    page = newlines c.pageBox.margin.top.toNat ++ indentLines (List.replicate c.pageBox.margin.left.toNat ' ') true text ++
      newlines c.pageBox.margin.bottom.toNat := by
  constructor
  · rintro ⟨body, foot, g, h1, h2, h3, h4⟩; exact ⟨_, ⟨body, foot, g, h1, h2, h3, rfl⟩, h4⟩
  · rintro ⟨text, ⟨body, foot, g, h1, h2, h3, rfl⟩, h4⟩; exact ⟨body, foot, g, h1, h2, h3, h4⟩

theorem inside_append {u : Uni} {c : Cfg} {f g : Forest} (hl : f.count (linkAt c py"footer") = 0)
    (hn : f.count (numbered c) = 0 ∨ g.count (numbered c) = 0) (hj : Joins f g) {text : Str} :
    Inside u c (f.append g) text ↔ ∃ a b, Inside u c f a ∧ Inside u c g b ∧ text = a ++ b := by
  have hl' : f.count (Mode.lists c .all) = 0 := hl
  have move : ∀ {mode x}, Draw u c 10 (c.pageBox.totalPadding.left + c.pageBox.totalPadding.right) mode [] (0 + f.length)
      (0 + f.topCount (fun _ => true)) (0 + f.count (numbered c)) (room c.pageBox) g x ↔
      Draw u c 10 (c.pageBox.totalPadding.left + c.pageBox.totalPadding.right) mode [] 0 0 0 (room c.pageBox) g x := by
    intro mode x
    constructor
    · intro h
      have h' := draw_place (a' := 0) (b' := 0) (hj.imp (fun q => by omega) id) h
      rcases hn with e | e
      · rw [e] at h'; exact h'
      · exact draw_number e h'
    · intro h
      have h' := draw_place (a' := 0 + f.length) (b' := 0 + f.topCount (fun _ => true)) (hj.imp (fun q => by omega) id) h
      rcases hn with e | e
      · rw [e]; exact h'
      · exact draw_number e h'
  have hfoot : ∀ x, Draw u c 10 (c.pageBox.totalPadding.left + c.pageBox.totalPadding.right) .all [] 0 0 0 (room c.pageBox)
      (if c.linkPlacement = py"footer" then f else .nil) x ↔ x = [] := by
    intro x
    split
    · exact draw_none hl'
    · exact draw_none rfl
  have hfoot2 : (if c.linkPlacement = py"footer" then f else .nil).count (Mode.lists c .all) = 0 := by
    split
    · exact hl'
    · rfl
  have hsum : ((if c.linkPlacement = py"footer" then f.append g else .nil).count (Mode.lists c .all) = 0) ↔
      ((if c.linkPlacement = py"footer" then g else .nil).count (Mode.lists c .all) = 0) := by
    split
    · rw [count_append, hl', Nat.zero_add]
    · exact Iff.rfl
  have hall : ∀ x, Draw u c 10 (c.pageBox.totalPadding.left + c.pageBox.totalPadding.right) .all [] 0 0 0 (room c.pageBox)
      (if c.linkPlacement = py"footer" then f.append g else .nil) x ↔
      Draw u c 10 (c.pageBox.totalPadding.left + c.pageBox.totalPadding.right) .all [] 0 0 0 (room c.pageBox)
      (if c.linkPlacement = py"footer" then g else .nil) x := by
    intro x
    split
    · rw [draw_append]
      constructor
      · rintro ⟨x1, x2, rfl, h1, h2⟩
        rw [(draw_none hl').1 h1]
        exact move.1 h2
      · intro h
        exact ⟨[], x, rfl, (draw_none hl').2 rfl, move.2 h⟩
    · exact Iff.rfl
  constructor
  · rintro ⟨body, foot, _, rfl, h2, h3, rfl⟩
    obtain ⟨x1, x2, rfl, h4, h5⟩ := draw_append.1 h2
    refine ⟨x1, _, ⟨x1, [], _, rfl, h4, (hfoot _).2 rfl, ?_⟩, ⟨x2, foot, _, rfl, move.1 h5, (hall _).1 h3, rfl⟩, ?_⟩
    · rw [if_pos hfoot2]; simp
    · simp only [hsum, List.append_assoc]
  · rintro ⟨a, b, ⟨x1, foot1, _, rfl, h1, h2, rfl⟩, ⟨x2, foot2, _, rfl, h3, h4, rfl⟩, rfl⟩
    rw [(hfoot _).1 h2, if_pos hfoot2]
    refine ⟨x1 ++ x2, foot2, _, rfl, draw_append.2 ⟨x1, x2, rfl, h1, move.2 h3⟩, (hall _).2 h4, ?_⟩
    simp only [hsum, List.append_assoc, List.append_nil]

/-- What is done with the lines of the page. -/
def finish (c : Cfg) (s : Str) : Str :=
  if c.optimise then optimise (indentLines (List.replicate c.pageBox.margin.left.toNat ' ') true s)
  else indentLines (List.replicate c.pageBox.margin.left.toNat ' ') true s

theorem optimise_breaks (n : Nat) (x : Str) : optimise (newlines n ++ x) = newlines n ++ optimise x := by
  induction n with
  | zero => simp [newlines]
  | succ n ih =>
    have e : ∀ y, newlines (n + 1) ++ y = [] ++ '\n' :: (newlines n ++ y) := fun y => by simp [newlines, List.replicate_succ]
    rw [e, optimise_split, ih, e]
    rfl

theorem finish_page {c : Cfg} {page out text : Str} (hp : page = newlines c.pageBox.margin.top.toNat ++
      indentLines (List.replicate c.pageBox.margin.left.toNat ' ') true text ++ newlines c.pageBox.margin.bottom.toNat) :
    (if c.optimise then TrimmedLines page out else out = page) ↔
      out = newlines c.pageBox.margin.top.toNat ++ finish c text ++ newlines c.pageBox.margin.bottom.toNat := by
  subst hp
  unfold finish
  split
  · have e := optimise_breaks c.pageBox.margin.top.toNat (indentLines (List.replicate c.pageBox.margin.left.toNat ' ') true text ++
      newlines c.pageBox.margin.bottom.toNat)
    rw [optimise_newlines] at e
    constructor
    · intro h; rw [trimmed_unique h, List.append_assoc, e, List.append_assoc]
    · rintro rfl; rw [List.append_assoc, List.append_assoc, ← e]; exact trimmed_optimise _
  · exact Iff.rfl

theorem finish_line (c : Cfg) (a b : Str) : finish c (a ++ py"\n" ++ b) = finish c (a ++ py"\n") ++ finish c b := by
  unfold finish
  have e := indentLines_two (List.replicate c.pageBox.margin.left.toNat ' ') a [] true
  have e' := indentLines_two (List.replicate c.pageBox.margin.left.toNat ' ') a b true
  have e1 : a ++ py"\n" ++ b = a ++ '\n' :: b := by simp
  have e2 : a ++ py"\n" = a ++ '\n' :: [] := by simp
  rw [e1, e2, e, e']
  split
  · rw [optimise_split, optimise_split]; simp [indentLines, show optimise [] = [] from rfl]
  · simp [indentLines]

/-- Two documents one after the other look like the one and the other below it, between the margins of the page. -/
theorem C97 (u : Uni) (c : Cfg) (f g : Forest) (hf : f.WellFormed false) (hg : g.WellFormed false) (hr : c.renderers = [])
    (hl : c.linkRenderers = []) (hd : c.defaultRenderer = .cls .renderer)
    (h0 : c.outputFormat = py"gophermap" → c.linkPlacement ≠ py"inline" ∧ c.gopherHost ≠ [])
    (hfoot : f.count (linkAt c py"footer") = 0) (hn : f.count (numbered c) = 0 ∨ g.count (numbered c) = 0) (hj : Joins f g)
    (he : f.EndsInBlock ∨ c.optimise = false ∧ c.pageBox.margin.left ≤ 0) (out : Str) :
    renderEvents u c (f.events ++ g.events) = .ok out ↔ ∃ a b,
      renderEvents u c f.events = .ok (newlines c.pageBox.margin.top.toNat ++ a ++ newlines c.pageBox.margin.bottom.toNat) ∧
      renderEvents u c g.events = .ok (newlines c.pageBox.margin.top.toNat ++ b ++ newlines c.pageBox.margin.bottom.toNat) ∧
      out = newlines c.pageBox.margin.top.toNat ++ (a ++ b) ++ newlines c.pageBox.margin.bottom.toNat := by
  have key : ∀ (q : Forest), q.WellFormed false → ∀ out, renderEvents u c q.events = .ok out ↔ q.Readable u c False ∧
      q.HasRoom [] 0 (textRoom c.pageBox) ∧ ∃ text, Inside u c q text ∧
        out = newlines c.pageBox.margin.top.toNat ++ finish c text ++ newlines c.pageBox.margin.bottom.toNat := by
    intro q hq out
    rw [C91 u c q hq hr hl hd h0 out]
    constructor
    · rintro ⟨k1, k2, page, k3, k4⟩
      obtain ⟨text, k5, k6⟩ := pageOfTree_inside.1 k3
      exact ⟨k1, k2, text, k5, (finish_page k6).1 k4⟩
    · rintro ⟨k1, k2, text, k5, k4⟩
      exact ⟨k1, k2, _, pageOfTree_inside.2 ⟨text, k5, rfl⟩, (finish_page rfl).2 k4⟩
  have cut : ∀ {x y z : Str} {n m : Nat}, newlines n ++ x ++ newlines m = newlines n ++ y ++ newlines m → x = y := by
    intro x y z n m h
    simpa using h
  have glue : ∀ {s t}, Inside u c f s → finish c (s ++ t) = finish c s ++ finish c t := by
    intro s t hs
    rcases he with he | ⟨e1, e2⟩
    · obtain ⟨body, foot, _, rfl, k1, k2, rfl⟩ := hs
      have hfoot2 : (if c.linkPlacement = py"footer" then f else .nil).count (Mode.lists c .all) = 0 := by
        split
        · exact hfoot
        · rfl
      rw [(draw_none hfoot2).1 k2, if_pos hfoot2, List.append_nil, List.append_nil]
      by_cases hne : f = .nil
      · subst hne; cases k1; simp [finish, indentLines, show optimise [] = [] from rfl]
      · obtain ⟨z, rfl⟩ := draw_ends he hne k1
        exact finish_line c z t
    · have : c.pageBox.margin.left.toNat = 0 := by omega
      simp [finish, e1, this, indentLines_nil]
  rw [← events_append, key _ ((wellFormed_append f g false).2 ⟨hf, hg⟩), readable_append, hasRoom_append]
  simp only [key _ hf, key _ hg]
  constructor
  · rintro ⟨⟨k1, k2⟩, ⟨k3, k4⟩, text, k5, rfl⟩
    obtain ⟨s, t, k6, k7, rfl⟩ := (inside_append hfoot hn hj).1 k5
    refine ⟨finish c s, finish c t, ⟨k1, k3, s, k6, rfl⟩, ⟨k2, hasRoom_top _ _ _ _ k4, t, k7, rfl⟩, ?_⟩
    rw [glue k6]
  · rintro ⟨a, b, ⟨k1, k3, s, k6, e1⟩, ⟨k2, k4, t, k7, e2⟩, rfl⟩
    refine ⟨⟨k1, k2⟩, ⟨k3, hasRoom_top _ _ _ _ k4⟩, s ++ t, (inside_append hfoot hn hj).2 ⟨s, t, k6, k7, rfl⟩, ?_⟩
    rw [glue k6, ← cut (z := []) e1, ← cut (z := []) e2]

/-- The same for any number of documents. -/
theorem C97_all (u : Uni) (c : Cfg) (fs : List Forest) (hr : c.renderers = [])
    (hl : c.linkRenderers = []) (hd : c.defaultRenderer = .cls .renderer)
    (h0 : c.outputFormat = py"gophermap" → c.linkPlacement ≠ py"inline" ∧ c.gopherHost ≠ [])
    (hfs : ∀ f ∈ fs, f.WellFormed false ∧ f.count (numbered c) = 0 ∧ f.EndsInBlock ∧ f.firstTag ≠ some py"li" ∧ f.firstTag ≠ some py"dt")
    (out : Str) :
    renderEvents u c (fs.map Forest.events).flatten = .ok out ↔ ∃ parts : List (Forest × Str), parts.map Prod.fst = fs ∧
      (∀ q ∈ parts, renderEvents u c q.1.events =
        .ok (newlines c.pageBox.margin.top.toNat ++ q.2 ++ newlines c.pageBox.margin.bottom.toNat)) ∧
      out = newlines c.pageBox.margin.top.toNat ++ (parts.map Prod.snd).flatten ++ newlines c.pageBox.margin.bottom.toNat := by
  have none : ∀ out, renderEvents u c [] = .ok out ↔ out = newlines c.pageBox.margin.top.toNat ++ newlines c.pageBox.margin.bottom.toNat := by
    intro out
    have := C91 u c .nil trivial hr hl hd h0 out
    rw [show Forest.nil.events = [] from rfl] at this
    rw [this]
    have e : finish c [] = [] := by simp [finish, indentLines, show optimise [] = [] from rfl]
    have hin : ∀ text, Inside u c .nil text ↔ text = [] := by
      intro text
      constructor
      · rintro ⟨body, foot, g, rfl, k1, k2, rfl⟩
        cases k1
        rw [(draw_none (by split <;> rfl)).1 k2, if_pos (by split <;> rfl)]; rfl
      · rintro rfl
        exact ⟨[], [], _, rfl, .nil, (draw_none (by split <;> rfl)).2 rfl, by rw [if_pos (by split <;> rfl)]; rfl⟩
    constructor
    · rintro ⟨-, -, page, k3, k4⟩
      obtain ⟨text, k5, k6⟩ := pageOfTree_inside.1 k3
      rw [(finish_page k6).1 k4, (hin _).1 k5, e, List.append_nil]
    · rintro rfl
      refine ⟨trivial, trivial, _, pageOfTree_inside.2 ⟨[], (hin _).2 rfl, rfl⟩, (finish_page rfl).2 ?_⟩
      rw [e, List.append_nil]
  have tree : ∀ fs : List Forest, (∀ f ∈ fs, f.WellFormed false ∧ f.count (numbered c) = 0 ∧ f.EndsInBlock ∧ f.firstTag ≠ some py"li" ∧
      f.firstTag ≠ some py"dt") → ∃ g : Forest, g.WellFormed false ∧ g.firstTag ≠ some py"li" ∧ g.firstTag ≠ some py"dt" ∧
        g.events = (fs.map Forest.events).flatten := by
    intro fs hfs
    induction fs with
    | nil => exact ⟨.nil, trivial, by simp [Forest.firstTag], by simp [Forest.firstTag], rfl⟩
    | cons f fs ih =>
      obtain ⟨g, g1, g2, g3, g4⟩ := ih (fun q hq => hfs q (by simp [hq]))
      obtain ⟨f1, -, -, f2, f3⟩ := hfs f (by simp)
      have first : ∀ f : Forest, (f.append g).firstTag = f.firstTag ∨ (f.append g).firstTag = g.firstTag := by
        intro f
        induction f with
        | nil => exact .inr rfl
        | text s rest ih => exact ih
        | elem => exact .inl rfl
      refine ⟨f.append g, (wellFormed_append f g false).2 ⟨f1, g1⟩, ?_, ?_, by rw [events_append, g4]; rfl⟩
      · rcases first f with e | e <;> rw [e] <;> assumption
      · rcases first f with e | e <;> rw [e] <;> assumption
  induction fs generalizing out with
  | nil =>
    rw [show (List.map Forest.events []).flatten = [] from rfl, none]
    constructor
    · rintro rfl; exact ⟨[], rfl, by simp, by simp⟩
    · rintro ⟨parts, h1, -, rfl⟩; rw [List.map_eq_nil_iff.1 h1]; simp
  | cons f fs ih =>
    have hfs' : ∀ f ∈ fs, f.WellFormed false ∧ f.count (numbered c) = 0 ∧ f.EndsInBlock ∧ f.firstTag ≠ some py"li" ∧ f.firstTag ≠ some py"dt" :=
      fun q hq => hfs q (by simp [hq])
    obtain ⟨f1, f2, f3, -, -⟩ := hfs f (by simp)
    obtain ⟨g, g1, g2, g3, g4⟩ := tree fs hfs'
    have hfoot : f.count (linkAt c py"footer") = 0 := count_le (fun tag (h : Mode.lists c .all tag = true) => numbered_of_lists h) f2
    rw [List.map_cons, List.flatten_cons, ← g4, C97 u c f g f1 g1 hr hl hd h0 hfoot (.inl f2) (.inr ⟨g2, g3⟩) (.inl f3)]
    rw [g4]
    constructor
    · rintro ⟨a, b, h1, h2, rfl⟩
      obtain ⟨parts, p1, p2, p3⟩ := (ih hfs' _).1 h2
      have p3' : b = (parts.map Prod.snd).flatten := by simpa using p3
      subst p3'
      exact ⟨(f, a) :: parts, by simp [p1], List.forall_mem_cons.2 ⟨h1, p2⟩, by simp⟩
    · rintro ⟨parts, p1, p2, rfl⟩
      cases parts with
      | nil => simp at p1
      | cons q parts =>
        obtain ⟨q1, q2⟩ := q
        simp only [List.map_cons, List.cons.injEq] at p1
        obtain ⟨rfl, p1⟩ := p1
        exact ⟨q2, _, p2 (q1, q2) (by simp), (ih hfs' _).2 ⟨parts, p1, fun q hq => p2 q (by simp [hq]), rfl⟩, by simp⟩

/-- The same for the sources of documents. -/
theorem C97_source (u : Uni) (c : Cfg) (doc doc' : List Item) (hd1 : DocOk u.entity u.lower doc) (hd2 : DocOk u.entity u.lower doc')
    (hd3 : DocOk u.entity u.lower (doc ++ doc')) (f g : Forest) (h1 : Denotes (docEvents u.lower doc) f)
    (h2 : Denotes (docEvents u.lower doc') g) (h3 : Denotes (docEvents u.lower (doc ++ doc')) (f.append g))
    (hf : f.WellFormed false) (hg : g.WellFormed false) (hr : c.renderers = [])
    (hl : c.linkRenderers = []) (hd : c.defaultRenderer = .cls .renderer)
    (h0 : c.outputFormat = py"gophermap" → c.linkPlacement ≠ py"inline" ∧ c.gopherHost ≠ [])
    (hfoot : f.count (linkAt c py"footer") = 0) (hn : f.count (numbered c) = 0 ∨ g.count (numbered c) = 0) (hj : Joins f g)
    (he : f.EndsInBlock ∨ c.optimise = false ∧ c.pageBox.margin.left ≤ 0) (out : Str) :
    renderHtml u c [docSrc (doc ++ doc')] = .ok out ↔ ∃ a b,
      renderHtml u c [docSrc doc] = .ok (newlines c.pageBox.margin.top.toNat ++ a ++ newlines c.pageBox.margin.bottom.toNat) ∧
      renderHtml u c [docSrc doc'] = .ok (newlines c.pageBox.margin.top.toNat ++ b ++ newlines c.pageBox.margin.bottom.toNat) ∧
      out = newlines c.pageBox.margin.top.toNat ++ (a ++ b) ++ newlines c.pageBox.margin.bottom.toNat := by
  rw [(C68 u c _ hd1).2.2, (C68 u c _ hd2).2.2, (C68 u c _ hd3).2.2, renderEvents_denotes u c h1, renderEvents_denotes u c h2,
    renderEvents_denotes u c h3, events_append]
  exact C97 u c f g hf hg hr hl hd h0 hfoot hn hj he out

/-- A paragraph, -/
def c97P (s : Str) : Forest := .elem py"p" [] (.text s .nil) .nil

/-- a paragraph with a link, -/
def c97A (s : Str) : Forest := .elem py"p" [] (.elem py"a" [(py"href", some s)] (.text s .nil) .nil) .nil

/-- a list item, -/
def c97L (s : Str) : Forest := .elem py"li" [] (.text s .nil) .nil

/-- and a page with margins. -/
def c97Cfg : Cfg := { box := some (Box.new 20 ⟨1, 0, 1, 2⟩ {} {} none none) }

/-- A paragraph, and one with a link. -/
example : ∃ a b, renderEvents asciiUni c97Cfg (c97P py"a").events = .ok (py"\n" ++ a ++ py"\n") ∧
    renderEvents asciiUni c97Cfg (c97A py"b").events = .ok (py"\n" ++ b ++ py"\n") ∧
    py"\n\n  a\n\n  [b][1]\n\n\n  [1] b: b\n" = py"\n" ++ (a ++ b) ++ py"\n" :=
  (C97 asciiUni c97Cfg (c97P py"a") (c97A py"b") (by simp [c97P, Forest.WellFormed, VoidTag]) (by simp [c97A, Forest.WellFormed, VoidTag])
    rfl rfl rfl (fun h => by cases h) rfl (.inl rfl) (.inr (by decide)) (.inl (by simp [c97P, Forest.EndsInBlock, blockTags])) _).1
    (by decide +kernel)

/-- Without the conditions: the links of both are counted on, the list of the links of the first comes after the second, an item that is
not the first element begins a line, and a text goes on the line that is there. -/
theorem C97_fails :
    (renderEvents asciiUni { linkPlacement := py"after_block" } (c97A py"a").events = .ok py"\n[a][1]\n\n[1] a: a\n" ∧
      renderEvents asciiUni { linkPlacement := py"after_block" } (c97A py"b").events = .ok py"\n[b][1]\n\n[1] b: b\n" ∧
      renderEvents asciiUni { linkPlacement := py"after_block" } ((c97A py"a").events ++ (c97A py"b").events) =
        .ok py"\n[a][1]\n\n[1] a: a\n\n[b][2]\n\n[2] b: b\n") ∧
    (renderEvents asciiUni {} (c97A py"a").events = .ok py"\n[a][1]\n\n\n[1] a: a" ∧
      renderEvents asciiUni {} (c97P py"b").events = .ok py"\nb\n" ∧
      renderEvents asciiUni {} ((c97A py"a").events ++ (c97P py"b").events) = .ok py"\n[a][1]\n\nb\n\n\n[1] a: a") ∧
    (renderEvents asciiUni {} (c97L py"a").events = .ok py"* a" ∧ renderEvents asciiUni {} (c97L py"b").events = .ok py"* b" ∧
      renderEvents asciiUni {} ((c97L py"a").events ++ (c97L py"b").events) = .ok py"* a\n* b") ∧
    (renderEvents asciiUni c97Cfg [.data py"a"] = .ok py"\n  a\n" ∧ renderEvents asciiUni c97Cfg [.data py"b"] = .ok py"\n  b\n" ∧
      renderEvents asciiUni c97Cfg [.data py"a", .data py"b"] = .ok py"\n  ab\n") := by decide +kernel

end Verif
