import Verif.Spec.Tidy
import Verif.Props.TreePage
import Verif.Props.Footer
import Verif.Props.Spacing

/-!
# C92: blanks between blocks
-/

namespace Verif

open Spec

/-! ## Texts that differ in blank lines -/

/-- A line of whitespace. -/
def Void (s : Str) : Prop := Blank s ∧ '\n' ∉ s

theorem void_nil : Void [] := ⟨by simp [Blank], by simp⟩

theorem void_append {a b : Str} (ha : Void a) (hb : Void b) : Void (a ++ b) :=
  ⟨fun c hc => (List.mem_append.1 hc).elim (ha.1 c) (hb.1 c), fun hc => (List.mem_append.1 hc).elim ha.2 hb.2⟩

/-- Two texts with the same lines, but for the whitespace in empty lines. They begin and end with empty lines. -/
inductive SameRows : Str → Str → Prop where
  | void {a b} : Void a → Void b → SameRows a b
  | rows {a b x y} (t : Str) : Void a → Void b → SameRows x y → SameRows (a ++ '\n' :: (t ++ '\n' :: x)) (b ++ '\n' :: (t ++ '\n' :: y))
  | empty {a b x y} : Void a → Void b → SameRows x y → SameRows (a ++ '\n' :: x) (b ++ '\n' :: y)

theorem SameRows.before {a b x y : Str} (ha : Void a) (hb : Void b) (h : SameRows x y) : SameRows (a ++ x) (b ++ y) := by
  cases h with
  | void h1 h2 => exact .void (void_append ha h1) (void_append hb h2)
  | rows t h1 h2 h => simpa using SameRows.rows t (void_append ha h1) (void_append hb h2) h
  | empty h1 h2 h => simpa using SameRows.empty (void_append ha h1) (void_append hb h2) h

theorem SameRows.append {x y x' y' : Str} (h : SameRows x y) (h' : SameRows x' y') : SameRows (x ++ x') (y ++ y') := by
  induction h with
  | void h1 h2 => exact h'.before h1 h2
  | rows t h1 h2 _ ih => simpa using SameRows.rows t h1 h2 ih
  | empty h1 h2 _ ih => simpa using SameRows.empty h1 h2 ih

theorem padLines_two (w : Int) (a b : Str) : padLines w (a ++ '\n' :: b) = padLines w a ++ '\n' :: padLines w b := by
  unfold padLines
  rw [splitCh_two, List.map_append, show py"\n" = ['\n'] from rfl, join_append]
  · simp
  · simp [splitCh_ne_nil]
  · simp [splitCh_ne_nil]

theorem padLines_void {w : Int} {a : Str} (h : Void a) : Void (padLines w a) := by
  have e : padLines w a = padTo w a := by
    unfold padLines
    rw [splitCh_none _ _ h.2]
    simp [join]
  rw [e]
  refine void_append h ⟨blank_spaces _, fun hc => ?_⟩
  have := List.eq_of_mem_replicate hc
  revert this; decide

theorem SameRows.padLines {w : Int} {x y : Str} (h : SameRows x y) : SameRows (padLines w x) (padLines w y) := by
  induction h with
  | void h1 h2 => exact .void (padLines_void h1) (padLines_void h2)
  | rows t h1 h2 _ ih =>
    rw [padLines_two, padLines_two, padLines_two, padLines_two]
    exact .rows _ (padLines_void h1) (padLines_void h2) ih
  | empty h1 h2 _ ih =>
    rw [padLines_two, padLines_two]
    exact .empty (padLines_void h1) (padLines_void h2) ih

/-- A text that is followed by a line feed, moved to the right. -/
def indentBefore (pad : Str) : (start : Bool) → Str → Str
  | start, [] => if start then pad else []
  | start, c :: r => (if start then pad else []) ++
      c :: indentBefore pad (isLineBreak c && !(c == '\r' && (r ++ py"\n").head? == some '\n')) r

theorem indentLines_two (pad : Str) (a b : Str) (st : Bool) :
    indentLines pad st (a ++ '\n' :: b) = indentBefore pad st a ++ '\n' :: indentLines pad true b := by
  induction a generalizing st with
  | nil => simp [indentLines, indentBefore, show isLineBreak '\n' = true by decide]
  | cons c a ih =>
    simp only [List.cons_append, indentLines, indentBefore, ih, List.append_assoc]
    congr 5
    cases a <;> simp

theorem indentBefore_two (pad : Str) (a b : Str) (st : Bool) :
    indentBefore pad st (a ++ '\n' :: b) = indentBefore pad st a ++ '\n' :: indentBefore pad true b := by
  induction a generalizing st with
  | nil => simp [indentBefore, show isLineBreak '\n' = true by decide]
  | cons c a ih =>
    simp only [List.cons_append, indentBefore, ih, List.append_assoc]
    congr 5
    cases a <;> simp

theorem indentBefore_void {pad a : Str} (hp : Void pad) (h : Void a) (st : Bool) : Void (indentBefore pad st a) := by
  have hp' : ∀ st : Bool, Void (if st then pad else []) := fun st => by cases st <;> simp [hp, void_nil]
  induction a generalizing st with
  | nil => exact hp' st
  | cons c a ih =>
    rw [indentBefore]
    have h1 : Void [c] := ⟨fun x hx => h.1 x (by simp at hx; simp [hx]), fun hx => h.2 (by simp at hx; simp [← hx])⟩
    have h2 : Void a := ⟨fun x hx => h.1 x (by simp [hx]), fun hx => h.2 (by simp [hx])⟩
    have := void_append (hp' st) (void_append h1 (ih h2 (isLineBreak c && !(c == '\r' && (a ++ py"\n").head? == some '\n'))))
    simpa using this

theorem indentLines_void {pad a : Str} (hp : Void pad) (h : Void a) (st : Bool) : Void (indentLines pad st a) := by
  have hp' : ∀ st : Bool, Void (if st then pad else []) := fun st => by cases st <;> simp [hp, void_nil]
  induction a generalizing st with
  | nil => exact void_nil
  | cons c a ih =>
    rw [indentLines]
    have h1 : Void [c] := ⟨fun x hx => h.1 x (by simp at hx; simp [hx]), fun hx => h.2 (by simp at hx; simp [← hx])⟩
    have h2 : Void a := ⟨fun x hx => h.1 x (by simp [hx]), fun hx => h.2 (by simp [hx])⟩
    have := void_append (hp' st) (void_append h1 (ih h2 (isLineBreak c && !(c == '\r' && a.head? == some '\n'))))
    simpa using this

theorem SameRows.indentBefore {pad x y : Str} (hp : Void pad) (h : SameRows x y) (st : Bool) :
    SameRows (indentBefore pad st x) (indentBefore pad st y) := by
  induction h generalizing st with
  | void h1 h2 => exact .void (indentBefore_void hp h1 st) (indentBefore_void hp h2 st)
  | rows t h1 h2 _ ih =>
    rw [indentBefore_two, indentBefore_two, indentBefore_two, indentBefore_two]
    exact .rows _ (indentBefore_void hp h1 st) (indentBefore_void hp h2 st) (ih true)
  | empty h1 h2 _ ih =>
    rw [indentBefore_two, indentBefore_two]
    exact .empty (indentBefore_void hp h1 st) (indentBefore_void hp h2 st) (ih true)

theorem SameRows.indentLines {pad x y : Str} (hp : Void pad) (h : SameRows x y) (st : Bool) :
    SameRows (indentLines pad st x) (indentLines pad st y) := by
  induction h generalizing st with
  | void h1 h2 => exact .void (indentLines_void hp h1 st) (indentLines_void hp h2 st)
  | rows t h1 h2 _ ih =>
    rw [indentLines_two, indentLines_two, indentLines_two, indentLines_two]
    exact .rows _ (indentBefore_void hp h1 st) (indentBefore_void hp h2 st) (ih true)
  | empty h1 h2 _ ih =>
    rw [indentLines_two, indentLines_two]
    exact .empty (indentBefore_void hp h1 st) (indentBefore_void hp h2 st) (ih true)

theorem optimise_void {a : Str} (h : Void a) : optimise a = [] := by
  unfold optimise
  rw [splitCh_none _ _ h.2]
  have := rstrip_blank_end [] a h.1
  simp only [List.nil_append] at this
  simp [join, this, show rstrip [] = [] from rfl]

theorem SameRows.optimise {x y : Str} (h : SameRows x y) : optimise x = optimise y := by
  induction h with
  | void h1 h2 => rw [optimise_void h1, optimise_void h2]
  | rows t h1 h2 _ ih => rw [optimise_split, optimise_split, optimise_split, optimise_split, optimise_void h1, optimise_void h2, ih]
  | empty h1 h2 _ ih => rw [optimise_split, optimise_split, optimise_void h1, optimise_void h2, ih]

theorem optimise_above (n : Nat) (x : Str) : optimise (newlines n ++ x) = newlines n ++ optimise x := by
  induction n with
  | zero => simp [newlines]
  | succ n ih =>
    have e : ∀ z, newlines (n + 1) ++ z = [] ++ '\n' :: (newlines n ++ z) := fun z => by simp [newlines, List.replicate_succ]
    rw [e, e, optimise_split, ih, optimise_void void_nil]

/-- The page around two such texts, with the same list of links. -/
theorem page_same {pad x y : Str} (hp : Void pad) (h : SameRows x y) {g : Str} (hg : g = [] ∨ ∃ l, g = '\n' :: l) (top bottom : Nat) :
    optimise (newlines top ++ indentLines pad true (x ++ g) ++ newlines bottom) =
      optimise (newlines top ++ indentLines pad true (y ++ g) ++ newlines bottom) := by
  rw [optimise_newlines, optimise_newlines, optimise_above, optimise_above]
  congr 2
  rcases hg with rfl | ⟨l, rfl⟩
  · simpa using (h.indentLines hp true).optimise
  · rw [indentLines_two, indentLines_two, optimise_split, optimise_split, (h.indentBefore hp true).optimise]

theorem kept_void {s : Str} (h : Blank s) : Void (normaliseData false s) := by
  obtain ⟨n, kept, -, h1, -, h2, h3, h4, -⟩ := C27 {} s rfl
  have e : kept = normaliseData false s := by
    simp [handleData, dataParent, getTop, Dom.addChild] at h1
    subst h1
    simpa [newData] using h2.symm
  subst e
  refine ⟨?_, h4⟩
  have hw := (h3 []).2 (.done h)
  generalize normaliseData false s = t at hw
  cases hw with
  | done hb => exact hb

/-! ## The two documents -/

theorem container_not {tag : Str} (h : Container tag) : tag ≠ py"pre" ∧ tag ≠ py"blockquote" ∧ tag ≠ py"p" ∧ tag ≠ py"li" ∧ tag ≠ py"dd" ∧
    tag ≠ py"a" ∧ tag ≠ py"img" ∧ tag ≠ py"br" := by
  rcases h with rfl | h
  · decide
  · refine ⟨?_, ?_, ?_, ?_, ?_, ?_, ?_, ?_⟩ <;> (rintro rfl; revert h; unfold Unstyled; decide)

theorem block_not {tag : Str} (h : tag ∈ blockTags) : tag ≠ py"li" ∧ tag ≠ py"a" ∧ tag ≠ py"img" := by
  revert tag; decide

theorem linkAt_none {c : Cfg} {place tag : Str} (h1 : tag ≠ py"a") (h2 : tag ≠ py"img") : linkAt c place tag = false := by
  simp [linkAt, h1, h2]

theorem Spec.SameBlocks.count {f f' : Forest} (h : SameBlocks f f') (p : Str → Bool) : f.count p = f'.count p ∧ f.topCount p = f'.topCount p := by
  induction h with
  | nil => exact ⟨rfl, rfl⟩
  | blankLeft _ _ ih => exact ih
  | blankRight _ _ ih => exact ih
  | block _ _ ih => simp only [Forest.count, Forest.topCount, ih.1, ih.2, and_self]
  | container _ _ _ ih1 ih2 => simp only [Forest.count, Forest.topCount, ih1.1, ih2.1, ih2.2, and_self]

/-- No link is directly between blocks. -/
theorem Spec.SameBlocks.near {f f' : Forest} (h : SameBlocks f f') (c : Cfg) : f.topCount (Mode.lists c .near) = 0 := by
  induction h with
  | nil => rfl
  | blankLeft _ _ ih => exact ih
  | blankRight _ _ ih => exact ih
  | block hb _ ih => simp [Forest.topCount, Mode.lists, linkAt_none (block_not hb).2.1 (block_not hb).2.2] at ih ⊢; exact ih
  | container hc _ _ _ ih =>
    have := container_not hc
    simp [Forest.topCount, Mode.lists, linkAt_none this.2.2.2.2.2.1 this.2.2.2.2.2.2.1] at ih ⊢; exact ih

theorem Spec.SameBlocks.symm {f f' : Forest} (h : SameBlocks f f') : SameBlocks f' f := by
  induction h with
  | nil => exact .nil
  | blankLeft hs _ ih => exact .blankRight hs ih
  | blankRight hs _ ih => exact .blankLeft hs ih
  | block hb _ ih => exact .block hb ih
  | container hc _ _ ih1 ih2 => exact .container hc ih1 ih2

theorem Spec.SameBlocks.wellFormed {f f' : Forest} (h : SameBlocks f f') (pre : Bool) (hw : f.WellFormed pre) : f'.WellFormed pre := by
  induction h generalizing pre with
  | nil => trivial
  | blankLeft hs _ ih => exact ih _ hw
  | blankRight hs _ ih => exact ih _ hw
  | block hb _ ih => exact ⟨hw.1, hw.2.1, hw.2.2.1, ih _ hw.2.2.2⟩
  | container hc _ _ ih1 ih2 =>
    have hn := container_not hc
    refine ⟨fun hv => ?_, hw.2.1, ih1 _ hw.2.2.1, ih2 _ hw.2.2.2⟩
    rcases hv with rfl | rfl
    · exact absurd rfl hn.2.2.2.2.2.2.2
    · exact absurd rfl hn.2.2.2.2.2.2.1

theorem Spec.SameBlocks.readable {u : Uni} {c : Cfg} {f f' : Forest} (h : SameBlocks f f') (inside : Prop) (hw : f.Readable u c inside) :
    f'.Readable u c inside := by
  induction h generalizing inside with
  | nil => trivial
  | blankLeft hs _ ih => exact ih _ hw
  | blankRight hs _ ih => exact ih _ hw
  | block hb _ ih => exact ⟨hw.1, hw.2.1, ih _ hw.2.2⟩
  | container hc _ _ ih1 ih2 => exact ⟨hw.1, ih1 _ hw.2.1, ih2 _ hw.2.2⟩

theorem marker_nodes {tag : Str} (h : tag ≠ py"li") (up : List Str) (a a' b b' l l' : Nat) :
    Place.marker ⟨up, a, b, l⟩ tag = Place.marker ⟨up, a', b', l'⟩ tag := by
  simp [Place.marker, h]

theorem Spec.SameBlocks.hasRoom {f f' : Forest} (h : SameBlocks f f') (up : List Str) (a a' : Nat) (w : Int) (hw : f.HasRoom up a w) :
    f'.HasRoom up a' w := by
  induction h generalizing up a a' w with
  | nil => trivial
  | blankLeft hs _ ih => exact ih _ _ _ _ hw
  | blankRight hs _ ih => exact ih _ _ _ _ hw
  | block hb _ ih =>
    have e := marker_nodes (block_not hb).1 up a a' 0 0 0 0
    obtain ⟨h1, h2, h3⟩ := hw
    rw [e] at h1 h2
    exact ⟨h1, h2, ih _ _ _ _ h3⟩
  | container hc _ _ ih1 ih2 =>
    have hn := container_not hc
    have e := marker_nodes hn.2.2.2.1 up a a' 0 0 0 0
    obtain ⟨h1, h2, h3⟩ := hw
    rw [e] at h1 h2
    exact ⟨fun hx => by rcases hx with ⟨q, -⟩ | q | q <;> simp_all, ih1 _ _ _ _ h2, ih2 _ _ _ _ h3⟩

/-- The lists of links are the same. -/
theorem Spec.SameBlocks.links {u : Uni} {c : Cfg} {limit : Nat} {p : Int} {mode : Mode} {f f' : Forest} (h : SameBlocks f f') (hm : mode ≠ .page)
    {up : List Str} {a b k : Nat} {r : Int} {x : Str} (a' : Nat) (hd : Draw u c limit p mode up a b k r f x) :
    Draw u c limit p mode up a' b k r f' x := by
  have key : ∀ tag : Str, tag ≠ py"a" → tag ≠ py"img" → mode.lists c tag = false := by
    intro tag h1 h2
    cases mode <;> simp [Mode.lists, linkAt_none h1 h2]
  induction h generalizing up a b k r x a' with
  | nil => cases hd; exact .nil
  | blankLeft hs _ ih =>
    cases hd with
    | text => exact absurd rfl hm
    | skipText _ hd => exact ih _ hd
  | blankRight hs _ ih => exact .skipText hm (ih _ hd)
  | block hb _ ih =>
    have hn := block_not hb
    cases hd with
    | elem => exact absurd rfl hm
    | entry _ h2 => rw [key _ hn.2.1 hn.2.2] at h2; cases h2
    | skipElem h1 h2 h3 h4 h5 => exact .skipElem h1 h2 h3 h4 (ih _ h5)
  | container hc hk _ ih1 ih2 =>
    have hn := container_not hc
    cases hd with
    | elem => exact absurd rfl hm
    | entry _ h2 => rw [key _ hn.2.2.2.2.2.1 hn.2.2.2.2.2.2.1] at h2; cases h2
    | skipElem h1 h2 h3 h4 h5 =>
      rw [(hk.count _).1] at h5
      refine .skipElem h1 h2 h3 ?_ (ih2 _ h5)
      by_cases hall : mode = .all
      · rw [if_pos hall] at h4 ⊢
        exact ih1 _ h4
      · rw [if_neg hall] at h4 ⊢
        exact h4

theorem Spec.SameBlocks.drawNear {u : Uni} {c : Cfg} {limit : Nat} {p : Int} {f f' : Forest} (h : SameBlocks f f')
    {up : List Str} {a b k : Nat} {r : Int} {x : Str} (hd : Draw u c limit p .near up a b k r f x) : x = [] := by
  induction h generalizing up a b k r x with
  | nil => cases hd; rfl
  | blankLeft hs _ ih =>
    cases hd with
    | skipText _ hd => exact ih hd
  | blankRight hs _ ih => exact ih hd
  | block hb _ ih =>
    have hn := block_not hb
    cases hd with
    | entry _ h2 => simp [Mode.lists, linkAt_none hn.2.1 hn.2.2] at h2
    | skipElem h1 h2 h3 h4 h5 => cases h4; exact ih h5
  | container hc hk _ ih1 ih2 =>
    have hn := container_not hc
    cases hd with
    | entry _ h2 => simp [Mode.lists, linkAt_none hn.2.2.2.2.2.1 hn.2.2.2.2.2.2.1] at h2
    | skipElem h1 h2 h3 h4 h5 => cases h4; exact ih2 h5

theorem painted_nodes {u : Uni} {c : Cfg} {p r : Int} {up : List Str} {a b l m : Nat} {attrs : List (Str × Option Str)} {kids : Forest}
    {tag : Str} {inner : Int} {y x : Str} (ht : tag ≠ py"li") (h : Painted u c p r ⟨up, a, b, l⟩ m attrs kids tag inner y x) (a' : Nat) :
    Painted u c p r ⟨up, a', b, l⟩ m attrs kids tag inner y x := by
  cases h with
  | marked h => exact .marked h
  | br => exact .br
  | code h1 h2 => exact .code h1 h2
  | fence h1 h2 => exact .fence h1 h2
  | codeInPre h => exact .codeInPre h
  | reference h => exact .reference h
  | link h => exact .link h
  | imageReference h => exact .imageReference h
  | image h => exact .image h
  | header h => exact .header h
  | pre h => exact .pre h
  | quote h => exact .quote h
  | list h => exact .list h
  | div => exact .div
  | term => exact .term (pl := ⟨up, a', b, l⟩)
  | item => exact absurd rfl ht
  | description h => exact .description h
  | paragraph h1 h2 h3 h4 => exact .paragraph (pl := ⟨up, a', b, l⟩) h1 h2 h3 h4
  | codeParagraph h => exact .codeParagraph (pl := ⟨up, a', b, l⟩) h
  | other h => exact .other h

/-- A block between blocks begins and ends with a line feed. -/
theorem painted_block {u : Uni} {c : Cfg} {p r : Int} {up : List Str} {a b l m : Nat} {attrs : List (Str × Option Str)} {kids : Forest}
    {tag : Str} {inner : Int} {y x : Str} (hup : ∀ t ∈ up, Container t) (ht : tag ∈ blockTags)
    (h : Painted u c p r ⟨up, a, b, l⟩ m attrs kids tag inner y x) : ∃ t, x = '\n' :: (t ++ py"\n") := by
  have hs : Place.paragraphSpace ⟨up, a, b, l⟩ = (1, 1) := by
    unfold Place.paragraphSpace
    rw [if_neg]
    intro hq
    cases up with
    | nil => simp at hq
    | cons t up => exact (container_not (hup t (by simp))).2.1 (by simpa using hq)
  cases h with
  | marked h =>
    have : ∀ q ∈ markers, q.1 ∉ blockTags := by decide
    exact absurd ht (this _ h)
  | br => exact absurd ht (by decide)
  | code h1 h2 => exact absurd ht (by decide)
  | fence h1 h2 => exact absurd ht (by decide)
  | codeInPre h => exact absurd ht (by decide)
  | reference h => exact absurd ht (by decide)
  | link h => exact absurd ht (by decide)
  | imageReference h => exact absurd ht (by decide)
  | image h => exact absurd ht (by decide)
  | header h => exact ⟨_, rfl⟩
  | pre h => exact ⟨_, rfl⟩
  | quote h => exact ⟨_, rfl⟩
  | list h => exact ⟨_, rfl⟩
  | div => exact absurd ht (by decide)
  | term => exact absurd ht (by decide)
  | item => exact absurd ht (by decide)
  | description h => exact absurd ht (by decide)
  | paragraph h1 h2 h3 h4 => rw [hs]; exact ⟨_, rfl⟩
  | codeParagraph h => rw [hs]; exact ⟨_, rfl⟩
  | other h =>
    exfalso
    revert h
    unfold Unstyled
    revert tag
    decide

theorem painted_container {u : Uni} {c : Cfg} {p r : Int} {pl : Place} {m : Nat} {attrs : List (Str × Option Str)} {kids : Forest}
    {tag : Str} {inner : Int} {y x : Str} (ht : Container tag) (h : Painted u c p r pl m attrs kids tag inner y x) :
    inner = r ∧ (x = y ∧ (∀ kids' pl' y', Painted u c p r pl' m attrs kids' tag r y' y') ∨
      x = padLines r y ∧ (∀ kids' pl' y', Painted u c p r pl' m attrs kids' tag r y' (padLines r y'))) := by
  rcases ht with rfl | ht
  · cases h with
    | marked h =>
      have : ∀ q ∈ markers, q.1 ≠ py"div" := by decide
      exact absurd rfl (this _ h)
    | header h =>
      have : ∀ q ∈ headerLevels, q.1 ≠ py"div" := by decide
      exact absurd rfl (this _ h)
    | list h => exact absurd h (by decide)
    | div => exact ⟨rfl, .inr ⟨rfl, fun _ _ _ => .div⟩⟩
    | other h => exact absurd h (by unfold Unstyled; decide)
  · have key : ∀ t, t ∈ plainStyle.map Prod.fst ∨ t ∈ [py"p", py"li", py"dt"] → tag ≠ t := by
      rintro t h rfl
      exact h.elim ht.1 ht.2
    suffices hx : inner = r ∧ x = y from ⟨hx.1, .inl ⟨hx.2, fun _ _ _ => .other ht⟩⟩
    cases h with
    | marked h =>
      have : ∀ q ∈ markers, q.1 ∈ plainStyle.map Prod.fst := by decide
      exact absurd rfl (key _ (.inl (this _ h)))
    | header h =>
      have : ∀ q ∈ headerLevels, q.1 ∈ plainStyle.map Prod.fst := by decide
      exact absurd rfl (key _ (.inl (this _ h)))
    | list h =>
      have : ∀ q ∈ [py"ul", py"ol", py"dl"], q ∈ plainStyle.map Prod.fst := by decide
      exact absurd rfl (key _ (.inl (this _ h)))
    | other => exact ⟨rfl, rfl⟩
    | _ => exact absurd rfl (key _ (by decide))

/-- The pages are the same but for blank lines. -/
theorem Spec.SameBlocks.draw {u : Uni} {c : Cfg} {limit : Nat} {p : Int} {f f' : Forest} (h : SameBlocks f f')
    {up : List Str} (hup : ∀ t ∈ up, Container t) {a b k : Nat} {r : Int} {x : Str} (a' : Nat)
    (hd : Draw u c limit p .page up a b k r f x) : ∃ x', Draw u c limit p .page up a' b k r f' x' ∧ SameRows x x' := by
  have hpre : ∀ up : List Str, (∀ t ∈ up, Container t) → decide (py"pre" ∈ up) = false := by
    intro up hup
    simp only [decide_eq_false_iff_not]
    exact fun hp => (container_not (hup _ hp)).1 rfl
  induction h generalizing up a b k r x a' with
  | nil => cases hd; exact ⟨[], .nil, .void void_nil void_nil⟩
  | blankLeft hs _ ih =>
    cases hd with
    | text hd =>
      obtain ⟨x', h1, h2⟩ := ih hup a' hd
      rw [hpre up hup]
      exact ⟨x', h1, by simpa using h2.before (kept_void hs) void_nil⟩
    | skipText hm => exact absurd rfl hm
  | blankRight hs _ ih =>
    obtain ⟨x', h1, h2⟩ := ih hup (a' + 1) hd
    refine ⟨_, .text h1, ?_⟩
    rw [hpre up hup]
    simpa using h2.before void_nil (kept_void hs)
  | block hb hr ih =>
    cases hd with
    | elem e1 d1 e2 d2 hp d3 =>
      obtain ⟨x', h1, h2⟩ := ih hup (a' + 1) d3
      obtain ⟨t, rfl⟩ := painted_block hup hb hp
      rw [(hr.count _).2] at hp
      refine ⟨_, .elem e1 d1 e2 d2 (painted_nodes (block_not hb).1 hp a') h1, ?_⟩
      have := SameRows.rows t void_nil void_nil h2
      simpa using this
    | skipElem hm => exact absurd rfl hm
    | entry hm => exact absurd rfl hm
  | @container tag attrs kids kids' rest rest' hc hk hr ih1 ih2 =>
    have hn := container_not hc
    cases hd with
    | @elem _ _ _ _ _ inner _ _ _ _ y z x w k' own e1 d1 e2 d2 hp d3 =>
      have e3 : linkAt c py"inline" tag = false := linkAt_none hn.2.2.2.2.2.1 hn.2.2.2.2.2.2.1
      rw [e3] at e2
      simp only [Bool.false_eq_true, if_false] at e2
      subst e2
      obtain ⟨y', g1, g2⟩ := ih1 (up := tag :: up) (fun t ht => (List.mem_cons.1 ht).elim (fun q => q ▸ hc) (hup t)) 0 d1
      rw [(hk.count _).1] at d3
      obtain ⟨x', h1, h2⟩ := ih2 hup (a' + 1) d3
      have d2' := hk.links (by decide) 0 d2
      have hz := hk.drawNear d2
      subst hz
      rw [if_pos (hk.near c)] at hp
      simp only [List.append_nil] at hp
      have hn' := hk.symm.near c
      obtain ⟨rfl, ⟨rfl, q⟩ | ⟨rfl, q⟩⟩ := painted_container hc hp
      · refine ⟨_, .elem e1 g1 (by rw [e3]; rfl) d2' (x := y') ?_ h1, g2.append h2⟩
        rw [if_pos hn']
        simpa using q _ _ _
      · refine ⟨_, .elem e1 g1 (by rw [e3]; rfl) d2' (x := padLines inner y') ?_ h1, g2.padLines.append h2⟩
        rw [if_pos hn']
        simpa using q _ _ _
    | skipElem hm => exact absurd rfl hm
    | entry hm => exact absurd rfl hm

theorem drawAll_none {u : Uni} {c : Cfg} {limit : Nat} {p : Int} {mode : Mode} {f : Forest} {up : List Str} {a b k : Nat} {r : Int} {x : Str}
    (hd : Draw u c limit p mode up a b k r f x) (hm : mode = .all) (h0 : f.count (Mode.lists c .all) = 0) : x = [] := by
  induction hd with
  | nil => rfl
  | text => cases hm
  | elem => cases hm
  | skipText _ _ ih => exact ih hm h0
  | entry _ h2 => subst hm; simp [Forest.count, h2] at h0
  | skipElem _ _ _ _ _ ih1 ih2 =>
    subst hm
    simp only [Forest.count, Nat.add_eq_zero_iff] at h0
    rw [ih1 rfl h0.1.2, ih2 rfl h0.2]; rfl

theorem Spec.SameBlocks.page {u : Uni} {c : Cfg} {limit : Nat} {f f' : Forest} (h : SameBlocks f f') {page : Str}
    (hp : PageOfTree u c f limit page) : ∃ page', PageOfTree u c f' limit page' ∧ optimise page = optimise page' := by
  obtain ⟨body, foot, g, rfl, h1, h2, rfl⟩ := hp
  obtain ⟨body', h3, h4⟩ := h.draw (by simp) 0 h1
  have hpad : Void (List.replicate c.pageBox.margin.left.toNat ' ') := by
    refine ⟨blank_spaces _, fun hc => ?_⟩
    have := List.eq_of_mem_replicate hc
    revert this; decide
  by_cases hf : c.linkPlacement = py"footer"
  · simp only [if_pos hf] at h2 ⊢
    have h2' := h.links (by decide) 0 h2
    refine ⟨_, ⟨body', foot, _, rfl, h3, by rw [if_pos hf]; exact h2', rfl⟩, ?_⟩
    simp only [if_pos hf, List.append_assoc, (h.count _).1]
    have := page_same hpad h4 (g := (if f'.count (Mode.lists c .all) = 0 then [] else py"\n") ++ foot) ?_ c.pageBox.margin.top.toNat
      c.pageBox.margin.bottom.toNat
    · simpa using this
    · split
      · rename_i h0
        exact .inl (by rw [drawAll_none h2' rfl h0]; rfl)
      · exact .inr ⟨_, rfl⟩
  · simp only [if_neg hf] at h2 ⊢
    cases h2
    refine ⟨_, ⟨body', [], _, rfl, h3, by rw [if_neg hf]; exact .nil, rfl⟩, ?_⟩
    have := page_same hpad h4 (g := []) (.inl rfl) c.pageBox.margin.top.toNat c.pageBox.margin.bottom.toNat
    simpa [hf, Forest.count] using this

theorem Spec.SameBlocks.rendered {u : Uni} {c : Cfg} {f f' : Forest} (h : SameBlocks f f') (hw : f.WellFormed false) (hr : c.renderers = [])
    (hl : c.linkRenderers = []) (hd : c.defaultRenderer = .cls .renderer)
    (h0 : c.outputFormat = py"gophermap" → c.linkPlacement ≠ py"inline" ∧ c.gopherHost ≠ []) (ho : c.optimise = true)
    {out : Str} (hout : renderEvents u c f.events = .ok out) : renderEvents u c f'.events = .ok out := by
  obtain ⟨h1, h2, page, h3, h4⟩ := (C91 u c f hw hr hl hd h0 out).1 hout
  obtain ⟨page', h5, h6⟩ := h.page h3
  refine (C91 u c f' (h.wellFormed _ hw) hr hl hd h0 out).2 ⟨h.readable _ h1, h.hasRoom _ _ _ _ h2, page', h5, ?_⟩
  rw [if_pos ho] at h4 ⊢
  rw [trimmed_unique h4, h6]
  exact trimmed_optimise _

/-- Whitespace between blocks makes no difference: two documents made of the same blocks, at top level or in containers, are rendered as the
same text, or both are not rendered. -/
theorem C92 (u : Uni) (c : Cfg) (f f' : Forest) (h : SameBlocks f f') (hw : f.WellFormed false) (hr : c.renderers = [])
    (hl : c.linkRenderers = []) (hd : c.defaultRenderer = .cls .renderer)
    (h0 : c.outputFormat = py"gophermap" → c.linkPlacement ≠ py"inline" ∧ c.gopherHost ≠ []) (ho : c.optimise = true)
    (out : Str) : renderEvents u c f.events = .ok out ↔ renderEvents u c f'.events = .ok out :=
  ⟨h.rendered hw hr hl hd h0 ho, h.symm.rendered (h.wellFormed _ hw) hr hl hd h0 ho⟩

/-- The same for the source of the documents. -/
theorem C92_source (u : Uni) (c : Cfg) (doc doc' : List Item) (hdoc : DocOk u.entity u.lower doc) (hdoc' : DocOk u.entity u.lower doc')
    (f f' : Forest) (hf : Denotes (docEvents u.lower doc) f) (hf' : Denotes (docEvents u.lower doc') f') (h : SameBlocks f f')
    (hw : f.WellFormed false) (hr : c.renderers = []) (hl : c.linkRenderers = []) (hd : c.defaultRenderer = .cls .renderer)
    (h0 : c.outputFormat = py"gophermap" → c.linkPlacement ≠ py"inline" ∧ c.gopherHost ≠ []) (ho : c.optimise = true)
    (out : Str) : renderHtml u c [docSrc doc] = .ok out ↔ renderHtml u c [docSrc doc'] = .ok out := by
  rw [(C68 u c doc hdoc).2.2, renderEvents_denotes u c hf, (C68 u c doc' hdoc').2.2, renderEvents_denotes u c hf']
  exact C92 u c f f' h hw hr hl hd h0 ho out

/-- A heading and a section, on one line and on many. -/
def c92Flat : Forest :=
  .elem py"h1" [] (.text py"A" .nil) (.elem py"section" [] (.elem py"p" [] (.text py"b" .nil) (.elem py"p" [] (.text py"c" .nil) .nil)) .nil)

def c92Lines : Forest :=
  .text py"\n" (.elem py"h1" [] (.text py"A" .nil) (.text py"\n\n" (.elem py"section" []
    (.text py"\n  " (.elem py"p" [] (.text py"b" .nil) (.text py"\n  " (.elem py"p" [] (.text py"c" .nil) (.text py"\n" .nil)))))
    (.text py"\n" .nil))))

theorem c92_same : SameBlocks c92Flat c92Lines := by
  have b : ∀ s : Str, s.all isSpace = true → Blank s := fun s hs c hc => List.all_eq_true.1 hs c hc
  refine .blankRight (b _ (by decide)) (.block (by decide) (.blankRight (b _ (by decide)) (.container (.inr (by unfold Unstyled; decide)) ?_ ?_)))
  · exact .blankRight (b _ (by decide)) (.block (by decide) (.blankRight (b _ (by decide)) (.block (by decide)
      (.blankRight (b _ (by decide)) .nil))))
  · exact .blankRight (b _ (by decide)) .nil

example : renderEvents asciiUni {} c92Flat.events = .ok py"\n# A #\n\nb\n\nc\n" ∧
    renderEvents asciiUni {} c92Lines.events = .ok py"\n# A #\n\nb\n\nc\n" :=
  have h : renderEvents asciiUni {} c92Flat.events = .ok py"\n# A #\n\nb\n\nc\n" := by decide +kernel
  ⟨h, (C92 asciiUni {} _ _ c92_same (by simp [c92Flat, Forest.WellFormed, VoidTag]) rfl rfl rfl (fun h => by cases h) rfl _).1 h⟩

/-- It does make a difference in lists, where the first item is moved to the right by it and texts count as items, -/
theorem C92_list_fails :
    renderHtml asciiUni {} [py"<ul><li>a</li><li>b</li></ul>"] = .ok py"\n* a\n* b\n" ∧
    renderHtml asciiUni {} [py"<ul>\n<li>a</li>\n<li>b</li>\n</ul>"] = .ok py"\n * a\n* b\n" ∧
    renderHtml asciiUni {} [py"<ol><li>a</li><li>b</li></ol>"] = .ok py"\n1. a\n2. b\n" ∧
    renderHtml asciiUni {} [py"<ol>\n<li>a</li>\n<li>b</li>\n</ol>"] = .ok py"\n 2. a\n4. b\n" := by
  decide +kernel

/-- in block quotes, -/
theorem C92_quote_fails :
    renderHtml asciiUni {} [py"<blockquote><p>a</p><p>b</p></blockquote>"] = .ok py"\n> a\n>\n> b\n" ∧
    renderHtml asciiUni {} [py"<blockquote>\n<p>a</p>\n<p>b</p>\n</blockquote>"] = .ok py"\n>  a\n>\n> b\n" := by
  decide +kernel

/-- and in every document if the whitespace at the end of the lines is kept. -/
theorem C92_optimise_fails :
    renderHtml asciiUni { optimise := false } [py"<h1></h1><h1></h1>"] ≠
    renderHtml asciiUni { optimise := false } [py"<h1></h1>\n<h1></h1>"] := by
  decide +kernel

end Verif
