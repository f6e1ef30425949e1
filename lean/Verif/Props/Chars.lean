import Verif.Spec.Chars
import Verif.Props.Wider
import Verif.Props.LayoutText

/-!
# Property C103: the characters of a page
-/

namespace Verif

open Spec

/-- All characters have the property. -/
def AllCh (P : Char → Prop) (s : Str) : Prop := ∀ c ∈ s, P c

section

variable {P : Char → Prop}

theorem allCh_append {a b : Str} : AllCh P (a ++ b) ↔ AllCh P a ∧ AllCh P b := by
  unfold AllCh
  constructor
  · intro h; exact ⟨fun c hc => h c (by simp [hc]), fun c hc => h c (by simp [hc])⟩
  · rintro ⟨h1, h2⟩ c hc
    rcases List.mem_append.1 hc with hc | hc
    · exact h1 c hc
    · exact h2 c hc

theorem allCh_sub {a b : Str} (h : AllCh P b) (hs : ∀ c ∈ a, c ∈ b) : AllCh P a := fun c hc => h c (hs c hc)

theorem allCh_lit (hP : ∀ c ∈ ownChars, P c) {s : Str} (h : s.all (fun c => ownChars.contains c) = true) : AllCh P s := by
  intro c hc
  have := List.all_eq_true.1 h c hc
  exact hP c (by simpa using this)

theorem allCh_replicate {c : Char} (h : P c) (n : Nat) : AllCh P (List.replicate n c) := fun d hd => by rw [List.eq_of_mem_replicate hd]; exact h

theorem allCh_join {ls : List Str} (hn : P '\n') (h : ∀ l ∈ ls, AllCh P l) : AllCh P (join py"\n" ls) := by
  intro c hc
  rcases mem_join hc with hc | ⟨m, hm, hc⟩
  · have e : c = '\n' := by simpa using hc
    rw [e]; exact hn
  · exact h m hm c hc

theorem allCh_padTo {w : Int} {l : Str} (hb : P ' ') (h : AllCh P l) : AllCh P (padTo w l) := allCh_append.2 ⟨h, allCh_replicate hb _⟩

theorem allCh_rows {w : Int} {ls : List Str} (hb : P ' ') (hn : P '\n') (h : ∀ l ∈ ls, AllCh P l) : AllCh P (rows w ls) := by
  refine allCh_join hn ?_
  intro l hl
  obtain ⟨m, hm, rfl⟩ := List.mem_map.1 hl
  refine allCh_padTo hb ?_
  split at hm
  · rw [List.mem_singleton.1 hm]; intro c hc; cases hc
  · exact h m hm

theorem allCh_padLines {w : Int} {s : Str} (hb : P ' ') (hn : P '\n') (h : AllCh P s) : AllCh P (padLines w s) := by
  rw [padLines_rows]
  refine allCh_rows hb hn ?_
  intro l hl
  refine allCh_sub h fun c hc => ?_
  rw [← join_splitCh '\n' s]
  exact mem_join_of hl hc

theorem lines_chars {y : Str} {ls : List Str} (h : Lines y ls) : ∀ l ∈ ls, ∀ c ∈ l, c ∈ y := by
  induction h with
  | nil => simp
  | last _ _ => intro l hl c hc; rw [List.mem_singleton.1 hl] at hc; exact hc
  | crlf _ _ ih =>
    intro l hl c hc
    rcases List.mem_cons.1 hl with rfl | hl
    · simp [hc]
    · simp [ih l hl c hc]
  | brk _ _ _ _ ih =>
    intro l hl c hc
    rcases List.mem_cons.1 hl with rfl | hl
    · simp [hc]
    · simp [ih l hl c hc]

theorem proseWrap_chars {u : Uni} {w : Int} {y : Str} {out : List Str} (h : wrap u (proseOpts u w) y = .ok out) :
    ∀ l ∈ out, ∀ c ∈ l, c = ' ' ∨ c ∈ y := by
  obtain ⟨-, -, h⟩ := wrap_ok h
  obtain ⟨ls, bs, e1, e2, e3⟩ := wrapLoop_sublist u (proseOpts u w) rfl _ [] _ out h
  rw [List.nil_append] at e1
  subst e1
  have key : ∀ (before ls bs : List Str), Indented (proseOpts u w) before ls bs → ls = bs := by
    intro before ls
    induction ls generalizing before with
    | nil =>
      intro bs hi
      cases bs with
      | nil => rfl
      | cons b bs => exact hi.elim
    | cons l ls ih =>
      intro bs hi
      cases bs with
      | nil => exact hi.elim
      | cons b bs =>
        obtain ⟨e, hi⟩ := hi
        rw [ih _ bs hi, e]
        simp [indentAfter, proseOpts]
  have e := key _ _ _ e2
  subst e
  intro l hl c hc
  have hm := e3.subset (List.mem_flatten.2 ⟨l, hl, hc⟩)
  exact (wrapInput_mem (u := u) (o := proseOpts u w) rfl hm).imp id And.left

theorem allCh_wrap {u : Uni} {w : Int} {y : Str} {out : List Str} (hb : P ' ') (hy : AllCh P y) (h : wrap u (proseOpts u w) y = .ok out) :
    ∀ l ∈ out, AllCh P l := by
  intro l hl c hc
  rcases proseWrap_chars h l hl c hc with rfl | hc
  · exact hb
  · exact hy c hc

theorem allCh_hang {bullet : Str} {ls : List Str} (hb : P ' ') (hbu : AllCh P bullet) (h : ∀ l ∈ ls, AllCh P l) : ∀ l ∈ hang bullet ls, AllCh P l := by
  cases ls with
  | nil => intro l hl; rw [List.mem_singleton.1 hl]; exact hbu
  | cons a as =>
    intro l hl
    rcases List.mem_cons.1 hl with rfl | hl
    · exact allCh_append.2 ⟨hbu, h a (by simp)⟩
    · obtain ⟨m, hm, rfl⟩ := List.mem_map.1 hl
      exact allCh_append.2 ⟨allCh_replicate hb _, h m (by simp [hm])⟩

theorem allCh_wrapped {u : Uni} {w : Int} {segs : List Str} {parts : List (List Str)} (hb : P ' ') (h : WrappedEach u (proseOpts u w) segs parts)
    (hs : ∀ l ∈ segs, AllCh P l) : ∀ l ∈ (parts.map (fun p => if p = [] then [[]] else p)).flatten, AllCh P l := by
  induction segs generalizing parts with
  | nil =>
    cases parts with
    | nil => intro l hl; cases hl
    | cons => exact h.elim
  | cons x xs ih =>
    cases parts with
    | nil => exact h.elim
    | cons q qs =>
      intro l hl
      simp only [List.map_cons, List.flatten_cons, List.mem_append] at hl
      rcases hl with hl | hl
      · split at hl
        · rw [List.mem_singleton.1 hl]; intro c hc; cases hc
        · exact allCh_wrap hb (allCh_sub (hs x (by simp)) fun c hc => (strip_sublist x).subset hc) h.1 l hl
      · exact ih h.2 (fun m hm => hs m (by simp [hm])) l hl

theorem digit_own {c : Char} (h : c.isDigit = true) : c ∈ ownChars := by
  obtain ⟨d, hd, -, rfl⟩ := digitChar_isDigit h
  have key : ∀ k : Fin 10, Nat.digitChar k.val ∈ ownChars := by decide
  exact key ⟨d, hd⟩

theorem allCh_nat (hP : ∀ c ∈ ownChars, P c) (n : Nat) : AllCh P (natStr n) := fun c hc => hP c (digit_own (natStr_isDigit n c hc))

theorem allCh_cut (hP : ∀ c ∈ ownChars, P c) {limit : Nat} {y : Str} (h : AllCh P y) : AllCh P (cutText limit y) := by
  refine allCh_append.2 ⟨allCh_sub h fun c hc => (strip_sublist y).subset (List.mem_of_mem_take hc), ?_⟩
  split
  · exact allCh_lit hP (by decide)
  · intro c hc; cases hc

/-- The values that are shown have these characters only. -/
def ShownCh (P : Char → Prop) (tag : Str) (attrs : List (Str × Option Str)) : Prop :=
  ∀ name v, name ∈ shownAttrs tag → (name, some v) ∈ attrs → AllCh P v

theorem allCh_given (hP : ∀ c ∈ ownChars, P c) {tag : Str} {attrs : List (Str × Option Str)} (h : ShownCh P tag attrs) (name : Str)
    (hn : name ∈ shownAttrs tag) : AllCh P ((givenAttr attrs name).getD py"None") ∧ AllCh P (titlePart (givenAttr attrs name)) ∧
      AllCh P (altText (givenAttr attrs name)) := by
  have lit : ∀ {s : Str}, s.all (fun c => ownChars.contains c) = true → AllCh P s := allCh_lit hP
  cases e : givenAttr attrs name with
  | none => exact ⟨lit (by decide), lit (by decide), lit (by decide)⟩
  | some v =>
    have hv := h name v hn (given_mem e)
    cases v with
    | nil => exact ⟨hv, lit (by decide), lit (by decide)⟩
    | cons x v => exact ⟨hv, allCh_append.2 ⟨allCh_append.2 ⟨lit (by decide), hv⟩, lit (by decide)⟩, hv⟩

theorem painted_chars (hP : ∀ c ∈ ownChars, P c) {u : Uni} {c : Cfg} {p r : Int} {pl : Place} {m : Nat} {attrs : List (Str × Option Str)}
    {kids : Forest} {tag : Str} {inner : Int} {y x : Str} (ha : ShownCh P tag attrs) (hy : AllCh P y)
    (h : Painted u c p r pl m attrs kids tag inner y x) : AllCh P x := by
  have app : ∀ {a b : Str}, AllCh P a → AllCh P b → AllCh P (a ++ b) := fun ha hb => allCh_append.2 ⟨ha, hb⟩
  have lit : ∀ {s : Str}, s.all (fun c => ownChars.contains c) = true → AllCh P s := allCh_lit hP
  have hb : P ' ' := hP _ (by decide)
  have hn : P '\n' := hP _ (by decide)
  have nl : ∀ n, AllCh P (newlines n) := fun n => allCh_replicate hn n
  cases h with
  | marked h =>
    have : ∀ q ∈ markers, q.2.1.all (fun c => ownChars.contains c) = true ∧ q.2.2.all (fun c => ownChars.contains c) = true := by decide
    exact app (app (lit (this _ h).1) hy) (lit (this _ h).2)
  | br => exact lit (by decide)
  | code h1 h2 => exact app (app (lit (by decide)) hy) (lit (by decide))
  | fence h1 h2 => exact app (app (lit (by decide)) hy) (lit (by decide))
  | codeInPre h => exact hy
  | reference h => exact app (app (app (app (lit (by decide)) hy) (lit (by decide))) (allCh_nat hP _)) (lit (by decide))
  | link h =>
    exact app (app (app (app (app (lit (by decide)) hy) (lit (by decide))) (allCh_given hP ha _ (by decide)).1) (allCh_given hP ha _ (by decide)).2.1)
      (lit (by decide))
  | imageReference h => exact app (app (lit (by decide)) (allCh_nat hP _)) (lit (by decide))
  | image h =>
    exact app (app (app (app (lit (by decide)) (allCh_given hP ha _ (by decide)).2.2) (lit (by decide))) (allCh_given hP ha _ (by decide)).1)
      (lit (by decide))
  | header h =>
    have hash : ∀ n, AllCh P (List.replicate n '#') := fun n => allCh_replicate (hP _ (by decide)) n
    exact app (app (lit (by decide)) (allCh_padLines hb hn (app (app (app (app (hash _) (lit (by decide))) hy) (lit (by decide))) (hash _)))) (lit (by decide))
  | pre h =>
    refine app (app (lit (by decide)) (allCh_rows hb hn ?_)) (lit (by decide))
    intro l hl
    obtain ⟨m, hm, rfl⟩ := List.mem_map.1 hl
    exact app (lit (by decide)) (allCh_sub hy (lines_chars h m hm))
  | quote h =>
    refine app (app (lit (by decide)) (allCh_rows hb hn ?_)) (lit (by decide))
    intro l hl
    obtain ⟨m, hm, rfl⟩ := List.mem_map.1 hl
    exact app (lit (by decide)) (allCh_sub hy (lines_chars h m hm))
  | list h => exact app (app (lit (by decide)) (allCh_padLines hb hn hy)) (lit (by decide))
  | div => exact allCh_padLines hb hn hy
  | term => exact app (nl _) (allCh_padLines hb hn hy)
  | item h =>
    refine app (nl _) (allCh_rows hb hn (allCh_hang hb ?_ (allCh_wrap hb hy h)))
    unfold Place.bullet
    split
    · exact app (allCh_nat hP _) (lit (by decide))
    · exact lit (by decide)
  | description h => exact app (lit (by decide)) (allCh_rows hb hn (allCh_hang hb (lit (by decide)) (allCh_wrap hb hy h)))
  | paragraph h1 h2 h3 h4 =>
    refine app (app (nl _) (allCh_rows hb hn (allCh_wrapped hb h4 ?_))) (nl _)
    intro m hm
    exact allCh_sub hy fun c hc => mem_join_of hm hc
  | codeParagraph h => exact app (app (nl _) (allCh_padLines hb hn hy)) (nl _)
  | other h => exact hy

theorem entry_chars (hP : ∀ c ∈ ownChars, P c) {u : Uni} {c : Cfg} {limit : Nat} {r : Int} {m : Nat} {attrs : List (Str × Option Str)} {tag y x : Str}
    (hf : c.outputFormat ≠ py"gophermap") (ha : ShownCh P tag attrs) (hy : AllCh P y) (h : Entry u c limit r m attrs tag y x) : AllCh P x := by
  have app : ∀ {a b : Str}, AllCh P a → AllCh P b → AllCh P (a ++ b) := fun ha hb => allCh_append.2 ⟨ha, hb⟩
  have lit : ∀ {s : Str}, s.all (fun c => ownChars.contains c) = true → AllCh P s := allCh_lit hP
  have hb : P ' ' := hP _ (by decide)
  have hn : P '\n' := hP _ (by decide)
  cases h with
  | link h =>
    refine allCh_padLines hb hn (app (lit (by decide)) ?_)
    exact app (app (app (app (app (app (lit (by decide)) (allCh_nat hP _)) (lit (by decide))) (allCh_cut hP hy)) (lit (by decide)))
      (allCh_given hP ha _ (by decide)).1) (allCh_given hP ha _ (by decide)).2.1
  | image h =>
    have alt := (allCh_given hP ha py"alt" (by decide)).2.2
    refine allCh_padLines hb hn (app (lit (by decide)) ?_)
    refine app (app (app (app (app (app (lit (by decide)) (allCh_nat hP _)) (lit (by decide))) (allCh_cut hP alt)) (lit (by decide)))
      (allCh_given hP ha _ (by decide)).1) ?_
    split
    · exact app (app (lit (by decide)) alt) (lit (by decide))
    · intro c hc; cases hc
  | gopherLink h => exact absurd h hf
  | gopherImage h => exact absurd h hf

/-- All characters of the forest that are shown. -/
def ForestCh (P : Char → Prop) (f : Forest) : Prop := ∀ ch, f.Has ch → P ch

theorem forestCh_text {s : Str} {rest : Forest} : ForestCh P (.text s rest) ↔ AllCh P s ∧ ForestCh P rest :=
  ⟨fun h => ⟨fun c hc => h c (.inl hc), fun c hc => h c (.inr hc)⟩, fun h c hc => hc.elim (h.1 c) (h.2 c)⟩

theorem forestCh_elem {tag : Str} {attrs : List (Str × Option Str)} {kids rest : Forest} :
    ForestCh P (.elem tag attrs kids rest) ↔ ShownCh P tag attrs ∧ ForestCh P kids ∧ ForestCh P rest :=
  ⟨fun h => ⟨fun name v h1 h2 c hc => h c (.inl ⟨name, v, h1, h2, hc⟩), fun c hc => h c (.inr (.inl hc)), fun c hc => h c (.inr (.inr hc))⟩,
    fun h c hc => by
      rcases hc with ⟨name, v, h1, h2, hc⟩ | hc | hc
      · exact h.1 name v h1 h2 c hc
      · exact h.2.1 c hc
      · exact h.2.2 c hc⟩

theorem forestCh_nil : ForestCh P .nil := fun _ h => h.elim

theorem draw_chars (hP : ∀ c ∈ ownChars, P c) {u : Uni} {c : Cfg} {limit : Nat} {p : Int} {mode : Mode} {up : List Str} {a b k : Nat} {r : Int}
    {f : Forest} {x : Str} (hc : c.outputFormat ≠ py"gophermap" ∨ c.linkPlacement ≠ py"after_block" ∧ c.imagePlacement ≠ py"after_block")
    (h : Draw u c limit p mode up a b k r f x) : (mode = .all → c.outputFormat ≠ py"gophermap") → ForestCh P f → AllCh P x := by
  induction h with
  | nil => intro _ _ c hc; cases hc
  | text _ ih =>
    intro hm hf
    obtain ⟨h1, h2⟩ := forestCh_text.1 hf
    refine allCh_append.2 ⟨fun ch hch => ?_, ih hm h2⟩
    rcases kept_mem hch with rfl | hch
    · exact hP _ (by decide)
    · exact h1 ch hch
  | @elem up a b k r inner tag attrs kids rest y z x w k' own e1 d1 e2 d2 hp d3 ih1 ih2 ih3 =>
    intro hm hf
    obtain ⟨h1, h2, h3⟩ := forestCh_elem.1 hf
    refine allCh_append.2 ⟨painted_chars hP h1 (allCh_append.2 ⟨allCh_append.2 ⟨ih1 (by simp) h2, ?_⟩, ih2 (by simp) ?_⟩) hp, ih3 hm h3⟩
    · split
      · intro c hc; cases hc
      · exact allCh_lit hP (by decide)
    · rw [e2]; split
      · exact forestCh_nil
      · exact h2
  | skipText _ _ ih => intro hm hf; exact ih hm (forestCh_text.1 hf).2
  | @entry mode up a b k r tag attrs kids rest y x v w k' h0 hl e1 d1 he d2 d3 ih1 ih2 ih3 =>
    intro hm hf
    obtain ⟨h1, h2, h3⟩ := forestCh_elem.1 hf
    have hfmt : c.outputFormat ≠ py"gophermap" := by
      cases mode with
      | page => exact absurd rfl h0
      | all => exact hm rfl
      | near =>
        rcases hc with hc | hc
        · exact hc
        · exfalso
          simp only [Mode.lists, linkAt, Bool.or_eq_true, Bool.and_eq_true, decide_eq_true_eq] at hl
          rcases hl with ⟨-, hl⟩ | ⟨-, hl⟩
          · exact hc.1 hl
          · exact hc.2 hl
    refine allCh_append.2 ⟨allCh_append.2 ⟨entry_chars hP hfmt h1 (ih1 (by simp) h2) he, ih2 hm ?_⟩, ih3 hm h3⟩
    split
    · exact h2
    · exact forestCh_nil
  | skipElem h0 hl e1 d1 d2 ih1 ih2 =>
    intro hm hf
    obtain ⟨h1, h2, h3⟩ := forestCh_elem.1 hf
    refine allCh_append.2 ⟨ih1 hm ?_, ih2 hm h3⟩
    split
    · exact h2
    · exact forestCh_nil

end

theorem indent_chars {pad : Str} {st : Bool} {s : Str} {c : Char} (h : c ∈ indentLines pad st s) : c ∈ pad ∨ c ∈ s := by
  induction s generalizing st with
  | nil => cases st <;> cases h
  | cons x s ih =>
    simp only [indentLines, List.mem_append, List.mem_cons] at h
    rcases h with h | rfl | h
    · split at h
      · exact .inl h
      · cases h
    · exact .inr (by simp)
    · exact (ih h).imp id (fun h => by simp [h])

theorem trimmed_chars {page out : Str} (h : TrimmedLines page out) : ∀ c ∈ out, c ∈ page := by
  rw [trimmed_unique h]
  intro c hc
  unfold optimise at hc
  by_cases hn : c = '\n'
  · subst hn
    have e := count_optimise page
    have : 0 < (optimise page).count '\n' := List.count_pos_iff.2 hc
    rw [e] at this
    exact List.count_pos_iff.1 this
  · rcases mem_join hc with hc | ⟨l, hl, hc⟩
    · exact absurd (by simpa using hc) hn
    · obtain ⟨m, hm, rfl⟩ := List.mem_map.1 hl
      rw [← join_splitCh '\n' page]
      exact mem_join_of hm ((rstrip_sublist m).subset hc)

/-- In text output the page has no characters but those of the texts and of the attributes that are shown, and those that the default
style adds. -/
theorem C103 (u : Uni) (c : Cfg) (f : Forest) (hw : f.WellFormed false) (hr : c.renderers = []) (hl : c.linkRenderers = [])
    (hd : c.defaultRenderer = .cls .renderer) (hf : c.outputFormat ≠ py"gophermap") (out : Str) (h : renderEvents u c f.events = .ok out) :
    ∀ ch ∈ out, f.Has ch ∨ ch ∈ ownChars := by
  obtain ⟨-, -, page, ⟨body, foot, g, hg, d1, d2, rfl⟩, k3⟩ := (C91 u c f hw hr hl hd (fun e => absurd e hf) out).1 h
  have hP : ∀ ch ∈ ownChars, f.Has ch ∨ ch ∈ ownChars := fun ch h => .inr h
  have h1 := draw_chars (P := fun ch => f.Has ch ∨ ch ∈ ownChars) hP (.inl hf) d1 (fun _ => hf) (fun ch h => .inl h)
  have h2 := draw_chars (P := fun ch => f.Has ch ∨ ch ∈ ownChars) hP (.inl hf) d2 (fun _ => hf) (fun ch h => by
    rw [hg] at h
    split at h
    · exact .inl h
    · exact h.elim)
  have nl : ∀ n, ∀ ch ∈ newlines n, ch ∈ ownChars := fun n ch h => by rw [List.eq_of_mem_replicate h]; decide
  have key : ∀ ch ∈ newlines c.pageBox.margin.top.toNat ++
      indentLines (List.replicate c.pageBox.margin.left.toNat ' ') true
        (body ++ (if g.count (Mode.lists c .all) = 0 then [] else py"\n") ++ foot) ++
      newlines c.pageBox.margin.bottom.toNat, f.Has ch ∨ ch ∈ ownChars := by
    intro ch hch
    rcases List.mem_append.1 hch with hch | hch
    · rcases List.mem_append.1 hch with hch | hch
      · exact .inr (nl _ ch hch)
      · rcases indent_chars hch with hch | hch
        · rw [List.eq_of_mem_replicate hch]; exact .inr (by decide)
        · rcases List.mem_append.1 hch with hch | hch
          · rcases List.mem_append.1 hch with hch | hch
            · exact h1 ch hch
            · split at hch
              · cases hch
              · have e : ch = '\n' := by simpa using hch
                rw [e]; exact .inr (by decide)
          · exact h2 ch hch
    · exact .inr (nl _ ch hch)
  intro ch hch
  split at k3
  · exact key ch (trimmed_chars k3 ch hch)
  · rw [k3] at hch; exact key ch hch

/-! ## The items of a gophermap -/

theorem tabLines_append (a b : Str) : tabLines (a ++ '\n' :: b) = tabLines a ++ tabLines b := by
  unfold tabLines
  rw [splitCh_two, List.filter_append]

theorem tabLines_none {s : Str} (h : '\t' ∉ s) : tabLines s = [] := by
  unfold tabLines
  rw [List.filter_eq_nil_iff]
  intro l hl hc
  have hc : '\t' ∈ l := by simpa using hc
  refine h ?_
  rw [← join_splitCh '\n' s]
  exact mem_join_of hl hc

theorem tabLines_empty {s : Str} (h : tabLines s = []) : '\t' ∉ s := by
  intro hm
  rw [← join_splitCh '\n' s] at hm
  rcases mem_join hm with hm | ⟨l, hl, hm⟩
  · simp at hm
  · unfold tabLines at h
    rw [List.filter_eq_nil_iff] at h
    exact h l hl (by simpa using hm)

theorem lastLine_exists (a : Str) : ∃ above first, a = above ++ first ∧ '\n' ∉ first ∧ (above = [] ∨ ∃ b, above = b ++ ['\n']) := by
  induction a with
  | nil => exact ⟨[], [], rfl, by simp, .inl rfl⟩
  | cons x a ih =>
    obtain ⟨above, first, rfl, h1, h2⟩ := ih
    rcases h2 with rfl | ⟨b, rfl⟩
    · by_cases hx : x = '\n'
      · exact ⟨[x], first, rfl, h1, .inr ⟨[], by rw [hx]; rfl⟩⟩
      · exact ⟨[], x :: first, rfl, by simp [h1, Ne.symm hx], .inl rfl⟩
    · exact ⟨x :: (b ++ ['\n']), first, rfl, h1, .inr ⟨x :: b, rfl⟩⟩

theorem tabLines_item {a b : Str} (ha : '\t' ∉ a) (hb : '\n' ∉ b) : ∃ above first, a = above ++ first ∧ '\n' ∉ first ∧
    (above = [] ∨ above.getLast? = some '\n') ∧ ∀ rest, tabLines (a ++ '\t' :: b ++ '\n' :: rest) = (first ++ '\t' :: b) :: tabLines rest := by
  obtain ⟨above, first, rfl, h1, h2⟩ := lastLine_exists a
  have hl : '\n' ∉ first ++ '\t' :: b := by simp [h1, hb]
  have key : ∀ rest, tabLines (first ++ '\t' :: b ++ '\n' :: rest) = (first ++ '\t' :: b) :: tabLines rest := by
    intro rest
    rw [tabLines_append]
    unfold tabLines
    rw [splitCh_none _ _ hl, List.filter_cons, if_pos (by simp), List.filter_nil, List.singleton_append]
  rcases h2 with rfl | ⟨d, rfl⟩
  · exact ⟨[], first, rfl, h1, .inl rfl, key⟩
  · refine ⟨d ++ ['\n'], first, rfl, h1, .inr (by simp), fun rest => ?_⟩
    have e : d ++ ['\n'] ++ first ++ '\t' :: b ++ '\n' :: rest = d ++ '\n' :: (first ++ '\t' :: b ++ '\n' :: rest) := by simp
    rw [e, tabLines_append, key, tabLines_none (s := d) (fun h => ha (by simp [h])), List.nil_append]

theorem count_addresses {q : Str → Bool} (hq : ∀ tag, q tag = decide (tag = py"a")) (f : Forest) : f.count q = f.addresses.length := by
  induction f with
  | nil => rfl
  | text s rest ih => exact ih
  | elem tag attrs kids rest ih1 ih2 =>
    simp only [Forest.count, Forest.addresses, List.length_append, ih1, ih2, hq]
    by_cases ht : tag = py"a" <;> simp [ht]

theorem mapItems_append {u : Uni} {c : Cfg} {n m : Nat} {hs hs' : List (Option Str)} {ls ls' : List Str} (h : MapItems u c n hs ls)
    (hm : m = n + hs.length) (h' : MapItems u c m hs' ls') : MapItems u c n (hs ++ hs') (ls ++ ls') := by
  induction h generalizing m with
  | nil => simp at hm; subst hm; exact h'
  | cons h1 h2 _ ih => exact .cons h1 h2 (ih (by simp at hm; omega) h')

theorem port_text (g : GopherLink) : Field ((g.port.map intStr).getD py"None") ∧ ∃ t c, (g.port.map intStr).getD py"None" = t ++ [c] ∧ isSpace c = false := by
  cases hp : g.port with
  | none => exact ⟨by decide, py"Non", 'e', rfl, by decide⟩
  | some n =>
    refine ⟨intStr_field n, ?_⟩
    show ∃ t c, intStr n = t ++ [c] ∧ isSpace c = false
    have nat : ∀ k, ∃ t c, natStr k = t ++ [c] ∧ isSpace c = false := by
      intro k
      have hne := natStr_ne_nil k
      refine ⟨_, _, (List.dropLast_concat_getLast hne).symm, (natStr_chars k _ (List.getLast_mem hne)).2.1⟩
    cases n with
    | ofNat k => exact nat k
    | negSucc k =>
      obtain ⟨t, c, e, h⟩ := nat (k + 1)
      exact ⟨'-' :: t, c, by show '-' :: natStr (k + 1) = _; rw [e]; rfl, h⟩

theorem mapItem_end {g : GopherLink} {n : Nat} {line : Str} (h : MapItem g n line) : '\t' ∈ line ∧ rstrip line = line := by
  obtain ⟨_, first, _, -, -, -, -, rfl⟩ := h
  refine ⟨by simp, ?_⟩
  obtain ⟨-, t, c, e, hc⟩ := port_text g
  rw [e, ← List.append_assoc]
  exact rstrip_of_end _ (fun d hd => by rw [List.getLast?_concat] at hd; cases hd; exact hc)

theorem foot_items {u : Uni} {c : Cfg} {limit : Nat} {p : Int} {up : List Str} {a b k : Nat} {r : Int} {f : Forest} {x : Str}
    (hf : c.outputFormat = py"gophermap") (hp : c.linkPlacement = py"footer") (hi : c.imagePlacement = py"inline")
    (hlow : ∀ x, Field x → Field (u.lower x)) (hhost : Field c.gopherHost)
    (ht : ForestCh (· ≠ '\t') f) (hn : ∀ href, some href ∈ f.addresses → Field href) (h : Draw u c limit p .all up a b k r f x) :
    ∃ ls, MapItems u c k f.addresses ls ∧ ∀ rest, tabLines (x ++ rest) = ls ++ tabLines rest := by
  have hnum : ∀ tag, numbered c tag = decide (tag = py"a") := by
    intro tag
    simp only [numbered, hp, hi]
    simp
  have hall : ∀ tag, Mode.lists c .all tag = decide (tag = py"a") := by
    intro tag
    simp only [Mode.lists, linkAt, hp, hi]
    simp
  have hP : ∀ ch ∈ ownChars, ch ≠ '\t' := by decide
  induction f generalizing up a b k r x with
  | nil => cases h; exact ⟨[], .nil, fun rest => rfl⟩
  | text s rest ih =>
    cases h with
    | skipText hm h => exact ih (forestCh_text.1 ht).2 hn h
  | elem tag attrs kids rest ih1 ih2 =>
    obtain ⟨t1, t2, t3⟩ := forestCh_elem.1 ht
    simp only [Forest.addresses] at hn ⊢
    cases h with
    | @entry _ _ _ _ _ _ _ _ _ _ y z v w k' hm hs e1 d1 he d2 d3 =>
      rw [hall] at hs
      have htag : tag = py"a" := by simpa using hs
      subst htag
      rw [if_pos rfl] at d2
      rw [hnum, if_pos (by simp)] at e1
      subst e1
      rw [if_pos rfl] at hn ⊢
      obtain ⟨ls1, g1, g2⟩ := ih1 t2 (fun href h => hn href (by simp [h])) d2
      obtain ⟨ls2, g3, g4⟩ := ih2 t3 (fun href h => hn href (by simp [h])) d3
      have hy := draw_chars (P := (· ≠ '\t')) hP (.inr (by rw [hp, hi]; decide)) d1 (by simp) t2
      cases he with
      | link h => exact absurd hf h
      | gopherLink h1 h2 =>
        rename_i g
        obtain ⟨f1, f2, t, f3, f4, f5⟩ := target_fields h2 hhost hlow (fun raw e => hn raw (by rw [e]; simp))
        obtain ⟨f6, -⟩ := port_text g
        have hdesc : AllCh (· ≠ '\t') ((givenAttr attrs py"title").getD (cutText limit y)) := by
          cases e : givenAttr attrs py"title" with
          | none => exact allCh_cut hP hy
          | some v => exact t1 py"title" v (by decide) (given_mem e)
        have ha : '\t' ∉ g.type ++ py"[" ++ natStr (k + 1) ++ py"] " ++ (givenAttr attrs py"title").getD (cutText limit y) := by
          have : AllCh (· ≠ '\t') (g.type ++ py"[" ++ natStr (k + 1) ++ py"] " ++ (givenAttr attrs py"title").getD (cutText limit y)) := by
            refine allCh_append.2 ⟨allCh_append.2 ⟨allCh_append.2 ⟨allCh_append.2 ⟨?_, allCh_lit hP (by decide)⟩, allCh_nat hP _⟩, allCh_lit hP (by decide)⟩, hdesc⟩
            rw [f3]; intro c hc; rw [List.mem_singleton.1 hc]; exact f4
          exact fun h => this _ h rfl
        have hb : '\n' ∉ g.selector ++ py"\t" ++ g.host.getD py"None" ++ py"\t" ++ (g.port.map intStr).getD py"None" := by
          have a1 : '\n' ∉ g.selector := fun h => (f1 _ h).2 rfl
          have a2 : '\n' ∉ g.host.getD py"None" := fun h => (f2 _ h).2 rfl
          have a3 : '\n' ∉ (g.port.map intStr).getD py"None" := fun h => (f6 _ h).2 rfl
          simp only [List.mem_append, a1, a2, a3, false_or, or_false]
          decide
        obtain ⟨above, first, i1, i2, i3, i4⟩ := tabLines_item ha hb
        refine ⟨(first ++ py"\t" ++ g.selector ++ py"\t" ++ g.host.getD py"None" ++ py"\t" ++ (g.port.map intStr).getD py"None") :: (ls1 ++ ls2), ?_, ?_⟩
        · rw [List.singleton_append, List.cons_append]
          refine .cons h2 ⟨above, first, _, fun h => ha (by rw [i1]; simp [h]), i2, i3, i1.symm, rfl⟩ (mapItems_append g1 ?_ g3)
          rw [count_addresses hnum]
        · intro rest
          have i5 := i4 (v ++ (w ++ rest))
          rw [g2, g4] at i5
          simp only [gopherLine, List.append_assoc, List.cons_append, List.nil_append] at i5 ⊢
          exact i5
    | skipElem hm hs e1 d1 d2 =>
      rw [hall] at hs
      have htag : tag ≠ py"a" := by simpa using hs
      rw [if_pos rfl] at d1
      rw [hnum, if_neg (by simpa using htag)] at e1
      subst e1
      rw [if_neg htag] at hn ⊢
      obtain ⟨ls1, g1, g2⟩ := ih1 t2 (fun href h => hn href (by simp [h])) d1
      obtain ⟨ls2, g3, g4⟩ := ih2 t3 (fun href h => hn href (by simp [h])) d2
      refine ⟨ls1 ++ ls2, mapItems_append g1 (by rw [count_addresses hnum]; simp) g3, fun rest => ?_⟩
      rw [List.append_assoc, g2, g4, List.append_assoc]

theorem tabLines_newlines (n : Nat) (x : Str) : tabLines (newlines n ++ x) = tabLines x := by
  induction n with
  | zero => rfl
  | succ n ih =>
    have e : newlines (n + 1) ++ x = [] ++ '\n' :: (newlines n ++ x) := by simp [newlines, List.replicate_succ]
    rw [e, tabLines_append, ih]
    rfl

theorem tabLines_optimise {s : Str} (h : ∀ l ∈ tabLines s, rstrip l = l) : tabLines (optimise s) = tabLines s := by
  unfold tabLines at h ⊢
  unfold optimise
  rw [show py"\n" = ['\n'] from rfl, splitCh_join]
  · generalize splitCh '\n' s = ls at h
    induction ls with
    | nil => rfl
    | cons l ls ih =>
      rw [List.map_cons, List.filter_cons, List.filter_cons]
      by_cases hl : l.contains '\t' = true
      · have e := h l (by rw [List.filter_cons, if_pos hl]; simp)
        rw [e, if_pos hl, if_pos hl, ih (fun m hm => h m (by rw [List.filter_cons, if_pos hl]; exact List.mem_cons_of_mem _ hm))]
      · have hl' : ¬ (rstrip l).contains '\t' = true := by
          intro hc
          exact hl (by simpa using (rstrip_sublist l).subset (by simpa using hc))
        rw [if_neg hl, if_neg hl', ih (fun m hm => h m (by rw [List.filter_cons, if_neg hl]; exact hm))]
  · simpa using splitCh_ne_nil '\n' s
  · intro l hl
    obtain ⟨m, hm, rfl⟩ := List.mem_map.1 hl
    exact fun hc => mem_splitCh '\n' s m hm ((rstrip_sublist m).subset hc)

theorem mapItems_end {u : Uni} {c : Cfg} {n : Nat} {hs : List (Option Str)} {ls : List Str} (h : MapItems u c n hs ls) : ∀ l ∈ ls, rstrip l = l := by
  induction h with
  | nil => simp
  | cons _ h _ ih =>
    intro l hl
    rcases List.mem_cons.1 hl with rfl | hl
    · exact (mapItem_end h).2
    · exact ih l hl

/-- With links in the footer, a gophermap has one line with tabs for each link, in order, and it is the item of that link; no other line has tabs.
There must be no tabs in the texts and in the attributes that are shown, no line breaks in the addresses, and no left margin. -/
theorem C103_items (u : Uni) (c : Cfg) (f : Forest) (hw : f.WellFormed false) (hr : c.renderers = []) (hl : c.linkRenderers = [])
    (hd : c.defaultRenderer = .cls .renderer) (hf : c.outputFormat = py"gophermap") (hp : c.linkPlacement = py"footer")
    (hi : c.imagePlacement = py"inline") (hm : c.pageBox.margin.left ≤ 0) (hlow : ∀ x, Field x → Field (u.lower x)) (hhost : Field c.gopherHost)
    (hne : c.gopherHost ≠ []) (ht : ¬ f.Has '\t') (hn : ∀ href, some href ∈ f.addresses → '\n' ∉ href) (out : Str)
    (h : renderEvents u c f.events = .ok out) : MapItems u c 0 f.addresses (tabLines out) := by
  obtain ⟨-, -, page, ⟨body, foot, g, hg, d1, d2, e⟩, k3⟩ := (C91 u c f hw hr hl hd (fun _ => ⟨by rw [hp]; decide, hne⟩) out).1 h
  rw [if_pos hp] at hg
  subst hg
  have hP : ∀ ch ∈ ownChars, ch ≠ '\t' := by decide
  have htab : ForestCh (· ≠ '\t') g := fun ch h e => ht (e ▸ h)
  have hadr : ∀ href, some href ∈ g.addresses → Field href := by
    have key : ∀ (f : Forest), ForestCh (· ≠ '\t') f → ∀ href, some href ∈ f.addresses → '\t' ∉ href := by
      intro f
      induction f with
      | nil => intro _ href h; cases h
      | text s rest ih => intro h; exact ih (forestCh_text.1 h).2
      | elem tag attrs kids rest ih1 ih2 =>
        intro h href hm
        obtain ⟨t1, t2, t3⟩ := forestCh_elem.1 h
        simp only [Forest.addresses, List.mem_append] at hm
        rcases hm with (hm | hm) | hm
        · split at hm
          · rename_i e
            subst e
            intro hc
            exact t1 py"href" href (by decide) (given_mem (List.mem_singleton.1 hm).symm) _ hc rfl
          · cases hm
        · exact ih1 t2 href hm
        · exact ih2 t3 href hm
    intro href hh x hx
    exact ⟨fun e => key g htab href hh (e ▸ hx), fun e => hn href hh (e ▸ hx)⟩
  have hbody := draw_chars (P := (· ≠ '\t')) hP (.inr (by rw [hp, hi]; decide)) d1 (by simp) htab
  obtain ⟨ls, h1, h2⟩ := foot_items hf hp hi hlow hhost htab hadr d2
  have hz : c.pageBox.margin.left.toNat = 0 := by omega
  rw [hz, List.replicate_zero, indentLines_nil] at e
  have hall : ∀ tag, Mode.lists c .all tag = decide (tag = py"a") := by
    intro tag
    simp only [Mode.lists, linkAt, hp, hi]
    simp
  have hnl : ∀ n, '\t' ∉ newlines n := fun n h => absurd (List.eq_of_mem_replicate h) (by decide)
  have hpage : tabLines page = ls := by
    rw [e, List.append_assoc, tabLines_newlines]
    by_cases h0 : g.count (Mode.lists c .all) = 0
    · rw [if_pos h0, List.append_nil]
      rw [count_addresses hall] at h0
      rw [List.length_eq_zero_iff.1 h0] at h1
      cases h1
      have h3 := tabLines_empty (s := foot) (by have := h2 []; rw [List.append_nil] at this; rw [this]; rfl)
      refine tabLines_none ?_
      simp only [List.mem_append, not_or]
      exact ⟨⟨fun h => hbody _ h rfl, h3⟩, hnl _⟩
    · rw [if_neg h0]
      have e2 : body ++ py"\n" ++ foot ++ newlines c.pageBox.margin.bottom.toNat = body ++ '\n' :: (foot ++ newlines c.pageBox.margin.bottom.toNat) := by simp
      rw [e2, tabLines_append, tabLines_none (fun h => hbody _ h rfl), h2, tabLines_none (hnl _), List.nil_append, List.append_nil]
  split at k3
  · rw [trimmed_unique k3, tabLines_optimise (by rw [hpage]; exact mapItems_end h1), hpage]
    exact h1
  · rw [k3, hpage]; exact h1

/-- The same for the source of a document. -/
theorem C103_source (u : Uni) (c : Cfg) (doc : List Item) (hdoc : DocOk u.entity u.lower doc) (f : Forest) (hden : Denotes (docEvents u.lower doc) f)
    (hw : f.WellFormed false) (hr : c.renderers = []) (hl : c.linkRenderers = []) (hd : c.defaultRenderer = .cls .renderer)
    (hf : c.outputFormat ≠ py"gophermap") (out : Str) (h : renderHtml u c [docSrc doc] = .ok out) : ∀ ch ∈ out, f.Has ch ∨ ch ∈ ownChars := by
  rw [(C68 u c doc hdoc).2.2, renderEvents_denotes u c hden] at h
  exact C103 u c f hw hr hl hd hf out h

/-- A paragraph with two links, one of them with a title, and preformatted text. -/
def c103Example (text : Str) : Forest :=
  .elem py"p" [] (.elem py"a" [(py"href", some py"x.txt")] (.text py"one" .nil) (.elem py"a" [(py"href", some py"http://y"), (py"title", some py"Y")]
    (.text py"two" .nil) .nil)) (.elem py"pre" [] (.text text .nil) .nil)

example : (c103Example py"a b").addresses = [some py"x.txt", some py"http://y"] ∧ ¬ (c103Example py"a b").Has '\t' ∧
    renderEvents asciiUni { outputFormat := py"gophermap", gopherHost := py"g" } (c103Example py"a b").events =
      .ok py"\n[one][1][two][2]\n\n    a b\n\n0[1] one\tx.txt\tg\t70\nh[2] Y\tURL:http://y\tg\t70\n" := by
  refine ⟨by decide, by simp [c103Example, Forest.Has, shownAttrs], by decide +kernel⟩

/-- In particular, control characters other than line breaks are on the page only if they are in the document. -/
example (u : Uni) (c : Cfg) (f : Forest) (hw : f.WellFormed false) (hr : c.renderers = []) (hl : c.linkRenderers = [])
    (hd : c.defaultRenderer = .cls .renderer) (hf : c.outputFormat ≠ py"gophermap") (out : Str) (h : renderEvents u c f.events = .ok out)
    (ch : Char) (hc : ch.toNat < 32 ∨ ch.toNat = 127) (hn : ch ≠ '\n') (hm : ch ∈ out) : f.Has ch := by
  rcases C103 u c f hw hr hl hd hf out h ch hm with h | h
  · exact h
  · have : ∀ d ∈ ownChars, (d.toNat < 32 ∨ d.toNat = 127) → d = '\n' := by decide
    exact absurd (this ch h hc) hn

example : (c103Example py"a b").WellFormed false ∧ renderEvents asciiUni {} (c103Example py"a b").events =
    .ok py"\n[one][1][two][2]\n\n    a b\n\n\n[1] one: x.txt\n[2] two: http://y \"Y\"" := by
  refine ⟨by simp [c103Example, Forest.WellFormed, VoidTag], by decide +kernel⟩

/-- The text must not have tabs: otherwise there is a line with tabs that is no item. -/
theorem C103_tab_fails : ∃ (out : Str), renderEvents asciiUni { outputFormat := py"gophermap", gopherHost := py"g" } (c103Example py"0a\tb\tc\td").events =
    .ok out ∧ (tabLines out).length = 3 ∧ (c103Example py"0a\tb\tc\td").addresses.length = 2 := by
  refine ⟨py"\n[one][1][two][2]\n\n    0a\tb\tc\td\n\n0[1] one\tx.txt\tg\t70\nh[2] Y\tURL:http://y\tg\t70\n", by decide +kernel, by decide, by decide⟩

end Verif
