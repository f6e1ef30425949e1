import Verif.Spec.Cuts
import Verif.Props.Wrapper
import Verif.Props.Source

/-!
# C95: texts in pieces
-/

namespace Verif

open Spec

/-! ## The text that is kept -/

/-- The two texts are not separated by whitespace on both sides. -/
def Joint (p q : Str) : Prop := (∃ p0 c, p = p0 ++ [c] ∧ isSpace c = false) ∨ (∃ c q0, q = c :: q0 ∧ isSpace c = false)

theorem lstrip_joint {p q : Str} (h : Joint p q) : lstrip (p ++ q) = lstrip p ++ q := by
  unfold lstrip
  rw [List.dropWhile_append]
  split
  · rename_i he
    rw [List.isEmpty_iff] at he
    rcases h with ⟨p0, c, rfl, hc⟩ | ⟨c, q0, rfl, hc⟩
    · rw [dropWhile_nil_iff] at he
      have := he c (by simp)
      simp [hc] at this
    · rw [he]; simp [List.dropWhile, hc]
  · rfl

theorem rstrip_joint {p q : Str} (h : Joint p q) : rstrip (p ++ q) = p ++ rstrip q := by
  unfold rstrip
  rw [List.reverse_append, List.dropWhile_append]
  split
  · rename_i he
    rw [List.isEmpty_iff] at he
    rcases h with ⟨p0, c, rfl, hc⟩ | ⟨c, q0, rfl, hc⟩
    · rw [he]; simp [hc]
    · rw [dropWhile_nil_iff] at he
      have := he c (by simp)
      simp [hc] at this
  · simp

theorem lstrip_end {p0 : Str} {c : Char} (hc : isSpace c = false) : ∃ p1, lstrip (p0 ++ [c]) = p1 ++ [c] := by
  refine ⟨lstrip p0, ?_⟩
  exact lstrip_joint (.inr ⟨c, [], rfl, hc⟩)

theorem rstrip_start {q0 : Str} {c : Char} (hc : isSpace c = false) : ∃ q1, rstrip (c :: q0) = c :: q1 := by
  refine ⟨rstrip q0, ?_⟩
  exact rstrip_joint (p := [c]) (.inl ⟨[], c, rfl, hc⟩)

theorem strip_joint {p q : Str} (h : Joint p q) : strip (p ++ q) = lstrip p ++ rstrip q := by
  unfold strip
  rw [lstrip_joint h, rstrip_joint]
  rcases h with ⟨p0, c, rfl, hc⟩ | h
  · obtain ⟨p1, e⟩ := lstrip_end (p0 := p0) hc
    exact .inl ⟨p1, c, e, hc⟩
  · exact .inr h

theorem join_glue (sep : Str) (x y : Str) (as bs : List Str) :
    join sep (as ++ (x ++ y) :: bs) = join sep (as ++ [x]) ++ join sep (y :: bs) := by
  induction as with
  | nil =>
    cases bs with
    | nil => simp [join]
    | cons b bs =>
      simp only [List.nil_append]
      rw [join_cons_ne sep (x ++ y) (b :: bs) (by simp), join_cons_ne sep y (b :: bs) (by simp)]
      simp [join]
  | cons a as ih =>
    rw [List.cons_append, join_cons_ne sep a (as ++ (x ++ y) :: bs) (by simp), ih, List.cons_append, join_cons_ne sep a (as ++ [x]) (by simp)]
    simp

theorem stripInside_cons (a : Str) (as : List Str) (x : Str) :
    stripInside (a :: (as ++ [x])) = rstrip a :: (as.map strip ++ [lstrip x]) := by
  cases as with
  | nil => simp [stripInside]
  | cons b as =>
    have e : (b :: (as ++ [x])) = (b :: as) ++ [x] := rfl
    simp only [List.cons_append, stripInside]
    rw [e, List.dropLast_concat, List.getLast?_concat]
    rfl

/-- What is left of the lines of a text: of the last line and of the first one. -/
theorem stripInside_glue {p q : Str} (as bs : List Str) (h : Joint p q) :
    ∃ as' p' q' bs', stripInside (as ++ [p]) = as' ++ [p'] ∧ stripInside (q :: bs) = q' :: bs' ∧
      stripInside (as ++ (p ++ q) :: bs) = as' ++ (p' ++ q') :: bs' ∧
      ((∃ p0 c, p' = p0 ++ [c] ∧ isSpace c = false) ∨ (∃ c q0, q' = c :: q0 ∧ isSpace c = false)) := by
  have hj := h
  cases as with
  | nil =>
    rcases List.eq_nil_or_concat bs with rfl | ⟨bs, b, rfl⟩
    · exact ⟨[], p, q, [], rfl, rfl, rfl, h⟩
    · refine ⟨[], p, rstrip q, bs.map strip ++ [lstrip b], rfl, ?_, ?_, ?_⟩
      · rw [List.concat_eq_append, stripInside_cons]
      · rw [List.concat_eq_append, List.nil_append, stripInside_cons, rstrip_joint h]; rfl
      · rcases h with h | ⟨c, q0, rfl, hc⟩
        · exact .inl h
        · obtain ⟨q1, e⟩ := rstrip_start (q0 := q0) hc
          exact .inr ⟨c, q1, e, hc⟩
  | cons a as =>
    rcases List.eq_nil_or_concat bs with rfl | ⟨bs, b, rfl⟩
    · refine ⟨rstrip a :: as.map strip, lstrip p, q, [], ?_, rfl, ?_, ?_⟩
      · rw [List.cons_append, stripInside_cons]; rfl
      · rw [List.cons_append, stripInside_cons, lstrip_joint h]; rfl
      · rcases h with ⟨p0, c, rfl, hc⟩ | h
        · obtain ⟨p1, e⟩ := lstrip_end (p0 := p0) hc
          exact .inl ⟨p1, c, e, hc⟩
        · exact .inr h
    · refine ⟨rstrip a :: as.map strip, lstrip p, rstrip q, bs.map strip ++ [lstrip b], ?_, ?_, ?_, ?_⟩
      · rw [List.cons_append, stripInside_cons]; rfl
      · rw [List.concat_eq_append, stripInside_cons]
      · rw [List.concat_eq_append, show a :: as ++ (p ++ q) :: (bs ++ [b]) = a :: ((as ++ (p ++ q) :: bs) ++ [b]) by simp, stripInside_cons,
          List.map_append, List.map_cons, strip_joint h]
        simp
      · rcases h with ⟨p0, c, rfl, hc⟩ | ⟨c, q0, rfl, hc⟩
        · obtain ⟨p1, e⟩ := lstrip_end (p0 := p0) hc
          exact .inl ⟨p1, c, e, hc⟩
        · obtain ⟨q1, e⟩ := rstrip_start (q0 := q0) hc
          exact .inr ⟨c, q1, e, hc⟩

theorem collapse_cons {c : Char} (hc : isSpace c = false) (a r : Str) (b : Bool) :
    collapse b (a ++ c :: r) = collapse b a ++ c :: collapse false r := by
  have h1 : c ≠ ' ' := by rintro rfl; revert hc; decide
  have h2 : c ≠ '\t' := by rintro rfl; revert hc; decide
  induction a generalizing b with
  | nil => simp [collapse, h1, h2]
  | cons x a ih =>
    simp only [List.cons_append, collapse, ih]
    split
    · split <;> simp
    · simp

theorem collapse_joint {p q : Str} (h : Joint p q) : collapse false (p ++ q) = collapse false p ++ collapse false q := by
  rcases h with ⟨p0, c, rfl, hc⟩ | ⟨c, q0, rfl, hc⟩
  · rw [List.append_assoc, List.singleton_append, collapse_cons hc, collapse_cons hc]
    simp [collapse]
  · have := collapse_cons hc [] q0 false
    rw [collapse_cons hc]
    rw [List.nil_append] at this
    rw [this]
    rfl

/-- A text that is cut where there is not whitespace on both sides is kept in pieces. -/
theorem kept_cut {s t : Str} (h : ¬ (EndsWs s ∧ StartsWs t)) : normaliseData false (s ++ t) = normaliseData false s ++ normaliseData false t := by
  have e0 : normaliseData false [] = [] := rfl
  cases s with
  | nil => rw [e0]; rfl
  | cons s0 s =>
    cases t with
    | nil => rw [e0]; simp
    | cons t0 t =>
      obtain ⟨A, p, q, B, h1, h2, h3⟩ := splitCh_glue (s0 :: s) (t0 :: t)
      have hj : Joint p q := by
        by_cases hs : StartsWs (t0 :: t)
        · have hl : ¬ EndsWs (s0 :: s) := fun q => h ⟨q, hs⟩
          obtain ⟨i, c, hic⟩ : ∃ i c, s0 :: s = i ++ [c] := by
            rcases List.eq_nil_or_concat (s0 :: s) with e | ⟨i, c, e⟩
            · cases e
            · exact ⟨i, c, by simpa using e⟩
          have hc : isSpace c = false := by
            cases hcs : isSpace c with
            | false => rfl
            | true => exact absurd ⟨c, by rw [hic]; simp, hcs⟩ hl
          have hcn : c ≠ '\n' := by rintro rfl; revert hc; decide
          have hs' := join_splitCh '\n' (s0 :: s)
          rw [h1] at hs'
          left
          rcases List.eq_nil_or_concat p with rfl | ⟨p0, d, e⟩
          · exfalso
            cases A with
            | nil => simp [join] at hs'
            | cons a A =>
              have := join_append ['\n'] (a :: A) [[]] (by simp) (by simp)
              rw [this, hic] at hs'
              simp only [join] at hs'
              have := congrArg List.getLast? hs'
              simp at this
              exact hcn this.symm
          · refine ⟨p0, d, by simpa using e, ?_⟩
            have hd : d = c := by
              rw [List.concat_eq_append] at e
              subst e
              have hx : ∀ A : List Str, ∃ z, join ['\n'] (A ++ [p0 ++ [d]]) = z ++ [d] := by
                intro A
                cases A with
                | nil => exact ⟨p0, by simp [join]⟩
                | cons a A =>
                  refine ⟨join ['\n'] (a :: A) ++ ['\n'] ++ p0, ?_⟩
                  rw [join_append ['\n'] (a :: A) [p0 ++ [d]] (by simp) (by simp)]
                  simp [join]
              obtain ⟨z, hz⟩ := hx A
              rw [hz, hic] at hs'
              have := congrArg List.getLast? hs'
              simpa using this
            rw [hd]; exact hc
        · have hc : isSpace t0 = false := by
            cases hcs : isSpace t0 with
            | false => rfl
            | true => exact absurd ⟨t0, rfl, hcs⟩ hs
          have hcn : t0 ≠ '\n' := by rintro rfl; revert hc; decide
          obtain ⟨l, ls, g1, g2⟩ := splitCh_cons_ne '\n' t0 t hcn
          rw [h2] at g2
          cases g2
          exact .inr ⟨t0, l, rfl, hc⟩
      obtain ⟨as', p', q', bs', g1, g2, g3, g4⟩ := stripInside_glue A B hj
      simp only [normaliseData, Bool.false_eq_true, if_false]
      rw [h1, h2, h3, g1, g2, g3, join_glue, collapse_joint]
      rcases g4 with ⟨p0, c, rfl, hc⟩ | ⟨c, q0, rfl, hc⟩
      · left
        cases as' with
        | nil => exact ⟨p0, c, by simp [join], hc⟩
        | cons a as' =>
          refine ⟨join py" " (a :: as') ++ py" " ++ p0, c, ?_, hc⟩
          rw [join_append py" " (a :: as') [p0 ++ [c]] (by simp) (by simp)]
          simp [join]
      · right
        cases bs' with
        | nil => exact ⟨c, q0, by simp [join], hc⟩
        | cons b bs' => exact ⟨c, _, by rw [join_cons_ne _ _ _ (by simp)]; simp; rfl, hc⟩

/-! ## The page -/

theorem Spec.CutTexts.count {pre ol : Bool} {f f' : Forest} (h : CutTexts pre ol f f') (p : Str → Bool) : f.count p = f'.count p := by
  induction h with
  | nil => rfl
  | text _ ih => exact ih
  | cut _ _ ih => exact ih
  | elem _ _ ih1 ih2 => simp only [Forest.count, ih1, ih2]

theorem Spec.CutTexts.topCount {pre ol : Bool} {f f' : Forest} (h : CutTexts pre ol f f') (p : Str → Bool) : f.topCount p = f'.topCount p := by
  induction h with
  | nil => rfl
  | text _ ih => exact ih
  | cut _ _ ih => exact ih
  | elem _ _ ih1 ih2 => simp only [Forest.topCount, ih2]

theorem Spec.CutTexts.isNil {pre ol : Bool} {f f' : Forest} (h : CutTexts pre ol f f') : f = .nil ↔ f' = .nil := by
  cases h <;> simp

theorem Spec.CutTexts.onlyCode {pre ol : Bool} {f f' : Forest} (h : CutTexts pre ol f f') : f.OnlyCode ↔ f'.OnlyCode := by
  cases h with
  | nil => exact Iff.rfl
  | text => exact Iff.rfl
  | cut => exact Iff.rfl
  | elem h1 h2 =>
    cases h2 with
    | nil => exact Iff.rfl
    | text => exact Iff.rfl
    | cut => exact Iff.rfl
    | elem => exact Iff.rfl

theorem Spec.CutTexts.wellFormed {pre ol : Bool} {f f' : Forest} (h : CutTexts pre ol f f') (b : Bool) : f.WellFormed b ↔ f'.WellFormed b := by
  induction h generalizing b with
  | nil => exact Iff.rfl
  | text _ ih => exact ih b
  | cut _ _ ih => exact ih b
  | elem h1 _ ih1 ih2 => simp only [Forest.WellFormed, ih1, ih2, h1.isNil]

theorem Spec.CutTexts.readable {u : Uni} {c : Cfg} {pre ol : Bool} {f f' : Forest} (h : CutTexts pre ol f f') (i : Prop) :
    f.Readable u c i ↔ f'.Readable u c i := by
  induction h generalizing i with
  | nil => exact Iff.rfl
  | text _ ih => exact ih i
  | cut _ _ ih => exact ih i
  | elem _ _ ih1 ih2 => simp only [Forest.Readable, ih1, ih2]

theorem marker_place {up : List Str} {a a' : Nat} (h : a' = a ∨ up.head? ≠ some py"ol") (tag : Str) :
    Place.marker ⟨up, a, 0, 0⟩ tag = Place.marker ⟨up, a', 0, 0⟩ tag := by
  rcases h with rfl | h
  · rfl
  · simp only [Place.marker, Place.bullet, if_neg h]

theorem Spec.CutTexts.hasRoom {pre ol : Bool} {f f' : Forest} (h : CutTexts pre ol f f') {up : List Str} (ho : ol = (up.head? == some py"ol"))
    {a a' : Nat} (ha : a' = a ∨ up.head? ≠ some py"ol") (w : Int) : f.HasRoom up a w ↔ f'.HasRoom up a' w := by
  induction h generalizing up a a' w with
  | nil => exact Iff.rfl
  | text _ ih => exact ih ho (ha.imp (congrArg (· + 1)) id) w
  | cut _ _ ih =>
    have hn : up.head? ≠ some py"ol" := fun e => by rw [e] at ho; cases ho
    simp only [Forest.HasRoom]
    exact ih (a := a) (a' := a' + 1) ho (.inr hn) w
  | elem h1 h2 ih1 ih2 =>
    rename_i pre ol tag attrs kids kids' rest rest'
    simp only [Forest.HasRoom, marker_place ha tag, h1.onlyCode]
    rw [ih1 (up := tag :: up) (a := 0) (a' := 0) (by simp) (.inl rfl), ih2 ho (ha.imp (congrArg (· + 1)) id) w]

theorem painted_cut {u : Uni} {c : Cfg} {p r : Int} {up : List Str} {a a' b l m : Nat} {attrs : List (Str × Option Str)} {kids kids' : Forest}
    {tag : Str} {inner : Int} {y x : Str} (ha : a' = a ∨ up.head? ≠ some py"ol") (hk : kids.OnlyCode ↔ kids'.OnlyCode)
    (h : Painted u c p r ⟨up, a, b, l⟩ m attrs kids tag inner y x) : Painted u c p r ⟨up, a', b, l⟩ m attrs kids' tag inner y x := by
  cases h with
  | marked h => exact .marked h
  | br => exact .br
  | code h1 h2 => exact .code h1 h2
  | fence h1 h2 => exact .fence h1 h2
  | codeInPre h => exact .codeInPre h
  | reference h => exact .reference h
  | link h => exact .link h
  | imageReference h => exact .imageReference h
  | image h => exact .image h
  | header h => exact .header h
  | pre h => exact .pre h
  | quote h => exact .quote h
  | list h => exact .list h
  | div => exact .div
  | term => exact .term (pl := ⟨up, a', b, l⟩)
  | item h =>
    have e : Place.bullet ⟨up, a, b, l⟩ = Place.bullet ⟨up, a', b, l⟩ := by
      rcases ha with rfl | ha
      · rfl
      · simp only [Place.bullet, if_neg ha]
    rw [e] at h ⊢
    exact .item (pl := ⟨up, a', b, l⟩) h
  | description h => exact .description h
  | paragraph h1 h2 h3 h4 => exact .paragraph (pl := ⟨up, a', b, l⟩) (fun q => h1 (hk.2 q)) h2 h3 h4
  | codeParagraph h => exact .codeParagraph (pl := ⟨up, a', b, l⟩) (hk.1 h)
  | other h => exact .other h

theorem Spec.CutTexts.draw {u : Uni} {c : Cfg} {limit : Nat} {p : Int} {pre ol : Bool} {f f' : Forest} (h : CutTexts pre ol f f')
    {up : List Str} (hp : pre = decide (py"pre" ∈ up)) (ho : ol = (up.head? == some py"ol")) {mode : Mode} {a a' b k : Nat} {r : Int} {x : Str}
    (ha : a' = a ∨ up.head? ≠ some py"ol") : Draw u c limit p mode up a b k r f x ↔ Draw u c limit p mode up a' b k r f' x := by
  induction h generalizing up mode a a' b k r x with
  | nil => constructor <;> (intro h; cases h; exact .nil)
  | text _ ih =>
    have ha1 := ha.imp (congrArg (· + 1)) id
    constructor
    · intro h
      cases h with
      | text h => exact .text ((ih hp ho ha1).1 h)
      | skipText h1 h2 => exact .skipText h1 ((ih hp ho ha1).1 h2)
    · intro h
      cases h with
      | text h => exact .text ((ih hp ho ha1).2 h)
      | skipText h1 h2 => exact .skipText h1 ((ih hp ho ha1).2 h2)
  | cut hc _ ih =>
    rename_i pre s t rest rest' _
    have hn : up.head? ≠ some py"ol" := fun e => by rw [e] at ho; cases ho
    have hk : normaliseData (decide (py"pre" ∈ up)) (s ++ t) = normaliseData (decide (py"pre" ∈ up)) s ++ normaliseData (decide (py"pre" ∈ up)) t := by
      rw [← hp]
      cases pre with
      | true => rfl
      | false => exact kept_cut (hc.resolve_left (by simp))
    constructor
    · intro h
      cases h with
      | text h =>
        rw [hk, List.append_assoc]
        exact .text ((ih (a := a) hp ho (.inr hn)).1 (.text h))
      | skipText h1 h2 => exact .skipText h1 ((ih (a := a) hp ho (.inr hn)).1 (.skipText h1 h2))
    · intro h
      cases h with
      | text h =>
        have := (ih (a := a) hp ho (.inr hn)).2 h
        cases this with
        | text h' =>
          rw [← List.append_assoc, ← hk]
          exact .text h'
        | skipText h1 => exact absurd rfl h1
      | skipText h1 h2 =>
        have := (ih (a := a) hp ho (.inr hn)).2 h2
        cases this with
        | text h => exact absurd rfl h1
        | skipText h1 h2 => exact .skipText h1 h2
  | elem hk hrest ih1 ih2 =>
    rename_i pre ol tag attrs kids kids' rest rest'
    have ha1 := ha.imp (congrArg (· + 1)) id
    have hp' : (pre || tag == py"pre") = decide (py"pre" ∈ tag :: up) := by
      rw [hp]
      by_cases e : tag = py"pre"
      · simp [e]
      · have e' : ¬ py"pre" = tag := fun q => e q.symm
        simp [e, e']
    have ho' : (tag == py"ol") = ((tag :: up).head? == some py"ol") := by simp
    have own : ∀ {q : Prop} [Decidable q] {mode : Mode} {k : Nat} {r : Int} {x : Str},
        Draw u c limit p mode (tag :: up) 0 0 k r (if q then .nil else kids) x ↔ Draw u c limit p mode (tag :: up) 0 0 k r (if q then .nil else kids') x := by
      intro q _ mode k r x
      split
      · exact Iff.rfl
      · exact ih1 hp' ho' (.inl rfl)
    have own' : ∀ {q : Prop} [Decidable q] {mode : Mode} {k : Nat} {r : Int} {x : Str},
        Draw u c limit p mode (tag :: up) 0 0 k r (if q then kids else .nil) x ↔ Draw u c limit p mode (tag :: up) 0 0 k r (if q then kids' else .nil) x := by
      intro q _ mode k r x
      split
      · exact ih1 hp' ho' (.inl rfl)
      · exact Iff.rfl
    have top : ∀ {q : Prop} [Decidable q] (g : Str → Bool), (if q then Forest.nil else kids).topCount g = (if q then Forest.nil else kids').topCount g := by
      intro q _ g
      split
      · rfl
      · exact hk.topCount g
    constructor
    · intro h
      cases h with
      | elem h1 h2 h3 h4 h5 h6 =>
        subst h3
        rw [top, hrest.topCount] at h5
        rw [hk.count] at h6
        exact .elem h1 ((ih1 hp' ho' (.inl rfl)).1 h2) rfl (own.1 h4) (painted_cut ha hk.onlyCode h5) ((ih2 hp ho ha1).1 h6)
      | entry h1 h2 h3 h4 h5 h6 h7 =>
        rw [hk.count] at h7
        exact .entry h1 h2 h3 ((ih1 hp' ho' (.inl rfl)).1 h4) h5 (own'.1 h6) ((ih2 hp ho ha1).1 h7)
      | skipElem h1 h2 h3 h4 h5 =>
        rw [hk.count] at h5
        exact .skipElem h1 h2 h3 (own'.1 h4) ((ih2 hp ho ha1).1 h5)
    · intro h
      have ha' : a = a' ∨ up.head? ≠ some py"ol" := ha.imp Eq.symm id
      cases h with
      | elem h1 h2 h3 h4 h5 h6 =>
        subst h3
        rw [← top, ← hrest.topCount] at h5
        rw [← hk.count] at h6
        exact .elem h1 ((ih1 hp' ho' (.inl rfl)).2 h2) rfl (own.2 h4) (painted_cut ha' hk.onlyCode.symm h5) ((ih2 hp ho ha1).2 h6)
      | entry h1 h2 h3 h4 h5 h6 h7 =>
        rw [← hk.count] at h7
        exact .entry h1 h2 h3 ((ih1 hp' ho' (.inl rfl)).2 h4) h5 (own'.2 h6) ((ih2 hp ho ha1).2 h7)
      | skipElem h1 h2 h3 h4 h5 =>
        rw [← hk.count] at h5
        exact .skipElem h1 h2 h3 (own'.2 h4) ((ih2 hp ho ha1).2 h5)

theorem Spec.CutTexts.page {u : Uni} {c : Cfg} {f f' : Forest} (h : CutTexts false false f f') (limit : Nat) (page : Str) :
    PageOfTree u c f limit page ↔ PageOfTree u c f' limit page := by
  have hb : ∀ mode b k r x p, Draw u c limit p mode [] 0 b k r f x ↔ Draw u c limit p mode [] 0 b k r f' x :=
    fun mode b k r x p => h.draw (by simp) (by simp) (.inl rfl)
  have hg : (if c.linkPlacement = py"footer" then f else .nil).count (Mode.lists c .all) =
      (if c.linkPlacement = py"footer" then f' else .nil).count (Mode.lists c .all) := by
    split
    · exact h.count _
    · rfl
  have hd : ∀ mode b k r x p, Draw u c limit p mode [] 0 b k r (if c.linkPlacement = py"footer" then f else .nil) x ↔
      Draw u c limit p mode [] 0 b k r (if c.linkPlacement = py"footer" then f' else .nil) x := by
    intro mode b k r x p
    split
    · exact hb mode b k r x p
    · exact Iff.rfl
  constructor
  · rintro ⟨body, foot, g, rfl, h1, h2, h3⟩
    exact ⟨body, foot, _, rfl, (hb ..).1 h1, (hd ..).1 h2, by rw [h3, hg]⟩
  · rintro ⟨body, foot, g, rfl, h1, h2, h3⟩
    exact ⟨body, foot, _, rfl, (hb ..).2 h1, (hd ..).2 h2, by rw [h3, hg]⟩

/-- Texts can be cut in pieces: the output is the same, or there is none. -/
theorem C95 (u : Uni) (c : Cfg) (f f' : Forest) (h : CutTexts false false f f') (hw : f.WellFormed false) (hr : c.renderers = [])
    (hl : c.linkRenderers = []) (hd : c.defaultRenderer = .cls .renderer)
    (h0 : c.outputFormat = py"gophermap" → c.linkPlacement ≠ py"inline" ∧ c.gopherHost ≠ []) (out : Str) :
    renderEvents u c f.events = .ok out ↔ renderEvents u c f'.events = .ok out := by
  rw [C91 u c f hw hr hl hd h0, C91 u c f' ((h.wellFormed false).1 hw) hr hl hd h0, h.readable, h.hasRoom (up := []) (by simp) (.inl rfl)]
  simp only [h.page]

/-- The same for the source of the documents; in particular a comment in the middle of a text makes no difference. -/
theorem C95_source (u : Uni) (c : Cfg) (doc doc' : List Item) (hdoc : DocOk u.entity u.lower doc) (hdoc' : DocOk u.entity u.lower doc')
    (f f' : Forest) (hf : Denotes (docEvents u.lower doc) f) (hf' : Denotes (docEvents u.lower doc') f') (h : CutTexts false false f f')
    (hw : f.WellFormed false) (hr : c.renderers = []) (hl : c.linkRenderers = []) (hd : c.defaultRenderer = .cls .renderer)
    (h0 : c.outputFormat = py"gophermap" → c.linkPlacement ≠ py"inline" ∧ c.gopherHost ≠ []) (out : Str) :
    renderHtml u c [docSrc doc] = .ok out ↔ renderHtml u c [docSrc doc'] = .ok out := by
  rw [(C68 u c doc hdoc).2.2, renderEvents_denotes u c hf, (C68 u c doc' hdoc').2.2, renderEvents_denotes u c hf']
  exact C95 u c f f' h hw hr hl hd h0 out

/-! ## Documents in pieces -/

/-- The second events are the first with texts cut. -/
inductive CutEvents : List Event → List Event → Prop where
  | nil : CutEvents [] []
  | data {r r' : List Event} (d : Str) (ds : List Str) : CutEvents r r' → CutEvents (.data (d :: ds).flatten :: r) (.data d :: (ds.map .data ++ r'))
  | start {r r' : List Event} {tag attrs} : CutEvents r r' → CutEvents (.start tag attrs :: r) (.start tag attrs :: r')
  | stop {r r' : List Event} {tag} : CutEvents r r' → CutEvents (.stop tag :: r) (.stop tag :: r')

theorem cut_joinTexts (es : List Event) : CutEvents (joinTexts es) es := by
  induction es with
  | nil => exact .nil
  | cons e r ih =>
    have e1 : joinTexts (e :: r) = glue e (joinTexts r) := rfl
    rw [e1]
    cases e with
    | start tag attrs => exact .start ih
    | stop tag => exact .stop ih
    | data a =>
      generalize joinTexts r = q at ih
      cases ih with
      | nil => simpa [glue] using CutEvents.data a [] .nil
      | data d ds h => simpa [glue] using CutEvents.data a (d :: ds) h
      | start h => simpa [glue] using CutEvents.data a [] (.start h)
      | stop h => simpa [glue] using CutEvents.data a [] (.stop h)

/-- Texts in a row. -/
def texts : List Str → Forest → Forest
  | [], f => f
  | d :: ds, f => .text d (texts ds f)

theorem texts_events (ds : List Str) (f : Forest) : (texts ds f).events = ds.map .data ++ f.events := by
  induction ds with
  | nil => rfl
  | cons d ds ih => simp [texts, Forest.events, ih]

theorem cut_texts {pre : Bool} {f f' : Forest} (d : Str) (ds : List Str) (h : CutTexts pre false f f')
    (hs : pre = true ∨ ∀ a x y b, (d :: ds).flatten = a ++ x :: y :: b → ¬ (isSpace x = true ∧ isSpace y = true)) :
    CutTexts pre false (.text (d :: ds).flatten f) (texts (d :: ds) f') := by
  induction ds generalizing d with
  | nil => simpa [texts] using CutTexts.text h
  | cons e ds ih =>
    have e1 : (d :: e :: ds).flatten = d ++ (e :: ds).flatten := rfl
    rw [e1] at hs ⊢
    refine .cut (hs.imp id ?_) (ih e (hs.imp id ?_))
    · rintro hs ⟨⟨x, hx, hxs⟩, ⟨y, hy, hys⟩⟩
      obtain ⟨a, ha⟩ : ∃ a, d = a ++ [x] := by
        rcases List.eq_nil_or_concat d with rfl | ⟨a, z, rfl⟩
        · cases hx
        · simp at hx; subst hx; exact ⟨a, by simp⟩
      obtain ⟨b, hb⟩ : ∃ b, (e :: ds).flatten = y :: b := by
        cases hq : (e :: ds).flatten with
        | nil => rw [hq] at hy; cases hy
        | cons z b => rw [hq] at hy; cases hy; exact ⟨b, rfl⟩
      exact hs a x y b (by rw [ha, hb]; simp) ⟨hxs, hys⟩
    · intro hs a x y b hq
      exact hs (d ++ a) x y b (by rw [hq]; simp)

theorem cut_forest {pre ol : Bool} {f : Forest} (hf : f.Robust pre ol) {t es : List Event} (h : CutEvents (f.events ++ t) es) :
    ∃ f' t', es = f'.events ++ t' ∧ CutEvents t t' ∧ CutTexts pre ol f f' := by
  induction f generalizing pre ol t es with
  | nil => exact ⟨.nil, es, rfl, h, .nil⟩
  | text s rest ih =>
    obtain ⟨rfl, h2, h3⟩ := hf
    have e : (Forest.text s rest).events ++ t = .data s :: (rest.events ++ t) := rfl
    rw [e] at h
    cases h with
    | data d ds h =>
      obtain ⟨rest', t', rfl, k1, k2⟩ := ih h3 h
      refine ⟨texts (d :: ds) rest', t', ?_, k1, cut_texts d ds k2 h2⟩
      rw [texts_events]; simp
  | elem tag attrs kids rest ih1 ih2 =>
    obtain ⟨h1, h2⟩ := hf
    have e : (Forest.elem tag attrs kids rest).events ++ t =
        .start tag attrs :: (kids.events ++ ((if VoidTag tag then [] else [.stop tag]) ++ (rest.events ++ t))) := by simp [Forest.events]
    rw [e] at h
    cases h with
    | start h =>
      obtain ⟨kids', t1, rfl, k1, k2⟩ := ih1 h1 h
      by_cases hv : VoidTag tag
      · rw [if_pos hv, List.nil_append] at k1
        obtain ⟨rest', t', rfl, k3, k4⟩ := ih2 h2 k1
        exact ⟨.elem tag attrs kids' rest', t', by simp [Forest.events, hv], k3, .elem k2 k4⟩
      · rw [if_neg hv] at k1
        cases k1 with
        | stop k1 =>
          obtain ⟨rest', t', rfl, k3, k4⟩ := ih2 h2 k1
          exact ⟨.elem tag attrs kids' rest', t', by simp [Forest.events, hv], k3, .elem k2 k4⟩

/-- Putting the tags right leaves the cuts where they are. -/
theorem cut_mend {a b : List Event} (h : CutEvents a b) (open_ : List Str) :
    CutEvents (mend open_ a) (mend open_ b) ∧ (NoStrayPre open_ a ↔ NoStrayPre open_ b) := by
  induction h generalizing open_ with
  | nil =>
    refine ⟨?_, .rfl⟩
    show CutEvents (open_.map .stop) (open_.map .stop)
    induction open_ with
    | nil => exact .nil
    | cons t o ih => exact .stop ih
  | data d ds h ih =>
    have e : ∀ (ds : List Str) r, mend open_ (ds.map .data ++ r) = ds.map .data ++ mend open_ r ∧
        (NoStrayPre open_ (ds.map .data ++ r) ↔ NoStrayPre open_ r) := by
      intro ds r
      induction ds with
      | nil => exact ⟨rfl, .rfl⟩
      | cons d ds ih =>
        obtain ⟨i1, i2⟩ := ih
        refine ⟨?_, ?_⟩
        · rw [List.map_cons, List.cons_append, mend_data, i1]; rfl
        · rw [← i2]; cases open_ <;> rfl
    have en : ∀ x r, NoStrayPre open_ (.data x :: r) ↔ NoStrayPre open_ r := by intro x r; cases open_ <;> rfl
    obtain ⟨i1, i2⟩ := ih open_
    rw [mend_data, mend_data, (e ds _).1, en, en, (e ds _).2]
    exact ⟨.data d ds i1, i2⟩
  | @start r r' tag attrs h ih =>
    have en : ∀ r, NoStrayPre open_ (.start tag attrs :: r) = NoStrayPre (if VoidTag tag then open_ else tag :: open_) r := by
      intro r; cases open_ <;> rfl
    rw [mend_start, mend_start, en, en]
    obtain ⟨i1, i2⟩ := ih (if VoidTag tag then open_ else tag :: open_)
    exact ⟨.start i1, i2⟩
  | @stop r r' tag h ih =>
    cases open_ with
    | nil => exact ih []
    | cons t open_ =>
      by_cases et : tag = t
      · simp only [mend, NoStrayPre, if_pos et]
        obtain ⟨i1, i2⟩ := ih open_
        exact ⟨.stop i1, i2⟩
      · simp only [mend, NoStrayPre, if_neg et]
        obtain ⟨i1, i2⟩ := ih (t :: open_)
        exact ⟨i1, by rw [i2]⟩

/-- Events with the same texts as the document. -/
theorem denotes_cut {es : List Event} {f : Forest} (hrob : f.Robust false false) (h : Denotes (joinTexts es) f) :
    ∃ f', Denotes es f' ∧ CutTexts false false f f' := by
  obtain ⟨k1, k2⟩ := cut_mend (cut_joinTexts es) []
  rw [h.2] at k1
  obtain ⟨f', t', e, g1, g2⟩ := cut_forest hrob (t := []) (by rwa [List.append_nil])
  cases g1
  exact ⟨f', ⟨k2.1 h.1, by rw [e, List.append_nil]⟩, g2⟩

/-- A document that can be cut anywhere is rendered the same in whatever pieces it is fed. -/
theorem C95_pieces (u : Uni) (c : Cfg) (doc : List Item) (hdoc : DocOk u.entity u.lower doc) (f : Forest)
    (hf : Denotes (joinTexts (docEvents u.lower doc)) f) (hrob : f.Robust false false) (ps : List Str) (hp : ps.flatten = docSrc doc)
    (hw : f.WellFormed false) (hr : c.renderers = []) (hl : c.linkRenderers = []) (hd : c.defaultRenderer = .cls .renderer)
    (h0 : c.outputFormat = py"gophermap" → c.linkPlacement ≠ py"inline" ∧ c.gopherHost ≠ []) (out : Str) :
    renderHtml u c ps = .ok out ↔ renderHtml u c [docSrc doc] = .ok out := by
  obtain ⟨⟨es, -, h2, h3⟩, -⟩ := C69_partial u c doc hdoc ps hp
  obtain ⟨f1, k1, k2⟩ := denotes_cut hrob hf
  rw [← h2] at hf
  obtain ⟨f2, k3, k4⟩ := denotes_cut hrob hf
  rw [h3, (C68 u c doc hdoc).2.2, renderEvents_denotes u c k1, renderEvents_denotes u c k3]
  rw [← C95 u c f f1 k2 hw hr hl hd h0 out, ← C95 u c f f2 k4 hw hr hl hd h0 out]

/-! ## Examples -/

/-- `<p>ab cd<b>e</b></p>` with its first text cut before the blank. -/
example : CutTexts false false (.elem py"p" [] (.text py"ab cd" (.elem py"b" [] (.text py"e" .nil) .nil)) .nil)
    (.elem py"p" [] (.text py"ab" (.text py" cd" (.elem py"b" [] (.text py"e" .nil) .nil))) .nil) :=
  .elem (.cut (s := py"ab") (t := py" cd") (.inr (by rintro ⟨⟨x, hx, h⟩, -⟩; cases hx; revert h; decide))
    (.text (.elem (.text .nil) .nil))) .nil

def cutsExample : List Item := [.start py"p" [] [], .text py"Fish" py"Fish", .stop py"p" []]

theorem cutsExample_ok : DocOk asciiUni.entity asciiUni.lower cutsExample := by
  refine ⟨?_, by simp [NoTextPair, cutsExample, Item.isText]⟩
  intro i hi
  simp only [cutsExample, List.mem_cons, List.not_mem_nil, or_false] at hi
  rcases hi with rfl | rfl | rfl
  · exact ⟨⟨'p', [], rfl, by decide, by simp⟩, by simp, by simp, by decide, by decide⟩
  · refine ⟨by simp, by decide, ?_⟩
    exact .char _ (by decide) (.char _ (by decide) (.char _ (by decide) (.char _ (by decide) .nil)))
  · exact ⟨⟨'p', [], rfl, by decide, by simp⟩, by simp⟩

theorem cutsExample_events : joinTexts (docEvents asciiUni.lower cutsExample) = (Forest.elem py"p" [] (.text py"Fish" .nil) .nil).events := by
  decide +kernel

/-- A paragraph that is fed one character at a time. -/
example (out : Str) : renderHtml asciiUni {} [py"<", py"p", py">", py"F", py"i", py"s", py"h", py"<", py"/", py"p", py">"] = .ok out ↔
    renderHtml asciiUni {} [docSrc cutsExample] = .ok out :=
  C95_pieces asciiUni {} cutsExample cutsExample_ok (.elem py"p" [] (.text py"Fish" .nil) .nil)
    (by rw [cutsExample_events]; exact denotes_events (b := false) (by simp [Forest.WellFormed, VoidTag]))
    ⟨⟨rfl, .inr (fun a x y b h => by
      have hx : x ∈ py"Fish" := by rw [h]; simp
      have : ∀ x ∈ py"Fish", ¬ isSpace x = true := by decide
      exact fun q => this x hx q.1), trivial⟩, trivial⟩ _ (by decide +kernel) (by simp [Forest.WellFormed, VoidTag]) rfl rfl rfl
    (fun h => by cases h) out

example : renderHtml asciiUni {} [py"<", py"p", py">", py"F", py"i", py"s", py"h", py"<", py"/", py"p", py">"] = .ok py"\nFish\n" := by
  decide +kernel

/-- A comment between blanks leaves both of them; a comment in the middle of text that is directly in an ordered list takes a number; and
a document that is cut between blanks keeps both of them. -/
theorem C95_fails :
    renderHtml asciiUni {} [py"<pre>a  b</pre><h1>a  b</h1>"] = .ok py"\n    a  b\n\n# a b #\n" ∧
    renderHtml asciiUni {} [py"<pre>a <!-- x --> b</pre><h1>a <!-- x --> b</h1>"] = .ok py"\n    a  b\n\n# a  b #\n" ∧
    renderHtml asciiUni {} [py"<ol>xy<li>a</li></ol>"] = .ok py"\nxy2. a\n" ∧
    renderHtml asciiUni {} [py"<ol>x<!-- -->y<li>a</li></ol>"] = .ok py"\nxy3. a\n" ∧
    renderHtml asciiUni {} [py"<h1>a ", py" b</h1>"] = .ok py"\n# a  b #\n" := by
  decide +kernel

end Verif
