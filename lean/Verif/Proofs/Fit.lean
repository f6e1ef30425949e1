import Verif.Proofs.Blocks
import Verif.Proofs.WrapText
import Verif.Proofs.Splitlines
import Verif.Proofs.Close
import Verif.Spec.Fit

/-!
# Widths of lines
-/

namespace Verif

open Spec

/-! ## Visible widths -/

theorem space_noSeq {u : Uni} {c : Char} (h : isSpace c = true) (q : Str) (hq : AnsiSeq u q) : c ∉ q := by
  obtain ⟨ds, h1, rfl⟩ := hq
  intro hm
  simp only [List.cons_append, List.mem_cons, List.mem_append, List.not_mem_nil, or_false] at hm
  rcases hm with rfl | rfl | hm | rfl
  · exact absurd h (by decide)
  · exact absurd h (by decide)
  · rcases h1 c hm with rfl | hd
    · exact absurd h (by decide)
    · rw [u.digit_space c h] at hd; cases hd
  · exact absurd h (by decide)

theorem strips_mid {u : Uni} {a b ta tb : Str} {c : Char} (hc : isSpace c = true) (ha : Strips u a ta) (hb : Strips u b tb) :
    Strips u (a ++ c :: b) (ta ++ c :: tb) := by
  induction ha with
  | nil => exact strips_plain (by rintro rfl; exact absurd hc (by decide)) hb
  | @seq q s t h _ ih => rw [List.append_assoc]; exact .seq h ih
  | @other x s t h _ ih =>
    refine .other ?_ ih
    intro q r hq e
    have hnc := space_noSeq hc q hq
    change (x :: s) ++ c :: b = q ++ r at e
    rcases List.append_eq_append_iff.1 e with ⟨z, z1, z2⟩ | ⟨z, z1, z2⟩
    · cases z with
      | nil => rw [List.append_nil] at z1; exact h q [] hq (by rw [z1]; simp)
      | cons y z =>
        simp only [List.cons_append, List.cons.injEq] at z2
        exact hnc (by rw [z1, z2.1]; simp)
    · exact h q z hq z1

theorem vlen_mid {u : Uni} {c : Char} (hc : isSpace c = true) (a b : Str) : vlen u (a ++ c :: b) = vlen u a + 1 + vlen u b := by
  have := strips_det (strips_mid hc (stripAnsi_strips u a) (stripAnsi_strips u b)) (stripAnsi_strips u (a ++ c :: b))
  unfold vlen
  rw [← this]
  simp
  omega

theorem vlen_plain {u : Uni} {a : Str} (ha : '\x1b' ∉ a) (l : Str) : vlen u (a ++ l) = a.length + vlen u l := by
  have := strips_det (strips_plains (fun c hc e => ha (e ▸ hc)) (stripAnsi_strips u l)) (stripAnsi_strips u (a ++ l))
  unfold vlen
  rw [← this]
  simp

/-! ## Lines that fit -/

/-- Trailing whitespace aside, the line fits. -/
def LineFit (u : Uni) (w : Int) (l : Str) : Prop := ∃ a b, l = a ++ b ∧ Blank b ∧ vlen u a ≤ w

theorem lineFit_nil {u : Uni} {w : Int} (h : 0 ≤ w) : LineFit u w [] := ⟨[], [], rfl, by simp [Blank], by rw [vlen_nil]; exact h⟩

theorem lineFit_blank {u : Uni} {w : Int} (h : 0 ≤ w) {l : Str} (hl : Blank l) : LineFit u w l :=
  ⟨[], l, rfl, hl, by rw [vlen_nil]; exact h⟩

theorem blank_append {a b : Str} (ha : Blank a) (hb : Blank b) : Blank (a ++ b) := fun c hc => (List.mem_append.1 hc).elim (ha c) (hb c)

theorem lineFit_pad {u : Uni} {w : Int} {l b : Str} (h : LineFit u w l) (hb : Blank b) : LineFit u w (l ++ b) := by
  obtain ⟨x, y, rfl, h1, h2⟩ := h
  exact ⟨x, y ++ b, by simp, blank_append h1 hb, h2⟩

theorem lineFit_prefix {u : Uni} {w : Int} {p l : Str} (hp : '\x1b' ∉ p) (h : LineFit u w l) : LineFit u (p.length + w) (p ++ l) := by
  obtain ⟨x, y, rfl, h1, h2⟩ := h
  exact ⟨p ++ x, y, by simp, h1, by rw [vlen_plain hp]; omega⟩

theorem lineFit_mono {u : Uni} {w w' : Int} {l : Str} (hw : w ≤ w') (h : LineFit u w l) : LineFit u w' l := by
  obtain ⟨x, y, h0, h1, h2⟩ := h
  exact ⟨x, y, h0, h1, by omega⟩

theorem lineFit_split {u : Uni} {w : Int} {c : Char} (h0 : 0 ≤ w) (hc : isSpace c = true) {a b : Str} (h : LineFit u w (a ++ c :: b)) :
    LineFit u w a ∧ LineFit u w b := by
  obtain ⟨x, y, e, h1, h2⟩ := h
  rcases List.append_eq_append_iff.1 e with ⟨z, z1, z2⟩ | ⟨z, z1, z2⟩
  · -- x = a ++ z, c :: b = z ++ y
    cases z with
    | nil =>
      rw [List.append_nil] at z1
      rw [List.nil_append] at z2
      rw [← z1]
      exact ⟨⟨x, [], by simp, by simp [Blank], h2⟩, lineFit_blank h0 (fun k hk => h1 k (by rw [← z2]; exact List.mem_cons_of_mem _ hk))⟩
    | cons d z =>
      simp only [List.cons_append, List.cons.injEq] at z2
      obtain ⟨rfl, rfl⟩ := z2
      rw [z1, vlen_mid hc] at h2
      have n1 := vlen_nonneg u a
      have n2 := vlen_nonneg u z
      exact ⟨⟨a, [], by simp, by simp [Blank], by omega⟩, ⟨z, y, rfl, h1, by omega⟩⟩
  · -- a = x ++ z, y = z ++ c :: b
    refine ⟨⟨x, z, z1, fun k hk => h1 k (by rw [z2]; simp [hk]), h2⟩, lineFit_blank h0 (fun k hk => h1 k (by rw [z2]; simp [hk]))⟩

theorem lineFit_rstrip {u : Uni} {w : Int} (h0 : 0 ≤ w) {l : Str} (h : LineFit u w l) : vlen u (rstrip l) ≤ w := by
  obtain ⟨b, hb1, hb2⟩ := rstrip_split l
  have gen : ∀ (b : Str), Blank b → ∀ a, LineFit u w (a ++ b) → LineFit u w a := by
    intro b hb
    induction b with
    | nil => intro a h; simpa using h
    | cons c b ih => intro a h; exact (lineFit_split h0 (hb c (by simp)) h).1
  rw [hb1] at h
  obtain ⟨x, y, e, h1, h2⟩ := gen b hb2 _ h
  have : y = [] := by
    by_cases hy : y = []
    · exact hy
    · have hl := rstrip_end l (y.getLast hy) (by rw [e, List.getLast?_append, List.getLast?_eq_some_getLast hy]; rfl)
      rw [h1 _ (List.getLast_mem hy)] at hl
      cases hl
  rw [e, this, List.append_nil]
  exact h2

/-- Every line fits. -/
def AllFit (u : Uni) (w : Int) (x : Str) : Prop := ∀ l ∈ splitCh '\n' x, LineFit u w l

theorem allFit_nil {u : Uni} {w : Int} (h : 0 ≤ w) : AllFit u w [] := by
  intro l hl
  rw [show splitCh '\n' [] = [[]] from rfl, List.mem_singleton] at hl
  rw [hl]; exact lineFit_nil h

theorem allFit_two {u : Uni} {w : Int} {a b : Str} : AllFit u w (a ++ '\n' :: b) ↔ AllFit u w a ∧ AllFit u w b := by
  unfold AllFit
  rw [splitCh_two]
  constructor
  · intro h; exact ⟨fun l hl => h l (by simp [hl]), fun l hl => h l (by simp [hl])⟩
  · rintro ⟨h1, h2⟩ l hl
    rcases List.mem_append.1 hl with hl | hl
    · exact h1 l hl
    · exact h2 l hl

theorem allFit_newlines {u : Uni} {w : Int} (h0 : 0 ≤ w) (n : Int) {x : Str} (h : AllFit u w x) :
    AllFit u w (rep '\n' n ++ x) ∧ AllFit u w (x ++ rep '\n' n) := by
  unfold rep
  induction n.toNat with
  | zero => simpa using h
  | succ k ih =>
    rw [List.replicate_succ]
    constructor
    · exact (allFit_two (a := [])).2 ⟨allFit_nil h0, ih.1⟩
    · have e : x ++ '\n' :: List.replicate k '\n' = (x ++ List.replicate k '\n') ++ '\n' :: [] := by
        rw [List.append_assoc, ← List.replicate_succ', List.replicate_succ]
      rw [e]
      exact allFit_two.2 ⟨ih.2, allFit_nil h0⟩

theorem allFit_line {u : Uni} {w : Int} {l : Str} (hn : '\n' ∉ l) : AllFit u w l ↔ LineFit u w l := by
  unfold AllFit
  rw [splitCh_none _ _ hn]
  simp

theorem allFit_join {u : Uni} {w : Int} (h0 : 0 ≤ w) {ls : List Str} (hn : ∀ l ∈ ls, '\n' ∉ l) (h : ∀ l ∈ ls, LineFit u w l) :
    AllFit u w (join py"\n" ls) := by
  by_cases he : ls = []
  · rw [he]; exact allFit_nil h0
  · unfold AllFit
    rw [splitCh_join _ _ he hn]
    exact h

theorem allFit_rows {u : Uni} {w r : Int} (h0 : 0 ≤ w) {ls : List Str} (hn : ∀ l ∈ ls, '\n' ∉ l) (h : ∀ l ∈ ls, LineFit u w l) :
    AllFit u w (rows r ls) := by
  have hpad : ∀ l, LineFit u w l → LineFit u w (padTo r l) := fun l hl => lineFit_pad hl (by
    intro c hc; rw [(List.mem_replicate.1 hc).2]; decide)
  have hpadn : ∀ l : Str, '\n' ∉ l → '\n' ∉ padTo r l := by
    intro l hl hm
    rcases List.mem_append.1 hm with hm | hm
    · exact hl hm
    · exact absurd (List.mem_replicate.1 hm).2 (by decide)
  unfold rows
  apply allFit_join h0
  · intro l hl
    obtain ⟨m, hm, rfl⟩ := List.mem_map.1 hl
    apply hpadn
    split at hm
    · rw [List.mem_singleton.1 hm]; simp
    · exact hn m hm
  · intro l hl
    obtain ⟨m, hm, rfl⟩ := List.mem_map.1 hl
    apply hpad
    split at hm
    · rw [List.mem_singleton.1 hm]; exact lineFit_nil h0
    · exact h m hm

theorem allFit_padLines {u : Uni} {w r : Int} (h0 : 0 ≤ w) {x : Str} (h : AllFit u w x) : AllFit u w (padLines r x) := by
  have := allFit_rows (r := r) h0 (fun l hl => mem_splitCh '\n' x l hl) h
  rw [rows, if_neg (splitCh_ne_nil '\n' x)] at this
  exact this

/-- Texts side by side. -/
theorem splitCh_glue (a b : Str) : ∃ A p q B, splitCh '\n' a = A ++ [p] ∧ splitCh '\n' b = q :: B ∧
    splitCh '\n' (a ++ b) = A ++ (p ++ q) :: B := by
  induction a with
  | nil =>
    cases hb : splitCh '\n' b with
    | nil => exact absurd hb (splitCh_ne_nil _ _)
    | cons q B => exact ⟨[], [], q, B, rfl, rfl, by simpa using hb⟩
  | cons c a ih =>
    obtain ⟨A, p, q, B, h1, h2, h3⟩ := ih
    by_cases hc : c = '\n'
    · subst hc
      exact ⟨[] :: A, p, q, B, by rw [splitCh_cons_eq, h1]; rfl, h2, by rw [List.cons_append, splitCh_cons_eq, h3]; rfl⟩
    · obtain ⟨l1, r1, a1, a2⟩ := splitCh_cons_ne '\n' c a hc
      obtain ⟨l2, r2, b1, b2⟩ := splitCh_cons_ne '\n' c (a ++ b) hc
      rw [h1] at a1
      rw [h3] at b1
      cases A with
      | nil =>
        simp only [List.nil_append, List.cons.injEq] at a1 b1
        exact ⟨[], c :: p, q, B, by rw [a2, ← a1.1, ← a1.2]; rfl, h2, by rw [List.cons_append, b2, ← b1.1, ← b1.2]; rfl⟩
      | cons x A =>
        simp only [List.cons_append, List.cons.injEq] at a1 b1
        exact ⟨(c :: x) :: A, p, q, B, by rw [a2, ← a1.1, ← a1.2]; rfl, h2, by rw [List.cons_append, b2, ← b1.1, ← b1.2]; rfl⟩

theorem allFit_blank {u : Uni} {w : Int} (h0 : 0 ≤ w) {a b : Str} (ha : AllFit u w a) (hb : Blank b) : AllFit u w (a ++ b) := by
  obtain ⟨A, p, q, B, h1, h2, h3⟩ := splitCh_glue a b
  have hB : ∀ l ∈ q :: B, Blank l := by
    intro l hl c hc
    refine hb c ?_
    rw [← h2] at hl
    have hj := join_splitCh '\n' b
    rw [← hj]
    clear hj h3 h2 h1 ha
    generalize splitCh '\n' b = ls at hl
    induction ls with
    | nil => cases hl
    | cons x xs ih =>
      by_cases hx : xs = []
      · subst hx
        rw [List.mem_singleton.1 hl] at hc
        simpa [join] using hc
      · rw [join_cons_ne _ _ _ hx]
        rcases List.mem_cons.1 hl with rfl | hl
        · simp [hc]
        · simp [ih hl]
  unfold AllFit at *
  rw [h3]
  rw [h1] at ha
  intro l hl
  rcases List.mem_append.1 hl with hl | hl
  · exact ha l (by simp [hl])
  · rcases List.mem_cons.1 hl with rfl | hl
    · exact lineFit_pad (ha p (by simp)) (hB q (by simp))
    · exact lineFit_blank h0 (hB l (List.mem_cons_of_mem _ hl))

/-- The text goes on with whitespace only, up to the end of the line. -/
def Quiet (x : Str) : Prop := ∃ t r, x = t ++ r ∧ Blank t ∧ (r = [] ∨ ∃ r', r = '\n' :: r')

theorem allFit_append {u : Uni} {w : Int} (h0 : 0 ≤ w) {a x : Str} (ha : AllFit u w a) (hx : AllFit u w x) (hq : Quiet x) :
    AllFit u w (a ++ x) := by
  obtain ⟨t, r, rfl, ht, hr⟩ := hq
  rcases hr with rfl | ⟨r', rfl⟩
  · rw [List.append_nil]; exact allFit_blank h0 ha ht
  · rw [← List.append_assoc]
    exact allFit_two.2 ⟨allFit_blank h0 ha ht, (allFit_two.1 hx).2⟩

/-! ## Other line breaks -/

theorem break_space {c : Char} (h : isLineBreak c = true) : isSpace c = true := by
  simp only [isLineBreak, isSpace, Bool.or_eq_true, Bool.and_eq_true, decide_eq_true_eq, beq_iff_eq] at *
  omega

/-- Cut at every line break. -/
def cuts : Str → List Str
  | [] => [[]]
  | c :: r => if isLineBreak c then [] :: cuts r else match cuts r with
    | [] => [[c]]
    | l :: ls => (c :: l) :: ls

theorem cuts_ne (x : Str) : cuts x ≠ [] := by
  induction x with
  | nil => simp [cuts]
  | cons c r ih =>
    rw [cuts]
    split
    · simp
    · split <;> simp

theorem cuts_brk {c : Char} (hc : isLineBreak c = true) (a b : Str) : cuts (a ++ c :: b) = cuts a ++ cuts b := by
  induction a with
  | nil => simp [cuts, hc]
  | cons x a ih =>
    rw [List.cons_append, cuts, cuts]
    split
    · rw [ih]; rfl
    · rw [ih]
      cases h : cuts a with
      | nil => exact absurd h (cuts_ne a)
      | cons l ls => rfl

theorem cuts_one {l : Str} (h : OneLine l) : cuts l = [l] := by
  induction l with
  | nil => rfl
  | cons c l ih =>
    rw [cuts, if_neg (by rw [h c (by simp)]; simp), ih (fun x hx => h x (List.mem_cons_of_mem _ hx))]

def CutFit (u : Uni) (w : Int) (x : Str) : Prop := ∀ l ∈ cuts x, LineFit u w l

theorem cutFit_brk {u : Uni} {w : Int} {c : Char} (hc : isLineBreak c = true) {a b : Str} :
    CutFit u w (a ++ c :: b) ↔ CutFit u w a ∧ CutFit u w b := by
  unfold CutFit
  rw [cuts_brk hc]
  constructor
  · intro h; exact ⟨fun l hl => h l (by simp [hl]), fun l hl => h l (by simp [hl])⟩
  · rintro ⟨h1, h2⟩ l hl
    rcases List.mem_append.1 hl with hl | hl
    · exact h1 l hl
    · exact h2 l hl

theorem cutFit_lines {u : Uni} {w : Int} {x : Str} (h : CutFit u w x) {ls : List Str} (hl : Lines x ls) : ∀ l ∈ ls, LineFit u w l := by
  induction hl with
  | nil => simp
  | @last l hne hl =>
    intro m hm
    rw [List.mem_singleton.1 hm]
    exact h l (by rw [cuts_one hl]; simp)
  | @crlf l r ls hl _ ih =>
    have h1 := (cutFit_brk (c := '\r') (by decide)).1 h
    have h2 := (cutFit_brk (c := '\n') (a := []) (by decide)).1 h1.2
    intro m hm
    rcases List.mem_cons.1 hm with rfl | hm
    · exact h1.1 m (by rw [cuts_one hl]; simp)
    · exact ih h2.2 m hm
  | @brk l r b ls hl hb _ _ ih =>
    have h1 := (cutFit_brk hb).1 h
    intro m hm
    rcases List.mem_cons.1 hm with rfl | hm
    · exact h1.1 m (by rw [cuts_one hl]; simp)
    · exact ih h1.2 m hm

theorem lineFit_cuts {u : Uni} {w : Int} (h0 : 0 ≤ w) {l : Str} (h : LineFit u w l) : CutFit u w l := by
  have gen : ∀ n (l : Str), l.length ≤ n → LineFit u w l → CutFit u w l := by
    intro n
    induction n with
    | zero =>
      intro l hn h
      have : l = [] := by cases l with | nil => rfl | cons c l => simp at hn
      subst this
      intro m hm
      rw [cuts, List.mem_singleton] at hm
      rw [hm]; exact h
    | succ n ih =>
      intro l hn h
      by_cases ho : OneLine l
      · intro m hm
        rw [cuts_one ho, List.mem_singleton] at hm
        rw [hm]; exact h
      · have : ∃ c ∈ l, isLineBreak c = true := by
          by_cases hx : ∃ c ∈ l, isLineBreak c = true
          · exact hx
          · exact absurd (fun c hc => by cases hb : isLineBreak c with | false => rfl | true => exact absurd ⟨c, hc, hb⟩ hx) ho
        obtain ⟨c, hc, hb⟩ := this
        obtain ⟨a, b, rfl⟩ := List.append_of_mem hc
        simp only [List.length_append, List.length_cons] at hn
        have := lineFit_split h0 (break_space hb) h
        exact (cutFit_brk hb).2 ⟨ih a (by omega) this.1, ih b (by omega) this.2⟩
  exact gen _ l (Nat.le_refl _) h

theorem allFit_cuts {u : Uni} {w : Int} (h0 : 0 ≤ w) {x : Str} (h : AllFit u w x) : CutFit u w x := by
  have hj := join_splitCh '\n' x
  unfold AllFit at h
  rw [← hj]
  clear hj
  have hne := splitCh_ne_nil '\n' x
  generalize splitCh '\n' x = ls at h hne
  induction ls with
  | nil => exact absurd rfl hne
  | cons l ls ih =>
    by_cases he : ls = []
    · subst he; exact lineFit_cuts h0 (h l (by simp))
    · rw [join_cons_ne _ _ _ he, List.append_assoc]
      exact (cutFit_brk (c := '\n') (by decide)).2 ⟨lineFit_cuts h0 (h l (by simp)), ih (fun m hm => h m (List.mem_cons_of_mem _ hm)) he⟩

theorem allFit_lines {u : Uni} {w : Int} (h0 : 0 ≤ w) {x : Str} (h : AllFit u w x) {ls : List Str} (hl : Lines x ls) :
    ∀ l ∈ ls, LineFit u w l := cutFit_lines (allFit_cuts h0 h) hl

theorem cutFit_nil {u : Uni} {w : Int} (h0 : 0 ≤ w) : CutFit u w [] := by
  intro l hl
  rw [cuts, List.mem_singleton] at hl
  rw [hl]; exact lineFit_nil h0

theorem cutFit_blank {u : Uni} {w : Int} (h0 : 0 ≤ w) {a b : Str} (hb : Blank b) (h : CutFit u w (a ++ b)) : CutFit u w a := by
  induction b generalizing a with
  | nil => simpa using h
  | cons c b ih =>
    have hb' : Blank b := fun x hx => hb x (List.mem_cons_of_mem _ hx)
    cases hc : isLineBreak c with
    | true => exact ((cutFit_brk hc).1 h).1
    | false =>
      have h1 : CutFit u w (a ++ [c]) := ih hb' (by rw [List.append_assoc]; exact h)
      have key : ∀ a : Str, ∃ A p, cuts a = A ++ [p] ∧ cuts (a ++ [c]) = A ++ [p ++ [c]] := by
        intro a
        induction a with
        | nil => exact ⟨[], [], rfl, by simp [cuts, hc]⟩
        | cons x a ih =>
          obtain ⟨A, p, e1, e2⟩ := ih
          rw [List.cons_append, cuts, cuts, e1, e2]
          cases isLineBreak x with
          | true => exact ⟨[] :: A, p, by simp, by simp⟩
          | false =>
            cases A with
            | nil => exact ⟨[], x :: p, by simp, by simp⟩
            | cons y A => exact ⟨(x :: y) :: A, p, by simp, by simp⟩
      obtain ⟨A, p, e1, e2⟩ := key a
      unfold CutFit at *
      rw [e2] at h1
      rw [e1]
      intro l hl
      rcases List.mem_append.1 hl with hl | hl
      · exact h1 l (by simp [hl])
      · rw [List.mem_singleton.1 hl]
        exact (lineFit_split h0 (hb c (by simp)) (h1 (p ++ [c]) (by simp))).1

theorem cutFit_optimise {u : Uni} {w : Int} (h0 : 0 ≤ w) {x : Str} (h : CutFit u w x) : CutFit u w (optimise x) := by
  unfold optimise
  have hj := join_splitCh '\n' x
  rw [← hj] at h
  have hne := splitCh_ne_nil '\n' x
  generalize splitCh '\n' x = ls at h hne
  have one : ∀ l, CutFit u w l → CutFit u w (rstrip l) := by
    intro l hl
    obtain ⟨b, h1, h2⟩ := rstrip_split l
    rw [h1] at hl
    exact cutFit_blank h0 h2 hl
  induction ls with
  | nil => exact absurd rfl hne
  | cons l ls ih =>
    by_cases he : ls = []
    · subst he; exact one l h
    · rw [List.map_cons, join_cons_ne _ _ _ (by simpa using he), List.append_assoc]
      rw [join_cons_ne _ _ _ he, List.append_assoc] at h
      have h := (cutFit_brk (c := '\n') (by decide)).1 h
      exact (cutFit_brk (c := '\n') (by decide)).2 ⟨one l h.1, ih h.2 he⟩

theorem cutFit_indent {u : Uni} {w : Int} {pad : Str} (hp : '\x1b' ∉ pad) (hb : OneLine pad) (start : Bool) (x : Str) (h : CutFit u w x) :
    CutFit u (pad.length + w) (indentLines pad start x) := by
  have key : ∀ (x : Str) (start : Bool), ∃ f r r', cuts x = f :: r ∧
      cuts (indentLines pad start x) = ((if start && !x.isEmpty then pad else []) ++ f) :: r' ∧ ∀ y ∈ r', ∃ q ∈ r, y = q ∨ y = pad ++ q := by
    intro x
    induction x with
    | nil => intro start; exact ⟨[], [], [], rfl, by simp [indentLines, cuts], by simp⟩
    | cons c x ih =>
      intro start
      have hpre : ∀ (p t : Str), OneLine p → ∀ f r, cuts t = f :: r → cuts (p ++ t) = (p ++ f) :: r := by
        intro p t hp f r ht
        induction p with
        | nil => simpa using ht
        | cons y p ihp =>
          rw [List.cons_append, cuts, if_neg (by rw [hp y (by simp)]; simp), ihp (fun z hz => hp z (List.mem_cons_of_mem _ hz))]
          rfl
      have hpre' : OneLine (if start && !(c :: x).isEmpty then pad else []) := by
        split
        · exact hb
        · simp [OneLine]
      have hstart : (if (start && !(c :: x).isEmpty) = true then pad else []) = (if start = true then pad else []) := by simp
      obtain ⟨f, r, r', e1, e2, e3⟩ := ih (isLineBreak c && !(c == '\r' && x.head? == some '\n'))
      rw [indentLines, hstart]
      rw [hstart] at hpre'
      cases hc : isLineBreak c with
      | true =>
        refine ⟨[], f :: r, _ :: r', by rw [cuts, if_pos hc, e1], hpre _ _ hpre' [] _ (by rw [cuts, if_pos hc, ← hc, e2]), ?_⟩
        intro y hy
        rcases List.mem_cons.1 hy with rfl | hy
        · refine ⟨f, by simp, ?_⟩
          split
          · exact .inr rfl
          · exact .inl rfl
        · obtain ⟨q, hq, hyq⟩ := e3 y hy
          exact ⟨q, List.mem_cons_of_mem _ hq, hyq⟩
      | false =>
        rw [hc] at e2
        simp only [Bool.false_and, Bool.false_eq_true, if_false, List.nil_append] at e2
        refine ⟨c :: f, r, r', by rw [cuts, if_neg (by rw [hc]; simp), e1], hpre _ _ hpre' (c :: f) r' ?_, e3⟩
        rw [cuts, if_neg (by rw [hc]; simp)]
        simp only [Bool.false_and, e2]
  obtain ⟨f, r, r', e1, e2, e3⟩ := key x start
  unfold CutFit at *
  rw [e1] at h
  rw [e2]
  intro l hl
  have grow : ∀ l, LineFit u w l → LineFit u (pad.length + w) l := fun l hl => lineFit_mono (by omega) hl
  rcases List.mem_cons.1 hl with rfl | hl
  · split
    · exact lineFit_prefix hp (h f (by simp))
    · exact grow _ (h f (by simp))
  · obtain ⟨q, hq, rfl | rfl⟩ := e3 l hl
    · exact grow _ (h l (List.mem_cons_of_mem _ hq))
    · exact lineFit_prefix hp (h q (List.mem_cons_of_mem _ hq))

end Verif
