import Verif.Proofs.Gap
import Verif.Props.Fit
import Verif.Props.Links

/-!
# Lists in list items: what the item makes of the rows of its list
-/

namespace Verif

open Spec

/-- Filling up lines, from left to right. -/
def padFrom (w : Int) : Int → Str → Str
  | col, [] => List.replicate (w - col).toNat ' '
  | col, c :: r => if c = '\n' then List.replicate (w - col).toNat ' ' ++ '\n' :: padFrom w 0 r else c :: padFrom w (col + 1) r

theorem padFrom_split (w : Int) (x : Str) : ∀ (col : Int) (l : Str) (ls : List Str), splitCh '\n' x = l :: ls →
    padFrom w col x = l ++ (List.replicate (w - (col + l.length)).toNat ' ' ++ (ls.map (fun l => '\n' :: padTo w l)).flatten) := by
  induction x with
  | nil =>
    intro col l ls h
    simp only [splitCh, List.cons.injEq] at h
    obtain ⟨rfl, rfl⟩ := h
    simp [padFrom]
  | cons c r ih =>
    intro col l ls h
    by_cases hc : c = '\n'
    · subst hc
      rw [splitCh_cons_eq, List.cons.injEq] at h
      obtain ⟨rfl, rfl⟩ := h
      cases hr : splitCh '\n' r with
      | nil => exact absurd hr (splitCh_ne_nil _ _)
      | cons l ls =>
        simp only [padFrom, if_pos, ih 0 l ls hr, List.map_cons, List.flatten_cons, padTo]
        simp
    · obtain ⟨l', ls', hr, h'⟩ := splitCh_cons_ne '\n' c r hc
      rw [h', List.cons.injEq] at h
      obtain ⟨rfl, rfl⟩ := h
      simp only [padFrom, hc, if_false, ih (col + 1) l' ls' hr, List.cons_append, List.length_cons]
      have : w - (col + 1 + (l'.length : Int)) = w - (col + ((l'.length + 1 : Nat) : Int)) := by omega
      rw [this]

theorem join_rows (l : Str) (ls : List Str) : join py"\n" (l :: ls) = l ++ (ls.map (fun l => '\n' :: l)).flatten := by
  induction ls generalizing l with
  | nil => simp [join]
  | cons m ls ih => rw [join_cons_ne _ _ _ (by simp), ih]; simp

theorem padLines_from (w : Int) (x : Str) : padLines w x = padFrom w 0 x := by
  cases hr : splitCh '\n' x with
  | nil => exact absurd hr (splitCh_ne_nil _ _)
  | cons l ls =>
    rw [padFrom_split w x 0 l ls hr, padLines, hr, List.map_cons, join_rows]
    simp [padTo, Function.comp_def]

theorem blank_spaces (n : Nat) : Blank (List.replicate n ' ') := fun c hc => by rw [List.eq_of_mem_replicate hc]; decide

theorem simple_spaces (n : Nat) : Simple (List.replicate n ' ') :=
  ⟨fun h => by have := List.eq_of_mem_replicate h; revert this; decide, fun c hc _ => .inl (List.eq_of_mem_replicate hc)⟩

theorem padFrom_gap (w : Int) (g : Str) (hb : Blank g) (hs : Simple g) : ∀ col : Int, ∃ g' col',
    (∀ y, padFrom w col (g ++ y) = g' ++ padFrom w col' y) ∧ Blank g' ∧ Simple g' ∧ g.length ≤ g'.length ∧
      ('\n' ∈ g → w - col + 1 ≤ g'.length) := by
  induction g with
  | nil => intro col; exact ⟨[], col, fun _ => rfl, hb, hs, Nat.le_refl _, by simp⟩
  | cons c g ih =>
    intro col
    have hb' : Blank g := fun x hx => hb x (by simp [hx])
    have hs' : Simple g := ⟨fun h => hs.1 (by simp [h]), fun x hx => hs.2 x (by simp [hx])⟩
    by_cases hc : c = '\n'
    · obtain ⟨g', col', h1, h2, h3, h4, -⟩ := ih hb' hs' 0
      refine ⟨List.replicate (w - col).toNat ' ' ++ ('\n' :: g'), col', fun y => ?_, ?_, ?_, ?_, fun _ => ?_⟩
      · simp only [List.cons_append, padFrom, hc, if_true, h1, List.append_assoc]
      · exact blank_append (blank_spaces _) (fun x hx => by
          simp only [List.mem_cons] at hx
          rcases hx with rfl | hx
          · decide
          · exact h2 x hx)
      · refine simple_append.2 ⟨simple_spaces _, ?_⟩
        have : Simple ['\n'] := ⟨by decide, by simp⟩
        exact simple_append (a := ['\n']).2 ⟨this, h3⟩
      · simp; omega
      · simp; omega
    · obtain ⟨g', col', h1, h2, h3, h4, h5⟩ := ih hb' hs' (col + 1)
      refine ⟨c :: g', col', fun y => ?_, ?_, ?_, ?_, fun h => ?_⟩
      · simp only [List.cons_append, padFrom, hc, if_false, h1]
      · intro x hx
        simp only [List.mem_cons] at hx
        rcases hx with rfl | hx
        · exact hb _ (by simp)
        · exact h2 x hx
      · refine simple_append (a := [c]).2 ⟨⟨fun h => hs.1 (by rw [List.mem_singleton] at h; rw [h]; simp), fun x hx => hs.2 x (by simp at hx; simp [hx])⟩, h3⟩
      · simp; omega
      · have := h5 (by
          simp only [List.mem_cons] at h
          rcases h with h | h
          · exact absurd h.symm hc
          · exact h)
        simp; omega

theorem padFrom_row (w : Int) (r y : Str) (h : '\n' ∉ r) : ∀ col : Int, padFrom w col (r ++ y) = r ++ padFrom w (col + r.length) y := by
  induction r with
  | nil => intro col; simp
  | cons c r ih =>
    intro col
    have hc : c ≠ '\n' := fun e => h (by simp [e])
    simp only [List.cons_append, padFrom, hc, if_false, ih (fun e => h (by simp [e]))]
    have : col + 1 + (r.length : Int) = col + (((c :: r).length : Nat) : Int) := by simp; omega
    rw [this]

theorem padFrom_weave {W w : Int} {t : Str} (ht : Blank t) (hs : Simple t) : ∀ (ps : List (Str × Str)) (col n : Int), Woven w n ps →
    ∃ ps' t', padFrom W col (weave t ps) = weave t' ps' ∧ Woven w n ps' ∧ ps'.map Prod.snd = ps.map Prod.snd ∧ Blank t' ∧ Simple t' ∧
      ∀ p qs, ps = p :: qs → '\n' ∈ p.1 → ∃ p' qs', ps' = p' :: qs' ∧ W - col + 1 ≤ p'.1.length := by
  intro ps
  induction ps with
  | nil =>
    intro col n _
    obtain ⟨g', col', h1, h2, h3, -, -⟩ := padFrom_gap W t ht hs col
    refine ⟨[], g' ++ padFrom W col' [], ?_, trivial, rfl, blank_append h2 (blank_spaces _), simple_append.2 ⟨h3, simple_spaces _⟩,
      by simp⟩
    have := h1 []
    rw [List.append_nil] at this
    exact this
  | cons p ps ih =>
    obtain ⟨g, r⟩ := p
    rintro col n ⟨k1, k2, k3, k4, k5⟩
    obtain ⟨g', col', h1, h2, h3, h4, h5⟩ := padFrom_gap W g k1 k2 col
    obtain ⟨ps', t', i1, i2, i3, i4, i5, -⟩ := ih (col' + r.length) r.length k5
    refine ⟨(g', r) :: ps', t', ?_, ⟨h2, h3, ⟨fun e => k3.1 (by rw [e] at h4; simpa using h4), by have := k3.2; omega⟩, k4, i2⟩, by simp [i3], i4, i5, ?_⟩
    · simp only [weave]
      rw [h1, padFrom_row W r _ k4.nl, i1]
    · intro p qs e hn
      simp only [List.cons.injEq] at e
      obtain ⟨rfl, rfl⟩ := e
      exact ⟨_, _, rfl, h5 hn⟩

/-! ## The rows of one item -/

/-- A line of wrapped text. -/
structure LineOk (l : Str) : Prop where
  simple : Simple l
  nl : '\n' ∉ l
  spaced : WellSpaced l

theorem rstrip_parts {l : Str} (h : ¬ Blank l) : ∃ t, l = rstrip l ++ t ∧ Blank t ∧ LastOk (rstrip l) := by
  obtain ⟨t, e, hb⟩ := rstrip_split l
  refine ⟨t, e, hb, ?_⟩
  have hne : rstrip l ≠ [] := fun h0 => h (by rw [e, h0]; exact hb)
  refine ⟨(rstrip l).dropLast, (rstrip l).getLast hne, (List.dropLast_concat_getLast hne).symm, ?_⟩
  exact rstrip_end l _ (List.getLast?_eq_some_getLast hne)

theorem simple_right {a b : Str} (h : Simple (a ++ b)) : Simple b := (simple_append.1 h).2

theorem rowOk_rstrip {w : Int} {l : Str} (h : LineOk l) (hn : ¬ Blank l) (hh : HeadOk l) (hf : (l.length : Int) ≤ w) :
    RowOk w (rstrip l) := by
  obtain ⟨t, e, hb, hl⟩ := rstrip_parts hn
  refine ⟨(simple_append.1 (e ▸ h.simple)).1, fun hm => h.nl (by rw [e]; simp [hm]), ?_, hl, ?_, ?_⟩
  · intro c hc
    refine hh c ?_
    rw [e]
    cases hr : rstrip l with
    | nil => rw [hr] at hc; simp at hc
    | cons y ys => rw [hr] at hc; simpa using hc
  · have := congrArg List.length e
    simp only [List.length_append] at this
    omega
  · have := h.spaced
    rw [e] at this
    exact spaced_infix (x := []) (z := t) (by simpa using this)

theorem simple_nl : Simple py"\n" := ⟨by decide, by simp⟩

theorem notBlank_head {l : Str} (hne : l ≠ []) (h : HeadOk l) : ¬ Blank l := by
  cases l with
  | nil => exact absurd rfl hne
  | cons c l => intro hb; have := h c rfl; rw [hb c (by simp)] at this; cases this

theorem rows_weave {W w : Int} {k : Nat} (hW : w ≤ W) : ∀ (ls : List Str) (g : Str) (n : Int),
    (∀ l ∈ ls, LineOk l ∧ l ≠ [] ∧ HeadOk l ∧ (k + l.length : Int) ≤ w) → Blank g → Simple g → n + g.length + 1 + k > w →
    ∃ ps t, g ++ (ls.map (fun l => '\n' :: padTo W (List.replicate k ' ' ++ l))).flatten = weave t ps ∧ Woven w n ps ∧
      ps.map Prod.snd = ls.map rstrip ∧ Blank t ∧ Simple t ∧ (ls = [] → t = g ∧ ps = []) ∧ (ls ≠ [] → lastLen n ps + t.length + k ≥ W) := by
  intro ls
  induction ls with
  | nil =>
    intro g n _ hb hs _
    exact ⟨[], g, by simp [weave], trivial, rfl, hb, hs, fun _ => ⟨rfl, rfl⟩, by simp⟩
  | cons l ls ih =>
    intro g n hl hb hs hg
    obtain ⟨l1, l2, l3, l4⟩ := hl l (by simp)
    have hnb := notBlank_head l2 l3
    obtain ⟨t, e, ht, -⟩ := rstrip_parts hnb
    have hrow := rowOk_rstrip l1 hnb l3 (w := w) (by omega)
    have hlen := congrArg List.length e
    simp only [List.length_append] at hlen
    obtain ⟨ps, t', h1, h2, h3, h4, h5, h6, h7⟩ := ih (t ++ List.replicate (W - (k + l.length : Nat)).toNat ' ') (rstrip l).length
      (fun l hl' => hl l (by simp [hl'])) (blank_append ht (blank_spaces _))
      (simple_append.2 ⟨simple_right (e ▸ l1.simple), simple_spaces _⟩) (by simp; omega)
    refine ⟨(g ++ '\n' :: List.replicate k ' ', rstrip l) :: ps, t', ?_, ⟨?_, ?_, ⟨by simp, ?_⟩, hrow, h2⟩, by simp [h3], h4, h5, by simp, fun _ => ?_⟩
    · simp only [weave]
      rw [← h1]
      have : padTo W (List.replicate k ' ' ++ l) = List.replicate k ' ' ++ (rstrip l ++ (t ++ List.replicate (W - (k + l.length : Nat)).toNat ' ')) := by
        have e' : rstrip l ++ (t ++ List.replicate (W - (k + l.length : Nat)).toNat ' ') = l ++ List.replicate (W - (k + l.length : Nat)).toNat ' ' := by
          rw [← List.append_assoc, ← e]
        rw [e']
        simp [padTo]
      simp only [List.map_cons, List.flatten_cons, this]
      simp
    · exact blank_append hb (fun c hc => by
        simp only [List.mem_cons] at hc
        rcases hc with rfl | hc
        · decide
        · exact blank_spaces _ c hc)
    · exact simple_append.2 ⟨hs, simple_append (a := py"\n").2 ⟨simple_nl, simple_spaces _⟩⟩
    · simp; omega
    · simp only [lastLen]
      by_cases hne : ls = []
      · obtain ⟨h8, h9⟩ := h6 hne
        subst h8 h9
        simp [lastLen]
        omega
      · exact h7 hne

/-- A bullet: a word that is no end of a sentence, and a space. -/
structure BulletOk (a : Str) : Prop where
  parts : ∃ b, a = b ++ py" " ∧ b ≠ [] ∧ (∀ c ∈ b, isSpace c = false ∧ c ≠ '-') ∧ ¬ SentenceEnd b
  esc : '\x1b' ∉ a

theorem bullet_simple {a : Str} (h : BulletOk a) : Simple a ∧ '\n' ∉ a ∧ HeadOk a ∧ ¬ Blank a ∧ a ≠ [] := by
  obtain ⟨⟨b, rfl, h1, h2, h3⟩, h4⟩ := h
  refine ⟨⟨h4, fun c hc hsp => ?_⟩, fun hc => ?_, ?_, fun hb => ?_, by simp⟩
  · simp only [List.mem_append, List.mem_singleton] at hc
    rcases hc with hc | hc
    · rw [(h2 c hc).1] at hsp; cases hsp
    · exact .inl hc
  · simp only [List.mem_append, List.mem_singleton] at hc
    rcases hc with hc | hc
    · have := (h2 _ hc).1; revert this; decide
    · revert hc; decide
  · cases b with
    | nil => exact absurd rfl h1
    | cons x b => intro c hc; simp at hc; exact (h2 c (by simp [hc])).1
  · cases b with
    | nil => exact absurd rfl h1
    | cons x b => have := hb x (by simp); rw [(h2 x (by simp)).1] at this; cases this

theorem bullet_spaced {a l : Str} (h : BulletOk a) (hl : WellSpaced l) : WellSpaced (a ++ l) := by
  obtain ⟨⟨b, rfl, h1, h2, h3⟩, h4⟩ := h
  intro p c q e hc hse
  rw [List.append_assoc] at e
  rcases List.append_eq_append_iff.1 e with ⟨z, e1, e2⟩ | ⟨z, e1, e2⟩
  · cases z with
    | nil => rw [List.append_nil] at e1; exact h3 (e1 ▸ hse)
    | cons y z =>
      simp only [List.cons_append, List.nil_append, List.cons.injEq] at e2
      obtain ⟨rfl, e2⟩ := e2
      exact hl z c q e2 hc ((sentenceEnd_cut (neutral_space (by decide))).1 (e1 ▸ hse))
  · cases z with
    | nil => rw [List.append_nil] at e1; exact h3 (e1 ▸ hse)
    | cons y z =>
      simp only [List.cons_append, List.cons.injEq] at e2
      obtain ⟨rfl, e2⟩ := e2
      have := (h2 ' ' (by rw [e1]; simp)).1
      revert this; decide

theorem bullet_lead {a l : Str} (h : BulletOk a) : a.length ≤ leadLen (rstrip (a ++ l)) + 1 := by
  obtain ⟨⟨b, rfl, h1, h2, h3⟩, h4⟩ := h
  have hb : leadLen b = b.length := by
    clear h1 h3 h4
    unfold leadLen
    induction b with
    | nil => rfl
    | cons c b ih =>
      have := h2 c (by simp)
      rw [List.takeWhile_cons, if_pos (by simp [this])]
      simpa using ih (fun x hx => h2 x (by simp [hx]))
  obtain ⟨t, e, ht⟩ := rstrip_split (b ++ py" " ++ l)
  rw [List.append_assoc] at e ⊢
  obtain ⟨x, hx⟩ : ∃ x, rstrip (b ++ (py" " ++ l)) = b ++ x := by
    rcases List.append_eq_append_iff.1 e with ⟨z, e1, e2⟩ | ⟨z, e1, e2⟩
    · exact ⟨z, e1⟩
    · cases z with
      | nil => exact ⟨[], by rw [List.append_nil] at e1 ⊢; exact e1.symm⟩
      | cons y z =>
        have h5 := ht y (by rw [e2]; simp)
        rw [(h2 y (by rw [e1]; simp)).1] at h5
        cases h5
  have := leadLen_append b x
  rw [hx]
  simp
  omega

/-! ## Lines of wrapped text -/

theorem round_nonempty {u : Uni} {o : WrapOpts} {le : Bool} {w : Int} {lead taken left taken' chunks cur rest : List Str}
    (r : Round u o le w lead taken left taken' chunks cur rest) (hd : o.dropWs = true) (ht : Tidy chunks) (hb : o.breakLong = true)
    (hc : cur ≠ []) : cur.flatten ≠ [] := by
  have htaken : ∀ c ∈ taken, c ≠ [] := by
    intro c hc
    rcases ht.pure c (by rw [r.split]; simp [hc]) with h | h <;> exact h.1
  have key : ∀ cs : List Str, cs ≠ [] → (∀ c ∈ cs, c ≠ []) → cs.flatten ≠ [] := by
    intro cs h1 h2
    cases cs with
    | nil => exact absurd rfl h1
    | cons c cs =>
      have := h2 c (by simp)
      simp [this]
  have htr := r.trimmed
  have hk : taken' = cur → ∀ h : (∀ l, taken'.getLast? = some l → strip l ≠ []), cur.flatten ≠ [] := by
    rintro rfl h h0
    have hl := h (taken'.getLast hc) (List.getLast?_eq_some_getLast hc)
    have : taken'.getLast hc = [] := List.flatten_eq_nil_iff.1 h0 _ (List.getLast_mem hc)
    rw [this] at hl
    exact hl rfl
  cases htr with
  | keep h => exact hk rfl (h hd)
  | drop _ l _ hh _ =>
    have hsub : ∀ c ∈ cur, c ∈ taken := by
      have hbr := r.broken
      rw [hh] at hbr
      generalize hT : cur ++ [l] = T at hbr
      cases hbr with
      | fits _ => intro c hc; rw [← hT]; simp [hc]
      | cut c cs _ _ _ e _ =>
        have := List.append_inj' hT rfl
        rw [this.1]
        exact fun _ h => h
      | whole c cs _ _ hb' _ => rw [hb] at hb'; cases hb'
      | later c cs _ _ hb' _ => rw [hb] at hb'; cases hb'
    exact key cur hc (fun c hc => htaken c (hsub c hc))

theorem wrapLoop_nonempty {u : Uni} {o : WrapOpts} (hp : Plain o) (f : Nat) (lines chunks out : List Str) (ht : Tidy chunks)
    (hl : ∀ l ∈ lines, l ≠ []) (h : wrapLoop u o f lines chunks = .ok out) : ∀ l ∈ out, l ≠ [] := by
  induction f generalizing lines chunks with
  | zero =>
    cases chunks with
    | nil => rw [wrapLoop_nil] at h; cases h; exact hl
    | cons c cs => simp [wrapLoop] at h
  | succ f ih =>
    by_cases hne : chunks = []
    · subst hne; rw [wrapLoop_nil] at h; cases h; exact hl
    · obtain ⟨cur, rest, _, _, _, _, hr, h2⟩ := wrapLoop_step u o f lines chunks hne
      have hi : indentAfter o lines = [] := by unfold indentAfter; split; exact hp.initial; exact hp.subsequent
      have hrest : Tidy rest := (round_edges hr hp.drop ht (.inr (by rw [hi]; have := hp.width; simp [len]; omega))).1
      rw [h2] at h
      split at h
      · exact ih _ _ hrest hl h
      · rename_i hcur
        have hall : lineAllowed o lines.length (sumLen u cur) (o.width - len (indentAfter o lines)) rest = true := by
          unfold lineAllowed; rw [hp.limit]
        rw [if_pos hall] at h
        refine ih _ _ hrest ?_ h
        intro l hl'
        simp only [List.mem_append, List.mem_singleton] at hl'
        rcases hl' with hl' | rfl
        · exact hl l hl'
        · rw [hi]; exact round_nonempty hr hp.drop ht hp.break_ hcur

theorem simple_input {u : Uni} {w : Int} {x : Str} (h : Simple x) {c : Char} (hc : c ∈ (wrapInput u (proseOpts u w) x).flatten)
    (hs : isSpace c = true) : c = ' ' := by
  have hm : c ∈ munge (proseOpts u w) x → c = ' ' := by
    rw [munge_simple h]
    intro hm
    obtain ⟨y, hy, rfl⟩ := List.mem_map.1 hm
    unfold toSp at hs ⊢
    split
    · rfl
    · rename_i hy'
      rw [if_neg hy'] at hs
      rcases h.2 y hy hs with rfl | rfl
      · rfl
      · exact absurd (by decide) hy'
  have : wrapInput u (proseOpts u w) x = fixSentenceEndings (splitChunks u (proseOpts u w) (munge (proseOpts u w) x)) := by
    simp [wrapInput, proseOpts]
  rw [this] at hc
  rcases fixSentence_mem _ c hc with e | e
  · exact e
  · rw [splitChunks_flatten] at e; exact hm e

theorem prose_bodies {u : Uni} {w : Int} : ∀ (before ls bs : List Str), Indented (proseOpts u w) before ls bs → ls = bs := by
  intro before ls
  induction ls generalizing before with
  | nil => intro bs hi; cases bs with | nil => rfl | cons b bs => exact hi.elim
  | cons l ls ih =>
    intro bs hi
    cases bs with
    | nil => exact hi.elim
    | cons b bs =>
      obtain ⟨e, hi⟩ := hi
      rw [ih _ _ hi]
      simp [e, indentAfter, proseOpts]

theorem wrap_lines {u : Uni} {w : Int} {x : Str} {lines : List Str} (hx : Simple x) (h : wrap u (proseOpts u w) x = .ok lines) :
    (∀ l ∈ lines, LineOk l ∧ (l.length : Int) ≤ w) ∧ ∀ l ∈ lines.tail, l ≠ [] ∧ HeadOk l := by
  have hw : 0 < w := wrap_pos h
  have hpl : Plain (proseOpts u w) := prose_plain u (by omega)
  obtain ⟨-, -, h'⟩ := wrap_ok h
  have hesc : '\x1b' ∉ lines.flatten := by
    intro hm
    have : '\x1b' ∈ nonws lines.flatten := by simp only [nonws, List.mem_filter]; exact ⟨hm, by decide⟩
    rw [prose_nonws h] at this
    simp only [nonws, List.mem_filter] at this
    exact hx.1 this.1
  obtain ⟨ls, bs, e1, e2, e3⟩ := wrapLoop_sublist u _ rfl _ [] _ lines h'
  rw [List.nil_append] at e1
  subst e1
  have e4 := prose_bodies _ _ _ e2
  subst e4
  constructor
  · intro l hl
    have hesc' : '\x1b' ∉ l := fun hm => hesc (List.mem_flatten.2 ⟨l, hl, hm⟩)
    refine ⟨⟨⟨hesc', fun c hc hs => .inl ?_⟩, ?_, ?_⟩, ?_⟩
    · exact simple_input hx (e3.subset (List.mem_flatten.2 ⟨l, hl, hc⟩)) hs
    · exact wrap_noNl (o := proseOpts u w) rfl rfl (by simp [proseOpts]) (by simp [proseOpts]) h l hl
    · exact C62 u (proseOpts u w) x lines rfl rfl (simple_plainWs hx) (by simp [proseOpts, Blank]) (by simp [proseOpts, Blank]) h l hl
    · have := (visibleLe_iff u l w).1 (prose_visible hw h l hl)
      rwa [vlen_length hesc'] at this
  · intro l hl
    refine ⟨wrapLoop_nonempty hpl _ [] _ lines (wrapInput_tidy u _ x (simple_plainWs hx)) (by simp) h' l (List.mem_of_mem_tail hl), ?_⟩
    obtain ⟨bodies, b1, b2, -⟩ := C22_partial u (proseOpts u w) x lines rfl rfl (simple_plainWs hx)
      (.inr ⟨by simpa [proseOpts, len] using hw, by simpa [proseOpts, len] using hw⟩) h
    have b3 := prose_bodies _ _ _ b1
    subst b3
    intro c hc
    cases hsp : isSpace c with
    | false => rfl
    | true => exact absurd ⟨c, hc, hsp⟩ (b2 l hl)

/-! ## The text of one item -/

theorem rows_cons (W : Int) (r : Str) (rs : List Str) :
    rows W (r :: rs) = padTo W r ++ (rs.map (fun l => '\n' :: padTo W l)).flatten := by
  simp only [rows, List.cons_ne_nil, if_false, List.map_cons, join_rows, List.map_map, Function.comp_def]

/-- What remains of the rows of an item. -/
def itemRows (a : Str) : List Str → List Str
  | [] => [rstrip a]
  | l :: ls => rstrip (a ++ l) :: ls.map rstrip

theorem item_weave {W w : Int} {a : Str} {lines : List Str} (hW : w ≤ W) (ha : BulletOk a) (haw : (a.length : Int) ≤ w)
    (h1 : ∀ l ∈ lines, LineOk l ∧ (a.length + l.length : Int) ≤ w) (h2 : ∀ l ∈ lines.tail, l ≠ [] ∧ HeadOk l) :
    ∃ ps t, py"\n" ++ rows W (hang a lines) = weave t ps ∧ Woven w (w + 1 - a.length) ps ∧ ps.map Prod.snd = itemRows a lines ∧ Blank t ∧ Simple t ∧
      (∃ r qs, ps = (py"\n", r) :: qs) ∧ lastLen (w + 1 - a.length) ps + t.length + (if lines.length ≤ 1 then 0 else a.length : Nat) ≥ W := by
  obtain ⟨a1, a2, a3, a4, a5⟩ := bullet_simple ha
  -- the first row
  have first : ∀ l ls, LineOk l → (a.length + l.length : Int) ≤ w →
      (∀ m ∈ ls, LineOk m ∧ m ≠ [] ∧ HeadOk m ∧ (a.length + m.length : Int) ≤ w) →
      ∃ ps t, py"\n" ++ rows W ((a ++ l) :: ls.map (List.replicate a.length ' ' ++ ·)) = weave t ps ∧ Woven w (w + 1 - a.length) ps ∧
        ps.map Prod.snd = rstrip (a ++ l) :: ls.map rstrip ∧ Blank t ∧ Simple t ∧
        (∃ r qs, ps = (py"\n", r) :: qs) ∧ lastLen (w + 1 - a.length) ps + t.length + (if ls = [] then 0 else a.length : Nat) ≥ W := by
    intro l ls k1 k2 k3
    have hal : LineOk (a ++ l) := ⟨simple_append.2 ⟨a1, k1.simple⟩, by simp [a2, k1.nl], bullet_spaced ha k1.spaced⟩
    have hnb : ¬ Blank (a ++ l) := fun hb => a4 (fun c hc => hb c (by simp [hc]))
    have hh : HeadOk (a ++ l) := by
      cases a with
      | nil => exact absurd rfl a5
      | cons x a => intro c hc; exact a3 c (by simpa using hc)
    obtain ⟨t, e, ht, -⟩ := rstrip_parts hnb
    have hlen := congrArg List.length e
    simp only [List.length_append] at hlen
    have hrow := rowOk_rstrip hal hnb hh (w := w) (by simp; omega)
    obtain ⟨ps, t', q1, q2, q3, q4, q5, q6, q7⟩ := rows_weave (W := W) (w := w) (k := a.length) hW ls
      (t ++ List.replicate (W - (a ++ l).length).toNat ' ') (rstrip (a ++ l)).length k3 (blank_append ht (blank_spaces _))
      (simple_append.2 ⟨simple_right (e ▸ hal.simple), simple_spaces _⟩) (by simp; omega)
    refine ⟨(py"\n", rstrip (a ++ l)) :: ps, t', ?_, ⟨by simp [Blank, isSpace], simple_nl, ⟨by simp, by have := bullet_lead (l := l) ha; simp; omega⟩, hrow, q2⟩, by simp [q3], q4, q5,
      ⟨_, _, rfl⟩, ?_⟩
    · simp only [weave]
      rw [← q1, rows_cons]
      have : padTo W (a ++ l) = rstrip (a ++ l) ++ (t ++ List.replicate (W - (a ++ l).length).toNat ' ') := by
        rw [← List.append_assoc, ← e]; rfl
      rw [this]
      simp only [List.map_map, Function.comp_def, List.append_assoc]
    · simp only [lastLen]
      by_cases hls : ls = []
      · obtain ⟨q8, q9⟩ := q6 hls
        subst q8 q9
        simp [lastLen, hls]
        omega
      · rw [if_neg hls]; exact q7 hls
  cases lines with
  | nil =>
    obtain ⟨ps, t, r1, r2, r3, r4, r5, r6, r7⟩ := first [] [] ⟨⟨by simp, by simp⟩, by simp, fun p c q e => by simp at e⟩ (by simpa using haw) (by simp)
    simp only [List.append_nil] at r1 r3
    exact ⟨ps, t, r1, r2, r3, r4, r5, r6, r7⟩
  | cons l ls =>
    obtain ⟨ps, t, r1, r2, r3, r4, r5, r6, r7⟩ := first l ls (h1 l (by simp)).1 (h1 l (by simp)).2
      (fun m hm => ⟨(h1 m (by simp [hm])).1, (h2 m hm).1, (h2 m hm).2, (h1 m (by simp [hm])).2⟩)
    refine ⟨ps, t, r1, r2, r3, r4, r5, r6, ?_⟩
    cases ls with
    | nil => simpa using r7
    | cons m ms => simpa using r7

theorem lstrip_headOk {l : Str} (h : HeadOk l) : lstrip l = l := by
  cases l with
  | nil => rfl
  | cons c l => simp [lstrip, List.dropWhile, h c rfl]

theorem lstrip_spaces (k : Nat) (l : Str) : lstrip (List.replicate k ' ' ++ l) = lstrip l := by
  induction k with
  | zero => rfl
  | succ k ih => simpa [List.replicate_succ, lstrip, List.dropWhile, isSpace] using ih

theorem hang_strip {a : Str} {lines : List Str} (ha : BulletOk a) (h : ∀ l ∈ lines.tail, l ≠ [] ∧ HeadOk l) :
    (hang a lines).map strip = itemRows a lines := by
  obtain ⟨a1, a2, a3, a4, a5⟩ := bullet_simple ha
  have hh : ∀ l, strip (a ++ l) = rstrip (a ++ l) := by
    intro l
    unfold strip
    rw [lstrip_headOk]
    cases a with
    | nil => exact absurd rfl a5
    | cons x a => intro c hc; exact a3 c (by simpa using hc)
  cases lines with
  | nil =>
    have := hh []
    rw [List.append_nil] at this
    simp [hang, itemRows, this]
  | cons l ls =>
    simp only [hang, itemRows, List.map_cons, hh, List.map_map, List.cons.injEq, true_and]
    apply List.map_congr_left
    intro m hm
    simp only [Function.comp, strip, lstrip_spaces, lstrip_headOk (h m hm).2]

theorem bullet_ok {d : Dom} {i : Nat} {a : Str} (h : Bullet d i a) : BulletOk a := by
  rcases h with ⟨-, before, after, -, rfl⟩ | ⟨-, rfl⟩
  · generalize before.length + 1 = n
    refine ⟨⟨natStr n ++ py".", by simp, by simp, ?_, ?_⟩, ?_⟩
    · intro c hc
      rcases List.mem_append.1 hc with hc | hc
      · exact ⟨(natStr_chars n c hc).2.1, (natStr_chars n c hc).2.2.1⟩
      · simp at hc; subst hc; decide
    · rintro ⟨r, l, e, h1, -, h3, h | ⟨q, hq, h⟩⟩
      · rw [show r ++ [l, e] = (r ++ [l]) ++ [e] by simp] at h
        have := (List.append_inj' h rfl).1
        have hl : l ∈ natStr n := by rw [this]; simp
        exact absurd (Char.le_trans h1 (natStr_digits n l hl).2) (by decide)
      · rw [show r ++ [l, e, q] = (r ++ [l, e]) ++ [q] by simp] at h
        have := (List.append_inj' h rfl).2
        simp at this
        subst this
        simp at hq
    · intro hc
      rcases List.mem_append.1 hc with hc | hc
      · exact (natStr_plain n _ hc).2.2.1 rfl
      · revert hc; decide
  · refine ⟨⟨py"*", rfl, by simp, by decide, ?_⟩, by decide⟩
    rintro ⟨r, l, e, -, -, -, h | ⟨q, -, h⟩⟩
    · have := congrArg List.length h; simp at this
    · have := congrArg List.length h; simp at this

/-- Larger numbers are no shorter. -/
theorem natStr_mono (n : Nat) : ∀ m, m ≤ n → (natStr m).length ≤ (natStr n).length := by
  induction n using Nat.strongRecOn with
  | _ n ih =>
    intro m hm
    by_cases h10 : m < 10
    · rw [natStr_lt m h10]
      exact List.length_pos_iff.2 (natStr_ne_nil n)
    · rw [natStr_ge m (by omega), natStr_ge n (by omega)]
      have := ih (n / 10) (by omega) (m / 10) (by omega)
      simp
      exact this

/-- Bullets further down in a list are no shorter. -/
theorem bullet_mono {d : Dom} {src} (hi : SelInv d src) {l : Nat} {m : Node} (hm : d.nodes[l]? = some m) {before between after : List Nat}
    {j k : Nat} (hc : m.children = before ++ j :: (between ++ k :: after)) (hj : HasTag d j py"li") (hk : HasTag d k py"li") {a b : Str}
    (ha : Bullet d j a) (hb : Bullet d k b) : a.length ≤ b.length := by
  have pos : ∀ {i : Nat}, HasTag d i py"li" → ∀ {A C A' C'}, Around d i A C → Around d i A' C' → A = A' := by
    rintro i ⟨n, h1, h2⟩ A C A' C' h3 h4
    have hd : n.data = none := by
      cases hd : n.data with
      | none => rfl
      | some x => have := ((hi.node i n h1).data (by rw [hd]; rfl)).1; rw [h2] at this; cases this
    obtain ⟨_, P, Q, -, -, -, -, -, h5⟩ := elem_pos hi h1 hd
    rw [((h5 _ _).1 h3).1, ((h5 _ _).1 h4).1]
  have aj : Around d j before (between ++ k :: after) := .inr ⟨l, m, hm, hc.symm⟩
  have ak : Around d k (before ++ j :: between) after := .inr ⟨l, m, hm, by rw [hc]; simp⟩
  rcases ha with ⟨⟨p, ⟨n, q1, q2⟩, q3⟩, A, C, h1, rfl⟩ | ⟨-, rfl⟩
  · rcases hb with ⟨-, A', C', h2, rfl⟩ | ⟨h2, -⟩
    · rw [pos hj h1 aj, pos hk h2 ak]
      have := natStr_mono ((before ++ j :: between).length + 1) (before.length + 1) (by simp)
      simp at this ⊢
      exact this
    · exfalso
      obtain ⟨-, x, x1, x2⟩ := (hi.node p n q1).child j q2
      obtain ⟨-, y, y1, y2⟩ := (hi.node l m hm).child j (by rw [hc]; simp)
      rw [x1] at y1
      cases y1
      rw [x2] at y2
      cases y2
      exact h2 ⟨l, ⟨m, hm, by rw [hc]; simp⟩, q3⟩
  · rcases hb with ⟨-, A', C', h2, rfl⟩ | ⟨-, rfl⟩
    · simp
    · exact Nat.le_refl _

/-! ## The rows of a list -/

theorem renderAll_split {g : Nat → Py Str} {a b : List Nat} {x : Str} (h : renderAll g (a ++ b) = .ok x) :
    ∃ y z, renderAll g a = .ok y ∧ renderAll g b = .ok z ∧ x = y ++ z := by
  induction a generalizing x with
  | nil => exact ⟨[], x, rfl, h, rfl⟩
  | cons i a ih =>
    simp only [List.cons_append, renderAll, bind, Except.bind, pure, Except.pure] at h ⊢
    cases h1 : g i with
    | error e => rw [h1] at h; cases h
    | ok y =>
      rw [h1] at h
      simp only at h
      cases h2 : renderAll g (a ++ b) with
      | error e => rw [h2] at h; cases h
      | ok z =>
        rw [h2] at h
        simp only [Except.ok.injEq] at h
        obtain ⟨y', z', k1, k2, k3⟩ := ih h2
        exact ⟨y ++ y', z', by rw [k1], k2, by rw [← h, k3]; simp⟩

theorem list_weave {u : Uni} {c : Cfg} {es : List Event} {s : PState} (h : Rendered u c es s) (hr : c.renderers = []) {f : Nat}
    {box : Box} (hpad : textRoom box ≤ room box) : ∀ (js : List Nat) (X : Str),
    (∀ j ∈ js, BlankText s.dom j ∨ HasTag s.dom j py"li" ∧ InNestedList s.dom j) →
    (∀ j ∈ js, BlankText s.dom j → ∀ y, textOf u s (f + 1) box j = .ok y → Simple y) →
    (∀ j ∈ js, ∀ b x, contents u s f b j = .ok x → Simple x) →
    (∀ before j between k after, js = before ++ j :: (between ++ k :: after) → ∀ a b, HasTag s.dom j py"li" → HasTag s.dom k py"li" →
      Bullet s.dom j a → Bullet s.dom k b → a.length ≤ b.length) →
    Apart u s f box js → renderAll (textOf u s (f + 1) box) js = .ok X →
    ∃ ps t ws b rs, X = weave t ps ∧ Woven (textRoom box) (textRoom box + 1 - (ws : Str).length - (b : Str).length) ps ∧ ps.map Prod.snd = rs ∧
      ItemsOf u s f box js rs ∧ Blank t ∧ Simple t ∧ (∀ p qs, ps = p :: qs → '\n' ∈ p.1) ∧
      (ps = [] ∨ ∃ between k after, js = between ++ k :: after ∧ (∀ b ∈ between, BlankText s.dom b) ∧ HasTag s.dom k py"li" ∧ Bullet s.dom k b ∧
        renderAll (textOf u s (f + 1) box) between = .ok ws) := by
  intro js
  induction js with
  | nil =>
    intro X _ _ _ _ _ hX
    simp only [renderAll, Except.ok.injEq] at hX
    exact ⟨[], [], [], [], [], hX.symm, trivial, rfl, .nil, by simp [Blank], ⟨by simp, by simp⟩, by simp, .inl rfl⟩
  | cons j js ih =>
    intro X h1 h2 h3 hmon h4 hX
    obtain ⟨y, Z, k1, k2, rfl⟩ := renderAll_cons hX
    obtain ⟨ps, t, ws, b, rs, i1, i2, i3, i4, i5, i6, i7, i8⟩ := ih Z (fun j hj => h1 j (by simp [hj])) (fun j hj => h2 j (by simp [hj]))
      (fun j hj => h3 j (by simp [hj]))
      (fun before j' between k after e => hmon (j :: before) j' between k after (by rw [e]; simp))
      (fun before j' between k after e => h4 (j :: before) j' between k after (by rw [e]; simp)) k2
    rcases h1 j (by simp) with hb | ⟨hli, hnest⟩
    · have hy1 := blank_textOf hb k1
      have hy2 := h2 j (by simp) hb y k1
      obtain ⟨ps', t', e1, e2, e3, e4, e5, e6⟩ := woven_gap (t := t) hy1 hy2 i2
      refine ⟨ps', t', y ++ ws, b, rs, by rw [i1, e1], ?_, by rw [e3, i3], .blank hb i4, e4 i5, e5 i6, ?_, ?_⟩
      · simp only [List.length_append]
        exact woven_mono (fun _ => by omega) e2
      · intro p qs e
        obtain ⟨p0, q1, q2⟩ := e6 p qs e
        rw [q2]
        exact List.mem_append.2 (.inr (i7 p0 qs q1))
      · rcases i8 with e | ⟨between, k, after, j1, j2, j3, j5, j4⟩
        · left
          have := congrArg List.length e3
          simp [e] at this
          exact this
        · refine .inr ⟨j :: between, k, after, by rw [j1]; simp, ?_, j3, j5, ?_⟩
          · intro x hb'
            rcases List.mem_cons.1 hb' with rfl | hb'
            · exact hb
            · exact j2 x hb'
          · simp only [renderAll, k1, j4, bind, Except.bind, pure, Except.pure]
    · obtain ⟨above, a, x, lines, l1, l2, l3, l4, l5, l6⟩ := li_text h hr hli k1
      have hab : above = 1 := by
        rcases l1 with l1 | ⟨l1, e⟩
        · generalize hst : margins above 0 = st at l1
          cases l1 with
          | nested _ _ => simp [margins] at hst; exact hst
          | first _ hn => exact absurd hnest hn
          | later _ => simp [margins] at hst
        · exact e
      have hx := h3 j (by simp) _ x l4
      obtain ⟨w1, w2⟩ := wrap_lines hx l5
      have hbo := bullet_ok l2
      have hwp := wrap_pos l5
      obtain ⟨ps0, t0, q1, q2, q3, q4, q5, ⟨r0, qs0, q6⟩, q7⟩ := item_weave (W := room box) (w := textRoom box) (a := a) (lines := lines) hpad
        hbo (by omega) (fun l hl => ⟨(w1 l hl).1, by have := (w1 l hl).2; omega⟩) w2
      have hil : ItemLines u s f box j a lines := ⟨hli, l2, above, x, l1, l4, l5⟩
      have hy : y = weave t0 ps0 := by rw [← q1, l6, hab]; rfl
      have hmid : Woven (textRoom box) (lastLen (textRoom box + 1 - a.length) ps0 + t0.length) ps := by
        refine woven_mono (fun hne => ?_) i2
        rcases i8 with e | ⟨between, k, after, j1, j2, j3, j5, j4⟩
        · exact absurd e hne
        · rcases h4 [] j between k after (by rw [j1]; rfl) j3 j2 a lines hil with hlen | ⟨ws', v1, v2⟩
          · rw [if_pos hlen] at q7
            have := (bullet_simple (bullet_ok j5)).2.2.2.2
            have := List.length_pos_iff.2 this
            simp only [Int.natCast_zero, Int.add_zero] at q7
            omega
          · rw [j4] at v1
            cases v1
            have hab' := hmon [] j between k after (by rw [j1]; rfl) a b hli j3 l2 j5
            have := List.length_pos_iff.2 v2
            split at q7 <;> omega
      obtain ⟨ps', t', e1, e2, e3, e4, e5, e6⟩ := woven_append (t' := t) q4 q5 q2 hmid
      obtain ⟨rs', e7⟩ := e6 _ _ q6
      refine ⟨ps', t', [], a, (hang a lines).map strip ++ rs, by rw [i1, hy, e1], by simpa using e2, ?_, .item hil i4, e4 i5, e5 i6, ?_, ?_⟩
      · rw [e3, q3, i3, hang_strip hbo w2]
      · intro p qs e
        rw [e7, List.cons.injEq] at e
        rw [← e.1]
        simp
      · exact .inr ⟨[], j, js, rfl, by simp, hli, l2, rfl⟩

end Verif
