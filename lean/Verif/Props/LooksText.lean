import Verif.Props.Looks
import Verif.Props.Justify
import Verif.Props.Sentence
import Verif.Proofs.Keep
import Verif.Proofs.Gap
import Verif.Spec.LooksText

/-!
# The settings of running text: C77, C78, C79
-/

namespace Verif

open Spec

/-! ## C77 -/

theorem mapM_escape (a b : Str) (ls : List Str) :
    ls.mapM (fmt1 (escape a ++ py"{}" ++ escape b)) = (.ok (ls.map (fun l => a ++ l ++ b)) : Py _) := by
  induction ls with
  | nil => rfl
  | cons l ls ih =>
    rw [List.mapM_cons, fmt1_escape a b l]
    simp only [bind, Except.bind, ih, pure, Except.pure, List.map_cons]

/-- Preformatted text: each line in the line template, and after the indent. -/
theorem C77_pre (u : Uni) (cls : RClass) (t : TagInfo) (ctx : Ctx) (parent b : Box) (inst : Inst) (before after x : Str)
    (n : Nat) (ls : List Str) (hc : cls.behaviour = .pre) (h : construct cls t ctx parent = .ok inst)
    (h1 : DictOf.get inst.settings py"line_template" = some (.str (escape before ++ py"{}" ++ escape after)))
    (h2 : DictOf.get inst.settings py"indent" = some (.int n)) (hl : Lines x ls) :
    innerRender u inst b x = .ok (join py"\n" (ls.map (fun l => List.replicate n ' ' ++ before ++ l ++ after))) := by
  obtain ⟨-, e2, -, -, -⟩ := construct_settings h
  have hm : ∀ (f : Str → Str) (ls : List Str), ls.mapM (fun l => (.ok (f l) : Py Str)) = .ok (ls.map f) := by
    intro f ls
    induction ls with
    | nil => rfl
    | cons l ls ih =>
      rw [List.mapM_cons, ih]
      rfl
  simp only [innerRender, e2, hc, preInner, lines_splitlines hl, getA, h1, h2, asInt, asStr, bind, Except.bind, pure, Except.pure,
    fmt1_escape, hm, rep, Int.toNat_natCast]
  simp only [List.append_assoc]

/-- Block quotes: each line in the line template. -/
theorem C77_quote (u : Uni) (cls : RClass) (t : TagInfo) (ctx : Ctx) (parent b : Box) (inst : Inst) (before after x : Str)
    (ls : List Str) (hc : cls.behaviour = .blockQuote) (h : construct cls t ctx parent = .ok inst)
    (h1 : DictOf.get inst.settings py"line_template" = some (.str (escape before ++ py"{}" ++ escape after)))
    (hl : Lines x ls) :
    innerRender u inst b x = .ok (join py"\n" (ls.map (fun l => before ++ l ++ after))) := by
  obtain ⟨-, e2, -, -, -⟩ := construct_settings h
  simp only [innerRender, e2, hc, quoteInner, lines_splitlines hl, getA, h1, asStr, bind, Except.bind, pure, Except.pure,
    mapM_escape]

/-! ## C78 -/

theorem flag_get {s : Dict} {k : Str} {d v : Bool} (h : Flag s k d v) : wrapFlag s k d = v := by
  rcases h with h | ⟨h, rfl⟩ <;> simp [wrapFlag, h, Val.truthy]

theorem wrapOpts_look {u : Uni} {s : Dict} {look : TextLook} (h : look.In s) (w : Int) : wrapOpts u s w = .ok (look.opts u w) := by
  simp only [wrapOpts, getA, h.first, h.further, asInt, bind, Except.bind, pure, Except.pure, flag_get h.sentences,
    flag_get h.breakWords, flag_get h.expandTabs, flag_get h.replaceSpace, flag_get h.dropSpace, flag_get h.hyphens]
  rcases h.tab with e | ⟨e, e'⟩ <;> rcases h.mark with m | ⟨m, m'⟩ <;> cases he : look.expandTabs <;>
    simp [TextLook.opts, *, rep]

theorem expandtabs_mem {ts : Int} {col : Nat} {s : Str} {c : Char} (h : c ∈ expandtabsFrom ts col s) : c = ' ' ∨ c ∈ s := by
  induction s generalizing col with
  | nil => simp [expandtabsFrom] at h
  | cons d s ih =>
    rw [expandtabsFrom] at h
    split at h
    · split at h
      · rcases ih h with h | h <;> simp [h]
      · rcases List.mem_append.1 h with h | h
        · exact .inl (List.mem_replicate.1 h).2
        · rcases ih h with h | h <;> simp [h]
    · split at h
      · rcases List.mem_cons.1 h with h | h
        · simp [h]
        · rcases ih h with h | h <;> simp [h]
      · rcases List.mem_cons.1 h with h | h
        · simp [h]
        · rcases ih h with h | h <;> simp [h]

theorem munge_mem {o : WrapOpts} {s : Str} {c : Char} (h : c ∈ munge o s) : c = ' ' ∨ c ∈ s := by
  have h1 : ∀ c, c ∈ (if o.expandTabs then expandtabs o.tabsize s else s) → c = ' ' ∨ c ∈ s := by
    intro c h
    split at h
    · exact expandtabs_mem h
    · exact .inr h
  unfold munge at h
  simp only at h
  split at h
  · obtain ⟨x, hx, e⟩ := List.mem_map.1 h
    split at e
    · exact .inl e.symm
    · subst e; exact h1 x hx
  · exact h1 c h

/-- Wrapping adds spaces and the indents only. -/
theorem wrap_chars {u : Uni} {o : WrapOpts} {text : Str} {out : List Str} (hm : o.maxLines = none)
    (h : wrap u o text = .ok out) : ∀ l ∈ out, ∀ c ∈ l, c = ' ' ∨ c ∈ o.initialIndent ∨ c ∈ o.subsequentIndent ∨ c ∈ text := by
  obtain ⟨-, -, h⟩ := wrap_ok h
  obtain ⟨ls, bs, e1, e2, e3⟩ := wrapLoop_sublist u o hm _ [] _ out h
  rw [List.nil_append] at e1
  subst e1
  intro l hl c hc
  obtain ⟨b, -, hb, e⟩ := indented_mem e2 l hl
  have hin : ∀ c ∈ b, c = ' ' ∨ c ∈ text := by
    intro c hc
    have hc : c ∈ (wrapInput u o text).flatten := e3.subset (List.mem_flatten.2 ⟨b, hb, hc⟩)
    unfold wrapInput at hc
    simp only at hc
    split at hc
    · rcases fixSentence_mem _ c hc with h | h
      · exact .inl h
      · rw [splitChunks_flatten] at h; exact munge_mem h
    · rw [splitChunks_flatten] at hc; exact munge_mem hc
  rcases e with rfl | rfl <;> rcases List.mem_append.1 hc with hc | hc <;>
    first
    | (simp [hc]; done)
    | (rcases hin c hc with h | h <;> simp [h]; done)

/-- Wrapped with a look, no line contains a line break. -/
theorem wrap_look_nl {u : Uni} {look : TextLook} {w : Int} {text : Str} {out : List Str}
    (hr : look.replaceSpace = true ∨ '\n' ∉ text) (h : wrap u (look.opts u w) text = .ok out) : ∀ l ∈ out, '\n' ∉ l := by
  have hrep : ∀ n, '\n' ∉ List.replicate n ' ' := fun n h => absurd (List.mem_replicate.1 h).2 (by decide)
  rcases hr with hr | hr
  · exact wrap_noNl (o := look.opts u w) rfl hr (hrep _) (hrep _) h
  · intro l hl hn
    rcases wrap_chars (o := look.opts u w) rfl h l hl '\n' hn with h | h | h | h
    · exact absurd h (by decide)
    · exact hrep _ h
    · exact hrep _ h
    · exact hr h

theorem blank_run_of (n : Nat) : Blank (List.replicate n ' ') := by
  intro c hc
  rw [(List.mem_replicate.1 hc).2]
  decide

/-- What a justification does, and what it leaves as it is. -/
structure Justifies (u : Uni) (look : TextLook) (w : Int) (text : Str) (out : List Str) : Prop where
  laid : Laid u look w text out
  lines : look.replaceSpace = true ∨ '\n' ∉ text → ∀ l ∈ out, '\n' ∉ l
  fits : look.alignment ≠ .asIs → look.breakWords = true → ∀ l ∈ out, VisibleLe u l w
  kept : nonws out.flatten = nonws text
  chars : ∀ l ∈ out, ∀ c ∈ l, c = ' ' ∨ c ∈ text

/-- Wrapped with a look, only spaces are added. -/
theorem wrap_look_chars {u : Uni} {look : TextLook} {w : Int} {text : Str} {out : List Str}
    (h : wrap u (look.opts u w) text = .ok out) : ∀ l ∈ out, ∀ c ∈ l, c = ' ' ∨ c ∈ text := by
  intro l hl c hc
  rcases wrap_chars (o := look.opts u w) rfl h l hl c hc with h | h | h | h
  · exact .inl h
  · exact .inl (List.mem_replicate.1 h).2
  · exact .inl (List.mem_replicate.1 h).2
  · exact .inr h

theorem wrap_look_kept {u : Uni} {look : TextLook} {w : Int} {text : Str} {out : List Str}
    (h : wrap u (look.opts u w) text = .ok out) : nonws out.flatten = nonws text := by
  obtain ⟨bs, h1, h2⟩ := C18 u _ text out rfl h
  rw [indented_nonws _ (blank_run_of _) (blank_run_of _) _ _ _ h1, h2]

theorem nonws_flatten_congr {ls ls' : List Str} (hl : ls'.length = ls.length)
    (h : ∀ (k : Nat) l l', ls[k]? = some l → ls'[k]? = some l' → nonws l' = nonws l) : nonws ls'.flatten = nonws ls.flatten := by
  induction ls generalizing ls' with
  | nil => cases ls' with | nil => rfl | cons a b => cases hl
  | cons l ls ih =>
    cases ls' with
    | nil => cases hl
    | cons l' ls' =>
      have h0 := h 0 l l' rfl rfl
      have h1 := ih (ls' := ls') (by simpa using hl) (fun k a b ha hb => h (k + 1) a b ha hb)
      simp only [List.flatten_cons, nonws, List.filter_append] at h0 h1 ⊢
      rw [h0, h1]

theorem nonws_spaces (n : Nat) : nonws (List.replicate n ' ') = [] := by
  rw [nonws, List.filter_eq_nil_iff]
  intro c hc
  rw [(List.mem_replicate.1 hc).2]
  decide

theorem nonws_add (a b : Str) : nonws (a ++ b) = nonws a ++ nonws b := by simp [nonws]

theorem vlen_spaces (u : Uni) (n : Nat) : vlen u (List.replicate n ' ') = n := by
  rw [vlen_length (fun h => absurd (List.mem_replicate.1 h).2 (by decide))]
  simp

theorem right_moved (w : Int) (h0 : 0 < w) (l : Str) : Moved .right w l (right l w) := by
  refine ⟨(w - len l).toNat, ?_, by unfold len; omega, by unfold len; omega⟩
  rw [right, if_neg (by omega)]
  rfl

theorem centre_moved (w : Int) (l : Str) : Moved .centre w l (center l w) := by
  obtain ⟨a, b, h1, h2⟩ := center_sides w l.length
  exact ⟨a, b, h2 l rfl, h1⟩

theorem getElem_pair {α β : Type} {xs : List α} {ys : List β} (h : ys.length = xs.length) {y : β} (hy : y ∈ ys) :
    ∃ (k : Nat) (x : α), xs[k]? = some x ∧ ys[k]? = some y := by
  obtain ⟨k, hk⟩ := List.getElem?_of_mem hy
  have hlt : k < xs.length := by rw [← h]; exact getElem?_lt hk
  exact ⟨k, xs[k], List.getElem?_eq_getElem hlt, hk⟩

/-- Lines moved to the right or to the middle. -/
theorem moved_justifies {u : Uni} {look : TextLook} {w : Int} {text : Str} {lines : List Str} {a : Alignment} (f : Str → Str)
    (ha : a = .left ∨ a = .right ∨ a = .centre) (hla : look.alignment = a) (hroom : look.Room w)
    (hf : ∀ l, Moved a w l (f l)) (hw : wrap u (look.opts u w) text = .ok lines) : Justifies u look w text (lines.map f) := by
  have hlen : (lines.map f).length = lines.length := by simp
  have hk : ∀ (k : Nat) l l', lines[k]? = some l → (lines.map f)[k]? = some l' → l' = f l := by
    intro k l l' h1 h2
    rw [List.getElem?_map, h1] at h2
    exact (Option.some.inj h2).symm
  have hcases : ∀ l, ∃ n m, f l = between n m l ∧ (w ≤ l.length → n = 0 ∧ m = 0) ∧ ((l.length : Int) ≤ w → (n + l.length + m : Int) ≤ w) := by
    intro l
    have := hf l
    rcases ha with rfl | rfl | rfl
    · exact ⟨0, 0, by rw [show f l = l from this]; simp [between], by simp, by omega⟩
    · obtain ⟨n, e, e1, e2⟩ := this
      exact ⟨n, 0, by simpa [between] using e, fun h => ⟨e2 h, rfl⟩, fun h => by have := e1 h; omega⟩
    · obtain ⟨n, m, e, -, e1, e2⟩ := this
      exact ⟨n, m, e, e1, fun h => by have := (e2 rfl).2.2 h; omega⟩
  refine ⟨?_, ?_, ?_, ?_, ?_⟩
  · have : ∃ lines', wrap u (look.opts u w) text = .ok lines' ∧ (lines.map f).length = lines'.length ∧
        ∀ (k : Nat) l l', lines'[k]? = some l → (lines.map f)[k]? = some l' → Moved a w l l' :=
      ⟨lines, hw, hlen, fun k l l' h1 h2 => hk k l l' h1 h2 ▸ hf l⟩
    rcases ha with rfl | rfl | rfl <;> simpa only [Laid, hla] using this
  · intro hr l' hl' hn
    obtain ⟨l, hl, rfl⟩ := List.mem_map.1 hl'
    obtain ⟨n, m, e, -⟩ := hcases l
    rw [e, between] at hn
    simp only [List.mem_append, List.mem_replicate] at hn
    rcases hn with (⟨-, hn⟩ | hn) | ⟨-, hn⟩
    · exact absurd hn (by decide)
    · exact wrap_look_nl hr hw l hl hn
    · exact absurd hn (by decide)
  · intro _ hb l' hl'
    obtain ⟨l, hl, rfl⟩ := List.mem_map.1 hl'
    obtain ⟨n, m, e, e1, e2⟩ := hcases l
    have hv := C17 u (look.opts u w) text lines hb (by simpa [TextLook.opts, len] using hroom.2.1)
      (by simpa [TextLook.opts, len] using hroom.2.2) hw l hl
    rw [visibleLe_iff] at hv ⊢
    have hv : vlen u l ≤ w := hv
    by_cases hle : w ≤ l.length
    · obtain ⟨rfl, rfl⟩ := e1 hle
      rw [e]; simpa [between] using hv
    · have h1 := e2 (by omega)
      have h2 := vlen_le_len u (f l)
      rw [e, len, between] at h2
      rw [e]
      simp only [between, List.length_append, List.length_replicate] at h2 ⊢
      omega
  · rw [← wrap_look_kept hw]
    refine nonws_flatten_congr hlen (fun k l l' h1 h2 => ?_)
    rw [hk k l l' h1 h2]
    obtain ⟨n, m, e, -⟩ := hcases l
    rw [e, between, nonws_add, nonws_add, nonws_spaces, nonws_spaces]
    simp
  · intro l' hl' c hc
    obtain ⟨l, hl, rfl⟩ := List.mem_map.1 hl'
    obtain ⟨n, m, e, -⟩ := hcases l
    rw [e, between] at hc
    simp only [List.mem_append, List.mem_replicate] at hc
    rcases hc with (⟨-, hc⟩ | hc) | ⟨-, hc⟩
    · exact .inl hc
    · exact wrap_look_chars hw l hl c hc
    · exact .inl hc

theorem nonws_lines (ls : List Str) : nonws ls.flatten = nonws (join py"\n" ls) := by
  induction ls with
  | nil => rfl
  | cons l ls ih =>
    by_cases hn : ls = []
    · subst hn; simp [join]
    · rw [join_cons _ _ _ hn, List.flatten_cons, nonws_add, nonws_add, nonws_add, ih]
      have : nonws py"\n" = [] := by decide
      rw [this, List.append_nil]

/-- Every justification, given room. -/
theorem justification_laid (u : Uni) (look : TextLook) (w : Int) (hroom : look.Room w) :
    ∃ f, justification u look.alignment.name = .ok f ∧ ∀ text, look.Even text →
      ∃ out, f (look.opts u w) text = .ok (join py"\n" out) ∧ Justifies u look w text out := by
  have hw : ∀ text, ∃ lines, wrap u (look.opts u w) text = .ok lines := fun text =>
    C19_partial u (look.opts u w) text rfl hroom.1 (.inr ⟨by have := hroom.2.1; simp [TextLook.opts, len]; omega,
      by have := hroom.2.2; simp [TextLook.opts, len]; omega⟩)
  cases ha : look.alignment with
  | asIs =>
    refine ⟨fun _ t => .ok t, by simp [justification, Alignment.name], fun text _ => ⟨splitCh '\n' text, ?_, ?_, ?_, ?_, ?_, ?_⟩⟩
    · rw [join_splitCh]
    · simp only [Laid, ha]
      exact ⟨(join_splitCh _ _).symm, splitCh_ne_nil _ _, mem_splitCh _ _⟩
    · exact fun _ => mem_splitCh _ _
    · exact fun h => absurd ha h
    · rw [nonws_lines, join_splitCh]
    · exact fun l hl c hc => .inr (splitCh_chars hl hc)
  | left =>
    refine ⟨leftJustify u, by simp [justification, Alignment.name], fun text _ => ?_⟩
    obtain ⟨lines, hl⟩ := hw text
    refine ⟨lines.map id, by simp [leftJustify, hl, Except.map], moved_justifies id (.inl rfl) ha hroom (fun _ => rfl) hl⟩
  | right =>
    refine ⟨rightJustify u, by simp [justification, Alignment.name], fun text _ => ?_⟩
    obtain ⟨lines, hl⟩ := hw text
    refine ⟨lines.map (right · w), by unfold rightJustify; rw [hl]; rfl,
      moved_justifies _ (.inr (.inl rfl)) ha hroom (right_moved w hroom.1) hl⟩
  | centre =>
    refine ⟨centerJustify u, by simp [justification, Alignment.name], fun text _ => ?_⟩
    obtain ⟨lines, hl⟩ := hw text
    refine ⟨lines.map (center · w), by unfold centerJustify; rw [hl]; rfl,
      moved_justifies _ (.inr (.inr rfl)) ha hroom (centre_moved w) hl⟩
  | full =>
    refine ⟨fullJustify u, by simp [justification, Alignment.name], fun text he => ?_⟩
    obtain ⟨lines, hl⟩ := hw text
    obtain ⟨e1, e2, e3, e4⟩ := he ha
    have hi : len (look.opts u w).initialIndent < (look.opts u w).width := by simpa [TextLook.opts, len] using hroom.2.1
    have hs : len (look.opts u w).subsequentIndent < (look.opts u w).width := by simpa [TextLook.opts, len] using hroom.2.2
    have hj : fullJustify u (look.opts u w) text = .ok (join py"\n" (justifyLines w lines)) := by
      unfold fullJustify; rw [hl]; rfl
    obtain ⟨lines2, out, j1, j2, j3, j4, j5, j6, j7⟩ :=
      C25_partial u (look.opts u w) text _ rfl e1 e2 hi hs (blank_run_of _) (blank_run_of _) e4 e3 hj
    rw [hl] at j1
    cases j1
    have hfit := C17 u (look.opts u w) text lines e2 hi hs hl
    refine ⟨out, by rw [hj, j2], ?_, ?_, ?_, ?_, ?_⟩
    · simp only [Laid, ha]
      refine ⟨lines, hl, j3, j4, fun k l l' h1 h2 hk => ?_⟩
      obtain ⟨x, hx, k1, k2, k3⟩ := j7 k l h1 hk
      rw [hx] at h2
      cases h2
      exact ⟨k1, k2, k3⟩
    · intro hr l' hl' hn
      rcases j6 l' hl' _ hn with h | ⟨l, hm, h⟩
      · exact absurd h (by decide)
      · exact wrap_look_nl hr hl l hm h
    · intro _ _ l' hl'
      obtain ⟨k, l, h1, h2⟩ := getElem_pair j3 hl'
      by_cases hk : k + 1 < lines.length
      · obtain ⟨x, hx, -, k2, k3⟩ := j7 k l h1 hk
        rw [hx] at h2
        cases h2
        by_cases hg : HasGap l
        · rw [visibleLe_iff]
          have h3 := vlen_le_len u l'
          have h4 : len l' = w := (k2 hg).1
          omega
        · rw [k3 hg]
          exact hfit l (List.mem_of_getElem? h1)
      · have hlt := getElem?_lt h1
        have hlast : lines.getLast? = some l := by
          rw [List.getLast?_eq_getElem?, show lines.length - 1 = k by omega, h1]
        have hlast' : out.getLast? = some l' := by
          rw [List.getLast?_eq_getElem?, show out.length - 1 = k by omega, h2]
        rw [hlast, hlast'] at j4
        cases j4
        exact hfit _ (List.mem_of_getElem? h1)
    · rw [nonws_lines, ← j2, j5]
    · intro l' hl' c hc
      rcases j6 l' hl' c hc with h | ⟨l, hm, h⟩
      · exact .inl h
      · exact wrap_look_chars hl l hm c h

/-- The box of a block with a line template. -/
theorem look_box {cls : RClass} {t : TagInfo} {ctx : Ctx} {parent : Box} {inst : Inst} {look : TextLook} {fr : Frame}
    (hc : cls.behaviour.isBlock = true ∧ cls.behaviour.boxHasTemplate = true) (h : construct cls t ctx parent = .ok inst)
    (hl : look.In inst.settings) (hf : fr.In inst.settings) :
    ∃ b, inst.box = some b ∧ b.textWidth = textRoom parent - fr.cols - look.cols ∧ b.lineTemplatePadding = look.cols := by
  obtain ⟨e1, e2, -, -, -⟩ := construct_settings h
  simp only [construct, e1, bind, Except.bind] at h
  rw [isBlock_behaviour, boxHasTemplate_behaviour, hc.1, hc.2] at h
  simp only [if_true] at h
  cases hk : blockBox true inst.settings parent with
  | error e => rw [hk] at h; cases h
  | ok b =>
    rw [hk] at h
    simp only [pure, Except.pure, Except.ok.injEq] at h
    have hbox : inst.box = some b := by rw [← h]
    have hp : ownTemplatePadding (some (escape look.before ++ py"{}" ++ escape look.after)) = look.cols := by
      have : ∀ t : Str, t.length ≠ 0 → ownTemplatePadding (some t) = t.length - 2 := by
        intro t ht
        cases t with
        | nil => exact absurd rfl ht
        | cons c r => rfl
      rw [this _ (by simp)]
      simp [TextLook.cols]
      omega
    obtain ⟨m, p, bd, hb⟩ := blockBox_template hk hl.template
    obtain ⟨tm, hb'⟩ := blockBox_settings hk hf.border hf.margin hf.padding
    refine ⟨b, hbox, ?_, ?_⟩
    · have h1 : b.totalLineTemplatePadding = parent.totalLineTemplatePadding + look.cols := by
        rw [hb, Box.new]
        simp only [hp]
        omega
      simp only [Box.textWidth, h1, textRoom, room, Frame.cols]
      rw [hb', Box.new]
      simp only [Sides.addTotals, len]
      omega
    · rw [hb, Box.new]; exact hp

/-- The lines of all segments. -/
theorem laid_each (u : Uni) (look : TextLook) (w : Int) (hroom : look.Room w) (segs : List Str) (hn : ∀ x ∈ segs, '\n' ∉ x)
    (he : ∀ x ∈ segs, look.Even (strip x)) :
    ∃ f, justification u look.alignment.name = .ok f ∧ ∃ parts, LaidEach u look w segs parts ∧
      segs.mapM (fun seg => f (look.opts u w) (strip seg)) = .ok (parts.map (join py"\n")) ∧
      (∀ p ∈ parts, ∀ l ∈ p, '\n' ∉ l) ∧
      (look.alignment ≠ .asIs → look.breakWords = true → ∀ p ∈ parts, ∀ l ∈ p, VisibleLe u l w) ∧
      nonws parts.flatten.flatten = nonws segs.flatten ∧ (∀ p ∈ parts, ∀ l ∈ p, ∀ c ∈ l, c = ' ' ∨ ∃ x ∈ segs, c ∈ x) := by
  obtain ⟨f, hf, hall⟩ := justification_laid u look w hroom
  refine ⟨f, hf, ?_⟩
  induction segs with
  | nil => exact ⟨[], trivial, rfl, by simp, by simp, rfl, by simp⟩
  | cons x xs ih =>
    obtain ⟨ps, h1, h2, h3, h4, h5, h6⟩ := ih (fun y hy => hn y (List.mem_cons_of_mem _ hy)) (fun y hy => he y (List.mem_cons_of_mem _ hy))
    obtain ⟨p, k1, k2⟩ := hall (strip x) (he x (by simp))
    have hx : '\n' ∉ strip x := fun h => hn x (by simp) ((strip_sublist x).subset h)
    refine ⟨p :: ps, ⟨k2.laid, h1⟩, ?_, ?_, ?_, ?_, ?_⟩
    · rw [List.mapM_cons, h2, k1]
      rfl
    · intro q hq
      rcases List.mem_cons.1 hq with rfl | hq
      · exact k2.lines (.inr hx)
      · exact h3 q hq
    · intro a b q hq
      rcases List.mem_cons.1 hq with rfl | hq
      · exact k2.fits a b
      · exact h4 a b q hq
    · rw [List.flatten_cons, List.flatten_append, List.flatten_cons, nonws_add, nonws_add, h5, k2.kept, nonws_strip]
    · intro q hq l hl c hc
      rcases List.mem_cons.1 hq with rfl | hq
      · rcases k2.chars l hl c hc with h | h
        · exact .inl h
        · exact .inr ⟨x, by simp, (strip_sublist x).subset h⟩
      · rcases h6 q hq l hl c hc with h | ⟨y, hy, h⟩
        · exact .inl h
        · exact .inr ⟨y, List.mem_cons_of_mem _ hy, h⟩

/-- A paragraph with any settings: its text, in capitals if asked for, is cut at its line breaks; each segment is set as
asked for in the columns that the frame and the line template leave; every line is put into the line template. The lines fit
if words may be broken, and no other character than whitespace is lost. -/
theorem C78_partial (u : Uni) (cls : RClass) (t : TagInfo) (ctx : Ctx) (parent : Box) (inst : Inst) (look : TextLook) (fr : Frame)
    (skip : Bool) (hc : cls.behaviour = .paragraph) (h : construct cls t ctx parent = .ok inst) (hl : look.In inst.settings)
    (hf : fr.In inst.settings) (hk : DictOf.get inst.settings py"skip_for_code_or_pre" = some (.bool skip))
    (hs : skip = true → ¬ ∃ tag, t.childTags = [some tag] ∧ tag ∈ [py"code", py"pre"])
    (w : Int) (hw : w = textRoom parent - fr.cols - look.cols) (hroom : look.Room w) (x : Str) (segs : List Str)
    (hx : cased u look.capitals x = join py"\n" segs) (hne : segs ≠ []) (hn : ∀ l ∈ segs, '\n' ∉ l)
    (he : ∀ l ∈ segs, look.Even (strip l)) :
    ∃ b parts lines, inst.box = some b ∧ LaidEach u look w segs parts ∧
      lines = (parts.map (fun p => if p = [] then [[]] else p)).flatten ∧ (∀ l ∈ lines, '\n' ∉ l) ∧
      innerRender u inst b x = .ok (join py"\n" (lines.map (fun l => look.before ++ l ++ look.after))) ∧
      (look.alignment ≠ .asIs → look.breakWords = true → ∀ l ∈ lines, VisibleLe u l w) ∧
      nonws lines.flatten = nonws (cased u look.capitals x) ∧ ∀ l ∈ lines, ∀ c ∈ l, c = ' ' ∨ ∃ x ∈ segs, c ∈ x := by
  obtain ⟨-, e2, e3, -, -⟩ := construct_settings h
  obtain ⟨b, hb, hbw, -⟩ := look_box (by rw [hc]; exact ⟨rfl, rfl⟩) h hl hf
  rw [← hw] at hbw
  obtain ⟨f, f1, parts, p1, p2, p3, p4, p5, p6⟩ := laid_each u look w hroom segs hn he
  have hsk : (skip && skipParagraph t) = false := by
    cases skip with
    | false => rfl
    | true =>
      have := hs rfl
      rw [Bool.true_and]
      unfold skipParagraph
      split
      · rename_i tag hct
        cases hb : (tag == py"code" || tag == py"pre") with
        | false => rfl
        | true =>
          refine absurd ⟨tag, hct, ?_⟩ this
          simpa using hb
      · rfl
  have mem : ∀ l ∈ (parts.map partLines).flatten, l = [] ∨ ∃ p ∈ parts, l ∈ p := by
    intro l hl
    obtain ⟨p', hp', hl⟩ := List.mem_flatten.1 hl
    obtain ⟨p, hp, rfl⟩ := List.mem_map.1 hp'
    unfold partLines at hl
    split at hl
    · exact .inl (by simpa using hl)
    · exact .inr ⟨p, hp, hl⟩
  have hnl : ∀ l ∈ (parts.map partLines).flatten, '\n' ∉ l := by
    intro l hl
    rcases mem l hl with rfl | ⟨p, hp, hl⟩
    · simp
    · exact p3 p hp l hl
  have hne' : (parts.map partLines).flatten ≠ [] := by
    cases parts with
    | nil => cases segs with | nil => exact absurd rfl hne | cons a as => exact p1.elim
    | cons q qs =>
      have := partLines_ne q
      simp [this]
  refine ⟨b, parts, (parts.map partLines).flatten, hb, p1, rfl, hnl, ?_, ?_, ?_, ?_⟩
  · have hcap : capIf u inst.settings x = .ok (cased u look.capitals x) := by
      simp only [capIf, getA, hl.capitals, bind, Except.bind, pure, Except.pure, Val.truthy, cased]
      cases look.capitals <;> rfl
    simp only [innerRender, e2, hc, paragraphInner, getA, hk, e3, Val.truthy, hsk, bind, Except.bind, pure, Except.pure,
      Bool.false_eq_true, if_false, hl.alignment, asStr, f1, hbw, wrapOpts_look hl, hcap, hx]
    rw [splitCh_join _ _ hne hn, p2]
    simp only [hl.template]
    rw [join_parts, splitCh_join _ _ hne' hnl, mapM_escape]
  · intro a1 a2 l hl
    rcases mem l hl with rfl | ⟨p, hp, hl⟩
    · rw [visibleLe_iff, vlen_nil]; have := hroom.1; omega
    · exact p4 a1 a2 p hp l hl
  · have : ∀ parts : List (List Str), nonws (parts.map partLines).flatten.flatten = nonws parts.flatten.flatten := by
      intro parts
      induction parts with
      | nil => rfl
      | cons p ps ih =>
        simp only [List.map_cons, List.flatten_cons, List.flatten_append, nonws_add, ih]
        congr 1
        unfold partLines
        split
        · rename_i e; rw [e]; rfl
        · rfl
    rw [this, p5, hx, nonws_lines]
  · intro l hl c hc
    rcases mem l hl with rfl | ⟨p, hp, hl⟩
    · cases hc
    · exact p6 p hp l hl c hc

/-- The lines of text set with fixed sentence endings, as the built-in classes ask for, are spaced well. -/
theorem C78_sentences (u : Uni) (look : TextLook) (w : Int) (text : Str) (out : List Str) (hs : look.sentences = true)
    (ha : look.alignment = .left) (hp : PlainWs text) (h : Laid u look w text out) : ∀ l ∈ out, WellSpaced l := by
  simp only [Laid, ha] at h
  obtain ⟨lines, h1, h2, h3⟩ := h
  intro l' hl'
  obtain ⟨k, l, k1, k2⟩ := getElem_pair h2 hl'
  have : l' = l := h3 k l l' k1 k2
  rw [this]
  exact C62 u (look.opts u w) text lines hs rfl hp (blank_run_of _) (blank_run_of _) h1 l (List.mem_of_getElem? k1)

/-- A paragraph whose only content is code is left as it is, if asked for. -/
theorem C78_skip (u : Uni) (cls : RClass) (t : TagInfo) (ctx : Ctx) (parent b : Box) (inst : Inst) (tag x : Str)
    (hc : cls.behaviour = .paragraph) (h : construct cls t ctx parent = .ok inst)
    (hk : DictOf.get inst.settings py"skip_for_code_or_pre" = some (.bool true))
    (ht : t.childTags = [some tag]) (hm : tag ∈ [py"code", py"pre"]) : innerRender u inst b x = .ok x := by
  obtain ⟨-, e2, e3, -, -⟩ := construct_settings h
  have : skipParagraph t = true := by
    simp only [skipParagraph, ht]
    simpa using hm
  simp only [innerRender, e2, hc, paragraphInner, getA, hk, e3, Val.truthy, this, bind, Except.bind, pure, Except.pure, Bool.and_self,
    if_true]

/-- A justification that does not exist is refused. -/
theorem C78_unknown (u : Uni) (cls : RClass) (t : TagInfo) (ctx : Ctx) (parent b : Box) (inst : Inst) (name x : Str)
    (h : construct cls t ctx parent = .ok inst) (hj : DictOf.get inst.settings py"justification" = some (.str name))
    (hn : name ∉ [py"none", py"left", py"right", py"center", py"full"]) :
    (cls.behaviour = .paragraph → DictOf.get inst.settings py"skip_for_code_or_pre" = some (.bool false) →
      innerRender u inst b x = .error .keyError) ∧
    (cls.behaviour ∈ [.listItem, .olItem, .defItem] → innerRender u inst b x = .error .keyError) := by
  obtain ⟨-, e2, e3, -, -⟩ := construct_settings h
  simp only [List.mem_cons, List.not_mem_nil, or_false, not_or] at hn
  have hju : justification u name = .error .keyError := by
    unfold justification
    rw [if_neg hn.1, if_neg hn.2.2.2.2, if_neg hn.2.2.2.1, if_neg hn.2.1, if_neg hn.2.2.1]
  constructor
  · intro hc hk
    simp only [innerRender, e2, hc, paragraphInner, getA, hk, Val.truthy, bind, Except.bind, Bool.false_and, Bool.false_eq_true,
      if_false, hj, asStr, hju]
  · intro hc
    simp only [List.mem_cons, List.not_mem_nil, or_false] at hc
    rcases hc with hc | hc | hc <;> simp only [innerRender, e2, hc, itemInner, getA, bind, Except.bind, hj, asStr, hju]

/-! ## C79 -/

/-- An item with any settings: its text is set in the columns that the frame and the line template leave; the template is for
the first line, and the others are indented by its length without the placeholder. -/
theorem C79_lines (u : Uni) (cls : RClass) (t : TagInfo) (ctx : Ctx) (parent : Box) (inst : Inst) (look : TextLook) (fr : Frame)
    (hc : cls.behaviour ∈ [.listItem, .olItem, .defItem]) (h : construct cls t ctx parent = .ok inst) (hl : look.In inst.settings)
    (hf : fr.In inst.settings) (w : Int) (hw : w = textRoom parent - fr.cols - look.cols) (hroom : look.Room w) (x : Str)
    (hn : look.replaceSpace = true ∨ look.alignment = .asIs ∨ '\n' ∉ cased u look.capitals x)
    (he : look.Even (cased u look.capitals x)) :
    ∃ b lines, inst.box = some b ∧ Laid u look w (cased u look.capitals x) lines ∧ (∀ l ∈ lines, '\n' ∉ l) ∧
      innerRender u inst b x = .ok (join py"\n" (hanging look.before look.after look.cols lines)) ∧
      (look.alignment ≠ .asIs → look.breakWords = true → ∀ l ∈ lines, VisibleLe u l w) ∧
      nonws lines.flatten = nonws (cased u look.capitals x) ∧ ∀ l ∈ lines, ∀ c ∈ l, c = ' ' ∨ c ∈ cased u look.capitals x := by
  obtain ⟨-, e2, e3, -, -⟩ := construct_settings h
  have hcls : cls.behaviour.isBlock = true ∧ cls.behaviour.boxHasTemplate = true := by
    simp only [List.mem_cons, List.not_mem_nil, or_false] at hc
    rcases hc with hc | hc | hc <;> rw [hc] <;> exact ⟨rfl, rfl⟩
  obtain ⟨b, hb, hbw, hbp⟩ := look_box hcls h hl hf
  rw [← hw] at hbw
  obtain ⟨f, f1, hall⟩ := justification_laid u look w hroom
  obtain ⟨lines, k1, k2⟩ := hall _ he
  have hnl : ∀ l ∈ lines, '\n' ∉ l := by
    rcases hn with hn | hn | hn
    · exact k2.lines (.inl hn)
    · have := k2.laid
      simp only [Laid, hn] at this
      exact this.2.2
    · exact k2.lines (.inr hn)
  refine ⟨b, lines, hb, k2.laid, hnl, ?_, k2.fits, k2.kept, k2.chars⟩
  have hcap : capIf u inst.settings x = .ok (cased u look.capitals x) := by
    simp only [capIf, getA, hl.capitals, bind, Except.bind, pure, Except.pure, Val.truthy, cased]
    cases look.capitals <;> rfl
  have hin : innerRender u inst b x = itemInner u inst.settings b x := by
    simp only [List.mem_cons, List.not_mem_nil, or_false] at hc
    rcases hc with hc | hc | hc <;> simp only [innerRender, e2, hc]
  rw [hin]
  simp only [itemInner, getA, hl.alignment, asStr, f1, hbw, wrapOpts_look hl, hcap, k1, bind, Except.bind, hl.template, hbp]
  cases lines with
  | nil =>
    simp only [join, splitCh, fmt1_escape, pure, Except.pure, List.map_nil, hanging, List.append_nil]
  | cons l ls =>
    rw [splitCh_join _ _ (by simp) hnl]
    simp only [fmt1_escape, pure, Except.pure, hanging, rep, Int.toNat_natCast]

theorem escape_length (a : Str) (ha : ∀ c ∈ a, c ≠ '{' ∧ c ≠ '}') : (escape a).length = a.length := by
  induction a with
  | nil => rfl
  | cons c a ih =>
    have h1 := ha c (by simp)
    have h2 := ih (fun x hx => ha x (List.mem_cons_of_mem _ hx))
    simp only [escape, List.map_cons, List.flatten_cons, h1.1, h1.2, if_false, List.length_append,
      List.length_cons, List.length_nil] at h2 ⊢
    omega

/-- Further lines start below the text of the first line, if the template has nothing after the placeholder and no doubled
braces before it. -/
theorem C79_partial (u : Uni) (cls : RClass) (t : TagInfo) (ctx : Ctx) (parent : Box) (inst : Inst) (look : TextLook) (fr : Frame)
    (hc : cls.behaviour ∈ [.listItem, .olItem, .defItem]) (h : construct cls t ctx parent = .ok inst) (hl : look.In inst.settings)
    (hf : fr.In inst.settings) (ha : look.after = []) (hp : ∀ c ∈ look.before, c ≠ '{' ∧ c ≠ '}')
    (w : Int) (hw : w = textRoom parent - fr.cols - look.before.length) (hroom : look.Room w) (x : Str)
    (hn : look.replaceSpace = true ∨ look.alignment = .asIs ∨ '\n' ∉ cased u look.capitals x)
    (he : look.Even (cased u look.capitals x)) :
    ∃ b lines, inst.box = some b ∧ Laid u look w (cased u look.capitals x) lines ∧ (∀ l ∈ lines, '\n' ∉ l) ∧
      innerRender u inst b x = .ok (join py"\n" (hang look.before lines)) := by
  have hcols : look.cols = look.before.length := by
    rw [TextLook.cols, escape_length _ hp, ha]
    rfl
  obtain ⟨b, lines, h1, h2, h3, h4, -⟩ := C79_lines u cls t ctx parent inst look fr hc h hl hf w (by rw [hcols]; exact hw) hroom x hn he
  refine ⟨b, lines, h1, h2, h3, ?_⟩
  rw [h4, hcols, ha]
  cases lines <;> simp [hanging, hang]

/-! ## Examples -/

/-- A page of `w` columns with one more rule. -/
def pageCfg (w : Int) (tag : Str) (c : RClass) (settings : Dict) : Cfg :=
  { box := some (Box.new w {} {} {} none none)
    renderers := [⟨tag, one (elt tag), .pair (some c) (some settings)⟩]
    optimise := false }

/-- One element with text. -/
def pageEvents (tag text : Str) : List Event := [.start tag [], .data text, .stop tag]

example : renderEvents asciiUni (pageCfg 8 py"pre" .pre [(py"line_template", .str py"{{{}|"), (py"indent", .int 2)]) (pageEvents py"pre" py"ab\n c") =
    .ok py"\n  {ab|  \n  { c|  \n" := by decide +kernel

example : renderEvents asciiUni (pageCfg 6 py"blockquote" .blockQuote [(py"line_template", .str py"}}{}<")]) (pageEvents py"blockquote" py"ab") =
    .ok py"\n}ab<  \n" := by decide +kernel

/-- Text set to the right in capitals, between bars. -/
def c78Settings : Dict :=
  [(py"line_template", .str py"| {} |"), (py"justification", .str py"right"), (py"capitalized", .bool true),
   (py"initial_indent", .int 2)]

example : renderEvents asciiUni (pageCfg 12 py"p" .paragraph c78Settings) (pageEvents py"p" py"aa bb cc dd") =
    .ok py"\n|    AA BB |\n|    CC DD |\n" := by decide +kernel

example : renderEvents asciiUni (pageCfg 12 py"p" .paragraph ((py"justification", .str py"full") :: c78Settings.take 1)) (pageEvents py"p" py"aa b cc dd e") =
    .ok py"\n| aa  b cc |\n| dd e |    \n" := by decide +kernel

/-- The settings of that paragraph ask for that look. -/
example : TextLook.In { before := py"| ", after := py" |", first := 2, alignment := .right, capitals := true }
    (DictOf.update (newSettings .paragraph) c78Settings) := by
  refine ⟨rfl, rfl, rfl, rfl, rfl, .inl rfl, .inl rfl, .inr ⟨rfl, rfl⟩, .inr ⟨rfl, rfl⟩, .inr ⟨rfl, rfl⟩, .inr ⟨rfl, rfl⟩,
    .inr ⟨rfl, rfl⟩, .inr ⟨rfl, rfl⟩⟩

/-- They leave room in a page of 12 columns. -/
example : TextLook.Room { before := py"| ", after := py" |", first := 2, alignment := .right, capitals := true }
    (textRoom (Box.new 12 {} {} {} none none) - Frame.cols { margin := ⟨1, 0, 1, 0⟩ } -
      TextLook.cols { before := py"| ", after := py" |" }) := by
  refine ⟨by decide, by decide, by decide⟩

example : Frame.In { margin := ⟨1, 0, 1, 0⟩ } (DictOf.update (newSettings .paragraph) c78Settings) := ⟨rfl, rfl, rfl⟩

example : renderEvents asciiUni (pageCfg 8 py"p" .paragraph [(py"justification", .str py"justified")]) (pageEvents py"p" py"aa") =
    .error .keyError := by decide +kernel

example : renderEvents asciiUni (pageCfg 8 py"li" .listItem [(py"line_template", .str py"-> {}")]) (pageEvents py"li" py"aa bb cc") =
    .ok py"-> aa bb\n   cc   " := by decide +kernel

/-- With text after the placeholder, or a brace before it, further lines are indented too far. -/
theorem C79_fails :
    renderEvents asciiUni (pageCfg 8 py"li" .listItem [(py"line_template", .str py"({})")]) (pageEvents py"li" py"aaaa bbbb") =
      .ok py"(aaaa)  \n  bbbb  " ∧
    renderEvents asciiUni (pageCfg 8 py"li" .listItem [(py"line_template", .str py"{{{}")]) (pageEvents py"li" py"aaaa bbbb") =
      .ok py"{aaaa   \n  bbbb  " := by decide +kernel

end Verif
