import Verif.Proofs.Splitlines
import Verif.Proofs.Blocks
import Verif.Proofs.Good
import Verif.Props.Format
import Verif.Props.Wrap
import Verif.Props.Style
import Verif.Spec.Keep

/-!
# Text that is not lost
-/

namespace Verif

open Spec

/-- What is not whitespace in the first text is in the second, in order. -/
def Keeps (a b : Str) : Prop := (nonws a).Sublist (nonws b)

theorem keeps_refl (a : Str) : Keeps a a := List.Sublist.refl _
theorem Keeps.trans {a b c : Str} (h : Keeps a b) (h' : Keeps b c) : Keeps a c := List.Sublist.trans h h'
theorem keeps_eq {a b : Str} (h : nonws a = nonws b) : Keeps a b := by unfold Keeps; rw [h]; exact List.Sublist.refl _
theorem keeps_nil (b : Str) : Keeps [] b := List.nil_sublist _
theorem keeps_sublist {a b : Str} (h : a.Sublist b) : Keeps a b := h.filter _
theorem keeps_append {a b c d : Str} (h : Keeps a b) (h' : Keeps c d) : Keeps (a ++ c) (b ++ d) := by
  unfold Keeps
  rw [nonws_append, nonws_append]
  exact h.append h'
theorem keeps_left {a b : Str} (c : Str) (h : Keeps a b) : Keeps a (b ++ c) := by
  have := keeps_append h (keeps_nil c)
  rwa [List.append_nil] at this
theorem keeps_right {a b : Str} (c : Str) (h : Keeps a b) : Keeps a (c ++ b) := keeps_append (keeps_nil c) h

/-- Texts changed one by one. -/
theorem keeps_mapM {f : Str → Py Str} (h : ∀ x y, f x = .ok y → Keeps x y) (l m : List Str) (hm : l.mapM f = .ok m) :
    Keeps l.flatten m.flatten := by
  induction l generalizing m with
  | nil => exact keeps_nil _
  | cons a l ih =>
    rw [List.mapM_cons] at hm
    simp only [bind, Except.bind, pure, Except.pure] at hm
    cases ha : f a with
    | error e => rw [ha] at hm; cases hm
    | ok b =>
      rw [ha] at hm
      cases hl : l.mapM f with
      | error e => simp only [hl] at hm; cases hm
      | ok m' =>
        simp only [hl] at hm
        cases hm
        simp only [List.flatten_cons]
        exact keeps_append (h _ _ ha) (ih _ hl)

theorem keeps_map {f : Str → Str} (h : ∀ x, Keeps x (f x)) (l : List Str) : Keeps l.flatten (l.map f).flatten := by
  induction l with
  | nil => exact keeps_nil _
  | cons a l ih => simp only [List.map_cons, List.flatten_cons]; exact keeps_append (h a) ih

theorem nonws_nl (ls : List Str) : nonws (join py"\n" ls) = nonws ls.flatten :=
  nonws_join _ _ (by intro c hc; simp at hc; subst hc; decide)

theorem nonws_splitCh (s : Str) : nonws (splitCh '\n' s).flatten = nonws s := by
  rw [← nonws_nl, show py"\n" = ['\n'] from rfl, join_splitCh]

theorem isLineBreak_space (c : Char) (h : isLineBreak c = true) : isSpace c = true := by
  unfold isLineBreak at h
  unfold isSpace
  revert h
  simp only [Bool.or_eq_true, Bool.and_eq_true, decide_eq_true_eq, beq_iff_eq]
  omega

theorem nonws_splitlines (s : Str) : nonws (splitlines s).flatten = nonws s := by
  have := splitlines_lines s
  generalize splitlines s = ls at this
  induction this with
  | nil => rfl
  | last _ _ => simp
  | crlf _ _ ih =>
    simp only [List.flatten_cons, nonws_append, ih]
    congr 1
  | @brk l s c ls _ hb _ _ ih =>
    simp only [List.flatten_cons, nonws_append, ih]
    congr 1
    simp [nonws, isLineBreak_space c hb]

/-! ## Templates -/

theorem placed_of_plain {t : Str} (hp : plainFields false t = true) (h : Depends (fmt1 t)) : Placed t := by
  intro x y hf
  rcases C59_uniform t hp with ⟨e, he⟩ | ⟨parts, hp⟩
  · rw [he] at hf; cases hf
  · rw [hp] at hf
    cases hf
    by_cases hn : none ∈ parts
    · obtain ⟨a, b, rfl⟩ := List.append_of_mem hn
      rw [List.map_append, List.map_cons, List.flatten_append, List.flatten_cons, ← List.append_assoc]
      exact List.infix_append ..
    · exfalso
      obtain ⟨x', y', hd⟩ := h
      apply hd
      rw [hp, hp]
      congr 2
      apply List.map_congr_left
      intro p hpp
      cases p with
      | none => exact absurd hpp hn
      | some c => rfl

theorem fmt1_keeps {t x y : Str} (h : Placed t) (hf : fmt1 t x = .ok y) : Keeps x y := keeps_sublist (h x y hf).sublist

theorem lookup_other {k s : Str} {x : Arg} {others : List (Str × Arg)} (h : s ≠ k) :
    ((k, x) :: others).lookup s = others.lookup s := by
  rw [List.lookup_cons]
  have : (s == k) = false := by simpa using h
  rw [this]

theorem eval_independent (k : Str) (x y : Arg) (args : List Arg) (others : List (Str × Arg)) (ps : List Piece) (hp : ∀ p ∈ ps, p.plain = true)
    (h : .name k ∉ ps) (m : Numbering) : evalPieces args ((k, x) :: others) m ps = evalPieces args ((k, y) :: others) m ps := by
  induction ps generalizing m with
  | nil => rfl
  | cons p ps ih =>
    have ih := ih (fun q hq => hp q (List.mem_cons_of_mem _ hq)) (fun hm => h (List.mem_cons_of_mem _ hm))
    cases p with
    | lit c => simp only [evalPieces, ih]
    | auto => simp only [evalPieces, ih]
    | pos n => simp only [evalPieces, ih]
    | name s =>
      have hs : s ≠ k := fun e => h (by subst e; simp)
      simp only [evalPieces, nameArg, ih, lookup_other hs]
    | bad => rfl
    | field _ _ _ => exact absurd (hp _ (List.mem_cons_self ..)) (by simp [Piece.plain])

theorem eval_infix (k x : Str) (args : List Arg) (others : List (Str × Arg)) (ps : List Piece) (h : .name k ∈ ps) (m : Numbering) (y : Str)
    (he : evalPieces args ((k, .str x) :: others) m ps = .ok y) : x <:+: y := by
  have step : ∀ (a : Str) (z : Py Str) (y : Str), z.map (a ++ ·) = .ok y → (∀ w, z = .ok w → x <:+: w) → x <:+: y := by
    intro a z y hz hw
    cases z with
    | error e => cases hz
    | ok w => cases hz; exact (hw w rfl).trans (List.suffix_append ..).isInfix
  induction ps generalizing m y with
  | nil => cases h
  | cons p ps ih =>
    by_cases hp : p = .name k
    · subst hp
      simp only [evalPieces, nameArg, List.lookup_cons_self] at he
      cases hz : evalPieces args ((k, .str x) :: others) m ps with
      | error e => rw [hz] at he; cases he
      | ok w => rw [hz] at he; cases he; exact (List.prefix_append ..).isInfix
    · have hps : .name k ∈ ps := by
        rcases List.mem_cons.1 h with h | h
        · exact absurd h.symm hp
        · exact h
      have ih := fun m y => ih hps m y
      cases p with
      | lit c => exact step [c] _ _ he (fun w hw => ih _ w hw)
      | bad => cases he
      | _ =>
        simp only [evalPieces] at he
        split at he
        · exact step _ _ _ he (fun w hw => ih _ w hw)
        · cases he

theorem placedContent_of_plain {t : Str} (hp : plainFields false t = true)
    (h : ∃ others, Depends (fun x => pyFormat t [] ((py"content", .str x) :: others))) : PlacedContent t := by
  intro x others y hf
  obtain ⟨o, a, b, hd⟩ := h
  unfold pyFormat at hf hd
  by_cases hm : Piece.name py"content" ∈ parseTemplate none t
  · exact eval_infix _ _ _ _ _ hm _ _ hf
  · exact absurd (eval_independent _ (.str a) (.str b) _ o _ (parse_plain hp) hm .unset) hd

theorem content_keeps {t x y : Str} {others : List (Str × Arg)} (h : PlacedContent t)
    (hf : pyFormat t [] ((py"content", .str x) :: others) = .ok y) : Keeps x y := keeps_sublist (h x others y hf).sublist

/-! ## Wrapping -/

theorem indented_nonws (o : WrapOpts) (h1 : Blank o.initialIndent) (h2 : Blank o.subsequentIndent) (before ls bs : List Str)
    (h : Indented o before ls bs) : nonws ls.flatten = nonws bs.flatten := by
  induction ls generalizing before bs with
  | nil => cases bs with | nil => rfl | cons b bs => exact h.elim
  | cons l ls ih =>
    cases bs with
    | nil => exact h.elim
    | cons b bs =>
      obtain ⟨e, h⟩ := h
      have hb : Blank (indentAfter o before) := by unfold indentAfter; split <;> assumption
      simp only [List.flatten_cons, nonws_append, ih _ _ h, e, nonws_blank _ hb, List.nil_append]

/-- Options with blank indents and no limit on the number of lines. -/
structure PlainOpts (o : WrapOpts) : Prop where
  initial : Blank o.initialIndent
  subsequent : Blank o.subsequentIndent
  maxLines : o.maxLines = none

theorem wrap_nonws {u : Uni} {o : WrapOpts} {x : Str} {lines : List Str} (ho : PlainOpts o) (h : wrap u o x = .ok lines) :
    nonws lines.flatten = nonws x := by
  obtain ⟨bodies, h1, h2⟩ := C18 u o x lines ho.maxLines h
  rw [indented_nonws o ho.initial ho.subsequent _ _ _ h1, h2]

theorem wrapOpts_plainOpts {u : Uni} {s : Dict} {w : Int} {o : WrapOpts} (h : wrapOpts u s w = .ok o) : PlainOpts o := by
  simp only [wrapOpts, bind, Except.bind, pure, Except.pure] at h
  repeat' split at h
  all_goals first
    | (cases h; done)
    | (cases h; exact ⟨blank_rep_space _, blank_rep_space _, rfl⟩)

theorem nonws_rjust (s : Str) (w : Int) : nonws (rjust s w) = nonws s := by
  unfold rjust
  rw [nonws_append, nonws_blank _ (blank_rep_space _), List.nil_append]

theorem nonws_center (s : Str) (w : Int) : nonws (center s w) = nonws s := by
  unfold center centerStr
  split
  · rfl
  · have hb : ∀ n, nonws (List.replicate n ' ') = [] := fun n => nonws_blank _ (blank_rep_space n)
    simp only
    split
    · rfl
    · simp only [nonws_append, hb, List.nil_append, List.append_nil]

theorem nonws_right (s : Str) (w : Int) : nonws (right s w) = nonws s := by
  unfold right
  split
  · rfl
  · exact nonws_rjust s w

theorem nonws_spaced (ws : List Str) (n : Int) : nonws (join (rep ' ' n) ws) = nonws ws.flatten := nonws_join _ _ (blank_rep_space n)

theorem nonws_justifyLine (w : Int) (l : Str) : nonws (justifyLine w l) = nonws l := by
  have hw : nonws (splitCh ' ' (rstrip (lstrip l))).flatten = nonws l := by
    rw [← nonws_join _ py" " (by intro c hc; simp at hc; subst hc; decide), show py" " = [' '] from rfl, join_splitCh, nonws_rstrip, nonws_lstrip]
  unfold justifyLine
  simp only
  repeat' split
  · rfl
  · rfl
  · rw [nonws_append, nonws_blank _ (blank_rep_space _), List.nil_append, nonws_spaced, hw]
  · rw [nonws_append, nonws_append, nonws_append, nonws_blank _ (blank_rep_space _), List.nil_append, nonws_spaced,
      nonws_blank _ (blank_rep_space _), List.append_nil, nonws_spaced, ← nonws_append, ← List.flatten_append, List.take_append_drop, hw]

theorem nonws_flatten_map {f : Str → Str} (h : ∀ x, nonws (f x) = nonws x) (l : List Str) : nonws (l.map f).flatten = nonws l.flatten := by
  induction l with
  | nil => rfl
  | cons a l ih => simp only [List.map_cons, List.flatten_cons, nonws_append, h, ih]

theorem justify_nonws {u : Uni} {name : Str} {j : WrapOpts → Str → Py Str} (hj : justification u name = .ok j) {o : WrapOpts} (ho : PlainOpts o)
    {x y : Str} (h : j o x = .ok y) : nonws y = nonws x := by
  have lift : ∀ (g : List Str → Str), (∀ ls, nonws (g ls) = nonws ls.flatten) → (wrap u o x).map g = .ok y → nonws y = nonws x := by
    intro g hg h
    cases hw : wrap u o x with
    | error e => rw [hw] at h; cases h
    | ok ls => rw [hw] at h; cases h; rw [hg, wrap_nonws ho hw]
  unfold justification at hj
  repeat' split at hj
  all_goals cases hj
  · cases h; rfl
  · refine lift _ (fun ls => ?_) h
    rw [nonws_nl]
    unfold justifyLines
    rw [List.flatten_append, nonws_append, nonws_flatten_map (nonws_justifyLine _), ← nonws_append, ← List.flatten_append]
    congr 2
    rcases List.eq_nil_or_concat ls with rfl | ⟨l, a, rfl⟩
    · rfl
    · simp
  · refine lift _ (fun ls => ?_) h
    rw [nonws_nl, nonws_flatten_map (fun x => nonws_center x _)]
  · exact lift _ (fun ls => nonws_nl ls) h
  · refine lift _ (fun ls => ?_) h
    rw [nonws_nl, nonws_flatten_map (fun x => nonws_right x _)]

theorem spread_sublist (x c : Str) (n : Int) : x.Sublist (spread x c n) := by
  unfold spread
  induction x with
  | nil => exact List.nil_sublist _
  | cons a x ih =>
    cases x with
    | nil => exact List.Sublist.refl _
    | cons b x =>
      rw [List.map_cons, join_cons _ _ _ (by simp)]
      exact ((List.Sublist.refl [a]).append (List.nil_sublist _)).append ih

/-! ## Renderers -/

/-- The settings of a renderer that does not lose text. -/
def KeepsDict (s : Dict) : Prop := ∀ k v, DictOf.get s k = some v → KeepsValue k v

theorem getA_ok {s : Dict} {k : Str} {v : Val} (h : getA s k = .ok v) : DictOf.get s k = some v := by
  unfold getA at h
  split at h
  · rename_i hv; cases h; exact hv
  · cases h

theorem getK_ok {s : Dict} {k : Str} {v : Val} (h : getK s k = .ok v) : DictOf.get s k = some v := by
  unfold getK at h
  split at h
  · rename_i hv; cases h; exact hv
  · cases h

theorem asStr_ok {v : Val} {t : Str} (h : asStr v = .ok t) : v = .str t := by
  cases v <;> cases h
  rfl

theorem template_placed {s : Dict} (hs : KeepsDict s) {k t : Str} {v : Val}
    (hk : k ∈ [py"template", py"line_template", py"block_template", py"inline_template"]) (hv : DictOf.get s k = some v)
    (ht : asStr v = .ok t) : Placed t := (hs k v hv).template hk t (asStr_ok ht)

theorem capIf_keeps {u : Uni} {s : Dict} (hs : KeepsDict s) {x y : Str} (h : capIf u s x = .ok y) : y = x := by
  simp only [capIf, bind, Except.bind, pure, Except.pure] at h
  split at h
  · cases h
  · rename_i v hv
    rw [(hs _ v (getA_ok hv)).capitalized rfl] at h
    cases h
    rfl

theorem inlineRender_keeps {u : Uni} {s : Dict} (hs : KeepsDict s) {x y : Str} (h : inlineRender u s x = .ok y) : Keeps x y := by
  simp only [inlineRender, bind, Except.bind] at h
  split at h
  · cases h
  · rename_i c hc
    split at h
    · cases h
    · rename_i v hv
      split at h
      · cases h
      · rename_i t ht
        rw [(hs _ c (getK_ok hc)).capitalized rfl] at h
        exact fmt1_keeps (template_placed hs (by simp) (getA_ok hv) ht) h

theorem codeRender_keeps {s : Dict} (hs : KeepsDict s) {t : TagInfo} {x y : Str} (h : codeRender s t x = .ok y) : Keeps x y := by
  unfold codeRender at h
  split at h
  · cases h; exact keeps_refl _
  · split at h
    all_goals
      simp only [bind, Except.bind] at h
      split at h
      · cases h
      · rename_i v hv
        split at h
        · cases h
        · rename_i t ht
          exact fmt1_keeps (template_placed hs (by simp) (getK_ok hv) ht) h

theorem namedTemplate_placed {s : Dict} (hs : KeepsDict s) {name t : Str} {k : Nat} (h : namedTemplate s name k = .ok t) : PlacedContent t := by
  simp only [namedTemplate, bind, Except.bind] at h
  split at h
  · cases h
  · rename_i v hv
    split at h
    · rename_i d
      split at h
      · rename_i l hl
        unfold strAt at h
        split at h
        · rename_i x hx
          cases h
          have hmem : (name, l) ∈ d := by
            clear hx hv
            unfold DictOf.get at hl
            induction d with
            | nil => cases hl
            | cons a d ih =>
              obtain ⟨k', l'⟩ := a
              rw [List.lookup_cons] at hl
              split at hl
              · rename_i he
                cases hl
                have : name = k' := by simpa using he
                rw [this]; simp
              · exact List.mem_cons_of_mem _ (ih hl)
          exact (hs _ _ (getA_ok hv)).templates rfl d rfl _ hmem t (List.mem_of_getElem? hx)
        · cases h
      · cases h
    · cases h

theorem linkRender_keeps {u : Uni} {s : Dict} (hs : KeepsDict s) {ctx : Ctx} {x y : Str} (h : linkRender u s ctx x = .ok y) : Keeps x y := by
  simp only [linkRender, bind, Except.bind] at h
  split at h
  · cases h
  · split at h
    · cases h
    · rename_i z hz
      have h1 := inlineRender_keeps hs hz
      split at h
      · cases h
      · rename_i w hw
        rw [capIf_keeps hs hw] at h
        repeat' split at h
        all_goals first
          | (cases h; done)
          | exact h1.trans (content_keeps (namedTemplate_placed hs (by assumption)) h)

theorem ansiRender_keeps {u : Uni} {s : Dict} (hs : KeepsDict s) {x y : Str} (h : ansiRender u s x = .ok y) : Keeps x y := by
  simp only [ansiRender, bind, Except.bind, pure, Except.pure] at h
  split at h
  · cases h
  · rename_i z hz
    have h1 := inlineRender_keeps hs hz
    repeat' split at h
    all_goals first
      | (cases h; done)
      | (cases h; exact keeps_left _ (keeps_right _ h1))

theorem headerInner_keeps {u : Uni} {s : Dict} (hs : KeepsDict s) {box : Box} {x y : Str} (h : headerInner u s box x = .ok y) : Keeps x y := by
  simp only [headerInner, bind, Except.bind, pure, Except.pure] at h
  split at h
  · cases h
  · rename_i cv hcv
    split at h
    · cases h
    · rename_i z hz
      rw [capIf_keeps hs hz] at h
      split at h
      · cases h
      · split at h
        · cases h
        · split at h
          · cases h
          · rename_i tv htv
            split at h
            · cases h
            · rename_i t ht
              have hp := template_placed hs (by simp) (getA_ok htv) ht
              split at h
              · cases h
              · split at h
                · cases h
                · rename_i sp hsp
                  have h1 : Keeps x sp := by
                    split at hsp
                    · split at hsp
                      · cases hsp
                      · cases hsp; exact keeps_sublist (spread_sublist ..)
                    · cases hsp; exact keeps_refl _
                  split at h
                  · cases h
                  · rename_i inner hi
                    have h2 := h1.trans (fmt1_keeps hp hi)
                    have h3 := h2.trans (keeps_eq (nonws_center inner box.innerWidth).symm)
                    repeat' split at h
                    all_goals first
                      | (cases h; done)
                      | (cases h; exact h2)
                      | (cases h; exact h3)
                      | (cases h; exact keeps_left _ (keeps_left _ h2))
                      | (cases h; exact keeps_left _ (keeps_left _ h3))

theorem paragraphInner_keeps {u : Uni} {s : Dict} (hs : KeepsDict s) {t : TagInfo} {box : Box} {x y : Str}
    (h : paragraphInner u s t box x = .ok y) : Keeps x y := by
  simp only [paragraphInner, bind, Except.bind, pure, Except.pure] at h
  split at h
  · cases h
  · split at h
    · cases h; exact keeps_refl _
    · split at h
      · cases h
      · split at h
        · cases h
        · split at h
          · cases h
          · rename_i j hj
            split at h
            · cases h
            · rename_i o ho
              split at h
              · cases h
              · rename_i z hz
                rw [capIf_keeps hs hz] at h
                split at h
                · cases h
                · rename_i ls hls
                  have h1 : Keeps x ls.flatten := by
                    refine Keeps.trans (keeps_eq (nonws_splitCh x).symm) (keeps_mapM (fun a b hab => ?_) _ _ hls)
                    exact keeps_eq (by rw [justify_nonws hj (wrapOpts_plainOpts ho) hab, nonws_strip])
                  split at h
                  · cases h
                  · rename_i tv htv
                    split at h
                    · cases h
                    · rename_i tm htm
                      have hp := template_placed hs (by simp) (getA_ok htv) htm
                      split at h
                      · cases h
                      · rename_i out hout
                        cases h
                        refine h1.trans ((keeps_eq (nonws_nl ls).symm).trans ((keeps_eq (nonws_splitCh _).symm).trans ?_))
                        exact (keeps_mapM (fun a b hab => fmt1_keeps hp hab) _ _ hout).trans (keeps_eq (nonws_nl _).symm)

theorem preInner_keeps {s : Dict} (hs : KeepsDict s) {x y : Str} (h : preInner s x = .ok y) : Keeps x y := by
  simp only [preInner, bind, Except.bind, pure, Except.pure] at h
  split at h
  · cases h
  · rename_i out hout
    cases h
    refine (keeps_eq (nonws_splitlines x).symm).trans ((keeps_mapM (fun a b hab => ?_) _ _ hout).trans (keeps_eq (nonws_nl _).symm))
    split at hab
    · cases hab
    · split at hab
      · cases hab
      · split at hab
        · cases hab
        · rename_i tv htv
          split at hab
          · cases hab
          · rename_i tm htm
            split at hab
            · cases hab
            · rename_i z hz
              cases hab
              exact keeps_right _ (fmt1_keeps (template_placed hs (by simp) (getA_ok htv) htm) hz)

theorem quoteInner_keeps {s : Dict} (hs : KeepsDict s) {x y : Str} (h : quoteInner s x = .ok y) : Keeps x y := by
  simp only [quoteInner, bind, Except.bind, pure, Except.pure] at h
  split at h
  · cases h
  · rename_i tv htv
    split at h
    · cases h
    · rename_i tm htm
      split at h
      · cases h
      · rename_i out hout
        cases h
        refine (keeps_eq (nonws_splitlines x).symm).trans ((keeps_mapM (fun a b hab => ?_) _ _ hout).trans (keeps_eq (nonws_nl _).symm))
        exact fmt1_keeps (template_placed hs (by simp) (getA_ok htv) htm) hab

theorem itemInner_keeps {u : Uni} {s : Dict} (hs : KeepsDict s) {box : Box} {x y : Str} (h : itemInner u s box x = .ok y) : Keeps x y := by
  simp only [itemInner, bind, Except.bind, pure, Except.pure] at h
  split at h
  · cases h
  · split at h
    · cases h
    · split at h
      · cases h
      · rename_i j hj
        split at h
        · cases h
        · rename_i o ho
          split at h
          · cases h
          · rename_i z hz
            rw [capIf_keeps hs hz] at h
            split at h
            · cases h
            · rename_i w hw
              have h1 : Keeps x w := keeps_eq (justify_nonws hj (wrapOpts_plainOpts ho) hw).symm
              split at h
              · cases h
              · rename_i tv htv
                split at h
                · cases h
                · rename_i tm htm
                  split at h
                  · cases h
                  · rename_i first rest hsp
                    split at h
                    · cases h
                    · rename_i fl hfl
                      cases h
                      refine h1.trans ((keeps_eq (nonws_splitCh w).symm).trans ?_)
                      rw [hsp]
                      refine Keeps.trans ?_ (keeps_eq (nonws_nl _).symm)
                      simp only [List.flatten_cons]
                      refine keeps_append (fmt1_keeps (template_placed hs (by simp) (getA_ok htv) htm) hfl) ?_
                      exact keeps_map (fun l => keeps_right _ (keeps_refl l)) rest

theorem innerRender_keeps {u : Uni} {i : Inst} (hs : KeepsDict i.settings) (hc : i.cls ∉ dropping) {box : Box} {x y : Str}
    (h : innerRender u i box x = .ok y) : Keeps x y := by
  unfold innerRender at h
  split at h
  · exact headerInner_keeps hs h
  · exact headerInner_keeps hs h
  · exact headerInner_keeps hs h
  · exact paragraphInner_keeps hs h
  · exact preInner_keeps hs h
  · exact quoteInner_keeps hs h
  · exact itemInner_keeps hs h
  · exact itemInner_keeps hs h
  · exact itemInner_keeps hs h
  · rename_i e; exact absurd (by rw [e]; simp [dropping]) hc
  · rename_i e; exact absurd (by rw [e]; simp [dropping]) hc
  · cases h; exact keeps_refl _

theorem border_keeps {s : Dict} {box : Box} {x y : Str} (h : borderRender s box x = .ok y) : Keeps x y := by
  simp only [borderRender, bind, Except.bind, pure, Except.pure] at h
  repeat' split at h
  all_goals first
    | (cases h; done)
    | skip
  cases h
  refine (keeps_eq (nonws_splitCh x).symm).trans (Keeps.trans ?_ (keeps_eq (nonws_nl _).symm))
  unfold borderLines
  simp only [List.flatten_append]
  refine keeps_left _ (keeps_right _ (keeps_left _ (keeps_right _ (keeps_map (fun l => ?_) _))))
  unfold borderRow
  exact keeps_left _ (keeps_left _ (keeps_right _ (keeps_refl l)))

theorem outer_keeps (box : Box) (x : Str) : Keeps x (outerRender box x) := by
  unfold outerRender
  refine keeps_left _ (keeps_right _ ?_)
  have := keeps_map (f := fun l => rep ' ' box.margin.left ++ l) (fun l => keeps_right _ (keeps_refl l)) (splitlinesKeep x)
  rwa [splitlinesKeep_flatten] at this

theorem render_keeps {u : Uni} {i : Inst} (hs : KeepsDict i.settings) (hc : i.cls ∉ dropping) {x y : Str}
    (h : i.render u x = .ok y) : Keeps x y := by
  unfold Inst.render at h
  split at h
  · rename_i box _
    split at h
    · rename_i e; exact absurd (by rw [e]; simp [dropping]) hc
    · simp only [blockRender, bind, Except.bind, pure, Except.pure] at h
      split at h
      · cases h
      · rename_i inner hi
        split at h
        · cases h
        · rename_i b hb
          cases h
          exact (innerRender_keeps hs hc hi).trans ((border_keeps hb).trans (outer_keeps _ _))
  · split at h
    all_goals first
      | exact inlineRender_keeps hs h
      | exact codeRender_keeps hs h
      | exact linkRender_keeps hs h
      | exact ansiRender_keeps hs h
      | (rename_i e; exact absurd (by rw [e]; simp [dropping]) hc)
      | (cases h; exact keeps_refl _)

end Verif
