import Verif.Props.Wrap
import Verif.Proofs.Close
import Verif.Props.Style

/-!
# Which functions can run out of fuel
-/

namespace Verif

open Spec

/-- The computation does not end with this error. -/
def Avoids {α : Type} (e : PyErr) (x : Py α) : Prop := x ≠ .error e

/-- The errors that stand for a loop or a recursion that does not end. -/
def Endless (e : PyErr) : Prop := e = .recursion ∨ e = .diverge

theorem avoids_ok {α : Type} (e : PyErr) (a : α) : Avoids e (.ok a) := fun h => by cases h

theorem avoids_pure {α : Type} (e : PyErr) (a : α) : Avoids e (pure a : Py α) := fun h => by cases h

theorem avoids_error {α : Type} {e e' : PyErr} (he : Endless e) (h : e' ≠ .recursion) (h' : e' ≠ .diverge) :
    Avoids e (.error e' : Py α) := by
  intro hx
  cases hx
  rcases he with rfl | rfl
  · exact h rfl
  · exact h' rfl

theorem avoids_bind {α β : Type} {e : PyErr} {x : Py α} {f : α → Py β} (hx : Avoids e x) (hf : ∀ a, x = .ok a → Avoids e (f a)) :
    Avoids e (x >>= f) := by
  cases x with
  | error e' =>
    intro h
    exact hx (by cases h; rfl)
  | ok a => exact hf a rfl

theorem avoids_map {α β : Type} {e : PyErr} {x : Py α} (f : α → β) (hx : Avoids e x) : Avoids e (x.map f) := by
  cases x with
  | error e' => exact fun h => hx (by cases h; rfl)
  | ok a => exact avoids_ok _ _

theorem avoids_mapM {α β : Type} {e : PyErr} {f : α → Py β} : ∀ (l : List α), (∀ a ∈ l, Avoids e (f a)) → Avoids e (l.mapM f)
  | [], _ => avoids_pure _ _
  | a :: l, h => by
    rw [List.mapM_cons]
    refine avoids_bind (h a (List.mem_cons_self ..)) (fun b _ => avoids_bind ?_ (fun c _ => avoids_pure _ _))
    exact avoids_mapM l (fun x hx => h x (List.mem_cons_of_mem _ hx))

theorem avoids_foldlM {α β : Type} {e : PyErr} {f : β → α → Py β} : ∀ (l : List α) (b : β), (∀ a ∈ l, ∀ b, Avoids e (f b a)) →
    Avoids e (l.foldlM f b)
  | [], _, _ => avoids_pure _ _
  | a :: l, b, h => by
    rw [List.foldlM_cons]
    refine avoids_bind (h a (List.mem_cons_self ..) b) (fun c _ => ?_)
    exact avoids_foldlM l c (fun x hx => h x (List.mem_cons_of_mem _ hx))

/-- Take a computation apart. -/
syntax "avoid" ("[" term,* "]")? : tactic
macro_rules
  | `(tactic| avoid) => `(tactic| avoid [avoids_ok _ _])
  | `(tactic| avoid [$[$ts],*]) =>
    `(tactic| repeat' (first
        | exact avoids_ok _ _
        | exact avoids_pure _ _
        | first $[| exact $ts]*
        | (refine avoids_error (by assumption) ?_ ?_ <;> intro h <;> cases h <;> done)
        | apply avoids_map
        | refine avoids_bind ?_ (fun _ _ => ?_)
        | split))

section
variable {e : PyErr} (he : Endless e)
include he

theorem getA_avoids (s : Dict) (k : Str) : Avoids e (getA s k) := by unfold getA; avoid
theorem getK_avoids (s : Dict) (k : Str) : Avoids e (getK s k) := by unfold getK; avoid
theorem asStr_avoids (v : Val) : Avoids e (asStr v) := by unfold asStr; avoid
theorem asInt_avoids (v : Val) : Avoids e (asInt v) := by unfold asInt; avoid
theorem asSides_avoids (v : Val) : Avoids e (asSides v) := by unfold asSides; avoid
theorem asBorder_avoids (v : Val) : Avoids e (asBorder v) := by unfold asBorder; avoid
theorem strAt_avoids (l : List Str) (k : Nat) : Avoids e (strAt l k) := by unfold strAt; avoid
theorem boxTemplate_avoids (s : Dict) : Avoids e (boxTemplate s) := by unfold boxTemplate; avoid

theorem autoArg_avoids (args : List Arg) (m : Numbering) : Avoids e (autoArg args m) := by unfold autoArg; avoid
theorem posArg_avoids (args : List Arg) (m : Numbering) (n : Nat) : Avoids e (posArg args m n) := by unfold posArg; avoid
theorem nameArg_avoids (kw : List (Str × Arg)) (m : Numbering) (s : Str) : Avoids e (nameArg kw m s) := by unfold nameArg; avoid

theorem fieldArg_avoids (args : List Arg) (kw : List (Str × Arg)) (m : Numbering) (f : Str) : Avoids e (fieldArg args kw m f) := by
  unfold fieldArg
  avoid [autoArg_avoids he _ _, posArg_avoids he _ _ _, nameArg_avoids he _ _ _]

theorem access_avoids (a : Arg) (l : List Access) : Avoids e (access a l) := by
  fun_induction access a l <;> avoid [by assumption]

theorem convert_avoids (a : Arg) (c : Option Char) : Avoids e (convert a c) := by unfold convert; avoid
theorem takeNumber_avoids (s : Str) : Avoids e (takeNumber s) := by unfold takeNumber; simp only; avoid
theorem takePrecision_avoids (s : Str) : Avoids e (takePrecision s) := by unfold takePrecision; avoid [takeNumber_avoids he _]

theorem parseSpec_avoids (b : Bool) (s : Str) : Avoids e (parseSpec b s) := by
  unfold parseSpec
  avoid [takeNumber_avoids he _, takePrecision_avoids he _]

theorem formatArg_avoids (a : Arg) (s : Str) : Avoids e (formatArg a s) := by
  unfold formatArg formatStr formatInt
  avoid [parseSpec_avoids he _ _]

theorem evalField_avoids (inner : Numbering → Str → Py (Str × Numbering)) (hi : ∀ m s, Avoids e (inner m s)) (args : List Arg)
    (kw : List (Str × Arg)) (m : Numbering) (n : Str) (c : Option Char) (s : Str) : Avoids e (evalField inner args kw m n c s) := by
  unfold evalField
  avoid [fieldArg_avoids he _ _ _ _, access_avoids he _ _, convert_avoids he _ _, formatArg_avoids he _ _, hi _ _]

theorem evalSpec_avoids (args : List Arg) (kw : List (Str × Arg)) (m : Numbering) (ps : List Piece) : Avoids e (evalSpec args kw m ps) := by
  induction ps generalizing m with
  | nil => exact avoids_ok _ _
  | cons p ps ih =>
    unfold evalSpec
    refine avoids_bind ?_ (fun _ _ => avoids_bind (ih _) (fun _ _ => avoids_pure _ _))
    have hi : ∀ (m : Numbering) (s : Str), Avoids e (.error .valueError : Py (Str × Numbering)) := fun _ _ => by avoid
    cases p with
    | lit c => exact avoids_ok _ _
    | auto => exact avoids_map _ (autoArg_avoids he _ _)
    | pos n => exact avoids_map _ (posArg_avoids he _ _ _)
    | name s => exact avoids_map _ (nameArg_avoids he _ _ _)
    | field n c s => exact evalField_avoids he _ hi _ _ _ _ _ _
    | bad => exact hi m []

theorem evalPieces_avoids (args : List Arg) (kw : List (Str × Arg)) (m : Numbering) (ps : List Piece) : Avoids e (evalPieces args kw m ps) := by
  induction ps generalizing m with
  | nil => exact avoids_ok _ _
  | cons p ps ih =>
    cases p with
    | lit c => exact avoids_map _ (ih _)
    | bad => simp only [evalPieces]; avoid
    | auto =>
      simp only [evalPieces]
      split
      · exact avoids_map _ (ih _)
      · rename_i h; intro hx; cases hx; exact autoArg_avoids he _ _ h
    | pos n =>
      simp only [evalPieces]
      split
      · exact avoids_map _ (ih _)
      · rename_i h; intro hx; cases hx; exact posArg_avoids he _ _ _ h
    | name n =>
      simp only [evalPieces]
      split
      · exact avoids_map _ (ih _)
      · rename_i h; intro hx; cases hx; exact nameArg_avoids he _ _ _ h
    | field n c s =>
      simp only [evalPieces]
      split
      · exact avoids_map _ (ih _)
      · rename_i h; intro hx; cases hx; exact evalField_avoids he _ (fun _ _ => evalSpec_avoids he _ _ _ _) _ _ _ _ _ _ h

theorem pyFormat_avoids (t : Str) (args : List Arg) (kw : List (Str × Arg)) : Avoids e (pyFormat t args kw) :=
  evalPieces_avoids he _ _ _ _

theorem fmt1_avoids (t x : Str) : Avoids e (fmt1 t x) := pyFormat_avoids he _ _ _

theorem blockBox_avoids (b : Bool) (s : Dict) (p : Box) : Avoids e (blockBox b s p) := by
  unfold blockBox
  avoid [getA_avoids he _ _, asBorder_avoids he _, asSides_avoids he _, boxTemplate_avoids he _, strAt_avoids he _ _]

theorem markdownTemplate_avoids (t : TagInfo) : Avoids e (markdownTemplate t) := by unfold markdownTemplate; avoid
theorem ordinal_avoids (t : TagInfo) (a b : Int) : Avoids e (ordinal t a b) := by unfold ordinal; avoid

theorem initSettings_avoids (c : RClass) (t : TagInfo) (ctx : Ctx) : Avoids e (initSettings c t ctx) := by
  unfold initSettings
  avoid [getA_avoids he _ _, asInt_avoids he _, asStr_avoids he _, ordinal_avoids he _ _ _, pyFormat_avoids he _ _ _, markdownTemplate_avoids he _]

theorem construct_avoids (c : RClass) (t : TagInfo) (ctx : Ctx) (p : Box) : Avoids e (construct c t ctx p) := by
  unfold construct
  avoid [initSettings_avoids he _ _ _, blockBox_avoids he _ _ _]

theorem borderRender_avoids (s : Dict) (b : Box) (x : Str) : Avoids e (borderRender s b x) := by
  unfold borderRender
  avoid [getA_avoids he _ _, asBorder_avoids he _, strAt_avoids he _ _]

theorem capIf_avoids (u : Uni) (s : Dict) (x : Str) : Avoids e (capIf u s x) := by
  unfold capIf
  avoid [getA_avoids he _ _]

theorem headerInner_avoids (u : Uni) (s : Dict) (b : Box) (x : Str) : Avoids e (headerInner u s b x) := by
  unfold headerInner
  avoid [getA_avoids he _ _, getK_avoids he _ _, capIf_avoids he _ _ _, asInt_avoids he _, asStr_avoids he _, fmt1_avoids he _ _]

theorem wrapOpts_avoids (u : Uni) (s : Dict) (w : Int) : Avoids e (wrapOpts u s w) := by
  unfold wrapOpts
  avoid [getA_avoids he _ _, asInt_avoids he _, asStr_avoids he _]

theorem preInner_avoids (s : Dict) (x : Str) : Avoids e (preInner s x) := by
  unfold preInner
  refine avoids_bind (avoids_mapM _ (fun l _ => ?_)) (fun _ _ => avoids_pure _ _)
  avoid [getA_avoids he _ _, asInt_avoids he _, asStr_avoids he _, fmt1_avoids he _ _]

theorem quoteInner_avoids (s : Dict) (x : Str) : Avoids e (quoteInner s x) := by
  unfold quoteInner
  avoid [getA_avoids he _ _, asStr_avoids he _, avoids_mapM _ (fun l _ => fmt1_avoids he _ _)]

theorem ctxLink_avoids (c : Ctx) : Avoids e (ctxLink c) := by unfold ctxLink; avoid
theorem ctxTarget_avoids (c : Ctx) : Avoids e (ctxTarget c) := by unfold ctxTarget; avoid
theorem templateAt_avoids (v : Val) (k : Nat) : Avoids e (templateAt v k) := by unfold templateAt; avoid [strAt_avoids he _ _]

theorem extractedLinkInner_avoids (s : Dict) (c : Ctx) (x : Str) : Avoids e (extractedLinkInner s c x) := by
  unfold extractedLinkInner
  avoid [getA_avoids he _ _, asInt_avoids he _, asStr_avoids he _, ctxLink_avoids he _, ctxTarget_avoids he _, templateAt_avoids he _ _,
    pyFormat_avoids he _ _ _]

theorem extractedImageInner_avoids (s : Dict) (c : Ctx) : Avoids e (extractedImageInner s c) := by
  unfold extractedImageInner
  avoid [getA_avoids he _ _, asInt_avoids he _, asStr_avoids he _, ctxLink_avoids he _, ctxTarget_avoids he _, templateAt_avoids he _ _,
    pyFormat_avoids he _ _ _]

theorem inlineRender_avoids (u : Uni) (s : Dict) (x : Str) : Avoids e (inlineRender u s x) := by
  unfold inlineRender
  avoid [getA_avoids he _ _, getK_avoids he _ _, asStr_avoids he _, fmt1_avoids he _ _]

theorem codeRender_avoids (s : Dict) (t : TagInfo) (x : Str) : Avoids e (codeRender s t x) := by
  unfold codeRender
  avoid [getK_avoids he _ _, asStr_avoids he _, fmt1_avoids he _ _]

theorem namedTemplate_avoids (s : Dict) (n : Str) (k : Nat) : Avoids e (namedTemplate s n k) := by
  unfold namedTemplate
  avoid [getA_avoids he _ _, strAt_avoids he _ _]

theorem linkRender_avoids (u : Uni) (s : Dict) (c : Ctx) (x : Str) : Avoids e (linkRender u s c x) := by
  unfold linkRender
  avoid [ctxLink_avoids he _, inlineRender_avoids he _ _ _, capIf_avoids he _ _ _, namedTemplate_avoids he _ _ _, ctxTarget_avoids he _,
    pyFormat_avoids he _ _ _]

theorem imageRender_avoids (s : Dict) (c : Ctx) : Avoids e (imageRender s c) := by
  unfold imageRender
  avoid [ctxLink_avoids he _, namedTemplate_avoids he _ _ _, ctxTarget_avoids he _, pyFormat_avoids he _ _ _]

theorem breakRender_avoids (u : Uni) (s : Dict) : Avoids e (breakRender u s) := by
  unfold breakRender
  avoid [inlineRender_avoids he _ _ _, getA_avoids he _ _, asStr_avoids he _, fmt1_avoids he _ _]

theorem hexPair_avoids (s : Str) (i : Nat) : Avoids e (hexPair s i) := by unfold hexPair; avoid
theorem parseHtmlColour_avoids (s : Str) : Avoids e (parseHtmlColour s) := by unfold parseHtmlColour; avoid [hexPair_avoids he _ _]
theorem colourSeq_avoids (v : Val) (b : Bool) : Avoids e (colourSeq v b) := by unfold colourSeq; avoid [parseHtmlColour_avoids he _]

theorem effectCodes_avoids (s : Dict) (n : Bool) (l : List (Str × Int × Int)) : Avoids e (effectCodes s n l) := by
  induction l with
  | nil => exact avoids_ok _ _
  | cons a l ih =>
    unfold effectCodes
    avoid [getK_avoids he _ _, ih]

theorem colourCodes_avoids (s : Dict) (n : Bool) (k : Str) (b : Bool) (d : Int) : Avoids e (colourCodes s n k b d) := by
  unfold colourCodes
  avoid [getA_avoids he _ _, colourSeq_avoids he _ _]

theorem ansiRender_avoids (u : Uni) (s : Dict) (x : Str) : Avoids e (ansiRender u s x) := by
  unfold ansiRender
  avoid [inlineRender_avoids he _ _ _, getA_avoids he _ _, effectCodes_avoids he _ _ _, colourCodes_avoids he _ _ _ _ _]

end

/-! ## Wrapping -/

/-- Settings that indent lines by at most one column. -/
def SmallIndents (d : Dict) : Prop :=
  ∀ kv ∈ d, kv.1 = py"initial_indent" ∨ kv.1 = py"subsequent_indent" → ∀ n, asInt kv.2 = .ok n → n ≤ 1

theorem get_mem {d : Dict} {k : Str} {v : Val} (h : DictOf.get d k = some v) : (k, v) ∈ d := by
  induction d with
  | nil => cases h
  | cons kv d ih =>
    obtain ⟨k', v'⟩ := kv
    rw [DictOf.get_cons] at h
    by_cases e : k = k'
    · rw [if_pos e] at h; cases h; subst e; exact List.mem_cons_self ..
    · rw [if_neg e] at h; exact List.mem_cons_of_mem _ (ih h)

theorem rep_len {n : Int} {w : Int} (h : n ≤ 1) (hw : 0 < w) : len (rep ' ' n) ≤ w := by
  simp only [len, rep, List.length_replicate]
  omega

theorem wrap_avoids {e : PyErr} (u : Uni) (o : WrapOpts) (x : Str) (hm : o.maxLines = none)
    (h : e = .recursion ∨ (e = .diverge ∧ (0 < o.width → len o.initialIndent ≤ o.width ∧ len o.subsequentIndent ≤ o.width))) :
    Avoids e (wrap u o x) := by
  intro hx
  by_cases hw : 0 < o.width
  · rcases h with rfl | ⟨rfl, h⟩
    · rcases (C20 u o x hm).2 hw with ⟨out, h⟩ | h <;> rw [h] at hx <;> cases hx
    · obtain ⟨out, h⟩ := C19_partial u o x hm hw (.inr (h hw))
      rw [h] at hx; cases hx
  · rw [((C20 u o x hm).1).2 (by omega)] at hx
    cases hx
    rcases h with h | ⟨h, -⟩ <;> cases h

/-- Neither error, if the indents are small. -/
def Steady (e : PyErr) (s : Dict) : Prop := e = .recursion ∨ (e = .diverge ∧ SmallIndents s)

theorem Steady.endless {e : PyErr} {s : Dict} (h : Steady e s) : Endless e := by
  rcases h with h | h
  · exact .inl h
  · exact .inr h.1

theorem justify_avoids {e : PyErr} {u : Uni} {s : Dict} (h : Steady e s) {w : Int} {o : WrapOpts} (ho : wrapOpts u s w = .ok o) {name : Str}
    {j : WrapOpts → Str → Py Str} (hj : justification u name = .ok j) (x : Str) : Avoids e (j o x) := by
  have hw : Avoids e (wrap u o x) := by
    simp only [wrapOpts, bind, Except.bind, pure, Except.pure] at ho
    cases h1 : getA s py"initial_indent" with
    | error e => rw [h1] at ho; cases ho
    | ok v1 =>
    rw [h1] at ho
    simp only at ho
    cases h2 : asInt v1 with
    | error e => rw [h2] at ho; cases ho
    | ok i1 =>
    rw [h2] at ho
    simp only at ho
    cases h3 : getA s py"subsequent_indent" with
    | error e => rw [h3] at ho; cases ho
    | ok v2 =>
    rw [h3] at ho
    simp only at ho
    cases h4 : asInt v2 with
    | error e => rw [h4] at ho; cases ho
    | ok i2 =>
    rw [h4] at ho
    simp only at ho
    have g : ∀ k v, getA s k = .ok v → (k, v) ∈ s := by
      intro k v hv
      unfold getA at hv
      split at hv
      · rename_i v' hg
        cases hv
        exact get_mem hg
      · cases hv
    have fin : o.width = w ∧ o.initialIndent = rep ' ' i1 ∧ o.subsequentIndent = rep ' ' i2 ∧ o.maxLines = none := by
      repeat' (split at ho)
      all_goals (first | (cases ho; done) | (cases ho; exact ⟨rfl, rfl, rfl, rfl⟩))
    obtain ⟨f1, f2, f3, f4⟩ := fin
    apply wrap_avoids
    · exact f4
    · rw [f1, f2, f3]
      rcases h with h | ⟨h, hs⟩
      · exact .inl h
      · refine .inr ⟨h, fun hw => ⟨rep_len (hs _ (g _ _ h1) (.inl rfl) _ h2) hw, rep_len (hs _ (g _ _ h3) (.inr rfl) _ h4) hw⟩⟩
  unfold justification at hj
  split at hj
  · cases hj; exact avoids_ok _ _
  · split at hj
    · cases hj; exact avoids_map _ hw
    · split at hj
      · cases hj; exact avoids_map _ hw
      · split at hj
        · cases hj; exact avoids_map _ hw
        · split at hj
          · cases hj; exact avoids_map _ hw
          · cases hj

theorem justification_avoids {e : PyErr} (he : Endless e) (u : Uni) (name : Str) : Avoids e (justification u name) := by
  unfold justification
  avoid

theorem paragraphInner_avoids {e : PyErr} {s : Dict} (h : Steady e s) (u : Uni) (t : TagInfo) (b : Box) (x : Str) :
    Avoids e (paragraphInner u s t b x) := by
  have he := h.endless
  unfold paragraphInner
  refine avoids_bind (getA_avoids he _ _) (fun v _ => ?_)
  split
  · exact avoids_pure _ _
  · refine avoids_bind (getA_avoids he _ _) (fun v _ => avoids_bind (asStr_avoids he _) (fun name _ =>
      avoids_bind (justification_avoids he _ _) (fun j hj => avoids_bind (wrapOpts_avoids he _ _ _) (fun o ho =>
      avoids_bind (capIf_avoids he _ _ _) (fun y _ => avoids_bind (avoids_mapM _ (fun z _ => justify_avoids h ho hj _)) (fun l _ => ?_))))))
    avoid [getA_avoids he _ _, asStr_avoids he _, avoids_mapM _ (fun l _ => fmt1_avoids he _ _)]

theorem itemInner_avoids {e : PyErr} {s : Dict} (h : Steady e s) (u : Uni) (b : Box) (x : Str) : Avoids e (itemInner u s b x) := by
  have he := h.endless
  unfold itemInner
  refine avoids_bind (getA_avoids he _ _) (fun v _ => avoids_bind (asStr_avoids he _) (fun name _ =>
      avoids_bind (justification_avoids he _ _) (fun j hj => avoids_bind (wrapOpts_avoids he _ _ _) (fun o ho =>
      avoids_bind (capIf_avoids he _ _ _) (fun y _ => avoids_bind (justify_avoids h ho hj _) (fun l _ => ?_))))))
  avoid [getA_avoids he _ _, asStr_avoids he _, fmt1_avoids he _ _]

theorem innerRender_avoids {e : PyErr} {i : Inst} (h : Steady e i.settings) (u : Uni) (b : Box) (x : Str) : Avoids e (innerRender u i b x) := by
  have he := h.endless
  unfold innerRender
  split
  · exact headerInner_avoids he _ _ _ _
  · exact headerInner_avoids he _ _ _ _
  · exact headerInner_avoids he _ _ _ _
  · exact paragraphInner_avoids h _ _ _ _
  · exact preInner_avoids he _ _
  · exact quoteInner_avoids he _ _
  · exact itemInner_avoids h _ _ _
  · exact itemInner_avoids h _ _ _
  · exact itemInner_avoids h _ _ _
  · exact extractedLinkInner_avoids he _ _ _
  · exact extractedImageInner_avoids he _ _
  · exact avoids_ok _ _

theorem instRender_avoids {e : PyErr} {i : Inst} (h : Steady e i.settings) (u : Uni) (x : Str) : Avoids e (i.render u x) := by
  have he := h.endless
  have hb : ∀ b x, Avoids e (blockRender u i b x) := by
    intro b x
    unfold blockRender
    avoid [innerRender_avoids h _ _ _, borderRender_avoids he _ _ _]
  unfold Inst.render extractedLinkRender
  avoid [hb _ _, innerRender_avoids h _ _ _, ctxLink_avoids he _, inlineRender_avoids he _ _ _, codeRender_avoids he _ _ _,
    linkRender_avoids he _ _ _ _, imageRender_avoids he _ _, breakRender_avoids he _ _, ansiRender_avoids he _ _ _]

/-! ## Selectors -/

theorem anyAncestor_avoids {e : PyErr} {d : Dom} (hd : ∀ (i : Nat) n, d.nodes[i]? = some n → NodeOk d i n) {m : Par → Py Bool}
    (hm : ∀ p, Avoids e (m p)) : ∀ (f : Nat) (p : Par), (1 ≤ f ∧ ∀ i, p = .node i → i + 2 ≤ f) → Avoids e (anyAncestor d m f p)
  | 0, p, h => absurd h.1 (by omega)
  | f + 1, .node i, h => by
    rw [anyAncestor]
    cases hn : d.nodes[i]? with
    | none => exact avoids_ok _ _
    | some n =>
      simp only
      have hp := (hd i n hn).parent
      have hi := h.2 i rfl
      cases hpar : n.parent with
      | none => exact avoids_ok _ _
      | doc =>
        refine avoids_bind (hm _) (fun b _ => ?_)
        split
        · exact avoids_pure _ _
        · exact anyAncestor_avoids hd hm f .doc ⟨by omega, fun i h => by cases h⟩
      | node j =>
        rw [hpar] at hp
        refine avoids_bind (hm _) (fun b _ => ?_)
        split
        · exact avoids_pure _ _
        · refine anyAncestor_avoids hd hm f (.node j) ⟨by omega, fun i h => ?_⟩
          cases h
          have := hp.1
          omega
  | f + 1, .none, _ => avoids_ok _ _
  | f + 1, .doc, _ => avoids_ok _ _

section
variable {e : PyErr} (he : Endless e)
include he

theorem attribCheck_avoids (a : DictOf AttrVal) (n : Str) (op : AttrOp) (v : Str) : Avoids e (attribCheck a n op v) := by
  unfold attribCheck
  split
  · exact avoids_ok _ _
  · split
    · exact avoids_ok _ _
    · generalize hx : (if n = py"class" then _ else _) = x
      have : Avoids e x := by
        rw [← hx]
        avoid
      cases x with
      | error e' => exact fun h => this (by cases h; rfl)
      | ok a =>
        simp only
        avoid

theorem firstArg_avoids (a : List Str) : Avoids e (firstArg a) := by unfold firstArg; avoid
theorem nthCheck_avoids (l : List Nat) (p : Par) (b : Bool) (n : Int) : Avoids e (nthCheck l p b n) := by unfold nthCheck; avoid

omit he in
theorem siblingLoop_avoids {m : Par → Py Bool} (hm : ∀ p, Avoids e (m p)) (p : Par) (l : List Nat) : Avoids e (siblingLoop m p l) := by
  induction l with
  | nil => exact avoids_ok _ _
  | cons a l ih =>
    unfold siblingLoop
    avoid [hm _, ih]

theorem adjacentCheck_avoids {m : Par → Py Bool} (hm : ∀ p, Avoids e (m p)) (p : Par) (l : List Nat) : Avoids e (adjacentCheck m p l) := by
  unfold adjacentCheck
  avoid [hm _]

theorem selMatch_avoids {d : Dom} (hd : ∀ (i : Nat) n, d.nodes[i]? = some n → NodeOk d i n) (s : Sel) : ∀ p, Avoids e (selMatch d s p) := by
  induction s with
  | element n => intro p; exact avoids_ok _ _
  | cls s n ih => intro p; unfold selMatch; avoid [ih _]
  | hash s n ih => intro p; unfold selMatch; avoid [ih _]
  | neg s t ih1 ih2 => intro p; unfold selMatch; avoid [ih1 _, ih2 _]
  | attrib s n op v ih => intro p; unfold selMatch; avoid [ih _, attribCheck_avoids he _ _ _ _]
  | pseudo s n ih => intro p; unfold selMatch; avoid [ih _]
  | func s n a ih => intro p; unfold selMatch; avoid [ih _, firstArg_avoids he _, nthCheck_avoids he _ _ _ _]
  | comb s c t ih1 ih2 =>
    intro p
    cases c with
    | desc =>
      unfold selMatch
      refine avoids_bind (ih2 _) (fun b _ => ?_)
      split
      · by_cases hp : ∀ i, p = .node i → i + 2 ≤ d.nodes.length + 1
        · exact anyAncestor_avoids hd ih1 _ _ ⟨by omega, hp⟩
        · have hp' : ∃ i, p = .node i ∧ ¬ i + 2 ≤ d.nodes.length + 1 := by
            apply Classical.byContradiction
            intro hx
            apply hp
            intro i hi
            apply Classical.byContradiction
            intro hi'
            exact hx ⟨i, hi, hi'⟩
          obtain ⟨i, rfl, hi⟩ := hp'
          rw [anyAncestor, List.getElem?_eq_none (by omega)]
          exact avoids_ok _ _
      · exact avoids_pure _ _
    | child => unfold selMatch; avoid [ih1 _, ih2 _]
    | general => unfold selMatch; avoid [ih1 _, ih2 _, siblingLoop_avoids ih1 _ _]
    | adjacent => unfold selMatch; avoid [ih1 _, ih2 _, adjacentCheck_avoids he ih1 _ _]
    | column => unfold selMatch; avoid

theorem moreSpecific_avoids (a b : Option Spec3) : Avoids e (moreSpecific a b) := by
  unfold moreSpecific compareSpecificity
  avoid

theorem tagMatchesLoop_avoids {d : Dom} (hd : ∀ (i : Nat) n, d.nodes[i]? = some n → NodeOk d i n) (p : Par) (l : List Selector) (b : Bool)
    (sp : Option Spec3) : Avoids e (tagMatchesLoop d p l b sp) := by
  induction l generalizing b sp with
  | nil => exact avoids_ok _ _
  | cons a l ih =>
    unfold tagMatchesLoop
    avoid [selMatch_avoids he hd _ _, moreSpecific_avoids he _ _, ih _ _]

theorem collectMatches_avoids {d : Dom} (hd : ∀ (i : Nat) n, d.nodes[i]? = some n → NodeOk d i n) (p : Par) (l : List Rule) :
    Avoids e (collectMatches d p l) := by
  induction l with
  | nil => exact avoids_ok _ _
  | cons a l ih =>
    unfold collectMatches
    avoid [tagMatchesLoop_avoids he hd _ _ _ _, ih]

theorem getForTag_avoids {d : Dom} (hd : ∀ (i : Nat) n, d.nodes[i]? = some n → NodeOk d i n) (p : Par) (l : List Rule) :
    Avoids e (getForTag d l p) := by
  unfold getForTag
  avoid [collectMatches_avoids he hd _ _]

/-! ## Assigning renderers -/

theorem assignOne_avoids (c : Cfg) {d : Dom} (hd : ∀ (i : Nat) n, d.nodes[i]? = some n → NodeOk d i n) (t : List (Nat × Assigned)) (i : Nat) :
    Avoids e (assignOne c d t i) := by
  unfold assignOne getRenderer getLinkRenderer
  avoid [getForTag_avoids he hd _ _]

theorem assignRenderers_avoids (c : Cfg) {d : Dom} (hd : ∀ (i : Nat) n, d.nodes[i]? = some n → NodeOk d i n) (f : Nat) (is : List Nat)
    (h : ∀ i ∈ is, d.nodes.length < i + f) (t : List (Nat × Assigned)) (hi : ∀ i ∈ is, i < d.nodes.length) :
    Avoids e (assignRenderers c d f is t) := by
  induction f generalizing is t with
  | zero =>
    cases is with
    | nil => rw [assignRenderers]; exact avoids_ok _ _
    | cons a is =>
      have := h a (List.mem_cons_self ..)
      have := hi a (List.mem_cons_self ..)
      omega
  | succ f ih =>
    cases is with
    | nil => exact avoids_ok _ _
    | cons a is =>
      rw [assignRenderers]
      · apply avoids_foldlM
        intro i hmem t
        refine avoids_bind (assignOne_avoids he c hd _ _) (fun t' _ => ih _ ?_ _ ?_)
        · intro k hk
          have h1 := h i hmem
          unfold Dom.childrenOf at hk
          cases hn : d.nodes[i]? with
          | none => simp [hn] at hk
          | some n =>
            simp [hn] at hk
            have := ((hd i n hn).child k hk).1
            omega
        · intro k hk
          unfold Dom.childrenOf at hk
          cases hn : d.nodes[i]? with
          | none => simp [hn] at hk
          | some n =>
            simp [hn] at hk
            obtain ⟨m, hm, -⟩ := ((hd i n hn).child k hk).2
            exact getElem?_lt hm
      · simp

end

end Verif
