import Verif.Spec.Known
import Verif.Proofs.SameTable

/-!
# Rendering depends on the settings known to the renderer
-/

namespace Verif

open Spec

theorem knows_sub {b : RClass} {s : Dict} {k : Str} (h : Knows b k) : Knows (.sub b s) k := by
  rcases h with h | ⟨h, hk⟩
  · exact .inl (.base rfl h)
  · exact .inr ⟨.base rfl h, hk⟩

theorem knows_behaviour {c : RClass} {k : Str} (h : Knows c.behaviour k) : Knows c k := by
  induction c with
  | sub b s ih => exact knows_sub (ih h)
  | _ => exact h

theorem knows_block {c : RClass} (h : c.isBlock = true) {k : Str} (hk : k ∈ [py"border", py"margin", py"padding"]) : Knows c k := by
  have hb : Declares .block k := .own (by revert hk; revert k; decide)
  induction c with
  | sub b s ih => exact knows_sub (ih h)
  | block => exact .inl hb
  | mdHeader | defTerm | olItem => exact .inl (.base rfl (.base rfl hb))
  | header | paragraph | pre | extractedLink | extractedImage | blockQuote | list | listItem | defList | defItem => exact .inl (.base rfl hb)
  | _ => exact absurd h (by simp [RClass.isBlock])

theorem knows_template {c : RClass} (h : c.boxHasTemplate = true) : Knows c py"line_template" := by
  induction c with
  | sub b s ih => exact knows_sub (ih h)
  | paragraph | blockQuote | listItem | olItem | defItem => exact .inl (.own (by decide))
  | _ => exact absurd h (by simp [RClass.boxHasTemplate])

/-- Dicts that agree on some keys. -/
def SameOn (K : Str → Prop) (s t : Dict) : Prop := ∀ k, K k → DictOf.get s k = DictOf.get t k

theorem sameOn_set {K : Str → Prop} {s t : Dict} (h : SameOn K s t) (k : Str) (v : Val) : SameOn K (DictOf.set s k v) (DictOf.set t k v) := by
  intro j hj
  rw [DictOf.get_set, DictOf.get_set, h j hj]

/-- Settings given to a renderer: the same, or dicts that agree on some keys. -/
def GivenOn (K : Str → Prop) (a b : Option Dict) : Prop :=
  a = b ∨ ∃ s t, a = some s ∧ b = some t ∧ (s.map Prod.fst).Nodup ∧ (t.map Prod.fst).Nodup ∧ SameOn K s t

theorem sameOn_adjust {K : Str → Prop} {c c' : Ctx} (h : GivenOn K c.settings c'.settings) (s : Dict) : SameOn K (adjust s c) (adjust s c') := by
  intro k hk
  unfold adjust
  rcases h with e | ⟨x, y, e1, e2, n1, n2, q⟩
  · rw [e]
  · rw [e1, e2]
    simp only
    rw [DictOf.get_update_nodup _ _ n1, DictOf.get_update_nodup _ _ n2, q k hk]

/-- Both fail alike, or both succeed with settings that agree. -/
def ResOn (K : Str → Prop) (a b : Py Dict) : Prop := (∃ e, a = .error e ∧ b = .error e) ∨ ∃ s t, a = .ok s ∧ b = .ok t ∧ SameOn K s t

theorem resOn_ok {K : Str → Prop} {s t : Dict} (h : SameOn K s t) : ResOn K (.ok s) (.ok t) := .inr ⟨s, t, rfl, rfl, h⟩

theorem resOn_bind {K : Str → Prop} {α : Type} (x : Py α) {f g : α → Py Dict} (h : ∀ a, ResOn K (f a) (g a)) : ResOn K (x >>= f) (x >>= g) := by
  cases x with
  | error e => exact .inl ⟨e, rfl, rfl⟩
  | ok a => exact h a

theorem initSettings_on {K : Str → Prop} {c : RClass} {t : TagInfo} {x y : Ctx} (h : GivenOn K x.settings y.settings) :
    ResOn K (initSettings c t x) (initSettings c t y) := by
  unfold initSettings
  split
  · refine resOn_bind _ (fun a => resOn_bind _ (fun a => resOn_bind _ (fun a => resOn_bind _ (fun a => ?_))))
    refine resOn_bind _ (fun a => resOn_bind _ (fun a => resOn_bind _ (fun a => resOn_bind _ (fun a => ?_))))
    exact resOn_ok (sameOn_adjust h _)
  · exact resOn_bind _ (fun a => resOn_ok (sameOn_set (sameOn_adjust h _) _ _))
  · exact resOn_ok (sameOn_adjust h _)

theorem blockBox_on {s t : Dict} {c : RClass} (hc : c.isBlock = true) (h : SameOn (Knows c) s t) (p : Box) :
    blockBox c.boxHasTemplate s p = blockBox c.boxHasTemplate t p := by
  have h1 := h py"border" (knows_block hc (by simp))
  have h2 := h py"margin" (knows_block hc (by simp))
  have h3 := h py"padding" (knows_block hc (by simp))
  cases ht : c.boxHasTemplate with
  | false => simp only [blockBox, getA, h1, h2, h3, Bool.false_eq_true, ↓reduceIte]
  | true =>
    have h4 := h py"line_template" (knows_template ht)
    simp only [blockBox, boxTemplate, getA, h1, h2, h3, h4]

/-- Instances whose settings agree on what their class knows. -/
structure InstOn (i j : Inst) : Prop where
  cls : i.cls = j.cls
  settings : SameOn (Knows i.cls) i.settings j.settings
  box : i.box = j.box
  block : i.box.isSome = true → i.cls.isBlock = true
  tag : i.tag = j.tag
  link : i.ctx.link = j.ctx.link
  target : i.ctx.target = j.ctx.target

theorem behaviour_block {c : RClass} (h : c.isBlock = true) : c.behaviour.isBlock = true := by
  induction c with
  | sub b s ih => exact ih h
  | _ => exact h

theorem construct_on {c : RClass} {t : TagInfo} {x y : Ctx} {p : Box} (h : GivenOn (Knows c) x.settings y.settings) (h1 : x.link = y.link)
    (h2 : x.target = y.target) :
    (∃ e, construct c t x p = .error e ∧ construct c t y p = .error e) ∨
      ∃ i j, construct c t x p = .ok i ∧ construct c t y p = .ok j ∧ InstOn i j := by
  unfold construct
  rcases initSettings_on (c := c) (t := t) h with ⟨e, e1, e2⟩ | ⟨a, b, e1, e2, q⟩
  · rw [e1, e2]; exact .inl ⟨e, rfl, rfl⟩
  · rw [e1, e2]
    have q' : SameOn (Knows c.behaviour) a b := fun k hk => q k (knows_behaviour hk)
    simp only [bind, Except.bind, pure, Except.pure]
    split
    · rename_i hb
      rw [blockBox_on hb q]
      cases blockBox c.boxHasTemplate b p with
      | error e => exact .inl ⟨e, rfl, rfl⟩
      | ok box => exact .inr ⟨_, _, rfl, rfl, ⟨rfl, q', rfl, fun _ => behaviour_block hb, rfl, h1, h2⟩⟩
    · exact .inr ⟨_, _, rfl, rfl, ⟨rfl, q', rfl, fun h => absurd h (by simp), rfl, h1, h2⟩⟩

theorem render_on {i j : Inst} (h : InstOn i j) (u : Uni) (content : Str) : i.render u content = j.render u content := by
  obtain ⟨cls, s, box, tag, ⟨cs, cl, ct⟩⟩ := i
  obtain ⟨cls', s', box', tag', ⟨cs', cl', ct'⟩⟩ := j
  obtain ⟨h1, h2, h3, hb, h4, h5, h6⟩ := h
  simp only at h1 h2 h3 h4 h5 h6 hb
  subst h1 h3 h4 h5 h6
  have hflag : ∀ k, DictOf.get s k = DictOf.get s' k → ∀ b, wrapFlag s k b = wrapFlag s' k b := by
    intro k e b
    simp only [wrapFlag, e]
  have hw : WrapsText cls → DictOf.get s py"initial_indent" = DictOf.get s' py"initial_indent" →
      DictOf.get s py"subsequent_indent" = DictOf.get s' py"subsequent_indent" →
      DictOf.get s py"fix_sentence_endings" = DictOf.get s' py"fix_sentence_endings" →
      DictOf.get s py"break_long_words" = DictOf.get s' py"break_long_words" → ∀ w, wrapOpts u s w = wrapOpts u s' w := by
    intro hc e1 e2 e3 e4 w
    have f : ∀ k ∈ wrapNames, DictOf.get s k = DictOf.get s' k := fun k hk => h2 k (.inr ⟨hc, hk⟩)
    simp only [wrapNames, List.forall_mem_cons] at f
    obtain ⟨f1, f2, f3, f4, f5, f6, -⟩ := f
    simp only [wrapOpts, hflag _ f1, hflag _ f2, hflag _ f3, hflag _ f4, hflag _ e3, hflag _ e4, getA, e1, e2, f5, f6]
  have heff : ∀ (n : Bool) (l : List (Str × Int × Int)), (∀ x ∈ l, DictOf.get s x.1 = DictOf.get s' x.1) → effectCodes s n l = effectCodes s' n l := by
    intro n l
    induction l with
    | nil => intro _; rfl
    | cons x l ih =>
      intro hl
      have := hl x (by simp)
      have := ih (fun y hy => hl y (by simp [hy]))
      obtain ⟨a, b, c⟩ := x
      simp_all only [effectCodes, getK]
  have own : ∀ k ∈ cls.ownSettings.map Prod.fst, DictOf.get s k = DictOf.get s' k := fun k hk => h2 k (.inl (.own hk))
  have base1 : ∀ b, cls.base = some b → ∀ k ∈ b.ownSettings.map Prod.fst, DictOf.get s k = DictOf.get s' k :=
    fun b e k hk => h2 k (.inl (.base e (.own hk)))
  have base2 : ∀ b b', cls.base = some b → b.base = some b' → ∀ k ∈ b'.ownSettings.map Prod.fst, DictOf.get s k = DictOf.get s' k :=
    fun b b' e e' k hk => h2 k (.inl (.base e (.base e' (.own hk))))
  unfold Inst.render
  cases box with
  | none =>
    cases cls with
    | inline =>
      simp only [RClass.ownSettings, List.map, List.forall_mem_cons] at own
      simp only [inlineRender, getA, getK, own]
    | em | strong | underline | strike =>
      have b1 := base1 _ rfl
      simp only [RClass.ownSettings, List.map, List.forall_mem_cons] at own b1
      simp only [inlineRender, getA, getK, b1]
    | code =>
      simp only [RClass.ownSettings, List.map, List.forall_mem_cons] at own
      simp only [codeRender, getK, own]
    | link =>
      have b1 := base1 _ rfl
      simp only [RClass.ownSettings, List.map, List.forall_mem_cons] at own b1
      simp only [linkRender, inlineRender, namedTemplate, capIf, getA, getK, own, b1, ctxLink, ctxTarget, ctxTitle]
    | image =>
      simp only [RClass.ownSettings, List.map, List.forall_mem_cons] at own
      simp only [imageRender, namedTemplate, getA, own, ctxLink, ctxTarget, ctxTitle]
    | brk =>
      have b1 := base1 _ rfl
      simp only [RClass.ownSettings, List.map, List.forall_mem_cons] at own b1
      simp only [breakRender, inlineRender, getA, getK, b1]
    | ansi =>
      have e := heff
      have b1 := base1 _ rfl
      have he : ∀ n, effectCodes s n ansiEffects = effectCodes s' n ansiEffects :=
        fun n => heff n _ (fun x hx => own x.1 (by revert hx; revert x; decide))
      simp only [RClass.ownSettings, List.map, List.forall_mem_cons] at own b1
      simp only [ansiRender, inlineRender, colourCodes, he, getA, getK, own, b1]
    | _ => rfl
  | some box =>
    have hk := hb rfl
    cases cls with
    | block =>
      simp only [RClass.ownSettings, List.map, List.forall_mem_cons] at own
      simp only [blockRender, innerRender, borderRender, getA, own]
    | list | defList =>
      have b1 := base1 _ rfl
      simp only [RClass.ownSettings, List.map, List.forall_mem_cons] at own b1
      simp only [blockRender, innerRender, borderRender, getA, b1]
    | header =>
      have b1 := base1 _ rfl
      simp only [RClass.ownSettings, List.map, List.forall_mem_cons] at own b1
      simp only [blockRender, innerRender, headerInner, borderRender, capIf, getA, getK, own, b1]
    | mdHeader | defTerm =>
      have b1 := base1 _ rfl
      have b2 := base2 _ _ rfl rfl
      simp only [RClass.ownSettings, List.map, List.forall_mem_cons] at b1 b2
      simp only [blockRender, innerRender, headerInner, borderRender, capIf, getA, getK, b1, b2]
    | paragraph =>
      have b1 := base1 _ rfl
      simp only [RClass.ownSettings, List.map, List.forall_mem_cons] at own b1
      have w := hw .paragraph (by simp only [own]) (by simp only [own]) (by simp only [own]) (by simp only [own])
      simp only [blockRender, innerRender, paragraphInner, borderRender, capIf, w, getA, own, b1]
    | pre =>
      have b1 := base1 _ rfl
      simp only [RClass.ownSettings, List.map, List.forall_mem_cons] at own b1
      simp only [blockRender, innerRender, preInner, borderRender, getA, own, b1]
    | extractedLink =>
      have b1 := base1 _ rfl
      simp only [RClass.ownSettings, List.map, List.forall_mem_cons] at own b1
      simp only [extractedLinkRender, blockRender, innerRender, extractedLinkInner, borderRender, getA, own, b1, ctxLink, ctxTarget]
    | extractedImage =>
      have b1 := base1 _ rfl
      simp only [RClass.ownSettings, List.map, List.forall_mem_cons] at own b1
      simp only [blockRender, innerRender, extractedImageInner, borderRender, getA, own, b1, ctxLink, ctxTarget]
    | blockQuote =>
      have b1 := base1 _ rfl
      simp only [RClass.ownSettings, List.map, List.forall_mem_cons] at own b1
      simp only [blockRender, innerRender, quoteInner, borderRender, getA, own, b1]
    | listItem =>
      have b1 := base1 _ rfl
      simp only [RClass.ownSettings, itemSettings, List.map, List.forall_mem_cons] at own b1
      have w := hw .listItem (by simp only [own]) (by simp only [own]) (by simp only [own]) (by simp only [own])
      simp only [blockRender, innerRender, itemInner, borderRender, capIf, w, getA, own, b1]
    | defItem =>
      have b1 := base1 _ rfl
      simp only [RClass.ownSettings, itemSettings, List.map, List.forall_mem_cons] at own b1
      have w := hw .defItem (by simp only [own]) (by simp only [own]) (by simp only [own]) (by simp only [own])
      simp only [blockRender, innerRender, itemInner, borderRender, capIf, w, getA, own, b1]
    | olItem =>
      have b1 := base1 _ rfl
      have b2 := base2 _ _ rfl rfl
      simp only [RClass.ownSettings, itemSettings, List.map, List.forall_mem_cons] at own b1 b2
      have w := hw (.base rfl .listItem) (by simp only [b1]) (by simp only [b1]) (by simp only [b1]) (by simp only [b1])
      simp only [blockRender, innerRender, itemInner, borderRender, capIf, w, getA, b1, b2]
    | sub b d => simp only [blockRender, innerRender, borderRender, getA, h2 py"border" (knows_block hk (by simp))]
    | _ => exact absurd hk (by simp [RClass.isBlock])

end Verif
