import Verif.Props.Theme
import Verif.Props.LinkLines
import Verif.Props.Nested
import Verif.Proofs.LinkTargets
import Verif.Spec.Room

/-!
# Rendering succeeds if there is room
-/

namespace Verif

open Spec

/-- The computation succeeds if `P`, and raises `ValueError` otherwise. -/
def Outcome {α : Type} (P : Prop) (x : Py α) : Prop := (P → ∃ y, x = .ok y) ∧ (¬ P → x = .error .valueError)

theorem outcome_ok {α : Type} {P : Prop} (h : P) (y : α) : Outcome P (.ok y : Py α) := ⟨fun _ => ⟨y, rfl⟩, fun n => absurd h n⟩

theorem outcome_iff {α : Type} {P Q : Prop} {x : Py α} (h : Outcome P x) (e : P ↔ Q) : Outcome Q x :=
  ⟨fun q => h.1 (e.2 q), fun n => h.2 (fun p => n (e.1 p))⟩

theorem outcome_bind {α β : Type} {P Q : Prop} {x : Py α} {f : α → Py β} (h : Outcome P x)
    (hf : P → ∀ y, x = .ok y → Outcome Q (f y)) : Outcome (P ∧ Q) (x.bind f) := by
  by_cases hp : P
  · obtain ⟨y, rfl⟩ := h.1 hp
    exact outcome_iff (hf hp y rfl) ⟨fun q => ⟨hp, q⟩, fun h => h.2⟩
  · rw [h.2 hp]
    exact ⟨fun h => absurd h.1 hp, fun _ => rfl⟩

theorem outcome_map {α β : Type} {P : Prop} {x : Py α} (h : Outcome P x) (f : α → β) : Outcome P (x.map f) := by
  by_cases hp : P
  · obtain ⟨y, rfl⟩ := h.1 hp
    exact outcome_ok hp (f y)
  · rw [h.2 hp]
    exact ⟨fun h => absurd h hp, fun _ => rfl⟩

theorem outcome_mapM {α β : Type} {P : α → Prop} {f : α → Py β} (l : List α) (h : ∀ i ∈ l, Outcome (P i) (f i)) :
    Outcome (∀ i ∈ l, P i) (l.mapM f) := by
  induction l with
  | nil => exact outcome_ok (by simp) []
  | cons a l ih =>
    rw [List.mapM_cons]
    have ih := ih (fun i hi => h i (List.mem_cons_of_mem _ hi))
    refine outcome_iff (outcome_bind (h a (by simp)) (fun _ y _ => outcome_bind (Q := True) ih (fun hp z _ => outcome_ok trivial _))) ?_
    simp

theorem outcome_all {P : Nat → Prop} {f : Nat → Py Str} (l : List Nat) (h : ∀ i ∈ l, Outcome (P i) (f i)) :
    Outcome (∀ i ∈ l, P i) (renderAll f l) := by
  rw [renderAll_mapM]
  exact outcome_map (outcome_mapM l h) _

/-- The renderer can be created, its marker takes `k` columns, and it renders anything if there is room. -/
def Acts (u : Uni) (cls : RClass) (t : TagInfo) (ctx : Ctx) (box : Box) (k : Int) (wraps : Prop) : Prop :=
  ∃ inst, construct cls t ctx box = .ok inst ∧ textRoom (inst.box.getD box) = textRoom box - k ∧
    ∀ x, Outcome (wraps → k < textRoom box) (inst.render u x)

theorem textRoom_inside (box : Box) (above below : Int) (t : Option Str) :
    textRoom (inside box above below t) = textRoom box - ownTemplatePadding t := by
  simp only [inside, Box.new, textRoom, room, Sides.addTotals]
  omega

theorem acts_inline {u : Uni} {cls : RClass} {t : TagInfo} {ctx : Ctx} {box : Box} {inst : Inst}
    (h : construct cls t ctx box = .ok inst) (hb : inst.box = none) (hr : ∀ x, ∃ y, inst.render u x = .ok y) :
    Acts u cls t ctx box 0 False := by
  refine ⟨inst, h, by rw [hb]; simp, fun x => ?_⟩
  obtain ⟨y, hy⟩ := hr x
  rw [hy]
  exact outcome_ok (fun h => h.elim) y

theorem acts_block {u : Uni} {cls : RClass} {t : TagInfo} {ctx : Ctx} {box : Box} {inst : Inst} {above below : Int}
    {template : Option Str} {P : Prop} (h : construct cls t ctx box = .ok inst) (hb : inst.box = some (inside box above below template))
    (hc : inst.cls ≠ .extractedLink) (hd : DictOf.get inst.settings py"border" = some (.strs [[], [], [], []]))
    (hr : ∀ x, Outcome (P → ownTemplatePadding template < textRoom box) (innerRender u inst (inside box above below template) x)) :
    Acts u cls t ctx box (ownTemplatePadding template) P := by
  refine ⟨inst, h, by rw [hb]; simp [textRoom_inside], fun x => ?_⟩
  simp only [Inst.render, hb]
  rw [blockRender_inside hd]
  exact outcome_map (hr x) _

/-! ## The renderers of the default rules -/

theorem plain_inline (u : Uni) (t : TagInfo) (link : Option LinkCtx) (target : Option Target) (st : Option Dict)
    (hst : st = none ∨ st = some []) (box : Box) (cls : RClass)
    (hc : cls ∈ [.renderer, .inline, .em, .strong, .underline, .strike, .brk, .code]) : Acts u cls t ⟨st, link, target⟩ box 0 False := by
  have hi : ∀ (a b : Str) (S : Dict), DictOf.get S py"capitalized" = some (.bool false) →
      DictOf.get S py"template" = some (.str (a ++ py"{}" ++ b)) → (∀ c ∈ a, c ≠ '{' ∧ c ≠ '}') → (∀ c ∈ b, c ≠ '{' ∧ c ≠ '}') →
      ∀ x, inlineRender u S x = .ok (a ++ x ++ b) := fun a b S h1 h2 h3 h4 => inlineRender_of h1 h2 h3 h4
  have hadj : ∀ c, adjust (newSettings c) ⟨st, link, target⟩ = newSettings c := by
    intro c; rcases hst with rfl | rfl <;> rfl
  simp only [List.mem_cons, List.not_mem_nil, or_false] at hc
  have hcon : ∀ c : RClass, c.behaviour = c → c.isBlock = false → c.behaviour ≠ .olItem → c.behaviour ≠ .mdHeader →
      construct c t ⟨st, link, target⟩ box = .ok ⟨c, newSettings c, none, t, ⟨st, link, target⟩⟩ := by
    intro c h1 h2 h3 h4
    have : initSettings c t ⟨st, link, target⟩ = .ok (newSettings c) := by
      unfold initSettings
      rw [hadj]
      split
      · exact absurd ‹_› h3
      · exact absurd ‹_› h4
      · rfl
    simp only [construct, this, bind, Except.bind, h2, Bool.false_eq_true, if_false, h1, pure, Except.pure]
  rcases hc with rfl | rfl | rfl | rfl | rfl | rfl | rfl | rfl
  · exact acts_inline (hcon _ rfl rfl (by simp [RClass.behaviour]) (by simp [RClass.behaviour])) rfl (fun x => ⟨x, rfl⟩)
  · exact acts_inline (hcon _ rfl rfl (by simp [RClass.behaviour]) (by simp [RClass.behaviour])) rfl
      (fun x => ⟨_, hi [] [] _ rfl rfl (by decide) (by decide) x⟩)
  · exact acts_inline (hcon _ rfl rfl (by simp [RClass.behaviour]) (by simp [RClass.behaviour])) rfl
      (fun x => ⟨_, hi py"_" py"_" _ rfl rfl (by decide) (by decide) x⟩)
  · exact acts_inline (hcon _ rfl rfl (by simp [RClass.behaviour]) (by simp [RClass.behaviour])) rfl
      (fun x => ⟨_, hi py"**" py"**" _ rfl rfl (by decide) (by decide) x⟩)
  · exact acts_inline (hcon _ rfl rfl (by simp [RClass.behaviour]) (by simp [RClass.behaviour])) rfl
      (fun x => ⟨_, hi py"_" py"_" _ rfl rfl (by decide) (by decide) x⟩)
  · exact acts_inline (hcon _ rfl rfl (by simp [RClass.behaviour]) (by simp [RClass.behaviour])) rfl
      (fun x => ⟨_, hi py"~~" py"~~" _ rfl rfl (by decide) (by decide) x⟩)
  · refine acts_inline (hcon _ rfl rfl (by simp [RClass.behaviour]) (by simp [RClass.behaviour])) rfl (fun x => ⟨py"\n", ?_⟩)
    show breakRender u (newSettings .brk) = _
    unfold breakRender
    rw [hi [] [] _ rfl rfl (by decide) (by decide)]
    rfl
  · refine acts_inline (hcon _ rfl rfl (by simp [RClass.behaviour]) (by simp [RClass.behaviour])) rfl (fun x => ?_)
    show ∃ y, codeRender (newSettings .code) t x = .ok y
    unfold codeRender
    split
    · exact ⟨x, rfl⟩
    · split
      · exact ⟨_, fmt1_plain py"```\n" py"\n```\n" x (by decide) (by decide)⟩
      · exact ⟨_, fmt1_plain py"`" py"`" x (by decide) (by decide)⟩

theorem acts_free {u : Uni} {cls : RClass} {t : TagInfo} {ctx : Ctx} {box : Box} {inst : Inst} {above below : Int}
    (h : construct cls t ctx box = .ok inst) (hb : inst.box = some (inside box above below none))
    (hc : inst.cls ≠ .extractedLink) (hd : DictOf.get inst.settings py"border" = some (.strs [[], [], [], []]))
    (hr : ∀ x, ∃ y, innerRender u inst (inside box above below none) x = .ok y) : Acts u cls t ctx box 0 False := by
  refine acts_block (template := none) h hb hc hd (fun x => ?_)
  obtain ⟨y, hy⟩ := hr x
  rw [hy]
  exact outcome_ok (fun h => h.elim) y

theorem fmt1_total (a b : Str) (ha : ∀ c ∈ a, c ≠ '{' ∧ c ≠ '}') (hb : ∀ c ∈ b, c ≠ '{' ∧ c ≠ '}') (x : Str) :
    ∃ y, fmt1 (a ++ py"{}" ++ b) x = .ok y := ⟨_, fmt1_plain a b x ha hb⟩

theorem plain_blocks (u : Uni) (t : TagInfo) (box : Box) (cls : RClass) (hc : cls ∈ [.block, .list, .defList, .pre]) :
    Acts u cls t ⟨some [], none, none⟩ box 0 False := by
  simp only [List.mem_cons, List.not_mem_nil, or_false] at hc
  rcases hc with rfl | rfl | rfl | rfl
  · exact acts_free (above := 0) (below := 0) rfl rfl (by simp [RClass.behaviour]) rfl (fun x => ⟨x, rfl⟩)
  · exact acts_free (above := 1) (below := 1) rfl rfl (by simp [RClass.behaviour]) rfl (fun x => ⟨x, rfl⟩)
  · exact acts_free (above := 1) (below := 1) rfl rfl (by simp [RClass.behaviour]) rfl (fun x => ⟨x, rfl⟩)
  · refine acts_free (above := 1) (below := 1) rfl rfl (by simp [RClass.behaviour]) rfl (fun x => ?_)
    show ∃ y, preInner (newSettings .pre) x = .ok y
    have h : ∀ ls : List Str, ∃ ys, ls.mapM (fun line => do
        let indent ← asInt (← getA (newSettings .pre) py"indent")
        let template ← asStr (← getA (newSettings .pre) py"line_template")
        return rep ' ' indent ++ (← fmt1 template line)) = (.ok ys : Py (List Str)) := by
      intro ls
      induction ls with
      | nil => exact ⟨[], rfl⟩
      | cons l ls ih =>
        obtain ⟨ys, hy⟩ := ih
        refine ⟨(rep ' ' 4 ++ l) :: ys, ?_⟩
        rw [List.mapM_cons, hy]
        have : (do
          let indent ← asInt (← getA (newSettings .pre) py"indent")
          let template ← asStr (← getA (newSettings .pre) py"line_template")
          return rep ' ' indent ++ (← fmt1 template l) : Py Str) = .ok (rep ' ' 4 ++ l) := by
          show (fmt1 py"{}" l).bind (fun y => .ok (rep ' ' 4 ++ y)) = _
          have : fmt1 py"{}" l = .ok l := by
            have := fmt1_plain [] [] l (by decide) (by decide)
            simpa using this
          rw [this]; rfl
        rw [this]; rfl
    obtain ⟨ys, hy⟩ := h (splitlines x)
    exact ⟨join py"\n" ys, by unfold preInner; rw [hy]; rfl⟩

theorem plain_quote (u : Uni) (t : TagInfo) (box : Box) : Acts u .blockQuote t ⟨some [], none, none⟩ box 2 False := by
  refine acts_block (template := some py"> {}") (above := 1) (below := 1) rfl rfl (by simp [RClass.behaviour]) rfl (fun x => ?_)
  have : innerRender u ⟨.blockQuote, newSettings .blockQuote, some (inside box 1 1 (some py"> {}")), t, ⟨some [], none, none⟩⟩
      (inside box 1 1 (some py"> {}")) x = .ok (join py"\n" ((splitlines x).map (fun l => py"> " ++ l ++ []))) := by
    show quoteInner (newSettings .blockQuote) x = _
    show ((splitlines x).mapM (fmt1 (py"> " ++ py"{}" ++ []))).bind (fun lines => (.ok (join py"\n" lines) : Py Str)) = _
    rw [mapM_fmt py"> " [] (by decide) (by decide)]
    rfl
  exact (congrArg (Outcome _) this).mpr (outcome_ok (fun h => h.elim) _)

theorem header_total {u : Uni} {S : Dict} {box : Box} {a b : Str} (h1 : DictOf.get S py"centered" = some (.bool false))
    (h2 : DictOf.get S py"capitalized" = some (.bool false)) (h3 : DictOf.get S py"spread" = some (.int 0))
    (h4 : DictOf.get S py"template" = some (.str (a ++ py"{}" ++ b))) (h5 : DictOf.get S py"spread_char" = some (.str py" "))
    (h6 : DictOf.get S py"underlined" = some (.bool false)) (ha : ∀ c ∈ a, c ≠ '{' ∧ c ≠ '}') (hb : ∀ c ∈ b, c ≠ '{' ∧ c ≠ '}')
    (x : Str) : ∃ y, headerInner u S box x = .ok y := by
  simp only [headerInner, capIf, getA, getK, h1, h2, h3, h4, h5, h6, asInt, asStr, Val.truthy, bind, Except.bind, pure, Except.pure,
    Bool.false_eq_true, if_false, gt_iff_lt, Int.lt_irrefl, fmt1_plain a b _ ha hb]
  exact ⟨_, rfl⟩

theorem plain_term (u : Uni) (t : TagInfo) (box : Box) (st : Dict) (hst : st = [] ∨ ∃ a b, st = margins a b) :
    Acts u .defTerm t ⟨some st, none, none⟩ box 0 False := by
  rcases hst with rfl | ⟨a, b, rfl⟩
  · exact acts_free (above := 2) (below := 0) rfl rfl (by simp [RClass.behaviour]) rfl
      (fun x => header_total (a := []) (b := []) rfl rfl rfl rfl rfl rfl (by decide) (by decide) x)
  · exact acts_free (above := a) (below := b) rfl rfl (by simp [RClass.behaviour]) rfl
      (fun x => header_total (a := []) (b := []) rfl rfl rfl rfl rfl rfl (by decide) (by decide) x)

theorem plain_header (u : Uni) (t : TagInfo) (box : Box) (n : Nat) (d : Char) (h1 : t.tag = some ['h', d])
    (h2 : pyInt 10 [d] = some (n : Int)) : Acts u .mdHeader t ⟨some [], none, none⟩ box 0 False := by
  have hk : construct .mdHeader t ⟨some [], none, none⟩ box = .ok ⟨.mdHeader,
      DictOf.set (newSettings .mdHeader) py"template" (.str ((rep '#' n ++ py" ") ++ py"{}" ++ (py" " ++ rep '#' n))),
      some (inside box 1 1), t, ⟨some [], none, none⟩⟩ := by
    have e : rep '#' n ++ py" {} " ++ rep '#' n = (rep '#' n ++ py" ") ++ py"{}" ++ (py" " ++ rep '#' n) := by simp
    simp only [construct, initSettings, RClass.behaviour, bind, Except.bind, markdownTemplate, h1,
      List.getElem?_cons_succ, List.getElem?_cons_zero, h2, e]
    rfl
  have hsh : ∀ c ∈ rep '#' n, c ≠ '{' ∧ c ≠ '}' := by
    intro c hc
    rw [rep, List.mem_replicate] at hc
    rw [hc.2]; decide
  refine acts_free hk rfl (by simp) rfl (fun x => header_total rfl rfl rfl rfl rfl rfl ?_ ?_ x)
  · intro c hc
    rcases List.mem_append.1 hc with hc | hc
    · exact hsh c hc
    · simp at hc; rw [hc]; decide
  · intro c hc
    rcases List.mem_append.1 hc with hc | hc
    · simp at hc; rw [hc]; decide
    · exact hsh c hc

theorem left_outcome (u : Uni) (w : Int) (x : Str) : Outcome (0 < w) (leftJustify u (proseOpts u w) x) := by
  refine outcome_map ⟨fun h => wrap_prose u w h x, fun h => ?_⟩ _
  exact (C20 u (proseOpts u w) x rfl).1.2 (by show w ≤ 0; omega)

theorem plain_paragraph (u : Uni) (t : TagInfo) (box : Box) (st : Dict) (hst : st = [] ∨ ∃ a b, st = margins a b) :
    Acts u .paragraph t ⟨some st, none, none⟩ box 0 (skipParagraph t = false) := by
  have key : ∀ (above below : Int) (S : Dict),
      (S = newSettings .paragraph ∨ ∃ a b, S = DictOf.update (newSettings .paragraph) (margins a b)) →
      construct .paragraph t ⟨some st, none, none⟩ box =
        .ok ⟨.paragraph, S, some (inside box above below (some py"{}")), t, ⟨some st, none, none⟩⟩ →
      Acts u .paragraph t ⟨some st, none, none⟩ box 0 (skipParagraph t = false) := by
    intro above below S hS hk
    refine acts_block (template := some py"{}") hk rfl (by simp) (by rcases hS with rfl | ⟨a, b, rfl⟩ <;> rfl) (fun x => ?_)
    have := textWidth_inside box above below []
    rw [List.nil_append, List.length_nil] at this
    simp only [innerRender, paragraphInner_default hS, this, Int.natCast_zero, Int.sub_zero, paragraphBody]
    cases hs : skipParagraph t with
    | true => simp only [if_true]; exact outcome_ok (by simp) _
    | false =>
      simp only [Bool.false_eq_true, if_false]
      refine outcome_map (outcome_iff (outcome_mapM (P := fun _ => 0 < textRoom box) _ (fun i _ => left_outcome u _ _)) ?_) _
      have hne : splitCh '\n' x ≠ [] := splitCh_ne_nil _ _
      constructor
      · intro h _
        cases hx : splitCh '\n' x with
        | nil => exact absurd hx hne
        | cons a l => exact h a (by rw [hx]; simp)
      · intro h i _
        exact h trivial
  rcases hst with rfl | ⟨a, b, rfl⟩
  · exact key 1 1 _ (.inl rfl) rfl
  · exact key a b _ (.inr ⟨a, b, rfl⟩) rfl

theorem item_acts {u : Uni} {cls : RClass} {t : TagInfo} {ctx : Ctx} {box : Box} {above below : Int} {S : Dict}
    {a : Str} (hcls : cls ∈ [.listItem, .olItem, .defItem])
    (hk : construct cls t ctx box = .ok ⟨cls, S, some (inside box above below (some (a ++ py"{}"))), t, ctx⟩) (hp : PlainItem S a)
    (hb : DictOf.get S py"border" = some (.strs [[], [], [], []])) (ha : ∀ x ∈ a, x ≠ '{' ∧ x ≠ '}') :
    Acts u cls t ctx box a.length True := by
  have hpad : ownTemplatePadding (some (a ++ py"{}")) = a.length := by
    cases a with
    | nil => rfl
    | cons c a => simp [ownTemplatePadding, templateWidth, len]; omega
  rw [← hpad]
  refine acts_block hk rfl (by rintro rfl; simp at hcls) hb (fun x => ?_)
  rw [hpad]
  have hin : innerRender u ⟨cls, S, some (inside box above below (some (a ++ py"{}"))), t, ctx⟩ (inside box above below (some (a ++ py"{}"))) x =
      itemInner u S (inside box above below (some (a ++ py"{}"))) x := by
    simp only [List.mem_cons, List.not_mem_nil, or_false] at hcls
    rcases hcls with rfl | rfl | rfl <;> rfl
  have hj : justification u py"left" = .ok (leftJustify u) := by simp [justification]
  rw [hin]
  simp only [itemInner, getA, hp.justification, asStr, bind, Except.bind, hj, wrapOpts_plain hp, capIf, hp.capitalized, hp.template,
    Val.truthy, Bool.false_eq_true, if_false, pure, Except.pure, textWidth_inside]
  refine outcome_iff (outcome_bind (Q := True) (left_outcome u _ x) (fun _ y _ => ?_)) (by
    constructor
    · intro h _; omega
    · intro h; have := h trivial; exact ⟨by omega, trivial⟩)
  cases hs : splitCh '\n' y with
  | nil => exact absurd hs (splitCh_ne_nil _ _)
  | cons first rest =>
    have := fmt1_plain a [] first ha (by simp)
    rw [List.append_nil] at this
    simp only [this]
    exact outcome_ok trivial _

theorem plain_item (u : Uni) (t : TagInfo) (box : Box) (st : Dict) (hst : st = [] ∨ ∃ a b, st = margins a b) :
    Acts u .listItem t ⟨some st, none, none⟩ box 2 True := by
  rcases hst with rfl | ⟨a, b, rfl⟩
  · refine item_acts (a := py"* ") (above := 1) (below := 0) (by simp) rfl ⟨rfl, rfl, rfl, rfl, rfl, rfl, rfl, ?_⟩ rfl (by decide)
    simp only [List.mem_cons, List.not_mem_nil, or_false]
    rintro k (rfl | rfl | rfl | rfl | rfl | rfl) <;> rfl
  · refine item_acts (a := py"* ") (above := a) (below := b) (by simp) rfl ⟨rfl, rfl, rfl, rfl, rfl, rfl, rfl, ?_⟩ rfl (by decide)
    simp only [List.mem_cons, List.not_mem_nil, or_false]
    rintro k (rfl | rfl | rfl | rfl | rfl | rfl) <;> rfl

theorem plain_description (u : Uni) (t : TagInfo) (box : Box) : Acts u .defItem t ⟨some [], none, none⟩ box 2 True := by
  refine item_acts (a := py": ") (above := 1) (below := 0) (by simp) rfl ⟨rfl, rfl, rfl, rfl, rfl, rfl, rfl, ?_⟩ rfl (by decide)
  simp only [List.mem_cons, List.not_mem_nil, or_false]
  rintro k (rfl | rfl | rfl | rfl | rfl | rfl) <;> rfl

theorem plain_number (u : Uni) (t : TagInfo) (box : Box) (p : Nat) (hi : t.index = some p) (st : Dict)
    (hst : st = [] ∨ ∃ a b, st = margins a b) :
    Acts u .olItem t ⟨some st, none, none⟩ box ((Nat.toDigits 10 (p + 1)).length + 2) True := by
  obtain ⟨bullet, hbu⟩ : ∃ bullet, bullet = natStr (p + 1) ++ py". " := ⟨_, rfl⟩
  have hcon : ∀ (st : Dict) (above below : Int),
      blockBox true (DictOf.update (DictOf.set (newSettings .olItem) py"line_template" (.str (bullet ++ py"{}"))) st) box =
        .ok (inside box above below (some (bullet ++ py"{}"))) →
      construct .olItem t ⟨some st, none, none⟩ box = .ok ⟨.olItem,
        DictOf.update (DictOf.set (newSettings .olItem) py"line_template" (.str (bullet ++ py"{}"))) st,
        some (inside box above below (some (bullet ++ py"{}"))), t, ⟨some st, none, none⟩⟩ := by
    intro st above below hb
    have hord : ordinal t 1 1 = .ok ((p + 1 : Nat) : Int) := by
      simp only [ordinal, hi]
      congr 1
      omega
    have hinit : initSettings .olItem t ⟨some st, none, none⟩ = .ok
        (DictOf.update (DictOf.set (newSettings .olItem) py"line_template" (.str (bullet ++ py"{}"))) st) := by
      show (ordinal t 1 1).bind (fun order => (pyFormat py"{0}. {1}" [intStr order, py"{}"]).bind (fun line =>
        .ok (DictOf.update (DictOf.set (newSettings .olItem) py"line_template" (.str line)) st))) = _
      rw [hord]
      simp only [Except.bind, intStr_nat, number_format, hbu, List.append_assoc]
      rfl
    simp only [construct, hinit, bind, Except.bind, RClass.isBlock, if_true, RClass.boxHasTemplate, hb]
    rfl
  have hch : ∀ c ∈ bullet, c ≠ '{' ∧ c ≠ '}' := by
    intro c hc
    rw [hbu] at hc
    rcases List.mem_append.1 hc with hc | hc
    · exact ⟨(natStr_plain _ c hc).1, (natStr_plain _ c hc).2.1⟩
    · simp at hc; rcases hc with rfl | rfl <;> decide
  have hlen : ((Nat.toDigits 10 (p + 1)).length + 2 : Int) = bullet.length := by
    rw [hbu, List.length_append]; rfl
  rw [hlen]
  rcases hst with rfl | ⟨a, b, rfl⟩
  · refine item_acts (by simp) (hcon _ 1 0 rfl) ⟨rfl, rfl, rfl, rfl, rfl, rfl, rfl, ?_⟩ rfl hch
    simp only [List.mem_cons, List.not_mem_nil, or_false]
    rintro k (rfl | rfl | rfl | rfl | rfl | rfl) <;> rfl
  · refine item_acts (by simp) (hcon _ a b rfl) ⟨rfl, rfl, rfl, rfl, rfl, rfl, rfl, ?_⟩ rfl hch
    simp only [List.mem_cons, List.not_mem_nil, or_false]
    rintro k (rfl | rfl | rfl | rfl | rfl | rfl) <;> rfl

/-! ## Links -/

theorem named_ok {S : Dict} {d : DictOf (List Str)} {name : Str} {l : List Str} {k : Nat} {t : Str}
    (h : DictOf.get S py"templates" = some (.strDict d)) (hd : DictOf.get d name = some l) (hl : l[k]? = some t) :
    namedTemplate S name k = .ok t := by
  simp only [namedTemplate, getA, h, bind, Except.bind, hd, strAt, hl]

theorem format_reference (x n : Arg) :
    ∃ y, pyFormat py"[{content}][{link_reference}]" [] [(py"content", x), (py"link_reference", n)] = .ok y := by
  have hp : parseTemplate none py"[{content}][{link_reference}]" =
      [.lit '[', .name py"content", .lit ']', .lit '[', .name py"link_reference", .lit ']'] := by decide
  rw [pyFormat, hp]
  simp [evalPieces, nameArg, List.lookup, Except.map]

theorem format_inline (x h : Arg) : ∃ y, pyFormat py"[{content}]({href})" [] [(py"content", x), (py"href", h)] = .ok y := by
  have hp : parseTemplate none py"[{content}]({href})" =
      [.lit '[', .name py"content", .lit ']', .lit '(', .name py"href", .lit ')'] := by decide
  rw [pyFormat, hp]
  simp [evalPieces, nameArg, List.lookup, Except.map]

theorem format_titled (x h t : Arg) :
    ∃ y, pyFormat py"[{content}]({href} \"{title}\")" [] [(py"content", x), (py"href", h), (py"title", t)] = .ok y := by
  have hp : parseTemplate none py"[{content}]({href} \"{title}\")" =
      [.lit '[', .name py"content", .lit ']', .lit '(', .name py"href", .lit ' ', .lit '"', .name py"title", .lit '"', .lit ')'] := by
    decide
  rw [pyFormat, hp]
  simp [evalPieces, nameArg, List.lookup, Except.map]

theorem format_image (h t : Arg) : ∃ y, pyFormat py"![{title}]({href})" [] [(py"href", h), (py"title", t)] = .ok y := by
  have hp : parseTemplate none py"![{title}]({href})" =
      [.lit '!', .lit '[', .name py"title", .lit ']', .lit '(', .name py"href", .lit ')'] := by decide
  rw [pyFormat, hp]
  simp [evalPieces, nameArg, List.lookup, Except.map]

theorem format_imageRef (t n : Arg) :
    ∃ y, pyFormat py"[{title}][{link_reference}]" [] [(py"title", t), (py"link_reference", n)] = .ok y := by
  have hp : parseTemplate none py"[{title}][{link_reference}]" =
      [.lit '[', .name py"title", .lit ']', .lit '[', .name py"link_reference", .lit ']'] := by decide
  rw [pyFormat, hp]
  simp [evalPieces, nameArg, List.lookup, Except.map]

theorem plain_link (u : Uni) (t : TagInfo) (st : Option Dict) (hst : st = none ∨ st = some []) (l : LinkCtx) (target : Option Target)
    (ht : l.linkPlacement = py"inline" → target.isSome) (box : Box) : Acts u .link t ⟨st, some l, target⟩ box 0 False := by
  have hk : construct .link t ⟨st, some l, target⟩ box = .ok ⟨.link, newSettings .link, none, t, ⟨st, some l, target⟩⟩ := by
    rcases hst with rfl | rfl <;> rfl
  refine acts_inline hk rfl (fun x => ?_)
  show ∃ y, linkRender u (newSettings .link) ⟨st, some l, target⟩ x = .ok y
  have hi : inlineRender u (newSettings .link) x = .ok x := by
    have := inlineRender_of (u := u) (s := newSettings .link) (a := []) (b := []) rfl rfl (by decide) (by decide) x
    simpa using this
  have hc : capIf u (newSettings .link) x = .ok x := rfl
  have n0 : namedTemplate (newSettings .link) py"inline" 0 = .ok py"[{content}]({href})" := rfl
  have n1 : namedTemplate (newSettings .link) py"inline" 1 = .ok py"[{content}]({href} \"{title}\")" := rfl
  have n2 : namedTemplate (newSettings .link) py"reference" 0 = .ok py"[{content}][{link_reference}]" := rfl
  simp only [linkRender, ctxLink, hi, hc, bind, Except.bind, n0, n1, n2]
  split
  · obtain ⟨g, rfl⟩ := Option.isSome_iff_exists.1 (ht ‹_›)
    simp only [ctxTarget]
    split
    · exact format_titled _ _ _
    · exact format_inline _ _
  · exact format_reference _ _

theorem plain_image (u : Uni) (t : TagInfo) (st : Option Dict) (hst : st = none ∨ st = some []) (l : LinkCtx) (target : Option Target)
    (ht : l.imagePlacement = py"inline" → target.isSome) (box : Box) : Acts u .image t ⟨st, some l, target⟩ box 0 False := by
  have hk : construct .image t ⟨st, some l, target⟩ box = .ok ⟨.image, newSettings .image, none, t, ⟨st, some l, target⟩⟩ := by
    rcases hst with rfl | rfl <;> rfl
  refine acts_inline hk rfl (fun x => ?_)
  show ∃ y, imageRender (newSettings .image) ⟨st, some l, target⟩ = .ok y
  have n0 : namedTemplate (newSettings .image) py"inline" 0 = .ok py"![{title}]({href})" := rfl
  have n2 : namedTemplate (newSettings .image) py"reference" 0 = .ok py"[{title}][{link_reference}]" := rfl
  simp only [imageRender, ctxLink, bind, Except.bind, n0, n2]
  split
  · obtain ⟨g, rfl⟩ := Option.isSome_iff_exists.1 (ht ‹_›)
    exact format_image _ _
  · exact format_imageRef _ _

theorem plain_entry (u : Uni) (t : TagInfo) (l : LinkCtx) (g : Target) (box : Box) :
    Acts u .extractedLink t ⟨none, some l, some g⟩ box 0 False := by
  have hk : construct .extractedLink t ⟨none, some l, some g⟩ box =
      .ok ⟨.extractedLink, newSettings .extractedLink, some (inside box 0 0), t, ⟨none, some l, some g⟩⟩ := rfl
  have hi : ∀ x, ∃ y, extractedLinkInner (newSettings .extractedLink) ⟨none, some l, some g⟩ x = .ok y := by
    intro x
    have e1 : DictOf.get (newSettings .extractedLink) py"max_link_description" = some (.int 10) := rfl
    have e2 : DictOf.get (newSettings .extractedLink) py"gophermap_template" = some gophermapTemplate := rfl
    have e3 : DictOf.get (newSettings .extractedLink) py"templates" = some extractedTemplates := rfl
    simp only [extractedLinkInner, ctxLink, ctxTarget, getA, e1, e2, e3, asInt, bind, Except.bind, gophermapTemplate, asStr,
      extractedTemplates, templateAt, strAt, List.getElem?_cons_zero, List.getElem?_cons_succ, List.cons_append, List.nil_append]
    split
    · exact ⟨_, gopher_format _ _ _⟩
    · split
      · exact ⟨_, title_format _ _ _ _⟩
      · exact ⟨_, text_format _ _ _⟩
  refine ⟨_, hk, by simp [textRoom_inside, ownTemplatePadding], fun x => ?_⟩
  obtain ⟨y, hy⟩ := hi x
  simp only [Inst.render, extractedLinkRender, ctxLink, bind, Except.bind, innerRender, hy]
  split
  · exact outcome_ok (fun h => h.elim) _
  · rw [blockRender_inside rfl]
    simp only [innerRender, hy]
    exact outcome_ok (fun h => h.elim) _

theorem plain_imageEntry (u : Uni) (t : TagInfo) (l : LinkCtx) (g : Target) (box : Box) :
    Acts u .extractedImage t ⟨none, some l, some g⟩ box 0 False := by
  refine acts_free (above := 0) (below := 0) rfl rfl (by simp [RClass.behaviour]) rfl (fun x => ?_)
  show ∃ y, extractedImageInner (newSettings .extractedImage) ⟨none, some l, some g⟩ = .ok y
  have e1 : DictOf.get (newSettings .extractedImage) py"max_link_description" = some (.int 10) := rfl
  have e2 : DictOf.get (newSettings .extractedImage) py"gophermap_template" = some gophermapTemplate := rfl
  have e3 : DictOf.get (newSettings .extractedImage) py"templates" = some extractedTemplates := rfl
  simp only [extractedImageInner, ctxLink, ctxTarget, getA, e1, e2, e3, asInt, bind, Except.bind, gophermapTemplate, asStr,
    extractedTemplates, templateAt, strAt, List.getElem?_cons_zero, List.getElem?_cons_succ, List.cons_append, List.nil_append]
  generalize (if truthyTitle g.title = true then strOpt g.title else py"Image") = title
  split
  · exact ⟨_, gopher_format _ _ _⟩
  · split
    · exact ⟨_, title_format _ _ _ _⟩
    · exact ⟨_, text_format _ _ _⟩

/-! ## Colours -/

theorem plain_colours (u : Uni) (t : TagInfo) (st : Option Dict) (link : Option LinkCtx) (target : Option Target)
    (hnd : ∀ d, st = some d → (d.map Prod.fst).Nodup)
    (hok : ∀ d, st = some d → ∀ k v, k ≠ py"margin" → DictOf.get d k = some v → settingOk (k, v) = true) (box : Box) :
    Acts u .ansi t ⟨st, link, target⟩ box 0 False := by
  obtain ⟨inst, hc, hb, hget⟩ : ∃ inst, construct .ansi t ⟨st, link, target⟩ box = .ok inst ∧ inst.box = none ∧
      ∀ k, DictOf.get inst.settings k = (st.bind (DictOf.get · k)).or (DictOf.get (newSettings .ansi) k) := by
    cases st with
    | none => exact ⟨_, rfl, rfl, fun k => rfl⟩
    | some d =>
      refine ⟨_, rfl, rfl, fun k => ?_⟩
      exact get_adjust (newSettings .ansi) ⟨some d, link, target⟩ k (by intro l hl; cases hl; exact hnd d rfl)
  have hok : ∀ k v, k ≠ py"margin" → st.bind (DictOf.get · k) = some v → settingOk (k, v) = true := by
    intro k v hk hv
    cases st with
    | none => cases hv
    | some d => exact hok d rfl k v hk hv
  have hfix : ∀ k w, k ≠ py"margin" → (∀ v, settingOk (k, v) = false) → DictOf.get (newSettings .ansi) k = some w →
      DictOf.get inst.settings k = some w := by
    intro k w hk hf hw
    rw [hget, hw]
    cases hv : st.bind (DictOf.get · k) with
    | none => rfl
    | some v => exact absurd (hok k v hk hv) (by simp [hf v])
  have hcol : ∀ k, k = py"foreground_colour" ∨ k = py"background_colour" →
      ∃ v col, DictOf.get inst.settings k = some v ∧ Chosen v col := by
    intro k hk
    have hk' : k ≠ py"margin" := by rcases hk with rfl | rfl <;> decide
    have hdef : DictOf.get (newSettings .ansi) k = some .none := by rcases hk with rfl | rfl <;> decide
    rw [hget, hdef]
    cases hv : st.bind (DictOf.get · k) with
    | none => exact ⟨_, none, rfl, .inl ⟨rfl, rfl⟩⟩
    | some v =>
      have := hok k v hk' hv
      have hco : colourOk v = true := by
        rcases hk with rfl | rfl <;> exact this
      obtain ⟨x, hx⟩ := colourOk_is hco
      exact ⟨v, some x, rfl, .inr ⟨x, hx, rfl⟩⟩
  obtain ⟨vf, fg, f1, f2⟩ := hcol _ (.inl rfl)
  obtain ⟨vb, bg, b1, b2⟩ := hcol _ (.inr rfl)
  have hfont := hfix py"font" .none (by decide) (fun v => rfl) (by decide)
  obtain ⟨on, off, g1, -⟩ := C52_partial u .ansi _ _ box inst rfl hc hfont vf vb fg bg f1 f2 b1 b2
  have hin : ∀ x, inlineRender u inst.settings x = .ok x :=
    C52_content u _ (hfix py"capitalized" _ (by decide) (fun v => rfl) (by decide))
      (hfix py"template" _ (by decide) (fun v => rfl) (by decide))
  exact acts_inline hc hb (fun x => ⟨_, g1 x x (hin x)⟩)

end Verif
