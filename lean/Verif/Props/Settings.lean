import Verif.Proofs.Dict
import Verif.Spec.Settings
import Verif.Model.Namedict

/-!
# Settings: C11 and C12
-/

namespace Verif

open Spec

/-! ## C11 -/

/-- The collected settings follow the base classes. -/
theorem chain_eq (c : RClass) : c.chain = (match c.base with | some b => b.chain | none => []) ++ [c.ownSettings] := by
  cases c <;> rfl

theorem dedupe_snoc (acc l : List Dict) (d : Dict) :
    dedupe acc (l ++ [d]) = if (dedupe acc l).any (fun a => Dict.pyEq d a) then dedupe acc l else dedupe acc l ++ [d] := by
  induction l generalizing acc with
  | nil => rfl
  | cons x l ih =>
    simp only [List.cons_append, dedupe]
    split <;> exact ih _

theorem dedupe_mem (acc l : List Dict) : ∀ d ∈ dedupe acc l, d ∈ acc ∨ d ∈ l := by
  induction l generalizing acc with
  | nil => intro d hd; exact .inl hd
  | cons x l ih =>
    intro d hd
    simp only [dedupe] at hd
    split at hd
    · rcases ih _ d hd with h | h
      · exact .inl h
      · exact .inr (List.mem_cons_of_mem _ h)
    · rcases ih _ d hd with h | h
      · rcases List.mem_append.1 h with h | h
        · exact .inl h
        · exact .inr (by simp at h; simp [h])
      · exact .inr (List.mem_cons_of_mem _ h)

theorem chain_mem (c : RClass) : ∀ d ∈ c.chain, ∃ a, Derives c a ∧ a.ownSettings = d := by
  have main : ∀ n (c : RClass), c.chain.length ≤ n → ∀ d ∈ c.chain, ∃ a, Derives c a ∧ a.ownSettings = d := by
    intro n
    induction n with
    | zero =>
      intro c h
      rw [chain_eq c] at h
      simp at h
    | succ n ih =>
      intro c h d hd
      rw [chain_eq c] at h hd
      cases hb : c.base with
      | none =>
        rw [hb] at hd
        simp only [List.nil_append, List.mem_singleton] at hd
        exact ⟨c, .refl, hd.symm⟩
      | some b =>
        rw [hb] at hd h
        simp only [List.length_append, List.length_cons, List.length_nil] at h
        rcases List.mem_append.1 hd with hd | hd
        · obtain ⟨a, h1, h2⟩ := ih b (by omega) d hd
          exact ⟨a, .step hb h1, h2⟩
        · simp only [List.mem_singleton] at hd
          exact ⟨c, .refl, hd.symm⟩
  exact main _ c (Nat.le_refl _)

theorem noRepeat_base {c b : RClass} {k : Str} (hb : c.base = some b) (h : NoRepeat c k) : NoRepeat b k :=
  fun a x y h1 h2 h3 h4 => h a x y (.step hb h1) h2 h3 h4

theorem dictSettings_base {c b : RClass} (hb : c.base = some b) (h : DictSettings c) : DictSettings b :=
  fun a h1 => h a (.step hb h1)

/-- The settings of a new instance are the inherited ones. -/
theorem newSettings_inherits (c : RClass) (k : Str) (hw : DictSettings c) (hn : NoRepeat c k) :
    Inherits c k (DictOf.get (newSettings c) k) := by
  have main : ∀ n (c : RClass), c.chain.length ≤ n → DictSettings c → NoRepeat c k →
      Inherits c k (DictOf.get (newSettings c) k) := by
    intro n
    induction n with
    | zero =>
      intro c h
      rw [chain_eq c] at h
      simp at h
    | succ n ih =>
      intro c h hw hn
      have hnd := hw c .refl
      unfold newSettings
      rw [chain_eq c] at h ⊢
      cases hb : c.base with
      | none =>
        simp only [List.nil_append, dedupe, List.any_nil, Bool.false_eq_true, if_false, List.foldl_cons, List.foldl_nil]
        rw [DictOf.get_update_nodup _ _ hnd]
        cases hk : DictOf.get c.ownSettings k with
        | some v => exact .own hk
        | none => exact .top hk hb
      | some b =>
        rw [hb] at h
        simp only [List.length_append, List.length_cons, List.length_nil] at h
        have hrec := ih b (by omega) (dictSettings_base hb hw) (noRepeat_base hb hn)
        simp only
        rw [dedupe_snoc]
        split
        · rename_i hany
          obtain ⟨d, h1, h2⟩ := List.any_eq_true.1 hany
          have h3 : d ∈ b.chain := by
            rcases dedupe_mem _ _ d h1 with h | h
            · simp at h
            · exact h
          obtain ⟨a, h4, h5⟩ := chain_mem b d h3
          have h6 := hn c a b .refl hb h4 (by rw [h5]; exact h2)
          exact .up h6 hb hrec
        · rw [List.foldl_append]
          simp only [List.foldl_cons, List.foldl_nil]
          rw [DictOf.get_update_nodup _ _ hnd]
          cases hk : DictOf.get c.ownSettings k with
          | some v => exact .own hk
          | none => exact .up hk hb hrec
  exact main _ c (Nat.le_refl _) hw hn

theorem inherits_unique {c : RClass} {k : Str} {v w : Option Val} (h1 : Inherits c k v) (h2 : Inherits c k w) : v = w := by
  induction h1 with
  | own h => cases h2 with
    | own h' => rw [h] at h'; exact h'
    | up h' _ _ => rw [h] at h'; cases h'
    | top h' _ => rw [h] at h'; cases h'
  | up h hb _ ih => cases h2 with
    | own h' => rw [h] at h'; cases h'
    | up _ hb' hi' => rw [hb] at hb'; cases hb'; exact ih hi'
    | top _ hb' => rw [hb] at hb'; cases hb'
  | top h hb => cases h2 with
    | own h' => rw [h] at h'; cases h'
    | up _ hb' _ => rw [hb] at hb'; cases hb'
    | top _ _ => rfl

/-- Two classes compute a setting themselves: the line template of an ordered list item (from its own line template and
its position) and the template of a Markdown header (from the level). -/
def Computed (c : RClass) (k : Str) : Prop :=
  (c.behaviour = .olItem ∧ k = py"line_template") ∨ (c.behaviour = .mdHeader ∧ k = py"template")

theorem get_adjust (s : Dict) (ctx : Ctx) (k : Str) (hd : ∀ l, ctx.settings = some l → (l.map Prod.fst).Nodup) :
    DictOf.get (adjust s ctx) k = (ctx.settings.bind (DictOf.get · k)).or (DictOf.get s k) := by
  unfold adjust
  cases h : ctx.settings with
  | none => rfl
  | some l =>
    simp only [Option.bind_some]
    rw [DictOf.get_update_nodup _ _ (hd l h) k]
    cases DictOf.get l k <;> rfl

theorem initSettings_get {c : RClass} {t : TagInfo} {ctx : Ctx} {s : Dict} (h : initSettings c t ctx = .ok s) (k : Str)
    (hd : ∀ l, ctx.settings = some l → (l.map Prod.fst).Nodup) (hc : ¬ Computed c k) :
    DictOf.get s k = (ctx.settings.bind (DictOf.get · k)).or (DictOf.get (newSettings c) k) := by
  unfold initSettings at h
  split at h
  · rename_i hb
    have hk : k ≠ py"line_template" := fun e => hc (.inl ⟨hb, e⟩)
    simp only [bind, Except.bind] at h
    repeat' split at h
    all_goals first | cases h; done | skip
    simp only [pure, Except.pure, Except.ok.injEq] at h
    subst h
    rw [get_adjust _ _ _ hd, DictOf.get_set, if_neg hk]
  · rename_i hb
    have hk : k ≠ py"template" := fun e => hc (.inr ⟨hb, e⟩)
    simp only [bind, Except.bind] at h
    split at h
    · cases h
    · simp only [pure, Except.pure, Except.ok.injEq] at h
      subst h
      rw [DictOf.get_set, if_neg hk, get_adjust _ _ _ hd]
  · simp only [Except.ok.injEq] at h
    subst h
    exact get_adjust _ _ _ hd

theorem construct_settings {c : RClass} {t : TagInfo} {ctx : Ctx} {box : Box} {i : Inst} (h : construct c t ctx box = .ok i) :
    initSettings c t ctx = .ok i.settings ∧ i.cls = c.behaviour ∧ i.tag = t ∧ i.ctx = ctx ∧ i.box.isSome = c.isBlock := by
  simp only [construct, bind, Except.bind] at h
  cases hs : initSettings c t ctx with
  | error e => rw [hs] at h; cases h
  | ok s =>
    rw [hs] at h
    simp only at h
    split at h
    · rename_i hb
      split at h
      · cases h
      · cases h; simp [hb]
    · rename_i hb
      cases h
      simp [hb]

/-- The value of a setting of an instance: the rule settings if they have one, otherwise the inherited one. (What is
missing: hierarchies where a class repeats the declaration of one of its base classes, see `C11_fails`, and the two
computed settings.) -/
theorem C11_partial (c : RClass) (t : TagInfo) (ctx : Ctx) (box : Box) (i : Inst) (k : Str)
    (h : construct c t ctx box = .ok i) (hw : DictSettings c)
    (hd : ∀ l, ctx.settings = some l → (l.map Prod.fst).Nodup)
    (hn : NoRepeat c k) (hc : ¬ Computed c k) :
    ∃ v, Inherits c k v ∧
      DictOf.get i.settings k = (ctx.settings.bind (DictOf.get · k)).or v :=
  ⟨_, newSettings_inherits c k hw hn, initSettings_get (construct_settings h).1 k hd hc⟩

/-- Rule settings win, whatever the hierarchy. -/
theorem C11_rules (c : RClass) (t : TagInfo) (ctx : Ctx) (box : Box) (i : Inst) (k : Str) (l : Dict) (v : Val)
    (h : construct c t ctx box = .ok i) (hl : ctx.settings = some l) (hd : (l.map Prod.fst).Nodup)
    (hv : DictOf.get l k = some v) (hc : ¬ (c.behaviour = .mdHeader ∧ k = py"template")) :
    DictOf.get i.settings k = some v := by
  have hd' : ∀ l', ctx.settings = some l' → (l'.map Prod.fst).Nodup := by
    intro l' e; rw [hl] at e; cases e; exact hd
  have h1 := (construct_settings h).1
  by_cases ho : c.behaviour = .olItem
  · unfold initSettings at h1
    rw [ho] at h1
    simp only [bind, Except.bind] at h1
    repeat' split at h1
    all_goals first | cases h1; done | skip
    simp only [pure, Except.pure, Except.ok.injEq] at h1
    rw [← h1, get_adjust _ _ _ hd', hl]
    simp [hv]
  · rw [initSettings_get h1 k hd' (fun hx => hx.elim (fun h => ho h.1) hc), hl]
    simp [hv]

theorem derives_sub {c : RClass} {s : Dict} {a : RClass} (h : Derives (.sub c s) a) : a = .sub c s ∨ Derives c a := by
  cases h with
  | refl => exact .inl rfl
  | step hb h => cases hb; exact .inr h

theorem behaviour_not_sub (x b : RClass) (s : Dict) : x.behaviour ≠ .sub b s := by
  induction x with
  | sub _ _ ih => exact ih
  | _ => intro e; cases e

/-- For the built-in classes nothing is missing. -/
theorem builtin_noRepeat (c : RClass) (hc : c.behaviour = c) (k : Str) : NoRepeat c k ∧ DictSettings c := by
  have key : ∀ c : RClass, c.behaviour = c → (∀ d ∈ c.chain, (d.map Prod.fst).Nodup) ∧
      c.chain.Pairwise (fun a b => Dict.pyEq b a = true → b = []) := by
    intro c hc
    cases c with
    | sub b s => exact absurd hc (behaviour_not_sub _ _ _)
    | _ => constructor <;> decide
  have base : ∀ c b : RClass, c.behaviour = c → c.base = some b → b.behaviour = b := by
    intro c b hc hb
    cases c with
    | sub b s => exact absurd hc (behaviour_not_sub _ _ _)
    | renderer => cases hb
    | _ => cases hb; rfl
  have der : ∀ c a : RClass, Derives c a → c.behaviour = c → a.behaviour = a := by
    intro c a h
    induction h with
    | refl => exact id
    | step hb _ ih => exact fun hc => ih (base _ _ hc hb)
  have own : ∀ c a : RClass, Derives c a → a.ownSettings ∈ c.chain := by
    intro c a h
    induction h with
    | @refl c => rw [chain_eq c]; simp
    | @step c b a hb _ ih => rw [chain_eq c, hb]; exact List.mem_append_left _ ih
  refine ⟨?_, fun a ha => (key c hc).1 _ (own c a ha)⟩
  intro a b x h1 h2 h3 h4
  have ha := der c a h1 hc
  have hp := (key a ha).2
  rw [chain_eq a, h2] at hp
  simp only at hp
  rw [List.pairwise_append] at hp
  have := hp.2.2 _ (own x b h3) a.ownSettings (by simp) h4
  rw [this]
  rfl

/-- The built-in classes, without conditions on the hierarchy. -/
theorem C11_builtin (c : RClass) (hb : c.behaviour = c) (t : TagInfo) (ctx : Ctx) (box : Box) (i : Inst) (k : Str)
    (h : construct c t ctx box = .ok i) (hd : ∀ l, ctx.settings = some l → (l.map Prod.fst).Nodup)
    (hc : ¬ Computed c k) :
    ∃ v, Inherits c k v ∧
      DictOf.get i.settings k = (ctx.settings.bind (DictOf.get · k)).or v :=
  C11_partial c t ctx box i k h (builtin_noRepeat c hb k).2 hd (builtin_noRepeat c hb k).1 hc

/-- Inherited values are unique. -/
theorem C11_unique (c : RClass) (k : Str) (v w : Option Val) (h1 : Inherits c k v) (h2 : Inherits c k w) : v = w :=
  inherits_unique h1 h2

/-- A class repeating the declaration of its base's base: `A` has `x = 1`, its subclass `B` has `x = 2`, and `B`'s
subclass `C` has `x = 1` again. -/
def repeatExample : RClass :=
  .sub (.sub (.sub .inline [(py"x", .int 1)]) [(py"x", .int 2)]) [(py"x", .int 1)]

/-- The most derived class declares 1, the instance has 2. -/
theorem C11_fails (t : TagInfo) (ctx : Ctx) (hctx : ctx.settings = none) (box : Box) :
    Inherits repeatExample py"x" (some (.int 1)) ∧
    ∃ i, construct repeatExample t ctx box = .ok i ∧ DictOf.get i.settings py"x" = some (.int 2) := by
  refine ⟨.own rfl, ⟨.inline, newSettings repeatExample, none, t, ctx⟩, ?_, ?_⟩
  · simp only [construct, initSettings, repeatExample, RClass.behaviour, adjust, hctx]
    rfl
  · show DictOf.get (newSettings repeatExample) py"x" = some (.int 2)
    decide

/-- A rule cannot set the template of a Markdown header. -/
theorem C11_header_fails (t : TagInfo) (ht : t.tag = some py"h1") (box : Box) :
    ∃ i, construct .mdHeader t ⟨some [(py"template", .str py"- {}")], none, none⟩ box = .ok i ∧
      DictOf.get i.settings py"template" = some (.str py"# {} #") := by
  simp only [construct, initSettings, RClass.behaviour, markdownTemplate, ht]
  exact ⟨_, rfl, rfl⟩

/-- An ordinary hierarchy: `B` overrides `template` of `EmRenderer` and inherits the rest. -/
example : (do
    let i ← construct (.sub .em [(py"template", .str py"/{}/")]) ⟨none, none, [], none⟩
      ⟨some [(py"capitalized", .bool true)], none, none⟩ (Box.new 67 {} {} {} none none)
    return (DictOf.get i.settings py"template", DictOf.get i.settings py"capitalized")) =
      .ok (some (.str py"/{}/"), some (.bool true)) := by decide

/-! ## C12 -/

section

variable {α : Type} (isAttr : Str → Bool)

theorem get_erase_none (d : DictOf α) (k n : Str) (h : DictOf.get d k = none) : DictOf.get (DictOf.erase d n) k = none := by
  induction d with
  | nil => rfl
  | cons x xs ih =>
    obtain ⟨a, b⟩ := x
    rw [DictOf.get_cons] at h
    split at h
    · cases h
    · rename_i hk
      unfold DictOf.erase
      split
      · exact h
      · rw [DictOf.get_cons, if_neg hk]
        exact ih h

/-- The instance `__dict__` only has names of attributes of `dict`. -/
def OwnAttrs (d : NDict α) : Prop := ∀ n, isAttr n = false → DictOf.get d.own n = none

theorem step_own (d : NDict α) (op : NDict.Op α) (h : OwnAttrs isAttr d) : OwnAttrs isAttr (d.step isAttr op) := by
  intro n hn
  cases op with
  | getA m => exact h n hn
  | getK m => exact h n hn
  | setK m v => exact h n hn
  | delK m =>
    simp only [NDict.step, NDict.delItem]
    split
    · rename_i heq
      split at heq
      · cases heq; exact h n hn
      · cases heq
    · exact h n hn
  | setA m v =>
    simp only [NDict.step, NDict.setAttr]
    split
    · rename_i hc
      simp only [Bool.and_eq_true, Bool.not_eq_true'] at hc
      rw [DictOf.get_set]
      split
      · rename_i e
        subst e
        exfalso
        obtain ⟨h1, h2⟩ := hc
        simp only [NDict.hasAttr, NDict.getAttr, NDict.getAttribute, h n hn, hn] at h1
        simp only [NDict.has] at h2
        cases hg : DictOf.get d.items n with
        | some v => rw [hg] at h2; simp at h2
        | none => rw [hg] at h1; simp at h1
      · exact h n hn
    · exact h n hn
  | delA m =>
    simp only [NDict.step]
    split
    · rename_i heq
      unfold NDict.delAttr at heq
      split at heq
      · split at heq
        · cases heq; exact get_erase_none _ _ _ (h n hn)
        · cases heq
      · unfold NDict.delItem at heq
        split at heq
        · cases heq
        · rename_i hne
          split at heq
          · cases heq; exact h n hn
          · cases heq
    · exact h n hn

theorem run_own (d : NDict α) (ops : List (NDict.Op α)) (h : OwnAttrs isAttr d) : OwnAttrs isAttr (d.run isAttr ops) := by
  induction ops generalizing d with
  | nil => exact h
  | cons op ops ih => exact ih _ (step_own isAttr d op h)

/-- After any history of operations: for a name that is not an attribute of `dict`, attribute access is item access,
with `AttributeError` for `KeyError`. -/
theorem C12 (items : DictOf α) (ops : List (NDict.Op α)) (n : Str) (hn : isAttr n = false) (v : α) :
    let d := NDict.run isAttr ⟨items, []⟩ ops
    (match d.getItem n with
      | .ok x => d.getAttr isAttr n = .ok (.val x)
      | .error e => e = .keyError ∧ d.getAttr isAttr n = .error .attributeError) ∧
    d.setAttr isAttr n v = d.setItem n v ∧
    (match d.delItem n with
      | .ok d' => d.delAttr isAttr n = .ok d'
      | .error e => e = .keyError ∧ d.delAttr isAttr n = .error .attributeError) := by
  intro d
  have ho : DictOf.get d.own n = none := run_own isAttr _ ops (fun _ _ => rfl) n hn
  have ha : d.getAttr isAttr n = (match DictOf.get d.items n with | some v => .ok (.val v) | none => .error .attributeError) := by
    simp only [NDict.getAttr, NDict.getAttribute, ho, hn]
    rfl
  have hc : (d.hasAttr isAttr n && !d.has n) = false := by
    unfold NDict.hasAttr NDict.has
    rw [ha]
    cases DictOf.get d.items n <;> rfl
  refine ⟨?_, ?_, ?_⟩
  · rw [ha]
    unfold NDict.getItem
    cases DictOf.get d.items n with
    | some x => rfl
    | none => exact ⟨rfl, rfl⟩
  · unfold NDict.setAttr
    rw [hc]
    rfl
  · unfold NDict.delAttr
    rw [hc]
    unfold NDict.delItem
    cases DictOf.get d.items n with
    | some x => rfl
    | none => exact ⟨rfl, rfl⟩

/-- Items behave like a map: what was set is read, nothing else changes; what was deleted is gone. -/
theorem C12_map (d : NDict α) (n m : Str) (v : α) :
    (d.setItem n v).getItem m = (if m = n then .ok v else d.getItem m) ∧
    (∀ d', (d.items.map Prod.fst).Nodup → d.delItem n = .ok d' → d'.getItem m = if m = n then .error .keyError else d.getItem m) := by
  constructor
  · simp only [NDict.getItem, NDict.setItem, DictOf.get_set]
    by_cases h : m = n <;> simp [h]
  · intro d' hnd h
    unfold NDict.delItem at h
    split at h
    · cases h
      simp only [NDict.getItem]
      have : DictOf.get (DictOf.erase d.items n) m = if m = n then none else DictOf.get d.items m := by
        generalize d.items = l at hnd
        induction l with
        | nil => simp [DictOf.erase, DictOf.get_nil]
        | cons x xs ih =>
          obtain ⟨a, b⟩ := x
          simp only [List.map_cons, List.nodup_cons] at hnd
          unfold DictOf.erase
          by_cases ha : a = n
          · rw [if_pos ha, DictOf.get_cons]
            by_cases hm : m = n
            · rw [if_pos hm]; rw [DictOf.get_eq_none, hm, ← ha]; exact hnd.1
            · rw [if_neg hm, if_neg (by rw [ha]; exact hm)]
          · rw [if_neg ha, DictOf.get_cons, DictOf.get_cons, ih hnd.2]
            by_cases hm : m = n
            · rw [if_pos hm, if_neg (by rw [hm]; exact fun e => ha e.symm), if_pos hm]
            · rw [if_neg hm, if_neg hm]
      rw [this]
      by_cases h : m = n <;> simp [h]
    · cases h

end

/-- Names of attributes of `dict` go elsewhere: `d.keys = 1` does not add an item. -/
example : (match (NDict.run (· == py"keys") (⟨[], []⟩ : NDict Nat) [.setA py"keys" 1, .setA py"size" 2]) with
    | ⟨items, own⟩ => decide (items = [(py"size", 2)] ∧ own = [(py"keys", 1)])) = true := by decide

end Verif
