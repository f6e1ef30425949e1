import Verif.Proofs.Cascade
import Verif.Proofs.Assign

/-!
# What holds of all rules holds of all assigned renderers
-/

namespace Verif

open Spec

/-- A specification whose class and settings satisfy given predicates. -/
def GoodSpec (PC : RClass → Prop) (PS : Dict → Prop) (s : RSpec) : Prop :=
  (∀ c, s.renderer = some c → PC c) ∧ (∀ d, s.settings = some d → PS d)

/-- The same for what was assigned to a node. -/
structure GoodAssigned (PC : RClass → Prop) (PS : Dict → Prop) (a : Assigned) : Prop where
  cls : ∀ c, a.renderer = some c → PC c
  settings : ∀ d, a.settings = some d → PS d
  link : ∀ c, a.linkRenderer = some c → PC c

/-- Predicates on settings that survive merging. -/
structure Merges (PS : Dict → Prop) : Prop where
  nil : PS []
  update : ∀ d e, PS d → PS e → PS (DictOf.update d e)

theorem insert_mem (x y : Spec3 × Rule) (l : List (Spec3 × Rule)) (h : y ∈ insertMatch x l) : y = x ∨ y ∈ l := by
  induction l with
  | nil => exact .inl (List.mem_singleton.1 h)
  | cons a l ih =>
    rw [insertMatch] at h
    split at h
    · rcases List.mem_cons.1 h with h | h
      · exact .inr (h ▸ List.mem_cons_self ..)
      · rcases ih h with h | h
        · exact .inl h
        · exact .inr (List.mem_cons_of_mem _ h)
    · rcases List.mem_cons.1 h with h | h
      · exact .inl h
      · exact .inr h

theorem sort_mem (y : Spec3 × Rule) (l : List (Spec3 × Rule)) (h : y ∈ sortMatches l) : y ∈ l := by
  induction l with
  | nil => exact h
  | cons a l ih =>
    rw [sortMatches] at h
    rcases insert_mem a y _ h with h | h
    · exact h ▸ List.mem_cons_self ..
    · exact List.mem_cons_of_mem _ (ih h)

section
variable {PC : RClass → Prop} {PS : Dict → Prop} (hm : Merges PS)
include hm

theorem apply_good (ms : List (Spec3 × Rule)) (h : ∀ m ∈ ms, GoodSpec PC PS m.2.spec) (r : Option RClass) (s : Dict)
    (hr : ∀ c, r = some c → PC c) (hs : PS s) :
    (∀ c, (applyMatches ms r s).1 = some c → PC c) ∧ PS (applyMatches ms r s).2 := by
  induction ms generalizing r s with
  | nil => exact ⟨hr, hs⟩
  | cons m ms ih =>
    rw [applyMatches]
    have h1 := h m (List.mem_cons_self ..)
    apply ih (fun x hx => h x (List.mem_cons_of_mem _ hx))
    · intro c hc
      cases hmr : m.2.spec.renderer with
      | none => rw [hmr] at hc; exact hr c hc
      | some c' => rw [hmr] at hc; cases hc; exact h1.1 _ hmr
    · cases hms : m.2.spec.settings with
      | none => exact hs
      | some d => exact hm.update _ _ hs (h1.2 _ hms)

theorem getForTag_good {d : Dom} {p : Par} {rules : List Rule} (h : ∀ r ∈ rules, GoodSpec PC PS r.spec) {c : RClass} {s : Dict}
    (hg : getForTag d rules p = .ok (some (c, s))) : PC c ∧ PS s := by
  simp only [getForTag, bind, Except.bind, pure, Except.pure] at hg
  cases hc : collectMatches d p rules with
  | error e => rw [hc] at hg; cases hg
  | ok ms =>
    rw [hc] at hg
    simp only at hg
    have := apply_good hm (sortMatches ms) (fun m hmem => h _ (collectMatches_sound d p rules ms hc m (sort_mem m ms hmem)).1) none []
      (fun c hc => by cases hc) hm.nil
    revert this hg
    generalize applyMatches (sortMatches ms) none [] = x
    obtain ⟨x1, x2⟩ := x
    cases x1 with
    | none => intro hg; cases hg
    | some c' => intro hg this; cases hg; exact ⟨this.1 _ rfl, this.2⟩

theorem assignVal_good {c : Cfg} {d : Dom} (h1 : ∀ r ∈ c.rules, GoodSpec PC PS r.spec) (h2 : ∀ r ∈ c.linkRules, GoodSpec PC PS r.spec)
    (h3 : GoodSpec PC PS c.defaultRenderer) {i : Nat} {a b : Assigned} (ha : GoodAssigned PC PS a)
    (h : assignVal c d i a = .ok b) : GoodAssigned PC PS b := by
  have own : ∀ r, GoodSpec PC PS r → GoodAssigned PC PS (assignOwn a r) := by
    intro r hr
    cases r with
    | cls x => exact ⟨fun c hc => hr.1 _ (by cases hc; rfl), ha.settings, ha.link⟩
    | pair x s => exact ⟨fun c hc => hr.1 _ hc, fun d hd => hr.2 _ hd, ha.link⟩
  have link : ∀ r b, GoodSpec PC PS r → GoodAssigned PC PS b → GoodAssigned PC PS (assignLink b r) := by
    intro r b hr hb
    cases r with
    | cls x => exact ⟨hb.cls, hb.settings, fun c hc => hr.1 _ (by cases hc; rfl)⟩
    | pair x s => exact ⟨hb.cls, hb.settings, fun c hc => hr.1 _ hc⟩
  have gr : ∀ r, getRenderer c d i = .ok r → GoodSpec PC PS r := by
    intro r hr
    simp only [getRenderer, bind, Except.bind, pure, Except.pure] at hr
    cases hg : getForTag d c.rules (.node i) with
    | error e => rw [hg] at hr; cases hr
    | ok x =>
      rw [hg] at hr
      cases x with
      | none => cases hr; exact h3
      | some x =>
        obtain ⟨x1, x2⟩ := x
        cases hr
        obtain ⟨y1, y2⟩ := getForTag_good hm h1 hg
        exact ⟨fun c hc => by cases hc; exact y1, fun d hd => by cases hd; exact y2⟩
  have gl : ∀ r, getLinkRenderer c d i = .ok r → GoodSpec PC PS r := by
    intro r hr
    simp only [getLinkRenderer, bind, Except.bind, pure, Except.pure] at hr
    cases hg : getForTag d c.linkRules (.node i) with
    | error e => rw [hg] at hr; cases hr
    | ok x =>
      rw [hg] at hr
      cases x with
      | none =>
        simp only at hr
        cases hf : c.linkRules.find? (fun r => r.key == py"a") with
        | none => rw [hf] at hr; cases hr
        | some y => rw [hf] at hr; cases hr; exact h2 _ (List.mem_of_find?_eq_some hf)
      | some x =>
        obtain ⟨x1, x2⟩ := x
        cases hr
        obtain ⟨y1, y2⟩ := getForTag_good hm h2 hg
        exact ⟨fun c hc => by cases hc; exact y1, fun d hd => by cases hd; exact y2⟩
  simp only [assignVal, bind, Except.bind, pure, Except.pure] at h
  cases hr : getRenderer c d i with
  | error e => rw [hr] at h; cases h
  | ok r =>
    rw [hr] at h
    simp only at h
    have ho := own r (gr r hr)
    cases ht : (d.nodes[i]?).bind Node.tag with
    | none => rw [ht] at h; cases h; exact ho
    | some tag =>
      rw [ht] at h
      simp only at h
      split at h
      · cases hg : getLinkRenderer c d i with
        | error e => rw [hg] at h; cases h
        | ok l => rw [hg] at h; cases h; exact link l _ (gl l hg) ho
      · cases h; exact ho

theorem assignRenderers_good {c : Cfg} {d : Dom} (h1 : ∀ r ∈ c.rules, GoodSpec PC PS r.spec) (h2 : ∀ r ∈ c.linkRules, GoodSpec PC PS r.spec)
    (h3 : GoodSpec PC PS c.defaultRenderer) (f : Nat) (is : List Nat) (t t' : List (Nat × Assigned))
    (ht : ∀ i, GoodAssigned PC PS (assignedTo t i)) (h : assignRenderers c d f is t = .ok t') : ∀ i, GoodAssigned PC PS (assignedTo t' i) := by
  induction f generalizing is t t' with
  | zero =>
    cases is with
    | nil => rw [assignRenderers] at h; cases h; exact ht
    | cons a is => cases h
  | succ f ih =>
    cases is with
    | nil => cases h; exact ht
    | cons a is =>
      rw [assignRenderers] at h
      · generalize a :: is = l at h
        induction l generalizing t with
        | nil => cases h; exact ht
        | cons b l ihl =>
          rw [List.foldlM_cons] at h
          simp only [bind, Except.bind, assignOne_eq] at h
          cases hv : assignVal c d b (assignedTo t b) with
          | error e => rw [hv] at h; cases h
          | ok v =>
            rw [hv] at h
            simp only [Except.map] at h
            have hv' := assignVal_good hm h1 h2 h3 (ht b) hv
            have ht2 : ∀ i, GoodAssigned PC PS (assignedTo ((b, v) :: t) i) := by
              intro i
              rw [assignedTo_cons]
              split
              · exact hv'
              · exact ht i
            cases ha : assignRenderers c d f (d.childrenOf (.node b)) ((b, v) :: t) with
            | error e => rw [ha] at h; cases h
            | ok t2 =>
              rw [ha] at h
              refine ihl t2 (ih _ _ _ ht2 ha) ?_
              simp only [bind, Except.bind, assignOne_eq, Except.map]
              exact h
      · simp

end

theorem update_good {PC : RClass → Prop} {PS : Dict → Prop} (rs us : List Rule) (h1 : ∀ r ∈ rs, GoodSpec PC PS r.spec)
    (h2 : ∀ r ∈ us, GoodSpec PC PS r.spec) : ∀ r ∈ updateRules rs us, GoodSpec PC PS r.spec := by
  have hset : ∀ (rs : List Rule) (x : Rule), ∀ r ∈ setRule rs x, r ∈ rs ∨ r = x := by
    intro rs x
    induction rs with
    | nil => intro r hr; exact .inr (List.mem_singleton.1 hr)
    | cons a rs ih =>
      intro r hr
      rw [setRule] at hr
      split at hr
      · rcases List.mem_cons.1 hr with h | h
        · exact .inr h
        · exact .inl (List.mem_cons_of_mem _ h)
      · rcases List.mem_cons.1 hr with h | h
        · exact .inl (h ▸ List.mem_cons_self ..)
        · rcases ih r h with h | h
          · exact .inl (List.mem_cons_of_mem _ h)
          · exact .inr h
  unfold updateRules
  induction us generalizing rs with
  | nil => exact h1
  | cons a us ih =>
    apply ih
    · intro r hr
      rcases hset rs a r hr with h | h
      · exact h1 r h
      · exact h ▸ h2 a (List.mem_cons_self ..)
    · exact fun r hr => h2 r (List.mem_cons_of_mem _ hr)

/-- Entries of a merged dict come from one of the two. -/
theorem mem_set {d : Dict} {k : Str} {v : Val} {x : Str × Val} (h : x ∈ DictOf.set d k v) : x ∈ d ∨ x = (k, v) := by
  induction d with
  | nil => exact .inr (List.mem_singleton.1 h)
  | cons a d ih =>
    obtain ⟨k', v'⟩ := a
    rw [DictOf.set] at h
    split at h
    · rcases List.mem_cons.1 h with h | h
      · exact .inr h
      · exact .inl (List.mem_cons_of_mem _ h)
    · rcases List.mem_cons.1 h with h | h
      · exact .inl (h ▸ List.mem_cons_self ..)
      · rcases ih h with h | h
        · exact .inl (List.mem_cons_of_mem _ h)
        · exact .inr h

theorem mem_update {d e : Dict} {x : Str × Val} (h : x ∈ DictOf.update d e) : x ∈ d ∨ x ∈ e := by
  unfold DictOf.update at h
  induction e generalizing d with
  | nil => exact .inl h
  | cons a e ih =>
    rcases ih h with h | h
    · rcases mem_set h with h | h
      · exact .inl h
      · exact .inr (h ▸ List.mem_cons_self ..)
    · exact .inr (List.mem_cons_of_mem _ h)

theorem mem_newSettings {c : RClass} {x : Str × Val} (h : x ∈ newSettings c) : ∃ d ∈ c.chain, x ∈ d := by
  have hd : ∀ (l acc : List Dict), ∀ d ∈ dedupe acc l, d ∈ acc ∨ d ∈ l := by
    intro l
    induction l with
    | nil => intro acc d hd; exact .inl hd
    | cons a l ih =>
      intro acc d hd
      rw [dedupe] at hd
      split at hd
      · rcases ih _ d hd with h | h
        · exact .inl h
        · exact .inr (List.mem_cons_of_mem _ h)
      · rcases ih _ d hd with h | h
        · rcases List.mem_append.1 h with h | h
          · exact .inl h
          · exact .inr (List.mem_singleton.1 h ▸ List.mem_cons_self ..)
        · exact .inr (List.mem_cons_of_mem _ h)
  have hf : ∀ (l : List Dict) (s : Dict), x ∈ l.foldl DictOf.update s → x ∈ s ∨ ∃ d ∈ l, x ∈ d := by
    intro l
    induction l with
    | nil => intro s h; exact .inl h
    | cons a l ih =>
      intro s h
      rcases ih _ h with h | ⟨d, h1, h2⟩
      · rcases mem_update h with h | h
        · exact .inl h
        · exact .inr ⟨a, List.mem_cons_self .., h⟩
      · exact .inr ⟨d, List.mem_cons_of_mem _ h1, h2⟩
  rcases hf _ _ h with h | ⟨d, h1, h2⟩
  · cases h
  · rcases hd _ _ d h1 with h | h
    · cases h
    · exact ⟨d, h, h2⟩

end Verif
