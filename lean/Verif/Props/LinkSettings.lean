import Verif.Props.LinkLines

/-!
# Settings for link renderers: C44
-/

namespace Verif

open Spec

/-- The same class, perhaps with other settings. -/
inductive SameClass : RSpec → RSpec → Prop where
  | cls (c : RClass) : SameClass (.cls c) (.cls c)
  | pair (r : Option RClass) (s s' : Option Dict) : SameClass (.pair r s) (.pair r s')

/-- Two rules that differ at most in their settings. -/
def SameRule (r r' : Rule) : Prop := r.key = r'.key ∧ r.sels = r'.sels ∧ SameClass r.spec r'.spec

/-- Two tables whose rules differ at most in their settings. -/
inductive SameRules : List Rule → List Rule → Prop where
  | nil : SameRules [] []
  | cons {r r' rs rs'} (h : SameRule r r') (hs : SameRules rs rs') : SameRules (r :: rs) (r' :: rs')

theorem sameRule_refl (r : Rule) : SameRule r r := by
  refine ⟨rfl, rfl, ?_⟩
  cases r.spec with
  | cls c => exact .cls c
  | pair r s => exact .pair r s s

theorem sameRules_refl (rs : List Rule) : SameRules rs rs := by
  induction rs with
  | nil => exact .nil
  | cons r rs ih => exact .cons (sameRule_refl r) ih

theorem setRule_same {rs rs' : List Rule} {r r' : Rule} (h : SameRules rs rs') (hr : SameRule r r') :
    SameRules (setRule rs r) (setRule rs' r') := by
  induction h with
  | nil => exact .cons hr .nil
  | cons h1 h2 ih =>
    rename_i x x' xs xs'
    rw [setRule, setRule, h1.1, hr.1]
    split
    · exact .cons hr h2
    · exact .cons h1 ih

theorem updateRules_same {rs rs' us us' : List Rule} (h : SameRules rs rs') (hu : SameRules us us') :
    SameRules (updateRules rs us) (updateRules rs' us') := by
  induction hu generalizing rs rs' with
  | nil => exact h
  | cons h1 h2 ih => exact ih (setRule_same h h1)

/-- Matches that differ at most in the settings of the rules. -/
inductive SameMatches : List (Spec3 × Rule) → List (Spec3 × Rule) → Prop where
  | nil : SameMatches [] []
  | cons {sp r r' ms ms'} (h : SameRule r r') (hs : SameMatches ms ms') : SameMatches ((sp, r) :: ms) ((sp, r') :: ms')

/-- Both fail alike, or both succeed with related results. -/
def Alike {α β : Type} (R : α → β → Prop) : Py α → Py β → Prop
  | .ok a, .ok b => R a b
  | .error e, .error e' => e = e'
  | _, _ => False

theorem collect_same (d : Dom) (p : Par) {rs rs' : List Rule} (h : SameRules rs rs') :
    Alike SameMatches (collectMatches d p rs) (collectMatches d p rs') := by
  induction h with
  | nil => exact .nil
  | cons h1 h2 ih =>
    rename_i r r' rs rs'
    simp only [collectMatches, bind, Except.bind, pure, Except.pure, ← h1.2.1]
    cases tagMatches d p r.sels with
    | error e => rfl
    | ok b =>
      simp only
      split
      · revert ih
        cases collectMatches d p rs <;> cases collectMatches d p rs' <;> intro ih
        · exact ih
        · exact ih
        · exact ih
        · exact .cons h1 ih
      · exact ih

theorem insert_same {sp : Spec3} {r r' : Rule} (h : SameRule r r') {ms ms' : List (Spec3 × Rule)} (hs : SameMatches ms ms') :
    SameMatches (insertMatch (sp, r) ms) (insertMatch (sp, r') ms') := by
  induction hs with
  | nil => exact .cons h .nil
  | cons h1 h2 ih =>
    rw [insertMatch, insertMatch]
    simp only
    split
    · exact .cons h1 ih
    · exact .cons h (.cons h1 h2)

theorem sort_same {ms ms' : List (Spec3 × Rule)} (hs : SameMatches ms ms') : SameMatches (sortMatches ms) (sortMatches ms') := by
  induction hs with
  | nil => exact .nil
  | cons h1 h2 ih => exact insert_same h1 ih

theorem apply_same {ms ms' : List (Spec3 × Rule)} (hs : SameMatches ms ms') (r : Option RClass) (s s' : Dict) :
    (applyMatches ms r s).1 = (applyMatches ms' r s').1 := by
  induction hs generalizing r s s' with
  | nil => rfl
  | cons h1 h2 ih =>
    rename_i x x' _ _
    have : x.spec.renderer = x'.spec.renderer := by
      have := h1.2.2
      revert this
      generalize x.spec = a, x'.spec = b
      intro hab
      cases hab <;> rfl
    rw [applyMatches, applyMatches]
    simp only [this]
    exact ih _ _ _

theorem getForTag_same (d : Dom) (p : Par) {rs rs' : List Rule} (h : SameRules rs rs') :
    Alike (fun a b => a.map Prod.fst = b.map Prod.fst) (getForTag d rs p) (getForTag d rs' p) := by
  have := collect_same d p h
  simp only [getForTag, bind, Except.bind, pure, Except.pure]
  revert this
  cases collectMatches d p rs <;> cases collectMatches d p rs' <;> intro ih
  · exact ih
  · exact ih.elim
  · exact ih.elim
  · rename_i a b
    have hap := apply_same (sort_same ih) none [] []
    simp only
    revert hap
    generalize applyMatches (sortMatches a) none [] = x, applyMatches (sortMatches b) none [] = y
    obtain ⟨x1, x2⟩ := x
    obtain ⟨y1, y2⟩ := y
    rintro rfl
    cases x1 <;> rfl

theorem find_same {rs rs' : List Rule} (h : SameRules rs rs') (k : Str) :
    (rs.find? (fun r => r.key == k) = none ∧ rs'.find? (fun r => r.key == k) = none) ∨
      ∃ r r', rs.find? (fun r => r.key == k) = some r ∧ rs'.find? (fun r => r.key == k) = some r' ∧ SameRule r r' := by
  induction h with
  | nil => exact .inl ⟨rfl, rfl⟩
  | cons h1 h2 ih =>
    rename_i r r' rs rs'
    rw [List.find?_cons, List.find?_cons, h1.1]
    cases r'.key == k
    · exact ih
    · exact .inr ⟨r, r', rfl, rfl, h1⟩

/-- The same configuration with another table for link renderers. -/
def withLinkRules (c : Cfg) (rs : List Rule) : Cfg := { c with linkRenderers := rs }

theorem getLink_same (c : Cfg) {rs : List Rule} (h : SameRules c.linkRenderers rs) (d : Dom) (i : Nat) :
    Alike SameClass (getLinkRenderer c d i) (getLinkRenderer (withLinkRules c rs) d i) := by
  have hr : SameRules c.linkRules (withLinkRules c rs).linkRules := updateRules_same (sameRules_refl _) h
  have hg := getForTag_same d (.node i) hr
  have hf := find_same hr py"a"
  simp only [getLinkRenderer, bind, Except.bind, pure, Except.pure]
  revert hg
  cases getForTag d c.linkRules (.node i) <;> cases getForTag d (withLinkRules c rs).linkRules (.node i) <;> intro hg
  · exact hg
  · exact hg.elim
  · exact hg.elim
  · rename_i a b
    cases a <;> cases b
    · rcases hf with ⟨h1, h2⟩ | ⟨r, r', h1, h2, h3⟩
      · rw [h1, h2]; rfl
      · rw [h1, h2]; exact h3.2.2
    · cases hg
    · cases hg
    · rename_i x y
      obtain ⟨x1, x2⟩ := x
      obtain ⟨y1, y2⟩ := y
      cases (show some x1 = some y1 from hg)
      exact .pair _ _ _

/-- The node is a link that is rendered where it stands. -/
def inlined (d : Dom) (i : Nat) : Prop := ∃ n l, d.nodes[i]? = some n ∧ n.link = some l ∧ l.placement n.tag = py"inline"

/-- Assignments that differ at most in settings for links: those of the entries, and those of inlined links. -/
structure SameButLinks (d : Dom) (t t' : List (Nat × Assigned)) : Prop where
  renderer : ∀ i, (assignedTo t i).renderer = (assignedTo t' i).renderer
  settings : ∀ i, ¬ inlined d i → (assignedTo t i).settings = (assignedTo t' i).settings
  link : ∀ i, (assignedTo t i).linkRenderer = (assignedTo t' i).linkRenderer
  present : ∀ i, (assignedTo t i).linkSettings.isSome = (assignedTo t' i).linkSettings.isSome

/-- Such settings have no effect on any rendering. -/
theorem renderNode_same (u : Uni) {d : Dom} {t t' : List (Nat × Assigned)} (h : SameButLinks d t t') (f : Nat) (asLink : Bool) (box : Box)
    (i : Nat) : renderNode u d t f asLink box i = renderNode u d t' f asLink box i := by
  induction f generalizing asLink box i with
  | zero => rfl
  | succ f ih =>
    have ihf : ∀ b, renderNode u d t f b = renderNode u d t' f b := fun b => by funext box i; exact ih b box i
    rw [renderNode, renderNode]
    cases hn : d.nodes[i]? with
    | none => rfl
    | some n =>
      simp only
      have hlink : ∀ l, renderLink u d (assignedTo t i) i n l box (renderNode u d t f false) =
          renderLink u d (assignedTo t' i) i n l box (renderNode u d t' f false) := by
        intro l
        simp only [renderLink, h.renderer i, h.link i, ihf]
        have := h.present i
        revert this
        cases (assignedTo t i).linkSettings <;> cases (assignedTo t' i).linkSettings <;> intro this
        · rfl
        · cases this
        · cases this
        · rfl
      have htag : ¬ inlined d i → renderTag u d (assignedTo t i) i n box (renderNode u d t f false) (renderNode u d t f true) =
          renderTag u d (assignedTo t' i) i n box (renderNode u d t' f false) (renderNode u d t' f true) := by
        intro hi
        simp only [renderTag, h.renderer i, h.settings i hi, ihf]
      cases hd : n.data with
      | some x => rfl
      | none =>
        cases hl : n.link with
        | none =>
          simp only
          rw [htag]
          rintro ⟨m, l, h1, h2, -⟩
          rw [hn] at h1; cases h1
          rw [hl] at h2; cases h2
        | some l =>
          simp only
          rw [hlink]
          split
          · rfl
          · rename_i hp
            rw [htag]
            rintro ⟨m, l', h1, h2, h3⟩
            rw [hn] at h1; cases h1
            rw [hl] at h2; cases h2
            simp [h3] at hp

theorem assignLink_same {a a' : Assigned} {s s' : RSpec} (h : SameClass s s') (h1 : a.renderer = a'.renderer)
    (h2 : a.settings = a'.settings) (h4 : a.linkSettings.isSome = a'.linkSettings.isSome) :
    (assignLink a s).renderer = (assignLink a' s').renderer ∧ (assignLink a s).settings = (assignLink a' s').settings ∧
      (assignLink a s).linkRenderer = (assignLink a' s').linkRenderer ∧
      (assignLink a s).linkSettings.isSome = (assignLink a' s').linkSettings.isSome := by
  cases h with
  | cls c => exact ⟨h1, h2, rfl, h4⟩
  | pair r s s' => exact ⟨h1, h2, rfl, rfl⟩

/-- Assignments that differ at most in settings for the entries of links. -/
structure SameButEntries (t t' : List (Nat × Assigned)) : Prop where
  renderer : ∀ i, (assignedTo t i).renderer = (assignedTo t' i).renderer
  settings : ∀ i, (assignedTo t i).settings = (assignedTo t' i).settings
  link : ∀ i, (assignedTo t i).linkRenderer = (assignedTo t' i).linkRenderer
  present : ∀ i, (assignedTo t i).linkSettings.isSome = (assignedTo t' i).linkSettings.isSome

theorem entries_cons {t t' : List (Nat × Assigned)} (h : SameButEntries t t') (i : Nat) {a a' : Assigned} (h1 : a.renderer = a'.renderer)
    (h2 : a.settings = a'.settings) (h3 : a.linkRenderer = a'.linkRenderer) (h4 : a.linkSettings.isSome = a'.linkSettings.isSome) :
    SameButEntries ((i, a) :: t) ((i, a') :: t') := by
  refine ⟨?_, ?_, ?_, ?_⟩ <;> intro j <;> rw [assignedTo_cons, assignedTo_cons] <;> split
  · exact h1
  · exact h.renderer j
  · exact h2
  · exact h.settings j
  · exact h3
  · exact h.link j
  · exact h4
  · exact h.present j

theorem assignOwn_same {a a' : Assigned} (r : RSpec)
    (h2 : a.settings = a'.settings) (h3 : a.linkRenderer = a'.linkRenderer) (h4 : a.linkSettings.isSome = a'.linkSettings.isSome) :
    (assignOwn a r).renderer = (assignOwn a' r).renderer ∧ (assignOwn a r).settings = (assignOwn a' r).settings ∧
      (assignOwn a r).linkRenderer = (assignOwn a' r).linkRenderer ∧
      (assignOwn a r).linkSettings.isSome = (assignOwn a' r).linkSettings.isSome := by
  cases r with
  | cls c => exact ⟨rfl, h2, h3, h4⟩
  | pair r s => exact ⟨rfl, rfl, h3, h4⟩

theorem assignOne_same (c : Cfg) {rs : List Rule} (h : SameRules c.linkRenderers rs) (d : Dom) {t t' : List (Nat × Assigned)}
    (ht : SameButEntries t t') (i : Nat) : Alike SameButEntries (assignOne c d t i) (assignOne (withLinkRules c rs) d t' i) := by
  have hg : getRenderer (withLinkRules c rs) d i = getRenderer c d i := rfl
  have hl := getLink_same c h d i
  simp only [assignOne, bind, Except.bind, pure, Except.pure, hg]
  cases getRenderer c d i with
  | error e => rfl
  | ok r =>
    obtain ⟨o1, o2, o3, o4⟩ := assignOwn_same r (ht.settings i) (ht.link i) (ht.present i)
    simp only
    cases (d.nodes[i]?).bind Node.tag with
    | none => exact entries_cons ht i o1 o2 o3 o4
    | some tag =>
      simp only
      split
      · revert hl
        cases getLinkRenderer c d i <;> cases getLinkRenderer (withLinkRules c rs) d i <;> intro hl
        · exact hl
        · exact hl.elim
        · exact hl.elim
        · obtain ⟨l1, l2, l3, l4⟩ := assignLink_same hl o1 o2 o4
          exact entries_cons ht i l1 l2 l3 l4
      · exact entries_cons ht i o1 o2 o3 o4

theorem assignRenderers_same (c : Cfg) {rs : List Rule} (h : SameRules c.linkRenderers rs) (d : Dom) (f : Nat) (is : List Nat)
    {t t' : List (Nat × Assigned)} (ht : SameButEntries t t') :
    Alike SameButEntries (assignRenderers c d f is t) (assignRenderers (withLinkRules c rs) d f is t') := by
  induction f generalizing is t t' with
  | zero =>
    cases is with
    | nil => simp only [assignRenderers]; exact ht
    | cons i is => rfl
  | succ f ih =>
    rw [assignRenderers.eq_def, assignRenderers.eq_def (withLinkRules c rs)]
    cases is with
    | nil => exact ht
    | cons i is =>
      simp only
      generalize i :: is = l
      induction l generalizing t t' with
      | nil => exact ht
      | cons i is ihl =>
        rw [List.foldlM_cons, List.foldlM_cons]
        simp only [bind, Except.bind]
        have h1 := assignOne_same c h d ht i
        revert h1
        cases assignOne c d t i <;> cases assignOne (withLinkRules c rs) d t' i <;> intro h1
        · exact h1
        · exact h1.elim
        · exact h1.elim
        · rename_i a b
          simp only
          have h2 := ih (d.childrenOf (.node i)) h1
          revert h2
          cases assignRenderers c d f (d.childrenOf (.node i)) a <;>
            cases assignRenderers (withLinkRules c rs) d f (d.childrenOf (.node i)) b <;> intro h2
          · exact h2
          · exact h2.elim
          · exact h2.elim
          · exact ihl h2

/-- Settings in rules for the entries of links have no effect at all: with other settings in these rules every document
gives the same result. -/
theorem C44_ignored (u : Uni) (c : Cfg) (rs : List Rule) (h : SameRules c.linkRenderers rs) (es : List Event) :
    renderEvents u (withLinkRules c rs) es = renderEvents u c es := by
  have e1 : initParser (withLinkRules c rs) = initParser c := rfl
  have e2 : feed u (withLinkRules c rs) = feed u c := rfl
  simp only [renderEvents, bind, Except.bind, pure, Except.pure, e1, e2]
  cases initParser c with
  | error e => rfl
  | ok s0 =>
    simp only
    cases feed u c s0 es with
    | error e => rfl
    | ok s =>
      simp only [close, bind, Except.bind, pure, Except.pure]
      have hs := assignRenderers_same c h (popStack s.dom s.stack.reverse) (popStack s.dom s.stack.reverse).fuel
        (popStack s.dom s.stack.reverse).roots (t := s.assigned) (t' := s.assigned) ⟨fun _ => rfl, fun _ => rfl, fun _ => rfl, fun _ => rfl⟩
      have e3 : (withLinkRules c rs).pageBox = c.pageBox := rfl
      have e4 : (withLinkRules c rs).optimise = c.optimise := rfl
      have e5 : (withLinkRules c rs).linkPlacement = c.linkPlacement := rfl
      rw [e3, e4, e5]
      revert hs
      cases assignRenderers c (popStack s.dom s.stack.reverse) (popStack s.dom s.stack.reverse).fuel
          (popStack s.dom s.stack.reverse).roots s.assigned <;>
        cases assignRenderers (withLinkRules c rs) (popStack s.dom s.stack.reverse) (popStack s.dom s.stack.reverse).fuel
          (popStack s.dom s.stack.reverse).roots s.assigned <;> intro hs
      · cases hs; rfl
      · exact hs.elim
      · exact hs.elim
      · rename_i a b
        have hr : ∀ l box, renderNode u (popStack s.dom s.stack.reverse) b (popStack s.dom s.stack.reverse).fuel l box =
            renderNode u (popStack s.dom s.stack.reverse) a (popStack s.dom s.stack.reverse).fuel l box := by
          intro l box
          funext i
          exact (renderNode_same u ⟨hs.renderer, fun i _ => hs.settings i, hs.link, hs.present⟩ _ l box i).symm
        simp only [hr]
        generalize List.mapM (renderNode u (popStack s.dom s.stack.reverse) a (popStack s.dom s.stack.reverse).fuel false c.pageBox) (popStack s.dom s.stack.reverse).roots = x
        cases x with
        | error e => rfl
        | ok x =>
          simp only
          by_cases hp : c.linkPlacement = py"footer" ∧ s.footer ≠ []
          · rw [if_pos hp]
            generalize List.mapM (renderNode u (popStack s.dom s.stack.reverse) a (popStack s.dom s.stack.reverse).fuel true c.pageBox) s.footer = y
            cases y <;> rfl
          · rw [if_neg hp]

/-! ## What does reach the renderers -/

/-- Settings of a class given as the rule for links are in force when the entries are made. -/
theorem C44_partial (u : Uni) (c : Cfg) (es : List Event) (s : PState) (h : Rendered u c es s) (hp : c.linkPlacement ≠ py"inline")
    (cls : RClass) (hr : c.linkRenderers = [tagRule py"a" cls]) (hb : cls.behaviour = .extractedLink) (hw : DictSettings cls)
    (i : Nat) (ht : HasTag s.dom i py"a") :
    ∃ ctx : Ctx, ∀ fuel box,
      entryOf u s (fuel + 1) box i = renderWith u cls (tagInfo s.dom i) ctx box (fun b => linkText u s fuel b i) ∧
      ∀ inst k v, construct cls (tagInfo s.dom i) ctx box = .ok inst → NoRepeat cls k → Inherits cls k (some v) →
        DictOf.get inst.settings k = some v := by
  obtain ⟨n, l, hn, htag, hd, hlk, h1, h2, h3, h4, h5, h6, h7⟩ := link_known h ht (.inl rfl)
  have hrules : c.linkRules = [tagRule py"a" cls, tagRule py"img" .extractedImage] := by rw [Cfg.linkRules, hr]; rfl
  obtain ⟨a1, a2⟩ := link_assigned h hrules ht cls (.inl ⟨rfl, rfl⟩)
  refine ⟨⟨none, some l.ctx, some ⟨l.href, l.title, l.gopherLink⟩⟩, fun fuel box => ⟨?_, ?_⟩⟩
  · exact entry_with hn hd hlk (by rw [placement_a htag, h5]; exact hp) a1 a2
  · intro inst k v hi hk hv
    obtain ⟨w, w1, w2⟩ := C11_partial cls _ _ box inst k hi hw (fun l e => by cases e) hk
      (by rintro (⟨e, -⟩ | ⟨e, -⟩) <;> rw [hb] at e <;> cases e)
    rw [w2, C11_unique cls k w (some v) w1 hv]
    rfl

/-- Settings assigned to a link are in force when it is rendered as a reference. -/
theorem C44_reference (u : Uni) (s : PState) (i : Nat) (n : Node) (l : LinkInfo) (cls : RClass) (st : Dict)
    (hn : s.dom.nodes[i]? = some n) (hd : n.data = none) (hl : n.link = some l) (hp : l.placement n.tag ≠ py"inline")
    (h1 : (assignedTo s.assigned i).renderer = some cls) (h2 : (assignedTo s.assigned i).settings = some st)
    (hw : (st.map Prod.fst).Nodup) :
    ∃ ctx : Ctx, ∀ fuel box,
      textOf u s (fuel + 1) box i = renderWith u cls (tagInfo s.dom i) ctx box (fun b => contents u s fuel b i) ∧
      ∀ inst k v, construct cls (tagInfo s.dom i) ctx box = .ok inst → ¬ (cls.behaviour = .mdHeader ∧ k = py"template") →
        DictOf.get st k = some v → DictOf.get inst.settings k = some v := by
  refine ⟨⟨some st, some l.ctx, none⟩, fun fuel box => ⟨?_, fun inst k v hi hk hv => C11_rules cls _ _ box inst k st v hi rfl hw hv hk⟩⟩
  simp only [textOf, renderNode, hn, hd, hl, Bool.false_or, hp, decide_false, Bool.false_eq_true, if_false]
  rw [renderTag_with u s fuel i n box _ cls hn h1, hl, h2]
  rfl

/-- A rule for the entries of links. -/
def entryRule (spec : RSpec) : Cfg := { linkRenderers := [⟨py"a", one (elt py"a"), spec⟩] }

/-- A rule for links in place. -/
def capitals : Cfg := { renderers := [⟨py"a", one (elt py"a"), .pair (some .link) (some [(py"capitalized", .bool true)])⟩] }

/-- The same, with the links inlined. -/
def inlineCapitals : Cfg := { capitals with linkPlacement := py"inline" }

/-- The limit of a rule is ignored, and so is a setting for an inlined link; a rule with settings only ends the rendering. -/
theorem C44_fails :
    renderEvents asciiUni (entryRule (.pair (some .extractedLink) (some [(py"max_link_description", .int 3)])))
        (linkIn [(py"href", some py"x.txt")] py"0123456789") = .ok py"\n[0123456789][1]\n\n\n[1] 0123456789: x.txt" ∧
    renderEvents asciiUni inlineCapitals
        (linkIn [(py"href", some py"x.txt")] py"abc") = .ok py"\n[abc](x.txt)\n" ∧
    renderEvents asciiUni (entryRule (.pair none (some [(py"max_link_description", .int 3)])))
        (linkIn [(py"href", some py"x.txt")] py"0123456789") = .error .typeError := by decide

/-- The limit of a class is in force, and a setting for a reference. -/
example :
    renderEvents asciiUni (entryRule (.cls (.sub .extractedLink [(py"max_link_description", .int 3)])))
        (linkIn [(py"href", some py"x.txt")] py"0123456789") = .ok py"\n[0123456789][1]\n\n\n[1] 012...: x.txt" ∧
    renderEvents asciiUni capitals
        (linkIn [(py"href", some py"x.txt")] py"abc") = .ok py"\n[ABC][1]\n\n\n[1] abc: x.txt" := by decide

/-- Two tables as in `C44_ignored`. -/
example : SameRules (entryRule (.pair (some .extractedLink) (some [(py"max_link_description", .int 3)]))).linkRenderers
    (entryRule (.pair (some .extractedLink) none)).linkRenderers := .cons ⟨rfl, rfl, .pair _ _ _⟩ .nil

end Verif
