import Verif.Proofs.CssPieces

/-!
# The trees of a whole selector
-/

namespace Verif
open Verif.Spec

theorem skip_gap (g : CssGap) {ts : List CssTok} (h : ts.head? ≠ some .space) : skipSpace (gapToks g ++ ts) = ts := by
  rw [gapToks]
  split
  · rw [List.nil_append]
    unfold skipSpace
    split
    · exact absurd rfl h
    · rfl
  · rfl

theorem skip_none {ts : List CssTok} (h : ts.head? ≠ some .space) : skipSpace ts = ts := by
  unfold skipSpace
  split
  · exact absurd rfl h
  · rfl

theorem arg_not_space (a : CssArg) (l : List CssTok) : (CssArg.toks a ++ l).head? ≠ some .space := by
  cases a with
  | value v => cases v <;> simp [CssArg.toks, CssValue.toks]
  | _ => simp [CssArg.toks]

theorem args_not_space (l : List (CssArg × CssGap)) (rest : List CssTok) : (argsToks l ++ .delim ')' :: rest).head? ≠ some .space := by
  cases l with
  | nil => simp [argsToks]
  | cons x l =>
    simp only [argsToks, List.flatMap_cons, List.append_assoc]
    exact arg_not_space _ _

theorem arguments_gap (g : CssGap) {ts : List CssTok} (h : ts.head? ≠ some .space) : cssArguments false (gapToks g ++ ts) = cssArguments false ts := by
  have key : cssArguments true ts = cssArguments false ts := by
    match ts, h with
    | [], _ => rfl
    | .space :: _, h => exact absurd rfl h
    | .ident _ :: _, _ => rfl
    | .string _ :: _, _ => rfl
    | .number _ :: _, _ => rfl
    | .delim _ :: _, _ => rfl
    | .hash _ :: _, _ => rfl
  rw [gapToks]
  split
  · rfl
  · rw [List.cons_append, List.nil_append]
    show cssArguments true ts = _
    exact key

theorem arguments_ok (l : List (CssArg × CssGap)) (rest : List CssTok) :
    cssArguments false (argsToks l ++ .delim ')' :: rest) = .ok (l.map (fun x => x.1.meaning), rest) := by
  induction l with
  | nil => simp [argsToks, cssArguments]
  | cons x l ih =>
    obtain ⟨a, g⟩ := x
    have e : argsToks ((a, g) :: l) ++ .delim ')' :: rest = CssArg.toks a ++ (gapToks g ++ (argsToks l ++ .delim ')' :: rest)) := by
      simp [argsToks]
    have hg := arguments_gap g (args_not_space l rest)
    rw [e]
    cases a with
    | value v => cases v <;> simp [CssArg.toks, CssValue.toks, cssArguments, hg, ih, Except.map, CssArg.meaning, CssValue.value]
    | _ => simp [CssArg.toks, cssArguments, hg, ih, Except.map, CssArg.meaning]

theorem attrTail_ok (sel : Sel) (n : Str) (op : AttrOp) (g3 : CssGap) (v : CssValue) (g4 : CssGap) (rest : List CssTok) :
    attrTail sel n op (gapToks g3 ++ (CssValue.toks v ++ (gapToks g4 ++ .delim ']' :: rest))) =
      .ok (.attrib sel n op v.value, rest) := by
  have h : (CssValue.toks v ++ (gapToks g4 ++ .delim ']' :: rest)).head? ≠ some .space := by
    cases v <;> simp [CssValue.toks]
  have hg := skip_gap g4 (ts := .delim ']' :: rest) (by simp)
  rw [attrTail, skip_gap g3 h]
  cases v <;>
    simp [CssValue.toks, CssValue.value, bind, Except.bind, pure, Except.pure, hg]

theorem attrib_ok (sel : Sel) (g1 : CssGap) (n : Str) (g2 : CssGap) (op : AttrOp) (h : op ≠ .exists) (g3 : CssGap) (v : CssValue) (g4 : CssGap)
    (rest : List CssTok) :
    cssAttrib sel (gapToks g1 ++ .ident n :: (gapToks g2 ++ (opToks op ++ (gapToks g3 ++ (CssValue.toks v ++
      (gapToks g4 ++ .delim ']' :: rest)))))) = .ok (.attrib sel n op v.value, rest) := by
  have ht := attrTail_ok sel n op g3 v g4 rest
  have ho : attrOperator sel n (gapToks g2 ++ (opToks op ++ (gapToks g3 ++ (CssValue.toks v ++ (gapToks g4 ++ .delim ']' :: rest))))) =
      .ok (.attrib sel n op v.value, rest) := by
    have hs : (opToks op ++ (gapToks g3 ++ (CssValue.toks v ++ (gapToks g4 ++ .delim ']' :: rest)))).head? ≠ some .space := by
      cases op <;> first | exact absurd rfl h | simp [opToks, opSrc]
    rw [attrOperator, skip_gap g2 hs]
    cases op <;> first | exact absurd rfl h | (simp only [opToks, opSrc, List.map_cons, List.map_nil, List.cons_append, List.nil_append]; exact ht)
  rw [cssAttrib, skip_gap g1 (by simp)]
  simp only [nextIdentOrStar, bind, Except.bind]
  rw [gapToks] at ho ⊢
  split at ho
  · rename_i hg
    simp only [hg, if_true, List.nil_append] at ho ⊢
    cases op with
    | «exists» => exact absurd rfl h
    | dash => simp only [opToks, opSrc, List.map_cons, List.map_nil, List.cons_append, List.nil_append]; exact ht
    | _ => exact ho
  · rename_i hg
    simp only [hg, if_false, List.cons_append, List.nil_append] at ho ⊢
    exact ho

theorem present_ok (sel : Sel) (g1 : CssGap) (n : Str) (g2 : CssGap) (rest : List CssTok) :
    cssAttrib sel (gapToks g1 ++ .ident n :: (gapToks g2 ++ .delim ']' :: rest)) = .ok (.attrib sel n .exists [], rest) := by
  have ho : attrOperator sel n (gapToks g2 ++ .delim ']' :: rest) = .ok (.attrib sel n .exists [], rest) := by
    rw [attrOperator, skip_gap g2 (by simp)]
    rfl
  rw [cssAttrib, skip_gap g1 (by simp)]
  simp only [nextIdentOrStar, bind, Except.bind]
  rw [gapToks] at ho ⊢
  split at ho
  · rename_i hg
    simp only [hg, if_true, List.nil_append] at ho ⊢
    exact ho
  · rename_i hg
    simp only [hg, if_false, List.cons_append, List.nil_append] at ho ⊢
    exact ho

/-- What follows is no argument list. -/
def NoParen (ts : List CssTok) : Prop := ts.head? ≠ some (.delim '(')

theorem pseudoName_facts {n : Str} (h : PseudoName n) :
    specialPseudo.contains (asciiLower n) = false ∧ asciiLower n ≠ py"not" ∧ asciiLower n ≠ py"scope" := by
  simp only [PseudoName, List.mem_cons, not_or, List.not_mem_nil, not_false_eq_true, and_true] at h
  obtain ⟨h1, h2, h3, h4, h5, h6, h7⟩ := h
  refine ⟨?_, h6, h7⟩
  rw [← Bool.not_eq_true]
  simp only [List.contains_iff_mem]
  simp only [specialPseudo, asciiLower, List.mem_cons, not_or, List.not_mem_nil, not_false_eq_true, and_true]
  exact ⟨h1, h2, h3, h4, h5⟩

/-- One turn of the loop reads one part. -/
theorem loop_part (all : List CssTok) (f : Nat) (inside : Bool) (sel : Sel) (ns : Bool) {p : CssPart} (h : p.Ok)
    {rest : List CssTok} (hr : NoParen rest) :
    cssLoop all (f + 1) inside sel ns false (CssPart.toks p ++ rest) = cssLoop all f inside (p.add sel) ns false rest := by
  cases p with
  | cls n => simp [cssLoop, CssPart.toks, nextIdent, bind, Except.bind, CssPart.add]
  | id n => simp [cssLoop, CssPart.toks, CssPart.add]
  | present g1 n g2 => simp [cssLoop, CssPart.toks, bind, Except.bind, CssPart.add, present_ok]
  | attr g1 n g2 op g3 v g4 =>
    have := attrib_ok sel g1 (wordValue n) g2 op h.2.2.2.1 g3 v g4 rest
    simp [cssLoop, CssPart.toks, bind, Except.bind, CssPart.add, this]
  | pseudo n =>
    obtain ⟨h1, h2, h3⟩ := pseudoName_facts h.2
    simp only [CssPart.toks, List.cons_append, List.nil_append, CssPart.add]
    rw [cssLoop.eq_def]
    simp only [nextIdent, bind, Except.bind, h1, h3]
    cases rest with
    | nil => simp [asciiLower]
    | cons t r =>
      have ht : t ≠ .delim '(' := by rintro rfl; exact hr rfl
      simp
      split
      · rename_i e; cases e; exact absurd rfl ht
      · rfl
  | func n g args =>
    obtain ⟨h1, h2, h3⟩ := pseudoName_facts h.2.1
    have ha := arguments_ok args rest
    have hs := skip_gap g (args_not_space args rest)
    simp only [CssPart.toks, List.cons_append, List.nil_append, List.append_assoc, CssPart.add]
    rw [cssLoop.eq_def]
    simp [nextIdent, bind, Except.bind, hs, ha, asciiLower]
    simp [asciiLower] at h1 h2
    simp [h1, h2]

/-- Where a compound selector ends. -/
def StopAt (inside : Bool) (ts : List CssTok) : Prop :=
  ts = [] ∨ (∃ r, ts = .space :: r) ∨
    ∃ c r, ts = .delim c :: r ∧ (c = ',' ∨ c = '+' ∨ c = '>' ∨ c = '~' ∨ (inside = true ∧ c = ')'))

theorem loop_stop (all : List CssTok) (f : Nat) (inside : Bool) (sel : Sel) (ns pe : Bool) {ts : List CssTok} (h : StopAt inside ts) :
    cssLoop all (f + 1) inside sel ns pe ts = .ok (sel, pe, ts) := by
  rw [cssLoop.eq_def]
  rcases h with rfl | ⟨r, rfl⟩ | ⟨c, r, rfl, h⟩
  · rfl
  · rfl
  · simp only [if_pos h]

theorem stop_noParen {b : Bool} {ts : List CssTok} (h : StopAt b ts) : NoParen ts := by
  rcases h with rfl | ⟨r, rfl⟩ | ⟨c, r, rfl, h⟩
  · simp [NoParen]
  · simp [NoParen]
  · simp only [NoParen, List.head?_cons, ne_eq, Option.some.injEq, CssTok.delim.injEq]
    rintro rfl
    revert h; simp

/-- The tokens that begin a part. -/
def PartStart (t : CssTok) : Prop := (∃ v, t = .hash v) ∨ t = .delim '.' ∨ t = .delim '[' ∨ t = .delim ':'

theorem part_start (p : CssPart) : ∃ t r, CssPart.toks p = t :: r ∧ PartStart t := by
  cases p with
  | cls n => exact ⟨_, _, rfl, .inr (.inl rfl)⟩
  | id n => exact ⟨_, _, rfl, .inl ⟨_, rfl⟩⟩
  | present g1 n g2 => exact ⟨_, _, rfl, .inr (.inr (.inl rfl))⟩
  | attr g1 n g2 op g3 v g4 => exact ⟨_, _, rfl, .inr (.inr (.inl rfl))⟩
  | pseudo n => exact ⟨_, _, rfl, .inr (.inr (.inr rfl))⟩
  | func n g args => exact ⟨_, _, rfl, .inr (.inr (.inr rfl))⟩

theorem partStart_noParen {t : CssTok} {r : List CssTok} (h : PartStart t) : NoParen (t :: r) := by
  rcases h with ⟨v, rfl⟩ | rfl | rfl | rfl <;> simp [NoParen]

theorem parts_noParen (ps : List CssPart) {rest : List CssTok} (hr : NoParen rest) : NoParen (ps.flatMap CssPart.toks ++ rest) := by
  cases ps with
  | nil => exact hr
  | cons p ps =>
    obtain ⟨t, r, e, ht⟩ := part_start p
    rw [List.flatMap_cons, e]
    exact partStart_noParen ht

theorem loop_parts (all : List CssTok) (inside ns : Bool) {rest : List CssTok} (hr : NoParen rest) : ∀ (ps : List CssPart) (f : Nat)
    (sel : Sel), (∀ p ∈ ps, p.Ok) →
    cssLoop all (f + ps.length) inside sel ns false (ps.flatMap CssPart.toks ++ rest) =
      cssLoop all f inside (ps.foldl CssPart.add sel) ns false rest
  | [], f, sel, _ => rfl
  | p :: ps, f, sel, h => by
    rw [List.flatMap_cons, List.append_assoc, List.length_cons, ← Nat.add_assoc,
      loop_part all _ inside sel ns (h p (by simp)) (parts_noParen ps hr),
      loop_parts all inside ns hr ps f _ (fun q hq => h q (by simp [hq]))]
    rfl

theorem element_ok (e : CssElem) {rest : List CssTok} (hb : rest.head? ≠ some (.delim '|'))
    (hn : e = .nothing → ∀ t, rest.head? = some t → (∀ v, t ≠ .ident v) ∧ t ≠ .delim '*') :
    cssElement (CssElem.toks e ++ rest) = .ok (e.tree, false, rest) := by
  cases e with
  | nothing =>
    simp only [CssElem.toks, List.nil_append, CssElem.tree]
    cases rest with
    | nil => rfl
    | cons t r =>
      obtain ⟨h1, h2⟩ := hn rfl t rfl
      unfold cssElement
      split
      · rename_i h; cases h; exact absurd rfl (h1 _)
      · rename_i h; cases h; exact absurd rfl h2
      · rename_i h; cases h; exact absurd rfl (h1 _)
      · rename_i h; cases h; exact absurd rfl h2
      · rfl
  | star =>
    simp only [CssElem.toks, List.cons_append, List.nil_append, CssElem.tree]
    unfold cssElement
    split
    · rename_i h; cases h
    · rename_i h; cases h; exact absurd rfl hb
    · rename_i h; cases h
    · rename_i h; cases h; rfl
    · rename_i h1 h2; exact absurd rfl (h2 _)
  | name n =>
    simp only [CssElem.toks, List.cons_append, List.nil_append, CssElem.tree]
    unfold cssElement
    split
    · rename_i h; cases h; exact absurd rfl hb
    · rename_i h; cases h
    · rename_i h; cases h; rfl
    · rename_i h; cases h
    · rename_i h1 h2; exact absurd rfl (h1 _ _)

theorem parts_length (ps : List CssPart) : ps.length ≤ (ps.flatMap CssPart.toks).length := by
  induction ps with
  | nil => simp
  | cons p ps ih =>
    obtain ⟨t, r, e, -⟩ := part_start p
    rw [List.flatMap_cons, e]
    simp only [List.length_cons, List.length_append]
    omega

theorem partStart_facts {t : CssTok} (h : PartStart t) : (∀ v, t ≠ .ident v) ∧ t ≠ .delim '*' ∧ t ≠ .delim '|' ∧ t ≠ .space := by
  rcases h with ⟨v, rfl⟩ | rfl | rfl | rfl <;> simp

theorem loop_neg (all : List CssTok) (f : Nat) (sel : Sel) (ns : Bool) {n : CssWord} {g : CssGap} {e : CssElem} {ps : List CssPart}
    (h : (CssItem.neg n g e ps).Ok) (rest : List CssTok) :
    cssLoop all (f + ps.length + 2) false sel ns false (CssItem.toks (.neg n g e ps) ++ rest) =
      cssLoop all (f + ps.length + 1) false ((CssItem.neg n g e ps).add sel) ns false rest := by
  obtain ⟨h1, h2, h3, h4, h5, h6⟩ := h
  have hnot : asciiLower (wordValue n) = py"not" := h2
  have hstop : StopAt true (.delim ')' :: rest) := .inr (.inr ⟨_, _, rfl, by simp⟩)
  have hloop : cssLoop all (f + ps.length + 1) true e.tree false false (ps.flatMap CssPart.toks ++ .delim ')' :: rest) =
      .ok (ps.foldl CssPart.add e.tree, false, .delim ')' :: rest) := by
    rw [show f + ps.length + 1 = (f + 1) + ps.length from by omega,
      loop_parts all true false (stop_noParen hstop) ps _ _ h5, loop_stop all f true _ _ _ hstop]
  have hhead : ∀ t, (ps.flatMap CssPart.toks ++ .delim ')' :: rest).head? = some t →
      (e = .nothing → ∀ v, t ≠ .ident v) ∧ t ≠ .delim '*' ∧ t ≠ .delim '|' ∧ t ≠ .space := by
    intro t ht
    cases ps with
    | nil =>
      cases ht
      exact ⟨fun _ => by simp, by simp, by simp, by simp⟩
    | cons p ps =>
      obtain ⟨t', r, e', hp⟩ := part_start p
      rw [List.flatMap_cons, e'] at ht
      cases ht
      obtain ⟨a, b, c, d⟩ := partStart_facts hp
      exact ⟨fun _ => a, b, c, d⟩
  have helem := element_ok e (rest := ps.flatMap CssPart.toks ++ .delim ')' :: rest)
    (fun hb => (hhead _ hb).2.2.1 rfl) (fun he t ht => ⟨(hhead t ht).1 he, (hhead t ht).2.1⟩)
  have hspace : (CssElem.toks e ++ (ps.flatMap CssPart.toks ++ .delim ')' :: rest)).head? ≠ some .space := by
    cases e with
    | nothing => intro hs; exact (hhead _ hs).2.2.2 rfl
    | star => simp [CssElem.toks]
    | name n => simp [CssElem.toks]
  have hlen : ¬ (CssTok.delim ')' :: rest).length = (CssElem.toks e ++ (ps.flatMap CssPart.toks ++ .delim ')' :: rest)).length := by
    simp only [List.length_append, List.length_cons]
    cases e with
    | nothing =>
      have := parts_length ps
      have : 0 < ps.length := List.length_pos_iff.mpr (h6 rfl)
      simp only [CssElem.toks, List.length_nil]
      omega
    | star => simp only [CssElem.toks, List.length_cons]; omega
    | name n => simp only [CssElem.toks, List.length_cons]; omega
  have hspecial : specialPseudo.contains py"not" = false := by decide
  simp only [CssItem.toks, List.cons_append, List.append_assoc, List.nil_append, CssItem.add]
  rw [show f + ps.length + 2 = (f + ps.length + 1) + 1 from rfl, cssLoop.eq_def]
  simp only [nextIdent, bind, Except.bind, hnot, hspecial, skip_gap g hspace, skip_none hspace, helem, hloop, if_neg hlen]
  simp

theorem loop_item (all : List CssTok) (f : Nat) (sel : Sel) (ns : Bool) {i : CssItem} (h : i.Ok) {rest : List CssTok} (hr : NoParen rest)
    {k : Nat} (hf : (CssItem.toks i).length + k ≤ f) :
    ∃ f', k ≤ f' ∧ cssLoop all f false sel ns false (CssItem.toks i ++ rest) = cssLoop all f' false (i.add sel) ns false rest := by
  cases i with
  | part p =>
    obtain ⟨t, r, e, -⟩ := part_start p
    cases f with
    | zero => simp [CssItem.toks, e] at hf
    | succ f =>
      refine ⟨f, ?_, loop_part all f false sel ns h hr⟩
      simp only [CssItem.toks, e, List.length_cons] at hf
      omega
  | neg n g e ps =>
    have hl := parts_length ps
    simp only [CssItem.toks, List.length_cons, List.length_append, List.length_nil] at hf
    obtain ⟨m, rfl⟩ : ∃ m, f = m + ps.length + 2 := ⟨f - ps.length - 2, by omega⟩
    exact ⟨m + ps.length + 1, by omega, loop_neg all m sel ns h rest⟩

theorem item_start (i : CssItem) : ∃ t r, CssItem.toks i = t :: r ∧ PartStart t := by
  cases i with
  | part p => exact part_start p
  | neg n g e ps => exact ⟨_, _, rfl, .inr (.inr (.inr rfl))⟩

theorem items_noParen (l : List CssItem) {rest : List CssTok} (hr : NoParen rest) : NoParen (l.flatMap CssItem.toks ++ rest) := by
  cases l with
  | nil => exact hr
  | cons p ps =>
    obtain ⟨t, r, e, ht⟩ := item_start p
    rw [List.flatMap_cons, e]
    exact partStart_noParen ht

theorem loop_items (all : List CssTok) (ns : Bool) {rest : List CssTok} (hr : NoParen rest) (k : Nat) : ∀ (l : List CssItem) (f : Nat)
    (sel : Sel), (∀ i ∈ l, i.Ok) → (l.flatMap CssItem.toks).length + k ≤ f →
    ∃ f', k ≤ f' ∧ cssLoop all f false sel ns false (l.flatMap CssItem.toks ++ rest) =
      cssLoop all f' false (l.foldl CssItem.add sel) ns false rest
  | [], f, sel, _, hf => ⟨f, by simpa using hf, rfl⟩
  | i :: l, f, sel, h, hf => by
    simp only [List.flatMap_cons, List.length_append] at hf
    obtain ⟨f1, hf1, e1⟩ := loop_item all f sel ns (h i (by simp)) (items_noParen l hr) (k := (l.flatMap CssItem.toks).length + k) (by omega)
    obtain ⟨f2, hf2, e2⟩ := loop_items all ns hr k l f1 (i.add sel) (fun q hq => h q (by simp [hq])) hf1
    refine ⟨f2, hf2, ?_⟩
    rw [List.flatMap_cons, List.append_assoc, e1, e2]
    rfl

/-- A compound selector, perhaps with a pseudo-element. -/
theorem simple_ok (all : List CssTok) {c : CssCompound} (h : c.Ok) (pe : Option CssWord) {rest : List CssTok} (hr : StopAt false rest) :
    cssSimple all (CssCompound.toks c ++ (peToks pe ++ rest)) = .ok (c.tree, pe.isSome, rest) := by
  obtain ⟨h1, h2, h3⟩ := h
  have hp : NoParen (peToks pe ++ rest) := by
    cases pe with
    | none => exact stop_noParen hr
    | some n => simp [peToks, NoParen]
  have hhead : ∀ t, (c.items.flatMap CssItem.toks ++ (peToks pe ++ rest)).head? = some t →
      (c.elem = .nothing → (∀ v, t ≠ .ident v) ∧ t ≠ .delim '*' ∧ t ≠ .space) ∧ t ≠ .delim '|' := by
    intro t ht
    cases hi : c.items with
    | nil =>
      refine ⟨fun he => absurd hi (h3 he), ?_⟩
      rw [hi] at ht
      cases pe with
      | none =>
        simp only [List.flatMap_nil, peToks, List.nil_append] at ht
        rcases hr with rfl | ⟨r, rfl⟩ | ⟨d, r, rfl, hd⟩
        · cases ht
        · cases ht; simp
        · cases ht; rintro e; cases e; revert hd; simp
      | some n => cases ht; simp
    | cons i l =>
      obtain ⟨t', r, e', hp⟩ := item_start i
      rw [hi, List.flatMap_cons, e'] at ht
      cases ht
      obtain ⟨a, b, c, d⟩ := partStart_facts hp
      exact ⟨fun _ => ⟨a, b, d⟩, c⟩
  have helem := element_ok c.elem (rest := c.items.flatMap CssItem.toks ++ (peToks pe ++ rest))
    (fun hb => (hhead _ hb).2 rfl) (fun he t ht => ⟨((hhead t ht).1 he).1, ((hhead t ht).1 he).2.1⟩)
  have hspace : (CssElem.toks c.elem ++ (c.items.flatMap CssItem.toks ++ (peToks pe ++ rest))).head? ≠ some .space := by
    cases he : c.elem with
    | nothing => intro hs; exact ((hhead _ hs).1 he).2.2 rfl
    | star => simp [CssElem.toks]
    | name n => simp [CssElem.toks]
  have hloop : ∀ f, (c.items.flatMap CssItem.toks ++ (peToks pe ++ rest)).length < f →
      cssLoop all f false c.elem.tree false false (c.items.flatMap CssItem.toks ++ (peToks pe ++ rest)) =
        .ok (c.tree, pe.isSome, rest) := by
    intro f hf
    rw [List.length_append] at hf
    obtain ⟨f1, hf1, e1⟩ := loop_items all false hp ((peToks pe ++ rest).length + 1) c.items f c.elem.tree h2 (by omega)
    rw [e1]
    cases pe with
    | none =>
      cases f1 with
      | zero => omega
      | succ f2 => exact loop_stop all f2 false _ _ _ hr
    | some n =>
      simp only [peToks, List.length_append, List.length_cons, List.length_nil] at hf1
      obtain ⟨f2, rfl⟩ : ∃ f2, f1 = f2 + 1 + 1 := ⟨f1 - 2, by omega⟩
      have : ∀ s : Sel, cssLoop all (f2 + 1 + 1) false s false false (peToks (some n) ++ rest) = cssLoop all (f2 + 1) false s false true rest := by
        intro s
        rw [cssLoop.eq_def]
        have hnp := stop_noParen hr
        simp only [peToks, List.cons_append, List.nil_append, nextIdent, bind, Except.bind]
        cases rest with
        | nil => simp
        | cons t r =>
          have ht : t ≠ .delim '(' := by rintro rfl; exact hnp rfl
          simp
          split
          · rename_i e; cases e; exact absurd rfl ht
          · rfl
      rw [this, loop_stop all f2 false _ _ _ hr]
      rfl
  have hlen : ¬ rest.length = (CssElem.toks c.elem ++ (c.items.flatMap CssItem.toks ++ (peToks pe ++ rest))).length := by
    simp only [List.length_append]
    cases he : c.elem with
    | nothing =>
      cases hi : c.items with
      | nil => exact absurd hi (h3 he)
      | cons i l =>
        obtain ⟨t', r, e', hp⟩ := item_start i
        simp only [List.flatMap_cons, e', List.length_append, List.length_cons]
        omega
    | star => simp only [CssElem.toks, List.length_cons]; omega
    | name n => simp only [CssElem.toks, List.length_cons]; omega
  rw [cssSimple, CssCompound.toks, List.append_assoc, skip_none hspace]
  simp only [helem, bind, Except.bind, hloop _ (Nat.lt_succ_self _), if_neg hlen]
  rfl

end Verif
