import Verif.Props.NumberStyle
import Verif.Props.Looks
import Verif.Spec.Fields

/-!
# Templates with several fields: C108
-/

namespace Verif

open Spec

theorem plainName_chars {s : Str} (h : PlainName s) :
    ∀ c ∈ s, c ≠ '{' ∧ c ≠ '}' ∧ c ≠ '[' ∧ c ≠ '.' ∧ c ≠ ':' ∧ c ≠ '!' ∧ c.isDigit = false := by
  intro c hc
  have ne : ∀ d : Char, d.isAlpha = false → d ≠ '_' → c ≠ d := by
    intro d h1 h2 e
    subst e
    rcases h.2 c hc with h3 | h3
    · rw [h1] at h3; cases h3
    · exact h2 h3
  refine ⟨ne _ (by decide) (by decide), ne _ (by decide) (by decide), ne _ (by decide) (by decide), ne _ (by decide) (by decide),
    ne _ (by decide) (by decide), ne _ (by decide) (by decide), ?_⟩
  rcases h.2 c hc with h3 | h3
  · cases hd : c.isDigit with
    | false => rfl
    | true =>
      simp only [Char.isAlpha, Char.isUpper, Char.isLower, Char.isDigit, Bool.or_eq_true, decide_eq_true_eq,
        Bool.and_eq_true] at h3 hd
      have e1 := hd.1; have e2 := hd.2
      simp only [ge_iff_le, UInt32.le_iff_toNat_le] at e1 e2 h3
      rcases h3 with ⟨h3, -⟩ | ⟨h3, -⟩ <;> (revert e2 h3; simp; omega)
  · subst h3; decide

/-- The ways to name a value, there or not. -/
inductive ValueName : Str → Prop where
  | arg (k : Nat) : k < 2 ^ 63 → ValueName (natStr k)
  | key (s : Str) : PlainName s → ValueName s

theorem named_name {args : List Arg} {kw : List (Str × Arg)} {n : Str} {a : Arg} (h : Named args kw n a) : ValueName n := by
  cases h with
  | arg hk _ => exact .arg _ hk
  | key hs _ => exact .key _ hs

theorem valueName_chars {n : Str} (h : ValueName n) : n ≠ [] ∧ ∀ c ∈ n, c ≠ '{' ∧ c ≠ '}' ∧ c ≠ '[' ∧ c ≠ '.' ∧ c ≠ ':' ∧ c ≠ '!' := by
  cases h with
  | arg k _ =>
    refine ⟨natStr_ne_nil k, fun c hc => ?_⟩
    have hd := natStr_isDigit k c hc
    refine ⟨?_, ?_, ?_, ?_, ?_, ?_⟩ <;> (rintro rfl; revert hd; decide)
  | key s hs =>
    refine ⟨hs.1, fun c hc => ?_⟩
    obtain ⟨h1, h2, h3, h4, h5, h6, -⟩ := plainName_chars hs c hc
    exact ⟨h1, h2, h3, h4, h5, h6⟩

theorem natStr_small {k : Nat} (hk : k < 2 ^ 63) : tooBig (natStr k) = false := by
  have := takeWhile_natStr k [] (by simp)
  rw [List.append_nil] at this
  rw [tooBig, this, decimalVal_natStr, ssizeMax]
  simp only [decide_eq_false_iff_not]
  omega

theorem plainName_digits {s : Str} (h : PlainName s) : tooBig s = false ∧ s.all Char.isDigit = false := by
  obtain ⟨c, t, rfl⟩ := List.exists_cons_of_ne_nil h.1
  have hd := (plainName_chars h c (by simp)).2.2.2.2.2.2
  constructor
  · simp [tooBig, hd, decimalVal]
  · simp [hd]

/-- The fields so far had names or numbers. -/
def Manual (m : Numbering) : Prop := ∀ k, m ≠ .auto k

theorem posArg_manual {args : List Arg} {m : Numbering} (hm : Manual m) (k : Nat) :
    posArg args m k = match args[k]? with | none => .error .indexError | some a => .ok (a, .manual) := by
  cases m with
  | auto j => exact absurd rfl (hm j)
  | _ => rfl

theorem fieldArg_named {args : List Arg} {kw : List (Str × Arg)} {n : Str} {a : Arg} (h : Named args kw n a) {m : Numbering} (hm : Manual m) :
    ∃ m', Manual m' ∧ fieldArg args kw m n = .ok (a, m') := by
  cases h with
  | @arg k _ hk ha =>
    refine ⟨.manual, by intro k; simp, ?_⟩
    have hall : (natStr k).all Char.isDigit = true := List.all_eq_true.2 (natStr_isDigit k)
    rw [fieldArg, if_neg (natStr_ne_nil k), natStr_small hk, hall]
    simp only [Bool.false_eq_true, if_false, if_true, posArg_manual hm, decimalVal_natStr, ha]
  | @key s _ hs ha =>
    refine ⟨m, hm, ?_⟩
    obtain ⟨h1, h2⟩ := plainName_digits hs
    rw [fieldArg, if_neg hs.1, h1, h2]
    simp [nameArg, ha]

theorem fieldPiece_named {n : Str} (h : ValueName n) (args : List Arg) (kw : List (Str × Arg)) (m : Numbering) (ps : List Piece) :
    evalPieces args kw m (fieldPiece n :: ps) =
      match fieldArg args kw m n with
      | .ok (a, m) => (evalPieces args kw m ps).map (a.show ++ ·)
      | .error e => .error e := by
  have hc := valueName_chars h
  have hdot : n.any (fun c => c == '.' || c == '[') = false := by
    rw [List.any_eq_false]
    intro c hm
    obtain ⟨-, -, h3, h4, -⟩ := hc.2 c hm
    simp [h3, h4]
  cases h with
  | arg k hk =>
    have hall : (natStr k).all Char.isDigit = true := List.all_eq_true.2 (natStr_isDigit k)
    rw [fieldPiece, fieldArg, if_neg (natStr_ne_nil k), if_neg (natStr_ne_nil k), natStr_small hk, hall]
    simp only [Bool.false_eq_true, if_false, if_true, evalPieces]
    rfl
  | key s hs =>
    obtain ⟨h1, h2⟩ := plainName_digits hs
    rw [fieldPiece, fieldArg, if_neg hs.1, if_neg hs.1, h1, h2, hdot]
    simp only [Bool.false_eq_true, if_false, evalPieces]
    rfl

theorem parse_plainField {n : Str} (h : ValueName n) (r : Str) :
    parseTemplate none (py"{" ++ n ++ py"}" ++ r) = fieldPiece n :: parseTemplate none r := by
  obtain ⟨hne, hc⟩ := valueName_chars h
  obtain ⟨c, t, rfl⟩ := List.exists_cons_of_ne_nil hne
  have h2 : parseTemplate none (py"{" ++ (c :: t) ++ py"}" ++ r) = parseTemplate (some (.name [])) ((c :: t) ++ '}' :: r) := by
    have e : py"{" ++ (c :: t) ++ py"}" ++ r = '{' :: c :: (t ++ '}' :: r) := by simp
    rw [e, parseTemplate.eq_def]
    split
    · simp at *
    · simp at *
    · rename_i e; cases e; exact absurd rfl (hc '{' (by simp)).1
    · rename_i e; cases e
    · rename_i e; cases e; rw [if_pos rfl]; rfl
    all_goals simp at *
  rw [h2, parse_name [] (c :: t) r (fun x hx => by
    obtain ⟨a0, a1, a2, a3, a4, a5⟩ := hc x hx
    exact ⟨a1, a0, a2, a4, a5⟩), List.nil_append]

/-- Specifications that suit a value. -/
theorem suits_shown {a : Arg} {spec : Str} (h : Suits a spec) :
    (∃ y, formatArg a spec = .ok y ∧ ShownIn a spec y) ∧ ∀ c ∈ spec, c ≠ '{' ∧ c ≠ '}' := by
  cases h with
  | @text l x _ hw hs =>
    obtain ⟨y, h1, h2⟩ := formatArg_text hw hs x
    exact ⟨⟨y, h1, .text hw hs h2⟩, layout_chars hw hs⟩
  | @number l n _ hw hc hs =>
    obtain ⟨y, h1, h2⟩ := formatArg_number hw hc hs n
    exact ⟨⟨y, h1, .number hw hc hs h2⟩, layout_chars hw hs⟩
  | @style st n _ hw hs =>
    obtain ⟨⟨f, hf, ha⟩, hne, hc⟩ := style_read hw hs
    obtain ⟨y, h1, h2⟩ := formatInt_style ha n
    exact ⟨⟨y, by simp [formatArg, hne, hf, bind, Except.bind, h1], .style hw hs h2⟩, hc⟩

/-- One part of a template. -/
theorem part_step {args : List Arg} {kw : List (Str × Arg)} {p : Part} (h : p.Fits args kw) {m : Numbering} (hm : Manual m) :
    ∃ x m', Manual m' ∧ p.Shows args kw x ∧ ∀ rest, evalPieces args kw m (parseTemplate none (p.write ++ rest)) =
      (evalPieces args kw m' (parseTemplate none rest)).map (x ++ ·) := by
  cases p with
  | text s =>
    refine ⟨s, m, hm, rfl, fun rest => ?_⟩
    rw [Part.write, parse_escape, eval_lits]
  | plain n =>
    obtain ⟨a, ha⟩ := h
    obtain ⟨m', hm', e⟩ := fieldArg_named ha hm
    refine ⟨a.show, m', hm', ⟨a, ha, rfl⟩, fun rest => ?_⟩
    rw [Part.write, parse_plainField (named_name ha), fieldPiece_named (named_name ha), e]
  | laid n spec =>
    obtain ⟨a, ha, hs⟩ := h
    obtain ⟨⟨y, hy, hy'⟩, hc⟩ := suits_shown hs
    obtain ⟨m', hm', e⟩ := fieldArg_named ha hm
    have hn := (valueName_chars (named_name ha)).2
    refine ⟨y, m', hm', ⟨a, ha, hy'⟩, fun rest => ?_⟩
    rw [Part.write, parse_layout hc n rest (fun c hm => by
      obtain ⟨a0, a1, a2, a3, a4, a5⟩ := hn c hm
      exact ⟨a0, a1, a2, a4, a5⟩)]
    simp only [evalPieces]
    rw [evalField_first _ hc _ _ _ m' n (fun c hm => by
      obtain ⟨a0, a1, a2, a3, a4, a5⟩ := hn c hm
      exact ⟨a3, a2⟩) a e y hy]

theorem parts_steps {args : List Arg} {kw : List (Str × Arg)} (ps : List Part) (h : ∀ p ∈ ps, p.Fits args kw) : ∀ {m : Numbering}, Manual m →
    ∃ y m', Manual m' ∧ Filled args kw ps y ∧ ∀ rest, evalPieces args kw m (parseTemplate none (writeParts ps ++ rest)) =
      (evalPieces args kw m' (parseTemplate none rest)).map (y ++ ·) := by
  induction ps with
  | nil =>
    intro m hm
    refine ⟨[], m, hm, .nil, fun rest => ?_⟩
    have e : writeParts [] ++ rest = rest := rfl
    rw [e]
    cases evalPieces args kw m (parseTemplate none rest) <;> rfl
  | cons p ps ih =>
    intro m hm
    obtain ⟨x, m1, hm1, hx, h1⟩ := part_step (h p (by simp)) hm
    obtain ⟨y, m2, hm2, hy, h2⟩ := ih (fun q hq => h q (List.mem_cons_of_mem _ hq)) hm1
    refine ⟨x ++ y, m2, hm2, .cons hx hy, fun rest => ?_⟩
    have e : writeParts (p :: ps) ++ rest = p.write ++ (writeParts ps ++ rest) := by simp [writeParts]
    rw [e, h1, h2]
    cases evalPieces args kw m2 (parseTemplate none rest) <;> simp [Except.map]

/-- A template with any number of fields: every field shows its value in the way it asks for, the text between them stays as it is. -/
theorem C108 (args : List Arg) (kw : List (Str × Arg)) (ps : List Part) (h : ∀ p ∈ ps, p.Fits args kw) :
    ∃ y, pyFormat (writeParts ps) args kw = .ok y ∧ Filled args kw ps y := by
  obtain ⟨y, m', _, hy, h1⟩ := parts_steps ps h (m := .unset) (by intro k; simp)
  have := h1 []
  rw [List.append_nil] at this
  exact ⟨y, by rw [pyFormat, this]; simp [parseTemplate, evalPieces, Except.map], hy⟩

/-- The first field that cannot be filled decides the error: a name that is not there, a number that is too large, or a format specification for
a value that is missing. What comes after it does not matter. -/
theorem C108_error (args : List Arg) (kw : List (Str × Arg)) (ps : List Part) (h : ∀ p ∈ ps, p.Fits args kw) (n rest : Str) :
    (PlainName n → kw.lookup n = none → pyFormat (writeParts ps ++ (py"{" ++ n ++ py"}" ++ rest)) args kw = .error .keyError) ∧
    (∀ k < 2 ^ 63, args.length ≤ k → pyFormat (writeParts ps ++ (py"{" ++ natStr k ++ py"}" ++ rest)) args kw = .error .indexError) ∧
    (Named args kw n .none → ∀ spec, spec ≠ [] → (∀ c ∈ spec, c ≠ '{' ∧ c ≠ '}') →
      pyFormat (writeParts ps ++ (fieldOf n spec ++ rest)) args kw = .error .typeError) := by
  obtain ⟨y, m, hm, -, h1⟩ := parts_steps ps h (m := .unset) (by intro k; simp)
  refine ⟨fun hn hk => ?_, fun k hk hl => ?_, fun ha spec hne hc => ?_⟩
  · obtain ⟨e1, e2⟩ := plainName_digits hn
    rw [pyFormat, h1, parse_plainField (.key n hn), fieldPiece_named (.key n hn), fieldArg, if_neg hn.1, e1, e2]
    simp [nameArg, hk, Except.map]
  · have hall : (natStr k).all Char.isDigit = true := List.all_eq_true.2 (natStr_isDigit k)
    rw [pyFormat, h1, parse_plainField (.arg k hk), fieldPiece_named (.arg k hk), fieldArg, if_neg (natStr_ne_nil k), natStr_small hk, hall]
    simp only [Bool.false_eq_true, if_false, if_true, posArg_manual hm, decimalVal_natStr, List.getElem?_eq_none hl]
    rfl
  · obtain ⟨m', -, e⟩ := fieldArg_named ha hm
    have hn := (valueName_chars (named_name ha)).2
    rw [pyFormat, h1, parse_layout hc n rest (fun c hm => by
      obtain ⟨a0, a1, a2, a3, a4, a5⟩ := hn c hm
      exact ⟨a0, a1, a2, a4, a5⟩)]
    have ht : n.takeWhile (fun c => c != '.' && c != '[') = n := by
      have := List.takeWhile_append_of_pos (p := fun c => c != '.' && c != '[') (l₂ := []) (fun c hc => by
        obtain ⟨a0, a1, a2, a3, a4, a5⟩ := hn c hc
        simp [a2, a3] : ∀ c ∈ n, _)
      simpa using this
    have hf : ∀ inner, evalField inner args kw m n none spec = .error .typeError := by
      intro inner
      simp only [evalField, ht, e, bind, Except.bind, List.drop_length, parseAccess, access, convert, no_fields hc, Bool.false_eq_true, if_false,
        formatArg, hne]
    simp only [evalPieces, hf]
    rfl

/-! ## Links -/

/-- Links that are listed elsewhere: their content and their number in the template for references, in whatever way it asks for them. -/
theorem C108_reference (u : Uni) (c : RClass) (t : TagInfo) (ctx : Ctx) (box : Box) (inst : Inst) (l : LinkCtx) (before after x : Str)
    (capitals : Bool) (hc : c.behaviour = .link) (h : construct c t ctx box = .ok inst) (hl : ctx.link = some l)
    (h1 : DictOf.get inst.settings py"template" = some (.str (escape before ++ py"{}" ++ escape after)))
    (h2 : DictOf.get inst.settings py"capitalized" = some (.bool capitals)) (hp : l.linkPlacement ≠ py"inline") (ps : List Part) (d : List (Str × List Str))
    (ts : List Str) (h3 : DictOf.get inst.settings py"templates" = some (.strDict d)) (h4 : DictOf.get d py"reference" = some (writeParts ps :: ts))
    (hf : ∀ p ∈ ps, p.Fits [] [(py"content", .str (linkInner u capitals before after x)), (py"link_reference", .int l.linkReference)]) :
    ∃ y, inst.render u x = .ok y ∧
      Filled [] [(py"content", .str (linkInner u capitals before after x)), (py"link_reference", .int l.linkReference)] ps y := by
  obtain ⟨e1, e2, e3, -⟩ := inline_box h (by rw [hc]; rfl)
  have hk := link_content (u := u) h1 h2 x
  obtain ⟨z, hi, hcap⟩ : ∃ y, inlineRender u inst.settings x = .ok y ∧
      capIf u inst.settings y = .ok (linkInner u capitals before after x) := by
    cases hi : inlineRender u inst.settings x with
    | error e => rw [hi] at hk; cases hk
    | ok y => rw [hi] at hk; exact ⟨y, rfl, hk⟩
  obtain ⟨y, hy, hy'⟩ := C108 [] _ ps hf
  refine ⟨y, ?_, hy'⟩
  have ht : namedTemplate inst.settings py"reference" 0 = .ok (writeParts ps) := by
    simp [namedTemplate, getA, h3, h4, bind, Except.bind, strAt]
  simp only [Inst.render, e1, e2, hc, linkRender, e3, ctxLink, hl, bind, Except.bind, hi, hcap, if_neg hp, ht, hy]

/-- Entries on a gophermap, in whatever way the template asks for the values. A host or a port that is missing cannot have a format
specification. -/
theorem C108_gophermap (u : Uni) (c : RClass) (t : TagInfo) (ctx : Ctx) (box b : Box) (inst : Inst) (l : LinkCtx) (tgt : Target)
    (limit : Nat) (ps : List Part) (x : Str) (hc : c.behaviour = .extractedLink) (h : construct c t ctx box = .ok inst) (hl : ctx.link = some l)
    (hg : ctx.target = some tgt) (hf : l.outputFormat = py"gophermap")
    (h1 : DictOf.get inst.settings py"max_link_description" = some (.int limit))
    (h2 : DictOf.get inst.settings py"gophermap_template" = some (.str (writeParts ps))) :
    let kw : List (Str × Arg) := [(py"description", .str (tgt.title.getD (cutText limit x))), (py"link_reference", .int l.linkReference),
      (py"selector", .str tgt.gopherLink.selector), (py"type", .str tgt.gopherLink.type), (py"host", .opt tgt.gopherLink.host),
      (py"port", .optInt tgt.gopherLink.port)]
    (∀ p ∈ ps, p.Fits [] kw) → ∃ y, innerRender u inst b x = .ok y ∧ Filled [] kw ps y := by
  obtain ⟨-, e1, -, e3, -⟩ := construct_settings h
  intro kw hfit
  obtain ⟨y, hy, hy'⟩ := C108 [] kw ps hfit
  refine ⟨y, ?_, hy'⟩
  simp only [innerRender, e1, hc, extractedLinkInner, e3, ctxLink, ctxTarget, hl, hg, hf, getA, h1, h2, asInt, asStr, bind,
    Except.bind, if_true, trim_cut, gophermapArgs]
  rw [← hy]
  unfold kw
  cases tgt.title <;> rfl

/-- Two fields with specifications, text with braces between them. -/
def referenceParts : List Part := [.text py"{", .laid py"content" py"_<5", .text py"} ", .laid py"link_reference" py"#04x"]

example : writeParts referenceParts = py"{{{content:_<5}}} {link_reference:#04x}" ∧
    pyFormat (writeParts referenceParts) [] [(py"content", .str py"abc"), (py"link_reference", .int 10)] = .ok py"{abc__} 0x0a" := by decide +kernel
example : ∀ p ∈ referenceParts, p.Fits [] [(py"content", .str py"abc"), (py"link_reference", .int 10)] := by
  intro p hp
  simp only [referenceParts, List.mem_cons, List.not_mem_nil, or_false] at hp
  have h1 : PlainName py"content" := ⟨by decide, by decide⟩
  have h2 : PlainName py"link_reference" := ⟨by decide, by decide⟩
  rcases hp with rfl | rfl | rfl | rfl
  · trivial
  · exact ⟨_, .key h1 rfl, .text (l := ⟨'_', .left, 5, none⟩) ⟨by decide, by decide, by simp⟩ .full⟩
  · trivial
  · exact ⟨_, .key h2 rfl, .style (st := ⟨'0', .inside, .nothing, true, 4, none, .hex⟩) ⟨by decide, by decide, by simp⟩
      (.zeros (sg := none) (t := py"x") rfl rfl .nothing (.char .hex))⟩
/-- A port that is missing. -/
example : pyFormat py"{host:>8} {port:>5}" [] [(py"host", .str py"h"), (py"port", .none)] = .error .typeError ∧
    pyFormat py"{host:>8} {port}" [] [(py"host", .str py"h"), (py"port", .none)] = .ok py"       h None" := by decide +kernel

end Verif
