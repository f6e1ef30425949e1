import Verif.Proofs.CssWords

/-!
# The tokens of a whole selector
-/

namespace Verif
open Verif.Spec

/-- Tokens in front of others. -/
def putToks (ts : List CssTok) (x : Py (List CssTok)) : Py (List CssTok) := x.map (ts ++ ·)

theorem putToks_nil (x : Py (List CssTok)) : putToks [] x = x := by cases x <;> rfl

theorem putToks_put (a b : List CssTok) (x : Py (List CssTok)) : putToks a (putToks b x) = putToks (a ++ b) x := by
  cases x with
  | error e => rfl
  | ok l => simp [putToks, Except.map]

theorem put_ident {n : CssWord} {rest : Str} (h : CssIdent n) (hr : NameEnd rest) :
    lexCss (wordSrc n ++ rest) = putToks [.ident (wordValue n)] (lexCss rest) :=
  lex_ident h hr

theorem put_gap {g : CssGap} {rest : Str} (h : g.Ok) (hr : BlankEnd rest) : lexCss (g.src ++ rest) = putToks (gapToks g) (lexCss rest) :=
  lex_gap h hr

theorem put_hash {n : CssWord} {rest : Str} (hn : n ≠ []) (h : ∀ c ∈ n, c.Ok IdentChar) (he : CodesEnd false n) (hr : NameEnd rest) :
    lexCss ('#' :: (wordSrc n ++ rest)) = putToks [.hash (wordValue n)] (lexCss rest) := lex_hash hn h he hr

theorem put_delim {c : Char} {rest : Str} (hc : c ∈ cssPunct) (h1 : c ≠ '+') (h2 : c ≠ '.') :
    lexCss (c :: rest) = putToks [.delim c] (lexCss rest) :=
  lex_delim hc (fun h => by rcases h with h | h; exact absurd h h1; exact absurd h h2)

/-- Text that begins a compound selector: no white space, no digit, no point before a digit. -/
def CssHead (s : Str) : Prop :=
  ∃ c r, s = c :: r ∧ cssBlank c = false ∧ cssDigit c = false ∧ (c = '.' → ∃ d t, r = d :: t ∧ cssDigit d = false)

theorem cssHead_append {s : Str} (h : CssHead s) (t : Str) : CssHead (s ++ t) := by
  obtain ⟨c, r, rfl, h1, h2, h3⟩ := h
  refine ⟨c, r ++ t, rfl, h1, h2, fun e => ?_⟩
  obtain ⟨d, u, rfl, h4⟩ := h3 e
  exact ⟨d, u ++ t, rfl, h4⟩

theorem cssHead_blank {s : Str} (h : CssHead s) : BlankEnd s := by
  obtain ⟨c, r, rfl, h1, -⟩ := h
  exact blankEnd_cons h1

theorem start_not_digit {c : Char} (h : IdentStart c) : cssDigit c = false ∧ c ≠ '.' := by
  refine ⟨?_, ?_⟩
  · cases hd : cssDigit c with
    | false => rfl
    | true =>
      exfalso
      simp only [cssDigit, Bool.and_eq_true, decide_eq_true_eq] at hd
      have h2 : c.toNat ≤ 57 := by simpa [Char.le_def, UInt32.le_iff_toNat_le] using hd.2
      rcases h with rfl | ⟨h, -⟩ | ⟨h, -⟩ | h
      · simp at h2
      · have : (97 : Nat) ≤ c.toNat := by simpa [Char.le_def, UInt32.le_iff_toNat_le] using h
        omega
      · have : (65 : Nat) ≤ c.toNat := by simpa [Char.le_def, UInt32.le_iff_toNat_le] using h
        omega
      · have : (127 : Nat) < c.toNat := by simpa [Char.lt_def, UInt32.lt_iff_toNat_lt] using h
        omega
  · rintro rfl
    rw [← start_iff] at h
    exact absurd h (by decide)

theorem ident_head {n : CssWord} (h : CssIdent n) : ∃ c r, wordSrc n = c :: r ∧ cssBlank c = false ∧ cssDigit c = false ∧ c ≠ '.' := by
  obtain ⟨⟨d, c, r, rfl, hd, hc, -⟩, -⟩ := h
  rcases hd with rfl | rfl
  · cases c with
    | plain c => exact ⟨c, wordSrc r, rfl, start_not_blank (start_name hc), (start_not_digit hc).1, (start_not_digit hc).2⟩
    | code ds b => exact ⟨_, _, rfl, by decide, by decide, by decide⟩
    | escaped c => exact ⟨_, _, rfl, by decide, by decide, by decide⟩
    | joint nl => exact absurd hc (by simp [CssChar.Ok])
  · exact ⟨'-', wordSrc (c :: r), rfl, by decide, by decide, by decide⟩

theorem ident_cssHead {n : CssWord} (h : CssIdent n) : CssHead (wordSrc n) := by
  obtain ⟨c, r, e, h1, h2, h3⟩ := ident_head h
  rw [e]
  exact ⟨c, r, rfl, h1, h2, fun e => absurd e h3⟩

theorem number_none_plus {s : Str} (h : BlankEnd s → CssHead s) : numberMatch ('+' :: s) = none := by
  have key : ∀ t : Str, CssHead t ∨ t = [] ∨ (∃ c r, t = c :: r ∧ cssBlank c = true) → numberMatch ('+' :: t) = none := by
    intro t ht
    have e : leadSign ('+' :: t) = (py"+", t) := rfl
    rw [numberMatch]
    simp only [e]
    rcases ht with ⟨c, r, rfl, h1, h2, h3⟩ | rfl | ⟨c, r, rfl, hb⟩
    · simp only [List.takeWhile_cons, h2, List.dropWhile_cons, Bool.false_eq_true, if_false, if_true]
      split
      · rename_i u hu
        cases hu
        obtain ⟨d, w, rfl, h4⟩ := h3 rfl
        simp [h4]
      · rfl
    · rfl
    · rw [blank_iff] at hb
      rcases hb with rfl | rfl | rfl | rfl | rfl <;> rfl
  cases s with
  | nil => exact key [] (.inr (.inl rfl))
  | cons c r =>
    cases hb : cssBlank c with
    | true => exact key _ (.inr (.inr ⟨c, r, rfl, hb⟩))
    | false => exact key _ (.inl (h (blankEnd_cons hb)))

theorem number_none_dot {n : CssWord} {rest : Str} (h : CssIdent n) : numberMatch ('.' :: (wordSrc n ++ rest)) = none := by
  obtain ⟨c, r, e0, h1, h2, h3⟩ := ident_head h
  have e : leadSign ('.' :: c :: (r ++ rest)) = ([], '.' :: c :: (r ++ rest)) := rfl
  have e2 : cssDigit '.' = false := by decide
  rw [e0, List.cons_append, numberMatch]
  simp only [e, List.takeWhile_cons, e2, List.dropWhile_cons, Bool.false_eq_true, if_false, if_true, h2]

theorem put_dot {n : CssWord} {rest : Str} (h : CssIdent n) :
    lexCss ('.' :: (wordSrc n ++ rest)) = putToks [.delim '.'] (lexCss (wordSrc n ++ rest)) :=
  lex_delim (by decide) (fun _ => number_none_dot h)

/-! ## Parts -/

def CssValue.toks : CssValue → List CssTok
  | .bare n => [.ident (wordValue n)]
  | .double s => [.string (wordValue s)]
  | .single s => [.string (wordValue s)]

def CssArg.toks : CssArg → List CssTok
  | .number sg ds => [.number (sg ++ ds)]
  | .value v => CssValue.toks v
  | .plus => [.delim '+']
  | .minus => [.delim '-']

def argsToks (l : List (CssArg × CssGap)) : List CssTok := l.flatMap (fun x => CssArg.toks x.1 ++ gapToks x.2)

def opToks (op : AttrOp) : List CssTok := (opSrc op).map .delim

def CssPart.toks : CssPart → List CssTok
  | .cls n => [.delim '.', .ident (wordValue n)]
  | .id n => [.hash (wordValue n)]
  | .present g1 n g2 => .delim '[' :: (gapToks g1 ++ .ident (wordValue n) :: (gapToks g2 ++ [.delim ']']))
  | .attr g1 n g2 op g3 v g4 =>
      .delim '[' :: (gapToks g1 ++ .ident (wordValue n) :: (gapToks g2 ++ (opToks op ++ (gapToks g3 ++ (CssValue.toks v ++ (gapToks g4 ++ [.delim ']']))))))
  | .pseudo n => [.delim ':', .ident (wordValue n)]
  | .func n g args => .delim ':' :: .ident (wordValue n) :: .delim '(' :: (gapToks g ++ (argsToks args ++ [.delim ')']))

theorem nameEnd_punct {c : Char} {s : Str} (h : c ∈ cssPunct) : NameEnd (c :: s) := by
  have : ∀ d ∈ cssPunct, cssName d = false ∧ d ≠ '\\' := by decide
  exact nameEnd_cons (this c h)

theorem nameEnd_hash {s : Str} : NameEnd ('#' :: s) := nameEnd_cons (by decide)

theorem blankEnd_punct {c : Char} {s : Str} (h : c ∈ cssPunct) : BlankEnd (c :: s) := by
  have : ∀ d ∈ cssPunct, cssBlank d = false := by decide
  exact blankEnd_cons (this c h)

theorem put_value {v : CssValue} (h : v.Ok) {rest : Str} (hr : NameEnd rest) :
    lexCss (v.src ++ rest) = putToks (CssValue.toks v) (lexCss rest) := by
  cases v with
  | bare n => exact put_ident h hr
  | double s =>
    have := lex_string (q := '"') (rest := rest) (.inl rfl) h.1 h.2
    simpa [CssValue.src, CssValue.toks, putToks] using this
  | single s =>
    have := lex_string (q := '\'') (rest := rest) (.inr rfl) h.1 h.2
    simpa [CssValue.src, CssValue.toks, putToks] using this

theorem value_cssHead {v : CssValue} (h : v.Ok) (rest : Str) : BlankEnd (v.src ++ rest) := by
  cases v with
  | bare n => exact cssHead_blank (cssHead_append (ident_cssHead h) _)
  | double s => exact blankEnd_cons (by decide)
  | single s => exact blankEnd_cons (by decide)

theorem digitEnd_of {rest : Str} (h : ∀ c, rest.head? = some c → ¬ ('0' ≤ c ∧ c ≤ '9') ∧ c ≠ '.') : DigitEnd rest := by
  intro c hc
  refine ⟨?_, (h c hc).2⟩
  have := (h c hc).1
  rw [← Bool.not_eq_true]
  simpa [cssDigit] using this

theorem nameEnd_of {rest : Str} (h : ∀ c, rest.head? = some c → ¬ IdentChar c ∧ c ≠ '\\') : NameEnd rest := by
  intro c hc
  refine ⟨?_, (h c hc).2⟩
  rw [← Bool.not_eq_true, name_iff]
  exact (h c hc).1

theorem number_none_sign {sg : Char} (hs : sg = '+' ∨ sg = '-') {rest : Str} (h : DigitEnd rest) : numberMatch (sg :: rest) = none := by
  have e : leadSign (sg :: rest) = ([sg], rest) := by rcases hs with rfl | rfl <;> rfl
  rw [numberMatch]
  simp only [e]
  cases rest with
  | nil => rfl
  | cons c r =>
    obtain ⟨h1, h2⟩ := h c rfl
    simp only [List.takeWhile_cons, h1, List.dropWhile_cons, Bool.false_eq_true, if_false, if_true]
    split
    · rename_i q; cases q; exact absurd rfl h2
    · rfl

theorem put_minus {rest : Str} (hn : NameEnd rest) (hd : DigitEnd rest) : lexCss ('-' :: rest) = putToks [.delim '-'] (lexCss rest) := by
  have hi : identMatch ('-' :: rest) = none := by
    rw [identMatch]
    simp only [leadHyphen]
    cases rest with
    | nil => rfl
    | cons c r =>
      obtain ⟨h1, h2⟩ := hn c rfl
      have h3 : cssStart c = false := by
        rw [← Bool.not_eq_true, start_iff]
        intro h
        rw [← Bool.not_eq_true, name_iff] at h1
        exact h1 (.inl h)
      rw [namePiece, if_neg h2]
      simp [h3]
  rw [lexCss, List.length_cons, cssTokens_cons, if_neg (by decide), hi]
  simp only
  rw [if_neg (by simp), if_neg (by simp), number_none_sign (.inr rfl) hd]
  simp only
  split
  · rename_i e; cases e
  · rw [cssTokens_lex (by simp)]
    rfl

theorem put_arg {a : CssArg} (h : a.Ok) {rest : Str} (hr : a.Ends rest) :
    lexCss (a.src ++ rest) = putToks (CssArg.toks a) (lexCss rest) := by
  cases a with
  | value v =>
    cases v with
    | bare n => exact put_ident h (nameEnd_of hr)
    | double s =>
      have := lex_string (q := '"') (rest := rest) (.inl rfl) h.1 h.2
      simpa [CssArg.src, CssArg.toks, CssValue.src, CssValue.toks, putToks] using this
    | single s =>
      have := lex_string (q := '\'') (rest := rest) (.inr rfl) h.1 h.2
      simpa [CssArg.src, CssArg.toks, CssValue.src, CssValue.toks, putToks] using this
  | number sg ds =>
    obtain ⟨h1, h2, h3⟩ := h
    simp only [CssArg.src, List.append_assoc]
    exact lex_number h1 h2 h3 (digitEnd_of hr)
  | plus => exact lex_delim (by decide) (fun _ => number_none_sign (.inl rfl) (digitEnd_of hr))
  | minus =>
    have hn : NameEnd rest := nameEnd_of (fun c hc => ⟨(hr c hc).1, (hr c hc).2.1⟩)
    exact put_minus hn (digitEnd_of (fun c hc => ⟨fun q => (hr c hc).1 (.inr (.inl q)), (hr c hc).2.2⟩))

theorem arg_blankEnd {a : CssArg} (h : a.Ok) (rest : Str) : BlankEnd (a.src ++ rest) := by
  cases a with
  | value v => exact value_cssHead h rest
  | number sg ds =>
    obtain ⟨h1, h2, h3⟩ := h
    rcases h1 with rfl | rfl | rfl
    · cases ds with
      | nil => exact absurd rfl h2
      | cons c ds => exact blankEnd_cons (start_not_blank (.inr (.inl (h3 c (by simp)))))
    · exact blankEnd_cons (by decide)
    · exact blankEnd_cons (by decide)
  | plus => exact blankEnd_cons (by decide)
  | minus => exact blankEnd_cons (by decide)

theorem args_blankEnd {l : List (CssArg × CssGap)} (h : ArgsOk l) (rest : Str) : BlankEnd (argsSrc l ++ ')' :: rest) := by
  match l, h with
  | [], _ => exact blankEnd_punct (by decide)
  | (a, g) :: r, h =>
    rw [argsSrc, List.append_assoc]
    exact arg_blankEnd h.1 _

theorem ends_more {a : CssArg} {s t : Str} (h : a.Ends s) (hs : s ≠ []) : a.Ends (s ++ t) := by
  intro c hc
  cases s with
  | nil => exact absurd rfl hs
  | cons x s => exact h c hc

theorem put_args {l : List (CssArg × CssGap)} (h : ArgsOk l) (rest : Str) :
    lexCss (argsSrc l ++ ')' :: rest) = putToks (argsToks l ++ [.delim ')']) (lexCss rest) := by
  match l, h with
  | [], _ => exact put_delim (by decide) (by decide) (by decide)
  | (a, g) :: r, h =>
    obtain ⟨h1, h2, h3, h4⟩ := h
    have e : argsSrc ((a, g) :: r) ++ ')' :: rest = a.src ++ (g.src ++ (argsSrc r ++ ')' :: rest)) := by simp [argsSrc]
    have h3' := ends_more (t := rest) h3 (by simp)
    simp only [List.append_assoc, List.cons_append, List.nil_append] at h3'
    rw [e, put_arg h1 h3', put_gap h2 (args_blankEnd h4 rest), put_args h4 rest, putToks_put, putToks_put]
    simp [argsToks]

theorem put_op {op : AttrOp} {rest : Str} : lexCss (opSrc op ++ rest) = putToks (opToks op) (lexCss rest) := by
  cases op <;> simp only [opSrc, opToks, List.nil_append, List.cons_append, List.map_nil, List.map_cons] <;>
    simp only [put_delim (c := '=') (by decide) (by decide) (by decide), put_delim (c := '~') (by decide) (by decide) (by decide),
      put_delim (c := '|') (by decide) (by decide) (by decide), put_delim (c := '^') (by decide) (by decide) (by decide),
      put_delim (c := '$') (by decide) (by decide) (by decide), put_delim (c := '*') (by decide) (by decide) (by decide),
      put_delim (c := '!') (by decide) (by decide) (by decide), putToks_put, putToks_nil, List.cons_append, List.nil_append]

theorem op_head {op : AttrOp} (h : op ≠ .exists) (rest : Str) : ∃ c r, opSrc op ++ rest = c :: r ∧ c ∈ cssPunct := by
  cases op <;> first | exact absurd rfl h | exact ⟨_, _, rfl, by decide⟩

theorem digitEnd_comments {l : List Str} {rest : Str} (h : DigitEnd rest) : DigitEnd (l.flatMap commentSrc ++ rest) := by
  cases l with
  | nil => exact h
  | cons c l => intro d hd; cases hd; decide

theorem digitEnd_gap {g : CssGap} {rest : Str} (hg : g.Ok) (h : DigitEnd rest) : DigitEnd (g.src ++ rest) := by
  rw [CssGap.src, List.append_assoc, List.append_assoc]
  refine digitEnd_comments ?_
  cases hb : g.blank with
  | nil => exact digitEnd_comments h
  | cons c b =>
    intro d hd
    cases hd
    rcases hg.2 c (by simp [hb]) with rfl | rfl | rfl | rfl | rfl <;> decide

theorem put_part {p : CssPart} (h : p.Ok) {rest : Str} (hr : NameEnd rest) :
    lexCss (p.src ++ rest) = putToks (CssPart.toks p) (lexCss rest) := by
  cases p with
  | cls n =>
    simp only [CssPart.src, List.cons_append]
    rw [put_dot h, put_ident h hr, putToks_put]; rfl
  | id n =>
    simp only [CssPart.src, List.cons_append]
    exact put_hash h.1 h.2.1 h.2.2 hr
  | present g1 n g2 =>
    obtain ⟨h1, h2, h3⟩ := h
    simp only [CssPart.src, List.cons_append, List.append_assoc, List.nil_append]
    rw [put_delim (c := '[') (by decide) (by decide) (by decide), put_gap h1 (cssHead_blank (cssHead_append (ident_cssHead h2) _)),
      put_ident h2 (nameEnd_gap h3 (nameEnd_punct (by decide))), put_gap h3 (blankEnd_punct (by decide)),
      put_delim (c := ']') (by decide) (by decide) (by decide)]
    simp [putToks_put, CssPart.toks]
  | attr g1 n g2 op g3 v g4 =>
    obtain ⟨h1, h2, h3, h4, h5, h6, h7⟩ := h
    simp only [CssPart.src, List.cons_append, List.append_assoc, List.nil_append]
    obtain ⟨c, r, ho, hc⟩ := op_head h4 (g3.src ++ (v.src ++ (g4.src ++ ']' :: rest)))
    rw [put_delim (c := '[') (by decide) (by decide) (by decide), put_gap h1 (cssHead_blank (cssHead_append (ident_cssHead h2) _)),
      put_ident h2 (nameEnd_gap h3 (by rw [ho]; exact nameEnd_punct hc)), put_gap h3 (by rw [ho]; exact blankEnd_punct hc),
      put_op, put_gap h5 (value_cssHead h6 _), put_value h6 (nameEnd_gap h7 (nameEnd_punct (by decide))),
      put_gap h7 (blankEnd_punct (by decide)),
      put_delim (c := ']') (by decide) (by decide) (by decide)]
    simp [putToks_put, CssPart.toks]
  | pseudo n =>
    simp only [CssPart.src, List.cons_append]
    rw [put_delim (c := ':') (by decide) (by decide) (by decide), put_ident h.1 hr, putToks_put]; rfl
  | func n g args =>
    obtain ⟨h1, h2, h3, h4⟩ := h
    simp only [CssPart.src, List.cons_append, List.append_assoc, List.nil_append]
    rw [put_delim (c := ':') (by decide) (by decide) (by decide), put_ident h1 (nameEnd_punct (by decide)),
      put_delim (c := '(') (by decide) (by decide) (by decide), put_gap h3 (args_blankEnd h4 _), put_args h4]
    simp [putToks_put, CssPart.toks]

/-- Parts begin with punctuation. -/
theorem part_head {p : CssPart} (h : p.Ok) : ∃ c r, p.src = c :: r ∧ (c = '.' ∨ c = '#' ∨ c = '[' ∨ c = ':') ∧
    (c = '.' → ∃ d t, r = d :: t ∧ cssDigit d = false) := by
  cases p with
  | cls n =>
    obtain ⟨d, t, e, -, h2, -⟩ := ident_head h
    exact ⟨_, _, rfl, .inl rfl, fun _ => ⟨d, t, e, h2⟩⟩
  | id n => exact ⟨_, _, rfl, .inr (.inl rfl), by intro e; cases e⟩
  | present g1 n g2 => exact ⟨_, _, rfl, .inr (.inr (.inl rfl)), by intro e; cases e⟩
  | attr g1 n g2 op g3 v g4 => exact ⟨_, _, rfl, .inr (.inr (.inl rfl)), by intro e; cases e⟩
  | pseudo n => exact ⟨_, _, rfl, .inr (.inr (.inr rfl)), by intro e; cases e⟩
  | func n g args => exact ⟨_, _, rfl, .inr (.inr (.inr rfl)), by intro e; cases e⟩

theorem nameEnd_parts {ps : List CssPart} (h : ∀ p ∈ ps, p.Ok) {rest : Str} (hr : NameEnd rest) :
    NameEnd (ps.flatMap CssPart.src ++ rest) := by
  cases ps with
  | nil => exact hr
  | cons p ps =>
    obtain ⟨c, r, e, hc, -⟩ := part_head (h p (by simp))
    rw [List.flatMap_cons, e]
    refine nameEnd_cons ?_
    rcases hc with rfl | rfl | rfl | rfl <;> decide

theorem put_parts : ∀ {ps : List CssPart}, (∀ p ∈ ps, p.Ok) → ∀ {rest : Str}, NameEnd rest →
    lexCss (ps.flatMap CssPart.src ++ rest) = putToks (ps.flatMap CssPart.toks) (lexCss rest)
  | [], _, rest, _ => (putToks_nil _).symm
  | p :: ps, h, rest, hr => by
    rw [List.flatMap_cons, List.append_assoc, put_part (h p (by simp)) (nameEnd_parts (fun q hq => h q (by simp [hq])) hr),
      put_parts (fun q hq => h q (by simp [hq])) hr, putToks_put, List.flatMap_cons]

/-! ## Elements, items, compounds -/

def CssElem.toks : CssElem → List CssTok
  | .nothing => []
  | .star => [.delim '*']
  | .name n => [.ident (wordValue n)]

theorem put_elem {e : CssElem} (h : e.Ok) {rest : Str} (hr : NameEnd rest) :
    lexCss (e.src ++ rest) = putToks (CssElem.toks e) (lexCss rest) := by
  cases e with
  | nothing => exact (putToks_nil _).symm
  | star => exact put_delim (by decide) (by decide) (by decide)
  | name n => exact put_ident h hr

def CssItem.toks : CssItem → List CssTok
  | .part p => CssPart.toks p
  | .neg n g e ps => .delim ':' :: .ident (wordValue n) :: .delim '(' :: (gapToks g ++ (CssElem.toks e ++ (ps.flatMap CssPart.toks ++ [.delim ')'])))

/-- The beginning of an element with parts. -/
theorem elem_head {e : CssElem} (h : e.Ok) {l : Str} (hl : e = .nothing → CssHead l) : CssHead (e.src ++ l) := by
  cases e with
  | nothing => exact hl rfl
  | star => exact ⟨'*', l, rfl, by decide, by decide, by intro e; cases e⟩
  | name n => exact cssHead_append (ident_cssHead h) _

theorem part_cssHead {p : CssPart} (h : p.Ok) : CssHead p.src := by
  obtain ⟨c, r, e, hc, hd⟩ := part_head h
  refine ⟨c, r, e, ?_, ?_, hd⟩ <;> rcases hc with rfl | rfl | rfl | rfl <;> decide

theorem put_item {i : CssItem} (h : i.Ok) {rest : Str} (hr : NameEnd rest) :
    lexCss (i.src ++ rest) = putToks (CssItem.toks i) (lexCss rest) := by
  cases i with
  | part p => exact put_part h hr
  | neg n g e ps =>
    obtain ⟨h1, h2, h3, h4, h5, h6⟩ := h
    have hb : CssHead (e.src ++ (ps.flatMap CssPart.src ++ ')' :: rest)) := by
      refine elem_head h4 (fun he => ?_)
      cases ps with
      | nil => exact absurd rfl (h6 he)
      | cons p ps => rw [List.flatMap_cons, List.append_assoc]; exact cssHead_append (part_cssHead (h5 p (by simp))) _
    simp only [CssItem.src, List.cons_append, List.append_assoc, List.nil_append]
    rw [put_delim (c := ':') (by decide) (by decide) (by decide), put_ident h1 (nameEnd_punct (by decide)),
      put_delim (c := '(') (by decide) (by decide) (by decide), put_gap h3 (cssHead_blank hb),
      put_elem h4 (nameEnd_parts h5 (nameEnd_punct (by decide))), put_parts h5 (nameEnd_punct (by decide)),
      put_delim (c := ')') (by decide) (by decide) (by decide)]
    simp [putToks_put, CssItem.toks]

theorem item_head {i : CssItem} (h : i.Ok) : ∃ c r, i.src = c :: r ∧ (c = '.' ∨ c = '#' ∨ c = '[' ∨ c = ':') ∧
    (c = '.' → ∃ d t, r = d :: t ∧ cssDigit d = false) := by
  cases i with
  | part p => exact part_head h
  | neg n g e ps => exact ⟨_, _, rfl, .inr (.inr (.inr rfl)), by intro e; cases e⟩

theorem item_cssHead {i : CssItem} (h : i.Ok) : CssHead i.src := by
  obtain ⟨c, r, e, hc, hd⟩ := item_head h
  refine ⟨c, r, e, ?_, ?_, hd⟩ <;> rcases hc with rfl | rfl | rfl | rfl <;> decide

theorem nameEnd_items {l : List CssItem} (h : ∀ p ∈ l, p.Ok) {rest : Str} (hr : NameEnd rest) :
    NameEnd (l.flatMap CssItem.src ++ rest) := by
  cases l with
  | nil => exact hr
  | cons p ps =>
    obtain ⟨c, r, e, hc, -⟩ := item_head (h p (by simp))
    rw [List.flatMap_cons, e]
    refine nameEnd_cons ?_
    rcases hc with rfl | rfl | rfl | rfl <;> decide

theorem put_items : ∀ {l : List CssItem}, (∀ p ∈ l, p.Ok) → ∀ {rest : Str}, NameEnd rest →
    lexCss (l.flatMap CssItem.src ++ rest) = putToks (l.flatMap CssItem.toks) (lexCss rest)
  | [], _, rest, _ => (putToks_nil _).symm
  | p :: ps, h, rest, hr => by
    rw [List.flatMap_cons, List.append_assoc, put_item (h p (by simp)) (nameEnd_items (fun q hq => h q (by simp [hq])) hr),
      put_items (fun q hq => h q (by simp [hq])) hr, putToks_put, List.flatMap_cons]

def CssCompound.toks (c : CssCompound) : List CssTok := CssElem.toks c.elem ++ c.items.flatMap CssItem.toks

theorem put_compound {c : CssCompound} (h : c.Ok) {rest : Str} (hr : NameEnd rest) :
    lexCss (c.src ++ rest) = putToks (CssCompound.toks c) (lexCss rest) := by
  rw [CssCompound.src, List.append_assoc, put_elem h.1 (nameEnd_items h.2.1 hr), put_items h.2.1 hr, putToks_put]
  rfl

theorem compound_cssHead {c : CssCompound} (h : c.Ok) : CssHead c.src := by
  refine elem_head h.1 (fun he => ?_)
  cases hi : c.items with
  | nil => exact absurd hi (h.2.2 he)
  | cons i l => rw [List.flatMap_cons]; exact cssHead_append (item_cssHead (h.2.1 i (by simp [hi]))) _

/-! ## Combinators -/

def CssLink.toks : CssLink → List CssTok
  | .desc g => gapToks g
  | .child g1 g2 => gapToks g1 ++ .delim '>' :: gapToks g2
  | .general g1 g2 => gapToks g1 ++ .delim '~' :: gapToks g2
  | .adjacent g1 g2 => gapToks g1 ++ .delim '+' :: gapToks g2

theorem put_link {l : CssLink} (h : l.Ok) {rest : Str} (hr : CssHead rest) :
    lexCss (l.src ++ rest) = putToks (CssLink.toks l) (lexCss rest) := by
  have hb := cssHead_blank hr
  have hplus : ∀ g : CssGap, g.Ok → numberMatch ('+' :: (g.src ++ rest)) = none := by
    intro g hg
    refine number_none_plus (fun hbe => ?_)
    have comments : ∀ (l : List Str) (t : Str), CssHead t → CssHead (l.flatMap commentSrc ++ t) := by
      intro l t ht
      cases l with
      | nil => exact ht
      | cons c l => exact ⟨_, _, rfl, by decide, by decide, by intro e; cases e⟩
    rw [CssGap.src, List.append_assoc, List.append_assoc] at hbe ⊢
    cases hl : g.before with
    | cons c l => exact ⟨_, _, rfl, by decide, by decide, by intro e; cases e⟩
    | nil =>
      rw [hl] at hbe
      cases hb : g.blank with
      | nil => exact comments [] _ (comments _ _ hr)
      | cons c b =>
        rw [hb] at hbe
        have := hbe c rfl
        rw [(blank_iff c).mpr (hg.2 c (by simp [hb]))] at this
        cases this
  cases l with
  | desc g => exact put_gap h.2 hb
  | child g1 g2 =>
    simp only [CssLink.src, List.append_assoc, List.cons_append]
    rw [put_gap h.1 (blankEnd_punct (by decide)), put_delim (c := '>') (by decide) (by decide) (by decide), put_gap h.2 hb]
    simp [putToks_put, CssLink.toks]
  | general g1 g2 =>
    simp only [CssLink.src, List.append_assoc, List.cons_append]
    rw [put_gap h.1 (blankEnd_punct (by decide)), put_delim (c := '~') (by decide) (by decide) (by decide), put_gap h.2 hb]
    simp [putToks_put, CssLink.toks]
  | adjacent g1 g2 =>
    have := lex_delim (c := '+') (rest := g2.src ++ rest) (by decide) (fun _ => hplus g2 h.2)
    simp only [CssLink.src, List.append_assoc, List.cons_append]
    rw [put_gap h.1 (blankEnd_punct (by decide)), this, put_gap h.2 hb]
    show putToks _ (putToks [.delim '+'] _) = _
    simp [putToks_put, CssLink.toks]

theorem link_nameEnd {l : CssLink} (h : l.Ok) (rest : Str) : NameEnd (l.src ++ rest) := by
  cases l with
  | desc g =>
    rw [CssLink.src, CssGap.src, List.append_assoc, List.append_assoc]
    refine nameEnd_comments ?_
    cases hb : g.blank with
    | nil => exact absurd hb h.1
    | cons c b => exact nameEnd_cons (space_nameEnd (h.2.2 c (by simp [hb])))
  | child g1 g2 => rw [CssLink.src, List.append_assoc]; exact nameEnd_gap h.1 (nameEnd_punct (by decide))
  | general g1 g2 => rw [CssLink.src, List.append_assoc]; exact nameEnd_gap h.1 (nameEnd_punct (by decide))
  | adjacent g1 g2 => rw [CssLink.src, List.append_assoc]; exact nameEnd_gap h.1 (nameEnd_punct (by decide))

def moreToks (l : List (CssLink × CssCompound)) : List CssTok := l.flatMap (fun x => CssLink.toks x.1 ++ CssCompound.toks x.2)

def peToks : Option CssWord → List CssTok
  | none => []
  | some n => [.delim ':', .delim ':', .ident (wordValue n)]

theorem nameEnd_more {l : List (CssLink × CssCompound)} (h : ∀ x ∈ l, x.1.Ok ∧ x.2.Ok) {rest : Str} (hr : NameEnd rest) :
    NameEnd (moreSrc l ++ rest) := by
  cases l with
  | nil => exact hr
  | cons x l =>
    rw [moreSrc, List.flatMap_cons, List.append_assoc, List.append_assoc]
    exact link_nameEnd (h x (by simp)).1 _

theorem put_more : ∀ {l : List (CssLink × CssCompound)}, (∀ x ∈ l, x.1.Ok ∧ x.2.Ok) → ∀ {rest : Str}, NameEnd rest →
    lexCss (moreSrc l ++ rest) = putToks (moreToks l) (lexCss rest)
  | [], _, rest, _ => (putToks_nil _).symm
  | x :: l, h, rest, hr => by
    have h1 := h x (by simp)
    have h2 : ∀ y ∈ l, y.1.Ok ∧ y.2.Ok := fun y hy => h y (by simp [hy])
    have e : moreSrc (x :: l) ++ rest = x.1.src ++ (x.2.src ++ (moreSrc l ++ rest)) := by
      simp [moreSrc]
    rw [e, put_link h1.1 (cssHead_append (compound_cssHead h1.2) _), put_compound h1.2 (nameEnd_more h2 hr), put_more h2 hr]
    simp [putToks_put, moreToks]

theorem put_pe {p : Option CssWord} (h : ∀ n, p = some n → CssIdent n) {rest : Str} (hr : NameEnd rest) :
    lexCss (pseudoElementSrc p ++ rest) = putToks (peToks p) (lexCss rest) := by
  cases p with
  | none => exact (putToks_nil _).symm
  | some n =>
    simp only [pseudoElementSrc, List.cons_append]
    rw [put_delim (c := ':') (by decide) (by decide) (by decide), put_delim (c := ':') (by decide) (by decide) (by decide),
      put_ident (h n rfl) hr]
    simp [putToks_put, peToks]

def CssComplex.toks (c : CssComplex) : List CssTok := CssCompound.toks c.first ++ (moreToks c.more ++ peToks c.pseudoElement)

theorem nameEnd_pe {p : Option CssWord} {rest : Str} (hr : NameEnd rest) : NameEnd (pseudoElementSrc p ++ rest) := by
  cases p with
  | none => exact hr
  | some n => exact nameEnd_punct (by decide)

theorem put_complex {c : CssComplex} (h : c.Ok) {rest : Str} (hr : NameEnd rest) :
    lexCss (c.src ++ rest) = putToks (CssComplex.toks c) (lexCss rest) := by
  obtain ⟨h1, h2, h3⟩ := h
  simp only [CssComplex.src, List.append_assoc]
  rw [put_compound h1 (nameEnd_more h2 (nameEnd_pe hr)), put_more h2 (nameEnd_pe hr), put_pe h3 hr]
  simp [putToks_put, CssComplex.toks]

theorem complex_cssHead {c : CssComplex} (h : c.Ok) : CssHead c.src := cssHead_append (compound_cssHead h.1) _

def commaToks (l : List (CssGap × CssGap × CssComplex)) : List CssTok :=
  l.flatMap (fun x => gapToks x.1 ++ .delim ',' :: (gapToks x.2.1 ++ CssComplex.toks x.2.2))

theorem nameEnd_comma {l : List (CssGap × CssGap × CssComplex)} (h : ∀ x ∈ l, x.1.Ok ∧ x.2.1.Ok ∧ x.2.2.Ok) {rest : Str}
    (hr : NameEnd rest) : NameEnd (commaSrc l ++ rest) := by
  cases l with
  | nil => exact hr
  | cons x l =>
    rw [commaSrc, List.flatMap_cons, List.append_assoc, List.append_assoc]
    exact nameEnd_gap (h x (by simp)).1 (nameEnd_punct (by decide))

theorem put_comma : ∀ {l : List (CssGap × CssGap × CssComplex)}, (∀ x ∈ l, x.1.Ok ∧ x.2.1.Ok ∧ x.2.2.Ok) → ∀ {rest : Str},
    NameEnd rest → lexCss (commaSrc l ++ rest) = putToks (commaToks l) (lexCss rest)
  | [], _, rest, _ => (putToks_nil _).symm
  | x :: l, h, rest, hr => by
    obtain ⟨h1, h2, h3⟩ := h x (by simp)
    have h4 : ∀ y ∈ l, y.1.Ok ∧ y.2.1.Ok ∧ y.2.2.Ok := fun y hy => h y (by simp [hy])
    have e : commaSrc (x :: l) ++ rest = x.1.src ++ ',' :: (x.2.1.src ++ (x.2.2.src ++ (commaSrc l ++ rest))) := by
      simp [commaSrc]
    rw [e, put_gap h1 (blankEnd_punct (by decide)), put_delim (c := ',') (by decide) (by decide) (by decide),
      put_gap h2 (cssHead_blank (cssHead_append (complex_cssHead h3) _)), put_complex h3 (nameEnd_comma h4 hr), put_comma h4 hr]
    simp [putToks_put, commaToks]

def CssText.toks (t : CssText) : List CssTok :=
  gapToks t.before ++ (CssComplex.toks t.first ++ (commaToks t.more ++ gapToks t.after))

theorem lex_text {t : CssText} (h : t.Ok) : lexCss t.src = .ok (CssText.toks t) := by
  obtain ⟨h1, h2, h3, h4⟩ := h
  have h5 : NameEnd t.after.src := by simpa using nameEnd_gap h4 nameEnd_nil
  have h6 : lexCss t.after.src = .ok (gapToks t.after) := by
    have := put_gap h4 blankEnd_nil
    rw [List.append_nil, lex_nil] at this
    rw [this]; simp [putToks, Except.map]
  rw [CssText.src, put_gap h1 (cssHead_blank (cssHead_append (complex_cssHead h2) _)), put_complex h2 (nameEnd_comma h3 h5),
    put_comma h3 h5, h6]
  simp [putToks, Except.map, CssText.toks]

end Verif
