import Verif.Props.Format
import Verif.Spec.Keep
import Verif.Proofs.Str
import Verif.Spec.Layout
import Verif.Model.Parser

/-!
# Format specifications: C89
-/

namespace Verif

open Spec

theorem natStr_isDigit (n : Nat) : ∀ c ∈ natStr n, c.isDigit = true := fun _ hc => Nat.isDigit_of_mem_toDigits (by omega) (by omega) hc

theorem decimalVal_natStr (n : Nat) : decimalVal (natStr n) = n := Nat.ofDigitChars_ten_toDigits

theorem takeWhile_natStr (n : Nat) (r : Str) (h : ∀ c, r.head? = some c → c.isDigit = false) : (natStr n ++ r).takeWhile Char.isDigit = natStr n := by
  rw [List.takeWhile_append_of_pos (natStr_isDigit n)]
  cases r with
  | nil => simp
  | cons c r => rw [List.takeWhile_cons_of_neg (by rw [h c rfl]; simp)]; simp

theorem takeNumber_natStr {n : Nat} (hn : n < 2 ^ 63) (r : Str) (h : ∀ c, r.head? = some c → c.isDigit = false) :
    takeNumber (natStr n ++ r) = .ok (some n, r) := by
  have hb : tooBig (natStr n) = false := by
    have := takeWhile_natStr n [] (by simp)
    rw [List.append_nil] at this
    rw [tooBig, this, decimalVal_natStr, ssizeMax]
    simp only [decide_eq_false_iff_not]
    omega
  simp only [takeNumber, takeWhile_natStr n r h, natStr_ne_nil, if_false, hb, Bool.false_eq_true, decimalVal_natStr, List.drop_left]

theorem takeIf_natStr (p : Char → Bool) (n : Nat) (r : Str) (hp : ∀ c : Char, c.isDigit = true → p c = false) :
    takeIf p (natStr n ++ r) = (none, natStr n ++ r) := by
  obtain ⟨c, t, e⟩ := List.exists_cons_of_ne_nil (natStr_ne_nil n)
  rw [e]
  simp [takeIf, hp c (natStr_isDigit n c (by rw [e]; simp))]

theorem cutText_head (l : Layout) : ∀ c, l.cutText.head? = some c → c.isDigit = false ∧ c ≠ ',' ∧ c ≠ '_' := by
  intro c hc
  unfold Layout.cutText at hc
  split at hc
  · cases hc
  · simp at hc
    subst hc
    decide

theorem cutText_chars (l : Layout) : ∀ c ∈ l.cutText, c.isDigit = true ∨ c = '.' := by
  intro c hc
  unfold Layout.cutText at hc
  split at hc
  · cases hc
  · rcases List.mem_append.1 hc with hc | hc
    · exact .inr (List.mem_singleton.1 hc)
    · exact .inl (natStr_isDigit _ c hc)

theorem isAlign_plain {c : Char} (h : c.isDigit = true ∨ c = '.') : isAlign c = false := by
  have ne : ∀ (d : Char), d.isDigit = false → d ≠ '.' → (c == d) = false := by
    intro d h1 h2
    rw [beq_eq_false_iff_ne]
    rintro rfl
    rcases h with h | h
    · rw [h1] at h; cases h
    · exact h2 h
  simp [isAlign, ne '<' (by decide) (by decide), ne '>' (by decide) (by decide), ne '=' (by decide) (by decide), ne '^' (by decide) (by decide)]

theorem takeAlign_plain {s : Str} (h : ∀ c ∈ s, c.isDigit = true ∨ c = '.') : takeAlign s = (none, none, s) := by
  match s with
  | [] => rfl
  | [c] => simp [takeAlign, isAlign_plain (h c (by simp))]
  | c :: d :: r => simp [takeAlign, isAlign_plain (h c (by simp)), isAlign_plain (h d (by simp))]

theorem takeIf_other (p : Char → Bool) (s : Str) (h : ∀ c, s.head? = some c → p c = false) : takeIf p s = (none, s) := by
  cases s with
  | nil => rfl
  | cons c s => simp [takeIf, h c rfl]

theorem natStr_head (n : Nat) : 0 < n → ∃ c t, natStr n = c :: t ∧ c ≠ '0' := by
  induction n using Nat.strongRecOn with
  | _ n ih =>
    intro h
    by_cases hn : n < 10
    · refine ⟨_, _, natStr_lt n hn, ?_⟩
      have : ∀ n : Fin 10, 0 < n.val → Nat.digitChar n.val ≠ '0' := by decide
      exact this ⟨n, hn⟩ h
    · obtain ⟨c, t, e, hc⟩ := ih (n / 10) (by omega) (by omega)
      exact ⟨c, _, by rw [natStr_ge n (by omega), e, List.cons_append], hc⟩

theorem natStr_head_ne_zero {n : Nat} (h : 0 < n) (r : Str) : ∀ c, (natStr n ++ r).head? = some c → (c == '0') = false := by
  obtain ⟨c, t, e, hc⟩ := natStr_head n h
  intro d hd
  rw [e] at hd
  simp only [List.cons_append, List.head?_cons, Option.some.injEq] at hd
  subst hd
  simpa using hc

/-- What a format specification says about the layout. -/
structure Asks (number : Bool) (l : Layout) (f : FmtSpec) : Prop where
  fill : f.fill = l.fill
  align : f.align = l.side.char
  width : f.width.getD 0 = l.width
  cut : f.precision = l.cut
  type : f.type = if number then 'd' else 's'
  sign : f.sign = none
  zero : f.zero = false
  alternate : f.alternate = false
  separator : f.separator = none

theorem takePrecision_cut {l : Layout} (h : l.Writable) : takePrecision l.cutText = .ok (l.cut, []) := by
  unfold Layout.cutText
  cases hc : l.cut with
  | none => rfl
  | some p =>
    have := takeNumber_natStr (h.cut p hc) [] (by simp)
    rw [List.append_nil] at this
    simp [takePrecision, this, bind, Except.bind]

/-- Reading what comes after the alignment. -/
theorem parseSpec_rest (number : Bool) {l : Layout} (h : l.Writable) (s r : Str) (fill align pad : Option Char) (width : Option Nat)
    (h1 : takeAlign s = (fill, align, r)) (hr : ∀ c, r.head? = some c → c.isDigit = true ∨ c = '.')
    (r' : Str) (h2 : (if fill.isNone then takeIf (· == '0') r else (none, r)) = (pad, r')) (h3 : takeNumber r' = .ok (width, l.cutText)) :
    parseSpec number s = .ok {
      fill := fill.getD (if pad.isSome then '0' else ' ')
      align := align.getD (if number then (if pad.isSome then '=' else '>') else '<')
      width, precision := l.cut, type := if number then 'd' else 's' } := by
  have hhead := cutText_head l
  have ne : ∀ (d : Char), d.isDigit = false → d ≠ '.' → ∀ c, r.head? = some c → (c == d) = false := by
    intro d h1 h2 c hc
    rw [beq_eq_false_iff_ne]
    rintro rfl
    rcases hr c hc with h | h
    · rw [h1] at h; cases h
    · exact h2 h
  have n1 := takeIf_other (fun c => c == ' ' || c == '+' || c == '-') r (by
    intro c hc
    simp [ne ' ' (by decide) (by decide) c hc, ne '+' (by decide) (by decide) c hc, ne '-' (by decide) (by decide) c hc])
  have n2 := takeIf_other (· == 'z') r (ne 'z' (by decide) (by decide))
  have n3 := takeIf_other (· == '#') r (ne '#' (by decide) (by decide))
  have n5 := takeIf_other (· == ',') l.cutText (fun c hc => by simpa using (hhead c hc).2.1)
  have n6 := takeIf_other (· == '_') l.cutText (fun c hc => by simpa using (hhead c hc).2.2)
  simp only [parseSpec, h1, n1, n2, n3, h2, h3, n5, n6, takePrecision_cut h, bind, Except.bind, Option.isSome_none, Bool.false_and,
    Bool.false_eq_true, if_false, Bool.or_false]

theorem parseSpec_written (number : Bool) {l : Layout} (h : l.Writable) {s : Str} (hs : l.Written number s) :
    ∃ f, parseSpec number s = .ok f ∧ Asks number l f := by
  have ha : isAlign l.side.char = true := by cases l.side <;> rfl
  have hh := cutText_head l
  have hd := cutText_chars l
  have hn := takeNumber_natStr h.width l.cutText (fun c hc => (hh c hc).1)
  have hw : ∀ c ∈ natStr l.width ++ l.cutText, c.isDigit = true ∨ c = '.' := by
    intro c hc
    rcases List.mem_append.1 hc with hc | hc
    · exact .inl (natStr_isDigit _ c hc)
    · exact hd c hc
  have hw' : ∀ c, (natStr l.width ++ l.cutText).head? = some c → c.isDigit = true ∨ c = '.' :=
    fun c hc => hw c (List.mem_of_mem_head? hc)
  cases hs with
  | full =>
    refine ⟨_, parseSpec_rest number h _ (natStr l.width ++ l.cutText) (some l.fill) (some l.side.char) none (some l.width) (by simp [takeAlign, ha])
      hw' (natStr l.width ++ l.cutText) rfl hn, ?_⟩
    constructor <;> rfl
  | blanks hf h0 =>
    have ht : takeAlign ([l.side.char] ++ natStr l.width ++ l.cutText) = (none, some l.side.char, natStr l.width ++ l.cutText) := by
      obtain ⟨c, t, e⟩ := List.exists_cons_of_ne_nil (natStr_ne_nil l.width)
      have hc := isAlign_plain (.inl (natStr_isDigit l.width c (by rw [e]; simp)))
      rw [e]
      simp [takeAlign, hc, ha]
    refine ⟨_, parseSpec_rest number h _ (natStr l.width ++ l.cutText) none (some l.side.char) none (some l.width) ht
      hw' (natStr l.width ++ l.cutText) (takeIf_other _ _ (natStr_head_ne_zero h0 _)) hn, ?_⟩
    constructor <;> first | rfl | exact hf.symm
  | plain hf h0 hside =>
    refine ⟨_, parseSpec_rest number h _ (natStr l.width ++ l.cutText) none none none (some l.width) (takeAlign_plain hw)
      hw' (natStr l.width ++ l.cutText) (takeIf_other _ _ (natStr_head_ne_zero h0 _)) hn, ?_⟩
    constructor <;> first | rfl | exact hf.symm | (rw [hside]; cases number <;> rfl)
  | zeros hnum hf hside =>
    have hz : ∀ c ∈ py"0" ++ natStr l.width ++ l.cutText, c.isDigit = true ∨ c = '.' := by
      intro c hc
      rw [List.append_assoc] at hc
      rcases List.mem_append.1 hc with hc | hc
      · rw [List.mem_singleton.1 hc]; decide
      · exact hw c hc
    refine ⟨_, parseSpec_rest number h _ (py"0" ++ natStr l.width ++ l.cutText) none none (some '0') (some l.width) (takeAlign_plain hz)
      (fun c hc => hz c (List.mem_of_mem_head? hc)) (natStr l.width ++ l.cutText) rfl hn, ?_⟩
    subst hnum
    constructor <;> first | rfl | exact hf.symm | (rw [hside]; rfl)
  | cutOnly hnum hf hside h0 hc =>
    have ht : takeNumber l.cutText = .ok (none, l.cutText) := by
      unfold Layout.cutText
      cases hcc : l.cut with
      | none => exact absurd hcc hc
      | some p => simp [takeNumber]
    have hz : takeIf (· == '0') l.cutText = (none, l.cutText) := takeIf_other _ _ (by
      intro c hc
      rw [beq_eq_false_iff_ne]
      rintro rfl
      have := (hh _ hc).1
      revert this; decide)
    refine ⟨_, parseSpec_rest number h _ l.cutText none none none none (takeAlign_plain hd)
      (fun c hc => hd c (List.mem_of_mem_head? hc)) l.cutText hz ht, ?_⟩
    subst hnum
    constructor <;> first | rfl | exact hf.symm | exact h0.symm | (rw [hside]; rfl)

theorem layout_chars {number : Bool} {l : Layout} (h : l.Writable) {s : Str} (hs : l.Written number s) : ∀ c ∈ s, c ≠ '{' ∧ c ≠ '}' := by
  have hd : ∀ c : Char, c.isDigit = true ∨ c = '.' → c ≠ '{' ∧ c ≠ '}' := by
    intro c hc
    constructor <;> (rintro rfl; revert hc; decide)
  have h1 : ∀ c ∈ natStr l.width, c ≠ '{' ∧ c ≠ '}' := fun c hc => hd c (.inl (natStr_isDigit _ c hc))
  have h2 : ∀ c ∈ l.cutText, c ≠ '{' ∧ c ≠ '}' := fun c hc => hd c (cutText_chars l c hc)
  have h3 : l.side.char ≠ '{' ∧ l.side.char ≠ '}' := by cases l.side <;> decide
  intro c hc
  cases hs with
  | full =>
    simp only [List.mem_append, List.mem_cons, List.not_mem_nil, or_false] at hc
    rcases hc with ((rfl | rfl) | hc) | hc
    · exact h.fill
    · exact h3
    · exact h1 c hc
    · exact h2 c hc
  | blanks =>
    simp only [List.mem_append, List.mem_cons, List.not_mem_nil, or_false] at hc
    rcases hc with (rfl | hc) | hc
    · exact h3
    · exact h1 c hc
    · exact h2 c hc
  | plain =>
    rcases List.mem_append.1 hc with hc | hc
    · exact h1 c hc
    · exact h2 c hc
  | zeros =>
    simp only [List.mem_append, List.mem_cons, List.not_mem_nil, or_false] at hc
    rcases hc with (rfl | hc) | hc
    · exact by decide
    · exact h1 c hc
    · exact h2 c hc
  | cutOnly => exact h2 c hc

theorem written_ne {number : Bool} {l : Layout} {s : Str} (hs : l.Written number s) : s ≠ [] := by
  cases hs with
  | full => simp
  | blanks => simp
  | plain => simp [natStr_ne_nil]
  | zeros => simp
  | cutOnly _ _ _ _ hc =>
    unfold Layout.cutText
    cases hcc : l.cut with
    | none => exact absurd hcc hc
    | some p => simp

/-- Reading the format specification of a field. -/
theorem parse_spec (f : Str) (k : Option Char) (a s r : Str) (h : ∀ c ∈ s, c ≠ '{' ∧ c ≠ '}') :
    parseTemplate (some (.spec f k 0 a)) (s ++ '}' :: r) = .field f k (a ++ s) :: parseTemplate none r := by
  induction s generalizing a with
  | nil => simp [parseTemplate]
  | cons c s ih =>
    obtain ⟨h1, h2⟩ := h c (by simp)
    rw [List.cons_append, parseTemplate, if_neg h1, if_neg h2, ih _ (fun x hx => h x (List.mem_cons_of_mem _ hx))]
    simp

/-- Reading a field with a format specification. -/
theorem parse_layout {spec : Str} (h : ∀ c ∈ spec, c ≠ '{' ∧ c ≠ '}') (name r : Str)
    (hn : ∀ c ∈ name, c ≠ '{' ∧ c ≠ '}' ∧ c ≠ '[' ∧ c ≠ ':' ∧ c ≠ '!') :
    parseTemplate none (fieldOf name spec ++ r) = .field name none spec :: parseTemplate none r := by
  have e : fieldOf name spec ++ r = '{' :: (name ++ ':' :: (spec ++ '}' :: r)) := by
    unfold fieldOf
    simp
  have go : ∀ (f n q : Str), (∀ c ∈ n, c ≠ '{' ∧ c ≠ '}' ∧ c ≠ '[' ∧ c ≠ ':' ∧ c ≠ '!') →
      parseTemplate (some (.name f)) (n ++ ':' :: q) = parseTemplate (some (.spec (f ++ n) none 0 [])) q := by
    intro f n q hn
    induction n generalizing f with
    | nil => simp [parseTemplate]
    | cons c n ih =>
      obtain ⟨h1, h2, h3, h4, h5⟩ := hn c (by simp)
      rw [List.cons_append, parseTemplate, if_neg h2, if_neg h1, if_neg h3, if_neg h5, if_neg h4, ih _ (fun x hx => hn x (List.mem_cons_of_mem _ hx))]
      simp
  have hne : ∀ q, parseTemplate none ('{' :: (name ++ ':' :: q)) = parseTemplate (some (.name [])) (name ++ ':' :: q) := by
    intro q
    obtain ⟨c, t, ec, hc⟩ : ∃ c t, name ++ ':' :: q = c :: t ∧ c ≠ '{' := by
      cases name with
      | nil => exact ⟨_, _, rfl, by decide⟩
      | cons c t => exact ⟨_, _, rfl, (hn c (by simp)).1⟩
    rw [ec, parseTemplate.eq_def]
    split
    · simp at *
    · simp at *
    · rename_i e; cases e; exact absurd rfl hc
    · rename_i e; cases e
    · rename_i e; cases e; rw [if_pos rfl]
    all_goals simp at *
  rw [e, hne, go [] name _ hn, List.nil_append, parse_spec _ _ _ _ _ h, List.nil_append]

theorem laid_padded (l : Layout) (sign x : Str) (f : FmtSpec) (h1 : f.fill = l.fill) (h2 : f.align = l.side.char) (h3 : f.width.getD 0 = l.width)
    (y : Str) (hy : y <+: x) (hp : ∀ p, l.cut = some p → y.length = min p x.length) (hn : l.cut = none → y = x) (s : Str) (hs : sign ++ s = y) :
    LaidOut l x (padded f sign s) := by
  have hlen : y.length = sign.length + s.length := by rw [← hs]; simp
  refine ⟨if l.side = .right then l.width - y.length else if l.side = .middle then (l.width - y.length) / 2 else 0,
    (l.width - y.length) - (if l.side = .right then l.width - y.length else if l.side = .middle then (l.width - y.length) / 2 else 0), y, ?_, hy, hp, hn, ?_, ?_⟩
  · unfold padded
    rw [h1, h2, h3, hs, hlen]
    cases l.side <;> simp [Side.char]
  · unfold padded
    rw [h1, h2, h3, hs, hlen]
    cases l.side <;> simp [Side.char, ← hlen] <;> omega
  · cases l.side <;> simp <;> omega

theorem no_fields {spec : Str} (h : ∀ c ∈ spec, c ≠ '{' ∧ c ≠ '}') : spec.contains '{' = false := by
  rw [← Bool.not_eq_true, List.contains_iff_mem]
  intro hm
  exact (h _ hm).1 rfl

theorem formatArg_text {l : Layout} (h : l.Writable) {spec : Str} (hs : l.Written false spec) (x : Str) :
    ∃ y, formatArg (.str x) spec = .ok y ∧ LaidOut l x y := by
  obtain ⟨f, h1, h2⟩ := parseSpec_written false h hs
  have ha : f.align ≠ '=' := by rw [h2.align]; cases l.side <;> decide
  simp only [formatArg, written_ne hs, if_false, h1, bind, Except.bind, formatStr, h2.type, h2.sign, h2.zero, h2.alternate, ha, Option.isSome_none,
    Bool.false_eq_true, ne_eq, not_true, or_self]
  refine ⟨_, rfl, laid_padded l [] x _ h2.fill h2.align h2.width _ ?_ ?_ ?_ _ rfl⟩
  · rw [h2.cut]
    cases l.cut with
    | none => exact List.prefix_refl _
    | some p => exact List.take_prefix ..
  · intro p hp; rw [h2.cut, hp]; simp
  · intro hp; rw [h2.cut, hp]; rfl

theorem formatArg_number {l : Layout} (h : l.Writable) (hc : l.cut = none) {spec : Str} (hs : l.Written true spec) (n : Int) :
    ∃ y, formatArg (.int n) spec = .ok y ∧ LaidOut l (intStr n) y := by
  obtain ⟨f, h1, h2⟩ := parseSpec_written true h hs
  simp only [formatArg, written_ne hs, if_false, h1, bind, Except.bind, formatInt, h2.type, if_true, show intBase 'd' = some 10 from rfl, intDigits, h2.cut, hc,
    h2.zero, h2.separator, h2.sign, h2.alternate, Option.isSome_none, Bool.false_eq_true, or_self, if_false, List.append_nil,
    show ¬ 'd' = 'X' by decide]
  refine ⟨_, rfl, laid_padded l _ (intStr n) _ h2.fill h2.align h2.width (intStr n) (List.prefix_refl _) (by simp [hc]) (fun _ => rfl) _ ?_⟩
  cases n with
  | ofNat n => rfl
  | negSucc n => rw [if_pos (by omega)]; rfl

theorem evalField_first (inner : Numbering → Str → Py (Str × Numbering)) {spec : Str} (h : ∀ c ∈ spec, c ≠ '{' ∧ c ≠ '}') (args : List Arg)
    (kw : List (Str × Arg)) (m m' : Numbering) (name : Str) (hn : ∀ c ∈ name, c ≠ '.' ∧ c ≠ '[') (a : Arg)
    (ha : fieldArg args kw m name = .ok (a, m')) (y : Str) (hy : formatArg a spec = .ok y) :
    evalField inner args kw m name none spec = .ok (y, m') := by
  have ht : name.takeWhile (fun c => c != '.' && c != '[') = name := by
    have := List.takeWhile_append_of_pos (p := fun c => c != '.' && c != '[') (l₂ := []) (fun c hc => by simpa using hn c hc : ∀ c ∈ name, _)
    simpa using this
  simp only [evalField, ht, ha, bind, Except.bind, List.drop_length, parseAccess, access, convert, no_fields h, Bool.false_eq_true, if_false,
    hy, pure, Except.pure]

/-- A field with a layout puts the content there in that layout, however the layout is written; the text around it stays as it is. -/
theorem C89 (l : Layout) (h : l.Writable) (spec : Str) (hs : l.Written false spec) (before after content : Str) :
    ∃ y, fmt1 (escape before ++ fieldOf [] spec ++ escape after) content = .ok (before ++ y ++ after) ∧ LaidOut l content y := by
  obtain ⟨y, h1, h2⟩ := formatArg_text h hs content
  refine ⟨y, ?_, h2⟩
  have hb : parseTemplate none (escape after) = after.map Piece.lit := by
    have := parse_escape after []
    rw [List.append_nil] at this
    rw [this]; simp [parseTemplate]
  have he := eval_lits [.str content] [] (.auto 1) after []
  rw [List.append_nil] at he
  rw [fmt1, pyFormat, List.append_assoc, parse_escape, parse_layout (layout_chars h hs) [] _ (by simp), hb, eval_lits]
  simp only [evalPieces]
  rw [evalField_first _ (layout_chars h hs) _ _ _ (.auto 1) [] (by simp) (.str content) rfl y h1]
  simp only [he]
  simp [evalPieces, Except.map]

/-- The line template of numbered items with a format specification for the number. -/
theorem number_template {spec : Str} (h : ∀ c ∈ spec, c ≠ '{' ∧ c ≠ '}') (n : Int) (y : Str) (hy : formatArg (.int n) spec = .ok y)
    (before middle after : Str) :
    pyFormat (escape before ++ fieldOf py"0" spec ++ escape middle ++ py"{1}" ++ escape after) [.int n, py"{}"] =
      .ok (before ++ y ++ middle ++ py"{}" ++ after) := by
  have hb : parseTemplate none (escape after) = after.map Piece.lit := by
    have := parse_escape after []
    rw [List.append_nil] at this
    rw [this]; simp [parseTemplate]
  have hh : parseTemplate none (py"{1}" ++ escape after) = .pos 1 :: after.map Piece.lit := by
    rw [← hb]
    simp [parseTemplate, show fieldPiece ['1'] = .pos 1 by decide]
  have he := eval_lits [.int n, py"{}"] [] .manual after []
  rw [List.append_nil] at he
  rw [pyFormat, List.append_assoc, List.append_assoc, List.append_assoc, parse_escape, parse_layout h py"0" _ (by simp), parse_escape, hh, eval_lits]
  simp only [evalPieces]
  rw [evalField_first _ h _ _ _ .manual py"0" (by simp) (.int n) rfl y hy]
  simp only [eval_lits, evalPieces, posArg]
  simp only [Bool.false_eq_true, if_false, List.getElem?_cons_succ, List.getElem?_cons_zero, he]
  simp [evalPieces, Except.map, Arg.show]

/-- In the line template of numbered items the number can have a layout too. -/
theorem C89_number (l : Layout) (h : l.Writable) (hc : l.cut = none) (spec : Str) (hs : l.Written true spec) (before middle after : Str) (n : Int) :
    ∃ y, pyFormat (escape before ++ fieldOf py"0" spec ++ escape middle ++ py"{1}" ++ escape after) [.int n, py"{}"] =
      .ok (before ++ y ++ middle ++ py"{}" ++ after) ∧ LaidOut l (intStr n) y := by
  obtain ⟨y, h1, h2⟩ := formatArg_number h hc hs n
  exact ⟨y, number_template (layout_chars h hs) n y h1 before middle after, h2⟩

/-- Numbers filled up with zeros: the zeros are between the sign and the digits. -/
theorem C89_zeros (w : Nat) (hw : w < 2 ^ 63) (before middle after : Str) (n : Int) :
    ∃ k, pyFormat (escape before ++ fieldOf py"0" (py"0" ++ natStr w) ++ escape middle ++ py"{1}" ++ escape after) [.int n, py"{}"] =
      .ok (before ++ ((if n < 0 then py"-" else []) ++ List.replicate k '0' ++ natStr n.natAbs) ++ middle ++ py"{}" ++ after) ∧
      (if n < 0 then 1 else 0) + k + (natStr n.natAbs).length = max w (intStr n).length := by
  have hd : ∀ c ∈ py"0" ++ natStr w, c.isDigit = true ∨ c = '.' := by
    intro c hc
    rcases List.mem_append.1 hc with hc | hc
    · rw [List.mem_singleton.1 hc]; decide
    · exact .inl (natStr_isDigit w c hc)
  have hb : ∀ c ∈ py"0" ++ natStr w, c ≠ '{' ∧ c ≠ '}' := by
    intro c hc
    have := hd c hc
    constructor <;> (rintro rfl; revert this; decide)
  have hl : Layout.Writable ⟨'0', .right, w, none⟩ := ⟨by simp, hw, by simp⟩
  have hnum := takeNumber_natStr hw [] (by simp)
  have hp := parseSpec_rest true hl (py"0" ++ natStr w) (py"0" ++ natStr w) none none (some '0') (some w) (takeAlign_plain hd)
    (fun c hc => hd c (List.mem_of_mem_head? hc)) (natStr w) rfl (by simpa [Layout.cutText] using hnum)
  have hlen : (intStr n).length = (if n < 0 then 1 else 0) + (natStr n.natAbs).length := by
    cases n with
    | ofNat n => rw [if_neg (show ¬ Int.ofNat n < 0 from Int.not_lt.2 (Int.natCast_nonneg n)), Nat.zero_add]; rfl
    | negSucc n => rw [if_pos (by omega), Nat.add_comm]; rfl
  refine ⟨w - (intStr n).length, number_template hb n _ ?_ before middle after, ?_⟩
  · simp only [formatArg, hp, bind, Except.bind, formatInt, if_true, if_false, show intBase 'd' = some 10 from rfl, intDigits, List.append_nil,
      show ¬ 'd' = 'X' by decide, padded, Option.getD_none, Option.isSome_some, Option.isSome_none,
      Bool.false_eq_true, or_self, Option.getD_some, hlen]
    rw [if_neg (by simp)]
    split <;> simp [natStr]
  · omega

/-- A field with `!s` and a format specification. -/
theorem parse_shown {spec : Str} (h : ∀ c ∈ spec, c ≠ '{' ∧ c ≠ '}') (r : Str) :
    parseTemplate none (py"{0!s:" ++ spec ++ py"}" ++ r) = .field py"0" (some 's') spec :: parseTemplate none r := by
  have go : ∀ (q t : Str), (∀ c ∈ q, c ≠ '{' ∧ c ≠ '}') →
      parseTemplate (some (.spec py"0" (some 's') 0 t)) (q ++ '}' :: r) = .field py"0" (some 's') (t ++ q) :: parseTemplate none r := by
    intro q t hq
    induction q generalizing t with
    | nil => simp [parseTemplate]
    | cons c q ih =>
      obtain ⟨h1, h2⟩ := hq c (by simp)
      rw [List.cons_append, parseTemplate, if_neg h1, if_neg h2, ih _ (fun x hx => hq x (List.mem_cons_of_mem _ hx))]
      simp
  have e : py"{0!s:" ++ spec ++ py"}" ++ r = '{' :: '0' :: '!' :: 's' :: ':' :: (spec ++ '}' :: r) := by simp
  rw [e]
  simpa [parseTemplate] using go spec [] h

/-- A number that is shown as a text is laid out as texts are: on the left if nothing else is asked for, and it can be cut. -/
theorem C89_shown (l : Layout) (h : l.Writable) (spec : Str) (hs : l.Written false spec) (before middle after : Str) (n : Int) :
    ∃ y, pyFormat (escape before ++ (py"{0!s:" ++ spec ++ py"}") ++ escape middle ++ py"{1}" ++ escape after) [.int n, py"{}"] =
      .ok (before ++ y ++ middle ++ py"{}" ++ after) ∧ LaidOut l (intStr n) y := by
  obtain ⟨y, h1, h2⟩ := formatArg_text h hs (intStr n)
  refine ⟨y, ?_, h2⟩
  have hb : parseTemplate none (escape after) = after.map Piece.lit := by
    have := parse_escape after []
    rw [List.append_nil] at this
    rw [this]; simp [parseTemplate]
  have hh : parseTemplate none (py"{1}" ++ escape after) = .pos 1 :: after.map Piece.lit := by
    rw [← hb]
    simp [parseTemplate, show fieldPiece ['1'] = .pos 1 by decide]
  have he := eval_lits [.int n, py"{}"] [] .manual after []
  rw [List.append_nil] at he
  have hf : ∀ inner, evalField inner [.int n, py"{}"] [] .unset py"0" (some 's') spec = .ok (y, .manual) := by
    intro inner
    have e : fieldArg [.int n, py"{}"] [] .unset py"0" = .ok (.int n, .manual) := rfl
    have ht : (py"0").takeWhile (fun c => c != '.' && c != '[') = py"0" := by decide
    simp only [evalField, ht, e, bind, Except.bind, List.drop_length, parseAccess, access, convert, no_fields (layout_chars h hs),
      Bool.false_eq_true, if_false, if_true, Arg.show, h1, pure, Except.pure]
  rw [pyFormat, List.append_assoc, List.append_assoc, List.append_assoc, parse_escape, parse_shown (layout_chars h hs), parse_escape, hh, eval_lits]
  simp only [evalPieces, hf]
  simp only [eval_lits, evalPieces, posArg]
  simp only [Bool.false_eq_true, if_false, List.getElem?_cons_succ, List.getElem?_cons_zero, he]
  simp [evalPieces, Except.map, Arg.show]

/-- The layout can be another argument of the template. The fields after it take the arguments that come next. -/
theorem C89_given (l : Layout) (h : l.Writable) (spec : Str) (hs : l.Written false spec) (middle content next : Str) :
    ∃ y, pyFormat (fieldOf [] py"{}" ++ escape middle ++ py"{}") [.str content, .str spec, .str next] =
      .ok (y ++ middle ++ next) ∧ LaidOut l content y := by
  obtain ⟨y, h1, h2⟩ := formatArg_text h hs content
  refine ⟨y, ?_, h2⟩
  have hp : parseTemplate none (fieldOf [] py"{}" ++ (escape middle ++ py"{}")) = .field [] none py"{}" :: (middle.map .lit ++ [.auto]) := by
    have e : fieldOf [] py"{}" ++ (escape middle ++ py"{}") = '{' :: ':' :: '{' :: '}' :: '}' :: (escape middle ++ py"{}") := rfl
    rw [e]
    have e2 : parseTemplate none ('{' :: ':' :: '{' :: '}' :: '}' :: (escape middle ++ py"{}")) =
        .field [] none py"{}" :: parseTemplate none (escape middle ++ py"{}") := by
      rw [parseTemplate] <;> simp [parseTemplate]
    rw [e2, parse_escape]
    simp [parseTemplate, show fieldPiece [] = .auto by decide]
  have hf : evalField (fun m s => evalSpec [.str content, .str spec, .str next] [] m (parseTemplate none s)) [.str content, .str spec, .str next] [] .unset
      [] none py"{}" = .ok (y, .auto 2) := by
    have e1 : parseTemplate none py"{}" = [.auto] := by decide
    have e2 : (py"{}").contains '{' = true := by decide
    simp only [evalField, List.takeWhile_nil, fieldArg, autoArg, bind, Except.bind, parseAccess, access, convert, e1, e2, if_true,
      List.getElem?_cons_zero, List.getElem?_cons_succ, List.drop_nil, evalSpec, Except.map, Arg.show, pure, Except.pure, List.append_nil, h1]
  rw [pyFormat, List.append_assoc, hp]
  simp only [evalPieces, hf, eval_lits, autoArg, List.getElem?_cons_zero, List.getElem?_cons_succ]
  simp [Except.map, Arg.show]

/-- Values with names, such as those of links, can have a layout too. A name does not begin with a digit. -/
theorem C89_named (l : Layout) (h : l.Writable) (spec : Str) (a : Arg) (shown : Str)
    (ha : a = .str shown ∧ l.Written false spec ∨ l.cut = none ∧ l.Written true spec ∧ ∃ n, a = .int n ∧ shown = intStr n)
    (name : Str) (hn : ∀ c ∈ name, c ∉ py"{}[].:!") (hd : ∃ c, name.head? = some c ∧ c.isDigit = false) (args : List Arg)
    (kw : List (Str × Arg)) (hk : kw.lookup name = some a) (before after : Str) :
    ∃ y, pyFormat (escape before ++ fieldOf name spec ++ escape after) args kw = .ok (before ++ y ++ after) ∧ LaidOut l shown y := by
  obtain ⟨hw, y, h1, h2⟩ : (∃ b, l.Written b spec) ∧ ∃ y, formatArg a spec = .ok y ∧ LaidOut l shown y := by
    rcases ha with ⟨rfl, hs⟩ | ⟨hc, hs, n, rfl, rfl⟩
    · exact ⟨⟨_, hs⟩, formatArg_text h hs shown⟩
    · exact ⟨⟨_, hs⟩, formatArg_number h hc hs n⟩
  obtain ⟨b, hs⟩ := hw
  refine ⟨y, ?_, h2⟩
  have hb : parseTemplate none (escape after) = after.map Piece.lit := by
    have := parse_escape after []
    rw [List.append_nil] at this
    rw [this]; simp [parseTemplate]
  have he := eval_lits args kw .unset after []
  rw [List.append_nil] at he
  have hn' : ∀ c ∈ name, c ≠ '{' ∧ c ≠ '}' ∧ c ≠ '[' ∧ c ≠ ']' ∧ c ≠ '.' ∧ c ≠ ':' ∧ c ≠ '!' := by
    intro c hc
    simpa using hn c hc
  have hf : fieldArg args kw .unset name = .ok (a, .unset) := by
    obtain ⟨c, e, hc⟩ := hd
    cases name with
    | nil => cases e
    | cons c' t =>
      cases e
      have ht : tooBig (c :: t) = false := by
        simp [tooBig, hc, decimalVal]
      have hx : (c :: t).all Char.isDigit = false := by simp [hc]
      rw [fieldArg, if_neg (by simp), ht, hx]
      simp [nameArg, hk]
  rw [pyFormat, List.append_assoc, parse_escape, parse_layout (layout_chars h hs) name _ (fun c hc => ⟨(hn' c hc).1, (hn' c hc).2.1,
    (hn' c hc).2.2.1, (hn' c hc).2.2.2.2.2.1, (hn' c hc).2.2.2.2.2.2⟩), hb, eval_lits]
  simp only [evalPieces]
  rw [evalField_first _ (layout_chars h hs) _ _ _ .unset name (fun c hc => ⟨(hn' c hc).2.2.2.2.1, (hn' c hc).2.2.1⟩) a hf y h1]
  simp only [he]
  simp [evalPieces, Except.map]

example : pyFormat py"[{link:>3}] {_x:.2}" [] [(py"link", .int 7), (py"_x", .str py"abc")] = .ok py"[  7] ab" := by decide

/-- A layout that does not cut shows the content whole. -/
theorem laidOut_infix {l : Layout} {x y : Str} (hc : l.cut = none) (h : LaidOut l x y) : x <:+: y := by
  obtain ⟨m, n, kept, rfl, -, -, h4, -⟩ := h
  rw [h4 hc]
  exact ⟨_, _, rfl⟩

/-- Such a template keeps the text (C54). -/
theorem C89_kept (l : Layout) (h : l.Writable) (hc : l.cut = none) (spec : Str) (hs : l.Written false spec) (before after : Str) :
    Placed (escape before ++ fieldOf [] spec ++ escape after) := by
  intro x y hy
  obtain ⟨z, h1, h2⟩ := C89 l h spec hs before after x
  rw [h1] at hy
  cases hy
  exact (laidOut_infix hc h2).trans ⟨before, after, rfl⟩

example : Layout.Written false ⟨'*', .middle, 9, some 3⟩ py"*^9.3" ∧ fieldOf [] py"*^9.3" = py"{:*^9.3}" ∧
    fmt1 py"<{:*^9.3}>" py"abcd" = .ok py"<***abc***>" := ⟨.full, by decide, by decide⟩

example : Layout.Written true ⟨' ', .right, 3, none⟩ py" >3" ∧ Layout.Written true ⟨' ', .right, 3, none⟩ py">3" ∧
    Layout.Written true ⟨' ', .right, 3, none⟩ py"3" ∧ Layout.Written false ⟨' ', .left, 3, none⟩ py"3" ∧
    Layout.Written false ⟨'0', .left, 3, none⟩ py"03" ∧ Layout.Written false ⟨' ', .left, 0, some 3⟩ py".3" :=
  ⟨.full, .blanks rfl (by decide), .plain rfl (by decide) rfl, .plain rfl (by decide) rfl, .zeros rfl rfl rfl, .cutOnly rfl rfl rfl rfl (by simp)⟩

example : pyFormat py"{0:3}. {1}" [.int 7, py"{}"] = .ok py"  7. {}" ∧ pyFormat py"{0:03}. {1}" [.int (-7), py"{}"] = .ok py"-07. {}" ∧
    fmt1 py"{:5}|" py"ab" = .ok py"ab   |" ∧ fmt1 py"{:05}" py"ab" = .ok py"ab000" ∧ fmt1 py"{:.1}" py"ab" = .ok py"a" := by decide

example : pyFormat py"{0!s:3}. {1}" [.int 7, py"{}"] = .ok py"7  . {}" ∧ pyFormat py"{0!s:.1}. {1}" [.int 76, py"{}"] = .ok py"7. {}" ∧
    pyFormat py"{:{}}|{}" [.str py"ab", .str py">4", .str py"c"] = .ok py"  ab|c" := by decide

example : Layout.Writable ⟨'*', .middle, 9, some 3⟩ := ⟨by decide, by decide, by intro p hp; cases hp; decide⟩

/-- Numbers below one another. -/
def alignedItems : RClass := .sub .olItem [(py"line_template", .str py"{0: >2}. {1}"), (py"start_index", .int 9)]

/-- `<ol><li>a</li><li>b</li></ol>`, the numbers in two columns -/
example : renderEvents asciiUni {
      box := some (Box.new 10 {} {} {} none none)
      optimise := false
      renderers := [⟨py"ol > li", one (.comb (elt py"ol") .child (elt py"li")), .cls alignedItems⟩] }
    [.start py"ol" [], .start py"li" [], .data py"a", .stop py"li", .start py"li" [], .data py"b", .stop py"li", .stop py"ol"] =
    .ok py"\n 9. a     \n10. b     \n" := by decide +kernel

/-- The box of a block counts the characters of the template without two, whatever is in its field. So lines of a quotation that are
filled up to 12 columns are longer than a page of 8 columns. -/
theorem C89_room_fails : renderEvents asciiUni {
      box := some (Box.new 8 {} {} {} none none)
      optimise := false
      renderers := [⟨py"blockquote", one (elt py"blockquote"), .pair (some .blockQuote) (some [(py"line_template", .str py"{:12}|")])⟩] }
    [.start py"blockquote" [], .data py"ab", .stop py"blockquote"] = .ok py"\nab          |\n" := by decide +kernel

/-- Content in a format specification that is no text: the template is for numbers. -/
example : fmt1 py"{:d}" py"x" = .error .valueError ∧ pyFormat py"{0:.2}. {1}" [.int 3, py"{}"] = .error .valueError := by decide

end Verif
