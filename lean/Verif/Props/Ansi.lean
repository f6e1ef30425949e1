import Verif.Spec.Ansi
import Verif.Props.Wrap
import Verif.Props.Settings
import Verif.Proofs.Format
import Verif.Props.Items

/-!
# Colours and styled text
-/

namespace Verif

open Spec

/-! ## C53 -/

theorem hex_digit {c : Char} {v : Nat} (h : Hex c v) : digitVal 16 c = some v ∧ v < 16 ∧ isSpace c = false ∧
    c ≠ '_' ∧ c ≠ '-' ∧ c ≠ '+' ∧ c ≠ 'x' ∧ c ≠ 'X' ∧ c ≠ '#' := by
  have key : ∀ (l : Str) (k : Nat), (∀ n, n < l.length → ∃ c, l[n]? = some c ∧ (digitVal 16 c = some (k + n) ∧ k + n < 16 ∧
      isSpace c = false ∧ c ≠ '_' ∧ c ≠ '-' ∧ c ≠ '+' ∧ c ≠ 'x' ∧ c ≠ 'X' ∧ c ≠ '#')) → ∀ n c, l[n]? = some c →
      digitVal 16 c = some (k + n) ∧ k + n < 16 ∧
      isSpace c = false ∧ c ≠ '_' ∧ c ≠ '-' ∧ c ≠ '+' ∧ c ≠ 'x' ∧ c ≠ 'X' ∧ c ≠ '#' := by
    intro l k h n c hc
    obtain ⟨c', h1, h2⟩ := h n (by
      rcases Nat.lt_or_ge n l.length with hl | hl
      · exact hl
      · rw [List.getElem?_eq_none hl] at hc; cases hc)
    rw [hc] at h1
    cases h1
    exact h2
  cases h with
  | digit _ _ h =>
    have := key py"0123456789" 0 (by
      intro n hn
      simp only [List.length_cons, List.length_nil] at hn
      rcases n with _|_|_|_|_|_|_|_|_|_|n <;> first | omega | exact ⟨_, rfl, by decide⟩) _ _ h
    simpa using this
  | lower _ _ h =>
    exact key py"abcdef" 10 (by
      intro n hn
      simp only [List.length_cons, List.length_nil] at hn
      rcases n with _|_|_|_|_|_|n <;> first | omega | exact ⟨_, rfl, by decide⟩) _ _ h
  | upper _ _ h =>
    exact key py"ABCDEF" 10 (by
      intro n hn
      simp only [List.length_cons, List.length_nil] at hn
      rcases n with _|_|_|_|_|_|n <;> first | omega | exact ⟨_, rfl, by decide⟩) _ _ h

theorem hex_pair {a b : Char} {v w : Nat} (ha : Hex a v) (hb : Hex b w) : pyInt 16 [a, b] = some ((16 * v + w : Nat) : Int) := by
  obtain ⟨a1, -, a2, a3, a4, a5, -, -, -⟩ := hex_digit ha
  obtain ⟨b1, -, b2, b3, b4, b5, b6, b7, -⟩ := hex_digit hb
  have e1 : strip [a, b] = [a, b] := by simp [strip, lstrip, rstrip, a2, b2]
  have e2 : pySign [a, b] = (false, [a, b]) := by
    unfold pySign
    split
    · rename_i h; simp at h; exact absurd h.1 a4
    · rename_i h; simp at h; exact absurd h.1 a5
    · rfl
  have e3 : dropHexPrefix 16 [a, b] = [a, b] := by
    unfold dropHexPrefix
    split
    · rename_i h; simp at h; rw [if_neg (by simp [← h.2.1, b6, b7])]; simp [h]
    · rfl
  simp [pyInt, e1, e2, e3, digitsVal, a1, b1, a3, b3]

/-- `#rrggbb` is read as its three bytes and `#rgb` as `#rrggbb` with each digit doubled; all are below 256. -/
theorem C53 (s : Str) (r g b : Nat) (h : HtmlColour s (r, g, b)) :
    parseHtmlColour s = .ok ((r : Int), (g : Int), (b : Int)) ∧ r < 256 ∧ g < 256 ∧ b < 256 := by
  have six : ∀ (a a' b b' c c' : Char) (v : Nat × Nat × Nat), HtmlColour ['#', a, a', b, b', c, c'] v →
      parseHtmlColour [a, a', b, b', c, c'] = .ok ((v.1 : Int), (v.2.1 : Int), (v.2.2 : Int)) ∧
      parseHtmlColour ['#', a, a', b, b', c, c'] = .ok ((v.1 : Int), (v.2.1 : Int), (v.2.2 : Int)) ∧ a ≠ '#' ∧ b ≠ '#' ∧ c ≠ '#' ∧
      v.1 < 256 ∧ v.2.1 < 256 ∧ v.2.2 < 256 := by
    intro a a' b b' c c' v hv
    cases hv with
    | six h1 h2 h3 h4 h5 h6 =>
      have hn := (hex_digit h1).2.2.2.2.2.2.2.2
      have l1 : lstripCh '#' [a, a', b, b', c, c'] = [a, a', b, b', c, c'] := by simp [lstripCh, hn]
      have l2 : lstripCh '#' ['#', a, a', b, b', c, c'] = [a, a', b, b', c, c'] := by simp [lstripCh, hn]
      have hb1 := (hex_digit h1).2.1
      have hb2 := (hex_digit h2).2.1
      have hb3 := (hex_digit h3).2.1
      have hb4 := (hex_digit h4).2.1
      have hb5 := (hex_digit h5).2.1
      have hb6 := (hex_digit h6).2.1
      refine ⟨?_, ?_, hn, (hex_digit h3).2.2.2.2.2.2.2.2, (hex_digit h5).2.2.2.2.2.2.2.2, ?_, ?_, ?_⟩
      · simp [parseHtmlColour, l1, hexPair, hex_pair h1 h2, hex_pair h3 h4, hex_pair h5 h6, bind, Except.bind, pure, Except.pure]
      · simp [parseHtmlColour, l2, hexPair, hex_pair h1 h2, hex_pair h3 h4, hex_pair h5 h6, bind, Except.bind, pure, Except.pure]
      all_goals (simp only; omega)
  cases h with
  | six h1 h2 h3 h4 h5 h6 =>
    obtain ⟨-, e, -, -, -, k⟩ := six _ _ _ _ _ _ _ (.six h1 h2 h3 h4 h5 h6)
    exact ⟨e, k⟩
  | three h =>
    rename_i a b c
    obtain ⟨e, -, n1, n2, n3, k⟩ := six _ _ _ _ _ _ _ h
    refine ⟨?_, k⟩
    rw [← e]
    have l1 : lstripCh '#' [a, a, b, b, c, c] = [a, a, b, b, c, c] := by simp [lstripCh, n1]
    have l2 : lstripCh '#' ['#', a, b, c] = [a, b, c] := by simp [lstripCh, n1]
    simp only [parseHtmlColour, l1, l2]

/-- Any number of signs may stand before the digits. -/
theorem C53_signs (n : Nat) (s : Str) (r g b : Nat) (h : HtmlColour ('#' :: s) (r, g, b)) :
    parseHtmlColour (List.replicate n '#' ++ s) = .ok ((r : Int), (g : Int), (b : Int)) := by
  have strip : ∀ n, lstripCh '#' (List.replicate n '#' ++ s) = lstripCh '#' s := by
    intro n
    induction n with
    | zero => rfl
    | succ n ih => rw [List.replicate_succ, List.cons_append]; simp [lstripCh] at ih ⊢
  have e : ∀ n, parseHtmlColour (List.replicate n '#' ++ s) = parseHtmlColour s := fun n => by simp only [parseHtmlColour, strip]
  rw [e, ← e 1]
  exact (C53 _ r g b h).1

example : parseHtmlColour py"1aF" = .ok (17, 170, 255) ∧ parseHtmlColour py"##11aaFf" = .ok (17, 170, 255) := by decide

/-- Every string of three or six hexadecimal digits denotes a colour. -/
theorem C53_total (ds : Str) (hd : ∀ c ∈ ds, ∃ v, Hex c v) (hl : ds.length = 3 ∨ ds.length = 6) :
    ∃ r g b, HtmlColour ('#' :: ds) (r, g, b) := by
  rcases ds with _|⟨a, _|⟨b, _|⟨c, _|⟨d, _|⟨e, _|⟨f, _|⟨g, ds⟩⟩⟩⟩⟩⟩⟩ <;>
    simp only [List.length_cons, List.length_nil] at hl <;> try omega
  · obtain ⟨va, ha⟩ := hd a (by simp)
    obtain ⟨vb, hb⟩ := hd b (by simp)
    obtain ⟨vc, hc⟩ := hd c (by simp)
    exact ⟨_, _, _, .three (.six ha ha hb hb hc hc)⟩
  · obtain ⟨va, ha⟩ := hd a (by simp)
    obtain ⟨vb, hb⟩ := hd b (by simp)
    obtain ⟨vc, hc⟩ := hd c (by simp)
    obtain ⟨vd, hd'⟩ := hd d (by simp)
    obtain ⟨ve, he⟩ := hd e (by simp)
    obtain ⟨vf, hf⟩ := hd f (by simp)
    exact ⟨_, _, _, .six ha hb hc hd' he hf⟩

example : HtmlColour py"#1aF" (17, 170, 255) ∧ parseHtmlColour py"#1aF" = .ok (17, 170, 255) ∧
    parseHtmlColour py"#11aaFf" = .ok (17, 170, 255) := by
  refine ⟨.three (.six (.digit 1 _ rfl) (.digit 1 _ rfl) (.lower 0 _ rfl) (.lower 0 _ rfl) (.upper 5 _ rfl) (.upper 5 _ rfl)), ?_, ?_⟩ <;>
    decide

/-! ## C52 -/

theorem seq_text (n : Nat) : ansiSeq (intStr n) = sgrText [n] := by
  simp [ansiSeq, sgrText, intStr_nat, join]

theorem sgrText_seq (u : Uni) (codes : List Nat) : AnsiSeq u (sgrText codes) := by
  refine ⟨join py";" (codes.map natStr), ?_, by simp [sgrText]⟩
  have hd : ∀ n c, c ∈ natStr n → u.isDigit c = true := by
    intro n c hc
    have h2 : c.isDigit = true := Nat.isDigit_of_mem_toDigits (by omega) (by omega) hc
    simp only [Char.isDigit, Bool.and_eq_true, decide_eq_true_eq] at h2
    exact u.digit_ascii c h2.1 h2.2
  induction codes with
  | nil => intro c hc; simp [join] at hc
  | cons n codes ih =>
    intro c hc
    cases codes with
    | nil => simp only [List.map, join] at hc; exact .inr (hd n c hc)
    | cons m codes =>
      simp only [List.map, join] at hc ih
      rcases List.mem_append.1 hc with hc | hc
      · rcases List.mem_append.1 hc with hc | hc
        · exact .inr (hd n c hc)
        · simp at hc; exact .inl hc
      · exact ih c hc

theorem seq_noesc {u : Uni} {q : Str} (h : AnsiSeq u q) : ∃ r, q = '\x1b' :: r ∧ '\x1b' ∉ r := by
  obtain ⟨ds, hds, rfl⟩ := h
  refine ⟨'[' :: ds ++ py"m", by simp, ?_⟩
  have := digits_ne_esc hds
  simp
  intro h
  exact this _ h rfl

theorem strips_before {u : Uni} {s t : Str} (qs : List (List Nat)) (h : Strips u s t) :
    Strips u ((qs.map sgrText).flatten ++ s) t := by
  induction qs with
  | nil => exact h
  | cons q qs ih =>
    simp only [List.map_cons, List.flatten_cons, List.append_assoc]
    exact .seq (sgrText_seq u q) ih

theorem strips_after {u : Uni} {s t : Str} (qs : List (List Nat)) (h : Strips u s t) :
    Strips u (s ++ (qs.map sgrText).flatten) t := by
  induction h with
  | nil => simpa using strips_before qs (.nil (u := u))
  | seq hq r ih => rw [List.append_assoc]; exact .seq hq ih
  | other hn r ih =>
    rename_i c s t
    refine .other ?_ ih
    intro q r hq e
    have e : (c :: s) ++ (qs.map sgrText).flatten = q ++ r := e
    rw [List.append_eq_append_iff] at e
    rcases e with ⟨x, e1, e2⟩ | ⟨x, e1, e2⟩
    · cases qs with
      | nil => simp at e2; exact hn q [] hq (by simp [e1, e2.1])
      | cons p ps =>
        cases x with
        | nil => exact hn q [] hq (by simp [e1])
        | cons y x =>
          have : y = '\x1b' := by
            simp [sgrText] at e2
            exact e2.1.symm
          obtain ⟨r', e3, e4⟩ := seq_noesc hq
          rw [e1, List.cons_append, List.cons.injEq] at e3
          exact e4 (by rw [← e3.2, this]; simp)
    · exact hn q x hq e1

/-! ### The settings of the renderer are all there -/

theorem update_some {d e : Dict} {k : Str} (h : (DictOf.get d k).isSome) : (DictOf.get (DictOf.update d e) k).isSome := by
  rw [DictOf.get_update]
  split
  · rfl
  · exact h

theorem new_some {c : RClass} {s : Dict} {k : Str} (h : (DictOf.get (newSettings c) k).isSome) :
    (DictOf.get (newSettings (.sub c s)) k).isSome := by
  unfold newSettings at h ⊢
  rw [RClass.chain, dedupe_snoc]
  split
  · exact h
  · rw [List.foldl_append]
    exact update_some h

theorem behaviour_some (k : Str) : ∀ (c : RClass), (DictOf.get (newSettings c.behaviour) k).isSome →
    (DictOf.get (newSettings c) k).isSome
  | .sub b _, h => new_some (behaviour_some k b h)
  | .renderer, h | .nonRenderer, h | .inline, h | .block, h | .header, h | .mdHeader, h | .paragraph, h | .code, h | .pre, h
  | .link, h | .extractedLink, h | .image, h | .extractedImage, h | .em, h | .strong, h | .underline, h | .strike, h | .brk, h
  | .blockQuote, h | .list, h | .listItem, h | .olItem, h | .defList, h | .defTerm, h | .defItem, h | .ansi, h => h

theorem ansi_some {c : RClass} {t : TagInfo} {ctx : Ctx} {box : Box} {i : Inst} (hc : c.behaviour = .ansi)
    (h : construct c t ctx box = .ok i) (k : Str) (hk : (DictOf.get (newSettings .ansi) k).isSome) :
    ∃ v, DictOf.get i.settings k = some v := by
  obtain ⟨h1, -⟩ := construct_settings h
  simp only [initSettings, hc, Except.ok.injEq] at h1
  rw [← Option.isSome_iff_exists, ← h1]
  have := behaviour_some k c (by rw [hc]; exact hk)
  unfold adjust
  split
  · exact update_some this
  · exact this

/-! ### The codes -/

def flagged (s : Dict) (e : Str) : Bool := match DictOf.get s e with | some v => v.truthy | none => false

theorem effectCodes_eq (s : Dict) (norm : Bool) (T : List (Str × Nat × Nat))
    (hT : ∀ e ∈ T, ∃ v, DictOf.get s e.1 = some v) :
    effectCodes s norm (T.map (fun e => (e.1, (e.2.1 : Int), (e.2.2 : Int)))) =
      .ok ((((T.filter (fun e => flagged s e.1)).map (fun e => [e.2.1])).map sgrText).flatten,
        ((if norm then [] else (T.filter (fun e => flagged s e.1)).map (fun e => [e.2.2])).map sgrText).flatten) := by
  induction T with
  | nil => cases norm <;> rfl
  | cons e T ih =>
    obtain ⟨v, hv⟩ := hT e (by simp)
    simp only [List.map_cons, effectCodes, getK, hv, bind, Except.bind, ih (fun e he => hT e (List.mem_cons_of_mem _ he)), pure,
      Except.pure]
    have hf : flagged s e.1 = v.truthy := by simp [flagged, hv]
    rw [List.filter_cons, hf]
    by_cases ht : v.truthy = true
    · rw [if_pos ht, if_pos ht]
      cases norm <;> simp [seq_text]
    · rw [if_neg ht, if_neg ht]

/-- The table of effects, with the effects each second code switches off. -/
def effectTable : List (Str × Nat × Nat) :=
  [(py"bold", 1, 22), (py"faint", 2, 22), (py"italic", 3, 23), (py"fraktur", 20, 23), (py"underline", 4, 24),
   (py"slow_blink", 5, 25), (py"rapid_blink", 6, 25), (py"invert", 7, 27), (py"conceal", 8, 28),
   (py"crossed_out", 9, 29), (py"framed", 51, 54), (py"encircled", 52, 54), (py"overlined", 53, 55)]

theorem table_names : effectTable.map Prod.fst = effectNames := rfl

theorem on_table : ∀ e ∈ effectTable, ∀ l, sgr l [e.2.1] = l.on e.1 := by
  simp only [effectTable, List.mem_cons, List.not_mem_nil, or_false]
  rintro e (rfl | rfl | rfl | rfl | rfl | rfl | rfl | rfl | rfl | rfl | rfl | rfl | rfl) l <;> rfl

theorem off_table : ∀ e ∈ effectTable, ∃ g, e.1 ∈ g ∧ ∀ l, sgr l [e.2.2] = l.off g := by
  simp only [effectTable, List.mem_cons, List.not_mem_nil, or_false]
  rintro e (rfl | rfl | rfl | rfl | rfl | rfl | rfl | rfl | rfl | rfl | rfl | rfl | rfl) <;>
    exact ⟨_, by decide, fun l => rfl⟩

theorem on_fold (T : List (Str × Nat × Nat)) (hT : ∀ e ∈ T, e ∈ effectTable) (l : Look) :
    (((T.map (fun e => [e.2.1])).foldl sgr l).fg = l.fg ∧ ((T.map (fun e => [e.2.1])).foldl sgr l).bg = l.bg ∧
      ∀ x, ((T.map (fun e => [e.2.1])).foldl sgr l).effects x = true ↔ x ∈ T.map Prod.fst ∨ l.effects x = true) := by
  induction T generalizing l with
  | nil => simp
  | cons e T ih =>
    simp only [List.map_cons, List.foldl_cons, on_table e (hT e (by simp))]
    obtain ⟨h1, h2, h3⟩ := ih (fun e he => hT e (List.mem_cons_of_mem _ he)) (l.on e.1)
    refine ⟨h1, h2, fun x => ?_⟩
    rw [h3 x]
    simp only [Look.on, List.mem_cons]
    by_cases hx : x = e.1 <;> simp [hx]

theorem off_fold (T : List (Str × Nat × Nat)) (hT : ∀ e ∈ T, e ∈ effectTable) (l : Look) :
    (((T.map (fun e => [e.2.2])).foldl sgr l).fg = l.fg ∧ ((T.map (fun e => [e.2.2])).foldl sgr l).bg = l.bg ∧
      ∀ x, ((T.map (fun e => [e.2.2])).foldl sgr l).effects x = true → x ∉ T.map Prod.fst ∧ l.effects x = true) := by
  induction T generalizing l with
  | nil => simp
  | cons e T ih =>
    obtain ⟨g, hg, hs⟩ := off_table e (hT e (by simp))
    simp only [List.map_cons, List.foldl_cons, hs]
    obtain ⟨h1, h2, h3⟩ := ih (fun e he => hT e (List.mem_cons_of_mem _ he)) (l.off g)
    refine ⟨h1, h2, fun x hx => ?_⟩
    obtain ⟨k1, k2⟩ := h3 x hx
    simp only [Look.off] at k2
    by_cases hm : x ∈ g
    · simp [hm] at k2
    · rw [if_neg hm] at k2
      refine ⟨?_, k2⟩
      simp only [List.mem_cons, not_or]
      exact ⟨fun e => hm (e ▸ hg), k1⟩

theorem colour_truthy {v : Val} {c : Colour} (h : ColourIs v c) : v.truthy = true := by
  cases h with
  | named n s h =>
    rcases n with _|_|_|_|_|_|_|_|_|_|_|_|_|_|_|_|n <;> simp [colourNames] at h <;> subst h <;> rfl
  | palette n h1 h2 => simp [Val.truthy]; omega
  | rgb => rfl
  | html s r g b h => cases h <;> rfl

theorem html_unnamed {s : Str} {v : Nat × Nat × Nat} (h : HtmlColour s v) : ansiColours.lookup s = none := by
  cases h <;> simp [ansiColours, List.lookup]

theorem colour_codes {v : Val} {c : Colour} (h : ColourIs v c) :
    (∃ codes, colourSeq v false = .ok (join py";" (codes.map natStr)) ∧ ∀ l, sgr l codes = { l with fg := some c }) ∧
    (∃ codes, colourSeq v true = .ok (join py";" (codes.map natStr)) ∧ ∀ l, sgr l codes = { l with bg := some c }) := by
  cases h with
  | named n s h =>
    rcases n with _|_|_|_|_|_|_|_|_|_|_|_|_|_|_|_|n <;> simp [colourNames] at h <;> subst h
    · exact ⟨⟨[30], rfl, fun _ => rfl⟩, [40], rfl, fun _ => rfl⟩
    · exact ⟨⟨[31], rfl, fun _ => rfl⟩, [41], rfl, fun _ => rfl⟩
    · exact ⟨⟨[32], rfl, fun _ => rfl⟩, [42], rfl, fun _ => rfl⟩
    · exact ⟨⟨[33], rfl, fun _ => rfl⟩, [43], rfl, fun _ => rfl⟩
    · exact ⟨⟨[34], rfl, fun _ => rfl⟩, [44], rfl, fun _ => rfl⟩
    · exact ⟨⟨[35], rfl, fun _ => rfl⟩, [45], rfl, fun _ => rfl⟩
    · exact ⟨⟨[36], rfl, fun _ => rfl⟩, [46], rfl, fun _ => rfl⟩
    · exact ⟨⟨[37], rfl, fun _ => rfl⟩, [47], rfl, fun _ => rfl⟩
    · exact ⟨⟨[90], rfl, fun _ => rfl⟩, [100], rfl, fun _ => rfl⟩
    · exact ⟨⟨[91], rfl, fun _ => rfl⟩, [101], rfl, fun _ => rfl⟩
    · exact ⟨⟨[92], rfl, fun _ => rfl⟩, [102], rfl, fun _ => rfl⟩
    · exact ⟨⟨[93], rfl, fun _ => rfl⟩, [103], rfl, fun _ => rfl⟩
    · exact ⟨⟨[94], rfl, fun _ => rfl⟩, [104], rfl, fun _ => rfl⟩
    · exact ⟨⟨[95], rfl, fun _ => rfl⟩, [105], rfl, fun _ => rfl⟩
    · exact ⟨⟨[96], rfl, fun _ => rfl⟩, [106], rfl, fun _ => rfl⟩
    · exact ⟨⟨[97], rfl, fun _ => rfl⟩, [107], rfl, fun _ => rfl⟩
  | palette n h1 h2 => exact ⟨⟨[38, 5, n], rfl, fun _ => rfl⟩, [48, 5, n], rfl, fun _ => rfl⟩
  | rgb r g b h1 h2 h3 =>
    refine ⟨⟨[38, 2, r, g, b], ?_, fun _ => rfl⟩, [48, 2, r, g, b], ?_, fun _ => rfl⟩ <;>
      simp [colourSeq, rgbSeq, join, intStr_nat] <;> rfl
  | html s r g b h =>
    refine ⟨⟨[38, 2, r, g, b], ?_, fun _ => rfl⟩, [48, 2, r, g, b], ?_, fun _ => rfl⟩ <;>
      simp [colourSeq, html_unnamed h, (C53 s r g b h).1, rgbSeq, join, intStr_nat, bind, Except.bind, pure, Except.pure] <;> rfl

theorem enabled_iff (s : Dict) (x : Str) : Enabled s x ↔ x ∈ (effectTable.filter (fun e => flagged s e.1)).map Prod.fst := by
  have hf : flagged s x = true ↔ ∃ v, DictOf.get s x = some v ∧ v.truthy = true := by
    unfold flagged
    cases DictOf.get s x <;> simp
  rw [Enabled, ← table_names, ← hf]
  simp only [List.mem_map, List.mem_filter]
  constructor
  · rintro ⟨⟨e, h1, rfl⟩, h2⟩
    exact ⟨e, ⟨h1, h2⟩, rfl⟩
  · rintro ⟨e, ⟨h1, h2⟩, rfl⟩
    exact ⟨⟨e, h1, rfl⟩, h2⟩

theorem foreground_codes {s : Dict} {norm : Bool} {v : Val} {c : Option Colour} (hv : DictOf.get s py"foreground_colour" = some v)
    (h : Chosen v c) : ∃ on off : List (List Nat), colourCodes s norm py"foreground_colour" false 39 =
      .ok ((on.map sgrText).flatten, ((if norm then [] else off).map sgrText).flatten) ∧
      (∀ l, on.foldl sgr l = { l with fg := c.or l.fg }) ∧
      ∀ l, off.foldl sgr l = { l with fg := if c = none then l.fg else none } := by
  rcases h with ⟨rfl, rfl⟩ | ⟨c, h, rfl⟩
  · refine ⟨[], [], ?_, fun l => rfl, fun l => rfl⟩
    cases norm <;> simp [colourCodes, getA, hv, bind, Except.bind, pure, Except.pure, Val.truthy]
  · obtain ⟨⟨codes, e1, e2⟩, -⟩ := colour_codes h
    refine ⟨[codes], [[39]], ?_, fun l => e2 l, fun l => rfl⟩
    simp only [colourCodes, getA, hv, bind, Except.bind, pure, Except.pure, colour_truthy h, if_true, e1]
    cases norm <;> simp [ansiSeq, sgrText, join] <;> rfl

theorem background_codes {s : Dict} {norm : Bool} {v : Val} {c : Option Colour} (hv : DictOf.get s py"background_colour" = some v)
    (h : Chosen v c) : ∃ on off : List (List Nat), colourCodes s norm py"background_colour" true 49 =
      .ok ((on.map sgrText).flatten, ((if norm then [] else off).map sgrText).flatten) ∧
      (∀ l, on.foldl sgr l = { l with bg := c.or l.bg }) ∧
      ∀ l, off.foldl sgr l = { l with bg := if c = none then l.bg else none } := by
  rcases h with ⟨rfl, rfl⟩ | ⟨c, h, rfl⟩
  · refine ⟨[], [], ?_, fun l => rfl, fun l => rfl⟩
    cases norm <;> simp [colourCodes, getA, hv, bind, Except.bind, pure, Except.pure, Val.truthy]
  · obtain ⟨-, codes, e1, e2⟩ := colour_codes h
    refine ⟨[codes], [[49]], ?_, fun l => e2 l, fun l => rfl⟩
    simp only [colourCodes, getA, hv, bind, Except.bind, pure, Except.pure, colour_truthy h, if_true, e1]
    cases norm <;> simp [ansiSeq, sgrText, join] <;> rfl

/-- A style renderer with any combination of settings except `font`: it puts sequences before and after the text in its
template, which show it in exactly the chosen style and return the terminal to its normal state, and removing the
sequences leaves the text. Missing: `font`, see `C52_fails`; colour number 0, see `C52_zero_fails`. -/
theorem C52_partial (u : Uni) (c : RClass) (t : TagInfo) (ctx : Ctx) (box : Box) (inst : Inst) (hc : c.behaviour = .ansi)
    (h : construct c t ctx box = .ok inst) (hfont : DictOf.get inst.settings py"font" = some .none)
    (vf vb : Val) (fg bg : Option Colour) (hvf : DictOf.get inst.settings py"foreground_colour" = some vf) (hf : Chosen vf fg)
    (hvb : DictOf.get inst.settings py"background_colour" = some vb) (hb : Chosen vb bg) :
    ∃ on off : List (List Nat),
      (∀ content inner, inlineRender u inst.settings content = .ok inner →
        inst.render u content = .ok ((on.map sgrText).flatten ++ inner ++ (off.map sgrText).flatten)) ∧
      ((on.foldl sgr plainLook).fg = fg ∧ (on.foldl sgr plainLook).bg = bg ∧
        ∀ x, (on.foldl sgr plainLook).effects x = true ↔ Enabled inst.settings x) ∧
      (∀ l : Look, (∀ x, l.effects x = true → Enabled inst.settings x) → (l.fg ≠ none → fg ≠ none) → (l.bg ≠ none → bg ≠ none) →
        off.foldl sgr l = plainLook) ∧
      ∀ inner p, Strips u inner p → Strips u ((on.map sgrText).flatten ++ inner ++ (off.map sgrText).flatten) p := by
  have hall : ∀ e ∈ effectTable, ∃ v, DictOf.get inst.settings e.1 = some v := by
    intro e he
    refine ansi_some hc h e.1 ?_
    revert e
    simp only [effectTable, List.mem_cons, List.not_mem_nil, or_false]
    rintro e (rfl | rfl | rfl | rfl | rfl | rfl | rfl | rfl | rfl | rfl | rfl | rfl | rfl) <;> rfl
  obtain ⟨vn, hvn⟩ := ansi_some hc h py"normalise" rfl
  have hcls : inst.cls = .ansi ∧ inst.box = none := by
    obtain ⟨-, h2, -, -, h3⟩ := construct_settings h
    rw [isBlock_behaviour, hc] at h3
    exact ⟨h2.trans hc, by simpa [RClass.isBlock] using h3⟩
  have hren : ∀ content, inst.render u content = ansiRender u inst.settings content := by
    intro content
    simp only [Inst.render, hcls.1, hcls.2]
  have htab : ansiEffects = effectTable.map (fun e => (e.1, (e.2.1 : Int), (e.2.2 : Int))) := rfl
  obtain ⟨on2, off2, f1, f2, f3⟩ := foreground_codes (norm := vn.truthy) hvf hf
  obtain ⟨on3, off3, b1, b2, b3⟩ := background_codes (norm := vn.truthy) hvb hb
  have hT : ∀ e ∈ effectTable.filter (fun e => flagged inst.settings e.1), e ∈ effectTable := fun e he => (List.mem_filter.1 he).1
  have hen := enabled_iff inst.settings
  have hout := effectCodes_eq inst.settings vn.truthy effectTable hall
  generalize effectTable.filter (fun e => flagged inst.settings e.1) = T at hT hen hout
  refine ⟨T.map (fun e => [e.2.1]) ++ on2 ++ on3,
    if vn.truthy then [[0]] else T.map (fun e => [e.2.2]) ++ off2 ++ off3, ?_, ?_, ?_, ?_⟩
  · intro content inner hi
    rw [hren]
    simp only [ansiRender, hi, bind, Except.bind, getA, hvn, hfont, htab, hout, f1, b1, pure, Except.pure, Except.ok.injEq]
    cases vn.truthy <;> simp [sgrText, ansiSeq, join] <;> rfl
  · obtain ⟨g1, g2, g3⟩ := on_fold T hT plainLook
    simp only [List.foldl_append, f2, b2]
    refine ⟨by rw [g1]; simp [plainLook], by rw [g2]; simp [plainLook], fun x => ?_⟩
    rw [g3 x, hen x]
    simp [plainLook]
  · intro l h1 h2 h3
    cases vn.truthy with
    | true => rfl
    | false =>
      obtain ⟨g1, g2, g3⟩ := off_fold T hT l
      simp only [Bool.false_eq_true, if_false, List.foldl_append, f3, b3, plainLook, Look.mk.injEq, g1, g2]
      refine ⟨?_, ?_, ?_⟩
      · funext x
        cases hx : ((T.map (fun e => [e.2.2])).foldl sgr l).effects x with
        | false => rfl
        | true =>
          obtain ⟨k1, k2⟩ := g3 x hx
          exact absurd ((hen x).1 (h1 x k2)) k1
      · split
        · rename_i e; exact Classical.byContradiction fun n => h2 n e
        · rfl
      · split
        · rename_i e; exact Classical.byContradiction fun n => h3 n e
        · rfl
  · intro inner p hp
    exact strips_after _ (strips_before _ hp)

/-- The text in the template is the content, if the template is the default one and capitals are not asked for. -/
theorem C52_content (u : Uni) (s : Dict) (h1 : DictOf.get s py"capitalized" = some (.bool false))
    (h2 : DictOf.get s py"template" = some (.str py"{}")) (content : Str) : inlineRender u s content = .ok content := by
  have := inlineRender_of (u := u) (a := []) (b := []) h1 h2 (by decide) (by decide) content
  simpa using this

/-- Bold, red on `#00f`. -/
example : (match construct .ansi ⟨none, none, [], none⟩ ⟨some [(py"bold", .bool true), (py"foreground_colour", .str py"red"),
      (py"background_colour", .str py"#00f")], none, none⟩ (Box.new 9 {} {} {} none none) with
    | .ok i => decide (i.render asciiUni py"x" = .ok py"\x1b[1m\x1b[31m\x1b[48;2;0;0;255mx\x1b[22m\x1b[39m\x1b[49m")
    | _ => false) = true := by decide

/-- Any `font` setting raises `NameError`. -/
theorem C52_fails (u : Uni) (c : RClass) (t : TagInfo) (ctx : Ctx) (box : Box) (inst : Inst) (hc : c.behaviour = .ansi)
    (h : construct c t ctx box = .ok inst) (v : Val) (hv : v ≠ .none) (hfont : DictOf.get inst.settings py"font" = some v)
    (content inner : Str) (hi : inlineRender u inst.settings content = .ok inner) :
    inst.render u content = .error .nameError := by
  have hall : ∀ e ∈ effectTable, ∃ v, DictOf.get inst.settings e.1 = some v := by
    intro e he
    refine ansi_some hc h e.1 ?_
    revert e
    simp only [effectTable, List.mem_cons, List.not_mem_nil, or_false]
    rintro e (rfl | rfl | rfl | rfl | rfl | rfl | rfl | rfl | rfl | rfl | rfl | rfl | rfl) <;> rfl
  obtain ⟨vn, hvn⟩ := ansi_some hc h py"normalise" rfl
  have hcls : inst.cls = .ansi ∧ inst.box = none := by
    obtain ⟨-, h2, -, -, h3⟩ := construct_settings h
    rw [isBlock_behaviour, hc] at h3
    exact ⟨h2.trans hc, by simpa [RClass.isBlock] using h3⟩
  have hren : inst.render u content = ansiRender u inst.settings content := by
    simp only [Inst.render, hcls.1, hcls.2]
  have htab : ansiEffects = effectTable.map (fun e => (e.1, (e.2.1 : Int), (e.2.2 : Int))) := rfl
  have hout := effectCodes_eq inst.settings vn.truthy effectTable hall
  rw [hren]
  simp only [ansiRender, hi, bind, Except.bind, getA, hvn, hfont, htab, hout]

example : (match construct .ansi ⟨none, none, [], none⟩ ⟨some [(py"font", .int 1)], none, none⟩ (Box.new 9 {} {} {} none none) with
    | .ok i => decide (DictOf.get i.settings py"font" = some (.int 1) ∧ i.render asciiUni py"x" = .error .nameError)
    | _ => false) = true := by decide

/-- The first colour of the palette (black) has no effect. -/
theorem C52_zero_fails : (match construct .ansi ⟨none, none, [], none⟩ ⟨some [(py"foreground_colour", .int 0)], none, none⟩
      (Box.new 9 {} {} {} none none) with
    | .ok i => decide (i.render asciiUni py"x" = .ok py"x")
    | _ => false) = true := by decide

end Verif
