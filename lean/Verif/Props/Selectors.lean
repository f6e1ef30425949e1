import Verif.Proofs.Selectors
import Verif.Props.Tree

/-!
# Properties of selector matching: C01 to C04
-/

namespace Verif

open Spec

theorem reach_selInv {u : Uni} {c : Cfg} {s0 s : PState} {es : List Event} (h0 : initParser c = .ok s0)
    (h : feed u c s0 es = .ok s) : SelInv s.dom (srcAttrs es) := by
  have hinv := reach_inv h0 h
  rw [initParser_eq h0] at h
  have hl := feed_labelled (s := {}) init_inv init_labelled h
  rw [List.nil_append] at hl
  exact selInv_of hinv hl

theorem isElem_node {d : Dom} {src} (h : SelInv d src) {i : Nat} (hi : IsElem d i) :
    ∃ n, d.nodes[i]? = some n ∧ n.data = none := tag_elem h ((isTag_iff d i).2 hi)

/-! ## C01 -/

/-- Matching never raises and agrees with the CSS meaning of the selector. -/
theorem C01 (u : Uni) (c : Cfg) (s0 s : PState) (es : List Event) (h0 : initParser c = .ok s0)
    (h : feed u c s0 es = .ok s) (i : Nat) (hi : IsElem s.dom i) (sel : Sel) (hs : Basic sel) :
    ∃ b, selMatch s.dom sel (.node i) = .ok b ∧ (b = true ↔ Css s.dom (srcAttrs es) sel i) := by
  have hinv := reach_selInv h0 h
  obtain ⟨n, hn, hd⟩ := isElem_node hinv hi
  exact selMatch_css hinv sel hs i n hn hd

/-- `<div><p class="a b">x</p> <p id="q">y</p></div>`, and `div > p.b + p:not(.a):last-child` on each node. -/
def c01Events : List Event :=
  [.start py"div" [], .start py"p" [(py"class", some py"a b")], .data py"x", .stop py"p", .data py" ",
   .start py"p" [(py"id", some py"q")], .data py"y", .stop py"p", .stop py"div"]

def c01Sel : Sel :=
  .comb (.comb (.element (some py"div")) .child (.cls (.element (some py"p")) py"b")) .adjacent
    (.pseudo (.neg (.element (some py"p")) (.cls (.element none) py"a")) py"last-child")

example : Basic c01Sel := by simp [c01Sel, Basic]
example : (match feed asciiUni {} {} c01Events with
    | .ok s => decide ((List.range 6).map (fun i => selMatch s.dom c01Sel (.node i)) =
        [.ok false, .ok false, .ok false, .ok false, .ok true, .ok false])
    | _ => false) = true := by decide

/-! ## C02 -/

/-- Neither the root nor a text matches any selector, and looking never raises. -/
theorem C02 (u : Uni) (c : Cfg) (s0 s : PState) (es : List Event) (_h0 : initParser c = .ok s0)
    (_h : feed u c s0 es = .ok s) (p : Par)
    (hp : p = .doc ∨ ∃ i n t, p = .node i ∧ s.dom.nodes[i]? = some n ∧ n.data = some t) (sel : Sel) :
    selMatch s.dom sel p = .ok false := by
  apply selMatch_nonElem
  rintro ⟨i, n, h1, h2, h3⟩
  rcases hp with rfl | ⟨j, m, t, rfl, h4, h5⟩
  · cases h1
  · cases h1
    rw [h2] at h4
    cases h4
    rw [h3] at h5
    cases h5

/-- The same for whole rules: nothing a rule's selector list says applies to text or the root. -/
theorem C02_rules (d : Dom) (p : Par) (hp : ¬ IsEl d p) (sels : List Selector) :
    tagMatches d p sels = .ok (false, none) := by
  unfold tagMatches
  induction sels with
  | nil => rfl
  | cons s ss ih =>
    simp only [tagMatchesLoop, selMatch_nonElem d p hp, bind, Except.bind, Bool.false_eq_true, if_false]
    exact ih

/-- `:not(.a)` and `*` do not match the text of `<p>x</p>`, but match the element. -/
example : (match feed asciiUni {} {} [.start py"p" [], .data py"x"] with
    | .ok s => decide (selMatch s.dom (.neg (.element none) (.cls (.element none) py"a")) (.node 1) = .ok false ∧
        selMatch s.dom (.neg (.element none) (.cls (.element none) py"a")) (.node 0) = .ok true)
    | _ => false) = true := by decide

/-! ## C03 -/

/-- `:nth-child(n)` and `:nth-last-child(n)` for `n ≥ 1`: the element is the n-th element among its siblings, counted from
the start or the end, and matches the inner selector. Missing: `n ≤ 0`, where the code looks up a negative index, see
`C03_fails`. -/
theorem C03_partial (u : Uni) (c : Cfg) (s0 s : PState) (es : List Event) (h0 : initParser c = .ok s0)
    (h : feed u c s0 es = .ok s) (i : Nat) (hi : IsElem s.dom i) (sel : Sel) (hs : Basic sel) (n : Nat) (hn : n ≥ 1) :
    (∃ b, selMatch s.dom (.func sel py"nth-child" [natStr n]) (.node i) = .ok b ∧
      (b = true ↔ Css s.dom (srcAttrs es) sel i ∧
        ∃ before after, Around s.dom i before after ∧ elemCount s.dom before = n - 1)) ∧
    (∃ b, selMatch s.dom (.func sel py"nth-last-child" [natStr n]) (.node i) = .ok b ∧
      (b = true ↔ Css s.dom (srcAttrs es) sel i ∧
        ∃ before after, Around s.dom i before after ∧ elemCount s.dom after = n - 1)) := by
  have hinv := reach_selInv h0 h
  obtain ⟨nd, hnn, hd⟩ := isElem_node hinv hi
  have key : ∀ name, (name = py"nth-child" ∨ name = py"nth-last-child") →
      Decides (selMatch s.dom (.func sel name [natStr n]) (.node i)) (Css s.dom (srcAttrs es) (.func sel name [natStr n]) i) :=
    fun name hname => selMatch_css hinv (.func sel name [natStr n]) ⟨hs, hname, n, hn, rfl⟩ i nd hnn hd
  have hk : ∀ m, [natStr n] = [natStr m] → n = m := by
    intro m e
    have e' := (List.cons.inj e).1
    have e1 := pyInt_natStr n
    rw [e', pyInt_natStr] at e1
    simp at e1
    omega
  refine ⟨decides_congr (key py"nth-child" (Or.inl rfl)) ?_, decides_congr (key py"nth-last-child" (Or.inr rfl)) ?_⟩
  · simp only [Css]
    refine and_congr Iff.rfl ⟨?_, ?_⟩
    · rintro ⟨b, a, m, h1, h2, h3⟩
      have := hk m h2
      subst this
      rcases h3 with ⟨-, h3⟩ | ⟨e, -⟩
      · exact ⟨b, a, h1, by omega⟩
      · exact absurd e (by decide)
    · rintro ⟨b, a, h1, h2⟩
      exact ⟨b, a, n, h1, rfl, Or.inl ⟨trivial, by omega⟩⟩
  · simp only [Css]
    refine and_congr Iff.rfl ⟨?_, ?_⟩
    · rintro ⟨b, a, m, h1, h2, h3⟩
      have := hk m h2
      subst this
      rcases h3 with ⟨e, -⟩ | ⟨-, h3⟩
      · exact absurd e (by decide)
      · exact ⟨b, a, h1, by omega⟩
    · rintro ⟨b, a, h1, h2⟩
      exact ⟨b, a, n, h1, rfl, Or.inr ⟨trivial, by omega⟩⟩

/-- `:first-child` and `:last-child` are the cases `n = 1`. -/
theorem C03_first (u : Uni) (c : Cfg) (s0 s : PState) (es : List Event) (h0 : initParser c = .ok s0)
    (h : feed u c s0 es = .ok s) (i : Nat) (hi : IsElem s.dom i) (sel : Sel) (hs : Basic sel) :
    selMatch s.dom (.pseudo sel py"first-child") (.node i) = selMatch s.dom (.func sel py"nth-child" [py"1"]) (.node i) ∧
    selMatch s.dom (.pseudo sel py"last-child") (.node i) = selMatch s.dom (.func sel py"nth-last-child" [py"1"]) (.node i) := by
  have hinv := reach_selInv h0 h
  obtain ⟨nd, hnn, hd⟩ := isElem_node hinv hi
  have h1 := C03_partial u c s0 s es h0 h i hi sel hs 1 (by omega)
  have e1 : natStr 1 = py"1" := by decide
  rw [e1] at h1
  obtain ⟨⟨b1, p1, q1⟩, ⟨b2, p2, q2⟩⟩ := h1
  obtain ⟨b3, p3, q3⟩ := selMatch_css hinv (.pseudo sel py"first-child") ⟨hs, Or.inl rfl⟩ i nd hnn hd
  obtain ⟨b4, p4, q4⟩ := selMatch_css hinv (.pseudo sel py"last-child") ⟨hs, Or.inr rfl⟩ i nd hnn hd
  rw [p1, p2, p3, p4]
  constructor
  · congr 1
    rw [Bool.eq_iff_iff, q1, q3]
    simp only [Css]
    refine and_congr Iff.rfl ⟨?_, ?_⟩
    · rintro ⟨b, a, h1, ⟨-, h3⟩ | ⟨e, -⟩⟩
      · exact ⟨b, a, h1, h3⟩
      · exact absurd e (by decide)
    · rintro ⟨b, a, h1, h2⟩; exact ⟨b, a, h1, Or.inl ⟨trivial, h2⟩⟩
  · congr 1
    rw [Bool.eq_iff_iff, q2, q4]
    simp only [Css]
    refine and_congr Iff.rfl ⟨?_, ?_⟩
    · rintro ⟨b, a, h1, ⟨e, -⟩ | ⟨-, h3⟩⟩
      · exact absurd e (by decide)
      · exact ⟨b, a, h1, h3⟩
    · rintro ⟨b, a, h1, h2⟩; exact ⟨b, a, h1, Or.inr ⟨trivial, h2⟩⟩

theorem nthCheck_any {i : Nat} (A C : List Nat) (hA : i ∉ A) (hC : i ∉ C) (last : Bool) (n : Int) :
    nthCheck (A ++ i :: C) (.node i) last n =
      if (A.length : Int) + C.length < -n then .error .indexError
      else .ok (decide (if last then (C.length : Int) + 1 = n ∨ (A.length : Int) = -n else (A.length : Int) + 1 = n ∨ (C.length : Int) = -n)) := by
  unfold nthCheck
  have hlen : (A ++ i :: C).length = A.length + C.length + 1 := by simp; omega
  have key : ∀ k : Nat, k < A.length + C.length + 1 → ∃ j, (A ++ i :: C)[k]? = some j ∧ (Par.node j = Par.node i ↔ k = A.length) := by
    intro k hk
    have hget := getElem?_split_iff A C hA hC k
    rw [List.getElem?_eq_getElem (by omega)] at hget ⊢
    rw [Option.some.injEq] at hget
    exact ⟨_, rfl, by rw [Par.node.injEq, hget]⟩
  have done : ∀ (k : Nat) (P : Prop) [Decidable P], k < A.length + C.length + 1 → (P ↔ k = A.length) →
      (match (A ++ i :: C)[k]? with
        | none => Except.error PyErr.indexError
        | some j => Except.ok (decide (Par.node j = Par.node i))) = (.ok (decide P) : Py Bool) := by
    intro k P _ hk hP
    obtain ⟨j, hj, he⟩ := key k hk
    rw [hj]
    simp only [Except.ok.injEq, decide_eq_decide]
    rw [he, hP]
  split
  · rename_i h
    rw [if_neg (by omega)]
    cases last <;> simp <;> omega
  · rename_i h
    cases last with
    | false =>
      simp only [Bool.false_eq_true, if_false, pyIndex]
      by_cases h1 : n - 1 < 0
      · rw [if_pos h1]
        by_cases h2 : n - 1 + ((A ++ i :: C).length : Int) < 0
        · rw [if_pos h2, if_pos (by omega)]
        · rw [if_neg h2, if_neg (by omega)]
          exact done _ _ (by omega) (by omega)
      · rw [if_neg h1, if_neg (by omega)]
        exact done _ _ (by omega) (by omega)
    | true =>
      simp only [if_true, pyIndex]
      by_cases h1 : -n < 0
      · rw [if_pos h1, if_neg (by omega), if_neg (by omega)]
        exact done _ _ (by omega) (by omega)
      · rw [if_neg h1]
        by_cases h2 : (A.length : Int) + C.length < -n
        · rw [if_pos h2, List.getElem?_eq_none (by omega)]
        · rw [if_neg h2]
          exact done _ _ (by omega) (by omega)

/-- What the code does with every argument, for an element with `before` and `after` it: without argument `IndexError`, without a number
`ValueError`. The number `n` selects the `n`-th element; `-n` selects the element that has `n` elements on the other side (so that zero is
the last or first element), and is an `IndexError` for all if there are not so many. -/
theorem C03_any (u : Uni) (c : Cfg) (s0 s : PState) (es : List Event) (h0 : initParser c = .ok s0) (h : feed u c s0 es = .ok s)
    (i : Nat) (hi : IsElem s.dom i) (sel : Sel) (before after : List Nat) (ha : Around s.dom i before after) :
    (∀ name ∈ [py"nth-child", py"nth-last-child"], selMatch s.dom (.func sel name []) (.node i) = .error .indexError ∧
      ∀ arg args, pyInt 10 arg = none → selMatch s.dom (.func sel name (arg :: args)) (.node i) = .error .valueError) ∧
    ∀ arg args (n : Int), pyInt 10 arg = some n →
      selMatch s.dom (.func sel py"nth-child" (arg :: args)) (.node i) =
        (if (elemCount s.dom before : Int) + elemCount s.dom after < -n then .error .indexError
         else if (elemCount s.dom before : Int) + 1 = n ∨ (elemCount s.dom after : Int) = -n then selMatch s.dom sel (.node i) else .ok false) ∧
      selMatch s.dom (.func sel py"nth-last-child" (arg :: args)) (.node i) =
        (if (elemCount s.dom before : Int) + elemCount s.dom after < -n then .error .indexError
         else if (elemCount s.dom after : Int) + 1 = n ∨ (elemCount s.dom before : Int) = -n then selMatch s.dom sel (.node i) else .ok false) := by
  have hinv := reach_selInv h0 h
  obtain ⟨nd, hnn, hd⟩ := isElem_node hinv hi
  obtain ⟨q, A, C, hq, -, hch, hA, hC, haround⟩ := elem_pos hinv hnn hd
  obtain ⟨rfl, rfl⟩ := (haround _ _).1 ha
  have htc := tagChildren_split hch (elem_tag hinv hnn hd)
  have hA' : i ∉ before.filter s.dom.isTag := fun hm => hA (List.mem_filter.1 hm).1
  have hC' : i ∉ after.filter s.dom.isTag := fun hm => hC (List.mem_filter.1 hm).1
  have hnd : s.dom.hasData (.node i) = false := by simp [Dom.hasData, hnn, hd]
  have key : ∀ name args, (decide (name = py"nth-child") || decide (name = py"nth-last-child")) = true →
      selMatch s.dom (.func sel name args) (.node i) = (match firstArg args with
        | .error e => .error e
        | .ok n => if (elemCount s.dom before : Int) + elemCount s.dom after < -n then .error .indexError
          else if (if name == py"nth-last-child" then (elemCount s.dom after : Int) + 1 = n ∨ (elemCount s.dom before : Int) = -n
            else (elemCount s.dom before : Int) + 1 = n ∨ (elemCount s.dom after : Int) = -n) then selMatch s.dom sel (.node i) else .ok false) := by
    intro name args hcond
    simp only [selMatch, hcond, if_true, hq, hnd, Bool.false_eq_true, if_false, bind, Except.bind, htc, nthCheck_any _ _ hA' hC', elemCount_eq]
    cases firstArg args with
    | error e => rfl
    | ok n =>
      simp only
      by_cases h1 : ((before.filter s.dom.isTag).length : Int) + (after.filter s.dom.isTag).length < -n
      · simp only [if_pos h1]
      · simp only [if_neg h1, decide_eq_true_eq, pure, Except.pure]
  refine ⟨?_, ?_⟩
  · intro name hname
    have hc : (decide (name = py"nth-child") || decide (name = py"nth-last-child")) = true := by simpa using hname
    exact ⟨by rw [key _ _ hc]; rfl, fun arg args he => by rw [key _ _ hc]; simp only [firstArg, he]⟩
  · intro arg args n he
    rw [key _ _ (by decide), key _ _ (by decide)]
    simp only [firstArg, he]
    exact ⟨rfl, rfl⟩

/-- `<p>a</p><p>b</p>`: `:nth-child(-1)` matches the first element, `:nth-child(-2)` is an error. -/
example : ∃ s, feed asciiUni {} {} [.start py"p" [], .data py"a", .stop py"p", .start py"p" [], .data py"b", .stop py"p"] = .ok s ∧
    Around s.dom 0 [] [2] ∧
    selMatch s.dom (.func (.element none) py"nth-child" [py"-1"]) (.node 0) = .ok true ∧
    selMatch s.dom (.func (.element none) py"nth-child" [py"-2"]) (.node 0) = .error .indexError := by
  refine ⟨_, rfl, .inl ?_, ?_, ?_⟩ <;> decide

/-- `<p>a</p><p>b</p>`: `:nth-child(0)` matches the last element, `:nth-last-child(0)` the first. -/
theorem C03_fails : ∃ s, feed asciiUni {} {} [.start py"p" [], .data py"a", .stop py"p", .start py"p" [], .data py"b", .stop py"p"] = .ok s ∧
    selMatch s.dom (.func (.element none) py"nth-child" [natStr 0]) (.node 2) = .ok true ∧
    selMatch s.dom (.func (.element none) py"nth-last-child" [natStr 0]) (.node 0) = .ok true ∧
    selMatch s.dom (.func (.element none) py"nth-child" [py"odd"]) (.node 0) = .error .valueError := by
  refine ⟨_, rfl, ?_, ?_, ?_⟩ <;> decide

/-- `<p>a</p> <p>b</p><p>c</p>`: the second and the second last element is the second one; text is not counted. -/
example : (match feed asciiUni {} {} [.start py"p" [], .data py"a", .stop py"p", .data py" ", .start py"p" [], .data py"b",
      .stop py"p", .start py"p" [], .data py"c", .stop py"p"] with
    | .ok s => decide ([0, 3, 5].map (fun i => selMatch s.dom (.func (.element none) py"nth-child" [natStr 2]) (.node i)) =
        [.ok false, .ok true, .ok false] ∧
        [0, 3, 5].map (fun i => selMatch s.dom (.func (.element none) py"nth-last-child" [natStr 2]) (.node i)) =
        [.ok false, .ok true, .ok false])
    | _ => false) = true := by decide

/-! ## C04 -/

/-- Each operator holds exactly when it does in CSS. Missing: attributes without value, except for `[a]` and `[a=v]`
(see `C04_fails`), and `class` values with irregular whitespace, except for `[class]` and `[class~=v]` (see
`C04_class_fails`). -/
theorem C04_partial (u : Uni) (c : Cfg) (s0 s : PState) (es : List Event) (h0 : initParser c = .ok s0)
    (h : feed u c s0 es = .ok s) (i : Nat) (hi : IsElem s.dom i) (sel : Sel) (hs : Basic sel) (name value : Str) (op : AttrOp)
    (hop : CssOp op)
    (hval : attrOf (srcAttrs es i) name ≠ some none ∨ op = .exists ∨ op = .eq)
    (hcls : ∀ v, name = py"class" → attrOf (srcAttrs es i) name = some (some v) →
      join py" " (splitWs v) = v ∨ op = .exists ∨ op = .word) :
    ∃ b, selMatch s.dom (.attrib sel name op value) (.node i) = .ok b ∧
      (b = true ↔ Css s.dom (srcAttrs es) sel i ∧
        ((op = .exists ∧ attrOf (srcAttrs es i) name ≠ none) ∨
          (op ≠ .exists ∧ ∃ v, attrOf (srcAttrs es i) name = some (some v) ∧ AttrHolds op value v))) := by
  have hinv := reach_selInv h0 h
  obtain ⟨n, hn, hd⟩ := isElem_node hinv hi
  simp only [selMatch, hn]
  exact decides_seq (selMatch_css hinv sel hs i n hn hd) (fun _ => attrib_agree (hinv.agree i n hn hd) hop ⟨hval, hcls⟩)

/-- The same for selectors with attribute operators anywhere in them, in documents whose attributes allow them. -/
theorem C04_nested (u : Uni) (c : Cfg) (s0 s : PState) (es : List Event) (h0 : initParser c = .ok s0)
    (h : feed u c s0 es = .ok s) (i : Nat) (hi : IsElem s.dom i) (sel : Sel) (hs : Matchable (srcAttrs es) sel) :
    ∃ b, selMatch s.dom sel (.node i) = .ok b ∧ (b = true ↔ Css s.dom (srcAttrs es) sel i) := by
  have hinv := reach_selInv h0 h
  obtain ⟨n, hn, hd⟩ := isElem_node hinv hi
  exact selMatch_read hinv sel hs i n hn hd

/-- `div[lang|=en] > p:not([title^=x])` in a document with the attributes `lang="en-GB"` and `title="yx"`. -/
example : (match feed asciiUni {} {} [.start py"div" [(py"lang", some py"en-GB")], .start py"p" [(py"title", some py"yx")]] with
    | .ok s => decide (selMatch s.dom (.comb (.attrib (elt py"div") py"lang" .dash py"en") .child
        (.neg (elt py"p") (.attrib (.element none) py"title" .pre py"x"))) (.node 1) = .ok true)
    | _ => false) = true := by decide

/-- CSS lets `[a^=""]`, `[a$=""]` and `[a*=""]` match nothing; in the program they match as the words of C04 say. -/
theorem C04_empty : ∃ s, feed asciiUni {} {} [.start py"p" [(py"title", some py"x")]] = .ok s ∧
    ∀ op ∈ [AttrOp.pre, .suf, .sub], selMatch s.dom (.attrib (.element none) py"title" op []) (.node 0) = .ok true := by
  refine ⟨_, rfl, ?_⟩
  decide

/-- `<p title>`: all operators but `[a]` and `[a=v]` abort with an exception; `<p class>` is not even parsed. -/
theorem C04_fails : ∃ s, feed asciiUni {} {} [.start py"p" [(py"title", none)]] = .ok s ∧
    selMatch s.dom (.attrib (.element none) py"title" .pre py"x") (.node 0) = .error .attributeError ∧
    selMatch s.dom (.attrib (.element none) py"title" .word py"x") (.node 0) = .error .attributeError ∧
    selMatch s.dom (.attrib (.element none) py"title" .sub py"x") (.node 0) = .error .typeError ∧
    feed asciiUni {} {} [.start py"p" [(py"class", none)]] = .error .attributeError := by
  refine ⟨_, rfl, ?_, ?_, ?_, rfl⟩ <;> decide

/-- `<p class=" a  b">`: the words are compared joined by one space, so `[class="a b"]` matches and the true value does
not. -/
theorem C04_class_fails : ∃ s, feed asciiUni {} {} [.start py"p" [(py"class", some py" a  b")]] = .ok s ∧
    selMatch s.dom (.attrib (.element none) py"class" .eq py"a b") (.node 0) = .ok true ∧
    selMatch s.dom (.attrib (.element none) py"class" .eq py" a  b") (.node 0) = .ok false := by
  refine ⟨_, rfl, ?_, ?_⟩ <;> decide

/-- If cssselect passes its token instead of the text, `[a=v]`, `[a~=v]` and `[a|=v]` match no value without `<`, `[a*=v]` raises an
exception, and `[a^=v]` and `[a$=v]` also match the name of the kind of token. -/
theorem C04_token_fails (kind value : Str) (pos : Nat) (s : Str) (hs : s.head? ≠ some '<') :
    tokenCheck kind value pos .eq (some s) = .ok false ∧ tokenCheck kind value pos .word (some s) = .ok false ∧
    tokenCheck kind value pos .dash (some s) = .ok false ∧ tokenCheck kind value pos .sub (some s) = .error .typeError ∧
    (tokenCheck kind value pos .pre (some s) = .ok true ↔ kind <+: s ∨ value <+: s) ∧
    (tokenCheck kind value pos .suf (some s) = .ok true ↔ kind <:+ s ∨ value <:+ s) := by
  refine ⟨rfl, rfl, ?_, rfl, ?_, ?_⟩
  · simp only [tokenCheck, Except.ok.injEq, Bool.eq_false_iff, ne_eq, startsWith_iff]
    rintro ⟨r, rfl⟩
    simp at hs
  · simp [tokenCheck, startsWith_iff]
  · simp [tokenCheck, endsWith_iff]

example : tokenCheck py"IDENT" py"x" 7 .eq (some py"x") = .ok false ∧ tokenCheck py"IDENT" py"x" 7 .pre (some py"IDENTITY") = .ok true := by
  decide

/-- `<p lang="en-GB">` and each operator. -/
example : (match feed asciiUni {} {} [.start py"p" [(py"lang", some py"en-GB")]] with
    | .ok s => decide (
        selMatch s.dom (.attrib (.element none) py"lang" .dash py"en") (.node 0) = .ok true ∧
        selMatch s.dom (.attrib (.element none) py"lang" .dash py"e") (.node 0) = .ok false ∧
        selMatch s.dom (.attrib (.element none) py"lang" .suf py"GB") (.node 0) = .ok true ∧
        selMatch s.dom (.attrib (.element none) py"lang" .sub py"-") (.node 0) = .ok true ∧
        selMatch s.dom (.attrib (.element none) py"lang" .word py"en") (.node 0) = .ok false ∧
        selMatch s.dom (.attrib (.element none) py"title" .pre py"") (.node 0) = .ok false)
    | _ => false) = true := by decide

end Verif
