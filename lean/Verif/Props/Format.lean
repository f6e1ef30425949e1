import Verif.Proofs.Format

/-!
# Templates: C59
-/

namespace Verif

open Spec

/-- A template that is text, placeholder, text: the content is copied between the texts, whatever it contains. -/
theorem C59 (before after content : Str) :
    fmt1 (escape before ++ py"{}" ++ escape after) content = .ok (before ++ content ++ after) := fmt1_escape before after content

/-- Every template with plain fields either fails in the same way for all contents, or puts the content, whatever it is, in
fixed places. -/
theorem C59_uniform (template : Str) (hp : plainFields false template = true) :
    (∃ e, ∀ content, fmt1 template content = .error e) ∨
    ∃ parts : List (Option Char), ∀ content, fmt1 template content =
      .ok ((parts.map (fun p => match p with | some c => [c] | none => content)).flatten) := by
  unfold fmt1 pyFormat
  simp only [evalPieces_resolve _ _ _ _ (parse_plain hp), List.map_nil, List.length_cons, List.length_nil, Nat.zero_add]
  cases hr : resolve 1 [] .unset (parseTemplate none template) with
  | error e => exact .inl ⟨e, fun _ => rfl⟩
  | ok slots =>
    obtain ⟨h1, h2⟩ := resolve_slots hr
    refine .inr ⟨slots.map (fun s => match s with | .lit c => some c | _ => none), fun content => ?_⟩
    simp only [Except.map, Except.ok.injEq, fillAll, List.map_map]
    congr 1
    apply List.map_congr_left
    intro s hs
    cases s with
    | lit c => rfl
    | arg n =>
      have : n = 0 := by have := h1 n hs; omega
      subst this
      rfl
    | key k => exact absurd (h2 k hs) (by simp)

/-- The same for templates with several arguments and names: the places depend on the template, the number of arguments
and the names, never on the values. -/
theorem C59_fields (template : Str) (hp : plainFields false template = true) (n : Nat) (names : List Str) :
    (∃ e, ∀ args kw, args.length = n → kw.map Prod.fst = names → pyFormat template args kw = .error e) ∨
    ∃ slots : List Slot, (∀ k, .arg k ∈ slots → k < n) ∧ (∀ s, .key s ∈ slots → s ∈ names) ∧
      ∀ args kw, args.length = n → kw.map Prod.fst = names →
        pyFormat template args kw = .ok (fillAll (shown args) (shownKw kw) slots) := by
  unfold pyFormat
  cases hr : resolve n names .unset (parseTemplate none template) with
  | error e =>
    refine .inl ⟨e, fun args kw h1 h2 => ?_⟩
    rw [evalPieces_resolve _ _ _ _ (parse_plain hp), h1, h2, hr]
    rfl
  | ok slots =>
    refine .inr ⟨slots, (resolve_slots hr).1, (resolve_slots hr).2, fun args kw h1 h2 => ?_⟩
    rw [evalPieces_resolve _ _ _ _ (parse_plain hp), h1, h2, hr]
    rfl

/-- In a format specification the content is interpreted: here it says how it is to be laid out itself. -/
theorem C59_nested_fails : fmt1 py"{0:{0}}" py">4" = .ok py"  >4" ∧ fmt1 py"{0:{0}}" py"x" = .error .valueError := by decide

example : plainFields false py"{{: [{0}] {name}: {{{}}}" = true ∧ plainFields false py"{0:>5}" = false := by decide
example : escape py"{a}" ++ py"{}" ++ escape py"!" = py"{{a}}{}!" := by decide
example : fmt1 py"{{a}}{}!" py"{0}{x" = .ok py"{a}{0}{x!" := by decide
/-- A template that fails, and one with the content twice. -/
example : (∀ x, fmt1 py"{} {}" x = .error .indexError) ∧ fmt1 py"{0}-{0}" py"{}" = .ok py"{}-{}" :=
  ⟨fun _ => rfl, by decide⟩

end Verif
