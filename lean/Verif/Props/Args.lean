import Verif.Proofs.Args

/-!
# C83: the command line
-/

namespace Verif

open Spec

theorem parseArgs_line {u : Uni} {l : CommandLine} (hok : l.Ok u) (hi : ¬ l.Idle) {s d : Str} (hf : l.files = [s, d]) :
    ∃ dst dump, parseArgs u l.src = .ok (.str s) dst dump ∧ (dump = true ↔ l.dumps) ∧ (d ≠ py"--" → dst = .str d) := by
  obtain ⟨before, after⟩ := l
  obtain ⟨sl, v, dst, dump, h1, h2, h3, h4⟩ := scan_line (u := u) before after {} hok hi (by
    rintro rfl rfl
    cases hf) (by rw [hf]; rfl) rfl rfl
  have h5 := lineValues_stands before after
  rw [show lineValues before after = [v, dst] from h3, hf] at h5
  obtain ⟨s', rfl, h6⟩ := lineValues_head before after (v := v) (by rw [show lineValues before after = [v, dst] from h3]; rfl)
  rw [hf] at h6
  cases h6
  refine ⟨dst, dump, ?_, by simpa using h4, h5.2.1⟩
  rw [parseArgs, h1]
  exact h2

/-- **C83.** The program accepts two file names with `-d` or `--dump` any number of times anywhere between them, and file names of
any form after `--`. It takes the names as they are, in order.

Partial: a `--` with nothing behind it is refused after an option (`C83_dashes_fails`), and the name `--` does not always reach the
destination (`C83_list_fails`). -/
theorem C83_partial {u : Uni} {l : CommandLine} (hok : l.Ok u) (hi : ¬ l.Idle) {s d : Str} (hf : l.files = [s, d]) :
    ∃ dst dump, parseArgs u l.src = .ok (.str s) dst dump ∧ (dump = true ↔ l.dumps) ∧ (d ≠ py"--" → dst = .str d) :=
  parseArgs_line hok hi hf

/-- Nothing else is accepted. -/
theorem C83_only {u : Uni} {argv : List Str} {src dst : PosValue} {dump : Bool} (h : parseArgs u argv = .ok src dst dump) :
    ∃ (l : CommandLine) (s d : Str), l.Ok u ∧ ¬ l.Idle ∧ l.src = argv ∧ l.files = [s, d] ∧ src = .str s ∧
      (d ≠ py"--" → dst = .str d) ∧ (dump = true ↔ l.dumps) := by
  unfold parseArgs at h
  cases hs : slots u argv with
  | error e => rw [hs] at h; cases h
  | ok sl =>
    simp only [hs] at h
    obtain ⟨c, c1, c2, c3, c4, _⟩ := scan_only _ argv {} sl (Nat.le_refl _) hs h
    obtain ⟨s, d, hf⟩ : ∃ s d, c.files = [s, d] := by
      match c.files, c3 with
      | [s, d], _ => exact ⟨s, d, rfl⟩
    obtain ⟨dst', dump', k1, k2, k3⟩ := parseArgs_line c1 c4 hf
    rw [c2, parseArgs, hs] at k1
    have := h.symm.trans k1
    cases this
    exact ⟨c, s, d, c1, c4, c2, hf, rfl, k3, k2⟩

/-- The help is shown exactly if an option before `--` asks for it and no option before that has an argument; but not if some option
is ambiguous. -/
theorem C83_help {u : Uni} {argv : List Str} : parseArgs u argv = .help ↔
    (∃ pre s post, argv = pre ++ s :: post ∧ py"--" ∉ pre ∧ HelpWord s ∧ ∀ x ∈ pre, ¬ RefusedWord x) ∧
    ¬ ∃ pre s post, argv = pre ++ s :: post ∧ py"--" ∉ pre ∧ AmbiguousWord s := by
  have hb : (∀ s ∈ beforeDashes argv, ¬ AmbiguousWord s) ↔
      ¬ ∃ pre s post, argv = pre ++ s :: post ∧ py"--" ∉ pre ∧ AmbiguousWord s := by
    induction argv with
    | nil => simp [beforeDashes]
    | cons w argv ih =>
      by_cases hw : w = py"--"
      · subst hw
        refine iff_of_true (by simp [beforeDashes]) ?_
        rintro ⟨pre, s, post, e, h1, h2⟩
        cases pre with
        | nil =>
          injection e with e _
          subst e
          obtain ⟨v, e⟩ := h2
          simp at e
        | cons x pre =>
          injection e with e _
          exact h1 (e ▸ .head _)
      · have e : beforeDashes (w :: argv) = w :: beforeDashes argv := by simp [beforeDashes, hw]
        rw [e, List.forall_mem_cons, ih]
        constructor
        · rintro ⟨h1, h2⟩ ⟨pre, s, post, e, h3, h4⟩
          cases pre with
          | nil =>
            injection e with e _
            exact h1 (e ▸ h4)
          | cons x pre =>
            injection e with _ e
            exact h2 ⟨pre, s, post, e, fun h => h3 (.tail _ h), h4⟩
        · intro h
          refine ⟨fun h1 => h ⟨[], w, argv, rfl, by simp, h1⟩, ?_⟩
          rintro ⟨pre, s, post, rfl, h3, h4⟩
          refine h ⟨w :: pre, s, post, rfl, ?_, h4⟩
          intro hm
          rcases List.mem_cons.mp hm with e | hm
          · exact hw e.symm
          · exact h3 hm
  rw [← hb, ← slots_ok (u := u)]
  unfold parseArgs
  cases hs : slots u argv with
  | error e => simp
  | ok sl =>
    simp only
    have := scan_help _ {} sl (Nat.le_refl _)
    rw [scan] at this
    rw [this, helps_slots argv sl hs]
    simp

/-- What the program does with a good command line: the same as with the source alone. -/
theorem C83_program {u : Uni} (w : World) {l : CommandLine} (hok : l.Ok u) (hi : ¬ l.Idle) {s d : Str} (hf : l.files = [s, d]) :
    ∃ dump, (dump = true ↔ l.dumps) ∧ (program u w l.src).run = cliMain u w { source := s, destination := d, dump := dump } ∧
      ((program u w l.src).status = 0 ↔ (cliMain u w { source := s, destination := d, dump := dump }).error = none) ∧
      ((program u w l.src).status = 0 ∨ (program u w l.src).status = 1) := by
  obtain ⟨dst, dump, h1, h2, _⟩ := parseArgs_line hok hi hf
  refine ⟨dump, h2, ?_⟩
  have h3 : ∀ d', cliMain u w { source := s, destination := d', dump := dump } = cliMain u w { source := s, destination := d, dump := dump } :=
    fun _ => rfl
  simp only [program, h1, h3, true_and]
  split <;> simp [*]

/-- With any other command line the program ends before it reads anything: with status 0 if it shows the help, else with status 2. -/
theorem C83_other {u : Uni} (w : World) {argv : List Str}
    (h : ¬ ∃ (l : CommandLine) (s d : Str), l.Ok u ∧ ¬ l.Idle ∧ l.src = argv ∧ l.files = [s, d]) :
    (program u w argv).run = {} ∧ ((program u w argv).status = 0 ↔ parseArgs u argv = .help) ∧
      ((program u w argv).status = 0 ∨ (program u w argv).status = 2) := by
  unfold program
  split
  · rename_i e; simp [e]
  · rename_i e; simp [e]
  · rename_i e
    obtain ⟨l, s, d, h1, h2, h3, h4, _⟩ := C83_only e
    exact absurd ⟨l, s, d, h1, h2, h3, h4⟩ h
  · rename_i e
    obtain ⟨l, s, d, h1, h2, h3, h4, _⟩ := C83_only e
    exact absurd ⟨l, s, d, h1, h2, h3, h4⟩ h

/-- A `--` at the end is allowed after a file name but not after an option. -/
theorem C83_dashes_fails : parseArgs asciiUni [py"-d", py"a", py"b", py"--"] = .ok (.str py"a") (.str py"b") true ∧
    parseArgs asciiUni [py"a", py"b", py"-d", py"--"] = .usage := by decide +kernel

/-- The file name `--` can be lost. -/
theorem C83_list_fails : parseArgs asciiUni [py"a", py"--", py"--"] = .ok (.str py"a") (.list []) false ∧
    parseArgs asciiUni [py"--", py"--", py"a"] = .ok (.str py"--") (.str py"a") false := by decide +kernel

/-! ### Examples -/

/-- `-dd page.md --du -- -out`. -/
def exampleLine : CommandLine := ⟨[.dump py"-dd", .file py"page.md", .dump py"--du"], some [py"-out"]⟩

theorem exampleLine_ok : exampleLine.Ok asciiUni := by
  intro w hw
  simp only [exampleLine, List.mem_cons, List.not_mem_nil, or_false] at hw
  rcases hw with rfl | rfl | rfl
  · exact .inl ⟨1, rfl⟩
  · exact .inl (by decide)
  · exact .inr ⟨4, by decide, rfl⟩

theorem exampleLine_idle : ¬ exampleLine.Idle := by simp [CommandLine.Idle, exampleLine]

example : exampleLine.src = [py"-dd", py"page.md", py"--du", py"--", py"-out"] := rfl
example : ∃ dst dump, parseArgs asciiUni exampleLine.src = .ok (.str py"page.md") dst dump ∧ (dump = true ↔ exampleLine.dumps) ∧
    (py"-out" ≠ py"--" → dst = .str py"-out") := C83_partial exampleLine_ok exampleLine_idle rfl
example : parseArgs asciiUni exampleLine.src = .ok (.str py"page.md") (.str py"-out") true := by decide +kernel
example : parseArgs asciiUni [py"-1.5", py"- a"] = .ok (.str py"-1.5") (.str py"- a") false := by decide +kernel
example : FileWord asciiUni py"-1.5" := .inr (.inr ⟨.inl ⟨py"1", py".5", [], rfl, by decide, .inl rfl, .inr ⟨py"5", rfl, by decide, by decide⟩⟩,
  by
    rintro (h | h | h | ⟨p, hp, h⟩)
    · exact absurd (List.isPrefixOf_iff_prefix.mpr h) (by decide)
    · exact absurd (List.isPrefixOf_iff_prefix.mpr h) (by decide)
    · exact absurd (List.isPrefixOf_iff_prefix.mpr h) (by decide)
    · rw [long_cases] at hp
      simp only [List.mem_cons, List.not_mem_nil, or_false] at hp
      rcases hp with rfl | rfl | rfl | rfl | rfl | rfl | rfl | rfl <;> simp at h, by decide⟩)
example : HelpWord py"-dhx" ∧ RefusedWord py"-d=1" ∧ RefusedWord py"--du=" ∧ AmbiguousWord py"--=x" :=
  ⟨.inl ⟨py"dh", py"x", rfl, ⟨by decide, by simp⟩, by decide⟩, .inl ⟨py"d", '=', py"1", rfl, by decide, by decide, .inl rfl⟩,
    .inr ⟨py"--du", [], rfl, 4, by decide, .inl rfl⟩, ⟨py"x", rfl⟩⟩
example : parseArgs asciiUni [py"-dhx", py"-d="] = .help := by decide +kernel
example : parseArgs asciiUni [py"-d=", py"-dhx"] = .usage := by decide +kernel
example : parseArgs asciiUni [py"a", py"-h", py"--=x"] = .usage := by decide +kernel
example : parseArgs asciiUni [py"a", py"b", py"c"] = .usage ∧ parseArgs asciiUni [py"a"] = .usage := by decide +kernel
example : parseArgs asciiUni [py"a", py"b", py"-dx"] = .usage ∧ parseArgs asciiUni [py"a", py"b", py"--dumps"] = .usage := by
  decide +kernel
example (w : World) : (program asciiUni w [py"a"]).status = 2 ∧ (program asciiUni w [py"--he"]).status = 0 ∧
    (program asciiUni w [py"a"]).run = {} := by
  refine ⟨?_, ?_, ?_⟩
  · rw [program, show parseArgs asciiUni [py"a"] = .usage by decide +kernel]
  · rw [program, show parseArgs asciiUni [py"--he"] = .help by decide +kernel]
  · rw [program, show parseArgs asciiUni [py"a"] = .usage by decide +kernel]
example : program asciiUni ⟨fun p => .ok (py"<p>" ++ p), .ok⟩ [py"-d", py"x", py"y"] =
    ⟨0, cliRender asciiUni py"<p>x\n" py"<p>x"⟩ := by
  have h : parseArgs asciiUni [py"-d", py"x", py"y"] = .ok (.str py"x") (.str py"y") true := by decide +kernel
  have e : cliMain asciiUni ⟨fun p => .ok (py"<p>" ++ p), .ok⟩ { source := py"x", destination := py"y", dump := true } =
      cliRender asciiUni py"<p>x\n" py"<p>x" := rfl
  have h2 : (cliRender asciiUni py"<p>x\n" py"<p>x").error = none := by decide +kernel
  simp only [program, h, PosValue.text, e, h2, if_true]

end Verif
