import Verif.Props.Wrap
import Verif.Proofs.Sentence

/-!
# Spacing of sentences: C62
-/

namespace Verif

open Spec

theorem input_spaced (u : Uni) (o : WrapOpts) (text : Str) (hf : o.fixSentence = true) (hp : PlainWs text) :
    WellSpaced (wrapInput u o text).flatten := by
  have ht := wrapInput_tidy u o text hp
  have hm := munge_plain o text hp
  simp only [wrapInput, hf, if_true] at ht ⊢
  refine chunks_spaced ht (fix_dashed _ ?_) (fix_spaced _)
  unfold splitChunks
  split
  · exact chunkGo_dashed u _ _ _ _ (by simp) (by simp)
  · exact simpleChunks_dashed _ hm

/-- When sentence endings are fixed, no line has the end of a sentence, one space and more text in it: there are two
spaces or more, or the line ends. -/
theorem C62 (u : Uni) (o : WrapOpts) (text : Str) (out : List Str) (hf : o.fixSentence = true) (hm : o.maxLines = none)
    (hp : PlainWs text) (hi : Blank o.initialIndent) (hs : Blank o.subsequentIndent) (h : wrap u o text = .ok out) :
    ∀ line ∈ out, WellSpaced line := by
  obtain ⟨-, -, h⟩ := wrap_ok h
  exact wrapLoop_spaced u o hm hi hs _ [] _ out (input_spaced u o text hf hp) (by simp) h

/-- A sentence end inside a line, one at its end, one with a quotation mark, and one that is none. -/
example : wrap asciiUni { width := 14, fixSentence := true } py"it is. \"It is.\" Yes sir. No 1. No" =
    .ok [py"it is.  \"It", py"is.\"  Yes sir.", py"No 1. No"] := by decide

/-- Without fixing. -/
example : ∃ out, wrap asciiUni { width := 14 } py"it is. It" = .ok out ∧ ¬ ∀ line ∈ out, WellSpaced line :=
  ⟨[py"it is. It"], by decide, fun h => h _ (by simp) py"it is." 'I' ['t'] rfl (by decide)
    ⟨py"it i", 's', '.', by decide, by decide, by simp, .inl rfl⟩⟩

/-- With a limit of lines, the placeholder comes after one space. -/
theorem C62_limit : ∃ out, wrap asciiUni { width := 10, fixSentence := true, maxLines := some 1 } py"is. It is not" = .ok out ∧
    ¬ ∀ line ∈ out, WellSpaced line :=
  ⟨[py"is. [...]"], by decide, fun h => h _ (by simp) py"is." '[' py"...]" rfl (by decide)
    ⟨py"i", 's', '.', by decide, by decide, by simp, .inl rfl⟩⟩

end Verif
