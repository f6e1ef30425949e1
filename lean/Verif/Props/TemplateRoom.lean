import Verif.Props.LooksText
import Verif.Props.Items

/-!
# The columns that line templates take: C77
-/

namespace Verif

open Spec

theorem blockBox_plain {s : Dict} {parent b : Box} (h : blockBox false s parent = .ok b) :
    ∃ margin padding border, b = Box.new 67 margin padding border none (some parent) := by
  simp only [blockBox, bind, Except.bind, pure, Except.pure, Bool.false_eq_true, if_false] at h
  repeat' split at h
  all_goals first | cases h; done | skip
  all_goals cases h
  all_goals simp_all
  all_goals exact ⟨_, _, _, rfl⟩

/-- The columns of line templates in preformatted text and in block quotes, for what is inside of them: the template of preformatted text
takes none, and that of a block quote as many as it has characters besides its placeholder. -/
theorem C77_room (cls : RClass) (t : TagInfo) (ctx : Ctx) (parent : Box) (inst : Inst) (template : Str)
    (h : construct cls t ctx parent = .ok inst) (h1 : DictOf.get inst.settings py"line_template" = some (.str template))
    (hc : cls.behaviour = .pre ∨ cls.behaviour = .blockQuote) :
    ∃ b, inst.box = some b ∧ b.width = parent.width ∧
      (cls.behaviour = .pre → b.totalLineTemplatePadding = parent.totalLineTemplatePadding) ∧
      (cls.behaviour = .blockQuote → template ≠ [] →
        b.totalLineTemplatePadding = parent.totalLineTemplatePadding + ((template.length : Int) - 2)) := by
  obtain ⟨e1, e2, -, -, -⟩ := construct_settings h
  simp only [construct, e1, bind, Except.bind] at h
  have hb : cls.behaviour.isBlock = true := by rcases hc with hc | hc <;> rw [hc] <;> rfl
  rw [isBlock_behaviour, boxHasTemplate_behaviour, hb] at h
  simp only [if_true] at h
  cases hk : blockBox cls.behaviour.boxHasTemplate inst.settings parent with
  | error e => rw [hk] at h; cases h
  | ok b =>
    rw [hk] at h
    simp only [pure, Except.pure, Except.ok.injEq] at h
    refine ⟨b, by rw [← h], ?_⟩
    rcases hc with hc | hc
    · rw [hc] at hk
      obtain ⟨m, p, bo, rfl⟩ := blockBox_plain hk
      refine ⟨rfl, fun _ => ?_, fun hp => absurd (hc.symm.trans hp) (by simp)⟩
      simp [Box.new, ownTemplatePadding]
    · rw [hc] at hk
      obtain ⟨m, p, bo, rfl⟩ := blockBox_template hk h1
      refine ⟨rfl, fun hp => absurd (hc.symm.trans hp) (by simp), fun _ hne => ?_⟩
      simp only [Box.new, ownTemplatePadding_eq, templateCols, if_neg hne]
      omega

/-- With the same template a page of 20 columns leaves 17 in a block quote and 20 in preformatted text. -/
example : ((construct (.sub .blockQuote [(py"line_template", .str py"a: {}")]) ⟨none, none, [], none⟩ ⟨none, none, none⟩ (Box.new 20 {} {} {} none none)).map
      (fun i => i.box.map Box.textWidth)).toOption = some (some 17) ∧
    ((construct (.sub .pre [(py"line_template", .str py"a: {}")]) ⟨none, none, [], none⟩ ⟨none, none, none⟩ (Box.new 20 {} {} {} none none)).map
      (fun i => i.box.map Box.textWidth)).toOption = some (some 20) := by decide +kernel

end Verif
