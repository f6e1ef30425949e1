import Verif.Props.FitFooter
import Verif.Props.Theme
import Verif.Spec.Page

/-!
# C82: the page is what the reference says
-/

namespace Verif

open Spec

/-! ## Columns -/

theorem room_inside (box : Box) (above below : Int) (t : Option Str) :
    room (inside box above below t) = room box - ownTemplatePadding t := by
  simp only [inside, Box.new, room, Sides.addTotals]
  omega

/-- The columns of a box, and those that are not used for text. -/
def Cols (p r : Int) (box : Box) : Prop := room box = r ∧ textRoom box = r - p

theorem cols_inside {p r : Int} {box : Box} (h : Cols p r box) (above below : Int) (a : Str) :
    Cols p (r - a.length) (inside box above below (some (a ++ py"{}"))) := by
  obtain ⟨h1, h2⟩ := h
  refine ⟨?_, ?_⟩
  · rw [room_inside, padding_bullet, h1]
  · rw [textRoom_inside, padding_bullet, h2]; omega

theorem cols_plain {p r : Int} {box : Box} (h : Cols p r box) (above below : Int) : Cols p r (inside box above below) := by
  obtain ⟨h1, h2⟩ := h
  refine ⟨?_, ?_⟩
  · rw [room_inside, h1]; simp [ownTemplatePadding]
  · rw [textRoom_inside, h2]; simp [ownTemplatePadding]

theorem cols_hole {p r : Int} {box : Box} (h : Cols p r box) (above below : Int) : Cols p r (inside box above below (some py"{}")) := by
  have := cols_inside h above below []
  simpa using this

/-! ## The reference determines the text -/

theorem pSpace_unique {d : Dom} {i : Nat} {a b a' b' : Int} (h : PSpace d i a b) (h' : PSpace d i a' b') : a = a' ∧ b = b' := by
  have key : ∀ st st', PStyle d i st → PStyle d i st' → st = st' := by
    intro st st' h1 h2
    cases h1 <;> cases h2 <;> first | rfl | contradiction
  rcases h with h | ⟨h, rfl, rfl⟩ <;> rcases h' with h' | ⟨h', rfl, rfl⟩
  · have := key _ _ h h'
    simpa [margins] using this
  · have := key _ _ h h'
    simp [margins] at this
  · have := key _ _ h h'
    simp [margins] at this
  · exact ⟨rfl, rfl⟩

theorem liSpace_unique {d : Dom} {i : Nat} {a a' : Int} (h : LiSpace d i a) (h' : LiSpace d i a') : a = a' := by
  have key : ∀ st st', LiStyle d i st → LiStyle d i st' → st = st' := by
    intro st st' h1 h2
    cases h1 <;> cases h2 <;> first | rfl | contradiction
  rcases h with h | ⟨h, rfl⟩ <;> rcases h' with h' | ⟨h', rfl⟩
  · have := key _ _ h h'
    simpa [margins] using this
  · have := key _ _ h h'
    simp [margins] at this
  · have := key _ _ h h'
    simp [margins] at this
  · rfl

theorem dtSpace_unique {d : Dom} {i : Nat} {a a' : Int} (h : DtSpace d i a) (h' : DtSpace d i a') : a = a' := by
  rcases h with ⟨h1, rfl⟩ | ⟨h1, rfl⟩ <;> rcases h' with ⟨h2, rfl⟩ | ⟨h2, rfl⟩ <;> first | rfl | contradiction

theorem bullet_unique {d : Dom} {src} (hinv : SelInv d src) {i : Nat} {n : Node} (hn : d.nodes[i]? = some n) (hd : n.data = none)
    {a a' : Str} (h : Bullet d i a) (h' : Bullet d i a') : a = a' := by
  rcases h with ⟨h1, b, e, h2, rfl⟩ | ⟨h1, rfl⟩ <;> rcases h' with ⟨g1, b', e', g2, rfl⟩ | ⟨g1, rfl⟩
  · have k := index_around hinv hn hd h2
    rw [index_around hinv hn hd g2] at k
    rw [show b.length = b'.length by simpa using k.symm]
  · contradiction
  · contradiction
  · rfl

theorem wrappedEach_unique {u : Uni} {o : WrapOpts} {segs : List Str} {ps qs : List (List Str)} (h : WrappedEach u o segs ps)
    (h' : WrappedEach u o segs qs) : ps = qs := by
  induction segs generalizing ps qs with
  | nil =>
    cases ps with
    | nil => cases qs with | nil => rfl | cons q qs => exact h'.elim
    | cons p ps => exact h.elim
  | cons x xs ih =>
    cases ps with
    | nil => exact h.elim
    | cons p ps =>
      cases qs with
      | nil => exact h'.elim
      | cons q qs =>
        have := h.1.symm.trans h'.1
        cases this
        rw [ih h.2 h'.2]

theorem lines_unique {x : Str} {ls ls' : List Str} (h : Lines x ls) (h' : Lines x ls') : ls = ls' := by
  rw [← lines_splitlines h, ← lines_splitlines h']

section drawn

variable {u : Uni} {c : Cfg} {es : List Event} {d : Dom} {p r inner : Int} {i : Nat} {y x : Str}

/-- Rule out the cases for other tags. -/
local macro "other_tags" : tactic => `(tactic| (first
  | contradiction
  | (rename_i hm; exact absurd hm (by simp [markers]))
  | (rename_i hm; exact absurd hm (by simp [headerLevels]))
  | (rename_i hm; exact absurd hm (by simp))
  | (rename_i hm; exact absurd (by decide) hm.1)
  | (rename_i hm; exact absurd (by decide) hm.2)))

theorem drawn_marked {tag before after : Str} (hm : (tag, before, after) ∈ markers) :
    Drawn u c es d p r i tag inner y x ↔ inner = r ∧ x = before ++ y ++ after := by
  constructor
  · intro h
    simp only [markers, List.mem_cons, List.not_mem_nil, or_false, Prod.mk.injEq] at hm
    rcases hm with ⟨rfl, rfl, rfl⟩ | ⟨rfl, rfl, rfl⟩ | ⟨rfl, rfl, rfl⟩ | ⟨rfl, rfl, rfl⟩ | ⟨rfl, rfl, rfl⟩ | ⟨rfl, rfl, rfl⟩ |
      ⟨rfl, rfl, rfl⟩ | ⟨rfl, rfl, rfl⟩ | ⟨rfl, rfl, rfl⟩ <;>
    · cases h
      · rename_i before after hm
        simp [markers] at hm
        obtain ⟨rfl, rfl⟩ := hm
        exact ⟨rfl, rfl⟩
      all_goals other_tags
  · rintro ⟨rfl, rfl⟩
    exact .marked hm

theorem drawn_header {tag : Str} {n : Nat} (hm : (tag, n) ∈ headerLevels) :
    Drawn u c es d p r i tag inner y x ↔ inner = r ∧
      x = py"\n" ++ padLines r (List.replicate n '#' ++ py" " ++ y ++ py" " ++ List.replicate n '#') ++ py"\n" := by
  constructor
  · intro h
    simp only [headerLevels, List.mem_cons, List.not_mem_nil, or_false, Prod.mk.injEq] at hm
    rcases hm with ⟨rfl, rfl⟩ | ⟨rfl, rfl⟩ | ⟨rfl, rfl⟩ | ⟨rfl, rfl⟩ | ⟨rfl, rfl⟩ | ⟨rfl, rfl⟩ <;>
    · cases h
      case header n hm =>
        simp [headerLevels] at hm
        subst hm
        exact ⟨rfl, rfl⟩
      all_goals other_tags
  · rintro ⟨rfl, rfl⟩
    exact .header hm

theorem drawn_list {tag : Str} (hm : tag ∈ [py"ul", py"ol", py"dl"]) :
    Drawn u c es d p r i tag inner y x ↔ inner = r ∧ x = py"\n" ++ padLines r y ++ py"\n" := by
  constructor
  · intro h
    simp only [List.mem_cons, List.not_mem_nil, or_false] at hm
    rcases hm with rfl | rfl | rfl <;>
    · cases h
      case list hm => exact ⟨rfl, rfl⟩
      all_goals other_tags
  · rintro ⟨rfl, rfl⟩
    exact .list hm

theorem drawn_br : Drawn u c es d p r i py"br" inner y x ↔ inner = r ∧ x = py"\n" := by
  constructor
  · intro h
    cases h
    case br => exact ⟨rfl, rfl⟩
    all_goals other_tags
  · rintro ⟨rfl, rfl⟩
    exact .br

theorem drawn_div : Drawn u c es d p r i py"div" inner y x ↔ inner = r ∧ x = padLines r y := by
  constructor
  · intro h
    cases h
    case div => exact ⟨rfl, rfl⟩
    all_goals other_tags
  · rintro ⟨rfl, rfl⟩
    exact .div

theorem drawn_code : Drawn u c es d p r i py"code" inner y x ↔ inner = r ∧ (ChildOf d py"pre" i ∧ x = y ∨
    ¬ ChildOf d py"pre" i ∧ '\n' ∉ y ∧ x = py"`" ++ y ++ py"`" ∨ ¬ ChildOf d py"pre" i ∧ '\n' ∈ y ∧ x = py"```\n" ++ y ++ py"\n```\n") := by
  constructor
  · intro h
    cases h
    case code h1 h2 => exact ⟨rfl, .inr (.inl ⟨h1, h2, rfl⟩)⟩
    case fence h1 h2 => exact ⟨rfl, .inr (.inr ⟨h1, h2, rfl⟩)⟩
    case codeInPre h1 => exact ⟨rfl, .inl ⟨h1, rfl⟩⟩
    all_goals other_tags
  · rintro ⟨rfl, ⟨h1, rfl⟩ | ⟨h1, h2, rfl⟩ | ⟨h1, h2, rfl⟩⟩
    · exact .codeInPre h1
    · exact .code h1 h2
    · exact .fence h1 h2

theorem drawn_a : Drawn u c es d p r i py"a" inner y x ↔ inner = r ∧ ((c.linkPlacement ≠ py"inline" ∧
    ∃ m, (nodesWhere d (extracted c))[m]? = some i ∧ x = py"[" ++ y ++ py"][" ++ natStr (m + 1) ++ py"]") ∨
    c.linkPlacement = py"inline" ∧
      x = py"[" ++ y ++ py"](" ++ (attrText es i py"href").getD py"None" ++ titlePart (attrText es i py"title") ++ py")") := by
  constructor
  · intro h
    cases h
    case reference h1 h2 => exact ⟨rfl, .inl ⟨h1, _, h2, rfl⟩⟩
    case link h1 => exact ⟨rfl, .inr ⟨h1, rfl⟩⟩
    all_goals other_tags
  · rintro ⟨rfl, ⟨h1, m, h2, rfl⟩ | ⟨h1, rfl⟩⟩
    · exact .reference h1 h2
    · exact .link h1

theorem drawn_img : Drawn u c es d p r i py"img" inner y x ↔ inner = r ∧ ((c.imagePlacement ≠ py"inline" ∧
    ∃ m, (nodesWhere d (extracted c))[m]? = some i ∧ x = py"[Image][" ++ natStr (m + 1) ++ py"]") ∨
    c.imagePlacement = py"inline" ∧
      x = py"![" ++ altText (attrText es i py"alt") ++ py"](" ++ (attrText es i py"src").getD py"None" ++ py")") := by
  constructor
  · intro h
    cases h
    case imageReference h1 h2 => exact ⟨rfl, .inl ⟨h1, _, h2, rfl⟩⟩
    case image h1 => exact ⟨rfl, .inr ⟨h1, rfl⟩⟩
    all_goals other_tags
  · rintro ⟨rfl, ⟨h1, m, h2, rfl⟩ | ⟨h1, rfl⟩⟩
    · exact .imageReference h1 h2
    · exact .image h1

theorem drawn_pre : Drawn u c es d p r i py"pre" inner y x ↔ inner = r ∧
    ∃ ls, Lines y ls ∧ x = py"\n" ++ rows r (ls.map (py"    " ++ ·)) ++ py"\n" := by
  constructor
  · intro h
    cases h
    case pre h1 => exact ⟨rfl, _, h1, rfl⟩
    all_goals other_tags
  · rintro ⟨rfl, ls, h1, rfl⟩
    exact .pre h1

theorem drawn_quote : Drawn u c es d p r i py"blockquote" inner y x ↔ inner = r - 2 ∧
    ∃ ls, Lines y ls ∧ x = py"\n" ++ rows r (ls.map (py"> " ++ ·)) ++ py"\n" := by
  constructor
  · intro h
    cases h
    case quote h1 => exact ⟨rfl, _, h1, rfl⟩
    all_goals other_tags
  · rintro ⟨rfl, ls, h1, rfl⟩
    exact .quote h1

theorem drawn_dt : Drawn u c es d p r i py"dt" inner y x ↔ inner = r ∧
    ∃ above, DtSpace d i above ∧ x = newlines above.toNat ++ padLines r y := by
  constructor
  · intro h
    cases h
    case term h1 => exact ⟨rfl, _, h1, rfl⟩
    all_goals other_tags
  · rintro ⟨rfl, ls, h1, rfl⟩
    exact .term h1

theorem drawn_li : Drawn u c es d p r i py"li" inner y x ↔ ∃ above bullet lines, LiSpace d i above ∧ Bullet d i bullet ∧
    inner = r - bullet.length ∧ wrap u (proseOpts u (r - p - bullet.length)) y = .ok lines ∧
    x = newlines above.toNat ++ rows r (hang bullet lines) := by
  constructor
  · intro h
    cases h
    case item h1 h2 h3 => exact ⟨_, _, _, h1, h2, rfl, h3, rfl⟩
    all_goals other_tags
  · rintro ⟨above, bullet, lines, h1, h2, rfl, h3, rfl⟩
    exact .item h1 h2 h3

theorem drawn_dd : Drawn u c es d p r i py"dd" inner y x ↔ inner = r - 2 ∧
    ∃ lines, wrap u (proseOpts u (r - p - 2)) y = .ok lines ∧ x = py"\n" ++ rows r (hang py": " lines) := by
  constructor
  · intro h
    cases h
    case description h1 => exact ⟨rfl, _, h1, rfl⟩
    all_goals other_tags
  · rintro ⟨rfl, lines, h1, rfl⟩
    exact .description h1

theorem drawn_p : Drawn u c es d p r i py"p" inner y x ↔ inner = r ∧ ∃ above below, PSpace d i above below ∧
    (OnlyCode d i ∧ x = newlines above.toNat ++ padLines r y ++ newlines below.toNat ∨
      ¬ OnlyCode d i ∧ ∃ parts, WrappedEach u (proseOpts u (r - p)) (splitCh '\n' y) parts ∧ x = newlines above.toNat ++
        rows r (parts.map (fun p => if p = [] then [[]] else p)).flatten ++ newlines below.toNat) := by
  constructor
  · intro h
    cases h
    case paragraph segs parts h1 h2 h3 h4 h5 =>
      refine ⟨rfl, _, _, h1, .inr ⟨h2, parts, ?_, rfl⟩⟩
      rwa [splitCh_join _ _ h3 h4]
    case codeParagraph h1 h2 => exact ⟨rfl, _, _, h1, .inl ⟨h2, rfl⟩⟩
    all_goals other_tags
  · rintro ⟨rfl, above, below, h1, ⟨h2, rfl⟩ | ⟨h2, parts, h3, rfl⟩⟩
    · exact .codeParagraph h1 h2
    · have := Drawn.paragraph (c := c) (es := es) (r := inner) h1 h2 (splitCh_ne_nil '\n' y) (mem_splitCh '\n' y) h3
      rwa [join_splitCh] at this

theorem drawn_other {tag : Str} (hu : Unstyled tag) : Drawn u c es d p r i tag inner y x ↔ inner = r ∧ x = y := by
  constructor
  · intro h
    obtain ⟨h1, h2⟩ := hu
    cases h
    case other => exact ⟨rfl, rfl⟩
    case marked hm =>
      refine absurd ?_ h1
      simp only [markers, List.mem_cons, List.not_mem_nil, or_false, Prod.mk.injEq] at hm
      rcases hm with ⟨rfl, -⟩ | ⟨rfl, -⟩ | ⟨rfl, -⟩ | ⟨rfl, -⟩ | ⟨rfl, -⟩ | ⟨rfl, -⟩ | ⟨rfl, -⟩ | ⟨rfl, -⟩ | ⟨rfl, -⟩ <;> decide
    case header hm =>
      refine absurd ?_ h1
      simp only [headerLevels, List.mem_cons, List.not_mem_nil, or_false, Prod.mk.injEq] at hm
      rcases hm with ⟨rfl, -⟩ | ⟨rfl, -⟩ | ⟨rfl, -⟩ | ⟨rfl, -⟩ | ⟨rfl, -⟩ | ⟨rfl, -⟩ <;> decide
    case list hm =>
      refine absurd ?_ h1
      simp only [List.mem_cons, List.not_mem_nil, or_false] at hm
      rcases hm with rfl | rfl | rfl <;> decide
    all_goals first | exact absurd (by decide) h1 | exact absurd (by decide) h2
  · rintro ⟨rfl, rfl⟩
    exact .other hu

end drawn

/-! ## Nodes -/

theorem map_ok_iff {α β : Type} {t : Py β} {m : Py α} {g : α → β} {D : α → β → Prop} (e : t = m.map g) (hD : ∀ y x, D y x ↔ x = g y)
    (x : β) : t = .ok x ↔ ∃ y, m = .ok y ∧ D y x := by
  rw [e]
  cases m with
  | error e => simp [Except.map]
  | ok y =>
    simp only [Except.map, Except.ok.injEq]
    constructor
    · intro h; exact ⟨y, rfl, (hD _ _).2 h.symm⟩
    · rintro ⟨y', rfl, h⟩; exact ((hD _ _).1 h).symm

/-- A `pre` whose content cannot be rendered cannot be rendered. -/
theorem pre_error {u : Uni} {c : Cfg} {es : List Event} {s : PState} (h : Rendered u c es s)
    {i : Nat} (hr : Unruled c s.dom i) (ht : HasTag s.dom i py"pre") (f : Nat) (box : Box) {e : PyErr}
    (hx : contents u s f (inside box 1 1) i = .error e) : textOf u s (f + 1) box i = .error e := by
  rw [textOf_plain h hr ht (cls := .pre) (by simp only [plainStyle, List.mem_cons, Prod.mk.injEq, List.cons.injEq]; simp)
    (by decide) (by decide)]
  rw [renderWith_block (inst := ⟨.pre, newSettings .pre,
    some (inside box 1 1), tagInfo s.dom i, ⟨some [], none, none⟩⟩) rfl rfl (by simp) rfl, hx]
  rfl

theorem item_iff {u : Uni} {cls : RClass} {t : TagInfo} {ctx : Ctx} {box : Box} {cont : Box → Py Str} {above : Int} {S : Dict}
    {a : Str} (hcls : cls ∈ [.listItem, .olItem, .defItem])
    (hk : construct cls t ctx box = .ok ⟨cls, S, some (inside box above 0 (some (a ++ py"{}"))), t, ctx⟩) (hp : PlainItem S a)
    (hb : DictOf.get S py"border" = some (.strs [[], [], [], []])) (ha : ∀ x ∈ a, x ≠ '{' ∧ x ≠ '}' ∧ x ≠ '\x1b' ∧ x ≠ '\n') {x : Str} :
    renderWith u cls t ctx box cont = .ok x ↔ ∃ y lines, cont (inside box above 0 (some (a ++ py"{}"))) = .ok y ∧
      wrap u (proseOpts u (textRoom box - a.length)) y = .ok lines ∧ x = rep '\n' above ++ rows (room box) (hang a lines) := by
  have key := fun hw y hy => item_rows (u := u) (cont := cont) hcls hk hp hb (fun c hc => ⟨(ha c hc).1, (ha c hc).2.1⟩)
    (fun hc => (ha _ hc).2.2.1 rfl) (fun hc => (ha _ hc).2.2.2 rfl) hw y hy
  constructor
  · intro hx
    obtain ⟨hw, y, hy⟩ := item_ran hcls hk hp hb hx
    obtain ⟨lines, l1, l2, -, -⟩ := key hw y hy
    rw [l2] at hx
    cases hx
    exact ⟨y, lines, hy, l1, rfl⟩
  · rintro ⟨y, lines, hy, hl, rfl⟩
    obtain ⟨lines', l1, l2, -, -⟩ := key (wrap_pos hl) y hy
    rw [hl] at l1
    cases l1
    exact l2

theorem wrappedEach_pos {u : Uni} {w : Int} {segs : List Str} {parts : List (List Str)} (hne : segs ≠ [])
    (h : WrappedEach u (proseOpts u w) segs parts) : 0 < w := by
  cases segs with
  | nil => exact absurd rfl hne
  | cons x xs =>
    cases parts with
    | nil => exact h.elim
    | cons p ps => exact wrap_pos h.1

theorem body_iff {u : Uni} {t : TagInfo} (ht : skipParagraph t = false) {w r above below : Int} {y x : Str} :
    (paragraphBody u t w y).map (fun y => rep '\n' above ++ padLines r y ++ rep '\n' below) = .ok x ↔
      ∃ parts, WrappedEach u (proseOpts u w) (splitCh '\n' y) parts ∧
        x = rep '\n' above ++ rows r (parts.map (fun p => if p = [] then [[]] else p)).flatten ++ rep '\n' below := by
  have key : ∀ parts, WrappedEach u (proseOpts u w) (splitCh '\n' y) parts → paragraphBody u t w y = .ok (join py"\n" (parts.map (join py"\n"))) := by
    intro parts hp
    obtain ⟨parts', p1, p2⟩ := wrapped_each u w (wrappedEach_pos (splitCh_ne_nil _ _) hp) (splitCh '\n' y)
    cases wrappedEach_unique hp p1
    rw [paragraphBody, ht, p2]
    rfl
  have rowsEq : ∀ parts, WrappedEach u (proseOpts u w) (splitCh '\n' y) parts → padLines r (join py"\n" (parts.map (join py"\n"))) =
      rows r (parts.map (fun p => if p = [] then [[]] else p)).flatten := by
    intro parts hp
    rw [join_parts, padLines_join]
    · rfl
    · intro l hl
      obtain ⟨p', hp', hl⟩ := List.mem_flatten.1 hl
      obtain ⟨q, hq, rfl⟩ := List.mem_map.1 hp'
      unfold partLines at hl
      split at hl
      · simp at hl; simp [hl]
      · exact wrappedEach_nl hp q hq l hl
  constructor
  · intro hx
    cases hb : paragraphBody u t w y with
    | error e => rw [hb] at hx; cases hx
    | ok z =>
      obtain ⟨hw, -⟩ := paragraphBody_fit ht hb
      obtain ⟨parts, p1, -⟩ := wrapped_each u w hw (splitCh '\n' y)
      refine ⟨parts, p1, ?_⟩
      rw [key parts p1] at hx
      simp only [Except.map, Except.ok.injEq] at hx
      rw [← hx, rowsEq parts p1]
  · rintro ⟨parts, hp, rfl⟩
    rw [key parts hp]
    simp only [Except.map, rowsEq parts hp]

/-- What an element contains, with the links listed at its end if it has such a list. -/
def insideOf (u : Uni) (c : Cfg) (s : PState) (f : Nat) (box : Box) (i : Nat) (n : Node) : Py Str :=
  if placed c py"inline" n then linkText u s f box i else contents u s f box i

/-- The rendering of an element is what `look` says, given its content. -/
def IsLook (u : Uni) (c : Cfg) (s : PState) (p : Int) (i : Nat) (n : Node) (look : Int → Int → Str → Str → Prop) : Prop :=
  ∀ (f : Nat) (box : Box) (r : Int), Cols p r box → ∃ inner box', Cols p inner box' ∧
    (∀ x, textOf u s (f + 1) box i = .ok x ↔ ∃ y, insideOf u c s f box' i n = .ok y ∧ look r inner y x) ∧
    ∀ inner' y x, look r inner' y x → inner' = inner

/-- Elements in the default style are drawn as the reference says. -/
theorem node_drawn {u : Uni} {c : Cfg} {es : List Event} {s : PState} (h : Rendered u c es s) {i : Nat} (hr : Unruled c s.dom i)
    (hdef : ∀ j tag, HasTag s.dom j tag → Unstyled tag → c.defaultRenderer = .cls .renderer) {n : Node} {tag : Str}
    (hn : s.dom.nodes[i]? = some n) (ht : n.tag = some tag) (p : Int) :
    IsLook u c s p i n (fun r inner y x => Drawn u c es s.dom p r i tag inner y x) := by
  intro f box r hc
  show ∃ inner box', Cols p inner box' ∧
      (∀ x, textOf u s (f + 1) box i = .ok x ↔ ∃ y, insideOf u c s f box' i n = .ok y ∧ Drawn u c es s.dom p r i tag inner y x) ∧
      ∀ inner' y x, Drawn u c es s.dom p r i tag inner' y x → inner' = inner
  have hT : HasTag s.dom i tag := ⟨n, hn, ht⟩
  have hno : tag ≠ py"a" → tag ≠ py"img" → ∀ box', insideOf u c s f box' i n = contents u s f box' i := by
    intro h1 h2 box'
    rw [insideOf, if_neg]
    simp [placed, ht, h1, h2]
  by_cases hm : ∃ b a, (tag, b, a) ∈ markers
  · obtain ⟨b, a, hm⟩ := hm
    have hx : tag ≠ py"a" ∧ tag ≠ py"img" := by constructor <;> (rintro rfl; revert hm; simp [markers])
    refine ⟨r, box, hc, ?_, fun inner' y x hD => ((drawn_marked hm).1 hD).1⟩
    rw [hno hx.1 hx.2]
    exact map_ok_iff (C45 u c es s h i hr tag b a hT hm f box) (fun y x => by rw [drawn_marked hm]; simp)
  by_cases hh : ∃ k, (tag, k) ∈ headerLevels
  · obtain ⟨k, hh⟩ := hh
    have hx : tag ≠ py"a" ∧ tag ≠ py"img" := by constructor <;> (rintro rfl; revert hh; simp [headerLevels])
    refine ⟨r, inside box 1 1, cols_plain hc 1 1, ?_, fun inner' y x hD => ((drawn_header hh).1 hD).1⟩
    rw [hno hx.1 hx.2]
    refine map_ok_iff (C47 u c es s h i hr tag k hT hh f box) (fun y x => by rw [drawn_header hh, hc.1]; simp)
  by_cases hl : tag ∈ [py"ul", py"ol", py"dl"]
  · have hx : tag ≠ py"a" ∧ tag ≠ py"img" := by constructor <;> (rintro rfl; revert hl; simp)
    refine ⟨r, inside box 1 1, cols_plain hc 1 1, ?_, fun inner' y x hD => ((drawn_list hl).1 hD).1⟩
    rw [hno hx.1 hx.2]
    exact map_ok_iff (list_text h hr hT hl f box) (fun y x => by rw [drawn_list hl, hc.1]; simp)
  by_cases hbr : tag = py"br"
  · subst hbr
    refine ⟨r, box, hc, ?_, fun inner' y x hD => (drawn_br.1 hD).1⟩
    rw [hno (by decide) (by decide)]
    exact map_ok_iff (C60_br u c es s h i hr hT f box) (fun y x => by rw [drawn_br]; simp)
  by_cases hdiv : tag = py"div"
  · subst hdiv
    refine ⟨r, inside box 0 0, cols_plain hc 0 0, ?_, fun inner' y x hD => (drawn_div.1 hD).1⟩
    rw [hno (by decide) (by decide)]
    exact map_ok_iff (textOf_div h hr hT f box) (fun y x => by rw [drawn_div, hc.1]; simp)
  by_cases hcode : tag = py"code"
  · subst hcode
    refine ⟨r, box, hc, ?_, fun inner' y x hD => (drawn_code.1 hD).1⟩
    rw [hno (by decide) (by decide)]
    intro x
    cases hy : contents u s f box i with
    | error e => rw [C46_error u c es s h i hr hT f box e hy]; simp
    | ok y =>
      obtain ⟨k1, k2, k3⟩ := C46 u c es s h i hr hT f box y hy
      simp only [Except.ok.injEq, exists_eq_left', drawn_code, true_and]
      by_cases h1 : ChildOf s.dom py"pre" i
      · simp [k1 h1, h1, eq_comm]
      · by_cases h2 : '\n' ∈ y
        · rw [k3 h1 h2]; simp [h1, h2, eq_comm]
        · rw [k2 h1 h2]; simp [h1, h2, eq_comm]
  by_cases ha : tag = py"a"
  · subst ha
    refine ⟨r, box, hc, ?_, fun inner' y x hD => (drawn_a.1 hD).1⟩
    by_cases hp : c.linkPlacement = py"inline"
    · rw [insideOf, if_pos (by simp [placed, ht, hp])]
      exact map_ok_iff (C81_inline u c es s h i hr hT hp f box) (fun y x => by rw [drawn_a]; simp [hp])
    · rw [insideOf, if_neg (by simp [placed, ht, hp])]
      obtain ⟨m, h1, h2⟩ := C81_reference u c es s h i hr hT hp
      refine map_ok_iff (h2 f box) (fun y x => ?_)
      rw [drawn_a]
      simp only [true_and, hp, not_false_eq_true, ne_eq, false_and, or_false]
      constructor
      · rintro ⟨m', g1, rfl⟩; rw [nodesWhere_inj g1 h1]
      · rintro rfl; exact ⟨m, h1, rfl⟩
  by_cases hi : tag = py"img"
  · subst hi
    refine ⟨r, box, hc, ?_, fun inner' y x hD => (drawn_img.1 hD).1⟩
    by_cases hp : c.imagePlacement = py"inline"
    · rw [insideOf, if_pos (by simp [placed, ht, hp])]
      exact map_ok_iff (C81_image u c es s h i hr hT hp f box) (fun y x => by rw [drawn_img]; simp [hp])
    · rw [insideOf, if_neg (by simp [placed, ht, hp])]
      obtain ⟨m, h1, h2⟩ := C81_partial u c es s h i hr hT hp
      refine map_ok_iff (h2 f box) (fun y x => ?_)
      rw [drawn_img]
      simp only [true_and, hp, not_false_eq_true, ne_eq, false_and, or_false]
      constructor
      · rintro ⟨m', g1, rfl⟩; rw [nodesWhere_inj g1 h1]
      · rintro rfl; exact ⟨m, h1, rfl⟩
  by_cases hpre : tag = py"pre"
  · subst hpre
    refine ⟨r, inside box 1 1, cols_plain hc 1 1, ?_, fun inner' y x hD => (drawn_pre.1 hD).1⟩
    rw [hno (by decide) (by decide)]
    intro x
    cases hy : contents u s f (inside box 1 1) i with
    | error e => rw [pre_error h hr hT f box hy]; simp
    | ok y =>
      obtain ⟨ls, k1, k2⟩ := C51_lines y
      rw [C51 u c es s h i hr hT f box y ls hy k1, hc.1]
      simp only [Except.ok.injEq, exists_eq_left', drawn_pre, true_and]
      constructor
      · rintro rfl; exact ⟨ls, k1, rfl⟩
      · rintro ⟨ls', g1, rfl⟩; rw [k2 _ g1]
  by_cases hq : tag = py"blockquote"
  · subst hq
    refine ⟨r - 2, inside box 1 1 (some py"> {}"), cols_inside hc 1 1 py"> ", ?_, fun inner' y x hD => (drawn_quote.1 hD).1⟩
    rw [hno (by decide) (by decide)]
    intro x
    cases hy : contents u s f (inside box 1 1 (some py"> {}")) i with
    | error e => rw [C50_error u c es s h i hr hT f box e hy]; simp
    | ok y =>
      obtain ⟨ls, k1, k2⟩ := C51_lines y
      rw [C50 u c es s h i hr hT f box y ls hy k1, hc.1]
      simp only [Except.ok.injEq, exists_eq_left', drawn_quote, true_and]
      constructor
      · rintro rfl; exact ⟨ls, k1, rfl⟩
      · rintro ⟨ls', g1, rfl⟩; rw [k2 _ g1]
  by_cases hdt : tag = py"dt"
  · subst hdt
    obtain ⟨above, k1, k2⟩ := dt_text h hr hT f box
    have k1 : DtSpace s.dom i above := k1.symm
    refine ⟨r, inside box above 0, cols_plain hc above 0, ?_, fun inner' y x hD => (drawn_dt.1 hD).1⟩
    rw [hno (by decide) (by decide)]
    refine map_ok_iff k2 (fun y x => ?_)
    rw [drawn_dt, hc.1]
    simp only [true_and]
    constructor
    · rintro ⟨above', g1, rfl⟩; rw [dtSpace_unique g1 k1]; rfl
    · rintro rfl; exact ⟨above, k1, rfl⟩
  by_cases hli : tag = py"li"
  · subst hli
    obtain ⟨above, S, cls, a, ctx, b1, b2, b3, b4, b5, b6, b7, b8⟩ := li_parts h hr hT f box
    obtain ⟨m, m1, -, hd, -⟩ := rendered_elem h hT (by decide) (by decide)
    rw [hn] at m1; cases m1
    obtain ⟨-, -, -, -, -, -, hinv, -, -⟩ := rendered_inv h
    refine ⟨r - a.length, inside box above 0 (some (a ++ py"{}")), cols_inside hc above 0 a, ?_, ?_⟩
    · rw [hno (by decide) (by decide), b7]
      intro x
      rw [item_iff b2 b3 b4 b5 b6, hc.1, hc.2]
      constructor
      · rintro ⟨y, lines, g1, g2, rfl⟩
        exact ⟨y, g1, drawn_li.2 ⟨above, a, lines, b1, b8, rfl, g2, rfl⟩⟩
      · rintro ⟨y, g1, g2⟩
        obtain ⟨above', a', lines, k1, k2, -, k4, rfl⟩ := drawn_li.1 g2
        obtain rfl := liSpace_unique k1 b1
        obtain rfl := bullet_unique hinv hn hd k2 b8
        exact ⟨y, lines, g1, k4, rfl⟩
    · intro inner' y x hD
      obtain ⟨above', a', lines, k1, k2, k3, -, -⟩ := drawn_li.1 hD
      rw [k3, bullet_unique hinv hn hd k2 b8]
  by_cases hdd : tag = py"dd"
  · subst hdd
    refine ⟨r - 2, inside box 1 0 (some (py": " ++ py"{}")), cols_inside hc 1 0 py": ", ?_, fun inner' y x hD => (drawn_dd.1 hD).1⟩
    rw [hno (by decide) (by decide), textOf_plain h hr hT (cls := .defItem)
      (by simp only [plainStyle, List.mem_cons, Prod.mk.injEq, List.cons.injEq]; simp) (by decide) (by decide)]
    intro x
    rw [item_iff (cls := .defItem) (a := py": ") (above := 1) (cont := fun b => contents u s f b i) (S := newSettings .defItem)
      (by simp) rfl ⟨rfl, rfl, rfl, rfl, rfl, rfl, rfl, by
        simp only [List.mem_cons, List.not_mem_nil, or_false]
        rintro k (rfl | rfl | rfl | rfl | rfl | rfl) <;> rfl⟩ rfl (by decide), hc.1, hc.2]
    simp only [drawn_dd, true_and]
    constructor
    · rintro ⟨y, lines, g1, g2, rfl⟩
      exact ⟨y, g1, lines, g2, rfl⟩
    · rintro ⟨y, g1, lines, g2, rfl⟩
      exact ⟨y, lines, g1, g2, rfl⟩
  by_cases hp : tag = py"p"
  · subst hp
    obtain ⟨above, below, k1, k2⟩ := textOf_p h hr hT f box
    refine ⟨r, inside box above below (some py"{}"), cols_hole hc above below, ?_, fun inner' y x hD => (drawn_p.1 hD).1⟩
    rw [hno (by decide) (by decide), k2]
    intro x
    cases hy : contents u s f (inside box above below (some py"{}")) i with
    | error e => simp [Except.bind, Except.map]
    | ok y =>
      simp only [Except.ok.injEq, exists_eq_left', drawn_p, true_and, Except.bind]
      by_cases hs : OnlyCode s.dom i
      · simp only [paragraphBody, (skip_iff hn).2 hs, if_true, Except.map, Except.ok.injEq, hs, true_and, not_true_eq_false, false_and, or_false]
        rw [hc.1]
        constructor
        · rintro rfl; exact ⟨above, below, k1, rfl⟩
        · rintro ⟨a, b, g1, rfl⟩
          obtain ⟨rfl, rfl⟩ := pSpace_unique g1 k1
          rfl
      · simp only [hs, false_and, not_false_eq_true, true_and, false_or]
        rw [body_iff (by cases hk : skipParagraph (tagInfo s.dom i) with
          | false => rfl
          | true => exact absurd ((skip_iff hn).1 hk) hs), hc.1, hc.2]
        constructor
        · rintro ⟨parts, g1, rfl⟩; exact ⟨above, below, k1, parts, g1, rfl⟩
        · rintro ⟨a, b, g1, parts, g2, rfl⟩
          obtain ⟨rfl, rfl⟩ := pSpace_unique g1 k1
          exact ⟨parts, g2, rfl⟩
  have hu : Unstyled tag := by
    refine ⟨?_, by simp [hp, hli, hdt]⟩
    intro hmem
    simp only [plainStyle, List.map_cons, List.map_nil, List.mem_cons, List.not_mem_nil, or_false] at hmem
    simp only [List.mem_cons, List.not_mem_nil, or_false] at hl
    rcases hmem with rfl | rfl | rfl | rfl | rfl | rfl | rfl | rfl | rfl | rfl | rfl | rfl | rfl | rfl | rfl | rfl | rfl | rfl |
      rfl | rfl | rfl | rfl | rfl | rfl | rfl | rfl <;>
    first
      | contradiction
      | exact hl (by decide)
      | exact hh ⟨_, by simp [headerLevels]; rfl⟩
      | exact hm ⟨_, _, by simp [markers]; exact ⟨rfl, rfl⟩⟩
  refine ⟨r, box, hc, ?_, fun inner' y x hD => ((drawn_other hu).1 hD).1⟩
  rw [hno ha hi, textOf_unstyled h hr (hdef i tag hT hu) hT hu f box]
  intro x
  simp only [drawn_other hu, true_and]
  constructor
  · intro g; exact ⟨x, g, rfl⟩
  · rintro ⟨y, g, rfl⟩; exact g

/-- Every element is drawn as the reference says, if those with an own style are. -/
theorem node_shown {u : Uni} {c : Cfg} {es : List Event} {s : PState} (h : Rendered u c es s) (htab : OwnTable c)
    (hdef : ∀ j tag, HasTag s.dom j tag → Unstyled tag → c.defaultRenderer = .cls .renderer) {p : Int} {own : OwnStyle}
    (hown : ∀ (i : Nat) n tag, s.dom.nodes[i]? = some n → n.tag = some tag → ¬ Untouched s.dom c.renderers i → IsLook u c s p i n (own i))
    {i : Nat} {n : Node} {tag : Str} (hn : s.dom.nodes[i]? = some n) (ht : n.tag = some tag) :
    IsLook u c s p i n (fun r inner y x => Shown u c es s.dom own p r i tag inner y x) := by
  intro f box r hc
  by_cases hu : Untouched s.dom c.renderers i
  · obtain ⟨inner, box', h1, h2, h3⟩ := node_drawn h ⟨htab, hu⟩ hdef hn ht p f box r hc
    have e : ∀ inner' y x, Shown u c es s.dom own p r i tag inner' y x ↔ Drawn u c es s.dom p r i tag inner' y x :=
      fun _ _ _ => ⟨fun g => g.elim And.right (fun g => absurd hu g.1), fun g => .inl ⟨⟨htab, hu⟩, g⟩⟩
    refine ⟨inner, box', h1, fun x => ?_, fun inner' y x g => h3 _ _ _ ((e _ _ _).1 g)⟩
    simp only [e]
    exact h2 x
  · obtain ⟨inner, box', h1, h2, h3⟩ := hown i n tag hn ht hu f box r hc
    have e : ∀ inner' y x, Shown u c es s.dom own p r i tag inner' y x ↔ own i r inner' y x :=
      fun _ _ _ => ⟨fun g => g.elim (fun g => absurd g.1.free hu) And.right, fun g => .inr ⟨hu, g⟩⟩
    refine ⟨inner, box', h1, fun x => ?_, fun inner' y x g => h3 _ _ _ ((e _ _ _).1 g)⟩
    simp only [e]
    exact h2 x

/-! ## Lists of links -/

theorem placed_extracted {c : Cfg} {n : Node} {place : Str} (hp : place ≠ py"inline") (h : placed c place n = true) : extracted c n = true := by
  unfold placed at h
  unfold extracted
  cases ht : n.tag with
  | none => rw [ht] at h; cases h
  | some t =>
    rw [ht] at h
    simp only [Bool.or_eq_true, Bool.and_eq_true, decide_eq_true_eq] at h ⊢
    rcases h with ⟨h1, h2⟩ | ⟨h1, h2⟩
    · exact .inl ⟨h1, by rw [h2]; exact hp⟩
    · exact .inr ⟨h1, by rw [h2]; exact hp⟩

theorem extracted_cases {c : Cfg} {n : Node} (h : extracted c n = true) :
    n.tag = some py"a" ∧ c.linkPlacement ≠ py"inline" ∨ n.tag = some py"img" ∧ c.imagePlacement ≠ py"inline" := by
  unfold extracted at h
  cases ht : n.tag with
  | none => rw [ht] at h; cases h
  | some t =>
    rw [ht] at h
    simp only [Bool.or_eq_true, Bool.and_eq_true, decide_eq_true_eq] at h
    rcases h with ⟨rfl, h⟩ | ⟨rfl, h⟩
    · exact .inl ⟨rfl, h⟩
    · exact .inr ⟨rfl, h⟩

/-- The line of a link in a list. -/
theorem link_drawn {u : Uni} {c : Cfg} {es : List Event} {s : PState} (h : Rendered u c es s) (hf : c.outputFormat ≠ py"gophermap")
    {limit : Nat} (hlim : LimitIs c limit) {i : Nat} {n : Node} (hn : s.dom.nodes[i]? = some n) (ht : n.tag = some py"a")
    (hp : c.linkPlacement ≠ py"inline") : ∃ m, (nodesWhere s.dom (extracted c))[m]? = some i ∧ ∀ f box,
      renderNode u s.dom s.assigned (f + 1) true box i = (renderAll (renderNode u s.dom s.assigned f false (inside box 0 0)) n.children).map
        (fun y => padLines (room box) (py"\n" ++ linkLine limit (m + 1) y (attrText es i py"href") (attrText es i py"title"))) := by
  obtain ⟨k, h1, h2⟩ := C43_entry u c es s h hf hp limit hlim i ⟨n, hn, ht⟩
  obtain ⟨m, rfl, hm⟩ := number_known h hn (by simp [extracted, ht, hp]) h1
  refine ⟨m, hm, fun f box => ?_⟩
  have := h2 f box
  simp only [entryOf, linkText, hn] at this
  rw [this]
  congr 1

/-- The line of an image in a list. -/
theorem image_drawn {u : Uni} {c : Cfg} {es : List Event} {s : PState} (h : Rendered u c es s) (hf : c.outputFormat ≠ py"gophermap")
    {limit : Nat} (hlim : LimitIs c limit) {i : Nat} {n : Node} (hn : s.dom.nodes[i]? = some n) (ht : n.tag = some py"img")
    (hp : c.imagePlacement ≠ py"inline") : ∃ m, (nodesWhere s.dom (extracted c))[m]? = some i ∧ ∀ f box,
      renderNode u s.dom s.assigned (f + 1) true box i = (renderAll (renderNode u s.dom s.assigned f false (inside box 0 0)) n.children).map
        (fun _ => padLines (room box) (py"\n" ++ imageLine (m + 1) (attrText es i py"src") (attrText es i py"alt"))) := by
  obtain ⟨k, h1, h2⟩ := image_entry u c es s h hf hp limit hlim i ⟨n, hn, ht⟩
  obtain ⟨m, rfl, hm⟩ := number_known h hn (by simp [extracted, ht, hp]) h1
  refine ⟨m, hm, fun f box => ?_⟩
  have := h2 f box
  simp only [entryOf, linkText, hn] at this
  rw [this]
  rfl

/-- The line of a link or image in a list is what the reference says. -/
theorem entry_drawn {u : Uni} {c : Cfg} {es : List Event} {s : PState} (h : Rendered u c es s) {limit : Nat} (hlim : LimitIs c limit)
    {i : Nat} {n : Node} (hn : s.dom.nodes[i]? = some n) (hex : extracted c n = true) :
    ∃ m tag, n.tag = some tag ∧ (nodesWhere s.dom (extracted c))[m]? = some i ∧ ∀ p r f box, Cols p r box → ∀ x,
      (renderNode u s.dom s.assigned (f + 1) true box i = .ok x ↔
        ∃ y, renderAll (renderNode u s.dom s.assigned f false (inside box 0 0)) n.children = .ok y ∧
          Listed u c es limit r i (m + 1) tag y x) := by
  by_cases hf : c.outputFormat = py"gophermap"
  · rcases extracted_cases hex with ⟨ht, hp⟩ | ⟨ht, hp⟩
    · obtain ⟨g, k, h0, h1, h2⟩ := C42_entry u c es s h hf limit hlim i ⟨n, hn, ht⟩
      obtain ⟨m, rfl, hm⟩ := number_known h hn (by simp [extracted, ht, hp]) h1
      refine ⟨m, _, ht, hm, fun p r f box hc x => ?_⟩
      have := h2 f box
      simp only [entryOf, linkText, hn] at this
      refine map_ok_iff this (fun y x => ⟨fun hl => ?_, fun e => ?_⟩) x
      · generalize ha : py"a" = a at hl
        cases hl with
        | link hf' => exact absurd hf hf'
        | image => exact absurd ha (by decide)
        | gopherLink _ hg => rw [h0] at hg; cases hg; rfl
        | gopherImage => exact absurd ha (by decide)
      · rw [e]; exact .gopherLink hf h0
    · obtain ⟨g, k, h0, h1, h2⟩ := C42_image u c es s h hf hp limit hlim i ⟨n, hn, ht⟩
      obtain ⟨m, rfl, hm⟩ := number_known h hn (by simp [extracted, ht, hp]) h1
      refine ⟨m, _, ht, hm, fun p r f box hc x => ?_⟩
      have := h2 f box
      simp only [entryOf, linkText, hn, hc.1] at this
      refine map_ok_iff this (fun y x => ⟨fun hl => ?_, fun e => ?_⟩) x
      · generalize ha : py"img" = a at hl
        cases hl with
        | link => exact absurd ha (by decide)
        | image hf' => exact absurd hf hf'
        | gopherLink => exact absurd ha (by decide)
        | gopherImage _ hg => rw [h0] at hg; cases hg; rfl
      · rw [e]; exact .gopherImage hf h0
  · rcases extracted_cases hex with ⟨ht, hp⟩ | ⟨ht, hp⟩
    · obtain ⟨m, hm, k⟩ := link_drawn h hf hlim hn ht hp
      refine ⟨m, _, ht, hm, fun p r f box hc x => ?_⟩
      have := k f box
      rw [hc.1] at this
      refine map_ok_iff this (fun y x => ⟨fun hl => ?_, fun e => ?_⟩) x
      · generalize ha : py"a" = a at hl
        cases hl with
        | link => rfl
        | image => exact absurd ha (by decide)
        | gopherLink hf' => exact absurd hf' hf
        | gopherImage hf' => exact absurd hf' hf
      · rw [e]; exact .link hf
    · obtain ⟨m, hm, k⟩ := image_drawn h hf hlim hn ht hp
      refine ⟨m, _, ht, hm, fun p r f box hc x => ?_⟩
      have := k f box
      rw [hc.1] at this
      refine map_ok_iff this (fun y x => ⟨fun hl => ?_, fun e => ?_⟩) x
      · generalize ha : py"img" = a at hl
        cases hl with
        | link => exact absurd ha (by decide)
        | image => rfl
        | gopherLink hf' => exact absurd hf' hf
        | gopherImage hf' => exact absurd hf' hf
      · rw [e]; exact .image hf

theorem pending_waiting {u : Uni} {c : Cfg} {es : List Event} {s : PState} (h : Rendered u c es s) {i : Nat} {n : Node}
    (hn : s.dom.nodes[i]? = some n) (hp : placed c py"inline" n = false) : n.pending = waiting c s.dom i := by
  obtain ⟨s0, s1, e0, e1, e2, hdom, -, hlinv, -⟩ := rendered_inv h
  have := hlinv.pending i n (by rw [← hdom]; exact hn)
  rw [this, waiting, hn, ← hdom]
  simp only [Option.any_some, hp, Bool.false_eq_true, if_false]
  rfl

theorem waiting_extracted {c : Cfg} {d : Dom} {i j : Nat} (h : j ∈ waiting c d i) : ∃ n, d.nodes[j]? = some n ∧ extracted c n = true := by
  unfold waiting at h
  split at h
  · cases h
  · obtain ⟨n, h1, h2⟩ := mem_nodesWhere.1 h
    simp only [Bool.and_eq_true] at h2
    exact ⟨n, h1, placed_extracted (by decide) h2.1⟩

/-! ## Everything together -/

/-- Whatever is rendered is what the reference says. -/
theorem rendered_draws {u : Uni} {c : Cfg} {es : List Event} {s : PState} (h : Rendered u c es s) (htab : OwnTable c)
    (hdef : ∀ j tag, HasTag s.dom j tag → Unstyled tag → c.defaultRenderer = .cls .renderer)
    {limit : Nat} (hlim : LimitIs c limit) {p : Int} {own : OwnStyle}
    (hown : ∀ (i : Nat) n tag, s.dom.nodes[i]? = some n → n.tag = some tag → ¬ Untouched s.dom c.renderers i → IsLook u c s p i n (own i))
    (fuel : Nat) : ∀ (listed : Bool) (r : Int) (box : Box), Cols p r box →
      ∀ (is : List Nat), (listed = true → ∀ i ∈ is, ∃ n, s.dom.nodes[i]? = some n ∧ extracted c n = true) →
      ∀ x, renderAll (renderNode u s.dom s.assigned fuel listed box) is = .ok x → Draws u c es s.dom own limit p listed r is x := by
  induction fuel with
  | zero =>
    intro listed r box hc is hl x hx
    cases is with
    | nil => cases hx; exact .nil
    | cons i is =>
      obtain ⟨y, z, h1, -, -⟩ := renderAll_cons hx
      cases h1
  | succ f ih =>
    intro listed r box hc is hl x hx
    induction is generalizing x with
    | nil => cases hx; exact .nil
    | cons i is ihis =>
      obtain ⟨y, z, h1, h2, rfl⟩ := renderAll_cons hx
      have hz := ihis (fun e j hj => hl e j (List.mem_cons_of_mem _ hj)) z h2
      cases listed with
      | true =>
        obtain ⟨n, hn, hex⟩ := hl rfl i (by simp)
        obtain ⟨m, tag, ht, hm, k⟩ := entry_drawn h hlim hn hex
        obtain ⟨w, hw, hL⟩ := (k p r f box hc y).1 h1
        exact .entry hn ht hm (ih false r _ (cols_plain hc 0 0) _ (by simp) _ hw) hL hz
      | false =>
        cases hn : s.dom.nodes[i]? with
        | none => simp [renderNode, hn] at h1
        | some n =>
          cases hd : n.data with
          | some t =>
            simp only [renderNode, hn, hd, Except.ok.injEq] at h1
            subst h1
            exact .text hn hd hz
          | none =>
            obtain ⟨-, -, -, -, -, -, hinv, -, -⟩ := rendered_inv h
            obtain ⟨tag, ht⟩ := Option.isSome_iff_exists.1 ((hinv.node i n hn).noData hd)
            obtain ⟨inner, box', hc', k, -⟩ := node_shown h htab hdef hown hn ht f _ _ hc
            obtain ⟨w, hw, hD⟩ := (k y).1 h1
            by_cases hp : placed c py"inline" n = true
            · have hwait : waiting c s.dom i = [] := by simp [waiting, hn, hp]
              simp only [insideOf, hp, if_true, linkText, hn] at hw
              refine .elem hn ht (z := []) (ih false inner box' hc' _ (by simp) w hw) (by rw [hwait]; exact .nil) ?_ hz
              simpa [hwait] using hD
            · have hp : placed c py"inline" n = false := by simpa using hp
              simp only [insideOf, hp, Bool.false_eq_true, if_false, contents, hn, bind, Except.bind, pure, Except.pure] at hw
              rw [pending_waiting h hn hp] at hw
              cases hb : renderAll (renderNode u s.dom s.assigned f false box') n.children with
              | error e => rw [hb] at hw; cases hw
              | ok b =>
                rw [hb] at hw
                simp only at hw
                cases hb' : renderAll (renderNode u s.dom s.assigned f true box') (waiting c s.dom i) with
                | error e => rw [hb'] at hw; cases hw
                | ok b' =>
                  rw [hb'] at hw
                  simp only [Except.ok.injEq] at hw
                  refine .elem hn ht (ih false inner box' hc' _ (by simp) b hb)
                    (ih true inner box' hc' _ (fun _ j hj => waiting_extracted hj) b' hb') ?_ hz
                  rw [← hw] at hD
                  simpa using hD

theorem renderAll_step {g : Nat → Py Str} {i : Nat} {is : List Nat} {y z : Str} (h1 : g i = .ok y) (h2 : renderAll g is = .ok z) :
    renderAll g (i :: is) = .ok (y ++ z) := by
  simp only [renderAll, bind, Except.bind, pure, Except.pure, h1, h2]

/-- Whatever the reference says is rendered. -/
theorem draws_rendered {u : Uni} {c : Cfg} {es : List Event} {s : PState} (h : Rendered u c es s) (htab : OwnTable c)
    (hdef : ∀ j tag, HasTag s.dom j tag → Unstyled tag → c.defaultRenderer = .cls .renderer)
    {limit : Nat} (hlim : LimitIs c limit) {p : Int} {own : OwnStyle}
    (hown : ∀ (i : Nat) n tag, s.dom.nodes[i]? = some n → n.tag = some tag → ¬ Untouched s.dom c.renderers i → IsLook u c s p i n (own i)) {listed : Bool} {r : Int} {is : List Nat} {x : Str}
    (hD : Draws u c es s.dom own limit p listed r is x) :
    ∃ f0, ∀ f, f0 ≤ f → ∀ box, Cols p r box → renderAll (renderNode u s.dom s.assigned f listed box) is = .ok x := by
  induction hD with
  | nil => exact ⟨0, fun _ _ _ _ => rfl⟩
  | @text r i is n t x hn hd hx ih =>
    obtain ⟨f0, ih⟩ := ih
    refine ⟨f0 + 1, fun f hle box hc => ?_⟩
    refine renderAll_step ?_ (ih f (by omega) box hc)
    cases f with
    | zero => omega
    | succ f => simp [renderNode, hn, hd]
  | @elem r inner i is n tag y z x w hn ht hy hz hD hw ihy ihz ihw =>
    obtain ⟨f1, ihy⟩ := ihy
    obtain ⟨f2, ihz⟩ := ihz
    obtain ⟨f3, ihw⟩ := ihw
    refine ⟨max f1 (max f2 f3) + 1, fun f hle box hc => ?_⟩
    refine renderAll_step ?_ (ihw f (by omega) box hc)
    cases f with
    | zero => omega
    | succ f =>
      obtain ⟨inner', box', hc', k, k'⟩ := node_shown h htab hdef hown hn ht f _ _ hc
      obtain rfl := k' _ _ _ hD
      refine (k x).2 ⟨_, ?_, hD⟩
      have e1 := ihy f (by omega) box' hc'
      have e2 := ihz f (by omega) box' hc'
      by_cases hp : placed c py"inline" n = true
      · have hwait : waiting c s.dom i = [] := by simp [waiting, hn, hp]
        rw [hwait] at e2
        cases e2
        simp [insideOf, hp, linkText, hn, e1, hwait]
      · have hp : placed c py"inline" n = false := by simpa using hp
        simp only [insideOf, hp, Bool.false_eq_true, if_false, contents, hn, bind, Except.bind, pure, Except.pure]
        rw [pending_waiting h hn hp, e1]
        simp only [e2]
        simp
  | @entry r i is m n tag y x w hn ht hm hy hL hw ihy ihw =>
    obtain ⟨f1, ihy⟩ := ihy
    obtain ⟨f2, ihw⟩ := ihw
    refine ⟨max f1 f2 + 1, fun f hle box hc => ?_⟩
    refine renderAll_step ?_ (ihw f (by omega) box hc)
    obtain ⟨n', g1, g2⟩ := mem_nodesWhere.1 (List.mem_of_getElem? hm)
    rw [hn] at g1; cases g1
    obtain ⟨m', tag', ht', hm', k⟩ := entry_drawn h hlim hn g2
    obtain rfl := nodesWhere_inj hm hm'
    rw [ht] at ht'; cases ht'
    cases f with
    | zero => omega
    | succ f => exact (k p r f box hc x).2 ⟨y, ihy f (by omega) _ (cols_plain hc 0 0), hL⟩

theorem cols_page (box : Box) : Cols (box.totalPadding.left + box.totalPadding.right) (room box) box :=
  ⟨rfl, by unfold textRoom; omega⟩

theorem page_drawn {u : Uni} {c : Cfg} {es : List Event} {s : PState} (h : Rendered u c es s) (htab : OwnTable c)
    (hdef : ∀ j tag, HasTag s.dom j tag → Unstyled tag → c.defaultRenderer = .cls .renderer)
    {limit : Nat} (hlim : LimitIs c limit) {own : OwnStyle}
    (hown : ∀ (i : Nat) n tag, s.dom.nodes[i]? = some n → n.tag = some tag → ¬ Untouched s.dom c.renderers i →
      IsLook u c s (c.pageBox.totalPadding.left + c.pageBox.totalPadding.right) i n (own i)) :
    ∃ page, PageOf u c es s.dom own limit page ∧ (if c.optimise then TrimmedLines page s.parsed else s.parsed = page) := by
  obtain ⟨s0, s1, e0, e1, e2, hdom, -, hlinv, -⟩ := rendered_inv h
  obtain ⟨t, bodies, foot, q1, q2, q3, q4⟩ := close_reach e0 e1 e2
  have ht : s.assigned = t := by rw [q4]
  have hbody : renderAll (renderNode u s.dom s.assigned s.dom.fuel false c.pageBox) s.dom.roots = .ok bodies.flatten := by
    rw [renderAll_mapM, ht, hdom, q2]
    rfl
  obtain ⟨ftext, hfoot, hparts⟩ : ∃ ftext, renderAll (renderNode u s.dom s.assigned s.dom.fuel true c.pageBox) (footNodes c s.dom) = .ok ftext ∧
      foot.flatten = (if footNodes c s.dom = [] then [] else py"\n") ++ ftext := by
    unfold footerParts at q3
    rw [hlinv.footer, ← hdom, ← ht] at q3
    split at q3
    · rename_i hcond
      have hfn : footNodes c s.dom = nodesWhere s.dom (placed c py"footer") := by rw [footNodes, if_pos hcond.1]
      cases hls : (nodesWhere s.dom (placed c py"footer")).mapM (renderNode u s.dom s.assigned s.dom.fuel true c.pageBox) with
      | error e => rw [hls] at q3; cases q3
      | ok ls =>
        rw [hls] at q3
        cases q3
        refine ⟨ls.flatten, ?_, ?_⟩
        · rw [hfn, renderAll_mapM, hls]; rfl
        · rw [hfn, if_neg hcond.2]; rfl
    · rename_i hcond
      cases q3
      have hfn : footNodes c s.dom = [] := by
        rw [footNodes]
        split
        · rename_i hl
          exact Classical.byContradiction (fun hne => hcond ⟨hl, hne⟩)
        · rfl
      exact ⟨[], by rw [hfn]; rfl, by rw [hfn]; rfl⟩
  have hb := rendered_draws h htab hdef hlim hown _ false _ _ (cols_page c.pageBox) _ (by simp) _ hbody
  have hft := rendered_draws h htab hdef hlim hown _ true _ _ (cols_page c.pageBox) (footNodes c s.dom) (by
    intro _ i hi
    rw [footNodes] at hi
    split at hi
    · obtain ⟨n, h1, h2⟩ := mem_nodesWhere.1 hi
      exact ⟨n, h1, placed_extracted (by decide) h2⟩
    · cases hi) _ hfoot
  refine ⟨framed c (bodies ++ foot), ⟨_, _, hb, hft, ?_⟩, ?_⟩
  · unfold framed indentBody
    rw [indent_eq, List.flatten_append, hparts, ← List.append_assoc bodies.flatten]
    rfl
  · rw [q4]
    cases c.optimise with
    | true => exact trimmed_optimise _
    | false => rfl

theorem draws_unique {u : Uni} {c : Cfg} {es : List Event} {s : PState} (h : Rendered u c es s) (htab : OwnTable c)
    (hdef : ∀ j tag, HasTag s.dom j tag → Unstyled tag → c.defaultRenderer = .cls .renderer)
    {limit : Nat} (hlim : LimitIs c limit) {p : Int} {own : OwnStyle}
    (hown : ∀ (i : Nat) n tag, s.dom.nodes[i]? = some n → n.tag = some tag → ¬ Untouched s.dom c.renderers i → IsLook u c s p i n (own i)) {listed : Bool} {r : Int} {is : List Nat} {x y : Str}
    (hx : Draws u c es s.dom own limit p listed r is x) (hy : Draws u c es s.dom own limit p listed r is y) : x = y := by
  obtain ⟨f1, h1⟩ := draws_rendered h htab hdef hlim hown hx
  obtain ⟨f2, h2⟩ := draws_rendered h htab hdef hlim hown hy
  have hc : Cols p r (Box.new r {} ⟨0, 0, 0, p⟩ {} none none) := by
    refine ⟨?_, ?_⟩ <;> simp only [Box.new, textRoom, room, ownTemplatePadding] <;> omega
  have e1 := h1 (max f1 f2) (by omega) _ hc
  have e2 := h2 (max f1 f2) (by omega) _ hc
  rw [e1] at e2
  cases e2; rfl

theorem page_unique {u : Uni} {c : Cfg} {es : List Event} {s : PState} (h : Rendered u c es s) (htab : OwnTable c)
    (hdef : ∀ j tag, HasTag s.dom j tag → Unstyled tag → c.defaultRenderer = .cls .renderer)
    {limit : Nat} (hlim : LimitIs c limit) {own : OwnStyle}
    (hown : ∀ (i : Nat) n tag, s.dom.nodes[i]? = some n → n.tag = some tag → ¬ Untouched s.dom c.renderers i →
      IsLook u c s (c.pageBox.totalPadding.left + c.pageBox.totalPadding.right) i n (own i))
    {page page' : Str} (hp : PageOf u c es s.dom own limit page) (hp' : PageOf u c es s.dom own limit page') : page = page' := by
  obtain ⟨b, f, b1, f1, rfl⟩ := hp
  obtain ⟨b', f', b2, f2, rfl⟩ := hp'
  rw [draws_unique h htab hdef hlim hown b1 b2, draws_unique h htab hdef hlim hown f1 f2]

theorem ownTable_nil {c : Cfg} (h : c.renderers = []) : OwnTable c := (unruled_nil h ⟨[], []⟩ 0).toOwnTable

theorem no_own {c : Cfg} (hr : c.renderers = []) {d : Dom} {i : Nat} (h : ¬ Untouched d c.renderers i) : False :=
  h (unruled_nil hr d i).free

/-- The page of every document that is rendered with the default style is what the reference says; whitespace at the
ends of lines is removed if this is asked for. -/
theorem C82 (u : Uni) (c : Cfg) (es : List Event) (s : PState) (h : Rendered u c es s) (hr : c.renderers = [])
    (hdef : ∀ j tag, HasTag s.dom j tag → Unstyled tag → c.defaultRenderer = .cls .renderer)
    (limit : Nat) (hlim : LimitIs c limit) :
    ∃ page, PageOf u c es s.dom noOwnStyle limit page ∧ (if c.optimise then TrimmedLines page s.parsed else s.parsed = page) :=
  page_drawn h (ownTable_nil hr) hdef hlim (fun _ _ _ _ _ g => (no_own hr g).elim)

/-- There is only one such page. -/
theorem C82_unique (u : Uni) (c : Cfg) (es : List Event) (s : PState) (h : Rendered u c es s) (hr : c.renderers = [])
    (hdef : ∀ j tag, HasTag s.dom j tag → Unstyled tag → c.defaultRenderer = .cls .renderer)
    (limit : Nat) (hlim : LimitIs c limit) (page page' : Str) (hp : PageOf u c es s.dom noOwnStyle limit page)
    (hp' : PageOf u c es s.dom noOwnStyle limit page') : page = page' :=
  page_unique h (ownTable_nil hr) hdef hlim (fun _ _ _ _ _ g => (no_own hr g).elim) hp hp'

/-! ## Themes -/

theorem theme_table {c : Cfg} {theme : List Rule} (ht : theme ∈ bundledThemes) (hr : c.renderers = theme) : OwnTable c := by
  refine ⟨hr ▸ themes_nodup theme ht, fun r h1 r' h2 e => ?_⟩
  rw [hr] at h1
  have := theme_rule ht h1
  simp only [ruleOk, Bool.and_eq_true, decide_eq_true_eq] at this
  exact absurd (e ▸ List.mem_map_of_mem h2) this.2

theorem ansi_plain (u : Uni) (x : Str) : ansiRender u (newSettings .ansi) x = .ok x := by
  have hin : inlineRender u (newSettings .ansi) x = .ok x := C52_content u _ rfl rfl x
  unfold ansiRender
  rw [hin]
  show Except.ok ([] ++ x ++ []) = _
  simp

/-- The elements that a theme mentions are their content between control sequences. -/
theorem theme_look {u : Uni} {c : Cfg} {es : List Event} {s : PState} (h : Rendered u c es s) {theme : List Rule}
    (ht : theme ∈ bundledThemes) (hr : c.renderers = theme) : ∃ on off : Nat → List (List Nat),
      ∀ (i : Nat) n tag, s.dom.nodes[i]? = some n → n.tag = some tag → ¬ Untouched s.dom theme i →
        ThemeCodes s.dom theme i (on i) (off i) ∧ ∀ p, IsLook u c s p i n (codesAround c s.dom on off i) := by
  have key : ∀ (i : Nat), ∃ on off : List (List Nat), ∀ n tag, s.dom.nodes[i]? = some n → n.tag = some tag → ¬ Untouched s.dom theme i →
      ThemeCodes s.dom theme i on off ∧ ∀ f box, textOf u s (f + 1) box i =
        if placed c py"inline" n then linkText u s f box i
        else (contents u s f box i).map (fun x => (on.map sgrText).flatten ++ x ++ (off.map sgrText).flatten) := by
    intro i
    by_cases hx : ∃ n, s.dom.nodes[i]? = some n ∧ ¬ Untouched s.dom theme i
    · obtain ⟨n, hn, hu⟩ := hx
      obtain ⟨spec, hg⟩ := themed_renderer h hn
      obtain ⟨st, on, off, rfl, k1, -, k3⟩ := theme_codes ht hr u hg hu
      obtain ⟨a1, a2⟩ := themed_assigned h hn hg
      refine ⟨on, off, fun n' tag hn' htag _ => ⟨k1, fun f box => ?_⟩⟩
      rw [hn] at hn'; cases hn'
      by_cases hl : tag = py"a" ∨ tag = py"img"
      · obtain ⟨m, l, hm, -, hd, hlk, -, -, -, -, h5, h6, -⟩ := link_known h ⟨n, hn, htag⟩ hl
        rw [hn] at hm; cases hm
        have hpl : l.placement n.tag = py"inline" ↔ placed c py"inline" n = true := by
          unfold LinkInfo.placement placed
          rw [htag, h5, h6]
          rcases hl with rfl | rfl <;> simp
        simp only [textOf, renderNode, hn, hd, hlk, Bool.false_or, decide_eq_true_eq, hpl]
        split
        · rename_i hp
          simp only [renderLink, hpl.2 hp, if_true, a1, bind, Except.bind, callRenderer, linkText, hn]
          have := renderWith_inline (u := u) (t := tagInfo s.dom i) (box := box) (content := fun b => renderAll (renderNode u s.dom s.assigned f false b) n.children)
            (ctx := ⟨none, some l.ctx, some ⟨l.href, l.title, l.gopherLink⟩⟩) (c := .ansi) rfl rfl id (ansi_plain u)
          simp only [renderWith, Except.bind, Except.map] at this
          exact this.trans (by cases renderAll (renderNode u s.dom s.assigned f false box) n.children <;> rfl)
        · rw [renderTag_with u s f i n box _ .ansi hn a1, hlk, a2]
          obtain ⟨inst, i1, i2, i3⟩ := k3 (tagInfo s.dom i) (some l.ctx) none box
          exact renderWith_inline i1 i2 _ i3
      · rw [not_or] at hl
        obtain ⟨m, hm, -, hd, hlk⟩ := rendered_elem h ⟨n, hn, htag⟩ hl.1 hl.2
        rw [hn] at hm; cases hm
        rw [if_neg (by simp [placed, htag, hl])]
        obtain ⟨inst, i1, i2, i3⟩ := k3 (tagInfo s.dom i) none none box
        rw [textOf_elem hn hd hlk a1, a2]
        exact renderWith_inline i1 i2 _ i3
    · exact ⟨[], [], fun n tag hn _ hu => absurd ⟨n, hn, hu⟩ hx⟩
  refine ⟨fun i => Classical.choose (key i), fun i => Classical.choose (Classical.choose_spec (key i)), fun i n tag hn htag hu => ?_⟩
  obtain ⟨k1, k2⟩ := Classical.choose_spec (Classical.choose_spec (key i)) n tag hn htag hu
  refine ⟨k1, fun p f box r hc => ⟨r, box, hc, fun x => ?_, fun _ _ _ g => g.1⟩⟩
  rw [k2, insideOf]
  simp only [codesAround, hn, Option.any_some, true_and]
  split
  · simp
  · cases contents u s f box i with
    | error e => simp [Except.map]
    | ok y =>
      simp only [Except.map, Except.ok.injEq, exists_eq_left']
      exact ⟨Eq.symm, Eq.symm⟩

/-- The same with one of the bundled themes. -/
theorem C82_theme (u : Uni) (c : Cfg) (es : List Event) (s : PState) (h : Rendered u c es s) (theme : List Rule)
    (ht : theme ∈ bundledThemes) (hr : c.renderers = theme)
    (hdef : ∀ j tag, HasTag s.dom j tag → Unstyled tag → c.defaultRenderer = .cls .renderer)
    (limit : Nat) (hlim : LimitIs c limit) :
    ∃ on off : Nat → List (List Nat),
      (∀ i tag, HasTag s.dom i tag → ¬ Untouched s.dom theme i → ThemeCodes s.dom theme i (on i) (off i)) ∧
      ∃ page, PageOf u c es s.dom (codesAround c s.dom on off) limit page ∧
        (∀ page', PageOf u c es s.dom (codesAround c s.dom on off) limit page' → page' = page) ∧
        (if c.optimise then TrimmedLines page s.parsed else s.parsed = page) := by
  obtain ⟨on, off, k⟩ := theme_look h ht hr
  have hown : ∀ p (i : Nat) n tag, s.dom.nodes[i]? = some n → n.tag = some tag → ¬ Untouched s.dom c.renderers i →
      IsLook u c s p i n (codesAround c s.dom on off i) := fun p i n tag hn htag hu => (k i n tag hn htag (hr ▸ hu)).2 p
  obtain ⟨page, h1, h2⟩ := page_drawn h (theme_table ht hr) hdef hlim (hown _)
  refine ⟨on, off, fun i tag hi hu => ?_, page, h1, fun page' h' => page_unique h (theme_table ht hr) hdef hlim (hown _) h' h1, h2⟩
  obtain ⟨n, hn, htag⟩ := hi
  exact (k i n tag hn htag hu).1

/-- What the program prints for a document: the page, without spaces at the ends of lines. -/
theorem C82_program (u : Uni) (w : World) (a : Args) (html : Str) (hd : Document w a.source html) (h : (cliMain u w a).error = none)
    (es : List Event) (he : es = (tokPieces u {} [html]).1) :
    ∃ s, Rendered u cliCfg es s ∧ ∃ on off : Nat → List (List Nat),
      (∀ i tag, HasTag s.dom i tag → ¬ Untouched s.dom icedGopherTheme i → ThemeCodes s.dom icedGopherTheme i (on i) (off i)) ∧
      ∃ page text, PageOf u cliCfg es s.dom (codesAround cliCfg s.dom on off) 10 page ∧
        (∀ page', PageOf u cliCfg es s.dom (codesAround cliCfg s.dom on off) 10 page' → page' = page) ∧ TrimmedLines page text ∧
        (cliMain u w a).printed = (if a.dump then html ++ py"\n" else []) ++ complaints es ++ text ++ py"\n" := by
  obtain ⟨s, hren, hprint⟩ := cli_rendered hd h he
  obtain ⟨on, off, h1, page, h2, h3, h4⟩ := C82_theme u cliCfg es s hren icedGopherTheme
    (.tail _ (.tail _ (.tail _ (.tail _ (.head _))))) rfl
    (fun _ _ _ _ => rfl) 10 (.inl ⟨rfl, rfl⟩)
  exact ⟨s, hren, on, off, h1, page, s.parsed, h2, h3, h4, hprint⟩

set_option maxRecDepth 20000 in
example : ∃ s, Rendered asciiUni c55Foot c55Linked s ∧
    PageOf asciiUni c55Foot c55Linked s.dom noOwnStyle 10 py"\n# [ab][1] # \n\ncd ef gh ij \n\n            \n[1] ab: x   " ∧
    s.parsed = py"\n# [ab][1] #\n\ncd ef gh ij\n\n\n[1] ab: x" := by
  refine ⟨_, ⟨_, _, rfl, rfl, rfl⟩, ?_, by decide⟩
  refine ⟨py"\n# [ab][1] # \n\ncd ef gh ij \n", py"            \n[1] ab: x   ", ?_, ?_, by decide⟩
  · refine .elem (i := 0) (tag := py"h1") (x := py"\n# [ab][1] # \n") rfl rfl
      (.elem (tag := py"a") rfl rfl (.text rfl rfl .nil) .nil (.inl ⟨unruled_nil rfl _ _, .reference (m := 0) (by decide) rfl⟩) .nil) .nil
      (.inl ⟨unruled_nil rfl _ _, .header (n := 1) (by decide)⟩) ?_
    refine .elem (i := 3) (tag := py"p") (x := py"\ncd ef gh ij \n") rfl rfl (.text rfl rfl .nil) .nil
      (.inl ⟨unruled_nil rfl _ _, .paragraph (above := 1) (below := 1) (segments := [py"cd ef gh ij"]) (parts := [[py"cd ef gh ij"]]) ?_ ?_ (by simp) (by decide) ⟨by decide, trivial⟩⟩) .nil
    · refine .inr ⟨.free ?_, rfl, rfl⟩
      rw [childOf_mem]
      decide
    · rw [← skip_iff rfl]
      decide
  · exact .entry (i := 1) (is := []) (m := 0) (y := py"ab") rfl rfl rfl (.text (t := py"ab") rfl rfl .nil) (.link (by decide)) .nil

set_option maxRecDepth 20000 in
example : ∃ s, Rendered asciiUni { c55Foot with outputFormat := py"gophermap", gopherHost := py"h" } c55Linked s ∧
    PageOf asciiUni { c55Foot with outputFormat := py"gophermap", gopherHost := py"h" } c55Linked s.dom noOwnStyle 10
      py"\n# [ab][1] # \n\ncd ef gh ij \n\n1[1] ab\tx\th\t70\n" ∧
    s.parsed = py"\n# [ab][1] #\n\ncd ef gh ij\n\n1[1] ab\tx\th\t70\n" := by
  refine ⟨_, ⟨_, _, rfl, rfl, rfl⟩, ?_, by decide⟩
  refine ⟨py"\n# [ab][1] # \n\ncd ef gh ij \n", py"1[1] ab\tx\th\t70\n", ?_, ?_, by decide⟩
  · refine .elem (i := 0) (tag := py"h1") (x := py"\n# [ab][1] # \n") rfl rfl
      (.elem (tag := py"a") rfl rfl (.text rfl rfl .nil) .nil (.inl ⟨unruled_nil rfl _ _, .reference (m := 0) (by decide) rfl⟩) .nil) .nil
      (.inl ⟨unruled_nil rfl _ _, .header (n := 1) (by decide)⟩) ?_
    refine .elem (i := 3) (tag := py"p") (x := py"\ncd ef gh ij \n") rfl rfl (.text rfl rfl .nil) .nil
      (.inl ⟨unruled_nil rfl _ _, .paragraph (above := 1) (below := 1) (segments := [py"cd ef gh ij"]) (parts := [[py"cd ef gh ij"]]) ?_ ?_ (by simp) (by decide) ⟨by decide, trivial⟩⟩) .nil
    · refine .inr ⟨.free ?_, rfl, rfl⟩
      rw [childOf_mem]
      decide
    · rw [← skip_iff rfl]
      decide
  · exact .entry (i := 1) (is := []) (m := 0) (y := py"ab") (x := py"1[1] ab\tx\th\t70\n") rfl rfl rfl (.text (t := py"ab") rfl rfl .nil)
      (.gopherLink (g := ⟨py"1", py"x", some py"h", some 70⟩) rfl (by decide)) .nil

theorem untouched_of {d : Dom} {rules : List Rule} {i : Nat}
    (h : (rules.all (fun r => r.sels.all (fun x => selMatch d x.tree (.node i) == .ok false))) = true) : Untouched d rules i := by
  rintro r hr sp ⟨⟨x, hx, hm, -⟩, -⟩
  rw [List.all_eq_true] at h
  have := List.all_eq_true.1 (h r hr) x hx
  rw [beq_iff_eq, hm] at this
  cases this

theorem touched_of {d : Dom} {rules : List Rule} {i : Nat}
    (h : (rules.any (fun r => r.sels == [{ tree := dot py"k" }] && selMatch d (dot py"k") (.node i) == .ok true)) = true) :
    ¬ Untouched d rules i := by
  rw [List.any_eq_true] at h
  obtain ⟨r, hr, h⟩ := h
  simp only [Bool.and_eq_true, beq_iff_eq] at h
  refine fun hu => hu r hr _ ⟨⟨_, by rw [h.1]; exact .head _, h.2, rfl⟩, fun x hx _ => ?_⟩
  rw [h.1, List.mem_singleton] at hx
  rw [hx]
  decide

theorem draws_one {u : Uni} {c : Cfg} {es : List Event} {d : Dom} {own : OwnStyle} {limit : Nat} {p r inner : Int} {i : Nat} {n : Node}
    {tag y x : Str} (hn : d.nodes[i]? = some n) (ht : n.tag = some tag) (hy : Draws u c es d own limit p false inner n.children y)
    (hw : waiting c d i = []) (hs : Shown u c es d own p r i tag inner y x) : Draws u c es d own limit p false r [i] x := by
  have := Draws.elem (z := []) (w := []) hn ht hy (hw ▸ .nil) (by rw [hw]; simpa using hs) .nil
  rwa [List.append_nil] at this

/-- The example of C63: the block is drawn in the default style, and the keyword in it coloured. -/
example : ∃ s, Rendered asciiUni { renderers := monokaiTheme } c63Events s ∧
    PageOf asciiUni { renderers := monokaiTheme } c63Events s.dom
      (codesAround { renderers := monokaiTheme } s.dom (fun _ => [[38, 2, 102, 217, 239]]) (fun _ => [[39]])) 10
      (padLines 67 (py"\n" ++ rows 67 [py"    \x1b[38;2;102;217;239mif\x1b[39m x"] ++ py"\n")) ∧
    s.parsed = py"\n    \x1b[38;2;102;217;239mif\x1b[39m x\n" := by
  refine ⟨_, ⟨_, _, rfl, rfl, rfl⟩, ?_, by decide +kernel⟩
  have htab : OwnTable { renderers := monokaiTheme } := theme_table (theme := monokaiTheme) (by simp [bundledThemes]) rfl
  refine ⟨padLines 67 (py"\n" ++ rows 67 [py"    \x1b[38;2;102;217;239mif\x1b[39m x"] ++ py"\n"), [], ?_, .nil, by decide +kernel⟩
  refine draws_one (i := 0) (tag := py"div") (inner := 67) rfl rfl ?_ rfl (.inl ⟨⟨htab, untouched_of (by decide +kernel)⟩, .div⟩)
  refine draws_one (i := 1) (tag := py"pre") (inner := 67) rfl rfl ?_ rfl
    (.inl ⟨⟨htab, untouched_of (by decide +kernel)⟩, .pre (ls := [py"\x1b[38;2;102;217;239mif\x1b[39m x"]) (.last (by decide) (by unfold OneLine; decide))⟩)
  exact .elem (i := 2) (is := [4]) (tag := py"span") (inner := 67) (y := py"if") (x := py"\x1b[38;2;102;217;239mif\x1b[39m") rfl rfl
    (.text (t := py"if") rfl rfl .nil) .nil (.inr ⟨touched_of (by decide +kernel), rfl, by decide +kernel⟩) (.text (t := py" x") rfl rfl .nil)

/-- A rule of the user for paragraphs, in the place of the default one: other elements keep the default style. -/
example : ∃ s, Rendered asciiUni { renderers := [tagRule py"p" .block] } [.start py"p" [], .start py"em" [], .data py"a", .stop py"em", .stop py"p"] s ∧
    Unruled { renderers := [tagRule py"p" .block] } s.dom 1 ∧ ¬ Untouched s.dom [tagRule py"p" .block] 0 ∧ s.parsed = py"_a_" := by
  refine ⟨_, ⟨_, _, rfl, rfl, rfl⟩, ⟨⟨by decide, by decide⟩, untouched_of (by decide)⟩, fun hu => ?_, by decide⟩
  refine hu _ (.head _) (0, 0, 1) ⟨⟨_, .head _, by decide, by decide⟩, fun x hx _ => ?_⟩
  rw [show x = { tree := elt py"p" } from List.mem_singleton.1 hx]
  decide

end Verif
