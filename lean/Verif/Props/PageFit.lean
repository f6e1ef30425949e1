import Verif.Props.Page
import Verif.Spec.PageFit

/-!
# C55 for whole pages
-/

namespace Verif

open Spec

theorem rowsFit_all {u : Uni} {w : Int} (h0 : 0 ≤ w) {x : Str} (h : RowsFit u w x) : AllFit u w x := by
  obtain ⟨ls, rfl, h⟩ := h
  refine allFit_join h0 (fun l hl => (h l hl).1) (fun l hl => ?_)
  obtain ⟨t, e, hb⟩ := rstrip_split l
  rw [e]
  exact lineFit_pad (visible_fit (h l hl).2) hb

theorem lineFit_of_rstrip {u : Uni} {w : Int} {l : Str} (h : VisibleLe u (rstrip l) w) : LineFit u w l := by
  obtain ⟨t, e, hb⟩ := rstrip_split l
  rw [e]
  exact lineFit_pad (visible_fit h) hb

theorem bullet_chars {d : Dom} {i : Nat} {a : Str} (h : Bullet d i a) : '\n' ∉ a ∧ '\x1b' ∉ a := by
  rcases h with ⟨-, b, -, -, rfl⟩ | ⟨-, rfl⟩
  · have hd := natStr_digits (b.length + 1)
    constructor
    · intro hm
      rcases List.mem_append.1 hm with hm | hm
      · exact absurd (hd _ hm).1 (by decide)
      · exact absurd hm (by decide)
    · intro hm
      rcases List.mem_append.1 hm with hm | hm
      · exact absurd (hd _ hm).1 (by decide)
      · exact absurd hm (by decide)
  · decide

theorem hang_fit {u : Uni} {w : Int} {a y : Str} {lines : List Str} (hn : '\n' ∉ a) (he : '\x1b' ∉ a)
    (h : wrap u (proseOpts u w) y = .ok lines) : ∀ l ∈ hang a lines, '\n' ∉ l ∧ LineFit u (a.length + w) l := by
  have hw := wrap_pos h
  have hnl : ∀ l ∈ lines, '\n' ∉ l := wrap_noNl (o := proseOpts u _) rfl rfl (by simp [proseOpts]) (by simp [proseOpts]) h
  have hv := prose_visible hw h
  intro l hl
  cases lines with
  | nil =>
    rw [hang, List.mem_singleton] at hl
    subst hl
    have := lineFit_prefix he (lineFit_nil (u := u) (w := w) (by omega))
    rw [List.append_nil] at this
    exact ⟨hn, this⟩
  | cons x xs =>
    rcases List.mem_cons.1 hl with rfl | hl
    · exact ⟨by simp [hn, hnl x (by simp)], lineFit_prefix he (visible_fit (hv x (by simp)))⟩
    · obtain ⟨z, hz, rfl⟩ := List.mem_map.1 hl
      refine ⟨by simp [hnl z (List.mem_cons_of_mem _ hz)], ?_⟩
      have := lineFit_prefix (p := List.replicate a.length ' ') (by simp [List.mem_replicate])
        (visible_fit (hv z (List.mem_cons_of_mem _ hz)))
      rwa [List.length_replicate] at this

theorem parts_fit {u : Uni} {w : Int} {segs : List Str} {parts : List (List Str)} (hne : segs ≠ [])
    (h : WrappedEach u (proseOpts u w) segs parts) :
    0 < w ∧ ∀ l ∈ (parts.map (fun p => if p = [] then [[]] else p)).flatten, '\n' ∉ l ∧ LineFit u w l := by
  have hw := wrappedEach_pos hne h
  have hv : ∀ (segs : List Str) (parts : List (List Str)), WrappedEach u (proseOpts u w) segs parts → ∀ p ∈ parts, ∀ l ∈ p, LineFit u w l := by
    intro segs
    induction segs with
    | nil => intro parts h; cases parts with | nil => simp | cons p ps => exact h.elim
    | cons s segs ih =>
      intro parts h
      cases parts with
      | nil => exact h.elim
      | cons p ps =>
        intro q hq
        rcases List.mem_cons.1 hq with rfl | hq
        · intro l hl; exact visible_fit (prose_visible hw h.1 l hl)
        · exact ih ps h.2 q hq
  refine ⟨hw, fun l hl => ?_⟩
  obtain ⟨p', hp', hl⟩ := List.mem_flatten.1 hl
  obtain ⟨q, hq, rfl⟩ := List.mem_map.1 hp'
  split at hl
  · rw [List.mem_singleton.1 hl]; exact ⟨by simp, lineFit_nil (by omega)⟩
  · exact ⟨wrappedEach_nl h q hq l hl, hv _ _ h q hq l hl⟩

section
variable {u : Uni} {c : Cfg} {es : List Event} {d : Dom} {own : OwnStyle} {limit : Nat} {p : Int}

theorem draws_split {r : Int} {i : Nat} {is : List Nat} {x : Str} (h : Draws u c es d own limit p false r (i :: is) x) :
    ∃ y z, Draws u c es d own limit p false r [i] y ∧ Draws u c es d own limit p false r is z ∧ x = y ++ z := by
  cases h with
  | text h1 h2 h3 => exact ⟨_, _, by simpa using Draws.text h1 h2 .nil, h3, rfl⟩
  | elem h1 h2 h3 h4 h5 h6 => exact ⟨_, _, by simpa using Draws.elem h1 h2 h3 h4 h5 .nil, h6, rfl⟩

theorem draws_elem (hd : ∀ (i : Nat) n, d.nodes[i]? = some n → n.data ≠ none → n.tag = none) {r : Int} {i : Nat} {n : Node} {tag x : Str}
    (hn : d.nodes[i]? = some n) (ht : n.tag = some tag) (h : Draws u c es d own limit p false r [i] x) :
    ∃ inner w, Content u c es d own limit p inner i w ∧ Shown u c es d own p r i tag inner w x := by
  cases h with
  | text h1 h2 h3 =>
    rw [hn] at h1; cases h1
    rw [hd i n hn (by rw [h2]; simp)] at ht
    cases ht
  | elem h1 h2 h3 h4 h5 h6 =>
    rw [hn] at h1; cases h1
    rw [ht] at h2; cases h2
    cases h6
    refine ⟨_, _, ⟨n, _, _, hn, h3, h4, rfl⟩, ?_⟩
    rw [List.append_nil]
    exact h5

theorem shown_drawn {r inner : Int} {i : Nat} {tag y x : Str} (hr : Unruled c d i) (h : Shown u c es d own p r i tag inner y x) :
    Drawn u c es d p r i tag inner y x := by
  rcases h with ⟨-, h⟩ | ⟨h, -⟩
  · exact h
  · exact absurd hr.free h

/-- Nodes that fit, one after another. -/
theorem draws_fit {w r : Int} (h0 : 0 ≤ w) {is : List Nat} (hs : Spaced d is)
    (hb : ∀ j ∈ is, BlankText d j → ∀ y, Draws u c es d own limit p false r [j] y → Blank y)
    (hf : ∀ j ∈ is, ¬ BlankText d j → ∀ y, Draws u c es d own limit p false r [j] y → AllFit u w y ∧ StartsOk d j y) {x : Str}
    (h : Draws u c es d own limit p false r is x) : AllFit u w x := by
  have gen : ∀ (rest before : List Nat) (x : Str), is = before ++ rest → Draws u c es d own limit p false r rest x →
      AllFit u w x ∧ (Quiet x ∨ ∃ j after, rest = j :: after ∧ Flush d j) := by
    intro rest
    induction rest with
    | nil =>
      intro before x _ h
      cases h
      exact ⟨allFit_nil h0, .inl quiet_nil⟩
    | cons j rest ih =>
      intro before x e h
      have hj : j ∈ is := by rw [e]; simp
      obtain ⟨y, z, h1, h2, rfl⟩ := draws_split h
      obtain ⟨q1, q2⟩ := ih (before ++ [j]) z (by rw [e]; simp) h2
      have q3 : Quiet z := by
        rcases q2 with q | ⟨k, after, rfl, hk⟩
        · exact q
        · have := hs (before ++ [j]) k after (by rw [e]; simp) hk
          simp at this
      by_cases hbt : BlankText d j
      · have hy := hb j hj hbt y h1
        refine ⟨allFit_append h0 (lineFit_all h0 (lineFit_blank h0 hy)) q1 q3, .inl ?_⟩
        obtain ⟨t, r, rfl, ht, hr⟩ := q3
        exact ⟨y ++ t, r, by simp, blank_append hy ht, hr⟩
      · obtain ⟨a1, a2⟩ := hf j hj hbt y h1
        refine ⟨allFit_append h0 a1 q1 q3, ?_⟩
        rcases a2 with a2 | a2
        · exact .inl (quiet_append a2 q3)
        · exact .inr ⟨j, rest, rfl, a2⟩
  exact (gen is [] x rfl h).1

theorem blank_draws (hd : ∀ (i : Nat) n, d.nodes[i]? = some n → n.data ≠ none → n.tag = none) {r : Int} {i : Nat} {y : Str}
    (hb : BlankText d i) (h : Draws u c es d own limit p false r [i] y) : Blank y := by
  obtain ⟨n, t, h1, h2, h3⟩ := hb
  cases h with
  | text g1 g2 g3 =>
    rw [h1] at g1; cases g1
    rw [h2] at g2; cases g2
    cases g3
    simpa using h3
  | elem g1 g2 =>
    rw [h1] at g1; cases g1
    rw [hd i n h1 (by rw [h2]; simp)] at g2
    cases g2

/-- Content that fits, and the list of links at its end. -/
theorem content_fit {w : Int} (h0 : 0 ≤ w) {i : Nat} {y z : Str} (hy : AllFit u w y) (hz : AllFit u w z) (he : waiting c d i = [] → z = []) :
    AllFit u w (y ++ (if waiting c d i = [] then [] else py"\n") ++ z) := by
  split
  · rename_i hw
    rw [he hw]
    simpa using hy
  · rw [List.append_assoc]
    exact allFit_two.2 ⟨hy, hz⟩

theorem draws_nil {listed : Bool} {r : Int} {x : Str} (h : Draws u c es d own limit p listed r [] x) : x = [] := by
  cases h; rfl

theorem newlines_rep (n : Int) : newlines n.toNat = rep '\n' n := rfl

theorem p_starts {i : Nat} {above below : Int} {r : Str} (ht : HasTag d i py"p") (h : PSpace d i above below) :
    StartsOk d i (newlines above.toNat ++ r) := by
  have nl : ∀ {i : Nat} {r : Str}, StartsOk d i (py"\n" ++ r) := fun {i r} => .inl (quiet_nl r)
  rcases h with h1 | ⟨-, rfl, -⟩
  · generalize hm : margins above below = m at h1
    have inj : ∀ a b a' b', margins a b = margins a' b' → a = a' := by
      intro a b a' b' e
      simp only [margins, List.cons.injEq, Prod.mk.injEq, Val.ints.injEq] at e
      exact e.1.2.1
    cases h1 with
    | only h1 h2 h3 => exact .inr ⟨h2, .inl ⟨ht, h1⟩⟩
    | first h1 h2 h3 => exact .inr ⟨h2, .inl ⟨ht, h1⟩⟩
    | last h1 h2 h3 => rw [inj _ _ _ _ hm]; exact nl
    | inner => exact absurd hm (by simp [margins])
    | free => exact absurd hm (by simp [margins])
  · exact nl

theorem li_starts {i : Nat} {above : Int} {r : Str} (ht : HasTag d i py"li") (h : LiSpace d i above) :
    StartsOk d i (newlines above.toNat ++ r) := by
  have nl : ∀ {i : Nat} {r : Str}, StartsOk d i (py"\n" ++ r) := fun {i r} => .inl (quiet_nl r)
  rcases h with h1 | ⟨-, rfl⟩
  · generalize hm : margins above 0 = m at h1
    have inj : ∀ a b a' b', margins a b = margins a' b' → a = a' := by
      intro a b a' b' e
      simp only [margins, List.cons.injEq, Prod.mk.injEq, Val.ints.injEq] at e
      exact e.1.2.1
    cases h1 with
    | nested h1 h2 => rw [inj _ _ _ _ hm]; exact nl
    | first h1 h2 => exact .inr ⟨h1, .inr (.inl ⟨ht, h2⟩)⟩
    | later => exact absurd hm (by simp [margins])
  · exact nl

theorem dt_starts {i : Nat} {above : Int} {r : Str} (ht : HasTag d i py"dt") (h : DtSpace d i above) :
    StartsOk d i (newlines above.toNat ++ r) := by
  rcases h with ⟨h1, rfl⟩ | ⟨-, rfl⟩
  · exact .inr ⟨h1, .inr (.inr ht)⟩
  · exact .inl (quiet_nl _)

/-- Only rows that fit are drawn. -/
theorem fitsIn_fit (hd : ∀ (i : Nat) n, d.nodes[i]? = some n → n.data ≠ none → n.tag = none)
    (hu : ∀ listed r is x y, Draws u c es d own limit p listed r is x → Draws u c es d own limit p listed r is y → x = y)
    {k : Int} (hk : 0 ≤ k + p) {r : Int} {i : Nat} (hf : FitsIn u c es d own limit p k r i) :
    0 ≤ r + k → ∀ x, Draws u c es d own limit p false r [i] x → AllFit u (r + k) x ∧ StartsOk d i x := by
  have nl : ∀ {i : Nat} {r : Str}, StartsOk d i (py"\n" ++ r) := fun {i r} => .inl (quiet_nl r)
  have cu : ∀ {r i x y}, Content u c es d own limit p r i x → Content u c es d own limit p r i y → x = y := by
    rintro r i x y ⟨n, a, b, h1, h2, h3, rfl⟩ ⟨n', a', b', g1, g2, g3, rfl⟩
    rw [h1] at g1; cases g1
    rw [hu _ _ _ _ _ h2 g2, hu _ _ _ _ _ h3 g3]
  have one : ∀ {w : Int} {x : Str}, 0 ≤ w → AllFit u w x → AllFit u w (py"\n" ++ x ++ py"\n") := fun h0 h =>
    (allFit_newlines h0 1 (allFit_newlines h0 1 h).1).2
  induction hf with
  | @paragraph r i ht hr ho =>
    intro h0 x hx
    obtain ⟨n, hn, htag⟩ := ht
    obtain ⟨inner, w, -, hS⟩ := draws_elem hd hn htag hx
    obtain ⟨-, above, below, h1, ⟨h2, -⟩ | ⟨-, parts, h3, rfl⟩⟩ := drawn_p.1 (shown_drawn hr hS)
    · exact absurd h2 ho
    · obtain ⟨hw, hp⟩ := parts_fit (splitCh_ne_nil '\n' w) h3
      refine ⟨?_, by rw [List.append_assoc]; exact p_starts ⟨n, hn, htag⟩ h1⟩
      have := allFit_rows (r := r) h0 (fun l hl => (hp l hl).1) (fun l hl => lineFit_mono (w' := r + k) (by omega) (hp l hl).2)
      exact (allFit_newlines h0 below (allFit_newlines h0 above this).1).2
  | @item r i ht hr =>
    intro h0 x hx
    obtain ⟨n, hn, htag⟩ := ht
    obtain ⟨inner, w, -, hS⟩ := draws_elem hd hn htag hx
    obtain ⟨above, bullet, lines, h1, h2, -, h4, rfl⟩ := drawn_li.1 (shown_drawn hr hS)
    obtain ⟨b1, b2⟩ := bullet_chars h2
    have hp := hang_fit b1 b2 h4
    refine ⟨?_, li_starts ⟨n, hn, htag⟩ h1⟩
    have := allFit_rows (r := r) h0 (fun l hl => (hp l hl).1) (fun l hl => lineFit_mono (w' := r + k) (by omega) (hp l hl).2)
    exact (allFit_newlines h0 above this).1
  | @description r i ht hr =>
    intro h0 x hx
    obtain ⟨n, hn, htag⟩ := ht
    obtain ⟨inner, w, -, hS⟩ := draws_elem hd hn htag hx
    obtain ⟨-, lines, h4, rfl⟩ := drawn_dd.1 (shown_drawn hr hS)
    have hp := hang_fit (a := py": ") (by decide) (by decide) h4
    refine ⟨?_, nl⟩
    have := allFit_rows (r := r) h0 (fun l hl => (hp l hl).1) (fun l hl => lineFit_mono (w' := r + k) (by simp; omega) (hp l hl).2)
    exact (allFit_newlines h0 1 this).1
  | @term r i x ht hr hc hv =>
    intro h0 x' hx
    obtain ⟨n, hn, htag⟩ := ht
    obtain ⟨inner, w, hw, hS⟩ := draws_elem hd hn htag hx
    obtain ⟨rfl, above, h1, rfl⟩ := drawn_dt.1 (shown_drawn hr hS)
    obtain rfl := cu hc hw
    exact ⟨(allFit_newlines h0 above (allFit_padLines h0 (rowsFit_all h0 hv))).1, dt_starts ⟨n, hn, htag⟩ h1⟩
  | @header r i x tag level ht hr hm hc hv =>
    intro h0 x' hx
    obtain ⟨n, hn, htag⟩ := ht
    obtain ⟨inner, w, hw, hS⟩ := draws_elem hd hn htag hx
    obtain ⟨rfl, rfl⟩ := (drawn_header hm).1 (shown_drawn hr hS)
    obtain rfl := cu hc hw
    exact ⟨one h0 (allFit_padLines h0 (rowsFit_all h0 hv)), by rw [List.append_assoc]; exact nl⟩
  | @codeOnly r i x ht hr ho hc hv =>
    intro h0 x' hx
    obtain ⟨n, hn, htag⟩ := ht
    obtain ⟨inner, w, hw, hS⟩ := draws_elem hd hn htag hx
    obtain ⟨rfl, above, below, h1, ⟨-, rfl⟩ | ⟨h2, -⟩⟩ := drawn_p.1 (shown_drawn hr hS)
    · obtain rfl := cu hc hw
      refine ⟨?_, by rw [List.append_assoc]; exact p_starts ⟨n, hn, htag⟩ h1⟩
      exact (allFit_newlines h0 below (allFit_newlines h0 above (allFit_padLines h0 (rowsFit_all h0 hv))).1).2
    · exact absurd ho h2
  | @pre r i x ls ht hr hc hl hv =>
    intro h0 x' hx
    obtain ⟨n, hn, htag⟩ := ht
    obtain ⟨inner, w, hw, hS⟩ := draws_elem hd hn htag hx
    obtain ⟨rfl, ls', hl', rfl⟩ := drawn_pre.1 (shown_drawn hr hS)
    obtain rfl := cu hc hw
    obtain rfl := lines_unique hl hl'
    refine ⟨one h0 (allFit_rows h0 ?_ ?_), by rw [List.append_assoc]; exact nl⟩
    · intro l hm
      obtain ⟨l', h1, rfl⟩ := List.mem_map.1 hm
      have := oneLine_nl (lines_oneLine hl l' h1)
      simp [this]
    · intro l hm
      obtain ⟨l', h1, rfl⟩ := List.mem_map.1 hm
      exact lineFit_mono (by simp; omega) (lineFit_prefix (p := py"    ") (by decide) (lineFit_of_rstrip (hv l' h1)))
  | @around r i z n tag hn htag hr hu' hfl hall hz hzf ih =>
    intro h0 x hx
    obtain ⟨inner, w, ⟨n', y, z', g1, g2, g3, rfl⟩, hS⟩ := draws_elem hd hn htag hx
    rw [hn] at g1; cases g1
    have key : inner = r → AllFit u (r + k) (y ++ (if waiting c d i = [] then [] else py"\n") ++ z') ∧
        Quiet (y ++ (if waiting c d i = [] then [] else py"\n") ++ z') := by
      rintro rfl
      obtain rfl := hu _ _ _ _ _ hz g3
      have each : ∀ j ∈ n.children, ∀ y, Draws u c es d own limit p false inner [j] y → AllFit u (inner + k) y ∧ Quiet y := by
        intro j hj y hy
        by_cases hbt : BlankText d j
        · have := blank_draws hd hbt hy
          exact ⟨lineFit_all h0 (lineFit_blank h0 this), y, [], by simp, this, .inl rfl⟩
        · obtain ⟨a1, a2⟩ := ih j hj hbt h0 y hy
          exact ⟨a1, a2.resolve_right (hfl j hj)⟩
      have hy : AllFit u (inner + k) y ∧ Quiet y := by
        generalize n.children = is at g2 each
        clear hx hS
        induction is generalizing y with
        | nil =>
          have e := draws_nil g2
          subst e
          exact ⟨allFit_nil h0, quiet_nil⟩
        | cons j js ihj =>
          obtain ⟨a, b, k1, k2, rfl⟩ := draws_split g2
          obtain ⟨a1, a2⟩ := each j (by simp) a k1
          obtain ⟨b1, b2⟩ := ihj b k2 (fun j hj => each j (by simp [hj]))
          exact ⟨allFit_append h0 a1 b1 b2, quiet_append a2 b2⟩
      refine ⟨content_fit h0 hy.1 (rowsFit_all h0 hzf) (fun e => draws_nil (e ▸ g3)), ?_⟩
      rw [List.append_assoc]
      refine quiet_append hy.2 ?_
      split
      · rename_i e
        have e' : z = [] := draws_nil (e ▸ g3)
        rw [e']
        exact quiet_nil
      · exact quiet_nl _
    rcases hu' with rfl | hu'
    · obtain ⟨rfl, rfl⟩ := drawn_div.1 (shown_drawn hr hS)
      obtain ⟨a1, a2⟩ := key rfl
      exact ⟨allFit_padLines h0 a1, .inl (quiet_pad a2)⟩
    · obtain ⟨rfl, rfl⟩ := (drawn_other hu').1 (shown_drawn hr hS)
      obtain ⟨a1, a2⟩ := key rfl
      exact ⟨a1, .inl a2⟩
  | @quote r i z n hn htag hr h2 hs hall hz hzf ih =>
    intro h0 x hx
    obtain ⟨inner, w, ⟨n', y, z', g1, g2, g3, rfl⟩, hS⟩ := draws_elem hd hn htag hx
    rw [hn] at g1; cases g1
    obtain ⟨rfl, ls, hl, rfl⟩ := drawn_quote.1 (shown_drawn hr hS)
    obtain rfl := hu _ _ _ _ _ hz g3
    have h0' : 0 ≤ r - 2 + k := by omega
    have hy : AllFit u (r - 2 + k) y := draws_fit h0' hs (fun j _ hb y hy => blank_draws hd hb hy)
      (fun j hj hb y hy => ih j hj hb h0' y hy) g2
    have hfit := content_fit h0' hy (rowsFit_all h0' hzf) (fun e => draws_nil (e ▸ g3))
    refine ⟨one h0 (allFit_rows h0 ?_ ?_), by rw [List.append_assoc]; exact nl⟩
    · intro l hm
      obtain ⟨l', h1, rfl⟩ := List.mem_map.1 hm
      have := oneLine_nl (lines_oneLine hl l' h1)
      simp [this]
    · intro l hm
      obtain ⟨l', h1, rfl⟩ := List.mem_map.1 hm
      have := lineFit_prefix (p := py"> ") (by decide) (allFit_lines h0' hfit hl l' h1)
      exact lineFit_mono (by simp; omega) this
  | @list r i z n tag hn htag hr hm hs hall hz hzf ih =>
    intro h0 x hx
    obtain ⟨inner, w, ⟨n', y, z', g1, g2, g3, rfl⟩, hS⟩ := draws_elem hd hn htag hx
    rw [hn] at g1; cases g1
    obtain ⟨rfl, rfl⟩ := (drawn_list hm).1 (shown_drawn hr hS)
    obtain rfl := hu _ _ _ _ _ hz g3
    have hy : AllFit u (inner + k) y := draws_fit h0 hs (fun j _ hb y hy => blank_draws hd hb hy)
      (fun j hj hb y hy => ih j hj hb h0 y hy) g2
    have hfit := content_fit h0 hy (rowsFit_all h0 hzf) (fun e => draws_nil (e ▸ g3))
    exact ⟨one h0 (allFit_padLines h0 hfit), by rw [List.append_assoc]; exact nl⟩
  | @other r i x hx hv hq =>
    intro h0 x' hx'
    obtain rfl := hu _ _ _ _ _ hx hx'
    exact ⟨rowsFit_all h0 hv, .inl hq⟩

end

/-- A page of nodes that fit. -/
theorem page_rows {u : Uni} {c : Cfg} {es : List Event} {s : PState} (h : Rendered u c es s) (htab : OwnTable c)
    (hdef : ∀ j tag, HasTag s.dom j tag → Unstyled tag → c.defaultRenderer = .cls .renderer)
    {limit : Nat} (hlim : LimitIs c limit) {own : OwnStyle}
    (hown : ∀ p (i : Nat) n tag, s.dom.nodes[i]? = some n → n.tag = some tag → ¬ Untouched s.dom c.renderers i → IsLook u c s p i n (own i))
    {width : Int} {margin padding border : Sides} {template : Option Str}
    (hbox : c.pageBox = Box.new width margin padding border template none)
    (hm : 0 ≤ margin.left) (hp : 0 ≤ padding.left ∧ 0 ≤ padding.right) (hb : 0 ≤ border.left ∧ 0 ≤ border.right)
    (hw : 0 ≤ width - margin.left - margin.right) (hf : PageFits u c es s.dom own limit width margin)
    {ls : List Str} (hl : Lines s.parsed ls) : ∀ l ∈ ls, VisibleLe u (rstrip l) (width - margin.right) := by
  obtain ⟨page, ⟨body, foot, h1, h2, rfl⟩, htrim⟩ := page_drawn h htab hdef hlim (hown _)
  obtain ⟨f1, f2, z, f3, f4⟩ := hf
  have hd : ∀ (i : Nat) n, s.dom.nodes[i]? = some n → n.data ≠ none → n.tag = none := by
    intro i n hn hne
    obtain ⟨-, -, -, -, -, -, hinv, -, -⟩ := rendered_inv h
    exact ((hinv.node i n hn).data (by cases hx : n.data <;> simp_all)).1
  have hu : ∀ (listed : Bool) r is x y, Draws u c es s.dom own limit (c.pageBox.totalPadding.left + c.pageBox.totalPadding.right) listed r is x →
      Draws u c es s.dom own limit (c.pageBox.totalPadding.left + c.pageBox.totalPadding.right) listed r is y → x = y :=
    fun _ _ _ _ _ hx hy => draws_unique h htab hdef hlim (hown _) hx hy
  have hk : 0 ≤ (width - margin.left - margin.right - room c.pageBox) + (c.pageBox.totalPadding.left + c.pageBox.totalPadding.right) := by
    rw [hbox]
    simp only [Box.new, room]
    omega
  have hkr : room c.pageBox + (width - margin.left - margin.right - room c.pageBox) = width - margin.left - margin.right := by omega
  have hbody : AllFit u (width - margin.left - margin.right) body := draws_fit hw f1 (fun j _ hb y hy => blank_draws hd hb hy)
    (fun j hj hb y hy => by
      have := fitsIn_fit hd hu hk (f2 j hj hb) (by omega) y hy
      rwa [hkr] at this) h1
  obtain rfl := hu _ _ _ _ _ h2 f3
  have hfoot := rowsFit_all hw f4
  have hall : AllFit u (width - margin.left - margin.right) (body ++ (if footNodes c s.dom = [] then [] else py"\n") ++ foot) := by
    split
    · rename_i e
      have e' : foot = [] := draws_nil (e ▸ h2)
      rw [e']
      simpa using hbody
    · rw [List.append_assoc]
      exact allFit_two.2 ⟨hbody, hfoot⟩
  have hml : c.pageBox.margin.left = margin.left := by rw [hbox]; rfl
  have hfr := framed_fit (c := c) hw (by rw [hml]; exact hm) (parts := [body ++ (if footNodes c s.dom = [] then [] else py"\n") ++ foot])
    (by rw [List.flatten_cons, List.flatten_nil, List.append_nil]; exact hall)
  rw [hml, show margin.left + (width - margin.left - margin.right) = width - margin.right by omega] at hfr
  have he : framed c [body ++ (if footNodes c s.dom = [] then [] else py"\n") ++ foot] = newlines c.pageBox.margin.top.toNat ++
      indentLines (List.replicate c.pageBox.margin.left.toNat ' ') true (body ++ (if footNodes c s.dom = [] then [] else py"\n") ++ foot) ++
      newlines c.pageBox.margin.bottom.toNat := by
    unfold framed indentBody
    rw [indent_eq, List.flatten_cons, List.flatten_nil, List.append_nil]
    rfl
  rw [he] at hfr
  have hcut : CutFit u (width - margin.right) s.parsed := by
    revert htrim
    split
    · intro e
      rw [trimmed_unique e]
      exact cutFit_optimise (by omega) hfr
    · intro e
      rw [e]
      exact hfr
  intro l hm
  rw [visibleLe_iff]
  exact lineFit_rstrip (by omega) (cutFit_lines hcut hl l hm)

/-- No line of a page is wider than the page, whitespace at its end aside, if what is not wrapped fits: whatever the placement of
the links, in text and in gophermaps. -/
theorem C55_page (u : Uni) (c : Cfg) (es : List Event) (s : PState) (h : Rendered u c es s) (hr : c.renderers = [])
    (hdef : ∀ j tag, HasTag s.dom j tag → Unstyled tag → c.defaultRenderer = .cls .renderer)
    (limit : Nat) (hlim : LimitIs c limit) (width : Int) (margin padding border : Sides) (template : Option Str)
    (hbox : c.pageBox = Box.new width margin padding border template none)
    (hm : 0 ≤ margin.left) (hp : 0 ≤ padding.left ∧ 0 ≤ padding.right) (hb : 0 ≤ border.left ∧ 0 ≤ border.right)
    (hw : 0 ≤ width - margin.left - margin.right) (hf : PageFits u c es s.dom noOwnStyle limit width margin)
    (ls : List Str) (hl : Lines s.parsed ls) : ∀ l ∈ ls, VisibleLe u (rstrip l) (width - margin.right) :=
  page_rows h (ownTable_nil hr) hdef hlim (fun _ _ _ _ _ _ g => (no_own hr g).elim) hbox hm hp hb hw hf hl

/-- The same with one of the bundled themes. -/
theorem C55_theme (u : Uni) (c : Cfg) (es : List Event) (s : PState) (h : Rendered u c es s) (theme : List Rule)
    (ht : theme ∈ bundledThemes) (hr : c.renderers = theme)
    (hdef : ∀ j tag, HasTag s.dom j tag → Unstyled tag → c.defaultRenderer = .cls .renderer)
    (limit : Nat) (hlim : LimitIs c limit) (width : Int) (margin padding border : Sides) (template : Option Str)
    (hbox : c.pageBox = Box.new width margin padding border template none)
    (hm : 0 ≤ margin.left) (hp : 0 ≤ padding.left ∧ 0 ≤ padding.right) (hb : 0 ≤ border.left ∧ 0 ≤ border.right)
    (hw : 0 ≤ width - margin.left - margin.right) :
    ∃ on off : Nat → List (List Nat),
      (∀ i tag, HasTag s.dom i tag → ¬ Untouched s.dom theme i → ThemeCodes s.dom theme i (on i) (off i)) ∧
      (PageFits u c es s.dom (codesAround c s.dom on off) limit width margin →
        ∀ ls, Lines s.parsed ls → ∀ l ∈ ls, VisibleLe u (rstrip l) (width - margin.right)) := by
  obtain ⟨on, off, k⟩ := theme_look h ht hr
  refine ⟨on, off, fun i tag hi hu => ?_, fun hf ls hl => page_rows h (theme_table ht hr) hdef hlim
    (fun p i n tag hn htag hu => (k i n tag hn htag (hr ▸ hu)).2 p) hbox hm hp hb hw hf hl⟩
  obtain ⟨n, hn, htag⟩ := hi
  exact (k i n tag hn htag hu).1

/-- What the program prints for a document that fits has no line of more than 67 columns. -/
theorem C55_program (u : Uni) (w : World) (a : Args) (html : Str) (hd : Document w a.source html) (h : (cliMain u w a).error = none)
    (es : List Event) (he : es = (tokPieces u {} [html]).1) :
    ∃ s, Rendered u cliCfg es s ∧ ∃ on off : Nat → List (List Nat),
      (∀ i tag, HasTag s.dom i tag → ¬ Untouched s.dom icedGopherTheme i → ThemeCodes s.dom icedGopherTheme i (on i) (off i)) ∧
      ∃ text, (cliMain u w a).printed = (if a.dump then html ++ py"\n" else []) ++ complaints es ++ text ++ py"\n" ∧
        (PageFits u cliCfg es s.dom (codesAround cliCfg s.dom on off) 10 67 ⟨1, 0, 1, 0⟩ →
          ∀ ls, Lines text ls → ∀ l ∈ ls, VisibleLe u (rstrip l) 67) := by
  obtain ⟨s, hren, hprint⟩ := cli_rendered hd h he
  obtain ⟨on, off, h1, h2⟩ := C55_theme u cliCfg es s hren icedGopherTheme
    (.tail _ (.tail _ (.tail _ (.tail _ (.head _))))) rfl (fun _ _ _ _ => rfl) 10 (.inl ⟨rfl, rfl⟩) 67 ⟨1, 0, 1, 0⟩ {} {} none rfl
    (by decide) (by decide) (by decide) (by decide)
  exact ⟨s, hren, on, off, h1, s.parsed, hprint, h2⟩

/-! ### The hypotheses can be met -/

/-- A page of 12 columns with the links after the blocks they are in. -/
def c55After : Cfg := { box := some (Box.new 12 {} {} {} none none), linkPlacement := py"after_block" }

theorem spaced_pair {d : Dom} {i j : Nat} {t : Str} (ht : (d.nodes[j]?).bind Node.tag = some t) (hn : t ∉ [py"li", py"dt"])
    (hc : ¬ ChildOf d py"blockquote" j) : Spaced d [i, j] := by
  intro before k after e hk
  simp only [List.mem_cons, List.not_mem_nil, or_false, not_or] at hn
  cases before with
  | nil => rfl
  | cons b bs =>
    cases bs with
    | nil =>
      simp only [List.cons_append, List.nil_append, List.cons.injEq] at e
      obtain ⟨-, rfl, -⟩ := e
      obtain ⟨-, ⟨-, h⟩ | ⟨h, -⟩ | h⟩ := hk
      · exact absurd h hc
      · rw [hasTag_iff, ht] at h; exact absurd (Option.some.inj h) hn.1
      · rw [hasTag_iff, ht] at h; exact absurd (Option.some.inj h) hn.2
    | cons b' bs => simp at e

theorem rowsFit_of {u : Uni} {w : Int} (ls : List Str)
    (h : (ls.all (fun l => !l.contains '\n' && decide (vlen u (rstrip l) ≤ w))) = true) : RowsFit u w (join py"\n" ls) := by
  refine ⟨ls, rfl, fun l hl => ?_⟩
  have := List.all_eq_true.1 h l hl
  simp only [Bool.and_eq_true, Bool.not_eq_true', decide_eq_true_eq] at this
  exact ⟨by simpa using this.1, (visibleLe_iff _ _ _).2 this.2⟩

def c55Term : List Event :=
  [.start py"dt" [], .start py"a" [(py"href", some py"x")], .data py"ab", .stop py"a", .stop py"dt",
   .start py"p" [], .data py"cd ef gh ij kl", .stop py"p"]

set_option maxRecDepth 20000 in
example : ∃ s, Rendered asciiUni c55After c55Term s ∧ PageFits asciiUni c55After c55Term s.dom noOwnStyle 10 12 {} ∧
    s.parsed = py"[ab][1]\n\n[1] ab: x\ncd ef gh ij\nkl\n" := by
  refine ⟨_, ⟨_, _, rfl, rfl, rfl⟩, ⟨?_, ?_, [], .nil, [], rfl, by simp⟩, by decide +kernel⟩
  · refine spaced_pair (i := 0) (j := 3) (t := py"p") rfl (by decide) ?_
    rw [childOf_mem]
    decide +kernel
  · intro j hj _
    have : j ∈ [0, 3] := hj
    simp only [List.mem_cons, List.not_mem_nil, or_false] at this
    rcases this with rfl | rfl
    · refine .term (x := py"[ab][1]\n            \n[1] ab: x   ") ((hasTag_iff _ _ _).2 rfl) (unruled_nil rfl _ _) ?_
        (rowsFit_of [py"[ab][1]", py"            ", py"[1] ab: x   "] (by decide +kernel))
      refine ⟨_, py"[ab][1]", py"            \n[1] ab: x   ", rfl, ?_, ?_, by decide +kernel⟩
      · exact .elem (tag := py"a") (x := py"[ab][1]") rfl rfl (.text rfl rfl .nil) .nil (.inl ⟨unruled_nil rfl _ _, .reference (m := 0) (by decide +kernel) rfl⟩) .nil
      · exact .entry (i := 1) (is := []) (m := 0) (y := py"ab") (x := py"            \n[1] ab: x   ") rfl rfl rfl (.text (t := py"ab") rfl rfl .nil)
          (.link (by decide +kernel)) .nil
    · refine .paragraph ((hasTag_iff _ _ _).2 rfl) (unruled_nil rfl _ _) ?_
      rw [← skip_iff rfl]
      decide +kernel

theorem one_node {Q P : Nat → Prop} {i : Nat} (h : P i) : ∀ j ∈ [i], Q j → P j := by
  intro j hj _
  rwa [List.mem_singleton.1 hj]

/-- The example of C63: the codes of the colours take no columns. -/
example : ∃ s, Rendered asciiUni { renderers := monokaiTheme } c63Events s ∧
    PageFits asciiUni { renderers := monokaiTheme } c63Events s.dom
      (codesAround { renderers := monokaiTheme } s.dom (fun _ => [[38, 2, 102, 217, 239]]) (fun _ => [[39]])) 10 67 {} ∧
    s.parsed = py"\n    \x1b[38;2;102;217;239mif\x1b[39m x\n" := by
  refine ⟨_, ⟨_, _, rfl, rfl, rfl⟩, ⟨spaced_one _ 0, ?_, [], .nil, [], rfl, fun _ h => absurd h List.not_mem_nil⟩, by decide +kernel⟩
  have htab : OwnTable { renderers := monokaiTheme } := theme_table (theme := monokaiTheme) (by simp [bundledThemes]) rfl
  refine one_node (i := 0) (.around (z := []) (tag := py"div") rfl rfl ⟨htab, untouched_of (by decide +kernel)⟩ (.inl rfl) ?_ ?_ .nil
    ⟨[], rfl, fun _ h => absurd h List.not_mem_nil⟩)
  · intro j hj
    rw [show j = 1 from List.mem_singleton.1 hj]
    exact not_flush rfl (by decide)
  · refine one_node (i := 1) (.pre (x := py"\x1b[38;2;102;217;239mif\x1b[39m x") (ls := [py"\x1b[38;2;102;217;239mif\x1b[39m x"])
      ((hasTag_iff _ _ _).2 rfl) ⟨htab, untouched_of (by decide +kernel)⟩ ?_ (.last (by decide) (by unfold OneLine; decide)) ?_)
    · refine ⟨_, py"\x1b[38;2;102;217;239mif\x1b[39m x", [], rfl, ?_, .nil, by decide +kernel⟩
      exact .elem (i := 2) (is := [4]) (tag := py"span") (inner := 67) (y := py"if") (x := py"\x1b[38;2;102;217;239mif\x1b[39m") rfl rfl
        (.text (t := py"if") rfl rfl .nil) .nil (.inr ⟨touched_of (by decide +kernel), rfl, by decide +kernel⟩) (.text (t := py" x") rfl rfl .nil)
    · intro l hl
      rw [List.mem_singleton.1 hl]
      exact (visibleLe_iff _ _ _).2 (by decide +kernel)

/-- A list of links at the end of a header takes the whole page, and the end of the header comes after it: the third line has 14
columns. -/
theorem C55_header_fails : renderEvents asciiUni c55After c55Linked =
    .ok py"\n# [ab][1]\n\n[1] ab: x    #\n\ncd ef gh ij\n" := by decide +kernel

end Verif
