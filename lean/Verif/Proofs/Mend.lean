import Verif.Spec.Mend
import Verif.Proofs.Closed
import Verif.Proofs.Close

/-!
# Documents whose tags do not match
-/

namespace Verif

open Spec

/-- The names of the open elements, the innermost first. -/
def OpenTags (s : PState) (open_ : List Str) : Prop :=
  s.stack.reverse.map (fun i => (s.dom.nodes[i]?).bind Node.tag) = open_.map some

theorem openTags_nil {s : PState} (h : OpenTags s []) : s.stack = [] := by
  simpa [OpenTags] using h

theorem openTags_cons {s : PState} {t : Str} {open_ : List Str} (h : OpenTags s (t :: open_)) :
    ∃ i n, s.stack = s.stack.dropLast ++ [i] ∧ s.stack.getLast? = some i ∧ s.dom.nodes[i]? = some n ∧ n.tag = some t := by
  rcases List.eq_nil_or_concat s.stack with e | ⟨st, i, e⟩
  · simp [OpenTags, e] at h
  · simp only [OpenTags, e, List.concat_eq_append, List.reverse_append, List.reverse_cons, List.reverse_nil, List.nil_append,
      List.cons_append, List.map_cons, List.cons.injEq, Option.bind_eq_some_iff] at h
    obtain ⟨⟨n, h1, h2⟩, -⟩ := h
    exact ⟨i, n, by simp [e], by simp [e], h1, h2⟩

/-- The nodes of the stack keep their names. -/
theorem openTags_keep {d d' : Dom} {l : List Nat} (hl : ∀ i ∈ l, (d'.nodes[i]?).bind Node.tag = (d.nodes[i]?).bind Node.tag) :
    l.map (fun i => (d'.nodes[i]?).bind Node.tag) = l.map (fun i => (d.nodes[i]?).bind Node.tag) :=
  List.map_congr_left hl

theorem openTags_extends {d d' : Dom} {p : Par} {n : Node} (he : Extends d d' p n) {is st : List Nat} (ho : Open d is st) :
    ∀ i ∈ st.reverse, (d'.nodes[i]?).bind Node.tag = (d.nodes[i]?).bind Node.tag := by
  intro i hi
  obtain ⟨m, h1, -⟩ := open_mem ho i (by simpa using hi)
  obtain ⟨pend, h2⟩ := he.old i m h1
  rw [h1, h2]; rfl

theorem handleEnd_stray {s : PState} (h : TInv s.dom s.stack) {tag : Str}
    (hno : ∀ i n, s.stack.getLast? = some i → s.dom.nodes[i]? = some n → n.tag ≠ some tag) (hp : tag = py"pre" → s.inPre = false) :
    quiet (handleEnd s tag) = quiet s := by
  unfold handleEnd
  split
  · rfl
  · have e1 : (if tag = py"pre" then { s with inPre := false } else s) = s := by
      split
      · next e => have := hp e; cases s; simp_all
      · rfl
    simp only [e1, getTop_of_inv h]
    cases ht : s.stack.getLast? with
    | none => rfl
    | some i =>
      simp only
      split
      · next q =>
        cases h1 : s.dom.nodes[i]? with
        | none => rw [h1] at q; cases q
        | some n =>
          rw [h1] at q
          exact absurd (by simpa using q) (hno i n ht h1)
      · rfl

theorem renderFrom_calm (u : Uni) (c : Cfg) {s s' : PState} (h : quiet s = quiet s') (es : List Event) :
    renderFrom u c s es = renderFrom u c s' es := by
  rw [renderFrom_quiet u c s, renderFrom_quiet u c s', h]

theorem renderFrom_cons (u : Uni) (c : Cfg) (s : PState) (e : Event) (es : List Event) :
    renderFrom u c s (e :: es) = (step u c s e).bind (fun s => renderFrom u c s es) := by
  rw [renderFrom_eq, feed_cons]
  cases step u c s e with
  | error x => rfl
  | ok s1 => simp only [Except.bind, renderFrom_eq]

theorem modify_shut (d : Dom) (i : Nat) : (d.modify i (fun n => { n with closed := true })).shut = d.shut := by
  simp only [Dom.shut, Dom.modify]
  congr 1
  apply List.ext_getElem?
  intro k
  simp only [List.getElem?_map, List.getElem?_modify]
  cases d.nodes[k]? with
  | none => simp
  | some n =>
    by_cases e : i = k <;> simp [e, Node.shut]

/-- What an end tag leaves alone. -/
theorem handleEnd_rest (s : PState) (tag : Str) :
    (handleEnd s tag).footer = s.footer ∧ (handleEnd s tag).assigned = s.assigned ∧ (handleEnd s tag).parts = s.parts := by
  unfold handleEnd
  have e1 : (if tag = py"pre" then { s with inPre := false } else s) =
      { s with inPre := if tag = py"pre" then false else s.inPre } := by split <;> rfl
  simp only [e1]
  split
  · exact ⟨rfl, rfl, rfl⟩
  · split
    · exact ⟨rfl, rfl, rfl⟩
    · split <;> exact ⟨rfl, rfl, rfl⟩

theorem handleEnd_inPre (s : PState) (tag : Str) : (handleEnd s tag).inPre = if tag = py"pre" then false else s.inPre := by
  unfold handleEnd
  have e1 : (if tag = py"pre" then { s with inPre := false } else s) =
      { s with inPre := if tag = py"pre" then false else s.inPre } := by split <;> rfl
  simp only [e1]
  split
  · next h =>
    rw [if_neg]
    rintro rfl
    revert h; decide
  · split
    · rfl
    · split <;> rfl

/-- The end tag of the innermost open element. -/
theorem handleEnd_top {s : PState} (h : TInv s.dom s.stack) {tag : Str} {open_ : List Str} (ho : OpenTags s (tag :: open_)) :
    TInv (handleEnd s tag).dom (handleEnd s tag).stack ∧ OpenTags (handleEnd s tag) open_ ∧ (handleEnd s tag).dom.shut = s.dom.shut := by
  obtain ⟨i, n, h1, h2, h3, h4⟩ := openTags_cons ho
  rcases handleEnd_cases h tag with ⟨i', n', g1, g2, g3, g4, g5⟩ | ⟨hno, -, -⟩
  · refine ⟨handleEnd_inv h tag, ?_, by rw [g4, modify_shut]⟩
    have ho' := ho
    unfold OpenTags at ho ⊢
    rw [h1] at ho
    simp only [List.reverse_append, List.reverse_cons, List.reverse_nil, List.nil_append, List.cons_append, List.map_cons,
      List.cons.injEq] at ho
    rw [g4, g5, ← ho.2]
    refine openTags_keep fun k _ => ?_
    simp only [Dom.modify, List.getElem?_modify]
    cases s.dom.nodes[k]? with
    | none => simp
    | some m => by_cases e : i' = k <;> simp [e]
  · exact absurd h4 (hno i n h2 h3)

theorem feed_closers (u : Uni) (c : Cfg) {s : PState} (h : TInv s.dom s.stack) {open_ : List Str} (ho : OpenTags s open_) :
    ∃ s', feed u c s (open_.map .stop) = .ok s' ∧ TInv s'.dom s'.stack ∧ s'.dom.shut = s.dom.shut ∧ s'.footer = s.footer ∧
      s'.assigned = s.assigned ∧ s'.parts = s.parts := by
  induction open_ generalizing s with
  | nil => exact ⟨s, rfl, h, rfl, rfl, rfl, rfl⟩
  | cons t open_ ih =>
    obtain ⟨g1, g2, g3⟩ := handleEnd_top h ho
    obtain ⟨e1, e2, e3⟩ := handleEnd_rest s t
    obtain ⟨s', k1, k2, k3, k4, k5, k6⟩ := ih g1 g2
    refine ⟨s', ?_, k2, by rw [k3, g3], by rw [k4, e1], by rw [k5, e2], by rw [k6, e3]⟩
    rw [List.map_cons, feed_cons]
    exact k1

theorem renderFrom_mend (u : Uni) (c : Cfg) (es : List Event) (s : PState) (open_ : List Str) (h : TInv s.dom s.stack)
    (ho : OpenTags s open_) (hp : s.inPre = true → py"pre" ∈ open_) (hs : NoStrayPre open_ es) :
    renderFrom u c s (mend open_ es) = renderFrom u c s es := by
  induction es generalizing s open_ with
  | nil =>
    obtain ⟨s', k1, k2, k3, k4, k5, k6⟩ := feed_closers u c h ho
    rw [renderFrom_eq, renderFrom_eq]
    show (feed u c s (open_.map .stop)).bind _ = _
    rw [k1, feed_nil]
    refine close_alike u c s' s ?_ k4 k5 k6
    rw [popStack_eq k2 (by simp), popStack_eq h (by simp), k3]
  | cons e r ih =>
    cases e with
    | data x =>
      show renderFrom u c s (.data x :: mend open_ r) = _
      rw [renderFrom_cons, renderFrom_cons]
      refine ih (handleData s x) open_ (handleData_inv h x) ?_ hp hs
      unfold OpenTags at ho ⊢
      rw [← ho]
      exact openTags_keep (openTags_extends (handleData_extends h x) h.spine)
    | start tag attrs =>
      have em : mend open_ (.start tag attrs :: r) = .start tag attrs :: mend (if VoidTag tag then open_ else tag :: open_) r := by
        cases open_ <;> rfl
      rw [em, renderFrom_cons, renderFrom_cons]
      show (handleStart u c s tag attrs).bind _ = (handleStart u c s tag attrs).bind _
      cases hq : handleStart u c s tag attrs with
      | error x => rfl
      | ok s1 =>
        have h1 := handleStart_inv h hq
        obtain ⟨n, g1, -, g3, -, -, g6, g7, -⟩ := handleStart_extends h hq
        have hk : s.stack.reverse.map (fun i => (s1.dom.nodes[i]?).bind Node.tag) = open_.map some := by
          rw [openTags_keep (openTags_extends g1 h.spine)]; exact ho
        have hiv : isVoid tag = true ↔ VoidTag tag := by simp [isVoid, VoidTag]
        refine ih s1 _ h1 ?_ ?_ (by cases open_ <;> exact hs)
        · unfold OpenTags
          rw [g6]
          by_cases hv : VoidTag tag
          · rw [if_pos hv, if_pos (hiv.2 hv)]; exact hk
          · rw [if_neg hv, if_neg (fun q => hv (hiv.1 q))]
            simp [g1.last, g3, hk]
        · rw [g7]
          intro q
          by_cases e : tag = py"pre"
          · subst e
            rw [if_neg (show ¬ VoidTag py"pre" by unfold VoidTag; decide)]
            simp
          · rw [if_neg e] at q
            have := hp q
            split
            · exact this
            · exact List.mem_cons_of_mem _ this
    | stop tag =>
      rw [renderFrom_cons]
      show _ = renderFrom u c (handleEnd s tag) r
      cases open_ with
      | nil =>
        show renderFrom u c s (mend [] r) = _
        have hst := openTags_nil ho
        rw [ih s [] h ho hp hs]
        refine renderFrom_calm u c (handleEnd_stray h (fun i n q => by rw [hst] at q; cases q) (fun _ => ?_)).symm r
        cases e : s.inPre with
        | false => rfl
        | true => cases hp e
      | cons t open_ =>
        by_cases et : tag = t
        · subst et
          simp only [NoStrayPre, if_true] at hs
          have em : mend (tag :: open_) (.stop tag :: r) = .stop tag :: mend open_ r := by simp [mend]
          rw [em, renderFrom_cons]
          show renderFrom u c (handleEnd s tag) _ = _
          obtain ⟨g1, g2, -⟩ := handleEnd_top h ho
          refine ih _ open_ g1 g2 (fun q => ?_) hs
          rw [handleEnd_inPre] at q
          by_cases e : tag = py"pre"
          · rw [if_pos e] at q; cases q
          · rw [if_neg e] at q
            exact (List.mem_cons.1 (hp q)).resolve_left (fun e' => e e'.symm)
        · simp only [NoStrayPre, if_neg et] at hs
          have em : mend (t :: open_) (.stop tag :: r) = mend (t :: open_) r := by simp [mend, et]
          rw [em, ih s _ h ho hp hs.2]
          obtain ⟨i, n, h1, h2, h3, h4⟩ := openTags_cons ho
          refine renderFrom_calm u c (handleEnd_stray h (fun i' n' q q' => ?_) (fun q => ?_)).symm r
          · rw [h2] at q; cases q
            rw [h3] at q'; cases q'
            rw [h4]; simpa using fun e => et e.symm
          · cases e : s.inPre with
            | false => rfl
            | true =>
              subst q
              rcases List.mem_cons.1 (hp e) with e' | e'
              · exact absurd e' et
              · exact absurd e' (hs.1 rfl)

/-- Putting the tags right makes no difference to what is rendered. -/
theorem renderEvents_mend (u : Uni) (c : Cfg) (es : List Event) (hs : NoStrayPre [] es) :
    renderEvents u c (mend [] es) = renderEvents u c es := by
  have key : ∀ es, renderEvents u c es = (initParser c).bind (fun s => renderFrom u c s es) := fun _ => rfl
  rw [key, key]
  cases h0 : initParser c with
  | error e => rfl
  | ok s0 =>
    rw [initParser_eq h0]
    exact renderFrom_mend u c es {} [] init_inv rfl (fun q => by cases q) hs

/-! ## The tree -/

theorem mend_start (open_ : List Str) (tag : Str) (attrs) (r : List Event) :
    mend open_ (.start tag attrs :: r) = .start tag attrs :: mend (if VoidTag tag then open_ else tag :: open_) r := by
  cases open_ <;> rfl

theorem mend_data (open_ : List Str) (s : Str) (r : List Event) : mend open_ (.data s :: r) = .data s :: mend open_ r := by
  cases open_ <;> rfl

/-- What is left after the content of the innermost open element. -/
def mendRest : List Str → List Event → List Event
  | [], _ => []
  | t :: open_, es => .stop t :: mend open_ es

def NestedRest : List Str → List Event → Prop
  | [], _ => True
  | _ :: open_, es => NoNestedPre open_ es

theorem mend_forest (n : Nat) (es : List Event) (hn : es.length ≤ n) (open_ : List Str) (hs : NoNestedPre open_ es) :
    ∃ (f : Forest) (es' : List Event), es'.length ≤ es.length ∧ mend open_ es = f.events ++ mendRest open_ es' ∧ NestedRest open_ es' ∧
      ∀ pre, (pre = true → py"pre" ∈ open_) → f.WellFormed pre := by
  induction n generalizing es open_ with
  | zero =>
    have : es = [] := List.eq_nil_of_length_eq_zero (by omega)
    subst this
    refine ⟨.nil, [], by simp, ?_, ?_, fun _ _ => trivial⟩
    · cases open_ <;> rfl
    · cases open_ <;> exact trivial
  | succ n ih =>
    cases es with
    | nil =>
      refine ⟨.nil, [], by simp, ?_, ?_, fun _ _ => trivial⟩
      · cases open_ <;> rfl
      · cases open_ <;> exact trivial
    | cons e r =>
      have hr : r.length ≤ n := by simpa using hn
      cases e with
      | data s =>
        obtain ⟨f, es', h1, h2, h3, h4⟩ := ih r hr open_ (by cases open_ <;> exact hs)
        exact ⟨.text s f, es', by simp; omega, by rw [mend_data, h2]; rfl, h3, h4⟩
      | start tag attrs =>
        have hs' : (tag = py"pre" → py"pre" ∉ open_) ∧ NoNestedPre (if VoidTag tag then open_ else tag :: open_) r := by
          cases open_ <;> exact hs
        by_cases hv : VoidTag tag
        · rw [if_pos hv] at hs'
          obtain ⟨f, es', h1, h2, h3, h4⟩ := ih r hr open_ hs'.2
          refine ⟨.elem tag attrs .nil f, es', by simp; omega, ?_, h3, fun pre hp => ⟨fun _ => rfl, fun e => ?_, trivial, h4 pre hp⟩⟩
          · rw [mend_start, if_pos hv, h2]; simp [Forest.events, hv]
          · subst e; exact absurd hv (by unfold VoidTag; decide)
        · rw [if_neg hv] at hs'
          obtain ⟨k, es1, h1, h2, h3, h4⟩ := ih r hr (tag :: open_) hs'.2
          obtain ⟨f, es2, g1, g2, g3, g4⟩ := ih es1 (by omega) open_ h3
          refine ⟨.elem tag attrs k f, es2, by simp; omega, ?_, g3, fun pre hp => ⟨fun q => absurd q hv, fun e => ?_, h4 _ ?_, g4 pre hp⟩⟩
          · rw [mend_start, if_neg hv, h2]
            simp only [mendRest, g2]
            simp [Forest.events, hv]
          · cases hb : pre with
            | false => rfl
            | true => exact absurd (hp hb) (hs'.1 e)
          · intro q
            simp only [Bool.or_eq_true, beq_iff_eq] at q
            rcases q with q | q
            · exact List.mem_cons_of_mem _ (hp q)
            · simp [q]
      | stop tag =>
        cases open_ with
        | nil =>
          obtain ⟨f, es', h1, h2, h3, h4⟩ := ih r hr [] hs
          exact ⟨f, es', by simp; omega, h2, h3, h4⟩
        | cons t open_ =>
          by_cases et : tag = t
          · subst et
            simp only [NoNestedPre, if_true] at hs
            exact ⟨.nil, r, by simp, by simp [mend, mendRest, Forest.events], hs, fun _ _ => trivial⟩
          · simp only [NoNestedPre, if_neg et] at hs
            obtain ⟨f, es', h1, h2, h3, h4⟩ := ih r hr _ hs
            exact ⟨f, es', by simp; omega, by simpa [mend, et] using h2, h3, h4⟩

/-- A document whose tags match is left as it is. -/
theorem mend_events (f : Forest) {b : Bool} (hw : f.WellFormed b) (open_ : List Str) (t : List Event) :
    mend open_ (f.events ++ t) = f.events ++ mend open_ t ∧ (NoStrayPre open_ (f.events ++ t) ↔ NoStrayPre open_ t) := by
  induction f generalizing open_ t b with
  | nil => exact ⟨rfl, .rfl⟩
  | text s f ih =>
    obtain ⟨h1, h2⟩ := ih hw open_ t
    refine ⟨?_, ?_⟩
    · show mend open_ (.data s :: (f.events ++ t)) = .data s :: (f.events ++ mend open_ t)
      rw [mend_data, h1]
    · rw [← h2]; cases open_ <;> rfl
  | elem tag attrs k f ih1 ih2 =>
    obtain ⟨w1, -, w3, w4⟩ := hw
    obtain ⟨g1, g2⟩ := ih2 w4 open_ t
    have e : ∀ t, (Forest.elem tag attrs k f).events ++ t =
        .start tag attrs :: (k.events ++ ((if VoidTag tag then [] else [.stop tag]) ++ (f.events ++ t))) := by
      intro t; simp [Forest.events]
    have en : ∀ r, NoStrayPre open_ (.start tag attrs :: r) = NoStrayPre (if VoidTag tag then open_ else tag :: open_) r := by
      intro r; cases open_ <;> rfl
    rw [e, e, mend_start, en]
    by_cases hv : VoidTag tag
    · rw [w1 hv, if_pos hv, if_pos hv]
      simp only [Forest.events, List.nil_append, g1, g2, and_self]
    · rw [if_neg hv, if_neg hv]
      obtain ⟨k1, k2⟩ := ih1 w3 (tag :: open_) ([.stop tag] ++ (f.events ++ t))
      rw [k1, k2]
      simp [mend, NoStrayPre, g1, g2]

theorem denotes_events {f : Forest} {b : Bool} (hw : f.WellFormed b) : Denotes f.events f := by
  obtain ⟨h1, h2⟩ := mend_events f hw [] []
  rw [List.append_nil] at h1 h2
  exact ⟨h2.2 trivial, by rw [h1]; simp [mend]⟩

theorem renderEvents_denotes (u : Uni) (c : Cfg) {es : List Event} {f : Forest} (h : Denotes es f) :
    renderEvents u c es = renderEvents u c f.events := by
  rw [← h.2, renderEvents_mend u c es h.1]

end Verif
