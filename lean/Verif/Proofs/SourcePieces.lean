import Verif.Proofs.SourceDoc

/-!
# Reading documents that come in pieces
-/

namespace Verif

open Spec

/-- Markup that is cut is not complete. -/
theorem markup_cut (u : Uni) (fin : Bool) {i : Item} (h : i.Ok u.entity u.lower) (hi : i.isText = false) (hv : ∀ a b c d, i ≠ .verbatim a b c d)
    {r y : Str} (e : i.src = '<' :: (r ++ y)) (hy : y ≠ []) (hr : r ≠ []) : parseMarkup u fin none r = .ok none := by
  cases i with
  | text => cases hi
  | verbatim a b c d => exact absurd rfl (hv a b c d)
  | start tag as gap =>
    obtain ⟨h1, h2, h3, h4, h5⟩ := h
    simp only [Item.src, List.cons.injEq, true_and] at e
    have hc := parseStart_cut u none h1 (fun a ha => ok_shape (h2 a ha)) h3 (.inl rfl) e hr hy
    obtain ⟨c, r', rfl⟩ := List.exists_cons_of_ne_nil hr
    obtain ⟨c', t', ht, hc', _⟩ := h1
    rw [ht] at e
    simp only [List.cons_append, List.cons.injEq] at e
    rw [← e.1] at hc ⊢
    rw [parseMarkup_alpha u fin none r' hc', hc]
  | empty tag as gap =>
    obtain ⟨h1, h2, h3, h4⟩ := h
    simp only [Item.src, List.cons.injEq, true_and] at e
    have hc := parseStart_cut u none h1 (fun a ha => ok_shape (h2 a ha)) h3 (.inr ⟨rfl, h4⟩) e hr hy
    obtain ⟨c, r', rfl⟩ := List.exists_cons_of_ne_nil hr
    obtain ⟨c', t', ht, hc', _⟩ := h1
    rw [ht] at e
    simp only [List.cons_append, List.cons.injEq] at e
    rw [← e.1] at hc ⊢
    rw [parseMarkup_alpha u fin none r' hc', hc]
  | stop tag gap =>
    obtain ⟨h1, h2⟩ := h
    obtain ⟨c, r', rfl⟩ := List.exists_cons_of_ne_nil hr
    simp only [Item.src, List.cons_append, List.cons.injEq, true_and] at e
    rw [← e.1]
    have hn : '>' ∉ r' := by
      rw [← List.append_assoc] at e
      rcases cut_append e.2 with ⟨c, e1, _, _⟩ | ⟨c, e1, e2⟩
      · intro hm
        have : '>' ∈ tag ++ gap := by rw [e1]; simp [hm]
        rcases List.mem_append.1 this with h | h
        · exact tag_no_gt h1 h
        · exact blank_no_gt h2 h
      · cases c with
        | nil =>
          rw [e1, List.append_nil]
          intro hm
          rcases List.mem_append.1 hm with h | h
          · exact tag_no_gt h1 h
          · exact blank_no_gt h2 h
        | cons d c =>
          simp only [List.cons_append, List.cons.injEq] at e2
          exact absurd (List.append_eq_nil_iff.1 e2.2.symm).2 hy
    simp [parseMarkup, parseEnd, afterGt_none hn]
  | comment t =>
    obtain ⟨c, r', rfl⟩ := List.exists_cons_of_ne_nil hr
    simp only [Item.src, List.cons_append, List.nil_append, List.cons.injEq, true_and] at e
    rw [← e.1]
    cases r' with
    | nil => rfl
    | cons c1 r' =>
      simp only [List.cons_append, List.cons.injEq] at e
      rw [← e.2.1]
      cases r' with
      | nil => rfl
      | cons c2 r' =>
        simp only [List.cons_append, List.cons.injEq] at e
        rw [← e.2.2.1]
        simp [parseMarkup, comment_cut h e.2.2.2 hy]
  | decl t =>
    obtain ⟨h1, h2, h3⟩ := h
    obtain ⟨c, r', rfl⟩ := List.exists_cons_of_ne_nil hr
    simp only [Item.src, List.cons_append, List.cons.injEq, true_and] at e
    rw [← e.1]
    have hp : ∃ k, t = r' ++ k := by
      rcases cut_append e.2 with ⟨c, e1, _, _⟩ | ⟨c, e1, e2⟩
      · exact ⟨c, e1⟩
      · cases c with
        | nil => exact ⟨[], by simpa using e1.symm⟩
        | cons d c =>
          simp only [List.cons_append, List.cons.injEq] at e2
          exact absurd (List.append_eq_nil_iff.1 e2.2.symm).2 hy
    obtain ⟨k, rfl⟩ := hp
    rw [parseMarkup_bang u fin none, afterGt_none (fun hm => h1 (by simp [hm]))]
    · rfl
    · rintro ⟨m, hm⟩
      exact h2 ⟨m ++ k, by rw [← hm]; simp⟩
    · intro hh
      cases r' with
      | nil => cases hh
      | cons a r' => exact h3 (by simpa using hh)

/-- What is left to read: the source, what it means, and where texts would be cut. -/
inductive Rest (ent : Str → Option Str) (lower : Str → Str) : Option Str → Str → List Event → (Nat → Prop) → Prop
  | doc (doc : List Item) : DocOk ent lower doc → Rest ent lower none (docSrc doc) (docEvents lower doc) (InsideText doc)
  | raw (tag content : Str) (doc : List Item) : IsRaw tag → ¬ py"</" <:+: content → DocOk ent lower doc →
      Rest ent lower (some (tag.map Char.toLower)) ((content ++ '<' :: '/' :: (tag ++ py">")) ++ docSrc doc)
        (((if content = [] then [] else [.data content]) ++ [.stop (lower tag)]) ++ docEvents lower doc)
        (fun n => (content ++ '<' :: '/' :: (tag ++ py">")).length ≤ n ∧
          InsideText doc (n - (content ++ '<' :: '/' :: (tag ++ py">")).length))

/-- Reading all that is left. -/
theorem rest_all (u : Uni) {cd : Option Str} {src : Str} {ev : List Event} {cut : Nat → Prop}
    (h : Rest u.entity u.lower cd src ev cut) : tokRun u true ⟨src, cd⟩ = (ev, .ok {}) := by
  cases h with
  | doc doc h => exact tokRun_doc u true h (fun h => by cases h)
  | raw tag content doc h1 h2 h3 =>
    have := tokRun_raw u true h1 h2 (docSrc doc)
    simp only [List.append_assoc, List.cons_append, List.nil_append] at this ⊢
    rw [this, tokRun_doc u true h3 (fun h => by cases h)]
    simp [emit]

theorem joinTexts_append (a b : List Event) : joinTexts (a ++ b) = a.foldr glue (joinTexts b) := by
  simp [joinTexts]

theorem glue_split (a b : Str) (r : List Event) : glue (.data a) (glue (.data b) r) = glue (.data (a ++ b)) r := by
  cases r with
  | nil => rfl
  | cons e r => cases e <;> simp [glue]

theorem joinTexts_split (a b : Str) (r : List Event) : joinTexts (.data a :: .data b :: r) = joinTexts (.data (a ++ b) :: r) := by
  simp [joinTexts, glue_split]

/-- Reading a part: what was read and what is left make up the document. -/
def PartOk (u : Uni) (cd : Option Str) (x y : Str) (ev : List Event) (cut : Nat → Prop) : Prop :=
  ∃ es s' ev' cut', tokRun u false ⟨x, cd⟩ = (es, .ok s') ∧ Rest u.entity u.lower s'.cdata (s'.raw ++ y) ev' cut' ∧
    joinTexts (es ++ ev') = joinTexts ev ∧
    (cut x.length ∨ (es ++ ev' = ev ∧ ∀ n, cut' (s'.raw.length + n) → cut (x.length + n)))

theorem partOk_wait {u : Uni} {cd : Option Str} {x y : Str} {ev : List Event} {cut : Nat → Prop}
    (h : Rest u.entity u.lower cd (x ++ y) ev cut) (hr : tokRun u false ⟨x, cd⟩ = ([], .ok ⟨x, cd⟩)) : PartOk u cd x y ev cut :=
  ⟨[], ⟨x, cd⟩, ev, cut, hr, h, rfl, .inr ⟨rfl, fun _ h => h⟩⟩

/-- Reading one more piece first. -/
theorem partOk_emit {u : Uni} {cd cd1 : Option Str} {x x1 y : Str} {ev ev1 es1 : List Event} {cut cut1 : Nat → Prop}
    (h : PartOk u cd1 x1 y ev1 cut1) (hr : tokRun u false ⟨x, cd⟩ = emit es1 (tokRun u false ⟨x1, cd1⟩))
    (hev : ev = es1 ++ ev1) (hcut : ∀ n, cut1 (x1.length + n) → cut (x.length + n)) : PartOk u cd x y ev cut := by
  obtain ⟨es, s', ev', cut', h1, h2, h3, h4⟩ := h
  refine ⟨es1 ++ es, s', ev', cut', by rw [hr, h1]; rfl, h2, ?_, ?_⟩
  · rw [hev, List.append_assoc, joinTexts_append, h3, ← joinTexts_append]
  · rcases h4 with h4 | ⟨h4, h5⟩
    · exact .inl (hcut 0 h4)
    · exact .inr ⟨by rw [hev, ← h4]; simp, fun n hn => hcut n (h5 n hn)⟩

theorem doc_part (u : Uni) {doc : List Item} (h : DocOk u.entity u.lower doc) {x y : Str} (e : docSrc doc = x ++ y) :
    PartOk u none x y (docEvents u.lower doc) (InsideText doc) := by
  induction doc generalizing x with
  | nil =>
    have e1 : x = [] := (List.append_eq_nil_iff.1 e.symm).1
    subst e1
    exact partOk_wait (by rw [← e]; exact .doc _ h) (tokRun_nil u false _ rfl)
  | cons i doc ih =>
    have hsrc : docSrc (i :: doc) = i.src ++ docSrc doc := by simp [docSrc]
    have hi := h.1 i (by simp)
    by_cases hx : x = []
    · subst hx
      exact partOk_wait (by rw [← e]; exact .doc _ h) (tokRun_nil u false _ rfl)
    rw [hsrc] at e
    rcases cut_append e with ⟨z, h1, h2, hz⟩ | ⟨x1, rfl, h1⟩
    · have hwait : tokRun u false ⟨x, none⟩ = ([], .ok ⟨x, none⟩) →
          PartOk u none x y (docEvents u.lower (i :: doc)) (InsideText (i :: doc)) := by
        intro hw
        exact partOk_wait (by rw [← e, ← hsrc]; exact .doc _ h) hw
      cases ht : i.isText with
      | true =>
        cases i with
        | text raw t =>
          obtain ⟨g1, g2, g3⟩ := hi
          have h1 : raw = x ++ z := h1
          have hlt : '<' ∉ x := fun hm => g2 (by rw [h1]; simp [hm])
          by_cases ho : OpenEnd x
          · have hcut := (mayBeCut_open x).2 ho
            refine hwait ?_
            rw [tokRun_wait u false _ ?_]
            · simp [finishTok]
            · have htw := takeWhile_lt hlt (t := []) (.inl rfl)
              rw [List.append_nil] at htw
              simp [nextText, htw.1, htw.2, hcut]
          · obtain ⟨ta, tb, h3, h4, h5⟩ := spells_cut g3 x z h1 ho
            have hrun := tokRun_text u false hx hlt h3 (s := []) (.inl ⟨rfl, fun _ => ho⟩)
            rw [List.append_nil, tokRun_nil u false ⟨[], none⟩ rfl] at hrun
            have hrest : Rest u.entity u.lower none (docSrc (.text z tb :: doc)) (docEvents u.lower (.text z tb :: doc))
                (InsideText (.text z tb :: doc)) := by
              refine .doc _ ⟨?_, ?_⟩
              · intro j hj
                rcases List.mem_cons.1 hj with rfl | hj
                · exact ⟨hz, fun hm => g2 (by rw [h1]; simp [hm]), h4⟩
                · exact h.1 j (by simp [hj])
              · cases doc with
                | nil => trivial
                | cons j doc => exact ⟨h.2.1, h.2.2⟩
            refine ⟨[.data ta], {}, _, _, hrun, by
              rw [show docSrc (.text z tb :: doc) = z ++ docSrc doc by simp [docSrc, Item.src]] at hrest
              rw [h2]; exact hrest, ?_, .inl (.inl ⟨rfl, List.length_pos_iff.2 hx, ?_⟩)⟩
            · simp only [docEvents, List.flatMap_cons, Item.events, List.cons_append, List.nil_append, h5]
              exact joinTexts_split _ _ _
            · have := List.length_pos_iff.2 hz
              simp [Item.src, h1]; omega
        | _ => cases ht
      | false =>
        obtain ⟨k, hk⟩ := src_lt ht
        obtain ⟨c, r, rfl⟩ := List.exists_cons_of_ne_nil hx
        have hc : c = '<' := by
          rw [h1] at hk
          simp only [List.cons_append, List.cons.injEq] at hk
          exact hk.1
        subst hc
        by_cases hv : ∃ a b c d, i = .verbatim a b c d
        · obtain ⟨tag, as, gap, content, rfl⟩ := hv
          obtain ⟨g1, g2, g3, g4⟩ := hi
          have ht := raw_tagName g1
          have h1' : ('<' :: (tag ++ (attrsSrc as ++ (gap ++ py">")))) ++ (content ++ '<' :: '/' :: (tag ++ py">")) =
              ('<' :: r) ++ z := h1
          rcases cut_append h1' with ⟨w, e1, e2, hw⟩ | ⟨x1, e1, e2⟩
          · refine hwait (tokRun_cut u ?_)
            by_cases hr : r = []
            · subst hr; rfl
            simp only [List.cons_append, List.cons.injEq, true_and] at e1
            have hc := parseStart_cut u none ht (fun a ha => ok_shape (g2 a ha)) g3 (.inl rfl) e1 hr hw
            obtain ⟨c, r', rfl⟩ := List.exists_cons_of_ne_nil hr
            obtain ⟨c', t', ht', hc', _⟩ := ht
            rw [ht'] at e1
            simp only [List.cons_append, List.cons.injEq] at e1
            rw [← e1.1] at hc ⊢
            rw [parseMarkup_alpha u false none r' hc', hc]
          · have hcdrun := tokRun_rawCut u g1 g4 e2 hz
            have hraw : u.lower tag = py"script" ∨ u.lower tag = py"style" := by rw [raw_lower u g1]; exact g1
            have hrun : tokRun u false ⟨'<' :: r, none⟩ = emit [.start (u.lower tag) (attrsMeaning u.lower as)]
                (tokRun u false ⟨x1, some (tag.map Char.toLower)⟩) := by
              have e3 : '<' :: r = '<' :: (tag ++ (attrsSrc as ++ (gap ++ '>' :: x1))) := by rw [e1]; simp
              rw [e3, tokRun_piece u false (by
                rw [parseMarkup_tag u false none _ ht, parseStart_ok u none ht g2 (endFor g2 g3 _)])]
              simp only [if_true, hraw]
              rw [raw_lower u g1]
            refine partOk_emit (ev1 := ((if content = [] then [] else [.data content]) ++ [.stop (u.lower tag)]) ++
                docEvents u.lower doc) (cut1 := fun n => (content ++ '<' :: '/' :: (tag ++ py">")).length ≤ n ∧
                InsideText doc (n - (content ++ '<' :: '/' :: (tag ++ py">")).length)) (partOk_wait (y := y) ?_ hcdrun) hrun ?_ ?_
            · rw [h2, ← List.append_assoc, ← e2]
              exact .raw tag content doc g1 g4 (docOk_tail h)
            · simp [docEvents, Item.events]
            · rintro n ⟨hn1, hn2⟩
              right
              have hlen : (Item.verbatim tag as gap content).src.length + x1.length =
                  (content ++ '<' :: '/' :: (tag ++ py">")).length + ('<' :: r).length := by
                rw [e1]
                simp only [Item.src, List.length_append]
                omega
              refine ⟨by omega, ?_⟩
              have : ('<' :: r).length + n - (Item.verbatim tag as gap content).src.length =
                  x1.length + n - (content ++ '<' :: '/' :: (tag ++ py">")).length := by omega
              rw [this]
              exact hn2
        · by_cases hr : r = []
          · subst hr; exact hwait (tokRun_cut u rfl)
          · exact hwait (tokRun_cut u (markup_cut u false hi ht (fun a b c d he => hv ⟨a, b, c, d, he⟩) h1 hz hr))
    · by_cases hopen : x1 = [] ∧ i.isText = true ∧ OpenEnd i.src
      · obtain ⟨rfl, ht, ho⟩ := hopen
        rw [List.append_nil] at e ⊢
        refine partOk_wait (by rw [← e, ← hsrc]; exact .doc _ h) ?_
        cases i with
        | text raw t =>
          have hcut := (mayBeCut_open raw).2 ho
          rw [tokRun_wait u false _ ?_]
          · simp [finishTok]
          · have htw := takeWhile_lt hi.2.1 (t := []) (.inl rfl)
            rw [List.append_nil] at htw
            simp [nextText, Item.src, htw.1, htw.2, hcut]
        | _ => cases ht
      refine partOk_emit (ih (docOk_tail h) h1) (tokRun_item u false hi ?_) (by simp [docEvents]) ?_
      · intro ht
        cases x1 with
        | nil => exact .inl ⟨rfl, fun _ ho => hopen ⟨rfl, ht, ho⟩⟩
        | cons c x1 =>
          rcases after_text h ht with he | ⟨k, he⟩
          · rw [he] at h1
            cases h1
          · rw [he] at h1
            simp only [List.cons_append, List.cons.injEq] at h1
            exact .inr ⟨x1, by rw [h1.1]⟩
      · intro n hn
        right
        refine ⟨by simp; omega, ?_⟩
        rw [List.length_append, Nat.add_assoc, Nat.add_sub_cancel_left]
        exact hn

theorem rest_part (u : Uni) {cd : Option Str} {x y : Str} {ev : List Event} {cut : Nat → Prop}
    (h : Rest u.entity u.lower cd (x ++ y) ev cut) : PartOk u cd x y ev cut := by
  generalize hs : x ++ y = src at h
  cases h with
  | doc doc hd => exact doc_part u hd hs.symm
  | raw tag content doc h1 h2 h3 =>
    rcases cut_append hs.symm with ⟨w, e1, e2, hw⟩ | ⟨x1, rfl, e1⟩
    · refine partOk_wait ?_ (tokRun_rawCut u h1 h2 e1 hw)
      rw [hs]
      exact .raw tag content doc h1 h2 h3
    · refine partOk_emit (doc_part u h3 e1) ?_ rfl ?_
      · have := tokRun_raw u false h1 h2 x1
        simp only [List.append_assoc, List.cons_append, List.nil_append] at this ⊢
        exact this
      · intro n hn
        refine ⟨by simp; omega, ?_⟩
        rw [List.length_append, Nat.add_assoc, Nat.add_sub_cancel_left]
        exact hn

theorem pieces_rest (u : Uni) (ps : List Str) {s : TokState} {ev : List Event} {cut : Nat → Prop}
    (h : Rest u.entity u.lower s.cdata (s.raw ++ ps.flatten) ev cut) :
    ∃ es, tokPieces u s ps = (es, .ok {}) ∧ joinTexts es = joinTexts ev ∧
      ((∀ k, ¬ cut (s.raw.length + (ps.take k).flatten.length)) → es = ev) := by
  induction ps generalizing s ev cut with
  | nil =>
    rw [List.flatten_nil, List.append_nil] at h
    exact ⟨ev, by rw [tokPieces, tokClose_eq]; exact rest_all u h, rfl, fun _ => rfl⟩
  | cons p ps ih =>
    rw [List.flatten_cons, ← List.append_assoc] at h
    obtain ⟨es, s', ev', cut', h1, h2, h3, h4⟩ := rest_part u h
    obtain ⟨es2, g1, g2, g3⟩ := ih h2
    refine ⟨es ++ es2, ?_, ?_, ?_⟩
    · rw [tokPieces, tokFeed_eq, h1]
      simp only [g1, emit]
    · rw [joinTexts_append, g2, ← joinTexts_append, h3]
    · intro hc
      rcases h4 with h4 | ⟨h4, h5⟩
      · have := hc 1
        simp only [List.take_succ_cons, List.take_zero, List.flatten_cons, List.flatten_nil, List.append_nil] at this
        rw [← List.length_append] at this
        exact absurd h4 this
      · rw [g3, h4]
        intro k hk
        refine hc (k + 1) ?_
        have := h5 _ hk
        rw [List.length_append] at this
        simpa [Nat.add_assoc] using this

end Verif
