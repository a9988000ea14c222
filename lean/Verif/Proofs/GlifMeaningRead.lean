import Verif.Proofs.GlifMeaningGlyph
/-! Reading a glyph: it succeeds exactly when the elements say something, and gives what they say. -/
namespace Verif.Glif
open Verif Verif.Validators Verif.Spec.Validators Verif.Spec.Glif Verif.Spec.GlifMeaning Verif.Spec.Numerals

theorem outlineOk_iff {e : Elem} : outlineOk e = true ↔ e.attrib = [] ∧ BlankText e.text := by
  unfold outlineOk
  rw [Bool.and_eq_true, blankText_iff, List.isEmpty_iff]

theorem readChildren_dids {E : Env} {fv : Nat} {es : List Elem} : ∀ {s s' : Collected}, readChildren E true true true fv s es = .ok s' → ∀ e ∈ es, ∃ s s', Did E fv s s' e := by
  induction es with
  | nil => intro s s' _ e he; cases he
  | cons e es ih =>
    intro s s' h e' he'
    rw [readChildren] at h
    split at h
    · cases h
    next s1 h1 =>
    rcases List.mem_cons.1 he' with rfl | he'
    · exact ⟨_, _, readChild_did h1⟩
    · exact ih h e' he'

theorem AtMostOne.mono {l : List Elem} {P P' : Elem → Prop} {Q Q' : Prop} (h : AtMostOne l P Q) (hP : ∀ e ∈ l, P e → P' e) (hQ : Q → Q') : One l P' Q' := by
  rcases h with ⟨h1, h2⟩ | ⟨e, h1, h2⟩
  · exact .inl ⟨h1, hQ h2⟩
  · exact .inr ⟨e, h1, hP e (by rw [h1]; simp) h2⟩

theorem _root_.Verif.Spec.GlifMeaning.One.mono {l : List Elem} {P P' : Elem → Prop} {Q Q' : Prop} (h : One l P Q) (hP : ∀ e ∈ l, P e → P' e) (hQ : Q → Q') : One l P' Q' := AtMostOne.mono h hP hQ

theorem _root_.Verif.Spec.GlifMeaning.One.length {l : List Elem} {P : Elem → Prop} {Q : Prop} (h : One l P Q) : l.length ≤ 1 := by
  rcases h with ⟨h1, -⟩ | ⟨e, h1, -⟩ <;> rw [h1] <;> simp

theorem _root_.Verif.Spec.GlifMeaning.One.mem {l : List Elem} {P : Elem → Prop} {Q : Prop} (h : One l P Q) {e : Elem} (he : e ∈ l) : P e := by
  rcases h with ⟨h1, -⟩ | ⟨e', h1, h2⟩
  · rw [h1] at he; cases he
  · rw [h1, List.mem_singleton] at he; subst he; exact h2

theorem mem_named {t : Str} {tree e : Elem} : e ∈ named t tree ↔ e ∈ tree.children ∧ e.tag = t := by
  unfold named; rw [List.mem_filter, decide_eq_true_eq]

theorem forall₂_mono {α β : Type} {P Q : α → β → Prop} {l : List α} {l' : List β} (h : List.Forall₂ P l l') (hPQ : ∀ a ∈ l, ∀ b ∈ l', P a b → Q a b) : List.Forall₂ Q l l' := by
  induction h with
  | nil => exact .nil
  | cons h _ ih =>
    exact .cons (hPQ _ List.mem_cons_self _ List.mem_cons_self h) (ih fun a ha b hb => hPQ a (List.mem_cons_of_mem _ ha) b (List.mem_cons_of_mem _ hb))

/-- What both formats have in common. -/
theorem head_says {E : Env} {fv : Nat} {versions : List Int} {tree : Elem} {attrs : Dict Str PyVal} {name : Str} {s : Collected} {f : Str} {v : Int} (htag : tree.tag = c!"glyph")
    (htext : textBlank tree.text = true) (hf : Dict.get? tree.attrib c!"format" = some f) (hv : pyInt f = some v) (hvs : v ∈ versions)
    (hname : name ≠ [] ∧ Dict.get? tree.attrib c!"name" = some name) (hR : Result E fv [(c!"name", .str name)] tree.children s) (hfin : Final s attrs) :
    HeadSays E.F versions v tree (Dict.get? attrs) := by
  obtain ⟨u1, u2, u3⟩ := hR.delivered_unicodes
  refine ⟨htag, blankText_iff.1 htext, ⟨f, hf, pyInt_iff.1 hv⟩, hvs, ⟨name, hname.1, hname.2, ?_⟩, ?_, ?_, ?_, ?_, fun k hk => ?_⟩
  · rw [hfin.other _ (by decide), u3]
  · obtain ⟨l, h1, h2⟩ := hR.unicodes
    refine ⟨l, h1.imp fun e i h => readHex_iff.1 h, ?_⟩
    rw [dedup_firsts] at h2
    simp only [List.not_mem_nil, not_false_eq_true, decide_true, List.filter_true, List.nil_append] at h2
    rw [hfin.unicodes, u1, h2, listOr]
    by_cases hn : firsts l = [] <;> simp [hn]
  · exact hR.advance.mono (fun e _ ⟨w, h, h1, h2, h3⟩ => by
      obtain ⟨a, b⟩ := readAdvance_iff.1 h1
      exact ⟨w, h, a, b, by rw [hfin.other _ (by decide), h2], by rw [hfin.other _ (by decide), h3]⟩)
      fun h => by rw [hfin.other _ (by decide), hfin.other _ (by decide)]; exact h
  · exact hR.note.mono (fun e _ ⟨t, h1, h2⟩ => by
      obtain ⟨s, lines, a, b, rfl⟩ := readNote_iff.1 h1
      exact ⟨s, lines, a, b, by rw [hfin.other _ (by decide), h2]⟩) fun h => by rw [hfin.other _ (by decide)]; exact h
  · exact hR.lib.mono (fun e _ ⟨v, h1, h2⟩ => ⟨v, readLib_iff.1 h1, by rw [hfin.other _ (by decide), h2]⟩) fun h => by rw [hfin.other _ (by decide)]; exact h
  · simp only [List.mem_cons, List.not_mem_nil, or_false, not_or] at hk
    rw [hfin.other _ (by simp only [List.mem_cons, List.not_mem_nil, or_false, not_or]; tauto), hR.other _ (by simp only [List.mem_cons, List.not_mem_nil, or_false, not_or]; tauto)]
    rw [Dict.get?_cons, if_neg (Ne.symm hk.1)]
    rfl

theorem listOr_eq {l : List PyVal} {o : Option PyVal} (h : o = none) : (if l = [] then o else some (.list l)) = listOr l := by rw [h, listOr]

/-- The parts of reading. -/
theorem readFormat_parts {E : Env} {fv : Nat} {tree : Elem} {attrs : Dict Str PyVal} {calls : List Call} (h : readFormat E true true true fv tree = .ok (attrs, calls)) :
    ∃ name s s', (name ≠ [] ∧ Dict.get? tree.attrib c!"name" = some name) ∧
      readChildren E true true true fv ⟨[(c!"name", .str name)], [], [], [], [], [], []⟩ tree.children = .ok s ∧ s.finish E true = .ok s' ∧ attrs = s'.attrs ∧ calls = s'.calls := by
  unfold readFormat at h
  split at h
  · cases h
  next attrs0 h0 =>
  split at h
  · cases h
  next s hs =>
  split at h
  · cases h
  next s' hs' =>
  cases h
  unfold readName at h0
  split at h0
  · next c cs hn =>
    cases h0
    exact ⟨c :: cs, s, s', ⟨by simp, hn⟩, hs, hs', rfl, rfl⟩
  · cases h0

theorem start_result {E : Env} {fv : Nat} {name : Str} : Result E fv [(c!"name", .str name)] [] ⟨[(c!"name", .str name)], [], [], [], [], [], []⟩ := by
  refine result_start fun k hk => ?_
  simp only [List.mem_cons, List.not_mem_nil, or_false] at hk
  rcases hk with rfl | rfl | rfl | rfl | rfl | rfl <;> rfl

/-- The lists of guidelines and anchors of format 2. -/
theorem result_lists {E : Env} {tree : Elem} {name : Str} {s : Collected} (hR : Result E 2 [(c!"name", .str name)] tree.children s)
    (hg : ∀ e ∈ named c!"guideline" tree, e.children = []) (ha : ∀ e ∈ named c!"anchor" tree, e.children = []) :
    EntriesSay E.F [c!"x", c!"y", c!"angle"] (named c!"guideline" tree) s.guidelines ∧ EntriesSay E.F [c!"x", c!"y"] (named c!"anchor" tree) s.anchors := by
  constructor
  · exact forall₂_mono hR.guidelines fun e he v _ ⟨d, h1, h2⟩ => ⟨d, h2, hg e he, readEntry_iff.1 h1⟩
  · exact forall₂_mono hR.anchors fun e he v _ ⟨d, h1, h2⟩ => ⟨d, h2, ha e he, readEntry_iff.1 h1⟩

/-- The identifiers of format 2. -/
theorem result_identifiers {E : Env} {tree : Elem} {name : Str} {s : Collected} (hR : Result E 2 [(c!"name", .str name)] tree.children s) (ht : DistinctAttributes tree)
    (hg : ∀ e ∈ named c!"guideline" tree, e.children = []) (ha : ∀ e ∈ named c!"anchor" tree, e.children = []) :
    (glyphIdentifiers tree).Perm (s.identifiers ++ (identifiers s.guidelines ++ identifiers s.anchors)) ∧ NewIds [] s.identifiers := by
  obtain ⟨hG, hA⟩ := result_lists hR hg ha
  have hd : ∀ t, ∀ e ∈ named t tree, (Dict.keys e.attrib).Nodup := fun t e he => ht e (mem_named.1 he).1
  rw [entries_identifiers hG (hd _) (by decide), entries_identifiers hA (hd _) (by decide)]
  have hp := glyphIdentifiers_perm tree.children
  have ho : s.identifiers = (pick c!"outline" tree.children).flatMap (fun e => outlineIdentifiers e.children) ∧ NewIds [] s.identifiers := by
    rcases hR.outline2 (by decide) with ⟨h1, -, h2⟩ | ⟨e, h1, -, h2⟩
    · rw [h1, h2]; exact ⟨rfl, .nil _⟩
    · obtain ⟨-, h3, h4⟩ := readOutline2_iff.1 h2
      rw [h1, h3]
      exact ⟨by simp, by simpa using h4⟩
  rw [ho.1]
  exact ⟨hp, ho.1 ▸ ho.2⟩

theorem identifiers_legal {P : List (PyVal × PyVal) → Prop} (hid : ∀ d, P d → ∀ w, Field d c!"identifier" w → ∃ s, w = .str s ∧ LegalIdentifier s) {l : List PyVal}
    (h : ∀ v ∈ l, ∃ d, v = .dict d ∧ P d) : ∀ i ∈ identifiers l, LegalIdentifier i := by
  intro i hi
  obtain ⟨d, hd, hm⟩ := mem_identifiers hi
  obtain ⟨d', hd', hP⟩ := h _ hd
  cases hd'
  obtain ⟨s, hs, hl⟩ := hid d hP _ ⟨hm, by simp⟩
  cases hs
  exact hl

/-- Whatever is read in format 2 is what the glyph says. -/
theorem readFormat2_says {E : Env} {versions : List Int} {tree : Elem} {attrs : Dict Str PyVal} {calls : List Call} {f : Str} (ht : DistinctAttributes tree) (htag : tree.tag = c!"glyph")
    (htext : textBlank tree.text = true) (hf : Dict.get? tree.attrib c!"format" = some f) (hv : pyInt f = some 2) (hvs : 2 ∈ versions)
    (h : readFormat E true true true 2 tree = .ok (attrs, calls)) : GlyphSays2 E.F versions tree (Dict.get? attrs) calls := by
  obtain ⟨name, s, s', hname, hs, hs', rfl, rfl⟩ := readFormat_parts h
  have hR : Result E 2 [(c!"name", .str name)] tree.children s := readChildren_result start_result hs
  obtain ⟨hfin, hcalls⟩ := finish_values hs'
  have hD := readChildren_dids hs
  have hempty : ∀ t ∈ [c!"guideline", c!"anchor", c!"image"], ∀ e ∈ named t tree, e.children = [] := by
    intro t htt e he
    obtain ⟨h1, rfl⟩ := mem_named.1 he
    obtain ⟨a, b, hd⟩ := hD e h1
    cases hd with
    | guideline _ _ hc => exact hc
    | anchor _ _ hc => exact hc
    | image _ _ _ hc => exact hc
    | outline1 ht => rw [ht] at htt; exact absurd htt (by decide)
    | outline2 ht => rw [ht] at htt; exact absurd htt (by decide)
    | advance ht => rw [ht] at htt; exact absurd htt (by decide)
    | unicode ht => rw [ht] at htt; exact absurd htt (by decide)
    | note ht => rw [ht] at htt; exact absurd htt (by decide)
    | lib ht => rw [ht] at htt; exact absurd htt (by decide)
  have hG := result_lists hR (hempty _ (by decide)) (hempty _ (by decide))
  obtain ⟨hid, hfresh⟩ := result_identifiers hR ht (hempty _ (by decide)) (hempty _ (by decide))
  have hd : ∀ t, ∀ e ∈ named t tree, (Dict.keys e.attrib).Nodup := fun t e he => ht e (mem_named.1 he).1
  obtain ⟨k1, k2, k3, k4⟩ := (finish_iff (entries_dictKeys hG.1 (hd _)) (entries_dictKeys hG.2 (hd _))).1 ⟨s', hs'⟩
  obtain ⟨u1, u2, u3⟩ := hR.delivered_unicodes
  refine ⟨head_says htag htext hf hv hvs hname hR hfin, ?_, ?_, ⟨s.guidelines, ?_, ?_⟩, ⟨s.anchors, ?_, ?_⟩, ?_, ?_, ?_⟩
  · intro e he
    obtain ⟨a, b, hd⟩ := hD e he
    cases hd <;> (rename_i ht; simp_all)
  · refine hR.image.mono (fun e he ⟨_, v, h1, h2⟩ => ?_) fun h => by rw [hfin.other _ (by decide)]; exact h
    obtain ⟨h3, h4⟩ := (readImage_iff (hempty _ (by decide) e he) (hd _ e he)).1 h1
    exact ⟨v, h3, h4, by rw [hfin.other _ (by decide), h2]⟩
  · exact forall₂_mono hG.1 fun e _ v hv ⟨d, h1, h2⟩ => by
      obtain ⟨d', h3, h4⟩ := k1 v hv
      subst h1
      cases h3
      exact ⟨d, rfl, h2, h4⟩
  · rw [hfin.guidelines]; exact listOr_eq u2
  · exact forall₂_mono hG.2 fun e _ v hv ⟨d, h1, h2⟩ => by
      obtain ⟨d', h3, h4⟩ := k2 v hv
      subst h1
      cases h3
      exact ⟨d, rfl, h2, h4⟩
  · rw [hfin.anchors]; exact listOr_eq (by rw [hR.anchors2 (by decide)]; rfl)
  · refine (hR.outline2 (by decide)).mono (fun e _ ⟨h1, h2⟩ => ?_) fun h => by rw [hcalls]; exact h.1
    obtain ⟨h3, h4⟩ := outlineOk_iff.1 h1
    obtain ⟨⟨d, h5, h6⟩, -⟩ := readOutline2_iff.1 h2
    exact ⟨h3, h4, d, h5, by rw [hcalls]; exact h6⟩
  · rw [hid.nodup_iff, List.nodup_append]
    exact ⟨hfresh.1, k3, fun i hi j hj e => k4 j hj (e ▸ hi)⟩
  · intro i hi
    rcases List.mem_append.1 (hid.mem_iff.1 hi) with hi | hi
    · exact (hfresh.2 i hi).2
    rcases List.mem_append.1 hi with hi | hi
    · exact identifiers_legal (fun d hd => hd.identifier) k1 i hi
    · exact identifiers_legal (fun d hd => hd.identifier) k2 i hi

/-- Whatever is read in format 1 is what the glyph says. -/
theorem readFormat1_says {E : Env} {versions : List Int} {tree : Elem} {attrs : Dict Str PyVal} {calls : List Call} {f : Str} (htag : tree.tag = c!"glyph")
    (htext : textBlank tree.text = true) (hf : Dict.get? tree.attrib c!"format" = some f) (hv : pyInt f = some 1) (hvs : 1 ∈ versions)
    (h : readFormat E true true true 1 tree = .ok (attrs, calls)) : GlyphSays1 E.F versions tree (Dict.get? attrs) calls := by
  obtain ⟨name, s, s', hname, hs, hs', rfl, rfl⟩ := readFormat_parts h
  have hR : Result E 1 [(c!"name", .str name)] tree.children s := readChildren_result start_result hs
  obtain ⟨hfin, hcalls⟩ := finish_values hs'
  have hD := readChildren_dids hs
  obtain ⟨n1, n2, n3, n4, n5⟩ := hR.noLists rfl
  obtain ⟨u1, u2, u3⟩ := hR.delivered_unicodes
  refine ⟨head_says htag htext hf hv hvs hname hR hfin, ?_, ?_, ?_, ?_⟩
  · intro e he
    obtain ⟨a, b, hd⟩ := hD e he
    cases hd <;> (rename_i ht; simp_all)
  · rw [hfin.other _ (by decide)]
    rcases hR.image with ⟨-, h⟩ | ⟨e, h, -⟩
    · exact h
    · rw [n5] at h; cases h
  · rw [hfin.guidelines, n1, if_pos rfl, u2]
  · have ha : Dict.get? s'.attrs c!"anchors" = Dict.get? s.attrs c!"anchors" := by rw [hfin.anchors, n2, if_pos rfl]
    refine (hR.outline1 rfl).mono (fun e _ ⟨h1, as, h2, h3⟩ => ?_) fun h => by rw [hcalls, ha]; exact h
    obtain ⟨h4, h5⟩ := outlineOk_iff.1 h1
    obtain ⟨d, h6, h7⟩ := readOutline1_iff.1 h2
    exact ⟨h4, h5, as, d, h6, by rw [hcalls, h7], by rw [ha, h3, listOr]⟩

/-! ### What a glyph says is determined -/

theorem one_unique {l : List Elem} {R : Elem → PyVal → Prop} (hR : ∀ e v w, R e v → R e w → v = w) {a b : Option PyVal}
    (h : One l (fun e => ∃ v, R e v ∧ a = some v) (a = none)) (h' : One l (fun e => ∃ v, R e v ∧ b = some v) (b = none)) : a = b := by
  rcases h with ⟨h1, rfl⟩ | ⟨e, h1, v, h2, rfl⟩
  · rcases h' with ⟨-, rfl⟩ | ⟨e', h3, -⟩
    · rfl
    · rw [h1] at h3; cases h3
  · rcases h' with ⟨h3, -⟩ | ⟨e', h3, w, h4, rfl⟩
    · rw [h1] at h3; cases h3
    · rw [h1] at h3
      cases h3
      rw [hR e v w h2 h4]

theorem numberOr_unique {F : FloatCodec} {default : Int} {o : Option Str} {v w : PyVal} (h : NumberOr F default o v) (h' : NumberOr F default o w) : v = w := by
  have h1 := numberOr_iff.2 h
  rw [numberOr_iff.2 h'] at h1
  cases h1; rfl

theorem says_unique {base : Nat} {s : Str} {i j : Int} (hb : base = 10 ∨ base = 16) (h : Says base s i) (h' : Says base s j) : i = j := by
  rcases hb with rfl | rfl
  · have h1 := pyInt_iff.2 h
    rw [pyInt_iff.2 h'] at h1
    cases h1; rfl
  · have h1 := pyInt16_iff.2 h
    rw [pyInt16_iff.2 h'] at h1
    cases h1; rfl

theorem head_unique {F : FloatCodec} {versions : List Int} {v w : Int} {tree : Elem} {g g' : Str → Option PyVal} (h : HeadSays F versions v tree g) (h' : HeadSays F versions w tree g') :
    v = w ∧ ∀ k, k ∉ [c!"image", c!"guidelines", c!"anchors"] → g k = g' k := by
  constructor
  · obtain ⟨s, h1, h2⟩ := h.format
    obtain ⟨s', h3, h4⟩ := h'.format
    rw [h1] at h3
    cases h3
    exact says_unique (.inl rfl) h2 h4
  intro k hk
  by_cases hk' : k ∉ [c!"name", c!"unicodes", c!"width", c!"height", c!"note", c!"lib", c!"image", c!"guidelines", c!"anchors"]
  · rw [h.other k hk', h'.other k hk']
  rw [not_not] at hk'
  simp only [List.mem_cons, List.not_mem_nil, or_false] at hk'
  rcases hk' with rfl | rfl | rfl | rfl | rfl | rfl | rfl | rfl | rfl
  · obtain ⟨n, -, h1, h2⟩ := h.name
    obtain ⟨n', -, h3, h4⟩ := h'.name
    rw [h1] at h3
    cases h3
    rw [h2, h4]
  · obtain ⟨l, h1, h2⟩ := h.unicodes
    obtain ⟨l', h3, h4⟩ := h'.unicodes
    have : l = l' := forall₂_unique (fun e i j ⟨s, a, b⟩ ⟨s', c, d⟩ => by rw [a] at c; cases c; exact says_unique (.inr rfl) b d) h1 h3
    rw [h2, h4, this]
  · refine one_unique (l := named c!"advance" tree) (R := fun e w => NumberOr F 0 (attr e c!"width") w) (fun e v w => numberOr_unique) ?_ ?_
    · exact h.advance.mono (fun e _ ⟨w, _, a, _, b, _⟩ => ⟨w, a, b⟩) And.left
    · exact h'.advance.mono (fun e _ ⟨w, _, a, _, b, _⟩ => ⟨w, a, b⟩) And.left
  · refine one_unique (l := named c!"advance" tree) (R := fun e w => NumberOr F 0 (attr e c!"height") w) (fun e v w => numberOr_unique) ?_ ?_
    · exact h.advance.mono (fun e _ ⟨_, w, _, a, _, b⟩ => ⟨w, a, b⟩) And.right
    · exact h'.advance.mono (fun e _ ⟨_, w, _, a, _, b⟩ => ⟨w, a, b⟩) And.right
  · refine one_unique (l := named c!"note" tree) (R := fun e w => ∃ s lines, e.text = some (.str s) ∧ NoteLines s lines ∧ w = .str (join ['\n'] lines)) ?_ ?_ ?_
    · rintro e v w ⟨s, l, h1, h2, rfl⟩ ⟨s', l', h3, h4, rfl⟩
      rw [h1] at h3
      cases h3
      rw [noteLines_spec.1 h2, noteLines_spec.1 h4]
    · exact h.note.mono (fun e _ ⟨s, l, a, b, c⟩ => ⟨_, ⟨s, l, a, b, rfl⟩, c⟩) id
    · exact h'.note.mono (fun e _ ⟨s, l, a, b, c⟩ => ⟨_, ⟨s, l, a, b, rfl⟩, c⟩) id
  · refine one_unique (R := fun e v => LibSays F e v) ?_ h.lib h'.lib
    rintro e v w ⟨p, d, h1, h2, -⟩ ⟨p', d', h3, h4, -⟩
    rw [h1] at h3
    cases h3
    rw [h2] at h4
    cases h4
    rfl
  all_goals simp at hk

theorem list_unique {F : FloatCodec} {numbers : List Str} {P : List (PyVal × PyVal) → Prop} {es : List Elem} {l l' : List PyVal}
    (h : List.Forall₂ (fun e v => ∃ d, v = .dict d ∧ DictSays F numbers e d ∧ P d) es l) (h' : EntriesSay F numbers es l') : l = l' :=
  forall₂_unique (P := fun e (v : PyVal) => ∃ d, v = .dict d ∧ DictSays F numbers e d)
    (fun e v w ⟨d, a, b⟩ ⟨d', a', b'⟩ => by subst a; subst a'; rw [entries_unique b.2 b'.2]) (h.imp fun e v ⟨d, a, b, _⟩ => ⟨d, a, b⟩) h'

theorem image_unique {F : FloatCodec} {e : Elem} {v w : PyVal} (h : ImageSays F e v) (h' : ImageSays F e w) : v = w := by
  obtain ⟨d, ⟨-, hd⟩, rfl⟩ := h
  obtain ⟨d', ⟨-, hd'⟩, rfl⟩ := h'
  rw [entries_unique hd hd']

/-- The identifiers of the outline are among those of the glyph. -/
theorem outline_fresh {tree e : Elem} (h : (glyphIdentifiers tree).Nodup ∧ ∀ i ∈ glyphIdentifiers tree, LegalIdentifier i) (he : named c!"outline" tree = [e]) :
    NewIds [] (outlineIdentifiers e.children) := by
  have hp := glyphIdentifiers_perm tree.children
  have he' : pick c!"outline" tree.children = [e] := he
  rw [he'] at hp
  simp only [List.flatMap_cons, List.flatMap_nil, List.append_nil] at hp
  have hn : (glyphIdentifiers tree).Nodup := h.1
  refine ⟨(List.nodup_append.1 (hp.nodup_iff.1 hn)).1, fun i hi => ⟨by simp, h.2 i (hp.mem_iff.2 (List.mem_append_left _ hi))⟩⟩

theorem says2_unique {E : Env} {versions : List Int} {tree : Elem} {g g' : Str → Option PyVal} {calls calls' : List Call} (h : GlyphSays2 E.F versions tree g calls)
    (h' : GlyphSays2 E.F versions tree g' calls') : g = g' ∧ calls = calls' := by
  constructor
  · funext k
    by_cases hk : k ∉ [c!"image", c!"guidelines", c!"anchors"]
    · exact (head_unique h.toHeadSays h'.toHeadSays).2 k hk
    rw [not_not] at hk
    simp only [List.mem_cons, List.not_mem_nil, or_false] at hk
    rcases hk with rfl | rfl | rfl
    · refine one_unique (l := named c!"image" tree) (R := fun e v => ImageSays E.F e v) (fun e v w => image_unique) ?_ ?_
      · exact h.image.mono (fun e _ ⟨v, a, _, b⟩ => ⟨v, a, b⟩) id
      · exact h'.image.mono (fun e _ ⟨v, a, _, b⟩ => ⟨v, a, b⟩) id
    · obtain ⟨l, h1, h2⟩ := h.guidelines
      obtain ⟨l', h3, h4⟩ := h'.guidelines
      rw [h2, h4, list_unique h1 (h3.imp fun e v ⟨d, a, b, _⟩ => ⟨d, a, b⟩)]
    · obtain ⟨l, h1, h2⟩ := h.anchors
      obtain ⟨l', h3, h4⟩ := h'.anchors
      rw [h2, h4, list_unique h1 (h3.imp fun e v ⟨d, a, b, _⟩ => ⟨d, a, b⟩)]
  · rcases h.outline with ⟨h1, rfl⟩ | ⟨e, h1, -, -, d, h2, rfl⟩
    · rcases h'.outline with ⟨-, rfl⟩ | ⟨e', h3, -⟩
      · rfl
      · rw [h1] at h3; cases h3
    · rcases h'.outline with ⟨h3, -⟩ | ⟨e', h3, -, -, d', h4, rfl⟩
      · rw [h1] at h3; cases h3
      · rw [h1] at h3
        cases h3
        have hf := outline_fresh h.identifiers h1
        have k1 : readOutline2 E true [] e.children = .ok (drawing d, [] ++ outlineIdentifiers e.children) := readOutline2_iff.2 ⟨⟨d, h2, rfl⟩, rfl, hf⟩
        have k2 : readOutline2 E true [] e.children = .ok (drawing d', [] ++ outlineIdentifiers e.children) := readOutline2_iff.2 ⟨⟨d', h4, rfl⟩, rfl, hf⟩
        rw [k1] at k2
        simp only [Except.ok.injEq, Prod.mk.injEq, and_true] at k2
        exact k2

theorem says1_unique {E : Env} {versions : List Int} {tree : Elem} {g g' : Str → Option PyVal} {calls calls' : List Call} (h : GlyphSays1 E.F versions tree g calls)
    (h' : GlyphSays1 E.F versions tree g' calls') : g = g' ∧ calls = calls' := by
  have key : g c!"anchors" = g' c!"anchors" ∧ calls = calls' := by
    rcases h.outline with ⟨h1, rfl, h2⟩ | ⟨e, h1, -, -, as, d, h2, rfl, h3⟩
    · rcases h'.outline with ⟨-, rfl, h4⟩ | ⟨e', h4, -⟩
      · rw [h2, h4]; exact ⟨rfl, rfl⟩
      · rw [h1] at h4; cases h4
    · rcases h'.outline with ⟨h4, -⟩ | ⟨e', h4, -, -, as', d', h5, rfl, h6⟩
      · rw [h1] at h4; cases h4
      · rw [h1] at h4
        cases h4
        have k1 : readOutline1 E true true e.children = .ok (as, drawing d) := readOutline1_iff.2 ⟨d, h2, rfl⟩
        have k2 : readOutline1 E true true e.children = .ok (as', drawing d') := readOutline1_iff.2 ⟨d', h5, rfl⟩
        rw [k1] at k2
        simp only [Except.ok.injEq, Prod.mk.injEq] at k2
        exact ⟨by rw [h3, h6, k2.1], k2.2⟩
  refine ⟨?_, key.2⟩
  funext k
  by_cases hk : k ∉ [c!"image", c!"guidelines", c!"anchors"]
  · exact (head_unique h.toHeadSays h'.toHeadSays).2 k hk
  rw [not_not] at hk
  simp only [List.mem_cons, List.not_mem_nil, or_false] at hk
  rcases hk with rfl | rfl | rfl
  · rw [h.image, h'.image]
  · rw [h.guidelines, h'.guidelines]
  · exact key.1

/-! ### Success -/

theorem readName_of {tree : Elem} {n : Str} (h : n ≠ []) (h' : Dict.get? tree.attrib c!"name" = some n) : readName true true tree = .ok [(c!"name", .str n)] := by
  unfold readName
  rw [h']
  cases n with
  | nil => exact absurd rfl h
  | cons c cs => rfl

theorem says2_succeeds {E : Env} {versions : List Int} {tree : Elem} {g : Str → Option PyVal} {calls : List Call} (ht : DistinctAttributes tree)
    (h : GlyphSays2 E.F versions tree g calls) : ∃ r, readFormat E true true true 2 tree = .ok r := by
  obtain ⟨n, n1, n2, -⟩ := h.name
  have hd : ∀ t, ∀ e ∈ named t tree, (Dict.keys e.attrib).Nodup := fun t e he => ht e (mem_named.1 he).1
  have hgc : ∀ e ∈ named c!"guideline" tree, e.children = [] ∧ ∃ d, readEntry E.F [c!"x", c!"y", c!"angle"] e.attrib = .ok d := by
    intro e he
    obtain ⟨l, h1, -⟩ := h.guidelines
    obtain ⟨v, -, d, -, h2, -⟩ := forall₂_left h1 e he
    exact ⟨h2.1, d, readEntry_iff.2 h2.2⟩
  have hac : ∀ e ∈ named c!"anchor" tree, e.children = [] ∧ ∃ d, readEntry E.F [c!"x", c!"y"] e.attrib = .ok d := by
    intro e he
    obtain ⟨l, h1, -⟩ := h.anchors
    obtain ⟨v, -, d, -, h2, -⟩ := forall₂_left h1 e he
    exact ⟨h2.1, d, readEntry_iff.2 h2.2⟩
  have hfine : ∀ e ∈ tree.children, Fine E e := by
    intro e he
    have hk := h.known e he
    simp only [List.mem_cons, List.not_mem_nil, or_false] at hk
    rcases hk with hk | hk | hk | hk | hk | hk | hk | hk
    all_goals have hm := mem_named.2 ⟨he, hk⟩
    · rcases h.outline with ⟨h1, -⟩ | ⟨e', h1, a, b, d, h2, -⟩
      · rw [h1] at hm; cases hm
      · have hf := outline_fresh h.identifiers h1
        rw [h1, List.mem_singleton] at hm
        subst hm
        exact .outline hk (outlineOk_iff.2 ⟨a, b⟩) _ _ (readOutline2_iff.2 ⟨⟨d, h2, rfl⟩, rfl, hf⟩)
    · obtain ⟨w, x, a, b, -⟩ := h.advance.mem hm
      exact .advance hk w x (readAdvance_iff.2 ⟨a, b⟩)
    · obtain ⟨l, h1, -⟩ := h.unicodes
      obtain ⟨i, -, h2⟩ := forall₂_left h1 e hm
      exact .unicode hk i (readHex_iff.2 h2)
    · obtain ⟨s, l, a, b, -⟩ := h.note.mem hm
      exact .note hk _ (readNote_iff.2 ⟨s, l, a, b, rfl⟩)
    · obtain ⟨v, a, -⟩ := h.lib.mem hm
      exact .lib hk v (readLib_iff.2 a)
    · obtain ⟨a, d, b⟩ := hgc e hm
      exact .guideline hk a d b
    · obtain ⟨a, d, b⟩ := hac e hm
      exact .anchor hk a d b
    · obtain ⟨v, a, b, -⟩ := h.image.mem hm
      obtain ⟨d, ⟨hc, -⟩, -⟩ := id a
      exact .image hk hc v ((readImage_iff hc (hd _ e hm)).2 ⟨a, b⟩)
  obtain ⟨s, hs⟩ := readChildren_fine (start_result (E := E) (name := n)) hfine (by
    intro t htt
    simp only [List.mem_cons, List.not_mem_nil, or_false] at htt
    rw [List.nil_append]
    rcases htt with rfl | rfl | rfl | rfl | rfl
    · exact h.outline.length
    · exact h.advance.length
    · exact h.note.length
    · exact h.lib.length
    · exact h.image.length)
  have hR : Result E 2 [(c!"name", .str n)] tree.children s := readChildren_result start_result hs
  have hG := result_lists hR (fun e he => (hgc e he).1) fun e he => (hac e he).1
  obtain ⟨hp, -⟩ := result_identifiers hR ht (fun e he => (hgc e he).1) fun e he => (hac e he).1
  have hn := hp.nodup_iff.1 h.identifiers.1
  rw [List.nodup_append] at hn
  obtain ⟨s', hs'⟩ := (finish_iff (E := E) (entries_dictKeys hG.1 (hd _)) (entries_dictKeys hG.2 (hd _))).2 (by
    refine ⟨?_, ?_, hn.2.1, fun i hi hc => hn.2.2 i hc i hi rfl⟩
    · obtain ⟨l, h1, -⟩ := h.guidelines
      rw [← list_unique h1 hG.1]
      intro v hv
      obtain ⟨e, -, d, h2, -, h3⟩ := forall₂_left h1.flip v hv
      exact ⟨d, h2, h3⟩
    · obtain ⟨l, h1, -⟩ := h.anchors
      rw [← list_unique h1 hG.2]
      intro v hv
      obtain ⟨e, -, d, h2, -, h3⟩ := forall₂_left h1.flip v hv
      exact ⟨d, h2, h3⟩)
  refine ⟨(s'.attrs, s'.calls), ?_⟩
  unfold readFormat
  rw [readName_of n1 n2]
  simp only [hs, hs']

theorem outline1_anchors {F : FloatCodec} {es : List Elem} {as : List PyVal} {d : List Item} (h : OutlineSays1 F es as d) :
    ∀ a ∈ as, ∃ x y n, a = anchorOf x y n ∧ Printable x ∧ Printable y := by
  have num : ∀ {s v}, Number F s v → Printable v := by
    rintro s v (⟨i, -, rfl⟩ | ⟨-, f, -, rfl⟩)
    · exact .inl ⟨i, rfl⟩
    · exact .inr ⟨f, rfl⟩
  induction h with
  | nil => nofun
  | cons e es as as' d d' h _ ih =>
    intro a ha
    rcases List.mem_append.1 ha with ha | ha
    · cases h with
      | anchor v h =>
        rw [List.mem_singleton] at ha
        subst ha
        obtain ⟨p, n, sx, sy, x, y, -, -, -, -, -, -, h1, h2, rfl⟩ := h.point
        exact ⟨x, y, n, rfl, num h1, num h2⟩
      | contour => cases ha
      | component => cases ha
    · exact ih a ha

theorem says1_succeeds {E : Env} {versions : List Int} {tree : Elem} {g : Str → Option PyVal} {calls : List Call}
    (h : GlyphSays1 E.F versions tree g calls) : ∃ r, readFormat E true true true 1 tree = .ok r := by
  obtain ⟨n, n1, n2, -⟩ := h.name
  have hfine : ∀ e ∈ tree.children, Fine1 E e := by
    intro e he
    have hk := h.known e he
    simp only [List.mem_cons, List.not_mem_nil, or_false] at hk
    rcases hk with hk | hk | hk | hk | hk
    all_goals have hm := mem_named.2 ⟨he, hk⟩
    · obtain ⟨a, b, as, d, h2, -⟩ := h.outline.mem hm
      exact .outline hk (outlineOk_iff.2 ⟨a, b⟩) as _ (readOutline1_iff.2 ⟨d, h2, rfl⟩) fun _ => anchorsOf_valid (outline1_anchors h2)
    · obtain ⟨w, x, a, b, -⟩ := h.advance.mem hm
      exact .advance hk w x (readAdvance_iff.2 ⟨a, b⟩)
    · obtain ⟨l, h1, -⟩ := h.unicodes
      obtain ⟨i, -, h2⟩ := forall₂_left h1 e hm
      exact .unicode hk i (readHex_iff.2 h2)
    · obtain ⟨s, l, a, b, -⟩ := h.note.mem hm
      exact .note hk _ (readNote_iff.2 ⟨s, l, a, b, rfl⟩)
    · obtain ⟨v, a, -⟩ := h.lib.mem hm
      exact .lib hk v (readLib_iff.2 a)
  obtain ⟨s, hs⟩ := readChildren_fine1 (start_result (E := E) (name := n)) hfine (by
    intro t htt
    simp only [List.mem_cons, List.not_mem_nil, or_false] at htt
    rw [List.nil_append]
    rcases htt with rfl | rfl | rfl | rfl
    · exact h.outline.length
    · exact h.advance.length
    · exact h.note.length
    · exact h.lib.length)
  have hR : Result E 1 [(c!"name", .str n)] tree.children s := readChildren_result start_result hs
  obtain ⟨n3, n4, -⟩ := hR.noLists rfl
  obtain ⟨s', hs'⟩ := finish_one (E := E) n3 n4
  refine ⟨(s'.attrs, s'.calls), ?_⟩
  unfold readFormat
  rw [readName_of n1 n2]
  simp only [hs, hs']

/-- The head of reading. -/
theorem readGlyphTree_iff {E : Env} {versions : List Int} {tree : Elem} {r : Dict Str PyVal × List Call} : readGlyphTree E true true true versions tree = .ok r ↔
    tree.tag = c!"glyph" ∧ textBlank tree.text = true ∧ ∃ s, Dict.get? tree.attrib c!"format" = some s ∧
      ((1 ∈ versions ∧ pyInt s = some 1 ∧ readFormat E true true true 1 tree = .ok r) ∨ (2 ∈ versions ∧ pyInt s = some 2 ∧ readFormat E true true true 2 tree = .ok r)) := by
  unfold readGlyphTree
  by_cases h1 : tree.tag = c!"glyph"
  swap
  · simp [h1]
  by_cases h2 : textBlank tree.text = true
  swap
  · simp [h1, h2]
  simp only [h1, h2, ne_eq, not_true_eq_false, if_false, Bool.not_true, Bool.false_eq_true, true_and]
  cases h3 : Dict.get? tree.attrib c!"format" with
  | none => simp
  | some s =>
    simp only [Option.some.injEq, exists_eq_left']
    cases h4 : pyInt s with
    | none => simp
    | some v =>
      simp only [Option.some.injEq]
      by_cases h5 : v ∈ versions
      swap
      · simp only [Bool.true_and, h5, decide_false, Bool.not_false, if_true, reduceCtorEq, false_iff]
        rintro (⟨a, rfl, -⟩ | ⟨a, rfl, -⟩) <;> exact h5 a
      · simp only [Bool.true_and, h5, decide_true, Bool.not_true, Bool.false_eq_true, if_false]
        by_cases e1 : v = 1
        · subst e1; simp [h5]
        · by_cases e2 : v = 2
          · subst e2; simp [h5]
          · simp [e1, e2]

end Verif.Glif
