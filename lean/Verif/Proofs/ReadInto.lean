import Verif.Model.ReadInto
import Verif.Proofs.FontInfo1
/-! Lemmas for C132. -/
namespace Verif.Proofs.ReadInto
open Verif Verif.Glif Verif.ReadInto

theorem populate_ok : ∀ (d : Dict Str PyVal) (t : Target), Dict.WF d → (∀ k ∈ Dict.keys d, t.accepts k = true) →
    ∃ t', populate t d = (t', .ok ()) ∧ t'.accepts = t.accepts ∧ ∀ k, t'.attrs k = (Dict.get? d k).or (t.attrs k)
  | [], t, _, _ => ⟨t, rfl, rfl, fun k => rfl⟩
  | (k, v) :: d, t, hw, ha => by
    obtain ⟨hk, hw'⟩ : k ∉ Dict.keys d ∧ Dict.WF d := by
      simpa [Dict.WF, Dict.keys, List.nodup_cons] using hw
    obtain ⟨t', h1, h2, h3⟩ := populate_ok d { t with attrs := fun k' => if k' = k then some v else t.attrs k' } hw' fun k' hk' => ha k' (List.mem_cons_of_mem _ hk')
    refine ⟨t', ?_, h2, fun k' => ?_⟩
    · unfold populate Target.set
      rw [if_pos (ha k List.mem_cons_self)]
      exact h1
    · rw [h3 k']
      dsimp only
      by_cases e : k' = k
      · subst e
        rw [Dict.get?_eq_none_iff.2 hk, if_pos rfl]
        simp [Dict.get?]
      · rw [if_neg e]
        simp [Dict.get?, Ne.symm e]

theorem populate_refused : ∀ (d : Dict Str PyVal) (t : Target), Dict.WF d → (∃ k ∈ Dict.keys d, t.accepts k = false) →
    ∃ t' pre, populate t d = (t', .error .ufoLibError) ∧ pre <+: d ∧ (∀ k ∈ Dict.keys pre, t.accepts k = true) ∧ ∀ k, t'.attrs k = (Dict.get? pre k).or (t.attrs k)
  | [], t, _, ⟨k, hk, _⟩ => by cases hk
  | (k, v) :: d, t, hw, h => by
    obtain ⟨hk, hw'⟩ : k ∉ Dict.keys d ∧ Dict.WF d := by
      simpa [Dict.WF, Dict.keys, List.nodup_cons] using hw
    by_cases ha : t.accepts k = true
    · obtain ⟨t', pre, h1, h2, h3, h4⟩ := populate_refused d { t with attrs := fun k' => if k' = k then some v else t.attrs k' } hw' (by
        obtain ⟨k', hk', hr⟩ := h
        rcases List.mem_cons.1 hk' with rfl | hk'
        · rw [ha] at hr; cases hr
        · exact ⟨k', hk', hr⟩)
      refine ⟨t', (k, v) :: pre, ?_, List.cons_prefix_cons.2 ⟨rfl, h2⟩, ?_, fun k' => ?_⟩
      · unfold populate Target.set
        rw [if_pos ha]
        exact h1
      · intro k' hk'
        rcases List.mem_cons.1 hk' with rfl | hk'
        · exact ha
        · exact h3 k' hk'
      · rw [h4 k']
        dsimp only
        have hk2 : k ∉ Dict.keys pre := fun hh => hk ((h2.map Prod.fst).subset hh)
        by_cases e : k' = k
        · subst e
          rw [Dict.get?_eq_none_iff.2 hk2, if_pos rfl]
          simp [Dict.get?]
        · rw [if_neg e]
          simp [Dict.get?, Ne.symm e]
    · refine ⟨t, [], ?_, List.nil_prefix, fun k hk => (by cases hk), fun k => rfl⟩
      unfold populate Target.set
      rw [if_neg ha]

/-! ### The data of fontinfo.plist have each attribute once. -/

theorem convertData23_keys : ∀ {d r : Dict Str PyVal}, FontInfo.convertData23 d = .ok r → Dict.keys r = Dict.keys d
  | [], r, h => by cases h; rfl
  | (k, v) :: d, r, h => by
    unfold FontInfo.convertData23 at h
    split at h
    · cases h
    · split at h
      · cases h
      · next hr =>
        cases h
        have := convertData23_keys hr
        simp only [Dict.keys, List.map_cons] at this ⊢
        rw [this]

theorem validateData_same {E : FontInfo.Env} {table : Dict Str FontInfo.Kind} : ∀ {d r : Dict Str PyVal}, FontInfo.validateData E table d = .ok r → r = d
  | [], r, h => by cases h; rfl
  | (k, v) :: d, r, h => by
    unfold FontInfo.validateData at h
    split at h
    · cases h
    · cases h
    · split at h
      · cases h
      · next hr =>
        cases h
        rw [validateData_same hr]

theorem convertData12_wf : ∀ (d : Dict Str PyVal) {c r : Dict Str PyVal}, Dict.WF c → FontInfo.convertData12 c d = .ok r → Dict.WF r
  | [], c, r, hc, h => by cases h; exact hc
  | (k, v) :: d, c, r, hc, h => by
    unfold FontInfo.convertData12 at h
    split at h
    · exact convertData12_wf d hc h
    · split at h
      · cases h
      · split at h
        · exact convertData12_wf d hc h
        · split at h
          · cases h
          · exact convertData12_wf d (Dict.wf_set hc _ _) h

theorem readInfo_wf {E : FontInfo.Env} {version : Nat} {validate : Bool} {d r : Dict Str PyVal} (h : FontInfo.readInfo E version validate d = .ok r) : Dict.WF r := by
  unfold FontInfo.readInfo at h
  have key : ∀ data : Except Exc (Dict Str PyVal), (∀ x, data = .ok x → Dict.WF x) → (do let data ← data; if validate then FontInfo.validateData E FontInfo.table3 data else .ok data) = .ok r →
      Dict.WF r := by
    intro data hd h
    cases data with
    | error e => cases h
    | ok x =>
      have h' : (if validate then FontInfo.validateData E FontInfo.table3 x else .ok x) = .ok r := h
      split at h'
      · rw [validateData_same h']; exact hd _ rfl
      · cases h'; exact hd _ rfl
  refine key _ (fun x hx => ?_) h
  split at hx
  · cases h12 : FontInfo.convertData12 [] (FontInfo.gather (Dict.get? d) FontInfo.attributes1) with
    | error e => rw [h12] at hx; cases hx
    | ok y =>
      rw [h12] at hx
      have hx' : FontInfo.convertData23 y = .ok x := hx
      have := convertData12_wf _ (show Dict.WF ([] : Dict Str PyVal) by simp [Dict.WF, Dict.keys]) h12
      unfold Dict.WF at this ⊢
      rw [convertData23_keys hx']
      exact this
  · unfold Dict.WF
    rw [convertData23_keys hx]
    exact (FontInfo.keys_gather _ _).nodup FontInfo.wf_table2
  · cases hx
    exact (FontInfo.keys_gather _ _).nodup FontInfo.wf_table3
  · cases hx

theorem info_wf {E : FontInfo.Env} {fs : FS} {version : Int} {validate : Bool} {data : Dict Str PyVal} (h : Ufo.readInfo E fs version validate = .ok data) : Dict.WF data := by
  unfold Ufo.readInfo at h
  split at h
  · cases h
  · split at h
    · cases h
    · exact readInfo_wf h
  · cases h

/-! ### Glyphs. -/

theorem childrenInto_snd {E : Glif.Env} {validate : Bool} {fv : Nat} : ∀ (es : List Elem) (s : Collected),
    (childrenInto E validate fv s es).2 = readChildren E validate true true fv s es ∧ ∀ s', readChildren E validate true true fv s es = .ok s' → (childrenInto E validate fv s es).1 = s'.attrs
  | [], s => ⟨rfl, fun s' h => by cases h; rfl⟩
  | e :: es, s => by
    unfold childrenInto readChildren
    cases readChild E validate true true fv s e with
    | error x => exact ⟨rfl, fun s' h => by cases h⟩
    | ok s1 => exact childrenInto_snd es s1

theorem finishInto_snd {E : Glif.Env} {validate : Bool} (s : Collected) :
    (finishInto E validate s).2 = s.finish E validate ∧ ∀ s', s.finish E validate = .ok s' → (finishInto E validate s).1 = s'.attrs := by
  unfold finishInto Collected.finish
  dsimp only
  split
  · next h => rw [h]; exact ⟨rfl, fun s' h => by cases h⟩
  · next s1 h =>
    rw [h]
    dsimp only
    split
    · next h2 => rw [h2]; exact ⟨rfl, fun s' h => by cases h⟩
    · next s2 h2 => rw [h2]; exact ⟨rfl, fun s' h => by cases h; rfl⟩

theorem formatInto_snd {E : Glif.Env} {validate : Bool} {fv : Nat} (tree : Elem) :
    (formatInto E validate fv tree).2 = (readFormat E validate true true fv tree).map Prod.snd ∧
    ∀ r, readFormat E validate true true fv tree = .ok r → (formatInto E validate fv tree).1 = r.1 := by
  unfold formatInto readFormat
  cases readName validate true tree with
  | error x => exact ⟨rfl, fun s' h => by cases h⟩
  | ok attrs =>
    dsimp only
    obtain ⟨h1, -⟩ := childrenInto_snd (E := E) (validate := validate) (fv := fv) tree.children ⟨attrs, [], [], [], [], [], []⟩
    cases hc : childrenInto E validate fv ⟨attrs, [], [], [], [], [], []⟩ tree.children with
    | mk d r =>
      rw [hc] at h1
      rw [← show r = _ from h1]
      cases r with
      | error x => exact ⟨rfl, fun s' h => by cases h⟩
      | ok s =>
        dsimp only
        obtain ⟨h2, h3⟩ := finishInto_snd (E := E) (validate := validate) s
        cases hf : finishInto E validate s with
        | mk d' r' =>
          rw [hf] at h2 h3
          cases r' with
          | error x => rw [← show Except.error x = _ from h2]; exact ⟨rfl, fun s' h => by cases h⟩
          | ok s' =>
            have h2' : Collected.finish E validate s = .ok s' := h2.symm
            rw [h2']
            exact ⟨rfl, fun r hr => by cases hr; exact h3 s' h2'⟩

theorem treeInto_snd {E : Glif.Env} {validate : Bool} {versions : List Int} (tree : Elem) :
    (treeInto E validate versions tree).2 = (readGlyphTree E validate true true versions tree).map Prod.snd ∧
    ∀ r, readGlyphTree E validate true true versions tree = .ok r → (treeInto E validate versions tree).1 = r.1 := by
  unfold treeInto readGlyphTree
  have no : ∀ x : Exc, (([], .error x) : Dict Str PyVal × Except Exc (List Call)).2 = (Except.error x : Except Exc (Dict Str PyVal × List Call)).map Prod.snd ∧
      ∀ r, (Except.error x : Except Exc (Dict Str PyVal × List Call)) = .ok r → (([], .error x) : Dict Str PyVal × Except Exc (List Call)).1 = r.1 :=
    fun x => ⟨rfl, fun r h => by cases h⟩
  by_cases h1 : tree.tag ≠ c!"glyph"
  · rw [if_pos h1, if_pos h1]; exact no _
  · rw [if_neg h1, if_neg h1]
    by_cases h2 : (!textBlank tree.text) = true
    · rw [if_pos h2, if_pos h2]; exact no _
    · rw [if_neg h2, if_neg h2]
      cases Dict.get? tree.attrib c!"format" with
      | none => exact no _
      | some x =>
        dsimp only
        cases pyInt x with
        | none => exact no _
        | some v =>
          dsimp only
          by_cases h3 : (validate && !decide (v ∈ versions)) = true
          · rw [if_pos h3, if_pos h3]; exact no _
          · rw [if_neg h3, if_neg h3]
            by_cases h4 : v = 1
            · rw [if_pos h4, if_pos h4]; exact formatInto_snd tree
            · rw [if_neg h4, if_neg h4]
              by_cases h5 : v = 2
              · rw [if_pos h5, if_pos h5]; exact formatInto_snd tree
              · rw [if_neg h5, if_neg h5]; exact no _

/-! ### Only the attributes of glyphs are set. -/

/-- The attributes of glyphs. -/
def glyphAttrs : List Str := [c!"name", c!"width", c!"height", c!"unicodes", c!"note", c!"image", c!"guidelines", c!"anchors", c!"lib"]

/-- Nothing else is there. -/
def Within (d : Dict Str PyVal) : Prop := ∀ k, k ∉ glyphAttrs → Dict.get? d k = none

theorem within_set {d : Dict Str PyVal} (h : Within d) {k : Str} (hk : k ∈ glyphAttrs) (v : PyVal) : Within (Dict.set d k v) := by
  intro k' hk'
  rw [Dict.get?_set, if_neg (show ¬ k = k' from fun e => hk' (e ▸ hk))]
  exact h k' hk'

theorem once_attrs {s s' : Collected} {validate : Bool} {tag : Str} (h : s.once validate tag = .ok s') : s'.attrs = s.attrs := by
  unfold Collected.once at h
  split at h <;> cases h
  rfl

theorem readChild_within {E : Glif.Env} {validate : Bool} {fv : Nat} {s s' : Collected} {e : Elem} (hs : Within s.attrs) (h : readChild E validate true true fv s e = .ok s') :
    Within s'.attrs := by
  unfold readChild at h
  split at h
  · unfold Collected.outline at h
    split at h
    · cases h
    · next s1 h1 =>
      rw [← once_attrs h1] at hs
      split at h
      · cases h
      · split at h
        · unfold Collected.outline1 at h
          split at h
          · cases h
          · dsimp only at h
            split at h
            · split at h
              · cases h
              · cases h
                exact within_set hs (by decide) _
            · cases h
              exact hs
        · unfold Collected.outline2 at h
          split at h
          · split at h
            · cases h
            · cases h
              exact hs
          · cases h
            exact hs
  · split at h
    · cases h; exact hs
    · split at h
      · unfold Collected.advance at h
        split at h
        · cases h
        · next s1 h1 =>
          rw [← once_attrs h1] at hs
          split at h
          · cases h
          · cases h
            exact within_set (within_set hs (by decide) _) (by decide) _
      · split at h
        · unfold Collected.unicode at h
          split at h
          · cases h
          · cases h
            split <;> exact hs
        · split at h
          · unfold Collected.note at h
            split at h
            · cases h
            · next s1 h1 =>
              rw [← once_attrs h1] at hs
              split at h
              · cases h
              · cases h
                exact within_set hs (by decide) _
          · split at h
            · unfold Collected.lib at h
              split at h
              · cases h
              · next s1 h1 =>
                rw [← once_attrs h1] at hs
                split at h
                · cases h
                · cases h
                  exact within_set hs (by decide) _
            · split at h
              · unfold Collected.guideline at h
                split at h
                · cases h
                · split at h
                  · cases h
                  · cases h; exact hs
              · split at h
                · unfold Collected.anchor at h
                  split at h
                  · cases h
                  · split at h
                    · cases h
                    · cases h; exact hs
                · split at h
                  · unfold Collected.image at h
                    split at h
                    · cases h
                    · next s1 h1 =>
                      rw [← once_attrs h1] at hs
                      split at h
                      · cases h
                      · split at h
                        · cases h
                        · cases h
                          exact within_set hs (by decide) _
                  · cases h

theorem childSets_within {E : Glif.Env} {validate : Bool} {s : Collected} {e : Elem} (hs : Within s.attrs) : Within (childSets E validate s e) := by
  unfold childSets
  split
  · split
    · exact hs
    · next s1 h1 =>
      rw [← once_attrs h1] at hs
      split
      · exact hs
      · exact within_set hs (by decide) _
  · exact hs

theorem childrenInto_within {E : Glif.Env} {validate : Bool} {fv : Nat} : ∀ (es : List Elem) (s : Collected), Within s.attrs → Within (childrenInto E validate fv s es).1 ∧
    ∀ s', (childrenInto E validate fv s es).2 = .ok s' → Within s'.attrs
  | [], s, hs => ⟨hs, fun s' h => by cases h; exact hs⟩
  | e :: es, s, hs => by
    unfold childrenInto
    cases hc : readChild E validate true true fv s e with
    | error x => exact ⟨childSets_within hs, fun s' h => by cases h⟩
    | ok s1 => exact childrenInto_within es s1 (readChild_within hs hc)

theorem setList_within {s s' : Collected} {validate : Bool} {name : Str} {l : List PyVal} {verdict : Bool × List Str} (hs : Within s.attrs) (hn : name ∈ glyphAttrs)
    (h : s.setList validate name l verdict = .ok s') : Within s'.attrs := by
  unfold Collected.setList at h
  split at h
  · cases h; exact hs
  · split at h
    · cases h
    · cases h
      exact within_set hs hn _

theorem finishInto_within {E : Glif.Env} {validate : Bool} {s : Collected} (hs : Within s.attrs) : Within (finishInto E validate s).1 := by
  unfold finishInto
  dsimp only
  have h0 : Within (if s.unicodes.isEmpty then s else s.setAttr c!"unicodes" (.list (s.unicodes.map fun i => .int i))).attrs := by
    split
    · exact hs
    · exact within_set hs (by decide) _
  split
  · exact h0
  · next s1 h1 =>
    have h1' := setList_within h0 (by decide) h1
    split
    · exact h1'
    · next s2 h2 => exact setList_within h1' (by decide) h2

theorem treeInto_within {E : Glif.Env} {validate : Bool} {versions : List Int} (tree : Elem) : Within (treeInto E validate versions tree).1 := by
  have h0 : Within [] := fun k _ => rfl
  have hf : ∀ fv, Within (formatInto E validate fv tree).1 := by
    intro fv
    unfold formatInto
    cases hn : readName validate true tree with
    | error x => exact h0
    | ok attrs =>
      have ha : Within attrs := by
        unfold readName at hn
        split at hn
        · cases hn
          intro k hk
          have : c!"name" ≠ k := fun e => hk (e ▸ by decide)
          simp [Dict.get?, this]
        · split at hn <;> cases hn
          exact h0
      dsimp only
      obtain ⟨h1, h2⟩ := childrenInto_within (E := E) (validate := validate) (fv := fv) tree.children ⟨attrs, [], [], [], [], [], []⟩ ha
      cases hc : childrenInto E validate fv ⟨attrs, [], [], [], [], [], []⟩ tree.children with
      | mk d r =>
        rw [hc] at h1 h2
        cases r with
        | error x => exact h1
        | ok s =>
          have h3 := finishInto_within (E := E) (validate := validate) (h2 s rfl)
          dsimp only
          cases hfi : finishInto E validate s with
          | mk d' r' =>
            rw [hfi] at h3
            cases r' <;> exact h3
  unfold treeInto
  split
  · exact h0
  · split
    · exact h0
    · split
      · exact h0
      · split
        · exact h0
        · split
          · exact h0
          · split
            · exact hf 1
            · split
              · exact hf 2
              · exact h0

end Verif.Proofs.ReadInto
