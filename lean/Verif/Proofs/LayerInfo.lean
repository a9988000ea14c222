import Verif.Model.LayerInfo
import Verif.Spec.LayerInfo
import Verif.Proofs.UfoData
import Mathlib.Tactic.Tauto
/-! Lemmas about layer info. -/
namespace Verif.GlyphSet
open Verif Verif.FS Verif.IO Verif.Spec.LayerInfo Verif.Spec.GlyphSet Verif.Spec.Plist Verif.Spec.Ufo Verif.FontInfo Verif.Validators Verif.Ufo

theorem gather_mem {info : Str → Option PyVal} {attrs : List Str} {k v : PyVal} :
    (k, v) ∈ gatherLayerInfo info attrs ↔ ∃ attr ∈ attrs, k = .str attr ∧ Stores info attr v := by
  induction attrs with
  | nil => simp [gatherLayerInfo]
  | cons a attrs ih =>
    rw [gatherLayerInfo]
    have key : ∀ u, info a = some u → (u = .none ∨ (a = c!"lib" ∧ Ufo.truthy u = false) ↔ ¬ Stores info a u) := by
      intro u hu
      unfold Stores
      rw [← Bool.not_eq_true]
      tauto
    have uniq : ∀ u, info a = some u → ∀ w, Stores info a w → w = u := by
      intro u hu w hw
      have := hw.1
      rw [hu] at this
      cases this
      rfl
    split
    · rename_i hn
      rw [ih]
      simp only [List.mem_cons, exists_eq_or_imp]
      have : ¬ Stores info a v := fun h => by have := h.1; rw [hn] at this; cases this
      tauto
    · rename_i u hu
      split
      · rename_i hc
        rw [key u hu] at hc
        rw [ih]
        simp only [List.mem_cons, exists_eq_or_imp]
        have : ¬ Stores info a v := fun h => hc (uniq u hu v h ▸ h)
        tauto
      · rename_i hc
        rw [key u hu, not_not] at hc
        rw [List.mem_cons, ih]
        simp only [List.mem_cons, exists_eq_or_imp, Prod.mk.injEq]
        constructor
        · rintro (⟨rfl, rfl⟩ | h)
          · exact .inl ⟨rfl, hc⟩
          · exact .inr h
        · rintro (⟨rfl, h⟩ | h)
          · exact .inl ⟨rfl, uniq u hu v h⟩
          · exact .inr h

theorem gather_keys (info : Str → Option PyVal) (attrs : List Str) : List.Sublist ((gatherLayerInfo info attrs).map Prod.fst) (attrs.map PyVal.str) := by
  induction attrs with
  | nil => exact List.Sublist.refl _
  | cons a attrs ih =>
    rw [gatherLayerInfo]
    split
    · exact ih.cons _
    · split
      · exact ih.cons _
      · exact ih.cons_cons _

theorem gather_nodup (info : Str → Option PyVal) : ((gatherLayerInfo info layerInfoAttrs).map Prod.fst).Nodup :=
  (gather_keys info layerInfoAttrs).nodup (by decide)

theorem validateLayerInfo_iff {F : FloatCodec} {d : List (PyVal × PyVal)} :
    validateLayerInfo F d = .ok () ↔ ∀ e ∈ d, ∃ attr ∈ layerInfoAttrs, e.1 = .str attr ∧ layerInfoValid F attr e.2 = true := by
  induction d with
  | nil => simp [validateLayerInfo]
  | cons e d ih =>
    obtain ⟨k, v⟩ := e
    rw [List.forall_mem_cons]
    rw [← ih]
    cases k <;> try simp [validateLayerInfo]
    rename_i a
    by_cases h1 : a ∈ layerInfoAttrs
    · cases h2 : layerInfoValid F a v <;> simp [h1]
    · simp [h1]

theorem validateLayerInfo_error {F : FloatCodec} {d : List (PyVal × PyVal)} {e : Exc} (h : validateLayerInfo F d = .error e) : e = .glifLibError := by
  induction d with
  | nil => cases h
  | cons p d ih =>
    obtain ⟨k, v⟩ := p
    cases k <;> simp only [validateLayerInfo] at h <;> try (cases h; rfl)
    split at h
    · cases h; rfl
    · split at h
      · cases h; rfl
      · exact ih h

theorem valid_iff {F : FloatCodec} {info : Str → Option PyVal} : validateLayerInfo F (gatherLayerInfo info layerInfoAttrs) = .ok () ↔ Valid F info := by
  rw [validateLayerInfo_iff]
  have hc : ∀ v, layerInfoValid F c!"color" v = true ↔ ∃ s, v = .str s ∧ Spec.Validators.FourNumbers F (Spec.Validators.Within 0 1) s := by
    intro v
    rw [← color_iff]
    rfl
  have hl : ∀ v, layerInfoValid F c!"lib" v = true ↔ ∃ d, v = .dict d := by
    intro v
    rw [layerInfoValid, if_neg (by decide), if_pos rfl]
    cases v <;> simp [isDict]
  constructor
  · intro h
    refine ⟨fun v hv => ?_, fun v hv => ?_⟩
    · obtain ⟨a, -, h1, h2⟩ := h (.str c!"color", v) (gather_mem.2 ⟨_, by decide, rfl, hv⟩)
      cases h1
      exact (hc v).1 h2
    · obtain ⟨a, -, h1, h2⟩ := h (.str c!"lib", v) (gather_mem.2 ⟨_, by decide, rfl, hv⟩)
      cases h1
      exact (hl v).1 h2
  · rintro ⟨h1, h2⟩ ⟨k, v⟩ he
    obtain ⟨a, ha, hk, hs⟩ := gather_mem.1 he
    refine ⟨a, ha, hk, ?_⟩
    simp only [layerInfoAttrs, List.mem_cons, List.not_mem_nil, or_false] at ha
    rcases ha with rfl | rfl
    · exact (hc v).2 (h1 v hs)
    · exact (hl v).2 (h2 v hs)

theorem layerInfo_stored {F : FloatCodec} {d e : List (PyVal × PyVal)} (hs : StoredItems d e) (h : validateLayerInfo F d = .ok ()) : validateLayerInfo F e = .ok () := by
  rw [validateLayerInfo_iff] at h ⊢
  intro q hq
  obtain ⟨p, hp, h1, h2⟩ := hs.right q hq
  obtain ⟨a, ha, h3, h4⟩ := h p hp
  refine ⟨a, ha, h1.trans h3, ?_⟩
  simp only [layerInfoAttrs, List.mem_cons, List.not_mem_nil, or_false] at ha
  rcases ha with rfl | rfl
  · have h5 : Validators.colorValidator F p.2 = true := h4
    obtain ⟨s, hp2, -⟩ := color_iff.1 h5
    have : q.2 = p.2 := stored_atomic (by rw [hp2]; trivial) h2
    rw [this]; exact h4
  · rw [layerInfoValid, if_neg (by decide), if_pos rfl] at h4 ⊢
    rcases hv : p.2 with _ | _ | _ | _ | _ | _ | _ | _ | _ | d | _ <;> rw [hv] at h4 h2 <;> try cases h4
    obtain ⟨x, hx, -⟩ := stored_dict h2
    rw [hx]; rfl

theorem sameInfo_of {info : Str → Option PyVal} {e : List (PyVal × PyVal)} (h : StoredItems (gatherLayerInfo info layerInfoAttrs) e) : SameInfo info e := by
  have hmem : ∀ k, k ∈ Dict.keys e → ∃ v, (k, v) ∈ gatherLayerInfo info layerInfoAttrs := by
    intro k hk
    have : k ∈ (gatherLayerInfo info layerInfoAttrs).map Prod.fst := h.keys.mem_iff.2 hk
    obtain ⟨p, hp, rfl⟩ := List.mem_map.1 this
    exact ⟨p.2, hp⟩
  refine ⟨fun a ha v hv => ?_, fun a ha hv => ?_, fun k hk => ?_⟩
  · exact stored_get (gather_nodup info) h (Dict.get?_of_mem (gather_nodup info) (gather_mem.2 ⟨a, ha, rfl, hv⟩))
  · rw [Dict.get?_eq_none_iff]
    intro hk
    obtain ⟨v, hm⟩ := hmem _ hk
    obtain ⟨b, -, h1, h2⟩ := gather_mem.1 hm
    cases h1
    exact hv ⟨v, h2⟩
  · obtain ⟨v, hm⟩ := hmem _ hk
    obtain ⟨b, hb, h1, -⟩ := gather_mem.1 hm
    subst h1
    simpa [layerInfoAttrs] using hb

theorem gather_storable {info : Str → Option PyVal} (hs : ∀ attr ∈ [c!"color", c!"lib"], ∀ v, Stores info attr v → Storable v) :
    Storable (.dict (gatherLayerInfo info layerInfoAttrs)) := by
  have haux : ∀ d : List (PyVal × PyVal), (∀ e ∈ d, ∃ a, e.1 = .str a ∧ FileText a ∧ Storable e.2) → RepresentableItems FileText d ∧ WellFormedItems d := by
    intro d
    induction d with
    | nil => intro _; exact ⟨.nil, trivial⟩
    | cons e d ih =>
      intro h
      rw [List.forall_mem_cons] at h
      obtain ⟨⟨a, h1, h2, h3⟩, h4⟩ := h
      obtain ⟨h5, h6⟩ := ih h4
      obtain ⟨k, v⟩ := e
      simp only at h1 h3
      subst h1
      exact ⟨.cons _ _ _ h2 h3.1 h5, h3.2, h6⟩
  obtain ⟨h5, h6⟩ := haux (gatherLayerInfo info layerInfoAttrs) (by
    rintro ⟨k, v⟩ hm
    obtain ⟨a, ha, h1, hv⟩ := gather_mem.1 hm
    refine ⟨a, h1, ?_, hs a ha v hv⟩
    simp only [layerInfoAttrs, List.mem_cons, List.not_mem_nil, or_false] at ha
    rcases ha with rfl | rfl <;> exact ⟨by unfold XmlText; decide, by decide⟩)
  exact ⟨.dict _ h5, gather_nodup info, h6⟩

/-! ### effects -/

/-- Storable values are written into an existing directory, unless there is a directory of that name. -/
theorem writePlist_in (F : FloatCodec) (hF : F.Lawful) (hp : Bool) {fs : FS} {dir : Path} {n : Str} {v : PyVal} (hv : Storable v)
    (hdir : fs.node? dir = some .dir) (hn : fs.node? (dir ++ [n]) ≠ some .dir) : ∃ fs', writePlist F hp fs (dir ++ [n]) v = (fs', .ok ()) := by
  obtain ⟨data, w, h1, -⟩ := dump_ok F hF hv
  have hroot : ∀ b, (fs.perform (.write (fs.key (dir ++ [n])) b)).node? (dir ++ [n]).dropLast = some .dir := by
    intro b
    rw [List.dropLast_concat, node?_write _ _ _ _ (by simp), if_neg, hdir]
    intro h
    have := congrArg List.length h
    simp [FS.key] at this
  have hroot0 : fs.node? (dir ++ [n]).dropLast = some .dir := by rw [List.dropLast_concat]; exact hdir
  unfold writePlist
  cases hp
  · simp only [Bool.false_eq_true, if_false]
    rw [setbytes_of [] hroot0 hn]
    simp only [h1]
    rw [setbytes_of data (hroot _) (by rw [node?_write _ _ _ _ (by simp)]; simp)]
    exact ⟨_, rfl⟩
  · simp only [if_true, h1]
    split
    · exact ⟨_, rfl⟩
    · rw [setbytes_of data hroot0 hn]
      exact ⟨_, rfl⟩

theorem step_avoids {L : Casing} {F : FloatCodec} {w : World} {op : Op} {canon : Str → Str} {f : Str} (ha : Avoids canon f w.1.contents) (hop : NamesAvoid canon f op) :
    Avoids canon f (step L F w op).1.1.contents := by
  cases op with
  | write naming n fv data =>
    have hass : Avoids canon f (assignFile L naming w.1 n).1.contents := by
      unfold assignFile
      split
      · exact ha
      · dsimp only
        split
        · exact ha
        · rename_i g hg
          intro m k hm
          by_cases hmn : m = n
          · subst hmn
            simp only [Dict.get?_set_self, Option.some.injEq] at hm
            subst hm
            exact hop _ _ hg
          · simp only [Dict.get?_set_ne _ _ (Ne.symm hmn)] at hm
            exact ha m k hm
    show Avoids canon f (writeGlyph L naming w n fv data).1.1.contents
    rcases writeGlyph_fst L naming w n fv data with h | h <;> rw [h]
    · exact ha
    · exact hass
  | delete n =>
    cases hw : step L F w (.delete n) with
    | mk w' r =>
    obtain ⟨-, -, -, -, h5, -⟩ := deleteGlyph_spec (show deleteGlyph L w n = (w', r) from hw)
    intro m k hm
    rcases h5 with ⟨-, h5⟩ | ⟨-, h5⟩
    · simp only [h5, Dict.get?_erase] at hm
      split at hm
      · cases hm
      · exact ha m k hm
    · simp only [h5] at hm
      exact ha m k hm
  | reverse =>
    show Avoids canon f (getReverseContents L w.1).1.contents
    unfold getReverseContents
    split <;> exact ha
  | save => exact ha
  | rebuild v => exact hop.elim

theorem step_file {L : Casing} {F : FloatCodec} {w : World} {op : Op} {f : Str} (ha : Avoids w.2.canon f w.1.contents) (hop : NamesAvoid w.2.canon f op)
    (hf : w.2.canon f ≠ w.2.canon contentsName) :
    (step L F w op).1.2.node? (w.1.dir ++ [f]) = w.2.node? (w.1.dir ++ [f]) ∧ (step L F w op).1.1.dir = w.1.dir := by
  have ha' := step_avoids (L := L) (F := F) (w := w) ha hop
  cases op with
  | write naming n fv data =>
    cases hw : step L F w (.write naming n fv data) with
    | mk w' r =>
    rw [hw] at ha'
    obtain ⟨h1, -, -, -, -, h6⟩ := writeGlyph_spec (show writeGlyph L naming w n fv data = (w', r) from hw)
    refine ⟨?_, h1⟩
    rcases h6 with ⟨-, g, d, -, hg, -, -, h⟩ | ⟨-, h, -⟩
    · refine h _ ?_
      rw [Ne, key_snoc]
      exact fun he => ha' n g hg he.symm
    · simp only [h]
  | delete n =>
    cases hw : step L F w (.delete n) with
    | mk w' r =>
    obtain ⟨h1, -, -, -, -, h6⟩ := deleteGlyph_spec (show deleteGlyph L w n = (w', r) from hw)
    refine ⟨?_, h1⟩
    rcases h6 with ⟨rfl, -⟩ | ⟨g, hg, h⟩
    · rfl
    · simp only [h]
      rw [node?_remove _ _ _ (by simp), if_neg]
      rw [key_snoc]
      exact fun he => ha n g hg he.symm
  | reverse =>
    refine ⟨rfl, ?_⟩
    show (getReverseContents L w.1).1.dir = _
    unfold getReverseContents
    split <;> rfl
  | save =>
    cases hw : writePlist F w.1.havePrevious w.2 (w.1.dir ++ [contentsName]) (contentsVal w.1.contents) with
    | mk fs' r =>
    obtain ⟨-, h2, -⟩ := writePlist_spec hw
    have he : (step L F w .save).1 = (w.1, fs') := by simp [step, writeContents, hw]
    rw [he]
    refine ⟨h2 _ ?_, rfl⟩
    rw [Ne, key_snoc]
    exact hf
  | rebuild v => exact hop.elim

theorem run_file {L : Casing} {F : FloatCodec} {f : Str} (ops : List Op) : ∀ {w : World}, Avoids w.2.canon f w.1.contents → (∀ op ∈ ops, NamesAvoid w.2.canon f op) →
    w.2.canon f ≠ w.2.canon contentsName →
    (run L F w ops).2.node? (w.1.dir ++ [f]) = w.2.node? (w.1.dir ++ [f]) ∧ (run L F w ops).1.dir = w.1.dir := by
  induction ops with
  | nil => intro w _ _ _; exact ⟨rfl, rfl⟩
  | cons op ops ih =>
    intro w ha hop hf
    rw [List.forall_mem_cons] at hop
    obtain ⟨h1, h2⟩ := step_file (L := L) (F := F) ha hop.1 hf
    have hc := step_canon (L := L) (F := F) (w := w) (op := op)
    have := ih (w := (step L F w op).1) (by rw [hc]; exact step_avoids ha hop.1) (by rw [hc]; exact hop.2) (by rw [hc]; exact hf)
    rw [h2] at this
    exact ⟨this.1.trans h1, this.2⟩

end Verif.GlyphSet
