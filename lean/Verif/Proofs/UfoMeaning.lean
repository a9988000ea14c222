import Verif.Proofs.PlistMeaning
import Verif.Proofs.InfoSince
import Verif.Proofs.UfoErrors
import Verif.Proofs.UfoOpen
import Verif.Proofs.UfoData
import Verif.Proofs.GlyphSetReopen
import Verif.Proofs.Converters
import Verif.Spec.UfoMeaning
/-! Reading the files of a UFO of any origin. -/
namespace Verif.UfoMeaning
open Verif Verif.Plist Verif.Spec.Validators Verif.Spec.Woff Verif.Spec.Plist Verif.Spec.PlistMeaning Verif.Spec.UfoMeaning

/-! ### Values of property lists -/

/-- The values property lists have: no tuples, no `None`, string keys. -/
inductive Pure : PyVal → Prop
  | dict (d : Dict Str PyVal) (h : Dict.WF d) (h' : ∀ p ∈ d, Pure p.2) : Pure (.dict (d.map fun p => (.str p.1, p.2)))
  | list (l : List PyVal) (h : ∀ x ∈ l, Pure x) : Pure (.list l)
  | atom (v : PyVal) (h : Atomic v) (h' : v ≠ .none) : Pure v

theorem dictIs_dict {items : List (Str × PyVal)} {d : List (PyVal × PyVal)} (h : DictIs items d) :
    ∃ D : Dict Str PyVal, d = D.map (fun p => (.str p.1, p.2)) ∧ Dict.WF D ∧ ∀ p ∈ D, p ∈ items := by
  refine ⟨_, dictIs_iff.1 h, wf_foldl _ _ Dict.wf_nil, fun p hp => ?_⟩
  have hg := Dict.get?_of_mem (wf_foldl items [] Dict.wf_nil) hp
  rcases get?_foldl items [] p.1 p.2 hg with ⟨h, -⟩ | ⟨a, b, h, -⟩
  · cases h
  · rw [h]; simp

mutual
theorem means_pure {F : FloatCodec} : ∀ {e : Elem} {v : PyVal}, Means F e v → Pure v
  | _, _, .true .. => .atom _ trivial (by simp)
  | _, _, .false .. => .atom _ trivial (by simp)
  | _, _, .integer .. => .atom _ trivial (by simp)
  | _, _, .real .. => .atom _ trivial (by simp)
  | _, _, .string .. => .atom _ trivial (by simp)
  | _, _, .data .. => .atom _ trivial (by simp)
  | _, _, .date .. => .atom _ trivial (by simp)
  | _, _, .array _ _ _ h => .list _ (meansList_pure h)
  | _, _, .dict _ _ _ _ h hd => by
    obtain ⟨D, rfl, hw, hm⟩ := dictIs_dict hd
    exact .dict D hw fun p hp => meansItems_pure h p (hm p hp)
theorem meansList_pure {F : FloatCodec} : ∀ {es : List Elem} {l : List PyVal}, MeansList F es l → ∀ x ∈ l, Pure x
  | _, _, .nil => by simp
  | _, _, .cons _ _ _ _ h t => List.forall_mem_cons.2 ⟨means_pure h, meansList_pure t⟩
theorem meansItems_pure {F : FloatCodec} : ∀ {es : List Elem} {l : List (Str × PyVal)}, MeansItems F es l → ∀ x ∈ l, Pure x.2
  | _, _, .nil => by simp
  | _, _, .cons _ _ _ _ _ _ _ _ h t => List.forall_mem_cons.2 ⟨means_pure h, meansItems_pure t⟩
end

theorem Pure.dict_inv {d : List (PyVal × PyVal)} (h : Pure (.dict d)) :
    ∃ D : Dict Str PyVal, d = D.map (fun p => (.str p.1, p.2)) ∧ Dict.WF D ∧ ∀ p ∈ D, Pure p.2 := by
  generalize hv : PyVal.dict d = v at h
  cases h with
  | dict D hw h' => cases hv; exact ⟨D, rfl, hw, h'⟩
  | list => cases hv
  | atom _ h => subst hv; cases h

theorem Pure.list_inv {l : List PyVal} (h : Pure (.list l)) : ∀ x ∈ l, Pure x := by
  generalize hv : PyVal.list l = v at h
  cases h with
  | dict D hw h' => cases hv
  | list _ h => cases hv; exact h
  | atom _ h => subst hv; cases h

theorem not_pure_tuple {l : List PyVal} : ¬ Pure (.tuple l) := by
  intro h
  generalize hv : PyVal.tuple l = v at h
  cases h with
  | dict D hw h' => cases hv
  | list _ h => cases hv
  | atom _ h => subst hv; cases h

theorem not_pure_none : ¬ Pure .none := by
  intro h
  generalize hv : PyVal.none = v at h
  cases h with
  | dict D hw h' => cases hv
  | list _ h => cases hv
  | atom _ h h' => exact h' hv.symm

theorem str_inj_map {ν : Type} {D : Dict Str ν} (hw : Dict.WF D) (f : ν → PyVal) : ((D.map fun p => (PyVal.str p.1, f p.2)).map Prod.fst).Nodup := by
  rw [List.map_map]
  have : (Prod.fst ∘ fun p : Str × ν => (PyVal.str p.1, f p.2)) = PyVal.str ∘ Prod.fst := rfl
  rw [this, ← List.map_map]
  exact List.Nodup.map (fun a b h => by cases h; rfl) hw

theorem Pure.keyed {v : PyVal} (h : Pure v) : Keyed v := by
  induction h with
  | dict D hw _ ih =>
    refine .dict _ (str_inj_map hw id) ?_
    intro p hp
    obtain ⟨q, hq, rfl⟩ := List.mem_map.1 hp
    exact ih q hq
  | list l _ ih => exact .list l ih
  | atom v h _ => exact .atom v h

/-! ### Files -/

theorem getPlist_iff {F : FloatCodec} {fs : FS} {p : Path} {default : Option PyVal} (h : Listed fs p) {v : PyVal} : IO.getPlist F fs p default = .ok v ↔ Says F fs p v := by
  obtain ⟨b, x, e, hb, hx, hd, hs⟩ := h
  have hiff : IO.loadBytes F b = .ok v ↔ Means F e v := by
    obtain ⟨a, text, tail, hd⟩ := hd
    simp only [IO.loadBytes, hx]
    exact loads_iff hd hs
  have hsays : Says F fs p v ↔ Means F e v := by
    constructor
    · rintro ⟨b', x', e', hb', hx', ⟨a', t', tl', hd'⟩, hm⟩
      obtain ⟨a, t, tl, hd⟩ := hd
      rw [hb] at hb'
      cases hb'
      rw [hx] at hx'
      cases hx'
      rw [hd] at hd'
      cases hd'
      exact hm
    · exact fun hm => ⟨b, x, e, hb, hx, hd, hm⟩
  rw [hsays, ← hiff]
  simp only [IO.getPlist, FS.getbytes, hb]
  cases IO.loadBytes F b <;> simp

theorem getPlist_missing {F : FloatCodec} {fs : FS} {p : Path} (h : fs.node? p = none) {v : PyVal} : IO.getPlist F fs p (some (.dict [])) = .ok v ↔ v = .dict [] := by
  simp only [IO.getPlist, FS.getbytes, h, Except.ok.injEq]
  exact eq_comm

theorem holds_iff {F : FloatCodec} {fs : FS} {p : Path} (h : Plain fs p) {v : PyVal} : IO.getPlist F fs p (some (.dict [])) = .ok v ↔ Holds F fs p v := by
  rcases h with h | h
  · rw [getPlist_missing h]
    refine ⟨fun hv => .inl ⟨h, hv⟩, ?_⟩
    rintro (⟨-, hv⟩ | ⟨b, x, e, hb, -⟩)
    · exact hv
    · rw [h] at hb; cases hb
  · rw [getPlist_iff h]
    refine ⟨.inr, ?_⟩
    rintro (⟨hn, -⟩ | hv)
    · obtain ⟨b, x, e, hb, -⟩ := h
      rw [hn] at hb; cases hb
    · exact hv

theorem says_pure {F : FloatCodec} {fs : FS} {p : Path} {v : PyVal} (h : Says F fs p v) : Pure v := by
  obtain ⟨b, x, e, -, -, -, h⟩ := h
  exact means_pure h

theorem holds_pure {F : FloatCodec} {fs : FS} {p : Path} {v : PyVal} (h : Holds F fs p v) : Pure v := by
  rcases h with ⟨-, rfl⟩ | h
  · exact .dict [] Dict.wf_nil (by simp)
  · exact says_pure h

/-! ### Rows -/

theorem rowOf_ok {d : List (PyVal × PyVal)} : ∀ {r : Dict Str PyVal}, Ufo.rowOf d = .ok r → d = r.map fun e => (.str e.1, e.2) := by
  induction d with
  | nil => intro r h; cases h; rfl
  | cons i d ih =>
    intro r h
    obtain ⟨k, v⟩ := i
    cases k <;> simp only [Ufo.rowOf] at h <;> first | (cases h; done) | skip
    cases hr : Ufo.rowOf d with
    | error e => rw [hr] at h; cases h
    | ok t =>
      rw [hr] at h
      cases h
      rw [ih hr]
      rfl

theorem rowsOf_ok {d : List (PyVal × PyVal)} : ∀ {t : Dict Str (Dict Str PyVal)}, Ufo.rowsOf d = .ok t → d = t.map fun e => (.str e.1, Spec.FontInfo.asDict e.2) := by
  induction d with
  | nil => intro r h; cases h; rfl
  | cons i d ih =>
    intro r h
    obtain ⟨k, v⟩ := i
    cases k <;> first | exact absurd h (by simp [Ufo.rowsOf]; done) | skip
    cases v <;> (try (simp only [Ufo.rowsOf, reduceCtorEq] at h; done))
    rename_i s row
    simp only [Ufo.rowsOf] at h
    cases hr : Ufo.rowOf row with
    | error e => simp only [hr] at h; cases h
    | ok t =>
      simp only [hr] at h
      cases hd : Ufo.rowsOf d with
      | error e => simp only [hd] at h; cases h
      | ok t' =>
        simp only [hd] at h
        cases h
        rw [List.map_cons, ← ih hd, rowOf_ok hr]
        rfl

theorem mem_strs {D : Dict Str PyVal} {k : Str} {v : PyVal} : (PyVal.str k, v) ∈ D.map (fun p => (PyVal.str p.1, p.2)) ↔ (k, v) ∈ D := by
  simp only [List.mem_map, Prod.mk.injEq, PyVal.str.injEq]
  constructor
  · rintro ⟨p, hp, rfl, rfl⟩; exact hp
  · exact fun h => ⟨_, h, rfl, rfl⟩

theorem get?_strs {D : Dict Str PyVal} (hw : Dict.WF D) {k : Str} {v : PyVal} : Dict.get? D k = some v ↔ (PyVal.str k, v) ∈ D.map (fun p => (PyVal.str p.1, p.2)) := by
  rw [mem_strs]
  exact ⟨Dict.mem_of_get?, Dict.get?_of_mem hw⟩

theorem wf_of_pure {D : Dict Str PyVal} (h : Pure (Spec.FontInfo.asDict D)) : Dict.WF D ∧ ∀ p ∈ D, Pure p.2 := by
  obtain ⟨D', hD, hw, hp⟩ := Pure.dict_inv h
  have : D = D' := List.map_injective_iff.2 (fun a b h => by
    obtain ⟨a1, a2⟩ := a
    obtain ⟨b1, b2⟩ := b
    simp only [Prod.mk.injEq, PyVal.str.injEq] at h
    rw [h.1, h.2]) hD
  subst this
  exact ⟨hw, hp⟩

/-! ### The files at the top -/

theorem metaInfo_iff {F : FloatCodec} {fs : FS} (h : Plain fs [Ufo.metainfoName]) {i : Int} : Ufo.readMetaInfo F fs true = .ok i ↔
    ∃ d v, Says F fs [Ufo.metainfoName] (.dict d) ∧ (.str c!"formatVersion", v) ∈ d ∧ IsInt v i ∧ (i = 1 ∨ i = 2 ∨ i = 3) := by
  rcases h with h | h
  · refine ⟨fun hr => by simp [Ufo.readMetaInfo, IO.getPlist, FS.getbytes, h] at hr, ?_⟩
    rintro ⟨d, v, ⟨b, x, e, hb, -⟩, -⟩
    rw [h] at hb; cases hb
  · have hp := fun v => getPlist_iff (F := F) (default := none) h (v := v)
    have hget : ∀ {d v}, Says F fs [Ufo.metainfoName] (.dict d) → ((.str c!"formatVersion", v) ∈ d ↔ Validators.get d c!"formatVersion" = some v) := by
      intro d v hd
      obtain ⟨D, rfl, hw, -⟩ := Pure.dict_inv (says_pure hd)
      rw [Validators.get]
      exact Dict.mem_iff_get? (str_inj_map hw id)
    constructor
    · intro hr
      unfold Ufo.readMetaInfo at hr
      split at hr
      · cases hr
      · rename_i d hd
        have hs := (hp _).1 hd
        split at hr
        · cases hr
        · rename_i v hv
          split at hr
          · cases hr
          · rename_i j hj
            by_cases hsup : Ufo.supported j = true
            · simp only [hsup, Bool.not_true, Bool.and_false, Bool.false_eq_true, if_false, Except.ok.injEq] at hr
              subst hr
              refine ⟨d, v, hs, (hget hs).2 hv, ?_, ?_⟩
              · cases v <;> simp only [reduceCtorEq, Option.some.injEq] at hj
                · rename_i b
                  cases b <;> simp at hj <;> subst hj <;> simp [IsInt]
                · subst hj; exact .inl rfl
              · simpa [Ufo.supported, or_assoc] using hsup
            · simp only [Bool.not_eq_true] at hsup
              simp only [hsup, Bool.not_false, Bool.and_self, if_true] at hr
              cases hr
      · simp only [if_true] at hr; cases hr
    · rintro ⟨d, v, hs, hm, hi, hv⟩
      have hsup : Ufo.supported i = true := by simpa [Ufo.supported, or_assoc] using hv
      simp only [Ufo.readMetaInfo, (hp _).2 hs, (hget hs).1 hm]
      rcases hi with rfl | ⟨rfl, rfl⟩ | ⟨rfl, rfl⟩ <;> simp [hsup]

theorem lib_iff {F : FloatCodec} {fs : FS} (h : Plain fs [Ufo.libName]) {v : PyVal} : Ufo.readLib F fs true = .ok v ↔ Holds F fs [Ufo.libName] v ∧ FontLib v := by
  have hp := fun v => holds_iff (F := F) h (v := v)
  have key : Holds F fs [Ufo.libName] v → (Validators.fontLibValidator v = true ↔ FontLib v) := by
    intro hv
    rw [Validators.fontLib_iff]
    have hpure := holds_pure hv
    constructor
    · rintro ⟨d, rfl, hd⟩
      refine ⟨d, rfl, fun l hl => ?_⟩
      obtain ⟨D, rfl, -, hD⟩ := hpure.dict_inv
      obtain ⟨l', hs, hstr⟩ := (hd _ hl).2 rfl
      rcases hs with rfl | hs
      · have : ∀ l' : List PyVal, (∀ x ∈ l', IsString x) → ∃ names : List Str, l' = names.map .str := by
          intro l'
          induction l' with
          | nil => exact fun _ => ⟨[], rfl⟩
          | cons x l' ih =>
            intro h
            rw [List.forall_mem_cons] at h
            obtain ⟨⟨s, rfl⟩, h⟩ := h
            obtain ⟨n, rfl⟩ := ih h
            exact ⟨s :: n, rfl⟩
        obtain ⟨names, rfl⟩ := this l' hstr
        exact ⟨names, rfl⟩
      · cases hs
        exact absurd (hD _ (mem_strs.1 hl)) not_pure_tuple
    · rintro ⟨d, rfl, hd⟩
      obtain ⟨D, rfl, -, hD⟩ := hpure.dict_inv
      refine ⟨_, rfl, fun p hp => ⟨?_, fun hk => ?_⟩⟩
      · obtain ⟨q, -, rfl⟩ := List.mem_map.1 hp
        exact ⟨_, rfl⟩
      · obtain ⟨k, l⟩ := p
        cases hk
        obtain ⟨names, rfl⟩ := hd l hp
        exact ⟨_, .inl rfl, fun x hx => by
          obtain ⟨s, -, rfl⟩ := List.mem_map.1 hx
          exact ⟨s, rfl⟩⟩
  unfold Ufo.readLib
  constructor
  · intro hr
    split at hr
    · cases hr
    · rename_i w hw
      by_cases hval : Validators.fontLibValidator w = true
      · simp only [hval, Bool.not_true, Bool.and_false, Bool.false_eq_true, if_false, Except.ok.injEq] at hr
        subst hr
        exact ⟨(hp _).1 hw, (key ((hp _).1 hw)).1 hval⟩
      · simp only [Bool.not_eq_true] at hval
        simp only [hval, Bool.not_false, Bool.and_self, if_true] at hr
        cases hr
  · rintro ⟨hv, hl⟩
    simp only [(hp _).2 hv, (key hv).2 hl, Bool.not_true, Bool.and_false, Bool.false_eq_true, if_false]

theorem groups_iff {F : FloatCodec} {fs : FS} (h : Plain fs [Ufo.groupsName]) {v : PyVal} :
    Ufo.readGroups3 F fs true = .ok v ↔ Holds F fs [Ufo.groupsName] v ∧ Kerning.groupsValidator v = true := by
  have hp := fun v => holds_iff (F := F) h (v := v)
  unfold Ufo.readGroups3
  constructor
  · intro hr
    split at hr
    · cases hr
    · rename_i w hw
      by_cases hval : Kerning.groupsValidator w = true
      · simp only [hval, Bool.not_true, Bool.and_false, Bool.false_eq_true, if_false, Except.ok.injEq] at hr
        subst hr
        exact ⟨(hp _).1 hw, hval⟩
      · simp only [Bool.not_eq_true] at hval
        simp only [hval, Bool.not_false, Bool.and_self, if_true] at hr
        cases hr
  · rintro ⟨hv, hl⟩
    simp only [(hp _).2 hv, hl, Bool.not_true, Bool.and_false, Bool.false_eq_true, if_false]

theorem wf_rows {t : Dict Str (Dict Str PyVal)} (h : Pure (.dict (t.map fun e => (.str e.1, Spec.FontInfo.asDict e.2)))) : Spec.Converters.WFKerning t := by
  have he : t.map (fun e => (PyVal.str e.1, Spec.FontInfo.asDict e.2)) = (t.map fun e => (e.1, Spec.FontInfo.asDict e.2)).map fun p => (PyVal.str p.1, p.2) := by simp
  rw [he] at h
  obtain ⟨hw, hp⟩ := wf_of_pure h
  constructor
  · unfold Dict.WF Dict.keys at hw ⊢
    rw [List.map_map] at hw
    exact hw
  · exact fun e he => (wf_of_pure (hp _ (List.mem_map.2 ⟨e, he, rfl⟩))).1

theorem kerning_pairs {t : Dict Str (Dict Str PyVal)} (hw : Spec.Converters.WFKerning t) {a b : Str} {x : PyVal} :
    Dict.get? (Converters.flatten t) (a, b) = some x ↔ ∃ row, (.str a, .dict row) ∈ t.map (fun e => (PyVal.str e.1, Spec.FontInfo.asDict e.2)) ∧ (.str b, x) ∈ row := by
  rw [Converters.flatten_get? hw, Spec.Converters.pairValue]
  constructor
  · intro h
    obtain ⟨row, h1, h2⟩ := Option.bind_eq_some_iff.1 h
    exact ⟨_, List.mem_map.2 ⟨_, Dict.mem_of_get? h1, rfl⟩, mem_strs.2 (Dict.mem_of_get? h2)⟩
  · rintro ⟨row, h1, h2⟩
    obtain ⟨⟨a', r⟩, hr, he⟩ := List.mem_map.1 h1
    simp only [Spec.FontInfo.asDict, Prod.mk.injEq, PyVal.str.injEq, PyVal.dict.injEq] at he
    obtain ⟨rfl, rfl⟩ := he
    rw [Dict.get?_of_mem hw.1 hr]
    exact Dict.get?_of_mem (hw.2 _ hr) (mem_strs.1 h2)

theorem kerning_says {F : FloatCodec} {fs : FS} (h : Plain fs [Ufo.kerningName]) {g : Str × Str → Option PyVal} :
    (∃ k, Ufo.readKerning3 F fs true = .ok k ∧ ∀ p, Dict.get? k p = g p) ↔ ∃ d, Holds F fs [Ufo.kerningName] (.dict d) ∧ KerningSays d g := by
  have hp := fun v => holds_iff (F := F) h (v := v)
  constructor
  · rintro ⟨k, hr, hg⟩
    unfold Ufo.readKerning3 at hr
    split at hr
    · cases hr
    · rename_i v hv
      have hs := (hp _).1 hv
      by_cases hval : Validators.kerningValidator v = true
      · simp only [hval, Bool.not_true, Bool.and_false, Bool.false_eq_true, if_false] at hr
        obtain ⟨d, rfl, hd⟩ := Validators.kerning_iff.1 hval
        simp only at hr
        split at hr
        · cases hr
        · rename_i t ht
          cases hr
          have hdt := rowsOf_ok ht
          refine ⟨d, hs, fun p hp => ?_, fun a b x => ?_⟩
          · obtain ⟨⟨a, ha⟩, row, hrow, hq⟩ := hd p hp
            refine ⟨a, row, by rw [← ha, ← hrow], fun q hqm => ?_⟩
            obtain ⟨⟨b, hb⟩, hn⟩ := hq q hqm
            exact ⟨b, q.2, by rw [← hb], hn⟩
          · rw [← hg, hdt]
            exact kerning_pairs (wf_rows (by rw [← hdt]; exact holds_pure hs))
      · simp only [Bool.not_eq_true] at hval
        simp only [hval, Bool.not_false, Bool.and_self, if_true] at hr
        cases hr
  · rintro ⟨d, hs, hk⟩
    have hval : Validators.kerningValidator (.dict d) = true := Validators.kerning_iff.2 ⟨d, rfl, fun p hp => by
      obtain ⟨a, row, rfl, hq⟩ := hk.rows p hp
      refine ⟨⟨a, rfl⟩, row, rfl, fun q hqm => ?_⟩
      obtain ⟨b, x, rfl, hn⟩ := hq q hqm
      exact ⟨⟨b, rfl⟩, hn⟩⟩
    obtain ⟨t, ht⟩ := Ufo.rowsOf_valid hval
    have hdt := rowsOf_ok ht
    refine ⟨Converters.flatten t, by simp [Ufo.readKerning3, (hp _).2 hs, hval, ht], ?_⟩
    rintro ⟨a, b⟩
    apply Option.ext
    intro x
    rw [hk.pairs, hdt]
    exact kerning_pairs (wf_rows (by rw [← hdt]; exact holds_pure hs))

theorem features_iff {fs : FS} {s : Str} : Ufo.readFeatures fs = .ok s ↔
    (fs.node? [Ufo.featuresName] = none ∧ s = []) ∨ ∃ b, fs.node? [Ufo.featuresName] = some (.file b) ∧ utf8Decode b = some s := by
  unfold Ufo.readFeatures FS.getbytes
  cases hn : fs.node? [Ufo.featuresName] with
  | none => simp [eq_comm]
  | some n =>
    cases n with
    | dir => simp
    | file b => cases hu : utf8Decode b <;> simp [hu]

/-! ### Layers and glyphs -/

theorem layers_iff {F : FloatCodec} {fs : FS} (h : Plain fs [Ufo.layercontentsName]) {t : List (Str × Str)} : Ufo.readLayerTable F fs true = .ok t ↔ LayersSay F fs t := by
  rcases h with h | h
  · refine ⟨fun hr => by simp [Ufo.readLayerTable, IO.getPlist, FS.getbytes, h] at hr, ?_⟩
    rintro ⟨⟨b, x, e, hb, -⟩, -⟩
    have hb' : fs.node? [Ufo.layercontentsName] = some (.file b) := hb
    rw [h] at hb'; cases hb'
  · have hp := fun v => getPlist_iff (F := F) (default := none) h (v := v)
    constructor
    · intro hr
      unfold Ufo.readLayerTable at hr
      split at hr
      · cases hr
      · rename_i v hv
        simp only [if_true] at hr
        split at hr
        · cases hr
        · cases hr
        · rename_i hval
          obtain ⟨t', rfl, ht⟩ := Validators.layerContents_iff.1 hval
          simp only at hr
          rw [show Ufo.layerEntriesOf (Validators.tableVal t') = .ok t' from Ufo.layerEntriesOf_map t'] at hr
          cases hr
          exact ⟨(hp _).1 hv, ht⟩
    · rintro ⟨hs, ht⟩
      have hval : Validators.layerContentsValidator (Ufo.dirExists fs) (.list (t.map fun p => .list [.str p.1, .str p.2])) = .ok true := Validators.layerContents_iff.2 ⟨t, rfl, ht⟩
      simp only [Ufo.readLayerTable, (hp _).2 hs, if_true, hval]
      exact Ufo.layerEntriesOf_map t

theorem tableOf_some {d : List (PyVal × PyVal)} : ∀ {t : Dict Str Str}, GlyphSet.tableOf d = some t → d = t.map fun e => (.str e.1, .str e.2) := by
  induction d with
  | nil => intro t h; cases h; rfl
  | cons i d ih =>
    intro t h
    obtain ⟨k, v⟩ := i
    unfold GlyphSet.tableOf at h
    split at h
    · rename_i hc; cases hc
    · rename_i hc
      cases hc
      split at h
      · cases h
      · rename_i t' ht'
        cases h
        rw [ih ht']
        rfl
    · cases h

theorem foldl_same {t : Dict Str Str} (hw : Dict.WF t) : t.foldl (fun d e => Dict.set d e.1 e.2) [] = t := by
  have key : ∀ (l : List (Str × Str)) (D : Dict Str Str), (∀ x ∈ l, x.1 ∉ Dict.keys D) → (l.map Prod.fst).Nodup →
      l.foldl (fun D x => Dict.set D x.1 x.2) D = D ++ l := by
    intro l
    induction l with
    | nil => intro D _ _; simp
    | cons x l ih =>
      intro D h hn
      rw [List.map_cons, List.nodup_cons] at hn
      rw [List.forall_mem_cons] at h
      have hset : Dict.set D x.1 x.2 = D ++ [x] := Dict.keys_set_of_not_mem h.1
      rw [List.foldl_cons, hset, ih]
      · simp
      · intro y hy hk
        simp only [Dict.keys, List.map_append, List.map_cons, List.map_nil, List.mem_append, List.mem_singleton] at hk
        rcases hk with hk | hk
        · exact h.2 y hy hk
        · exact hn.1 (hk ▸ List.mem_map_of_mem hy)
      · exact hn.2
  simpa using key t [] (by simp [Dict.keys]) hw

theorem contents_wf {t : Dict Str Str} (ht : Pure (.dict (t.map fun e => (.str e.1, .str e.2)))) : Dict.WF t := by
  have he : t.map (fun e => (PyVal.str e.1, PyVal.str e.2)) = (t.map fun e => (e.1, PyVal.str e.2)).map fun p => (PyVal.str p.1, p.2) := by simp
  rw [he] at ht
  have := (wf_of_pure ht).1
  unfold Dict.WF Dict.keys at this ⊢
  rw [List.map_map] at this
  exact this

theorem contents_iff {F : FloatCodec} {fs : FS} {dir : Path} (h : Plain fs (dir ++ [GlyphSet.contentsName])) {version : Nat} {gs : GlyphSet.GlyphSet} :
    GlyphSet.openGlyphSet F fs dir version true = .ok gs ↔ (version = 1 ∨ version = 2 ∨ version = 3) ∧ ContentsSay F fs dir gs.contents ∧
      gs = { dir := dir, contents := gs.contents, existing := none, reverse := none, havePrevious := fs.exists (dir ++ [GlyphSet.contentsName]), version := version, validateRead := true } := by
  have hp := fun v => holds_iff (F := F) h (v := v)
  have hthere : ∀ t : Dict Str Str, (t.any fun e => !fs.exists (dir ++ [e.2])) = false ↔ ∀ e ∈ t, fs.node? (dir ++ [e.2]) ≠ none := by
    intro t
    simp [FS.exists]
  have hwf : ∀ t : Dict Str Str, Pure (.dict (t.map fun e => (.str e.1, .str e.2))) → Dict.WF t := fun t => contents_wf
  unfold GlyphSet.openGlyphSet
  constructor
  · intro hr
    split at hr
    · rename_i hv
      unfold GlyphSet.rebuildContents at hr
      split at hr
      · cases hr
      · rename_i v hg
        have hs := (hp _).1 hg
        unfold GlyphSet.checkContents at hr
        split at hr
        · cases hr
        · rename_i t ht
          cases hr
          split at ht
          · rename_i d
            split at ht
            · cases ht
            · rename_i t' ht'
              split at ht
              · cases ht
              · rename_i hany
                cases ht
                have hd := tableOf_some ht'
                subst hd
                have hw := hwf t' (holds_pure hs)
                simp only [foldl_same hw]
                simp only [Bool.true_and, Bool.not_eq_true] at hany
                exact ⟨hv, ⟨hs, (hthere t').1 hany⟩, trivial⟩
          · cases ht
    · cases hr
  · rintro ⟨hv, ⟨hs, hall⟩, hgs⟩
    rw [if_pos hv]
    have hw := hwf _ (holds_pure hs)
    simp only [GlyphSet.rebuildContents, (hp _).2 hs, GlyphSet.checkContents, GlyphSet.tableOf_strings, (hthere _).2 hall, Bool.and_false, Bool.false_eq_true, if_false, foldl_same hw]
    exact congrArg Except.ok hgs.symm

theorem layerDir_iff {F : FloatCodec} {fs : FS} {version : Int} (h : Plain fs [Ufo.layercontentsName]) {layer : Option Str} {gs : GlyphSet.GlyphSet} :
    Ufo.readerGlyphSet F fs version layer true = .ok gs ↔ ∃ dir, LayerAt F fs version layer dir ∧ fs.node? [dir] = some .dir ∧ GlyphSet.openGlyphSet F fs [dir] version.toNat true = .ok gs := by
  have hread : ∀ t, Ufo.readLayers F fs version true = .ok t ↔ (version < 3 ∧ t = [(c!"public.default", c!"glyphs")]) ∨ (3 ≤ version ∧ LayersSay F fs t) := by
    intro t
    unfold Ufo.readLayers
    by_cases hv : version < 3
    · rw [if_pos hv]
      simp only [hv, Except.ok.injEq, true_and, show ¬ 3 ≤ version by omega, false_and, or_false]
      exact eq_comm
    · rw [if_neg hv, layers_iff h]
      simp only [hv, false_and, false_or, show 3 ≤ version by omega, true_and]
  have htable : ∀ t, Ufo.readLayers F fs version true = .ok t → (t.map Prod.fst).Nodup ∧ (t.map Prod.snd).Nodup := by
    intro t ht
    rcases (hread t).1 ht with ⟨-, rfl⟩ | ⟨-, hs⟩
    · simp
    · exact ⟨hs.table.names, hs.table.dirs⟩
  -- the directories the layer can have
  have hat : ∀ dir, LayerAt F fs version layer dir ↔ ∃ t n, Ufo.readLayers F fs version true = .ok t ∧ (n, dir) ∈ t ∧ (layer = some n ∨ (layer = none ∧ dir = c!"glyphs")) := by
    intro dir
    simp only [LayerAt, hread]
    constructor
    · rintro (⟨hv, rfl, hl⟩ | ⟨hv, t, n, ht, hm, hl⟩)
      · exact ⟨_, c!"public.default", .inl ⟨hv, rfl⟩, by simp, hl.symm.imp id fun h => ⟨h, rfl⟩⟩
      · exact ⟨t, n, .inr ⟨hv, ht⟩, hm, hl⟩
    · rintro ⟨t, n, ⟨hv, rfl⟩ | ⟨hv, ht⟩, hm, hl⟩
      · simp only [List.mem_singleton, Prod.mk.injEq] at hm
        obtain ⟨rfl, rfl⟩ := hm
        exact .inl ⟨hv, rfl, hl.symm.imp And.left id⟩
      · exact .inr ⟨hv, t, n, ht, hm, hl⟩
  have hfind : ∀ (t : List (Str × Str)), (t.map Prod.fst).Nodup → ∀ n d, (n, d) ∈ t → t.find? (fun e => decide (e.1 = n)) = some (n, d) := by
    intro t ht n d hm
    cases hf : t.find? (fun e => decide (e.1 = n)) with
    | none => exact absurd (List.find?_eq_none.1 hf _ hm) (by simp)
    | some e =>
      have h1 := List.mem_of_find?_eq_some hf
      have h2 := List.find?_some hf
      simp only [decide_eq_true_eq] at h2
      exact congrArg some (List.inj_on_of_nodup_map ht h1 hm h2)
  have hfind2 : ∀ (t : List (Str × Str)), (t.map Prod.snd).Nodup → ∀ n d, (n, d) ∈ t → t.find? (fun e => decide (e.2 = d)) = some (n, d) := by
    intro t ht n d hm
    cases hf : t.find? (fun e => decide (e.2 = d)) with
    | none => exact absurd (List.find?_eq_none.1 hf _ hm) (by simp)
    | some e =>
      have h1 := List.mem_of_find?_eq_some hf
      have h2 := List.find?_some hf
      simp only [decide_eq_true_eq] at h2
      exact congrArg some (List.inj_on_of_nodup_map ht h1 hm h2)
  simp only [hat]
  constructor
  · intro hr
    unfold Ufo.readerGlyphSet at hr
    split at hr
    · cases hr
    · rename_i n hn
      split at hr
      · cases hr
      · rename_i t ht
        split at hr
        · cases hr
        · rename_i e he
          split at hr
          · cases hr
          · cases hr
          · rename_i hnode
            have h1 := List.mem_of_find?_eq_some he
            have h2 := List.find?_some he
            simp only [decide_eq_true_eq] at h2
            refine ⟨e.2, ⟨t, e.1, ht, h1, ?_⟩, hnode, hr⟩
            cases layer with
            | some m => simp only [Ufo.resolveLayer, Except.ok.injEq] at hn; left; rw [hn, h2]
            | none =>
              right
              refine ⟨rfl, ?_⟩
              simp only [Ufo.resolveLayer, Ufo.getDefaultLayerName, ht] at hn
              split at hn
              · cases hn
              · rename_i e' he'
                cases hn
                have h1' := List.mem_of_find?_eq_some he'
                have h2' := List.find?_some he'
                simp only [decide_eq_true_eq] at h2'
                have := List.inj_on_of_nodup_map (htable t ht).1 h1 h1' h2
                rw [this, h2']
                rfl
  · rintro ⟨dir, ⟨t, n, ht, hm, hl⟩, hnode, hopen⟩
    have hn : Ufo.resolveLayer F fs version layer true = .ok n := by
      rcases hl with rfl | ⟨rfl, rfl⟩
      · rfl
      · simp only [Ufo.resolveLayer, Ufo.getDefaultLayerName, ht]
        have := hfind2 t (htable t ht).2 _ _ hm
        rw [show Ufo.glyphsName = c!"glyphs" from rfl, this]
    simp only [Ufo.readerGlyphSet, hn, ht, hfind t (htable t ht).1 _ _ hm, hnode]
    exact hopen

theorem layerInfo_iff {F : FloatCodec} {w : GlyphSet.World} (h : Plain w.2 (w.1.dir ++ [GlyphSet.layerinfoName])) {d : List (PyVal × PyVal)} :
    GlyphSet.readLayerInfo F w true = .ok d ↔ Holds F w.2 (w.1.dir ++ [GlyphSet.layerinfoName]) (.dict d) ∧ LayerInfoSays F d := by
  have hp := fun v => holds_iff (F := F) h (v := v)
  have hval : ∀ d, GlyphSet.validateLayerInfo F d = .ok () ↔ LayerInfoSays F d := by
    intro d
    unfold LayerInfoSays
    induction d with
    | nil => simp [GlyphSet.validateLayerInfo]
    | cons i d ih =>
      obtain ⟨k, v⟩ := i
      rw [List.forall_mem_cons, ← ih]
      cases k <;> try simp [GlyphSet.validateLayerInfo]
      rename_i s
      by_cases hc : s = c!"color"
      · subst hc
        simp [GlyphSet.layerInfoAttrs, GlyphSet.layerInfoValid, ← Validators.color_iff]
        cases Validators.colorValidator F v <;> simp
      · by_cases hl : s = c!"lib"
        · subst hl
          cases v <;> simp [GlyphSet.layerInfoAttrs, GlyphSet.layerInfoValid, GlyphSet.isDict]
        · simp [GlyphSet.layerInfoAttrs, hc, hl]
  unfold GlyphSet.readLayerInfo
  constructor
  · intro hr
    split at hr
    · cases hr
    · rename_i d' hd'
      simp only [if_true] at hr
      cases hv : GlyphSet.validateLayerInfo F d' with
      | error e => rw [hv] at hr; cases hr
      | ok u =>
        rw [hv] at hr
        cases hr
        exact ⟨(hp _).1 hd', (hval _).1 hv⟩
    · cases hr
  · rintro ⟨hs, hl⟩
    simp only [(hp _).2 hs, if_true, (hval _).2 hl]
    rfl

/-! ### Font info -/

theorem info_iff {E : FontInfo.Env} {fs : FS} {version : Int} (h : Plain fs [Ufo.fontinfoName]) {r : Dict Str PyVal} : Ufo.readInfo E fs version true = .ok r ↔
    ∃ D : Dict Str PyVal, Holds E.F fs [Ufo.fontinfoName] (.dict (D.map fun p => (.str p.1, p.2))) ∧ FontInfo.readInfo E version.toNat true D = .ok r := by
  have hp := fun v => holds_iff (F := E.F) h (v := v)
  unfold Ufo.readInfo
  constructor
  · intro hr
    split at hr
    · cases hr
    · rename_i d hd
      split at hr
      · cases hr
      · rename_i t ht
        refine ⟨t, ?_, hr⟩
        rw [← rowOf_ok ht]
        exact (hp _).1 hd
    · cases hr
  · rintro ⟨D, hs, hr⟩
    simp only [(hp _).2 hs, Ufo.rowOf_map]
    exact hr

theorem present_pure {D : Dict Str PyVal} (h : ∀ p ∈ D, Pure p.2) (a : Str) : Spec.FontInfo.present (Dict.get? D a) = Dict.get? D a := by
  cases hg : Dict.get? D a with
  | none => rfl
  | some v =>
    cases v <;> try rfl
    exact absurd (h _ (Dict.mem_of_get? hg)) not_pure_none

end Verif.UfoMeaning
