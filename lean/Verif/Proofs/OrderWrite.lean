import Verif.Proofs.Order
import Verif.Proofs.UfoResave
import Verif.Proofs.UfoKerning
import Verif.Proofs.LayerInfo
import Verif.Model.GlifFile
/-! The order of dictionaries does not matter: the calls that write. -/
namespace Verif.Order
open Verif Verif.Spec.Plist Verif.Spec.Order Verif.Spec.Validators Verif.Validators Verif.IO Verif.Converters Verif.Kerning

/-! ### font info -/

/-- The same attributes with values that are alike. -/
abbrev Pairs (a b : Dict Str PyVal) : Prop := List.Forall₂ (fun p q : Str × PyVal => p.1 = q.1 ∧ Alike p.2 q.2) a b

theorem alike_none {v w : PyVal} (h : Alike v w) : v = .none ↔ w = .none := Props.same_none_iff h.2

theorem gather_pairs {i j : Str → Option PyVal} (h : AlikeObj i j) : ∀ ks, Pairs (FontInfo.gather i ks) (FontInfo.gather j ks)
  | [] => .nil
  | a :: ks => by
    have ih := gather_pairs h ks
    have ha := h a
    unfold FontInfo.gather
    generalize i a = x, j a = y at ha
    cases ha with
    | none => exact ih
    | some hs =>
      have hn := alike_none hs
      rename_i v w
      by_cases hv : v = .none
      · have hw := hn.1 hv
        subst hv; subst hw
        exact ih
      · have hw := fun e => hv (hn.2 e)
        cases v <;> first | exact absurd rfl hv | (cases w <;> first | exact absurd rfl hw | exact .cons ⟨rfl, hs⟩ ih)

/-- The same exception, or dictionaries that are alike. -/
inductive Dicts : Except Exc (Dict Str PyVal) → Except Exc (Dict Str PyVal) → Prop
  | error (e : Exc) : Dicts (.error e) (.error e)
  | ok (a b : Dict Str PyVal) (h : Pairs a b) : Dicts (.ok a) (.ok b)

theorem validateData_pairs (E : FontInfo.Env) (t : Dict Str FontInfo.Kind) {a b : Dict Str PyVal} (h : Pairs a b) :
    Dicts (FontInfo.validateData E t a) (FontInfo.validateData E t b) := by
  induction h with
  | nil => exact .ok _ _ .nil
  | @cons p q _ _ h _ ih =>
    obtain ⟨k, v⟩ := p
    obtain ⟨k', w⟩ := q
    obtain ⟨hk, ha⟩ := h
    simp only at hk ha
    subst hk
    have hv : FontInfo.validateValue E t k v = FontInfo.validateValue E t k w := by
      unfold FontInfo.validateValue
      cases Dict.get? t k with
      | none => rfl
      | some kd => exact respects_kind E kd v w ha
    rw [FontInfo.validateData, FontInfo.validateData, hv]
    rcases FontInfo.validateValue E t k w with e | b
    · exact .error _
    · cases b
      · exact .error _
      · dsimp only
        rename_i l m _
        generalize FontInfo.validateData E t l = x, FontInfo.validateData E t m = y at ih
        cases ih with
        | error => exact .error _
        | ok a b h => exact .ok _ _ (.cons ⟨rfl, ha⟩ h)

theorem convertData32_pairs {a b : Dict Str PyVal} (h : Pairs a b) : Pairs (FontInfo.convertData32 a) (FontInfo.convertData32 b) := by
  unfold FontInfo.convertData32
  induction h with
  | nil => exact .nil
  | @cons p q _ _ h _ ih =>
    rw [List.filter_cons, List.filter_cons, h.1]
    split
    · exact .cons h ih
    · exact ih

theorem set_pairs {a b : Dict Str PyVal} (h : Pairs a b) (k : Str) {v w : PyVal} (hv : Alike v w) : Pairs (Dict.set a k v) (Dict.set b k w) := by
  induction h with
  | nil => exact .cons ⟨rfl, hv⟩ .nil
  | @cons p q _ _ h ht ih =>
    obtain ⟨k1, v1⟩ := p
    obtain ⟨k2, v2⟩ := q
    obtain ⟨hk, ha⟩ := h
    simp only at hk ha
    subst hk
    unfold Dict.set
    split
    · exact .cons ⟨rfl, hv⟩ ht
    · exact .cons ⟨rfl, ha⟩ ih

theorem getInt_alike {β : Type} (d : Dict Int β) {v w : PyVal} (h : Alike v w) : FontInfo.getInt d v = FontInfo.getInt d w := by
  unfold FontInfo.getInt
  rw [respects_hashable v w h, show (fun p : Int × β => PyVal.pyEq v (.int p.1)) = fun p => PyVal.pyEq w (.int p.1) from funext fun p => respects_eqInt p.1 v w h]

theorem getStr_alike {β : Type} (d : Dict Str β) {v w : PyVal} (h : Alike v w) : FontInfo.getStr d v = FontInfo.getStr d w := by
  unfold FontInfo.getStr
  rw [respects_hashable v w h, show (fun p : Str × β => PyVal.pyEq v (.str p.1)) = fun p => PyVal.pyEq w (.str p.1) from funext fun p => respects_eqStr p.1 v w h]

theorem special21_alike (a : Str) {v w : PyVal} (h : Alike v w) :
    (∃ e, FontInfo.special21 a v = .error e ∧ FontInfo.special21 a w = .error e) ∨
      ∃ x y, FontInfo.special21 a v = .ok x ∧ FontInfo.special21 a w = .ok y ∧ Alike x y := by
  have key : ∀ {β : Type} (f : β → PyVal) (hf : ∀ b, WellFormed (f b)) (x : Except Exc (Option β)),
      (∃ e, FontInfo.orNone f x = .error e ∧ FontInfo.orNone f x = .error e) ∨ ∃ y z, FontInfo.orNone f x = .ok y ∧ FontInfo.orNone f x = .ok z ∧ Alike y z := by
    intro β f hf x
    rcases x with e | (_ | b)
    · exact .inl ⟨e, rfl, rfl⟩
    · exact .inr ⟨_, _, rfl, rfl, trivial, .refl _⟩
    · exact .inr ⟨_, _, rfl, rfl, hf b, .refl _⟩
  unfold FontInfo.special21
  by_cases hv : v = .none
  · have hw := (alike_none h).1 hv
    rw [if_pos hv, if_pos hw]
    exact .inr ⟨_, _, rfl, rfl, h⟩
  · have hw : ¬ w = .none := fun e => hv ((alike_none h).2 e)
    rw [if_neg hv, if_neg hw]
    split
    · rw [getStr_alike _ h]; exact key _ (fun _ => by simp [WellFormed]) _
    · split
      · rw [getInt_alike _ h]; exact key _ (fun _ => by simp [WellFormed]) _
      · split
        · rw [getInt_alike _ h]; exact key _ (fun _ => by simp [WellFormed]) _
        · exact .inr ⟨_, _, rfl, rfl, h⟩

theorem convertData21_pairs {a b : Dict Str PyVal} (h : Pairs a b) : ∀ {c d : Dict Str PyVal}, Pairs c d →
    Dicts (FontInfo.convertData21 c a) (FontInfo.convertData21 d b) := by
  induction h with
  | nil => intro c d h; exact .ok _ _ h
  | @cons p q _ _ h _ ih =>
    intro c d hcd
    obtain ⟨k, v⟩ := p
    obtain ⟨k', w⟩ := q
    obtain ⟨hk, ha⟩ := h
    simp only at hk ha
    subst hk
    rw [FontInfo.convertData21, FontInfo.convertData21, FontInfo.convert21, FontInfo.convert21]
    rcases special21_alike k ha with ⟨e, h1, h2⟩ | ⟨x, y, h1, h2, hxy⟩
    · rw [h1, h2]; exact .error _
    · rw [h1, h2]
      dsimp only
      split
      · exact ih hcd
      · by_cases hv : v = .none
        · rw [if_pos hv, if_pos ((alike_none ha).1 hv)]; exact .error _
        · rw [if_neg hv, if_neg fun e => hv ((alike_none ha).2 e)]
          exact ih (set_pairs hcd _ hxy)

theorem writeInfo_pairs (E : FontInfo.Env) (version : Nat) (validate : Bool) {i j : Str → Option PyVal} (h : AlikeObj i j) :
    Dicts (FontInfo.writeInfo E version validate i) (FontInfo.writeInfo E version validate j) := by
  have hg := gather_pairs h (Dict.keys FontInfo.table3)
  have h3 := validateData_pairs E FontInfo.table3 hg
  have h2 := validateData_pairs E FontInfo.table2 (convertData32_pairs hg)
  have hc := convertData21_pairs (convertData32_pairs hg) (c := []) (d := []) .nil
  unfold FontInfo.writeInfo
  dsimp only
  split
  · split
    · exact h3
    · exact .ok _ _ hg
  · split
    · exact h2
    · exact .ok _ _ (convertData32_pairs hg)
  · split
    · generalize FontInfo.validateData E FontInfo.table2 (FontInfo.convertData32 (FontInfo.gather i _)) = x,
        FontInfo.validateData E FontInfo.table2 (FontInfo.convertData32 (FontInfo.gather j _)) = y at h2
      cases h2 with
      | error => exact .error _
      | ok a b h => exact convertData21_pairs h .nil
    · exact hc
  · exact .ok _ _ hg

theorem keys_validated {E : FontInfo.Env} {t : Dict Str FontInfo.Kind} : ∀ {a b : Dict Str PyVal}, FontInfo.validateData E t a = .ok b → b = a
  | [], b, h => by cases h; rfl
  | (k, v) :: a, b, h => by
    rw [FontInfo.validateData] at h
    split at h
    · cases h
    · cases h
    · split at h
      · cases h
      · rename_i r hr
        cases h
        rw [keys_validated hr]

theorem wf_converted : ∀ {a c d : Dict Str PyVal}, c.WF → FontInfo.convertData21 c a = .ok d → d.WF
  | [], c, d, hc, h => by cases h; exact hc
  | (k, v) :: a, c, d, hc, h => by
    rw [FontInfo.convertData21] at h
    split at h
    · cases h
    · split at h
      · exact wf_converted hc h
      · split at h
        · cases h
        · exact wf_converted (Dict.wf_set hc _ _) h

theorem wf_written {E : FontInfo.Env} {version : Nat} {validate : Bool} {i : Str → Option PyVal} {d : Dict Str PyVal}
    (h : FontInfo.writeInfo E version validate i = .ok d) : d.WF := by
  have hg : (FontInfo.gather i (Dict.keys FontInfo.table3)).WF := (FontInfo.keys_gather i _).nodup (by decide +kernel)
  have h2 : (FontInfo.convertData32 (FontInfo.gather i (Dict.keys FontInfo.table3))).WF := ((List.filter_sublist (l := FontInfo.gather i _)).map Prod.fst).nodup hg
  unfold FontInfo.writeInfo at h
  dsimp only at h
  split at h
  · split at h
    · rw [keys_validated h]; exact hg
    · cases h; exact hg
  · split at h
    · rw [keys_validated h]; exact h2
    · cases h; exact h2
  · split at h
    · rcases hx : FontInfo.validateData E FontInfo.table2 (FontInfo.convertData32 (FontInfo.gather i (Dict.keys FontInfo.table3))) with e | x
      · rw [hx] at h; cases h
      · rw [hx] at h; exact wf_converted Dict.wf_nil h
    · exact wf_converted Dict.wf_nil h
  · cases h; exact hg

theorem pairs_alike {a b : Dict Str PyVal} (hw : a.WF) (h : Pairs a b) :
    Alike (.dict (a.map fun e => (.str e.1, e.2))) (.dict (b.map fun e => (.str e.1, e.2))) := by
  refine ⟨⟨?_, ?_⟩, .dict _ _ ?_⟩
  · rw [List.map_map]
    have : (Prod.fst ∘ fun e : Str × PyVal => ((PyVal.str e.1, e.2) : PyVal × PyVal)) = PyVal.str ∘ Prod.fst := rfl
    rw [this, ← List.map_map]
    exact hw.map fun a b h => by cases h; rfl
  · clear hw
    induction h with
    | nil => trivial
    | cons h _ ih => exact ⟨h.2.1, ih⟩
  · clear hw
    induction h with
    | nil => exact .nil
    | @cons p q _ _ h _ ih =>
      rw [List.map_cons, List.map_cons, h.1]
      exact .cons _ _ _ _ _ h.2.2 ih

/-! ### writing property lists -/

theorem writePlist_alike (F : FloatCodec) (hp : Bool) (fs : FS) (p : Path) {v w : PyVal} (h : Alike v w) : writePlist F hp fs p v = writePlist F hp fs p w := by
  unfold writePlist
  rw [Props.same_dumpBytes F h.1 h.2]

theorem writeOrRemove_alike (F : FloatCodec) (w : Ufo.World) (n : Str) (b : Bool) {x y : PyVal} (h : Alike x y) :
    Ufo.writeOrRemove F w n b x = Ufo.writeOrRemove F w n b y := by
  unfold Ufo.writeOrRemove
  rw [writePlist_alike F _ _ _ h]

theorem info_alike (E : FontInfo.Env) (w : Ufo.World) {i j : Str → Option PyVal} (validate : Bool) (h : AlikeObj i j) :
    Ufo.writeInfo E w i validate = Ufo.writeInfo E w j validate := by
  have hp := writeInfo_pairs E w.1.version.toNat validate h
  have hw := @wf_written E w.1.version.toNat validate i
  unfold Ufo.writeInfo
  generalize FontInfo.writeInfo E _ validate i = x, FontInfo.writeInfo E _ validate j = y at hp hw
  cases hp with
  | error => rfl
  | ok a b h =>
    dsimp only
    rw [writePlist_alike E.F _ _ _ (pairs_alike (hw rfl) h)]

theorem respects_fontLib : Respects fontLibValidator := by
  intro v w h
  have hv := view h
  clear h
  cases hv with
  | dict a b h =>
    refine items_all h fun k v w ha => ?_
    have : (match seq? v with | none => false | some l => l.all isStr) = match seq? w with | none => false | some l => l.all isStr :=
      respects_seq false (fun l => l.all isStr) (fun a b h => forall₂_all h respects_isStr) v w ha
    dsimp only
    split
    · exact congrArg (isStr k && ·) this
    · rfl
  | _ => rfl

theorem lib_alike (F : FloatCodec) (w : Ufo.World) {x y : PyVal} (validate : Bool) (h : Alike x y) : Ufo.writeLib F w x validate = Ufo.writeLib F w y validate := by
  unfold Ufo.writeLib
  rw [respects_fontLib x y h, ← Props.truthy_same h.2, writeOrRemove_alike F w _ _ h]

theorem groupsVal_alike {g h : Dict Str (List Str)} (hg : g.WF) (hp : g.Perm h) : Alike (groupsVal g) (groupsVal h) := by
  refine ⟨⟨?_, ?_⟩, .dict _ _ (Plist.sameItems_of_perm (hp.map _))⟩
  · rw [List.map_map]
    have : (Prod.fst ∘ fun e : Str × List Str => ((PyVal.str e.1, PyVal.list (e.2.map .str)) : PyVal × PyVal)) = PyVal.str ∘ Prod.fst := rfl
    rw [this, ← List.map_map]
    exact hg.map fun a b h => by cases h; rfl
  · have hl : ∀ l : List Str, WellFormedList (l.map PyVal.str) := fun l => by
      induction l with
      | nil => trivial
      | cons x l ih => exact ⟨trivial, ih⟩
    clear hg hp
    induction g with
    | nil => trivial
    | cons e g ih => exact ⟨hl e.2, ih⟩

theorem groupsValidator_alike {g h : Dict Str (List Str)} (hp : g.Perm h) : groupsValidator (groupsVal g) = groupsValidator (groupsVal h) := by
  rw [Bool.eq_iff_iff]
  exact ⟨fun hv => Ufo.groupsValidator_perm hp.symm hv, fun hv => Ufo.groupsValidator_perm hp hv⟩

theorem perm_isEmpty {α : Type} {a b : List α} (h : a.Perm b) : a.isEmpty = b.isEmpty := by
  have := h.length_eq
  cases a <;> cases b <;> simp_all

/-- Writing groups, given that what goes into the file is the same up to the order. -/
theorem groups_alike (F : FloatCodec) (w : Ufo.World) {g h : Dict Str (List Str)} (validate : Bool) (hp : g.Perm h) (hw : (Ufo.groupsToWrite w.1 g).WF)
    (ht : (Ufo.groupsToWrite w.1 g).Perm (Ufo.groupsToWrite w.1 h)) : Ufo.writeGroups F w g validate = Ufo.writeGroups F w h validate := by
  unfold Ufo.writeGroups
  rw [groupsValidator_alike hp, perm_isEmpty ht, writeOrRemove_alike F w _ _ (groupsVal_alike hw ht)]

theorem remapGroups_perm {m : Dict Str Str} {g h : Dict Str (List Str)} (hg : g.WF) (hp : g.Perm h) (ha : AgreeingGroups m g) : (remapGroups m g).Perm (remapGroups m h) := by
  refine Ufo.perm_of_get? (Ufo.wf_remapGroups m g) (Ufo.wf_remapGroups m h) fun k => ?_
  have hh := Dict.wf_perm hg hp
  rcases Props.remapGroups_get? m g k with ⟨e, he, hm, hr⟩ | ⟨hn, hr⟩
  · rcases Props.remapGroups_get? m h k with ⟨e', he', hm', hr'⟩ | ⟨hn', -⟩
    · rw [hr, hr', ha e he e' (hp.mem_iff.2 he') k hm hm']
    · exact absurd hm (hn' e (hp.mem_iff.1 he))
  · rcases Props.remapGroups_get? m h k with ⟨e', he', hm', -⟩ | ⟨-, hr'⟩
    · exact absurd hm' (hn e' (hp.mem_iff.2 he'))
    · rcases hr with ⟨e, he, hk, hm, hr⟩ | ⟨hx, hr⟩
      · rcases hr' with ⟨e', he', hk', -, hr'⟩ | ⟨hx', -⟩
        · have h1 := Dict.get?_of_mem hg (show (e.1, e.2) ∈ g from he)
          have h2 := Dict.get?_of_mem hg (show (e'.1, e'.2) ∈ g from hp.mem_iff.2 he')
          rw [hk] at h1
          rw [hk', h1] at h2
          rw [hr, hr', h2]
        · exact absurd hm (hx' e (hp.mem_iff.1 he) hk)
      · rcases hr' with ⟨e', he', hk', hm', -⟩ | ⟨-, hr'⟩
        · exact absurd hm' (hx e' (hp.mem_iff.2 he') hk')
        · rw [hr, hr']

/-! ### kerning -/

theorem wf_asDict {d : Dict Str PyVal} (hd : d.WF) (hv : ∀ e ∈ d, WellFormed e.2) : WellFormed (.dict (d.map fun e => (.str e.1, e.2))) := by
  refine ⟨?_, ?_⟩
  · rw [List.map_map]
    have : (Prod.fst ∘ fun e : Str × PyVal => ((PyVal.str e.1, e.2) : PyVal × PyVal)) = PyVal.str ∘ Prod.fst := rfl
    rw [this, ← List.map_map]
    exact hd.map fun a b h => by cases h; rfl
  · clear hd
    induction d with
    | nil => trivial
    | cons e d ih => exact ⟨hv e (by simp), ih fun x hx => hv x (by simp [hx])⟩

theorem kerningVal_alike {k l : Dict (Str × Str) PyVal} (hk : k.WF) (hv : ∀ e ∈ k, WellFormed e.2) (hp : k.Perm l) :
    Alike (Ufo.kerningVal (nest k)) (Ufo.kerningVal (nest l)) := by
  have hl := Dict.wf_perm hk hp
  refine ⟨?_, Props.same_kerning hk hl fun p => ?_⟩
  · obtain ⟨h1, h2, -⟩ := Ufo.nest_spec k
    unfold Ufo.kerningVal
    have := wf_asDict (d := (nest k).map fun r => (r.1, PyVal.dict (r.2.map fun e => (.str e.1, e.2)))) (by
      have : Dict.keys ((nest k).map fun r => (r.1, PyVal.dict (r.2.map fun e => (PyVal.str e.1, e.2)))) = Dict.keys (nest k) := by
        simp [Dict.keys, Function.comp_def]
      rw [Dict.WF, this]; exact h1.1) (by
      intro e he
      obtain ⟨r, hr, rfl⟩ := List.mem_map.1 he
      exact wf_asDict (h1.2 r hr) fun e he => hv _ ((h2 r hr).2 e he))
    rwa [List.map_map] at this
  · cases hx : Dict.get? k p with
    | none =>
      cases hy : Dict.get? l p with
      | none => rfl
      | some v =>
        have := Dict.get?_of_mem hk (hp.mem_iff.2 (Dict.mem_of_get? hy))
        rw [hx] at this; cases this
    | some v => exact Dict.get?_of_mem hl (hp.mem_iff.1 (Dict.mem_of_get? hx))

theorem nest_isEmpty (k : Dict (Str × Str) PyVal) : (nest k).isEmpty = k.isEmpty := by
  cases k with
  | nil => rfl
  | cons e k =>
    cases hn : nest (e :: k) with
    | nil => exact absurd ((Ufo.nest_spec _).2.2 hn) (by simp)
    | cons => rfl

/-- Writing kerning, given that the pairs that go into the file are the same up to the order. -/
theorem kerning_alike (F : FloatCodec) (w : Ufo.World) {k l k' l' : Dict (Str × Str) PyVal} (validate : Bool) (hp : k.Perm l)
    (hk : Ufo.kerningToWrite w.1 k = nest k') (hl : Ufo.kerningToWrite w.1 l = nest l') (hw : k'.WF) (hv : ∀ e ∈ k', WellFormed e.2) (hp' : k'.Perm l') :
    Ufo.writeKerning F w k validate = Ufo.writeKerning F w l validate := by
  have hall : k.all (fun e => isNumber e.2) = l.all fun e => isNumber e.2 := by
    rw [Bool.eq_iff_iff, List.all_eq_true, List.all_eq_true]
    exact ⟨fun h x hx => h x (hp.mem_iff.2 hx), fun h x hx => h x (hp.mem_iff.1 hx)⟩
  unfold Ufo.writeKerning
  rw [hall, hk, hl, nest_isEmpty, nest_isEmpty, perm_isEmpty hp', writeOrRemove_alike F w _ _ (kerningVal_alike hw hv hp')]

theorem wf_remapKerning (m : Dict Str Str) (k : Dict (Str × Str) PyVal) : (remapKerning m k).WF := by
  unfold remapKerning
  have : ∀ (l : List ((Str × Str) × PyVal)) (r : Dict (Str × Str) PyVal), r.WF →
      (l.foldl (fun r e => r.set (m.getD e.1.1 e.1.1, m.getD e.1.2 e.1.2) e.2) r).WF := by
    intro l
    induction l with
    | nil => exact fun r hr => hr
    | cons e l ih => exact fun r hr => ih _ (Dict.wf_set hr _ _)
  exact this k [] Dict.wf_nil

theorem remapKerning_get? (m : Dict Str Str) (k : Dict (Str × Str) PyVal) (p : Str × Str) :
    (∃ e ∈ k, (m.getD e.1.1 e.1.1, m.getD e.1.2 e.1.2) = p ∧ (remapKerning m k).get? p = some e.2) ∨
      ((∀ e ∈ k, (m.getD e.1.1 e.1.1, m.getD e.1.2 e.1.2) ≠ p) ∧ (remapKerning m k).get? p = none) :=
  Converters.get?_foldl_set_cases (fun e : (Str × Str) × PyVal => (m.getD e.1.1 e.1.1, m.getD e.1.2 e.1.2)) (fun e => e.2) k [] p

theorem remapKerning_perm {m : Dict Str Str} {k l : Dict (Str × Str) PyVal} (hp : k.Perm l) (ha : AgreeingPairs m k) : (remapKerning m k).Perm (remapKerning m l) := by
  refine Ufo.perm_of_get? (wf_remapKerning m k) (wf_remapKerning m l) fun p => ?_
  rcases remapKerning_get? m k p with ⟨e, he, h1, hr⟩ | ⟨hn, hr⟩
  · rcases remapKerning_get? m l p with ⟨e', he', h1', hr'⟩ | ⟨hn', -⟩
    · have := h1.trans h1'.symm
      rw [Prod.mk.injEq] at this
      rw [hr, hr', ha e he e' (hp.mem_iff.2 he') this.1 this.2]
    · exact absurd h1 (hn' e (hp.mem_iff.1 he))
  · rcases remapKerning_get? m l p with ⟨e', he', h1', -⟩ | ⟨-, hr'⟩
    · exact absurd h1' (hn e' (hp.mem_iff.2 he'))
    · rw [hr, hr']

theorem remapKerning_values {m : Dict Str Str} {k : Dict (Str × Str) PyVal} (hv : ∀ e ∈ k, WellFormed e.2) : ∀ e ∈ remapKerning m k, WellFormed e.2 := by
  intro e he
  have hg := Dict.get?_of_mem (wf_remapKerning m k) he
  rcases remapKerning_get? m k e.1 with ⟨x, hx, -, hr⟩ | ⟨-, hr⟩
  · rw [hr] at hg; rw [← Option.some.inj hg]; exact hv x hx
  · rw [hr] at hg; cases hg

/-! ### layer info -/

/-- The same attributes, as values, with values that are alike. -/
theorem gatherLayer_alike {i j : Str → Option PyVal} (h : AlikeObj i j) : ∀ ks, SameItems (GlyphSet.gatherLayerInfo i ks) (GlyphSet.gatherLayerInfo j ks) ∧
    WellFormedItems (GlyphSet.gatherLayerInfo i ks) ∧ ∀ F, GlyphSet.validateLayerInfo F (GlyphSet.gatherLayerInfo i ks) = GlyphSet.validateLayerInfo F (GlyphSet.gatherLayerInfo j ks)
  | [] => ⟨.nil, trivial, fun _ => rfl⟩
  | a :: ks => by
    have ih := gatherLayer_alike h ks
    have ha := h a
    unfold GlyphSet.gatherLayerInfo
    generalize i a = x, j a = y at ha
    cases ha with
    | none => exact ih
    | some hs =>
      rename_i v w
      dsimp only
      have hn := alike_none hs
      have ht := Props.truthy_same hs.2
      have hd : GlyphSet.isDict v = GlyphSet.isDict w := by cases view hs <;> rfl
      by_cases hc : v = .none ∨ a = c!"lib" ∧ Ufo.truthy v = false
      · rw [if_pos hc, if_pos (by rw [← hn, ht]; exact hc)]
        exact ih
      · rw [if_neg hc, if_neg (by rw [← hn, ht]; exact hc)]
        refine ⟨.cons _ _ _ _ _ hs.2 ih.1, ⟨hs.1, ih.2.1⟩, fun F => ?_⟩
        rw [GlyphSet.validateLayerInfo, GlyphSet.validateLayerInfo, GlyphSet.layerInfoValid, GlyphSet.layerInfoValid, ih.2.2, respects_color F v w hs, hd]

theorem layerInfo_alike (F : FloatCodec) (w : GlyphSet.World) {i j : Str → Option PyVal} (validate : Bool) (h : AlikeObj i j) :
    GlyphSet.writeLayerInfo F w i validate = GlyphSet.writeLayerInfo F w j validate := by
  obtain ⟨h1, h2, h3⟩ := gatherLayer_alike h GlyphSet.layerInfoAttrs
  have ha : Alike (.dict (GlyphSet.gatherLayerInfo i GlyphSet.layerInfoAttrs)) (.dict (GlyphSet.gatherLayerInfo j GlyphSet.layerInfoAttrs)) :=
    ⟨⟨GlyphSet.gather_nodup i, h2⟩, .dict _ _ h1⟩
  have he : (GlyphSet.gatherLayerInfo i GlyphSet.layerInfoAttrs).isEmpty = (GlyphSet.gatherLayerInfo j GlyphSet.layerInfoAttrs).isEmpty := by
    have := (FontInfo.sameItems_keys h1).length_eq
    simp only [List.length_map] at this
    generalize GlyphSet.gatherLayerInfo i _ = x, GlyphSet.gatherLayerInfo j _ = y at this
    cases x <;> cases y <;> simp_all
  unfold GlyphSet.writeLayerInfo GlyphSet.storeLayerInfo
  rw [he, h3, writePlist_alike F _ _ _ ha]

end Verif.Order
