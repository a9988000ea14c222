import Verif.Proofs.UfoUpgrade
import Verif.Props.UfoUnchanged
/-! Saving what a saved UFO delivers: the content. -/
namespace Verif.Props
open Verif Verif.Ufo Verif.Validators Verif.FS Verif.IO Verif.FontInfo Verif.Kerning Verif.Converters Verif.Spec.Converters Verif.Spec.Ufo Verif.Spec.Plist Verif.Spec.FontInfo

/-! ### values that differ in the order of items -/

theorem same_dumpBytes (F : FloatCodec) {v w : PyVal} (hv : WellFormed v) (h : Same v w) : dumpBytes F w = dumpBytes F v := by
  unfold dumpBytes Plist.dumps
  rw [show Plist.totree F false true 1 v = Plist.totree F false true 1 w from (Plist.same_tree F false true h hv).2 1]

theorem perm_erase {κ ν : Type} [DecidableEq κ] {d : Dict κ ν} (hd : Dict.WF d) {k : κ} {v : ν} (h : Dict.get? d k = some v) : ((k, v) :: Dict.erase d k).Perm d := by
  refine perm_of_get? ?_ hd fun x => ?_
  · have hw := Dict.wf_erase hd k
    have : k ∉ Dict.keys (Dict.erase d k) := by
      rw [← Dict.get?_eq_none_iff, Dict.get?_erase, if_pos rfl]
    exact List.nodup_cons.2 ⟨this, hw⟩
  · rw [Dict.get?_cons, Dict.get?_erase]
    split
    · rename_i e; rw [← e, h]
    · rfl

theorem sameItems_of_get? : ∀ {a b : Dict Str PyVal}, Dict.WF a → Dict.WF b → (∀ k, Option.Rel Same (Dict.get? a k) (Dict.get? b k)) →
    SameItems (a.map fun p => (.str p.1, p.2)) (b.map fun p => (.str p.1, p.2))
  | [], b, _, _, h => by
    cases b with
    | nil => exact .nil
    | cons e b =>
      have := h e.1
      rw [Dict.get?_cons, if_pos rfl] at this
      cases this
  | (k, v) :: a, b, ha, hb, h => by
    have hk := h k
    rw [Dict.get?_cons, if_pos rfl] at hk
    cases hw : Dict.get? b k with
    | none => rw [hw] at hk; cases hk
    | some w =>
      rw [hw] at hk
      cases hk with
      | some hs =>
        obtain ⟨ha1, ha2⟩ := List.nodup_cons.1 (show (k :: Dict.keys a).Nodup from ha)
        refine .trans _ _ _ (.cons (.str k) v w _ ((Dict.erase b k).map fun p : Str × PyVal => ((.str p.1 : PyVal), p.2)) hs (sameItems_of_get? ha2 (Dict.wf_erase hb k) fun x => ?_))
          (Plist.sameItems_of_perm ((perm_erase hb hw).map fun p : Str × PyVal => ((.str p.1 : PyVal), p.2)))
        have hx := h x
        rw [Dict.get?_cons] at hx
        rw [Dict.get?_erase]
        split
        · rename_i e
          subst e
          rw [Dict.get?_eq_none_iff.2 ha1]
          exact .none
        · rename_i e
          rwa [if_neg e] at hx

theorem same_asDict {a b : Dict Str PyVal} (ha : Dict.WF a) (hb : Dict.WF b) (h : ∀ k, Option.Rel Same (Dict.get? a k) (Dict.get? b k)) : Same (asDict a) (asDict b) :=
  .dict _ _ (sameItems_of_get? ha hb h)

theorem same_none_iff {v w : PyVal} (h : Same v w) : v = .none ↔ w = .none := by
  cases h <;> simp

theorem same_gather {i j : Str → Option PyVal} : ∀ (ks : List Str), (∀ a, Option.Rel Same (i a) (j a)) →
    SameItems ((gather i ks).map fun p => (.str p.1, p.2)) ((gather j ks).map fun p => (.str p.1, p.2))
  | [], _ => .nil
  | a :: ks, h => by
    have ih := same_gather ks h
    have ha := h a
    unfold gather
    cases hi : i a with
    | none =>
      rw [hi] at ha
      cases hj : j a with
      | none => exact ih
      | some w => rw [hj] at ha; cases ha
    | some v =>
      rw [hi] at ha
      cases hj : j a with
      | none => rw [hj] at ha; cases ha
      | some w =>
        rw [hj] at ha
        cases ha with
        | some hs =>
          have hn := same_none_iff hs
          by_cases hv : v = .none
          · have hw := hn.1 hv
            subst hv; subst hw
            exact ih
          · have hw := fun e => hv (hn.2 e)
            cases v <;> first | exact absurd rfl hv | (cases w <;> first | exact absurd rfl hw | exact .cons _ _ _ _ _ hs ih)

theorem same_groups {g h : Dict Str (List Str)} (hg : Dict.WF g) (hh : Dict.WF h) (he : ∀ n, Dict.get? h n = Dict.get? g n) : Same (groupsVal g) (groupsVal h) := by
  refine .dict _ _ (Plist.sameItems_of_perm ?_)
  exact (perm_of_get? hg hh fun n => (he n).symm).map _

theorem get?_mapVal' {ν : Type} (f : ν → PyVal) (k : Dict Str ν) (a : Str) : Dict.get? (mapVal f k) a = (Dict.get? k a).map f := by
  induction k with
  | nil => rfl
  | cons e k ih =>
    show Dict.get? ((e.1, f e.2) :: mapVal f k) a = _
    rw [Dict.get?_cons, Dict.get?_cons]
    split
    · rfl
    · exact ih

theorem same_kerning {k l : Dict (Str × Str) PyVal} (hk : Dict.WF k) (hl : Dict.WF l) (h : ∀ p, Dict.get? l p = Dict.get? k p) :
    Same (Ufo.kerningVal (nest k)) (Ufo.kerningVal (nest l)) := by
  obtain ⟨k1, k2, -⟩ := nest_spec k
  obtain ⟨l1, l2, -⟩ := nest_spec l
  have hp : ∀ a b, pairValue (nest l) a b = pairValue (nest k) a b := fun a b => by rw [nest_pairs hk, nest_pairs hl, h]
  have hrow : ∀ {k : Dict (Str × Str) PyVal} {a : Str}, Dict.WF k → Dict.get? (nest k) a = none → ∀ b, Dict.get? k (a, b) = none := by
    intro k a hk hn b
    rw [← nest_pairs hk, pairValue, hn]; rfl
  rw [kerningVal_eq, kerningVal_eq]
  refine same_asDict ((wf_mapVal _).2 k1.1) ((wf_mapVal _).2 l1.1) fun a => ?_
  rw [get?_mapVal', get?_mapVal']
  cases ha : Dict.get? (nest k) a with
  | none =>
    cases hb : Dict.get? (nest l) a with
    | none => exact .none
    | some r =>
      obtain ⟨e, he, hea⟩ := (l2 _ (Dict.mem_of_get? hb)).1
      have := Dict.get?_of_mem hl he
      rw [h, show e.1 = (a, e.1.2) from Prod.ext hea rfl, hrow hk ha] at this
      cases this
  | some r =>
    cases hb : Dict.get? (nest l) a with
    | none =>
      obtain ⟨e, he, hea⟩ := (k2 _ (Dict.mem_of_get? ha)).1
      have := Dict.get?_of_mem hk he
      rw [← h, show e.1 = (a, e.1.2) from Prod.ext hea rfl, hrow hl hb] at this
      cases this
    | some s =>
      refine .some (same_asDict (k1.2 _ (Dict.mem_of_get? ha)) (l1.2 _ (Dict.mem_of_get? hb)) fun b => ?_)
      have := hp a b
      simp only [pairValue, ha, hb, Option.bind_some] at this
      rw [this]
      cases Dict.get? r b with
      | none => exact .none
      | some v => exact .some (.refl v)

/-! ### the file a call leaves -/

/-- The file after a call that saves a part of the content. -/
def textOf (F : FloatCodec) : Op → Option Bytes
  | .info i _ => (dumpBytes F (asDict (gather i (Dict.keys table3)))).toOption
  | .groups g _ => if g.isEmpty then none else (dumpBytes F (groupsVal g)).toOption
  | .kerning k _ => if (nest k).isEmpty then none else (dumpBytes F (Ufo.kerningVal (nest k))).toOption
  | .lib l _ => if truthy l then (dumpBytes F l).toOption else none
  | .features s => if s.isEmpty then none else some (utf8 s)
  | _ => none

/-- What a call does to the file `n`, given what is in it afterwards. -/
structure Leaves (hp : Bool) (fs : FS) (n : Str) (x : Option Bytes) (r : FS × Except Exc Unit) : Prop where
  file : (hp = true ∨ (x = none → fs.node? [n] = none)) → r.1.node? [n] = x.map .file
  again : hp = true → fs.node? [n] = x.map .file → r = (fs, .ok ())

theorem leaves_plist {F : FloatCodec} (hF : F.Lawful) (hp : Bool) {fs : FS} {n : Str} {v : PyVal} (hv : Storable v) (hn : fs.node? [n] ≠ some .dir) :
    Leaves hp fs n (dumpBytes F v).toOption (writePlist F hp fs [n] v) := by
  obtain ⟨fs', h⟩ := writePlist_root F hF hp hv hn
  obtain ⟨-, -, h3⟩ := writePlist_spec h
  obtain ⟨d, hd, hb⟩ := h3 rfl
  rw [hd]
  refine ⟨fun _ => ?_, fun hpt hx => ?_⟩
  · rw [h]; exact getbytes_ok.1 hb
  · subst hpt
    exact Props.C56_plist F fs [n] v d hd (getbytes_ok.2 hx)

theorem leaves_removed {fs : FS} {n : Str} (hn : fs.node? [n] ≠ some .dir) : Leaves true fs n none (removePath fs [n] true false) := by
  refine ⟨fun _ => (removePath_root hn).2, fun _ hx => ?_⟩
  have hr : fs.remove [n] = .error .resourceNotFound := by unfold FS.remove; rw [hx]; rfl
  simp [removePath, removeNode, hr]

theorem leaves_or {F : FloatCodec} (hF : F.Lawful) {w : World} {n : Str} {empty : Bool} {v : PyVal} (hv : empty = false → Storable v) (hn : w.2.node? [n] ≠ some .dir) :
    (writeOrRemove F w n empty v).1.1 = w.1 ∧
      Leaves w.1.havePrevious w.2 n (if empty then none else (dumpBytes F v).toOption) ((writeOrRemove F w n empty v).1.2, (writeOrRemove F w n empty v).2) := by
  unfold writeOrRemove
  cases empty with
  | false => exact ⟨rfl, leaves_plist hF _ (hv rfl) hn⟩
  | true =>
    rw [if_neg (by simp)]
    split
    · rename_i hp
      refine ⟨rfl, ?_⟩
      rw [hp]
      exact leaves_removed hn
    · rename_i hp
      exact ⟨rfl, fun h => h.elim (fun h => absurd h hp) fun h => h rfl, fun h => absurd h hp⟩

/-- A call that saves a part of the content. -/
theorem saves_leaves {E : FontInfo.Env} (hF : E.F.Lawful) (L : Casing) {c : Content} (hc : Savable E c) {w : World} (h3 : w.1.version = 3)
    {op : Op} (hs : Saves c op) {n : Str} (hn : Concerns op n) (hdir : w.2.node? [n] ≠ some .dir) :
    (step E L w op).1.1 = w.1 ∧ Leaves w.1.havePrevious w.2 n (textOf E.F op) ((step E L w op).1.2, (step E L w op).2) := by
  cases hs with
  | info =>
    cases hn
    obtain ⟨hi, hst⟩ := gather_info hc
    have hx : FontInfo.writeInfo E w.1.version.toNat true (Dict.get? c.info) = .ok (gather (Dict.get? c.info) (Dict.keys table3)) := by rw [h3]; exact hi
    simp only [step, Ufo.writeInfo, hx]
    exact ⟨trivial, leaves_plist hF w.1.havePrevious hst hdir⟩
  | groups =>
    cases hn
    have hgw : groupsToWrite w.1 c.groups = c.groups := by
      unfold groupsToWrite
      split
      · rw [if_neg (by omega)]
      · rfl
    obtain ⟨g1, g2, g3⟩ := hc.groups
    simp only [step, writeGroups, hgw, g2, Bool.not_true, Bool.and_false, Bool.false_eq_true, if_false]
    exact leaves_or hF (fun _ => storable_groups g1 g3) hdir
  | kerning =>
    cases hn
    have hkw : kerningToWrite w.1 c.kerning = nest c.kerning := by
      unfold kerningToWrite
      split
      · rw [if_neg (by omega)]
      · rfl
    obtain ⟨k1, k2⟩ := hc.kerning
    have hall : (c.kerning.all fun e => isNumber e.2) = true := List.all_eq_true.2 fun e he => isNumber_iff.2 (k2 e he).2.2.2
    simp only [step, writeKerning, hkw, hall, Bool.not_true, Bool.and_false, Bool.false_eq_true, if_false]
    exact leaves_or hF (fun _ => storable_nest k2) hdir
  | lib =>
    cases hn
    obtain ⟨l, hl, l1, l2, l3⟩ := hc.lib
    rw [hl]
    simp only [step, writeLib, l3, Bool.not_true, Bool.and_false, Bool.false_eq_true, if_false]
    have := leaves_or hF (w := w) (n := libName) (empty := !truthy (.dict l)) (v := .dict l) (fun _ => l2) hdir
    refine ⟨this.1, ?_⟩
    have h2 := this.2
    have hx : (if (!truthy (.dict l)) = true then none else (dumpBytes E.F (.dict l)).toOption) = textOf E.F (.lib (.dict l) true) := by
      show _ = if truthy (.dict l) = true then (dumpBytes E.F (.dict l)).toOption else none
      cases truthy (.dict l) <;> rfl
    rwa [hx] at h2
  | features =>
    cases hn
    simp only [step, writeFeatures]
    rw [if_neg (by omega)]
    simp only [textOf]
    cases hfe : c.features.isEmpty with
    | false =>
      simp only [Bool.not_false, if_true, Bool.false_eq_true, if_false, true_and]
      refine ⟨fun _ => ?_, fun hp hx => ?_⟩
      · have hok : (writeBytesToPath w.1.havePrevious w.2 [featuresName] (utf8 c.features)).2 = .ok () := by
          unfold writeBytesToPath
          split
          · rfl
          · rw [setbytes_of (p := [featuresName]) _ rfl hdir]
        exact getbytes_ok.1 ((writeBytesToPath_spec _ _ _ _).2.1 hok)
      · have hu : unchanged w.2 [featuresName] (utf8 c.features) = true := unchanged_iff.2 (getbytes_ok.2 hx)
        simp [writeBytesToPath, hp, hu]
    | true =>
      simp only [Bool.not_true, Bool.false_eq_true, if_false, if_true]
      split
      · rename_i hp
        refine ⟨rfl, ?_⟩
        rw [hp]
        exact leaves_removed hdir
      · rename_i hp
        exact ⟨rfl, fun h => h.elim (fun h => absurd h hp) fun h => h rfl, fun h => absurd h hp⟩

/-- The same content has the same files. -/
theorem agree_files {E : FontInfo.Env} {c c' : Content} (hc : Savable E c) (hc' : Savable E c') (h : c.Agree c') {op' : Op} (hs : Saves c' op') :
    ∃ op, Saves c op ∧ textOf E.F op' = textOf E.F op ∧ ∀ n, Concerns op' n → Concerns op n := by
  cases hs with
  | info =>
    refine ⟨_, .info, ?_, fun n hn => by cases hn; exact .info⟩
    simp only [textOf]
    rw [same_dumpBytes E.F (w := asDict (gather (Dict.get? c'.info) (Dict.keys table3))) (gather_info hc).2.2 (.dict _ _ (same_gather _ h.info))]
  | groups =>
    refine ⟨_, .groups, ?_, fun n hn => by cases hn; exact .groups⟩
    simp only [textOf]
    rw [same_dumpBytes E.F (storable_groups hc.groups.1 hc.groups.2.2).2 (same_groups hc.groups.1 hc'.groups.1 h.groups)]
    have hp := perm_of_get? hc'.groups.1 hc.groups.1 h.groups
    have : c'.groups.isEmpty = c.groups.isEmpty := by
      rw [Bool.eq_iff_iff, List.isEmpty_iff, List.isEmpty_iff]
      exact ⟨fun e => by rw [e] at hp; exact hp.symm.eq_nil, fun e => by rw [e] at hp; exact hp.eq_nil⟩
    rw [this]
  | kerning =>
    refine ⟨_, .kerning, ?_, fun n hn => by cases hn; exact .kerning⟩
    simp only [textOf]
    have hs := same_kerning hc.kerning.1 hc'.kerning.1 h.kerning
    rw [same_dumpBytes E.F (storable_nest hc.kerning.2).2 hs]
    have : (nest c'.kerning).isEmpty = (nest c.kerning).isEmpty := by
      rw [Bool.eq_iff_iff, List.isEmpty_iff, List.isEmpty_iff]
      have hp := perm_of_get? hc'.kerning.1 hc.kerning.1 h.kerning
      refine ⟨fun e => ?_, fun e => ?_⟩
      · have := (nest_spec c'.kerning).2.2 e
        rw [this] at hp
        rw [hp.symm.eq_nil]; rfl
      · have := (nest_spec c.kerning).2.2 e
        rw [this] at hp
        rw [hp.eq_nil]; rfl
    rw [this]
  | lib =>
    refine ⟨_, .lib, ?_, fun n hn => by cases hn; exact .lib⟩
    obtain ⟨d, hd, -, hst, -⟩ := hc.lib
    obtain ⟨d', hd', -⟩ := hc'.lib
    simp only [textOf]
    rw [same_dumpBytes E.F (by rw [hd]; exact hst.2) h.lib]
    have hl := h.lib
    rw [hd, hd'] at hl ⊢
    have : truthy (.dict d') = truthy (.dict d) := by
      cases hl with
      | refl _ => rfl
      | dict _ _ hi =>
        have := sameItems_keys hi
        have hlen := this.length_eq
        simp only [List.length_map] at hlen
        unfold truthy
        cases d <;> cases d' <;> simp at hlen <;> rfl
    rw [this]
  | features =>
    refine ⟨_, .features, ?_, fun n hn => by cases hn; exact .features⟩
    rw [h.features]

theorem storable_dumps {F : FloatCodec} (hF : F.Lawful) {v : PyVal} (hv : Storable v) : ∃ b, dumpBytes F v = .ok b := by
  obtain ⟨s, w, h, -⟩ := Plist.loads_dumps F hF true v hv.1 hv.2
  exact ⟨utf8 s, by unfold dumpBytes; rw [h]⟩

/-- When a part of the content leaves no file, there is nothing to store. -/
theorem blank_of {E : FontInfo.Env} (hF : E.F.Lawful) {c : Content} (hc : Savable E c) {op : Op} (hs : Saves c op) {n : Str} (hn : Concerns op n) (hx : textOf E.F op = none) :
    Blank c n := by
  have hsome : ∀ {v : PyVal}, Storable v → (dumpBytes E.F v).toOption ≠ none := by
    intro v hv
    obtain ⟨b, hb⟩ := storable_dumps hF hv
    rw [hb]; exact nofun
  cases hs with
  | info =>
    cases hn
    exact absurd hx (hsome (gather_info hc).2)
  | groups =>
    cases hn
    simp only [textOf] at hx
    split at hx
    · rename_i he; exact .inl ⟨rfl, List.isEmpty_iff.1 he⟩
    · exact absurd hx (hsome (storable_groups hc.groups.1 hc.groups.2.2))
  | kerning =>
    cases hn
    simp only [textOf] at hx
    split at hx
    · rename_i he; exact .inr (.inl ⟨rfl, (nest_spec c.kerning).2.2 (List.isEmpty_iff.1 he)⟩)
    · exact absurd hx (hsome (storable_nest hc.kerning.2))
  | lib =>
    cases hn
    obtain ⟨d, hd, -, hst, -⟩ := hc.lib
    simp only [textOf, hd] at hx
    split at hx
    · exact absurd hx (hsome hst)
    · rename_i he
      refine .inr (.inr (.inl ⟨rfl, ?_⟩))
      rw [hd]
      cases d with
      | nil => rfl
      | cons => exact absurd rfl he
  | features =>
    cases hn
    simp only [textOf] at hx
    split at hx
    · rename_i he; exact .inr (.inr (.inr ⟨rfl, List.isEmpty_iff.1 he⟩))
    · cases hx

/-- The files of the content after it was saved. -/
theorem content_files {E : FontInfo.Env} (hF : E.F.Lawful) (L : Casing) {c : Content} (hc : Savable E c) {hp : Bool} {canon : Str → Str} (hk : KeepsApart canon) {w : World}
    (h0 : Saving c hp canon w) {ops : List Op} (ho : ∀ op ∈ ops, Saves c op ∨ Bystander canon op) {op : Op} (hs : Saves c op) (hmem : op ∈ ops)
    {n : Str} (hn : n ∈ contentNames) (hcn : Concerns op n) : (run E L w ops).2.node? [n] = (textOf E.F op).map .file := by
  obtain ⟨pre, post, rfl, hpre, hpost⟩ := last_save hk ho hs hmem hn hcn
  have h1 := saving_run hF L hc hk pre h0 hpre
  have h2 := saving_step hF L hc hk h1 (.inl hs : Saves c op ∨ Bystander canon op)
  rw [run_append]
  show (run E L (step E L (run E L w pre) op).1 post).2.node? [n] = _
  rw [run_node? E L _ h2.layered post (fun o ho => by rw [h2.canon]; exact hpost o ho) []]
  refine (saves_leaves hF L hc h1.version hs hcn (h1.dirs n hn)).2.file ?_
  rw [h1.previous]
  cases hp with
  | true => exact .inl rfl
  | false => exact .inr fun hx => h1.blank rfl n hn (blank_of hF hc hs hcn hx)

end Verif.Props
