import Verif.Proofs.InfoObjects
import Verif.Props.ReadInto
import Verif.Props.UfoInfo
import Verif.Spec.UfoCopy
/-! Info objects that are used for more than one UFO: C133; and the layer info of C132. -/
namespace Verif.Props
open Verif Verif.ReadInto Verif.Proofs.InfoObjects Verif.FontInfo Verif.Spec.FontInfo Verif.Spec.Plist Verif.Spec.Ufo

/-- `readLayerInfo`: if the layer info is valid, and the object accepts the two attributes, it has the values of the file afterwards, and its other attributes are as before. -/
theorem C132_layer_read (F : FloatCodec) (w : GlyphSet.World) (t : Target) (data : List (PyVal × PyVal)) (h : GlyphSet.readLayerInfo F w true = .ok data)
    (ha : t.accepts c!"color" = true ∧ t.accepts c!"lib" = true) :
    ∃ t', readLayerInfoInto F w true t = (t', .ok ()) ∧ ∀ k, t'.attrs k = (infoObject data k).or (t.attrs k) := by
  have hd : Dict.WF data ∧ ∀ e ∈ data, ∃ k, e.1 = .str k ∧ t.accepts k = true := by
    unfold GlyphSet.readLayerInfo at h
    split at h
    · cases h
    · rename_i d hd
      rw [if_pos rfl] at h
      cases hv : GlyphSet.validateLayerInfo F d with
      | error e => rw [hv] at h; cases h
      | ok u =>
        rw [hv] at h
        cases h
        obtain ⟨hr, -⟩ := Ufo.getPlist_readable hd
        have hr : Readable (.dict d) := hr.resolve_left (by simp)
        refine ⟨hr.1, fun e he => ?_⟩
        obtain ⟨a, h1, h2, -⟩ := GlyphSet.validateLayerInfo_iff.1 hv e he
        refine ⟨a, h2, ?_⟩
        have : a = c!"color" ∨ a = c!"lib" := by simpa [GlyphSet.layerInfoAttrs] using h1
        rcases this with rfl | rfl
        · exact ha.1
        · exact ha.2
    · cases h
  obtain ⟨t', h1, h2⟩ := populateLayer_ok data t hd.1 hd.2
  exact ⟨t', by unfold readLayerInfoInto; rw [h]; exact h1, h2⟩

/-- One object for several UFOs: each attribute has the value of the last UFO that has it, and is as before if none has it. -/
theorem C133_kept (E : FontInfo.Env) (validate : Bool) : ∀ (ufos : List (FS × Int)) (datas : List (Dict Str PyVal)) (t : Target),
    ufos.map (fun u => Ufo.readInfo E u.1 u.2 validate) = datas.map .ok → (∀ d ∈ datas, ∀ k v, Dict.get? d k = some v → t.accepts k = true) →
    ∃ t', readInfos E validate t ufos = (t', .ok ()) ∧ ∀ k, t'.attrs k = (datas.reverse.findSome? fun d => Dict.get? d k).or (t.attrs k)
  | [], [], t, _, _ => ⟨t, rfl, fun k => rfl⟩
  | [], d :: ds, t, h, _ => by cases h
  | u :: us, [], t, h, _ => by cases h
  | (fs, version) :: us, d :: ds, t, h, ha => by
    simp only [List.map_cons, List.cons.injEq] at h
    obtain ⟨t1, h1, h2, h3⟩ := into_ok h.1 (ha d List.mem_cons_self)
    obtain ⟨t', h4, h5⟩ := C133_kept E validate us ds t1 h.2 fun d' hd => by rw [h2]; exact ha d' (List.mem_cons_of_mem _ hd)
    refine ⟨t', by unfold readInfos; rw [h1]; exact h4, fun k => ?_⟩
    rw [h5, h3, List.reverse_cons, List.findSome?_append, Option.or_assoc]
    congr 1
    cases hg : Dict.get? d k <;> simp [hg]

/-- A UFO that cannot be read ends the loop with its exception, and the object has what the UFOs before gave it. -/
theorem C133_ended (E : FontInfo.Env) (validate : Bool) : ∀ (ufos : List (FS × Int)) (t t' : Target) (fs : FS) (version : Int) (rest : List (FS × Int)) (e : Exc),
    readInfos E validate t ufos = (t', .ok ()) → Ufo.readInfo E fs version validate = .error e → readInfos E validate t (ufos ++ (fs, version) :: rest) = (t', .error e)
  | [], t, t', fs, version, rest, e, h, he => by
    cases h
    rw [List.nil_append]
    unfold readInfos readInfoInto
    rw [he]
  | (f, v) :: us, t, t', fs, version, rest, e, h, he => by
    unfold readInfos at h
    rw [List.cons_append]
    unfold readInfos
    split at h
    · cases h
    · rename_i t1 h1
      exact C133_ended E validate us t1 t' fs version rest e h he

/-- `readInfo` of any UFO into an object, and `writeInfo` of the object in a session on a UFO 3: whatever else the session writes afterwards, the UFO then has the attributes of the file, and
those that the object had before and the file has not. Missing from the full claim (the UFO then has the info of the file, see `C133_reused_refuted`): the object has no attribute that the file has not. -/
theorem C133_saved_partial (E : FontInfo.Env) (hF : E.F.Lawful) (L : Casing) (hp : Bool) (fs fs' : FS) (creator : PyVal) (w : Ufo.Writer)
    (h : Ufo.openWriter E.F hp fs 3 creator true = (fs', .ok w)) (pre post : List Ufo.Op) (src : FS) (version : Int) (data : Dict Str PyVal) (hr : Ufo.readInfo E src version true = .ok data)
    (t t' : Target) (w' : Ufo.World) (ha : ∀ k v, Dict.get? data k = some v → t.accepts k = true)
    (hfit : ∀ k v, Dict.get? data k = some v → Fits v) (hval : ∀ k v, t.attrs k = some v → v ≠ .none → Storable v)
    (hok : readAndWrite E src version (Ufo.run E L (w, fs') pre) true t = (t', w', .ok ()))
    (hpost : ∀ op ∈ post, Spares fs'.canon c!"fontinfo.plist" op) :
    ∃ r, Ufo.readInfo E (Ufo.run E L w' post).2 3 true = .ok r ∧
      ∀ a, Option.Rel (fun v w => Same (untuple v) w) (if a ∈ Dict.keys table3 then present ((Dict.get? data a).or (t.attrs a)) else none) (Dict.get? r a) := by
  obtain ⟨t1, h1, -, h3⟩ := into_ok hr ha
  unfold readAndWrite at hok
  rw [h1] at hok
  dsimp only at hok
  simp only [Prod.mk.injEq] at hok
  obtain ⟨rfl, hw⟩ := hok
  obtain ⟨r, hr', hrel⟩ := C60_info3 E hF L hp fs fs' creator w h pre post t1.attrs (fun a v hv hne => by
    rw [h3 a] at hv
    cases hg : Dict.get? data a with
    | none => rw [hg] at hv; exact hval a v hv hne
    | some x =>
      rw [hg] at hv
      cases hv
      exact Ufo.storable_of ((Ufo.info_readable hr).1 _ (Dict.mem_of_get? hg)).2 (hfit a _ hg)) (by
        show (Ufo.writeInfo E _ t1.attrs true).2 = _
        rw [hw]) hpost
  refine ⟨r, ?_, fun a => ?_⟩
  · rw [Ufo.run_append] at hr'
    have hs : Ufo.run E L (Ufo.run E L (w, fs') pre) (.info t1.attrs true :: post) = Ufo.run E L w' post := by
      show Ufo.run E L (Ufo.writeInfo E _ t1.attrs true).1 post = _
      rw [hw]
    rw [hs] at hr'
    exact hr'
  · rw [← h3 a]
    exact hrel a

/-- With an object whose attributes are all missing or `None` before, the UFO then has exactly the info of the file. -/
theorem C133_saved (E : FontInfo.Env) (hF : E.F.Lawful) (L : Casing) (hp : Bool) (fs fs' : FS) (creator : PyVal) (w : Ufo.Writer)
    (h : Ufo.openWriter E.F hp fs 3 creator true = (fs', .ok w)) (pre post : List Ufo.Op) (src : FS) (version : Int) (data : Dict Str PyVal) (hr : Ufo.readInfo E src version true = .ok data)
    (t t' : Target) (w' : Ufo.World) (ha : ∀ k v, Dict.get? data k = some v → t.accepts k = true)
    (hfit : ∀ k v, Dict.get? data k = some v → Fits v) (hnew : ∀ k, t.attrs k = none ∨ t.attrs k = some .none)
    (hok : readAndWrite E src version (Ufo.run E L (w, fs') pre) true t = (t', w', .ok ()))
    (hpost : ∀ op ∈ post, Spares fs'.canon c!"fontinfo.plist" op) :
    ∃ r, Ufo.readInfo E (Ufo.run E L w' post).2 3 true = .ok r ∧ ∀ a, Option.Rel Same (Dict.get? data a) (Dict.get? r a) := by
  obtain ⟨r, h1, h2⟩ := C133_saved_partial E hF L hp fs fs' creator w h pre post src version data hr t t' w' ha hfit (fun k v hv hne => by
    rcases hnew k with hk | hk <;> rw [hk] at hv <;> cases hv
    exact absurd rfl hne) hok hpost
  refine ⟨r, h1, fun a => ?_⟩
  have := h2 a
  cases hg : Dict.get? data a with
  | none =>
    rw [hg] at this
    have hnone : (if a ∈ Dict.keys table3 then present (none.or (t.attrs a)) else none) = none := by
      split
      · rcases hnew a with hk | hk <;> rw [hk] <;> rfl
      · rfl
    rw [hnone] at this
    revert this
    generalize Dict.get? r a = o
    intro this
    cases this
    exact .none
  | some v =>
    obtain ⟨hv, hrd⟩ := (Ufo.info_readable hr).1 _ (Dict.mem_of_get? hg)
    obtain ⟨k, hk, -⟩ := validateValue_ok hv
    have hm : a ∈ Dict.keys table3 := List.mem_map_of_mem (f := Prod.fst) (Dict.mem_of_get? hk)
    rw [hg, if_pos hm] at this
    have hp : present ((some v).or (t.attrs a)) = some v := by
      cases v <;> first | rfl | exact absurd hrd (by simp [Readable])
    rw [hp] at this
    revert this
    generalize Dict.get? r a = o
    intro this
    cases this with
    | some hs =>
      rw [Plist.untuple_noTuple v (Plist.wellFormed_of _ hrd).2] at hs
      exact .some hs

/-- A UFO with a family name only. -/
def ufo133 : FS := { canon := id, log := [], nodes := [([c!"fontinfo.plist"], .file (utf8 c!"<plist><dict><key>familyName</key><string>Other</string></dict></plist>"))] }

/-- The full claim fails: with one object for two UFOs, the second is written with the style name of the first. -/
theorem C133_reused_refuted :
    let first := (readInfoInto env57 ufo132 3 true any132).1;
    (readAndWrite env57 ufo133 3 new60 true first).2.2.toOption.isSome = true ∧
    (Ufo.readInfo env57 ufo133 3 true).toOption = some [(c!"familyName", .str c!"Other")] ∧
    (Ufo.readInfo env57 (readAndWrite env57 ufo133 3 new60 true first).2.1.2 3 true).toOption = some [(c!"familyName", .str c!"Other"), (c!"styleName", .str c!"Bold")] := by decide +kernel

/-- The other theorems at work: with a new object the second UFO is written as it is. -/
example : (readAndWrite env57 ufo133 3 new60 true any132).2.2.toOption.isSome = true ∧
    (Ufo.readInfo env57 (readAndWrite env57 ufo133 3 new60 true any132).2.1.2 3 true).toOption = some [(c!"familyName", .str c!"Other")] := by decide +kernel
example : [c!"familyName", c!"styleName"].map (readInfos env57 true any132 [(ufo132, 3), (ufo133, 3)]).1.attrs.attr = [.str c!"Other", .str c!"Bold"] ∧
    [c!"familyName", c!"styleName"].map (readInfos env57 true any132 [(ufo133, 3), (ufo132, 3)]).1.attrs.attr = [.str c!"New", .str c!"Bold"] ∧
    (readInfos env57 true any132 [(ufo133, 3), (ufo132, 4), (ufo132, 3)]).1.attrs.attr c!"familyName" = .str c!"Other" ∧
    (readInfos env57 true any132 [(ufo133, 3), (ufo132, 4), (ufo132, 3)]).2.toOption.isSome = false := by decide +kernel
example : (Ufo.readInfo env57 ufo133 3 true).toOption.map (fun d => d.map Prod.fst) = some [c!"familyName"] ∧ Fits (.str c!"Other") := by
  constructor
  · decide +kernel
  · simp [Fits]

end Verif.Props
