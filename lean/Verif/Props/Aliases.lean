import Verif.Model.Aliases
import Verif.Props.KerningReader
import Verif.Props.GlyphSet
/-! Callers that change what they were given: C106. -/
namespace Verif.Props
open Verif Verif.IO Verif.Kerning Verif.Converters Verif.KerningReader Verif.Aliases

/-- The calls of a history. -/
def callsOf : List Event → List Call
  | [] => []
  | .call c :: es => c :: callsOf es
  | _ :: es => callsOf es

/-- The caller leaves the groups it was given as they are. -/
def LeavesGroups (es : List Event) : Prop := ∀ e ∈ es, ∀ f, e ≠ .changeGroups f

/-- The caller leaves the maps it was given as they are. -/
def LeavesMaps (es : List Event) : Prop := ∀ e ∈ es, ∀ f, e ≠ .changeMaps f

/-- What the reader keeps is what it would keep without the changes, as far as it is not open to them. -/
structure Like (G M : Prop) (d : Objects) (d' : Cache) : Prop where
  originalKerning : d.originalKerning = d'.originalKerning
  originalGroups : d.originalGroups = d'.originalGroups
  kerning : d.kerning = match d'.result with | some r => r.kerning | none => []
  groups : G → d.groups = match d'.result with | some r => r.groups | none => []
  maps : M → d.maps = d'.result.map fun r => (r.side1, r.side2)

/-- The same for what may not be there yet. -/
def LikeO (G M : Prop) : Option Objects → Option Cache → Prop
  | none, none => True
  | some d, some d' => Like G M d d'
  | _, _ => False

theorem likeO_map {G M : Prop} {o : Option Objects} {o' : Option Cache} {f : Objects → Objects} (h : LikeO G M o o') (hf : ∀ d d', Like G M d d' → Like G M (f d) d') :
    LikeO G M (o.map f) o' := by
  match o, o', h with
  | none, none, _ => trivial
  | some d, some d', h => exact hf d d' h

theorem like_stored (G M : Prop) (k g : PyVal) (r : Option (Converted PyVal)) : Like G M (stored k g r) ⟨k, g, r⟩ := by
  cases r <;> exact ⟨rfl, rfl, rfl, fun _ => rfl, fun _ => rfl⟩

/-- What is the same about the outcome of a call. -/
def Agree (G M : Prop) (a b : Call × Except Exc Ret) : Prop :=
  a.1 = b.1 ∧ (a.1.kind = .kerning → a.2 = b.2) ∧ (G → a.1.kind = .groups → a.2 = b.2) ∧ (M → G ∨ a.1.validate = false → a.1.kind = .maps → a.2 = b.2)

theorem deliver_like {G M : Prop} {d : Objects} {d' : Cache} (h : Like G M d d') (c : Call) :
    Agree G M (c, Aliases.deliver c d) (c, KerningReader.deliver c d') := by
  refine ⟨rfl, fun hk => ?_, fun hG hk => ?_, fun hM hv hk => ?_⟩
  · simp only at hk ⊢
    unfold Aliases.deliver KerningReader.deliver
    rw [hk, h.kerning]
    rfl
  · simp only at hk ⊢
    unfold Aliases.deliver KerningReader.deliver
    rw [hk, h.groups hG]
    rfl
  · simp only at hk hv ⊢
    unfold Aliases.deliver KerningReader.deliver
    rw [hk, h.maps hM]
    rcases hv with hG | hv
    · rw [h.groups hG]
      cases d'.result <;> rfl
    · rw [hv]
      cases d'.result <;> rfl

theorem upConvert_like {G M : Prop} (conv : PyVal → PyVal → Except Exc (Converted PyVal)) (c : Call) {o : Option Objects} {o' : Option Cache} (h : LikeO G M o o') :
    LikeO G M (Aliases.upConvert conv c o).2 (KerningReader.upConvert conv c o').2 ∧
    ((∃ e, (Aliases.upConvert conv c o).1 = .error e ∧ (KerningReader.upConvert conv c o').1 = .error e) ∨
     ∃ d d', (Aliases.upConvert conv c o).1 = .ok d ∧ (KerningReader.upConvert conv c o').1 = .ok d' ∧ Like G M d d') := by
  match o, o', h with
  | none, none, _ =>
    unfold Aliases.upConvert KerningReader.upConvert
    dsimp only
    cases c.groupsFile with
    | error e => exact ⟨trivial, .inl ⟨_, rfl, rfl⟩⟩
    | ok g =>
      dsimp only
      cases (c.validate && (checkedGroups g).isNone) with
      | true => exact ⟨trivial, .inl ⟨_, rfl, rfl⟩⟩
      | false =>
        cases c.kerningFile with
        | error e => exact ⟨trivial, .inl ⟨_, rfl, rfl⟩⟩
        | ok k =>
          dsimp only
          rw [if_neg (by simp), if_neg (by simp)]
          cases conv k g with
          | error e => exact ⟨like_stored G M k g none, .inl ⟨_, rfl, rfl⟩⟩
          | ok r => exact ⟨like_stored G M k g (some r), .inr ⟨_, _, rfl, rfl, like_stored G M k g (some r)⟩⟩
  | some d, some d', h =>
    have h' : Like G M d d' := h
    unfold Aliases.upConvert KerningReader.upConvert
    dsimp only
    rw [h'.originalKerning, h'.originalGroups]
    cases c.kerningFile with
    | error e => exact ⟨h, .inl ⟨_, rfl, rfl⟩⟩
    | ok k =>
      dsimp only
      cases PyVal.pyEq k d'.originalKerning with
      | false => exact ⟨h, .inl ⟨_, rfl, rfl⟩⟩
      | true =>
        rw [if_neg (by simp), if_neg (by simp)]
        cases c.groupsFile with
        | error e => exact ⟨h, .inl ⟨_, rfl, rfl⟩⟩
        | ok g =>
          dsimp only
          cases PyVal.pyEq g d'.originalGroups with
          | false => exact ⟨h, .inl ⟨_, rfl, rfl⟩⟩
          | true => rw [if_neg (by simp), if_neg (by simp)]; exact ⟨h, .inr ⟨_, _, rfl, rfl, h'⟩⟩

theorem call_like {G M : Prop} (conv : PyVal → PyVal → Except Exc (Converted PyVal)) (c : Call) {r : Reader} {o' : Option Cache} (h : LikeO G M r.cache o') :
    LikeO G M (Aliases.call conv r c).1.cache (KerningReader.step conv o' c).2 ∧ Agree G M (c, (Aliases.call conv r c).2) (c, (KerningReader.step conv o' c).1) := by
  obtain ⟨h1, h2⟩ := upConvert_like conv c h
  unfold Aliases.call KerningReader.step
  cases ha : Aliases.upConvert conv c r.cache with
  | mk x y =>
    cases hb : KerningReader.upConvert conv c o' with
    | mk x' y' =>
      rw [ha, hb] at h1 h2
      dsimp only at h1 h2 ⊢
      rcases h2 with ⟨e, rfl, rfl⟩ | ⟨d, d', rfl, rfl, hl⟩
      · exact ⟨h1, rfl, fun _ => rfl, fun _ _ => rfl, fun _ _ _ => rfl⟩
      · have hd := deliver_like hl c
        cases hv : Aliases.deliver c d with
        | error e => rw [hv] at hd; simp only [hv]; exact ⟨h1, hd⟩
        | ok v => rw [hv] at hd; simp only [hv]; exact ⟨h1, hd⟩

theorem outcomes_like {G M : Prop} (conv : PyVal → PyVal → Except Exc (Converted PyVal)) : ∀ (es : List Event) (r : Reader) (o' : Option Cache), LikeO G M r.cache o' →
    (G → LeavesGroups es) → (M → LeavesMaps es) → List.Forall₂ (Agree G M) (outcomes conv r es) (KerningReader.run conv o' (callsOf es))
  | [], _, _, _, _, _ => .nil
  | e :: es, r, o', h, hG, hM => by
    have hG' : G → LeavesGroups es := fun g e' he' => hG g e' (by simp [he'])
    have hM' : M → LeavesMaps es := fun m e' he' => hM m e' (by simp [he'])
    cases e with
    | call c =>
      obtain ⟨h1, h2⟩ := call_like conv c h
      exact .cons h2 (outcomes_like conv es _ _ h1 hG' hM')
    | changeKerning f => exact outcomes_like conv es r o' h hG' hM'
    | changeGroups f =>
      refine outcomes_like conv es _ o' ?_ hG' hM'
      have hn : ¬ G := fun g => hG g _ (by simp) f rfl
      cases hb : r.groupsGiven
      · rw [show change r (.changeGroups f) = r by simp [change, hb]]; exact h
      · rw [show change r (.changeGroups f) = { r with cache := r.cache.map fun d => { d with groups := f d.groups } } by simp [change, hb]]
        exact likeO_map h fun d d' h => ⟨h.1, h.2, h.3, fun g => absurd g hn, h.5⟩
    | changeMaps f =>
      refine outcomes_like conv es _ o' ?_ hG' hM'
      have hn : ¬ M := fun m => hM m _ (by simp) f rfl
      cases hb : r.mapsGiven
      · rw [show change r (.changeMaps f) = r by simp [change, hb]]; exact h
      · rw [show change r (.changeMaps f) = { r with cache := r.cache.map fun d => { d with maps := d.maps.map f } } by simp [change, hb]]
        exact likeO_map h fun d d' h => ⟨h.1, h.2, h.3, h.4, fun m => absurd m hn⟩

/-- C106 (partial). Whatever a caller does to the kerning, groups and maps a reader of UFO 1 or 2 returned: `readKerning` returns and raises as if they had been left alone. So does
`readGroups` when the caller leaves the groups alone, and `getKerningGroupConversionRenameMaps` when it leaves the maps alone, and the groups as well or does not ask for validation. -/
theorem C106_reader_partial (conv : PyVal → PyVal → Except Exc (Converted PyVal)) (es : List Event) :
    List.Forall₂ (fun a b => a.1 = b.1 ∧ (a.1.kind = .kerning → a.2 = b.2) ∧ (LeavesGroups es → a.1.kind = .groups → a.2 = b.2) ∧
      (LeavesMaps es → LeavesGroups es ∨ a.1.validate = false → a.1.kind = .maps → a.2 = b.2)) (outcomes conv fresh es) (KerningReader.run conv none (callsOf es)) :=
  outcomes_like conv es fresh none trivial id id

/-- Files of UFO 2: one kerning group. -/
def kerning106 : PyVal := kerningVal [(c!"@MMK_L_A", [(c!"B", .int 5)])]

def groups106 : PyVal := groupsVal [(c!"@MMK_L_A", [c!"A"])]

def call106 (k : Kind) : Event := .call ⟨k, true, .ok kerning106, .ok groups106⟩

/-- The claim fails for groups and maps: what the caller does to the groups it got is in what later calls return, of `readGroups` and of `getKerningGroupConversionRenameMaps`, which then may raise. -/
theorem C106_reader_refuted :
    ((outcomes (convertFiles id id) fresh [call106 .groups, .changeGroups fun _ => [(c!"x", [c!"y"])], call106 .groups]).map fun o => o.2.toOption) =
      [some (.groups [(c!"@MMK_L_A", [c!"A"]), (c!"public.kern1.A", [c!"A"])]), some (.groups [(c!"x", [c!"y"])])] ∧
    ((outcomes (convertFiles id id) fresh [call106 .maps, .changeMaps fun _ => ([], []), call106 .maps]).map fun o => o.2.toOption) =
      [some (.maps [(c!"@MMK_L_A", c!"public.kern1.A")] []), some (.maps [] [])] ∧
    ((outcomes (convertFiles id id) fresh [call106 .groups, .changeGroups fun _ => [([], [])], call106 .maps, call106 .kerning]).map fun o => o.2.toOption) =
      [some (.groups [(c!"@MMK_L_A", [c!"A"]), (c!"public.kern1.A", [c!"A"])]), none, some (.kerning [((c!"public.kern1.A", c!"B"), .int 5)])] := by
  decide +kernel

/-! ### glyph sets -/

/-- The calls of a history. -/
def glyphCalls : List GlyphEvent → List GlyphSet.Op
  | [] => []
  | .call op :: es => op :: glyphCalls es
  | .change _ :: es => glyphCalls es

/-- No glyph is deleted. -/
def NoDelete (es : List GlyphEvent) : Prop := ∀ e ∈ es, ∀ n, e ≠ .call (.delete n)

/-- The caller changes, in the dictionary it was given, what names stand for, and leaves its keys alone. -/
def KeepsKeys (es : List GlyphEvent) : Prop := ∀ e ∈ es, ∀ f, e = .change f → ∀ d k, Dict.has (f d) k = Dict.has d k

/-- Two reverse tables with the same keys. -/
def SameKeys (K : Prop) (a b : Option (Dict Str Str)) : Prop := K → ∀ k, (a.map fun r => Dict.has r k) = (b.map fun r => Dict.has r k)

/-- Nothing but the reverse table differs. -/
def Besides (K : Prop) (w w' : GlyphSet.World) : Prop := ∃ r, w' = ({ w.1 with reverse := r }, w.2) ∧ SameKeys K w.1.reverse r

theorem has_set (d : Dict Str Str) (k v k' : Str) : Dict.has (Dict.set d k v) k' = (decide (k = k') || Dict.has d k') := by
  unfold Dict.has
  rw [Dict.get?_set]
  split <;> simp [*]

theorem has_erase (d : Dict Str Str) (k k' : Str) : Dict.has (Dict.erase d k) k' = (!decide (k = k') && Dict.has d k') := by
  unfold Dict.has
  rw [Dict.get?_erase]
  split <;> simp [*]

theorem besides_refl (K : Prop) (w : GlyphSet.World) : Besides K w w := ⟨w.1.reverse, rfl, fun _ _ => rfl⟩

theorem besides_step (L : Casing) (F : FloatCodec) {K : Prop} {w w' : GlyphSet.World} (h : Besides K w w') (op : GlyphSet.Op) (hop : K ∨ ∀ n, op ≠ .delete n) :
    Besides K (GlyphSet.step L F w op).1 (GlyphSet.step L F w' op).1 ∧ (GlyphSet.step L F w op).2 = (GlyphSet.step L F w' op).2 := by
  obtain ⟨r, rfl, hk⟩ := h
  obtain ⟨gs, fs⟩ := w
  dsimp only at hk ⊢
  cases op with
  | reverse =>
    refine ⟨?_, rfl⟩
    unfold GlyphSet.step GlyphSet.getReverseContents
    dsimp only
    cases hg : gs.reverse with
    | none =>
      cases r with
      | none => exact ⟨_, rfl, fun _ _ => rfl⟩
      | some r => exact ⟨some r, rfl, fun k => by have := hk k []; rw [hg] at this; cases this⟩
    | some r0 =>
      cases r with
      | none => exact ⟨_, rfl, fun k => by have := hk k []; rw [hg] at this; cases this⟩
      | some r => exact ⟨some r, rfl, by simp only [hg]; rw [hg] at hk; exact hk⟩
  | save => exact ⟨⟨r, rfl, hk⟩, rfl⟩
  | rebuild validate =>
    unfold GlyphSet.step GlyphSet.rebuildContents
    dsimp only
    cases getPlist F fs (gs.dir ++ [GlyphSet.contentsName]) (some (.dict [])) with
    | error e => exact ⟨⟨r, rfl, hk⟩, rfl⟩
    | ok v =>
      dsimp only
      cases GlyphSet.checkContents fs gs.dir validate v with
      | error e => exact ⟨⟨r, rfl, hk⟩, rfl⟩
      | ok t => exact ⟨⟨none, rfl, fun _ _ => rfl⟩, rfl⟩
  | write naming name fv data =>
    have hv : GlyphSet.glifVersion { gs with reverse := r } fv = GlyphSet.glifVersion gs fv := rfl
    unfold GlyphSet.step GlyphSet.writeGlyph
    dsimp only
    rw [hv]
    cases GlyphSet.glifVersion gs fv with
    | error e => exact ⟨⟨r, rfl, hk⟩, rfl⟩
    | ok v =>
      dsimp only
      have ha : ∃ r', GlyphSet.assignFile L naming { gs with reverse := r } name =
            ({ (GlyphSet.assignFile L naming gs name).1 with reverse := r' }, (GlyphSet.assignFile L naming gs name).2) ∧
          SameKeys K (GlyphSet.assignFile L naming gs name).1.reverse r' := by
        unfold GlyphSet.assignFile
        dsimp only
        cases Dict.get? gs.contents name with
        | some f => exact ⟨r, rfl, hk⟩
        | none =>
          dsimp only
          cases naming name (gs.existing.getD (GlyphSet.existingOf L gs.contents)) with
          | error e => exact ⟨r, rfl, hk⟩
          | ok f =>
            refine ⟨r.map fun r => Dict.set r (L.lower f) name, rfl, fun k x => ?_⟩
            have := hk k x
            dsimp only
            revert this
            cases gs.reverse <;> cases r <;> simp [has_set]
            intro h; rw [h]
      obtain ⟨r', ha, hk'⟩ := ha
      rw [ha]
      generalize GlyphSet.assignFile L naming gs name = a at hk' ⊢
      obtain ⟨gs1, x⟩ := a
      cases x with
      | error e => exact ⟨⟨r', rfl, hk'⟩, rfl⟩
      | ok f =>
        dsimp only
        cases data v with
        | error e => exact ⟨⟨r', rfl, hk'⟩, rfl⟩
        | ok d => exact ⟨⟨r', rfl, hk'⟩, rfl⟩
  | delete name =>
    rcases hop with hK | hop
    · unfold GlyphSet.step GlyphSet.deleteGlyph
      dsimp only
      cases Dict.get? gs.contents name with
      | none => exact ⟨⟨r, rfl, hk⟩, rfl⟩
      | some f =>
        dsimp only
        cases fs.remove (gs.dir ++ [f]) with
        | error e => exact ⟨⟨r, rfl, hk⟩, rfl⟩
        | ok fs' =>
          dsimp only
          have key : ∀ gs1 : GlyphSet.GlyphSet, SameKeys K gs1.reverse r →
              Besides K (match GlyphSet.dropReverse L gs1 f with
                | .error e => ((gs1, fs'), .error e)
                | .ok gs2 => (({ gs2 with contents := Dict.erase gs2.contents name }, fs'), .ok ()) : GlyphSet.World × Except Exc Unit).1
              (match GlyphSet.dropReverse L { gs1 with reverse := r } f with
                | .error e => (({ gs1 with reverse := r }, fs'), .error e)
                | .ok gs2 => (({ gs2 with contents := Dict.erase gs2.contents name }, fs'), .ok ()) : GlyphSet.World × Except Exc Unit).1 ∧
              (match GlyphSet.dropReverse L gs1 f with
                | .error e => ((gs1, fs'), .error e)
                | .ok gs2 => (({ gs2 with contents := Dict.erase gs2.contents name }, fs'), .ok ()) : GlyphSet.World × Except Exc Unit).2 =
              (match GlyphSet.dropReverse L { gs1 with reverse := r } f with
                | .error e => (({ gs1 with reverse := r }, fs'), .error e)
                | .ok gs2 => (({ gs2 with contents := Dict.erase gs2.contents name }, fs'), .ok ()) : GlyphSet.World × Except Exc Unit).2 := by
            intro gs1 hk1
            obtain ⟨dir, contents, existing, rev, hp, ver, vr⟩ := gs1
            unfold GlyphSet.dropReverse
            dsimp only at hk1 ⊢
            cases rev with
            | none =>
              cases r with
              | none => exact ⟨⟨none, rfl, fun _ _ => rfl⟩, rfl⟩
              | some r => have := hk1 hK []; cases this
            | some r0 =>
              cases r with
              | none => have := hk1 hK []; cases this
              | some r =>
                have h1 : ∀ k, Dict.has r0 k = Dict.has r k := fun k => Option.some.inj (hk1 hK k)
                dsimp only
                rw [← h1]
                cases Dict.has r0 (L.lower f) with
                | false => exact ⟨⟨some r, rfl, hk1⟩, rfl⟩
                | true =>
                  refine ⟨⟨some (Dict.erase r (L.lower f)), rfl, fun _ k => ?_⟩, rfl⟩
                  simp [has_erase, h1]
          cases he : gs.existing with
          | none =>
            have := key gs hk
            simp only [he] at this
            simp only [GlyphSet.dropExisting, he]
            exact this
          | some ex =>
            simp only [GlyphSet.dropExisting, he]
            cases hh : Dict.has ex f with
            | false => exact ⟨⟨r, by simp [he], hk⟩, rfl⟩
            | true => exact key { gs with existing := some (Dict.erase ex f) } hk
    · exact absurd rfl (hop name)

theorem besides_run (L : Casing) (F : FloatCodec) : ∀ (es : List GlyphEvent) (w w' : GlyphSet.World), Besides (KeepsKeys es) w w' → KeepsKeys es ∨ NoDelete es →
    Besides (KeepsKeys es) (glyphEvents L F w es) (GlyphSet.run L F w' (glyphCalls es)) := by
  suffices h : ∀ (K : Prop) (es : List GlyphEvent) (w w' : GlyphSet.World), Besides K w w' → (K → KeepsKeys es) → K ∨ NoDelete es →
      Besides K (glyphEvents L F w es) (GlyphSet.run L F w' (glyphCalls es)) from fun es w w' h1 h2 => h _ es w w' h1 id h2
  intro K es
  induction es with
  | nil => intro w w' h _ _; exact h
  | cons e es ih =>
    intro w w' h hK hN
    have hK' : K → KeepsKeys es := fun k e' he' => hK k e' (by simp [he'])
    have hN' : K ∨ NoDelete es := hN.imp id fun n e' he' => n e' (by simp [he'])
    cases e with
    | call op => exact ih _ _ (besides_step L F h op (hN.imp id fun n m hm => n (.call op) (by simp) m (by rw [hm]))).1 hK' hN'
    | change f =>
      refine ih _ _ ?_ hK' hN'
      obtain ⟨r, rfl, hk⟩ := h
      refine ⟨r, rfl, fun k x => ?_⟩
      rw [← hk k x]
      unfold glyphEvent
      dsimp only
      rw [Option.map_map]
      congr 1
      funext d
      exact hK k _ (by simp) f rfl d x

/-- C106 (partial). Whatever a caller does to the dictionary `getReverseContents` returned, in a history in which no glyph is deleted; or when it leaves the keys alone, in any history: the glyphs of
the glyph set and the files are what they would have been. -/
theorem C106_glyphs_partial (L : Casing) (F : FloatCodec) (w : GlyphSet.World) (es : List GlyphEvent) (h : KeepsKeys es ∨ NoDelete es) :
    (glyphEvents L F w es).1.contents = (GlyphSet.run L F w (glyphCalls es)).1.contents ∧ (glyphEvents L F w es).2 = (GlyphSet.run L F w (glyphCalls es)).2 := by
  obtain ⟨r, hr, -⟩ := besides_run L F es w w (besides_refl _ w) h
  rw [hr]
  exact ⟨rfl, rfl⟩

/-- Otherwise it fails: the caller empties the dictionary, and `deleteGlyph` raises after it has removed the file, and the glyph stays in the table. -/
theorem C106_glyphs_refuted :
    let es : List GlyphEvent := [.call (put51 c!"A" [1]), .call .reverse, .change fun _ => []]
    let w := glyphEvents asciiCasing fractionCodec new51 es
    (GlyphSet.deleteGlyph asciiCasing w c!"A").2.toOption = none ∧ (GlyphSet.deleteGlyph asciiCasing w c!"A").1.2.exists [c!"glyphs", c!"A_.glif"] = false ∧
    (GlyphSet.deleteGlyph asciiCasing w c!"A").1.1.contents = [(c!"A", c!"A_.glif")] ∧
    (GlyphSet.deleteGlyph asciiCasing (GlyphSet.run asciiCasing fractionCodec new51 (glyphCalls es)) c!"A").2.toOption = some () := by decide +kernel

/-! ### examples -/

example : let es := [call106 .groups, call106 .kerning, .changeGroups fun _ => [], .changeKerning fun _ => [], call106 .kerning]
    ((outcomes (convertFiles id id) fresh es).map fun o => o.2.toOption)[2]? = some (some (.kerning [((c!"public.kern1.A", c!"B"), .int 5)])) := by decide +kernel

example : NoDelete [.call (put51 c!"A" [1]), .call .reverse, .change fun _ => [], .call (put51 c!"b" [2])] := by
  intro e he n
  simp only [List.mem_cons, List.not_mem_nil, or_false] at he
  rcases he with rfl | rfl | rfl | rfl <;> simp [put51]

example : (glyphEvents asciiCasing fractionCodec new51 [.call (put51 c!"A" [1]), .call .reverse, .change fun _ => [], .call (put51 c!"b" [2])]).1.contents = [(c!"A", c!"A_.glif"), (c!"b", c!"b.glif")] := by
  decide +kernel

end Verif.Props
