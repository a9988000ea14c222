import Verif.Proofs.UfoKerning
import Verif.Props.UfoData
/-! Loading the groups and kerning of a UFO 1 or 2 and saving them again: C73. -/
namespace Verif.Props
open Verif Verif.FS Verif.IO Verif.Ufo Verif.Kerning Verif.Converters Verif.Validators Verif.FontInfo Verif.Spec.Ufo Verif.Spec.Plist Verif.Spec.Validators
open Verif.Spec.Converters Verif.Spec.Kerning

/-! A reader of a UFO 1 or 2 in `fs0` is asked for its groups, kerning and rename maps, in any order and any number of times (`cs`). A writer for
version 1 or 2 is opened on any file system, given these maps, and the groups and the kerning that were read, with other calls before, in between
and after (`pre`, `mid`, `post`). `ord1` and `ord2` are the orders in which Python enumerates the two sets of group names. -/

/-- groups.plist holds the groups it held when loaded. -/
theorem C73_groups (E : FontInfo.Env) (hF : E.F.Lawful) (L : Casing) (ord1 ord2 : List Str → List Str) (h1 : ∀ l, (ord1 l).Perm l) (h2 : ∀ l, (ord2 l).Perm l)
    (fs0 : FS) (kerning : Dict Str (Dict Str PyVal)) (groups : Dict Str (List Str))
    (hkf : getPlist E.F fs0 [c!"kerning.plist"] (some (.dict [])) = .ok (Ufo.kerningVal kerning))
    (hgf : getPlist E.F fs0 [c!"groups.plist"] (some (.dict [])) = .ok (groupsVal groups))
    (hwf : Dict.WF groups) (ht : ∀ e ∈ groups, FileText e.1 ∧ ∀ m ∈ e.2, FileText m)
    (cs : List KerningReader.Call) (hcs : ∀ c ∈ cs, c.kerningFile = getPlist E.F fs0 [c!"kerning.plist"] (some (.dict [])) ∧
      c.groupsFile = getPlist E.F fs0 [c!"groups.plist"] (some (.dict [])))
    (c1 c2 : KerningReader.Call) (g : Dict Str (List Str)) (s1 s2 : Dict Str Str)
    (hr1 : (c1, .ok (.groups g)) ∈ KerningReader.run (KerningReader.convertFiles ord1 ord2) none cs)
    (hr2 : (c2, .ok (.maps s1 s2)) ∈ KerningReader.run (KerningReader.convertFiles ord1 ord2) none cs)
    (hp : Bool) (fs fs' : FS) (version : Int) (creator : PyVal) (w : Writer)
    (h : openWriter E.F hp fs version creator true = (fs', .ok w)) (hv : version < 3) (pre mid post : List Op) (validate : Bool)
    (hmid : ∀ op ∈ mid, ∀ a b, op ≠ .maps a b)
    (hok : (step E L (run E L (w, fs') (pre ++ .maps s1 s2 :: mid)) (.groups g validate)).2 = .ok ())
    (hpost : ∀ op ∈ post, Spares fs'.canon c!"groups.plist" op)
    (hnew : hp = true ∨ groups ≠ [] ∨ (run E L (w, fs') (pre ++ .maps s1 s2 :: mid)).2.exists [c!"groups.plist"] = false) :
    ∃ r, getPlist E.F (run E L (w, fs') (pre ++ .maps s1 s2 :: mid ++ .groups g validate :: post)).2 [c!"groups.plist"] (some (.dict [])) = .ok (groupsVal r) ∧
      Dict.WF r ∧ ∀ n, Dict.get? r n = Dict.get? groups n := by
  rw [hkf, hgf] at hcs
  obtain ⟨c, hc, hconv⟩ := C15_wellformed h1 h2 kerning groups
  have hview := run_view _ hc cs hcs
  have e1 := hview _ hr1 _ rfl
  have e2 := hview _ hr2 _ rfl
  have hg : g = c.groups := by
    dsimp only at e1
    rcases hk : c1.kind <;> rw [hk] at e1 <;> simp only [view, reduceCtorEq, KerningReader.Ret.groups.injEq] at e1
    exact e1
  have hs : s1 = c.side1 ∧ s2 = c.side2 := by
    dsimp only at e2
    rcases hk : c2.kind <;> rw [hk] at e2 <;> simp only [view, reduceCtorEq, KerningReader.Ret.maps.injEq] at e2
    exact e2
  obtain ⟨rfl, rfl⟩ := hs
  subst hg
  obtain ⟨m1, m2, m3, m4, m5⟩ := session_maps (E := E) (L := L) h hv pre mid c.side1 c.side2 hmid
  have heq := C14_groups h1 h2 hwf hconv
  have hw := wf_remapGroups (flipMaps c.side1 c.side2) c.groups
  rw [run_append]
  generalize run E L (w, fs') (pre ++ .maps c.side1 c.side2 :: mid) = w1 at *
  have hperm := perm_of_get? hw hwf heq
  obtain ⟨g', hg1, hg2⟩ := groups_written hF m4 post (d := remapGroups (flipMaps c.side1 c.side2) c.groups)
    (by rw [groupsToWrite, m1]; exact if_pos m2) hw (fun e he => ht e (hperm.mem_iff.1 he)) hok (by rw [m5]; exact hpost) (by
      rw [m3]
      refine hnew.imp id (Or.imp (fun hne he => hne ?_) id)
      rw [he] at hperm
      exact hperm.symm.eq_nil)
  have hw' := Dict.wf_perm hwf (hg2.trans hperm).symm
  exact ⟨g', hg1, hw', fun n => Dict.get?_perm hw' (hg2.trans hperm) n⟩

/-- kerning.plist holds the pairs and values it held when loaded, if no two groups were given the same new name on the same side, and kerning does not
name missing groups with the prefixes of UFO 3. Missing: otherwise it is false (`C14_kerning_refuted`). -/
theorem C73_kerning_partial (E : FontInfo.Env) (hF : E.F.Lawful) (L : Casing) (ord1 ord2 : List Str → List Str) (h1 : ∀ l, (ord1 l).Perm l) (h2 : ∀ l, (ord2 l).Perm l)
    (fs0 : FS) (kerning : Dict Str (Dict Str PyVal)) (groups : Dict Str (List Str))
    (hkf : getPlist E.F fs0 [c!"kerning.plist"] (some (.dict [])) = .ok (Ufo.kerningVal kerning))
    (hgf : getPlist E.F fs0 [c!"groups.plist"] (some (.dict [])) = .ok (groupsVal groups))
    (hwf : WFKerning kerning) (ht : ∀ r ∈ kerning, FileText r.1 ∧ ∀ e ∈ r.2, FileText e.1 ∧ Representable FileText e.2 ∧ IsNum e.2)
    (cs : List KerningReader.Call) (hcs : ∀ c ∈ cs, c.kerningFile = getPlist E.F fs0 [c!"kerning.plist"] (some (.dict [])) ∧
      c.groupsFile = getPlist E.F fs0 [c!"groups.plist"] (some (.dict [])))
    (c1 c2 : KerningReader.Call) (k : Dict (Str × Str) PyVal) (s1 s2 : Dict Str Str)
    (hr1 : (c1, .ok (.kerning k)) ∈ KerningReader.run (KerningReader.convertFiles ord1 ord2) none cs)
    (hr2 : (c2, .ok (.maps s1 s2)) ∈ KerningReader.run (KerningReader.convertFiles ord1 ord2) none cs)
    (hi1 : InjectiveMap s1) (hi2 : InjectiveMap s2)
    (hpfx : ∀ x, IsFirst kerning x ∨ IsSecond kerning x → Begins x c!"public.kern1." ∨ Begins x c!"public.kern2." → x ∈ groups.keys)
    (hp : Bool) (fs fs' : FS) (version : Int) (creator : PyVal) (w : Writer)
    (h : openWriter E.F hp fs version creator true = (fs', .ok w)) (hv : version < 3) (pre mid post : List Op) (validate : Bool)
    (hmid : ∀ op ∈ mid, ∀ a b, op ≠ .maps a b)
    (hok : (step E L (run E L (w, fs') (pre ++ .maps s1 s2 :: mid)) (.kerning k validate)).2 = .ok ())
    (hpost : ∀ op ∈ post, Spares fs'.canon c!"kerning.plist" op)
    (hnew : hp = true ∨ (∃ a b v, pairValue kerning a b = some v) ∨ (run E L (w, fs') (pre ++ .maps s1 s2 :: mid)).2.exists [c!"kerning.plist"] = false) :
    ∃ r, getPlist E.F (run E L (w, fs') (pre ++ .maps s1 s2 :: mid ++ .kerning k validate :: post)).2 [c!"kerning.plist"] (some (.dict [])) = .ok (Ufo.kerningVal r) ∧
      WFKerning r ∧ ∀ a b, pairValue r a b = pairValue kerning a b := by
  rw [hkf, hgf] at hcs
  obtain ⟨c, hc, hconv⟩ := C15_wellformed h1 h2 kerning groups
  have hview := run_view _ hc cs hcs
  have e1 := hview _ hr1 _ rfl
  have e2 := hview _ hr2 _ rfl
  have hk : k = flatten c.kerning := by
    dsimp only at e1
    rcases hk : c1.kind <;> rw [hk] at e1 <;> simp only [view, reduceCtorEq, KerningReader.Ret.kerning.injEq] at e1
    exact e1
  have hs : s1 = c.side1 ∧ s2 = c.side2 := by
    dsimp only at e2
    rcases hk : c2.kind <;> rw [hk] at e2 <;> simp only [view, reduceCtorEq, KerningReader.Ret.maps.injEq] at e2
    exact e2
  obtain ⟨rfl, rfl⟩ := hs
  subst hk
  obtain ⟨m1, m2, m3, m4, m5⟩ := session_maps (E := E) (L := L) h hv pre mid c.side1 c.side2 hmid
  have heq := C14_kerning_partial h1 h2 hwf hconv hi1 hi2 hpfx
  obtain ⟨hw, hrows, hnil⟩ := nest_spec (remapKerning (flipMaps c.side1 c.side2) (flatten c.kerning))
  rw [run_append]
  generalize run E L (w, fs') (pre ++ .maps c.side1 c.side2 :: mid) = w1 at *
  -- a pair that is written was there
  have hold : ∀ r ∈ nest (remapKerning (flipMaps c.side1 c.side2) (flatten c.kerning)), ∀ e ∈ r.2, ∃ r' ∈ kerning, r'.1 = r.1 ∧ e ∈ r'.2 := by
    intro r hr e he
    have := (pairValue_iff hw).2 ⟨r.2, hr, he⟩
    rw [heq] at this
    obtain ⟨row, hrow, hmem⟩ := (pairValue_iff hwf).1 this
    exact ⟨_, hrow, rfl, hmem⟩
  obtain ⟨k', hk1, hk2, hk3⟩ := kerning_written hF m4 post (d := nest (remapKerning (flipMaps c.side1 c.side2) (flatten c.kerning)))
    (by rw [kerningToWrite, m1]; dsimp only; rw [if_pos m2]) hw (fun r hr => by
      constructor
      · obtain ⟨e, he, hre⟩ := (hrows r hr).1
        have hv : pairValue (nest (remapKerning (flipMaps c.side1 c.side2) (flatten c.kerning))) e.1.1 e.1.2 = some e.2 := by
          have hwf : Dict.WF (remapKerning (flipMaps c.side1 c.side2) (flatten c.kerning)) := by
            unfold remapKerning
            exact wf_foldl_set _ _ _ _ Dict.wf_nil
          rw [nest_pairs hwf]
          exact Dict.get?_of_mem hwf he
        rw [heq] at hv
        obtain ⟨row, hrow, -⟩ := (pairValue_iff hwf).1 hv
        rw [← hre]
        exact (ht _ hrow).1
      · intro e he
        obtain ⟨r', hr', -, he'⟩ := hold r hr e he
        exact (ht r' hr').2 e he') hok (by rw [m5]; exact hpost) (by
      rw [m3]
      refine hnew.imp id (Or.imp ?_ id)
      rintro ⟨a, b, v, hv⟩ he
      rw [← heq, he] at hv
      cases hv)
  exact ⟨k', hk1, hk2, fun a b => (hk3 a b).trans (heq a b)⟩

/-- A UFO 2 for the examples. -/
def ufo73 : World :=
  let r := openWriter fractionCodec false fs57 2 (.str c!"x") true;
  match r.2 with
  | .ok w => run env57 asciiCasing (w, r.1) [.groups groups73 true, .kerning (flatten kerning73) true, .glyphSet none true true]
  | .error _ => (new60.1, r.1)
where
  groups73 : Dict Str (List Str) := [(c!"@MMK_L_A", [c!"A"]), (c!"@MMK_R_O", [c!"O"]), (c!"T", [c!"T"])]
  kerning73 : Dict Str (Dict Str PyVal) := [(c!"@MMK_L_A", [(c!"@MMK_R_O", .int (-10)), (c!"x", .int 4)]), (c!"T", [(c!"y", .int 1)])]

/-- The calls on the reader. -/
def calls73 : List KerningReader.Call :=
  [.maps, .groups, .kerning].map fun kind => ⟨kind, true, getPlist fractionCodec ufo73.2 [kerningName] (some (.dict [])), getPlist fractionCodec ufo73.2 [groupsName] (some (.dict []))⟩

/-- The groups and the kerning are converted when read; after saving, the files hold what they held. -/
example :
    let s1 : Dict Str Str := [(c!"@MMK_L_A", c!"public.kern1.A"), (c!"T", c!"public.kern1.T")];
    let s2 : Dict Str Str := [(c!"@MMK_R_O", c!"public.kern2.O")];
    let g : Dict Str (List Str) := [(c!"@MMK_L_A", [c!"A"]), (c!"@MMK_R_O", [c!"O"]), (c!"T", [c!"T"]), (c!"public.kern1.A", [c!"A"]), (c!"public.kern1.T", [c!"T"]),
      (c!"public.kern2.O", [c!"O"])];
    let k : Dict (Str × Str) PyVal := [((c!"public.kern1.A", c!"public.kern2.O"), .int (-10)), ((c!"public.kern1.A", c!"x"), .int 4), ((c!"public.kern1.T", c!"y"), .int 1)];
    let r := (openWriter fractionCodec true ufo73.2 2 (.str c!"x") true);
    (KerningReader.run (KerningReader.convertFiles id id) none calls73).map (fun o => o.2.toOption) = [some (.maps s1 s2), some (.groups g), some (.kerning k)] ∧
    (r.2.map fun w => (run env57 asciiCasing (w, r.1) [.maps s1 s2, .kerning k true, .groups g true]).2.getbytes [c!"groups.plist"]).toOption.bind Except.toOption =
      (ufo73.2.getbytes [c!"groups.plist"]).toOption ∧
    (r.2.map fun w => (run env57 asciiCasing (w, r.1) [.maps s1 s2, .kerning k true, .groups g true]).2.getbytes [c!"kerning.plist"]).toOption.bind Except.toOption =
      (ufo73.2.getbytes [c!"kerning.plist"]).toOption ∧
    (ufo73.2.getbytes [c!"groups.plist"]).toOption.isSome = true ∧ (ufo73.2.getbytes [c!"kerning.plist"]).toOption.isSome = true := by decide +kernel

end Verif.Props
