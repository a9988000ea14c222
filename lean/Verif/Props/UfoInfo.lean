import Verif.Proofs.UfoData
import Verif.Props.FontInfo
import Verif.Props.UfoData
/-! The last written font info is read: C60. -/
namespace Verif.Props
open Verif Verif.FS Verif.IO Verif.Ufo Verif.Validators Verif.FontInfo Verif.Spec.Ufo Verif.Spec.Plist Verif.Spec.FontInfo Verif.Spec.Validators

/-- What `writeInfo` leaves in the file. -/
theorem info_written {E : FontInfo.Env} (hF : E.F.Lawful) {L : Casing} {w : World} (hl : Layered w.1) (post : List Op) {info : Str → Option PyVal} {validate : Bool}
    (hok : (Ufo.step E L w (.info info validate)).2 = .ok ()) (hpost : ∀ op ∈ post, Spares w.2.canon c!"fontinfo.plist" op)
    (hs : ∀ d, FontInfo.writeInfo E w.1.version.toNat validate info = .ok d → Dict.WF d ∧ Storable (asDict d)) :
    ∃ d e, FontInfo.writeInfo E w.1.version.toNat validate info = .ok d ∧
      getPlist E.F (Ufo.run E L w (.info info validate :: post)).2 [c!"fontinfo.plist"] (some (.dict [])) = .ok (asDict e) ∧
      (∀ a v, Dict.get? d a = some v → ∃ x, Dict.get? e a = some x ∧ Stored v x) ∧ ∀ a, Dict.get? d a = none → Dict.get? e a = none := by
  obtain ⟨-, -, l2, a2⟩ := Ufo.step_spec E L w hl (.info info validate)
  have hn := run_node? E L (Ufo.step E L w (.info info validate)).1 l2 post (c := c!"fontinfo.plist") (by rw [a2.canon]; exact hpost) []
  show ∃ d e, _ ∧ getPlist E.F (Ufo.run E L (Ufo.step E L w (.info info validate)).1 post).2 [c!"fontinfo.plist"] (some (.dict [])) = _ ∧ _
  rw [getPlist_congr hn]
  simp only [Ufo.step] at hok ⊢
  unfold Ufo.writeInfo at hok ⊢
  rcases hd : FontInfo.writeInfo E w.1.version.toNat validate info with e | d
  · rw [hd] at hok; cases hok
  · rw [hd] at hok
    dsimp only at hok ⊢
    obtain ⟨hwf, hst⟩ := hs d hd
    obtain ⟨x, hx, hx'⟩ := writePlist_reads E.F hF hst (Prod.ext rfl hok) (some (.dict []))
    obtain ⟨e, rfl, -, h1, h2⟩ := stored_asDict hwf hx'
    exact ⟨d, e, rfl, hx, h1, h2⟩

/-- The last written font info is read, UFO 3: every known attribute that is not `None` with its value, and nothing else. -/
theorem C60_info3 (E : FontInfo.Env) (hF : E.F.Lawful) (L : Casing) (hp : Bool) (fs fs' : FS) (creator : PyVal) (w : Writer)
    (h : openWriter E.F hp fs 3 creator true = (fs', .ok w)) (pre post : List Op) (info : Str → Option PyVal)
    (hval : ∀ a v, info a = some v → v ≠ .none → Storable v)
    (hok : (Ufo.step E L (Ufo.run E L (w, fs') pre) (.info info true)).2 = .ok ())
    (hpost : ∀ op ∈ post, Spares fs'.canon c!"fontinfo.plist" op) :
    ∃ r, Ufo.readInfo E (Ufo.run E L (w, fs') (pre ++ .info info true :: post)).2 3 true = .ok r ∧
      ∀ a, Option.Rel (fun v w => Same (untuple v) w) (if a ∈ Dict.keys table3 then present (info a) else none) (Dict.get? r a) := by
  obtain ⟨s1, l1, a1⟩ := Ufo.run_spec E L pre (w, fs') (openWriter_layered h)
  have hver : (Ufo.run E L (w, fs') pre).1.version = 3 := s1.version.trans (openWriter_ok h).2.2.2.1
  rw [run_append]
  generalize hw : Ufo.run E L (w, fs') pre = w1 at *
  have hv : w1.1.version.toNat = 3 := by rw [hver]; rfl
  have hval' : ∀ d, FontInfo.writeInfo E 3 true info = .ok d → ∀ p ∈ d, Storable p.2 := by
    rintro d hd ⟨a, v⟩ hp
    rw [(writeInfo3_ok.1 hd).1] at hp
    obtain ⟨h1, h2⟩ := present_some.1 (mem_gather.1 hp).2
    exact hval a v h1 h2
  obtain ⟨d, e, hd, hx, h1, h2⟩ := info_written hF l1 post hok (by rw [a1.canon]; exact hpost) (by
    intro d hd
    rw [hv] at hd
    have hwf : Dict.WF d := by rw [(writeInfo3_ok.1 hd).1]; exact (keys_gather _ _).nodup wf_table3
    refine ⟨hwf, asDict_representable (fun p hp => ⟨names_fileText _ ?_, hval' d hd p hp⟩) hwf⟩
    rw [(writeInfo3_ok.1 hd).1] at hp
    exact (mem_gather.1 hp).1)
  rw [hv] at hd
  obtain ⟨r, hr, hrel⟩ := file_info3 hd (fun p hp => (hval' d hd p hp).2) h1 h2
  refine ⟨r, ?_, hrel⟩
  unfold Ufo.readInfo
  show (match getPlist E.F _ [c!"fontinfo.plist"] (some (.dict [])) with | .error e => _ | .ok (.dict d) => _ | .ok _ => _) = _
  rw [hx]
  show (match rowOf (e.map fun e => (.str e.1, e.2)) with | .error e => _ | .ok t => _) = _
  rw [rowOf_map]
  exact hr

/-- The same for UFO 2, for values valid in UFO 3 (see `C40_version2_partial`). -/
theorem C60_info2_partial (E : FontInfo.Env) (hF : E.F.Lawful) (L : Casing) (hp : Bool) (fs fs' : FS) (creator : PyVal) (w : Writer)
    (h : openWriter E.F hp fs 2 creator true = (fs', .ok w)) (pre post : List Op) (info : Str → Option PyVal)
    (hval : ∀ a v, info a = some v → v ≠ .none → Storable v)
    (h3 : ∀ a ∈ Dict.keys table2, ∀ v, present (info a) = some v → validateValue E table3 a v = .ok true ∧ (a ∈ nonNegativeIntegerSince3 → ∃ i, IsInt v i))
    (hok : (Ufo.step E L (Ufo.run E L (w, fs') pre) (.info info true)).2 = .ok ())
    (hpost : ∀ op ∈ post, Spares fs'.canon c!"fontinfo.plist" op) :
    ∃ r, Ufo.readInfo E (Ufo.run E L (w, fs') (pre ++ .info info true :: post)).2 2 true = .ok r ∧
      ∀ a, Option.Rel (fun v w => Same (untuple v) w) (if a ∈ Dict.keys table2 then present (info a) else none) (Dict.get? r a) := by
  obtain ⟨s1, l1, a1⟩ := Ufo.run_spec E L pre (w, fs') (openWriter_layered h)
  have hver : (Ufo.run E L (w, fs') pre).1.version = 2 := s1.version.trans (openWriter_ok h).2.2.2.1
  rw [run_append]
  generalize hw : Ufo.run E L (w, fs') pre = w1 at *
  have hv : w1.1.version.toNat = 2 := by rw [hver]; rfl
  have hmem : ∀ d, FontInfo.writeInfo E 2 true info = .ok d → ∀ p ∈ d, p ∈ gather info (Dict.keys table3) := by
    intro d hd p hp
    rw [(writeInfo2_ok.1 hd).1] at hp
    exact List.mem_of_mem_filter hp
  have hval' : ∀ d, FontInfo.writeInfo E 2 true info = .ok d → ∀ p ∈ d, Storable p.2 := by
    rintro d hd ⟨a, v⟩ hp
    obtain ⟨h1, h2⟩ := present_some.1 (mem_gather.1 (hmem d hd _ hp)).2
    exact hval a v h1 h2
  have hwf : ∀ d, FontInfo.writeInfo E 2 true info = .ok d → Dict.WF d := by
    intro d hd
    rw [(writeInfo2_ok.1 hd).1]
    exact (List.filter_sublist.map _).nodup ((keys_gather info _).nodup wf_table3)
  obtain ⟨d, e, hd, hx, h1, h2⟩ := info_written hF l1 post hok (by rw [a1.canon]; exact hpost) (by
    intro d hd
    rw [hv] at hd
    exact ⟨hwf d hd, asDict_representable (fun p hp => ⟨names_fileText _ (mem_gather.1 (hmem d hd p hp)).1, hval' d hd p hp⟩) (hwf d hd)⟩)
  rw [hv] at hd
  have hget : ∀ p ∈ d, p.1 ∈ Dict.keys table2 ∧ present (info p.1) = some p.2 := by
    rintro ⟨a, v⟩ hp
    have := Dict.get?_of_mem (hwf d hd) hp
    rw [(writeInfo2_ok.1 hd).1, get?_written2] at this
    split at this
    · next ha => exact ⟨ha, this⟩
    · cases this
  obtain ⟨r, hr, hrel⟩ := file_info2 hd (fun p hp => (h3 _ (hget p hp).1 _ (hget p hp).2).1) (fun p hp => (h3 _ (hget p hp).1 _ (hget p hp).2).2)
    (fun p hp => (hval' d hd p hp).2) h1 h2
  refine ⟨r, ?_, hrel⟩
  unfold Ufo.readInfo
  show (match getPlist E.F _ [c!"fontinfo.plist"] (some (.dict [])) with | .error e => _ | .ok (.dict d) => _ | .ok _ => _) = _
  rw [hx]
  show (match rowOf (e.map fun e => (.str e.1, e.2)) with | .error e => _ | .ok t => _) = _
  rw [rowOf_map]
  exact hr

/-- The same for UFO 1, for values valid in UFO 3 and finite numbers (see `C40_version1_partial`). -/
theorem C60_info1_partial (E : FontInfo.Env) (hF : E.F.Lawful) (L : Casing) (hp : Bool) (fs fs' : FS) (creator : PyVal) (w : Writer)
    (h : openWriter E.F hp fs 1 creator true = (fs', .ok w)) (pre post : List Op) (info : Str → Option PyVal)
    (hval : ∀ a v, info a = some v → v ≠ .none → Storable v)
    (hfin : ∀ a f, info a = some (.float f) → ∃ q, f = .fin q)
    (h3 : ∀ a b, (a, b) ∈ version1 → ∀ v, present (info b) = some v → validateValue E table3 b v = .ok true)
    (hok : (Ufo.step E L (Ufo.run E L (w, fs') pre) (.info info true)).2 = .ok ())
    (hpost : ∀ op ∈ post, Spares fs'.canon c!"fontinfo.plist" op) :
    ∃ r, Ufo.readInfo E (Ufo.run E L (w, fs') (pre ++ .info info true :: post)).2 1 true = .ok r ∧
      ∀ b, SameEntry (if b ∈ version1.map Prod.snd then present (info b) else none) (Dict.get? r b) := by
  obtain ⟨s1, l1, a1⟩ := Ufo.run_spec E L pre (w, fs') (openWriter_layered h)
  have hver : (Ufo.run E L (w, fs') pre).1.version = 1 := s1.version.trans (openWriter_ok h).2.2.2.1
  rw [run_append]
  generalize hw : Ufo.run E L (w, fs') pre = w1 at *
  have hv : w1.1.version.toNat = 1 := by rw [hver]; rfl
  obtain ⟨d, e, hd, hx, h1, h2⟩ := info_written hF l1 post hok (by rw [a1.canon]; exact hpost) (by
    intro d hd
    rw [hv] at hd
    obtain ⟨P, W⟩ := written1 hd hfin
    exact ⟨W.wf', storable1 W hval⟩)
  rw [hv] at hd
  obtain ⟨P, W⟩ := written1 hd hfin
  obtain ⟨r, hr, hrel⟩ := file_info1 W h3 h1 h2
  refine ⟨r, ?_, hrel⟩
  unfold Ufo.readInfo
  show (match getPlist E.F _ [c!"fontinfo.plist"] (some (.dict [])) with | .error e => _ | .ok (.dict d) => _ | .ok _ => _) = _
  rw [hx]
  show (match rowOf (e.map fun e => (.str e.1, e.2)) with | .error e => _ | .ok t => _) = _
  rw [rowOf_map]
  exact hr

/-- Font info is written twice, with other calls in between. -/
example :
    let w := (Ufo.run env57 asciiCasing new60 [.info (Dict.get? [(c!"familyName", .str c!"F"), (c!"year", .int 2000)]) true, .lib (.dict [(.str c!"x", .int 1)]) true,
      .info (Dict.get? [(c!"familyName", .str c!"G"), (c!"note", .none), (c!"other", .int 1), (c!"openTypeOS2Type", .tuple [.int 3])]) true, .features c!"x"]);
    (Ufo.readInfo env57 w.2 3 true).toOption = some [(c!"familyName", .str c!"G"), (c!"openTypeOS2Type", .list [.int 3])] := by decide +kernel

/-- The same in a UFO 1. -/
example :
    let w0 := openWriter env57.F false fs57 1 (.str c!"org") true;
    let w := w0.2.toOption.map fun v => (Ufo.run env57 asciiCasing (v, w0.1) [.info (Dict.get? [(c!"familyName", .str c!"F"), (c!"openTypeOS2WidthClass", .int 5), (c!"xHeight", .float (.fin 500))]) true, .features c!"x"]);
    w.map (fun w => (Ufo.readInfo env57 w.2 1 true).toOption) =
      some (some [(c!"familyName", .str c!"F"), (c!"xHeight", .int 500), (c!"openTypeOS2WidthClass", .int 5)]) := by decide +kernel

end Verif.Props
