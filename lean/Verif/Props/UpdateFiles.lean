import Verif.Proofs.UpdateFiles
import Verif.Props.FileObjects
/-! Files opened for updating: C134. -/
namespace Verif.Props
open Verif Verif.FS Verif.PathNames Verif.UpdateFiles Verif.Proofs.UpdateFiles Verif.Spec.PathNames Verif.Spec.UpdateFiles
open Verif.FileObjects (Mode File getFileObject newFile)

/-- What is there just after opening. -/
theorem update_opened {fs fs' : FS} {s : Str} {p : Path} {m : Mode} {f : File} (hs : Leads s p) (h : getFileObject fs s m = (fs', .ok (.file f))) :
    f = newFile p m ∧ fs'.getbytes p = .ok (begins fs p m) ∧ fs'.canon = fs.canon ∧ (∀ q d, fs.key q ≠ fs.key p → (fs'.getbytes q = .ok d ↔ fs.getbytes q = .ok d)) ∧
    (Tidy fs → fs'.node? p.dropLast = some .dir) := by
  have hr := (resolve_iff s p).2 hs
  by_cases hm : m = .r
  · subst hm
    unfold getFileObject FileObjects.openFile at h
    rw [hr] at h
    dsimp only at h
    cases hg : fs.getbytes p with
    | ok d =>
      rw [hg] at h
      cases h
      refine ⟨rfl, ?_, rfl, fun _ _ _ => Iff.rfl, fun ht => ht.parents p (by rw [getbytes_ok.1 hg]; rfl)⟩
      unfold begins
      rw [hg]
    | error e =>
      rw [hg] at h
      dsimp only at h
      split at h
      · simp at *
      · simp at h
      · split at h <;> simp at h
  · obtain ⟨g1, g2, g3, g4, -, -, g5⟩ := FileObjects.getFileObject_spec hr hm h
    refine ⟨g1, ?_, g3, g4, g5⟩
    rw [g2]
    cases m <;> first | exact absurd rfl hm | rfl | (unfold Spec.FileObjects.before begins; cases fs.getbytes p <;> rfl)

/-- Whatever the caller does with the file, and whenever bytes go to the disk: each call returns and raises what it would with an array of bytes (bytes that were written are read back at once,
and with `a` everything is written at the end). At every moment the file on the disk becomes the array when the last bytes written, none after closing, are put at their place. -/
theorem C134_array (fs fs' : FS) (ht : Tidy fs) (s : Str) (p : Path) (m : Mode) (f : File) (hs : Leads s p) (h : getFileObject fs s m = (fs', .ok (.file f)))
    (es : List Event) (hu : Undisturbed (opened fs' f, fs') es) :
    ∃ array, Plain.Events (m == .a) ⟨begins fs p m, if m = .a then (begins fs p m).length else 0, false⟩ es array (events (opened fs' f, fs') es).2 ∧
      (∃ d off b, (events (opened fs' f, fs') es).1.2.getbytes p = .ok d ∧ b <:+ written es ∧ Put d off b array.data) ∧
      (array.closed = true → (events (opened fs' f, fs') es).1.2.getbytes p = .ok array.data) := by
  obtain ⟨rfl, g, -, -, hd⟩ := update_opened hs h
  have hopen : opened fs' (newFile p m) = ⟨p, m == .a, if m = .a then (begins fs p m).length else 0, [], false⟩ := by
    unfold opened newFile
    dsimp only
    rw [g]
  rw [hopen] at hu ⊢
  obtain ⟨array, h1, h2, h3⟩ := events_holds es [] (⟨p, m == .a, if m = .a then (begins fs p m).length else 0, [], false⟩, fs')
    ⟨begins fs p m, if m = .a then (begins fs p m).length else 0, false⟩ (holds_empty rfl g rfl (hd ht) rfl) hu
  obtain ⟨d, i1, i2, i3⟩ := h2.disk
  rw [h3] at i1
  have key : ∀ off b, array.data = overlay d off b → Put d off b array.data := fun off b h => by rw [h]; exact overlay_put _ _ _
  refine ⟨array, h1, ⟨d, _, _, i1, h2.tail, key _ _ i2⟩, fun hc => ?_⟩
  rw [h2.none hc, overlay_nil] at i2
  rw [i2]
  exact i1

/-- Two arrays with which the same is done are the same. -/
theorem C134_determined (append : Bool) {s a b : Plain} {e : Event} {r t : Except Exc Bytes} (h : Plain.Event append s e a r) (h' : Plain.Event append s e b t) : a = b ∧ r = t := by
  cases h with
  | write d d' x i hb hp =>
    cases h' with
    | nothing => exact absurd rfl hb
    | write _ d'' _ _ _ hp' =>
      have : d' = d'' := List.ext_getElem? fun i => by rw [hp i, hp' i]
      subst this
      exact ⟨rfl, rfl⟩
    | closed => simp_all
  | truncate d d' i n hp =>
    cases h' with
    | truncate _ d'' _ _ hp' =>
      have : d' = d'' := List.ext_getElem? fun i => by rw [hp i, hp' i]
      subst this
      exact ⟨rfl, rfl⟩
    | closed => simp_all
  | read d x i n hx =>
    cases h' with
    | read _ _ _ _ hx' => subst hx; subst hx'; exact ⟨rfl, rfl⟩
    | closed => simp_all
  | closed _ hc _ he => cases h' <;> simp_all
  | _ => cases h' <;> simp_all

/-- Nothing of this concerns another file. -/
theorem C134_others (fs fs' : FS) (s : Str) (p : Path) (m : Mode) (f : File) (hs : Leads s p) (h : getFileObject fs s m = (fs', .ok (.file f)))
    (es : List Event) (ha : Alone es) (q : Path) (d : Bytes) (hq : q.map fs.canon ≠ p.map fs.canon) :
    (events (opened fs' f, fs') es).1.2.getbytes q = .ok d ↔ fs.getbytes q = .ok d := by
  obtain ⟨rfl, -, c, o, -⟩ := update_opened hs h
  rw [← o q d hq]
  unfold FS.getbytes
  rw [(events_other es (opened fs' (newFile p m), fs') ha).2 q (by unfold FS.key; rw [c]; exact hq)]

/-- A file that is updated: with `r+` the third byte is replaced and read, and bytes are put beyond the end; with `a+` bytes go to the end, wherever the position is. -/
def es134 : List Event := [.seek 2, .write [7], .flush 0, .seek 0, .read 9, .seek 5, .write [8, 9], .flush 1]

theorem opened134 (m : Mode) (hm : m = .r ∨ m = .a) : getFileObject fs103 c!"data/b.txt" m = (fs103, .ok (.file (newFile [c!"data", c!"b.txt"] m))) := by
  rcases hm with rfl | rfl <;> rfl

theorem leads134 : Leads c!"data/b.txt" [c!"data", c!"b.txt"] := (resolve_iff _ _).1 (by decide +kernel)

example : (events (opened fs103 (newFile [c!"data", c!"b.txt"] .r), fs103) es134).2.map Except.toOption = [some [], some [], some [], some [], some [4, 0, 7], some [], some [], some []] ∧
    ((events (opened fs103 (newFile [c!"data", c!"b.txt"] .r), fs103) es134).1.2.getbytes [c!"data", c!"b.txt"]).toOption = some [4, 0, 7, 0, 0, 8] ∧
    ((events (opened fs103 (newFile [c!"data", c!"b.txt"] .r), fs103) (es134 ++ [.close])).1.2.getbytes [c!"data", c!"b.txt"]).toOption = some [4, 0, 7, 0, 0, 8, 9] ∧
    (events (opened fs103 (newFile [c!"data", c!"b.txt"] .a), fs103) es134).2.map Except.toOption = [some [], some [], some [], some [], some [4, 7], some [], some [], some []] ∧
    ((events (opened fs103 (newFile [c!"data", c!"b.txt"] .a), fs103) (es134 ++ [.truncate 3, .close, .write [1]])).1.2.getbytes [c!"data", c!"b.txt"]).toOption = some [4, 7, 8] := by decide +kernel

example : ∃ array, Plain.Events false ⟨[4], 0, false⟩ es134 array (events (opened fs103 (newFile [c!"data", c!"b.txt"] .r), fs103) es134).2 :=
  have ⟨array, h, _⟩ := C134_array fs103 _ tidy_fs103 _ _ .r _ leads134 (opened134 .r (.inl rfl)) es134 (by simp [es134, Undisturbed])
  ⟨array, h⟩

end Verif.Props
