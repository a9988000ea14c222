import Verif.Model.ZipClose
import Verif.Props.UfoZip
/-! Stops and failures during `close`: C126. -/
namespace Verif.Props
open Verif Verif.FS Verif.IO Verif.Ufo Verif.Spec.Ufo Verif.Spec.Plist

/-- A node that is whole or, if a file, cut off. -/
def WholeOrCut : Node → Node → Prop
  | .dir, .dir => True
  | .file a, .file b => a <+: b
  | _, _ => False

/-- Whenever the process stops during `close`, what is at the path is what was there, or what `close` leaves, or something that no reader and no writer accepts. -/
theorem C126_stopped_partial (F : FloatCodec) (base : Str) (s : Handle × Target) (t : Target) (ht : t ∈ closeMoments base s) :
    t = s.2 ∨ t = (close base s).1.2 ∨ ((∀ v, openReader F t v = .error .ufoLibError) ∧
      ∀ canon dirOk arg version creator v, openPath F canon t dirOk arg version creator v = (t, .error .ufoLibError)) := by
  unfold closeMoments at ht
  split at ht
  · simp only [List.mem_cons, List.not_mem_nil, or_false] at ht
    rcases ht with rfl | rfl | rfl
    · exact .inl rfl
    · refine .inr (.inr ⟨fun v => rfl, fun canon dirOk arg version creator v => ?_⟩)
      unfold openPath
      split
      · rfl
      · rfl
    · exact .inr (.inl rfl)
  · simp only [List.mem_cons, List.not_mem_nil, or_false] at ht
    exact .inl ht

/-- So for fonts: if a writer was opened on an archive, used and closed, then whenever the process stops during `close` a reader raises `UFOLibError`, or finds what it found
before the writer was opened, or finds exactly the files the writer left. It never finds a font with something missing. -/
theorem C126_fonts_partial (E : FontInfo.Env) (hF : E.F.Lawful) (L : Casing) (canon : Str → Str) (z : FS) (t' : Target) (dirOk : Bool) (arg : StructureArg) (version : Int)
    (creator : PyVal) (hc : (∃ s, creator = .str s) ∨ Storable creator) (h : Handle) (ho : openPath E.F canon (.zip z) dirOk arg version creator true = (t', .ok h)) (ops : List Op)
    (hops : ∀ op ∈ ops, Spares h.fs.canon c!"metainfo.plist" op) (base : Str) (validate : Bool) (t : Target) (ht : t ∈ closeMoments base (calls E L (h, t') ops)) :
    openReader E.F t validate = .error .ufoLibError ∨ openReader E.F t validate = openReader E.F (.zip z) validate ∨
      ∃ fs, openReader E.F t validate = .ok (fs, version) ∧ ∀ p, fs.node? p = (run E L (h.writer, h.fs) ops).2.node? p := by
  have h1 := C74_untouched E L canon z dirOk arg version creator true
  rw [ho] at h1
  obtain ⟨h1, h2⟩ := h1
  dsimp only at h1
  subst h1
  rcases C126_stopped_partial E.F base _ t ht with rfl | rfl | ⟨hr, -⟩
  · exact .inr (.inl (by rw [h2 h rfl ops]))
  · obtain ⟨-, fs, hr, -, hn⟩ := C74_close E hF L canon (.zip z) _ dirOk arg version creator hc h ho ops hops base validate
    exact .inr (.inr ⟨fs, hr, hn⟩)
  · exact .inl (hr validate)

/-- Packages are complete before `close`: stopping during it changes nothing, and nothing in it fails. -/
theorem C126_package (base : Str) (s : Handle × Target) (hs : isZip s.1.structure_ = false) (f : CloseFailure) :
    (∀ t ∈ closeMoments base s, t = s.2) ∧ (closeFails base f s).2 = .ok () ∧ (closeFails base f s).1.2 = s.2 := by
  refine ⟨fun t ht => ?_, ?_⟩
  · simpa [closeMoments, hs] using ht
  · simp [closeFails, close, hs]

/-- A failure during `close` of an existing archive is reported, and it can be made good as long as the program runs: however often it fails, a `close` that does not fail
leaves what a first `close` would have left. -/
theorem C126_again (base : Str) (s : Handle × Target) (hz : isZip s.1.structure_ = true) (hp : s.1.writer.havePrevious = true) (hc : s.1.closed = false) (fails : List CloseFailure) :
    (∀ f, (closeFails base f s).2 = .error .fsError) ∧ close base (fails.foldl (fun s f => (closeFails base f s).1) s) = close base s := by
  have h1 : ∀ (s : Handle × Target), isZip s.1.structure_ = true → s.1.writer.havePrevious = true → s.1.closed = false → ∀ f,
      (closeFails base f s).2 = .error .fsError ∧ (closeFails base f s).1.1 = s.1 := by
    intro s hz hp hc f
    cases f <;> simp [closeFails, hz, hp, hc]
  refine ⟨fun f => (h1 s hz hp hc f).1, ?_⟩
  have h2 : ∀ (l : List CloseFailure) (s : Handle × Target), isZip s.1.structure_ = true → s.1.writer.havePrevious = true → s.1.closed = false →
      (l.foldl (fun s f => (closeFails base f s).1) s).1 = s.1 := by
    intro l
    induction l with
    | nil => intro s _ _ _; rfl
    | cons f l ih =>
      intro s hz hp hc
      have e := (h1 s hz hp hc f).2
      rw [List.foldl_cons, ih _ (by rw [e]; exact hz) (by rw [e]; exact hp) (by rw [e]; exact hc), e]
  have e := h2 fails s hz hp hc
  unfold close
  rw [e]
  simp only [hz, hc, if_true, if_neg Bool.false_ne_true]

/-- Whatever fails while files are copied, a reader that accepts the archive finds in it only what the writer had: each file is there as a whole, or cut off. -/
theorem C126_only_partial (F : FloatCodec) (base : Str) (s : Handle × Target) (hz : isZip s.1.structure_ = true) (hp : s.1.writer.havePrevious = true) (hc : s.1.closed = false)
    (part : List (Path × Node)) (hpart : ∀ e ∈ part, ∃ n, Dict.get? s.1.fs.nodes e.1 = some n ∧ WholeOrCut e.2 n) (v : Bool) (fs : FS) (version : Int)
    (hr : openReader F (closeFails base (.copying part) s).1.2 v = .ok (fs, version)) :
    ∀ p n, p ≠ [] → fs.node? p = some n → ∃ m, s.1.fs.node? p = some m ∧ WholeOrCut n m := by
  have e : (closeFails base (.copying part) s).1.2 = .zip (archive (base ++ c!".ufo") ⟨s.1.fs.canon, part, []⟩) := by
    simp [closeFails, hz, hp, hc]
  rw [e] at hr
  have hroot : base ++ c!".ufo" ≠ c!"__MACOSX" := fun e => by
    have := congrArg List.getLast? e
    rw [List.getLast?_append] at this
    simp at this
  unfold openReader readerFS openRoot at hr
  dsimp only at hr
  rw [rootDirs_archive _ _ hroot] at hr
  dsimp only at hr
  split at hr
  · cases hr
  · cases hr
    intro p n hne hn
    rw [subFS_archive_node?] at hn
    rw [node?_of_ne hne] at hn ⊢
    exact hpart _ (Dict.mem_of_get? hn)

/-- The writer `edit74` uses, before it is closed. -/
def open126 (ops : List Op) : Option (Handle × Target) :=
  match openPath fractionCodec id zip74 true (.text c!"zip") 3 (.str c!"x") true with
  | (t, .ok h) => some (calls env57 asciiCasing (h, t) ops)
  | (_, .error _) => none

/-- The writer works on an existing archive and is open, as `C126_again` and `C126_only_partial` ask; and it has files. -/
example : (open126 [.lib (.dict [(.str c!"b", .int 2)]) true]).any (fun s => isZip s.1.structure_ && s.1.writer.havePrevious && !s.1.closed && decide (2 < s.1.fs.nodes.length)) = true := by
  decide +kernel

/-- The full claim fails. While the archive is written the old font is gone already and the new one is not there yet: a process that stops then leaves nothing that can be
read, though there was a font before. -/
theorem C126_refuted : ((openReader fractionCodec zip74 true).toOption.isSome = true) ∧
    (open126 []).any (fun s => (closeMoments c!"font" s).any fun t => (openReader fractionCodec t true).toOption.isNone) = true := by decide +kernel

/-- And when copying fails (a full disk), the archive is replaced by one that holds only what had been copied; a reader accepts it, and finds neither the old lib nor the new. -/
theorem C126_incomplete_refuted : lib74 zip74 = some (.dict [(.str c!"a", .int 1)]) ∧
    (open126 [.lib (.dict [(.str c!"b", .int 2)]) true]).any (fun s =>
      let part := s.1.fs.nodes.filter fun e => e.1 == [c!"metainfo.plist"]
      let t := (closeFails c!"font" (.copying part) s).1.2
      (openReader fractionCodec t true).toOption.isSome && decide (lib74 t = some (.dict []))) = true := by decide +kernel

end Verif.Props
