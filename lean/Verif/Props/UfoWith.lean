import Verif.Spec.UfoWith
import Verif.Props.UfoZip
/-! C120: `with` statements. -/
namespace Verif.Props
open Verif Verif.FS Verif.IO Verif.Ufo Verif.Spec.Ufo Verif.Spec.Plist

theorem block_ends (E : FontInfo.Env) (L : Casing) (own : Option Exc) (ops : List Op) : ∀ (s : Handle × Target),
    ∃ made, Ends E L own s ops made (block E L own s ops).2 ∧ (block E L own s ops).1 = calls E L s made := by
  induction ops with
  | nil =>
    intro s
    refine ⟨[], ?_, rfl⟩
    cases own with
    | none => exact .done rfl
    | some e => exact .raises rfl
  | cons op ops ih =>
    intro s
    unfold block
    rcases hc : call E L s op with ⟨s', e | u⟩
    · exact ⟨[op], .fails (by rw [hc]), by simp [calls, hc]⟩
    · dsimp only
      obtain ⟨made, h1, h2⟩ := ih s'
      exact ⟨op :: made, .goes (by rw [hc]) (by rw [hc]; exact h1), by simp [calls, hc, h2]⟩

theorem ends_prefix {E : FontInfo.Env} {L : Casing} {own : Option Exc} {s : Handle × Target} {ops made : List Op} {r : Except Exc Unit} (h : Ends E L own s ops made r) :
    made <+: ops ∧ (r = .ok () → made = ops ∧ own = none) := by
  induction h with
  | done h => exact ⟨List.prefix_refl _, fun _ => ⟨rfl, h⟩⟩
  | raises h => exact ⟨List.prefix_refl _, fun h => by cases h⟩
  | fails h => exact ⟨by simp, fun h => by cases h⟩
  | goes h t ih =>
    refine ⟨by simpa using ih.1, fun hr => ?_⟩
    obtain ⟨rfl, h2⟩ := ih.2 hr
    exact ⟨rfl, h2⟩

theorem close_closed (base : Str) (s : Handle × Target) : (close base s).1.1.closed = true := by
  unfold close
  dsimp only
  split
  · split
    · split <;> rfl
    · rfl
  · rfl

/-- C120. The writer of a `with` statement is closed in the end, whatever the block does. The statement has the outcome of the block: it raises what the first call that fails raises, or the program
itself. A reader finds exactly the files that the calls made have left, those of the call that failed included. -/
theorem C120_with (E : FontInfo.Env) (hF : E.F.Lawful) (L : Casing) (canon : Str → Str) (t t' : Target) (dirOk : Bool) (arg : StructureArg) (version : Int) (creator : PyVal)
    (hc : (∃ s, creator = .str s) ∨ Storable creator) (h : Handle) (ho : openPath E.F canon t dirOk arg version creator true = (t', .ok h)) (ops : List Op) (own : Option Exc)
    (hops : ∀ op ∈ ops, Spares h.fs.canon c!"metainfo.plist" op) (base : Str) (validate : Bool) :
    (withWriter E L base own (h, t') ops).1.1.closed = true ∧
    ∃ made, Ends E L own (h, t') ops made (withWriter E L base own (h, t') ops).2 ∧
      ∃ fs, openReader E.F (withWriter E L base own (h, t') ops).1.2 validate = .ok (fs, version) ∧ ∀ p, fs.node? p = (run E L (h.writer, h.fs) made).2.node? p := by
  obtain ⟨made, h1, h2⟩ := block_ends E L own ops (h, t')
  have hm := (ends_prefix h1).1
  obtain ⟨k1, fs, k2, -, k3⟩ := C74_close E hF L canon t t' dirOk arg version creator hc h ho made (fun op hop => hops op (hm.subset hop)) base validate
  have hw : withWriter E L base own (h, t') ops = ((close base (calls E L (h, t') made)).1, (block E L own (h, t') ops).2) := by
    unfold withWriter
    dsimp only
    rw [h2]
    rcases hcl : close base (calls E L (h, t') made) with ⟨s', e | u⟩
    · rw [hcl] at k1; cases k1
    · rfl
  rw [hw]
  exact ⟨close_closed _ _, made, h1, fs, k2, k3⟩

/-- C120. When all goes well the statement is the same as making the calls and closing the writer. -/
theorem C120_success (E : FontInfo.Env) (L : Casing) (base : Str) (own : Option Exc) (s : Handle × Target) (ops : List Op) (h : (withWriter E L base own s ops).2 = .ok ()) :
    own = none ∧ close base (calls E L s ops) = withWriter E L base own s ops := by
  obtain ⟨made, h1, h2⟩ := block_ends E L own ops s
  unfold withWriter at h ⊢
  dsimp only at h ⊢
  rcases hcl : close base (block E L own s ops).1 with ⟨s', e | u⟩
  · rw [hcl] at h; cases h
  · rw [hcl] at h
    dsimp only at h ⊢
    obtain ⟨rfl, ho⟩ := (ends_prefix h1).2 h
    refine ⟨ho, ?_⟩
    rw [← h2, hcl, h]

/-- The statement on the archive of C74. -/
def with120 (ops : List Op) (own : Option Exc) : Target × Option (Except Exc Unit) :=
  match openPath fractionCodec id zip74 true .absent 3 (.str c!"x") true with
  | (t, .ok h) => let r := withWriter env57 asciiCasing c!"font" own (h, t) ops; (r.1.2, some r.2)
  | (t, .error _) => (t, none)

/-- The conditions of `C120_with` hold of it, with a block that raises. -/
example : (openPath fractionCodec id zip74 true .absent 3 (.str c!"x") true).2.toOption.isSome = true ∧
    ∀ t' h, openPath fractionCodec id zip74 true .absent 3 (.str c!"x") true = (t', .ok h) →
      (withWriter env57 asciiCasing c!"font" (some .keyError) (h, t') [.features c!"f", .lib (.dict [(.str c!"b", .int 2)]) true]).1.1.closed = true := by
  refine ⟨by decide +kernel, fun t' h ho => ?_⟩
  have hcan : ((openPath fractionCodec id zip74 true .absent 3 (.str c!"x") true).2.toOption.any fun h =>
      h.fs.canon c!"features.fea" != h.fs.canon c!"metainfo.plist" && h.fs.canon c!"lib.plist" != h.fs.canon c!"metainfo.plist") = true := by decide +kernel
  rw [ho] at hcan
  simp only [Except.toOption, Option.any_some, Bool.and_eq_true, bne_iff_ne] at hcan
  refine (C120_with env57 fractionCodec_lawful asciiCasing id zip74 t' true .absent 3 (.str c!"x") (.inl ⟨_, rfl⟩) h ho _ (some .keyError) ?_ c!"font" true).1
  intro op hop
  simp only [List.mem_cons, List.not_mem_nil, or_false] at hop
  rcases hop with rfl | rfl
  · intro c hc; cases hc; exact hcan.1
  · intro c hc; cases hc; exact hcan.2

/-- Two calls in the block: both are made, and the archive has them. -/
example : (with120 [.features c!"f", .lib (.dict [(.str c!"b", .int 2)]) true] none).2 = some (.ok ()) ∧
    lib74 (with120 [.features c!"f", .lib (.dict [(.str c!"b", .int 2)]) true] none).1 = some (.dict [(.str c!"b", .int 2)]) := by decide +kernel

/-- The second call raises, and the third is not made. -/
example : (with120 [.features c!"f", .lib (.str c!"no dict") true, .lib (.dict [(.str c!"b", .int 2)]) true] none).2 = some (.error .ufoLibError) ∧
    lib74 (with120 [.features c!"f", .lib (.str c!"no dict") true, .lib (.dict [(.str c!"b", .int 2)]) true] none).1 = some (.dict [(.str c!"a", .int 1)]) := by decide +kernel

/-- A user may expect that a block that raises leaves an existing archive alone, as `close` alone changes it. It does not: the archive is replaced by the state of the writer at the exception. -/
theorem C120_refuted_unchanged : (with120 [.lib (.dict [(.str c!"b", .int 2)]) true] (some .keyError)).2 = some (.error .keyError) ∧
    lib74 zip74 = some (.dict [(.str c!"a", .int 1)]) ∧
    lib74 (with120 [.lib (.dict [(.str c!"b", .int 2)]) true] (some .keyError)).1 = some (.dict [(.str c!"b", .int 2)]) := by decide +kernel

/-- A new archive is made although the block raises: here one whose layers cannot be read, because the program had not come to the table of the layers. -/
theorem C120_refuted_new : (match openPath fractionCodec id .nothing true (.member .zip) 3 (.str c!"x") true with
  | (t, .ok h) =>
    let r := withWriter env57 asciiCasing c!"font" (some .valueError) (h, t) [.lib (.dict [(.str c!"a", .int 1)]) true, .glyphSet none true true]
    r.2 == .error .valueError && (openReader fractionCodec r.1.2 true).toOption.any fun x => (getLayerNames fractionCodec x.1 x.2 true).toOption.isNone
  | (_, .error _) => false) = true := by decide +kernel

end Verif.Props
