import Verif.Proofs.UfoMethods
import Verif.Props.UfoShared
/-! Several programs at work on one UFO at the same time, interrupting each other inside their calls: C102. -/
namespace Verif.Props
open Verif Verif.FS Verif.IO Verif.Ufo Verif.Spec.Ufo

/-! ### C102 -/

/-- The start: no program is in a call. -/
theorem beside_start (E : FontInfo.Env) (L : Casing) (S : Nat → Str → Prop) (s : Running) (hwf : Dict.WF s.fs.nodes)
    (hl : ∀ p ∈ s.procs, p.running = none ∧ Dict.WF p.user.writer.layers ∧ LayerDirs p.user.writer.layers)
    (hk : ∀ (i : Nat) p, s.procs[i]? = some p → KeepsTo E L (S i) (p.user.on s.fs) p.todo) :
    Beside E L S s.fs.canon s (fun i => match s.procs[i]? with | some p => (p, s.fs) | none => (⟨⟨⟨0, [], false, false, none⟩, []⟩, none, [], []⟩, s.fs)) := by
  refine ⟨rfl, hwf, fun i p hp => ?_, fun i p hp => ?_, fun i p hp => ?_, fun i p hp => ?_⟩
  all_goals rw [hp]
  · exact Alike.refl _ _ _
  · exact hwf
  · obtain ⟨h1, h2, h3⟩ := hl p (List.mem_of_getElem? hp)
    unfold Careful
    dsimp only
    rw [h1]
    exact ⟨⟨h2, h3⟩, hk i p hp⟩

/-- A call that is not interrupted does the same when it is made as a sequence of calls on the file system as in the model of the call: the same files, the same state of the program and
the same outcome. -/
theorem C102_same (E : FontInfo.Env) (L : Casing) (u : User) (c : FontCall) (fs : FS) :
    (u.prog E L c).run fs = (((u.on fs).step E L c).1.fs, ⟨((u.on fs).step E L c).1.writer, ((u.on fs).step E L c).1.sets⟩, ((u.on fs).step E L c).2) :=
  prog_run E L u c fs

/-- Programs that share a UFO, each with a writer of its own, and that keep to different entries of the root directory: at every moment, in every schedule of their single calls on the file
system, also when others have stopped in the middle of a call, each program is where it would be alone after as many steps of its own, and its entries hold what they would hold then. -/
theorem C102_alone (E : FontInfo.Env) (L : Casing) (S : Nat → Str → Prop) (s : Running) (hS : Divided s.fs.canon S) (hwf : Dict.WF s.fs.nodes)
    (hl : ∀ p ∈ s.procs, p.running = none ∧ Dict.WF p.user.writer.layers ∧ LayerDirs p.user.writer.layers)
    (hk : ∀ (i : Nat) p, s.procs[i]? = some p → KeepsTo E L (S i) (p.user.on s.fs) p.todo) (sched : List Nat) (i : Nat) (p : Proc) (hp : s.procs[i]? = some p) :
    let alone := p.steps E L s.fs (sched.count i)
    (s.run E L sched).procs[i]? = some alone.1 ∧ ∀ e q, S i e → (s.run E L sched).fs.node? (e :: q) = alone.2.node? (e :: q) := by
  have h := (beside_run E L hS sched (beside_start E L S s hwf hl hk)).1
  have hlen : i < (s.run E L sched).procs.length := by
    rw [run_procs]
    exact (List.getElem?_eq_some_iff.1 hp).1
  have hp' := List.getElem?_eq_getElem hlen
  have h1 := h.same i _ hp'
  have h2 := h.shares i _ hp'
  simp only [hp] at h1 h2
  exact ⟨by rw [hp', h1], fun e q he => h2.node _ (paths_cons he)⟩

/-- A program that has come to the end of its calls has had the outcomes, is in the state and has left the files as if it had run alone and without interruption. -/
theorem C102_finished (E : FontInfo.Env) (L : Casing) (S : Nat → Str → Prop) (s : Running) (hS : Divided s.fs.canon S) (hwf : Dict.WF s.fs.nodes)
    (hl : ∀ p ∈ s.procs, p.running = none ∧ Dict.WF p.user.writer.layers ∧ LayerDirs p.user.writer.layers)
    (hk : ∀ (i : Nat) p, s.procs[i]? = some p → KeepsTo E L (S i) (p.user.on s.fs) p.todo) (sched : List Nat) (i : Nat) (p p' : Proc) (hp : s.procs[i]? = some p)
    (hp' : (s.run E L sched).procs[i]? = some p') (hf : p'.finished) :
    let alone := (p.user.on s.fs).run E L p.todo
    p'.user = ⟨alone.writer, alone.sets⟩ ∧ p'.done = p.done ++ (p.user.on s.fs).results E L p.todo ∧
      ∀ e q, S i e → (s.run E L sched).fs.node? (e :: q) = alone.fs.node? (e :: q) := by
  obtain ⟨h1, h2⟩ := C102_alone E L S s hS hwf hl hk sched i p hp
  rw [hp'] at h1
  have h1 := Option.some.inj h1
  obtain ⟨n, hn⟩ := calls_end E L p.todo p.user p.done s.fs
  have hstart : (⟨p.user, none, p.todo, p.done⟩ : Proc) = p := by rw [← (hl p (List.mem_of_getElem? hp)).1]
  rw [hstart] at hn
  have fin : (p.steps E L s.fs (sched.count i)).1.finished := by rw [← h1]; exact hf
  have fin' : (p.steps E L s.fs n).1.finished := by rw [hn]; exact ⟨rfl, rfl⟩
  have h3 := (steps_add E L (sched.count i) n p s.fs).trans (finished_steps E L fin _ n)
  have h4 := (steps_add E L n (sched.count i) p s.fs).trans (finished_steps E L fin' _ (sched.count i))
  rw [Nat.add_comm] at h4
  have h6 := (h3.symm.trans h4).trans hn
  change p.steps E L s.fs (sched.count i) = _ at h6
  rw [h6] at h1 h2
  subst h1
  exact ⟨rfl, rfl, h2⟩

/-- No program can be kept from finishing by the others: there is a number of steps of its own after which it has finished, whatever the others do meanwhile. -/
theorem C102_progress (E : FontInfo.Env) (L : Casing) (S : Nat → Str → Prop) (s : Running) (hS : Divided s.fs.canon S) (hwf : Dict.WF s.fs.nodes)
    (hl : ∀ p ∈ s.procs, p.running = none ∧ Dict.WF p.user.writer.layers ∧ LayerDirs p.user.writer.layers)
    (hk : ∀ (i : Nat) p, s.procs[i]? = some p → KeepsTo E L (S i) (p.user.on s.fs) p.todo) (i : Nat) (p : Proc) (hp : s.procs[i]? = some p) :
    ∃ n, ∀ sched : List Nat, n ≤ sched.count i → ∃ p', (s.run E L sched).procs[i]? = some p' ∧ p'.finished := by
  obtain ⟨n, hn⟩ := calls_end E L p.todo p.user p.done s.fs
  have hstart : (⟨p.user, none, p.todo, p.done⟩ : Proc) = p := by rw [← (hl p (List.mem_of_getElem? hp)).1]
  rw [hstart] at hn
  refine ⟨n, fun sched hc => ⟨_, (C102_alone E L S s hS hwf hl hk sched i p hp).1, ?_⟩⟩
  obtain ⟨m, hm⟩ := Nat.exists_eq_add_of_le hc
  rw [hm, steps_add, hn, finished_steps E L ⟨rfl, rfl⟩]
  exact ⟨rfl, rfl⟩

/-- What is in no program's part of the UFO is as before, at every moment. -/
theorem C102_rest (E : FontInfo.Env) (L : Casing) (S : Nat → Str → Prop) (s : Running) (hS : Divided s.fs.canon S) (hwf : Dict.WF s.fs.nodes)
    (hl : ∀ p ∈ s.procs, p.running = none ∧ Dict.WF p.user.writer.layers ∧ LayerDirs p.user.writer.layers)
    (hk : ∀ (i : Nat) p, s.procs[i]? = some p → KeepsTo E L (S i) (p.user.on s.fs) p.todo) (sched : List Nat) (e : Str) (he : ∀ i, i < s.procs.length → ¬ S i e) (q : Path) :
    (s.run E L sched).fs.node? (e :: q) = s.fs.node? (e :: q) :=
  (beside_run E L hS sched (beside_start E L S s hwf hl hk)).2 e q he

/-- Two programs that have opened a UFO: one writes the lib and then the groups, one writes the features. -/
def running102 : Running :=
  let w : Writer := { version := 3, layers := [(c!"fg", c!"glyphs")], havePrevious := false, validate := true, renameMap := none }
  { procs := [⟨⟨w, []⟩, none, [.ufo (.lib (.dict [(.str c!"a", .int 1)]) true), .ufo (.groups [(c!"g", [c!"x"])] true)], []⟩, ⟨⟨w, []⟩, none, [.ufo (.features c!"f")], []⟩],
    fs := { canon := id, nodes := [([c!"glyphs"], .dir)], log := [] } }

/-- The parts of the two programs. -/
def part102 (i : Nat) (e : Str) : Prop := (i = 0 ∧ (e = c!"lib.plist" ∨ e = c!"groups.plist")) ∨ (i = 1 ∧ e = c!"features.fea")

/-- The hypotheses are met. -/
example : Divided running102.fs.canon part102 ∧ Dict.WF running102.fs.nodes ∧
    (∀ p ∈ running102.procs, p.running = none ∧ Dict.WF p.user.writer.layers ∧ LayerDirs p.user.writer.layers) ∧
      ∀ (i : Nat) p, running102.procs[i]? = some p → KeepsTo env57 asciiCasing (part102 i) (p.user.on running102.fs) p.todo := by
  refine ⟨⟨?_, ?_⟩, by unfold Dict.WF; decide +kernel, ?_, ?_⟩
  · rintro i j a b hij (⟨rfl, rfl | rfl⟩ | ⟨rfl, rfl⟩) (⟨rfl, rfl | rfl⟩ | ⟨rfl, rfl⟩) <;> first | exact absurd rfl hij | decide
  · rintro i a b (rfl : a = b) h; exact h
  · intro p hp
    have hd : LayerDirs [(c!"fg", c!"glyphs")] := by
      intro n d h
      have := Dict.mem_of_get? h
      simp only [List.mem_cons, List.not_mem_nil, or_false, Prod.mk.injEq] at this
      obtain ⟨-, rfl⟩ := this
      exact .inl rfl
    simp only [running102, List.mem_cons, List.not_mem_nil, or_false] at hp
    rcases hp with rfl | rfl
    · exact ⟨rfl, by unfold Dict.WF; decide +kernel, hd⟩
    · exact ⟨rfl, by unfold Dict.WF; decide +kernel, hd⟩
  · intro i p hp
    rcases i with _ | _ | i
    · cases hp
      refine ⟨fun e he => ?_, fun e he => ?_, trivial⟩
      · cases he; exact .inl ⟨rfl, .inl rfl⟩
      · cases he; exact .inl ⟨rfl, .inr rfl⟩
    · cases hp
      refine ⟨fun e he => ?_, trivial⟩
      cases he
      exact .inr ⟨rfl, rfl⟩
    · simp [running102] at hp

/-- The first program is interrupted between emptying the file and writing it; the second one finishes meanwhile. -/
example : let s := running102.run env57 asciiCasing [0, 0, 1, 1, 1, 1]
    s.fs.node? [c!"lib.plist"] = some (.file []) ∧ s.fs.node? [c!"features.fea"] = some (.file [0x66]) ∧ s.procs.map (fun p => p.done.length) = [0, 1] := by decide +kernel

/-- Two programs with a layer in common. -/
def clash102 : Running :=
  let w : Writer := { version := 3, layers := [(c!"fg", c!"glyphs"), (c!"bg", c!"glyphs.bg")], havePrevious := true, validate := true, renameMap := none }
  { procs := [⟨⟨w, []⟩, none, [.getGlyphSet (some c!"bg") false true], []⟩, ⟨⟨w, []⟩, none, [.ufo (.delete (some c!"bg"))], []⟩],
    fs := { canon := id, nodes := [([c!"glyphs"], .dir), ([c!"glyphs.bg"], .dir), ([c!"glyphs.bg", c!"contents.plist"], .file (utf8 c!"<plist><dict><key>x</key><string>x.glif</string></dict></plist>")),
      ([c!"glyphs.bg", c!"x.glif"], .file [])], log := [] } }

/-- What is seen after a schedule: whether each program has finished its call without an exception, the glyphs in the glyph set of the first program, and whether the directory of the layer exists. -/
def seen102 (sched : List Nat) : Bool × List (List Str) × Bool :=
  let s := clash102.run env57 asciiCasing sched
  (s.procs.all (fun p => p.done.length == 1 && p.done.all Except.isOk), (s.procs.take 1).flatMap (fun p => p.user.sets.map fun g => Dict.keys g.contents), s.fs.exists [c!"glyphs.bg"])

/-- Different parts are needed, and with a part in common an interrupted call can have a result that it has in no order of whole calls: one program opens a layer while another deletes it.
One after the other, either the layer is opened with its glyph and then deleted, or it is deleted and then made anew, so that its directory is there in the end. When the deletion comes
after the directory has been made and before the contents are read, the call succeeds with a layer without glyphs and there is no directory. -/
theorem C102_needed : seen102 ([0, 0, 0, 0, 0, 0] ++ [1, 1, 1, 1]) = (true, [[c!"x"]], false) ∧
    seen102 ([1, 1, 1, 1] ++ [0, 0, 0, 0, 0]) = (true, [[]], true) ∧
    seen102 ([0, 0] ++ [1, 1, 1, 1] ++ [0, 0, 0]) = (true, [[]], false) := by decide +kernel

end Verif.Props
