import Verif.Proofs.Faults
import Verif.Props.Reorder
/-! File systems that fail: C122. -/
namespace Verif.Props
open Verif Verif.FS Verif.IO Verif.Ufo Verif.Spec.Ufo

/-- Whatever fails during a call, at whatever point, once or several times, and whatever state the files are left in: the call raises. -/
theorem C122_noticed (E : FontInfo.Env) (L : Casing) (u : User) (c : FontCall) (fs fs' : FS) (r : Option (User × Except Exc Unit)) (h : (u.prog E L c).Suffers fs true fs' r) :
    ∀ u', r ≠ some (u', .ok ()) := by
  rintro u' rfl
  obtain ⟨e, he⟩ := suffers_strict h (prog_strict E L u c) rfl _ rfl
  cases he

/-- If nothing fails, the call does what it always does (`Font.step`). -/
theorem C122_usual (E : FontInfo.Env) (L : Casing) (u : User) (c : FontCall) (fs fs' : FS) (r : Option (User × Except Exc Unit)) :
    (u.prog E L c).Suffers fs false fs' r ↔
      fs' = ((u.on fs).step E L c).1.fs ∧ r = some (⟨((u.on fs).step E L c).1.writer, ((u.on fs).step E L c).1.sets⟩, ((u.on fs).step E L c).2) := by
  constructor
  · intro h
    obtain ⟨h1, h2⟩ := suffers_run h rfl
    rw [prog_run] at h1 h2
    exact ⟨(congrArg Prod.fst h1).symm, h2⟩
  · rintro ⟨rfl, rfl⟩
    have := run_suffers (u.prog E L c) fs
    rw [prog_run] at this
    exact this

/-- A program all of whose calls return normally, on a file system that may fail at any time, has done what it does on one that never fails: nothing failed, and the objects and all files
are those of the run without failures. -/
theorem C122_program (E : FontInfo.Env) (L : Casing) {u u' : User} {fs fs' : FS} {calls : List FontCall} {b : Bool} (h : User.Succeeds E L u fs calls b u' fs') :
    b = false ∧ u'.on fs' = (u.on fs).run E L calls ∧ ∀ r ∈ (u.on fs).results E L calls, r = .ok () := by
  induction h with
  | nil => exact ⟨rfl, rfl, fun r hr => by cases hr⟩
  | @cons u fs c cs b b' u1 fs1 u' fs' h _ ih =>
    have hb : b = false := by
      cases b with
      | false => rfl
      | true => exact absurd rfl (C122_noticed E L u c fs fs1 _ h u1)
    subst hb
    obtain ⟨rfl, h2⟩ := (C122_usual E L u c fs fs1 _).1 h
    cases h2' : ((u.on fs).step E L c).2 with
    | error e => rw [h2'] at h2; simp at h2
    | ok x =>
      have hu : u1 = ⟨((u.on fs).step E L c).1.writer, ((u.on fs).step E L c).1.sets⟩ := by
        have := Option.some.inj h2
        exact congrArg Prod.fst this
      have hon : u1.on ((u.on fs).step E L c).1.fs = ((u.on fs).step E L c).1 := by rw [hu]; rfl
      rw [hon] at ih
      obtain ⟨i1, i2, i3⟩ := ih
      refine ⟨by rw [i1]; rfl, i2, fun r hr => ?_⟩
      rcases List.mem_cons.1 hr with rfl | hr
      · exact h2'
      · exact i3 r hr

/-- There are such runs: if no call raises and nothing fails. -/
theorem C122_program_exists (E : FontInfo.Env) (L : Casing) : ∀ (calls : List FontCall) (u : User) (fs : FS), (∀ r ∈ (u.on fs).results E L calls, r = .ok ()) →
    ∃ u' fs', User.Succeeds E L u fs calls false u' fs'
  | [], u, fs, _ => ⟨u, fs, .nil⟩
  | c :: cs, u, fs, h => by
    have h1 : ((u.on fs).step E L c).2 = .ok () := h _ (List.mem_cons_self ..)
    have h2 := (C122_usual E L u c fs _ _).2 ⟨rfl, rfl⟩
    rw [h1] at h2
    obtain ⟨u', fs', h3⟩ := C122_program_exists E L cs ⟨((u.on fs).step E L c).1.writer, ((u.on fs).step E L c).1.sets⟩ ((u.on fs).step E L c).1.fs
      fun r hr => h r (List.mem_cons_of_mem _ hr)
    exact ⟨u', fs', .cons h2 h3⟩

/-- If every single use of the file system does harm only near the path it is about, then so does the call as a whole: an entry of the root directory that the call is not about keeps all its
files, whatever fails. -/
theorem C122_confined (E : FontInfo.Env) (L : Casing) (u : User) (hwf : Dict.WF u.writer.layers) (hl : LayerDirs u.writer.layers) (c : FontCall) (fs fs' : FS) (b : Bool)
    (r : Option (User × Except Exc Unit)) (h : (u.prog E L c).Suffers fs b fs' r) (e : Str) (he : ∀ d, About (u.on fs) c d → fs.canon d ≠ fs.canon e) (p : Path) :
    fs'.node? (e :: p) = fs.node? (e :: p) :=
  (suffers_spares h (prog_in E L u ⟨hwf, hl⟩ fs c (S := About (u.on fs) c) fun _ h => h) he p).2

theorem sure_closed {α : Type} {bad : α → Prop} : ∀ (p : Prog α), p.Sure bad → ∀ a, p.closed = some a → bad a
  | .ret _, hp, _, h => by cases h; exact hp
  | .get _ k, hp, a, h => sure_closed (k (.error .fsError)) (hp _) a h
  | .has _ _, _, _, h => by cases h
  | .call _ k, hp, a, h => sure_closed (k (.error .fsError)) (hp _) a h

/-- After the file system was closed, every call raises except those that need no files: they do the same as on any file system, and leave it as it is. -/
theorem C122_closed (E : FontInfo.Env) (L : Casing) (u u' : User) (c : FontCall) (h : (u.prog E L c).closed = some (u', .ok ())) (fs : FS) :
    (u.on fs).step E L c = (u'.on fs, .ok ()) := by
  have hs := prog_strict E L u c
  have hr := prog_run E L u c fs
  revert hr
  cases hp : u.prog E L c with
  | ret a =>
    rw [hp] at h
    cases h
    intro hr
    simp only [Prog.run, Prod.mk.injEq] at hr
    obtain ⟨h1, h2, h3⟩ := hr
    refine Prod.ext ?_ h3.symm
    generalize ((u.on fs).step E L c) = r at h1 h2 h3
    subst h1 h2
    rfl
  | get p k =>
    rw [hp] at h hs
    obtain ⟨e, he⟩ := sure_closed (k (.error .fsError)) hs.1 _ h
    cases he
  | has p k => rw [hp] at h; cases h
  | call m k =>
    rw [hp] at h hs
    obtain ⟨e, he⟩ := sure_closed (k (.error .fsError)) hs.1 _ h
    cases he

/-- A closed file system is one on which everything fails and nothing changes. -/
theorem C122_closed_suffers {α : Type} : ∀ (p : Prog α) (fs : FS), ∃ b, p.Suffers fs b fs p.closed
  | .ret _, _ => ⟨_, .ret⟩
  | .get _ k, fs => (C122_closed_suffers (k (.error .fsError)) fs).elim fun _ h => ⟨_, .getFails h⟩
  | .has _ _, _ => ⟨_, .hasFails⟩
  | .call _ k, fs => (C122_closed_suffers (k (.error .fsError)) fs).elim fun _ h => ⟨_, .callFails ⟨rfl, fun _ _ _ _ => rfl⟩ h⟩

/-- The objects of the examples. -/
def user122 : User := ⟨font116.writer, font116.sets⟩

/-- No space is left when the features are written: half of the text arrives, and the call raises. -/
example : ∃ u' e, (user122.prog env57 asciiCasing (.ufo (.features c!"ab"))).Suffers font116.fs true
    (font116.fs.perform (.write (font116.fs.key [c!"features.fea"]) [97])) (some (u', .error e)) := by
  refine ⟨user122, .fsError, Prog.Suffers.get (b := true) ?_⟩
  have hb : font116.fs.getbytes [featuresName] = .error .resourceNotFound := by decide +kernel
  rw [hb]
  refine .callFails (fs1 := font116.fs.perform (.write (font116.fs.key [c!"features.fea"]) [97])) (b := false) ⟨rfl, fun c x _ h => ?_⟩ .ret
  have hne := h _ (List.mem_singleton.2 rfl) _ rfl
  unfold FS.node?
  rw [if_neg (by simp), if_neg (by simp)]
  exact Dict.get?_set_ne _ _ fun e => hne (by simpa [FS.key, featuresName] using congrArg List.head? e)

/-- All calls of the program of C116 succeed. -/
example : ∀ r ∈ (user122.on font116.fs).results env57 asciiCasing calls116, r = .ok () := by
  have h : (font116.results env57 asciiCasing calls116).map Except.toOption = [some (), some (), some (), some ()] := by decide +kernel
  intro r hr
  have := List.mem_map_of_mem (f := Except.toOption) hr
  rw [show (user122.on font116.fs).results env57 asciiCasing calls116 = font116.results env57 asciiCasing calls116 from rfl, h] at this
  cases r with
  | ok x => rfl
  | error e => simp [Except.toOption] at this

/-- On a closed file system: writing the lib raises, and setting the rename maps of groups does not. -/
example : ((user122.prog env57 asciiCasing (.ufo (.lib (.dict [(.str c!"a", .int 1)]) true))).closed.map fun r => r.2) = some (.error .fsError) ∧
    ((user122.prog env57 asciiCasing (.ufo (.maps [] []))).closed.map fun r => r.2) = some (.ok ()) := by decide +kernel

end Verif.Props
