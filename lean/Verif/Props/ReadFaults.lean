import Verif.Proofs.ReaderMethods
import Verif.Props.Faults
import Verif.Props.Crash
/-! Reading and opening on file systems that fail: C123. -/
namespace Verif.Props
open Verif Verif.FS Verif.IO Verif.Ufo

/-- Whatever fails while something is read, and however often: the method raises. -/
theorem C123_noticed (E : FontInfo.Env) (G : Glif.Env) {α : Type} (c : ReadCall α) (fs fs' : FS) (r : Option (Except Exc α)) (h : (c.prog E G).Suffers fs true fs' r) :
    ∀ a, r ≠ some (.ok a) := by
  rintro a rfl
  obtain ⟨e, he⟩ := suffers_strict h (read_strict E G c) rfl _ rfl
  cases he

/-- A method that returns normally has given what the files hold, and nothing has failed. -/
theorem C123_given (E : FontInfo.Env) (G : Glif.Env) {α : Type} (c : ReadCall α) (fs fs' : FS) (b : Bool) (a : α) (h : (c.prog E G).Suffers fs b fs' (some (.ok a))) :
    b = false ∧ c.read E G fs = .ok a := by
  have hb : b = false := by
    cases b with
    | false => rfl
    | true => exact absurd rfl (C123_noticed E G c fs fs' _ h a)
  subst hb
  obtain ⟨_, h2⟩ := suffers_run h rfl
  rw [read_run] at h2
  exact ⟨rfl, (Option.some.inj h2).symm⟩

/-- When nothing fails, that is what happens. -/
theorem C123_usual (E : FontInfo.Env) (G : Glif.Env) {α : Type} (c : ReadCall α) (fs : FS) : (c.prog E G).Suffers fs false fs (some (c.read E G fs)) := by
  have := run_suffers (c.prog E G) fs
  rw [read_run] at this
  exact this

/-- Reading leaves the files alone, whatever fails. -/
theorem C123_unharmed (E : FontInfo.Env) (G : Glif.Env) {α : Type} (c : ReadCall α) (fs fs' : FS) (b : Bool) (r : Option (Except Exc α)) (h : (c.prog E G).Suffers fs b fs' r) : fs' = fs :=
  suffers_quiet h (read_quiet E G c)

/-- A writer that is made although the file system can fail is the writer that is made on one that does not fail, and the files are the same. -/
theorem C123_open (F : FloatCodec) (havePrevious : Bool) (version : Int) (creator : PyVal) (validate : Bool) (fs fs' : FS) (b : Bool) (w : Writer) :
    (openWriterP F havePrevious version creator validate).Suffers fs b fs' (some (.ok w)) ↔ b = false ∧ openWriter F havePrevious fs version creator validate = (fs', .ok w) := by
  constructor
  · intro h
    have hb : b = false := by
      cases b with
      | false => rfl
      | true =>
        obtain ⟨e, he⟩ := suffers_strict h (openWriterP_strict F havePrevious version creator validate) rfl _ rfl
        cases he
    subst hb
    obtain ⟨h1, h2⟩ := suffers_run h rfl
    rw [openWriterP_run] at h1 h2
    rw [h1, ← Option.some.inj h2]
    exact ⟨rfl, rfl⟩
  · rintro ⟨rfl, h⟩
    have := run_suffers (openWriterP F havePrevious version creator validate) fs
    rw [openWriterP_run, h] at this
    exact this

/-- A whole program: it makes a writer, makes calls that all return normally, and reads something. It reads what it would have read if nothing could fail. -/
theorem C123_program (E : FontInfo.Env) (G : Glif.Env) (L : Casing) (havePrevious : Bool) (version : Int) (creator : PyVal) (validate : Bool) (fs fs1 fs2 fs3 : FS) (b1 b2 b3 : Bool) (w : Writer)
    (u : User) (calls : List FontCall) {α : Type} (c : ReadCall α) (a : α) (h1 : (openWriterP E.F havePrevious version creator validate).Suffers fs b1 fs1 (some (.ok w)))
    (h2 : User.Succeeds E L ⟨w, []⟩ fs1 calls b2 u fs2) (h3 : (c.prog E G).Suffers fs2 b3 fs3 (some (.ok a))) :
    openWriter E.F havePrevious fs version creator validate = (fs1, .ok w) ∧ fs2 = ((⟨w, []⟩ : User).on fs1 |>.run E L calls).fs ∧ fs3 = fs2 ∧ c.read E G fs2 = .ok a := by
  obtain ⟨-, h1⟩ := (C123_open _ _ _ _ _ _ _ _ _).1 h1
  obtain ⟨-, h2, -⟩ := C122_program E L h2
  exact ⟨h1, by rw [← h2]; rfl, C123_unharmed E G c _ _ _ _ h3, (C123_given E G c _ _ _ _ h3).2⟩

/-- The connection is lost after layercontents.plist was read and while it is asked whether the directory exists: no names of layers are given. -/
example (E : FontInfo.Env) (G : Glif.Env) (fs : FS) (hf : getPlist E.F fs [layercontentsName] none = .ok (.list [.list [.str c!"public.default", .str c!"glyphs"]])) :
    ((ReadCall.layerNames 3 true).prog E G).Suffers fs true fs none := by
  refine .get ?_
  show Prog.Suffers (Prog.bind (Prog.bind (.ret (getPlist E.F fs [layercontentsName] none)) _) _) _ _ _ _
  rw [hf]
  exact .hasFails

/-- A lib that is read. -/
example (G : Glif.Env) : ((ReadCall.lib true).read env57 G ufo82.2).toOption = some (.dict [(.str c!"a", .int 1)]) := by
  show (readLib env57.F ufo82.2 true).toOption = _
  decide +kernel

end Verif.Props
