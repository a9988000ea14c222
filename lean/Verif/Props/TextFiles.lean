import Verif.Proofs.TextFiles
import Verif.Props.FileObjects
/-! Text files that are read in pieces and by lines: C136. -/
namespace Verif.Props
open Verif Verif.FileObjects Verif.Spec.FileObjects Verif.PathNames Verif.Spec.PathNames Verif.TextFiles Verif.Spec.TextFiles

/-- A file with the text `t` that is opened as text: any calls of `read` (with and without a number) and `readline` return the pieces and the lines of the text one after the other, whatever blocks the file is read in. -/
theorem C136_text (fs : FS) (s : Str) (p : Path) (hs : Leads s p) (t : Str) (hf : fs.getbytes p = .ok (utf8 t)) (size : Nat → Nat) (cs : List Call) :
    ∃ os rest, readTextFile fs s size cs = .ok (some os) ∧ Returns t cs os rest := by
  obtain ⟨os, s', rest, h1, h2, -⟩ := calls_returns size cs (opened (utf8 t)) t ⟨t, rfl, rfl, fun h => by cases h⟩
  refine ⟨os, rest, ?_, h2⟩
  unfold readTextFile getReadFile
  rw [(resolve_iff s p).2 hs]
  dsimp only
  unfold openFile
  rw [hf]
  dsimp only [newFile]
  rw [hf]
  dsimp only
  rw [h1]

/-- Text that was written with `getFileObjectForPath` in any pieces is read back in any other pieces. -/
theorem C136_written (fs fs' : FS) (ht : Tidy fs) (s : Str) (p : Path) (m : Mode) (f : File) (hs : Leads s p) (hm : m ≠ .r) (h : getFileObject fs s m = (fs', .ok (.file f)))
    (es : List Event) (hu : Undisturbed (f, fs') es) (hc : Closed es) (hw : ∀ e ∈ es, ∀ d, e ≠ .write d) (t : Str) (hb : before fs p m = utf8 t) (size : Nat → Nat) (cs : List Call) :
    ∃ os rest, readTextFile (events (f, fs') es).2 s size cs = .ok (some os) ∧ Returns (t ++ texts es) cs os rest := by
  obtain ⟨c, -, h2, h3⟩ := C105_write fs fs' ht s p m f hs hm h es hu
  rw [h2 hc, sent_texts es hw, hb, ← utf8_append] at h3
  exact C136_text _ s p hs _ h3 size cs

/-- What the calls return is determined by the text. -/
theorem C136_determined {t : Str} {cs : List Call} {os os' : List Str} {rest rest' : Str} (h : Returns t cs os rest) (h' : Returns t cs os' rest') : os = os' ∧ rest = rest' := by
  induction h generalizing os' rest' with
  | nil t => cases h'; exact ⟨rfl, rfl⟩
  | read t n cs os rest _ ih =>
    cases h' with
    | read _ _ _ os1 _ h1 =>
      obtain ⟨rfl, rfl⟩ := ih h1
      exact ⟨rfl, rfl⟩
  | readline l t cs os rest hl _ ih =>
    generalize hx : l ++ t = x at h'
    cases h' with
    | readline l1 t1 _ os1 _ hl1 h1 =>
      have hlen : l.length = l1.length := by rw [← firstLine_end hl, ← firstLine_end hl1, hx]
      obtain ⟨rfl, rfl⟩ := List.append_inj hx hlen
      obtain ⟨rfl, rfl⟩ := ih h1
      exact ⟨rfl, rfl⟩
  | all t cs os rest _ ih =>
    cases h' with
    | all _ _ os1 _ h1 =>
      obtain ⟨rfl, rfl⟩ := ih h1
      exact ⟨rfl, rfl⟩

/-- Nothing is lost, added or changed: the pieces and what is left are the text; and lines are read until nothing is left. -/
theorem C136_whole {t : Str} {cs : List Call} {os : List Str} {rest : Str} (h : Returns t cs os rest) :
    os.flatten ++ rest = t ∧ ((∀ c ∈ cs, c = .readline) → t.length ≤ cs.length → rest = []) := by
  induction h with
  | nil t => exact ⟨rfl, fun _ h => List.length_eq_zero_iff.1 (by simpa using h)⟩
  | read t n cs os rest _ ih =>
    refine ⟨by rw [List.flatten_cons, List.append_assoc, ih.1, List.take_append_drop], fun h => ?_⟩
    have := h _ List.mem_cons_self
    cases this
  | readline l t cs os rest hl _ ih =>
    refine ⟨by rw [List.flatten_cons, List.append_assoc, ih.1], fun h hn => ih.2 (fun c hc => h c (List.mem_cons_of_mem _ hc)) ?_⟩
    by_cases h0 : l = []
    · subst h0
      obtain ⟨body, e, h1, -, -, h2⟩ := hl
      obtain ⟨rfl, rfl⟩ := List.append_eq_nil_iff.1 h1.symm
      rcases h2 with h2 | h2 | h2 | h2
      · cases h2
      · cases h2
      · cases h2.1
      · rw [h2.2]; simp
    · have := List.length_pos_iff.2 h0
      simp only [List.length_append, List.length_cons] at hn
      omega
  | all t cs os rest _ ih =>
    refine ⟨by rw [List.flatten_cons, List.append_assoc, ih.1, List.append_nil], fun h => ?_⟩
    have := h _ List.mem_cons_self
    cases this

/-- A file that is not UTF-8: the calls raise `UnicodeDecodeError`, a `ValueError`, or none of them came to the end of the file. -/
theorem C136_invalid (fs : FS) (s : Str) (p : Path) (hs : Leads s p) (d : Bytes) (hf : fs.getbytes p = .ok d) (hd : utf8Decode d = none) (size : Nat → Nat) (cs : List Call) :
    readTextFile fs s size cs = .error .valueError ∨ ∃ os, readTextFile fs s size cs = .ok (some os) ∧ List.Forall₂ Full cs os := by
  unfold readTextFile getReadFile
  rw [(resolve_iff s p).2 hs]
  dsimp only
  unfold openFile
  rw [hf]
  dsimp only [newFile]
  rw [hf]
  dsimp only
  rcases calls_bad size cs (opened d) hd with h | ⟨os, s', h, h'⟩
  · rw [h]; exact .inl rfl
  · rw [h]; exact .inr ⟨os, rfl, h'⟩

/-- A UFO with a text file with all the line ends and characters of two, three and four bytes, and a file that is not UTF-8. -/
def fs136 : FS := { canon := id, log := [], nodes := [([c!"a.txt"], .file (utf8 c!"é\r\n€\r\r\n𝄞\n\nend")), ([c!"b.txt"], .file [97, 10, 98, 200])] }

theorem leads136 : Leads c!"a.txt" [c!"a.txt"] ∧ Leads c!"b.txt" [c!"b.txt"] := ⟨(resolve_iff _ _).1 (by decide +kernel), (resolve_iff _ _).1 (by decide +kernel)⟩

/-- With blocks of one byte and with one block. -/
example : (readTextFile fs136 c!"a.txt" (fun _ => 0) (List.replicate 7 .readline)).toOption = some (some [c!"é\r\n", c!"€\r", c!"\r\n", c!"𝄞\n", c!"\n", c!"end", []]) ∧
    (readTextFile fs136 c!"a.txt" (fun _ => 1000) (List.replicate 7 .readline)).toOption = some (some [c!"é\r\n", c!"€\r", c!"\r\n", c!"𝄞\n", c!"\n", c!"end", []]) ∧
    (readTextFile fs136 c!"a.txt" (fun n => n % 3) [.read 2, .readline, .read 1, .all, .read 5]).toOption = some (some [c!"é\r", c!"\n", c!"€", c!"\r\r\n𝄞\n\nend", []]) := by decide +kernel

example (size : Nat → Nat) (cs : List Call) : ∃ os rest, readTextFile fs136 c!"a.txt" size cs = .ok (some os) ∧ Returns c!"é\r\n€\r\r\n𝄞\n\nend" cs os rest :=
  C136_text fs136 _ _ leads136.1 _ (by rfl) size cs

/-- The lines before the wrong byte can be read if they were in another block. -/
example : (readTextFile fs136 c!"b.txt" (fun _ => 0) [.readline]).toOption = some (some [c!"a\n"]) ∧ (readTextFile fs136 c!"b.txt" (fun _ => 0) [.readline, .readline]).toOption = none ∧
    utf8Decode [97, 10, 98, 200] = none := by decide +kernel

/-- Written in pieces, one of which ends between CR and LF. -/
example (size : Nat → Nat) (cs : List Call) : let es := [Event.writeText c!"é\r", .flush 1, .writeText c!"\nb", .close]
    ∃ os rest, readTextFile (events (newFile [c!"log", c!"new.txt"] .w, (getFileObject fs103 c!"log/new.txt" .w).1) es).2 c!"log/new.txt" size cs = .ok (some os) ∧ Returns c!"é\r\nb" cs os rest := by
  intro es
  have ha : Alone es := by intro e he fs; rintro rfl; simp [es] at he
  exact C136_written fs103 _ tidy_fs103 _ _ .w _ leads105 (by simp) opened105 es (undisturbed_of_alone es _ ha) (by simp [es, Closed]) (by intro e he d; rintro rfl; simp [es] at he) [] rfl size cs

end Verif.Props
