import Verif.Model.Faults
import Verif.Proofs.UfoMethods
/-! Programs on file systems that fail. -/
namespace Verif.Ufo
open Verif Verif.IO Verif.Converters Verif.Validators Verif.Kerning

/-- Whatever the file system answers, the results are bad. -/
def Prog.Sure {α : Type} (bad : α → Prop) : Prog α → Prop
  | .ret a => bad a
  | .get _ k => ∀ r, (k r).Sure bad
  | .has _ k => ∀ r, (k r).Sure bad
  | .call _ k => ∀ r, (k r).Sure bad

/-- After a failure the results are bad. -/
def Prog.Strict {α : Type} (bad : α → Prop) : Prog α → Prop
  | .ret _ => True
  | .get _ k => (k (.error .fsError)).Sure bad ∧ ∀ r, (k r).Strict bad
  | .has _ k => ∀ r, (k r).Strict bad
  | .call _ k => (k (.error .fsError)).Sure bad ∧ ∀ r, (k r).Strict bad

theorem sure_bind {α β : Type} {bad : β → Prop} {bad1 : α → Prop} {p : Prog α} {f : α → Prog β} (hp : p.Sure bad1) (hf : ∀ a, bad1 a → (f a).Sure bad) : (p.bind f).Sure bad := by
  induction p with
  | ret a => exact hf a hp
  | get p k ih => exact fun r => ih r (hp r)
  | has p k ih => exact fun r => ih r (hp r)
  | call m k ih => exact fun r => ih r (hp r)

theorem strict_bind {α β : Type} {bad : β → Prop} (bad1 : α → Prop) {p : Prog α} {f : α → Prog β} (hp : p.Strict bad1) (hs : ∀ a, (f a).Strict bad)
    (hf : ∀ a, bad1 a → (f a).Sure bad) : (p.bind f).Strict bad := by
  induction p with
  | ret a => exact hs a
  | get p k ih => exact ⟨sure_bind hp.1 hf, fun r => ih r (hp.2 r)⟩
  | has p k ih => exact fun r => ih r (hp r)
  | call m k ih => exact ⟨sure_bind hp.1 hf, fun r => ih r (hp.2 r)⟩

theorem suffers_sure {α : Type} {bad : α → Prop} {p : Prog α} {fs fs' : FS} {b : Bool} {r : Option α} (h : p.Suffers fs b fs' r) : p.Sure bad → ∀ a, r = some a → bad a := by
  induction h with
  | ret => intro hp a ha; cases ha; exact hp
  | get _ ih => exact fun hp => ih (hp _)
  | getFails _ ih => exact fun hp => ih (hp _)
  | has _ ih => exact fun hp => ih (hp _)
  | hasFails => intro _ a ha; cases ha
  | call _ ih => exact fun hp => ih (hp _)
  | callFails _ _ ih => exact fun hp => ih (hp _)

/-- A failure shows in the result. -/
theorem suffers_strict {α : Type} {bad : α → Prop} {p : Prog α} {fs fs' : FS} {b : Bool} {r : Option α} (h : p.Suffers fs b fs' r) : p.Strict bad → b = true → ∀ a, r = some a → bad a := by
  induction h with
  | ret => intro _ hb; cases hb
  | get _ ih => exact fun hp => ih (hp.2 _)
  | getFails h _ => exact fun hp _ => suffers_sure h hp.1
  | has _ ih => exact fun hp => ih (hp _)
  | hasFails => intro _ _ a ha; cases ha
  | call _ ih => exact fun hp => ih (hp.2 _)
  | callFails _ h _ => exact fun hp _ => suffers_sure h hp.1

/-- Without failures the program runs as usual. -/
theorem suffers_run {α : Type} {p : Prog α} {fs fs' : FS} {b : Bool} {r : Option α} (h : p.Suffers fs b fs' r) : b = false → p.run fs = (fs', (p.run fs).2) ∧ r = some (p.run fs).2 := by
  induction h with
  | ret => intro _; exact ⟨rfl, rfl⟩
  | get _ ih => exact ih
  | getFails => intro hb; cases hb
  | has _ ih => exact ih
  | hasFails => intro hb; cases hb
  | call _ ih => exact ih
  | callFails => intro hb; cases hb

theorem run_suffers {α : Type} (p : Prog α) : ∀ fs, p.Suffers fs false (p.run fs).1 (some (p.run fs).2) := by
  induction p with
  | ret a => intro fs; exact .ret
  | get p k ih => intro fs; exact .get (ih _ fs)
  | has p k ih => intro fs; exact .has (ih _ fs)
  | call m k ih => intro fs; exact .call (ih _ _)

/-! ### the calls -/

/-- The call raises. -/
def Bad (r : Except Exc α) : Prop := ∃ e, r = .error e

/-- The call raises, and the object it is made on is in some state. -/
def Bad2 (r : β × Except Exc α) : Prop := Bad r.2

theorem bad_error {α : Type} (e : Exc) : Bad (.error e : Except Exc α) := ⟨e, rfl⟩

/-- The end of many calls. -/
theorem strict_pair {α β : Type} {p : Prog (Except Exc α)} {b : β} (hp : p.Strict Bad) : (p.bind fun r => .ret (b, r)).Strict Bad2 :=
  strict_bind Bad hp (fun _ => trivial) fun _ h => h

theorem strict_map {α β γ : Type} {p : Prog (α × Except Exc β)} {f : α × Except Exc β → γ} {bad : γ → Prop} (hp : p.Strict Bad2) (hf : ∀ r, Bad2 r → bad (f r)) :
    (p.bind fun r => .ret (f r)).Strict bad :=
  strict_bind Bad2 hp (fun _ => trivial) fun r h => hf r h

theorem setbytesP_strict (p : Path) (d : Bytes) : (Prog.call (.setbytes p d) .ret).Strict Bad := ⟨bad_error _, fun _ => trivial⟩

theorem unchangedP_strict (p : Path) (d : Bytes) {k : Bool → Prog (Except Exc Unit)} (hk : ∀ u, (k u).Strict Bad) : (unchangedP p d k).Strict Bad := by
  refine ⟨bad_error _, fun r => ?_⟩
  try dsimp only
  split
  · exact hk _
  · exact hk _
  · exact hk _
  · trivial

theorem getPlistP_strict (F : FloatCodec) (p : Path) (d : Option PyVal) : (getPlistP F p d).Strict Bad := ⟨bad_error _, fun _ => trivial⟩

theorem writePlistP_strict (F : FloatCodec) (hp : Bool) (p : Path) (v : PyVal) : (writePlistP F hp p v).Strict Bad := by
  unfold writePlistP
  split
  · split
    · trivial
    · refine unchangedP_strict _ _ fun u => ?_
      try dsimp only
      split
      · trivial
      · exact setbytesP_strict _ _
  · refine ⟨bad_error _, fun r => ?_⟩
    try dsimp only
    split
    · trivial
    · split
      · trivial
      · exact setbytesP_strict _ _

theorem putBytesP_strict (p : Path) (d : Bytes) : (putBytesP p d).Strict Bad := by
  refine ⟨bad_error _, fun r => ?_⟩
  try dsimp only
  split
  · trivial
  · trivial
  · refine ⟨bad_error _, fun r => ?_⟩
    try dsimp only
    split
    · trivial
    · exact setbytesP_strict _ _
  · trivial

theorem writeBytesP_strict (hp : Bool) (p : Path) (d : Bytes) : (writeBytesP hp p d).Strict Bad := by
  unfold writeBytesP
  split
  · refine unchangedP_strict _ _ fun u => ?_
    try dsimp only
    split
    · trivial
    · exact putBytesP_strict _ _
  · exact putBytesP_strict _ _

theorem removeEmptyP_strict : ∀ rev : List Str, (removeEmptyP rev).Strict Bad
  | [] => trivial
  | c :: rest => by
    refine ⟨bad_error _, fun r => ?_⟩
    try dsimp only
    split
    · trivial
    · trivial
    · exact removeEmptyP_strict rest

theorem removePathP_strict (p : Path) (force re : Bool) : (removePathP p force re).Strict Bad := by
  refine strict_bind Bad ?_ (fun r => ?_) ?_
  · refine ⟨bad_error _, fun r => ?_⟩
    try dsimp only
    split
    · trivial
    · exact ⟨bad_error _, fun _ => trivial⟩
    · split <;> trivial
    · trivial
  · split
    · trivial
    · split
      · exact removeEmptyP_strict _
      · trivial
  · rintro _ ⟨e, rfl⟩
    exact bad_error e

theorem copyTreeP_strict (q : Path) : ∀ l : List (Path × Node), (copyTreeP q l).Strict Bad
  | [] => trivial
  | e :: l => by
    refine ⟨bad_error _, fun r => ?_⟩
    try dsimp only
    split
    · trivial
    · exact copyTreeP_strict q l

theorem copyP_strict (src : FS) (p q : Path) : (copyP src p q).Strict Bad := by
  unfold copyP
  split
  · trivial
  · split
    · trivial
    · intro x
      try dsimp only
      split
      · trivial
      · refine ⟨bad_error _, fun r => ?_⟩
        try dsimp only
        split
        · trivial
        · split
          · exact setbytesP_strict _ _
          · refine ⟨bad_error _, fun r => ?_⟩
            try dsimp only
            split
            · trivial
            · exact copyTreeP_strict _ _

theorem missingP_strict (dir : Path) : ∀ t : List (Str × Str), (missingP dir t).Strict fun _ => False
  | [] => trivial
  | e :: rest => by
    intro x
    try dsimp only
    split
    · exact missingP_strict dir rest
    · trivial

theorem rebuildP_strict (F : FloatCodec) (gs : GlyphSet.GlyphSet) (v : Bool) : (rebuildP F gs v).Strict Bad := by
  refine strict_bind Bad (getPlistP_strict _ _ _) (fun r => ?_) ?_
  · split
    · trivial
    · split
      · trivial
      · split
        · exact strict_bind (fun _ => False) (missingP_strict _ _) (fun _ => trivial) fun _ h => h.elim
        · trivial
    · trivial
  · rintro _ ⟨e, rfl⟩
    exact bad_error e

theorem openP_strict (F : FloatCodec) (dir : Path) (version : Nat) (v : Bool) : (openP F dir version v).Strict Bad := by
  unfold openP
  split
  · exact fun _ => rebuildP_strict _ _ _
  · trivial

theorem storeGlyphP_strict (hp : Bool) (p : Path) (d : Bytes) : (storeGlyphP hp p d).Strict Bad := by
  unfold storeGlyphP
  split
  · refine unchangedP_strict _ _ fun u => ?_
    try dsimp only
    split
    · trivial
    · exact setbytesP_strict _ _
  · exact setbytesP_strict _ _

theorem glyphP_strict (L : Casing) (F : FloatCodec) (gs : GlyphSet.GlyphSet) (op : GlyphSet.Op) : (glyphP L F gs op).Strict Bad2 := by
  cases op with
  | write naming name fv data =>
    simp only [glyphP]
    split
    · trivial
    · split
      · trivial
      · split
        · trivial
        · exact strict_pair (storeGlyphP_strict _ _ _)
  | delete name =>
    simp only [glyphP]
    split
    · trivial
    · exact ⟨bad_error _, fun _ => trivial⟩
  | reverse => trivial
  | save => exact strict_pair (writePlistP_strict _ _ _ _)
  | rebuild v =>
    refine strict_bind Bad (rebuildP_strict _ _ _) (fun _ => trivial) ?_
    rintro _ ⟨e, rfl⟩
    exact bad_error e

theorem layerInfoP_strict (F : FloatCodec) (gs : GlyphSet.GlyphSet) (info : Str → Option PyVal) (v : Bool) : (layerInfoP F gs info v).Strict Bad2 := by
  unfold layerInfoP
  split
  · trivial
  · dsimp only
    split
    · split
      · trivial
      · exact strict_pair (writePlistP_strict _ _ _ _)
    · split
      · intro x
        try dsimp only
        split
        · exact ⟨bad_error _, fun _ => trivial⟩
        · trivial
      · trivial

theorem writeOrRemoveP_strict (F : FloatCodec) (w : Writer) (name : Str) (empty : Bool) (v : PyVal) : (writeOrRemoveP F w name empty v).Strict Bad := by
  unfold writeOrRemoveP
  split
  · exact writePlistP_strict _ _ _ _
  · split
    · exact removePathP_strict _ _ _
    · trivial

theorem getGlyphSetP_strict (L : Casing) (F : FloatCodec) (w : Writer) (n : Option Str) (d v : Bool) : (getGlyphSetP L F w n d v).Strict Bad2 := by
  unfold getGlyphSetP
  split
  · trivial
  · split
    · trivial
    · split
      · refine ⟨bad_error _, fun r => ?_⟩
        try dsimp only
        split
        · trivial
        · split
          · trivial
          · exact strict_bind Bad (openP_strict _ _ _ _) (fun _ => trivial) fun _ h => h
      · dsimp only
        split
        · trivial
        · split
          · trivial
          · refine ⟨bad_error _, fun r => ?_⟩
            try dsimp only
            split
            · trivial
            · exact strict_bind Bad (openP_strict _ _ _ _) (fun _ => trivial) fun _ h => h

theorem renameP_strict (L : Casing) (w : Writer) (n m : Option Str) (d : Bool) : (renameP L w n m d).Strict Bad2 := by
  unfold renameP
  split
  · trivial
  · split
    · trivial
    · trivial
    · split
      · trivial
      · split
        · trivial
        · split
          · trivial
          · exact ⟨bad_error _, fun _ => trivial⟩

theorem deleteP_strict (w : Writer) (n : Option Str) : (deleteP w n).Strict Bad2 := by
  unfold deleteP
  split
  · trivial
  · split
    · trivial
    · refine strict_bind Bad (removePathP_strict _ _ _) (fun r => ?_) ?_
      · split
        · trivial
        · split
          · trivial
          · split <;> trivial
      · rintro _ ⟨e, rfl⟩
        exact bad_error e

theorem opP_strict (E : FontInfo.Env) (L : Casing) (w : Writer) (op : Op) : (opP E L w op).Strict Bad2 := by
  cases op with
  | maps a b => trivial
  | info i v =>
    simp only [opP]
    split
    · trivial
    · exact strict_pair (writePlistP_strict _ _ _ _)
  | lib v b =>
    simp only [opP]
    split
    · trivial
    · exact strict_pair (writeOrRemoveP_strict _ _ _ _ _)
  | groups g b =>
    simp only [opP]
    split
    · trivial
    · exact strict_pair (writeOrRemoveP_strict _ _ _ _ _)
  | kerning k b =>
    simp only [opP]
    split
    · trivial
    · exact strict_pair (writeOrRemoveP_strict _ _ _ _ _)
  | features s =>
    simp only [opP]
    split
    · trivial
    · split
      · exact strict_pair (writeBytesP_strict _ _ _)
      · split
        · exact strict_pair (removePathP_strict _ _ _)
        · trivial
  | glyphSet n d v =>
    refine strict_map (getGlyphSetP_strict L E.F w n d v) ?_
    rintro ⟨w', r⟩ ⟨e, he⟩
    exact ⟨e, by dsimp only at he ⊢; rw [he]; rfl⟩
  | rename n m d => exact renameP_strict L w n m d
  | delete n => exact deleteP_strict w n
  | layerContents o v =>
    simp only [opP]
    split
    · trivial
    · split
      · trivial
      · split
        · trivial
        · exact strict_pair (writePlistP_strict _ _ _ _)
  | image n d v =>
    simp only [opP]
    split
    · trivial
    · split
      · trivial
      · exact strict_pair (writeBytesP_strict _ _ _)
  | removeImage n =>
    simp only [opP]
    split
    · trivial
    · exact strict_pair (removePathP_strict _ _ _)
  | bytes p d => exact strict_pair (writeBytesP_strict _ _ _)
  | remove p f re => exact strict_pair (removePathP_strict _ _ _)
  | copy src p q => exact strict_pair (copyP_strict _ _ _)
  | copyImage src n m =>
    simp only [opP]
    split
    · trivial
    · exact strict_pair (copyP_strict _ _ _)
  | glyph gs op => exact strict_map (glyphP_strict L E.F gs op) fun r h => h
  | layerInfo gs info v => exact strict_map (layerInfoP_strict E.F gs info v) fun r h => h

theorem prog_strict (E : FontInfo.Env) (L : Casing) (u : User) (c : FontCall) : (u.prog E L c).Strict Bad2 := by
  cases c with
  | getGlyphSet n d v =>
    refine strict_map (getGlyphSetP_strict L E.F u.writer n d v) ?_
    rintro ⟨w', r⟩ ⟨e, he⟩
    dsimp only at he ⊢
    rw [he]
    exact bad_error e
  | ufo op => exact strict_map (opP_strict E L u.writer op) fun r h => h
  | set i c =>
    simp only [User.prog]
    split
    · trivial
    · cases c with
      | glyphs op => exact strict_map (glyphP_strict L E.F _ op) fun r h => h
      | layerInfo info v => exact strict_map (layerInfoP_strict E.F _ info v) fun r h => h

/-! ### where the harm is done -/
open Verif.FS Verif.Spec.Ufo

theorem harms_spares {S : Str → Prop} {m : Method} (hm : m.In S) {fs fs' : FS} (h : m.Harms fs fs') {c : Str} (hc : ∀ d, S d → fs.canon d ≠ fs.canon c) (x : Path) :
    fs'.node? (c :: x) = fs.node? (c :: x) := by
  refine h.2 c x ?_ fun p hp d hd => hc d ?_
  · rintro rfl
    exact hc c (hm.2 rfl c) rfl
  · cases m <;> simp only [Method.paths, List.mem_cons, List.not_mem_nil, or_false] at hp
    · subst hp; exact hm d hd
    · subst hp; exact hm d hd
    · subst hp; exact hm d hd
    · subst hp; exact hm d hd
    · subst hp; exact hm.1 d hd
    · subst hp; exact hm.1 d hd
    · rcases hp with rfl | rfl
      · exact hm.1 d hd
      · exact hm.2.2.1 d hd
    · subst hp; exact hm.1 d hd

theorem suffers_spares {α : Type} {S : Str → Prop} {p : Prog α} {fs fs' : FS} {b : Bool} {r : Option α} (h : p.Suffers fs b fs' r) {c : Str} : p.In S →
    (∀ d, S d → fs.canon d ≠ fs.canon c) → ∀ x, fs'.canon = fs.canon ∧ fs'.node? (c :: x) = fs.node? (c :: x) := by
  induction h with
  | ret => exact fun _ _ _ => ⟨rfl, rfl⟩
  | get _ ih => exact fun hp => ih (hp.2 _)
  | getFails _ ih => exact fun hp => ih (hp.2 _)
  | has _ ih => exact fun hp => ih (hp.2 _)
  | hasFails => exact fun _ _ _ => ⟨rfl, rfl⟩
  | @call m k fs b fs' r _ ih =>
    intro hp hc x
    have ha := method_acts m hp.1 fs
    obtain ⟨i1, i2⟩ := ih (hp.2 _) (by rw [ha.canon]; exact hc) x
    refine ⟨i1.trans ha.canon, i2.trans (acts_node? ha (S := S) ?_ hc x)⟩
    rintro k (⟨d, r, hd, rfl⟩ | hall)
    · exact .inl ⟨d, r, hd, rfl⟩
    · exact .inr hall
  | callFails hh _ ih =>
    intro hp hc x
    obtain ⟨i1, i2⟩ := ih (hp.2 _) (by rw [hh.1]; exact hc) x
    exact ⟨i1.trans hh.1, i2.trans (harms_spares hp.1 hh hc x)⟩

end Verif.Ufo
