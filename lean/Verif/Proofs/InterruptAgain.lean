import Verif.Proofs.Interrupt
/-! Making the calls of an interrupted session again. -/
namespace Verif.Interrupt
open Verif Verif.FS Verif.Ufo Verif.Spec.FS Verif.Spec.Cut Verif.Spec.Interrupt Verif.IO

/-- What a call does to the files, as far as it does not depend on the files. -/
inductive Plan where
  | nothing
  | put (p : Path) (d : Bytes)
  | drop (p : Path)

/-- The file can be written. -/
def Writable (fs : FS) (p : Path) : Prop := fs.node? p.dropLast = some .dir ∧ fs.node? p ≠ some .dir

/-- The plan is carried out. -/
inductive Done (fs : FS) : Plan → FS → Prop
  | nothing : Done fs .nothing fs
  | same {p d} (h : fs.node? p = some (.file d)) : Done fs (.put p d) fs
  | cannot {p d} (h : ¬ Writable fs p) : Done fs (.put p d) fs
  | put {p d} (h : Writable fs p) : Done fs (.put p d) (fs.perform (.write (fs.key p) d))
  | twice {p d} (h : Writable fs p) : Done fs (.put p d) ((fs.perform (.write (fs.key p) [])).perform (.write (fs.key p) d))
  | absent {p} (h : ∀ b, fs.node? p ≠ some (.file b)) : Done fs (.drop p) fs
  | drop {p b} (h : fs.node? p = some (.file b)) : Done fs (.drop p) (fs.perform (.remove (fs.key p)))

theorem node_write {fs : FS} {p : Path} (hp : p ≠ []) (d : Bytes) (q : Path) :
    (fs.perform (.write (fs.key p) d)).node? q = if fs.key q = fs.key p then some (.file d) else fs.node? q := by
  unfold FS.node? FS.perform Prim.apply FS.key
  dsimp only
  by_cases hq : q = []
  · subst hq
    rw [if_pos rfl, if_neg]
    · simp
    · intro e; exact hp (List.map_eq_nil_iff.1 e.symm)
  · rw [if_neg hq, if_neg hq, Dict.get?_set]
    by_cases he : List.map fs.canon q = List.map fs.canon p
    · rw [if_pos he.symm, if_pos he]
    · rw [if_neg (fun e => he e.symm), if_neg he]

theorem node_remove {fs : FS} {p : Path} (hp : p ≠ []) (q : Path) :
    (fs.perform (.remove (fs.key p))).node? q = if fs.key q = fs.key p then none else fs.node? q := by
  unfold FS.node? FS.perform Prim.apply FS.key
  dsimp only
  by_cases hq : q = []
  · subst hq
    rw [if_pos rfl, if_neg]
    · simp
    · intro e; exact hp (List.map_eq_nil_iff.1 e.symm)
  · rw [if_neg hq, if_neg hq, Dict.get?_erase]
    by_cases he : List.map fs.canon q = List.map fs.canon p
    · rw [if_pos he.symm, if_pos he]
    · rw [if_neg (fun e => he e.symm), if_neg he]

theorem node_key {fs : FS} {p q : Path} (h : fs.key q = fs.key p) : fs.node? q = fs.node? p := by
  unfold FS.node?
  rw [h]
  by_cases hq : q = []
  · subst hq
    have : p = [] := List.map_eq_nil_iff.1 h.symm
    rw [this]
  · have : p ≠ [] := by rintro rfl; exact hq (List.map_eq_nil_iff.1 h)
    rw [if_neg hq, if_neg this]

theorem Writable.ne {fs : FS} {p : Path} (h : Writable fs p) : p ≠ [] := by
  rintro rfl; exact h.2 rfl

theorem file_ne {fs : FS} {p : Path} {b : Bytes} (h : fs.node? p = some (.file b)) : p ≠ [] := by
  rintro rfl; cases h

/-- The plan is about this file, and it can be carried out. -/
def Touches (fs : FS) : Plan → Path → Prop
  | .nothing, _ => False
  | .put p _, k => Writable fs p ∧ fs.key p = k
  | .drop p, k => fs.node? p ≠ some .dir ∧ fs.key p = k

/-- Different at most in these files. -/
structure Apart (K : Path → Prop) (a b : FS) : Prop where
  canon : b.canon = a.canon
  node : ∀ q, b.node? q = a.node? q ∨ (K (a.key q) ∧ a.node? q ≠ some .dir ∧ b.node? q ≠ some .dir)

/-- The same directories. -/
def SameDirs (a b : FS) : Prop := b.canon = a.canon ∧ ∀ q, b.node? q = some .dir ↔ a.node? q = some .dir

theorem Apart.dirs {K : Path → Prop} {a b : FS} (h : Apart K a b) : SameDirs a b := by
  refine ⟨h.canon, fun q => ?_⟩
  rcases h.node q with e | ⟨-, h1, h2⟩
  · rw [e]
  · exact ⟨fun h => absurd h h2, fun h => absurd h h1⟩

theorem SameDirs.trans {a b c : FS} (h : SameDirs a b) (h' : SameDirs b c) : SameDirs a c :=
  ⟨h'.1.trans h.1, fun q => (h'.2 q).trans (h.2 q)⟩

theorem SameDirs.symm {a b : FS} (h : SameDirs a b) : SameDirs b a := ⟨h.1.symm, fun q => (h.2 q).symm⟩

theorem SameDirs.writable {a b : FS} (h : SameDirs a b) (p : Path) : Writable b p ↔ Writable a p := by
  unfold Writable
  rw [h.2, ne_eq, h.2]

theorem SameDirs.touches {a b : FS} (h : SameDirs a b) (pl : Plan) (k : Path) : Touches b pl k ↔ Touches a pl k := by
  have hk : ∀ p, b.key p = a.key p := fun p => by unfold FS.key; rw [h.1]
  cases pl with
  | nothing => exact Iff.rfl
  | put p d => simp only [Touches]; rw [h.writable, hk]
  | drop p => simp only [Touches]; rw [hk, ne_eq, h.2]

theorem Apart.refl (K : Path → Prop) (a : FS) : Apart K a a := ⟨rfl, fun _ => .inl rfl⟩

theorem Apart.trans {K : Path → Prop} {a b c : FS} (h : Apart K a b) (h' : Apart K b c) : Apart K a c := by
  refine ⟨h'.canon.trans h.canon, fun q => ?_⟩
  have hk : b.key q = a.key q := by unfold FS.key; rw [h.canon]
  rcases h.node q with e | ⟨h1, h2, h3⟩
  · rcases h'.node q with e' | ⟨g1, g2, g3⟩
    · left; rw [e', e]
    · right; exact ⟨hk ▸ g1, e ▸ g2, g3⟩
  · rcases h'.node q with e' | ⟨g1, g2, g3⟩
    · right; exact ⟨h1, h2, e' ▸ h3⟩
    · right; exact ⟨h1, h2, g3⟩

theorem Apart.mono {K K' : Path → Prop} {a b : FS} (h : Apart K a b) (hk : ∀ k, K k → K' k) : Apart K' a b :=
  ⟨h.canon, fun q => (h.node q).imp id fun ⟨h1, h2⟩ => ⟨hk _ h1, h2⟩⟩

theorem apart_write {fs : FS} {p : Path} (h : Writable fs p) (d : Bytes) (x : Bytes) : Apart (Touches fs (.put p d)) fs (fs.perform (.write (fs.key p) x)) := by
  refine ⟨rfl, fun q => ?_⟩
  rw [node_write h.ne]
  by_cases he : fs.key q = fs.key p
  · rw [if_pos he]
    right; exact ⟨⟨h, he.symm⟩, by rw [node_key he]; exact h.2, by simp⟩
  · left; rw [if_neg he]

/-- Whatever is left when the process stops while a plan is carried out differs only in the file that the plan is about. -/
theorem done_stopped {pl : Plan} {fs fs' left : FS} (h : Done fs pl fs') (hs : StoppedBetween fs fs' left) : Apart (Touches fs pl) fs left := by
  obtain ⟨acts, h1, h2⟩ := hs
  have hnil : fs' = fs → Apart (Touches fs pl) fs left := by
    rintro rfl
    have : acts = [] := by simpa using h1
    subst this
    cases h2 with
    | between k => simpa [performAll] using Apart.refl _ _
    | writing k j h => simp at h
    | during k h => simp at h
  cases h with
  | nothing => exact hnil rfl
  | same => exact hnil rfl
  | cannot => exact hnil rfl
  | absent => exact hnil rfl
  | @put p d h =>
    have : acts = [.write (fs.key p) d] := by simpa [FS.perform] using h1.symm
    subst this
    cases h2 with
    | between k =>
      rcases k with - | k
      · exact Apart.refl _ _
      · simpa [performAll] using apart_write h d d
    | writing k j h3 =>
      rcases k with - | k
      · simp only [List.getElem?_cons_zero, Option.some.injEq, Prim.write.injEq] at h3
        obtain ⟨rfl, rfl⟩ := h3
        exact apart_write h d _
      · simp at h3
    | during k h3 hw =>
      rcases k with - | k
      · simp only [List.getElem?_cons_zero, Option.some.injEq] at h3
        exact absurd h3.symm (hw _ _)
      · simp at h3
  | @twice p d h =>
    have : acts = [.write (fs.key p) [], .write (fs.key p) d] := by simpa [FS.perform] using h1.symm
    subst this
    have key : ∀ x, Apart (Touches fs (.put p d)) fs ((fs.perform (.write (fs.key p) [])).perform (.write (fs.key p) x)) := fun x =>
      ⟨rfl, fun q => by rw [perform_twice]; exact (apart_write h d x).node q⟩
    cases h2 with
    | between k =>
      rcases k with - | - | k
      · exact Apart.refl _ _
      · exact apart_write h d _
      · simpa [performAll] using key d
    | writing k j h3 =>
      rcases k with - | - | k
      · simp only [List.getElem?_cons_zero, Option.some.injEq, Prim.write.injEq] at h3
        obtain ⟨rfl, rfl⟩ := h3
        exact apart_write h d _
      · simp only [List.getElem?_cons_succ, List.getElem?_cons_zero, Option.some.injEq, Prim.write.injEq] at h3
        obtain ⟨rfl, rfl⟩ := h3
        exact key _
      · simp at h3
    | during k h3 hw =>
      rcases k with - | - | k
      · simp only [List.getElem?_cons_zero, Option.some.injEq] at h3
        exact absurd h3.symm (hw _ _)
      · simp only [List.getElem?_cons_succ, List.getElem?_cons_zero, Option.some.injEq] at h3
        exact absurd h3.symm (hw _ _)
      · simp at h3
  | @drop p b h =>
    have : acts = [.remove (fs.key p)] := by simpa [FS.perform] using h1.symm
    subst this
    cases h2 with
    | between k =>
      rcases k with - | k
      · exact Apart.refl _ _
      · have : Apart (Touches fs (.drop p)) fs (fs.perform (.remove (fs.key p))) := by
          refine ⟨rfl, fun q => ?_⟩
          rw [node_remove (file_ne h)]
          by_cases he : fs.key q = fs.key p
          · rw [if_pos he]
            right
            exact ⟨⟨by rw [h]; simp, he.symm⟩, by rw [node_key he, h]; simp, by simp⟩
          · left; rw [if_neg he]
        simpa [performAll] using this
    | writing k j h3 => rcases k with - | k <;> simp at h3
    | during k h3 hw hc hn =>
      rcases k with - | k
      · simp only [List.getElem?_cons_zero, Option.some.injEq] at h3
        subst h3; cases hn
      · simp at h3

theorem done_log {pl : Plan} {fs fs' : FS} (h : Done fs pl fs') : ∃ acts, fs' = performAll fs acts := by
  cases h with
  | nothing => exact ⟨[], rfl⟩
  | same => exact ⟨[], rfl⟩
  | cannot => exact ⟨[], rfl⟩
  | absent => exact ⟨[], rfl⟩
  | put => exact ⟨[_], rfl⟩
  | twice => exact ⟨[_, _], rfl⟩
  | drop => exact ⟨[_], rfl⟩

theorem done_apart {pl : Plan} {fs fs' : FS} (h : Done fs pl fs') : Apart (Touches fs pl) fs fs' := by
  obtain ⟨acts, rfl⟩ := done_log h
  refine done_stopped h ⟨acts, Crash.performAll_log _ _, ?_⟩
  have := StoppedIn.between (fs := fs) (acts := acts) acts.length
  rwa [List.take_length] at this

/-- What the file of a plan is afterwards. -/
def Plan.result : Plan → Option Node
  | .put _ d => some (.file d)
  | _ => none

/-- Where the plan can be carried out, its file is what the plan says. -/
theorem done_target {pl : Plan} {fs fs' : FS} (h : Done fs pl fs') (q : Path) (ht : Touches fs pl (fs.key q)) :
    fs'.node? q = pl.result := by
  cases h with
  | nothing => exact ht.elim
  | same h => rw [node_key ht.2.symm, h]; rfl
  | cannot h => exact absurd ht.1 h
  | put h => rw [node_write h.ne, if_pos ht.2.symm]; rfl
  | twice h => rw [perform_twice, node_write h.ne, if_pos ht.2.symm]; rfl
  | @absent p h =>
    rw [node_key ht.2.symm]
    have h1 := ht.1
    rcases hn : fs.node? p with - | (b | -)
    · rfl
    · exact absurd hn (h b)
    · exact absurd hn h1
  | drop h => rw [node_remove (file_ne h), if_pos ht.2.symm]; rfl

/-- A plan that is carried out in two places removes the differences in its file. -/
theorem done_both {K : Path → Prop} {pl : Plan} {a b a' b' : FS} (hK : Apart K a b) (ha : Done a pl a') (hb : Done b pl b') :
    Apart (fun k => K k ∧ ¬ Touches a pl k) a' b' := by
  have da := done_apart ha
  have db := done_apart hb
  have hkey : ∀ q, a'.key q = a.key q := fun q => by unfold FS.key; rw [da.canon]
  have hkeyb : ∀ q, b.key q = a.key q := fun q => by unfold FS.key; rw [hK.canon]
  refine ⟨by rw [db.canon, hK.canon, da.canon], fun q => ?_⟩
  by_cases ht : Touches a pl (a.key q)
  · left
    rw [done_target ha q ht, done_target hb q (by rw [hkeyb]; exact (hK.dirs.touches _ _).2 ht)]
  · have e1 : a'.node? q = a.node? q := (da.node q).resolve_right fun h => ht h.1
    have e2 : b'.node? q = b.node? q := (db.node q).resolve_right fun h => ht (by rw [hkeyb] at h; exact (hK.dirs.touches _ _).1 h.1)
    rw [e1, e2, hkey]
    exact (hK.node q).imp id fun ⟨h1, h2⟩ => ⟨⟨h1, ht⟩, h2⟩

/-- Plans carried out one after the other. -/
inductive Runs : List Plan → FS → FS → Prop
  | nil {fs} : Runs [] fs fs
  | cons {pl pls fs fs1 fs2} (h : Done fs pl fs1) (hr : Runs pls fs1 fs2) : Runs (pl :: pls) fs fs2

theorem runs_log {pls : List Plan} {fs fs' : FS} (h : Runs pls fs fs') : ∃ acts, fs' = performAll fs acts := by
  induction h with
  | nil => exact ⟨[], rfl⟩
  | cons h _ ih =>
    obtain ⟨a, rfl⟩ := done_log h
    obtain ⟨b, rfl⟩ := ih
    exact ⟨a ++ b, by simp [performAll]⟩

/-- The files the plans are about. -/
def TouchedBy (fs : FS) (pls : List Plan) (k : Path) : Prop := ∃ pl ∈ pls, Touches fs pl k

theorem touched_congr {a b : FS} (h : SameDirs a b) (pls : List Plan) (k : Path) : TouchedBy b pls k ↔ TouchedBy a pls k := by
  unfold TouchedBy
  constructor
  · rintro ⟨pl, hp, ht⟩; exact ⟨pl, hp, (h.touches _ _).1 ht⟩
  · rintro ⟨pl, hp, ht⟩; exact ⟨pl, hp, (h.touches _ _).2 ht⟩

theorem runs_stopped {pls : List Plan} {fs fs' : FS} (h : Runs pls fs fs') : ∀ left, StoppedBetween fs fs' left → Apart (TouchedBy fs pls) fs left := by
  induction h with
  | nil =>
    intro left hs
    exact (done_stopped .nothing hs).mono fun k hk => hk.elim
  | @cons pl pls fs fs1 fs2 h hr ih =>
    intro left hs
    obtain ⟨a, ha⟩ := done_log h
    obtain ⟨b, hb⟩ := runs_log hr
    obtain ⟨acts, hl, hst⟩ := hs
    rw [hb, ha, Crash.performAll_log, Crash.performAll_log, List.append_assoc, List.append_cancel_left_eq] at hl
    subst hl
    rcases stopped_split hst with hst | hst
    · exact (done_stopped h ⟨a, by rw [ha, Crash.performAll_log], hst⟩).mono fun k hk => ⟨pl, by simp, hk⟩
    · rw [← ha] at hst
      have h1 := done_apart h
      have h2 := ih left ⟨b, by rw [hb, Crash.performAll_log], hst⟩
      exact (h1.mono fun k hk => ⟨pl, by simp, hk⟩).trans (h2.mono fun k hk => by
        obtain ⟨p, hp, ht⟩ := (touched_congr h1.dirs _ _).1 hk
        exact ⟨p, by simp [hp], ht⟩)

theorem runs_both {pls : List Plan} {a a' : FS} (ha : Runs pls a a') : ∀ {K : Path → Prop} {b b' : FS}, Apart K a b → Runs pls b b' →
    Apart (fun k => K k ∧ ¬ TouchedBy a pls k) a' b' := by
  induction ha with
  | nil =>
    intro K b b' hK hb
    cases hb
    exact hK.mono fun k hk => ⟨hk, by rintro ⟨pl, hp, -⟩; cases hp⟩
  | @cons pl pls fs fs1 fs2 h hr ih =>
    intro K b b' hK hb
    cases hb with
    | cons hb hrb =>
      have h1 := done_both hK h hb
      refine (ih h1 hrb).mono fun k hk => ⟨hk.1.1, ?_⟩
      rintro ⟨p, hp, ht⟩
      rcases List.mem_cons.1 hp with rfl | hp
      · exact hk.1.2 ht
      · exact hk.2 ⟨p, hp, ((done_apart h).dirs.touches _ _).2 ht⟩

/-- Plans that were interrupted and are carried out again from the start. -/
theorem runs_again {pls : List Plan} {fs fs' left again : FS} (h : Runs pls fs fs') (hs : StoppedBetween fs fs' left) (h' : Runs pls left again) (p : Path) :
    again.node? p = fs'.node? p := by
  rcases (runs_both h (runs_stopped h left hs) h').node p with e | ⟨⟨h1, h2⟩, -⟩
  · exact e
  · exact absurd h1 h2

/-! ### the plans of the calls -/

theorem setbytes_error {fs : FS} {p : Path} {d : Bytes} {e : Exc} (h : fs.setbytes p d = .error e) : ¬ Writable fs p := by
  rintro ⟨h1, h2⟩
  rw [setbytes_of d h1 h2] at h
  cases h

theorem unchanged_node {fs : FS} {p : Path} {d : Bytes} (h : unchanged fs p d = true) : fs.node? p = some (.file d) := by
  unfold unchanged FS.getbytes at h
  rcases hn : fs.node? p with - | (b | -) <;> rw [hn] at h
  · cases h
  · simp only [beq_iff_eq] at h; rw [h]
  · cases h

theorem setbytes_done {fs fs' : FS} {p : Path} {d : Bytes} (h : fs.setbytes p d = .ok fs') : Done fs (.put p d) fs' := by
  obtain ⟨rfl, -, h1, h2⟩ := setbytes_ok h
  exact .put ⟨h2, h1⟩

theorem remove_done {fs fs' : FS} {p : Path} (h : fs.remove p = .ok fs') : Done fs (.drop p) fs' := by
  unfold FS.remove at h
  split at h
  · next hn => cases h; exact .drop hn
  · cases h
  · cases h

theorem remove_absent {fs : FS} {p : Path} {e : Exc} (h : fs.remove p = .error e) : Done fs (.drop p) fs := by
  refine .absent fun b hb => ?_
  unfold FS.remove at h
  rw [hb] at h
  cases h

theorem writePlist_plan (F : FloatCodec) (hp : Bool) (p : Path) (v : PyVal) : ∃ pl, ∀ fs, Done fs pl (writePlist F hp fs p v).1 := by
  unfold writePlist
  cases hp
  · simp only [Bool.false_eq_true, if_false]
    cases hd : dumpBytes F v with
    | error e =>
      refine ⟨.put p [], fun fs => ?_⟩
      split
      · next h => exact .cannot (setbytes_error h)
      · next h => exact setbytes_done h
    | ok d =>
      refine ⟨.put p d, fun fs => ?_⟩
      split
      · next h => exact .cannot (setbytes_error h)
      · next fs1 h =>
        obtain ⟨rfl, hne, h1, h2⟩ := setbytes_ok h
        have hw : Writable fs p := ⟨h2, h1⟩
        have hw1 : Writable (fs.perform (.write (fs.key p) [])) p := (SameDirs.writable (apart_write hw d []).dirs p).2 hw
        dsimp only
        rw [setbytes_of d hw1.1 hw1.2]
        exact .twice hw
  · simp only [if_true]
    cases hd : dumpBytes F v with
    | error e => exact ⟨.nothing, fun fs => .nothing⟩
    | ok d =>
      refine ⟨.put p d, fun fs => ?_⟩
      dsimp only
      split
      · next h => exact .same (unchanged_node h)
      · split
        · next h => exact .cannot (setbytes_error h)
        · next h => exact setbytes_done h

theorem removePath_plan (fs : FS) (p : Path) (force : Bool) (h : fs.node? p ≠ some .dir) : Done fs (.drop p) (removePath fs p force false).1 := by
  have key : Done fs (.drop p) (removeNode fs p force).1 := by
    unfold removeNode
    split
    · next h => exact remove_done h
    · next hr =>
      unfold FS.remove at hr
      split at hr
      · cases hr
      · next h' => exact absurd h' h
      · cases hr
    · next hr => split <;> exact remove_absent hr
    · next hr => exact remove_absent hr
  unfold removePath
  split
  · next hr => rw [hr] at key; exact key
  · next hr => rw [hr] at key; exact key

theorem writeBytes_plan (hp : Bool) (fs : FS) (p : Path) (d : Bytes) (h : fs.node? p.dropLast = some .dir) : Done fs (.put p d) (writeBytesToPath hp fs p d).1 := by
  unfold writeBytesToPath
  split
  · next hu => exact .same (unchanged_node (by simp only [Bool.and_eq_true] at hu; exact hu.2))
  · split
    · next hs => exact setbytes_done hs
    · next hs => exact .cannot (setbytes_error hs)
    · next hs =>
      unfold FS.setbytes at hs
      rw [h] at hs
      dsimp only at hs
      split at hs <;> cases hs
    · next hs => exact .cannot (setbytes_error hs)

theorem writeOrRemove_plan (F : FloatCodec) (w : Writer) (name : Str) (empty : Bool) (v : PyVal) :
    ∃ pl, ∀ fs : FS, fs.node? [name] ≠ some .dir → (writeOrRemove F (w, fs) name empty v).1.1 = w ∧ Done fs pl (writeOrRemove F (w, fs) name empty v).1.2 := by
  unfold writeOrRemove
  cases empty
  · obtain ⟨pl, h⟩ := writePlist_plan F w.havePrevious [name] v
    exact ⟨pl, fun fs _ => ⟨rfl, h fs⟩⟩
  · simp only [Bool.not_true, Bool.false_eq_true, if_false]
    cases hp : w.havePrevious
    · exact ⟨.nothing, fun fs _ => ⟨rfl, .nothing⟩⟩
    · exact ⟨.drop [name], fun fs h => ⟨rfl, removePath_plan fs _ _ h⟩⟩

theorem glyph_plan (L : Casing) (F : FloatCodec) (gs : GlyphSet.GlyphSet) (op : GlyphSet.Op) : ∃ pl, ∀ fs, Done fs pl (GlyphSet.step L F (gs, fs) op).1.2 := by
  cases op with
  | write naming n fv data =>
    simp only [GlyphSet.step, GlyphSet.writeGlyph]
    cases GlyphSet.glifVersion gs fv with
    | error e => exact ⟨.nothing, fun fs => .nothing⟩
    | ok v =>
      dsimp only
      generalize GlyphSet.assignFile L naming gs n = z
      rcases z with ⟨gs', e | f⟩
      · exact ⟨.nothing, fun fs => .nothing⟩
      · dsimp only
        cases data v with
        | error e => exact ⟨.nothing, fun fs => .nothing⟩
        | ok d =>
          refine ⟨.put (gs'.dir ++ [f]) d, fun fs => ?_⟩
          dsimp only
          unfold GlyphSet.storeGlyph
          split
          · next hu => exact .same (unchanged_node (by simp only [Bool.and_eq_true] at hu; exact hu.2))
          · split
            · next h => exact .cannot (setbytes_error h)
            · next h => exact setbytes_done h
  | delete n =>
    simp only [GlyphSet.step, GlyphSet.deleteGlyph]
    cases Dict.get? gs.contents n with
    | none => exact ⟨.nothing, fun fs => .nothing⟩
    | some f =>
      refine ⟨.drop (gs.dir ++ [f]), fun fs => ?_⟩
      dsimp only
      split
      · next h => exact remove_absent h
      · next h =>
        have := remove_done h
        split
        · exact this
        · split <;> exact this
  | reverse => exact ⟨.nothing, fun fs => .nothing⟩
  | save =>
    obtain ⟨pl, h⟩ := writePlist_plan F gs.havePrevious (gs.dir ++ [GlyphSet.contentsName]) (GlyphSet.contentsVal gs.contents)
    exact ⟨pl, fun fs => h fs⟩
  | rebuild v =>
    refine ⟨.nothing, fun fs => ?_⟩
    simp only [GlyphSet.step]
    split <;> exact .nothing

theorem layerInfo_plan (F : FloatCodec) (gs : GlyphSet.GlyphSet) (info : Str → Option PyVal) (validate : Bool) :
    ∃ pl, ∀ fs, Done fs pl (GlyphSet.writeLayerInfo F (gs, fs) info validate).1.2 := by
  unfold GlyphSet.writeLayerInfo
  by_cases hv : gs.version < 3
  · exact ⟨.nothing, fun fs => by rw [if_pos hv]; exact .nothing⟩
  · simp only [if_neg hv]
    unfold GlyphSet.storeLayerInfo
    by_cases he : (!(GlyphSet.gatherLayerInfo info GlyphSet.layerInfoAttrs).isEmpty) = true
    · simp only [if_pos he]
      generalize (if validate then GlyphSet.validateLayerInfo F (GlyphSet.gatherLayerInfo info GlyphSet.layerInfoAttrs) else .ok ()) = z
      cases z with
      | error e => exact ⟨.nothing, fun fs => .nothing⟩
      | ok _ =>
        obtain ⟨pl, h⟩ := writePlist_plan F gs.havePrevious (gs.dir ++ [GlyphSet.layerinfoName]) (.dict (GlyphSet.gatherLayerInfo info GlyphSet.layerInfoAttrs))
        exact ⟨pl, fun fs => h fs⟩
    · simp only [if_neg he]
      cases hp : gs.havePrevious
      · exact ⟨.nothing, fun fs => by simp only [Bool.false_and, Bool.false_eq_true, if_false]; exact .nothing⟩
      · refine ⟨.drop (gs.dir ++ [GlyphSet.layerinfoName]), fun fs => ?_⟩
        simp only [Bool.true_and]
        split
        · split
          · next h => exact remove_absent h
          · next h => exact remove_done h
        · next h =>
          refine .absent fun b hb => h ?_
          unfold FS.exists
          rw [hb]; rfl

theorem step_plan (E : FontInfo.Env) (L : Casing) (w : Writer) {op : Op} (h : Repeatable op) :
    ∃ (w' : Writer) (pl : Plan), ∀ fs, OneFile fs op → (step E L (w, fs) op).1.1 = w' ∧ Done fs pl (step E L (w, fs) op).1.2 := by
  cases h with
  | @maps a b =>
    refine ⟨(setMaps (w, ⟨id, [], []⟩) a b).1, .nothing, fun fs _ => ?_⟩
    show (setMaps (w, fs) a b).1 = _ ∧ Done fs .nothing (setMaps (w, fs) a b).2
    unfold setMaps
    dsimp only
    split
    · exact ⟨rfl, .nothing⟩
    · exact ⟨rfl, .nothing⟩
  | @info i v =>
    show ∃ (w' : Writer) (pl : Plan), ∀ fs, OneFile fs _ → (Ufo.writeInfo E (w, fs) i v).1.1 = w' ∧ Done fs pl (Ufo.writeInfo E (w, fs) i v).1.2
    unfold Ufo.writeInfo
    dsimp only
    cases FontInfo.writeInfo E w.version.toNat v i with
    | error e => exact ⟨w, .nothing, fun fs _ => ⟨rfl, .nothing⟩⟩
    | ok d =>
      obtain ⟨pl, h⟩ := writePlist_plan E.F w.havePrevious [fontinfoName] (.dict (d.map fun e => (.str e.1, e.2)))
      exact ⟨w, pl, fun fs _ => ⟨rfl, h fs⟩⟩
  | @lib x v =>
    show ∃ (w' : Writer) (pl : Plan), ∀ fs, OneFile fs _ → (writeLib E.F (w, fs) x v).1.1 = w' ∧ Done fs pl (writeLib E.F (w, fs) x v).1.2
    unfold writeLib
    by_cases hc : (v && !Validators.fontLibValidator x) = true
    · exact ⟨w, .nothing, fun fs _ => by rw [if_pos hc]; exact ⟨rfl, .nothing⟩⟩
    · obtain ⟨pl, h⟩ := writeOrRemove_plan E.F w libName (!truthy x) x
      exact ⟨w, pl, fun fs ho => by rw [if_neg hc]; cases ho with | lib hn => exact h fs hn⟩
  | @groups g v =>
    show ∃ (w' : Writer) (pl : Plan), ∀ fs, OneFile fs _ → (writeGroups E.F (w, fs) g v).1.1 = w' ∧ Done fs pl (writeGroups E.F (w, fs) g v).1.2
    unfold writeGroups
    by_cases hc : (v && !Kerning.groupsValidator (Kerning.groupsVal g)) = true
    · exact ⟨w, .nothing, fun fs _ => by rw [if_pos hc]; exact ⟨rfl, .nothing⟩⟩
    · obtain ⟨pl, h⟩ := writeOrRemove_plan E.F w groupsName (List.isEmpty (groupsToWrite w g)) (Kerning.groupsVal (groupsToWrite w g))
      exact ⟨w, pl, fun fs ho => by rw [if_neg hc]; cases ho with | groups hn => exact h fs hn⟩
  | @kerning k v =>
    show ∃ (w' : Writer) (pl : Plan), ∀ fs, OneFile fs _ → (writeKerning E.F (w, fs) k v).1.1 = w' ∧ Done fs pl (writeKerning E.F (w, fs) k v).1.2
    unfold writeKerning
    by_cases hc : (v && !k.all (fun e => Validators.isNumber e.2)) = true
    · exact ⟨w, .nothing, fun fs _ => by rw [if_pos hc]; exact ⟨rfl, .nothing⟩⟩
    · obtain ⟨pl, h⟩ := writeOrRemove_plan E.F w kerningName (List.isEmpty (kerningToWrite w k)) (Ufo.kerningVal (kerningToWrite w k))
      exact ⟨w, pl, fun fs ho => by rw [if_neg hc]; cases ho with | kerning hn => exact h fs hn⟩
  | @features s =>
    show ∃ (w' : Writer) (pl : Plan), ∀ fs, OneFile fs _ → (writeFeatures (w, fs) s).1.1 = w' ∧ Done fs pl (writeFeatures (w, fs) s).1.2
    unfold writeFeatures
    dsimp only
    by_cases hv : w.version = 1
    · exact ⟨w, .nothing, fun fs _ => by rw [if_pos hv]; exact ⟨rfl, .nothing⟩⟩
    · simp only [if_neg hv]
      by_cases he : (!s.isEmpty) = true
      · simp only [if_pos he]
        exact ⟨w, .put [featuresName] (utf8 s), fun fs _ => ⟨rfl, writeBytes_plan _ _ _ _ rfl⟩⟩
      · simp only [if_neg he]
        by_cases hp : w.havePrevious = true
        · simp only [if_pos hp]
          exact ⟨w, .drop [featuresName], fun fs ho => ⟨rfl, by cases ho with | features hn => exact removePath_plan fs _ _ hn⟩⟩
        · simp only [if_neg hp]
          exact ⟨w, .nothing, fun fs _ => ⟨rfl, .nothing⟩⟩
  | @layerContents o v =>
    show ∃ (w' : Writer) (pl : Plan), ∀ fs, OneFile fs _ → (writeLayerContents E.F (w, fs) o v).1.1 = w' ∧ Done fs pl (writeLayerContents E.F (w, fs) o v).1.2
    unfold writeLayerContents
    dsimp only
    by_cases hv : w.version < 3
    · exact ⟨w, .nothing, fun fs _ => by rw [if_pos hv]; exact ⟨rfl, .nothing⟩⟩
    · simp only [if_neg hv]
      by_cases hc : (v && !(((layerOrderOf w.layers o).all fun n => Dict.has w.layers n) && (Dict.keys w.layers).all fun n => decide (n ∈ layerOrderOf w.layers o))) = true
      · exact ⟨w, .nothing, fun fs _ => by rw [if_pos hc]; exact ⟨rfl, .nothing⟩⟩
      · simp only [if_neg hc]
        cases orderedLayers w.layers (layerOrderOf w.layers o) with
        | error e => exact ⟨w, .nothing, fun fs _ => ⟨rfl, .nothing⟩⟩
        | ok t =>
          obtain ⟨pl, h⟩ := writePlist_plan E.F w.havePrevious [layercontentsName] (layersVal t)
          exact ⟨w, pl, fun fs _ => ⟨rfl, h fs⟩⟩
  | @image n d v =>
    show ∃ (w' : Writer) (pl : Plan), ∀ fs, OneFile fs _ → (writeImage (w, fs) n d v).1.1 = w' ∧ Done fs pl (writeImage (w, fs) n d v).1.2
    unfold writeImage
    dsimp only
    by_cases hv : w.version < 3
    · exact ⟨w, .nothing, fun fs _ => by rw [if_pos hv]; exact ⟨rfl, .nothing⟩⟩
    · simp only [if_neg hv]
      by_cases hc : (v && !pngValidator d) = true
      · exact ⟨w, .nothing, fun fs _ => by rw [if_pos hc]; exact ⟨rfl, .nothing⟩⟩
      · simp only [if_neg hc]
        exact ⟨w, .put [imagesName, n] d, fun fs ho => ⟨rfl, by cases ho with | image hn => exact writeBytes_plan _ _ _ _ hn⟩⟩
  | @bytes p d => exact ⟨w, .put p d, fun fs ho => ⟨rfl, by cases ho with | bytes hn => exact writeBytes_plan _ _ _ _ hn⟩⟩
  | @remove p f => exact ⟨w, .drop p, fun fs ho => ⟨rfl, by cases ho with | remove hn => exact removePath_plan _ _ _ hn⟩⟩
  | @glyph gs op =>
    obtain ⟨pl, h⟩ := glyph_plan L E.F gs op
    exact ⟨w, pl, fun fs _ => ⟨rfl, h fs⟩⟩
  | @layerInfo gs i v =>
    obtain ⟨pl, h⟩ := layerInfo_plan E.F gs i v
    exact ⟨w, pl, fun fs _ => ⟨rfl, h fs⟩⟩

theorem oneFile_congr {a b : FS} (h : SameDirs a b) {op : Op} (ho : OneFile a op) : OneFile b op := by
  have hn : ∀ q, a.node? q ≠ some .dir → b.node? q ≠ some .dir := fun q hq e => hq ((h.2 q).1 e)
  cases ho with
  | maps => exact .maps
  | info => exact .info
  | lib h => exact .lib (hn _ h)
  | groups h => exact .groups (hn _ h)
  | kerning h => exact .kerning (hn _ h)
  | features h => exact .features (hn _ h)
  | glyphSet => exact .glyphSet
  | layerContents => exact .layerContents
  | image hd => exact .image ((h.2 _).2 hd)
  | copyImage hd hs => exact .copyImage ((h.2 _).2 hd) hs
  | bytes hd => exact .bytes ((h.2 _).2 hd)
  | remove h => exact .remove (hn _ h)
  | glyph => exact .glyph
  | layerInfo => exact .layerInfo

theorem run_plan (E : FontInfo.Env) (L : Casing) (ops : List Op) : ∀ (w : Writer) (a b : FS), (∀ op ∈ ops, Repeatable op) → OneFileEach E L (w, a) ops → SameDirs a b →
    ∃ pls, Runs pls a (run E L (w, a) ops).2 ∧ Runs pls b (run E L (w, b) ops).2 := by
  induction ops with
  | nil => exact fun w a b _ _ _ => ⟨[], .nil, .nil⟩
  | cons op ops ih =>
    intro w a b hr ho hd
    obtain ⟨w', pl, h⟩ := step_plan E L w (hr op (by simp))
    have hoa : OneFile a op := ho [] op ops rfl
    obtain ⟨ea, da⟩ := h a hoa
    obtain ⟨eb, db⟩ := h b (oneFile_congr hd hoa)
    have hd' : SameDirs (step E L (w, a) op).1.2 (step E L (w, b) op).1.2 := ((done_apart da).dirs.symm.trans hd).trans (done_apart db).dirs
    have ho' : OneFileEach E L (w', (step E L (w, a) op).1.2) ops := by
      intro pre o post e
      have := ho (op :: pre) o post (by rw [e]; rfl)
      have hrun : run E L (w, a) (op :: pre) = run E L (step E L (w, a) op).1 pre := rfl
      rw [hrun, show (step E L (w, a) op).1 = (w', (step E L (w, a) op).1.2) from Prod.ext ea rfl] at this
      exact this
    obtain ⟨pls, ra, rb⟩ := ih w' _ _ (fun o h => hr o (by simp [h])) ho' hd'
    refine ⟨pl :: pls, .cons da ?_, .cons db ?_⟩
    · show Runs pls _ (run E L (step E L (w, a) op).1 ops).2
      rw [show (step E L (w, a) op).1 = (w', (step E L (w, a) op).1.2) from Prod.ext ea rfl]; exact ra
    · show Runs pls _ (run E L (step E L (w, b) op).1 ops).2
      rw [show (step E L (w, b) op).1 = (w', (step E L (w, b) op).1.2) from Prod.ext eb rfl]; exact rb

theorem openWriter_plan (F : FloatCodec) (hp : Bool) (version : Int) (creator : PyVal) :
    ∃ pl, ∀ (fs fs' : FS) (validate : Bool) (w : Writer), openWriter F hp fs version creator validate = (fs', .ok w) → Done fs pl fs' := by
  obtain ⟨pl, h⟩ := writePlist_plan F hp [metainfoName] (metaInfo creator version)
  refine ⟨pl, fun fs fs' validate w ho => ?_⟩
  have h1 := h fs
  rw [(openWriter_ok ho).2.2.1] at h1
  exact h1

/-! ### opening again -/

theorem stoppedBetween_crash {fs fs' left : FS} (h : StoppedBetween fs fs' left) : Spec.Crash.StoppedBetween fs fs' left := by
  obtain ⟨acts, h1, h2⟩ := h
  refine ⟨acts, h1, ?_⟩
  cases h2 with
  | between k => exact .between k
  | @writing k j p d h =>
    refine .during k h (by simp [FS.perform, Crash.performAll_canon]) (.write ⟨d.take j, ?_⟩ ?_)
    · exact Dict.get?_set_self _ _ _
    · intro q hq
      exact Dict.get?_set_ne _ _ (fun e => hq e.symm)
  | during k h hw hc hn => exact .during k h hc hn

/-- What the calls of a history are not about is what it was, wherever the process stops. -/
theorem run_entry (E : FontInfo.Env) (L : Casing) {c : Str} (ops : List Op) : ∀ (w : World) (left : FS), Layered w.1 → OneFileEach E L w ops →
    (∀ op ∈ ops, Spec.Ufo.Spares w.2.canon c op) → StoppedBetween w.2 (run E L w ops).2 left → ∀ p, left.node? (c :: p) = w.2.node? (c :: p) := by
  induction ops with
  | nil =>
    intro w left _ _ _ hs p
    rcases (done_stopped (.nothing (fs := w.2)) hs).node (c :: p) with e | ⟨h, -⟩
    · exact e
    · exact h.elim
  | cons op ops ih =>
    intro w left hl ho hsp hs p
    have hone : One w.2 (step E L w op).1.2 := step_one (ho [] op ops rfl)
    obtain ⟨a, ha⟩ := one_log hone
    have ho' : OneFileEach E L (step E L w op).1 ops := fun pre o post e => ho (op :: pre) o post (by rw [e]; rfl)
    obtain ⟨b, hb⟩ := run_log ops (step E L w op).1 ho'
    obtain ⟨acts, hlog, hst⟩ := hs
    have hrun : (run E L w (op :: ops)).2 = (run E L (step E L w op).1 ops).2 := rfl
    rw [hrun, hb, ha, Crash.performAll_log, Crash.performAll_log, List.append_assoc, List.append_cancel_left_eq] at hlog
    subst hlog
    have hend : (step E L w op).1.2.node? (c :: p) = w.2.node? (c :: p) := by
      refine Crash.stopped_entry hl (op := op) (stoppedBetween_crash ⟨a, by rw [ha, Crash.performAll_log], ?_⟩) (hsp op (by simp)) p
      have := StoppedIn.between (fs := w.2) (acts := a) a.length
      rwa [List.take_length, ← ha] at this
    have hcanon : (step E L w op).1.2.canon = w.2.canon := by rw [ha, Crash.performAll_canon]
    rcases stopped_split hst with hst | hst
    · exact Crash.stopped_entry hl (op := op) (stoppedBetween_crash ⟨a, by rw [ha, Crash.performAll_log], hst⟩) (hsp op (by simp)) p
    · rw [← ha] at hst
      rw [ih (step E L w op).1 left (step_spec E L w hl op).2.2.1 ho' (fun o h => by rw [hcanon]; exact hsp o (by simp [h])) ⟨b, by rw [hb, Crash.performAll_log], hst⟩ p]
      exact hend

/-- Writing the same property list once more does nothing. -/
theorem writePlist_again {F : FloatCodec} {fs fs' left : FS} {p : Path} {v : PyVal} (h : writePlist F true fs p v = (fs', .ok ())) (hn : left.node? p = fs'.node? p) :
    writePlist F true left p v = (left, .ok ()) := by
  unfold writePlist at h ⊢
  simp only [if_true] at h ⊢
  cases hd : dumpBytes F v with
  | error e => rw [hd] at h; cases h
  | ok d =>
    rw [hd] at h
    dsimp only at h ⊢
    have hu : unchanged left p d = true := by
      have key : fs'.node? p = some (.file d) := by
        split at h
        · next hu => cases h; exact unchanged_node hu
        · split at h
          · cases h
          · next hs =>
            cases h
            obtain ⟨rfl, hne, -, -⟩ := setbytes_ok hs
            rw [node_write hne, if_pos rfl]
      unfold unchanged FS.getbytes
      rw [hn, key]
      simp
    rw [if_pos hu]

end Verif.Interrupt
