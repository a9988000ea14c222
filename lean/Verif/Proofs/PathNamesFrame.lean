import Verif.Proofs.PathNames
import Verif.Proofs.Tree
/-! What the calls that are given a path string can change. -/
namespace Verif.PathNames
open Verif Verif.IO Verif.Ufo Verif.GlyphSet Verif.Validators Verif.Spec.PathNames Verif.FS Verif.Props

/-- The paths a call for the string concerns: on the way to where it leads and to where the directory of it leads. -/
def Touched (fs : FS) (s : Str) (p : Path) (k : Path) : Prop := Along fs p k ∨ (k <+: fs.key (dirOf s) ∧ k ≠ [])

theorem writeBytesAt_acts (hp : Bool) (fs : FS) (s : Str) (d : Bytes) {p : Path} (h : resolve s = some p) :
    Acts (Touched fs s p) fs (writeBytesAt hp fs s d).1 := by
  have hs : ∀ k, k = fs.key p → Touched fs s p k := fun k hk => .inl (hk ▸ along_self fs p)
  unfold writeBytesAt
  rw [h]
  dsimp only
  split
  · exact .refl
  · split
    · rename_i h; exact (setbytes_acts h).mono hs
    · exact .refl
    · split
      · exact .refl
      · rename_i fs1 hm
        have a1 := (makedirs_acts hm).mono (Q := Touched fs s p) fun k hk => .inr hk
        split
        · exact a1
        · rename_i fs2 h2
          have a2 := setbytes_acts h2
          rw [a1.key] at a2
          exact a1.trans (a2.mono hs)
    · exact .refl

theorem removeAt_acts (fs : FS) (s : Str) (force re : Bool) {p : Path} (h : resolve s = some p) : Acts (Touched fs s p) fs (removeAt fs s force re).1 := by
  have a0 := (removeNode_acts fs p force).mono (Q := Touched fs s p) fun k hk => .inl (hk ▸ along_self fs p)
  unfold removeAt
  rw [h]
  dsimp only
  split
  · rename_i fs1 e h
    rw [h] at a0; exact a0
  · rename_i fs1 h
    rw [h] at a0
    split
    · refine a0.trans ((removeEmpty_acts _ fs1).mono ?_)
      rintro k ⟨hk, h0⟩
      rw [a0.key, List.reverse_reverse] at hk
      exact .inr ⟨hk, h0⟩
    · exact a0

theorem copyAt_acts (src fs : FS) (s t : Str) {q : Path} (h : resolve t = some q) :
    Acts (fun k => q ≠ [] ∧ (Touched fs t q k ∨ fs.key q <+: k)) fs (copyAt src fs s t).1 := by
  unfold copyAt
  split
  · exact .refl
  · split
    · exact .refl
    · rw [h]
      dsimp only
      split
      · exact .refl
      · rename_i hex
        have hq : q ≠ [] := by
          rintro rfl
          exact hex rfl
        have hs : ∀ k, k = fs.key q → q ≠ [] ∧ (Touched fs t q k ∨ fs.key q <+: k) := fun k hk => ⟨hq, .inl (.inl (hk ▸ along_self fs q))⟩
        split
        · exact .refl
        · rename_i fs1 h1
          have a1 : Acts (fun k => q ≠ [] ∧ (Touched fs t q k ∨ fs.key q <+: k)) fs fs1 :=
            (makedirs_acts h1).mono fun k hk => ⟨hq, .inl (.inr hk)⟩
          split
          · split
            · exact a1
            · rename_i fs2 h2
              have a2 := setbytes_acts h2
              rw [a1.key] at a2
              exact a1.trans (a2.mono hs)
          · split
            · exact a1
            · rename_i fs2 h2
              have a2 := makedir_acts h2
              rw [a1.key] at a2
              have a3 := a1.trans (a2.mono hs)
              refine a3.trans ((copyTree_acts q _ fs2).mono ?_)
              intro k hk
              rw [a3.key] at hk
              exact ⟨hq, .inr hk⟩

theorem touched_in {fs : FS} {d name : Str} (hd : Name d) {p k : Path} (hr : resolve name = some p) (h : Touched fs (inDirectory d name) (d :: p) k) :
    ∃ r, k = fs.canon d :: r := by
  rcases h with h | ⟨h, h0⟩
  · exact along_of_cons h
  · rw [dirOf_inDirectory hd hr] at h
    exact along_of_cons ⟨h, fun e => absurd e h0⟩

/-- Nothing outside the directory changes. -/
theorem acts_inside {P : Path → Prop} {fs fs' : FS} {d : Str} (h : Acts P fs fs') (hP : ∀ k, P k → ∃ r, k = fs.canon d :: r) {q : Path}
    (hq : q.head?.map fs.canon ≠ some (fs.canon d)) : fs'.node? q = fs.node? q := by
  refine h.node? q fun k hk ⟨t, ht⟩ => ?_
  obtain ⟨r, rfl⟩ := hP k hk
  cases q with
  | nil => simp [FS.key] at ht
  | cons c q =>
    simp only [FS.key, List.map_cons, List.cons_append, List.cons.injEq] at ht
    exact hq (by simp [ht.1])

theorem writeBytesAt_written {hp : Bool} {fs : FS} {s : Str} {d : Bytes} {p : Path} (h : resolve s = some p) (hok : (writeBytesAt hp fs s d).2 = .ok ()) :
    (writeBytesAt hp fs s d).1.getbytes p = .ok d := by
  unfold writeBytesAt at hok ⊢
  rw [h] at hok ⊢
  dsimp only at hok ⊢
  split
  · rename_i hu
    rw [Bool.and_eq_true] at hu
    exact unchanged_iff.1 hu.2
  · rename_i hu
    rw [if_neg hu] at hok
    split at hok
    · rename_i h1; exact (setbytes_files h1).2.1
    · cases hok
    · split at hok
      · cases hok
      · split at hok
        · cases hok
        · rename_i h2; exact (setbytes_files h2).2.1
    · cases hok

theorem writeBytesAt_tidy (hp : Bool) {fs : FS} (ht : Tidy fs) (s : Str) (d : Bytes) : Tidy (writeBytesAt hp fs s d).1 := by
  unfold writeBytesAt
  split
  · exact ht
  · split
    · exact ht
    · split
      · rename_i h1; exact tidy_setbytes ht h1
      · exact ht
      · split
        · exact ht
        · rename_i h1
          have ht1 := tidy_makedirs ht h1
          split
          · exact ht1
          · rename_i h2; exact tidy_setbytes ht1 h2
      · exact ht

theorem removeEmpty_gone : ∀ (rev : List Str) (fs : FS) (p : Path), p ≠ [] → fs.node? p = none → (removeEmpty fs rev).1.node? p = none
  | [], _, _, _, h => h
  | c :: rest, fs, p, hp, h => by
    unfold removeEmpty
    split
    · exact h
    · exact h
    · rename_i fs' h1
      refine removeEmpty_gone rest fs' p hp ?_
      obtain ⟨rfl, -⟩ := removedir_ok h1
      rw [node?_remove _ _ _ hp]
      split
      · rfl
      · exact h

theorem removeNode_gone {fs fs' : FS} {p : Path} (hp : p ≠ []) {force : Bool} (h : removeNode fs p force = (fs', .ok ())) : fs'.node? p = none := by
  unfold removeNode at h
  split at h
  · rename_i h1
    cases h
    obtain ⟨rfl, -⟩ := remove_ok h1
    rw [node?_remove _ _ _ hp, if_pos rfl]
  · split at h
    · rename_i h1
      cases h
      obtain ⟨rfl, -⟩ := removetree_ok h1
      rw [node?_rmtree _ _ _ hp, if_pos (List.prefix_refl _)]
    · cases h
  · rename_i h1
    split at h
    · cases h
      unfold FS.remove at h1
      split at h1
      · cases h1
      · cases h1
      · assumption
    · cases h
  · cases h

theorem removeAt_gone {fs : FS} {s : Str} {force re : Bool} {p : Path} (h : resolve s = some p) (hp : p ≠ []) (hok : (removeAt fs s force re).2 = .ok ()) :
    (removeAt fs s force re).1.node? p = none := by
  unfold removeAt at hok ⊢
  rw [h] at hok ⊢
  dsimp only at hok ⊢
  cases hr : removeNode fs p force with
  | mk fs1 r =>
    rw [hr] at hok
    cases r with
    | error e => cases hok
    | ok u =>
      dsimp only
      have := removeNode_gone hp hr
      split
      · exact removeEmpty_gone _ _ _ hp this
      · exact this

/-! ### glyph sets -/

theorem stepAt_dir (L : Casing) (F : FloatCodec) (w : GlyphSet.World) (op : GlyphSet.Op) : (stepAt L F w op).1.1.dir = w.1.dir := by
  cases op with
  | write naming n fv data =>
    simp only [stepAt, writeGlyphAt]
    split
    · rfl
    · split
      · rename_i gs e ha
        exact (assignFile_dir ha).1
      · rename_i gs f ha
        split
        · exact (assignFile_dir ha).1
        · split <;> exact (assignFile_dir ha).1
  | delete n =>
    simp only [stepAt, deleteGlyphAt]
    split
    · rfl
    · split
      · rfl
      · split
        · rfl
        · split
          · rfl
          · rename_i gs1 h1
            have e1 : gs1.dir = w.1.dir := by
              unfold dropExisting at h1
              split at h1
              · cases h1; rfl
              · split at h1 <;> cases h1; rfl
            split
            · exact e1
            · rename_i gs2 h2
              have e2 : gs2.dir = gs1.dir := by
                unfold dropReverse at h2
                split at h2
                · cases h2; rfl
                · split at h2 <;> cases h2; rfl
              exact e2.trans e1
  | reverse =>
    simp only [stepAt, getReverseContents]
    split <;> rfl
  | save => rfl
  | rebuild v =>
    simp only [stepAt]
    split
    · rfl
    · rename_i gs h
      unfold rebuildContentsAt at h
      split at h
      · cases h
      · split at h <;> cases h; rfl

theorem stepAt_acts (L : Casing) (F : FloatCodec) (w : GlyphSet.World) (op : GlyphSet.Op) :
    Acts (fun k => w.2.key w.1.dir <+: k) w.2 (stepAt L F w op).1.2 := by
  have below : ∀ p k, k = w.2.key (w.1.dir ++ p) → w.2.key w.1.dir <+: k := by
    rintro p k rfl
    simp [FS.key]
  cases op with
  | write naming n fv data =>
    simp only [stepAt, writeGlyphAt]
    split
    · exact .refl
    · split
      · exact .refl
      · rename_i gs f ha
        split
        · exact .refl
        · split
          · exact .refl
          · rw [(assignFile_dir ha).1]
            exact (storeGlyph_acts _ _ _ _).mono (below _)
  | delete n =>
    simp only [stepAt, deleteGlyphAt]
    split
    · exact .refl
    · split
      · exact .refl
      · split
        · exact .refl
        · rename_i fs h
          have a := (remove_acts h).mono (below _)
          split
          · exact a
          · split <;> exact a
  | reverse => exact .refl
  | save => exact (writePlist_acts F _ _ _ _).mono (below _)
  | rebuild v =>
    simp only [stepAt]
    split <;> exact .refl

theorem runAt_inside (L : Casing) (F : FloatCodec) : ∀ (ops : List GlyphSet.Op) (w : GlyphSet.World),
    (runAt L F w ops).1.dir = w.1.dir ∧ (runAt L F w ops).2.canon = w.2.canon ∧
      ∀ q, ¬ w.1.dir.map w.2.canon <+: q.map w.2.canon → (runAt L F w ops).2.node? q = w.2.node? q
  | [], w => ⟨rfl, rfl, fun _ _ => rfl⟩
  | op :: ops, w => by
    obtain ⟨h1, h2, h3⟩ := runAt_inside L F ops (stepAt L F w op).1
    have a := stepAt_acts L F w op
    have d := stepAt_dir L F w op
    refine ⟨h1.trans d, h2.trans a.canon, fun q hq => ?_⟩
    refine (h3 q ?_).trans (a.node? q fun k hk hk' => hq (hk.trans hk'))
    rw [d, a.canon]
    exact hq

theorem agree_getbytes {dir : Path} {a b : FS} (h : AgreeIn dir a b) (p : Path) : a.getbytes (dir ++ p) = b.getbytes (dir ++ p) := by
  unfold FS.getbytes; rw [h.2]

theorem agree_exists {dir : Path} {a b : FS} (h : AgreeIn dir a b) (p : Path) : a.exists (dir ++ p) = b.exists (dir ++ p) := by
  unfold FS.exists; rw [h.2]

theorem agree_filesThere {dir : Path} {a b : FS} (h : AgreeIn dir a b) : ∀ t, filesThere a dir t = filesThere b dir t
  | [] => rfl
  | e :: t => by
    unfold filesThere
    cases resolve e.2 with
    | none => rfl
    | some p =>
      dsimp only
      rw [agree_exists h, agree_filesThere h t]

theorem agree_rebuild {F : FloatCodec} {gs : GlyphSet.GlyphSet} {a b : FS} (h : AgreeIn gs.dir a b) (validate : Bool) :
    rebuildContentsAt F gs a validate = rebuildContentsAt F gs b validate := by
  have hg : getPlist F a (gs.dir ++ [contentsName]) (some (.dict [])) = getPlist F b (gs.dir ++ [contentsName]) (some (.dict [])) := by
    unfold getPlist; rw [agree_getbytes h]
  have hc : ∀ v, checkContentsAt a gs.dir validate v = checkContentsAt b gs.dir validate v := by
    intro v
    unfold checkContentsAt
    simp only [agree_filesThere h]
  unfold rebuildContentsAt
  rw [hg]
  simp only [hc]

theorem agree_open {F : FloatCodec} {dir : Path} {a b : FS} (h : AgreeIn dir a b) (version : Nat) (validate : Bool) :
    openGlyphSetAt F a dir version validate = openGlyphSetAt F b dir version validate := by
  unfold openGlyphSetAt
  rw [agree_exists h]
  split
  · exact agree_rebuild (F := F) (by exact h) validate
  · rfl

theorem agree_getGLIF {gs : GlyphSet.GlyphSet} {a b : FS} (h : AgreeIn gs.dir a b) (name : Str) : getGLIFAt (gs, a) name = getGLIFAt (gs, b) name := by
  unfold getGLIFAt
  simp only [agree_getbytes h]

/-! ### histories -/

theorem assignFile_names {L : Casing} {naming : Naming} {gs gs' : GlyphSet.GlyphSet} {name : Str} {r : Except Exc Str} (h : assignFile L naming gs name = (gs', r))
    (hg : ∀ n f, Dict.get? gs.contents n = some f → Name f) (hn : ∀ ex f, naming name ex = .ok f → Name f) : ∀ n f, Dict.get? gs'.contents n = some f → Name f := by
  unfold assignFile at h
  split at h
  · cases h; exact hg
  · dsimp only at h
    split at h
    · cases h; exact hg
    · rename_i g hg'
      cases h
      intro n f hf
      rw [Dict.get?_set] at hf
      split at hf
      · cases hf; exact hn _ _ hg'
      · exact hg n f hf

/-- The naming functions of a history give names. -/
def GivesNames : GlyphSet.Op → Prop
  | .write naming name _ _ => ∀ ex f, naming name ex = .ok f → Name f
  | .rebuild _ => False
  | _ => True

theorem stepAt_names (L : Casing) (F : FloatCodec) (w : GlyphSet.World) (op : GlyphSet.Op) (hw : ∀ n f, Dict.get? w.1.contents n = some f → Name f) (ho : GivesNames op) :
    stepAt L F w op = GlyphSet.step L F w op ∧ ∀ n f, Dict.get? (GlyphSet.step L F w op).1.1.contents n = some f → Name f := by
  cases op with
  | write naming n fv data =>
    refine ⟨writeGlyphAt_name L naming fv data (hw n) ho, ?_⟩
    simp only [GlyphSet.step, writeGlyph]
    split
    · exact hw
    · split
      · rename_i ha; exact assignFile_names ha hw ho
      · rename_i ha
        split <;> exact assignFile_names ha hw ho
  | delete n =>
    refine ⟨deleteGlyphAt_name L (hw n), ?_⟩
    simp only [GlyphSet.step, deleteGlyph]
    split
    · exact hw
    · split
      · exact hw
      · split
        · exact hw
        · rename_i gs1 h1
          have e1 : gs1.contents = w.1.contents := by
            unfold dropExisting at h1
            split at h1
            · cases h1; rfl
            · split at h1 <;> cases h1; rfl
          split
          · dsimp only; rw [e1]; exact hw
          · rename_i gs2 h2
            have e2 : gs2.contents = gs1.contents := by
              unfold dropReverse at h2
              split at h2
              · cases h2; rfl
              · split at h2 <;> cases h2; rfl
            intro m f hf
            dsimp only at hf
            rw [Dict.get?_erase] at hf
            split at hf
            · cases hf
            · rw [e2, e1] at hf; exact hw m f hf
  | reverse =>
    refine ⟨rfl, ?_⟩
    simp only [GlyphSet.step, getReverseContents]
    split <;> exact hw
  | save => exact ⟨rfl, hw⟩
  | rebuild v => exact ho.elim

theorem runAt_names (L : Casing) (F : FloatCodec) : ∀ (ops : List GlyphSet.Op) (w : GlyphSet.World), (∀ n f, Dict.get? w.1.contents n = some f → Name f) →
    (∀ op ∈ ops, GivesNames op) → runAt L F w ops = GlyphSet.run L F w ops
  | [], _, _, _ => rfl
  | op :: ops, w, hw, ho => by
    obtain ⟨h1, h2⟩ := stepAt_names L F w op hw (ho op (by simp))
    unfold runAt GlyphSet.run
    rw [h1]
    exact runAt_names L F ops _ h2 fun o h => ho o (by simp [h])

end Verif.PathNames
