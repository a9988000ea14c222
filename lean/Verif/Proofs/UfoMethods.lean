import Verif.Model.UfoMethods
import Verif.Proofs.UfoShared
/-! The calls as sequences of calls on the file system: without interruption they do what the models of the calls do; programs that keep to different parts do not disturb each other. -/
namespace Verif.Ufo
open Verif Verif.IO Verif.Converters Verif.Validators Verif.Kerning

/-! ### without interruption -/

theorem Prog.run_bind {α β : Type} (p : Prog α) (f : α → Prog β) : ∀ fs, (p.bind f).run fs = (f (p.run fs).2).run (p.run fs).1 := by
  induction p with
  | ret a => intro fs; rfl
  | get p k ih => intro fs; exact ih _ _
  | has p k ih => intro fs; exact ih _ _
  | call m k ih => intro fs; exact ih _ _

theorem unchangedP_run (p : Path) (d : Bytes) (k : Bool → Prog (Except Exc Unit)) (fs : FS) : (unchangedP p d k).run fs = (k (unchanged fs p d)).run fs := by
  unfold unchangedP unchanged
  simp only [Prog.run]
  unfold FS.getbytes
  cases fs.node? p with
  | none => rfl
  | some n => cases n <;> rfl

theorem getPlistP_run (F : FloatCodec) (p : Path) (d : Option PyVal) (fs : FS) : (getPlistP F p d).run fs = (fs, getPlist F fs p d) := rfl

theorem setbytesP_run (p : Path) (d : Bytes) (fs : FS) : (Prog.call (.setbytes p d) .ret).run fs = attempt fs (fs.setbytes p d) := rfl

theorem removetreeP_run (p : Path) (fs : FS) : (Prog.call (.removetree p) .ret).run fs = attempt fs (fs.removetree p) := rfl

theorem writePlistP_run (F : FloatCodec) (hp : Bool) (p : Path) (v : PyVal) (fs : FS) : (writePlistP F hp p v).run fs = writePlist F hp fs p v := by
  unfold writePlistP writePlist
  split
  · cases dumpBytes F v with
    | error e => rfl
    | ok data =>
      dsimp only
      rw [unchangedP_run]
      split
      · rfl
      · rw [setbytesP_run]
        unfold attempt
        cases fs.setbytes p data <;> rfl
  · simp only [Prog.run, Method.run]
    unfold attempt
    cases h : fs.setbytes p [] with
    | error e => rfl
    | ok fs1 =>
      dsimp only
      cases dumpBytes F v with
      | error e => rfl
      | ok data =>
        dsimp only
        rw [setbytesP_run]
        unfold attempt
        cases fs1.setbytes p data <;> rfl

theorem storeGlyphP_run (hp : Bool) (p : Path) (d : Bytes) (fs : FS) : (storeGlyphP hp p d).run fs = GlyphSet.storeGlyph hp fs p d := by
  unfold storeGlyphP GlyphSet.storeGlyph
  have key : (Prog.call (.setbytes p d) .ret).run fs = GlyphSet.storeGlyph false fs p d := by
    unfold GlyphSet.storeGlyph
    rw [setbytesP_run, Bool.false_and, if_neg (by simp)]
    unfold attempt
    cases fs.setbytes p d <;> rfl
  cases hp with
  | false => exact key
  | true =>
    rw [if_pos rfl, unchangedP_run, Bool.true_and]
    split
    · rfl
    · rw [key]
      unfold GlyphSet.storeGlyph
      rw [Bool.false_and, if_neg (by simp)]

theorem writeBytesP_run (hp : Bool) (p : Path) (d : Bytes) (fs : FS) : (writeBytesP hp p d).run fs = writeBytesToPath hp fs p d := by
  have key : (putBytesP p d).run fs = writeBytesToPath false fs p d := by
    unfold writeBytesToPath putBytesP
    rw [Bool.false_and, if_neg (by simp)]
    simp only [Prog.run, Method.run]
    unfold attempt
    cases h : fs.setbytes p d with
    | ok fs1 => rfl
    | error e =>
      cases e <;> try rfl
      dsimp only
      simp only [Prog.run, Method.run]
      unfold attempt
      cases h2 : fs.makedirs p.dropLast with
      | error e => rfl
      | ok fs1 =>
        dsimp only
        rw [setbytesP_run]
        unfold attempt
        cases fs1.setbytes p d <;> rfl
  unfold writeBytesP
  cases hp with
  | false => exact key
  | true =>
    rw [if_pos rfl, unchangedP_run]
    by_cases hu : unchanged fs p d = true
    · rw [if_pos hu]
      unfold writeBytesToPath
      rw [Bool.true_and, if_pos hu]
      rfl
    · rw [if_neg hu, key]
      unfold writeBytesToPath
      rw [Bool.true_and, if_neg hu, Bool.false_and, if_neg (by simp)]

theorem removeNodeP_run (p : Path) (force : Bool) (fs : FS) : (removeNodeP p force).run fs = removeNode fs p force := by
  unfold removeNodeP removeNode
  simp only [Prog.run, Method.run]
  unfold attempt
  cases h : fs.remove p with
  | ok fs1 => rfl
  | error e =>
    cases e <;> try rfl
    · dsimp only; cases force <;> rfl
    · dsimp only
      rw [removetreeP_run]
      unfold attempt
      cases fs.removetree p <;> rfl

theorem removeEmptyP_run : ∀ (rev : List Str) (fs : FS), (removeEmptyP rev).run fs = removeEmpty fs rev
  | [], _ => rfl
  | c :: rest, fs => by
    unfold removeEmptyP removeEmpty
    simp only [Prog.run, Method.run]
    unfold attempt
    cases h : fs.removedir (rest.reverse ++ [c]) with
    | ok fs1 => exact removeEmptyP_run rest fs1
    | error e => cases e <;> rfl

theorem removePathP_run (p : Path) (force re : Bool) (fs : FS) : (removePathP p force re).run fs = removePath fs p force re := by
  unfold removePathP removePath
  rw [Prog.run_bind, removeNodeP_run]
  generalize removeNode fs p force = x
  obtain ⟨x1, x2⟩ := x
  cases x2 with
  | error e => rfl
  | ok u =>
    dsimp only
    split
    · exact removeEmptyP_run _ _
    · rfl

theorem copyTreeP_run (q : Path) : ∀ (l : List (Path × Node)) (fs : FS), (copyTreeP q l).run fs = (l.foldl (copyEntry q) fs, .ok ())
  | [], _ => rfl
  | e :: l, fs => copyTreeP_run q l (copyEntry q fs e)

theorem copyP_run (src : FS) (p q : Path) (fs : FS) : (copyP src p q).run fs = copyFromReader src fs p q := by
  unfold copyP copyFromReader
  split
  · rfl
  · by_cases h0 : q = []
    · subst h0
      rfl
    · rw [if_neg h0]
      simp only [Prog.run, Method.run]
      by_cases h1 : fs.exists q = true
      · rw [if_pos h1, if_pos h1]; rfl
      · rw [if_neg h1, if_neg h1]
        simp only [Prog.run, Method.run]
        unfold attempt
        cases h2 : fs.makedirs q.dropLast with
        | error e => rfl
        | ok fs1 =>
          dsimp only
          have hd : (Prog.call (.makedir q) fun r => match r with
              | .error e => .ret (.error e)
              | .ok () => copyTreeP q (below src p)).run fs1 = (match fs1.makedir q with
              | .error e => (fs1, .error e)
              | .ok fs2 => ((below src p).foldl (copyEntry q) fs2, .ok ()) : FS × Except Exc Unit) := by
            simp only [Prog.run, Method.run]
            unfold attempt
            cases h3 : fs1.makedir q with
            | error e => rfl
            | ok fs2 => exact copyTreeP_run _ _ _
          cases src.node? p with
          | none => exact hd
          | some n =>
            cases n with
            | dir => exact hd
            | file d =>
              dsimp only
              rw [setbytesP_run]
              unfold attempt
              cases fs1.setbytes q d <;> rfl

theorem missingP_run (dir : Path) : ∀ (t : List (Str × Str)) (fs : FS), (missingP dir t).run fs = (fs, t.any fun e => !fs.exists (dir ++ [e.2]))
  | [], _ => rfl
  | e :: t, fs => by
    unfold missingP
    simp only [Prog.run, Method.run, List.any_cons]
    cases h : fs.exists (dir ++ [e.2]) with
    | true => rw [if_pos rfl, missingP_run dir t fs]; rfl
    | false => rfl

theorem rebuildP_run (F : FloatCodec) (gs : GlyphSet.GlyphSet) (v : Bool) (fs : FS) : (rebuildP F gs v).run fs = (fs, GlyphSet.rebuildContents F gs fs v) := by
  unfold rebuildP GlyphSet.rebuildContents
  rw [Prog.run_bind, getPlistP_run]
  dsimp only
  cases getPlist F fs (gs.dir ++ [GlyphSet.contentsName]) (some (.dict [])) with
  | error e => rfl
  | ok x =>
    cases x <;> try rfl
    rename_i d
    dsimp only
    unfold GlyphSet.checkContents
    dsimp only
    cases GlyphSet.tableOf d with
    | none => rfl
    | some t =>
      dsimp only
      cases v with
      | false => rfl
      | true =>
        rw [if_pos rfl, Prog.run_bind, missingP_run, Bool.true_and]
        dsimp only
        cases t.any fun e => !fs.exists (gs.dir ++ [e.2]) <;> rfl

theorem openP_run (F : FloatCodec) (dir : Path) (version : Nat) (v : Bool) (fs : FS) : (openP F dir version v).run fs = (fs, GlyphSet.openGlyphSet F fs dir version v) := by
  unfold openP GlyphSet.openGlyphSet
  split
  · exact rebuildP_run F _ v fs
  · rfl

theorem glyphP_run (L : Casing) (F : FloatCodec) (gs : GlyphSet.GlyphSet) (op : GlyphSet.Op) (fs : FS) :
    (glyphP L F gs op).run fs = ((GlyphSet.step L F (gs, fs) op).1.2, (GlyphSet.step L F (gs, fs) op).1.1, (GlyphSet.step L F (gs, fs) op).2) := by
  cases op with
  | write naming name fv data =>
    simp only [glyphP, GlyphSet.step, GlyphSet.writeGlyph]
    cases GlyphSet.glifVersion gs fv with
    | error e => rfl
    | ok v =>
      dsimp only
      generalize GlyphSet.assignFile L naming gs name = x
      obtain ⟨gs', r⟩ := x
      cases r with
      | error e => rfl
      | ok f =>
        dsimp only
        cases data v with
        | error e => rfl
        | ok d =>
          dsimp only
          rw [Prog.run_bind, storeGlyphP_run]
          rfl
  | delete name =>
    simp only [glyphP, GlyphSet.step, GlyphSet.deleteGlyph]
    cases Dict.get? gs.contents name with
    | none => rfl
    | some f =>
      simp only [Prog.run, Method.run]
      unfold attempt
      cases fs.remove (gs.dir ++ [f]) with
      | error e => rfl
      | ok fs1 =>
        dsimp only
        cases GlyphSet.dropExisting gs f with
        | error e => rfl
        | ok gs1 =>
          dsimp only
          cases GlyphSet.dropReverse L gs1 f <;> rfl
  | reverse => rfl
  | save =>
    simp only [glyphP, GlyphSet.step, GlyphSet.writeContents]
    rw [Prog.run_bind, writePlistP_run]
    rfl
  | rebuild v =>
    simp only [glyphP, GlyphSet.step]
    rw [Prog.run_bind, rebuildP_run]
    dsimp only
    cases GlyphSet.rebuildContents F gs fs v <;> rfl

theorem layerInfoP_run (F : FloatCodec) (gs : GlyphSet.GlyphSet) (info : Str → Option PyVal) (v : Bool) (fs : FS) :
    (layerInfoP F gs info v).run fs =
      ((GlyphSet.writeLayerInfo F (gs, fs) info v).1.2, (GlyphSet.writeLayerInfo F (gs, fs) info v).1.1, (GlyphSet.writeLayerInfo F (gs, fs) info v).2) := by
  unfold layerInfoP GlyphSet.writeLayerInfo
  dsimp only
  split
  · rfl
  · unfold GlyphSet.storeLayerInfo
    dsimp only
    split
    · cases (if v = true then GlyphSet.validateLayerInfo F (GlyphSet.gatherLayerInfo info GlyphSet.layerInfoAttrs) else .ok ()) with
      | error e => rfl
      | ok u => dsimp only; rw [Prog.run_bind, writePlistP_run]; rfl
    · cases hp : gs.havePrevious with
      | false => rfl
      | true =>
        rw [if_pos rfl, Bool.true_and]
        simp only [Prog.run]
        split
        · simp only [Prog.run, Method.run]
          unfold attempt
          cases fs.remove (gs.dir ++ [GlyphSet.layerinfoName]) <;> rfl
        · rfl

/-- What a call on a writer does, in the order of `Prog.run`. -/
def flat {α : Type} (x : World × α) : FS × Writer × α := (x.1.2, x.1.1, x.2)

theorem writeOrRemoveP_run (F : FloatCodec) (w : Writer) (name : Str) (empty : Bool) (v : PyVal) (fs : FS) :
    ((writeOrRemoveP F w name empty v).bind fun r => Prog.ret (w, r)).run fs = flat (writeOrRemove F (w, fs) name empty v) := by
  rw [Prog.run_bind]
  unfold writeOrRemoveP writeOrRemove
  dsimp only
  split
  · rw [writePlistP_run]; rfl
  · split
    · rw [removePathP_run]; rfl
    · rfl

theorem getGlyphSetP_run (L : Casing) (F : FloatCodec) (w : Writer) (n : Option Str) (d v : Bool) (fs : FS) :
    (getGlyphSetP L F w n d v).run fs = flat (getGlyphSet L F (w, fs) n d v) := by
  unfold getGlyphSetP getGlyphSet
  dsimp only
  split
  · rfl
  · split
    · rfl
    · split
      · unfold getGlyphSet12
        simp only [Prog.run, Method.run]
        unfold attempt
        cases fs.makedir [glyphsName] with
        | error e => rfl
        | ok fs1 =>
          dsimp only
          split
          · rfl
          · rw [Prog.run_bind, openP_run]; rfl
      · unfold getGlyphSet3
        dsimp only
        split
        · rfl
        · cases layerDirectory L w.layers (n.getD (defaultLayerOf w.layers)) d with
          | error e => rfl
          | ok dir =>
            simp only [Prog.run, Method.run]
            unfold attempt
            cases fs.makedir [dir] with
            | error e => rfl
            | ok fs1 => dsimp only; rw [Prog.run_bind, openP_run]; rfl

theorem renameP_run (L : Casing) (w : Writer) (n m : Option Str) (d : Bool) (fs : FS) : (renameP L w n m d).run fs = flat (renameGlyphSet L (w, fs) n m d) := by
  unfold renameP renameGlyphSet
  dsimp only
  split
  · rfl
  · cases renameCheck w.layers n m d with
    | error e => rfl
    | ok x =>
      cases x with
      | none => rfl
      | some new =>
        dsimp only
        cases findDirectory w.layers n with
        | error e => rfl
        | ok old =>
          dsimp only
          cases renameDirectory L w.layers new d with
          | error e => rfl
          | ok dir => cases n <;> rfl

theorem deleteP_run (w : Writer) (n : Option Str) (fs : FS) : (deleteP w n).run fs = flat (deleteGlyphSet (w, fs) n) := by
  unfold deleteP deleteGlyphSet
  dsimp only
  split
  · rfl
  · cases findDirectory w.layers n with
    | error e => rfl
    | ok dir =>
      dsimp only
      rw [Prog.run_bind, removePathP_run]
      generalize removePath fs [dir] false false = x
      obtain ⟨x1, x2⟩ := x
      cases x2 with
      | error e => rfl
      | ok u =>
        cases n with
        | none => rfl
        | some n =>
          dsimp only
          split <;> rfl

theorem opP_run (E : FontInfo.Env) (L : Casing) (w : Writer) (op : Op) (fs : FS) : (opP E L w op).run fs = flat (step E L (w, fs) op) := by
  cases op with
  | maps a b =>
    simp only [opP, step, setMaps]
    split <;> rfl
  | info i v =>
    simp only [opP, step, writeInfo]
    cases FontInfo.writeInfo E w.version.toNat v i with
    | error e => rfl
    | ok d => dsimp only; rw [Prog.run_bind, writePlistP_run]; rfl
  | lib l v =>
    simp only [opP, step, writeLib]
    split
    · rfl
    · exact writeOrRemoveP_run ..
  | groups g v =>
    simp only [opP, step, writeGroups]
    split
    · rfl
    · exact writeOrRemoveP_run ..
  | kerning k v =>
    simp only [opP, step, writeKerning]
    split
    · rfl
    · exact writeOrRemoveP_run ..
  | features s =>
    simp only [opP, step, writeFeatures]
    split
    · rfl
    · split
      · rw [Prog.run_bind, writeBytesP_run]; rfl
      · split
        · rw [Prog.run_bind, removePathP_run]; rfl
        · rfl
  | glyphSet n d v =>
    simp only [opP, step]
    rw [Prog.run_bind, getGlyphSetP_run]
    rfl
  | rename n m d => exact renameP_run L w n m d fs
  | delete n => exact deleteP_run w n fs
  | layerContents o v =>
    simp only [opP, step, writeLayerContents]
    split
    · rfl
    · split
      · rfl
      · cases orderedLayers w.layers (layerOrderOf w.layers o) with
        | error e => rfl
        | ok t => dsimp only; rw [Prog.run_bind, writePlistP_run]; rfl
  | image n d v =>
    simp only [opP, step, writeImage]
    split
    · rfl
    · split
      · rfl
      · rw [Prog.run_bind, writeBytesP_run]; rfl
  | removeImage n =>
    simp only [opP, step, removeImage]
    split
    · rfl
    · rw [Prog.run_bind, removePathP_run]; rfl
  | bytes p d => simp only [opP, step]; rw [Prog.run_bind, writeBytesP_run]; rfl
  | remove p f e => simp only [opP, step]; rw [Prog.run_bind, removePathP_run]; rfl
  | copy s p q => simp only [opP, step]; rw [Prog.run_bind, copyP_run]; rfl
  | copyImage s n m =>
    simp only [opP, step, copyImageFromReader]
    split
    · rfl
    · rw [Prog.run_bind, copyP_run]; rfl
  | glyph gs op => simp only [opP, step]; rw [Prog.run_bind, glyphP_run]; rfl
  | layerInfo gs i v => simp only [opP, step]; rw [Prog.run_bind, layerInfoP_run]; rfl

/-- Without interruption a call of a program does what the model of the call does. -/
theorem prog_run (E : FontInfo.Env) (L : Casing) (u : User) (c : FontCall) (fs : FS) :
    (u.prog E L c).run fs = (((u.on fs).step E L c).1.fs, ⟨((u.on fs).step E L c).1.writer, ((u.on fs).step E L c).1.sets⟩, ((u.on fs).step E L c).2) := by
  cases c with
  | getGlyphSet n d v =>
    simp only [User.prog, Font.step, Font.getGlyphSet, Font.world, User.on]
    rw [Prog.run_bind, getGlyphSetP_run]
    generalize getGlyphSet L E.F (u.writer, fs) n d v = x
    obtain ⟨⟨x1, x2⟩, x3⟩ := x
    cases x3 <;> rfl
  | ufo op =>
    simp only [User.prog, Font.step, Font.world, User.on]
    rw [Prog.run_bind, opP_run]
    rfl
  | set i c =>
    simp only [User.prog, Font.step, Font.callSet, User.on]
    cases u.sets[i]? with
    | none => rfl
    | some gs =>
      dsimp only
      rw [Prog.run_bind]
      cases c with
      | glyphs op => simp only [setP, GlyphSet.setStep]; rw [glyphP_run]; rfl
      | layerInfo info v => simp only [setP, GlyphSet.setStep]; rw [layerInfoP_run]; rfl

/-! ### a program keeps to its part -/
open Verif.FS Verif.FS.Shares Verif.Spec.Ufo

/-- A method on paths below the entries `S` of the root directory. -/
def Method.In (S : Str → Prop) : Method → Prop
  | .setbytes p _ => Paths S p
  | .remove p => Paths S p
  | .makedir p => Paths S p
  | .makedirs p => Paths S p
  | .removetree p => Paths S p ∧ (p = [] → ∀ c, S c)
  | .removedir p => Paths S p ∧ p ≠ []
  | .movedir p q => Paths S p ∧ p ≠ [] ∧ Paths S q ∧ q ≠ []
  | .copyEntry q _ => Paths S q ∧ q ≠ []

/-- The stored names below the entries `S`, or everything. -/
def Inside (S : Str → Prop) (fs : FS) (k : Path) : Prop := Below S fs.canon k ∨ ∀ c, S c

variable {S : Str → Prop} {κ : Str → Str} {a b : FS}

theorem inside_key {fs : FS} {p k : Path} (hp : Paths S p) (h0 : p ≠ []) (hk : k = fs.key p) : Inside S fs k := by
  have := hp.below (fs := fs) (t := []) h0
  rw [List.append_nil] at this
  exact .inl (hk ▸ this)

theorem attempt_pair {x y : Except Exc FS} (h : Shares S κ a b) (hb : Both S κ x y) : Pair S κ (attempt a x) (attempt b y) := by
  rcases hb with ⟨e, rfl, rfl⟩ | ⟨a', b', rfl, rfl, h'⟩
  · exact ⟨h, rfl⟩
  · exact ⟨h', rfl⟩

theorem copyEntry_shares (q : Path) (e : Path × Node) (h : Shares S κ a b) (hκ : a.canon = κ) : Shares S κ (copyEntry q a e) (copyEntry q b e) :=
  shares_copyTree q [e] h hκ

/-- A method depends only on the part that it is in. -/
theorem method_shares (m : Method) (hm : m.In S) (h : Shares S κ a b) (hκ : a.canon = κ) (ha : Dict.WF a.nodes) (hb : Dict.WF b.nodes) : Pair S κ (m.run a) (m.run b) := by
  cases m with
  | setbytes p d => exact attempt_pair h (shares_setbytes h hm d)
  | remove p => exact attempt_pair h (shares_remove h hm)
  | makedir p => exact attempt_pair h (h.makedir hκ hm)
  | makedirs p => exact attempt_pair h (h.makedirs hκ hm)
  | removetree p => exact attempt_pair h (h.removetree hκ hm.1)
  | removedir p => exact attempt_pair h (h.removedir hκ hm.1 hm.2)
  | movedir p q => exact h.movedir hκ ha hb hm.1 hm.2.1 hm.2.2.1
  | copyEntry q e => exact ⟨copyEntry_shares q e h hκ, rfl⟩

theorem attempt_acts {P : Path → Prop} {fs : FS} {x : Except Exc FS} (h : ∀ fs', x = .ok fs' → Acts P fs fs') : Acts P fs (attempt fs x).1 := by
  cases x with
  | error e => exact .refl
  | ok fs' => exact h fs' rfl

/-- A method changes only the part that it is in. -/
theorem method_acts (m : Method) (hm : m.In S) (fs : FS) : Acts (Inside S fs) fs (m.run fs).1 := by
  cases m with
  | setbytes p d =>
    refine attempt_acts fun fs' h => ?_
    by_cases h0 : p = []
    · subst h0
      simp [FS.setbytes, FS.node?] at h
    · exact (setbytes_acts h).mono fun k hk => inside_key hm h0 hk
  | remove p =>
    refine attempt_acts fun fs' h => ?_
    by_cases h0 : p = []
    · subst h0
      simp [FS.remove, FS.node?] at h
    · exact (remove_acts h).mono fun k hk => inside_key hm h0 hk
  | makedir p =>
    refine attempt_acts fun fs' h => ?_
    by_cases h0 : p = []
    · subst h0
      simp only [FS.makedir, FS.node?, if_pos] at h
      cases h
      exact .refl
    · exact (makedir_acts h).mono fun k hk => inside_key hm h0 hk
  | makedirs p =>
    refine attempt_acts fun fs' h => (makedirs_acts h).mono fun k hk => ?_
    cases p with
    | nil => exact absurd (List.prefix_nil.1 hk.1) hk.2
    | cons c p =>
      cases k with
      | nil => exact absurd rfl hk.2
      | cons d k =>
        obtain ⟨t, ht⟩ := hk.1
        exact .inl ⟨c, k, hm.head, by rw [show d = fs.canon c from (List.cons.inj ht).1]⟩
  | removetree p =>
    refine attempt_acts fun fs' h => (removetree_acts h).mono fun k hk => ?_
    by_cases h0 : p = []
    · exact .inr (hm.2 h0)
    · exact inside_key hm.1 h0 hk
  | removedir p => exact attempt_acts fun fs' h => (removedir_acts h).mono fun k hk => inside_key hm.1 hm.2 hk
  | movedir p q =>
    refine (movedir_acts fs p q).mono fun k hk => ?_
    rcases hk with hk | hk
    · exact inside_key hm.1 hm.2.1 hk
    · exact inside_key hm.2.2.1 hm.2.2.2 hk
  | copyEntry q e =>
    have hq : Paths S (q ++ e.1) := hm.1.more hm.2
    have h0 : q ++ e.1 ≠ [] := by simp [hm.2]
    show Acts _ fs (copyEntry q fs e)
    unfold copyEntry
    split <;> exact .single _ (by simpa [Prim.paths] using inside_key hq h0 rfl)

/-- Everything that is done is on paths below the entries `S`, whatever the answers of the file system are. -/
def Prog.In {α : Type} (S : Str → Prop) : Prog α → Prop
  | .ret _ => True
  | .get p k => Paths S p ∧ ∀ r, (k r).In S
  | .has p k => Paths S p ∧ ∀ r, (k r).In S
  | .call m k => m.In S ∧ ∀ r, (k r).In S

theorem Prog.In.bind {α β : Type} {p : Prog α} {f : α → Prog β} (hp : p.In S) (hf : ∀ x, (f x).In S) : (p.bind f).In S := by
  induction p with
  | ret x => exact hf x
  | get p k ih => exact ⟨hp.1, fun r => ih r (hp.2 r)⟩
  | has p k ih => exact ⟨hp.1, fun r => ih r (hp.2 r)⟩
  | call m k ih => exact ⟨hp.1, fun r => ih r (hp.2 r)⟩

theorem unchangedP_in {p : Path} (hp : Paths S p) (d : Bytes) {k : Bool → Prog (Except Exc Unit)} (hk : ∀ u, (k u).In S) : (unchangedP p d k).In S := by
  refine ⟨hp, fun r => ?_⟩
  try dsimp only
  split
  · exact hk _
  · exact hk _
  · exact hk _
  · exact trivial

theorem setbytesP_in {p : Path} (hp : Paths S p) (d : Bytes) : (Prog.call (.setbytes p d) .ret).In S := ⟨hp, fun _ => trivial⟩

theorem getPlistP_in (F : FloatCodec) {p : Path} (hp : Paths S p) (d : Option PyVal) : (getPlistP F p d).In S := ⟨hp, fun _ => trivial⟩

theorem writePlistP_in (F : FloatCodec) (v : Bool) {p : Path} (hp : Paths S p) (x : PyVal) : (writePlistP F v p x).In S := by
  unfold writePlistP
  split
  · split
    · exact trivial
    · refine unchangedP_in hp _ fun u => ?_
      try dsimp only
      split
      · exact trivial
      · exact setbytesP_in hp _
  · refine ⟨hp, fun r => ?_⟩
    try dsimp only
    split
    · exact trivial
    · split
      · exact trivial
      · exact setbytesP_in hp _

theorem writeBytesP_in (v : Bool) {p : Path} (hp : Paths S p) (d : Bytes) : (writeBytesP v p d).In S := by
  have key : (putBytesP p d).In S := by
    refine ⟨hp, fun r => ?_⟩
    try dsimp only
    split
    · exact trivial
    · exact trivial
    · refine ⟨hp.up, fun r => ?_⟩
      try dsimp only
      split
      · exact trivial
      · exact setbytesP_in hp d
    · exact trivial
  unfold writeBytesP
  split
  · refine unchangedP_in hp _ fun u => ?_
    try dsimp only
    split
    · exact trivial
    · exact key
  · exact key

theorem removeEmptyP_in : ∀ (rev : List Str), Paths S rev.reverse → (removeEmptyP rev).In S
  | [], _ => trivial
  | c :: rest, hp => by
    rw [List.reverse_cons] at hp
    refine ⟨⟨hp, by simp⟩, fun r => ?_⟩
    try dsimp only
    split
    · exact trivial
    · exact trivial
    · exact removeEmptyP_in rest (hp.pre ⟨[c], rfl⟩)

theorem removePathP_in {p : Path} (hp : Paths S p) (h0 : p = [] → ∀ c, S c) (force re : Bool) : (removePathP p force re).In S := by
  unfold removePathP
  refine Prog.In.bind ?_ fun r => ?_
  · refine ⟨hp, fun r => ?_⟩
    try dsimp only
    split
    · exact trivial
    · exact ⟨⟨hp, h0⟩, fun _ => trivial⟩
    · split <;> exact trivial
    · exact trivial
  · split
    · exact trivial
    · split
      · exact removeEmptyP_in _ (by rw [List.reverse_reverse]; exact hp.up)
      · exact trivial

theorem copyTreeP_in {q : Path} (hq : Paths S q) (h0 : q ≠ []) : ∀ l : List (Path × Node), (copyTreeP q l).In S
  | [] => trivial
  | _ :: l => ⟨⟨hq, h0⟩, fun r => by
    try dsimp only
    split
    · exact trivial
    · exact copyTreeP_in hq h0 l⟩

theorem copyP_in (src : FS) (p : Path) {q : Path} (hq : Paths S q) : (copyP src p q).In S := by
  unfold copyP
  split
  · exact trivial
  · split
    · exact trivial
    · rename_i h0
      refine ⟨hq, fun r => ?_⟩
      try dsimp only
      split
      · exact trivial
      · refine ⟨hq.up, fun r => ?_⟩
        try dsimp only
        split
        · exact trivial
        · split
          · exact setbytesP_in hq _
          · refine ⟨hq, fun r => ?_⟩
            try dsimp only
            split
            · exact trivial
            · exact copyTreeP_in hq h0 _

theorem missingP_in {dir : Path} (hd : ∀ f, Paths S (dir ++ [f])) : ∀ t : List (Str × Str), (missingP dir t).In S
  | [] => trivial
  | e :: t => by
    refine ⟨hd _, fun r => ?_⟩
    try dsimp only
    split
    · exact missingP_in hd t
    · exact trivial

theorem rebuildP_in (F : FloatCodec) (gs : GlyphSet.GlyphSet) (hd : ∀ f, Paths S (gs.dir ++ [f])) (v : Bool) : (rebuildP F gs v).In S := by
  unfold rebuildP
  refine (getPlistP_in F (hd _) _).bind fun r => ?_
  try dsimp only
  split
  · exact trivial
  · split
    · exact trivial
    · try dsimp only
      split
      · exact (missingP_in hd _).bind fun _ => trivial
      · exact trivial
  · exact trivial

theorem openP_in (F : FloatCodec) {dir : Path} (hd : ∀ f, Paths S (dir ++ [f])) (version : Nat) (v : Bool) : (openP F dir version v).In S := by
  unfold openP
  split
  · exact ⟨hd _, fun r => rebuildP_in F _ hd v⟩
  · exact trivial

theorem glyphP_in (L : Casing) (F : FloatCodec) (gs : GlyphSet.GlyphSet) (hd : ∀ f, Paths S (gs.dir ++ [f])) (op : GlyphSet.Op) : (glyphP L F gs op).In S := by
  cases op with
  | write naming name fv data =>
    simp only [glyphP]
    split
    · exact trivial
    · split
      · exact trivial
      · rename_i gs' f h
        split
        · exact trivial
        · refine Prog.In.bind ?_ fun _ => trivial
          have hp : Paths S (gs'.dir ++ [f]) := by rw [(GlyphSet.assignFile_dir h).1]; exact hd f
          unfold storeGlyphP
          split
          · refine unchangedP_in hp _ fun u => ?_
            try dsimp only
            split
            · exact trivial
            · exact setbytesP_in hp _
          · exact setbytesP_in hp _
  | delete name =>
    simp only [glyphP]
    split
    · exact trivial
    · exact ⟨hd _, fun _ => trivial⟩
  | reverse => exact trivial
  | save => exact (writePlistP_in F _ (hd _) _).bind fun _ => trivial
  | rebuild v => exact (rebuildP_in F gs hd v).bind fun _ => trivial

theorem layerInfoP_in (F : FloatCodec) (gs : GlyphSet.GlyphSet) (hd : ∀ f, Paths S (gs.dir ++ [f])) (info : Str → Option PyVal) (v : Bool) : (layerInfoP F gs info v).In S := by
  unfold layerInfoP
  split
  · exact trivial
  · dsimp only
    split
    · split
      · exact trivial
      · exact (writePlistP_in F _ (hd _) _).bind fun _ => trivial
    · split
      · refine ⟨hd _, fun r => ?_⟩
        try dsimp only
        split
        · exact ⟨hd _, fun _ => trivial⟩
        · exact trivial
      · exact trivial

theorem writeOrRemoveP_in (F : FloatCodec) (w : Writer) {name : Str} (hn : S name) (empty : Bool) (v : PyVal) : (writeOrRemoveP F w name empty v).In S := by
  unfold writeOrRemoveP
  split
  · exact writePlistP_in F _ (paths_cons hn) _
  · split
    · exact removePathP_in (paths_cons hn) (by intro h; cases h) _ _
    · exact trivial

theorem getGlyphSetP_in (L : Casing) (F : FloatCodec) (w : Writer) (n : Option Str) (d v : Bool)
    (hS : ∀ x, layerDirectory L w.layers (n.getD (defaultLayerOf w.layers)) d = .ok x → S x) (hS' : n = none → S glyphsName) : (getGlyphSetP L F w n d v).In S := by
  unfold getGlyphSetP
  split
  · exact trivial
  · rename_i hn
    split
    · exact trivial
    · split
      · rename_i hv
        have hg := hS' (by
          by_contra h0
          exact hn ⟨hv, .inr h0⟩)
        refine ⟨paths_cons hg, fun r => ?_⟩
        try dsimp only
        split
        · exact trivial
        · split
          · exact trivial
          · exact (openP_in F (fun f => paths_cons hg) _ _).bind fun _ => trivial
      · dsimp only
        split
        · exact trivial
        · split
          · exact trivial
          · rename_i x hx
            refine ⟨paths_cons (hS x hx), fun r => ?_⟩
            try dsimp only
            split
            · exact trivial
            · exact (openP_in F (fun f => paths_cons (hS x hx)) _ _).bind fun _ => trivial

theorem renameP_in (L : Casing) (w : Writer) (hl : Layered w) (n m : Option Str) (d : Bool) (hS : ∀ x, GlyphsDir x → S x) : (renameP L w n m d).In S := by
  unfold renameP
  split
  · exact trivial
  · split
    · exact trivial
    · exact trivial
    · split
      · exact trivial
      · rename_i old hold
        split
        · exact trivial
        · rename_i new hnew
          split
          · exact trivial
          · exact ⟨⟨paths_cons (hS _ (findDirectory_dir hl hold)), by simp, paths_cons (hS _ (renameDirectory_dir hnew)), by simp⟩, fun _ => trivial⟩

theorem deleteP_in (w : Writer) (n : Option Str) (hS : ∀ x, findDirectory w.layers n = .ok x → S x) : (deleteP w n).In S := by
  unfold deleteP
  split
  · exact trivial
  · split
    · exact trivial
    · rename_i dir hdir
      refine (removePathP_in (paths_cons (hS dir hdir)) (by intro h; cases h) _ _).bind fun r => ?_
      try dsimp only
      split
      · exact trivial
      · split
        · exact trivial
        · split <;> exact trivial

theorem opP_in (E : FontInfo.Env) (L : Casing) (w : Writer) (hl : Layered w) (op : Op) (hS : ∀ c, Concerns op c → S c) : (opP E L w op).In S := by
  cases op with
  | maps x y => exact trivial
  | info i v =>
    simp only [opP]
    split
    · exact trivial
    · exact (writePlistP_in E.F _ (paths_cons (hS _ .info)) _).bind fun _ => trivial
  | lib l v =>
    simp only [opP]
    split
    · exact trivial
    · exact (writeOrRemoveP_in _ w (hS _ .lib) _ _).bind fun _ => trivial
  | groups g v =>
    simp only [opP]
    split
    · exact trivial
    · exact (writeOrRemoveP_in _ w (hS _ .groups) _ _).bind fun _ => trivial
  | kerning g v =>
    simp only [opP]
    split
    · exact trivial
    · exact (writeOrRemoveP_in _ w (hS _ .kerning) _ _).bind fun _ => trivial
  | features s =>
    simp only [opP]
    split
    · exact trivial
    · split
      · exact (writeBytesP_in _ (paths_cons (hS _ .features)) _).bind fun _ => trivial
      · split
        · exact (removePathP_in (paths_cons (hS _ .features)) (by intro h; cases h) _ _).bind fun _ => trivial
        · exact trivial
  | glyphSet n d v =>
    exact (getGlyphSetP_in L E.F w n d v (fun x hx => hS _ (.glyphSet (layerDirectory_dir hl.dirs hx))) (fun _ => hS _ (.glyphSet (.inl rfl)))).bind fun _ => trivial
  | rename n m d => exact renameP_in L w hl n m d fun x hx => hS _ (.rename hx)
  | delete n => exact deleteP_in w n fun x hx => hS _ (.delete (findDirectory_dir hl hx))
  | layerContents o v =>
    simp only [opP]
    split
    · exact trivial
    · split
      · exact trivial
      · split
        · exact trivial
        · exact (writePlistP_in E.F _ (paths_cons (hS _ .layerContents)) _).bind fun _ => trivial
  | image n d v =>
    simp only [opP]
    split
    · exact trivial
    · split
      · exact trivial
      · exact (writeBytesP_in _ (paths_cons (hS _ .image)) _).bind fun _ => trivial
  | removeImage n =>
    simp only [opP]
    split
    · exact trivial
    · exact (removePathP_in (paths_cons (hS _ .removeImage)) (by intro h; cases h) _ _).bind fun _ => trivial
  | bytes p d =>
    refine Prog.In.bind (writeBytesP_in _ ?_ _) fun _ => trivial
    cases p with
    | nil => exact paths_nil
    | cons c p => exact paths_cons (hS _ .bytes)
  | remove p f e =>
    cases p with
    | nil => exact (removePathP_in paths_nil (fun _ c => hS c .removeRoot) _ _).bind fun _ => trivial
    | cons c p => exact (removePathP_in (paths_cons (hS _ .remove)) (by intro h; cases h) _ _).bind fun _ => trivial
  | copy s p q =>
    refine Prog.In.bind (copyP_in s p ?_) fun _ => trivial
    cases q with
    | nil => exact paths_nil
    | cons c q => exact paths_cons (hS _ .copy)
  | copyImage s n m =>
    simp only [opP]
    split
    · exact trivial
    · exact (copyP_in s _ (paths_cons (hS _ .copyImage))).bind fun _ => trivial
  | glyph gs op =>
    refine Prog.In.bind (glyphP_in L E.F gs (fun f => ?_) op) fun _ => trivial
    cases hd : gs.dir with
    | nil => exact paths_of_all (fun c => hS _ (.glyphRoot hd)) _
    | cons c p => exact paths_cons (hS c (.glyph (by rw [hd]; rfl)))
  | layerInfo gs i v =>
    refine Prog.In.bind (layerInfoP_in E.F gs (fun f => ?_) i v) fun _ => trivial
    cases hd : gs.dir with
    | nil => exact paths_of_all (fun c => hS _ (.layerInfoRoot hd)) _
    | cons c p => exact paths_cons (hS c (.layerInfo (by rw [hd]; rfl)))

/-- A call of a program works on the entries that it is about. -/
theorem prog_in (E : FontInfo.Env) (L : Casing) (u : User) (hl : Layered u.writer) (fs : FS) (c : FontCall) (hS : ∀ e, About (u.on fs) c e → S e) : (u.prog E L c).In S := by
  cases c with
  | getGlyphSet n d v =>
    exact (getGlyphSetP_in L E.F u.writer n d v (fun x hx => hS x (about_dir (f := u.on fs) hl (.inl hx)))
      (fun h0 => hS _ (about_dir (f := u.on fs) hl (L := L) (.inr ⟨h0, rfl⟩)))).bind fun _ => trivial
  | ufo op =>
    refine Prog.In.bind ?_ fun _ => trivial
    by_cases hd : ∃ n, op = .delete (some n)
    · obtain ⟨n, rfl⟩ := hd
      exact deleteP_in u.writer (some n) fun x hx => hS x (about_delete hl hx)
    · have hn : ∀ n, op ≠ .delete (some n) := fun n hn => hd ⟨n, hn⟩
      exact opP_in E L u.writer hl op fun e he => hS e ((about_ufo hn e).2 he)
  | set i c =>
    simp only [User.prog]
    cases hi : u.sets[i]? with
    | none => exact trivial
    | some gs =>
      have hd : ∀ f, Paths S (gs.dir ++ [f]) := by
        intro f
        cases hd : gs.dir with
        | nil => exact paths_of_all (fun e => hS e ⟨gs, hi, .inl hd⟩) _
        | cons e p => exact paths_cons (hS e ⟨gs, hi, .inr (by rw [hd]; rfl)⟩)
      refine Prog.In.bind ?_ fun _ => trivial
      cases c with
      | glyphs op => exact glyphP_in L E.F gs hd op
      | layerInfo info v => exact layerInfoP_in E.F gs hd info v

theorem next_in {α : Type} {p : Prog α} (hp : p.In S) (fs : FS) : (p.next fs).2.In S := by
  cases p with
  | ret x => exact trivial
  | get p k => exact hp.2 _
  | has p k => exact hp.2 _
  | call m k => exact hp.2 _

theorem next_run {α : Type} (p : Prog α) (fs : FS) : (p.next fs).2.run (p.next fs).1 = p.run fs := by cases p <;> rfl

theorem next_acts {α : Type} {p : Prog α} (hp : p.In S) (fs : FS) : Acts (Inside S fs) fs (p.next fs).1 := by
  cases p with
  | ret x => exact .refl
  | get p k => exact .refl
  | has p k => exact .refl
  | call m k => exact method_acts m hp.1 fs

theorem next_shares {α : Type} {p : Prog α} (hp : p.In S) (h : Shares S κ a b) (hκ : a.canon = κ) (ha : Dict.WF a.nodes) (hb : Dict.WF b.nodes) : Pair S κ (p.next a) (p.next b) := by
  cases p with
  | ret x => exact ⟨h, rfl⟩
  | get p k => exact ⟨h, by simp only [Prog.next]; rw [h.getbytes hp.1]⟩
  | has p k => exact ⟨h, by simp only [Prog.next]; rw [h.exists hp.1]⟩
  | call m k =>
    obtain ⟨h1, h2⟩ := method_shares m hp.1 h hκ ha hb
    exact ⟨h1, by simp only [Prog.next]; rw [h2]⟩

/-! ### programs running at the same time -/

/-- A program that, if it goes on alone, keeps to the entries `S`. -/
def Careful (E : FontInfo.Env) (L : Casing) (S : Str → Prop) (p : Proc) (fs : FS) : Prop :=
  match p.running with
  | none => Layered p.user.writer ∧ KeepsTo E L S (p.user.on fs) p.todo
  | some c => c.In S ∧ Layered (c.run fs).2.1.writer ∧ KeepsTo E L S ((c.run fs).2.1.on (c.run fs).1) p.todo

/-- One step of a program: it depends on and changes only its part. -/
theorem proc_step (E : FontInfo.Env) (L : Casing) {p : Proc} (hg : Careful E L S p b) (h : Shares S κ a b) (hκ : a.canon = κ) (ha : Dict.WF a.nodes) (hb : Dict.WF b.nodes) :
    (p.step E L a).1 = (p.step E L b).1 ∧ Shares S κ (p.step E L a).2 (p.step E L b).2 ∧ Careful E L S (p.step E L b).1 (p.step E L b).2 ∧
      Acts (Inside S a) a (p.step E L a).2 ∧ Acts (Inside S b) b (p.step E L b).2 := by
  obtain ⟨u, run, todo, done⟩ := p
  cases run with
  | none =>
    cases todo with
    | nil => exact ⟨rfl, h, hg, .refl, .refl⟩
    | cons c cs =>
      obtain ⟨h1, h2, h3⟩ := hg
      refine ⟨rfl, h, ⟨prog_in E L u h1 b c h2, ?_⟩, .refl, .refl⟩
      have h4 := prog_run E L u c b
      show Layered ((u.prog E L c).run b).2.1.writer ∧ KeepsTo E L S (((u.prog E L c).run b).2.1.on ((u.prog E L c).run b).1) cs
      rw [h4]
      exact ⟨(font_step_acts E L (u.on b) h1 c).1, h3⟩
  | some c =>
    obtain ⟨h1, h2, h3⟩ := hg
    by_cases hr : ∃ x, c = .ret x
    · obtain ⟨⟨v, r⟩, rfl⟩ := hr
      exact ⟨rfl, h, ⟨h2, h3⟩, .refl, .refl⟩
    · have hs : ∀ fs, Proc.step E L ⟨u, some c, todo, done⟩ fs = (⟨u, some (c.next fs).2, todo, done⟩, (c.next fs).1) := by
        intro fs
        cases c with
        | ret x => exact absurd ⟨x, rfl⟩ hr
        | get p k => rfl
        | has p k => rfl
        | call m k => rfl
      obtain ⟨k1, k2⟩ := next_shares h1 h hκ ha hb
      rw [hs, hs]
      refine ⟨by rw [k2], k1, ⟨next_in h1 b, ?_⟩, next_acts h1 a, next_acts h1 b⟩
      rw [next_run]
      exact ⟨h2, h3⟩

theorem steps_succ (E : FontInfo.Env) (L : Casing) : ∀ (n : Nat) (p : Proc) (fs : FS), p.steps E L fs (n + 1) = (p.steps E L fs n).1.step E L (p.steps E L fs n).2
  | 0, _, _ => rfl
  | n + 1, p, fs => steps_succ E L n (p.step E L fs).1 (p.step E L fs).2

theorem steps_add (E : FontInfo.Env) (L : Casing) : ∀ (m n : Nat) (p : Proc) (fs : FS), p.steps E L fs (m + n) = (p.steps E L fs m).1.steps E L (p.steps E L fs m).2 n
  | 0, n, p, fs => by rw [Nat.zero_add]; rfl
  | m + 1, n, p, fs => by
    rw [Nat.succ_add]
    exact steps_add E L m n _ _

/-- A call that has begun ends. -/
theorem call_ends (E : FontInfo.Env) (L : Casing) (u : User) (todo : List FontCall) (done : List (Except Exc Unit)) (c : Prog (User × Except Exc Unit)) : ∀ fs,
    ∃ n, Proc.steps E L ⟨u, some c, todo, done⟩ fs n = (⟨(c.run fs).2.1, none, todo, done ++ [(c.run fs).2.2]⟩, (c.run fs).1) := by
  induction c with
  | ret x => intro fs; exact ⟨1, rfl⟩
  | get p k ih => intro fs; obtain ⟨n, h⟩ := ih (fs.getbytes p) fs; exact ⟨n + 1, h⟩
  | has p k ih => intro fs; obtain ⟨n, h⟩ := ih (fs.exists p) fs; exact ⟨n + 1, h⟩
  | call m k ih => intro fs; obtain ⟨n, h⟩ := ih (m.run fs).2 (m.run fs).1; exact ⟨n + 1, h⟩

/-- A program that runs alone makes all its calls, as in `Font.run`. -/
theorem calls_end (E : FontInfo.Env) (L : Casing) : ∀ (calls : List FontCall) (u : User) (done : List (Except Exc Unit)) (fs : FS), ∃ n, Proc.steps E L ⟨u, none, calls, done⟩ fs n =
    (⟨⟨((u.on fs).run E L calls).writer, ((u.on fs).run E L calls).sets⟩, none, [], done ++ (u.on fs).results E L calls⟩, ((u.on fs).run E L calls).fs)
  | [], u, done, fs => ⟨0, by simp only [Font.run, Font.results, List.append_nil]; rfl⟩
  | c :: cs, u, done, fs => by
    obtain ⟨n, h⟩ := call_ends E L u cs done (u.prog E L c) fs
    rw [prog_run] at h
    obtain ⟨m, h'⟩ := calls_end E L cs ⟨((u.on fs).step E L c).1.writer, ((u.on fs).step E L c).1.sets⟩ (done ++ [((u.on fs).step E L c).2]) ((u.on fs).step E L c).1.fs
    refine ⟨n + m + 1, ?_⟩
    show Proc.steps E L ⟨u, some (u.prog E L c), cs, done⟩ fs (n + m) = _
    rw [steps_add, h]
    dsimp only
    rw [h', List.append_assoc]
    rfl

theorem finished_step (E : FontInfo.Env) (L : Casing) {p : Proc} (h : p.finished) (fs : FS) : p.step E L fs = (p, fs) := by
  obtain ⟨u, run, todo, done⟩ := p
  obtain ⟨h1, h2⟩ := h
  dsimp only at h1 h2
  subst h1 h2
  rfl

theorem finished_steps (E : FontInfo.Env) (L : Casing) {p : Proc} (h : p.finished) (fs : FS) : ∀ n, p.steps E L fs n = (p, fs)
  | 0 => rfl
  | n + 1 => by rw [steps_succ, finished_steps E L h fs n, finished_step E L h]

/-- Programs on one file system, and the same programs each on a file system of its own. -/
structure Beside (E : FontInfo.Env) (L : Casing) (S : Nat → Str → Prop) (κ : Str → Str) (s : Running) (f : Nat → Proc × FS) : Prop where
  canon : s.fs.canon = κ
  wf : Dict.WF s.fs.nodes
  same : ∀ (i : Nat) (p : Proc), s.procs[i]? = some p → (f i).1 = p
  shares : ∀ (i : Nat) (p : Proc), s.procs[i]? = some p → Shares (S i) κ s.fs (f i).2
  wfs : ∀ (i : Nat) (p : Proc), s.procs[i]? = some p → Dict.WF (f i).2.nodes
  good : ∀ (i : Nat) (p : Proc), s.procs[i]? = some p → Careful E L (S i) (f i).1 (f i).2

theorem inside_apart {S : Nat → Str → Prop} (hS : Divided κ S) {i j : Nat} (hij : i ≠ j) {fs : FS} (hκ : fs.canon = κ) {k q : Path} (hk : Below (S i) κ k) (hq : Inside (S j) fs q) :
    ¬ q <+: k := by
  rintro ⟨t, ht⟩
  obtain ⟨d, r, hd, rfl⟩ := hk
  rcases hq with ⟨e, r', he, rfl⟩ | hall
  · rw [List.cons_append, hκ] at ht
    exact hS.apart i j d e hij hd he (List.cons.inj ht).1.symm
  · exact hS.apart i j d d hij hd (hall d) rfl

theorem beside_step (E : FontInfo.Env) (L : Casing) {S : Nat → Str → Prop} (hS : Divided κ S) {s : Running} {f : Nat → Proc × FS} (h : Beside E L S κ s f) (j : Nat) :
    Beside E L S κ (s.step E L j) (fun i => if i = j then (f j).1.step E L (f j).2 else f i) ∧
      ∀ e q, (∀ i, i < s.procs.length → ¬ S i e) → (s.step E L j).fs.node? (e :: q) = s.fs.node? (e :: q) := by
  unfold Running.step
  cases hj : s.procs[j]? with
  | none =>
    dsimp only
    refine ⟨⟨h.canon, h.wf, fun i p hp => ?_, fun i p hp => ?_, fun i p hp => ?_, fun i p hp => ?_⟩, fun _ _ _ => rfl⟩
    all_goals
      have hij : i ≠ j := by rintro rfl; rw [hj] at hp; cases hp
      rw [if_neg hij]
    · exact h.same i p hp
    · exact h.shares i p hp
    · exact h.wfs i p hp
    · exact h.good i p hp
  | some p =>
    dsimp only
    have hsame := h.same j p hj
    have hgood := h.good j p hj
    rw [hsame] at hgood
    obtain ⟨k1, k2, k3, k4, k5⟩ := proc_step E L hgood (h.shares j p hj) h.canon h.wf (h.wfs j p hj)
    have hlen : j < s.procs.length := (List.getElem?_eq_some_iff.1 hj).1
    refine ⟨⟨k4.canon.trans h.canon, k4.wf h.wf, fun i v hv => ?_, fun i v hv => ?_, fun i v hv => ?_, fun i v hv => ?_⟩, fun e q he => ?_⟩
    all_goals try dsimp only at *
    · by_cases hij : i = j
      · subst hij
        rw [List.getElem?_set_self hlen] at hv
        cases hv
        rw [if_pos rfl, hsame, k1]
      · rw [List.getElem?_set_ne (Ne.symm hij)] at hv
        rw [if_neg hij]
        exact h.same i v hv
    · by_cases hij : i = j
      · subst hij
        rw [if_pos rfl, hsame]
        exact k2
      · rw [List.getElem?_set_ne (Ne.symm hij)] at hv
        rw [if_neg hij]
        have hs := h.shares i v hv
        refine Shares.of_raw (k4.canon.trans hs.canon) (k4.canon.trans h.canon) fun k hk => ?_
        rw [← hs.raw k hk]
        exact k4.get? k fun q hq => inside_apart hS hij h.canon hk hq
    · by_cases hij : i = j
      · subst hij
        rw [if_pos rfl, hsame]
        exact k5.wf (h.wfs i p hj)
      · rw [List.getElem?_set_ne (Ne.symm hij)] at hv
        rw [if_neg hij]
        exact h.wfs i v hv
    · by_cases hij : i = j
      · subst hij
        rw [if_pos rfl, hsame]
        exact k3
      · rw [List.getElem?_set_ne (Ne.symm hij)] at hv
        rw [if_neg hij]
        exact h.good i v hv
    · refine k4.node? (e :: q) fun k hk => ?_
      rintro ⟨t, ht⟩
      rcases hk with ⟨d, r, hd, rfl⟩ | hall
      · have h1 : s.fs.canon d = s.fs.canon e := (List.cons.inj ht).1
        rw [h.canon] at h1
        exact he j hlen (hS.whole j d e h1 hd)
      · exact he j hlen (hall e)

theorem step_procs (E : FontInfo.Env) (L : Casing) (s : Running) (j : Nat) : (s.step E L j).procs.length = s.procs.length := by
  unfold Running.step
  split
  · rfl
  · exact List.length_set

theorem run_procs (E : FontInfo.Env) (L : Casing) : ∀ (sched : List Nat) (s : Running), (s.run E L sched).procs.length = s.procs.length
  | [], _ => rfl
  | j :: rest, s => (run_procs E L rest _).trans (step_procs E L s j)

theorem beside_run (E : FontInfo.Env) (L : Casing) {S : Nat → Str → Prop} (hS : Divided κ S) : ∀ (sched : List Nat) {s : Running} {f : Nat → Proc × FS}, Beside E L S κ s f →
    Beside E L S κ (s.run E L sched) (fun i => (f i).1.steps E L (f i).2 (sched.count i)) ∧
      ∀ e q, (∀ i, i < s.procs.length → ¬ S i e) → (s.run E L sched).fs.node? (e :: q) = s.fs.node? (e :: q) := by
  intro sched
  induction sched with
  | nil => intro s f h; exact ⟨h, fun _ _ _ => rfl⟩
  | cons j rest ih =>
    intro s f h
    obtain ⟨h1, h2⟩ := beside_step E L hS h j
    obtain ⟨h3, h4⟩ := ih h1
    refine ⟨?_, fun e q he => (h4 e q (by rw [step_procs]; exact he)).trans (h2 e q he)⟩
    have : (fun i => (f i).1.steps E L (f i).2 ((j :: rest).count i)) = fun i =>
        (if i = j then (f j).1.step E L (f j).2 else f i).1.steps E L (if i = j then (f j).1.step E L (f j).2 else f i).2 (rest.count i) := by
      funext i
      by_cases hij : i = j
      · subst hij
        rw [if_pos rfl, List.count_cons_self]
        rfl
      · rw [if_neg hij, List.count_cons_of_ne (Ne.symm hij)]
    rw [this]
    exact h3

end Verif.Ufo
