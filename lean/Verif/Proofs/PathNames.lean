import Verif.Model.PathNames
import Verif.Spec.PathNames
import Verif.Proofs.UfoFrame
import Verif.Proofs.UfoFiles
/-! Path strings. -/
namespace Verif.PathNames
open Verif Verif.IO Verif.Ufo Verif.GlyphSet Verif.Validators Verif.Spec.PathNames Verif.FS

theorem written_iff (s : Str) (l : List Str) : Written s l ↔ splitOn '/' s = l := by
  constructor
  · rintro ⟨h1, h2, rfl⟩
    exact splitOn_join '/' l h1 h2
  · rintro rfl
    exact ⟨splitOn_ne_nil _ _, splitOn_not_mem _ _, (join_splitOn _ _).symm⟩

theorem normParts_walk : ∀ (l acc : List Str) (p : Path), (∀ c ∈ l, '/' ∉ c) → normParts l acc = some p → Walk acc.reverse l p
  | [], acc, p, _, h => by cases h; exact .done _
  | c :: cs, acc, p, hl, h => by
    have hcs : ∀ c ∈ cs, '/' ∉ c := fun x hx => hl x (by simp [hx])
    unfold normParts at h
    split at h
    · rename_i hc
      rcases hc with rfl | rfl
      · exact .empty (normParts_walk cs acc p hcs h)
      · exact .here (normParts_walk cs acc p hcs h)
    · rename_i hc
      split at h
      · rename_i hu
        subst hu
        cases acc with
        | nil => cases h
        | cons x acc =>
          rw [List.reverse_cons]
          exact .up (normParts_walk cs acc p hcs h)
      · rename_i hu
        have := normParts_walk cs (c :: acc) p hcs h
        rw [List.reverse_cons] at this
        exact .down ⟨fun e => hc (.inl e), fun e => hc (.inr e), hu, hl c (by simp)⟩ this

theorem walk_normParts {d : Path} {l : List Str} {p : Path} (h : Walk d l p) : normParts l d.reverse = some p := by
  induction h with
  | done d => simp [normParts]
  | empty _ ih => unfold normParts; rw [if_pos (.inl rfl)]; exact ih
  | here _ ih => unfold normParts; rw [if_pos (.inr rfl)]; exact ih
  | up _ ih =>
    unfold normParts
    rw [if_neg (by simp), if_pos rfl, List.reverse_append]
    exact ih
  | down hc _ ih =>
    unfold normParts
    rw [if_neg (by rintro (e | e); exacts [hc.nonempty e, hc.here e]), if_neg hc.up]
    rw [List.reverse_append] at ih
    exact ih

theorem resolve_iff (s : Str) (p : Path) : resolve s = some p ↔ Leads s p := by
  unfold Leads resolve
  constructor
  · intro h
    exact ⟨_, (written_iff _ _).2 rfl, normParts_walk _ _ _ (splitOn_not_mem _ _) h⟩
  · rintro ⟨l, hl, hw⟩
    rw [(written_iff _ _).1 hl]
    exact walk_normParts hw

/-- What is kept consists of names. -/
theorem normParts_names : ∀ (l acc : List Str) (p : Path), (∀ c ∈ l, '/' ∉ c) → (∀ c ∈ acc, Name c) → normParts l acc = some p → ∀ c ∈ p, Name c
  | [], acc, p, _, ha, h => by cases h; simpa using ha
  | c :: cs, acc, p, hl, ha, h => by
    have hcs : ∀ c ∈ cs, '/' ∉ c := fun x hx => hl x (by simp [hx])
    unfold normParts at h
    split at h
    · exact normParts_names cs acc p hcs ha h
    · rename_i hc
      split at h
      · cases acc with
        | nil => cases h
        | cons x acc => exact normParts_names cs acc p hcs (fun y hy => ha y (by simp [hy])) h
      · rename_i hu
        refine normParts_names cs (c :: acc) p hcs (fun y hy => ?_) h
        rcases List.mem_cons.1 hy with rfl | hy
        · exact ⟨fun e => hc (.inl e), fun e => hc (.inr e), hu, hl y (by simp)⟩
        · exact ha y hy

theorem resolve_names {s : Str} {p : Path} (h : resolve s = some p) : ∀ c ∈ p, Name c :=
  normParts_names _ _ _ (splitOn_not_mem _ _) (by simp) h

/-- Starting further down leads to the same place below it. -/
theorem normParts_below : ∀ (l acc : List Str) (p base : Path), normParts l acc = some p → normParts l (acc ++ base.reverse) = some (base ++ p)
  | [], acc, p, base, h => by cases h; simp [normParts]
  | c :: cs, acc, p, base, h => by
    unfold normParts at h ⊢
    split at h
    · rename_i hc; rw [if_pos hc]; exact normParts_below cs acc p base h
    · rename_i hc
      rw [if_neg hc]
      split at h
      · rename_i hu
        rw [if_pos hu]
        cases acc with
        | nil => cases h
        | cons x acc => exact normParts_below cs acc p base h
      · rename_i hu
        rw [if_neg hu]
        exact normParts_below cs (c :: acc) p base h

/-- A beginning of what stays stays. -/
theorem normParts_take : ∀ (l m acc : List Str) (p : Path), normParts (l ++ m) acc = some p → ∃ q, normParts l acc = some q
  | [], m, acc, p, _ => ⟨_, rfl⟩
  | c :: cs, m, acc, p, h => by
    rw [List.cons_append] at h
    unfold normParts at h ⊢
    split at h
    · rename_i hc; rw [if_pos hc]; exact normParts_take cs m acc p h
    · rename_i hc
      rw [if_neg hc]
      split at h
      · rename_i hu
        rw [if_pos hu]
        cases acc with
        | nil => cases h
        | cons x acc => exact normParts_take cs m acc p h
      · rename_i hu
        rw [if_neg hu]
        exact normParts_take cs m (c :: acc) p h

theorem normParts_all : ∀ (l acc : List Str), (∀ c ∈ l, Name c) → normParts l acc = some (acc.reverse ++ l)
  | [], acc, _ => by simp [normParts]
  | c :: cs, acc, h => by
    have hc := h c (by simp)
    unfold normParts
    rw [if_neg (by rintro (e | e); exacts [hc.nonempty e, hc.here e]), if_neg hc.up, normParts_all cs _ fun x hx => h x (by simp [hx])]
    simp

theorem resolve_join {l : List Str} (hne : l ≠ []) (h : ∀ c ∈ l, Name c) : resolve (join c!"/" l) = some l := by
  unfold resolve
  rw [show (c!"/" : Str) = ['/'] from rfl, splitOn_join '/' l hne fun c hc => (h c hc).slash, normParts_all l [] h]
  rfl

theorem dirOf_join {l : List Str} (hne : l ≠ []) (h : ∀ c ∈ l, Name c) : dirOf (join c!"/" l) = l.dropLast := by
  unfold dirOf
  rw [show (c!"/" : Str) = ['/'] from rfl, splitOn_join '/' l hne fun c hc => (h c hc).slash,
    normParts_all _ [] fun c hc => h c (List.dropLast_subset l hc)]
  rfl

theorem resolve_name {s : Str} (h : Name s) : resolve s = some [s] := by
  have := resolve_join (l := [s]) (by simp) (by simpa using h)
  simpa [join] using this

/-- Stays below, told by counting. -/
theorem normParts_isSome : ∀ (l acc : List Str), (normParts l acc).isSome = true ↔
    ∀ n, (l.take n).countP (fun c => decide (c = c!"..")) ≤ acc.length + (l.take n).countP (fun c => decide (c ≠ [] ∧ c ≠ c!"." ∧ c ≠ c!".."))
  | [], acc => by simp [normParts]
  | c :: cs, acc => by
    have shift : ∀ P : Nat → Prop, P 0 → ((∀ n, P n) ↔ ∀ n, P (n + 1)) := fun P h0 =>
      ⟨fun h n => h _, fun h n => by cases n with | zero => exact h0 | succ n => exact h n⟩
    rw [shift _ (by simp)]
    simp only [List.take_succ_cons, List.countP_cons]
    unfold normParts
    by_cases hc : c = [] ∨ c = c!"."
    · rw [if_pos hc, normParts_isSome cs acc]
      have h1 : c ≠ c!".." := by rcases hc with rfl | rfl <;> simp
      have h2 : ¬ (c ≠ [] ∧ c ≠ c!"." ∧ c ≠ c!"..") := by rcases hc with rfl | rfl <;> simp
      simp only [decide_eq_true_eq, if_neg h1, if_neg h2, Nat.add_zero]
    · rw [if_neg hc]
      by_cases hu : c = c!".."
      · rw [if_pos hu]
        have h2 : ¬ (c ≠ [] ∧ c ≠ c!"." ∧ c ≠ c!"..") := by simp [hu]
        simp only [decide_eq_true_eq, if_pos hu, if_neg h2, Nat.add_zero]
        cases acc with
        | nil =>
          simp only [Option.isSome_none, Bool.false_eq_true, false_iff]
          intro h
          have := h 0
          simp at this
        | cons x acc =>
          rw [normParts_isSome cs acc]
          simp only [List.length_cons]
          exact forall_congr' fun n => by omega
      · rw [if_neg hu, normParts_isSome cs (c :: acc)]
        have h2 : c ≠ [] ∧ c ≠ c!"." ∧ c ≠ c!".." := ⟨fun e => hc (.inl e), fun e => hc (.inr e), hu⟩
        simp only [decide_eq_true_eq, if_neg hu, if_pos h2, List.length_cons, Nat.add_zero]
        exact forall_congr' fun n => by omega

theorem stays_iff (s : Str) : Stays s ↔ ∃ p, resolve s = some p := by
  rw [← Option.isSome_iff_exists]
  unfold resolve Stays
  rw [normParts_isSome]
  constructor
  · intro h n
    simpa using h _ ((written_iff _ _).2 rfl) n
  · intro h l hl n
    have := (written_iff _ _).1 hl
    subst this
    simpa using h n

theorem not_stays {s : Str} (h : ¬ Stays s) : resolve s = none := by
  cases hr : resolve s with
  | none => rfl
  | some p => exact absurd ((stays_iff s).2 ⟨p, hr⟩) h

theorem inDirectory_parts {d : Str} (hd : '/' ∉ d) (name : Str) : splitOn '/' (inDirectory d name) = d :: splitOn '/' name :=
  splitOn_append_sep '/' d name hd

theorem resolve_inDirectory {d : Str} (hd : Name d) {name : Str} {p : Path} (h : resolve name = some p) : resolve (inDirectory d name) = some (d :: p) := by
  unfold resolve at h ⊢
  rw [inDirectory_parts hd.slash]
  unfold normParts
  rw [if_neg (by rintro (e | e); exacts [hd.nonempty e, hd.here e]), if_neg hd.up]
  simpa using normParts_below _ _ _ [d] h

theorem dirOf_inDirectory {d : Str} (hd : Name d) {name : Str} {p : Path} (h : resolve name = some p) :
    dirOf (inDirectory d name) = d :: dirOf name := by
  obtain ⟨q, hq⟩ := normParts_take (splitOn '/' name).dropLast [(splitOn '/' name).getLast (splitOn_ne_nil _ _)] [] p
    (by rw [List.dropLast_append_getLast]; exact h)
  unfold dirOf
  rw [inDirectory_parts hd.slash, List.dropLast_cons_of_ne_nil (splitOn_ne_nil _ _), hq]
  unfold normParts
  rw [if_neg (by rintro (e | e); exacts [hd.nonempty e, hd.here e]), if_neg hd.up]
  have := normParts_below _ _ _ [d] hq
  simp only [List.nil_append, List.reverse_singleton] at this
  rw [this]
  rfl

theorem inDirectory_eq_join {d name : Str} : inDirectory d name = join c!"/" [d, name] := by
  simp [inDirectory, join]

theorem name_images : Name imagesName := ⟨by decide, by decide, by decide, by decide⟩

/-! ### the calls for names -/

theorem readBytesAt_join (fs : FS) {l : List Str} (hne : l ≠ []) (h : ∀ c ∈ l, Name c) : readBytesAt fs (join c!"/" l) = readBytesFromPath fs l := by
  unfold readBytesAt; rw [resolve_join hne h]

theorem writeBytesAt_join (hp : Bool) (fs : FS) {l : List Str} (hne : l ≠ []) (h : ∀ c ∈ l, Name c) (data : Bytes) :
    writeBytesAt hp fs (join c!"/" l) data = writeBytesToPath hp fs l data := by
  unfold writeBytesAt writeBytesToPath
  rw [resolve_join hne h, dirOf_join hne h]
  rfl

theorem removeAt_join (fs : FS) {l : List Str} (hne : l ≠ []) (h : ∀ c ∈ l, Name c) (force re : Bool) :
    removeAt fs (join c!"/" l) force re = removePath fs l force re := by
  unfold removeAt removePath
  rw [resolve_join hne h, dirOf_join hne h]
  rfl

theorem copyAt_join (src fs : FS) {l m : List Str} (hl : l ≠ []) (h : ∀ c ∈ l, Name c) (hm : m ≠ []) (h' : ∀ c ∈ m, Name c) :
    copyAt src fs (join c!"/" l) (join c!"/" m) = copyFromReader src fs l m := by
  unfold copyAt copyFromReader
  rw [resolve_join hl h]
  dsimp only
  rw [resolve_join hm h', dirOf_join hm h']
  rfl

theorem writeImageAt_name (w : Ufo.World) {name : Str} (h : Name name) (data : Bytes) (validate : Bool) :
    writeImageAt w name data validate = writeImage w name data validate := by
  unfold writeImageAt writeImage
  rw [inDirectory_eq_join, writeBytesAt_join _ _ (by simp) (by simpa using ⟨name_images, h⟩)]

theorem removeImageAt_name (w : Ufo.World) {name : Str} (h : Name name) : removeImageAt w name = removeImage w name := by
  unfold removeImageAt removeImage
  rw [inDirectory_eq_join, removeAt_join _ (by simp) (by simpa using ⟨name_images, h⟩)]

theorem copyImageAt_name (src : FS) (w : Ufo.World) {a b : Str} (ha : Name a) (hb : Name b) : copyImageAt src w a b = copyImageFromReader src w a b := by
  unfold copyImageAt copyImageFromReader
  rw [inDirectory_eq_join, inDirectory_eq_join,
    copyAt_join _ _ (by simp) (by simpa using ⟨name_images, ha⟩) (by simp) (by simpa using ⟨name_images, hb⟩)]

theorem readImageAt_name (fs : FS) (version : Int) {name : Str} (h : Name name) (validate : Bool) : readImageAt fs version name validate = readImage fs version name validate := by
  unfold readImageAt readImage
  rw [resolve_name h]
  rfl

theorem filesThere_names (fs : FS) (dir : Path) : ∀ (t : List (Str × Str)), (∀ e ∈ t, Name e.2) →
    filesThere fs dir t = .ok (!t.any fun e => !fs.exists (dir ++ [e.2]))
  | [], _ => rfl
  | e :: t, h => by
    unfold filesThere
    rw [resolve_name (h e (by simp))]
    dsimp only
    rw [filesThere_names fs dir t fun x hx => h x (by simp [hx]), List.any_cons]
    cases fs.exists (dir ++ [e.2]) <;> simp

theorem tableOf_mem : ∀ {d : List (PyVal × PyVal)} {t : Dict Str Str}, tableOf d = some t → ∀ e ∈ t, (PyVal.str e.1, PyVal.str e.2) ∈ d
  | [], t, h => by cases h; simp
  | (k, v) :: d, t, h => by
    unfold tableOf at h
    split at h
    · cases ‹(k, v) :: d = []›
    · rename_i a b c heq
      cases heq
      split at h
      · cases h
      · rename_i t' ht
        cases h
        intro e he
        rcases List.mem_cons.1 he with rfl | he
        · simp
        · exact List.mem_cons_of_mem _ (tableOf_mem ht e he)
    · cases h

theorem checkContentsAt_names (fs : FS) (dir : Path) (validate : Bool) (v : PyVal)
    (h : validate = true → ∀ d, v = .dict d → ∀ n f, (PyVal.str n, PyVal.str f) ∈ d → Name f) :
    checkContentsAt fs dir validate v = checkContents fs dir validate v := by
  unfold checkContentsAt checkContents
  cases v with
  | dict d =>
    dsimp only
    cases ht : tableOf d with
    | none => rfl
    | some t =>
      dsimp only
      cases validate with
      | false => rfl
      | true =>
        rw [if_pos rfl, filesThere_names fs dir t fun e he => h rfl d rfl _ _ (tableOf_mem ht e he)]
        cases t.any fun e => !fs.exists (dir ++ [e.2]) <;> rfl
  | _ => rfl

theorem rebuildContentsAt_names (F : FloatCodec) (gs : GlyphSet.GlyphSet) (fs : FS) (validate : Bool)
    (h : validate = true → ∀ d, getPlist F fs (gs.dir ++ [contentsName]) (some (.dict [])) = .ok (.dict d) → ∀ n f, (PyVal.str n, PyVal.str f) ∈ d → Name f) :
    rebuildContentsAt F gs fs validate = rebuildContents F gs fs validate := by
  unfold rebuildContentsAt rebuildContents
  cases hg : getPlist F fs (gs.dir ++ [contentsName]) (some (.dict [])) with
  | error e => rfl
  | ok v =>
    dsimp only
    rw [checkContentsAt_names fs gs.dir validate v fun hv d hd => h hv d (by rw [hg, hd])]
    rfl

theorem openGlyphSetAt_names (F : FloatCodec) (fs : FS) (dir : Path) (version : Nat) (validate : Bool)
    (h : validate = true → ∀ d, getPlist F fs (dir ++ [contentsName]) (some (.dict [])) = .ok (.dict d) → ∀ n f, (PyVal.str n, PyVal.str f) ∈ d → Name f) :
    openGlyphSetAt F fs dir version validate = openGlyphSet F fs dir version validate := by
  unfold openGlyphSetAt openGlyphSet
  split
  · exact rebuildContentsAt_names F _ fs validate h
  · rfl

theorem getGLIFAt_name {w : GlyphSet.World} {name : Str} (h : ∀ f, Dict.get? w.1.contents name = some f → Name f) : getGLIFAt w name = getGLIF w name := by
  unfold getGLIFAt getGLIF
  cases hg : Dict.get? w.1.contents name with
  | none => rfl
  | some f =>
    dsimp only
    rw [resolve_name (h f hg)]
    rfl

theorem deleteGlyphAt_name (L : Casing) {w : GlyphSet.World} {name : Str} (h : ∀ f, Dict.get? w.1.contents name = some f → Name f) :
    deleteGlyphAt L w name = deleteGlyph L w name := by
  unfold deleteGlyphAt deleteGlyph
  cases hg : Dict.get? w.1.contents name with
  | none => rfl
  | some f =>
    dsimp only
    rw [resolve_name (h f hg)]
    rfl

theorem assignFile_ok {L : Casing} {naming : Naming} {gs gs' : GlyphSet.GlyphSet} {name f : Str} (h : assignFile L naming gs name = (gs', .ok f)) :
    Dict.get? gs.contents name = some f ∨ ∃ ex, naming name ex = .ok f := by
  unfold assignFile at h
  split at h
  · rename_i g hg
    cases h; exact .inl hg
  · dsimp only at h
    split at h
    · cases h
    · rename_i g hg
      cases h; exact .inr ⟨_, hg⟩

theorem writeGlyphAt_name (L : Casing) (naming : Naming) {w : GlyphSet.World} {name : Str} (fv : Option Int) (data : Int → Except Exc Bytes)
    (h : ∀ f, Dict.get? w.1.contents name = some f → Name f) (hn : ∀ ex f, naming name ex = .ok f → Name f) :
    writeGlyphAt L naming w name fv data = writeGlyph L naming w name fv data := by
  unfold writeGlyphAt writeGlyph
  cases hv : glifVersion w.1 fv with
  | error e => rfl
  | ok v =>
    dsimp only
    cases ha : assignFile L naming w.1 name with
    | mk gs r =>
      cases r with
      | error e => rfl
      | ok f =>
        dsimp only
        cases data v with
        | error e => rfl
        | ok d =>
          have : Name f := by
            rcases assignFile_ok ha with h1 | ⟨ex, h1⟩
            exacts [h f h1, hn ex f h1]
          dsimp only
          rw [resolve_name this]

theorem layerEntries_names (fs : FS) : ∀ (l : List PyVal) (names dirs : List Str), (∀ n d, PyVal.list [.str n, .str d] ∈ l → Name d) →
    layerEntries (existsAt fs) names dirs l = layerEntries (dirExists fs) names dirs l
  | [], _, _, _ => rfl
  | v :: l, names, dirs, h => by
    have ih := fun names dirs => layerEntries_names fs l names dirs fun n d hd => h n d (by simp [hd])
    by_cases hv : ∃ n d, v = .list [.str n, .str d]
    · obtain ⟨n, d, rfl⟩ := hv
      have hx : existsAt fs d = dirExists fs d := by
        unfold existsAt dirExists
        rw [resolve_name (h n d (by simp))]
      simp only [layerEntries, hx, ih]
    · have no : ∀ (g : Str → Except Exc Bool), layerEntries g names dirs (v :: l) = .ok false := by
        intro g
        unfold layerEntries
        split
        · cases ‹v :: l = []›
        · rename_i a b c heq
          cases heq; exact absurd ⟨_, _, rfl⟩ hv
        · rfl
      rw [no, no]

theorem readLayerTableAt_names (F : FloatCodec) (fs : FS) (validate : Bool)
    (h : ∀ l, getPlist F fs [layercontentsName] none = .ok (.list l) → ∀ n d, PyVal.list [.str n, .str d] ∈ l → Name d) :
    readLayerTableAt F fs validate = readLayerTable F fs validate := by
  unfold readLayerTableAt readLayerTable
  cases hg : getPlist F fs [layercontentsName] none with
  | error e => rfl
  | ok v =>
    dsimp only
    have : layerContentsValidator (existsAt fs) v = layerContentsValidator (dirExists fs) v := by
      cases v with
      | list l => exact layerEntries_names fs l [] [] (h l hg)
      | _ => rfl
    rw [this]
    rfl

theorem layerEntriesOf_mem : ∀ {l : List PyVal} {t : List (Str × Str)}, layerEntriesOf l = .ok t → ∀ e ∈ t, PyVal.list [.str e.1, .str e.2] ∈ l
  | [], t, h => by cases h; simp
  | v :: l, t, h => by
    unfold layerEntriesOf at h
    split at h
    · cases ‹v :: l = []›
    · rename_i a b c heq
      cases heq
      split at h
      · cases h
      · rename_i t' ht
        cases h
        intro e he
        rcases List.mem_cons.1 he with rfl | he
        · simp
        · exact List.mem_cons_of_mem _ (layerEntriesOf_mem ht e he)
    · cases h

theorem readLayerTableAt_dirs {F : FloatCodec} {fs : FS} {validate : Bool} {t : List (Str × Str)} (h : readLayerTableAt F fs validate = .ok t) :
    ∃ l, getPlist F fs [layercontentsName] none = .ok (.list l) ∧ ∀ e ∈ t, PyVal.list [.str e.1, .str e.2] ∈ l := by
  unfold readLayerTableAt at h
  cases hg : getPlist F fs [layercontentsName] none with
  | error e => rw [hg] at h; cases h
  | ok v =>
    rw [hg] at h
    dsimp only at h
    split at h
    · cases h
    · cases h
    · split at h
      · rename_i l hl
        exact ⟨l, rfl, layerEntriesOf_mem h⟩
      · cases h

end Verif.PathNames
