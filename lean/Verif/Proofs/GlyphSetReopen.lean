import Verif.Proofs.GlyphSetDefault
import Verif.Proofs.Stored
import Verif.Proofs.PlistFile
import Verif.Spec.FS
/-! Saving the table of a glyph set and opening the directory again. -/
namespace Verif.GlyphSet
open Verif Verif.FS Verif.IO Verif.Spec.GlyphSet Verif.Spec.Plist Verif.Spec.FS

/-! ### the table in a property list -/

theorem same_str {s : Str} {v : PyVal} (h : Same (.str s) v) : v = .str s := by cases h; rfl

theorem sameItems_strings {a b : List (PyVal × PyVal)} (h : SameItems a b) (ha : ∀ p ∈ a, ∃ s, p.2 = .str s) : a.Perm b := by
  match h with
  | .nil => exact .nil
  | .cons k v w a b hvw hab =>
    obtain ⟨s, hs⟩ := ha (k, v) (by simp)
    dsimp only at hs
    subst hs
    rw [same_str hvw]
    exact (sameItems_strings hab (fun p hp => ha p (by simp [hp]))).cons _
  | .swap x y a => exact .swap y x a
  | .trans a b c h1 h2 =>
    have h3 := sameItems_strings h1 ha
    exact h3.trans (sameItems_strings h2 (fun p hp => ha p (h3.mem_iff.2 hp)))

theorem tableOf_strings (t : Dict Str Str) : tableOf (t.map fun e => (PyVal.str e.1, PyVal.str e.2)) = some t := by
  induction t with
  | nil => rfl
  | cons e t ih => simp only [List.map_cons, tableOf, ih]

theorem perm_strings {t : Dict Str Str} {b : List (PyVal × PyVal)} (h : (t.map fun e => (PyVal.str e.1, PyVal.str e.2)).Perm b) :
    ∃ t' : Dict Str Str, b = t'.map (fun e => (PyVal.str e.1, PyVal.str e.2)) ∧ t.Perm t' := by
  have hall : ∀ p ∈ b, ∃ e : Str × Str, p = (PyVal.str e.1, PyVal.str e.2) := by
    intro p hp
    obtain ⟨e, -, he⟩ := List.mem_map.1 (h.mem_iff.2 hp)
    exact ⟨e, he.symm⟩
  have hex : ∃ t' : Dict Str Str, b = t'.map (fun e => (PyVal.str e.1, PyVal.str e.2)) := by
    clear h
    induction b with
    | nil => exact ⟨[], rfl⟩
    | cons p b ih =>
      obtain ⟨e, he⟩ := hall p (by simp)
      obtain ⟨t', ht'⟩ := ih (fun q hq => hall q (by simp [hq]))
      exact ⟨e :: t', by rw [List.map_cons, ht', he]⟩
  obtain ⟨t', rfl⟩ := hex
  refine ⟨t', rfl, ?_⟩
  have := h.filterMap (fun p : PyVal × PyVal => match p with
    | (.str a, .str b) => some ((a, b) : Str × Str)
    | _ => none)
  simpa [List.filterMap_map, Function.comp_def] using this

theorem untupleItems_strings (t : Dict Str Str) :
    untupleItems (t.map fun e => (PyVal.str e.1, PyVal.str e.2)) = t.map fun e => (PyVal.str e.1, PyVal.str e.2) := by
  induction t with
  | nil => rfl
  | cons e t ih => simp only [List.map_cons, untupleItems, untuple, ih]

theorem representable_strings (t : Dict Str Str) (ht : ∀ e ∈ t, FileText e.1 ∧ FileText e.2) :
    RepresentableItems FileText (t.map fun e => (PyVal.str e.1, PyVal.str e.2)) := by
  induction t with
  | nil => exact .nil
  | cons e t ih =>
    have := ht e (by simp)
    exact .cons _ _ _ this.1 (.str _ this.2) (ih fun x hx => ht x (by simp [hx]))

theorem wellFormed_strings (t : Dict Str Str) (ht : Dict.WF t) : WellFormed (contentsVal t) := by
  refine ⟨?_, ?_⟩
  · rw [List.map_map]
    have : (Prod.fst ∘ fun e : Str × Str => (PyVal.str e.1, PyVal.str e.2)) = PyVal.str ∘ Prod.fst := rfl
    rw [this, ← List.map_map]
    exact List.Nodup.map (fun a b h => by injection h) ht
  · clear ht
    induction t with
    | nil => trivial
    | cons e t ih => exact ⟨trivial, ih⟩

theorem foldl_set_perm (t : Dict Str Str) (ht : Dict.WF t) :
    Dict.Equiv (t.foldl (fun d e => Dict.set d e.1 e.2) []) t := by
  intro k
  cases hk : Dict.get? t k with
  | none =>
    rw [foldl_set_get? (fun e : Str × Str => e.1) (fun e => e.2)]
    · rfl
    · intro a ha hak
      have := Dict.get?_of_mem ht ha
      rw [hak, hk] at this
      cases this
  | some v =>
    refine foldl_set_mem (fun e : Str × Str => e.1) (fun e => e.2) t v k ?_ [] ⟨(k, v), Dict.mem_of_get? hk, rfl⟩
    intro a ha hak
    have := Dict.get?_of_mem ht ha
    rw [hak, hk] at this
    injection this with this
    exact this.symm

/-- A table that has been dumped is loaded again. -/
theorem load_contents (F : FloatCodec) (hF : F.Lawful) (t : Dict Str Str) (hw : Dict.WF t)
    (ht : ∀ n f, Dict.get? t n = some f → FileText n ∧ FileText f) :
    ∃ data d t', dumpBytes F (contentsVal t) = .ok data ∧ loadBytes F data = .ok (.dict d) ∧ tableOf d = some t' ∧ t.Perm t' := by
  obtain ⟨s, v, h1, h2, h3⟩ := Plist.loads_dumps F hF true (contentsVal t)
    (.dict _ (representable_strings t fun e he => ht _ _ (Dict.get?_of_mem hw he))) (wellFormed_strings t hw)
  have hv : ∃ d, v = .dict d ∧ (t.map fun e => (PyVal.str e.1, PyVal.str e.2)).Perm d := by
    rw [show untuple (contentsVal t) = .dict (untupleItems (t.map fun e => (PyVal.str e.1, PyVal.str e.2))) from rfl, untupleItems_strings] at h3
    generalize hd : PyVal.dict (t.map fun e => (PyVal.str e.1, PyVal.str e.2)) = x at h3
    cases h3 with
    | refl => exact ⟨_, hd.symm, .refl _⟩
    | list => cases hd
    | tuple => cases hd
    | dict a b h =>
      cases hd
      exact ⟨b, rfl, sameItems_strings h (fun p hp => by obtain ⟨e, -, rfl⟩ := List.mem_map.1 hp; exact ⟨_, rfl⟩)⟩
  obtain ⟨d, rfl, hd⟩ := hv
  obtain ⟨t', rfl, htt⟩ := perm_strings hd
  refine ⟨utf8 s, _, t', ?_, ?_, tableOf_strings t', htt⟩
  · simp [dumpBytes, h1]
  · simp [loadBytes, utf8Decode_utf8, h2]

theorem contentsName_path (dir : Path) : dir ++ [contentsName] ≠ [] := by simp

/-- Opening a directory whose `contents.plist` holds the dumped table. -/
theorem open_saved (F : FloatCodec) (hF : F.Lawful) (fs : FS) (dir : Path) (t : Dict Str Str) (hw : Dict.WF t)
    (ht : ∀ n f, Dict.get? t n = some f → FileText n ∧ FileText f)
    (data : Bytes) (hdata : dumpBytes F (contentsVal t) = .ok data)
    (hfile : fs.getbytes (dir ++ [contentsName]) = .ok data) (hex : ∀ n f, Dict.get? t n = some f → fs.exists (dir ++ [f]) = true)
    (version : Nat) (hv : version = 1 ∨ version = 2 ∨ version = 3) (validate : Bool) :
    ∃ gs, openGlyphSet F fs dir version validate = .ok gs ∧ Dict.Equiv gs.contents t := by
  obtain ⟨data', d, t', h1, h2, h3, h4⟩ := load_contents F hF t hw ht
  rw [hdata] at h1
  cases h1
  have hw' := Dict.wf_perm hw h4
  have hplist : getPlist F fs (dir ++ [contentsName]) (some (.dict [])) = .ok (.dict d) := by
    simp [getPlist, hfile, h2]
  have hall : t'.any (fun e => !fs.exists (dir ++ [e.2])) = false := by
    rw [List.any_eq_false]
    intro e he
    have := hex e.1 e.2 (Dict.get?_of_mem hw (h4.mem_iff.2 he))
    simp [this]
  have hcheck : checkContents fs dir validate (.dict d) = .ok (t'.foldl (fun d e => Dict.set d e.1 e.2) []) := by
    simp [checkContents, h3, hall]
  refine ⟨?_, ?_, ?_⟩
  · exact { dir := dir, contents := t'.foldl (fun d e => Dict.set d e.1 e.2) [], existing := none, reverse := none,
            havePrevious := fs.exists (dir ++ [contentsName]), version := version, validateRead := validate }
  · unfold openGlyphSet rebuildContents
    rw [if_pos hv]
    dsimp only
    rw [hplist]
    dsimp only
    rw [hcheck]
  · intro k
    rw [foldl_set_perm t' hw' k]
    exact (Dict.get?_perm hw h4 k).symm

/-- Saving succeeds when the table can be represented and there is a directory to write to. -/
theorem writeContents_ok (F : FloatCodec) (hF : F.Lawful) (w : World) (hw : Dict.WF w.1.contents)
    (ht : ∀ n f, Dict.get? w.1.contents n = some f → FileText n ∧ FileText f)
    (hdir : w.2.node? w.1.dir = some .dir) (hfile : w.2.node? (w.1.dir ++ [contentsName]) ≠ some .dir) :
    (writeContents F w).2 = .ok () := by
  obtain ⟨data, -, -, h1, -⟩ := load_contents F hF w.1.contents hw ht
  have hset : ∀ x, w.2.setbytes (w.1.dir ++ [contentsName]) x = .ok (w.2.perform (.write (w.2.key (w.1.dir ++ [contentsName])) x)) :=
    fun x => setbytes_of x (by rw [List.dropLast_concat]; exact hdir) hfile
  unfold writeContents writePlist
  dsimp only
  cases w.1.havePrevious with
  | true =>
    simp only [if_true, h1, hset]
    split <;> rfl
  | false =>
    simp only [Bool.false_eq_true, if_false, h1, hset]
    rw [setbytes_of]
    · rw [List.dropLast_concat, node?_write _ _ _ _ (by simp)]
      rw [if_neg]
      · exact hdir
      · intro h
        have := congrArg List.length h
        simp [key] at this
    · rw [node?_write _ _ _ _ (by simp)]; simp

theorem exists_writePlist {F : FloatCodec} {hp : Bool} {fs fs' : FS} {p : Path} {v : PyVal} {q : Path}
    (h : writePlist F hp fs p v = (fs', .ok ())) (hq : fs.exists q = true) : fs'.exists q = true := by
  obtain ⟨hc, h1, h2⟩ := writePlist_spec h
  obtain ⟨data, -, h3⟩ := h2 rfl
  by_cases hk : fs.key q = fs.key p
  · have : fs'.key q = fs'.key p := by simpa [key, hc] using hk
    rw [← getbytes_eq this] at h3
    exact exists_of_getbytes h3
  · rw [FS.exists, h1 q hk]; exact hq

/-! ### writes after saving -/

theorem performAll_canon (acts : List Prim) : ∀ fs : FS, (performAll fs acts).canon = fs.canon := by
  induction acts with
  | nil => exact fun _ => rfl
  | cons a acts ih => exact fun fs => ih _

theorem performAll_append (fs : FS) (a b : List Prim) : performAll fs (a ++ b) = performAll (performAll fs a) b := by
  simp [performAll]

/-- A write of a file of the directory other than `contents.plist`. -/
def GlyphWrite (canon : Str → Str) (dir : Path) (a : Prim) : Prop :=
  ∃ f d, a = .write ((dir ++ [f]).map canon) d ∧ canon f ≠ canon contentsName

theorem perform_glyphWrite {fs : FS} {dir : Path} {a : Prim} (h : GlyphWrite fs.canon dir a) :
    (fs.perform a).node? (dir ++ [contentsName]) = fs.node? (dir ++ [contentsName]) ∧
    (∀ q, fs.exists q = true → (fs.perform a).exists q = true) := by
  obtain ⟨f, d, rfl, hf⟩ := h
  have hn := fun q => node?_write fs (dir ++ [f]) q d (by simp)
  refine ⟨?_, fun q hq => ?_⟩
  · have := hn (dir ++ [contentsName])
    rw [if_neg (by rw [key_snoc]; exact fun h => hf h.symm)] at this
    exact this
  · have := hn q
    rw [exists_iff]
    by_cases hk : fs.key q = fs.key (dir ++ [f])
    · rw [if_pos hk] at this
      exact ⟨_, this⟩
    · rw [if_neg hk] at this
      obtain ⟨n, hn⟩ := exists_iff.1 hq
      exact ⟨n, this.trans hn⟩

theorem performAll_glyphWrites {dir : Path} (acts : List Prim) : ∀ fs : FS, (∀ a ∈ acts, GlyphWrite fs.canon dir a) →
    (performAll fs acts).node? (dir ++ [contentsName]) = fs.node? (dir ++ [contentsName]) ∧
    (∀ q, fs.exists q = true → (performAll fs acts).exists q = true) := by
  induction acts with
  | nil => exact fun fs _ => ⟨rfl, fun _ h => h⟩
  | cons a acts ih =>
    intro fs h
    obtain ⟨h1, h2⟩ := perform_glyphWrite (h a (by simp))
    obtain ⟨h3, h4⟩ := ih (fs.perform a) (fun b hb => h b (by simp [hb]))
    exact ⟨h3.trans h1, fun q hq => h4 q (h2 q hq)⟩

theorem stopped_glyphWrites {dir : Path} {fs fs' : FS} {acts : List Prim} (h : ∀ a ∈ acts, GlyphWrite fs.canon dir a)
    (hs : Stopped fs acts fs') :
    fs'.node? (dir ++ [contentsName]) = fs.node? (dir ++ [contentsName]) ∧ (∀ q, fs.exists q = true → fs'.exists q = true) := by
  cases hs with
  | between k => exact performAll_glyphWrites _ fs (fun a ha => h a (List.mem_of_mem_take ha))
  | torn k j p d hk =>
    obtain ⟨h1, h2⟩ := performAll_glyphWrites (acts.take k) fs (fun a ha => h a (List.mem_of_mem_take ha))
    obtain ⟨f, d', hf, hne⟩ := h _ (List.mem_of_getElem? hk)
    cases hf
    obtain ⟨h3, h4⟩ := perform_glyphWrite (fs := performAll fs (acts.take k)) (dir := dir)
      (a := .write ((dir ++ [f]).map fs.canon) (d.take j)) ⟨f, d.take j, by rw [performAll_canon], by rw [performAll_canon]; exact hne⟩
    exact ⟨h3.trans h1, fun q hq => h4 q (h2 q hq)⟩

theorem writeGlyph_acts {L : Casing} {naming : Naming} {w : World} {n : Str} {fv : Option Int} {data : Int → Except Exc Bytes} :
    ∃ acts, (writeGlyph L naming w n fv data).1.2 = performAll w.2 acts ∧
      ∀ a ∈ acts, ∃ f d, a = .write ((w.1.dir ++ [f]).map w.2.canon) d ∧ Dict.get? (writeGlyph L naming w n fv data).1.1.contents n = some f := by
  unfold writeGlyph
  split
  · exact ⟨[], rfl, by simp⟩
  · split
    · exact ⟨[], rfl, by simp⟩
    · rename_i gs f ha
      have hget := (assignFile_ok ha).1
      have hdir := (assignFile_dir ha).1
      split
      · exact ⟨[], rfl, by simp⟩
      · rename_i d hd
        dsimp only
        unfold storeGlyph
        split
        · exact ⟨[], rfl, by simp⟩
        · split
          · exact ⟨[], rfl, by simp⟩
          · rename_i fs1 h1
            obtain ⟨rfl, -⟩ := setbytes_ok h1
            exact ⟨[.write (w.2.key (gs.dir ++ [f])) d], rfl, by
              intro a ha
              simp at ha
              exact ⟨f, d, by rw [ha, hdir]; rfl, hget⟩⟩

theorem run_writes_acts {L : Casing} {F : FloatCodec} (ops : List Op) : ∀ (w : World),
    (∀ op ∈ ops, (∃ naming n fv data, op = .write naming n fv data) ∨ op = .reverse) →
    (∀ pre, pre <+: ops → Avoids w.2.canon contentsName (run L F w pre).1.contents) →
    ∃ acts, (run L F w ops).2 = performAll w.2 acts ∧ ∀ a ∈ acts, GlyphWrite w.2.canon w.1.dir a := by
  induction ops with
  | nil => exact fun w _ _ => ⟨[], rfl, by simp⟩
  | cons op ops ih =>
    intro w hop hav
    have hcanon := step_canon (L := L) (F := F) (w := w) (op := op)
    obtain ⟨acts, h1, h2⟩ := ih (step L F w op).1 (fun o ho => hop o (by simp [ho]))
      (fun pre hpre => by rw [hcanon]; exact hav (op :: pre) (by simpa using hpre))
    rcases hop op (by simp) with ⟨naming, n, fv, data, rfl⟩ | rfl
    · obtain ⟨acts0, h3, h4⟩ := writeGlyph_acts (L := L) (naming := naming) (w := w) (n := n) (fv := fv) (data := data)
      have hdir : (step L F w (.write naming n fv data)).1.1.dir = w.1.dir :=
        (writeGlyph_spec (w := w) (naming := naming) (fv := fv) (data := data) (n := n)
          (w' := (writeGlyph L naming w n fv data).1) (r := (writeGlyph L naming w n fv data).2) rfl).1
      have hav1 := hav [.write naming n fv data] (List.prefix_append _ ops)
      refine ⟨acts0 ++ acts, ?_, fun a ha => ?_⟩
      · show (run L F (step L F w (.write naming n fv data)).1 ops).2 = _
        rw [h1, performAll_append, ← h3]; rfl
      · rcases List.mem_append.1 ha with ha | ha
        · obtain ⟨f, d, hd, hf⟩ := h4 a ha
          exact ⟨f, d, hd, hav1 n f hf⟩
        · have := h2 a ha
          rw [hcanon, hdir] at this
          exact this
    · refine ⟨acts, h1, fun a ha => ?_⟩
      have := h2 a ha
      rw [hcanon] at this
      have hdir : (step L F w .reverse).1.1.dir = w.1.dir := by
        show (getReverseContents L w.1).1.dir = _
        unfold getReverseContents
        split <;> rfl
      rw [hdir] at this
      exact this

end Verif.GlyphSet
