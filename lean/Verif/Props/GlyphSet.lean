import Verif.Proofs.GlyphSetReopen
import Verif.Proofs.GlyphSetOwn
/-! Glyph sets: C51 to C56. -/
namespace Verif.Props
open Verif Verif.FS Verif.IO Verif.GlyphSet Verif.Spec.GlyphSet Verif.Spec.Plist Verif.Spec.FS

/-- An empty directory `glyphs` on a case sensitive file system. -/
def fs51 : FS := { canon := id, nodes := [([c!"glyphs"], .dir)], log := [] }

/-- A new glyph set in it. -/
def new51 : World :=
  ({ dir := [c!"glyphs"], contents := [], existing := none, reverse := none, havePrevious := false, version := 3, validateRead := true }, fs51)

/-- `writeGlyph` with the default naming function and the given GLIF text. -/
def put51 (n : Str) (d : Bytes) : Op := .write (defaultNaming asciiCasing) n none (fun _ => .ok d)

example : (openGlyphSet fractionCodec fs51 [c!"glyphs"] 3 true).toOption.isSome = true := by rfl

theorem expects_iff {w : World} {n : Str} {s : Status} : Expects (getGLIF w n) s ↔ Agrees w n s := by
  cases s with
  | unknown => exact Iff.rfl
  | absent =>
    show getGLIF w n = _ ↔ Dict.get? w.1.contents n = none
    unfold getGLIF
    cases h : Dict.get? w.1.contents n with
    | none => simp
    | some f =>
      simp only [reduceCtorEq, iff_false]
      unfold getbytes
      cases h2 : w.2.node? (w.1.dir ++ [f]) with
      | none => simp
      | some x => cases x <;> simp
  | holds d =>
    show getGLIF w n = _ ↔ ∃ f, Dict.get? w.1.contents n = some f ∧ _
    unfold getGLIF
    cases h : Dict.get? w.1.contents n with
    | none => simp
    | some f =>
      simp only [Option.some.injEq, exists_eq_left']
      unfold getbytes
      cases h2 : w.2.node? (w.1.dir ++ [f]) with
      | none => simp
      | some x => cases x <;> simp

/-- After every history of calls `getGLIF` gives the text last written, deleted and never written glyphs raise `KeyError`, and calls for other
glyphs do not matter, as long as the file system keeps the files of different glyphs apart. Missing from the full claim: this last condition does
not hold in every history (`C51_refuted`), and nothing is said of a glyph whose first `writeGlyph` or whose `deleteGlyph` failed. -/
theorem C51_history_partial (L : Casing) (F : FloatCodec) (w : World) (ops : List Op) (hops : ∀ op ∈ ops, ∀ v, op ≠ .rebuild v)
    (hd : ∀ pre, pre <+: ops → Distinct w.2.canon (run L F w pre).1.contents ∧ Avoids w.2.canon c!"contents.plist" (run L F w pre).1.contents)
    (n : Str) (s : Status) (hs : Expects (getGLIF w n) s) :
    Expects (getGLIF (run L F w ops) n) (s.history n (calls L F w ops)) :=
  expects_iff.2 (history_agrees ops w hops hd n s (expects_iff.1 hs))

theorem named_prefix {L : Casing} {F : FloatCodec} {Good : Str → Str → Prop} {w : World} {ops : List Op}
    (hops : ∀ op ∈ ops, ∀ v, op ≠ .rebuild v)
    (hn : ∀ op ∈ ops, ∀ naming n fv data, op = .write naming n fv data → Admissible L Good naming n)
    (h : Named L Good w.1) (pre : List Op) (hpre : pre <+: ops) : Named L Good (run L F w pre).1 :=
  run_named pre w (fun op ho => hops op (hpre.subset ho)) (fun op ho => hn op (hpre.subset ho)) h

theorem admissible_fresh {L : Casing} {naming : Naming} (h : FreshNaming L.lower naming) (n : Str) :
    Admissible L (fun _ f => L.lower f ≠ L.lower c!"contents.plist") naming n := by
  intro contents ex f hgood hex _ hf
  obtain ⟨h1, h2⟩ := h n ex f hf
  exact ⟨h1, fun m g hm => h2 g ((hex g).2 ⟨m, hm⟩)⟩

/-- The same for every naming function that avoids the file names in use ignoring case, on file systems that distinguish at least names that
differ ignoring case, starting with an empty glyph set. -/
theorem C51_fresh_partial (L : Casing) (F : FloatCodec) (fs : FS) (gs : GlyphSet) (ops : List Op)
    (hcanon : ∀ a b, fs.canon a = fs.canon b → L.lower a = L.lower b)
    (hempty : gs.contents = [] ∧ gs.existing = none ∧ gs.reverse = none)
    (hops : ∀ op ∈ ops, ∀ v, op ≠ .rebuild v)
    (hn : ∀ op ∈ ops, ∀ naming n fv data, op = .write naming n fv data → FreshNaming L.lower naming) (n : Str) :
    Expects (getGLIF (run L F (gs, fs) ops) n) (Status.absent.history n (calls L F (gs, fs) ops)) := by
  have h0 : Named L (fun _ f => L.lower f ≠ L.lower c!"contents.plist") gs := by
    obtain ⟨h1, h2, h3⟩ := hempty
    refine ⟨⟨by rw [h1]; exact Dict.wf_nil, fun ex h => (by rw [h2] at h; cases h), fun r h => (by rw [h3] at h; cases h)⟩, ?_, ?_⟩
    · intro a b f g ha; rw [h1] at ha; cases ha
    · intro m g hm; rw [h1] at hm; cases hm
  refine C51_history_partial L F (gs, fs) ops hops (fun pre hpre => ?_) n .absent ?_
  · have := named_prefix (F := F) (w := (gs, fs)) hops (fun op ho naming m fv data he => admissible_fresh (hn op ho naming m fv data he) m) h0 pre hpre
    exact ⟨fun a b f g ha hb hab => this.distinct a b f g ha hb (hcanon _ _ hab), fun m g hm h => this.good m g hm (hcanon _ _ h)⟩
  · exact expects_iff.2 (by show Dict.get? gs.contents n = none; rw [hempty.1]; rfl)

/-- A naming function that counts: the length of the longest existing name decides. -/
def longer51 : Naming := fun _ ex =>
  .ok (List.replicate ((Dict.keys ex).foldl (fun m f => max m f.length) c!"contents.plist".length + 1) '0')

theorem longer51_fresh : FreshNaming asciiCasing.lower longer51 := by
  intro n ex f h
  cases h
  have aux : ∀ (l : List Str) (m : Nat), m ≤ l.foldl (fun m f => max m f.length) m ∧ ∀ f ∈ l, f.length ≤ l.foldl (fun m f => max m f.length) m := by
    intro l
    induction l with
    | nil => intro m; simp
    | cons a l ih =>
      intro m
      obtain ⟨h1, h2⟩ := ih (max m a.length)
      refine ⟨Nat.le_trans (Nat.le_max_left _ _) h1, fun f hf => ?_⟩
      rcases List.mem_cons.1 hf with rfl | hf
      · exact Nat.le_trans (Nat.le_max_right _ _) h1
      · exact h2 f hf
  obtain ⟨h1, h2⟩ := aux (Dict.keys ex) c!"contents.plist".length
  refine ⟨fun he => ?_, fun g hg he => ?_⟩
  · have := congrArg List.length he
    simp only [asciiCasing, List.length_map, List.length_replicate] at this
    omega
  · have := congrArg List.length he
    have := h2 g hg
    simp only [asciiCasing, List.length_map, List.length_replicate] at *
    omega

example : ∃ d, getGLIF (run asciiCasing fractionCodec new51 [.write longer51 c!"a" none (fun _ => .ok [1]), .write longer51 c!"b" none (fun _ => .ok [2]),
    .delete c!"a", .write longer51 c!"b" (some 5) (fun _ => .ok [3])]) c!"b" = .ok d ∧ d = [2] := ⟨_, by rfl, rfl⟩

theorem named_new {L : Casing} {Good : Str → Str → Prop} {gs : GlyphSet} (hempty : gs.contents = [] ∧ gs.existing = none ∧ gs.reverse = none) :
    Named L Good gs := by
  obtain ⟨h1, h2, h3⟩ := hempty
  refine ⟨⟨by rw [h1]; exact Dict.wf_nil, fun ex h => (by rw [h2] at h; cases h), fun r h => (by rw [h3] at h; cases h)⟩, ?_, ?_⟩
  · intro a b f g ha; rw [h1] at ha; cases ha
  · intro m g hm; rw [h1] at hm; cases hm

/-- The same with the default naming function, for glyph names whose own files are different ignoring case. -/
theorem C51_default_partial (L : Casing) (hL : CaseLaws L.lower) (F : FloatCodec) (N : Str → Prop) (hN : OwnFiles L.lower N) (fs : FS) (gs : GlyphSet) (ops : List Op)
    (hcanon : ∀ a b, fs.canon a = fs.canon b → L.lower a = L.lower b)
    (hempty : gs.contents = [] ∧ gs.existing = none ∧ gs.reverse = none)
    (hops : ∀ op ∈ ops, ∀ v, op ≠ .rebuild v)
    (hn : ∀ op ∈ ops, ∀ naming n fv data, op = .write naming n fv data → naming = defaultNaming L ∧ N n) (n : Str) :
    Expects (getGLIF (run L F (gs, fs) ops) n) (Status.absent.history n (calls L F (gs, fs) ops)) := by
  refine C51_history_partial L F (gs, fs) ops hops (fun pre hpre => ?_) n .absent ?_
  · have := named_prefix (F := F) (w := (gs, fs)) hops (fun op ho naming m fv data he => by
      obtain ⟨h1, h2⟩ := hn op ho naming m fv data he
      rw [h1]; exact admissible_own hL hN h2) (named_new hempty) pre hpre
    exact ⟨fun a b f g ha hb hab => this.distinct a b f g ha hb (hcanon _ _ hab), fun m g hm h => own_avoids hL m g (this.good m g hm) (hcanon _ _ h)⟩
  · exact expects_iff.2 (by show Dict.get? gs.contents n = none; rw [hempty.1]; rfl)

instance (n : Str) : Decidable (SafeName n) :=
  if h : (∀ c ∈ n, SafeChar c) ∧ n ≠ [] ∧ n.head? ≠ some '.' ∧ n.length + (n.filter fun c => 'A' ≤ c ∧ c ≤ 'Z').length ≤ 250 then
    isTrue ⟨h.1, h.2.1, h.2.2.1, h.2.2.2⟩
  else isFalse fun g => h ⟨g.1, g.2, g.3, g.4⟩

theorem asciiCasing_ascii : AsciiCasing asciiCasing := fun _ _ => rfl

example : SafeName c!"A" ∧ SafeName c!"a" ∧ SafeName c!"AE.alt1" ∧ SafeName c!"con" := by decide

theorem asciiCasing_laws : CaseLaws asciiCasing.lower := by
  refine ⟨fun s => ?_, fun s c hc => ?_⟩
  · show (s.map asciiLowerChar).map asciiLowerChar = s.map asciiLowerChar
    rw [List.map_map]
    refine List.map_congr_left fun c _ => ?_
    show asciiLowerChar (asciiLowerChar c) = asciiLowerChar c
    by_cases h : c.toNat < 128
    · exact ascii_all (P := fun c => asciiLowerChar (asciiLowerChar c) = asciiLowerChar c) (by decide) c h
    · have : asciiLowerChar c = c := by
        unfold asciiLowerChar
        rw [if_neg]
        rintro ⟨-, h2⟩
        exact h (Nat.lt_of_le_of_lt (show c.toNat ≤ 'Z'.toNat from h2) (by decide))
      rw [this, this]
  · show ((s ++ [c]).map asciiLowerChar).getLast? = _
    rw [List.map_append, List.getLast?_append]
    rfl

/-- The names of a list have files of their own. -/
theorem own_list {L : Casing} (hL : AsciiCasing L) {names : List Str} (h1 : ∀ n ∈ names, n ≠ [] ∧ ∀ c ∈ n, c.toNat < 128)
    (h2 : ∀ n ∈ names, ∀ m ∈ names, (ownFile (List.map asciiLowerChar) n).map asciiLowerChar = (ownFile (List.map asciiLowerChar) m).map asciiLowerChar → n = m) :
    OwnFiles L.lower (· ∈ names) :=
  ascii_own hL (fun n hn => (h1 n hn).1) (fun n hn => (h1 n hn).2) fun n m hn hm => h2 n hn m hm

/-- Letters, digits and periods are enough (`safe_own`), and the names of ligatures, of variants and of other scripts are no problem in general. -/
example {L : Casing} (hL : AsciiCasing L) : OwnFiles L.lower SafeName ∧
    OwnFiles L.lower (· ∈ [c!"A", c!"a", c!"f_f_i", c!"T_h", c!"alef-ar.fina", c!".notdef", c!"A_B", c!"A:"]) :=
  ⟨safe_own hL, own_list hL (by decide +kernel) (by decide +kernel)⟩

/-- Names need not be ASCII. -/
example : OwnFiles asciiCasing.lower (· ∈ [c!"A", c!"ä", c!"ß.alt", c!"あ"]) := by
  refine ⟨by decide, ?_⟩
  have : ∀ n ∈ [c!"A", c!"ä", c!"ß.alt", c!"あ"], ∀ m ∈ [c!"A", c!"ä", c!"ß.alt", c!"あ"],
    asciiCasing.lower (ownFile asciiCasing.lower n) = asciiCasing.lower (ownFile asciiCasing.lower m) → n = m := by decide +kernel
  exact fun n m hn hm => this n hn m hm

example : let w := run asciiCasing fractionCodec new51 [put51 c!"A" [1], put51 c!"a" [2], put51 c!"con" [3], put51 c!"A" [4], .delete c!"a"]
    (getGLIF w c!"A").toOption = some [4] ∧ (getGLIF w c!"con").toOption = some [3] ∧ (getGLIF w c!"a").toOption = none ∧
    w.1.contents = [(c!"A", c!"A_.glif"), (c!"con", c!"_con.glif")] := by decide +kernel

/-- The full claim fails: with the default naming function the glyphs `A*` and `A_` are stored in the same file, and the text of the first is lost. -/
theorem C51_refuted : let w := run asciiCasing fractionCodec new51 [put51 c!"A*" [1], put51 c!"A_" [2]]
    getGLIF w c!"A*" = .ok [2] ∧
    Status.absent.history c!"A*" (calls asciiCasing fractionCodec new51 [put51 c!"A*" [1], put51 c!"A_" [2]]) = .holds [1] :=
  ⟨by rfl, by rfl⟩

/-- A glyph that is there is deleted successfully (and then absent, by the theorems above), when file names are distinct ignoring case throughout. -/
theorem C51_delete (L : Casing) (F : FloatCodec) (w : World) (ops : List Op) (hs : w.1.existing = none ∧ w.1.reverse = none ∧ Dict.WF w.1.contents)
    (hd : ∀ pre, pre <+: ops → Distinct L.lower (run L F w pre).1.contents) (n : Str) (d : Bytes) (h : getGLIF (run L F w ops) n = .ok d) :
    (deleteGlyph L (run L F w ops) n).2 = .ok () ∧ getGLIF (deleteGlyph L (run L F w ops) n).1 n = .error .keyError := by
  have hsound := run_sound (F := F) ops w ⟨hs.2.2, fun ex h => (by rw [hs.1] at h; cases h), fun r h => (by rw [hs.2.1] at h; cases h)⟩ hd
  obtain ⟨f, hf, hb⟩ := (expects_iff (s := .holds d)).1 h
  have hok : (deleteGlyph L (run L F w ops) n).2 = .ok () := by
    rcases deleteGlyph_outcome (w := run L F w ops) n hsound.cache hsound.reverse with h | h
    · exact h
    · have hspec := deleteGlyph_spec (L := L) (w := run L F w ops) (n := n) (w' := (deleteGlyph L (run L F w ops) n).1)
        (r := (deleteGlyph L (run L F w ops) n).2) rfl
      unfold deleteGlyph at h ⊢
      rw [hf] at h ⊢
      dsimp only at h ⊢
      rw [remove_of_getbytes hb] at h ⊢
      dsimp only at h ⊢
      have hlog : ∀ (g : GlyphSet) (p : Path), (g, (run L F w ops).2.perform (.remove p)) ≠ run L F w ops := by
        intro g p he
        have := congrArg (fun x : World => x.2.log.length) he
        simp [perform] at this
      split at h
      · exact absurd h (hlog _ _)
      · split at h
        · exact absurd h (hlog _ _)
        · rfl
  refine ⟨hok, (expects_iff (s := .absent)).2 ?_⟩
  have hspec := deleteGlyph_spec (L := L) (w := run L F w ops) (n := n) (w' := (deleteGlyph L (run L F w ops) n).1)
    (r := (deleteGlyph L (run L F w ops) n).2) rfl
  rcases hspec.2.2.2.2.1 with ⟨-, hc⟩ | ⟨hr, -⟩
  · show Dict.get? _ n = none
    rw [hc, Dict.get?_erase]; simp
  · exact absurd hok hr

example : let w := run asciiCasing fractionCodec new51 [put51 c!"A" [1], .reverse, put51 c!"a" [2]]
    (deleteGlyph asciiCasing w c!"A").2.toOption = some () ∧ (getGLIF w c!"A").toOption = some [1] := by decide +kernel

/-! ### C52 -/

/-- With a naming function that avoids the file names in use ignoring case, all file names are distinct ignoring case in every history. -/
theorem C52_fresh_partial (L : Casing) (F : FloatCodec) (w : World) (ops : List Op)
    (hempty : w.1.contents = [] ∧ w.1.existing = none ∧ w.1.reverse = none)
    (hops : ∀ op ∈ ops, ∀ v, op ≠ .rebuild v)
    (hn : ∀ op ∈ ops, ∀ naming n fv data, op = .write naming n fv data → FreshNaming L.lower naming) :
    Distinct L.lower (run L F w ops).1.contents :=
  (run_named ops w hops (fun op ho naming m fv data he => admissible_fresh (hn op ho naming m fv data he) m) (named_new hempty)).distinct

/-- With the default naming function, file names are distinct ignoring case in every history in which the own files of the glyph names are different ignoring case.
Missing from the full claim: other names, for which it is false (`C52_refuted`) unless there are no capitals (`C52_lower_partial`). -/
theorem C52_own_partial (L : Casing) (hL : CaseLaws L.lower) (F : FloatCodec) (N : Str → Prop) (hN : OwnFiles L.lower N) (w : World) (ops : List Op)
    (hempty : w.1.contents = [] ∧ w.1.existing = none ∧ w.1.reverse = none)
    (hops : ∀ op ∈ ops, ∀ v, op ≠ .rebuild v)
    (hn : ∀ op ∈ ops, ∀ naming n fv data, op = .write naming n fv data → naming = defaultNaming L ∧ N n) :
    Distinct L.lower (run L F w ops).1.contents ∧ ∀ n f, Dict.get? (run L F w ops).1.contents n = some f → N n ∧ f = ownFile L.lower n := by
  have := run_named (F := F) (Good := fun m f => N m ∧ f = ownFile L.lower m) ops w hops (fun op ho naming m fv data he => by
    obtain ⟨h1, h2⟩ := hn op ho naming m fv data he
    rw [h1]
    exact admissible_own hL hN h2) (named_new hempty)
  exact ⟨this.distinct, this.good⟩

/-- In particular for names made of ASCII letters, digits and periods, if they are not too long. -/
theorem C52_safe_partial (L : Casing) (hL : AsciiCasing L) (hC : CaseLaws L.lower) (F : FloatCodec) (w : World) (ops : List Op)
    (hempty : w.1.contents = [] ∧ w.1.existing = none ∧ w.1.reverse = none)
    (hops : ∀ op ∈ ops, ∀ v, op ≠ .rebuild v)
    (hn : ∀ op ∈ ops, ∀ naming n fv data, op = .write naming n fv data → naming = defaultNaming L ∧ SafeName n) :
    Distinct L.lower (run L F w ops).1.contents :=
  (C52_own_partial L hC F SafeName (safe_own hL) w ops hempty hops hn).1

/-- The same for histories in which glyph names are ASCII without capitals, with any other characters and of any length. -/
theorem C52_lower_partial (L : Casing) (hL : AsciiCasing L) (F : FloatCodec) (w : World) (ops : List Op)
    (hempty : w.1.contents = [] ∧ w.1.existing = none ∧ w.1.reverse = none)
    (hops : ∀ op ∈ ops, ∀ v, op ≠ .rebuild v)
    (hn : ∀ op ∈ ops, ∀ naming n fv data, op = .write naming n fv data → naming = defaultNaming L ∧ LowerAscii n) :
    Distinct L.lower (run L F w ops).1.contents := by
  refine (run_named (Good := fun _ f => LowerAscii f) ops w hops (fun op ho naming m fv data he => ?_) (named_new hempty)).distinct
  obtain ⟨h1, h2⟩ := hn op ho naming m fv data he
  rw [h1]
  exact admissible_lower hL h2

example : (run asciiCasing fractionCodec new51 [put51 c!"a*" [1], put51 c!"a_" [2], put51 c!"a:" [3]]).1.contents =
    [(c!"a*", c!"a_.glif"), (c!"a_", c!"a_000000000000001.glif"), (c!"a:", c!"a_000000000000002.glif")] := by decide +kernel

/-- The full claim fails: two glyphs get the same file name, and two others file names that differ only in case. -/
theorem C52_refuted : (run asciiCasing fractionCodec new51 [put51 c!"A*" [1], put51 c!"A_" [2], put51 c!"B" [3], put51 c!"b_" [4]]).1.contents =
    [(c!"A*", c!"A__.glif"), (c!"A_", c!"A__.glif"), (c!"B", c!"B_.glif"), (c!"b_", c!"b_.glif")] := by decide +kernel

/-! ### C53 -/

/-- A failing `writeGlyph` of a glyph that is in the glyph set changes nothing at all. Missing from the full claim: glyphs that are not yet in the
glyph set (`C53_refuted`). -/
theorem C53_existing_partial (L : Casing) (naming : Naming) (w : World) (n : Str) (fv : Option Int) (data : Int → Except Exc Bytes)
    (hn : n ∈ keys w.1) (e : Exc) (h : (writeGlyph L naming w n fv data).2 = .error e) : (writeGlyph L naming w n fv data).1 = w := by
  have hspec := writeGlyph_spec (L := L) (naming := naming) (w := w) (n := n) (fv := fv) (data := data)
    (w' := (writeGlyph L naming w n fv data).1) (r := (writeGlyph L naming w n fv data).2) rfl
  obtain ⟨f, hf⟩ := Dict.get?_isSome_of_mem hn
  rcases hspec.2.2.2.2.2 with ⟨h1, -⟩ | ⟨-, h2, h3⟩
  · rw [h] at h1; cases h1
  · rcases h3 with h3 | h3
    · rw [hf] at h3; cases h3
    · exact Prod.ext h3 h2

example : let w := run asciiCasing fractionCodec new51 [put51 c!"A" [1]]
    c!"A" ∈ keys w.1 ∧ (writeGlyph asciiCasing (defaultNaming asciiCasing) w c!"A" none (fun _ => .error .glifLibError)).2.toOption = none := by decide +kernel

/-- No failing `writeGlyph` changes any file or any other glyph. -/
theorem C53_others_partial (L : Casing) (naming : Naming) (w : World) (n : Str) (fv : Option Int) (data : Int → Except Exc Bytes)
    (e : Exc) (h : (writeGlyph L naming w n fv data).2 = .error e) :
    (writeGlyph L naming w n fv data).1.2 = w.2 ∧
    ∀ m, m ≠ n → Dict.get? (writeGlyph L naming w n fv data).1.1.contents m = Dict.get? w.1.contents m ∧
      getGLIF (writeGlyph L naming w n fv data).1 m = getGLIF w m := by
  have hspec := writeGlyph_spec (L := L) (naming := naming) (w := w) (n := n) (fv := fv) (data := data)
    (w' := (writeGlyph L naming w n fv data).1) (r := (writeGlyph L naming w n fv data).2) rfl
  rcases hspec.2.2.2.2.2 with ⟨h1, -⟩ | ⟨-, h2, -⟩
  · rw [h] at h1; cases h1
  · refine ⟨h2, fun m hm => ?_⟩
    have hc := hspec.2.2.2.2.1 m hm
    refine ⟨hc, ?_⟩
    unfold getGLIF
    rw [hc, h2, hspec.1]

/-- When the GLIF version is not supported, or the naming function raises, the table is unchanged as well. -/
theorem C53_early_partial (L : Casing) (naming : Naming) (w : World) (n : Str) (fv : Option Int) (data : Int → Except Exc Bytes)
    (h : (∃ v, fv = some v ∧ v ≠ 1 ∧ v ≠ 2) ∨ (fv = some 2 ∧ w.1.version < 3) ∨ (∀ ex, ∃ e, naming n ex = .error e)) :
    ((writeGlyph L naming w n fv data).1.1.contents = w.1.contents ∧ (writeGlyph L naming w n fv data).1.2 = w.2) ∨ n ∈ keys w.1 := by
  unfold writeGlyph
  cases hv : glifVersion w.1 fv with
  | error e => exact .inl ⟨rfl, rfl⟩
  | ok v =>
    rcases h with ⟨x, rfl, h1, h2⟩ | ⟨rfl, h2⟩ | h
    · simp [glifVersion, h1, h2] at hv
    · simp [glifVersion, h2] at hv
    · by_cases hn : n ∈ keys w.1
      · exact .inr hn
      · left
        dsimp only
        have : Dict.get? w.1.contents n = none := Dict.get?_eq_none_iff.2 hn
        unfold assignFile
        rw [this]
        dsimp only
        obtain ⟨e, he⟩ := h (w.1.existing.getD (existingOf L w.1.contents))
        rw [he]
        exact ⟨rfl, rfl⟩

/-- A `writeGlyph` call that fails because the glyph cannot be converted. -/
def fail53 (n : Str) : Op := .write (defaultNaming asciiCasing) n none (fun _ => .error .glifLibError)

/-- The full claim fails: a glyph whose first `writeGlyph` failed is listed, and after `writeContents` the directory can no longer be opened. -/
theorem C53_refuted : let w := run asciiCasing fractionCodec new51 [put51 c!"a" [1], fail53 c!"b", .save]
    keys w.1 = [c!"a", c!"b"] ∧ (getGLIF w c!"b").toOption = none ∧
    (openGlyphSet fractionCodec w.2 [c!"glyphs"] 3 true).toOption.isSome = false := by decide +kernel

/-! ### C54 -/

/-- In every history the mapping returned by `getReverseContents` is the reverse of the current table, when file names stay distinct ignoring case. -/
theorem C54_reverse (L : Casing) (F : FloatCodec) (w : World) (ops : List Op) (hs : w.1.existing = none ∧ w.1.reverse = none ∧ Dict.WF w.1.contents)
    (hd : ∀ pre, pre <+: ops → Distinct L.lower (run L F w pre).1.contents) (k n : Str) :
    Dict.get? (getReverseContents L (run L F w ops).1).2 k = some n ↔
      ∃ f, Dict.get? (run L F w ops).1.contents n = some f ∧ L.lower f = k := by
  have hsound := run_sound (F := F) ops w ⟨hs.2.2, fun ex h => (by rw [hs.1] at h; cases h), fun r h => (by rw [hs.2.1] at h; cases h)⟩ hd
  unfold getReverseContents
  split
  · rename_i r hr
    exact hsound.reverse r hr k n
  · exact get?_reversed hsound.wf (hd ops (List.prefix_refl ops)) k n

example : let w := run asciiCasing fractionCodec new51 [put51 c!"A" [1], .reverse, put51 c!"a" [2], .delete c!"A", put51 c!"AE" [3], .reverse]
    (getReverseContents asciiCasing w.1).2 = [(c!"a.glif", c!"a"), (c!"a_e_.glif", c!"AE")] := by decide +kernel

/-! ### C55 -/

/-- After `writeContents` the directory can be opened, in any format version and with or without validation, with the same table. Missing from the full
claim: names with characters a property list file cannot hold, and a table with glyphs whose files are missing (`C53_refuted`). -/
theorem C55_reopen_partial (F : FloatCodec) (hF : F.Lawful) (w : World) (hw : Dict.WF w.1.contents)
    (ht : ∀ n f, Dict.get? w.1.contents n = some f → FileText n ∧ FileText f)
    (hread : ∀ n ∈ keys w.1, ∃ d, getGLIF w n = .ok d)
    (hdir : w.2.isdir w.1.dir = true) (hfile : w.2.isdir (w.1.dir ++ [c!"contents.plist"]) = false)
    (version : Nat) (hv : version = 1 ∨ version = 2 ∨ version = 3) (validate : Bool) :
    (writeContents F w).2 = .ok () ∧
    ∃ gs, openGlyphSet F (writeContents F w).1.2 w.1.dir version validate = .ok gs ∧ Dict.Equiv gs.contents w.1.contents := by
  have hdir' : w.2.node? w.1.dir = some .dir := by
    unfold isdir at hdir; split at hdir <;> simp_all
  have hfile' : w.2.node? (w.1.dir ++ [contentsName]) ≠ some .dir := by
    intro h; unfold isdir at hfile; rw [show c!"contents.plist" = contentsName from rfl, h] at hfile; simp at hfile
  have hok := writeContents_ok F hF w hw ht hdir' hfile'
  refine ⟨hok, ?_⟩
  have hwp : writePlist F w.1.havePrevious w.2 (w.1.dir ++ [contentsName]) (contentsVal w.1.contents) = ((writeContents F w).1.2, .ok ()) :=
    Prod.ext rfl hok
  obtain ⟨-, -, h3⟩ := writePlist_spec hwp
  obtain ⟨data, h4, h5⟩ := h3 rfl
  refine open_saved F hF _ w.1.dir w.1.contents hw ht data h4 h5 (fun n f hn => exists_writePlist hwp ?_) version hv validate
  obtain ⟨d, hd⟩ := hread n (Dict.mem_keys_of_mem (Dict.mem_of_get? hn))
  obtain ⟨g, hg, hb⟩ := (expects_iff (s := .holds d)).1 hd
  rw [hn] at hg
  cases hg
  exact exists_of_getbytes hb

example : let w := run asciiCasing fractionCodec new51 [put51 c!"A" [1], put51 c!"a" [2], .save]
    (openGlyphSet fractionCodec w.2 [c!"glyphs"] 3 true).toOption.map (·.contents) = some [(c!"A", c!"A_.glif"), (c!"a", c!"a.glif")] := by decide +kernel

/-- If only glyphs are written after the table was saved, then wherever the process stops, also in the middle of writing a file, the directory can be
opened as it could be when the table was saved. Missing from the full claim: deletions (`C55_refuted_delete`) and stopping while the table itself is
being written (`C55_refuted_save`). -/
theorem C55_crash_partial (L : Casing) (F : FloatCodec) (w : World) (ops : List Op)
    (hops : ∀ op ∈ ops, (∃ naming n fv data, op = .write naming n fv data) ∨ op = .reverse)
    (hav : ∀ pre, pre <+: ops → Avoids w.2.canon c!"contents.plist" (run L F w pre).1.contents)
    (version : Nat) (validate : Bool) (gs : GlyphSet) (hopen : openGlyphSet F w.2 w.1.dir version validate = .ok gs) :
    ∃ acts, (run L F w ops).2 = performAll w.2 acts ∧
      ∀ fs, Stopped w.2 acts fs → openGlyphSet F fs w.1.dir version validate = .ok gs := by
  obtain ⟨acts, h1, h2⟩ := run_writes_acts (L := L) (F := F) ops w hops hav
  refine ⟨acts, h1, fun fs hfs => ?_⟩
  obtain ⟨h3, h4⟩ := stopped_glyphWrites h2 hfs
  rw [← hopen]
  unfold openGlyphSet at hopen ⊢
  split at hopen
  · rename_i hv
    rw [if_pos hv, if_pos hv]
    have hex : fs.exists (w.1.dir ++ [contentsName]) = w.2.exists (w.1.dir ++ [contentsName]) := by simp [FS.exists, h3]
    have hget : getPlist F fs (w.1.dir ++ [contentsName]) (some (.dict [])) = getPlist F w.2 (w.1.dir ++ [contentsName]) (some (.dict [])) := by
      simp [getPlist, getbytes_of_node? h3]
    unfold rebuildContents at hopen ⊢
    dsimp only at hopen ⊢
    rw [hget, hex]
    cases hp : getPlist F w.2 (w.1.dir ++ [contentsName]) (some (.dict [])) with
    | error e => rfl
    | ok v =>
      rw [hp] at hopen
      dsimp only at hopen ⊢
      have hcheck : checkContents fs w.1.dir validate v = checkContents w.2 w.1.dir validate v := by
        cases hc : checkContents w.2 w.1.dir validate v with
        | error e => rw [hc] at hopen; cases hopen
        | ok t =>
          unfold checkContents at hc ⊢
          split at hc
          · cases htab : tableOf _ with
            | none => rw [htab] at hc; cases hc
            | some t' =>
              rw [htab] at hc
              dsimp only at hc ⊢
              split at hc
              · cases hc
              · rename_i hany
                rw [if_neg]
                · exact hc
                · intro hany'
                  apply hany
                  rw [Bool.and_eq_true] at hany' ⊢
                  refine ⟨hany'.1, ?_⟩
                  rw [List.any_eq_true] at hany' ⊢
                  obtain ⟨e, he, he2⟩ := hany'.2
                  refine ⟨e, he, ?_⟩
                  cases hq : w.2.exists (w.1.dir ++ [e.2]) with
                  | false => rfl
                  | true => rw [h4 _ hq] at he2; simp at he2
          · cases hc
      rw [hcheck]
  · cases hopen

/-- The example glyph set after a save. -/
def saved55 : World := run asciiCasing fractionCodec new51 [put51 c!"A" [1], put51 c!"a" [2], .save]

example : (openGlyphSet fractionCodec saved55.2 [c!"glyphs"] 3 true).toOption.isSome = true := by decide +kernel

/-- The full claim fails for deletions: between `deleteGlyph` and `writeContents` the directory cannot be opened. -/
theorem C55_refuted_delete : let w := run asciiCasing fractionCodec saved55 [.delete c!"A"]
    (openGlyphSet fractionCodec w.2 [c!"glyphs"] 3 true).toOption.isSome = false := by decide +kernel

/-- The text of the table after one more glyph. -/
def data55 : Bytes :=
  ((dumpBytes fractionCodec (contentsVal [(c!"A", c!"A_.glif"), (c!"a", c!"a.glif"), (c!"b", c!"b.glif")])).toOption).getD []

/-- The full claim fails while the table is being written: the file is not replaced as a whole. -/
theorem C55_refuted_save : let w := run asciiCasing fractionCodec saved55 [put51 c!"b" [3]]
    ∃ acts fs, (writeContents fractionCodec w).1.2 = performAll w.2 acts ∧ Stopped w.2 acts fs ∧
      (openGlyphSet fractionCodec fs [c!"glyphs"] 3 true).toOption.isSome = false := by
  exact ⟨[.write [c!"glyphs", c!"contents.plist"] [], .write [c!"glyphs", c!"contents.plist"] data55], _, by rfl, .between 1, by decide +kernel⟩

/-! ### C56 -/

/-- A property list is not written again when the file holds the same data. -/
theorem C56_plist (F : FloatCodec) (fs : FS) (p : Path) (v : PyVal) (data : Bytes) (hd : dumpBytes F v = .ok data) (hf : fs.getbytes p = .ok data) :
    writePlist F true fs p v = (fs, .ok ()) := by
  simp [writePlist, hd, unchanged_iff.2 hf]

/-- Writing glyphs again with the data they have changes nothing, in a glyph set that was there before. -/
theorem C56_glyphs (L : Casing) (F : FloatCodec) (w : World) (hp : w.1.havePrevious = true) (ops : List Op)
    (hops : ∀ op ∈ ops, ∃ naming n fv data d, op = .write naming n fv data ∧ getGLIF w n = .ok d ∧ ∀ v, data v = .ok d) :
    run L F w ops = w := by
  induction ops with
  | nil => rfl
  | cons op ops ih =>
    obtain ⟨naming, n, fv, data, d, rfl, hg, hd⟩ := hops op (by simp)
    obtain ⟨f, hf, hb⟩ := (expects_iff (s := .holds d)).1 hg
    have hstep : (step L F w (.write naming n fv data)).1 = w := by
      show (writeGlyph L naming w n fv data).1 = w
      unfold writeGlyph
      split
      · rfl
      · have ha : assignFile L naming w.1 n = (w.1, .ok f) := by simp [assignFile, hf]
        rw [ha]
        dsimp only
        rw [hd]
        dsimp only
        simp [storeGlyph, hp, unchanged_iff.2 hb]
    show run L F (step L F w (.write naming n fv data)).1 ops = w
    rw [hstep]
    exact ih fun o ho => hops o (by simp [ho])

example : ∃ gs, openGlyphSet fractionCodec saved55.2 [c!"glyphs"] 3 true = .ok gs ∧ gs.havePrevious = true ∧ (getGLIF (gs, saved55.2) c!"A").toOption = some [1] := by
  have h1 : (openGlyphSet fractionCodec saved55.2 [c!"glyphs"] 3 true).toOption.map (fun gs => (gs.havePrevious, (getGLIF (gs, saved55.2) c!"A").toOption)) =
      some (true, some [1]) := by decide +kernel
  cases h : openGlyphSet fractionCodec saved55.2 [c!"glyphs"] 3 true with
  | error e => rw [h] at h1; simp [Except.toOption] at h1
  | ok gs =>
    rw [h] at h1
    simp [Except.toOption] at h1
    exact ⟨gs, rfl, h1⟩

end Verif.Props
