import Verif.Proofs.GlifRename
import Verif.Proofs.GlyphSetOwn
import Verif.Spec.Copy
/-! Many glyphs written one after the other. -/
namespace Verif.GlyphSet
open Verif Verif.FS Verif.IO Verif.Spec.GlyphSet Verif.Spec.Copy

theorem flat_store {hp : Bool} {fs : FS} {dir : Path} (h : Flat fs dir) (f : Str) (d : Bytes) :
    (storeGlyph hp fs (dir ++ [f]) d).2 = .ok () ∧ Flat (storeGlyph hp fs (dir ++ [f]) d).1 dir := by
  have hok : (storeGlyph hp fs (dir ++ [f]) d).2 = .ok () := by
    unfold storeGlyph
    split
    · rfl
    · rw [setbytes_of d (by rw [List.dropLast_concat]; exact h.1) (h.2 f)]
  refine ⟨hok, ?_⟩
  obtain ⟨h1, h2, h3⟩ := storeGlyph_spec (hp := hp) (fs := fs) (p := dir ++ [f]) (d := d) (fs' := (storeGlyph hp fs (dir ++ [f]) d).1) (by simp) rfl
  have hb : (storeGlyph hp fs (dir ++ [f]) d).1.getbytes (dir ++ [f]) = .ok d := by
    rcases h3 with h3 | h3
    · exact h3.2
    · exact absurd hok h3.2
  refine ⟨?_, fun g => ?_⟩
  · rw [h2 dir (by
      intro hk
      have := congrArg List.length hk
      simp [FS.key] at this)]
    exact h.1
  · by_cases hk : fs.key (dir ++ [g]) = fs.key (dir ++ [f])
    · intro hn
      have : (storeGlyph hp fs (dir ++ [f]) d).1.node? (dir ++ [f]) = some .dir := by
        rw [← hn]
        unfold FS.node?
        simp only [FS.key] at hk ⊢
        rw [h1, ← hk]
        simp
      unfold FS.getbytes at hb
      rw [this] at hb
      cases hb
    · rw [h2 _ hk]
      exact h.2 g

/-- The naming function gives the glyph `n` a file name. -/
def Total (Good : Str → Str → Prop) (naming : Naming) (n : Str) : Prop :=
  ∀ (contents ex : Dict Str Str), (∀ m g, Dict.get? contents m = some g → Good m g) →
    (∀ g, g ∈ Dict.keys ex ↔ ∃ m, Dict.get? contents m = some g) → Dict.get? contents n = none → ∃ f, naming n ex = .ok f

theorem total_own {L : Casing} (hL : CaseLaws L.lower) {N : Str → Prop} (hN : OwnFiles L.lower N) {n : Str} (hn : N n) :
    Total (fun m f => N m ∧ f = ownFile L.lower m) (defaultNaming L) n := by
  intro contents ex hgood hex hnone
  exact ⟨_, defaultNaming_own (hN.nonempty n hn) ex (own_free hL hN hn hgood hex hnone)⟩

theorem assignFile_total {L : Casing} {Good : Str → Str → Prop} {naming : Naming} {gs : GlyphSet} {n : Str} (ht : Total Good naming n) (h : Named L Good gs)
    (hnone : Dict.get? gs.contents n = none) : ∃ f, (assignFile L naming gs n).2 = .ok f ∧ (assignFile L naming gs n).1.contents = gs.contents ++ [(n, f)] := by
  obtain ⟨f, hf⟩ := ht gs.contents (gs.existing.getD (existingOf L gs.contents)) h.good (by
    cases he : gs.existing with
    | none => exact fun f => mem_existingOf h.sound.wf
    | some ex => exact h.sound.cache ex he) hnone
  refine ⟨f, ?_, ?_⟩
  · unfold assignFile
    rw [hnone]
    dsimp only
    rw [hf]
  · unfold assignFile
    rw [hnone]
    dsimp only
    rw [hf]
    dsimp only
    have aux : ∀ t : Dict Str Str, Dict.get? t n = none → Dict.set t n f = t ++ [(n, f)] := by
      intro t
      induction t with
      | nil => intro _; rfl
      | cons e t ih =>
        obtain ⟨k, v⟩ := e
        intro ht
        rw [Dict.get?_cons] at ht
        split at ht
        · cases ht
        · rename_i hk
          rw [Dict.set, if_neg hk, ih ht]
          rfl
    exact aux _ hnone

theorem writeGlyph_flat {L : Casing} {Good : Str → Str → Prop} {naming : Naming} {w : World} {n : Str} {data : Int → Except Exc Bytes} {d : Bytes} (hv : w.1.version = 3)
    (ht : Total Good naming n) (h : Named L Good w.1) (hnone : Dict.get? w.1.contents n = none) (hflat : Flat w.2 w.1.dir) (hd : data 2 = .ok d) :
    ∃ f, (writeGlyph L naming w n none data).2 = .ok () ∧ (writeGlyph L naming w n none data).1.1.contents = w.1.contents ++ [(n, f)] ∧
      Flat (writeGlyph L naming w n none data).1.2 w.1.dir := by
  obtain ⟨f, h1, h2⟩ := assignFile_total ht h hnone
  have hdir : (assignFile L naming w.1 n).1.dir = w.1.dir := by
    unfold assignFile
    split
    · rfl
    · dsimp only
      split <;> rfl
  have hg : glifVersion w.1 none = .ok 2 := by
    unfold glifVersion
    simp [hv]
  rcases ha : assignFile L naming w.1 n with ⟨gs, r⟩
  rw [ha] at h1 h2 hdir
  dsimp only at h1 h2 hdir
  subst h1
  have := flat_store (hp := gs.havePrevious) hflat f d
  unfold writeGlyph
  rw [hg]
  dsimp only
  rw [ha]
  dsimp only
  rw [hd]
  dsimp only
  rw [hdir]
  exact ⟨f, this.1, h2, this.2⟩

/-- All the writes succeed. -/
theorem writes_ok {L : Casing} {F : FloatCodec} {Good : Str → Str → Prop} {naming : Naming} : ∀ (gl : List (Str × (Int → Except Exc Bytes) × Bytes)) (w : World), w.1.version = 3 →
    Named L Good w.1 → Flat w.2 w.1.dir → (gl.map Prod.fst).Nodup → (∀ g ∈ gl, Dict.get? w.1.contents g.1 = none ∧ g.2.1 2 = .ok g.2.2 ∧ Total Good naming g.1 ∧ Admissible L Good naming g.1) →
    let ops := gl.map fun g => Op.write naming g.1 none g.2.1
    AllReturn L F w ops ∧ (keys (run L F w ops).1 = keys w.1 ++ gl.map Prod.fst) ∧ Named L Good (run L F w ops).1 ∧ Flat (run L F w ops).2 w.1.dir ∧
      (run L F w ops).1.dir = w.1.dir := by
  intro gl
  induction gl with
  | nil =>
    intro w _ hn hf _ _
    refine ⟨fun pre op h => ?_, by simp [run], hn, hf, rfl⟩
    simp at h
  | cons g gl ih =>
    intro w hv hn hf hnd hall
    obtain ⟨h1, h2, h3, h4⟩ := hall g (by simp)
    obtain ⟨f, k1, k2, k3⟩ := writeGlyph_flat hv h3 hn h1 hf h2
    rcases hw : writeGlyph L naming w g.1 none g.2.1 with ⟨w', r⟩
    have hstep : step L F w (.write naming g.1 none g.2.1) = (w', r) := hw
    rw [hw] at k1 k2 k3
    dsimp only at k1 k2 k3
    obtain ⟨s1, -, s2, -⟩ := writeGlyph_spec hw
    have hn' : Named L Good w'.1 := by
      have := step_named (F := F) (op := .write naming g.1 none g.2.1) (w := w) (by simp) (fun _ _ _ _ he => by cases he; exact h4) hn
      rwa [hstep] at this
    rw [List.map_cons, List.nodup_cons] at hnd
    have := ih w' (by rw [s2]; exact hv) hn' (by rw [s1]; exact k3) hnd.2 (fun e he => by
      obtain ⟨e1, e2⟩ := hall e (by simp [he])
      refine ⟨?_, e2⟩
      rw [k2, Dict.get?_eq_none_iff]
      rw [Dict.get?_eq_none_iff] at e1
      unfold Dict.keys at e1 ⊢
      rw [List.map_append, List.mem_append]
      rintro (hm | hm)
      · exact e1 hm
      · simp at hm
        exact hnd.1 (hm ▸ List.mem_map_of_mem he))
    obtain ⟨i1, i2, i3, i4, i5⟩ := this
    have hrun : run L F w (.write naming g.1 none g.2.1 :: gl.map fun g => Op.write naming g.1 none g.2.1) = run L F w' (gl.map fun g => Op.write naming g.1 none g.2.1) := by
      rw [run, hstep]
    refine ⟨fun pre op hpre => ?_, ?_, ?_, ?_, ?_⟩
    · rw [List.map_cons] at hpre
      cases pre with
      | nil =>
        obtain ⟨t, ht⟩ := hpre
        simp at ht
        rw [ht.1, run, hstep]
        exact k1
      | cons p pre =>
        rw [List.cons_append, List.cons_prefix_cons] at hpre
        obtain ⟨rfl, hpre⟩ := hpre
        rw [run, hstep]
        exact i1 pre op hpre
    · rw [List.map_cons, hrun, i2, keys, keys, k2]
      simp [Dict.keys]
    · rw [List.map_cons, hrun]; exact i3
    · rw [List.map_cons, hrun, ← s1]; exact i4
    · rw [List.map_cons, hrun, i5, s1]

/-- What the caller can expect after writes that succeed. -/
theorem writes_history {L : Casing} {F : FloatCodec} {naming : Naming} : ∀ (gl : List (Str × (Int → Except Exc Bytes) × Bytes)) (w : World) (n : Str) (s : Status), w.1.version = 3 →
    AllReturn L F w (gl.map fun g => Op.write naming g.1 none g.2.1) → (∀ g ∈ gl, g.2.1 2 = .ok g.2.2) →
    (n ∉ gl.map Prod.fst → s.history n (calls L F w (gl.map fun g => Op.write naming g.1 none g.2.1)) = s) ∧
    ((gl.map Prod.fst).Nodup → ∀ g ∈ gl, g.1 = n → s.history n (calls L F w (gl.map fun g => Op.write naming g.1 none g.2.1)) = .holds g.2.2) := by
  intro gl
  induction gl with
  | nil => exact fun w n s _ _ _ => ⟨fun _ => rfl, fun _ g hg => by simp at hg⟩
  | cons e gl ih =>
    intro w n s hv hall hd
    have h0 := hall [] (.write naming e.1 none e.2.1) (by simp)
    have hcall : call w (.write naming e.1 none e.2.1) (step L F w (.write naming e.1 none e.2.1)).2 = .wrote e.1 e.2.2 := by
      rw [run] at h0
      rw [h0]
      simp [call, hv, hd e (by simp)]
    have hv' : (step L F w (.write naming e.1 none e.2.1)).1.1.version = 3 := by
      rcases hw : writeGlyph L naming w e.1 none e.2.1 with ⟨w', r⟩
      rw [show step L F w (.write naming e.1 none e.2.1) = (w', r) from hw, (writeGlyph_spec hw).2.2.1, hv]
    have ih := fun s => ih (step L F w (.write naming e.1 none e.2.1)).1 n s hv' (fun pre op hpre => by
      have := hall (.write naming e.1 none e.2.1 :: pre) op (by
        rw [List.map_cons, List.cons_append, List.cons_prefix_cons]
        exact ⟨rfl, hpre⟩)
      rwa [run] at this) (fun g hg => hd g (by simp [hg]))
    simp only [List.map_cons, Spec.GlyphSet.calls, hcall, Status.history, Status.after]
    constructor
    · intro hn
      rw [List.mem_cons, not_or] at hn
      rw [if_neg (Ne.symm hn.1)]
      exact (ih s).1 hn.2
    · intro hnd g hg hgn
      rw [List.nodup_cons] at hnd
      rcases List.mem_cons.1 hg with rfl | hg
      · rw [if_pos hgn]
        exact (ih _).1 (hgn ▸ hnd.1)
      · exact (ih _).2 hnd.2 g hg hgn

end Verif.GlyphSet
