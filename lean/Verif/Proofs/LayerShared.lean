import Verif.Spec.LayerShared
import Verif.Proofs.GlyphSet
import Verif.Proofs.FSTree
namespace Verif.Proofs.LayerShared
open Verif Verif.FS Verif.IO Verif.GlyphSet Verif.Spec.LayerShared

/-- What writing a file does when its directory is there: the file holds the data, nothing else changes. -/
structure Put (fs fs' : FS) (p : Path) (d : Bytes) : Prop where
  canon : fs'.canon = fs.canon
  here : fs'.node? p = some (.file d)
  others : ∀ q, fs.key q ≠ fs.key p → fs'.node? q = fs.node? q

theorem put_perform (fs : FS) (p : Path) (hp : p ≠ []) (d : Bytes) : Put fs (fs.perform (.write (fs.key p) d)) p d :=
  ⟨rfl, by rw [node?_write _ _ _ _ hp, if_pos rfl], fun q hq => by rw [node?_write _ _ _ _ hp, if_neg hq]⟩

theorem put_same {fs : FS} {p : Path} {d : Bytes} (h : unchanged fs p d = true) : Put fs fs p d :=
  ⟨rfl, getbytes_ok.1 (unchanged_iff.1 h), fun _ _ => rfl⟩

theorem storeGlyph_put {hp : Bool} {fs : FS} {dir : Path} {f : Str} {d : Bytes} (h1 : fs.node? dir = some .dir) (h2 : fs.node? (dir ++ [f]) ≠ some .dir) :
    (storeGlyph hp fs (dir ++ [f]) d).2 = .ok () ∧ Put fs (storeGlyph hp fs (dir ++ [f]) d).1 (dir ++ [f]) d := by
  unfold storeGlyph
  split
  · rename_i hu
    rw [Bool.and_eq_true] at hu
    exact ⟨rfl, put_same hu.2⟩
  · rw [setbytes_of d (by simpa using h1) h2]
    exact ⟨rfl, put_perform fs _ (by simp) d⟩

theorem writePlist_put {F : FloatCodec} {hp : Bool} {fs : FS} {dir : Path} {f : Str} {v : PyVal} {d : Bytes} (hd : dumpBytes F v = .ok d) (h1 : fs.node? dir = some .dir)
    (h2 : fs.node? (dir ++ [f]) ≠ some .dir) (h3 : fs.key dir ≠ fs.key (dir ++ [f])) :
    (writePlist F hp fs (dir ++ [f]) v).2 = .ok () ∧ Put fs (writePlist F hp fs (dir ++ [f]) v).1 (dir ++ [f]) d := by
  unfold writePlist
  rw [hd]
  split
  · dsimp only
    split
    · rename_i hu
      exact ⟨rfl, put_same hu⟩
    · rw [setbytes_of d (by simpa using h1) h2]
      exact ⟨rfl, put_perform fs _ (by simp) d⟩
  · rw [setbytes_of [] (by simpa using h1) h2]
    dsimp only
    have p1 := put_perform fs (dir ++ [f]) (by simp) []
    rw [setbytes_of d (by rw [List.dropLast_concat, p1.others _ h3]; exact h1) (by rw [p1.here]; simp)]
    have p2 := put_perform (fs.perform (.write (fs.key (dir ++ [f])) [])) (dir ++ [f]) (by simp) d
    exact ⟨rfl, rfl, p2.here, fun q hq => (p2.others q hq).trans (p1.others q hq)⟩

/-- The file an edit is about. -/
def target (C : Dict Str Str) : Op → Option Str
  | .write _ n _ _ => Dict.get? C n
  | .save => some c!"contents.plist"
  | _ => none

/-- An edit on a layer that is ready: what the glyph set is afterwards, the outcome, and the data of the file it is about do not depend on the files. -/
theorem edit_step {L : Casing} {F : FloatCodec} {C : Dict Str Str} {own : Str → Prop} {op : Op} (hop : Edits C own op) {gs : GlyphSet} (hc : gs.contents = C) {B : Bytes}
    (hB : dumpBytes F (contentsVal C) = .ok B) : ∃ (gs' : GlyphSet) (r : Except Exc Unit) (d : Option Bytes), gs'.contents = C ∧ gs'.dir = gs.dir ∧ (op = .save → d = some B) ∧
      ∀ fs, Ready fs gs.dir C → (step L F (gs, fs) op).1.1 = gs' ∧ (step L F (gs, fs) op).2 = r ∧
        (match d with
          | none => (step L F (gs, fs) op).1.2 = fs
          | some d => ∃ f, target C op = some f ∧ Put fs (step L F (gs, fs) op).1.2 (gs.dir ++ [f]) d) := by
  cases hop with
  | write f hf ho =>
    rename_i naming n v data
    have ha : assignFile L naming gs n = (gs, .ok f) := by
      unfold assignFile
      rw [hc, hf]
    cases hv : glifVersion gs v with
    | error e =>
      refine ⟨gs, .error e, none, hc, rfl, by simp, fun fs hr => ?_⟩
      simp [step, writeGlyph, hv]
    | ok w =>
      cases hd : data w with
      | error e =>
        refine ⟨gs, .error e, none, hc, rfl, by simp, fun fs hr => ?_⟩
        simp [step, writeGlyph, hv, ha, hd]
      | ok d =>
        refine ⟨gs, .ok (), some d, hc, rfl, by simp, fun fs hr => ?_⟩
        obtain ⟨h1, h2⟩ := storeGlyph_put (hp := gs.havePrevious) (d := d) hr.dir (hr.files n f hf)
        simp only [step, writeGlyph, hv, ha, hd]
        exact ⟨trivial, h1, f, hf, h2⟩
  | save =>
    refine ⟨gs, .ok (), some B, hc, rfl, fun _ => rfl, fun fs hr => ?_⟩
    obtain ⟨h1, h2⟩ := writePlist_put (hp := gs.havePrevious) (f := c!"contents.plist") hB hr.dir hr.table (fun e => by simpa [FS.key] using congrArg List.length e)
    simp only [step, writeContents, hc]
    exact ⟨trivial, h1, _, rfl, h2⟩
  | reverse =>
    refine ⟨(getReverseContents L gs).1, .ok (), none, ?_, ?_, by simp, fun fs hr => ⟨rfl, rfl, rfl⟩⟩
    · unfold getReverseContents
      split <;> exact hc
    · unfold getReverseContents
      split <;> rfl

theorem key_snoc {fs : FS} {dir : Path} {f g : Str} (h : fs.key (dir ++ [f]) = fs.key (dir ++ [g])) : fs.canon f = fs.canon g := by
  simpa [FS.key] using h

theorem Put.ready {fs fs' : FS} {dir : Path} {C : Dict Str Str} {f : Str} {d : Bytes} (h : Put fs fs' (dir ++ [f]) d) (hr : Ready fs dir C) : Ready fs' dir C := by
  have hother : ∀ q, fs.node? q ≠ some .dir → fs'.node? q ≠ some .dir := by
    intro q hq
    by_cases e : fs.key q = fs.key (dir ++ [f])
    · have e' : fs'.key q = fs'.key (dir ++ [f]) := by unfold FS.key; rw [h.canon]; exact e
      rw [node?_eq e', h.here]
      simp
    · rw [h.others q e]
      exact hq
  refine ⟨?_, fun n g hg => hother _ (hr.files n g hg), hother _ hr.table⟩
  rw [h.others dir fun e => by simpa [FS.key] using congrArg List.length e]
  exact hr.dir

end Verif.Proofs.LayerShared

namespace Verif.Proofs.LayerShared
open Verif Verif.FS Verif.IO Verif.GlyphSet Verif.Spec.LayerShared

/-- The programs share the layer: all have its table. -/
structure Fit (C : Dict Str Str) (dir : Path) (s : Sharing) : Prop where
  sets : ∀ gs ∈ s.sets, gs.contents = C ∧ gs.dir = dir
  apart : Apart s.fs.canon C
  ready : Ready s.fs dir C

/-- One edit by one of the programs. -/
theorem fit_step {L : Casing} {F : FloatCodec} {C : Dict Str Str} {dir : Path} {B : Bytes} (hB : dumpBytes F (contentsVal C) = .ok B) {s : Sharing} (h : Fit C dir s) {own : Str → Prop}
    {op : Op} (hop : Edits C own op) (j : Nat) :
    Fit C dir (s.step L F j op).1 ∧ (s.step L F j op).1.fs.canon = s.fs.canon ∧
    ((s.step L F j op).1.fs = s.fs ∧ (op = .save → s.sets[j]? = none) ∨ ∃ f d, j < s.sets.length ∧ target C op = some f ∧ (op = .save → d = B) ∧ Put s.fs (s.step L F j op).1.fs (dir ++ [f]) d) := by
  unfold Sharing.step
  cases hg : s.sets[j]? with
  | none => exact ⟨h, rfl, .inl ⟨rfl, fun _ => rfl⟩⟩
  | some gs =>
    obtain ⟨hc, hd⟩ := h.sets gs (List.mem_of_getElem? hg)
    obtain ⟨gs', r, d, k1, k2, k3, k4⟩ := edit_step (L := L) hop hc hB
    subst hd
    obtain ⟨m1, m2, m3⟩ := k4 s.fs h.ready
    dsimp only
    have hsets : ∀ x ∈ s.sets.set j (step L F (gs, s.fs) op).1.1, x.contents = C ∧ x.dir = gs.dir := by
      intro x hx
      rcases List.mem_or_eq_of_mem_set hx with hx | rfl
      · exact h.sets x hx
      · rw [m1]; exact ⟨k1, k2⟩
    cases d with
    | none =>
      dsimp only at m3
      refine ⟨⟨hsets, ?_, ?_⟩, ?_, .inl ⟨m3, fun e => nomatch k3 e⟩⟩
      · show Apart (step L F (gs, s.fs) op).1.2.canon C; rw [m3]; exact h.apart
      · show Ready (step L F (gs, s.fs) op).1.2 _ C; rw [m3]; exact h.ready
      · show (step L F (gs, s.fs) op).1.2.canon = _; rw [m3]
    | some d =>
      obtain ⟨f, hf, hp⟩ := m3
      refine ⟨⟨hsets, ?_, hp.ready h.ready⟩, hp.canon, .inr ⟨f, d, (List.getElem?_eq_some_iff.1 hg).1, hf, fun e => by simpa using k3 e, hp⟩⟩
      show Apart (step L F (gs, s.fs) op).1.2.canon C; rw [hp.canon]; exact h.apart

theorem target_own {C : Dict Str Str} {own : Str → Prop} {op : Op} (hop : Edits C own op) {f : Str} (h : target C op = some f) :
    f = c!"contents.plist" ∧ op = .save ∨ ∃ n, own n ∧ Dict.get? C n = some f ∧ op ≠ .save := by
  cases hop with
  | write g hg ho => exact .inr ⟨_, ho, h, by simp⟩
  | save => cases h; exact .inl ⟨rfl, rfl⟩
  | reverse => cases h

/-- A program among others and the same program alone. -/
theorem alone_run {L : Casing} {F : FloatCodec} {C : Dict Str Str} {dir : Path} {B : Bytes} (hB : dumpBytes F (contentsVal C) = .ok B) (N : Nat → Str → Prop)
    (hN : ∀ i j n, N i n → N j n → i = j) (i : Nat) : ∀ (sched : List (Nat × Op)), (∀ e ∈ sched, Edits C (N e.1) e.2) → ∀ (s : Sharing) (gs : GlyphSet) (a : FS), Fit C dir s →
    s.sets[i]? = some gs → Ready a dir C → a.canon = s.fs.canon → (∀ n f, N i n → Dict.get? C n = some f → s.fs.node? (dir ++ [f]) = a.node? (dir ++ [f])) →
    (s.run L F sched).sets[i]? = some (run L F (gs, a) (ofProgram i sched)).1 ∧ s.outcomes L F i sched = results L F (gs, a) (ofProgram i sched) ∧
      ∀ n f, N i n → Dict.get? C n = some f → (s.run L F sched).fs.node? (dir ++ [f]) = (run L F (gs, a) (ofProgram i sched)).2.node? (dir ++ [f])
  | [], _, s, gs, a, _, hg, _, _, hn => ⟨hg, rfl, hn⟩
  | (j, op) :: sched, hs, s, gs, a, h, hg, ha, hca, hn => by
    have hop : Edits C (N j) op := hs (j, op) List.mem_cons_self
    have hrest : ∀ e ∈ sched, Edits C (N e.1) e.2 := fun e he => hs e (List.mem_cons_of_mem _ he)
    obtain ⟨f1, f2, f3⟩ := fit_step (L := L) hB h hop j
    by_cases hij : j = i
    · subst hij
      have ho : ofProgram j ((j, op) :: sched) = op :: ofProgram j sched := by simp [ofProgram]
      rw [ho]
      obtain ⟨hc, hd⟩ := h.sets gs (List.mem_of_getElem? hg)
      obtain ⟨gs', r, d, k1, k2, k3, k4⟩ := edit_step (L := L) hop hc hB
      subst hd
      obtain ⟨m1, m2, m3⟩ := k4 s.fs h.ready
      obtain ⟨l1, l2, l3⟩ := k4 a ha
      have e1 : (s.step L F j op).1 = ⟨s.sets.set j gs', (step L F (gs, s.fs) op).1.2⟩ := by
        unfold Sharing.step; rw [hg]; dsimp only; rw [m1]
      have e2 : (s.step L F j op).2 = some r := by
        unfold Sharing.step; rw [hg]; dsimp only; rw [m2]
      have hget : (s.step L F j op).1.sets[j]? = some gs' := by
        rw [e1]
        obtain ⟨hlt, -⟩ := List.getElem?_eq_some_iff.1 hg
        simp [hlt]
      have eW : (step L F (gs, a) op).1 = (gs', (step L F (gs, a) op).1.2) := Prod.ext l1 rfl
      have hfs : (s.step L F j op).1.fs = (step L F (gs, s.fs) op).1.2 := by rw [e1]
      have step2 : Ready (step L F (gs, a) op).1.2 gs.dir C ∧ (step L F (gs, a) op).1.2.canon = (s.step L F j op).1.fs.canon ∧
          ∀ n f, N j n → Dict.get? C n = some f → (s.step L F j op).1.fs.node? (gs.dir ++ [f]) = (step L F (gs, a) op).1.2.node? (gs.dir ++ [f]) := by
        rw [hfs]
        cases d with
        | none =>
          dsimp only at m3 l3
          rw [m3, l3]
          exact ⟨ha, hca, hn⟩
        | some d =>
          obtain ⟨f, hf, hp⟩ := m3
          obtain ⟨f', hf', hp'⟩ := l3
          obtain rfl : f = f' := Option.some.inj (hf.symm.trans hf')
          refine ⟨hp'.ready ha, by rw [hp'.canon, hp.canon, hca], fun n g hNn hgn => ?_⟩
          by_cases e : s.fs.key (gs.dir ++ [g]) = s.fs.key (gs.dir ++ [f])
          · have t1 := node?_eq (fs := (step L F (gs, s.fs) op).1.2) (p := gs.dir ++ [g]) (q := gs.dir ++ [f]) (by unfold FS.key; rw [hp.canon]; exact e)
            have t2 := node?_eq (fs := (step L F (gs, a) op).1.2) (p := gs.dir ++ [g]) (q := gs.dir ++ [f]) (by unfold FS.key; rw [hp'.canon, hca]; exact e)
            rw [t1, t2, hp.here, hp'.here]
          · rw [hp.others _ e, hp'.others _ (by unfold FS.key at e ⊢; rw [hca]; exact e)]
            exact hn n g hNn hgn
      obtain ⟨r1, r2, r3⟩ := alone_run hB N hN j sched hrest (s.step L F j op).1 gs' (step L F (gs, a) op).1.2 f1 hget step2.1 step2.2.1 step2.2.2
      refine ⟨?_, ?_, ?_⟩
      · show ((s.step L F j op).1.run L F sched).sets[j]? = some (run L F (step L F (gs, a) op).1 (ofProgram j sched)).1
        rw [eW]; exact r1
      · show (if j = j then (s.step L F j op).2.toList else []) ++ Sharing.outcomes L F j (s.step L F j op).1 sched = (step L F (gs, a) op).2 :: results L F (step L F (gs, a) op).1 (ofProgram j sched)
        rw [if_pos rfl, e2, eW, r2, l2]
        rfl
      · show ∀ n f, N j n → Dict.get? C n = some f → ((s.step L F j op).1.run L F sched).fs.node? (gs.dir ++ [f]) = (run L F (step L F (gs, a) op).1 (ofProgram j sched)).2.node? (gs.dir ++ [f])
        rw [eW]; exact r3
    · have ho : ofProgram i ((j, op) :: sched) = ofProgram i sched := by simp [ofProgram, hij]
      rw [ho]
      have hget : (s.step L F j op).1.sets[i]? = some gs := by
        unfold Sharing.step
        cases hj : s.sets[j]? with
        | none => exact hg
        | some x => dsimp only; rw [List.getElem?_set_ne hij]; exact hg
      obtain ⟨r1, r2, r3⟩ := alone_run (L := L) hB N hN i sched hrest (s.step L F j op).1 gs a f1 hget ha (by rw [f2]; exact hca) (fun n g hNn hgn => by
        rw [← hn n g hNn hgn]
        rcases f3 with ⟨f3, -⟩ | ⟨f, d, -, hf, -, hp⟩
        · rw [f3]
        · refine hp.others _ fun e => ?_
          have ec := key_snoc e
          rcases target_own hop hf with ⟨rfl, -⟩ | ⟨m, hm, hgm, -⟩
          · exact h.apart.table n g hgn ec
          · have := h.apart.files n m g f hgn hgm ec
            subst this
            exact hij (hN _ _ _ hm hNn))
      refine ⟨r1, ?_, r3⟩
      show (if j = i then (s.step L F j op).2.toList else []) ++ Sharing.outcomes L F i (s.step L F j op).1 sched = _
      rw [if_neg hij, r2]
      rfl

/-- What the edits leave alone. -/
theorem rest_run {L : Casing} {F : FloatCodec} {C : Dict Str Str} {dir : Path} {B : Bytes} (hB : dumpBytes F (contentsVal C) = .ok B) (N : Nat → Str → Prop) (q : Path) :
    ∀ (sched : List (Nat × Op)), (∀ e ∈ sched, Edits C (N e.1) e.2) → ∀ (s : Sharing), Fit C dir s → s.fs.key q ≠ s.fs.key (dir ++ [c!"contents.plist"]) →
    (∀ i n f, N i n → Dict.get? C n = some f → s.fs.key q ≠ s.fs.key (dir ++ [f])) → (s.run L F sched).fs.node? q = s.fs.node? q
  | [], _, _, _, _, _ => rfl
  | (j, op) :: sched, hs, s, h, h1, h2 => by
    have hop : Edits C (N j) op := hs (j, op) List.mem_cons_self
    obtain ⟨f1, f2, f3⟩ := fit_step (L := L) hB h hop j
    have hk : ∀ x : Path, (s.step L F j op).1.fs.key x = s.fs.key x := fun x => by unfold FS.key; rw [f2]
    show ((s.step L F j op).1.run L F sched).fs.node? q = _
    rw [rest_run hB N q sched (fun e he => hs e (List.mem_cons_of_mem _ he)) _ f1 (by rw [hk, hk]; exact h1) (fun i n f hi hf => by rw [hk, hk]; exact h2 i n f hi hf)]
    rcases f3 with ⟨f3, -⟩ | ⟨f, d, -, hf, -, hp⟩
    · rw [f3]
    · refine hp.others _ fun e => ?_
      rcases target_own hop hf with ⟨rfl, -⟩ | ⟨m, hm, hgm, -⟩
      · exact h1 e
      · exact h2 _ _ _ hm hgm e

/-- The file of the table. -/
theorem table_run {L : Casing} {F : FloatCodec} {C : Dict Str Str} {dir : Path} {B : Bytes} (hB : dumpBytes F (contentsVal C) = .ok B) (N : Nat → Str → Prop) :
    ∀ (sched : List (Nat × Op)), (∀ e ∈ sched, Edits C (N e.1) e.2) → ∀ (s : Sharing), Fit C dir s →
    ((∃ j, (j, Op.save) ∈ sched ∧ j < s.sets.length) → (s.run L F sched).fs.node? (dir ++ [c!"contents.plist"]) = some (.file B)) ∧
    ((∀ j, (j, Op.save) ∈ sched → s.sets.length ≤ j) → (s.run L F sched).fs.node? (dir ++ [c!"contents.plist"]) = s.fs.node? (dir ++ [c!"contents.plist"]))
  | [], _, _, _ => ⟨fun h => (by obtain ⟨_, h, _⟩ := h; cases h), fun _ => rfl⟩
  | (j, op) :: sched, hs, s, h => by
    have hop : Edits C (N j) op := hs (j, op) List.mem_cons_self
    obtain ⟨f1, f2, f3⟩ := fit_step (L := L) hB h hop j
    have hlen : (s.step L F j op).1.sets.length = s.sets.length := by
      unfold Sharing.step
      split <;> simp
    obtain ⟨t1, t2⟩ := table_run (L := L) hB N sched (fun e he => hs e (List.mem_cons_of_mem _ he)) _ f1
    rw [hlen] at t1 t2
    refine ⟨fun ⟨k, hk, hk'⟩ => ?_, fun hno => ?_⟩
    · by_cases hl : ∃ j, (j, Op.save) ∈ sched ∧ j < s.sets.length
      · exact t1 hl
      · have e : (k, Op.save) = (j, op) := (List.mem_cons.1 hk).resolve_right fun hk => hl ⟨k, hk, hk'⟩
        cases e
        refine (t2 fun i hi => Nat.le_of_not_lt fun hlt => hl ⟨i, hi, hlt⟩).trans ?_
        rcases f3 with ⟨-, f4⟩ | ⟨f, d, -, hf, hsave, hp⟩
        · have := f4 rfl
          rw [List.getElem?_eq_none_iff] at this
          omega
        · cases hf
          rw [hp.here, hsave rfl]
    · refine (t2 fun i hi => hno i (List.mem_cons_of_mem _ hi)).trans ?_
      rcases f3 with ⟨f3, -⟩ | ⟨f, d, hj, hf, hsave, hp⟩
      · rw [f3]
      · rcases target_own hop hf with ⟨rfl, rfl⟩ | ⟨m, hm, hgm, hne⟩
        · exact absurd (hno j List.mem_cons_self) (by omega)
        · exact hp.others _ fun e => h.apart.table _ _ hgm (key_snoc e).symm

end Verif.Proofs.LayerShared
