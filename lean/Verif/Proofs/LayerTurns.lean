import Verif.Proofs.LayerShared
import Verif.Proofs.GlyphSetOwn
import Verif.Proofs.GlyphSetReopen
import Verif.Proofs.RestartRead
/-! Programs that take turns on a layer. -/
namespace Verif.Proofs.LayerTurns
open Verif Verif.FS Verif.IO Verif.GlyphSet Verif.Spec.GlyphSet Verif.Spec.LayerShared

variable {L : Casing} {F : FloatCodec}

theorem calls_append (a b : List Op) : ∀ w : World, calls L F w (a ++ b) = calls L F w a ++ calls L F (run L F w a) b := by
  induction a with
  | nil => intro w; rfl
  | cons op a ih => intro w; exact congrArg (_ :: ·) (ih _)

theorem run_append (a b : List Op) : ∀ w : World, run L F w (a ++ b) = run L F (run L F w a) b := by
  induction a with
  | nil => intro w; rfl
  | cons op a ih => intro w; exact ih _

theorem results_append (a b : List Op) : ∀ w : World, results L F w (a ++ b) = results L F w a ++ results L F (run L F w a) b := by
  induction a with
  | nil => intro w; rfl
  | cons op a ih => intro w; exact congrArg (_ :: ·) (ih _)

theorem history_append (n : Str) (a b : List Call) : ∀ s : Status, s.history n (a ++ b) = (s.history n a).history n b := by
  induction a with
  | nil => intro s; rfl
  | cons c a ih => intro s; exact ih _

theorem known_step {w : World} {op : Op} {n : Str} {s : Status} (h : s ≠ .unknown) : s.after n (call w op (.ok ())) ≠ .unknown := by
  cases op with
  | write naming m fv data =>
    unfold call
    dsimp only
    split
    · unfold Status.after; dsimp only; split
      · simp
      · exact h
    · exact h
  | delete m => unfold call Status.after; dsimp only; split
                · simp
                · exact h
  | reverse => exact h
  | save => exact h
  | rebuild v => exact h

theorem known_run (n : Str) (ops : List Op) : ∀ (w : World) (s : Status), (∀ r ∈ results L F w ops, r = .ok ()) → s ≠ .unknown → s.history n (calls L F w ops) ≠ .unknown := by
  induction ops with
  | nil => exact fun _ _ _ h => h
  | cons op ops ih =>
    intro w s hr h
    refine ih _ _ (fun r hr' => hr r (List.mem_cons_of_mem _ hr')) ?_
    have := hr (step L F w op).2 (List.mem_cons_self)
    rw [this]
    exact known_step h

theorem run_dir (ops : List Op) : ∀ w : World, (run L F w ops).1.dir = w.1.dir := by
  induction ops with
  | nil => intro w; rfl
  | cons op ops ih =>
    intro w
    refine (ih _).trans ?_
    cases op with
    | write naming n fv data => exact (writeGlyph_spec (L := L) (w := w) (naming := naming) (fv := fv) (data := data) (n := n) rfl).1
    | delete n => exact (deleteGlyph_spec (L := L) (w := w) (n := n) rfl).1
    | reverse => show (getReverseContents L w.1).1.dir = _; unfold getReverseContents; split <;> rfl
    | save => rfl
    | rebuild v =>
      show (match rebuildContents F w.1 w.2 v with
        | .error e => (w, Except.error e)
        | .ok gs => ((gs, w.2), .ok ())).1.1.dir = _
      split
      · rfl
      · next gs h => exact (rebuildContents_ok h).2.2.2.1

theorem run_canon (ops : List Op) : ∀ w : World, (run L F w ops).2.canon = w.2.canon := by
  induction ops with
  | nil => intro w; rfl
  | cons op ops ih => intro w; exact (ih _).trans step_canon

/-- The layer can be opened, its glyphs have their own files, and what is found is `S`. -/
def Holds (L : Casing) (F : FloatCodec) (N : Str → Prop) (dir : Path) (fs : FS) (S : Str → Status) : Prop :=
  ∃ gs, openGlyphSet F fs dir 3 true = .ok gs ∧ (∀ n f, Dict.get? gs.contents n = some f → N n ∧ f = ownFile L.lower n) ∧ ∀ n, S n ≠ .unknown ∧ Agrees (gs, fs) n (S n)

theorem rebuilt {fs : FS} {dir : Path} {gs0 gs gs' : GlyphSet} {v : Bool} (h0 : openGlyphSet F fs dir 3 true = .ok gs0) (hd : gs.dir = dir) (h : rebuildContents F gs fs v = .ok gs') :
    gs'.contents = gs0.contents := by
  obtain ⟨-, -, -, -, -, x, hx, hc⟩ := Restart.open_ok h0
  unfold rebuildContents at h
  rw [hd, hx] at h
  dsimp only at h
  split at h
  · cases h
  · next t ht =>
    cases h
    exact Restart.checkContents_table hc ht

theorem turn_world (hL : CaseLaws L.lower) (hF : F.Lawful) {N : Str → Prop} (hN : OwnFiles L.lower N) (hT : ∀ n, N n → Spec.Plist.FileText n) {dir : Path} {fs : FS} {S : Str → Status}
    (hcanon : ∀ a b, fs.canon a = fs.canon b → L.lower a = L.lower b) (h : Holds L F N dir fs S) {gs : GlyphSet} (hd : gs.dir = dir) (v : Bool) (ops : List Op)
    (hops : ∀ op ∈ ops, ∀ v, op ≠ .rebuild v) (hn : ∀ op ∈ ops, ∀ naming n fv data, op = .write naming n fv data → naming = defaultNaming L ∧ N n)
    (hok : ∀ r ∈ results L F (gs, fs) (.rebuild v :: ops ++ [.save]), r = .ok ()) :
    Holds L F N dir (run L F (gs, fs) (.rebuild v :: ops ++ [.save])).2 fun n => (S n).history n (calls L F (gs, fs) (.rebuild v :: ops ++ [.save])) := by
  obtain ⟨gs0, h0, hgood, hS⟩ := h
  have hr0 := hok _ (List.mem_cons_self)
  have hstep : ∃ gs1, rebuildContents F gs fs v = .ok gs1 ∧ (step L F (gs, fs) (.rebuild v)).1 = (gs1, fs) := by
    unfold step at hr0 ⊢
    dsimp only at hr0 ⊢
    split at hr0
    · cases hr0
    · next g hg => exact ⟨g, hg, rfl⟩
  obtain ⟨gs1, hg1, hw1⟩ := hstep
  have hc1 := rebuilt h0 hd hg1
  obtain ⟨r1, r2, r3, r4, -, -⟩ := rebuildContents_ok hg1
  have hdir1 : gs1.dir = dir := r4.trans hd
  have hdir0 : gs0.dir = dir := (Restart.open_ok h0).2.1
  have hnamed : Named L (fun m f => N m ∧ f = ownFile L.lower m) gs1 := by
    refine ⟨⟨r3, fun ex he => (by rw [r1] at he; cases he), fun r he => (by rw [r2] at he; cases he)⟩, ?_, ?_⟩
    · intro a b f g ha hb hab
      rw [hc1] at ha hb
      obtain ⟨na, rfl⟩ := hgood a f ha
      obtain ⟨nb, rfl⟩ := hgood b g hb
      exact own_inj hN na nb hab
    · intro m g hm
      rw [hc1] at hm
      exact hgood m g hm
  have hadm : ∀ op ∈ ops, ∀ naming n fv data, op = .write naming n fv data → Admissible L (fun m f => N m ∧ f = ownFile L.lower m) naming n := by
    intro op ho naming m fv data he
    obtain ⟨e1, e2⟩ := hn op ho naming m fv data he
    rw [e1]; exact admissible_own hL hN e2
  have hpre : ∀ pre, pre <+: ops → Distinct fs.canon (run L F (gs1, fs) pre).1.contents ∧ Avoids fs.canon contentsName (run L F (gs1, fs) pre).1.contents := by
    intro pre hp
    have := run_named (F := F) pre (gs1, fs) (fun op ho => hops op (hp.subset ho)) (fun op ho => hadm op (hp.subset ho)) hnamed
    exact ⟨fun a b f g ha hb hab => this.distinct a b f g ha hb (hcanon _ _ hab), fun m g hm h => own_avoids hL m g (this.good m g hm) (hcanon _ _ h)⟩
  have hS1 : ∀ n, Agrees (gs1, fs) n (S n) := by
    intro n
    have := (hS n).2
    revert this
    cases S n with
    | unknown => exact id
    | absent => intro h; show Dict.get? gs1.contents n = none; rw [hc1]; exact h
    | holds d =>
      rintro ⟨f, hf, hb⟩
      refine ⟨f, ?_, ?_⟩
      · show Dict.get? gs1.contents n = _; rw [hc1]; exact hf
      · show fs.getbytes (gs1.dir ++ [f]) = _
        rw [hdir1, ← hdir0]; exact hb
  have hagree := fun n => history_agrees (L := L) (F := F) ops (gs1, fs) hops hpre n (S n) (hS1 n)
  have hend := run_named (F := F) ops (gs1, fs) hops hadm hnamed
  have erun : run L F (gs, fs) (.rebuild v :: ops ++ [.save]) = run L F (run L F (gs1, fs) ops) [.save] := by
    show run L F (step L F (gs, fs) (.rebuild v)).1 (ops ++ [.save]) = _
    rw [hw1, run_append]
  have eres : results L F (gs, fs) (.rebuild v :: ops ++ [.save]) = (step L F (gs, fs) (.rebuild v)).2 :: (results L F (gs1, fs) ops ++ results L F (run L F (gs1, fs) ops) [.save]) := by
    show _ :: results L F (step L F (gs, fs) (.rebuild v)).1 (ops ++ [.save]) = _
    rw [hw1, results_append]
  have ecalls : ∀ n, (S n).history n (calls L F (gs, fs) (.rebuild v :: ops ++ [.save])) = (S n).history n (calls L F (gs1, fs) ops) := by
    intro n
    show ((S n).after n (call (gs, fs) (.rebuild v) (step L F (gs, fs) (.rebuild v)).2)).history n (calls L F (step L F (gs, fs) (.rebuild v)).1 (ops ++ [.save])) = _
    rw [hw1, calls_append, history_append]
    rfl
  have hknown : ∀ n, (S n).history n (calls L F (gs1, fs) ops) ≠ .unknown := fun n =>
    known_run n ops (gs1, fs) (S n) (fun r hr => hok r (by rw [eres]; simp [hr])) (hS n).1
  have hsave : (writeContents F (run L F (gs1, fs) ops)).2 = .ok () := hok _ (by rw [eres]; simp [results, step])
  have hdirw : (run L F (gs1, fs) ops).1.dir = dir := (run_dir ops (gs1, fs)).trans hdir1
  have hcan : (run L F (gs1, fs) ops).2.canon = fs.canon := run_canon ops (gs1, fs)
  have hav := (hpre ops (List.prefix_refl ops)).2
  rw [erun]
  simp only [ecalls]
  generalize run L F (gs1, fs) ops = w1 at hagree hend hsave hdirw hcan hav
  generalize hS' : (fun n => (S n).history n (calls L F (gs1, fs) ops)) = S' at *
  have eS : ∀ n, (S n).history n (calls L F (gs1, fs) ops) = S' n := fun n => congrFun hS' n
  simp only [eS] at hknown hagree ⊢
  show Holds L F N dir (writeContents F w1).1.2 S'
  have hwp : writePlist F w1.1.havePrevious w1.2 (w1.1.dir ++ [contentsName]) (contentsVal w1.1.contents) = ((writeContents F w1).1.2, .ok ()) := Prod.ext rfl hsave
  obtain ⟨-, hkeep, h3⟩ := writePlist_spec hwp
  obtain ⟨data, h4, h5⟩ := h3 rfl
  have hfound : ∀ n f, Dict.get? w1.1.contents n = some f → ∃ d, w1.2.getbytes (w1.1.dir ++ [f]) = .ok d := by
    intro n f hf
    have h1 := hagree n
    have h2 := hknown n
    revert h1 h2
    cases S' n with
    | unknown => intro _ h; exact absurd rfl h
    | absent => intro h; rw [show Dict.get? w1.1.contents n = none from h] at hf; cases hf
    | holds d =>
      rintro ⟨g, hg, hb⟩ -
      rw [hf] at hg
      cases hg
      exact ⟨d, hb⟩
  obtain ⟨gs2, hopen, heq⟩ := open_saved F hF _ w1.1.dir w1.1.contents hend.sound.wf
    (fun n f hf => by obtain ⟨e1, e2⟩ := hend.good n f hf; exact ⟨hT n e1, by rw [e2]; exact ownFile_text (hT n e1)⟩) data h4 h5
    (fun n f hf => exists_writePlist hwp (by obtain ⟨d, hb⟩ := hfound n f hf; exact exists_of_getbytes hb)) 3 (by simp) true
  have hdir2 : gs2.dir = w1.1.dir := (Restart.open_ok hopen).2.1
  refine ⟨gs2, by rw [← hdirw]; exact hopen, fun n f hf => hend.good n f (by rw [← heq n]; exact hf), fun n => ⟨hknown n, ?_⟩⟩
  have h1 := hagree n
  revert h1
  cases S' n with
  | unknown => exact id
  | absent => intro h; exact (heq n).trans h
  | holds d =>
    rintro ⟨f, hf, hb⟩
    refine ⟨f, (heq n).trans hf, ?_⟩
    show (writeContents F w1).1.2.getbytes (gs2.dir ++ [f]) = _
    rw [hdir2, getbytes_of_node? (hkeep _ ?_)]
    · exact hb
    · intro hk
      have := LayerShared.key_snoc hk
      rw [hcan] at this
      exact hav n f hf this

/-! ### many programs -/

theorem set_get {s : Sharing} {i : Nat} {gs g : GlyphSet} (h : s.sets[i]? = some gs) : (s.sets.set i g)[i]? = some g := by
  rw [List.getElem?_set_self]
  exact (List.getElem?_eq_some_iff.1 h).1

theorem shared_one (i : Nat) (ops : List Op) : ∀ (s : Sharing) (gs : GlyphSet), s.sets[i]? = some gs →
    s.run L F (ops.map fun op => (i, op)) = ⟨s.sets.set i (run L F (gs, s.fs) ops).1, (run L F (gs, s.fs) ops).2⟩ ∧
    record L F s (ops.map fun op => (i, op)) = calls L F (gs, s.fs) ops ∧
    s.outcomes L F i (ops.map fun op => (i, op)) = results L F (gs, s.fs) ops := by
  induction ops with
  | nil =>
    intro s gs h
    refine ⟨?_, rfl, rfl⟩
    show s = ⟨s.sets.set i gs, s.fs⟩
    have : s.sets.set i gs = s.sets := by
      apply List.ext_getElem?
      intro j
      by_cases e : i = j
      · subst e; rw [set_get h, h]
      · rw [List.getElem?_set_ne e]
    rw [this]
  | cons op ops ih =>
    intro s gs h
    have hstep : s.step L F i op = (⟨s.sets.set i (GlyphSet.step L F (gs, s.fs) op).1.1, (GlyphSet.step L F (gs, s.fs) op).1.2⟩, some (GlyphSet.step L F (gs, s.fs) op).2) := by
      unfold Sharing.step; rw [h]
    obtain ⟨h1, h2, h3⟩ := ih (s.step L F i op).1 (GlyphSet.step L F (gs, s.fs) op).1.1 (by rw [hstep]; exact set_get h)
    refine ⟨?_, ?_, ?_⟩
    · show (s.step L F i op).1.run L F _ = _
      rw [h1, hstep]
      dsimp only
      rw [List.set_set]
      rfl
    · show (match s.sets[i]? with
        | none => []
        | some gs => [Spec.GlyphSet.call (gs, s.fs) op (GlyphSet.step L F (gs, s.fs) op).2]) ++ record L F (s.step L F i op).1 _ = _
      rw [h2, h, hstep]
      rfl
    · show (if i = i then (s.step L F i op).2.toList else []) ++ Sharing.outcomes L F i (s.step L F i op).1 _ = _
      rw [h3, hstep, if_pos rfl]
      rfl

theorem shared_none (i : Nat) (ops : List Op) : ∀ (s : Sharing), s.sets[i]? = none →
    s.run L F (ops.map fun op => (i, op)) = s ∧ record L F s (ops.map fun op => (i, op)) = [] := by
  induction ops with
  | nil => exact fun _ _ => ⟨rfl, rfl⟩
  | cons op ops ih =>
    intro s h
    have hstep : (s.step L F i op).1 = s := by unfold Sharing.step; rw [h]
    obtain ⟨h1, h2⟩ := ih s h
    refine ⟨?_, ?_⟩
    · show (s.step L F i op).1.run L F _ = _
      rw [hstep, h1]
    · show (match s.sets[i]? with
        | none => []
        | some gs => [Spec.GlyphSet.call (gs, s.fs) op (GlyphSet.step L F (gs, s.fs) op).2]) ++ record L F (s.step L F i op).1 _ = _
      rw [hstep, h2, h]
      rfl

theorem shared_append (a b : List (Nat × Op)) : ∀ s : Sharing, s.run L F (a ++ b) = (s.run L F a).run L F b ∧ record L F s (a ++ b) = record L F s a ++ record L F (s.run L F a) b ∧
    ∀ i, s.outcomes L F i (a ++ b) = s.outcomes L F i a ++ (s.run L F a).outcomes L F i b := by
  induction a with
  | nil => exact fun s => ⟨rfl, rfl, fun _ => rfl⟩
  | cons e a ih =>
    obtain ⟨j, op⟩ := e
    intro s
    obtain ⟨h1, h2, h3⟩ := ih (s.step L F j op).1
    refine ⟨h1, ?_, fun i => ?_⟩
    · show _ ++ record L F (s.step L F j op).1 (a ++ b) = (_ ++ record L F (s.step L F j op).1 a) ++ _
      rw [h2, List.append_assoc]
      rfl
    · show _ ++ Sharing.outcomes L F i (s.step L F j op).1 (a ++ b) = (_ ++ Sharing.outcomes L F i (s.step L F j op).1 a) ++ _
      rw [h3, List.append_assoc]
      rfl

/-- The expectations after the calls of some turns. -/
theorem turns_run (hL : CaseLaws L.lower) (hF : F.Lawful) {N : Str → Prop} (hN : OwnFiles L.lower N) (hT : ∀ n, N n → Spec.Plist.FileText n) {dir : Path} : ∀ (turns : List Turn) (s : Sharing)
    (S : Str → Status), (∀ a b, s.fs.canon a = s.fs.canon b → L.lower a = L.lower b) → Holds L F N dir s.fs S → (∀ gs ∈ s.sets, gs.dir = dir) →
    (∀ t ∈ turns, ∀ op ∈ t.ops, (∀ v, op ≠ .rebuild v) ∧ ∀ naming n fv data, op = .write naming n fv data → naming = defaultNaming L ∧ N n) →
    (∀ i, ∀ r ∈ s.outcomes L F i (schedule turns), r = .ok ()) →
    Holds L F N dir (s.run L F (schedule turns)).fs fun n => (S n).history n (record L F s (schedule turns)) := by
  intro turns
  induction turns with
  | nil => exact fun s S _ h _ _ _ => h
  | cons t turns ih =>
    intro s S hcanon h hdir hops hok
    obtain ⟨i, v, ops⟩ := t
    obtain ⟨e1, e2, e3⟩ := shared_append (L := L) (F := F) ((Op.rebuild v :: ops ++ [Op.save]).map fun op => (i, op)) (schedule turns) s
    have esch : schedule (⟨i, v, ops⟩ :: turns) = ((Op.rebuild v :: ops ++ [Op.save]).map fun op => (i, op)) ++ schedule turns := rfl
    rw [esch] at hok ⊢
    rw [e1, e2]
    simp only [history_append]
    simp only [e3] at hok
    cases hg : s.sets[i]? with
    | none =>
      obtain ⟨n1, n2⟩ := shared_none (L := L) (F := F) i (Op.rebuild v :: ops ++ [Op.save]) s hg
      rw [n1, n2]
      exact ih s S hcanon h hdir (fun t ht => hops t (List.mem_cons_of_mem _ ht)) (fun j r hr => hok j r (by rw [n1]; exact List.mem_append_right _ hr))
    | some gs =>
      obtain ⟨s1, s2, s3⟩ := shared_one (L := L) (F := F) i (Op.rebuild v :: ops ++ [Op.save]) s gs hg
      have hgs := hdir gs (List.mem_of_getElem? hg)
      have hops1 := hops _ (List.mem_cons_self)
      have hturn := turn_world hL hF hN hT hcanon h hgs v ops (fun op ho => (hops1 op ho).1) (fun op ho => (hops1 op ho).2)
        (fun r hr => hok i r (List.mem_append_left _ (by rw [s3]; exact hr)))
      rw [s1, s2]
      refine ih _ _ ?_ hturn ?_ (fun t ht => hops t (List.mem_cons_of_mem _ ht)) (fun j r hr => hok j r (List.mem_append_right _ (by rw [s1]; exact hr)))
      · intro a b hab
        refine hcanon a b ?_
        have := run_canon (L := L) (F := F) (Op.rebuild v :: ops ++ [Op.save]) (gs, s.fs)
        dsimp only at hab
        rw [this] at hab
        exact hab
      · intro g hg'
        rcases List.mem_or_eq_of_mem_set hg' with hm | rfl
        · exact hdir g hm
        · exact (run_dir _ (gs, s.fs)).trans hgs

end Verif.Proofs.LayerTurns
