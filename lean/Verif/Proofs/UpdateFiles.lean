import Verif.Proofs.FileObjects
import Verif.Spec.UpdateFiles
/-! Files opened for updating behave as arrays. -/
namespace Verif.Proofs.UpdateFiles
open Verif Verif.FS Verif.IO Verif.PathNames Verif.Props Verif.UpdateFiles Verif.Spec.UpdateFiles
open Verif.FileObjects (Mode File)
open Verif.Ufo (setbytes_files)

theorem overlay_nil (d : Bytes) (off : Nat) : overlay d off [] = d := by simp [overlay]

theorem pad_length (d : Bytes) (off : Nat) : ((d ++ List.replicate (off - d.length) 0).take off).length = off := by
  simp only [List.length_take, List.length_append, List.length_replicate]
  omega

theorem overlay_end (d b : Bytes) : overlay d d.length b = d ++ b := by
  unfold overlay
  split
  · next h => simp [h]
  · simp

theorem overlay_append (d : Bytes) (off : Nat) (a b : Bytes) : overlay (overlay d off a) (off + a.length) b = overlay d off (a ++ b) := by
  by_cases ha : a = []
  · subst ha; simp [overlay_nil]
  by_cases hb : b = []
  · subst hb; simp [overlay_nil]
  have hab : a ++ b ≠ [] := by simp [ha]
  have hl := pad_length d off
  unfold overlay
  rw [if_neg hb, if_neg ha, if_neg hab]
  generalize (d ++ List.replicate (off - d.length) 0).take off = pad at hl ⊢
  have hpa : (pad ++ a).length = off + a.length := by simp [hl]
  have h0 : off + a.length - (pad ++ a ++ d.drop (off + a.length)).length = 0 := by
    simp only [List.length_append] at hpa ⊢
    omega
  rw [h0, List.replicate_zero, List.append_nil, ← hpa, List.take_left', List.append_assoc (pad ++ a), ← List.append_assoc pad a b, ← List.append_assoc]
  · congr 1
    rw [List.drop_append, List.drop_eq_nil_of_le (by omega), List.nil_append, Nat.add_sub_cancel_left, List.drop_drop, hpa]
    congr 1
    simp only [List.length_append]
    omega
  · rfl

theorem overlay_put (d : Bytes) (off : Nat) (b : Bytes) : Put d off b (overlay d off b) := by
  intro i
  by_cases hb : b = []
  · subst hb
    simp [overlay_nil]
  have hl := pad_length d off
  unfold overlay
  rw [if_neg hb]
  by_cases h1 : i < off
  · rw [if_neg (by omega), List.append_assoc, List.getElem?_append_left (by rw [hl]; exact h1), List.getElem?_take_of_lt h1]
    by_cases h2 : i < d.length
    · rw [if_neg (by omega), List.getElem?_append_left h2]
    · rw [if_pos ⟨h1, by omega, hb⟩, List.getElem?_append_right (by omega), List.getElem?_replicate, if_pos (by omega)]
  · by_cases h2 : i < off + b.length
    · rw [if_pos ⟨by omega, h2⟩, List.append_assoc, List.getElem?_append_right (by rw [hl]; omega), hl, List.getElem?_append_left (by omega)]
    · rw [if_neg (by omega), if_neg (by omega), List.getElem?_append_right (by rw [List.length_append, hl]; omega), List.length_append, hl, List.getElem?_drop]
      congr 1
      omega

theorem resize_resized (d : Bytes) (n : Nat) : Resized d n (resize d n) := by
  intro i
  unfold resize
  by_cases h1 : n ≤ i
  · rw [if_pos h1]
    apply List.getElem?_eq_none
    simp only [List.length_append, List.length_take, List.length_replicate]
    omega
  · rw [if_neg h1]
    by_cases h2 : d.length ≤ i
    · rw [if_pos h2, List.getElem?_append_right (by simp only [List.length_take]; omega), List.getElem?_replicate, if_pos (by simp only [List.length_take]; omega)]
    · rw [if_neg h2, List.getElem?_append_left (by simp only [List.length_take]; omega), List.getElem?_take_of_lt (by omega)]

theorem replace_other (fs : FS) (p : Path) (g : Bytes → Bytes) : (replace fs p g).canon = fs.canon ∧ ∀ q, fs.key q ≠ fs.key p → (replace fs p g).node? q = fs.node? q := by
  unfold replace
  split
  · exact ⟨rfl, fun _ _ => rfl⟩
  · split
    · exact ⟨rfl, fun _ _ => rfl⟩
    · rename_i h
      obtain ⟨c, -, -, o⟩ := setbytes_files h
      exact ⟨c, o⟩

theorem replace_spec {fs : FS} {p : Path} {d : Bytes} (h : fs.getbytes p = .ok d) (hdir : fs.node? p.dropLast = some .dir) (g : Bytes → Bytes) :
    (replace fs p g).getbytes p = .ok (g d) ∧ (replace fs p g).node? p.dropLast = some .dir := by
  have hp := Verif.FileObjects.ne_nil_of_file h
  obtain ⟨fs', h1⟩ : ∃ fs', fs.setbytes p (g d) = .ok fs' := by
    rw [setbytes_of _ hdir (by rw [getbytes_ok.1 h]; simp)]
    exact ⟨_, rfl⟩
  have e : replace fs p g = fs' := by unfold replace; rw [h]; dsimp only; rw [h1]
  rw [e]
  obtain ⟨c, g, -, o⟩ := setbytes_files h1
  exact ⟨g, by rw [o _ (Verif.FileObjects.node?_dropLast_ne hp)]; exact hdir⟩

/-- Where the bytes kept back go. -/
def place (u : Update) (d : Bytes) : Nat := if u.append = true ∧ u.pending ≠ [] then d.length else u.start

/-- The file with the bytes kept back is the array. -/
structure Holds (W : Bytes) (s : Update × FS) (pl : Plain) : Prop where
  disk : ∃ d, s.2.getbytes s.1.path = .ok d ∧ pl.data = overlay d (place s.1 d) s.1.pending ∧ pl.position = place s.1 d + s.1.pending.length
  dir : s.2.node? s.1.path.dropLast = some .dir
  closed : s.1.closed = pl.closed
  none : pl.closed = true → s.1.pending = []
  tail : s.1.pending <:+ W

theorem flush_same (s : Update × FS) (n : Nat) : (flush s n).1.path = s.1.path ∧ (flush s n).1.append = s.1.append ∧ (flush s n).1.closed = s.1.closed ∧
    (flush s n).1.pending = s.1.pending.drop n := by
  unfold flush
  split
  · next h =>
    refine ⟨rfl, rfl, rfl, ?_⟩
    have := List.take_append_drop n s.1.pending
    rw [h] at this
    exact this.symm
  · split <;> exact ⟨rfl, rfl, rfl, rfl⟩

theorem flush_other (s : Update × FS) (n : Nat) : (flush s n).2.canon = s.2.canon ∧ ∀ q, s.2.key q ≠ s.2.key s.1.path → (flush s n).2.node? q = s.2.node? q := by
  unfold flush
  split
  · exact ⟨rfl, fun _ _ => rfl⟩
  · split
    · exact ⟨rfl, fun _ _ => rfl⟩
    · exact replace_other _ _ _

theorem flush_holds {W : Bytes} {s : Update × FS} {pl : Plain} (h : Holds W s pl) (n : Nat) : Holds W (flush s n) pl := by
  obtain ⟨e1, e2, e3, e4⟩ := flush_same s n
  obtain ⟨d, h1, h2, h3⟩ := h.disk
  refine ⟨?_, ?_, e3.trans h.closed, fun hc => by rw [e4, h.none hc]; simp, by rw [e4]; exact (List.drop_suffix _ _).trans h.tail⟩
  · by_cases ht : s.1.pending.take n = []
    · have : flush s n = s := by unfold flush; rw [if_pos ht]
      rw [this]
      exact h.disk
    · have hne : s.1.pending ≠ [] := fun h => ht (by simp [h])
      have hp : place s.1 d = if s.1.append then d.length else s.1.start := by
        unfold place
        cases s.1.append <;> simp [hne]
      have hf : flush s n = ({ s.1 with start := place s.1 d + (s.1.pending.take n).length, pending := s.1.pending.drop n },
          replace s.2 s.1.path fun x => overlay x (place s.1 d) (s.1.pending.take n)) := by
        unfold flush
        rw [if_neg ht, h1, hp]
      rw [hf]
      refine ⟨_, (replace_spec h1 h.dir _).1, ?_⟩
      have hpl : place { s.1 with start := place s.1 d + (s.1.pending.take n).length, pending := s.1.pending.drop n } (overlay d (place s.1 d) (s.1.pending.take n)) =
          place s.1 d + (s.1.pending.take n).length := by
        generalize hq : place s.1 d = off at hp
        unfold place
        dsimp only
        split
        · next hh =>
          have : off = d.length := by rw [hp, hh.1]; rfl
          rw [this, overlay_end]
          simp
        · rfl
      rw [hpl]
      dsimp only
      rw [overlay_append, List.take_append_drop]
      refine ⟨h2, ?_⟩
      rw [h3, Nat.add_assoc, ← List.length_append, List.take_append_drop]
  · unfold flush
    split
    · exact h.dir
    · rw [h1]
      exact (replace_spec h1 h.dir _).2

/-- After everything went to the disk, the file is the array. -/
theorem flushAll_holds {W : Bytes} {s : Update × FS} {pl : Plain} (h : Holds W s pl) : Holds W (flushAll s) pl ∧ (flushAll s).1.pending = [] ∧
    (flushAll s).2.getbytes s.1.path = .ok pl.data ∧ (flushAll s).1.start = pl.position ∧ (flushAll s).1.path = s.1.path ∧ (flushAll s).1.append = s.1.append := by
  have h' : Holds W (flushAll s) pl := flush_holds h _
  obtain ⟨e1, e2, e3, e4⟩ := flush_same s s.1.pending.length
  have e4 : (flushAll s).1.pending = [] := e4.trans (by simp)
  obtain ⟨d, h1, h2, h3⟩ := h'.disk
  have hp : place (flushAll s).1 d = (flushAll s).1.start := by unfold place; simp [e4]
  rw [e4, overlay_nil] at h2
  rw [e4, hp] at h3
  exact ⟨h', e4, by rw [h2, ← h1]; exact congrArg _ e1.symm, h3.symm, e1, e2⟩

theorem holds_empty {W : Bytes} {u : Update} {fs : FS} {pl : Plain} (he : u.pending = []) (hd : fs.getbytes u.path = .ok pl.data) (hs : u.start = pl.position)
    (hdir : fs.node? u.path.dropLast = some .dir) (hc : u.closed = pl.closed) : Holds W (u, fs) pl := by
  refine ⟨⟨pl.data, hd, ?_, ?_⟩, hdir, hc, fun _ => he, by rw [he]; exact List.nil_suffix⟩
  · dsimp only; rw [he, overlay_nil]
  · dsimp only
    have : place u pl.data = u.start := by unfold place; simp [he]
    rw [he, this, hs]
    rfl

theorem event_holds {W : Bytes} {s : Update × FS} {pl : Plain} (h : Holds W s pl) (e : Event) (hu : ∀ fs, e = .other fs → Spec.FileObjects.Leaves s.1.path s.2 fs) :
    ∃ pl', Plain.Event s.1.append pl e pl' (event s e).2 ∧ Holds (W ++ written [e]) (event s e).1 pl' ∧ (event s e).1.1.path = s.1.path ∧ (event s e).1.1.append = s.1.append := by
  obtain ⟨f1, f2, f3, f4, f5, f6⟩ := flushAll_holds h
  have hW : ∀ (s' : Update × FS) (pl' : Plain) (x : Bytes), Holds W s' pl' → s'.1.pending = [] → Holds (W ++ x) s' pl' := fun s' pl' x h' e =>
    ⟨h'.disk, h'.dir, h'.closed, h'.none, by rw [e]; exact List.nil_suffix⟩
  by_cases hc : pl.closed = true
  · have hsc : s.1.closed = true := h.closed.trans hc
    have hs := hW s pl (written [e]) h (h.none hc)
    cases e with
    | other fs =>
      obtain ⟨d, h1, h2, h3⟩ := h.disk
      exact ⟨pl, .other _ _, ⟨⟨d, by rw [← h1]; exact (hu fs rfl).1, h2, h3⟩, by rw [← h.dir]; exact (hu fs rfl).2, h.closed, h.none, hs.tail⟩, rfl, rfl⟩
    | flush n =>
      have : event s (.flush n) = (s, .ok []) := by simp [event, hsc]
      rw [this]; exact ⟨pl, .flush _ _, hs, rfl, rfl⟩
    | close =>
      have : event s .close = (s, .ok []) := by simp [event, hsc]
      rw [this]
      refine ⟨{ pl with closed := true }, .close _, ?_, rfl, rfl⟩
      have : ({ pl with closed := true } : Plain) = pl := by cases pl; cases hc; rfl
      rw [this]; exact hs
    | seek n =>
      have : event s (.seek n) = (s, .error .valueError) := by simp [event, hsc]
      rw [this]; exact ⟨pl, .closed _ hc _ (by simp), hs, rfl, rfl⟩
    | write n =>
      have : event s (.write n) = (s, .error .valueError) := by simp [event, hsc]
      rw [this]; exact ⟨pl, .closed _ hc _ (by simp), hs, rfl, rfl⟩
    | truncate n =>
      have : event s (.truncate n) = (s, .error .valueError) := by simp [event, hsc]
      rw [this]; exact ⟨pl, .closed _ hc _ (by simp), hs, rfl, rfl⟩
    | read n =>
      have : event s (.read n) = (s, .error .valueError) := by simp [event, hsc]
      rw [this]; exact ⟨pl, .closed _ hc _ (by simp), hs, rfl, rfl⟩
  · have hc : pl.closed = false := by simpa using hc
    have hsc : s.1.closed = false := h.closed.trans hc
    obtain ⟨data, position, closed⟩ := pl
    dsimp only at hc
    subst hc
    cases e with
    | other fs =>
      obtain ⟨d, h1, h2, h3⟩ := h.disk
      exact ⟨_, .other _ _, ⟨⟨d, by rw [← h1]; exact (hu fs rfl).1, h2, h3⟩, by rw [← h.dir]; exact (hu fs rfl).2, h.closed, h.none, by simp only [written, List.append_nil]; exact h.tail⟩, rfl, rfl⟩
    | flush n =>
      have : event s (.flush n) = (flush s n, .ok []) := by simp [event, hsc]
      rw [this]
      have hf := flush_holds h n
      exact ⟨_, .flush _ _, by simpa [written] using hf, (flush_same s n).1, (flush_same s n).2.1⟩
    | close =>
      have : event s .close = (({ (flushAll s).1 with closed := true }, (flushAll s).2), .ok []) := by simp [event, hsc]
      rw [this]
      refine ⟨_, .close _, holds_empty f2 (by dsimp only; rw [f5]; exact f3) f4 (by exact f1.dir) rfl, f5, f6⟩
    | seek n =>
      have : event s (.seek n) = (({ (flushAll s).1 with start := n }, (flushAll s).2), .ok []) := by simp [event, hsc]
      rw [this]
      exact ⟨_, .seek _ _ _, holds_empty f2 (by dsimp only; rw [f5]; exact f3) rfl (by exact f1.dir) (by exact f1.closed), f5, f6⟩
    | truncate n =>
      have : event s (.truncate n) = (((flushAll s).1, replace (flushAll s).2 s.1.path fun d => resize d n), .ok []) := by simp [event, hsc]
      rw [this]
      have hdir : (flushAll s).2.node? s.1.path.dropLast = some .dir := by rw [← f5]; exact f1.dir
      obtain ⟨g1, g2⟩ := replace_spec f3 hdir fun d => resize d n
      exact ⟨_, .truncate _ _ _ _ (resize_resized _ _), holds_empty f2 (by rw [f5]; exact g1) f4 (by rw [f5]; exact g2) (by exact f1.closed), f5, f6⟩
    | read n =>
      have : event s (.read n) = (({ (flushAll s).1 with start := (flushAll s).1.start + ((data.drop (flushAll s).1.start).take n).length }, (flushAll s).2),
          .ok ((data.drop (flushAll s).1.start).take n)) := by
        simp only [event, hsc, f3]
        rfl
      rw [this, f4]
      exact ⟨_, .read _ _ _ _ rfl, holds_empty f2 (by dsimp only; rw [f5]; exact f3) rfl (by exact f1.dir) (by exact f1.closed), f5, f6⟩
    | write b =>
      have he : event s (.write b) = (({ s.1 with pending := s.1.pending ++ b }, s.2), .ok []) := by simp [event, hsc]
      rw [he]
      by_cases hb : b = []
      · subst hb
        refine ⟨_, .nothing _ rfl, ?_, rfl, rfl⟩
        simpa [written] using h
      · obtain ⟨d, h1, h2, h3⟩ := h.disk
        dsimp only at h2 h3
        refine ⟨_, .write data _ b position hb (overlay_put _ _ _), ⟨⟨d, h1, ?_, ?_⟩, h.dir, h.closed, (fun hh => by cases hh), ?_⟩, rfl, rfl⟩
        all_goals dsimp only
        · have hoff : (if s.1.append = true then data.length else position) = place { s.1 with pending := s.1.pending ++ b } d + s.1.pending.length := by
            unfold place at h2 h3 ⊢
            dsimp only
            cases ha : s.1.append with
            | false => simp [ha] at h3 ⊢; exact h3
            | true =>
              simp only [ha, true_and, if_true, hb, ne_eq, List.append_eq_nil_iff, and_false, not_false_eq_true] at h2 ⊢
              by_cases hp : s.1.pending = []
              · simp only [hp, overlay_nil] at h2; rw [h2, hp]; rfl
              · rw [if_pos hp, overlay_end] at h2; rw [h2, List.length_append]
          have hpl : overlay d (place { s.1 with pending := s.1.pending ++ b } d) s.1.pending = data := by
            by_cases hp : s.1.pending = []
            · rw [h2, hp, overlay_nil, overlay_nil]
            · rw [h2]; congr 1; unfold place; simp [hp]
          rw [hoff, ← overlay_append, hpl]
        · have hoff : (if s.1.append = true then data.length else position) = place { s.1 with pending := s.1.pending ++ b } d + s.1.pending.length := by
            unfold place at h2 h3 ⊢
            dsimp only
            cases ha : s.1.append with
            | false => simp [ha] at h3 ⊢; exact h3
            | true =>
              simp only [ha, true_and, if_true, hb, ne_eq, List.append_eq_nil_iff, and_false, not_false_eq_true] at h2 ⊢
              by_cases hp : s.1.pending = []
              · simp only [hp, overlay_nil] at h2; rw [h2, hp]; rfl
              · rw [if_pos hp, overlay_end] at h2; rw [h2, List.length_append]
          rw [hoff, List.length_append, Nat.add_assoc]
        · obtain ⟨x, hx⟩ := h.tail
          exact ⟨x, by rw [← hx]; simp [written]⟩

theorem events_holds : ∀ (es : List Event) (W : Bytes) (s : Update × FS) (pl : Plain), Holds W s pl → Undisturbed s es →
    ∃ pl', Plain.Events s.1.append pl es pl' (events s es).2 ∧ Holds (W ++ written es) (events s es).1 pl' ∧ (events s es).1.1.path = s.1.path
  | [], W, s, pl, h, _ => ⟨pl, .nil _, by simpa [written, events] using h, rfl⟩
  | e :: es, W, s, pl, h, hu => by
    obtain ⟨pl1, h1, h2, h3, h4⟩ := event_holds h e fun fs he => by subst he; exact hu.1
    have hu' : Undisturbed (event s e).1 es := by cases e <;> first | exact hu | exact hu.2
    obtain ⟨pl', i1, i2, i3⟩ := events_holds es _ _ pl1 h2 hu'
    rw [h4] at i1
    refine ⟨pl', .cons h1 i1, ?_, i3.trans h3⟩
    have : W ++ written [e] ++ written es = W ++ written (e :: es) := by cases e <;> simp [written]
    rw [← this]
    exact i2

theorem event_other (s : Update × FS) (e : Event) (h : ∀ fs, e ≠ .other fs) :
    (event s e).1.1.path = s.1.path ∧ (event s e).1.2.canon = s.2.canon ∧ ∀ q, s.2.key q ≠ s.2.key s.1.path → (event s e).1.2.node? q = s.2.node? q := by
  have ha := flush_other s s.1.pending.length
  have hp : (flushAll s).1.path = s.1.path := (flush_same s s.1.pending.length).1
  have ha : (flushAll s).2.canon = s.2.canon ∧ ∀ q, s.2.key q ≠ s.2.key s.1.path → (flushAll s).2.node? q = s.2.node? q := ha
  cases hc : s.1.closed with
  | true => cases e <;> first | exact absurd rfl (h _) | (simp [event, hc])
  | false =>
    cases e with
    | other fs => exact absurd rfl (h fs)
    | flush n => simp only [event, hc]; exact ⟨(flush_same s n).1, flush_other s n⟩
    | close => simp only [event, hc]; exact ⟨hp, ha⟩
    | seek n => simp only [event, hc]; exact ⟨hp, ha⟩
    | write b => simp [event, hc]
    | truncate n =>
      simp only [event, hc]
      obtain ⟨r1, r2⟩ := replace_other (flushAll s).2 s.1.path fun d => resize d n
      refine ⟨hp, r1.trans ha.1, fun q hq => ?_⟩
      rw [← ha.2 q hq]
      refine r2 q ?_
      unfold FS.key at hq ⊢
      rw [ha.1]
      exact hq
    | read n =>
      unfold event
      dsimp only
      rw [hc]
      cases (flushAll s).2.getbytes s.1.path with
      | error e => exact ⟨hp, ha⟩
      | ok d => exact ⟨hp, ha⟩

theorem events_other : ∀ (es : List Event) (s : Update × FS), Alone es → (events s es).1.2.canon = s.2.canon ∧
    ∀ q, s.2.key q ≠ s.2.key s.1.path → (events s es).1.2.node? q = s.2.node? q
  | [], _, _ => ⟨rfl, fun _ _ => rfl⟩
  | e :: es, s, h => by
    obtain ⟨a, b, c⟩ := event_other s e (h e (by simp))
    obtain ⟨i1, i2⟩ := events_other es (event s e).1 fun e' he' => h e' (by simp [he'])
    refine ⟨i1.trans b, fun q hq => ?_⟩
    rw [← c q hq]
    refine i2 q ?_
    unfold FS.key at hq ⊢
    rw [a, b]
    exact hq

end Verif.Proofs.UpdateFiles
