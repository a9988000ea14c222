import Verif.Proofs.PathNamesFrame
import Verif.Spec.FileObjects
/-! Lemmas about open files. -/
namespace Verif.FileObjects
open Verif Verif.FS Verif.IO Verif.Ufo Verif.PathNames Verif.Spec.FileObjects Verif.Props

theorem node?_dropLast_ne {fs : FS} {p : Path} (hp : p ≠ []) : fs.key p.dropLast ≠ fs.key p := by
  intro h
  have := congrArg List.length h
  simp only [FS.key, List.length_map, List.length_dropLast] at this
  have : p.length ≠ 0 := fun h => hp (List.length_eq_zero_iff.1 h)
  omega

theorem ne_nil_of_file {fs : FS} {p : Path} {d : Bytes} (h : fs.getbytes p = .ok d) : p ≠ [] := by
  rintro rfl
  rw [getbytes_ok] at h
  simp [node?] at h

theorem putBytes_spec {fs : FS} {p : Path} {d : Bytes} (h : fs.getbytes p = .ok d) (hdir : fs.node? p.dropLast = some .dir) (b : Bytes) :
    (putBytes fs p b).getbytes p = .ok (d ++ b) ∧ (putBytes fs p b).node? p.dropLast = some .dir ∧ (putBytes fs p b).canon = fs.canon ∧
    ∀ q, fs.key q ≠ fs.key p → (putBytes fs p b).node? q = fs.node? q := by
  have hp := ne_nil_of_file h
  obtain ⟨fs', h1⟩ : ∃ fs', fs.setbytes p (d ++ b) = .ok fs' := by
    rw [setbytes_of _ hdir (by rw [getbytes_ok.1 h]; simp)]
    exact ⟨_, rfl⟩
  have e : putBytes fs p b = fs' := by unfold putBytes; rw [h]; dsimp only; rw [h1]
  rw [e]
  obtain ⟨c, g, -, o⟩ := setbytes_files h1
  exact ⟨g, by rw [o _ (node?_dropLast_ne hp)]; exact hdir, c, o⟩

/-- The file holds what it began with and a part of what was sent; the rest is kept back. -/
structure Holds (base done : Bytes) (s : File × FS) : Prop where
  content : ∃ c, s.2.getbytes s.1.path = .ok (base ++ c) ∧ c ++ s.1.pending = done
  dir : s.2.node? s.1.path.dropLast = some .dir
  closed : s.1.closed = false
  mode : s.1.mode ≠ .r

theorem closed_run : ∀ (es : List Event) (s : File × FS) (d : Bytes), s.1.closed = true → s.2.getbytes s.1.path = .ok d → Undisturbed s es →
    (events s es).2.getbytes s.1.path = .ok d
  | [], _, _, _, h, _ => h
  | .write w :: es, s, d, hc, h, hu => by
    have e : event s (.write w) = (s, .error .valueError) := by unfold event; simp [hc]
    unfold events; unfold Undisturbed at hu; rw [e] at hu ⊢
    exact closed_run es s d hc h hu
  | .writeText t :: es, s, d, hc, h, hu => by
    have e : event s (.writeText t) = (s, .error .valueError) := by unfold event; simp [hc]
    unfold events; unfold Undisturbed at hu; rw [e] at hu ⊢
    exact closed_run es s d hc h hu
  | .close :: es, s, d, hc, h, hu => by
    have e : event s .close = (({ s.1 with pending := [], closed := true }, s.2), .ok ()) := by unfold event; simp [hc]
    unfold events; unfold Undisturbed at hu; rw [e] at hu ⊢
    exact closed_run es ({ s.1 with pending := [], closed := true }, s.2) d rfl h hu
  | .flush n :: es, s, d, hc, h, hu => by
    have e : event s (.flush n) = (({ s.1 with pending := s.1.pending.drop n }, s.2), .ok ()) := by unfold event; simp [hc]
    unfold events; unfold Undisturbed at hu; rw [e] at hu ⊢
    exact closed_run es ({ s.1 with pending := s.1.pending.drop n }, s.2) d hc h hu
  | .other fs :: es, s, d, hc, h, hu => by
    unfold events; unfold Undisturbed at hu
    exact closed_run es (s.1, fs) d hc (by rw [hu.1.1]; exact h) hu.2

theorem holds_run : ∀ (es : List Event) (s : File × FS) (base done : Bytes), Holds base done s → Undisturbed s es →
    ∃ c, c <+: done ++ sent es ∧ (Closed es → c = done ++ sent es) ∧ (events s es).2.getbytes s.1.path = .ok (base ++ c)
  | [], s, base, done, h, _ => by
    obtain ⟨c, h1, h2⟩ := h.content
    exact ⟨c, by rw [sent, List.append_nil, ← h2]; exact List.prefix_append _ _, (fun hc => absurd hc (by unfold Closed; simp)), h1⟩
  | .write d :: es, s, base, done, h, hu => by
    have e : event s (.write d) = (({ s.1 with pending := s.1.pending ++ d }, s.2), .ok ()) := by unfold event; simp [h.closed, h.mode]
    unfold events; unfold Undisturbed at hu; rw [e] at hu ⊢
    obtain ⟨c, h1, h2⟩ := h.content
    obtain ⟨c', i1, i2, i3⟩ := holds_run es ({ s.1 with pending := s.1.pending ++ d }, s.2) base (done ++ d) ⟨⟨c, h1, by simp only; rw [← List.append_assoc, h2]⟩, h.dir, h.closed, h.mode⟩ hu
    rw [List.append_assoc] at i1 i2
    exact ⟨c', i1, fun hc => i2 (by unfold Closed at hc ⊢; simpa using hc), i3⟩
  | .writeText t :: es, s, base, done, h, hu => by
    have e : event s (.writeText t) = (({ s.1 with pending := s.1.pending ++ utf8 t }, s.2), .ok ()) := by unfold event; simp [h.closed, h.mode]
    unfold events; unfold Undisturbed at hu; rw [e] at hu ⊢
    obtain ⟨c, h1, h2⟩ := h.content
    obtain ⟨c', i1, i2, i3⟩ := holds_run es ({ s.1 with pending := s.1.pending ++ utf8 t }, s.2) base (done ++ utf8 t) ⟨⟨c, h1, by simp only; rw [← List.append_assoc, h2]⟩, h.dir, h.closed, h.mode⟩ hu
    rw [List.append_assoc] at i1 i2
    exact ⟨c', i1, fun hc => i2 (by unfold Closed at hc ⊢; simpa using hc), i3⟩
  | .close :: es, s, base, done, h, hu => by
    have e : event s .close = (({ s.1 with pending := [], closed := true }, putBytes s.2 s.1.path s.1.pending), .ok ()) := by unfold event; simp [h.closed, h.mode]
    unfold events; unfold Undisturbed at hu; rw [e] at hu ⊢
    obtain ⟨c, h1, h2⟩ := h.content
    obtain ⟨g, -, -, -⟩ := putBytes_spec h1 h.dir s.1.pending
    rw [List.append_assoc, h2] at g
    have := closed_run es ({ s.1 with pending := [], closed := true }, putBytes s.2 s.1.path s.1.pending) _ rfl g hu
    exact ⟨done, by simp [sent], fun _ => by simp [sent], this⟩
  | .flush n :: es, s, base, done, h, hu => by
    have e : event s (.flush n) = (({ s.1 with pending := s.1.pending.drop n }, putBytes s.2 s.1.path (s.1.pending.take n)), .ok ()) := by unfold event; simp [h.closed, h.mode]
    unfold events; unfold Undisturbed at hu; rw [e] at hu ⊢
    obtain ⟨c, h1, h2⟩ := h.content
    obtain ⟨g, gd, -, -⟩ := putBytes_spec h1 h.dir (s.1.pending.take n)
    rw [List.append_assoc] at g
    obtain ⟨c', i1, i2, i3⟩ := holds_run es ({ s.1 with pending := s.1.pending.drop n }, putBytes s.2 s.1.path (s.1.pending.take n)) base done
      ⟨⟨_, g, by simp only; rw [List.append_assoc, List.take_append_drop, h2]⟩, gd, h.closed, h.mode⟩ hu
    exact ⟨c', i1, fun hc => i2 (by unfold Closed at hc ⊢; simpa using hc), i3⟩
  | .other fs :: es, s, base, done, h, hu => by
    unfold events; unfold Undisturbed at hu
    obtain ⟨c, h1, h2⟩ := h.content
    obtain ⟨c', i1, i2, i3⟩ := holds_run es (s.1, fs) base done ⟨⟨c, by simp only; rw [hu.1.1]; exact h1, h2⟩, by simp only; rw [hu.1.2]; exact h.dir, h.closed, h.mode⟩ hu.2
    exact ⟨c', i1, fun hc => i2 (by unfold Closed at hc ⊢; simpa using hc), i3⟩

/-! ### other files -/

theorem putBytes_other (fs : FS) (p : Path) (b : Bytes) : (putBytes fs p b).canon = fs.canon ∧ ∀ q, fs.key q ≠ fs.key p → (putBytes fs p b).node? q = fs.node? q := by
  unfold putBytes
  split
  · exact ⟨rfl, fun _ _ => rfl⟩
  · split
    · exact ⟨rfl, fun _ _ => rfl⟩
    · rename_i h; exact ⟨(setbytes_files h).1, (setbytes_files h).2.2.2⟩

theorem event_other (s : File × FS) (e : Event) (h : ∀ fs, e ≠ .other fs) :
    (event s e).1.1.path = s.1.path ∧ (event s e).1.2.canon = s.2.canon ∧ ∀ q, s.2.key q ≠ s.2.key s.1.path → (event s e).1.2.node? q = s.2.node? q := by
  cases hb : (s.1.closed || s.1.mode == .r)
  · cases e with
    | write d => simp [event, hb]
    | writeText d => simp [event, hb]
    | close => simpa [event, hb] using putBytes_other s.2 s.1.path s.1.pending
    | flush n => simpa [event, hb] using putBytes_other s.2 s.1.path (s.1.pending.take n)
    | other fs => exact absurd rfl (h fs)
  · cases e with
    | write d => simp [event, hb]
    | writeText d => simp [event, hb]
    | close => simp [event, hb]
    | flush n => simp [event, hb]
    | other fs => exact absurd rfl (h fs)

theorem events_other : ∀ (es : List Event) (s : File × FS), Alone es → (events s es).2.canon = s.2.canon ∧
    ∀ q, s.2.key q ≠ s.2.key s.1.path → (events s es).2.node? q = s.2.node? q
  | [], _, _ => ⟨rfl, fun _ _ => rfl⟩
  | e :: es, s, h => by
    obtain ⟨a, b, c⟩ := event_other s e (h e (by simp))
    obtain ⟨i1, i2⟩ := events_other es (event s e).1 fun e' he' => h e' (by simp [he'])
    unfold events
    refine ⟨i1.trans b, fun q hq => ?_⟩
    rw [i2 q (by unfold FS.key at hq ⊢; rw [a, b]; exact hq), c q hq]

theorem undisturbed_of_alone : ∀ (es : List Event) (s : File × FS), Alone es → Undisturbed s es
  | [], _, _ => trivial
  | e :: es, s, h => by
    have ih := undisturbed_of_alone es (event s e).1 fun e' he' => h e' (by simp [he'])
    cases e with
    | other fs => exact absurd rfl (h _ (by simp) fs)
    | write d => exact ih
    | writeText d => exact ih
    | close => exact ih
    | flush n => exact ih

/-! ### opening -/

theorem openFile_ok {fs fs' : FS} {p : Path} {m : Mode} (hm : m ≠ .r) (h : openFile fs p m = .ok fs') :
    fs'.getbytes p = .ok (before fs p m) ∧ fs'.canon = fs.canon ∧ (∀ q, fs.key q ≠ fs.key p → fs'.node? q = fs.node? q) ∧ (m = .x → fs.exists p = false) := by
  cases m with
  | r => exact absurd rfl hm
  | w =>
    obtain ⟨a, b, -, c⟩ := setbytes_files (show fs.setbytes p [] = .ok fs' from h)
    exact ⟨by rw [b]; rfl, a, c, fun h => by cases h⟩
  | a =>
    unfold openFile at h
    dsimp only at h
    split at h
    · rename_i d hd
      cases h
      rw [← getbytes_ok] at hd
      exact ⟨by rw [hd]; unfold before; rw [hd], rfl, fun _ _ => rfl, fun h => by cases h⟩
    · rename_i hd
      obtain ⟨a, b, -, c⟩ := setbytes_files h
      refine ⟨?_, a, c, fun h => by cases h⟩
      rw [b]
      unfold before
      split
      · rename_i hg; exact absurd (getbytes_ok.1 hg) (hd _)
      · rfl
  | x =>
    unfold openFile at h
    dsimp only at h
    split at h
    · cases h
    · rename_i hn
      obtain ⟨a, b, -, c⟩ := setbytes_files h
      exact ⟨by rw [b]; rfl, a, c, fun _ => by unfold FS.exists; rw [hn]; rfl⟩

theorem setbytes_parent {fs fs' : FS} {p : Path} {d : Bytes} (h : fs.setbytes p d = .ok fs') : fs'.node? p.dropLast = some .dir := by
  obtain ⟨-, hp, -, hd⟩ := setbytes_ok h
  rw [(setbytes_files h).2.2.2 _ (node?_dropLast_ne hp)]
  exact hd

theorem openFile_dir {fs fs' : FS} {p : Path} {m : Mode} (ht : Tidy fs) (hm : m ≠ .r) (h : openFile fs p m = .ok fs') : fs'.node? p.dropLast = some .dir := by
  cases m with
  | r => exact absurd rfl hm
  | w => exact setbytes_parent h
  | a =>
    unfold openFile at h
    dsimp only at h
    split at h
    · rename_i d hd
      cases h
      exact ht.parents p (by rw [hd]; rfl)
    · exact setbytes_parent h
  | x =>
    unfold openFile at h
    dsimp only at h
    split at h
    · cases h
    · exact setbytes_parent h

theorem getFileObject_file {fs fs' : FS} {s : Str} {p : Path} {m : Mode} {f : File} (hs : resolve s = some p) (h : getFileObject fs s m = (fs', .ok (.file f))) :
    f = newFile p m ∧ ∃ fs1, (fs1 = fs ∨ fs.makedirs (dirOf s) = .ok fs1) ∧ openFile fs1 p m = .ok fs' := by
  unfold getFileObject at h
  rw [hs] at h
  dsimp only at h
  cases ho : openFile fs p m with
  | ok fs2 => rw [ho] at h; cases h; exact ⟨rfl, fs, .inl rfl, ho⟩
  | error e =>
    rw [ho] at h
    by_cases he : e = .resourceNotFound
    · subst he
      dsimp only at h
      split at h
      · cases h
      · cases hm : fs.makedirs (dirOf s) with
        | error e => rw [hm] at h; cases h
        | ok fs1 =>
          rw [hm] at h
          dsimp only at h
          cases ho' : openFile fs1 p m with
          | error e => rw [ho'] at h; cases h
          | ok fs2 => rw [ho'] at h; cases h; exact ⟨rfl, fs1, .inr rfl, ho'⟩
    · cases e <;> first | exact absurd rfl he | (simp only [resourceError] at h; cases h)

theorem before_congr {a b : FS} {p : Path} (h : ∀ d, a.getbytes p = .ok d ↔ b.getbytes p = .ok d) (m : Mode) : before a p m = before b p m := by
  unfold before
  cases m <;> try rfl
  cases ha : a.getbytes p with
  | ok d => rw [(h d).1 ha]
  | error e =>
    cases hb : b.getbytes p with
    | ok d => rw [(h d).2 hb] at ha; cases ha
    | error e => rfl

/-- What there is after opening. -/
theorem getFileObject_spec {fs fs' : FS} {s : Str} {p : Path} {m : Mode} {f : File} (hs : resolve s = some p) (hm : m ≠ .r) (h : getFileObject fs s m = (fs', .ok (.file f))) :
    f = newFile p m ∧ fs'.getbytes p = .ok (before fs p m) ∧ fs'.canon = fs.canon ∧ (∀ q d, fs.key q ≠ fs.key p → (fs'.getbytes q = .ok d ↔ fs.getbytes q = .ok d)) ∧
    (m = .x → fs.exists p = false) ∧ (Tidy fs → Tidy fs') ∧ (Tidy fs → fs'.node? p.dropLast = some .dir) := by
  obtain ⟨hf, fs1, h1, h2⟩ := getFileObject_file hs h
  obtain ⟨g, c, o, x⟩ := openFile_ok hm h2
  have hop : Tidy fs1 → Tidy fs' := by
    intro ht
    unfold openFile at h2
    split at h2
    · exact absurd rfl hm
    · exact tidy_setbytes ht h2
    · split at h2
      · cases h2; exact ht
      · exact tidy_setbytes ht h2
    · split at h2
      · cases h2
      · exact tidy_setbytes ht h2
  have hgo : ∀ q, fs1.key q ≠ fs1.key p → fs'.getbytes q = fs1.getbytes q := fun q hq => by unfold FS.getbytes; rw [o q hq]
  rcases h1 with rfl | h1
  · exact ⟨hf, g, c, fun q d hq => by rw [hgo q hq], x, hop, fun ht => openFile_dir ht hm h2⟩
  · have k := (makedirs_ok h1).1
    have kk : ∀ q, fs1.key q = fs.key q := fun q => by unfold FS.key; rw [k]
    refine ⟨hf, ?_, c.trans k, fun q d hq => ?_, fun hx => ?_, fun ht => hop (tidy_makedirs ht h1), fun ht => openFile_dir (tidy_makedirs ht h1) hm h2⟩
    · rw [g, before_congr fun d => makedirs_files h1 p d]
    · rw [hgo q (by rw [kk, kk]; exact hq)]; exact makedirs_files h1 q d
    · have := x hx
      unfold FS.exists at this ⊢
      cases hn : fs.node? p with
      | none => rfl
      | some n => rw [(makedirs_ok h1).2.1 p n hn] at this; cases this

/-! ### when opening succeeds -/

theorem makedirsFrom_success : ∀ (rest : Path) (fs : FS) (done : Path), fs.node? done = some .dir → (∀ pre d, pre <+: rest → fs.node? (done ++ pre) ≠ some (.file d)) →
    ∃ fs', makedirsFrom fs done rest = .ok fs'
  | [], fs, _, _, _ => ⟨fs, rfl⟩
  | c :: rest, fs, done, h0, h => by
    have hc : fs.node? (done ++ [c]) = some .dir ∨ fs.node? (done ++ [c]) = none := by
      cases hn : fs.node? (done ++ [c]) with
      | none => exact .inr rfl
      | some n => cases n with
        | dir => exact .inl rfl
        | file d => exact absurd hn (h [c] d ⟨rest, rfl⟩)
    obtain ⟨fs1, h1⟩ := makedir_of hc (by simpa using h0)
    unfold makedirsFrom
    rw [h1]
    dsimp only
    have keep : ∀ q, fs1.node? q = fs.node? q ∨ fs1.node? q = some .dir := by
      intro q
      unfold makedir at h1
      split at h1
      · cases h1; exact .inl rfl
      · cases h1
      · split at h1
        · cases h1
        · cases h1
        · cases h1
          rw [node?_mkdir _ _ _ (by simp)]
          split
          · exact .inr rfl
          · exact .inl rfl
    refine makedirsFrom_success rest fs1 (done ++ [c]) ?_ fun pre d hp hn => ?_
    · unfold makedir at h1
      split at h1
      · cases h1; assumption
      · cases h1
      · split at h1
        · cases h1
        · cases h1
        · cases h1
          rw [node?_mkdir _ _ _ (by simp), if_pos rfl]
    · rcases keep (done ++ [c] ++ pre) with e | e
      · rw [e, List.append_assoc] at hn
        exact h ([c] ++ pre) d (by simpa using hp) hn
      · rw [e] at hn; cases hn

theorem tidy_ancestors {fs : FS} (ht : Tidy fs) : ∀ (n : Nat) (p q : Path), q.length = n → (fs.node? (p ++ q)).isSome → q ≠ [] → fs.node? p = some .dir
  | 0, _, q, h, _, hq => absurd (List.length_eq_zero_iff.1 h) hq
  | n + 1, p, q, hn, h, hq => by
    have h1 := ht.parents _ h
    rw [List.dropLast_append_of_ne_nil hq] at h1
    by_cases hd : q.dropLast = []
    · rw [hd, List.append_nil] at h1; exact h1
    · exact tidy_ancestors ht n p q.dropLast (by simp [hn]) (by rw [h1]; rfl) hd

theorem openFile_of {fs : FS} {p : Path} {m : Mode} (hd : fs.node? p.dropLast = some .dir) (hp : fs.node? p ≠ some .dir) (hm : m ≠ .r) (hx : m = .x → fs.node? p = none) :
    ∃ fs', openFile fs p m = .ok fs' := by
  have h := setbytes_of [] hd hp
  cases m with
  | r => exact absurd rfl hm
  | w => exact ⟨_, h⟩
  | a =>
    unfold openFile
    dsimp only
    split
    · exact ⟨_, rfl⟩
    · exact ⟨_, h⟩
  | x =>
    unfold openFile
    rw [hx rfl]
    exact ⟨_, h⟩

theorem getFileObject_of {fs : FS} {s : Str} {p : Path} {m : Mode} (ht : Tidy fs) (hs : resolve s = some p) (hds : dirOf s = p.dropLast) (hm : m ≠ .r) (hne : p ≠ [])
    (hf : ∀ pre d, pre <+: p → pre ≠ p → fs.node? pre ≠ some (.file d)) (hp : fs.node? p ≠ some .dir) (hx : m = .x → fs.node? p = none) :
    ∃ fs' f, getFileObject fs s m = (fs', .ok (.file f)) := by
  have hpre : p.dropLast <+: p := List.dropLast_prefix p
  have hlen : p.dropLast.length < p.length := by
    have := List.length_pos_of_ne_nil hne
    simp; omega
  have hneq : p.dropLast ≠ p := fun h => by rw [h] at hlen; omega
  unfold getFileObject
  rw [hs]
  dsimp only
  cases hn : fs.node? p.dropLast with
  | some n =>
    cases n with
    | file d => exact absurd hn (hf _ d hpre hneq)
    | dir =>
      obtain ⟨fs', h⟩ := openFile_of hn hp hm hx
      rw [h]
      exact ⟨_, _, rfl⟩
  | none =>
    have hnp : fs.node? p = none := by
      cases hq : fs.node? p with
      | none => rfl
      | some n => rw [ht.parents p (by rw [hq]; rfl)] at hn; cases hn
    have ho : openFile fs p m = .error .resourceNotFound := by
      have hb : fs.setbytes p [] = .error .resourceNotFound := by unfold FS.setbytes; rw [hn]
      unfold openFile
      cases m with
      | r => exact absurd rfl hm
      | w => exact hb
      | a => rw [hnp]; exact hb
      | x => rw [hnp]; exact hb
    rw [ho]
    dsimp only
    rw [if_neg hm, hds]
    obtain ⟨fs1, h1⟩ : ∃ fs1, fs.makedirs p.dropLast = .ok fs1 := makedirsFrom_success _ fs [] (by simp [node?]) fun pre d h => by
      refine hf _ d (by simpa using h.trans hpre) ?_
      intro e
      have := h.length_le
      simp only [List.nil_append] at e
      rw [e] at this
      omega
    rw [h1]
    dsimp only
    obtain ⟨-, -, -, k4, k5⟩ := makedirs_ok h1
    have hnp1 : fs1.node? p = none := by
      by_contra hc
      have := (k4 p (by rw [hnp]; exact hc)).length_le
      simp only [FS.key, List.length_map] at this
      omega
    obtain ⟨fs', h⟩ := openFile_of (m := m) k5 (by rw [hnp1]; simp) hm fun _ => hnp1
    rw [h]
    exact ⟨_, _, rfl⟩

theorem of_getFileObject {fs fs' : FS} {s : Str} {p : Path} {m : Mode} {f : File} (ht : Tidy fs) (hs : resolve s = some p) (hm : m ≠ .r)
    (h : getFileObject fs s m = (fs', .ok (.file f))) :
    (∀ pre d, pre <+: p → pre ≠ p → fs.node? pre ≠ some (.file d)) ∧ fs.node? p ≠ some .dir ∧ (m = .x → fs.exists p = false) := by
  obtain ⟨-, g, c, o, x, t, -⟩ := getFileObject_spec hs hm h
  refine ⟨fun pre d ⟨q, hq⟩ hne hn => ?_, fun hd => ?_, x⟩
  · have hq0 : q ≠ [] := fun h0 => hne (by rw [← hq, h0, List.append_nil])
    have h1 := tidy_ancestors (t ht) _ pre q rfl (by rw [hq, getbytes_ok.1 g]; rfl) hq0
    have h2 := (o pre d (by
      intro e
      have := congrArg List.length e
      have h0 := List.length_pos_of_ne_nil hq0
      rw [← hq] at this
      simp only [FS.key, List.length_map, List.length_append] at this
      omega)).2 (getbytes_ok.2 hn)
    rw [getbytes_ok, h1] at h2
    cases h2
  · obtain ⟨-, fs1, h1, h2⟩ := getFileObject_file hs h
    have hd1 : fs1.node? p = some .dir := by
      rcases h1 with rfl | h1
      · exact hd
      · exact (makedirs_ok h1).2.1 p _ hd
    have hb : ∀ fs2, fs1.setbytes p [] ≠ .ok fs2 := fun fs2 h => (setbytes_ok h).2.2.1 hd1
    unfold openFile at h2
    cases m with
    | r => exact hm rfl
    | w => exact hb _ h2
    | a => rw [hd1] at h2; exact hb _ h2
    | x => rw [hd1] at h2; cases h2

/-! ### reading -/

theorem readPieces_take (fs : FS) (d : Bytes) : ∀ (ns : List Nat) (f : File), f.closed = false → f.mode = .r → fs.getbytes f.path = .ok d →
    readPieces f fs ns = .ok ((d.drop f.position).take ns.sum)
  | [], f, _, _, _ => by simp [readPieces]
  | n :: ns, f, hc, hm, hg => by
    have hr : read f fs n = ({ f with position := f.position + ((d.drop f.position).take n).length }, .ok ((d.drop f.position).take n)) := by
      unfold read; simp [hc, hm, hg]
    unfold readPieces
    rw [hr]
    dsimp only
    rw [readPieces_take fs d ns { f with position := f.position + ((d.drop f.position).take n).length } hc hm hg]
    dsimp only
    congr 1
    rw [List.sum_cons, List.take_add]
    congr 2
    rw [← List.drop_drop, List.length_take]
    by_cases h : n ≤ (List.drop f.position d).length
    · rw [Nat.min_eq_left h]
    · rw [Nat.min_eq_right (by omega), List.drop_of_length_le (Nat.le_refl _), List.drop_of_length_le (by omega)]

theorem utf8_append (a b : Str) : utf8 (a ++ b) = utf8 a ++ utf8 b := by simp [utf8]

theorem sent_texts : ∀ (es : List Event), (∀ e ∈ es, ∀ d, e ≠ .write d) → sent es = utf8 (texts es)
  | [], _ => rfl
  | e :: es, h => by
    have ih := sent_texts es fun e' he' => h e' (by simp [he'])
    cases e with
    | write d => exact absurd rfl (h _ (by simp) d)
    | writeText t => unfold sent texts; rw [ih, utf8_append]
    | close => rfl
    | flush n => exact ih
    | other fs => exact ih

end Verif.FileObjects
