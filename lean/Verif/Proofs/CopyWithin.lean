import Verif.Model.CopyWithin
import Verif.Proofs.Walk
namespace Verif.Proofs.CopyWithin
open Verif Verif.FS Verif.Ufo Verif.Props Verif.Proofs.Walk

/-- The entry `e` of `d` can be copied to `c`. -/
structure Fit (fs : FS) (d c : Path) (e : Str × Bool) : Prop where
  source : e.2 = false → ∃ b, fs.node? (d ++ [e.1]) = some (.file b)
  made : e.2 = true → ∀ b, fs.node? (c ++ [e.1]) ≠ some (.file b)
  written : e.2 = false → fs.node? (c ++ [e.1]) ≠ some .dir

theorem copyOne_ok {fs : FS} (ht : Tidy fs) {d c : Path} {e : Str × Bool} (hc : fs.node? c = some .dir) (h : Fit fs d c e) :
    ∃ fs', copyOne d c fs e = (fs', .ok ()) ∧ Tidy fs' ∧ fs'.canon = fs.canon ∧ (∀ r, fs.key r ≠ fs.key (c ++ [e.1]) → fs'.node? r = fs.node? r) ∧
      fs'.node? (c ++ [e.1]) = (if e.2 then some .dir else fs.node? (d ++ [e.1])) := by
  obtain ⟨n, b⟩ := e
  unfold copyOne
  dsimp only at h ⊢
  cases b with
  | true =>
    rw [if_pos rfl]
    obtain ⟨fs', h'⟩ := makedir_of (fs := fs) (p := c ++ [n]) (by
      cases hn : fs.node? (c ++ [n]) with
      | none => exact .inr rfl
      | some x => cases x with
        | dir => exact .inl rfl
        | file b => exact absurd hn (h.made rfl b)) (by rw [List.dropLast_concat]; exact hc)
    obtain ⟨m1, m2, m3, -, -⟩ := makedir_ok h'
    rw [h']
    exact ⟨fs', rfl, tidy_makedir ht h', m1, m3, m2⟩
  | false =>
    obtain ⟨b, hb⟩ := h.source rfl
    have hset := setbytes_of (fs := fs) (p := c ++ [n]) b (by rw [List.dropLast_concat]; exact hc) (h.written rfl)
    rw [if_neg (by simp), getbytes_ok.2 hb]
    dsimp only
    rw [hset]
    refine ⟨_, rfl, tidy_setbytes ht hset, rfl, fun r hr => by rw [node?_write _ _ _ _ (by simp), if_neg hr], ?_⟩
    rw [node?_write _ _ _ _ (by simp), if_pos rfl, if_neg (by simp), hb]

theorem copyAll_ok {d c : Path} : ∀ (l : List (Str × Bool)) (fs : FS), Tidy fs → fs.node? c = some .dir → (∀ e ∈ l, fs.canon e.1 = e.1) → (l.map Prod.fst).Nodup → (∀ e ∈ l, Fit fs d c e) →
    fs.key d ≠ fs.key c →
    ∃ fs', copyAll d c fs l = (fs', .ok ()) ∧ Tidy fs' ∧ fs'.canon = fs.canon ∧ (∀ r, (∀ e ∈ l, fs.key r ≠ fs.key (c ++ [e.1])) → fs'.node? r = fs.node? r) ∧
      ∀ e ∈ l, fs'.node? (c ++ [e.1]) = (if e.2 then some .dir else fs.node? (d ++ [e.1]))
  | [], fs, ht, _, _, _, _, _ => ⟨fs, rfl, ht, rfl, fun _ _ => rfl, fun _ h => by cases h⟩
  | e :: l, fs, ht, hc, hn, hd, hf, hne => by
    obtain ⟨fs1, h1, t1, c1, k1, n1⟩ := copyOne_ok ht hc (hf e List.mem_cons_self)
    have hkey : ∀ r, fs1.key r = fs.key r := fun r => by unfold FS.key; rw [c1]
    have hkc : fs.key c ≠ fs.key (c ++ [e.1]) := fun h => by simpa [FS.key] using congrArg List.length h
    have hkd : ∀ m, fs.key (d ++ [m]) ≠ fs.key (c ++ [e.1]) := fun m h => hne (by
      simp only [FS.key, List.map_append, List.map_cons, List.map_nil] at h ⊢
      exact (List.append_inj' h rfl).1)
    rw [List.map_cons, List.nodup_cons] at hd
    have hother : ∀ e' ∈ l, fs.key (c ++ [e'.1]) ≠ fs.key (c ++ [e.1]) := by
      intro e' he' h
      simp only [FS.key, List.map_append, List.map_cons, List.map_nil] at h
      have h2 := (List.cons.inj (List.append_inj' h rfl).2).1
      rw [hn e List.mem_cons_self, hn e' (List.mem_cons_of_mem _ he')] at h2
      exact hd.1 (h2 ▸ List.mem_map_of_mem he')
    have hc1 : fs1.node? c = some .dir := by rw [k1 c hkc]; exact hc
    obtain ⟨fs2, h2, t2, c2, k2, n2⟩ := copyAll_ok (d := d) l fs1 t1 hc1 (fun e' he' => by rw [c1]; exact hn e' (List.mem_cons_of_mem _ he')) hd.2 (fun e' he' => by
      have := hf e' (List.mem_cons_of_mem _ he')
      refine ⟨?_, ?_, ?_⟩
      · rw [k1 _ (hkd _)]; exact this.source
      · rw [k1 _ (hother e' he')]; exact this.made
      · rw [k1 _ (hother e' he')]; exact this.written) (by rw [hkey, hkey]; exact hne)
    refine ⟨fs2, ?_, t2, c2.trans c1, fun r hr => ?_, fun e' he' => ?_⟩
    · unfold copyAll; rw [h1]; exact h2
    · rw [k2 r (fun e' he' => by rw [hkey, hkey]; exact hr e' (List.mem_cons_of_mem _ he')), k1 r (hr e List.mem_cons_self)]
    · rcases List.mem_cons.1 he' with rfl | he'
      · rw [k2 _ (fun e'' he'' => by rw [hkey, hkey]; exact (hother e'' he'').symm), n1]
      · rw [n2 e' he', k1 _ (hkd _)]

theorem mem_ordered {l : List (Str × Bool)} {e : Str × Bool} : e ∈ ordered l ↔ e ∈ l := by
  unfold ordered
  simp only [List.mem_append, List.mem_filter]
  cases e.2 <;> simp

theorem ordered_nodup {l : List (Str × Bool)} (h : (l.map Prod.fst).Nodup) : ((ordered l).map Prod.fst).Nodup := by
  have : (ordered l).Perm l := by
    unfold ordered
    exact List.filter_append_perm (fun e => e.2) l
  exact ((this.map Prod.fst).nodup_iff).2 h

/-- One directory is copied. -/
theorem copyDir_ok {fs : FS} (ht : Tidy fs) (hi : Idem fs.canon) {d c : Path} (hc : fs.node? c = some .dir) (hne : fs.key d ≠ fs.key c)
    (hfit : ∀ n x, fs.canon n = n → fs.node? (d ++ [n]) = some x → (x = .dir → ∀ b, fs.node? (c ++ [n]) ≠ some (.file b)) ∧ (x ≠ .dir → fs.node? (c ++ [n]) ≠ some .dir)) :
    ∃ fs', copyAll d c fs (ordered (entries fs d)) = (fs', .ok ()) ∧ Tidy fs' ∧ fs'.canon = fs.canon ∧
      (∀ r, (∀ n x, fs.canon n = n → fs.node? (d ++ [n]) = some x → fs.key r ≠ fs.key (c ++ [n])) → fs'.node? r = fs.node? r) ∧
      ∀ n x, fs.canon n = n → fs.node? (d ++ [n]) = some x → fs'.node? (c ++ [n]) = some x := by
  obtain ⟨fs', h1, h2, h3, h4, h5⟩ := copyAll_ok (d := d) (c := c) (ordered (entries fs d)) fs ht hc (fun e he => ((mem_entries ht hi).1 (mem_ordered.1 he)).1)
    (ordered_nodup (entries_nodup ht d)) (fun e he => by
      obtain ⟨n, b⟩ := e
      obtain ⟨e1, x, e2, e3⟩ := (mem_entries ht hi).1 (mem_ordered.1 he)
      obtain ⟨f1, f2⟩ := hfit n x e1 e2
      cases x with
      | dir => cases (show b = true by simpa using e3); exact ⟨by simp, fun _ => f1 rfl, by simp⟩
      | file a => cases (show b = false by simpa using e3); exact ⟨fun _ => ⟨a, e2⟩, by simp, fun _ => f2 (by simp)⟩) hne
  refine ⟨fs', h1, h2, h3, fun r hr => h4 r fun e he => ?_, fun n x e1 e2 => ?_⟩
  · obtain ⟨e1, x, e2, -⟩ := (mem_entries ht hi).1 (mem_ordered.1 he)
    exact hr e.1 x e1 e2
  · rw [h5 (n, decide (x = .dir)) (mem_ordered.2 ((mem_entries ht hi).2 ⟨e1, x, e2, rfl⟩))]
    cases x with
    | dir => simp
    | file b => simp [e2]

/-! ### a destination outside -/

theorem visiting_step {src : FS} {p d : Path} {visited queue new : List Path} (h : Visiting src p visited (d :: queue) []) (hnd : new.Nodup)
    (hnew : ∀ x ∈ new, ∃ n, x = d ++ [n] ∧ src.canon n = n ∧ src.node? x = some .dir) : Visiting src p (visited ++ [d]) (queue ++ new) [] := by
  have hdv : d ∉ visited := fun hm => (List.nodup_append.1 h.once).2.2 d hm d List.mem_cons_self rfl
  obtain ⟨t, hdt, htc⟩ := h.below d (by simp)
  have hmem : ∀ x, x ∈ (visited ++ [d]) ++ (queue ++ new) → x ∈ visited ++ d :: queue ∨ x ∈ new := by
    intro x hx
    simp only [List.mem_append, List.mem_cons, List.not_mem_nil, or_false] at hx ⊢
    tauto
  refine ⟨?_, ?_, ?_, ?_, by simp, by simp⟩
  · have e : (visited ++ [d]) ++ (queue ++ new) = (visited ++ d :: queue) ++ new := by simp
    rw [e, List.nodup_append]
    refine ⟨h.once, hnd, fun a ha b hb e => ?_⟩
    subst e
    obtain ⟨n, rfl, -, -⟩ := hnew a hb
    rcases h.parents _ ha with e | hp
    · have := congrArg List.length e
      rw [hdt] at this
      simp at this
    · rw [List.dropLast_concat] at hp
      exact hdv hp
  · intro x hx
    rcases hmem x hx with h1 | h1
    · exact h.dirs x h1
    · obtain ⟨n, -, -, h2⟩ := hnew x h1; exact h2
  · intro x hx
    rcases hmem x hx with h1 | h1
    · exact h.below x h1
    · obtain ⟨n, rfl, hn, -⟩ := hnew x h1
      exact ⟨t ++ [n], by rw [hdt, List.append_assoc], by rw [List.map_append, htc]; simp [hn]⟩
  · intro x hx
    rcases hmem x hx with h1 | h1
    · rcases h.parents x h1 with h2 | h2
      · exact .inl h2
      · exact .inr (List.mem_append_left _ h2)
    · obtain ⟨n, rfl, -, -⟩ := hnew x h1
      exact .inr (by simp)

/-- The files in the middle of the copy, when the directories `visited` have been dealt with. -/
structure Copied (src : FS) (p q : Path) (visited : List Path) (cur : FS) : Prop where
  tidy : Tidy cur
  canon : cur.canon = src.canon
  out : ∀ r, ¬ src.key q <+: src.key r → cur.node? r = src.node? r
  top : cur.node? q = some .dir
  done : ∀ (t : Path) (m : Str), t.map src.canon = t → p ++ t ∈ visited → cur.node? (q ++ t ++ [m]) = src.node? (p ++ t ++ [m])
  left : ∀ (t : Path) (m : Str), t.map src.canon = t → p ++ t ∉ visited → cur.node? (q ++ t ++ [m]) = none

theorem key_append (fs : FS) (a b : Path) : fs.key (a ++ b) = fs.key a ++ b.map fs.canon := by simp [FS.key]

theorem key_last (fs : FS) (a b : Path) (n m : Str) : fs.key (a ++ [n]) = fs.key (b ++ [m]) ↔ fs.key a = fs.key b ∧ fs.canon n = fs.canon m := by
  simp only [FS.key, List.map_append, List.map_cons, List.map_nil]
  constructor
  · intro h
    have := List.append_inj' h rfl
    exact ⟨this.1, (List.cons.inj this.2).1⟩
  · rintro ⟨h1, h2⟩; rw [h1, h2]

theorem under_source {src : FS} {p q : Path} (hpq : ¬ src.key p <+: src.key q) (hqp : ¬ src.key q <+: src.key p) (t : Path) : ¬ src.key q <+: src.key (p ++ t) := by
  intro h
  rw [key_append] at h
  rcases List.prefix_or_prefix_of_prefix h (List.prefix_append _ _) with h | h
  · exact hqp h
  · exact hpq h

theorem apart_walk {src : FS} (hi : Idem src.canon) {p q : Path} (hp : p ≠ []) (hpq : ¬ src.key p <+: src.key q) (hqp : ¬ src.key q <+: src.key p) :
    ∀ (k : Nat) (cur : FS) (visited queue : List Path), Visiting src p visited queue [] → Copied src p q visited cur →
      (∀ d ∈ visited, ∀ n, src.canon n = n → src.node? (d ++ [n]) = some .dir → d ++ [n] ∈ visited ++ queue) → p ∈ visited ++ queue → src.nodes.length ≤ visited.length + k →
      ∃ fs' all, copyWalk p q k cur queue = some (fs', .ok ()) ∧ Copied src p q all fs' ∧ p ∈ all ∧
        ∀ d ∈ all, ∀ n, src.canon n = n → src.node? (d ++ [n]) = some .dir → d ++ [n] ∈ all
  | _, cur, visited, [], _, hC, hcl, hpm, _ => ⟨cur, visited, by unfold copyWalk; rfl, hC, by simpa using hpm, fun d hd n h1 h2 => by simpa using hcl d hd n h1 h2⟩
  | 0, cur, visited, d :: queue, h, _, _, _, hk => by
    have := h.length_le hp
    simp only [List.length_append, List.length_cons] at this
    omega
  | k + 1, cur, visited, d :: queue, h, hC, hcl, hpm, hk => by
    have hdv : d ∉ visited := fun hm => (List.nodup_append.1 h.once).2.2 d hm d List.mem_cons_self rfl
    obtain ⟨t, hdt, htc⟩ := h.below d (by simp)
    have hck : ∀ r, cur.key r = src.key r := fun r => by unfold FS.key; rw [hC.canon]
    have hsrc : ∀ m, cur.node? (d ++ [m]) = src.node? (d ++ [m]) := fun m => hC.out _ (by rw [hdt, List.append_assoc]; exact under_source hpq hqp _)
    have hcdir : cur.node? (q ++ t) = some .dir := by
      rcases List.eq_nil_or_concat t with rfl | ⟨t0, m, rfl⟩
      · rw [List.append_nil]; exact hC.top
      · rw [List.concat_eq_append] at *
        rcases h.parents d (by simp) with e | e
        · rw [hdt] at e
          have := congrArg List.length e
          simp at this
        · have e2 : d.dropLast = p ++ t0 := by rw [hdt, ← List.append_assoc, List.dropLast_concat]
          rw [e2] at e
          have hc0 : t0.map src.canon = t0 := by
            rw [List.map_append] at htc
            exact (List.append_inj' htc rfl).1
          rw [← List.append_assoc, hC.done t0 m hc0 e, List.append_assoc, ← hdt]
          exact h.dirs d (by simp)
    have hdrop : d.drop p.length = t := by rw [hdt, List.drop_left]
    have hnone : ∀ m, cur.node? (q ++ t ++ [m]) = none := fun m => hC.left t m htc (by rw [← hdt]; exact hdv)
    have hi' : Idem cur.canon := by rw [hC.canon]; exact hi
    obtain ⟨fs', g1, g2, g3, g4, g5⟩ := copyDir_ok (d := d) (c := q ++ t) hC.tidy hi' hcdir (by
        rw [hck, hck, hdt, key_append, key_append]
        intro e
        exact hpq ((List.append_inj' e rfl).1 ▸ List.prefix_refl _))
      (fun n x _ _ => ⟨fun _ b => by rw [hnone]; simp, fun _ => by rw [hnone]; simp⟩)
    unfold copyWalk
    rw [hdrop, g1]
    dsimp only
    have hnew : ∀ x ∈ pick true d (entries cur d), ∃ n, x = d ++ [n] ∧ src.canon n = n ∧ src.node? x = some .dir := by
      intro x hx
      obtain ⟨n, rfl, hn⟩ := mem_pick.1 hx
      obtain ⟨e1, y, e2, e3⟩ := (mem_entries hC.tidy hi').1 hn
      refine ⟨n, rfl, by rw [← hC.canon]; exact e1, ?_⟩
      rw [← hsrc, e2]
      cases y with
      | dir => rfl
      | file b => simp at e3
    have hv := visiting_step h (pick_nodup (entries_nodup hC.tidy d)) hnew
    have hsame : ∀ (t' : Path) (m : Str), t'.map src.canon = t' → t' ≠ t → fs'.node? (q ++ t' ++ [m]) = cur.node? (q ++ t' ++ [m]) := by
      intro t' m hc' hne
      refine g4 _ fun n x _ _ e => hne ?_
      rw [hck, hck] at e
      have := ((key_last _ _ _ _ _).1 e).1
      rw [key_append, key_append, hc', htc] at this
      exact List.append_cancel_left this
    have hC' : Copied src p q (visited ++ [d]) fs' := by
      refine ⟨g2, g3.trans hC.canon, fun r hr => ?_, ?_, fun t' m hc' hm => ?_, fun t' m hc' hm => ?_⟩
      · rw [g4 r, hC.out r hr]
        intro n x _ _ e
        rw [hck, hck, List.append_assoc, key_append] at e
        exact hr (e ▸ List.prefix_append _ _)
      · rw [g4 q]
        · exact hC.top
        · intro n x _ _ e
          have := congrArg List.length e
          simp [FS.key] at this
      · by_cases e : t' = t
        · subst e
          have e1 : fs'.node? (q ++ t' ++ [m]) = fs'.node? (q ++ t' ++ [src.canon m]) := node?_eq (by
            unfold FS.key; rw [g3, hC.canon]; simp [hi m])
          have e2 : src.node? (p ++ t' ++ [m]) = src.node? (p ++ t' ++ [src.canon m]) := node?_eq (by unfold FS.key; simp [hi m])
          rw [e1, e2, ← hdt, ← hsrc]
          have hcm : cur.canon (src.canon m) = src.canon m := by rw [hC.canon]; exact hi m
          cases hx : cur.node? (d ++ [src.canon m]) with
          | some x => exact g5 _ x hcm hx
          | none =>
            rw [g4, hnone]
            intro n x hn hx' e
            have := ((key_last _ _ _ _ _).1 e).2
            rw [hcm, hn] at this
            rw [this, hx'] at hx
            cases hx
        · have hm' : p ++ t' ∈ visited := by
            rcases List.mem_append.1 hm with h1 | h1
            · exact h1
            · rw [List.mem_singleton, hdt] at h1
              exact absurd (List.append_cancel_left h1) e
          rw [hsame t' m hc' e]
          exact hC.done t' m hc' hm'
      · have e : t' ≠ t := by
          rintro rfl
          exact hm (by rw [hdt]; simp)
        rw [hsame t' m hc' e]
        exact hC.left t' m hc' fun h1 => hm (List.mem_append_left _ h1)
    refine apart_walk hi hp hpq hqp k fs' (visited ++ [d]) _ hv hC' (fun x hx n hn hd => ?_) ?_ (by simp only [List.length_append, List.length_cons, List.length_nil]; omega)
    · rcases List.mem_append.1 hx with h1 | h1
      · have := hcl x h1 n hn hd
        simp only [List.mem_append, List.mem_cons, List.not_mem_nil, or_false] at this ⊢
        tauto
      · rw [List.mem_singleton] at h1
        subst h1
        have : x ++ [n] ∈ pick true x (entries cur x) := mem_pick.2 ⟨n, rfl, (mem_entries hC.tidy hi').2 ⟨by rw [hC.canon]; exact hn, .dir, by rw [hsrc]; exact hd, by simp⟩⟩
        simp [this]
    · simp only [List.mem_append, List.mem_cons, List.not_mem_nil, or_false] at hpm ⊢
      tauto

theorem apart_end {src : FS} (hts : Tidy src) (hi : Idem src.canon) {p q : Path} {all : List Path} {fs' : FS} (hd : src.node? p = some .dir) (hC : Copied src p q all fs') (hpm : p ∈ all)
    (hcl : ∀ d ∈ all, ∀ n, src.canon n = n → src.node? (d ++ [n]) = some .dir → d ++ [n] ∈ all) (x : Path) : fs'.node? (q ++ x) = src.node? (p ++ x) := by
  have hin : ∀ (k : Nat) (t : Path), t.length = k → t.map src.canon = t → src.node? (p ++ t) = some .dir → p ++ t ∈ all := by
    intro k
    induction k with
    | zero => intro t h _ _; rw [List.length_eq_zero_iff.1 h, List.append_nil]; exact hpm
    | succ k ih =>
      intro t h hc hn
      rcases List.eq_nil_or_concat t with rfl | ⟨t0, m, rfl⟩
      · simp at h
      · rw [List.concat_eq_append] at *
        rw [List.map_append] at hc
        have hc1 := (List.append_inj' hc rfl).1
        have hc2 := (List.cons.inj (List.append_inj' hc rfl).2).1
        rw [← List.append_assoc] at hn ⊢
        have := hts.parents _ (by rw [hn]; rfl)
        rw [List.dropLast_concat] at this
        exact hcl _ (ih t0 (by simpa using h) hc1 this) m hc2 hn
  rcases List.eq_nil_or_concat x with rfl | ⟨t, m, rfl⟩
  · rw [List.append_nil, List.append_nil, hC.top, hd]
  · rw [List.concat_eq_append, ← List.append_assoc, ← List.append_assoc]
    have hid : (t.map src.canon).map src.canon = t.map src.canon := by
      rw [List.map_map]; exact List.map_congr_left fun a _ => hi a
    have e1 : fs'.node? (q ++ t ++ [m]) = fs'.node? (q ++ t.map src.canon ++ [m]) := node?_eq (by
      unfold FS.key; rw [hC.canon]; simp only [List.map_append]; rw [hid])
    have e2 : src.node? (p ++ t ++ [m]) = src.node? (p ++ t.map src.canon ++ [m]) := node?_eq (by
      unfold FS.key; simp only [List.map_append]; rw [hid])
    rw [e1, e2]
    by_cases hm : p ++ t.map src.canon ∈ all
    · exact hC.done _ m hid hm
    · rw [hC.left _ m hid hm]
      cases hn : src.node? (p ++ t.map src.canon ++ [m]) with
      | none => rfl
      | some n =>
        have := hts.parents _ (by rw [hn]; rfl)
        rw [List.dropLast_concat] at this
        exact absurd (hin _ _ rfl hid this) hm

/-! ### a destination inside -/

/-- The names of `y`, over and over again. -/
def around (y : Path) (i : Nat) : Path := (List.range i).map fun k => y.getD (k % y.length) []

theorem around_succ (y : Path) (i : Nat) : around y (i + 1) = around y i ++ [y.getD (i % y.length) []] := by
  unfold around
  rw [List.range_succ, List.map_append]
  rfl

theorem around_all (y : Path) : around y y.length = y := by
  unfold around
  apply List.ext_getElem
  · simp
  · intro i h1 h2
    simp [Nat.mod_eq_of_lt h2, h2]

theorem around_append (y : Path) (i : Nat) : y ++ around y i = around y (y.length + i) := by
  conv_lhs => rw [← around_all y]
  rw [around_all]
  have : around y (y.length + i) = around y y.length ++ (List.range i).map fun k => y.getD ((y.length + k) % y.length) [] := by
    unfold around
    rw [List.range_add, List.map_append, List.map_map]
    rfl
  rw [this, around_all]
  congr 1
  unfold around
  exact List.map_congr_left fun k _ => by rw [Nat.add_mod_left]

theorem around_canon {c : Str → Str} {y : Path} (hy : y ≠ []) (hc : y.map c = y) (i : Nat) : (around y i).map c = around y i := by
  have hm : ∀ a ∈ y, c a = a := by
    intro a ha
    obtain ⟨j, hj, rfl⟩ := List.mem_iff_getElem.1 ha
    have : (y.map c)[j]'(by simpa using hj) = y[j] := by simp only [hc]
    simpa using this
  unfold around
  rw [List.map_map]
  refine List.map_congr_left fun k _ => ?_
  have hlt : k % y.length < y.length := Nat.mod_lt _ (List.length_pos_iff.2 hy)
  simp only [Function.comp, List.getD_eq_getElem?_getD, List.getElem?_eq_getElem hlt, Option.getD_some]
  exact hm _ (List.getElem_mem hlt)

/-- The files and the queue in the middle of the copy. -/
structure Nested (c : Str → Str) (p q y : Path) (cur : FS) (queue : List Path) : Prop where
  tidy : Tidy cur
  canon : cur.canon = c
  kinds : ∀ z a, cur.node? (q ++ z) = some a → ∃ b, cur.node? (p ++ z) = some b ∧ (a = .dir ↔ b = .dir)
  queued : ∀ d ∈ queue, ∃ x : Path, d = p ++ x ∧ x.map c = x ∧ cur.node? (p ++ x) = some .dir ∧ cur.node? (q ++ x) = some .dir
  ahead : ∃ j, p ++ around y j ∈ queue ∧ ∀ i, i ≤ j + y.length → cur.node? (p ++ around y i) = some .dir

theorem nested_walk {c : Str → Str} (hi : Idem c) {p q y : Path} (hy : y ≠ []) (hc : y.map c = y) (hq : q.map c = p.map c ++ y) : ∀ (k : Nat) (cur : FS) (queue : List Path),
    Nested c p q y cur queue → copyWalk p q k cur queue = none
  | _, cur, [], h => by obtain ⟨j, hj, -⟩ := h.ahead; cases hj
  | 0, cur, d :: queue, _ => by unfold copyWalk; rfl
  | k + 1, cur, d :: queue, h => by
    obtain ⟨x, hdx, hxc, hpx, hqx⟩ := h.queued d List.mem_cons_self
    have hlen : q.length = p.length + y.length := by simpa using congrArg List.length hq
    have hylen : 0 < y.length := List.length_pos_iff.2 hy
    have hi' : Idem cur.canon := by rw [h.canon]; exact hi
    have hfit : ∀ n a b, cur.node? (d ++ [n]) = some a → cur.node? (q ++ x ++ [n]) = some b → (b = .dir ↔ a = .dir) := by
      intro n a b ha hb
      rw [List.append_assoc] at hb
      obtain ⟨a', ha', he⟩ := h.kinds _ b hb
      rw [← List.append_assoc, ← hdx, ha] at ha'
      cases ha'
      exact he
    obtain ⟨fs', g1, g2, g3, g4, g5⟩ := copyDir_ok (d := d) (c := q ++ x) h.tidy hi' hqx (by
        intro e
        have := congrArg List.length e
        simp only [FS.key, hdx, List.length_map, List.length_append] at this
        omega)
      (fun n a _ ha => ⟨fun e b hb => (by have := (hfit n a _ ha hb).2 e; cases this), fun e hb => e ((hfit n a _ ha hb).1 rfl)⟩)
    have mono : ∀ r a, cur.node? r = some a → ∃ a', fs'.node? r = some a' ∧ (a' = .dir ↔ a = .dir) := by
      intro r a ha
      by_cases hr : ∃ n b, cur.canon n = n ∧ cur.node? (d ++ [n]) = some b ∧ cur.key r = cur.key (q ++ x ++ [n])
      · obtain ⟨n, b, h1, h2, h3⟩ := hr
        have h4 := g5 n b h1 h2
        refine ⟨b, ?_, ?_⟩
        · rw [← h4]; exact node?_eq (by unfold FS.key at h3 ⊢; rw [g3]; exact h3)
        · rw [node?_eq h3] at ha
          exact (hfit n b a h2 ha).symm
      · refine ⟨a, ?_, Iff.rfl⟩
        rw [g4 r]
        · exact ha
        · intro n b h1 h2 h3
          exact hr ⟨n, b, h1, h2, h3⟩
    have monod : ∀ r, cur.node? r = some .dir → fs'.node? r = some .dir := by
      intro r hr
      obtain ⟨a', h1, h2⟩ := mono r _ hr
      rw [h1, h2.2 rfl]
    unfold copyWalk
    rw [show d.drop p.length = x by rw [hdx, List.drop_left], g1]
    dsimp only
    refine nested_walk hi hy hc hq k fs' _ ⟨g2, g3.trans h.canon, fun z a ha => ?_, fun e he => ?_, ?_⟩
    · by_cases hr : ∃ n b, cur.canon n = n ∧ cur.node? (d ++ [n]) = some b ∧ cur.key (q ++ z) = cur.key (q ++ x ++ [n])
      · obtain ⟨n, b, h1, h2, h3⟩ := hr
        have h4 := g5 n b h1 h2
        have h5 : fs'.node? (q ++ z) = some b := by rw [← h4]; exact node?_eq (by unfold FS.key at h3 ⊢; rw [g3]; exact h3)
        rw [h5] at ha
        cases ha
        have h6 : cur.key (p ++ z) = cur.key (d ++ [n]) := by
          rw [List.append_assoc, key_append, key_append] at h3
          rw [hdx, List.append_assoc, key_append, key_append, List.append_cancel_left h3]
        rw [← node?_eq h6] at h2
        obtain ⟨b', h7, h8⟩ := mono _ _ h2
        exact ⟨b', h7, h8.symm⟩
      · have h1 : cur.node? (q ++ z) = some a := by
          rw [← g4 (q ++ z)]
          · exact ha
          · intro n b h1 h2 h3
            exact hr ⟨n, b, h1, h2, h3⟩
        obtain ⟨b, h2, h3⟩ := h.kinds z a h1
        obtain ⟨b', h4, h5⟩ := mono _ _ h2
        exact ⟨b', h4, h3.trans h5.symm⟩
    · rcases List.mem_append.1 he with he | he
      · obtain ⟨x', e1, e2, e3, e4⟩ := h.queued e (List.mem_cons_of_mem _ he)
        exact ⟨x', e1, e2, monod _ e3, monod _ e4⟩
      · obtain ⟨n, rfl, hn⟩ := mem_pick.1 he
        obtain ⟨e1, b, e2, e3⟩ := (mem_entries h.tidy hi').1 hn
        cases b with
        | file b => simp at e3
        | dir =>
          refine ⟨x ++ [n], by rw [hdx, List.append_assoc], ?_, ?_, ?_⟩
          · rw [List.map_append, hxc, List.map_cons, List.map_nil, ← h.canon, e1]
          · rw [← List.append_assoc, ← hdx]; exact monod _ e2
          · rw [← List.append_assoc]; exact g5 n _ e1 e2
    · obtain ⟨j, hj, hjd⟩ := h.ahead
      rcases List.mem_cons.1 hj with e | hj
      · have hx : x = around y j := by rw [hdx] at e; exact (List.append_cancel_left e).symm
        have hcj := around_canon hy hc (j + 1)
        rw [around_succ, List.map_append] at hcj
        have hcn : cur.canon (y.getD (j % y.length) []) = y.getD (j % y.length) [] := by
          rw [h.canon]; exact (List.cons.inj (List.append_inj' hcj rfl).2).1
        have hdn : cur.node? (d ++ [y.getD (j % y.length) []]) = some .dir := by
          rw [hdx, hx, List.append_assoc, ← around_succ]; exact hjd _ (by omega)
        refine ⟨j + 1, List.mem_append_right _ ?_, fun i hle => ?_⟩
        · rw [around_succ, ← List.append_assoc, ← hx, ← hdx]
          exact mem_pick.2 ⟨_, rfl, (mem_entries h.tidy hi').2 ⟨hcn, .dir, hdn, by simp⟩⟩
        · by_cases hlt : i ≤ j + y.length
          · exact monod _ (hjd i hlt)
          · have e : i = y.length + (j + 1) := by omega
            rw [← g5 _ _ hcn hdn]
            refine node?_eq ?_
            rw [e, ← around_append, List.append_assoc q, hx, ← around_succ]
            unfold FS.key
            rw [g3, h.canon]
            simp only [List.map_append]
            rw [hq, hc, List.append_assoc]
      · exact ⟨j, List.mem_append_left _ hj, fun i hle => monod _ (hjd i hle)⟩

theorem around_down {fs : FS} (ht : Tidy fs) {p y : Path} (i : Nat) : ∀ j, j ≤ i → fs.node? (p ++ around y i) = some .dir → fs.node? (p ++ around y j) = some .dir := by
  induction i with
  | zero => intro j hj h; rw [Nat.le_zero.1 hj]; exact h
  | succ i ih =>
    intro j hj h
    by_cases e : j = i + 1
    · rw [e]; exact h
    · refine ih j (by omega) ?_
      rw [around_succ, ← List.append_assoc] at h
      have := ht.parents _ (by rw [h]; rfl)
      rwa [List.dropLast_concat] at this

theorem above {fs : FS} (ht : Tidy fs) (q : Path) : ∀ z : Path, (fs.node? (q ++ z)).isSome = true → (fs.node? q).isSome = true := by
  intro z
  induction z using List.reverseRecOn with
  | nil => intro h; rwa [List.append_nil] at h
  | append_singleton z m ih =>
    intro h
    rw [← List.append_assoc] at h
    have := ht.parents _ h
    rw [List.dropLast_concat] at this
    exact ih (by rw [this]; rfl)

/-- The files before the entries are copied. -/
theorem prepared {fs : FS} (ht : Tidy fs) {q : Path} (hq : fs.exists q = false) (hf : ∀ r b, r <+: q → fs.node? r ≠ some (.file b)) :
    ∃ fs1 fs2, fs.makedirs q.dropLast = .ok fs1 ∧ fs1.makedir q = .ok fs2 ∧ Tidy fs2 ∧ fs1.canon = fs.canon ∧ fs2.canon = fs.canon ∧ fs2.node? q = some .dir ∧
      (∀ r, ¬ fs.key r <+: fs.key q → fs2.node? r = fs.node? r ∧ fs1.node? r = fs.node? r) ∧ (∀ r n, fs.node? r = some n → fs2.node? r = some n ∧ fs1.node? r = some n) := by
  have hx := node?_of_not_exists hq
  have hne : q ≠ [] := by rintro rfl; cases hx
  obtain ⟨fs1, hm⟩ := makedirsFrom_succeeds q.dropLast fs [] (by simp [node?]) (fun r b hr => by
    rw [List.nil_append]
    exact hf r b (hr.trans (List.dropLast_prefix q)))
  have hm' : fs.makedirs q.dropLast = .ok fs1 := hm
  obtain ⟨m1, m2, m3, m4, m5⟩ := makedirs_ok hm'
  have hx1 : fs1.node? q = none := by
    by_contra hn
    have := (m4 q (by rw [hx]; exact hn)).length_le
    have h2 : 0 < q.length := List.length_pos_iff.2 hne
    simp [FS.key] at this
    omega
  obtain ⟨fs2, h2⟩ := makedir_of (.inr hx1) m5
  obtain ⟨d1, d2, d3, d4, -⟩ := makedir_ok h2
  refine ⟨fs1, fs2, hm', h2, tidy_makedir (tidy_makedirs ht hm') h2, m1, d1.trans m1, d2, fun r hr => ?_, fun r n hr => ⟨d4 r n (m2 r n hr), m2 r n hr⟩⟩
  have e1 : fs1.node? r = fs.node? r := by
    by_contra hn
    refine hr ((m4 r hn).trans ?_)
    simp only [FS.key, List.map_dropLast]
    exact List.dropLast_prefix _
  refine ⟨?_, e1⟩
  rw [d3 r ?_, e1]
  intro e
  refine hr ?_
  unfold FS.key at e ⊢
  rw [m1] at e
  rw [e]
  exact List.prefix_refl _

end Verif.Proofs.CopyWithin
