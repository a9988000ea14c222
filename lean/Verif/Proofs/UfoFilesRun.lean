import Verif.Spec.UfoFiles
import Verif.Props.UfoImages
import Mathlib.Tactic.ByContra
/-! What calls do to the images and the data files of a UFO that is being written. -/
namespace Verif.Props
open Verif Verif.Ufo Verif.FS Verif.IO Verif.Spec.Ufo

theorem makedir_get? {fs fs' : FS} {p : Path} (hp : p ≠ []) (h : fs.makedir p = .ok fs') (k : Path) :
    Dict.get? fs'.nodes k = if k = fs.key p then some .dir else Dict.get? fs.nodes k := by
  unfold makedir at h
  split at h
  · rename_i hd
    cases h
    rw [node?_of_ne hp] at hd
    split
    · rename_i e; rw [e, hd]
    · rfl
  · cases h
  · split at h
    · cases h
    · cases h
    · cases h
      show Dict.get? (Dict.set fs.nodes (fs.key p) .dir) k = _
      rw [Dict.get?_set]
      simp only [eq_comm]

theorem makedirsFrom_get? : ∀ (rest : Path) {fs fs' : FS} {done : Path}, makedirsFrom fs done rest = .ok fs' → ∀ (k : Path),
    ((k <+: fs.key (done ++ rest) ∧ done.length < k.length) → Dict.get? fs'.nodes k = some .dir) ∧
    (¬ (k <+: fs.key (done ++ rest) ∧ done.length < k.length) → Dict.get? fs'.nodes k = Dict.get? fs.nodes k)
  | [], fs, fs', done, h, k => by
    cases h
    refine ⟨fun ⟨h1, h2⟩ => ?_, fun _ => rfl⟩
    have := h1.length_le
    simp [FS.key] at this
    omega
  | c :: rest, fs, fs', done, h, k => by
    unfold makedirsFrom at h
    split at h
    · cases h
    · rename_i fs1 h1
      have hk := makedir_get? (by simp) h1 k
      have hkey : ∀ q, fs1.key q = fs.key q := (makedir_acts h1).key
      obtain ⟨i1, i2⟩ := makedirsFrom_get? rest h k
      rw [hkey, List.append_assoc, List.singleton_append, List.length_append, List.length_singleton] at i1 i2
      constructor
      · rintro ⟨a, b⟩
        by_cases hl : done.length + 1 < k.length
        · exact i1 ⟨a, hl⟩
        · rw [i2 fun x => hl x.2, hk, if_pos]
          have h3 : fs.key (done ++ [c]) <+: fs.key (done ++ c :: rest) := ⟨fs.key rest, by simp [FS.key]⟩
          have h4 : k <+: fs.key (done ++ [c]) := List.prefix_of_prefix_length_le a h3 (by simp [FS.key]; omega)
          exact h4.eq_of_length (by simp [FS.key]; omega)
      · intro hn
        rw [i2 fun x => hn ⟨x.1, by omega⟩, hk, if_neg]
        rintro rfl
        exact hn ⟨⟨fs.key rest, by simp [FS.key]⟩, by simp [FS.key]⟩

theorem makedirs_get? {fs fs' : FS} {p : Path} (h : fs.makedirs p = .ok fs') (k : Path) :
    ((k <+: fs.key p ∧ k ≠ []) → Dict.get? fs'.nodes k = some .dir) ∧ (¬ (k <+: fs.key p ∧ k ≠ []) → Dict.get? fs'.nodes k = Dict.get? fs.nodes k) := by
  have := makedirsFrom_get? p (done := []) h k
  simpa [List.length_pos_iff] using this

/-- What writing a file does to the stored entries. -/
theorem writeNew_get? {fs fs' : FS} {p : Path} {d : Bytes} (h : writeBytesToPath false fs p d = (fs', .ok ())) :
    p ≠ [] ∧ Dict.get? fs'.nodes (fs.key p) = some (.file d) ∧
    ((fs.node? p.dropLast = some .dir ∧ ∀ k, k ≠ fs.key p → Dict.get? fs'.nodes k = Dict.get? fs.nodes k) ∨
     ∀ k, k ≠ fs.key p → ((k <+: fs.key p ∧ k ≠ []) → Dict.get? fs'.nodes k = some .dir) ∧ (¬ (k <+: fs.key p ∧ k ≠ []) → Dict.get? fs'.nodes k = Dict.get? fs.nodes k)) := by
  unfold writeBytesToPath at h
  rw [if_neg (by simp)] at h
  split at h
  · rename_i fs1 h1
    cases h
    obtain ⟨rfl, hp, -, hd⟩ := setbytes_ok h1
    refine ⟨hp, ?_, .inl ⟨hd, fun k hk => ?_⟩⟩
    · show Dict.get? (Dict.set fs.nodes _ _) _ = _
      rw [Dict.get?_set, if_pos rfl]
    · show Dict.get? (Dict.set fs.nodes _ _) _ = _
      rw [Dict.get?_set, if_neg (Ne.symm hk)]
  · cases h
  · split at h
    · cases h
    · rename_i fs1 h1
      split at h
      · cases h
      · rename_i fs2 h2
        cases h
        obtain ⟨rfl, hp, -, hd⟩ := setbytes_ok h2
        have hkey : fs1.key p = fs.key p := (makedirs_acts h1).key p
        refine ⟨hp, ?_, .inr fun k hk => ?_⟩
        · show Dict.get? (Dict.set fs1.nodes _ _) _ = _
          rw [hkey, Dict.get?_set, if_pos rfl]
        · have e : Dict.get? (fs1.perform (.write (fs1.key p) d)).nodes k = Dict.get? fs1.nodes k := by
            show Dict.get? (Dict.set fs1.nodes _ _) _ = _
            rw [hkey, Dict.get?_set, if_neg (Ne.symm hk)]
          rw [e]
          obtain ⟨m1, m2⟩ := makedirs_get? h1 k
          have hpre : k <+: fs.key p ↔ k <+: fs.key p.dropLast := by
            rw [FS.key, FS.key, List.map_dropLast]
            refine ⟨fun hx => ?_, fun hx => hx.trans (List.dropLast_prefix _)⟩
            have hlt : k.length ≠ (p.map fs.canon).length := fun e => hk (hx.eq_of_length e)
            have := hx.length_le
            exact List.prefix_of_prefix_length_le hx (List.dropLast_prefix _) (by simp at hlt this ⊢; omega)
          rw [hpre]
          exact ⟨m1, m2⟩
  · cases h

/-- The directories of images and of data hold these files and the directories they need, and nothing else. -/
structure Region (canon : Str → Str) (S : List (Path × Bytes)) (fs : FS) : Prop where
  canon_eq : fs.canon = canon
  wf : Dict.WF fs.nodes
  only : ∀ k n, Dict.get? fs.nodes k = some n → (k.head? = some (canon c!"images") ∨ k.head? = some (canon c!"data")) →
    (∃ a ∈ S, k = a.1.map canon ∧ n = .file a.2) ∨ ∃ a ∈ S, k <+: a.1.map canon ∧ k ≠ a.1.map canon ∧ n = .dir
  files : ∀ a ∈ S, Dict.get? fs.nodes (a.1.map canon) = some (.file a.2)
  dirs : ∀ a ∈ S, ∀ k, k <+: a.1.map canon → k ≠ [] → k ≠ a.1.map canon → Dict.get? fs.nodes k = some .dir

theorem region_spared {E : FontInfo.Env} {L : Casing} {canon : Str → Str} {S : List (Path × Bytes)} {w : World} (hl : Layered w.1) (h : Region canon S w.2) (hh : ∀ a ∈ S, a.1.head? = some c!"images" ∨ a.1.head? = some c!"data")
    {op : Op} (h1 : Spares canon c!"images" op) (h2 : Spares canon c!"data" op) : Region canon S (step E L w op).1.2 := by
  obtain ⟨-, -, -, ha⟩ := step_spec E L w hl op
  have hfr : ∀ k : Path, (k.head? = some (canon c!"images") ∨ k.head? = some (canon c!"data")) → Dict.get? (step E L w op).1.2.nodes k = Dict.get? w.2.nodes k := by
    intro k hk
    refine ha.get? k fun p hp ⟨t, ht⟩ => ?_
    rw [h.canon_eq] at hp
    rcases hp with ⟨c, r, hc, rfl⟩ | hp
    · subst ht
      simp only [List.cons_append, List.head?_cons, Option.some.injEq] at hk
      rcases hk with hk | hk
      · exact h1 c hc hk
      · exact h2 c hc hk
    · exact h1 _ (hp _) rfl
  have hpre : ∀ a ∈ S, ∀ k : Path, k <+: a.1.map canon → k ≠ [] → (k.head? = some (canon c!"images") ∨ k.head? = some (canon c!"data")) := by
    intro a ha k hk h0
    obtain ⟨x, k', rfl⟩ : ∃ x k', k = x :: k' := by cases k with | nil => exact absurd rfl h0 | cons x k' => exact ⟨x, k', rfl⟩
    obtain ⟨t, ht⟩ := hk
    have := hh a ha
    rcases hp : a.1 with _ | ⟨y, p⟩
    · rw [hp] at this; simp at this
    · rw [hp] at this ht
      simp only [List.map_cons, List.cons_append, List.cons.injEq] at ht
      simp only [List.head?_cons, Option.some.injEq] at this ⊢
      rw [ht.1]
      rcases this with rfl | rfl <;> simp
  have hne : ∀ a ∈ S, a.1.map canon ≠ [] := by
    intro a ha e
    have := hh a ha
    rw [List.map_eq_nil_iff.1 e] at this
    simp at this
  refine ⟨ha.canon.trans h.canon_eq, ha.wf h.wf, fun k n hk hd => h.only k n (by rw [← hfr k hd]; exact hk) hd, fun a ha => ?_, fun a ha k hk h0 hx => ?_⟩
  · rw [hfr _ (hpre a ha _ (List.prefix_refl _) (hne a ha))]; exact h.files a ha
  · rw [hfr _ (hpre a ha k hk h0)]; exact h.dirs a ha k hk h0 hx

/-- Paths of which none is a prefix of another one. -/
def Free (canon : Str → Str) (F : List (Path × Bytes)) : Prop :=
  (∀ a ∈ F, (∃ c r, a.1 = c!"images" :: c :: r) ∨ ∃ c r, a.1 = c!"data" :: c :: r) ∧ ∀ a ∈ F, ∀ b ∈ F, a.1.map canon <+: b.1.map canon → a = b

theorem Free.head {canon : Str → Str} {F : List (Path × Bytes)} (h : Free canon F) {a : Path × Bytes} (ha : a ∈ F) : a.1.head? = some c!"images" ∨ a.1.head? = some c!"data" := by
  rcases h.1 a ha with ⟨c, r, e⟩ | ⟨c, r, e⟩ <;> simp [e]

theorem region_write {canon : Str → Str} {S F : List (Path × Bytes)} (hF : Free canon F) (hS : ∀ a ∈ S, a ∈ F) {fs : FS} (h : Region canon S fs) {a : Path × Bytes} (ha : a ∈ F) :
    ∃ fs', writeBytesToPath false fs a.1 a.2 = (fs', .ok ()) ∧ Region canon (a :: S) fs' := by
  have hkey : ∀ q, fs.key q = q.map canon := fun q => by unfold FS.key; rw [h.canon_eq]
  have hne : a.1 ≠ [] := by rcases hF.1 a ha with ⟨c, r, e⟩ | ⟨c, r, e⟩ <;> simp [e]
  have hhd : ∀ q : Path, q <+: a.1 → q ≠ [] → (q.map canon).head? = some (canon c!"images") ∨ (q.map canon).head? = some (canon c!"data") := by
    rintro q ⟨t, ht⟩ h0
    cases q with
    | nil => exact absurd rfl h0
    | cons x q =>
      have := hF.head ha
      rw [← ht] at this
      simp only [List.cons_append, List.head?_cons, Option.some.injEq] at this
      rcases this with rfl | rfl <;> simp
  have hok : (writeBytesToPath false fs a.1 a.2).2 = .ok () := by
    refine C66_write_succeeds false fs a.1 a.2 hne ?_ ?_
    · rw [node?_of_ne hne, hkey]
      intro hd
      rcases h.only _ _ hd (hhd _ (List.prefix_refl _) hne) with ⟨b, -, -, e⟩ | ⟨b, hb, h1, h2, -⟩
      · cases e
      · exact h2 (by rw [hF.2 a ha b (hS b hb) h1])
    · intro q b hq hq' hd
      have hq0 : q ≠ [] := by rintro rfl; cases hd
      rw [node?_of_ne hq0, hkey] at hd
      rcases h.only _ _ hd (hhd q hq hq0) with ⟨c, hc, h1, -⟩ | ⟨c, hc, -, -, e⟩
      · have : c.1.map canon <+: a.1.map canon := by rw [← h1]; exact hq.map _
        have := hF.2 c (hS c hc) a ha this
        subst this
        exact hq' (hq.eq_of_length (by simpa using congrArg List.length h1))
      · cases e
  obtain ⟨fs', hw⟩ : ∃ fs', writeBytesToPath false fs a.1 a.2 = (fs', .ok ()) := ⟨_, Prod.ext rfl hok⟩
  refine ⟨fs', hw, ?_⟩
  have hacts := writeBytesToPath_acts false fs a.1 a.2
  rw [hw] at hacts
  obtain ⟨-, g1, g2⟩ := writeNew_get? hw
  rw [hkey] at g1 g2
  have hdir : ∀ k, k <+: a.1.map canon → k ≠ [] → k ≠ a.1.map canon → Dict.get? fs'.nodes k = some .dir := by
    intro k hk h0 hx
    rcases g2 with ⟨hd, g2⟩ | g2
    · rw [g2 k hx]
      have hd0 : a.1.dropLast ≠ [] := by rcases hF.1 a ha with ⟨c, r, e⟩ | ⟨c, r, e⟩ <;> simp [e]
      have hkd : k <+: a.1.dropLast.map canon := by
        rw [List.map_dropLast]
        have hlt : k.length ≠ (a.1.map canon).length := fun e => hx (hk.eq_of_length e)
        have := hk.length_le
        exact List.prefix_of_prefix_length_le hk (List.dropLast_prefix _) (by simp at hlt this ⊢; omega)
      rw [node?_of_ne hd0, hkey] at hd
      rcases h.only _ _ hd (hhd _ (List.dropLast_prefix _) hd0) with ⟨b, -, -, e⟩ | ⟨b, hb, h1, h2, -⟩
      · cases e
      · refine h.dirs b hb k (hkd.trans h1) h0 fun e => h2 ?_
        subst e
        have e1 := hkd.length_le
        exact h1.eq_of_length (Nat.le_antisymm h1.length_le e1)
    · exact (g2 k hx).1 ⟨hk, h0⟩
  refine ⟨hacts.canon.trans h.canon_eq, hacts.wf h.wf, fun k n hk hd => ?_, fun b hb => ?_, fun b hb k hk h0 hx => ?_⟩
  · by_cases e : k = a.1.map canon
    · left
      rw [e, g1] at hk
      injection hk with hk
      exact ⟨a, by simp, e, hk.symm⟩
    · by_cases hp : k <+: a.1.map canon ∧ k ≠ []
      · right
        rw [hdir k hp.1 hp.2 e] at hk
        injection hk with hk
        exact ⟨a, by simp, hp.1, e, hk.symm⟩
      · have : Dict.get? fs'.nodes k = Dict.get? fs.nodes k := by
          rcases g2 with ⟨-, g2⟩ | g2
          · exact g2 k e
          · exact (g2 k e).2 hp
        rw [this] at hk
        rcases h.only k n hk hd with ⟨b, hb, h1⟩ | ⟨b, hb, h1⟩
        · exact .inl ⟨b, by simp [hb], h1⟩
        · exact .inr ⟨b, by simp [hb], h1⟩
  · rcases List.mem_cons.1 hb with rfl | hb
    · exact g1
    · by_cases e : b.1.map canon = a.1.map canon
      · have := hF.2 b (hS b hb) a ha (by rw [e]; exact List.prefix_refl _)
        subst this
        exact g1
      · have hold := h.files b hb
        rcases g2 with ⟨-, g2⟩ | g2
        · rw [g2 _ e]; exact hold
        · rw [(g2 _ e).2]
          · exact hold
          · rintro ⟨hp, -⟩
            exact e (by rw [hF.2 b (hS b hb) a ha hp])
  · rcases List.mem_cons.1 hb with rfl | hb
    · exact hdir k hk h0 hx
    · have hold := h.dirs b hb k hk h0 hx
      by_cases hp : k <+: a.1.map canon
      · refine hdir k hp h0 fun e => hx ?_
        subst e
        rw [hF.2 a ha b (hS b hb) hk]
      · rcases g2 with ⟨-, g2⟩ | g2
        · rw [g2 k fun e => hp (e ▸ List.prefix_refl _)]; exact hold
        · rw [(g2 k fun e => hp (e ▸ List.prefix_refl _)).2 fun x => hp x.1]; exact hold

end Verif.Props
