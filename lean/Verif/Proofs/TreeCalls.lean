import Verif.Proofs.Tree
import Verif.Props.UfoCopyFrom
/-! Trees stay trees: moving and copying directories, and the calls as sequences of methods. -/
namespace Verif.Props
open Verif Verif.FS Verif.IO Verif.Ufo Verif.Spec.Ufo

theorem dropLast_prefix_of {α : Type} {a k : List α} (h : a <+: k.dropLast) : a <+: k := h.trans (List.dropLast_prefix k)

/-- Moving a directory, when no file of it comes where a directory is. -/
theorem tidy_move {fs : FS} (ht : Tidy fs) {src dst : Path} (hd0 : dst ≠ []) (hdst : fs.node? dst = some .dir)
    (hc : ∀ r d, fs.node? (src ++ r) = some (.file d) → fs.node? (dst ++ r) ≠ some .dir) : Tidy (fs.perform (.move (fs.key src) (fs.key dst))) := by
  have hg : ∀ k, Dict.get? (fs.perform (.move (fs.key src) (fs.key dst))).nodes k = _ := get?_move ht.once (fs.key src) (fs.key dst)
  have hkey : ∀ a b : Path, fs.key (a ++ b) = fs.key a ++ fs.key b := fun a b => by simp [FS.key]
  have hk' : ∀ q, (fs.perform (.move (fs.key src) (fs.key dst))).key q = fs.key q := fun _ => rfl
  have tail : ∀ (a p : Path) (r : List Str), fs.key a ++ r = fs.key p → r = fs.key (p.drop a.length) := by
    intro a p r h
    unfold FS.key at h ⊢
    rw [List.map_drop, ← h, show a.length = (a.map fs.canon).length by simp, List.drop_left]
  refine tidy_intro (perform_wf ht.once _) (fun k n hk => ?_) fun q n hq => ?_
  · rw [hg] at hk
    split at hk
    · cases hk
    · split at hk
      · rename_i hp
        cases h1 : Dict.get? fs.nodes (fs.key src ++ k.drop (fs.key dst).length) with
        | none => rw [h1] at hk; exact tidy_key ht hk
        | some m =>
          obtain ⟨p, -, hp'⟩ := tidy_key ht h1
          obtain ⟨r, rfl⟩ := hp
          rw [List.drop_left] at hp'
          refine ⟨dst ++ p.drop src.length, by simp [hd0], by rw [hk', hkey, ← tail _ _ _ hp']⟩
      · exact tidy_key ht hk
  · by_cases h0 : q.dropLast = []
    · rw [h0]; rfl
    have hq0 : q ≠ [] := by rintro rfl; exact h0 rfl
    rw [node?_of_ne hq0, hk', hg] at hq
    rw [node?_of_ne h0, hk', hg, key_dropLast]
    have hpd : (fs.key q).dropLast = fs.key q.dropLast := (key_dropLast fs q).symm
    split at hq
    · cases hq
    rename_i hs
    rw [if_neg fun h => hs (dropLast_prefix_of h)]
    -- the parent, when the entry was there before
    have old : Dict.get? fs.nodes (fs.key q) = some n → Dict.get? fs.nodes (fs.key q).dropLast = some .dir := by
      intro h
      rw [← node?_of_ne hq0] at h
      have := tidy_parent ht h
      rwa [node?_of_ne h0, key_dropLast] at this
    split at hq
    · rename_i hp
      obtain ⟨r, hr⟩ := hp
      rw [← hr, List.drop_left] at hq
      cases h1 : Dict.get? fs.nodes (fs.key src ++ r) with
      | some m =>
        by_cases hr0 : r = []
        · subst hr0
          rw [List.append_nil] at hr
          rw [if_neg, ← hr, ← key_dropLast, ← node?_of_ne]
          · exact tidy_parent ht hdst
          · intro h
            apply h0
            have : (fs.key q).dropLast = [] := by rw [← hr, ← key_dropLast, h]; rfl
            rw [hpd] at this
            exact List.map_eq_nil_iff.1 this
          · intro h
            have hl := h.length_le
            rw [hr] at hl
            have := List.length_pos_of_ne_nil hq0
            simp [FS.key] at hl
            omega
        · have hs0 : src ≠ [] := by rintro rfl; exact hs List.nil_prefix
          obtain ⟨p, hp0, hpk⟩ := tidy_key ht h1
          have hm : fs.node? p = some m := by rw [node?_of_ne hp0, ← hpk, h1]
          have hpar := tidy_parent ht hm
          have hl : (fs.key p).dropLast = fs.key src ++ r.dropLast := by rw [← hpk, List.dropLast_append_of_ne_nil hr0]
          have hpd0 : p.dropLast ≠ [] := by
            intro h
            rw [← key_dropLast, h] at hl
            have := congrArg List.length hl
            have h2 := List.length_pos_of_ne_nil hs0
            simp [FS.key] at this
            omega
          rw [node?_of_ne hpd0, key_dropLast, hl] at hpar
          have hql : (fs.key q).dropLast = fs.key dst ++ r.dropLast := by rw [← hr, List.dropLast_append_of_ne_nil hr0]
          rw [hql, if_pos (List.prefix_append _ _), List.drop_left, hpar]
          rfl
      | none =>
        rw [h1, hr] at hq
        have hpar := old hq
        split
        · rename_i hp
          rw [hpar]
          cases h2 : Dict.get? fs.nodes (fs.key src ++ ((fs.key q).dropLast).drop (fs.key dst).length) with
          | none => rfl
          | some m =>
            cases m with
            | dir => rfl
            | file d =>
              exfalso
              obtain ⟨t, ht'⟩ := hp
              have htk : t = fs.key (q.dropLast.drop dst.length) := tail _ _ _ (by rw [ht', key_dropLast])
              rw [← ht', List.drop_left, htk, ← hkey] at h2
              have hs0 : src ≠ [] := by rintro rfl; exact hs List.nil_prefix
              refine hc _ d (by rw [node?_of_ne (by simp [hs0]), h2]) ?_
              rw [node?_of_ne (by simp [hd0]), hkey, ← htk, ht', hpar]
        · exact hpar
    · rename_i hp
      rw [if_neg fun h => hp (dropLast_prefix_of h)]
      exact old hq

theorem tidy_movedir {fs : FS} (ht : Tidy fs) {src dst : Path} (hd0 : dst ≠ [])
    (hc : ∀ r d, fs.node? (src ++ r) = some (.file d) → fs.node? (dst ++ r) ≠ some .dir) : Tidy (fs.movedir src dst).1 := by
  unfold movedir
  split
  · exact ht
  · rename_i fs' h
    have ht' := tidy_makedir ht h
    obtain ⟨k1, k2, k3, -⟩ := makedir_ok h
    split
    · exact ht'
    · exact ht'
    · rename_i hsrc
      refine tidy_move ht' hd0 k2 fun r d hr hr' => ?_
      have hk : ∀ x, fs'.key x = fs.key x := fun x => by unfold FS.key; rw [k1]
      by_cases e1 : fs.key (src ++ r) = fs.key dst
      · rw [node?_eq (fs := fs') (p := src ++ r) (q := dst) (by rw [hk, hk, e1]), k2] at hr; cases hr
      · by_cases e2 : fs.key (dst ++ r) = fs.key dst
        · have : r = [] := by
            have := congrArg List.length e2
            simpa [FS.key] using this
          subst this
          rw [List.append_nil] at hr
          rw [hsrc] at hr
          cases hr
        · rw [k3 _ e1] at hr
          rw [k3 _ e2] at hr'
          exact hc r d hr hr'

/-- Copying into a UFO: files and directories of the source that have different names have different names there. -/
theorem tidy_copy {src fs : FS} (hts : Tidy src) (ht : Tidy fs) (p q : Path)
    (hdist : ∀ x y, src.exists (p ++ x) = true → src.exists (p ++ y) = true → (x.map src.canon).map fs.canon = (y.map src.canon).map fs.canon →
      x.map src.canon = y.map src.canon) : Tidy (copyFromReader src fs p q).1 := by
  by_cases hs : src.node? p = some .dir
  · cases hok : (copyFromReader src fs p q).2 with
    | error e =>
      unfold copyFromReader at hok ⊢
      split
      · exact ht
      · split
        · exact ht
        · split
          · exact ht
          · rename_i fs1 h1
            have ht1 := tidy_makedirs ht h1
            rw [hs]
            dsimp only
            split
            · exact ht1
            · rename_i x hx y hy fs2 h2
              exfalso
              rw [if_neg (by assumption), if_neg (by assumption), h1, hs] at hok
              dsimp only at hok
              rw [h2] at hok
              cases hok
    | ok u =>
      obtain ⟨d1, d2⟩ := C95_directory src fs p q hts ht hs hok hdist
      obtain ⟨hq, c1, c2, -⟩ := copyDir_spec hs ht.parents hok
      -- the tree as it was before the entries are copied
      obtain ⟨g, hg, hgt, hgc, hgq⟩ : ∃ g, (copyFromReader src fs p q).1 = (below src p).foldl (copyEntry q) g ∧ Tidy g ∧ g.canon = fs.canon ∧ g.node? q = some .dir := by
        unfold copyFromReader at hok ⊢
        split
        · rename_i h; rw [if_pos h] at hok; cases hok
        · rename_i h; rw [if_neg h] at hok
          split
          · rename_i h; rw [if_pos h] at hok; cases hok
          · rename_i h; rw [if_neg h] at hok
            split
            · rename_i e h; rw [h] at hok; cases hok
            · rename_i fs1 h1
              rw [h1, hs] at hok
              rw [hs]
              dsimp only at hok ⊢
              split
              · rename_i h; rw [h] at hok; cases hok
              · rename_i fs2 h2
                exact ⟨fs2, rfl, tidy_makedir (tidy_makedirs ht h1) h2, (makedir_ok h2).1.trans (makedirs_ok h1).1, (makedir_ok h2).2.1⟩
      generalize (copyFromReader src fs p q).1 = R at *
      have hwf : ∀ (l : List (Path × Node)) (g : FS), Dict.WF g.nodes → Dict.WF (l.foldl (copyEntry q) g).nodes := by
        intro l
        induction l with
        | nil => intro g h; exact h
        | cons e l ih =>
          intro g h
          refine ih _ ?_
          unfold copyEntry
          split <;> exact perform_wf h _
      have acts := copyTree_acts q (below src p) g
      have hkR : ∀ x, R.key x = g.key x := fun x => by unfold FS.key; rw [c1, hgc]
      have hRg : ∀ x, ¬ g.key q <+: g.key x → R.node? x = g.node? x := by
        intro x hx
        rw [hg, acts.node?]
        intro k hk hk'
        exact hx (hk.trans hk')
      have hkeys : ∀ (l : List (Path × Node)) (g : FS), g.canon = fs.canon → ∀ k n, Dict.get? (l.foldl (copyEntry q) g).nodes k = some n →
          (∃ m, Dict.get? g.nodes k = some m) ∨ ∃ x : Path, k = fs.key (q ++ x) := by
        intro l
        induction l with
        | nil => intro g _ k n h; exact .inl ⟨n, h⟩
        | cons e l ih =>
          intro g hgc k n h
          obtain ⟨e1, e2⟩ := copyEntry_nodes q g e
          rcases ih (copyEntry q g e) (e2.trans hgc) k n h with ⟨m, hm⟩ | h
          · rw [e1, Dict.get?_set] at hm
            split at hm
            · rename_i hk
              exact .inr ⟨e.1, by rw [← hk]; unfold FS.key; rw [hgc]⟩
            · exact .inl ⟨m, hm⟩
          · exact .inr h
      refine tidy_intro (by rw [hg]; exact hwf _ _ hgt.once) (fun k n hk => ?_) fun x n hx => ?_
      · rw [hg] at hk
        rcases hkeys _ g hgc k n hk with ⟨m, hm⟩ | ⟨x, rfl⟩
        · obtain ⟨y, hy, rfl⟩ := tidy_key hgt hm
          exact ⟨y, hy, (hkR y).symm⟩
        · exact ⟨q ++ x, by simp [hq], by unfold FS.key; rw [c1]⟩
      · by_cases hp : g.key q <+: g.key x
        · obtain ⟨t, ht'⟩ := hp
          have hxq : R.key x = R.key (q ++ x.drop q.length) := by
            rw [hkR, hkR]
            have hl : q.length = (g.key q).length := by simp [FS.key]
            have : t = (x.drop q.length).map g.canon := by
              rw [List.map_drop, show x.map g.canon = g.key x from rfl, ← ht', hl, List.drop_left]
            rw [← ht', this]
            simp [FS.key]
          generalize x.drop q.length = z at hxq
          have hxd : R.key x.dropLast = (R.key (q ++ z)).dropLast := by rw [key_dropLast, hxq]
          rw [node?_eq hxq] at hx
          by_cases hz : z = []
          · subst hz
            rw [List.append_nil] at hx hxd
            have hxd' : R.key x.dropLast = R.key q.dropLast := by rw [hxd, key_dropLast]
            rw [node?_eq hxd']
            have hng : ¬ g.key q <+: g.key q.dropLast := by
              intro h
              have := h.length_le
              have h0 := List.length_pos_of_ne_nil hq
              simp [FS.key] at this
              omega
            rw [hRg _ hng]
            exact tidy_parent hgt hgq
          · obtain ⟨y, hy, hyk⟩ := d2 z n hx
            have hy0 : y ≠ [] := by
              rintro rfl
              exact hz (by simpa using hyk)
            have hpar := tidy_parent hts hy
            rw [List.dropLast_append_of_ne_nil hy0] at hpar
            have hd := d1 _ _ hpar
            rw [← hd]
            refine node?_eq ?_
            rw [hxd]
            have hz' : z.map R.canon ≠ [] := by simpa using hz
            have e : R.key (q ++ z) = R.key q ++ z.map R.canon := by simp [FS.key]
            have e' : R.key (q ++ (y.dropLast).map src.canon) = R.key q ++ (((y.map src.canon).map fs.canon).dropLast) := by
              simp [FS.key, c1, List.map_dropLast]
            rw [e, e', List.dropLast_append_of_ne_nil hz', c1, hyk]
        · have hng : ¬ g.key q <+: g.key x.dropLast := fun h => hp (dropLast_prefix_of (by rwa [key_dropLast] at h))
          rw [hRg _ hp] at hx
          rw [hRg _ hng]
          exact tidy_parent hgt hx
  · unfold copyFromReader
    split
    · exact ht
    · rename_i he
      split
      · exact ht
      · split
        · exact ht
        · rename_i fs1 h1
          have ht1 := tidy_makedirs ht h1
          cases hn : src.node? p with
          | none => exact absurd (by unfold FS.exists; rw [hn]; rfl) he
          | some m =>
            cases m with
            | dir => exact absurd hn hs
            | file d =>
              dsimp only
              split
              · exact ht1
              · rename_i fs2 h2
                exact tidy_setbytes ht1 h2

/-! ### the calls -/

/-- The methods after which a tree is a tree whatever there was. -/
def _root_.Verif.Ufo.Method.Tame : Method → Prop
  | .movedir _ _ => False
  | .copyEntry _ _ => False
  | _ => True

theorem tidy_attempt {fs : FS} (ht : Tidy fs) {r : Except Exc FS} (h : ∀ fs', r = .ok fs' → Tidy fs') : Tidy (attempt fs r).1 := by
  cases r with
  | error e => exact ht
  | ok fs' => exact h fs' rfl

theorem tidy_method {fs : FS} (ht : Tidy fs) : ∀ m : Method, m.Tame → Tidy (m.run fs).1
  | .setbytes _ _, _ => tidy_attempt ht fun _ h => tidy_setbytes ht h
  | .remove _, _ => tidy_attempt ht fun _ h => tidy_remove ht h
  | .makedir _, _ => tidy_attempt ht fun _ h => tidy_makedir ht h
  | .makedirs _, _ => tidy_attempt ht fun _ h => tidy_makedirs ht h
  | .removetree _, _ => tidy_attempt ht fun _ h => tidy_removetree ht h
  | .removedir _, _ => tidy_attempt ht fun _ h => tidy_removedir ht h

/-- Only such methods are called, whatever the answers are. -/
def _root_.Verif.Ufo.Prog.Tame {α : Type} : Prog α → Prop
  | .ret _ => True
  | .get _ k => ∀ r, (k r).Tame
  | .has _ k => ∀ r, (k r).Tame
  | .call m k => m.Tame ∧ ∀ r, (k r).Tame

theorem tame_bind {α β : Type} {p : Prog α} {f : α → Prog β} (hp : p.Tame) (hf : ∀ x, (f x).Tame) : (p.bind f).Tame := by
  induction p with
  | ret x => exact hf x
  | get p k ih => exact fun r => ih r (hp r)
  | has p k ih => exact fun r => ih r (hp r)
  | call m k ih => exact ⟨hp.1, fun r => ih r (hp.2 r)⟩

theorem tame_next {α : Type} {p : Prog α} (hp : p.Tame) {fs : FS} (ht : Tidy fs) : (p.next fs).2.Tame ∧ Tidy (p.next fs).1 := by
  cases p with
  | ret a => exact ⟨trivial, ht⟩
  | get p k => exact ⟨hp _, ht⟩
  | has p k => exact ⟨hp _, ht⟩
  | call m k => exact ⟨hp.2 _, tidy_method ht m hp.1⟩

theorem tame_run {α : Type} {p : Prog α} (hp : p.Tame) : ∀ {fs : FS}, Tidy fs → Tidy (p.run fs).1 := by
  induction p with
  | ret a => intro fs ht; exact ht
  | get p k ih => intro fs ht; exact ih _ (hp _) ht
  | has p k ih => intro fs ht; exact ih _ (hp _) ht
  | call m k ih => intro fs ht; exact ih _ (hp.2 _) (tidy_method ht m hp.1)

theorem unchangedP_tame (p : Path) (d : Bytes) {k : Bool → Prog (Except Exc Unit)} (hk : ∀ u, (k u).Tame) : (unchangedP p d k).Tame := by
  intro r
  try dsimp only
  split
  · exact hk _
  · exact hk _
  · exact hk _
  · exact trivial

theorem getPlistP_tame (F : FloatCodec) (p : Path) (d : Option PyVal) : (getPlistP F p d).Tame := fun _ => trivial

theorem setbytesP_tame (p : Path) (d : Bytes) : (Prog.call (.setbytes p d) .ret).Tame := ⟨trivial, fun _ => trivial⟩

theorem writePlistP_tame (F : FloatCodec) (v : Bool) (p : Path) (x : PyVal) : (writePlistP F v p x).Tame := by
  unfold writePlistP
  split
  · split
    · exact trivial
    · refine unchangedP_tame p _ fun u => ?_
      try dsimp only
      split
      · exact trivial
      · exact setbytesP_tame p _
  · refine ⟨trivial, fun r => ?_⟩
    try dsimp only
    split
    · exact trivial
    · split
      · exact trivial
      · exact setbytesP_tame p _

theorem writeBytesP_tame (v : Bool) (p : Path) (d : Bytes) : (writeBytesP v p d).Tame := by
  have key : (putBytesP p d).Tame := by
    refine ⟨trivial, fun r => ?_⟩
    try dsimp only
    split
    · exact trivial
    · exact trivial
    · refine ⟨trivial, fun r => ?_⟩
      try dsimp only
      split
      · exact trivial
      · exact setbytesP_tame p d
    · exact trivial
  unfold writeBytesP
  split
  · refine unchangedP_tame p _ fun u => ?_
    try dsimp only
    split
    · exact trivial
    · exact key
  · exact key

theorem removeEmptyP_tame : ∀ (rev : List Str), (removeEmptyP rev).Tame
  | [] => trivial
  | c :: rest => by
    refine ⟨trivial, fun r => ?_⟩
    try dsimp only
    split
    · exact trivial
    · exact trivial
    · exact removeEmptyP_tame rest

theorem removePathP_tame (p : Path) (force re : Bool) : (removePathP p force re).Tame := by
  unfold removePathP
  refine tame_bind ?_ fun r => ?_
  · refine ⟨trivial, fun r => ?_⟩
    try dsimp only
    split
    · exact trivial
    · exact ⟨trivial, fun _ => trivial⟩
    · split <;> exact trivial
    · exact trivial
  · split
    · exact trivial
    · split
      · exact removeEmptyP_tame _
      · exact trivial

theorem copyP_tame (src : FS) (p q : Path) (hs : src.node? p ≠ some .dir) : (copyP src p q).Tame := by
  unfold copyP
  split
  · exact trivial
  · rename_i he
    split
    · exact trivial
    · intro r
      try dsimp only
      split
      · exact trivial
      · refine ⟨trivial, fun r => ?_⟩
        try dsimp only
        split
        · exact trivial
        · split
          · exact setbytesP_tame q _
          · rename_i hn
            exfalso
            cases h : src.node? p with
            | none => exact he (by unfold FS.exists; rw [h]; rfl)
            | some m => cases m with
              | dir => exact hs h
              | file d => exact hn d h

theorem missingP_tame (dir : Path) : ∀ t : List (Str × Str), (missingP dir t).Tame
  | [] => trivial
  | e :: t => by
    intro r
    try dsimp only
    split
    · exact missingP_tame dir t
    · exact trivial

theorem rebuildP_tame (F : FloatCodec) (gs : GlyphSet.GlyphSet) (v : Bool) : (rebuildP F gs v).Tame := by
  unfold rebuildP
  refine tame_bind (getPlistP_tame F _ _) fun r => ?_
  try dsimp only
  split
  · exact trivial
  · split
    · exact trivial
    · try dsimp only
      split
      · exact tame_bind (missingP_tame _ _) fun _ => trivial
      · exact trivial
  · exact trivial

theorem openP_tame (F : FloatCodec) (dir : Path) (version : Nat) (v : Bool) : (openP F dir version v).Tame := by
  unfold openP
  split
  · exact fun r => rebuildP_tame F _ v
  · exact trivial

theorem glyphP_tame (L : Casing) (F : FloatCodec) (gs : GlyphSet.GlyphSet) (op : GlyphSet.Op) : (glyphP L F gs op).Tame := by
  cases op with
  | write naming name fv data =>
    simp only [glyphP]
    split
    · exact trivial
    · split
      · exact trivial
      · split
        · exact trivial
        · refine tame_bind ?_ fun _ => trivial
          unfold storeGlyphP
          split
          · refine unchangedP_tame _ _ fun u => ?_
            try dsimp only
            split
            · exact trivial
            · exact setbytesP_tame _ _
          · exact setbytesP_tame _ _
  | delete name =>
    simp only [glyphP]
    split
    · exact trivial
    · exact ⟨trivial, fun _ => trivial⟩
  | reverse => exact trivial
  | save => exact tame_bind (writePlistP_tame F _ _ _) fun _ => trivial
  | rebuild v => exact tame_bind (rebuildP_tame F gs v) fun _ => trivial

theorem layerInfoP_tame (F : FloatCodec) (gs : GlyphSet.GlyphSet) (info : Str → Option PyVal) (v : Bool) : (layerInfoP F gs info v).Tame := by
  unfold layerInfoP
  split
  · exact trivial
  · dsimp only
    split
    · split
      · exact trivial
      · exact tame_bind (writePlistP_tame F _ _ _) fun _ => trivial
    · split
      · intro r
        try dsimp only
        split
        · exact ⟨trivial, fun _ => trivial⟩
        · exact trivial
      · exact trivial

theorem writeOrRemoveP_tame (F : FloatCodec) (w : Writer) (name : Str) (empty : Bool) (v : PyVal) : (writeOrRemoveP F w name empty v).Tame := by
  unfold writeOrRemoveP
  split
  · exact writePlistP_tame F _ _ _
  · split
    · exact removePathP_tame _ _ _
    · exact trivial

theorem getGlyphSetP_tame (L : Casing) (F : FloatCodec) (w : Writer) (n : Option Str) (d v : Bool) : (getGlyphSetP L F w n d v).Tame := by
  unfold getGlyphSetP
  split
  · exact trivial
  · split
    · exact trivial
    · split
      · refine ⟨trivial, fun r => ?_⟩
        try dsimp only
        split
        · exact trivial
        · split
          · exact trivial
          · exact tame_bind (openP_tame F _ _ _) fun _ => trivial
      · dsimp only
        split
        · exact trivial
        · split
          · exact trivial
          · refine ⟨trivial, fun r => ?_⟩
            try dsimp only
            split
            · exact trivial
            · exact tame_bind (openP_tame F _ _ _) fun _ => trivial

theorem deleteP_tame (w : Writer) (n : Option Str) : (deleteP w n).Tame := by
  unfold deleteP
  split
  · exact trivial
  · split
    · exact trivial
    · refine tame_bind (removePathP_tame _ _ _) fun r => ?_
      try dsimp only
      split
      · exact trivial
      · split
        · exact trivial
        · split <;> exact trivial

/-- The calls that move no directory and copy no directory. -/
def _root_.Verif.Ufo.Op.Small : Op → Prop
  | .rename _ _ _ => False
  | .copy src p _ => src.node? p ≠ some .dir
  | .copyImage src n _ => src.node? [imagesName, n] ≠ some .dir
  | _ => True

theorem opP_tame (E : FontInfo.Env) (L : Casing) (w : Writer) (op : Op) (ho : op.Small) : (opP E L w op).Tame := by
  cases op with
  | maps x y => exact trivial
  | info i v =>
    simp only [opP]
    split
    · exact trivial
    · exact tame_bind (writePlistP_tame E.F _ _ _) fun _ => trivial
  | lib l v =>
    simp only [opP]
    split
    · exact trivial
    · exact tame_bind (writeOrRemoveP_tame _ w _ _ _) fun _ => trivial
  | groups g v =>
    simp only [opP]
    split
    · exact trivial
    · exact tame_bind (writeOrRemoveP_tame _ w _ _ _) fun _ => trivial
  | kerning g v =>
    simp only [opP]
    split
    · exact trivial
    · exact tame_bind (writeOrRemoveP_tame _ w _ _ _) fun _ => trivial
  | features s =>
    simp only [opP]
    split
    · exact trivial
    · split
      · exact tame_bind (writeBytesP_tame _ _ _) fun _ => trivial
      · split
        · exact tame_bind (removePathP_tame _ _ _) fun _ => trivial
        · exact trivial
  | glyphSet n d v => exact tame_bind (getGlyphSetP_tame L E.F w n d v) fun _ => trivial
  | rename n m d => exact ho.elim
  | delete n => exact deleteP_tame w n
  | layerContents o v =>
    simp only [opP]
    split
    · exact trivial
    · split
      · exact trivial
      · split
        · exact trivial
        · exact tame_bind (writePlistP_tame E.F _ _ _) fun _ => trivial
  | image n d v =>
    simp only [opP]
    split
    · exact trivial
    · split
      · exact trivial
      · exact tame_bind (writeBytesP_tame _ _ _) fun _ => trivial
  | removeImage n =>
    simp only [opP]
    split
    · exact trivial
    · exact tame_bind (removePathP_tame _ _ _) fun _ => trivial
  | bytes p d => exact tame_bind (writeBytesP_tame _ _ _) fun _ => trivial
  | remove p force re => exact tame_bind (removePathP_tame _ _ _) fun _ => trivial
  | copy src p q => exact tame_bind (copyP_tame src p q ho) fun _ => trivial
  | copyImage src n m =>
    simp only [opP]
    split
    · exact trivial
    · exact tame_bind (copyP_tame src _ _ ho) fun _ => trivial
  | glyph gs op => exact tame_bind (glyphP_tame L E.F gs op) fun _ => trivial
  | layerInfo gs info v => exact tame_bind (layerInfoP_tame E.F gs info v) fun _ => trivial

/-- The same for the calls of a program. -/
def _root_.Verif.Ufo.FontCall.Small : FontCall → Prop
  | .ufo op => op.Small
  | _ => True

theorem userProg_tame (E : FontInfo.Env) (L : Casing) (u : User) (c : FontCall) (hc : c.Small) : (u.prog E L c).Tame := by
  cases c with
  | getGlyphSet n b v => exact tame_bind (getGlyphSetP_tame L E.F u.writer n b v) fun _ => trivial
  | ufo op => exact tame_bind (opP_tame E L u.writer op hc) fun _ => trivial
  | set i c =>
    simp only [User.prog]
    split
    · exact trivial
    · refine tame_bind ?_ fun _ => trivial
      cases c with
      | glyphs op => exact glyphP_tame L E.F _ op
      | layerInfo info v => exact layerInfoP_tame E.F _ info v

theorem tidy_small (E : FontInfo.Env) (L : Casing) (f : Font) (ht : Tidy f.fs) (c : FontCall) (hc : c.Small) : Tidy (f.step E L c).1.fs := by
  have h := tame_run (userProg_tame E L ⟨f.writer, f.sets⟩ c hc) ht
  rw [prog_run] at h
  exact h

/-- A running program of which nothing remains but such calls. -/
structure SmallProc (p : Proc) : Prop where
  running : ∀ c, p.running = some c → c.Tame
  todo : ∀ c ∈ p.todo, c.Small

theorem small_step (E : FontInfo.Env) (L : Casing) {p : Proc} (hp : SmallProc p) {fs : FS} (ht : Tidy fs) : SmallProc (p.step E L fs).1 ∧ Tidy (p.step E L fs).2 := by
  unfold Proc.step
  split
  · exact ⟨⟨by simp, hp.todo⟩, ht⟩
  · rename_i c hc
    have h := tame_next (hp.running _ hc) ht
    exact ⟨⟨fun c' hc' => by cases hc'; exact h.1, hp.todo⟩, h.2⟩
  · split
    · exact ⟨hp, ht⟩
    · rename_i c cs hcs
      refine ⟨⟨fun c' hc' => ?_, fun c' hc' => hp.todo c' (by rw [hcs]; exact .tail _ hc')⟩, ht⟩
      cases hc'
      exact userProg_tame E L p.user c (hp.todo c (by rw [hcs]; exact .head _))

theorem small_run (E : FontInfo.Env) (L : Casing) : ∀ (sched : List Nat) (s : Running), (∀ p ∈ s.procs, SmallProc p) → Tidy s.fs →
    (∀ p ∈ (s.run E L sched).procs, SmallProc p) ∧ Tidy (s.run E L sched).fs
  | [], s, hp, ht => ⟨hp, ht⟩
  | i :: rest, s, hp, ht => by
    refine small_run E L rest _ ?_ ?_
    · intro p h
      unfold Running.step at h
      split at h
      · exact hp p h
      · rename_i p0 h0
        rcases List.mem_or_eq_of_mem_set h with h | rfl
        · exact hp p h
        · exact (small_step E L (hp p0 (List.mem_of_getElem? h0)) ht).1
    · unfold Running.step
      split
      · exact ht
      · rename_i p0 h0
        exact (small_step E L (hp p0 (List.mem_of_getElem? h0)) ht).2

end Verif.Props
