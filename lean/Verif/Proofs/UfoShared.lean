import Verif.Proofs.UfoFont
import Verif.Proofs.FSTree
import Verif.Spec.UfoShared
/-! A call depends only on the entries of the root directory that it is about. -/
namespace Verif.FS
open Verif

/-- The stored names below the entries `S` of the root directory. -/
def Below (S : Str → Prop) (κ : Str → Str) (k : Path) : Prop := ∃ c r, S c ∧ k = κ c :: r

/-- The paths below the entries `S` of the root directory, and the root. -/
def Paths (S : Str → Prop) (q : Path) : Prop := ∀ c, q.head? = some c → S c

theorem paths_nil {S : Str → Prop} : Paths S [] := by intro c h; cases h

theorem paths_cons {S : Str → Prop} {c : Str} {r : Path} (h : S c) : Paths S (c :: r) := by intro d hd; cases hd; exact h

theorem Paths.head {S : Str → Prop} {c : Str} {r : Path} (h : Paths S (c :: r)) : S c := h c rfl

theorem Paths.pre {S : Str → Prop} {p q : Path} (h : Paths S q) (hp : p <+: q) : Paths S p := by
  obtain ⟨t, rfl⟩ := hp
  intro c hc
  refine h c ?_
  cases p with
  | nil => cases hc
  | cons a p => exact hc

theorem Paths.up {S : Str → Prop} {q : Path} (h : Paths S q) : Paths S q.dropLast := h.pre (List.dropLast_prefix q)

theorem Paths.more {S : Str → Prop} {p r : Path} (h : Paths S p) (h0 : p ≠ []) : Paths S (p ++ r) := by
  cases p with
  | nil => exact absurd rfl h0
  | cons a p => exact paths_cons h.head

theorem Paths.below {S : Str → Prop} {fs : FS} {q t : Path} (h : Paths S q) (h0 : q ≠ []) : Below S fs.canon (fs.key q ++ t) := by
  cases q with
  | nil => exact absurd rfl h0
  | cons a q => exact ⟨a, _, h.head, rfl⟩

/-- Two file systems with the same below the entries `S` of the root directory. -/
abbrev Shares (S : Str → Prop) (κ : Str → Str) (a b : FS) : Prop := Alike (Below S κ) (Paths S) a b

namespace Shares
variable {S : Str → Prop} {κ : Str → Str} {a b : FS}

theorem of_raw (hc : a.canon = b.canon) (hκ : a.canon = κ) (h : ∀ k, Below S κ k → Dict.get? a.nodes k = Dict.get? b.nodes k) : Shares S κ a b := by
  refine ⟨hc, fun q hq => ?_, h⟩
  unfold FS.node?
  split
  · rfl
  · rename_i h0
    have : b.key q = a.key q := by unfold FS.key; rw [hc]
    rw [this]
    refine h _ ?_
    have := hq.below (fs := a) (t := []) h0
    rwa [List.append_nil, hκ] at this

theorem perform (h : Shares S κ a b) (hκ : a.canon = κ) (x : Prim) (hm : ∀ src dst, x = .move src dst → (∀ t, Below S κ (src ++ t)) ∧ Dict.WF a.nodes ∧ Dict.WF b.nodes) :
    Shares S κ (a.perform x) (b.perform x) := by
  refine of_raw h.canon hκ fun k hk => ?_
  show Dict.get? (x.apply a.nodes) k = Dict.get? (x.apply b.nodes) k
  cases x with
  | write p d => simp only [Prim.apply]; rw [Dict.get?_set, Dict.get?_set, h.raw k hk]
  | remove p => simp only [Prim.apply]; rw [Dict.get?_erase, Dict.get?_erase, h.raw k hk]
  | mkdir p => simp only [Prim.apply]; rw [Dict.get?_set, Dict.get?_set, h.raw k hk]
  | rmtree p => simp only [Prim.apply]; rw [get?_dropTree, get?_dropTree, h.raw k hk]
  | move src dst =>
    obtain ⟨h1, h2, h3⟩ := hm _ _ rfl
    rw [get?_move h2, get?_move h3, h.raw k hk, h.raw _ (h1 _)]

/-- Two results of one operation: the same error, or file systems that again have the same below `S`. -/
def Both (S : Str → Prop) (κ : Str → Str) (x y : Except Exc FS) : Prop :=
  (∃ e, x = .error e ∧ y = .error e) ∨ ∃ a' b', x = .ok a' ∧ y = .ok b' ∧ Shares S κ a' b'

theorem makedir (h : Shares S κ a b) (hκ : a.canon = κ) {p : Path} (hp : Paths S p) : Both S κ (a.makedir p) (b.makedir p) := by
  unfold FS.makedir
  rw [h.node p hp]
  split
  · exact .inr ⟨_, _, rfl, rfl, h⟩
  · exact .inl ⟨_, rfl, rfl⟩
  · rw [h.node _ hp.up]
    split
    · exact .inl ⟨_, rfl, rfl⟩
    · exact .inl ⟨_, rfl, rfl⟩
    · rw [h.key p]
      exact .inr ⟨_, _, rfl, rfl, h.perform hκ _ (by intro _ _ h; cases h)⟩

theorem makedirsFrom (rest : Path) : ∀ {a b : FS} {done : Path}, Shares S κ a b → a.canon = κ → Paths S (done ++ rest) →
    Both S κ (FS.makedirsFrom a done rest) (FS.makedirsFrom b done rest) := by
  induction rest with
  | nil => intro a b done h _ _; exact .inr ⟨_, _, rfl, rfl, h⟩
  | cons c rest ih =>
    intro a b done h hκ hp
    unfold FS.makedirsFrom
    rcases h.makedir hκ (hp.pre (p := done ++ [c]) ⟨rest, by simp⟩) with ⟨e, h1, h2⟩ | ⟨a', b', h1, h2, h3⟩
    · rw [h1, h2]; exact .inl ⟨_, rfl, rfl⟩
    · rw [h1, h2]
      exact ih h3 ((makedir_acts h1).canon.trans hκ) (by simpa using hp)

theorem makedirs (h : Shares S κ a b) (hκ : a.canon = κ) {p : Path} (hp : Paths S p) : Both S κ (a.makedirs p) (b.makedirs p) := makedirsFrom p h hκ hp

theorem removetree (h : Shares S κ a b) (hκ : a.canon = κ) {p : Path} (hp : Paths S p) : Both S κ (a.removetree p) (b.removetree p) := by
  unfold FS.removetree
  rw [h.node p hp, h.key p]
  split
  · exact .inr ⟨_, _, rfl, rfl, h.perform hκ _ (by intro _ _ h; cases h)⟩
  · exact .inl ⟨_, rfl, rfl⟩
  · exact .inl ⟨_, rfl, rfl⟩

theorem removedir (h : Shares S κ a b) (hκ : a.canon = κ) {p : Path} (hp : Paths S p) (h0 : p ≠ []) : Both S κ (a.removedir p) (b.removedir p) := by
  have hany : ∀ {x y : FS}, (∀ k, Below S κ k → Dict.get? x.nodes k = Dict.get? y.nodes k) → x.canon = κ → y.key p = x.key p →
      x.nodes.any (fun e => (x.key p).isPrefixOf e.1 && e.1 != x.key p) = true → y.nodes.any (fun e => (y.key p).isPrefixOf e.1 && e.1 != y.key p) = true := by
    intro x y hraw hx hk hh
    rw [List.any_eq_true] at hh ⊢
    obtain ⟨e, he, h1⟩ := hh
    simp only [Bool.and_eq_true, List.isPrefixOf_iff_prefix, bne_iff_ne, ne_eq] at h1
    obtain ⟨⟨t, ht⟩, h2⟩ := h1
    have h3 : Below S κ e.1 := by rw [← ht, ← hx]; exact hp.below h0
    have h4 := Dict.get?_isSome_of_mem (d := x.nodes) (k := e.1) (List.mem_map_of_mem he)
    rw [hraw _ h3] at h4
    obtain ⟨v, hv⟩ := h4
    refine ⟨(e.1, v), Dict.mem_of_get? hv, ?_⟩
    simp only [Bool.and_eq_true, List.isPrefixOf_iff_prefix, bne_iff_ne, ne_eq]
    rw [hk]
    exact ⟨⟨t, ht⟩, h2⟩
  have he : a.nodes.any (fun e => (a.key p).isPrefixOf e.1 && e.1 != a.key p) = b.nodes.any (fun e => (b.key p).isPrefixOf e.1 && e.1 != b.key p) := by
    rw [Bool.eq_iff_iff]
    exact ⟨hany h.raw hκ (h.key p).symm, hany (fun k hk => (h.raw k hk).symm) (h.canon.symm.trans hκ) (h.key p)⟩
  unfold FS.removedir
  rw [h.node p hp, he, h.key p]
  split
  · split
    · exact .inl ⟨_, rfl, rfl⟩
    · exact .inr ⟨_, _, rfl, rfl, h.perform hκ _ (by intro _ _ h; cases h)⟩
  · exact .inl ⟨_, rfl, rfl⟩
  · exact .inl ⟨_, rfl, rfl⟩

/-- Two results that go together. -/
def Pair (S : Str → Prop) (κ : Str → Str) {α : Type} (x y : FS × α) : Prop := Shares S κ x.1 y.1 ∧ x.2 = y.2

theorem movedir (h : Shares S κ a b) (hκ : a.canon = κ) (ha : Dict.WF a.nodes) (hb : Dict.WF b.nodes) {p q : Path} (hp : Paths S p) (h0 : p ≠ []) (hq : Paths S q) :
    Pair S κ (a.movedir p q) (b.movedir p q) := by
  unfold FS.movedir
  rcases h.makedir hκ hq with ⟨e, h1, h2⟩ | ⟨a', b', h1, h2, h3⟩
  · rw [h1, h2]; exact ⟨h, rfl⟩
  · rw [h1, h2]
    dsimp only
    have hκ' := (makedir_acts h1).canon.trans hκ
    rw [h3.node p hp, h3.key p, h3.key q]
    split
    · exact ⟨h3, rfl⟩
    · exact ⟨h3, rfl⟩
    · refine ⟨h3.perform hκ' _ ?_, rfl⟩
      intro src dst e
      cases e
      refine ⟨fun t => ?_, (makedir_acts h1).wf ha, (makedir_acts h2).wf hb⟩
      rw [← h3.key p, ← hκ']
      exact hp.below h0

end Shares
end Verif.FS

namespace Verif.Ufo
open Verif Verif.FS Verif.FS.Shares Verif.IO Verif.Spec.Ufo
variable {S : Str → Prop} {κ : Str → Str} {a b : FS}

theorem shares_setbytes (h : Shares S κ a b) {p : Path} (hp : Paths S p) (d : Bytes) : Both S κ (a.setbytes p d) (b.setbytes p d) := h.setbytes hp hp.up d

theorem shares_remove (h : Shares S κ a b) {p : Path} (hp : Paths S p) : Both S κ (a.remove p) (b.remove p) := Alike.remove h hp

theorem shares_writePlist (F : FloatCodec) (h : Shares S κ a b) {p : Path} (hp : Paths S p) (v : Bool) (x : PyVal) : Pair S κ (writePlist F v a p x) (writePlist F v b p x) :=
  h.writePlist F hp hp.up v x

theorem shares_writeBytes (h : Shares S κ a b) (hκ : a.canon = κ) {p : Path} (hp : Paths S p) (v : Bool) (d : Bytes) :
    Pair S κ (writeBytesToPath v a p d) (writeBytesToPath v b p d) := by
  unfold writeBytesToPath
  rw [h.unchanged hp]
  split
  · exact ⟨h, rfl⟩
  · rcases shares_setbytes h hp d with ⟨e, h1, h2⟩ | ⟨a', b', h1, h2, h3⟩
    · rw [h1, h2]
      split
      · rename_i hx; cases hx
      · exact ⟨h, rfl⟩
      · rcases h.makedirs hκ hp.up with ⟨e, h1, h2⟩ | ⟨a', b', h1, h2, h3⟩
        · rw [h1, h2]; exact ⟨h, rfl⟩
        · rw [h1, h2]
          dsimp only
          rcases shares_setbytes h3 hp d with ⟨e, h4, h5⟩ | ⟨a2, b2, h4, h5, h6⟩
          · rw [h4, h5]; exact ⟨h3, rfl⟩
          · rw [h4, h5]; exact ⟨h6, rfl⟩
      · exact ⟨h, rfl⟩
    · rw [h1, h2]; exact ⟨h3, rfl⟩

theorem shares_removeNode (h : Shares S κ a b) (hκ : a.canon = κ) {p : Path} (hp : Paths S p) (force : Bool) : Pair S κ (removeNode a p force) (removeNode b p force) := by
  unfold removeNode
  rcases shares_remove h hp with ⟨e, h1, h2⟩ | ⟨a', b', h1, h2, h3⟩
  · rw [h1, h2]
    split
    · rename_i hx; cases hx
    · rcases h.removetree hκ hp with ⟨e, h1, h2⟩ | ⟨a', b', h1, h2, h3⟩
      · rw [h1, h2]; exact ⟨h, rfl⟩
      · rw [h1, h2]; exact ⟨h3, rfl⟩
    · split <;> exact ⟨h, rfl⟩
    · exact ⟨h, rfl⟩
  · rw [h1, h2]; exact ⟨h3, rfl⟩

theorem shares_removeEmpty : ∀ (rev : List Str) {a b : FS}, Shares S κ a b → a.canon = κ → Paths S rev.reverse → Pair S κ (removeEmpty a rev) (removeEmpty b rev)
  | [], _, _, h, _, _ => ⟨h, rfl⟩
  | c :: rest, a, b, h, hκ, hp => by
    unfold removeEmpty
    rw [List.reverse_cons] at hp
    rcases h.removedir hκ hp (by simp) with ⟨e, h1, h2⟩ | ⟨a', b', h1, h2, h3⟩
    · rw [h1, h2]
      split
      · exact ⟨h, rfl⟩
      · exact ⟨h, rfl⟩
      · rename_i hx; cases hx
    · rw [h1, h2]
      exact shares_removeEmpty rest h3 ((removedir_acts h1).canon.trans hκ) (hp.pre ⟨[c], rfl⟩)

theorem shares_removePath (h : Shares S κ a b) (hκ : a.canon = κ) {p : Path} (hp : Paths S p) (force re : Bool) :
    Pair S κ (removePath a p force re) (removePath b p force re) := by
  obtain ⟨h1, h2⟩ := shares_removeNode h hκ hp force
  have hc := (removeNode_acts a p force).canon.trans hκ
  unfold removePath
  generalize removeNode a p force = x at h1 h2 hc
  generalize removeNode b p force = y at h1 h2
  obtain ⟨x1, x2⟩ := x
  obtain ⟨y1, y2⟩ := y
  dsimp only at h1 h2 hc
  subst h2
  cases x2 with
  | error e => exact ⟨h1, rfl⟩
  | ok u =>
    dsimp only
    split
    · exact shares_removeEmpty _ h1 hc (by rw [List.reverse_reverse]; exact hp.up)
    · exact ⟨h1, rfl⟩

theorem shares_copyTree (q : Path) (l : List (Path × Node)) : ∀ {a b : FS}, Shares S κ a b → a.canon = κ → Shares S κ (l.foldl (copyEntry q) a) (l.foldl (copyEntry q) b) := by
  induction l with
  | nil => intro a b h _; exact h
  | cons e l ih =>
    intro a b h hκ
    rw [List.foldl_cons, List.foldl_cons]
    refine ih ?_ ?_
    · unfold copyEntry
      split
      · rw [h.key]; exact h.perform hκ _ (by intro _ _ h; cases h)
      · rw [h.key]; exact h.perform hκ _ (by intro _ _ h; cases h)
    · unfold copyEntry
      split <;> exact hκ

theorem shares_copy (src : FS) (h : Shares S κ a b) (hκ : a.canon = κ) (p : Path) {q : Path} (hq : Paths S q) :
    Pair S κ (copyFromReader src a p q) (copyFromReader src b p q) := by
  unfold copyFromReader
  rw [h.exists hq]
  split
  · exact ⟨h, rfl⟩
  · split
    · exact ⟨h, rfl⟩
    · rcases h.makedirs hκ hq.up with ⟨e, h1, h2⟩ | ⟨a', b', h1, h2, h3⟩
      · rw [h1, h2]; exact ⟨h, rfl⟩
      · rw [h1, h2]
        dsimp only
        have hκ' := (makedirs_acts h1).canon.trans hκ
        split
        · rename_i d _
          rcases shares_setbytes h3 hq d with ⟨e, h4, h5⟩ | ⟨a2, b2, h4, h5, h6⟩
          · rw [h4, h5]; exact ⟨h3, rfl⟩
          · rw [h4, h5]; exact ⟨h6, rfl⟩
        · rcases h3.makedir hκ' hq with ⟨e, h4, h5⟩ | ⟨a2, b2, h4, h5, h6⟩
          · rw [h4, h5]; exact ⟨h3, rfl⟩
          · rw [h4, h5]
            exact ⟨shares_copyTree q _ h6 ((makedir_acts h4).canon.trans hκ'), rfl⟩

theorem shares_rebuild (F : FloatCodec) (gs : GlyphSet.GlyphSet) (h : Shares S κ a b) (hd : ∀ f, Paths S (gs.dir ++ [f])) (v : Bool) :
    GlyphSet.rebuildContents F gs a v = GlyphSet.rebuildContents F gs b v := by
  unfold GlyphSet.rebuildContents
  rw [h.getPlist F (hd _)]
  split
  · rfl
  · rename_i x _
    have : GlyphSet.checkContents a gs.dir v x = GlyphSet.checkContents b gs.dir v x := by
      unfold GlyphSet.checkContents
      have he : ∀ f, a.exists (gs.dir ++ [f]) = b.exists (gs.dir ++ [f]) := fun f => h.exists (hd f)
      simp only [he]
    rw [this]

theorem shares_open (F : FloatCodec) (h : Shares S κ a b) {d : Path} (hd : ∀ f, Paths S (d ++ [f])) (version : Nat) (v : Bool) :
    GlyphSet.openGlyphSet F a d version v = GlyphSet.openGlyphSet F b d version v := by
  unfold GlyphSet.openGlyphSet
  rw [h.exists (hd _), shares_rebuild F _ h hd]

/-- Two results of a call on a writer that go together. -/
def Same3 (S : Str → Prop) (κ : Str → Str) {α : Type} (x y : World × α) : Prop := x.1.1 = y.1.1 ∧ Shares S κ x.1.2 y.1.2 ∧ x.2 = y.2

theorem Same3.of {α : Type} {x y : FS × α} (w : Writer) (h : Pair S κ x y) : Same3 S κ ((w, x.1), x.2) ((w, y.1), y.2) := ⟨rfl, h.1, h.2⟩

theorem shares_writeOrRemove (F : FloatCodec) (w : Writer) (h : Shares S κ a b) (hκ : a.canon = κ) {name : Str} (hn : S name) (empty : Bool) (v : PyVal) :
    Same3 S κ (writeOrRemove F (w, a) name empty v) (writeOrRemove F (w, b) name empty v) := by
  unfold writeOrRemove
  dsimp only
  split
  · exact .of w (shares_writePlist F h (paths_cons hn) _ _)
  · split
    · exact .of w (shares_removePath h hκ (paths_cons hn) _ _)
    · exact ⟨rfl, h, rfl⟩

theorem shares_getGlyphSet3 (L : Casing) (F : FloatCodec) (w : Writer) (h : Shares S κ a b) (hκ : a.canon = κ) (n : Str) (d v : Bool)
    (hS : ∀ x, layerDirectory L w.layers n d = .ok x → S x) :
    Same3 S κ (getGlyphSet3 L F (w, a) n d v) (getGlyphSet3 L F (w, b) n d v) := by
  unfold getGlyphSet3
  dsimp only
  split
  · exact ⟨rfl, h, rfl⟩
  · split
    · exact ⟨rfl, h, rfl⟩
    · rename_i x hx
      rcases h.makedir hκ (paths_cons (r := []) (hS x hx)) with ⟨e, h1, h2⟩ | ⟨a', b', h1, h2, h3⟩
      · rw [h1, h2]; exact ⟨rfl, h, rfl⟩
      · rw [h1, h2]
        exact ⟨rfl, h3, shares_open F (d := [x]) h3 (fun f => paths_cons (hS x hx)) 3 v⟩

theorem shares_getGlyphSet (L : Casing) (F : FloatCodec) (w : Writer) (h : Shares S κ a b) (hκ : a.canon = κ) (n : Option Str) (d v : Bool)
    (hS : ∀ x, layerDirectory L w.layers (n.getD (defaultLayerOf w.layers)) d = .ok x → S x) (hS' : n = none → S glyphsName) :
    Same3 S κ (getGlyphSet L F (w, a) n d v) (getGlyphSet L F (w, b) n d v) := by
  unfold getGlyphSet
  dsimp only
  split
  · exact ⟨rfl, h, rfl⟩
  · rename_i hn
    split
    · exact ⟨rfl, h, rfl⟩
    · split
      · rename_i hv
        have h0 : n = none := by
          by_contra h0
          exact hn ⟨hv, .inr h0⟩
        have hg := hS' h0
        unfold getGlyphSet12
        dsimp only
        rcases h.makedir hκ (paths_cons (r := []) hg) with ⟨e, h1, h2⟩ | ⟨a', b', h1, h2, h3⟩
        · rw [h1, h2]; exact ⟨rfl, h, rfl⟩
        · rw [h1, h2]
          dsimp only
          split
          · exact ⟨rfl, h3, rfl⟩
          · exact ⟨rfl, h3, shares_open F (d := [glyphsName]) h3 (fun f => paths_cons hg) 2 v⟩
      · exact shares_getGlyphSet3 L F w h hκ _ d v hS

theorem shares_rename (L : Casing) (w : Writer) (hl : Layered w) (h : Shares S κ a b) (hκ : a.canon = κ) (ha : Dict.WF a.nodes) (hb : Dict.WF b.nodes) (n m : Option Str) (d : Bool)
    (hS : ∀ x, GlyphsDir x → S x) : Same3 S κ (renameGlyphSet L (w, a) n m d) (renameGlyphSet L (w, b) n m d) := by
  unfold renameGlyphSet
  dsimp only
  split
  · exact ⟨rfl, h, rfl⟩
  · split
    · exact ⟨rfl, h, rfl⟩
    · exact ⟨rfl, h, rfl⟩
    · split
      · exact ⟨rfl, h, rfl⟩
      · rename_i old hold
        split
        · exact ⟨rfl, h, rfl⟩
        · rename_i new hnew
          split
          · exact ⟨rfl, h, rfl⟩
          · obtain ⟨h1, h2⟩ := h.movedir hκ ha hb (paths_cons (r := []) (hS _ (findDirectory_dir hl hold))) (by simp) (paths_cons (r := []) (hS _ (renameDirectory_dir hnew)))
            exact ⟨rfl, h1, h2⟩

theorem shares_delete (w : Writer) (h : Shares S κ a b) (hκ : a.canon = κ) (n : Option Str)
    (hS : ∀ x, findDirectory w.layers n = .ok x → S x) : Same3 S κ (deleteGlyphSet (w, a) n) (deleteGlyphSet (w, b) n) := by
  unfold deleteGlyphSet
  dsimp only
  split
  · exact ⟨rfl, h, rfl⟩
  · split
    · exact ⟨rfl, h, rfl⟩
    · rename_i dir hdir
      obtain ⟨h1, h2⟩ := shares_removePath h hκ (paths_cons (r := []) (hS dir hdir)) false false
      generalize removePath a [dir] false false = x at h1 h2
      generalize removePath b [dir] false false = y at h1 h2
      obtain ⟨x1, x2⟩ := x
      obtain ⟨y1, y2⟩ := y
      dsimp only at h1 h2
      subst h2
      cases x2 with
      | error e => exact ⟨rfl, h1, rfl⟩
      | ok u =>
        dsimp only
        cases n with
        | none => exact ⟨rfl, h1, rfl⟩
        | some n =>
          dsimp only
          split
          · exact ⟨rfl, h1, rfl⟩
          · exact ⟨rfl, h1, rfl⟩

/-- A call on a glyph set in the entries `S`. -/
theorem shares_setStep (L : Casing) (F : FloatCodec) (gs : GlyphSet.GlyphSet) (h : Shares S κ a b) (hd : Paths S gs.dir) (hf : ∀ f, Paths S (gs.dir ++ [f])) (c : GlyphSet.SetCall) :
    (GlyphSet.setStep L F (gs, a) c).1.1 = (GlyphSet.setStep L F (gs, b) c).1.1 ∧ Shares S κ (GlyphSet.setStep L F (gs, a) c).1.2 (GlyphSet.setStep L F (gs, b) c).1.2 ∧
      (GlyphSet.setStep L F (gs, a) c).2 = (GlyphSet.setStep L F (gs, b) c).2 := by
  cases c with
  | glyphs op => exact GlyphSet.agree_step L F gs h hd (hf _) op fun f _ => hf f
  | layerInfo info validate => exact GlyphSet.agree_layerInfo F gs h hd (hf _) info validate

theorem paths_of_all (h : ∀ c, S c) (q : Path) : Paths S q := fun c _ => h c

/-- A call on a writer depends only on the entries that it concerns. -/
theorem shares_step (E : FontInfo.Env) (L : Casing) (w : Writer) (hl : Layered w) (h : Shares S κ a b) (hκ : a.canon = κ) (ha : Dict.WF a.nodes) (hb : Dict.WF b.nodes) (op : Op)
    (hS : ∀ c, Concerns op c → S c) : Same3 S κ (step E L (w, a) op) (step E L (w, b) op) := by
  have hnone : ∀ {α : Type} (r : α), Same3 S κ ((w, a), r) ((w, b), r) := fun r => ⟨rfl, h, rfl⟩
  cases op with
  | maps x y =>
    simp only [step, setMaps]
    split
    · exact hnone _
    · exact ⟨rfl, h, rfl⟩
  | info i v =>
    simp only [step, writeInfo]
    split
    · exact hnone _
    · exact .of w (shares_writePlist E.F h (paths_cons (hS _ .info)) _ _)
  | lib l v =>
    simp only [step, writeLib]
    split
    · exact hnone _
    · exact shares_writeOrRemove _ w h hκ (hS _ .lib) _ _
  | groups g v =>
    simp only [step, writeGroups]
    split
    · exact hnone _
    · exact shares_writeOrRemove _ w h hκ (hS _ .groups) _ _
  | kerning g v =>
    simp only [step, writeKerning]
    split
    · exact hnone _
    · exact shares_writeOrRemove _ w h hκ (hS _ .kerning) _ _
  | features s =>
    simp only [step, writeFeatures]
    split
    · exact hnone _
    · split
      · exact .of w (shares_writeBytes h hκ (paths_cons (hS _ .features)) _ _)
      · split
        · exact .of w (shares_removePath h hκ (paths_cons (hS _ .features)) _ _)
        · exact hnone _
  | glyphSet n d v =>
    obtain ⟨h1, h2, h3⟩ := shares_getGlyphSet L E.F w h hκ n d v (fun x hx => hS _ (.glyphSet (layerDirectory_dir hl.dirs hx))) (fun _ => hS _ (.glyphSet (.inl rfl)))
    exact ⟨h1, h2, by simp only [step]; rw [h3]⟩
  | rename n m d => exact shares_rename L w hl h hκ ha hb n m d fun x hx => hS _ (.rename hx)
  | delete n => exact shares_delete w h hκ n fun x hx => hS _ (.delete (findDirectory_dir hl hx))
  | layerContents o v =>
    simp only [step, writeLayerContents]
    split
    · exact hnone _
    · split
      · exact hnone _
      · split
        · exact hnone _
        · exact .of w (shares_writePlist E.F h (paths_cons (hS _ .layerContents)) _ _)
  | image n d v =>
    simp only [step, writeImage]
    split
    · exact hnone _
    · split
      · exact hnone _
      · exact .of w (shares_writeBytes h hκ (paths_cons (hS _ .image)) _ _)
  | removeImage n =>
    simp only [step, removeImage]
    split
    · exact hnone _
    · exact .of w (shares_removePath h hκ (paths_cons (hS _ .removeImage)) _ _)
  | bytes p d =>
    refine .of w (shares_writeBytes h hκ ?_ _ _)
    cases p with
    | nil => exact paths_nil
    | cons c p => exact paths_cons (hS _ .bytes)
  | remove p f e =>
    refine .of w (shares_removePath h hκ ?_ _ _)
    cases p with
    | nil => exact paths_nil
    | cons c p => exact paths_cons (hS _ .remove)
  | copy s p q =>
    refine .of w (shares_copy s h hκ p ?_)
    cases q with
    | nil => exact paths_nil
    | cons c q => exact paths_cons (hS _ .copy)
  | copyImage s n m =>
    simp only [step, copyImageFromReader]
    split
    · exact hnone _
    · exact .of w (shares_copy s h hκ _ (paths_cons (hS _ .copyImage)))
  | glyph gs op =>
    have hd : Paths S gs.dir ∧ ∀ f, Paths S (gs.dir ++ [f]) := by
      cases hd : gs.dir with
      | nil => exact ⟨paths_of_all (fun c => hS _ (.glyphRoot hd)) _, fun f => paths_of_all (fun c => hS _ (.glyphRoot hd)) _⟩
      | cons c p => have := hS c (.glyph (by rw [hd]; rfl)); exact ⟨paths_cons this, fun f => paths_cons this⟩
    obtain ⟨-, h1, h2⟩ := shares_setStep L E.F gs h hd.1 hd.2 (.glyphs op)
    exact ⟨rfl, h1, h2⟩
  | layerInfo gs i v =>
    have hd : Paths S gs.dir ∧ ∀ f, Paths S (gs.dir ++ [f]) := by
      cases hd : gs.dir with
      | nil => exact ⟨paths_of_all (fun c => hS _ (.layerInfoRoot hd)) _, fun f => paths_of_all (fun c => hS _ (.layerInfoRoot hd)) _⟩
      | cons c p => have := hS c (.layerInfo (by rw [hd]; rfl)); exact ⟨paths_cons this, fun f => paths_cons this⟩
    obtain ⟨-, h1, h2⟩ := shares_setStep L E.F gs h hd.1 hd.2 (.layerInfo i v)
    exact ⟨rfl, h1, h2⟩

/-! ### programs -/

theorem about_ufo {f : Font} {op : Op} (h : ∀ n, op ≠ .delete (some n)) (c : Str) : About f (.ufo op) c ↔ Concerns op c := by
  cases op with
  | delete n =>
    cases n with
    | none => exact Iff.rfl
    | some n => exact absurd rfl (h n)
  | _ => exact Iff.rfl

theorem getGlyphSet_about (L : Casing) (F : FloatCodec) (w : World) (n : Option Str) (d v : Bool) :
    Acts (fun k => ∃ x, (layerDirectory L w.1.layers (n.getD (defaultLayerOf w.1.layers)) d = .ok x ∨ (n = none ∧ x = glyphsName)) ∧ k = w.2.key [x]) w.2
      (getGlyphSet L F w n d v).1.2 := by
  unfold getGlyphSet
  split
  · exact .refl
  · rename_i hn
    split
    · exact .refl
    · split
      · rename_i hv
        have h0 : n = none := by
          by_contra h0
          exact hn ⟨hv, .inr h0⟩
        unfold getGlyphSet12
        split
        · exact .refl
        · rename_i fs h
          have a := (makedir_acts h).mono (Q := fun k => ∃ x, (layerDirectory L w.1.layers (n.getD (defaultLayerOf w.1.layers)) d = .ok x ∨ (n = none ∧ x = glyphsName)) ∧ k = w.2.key [x])
            fun k hk => ⟨_, .inr ⟨h0, rfl⟩, hk⟩
          split <;> exact a
      · unfold getGlyphSet3
        split
        · exact .refl
        · split
          · exact .refl
          · rename_i x hx
            split
            · exact .refl
            · rename_i fs h
              exact (makedir_acts h).mono fun k hk => ⟨x, .inl hx, hk⟩

/-- The directory of the glyph set is among what the call is about. -/
theorem about_dir {L : Casing} {f : Font} (hl : Layered f.writer) {n : Option Str} {d v : Bool} {x : Str}
    (h : layerDirectory L f.writer.layers (n.getD (defaultLayerOf f.writer.layers)) d = .ok x ∨ (n = none ∧ x = glyphsName)) : About f (.getGlyphSet n d v) x := by
  cases n with
  | none =>
    rcases h with h | ⟨-, rfl⟩
    · exact layerDirectory_dir hl.dirs h
    · exact .inl rfl
  | some n =>
    rcases h with h | ⟨h, -⟩
    · simp only [Option.getD_some] at h
      have hg := layerDirectory_dir hl.dirs h
      simp only [About]
      unfold layerDirectory at h
      split at h
      · rename_i e he
        cases h
        rw [he]
      · rename_i he
        rw [he]
        exact hg
    · cases h

theorem about_delete {w : Writer} (hl : Layered w) {n : Str} {x : Str} (h : findDirectory w.layers (some n) = .ok x) : Dict.get? w.layers n = some x := by
  obtain ⟨m, hm, h1 | h1⟩ := findDirectory_mem h
  · cases h1.1
  · cases h1
    exact Dict.get?_of_mem hl.wf hm

/-- What a call of a program is about, or everything. -/
def AboutKey (f : Font) (c : FontCall) (k : Path) : Prop := (∃ e r, About f c e ∧ k = f.fs.canon e :: r) ∨ ∀ e, About f c e

theorem font_step_acts (E : FontInfo.Env) (L : Casing) (f : Font) (hl : Layered f.writer) (c : FontCall) :
    Layered (f.step E L c).1.writer ∧ Acts (AboutKey f c) f.fs (f.step E L c).1.fs := by
  cases c with
  | getGlyphSet n d v =>
    have h1 := (getGlyphSet_spec L E.F f.world hl n d v).2.2.1
    have h2 := (getGlyphSet_about L E.F f.world n d v).mono (Q := AboutKey f (.getGlyphSet n d v)) fun k ⟨x, hx, hk⟩ => .inl ⟨x, [], about_dir hl hx, hk⟩
    simp only [Font.step, Font.getGlyphSet]
    split <;> exact ⟨h1, h2⟩
  | ufo op =>
    obtain ⟨-, -, h1, h2⟩ := step_spec E L f.world hl op
    refine ⟨h1, ?_⟩
    by_cases hd : ∃ n, op = .delete (some n)
    · obtain ⟨n, rfl⟩ := hd
      show Acts _ f.fs (deleteGlyphSet f.world (some n)).1.2
      unfold deleteGlyphSet
      split
      · exact .refl
      · split
        · exact .refl
        · rename_i dir hdir
          have a := (removePath_acts f.fs [dir] false false).mono (Q := AboutKey f (.ufo (.delete (some n)))) fun k hk => by
            obtain ⟨r, hr⟩ := along_of_cons hk
            exact .inl ⟨dir, r, about_delete hl hdir, hr⟩
          split
          · rename_i fs e h
            rw [show f.world.2 = f.fs from rfl] at h
            rw [h] at a
            exact a
          · rename_i fs h
            rw [show f.world.2 = f.fs from rfl] at h
            rw [h] at a
            dsimp only
            split <;> exact a
    · have hn : ∀ n, op ≠ .delete (some n) := fun n hn => hd ⟨n, hn⟩
      refine h2.mono fun k hk => ?_
      rcases hk with ⟨e, r, he, hk⟩ | hall
      · exact .inl ⟨e, r, (about_ufo hn e).2 he, hk⟩
      · exact .inr fun e => (about_ufo hn e).2 (hall e)
  | set i c =>
    simp only [Font.step, Font.callSet]
    cases hi : f.sets[i]? with
    | none => exact ⟨hl, .refl⟩
    | some gs =>
      refine ⟨hl, (GlyphSet.setStep_acts L E.F (gs, f.fs) c).mono fun k ⟨x, hk⟩ => ?_⟩
      cases hd : gs.dir with
      | nil => exact .inr fun e => ⟨gs, hi, .inl hd⟩
      | cons e r =>
        dsimp only at hk
        rw [hd] at hk
        exact .inl ⟨e, f.fs.key (r ++ [x]), ⟨gs, hi, .inr (by rw [hd]; rfl)⟩, by rw [hk]; rfl⟩

/-- A call of a program depends only on the entries that it is about. -/
theorem font_step_shares (E : FontInfo.Env) (L : Casing) (u : User) (hl : Layered u.writer) (h : Shares S κ a b) (hκ : a.canon = κ) (ha : Dict.WF a.nodes) (hb : Dict.WF b.nodes)
    (c : FontCall) (hS : ∀ e, About (u.on b) c e → S e) :
    ((u.on a).step E L c).1.writer = ((u.on b).step E L c).1.writer ∧ ((u.on a).step E L c).1.sets = ((u.on b).step E L c).1.sets ∧
      Shares S κ ((u.on a).step E L c).1.fs ((u.on b).step E L c).1.fs ∧ ((u.on a).step E L c).2 = ((u.on b).step E L c).2 := by
  cases c with
  | getGlyphSet n d v =>
    obtain ⟨h1, h2, h3⟩ := shares_getGlyphSet L E.F u.writer h hκ n d v (fun x hx => hS x (about_dir (f := u.on b) hl (.inl hx)))
      (fun h0 => hS _ (about_dir (f := u.on b) hl (L := L) (.inr ⟨h0, rfl⟩)))
    simp only [Font.step, Font.getGlyphSet, Font.world, User.on]
    generalize getGlyphSet L E.F (u.writer, a) n d v = x at h1 h2 h3 ⊢
    generalize getGlyphSet L E.F (u.writer, b) n d v = y at h1 h2 h3 ⊢
    obtain ⟨⟨x1, x2⟩, x3⟩ := x
    obtain ⟨⟨y1, y2⟩, y3⟩ := y
    dsimp only at h1 h2 h3
    subst h1 h3
    cases x3 <;> exact ⟨rfl, rfl, h2, rfl⟩
  | ufo op =>
    by_cases hd : ∃ n, op = .delete (some n)
    · obtain ⟨n, rfl⟩ := hd
      obtain ⟨h1, h2, h3⟩ := shares_delete u.writer h hκ (some n) fun x hx => hS x (about_delete hl hx)
      exact ⟨h1, rfl, h2, h3⟩
    · have hn : ∀ n, op ≠ .delete (some n) := fun n hn => hd ⟨n, hn⟩
      obtain ⟨h1, h2, h3⟩ := shares_step E L u.writer hl h hκ ha hb op fun e he => hS e ((about_ufo hn e).2 he)
      exact ⟨h1, rfl, h2, h3⟩
  | set i c =>
    simp only [Font.step, Font.callSet]
    cases hi : u.sets[i]? with
    | none => simp only [User.on, hi]; exact ⟨trivial, trivial, h, trivial⟩
    | some gs =>
      have hd : Paths S gs.dir ∧ ∀ f, Paths S (gs.dir ++ [f]) := by
        cases hd : gs.dir with
        | nil =>
          have hall : ∀ e, S e := fun e => hS e ⟨gs, hi, .inl hd⟩
          exact ⟨paths_of_all hall _, fun f => paths_of_all hall _⟩
        | cons e p => have := hS e ⟨gs, hi, .inr (by rw [hd]; rfl)⟩; exact ⟨paths_cons this, fun f => paths_cons this⟩
      obtain ⟨h1, h2, h3⟩ := shares_setStep L E.F gs h hd.1 hd.2 c
      simp only [User.on, hi]
      exact ⟨trivial, by rw [h1], h2, h3⟩

/-- Several programs on one file system, and the same programs each on a file system of its own. -/
structure Joint (E : FontInfo.Env) (L : Casing) (S : Nat → Str → Prop) (κ : Str → Str) (s : Shared) (f : Nat → Font) (rest : List (Nat × FontCall)) : Prop where
  canon : s.fs.canon = κ
  wf : Dict.WF s.fs.nodes
  same : ∀ (i : Nat) (u : User), s.users[i]? = some u → f i = u.on (f i).fs
  layered : ∀ (i : Nat) (u : User), s.users[i]? = some u → Layered u.writer
  shares : ∀ (i : Nat) (u : User), s.users[i]? = some u → Shares (S i) κ s.fs (f i).fs
  wfs : ∀ (i : Nat) (u : User), s.users[i]? = some u → Dict.WF (f i).fs.nodes
  keeps : ∀ (i : Nat) (u : User), s.users[i]? = some u → KeepsTo E L (S i) (f i) (callsOf i rest)

theorem about_on (u : User) (a b : FS) (c : FontCall) (e : Str) : About (u.on a) c e ↔ About (u.on b) c e := by
  cases c with
  | getGlyphSet n d v => cases n <;> exact Iff.rfl
  | ufo op =>
    by_cases hd : ∃ n, op = .delete (some n)
    · obtain ⟨n, rfl⟩ := hd; exact Iff.rfl
    · rw [about_ufo fun n hn => hd ⟨n, hn⟩, about_ufo fun n hn => hd ⟨n, hn⟩]
  | set i c => exact Iff.rfl

/-- A call of another program changes nothing in the entries of a program. -/
theorem spared {S : Nat → Str → Prop} {κ : Str → Str} (hS : Divided κ S) {i j : Nat} (hij : i ≠ j) {f : Font} {c : FontCall} (hκ : f.fs.canon = κ) (hc : ∀ e, About f c e → S j e)
    {k p : Path} (hk : Below (S i) κ k) (hp : AboutKey f c p) : ¬ p <+: k := by
  rintro ⟨t, ht⟩
  obtain ⟨d, r, hd, rfl⟩ := hk
  rcases hp with ⟨e, r', he, rfl⟩ | hall
  · rw [List.cons_append, hκ] at ht
    exact hS.apart i j d e hij hd (hc e he) (List.cons.inj ht).1.symm
  · exact hS.apart i j d d hij hd (hc d (hall d)) rfl

theorem joint_step (E : FontInfo.Env) (L : Casing) {S : Nat → Str → Prop} {κ : Str → Str} (hS : Divided κ S) {s : Shared} {f : Nat → Font} {j : Nat} {c : FontCall}
    {rest : List (Nat × FontCall)} (h : Joint E L S κ s f ((j, c) :: rest)) :
    Joint E L S κ (s.step E L j c).1 (fun i => if i = j then ((f j).step E L c).1 else f i) rest ∧
      (∀ u, s.users[j]? = some u → (s.step E L j c).2 = ((f j).step E L c).2) := by
  unfold Shared.step
  cases hj : s.users[j]? with
  | none =>
    dsimp only
    refine ⟨⟨h.canon, h.wf, fun i u hu => ?_, h.layered, fun i u hu => ?_, fun i u hu => ?_, fun i u hu => ?_⟩, fun u hu => by cases hu⟩
    all_goals
      have hij : i ≠ j := by rintro rfl; rw [hj] at hu; cases hu
      rw [if_neg hij]
    · exact h.same i u hu
    · exact h.shares i u hu
    · exact h.wfs i u hu
    · have := h.keeps i u hu
      rwa [callsOf, if_neg hij.symm] at this
  | some u =>
    dsimp only
    have hsame := h.same j u hj
    have hkeeps := h.keeps j u hj
    rw [callsOf, if_pos rfl, KeepsTo] at hkeeps
    have habout : ∀ e, About (u.on (f j).fs) c e → S j e := fun e he => hkeeps.1 e (by rw [hsame]; exact he)
    obtain ⟨k1, k2, k3, k4⟩ := font_step_shares E L u (h.layered j u hj) (h.shares j u hj) h.canon h.wf (h.wfs j u hj) c habout
    rw [← hsame] at k1 k2 k3 k4
    obtain ⟨l1, l2⟩ := font_step_acts E L (u.on s.fs) (h.layered j u hj) c
    have l3 := (font_step_acts E L (f j) (by rw [hsame]; exact h.layered j u hj) c).2
    have hlen : j < s.users.length := (List.getElem?_eq_some_iff.1 hj).1
    refine ⟨⟨l2.canon.trans h.canon, l2.wf h.wf, fun i v hv => ?_, fun i v hv => ?_, fun i v hv => ?_, fun i v hv => ?_, fun i v hv => ?_⟩, fun u' hu' => ?_⟩
    all_goals try dsimp only at *
    · by_cases hij : i = j
      · subst hij
        rw [List.getElem?_set_self hlen] at hv
        cases hv
        rw [if_pos rfl]
        show _ = Font.mk _ _ _
        rw [k1, k2]
      · rw [List.getElem?_set_ne (Ne.symm hij)] at hv
        rw [if_neg hij]
        exact h.same i v hv
    · by_cases hij : i = j
      · subst hij
        rw [List.getElem?_set_self hlen] at hv
        cases hv
        exact l1
      · rw [List.getElem?_set_ne (Ne.symm hij)] at hv
        exact h.layered i v hv
    · by_cases hij : i = j
      · subst hij
        rw [if_pos rfl]
        exact k3
      · rw [List.getElem?_set_ne (Ne.symm hij)] at hv
        rw [if_neg hij]
        have hs := h.shares i v hv
        refine Shares.of_raw (l2.canon.trans hs.canon) (l2.canon.trans h.canon) fun k hk => ?_
        rw [← hs.raw k hk]
        exact l2.get? k fun p hp => spared hS hij h.canon (fun e he => habout e ((about_on u _ _ c e).1 he)) hk hp
    · by_cases hij : i = j
      · subst hij
        rw [if_pos rfl]
        exact l3.wf (h.wfs i u hj)
      · rw [List.getElem?_set_ne (Ne.symm hij)] at hv
        rw [if_neg hij]
        exact h.wfs i v hv
    · by_cases hij : i = j
      · subst hij
        rw [if_pos rfl]
        exact hkeeps.2
      · rw [List.getElem?_set_ne (Ne.symm hij)] at hv
        rw [if_neg hij]
        have := h.keeps i v hv
        rwa [callsOf, if_neg (Ne.symm hij)] at this
    · exact k4

theorem step_users (E : FontInfo.Env) (L : Casing) (s : Shared) (j : Nat) (c : FontCall) (i : Nat) : ((s.step E L j c).1.users[i]?).isSome = (s.users[i]?).isSome := by
  unfold Shared.step
  split
  · rfl
  · by_cases h : i = j
    · subst h
      rename_i u hu
      have hlen : i < s.users.length := (List.getElem?_eq_some_iff.1 hu).1
      dsimp only
      rw [List.getElem?_set_self hlen, hu]
      rfl
    · dsimp only
      rw [List.getElem?_set_ne (Ne.symm h)]

theorem joint_run (E : FontInfo.Env) (L : Casing) {S : Nat → Str → Prop} {κ : Str → Str} (hS : Divided κ S) : ∀ (rest : List (Nat × FontCall)) {s : Shared} {f : Nat → Font},
    Joint E L S κ s f rest → Joint E L S κ (s.run E L rest) (fun i => (f i).run E L (callsOf i rest)) [] ∧
      ∀ i u, s.users[i]? = some u → s.outcomes E L i rest = (f i).results E L (callsOf i rest) := by
  intro rest
  induction rest with
  | nil => intro s f h; exact ⟨h, fun _ _ _ => rfl⟩
  | cons x rest ih =>
    obtain ⟨j, c⟩ := x
    intro s f h
    obtain ⟨h1, h2⟩ := joint_step E L hS h
    obtain ⟨h3, h4⟩ := ih h1
    refine ⟨?_, fun i u hu => ?_⟩
    · have : (fun i => (f i).run E L (callsOf i ((j, c) :: rest))) = fun i => (if i = j then ((f j).step E L c).1 else f i).run E L (callsOf i rest) := by
        funext i
        by_cases hij : i = j
        · subst hij
          rw [callsOf, if_pos rfl, if_pos rfl]
          rfl
        · rw [callsOf, if_neg (Ne.symm hij), if_neg hij]
      rw [this]
      exact h3
    · have h5 := step_users E L s j c i
      rw [hu, Option.isSome_some, Option.isSome_iff_exists] at h5
      obtain ⟨u', hu'⟩ := h5
      have h6 := h4 i u' hu'
      by_cases hij : i = j
      · subst hij
        rw [if_pos rfl] at h6
        rw [callsOf, if_pos rfl, Shared.outcomes, if_pos rfl, Font.results, h2 u hu, h6]
      · rw [if_neg hij] at h6
        rw [callsOf, if_neg (Ne.symm hij), Shared.outcomes, if_neg (Ne.symm hij), h6]

theorem users_run (E : FontInfo.Env) (L : Casing) (sched : List (Nat × FontCall)) : ∀ (s : Shared) (i : Nat),
    ((s.run E L sched).users[i]?).isSome = (s.users[i]?).isSome := by
  induction sched with
  | nil => intro s i; rfl
  | cons x rest ih =>
    obtain ⟨j, c⟩ := x
    intro s i
    exact (ih _ i).trans (step_users E L s j c i)

/-- Entries of no program are left alone. -/
theorem joint_rest (E : FontInfo.Env) (L : Casing) {S : Nat → Str → Prop} {κ : Str → Str} (hS : Divided κ S) : ∀ (rest : List (Nat × FontCall)) {s : Shared} {f : Nat → Font},
    Joint E L S κ s f rest → ∀ e, (∀ i, i < s.users.length → ¬ S i e) → ∀ p, (s.run E L rest).fs.node? (e :: p) = s.fs.node? (e :: p) := by
  intro rest
  induction rest with
  | nil => intro s f _ e _ p; rfl
  | cons x rest ih =>
    obtain ⟨j, c⟩ := x
    intro s f h e he p
    have hlen : (s.step E L j c).1.users.length = s.users.length := by
      unfold Shared.step
      split
      · rfl
      · exact List.length_set
    refine (ih (joint_step E L hS h).1 e (by rw [hlen]; exact he) p).trans ?_
    unfold Shared.step
    cases hj : s.users[j]? with
    | none => rfl
    | some u =>
      have hkeeps := h.keeps j u hj
      rw [callsOf, if_pos rfl, KeepsTo] at hkeeps
      have habout : ∀ d, About (u.on s.fs) c d → S j d := fun d hd => hkeeps.1 d (by rw [h.same j u hj]; exact (about_on u _ _ c d).1 hd)
      have hje : ¬ S j e := he j (List.getElem?_eq_some_iff.1 hj).1
      refine (font_step_acts E L (u.on s.fs) (h.layered j u hj) c).2.node? (e :: p) fun k hk => ?_
      rintro ⟨t, ht⟩
      rcases hk with ⟨d, r, hd, rfl⟩ | hall
      · have h1 : s.fs.canon d = s.fs.canon e := (List.cons.inj ht).1
        rw [h.canon] at h1
        exact hje (hS.whole j d e h1 (habout d hd))
      · exact hje (habout e (hall e))

theorem about_concerns {f : Font} (hl : Layered f.writer) {op : Op} {c : Str} (h : About f (.ufo op) c) : Concerns op c := by
  by_cases hd : ∃ n, op = .delete (some n)
  · obtain ⟨n, rfl⟩ := hd
    exact .delete (hl.dirs n c h)
  · exact (about_ufo (fun n hn => hd ⟨n, hn⟩) c).1 h

theorem keepsTo_ops (E : FontInfo.Env) (L : Casing) {S : Str → Prop} : ∀ (ops : List Op) {f : Font}, Layered f.writer → (∀ op ∈ ops, ∀ e, Concerns op e → S e) →
    KeepsTo E L S f (ops.map .ufo)
  | [], _, _, _ => trivial
  | op :: ops, f, hl, h =>
    ⟨fun e he => h op (by simp) e (about_concerns hl he), keepsTo_ops E L ops (font_step_acts E L f hl (.ufo op)).1 fun o ho => h o (by simp [ho])⟩

theorem font_run_ops (E : FontInfo.Env) (L : Casing) : ∀ (ops : List Op) (f : Font), (f.run E L (ops.map .ufo)).world = run E L f.world ops
  | [], _ => rfl
  | op :: ops, f => font_run_ops E L ops (f.step E L (.ufo op)).1

theorem callsOf_ufo (i : Nat) (sched : List (Nat × Op)) : callsOf i (sched.map fun x => (x.1, .ufo x.2)) = (sched.filterMap fun x => if x.1 = i then some x.2 else none).map .ufo := by
  induction sched with
  | nil => rfl
  | cons x sched ih =>
    rw [List.map_cons, callsOf, List.filterMap_cons, ih]
    split <;> rfl

end Verif.Ufo
