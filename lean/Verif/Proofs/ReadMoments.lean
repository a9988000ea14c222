import Verif.Proofs.ReaderMethods
import Verif.Spec.ReadMoments
/-! Programs that read while the files change. -/
namespace Verif.Ufo
open Verif Verif.FS Verif.IO Verif.Validators Verif.Converters Verif.Kerning

theorem sees_ret {α : Type} {a r : α} {l : List FS} (h : (Prog.ret a).Sees l r) : l = [] ∧ r = a := by
  cases h
  exact ⟨rfl, rfl⟩

theorem sees_get {α : Type} {p : Path} {k : Except Exc Bytes → Prog α} {r : α} {l : List FS} (h : (Prog.get p k).Sees l r) : ∃ fs l', l = fs :: l' ∧ (k (fs.getbytes p)).Sees l' r := by
  cases h with
  | get h => exact ⟨_, _, rfl, h⟩

theorem sees_has {α : Type} {p : Path} {k : Bool → Prog α} {r : α} {l : List FS} (h : (Prog.has p k).Sees l r) : ∃ fs l', l = fs :: l' ∧ (k (fs.exists p)).Sees l' r := by
  cases h with
  | has h => exact ⟨_, _, rfl, h⟩

theorem sees_thenP {α β : Type} {p : Prog (Except Exc α)} {k : α → Prog (Except Exc β)} : ∀ {l : List FS} {r : Except Exc β}, (thenP p k).Sees l r →
    ∃ l1 l2 r1, l = l1 ++ l2 ∧ p.Sees l1 r1 ∧ ((∃ e, r1 = .error e ∧ r = .error e ∧ l2 = []) ∨ ∃ a, r1 = .ok a ∧ (k a).Sees l2 r) := by
  unfold thenP
  induction p with
  | ret r1 =>
    intro l r h
    cases r1 with
    | error e =>
      obtain ⟨h1, h2⟩ := sees_ret h
      exact ⟨[], l, _, rfl, .ret, .inl ⟨e, rfl, h2, h1⟩⟩
    | ok a => exact ⟨[], l, _, rfl, .ret, .inr ⟨a, rfl, h⟩⟩
  | get p k ih =>
    intro l r h
    obtain ⟨fs, l', rfl, h'⟩ := sees_get h
    obtain ⟨l1, l2, r1, rfl, h1, h2⟩ := ih _ h'
    exact ⟨fs :: l1, l2, r1, rfl, .get h1, h2⟩
  | has p k ih =>
    intro l r h
    obtain ⟨fs, l', rfl, h'⟩ := sees_has h
    obtain ⟨l1, l2, r1, rfl, h1, h2⟩ := ih _ h'
    exact ⟨fs :: l1, l2, r1, rfl, .has h1, h2⟩
  | call m k ih => intro l r h; cases h

/-- The same when the method returns normally. -/
theorem sees_thenP_ok {α β : Type} {p : Prog (Except Exc α)} {k : α → Prog (Except Exc β)} {l : List FS} {b : β} (h : (thenP p k).Sees l (.ok b)) :
    ∃ l1 l2 a, l = l1 ++ l2 ∧ p.Sees l1 (.ok a) ∧ (k a).Sees l2 (.ok b) := by
  obtain ⟨l1, l2, r1, hl, h1, h2 | ⟨a, rfl, h2⟩⟩ := sees_thenP h
  · obtain ⟨e, -, h, -⟩ := h2; cases h
  · exact ⟨l1, l2, a, hl, h1, h2⟩

theorem sees_getPlistP {F : FloatCodec} {p : Path} {d : Option PyVal} {l : List FS} {r : Except Exc PyVal} (h : (getPlistP F p d).Sees l r) : ∃ fs, l = [fs] ∧ r = getPlist F fs p d := by
  obtain ⟨fs, l', h1, h2⟩ := sees_get h
  obtain ⟨h3, h4⟩ := sees_ret h2
  exact ⟨fs, by rw [h1, h3], h4⟩

/-- A property list that is read and then worked on. -/
theorem sees_plist {α : Type} {F : FloatCodec} {p : Path} {d : Option PyVal} {f : PyVal → Except Exc α} {l : List FS} {r : Except Exc α}
    (h : (thenP (getPlistP F p d) fun v => .ret (f v)).Sees l r) : ∃ fs, l = [fs] ∧ ((thenP (getPlistP F p d) fun v => .ret (f v)).run fs).2 = r := by
  obtain ⟨l1, l2, r1, rfl, h1, h2⟩ := sees_thenP h
  obtain ⟨fs, rfl, rfl⟩ := sees_getPlistP h1
  refine ⟨fs, ?_, ?_⟩
  · rcases h2 with ⟨_, _, _, rfl⟩ | ⟨_, _, h⟩
    · rfl
    · rw [(sees_ret h).1]; rfl
  · rw [thenP_run (getPlistP_run F p d fs)]
    rcases h2 with ⟨e, h3, rfl, _⟩ | ⟨a, h3, h4⟩
    · rw [h3]
    · rw [h3, (sees_ret h4).2]; rfl

theorem sees_glifP {gs : GlyphSet.GlyphSet} {n : Str} {l : List FS} {r : Except Exc Bytes} (h : (glifP gs n).Sees l r) :
    (∃ fs, l = [fs] ∧ r = GlyphSet.getGLIF (gs, fs) n) ∨ (l = [] ∧ ∀ fs, r = GlyphSet.getGLIF (gs, fs) n) := by
  unfold glifP at h
  unfold GlyphSet.getGLIF
  dsimp only
  cases hc : Dict.get? gs.contents n with
  | none =>
    rw [hc] at h
    obtain ⟨rfl, rfl⟩ := sees_ret h
    exact .inr ⟨rfl, fun _ => rfl⟩
  | some f =>
    rw [hc] at h
    obtain ⟨fs, l', rfl, h0⟩ := sees_get h
    have h := h0
    obtain ⟨rfl, rfl⟩ := sees_ret h
    exact .inl ⟨fs, rfl, rfl⟩

theorem sees_layerEntriesP {α : Type} {k : Bool → Prog (Except Exc α)} {r : Except Exc α} : ∀ (v : List PyVal) (names dirs : List Str) (l : List FS), (layerEntriesP k names dirs v).Sees l r →
    ∃ b l', (k b).Sees l' r ∧ ∀ fs ∈ l', fs ∈ l
  | [], names, dirs, l, h => ⟨_, l, h, fun _ h => h⟩
  | v :: rest, names, dirs, l, h => by
    unfold layerEntriesP at h
    split at h
    · rename_i he; cases he
    · rename_i n d rest' he
      cases he
      split at h
      · exact ⟨_, l, h, fun _ h => h⟩
      · split at h
        · exact ⟨_, l, h, fun _ h => h⟩
        · obtain ⟨fs, l', rfl, h0⟩ := sees_has h
          have h := h0
          have sub : ∀ x ∈ l', x ∈ fs :: l' := fun x hx => List.mem_cons_of_mem _ hx
          split at h
          · exact ⟨_, l', h, sub⟩
          · split at h
            · exact ⟨_, l', h, sub⟩
            · split at h
              · exact ⟨_, l', h, sub⟩
              · split at h
                · exact ⟨_, l', h, sub⟩
                · obtain ⟨b, l2, h1, h2⟩ := sees_layerEntriesP rest _ _ _ h
                  exact ⟨b, l2, h1, fun x hx => sub x (h2 x hx)⟩
    · exact ⟨_, l, h, fun _ h => h⟩

/-- The table of layers that is read is that of one moment. -/
theorem sees_layerTableP {F : FloatCodec} {b : Bool} {l : List FS} {t : List (Str × Str)} (h : (layerTableP F b).Sees l (.ok t)) : ∃ m ∈ l, readLayerTable F m false = .ok t := by
  obtain ⟨l1, l2, v, rfl, h1, h2⟩ := sees_thenP_ok h
  obtain ⟨m, rfl, hv⟩ := sees_getPlistP h1
  refine ⟨m, List.mem_cons_self .., ?_⟩
  have key : layerTableOf v = .ok t → readLayerTable F m false = .ok t := by
    intro h
    unfold readLayerTable
    rw [← hv]
    unfold layerTableOf at h
    cases v <;> exact h
  split at h2
  · split at h2
    · obtain ⟨x, l', h3, -⟩ := sees_layerEntriesP _ _ _ _ h2
      obtain ⟨-, h3⟩ := sees_ret h3
      split at h3
      · exact key h3.symm
      · cases h3
    · obtain ⟨-, h⟩ := sees_ret h2; cases h
  · exact key (sees_ret h2).2.symm

theorem sees_readLayersP {F : FloatCodec} {v : Int} {b : Bool} {l : List FS} {t : List (Str × Str)} (h : (readLayersP F v b).Sees l (.ok t)) :
    (v < 3 ∧ ∀ m, readLayers F m v false = .ok t) ∨ ∃ m ∈ l, readLayers F m v false = .ok t := by
  unfold readLayersP at h
  unfold readLayers
  split at h
  · rename_i hv
    left
    refine ⟨hv, fun m => ?_⟩
    rw [if_pos hv]
    exact (sees_ret h).2.symm
  · rename_i hv
    right
    obtain ⟨m, hm, h⟩ := sees_layerTableP h
    exact ⟨m, hm, by rw [if_neg hv]; exact h⟩

theorem sees_defaultLayerP {F : FloatCodec} {v : Int} {b : Bool} {l : List FS} {n : Str} (h : (defaultLayerP F v b).Sees l (.ok n)) :
    (v < 3 ∧ ∀ m, getDefaultLayerName F m v false = .ok n) ∨ ∃ m ∈ l, getDefaultLayerName F m v false = .ok n := by
  obtain ⟨l1, l2, t, rfl, h1, h2⟩ := sees_thenP_ok h
  have h2 := (sees_ret h2).2
  unfold getDefaultLayerName
  rcases sees_readLayersP h1 with ⟨hv, h⟩ | ⟨m, hm, h⟩
  · exact .inl ⟨hv, fun m => by rw [h m]; exact h2.symm⟩
  · exact .inr ⟨m, List.mem_append_left _ hm, by rw [h]; exact h2.symm⟩

theorem sees_missingP (dir : Path) {α : Type} {k : Bool → Prog α} {r : α} : ∀ (t : List (Str × Str)) (l : List FS), ((missingP dir t).bind k).Sees l r → ∃ b l', (k b).Sees l' r
  | [], l, h => ⟨_, l, h⟩
  | e :: rest, l, h => by
    obtain ⟨fs, l', rfl, h0⟩ := sees_has h
    have h := h0
    cases hx : fs.exists (dir ++ [e.2]) with
    | true =>
      dsimp only at h
      rw [hx] at h
      exact sees_missingP dir rest l' h
    | false =>
      dsimp only at h
      rw [hx] at h
      exact ⟨_, l', h⟩

theorem sees_rebuildP {F : FloatCodec} {gs g : GlyphSet.GlyphSet} {b : Bool} {l : List FS} (h : (rebuildP F gs b).Sees l (.ok g)) : ∃ m ∈ l, GlyphSet.rebuildContents F gs m false = .ok g := by
  obtain ⟨m, l', rfl, h0⟩ := sees_get h
  have h := h0
  refine ⟨m, List.mem_cons_self .., ?_⟩
  unfold GlyphSet.rebuildContents GlyphSet.checkContents
  have h' : (Prog.bind (α := Except Exc PyVal) (β := Except Exc GlyphSet.GlyphSet) (.ret (getPlist F m (gs.dir ++ [GlyphSet.contentsName]) (some (.dict [])))) fun r => match r with
    | .error e => .ret (.error e)
    | .ok (.dict d) => match GlyphSet.tableOf d with
      | none => .ret (.error .glifLibError)
      | some t =>
        let new : GlyphSet.GlyphSet := { gs with contents := t.foldl (fun d e => Dict.set d e.1 e.2) [], existing := none, reverse := none }
        if b then (missingP gs.dir t).bind fun m => .ret (if m then .error .glifLibError else .ok new)
        else .ret (.ok new)
    | .ok _ => .ret (.error .glifLibError)).Sees l' (.ok g) := h
  clear h
  revert h'
  cases getPlist F m (gs.dir ++ [GlyphSet.contentsName]) (some (.dict [])) with
  | error e => intro h; cases (sees_ret h).2
  | ok x =>
    cases x with
    | dict d =>
      intro h
      simp only [Prog.bind] at h
      dsimp only
      cases ht : GlyphSet.tableOf d with
      | none => rw [ht] at h; cases (sees_ret h).2
      | some t =>
        rw [ht] at h
        dsimp only at h ⊢
        rw [Bool.false_and, if_neg (by simp)]
        dsimp only
        split at h
        · obtain ⟨x, l2, h⟩ := sees_missingP _ _ _ h
          have h := (sees_ret h).2
          split at h
          · cases h
          · exact h.symm
        · exact (sees_ret h).2.symm
    | _ => intro h; cases (sees_ret h).2

/-- The table of a glyph set is that of one moment. -/
theorem sees_openP {F : FloatCodec} {dir : Path} {v : Nat} {b : Bool} {l : List FS} {g : GlyphSet.GlyphSet} (h : (openP F dir v b).Sees l (.ok g)) :
    g.dir = dir ∧ ∃ m ∈ l, ∃ g', GlyphSet.openGlyphSet F m dir v false = .ok g' ∧ g.contents = g'.contents := by
  unfold openP at h
  unfold GlyphSet.openGlyphSet
  split at h
  · rename_i hv
    obtain ⟨m0, l', rfl, h0⟩ := sees_has h
    have h := h0
    obtain ⟨m, hm, h⟩ := sees_rebuildP h
    unfold GlyphSet.rebuildContents at h
    dsimp only at h
    cases hp : getPlist F m (dir ++ [GlyphSet.contentsName]) (some (.dict [])) with
    | error e => rw [hp] at h; cases h
    | ok x =>
      rw [hp] at h
      dsimp only at h
      cases hc : GlyphSet.checkContents m dir false x with
      | error e => rw [hc] at h; cases h
      | ok t =>
        rw [hc] at h
        cases h
        refine ⟨rfl, m, List.mem_cons_of_mem _ hm, ?_⟩
        rw [if_pos hv]
        unfold GlyphSet.rebuildContents
        dsimp only
        rw [hp]
        dsimp only
        rw [hc]
        exact ⟨_, rfl, rfl⟩
  · cases (sees_ret h).2

theorem sees_openDirP {α : Type} {p : Path} {missing : Exc} {k : Prog (Except Exc α)} {l : List FS} {a : α} (h : (openDirP p missing k).Sees l (.ok a)) :
    ∃ m l', l = m :: l' ∧ m.node? p = some .dir ∧ k.Sees l' (.ok a) := by
  obtain ⟨m, l', rfl, h0⟩ := sees_get h
  have h := h0
  refine ⟨m, l', rfl, ?_⟩
  revert h
  unfold FS.getbytes
  cases m.node? p with
  | none => intro h; cases (sees_ret h).2
  | some x =>
    cases x with
    | file d => intro h; cases (sees_ret h).2
    | dir => exact fun h => ⟨rfl, h⟩

theorem sees_fetchP {α : Type} {fetch : Bytes → Except Exc α} {gs : GlyphSet.GlyphSet} : ∀ (ns : List Str) (t t' : Dict Str α) (l : List FS), (fetchP fetch gs t ns).Sees l (.ok t') →
    ∀ n v, Dict.get? t' n = some v → Dict.get? t n = some v ∨ ∃ m ∈ l, ∃ d, GlyphSet.getGLIF (gs, m) n = .ok d ∧ fetch d = .ok v
  | [], t, t', l, h, n, v, hv => by
    obtain ⟨-, h⟩ := sees_ret h
    cases h
    exact .inl hv
  | x :: ns, t, t', l, h, n, v, hv => by
    unfold fetchP at h
    obtain ⟨l1, l2, d, rfl, h1, h2⟩ := sees_thenP_ok h
    cases hf : fetch d with
    | error e => rw [hf] at h2; cases (sees_ret h2).2
    | ok y =>
      rw [hf] at h2
      rcases sees_fetchP ns _ t' l2 h2 n v hv with h3 | ⟨m, hm, h3⟩
      · rw [Dict.get?_set] at h3
        split at h3
        · rename_i hx
          cases h3
          subst hx
          right
          rcases sees_glifP h1 with ⟨m, rfl, hg⟩ | ⟨rfl, hg⟩
          · exact ⟨m, List.mem_cons_self .., d, hg.symm, hf⟩
          · exfalso
            unfold glifP at h1
            cases hc : Dict.get? gs.contents x with
            | none => rw [hc] at h1; cases (sees_ret h1).2
            | some f => rw [hc] at h1; cases h1
        · exact .inl h3
      · exact .inr ⟨m, List.mem_append_right _ hm, h3⟩

end Verif.Ufo
