import Verif.Proofs.GlyphSetNames
import Verif.Proofs.Filenames
/-! File names given by a naming function over a history, and the default naming function. -/
namespace Verif.GlyphSet
open Verif Verif.FS Verif.IO Verif.Spec.GlyphSet Verif.Filenames

/-- The naming function gives the glyph `n` a good file name, different ignoring case from those in use. -/
def Admissible (L : Casing) (Good : Str → Str → Prop) (naming : Naming) (n : Str) : Prop :=
  ∀ (contents ex : Dict Str Str) (f : Str), (∀ m g, Dict.get? contents m = some g → Good m g) →
    (∀ g, g ∈ Dict.keys ex ↔ ∃ m, Dict.get? contents m = some g) → Dict.get? contents n = none →
    naming n ex = .ok f → Good n f ∧ ∀ m g, Dict.get? contents m = some g → L.lower g ≠ L.lower f

structure Named (L : Casing) (Good : Str → Str → Prop) (gs : GlyphSet) : Prop where
  sound : Sound L gs
  distinct : Distinct L.lower gs.contents
  good : ∀ m g, Dict.get? gs.contents m = some g → Good m g

theorem assignFile_named {L : Casing} {Good : Str → Str → Prop} {naming : Naming} {gs : GlyphSet} {n : Str}
    (hn : Admissible L Good naming n) (h : Named L Good gs) : Named L Good (assignFile L naming gs n).1 := by
  have hs := assignFile_cache (L := L) (naming := naming) n h.sound.wf h.sound.cache
  have key : Distinct L.lower (assignFile L naming gs n).1.contents ∧
      ∀ m g, Dict.get? (assignFile L naming gs n).1.contents m = some g → Good m g := by
    unfold assignFile
    split
    · exact ⟨h.distinct, h.good⟩
    · rename_i hnone
      dsimp only
      split
      · exact ⟨h.distinct, h.good⟩
      · rename_i f hf
        have hex : ∀ f, f ∈ Dict.keys (gs.existing.getD (existingOf L gs.contents)) ↔ ∃ n, Dict.get? gs.contents n = some f := by
          cases he : gs.existing with
          | none => exact fun f => mem_existingOf h.sound.wf
          | some ex => exact h.sound.cache ex he
        obtain ⟨hg, hne⟩ := hn gs.contents _ f h.good hex hnone hf
        have hget : ∀ m g, Dict.get? (Dict.set gs.contents n f) m = some g →
            (m = n ∧ g = f) ∨ (m ≠ n ∧ Dict.get? gs.contents m = some g) := by
          intro m g hm
          rw [Dict.get?_set] at hm
          by_cases hmn : n = m
          · rw [if_pos hmn] at hm
            injection hm with hm
            exact .inl ⟨hmn.symm, hm.symm⟩
          · rw [if_neg hmn] at hm
            exact .inr ⟨Ne.symm hmn, hm⟩
        dsimp only
        refine ⟨fun a b f1 f2 ha hb hab => ?_, fun m g hm => ?_⟩
        · rcases hget _ _ ha with ⟨rfl, rfl⟩ | ⟨ha1, ha2⟩ <;> rcases hget _ _ hb with ⟨rfl, rfl⟩ | ⟨hb1, hb2⟩
          · rfl
          · exact absurd hab.symm (hne _ _ hb2)
          · exact absurd hab (hne _ _ ha2)
          · exact h.distinct _ _ _ _ ha2 hb2 hab
        · rcases hget _ _ hm with ⟨rfl, rfl⟩ | ⟨-, hm2⟩
          · exact hg
          · exact h.good _ _ hm2
  exact ⟨⟨hs.1, hs.2, assignFile_reverse n key.1 h.sound.reverse⟩, key.1, key.2⟩

theorem step_named {L : Casing} {F : FloatCodec} {Good : Str → Str → Prop} {w : World} {op : Op}
    (hop : ∀ v, op ≠ .rebuild v) (hn : ∀ naming n fv data, op = .write naming n fv data → Admissible L Good naming n)
    (h : Named L Good w.1) : Named L Good (step L F w op).1.1 := by
  cases op with
  | rebuild v => exact absurd rfl (hop v)
  | save => exact h
  | reverse =>
    have hc : (getReverseContents L w.1).1.contents = w.1.contents := by
      unfold getReverseContents; split <;> rfl
    refine ⟨step_sound (F := F) (op := .reverse) h.sound h.distinct ?_, ?_, ?_⟩
    · show Distinct L.lower (getReverseContents L w.1).1.contents
      rw [hc]; exact h.distinct
    · show Distinct L.lower (getReverseContents L w.1).1.contents
      rw [hc]; exact h.distinct
    · show ∀ m g, Dict.get? (getReverseContents L w.1).1.contents m = some g → Good m g
      rw [hc]; exact h.good
  | delete n =>
    have hsub : ∀ m g, Dict.get? (deleteGlyph L w n).1.1.contents m = some g → Dict.get? w.1.contents m = some g := by
      intro m g hm
      have hspec := deleteGlyph_spec (L := L) (w := w) (n := n) (w' := (deleteGlyph L w n).1) (r := (deleteGlyph L w n).2) rfl
      rcases hspec.2.2.2.2.1 with ⟨-, hc⟩ | ⟨-, hc⟩
      · rw [hc] at hm; exact (get?_erase_some.1 hm).2
      · rw [hc] at hm; exact hm
    have hd' : Distinct L.lower (deleteGlyph L w n).1.1.contents := fun a b f g ha hb => h.distinct a b f g (hsub _ _ ha) (hsub _ _ hb)
    exact ⟨step_sound (F := F) (op := .delete n) h.sound h.distinct hd', hd', fun m g hm => h.good m g (hsub m g hm)⟩
  | write naming n fv data =>
    show Named L Good (writeGlyph L naming w n fv data).1.1
    rcases writeGlyph_fst L naming w n fv data with he | he
    · rw [he]; exact h
    · rw [he]; exact assignFile_named (hn _ _ _ _ rfl) h

theorem run_named {L : Casing} {F : FloatCodec} {Good : Str → Str → Prop} (ops : List Op) : ∀ (w : World),
    (∀ op ∈ ops, ∀ v, op ≠ .rebuild v) →
    (∀ op ∈ ops, ∀ naming n fv data, op = .write naming n fv data → Admissible L Good naming n) →
    Named L Good w.1 → Named L Good (run L F w ops).1 := by
  induction ops with
  | nil => exact fun w _ _ h => h
  | cons op ops ih =>
    intro w hop hn h
    exact ih _ (fun o ho => hop o (by simp [ho])) (fun o ho => hn o (by simp [ho]))
      (step_named (hop op (by simp)) (hn op (by simp)) h)

/-! ### ASCII casing -/

/-- Upper-casing of one ASCII character. -/
def asciiUpperChar (c : Char) : Char := if 'a' ≤ c ∧ c ≤ 'z' then Char.ofNat (c.toNat - 32) else c

/-- Undo the escaping of capitals in a lower-cased file name. -/
def unescape : Str → Str
  | [] => []
  | [c] => if c = '_' then [] else [c]
  | c :: d :: s =>
    if c = '_' then unescape (d :: s)
    else if d = '_' then asciiUpperChar c :: unescape s
    else c :: unescape (d :: s)

theorem unescape_underscore (s : Str) : unescape ('_' :: s) = unescape s := by
  cases s <;> simp [unescape]

theorem unescape_cap {c : Char} (hc : c ≠ '_') (s : Str) : unescape (c :: '_' :: s) = asciiUpperChar c :: unescape s := by
  simp [unescape, hc]

theorem unescape_cons {c : Char} (hc : c ≠ '_') {s : Str} (hs : ∀ s', s ≠ '_' :: s') : unescape (c :: s) = c :: unescape s := by
  cases s with
  | nil => simp [unescape, hc]
  | cons d s =>
    have : d ≠ '_' := fun h => hs s (by rw [h])
    simp [unescape, hc, this]

theorem unescape_dot (s : Str) : unescape ('.' :: s) = '.' :: unescape s := by
  by_cases h : ∃ s', s = '_' :: s'
  · obtain ⟨s', rfl⟩ := h
    rw [unescape_cap (by decide), unescape_underscore]; rfl
  · exact unescape_cons (by decide) (fun s' hs => h ⟨s', hs⟩)

theorem unescape_append_dot (n : Nat) : ∀ (p s : Str), p.length ≤ n → unescape (p ++ '.' :: s) = unescape p ++ '.' :: unescape s := by
  induction n with
  | zero =>
    intro p s hp
    have : p = [] := List.eq_nil_of_length_eq_zero (by omega)
    subst this
    rw [List.nil_append, unescape_dot]; simp [unescape]
  | succ n ih =>
    intro p s hp
    cases p with
    | nil => rw [List.nil_append, unescape_dot]; simp [unescape]
    | cons c p =>
      by_cases hc : c = '_'
      · subst hc
        rw [List.cons_append, unescape_underscore, unescape_underscore, ih p s (by simpa using hp)]
      · cases p with
        | nil =>
          show unescape (c :: '.' :: s) = unescape [c] ++ '.' :: unescape s
          rw [unescape_cons hc (fun s' h => by cases h), unescape_cons hc (fun s' h => by cases h), unescape_dot]
          simp [unescape]
        | cons d p =>
          by_cases hd : d = '_'
          · subst hd
            simp only [List.cons_append]
            rw [unescape_cap hc, unescape_cap hc, ih p s (by simp at hp; omega)]; rfl
          · simp only [List.cons_append]
            rw [unescape_cons hc (fun s' h => by injection h with h; exact hd h),
              unescape_cons hc (fun s' h => by injection h with h; exact hd h)]
            have := ih (d :: p) s (by simpa using hp)
            rw [List.cons_append] at this
            rw [this]; rfl

/-! ### the default naming function on safe names -/

theorem ascii_all {P : Char → Prop} (h : ∀ k : Fin 128, P (Char.ofNat k)) (c : Char) (hc : c.toNat < 128) : P c := by
  have := h ⟨c.toNat, hc⟩
  simpa using this

theorem safe_ascii {c : Char} (h : SafeChar c) : c.toNat < 128 := by
  have key : ∀ a b : Char, a ≤ b → a.toNat ≤ b.toNat := fun a b h => h
  unfold SafeChar isDigit at h
  simp only [Bool.and_eq_true, decide_eq_true_eq] at h
  rcases h with h | h | h | h
  · have := key _ _ h.2; simp at this; omega
  · have := key _ _ h.2; simp at this; omega
  · have := key _ _ h.2; simp at this; omega
  · subst h; decide

/-- The filter loop on a safe character. -/
theorem filterChar_safe {L : Casing} (hL : AsciiCasing L) {c : Char} (h : SafeChar c) :
    filterChar L c = if 'A' ≤ c ∧ c ≤ 'Z' then [c, '_'] else [c] := by
  have hasc := safe_ascii h
  have hlow : L.lower [c] = [asciiLowerChar c] := by
    rw [hL [c] (by simpa using hasc)]; rfl
  have hleg : c ∉ illegalCharacters :=
    ascii_all (P := fun c => SafeChar c → c ∉ illegalCharacters) (by decide) c hasc h
  have hch : (asciiLowerChar c ≠ c) ↔ ('A' ≤ c ∧ c ≤ 'Z') :=
    ascii_all (P := fun c => (asciiLowerChar c ≠ c) ↔ ('A' ≤ c ∧ c ≤ 'Z')) (by decide) c hasc
  unfold filterChar
  rw [if_neg hleg, hlow]
  by_cases hu : 'A' ≤ c ∧ c ≤ 'Z'
  · rw [if_pos hu, if_pos (by simpa using hch.2 hu)]
  · rw [if_neg hu, if_neg (by simpa using fun h => hu (hch.1 h))]

/-- The name with every capital followed by an underscore. -/
def escaped (n : Str) : Str := n.flatMap fun c => if 'A' ≤ c ∧ c ≤ 'Z' then [c, '_'] else [c]

theorem flatMap_safe {L : Casing} (hL : AsciiCasing L) {n : Str} (h : ∀ c ∈ n, SafeChar c) :
    n.flatMap (filterChar L) = escaped n := by
  induction n with
  | nil => rfl
  | cons c n ih =>
    rw [List.flatMap_cons, filterChar_safe hL (h c (by simp)), ih (fun d hd => h d (by simp [hd]))]
    rfl

theorem escaped_length (n : Str) : (escaped n).length = n.length + (n.filter fun c => 'A' ≤ c ∧ c ≤ 'Z').length := by
  induction n with
  | nil => rfl
  | cons c n ih =>
    rw [escaped, List.flatMap_cons, List.length_append]
    change _ + (escaped n).length = _
    rw [ih]
    by_cases h : 'A' ≤ c ∧ c ≤ 'Z'
    · rw [if_pos h, List.filter_cons_of_pos (by simpa using h)]; simp; omega
    · rw [if_neg h, List.filter_cons_of_neg (by simpa using h)]; simp; omega

theorem escaped_ascii {n : Str} (h : ∀ c ∈ n, SafeChar c) : ∀ c ∈ escaped n, c.toNat < 128 := by
  intro c hc
  obtain ⟨d, hd, hc⟩ := List.mem_flatMap.1 hc
  have := safe_ascii (h d hd)
  split at hc <;> simp at hc
  · rcases hc with rfl | rfl
    · exact this
    · decide
  · subst hc; exact this

theorem unescape_escaped {n : Str} (h : ∀ c ∈ n, SafeChar c) {x : Str} (hx : ∀ s, x ≠ '_' :: s) :
    unescape ((escaped n).map asciiLowerChar ++ x) = n ++ unescape x := by
  induction n with
  | nil => rfl
  | cons c n ih =>
    have ih := ih (fun d hd => h d (by simp [hd]))
    have hc := h c (by simp)
    have hasc := safe_ascii hc
    have hnu : asciiLowerChar c ≠ '_' :=
      ascii_all (P := fun c => SafeChar c → asciiLowerChar c ≠ '_') (by decide) c hasc hc
    rw [escaped, List.flatMap_cons, List.map_append, List.append_assoc]
    change unescape (_ ++ (List.map asciiLowerChar (escaped n) ++ x)) = _
    by_cases hu : 'A' ≤ c ∧ c ≤ 'Z'
    · rw [if_pos hu]
      have hup : asciiUpperChar (asciiLowerChar c) = c :=
        ascii_all (P := fun c => 'A' ≤ c ∧ c ≤ 'Z' → asciiUpperChar (asciiLowerChar c) = c) (by decide) c hasc hu
      show unescape (asciiLowerChar c :: asciiLowerChar '_' :: ((escaped n).map asciiLowerChar ++ x)) = _
      rw [show asciiLowerChar '_' = '_' from rfl, unescape_cap hnu, hup, ih]; rfl
    · rw [if_neg hu]
      have hlo : asciiLowerChar c = c := by simp [asciiLowerChar, hu]
      show unescape (asciiLowerChar c :: ((escaped n).map asciiLowerChar ++ x)) = _
      rw [hlo] at hnu ⊢
      rw [unescape_cons hnu ?_, ih]; rfl
      intro s hs
      cases n with
      | nil => exact hx s (by simpa [escaped] using hs)
      | cons d n =>
        have hd := h d (by simp)
        have hnd : asciiLowerChar d ≠ '_' :=
          ascii_all (P := fun c => SafeChar c → asciiLowerChar c ≠ '_') (by decide) d (safe_ascii hd) hd
        rw [escaped, List.flatMap_cons] at hs
        split at hs <;> simp at hs <;> exact hnd hs.1

theorem unescape_marked (mark : Str → Str) (hm : ∀ p, mark p = p ∨ mark p = '_' :: p) (ps : List Str) (hps : ps ≠ []) (x : Str) :
    unescape ((join ['.'] (ps.map mark)).map asciiLowerChar ++ '.' :: x) =
      unescape ((join ['.'] ps).map asciiLowerChar ++ '.' :: x) := by
  have h1 : ∀ p : Str, unescape ((mark p).map asciiLowerChar) = unescape (p.map asciiLowerChar) := by
    intro p
    rcases hm p with h | h
    · rw [h]
    · rw [h, List.map_cons, show asciiLowerChar '_' = '_' from rfl, unescape_underscore]
  induction ps with
  | nil => exact absurd rfl hps
  | cons p ps ih =>
    cases ps with
    | nil =>
      simp only [List.map_cons, List.map_nil, join]
      rw [unescape_append_dot _ _ _ (Nat.le_refl _), unescape_append_dot _ _ _ (Nat.le_refl _), h1]
    | cons q ps =>
      have ih := ih (by simp)
      simp only [List.map_cons, join, List.map_append, List.append_assoc, List.cons_append, List.nil_append,
        show asciiLowerChar '.' = '.' from rfl] at ih ⊢
      rw [unescape_append_dot _ ((mark p).map asciiLowerChar) _ (Nat.le_refl _),
        unescape_append_dot _ (p.map asciiLowerChar) _ (Nat.le_refl _), h1, ih]

/-- The file name of a safe glyph name. -/
def safeFile (L : Casing) (n : Str) : Str := fixReserved L (escaped n) ++ c!".glif"

theorem safeFile_ascii {L : Casing} {n : Str} (h : ∀ c ∈ n, SafeChar c) : ∀ c ∈ safeFile L n, c.toNat < 128 := by
  intro c hc
  rcases List.mem_append.1 hc with hc | hc
  · rcases fixReserved_mem hc with rfl | rfl | hc
    · decide
    · decide
    · exact escaped_ascii h c hc
  · clear * - hc; revert hc; revert c; decide

theorem unescape_safeFile {L : Casing} (hL : AsciiCasing L) {n : Str} (h : ∀ c ∈ n, SafeChar c) :
    unescape (L.lower (safeFile L n)) = n ++ c!".glif" := by
  rw [hL _ (safeFile_ascii h), safeFile, List.map_append]
  show unescape ((fixReserved L (escaped n)).map asciiLowerChar ++ '.' :: c!"glif") = _
  rw [fixReserved, unescape_marked _ (fun p => by split <;> simp) _ (splitOn_ne_nil _ _), join_splitOn,
    unescape_escaped h (fun s hs => by cases hs)]
  rfl

theorem safeFile_inj {L : Casing} (hL : AsciiCasing L) {n m : Str} (hn : SafeName n) (hm : SafeName m)
    (h : L.lower (safeFile L n) = L.lower (safeFile L m)) : n = m := by
  have h1 := unescape_safeFile hL hn.chars
  rw [h, unescape_safeFile hL hm.chars] at h1
  exact (List.append_cancel_right h1).symm

theorem lower_lower {L : Casing} (hL : AsciiCasing L) {s : Str} (h : ∀ c ∈ s, c.toNat < 128) : L.lower (L.lower s) = L.lower s := by
  have hlo : ∀ c : Char, c.toNat < 128 → (asciiLowerChar c).toNat < 128 ∧ asciiLowerChar (asciiLowerChar c) = asciiLowerChar c :=
    ascii_all (P := fun c => (asciiLowerChar c).toNat < 128 ∧ asciiLowerChar (asciiLowerChar c) = asciiLowerChar c) (by decide)
  rw [hL s h, hL (s.map asciiLowerChar) (by
    intro c hc
    obtain ⟨d, hd, rfl⟩ := List.mem_map.1 hc
    exact (hlo d (h d hd)).1), List.map_map]
  exact List.map_congr_left fun c hc => (hlo c (h c hc)).2

theorem defaultNaming_safe {L : Casing} (hL : AsciiCasing L) {n : Str} (hn : SafeName n) (ex : Dict Str Str)
    (hex : L.lower (safeFile L n) ∉ Dict.keys ex) : defaultNaming L n ex = .ok (safeFile L n) := by
  obtain ⟨h1, h2, h3, h4⟩ := hn
  rw [← escaped_length] at h4
  cases n with
  | nil => exact absurd rfl h2
  | cons c n =>
    have hc : c ≠ '.' := fun h => h3 (by simp [h])
    have hslice : pySliceTo (escaped (c :: n)) ((maxFileNameLength : Int) - ((([] : Str).length : Nat) : Int) - ((c!".glif" : Str).length : Nat)) = escaped (c :: n) := by
      have : ((maxFileNameLength : Int) - ((([] : Str).length : Nat) : Int) - ((c!".glif" : Str).length : Nat)) = 250 := by decide
      rw [this]
      simp only [pySliceTo]
      rw [if_pos (by omega)]
      exact List.take_of_length_le (by simpa using h4)
    unfold defaultNaming userNameToFileName fixLeadingPeriod
    simp only [if_true, hc, if_false]
    rw [flatMap_safe hL h1, hslice]
    show (if L.lower (safeFile L (c :: n)) ∈ Dict.keys ex then _ else _) = _
    rw [if_neg hex]; rfl

/-! ### names without capitals -/

theorem lower_of_lowerAscii {L : Casing} (hL : AsciiCasing L) {s : Str} (h : LowerAscii s) : L.lower s = s := by
  rw [hL s (fun c hc => (h c hc).1)]
  conv_rhs => rw [← List.map_id s]
  exact List.map_congr_left fun c hc => by simp [asciiLowerChar, (h c hc).2]

theorem lowerAscii_append {a b : Str} (ha : LowerAscii a) (hb : LowerAscii b) : LowerAscii (a ++ b) := by
  intro c hc
  rcases List.mem_append.1 hc with h | h
  · exact ha c h
  · exact hb c h

theorem lowerAscii_digits {d : Str} (hd : ∀ c ∈ d, isDigit c = true) : LowerAscii d := by
  intro c hc
  have := hd c hc
  have key : ∀ a b : Char, a ≤ b ↔ a.toNat ≤ b.toNat := fun a b => Iff.rfl
  simp only [isDigit, Bool.and_eq_true, decide_eq_true_eq, key] at this
  simp only [key]
  simp at this ⊢
  omega

theorem filterChar_lowerAscii {L : Casing} (hL : AsciiCasing L) {s : Str} (hs : LowerAscii s) :
    LowerAscii (s.flatMap (filterChar L)) := by
  intro c hc
  obtain ⟨d, hd, hc⟩ := List.mem_flatMap.1 hc
  have hlow : L.lower [d] = [d] := lower_of_lowerAscii hL (fun x hx => by simp at hx; subst hx; exact hs _ hd)
  unfold filterChar at hc
  rw [hlow] at hc
  split at hc
  · simp at hc; subst hc; decide
  · simp at hc; subst hc; exact hs _ hd

theorem defaultNaming_lowerAscii {L : Casing} (hL : AsciiCasing L) {n f : Str} {ex : Dict Str Str} (hn : LowerAscii n)
    (h : defaultNaming L n ex = .ok f) : LowerAscii f ∧ L.lower f ∉ Dict.keys ex ∧ ∃ a, f = a ++ c!".glif" := by
  obtain ⟨v, hv, hfresh, hcases⟩ := userNameToFileName_cases h
  have hsuf : LowerAscii c!".glif" := by unfold LowerAscii; decide
  have hvl : LowerAscii v := by
    unfold fixLeadingPeriod at hv
    simp only [if_true] at hv
    cases n with
    | nil => cases hv
    | cons c n =>
      dsimp only at hv
      split at hv
      · cases hv
        intro x hx
        rcases List.mem_cons.1 hx with rfl | hx
        · decide
        · exact hn x (by simp [hx])
      · cases hv; exact hn
  have hcl : LowerAscii (cleaned L v [] c!".glif") := by
    intro c hc
    rcases fixReserved_mem hc with rfl | rfl | hc
    · decide
    · decide
    · exact filterChar_lowerAscii hL hvl c (mem_of_mem_pySliceTo hc)
  refine ⟨?_, hfresh, ?_⟩
  · rcases hcases with rfl | ⟨k, -, rfl⟩ | ⟨k, -, -, rfl⟩
    · exact lowerAscii_append hcl hsuf
    · refine lowerAscii_append (lowerAscii_append (a := []) (by simp [LowerAscii]) (lowerAscii_append (fun c hc => ?_)
        (lowerAscii_digits (zfill_digits (natRepr_digits k))))) hsuf
      obtain ⟨j, hj⟩ := clash1Name_eq_take (cleaned L v [] c!".glif") [] c!".glif"
      rw [hj] at hc
      exact hcl c (List.mem_of_mem_take hc)
    · exact lowerAscii_append (lowerAscii_digits (natRepr_digits k)) hsuf
  · rcases hcases with rfl | ⟨k, -, rfl⟩ | ⟨k, -, -, rfl⟩
    · exact ⟨_, rfl⟩
    · exact ⟨_, rfl⟩
    · exact ⟨_, rfl⟩

theorem admissible_lower {L : Casing} (hL : AsciiCasing L) {n : Str} (hn : LowerAscii n) :
    Admissible L (fun _ f => LowerAscii f) (defaultNaming L) n := by
  intro contents ex f hgood hex _ hf
  obtain ⟨h1, h2, -⟩ := defaultNaming_lowerAscii hL hn hf
  refine ⟨h1, fun m g hm heq => h2 ?_⟩
  rw [← heq, lower_of_lowerAscii hL (hgood m g hm)]
  exact (hex g).2 ⟨m, hm⟩

end Verif.GlyphSet
