import Verif.Proofs.GlyphSetDefault
import Verif.Spec.Plist
/-! The default naming function on names that have files of their own. -/
namespace Verif.GlyphSet
open Verif Verif.FS Verif.IO Verif.Spec.GlyphSet Verif.Filenames

theorem illegal_iff (c : Char) : c ∈ illegalCharacters ↔ (c.toNat < 32 ∨ c.toNat = 127 ∨ c ∈ c!"\"*+/:<>?[\\]|") := by
  by_cases h : c.toNat < 128
  · exact ascii_all (P := fun c => c ∈ illegalCharacters ↔ (c.toNat < 32 ∨ c.toNat = 127 ∨ c ∈ c!"\"*+/:<>?[\\]|")) (by decide +kernel) c h
  · refine ⟨fun hc => absurd ((show ∀ c ∈ illegalCharacters, c.toNat < 128 by decide +kernel) c hc) h, fun hc => ?_⟩
    rcases hc with hc | hc | hc
    · omega
    · omega
    · exact absurd ((show ∀ c ∈ c!"\"*+/:<>?[\\]|", c.toNat < 128 by decide) c hc) h

theorem filterChar_portable (L : Casing) (c : Char) : filterChar L c = portable L.lower c := by
  unfold filterChar portable
  by_cases h : c ∈ illegalCharacters
  · rw [if_pos h, if_pos ((illegal_iff c).1 h)]
  · rw [if_neg h, if_neg (fun hc => h ((illegal_iff c).2 hc))]

theorem portable_ascii {lower : Str → Str} {c : Char} (h : c.toNat < 128) : ∀ d ∈ portable lower c, d.toNat < 128 := by
  intro d hd
  unfold portable at hd
  split at hd
  · simp at hd; subst hd; decide
  · split at hd
    · simp at hd
      rcases hd with rfl | rfl
      · exact h
      · decide
    · simp at hd; subst hd; exact h

theorem portable_mem {lower : Str → Str} {c d : Char} (h : d ∈ portable lower c) : d = '_' ∨ d = c := by
  unfold portable at h
  split at h
  · simp at h; exact .inl h
  · split at h
    · simp at h; exact h.symm
    · simp at h; exact .inr h

/-- The characters of the name with an initial period replaced. -/
def started (n : Str) : Str := if n.head? = some '.' then '_' :: n.tail else n

theorem started_mem {n : Str} {c : Char} (h : c ∈ started n) : c = '_' ∨ c ∈ n := by
  unfold started at h
  split at h
  · rcases List.mem_cons.1 h with rfl | h
    · exact .inl rfl
    · exact .inr (List.mem_of_mem_tail h)
  · exact .inr h

theorem fixReserved_devices (L : Casing) (s : Str) :
    fixReserved L s = join ['.'] ((splitOn '.' s).map fun part => if L.lower part ∈ devices then '_' :: part else part) := by
  unfold fixReserved
  congr 1
  refine List.map_congr_left fun part hp => ?_
  have : ∀ t, t ∈ reservedFileNames ↔ t ∈ devices := by
    intro t
    simp only [reservedFileNames, devices, List.mem_cons, List.not_mem_nil, or_false]
    tauto
  simp only [this]

theorem ownFile_eq (L : Casing) (n : Str) :
    ownFile L.lower n = fixReserved L (((started n).flatMap (filterChar L)).take 250) ++ c!".glif" := by
  have hf : (started n).flatMap (filterChar L) = (started n).flatMap (portable L.lower) := by
    rw [List.flatMap_def, List.flatMap_def]
    congr 1
    exact List.map_congr_left fun c hc => filterChar_portable L c
  rw [hf, fixReserved_devices]
  rfl

theorem marked_mem {P : Str → Prop} [DecidablePred P] {s : Str} {x : Char} (h : x ∈ join ['.'] ((splitOn '.' s).map fun part => if P part then '_' :: part else part)) :
    x = '.' ∨ x = '_' ∨ x ∈ s := by
  rcases mem_join h with h | ⟨p, hp, hx⟩
  · left; simpa using h
  · simp only [List.mem_map] at hp
    obtain ⟨q, hq, rfl⟩ := hp
    split at hx
    · simp only [List.mem_cons] at hx
      rcases hx with rfl | hx
      · exact .inr (.inl rfl)
      · exact .inr (.inr (mem_splitOn hq hx))
    · exact .inr (.inr (mem_splitOn hq hx))

/-- The characters of the file name are those of the glyph name, underscores, periods and those of the suffix. -/
theorem ownFile_mem {lower : Str → Str} {n : Str} {c : Char} (h : c ∈ ownFile lower n) : c ∈ n ∨ c = '_' ∨ c ∈ c!".glif" := by
  unfold ownFile at h
  rcases List.mem_append.1 h with h | h
  · have : c = '.' ∨ c = '_' ∨ c ∈ ((started n).flatMap (portable lower)).take 250 := marked_mem (P := fun part => lower part ∈ devices) (s := ((started n).flatMap (portable lower)).take 250) h
    rcases this with rfl | rfl | h
    · exact .inr (.inr (by decide))
    · exact .inr (.inl rfl)
    · obtain ⟨d, hd, hc⟩ := List.mem_flatMap.1 (List.mem_of_mem_take h)
      rcases portable_mem hc with rfl | rfl
      · exact .inr (.inl rfl)
      · rcases started_mem hd with rfl | hd
        · exact .inr (.inl rfl)
        · exact .inl hd
  · exact .inr (.inr h)

theorem ownFile_ascii {lower : Str → Str} {n : Str} (h : ∀ c ∈ n, c.toNat < 128) : ∀ c ∈ ownFile lower n, c.toNat < 128 := by
  intro c hc
  rcases ownFile_mem hc with hc | rfl | hc
  · exact h c hc
  · decide
  · exact (show ∀ c ∈ c!".glif", c.toNat < 128 by decide) c hc

theorem defaultNaming_own {L : Casing} {n : Str} (hne : n ≠ []) (ex : Dict Str Str)
    (hex : L.lower (ownFile L.lower n) ∉ Dict.keys ex) : defaultNaming L n ex = .ok (ownFile L.lower n) := by
  have hst : fixLeadingPeriod n [] = .ok (started n) := by
    cases n with
    | nil => exact absurd rfl hne
    | cons c n =>
      unfold fixLeadingPeriod started
      by_cases hc : c = '.' <;> simp [hc]
  have hslice : ∀ s : Str, pySliceTo s ((maxFileNameLength : Int) - ((([] : Str).length : Nat) : Int) - ((c!".glif" : Str).length : Nat)) = s.take 250 := by
    intro s
    rw [show ((maxFileNameLength : Int) - ((([] : Str).length : Nat) : Int) - ((c!".glif" : Str).length : Nat)) = 250 by decide]
    simp only [pySliceTo]
    rw [if_pos (by omega)]
    rfl
  rw [ownFile_eq] at hex ⊢
  unfold defaultNaming userNameToFileName
  rw [hst]
  dsimp only
  rw [hslice, List.nil_append, if_neg hex]

variable {L : Casing} {N : Str → Prop}

theorem own_inj (hN : OwnFiles L.lower N) {n m : Str} (hn : N n) (hm : N m) (h : L.lower (ownFile L.lower n) = L.lower (ownFile L.lower m)) : n = m :=
  hN.apart n m hn hm h

theorem own_free (hL : CaseLaws L.lower) (hN : OwnFiles L.lower N) {n : Str} (hn : N n) {contents ex : Dict Str Str}
    (hgood : ∀ m g, Dict.get? contents m = some g → N m ∧ g = ownFile L.lower m) (hex : ∀ g, g ∈ Dict.keys ex ↔ ∃ m, Dict.get? contents m = some g)
    (hnone : Dict.get? contents n = none) : L.lower (ownFile L.lower n) ∉ Dict.keys ex := by
  intro hmem
  obtain ⟨m, hm⟩ := (hex _).1 hmem
  obtain ⟨hsm, hfm⟩ := hgood m _ hm
  have : n = m := own_inj hN hn hsm (by rw [← hfm, hL.again])
  rw [this, hm] at hnone
  cases hnone

/-- The default naming function is admissible for such names, when all names in use are such. -/
theorem admissible_own (hL : CaseLaws L.lower) (hN : OwnFiles L.lower N) {n : Str} (hn : N n) : Admissible L (fun m f => N m ∧ f = ownFile L.lower m) (defaultNaming L) n := by
  intro contents ex f hgood hex hnone hf
  rw [defaultNaming_own (hN.nonempty n hn) ex (own_free hL hN hn hgood hex hnone)] at hf
  cases hf
  refine ⟨⟨hn, rfl⟩, fun m g hm heq => ?_⟩
  obtain ⟨hsm, rfl⟩ := hgood m g hm
  have : n = m := own_inj hN hn hsm heq.symm
  rw [this, hm] at hnone
  cases hnone

/-- A file name with another last letter than `f`. -/
theorem own_lower (hL : CaseLaws L.lower) {n p : Str} (hlast : p.getLast? = some 't') : L.lower (ownFile L.lower n) ≠ L.lower p := by
  intro e
  have h1 : ∃ a, ownFile L.lower n = a ++ ['f'] := ⟨_, (List.append_assoc _ c!".gli" ['f']).symm⟩
  obtain ⟨a, ha⟩ := h1
  obtain ⟨b, hb⟩ : ∃ b, p = b ++ ['t'] := by
    rw [List.getLast?_eq_some_iff] at hlast
    exact hlast
  have h3 := congrArg List.getLast? e
  rw [ha, hb, hL.last _ _ (by decide), hL.last _ _ (by decide)] at h3
  exact absurd h3 (by decide)

theorem ownFile_text {lower : Str → Str} {n : Str} (h : Spec.Plist.FileText n) : Spec.Plist.FileText (ownFile lower n) := by
  have key : ∀ c ∈ ownFile lower n, (c ∈ n ∨ c ∈ c!"_.glif") := fun c hc => by
    rcases ownFile_mem hc with hc | rfl | hc
    · exact .inl hc
    · exact .inr (by decide)
    · exact .inr (by rw [show c!"_.glif" = '_' :: c!".glif" from rfl]; exact List.mem_cons_of_mem _ hc)
  refine ⟨fun c hc => ?_, fun hc => ?_⟩
  · rcases key c hc with hc | hc
    · exact h.1 c hc
    · exact (show Spec.Plist.XmlText c!"_.glif" by unfold Spec.Plist.XmlText; decide) c hc
  · rcases key _ hc with hc | hc
    · exact h.2 hc
    · exact absurd hc (by decide)

theorem own_avoids (hL : CaseLaws L.lower) (m f : Str) (h : N m ∧ f = ownFile L.lower m) : L.lower f ≠ L.lower c!"contents.plist" := by
  obtain ⟨-, rfl⟩ := h
  exact own_lower hL (by decide)

/-- Names of letters, digits and periods that are not clipped have files of their own. -/
theorem ownFile_safe {n : Str} (hL : AsciiCasing L) (h : SafeName n) : ownFile L.lower n = safeFile L n := by
  rw [ownFile_eq, safeFile]
  have hst : started n = n := by
    unfold started
    rw [if_neg h.start]
  rw [hst, flatMap_safe hL h.chars, List.take_of_length_le (by rw [escaped_length]; exact h.short)]

theorem safe_own (hL : AsciiCasing L) : OwnFiles L.lower SafeName := by
  refine ⟨fun n h => h.nonempty, fun n m hn hm h => ?_⟩
  refine safeFile_inj hL hn hm ?_
  rw [← ownFile_safe hL hn, ← ownFile_safe hL hm]
  exact h

/-- For ASCII names it does not matter how other characters are lowered. -/
theorem ownFile_asciiNames (hL : AsciiCasing L) {n : Str} (h : ∀ c ∈ n, c.toNat < 128) : ownFile L.lower n = ownFile (List.map asciiLowerChar) n := by
  have hs : ∀ c ∈ started n, c.toNat < 128 := by
    intro c hc
    rcases started_mem hc with rfl | hc
    · decide
    · exact h c hc
  have hf : (started n).flatMap (portable L.lower) = (started n).flatMap (portable (List.map asciiLowerChar)) := by
    rw [List.flatMap_def, List.flatMap_def]
    congr 1
    refine List.map_congr_left fun c hc => ?_
    unfold portable
    rw [hL [c] (by simpa using hs c hc)]
  have hA : ∀ c ∈ ((started n).flatMap (portable (List.map asciiLowerChar))).take 250, c.toNat < 128 := by
    intro c hc
    obtain ⟨d, hd, hc⟩ := List.mem_flatMap.1 (List.mem_of_mem_take hc)
    exact portable_ascii (hs d hd) c hc
  show join ['.'] ((splitOn '.' (((started n).flatMap (portable L.lower)).take 250)).map _) ++ _ = join ['.'] ((splitOn '.' (((started n).flatMap (portable (List.map asciiLowerChar))).take 250)).map _) ++ _
  rw [hf]
  congr 2
  refine List.map_congr_left fun part hp => ?_
  rw [hL part (fun c hc => hA c (mem_splitOn hp hc))]

theorem ascii_own (hL : AsciiCasing L) (hne : ∀ n, N n → n ≠ []) (ha : ∀ n, N n → ∀ c ∈ n, c.toNat < 128)
    (hap : ∀ n m, N n → N m → (ownFile (List.map asciiLowerChar) n).map asciiLowerChar = (ownFile (List.map asciiLowerChar) m).map asciiLowerChar → n = m) : OwnFiles L.lower N := by
  refine ⟨hne, fun n m hn hm h => hap n m hn hm ?_⟩
  rw [hL _ (ownFile_ascii (ha n hn)), hL _ (ownFile_ascii (ha m hm)), ownFile_asciiNames hL (ha n hn), ownFile_asciiNames hL (ha m hm)] at h
  exact h

end Verif.GlyphSet
