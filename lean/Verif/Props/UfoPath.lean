import Verif.Model.GlyphTable
import Verif.Proofs.Str
import Mathlib.Data.List.TakeWhile
/-! C65: paths of UFOs. -/
namespace Verif.Props
open Verif Verif.Ufo

theorem splitPath_eq (h name : Str) (hn : '/' ∉ name) (hh : h = [] ∨ h.getLast? = some '/') :
    splitPath (h ++ name) = (if (h.reverse.dropWhile (· = '/')).reverse = [] then h else (h.reverse.dropWhile (· = '/')).reverse, name) := by
  have hall : ∀ c ∈ name.reverse, decide (c ≠ '/') = true := fun c hc => by
    simp only [decide_eq_true_eq]; rintro rfl; exact hn (List.mem_reverse.1 hc)
  have h1 : (h ++ name).reverse.takeWhile (· ≠ '/') = name.reverse := by
    rw [List.reverse_append, List.takeWhile_append_of_pos hall]
    rcases hh with rfl | hh
    · simp
    · obtain ⟨h', rfl⟩ := List.getLast?_eq_some_iff.1 hh
      simp
  have h2 : (h ++ name).reverse.dropWhile (· ≠ '/') = h.reverse := by
    rw [List.reverse_append, List.dropWhile_append_of_pos hall]
    rcases hh with rfl | hh
    · simp
    · obtain ⟨h', rfl⟩ := List.getLast?_eq_some_iff.1 hh
      simp
  unfold splitPath
  simp only [h1, h2, List.reverse_reverse]

/-- A directory followed by at least one slash, then a name. -/
theorem splitPath_dir (d name : Str) (k : Nat) (hn : '/' ∉ name) (hd : d ≠ []) (hl : d.getLast? ≠ some '/') :
    splitPath (d ++ List.replicate (k + 1) '/' ++ name) = (d, name) := by
  rw [splitPath_eq _ _ hn (.inr (by rw [List.replicate_succ', ← List.append_assoc]; simp))]
  have : (d ++ List.replicate (k + 1) '/').reverse.dropWhile (· = '/') = d.reverse := by
    rw [List.reverse_append, List.dropWhile_append_of_pos (by simp)]
    obtain ⟨c, d', rfl⟩ : ∃ c d', d = d' ++ [c] := ⟨d.getLast hd, d.dropLast, (List.dropLast_concat_getLast hd).symm⟩
    simp at hl ⊢
    simp [hl]
  rw [this, List.reverse_reverse, if_neg hd]

theorem splitPath_root (name : Str) (k : Nat) (hn : '/' ∉ name) : splitPath (List.replicate k '/' ++ name) = (List.replicate k '/', name) := by
  rw [splitPath_eq _ _ hn (by cases k <;> simp [List.replicate_succ'])]
  have : (List.replicate k '/').reverse.dropWhile (· = '/') = [] := List.dropWhile_eq_nil_iff.2 (by simp)
  rw [this]; rfl

/-- Every path is of one of the two forms. -/
theorem splitPath_cases (p : Str) : ∃ name, '/' ∉ name ∧
    ((∃ k, p = List.replicate k '/' ++ name) ∨ ∃ d k, d ≠ [] ∧ d.getLast? ≠ some '/' ∧ p = d ++ List.replicate (k + 1) '/' ++ name) := by
  obtain ⟨h, name, rfl, hn, hh⟩ : ∃ h name, p = h ++ name ∧ '/' ∉ name ∧ (h = [] ∨ h.getLast? = some '/') := by
    refine ⟨(p.reverse.dropWhile (· ≠ '/')).reverse, (p.reverse.takeWhile (· ≠ '/')).reverse, ?_, ?_, ?_⟩
    · rw [← List.reverse_append, List.takeWhile_append_dropWhile, List.reverse_reverse]
    · intro h
      have := List.mem_takeWhile_imp (List.mem_reverse.1 h)
      simp at this
    · cases hc : p.reverse.dropWhile (· ≠ '/') with
      | nil => exact .inl rfl
      | cons c l =>
        have := List.head_dropWhile_not (p := fun x => decide (x ≠ '/')) (l := p.reverse) (by rw [hc]; simp)
        simp only [hc, List.head_cons, decide_eq_false_iff_not, not_not] at this
        right; simp [this]
  refine ⟨name, hn, ?_⟩
  have hs : h = (h.reverse.dropWhile (· = '/')).reverse ++ (h.reverse.takeWhile (· = '/')).reverse := by
    rw [← List.reverse_append, List.takeWhile_append_dropWhile, List.reverse_reverse]
  have ht : (h.reverse.takeWhile (· = '/')).reverse = List.replicate (h.reverse.takeWhile (· = '/')).length '/' := by
    refine List.eq_replicate_iff.2 ⟨by simp, fun c hc => ?_⟩
    have := List.mem_takeWhile_imp (List.mem_reverse.1 hc)
    simpa using this
  cases hd : h.reverse.dropWhile (· = '/') with
  | nil =>
    left
    refine ⟨(h.reverse.takeWhile (· = '/')).length, ?_⟩
    rw [hd, ht] at hs
    exact congrArg (· ++ name) hs
  | cons c l =>
    have hc := List.head_dropWhile_not (p := fun x => decide (x = '/')) (l := h.reverse) (by rw [hd]; simp)
    simp only [hd, List.head_cons, decide_eq_false_iff_not] at hc
    right
    cases hk : (h.reverse.takeWhile (· = '/')).length with
    | zero =>
      rw [ht, hk, hd] at hs
      rcases hh with rfl | hh
      · simp at hs
      · rw [hs] at hh; simp at hh; exact absurd hh hc
    | succ k =>
      refine ⟨(c :: l).reverse, k, by simp, by simpa using hc, ?_⟩
      rw [ht, hk, hd] at hs
      rw [← hs]

/-- The base name without its last extension. -/
theorem stem_eq (b e : Str) (he : '.' ∉ e) : join ['.'] (splitOn '.' (b ++ '.' :: e)).dropLast = b := by
  have : splitOn '.' (b ++ '.' :: e) = splitOn '.' b ++ [e] := by
    rw [splitOn_append]
    simp only [splitOn, splitOn_of_not_mem _ _ he, if_pos]
    have := List.dropLast_concat_getLast (splitOn_ne_nil '.' b)
    simp
    rw [List.getLast?_eq_some_getLast (splitOn_ne_nil '.' b), Option.getD_some, ← List.singleton_append, ← List.append_assoc, this]
  rw [this, List.dropLast_concat, join_splitOn]

theorem stem_none (b : Str) (hb : '.' ∉ b) : join ['.'] (splitOn '.' b).dropLast = [] := by
  rw [splitOn_of_not_mem _ _ hb]; rfl

theorem joinPath_root (k : Nat) (name : Str) (hn : name.head? ≠ some '/') : joinPath (List.replicate k '/') name = List.replicate k '/' ++ name := by
  unfold joinPath
  rw [if_neg hn]
  cases k <;> simp [List.replicate_succ']

theorem joinPath_dir (d name : Str) (hn : name.head? ≠ some '/') (hd : d ≠ []) (hl : d.getLast? ≠ some '/') : joinPath d name = d ++ '/' :: name := by
  unfold joinPath
  rw [if_neg hn, if_neg (by simp [hd, hl])]
  simp

theorem ufo_head {b : Str} (hb : '/' ∉ b) : (b ++ c!".ufo").head? ≠ some '/' := by
  cases b with
  | nil => decide
  | cons c b => simp at hb ⊢; exact fun h => hb.1 h.symm

theorem make_root (k : Nat) (name stem : Str) (hn : '/' ∉ name) (hs : join ['.'] (splitOn '.' name).dropLast = stem) (hst : '/' ∉ stem) :
    makeUFOPath (List.replicate k '/' ++ name) = List.replicate k '/' ++ (stem ++ c!".ufo") := by
  unfold makeUFOPath
  rw [splitPath_root _ _ hn]
  dsimp only
  rw [hs]
  have : join ['.'] [stem, c!"ufo"] = stem ++ c!".ufo" := by simp [join]
  rw [this, joinPath_root _ _ (ufo_head hst)]

theorem make_dir (d name stem : Str) (k : Nat) (hn : '/' ∉ name) (hd : d ≠ []) (hl : d.getLast? ≠ some '/') (hs : join ['.'] (splitOn '.' name).dropLast = stem) (hst : '/' ∉ stem) :
    makeUFOPath (d ++ List.replicate (k + 1) '/' ++ name) = d ++ '/' :: (stem ++ c!".ufo") := by
  unfold makeUFOPath
  rw [splitPath_dir _ _ _ hn hd hl]
  dsimp only
  rw [hs]
  have : join ['.'] [stem, c!"ufo"] = stem ++ c!".ufo" := by simp [join]
  rw [this, joinPath_dir _ _ (ufo_head hst) hd hl]

/-- The last extension of the base name is replaced by `ufo` and the directory is kept (several slashes after it become one).
Missing from the full claim: names without extension (`C65_refuted`). -/
theorem C65_extension_partial (base ext : Str) (hb : '/' ∉ base) (he : '/' ∉ ext ∧ '.' ∉ ext) :
    (∀ k, makeUFOPath (List.replicate k '/' ++ base ++ ['.'] ++ ext) = List.replicate k '/' ++ base ++ c!".ufo") ∧
    ∀ dir k, dir ≠ [] → dir.getLast? ≠ some '/' → makeUFOPath (dir ++ List.replicate (k + 1) '/' ++ base ++ ['.'] ++ ext) = dir ++ ['/'] ++ base ++ c!".ufo" := by
  have hn : '/' ∉ base ++ '.' :: ext := by simp [hb, he.1]
  refine ⟨fun k => ?_, fun dir k hd hl => ?_⟩
  · have := make_root k _ _ hn (stem_eq base ext he.2) hb
    simpa using this
  · have := make_dir dir _ _ k hn hd hl (stem_eq base ext he.2) hb
    simpa using this

example : makeUFOPath c!"fonts//a.b.ttf" = c!"fonts/a.b.ufo" ∧ makeUFOPath c!"/a.ttf" = c!"/a.ufo" := by decide +kernel

/-- Applying it twice is applying it once. -/
theorem C65_idempotent (path : Str) : makeUFOPath (makeUFOPath path) = makeUFOPath path := by
  obtain ⟨name, hn, hp⟩ := splitPath_cases path
  obtain ⟨stem, hs, hst⟩ : ∃ stem, join ['.'] (splitOn '.' name).dropLast = stem ∧ '/' ∉ stem := by
    refine ⟨_, rfl, fun h => ?_⟩
    rcases mem_join h with h | ⟨q, hq, hx⟩
    · simp at h
    · exact hn (mem_splitOn (List.dropLast_subset _ hq) hx)
  have hn' : '/' ∉ stem ++ c!".ufo" := by simp [hst]
  have hs' : join ['.'] (splitOn '.' (stem ++ c!".ufo")).dropLast = stem := stem_eq stem c!"ufo" (by decide)
  rcases hp with ⟨k, rfl⟩ | ⟨d, k, hd, hl, rfl⟩
  · rw [make_root k _ _ hn hs hst, make_root k _ _ hn' hs' hst]
  · rw [make_dir d _ _ k hn hd hl hs hst]
    have := make_dir d _ _ 0 hn' hd hl hs' hst
    simpa using this

example : makeUFOPath c!"a//b" = c!"a/.ufo" ∧ makeUFOPath c!"a/.ufo" = c!"a/.ufo" := by decide +kernel

/-- A name without extension is lost: every such path of a directory is mapped to the same path. -/
theorem C65_refuted (dir name : Str) (hd : dir ≠ [] ∧ dir.getLast? ≠ some '/') (hn : '/' ∉ name ∧ '.' ∉ name) :
    makeUFOPath (dir ++ ['/'] ++ name) = dir ++ c!"/.ufo" := by
  have := make_dir dir name [] 0 hn.1 hd.1 hd.2 (stem_none name hn.2) (by simp)
  simpa using this

example : makeUFOPath c!"fonts/Regular" = c!"fonts/.ufo" := by decide +kernel

end Verif.Props
