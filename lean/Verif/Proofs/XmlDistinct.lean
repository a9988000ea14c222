import Verif.Spec.Xml
/-! Parsed elements have pairwise different attributes. -/
namespace Verif.Spec.Xml
open Verif

theorem parseAttrs_distinct : ∀ {n : Nat} {s rest : Str} {l : List (Str × Str)} {b : Bool}, parseAttrs n s = some (l, b, rest) → (l.map Prod.fst).Nodup := by
  intro n
  induction n with
  | zero => intro s rest l b h; cases h
  | succ n ih =>
    intro s rest l b h
    rw [parseAttrs] at h
    split at h
    · cases h
    split at h
    · cases h; exact .nil
    split at h
    · split at h
      · cases h; exact .nil
      · cases h
    split at h
    · cases h
    simp only at h
    split at h
    · cases h
    split at h
    · cases h
    split at h
    · cases h
    split at h
    · cases h
    split at h
    · split at h
      · next l' b' rest' h' =>
        split at h
        · cases h
        next hn =>
        cases h
        exact List.nodup_cons.2 ⟨hn, ih h'⟩
      · cases h
    · cases h

/-- The element and its children have pairwise different attributes. -/
def Distinct (e : Elem) : Prop := (Dict.keys e.attrib).Nodup ∧ ∀ c ∈ e.children, (Dict.keys c.attrib).Nodup

theorem parse_distinct_aux : ∀ (n : Nat), (∀ {s rest : Str} {e : Elem}, parseElem n s = some (e, rest) → Distinct e) ∧
    (∀ {name s rest : Str} {t : Option Text} {es : List Elem}, parseContent n name s = some (t, es, rest) → ∀ c ∈ es, (Dict.keys c.attrib).Nodup) := by
  intro n
  induction n with
  | zero => exact ⟨fun h => by simp [parseElem] at h, fun h => by simp [parseContent] at h⟩
  | succ n ih =>
    constructor
    · intro s rest e h
      unfold parseElem at h
      split at h
      · cases h
      split at h
      · cases h
      split at h
      · cases h
      split at h
      · cases h
      · next h1 => cases h; exact ⟨parseAttrs_distinct h1, nofun⟩
      · next h1 =>
        split at h
        · cases h
        next h2 =>
        cases h
        exact ⟨parseAttrs_distinct h1, ih.2 h2⟩
    · intro name s rest t es h
      unfold parseContent at h
      split at h
      · cases h
      split at h
      · simp only at h
        split at h
        · cases h
        split at h
        · cases h
        split at h
        · cases h; nofun
        · cases h
      split at h
      · split at h
        · cases h
        split at h
        · cases h
        next h2 =>
        cases h
        exact ih.2 h2
      · split at h
        · cases h
        next e' rest' h1 =>
        split at h
        · cases h
        next h2 =>
        cases h
        intro c hc
        rcases List.mem_cons.1 hc with rfl | hc
        · have := (ih.1 h1).1
          cases e'
          exact this
        · exact ih.2 h2 c hc

theorem parse_distinct {s : Str} {e : Elem} (h : parse s = some e) : Distinct e := by
  unfold parse at h
  simp only [Option.bind_eq_some_iff] at h
  obtain ⟨_, -, _, -, _, -, s', -, h⟩ := h
  unfold parseRoot at h
  split at h
  · cases h
  next h1 =>
  split at h
  · cases h; exact (parse_distinct_aux _).1 h1
  · cases h

end Verif.Spec.Xml
