import Verif.Proofs.UfoOpen
/-! Every string is good enough as creator: what the writer accepts, the reader can load. -/
namespace Verif.Ufo
open Verif Verif.Xml Verif.Plist Verif.IO Verif.Spec.Plist Verif.Spec.Ufo Verif.Spec.Xml Verif.FontInfo

theorem normNl_left {a : Str} (h : '\r' ∉ a) (r : Str) : normNl false (a ++ r) = a ++ normNl false r := by
  induction a with
  | nil => rfl
  | cons c a ih =>
    simp only [List.mem_cons, not_or] at h
    have hc : c ≠ '\r' := fun e => h.1 e.symm
    by_cases hn : c = '\n'
    · subst hn
      simp [normNl, ih h.2]
    · rw [List.cons_append, normNl_cons_ne hc hn, ih h.2]
      rfl

theorem normNl_split (s r : Str) : ∀ b, normNl b (s ++ '<' :: r) = normNl b s ++ '<' :: normNl false r := by
  induction s with
  | nil => intro b; simp [normNl]
  | cons c s ih => intro b; simp only [List.cons_append, normNl, ih]; split <;> [rfl; (split <;> rfl)]

/-- The text before the creator. -/
def creatorPre : Str := c!"<?xml version=\"1.0\" encoding=\"UTF-8\"?>\n" ++ plistDoctype ++ c!"\n<plist version=\"1.0\">\n  <dict>\n    <key>creator</key>\n    <string>"

/-- The text after it (without the first `<`). -/
def creatorPost (v : Str) : Str := c!"/string>\n    <key>formatVersion</key>\n    <integer>" ++ v ++ c!"</integer>\n  </dict>\n</plist>\n"

theorem writeText_str (s : Str) : writeText (some (.str s)) = if s.all isXmlChar then .ok (escapeCdata s) else .error .valueError := by
  cases s with
  | nil => rfl
  | cons c s =>
    have : writeText (some (.str (c :: s))) = (toUnicode (.str (c :: s))).map escapeCdata := rfl
    rw [this]
    simp only [toUnicode]
    split <;> rfl

/-- The indented tree. -/
def creatorTree (s v : Str) : Elem :=
  .mk c!"plist" [(c!"version", c!"1.0")] (some (.str c!"\n  ")) (some (.str c!"\n"))
    [.mk c!"dict" [] (some (.str c!"\n    ")) (some (.str c!"\n"))
      [.mk c!"key" [] (some (.str c!"creator")) (some (.str c!"\n    ")) [],
       .mk c!"string" [] (some (.str s)) (some (.str c!"\n    ")) [],
       .mk c!"key" [] (some (.str c!"formatVersion")) (some (.str c!"\n    ")) [],
       .mk c!"integer" [] (some (.str v)) (some (.str c!"\n  ")) []]]

/-- The tree before the indentation. -/
def creatorDict (s v : Str) : Elem :=
  .mk c!"dict" [] none none
    [.mk c!"key" [] (some (.str c!"creator")) none [],
     .mk c!"string" [] (some (.str s)) none [],
     .mk c!"key" [] (some (.str c!"formatVersion")) none [],
     .mk c!"integer" [] (some (.str v)) none []]

theorem totree_creator (F : FloatCodec) {v : Int} (hv : v = 1 ∨ v = 2 ∨ v = 3) :
    ∃ d, (d = '1' ∨ d = '2' ∨ d = '3') ∧ ∀ s, totree F false true 1 (metaInfo (.str s) v) = .ok (creatorDict s [d]) := by
  rcases hv with rfl | rfl | rfl
  · exact ⟨'1', by simp, fun s => rfl⟩
  · exact ⟨'2', by simp, fun s => rfl⟩
  · exact ⟨'3', by simp, fun s => rfl⟩

theorem indent_creator (s v : Str) : indent 0 (plistElement (creatorDict s v)) = creatorTree s v := rfl

theorem serialize_creator (s : Str) (d : Char) (hd : d = '1' ∨ d = '2' ∨ d = '3') :
    serialize (creatorTree s [d]) = if s.all isXmlChar then .ok (c!"<plist version=\"1.0\">\n  <dict>\n    <key>creator</key>\n    <string>" ++ (escapeCdata s ++ '<' :: creatorPost [d])) else .error .valueError := by
  have h := writeText_str s
  unfold creatorTree
  simp only [serialize, serializeList, h]
  cases s.all isXmlChar
  · rcases hd with rfl | rfl | rfl <;> rfl
  · generalize escapeCdata s = t
    rcases hd with rfl | rfl | rfl <;>
    · show Except.ok _ = _
      simp
      rfl

theorem no_cr_escapeCdata {s : Str} (h : '\r' ∉ s) : '\r' ∉ escapeCdata s := by
  rw [escapeCdata_eq]
  intro hm
  obtain ⟨c, hc, hm⟩ := List.mem_flatMap.1 hm
  unfold escC at hm
  split at hm
  · revert hm; decide
  · split at hm
    · revert hm; decide
    · split at hm
      · revert hm; decide
      · simp only [List.mem_singleton] at hm
        subst hm
        exact h hc

/-- What the parser sees depends only on the normalised creator. -/
theorem normNl_creator (s : Str) (d : Char) (hd : d = '1' ∨ d = '2' ∨ d = '3') (P : Str) (hP : '\r' ∉ P) :
    normNl false (P ++ (escapeCdata s ++ '<' :: creatorPost [d])) = P ++ (escapeCdata (normNl false s) ++ '<' :: creatorPost [d]) := by
  have hpost : normNl false (creatorPost [d]) = creatorPost [d] := by
    refine normNl_no_cr ?_
    rcases hd with rfl | rfl | rfl <;> decide
  rw [normNl_left hP, normNl_split, hpost, escapeCdata_eq, normNl_cdata, ← escapeCdata_eq]

theorem isXmlChar_eq (c : Char) : isXmlChar c = xmlChar c := by
  rw [Bool.eq_iff_iff]
  simp only [isXmlChar, xmlChar, Bool.or_eq_true, beq_iff_eq, decide_eq_true_eq, Bool.and_eq_true]
  have e : ∀ d : Char, c = d ↔ c.toNat = d.toNat := fun d => ⟨fun h => h ▸ rfl, fun h => Char.ext (UInt32.toNat_inj.1 h)⟩
  rw [e '\t', e '\n', e '\r']
  exact Iff.rfl

theorem fileText_of {s : Str} (h : s.all isXmlChar = true) : FileText (normNl false s) := by
  have h1 : ∀ c ∈ s, xmlChar c = true := fun c hc => by rw [← isXmlChar_eq]; exact List.all_eq_true.1 h c hc
  refine ⟨fun c hc => ?_, fun hc => no_cr_normNl s false _ hc rfl⟩
  have := normNl_xmlChar s false h1 c hc
  simp only [xmlChar, Bool.or_eq_true, decide_eq_true_eq, Bool.and_eq_true] at this
  tauto

theorem loads_congr (F : FloatCodec) {s t : Str} (h : normNl false s = normNl false t) : loads F s = loads F t := by
  unfold loads parse
  rw [h]

/-- The part of the file before the creator. -/
def creatorHead : Str :=
  xmlDeclaration ++ ['\n'] ++ plistDoctype ++ ['\n'] ++ c!"<plist version=\"1.0\">\n  <dict>\n    <key>creator</key>\n    <string>"

theorem dumps_creator (F : FloatCodec) {v : Int} (hv : v = 1 ∨ v = 2 ∨ v = 3) :
    ∃ d, (d = '1' ∨ d = '2' ∨ d = '3') ∧ ∀ s, dumps F true (metaInfo (.str s) v) =
      if s.all isXmlChar then .ok (creatorHead ++ (escapeCdata s ++ '<' :: creatorPost [d])) else .error .valueError := by
  obtain ⟨d, hd, ht⟩ := totree_creator F hv
  refine ⟨d, hd, fun s => ?_⟩
  unfold dumps
  rw [ht s]
  simp only [tostring, if_true, indent_creator, serialize_creator s d hd]
  cases s.all isXmlChar
  · rfl
  · simp only [if_true, creatorHead, Bool.false_eq_true, if_false, List.nil_append, List.append_assoc]

/-- Every accepted creator string is dumped like its normalised form. -/
theorem load_creator (F : FloatCodec) (hF : F.Lawful) (s : Str) {v : Int} (hv : supported v = true) {data : Bytes}
    (h : dumpBytes F (metaInfo (.str s) v) = .ok data) :
    ∃ w, loadBytes F data = .ok w ∧ Stored (metaInfo (.str (normNl false s)) v) w := by
  have hv' : v = 1 ∨ v = 2 ∨ v = 3 := by
    simp only [supported, Bool.or_eq_true, beq_iff_eq] at hv
    tauto
  obtain ⟨d, hd, hdump⟩ := dumps_creator F hv'
  simp only [dumpBytes, hdump s] at h
  split at h
  · cases h
  · rename_i t ht
    cases h
    split at ht
    · rename_i hx
      cases ht
      have hft := fileText_of hx
      obtain ⟨data', w, h1, h2, h3⟩ := dump_ok F hF (storable_metaInfo (creator := .str (normNl false s)) ⟨.str _ hft, trivial⟩ hv)
      simp only [dumpBytes, hdump] at h1
      have hx' : (normNl false s).all isXmlChar = true :=
        List.all_eq_true.2 fun c hc => by
          rw [isXmlChar_eq]
          exact normNl_xmlChar s false (fun c hc => by rw [← isXmlChar_eq]; exact List.all_eq_true.1 hx c hc) c hc
      simp only [hx', if_true] at h1
      cases h1
      refine ⟨w, ?_, h3⟩
      simp only [loadBytes, utf8Decode_utf8] at h2 ⊢
      rw [← h2]
      refine loads_congr F ?_
      have hnn : normNl false (normNl false s) = normNl false s := normNl_no_cr (no_cr_normNl s false)
      have hh : '\r' ∉ creatorHead := by decide +kernel
      rw [normNl_creator s d hd _ hh, normNl_creator _ d hd _ hh, hnn]
    · cases ht

/-- Creators the theorems are about: every string, and every other value a property list file can hold. -/
def Creator (c : PyVal) : Prop := Storable c ∨ ∃ s, c = .str s

theorem creator_loads (F : FloatCodec) (hF : F.Lawful) {c : PyVal} (hc : Creator c) {v : Int} (hv : supported v = true) {data : Bytes}
    (h : dumpBytes F (metaInfo c v) = .ok data) : ∃ c' w, loadBytes F data = .ok w ∧ Stored (metaInfo c' v) w := by
  rcases hc with hc | ⟨s, rfl⟩
  · obtain ⟨data', w, h1, h2, h3⟩ := dump_ok F hF (storable_metaInfo hc hv)
    rw [h] at h1
    cases h1
    exact ⟨c, w, h2, h3⟩
  · obtain ⟨w, h1, h2⟩ := load_creator F hF s hv h
    exact ⟨_, w, h1, h2⟩

end Verif.Ufo
