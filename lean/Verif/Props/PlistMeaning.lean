import Verif.Proofs.PlistMeaning
import Verif.Model.PlistIO
import Verif.Spec.GlifMeaning
/-! C97: property lists of any origin are read for what they say. -/
namespace Verif.Props
open Verif Verif.Plist Verif.Spec.Validators Verif.Spec.Numerals Verif.Spec.Plist Verif.Spec.PlistMeaning

/-- C97. An element as the document type has it is read as `v` exactly if `v` is what it says. -/
theorem C97_tree (F : FloatCodec) (e : Elem) (h : Shaped e) (v : PyVal) : fromtree F e = .ok v ↔ Means F e v := fromtree_iff h

/-- C97. The same for the bytes of a file, whoever wrote it. -/
theorem C97_file (F : FloatCodec) (b : Bytes) (x : Str) (e : Elem) (hb : utf8Decode b = some x) (hx : Document x e) (h : Shaped e) (v : PyVal) :
    IO.loadBytes F b = .ok v ↔ Means F e v := by
  obtain ⟨a, text, tail, hx⟩ := hx
  simp only [IO.loadBytes, hb]
  exact loads_iff hx h

/-- C97. An element says at most one thing. -/
theorem C97_unique (F : FloatCodec) (e : Elem) (h : Shaped e) (v w : PyVal) (hv : Means F e v) (hw : Means F e w) : v = w := means_unique h hv hw

/-- C97. In the lib of a glyph. -/
theorem C97_lib (F : FloatCodec) (e p : Elem) (hp : e.children = [p]) (h : Shaped p) (v : PyVal) :
    Spec.GlifMeaning.LibSays F e v ↔ Means F p v ∧ ∃ d, v = .dict d ∧
      ∀ q ∈ d, IsString q.1 ∧ (q.1 = .str c!"public.markColor" → ∃ s, q.2 = .str s ∧ FourNumbers F (Within 0 1) s) := by
  constructor
  · rintro ⟨p', d, hp', hv, rest⟩
    rw [hp] at hp'
    cases hp'
    exact ⟨(fromtree_iff h).1 hv, d, rest⟩
  · rintro ⟨hv, d, rest⟩
    exact ⟨p, d, hp, (fromtree_iff h).2 hv, rest⟩

/-- C97. Data cut off inside a group of characters is refused, not read as something shorter. -/
theorem C97_cut (F : FloatCodec) (e : Elem) (s : Str) (he : e.tag = c!"data") (hx : TextIs e s) (h : DataText s) (hc : ∀ vs, ¬ Base64 s vs) (v : PyVal) : fromtree F e ≠ .ok v := by
  rw [ne_eq, C97_tree F e (.leaf e s (by rw [he]; decide) hx fun _ => h)]
  intro hm
  rcases means_tag hm with h | h | h | h | h | h | h | h | h
  case inr.inr.inr.inr.inr.inl =>
    obtain ⟨-, s', vs, b, hx', hb, -⟩ := h
    exact hc vs (textIs_unique hx' hx ▸ hb)
  all_goals exact absurd (he.symm.trans h.1) (by decide)

/-- Two characters and one padding character. -/
example (F : FloatCodec) (v : PyVal) : fromtree F (Elem.leaf c!"data" (some (.str c!" AP="))) ≠ .ok v := by
  refine C97_cut F _ c!" AP=" rfl ⟨rfl, .inl rfl⟩ ⟨c!"AP", 1, by decide, by decide, by decide, by decide⟩ ?_ v
  rintro vs ⟨cs, pads, hs, -, hp, hl⟩
  have := congrArg List.length hs
  rw [show (c!" AP=".filter fun c => decide (c ∉ c!" \t\n\r")).length = 3 by decide, List.length_append, List.length_replicate] at this
  omega

/-- Why the shape matters: elements the document type does not have are skipped, and an empty key may be left without a value. -/
theorem C97_lenient (F : FloatCodec) :
    fromtree F (Elem.node c!"array" [Elem.leaf c!"foo" (some (.str c!"a")), Elem.leaf c!"string" (some (.str c!"b"))]) = .ok (.list [.str c!"b"]) ∧
      fromtree F (Elem.node c!"dict" [Elem.leaf c!"key" none]) = .ok (.dict []) ∧
      (∀ v, ¬ Means F (Elem.node c!"array" [Elem.leaf c!"foo" (some (.str c!"a")), Elem.leaf c!"string" (some (.str c!"b"))]) v) ∧
      (∀ v, ¬ Means F (Elem.node c!"dict" [Elem.leaf c!"key" none]) v) := by
  refine ⟨rfl, rfl, fun v hv => ?_, fun v hv => ?_⟩
  · rcases means_tag hv with h | h | h | h | h | h | h | h | h
    case inr.inr.inr.inr.inr.inr.inr.inl =>
      obtain ⟨-, l, hl, -⟩ := h
      cases hl with
      | cons _ _ w _ hw _ =>
        rcases means_tag hw with h | h | h | h | h | h | h | h | h <;> exact absurd h.1 (by decide)
    all_goals exact absurd h.1 (by decide)
  · rcases means_tag hv with h | h | h | h | h | h | h | h | h
    case inr.inr.inr.inr.inr.inr.inr.inr =>
      obtain ⟨-, l, d, hl, -⟩ := h
      cases hl
    all_goals exact absurd h.1 (by decide)

/-- A file by hand: white space everywhere, a date without seconds, unpadded numbers, a key given twice. -/
def byHand : Str := c!"<?xml version=\"1.0\"?>\n<plist><dict>\n <key>a</key><array><integer> +007 </integer><date>2020-02-29T10:05Z</date></array>\n <key>b</key><data>\n AP \n8=</data>\n<key>a</key><string>x</string></dict>\n</plist>"

/-- A text element followed by this text. -/
def byHandLeaf (tag text : Str) (tail : Option Text) : Elem := .mk tag [] (some (.str text)) tail []

/-- The value element of that file. -/
def byHandValue : Elem := .mk c!"dict" [] (some (.str c!"\n ")) (some (.str c!"\n"))
  [byHandLeaf c!"key" c!"a" none, .mk c!"array" [] none (some (.str c!"\n ")) [byHandLeaf c!"integer" c!" +007 " none, byHandLeaf c!"date" c!"2020-02-29T10:05Z" none],
    byHandLeaf c!"key" c!"b" none, byHandLeaf c!"data" c!"\n AP \n8=" (some (.str c!"\n")), byHandLeaf c!"key" c!"a" none, byHandLeaf c!"string" c!"x" none]

/-- It is as the document type has it, and says: `a` is `x`, `b` is the bytes 0 and 255, in this order. -/
example (F : FloatCodec) : Document byHand byHandValue ∧ Shaped byHandValue ∧
    Means F byHandValue (.dict [(.str c!"a", .str c!"x"), (.str c!"b", .bytes [0, 255])]) := by
  have ht : ∀ tag text tail, TextIs (byHandLeaf tag text tail) text := fun _ _ _ => ⟨rfl, .inl rfl⟩
  have hl : ∀ tag text tail, tag ∈ [c!"integer", c!"date", c!"string"] → Shaped (byHandLeaf tag text tail) := by
    intro tag text tail h
    refine .leaf _ _ ?_ (ht tag text tail) ?_
    · simp only [byHandLeaf, Elem.tag]
      exact (show ∀ t ∈ [c!"integer", c!"date", c!"string"], t ∈ [c!"true", c!"false", c!"integer", c!"real", c!"string", c!"data", c!"date"] by decide) tag h
    · simp only [byHandLeaf, Elem.tag]
      exact fun h' => absurd h' ((show ∀ t ∈ [c!"integer", c!"date", c!"string"], t ≠ c!"data" by decide) tag h)
  have hk : ∀ text tail, (byHandLeaf c!"key" text tail).tag = c!"key" := fun _ _ => rfl
  have hd : ∃ vs, Base64 c!"\n AP \n8=" vs := ⟨[0, 15, 60], c!"AP8", 1, by decide, .cons (by decide) (.cons (by decide) (.cons (by decide) .nil)), by decide, by decide⟩
  have hS : Shaped byHandValue := by
    refine .dict _ rfl ?_
    show ShapedItems [_, _, _, _, _, _]
    refine .cons _ _ _ c!"a" (hk _ _) (ht _ _ _) (.array _ rfl ?_) ?_
    · exact .cons _ _ (hl _ _ _ (by decide)) (.cons _ _ (hl _ _ _ (by decide)) .nil)
    refine .cons _ _ _ c!"b" (hk _ _) (ht _ _ _) (.leaf _ _ ?_ (ht _ _ _) fun _ => dataText_of hd.choose_spec) ?_
    · show c!"data" ∈ _
      decide
    exact .cons _ _ _ c!"a" (hk _ _) (ht _ _ _) (hl _ _ _ (by decide)) .nil
  refine ⟨⟨[], none, none, by decide +kernel⟩, hS, ?_⟩
  refine .dict _ [(c!"a", .list [.int 7, .date ⟨2020, 2, 29, 10, 5, 0⟩]), (c!"b", .bytes [0, 255]), (c!"a", .str c!"x")] _ rfl ?_ (dictIs_iff.2 rfl)
  show MeansItems F [_, _, _, _, _, _] _
  refine .cons _ _ _ _ _ _ (hk _ _) (ht _ _ _) (.array _ _ rfl ?_) (.cons _ _ _ _ _ _ (hk _ _) (ht _ _ _) ?_ (.cons _ _ _ _ _ _ (hk _ _) (ht _ _ _) (.string _ _ rfl (ht _ _ _)) .nil))
  · exact .cons _ _ _ _ (.integer _ _ _ rfl (ht _ _ _) (pyInt_iff.1 (by decide +kernel)))
      (.cons _ _ _ _ (.date _ _ _ rfl (ht _ _ _) (dateFromString_iff.1 (by decide +kernel))) .nil)
  · obtain ⟨vs, hvs⟩ := hd
    exact .data _ _ vs _ rfl (ht _ _ _) hvs ((b64decode_iff hvs).1 (by decide +kernel))

/-- Dates: the 29th of February only in leap years. -/
example : DateSays c!"2020-02-29T10:05Zabc" ⟨2020, 2, 29, 10, 5, 0⟩ ∧ ∀ d, ¬ DateSays c!"2021-02-29Z" d :=
  ⟨dateFromString_iff.1 (by decide +kernel), fun d h => absurd (dateFromString_iff.2 h) (by
    rw [show dateFromString c!"2021-02-29Z" = .error .valueError by decide +kernel]; exact fun h => by cases h)⟩

end Verif.Props
