import Verif.Proofs.Reverse
import Verif.Proofs.GlifRewriteHead
/-! Reversed glyphs: what is read, reversed, is again as the reader delivers it. -/
namespace Verif.GlyphSet
open Verif Verif.Glif Verif.PointPens Verif.Spec.Draw Verif.Spec.Glif Verif.Spec.Validators

theorem penPoint_known {ps : List Pt} (hgc : GoodContour (ps.map fun p => fileType p.segmentType))
    (hpt : ∀ p ∈ ps, (p.segmentType = .none ∧ p.smooth = .bool false) ∨ ∃ t b, p.segmentType = .str t ∧ t ≠ c!"offcurve" ∧ p.smooth = .bool b) :
    ∀ x ∈ ps.map penPoint, ∀ s, x.seg ≠ some (.other s) := by
  intro x hx s hs
  obtain ⟨y, hy, rfl⟩ := List.mem_map.1 hx
  have h5 := penPoint_type (hpt y hy)
  rw [hs] at h5
  have h6 := hgc.types s (List.mem_map.2 ⟨y, hy, h5.symm⟩)
  have h7 : segmentTypeOf y.segmentType = some (.other s) := hs
  rcases hpt y hy with ⟨h8, -⟩ | ⟨t, b, h8, -, -⟩
  · rw [h8] at h7; cases h7
  · rw [h8] at h5 h7
    have : t = s := by
      simp only [fileType] at h5
      split at h5
      · cases h5
      · simpa [stName] using h5.symm
    subst this
    rcases h6 with rfl | rfl | rfl | rfl <;> simp [segmentTypeOf] at h7

theorem penPoint_named {ps : List Pt}
    (hpt : ∀ p ∈ ps, (p.segmentType = .none ∧ p.smooth = .bool false) ∨ ∃ t b, p.segmentType = .str t ∧ t ≠ c!"offcurve" ∧ p.smooth = .bool b) :
    (ps.map penPoint).map named = filePoints ps := by
  rw [List.map_map]
  exact List.map_congr_left fun p hp => by simp only [Function.comp, named, penPoint_type (hpt p hp)]; rfl

/-- The point a filtering pen passes on. -/
def ofPoint (q : Point PyVal PyVal) : Pt := ⟨q.pt, typeArg q.seg, .bool q.smooth, argOf q.name, q.kwargs⟩

theorem typeArg_file {t : Option ST} (h : ∀ s, t ≠ some (.other s)) : fileType (typeArg t) = t.map stName := by
  match t, h with
  | none, _ => rfl
  | some .move, _ => rfl
  | some .line, _ => rfl
  | some .curve, _ => rfl
  | some .qcurve, _ => rfl
  | some (.other s), h => exact absurd rfl (h s)

theorem ofPoint_named {R : List (Point PyVal PyVal)} (h : ∀ p ∈ R, ∀ s, p.seg ≠ some (.other s)) : filePoints (R.map ofPoint) = R.map named := by
  rw [filePoints, List.map_map]
  exact List.map_congr_left fun p hp => by simp only [Function.comp, ofPoint, typeArg_file (h p hp)]; rfl

/-- A plain point as arguments. -/
def convert (x : PyVal × Bool × Option Str × PyVal × Bool) : PyVal × PyVal × PyVal × PyVal × Bool := (x.1, .bool x.2.1, argOf x.2.2.1, x.2.2.2.1, x.2.2.2.2)

theorem argOf_strArg {v : PyVal} (h : TextOrNone v) : argOf (strArg v) = v := by
  rcases h with rfl | ⟨s, rfl, -⟩ <;> rfl

theorem untyped_penPoint {p : Pt} (h : FinePoint p) : untyped p = convert (plain (penPoint p)) := by
  have h1 : (penPoint p).seg.isNone = (fileType p.segmentType).isNone := by
    rw [← penPoint_type h.type]; simp
  have h2 : PyVal.bool (decide (p.smooth = .bool true)) = p.smooth := by
    rcases h.type with ⟨-, h⟩ | ⟨_, b, -, -, h⟩
    · rw [h]; rfl
    · rw [h]; cases b <;> rfl
  simp only [untyped, convert, plain, h1]
  simp only [penPoint, argOf_strArg h.name, h2]

theorem untyped_ofPoint {q : Point PyVal PyVal} (h : ∀ s, q.seg ≠ some (.other s)) : untyped (ofPoint q) = convert (plain q) := by
  have h1 : (fileType (typeArg q.seg)).isNone = q.seg.isNone := by rw [typeArg_file h]; simp
  simp [untyped, convert, plain, ofPoint, h1]

theorem good_single (t : Option Str) (h : ∀ u, t = some u → u = c!"move" ∨ u = c!"line" ∨ u = c!"curve" ∨ u = c!"qcurve") : GoodContour [t] := by
  have key : ∀ (a b : List (Option Str)) (c : Str), [t] = a ++ some c :: b → a = [] ∧ b = [] := by
    intro a b c he
    cases a with
    | nil => injection he with h1 h2; exact ⟨rfl, h2.symm⟩
    | cons x a => simp at he
  refine ⟨fun u hu => h u ((List.mem_singleton.1 hu).symm), fun a b he => (key a b _ he).1, fun a b c he _ s hs => ?_, fun a b he s hs => ?_⟩
  · obtain ⟨rfl, rfl⟩ := key a b _ he; simp at hs
  · obtain ⟨rfl, rfl⟩ := key a b _ he; simp at hs

theorem typeArg_fine {t : Option ST} (h : ∀ s, t ≠ some (.other s)) : (t = none ∧ typeArg t = .none) ∨ ∃ u, t.map stName = some u ∧ typeArg t = .str u ∧ u ∈ [c!"move", c!"line", c!"curve", c!"qcurve"] := by
  match t, h with
  | none, _ => exact .inl ⟨rfl, rfl⟩
  | some .move, _ => exact .inr ⟨c!"move", rfl, rfl, by simp⟩
  | some .line, _ => exact .inr ⟨c!"line", rfl, rfl, by simp⟩
  | some .curve, _ => exact .inr ⟨c!"curve", rfl, rfl, by simp⟩
  | some .qcurve, _ => exact .inr ⟨c!"qcurve", rfl, rfl, by simp⟩
  | some (.other s), h => exact absurd rfl (h s)

/-- A contour that the reader delivers, reversed. -/
theorem contour_reversed {i : PyVal} {ps : List Pt} (h : FineItem (.contour i ps)) : ∃ R, reverseContour (ps.map penPoint) = .ok R ∧
    (∀ p ∈ R, ∀ s, p.seg ≠ some (.other s)) ∧ (ps.map untyped).Perm ((R.map ofPoint).map untyped) ∧ FineItem (.contour i (R.map ofPoint)) ∧
    ReversedItem (.contour i ps) (.contour i (R.map ofPoint)) ∧ reverseContour R = .ok (ps.map penPoint) := by
  obtain ⟨hi, hgc, hpt⟩ := h
  have htype := fun p hp => (hpt p hp).type
  by_cases hps : ps = []
  · subst hps
    exact ⟨[], rfl, by simp, by simp, ⟨hi, hgc, by simp⟩, .empty i, rfl⟩
  have hk := penPoint_known hgc htype
  have hnamed := penPoint_named htype
  have htypes : (ps.map penPoint).map (fun p => p.seg.map stName) = ps.map fun p => fileType p.segmentType := by
    rw [List.map_map]
    exact List.map_congr_left fun p hp => penPoint_type (htype p hp)
  obtain ⟨-, p, -, -, hp, -, -⟩ := contour_drawn (C := PyVal) (ps.map penPoint) (by simpa using hps) (by rw [htypes]; exact hgc) hk
  obtain ⟨R, p', hR, hp', hb⟩ := reverse_path _ hk hp
  have hend : (ps.map penPoint).head?.bind (·.seg) = some .move → ∀ q, (ps.map penPoint).getLast? = some q → q.seg ≠ none := by
    intro hm q hq hn
    have h1 : (ps.map fun p => fileType p.segmentType).head? = some (some c!"move") := by
      rw [← htypes, List.head?_map]
      cases hh : (ps.map penPoint).head? with
      | none => rw [hh] at hm; cases hm
      | some x => rw [hh] at hm; simp only [Option.bind_some] at hm; simp [hm, stName]
    have h2 : (ps.map fun p => fileType p.segmentType).getLast? = some none := by
      rw [← htypes, List.getLast?_map, hq]
      simp [hn]
    generalize (ps.map fun p => fileType p.segmentType) = T at h1 h2 hgc
    cases T with
    | nil => cases h1
    | cons x T =>
      cases h1
      obtain ⟨T', y, rfl⟩ | rfl : (∃ T' y, T = T' ++ [y]) ∨ T = [] := by
        rcases List.eq_nil_or_concat T with h | ⟨a, b, h⟩
        · exact .inr h
        · exact .inl ⟨a, b, by simpa using h⟩
      · rw [show some c!"move" :: (T' ++ [y]) = (some c!"move" :: T') ++ [y] from rfl, List.getLast?_concat] at h2
        cases h2
        exact hgc.line [] (T' ++ [none]) _ rfl (.inl rfl) T' (by simp)
      · cases h2
  obtain ⟨hperm, hkR⟩ := reverse_points hR hk hend
  have hU : (ps.map untyped).Perm ((R.map ofPoint).map untyped) := by
    have h1 : ps.map untyped = ((ps.map penPoint).map plain).map convert := by
      rw [List.map_map, List.map_map]
      exact List.map_congr_left fun p hp => untyped_penPoint (hpt p hp)
    have h2 : (R.map ofPoint).map untyped = (R.map plain).map convert := by
      rw [List.map_map, List.map_map]
      exact List.map_congr_left fun p hp => untyped_ofPoint (hkR p hp)
    rw [h1, h2]
    exact hperm.map _
  have hlen : R.length = ps.length := by
    have := hU.length_eq
    simpa using this.symm
  rw [hnamed] at hp
  rw [← ofPoint_named hkR] at hp'
  have htwice : reverseContour R = .ok (ps.map penPoint) := by
    have hnm : ∀ u v, ps.map penPoint = u ++ v → u ≠ [] → ∀ x ∈ v, x.seg ≠ some .move := by
      intro u v he hu x hx hm
      obtain ⟨v1, v2, rfl⟩ := List.append_of_mem hx
      have := hgc.move ((u ++ v1).map fun p => p.seg.map stName) (v2.map fun p => p.seg.map stName) (by
        rw [← htypes, he]
        simp [hm, stName])
      simp at this
      exact hu this.1
    obtain ⟨x, xs, hx⟩ : ∃ x xs, ps.map penPoint = x :: xs := List.exists_cons_of_ne_nil (by simpa using hps)
    have hxs := hnm [x] xs (by rw [hx]; rfl) (by simp)
    rw [hx] at hR hend ⊢
    by_cases hm : x.seg = some .move
    · obtain ⟨r, h1, h2⟩ := reverse_open_twice x xs hm (by
        cases hl : (x :: xs).getLast? with
        | none => simp at hl
        | some y => exact ⟨y, hl, hend (by simp [hm]) y hl⟩)
      rw [hR] at h1
      cases h1
      exact h2
    · obtain ⟨r, h1, h2⟩ := reverse_closed_twice x xs hm hxs
      rw [hR] at h1
      cases h1
      exact h2
  refine ⟨R, hR, hkR, hU, ⟨hi, ?_, ?_⟩, .contour i _ _ p p' hU hp hp' hb, htwice⟩
  · have hsnd : ∀ l : List Pt, (filePoints l).map Prod.snd = l.map fun p => fileType p.segmentType := by intro l; simp [filePoints, Function.comp_def]
    rw [← hsnd]
    by_cases h2 : 2 ≤ R.length
    · exact good_of_small hp' (by simpa [filePoints] using h2) (small_backwards hb (small_of_good hp (by rw [hsnd]; exact hgc)))
    · obtain ⟨r, rfl⟩ : ∃ r, R = [r] := by
        match R, h2, hlen with
        | [], _, h => exact absurd (List.length_eq_zero_iff.1 h.symm) hps
        | [r], _, _ => exact ⟨r, rfl⟩
        | a :: b :: l, h, _ => simp at h
      refine good_single _ fun u hu => ?_
      have hu : fileType (ofPoint r).segmentType = some u := hu
      rcases typeArg_fine (hkR r (by simp)) with ⟨-, h⟩ | ⟨v, h1, h2, h3⟩
      · rw [show fileType (ofPoint r).segmentType = fileType (typeArg r.seg) from rfl, h] at hu; cases hu
      · rw [show fileType (ofPoint r).segmentType = fileType (typeArg r.seg) from rfl, typeArg_file (hkR r (by simp)), h1] at hu
        cases hu
        simpa using h3
  · intro q hq
    obtain ⟨r, hr, rfl⟩ := List.mem_map.1 hq
    have : untyped (ofPoint r) ∈ ps.map untyped := (hU.mem_iff).2 (List.mem_map.2 ⟨_, hq, rfl⟩)
    obtain ⟨x, hx, he⟩ := List.mem_map.1 this
    have hf := hpt x hx
    simp only [untyped, Prod.mk.injEq] at he
    obtain ⟨e1, e2, e3, e4, e5⟩ := he
    refine ⟨by rw [← e1]; exact hf.pt, ?_, by rw [← e3]; exact hf.name, by rw [← e4]; exact hf.identifier⟩
    rcases typeArg_fine (hkR r hr) with ⟨h1, h2⟩ | ⟨v, h1, h2, h3⟩
    · refine .inl ⟨h2, ?_⟩
      rw [← e2]
      rcases hf.type with ⟨-, h⟩ | ⟨t, b, h4, h5, -⟩
      · exact h
      · rw [h4] at e5
        rw [show (ofPoint r).segmentType = typeArg r.seg from rfl, h2] at e5
        simp [fileType, h5] at e5
    · refine .inr ⟨v, r.smooth, h2, ?_, rfl⟩
      rintro rfl
      simp at h3

theorem ofPoint_penPoint {R : List (Point PyVal PyVal)} (h : ∀ p ∈ R, ∀ s, p.seg ≠ some (.other s)) : (R.map ofPoint).map penPoint = R := by
  rw [List.map_map]
  conv_rhs => rw [← List.map_id R]
  refine List.map_congr_left fun p hp => ?_
  obtain ⟨pt, seg, smooth, name, kwargs⟩ := p
  have h1 : segmentTypeOf (typeArg seg) = seg := by
    match seg, h _ hp with
    | none, _ => rfl
    | some .move, _ => rfl
    | some .line, _ => rfl
    | some .curve, _ => rfl
    | some .qcurve, _ => rfl
    | some (.other s), h => exact absurd rfl (h s)
  have h2 : strArg (argOf name) = name := by cases name <;> rfl
  have h3 : decide (PyVal.bool smooth = .bool true) = smooth := by cases smooth <;> rfl
  simp only [Function.comp, ofPoint, penPoint, h1, h2, id, Point.mk.injEq, true_and, and_true]
  exact h3

/-- Reading the calls of the reader as calls on a pen loses nothing. -/
theorem item_calls {it : Item} (h : FineItem it) (hk : ∀ i ps, it = .contour i ps → ∀ x ∈ ps.map penPoint, ∀ s, x.seg ≠ some (.other s)) :
    (it.calls.map pointEvent).map pointCall = it.calls := by
  cases it with
  | component g t i => rfl
  | contour i ps =>
    obtain ⟨hi, -, hpt⟩ := h
    simp only [Item.calls, List.map_cons, List.map_append, List.cons_append, pointEvent, pointCall, argOf_strArg hi, List.map_nil, List.map_map]
    congr 2
    refine List.map_congr_left fun p hp => ?_
    have hf := hpt p hp
    have h2 : PyVal.bool (decide (p.smooth = .bool true)) = p.smooth := by
      rcases hf.type with ⟨-, h⟩ | ⟨_, b, -, -, h⟩
      · rw [h]; rfl
      · rw [h]; cases b <;> rfl
    have h1 : typeArg (segmentTypeOf p.segmentType) = p.segmentType := by
      rcases hf.type with ⟨h, -⟩ | ⟨t, _, h, -, -⟩
      · rw [h]; rfl
      · rw [h]
        simp only [segmentTypeOf]
        split
        · next e => rw [e]; rfl
        split
        · next e => rw [e]; rfl
        split
        · next e => rw [e]; rfl
        split
        · next e => rw [e]; rfl
        · rfl
    simp only [Function.comp, Pt.call, pointEvent, pointCall, h1, h2, argOf_strArg hf.name]

/-- A part of a drawing that the reader delivers, through the reversing pen. -/
theorem item_reversed {it : Item} (h : FineItem it) : ∃ evs it', runPen revStep none (it.calls.map pointEvent) = .ok (none, evs) ∧ evs.map pointCall = it'.calls ∧
    runPen revStep none (it'.calls.map pointEvent) = .ok (none, it.calls.map pointEvent) ∧ (it.calls.map pointEvent).map pointCall = it.calls ∧
    FineItem it' ∧ ReversedItem it it' ∧ (it.calls.flatMap callIdentifier).Perm (it'.calls.flatMap callIdentifier) ∧
    ∀ c ∈ it'.calls, ∀ s ∈ callStrings c, s ∈ [c!"move", c!"line", c!"curve", c!"qcurve"] ∨ ∃ c' ∈ it.calls, s ∈ callStrings c' := by
  cases it with
  | component g t i =>
    refine ⟨[.addComponent (g, t, i)], .component g t i, rfl, rfl, rfl, rfl, h, .component g t i, .refl _, fun c hc s hs => .inr ⟨c, hc, hs⟩⟩
  | contour i ps =>
    obtain ⟨R, hR, hk, hU, hf, hr, htwice⟩ := contour_reversed h
    have hcalls : ∀ ps, (Item.contour i ps).calls.map pointEvent = .beginPath (strArg i) :: ((ps.map penPoint).map .addPoint ++ [.endPath]) := by
      intro ps
      simp [Item.calls, pointEvent, Function.comp_def, Pt.call, penPoint]
    refine ⟨_, .contour i (R.map ofPoint), by rw [hcalls]; exact revPen_contour _ _ hR, ?_,
      by rw [hcalls, hcalls, ofPoint_penPoint hk]; exact revPen_contour _ _ htwice, ?_, hf, hr, ?_, ?_⟩
    · simp only [List.map_cons, List.map_append, List.map_map, Item.calls, pointCall, argOf_strArg h.1]
      simp [Function.comp_def, pointCall, Pt.call, ofPoint]
    · exact item_calls h fun i' ps' e => by
        cases e
        exact penPoint_known h.2.1 fun p hp => (h.2.2 p hp).type
    · have key : ∀ l : List Pt, (Item.contour i l).calls.flatMap callIdentifier = argument i ++ (l.map untyped).flatMap fun u => argument u.2.2.2.1 := by
        intro l
        simp [Item.calls, callIdentifier, List.flatMap_map, Pt.call, untyped]
      rw [key, key]
      exact (List.Perm.refl _).append (hU.flatMap_right _)
    · intro c hc s hs
      simp only [Item.calls, List.cons_append, List.mem_cons, List.mem_append, List.mem_map, List.not_mem_nil, or_false] at hc
      rcases hc with rfl | ⟨q, ⟨r, hr, rfl⟩, rfl⟩ | rfl
      · exact .inr ⟨.beginPath i, by simp [Item.calls], hs⟩
      · have : untyped (ofPoint r) ∈ ps.map untyped := (hU.mem_iff).2 (List.mem_map.2 ⟨_, List.mem_map.2 ⟨r, hr, rfl⟩, rfl⟩)
        obtain ⟨x, hx, he⟩ := List.mem_map.1 this
        simp only [untyped, Prod.mk.injEq] at he
        obtain ⟨e1, e2, e3, e4, -⟩ := he
        rw [Pt.call, callStrings, ← e1, ← e2, ← e3, ← e4] at hs
        have hx' : x.call ∈ (Item.contour i ps).calls := by
          simp only [Item.calls, List.cons_append, List.mem_cons, List.mem_append, List.mem_map]
          exact .inr (.inl ⟨x, hx, rfl⟩)
        have hin : s ∈ strings (ofPoint r).segmentType ∨ s ∈ callStrings x.call := by
          rw [Pt.call, callStrings]
          simp only [List.mem_append] at hs ⊢
          tauto
        rcases hin with hin | hin
        · rcases typeArg_fine (hk r hr) with ⟨-, h2⟩ | ⟨v, -, h2, h3⟩
          · rw [show (ofPoint r).segmentType = typeArg r.seg from rfl, h2] at hin
            simp [strings] at hin
          · rw [show (ofPoint r).segmentType = typeArg r.seg from rfl, h2] at hin
            simp only [strings, List.mem_singleton] at hin
            rw [hin]
            exact .inl h3
        · exact .inr ⟨_, hx', hin⟩
      · simp [callStrings] at hs

theorem drawing_reversed : ∀ (d : List Item), (∀ it ∈ d, FineItem it) → ∃ evs d', runPen revStep none ((drawing d).map pointEvent) = .ok (none, evs) ∧ evs.map pointCall = drawing d' ∧
    runPen revStep none ((drawing d').map pointEvent) = .ok (none, (drawing d).map pointEvent) ∧ ((drawing d).map pointEvent).map pointCall = drawing d ∧
    (∀ it ∈ d', FineItem it) ∧ List.Forall₂ ReversedItem d d' ∧ ((drawing d).flatMap callIdentifier).Perm ((drawing d').flatMap callIdentifier) ∧
    ∀ c ∈ drawing d', ∀ s ∈ callStrings c, s ∈ [c!"move", c!"line", c!"curve", c!"qcurve"] ∨ ∃ c' ∈ drawing d, s ∈ callStrings c'
  | [], _ => ⟨[], [], rfl, rfl, rfl, rfl, by simp, .nil, .refl _, by simp [drawing]⟩
  | it :: d, h => by
    obtain ⟨e1, it', h1, h2, g1, g2, h3, h4, h5, h6⟩ := item_reversed (h it (by simp))
    obtain ⟨e2, d', k1, k2, j1, j2, k3, k4, k5, k6⟩ := drawing_reversed d fun x hx => h x (List.mem_cons_of_mem _ hx)
    refine ⟨e1 ++ e2, it' :: d', ?_, ?_, ?_, ?_, ?_, .cons h4 k4, ?_, ?_⟩
    · rw [drawing, List.flatMap_cons, List.map_append, runPen_append _ _ _ _ _ _ h1]
      rw [drawing] at k1
      rw [k1]
    · rw [List.map_append, h2, k2, drawing, drawing, List.flatMap_cons]
    · rw [drawing, List.flatMap_cons, List.map_append, runPen_append _ _ _ _ _ _ g1]
      rw [drawing] at j1
      rw [j1]
      simp [drawing]
    · rw [drawing, List.flatMap_cons, List.map_append, List.map_append, g2]
      rw [drawing] at j2
      rw [j2]
    · intro x hx
      rcases List.mem_cons.1 hx with rfl | hx
      · exact h3
      · exact k3 x hx
    · simp only [drawing, List.flatMap_cons, List.flatMap_append] at k5 ⊢
      exact h5.append k5
    · intro c hc s hs
      rw [drawing, List.flatMap_cons] at hc ⊢
      rcases List.mem_append.1 hc with hc | hc
      · rcases h6 c hc s hs with h | ⟨c', h, h'⟩
        · exact .inl h
        · exact .inr ⟨c', List.mem_append_left _ h, h'⟩
      · rcases k6 c hc s hs with h | ⟨c', h, h'⟩
        · exact .inl h
        · exact .inr ⟨c', List.mem_append_right _ h, h'⟩

/-- A glyph that was read is, reversed, again as the reader delivers it. -/
theorem glyph_reversed {F : FloatCodec} {attrs : Dict Str PyVal} {calls : List Call} (h : FineGlyph F attrs calls) : ∃ d d', calls = drawing d ∧
    reversedCalls calls = .ok (drawing d') ∧ reversedCalls (drawing d') = .ok calls ∧ List.Forall₂ ReversedItem d d' ∧ FineGlyph F attrs (drawing d') ∧ (Spec.Glif.Clean attrs calls → Spec.Glif.Clean attrs (drawing d')) := by
  obtain ⟨d, rfl, hd⟩ := h.drawn
  obtain ⟨evs, d', h1, h2, g1, g2, h3, h4, h5, h6⟩ := drawing_reversed d hd
  refine ⟨d, d', rfl, by rw [reversedCalls, h1]; simp [h2], by rw [reversedCalls, g1]; simp only [g2], h4, ?_, fun hc => ?_⟩
  · obtain ⟨k0, k1, k2, k3, k4, k5, k6, k7, k8, k9, -, k11⟩ := h
    refine ⟨k0, k1, k2, k3, k4, k5, k6, k7, k8, k9, ⟨d', rfl, h3⟩, ?_⟩
    have hp := (List.Perm.refl (identifiers (listItems (delivered attrs c!"guidelines")) ++ identifiers (listItems (delivered attrs c!"anchors")))).append h5
    refine ⟨?_, fun i hi => k11.legal i ((hp.mem_iff).2 hi)⟩
    rw [List.nil_append]
    exact (hp.nodup_iff).1 (by simpa using k11.nodup)
  · obtain ⟨k1, k2, k3, k4⟩ := hc
    refine ⟨k1, fun c hc s hs => ?_, k3, k4⟩
    rcases h6 c hc s hs with h | ⟨c', h, h'⟩
    · simp only [List.mem_cons, List.not_mem_nil, or_false] at h
      rcases h with rfl | rfl | rfl | rfl <;> decide
    · exact k2 c' h s h'

end Verif.GlyphSet
