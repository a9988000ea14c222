import Verif.Proofs.PointPens
/-! Properties C17-C21: the point pens. -/
namespace Verif.Props
open Verif Verif.PointPens Verif.Spec.PointPens

variable {P K C : Type}

/-! ## C17, C18: reversing -/

/-- **C17.** Drawing a closed contour through the reversing pen draws one contour with the same identifier, which is the
reversed contour (`IsReversed`: output `-N` is input `N`, nothing but segment types changes, types move to the next
on-curve point). -/
theorem C17_reversed (i : Option Str) (p : Point P K) (ps : List (Point P K)) (h : p.seg ≠ some .move) :
    ∃ r, IsReversed (p :: ps) r ∧
      runPen (revStep (C := C)) none (Item.events (.contour i (p :: ps))) = .ok (none, Item.events (.contour i r)) := by
  obtain ⟨r, h1, h2⟩ := reverseContour_isReversed p ps h
  exact ⟨r, h2, runRev_contour i _ r h1⟩

/-- **C17.** The first point stays first, with everything but its type. -/
theorem C17_first (l r : List (Point P K)) (p : Point P K) (hp : l.head? = some p) (h : IsReversed l r) :
    ∃ q, r.head? = some q ∧ SameButType p q := by
  have h0 : l[0]? = some p := by rw [← List.head?_eq_getElem?]; exact hp
  obtain ⟨q, h1, h2, -⟩ := h.points 0 p h0
  rw [Nat.sub_zero, Nat.mod_self] at h1
  exact ⟨q, by rw [List.head?_eq_getElem?]; exact h1, h2⟩

/-- **C17.** Twice is the identity on closed contours (which contain no move point). -/
theorem C17_involution (i : Option Str) (l : List (Point P K)) (hl : ∀ p ∈ l, p.seg ≠ some .move) :
    ∃ mid, runPen (revStep (C := C)) none (Item.events (.contour i l)) = .ok (none, mid) ∧
      runPen (revStep (C := C)) none mid = .ok (none, Item.events (.contour i l)) := by
  cases l with
  | nil => exact ⟨_, runRev_contour i [] [] rfl, runRev_contour i [] [] rfl⟩
  | cons p ps =>
    obtain ⟨r, h1, h2⟩ := reverse_closed_twice p ps (hl p (by simp)) (fun q hq => hl q (List.mem_cons_of_mem _ hq))
    exact ⟨_, runRev_contour i _ r h1, runRev_contour i r _ h2⟩

/-- **C17/C18, whole glyphs.** On any drawing (a list of contours and components) the pen never raises, keeps the order of the
items, passes components on unchanged and reverses each contour by itself. -/
theorem C17_drawing (d : List (Item P K C)) :
    ∃ d', runPen revStep none (events d) = .ok (none, events d') ∧
      List.Forall₂ (fun a b => match a, b with
        | .contour i l, .contour i' l' => i = i' ∧ reverseContour l = .ok l'
        | .component c, .component c' => c = c'
        | _, _ => False) d d' := by
  induction d with
  | nil => exact ⟨[], rfl, .nil⟩
  | cons x d ih =>
    obtain ⟨d', h1, h2⟩ := ih
    cases x with
    | contour i l =>
      obtain ⟨r, hr⟩ := reverseContour_total l
      refine ⟨.contour i r :: d', ?_, .cons ⟨rfl, hr⟩ h2⟩
      simp only [events, List.flatMap_cons] at h1 ⊢
      rw [runPen_append _ _ _ _ _ _ (runRev_contour i l r hr), h1]
    | component c =>
      refine ⟨.component c :: d', ?_, .cons rfl h2⟩
      simp only [events, List.flatMap_cons] at h1 ⊢
      rw [runPen_append _ none none _ _ [.addComponent c] (by simp [Item.events, runPen, revStep]), h1]
      rfl

/-- A closed contour used in the examples: line, two off-curve points, curve, line. -/
def sample : List (Point (Int × Int) Unit) :=
  [⟨(0, 0), some .line, false, some c!"a", ()⟩, ⟨(1, 0), none, false, none, ()⟩, ⟨(2, 1), none, false, none, ()⟩,
   ⟨(2, 2), some .curve, true, none, ()⟩, ⟨(0, 2), some .line, false, none, ()⟩]

example : (reverseContour sample).toOption.map bare =
    some [((0, 0), some .curve), ((0, 2), some .line), ((2, 2), some .line), ((2, 1), none), ((1, 0), none)] := by
  decide +kernel

/-- **C18.** An open contour (first point a move) is drawn as an open contour: the points up to the last on-curve one, in
opposite order, the first a move, nothing else changed but types. -/
theorem C18_open (i : Option Str) (p : Point P K) (ps : List (Point P K)) (h : p.seg = some .move) :
    ∃ r, runPen (revStep (C := C)) none (Item.events (.contour i (p :: ps))) = .ok (none, Item.events (.contour i r)) ∧
      (∃ q, r.head? = some q ∧ q.seg = some .move) ∧
      List.Forall₂ SameButType (upToLastOn (p :: ps)).reverse r := by
  refine ⟨_, runRev_contour i _ _ (reverseContour_open p ps h), ?_, ?_⟩
  · have hne : onTypes ((p :: ps).reverse.dropWhile fun p => p.seg.isNone) ≠ [] := by
      have h1 : onTypes (p :: ps).reverse ≠ [] := by rw [onTypes_reverse]; simp [onTypes, List.filterMap_cons_some h]
      intro h2
      apply h1
      rw [← List.takeWhile_append_dropWhile (p := fun p : Point P K => p.seg.isNone) (l := (p :: ps).reverse), onTypes_append, h2,
        List.append_nil, onTypes, List.filterMap_eq_nil_iff]
      intro q hq
      have := List.all_takeWhile (p := fun p : Point P K => p.seg.isNone) (l := (p :: ps).reverse)
      rw [List.all_eq_true] at this
      simpa using this q hq
    rcases hd : (p :: ps).reverse.dropWhile (fun p => p.seg.isNone) with _ | ⟨x, xs⟩
    · rw [hd] at hne; simp [onTypes] at hne
    · have hx : x.seg ≠ none := by
        have := List.head_dropWhile_not (fun p : Point P K => p.seg.isNone) (w := by rw [hd]; simp) (l := (p :: ps).reverse)
        simp only [hd, List.head_cons] at this
        intro hn; simp [hn] at this
      obtain ⟨q, h1, -, h3⟩ := head?_shape (o := some .move) (show (x :: xs).head? = some x from rfl)
      rw [hd]
      exact ⟨q, h1, by rw [h3 hx]⟩
  · rw [upToLastOn, List.reverse_reverse]
    generalize List.dropWhile (fun p : Point P K => p.seg.isNone) (p :: ps).reverse = l
    generalize ST.move = t
    induction l generalizing t with
    | nil => exact .nil
    | cons x l ih =>
      unfold retype
      rcases hx : x.seg with _ | t'
      · exact .cons ⟨rfl, rfl, rfl, rfl, Iff.rfl⟩ (ih t)
      · exact .cons ⟨rfl, rfl, rfl, rfl, by simp [hx]⟩ (ih t')

/-- **C18.** Twice is the identity on open contours without trailing off-curve points. -/
theorem C18_involution (i : Option Str) (p : Point P K) (ps : List (Point P K)) (h : p.seg = some .move) (he : EndsOn (p :: ps)) :
    ∃ mid, runPen (revStep (C := C)) none (Item.events (.contour i (p :: ps))) = .ok (none, mid) ∧
      runPen (revStep (C := C)) none mid = .ok (none, Item.events (.contour i (p :: ps))) := by
  obtain ⟨r, h1, h2⟩ := reverse_open_twice p ps h he
  exact ⟨_, runRev_contour i _ r h1, runRev_contour i r _ h2⟩

/-- An open contour: move, two off-curve points, curve, line. -/
def sampleOpen : List (Point (Int × Int) Unit) :=
  [⟨(0, 0), some .move, false, some c!"a", ()⟩, ⟨(1, 0), none, false, none, ()⟩, ⟨(2, 1), none, false, none, ()⟩,
   ⟨(2, 2), some .curve, true, none, ()⟩, ⟨(0, 2), some .line, false, none, ()⟩]

example : EndsOn sampleOpen := ⟨⟨(0, 2), some .line, false, none, ()⟩, rfl, by simp⟩
example : (reverseContour sampleOpen).toOption.map bare =
    some [((0, 2), some .move), ((2, 2), some .line), ((2, 1), none), ((1, 0), none), ((0, 0), some .curve)] := by
  decide +kernel

/-! ## C19: segments -/

theorem item_eq (p : Point P K) : p.item = inSegment p := rfl

theorem getLast?_map_item (l : List (Point P K)) (h : ∀ p ∈ l.getLast?, p.seg ≠ none) :
    ∀ x ∈ (l.map Point.item).getLast?, x.2 ≠ none := by
  intro x hx
  rw [List.getLast?_map] at hx
  rcases hl : l.getLast? with _ | p
  · rw [hl] at hx; cases hx
  · rw [hl] at hx
    simp only [Option.map_some, Option.mem_def, Option.some.injEq] at hx
    subst hx
    exact h p hl

/-- **C19, closed contours with an on-curve point.** The segments, read point by point with each segment's type on its
last point, are the contour rotated so that it ends with the first on-curve point `q`; no segment is empty. -/
theorem C19_closed (pre post : List (Point P K)) (q : Point P K) (hq : q.seg ≠ none) (hpre : ∀ p ∈ pre, p.seg = none)
    (hm : ∀ p ∈ (pre ++ q :: post).head?, p.seg ≠ some .move) (h2 : 2 ≤ (pre ++ q :: post).length) :
    ∃ segs, segmentsOf (pre ++ q :: post) = some segs ∧ (∀ s ∈ segs, s.2 ≠ []) ∧
      segs.flatMap labelled = (post ++ pre ++ [q]).map inSegment := by
  refine ⟨_, segmentsOf_closed pre post q hq hpre hm h2, ?_⟩
  obtain ⟨h1, h2⟩ := group_labelled [] ((post ++ pre ++ [q]).map Point.item)
    (getLast?_map_item _ (by simp [hq])) (by simp)
  exact ⟨h2, by rw [h1]; rfl⟩

/-- **C19, open contours.** The segments are the points up to the last on-curve point, in order, starting with a move
segment; off-curve points after the last on-curve point are dropped. -/
theorem C19_open (p : Point P K) (ps : List (Point P K)) (h : p.seg = some .move) :
    ∃ segs, segmentsOf (p :: ps) = some segs ∧ (∀ s ∈ segs, s.2 ≠ []) ∧
      segs.flatMap labelled = (upToLastOn (p :: ps)).map inSegment := by
  obtain ⟨m, hm, hoff⟩ := upToLastOn_append (p :: ps)
  have hlast := getLast?_upToLastOn (p :: ps)
  set u := upToLastOn (p :: ps) with hu
  have hu' : ∃ us, u = p :: us ∧ ps = us ++ m := by
    cases hu1 : u with
    | nil =>
      rw [hu1] at hm
      have : p ∈ m := by rw [← show p :: ps = m by simpa using hm]; simp
      have := hoff p this
      rw [h] at this; cases this
    | cons x us =>
      rw [hu1] at hm
      simp only [List.cons_append, List.cons.injEq] at hm
      exact ⟨us, by rw [hm.1], hm.2⟩
  obtain ⟨us, hus, hps⟩ := hu'
  have hseg : segmentsOf (p :: ps) = some ((.move, [some p.toSeg]) :: group [] (us.map Point.item)) := by
    rw [segmentsOf_open p ps h, hps, List.map_append, group_trailing]
    intro y hy
    obtain ⟨z, hz, rfl⟩ := List.mem_map.1 hy
    exact hoff z hz
  refine ⟨_, hseg, ?_⟩
  rw [hus]
  have hlab : labelled (ST.move, [some p.toSeg]) = [inSegment p] := by simp [labelled, inSegment, h, Point.toSeg]
  cases hue : us with
  | nil => simp [group, hlab]
  | cons x xs =>
    have hlast' : ∀ y ∈ (x :: xs).getLast?, y.seg ≠ none := by
      intro y hy; apply hlast; rw [hus, hue, List.getLast?_cons_cons]; exact hy
    obtain ⟨h1, h2⟩ := group_labelled [] ((x :: xs).map Point.item) (getLast?_map_item _ hlast') (by simp)
    refine ⟨?_, ?_⟩
    · intro s hs
      rcases List.mem_cons.1 hs with rfl | hs
      · simp
      · exact h2 s hs
    · rw [List.flatMap_cons, hlab, h1]; rfl

/-- **C19, no on-curve point.** All points in order, then the implied `None` point, in one qcurve segment. -/
theorem C19_offcurve (l : List (Point P K)) (h : ∀ p ∈ l, p.seg = none) (h2 : 2 ≤ l.length) :
    ∃ segs, segmentsOf l = some segs ∧ (∀ s ∈ segs, s.2 ≠ []) ∧ segs.map Prod.fst = [.qcurve] ∧
      segs.flatMap labelled = l.map inSegment ++ [(none, some .qcurve)] := by
  refine ⟨_, segmentsOf_off l h h2, by simp, rfl, ?_⟩
  simp only [List.flatMap_cons, List.flatMap_nil, List.append_nil, labelled, List.dropLast_concat, List.getLast?_concat, List.map_map]
  congr 1
  apply List.map_congr_left
  intro p hp
  simp [inSegment, Point.toSeg, h p hp]

/-- **C19, a move segment appears only first** (contours with at least two points and no move point but possibly the first). -/
theorem C19_move_first (p : Point P K) (ps : List (Point P K)) (hps : ps ≠ []) (h : ∀ q ∈ ps, q.seg ≠ some .move)
    (segs : List (Segment P K)) (hs : segmentsOf (p :: ps) = some segs) :
    (∀ s ∈ segs.drop 1, s.1 ≠ .move) ∧ ((∃ s ∈ segs, s.1 = .move) ↔ p.seg = some .move) := by
  obtain ⟨x, xs, rfl⟩ := List.exists_cons_of_ne_nil hps
  have key : ∀ (l : List (Option (SegPoint P K) × Option ST)), (∀ y ∈ l, y.2 ≠ some .move) → ∀ s ∈ group [] l, s.1 ≠ .move := by
    intro l hl s hs' hmv
    have : ST.move ∈ (group [] l).map Prod.fst := hmv ▸ List.mem_map_of_mem hs'
    rw [group_types, List.mem_filterMap] at this
    obtain ⟨y, hy, hy2⟩ := this
    exact hl y hy hy2
  rw [segmentsOf_cons_cons] at hs
  · by_cases hp : p.seg = some .move
    · rw [if_pos hp] at hs
      injection hs with hs
      subst hs
      refine ⟨?_, ⟨fun _ => hp, fun _ => ⟨_, List.mem_cons_self, rfl⟩⟩⟩
      rw [List.drop_succ_cons, List.drop_zero]
      apply key
      intro y hy
      obtain ⟨z, hz, rfl⟩ := List.mem_map.1 hy
      exact h z hz
    · rw [if_neg hp] at hs
      have hall : ∀ z ∈ p :: x :: xs, z.seg ≠ some .move := by
        intro z hz
        rcases List.mem_cons.1 hz with rfl | hz
        · exact hp
        · exact h z hz
      have hno : ∀ s ∈ segs, s.1 ≠ .move := by
        split at hs
        · injection hs with hs
          subst hs
          apply key
          intro y hy
          rcases List.mem_append.1 hy with hy | hy
          · obtain ⟨z, hz, rfl⟩ := List.mem_map.1 hy
            exact hall z hz
          · simp only [List.mem_singleton] at hy; rw [hy]; simp
        · injection hs with hs
          subst hs
          apply key
          intro y hy
          obtain ⟨z, hz, rfl⟩ := List.mem_map.1 hy
          rcases List.mem_append.1 hz with hz | hz
          · exact hall z (List.mem_of_mem_drop hz)
          · exact hall z (List.mem_of_mem_take hz)
      exact ⟨fun s hs => hno s (List.mem_of_mem_drop hs), ⟨fun ⟨s, h1, h2⟩ => absurd h2 (hno s h1), fun h' => absurd h' hp⟩⟩

/-- **C19, short contours.** No points: nothing. One point: a single move segment, whatever its type. -/
theorem C19_short (p : Point P K) :
    segmentsOf ([] : List (Point P K)) = none ∧
    ∃ segs, segmentsOf [p] = some segs ∧ segs.map Prod.fst = [.move] ∧ segs.flatMap Prod.snd = [(inSegment p).1] :=
  ⟨rfl, _, rfl, rfl, rfl⟩

example : (segmentsOf sample).map (·.map fun s => (s.1, s.2.map coord)) =
    some [(.curve, [some (1, 0), some (2, 1), some (2, 2)]), (.line, [some (0, 2)]), (.line, [some (0, 0)])] := by decide +kernel
example : ∀ p ∈ (sample.drop 1).head?, p.seg ≠ some .move := by decide +kernel

/-! ## C20: to segments and back -/

/-- A contour through `PointToSegmentPen` into `SegmentToPointPen`: the contours that come out. -/
def throughSegments [DecidableEq P] (implied : Bool) (l : List (Point P K)) :
    Except Exc (Option (List (CPoint P)) × List (List (CPoint P) ⊕ Unit)) :=
  match toSegments (C := Unit) implied l with
  | .error e => .error e
  | .ok evs => runPen segStep none evs

theorem bare_append (l m : List (Point P K)) : bare (l ++ m) = bare l ++ bare m := by simp [bare]

/-- **C20 (partial), closed contours.** A closed contour with at least two points whose first on-curve point is `q`, with
drawable types and no off-curve point before a line, comes back as the contour starting at `q`, provided the
closing line is output explicitly, or the contour does not end with a line, or the point before `q` has another
position. Missing: the remaining case is false (`C20_closing_refuted`). -/
theorem C20_closed_partial [DecidableEq P] (implied : Bool) (pre post : List (Point P K)) (q : Point P K)
    (hq : q.seg ≠ none) (hpre : ∀ p ∈ pre, p.seg = none) (h2 : 2 ≤ (pre ++ q :: post).length)
    (ht : DrawableTypes (pre ++ q :: post))
    (hl : LinesAlone ((pre ++ q :: post) ++ (pre ++ q :: post).take 1))
    (hc : implied = true ∨ q.seg ≠ some .line ∨ ∀ p ∈ (post ++ pre).getLast?, p.pt ≠ q.pt) :
    throughSegments implied (pre ++ q :: post) = .ok (none, [.inl (bare (q :: (post ++ pre)))]) := by
  have hm : ∀ p ∈ (pre ++ q :: post).head?, p.seg ≠ some .move := by
    intro p hp
    have := ht p (List.mem_of_mem_head? hp)
    rintro h'; rw [h'] at this; simp at this
  obtain ⟨segs, hsegs, hne, hlab⟩ := C19_closed pre post q hq hpre hm h2
  have hgroup : segs = group [] ((post ++ pre ++ [q]).map Point.item) := by
    rw [segmentsOf_closed pre post q hq hpre hm h2] at hsegs
    exact (Option.some.inj hsegs).symm
  -- all segments can be drawn
  have hchain : LinesAlone (post ++ pre ++ [q]) := by
    unfold LinesAlone at hl ⊢
    have hl0 := hl
    rw [List.append_assoc, List.isChain_append] at hl
    obtain ⟨hc1, hc2, -⟩ := hl
    cases pre with
    | nil =>
      simp only [List.nil_append, List.append_nil, List.take_succ_cons, List.take_zero, List.cons_append] at hc2 ⊢
      exact hc2.tail
    | cons a as =>
      have hfull : List.IsChain (fun a b : Point P K => b.seg = some .line → a.seg ≠ none) ((a :: as) ++ q :: (post ++ [a])) := by
        simpa using hl0
      have e : (a :: as) ++ q :: (post ++ [a]) = ((a :: as) ++ [q]) ++ (post ++ [a]) := by simp
      have hA : List.IsChain (fun a b : Point P K => b.seg = some .line → a.seg ≠ none) ((a :: as) ++ [q]) := by
        rw [e, List.isChain_append] at hfull; exact hfull.1
      have hB : List.IsChain (fun a b : Point P K => b.seg = some .line → a.seg ≠ none) (post ++ [a]) := by
        rw [e, List.isChain_append] at hfull; exact hfull.2.1
      rw [List.append_assoc, List.isChain_append]
      refine ⟨(List.isChain_append.1 hB).1, hA, ?_⟩
      intro x hx y hy
      simp only [List.cons_append, List.head?_cons, Option.mem_def, Option.some.injEq] at hy
      subst hy
      exact (List.isChain_append.1 hB).2.2 x hx a (by simp)
  have hgood : ∀ s ∈ segs, GoodSeg s := by
    rw [hgroup]
    refine group_good _ [] (by simp) hchain (by simp) ?_
    intro p hp
    refine ht p ?_
    simp only [List.mem_append, List.mem_cons] at hp ⊢
    tauto
  have hcoords : segs.flatMap segCoords = bare (post ++ pre) ++ [(q.pt, q.seg)] := by
    rw [flatMap_segCoords, hlab]
    rw [show (post ++ pre ++ [q]).map inSegment = (post ++ pre ++ [q]).map Point.item from rfl, filterMap_items, bare_append]
    rfl
  have hsne : segs ≠ [] := by rintro rfl; simp at hlab
  obtain ⟨init, ⟨t, ps⟩, hsplit⟩ : ∃ init s, segs = init ++ [s] := by
    rcases List.eq_nil_or_concat segs with h' | ⟨i, s, h'⟩
    · exact absurd h' hsne
    · exact ⟨i, s, by rw [h', List.concat_eq_append]⟩
  have hlastg := hgood (t, ps) (by rw [hsplit]; simp)
  obtain ⟨pi, pl, hps, -⟩ := good_split hlastg
  simp only at hps
  subst hps
  -- the last segment ends at q
  have hend : some pl = (inSegment q).1 ∧ some t = q.seg := by
    have := congrArg List.getLast? hlab
    rw [hsplit, List.flatMap_append] at this
    simp only [List.flatMap_cons, List.flatMap_nil, List.append_nil, labelled, List.getLast?_concat, Option.toList_some, List.map_cons,
      List.map_nil, List.map_append] at this
    rw [← List.append_assoc, List.getLast?_concat] at this
    simp only [Option.some.injEq] at this
    have h1 := congrArg Prod.fst this
    have h2 := congrArg Prod.snd this
    exact ⟨h1, h2⟩
  have hplq : pl.pt = q.pt := by
    have := hend.1; simp only [inSegment, Option.some.injEq] at this; rw [this]
  have hfirst : ∀ s ∈ segs.head?, s.1 ≠ .move := by
    intro s hs
    have := (hgood s (List.mem_of_mem_head? hs)).2.2.1
    rintro h'; rw [h'] at this; simp at this
  have hflush : ∀ evs, segmentCalls (C := Unit) true implied segs = .ok evs →
      flushSegments implied segs = .ok (.moveTo q.pt :: (evs ++ [.closePath])) := by
    intro evs hevs
    cases hsg : segs with
    | nil => exact absurd hsg hsne
    | cons s rest =>
      obtain ⟨t0, ps0⟩ := s
      have h0 : t0 ≠ .move := hfirst (t0, ps0) (by rw [hsg]; rfl)
      have hgl : ((segs.getLast?.bind fun s => s.2.getLast?)) = some (some pl) := by
        rw [hsplit, List.getLast?_concat]; simp
      rw [← hsg]
      unfold flushSegments
      rw [hsg]
      rw [hsg] at hgl hevs
      split
      · next h' => cases h'
      · next h' => injection h' with h1; injection h1 with h1; exact absurd h1 h0
      · rw [hgl, hevs]; simp [hplq]
  have hmove : ∀ evs c, runPen (segStep (C := Unit)) (some [(q.pt, some .move)]) evs = .ok (some c, []) →
      runPen (segStep (C := Unit)) none (.moveTo q.pt :: (evs ++ [.closePath])) =
        match closeContour c with
        | .error e => .error e
        | .ok c' => .ok (none, [.inl c']) := by
    intro evs c h
    rw [runPen]
    simp only [segStep]
    rw [runPen_append _ _ _ _ _ _ h]
    simp only [runPen, segStep]
    rcases closeContour c with e | c' <;> simp
  by_cases hdraw : implied = true ∨ q.seg ≠ some .line
  · -- every segment is drawn
    have hcalls := segmentCalls_all (C := Unit) true implied segs hgood (by
      rcases hdraw with h' | h'
      · exact .inl h'
      · refine .inr (.inr ?_)
        intro s hs
        rw [hsplit, List.getLast?_concat] at hs
        simp only [Option.mem_def, Option.some.injEq] at hs
        subst hs
        rintro h''; apply h'; rw [← hend.2]; simp only at h''; rw [h''])
    have hrun := run_calls (C := Unit) segs hgood [(q.pt, some .move)]
    rw [throughSegments, toSegments, hsegs]
    simp only
    rw [hflush _ hcalls]
    simp only
    rw [hmove _ _ hrun, hcoords]
    have : closeContour ([(q.pt, some ST.move)] ++ (bare (post ++ pre) ++ [(q.pt, q.seg)])) = .ok ((q.pt, q.seg) :: bare (post ++ pre)) := by
      cases hb : bare (post ++ pre) with
      | nil => simp [closeContour]
      | cons x xs =>
        simp only [List.cons_append, List.nil_append, closeContour]
        rw [← List.cons_append, List.getLast?_concat]
        simp only [if_true]
        rw [List.dropLast_concat]
    rw [this]
    rfl
  · -- the closing line is left out
    have hdraw1 : implied = false := by cases implied <;> simp_all
    have hdraw2 : q.seg = some .line := by
      by_contra h'; exact hdraw (.inr h')
    have htline : t = .line := by have := hend.2; rw [hdraw2] at this; exact Option.some.inj this
    subst htline
    have hpi : pi = [] := by
      have := hlastg.2.2.2 rfl
      simp only [List.length_append, List.length_singleton] at this
      exact List.length_eq_zero_iff.1 (by omega)
    subst hpi
    have hgoodi : ∀ s ∈ init, GoodSeg s := fun s hs => hgood s (by rw [hsplit]; simp [hs])
    have hcalls := segmentCalls_noClosing (C := Unit) init pl hgoodi
    rw [List.nil_append] at hsplit
    rw [← hsplit, ← hdraw1] at hcalls
    have hrun := run_calls (C := Unit) init hgoodi [(q.pt, some .move)]
    have hcoordsi : init.flatMap segCoords = bare (post ++ pre) := by
      rw [hsplit, List.flatMap_append] at hcoords
      have : segCoords (K := K) (ST.line, [some pl]) = [(q.pt, q.seg)] := by simp [segCoords, labelled, hplq, hdraw2]
      simp only [List.flatMap_cons, List.flatMap_nil, List.append_nil, this] at hcoords
      exact List.append_cancel_right hcoords
    rw [throughSegments, toSegments, hsegs]
    simp only
    rw [hflush _ hcalls]
    simp only
    rw [hmove _ _ hrun, hcoordsi]
    have hpos : ∀ p ∈ (post ++ pre).getLast?, p.pt ≠ q.pt := by
      rcases hc with h' | h' | h'
      · rw [hdraw1] at h'; cases h'
      · exact absurd hdraw2 h'
      · exact h'
    have : closeContour ([(q.pt, some ST.move)] ++ bare (post ++ pre)) = .ok ((q.pt, q.seg) :: bare (post ++ pre)) := by
      have hlen : post ++ pre ≠ [] := by
        intro h'
        have := congrArg List.length h'
        simp at this h2
        simp [this.1, this.2] at h2
      obtain ⟨x, xs, hx⟩ := List.exists_cons_of_ne_nil hlen
      have hgl : (bare (post ++ pre)).getLast? = ((post ++ pre).getLast?).map fun p => (p.pt, p.seg) := by rw [bare, List.getLast?_map]
      rw [hx] at hpos hgl ⊢
      simp only [bare, List.map_cons, List.cons_append, List.nil_append, closeContour] at hgl ⊢
      rw [hgl]
      obtain ⟨z, hz⟩ : ∃ z, (x :: xs).getLast? = some z := ⟨_, List.getLast?_eq_some_getLast (by simp)⟩
      rw [hz]
      simp only [Option.map_some]
      rw [if_neg (by simpa using (hpos z hz).symm)]
      simp [hdraw2]
    rw [this]
    rfl

/-- **C20 (partial), open contours** without trailing off-curve points come back unchanged. Missing: trailing off-curve
points are dropped (`C20_trailing_refuted`). -/
theorem C20_open_partial [DecidableEq P] (implied : Bool) (p : Point P K) (ps : List (Point P K)) (h : p.seg = some .move)
    (he : EndsOn (p :: ps)) (ht : DrawableTypes ps) (hl : LinesAlone ps) :
    throughSegments implied (p :: ps) = .ok (none, [.inl (bare (p :: ps))]) := by
  have hgood := group_good ps [] (by simp) hl (by simp) ht
  have hseg := segmentsOf_open p ps h
  have hcalls := segmentCalls_all (C := Unit) false implied _ hgood (.inr (.inl rfl))
  have hrun := run_calls (C := Unit) _ hgood [(p.pt, some .move)]
  have hcoords : (group [] (ps.map Point.item)).flatMap segCoords = bare ps := by
    cases ps with
    | nil => rfl
    | cons x xs =>
      rw [flatMap_segCoords, (group_labelled [] ((x :: xs).map Point.item) (getLast?_map_item _ ?_) (by simp)).1, List.map_nil,
        List.nil_append, filterMap_items]
      intro y hy
      obtain ⟨z, hz, hz2⟩ := he
      rw [List.getLast?_cons_cons] at hz
      rw [hz] at hy
      simp only [Option.mem_def, Option.some.injEq] at hy
      exact hy ▸ hz2
  rw [throughSegments, toSegments, hseg]
  simp only [flushSegments]
  rw [hcalls]
  simp only [Point.toSeg, runPen, segStep]
  rw [runPen_append _ _ _ _ _ _ hrun, hcoords]
  simp [runPen, segStep, bare, h]

/-- **C20 (partial), contours without on-curve points** come back unchanged when they have at least two points and the
first and last positions differ. Missing: equal positions and single points (`C20_offcurve_refuted`). -/
theorem C20_offcurve_partial [DecidableEq P] (implied : Bool) (first : Point P K) (mid : List (Point P K)) (last : Point P K)
    (h : ∀ p ∈ first :: (mid ++ [last]), p.seg = none) (hne : first.pt ≠ last.pt) :
    throughSegments implied (first :: (mid ++ [last])) = .ok (none, [.inl (bare (first :: (mid ++ [last])))]) := by
  obtain ⟨l, hl⟩ : ∃ l, first :: (mid ++ [last]) = l := ⟨_, rfl⟩
  have hsegs : segmentsOf l = some [(.qcurve, l.map (fun p => some p.toSeg) ++ [none])] := by
    rw [← hl]; exact segmentsOf_off _ h (by simp)
  rw [hl, throughSegments, toSegments, hsegs]
  have hoff : offPoints ((l.map fun p => some p.toSeg).map coord) = some (bare l) := by
    have : ∀ m : List (Point P K), (∀ p ∈ m, p.seg = none) → offPoints ((m.map fun p => some p.toSeg).map coord) = some (bare m) := by
      intro m
      induction m with
      | nil => intro _; rfl
      | cons x m ih =>
        intro hm
        have := ih (fun p hp => hm p (List.mem_cons_of_mem _ hp))
        rw [List.map_cons, List.map_cons, show coord (some x.toSeg) = some x.pt from rfl, offPoints, this]
        simp [bare, hm x (by simp)]
    exact this l (fun p hp => h p (by rw [hl]; exact hp))
  have hclose : closeContour (bare l) = .ok (bare l) := by
    rw [← hl]
    have hf : first.seg = none := h first (by simp)
    cases mid with
    | nil => simp [bare, closeContour, hne, hf]
    | cons x xs =>
      simp only [bare, List.map_cons, List.map_append, List.cons_append, closeContour, List.map_nil]
      rw [← List.cons_append, List.getLast?_concat]
      simp [hne, hf]
  simp only [flushSegments, List.getLast?_singleton, Option.bind_some, List.getLast?_concat, segmentCalls, segmentCall, runPen, segStep,
    List.nil_append, List.map_append, List.map_cons, List.map_nil, List.append_nil, List.cons_append, List.dropLast_concat, coord, Option.map_none]
  rw [show List.map coord (List.map (fun p : Point P K => some p.toSeg) l) = ((l.map fun p => some p.toSeg).map coord) from rfl] at hoff
  simp only [hoff, hclose]
  simp

/-- **C20 refuted, default closing line.** Three line points, the last at the position of the first: the last point is lost. -/
theorem C20_closing_refuted :
    throughSegments (P := Int × Int) (K := Unit) false
      [⟨(0, 0), some .line, false, none, ()⟩, ⟨(5, 0), some .line, false, none, ()⟩, ⟨(0, 0), some .line, false, none, ()⟩] =
    .ok (none, [.inl [((0, 0), some .line), ((5, 0), some .line)]]) := by rfl

/-- **C20 refuted, single points.** A closed contour of one curve point comes back as an open contour. -/
theorem C20_single_refuted :
    throughSegments (P := Int × Int) (K := Unit) true [⟨(0, 0), some .curve, false, none, ()⟩] =
    .ok (none, [.inl [((0, 0), some .move)]]) := by rfl

/-- **C20 refuted, no on-curve point and coinciding ends**: a point is lost. -/
theorem C20_offcurve_refuted :
    throughSegments (P := Int × Int) (K := Unit) true
      [⟨(0, 0), none, false, none, ()⟩, ⟨(5, 0), none, false, none, ()⟩, ⟨(0, 0), none, false, none, ()⟩] =
    .ok (none, [.inl [((0, 0), none), ((5, 0), none)]]) := by rfl

/-- **C20 refuted, open contours with trailing off-curve points**: they are lost. -/
theorem C20_trailing_refuted :
    throughSegments (P := Int × Int) (K := Unit) true
      [⟨(0, 0), some .move, false, none, ()⟩, ⟨(5, 0), none, false, none, ()⟩] =
    .ok (none, [.inl [((0, 0), some .move)]]) := by rfl

example : throughSegments false sample = .ok (none, [.inl (bare sample)]) := by rfl
example : DrawableTypes sample := by unfold DrawableTypes; decide +kernel
example : LinesAlone (sample ++ sample.take 1) := by unfold LinesAlone sample; simp

/-! ## C21: guessing smoothness -/

/-- **C21.** Same points in the same order, everything but the smooth flag unchanged; a point comes out smooth exactly when
`IsSmooth` holds (for any direction test `turn`). -/
theorem C21_only_smooth [DecidableEq P] (turn : P → P → P → Bool) (l : List (Point P K)) :
    (guessContour turn l).length = l.length ∧
    ∀ i p, l[i]? = some p → ∃ s, (guessContour turn l)[i]? = some { p with smooth := s } ∧ (s = true ↔ IsSmooth turn l i) := by
  set base := l.map fun p => { p with smooth := false } with hbase
  have hab : AgreeButSmooth base l := ⟨by simp [hbase], fun i => by rw [hbase]; rcases h : l[i]? with _ | p <;> simp [h]⟩
  obtain ⟨h1, h2⟩ := guess_fold turn base (guessIndices base) base (agree_refl base)
  have hg : guessContour turn l = (guessIndices base).foldl (guessOne turn) base := rfl
  rw [← hg] at h1 h2
  refine ⟨by rw [h1.1]; exact hab.1, fun i p hp => ?_⟩
  have hi : i < l.length := (List.getElem?_eq_some_iff.1 hp).1
  have hbi : base[i]? = some { p with smooth := false } := by rw [hbase]; simp [hp]
  obtain ⟨q, hq⟩ : ∃ q, (guessContour turn l)[i]? = some q := by
    rw [List.getElem?_eq_getElem (by rw [h1.1, hab.1]; exact hi)]; exact ⟨_, rfl⟩
  have hqp : q = { p with smooth := q.smooth } := by
    have := h1.2 i
    rw [hq, hbi] at this
    simp only [Option.map_some, Option.some.injEq, Prod.mk.injEq] at this
    obtain ⟨a, b, c, d⟩ := this
    cases q; simp_all
  refine ⟨q.smooth, by rw [hq]; exact congrArg some hqp, ?_⟩
  rw [h2 i _ q hbi hq]
  simp only [Bool.false_eq_true, false_or]
  -- the visited indices
  have hhead : base.head?.bind (·.seg) = l.head?.bind (·.seg) := by
    rw [hbase]; cases l <;> rfl
  have hidx : i ∈ guessIndices base ↔
      ((l.head?.bind (·.seg) = some .move ∧ 0 < i ∧ i + 1 < l.length) ∨ (l.head?.bind (·.seg) ≠ some .move ∧ 1 < l.length)) := by
    rw [← hhead, ← hab.1]
    rw [← hab.1] at hi
    unfold guessIndices
    rcases hb : base with _ | ⟨b, bs⟩
    · rw [hb] at hi; simp at hi
    · rw [hb] at hi
      simp only [List.head?_cons, Option.bind_some]
      by_cases hm : b.seg = some .move
      · rw [if_pos hm]
        simp only [hm, true_and, ne_eq, not_true, false_and, or_false]
        rw [List.mem_iff_getElem?]
        constructor
        · rintro ⟨k, hk⟩
          rw [List.getElem?_drop] at hk
          have := List.getElem?_eq_some_iff.1 hk
          obtain ⟨h1, h2⟩ := this
          rw [List.getElem_range] at h2
          rw [List.length_range] at h1
          omega
        · rintro ⟨h0, h1⟩
          refine ⟨i - 1, ?_⟩
          rw [List.getElem?_drop, List.getElem?_range (by omega)]
          congr 1; omega
      · rw [if_neg hm]
        simp only [hm, false_and, false_or, ne_eq, not_false_iff, true_and]
        by_cases hlt : 1 < (b :: bs).length
        · rw [if_pos hlt, List.mem_cons, List.mem_range]
          exact ⟨fun _ => hlt, fun _ => by omega⟩
        · rw [if_neg hlt]
          exact ⟨fun h => absurd h (by simp), fun h => absurd h hlt⟩
  rw [hidx]
  constructor
  · rintro ⟨a, b⟩
    obtain ⟨x, y, z, c1, c2, c3, c4⟩ := smoothTest_congr hab b
    exact ⟨x, y, z, c1, c2, c3, a, c4⟩
  · rintro ⟨x, y, z, c1, c2, c3, a, c4⟩
    exact ⟨a, smoothTest_congr (agree_symm hab) ⟨x, y, z, c1, c2, c3, c4⟩⟩

example : (guessContour (fun _ _ _ => true) sample).map (·.smooth) = [true, false, false, true, false] := by decide +kernel

end Verif.Props
