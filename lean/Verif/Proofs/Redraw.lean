import Verif.Proofs.Reverse
/-! `SegmentToPointPen` keeps the paths that are painted. -/
namespace Verif.PointPens
open Verif Verif.Spec.PointPens Verif.Spec.Draw Verif.Spec.Glif

variable {P K C : Type}

/-- Coordinates and names of types of a contour under construction. -/
def cnamed (c : List (CPoint P)) : List (P × Option Str) := c.map fun x => (x.1, x.2.map stName)

/-- The state of the pen for what is painted so far. -/
inductive Matches : At P → Option (List (CPoint P)) → Prop
  | idle : Matches .idle none
  | start (s : P) : Matches (.path s s []) (some [(s, some .move)])
  | path (s a : P) (t : ST) (r : List (CPoint P)) (l : List (Seg P)) : Segs s [] (cnamed (r ++ [(a, some t)])) l → Matches (.path s a l) (some ((s, some .move) :: (r ++ [(a, some t)])))
  | loop (offs : List P) : Matches (.loop offs) (some (offs.map fun p => (p, none)))

theorem segs_snoc {s a : P} {t : ST} {r : List (CPoint P)} {l : List (Seg P)} (h : Segs s [] (cnamed (r ++ [(a, some t)])) l) {m : List (CPoint P)} {g : List (Seg P)}
    (hm : Segs a [] (cnamed m) g) : Segs s [] (cnamed (r ++ (a, some t) :: m)) (l ++ g) := by
  simp only [cnamed, List.map_append, List.map_cons, List.map_nil] at h hm ⊢
  exact segs_append h hm

theorem matches_snoc {s a b : P} {l g : List (Seg P)} {c : List (CPoint P)} {t : ST} {m : List (CPoint P)} (h : Matches (.path s a l) (some c))
    (hm : Segs a [] (cnamed (m ++ [(b, some t)])) g) : Matches (.path s b (l ++ g)) (some (c ++ (m ++ [(b, some t)]))) := by
  cases h with
  | start => exact .path s b t m _ hm
  | path _ _ u r _ h =>
    have := Matches.path s b t (r ++ (a, some u) :: m) _ (by
      have := segs_snoc h hm
      simpa using this)
    simpa using this

theorem offPoints_allSome : ∀ (l : List (Option P)) {offs : List P}, allSome l = some offs → offPoints l = some (offs.map fun p => (p, none))
  | [], offs, h => by cases h; rfl
  | none :: l, offs, h => by cases h
  | some p :: l, offs, h => by
    rw [allSome] at h
    cases hr : allSome l with
    | none => rw [hr] at h; cases h
    | some r =>
      rw [hr] at h
      cases h
      rw [offPoints, offPoints_allSome l hr]
      rfl

theorem cnamed_offs (l : List P) (b : P) (t : ST) : cnamed (l.map (fun p => (p, none)) ++ [(b, some t)]) = offs l ++ [(b, some (stName t))] := by
  simp [cnamed, offs, Function.comp_def]

/-- Closing a contour. -/
theorem close_describes [DecidableEq P] {s a : P} {l : List (Seg P)} {c : List (CPoint P)} (h : Matches (.path s a l) (some c)) :
    ∃ c', closeContour c = .ok c' ∧ Describes (C := C) (.inl (.closed s (if a = s then l else l ++ [.line a s]))) (.inl c') := by
  cases h with
  | start =>
    refine ⟨[(s, some .line)], rfl, .path (q := .open s []) ?_ (.dot _ _)⟩
    rw [if_pos rfl]
    exact .point s [] (by simp)
  | path _ _ t r _ h =>
    have hc : closeContour ((s, some ST.move) :: (r ++ [(a, some t)])) = if s = a then .ok ((a, some t) :: r) else .ok ((s, some .line) :: (r ++ [(a, some t)])) := by
      cases r with
      | nil => simp [closeContour]
      | cons x r =>
        simp only [List.cons_append, closeContour]
        rw [← List.cons_append, List.getLast?_concat]
        simp only [List.dropLast_concat, if_true]
    by_cases he : s = a
    · subst he
      rw [if_pos rfl] at hc ⊢
      refine ⟨_, hc, ?_⟩
      cases r with
      | nil =>
        refine .path (q := .open s []) (.point s l ?_) (.dot _ _)
        intro g hg x hx
        replace h : Segs s [] [(s, some (stName t))] l := h
        clear hc
        generalize stName t = u at h
        cases h with
        | line h' => cases h'; simp only [List.mem_singleton] at hg; subst hg; simpa [Seg.points] using hx
        | curve h' => cases h'; simp only [List.mem_singleton] at hg; subst hg; simpa [Seg.points] using hx
        | qcurve h' => cases h'; simp only [List.mem_singleton] at hg; subst hg; simpa [Seg.points] using hx
      | cons y r =>
        refine .path (.refl _) ?_
        have hp := IsPath.closed (pre := []) (post := cnamed (y :: r)) (q := s) (t := stName t) (l := l) (by simp)
          (segs_types h (x := s) _ (by simp [cnamed])) (by simp [cnamed]) (by simpa [cnamed] using h)
        simpa [cnamed] using hp
    · rw [if_neg he] at hc
      rw [if_neg fun e => he e.symm]
      refine ⟨_, hc, .path (.refl _) ?_⟩
      have h2 := segs_snoc h (m := [(s, some .line)]) (g := [.line a s]) (.line (.nil _))
      have hp := IsPath.closed (pre := []) (post := cnamed (r ++ [(a, some t)])) (q := s) (t := c!"line") (l := l ++ [.line a s]) (by simp) (by decide) (by simp [cnamed])
        (by simpa [cnamed, stName] using h2)
      simpa [cnamed, stName] using hp

theorem end_describes {s a : P} {l : List (Seg P)} {c : List (CPoint P)} (h : Matches (.path s a l) (some c)) : Describes (C := C) (.inl (.open s l)) (.inl c) := by
  cases h with
  | start => exact .path (.refl _) (.dot _ _)
  | path _ _ t r _ h =>
    refine .path (.refl _) ?_
    have hp := IsPath.open (p := s) (r := cnamed (r ++ [(a, some t)])) (by simp [cnamed]) h
    simpa [cnamed, stName] using hp

theorem loop_describes [DecidableEq P] {l : List P} (h : PlainLoop (C := C) (.inl (.loop l))) :
    ∃ c', closeContour (l.map fun p => (p, (none : Option ST))) = .ok c' ∧ Describes (C := C) (.inl (.loop l)) (.inl c') := by
  obtain ⟨a, m, b, rfl, hne⟩ := h
  refine ⟨(a :: (m ++ [b])).map fun p => (p, none), ?_, .path (.refl _) ?_⟩
  · cases m with
    | nil => simp [closeContour, hne]
    | cons x m =>
      simp only [List.map_cons, List.map_append, List.cons_append, closeContour, List.map_nil]
      rw [← List.cons_append, List.getLast?_concat]
      simp [hne]
  · have hp := IsPath.loop (l := ((a :: (m ++ [b])).map fun p => (p, (none : Option ST))).map fun x => (x.1, x.2.map stName)) (by simp) (by
      intro x hx
      obtain ⟨y, hy, rfl⟩ := List.mem_map.1 hx
      obtain ⟨z, -, rfl⟩ := List.mem_map.1 hy
      rfl)
    have e : ((((a :: (m ++ [b])).map fun p => (p, (none : Option ST))).map fun x => (x.1, x.2.map stName)).map Prod.fst) = a :: (m ++ [b]) := by
      simp [Function.comp_def]
    rw [e] at hp
    exact hp

/-- Whatever calls keep the protocol of segment pens, the contours describe what is painted. -/
theorem paint_describes [DecidableEq P] : ∀ (evs : List (SEvent P C)) (at' : At P) (s : Option (List (CPoint P))) (items : List (Spec.Draw.Path P ⊕ C)),
    Matches at' s → paint at' evs = some items → (∀ x ∈ items, PlainLoop x) → ∃ out, runPen segStep s evs = .ok (none, out) ∧ List.Forall₂ Describes items out
  | [], at', s, items, hm, hp, hl => by
    cases hm with
    | idle => simp [paint] at hp; subst hp; exact ⟨[], rfl, .nil⟩
    | _ => simp [paint] at hp
  | e :: evs, at', s, items, hm, hp, hl => by
    have push : ∀ {at'' : At P} {s' : Option (List (CPoint P))}, Matches at'' s' → paint at'' evs = some items → segStep s e = .ok (s', []) →
        ∃ out, runPen segStep s (e :: evs) = .ok (none, out) ∧ List.Forall₂ Describes items out := by
      intro at'' s' h1 h2 h3
      obtain ⟨out, h4, h5⟩ := paint_describes evs at'' s' items h1 h2 hl
      exact ⟨out, by rw [runPen, h3]; simp [h4], h5⟩
    have emit : ∀ {x : Spec.Draw.Path P ⊕ C}, (paint .idle evs).map (x :: ·) = some items →
        (PlainLoop x → ∃ y, segStep s e = .ok (none, [y]) ∧ Describes x y) → ∃ out, runPen segStep s (e :: evs) = .ok (none, out) ∧ List.Forall₂ Describes items out := by
      intro x hx hy
      cases hr : paint .idle evs with
      | none => rw [hr] at hx; cases hx
      | some rest =>
        rw [hr] at hx
        cases hx
        obtain ⟨y, h1, h2⟩ := hy (hl x (by simp))
        obtain ⟨out, h4, h5⟩ := paint_describes evs .idle none rest .idle hr fun z hz => hl z (by simp [hz])
        exact ⟨y :: out, by rw [runPen, h1]; simp [h4], .cons h2 h5⟩
    cases hm with
    | idle =>
      cases e with
      | moveTo p => exact push (.start p) hp rfl
      | qCurveTo ps =>
        rw [paint] at hp
        split at hp
        next offs h1 h2 => exact push (.loop offs) hp (by simp [segStep, h2, offPoints_allSome _ h1])
        next => cases hp
      | addComponent c => exact emit hp fun _ => ⟨_, rfl, .component c⟩
      | _ => simp [paint] at hp
    | loop offs =>
      cases e with
      | closePath =>
        refine emit hp fun h => ?_
        obtain ⟨c', h1, h2⟩ := loop_describes h
        exact ⟨_, by simp [segStep, h1], h2⟩
      | _ => simp [paint] at hp
    | start a => exact path_case a a [] _ (.start a) e evs items hp push emit
    | path a b t r l h => exact path_case a b l _ (.path a b t r l h) e evs items hp push emit
where
  path_case (s a : P) (l : List (Seg P)) (c : List (CPoint P)) (hm : Matches (.path s a l) (some c)) (e : SEvent P C) (evs : List (SEvent P C))
      (items : List (Spec.Draw.Path P ⊕ C)) (hp : paint (.path s a l) (e :: evs) = some items)
      (push : ∀ {at'' : At P} {s' : Option (List (CPoint P))}, Matches at'' s' → paint at'' evs = some items → segStep (some c) e = .ok (s', []) →
        ∃ out, runPen segStep (some c) (e :: evs) = .ok (none, out) ∧ List.Forall₂ Describes items out)
      (emit : ∀ {x : Spec.Draw.Path P ⊕ C}, (paint .idle evs).map (x :: ·) = some items →
        (PlainLoop x → ∃ y, segStep (some c) e = .ok (none, [y]) ∧ Describes x y) → ∃ out, runPen segStep (some c) (e :: evs) = .ok (none, out) ∧ List.Forall₂ Describes items out) :
      ∃ out, runPen segStep (some c) (e :: evs) = .ok (none, out) ∧ List.Forall₂ Describes items out := by
    cases e with
    | lineTo p =>
      exact push (matches_snoc hm (m := []) (t := .line) (.line (.nil _))) hp rfl
    | curveTo ps =>
      rw [paint] at hp
      split at hp
      next p h1 =>
        obtain ⟨ps', rfl⟩ : ∃ ps', ps = ps' ++ [p] := ⟨ps.dropLast, by rw [List.dropLast_append_getLast? p h1]⟩
        rw [List.dropLast_concat] at hp
        refine push (matches_snoc hm (m := ps'.map fun p => (p, none)) (t := .curve) (b := p) ?_) hp ?_
        · rw [cnamed_offs]
          exact segs_offs (.curve (.nil _))
        · have : curvePoints (ps' ++ [p]) = .ok (ps'.map (fun p => (p, none)) ++ [(p, some .curve)]) := by
            cases ps' with
            | nil => rfl
            | cons x ps' =>
              have e : ∀ z : List P, z ≠ [] → curvePoints z = .ok (z.dropLast.map (fun p => (p, none)) ++ (z.getLast?.toList.map fun p => (p, some .curve))) := by
                intro z hz
                obtain ⟨y, z, rfl⟩ := List.exists_cons_of_ne_nil hz
                rfl
              rw [e _ (by simp), List.dropLast_concat, List.getLast?_concat]
              rfl
          simp [segStep, this]
      next => cases hp
    | qCurveTo ps =>
      rw [paint] at hp
      split at hp
      next offs' p h1 h2 =>
        refine push (matches_snoc hm (m := offs'.map fun p => (p, none)) (t := .qcurve) (b := p) ?_) hp ?_
        · rw [cnamed_offs]
          exact segs_offs (.qcurve (.nil _))
        · simp [segStep, h2, offPoints_allSome _ h1]
      next => cases hp
    | closePath =>
      refine emit hp fun _ => ?_
      obtain ⟨c', h1, h2⟩ := close_describes (C := C) hm
      exact ⟨_, by simp [segStep, h1], h2⟩
    | endPath => exact emit hp fun _ => ⟨_, rfl, end_describes hm⟩
    | moveTo p => simp [paint] at hp
    | addComponent c => simp [paint] at hp

/-- What is painted for a part of a drawing. -/
inductive Painted : Item P K C → Spec.Draw.Path P ⊕ C → Prop
  | contour {i : Option Str} {l : List (Point P K)} {p q : Spec.Draw.Path P} : IsPath (typedPoints l) p → SamePath p q → Painted (.contour i l) (.inl q)
  | component (c : C) : Painted (.component c) (.inr c)

theorem part_painted [DecidableEq P] (it : Item P K C) (h : Acceptable it) : ∃ evs, runPen (segmentPenStep false) none it.events = .ok (none, evs) ∧
    ((VisiblePart it = false ∧ evs = []) ∨ (VisiblePart it = true ∧ ∃ x, Painted it x ∧ ∀ r, paint .idle (evs ++ r) = (paint .idle r).map (x :: ·))) := by
  cases it with
  | component c => exact ⟨[.addComponent c], rfl, .inr ⟨rfl, _, .component c, fun r => rfl⟩⟩
  | contour i l =>
    by_cases hl : l = []
    · subst hl
      exact ⟨[], runSeg_contour _ _ rfl, .inl ⟨rfl, rfl⟩⟩
    · obtain ⟨evs, p, q, h1, h2, h3, h4⟩ := contour_drawn (C := C) l hl h.1 h.2
      refine ⟨evs, runSeg_contour _ _ h1, .inr ⟨?_, .inl q, .contour h2 h3, h4⟩⟩
      obtain ⟨x, xs, rfl⟩ := List.exists_cons_of_ne_nil hl
      rfl

theorem drawing_painted [DecidableEq P] : ∀ (d : List (Item P K C)), (∀ it ∈ d, Acceptable it) → ∃ evs items, runPen (segmentPenStep false) none (events d) = .ok (none, evs) ∧
    paint .idle evs = some items ∧ List.Forall₂ Painted (d.filter VisiblePart) items
  | [], _ => ⟨[], [], rfl, rfl, .nil⟩
  | it :: d, h => by
    obtain ⟨e1, h1, h2⟩ := part_painted it (h it (by simp))
    obtain ⟨e2, items, h3, h4, h5⟩ := drawing_painted d fun x hx => h x (List.mem_cons_of_mem _ hx)
    have hrun : runPen (segmentPenStep false) none (events (it :: d)) = .ok (none, e1 ++ e2) := by
      rw [events, List.flatMap_cons, runPen_append _ _ _ _ _ _ h1]
      rw [events] at h3
      rw [h3]
    rcases h2 with ⟨hv, rfl⟩ | ⟨hv, x, hx, hp⟩
    · refine ⟨_, items, hrun, h4, ?_⟩
      rw [List.filter_cons_of_neg (by simp [hv])]
      exact h5
    · refine ⟨_, x :: items, hrun, by rw [hp, h4]; rfl, ?_⟩
      rw [List.filter_cons_of_pos hv]
      exact .cons hx h5

theorem painted_loop {it : Item P K C} {x : Spec.Draw.Path P ⊕ C} (h : Painted it x) (hl : LoopEnds it) : PlainLoop x := by
  cases h with
  | component c => trivial
  | @contour i l p q hp hs =>
    cases q with
    | «open» => trivial
    | closed => trivial
    | loop offs =>
      have hp : IsPath (typedPoints l) (.loop offs) := by cases hs; exact hp
      generalize hL : typedPoints l = L at hp
      cases hp with
      | loop h2 hoff =>
        subst hL
        have hoff' : ∀ x ∈ l, x.seg = none := fun x hx => by
          have := hoff (x.pt, x.seg.map stName) (List.mem_map.2 ⟨x, hx, rfl⟩)
          simpa using this
        match l, h2, hl with
        | a :: y :: m, _, hl =>
          rcases List.eq_nil_or_concat (y :: m) with h | ⟨m', b, hb⟩
          · cases h
          · rw [hb] at hoff' hl ⊢
            rw [List.concat_eq_append] at hoff' hl ⊢
            exact ⟨a.pt, m'.map (·.pt), b.pt, by simp [typedPoints], hl hoff' a m' b rfl⟩
        | [a], h2, _ => simp [typedPoints] at h2

/-- A drawing through both pens. -/
theorem drawing_redrawn [DecidableEq P] (d : List (Item P K C)) (h : ∀ it ∈ d, Acceptable it) (hl : ∀ it ∈ d, LoopEnds it) :
    ∃ evs out, runPen (segmentPenStep false) none (events d) = .ok (none, evs) ∧ runPen segStep none evs = .ok (none, out) ∧ List.Forall₂ Redrawn (d.filter VisiblePart) out := by
  obtain ⟨evs, items, h1, h2, h3⟩ := drawing_painted d h
  have hplain : ∀ x ∈ items, PlainLoop x := by
    have hd : ∀ it ∈ d.filter VisiblePart, LoopEnds it := fun it hit => hl it (List.mem_of_mem_filter hit)
    clear h1 h2 hl h
    generalize d.filter VisiblePart = d' at h3 hd
    induction h3 with
    | nil => intro x hx; cases hx
    | cons hp _ ih =>
      intro x hx
      rcases List.mem_cons.1 hx with rfl | hx
      · exact painted_loop hp (hd _ (by simp))
      · exact ih (fun it hit => hd it (by simp [hit])) x hx
  obtain ⟨out, h4, h5⟩ := paint_describes evs .idle none items .idle h2 hplain
  refine ⟨evs, out, h1, h4, ?_⟩
  clear h1 h2 h4 hplain
  generalize d.filter VisiblePart = d' at h3
  induction h3 generalizing out with
  | nil => cases h5; exact .nil
  | cons hp _ ih =>
    cases h5 with
    | cons hd h5 =>
      refine .cons ?_ (ih _ h5)
      cases hp with
      | component c => cases hd; exact .component c
      | contour hp hs => cases hd with | path ht hq => exact .contour hp hs ht hq

end Verif.PointPens
