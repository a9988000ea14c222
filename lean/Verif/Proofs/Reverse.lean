import Verif.Proofs.Draw
import Mathlib.Tactic.Tauto
import Mathlib.Tactic.ByContra
/-! Reversed contours describe the same path backwards. -/
namespace Verif.PointPens
open Verif Verif.Spec.PointPens Verif.Spec.Draw Verif.Spec.Glif

variable {P K C : Type}

/-- `retype` on coordinates and names of types. -/
def retypeP : Option Str → List (P × Option Str) → List (P × Option Str)
  | _, [] => []
  | last, (p, some t) :: r => (p, last) :: retypeP (some t) r
  | last, (p, none) :: r => (p, none) :: retypeP last r

theorem retype_named : ∀ (last : Option ST) (l : List (Point P K)), (retype last l).map named = retypeP (last.map stName) (l.map named)
  | _, [] => rfl
  | last, p :: l => by
    cases hp : p.seg with
    | none => simp [retype, hp, named, retypeP, retype_named last l]
    | some t => simp [retype, hp, named, retypeP, retype_named (some t) l]

/-- The type of the last on-curve point. -/
def lastType : Option Str → List (P × Option Str) → Option Str
  | last, [] => last
  | _, (_, some t) :: r => lastType (some t) r
  | last, (_, none) :: r => lastType last r

theorem retypeP_append : ∀ (last : Option Str) (l m : List (P × Option Str)), retypeP last (l ++ m) = retypeP last l ++ retypeP (lastType last l) m
  | _, [], _ => rfl
  | last, (p, some t) :: l, m => by simp [retypeP, lastType, retypeP_append (some t) l m]
  | last, (p, none) :: l, m => by simp [retypeP, lastType, retypeP_append last l m]

theorem lastType_append : ∀ (last : Option Str) (l m : List (P × Option Str)), lastType last (l ++ m) = lastType (lastType last l) m
  | _, [], _ => rfl
  | last, (p, some t) :: l, m => by simp [lastType, lastType_append (some t) l m]
  | last, (p, none) :: l, m => by simp [lastType, lastType_append last l m]

theorem retypeP_off : ∀ (last : Option Str) (l : List (P × Option Str)), (∀ x ∈ l, x.2 = none) → retypeP last l = l ∧ lastType last l = last
  | _, [], _ => ⟨rfl, rfl⟩
  | last, (p, some t) :: l, h => nomatch h (p, some t) (by simp)
  | last, (p, none) :: l, h => by
    obtain ⟨h1, h2⟩ := retypeP_off last l fun x hx => h x (by simp [hx])
    exact ⟨by simp [retypeP, h1], by simp [lastType, h2]⟩

/-- Off-curve points. -/
def offs (l : List P) : List (P × Option Str) := l.map fun p => (p, none)

theorem offs_off (l : List P) : ∀ x ∈ offs l, x.2 = none := by
  intro x hx
  obtain ⟨p, -, rfl⟩ := List.mem_map.1 hx
  rfl

theorem segs_append : ∀ {X : List (P × Option Str)} {a p : P} {o : List P} {y : Str} {Y : List (P × Option Str)} {s t : List (Seg P)},
    Segs a o (X ++ [(p, some y)]) s → Segs p [] Y t → Segs a o (X ++ (p, some y) :: Y) (s ++ t)
  | [], a, p, o, y, Y, s, t, h, hY => by
    cases h with
    | line h => cases h; exact .line hY
    | curve h => cases h; exact .curve hY
    | qcurve h => cases h; exact .qcurve hY
  | x :: X, a, p, o, y, Y, s, t, h, hY => by
    cases h with
    | off h => exact .off (segs_append h hY)
    | line h => exact .line (segs_append h hY)
    | curve h => exact .curve (segs_append h hY)
    | qcurve h => exact .qcurve (segs_append h hY)

theorem segs_split : ∀ {X : List (P × Option Str)} {a p : P} {o : List P} {y : Str} {Y : List (P × Option Str)} {s : List (Seg P)},
    Segs a o (X ++ (p, some y) :: Y) s → ∃ s1 s2, s = s1 ++ s2 ∧ Segs a o (X ++ [(p, some y)]) s1 ∧ Segs p [] Y s2
  | [], a, p, o, y, Y, s, h => by
    cases h with
    | line h => exact ⟨[_], _, rfl, .line (.nil _), h⟩
    | curve h => exact ⟨[_], _, rfl, .curve (.nil _), h⟩
    | qcurve h => exact ⟨[_], _, rfl, .qcurve (.nil _), h⟩
  | x :: X, a, p, o, y, Y, s, h => by
    cases h with
    | off h => obtain ⟨s1, s2, h1, h2, h3⟩ := segs_split h; exact ⟨s1, s2, h1, .off h2, h3⟩
    | line h => obtain ⟨s1, s2, h1, h2, h3⟩ := segs_split h; exact ⟨_ :: s1, s2, by rw [h1]; rfl, .line h2, h3⟩
    | curve h => obtain ⟨s1, s2, h1, h2, h3⟩ := segs_split h; exact ⟨_ :: s1, s2, by rw [h1]; rfl, .curve h2, h3⟩
    | qcurve h => obtain ⟨s1, s2, h1, h2, h3⟩ := segs_split h; exact ⟨_ :: s1, s2, by rw [h1]; rfl, .qcurve h2, h3⟩

theorem segs_offs {a : P} : ∀ {l o : List P} {r : List (P × Option Str)} {s : List (Seg P)}, Segs a (o ++ l) r s → Segs a o (offs l ++ r) s
  | [], o, r, s, h => by simpa [offs] using h
  | p :: l, o, r, s, h => by
    show Segs a o ((p, none) :: (offs l ++ r)) s
    exact .off (segs_offs (by simpa using h))

theorem retypeP_snoc (last : Option Str) (l : List (P × Option Str)) (p : P) (t : Str) :
    retypeP last (l ++ [(p, some t)]) = retypeP last l ++ [(p, lastType last l)] := by
  rw [retypeP_append]
  cases lastType last l <;> rfl

theorem lastType_some : ∀ (t : Str) (l : List (P × Option Str)), ∃ u, lastType (some t) l = some u
  | t, [] => ⟨t, rfl⟩
  | _, (p, some t) :: l => lastType_some t l
  | t, (p, none) :: l => lastType_some t l

/-- The points in the other order describe the segments in the other order. -/
theorem segs_reverse {a : P} {o : List P} {l : List (P × Option Str)} {s : List (Seg P)} (h : Segs a o l s) :
    ∀ {l' : List (P × Option Str)} {b : P} {t x : Str}, l = l' ++ [(b, some t)] →
      Segs b [] (retypeP (some t) (l'.reverse ++ offs o.reverse ++ [(a, some x)])) (s.reverse.map Seg.flip) := by
  induction h with
  | nil a => intro l' b t x he; simp at he
  | @off a o p r s h ih =>
    intro l' b t x he
    cases l' with
    | nil => simp at he
    | cons y l' =>
      injection he with h1 h2
      subst h1
      have := ih (x := x) h2
      simpa [offs] using this
  | @line a p r s h ih =>
    intro l' b t x he
    cases l' with
    | nil =>
      simp at he
      obtain ⟨⟨rfl, rfl⟩, rfl⟩ := he
      cases h
      exact .line (.nil _)
    | cons y l' =>
      injection he with h1 h2
      subst h1
      have := ih (x := c!"line") h2
      simp only [List.reverse_nil, offs, List.map_nil, List.append_nil] at this
      rw [List.reverse_cons, List.append_assoc, List.append_assoc, retypeP_append, List.reverse_cons, List.map_append]
      rw [retypeP_snoc] at this
      obtain ⟨u, hu⟩ := lastType_some t l'.reverse
      rw [hu] at this ⊢
      exact segs_append this (.line (.nil _))
  | @curve a p o r s h ih =>
    intro l' b t x he
    cases l' with
    | nil =>
      simp at he
      obtain ⟨⟨rfl, rfl⟩, rfl⟩ := he
      cases h
      rw [List.reverse_nil, List.nil_append, retypeP_snoc, (retypeP_off _ _ (offs_off _)).1, (retypeP_off _ _ (offs_off _)).2]
      exact segs_offs (.curve (.nil _))
    | cons y l' =>
      injection he with h1 h2
      subst h1
      have := ih (x := c!"curve") h2
      simp only [List.reverse_nil, offs, List.map_nil, List.append_nil] at this
      rw [List.reverse_cons, List.append_assoc, List.append_assoc, retypeP_append, List.reverse_cons, List.map_append]
      rw [retypeP_snoc] at this
      obtain ⟨u, hu⟩ := lastType_some t l'.reverse
      rw [hu] at this ⊢
      refine segs_append this ?_
      show Segs p [] (retypeP (some c!"curve") (offs o.reverse ++ [(a, some x)])) _
      rw [retypeP_snoc, (retypeP_off _ _ (offs_off _)).1, (retypeP_off _ _ (offs_off _)).2]
      exact segs_offs (.curve (.nil _))
  | @qcurve a p o r s h ih =>
    intro l' b t x he
    cases l' with
    | nil =>
      simp at he
      obtain ⟨⟨rfl, rfl⟩, rfl⟩ := he
      cases h
      rw [List.reverse_nil, List.nil_append, retypeP_snoc, (retypeP_off _ _ (offs_off _)).1, (retypeP_off _ _ (offs_off _)).2]
      exact segs_offs (.qcurve (.nil _))
    | cons y l' =>
      injection he with h1 h2
      subst h1
      have := ih (x := c!"qcurve") h2
      simp only [List.reverse_nil, offs, List.map_nil, List.append_nil] at this
      rw [List.reverse_cons, List.append_assoc, List.append_assoc, retypeP_append, List.reverse_cons, List.map_append]
      rw [retypeP_snoc] at this
      obtain ⟨u, hu⟩ := lastType_some t l'.reverse
      rw [hu] at this ⊢
      refine segs_append this ?_
      show Segs p [] (retypeP (some c!"qcurve") (offs o.reverse ++ [(a, some x)])) _
      rw [retypeP_snoc, (retypeP_off _ _ (offs_off _)).1, (retypeP_off _ _ (offs_off _)).2]
      exact segs_offs (.qcurve (.nil _))

theorem segs_last {a : P} {o : List P} {l : List (P × Option Str)} {s : List (Seg P)} (h : Segs a o l s) (hl : l ≠ []) :
    ∃ l' b t s' g, l = l' ++ [(b, some t)] ∧ s = s' ++ [g] ∧ Seg.stop g = b := by
  induction h with
  | nil a => exact absurd rfl hl
  | @off a o p r s h ih =>
    by_cases hr : r = []
    · subst hr
      cases ho : o ++ [p] with
      | nil => simp at ho
      | cons x o' => rw [ho] at h; cases h
    · obtain ⟨l', b, t, s', g, rfl, rfl, h3⟩ := ih hr
      exact ⟨_ :: l', b, t, s', g, rfl, rfl, h3⟩
  | @line a p r s h ih =>
    by_cases hr : r = []
    · subst hr; cases h; exact ⟨[], _, _, [], _, rfl, rfl, rfl⟩
    · obtain ⟨l', b, t, s', g, rfl, rfl, h3⟩ := ih hr
      exact ⟨_ :: l', b, t, _ :: s', g, rfl, rfl, h3⟩
  | @curve a p o r s h ih =>
    by_cases hr : r = []
    · subst hr; cases h; exact ⟨[], _, _, [], _, rfl, rfl, rfl⟩
    · obtain ⟨l', b, t, s', g, rfl, rfl, h3⟩ := ih hr
      exact ⟨_ :: l', b, t, _ :: s', g, rfl, rfl, h3⟩
  | @qcurve a p o r s h ih =>
    by_cases hr : r = []
    · subst hr; cases h; exact ⟨[], _, _, [], _, rfl, rfl, rfl⟩
    · obtain ⟨l', b, t, s', g, rfl, rfl, h3⟩ := ih hr
      exact ⟨_ :: l', b, t, _ :: s', g, rfl, rfl, h3⟩

theorem segs_head {a : P} {o : List P} {l : List (P × Option Str)} {s : List (Seg P)} (h : Segs a o l s) : s = [] ∨ s.head?.map Seg.start = some a := by
  induction h with
  | nil a => exact .inl rfl
  | off _ ih => exact ih
  | line => exact .inr rfl
  | curve => exact .inr rfl
  | qcurve => exact .inr rfl

theorem firstOn_last : ∀ (l : List (Point P K)), (firstOnType l).map stName = lastType none (l.reverse.map named)
  | [] => rfl
  | p :: l => by
    rw [List.reverse_cons, List.map_append, lastType_append, ← firstOn_last l, firstOnType]
    cases hp : p.seg with
    | none => simp [named, hp, lastType]
    | some t => simp [named, hp, lastType]

theorem segs_types {a : P} {o : List P} {l : List (P × Option Str)} {s : List (Seg P)} (h : Segs a o l s) {x : P} : ∀ t, (x, some t) ∈ l → t ≠ c!"move" := by
  induction h with
  | nil a => intro t ht; cases ht
  | off h ih =>
    intro t ht
    rcases List.mem_cons.1 ht with he | h
    · cases he
    · exact ih t h
  | line h ih =>
    intro t ht
    rcases List.mem_cons.1 ht with he | h
    · cases he; decide
    · exact ih t h
  | curve h ih =>
    intro t ht
    rcases List.mem_cons.1 ht with he | h
    · cases he; decide
    · exact ih t h
  | qcurve h ih =>
    intro t ht
    rcases List.mem_cons.1 ht with he | h
    · cases he; decide
    · exact ih t h

theorem length_retypeP : ∀ (last : Option Str) (l : List (P × Option Str)), (retypeP last l).length = l.length
  | _, [] => rfl
  | last, (p, some t) :: l => by simp [retypeP, length_retypeP (some t) l]
  | last, (p, none) :: l => by simp [retypeP, length_retypeP last l]

theorem first_onP : ∀ (l : List (P × Option Str)), (∃ x ∈ l, x.2 ≠ none) → ∃ l1 q t l2, l = l1 ++ (q, some t) :: l2 ∧ ∀ x ∈ l1, x.2 = none
  | [], h => by obtain ⟨x, hx, -⟩ := h; cases hx
  | (q, some t) :: l, _ => ⟨[], q, t, l, rfl, by simp⟩
  | (q, none) :: l, h => by
    obtain ⟨l1, q', t, l2, h1, h2⟩ := first_onP l (by
      obtain ⟨x, hx, hn⟩ := h
      rcases List.mem_cons.1 hx with rfl | hx
      · exact absurd rfl hn
      · exact ⟨x, hx, hn⟩)
    refine ⟨(q, none) :: l1, q', t, l2, by rw [h1]; rfl, ?_⟩
    intro x hx
    rcases List.mem_cons.1 hx with rfl | hx
    · rfl
    · exact h2 x hx

/-- The contour on coordinates and names of types. -/
theorem reverseContour_named (x : Point P K) (ps : List (Point P K)) (hx : x.seg ≠ some .move) : ∃ R, reverseContour (x :: ps) = .ok R ∧
    R.map named = retypeP (lastType none (named x :: (ps.map named).reverse)) (named x :: (ps.map named).reverse) := by
  refine ⟨_, by rw [reverseContour, if_neg hx], ?_⟩
  rw [retype_named, firstOn_last]
  simp

theorem stName_move {t : ST} (h : ∀ s, t ≠ .other s) (he : stName t = c!"move") : t = .move := by
  cases t with
  | move => rfl
  | other s => exact absurd rfl (h s)
  | _ => exact absurd he (by decide)

/-- The reversed contour describes the same path backwards. -/
theorem reverse_path (L : List (Point P K)) (hk : ∀ p ∈ L, ∀ s, p.seg ≠ some (.other s)) {p : Spec.Draw.Path P} (hp : IsPath (L.map named) p) :
    ∃ R p', reverseContour L = .ok R ∧ IsPath (R.map named) p' ∧ Backwards p p' := by
  generalize hl : L.map named = l at hp
  cases hp with
  | dot a t =>
    obtain ⟨x, rfl⟩ : ∃ x, L = [x] := by
      match L, hl with
      | [x], _ => exact ⟨x, rfl⟩
    have hx : named x = (a, t) := by simpa using hl
    have ha : x.pt = a := congrArg Prod.fst hx
    by_cases hm : x.seg = some .move
    · refine ⟨[{ x with seg := some .move }], _, by simp [reverseContour, hm, dropOff, retype], ?_, .dot a⟩
      subst ha
      exact .dot _ _
    · refine ⟨[x], _, ?_, ?_, .dot a⟩
      · simp only [reverseContour, if_neg hm, List.nil_append, List.reverse_singleton, firstOnType, retype]
        cases hs : x.seg with
        | none => rfl
        | some t => simp only [Except.ok.injEq, List.cons.injEq, and_true]; rw [← hs]
      · subst ha
        exact .dot _ _
  | @«open» a r segs hr hs =>
    obtain ⟨x, ps, rfl, hx, hps⟩ : ∃ x ps, L = x :: ps ∧ named x = (a, some c!"move") ∧ ps.map named = r := by
      match L, hl with
      | x :: ps, h => simp only [List.map_cons, List.cons.injEq] at h; exact ⟨x, ps, rfl, h.1, h.2⟩
    obtain ⟨l', b, t, s', g, h1, h2, h3⟩ := segs_last hs hr
    obtain ⟨ps', y, rfl, hps', hy⟩ : ∃ ps' y, ps = ps' ++ [y] ∧ ps'.map named = l' ∧ named y = (b, some t) := by
      rw [← hps] at h1
      obtain ⟨ps', y, h4, h5, h6⟩ := List.map_eq_append_iff.1 h1
      obtain ⟨y, rfl, h7⟩ := List.map_eq_singleton_iff.1 h6
      exact ⟨ps', y, h4, h5, h7⟩
    have hxm : x.seg = some .move := by
      have : x.seg.map stName = some c!"move" := congrArg Prod.snd hx
      cases hsx : x.seg with
      | none => rw [hsx] at this; cases this
      | some u =>
        rw [hsx] at this
        rw [stName_move (fun s e => hk x (by simp) s (by rw [hsx, e])) (Option.some.inj this)]
    obtain ⟨u, hu, hut⟩ : ∃ u, y.seg = some u ∧ stName u = t := by
      have : y.seg.map stName = some t := congrArg Prod.snd hy
      cases hsy : y.seg with
      | none => rw [hsy] at this; cases this
      | some u => rw [hsy] at this; exact ⟨u, rfl, Option.some.inj this⟩
    have hdrop : dropOff (x :: (ps' ++ [y])).reverse = .ok (y :: (ps'.reverse ++ [x])) := by
      simp [dropOff, hu]
    have hrev := segs_reverse hs (l' := l') (x := c!"move") h1
    have hn : (retype (some .move) (y :: (ps'.reverse ++ [x]))).map named = (b, some c!"move") :: retypeP (some t) (l'.reverse ++ [(a, some c!"move")]) := by
      rw [retype_named, List.map_cons, hy, retypeP, List.map_append, List.map_singleton, hx, List.map_reverse, hps']
      rfl
    have hb : .open b ((s' ++ [g]).reverse.map Seg.flip) = (Path.open g.stop ((s' ++ [g]).reverse.map Seg.flip)) := by rw [h3]
    refine ⟨_, .open b (segs.reverse.map Seg.flip), by rw [reverseContour, if_pos hxm, hdrop], ?_, ?_⟩
    · rw [hn]
      refine .open ?_ ?_
      · rw [retypeP_snoc]; simp
      · simpa [offs] using hrev
    · rw [h2, hb]
      exact .open a s' g
  | @closed pre post q t segs hpre ht hne hs =>
    have hflip := segs_reverse hs (l' := post ++ pre) (x := t) rfl
    simp only [List.reverse_nil, offs, List.map_nil, List.append_nil, List.reverse_append] at hflip
    have hsegs : segs ≠ [] := by
      obtain ⟨_, _, _, s', g, -, h2, -⟩ := segs_last hs (by simp)
      rw [h2]; simp
    have hhead : (segs.reverse.map Seg.flip).head?.map Seg.start = some q := by
      rcases segs_head hflip with h | h
      · simp at h; exact absurd h hsegs
      · exact h
    cases pre with
    | nil =>
      obtain ⟨x, ps, rfl, hx, hps⟩ : ∃ x ps, L = x :: ps ∧ named x = (q, some t) ∧ ps.map named = post := by
        match L, hl with
        | x :: ps, h => simp only [List.nil_append, List.map_cons, List.cons.injEq] at h; exact ⟨x, ps, rfl, h.1, h.2⟩
      have hxm : x.seg ≠ some .move := by
        intro h
        have : x.seg.map stName = some t := congrArg Prod.snd hx
        rw [h] at this
        exact ht (Option.some.inj this).symm
      obtain ⟨R, hR, hn⟩ := reverseContour_named x ps hxm
      rw [hx, hps] at hn
      simp only [List.reverse_nil, List.nil_append] at hflip
      rw [retypeP_snoc] at hflip
      obtain ⟨u, hu⟩ := lastType_some t post.reverse
      rw [hu] at hflip
      have hn : R.map named = (q, some u) :: retypeP (some t) post.reverse := by
        rw [hn, retypeP]
        show (q, lastType (some t) post.reverse) :: _ = _
        rw [hu]
      refine ⟨R, .closed q (segs.reverse.map Seg.flip), hR, ?_, ?_⟩
      · rw [hn]
        refine IsPath.closed (pre := []) (by simp) (segs_types hflip (x := q) _ (by simp)) ?_ (by simpa using hflip)
        rw [List.append_nil] at hne ⊢
        intro he
        have := congrArg List.length he
        rw [length_retypeP] at this
        simp at this
        exact hne this
      · have := Backwards.closed q q segs [] (segs.reverse.map Seg.flip) rfl (by simpa using hhead)
        simpa using this
    | cons x0 pre' =>
      obtain ⟨x, ps, rfl, hx, hps⟩ : ∃ x ps, L = x :: ps ∧ named x = x0 ∧ ps.map named = pre' ++ (q, some t) :: post := by
        match L, hl with
        | x :: ps, h => simp only [List.cons_append, List.map_cons, List.cons.injEq] at h; exact ⟨x, ps, rfl, h.1, h.2⟩
      have hx0 : x0.2 = none := hpre x0 (by simp)
      have hpre' : ∀ y ∈ pre'.reverse, y.2 = none := fun y hy => hpre y (by simp [List.mem_reverse.1 hy])
      have hxm : x.seg ≠ some .move := by
        intro h
        have : x.seg.map stName = none := (congrArg Prod.snd hx).trans hx0
        rw [h] at this
        cases this
      obtain ⟨R, hR, hn⟩ := reverseContour_named x ps hxm
      rw [hx, hps] at hn
      obtain ⟨x1, x2⟩ := x0
      simp only at hx0
      subst hx0
      generalize hA : retypeP (some t) (post.reverse ++ [(q, some t)]) = A at hflip
      have hn : R.map named = (x1, none) :: (A ++ pre'.reverse) := by
        have hlt : lastType none ((x1, none) :: (pre' ++ (q, some t) :: post).reverse) = some t := by
          rw [List.reverse_append, List.reverse_cons, lastType, lastType_append, lastType_append]
          exact (retypeP_off _ _ hpre').2
        rw [hn, hlt, retypeP, List.reverse_append, List.reverse_cons, retypeP_append, hA, lastType_append]
        rw [(retypeP_off _ _ hpre').1]
      have hflip : Segs q [] (pre'.reverse ++ (x1, none) :: A) (segs.reverse.map Seg.flip) := by
        rw [List.reverse_cons, List.append_assoc, List.append_assoc, retypeP_append, (retypeP_off _ _ hpre').1, (retypeP_off _ _ hpre').2] at hflip
        rw [← hA]
        exact hflip
      obtain ⟨A0, u, hA0⟩ : ∃ A0 u, A = A0 ++ [(q, some u)] := by
        obtain ⟨u, hu⟩ := lastType_some t post.reverse
        exact ⟨retypeP (some t) post.reverse, u, by rw [← hA, retypeP_snoc, hu]⟩
      obtain ⟨A1, q2, u2, A2, hsplit, hA1⟩ := first_onP A ⟨(q, some u), by rw [hA0]; simp, by simp⟩
      obtain ⟨s1, s2, hs12, h1, h2⟩ := segs_split (X := pre'.reverse ++ (x1, none) :: A1) (p := q2) (y := u2) (Y := A2) (by rw [hsplit] at hflip; simpa only [List.append_assoc, List.cons_append] using hflip)
      have hround : Segs q2 [] (A2 ++ (pre'.reverse ++ (x1, none) :: A1) ++ [(q2, some u2)]) (s2 ++ s1) := by
        rw [hA0] at hsplit
        rcases List.eq_nil_or_concat A2 with rfl | ⟨A3, z, rfl⟩
        · cases h2
          have : (q, some u) = (q2, some u2) := by
            have := congrArg List.getLast? hsplit
            simpa using this
          cases this
          exact h1
        · have hz : (q, some u) = z := by
            rw [show A1 ++ (q2, some u2) :: A3.concat z = (A1 ++ (q2, some u2) :: A3) ++ [z] by simp] at hsplit
            have := congrArg List.getLast? hsplit
            rw [List.getLast?_concat, List.getLast?_concat] at this
            exact Option.some.inj this
          subst hz
          have := segs_append (by simpa using h2) h1
          simpa using this
      refine ⟨R, .closed q2 (s2 ++ s1), hR, ?_, ?_⟩
      · rw [hn, hsplit]
        have hp := IsPath.closed (pre := (x1, none) :: A1) (post := A2 ++ pre'.reverse) (q := q2) (t := u2) (l := s2 ++ s1) (by simpa using hA1)
          (segs_types h1 (x := q2) _ (by simp)) (by simp) (by simpa using hround)
        simpa using hp
      · refine .closed q q2 segs s1 s2 hs12 ?_
        rcases segs_head hround with h | h
        · have hle := congrArg List.length hs12
          simp only [List.append_eq_nil_iff] at h
          simp [h.1, h.2] at hle
          exact absurd hle hsegs
        · exact h
  | loop h2 hoff =>
    subst hl
    match L with
    | x :: ps =>
      have hxn : x.seg = none := by
        have : x.seg.map stName = none := hoff (named x) (by simp)
        simpa using this
      obtain ⟨R, hR, hn⟩ := reverseContour_named x ps (by rw [hxn]; simp)
      have hoff' : ∀ y ∈ named x :: (ps.map named).reverse, y.2 = none := fun y hy => hoff y (by simpa using hy)
      rw [(retypeP_off _ _ hoff').2, (retypeP_off _ _ hoff').1] at hn
      refine ⟨R, _, hR, .loop (l := R.map named) ?_ (by rw [hn]; exact hoff'), ?_⟩
      · rw [hn]; simpa using h2
      · rw [hn]
        have := Backwards.loop ((named x :: ps.map named).map Prod.fst) (ps.map named).reverse.unzip.1 [(named x).1] (by simp)
        simpa using this

/-! ### Accepted contours -/

/-- What is before every point of type `c`, going round. -/
def Round (c : Str) (Q : List (Option Str) → Prop) (l : List (Option Str)) : Prop := ∀ a b, l = a ++ some c :: b → Q (b ++ a)

theorem round_rotate {c : Str} {Q : List (Option Str) → Prop} {x y : List (Option Str)} (h : Round c Q (x ++ y)) : Round c Q (y ++ x) := by
  intro a b he
  rcases List.append_eq_append_iff.1 he with ⟨d, h1, h2⟩ | ⟨d, h1, h2⟩
  · subst h1
    have := h d (b ++ y) (by rw [h2]; simp)
    rwa [List.append_assoc] at this
  · cases d with
    | nil =>
      simp only [List.append_nil] at h1
      subst h1
      have h2 : x = some c :: b := by simpa using h2.symm
      have := h [] (b ++ y) (by rw [h2]; rfl)
      simpa using this
    | cons e d =>
      rw [List.cons_append] at h2
      injection h2 with h3 h4
      subst h1
      have := h (x ++ a) d (by rw [h3]; simp)
      rw [h4]
      simpa using this

theorem round_linear {c : Str} {N : List (Option Str)} (hN : ∀ x ∈ N, x = none) {l : List (Option Str)} {l' : List (Option Str)} {t : Str} (hl : l = l' ++ [some t])
    (h : ∀ X Y, l ≠ X ++ N ++ some c :: Y) : Round c (fun r => ∀ s, r ≠ s ++ N) l := by
  intro a b he s hs
  rcases List.append_eq_append_iff.1 hs with ⟨d, h1, h2⟩ | ⟨d, h1, h2⟩
  · exact h d b (by rw [he, h2])
  · rcases List.eq_nil_or_concat d with rfl | ⟨d, x, rfl⟩
    · exact h [] b (by rw [he, h2]; rfl)
    · have hx : x = none := hN x (by rw [h2]; simp)
      rw [h1, hx, hl] at he
      rw [List.concat_eq_append, show a ++ some c :: (s ++ (d ++ [none])) = (a ++ some c :: (s ++ d)) ++ [none] by simp] at he
      have := congrArg List.getLast? he
      rw [List.getLast?_concat, List.getLast?_concat] at this
      cases this

theorem linear_round {c : Str} {N : List (Option Str)} {l : List (Option Str)} (h : Round c (fun r => ∀ s, r ≠ s ++ N) l) : ∀ X Y, l ≠ X ++ N ++ some c :: Y := by
  intro X Y he
  exact h _ Y he (Y ++ X) (by simp)

/-- A cubic segment has at most two off-curve points. -/
def SmallSeg : Seg P → Prop
  | .curve _ o _ => o.length ≤ 2
  | _ => True

/-- All segments are small. -/
def Small : Spec.Draw.Path P → Prop
  | .open _ l => ∀ g ∈ l, SmallSeg g
  | .closed _ l => ∀ g ∈ l, SmallSeg g
  | .loop _ => True

theorem small_flip (g : Seg P) : SmallSeg g.flip ↔ SmallSeg g := by
  cases g <;> simp [Seg.flip, SmallSeg]

theorem small_backwards {p q : Spec.Draw.Path P} (h : Backwards p q) : Small p → Small q := by
  have key : ∀ l : List (Seg P), (∀ g ∈ l, SmallSeg g) → ∀ g ∈ l.reverse.map Seg.flip, SmallSeg g := by
    intro l hl g hg
    obtain ⟨g', h1, rfl⟩ := List.mem_map.1 hg
    exact (small_flip g').2 (hl g' (List.mem_reverse.1 h1))
  intro hp
  cases h with
  | dot => exact hp
  | «open» a l s => exact key _ hp
  | closed a b l u v h1 h2 =>
    intro g hg
    exact key l hp g (by rw [h1]; simpa [or_comm] using hg)
  | loop => trivial

theorem types_segs {a : P} {o : List P} {l : List (P × Option Str)} {s : List (Seg P)} (h : Segs a o l s) : ∀ t, some t ∈ l.map Prod.snd → t = c!"line" ∨ t = c!"curve" ∨ t = c!"qcurve" := by
  induction h with
  | nil a => intro t ht; cases ht
  | off h ih =>
    intro t ht
    rcases List.mem_cons.1 ht with he | h
    · cases he
    · exact ih t h
  | line h ih =>
    intro t ht
    rcases List.mem_cons.1 ht with he | h
    · cases he; simp
    · exact ih t h
  | curve h ih =>
    intro t ht
    rcases List.mem_cons.1 ht with he | h
    · cases he; simp
    · exact ih t h
  | qcurve h ih =>
    intro t ht
    rcases List.mem_cons.1 ht with he | h
    · cases he; simp
    · exact ih t h

/-- The types of a contour part, off-curve points before it included. -/
def typesOf (o : List P) (l : List (P × Option Str)) : List (Option Str) := o.map (fun _ => none) ++ l.map Prod.snd

theorem typesOf_off (o : List P) (p : P) (l : List (P × Option Str)) : typesOf (o ++ [p]) l = typesOf o ((p, none) :: l) := by simp [typesOf]

theorem small_of_segs {a : P} {o : List P} {l : List (P × Option Str)} {s : List (Seg P)} (h : Segs a o l s) :
    (∀ X Y, typesOf o l ≠ X ++ [none, none, none] ++ some c!"curve" :: Y) → ∀ g ∈ s, SmallSeg g := by
  have step : ∀ {o : List P} {t : Option Str} {p : P} {r : List (P × Option Str)}, (∀ X Y, typesOf o ((p, t) :: r) ≠ X ++ [none, none, none] ++ some c!"curve" :: Y) →
      ∀ X Y, typesOf [] r ≠ X ++ [none, none, none] ++ some c!"curve" :: Y := by
    intro o t p r h X Y he
    refine h (o.map (fun _ => none) ++ t :: X) Y ?_
    have he : r.map Prod.snd = X ++ [none, none, none] ++ some c!"curve" :: Y := he
    simp [typesOf, he]
  induction h with
  | nil a => intro _ g hg; cases hg
  | off h ih => intro hX; exact ih (by rw [typesOf_off]; exact hX)
  | line h ih =>
    intro hX g hg
    rcases List.mem_cons.1 hg with rfl | hg
    · trivial
    · exact ih (step hX) g hg
  | @curve a p o r s h ih =>
    intro hX g hg
    rcases List.mem_cons.1 hg with rfl | hg
    · show o.length ≤ 2
      by_contra hlen
      have hsplit : o.map (fun _ => (none : Option Str)) = List.replicate (o.length - 3) none ++ [none, none, none] := by
        rw [show [none, none, none] = List.replicate 3 (none : Option Str) from rfl, List.replicate_append_replicate, List.map_const']
        congr 1
        omega
      refine hX (List.replicate (o.length - 3) none) (r.map Prod.snd) ?_
      rw [typesOf, hsplit]
      rfl
    · exact ih (step hX) g hg
  | qcurve h ih =>
    intro hX g hg
    rcases List.mem_cons.1 hg with rfl | hg
    · trivial
    · exact ih (step hX) g hg

theorem not_before {o : List P} {t : Str} {p : P} {r : List (P × Option Str)} {N : List (Option Str)} {c : Str}
    (hr : ∀ X Y, typesOf [] r ≠ X ++ N ++ some c :: Y) (ho : t = c → ∀ X, o.map (fun _ => (none : Option Str)) ≠ X ++ N) (hN : ∀ x ∈ N, x = none) :
    ∀ X Y, typesOf o ((p, some t) :: r) ≠ X ++ N ++ some c :: Y := by
  intro X Y he
  have he : o.map (fun _ => (none : Option Str)) ++ some t :: r.map Prod.snd = (X ++ N) ++ some c :: Y := he
  have hoff : ∀ {x}, x ∈ o.map (fun _ => (none : Option Str)) → x = none := by
    intro x hx
    obtain ⟨_, -, rfl⟩ := List.mem_map.1 hx
    rfl
  rcases List.append_eq_append_iff.1 he with ⟨d, h1, h2⟩ | ⟨d, h1, h2⟩
  · cases d with
    | nil =>
      injection h2 with h3 h4
      exact ho (Option.some.inj h3) X (by rw [List.append_nil] at h1; exact h1.symm)
    | cons e d =>
      rw [List.cons_append] at h2
      injection h2 with h3 h4
      subst h3
      -- `d` ends with `N`
      rcases List.append_eq_append_iff.1 h1 with ⟨f, h5, h6⟩ | ⟨f, h5, h6⟩
      · have : some t ∈ N := by rw [h6]; simp
        cases hN _ this
      · cases f with
        | nil =>
          have : some t ∈ N := by rw [List.nil_append] at h6; rw [← h6]; simp
          cases hN _ this
        | cons e' f =>
          rw [List.cons_append] at h6
          injection h6 with h7 h8
          exact hr f Y (by rw [← h8]; exact h4)
  · cases d with
    | nil =>
      injection h2 with h3 h4
      exact ho (Option.some.inj h3).symm X (by rw [List.append_nil] at h1; exact h1)
    | cons e d =>
      rw [List.cons_append] at h2
      injection h2 with h3 h4
      subst h3
      have : some c ∈ o.map (fun _ => (none : Option Str)) := by rw [h1]; simp
      cases hoff this

theorem segs_small {a : P} {o : List P} {l : List (P × Option Str)} {s : List (Seg P)} (h : Segs a o l s) : (∀ g ∈ s, SmallSeg g) →
    (∀ X Y, typesOf o l ≠ X ++ [none, none, none] ++ some c!"curve" :: Y) ∧ ∀ X Y, typesOf o l ≠ X ++ [none] ++ some c!"line" :: Y := by
  have h3 : ∀ x ∈ [none, none, (none : Option Str)], x = none := by simp
  have h1 : ∀ x ∈ [(none : Option Str)], x = none := by simp
  induction h with
  | nil a => intro _; constructor <;> intro X Y he <;> simp [typesOf] at he
  | off h ih => intro hs; rw [← typesOf_off]; exact ih hs
  | line h ih =>
    intro hs
    obtain ⟨i1, i2⟩ := ih fun g hg => hs g (by simp [hg])
    refine ⟨not_before i1 (fun e => absurd e (by decide)) h3, not_before i2 (fun _ X he => ?_) h1⟩
    simp at he
  | @curve a p o r s h ih =>
    intro hs
    obtain ⟨i1, i2⟩ := ih fun g hg => hs g (by simp [hg])
    refine ⟨not_before i1 (fun _ X he => ?_) h3, not_before i2 (fun e => absurd e (by decide)) h1⟩
    have hlen : o.length ≤ 2 := hs (.curve a o p) (by simp)
    have := congrArg List.length he
    simp at this
    omega
  | qcurve h ih =>
    intro hs
    obtain ⟨i1, i2⟩ := ih fun g hg => hs g (by simp [hg])
    exact ⟨not_before i1 (fun e => absurd e (by decide)) h3, not_before i2 (fun e => absurd e (by decide)) h1⟩

theorem small_of_good {l : List (P × Option Str)} {p : Spec.Draw.Path P} (h : IsPath l p) (hg : GoodContour (l.map Prod.snd)) : Small p := by
  cases h with
  | dot => intro g hg; cases hg
  | @«open» a r s hr hs =>
    refine small_of_segs hs fun X Y he => ?_
    refine linear_round (c := c!"curve") (N := [none, none, none]) hg.curve (some c!"move" :: X) Y ?_
    have he : r.map Prod.snd = X ++ [none, none, none] ++ some c!"curve" :: Y := he
    rw [List.map_cons, he]
    rfl
  | @closed pre post q t s hpre ht hne hs =>
    have hc : Round c!"curve" (fun r => ∀ s, r ≠ s ++ [none, none, none]) ((pre ++ (q, some t) :: post).map Prod.snd) := hg.curve
    have hc' : Round c!"curve" (fun r => ∀ s, r ≠ s ++ [none, none, none]) ((post ++ pre ++ [(q, some t)]).map Prod.snd) := by
      have := round_rotate (x := (pre ++ [(q, some t)]).map Prod.snd) (y := post.map Prod.snd) (by simpa using hc)
      simpa using this
    exact small_of_segs hs (linear_round hc')
  | loop => trivial

theorem good_of_small {l : List (P × Option Str)} {p : Spec.Draw.Path P} (h : IsPath l p) (hl : 2 ≤ l.length) (hs : Small p) : GoodContour (l.map Prod.snd) := by
  have h3 : ∀ x ∈ [none, none, (none : Option Str)], x = none := by simp
  have h1 : ∀ x ∈ [(none : Option Str)], x = none := by simp
  cases h with
  | dot => simp at hl
  | @«open» a r s hr hsg =>
    obtain ⟨l', b, t, -, -, he, -, -⟩ := segs_last hsg hr
    have hend : ((a, some c!"move") :: r).map Prod.snd = (some c!"move" :: l'.map Prod.snd) ++ [some t] := by rw [he]; simp
    have hend' : r = l' ++ [(b, some t)] := he
    obtain ⟨k1, k2⟩ := segs_small hsg hs
    have lift : ∀ {N : List (Option Str)} {c : Str}, N ≠ [] → (∀ x ∈ N, x = none) → (∀ X Y, typesOf [] r ≠ X ++ N ++ some c :: Y) →
        ∀ X Y, ((a, some c!"move") :: r).map Prod.snd ≠ X ++ N ++ some c :: Y := by
      intro N c hN hN' hr X Y he
      cases X with
      | nil =>
        obtain ⟨x, N, rfl⟩ := List.exists_cons_of_ne_nil hN
        injection he with h5 h6
        have := hN' x (by simp)
        rw [this] at h5
        cases h5
      | cons x X =>
        injection he with h5 h6
        exact hr X Y h6
    have hmove : ∀ u v, ((a, some c!"move") :: r).map Prod.snd = u ++ some c!"move" :: v → u = [] := by
      intro u v he
      cases u with
      | nil => rfl
      | cons x u =>
        injection he with h5 h6
        have : some c!"move" ∈ r.map Prod.snd := by rw [h6]; simp
        rcases types_segs hsg _ this with h | h | h <;> exact absurd h (by decide)
    refine ⟨?_, hmove, ?_, fun a b he => round_linear h3 hend (lift (by simp) h3 k1) a b he⟩
    · intro u hu
      rcases List.mem_cons.1 hu with he | hu
      · exact .inl (Option.some.inj he)
      · exact .inr (types_segs hsg u hu)
    · intro u v c he hc
      rcases hc with rfl | rfl
      · have := hmove u v he
        subst this
        injection he with h5 h6
        intro s hs
        rw [List.append_nil, ← h6] at hs
        have h7 := congrArg List.getLast? hs
        have h8 : (r.map Prod.snd).getLast? = some (some t) := by
          rw [hend']; simp
        rw [h8] at h7
        simp at h7
      · exact round_linear h1 hend (lift (by simp) h1 k2) u v he
  | @closed pre post q t s hpre ht hne hsg =>
    obtain ⟨k1, k2⟩ := segs_small hsg hs
    have hend : (post ++ pre ++ [(q, some t)]).map Prod.snd = (post ++ pre).map Prod.snd ++ [some t] := by simp
    have back : ∀ {c : Str} {Q : List (Option Str) → Prop}, Round c Q ((post ++ pre ++ [(q, some t)]).map Prod.snd) → Round c Q ((pre ++ (q, some t) :: post).map Prod.snd) := by
      intro c Q h
      have := round_rotate (x := post.map Prod.snd) (y := (pre ++ [(q, some t)]).map Prod.snd) (by simpa using h)
      simpa using this
    have htypes : ∀ u, some u ∈ (pre ++ (q, some t) :: post).map Prod.snd → u = c!"line" ∨ u = c!"curve" ∨ u = c!"qcurve" := by
      intro u hu
      refine types_segs hsg u ?_
      simp only [List.map_append, List.map_cons, List.mem_append, List.mem_cons] at hu ⊢
      tauto
    have hnm : ∀ u v, (pre ++ (q, some t) :: post).map Prod.snd ≠ u ++ some c!"move" :: v := by
      intro u v he
      rcases htypes c!"move" (by rw [he]; simp) with h | h | h <;> exact absurd h (by decide)
    refine ⟨fun u hu => .inr (htypes u hu), fun u v he => absurd he (hnm u v), ?_, fun u v he => back (round_linear h3 hend k1) u v he⟩
    intro u v c he hc
    rcases hc with rfl | rfl
    · exact absurd he (hnm u v)
    · exact back (round_linear h1 hend k2) u v he
  | loop h2 hoff =>
    have hno : ∀ t u v, l.map Prod.snd ≠ u ++ some t :: v := by
      intro t u v he
      have : some t ∈ l.map Prod.snd := by rw [he]; simp
      obtain ⟨x, hx, hxt⟩ := List.mem_map.1 this
      rw [hoff x hx] at hxt
      cases hxt
    refine ⟨fun t ht => ?_, fun u v he => absurd he (hno _ u v), fun u v t he => absurd he (hno t u v), fun u v he => absurd he (hno _ u v)⟩
    obtain ⟨u, v, he⟩ := List.append_of_mem ht
    exact absurd he (hno t u v)

/-! ### Points -/

/-- A point but for its type. -/
def plain (p : Point P K) : P × Bool × Option Str × K × Bool := (p.pt, p.smooth, p.name, p.kwargs, p.seg.isNone)

theorem retype_plain : ∀ (last : Option ST) (l : List (Point P K)), (last = none → ∀ p ∈ l, p.seg = none) → (retype last l).map plain = l.map plain
  | _, [], _ => rfl
  | last, p :: l, h => by
    cases hp : p.seg with
    | none =>
      have : (retype last (p :: l)) = p :: retype last l := by simp [retype, hp]
      rw [this, List.map_cons, List.map_cons, retype_plain last l fun e q hq => h e q (by simp [hq])]
    | some t =>
      have : (retype last (p :: l)) = { p with seg := last } :: retype (some t) l := by simp [retype, hp]
      rw [this, List.map_cons, List.map_cons, retype_plain (some t) l fun e => nomatch e]
      have hl : last.isNone = false := by
        cases last with
        | none => have := h rfl p (by simp); rw [hp] at this; cases this
        | some u => rfl
      simp [plain, hp, hl]

theorem retype_known : ∀ (last : Option ST) (l : List (Point P K)), (∀ s, last ≠ some (.other s)) → (∀ p ∈ l, ∀ s, p.seg ≠ some (.other s)) →
    ∀ p ∈ retype last l, ∀ s, p.seg ≠ some (.other s)
  | _, [], _, _ => by simp [retype]
  | last, p :: l, h, hl => by
    have hl' : ∀ p ∈ l, ∀ s, p.seg ≠ some (.other s) := fun q hq => hl q (by simp [hq])
    cases hp : p.seg with
    | none =>
      have : (retype last (p :: l)) = p :: retype last l := by simp [retype, hp]
      rw [this]
      intro q hq
      rcases List.mem_cons.1 hq with rfl | hq
      · exact hl _ (by simp)
      · exact retype_known last l h hl' q hq
    | some t =>
      have : (retype last (p :: l)) = { p with seg := last } :: retype (some t) l := by simp [retype, hp]
      rw [this]
      intro q hq
      rcases List.mem_cons.1 hq with rfl | hq
      · exact h
      · exact retype_known (some t) l (fun s => by rw [← hp]; exact hl p (by simp) s) hl' q hq

theorem firstOnType_mem : ∀ (l : List (Point P K)), (firstOnType l = none ∧ ∀ p ∈ l, p.seg = none) ∨ ∃ p ∈ l, firstOnType l = p.seg ∧ p.seg ≠ none
  | [] => .inl ⟨rfl, by simp⟩
  | p :: l => by
    cases hp : p.seg with
    | some t => exact .inr ⟨p, by simp, by simp [firstOnType, hp], by simp [hp]⟩
    | none =>
      have hf : firstOnType (p :: l) = firstOnType l := by simp [firstOnType, hp]
      rw [hf]
      rcases firstOnType_mem l with ⟨h1, h2⟩ | ⟨q, h1, h2⟩
      · exact .inl ⟨h1, by simpa [hp] using h2⟩
      · exact .inr ⟨q, by simp [h1], h2⟩

theorem dropOff_sub : ∀ (l : List (Point P K)) {r}, dropOff l = .ok r → ∀ p ∈ r, p ∈ l
  | [], r, h => by cases h
  | p :: l, r, h => by
    rw [dropOff] at h
    split at h
    · cases h; exact fun q hq => hq
    · exact fun q hq => by simp [dropOff_sub l h q hq]

/-- The points of a reversed contour: none is lost or changed but for its type, and there are no new types. -/
theorem reverse_points {L R : List (Point P K)} (h : reverseContour L = .ok R) (hk : ∀ p ∈ L, ∀ s, p.seg ≠ some (.other s))
    (he : L.head?.bind (·.seg) = some .move → ∀ p, L.getLast? = some p → p.seg ≠ none) :
    (L.map plain).Perm (R.map plain) ∧ ∀ p ∈ R, ∀ s, p.seg ≠ some (.other s) := by
  cases L with
  | nil => cases h; simp
  | cons x ps =>
    rw [reverseContour] at h
    split at h
    next hx =>
      obtain ⟨y, l, hl⟩ : ∃ y l, (x :: ps).reverse = y :: l := List.exists_cons_of_ne_nil (by simp)
      have hy : y.seg ≠ none := by
        refine he (by simp [hx]) y ?_
        have := congrArg List.head? hl
        rwa [List.head?_reverse] at this
      obtain ⟨t, ht⟩ := Option.ne_none_iff_exists'.1 hy
      have hd : dropOff (x :: ps).reverse = .ok (y :: l) := by rw [hl]; simp [dropOff, ht]
      rw [hd] at h
      cases h
      refine ⟨?_, retype_known _ _ (by simp) fun q hq => hk q (by rw [← List.mem_reverse, hl]; exact hq)⟩
      rw [retype_plain (some .move) _ (fun e => nomatch e), ← hl, List.map_reverse]
      exact (List.reverse_perm _).symm
    next hx =>
      cases h
      have hmem : ∀ q, q ∈ (ps ++ [x]).reverse → q ∈ x :: ps := fun q hq => by simpa [or_comm] using hq
      refine ⟨?_, retype_known _ _ ?_ fun q hq => hk q (hmem q hq)⟩
      · rw [retype_plain, List.map_reverse]
        · refine List.Perm.trans ?_ (List.reverse_perm _).symm
          rw [List.map_append, List.map_cons]
          exact (List.perm_append_singleton _ _).symm
        · intro e q hq
          rcases firstOnType_mem (ps ++ [x]) with ⟨-, h2⟩ | ⟨z, -, h2, h3⟩
          · exact h2 q (List.mem_reverse.1 hq)
          · rw [h2] at e; exact absurd e h3
      · intro s e
        rcases firstOnType_mem (ps ++ [x]) with ⟨h1, -⟩ | ⟨z, h1, h2, -⟩
        · rw [h1] at e; cases e
        · rw [h2] at e; exact hk z (by simpa [or_comm] using h1) s e

theorem revPen_contour (i : Option Str) (L : List (Point P K)) {R : List (Point P K)} (h : reverseContour L = .ok R) :
    runPen (revStep (C := C)) none (.beginPath i :: (L.map .addPoint ++ [.endPath])) = .ok (none, .beginPath i :: (R.map .addPoint ++ [.endPath])) := by
  have hp : ∀ (m l : List (Point P K)), runPen (revStep (C := C)) (some (i, l)) (m.map .addPoint) = .ok (some (i, l ++ m), []) := by
    intro m
    induction m with
    | nil => intro l; simp [runPen]
    | cons x m ih => intro l; simp [runPen, revStep, ih]
  rw [runPen]
  simp only [revStep]
  rw [runPen_append _ _ _ _ _ _ (hp L [])]
  simp [runPen, revStep, h]

end Verif.PointPens
