import Verif.Spec.PointPens
import Mathlib.Tactic.Ring
/-! Lemmas about the pens. -/
namespace Verif.PointPens
open Verif Verif.Spec.PointPens

variable {P K C : Type}

/-- A point with its on-curve type forgotten. -/
def shape (p : Point P K) : Point P K := { p with seg := p.seg.map fun _ => ST.move }

/-- Types of the on-curve points. -/
def onTypes (l : List (Point P K)) : List ST := l.filterMap (·.seg)

theorem ext_shape : ∀ {l m : List (Point P K)}, l.map shape = m.map shape → onTypes l = onTypes m → l = m
  | [], [], _, _ => rfl
  | [], _ :: _, h, _ => by simp at h
  | _ :: _, [], h, _ => by simp at h
  | ⟨p1, s1, sm1, n1, k1⟩ :: l, ⟨p2, s2, sm2, n2, k2⟩ :: m, h, ht => by
    simp only [List.map_cons, List.cons.injEq, shape, Point.mk.injEq] at h
    obtain ⟨⟨rfl, hs, rfl, rfl, rfl⟩, hl⟩ := h
    cases s1 with
    | none =>
      cases s2 with
      | none => rw [ext_shape hl (by simpa [onTypes] using ht)]
      | some t => simp at hs
    | some t1 =>
      cases s2 with
      | none => simp at hs
      | some t2 =>
        simp only [onTypes, List.filterMap_cons, List.cons.injEq] at ht
        rw [ht.1, ext_shape hl ht.2]

theorem onTypes_append (l m : List (Point P K)) : onTypes (l ++ m) = onTypes l ++ onTypes m := by
  simp [onTypes]

theorem onTypes_cons (p : Point P K) (l : List (Point P K)) : onTypes (p :: l) = onTypes [p] ++ onTypes l :=
  onTypes_append [p] l

theorem onTypes_reverse (l : List (Point P K)) : onTypes l.reverse = (onTypes l).reverse := by
  simp [onTypes, List.filterMap_reverse]

theorem firstOnType_eq (l : List (Point P K)) : firstOnType l = (onTypes l).head? := by
  induction l with
  | nil => rfl
  | cons p l ih =>
    unfold firstOnType
    rcases h : p.seg with _ | t
    · simp only [onTypes, List.filterMap_cons_none h]; exact ih
    · simp only [onTypes, List.filterMap_cons_some h, List.head?_cons]

theorem onTypes_retype (t : ST) (l : List (Point P K)) : onTypes (retype (some t) l) = (t :: onTypes l).dropLast := by
  induction l generalizing t with
  | nil => simp [retype, onTypes]
  | cons p l ih =>
    unfold retype
    rcases h : p.seg with _ | t'
    · simp only [onTypes, List.filterMap_cons_none h]; exact ih t
    · have := ih t'
      simp only [onTypes] at this
      simp only [onTypes, List.filterMap_cons_some h, List.filterMap_cons, this, List.dropLast_cons_cons]

theorem shape_retype (t : ST) (l : List (Point P K)) : (retype (some t) l).map shape = l.map shape := by
  induction l generalizing t with
  | nil => rfl
  | cons p l ih =>
    unfold retype
    rcases h : p.seg with _ | t'
    · simp [ih t]
    · simp [ih t', shape, h]

theorem retype_off (o : Option ST) (l : List (Point P K)) (h : onTypes l = []) : retype o l = l := by
  induction l with
  | nil => rfl
  | cons p l ih =>
    unfold retype
    rcases hp : p.seg with _ | t
    · simp only [onTypes, List.filterMap_cons_none hp] at h
      simp [ih h]
    · simp [onTypes, List.filterMap_cons_some hp] at h

theorem shape_retype' (o : Option ST) (l : List (Point P K)) (h : o = none → onTypes l = []) :
    (retype o l).map shape = l.map shape := by
  cases o with
  | none => rw [retype_off _ _ (h rfl)]
  | some t => exact shape_retype t l

theorem length_retype (o : Option ST) (l : List (Point P K)) : (retype o l).length = l.length := by
  induction l generalizing o with
  | nil => rfl
  | cons p l ih =>
    unfold retype
    rcases h : p.seg with _ | t <;> simp [ih]

theorem head?_shape {l : List (Point P K)} {o : Option ST} {p : Point P K} (h : l.head? = some p) :
    ∃ q, (retype o l).head? = some q ∧ (p.seg = none → q = p) ∧ (p.seg ≠ none → q = { p with seg := o }) := by
  cases l with
  | nil => simp at h
  | cons x l =>
    simp only [List.head?_cons, Option.some.injEq] at h
    subst h
    unfold retype
    rcases hp : x.seg with _ | t
    · exact ⟨x, rfl, by simp, by simp⟩
    · exact ⟨_, rfl, by simp, by simp⟩

theorem reverseContour_closed (p : Point P K) (ps : List (Point P K)) (h : p.seg ≠ some .move) :
    reverseContour (p :: ps) = .ok (retype ((onTypes (ps ++ [p])).head?) (p :: ps.reverse)) := by
  simp [reverseContour, h, firstOnType_eq]

theorem dropOff_eq (l : List (Point P K)) : dropOff l = if onTypes l = [] then .error .indexError else .ok (l.dropWhile fun p => p.seg.isNone) := by
  induction l with
  | nil => simp [dropOff, onTypes]
  | cons p l ih =>
    unfold dropOff
    rcases h : p.seg with _ | t
    · simp only [onTypes, List.filterMap_cons_none h, List.dropWhile_cons, h] at ih ⊢
      simpa using ih
    · simp [onTypes, List.filterMap_cons_some h, h]

theorem reverseContour_open (p : Point P K) (ps : List (Point P K)) (h : p.seg = some .move) :
    reverseContour (p :: ps) = .ok (retype (some .move) ((p :: ps).reverse.dropWhile fun p => p.seg.isNone)) := by
  have : onTypes (p :: ps).reverse ≠ [] := by
    rw [onTypes_reverse]; simp [onTypes, List.filterMap_cons_some h]
  simp only [reverseContour, h, if_true]
  rw [dropOff_eq, if_neg this]

/-- Reversing never raises. -/
theorem reverseContour_total (l : List (Point P K)) : ∃ r, reverseContour l = .ok r := by
  cases l with
  | nil => exact ⟨[], rfl⟩
  | cons p ps =>
    by_cases h : p.seg = some .move
    · exact ⟨_, reverseContour_open p ps h⟩
    · exact ⟨_, reverseContour_closed p ps h⟩

theorem dropLast_cons_reverse {α : Type} (a : α) (l : List α) : (a :: l.reverse).dropLast = (a :: (l.drop 1).reverse).take l.length := by
  cases l with
  | nil => simp
  | cons b l =>
    rw [List.reverse_cons, List.drop_succ_cons, List.drop_zero]
    rw [show a :: (l.reverse ++ [b]) = (a :: l.reverse) ++ [b] by simp, List.dropLast_concat]
    rw [List.take_of_length_le (by simp)]

/-- Closed contours: twice is the identity. -/
theorem reverse_closed_twice (p : Point P K) (ps : List (Point P K)) (h : p.seg ≠ some .move)
    (hm : ∀ q ∈ ps, q.seg ≠ some .move) :
    ∃ r, reverseContour (p :: ps) = .ok r ∧ reverseContour r = .ok (p :: ps) := by
  refine ⟨_, reverseContour_closed p ps h, ?_⟩
  rcases hO : onTypes (ps ++ [p]) with _ | ⟨o1, O⟩
  · -- no on-curve point
    have hp : onTypes (p :: ps.reverse) = [] := by
      rw [onTypes_append] at hO
      have h1 : onTypes ps = [] := (List.append_eq_nil_iff.1 hO).1
      have h2 : onTypes [p] = [] := (List.append_eq_nil_iff.1 hO).2
      rw [← List.singleton_append, onTypes_append, onTypes_reverse, h1, h2]; rfl
    rw [retype_off _ _ hp, reverseContour_closed p _ h]
    have hp' : onTypes (p :: ps) = [] := by
      rw [onTypes_append] at hO
      rw [← List.singleton_append, onTypes_append, (List.append_eq_nil_iff.1 hO).1, (List.append_eq_nil_iff.1 hO).2]; rfl
    rw [List.reverse_reverse, retype_off _ _ hp']
  · -- there is an on-curve point
    have hne : ∀ x ∈ o1 :: O, x ≠ ST.move := by
      intro x hx
      rw [← hO, onTypes, List.mem_filterMap] at hx
      obtain ⟨q, hq, hqx⟩ := hx
      rw [List.mem_append, List.mem_singleton] at hq
      rintro rfl
      rcases hq with hq | hq
      · exact hm q hq hqx
      · exact h (hq ▸ hqx)
    simp only [List.head?_cons]
    rcases hr : retype (some o1) (p :: ps.reverse) with _ | ⟨q, qs⟩
    · have := length_retype (some o1) (p :: ps.reverse); rw [hr] at this; simp at this
    · have hshape : (q :: qs).map shape = (p :: ps.reverse).map shape := by rw [← hr]; exact shape_retype _ _
      have hon : onTypes (q :: qs) = (o1 :: onTypes (p :: ps.reverse)).dropLast := by rw [← hr]; exact onTypes_retype _ _
      simp only [List.map_cons, List.cons.injEq] at hshape
      obtain ⟨hq, hqs⟩ := hshape
      have hqm : q.seg ≠ some .move := by
        intro hq'
        have : ST.move ∈ onTypes (q :: qs) := by simp [onTypes, List.filterMap_cons_some hq']
        rw [hon] at this
        have := List.dropLast_subset _ this
        have hsub : ST.move ∈ o1 :: O := by
          rcases List.mem_cons.1 this with h' | h'
          · exact h' ▸ List.mem_cons_self
          · rw [← hO]
            simp only [onTypes, List.mem_filterMap, List.mem_cons, List.mem_reverse, List.mem_append, List.not_mem_nil, or_false] at h' ⊢
            obtain ⟨a, ha, hb⟩ := h'
            exact ⟨a, ha.symm, hb⟩
        exact hne _ hsub rfl
      rw [reverseContour_closed q qs hqm]
      congr 1
      -- compare shapes and types
      have hsplit : onTypes ps ++ onTypes [p] = o1 :: O := by rw [← onTypes_append]; exact hO
      have h1 : onTypes [q] ++ onTypes qs = (o1 :: (onTypes [p] ++ (onTypes ps).reverse)).dropLast := by
        rw [← onTypes_append, ← onTypes_reverse, ← onTypes_append]; exact hon
      have hflag : q.seg = none ↔ p.seg = none := by
        have := congrArg Point.seg hq
        simp only [shape] at this
        cases hq1 : q.seg <;> cases hp1 : p.seg <;> simp_all
      rcases hp1 : p.seg with _ | tp
      · -- off-curve first point
        have hq1 : q.seg = none := hflag.2 hp1
        have e1 : onTypes [q] = [] := by simp [onTypes, hq1]
        have e2 : onTypes [p] = [] := by simp [onTypes, hp1]
        rw [e1, e2, List.nil_append, List.nil_append] at h1
        rw [e2, List.append_nil] at hsplit
        have hqt : onTypes qs = o1 :: O.reverse := by
          rw [h1, hsplit, dropLast_cons_reverse, List.take_of_length_le (by simp)]; rfl
        have hhead : (onTypes (qs ++ [q])).head? = some o1 := by rw [onTypes_append, e1, hqt]; rfl
        rw [hhead]
        refine ext_shape ?_ ?_
        · rw [shape_retype]
          simp only [List.map_cons, List.cons.injEq]
          refine ⟨hq, ?_⟩
          rw [List.map_reverse, hqs, List.map_reverse, List.reverse_reverse]
        · rw [onTypes_retype, onTypes_cons q, e1, onTypes_reverse, hqt,
            onTypes_cons p, e2, hsplit, List.nil_append, List.nil_append, List.reverse_cons,
            List.reverse_reverse, ← List.cons_append, List.dropLast_concat]
      · -- on-curve first point
        have hq1 : q.seg ≠ none := by rw [Ne, hflag, hp1]; simp
        obtain ⟨tq, hq1⟩ := Option.ne_none_iff_exists'.1 hq1
        have e1 : onTypes [q] = [tq] := by simp [onTypes, hq1]
        have e2 : onTypes [p] = [tp] := by simp [onTypes, hp1]
        rw [e1, e2] at h1
        rw [e2] at hsplit
        have h2 : tq = o1 ∧ onTypes qs = ((tp :: (onTypes ps).reverse)).dropLast := by
          rw [List.singleton_append, List.singleton_append, List.dropLast_cons_cons] at h1
          exact ⟨(List.cons.inj h1).1, (List.cons.inj h1).2⟩
        rcases hps : onTypes ps with _ | ⟨a, A⟩
        · rw [hps] at h2 hsplit
          simp only [List.nil_append, List.cons.injEq] at hsplit
          have hqt : onTypes qs = [] := by simpa using h2.2
          have hhead : (onTypes (qs ++ [q])).head? = some tq := by rw [onTypes_append, hqt, e1]; rfl
          rw [hhead]
          refine ext_shape ?_ ?_
          · rw [shape_retype]
            simp only [List.map_cons, List.cons.injEq]
            refine ⟨hq, ?_⟩
            rw [List.map_reverse, hqs, List.map_reverse, List.reverse_reverse]
          · rw [onTypes_retype, onTypes_cons q, e1, onTypes_reverse, hqt,
              onTypes_cons p, e2, hps]
            simp [h2.1, hsplit.1]
        · rw [hps] at h2 hsplit
          simp only [List.cons_append, List.cons.injEq] at hsplit
          have hqt : onTypes qs = tp :: A.reverse := by
            rw [h2.2, dropLast_cons_reverse, List.take_of_length_le (by simp)]; rfl
          have hhead : (onTypes (qs ++ [q])).head? = some tp := by rw [onTypes_append, hqt]; rfl
          rw [hhead]
          refine ext_shape ?_ ?_
          · rw [shape_retype]
            simp only [List.map_cons, List.cons.injEq]
            refine ⟨hq, ?_⟩
            rw [List.map_reverse, hqs, List.map_reverse, List.reverse_reverse]
          · rw [onTypes_retype, onTypes_cons q, e1, onTypes_reverse, hqt,
              onTypes_cons p, e2, hps]
            simp only [List.singleton_append, List.reverse_cons, List.reverse_reverse, h2.1, hsplit.1]
            rw [← List.cons_append, ← List.cons_append, List.dropLast_concat]

/-- Open contours without trailing off-curve points: twice is the identity. -/
theorem reverse_open_twice (p : Point P K) (ps : List (Point P K)) (h : p.seg = some .move) (he : EndsOn (p :: ps)) :
    ∃ r, reverseContour (p :: ps) = .ok r ∧ reverseContour r = .ok (p :: ps) := by
  refine ⟨_, reverseContour_open p ps h, ?_⟩
  obtain ⟨z, hz, hzn⟩ := he
  have hrev : ∃ zs, (p :: ps).reverse = z :: zs := by
    rcases hl : (p :: ps).reverse with _ | ⟨y, ys⟩
    · simp at hl
    · refine ⟨ys, ?_⟩
      rw [← List.head?_reverse, hl] at hz
      simp at hz; rw [hz]
  obtain ⟨zs, hzs⟩ := hrev
  have hdw : (p :: ps).reverse.dropWhile (fun p => p.seg.isNone) = z :: zs := by
    rw [hzs, List.dropWhile_cons]
    have : z.seg.isNone = false := by cases hz' : z.seg <;> simp_all
    simp [this]
  rw [hdw]
  obtain ⟨tz, htz⟩ := Option.ne_none_iff_exists'.1 hzn
  have hret : retype (some ST.move) (z :: zs) = { z with seg := some .move } :: retype (some tz) zs := by
    rw [retype]; simp only [htz]
  rw [hret, reverseContour_open _ _ rfl]
  -- the reversed list ends with the original first point
  have hzz : z :: zs = (ps.reverse) ++ [p] := by rw [← hzs]; simp
  set r := ({ z with seg := some .move } :: retype (some tz) zs : List (Point P K)) with hr
  have hshape : r.map shape = ((p :: ps).reverse).map shape := by
    rw [hzs, ← hret]; exact shape_retype _ _
  have hon : onTypes r = (ST.move :: onTypes (p :: ps).reverse).dropLast := by
    rw [hzs, ← hret]; exact onTypes_retype _ _
  have hon' : onTypes r = ST.move :: (onTypes ps).reverse := by
    rw [hon, onTypes_reverse, onTypes_cons p]
    have : onTypes [p] = [.move] := by simp [onTypes, h]
    rw [this, List.singleton_append, List.reverse_cons, ← List.cons_append, List.dropLast_concat]
  have hnodrop : r.reverse.dropWhile (fun p => p.seg.isNone) = r.reverse := by
    have hsh : (r.reverse).map shape = (p :: ps).map shape := by
      rw [List.map_reverse, hshape, List.map_reverse, List.reverse_reverse]
    rcases hrr : r.reverse with _ | ⟨y, ys⟩
    · rfl
    · rw [hrr] at hsh
      simp only [List.map_cons, List.cons.injEq] at hsh
      have := congrArg Point.seg hsh.1
      simp only [shape, h] at this
      rw [List.dropWhile_cons]
      have : y.seg.isNone = false := by cases hy : y.seg <;> simp_all
      simp [this]
  rw [hnodrop]
  congr 1
  refine ext_shape ?_ ?_
  · rw [shape_retype, List.map_reverse, hshape, List.map_reverse, List.reverse_reverse]
  · rw [onTypes_retype, onTypes_reverse, hon', onTypes_cons p]
    have : onTypes [p] = [.move] := by simp [onTypes, h]
    rw [this, List.reverse_cons, List.reverse_reverse, ← List.cons_append, List.dropLast_concat]; rfl

/-! ### indices -/

theorem getElem?_retype (o : Option ST) : ∀ (l : List (Point P K)) (i : Nat) (p : Point P K), l[i]? = some p →
    (p.seg = none → (retype o l)[i]? = some p) ∧
    (p.seg ≠ none → (retype o l)[i]? = some { p with seg := ((onTypes (l.take i)).getLast?).or o }) := by
  intro l
  induction l generalizing o with
  | nil => intro i p h; simp at h
  | cons x l ih =>
    intro i p h
    cases i with
    | zero =>
      simp only [List.getElem?_cons_zero, Option.some.injEq] at h
      subst h
      unfold retype
      rcases hx : x.seg with _ | t
      · simp
      · simp [onTypes]
    | succ i =>
      simp only [List.getElem?_cons_succ] at h
      unfold retype
      rcases hx : x.seg with _ | t
      · obtain ⟨a, b⟩ := ih o i p h
        refine ⟨fun hp => by simpa using a hp, fun hp => ?_⟩
        simp only [List.getElem?_cons_succ, List.take_succ_cons, onTypes, List.filterMap_cons_none hx]
        exact b hp
      · obtain ⟨a, b⟩ := ih (some t) i p h
        refine ⟨fun hp => by simpa using a hp, fun hp => ?_⟩
        simp only [List.getElem?_cons_succ, List.take_succ_cons, onTypes, List.filterMap_cons_some hx]
        rw [b hp]
        congr 2
        rw [onTypes]
        rcases hl : List.filterMap (fun x : Point P K => x.seg) (List.take i l) with _ | ⟨y, ys⟩
        · simp
        · rw [List.getLast?_cons_cons]
          rw [List.getLast?_eq_some_getLast (show y :: ys ≠ [] by simp)]; rfl

theorem head?_onTypes {l : List (Point P K)} {t : ST} (h : (onTypes l).head? = some t) :
    ∃ j : Nat, (l[j]?).bind (·.seg) = some t ∧ ∀ i < j, (l[i]?).map (·.seg) = some none := by
  induction l with
  | nil => simp [onTypes] at h
  | cons p l ih =>
    rcases hp : p.seg with _ | t'
    · simp only [onTypes, List.filterMap_cons_none hp] at h
      obtain ⟨j, h1, h2⟩ := ih h
      refine ⟨j + 1, by simpa using h1, fun i hi => ?_⟩
      cases i with
      | zero => simp [hp]
      | succ i => simpa using h2 i (by omega)
    · simp only [onTypes, List.filterMap_cons_some hp, List.head?_cons, Option.some.injEq] at h
      subst h
      exact ⟨0, by simp [hp], by omega⟩

theorem reverseContour_isReversed (p : Point P K) (ps : List (Point P K)) (h : p.seg ≠ some .move) :
    ∃ r, reverseContour (p :: ps) = .ok r ∧ IsReversed (p :: ps) r := by
  refine ⟨_, reverseContour_closed p ps h, ?_⟩
  set l := p :: ps with hl
  set n := l.length with hn
  have hn1 : n = ps.length + 1 := by simp [hn, hl]
  set o := (onTypes (ps ++ [p])).head? with ho
  -- the reversed list, index by index
  have hidx : ∀ k, k < n → (p :: ps.reverse)[k]? = l[(n - k) % n]? := by
    intro k hk
    cases k with
    | zero => simp [hl]
    | succ k =>
      have e : (n - (k + 1)) % n = n - (k + 1) := Nat.mod_eq_of_lt (by omega)
      rw [e, hl, List.getElem?_cons_succ, show n - (k + 1) = (ps.length - 1 - k) + 1 by omega, List.getElem?_cons_succ,
        List.getElem?_reverse (by omega)]
  have hidx' : ∀ i, i < n → (p :: ps.reverse)[(n - i) % n]? = l[i]? := by
    intro i hi
    rw [hidx _ (Nat.mod_lt _ (by omega))]
    congr 1
    cases i with
    | zero => simp
    | succ i =>
      rw [Nat.mod_eq_of_lt (a := n - (i + 1)) (by omega), Nat.mod_eq_of_lt (by omega)]
      omega
  refine ⟨by rw [length_retype]; simp [hl], fun i q hq => ?_⟩
  have hi : i < n := by rw [hn]; exact (List.getElem?_eq_some_iff.1 hq).1
  rw [← hidx' i hi] at hq
  obtain ⟨g1, g2⟩ := getElem?_retype o (p :: ps.reverse) _ q hq
  rcases hqs : q.seg with _ | tq
  · exact ⟨q, g1 hqs, ⟨rfl, rfl, rfl, rfl, Iff.rfl⟩, by simp [hqs]⟩
  · have hqn : q.seg ≠ none := by simp [hqs]
    set k := (n - i) % n with hk
    have hkn : k < n := Nat.mod_lt _ (by omega)
    -- the new type is never missing
    have hon : onTypes (ps ++ [p]) ≠ [] := by
      have hmem : q ∈ p :: ps.reverse := List.mem_of_getElem? hq
      intro h0
      have : tq ∈ onTypes (ps ++ [p]) := by
        rw [onTypes, List.mem_filterMap]
        refine ⟨q, ?_, hqs⟩
        simp only [List.mem_cons, List.mem_reverse] at hmem
        simp [hmem.symm]
      rw [h0] at this; cases this
    rcases hlast : (onTypes ((p :: ps.reverse).take k)).getLast? with _ | t
    · -- no on-curve point before: wraps around
      rcases Option.eq_none_or_eq_some o with hO | ⟨t, hO⟩
      · rw [ho, List.head?_eq_none_iff] at hO; exact absurd hO hon
      · refine ⟨_, g2 hqn, ⟨rfl, rfl, rfl, rfl, by simp [hqs, hlast, hO]⟩, ?_⟩
        intro t' ht'
        simp only [hlast, hO, Option.none_or, Option.some.injEq] at ht'
        subst ht'
        rw [ho] at hO
        obtain ⟨j, hj1, hj2⟩ := head?_onTypes hO
        have hidx2 : ∀ j, j < n → (ps ++ [p])[j]? = l[(j + 1) % n]? := by
          intro j hj
          by_cases hjl : j < ps.length
          · rw [List.getElem?_append_left hjl, Nat.mod_eq_of_lt (by omega), hl, List.getElem?_cons_succ]
          · have : j = ps.length := by omega
            subst this
            rw [List.getElem?_append_right (by omega), ← hn1, Nat.mod_self, hl]; simp
        have hjn : j < n := by
          by_contra hc
          rw [List.getElem?_eq_none (by simp; omega)] at hj1
          simp at hj1
        have hoff : ∀ m, m < k → ((p :: ps.reverse)[m]?).map (·.seg) = some none := by
          intro m hm
          rw [List.getLast?_eq_none_iff] at hlast
          have hmn : m < (p :: ps.reverse).length := by simp; omega
          rw [List.getElem?_eq_getElem hmn]
          simp only [Option.map_some, Option.some.injEq]
          rcases hms : ((p :: ps.reverse)[m]).seg with _ | t'
          · rfl
          · have : t' ∈ onTypes ((p :: ps.reverse).take k) := by
              rw [onTypes, List.mem_filterMap]
              refine ⟨_, ?_, hms⟩
              rw [List.mem_take_iff_getElem]
              exact ⟨m, by omega, rfl⟩
            rw [hlast] at this; cases this
        -- index i corresponds to k; j + 1 is where the next on-curve point is
        refine ⟨(j + 1 + n - i - 1) % n + 1, by omega, Nat.mod_lt _ (by omega), ?_, ?_⟩
        · rw [← hn, show (i + ((j + 1 + n - i - 1) % n + 1)) % n = (j + 1) % n by
            rw [← Nat.add_assoc, Nat.add_right_comm, Nat.add_mod_mod]
            rw [show i + 1 + (j + 1 + n - i - 1) = j + 1 + n by omega, Nat.add_mod_right]]
          rw [← hidx2 j hjn]; exact hj1
        · intro d' hd1 hd2
          rw [← hn]
          -- d' positions after i: either still before the wrap (index m < k of the reversed list) or after it
          have hk' : k = if i = 0 then 0 else n - i := by
            rw [hk]; split
            · next h0 => rw [h0]; simp
            · exact Nat.mod_eq_of_lt (by omega)
          by_cases hw : i + d' < n
          · have hi0 : i ≠ 0 ∨ i = 0 := by omega
            by_cases hi0 : i = 0
            · -- i = 0: positions d' < j + 1 of l
              subst hi0
              have hD : (j + 1 + n - 0 - 1) % n + 1 = j + 1 := by
                rw [show j + 1 + n - 0 - 1 = j + n by omega, Nat.add_mod_right, Nat.mod_eq_of_lt hjn]
              rw [hD] at hd2
              have := hj2 (d' - 1) (by omega)
              rw [hidx2 _ (by omega), show d' - 1 + 1 = d' by omega] at this
              simpa using this
            · rw [if_neg hi0] at hk'
              have := hoff (n - (i + d')) (by omega)
              rw [hidx _ (by omega)] at this
              rw [show (n - (n - (i + d'))) % n = (i + d') % n by rw [show n - (n - (i + d')) = i + d' by omega]] at this
              exact this
          · have hi0 : i ≠ 0 := by
              rintro rfl
              have := Nat.mod_lt (j + 1 + n - 0 - 1) (show n > 0 by omega)
              omega
            rw [if_neg hi0] at hk'
            by_cases hw2 : i + d' = n
            · have := hoff 0 (by omega)
              rw [hw2, Nat.mod_self]
              simpa [hl] using this
            · -- after the wrap
              have hjp : j + 1 ≤ i ∨ i < j + 1 := by omega
              have hD : (j + 1 + n - i - 1) % n + 1 ≤ j + 1 + n - i := by
                have := Nat.mod_le (j + 1 + n - i - 1) n; omega
              have := hj2 (i + d' - n - 1) (by omega)
              rw [hidx2 _ (by omega), show i + d' - n - 1 + 1 = i + d' - n by omega] at this
              rw [show (i + d') % n = (i + d' - n) % n by
                conv => lhs; rw [show i + d' = (i + d' - n) + n by omega, Nat.add_mod_right]]
              exact this
    · -- an on-curve point before it in the reversed list
      refine ⟨_, g2 hqn, ⟨rfl, rfl, rfl, rfl, by simp [hqs, hlast]⟩, ?_⟩
      intro t' ht'
      simp only [hlast, Option.some_or, Option.some.injEq] at ht'
      subst ht'
      have hk0 : k ≠ 0 := by
        intro h0; rw [h0] at hlast; simp [onTypes] at hlast
      have hi0 : i ≠ 0 := by
        rintro rfl; apply hk0; rw [hk]; simp
      have hk' : k = n - i := by rw [hk]; exact Nat.mod_eq_of_lt (by omega)
      -- last on-curve point before k
      rw [← List.head?_reverse, ← onTypes_reverse] at hlast
      obtain ⟨j, hj1, hj2⟩ := head?_onTypes hlast
      have hrev : ∀ j, j < k → ((p :: ps.reverse).take k).reverse[j]? = (p :: ps.reverse)[k - 1 - j]? := by
        intro j hj
        have hlen : ((p :: ps.reverse).take k).length = k := by simp; omega
        rw [List.getElem?_reverse (by omega), hlen, List.getElem?_take_of_lt (by omega)]
      have hjk : j < k := by
        by_contra hc
        rw [List.getElem?_eq_none (by simp; omega)] at hj1
        simp at hj1
      refine ⟨j + 1, by omega, by omega, ?_, ?_⟩
      · rw [hrev j hjk, hidx _ (by omega)] at hj1
        rw [← hn, show i + (j + 1) = n - (k - 1 - j) by omega]
        exact hj1
      · intro d' hd1 hd2
        have := hj2 (d' - 1) (by omega)
        rw [hrev _ (by omega), hidx _ (by omega)] at this
        rw [← hn, show i + d' = n - (k - 1 - (d' - 1)) by omega]
        exact this

/-! ### event sequences -/

theorem runPen_append {σ ε ο : Type} (step : σ → ε → Except Exc (σ × List ο)) (s s' : σ) (a b : List ε) (o : List ο)
    (h : runPen step s a = .ok (s', o)) :
    runPen step s (a ++ b) = match runPen step s' b with
      | .error e => .error e
      | .ok (s'', o') => .ok (s'', o ++ o') := by
  induction a generalizing s o with
  | nil =>
    simp only [runPen, Except.ok.injEq, Prod.mk.injEq] at h
    obtain ⟨rfl, rfl⟩ := h
    simp only [List.nil_append]
    rcases runPen step s b with x | ⟨s3, o3⟩ <;> simp
  | cons e a ih =>
    simp only [List.cons_append, runPen] at h ⊢
    rcases hs : step s e with x | ⟨s1, o1⟩
    · rw [hs] at h; cases h
    · rw [hs] at h
      simp only at h ⊢
      rcases hr : runPen step s1 a with x | ⟨s2, o2⟩
      · rw [hr] at h; cases h
      · rw [hr] at h
        simp only [Except.ok.injEq, Prod.mk.injEq] at h
        obtain ⟨rfl, rfl⟩ := h
        rw [ih s1 o2 hr]
        rcases runPen step s2 b with x | ⟨s3, o3⟩ <;> simp

theorem runRev_points (i : Option Str) (pre pts : List (Point P K)) :
    runPen (revStep (C := C)) (some (i, pre)) (pts.map .addPoint) = .ok (some (i, pre ++ pts), []) := by
  induction pts generalizing pre with
  | nil => simp [runPen]
  | cons p pts ih => simp [runPen, revStep, ih]

theorem runRev_contour (i : Option Str) (pts r : List (Point P K)) (h : reverseContour pts = .ok r) :
    runPen (revStep (C := C)) none (Item.events (.contour i pts)) = .ok (none, Item.events (.contour i r)) := by
  simp only [Item.events, runPen, revStep]
  rw [runPen_append _ _ _ _ _ _ (runRev_points i [] pts)]
  simp [runPen, revStep, h]

/-! ### segments -/

/-- Points after grouping are the points up to the last on-curve one. -/
theorem group_flat (cur : List (Option (SegPoint P K))) : ∀ l : List (Option (SegPoint P K) × Option ST),
    (∀ x ∈ l.getLast?, x.2 ≠ none) → l ≠ [] → (group cur l).flatMap Prod.snd = cur ++ l.map Prod.fst
  | [], _, h => absurd rfl h
  | [(x, t)], h, _ => by
    cases t with
    | none => exact absurd rfl (h (x, none) (by simp))
    | some t => simp [group]
  | (x, t) :: y :: l, h, _ => by
    have ih := fun c => group_flat c (y :: l) (by rw [List.getLast?_cons_cons] at h; exact h) (by simp)
    cases t with
    | none => rw [group, ih]; simp
    | some t => rw [group, List.flatMap_cons, ih]; simp

/-- Every segment ends with its only on-curve point: number and types of segments. -/
theorem group_types (cur : List (Option (SegPoint P K))) : ∀ l : List (Option (SegPoint P K) × Option ST),
    (group cur l).map Prod.fst = l.filterMap Prod.snd
  | [] => rfl
  | (x, none) :: l => by rw [group, group_types]; simp
  | (x, some t) :: l => by rw [group, List.map_cons, group_types]; simp

theorem firstOnIndex_spec : ∀ l : List (Point P K), match firstOnIndex l with
    | none => ∀ p ∈ l, p.seg = none
    | some i => ∃ pre q post, l = pre ++ q :: post ∧ pre.length = i ∧ q.seg ≠ none ∧ ∀ p ∈ pre, p.seg = none
  | [] => by simp [firstOnIndex]
  | p :: l => by
    have ih := firstOnIndex_spec l
    unfold firstOnIndex
    rcases hp : p.seg with _ | t
    · simp only
      rcases hi : firstOnIndex l with _ | i
      · rw [hi] at ih
        simp only [Option.map_none] at ih ⊢
        intro q hq
        rcases List.mem_cons.1 hq with rfl | hq
        · exact hp
        · exact ih q hq
      · rw [hi] at ih
        simp only [Option.map_some] at ih ⊢
        obtain ⟨pre, q, post, h1, h2, h3, h4⟩ := ih
        refine ⟨p :: pre, q, post, by simp [h1], by simp [h2], h3, ?_⟩
        intro r hr
        rcases List.mem_cons.1 hr with rfl | hr
        · exact hp
        · exact h4 r hr
    · simp only
      exact ⟨[], p, l, rfl, rfl, by simp [hp], by simp⟩

/-- Grouping only cuts the list. -/
theorem group_labelled (cur : List (Option (SegPoint P K))) : ∀ l : List (Option (SegPoint P K) × Option ST),
    (∀ x ∈ l.getLast?, x.2 ≠ none) → l ≠ [] →
    (group cur l).flatMap labelled = cur.map (fun x => (x, none)) ++ l ∧ ∀ s ∈ group cur l, s.2 ≠ []
  | [], _, h => absurd rfl h
  | [(x, t)], h, _ => by
    cases t with
    | none => exact absurd rfl (h (x, none) (by simp))
    | some t => simp [group, labelled]
  | (x, t) :: y :: l, h, _ => by
    have ih := fun c => group_labelled c (y :: l) (by rw [List.getLast?_cons_cons] at h; exact h) (by simp)
    cases t with
    | none => rw [group]; obtain ⟨a, b⟩ := ih (cur ++ [x]); exact ⟨by rw [a]; simp, b⟩
    | some t =>
      rw [group, List.flatMap_cons]
      obtain ⟨a, b⟩ := ih []
      refine ⟨by rw [a]; simp [labelled], ?_⟩
      intro s hs
      rcases List.mem_cons.1 hs with rfl | hs
      · simp
      · exact b s hs

/-- Off-curve points at the end are dropped. -/
theorem group_trailing (cur : List (Option (SegPoint P K))) (l m : List (Option (SegPoint P K) × Option ST)) (hm : ∀ x ∈ m, x.2 = none) :
    group cur (l ++ m) = group cur l := by
  induction l generalizing cur with
  | nil =>
    simp only [List.nil_append, group]
    induction m generalizing cur with
    | nil => rfl
    | cons x m ih =>
      obtain ⟨x, t⟩ := x
      have : t = none := hm (x, t) (by simp)
      subst this
      rw [group]; exact ih (fun x hx => hm x (List.mem_cons_of_mem _ hx)) _
  | cons x l ih =>
    obtain ⟨x, t⟩ := x
    cases t with
    | none => simp only [List.cons_append, group]; exact ih _
    | some t => simp only [List.cons_append, group, ih]

theorem upToLastOn_append (l : List (Point P K)) : ∃ m, l = upToLastOn l ++ m ∧ ∀ p ∈ m, p.seg = none := by
  refine ⟨(l.reverse.takeWhile fun p => p.seg.isNone).reverse, ?_, ?_⟩
  · rw [upToLastOn, ← List.reverse_append, List.takeWhile_append_dropWhile, List.reverse_reverse]
  · intro p hp
    rw [List.mem_reverse] at hp
    have := List.all_takeWhile (p := fun p : Point P K => p.seg.isNone) (l := l.reverse)
    rw [List.all_eq_true] at this
    simpa using this p hp

theorem getLast?_upToLastOn (l : List (Point P K)) : ∀ p ∈ (upToLastOn l).getLast?, p.seg ≠ none := by
  intro p hp
  rw [upToLastOn, List.getLast?_reverse] at hp
  rcases h : l.reverse.dropWhile (fun p => p.seg.isNone) with _ | ⟨x, xs⟩
  · rw [h] at hp; cases hp
  · rw [h] at hp
    simp only [List.head?_cons, Option.mem_def, Option.some.injEq] at hp
    subst hp
    have := List.head_dropWhile_not (fun p : Point P K => p.seg.isNone) (w := by rw [h]; simp) (l := l.reverse)
    simp only [h, List.head_cons] at this
    intro hn; simp [hn] at this

/-! ### drawing segments -/

/-- A segment `PointToSegmentPen` can draw. -/
def GoodSeg (s : Segment P K) : Prop :=
  s.2 ≠ [] ∧ (∀ x ∈ s.2, x ≠ none) ∧ (s.1 = .line ∨ s.1 = .curve ∨ s.1 = .qcurve) ∧ (s.1 = .line → s.2.length = 1)

theorem group_good : ∀ (l : List (Point P K)) (cur : List (Option (SegPoint P K))), (∀ x ∈ cur, x ≠ none) → LinesAlone l →
    (∀ p ∈ l.head?, p.seg = some .line → cur = []) → DrawableTypes l → ∀ s ∈ group cur (l.map Point.item), GoodSeg s
  | [], cur, _, _, _, _ => by simp [group]
  | p :: l, cur, hcur, hl, hh, ht => by
    have hl' : LinesAlone l := by unfold LinesAlone at hl ⊢; exact hl.tail
    have ht' : DrawableTypes l := fun q hq => ht q (List.mem_cons_of_mem _ hq)
    simp only [List.map_cons, Point.item]
    rcases hp : p.seg with _ | t
    · rw [group]
      refine group_good l _ ?_ hl' ?_ ht'
      · intro x hx
        rcases List.mem_append.1 hx with hx | hx
        · exact hcur x hx
        · simp only [List.mem_singleton] at hx; rw [hx]; simp
      · intro q hq hline
        cases l with
        | nil => cases hq
        | cons r l =>
          simp only [List.head?_cons, Option.mem_def, Option.some.injEq] at hq
          subst hq
          unfold LinesAlone at hl
          rw [List.isChain_cons_cons] at hl
          exact absurd hp (hl.1 hline)
    · rw [group]
      intro s hs
      rcases List.mem_cons.1 hs with rfl | hs
      · refine ⟨by simp, ?_, ?_, ?_⟩
        · intro x hx
          rcases List.mem_append.1 hx with hx | hx
          · exact hcur x hx
          · simp only [List.mem_singleton] at hx; rw [hx]; simp
        · have := ht p (by simp)
          rw [hp] at this
          simpa using this
        · intro h
          simp only at h
          subst h
          rw [hh p (by simp) hp]; rfl
      · exact group_good l [] (by simp) hl' (by simp) ht' s hs

/-- Coordinates and types delivered for a segment. -/
def segCoords (s : Segment P K) : List (CPoint P) :=
  (labelled s).filterMap fun x => x.1.map fun q => (q.pt, x.2)

theorem flatMap_segCoords (segs : List (Segment P K)) :
    segs.flatMap segCoords = (segs.flatMap labelled).filterMap fun x => x.1.map fun q => (q.pt, x.2) := by
  induction segs with
  | nil => rfl
  | cons s segs ih => simp [ih, segCoords]

theorem filterMap_items (l : List (Point P K)) :
    (l.map Point.item).filterMap (fun x : Option (SegPoint P K) × Option ST => x.1.map fun q => (q.pt, x.2)) = bare l := by
  induction l with
  | nil => rfl
  | cons p l ih =>
    rw [List.map_cons, List.filterMap_cons_some (b := (p.pt, p.seg)) (by simp [Point.item, Point.toSeg]), ih]
    simp [bare]

theorem coords_some (l : List (Option (SegPoint P K))) (h : ∀ x ∈ l, x ≠ none) :
    coords l = some (l.filterMap (fun x => x.map (·.pt))) := by
  induction l with
  | nil => rfl
  | cons x l ih =>
    cases x with
    | none => exact absurd rfl (h none (by simp))
    | some p =>
      rw [coords, ih (fun x hx => h x (List.mem_cons_of_mem _ hx))]
      simp

theorem offPoints_some (l : List (Option (SegPoint P K))) (h : ∀ x ∈ l, x ≠ none) :
    offPoints (l.map coord) = some (l.filterMap fun x => x.map fun q => (q.pt, none)) := by
  induction l with
  | nil => rfl
  | cons x l ih =>
    cases x with
    | none => exact absurd rfl (h none (by simp))
    | some p =>
      simp only [List.map_cons, coord, Option.map_some, offPoints]
      rw [ih (fun x hx => h x (List.mem_cons_of_mem _ hx))]
      simp

/-- The calls of one segment (the closing line is always drawn here). -/
def oneCall (s : Segment P K) : List (SEvent P C) :=
  match s.1 with
  | .line => (s.2.filterMap (fun x => x.map (·.pt))).map .lineTo
  | .curve => [.curveTo (s.2.filterMap (fun x => x.map (·.pt)))]
  | _ => [.qCurveTo (s.2.map coord)]

theorem good_split {s : Segment P K} (h : GoodSeg s) : ∃ init last, s.2 = init ++ [some last] ∧ ∀ x ∈ init, x ≠ none := by
  obtain ⟨h1, h2, -, -⟩ := h
  rcases List.eq_nil_or_concat s.2 with h' | ⟨init, x, h'⟩
  · exact absurd h' h1
  · rw [List.concat_eq_append] at h'
    rcases hx : x with _ | last
    · exact absurd hx (h2 x (by simp [h']))
    · exact ⟨init, last, by rw [h', hx], fun y hy => h2 y (by rw [h']; simp [hy])⟩

theorem run_one [DecidableEq P] (s : Segment P K) (h : GoodSeg s) (c : List (CPoint P)) :
    runPen (segStep (C := C)) (some c) (oneCall s) = .ok (some (c ++ segCoords s), []) := by
  obtain ⟨init, last, hs, hinit⟩ := good_split h
  obtain ⟨t, ps⟩ := s
  simp only at hs
  subst hs
  have hco : segCoords (t, init ++ [some last]) =
      (init.filterMap fun x => x.map fun q => (q.pt, none)) ++ [(last.pt, some t)] := by
    simp [segCoords, labelled, List.filterMap_map]
  have hfm : init.filterMap (fun x : Option (SegPoint P K) => x.map fun q => ((q.pt, none) : CPoint P)) =
      (init.filterMap (fun x => x.map (·.pt))).map fun p => (p, none) := by
    rw [List.map_filterMap]; congr 1; funext x; cases x <;> rfl
  obtain ⟨-, -, ht, hline⟩ := h
  rcases ht with rfl | rfl | rfl
  · have h1 := hline rfl
    simp only [List.length_append, List.length_singleton] at h1
    have : init = [] := List.length_eq_zero_iff.1 (by omega)
    subst this
    rw [hco]
    simp [oneCall, runPen, segStep]
  · rw [hco, hfm]
    have : ∀ A : List P, curvePoints (A ++ [last.pt]) = .ok (A.map (fun p => (p, none)) ++ [(last.pt, some .curve)]) := by
      intro A
      cases A with
      | nil => simp [curvePoints]
      | cons a A =>
        simp only [List.cons_append, curvePoints]
        rw [← List.cons_append, List.dropLast_concat, List.getLast?_concat]; rfl
    simp [oneCall, runPen, segStep, this]
  · rw [hco]
    have := offPoints_some init hinit
    simp [oneCall, runPen, segStep, this, coord]

theorem run_calls [DecidableEq P] (segs : List (Segment P K)) (h : ∀ s ∈ segs, GoodSeg s) (c : List (CPoint P)) :
    runPen (segStep (C := C)) (some c) (segs.flatMap oneCall) = .ok (some (c ++ segs.flatMap segCoords), []) := by
  induction segs generalizing c with
  | nil => simp [runPen]
  | cons s segs ih =>
    rw [List.flatMap_cons, runPen_append _ _ _ _ _ _ (run_one s (h s (by simp)) c),
      ih (fun s hs => h s (List.mem_cons_of_mem _ hs))]
    simp

theorem segmentCalls_all (closed implied : Bool) (segs : List (Segment P K)) (h : ∀ s ∈ segs, GoodSeg s)
    (hl : implied = true ∨ closed = false ∨ ∀ s ∈ segs.getLast?, s.1 ≠ .line) :
    segmentCalls (C := C) closed implied segs = .ok (segs.flatMap oneCall) := by
  induction segs with
  | nil => rfl
  | cons s segs ih =>
    have hg := h s (by simp)
    have ih' := ih (fun s hs => h s (List.mem_cons_of_mem _ hs)) (by
      rcases hl with h' | h' | h'
      · exact .inl h'
      · exact .inr (.inl h')
      · refine .inr (.inr ?_)
        cases segs with
        | nil => simp
        | cons r segs => rw [List.getLast?_cons_cons] at h'; exact h')
    obtain ⟨init, last, hs, hinit⟩ := good_split hg
    have hg' := hg
    obtain ⟨t, ps⟩ := s
    simp only at hs
    subst hs
    obtain ⟨-, hsome, ht, hline⟩ := hg
    rw [segmentCalls, ih', List.flatMap_cons]
    rcases ht with rfl | rfl | rfl
    · have h1 := hline rfl
      simp only [List.length_append, List.length_singleton] at h1
      have : init = [] := List.length_eq_zero_iff.1 (by omega)
      subst this
      have hc : (!segs.isEmpty || implied || !closed) = true := by
        rcases hl with h' | h' | h'
        · simp [h']
        · simp [h']
        · cases segs with
          | nil => exact absurd rfl (h' _ rfl)
          | cons r segs => simp
      simp [hc, oneCall, segmentCall]
    · simp [oneCall, segmentCall, coords_some _ hsome]
    · simp [oneCall, segmentCall]

theorem segmentCalls_noClosing (init : List (Segment P K)) (x : SegPoint P K) (h : ∀ s ∈ init, GoodSeg s) :
    segmentCalls (C := C) true false (init ++ [(.line, [some x])]) = .ok (init.flatMap oneCall) := by
  induction init with
  | nil => simp [segmentCalls, segmentCall]
  | cons s segs ih =>
    have hg := h s (by simp)
    have ih' := ih (fun s hs => h s (List.mem_cons_of_mem _ hs))
    obtain ⟨init, last, hs, hinit⟩ := good_split hg
    obtain ⟨t, ps⟩ := s
    simp only at hs
    subst hs
    obtain ⟨-, hsome, ht, hline⟩ := hg
    rw [List.cons_append, segmentCalls, ih', List.flatMap_cons]
    rcases ht with rfl | rfl | rfl
    · have h1 := hline rfl
      simp only [List.length_append, List.length_singleton] at h1
      have : init = [] := List.length_eq_zero_iff.1 (by omega)
      subst this
      simp [oneCall, segmentCall]
    · simp [oneCall, segmentCall, coords_some _ hsome]
    · simp [oneCall, segmentCall]

/-! ### guessing smoothness -/

theorem length_setSmooth (l : List (Point P K)) (i : Nat) : (setSmooth l i).length = l.length := by simp [setSmooth]

theorem getElem?_setSmooth (l : List (Point P K)) (i j : Nat) :
    (setSmooth l i)[j]? = if i = j then (l[j]?).map (fun p => { p with smooth := true }) else l[j]? := by
  rw [setSmooth, List.getElem?_modify]
  split <;> simp_all


/-! ### `endPath` by kind of contour -/

theorem segmentsOf_cons_cons (a b : Point P K) (l : List (Point P K)) : segmentsOf (a :: b :: l) =
    if a.seg = some .move then some ((.move, [some a.toSeg]) :: group [] ((b :: l).map Point.item))
    else match firstOnIndex (a :: b :: l) with
      | none => some (group [] ((a :: b :: l).map Point.item ++ [(none, some .qcurve)]))
      | some i => some (group [] ((((a :: b :: l).drop (i + 1)) ++ ((a :: b :: l).take (i + 1))).map Point.item)) := by
  rfl

theorem two_cons {α : Type} {l : List α} (h : 2 ≤ l.length) : ∃ a b m, l = a :: b :: m := by
  rcases l with _ | ⟨a, _ | ⟨b, m⟩⟩
  · simp at h
  · simp at h
  · exact ⟨a, b, m, rfl⟩

theorem firstOnIndex_first (pre post : List (Point P K)) (q : Point P K) (hq : q.seg ≠ none) (hpre : ∀ p ∈ pre, p.seg = none) :
    firstOnIndex (pre ++ q :: post) = some pre.length := by
  induction pre with
  | nil =>
    rw [List.nil_append, firstOnIndex]
    rcases hs : q.seg with _ | t
    · exact absurd hs hq
    · rfl
  | cons a pre ih =>
    rw [List.cons_append, firstOnIndex, hpre a (by simp)]
    simp only
    rw [ih (fun p hp => hpre p (List.mem_cons_of_mem _ hp))]; rfl

theorem firstOnIndex_none (l : List (Point P K)) (h : ∀ p ∈ l, p.seg = none) : firstOnIndex l = none := by
  induction l with
  | nil => rfl
  | cons a l ih =>
    rw [firstOnIndex, h a (by simp)]
    simp only
    rw [ih (fun p hp => h p (List.mem_cons_of_mem _ hp))]; rfl

theorem segmentsOf_closed (pre post : List (Point P K)) (q : Point P K) (hq : q.seg ≠ none) (hpre : ∀ p ∈ pre, p.seg = none)
    (hm : ∀ p ∈ (pre ++ q :: post).head?, p.seg ≠ some .move) (h2 : 2 ≤ (pre ++ q :: post).length) :
    segmentsOf (pre ++ q :: post) = some (group [] ((post ++ pre ++ [q]).map Point.item)) := by
  obtain ⟨a, b, l, hl⟩ := two_cons h2
  have ha : a.seg ≠ some .move := hm a (by rw [hl]; rfl)
  have hidx := firstOnIndex_first pre post q hq hpre
  rw [hl] at hidx
  rw [hl, segmentsOf_cons_cons, if_neg ha, hidx, ← hl]
  simp only
  congr 3
  rw [List.drop_append, List.take_append]
  simp [List.drop_eq_nil_of_le, List.take_of_length_le]

theorem segmentsOf_open (p : Point P K) (ps : List (Point P K)) (h : p.seg = some .move) :
    segmentsOf (p :: ps) = some ((.move, [some p.toSeg]) :: group [] (ps.map Point.item)) := by
  cases ps with
  | nil => rfl
  | cons x xs => rw [segmentsOf_cons_cons, if_pos h]

theorem group_off (m : List (Point P K)) : ∀ cur, (∀ p ∈ m, p.seg = none) →
    group cur (m.map Point.item ++ [(none, some .qcurve)]) = [(.qcurve, cur ++ m.map (fun p => some p.toSeg) ++ [none])] := by
  induction m with
  | nil => intro cur _; simp [group]
  | cons x m ih =>
    intro cur hm
    simp only [List.map_cons, List.cons_append, Point.item, hm x (by simp), group]
    have := ih (cur ++ [some x.toSeg]) (fun p hp => hm p (List.mem_cons_of_mem _ hp))
    rw [show x.toSeg = ⟨x.pt, x.smooth, x.name, x.kwargs⟩ from rfl] at this
    simp only [Point.toSeg] at this ⊢
    rw [this]
    simp

theorem segmentsOf_off (l : List (Point P K)) (h : ∀ p ∈ l, p.seg = none) (h2 : 2 ≤ l.length) :
    segmentsOf l = some [(.qcurve, l.map (fun p => some p.toSeg) ++ [none])] := by
  obtain ⟨a, b, m, rfl⟩ := two_cons h2
  have ha : a.seg ≠ some .move := by rw [h a (by simp)]; simp
  rw [segmentsOf_cons_cons, if_neg ha, firstOnIndex_none _ h]
  simp only
  rw [group_off _ _ h]; simp

/-! ### GuessSmoothPointPen -/

/-- Equal up to smooth flags. -/
def AgreeButSmooth (l m : List (Point P K)) : Prop :=
  l.length = m.length ∧ ∀ i : Nat, (l[i]?).map (fun p : Point P K => (p.pt, p.seg, p.name, p.kwargs)) = (m[i]?).map (fun p => (p.pt, p.seg, p.name, p.kwargs))

/-- The test of one loop iteration, on positions and types only. -/
def smoothTest [DecidableEq P] (turn : P → P → P → Bool) (l : List (Point P K)) (i : Nat) : Prop :=
  ∃ p prev next, l[i]? = some p ∧ l[(i + l.length - 1) % l.length]? = some prev ∧ l[(i + 1) % l.length]? = some next ∧
    p.seg ≠ none ∧ (prev.seg = none ∨ next.seg = none) ∧ p.pt ≠ prev.pt ∧ p.pt ≠ next.pt ∧ turn prev.pt p.pt next.pt = true

theorem smoothTest_congr [DecidableEq P] {turn : P → P → P → Bool} {l m : List (Point P K)} (h : AgreeButSmooth l m) {i : Nat}
    (ht : smoothTest turn l i) : smoothTest turn m i := by
  obtain ⟨p, prev, next, h1, h2, h3, h4⟩ := ht
  obtain ⟨hlen, ha⟩ := h
  have get : ∀ (j : Nat) (x : Point P K), l[j]? = some x → ∃ y, m[j]? = some y ∧ y.pt = x.pt ∧ y.seg = x.seg := by
    intro j x hj
    have := ha j
    rw [hj] at this
    rcases hm : m[j]? with _ | y
    · rw [hm] at this; simp at this
    · rw [hm] at this
      simp only [Option.map_some, Option.some.injEq, Prod.mk.injEq] at this
      exact ⟨y, rfl, this.1.symm, this.2.1.symm⟩
  obtain ⟨p', a1, a2, a3⟩ := get _ _ h1
  obtain ⟨q', b1, b2, b3⟩ := get _ _ h2
  obtain ⟨r', c1, c2, c3⟩ := get _ _ h3
  exact ⟨p', q', r', a1, hlen ▸ b1, hlen ▸ c1, by rw [a3, b3, c3, a2, b2, c2]; exact h4⟩

theorem guessOne_spec [DecidableEq P] (turn : P → P → P → Bool) (l : List (Point P K)) (i : Nat) :
    (smoothTest turn l i ∧ guessOne turn l i = setSmooth l i) ∨ (¬ smoothTest turn l i ∧ guessOne turn l i = l) := by
  unfold guessOne
  simp only
  split
  · next p prev next h1 h2 h3 =>
    have huniq : smoothTest turn l i ↔ (p.seg ≠ none ∧ (prev.seg = none ∨ next.seg = none) ∧ p.pt ≠ prev.pt ∧ p.pt ≠ next.pt ∧ turn prev.pt p.pt next.pt = true) := by
      constructor
      · rintro ⟨p', q', r', a1, a2, a3, h⟩
        rw [h1] at a1; rw [h2] at a2; rw [h3] at a3
        injection a1 with a1; injection a2 with a2; injection a3 with a3
        subst a1; subst a2; subst a3; exact h
      · intro h; exact ⟨p, prev, next, h1, h2, h3, h⟩
    rw [huniq]
    split
    · right; simp_all
    · split
      · right; simp_all
      · split
        · split
          · left
            refine ⟨⟨by assumption, ?_, ?_⟩, rfl⟩
            · next hx _ _ => by_contra hc; exact hx ⟨fun h => hc (.inl h), fun h => hc (.inr h)⟩
            · next hx ht => exact ⟨hx.1, hx.2, ht⟩
          · right; simp_all
        · next hx => right; exact ⟨fun h => hx ⟨h.2.2.1, h.2.2.2.1⟩, rfl⟩
  · next hno =>
    right
    refine ⟨?_, rfl⟩
    rintro ⟨p, q, r, h1, h2, h3, -⟩
    exact hno p q r h1 h2 h3

theorem agree_refl (l : List (Point P K)) : AgreeButSmooth l l := ⟨rfl, fun _ => rfl⟩

theorem agree_symm {l m : List (Point P K)} (h : AgreeButSmooth l m) : AgreeButSmooth m l := ⟨h.1.symm, fun i => (h.2 i).symm⟩

theorem agree_trans {l m n : List (Point P K)} (h : AgreeButSmooth l m) (h' : AgreeButSmooth m n) : AgreeButSmooth l n :=
  ⟨h.1.trans h'.1, fun i => (h.2 i).trans (h'.2 i)⟩

theorem agree_setSmooth (l : List (Point P K)) (i : Nat) : AgreeButSmooth (setSmooth l i) l := by
  refine ⟨length_setSmooth l i, fun j => ?_⟩
  rw [getElem?_setSmooth]
  split
  · rcases l[j]? with _ | p <;> rfl
  · rfl

theorem guess_fold [DecidableEq P] (turn : P → P → P → Bool) (base : List (Point P K)) :
    ∀ (idx : List Nat) (l : List (Point P K)), AgreeButSmooth l base →
      AgreeButSmooth (idx.foldl (guessOne turn) l) base ∧
      ∀ j p q, l[j]? = some p → (idx.foldl (guessOne turn) l)[j]? = some q →
        (q.smooth = true ↔ p.smooth = true ∨ (j ∈ idx ∧ smoothTest turn base j))
  | [], l, h => ⟨h, fun j p q hp hq => by rw [List.foldl_nil, hp] at hq; injection hq with hq; simp [hq]⟩
  | i :: idx, l, h => by
    rw [List.foldl_cons]
    rcases guessOne_spec turn l i with ⟨ht, he⟩ | ⟨ht, he⟩
    · rw [he]
      have hag := agree_trans (agree_setSmooth l i) h
      obtain ⟨h1, h2⟩ := guess_fold turn base idx (setSmooth l i) hag
      refine ⟨h1, fun j p q hp hq => ?_⟩
      have hj : (setSmooth l i)[j]? = some (if i = j then { p with smooth := true } else p) := by
        rw [getElem?_setSmooth, hp]; split <;> rfl
      rw [h2 j _ q hj hq]
      have hb := smoothTest_congr h ht
      by_cases hij : i = j
      · subst hij; simp [hb]
      · simp only [if_neg hij, List.mem_cons, Ne.symm hij, false_or]
    · rw [he]
      obtain ⟨h1, h2⟩ := guess_fold turn base idx l h
      refine ⟨h1, fun j p q hp hq => ?_⟩
      rw [h2 j p q hp hq]
      have hb : ¬ smoothTest turn base i := fun h' => ht (smoothTest_congr (agree_symm h) h')
      constructor
      · rintro (h' | ⟨a, b⟩)
        · exact .inl h'
        · exact .inr ⟨List.mem_cons_of_mem _ a, b⟩
      · rintro (h' | ⟨a, b⟩)
        · exact .inl h'
        · rcases List.mem_cons.1 a with rfl | a
          · exact absurd b hb
          · exact .inr ⟨a, b⟩

end Verif.PointPens
