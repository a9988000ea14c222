import Verif.Proofs.GlifPenRest
import Verif.Proofs.PointPens
import Verif.Spec.PenStack
/-! Lemmas about the filtering pens in front of any pen. -/
namespace Verif.PenStack
open Verif Verif.Glif Verif.PointPens Verif.GlifPen Verif.GlyphSet Verif.Spec.GlifPen Verif.Spec.PointPens Verif.Spec.PenStack

theorem drawOn_send {σ : Type} {Q : AnyPen σ} (hQ : NoTypeError Q) : ∀ (cs : List Sent) (s : σ), drawOn Q s cs = send Q s cs
  | [], _ => rfl
  | c :: cs, s => by
    have hd : deliver Q s c = Q s c := by
      unfold deliver
      have := hQ s c
      rcases hq : Q s c with ⟨s', _ | x⟩
      · rfl
      · rw [hq] at this
        cases x <;> first | exact absurd rfl this | (cases withoutKeyword c <;> rfl)
    rw [drawOn, send, hd]
    rcases Q s c with ⟨s', _ | x⟩
    · exact drawOn_send hQ cs s'
    · rfl

theorem send_append {σ : Type} (Q : AnyPen σ) : ∀ (cs ds : List Sent) (s : σ),
    send Q s (cs ++ ds) = match send Q s cs with
      | (s, some x) => (s, some x)
      | (s, none) => send Q s ds
  | [], ds, s => rfl
  | c :: cs, ds, s => by
    rw [List.cons_append, send, send]
    rcases Q s c with ⟨s', _ | x⟩
    · exact send_append Q cs ds s'
    · rfl

theorem drawOn_of_send {σ : Type} {P : AnyPen σ} : ∀ {cs : List Sent} {s s' : σ}, send P s cs = (s', none) → drawOn P s cs = (s', none)
  | [], _, _, h => h
  | c :: cs, s, s', h => by
    rw [send] at h
    rcases hp : P s c with ⟨t, _ | x⟩
    · rw [hp] at h
      have : deliver P s c = (t, none) := by unfold deliver; rw [hp]
      rw [drawOn, this]
      exact drawOn_of_send h
    · rw [hp] at h; cases h

theorem send_noType {σ : Type} {Q : AnyPen σ} (hQ : NoTypeError Q) : ∀ (cs : List Sent) (s : σ), (send Q s cs).2 ≠ some .typeError
  | [], _ => by simp [send]
  | c :: cs, s => by
    rw [send]
    have := hQ s c
    rcases hq : Q s c with ⟨s', _ | x⟩
    · exact send_noType hQ cs s'
    · rw [hq] at this; exact this

theorem reverse_noType {σ : Type} {Q : AnyPen σ} (hQ : NoTypeError Q) : NoTypeError (reversePen Q) := by
  rintro ⟨o, c, j⟩ k
  cases k with
  | beginPath i => cases c <;> simp [reversePen]
  | addPoint p t s n i => cases c <;> simp [reversePen]
  | endPath =>
    cases c with
    | none => simp [reversePen]
    | some l =>
      simp only [reversePen, flushReversed]
      obtain ⟨r, hr⟩ := reverseContour_total l
      rw [hr]
      dsimp only
      have := send_noType hQ (.beginPath (some j) :: r.map give ++ [.endPath]) o
      generalize send Q o (.beginPath (some j) :: r.map give ++ [.endPath]) = z at this
      rcases z with ⟨o', _ | x⟩
      · exact fun h => nomatch h
      · exact this
  | addComponent g t i =>
    cases c with
    | some l => simp [reversePen]
    | none => exact hQ o _

theorem typeArg_orNone (t : Option Str) : typeArg (segmentTypeOf (orNone t)) = orNone t := by
  cases t with
  | none => rfl
  | some t =>
    simp only [orNone, segmentTypeOf]
    by_cases h1 : t = c!"move"
    · rw [if_pos h1, h1]; rfl
    rw [if_neg h1]
    by_cases h2 : t = c!"line"
    · rw [if_pos h2, h2]; rfl
    rw [if_neg h2]
    by_cases h3 : t = c!"curve"
    · rw [if_pos h3, h3]; rfl
    rw [if_neg h3]
    by_cases h4 : t = c!"qcurve"
    · rw [if_pos h4, h4]; rfl
    rw [if_neg h4]; rfl

theorem typeName_typeArg (t : Option ST) : typeName t = typeArg t := by
  cases t with
  | none => rfl
  | some t => cases t <;> rfl

theorem give_pointCall : give = Spec.PenStack.pointCall := by
  funext p; rw [give, Spec.PenStack.pointCall, typeName_typeArg]

/-- The points as kept. -/
theorem points_kept : ∀ (points : List Sent), (∀ c ∈ points, IsPoint c) → ∃ l : List Kept, points = l.map give ∧
    ∀ {σ : Type} (Q : AnyPen σ) (o : σ) (m : List Kept) (j : PyVal), send (reversePen Q) ⟨o, some m, j⟩ points = (⟨o, some (m ++ l), j⟩, none)
  | [], _ => ⟨[], rfl, fun Q o m j => by simp [send]⟩
  | c :: cs, h => by
    obtain ⟨x, y, t, n, s, i, rfl⟩ := h c (by simp)
    obtain ⟨l, h1, h2⟩ := points_kept cs fun c hc => h c (List.mem_cons_of_mem _ hc)
    refine ⟨keep (.tuple [x, y]) (orNone t) (.bool s) (orNone n) (i.map orNone) :: l, ?_, fun Q o m j => ?_⟩
    · rw [List.map_cons, ← h1]
      simp only [give, keep, typeArg_orNone]
    · rw [send]
      show send (reversePen Q) ⟨o, some (m ++ [_]), j⟩ cs = _
      rw [h2]
      simp

theorem turned_of {l r : List (Point PyVal (PyVal × PyVal × Option PyVal))} (h : reverseContour l = .ok r) : Turned l r := by
  cases l with
  | nil => cases h; exact .empty
  | cons p ps =>
    by_cases hp : p.seg = some .move
    · have h0 := reverseContour_open p ps hp
      rw [h] at h0
      injection h0 with h0
      subst h0
      have hon : onTypes ((p :: ps).reverse.dropWhile fun p => p.seg.isNone) = onTypes (p :: ps).reverse := by
        have h1 := congrArg onTypes (List.takeWhile_append_dropWhile (p := fun p : Kept => p.seg.isNone) (l := (p :: ps).reverse))
        rw [onTypes_append] at h1
        have h2 : onTypes ((p :: ps).reverse.takeWhile fun p => p.seg.isNone) = [] := by
          rw [onTypes, List.filterMap_eq_nil_iff]
          intro q hq
          have := List.all_takeWhile (p := fun p : Kept => p.seg.isNone) (l := (p :: ps).reverse)
          rw [List.all_eq_true] at this
          simpa using this q hq
        rw [h2, List.nil_append] at h1
        exact h1
      refine .opened p ps _ hp ?_ ?_
      · rw [upToLastOn, List.reverse_reverse]
        generalize List.dropWhile (fun p : Kept => p.seg.isNone) (p :: ps).reverse = l
        generalize ST.move = t
        induction l generalizing t with
        | nil => exact .nil
        | cons x l ih =>
          unfold retype
          rcases hx : x.seg with _ | t'
          · exact .cons ⟨rfl, rfl, rfl, rfl, Iff.rfl⟩ (ih t)
          · exact .cons ⟨rfl, rfl, rfl, rfl, by simp [hx]⟩ (ih t')
      · change onTypes _ = _
        rw [onTypes_retype, hon, onTypes_reverse]
        have : onTypes (p :: ps) = .move :: onTypes ps := by simp [onTypes, List.filterMap_cons_some hp]
        rw [this, List.reverse_cons, ← List.cons_append, List.dropLast_concat]
        rfl
    · obtain ⟨r', h1, h2⟩ := reverseContour_isReversed p ps hp
      rw [h] at h1
      cases h1
      exact .closed p ps r hp h2

/-- A whole contour or component through the reversing pen. -/
theorem reverse_part {b : Bool} {p : List Sent} (h : Part b p) : ∃ p', ReversedPart p p' ∧ ∀ {σ : Type} (Q : AnyPen σ) (o : σ) (j : PyVal),
    (send (reversePen Q) ⟨o, none, j⟩ p).1.out = (send Q o p').1 ∧ (send (reversePen Q) ⟨o, none, j⟩ p).2 = (send Q o p').2 ∧
    ((send Q o p').2 = none → (send (reversePen Q) ⟨o, none, j⟩ p).1.contour = none) := by
  cases h with
  | component g t i =>
    refine ⟨_, .component _ _ _, fun Q o j => ?_⟩
    simp only [send, reversePen]
    rcases Q o (.addComponent (orNone g) (.tuple t) (some ((i.map orNone).getD .none))) with ⟨o', _ | x⟩ <;> simp
  | contour i points hp hg' =>
    obtain ⟨l, h1, h2⟩ := points_kept points hp
    obtain ⟨r, hr⟩ := reverseContour_total l
    refine ⟨.beginPath (some ((i.map orNone).getD .none)) :: r.map Spec.PenStack.pointCall ++ [.endPath], ?_, fun Q o j => ?_⟩
    · rw [h1, give_pointCall]
      exact .contour _ l r (turned_of hr)
    · have hs : send (reversePen Q) ⟨o, none, j⟩ (.beginPath (i.map orNone) :: points ++ [.endPath]) =
          flushReversed Q ⟨o, some l, (i.map orNone).getD .none⟩ l := by
        rw [List.cons_append, send]
        show send (reversePen Q) ⟨o, some [], (i.map orNone).getD .none⟩ (points ++ [.endPath]) = _
        rw [send_append, h2]
        dsimp only
        rw [send]
        rw [List.nil_append, show reversePen Q ⟨o, some l, (i.map orNone).getD .none⟩ .endPath = flushReversed Q ⟨o, some l, (i.map orNone).getD .none⟩ l from rfl]
        rcases flushReversed Q ⟨o, some l, (i.map orNone).getD .none⟩ l with ⟨s, _ | x⟩ <;> rfl
      rw [hs, flushReversed, hr, ← give_pointCall]
      dsimp only
      generalize send Q o (.beginPath (some ((i.map orNone).getD .none)) :: r.map give ++ [.endPath]) = z
      rcases z with ⟨o', _ | x⟩
      · exact ⟨rfl, rfl, fun _ => rfl⟩
      · exact ⟨rfl, rfl, fun h => nomatch h⟩

/-- Whole contours and components through the reversing pen. -/
theorem reverse_parts {b : Bool} : ∀ (parts : List (List Sent)), (∀ p ∈ parts, Part b p) → ∃ parts', List.Forall₂ ReversedPart parts parts' ∧
    ∀ {σ : Type} (Q : AnyPen σ) (o : σ) (j : PyVal),
    (send (reversePen Q) ⟨o, none, j⟩ parts.flatten).1.out = (send Q o parts'.flatten).1 ∧
    (send (reversePen Q) ⟨o, none, j⟩ parts.flatten).2 = (send Q o parts'.flatten).2 ∧
    ((send Q o parts'.flatten).2 = none → (send (reversePen Q) ⟨o, none, j⟩ parts.flatten).1.contour = none)
  | [], _ => ⟨[], .nil, fun Q o j => ⟨rfl, rfl, fun _ => rfl⟩⟩
  | p :: ps, h => by
    obtain ⟨p', h1, h2⟩ := reverse_part (h p (by simp))
    obtain ⟨ps', h3, h4⟩ := reverse_parts ps fun q hq => h q (List.mem_cons_of_mem _ hq)
    refine ⟨p' :: ps', .cons h1 h3, fun Q o j => ?_⟩
    obtain ⟨k1, k2, k3⟩ := h2 Q o j
    rw [List.flatten_cons, List.flatten_cons, send_append, send_append]
    rcases hp : send Q o p' with ⟨o', _ | x⟩
    · rw [hp] at k1 k2 k3
      rcases hr : send (reversePen Q) ⟨o, none, j⟩ p with ⟨⟨a, b, j'⟩, r⟩
      rw [hr] at k1 k2 k3
      dsimp only at k1 k2 k3
      subst k2 k1
      rw [k3 rfl]
      exact h4 Q a j'
    · rw [hp] at k1 k2
      rcases hr : send (reversePen Q) ⟨o, none, j⟩ p with ⟨⟨a, b, j'⟩, r⟩
      rw [hr] at k1 k2
      dsimp only at k1 k2
      subst k2 k1
      exact ⟨rfl, rfl, fun h => nomatch h⟩

/-! ### guessing -/

/-- The same points with other smooth flags. -/
structure AgreeSmooth (l r : List Guessed) : Prop where
  length : r.length = l.length
  points : ∀ k p, l[k]? = some p → ∃ b, r[k]? = some { p with smooth := b } ∧
    (b = true → p.seg ≠ none ∧ ((l[(k + l.length - 1) % l.length]?).map (·.seg) = some none ∨ (l[(k + 1) % l.length]?).map (·.seg) = some none))

theorem AgreeSmooth.seg {l r : List Guessed} (h : AgreeSmooth l r) (k : Nat) : (r[k]?).map (·.seg) = (l[k]?).map (·.seg) := by
  rcases hk : l[k]? with _ | p
  · have : r[k]? = none := by rw [List.getElem?_eq_none_iff] at hk ⊢; rw [h.length]; exact hk
    rw [this]
  · obtain ⟨b, h1, -⟩ := h.points k p hk
    rw [h1]; rfl

theorem guessAt_agree {turn : PyVal → PyVal → PyVal → Except Exc Bool} {l r : List Guessed} (h : AgreeSmooth l r) (i : Nat) :
    AgreeSmooth l (guessAt turn r i).1 := by
  unfold guessAt
  rcases hp : r[i]? with _ | p
  · exact h
  rcases hq : r[(i + r.length - 1) % r.length]? with _ | prev
  · exact h
  rcases hn : r[(i + 1) % r.length]? with _ | next
  · exact h
  dsimp only
  by_cases h1 : p.seg = none
  · rw [if_pos h1]; exact h
  rw [if_neg h1]
  by_cases h2 : prev.seg ≠ none ∧ next.seg ≠ none
  · rw [if_pos h2]; exact h
  rw [if_neg h2]
  rcases turn prev.pt p.pt next.pt with x | _ | _
  · exact h
  · exact h
  · refine ⟨by rw [setSmooth, List.length_modify]; exact h.length, fun k q hk => ?_⟩
    obtain ⟨b, hb, hb'⟩ := h.points k q hk
    rw [setSmooth, List.getElem?_modify, hb]
    by_cases hki : i = k
    · subst hki
      refine ⟨true, by simp, fun _ => ?_⟩
      rw [hp] at hb
      injection hb with hb
      have hs := h.seg ((i + r.length - 1) % r.length)
      have hs' := h.seg ((i + 1) % r.length)
      rw [hq] at hs
      rw [hn] at hs'
      rw [h.length] at hs hs'
      refine ⟨by rw [hb] at h1; exact h1, ?_⟩
      rw [← hs, ← hs']
      by_cases hpr : prev.seg = none
      · exact .inl (by simp [hpr])
      · exact .inr (by simpa using Classical.not_not.1 fun hnx => h2 ⟨hpr, hnx⟩)
    · exact ⟨b, by simp [hki], hb'⟩

theorem guessAll_agree {turn : PyVal → PyVal → PyVal → Except Exc Bool} {l : List Guessed} : ∀ (is : List Nat) (r : List Guessed), AgreeSmooth l r →
    AgreeSmooth l (guessAll turn r is).1
  | [], _, h => h
  | i :: is, r, h => by
    have h1 := guessAt_agree (turn := turn) h i
    rw [guessAll]
    rcases hg : guessAt turn r i with ⟨r', _ | x⟩
    · rw [hg] at h1; exact guessAll_agree is r' h1
    · rw [hg] at h1; exact h1

/-- A direction test that never raises. -/
theorem guessAll_fine {turn : PyVal → PyVal → PyVal → Except Exc Bool} (ht : ∀ a b c x, turn a b c ≠ .error x) : ∀ (is : List Nat) (r : List Guessed),
    (guessAll turn r is).2 = none
  | [], _ => rfl
  | i :: is, r => by
    have : (guessAt turn r i).2 = none := by
      unfold guessAt
      rcases r[i]? with _ | p
      · rfl
      rcases r[(i + r.length - 1) % r.length]? with _ | prev
      · rfl
      rcases r[(i + 1) % r.length]? with _ | next
      · rfl
      dsimp only
      by_cases h1 : p.seg = none
      · rw [if_pos h1]
      rw [if_neg h1]
      by_cases h2 : prev.seg ≠ none ∧ next.seg ≠ none
      · rw [if_pos h2]
      rw [if_neg h2]
      rcases hx : turn prev.pt p.pt next.pt with x | _ | _
      · exact absurd hx (ht _ _ _ _)
      · rfl
      · rfl
    rw [guessAll]
    rcases hg : guessAt turn r i with ⟨r', _ | x⟩
    · exact guessAll_fine ht is r'
    · rw [hg] at this; cases this

/-- A point as kept, from the call and the flag that was given. -/
def givenCall (x : Guessed × Bool) : Sent := .addPoint x.1.pt (typeArg x.1.seg) (.bool x.2) x.1.kwargs.1 x.1.kwargs.2

theorem points_guessed {turn : PyVal → PyVal → PyVal → Except Exc Bool} : ∀ (points : List Sent), (∀ c ∈ points, IsPoint c) →
    ∃ l : List (Guessed × Bool), points = l.map givenCall ∧ (∀ x ∈ l, x.1.smooth = false) ∧
    (∀ x ∈ l, ∃ t : Option Str, x.1.seg = segmentTypeOf (orNone t)) ∧
    ∀ {σ : Type} (Q : AnyPen σ) (o : σ) (m : List Guessed), drawOn (guessPen turn Q) ⟨o, some m⟩ points = (⟨o, some (m ++ l.map Prod.fst)⟩, none)
  | [], _ => ⟨[], rfl, by simp, by simp, fun Q o m => by simp [drawOn]⟩
  | c :: cs, h => by
    obtain ⟨x, y, t, n, s, i, rfl⟩ := h c (by simp)
    obtain ⟨l, h1, h2, h3, h4⟩ := points_guessed (turn := turn) cs fun c hc => h c (List.mem_cons_of_mem _ hc)
    refine ⟨(⟨.tuple [x, y], segmentTypeOf (orNone t), false, none, (orNone n, i.map orNone)⟩, s) :: l, ?_, ?_, ?_, fun Q o m => ?_⟩
    · rw [List.map_cons, ← h1]
      simp only [givenCall, typeArg_orNone]
    · intro z hz
      rcases List.mem_cons.1 hz with rfl | hz
      · rfl
      · exact h2 z hz
    · intro z hz
      rcases List.mem_cons.1 hz with rfl | hz
      · exact ⟨t, rfl⟩
      · exact h3 z hz
    · rw [drawOn]
      have : deliver (guessPen turn Q) ⟨o, some m⟩ (.addPoint (.tuple [x, y]) (orNone t) (.bool s) (orNone n) (i.map orNone)) =
          (⟨o, some (m ++ [⟨.tuple [x, y], segmentTypeOf (orNone t), false, none, (orNone n, i.map orNone)⟩])⟩, none) := by
        unfold deliver guessPen
        cases i <;> rfl
      rw [this]
      dsimp only
      rw [h4]
      simp

theorem typeArg_none {s : Option ST} : typeArg s = .none ↔ s = none := by
  rcases s with _ | s
  · simp [typeArg]
  · cases s <;> simp [typeArg]

theorem smoothed_of {l : List (Guessed × Bool)} {r : List Guessed} (h : AgreeSmooth (l.map Prod.fst) r) :
    Smoothed (l.map givenCall) (r.map giveGuessed) := by
  have hlen : r.length = l.length := by simpa using h.length
  refine ⟨by simpa using hlen, fun k p t s n i hk => ?_⟩
  rw [List.getElem?_map] at hk
  rcases hl : l[k]? with _ | x
  · rw [hl] at hk; cases hk
  · rw [hl] at hk
    simp only [Option.map_some, Option.some.injEq, givenCall, Sent.addPoint.injEq] at hk
    obtain ⟨rfl, rfl, rfl, rfl, rfl⟩ := hk
    obtain ⟨b, h1, h2⟩ := h.points k x.1 (by rw [List.getElem?_map, hl]; rfl)
    refine ⟨b, by rw [List.getElem?_map, h1]; rfl, fun hb => ?_⟩
    obtain ⟨h3, h4⟩ := h2 hb
    refine ⟨fun hn => h3 (typeArg_none.1 hn), ?_⟩
    have off : ∀ m : Nat, ((l.map Prod.fst)[m]?).map (fun q : Guessed => q.seg) = some none → offCurve (l.map givenCall)[m]? := by
      intro m hm
      rw [List.getElem?_map] at hm ⊢
      rcases hy : l[m]? with _ | y
      · rw [hy] at hm; cases hm
      · rw [hy] at hm
        simp only [Option.map_some, Option.some.injEq] at hm
        exact ⟨y.1.pt, .bool y.2, y.1.kwargs.1, y.1.kwargs.2, by simp only [Option.map_some, givenCall, hm]; rfl⟩
    simp only [List.length_map] at h4 ⊢
    exact h4.imp (off _) (off _)

theorem deliver_plain {σ : Type} {P : AnyPen σ} {s : σ} {c : Sent} (h : withoutKeyword c = none) : deliver P s c = P s c := by
  unfold deliver
  rw [h]
  rcases P s c with ⟨s', _ | x⟩
  · rfl
  · cases x <;> rfl

theorem deliver_begin {σ : Type} (turn : PyVal → PyVal → PyVal → Except Exc Bool) (Q : AnyPen σ) (o : σ) (i : Option (Option Str)) :
    deliver (guessPen turn Q) ⟨o, none⟩ (.beginPath (i.map orNone)) = (⟨(Q o (.beginPath none)).1, some []⟩, (Q o (.beginPath none)).2) := by
  cases i with
  | none =>
    rw [deliver_plain rfl]
    rfl
  | some i =>
    unfold deliver
    simp only [guessPen, Option.map_some, withoutKeyword]

/-- A whole contour or component through the guessing pen. -/
theorem guess_part {turn : PyVal → PyVal → PyVal → Except Exc Bool} (ht : ∀ a b c x, turn a b c ≠ .error x) {b : Bool} {p : List Sent} (h : Part b p) :
    ∃ p', GuessedPart p p' ∧ ∀ {σ : Type} (Q : AnyPen σ) (o : σ),
    (drawOn (guessPen turn Q) ⟨o, none⟩ p).1.out = (send Q o p').1 ∧ (drawOn (guessPen turn Q) ⟨o, none⟩ p).2 = (send Q o p').2 ∧
    ((send Q o p').2 = none → (drawOn (guessPen turn Q) ⟨o, none⟩ p).1.points = none) := by
  cases h with
  | component g t i =>
    refine ⟨_, .component _ _ _, fun Q o => ?_⟩
    have : deliver (guessPen turn Q) ⟨o, none⟩ (.addComponent (orNone g) (.tuple t) (i.map orNone)) =
        (⟨(Q o (.addComponent (orNone g) (.tuple t) none)).1, none⟩, (Q o (.addComponent (orNone g) (.tuple t) none)).2) := by
      cases i with
      | none => rw [deliver_plain rfl]; rfl
      | some i => rfl
    simp only [send, drawOn, this]
    rcases Q o (.addComponent (orNone g) (.tuple t) none) with ⟨o', _ | x⟩ <;> simp
  | contour i points hp hg' =>
    obtain ⟨l, h1, h2, h3, h4⟩ := points_guessed (turn := turn) points hp
    have hbase : AgreeSmooth (l.map Prod.fst) (l.map Prod.fst) := by
      refine ⟨rfl, fun k q hk => ⟨false, ?_, fun h => nomatch h⟩⟩
      have hq : q.smooth = false := by
        obtain ⟨x, hx, rfl⟩ := List.mem_map.1 (List.mem_of_getElem? hk)
        exact h2 x hx
      rw [hk, ← hq]
    have hfine := guessAll_fine ht (guessIndices (l.map Prod.fst)) (l.map Prod.fst)
    have hagree := guessAll_agree (turn := turn) (guessIndices (l.map Prod.fst)) _ hbase
    rcases hg : guessAll turn (l.map Prod.fst) (guessIndices (l.map Prod.fst)) with ⟨r, z⟩
    rw [hg] at hfine hagree
    dsimp only at hfine hagree
    subst hfine
    refine ⟨.beginPath none :: r.map giveGuessed ++ [.endPath], ?_, fun Q o => ?_⟩
    · rw [h1]; exact .contour _ _ _ (smoothed_of hagree)
    · rw [List.cons_append, drawOn, deliver_begin, List.cons_append, send]
      rcases Q o (.beginPath none) with ⟨o1, _ | x⟩
      · dsimp only
        rw [drawOn_append, h4]
        dsimp only
        rw [drawOn, deliver_plain rfl, List.nil_append,
          show guessPen turn Q ⟨o1, some (l.map Prod.fst)⟩ .endPath = flushGuessed turn Q ⟨o1, some (l.map Prod.fst)⟩ (l.map Prod.fst) from rfl,
          flushGuessed, hg]
        dsimp only
        generalize send Q o1 (r.map giveGuessed ++ [.endPath]) = z
        rcases z with ⟨o', _ | x⟩
        · exact ⟨rfl, rfl, fun _ => rfl⟩
        · exact ⟨rfl, rfl, fun h => nomatch h⟩
      · exact ⟨rfl, rfl, fun h => nomatch h⟩

/-- Whole contours and components through the guessing pen. -/
theorem guess_parts {b : Bool} {turn : PyVal → PyVal → PyVal → Except Exc Bool} (ht : ∀ a b c x, turn a b c ≠ .error x) : ∀ (parts : List (List Sent)),
    (∀ p ∈ parts, Part b p) → ∃ parts', List.Forall₂ GuessedPart parts parts' ∧ ∀ {σ : Type} (Q : AnyPen σ) (o : σ),
    (drawOn (guessPen turn Q) ⟨o, none⟩ parts.flatten).1.out = (send Q o parts'.flatten).1 ∧
    (drawOn (guessPen turn Q) ⟨o, none⟩ parts.flatten).2 = (send Q o parts'.flatten).2 ∧
    ((send Q o parts'.flatten).2 = none → (drawOn (guessPen turn Q) ⟨o, none⟩ parts.flatten).1.points = none)
  | [], _ => ⟨[], .nil, fun Q o => ⟨rfl, rfl, fun _ => rfl⟩⟩
  | p :: ps, h => by
    obtain ⟨p', h1, h2⟩ := guess_part ht (h p (by simp))
    obtain ⟨ps', h3, h4⟩ := guess_parts ht ps fun q hq => h q (List.mem_cons_of_mem _ hq)
    refine ⟨p' :: ps', .cons h1 h3, fun Q o => ?_⟩
    obtain ⟨k1, k2, k3⟩ := h2 Q o
    rw [List.flatten_cons, List.flatten_cons, drawOn_append, send_append]
    rcases hp : send Q o p' with ⟨o', _ | x⟩
    · rw [hp] at k1 k2 k3
      rcases hr : drawOn (guessPen turn Q) ⟨o, none⟩ p with ⟨⟨a, b⟩, r⟩
      rw [hr] at k1 k2 k3
      dsimp only at k1 k2 k3
      subst k2 k1
      rw [k3 rfl]
      exact h4 Q a
    · rw [hp] at k1 k2
      rcases hr : drawOn (guessPen turn Q) ⟨o, none⟩ p with ⟨⟨a, b⟩, r⟩
      rw [hr] at k1 k2
      dsimp only at k1 k2
      subst k2 k1
      exact ⟨rfl, rfl, fun h => nomatch h⟩

end Verif.PenStack
