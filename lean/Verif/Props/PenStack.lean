import Verif.Proofs.PenStack
import Verif.Props.GlifPen
/-! Reading a glyph through the filtering pens onto any pen: C108. -/
namespace Verif.Props
open Verif Verif.Glif Verif.PointPens Verif.GlifPen Verif.PenStack Verif.Spec.GlifPen Verif.Spec.PenStack

/-- Whole parts, and a contour without its end only when the reading fails. -/
theorem shape108 (E : Env) (accepts : Str → Bool) (validate hasObj hasPen : Bool) (versions : List Int) (tree : Elem) (a : Dict Str PyVal) :
    ∃ (parts : List (List Sent)) (rest : List Sent), (readOnto E record accepts validate hasObj hasPen versions tree ⟨a, []⟩).1.pen = parts.flatten ++ rest ∧
      (∀ p ∈ parts, Part validate p) ∧ (rest = [] ∨ ∃ (i : Option (Option Str)) (points : List Sent), rest = .beginPath (i.map orNone) :: points ∧ ∀ c ∈ points, IsPoint c) ∧
      ((readOnto E record accepts validate hasObj hasPen versions tree ⟨a, []⟩).2 = .ok () → rest = []) := by
  obtain ⟨h1, h2⟩ := C107_shape E accepts validate hasObj hasPen versions tree a
  by_cases hk : (readOnto E record accepts validate hasObj hasPen versions tree ⟨a, []⟩).2 = .ok ()
  · obtain ⟨parts, h3, h4⟩ := h1 hk
    exact ⟨parts, [], by rw [h3, List.append_nil], h4, .inl rfl, fun _ => rfl⟩
  · rcases h2 with ⟨parts, h3, h4⟩ | ⟨before, i, points, ⟨parts, rfl, h4⟩, h5, h6⟩
    · exact ⟨parts, [], by rw [h3, List.append_nil], h4, .inl rfl, fun _ => rfl⟩
    · exact ⟨parts, _, h5, h4, .inr ⟨i, points, rfl, h6⟩, fun h => absurd h hk⟩

/-- Reading through a `ReverseContourPointPen`: the pen behind gets the contours and components of the glyph in their order, every contour turned
round, everything else as it is; what it raises is raised. A contour whose reading fails in the middle does not reach it at all, and is left
waiting in the filtering pen. -/
theorem C108_reversed (E : Env) {σ : Type} (Q : AnyPen σ) (hQ : NoTypeError Q) (accepts : Str → Bool) (validate hasObj hasPen : Bool) (versions : List Int) (tree : Elem)
    (a : Dict Str PyVal) (s : σ) (j : PyVal) :
    let kept := readOnto E record accepts validate hasObj hasPen versions tree ⟨a, []⟩
    let read := readOnto E (reversePen Q) accepts validate hasObj hasPen versions tree ⟨a, ⟨s, none, j⟩⟩
    ∃ (parts parts' : List (List Sent)) (rest : List Sent), kept.1.pen = parts.flatten ++ rest ∧ (∀ p ∈ parts, Part validate p) ∧ List.Forall₂ ReversedPart parts parts' ∧
      (kept.2 = .ok () → rest = []) ∧ (rest = [] ∨ ∃ (i : Option (Option Str)) (points : List Sent), rest = .beginPath (i.map orNone) :: points ∧ ∀ c ∈ points, IsPoint c) ∧
      read.1.pen.out = (drawOn Q s parts'.flatten).1 ∧
      (∀ x, (drawOn Q s parts'.flatten).2 = some x → read.2 = .error x) ∧
      ((drawOn Q s parts'.flatten).2 = none → read.2 = kept.2 ∧ read.1.attrs = kept.1.attrs ∧ (read.1.pen.contour = none ↔ rest = [])) := by
  obtain ⟨parts, rest, h1, h2, h3, h4⟩ := shape108 E accepts validate hasObj hasPen versions tree a
  obtain ⟨parts', h5, h6⟩ := reverse_parts parts h2
  obtain ⟨k1, k2, k3⟩ := h6 Q s j
  obtain ⟨r1, r2, r3⟩ := C107_any_pen E (reversePen Q) accepts validate hasObj hasPen versions tree a ⟨s, none, j⟩
  dsimp only at r1 r2 r3 ⊢
  refine ⟨parts, parts', rest, h1, h2, h5, h4, h3, ?_⟩
  rw [h1, drawOn_send (reverse_noType hQ), send_append] at r1 r2 r3
  rw [drawOn_send hQ]
  rcases hd : send Q s parts'.flatten with ⟨o, _ | x⟩
  · rw [hd] at k1 k2 k3
    rcases hr : send (reversePen Q) ⟨s, none, j⟩ parts.flatten with ⟨⟨b, c, j'⟩, z⟩
    rw [hr] at k1 k2 k3 r1 r2 r3
    dsimp only at k1 k2 k3
    have hc := k3 rfl
    subst k1 k2 hc
    dsimp only at r1 r2 r3 ⊢
    have hrest : ∃ cc, send (reversePen Q) ⟨b, none, j'⟩ rest = (cc, none) ∧ cc.out = b ∧ (cc.contour = none ↔ rest = []) := by
      rcases h3 with rfl | ⟨i, points, rfl, hp⟩
      · exact ⟨_, rfl, rfl, by simp⟩
      · obtain ⟨l, -, hl⟩ := points_kept points hp
        rw [send]
        show ∃ cc, send (reversePen Q) ⟨b, some [], (i.map orNone).getD .none⟩ points = (cc, none) ∧ _
        rw [hl]
        exact ⟨_, rfl, rfl, by simp⟩
    obtain ⟨cc, hcc, hb, hn⟩ := hrest
    rw [hcc] at r1 r2 r3
    dsimp only at r1 r2 r3
    rw [r1]
    exact ⟨hb, fun x h => (nomatch h), fun _ => ⟨(r3 rfl).1, (r3 rfl).2, hn⟩⟩
  · rw [hd] at k1 k2
    rcases hr : send (reversePen Q) ⟨s, none, j⟩ parts.flatten with ⟨⟨b, c, j'⟩, z⟩
    rw [hr] at k1 k2 r1 r2 r3
    dsimp only at k1 k2
    subst k1 k2
    dsimp only at r1 r2 r3 ⊢
    rw [r1]
    exact ⟨rfl, fun y hy => by cases hy; exact r2 x rfl, fun h => (nomatch h)⟩

/-- A glyph with an open contour, for the examples. -/
def tree108 (y : Str) : Elem :=
  .mk c!"glyph" [(c!"name", c!"A"), (c!"format", c!"2")] none none
    [.mk c!"outline" [] none none
      [.mk c!"contour" [(c!"identifier", c!"c1")] none none
        [.mk c!"point" [(c!"x", c!"1"), (c!"y", c!"2"), (c!"type", c!"move"), (c!"identifier", c!"p1")] none none [],
         .mk c!"point" [(c!"x", c!"3"), (c!"y", c!"4"), (c!"type", c!"line"), (c!"name", c!"n")] none none [],
         .mk c!"point" [(c!"x", c!"5"), (c!"y", c!"5")] none none [],
         .mk c!"point" [(c!"x", c!"6"), (c!"y", c!"7"), (c!"type", c!"qcurve"), (c!"smooth", c!"yes")] none none []],
       .mk c!"contour" [] none none
        [.mk c!"point" [(c!"x", c!"8"), (c!"y", y), (c!"type", c!"line")] none none []],
       .mk c!"component" [(c!"base", c!"B"), (c!"identifier", c!"k1")] none none []]]

example : NoTypeError record ∧ NoTypeError full107 := by
  refine ⟨fun s c => by simp [record], fun n c => ?_⟩
  unfold full107
  by_cases h : n < 3 <;> simp [h]

example : (readOnto env107 (reversePen record) (fun _ => true) true true true [1, 2] (tree108 c!"9") ⟨[], ⟨[], none, .none⟩⟩).1.pen.out =
      [.beginPath (some (.str c!"c1")), .addPoint (.tuple [.int 6, .int 7]) (.str c!"move") (.bool true) .none (some .none),
       .addPoint (.tuple [.int 5, .int 5]) .none (.bool false) .none (some .none),
       .addPoint (.tuple [.int 3, .int 4]) (.str c!"qcurve") (.bool false) (.str c!"n") (some .none),
       .addPoint (.tuple [.int 1, .int 2]) (.str c!"line") (.bool false) .none (some (.str c!"p1")), .endPath,
       .beginPath (some .none), .addPoint (.tuple [.int 8, .int 9]) (.str c!"line") (.bool false) .none (some .none), .endPath,
       .addComponent (.str c!"B") (.tuple [.int 1, .int 0, .int 0, .int 1, .int 0, .int 0]) (some (.str c!"k1"))] ∧
    (readOnto env107 (reversePen record) (fun _ => true) true true true [1, 2] (tree108 c!"nine") ⟨[], ⟨[], none, .none⟩⟩).1.pen.out.length = 6 ∧
    (readOnto env107 (reversePen record) (fun _ => true) true true true [1, 2] (tree108 c!"nine") ⟨[], ⟨[], none, .none⟩⟩).1.pen.contour = some [] ∧
    (readOnto env107 (reversePen full107) (fun _ => true) true true true [1, 2] (tree108 c!"9") ⟨[], ⟨0, none, .none⟩⟩).2.toOption = none := by decide +kernel

/-- A reversing pen with a contour left waiting by a reading that failed is of no use: every glyph with an outline raises `AssertionError` and
nothing reaches the pen behind. -/
theorem C108_waiting (E : Env) {σ : Type} (Q : AnyPen σ) (accepts : Str → Bool) (validate hasObj hasPen : Bool) (versions : List Int) (tree : Elem)
    (a : Dict Str PyVal) (st : Reversing σ) (hst : st.contour ≠ none)
    (hc : (readOnto E record accepts validate hasObj hasPen versions tree ⟨a, []⟩).1.pen ≠ []) :
    (readOnto E (reversePen Q) accepts validate hasObj hasPen versions tree ⟨a, st⟩).1.pen = st ∧
    (readOnto E (reversePen Q) accepts validate hasObj hasPen versions tree ⟨a, st⟩).2 = .error .assertionError := by
  obtain ⟨parts, rest, h1, h2, h3, -⟩ := shape108 E accepts validate hasObj hasPen versions tree a
  obtain ⟨r1, r2, -⟩ := C107_any_pen E (reversePen Q) accepts validate hasObj hasPen versions tree a st
  have key : drawOn (reversePen Q) st (readOnto E record accepts validate hasObj hasPen versions tree ⟨a, []⟩).1.pen = (st, some .assertionError) := by
    obtain ⟨o, c, j⟩ := st
    obtain ⟨l, rfl⟩ := Option.ne_none_iff_exists'.1 hst
    have hb : ∀ (i : Option PyVal) (cs : List Sent), drawOn (reversePen Q) ⟨o, some l, j⟩ (.beginPath i :: cs) = (⟨o, some l, j⟩, some .assertionError) := by
      intro i cs
      have : deliver (reversePen Q) ⟨o, some l, j⟩ (.beginPath i) = (⟨o, some l, j⟩, some .assertionError) := by cases i <;> rfl
      rw [drawOn, this]
    rw [h1]
    rw [h1] at hc
    rcases parts with _ | ⟨p, ps⟩
    · rcases h3 with rfl | ⟨i, points, rfl, -⟩
      · exact absurd rfl hc
      · exact hb _ _
    · cases h2 p (by simp) with
      | contour i points hp hg' => exact hb _ _
      | component g t i =>
        have : deliver (reversePen Q) ⟨o, some l, j⟩ (.addComponent (orNone g) (.tuple t) (i.map orNone)) = (⟨o, some l, j⟩, some .assertionError) := by cases i <;> rfl
        rw [List.flatten_cons, List.cons_append, List.cons_append, drawOn, this]
  rw [key] at r1 r2
  exact ⟨r1, r2 _ rfl⟩

example : (⟨[], some [], .none⟩ : Reversing (List Sent)).contour ≠ none ∧
    (readOnto env107 record (fun _ => true) true true true [1, 2] (tree107 c!"4") ⟨[], []⟩).1.pen ≠ [] := by decide +kernel

/-- The reversing pen cannot be put in front of every pen: onto a pen that does not know the keyword every glyph can be read directly, but through the
reversing pen the first contour or component raises `TypeError`. -/
theorem C108_legacy_refuted (E : Env) {σ : Type} (Q : AnyPen σ) (hQ : Legacy Q) (accepts : Str → Bool) (validate hasObj hasPen : Bool) (versions : List Int) (tree : Elem)
    (a : Dict Str PyVal) (s : σ) (j : PyVal) (hok : (readOnto E record accepts validate hasObj hasPen versions tree ⟨a, []⟩).2 = .ok ())
    (hc : (readOnto E record accepts validate hasObj hasPen versions tree ⟨a, []⟩).1.pen ≠ []) :
    (readOnto E Q accepts validate hasObj hasPen versions tree ⟨a, s⟩).2 = .ok () ∧
    (readOnto E (reversePen Q) accepts validate hasObj hasPen versions tree ⟨a, ⟨s, none, j⟩⟩).1.pen.out = s ∧
    (readOnto E (reversePen Q) accepts validate hasObj hasPen versions tree ⟨a, ⟨s, none, j⟩⟩).2 = .error .typeError := by
  refine ⟨?_, ?_⟩
  · obtain ⟨-, -, h3⟩ := C107_any_pen E Q accepts validate hasObj hasPen versions tree a s
    rw [drawOn_legacy hQ] at h3
    rw [(h3 rfl).1, hok]
  obtain ⟨parts, rest, h1, h2, -, h4⟩ := shape108 E accepts validate hasObj hasPen versions tree a
  obtain ⟨r1, r2, -⟩ := C107_any_pen E (reversePen Q) accepts validate hasObj hasPen versions tree a ⟨s, none, j⟩
  have hl : ∀ (o : σ) (c : Sent), hasKeyword c = true → Q o c = (o, some .typeError) := fun o c hk => by
    have := hQ o c
    rw [if_pos hk] at this
    exact this
  have key : ∃ z, drawOn (reversePen Q) ⟨s, none, j⟩ (readOnto E record accepts validate hasObj hasPen versions tree ⟨a, []⟩).1.pen = (z, some .typeError) ∧ z.out = s := by
    rw [h1]
    rw [h1] at hc
    obtain rfl := h4 hok
    rcases parts with _ | ⟨p, ps⟩
    · exact absurd rfl hc
    rw [List.flatten_cons, List.append_nil, drawOn_append]
    cases h2 p (by simp) with
    | contour i points hp hg' =>
      obtain ⟨l, -, hl2⟩ := points_kept points hp
      obtain ⟨r, hr⟩ := reverseContour_total l
      have hb : deliver (reversePen Q) ⟨s, none, j⟩ (.beginPath (i.map orNone)) = (⟨s, some [], (i.map orNone).getD .none⟩, none) := by cases i <;> rfl
      have he : deliver (reversePen Q) ⟨s, some l, (i.map orNone).getD .none⟩ .endPath = (⟨s, some (leftover l), (i.map orNone).getD .none⟩, some .typeError) := by
        rw [deliver_plain rfl]
        show flushReversed Q ⟨s, some l, (i.map orNone).getD .none⟩ l = _
        rw [flushReversed, hr]
        dsimp only
        rw [List.cons_append, send, hl s _ rfl]
      have := drawOn_append (reversePen Q) (.beginPath (i.map orNone) :: points) [.endPath] ⟨s, none, j⟩
      rw [drawOn, hb] at this
      dsimp only at this
      rw [drawOn_of_send (hl2 Q s [] _)] at this
      dsimp only at this
      rw [List.nil_append, drawOn, he] at this
      dsimp only at this
      rw [this]
      exact ⟨_, rfl, rfl⟩
    | component g t i =>
      have : deliver (reversePen Q) ⟨s, none, j⟩ (.addComponent (orNone g) (.tuple t) (i.map orNone)) = (⟨s, none, j⟩, some .typeError) := by
        have h5 : ∀ i : Option PyVal, reversePen Q ⟨s, none, j⟩ (.addComponent (orNone g) (.tuple t) i) = (⟨s, none, j⟩, some .typeError) := by
          intro i
          simp only [reversePen]
          rw [hl s _ rfl]
        unfold deliver
        rw [h5]
        cases i with
        | none => rfl
        | some i => exact h5 none
      rw [drawOn, this]
      exact ⟨_, rfl, rfl⟩
  obtain ⟨z, hz, ho⟩ := key
  rw [hz] at r1 r2
  rw [r1]
  exact ⟨ho, r2 _ rfl⟩

example : (readOnto env107 record (fun _ => true) true true true [1, 2] (tree107 c!"4") ⟨[], []⟩).2.toOption = some () ∧
    (readOnto env107 (reversePen legacy107) (fun _ => true) true true true [1, 2] (tree107 c!"4") ⟨[], ⟨[], none, .none⟩⟩).2.toOption = none := by decide +kernel

/-- Reading through a `GuessSmoothPointPen` with a direction test that never raises: the pen behind gets the same contours and components in their
order, with other smooth flags and without the identifiers of contours and components; what it raises is raised. Of a contour whose reading fails
in the middle it gets only the beginning. -/
theorem C108_guessed_partial (E : Env) {σ : Type} (turn : PyVal → PyVal → PyVal → Except Exc Bool) (ht : ∀ p q r x, turn p q r ≠ .error x) (Q : AnyPen σ) (hQ : NoTypeError Q)
    (accepts : Str → Bool) (validate hasObj hasPen : Bool) (versions : List Int) (tree : Elem) (a : Dict Str PyVal) (s : σ) :
    let kept := readOnto E record accepts validate hasObj hasPen versions tree ⟨a, []⟩
    let read := readOnto E (guessPen turn Q) accepts validate hasObj hasPen versions tree ⟨a, ⟨s, none⟩⟩
    ∃ (parts parts' : List (List Sent)) (rest rest' : List Sent), kept.1.pen = parts.flatten ++ rest ∧ (∀ p ∈ parts, Part validate p) ∧ List.Forall₂ GuessedPart parts parts' ∧
      (kept.2 = .ok () → rest = []) ∧ ((rest = [] ∧ rest' = []) ∨ (∃ i points, rest = .beginPath i :: points) ∧ rest' = [.beginPath none]) ∧
      read.1.pen.out = (drawOn Q s (parts'.flatten ++ rest')).1 ∧
      (∀ x, (drawOn Q s (parts'.flatten ++ rest')).2 = some x → read.2 = .error x) ∧
      ((drawOn Q s (parts'.flatten ++ rest')).2 = none → read.2 = kept.2 ∧ read.1.attrs = kept.1.attrs ∧ (read.1.pen.points = none ↔ rest = [])) := by
  obtain ⟨parts, rest, h1, h2, h3, h4⟩ := shape108 E accepts validate hasObj hasPen versions tree a
  obtain ⟨parts', h5, h6⟩ := guess_parts ht parts h2
  obtain ⟨k1, k2, k3⟩ := h6 Q s
  obtain ⟨r1, r2, r3⟩ := C107_any_pen E (guessPen turn Q) accepts validate hasObj hasPen versions tree a ⟨s, none⟩
  dsimp only at r1 r2 r3 ⊢
  rw [h1, drawOn_append] at r1 r2 r3
  have hrest : ∃ rest', ((rest = [] ∧ rest' = []) ∨ (∃ i points, rest = .beginPath i :: points) ∧ rest' = [.beginPath none]) ∧
      ∀ b, ((drawOn (guessPen turn Q) ⟨b, none⟩ rest).1.out = (send Q b rest').1 ∧ (drawOn (guessPen turn Q) ⟨b, none⟩ rest).2 = (send Q b rest').2 ∧
        ((drawOn (guessPen turn Q) ⟨b, none⟩ rest).1.points = none ↔ rest = [])) := by
    rcases h3 with rfl | ⟨i, points, rfl, hp⟩
    · exact ⟨[], .inl ⟨rfl, rfl⟩, fun b => ⟨rfl, rfl, by simp [drawOn]⟩⟩
    · obtain ⟨l, -, -, -, hl⟩ := points_guessed (turn := turn) points hp
      refine ⟨[.beginPath none], .inr ⟨⟨_, _, rfl⟩, rfl⟩, fun b => ?_⟩
      rw [drawOn, deliver_begin, send]
      rcases Q b (.beginPath none) with ⟨b', _ | x⟩
      · dsimp only
        rw [hl]
        exact ⟨rfl, rfl, by simp⟩
      · exact ⟨rfl, rfl, by simp⟩
  obtain ⟨rest', h7, h8⟩ := hrest
  refine ⟨parts, parts', rest, rest', h1, h2, h5, h4, h7, ?_⟩
  rw [drawOn_send hQ, send_append]
  rcases hd : send Q s parts'.flatten with ⟨o, _ | x⟩
  · rw [hd] at k1 k2 k3
    rcases hr : drawOn (guessPen turn Q) ⟨s, none⟩ parts.flatten with ⟨⟨b, c⟩, z⟩
    rw [hr] at k1 k2 k3 r1 r2 r3
    dsimp only at k1 k2 k3
    have hc := k3 rfl
    subst k1 k2 hc
    dsimp only at r1 r2 r3 ⊢
    obtain ⟨q1, q2, q3⟩ := h8 b
    rw [r1, ← q1, ← q2]
    exact ⟨rfl, r2, fun hn => ⟨(r3 hn).1, (r3 hn).2, q3⟩⟩
  · rw [hd] at k1 k2
    rcases hr : drawOn (guessPen turn Q) ⟨s, none⟩ parts.flatten with ⟨⟨b, c⟩, z⟩
    rw [hr] at k1 k2 r1 r2 r3
    dsimp only at k1 k2
    subst k1 k2
    dsimp only at r1 r2 r3 ⊢
    rw [r1]
    exact ⟨rfl, fun y hy => by cases hy; exact r2 x rfl, fun h => (nomatch h)⟩

example : (readOnto env107 (guessPen (fun _ _ _ => .ok true) record) (fun _ => true) true true true [1, 2] (tree108 c!"9") ⟨[], ⟨[], none⟩⟩).1.pen.out =
      [.beginPath none, .addPoint (.tuple [.int 1, .int 2]) (.str c!"move") (.bool false) .none (some (.str c!"p1")),
       .addPoint (.tuple [.int 3, .int 4]) (.str c!"line") (.bool true) (.str c!"n") (some .none),
       .addPoint (.tuple [.int 5, .int 5]) .none (.bool false) .none (some .none),
       .addPoint (.tuple [.int 6, .int 7]) (.str c!"qcurve") (.bool false) .none (some .none), .endPath,
       .beginPath none, .addPoint (.tuple [.int 8, .int 9]) (.str c!"line") (.bool false) .none (some .none), .endPath,
       .addComponent (.str c!"B") (.tuple [.int 1, .int 0, .int 0, .int 1, .int 0, .int 0]) none] ∧
    (readOnto env107 (guessPen (fun _ _ _ => .ok true) record) (fun _ => true) true true true [1, 2] (tree108 c!"nine") ⟨[], ⟨[], none⟩⟩).1.pen.out.length = 7 := by
  decide +kernel

/-- `GuessSmoothPointPen` is not neutral but for smooth flags: the identifiers of the contour and of the component do not arrive, a smooth flag that
was given is forgotten (the last point of `tree108`), and a pen behind it that does not know the keyword, onto which the glyph can be read
directly, raises `TypeError` at the first contour of format 2. -/
theorem C108_neutral_refuted :
    (readOnto env107 record (fun _ => true) true true true [1, 2] (tree108 c!"9") ⟨[], []⟩).1.pen.filterMap (fun c => match c with | .beginPath i => some i | .addComponent _ _ i => some i | _ => none) =
      [some (.str c!"c1"), some .none, some (.str c!"k1")] ∧
    (∀ b : Bool, (readOnto env107 (guessPen (fun _ _ _ => .ok b) record) (fun _ => true) true true true [1, 2] (tree108 c!"9") ⟨[], ⟨[], none⟩⟩).1.pen.out.filterMap
      (fun c => match c with | .beginPath i => some i | .addComponent _ _ i => some i | _ => none) = [none, none, none]) ∧
    (∀ b : Bool, (readOnto env107 (guessPen (fun _ _ _ => .ok b) record) (fun _ => true) true true true [1, 2] (tree108 c!"9") ⟨[], ⟨[], none⟩⟩).1.pen.out[4]? =
      some (.addPoint (.tuple [.int 6, .int 7]) (.str c!"qcurve") (.bool false) .none (some .none))) ∧
    (readOnto env107 legacy107 (fun _ => true) true true true [1, 2] (tree108 c!"9") ⟨[], []⟩).2.toOption = some () ∧
    (∀ b : Bool, (readOnto env107 (guessPen (fun _ _ _ => .ok b) legacy107) (fun _ => true) true true true [1, 2] (tree108 c!"9") ⟨[], ⟨[], none⟩⟩).2.toOption = none) := by
  decide +kernel

end Verif.Props
