import Verif.Proofs.PenStack
import Verif.Proofs.Draw
import Verif.Spec.SegmentDraw
/-! Lemmas about drawing on any segment pen. -/
namespace Verif.SegmentDraw
open Verif Verif.Glif Verif.PointPens Verif.GlifPen Verif.GlyphSet Verif.PenStack Verif.Spec.GlifPen

theorem sendSegments_append {τ : Type} (Q : AnySegmentPen τ) : ∀ (cs ds : List SegmentCall) (s : τ),
    sendSegments Q s (cs ++ ds) = match sendSegments Q s cs with
      | (s, some x) => (s, some x)
      | (s, none) => sendSegments Q s ds
  | [], ds, s => rfl
  | c :: cs, ds, s => by
    rw [List.cons_append, sendSegments, sendSegments]
    rcases Q s c with ⟨s', _ | x⟩
    · exact sendSegments_append Q cs ds s'
    · rfl

theorem callsUntil_ok {closed implied : Bool} : ∀ {segs : List (Segment PyVal PyVal)} {evs : List SegmentCall},
    segmentCalls closed implied segs = .ok evs → callsUntil closed implied segs = (evs, none)
  | [], _, h => by cases h; rfl
  | s :: rest, evs, h => by
    rw [segmentCalls] at h
    rw [callsUntil]
    cases hc : segmentCall (C := PyVal × PyVal) (!(!rest.isEmpty || implied || !closed)) s.1 s.2 with
    | error e => rw [hc] at h; cases h
    | ok e1 =>
      rw [hc] at h
      dsimp only at h ⊢
      cases hm : segmentCalls (C := PyVal × PyVal) closed implied rest with
      | error e => rw [hm] at h; cases h
      | ok e2 => rw [hm] at h; cases h; rw [callsUntil_ok hm]

theorem flushUntil_ok {implied : Bool} {segs : List (Segment PyVal PyVal)} {evs : List SegmentCall} (h : flushSegments implied segs = .ok evs) :
    flushUntil implied segs = (evs, none) := by
  unfold flushSegments at h
  unfold flushUntil
  split at h
  · cases h
  · dsimp only
    split at h
    · dsimp only
      split at h
      · cases h
      · next he => cases h; rw [callsUntil_ok he]; rfl
    · cases h
  · next hne =>
    split
    · exact absurd rfl (by assumption)
    · exact absurd rfl (hne _ _)
    · split at h
      · cases h
      · next hx =>
        rw [hx]
        dsimp only
        split at h
        · cases h
        · next he => cases h; rw [callsUntil_ok he]; simp only [thenCall, List.append_assoc]; split <;> rfl

theorem flushPath_ok {τ : Type} (Q : AnySegmentPen τ) (o : τ) {l : List (Point PyVal PyVal)} {evs : List SegmentCall} (h : toSegments false l = .ok evs) :
    flushPath Q o l = (⟨(sendSegments Q o evs).1, none⟩, (sendSegments Q o evs).2) := by
  unfold toSegments at h
  unfold flushPath
  cases hs : segmentsOf l with
  | none => rw [hs] at h; cases h; rfl
  | some segs =>
    rw [hs] at h
    dsimp only at h ⊢
    rw [flushUntil_ok h]
    dsimp only
    generalize sendSegments Q o evs = z
    rcases z with ⟨o', _ | x⟩ <;> rfl

/-- As long as the calls can be turned into segments, the pen behind gets the segments. -/
theorem send_segments {τ : Type} (Q : AnySegmentPen τ) : ∀ (cs : List Sent) (o : τ) (path path' : Option (List (Point PyVal PyVal))) (evs : List SegmentCall),
    runPen (segmentPenStep false) path ((cs.map asCall).map penEvent) = .ok (path', evs) →
    (send (segmentPen Q) ⟨o, path⟩ cs).1.out = (sendSegments Q o evs).1 ∧ (send (segmentPen Q) ⟨o, path⟩ cs).2 = (sendSegments Q o evs).2 ∧
    ((sendSegments Q o evs).2 = none → (send (segmentPen Q) ⟨o, path⟩ cs).1.path = path')
  | [], o, path, path', evs, h => by cases h; exact ⟨rfl, rfl, fun _ => rfl⟩
  | c :: cs, o, path, path', evs, h => by
    rw [List.map_cons, List.map_cons, runPen] at h
    cases hs : segmentPenStep false path (penEvent (asCall c)) with
    | error e => rw [hs] at h; cases h
    | ok r =>
      obtain ⟨path1, e1⟩ := r
      rw [hs] at h
      dsimp only at h
      cases hr : runPen (segmentPenStep false) path1 ((cs.map asCall).map penEvent) with
      | error e => rw [hr] at h; cases h
      | ok r =>
        obtain ⟨path2, e2⟩ := r
        rw [hr] at h
        injection h with h
        injection h with h3 h4
        subst h3 h4
        have hstep : (segmentPen Q ⟨o, path⟩ c).1.out = (sendSegments Q o e1).1 ∧ (segmentPen Q ⟨o, path⟩ c).2 = (sendSegments Q o e1).2 ∧
            ((sendSegments Q o e1).2 = none → (segmentPen Q ⟨o, path⟩ c).1.path = path1) := by
          cases c with
          | beginPath i => cases path with
            | none => cases hs; exact ⟨rfl, rfl, fun _ => rfl⟩
            | some l => cases hs
          | addPoint p t s n i => cases path with
            | none => cases hs
            | some l => cases hs; exact ⟨rfl, rfl, fun _ => rfl⟩
          | endPath => cases path with
            | none => cases hs
            | some l =>
              simp only [asCall, penEvent, segmentPenStep] at hs
              cases ht : toSegments (C := PyVal × PyVal) false l with
              | error e => rw [ht] at hs; cases hs
              | ok evs =>
                rw [ht] at hs
                cases hs
                have := flushPath_ok Q o ht
                show (flushPath Q o l).1.out = _ ∧ (flushPath Q o l).2 = _ ∧ (_ → (flushPath Q o l).1.path = _)
                rw [this]
                exact ⟨rfl, rfl, fun _ => rfl⟩
          | addComponent g t i =>
            cases hs
            simp only [segmentPen, sendSegments]
            rcases Q o (.addComponent (g, t)) with ⟨o', _ | x⟩
            · exact ⟨rfl, rfl, fun _ => trivial⟩
            · exact ⟨rfl, rfl, fun h => nomatch h⟩
        obtain ⟨k1, k2, k3⟩ := hstep
        rw [send, sendSegments_append]
        generalize sendSegments Q o e1 = y at k1 k2 k3
        generalize segmentPen Q ⟨o, path⟩ c = z at k1 k2 k3
        rcases y with ⟨o1, _ | x⟩ <;> rcases z with ⟨⟨o2, p2⟩, r2⟩ <;> dsimp only at k1 k2 k3
        · have k4 := k3 rfl
          subst k1 k2 k4
          exact send_segments Q cs o2 p2 path2 e2 hr
        · subst k1 k2
          exact ⟨rfl, rfl, fun h => nomatch h⟩

/-- A pen whose `addComponent` never answers `TypeError`: the reader's second attempt is not made. -/
theorem drawOn_segmentPen {τ : Type} {Q : AnySegmentPen τ} (hQ : ∀ s c, (Q s (.addComponent c)).2 ≠ some .typeError) : ∀ (cs : List Sent) (s : Segmenting τ),
    drawOn (segmentPen Q) s cs = send (segmentPen Q) s cs
  | [], _ => rfl
  | c :: cs, s => by
    have hd : deliver (segmentPen Q) s c = segmentPen Q s c := by
      obtain ⟨o, p⟩ := s
      cases c with
      | beginPath i => cases p <;> cases i <;> rfl
      | addPoint pt t sm n i => cases p <;> cases i <;> rfl
      | endPath =>
        unfold deliver
        generalize segmentPen Q ⟨o, p⟩ .endPath = z
        rcases z with ⟨z, _ | x⟩
        · rfl
        · cases x <;> rfl
      | addComponent g t i =>
        have := hQ o (g, t)
        unfold deliver
        simp only [segmentPen]
        rcases hz : Q o (.addComponent (g, t)) with ⟨o', _ | x⟩
        · rfl
        · rw [hz] at this
          cases x <;> first | exact absurd rfl this | (cases i <;> rfl)
    rw [drawOn, send, hd]
    rcases segmentPen Q s c with ⟨s', _ | x⟩
    · exact drawOn_segmentPen hQ cs s'
    · rfl

/-- A well formed part of the calls is a part of a drawing. -/
theorem part_item {p : List Sent} (h : Part true p) : ∃ it : Spec.Glif.Item, p.map asCall = it.calls ∧ Spec.Glif.GoodItem it := by
  cases h with
  | component g t i => exact ⟨.component _ _ _, rfl, trivial⟩
  | contour i points hp hg =>
    obtain ⟨ps, h1, h2⟩ := hg rfl
    refine ⟨.contour ((i.map orNone).getD .none) ps, ?_, h2⟩
    rw [List.cons_append, List.map_cons, List.map_append, h1]
    rfl

theorem parts_drawing : ∀ (parts : List (List Sent)), (∀ p ∈ parts, Part true p) → ∃ d : List Spec.Glif.Item, parts.flatten.map asCall = Spec.Glif.drawing d ∧
    ∀ it ∈ d, Spec.Glif.GoodItem it
  | [], _ => ⟨[], rfl, fun _ h => (nomatch h)⟩
  | p :: ps, h => by
    obtain ⟨it, h1, h2⟩ := part_item (h p (by simp))
    obtain ⟨d, h3, h4⟩ := parts_drawing ps fun q hq => h q (List.mem_cons_of_mem _ hq)
    refine ⟨it :: d, ?_, fun x hx => ?_⟩
    · rw [List.flatten_cons, List.map_append, h1, h3]
      rfl
    · rcases List.mem_cons.1 hx with rfl | hx
      · exact h2
      · exact h4 x hx

theorem rest_waits (i : Option PyVal) (points : List Sent) (hp : ∀ c ∈ points, IsPoint c) : ∃ l : List (Point PyVal PyVal),
    runPen (segmentPenStep (C := PyVal × PyVal) false) none (((Sent.beginPath i :: points).map asCall).map penEvent) = .ok (some l, []) := by
  have key : ∃ l : List (Point PyVal PyVal), (points.map asCall).map penEvent = l.map PEvent.addPoint := by
    clear i
    induction points with
    | nil => exact ⟨[], rfl⟩
    | cons c cs ih =>
      obtain ⟨l, hl⟩ := ih fun c hc => hp c (List.mem_cons_of_mem _ hc)
      obtain ⟨x, y, t, n, s, i, rfl⟩ := hp c (by simp)
      exact ⟨⟨.tuple [x, y], segmentTypeOf (orNone t), decide (PyVal.bool s = .bool true), strArg (orNone n), (i.map orNone).getD .none⟩ :: l, by
        rw [List.map_cons, List.map_cons, hl]; rfl⟩
  obtain ⟨l, hl⟩ := key
  refine ⟨l, ?_⟩
  rw [List.map_cons, List.map_cons, hl]
  show runPen (segmentPenStep false) none (.beginPath (strArg (i.getD .none)) :: l.map PEvent.addPoint) = _
  rw [runPen]
  simp only [segmentPenStep]
  rw [runSeg_points]
  simp

end Verif.SegmentDraw

namespace Verif.SegmentDraw
open Verif Verif.Spec.SegmentDraw

theorem receive_eq {τ : Type} (Q : AnySegmentPen τ) (cs : List SegmentCall) (s : τ) : receive Q s cs = sendSegments Q s cs := by
  have stuck : ∀ (cs : List SegmentCall) (r : τ × Option Exc), r.2 ≠ none → cs.foldl (fun r c => match r.2 with
      | none => Q r.1 c
      | some _ => r) r = r := by
    intro cs
    induction cs with
    | nil => intro r _; rfl
    | cons c cs ih =>
      rintro ⟨s, _ | x⟩ h
      · exact absurd rfl h
      · exact ih _ h
  induction cs generalizing s with
  | nil => rfl
  | cons c cs ih =>
    rw [sendSegments, receive, List.foldl_cons]
    dsimp only
    rcases Q s c with ⟨s', _ | x⟩
    · exact ih s'
    · exact stuck cs _ (by simp)

theorem receive_record (cs s : List SegmentCall) : receive recordSegments s cs = (s ++ cs, none) := by
  rw [receive_eq]
  induction cs generalizing s with
  | nil => simp [sendSegments]
  | cons c cs ih =>
    rw [sendSegments]
    show sendSegments recordSegments (s ++ [c]) cs = _
    rw [ih]
    simp

end Verif.SegmentDraw
