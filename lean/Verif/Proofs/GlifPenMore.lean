import Verif.Proofs.GlifPenFree
import Verif.Proofs.GlifRelax
import Verif.Proofs.GlifRead
/-! Lemmas about what a reading has done when it stops. -/
namespace Verif.GlifPen
open Verif Verif.Validators Verif.Glif Verif.Spec.GlifPen Verif.Spec.Relax

/-- What is recorded when the pen is a recording pen without calls. -/
abbrev recorded {α : Type} (m : ∀ σ : Type, AnyPen σ → Run σ α) (a : Dict Str PyVal) : Effects (List Sent) × Except Exc α := m _ record ⟨a, []⟩

theorem recorded_andThen {α β : Type} {m : ∀ σ : Type, AnyPen σ → Run σ α} {k : ∀ σ : Type, AnyPen σ → α → Run σ β}
    (hk : ∀ a, Free fun σ (P : AnyPen σ) => k σ P a) (a : Dict Str PyVal) :
    recorded (fun σ P => andThen (m σ P) (k σ P)) a = match recorded m a with
      | (f, .error x) => (f, .error x)
      | (f, .ok v) => (⟨(recorded (fun σ P => k σ P v) f.attrs).1.attrs, f.pen ++ (recorded (fun σ P => k σ P v) f.attrs).1.pen⟩, (recorded (fun σ P => k σ P v) f.attrs).2) := by
  show andThen (m _ record) (k _ record) ⟨a, []⟩ = _
  unfold andThen recorded
  rcases m _ record ⟨a, []⟩ with ⟨⟨b, cs⟩, x | v⟩
  · rfl
  · exact (hk v).on_record b cs

/-! ### the shape of what is recorded -/

theorem whole_nil {b : Bool} : Whole b [] := ⟨[], rfl, by simp⟩

theorem whole_append {b : Bool} {cs ds : List Sent} (h : Whole b cs) (h' : Whole b ds) : Whole b (cs ++ ds) := by
  obtain ⟨ps, rfl, hp⟩ := h
  obtain ⟨qs, rfl, hq⟩ := h'
  refine ⟨ps ++ qs, by simp, fun p hp' => ?_⟩
  rcases List.mem_append.1 hp' with h | h
  · exact hp p h
  · exact hq p h

theorem unfinished_append {b : Bool} {cs ds : List Sent} (h : Whole b cs) (h' : Unfinished b ds) : Unfinished b (cs ++ ds) := by
  obtain ⟨b, i, ps, hb, rfl, hp⟩ := h'
  exact ⟨cs ++ b, i, ps, whole_append h hb, by simp, hp⟩

/-- Contours and components are finished, unless the reading fails. -/
def Shaped (b : Bool) {α : Type} (m : ∀ σ : Type, AnyPen σ → Run σ α) : Prop :=
  ∀ a, (∀ v, (recorded m a).2 = .ok v → Whole b (recorded m a).1.pen) ∧ (Whole b (recorded m a).1.pen ∨ Unfinished b (recorded m a).1.pen)

/-- Nothing is called on the pen. -/
def Silent {α : Type} (m : ∀ σ : Type, AnyPen σ → Run σ α) : Prop := ∀ a, (recorded m a).1.pen = []

theorem Silent.shaped {α : Type} {m : ∀ σ : Type, AnyPen σ → Run σ α} {b : Bool} (h : Silent m) : Shaped b m := by
  intro a
  rw [h a]
  exact ⟨fun _ _ => whole_nil, .inl whole_nil⟩

theorem silent_pure {α : Type} (r : Except Exc α) : Silent fun σ (_ : AnyPen σ) => pure_ r := fun _ => rfl
theorem silent_done {α : Type} (a : α) : Silent fun σ (_ : AnyPen σ) => done a := fun _ => rfl
theorem silent_fail {α : Type} (x : Exc) : Silent fun σ (_ : AnyPen σ) => fail (α := α) x := fun _ => rfl
theorem silent_refuse (b : Bool) : Silent fun σ (_ : AnyPen σ) => refuse b := by cases b <;> exact fun _ => rfl
theorem silent_set (accepts : Str → Bool) (n : Str) (v : PyVal) : Silent fun σ (_ : AnyPen σ) => setattr accepts n v := by
  intro a
  by_cases h : accepts n = true <;> simp [recorded, setattr, h]

theorem silent_andThen {α β : Type} {m : ∀ σ : Type, AnyPen σ → Run σ α} {k : ∀ σ : Type, AnyPen σ → α → Run σ β}
    (hm : Silent m) (hk : ∀ a, Silent fun σ (P : AnyPen σ) => k σ P a) : Silent fun σ (P : AnyPen σ) => andThen (m σ P) (k σ P) := by
  intro a
  have h := hm a
  show (andThen (m _ record) (k _ record) ⟨a, []⟩).1.pen = []
  unfold andThen
  unfold recorded at h
  rcases hr : m _ record ⟨a, []⟩ with ⟨⟨b, cs⟩, x | v⟩
  · rw [hr] at h; exact h
  · rw [hr] at h
    dsimp only at h
    subst h
    exact hk v b

theorem silent_if {α : Type} (p : Prop) [Decidable p] {m m' : ∀ σ : Type, AnyPen σ → Run σ α} (h : Silent m) (h' : Silent m') :
    Silent fun σ (P : AnyPen σ) => if p then m σ P else m' σ P := by
  by_cases hp : p
  · simpa only [if_pos hp] using h
  · simpa only [if_neg hp] using h'

theorem shaped_andThen {b : Bool} {α β : Type} {m : ∀ σ : Type, AnyPen σ → Run σ α} {k : ∀ σ : Type, AnyPen σ → α → Run σ β}
    (hm : Shaped b m) (hk : ∀ a, Shaped b fun σ (P : AnyPen σ) => k σ P a) (hf : ∀ a, Free fun σ (P : AnyPen σ) => k σ P a) :
    Shaped b fun σ (P : AnyPen σ) => andThen (m σ P) (k σ P) := by
  intro a
  have h := hm a
  rw [recorded_andThen hf]
  rcases hr : recorded m a with ⟨⟨b, cs⟩, x | v⟩
  · rw [hr] at h
    exact ⟨fun _ h => (nomatch h), h.2⟩
  · rw [hr] at h
    have hw := h.1 v rfl
    have hk := hk v b
    exact ⟨fun w hw' => whole_append hw (hk.1 w hw'), hk.2.imp (whole_append hw) (unfinished_append hw)⟩

theorem shaped_if {b : Bool} {α : Type} (p : Prop) [Decidable p] {m m' : ∀ σ : Type, AnyPen σ → Run σ α} (h : Shaped b m) (h' : Shaped b m') :
    Shaped b fun σ (P : AnyPen σ) => if p then m σ P else m' σ P := by
  by_cases hp : p
  · simpa only [if_pos hp] using h
  · simpa only [if_neg hp] using h'

/-- A list of points. -/
def Points (cs : List Sent) : Prop := ∀ c ∈ cs, IsPoint c

/-- The calls of the points of a format 1 contour. -/
def sent1 (p : MPoint) : Sent := .addPoint (.tuple [p.x, p.y]) (orNone p.seg) (.bool p.smooth) (orNone p.name) none

/-- The call of a point of a format 2 contour. -/
def sent2 (p : MPoint) : Sent := .addPoint (.tuple [p.x, p.y]) (orNone p.seg) (.bool p.smooth) (orNone p.name) (some (orNone p.identifier))

theorem points_sent1 (ps : List MPoint) : Points (ps.map sent1) := by
  intro c hc
  obtain ⟨p, -, rfl⟩ := List.mem_map.1 hc
  exact ⟨p.x, p.y, p.seg, p.name, p.smooth, none, rfl⟩

theorem points1_record (a : Dict Str PyVal) : ∀ (ps : List MPoint) (cs : List Sent), points1 record ps ⟨a, cs⟩ = (⟨a, cs ++ ps.map sent1⟩, .ok ())
  | [], cs => by simp [points1, done]
  | p :: ps, cs => by
    show points1 record ps ⟨a, cs ++ [sent1 p]⟩ = _
    rw [points1_record a ps]; simp

theorem points2_record (validate : Bool) (a : Dict Str PyVal) : ∀ (ps : List MPoint) (ids : List Str) (cs : List Sent),
    ∃ ss, Points ss ∧ points2 record validate ids ps ⟨a, cs⟩ = (⟨a, cs ++ ss⟩, (readPoints2 validate ids ps).map Prod.snd) ∧
      ∀ v, readPoints2 validate ids ps = .ok v → ss.map asCall = v.1
  | [], ids, cs => ⟨[], by intro c hc; simp at hc, by simp [points2, done, readPoints2, Except.map], by intro v hv; injection hv with hv; subst hv; rfl⟩
  | p :: ps, ids, cs => by
    rcases hi : readIdentifier validate ids p.identifier with x | ids'
    · refine ⟨[], by intro c hc; simp at hc, ?_, ?_⟩
      · simp [points2, andThen, pure_, hi, readPoints2, Except.map]
      · intro v hv; simp [readPoints2, hi] at hv
    · obtain ⟨ss, h1, h2, h3⟩ := points2_record validate a ps ids' (cs ++ [sent2 p])
      refine ⟨sent2 p :: ss, ?_, ?_, ?_⟩
      · intro c hc
        rcases List.mem_cons.1 hc with rfl | hc
        · exact ⟨p.x, p.y, p.seg, p.name, p.smooth, some p.identifier, rfl⟩
        · exact h1 c hc
      · have : points2 record validate ids (p :: ps) ⟨a, cs⟩ = points2 record validate ids' ps ⟨a, cs ++ [sent2 p]⟩ := by
          rw [points2, andThen, pure_, hi]; rfl
        rw [this, h2, readPoints2, hi]
        dsimp only
        rcases readPoints2 validate ids' ps with x | ⟨ds, v⟩ <;> simp [Except.map]
      · intro v hv
        rw [readPoints2, hi] at hv
        dsimp only at hv
        rcases hr : readPoints2 validate ids' ps with x | w
        · rw [hr] at hv; cases hv
        · rw [hr] at hv
          injection hv with hv
          subst hv
          rw [List.map_cons, h3 w hr]
          rfl

theorem part_whole {b : Bool} {cs : List Sent} (h : Part b cs) : Whole b cs := ⟨[cs], by simp, by simpa using h⟩

theorem unfinished_of {b : Bool} {i : Option (Option Str)} {cs : List Sent} (h : Points cs) : Unfinished b (.beginPath (i.map orNone) :: cs) := ⟨[], i, cs, whole_nil, rfl, h⟩

theorem points_nil : Points [] := by intro c hc; simp at hc

/-- A contour of format 1 on a recording pen. -/
theorem contour1_record (E : Env) (validate : Bool) (e : Elem) (a : Dict Str PyVal) (cs : List Sent) :
    contour1 E record validate e ⟨a, cs⟩ =
      if validate && !e.attrib.isEmpty then (⟨a, cs⟩, .error .glifLibError)
      else match massage E validate 1 e.children with
        | .error x => (⟨a, cs ++ [.beginPath none]⟩, .error x)
        | .ok ps => (⟨a, cs ++ (.beginPath none :: ps.map sent1 ++ [.endPath])⟩, .ok ()) := by
  unfold contour1
  by_cases hb : (validate && !e.attrib.isEmpty) = true
  · rw [if_pos hb, hb]; rfl
  · rw [if_neg hb, Bool.eq_false_iff.2 hb]
    rcases hm : massage E validate 1 e.children with x | ps
    · rfl
    · show andThen (points1 record ps) (fun _ => say record .endPath) ⟨a, cs ++ [.beginPath none]⟩ = _
      rw [andThen, points1_record]
      dsimp only [say, record]
      simp

/-- A contour of format 2 on a recording pen. -/
theorem contour2_record (E : Env) (validate : Bool) (ids : List Str) (e : Elem) (a : Dict Str PyVal) (cs : List Sent) :
    ∃ ss, contour2 E record validate ids e ⟨a, cs⟩ = (⟨a, cs ++ ss⟩, (readContour2 E validate ids e).map Prod.snd) ∧
      (∀ v, readContour2 E validate ids e = .ok v → ss.map asCall = v.1 ∧ Part validate ss) ∧
      (ss = [] ∨ Part validate ss ∨ ∃ (i : Option (Option Str)) (ps : List Sent), ss = .beginPath (i.map orNone) :: ps ∧ Points ps) := by
  unfold contour2 readContour2
  by_cases hb : (validate && !(Dict.keys e.attrib).all fun a => decide (a = c!"identifier")) = true
  · rw [if_pos hb, hb]
    exact ⟨[], by simp [andThen, refuse, fail, Except.map], fun v h => (nomatch h), .inl rfl⟩
  · rw [if_neg hb, Bool.eq_false_iff.2 hb]
    rcases hi : readIdentifier validate ids (Dict.get? e.attrib c!"identifier") with x | ids'
    · exact ⟨[], by simp [andThen, refuse, done, pure_, Except.map], fun v h => (nomatch h), .inl rfl⟩
    · dsimp only
      rcases hm : massage E validate 2 e.children with x | ps
      · exact ⟨[.beginPath (some (orNone (Dict.get? e.attrib c!"identifier")))], rfl, fun v h => (nomatch h), .inr (.inr ⟨some _, [], rfl, points_nil⟩)⟩
      · obtain ⟨ss, h1, h2, h3⟩ := points2_record validate a ps ids' (cs ++ [.beginPath (some (orNone (Dict.get? e.attrib c!"identifier")))])
        dsimp only
        have hrun : ∀ q : Run (List Sent) (List Str), q = andThen (points2 record validate ids' ps) (fun ids => andThen (say record .endPath) fun _ => done ids) →
            andThen (refuse false) (fun _ => andThen (pure_ (.ok ids')) fun ids => andThen (offer record (.beginPath (some (orNone (Dict.get? e.attrib c!"identifier")))) (.beginPath none)) fun _ =>
              andThen (pure_ (.ok ps)) fun ps => andThen (points2 record validate ids ps) fun ids => andThen (say record .endPath) fun _ => done ids) ⟨a, cs⟩ =
            q ⟨a, cs ++ [.beginPath (some (orNone (Dict.get? e.attrib c!"identifier")))]⟩ := by
          rintro q rfl; rfl
        rw [hrun _ rfl, andThen, h2]
        rcases hr : readPoints2 validate ids' ps with x | ⟨ds, v⟩
        · exact ⟨.beginPath (some (orNone (Dict.get? e.attrib c!"identifier"))) :: ss, by simp [Except.map], fun v h => (nomatch h), .inr (.inr ⟨some _, ss, rfl, h1⟩)⟩
        · have hgood : validate = true → ∃ qs : List Spec.Glif.Pt, ss.map asCall = qs.map Spec.Glif.Pt.call ∧ Spec.Glif.GoodItem (.contour .none qs) := by
            rintro rfl
            refine ⟨ps.map pointOf, ?_, goodItem_of_massage hm _ (fun _ => ⟨rfl, rfl⟩) _⟩
            rw [h3 _ hr, (readPoints2_ok hr).1, List.map_map]
            rfl
          refine ⟨.beginPath (some (orNone (Dict.get? e.attrib c!"identifier"))) :: ss ++ [.endPath], ?_, ?_, .inr (.inl (.contour (some _) _ h1 hgood))⟩
          · simp [Except.map, andThen, say, record, done]
          · intro w hw
            injection hw with hw
            subst hw
            have := h3 _ hr
            refine ⟨?_, .contour (some _) _ h1 hgood⟩
            simp only [List.cons_append, List.map_cons, List.map_append, this]
            rfl


theorem componentHead_run {σ : Type} (E : Env) (validate : Bool) (fv : Nat) (e : Elem) (f : Effects σ) :
    componentHead E validate fv e f =
      (f, if validate && !e.children.isEmpty then .error .glifLibError
        else if validate && !(Dict.keys e.attrib).all fun a => decide (a ∈ componentAttributes fv) then .error .glifLibError
        else if validate && (Dict.get? e.attrib c!"base").isNone then .error .glifLibError
        else readTransformation E.F e.attrib transformationInfo) := by
  unfold componentHead
  cases (validate && !e.children.isEmpty)
  · cases (validate && !(Dict.keys e.attrib).all fun a => decide (a ∈ componentAttributes fv))
    · cases (validate && (Dict.get? e.attrib c!"base").isNone) <;> rfl
    · rfl
  · rfl

/-- A component on a recording pen. -/
theorem component1_record (E : Env) (validate : Bool) (e : Elem) (a : Dict Str PyVal) (cs : List Sent) :
    ∃ ss, component1 E record validate e ⟨a, cs⟩ = (⟨a, cs ++ ss⟩, (readComponent E validate 1 [] e).map fun _ => ()) ∧
      (∀ v, readComponent E validate 1 [] e = .ok v → ss.map asCall = v.1 ∧ Part validate ss) ∧ (ss = [] ∨ Part validate ss) := by
  unfold component1 readComponent
  rw [andThen, componentHead_run]
  by_cases h1 : (validate && !e.children.isEmpty) = true
  · rw [if_pos h1, if_pos h1]
    exact ⟨[], by simp [Except.map], fun v h => (nomatch h), .inl rfl⟩
  rw [if_neg h1, if_neg h1]
  by_cases h2 : (validate && !(Dict.keys e.attrib).all fun a => decide (a ∈ componentAttributes 1)) = true
  · rw [if_pos h2, if_pos h2]
    exact ⟨[], by simp [Except.map], fun v h => (nomatch h), .inl rfl⟩
  rw [if_neg h2, if_neg h2]
  by_cases h3 : (validate && (Dict.get? e.attrib c!"base").isNone) = true
  · rw [if_pos h3, if_pos h3]
    exact ⟨[], by simp [Except.map], fun v h => (nomatch h), .inl rfl⟩
  rw [if_neg h3, if_neg h3]
  rcases readTransformation E.F e.attrib transformationInfo with x | t
  · exact ⟨[], by simp [Except.map], fun v h => (nomatch h), .inl rfl⟩
  · refine ⟨[.addComponent (orNone (Dict.get? e.attrib c!"base")) (.tuple t) none], rfl, ?_, .inr (.component _ _ none)⟩
    intro v hv
    dsimp only at hv
    rw [if_pos rfl] at hv
    injection hv with hv
    subst hv
    exact ⟨rfl, .component _ _ none⟩

theorem component2_record (E : Env) (validate : Bool) (ids : List Str) (e : Elem) (a : Dict Str PyVal) (cs : List Sent) :
    ∃ ss, component2 E record validate ids e ⟨a, cs⟩ = (⟨a, cs ++ ss⟩, (readComponent E validate 2 ids e).map Prod.snd) ∧
      (∀ v, readComponent E validate 2 ids e = .ok v → ss.map asCall = v.1 ∧ Part validate ss) ∧ (ss = [] ∨ Part validate ss) := by
  unfold component2 readComponent
  rw [andThen, componentHead_run]
  by_cases h1 : (validate && !e.children.isEmpty) = true
  · rw [if_pos h1, if_pos h1]
    exact ⟨[], by simp [Except.map], fun v h => (nomatch h), .inl rfl⟩
  rw [if_neg h1, if_neg h1]
  by_cases h2 : (validate && !(Dict.keys e.attrib).all fun a => decide (a ∈ componentAttributes 2)) = true
  · rw [if_pos h2, if_pos h2]
    exact ⟨[], by simp [Except.map], fun v h => (nomatch h), .inl rfl⟩
  rw [if_neg h2, if_neg h2]
  by_cases h3 : (validate && (Dict.get? e.attrib c!"base").isNone) = true
  · rw [if_pos h3, if_pos h3]
    exact ⟨[], by simp [Except.map], fun v h => (nomatch h), .inl rfl⟩
  rw [if_neg h3, if_neg h3]
  rcases readTransformation E.F e.attrib transformationInfo with x | t
  · exact ⟨[], by simp [Except.map], fun v h => (nomatch h), .inl rfl⟩
  · dsimp only
    rw [if_neg (by decide)]
    rcases readIdentifier validate ids (Dict.get? e.attrib c!"identifier") with x | ids'
    · exact ⟨[], by simp [andThen, pure_, Except.map], fun v h => (nomatch h), .inl rfl⟩
    · refine ⟨[.addComponent (orNone (Dict.get? e.attrib c!"base")) (.tuple t) (some (orNone (Dict.get? e.attrib c!"identifier")))], rfl, ?_, .inr (.component _ _ (some _))⟩
      intro v hv
      injection hv with hv
      subst hv
      exact ⟨rfl, .component _ _ (some _)⟩

theorem item1_record (E : Env) (validate hasPen : Bool) (e : Elem) (a : Dict Str PyVal) (cs : List Sent) :
    ∃ ss, item1 E record validate hasPen e ⟨a, cs⟩ = (⟨a, cs ++ ss⟩, (readItem1 E validate hasPen e).map Prod.fst) ∧
      (∀ v, readItem1 E validate hasPen e = .ok v → ss.map asCall = v.2 ∧ Whole validate ss) ∧ (Whole validate ss ∨ Unfinished validate ss) := by
  have nothing : ∀ (r : Except Exc (List PyVal × List Call)), (∀ v, r = .ok v → v.2 = []) → ∃ ss : List Sent, ((⟨a, cs⟩, r.map Prod.fst) : Effects (List Sent) × Except Exc (List PyVal)) = (⟨a, cs ++ ss⟩, r.map Prod.fst) ∧
      (∀ v, r = .ok v → ss.map asCall = v.2 ∧ Whole validate ss) ∧ (Whole validate ss ∨ Unfinished validate ss) :=
    fun r hr => ⟨[], by simp, fun v h => ⟨(hr v h).symm, whole_nil⟩, .inl whole_nil⟩
  unfold item1 readItem1
  by_cases h1 : e.tag = c!"contour"
  · rw [if_pos h1, if_pos h1, andThen, pure_]
    rcases contourAnchor1 E validate e with x | _ | v
    · exact nothing (.error x) (fun v h => nomatch h)
    · dsimp only
      cases hasPen
      · exact nothing (.ok ([], [])) (fun v h => by injection h with h; subst h; rfl)
      · rw [if_pos rfl, if_pos rfl, andThen, contour1_record, readContour1]
        by_cases hb : (validate && !e.attrib.isEmpty) = true
        · rw [if_pos hb, if_pos hb]
          exact nothing (.error _) (fun v h => nomatch h)
        · rw [if_neg hb, if_neg hb]
          rcases hm : massage E validate 1 e.children with x | ps
          · exact ⟨[.beginPath none], rfl, fun v h => (nomatch h), .inr (unfinished_of (i := none) points_nil)⟩
          · have hgood : validate = true → ∃ qs : List Spec.Glif.Pt, (ps.map sent1).map asCall = qs.map Spec.Glif.Pt.call ∧ Spec.Glif.GoodItem (.contour .none qs) := by
              rintro rfl
              exact ⟨ps.map fun p => ⟨.tuple [p.x, p.y], orNone p.seg, .bool p.smooth, orNone p.name, .none⟩, by rw [List.map_map, List.map_map]; rfl,
                goodItem_of_massage hm _ (fun _ => ⟨rfl, rfl⟩) _⟩
            refine ⟨.beginPath none :: ps.map sent1 ++ [.endPath], rfl, ?_, .inl (part_whole (.contour none _ (points_sent1 ps) hgood))⟩
            intro v hv
            injection hv with hv
            subst hv
            refine ⟨?_, part_whole (.contour none _ (points_sent1 ps) hgood)⟩
            simp only [List.cons_append, List.map_cons, List.map_append, List.map_map]
            rfl
    · exact nothing (.ok ([v], [])) (fun v h => by injection h with h; subst h; rfl)
  · rw [if_neg h1, if_neg h1]
    by_cases h2 : e.tag = c!"component"
    · rw [if_pos h2, if_pos h2]
      cases hasPen
      · exact nothing (.ok ([], [])) (fun v h => by injection h with h; subst h; rfl)
      · obtain ⟨ss, h3, h4, h5⟩ := component1_record E validate e a cs
        rw [if_pos rfl, if_pos rfl, andThen, h3]
        refine ⟨ss, ?_, ?_, .inl (h5.elim (fun h => h ▸ whole_nil) part_whole)⟩
        · rcases readComponent E validate 1 [] e with x | v <;> rfl
        · intro v hv
          rcases hr : readComponent E validate 1 [] e with x | w
          · rw [hr] at hv; cases hv
          · rw [hr] at hv
            injection hv with hv
            subst hv
            exact ⟨(h4 w hr).1, part_whole (h4 w hr).2⟩
    · rw [if_neg h2, if_neg h2]
      exact nothing (.error _) (fun v h => nomatch h)

theorem outline1_record (E : Env) (validate hasPen : Bool) (a : Dict Str PyVal) : ∀ (es : List Elem) (cs : List Sent),
    ∃ ss, outline1 E record validate hasPen es ⟨a, cs⟩ = (⟨a, cs ++ ss⟩, (readOutline1 E validate hasPen es).map Prod.fst) ∧
      (∀ v, readOutline1 E validate hasPen es = .ok v → ss.map asCall = v.2 ∧ Whole validate ss) ∧ (Whole validate ss ∨ Unfinished validate ss)
  | [], cs => ⟨[], by simp [outline1, done, readOutline1, Except.map], fun v h => by injection h with h; subst h; exact ⟨rfl, whole_nil⟩, .inl whole_nil⟩
  | e :: es, cs => by
    obtain ⟨ss, h1, h2, h3⟩ := item1_record E validate hasPen e a cs
    rw [outline1, andThen, h1, readOutline1]
    rcases hr : readItem1 E validate hasPen e with x | ⟨as, ds⟩
    · exact ⟨ss, rfl, fun v h => (nomatch h), h3⟩
    · obtain ⟨h4, h5⟩ := h2 _ hr
      obtain ⟨ss', h1', h2', h3'⟩ := outline1_record E validate hasPen a es (cs ++ ss)
      dsimp only [Except.map]
      rw [andThen, h1']
      rcases hr' : readOutline1 E validate hasPen es with x | ⟨as', ds'⟩
      · exact ⟨ss ++ ss', by simp [Except.map], fun v h => (nomatch h), h3'.imp (whole_append h5) (unfinished_append h5)⟩
      · refine ⟨ss ++ ss', by simp [Except.map, done], ?_, h3'.imp (whole_append h5) (unfinished_append h5)⟩
        intro v hv
        injection hv with hv
        subst hv
        obtain ⟨h4', h5'⟩ := h2' _ hr'
        exact ⟨by rw [List.map_append, h4, h4'], whole_append h5 h5'⟩

theorem item2_record (E : Env) (validate : Bool) (ids : List Str) (e : Elem) (a : Dict Str PyVal) (cs : List Sent) :
    ∃ ss, item2 E record validate ids e ⟨a, cs⟩ = (⟨a, cs ++ ss⟩, (if e.tag = c!"contour" then readContour2 E validate ids e
      else if e.tag = c!"component" then readComponent E validate 2 ids e else .error .glifLibError).map Prod.snd) ∧
      (∀ v, (if e.tag = c!"contour" then readContour2 E validate ids e
      else if e.tag = c!"component" then readComponent E validate 2 ids e else .error .glifLibError) = .ok v → ss.map asCall = v.1 ∧ Whole validate ss) ∧ (Whole validate ss ∨ Unfinished validate ss) := by
  unfold item2
  by_cases h1 : e.tag = c!"contour"
  · simp only [if_pos h1]
    obtain ⟨ss, h2, h3, h4⟩ := contour2_record E validate ids e a cs
    refine ⟨ss, h2, fun v hv => ⟨(h3 v hv).1, part_whole (h3 v hv).2⟩, ?_⟩
    rcases h4 with rfl | h | ⟨i, ps, rfl, h⟩
    · exact .inl whole_nil
    · exact .inl (part_whole h)
    · exact .inr (unfinished_of h)
  · simp only [if_neg h1]
    by_cases h2 : e.tag = c!"component"
    · simp only [if_pos h2]
      obtain ⟨ss, h2, h3, h4⟩ := component2_record E validate ids e a cs
      refine ⟨ss, h2, fun v hv => ⟨(h3 v hv).1, part_whole (h3 v hv).2⟩, ?_⟩
      rcases h4 with rfl | h
      · exact .inl whole_nil
      · exact .inl (part_whole h)
    · simp only [if_neg h2]
      exact ⟨[], by simp [fail, Except.map], fun v h => (nomatch h), .inl whole_nil⟩

theorem outline2_record (E : Env) (validate : Bool) (a : Dict Str PyVal) : ∀ (es : List Elem) (ids : List Str) (cs : List Sent),
    ∃ ss, outline2 E record validate ids es ⟨a, cs⟩ = (⟨a, cs ++ ss⟩, (readOutline2 E validate ids es).map Prod.snd) ∧
      (∀ v, readOutline2 E validate ids es = .ok v → ss.map asCall = v.1 ∧ Whole validate ss) ∧ (Whole validate ss ∨ Unfinished validate ss)
  | [], ids, cs => ⟨[], by simp [outline2, done, readOutline2, Except.map], fun v h => by injection h with h; subst h; exact ⟨rfl, whole_nil⟩, .inl whole_nil⟩
  | e :: es, ids, cs => by
    obtain ⟨ss, h1, h2, h3⟩ := item2_record E validate ids e a cs
    rw [outline2, andThen, h1, readOutline2]
    rcases hr : (if e.tag = c!"contour" then readContour2 E validate ids e else if e.tag = c!"component" then readComponent E validate 2 ids e else .error .glifLibError) with x | ⟨ds, ids'⟩
    · exact ⟨ss, rfl, fun v h => (nomatch h), h3⟩
    · obtain ⟨h4, h5⟩ := h2 _ hr
      obtain ⟨ss', h1', h2', h3'⟩ := outline2_record E validate a es ids' (cs ++ ss)
      dsimp only [Except.map]
      rw [h1']
      rcases hr' : readOutline2 E validate ids' es with x | ⟨ds', ids''⟩
      · exact ⟨ss ++ ss', by simp [Except.map], fun v h => (nomatch h), h3'.imp (whole_append h5) (unfinished_append h5)⟩
      · refine ⟨ss ++ ss', by simp [Except.map], ?_, h3'.imp (whole_append h5) (unfinished_append h5)⟩
        intro v hv
        injection hv with hv
        subst hv
        obtain ⟨h4', h5'⟩ := h2' _ hr'
        exact ⟨by rw [List.map_append, h4, h4'], whole_append h5 h5'⟩

/-! ### the shape of a reading -/

theorem shaped_outline1 (E : Env) (validate hasPen : Bool) (es : List Elem) : Shaped validate fun σ (P : AnyPen σ) => outline1 E P validate hasPen es := by
  intro a
  obtain ⟨ss, h1, h2, h3⟩ := outline1_record E validate hasPen a es []
  unfold recorded; dsimp only
  rw [h1, List.nil_append]
  refine ⟨fun v hv => ?_, h3⟩
  rcases hr : readOutline1 E validate hasPen es with x | w
  · rw [hr] at hv; cases hv
  · exact (h2 w hr).2

theorem shaped_outline2 (E : Env) (validate : Bool) (ids : List Str) (es : List Elem) : Shaped validate fun σ (P : AnyPen σ) => outline2 E P validate ids es := by
  intro a
  obtain ⟨ss, h1, h2, h3⟩ := outline2_record E validate a es ids []
  unfold recorded; dsimp only
  rw [h1, List.nil_append]
  refine ⟨fun v hv => ?_, h3⟩
  rcases hr : readOutline2 E validate ids es with x | w
  · rw [hr] at hv; cases hv
  · exact (h2 w hr).2

theorem silent_once (validate : Bool) (l : Locals) (tag : Str) : Silent fun σ (_ : AnyPen σ) => once validate l tag :=
  silent_andThen (silent_refuse _) fun _ => silent_done _

theorem silent_anchorsEnd1 (S : Setting) (anchors : List PyVal) : Silent fun σ (_ : AnyPen σ) => anchorsEnd1 S anchors :=
  silent_if _ (silent_andThen (silent_refuse _) fun _ => silent_set _ _ _) (silent_done _)

theorem shaped_outlineElem (S : Setting) (l : Locals) (e : Elem) : Shaped S.validate fun σ (P : AnyPen σ) => outlineElem S P l e := by
  have hf : ∀ l : Locals, Free fun σ (P : AnyPen σ) => if S.fv = 1 then
      andThen (outline1 S.E P S.validate S.hasPen e.children) fun anchors => andThen (anchorsEnd1 S anchors) fun _ => done l
      else if S.hasPen then andThen (outline2 S.E P S.validate l.identifiers e.children) fun ids => done { l with identifiers := ids } else done l :=
    fun l => free_if _ (free_andThen (free_outline1 _ _ _ _) fun as => free_andThen (free_anchorsEnd1 S as) fun _ => free_done _)
      (free_if _ (free_andThen (free_outline2 _ _ l.identifiers _) fun _ => free_done _) (free_done _))
  refine shaped_andThen (silent_once _ _ _).shaped (fun l => ?_) (fun l => free_andThen (free_refuse _) fun _ => hf l)
  refine shaped_andThen (silent_refuse _).shaped (fun _ => ?_) (fun _ => hf l)
  refine shaped_if _ ?_ (shaped_if _ ?_ (silent_done _).shaped)
  · exact shaped_andThen (shaped_outline1 _ _ _ _) (fun as => (silent_andThen (silent_anchorsEnd1 S as) fun _ => silent_done _).shaped)
      (fun as => free_andThen (free_anchorsEnd1 S as) fun _ => free_done _)
  · exact shaped_andThen (shaped_outline2 _ _ _ _) (fun _ => (silent_done _).shaped) (fun _ => free_done _)

theorem silent_advanceElem (S : Setting) (l : Locals) (e : Elem) : Silent fun σ (_ : AnyPen σ) => advanceElem S l e :=
  silent_andThen (silent_once _ _ _) fun _ => silent_andThen (silent_pure _) fun _ => silent_andThen (silent_set _ _ _) fun _ =>
    silent_andThen (silent_pure _) fun _ => silent_andThen (silent_set _ _ _) fun _ => silent_done _

theorem shaped_child (S : Setting) (l : Locals) (e : Elem) : Shaped S.validate fun σ (P : AnyPen σ) => child S P l e := by
  refine shaped_if _ (shaped_outlineElem S l e) (Silent.shaped (silent_if _ (silent_done _) (silent_if _ (silent_advanceElem S l e) (silent_if _ ?_ (silent_if _ ?_ (silent_if _ ?_
    (silent_if _ ?_ (silent_if _ ?_ (silent_if _ ?_ (silent_fail _))))))))))
  · exact silent_andThen (silent_pure _) fun _ => silent_done _
  · exact silent_andThen (silent_once _ _ _) fun _ => silent_andThen (silent_pure _) fun _ => silent_andThen (silent_set _ _ _) fun _ => silent_done _
  · exact silent_andThen (silent_once _ _ _) fun _ => silent_andThen (silent_pure _) fun _ => silent_andThen (silent_set _ _ _) fun _ => silent_done _
  · exact silent_andThen (silent_refuse _) fun _ => silent_andThen (silent_pure _) fun _ => silent_done _
  · exact silent_andThen (silent_refuse _) fun _ => silent_andThen (silent_pure _) fun _ => silent_done _
  · exact silent_andThen (silent_once _ _ _) fun _ => silent_andThen (silent_refuse _) fun _ => silent_andThen (silent_pure _) fun _ => silent_andThen (silent_set _ _ _) fun _ => silent_done _

theorem shaped_childrenLoop (S : Setting) : ∀ (l : Locals) (es : List Elem), Shaped S.validate fun σ (P : AnyPen σ) => childrenLoop S P l es
  | _, [] => (silent_done _).shaped
  | l, e :: es => shaped_andThen (shaped_child S l e) (fun l => shaped_childrenLoop S l es) fun l => free_childrenLoop S l es

theorem silent_listEnd (S : Setting) (ids : List Str) (n : Str) (l : List PyVal) (v : Bool × List Str) : Silent fun σ (_ : AnyPen σ) => listEnd S ids n l v :=
  silent_if _ (silent_done _) (silent_andThen (silent_refuse _) fun _ => silent_andThen (silent_set _ _ _) fun _ => silent_done _)

theorem silent_finish (S : Setting) (l : Locals) : Silent fun σ (_ : AnyPen σ) => finish S l :=
  silent_andThen (silent_if _ (silent_done _) (silent_set _ _ _)) fun _ => silent_andThen (silent_listEnd S _ _ _ _) fun _ => silent_andThen (silent_listEnd S _ _ _ _) fun _ => silent_done _

theorem silent_nameStart (S : Setting) (tree : Elem) : Silent fun σ (_ : AnyPen σ) => nameStart S tree := by
  unfold nameStart
  split
  · exact silent_if _ (silent_set _ _ _) (silent_done _)
  · exact silent_refuse _

theorem shaped_readFormat (S : Setting) (tree : Elem) : Shaped S.validate fun σ (P : AnyPen σ) => readFormat S P tree :=
  shaped_andThen (silent_nameStart S tree).shaped (fun _ => shaped_andThen (shaped_childrenLoop S _ _) (fun l => (silent_finish S l).shaped) (fun l => free_finish S l))
    (fun _ => free_andThen (free_childrenLoop S _ _) fun l => free_finish S l)

theorem shaped_readOnto (E : Env) (accepts : Str → Bool) (validate hasObj hasPen : Bool) (formatVersions : List Int) (tree : Elem) :
    Shaped validate fun σ (P : AnyPen σ) => readOnto E P accepts validate hasObj hasPen formatVersions tree := by
  unfold readOnto
  refine shaped_if _ (silent_fail _).shaped (shaped_if _ (silent_fail _).shaped ?_)
  cases Dict.get? tree.attrib c!"format" with
  | none => exact (silent_fail _).shaped
  | some s =>
    dsimp only
    cases pyInt s with
    | none => exact (silent_fail _).shaped
    | some v => exact shaped_if _ (silent_fail _).shaped (shaped_if _ (shaped_readFormat _ tree) (shaped_if _ (shaped_readFormat _ tree) (silent_fail _).shaped))

/-! ### with and without validation -/

/-- What the first calls on the pen is the beginning of what the second calls; if the first succeeds it is the same. -/
structure Pre {α : Type} (m m' : ∀ σ : Type, AnyPen σ → Run σ α) : Prop where
  free : Free m
  free' : Free m'
  rest : ∀ a a', (recorded m a).1.pen <+: (recorded m' a').1.pen ∧
    ∀ v, (recorded m a).2 = .ok v → (recorded m' a').2 = .ok v ∧ (recorded m' a').1.pen = (recorded m a).1.pen

theorem pre_pure {α : Type} {r r' : Except Exc α} (h : Relaxes r r') : Pre (fun σ (_ : AnyPen σ) => pure_ r) (fun σ (_ : AnyPen σ) => pure_ r') :=
  ⟨free_pure _, free_pure _, fun _ _ => ⟨List.prefix_refl _, fun v hv => ⟨h v hv, rfl⟩⟩⟩
theorem pre_done {α : Type} (a : α) : Pre (fun σ (_ : AnyPen σ) => done a) (fun σ (_ : AnyPen σ) => done a) :=
  ⟨free_done _, free_done _, fun _ _ => ⟨List.prefix_refl _, fun _ hv => ⟨hv, rfl⟩⟩⟩
theorem pre_fail {α : Type} (x : Exc) {m' : ∀ σ : Type, AnyPen σ → Run σ α} (h : Free m') : Pre (fun σ (_ : AnyPen σ) => fail (α := α) x) m' :=
  ⟨free_fail _, h, fun _ _ => ⟨List.nil_prefix, fun _ hv => nomatch hv⟩⟩
theorem pre_refuse (b : Bool) : Pre (fun σ (_ : AnyPen σ) => refuse (true && b)) (fun σ (_ : AnyPen σ) => refuse (false && b)) := by
  cases b
  · exact pre_done ()
  · exact pre_fail _ (free_done ())
theorem pre_set (accepts : Str → Bool) (n : Str) (v : PyVal) : Pre (fun σ (_ : AnyPen σ) => setattr accepts n v) (fun σ (_ : AnyPen σ) => setattr accepts n v) := by
  refine ⟨free_set _ _ _, free_set _ _ _, fun a a' => ?_⟩
  rw [silent_set accepts n v a, silent_set accepts n v a']
  exact ⟨List.prefix_refl _, fun _ hv => ⟨hv, rfl⟩⟩
theorem pre_say (c : Sent) (hc : withoutKeyword c = none) : Pre (fun σ (P : AnyPen σ) => say P c) (fun σ (P : AnyPen σ) => say P c) :=
  ⟨free_say _ hc, free_say _ hc, fun _ _ => ⟨List.prefix_refl _, fun _ hv => ⟨hv, rfl⟩⟩⟩
theorem pre_offer (c d : Sent) (hc : withoutKeyword c = some d) : Pre (fun σ (P : AnyPen σ) => offer P c d) (fun σ (P : AnyPen σ) => offer P c d) :=
  ⟨free_offer _ _ hc, free_offer _ _ hc, fun _ _ => ⟨List.prefix_refl _, fun _ hv => ⟨hv, rfl⟩⟩⟩

theorem pre_andThen {α β : Type} {m m' : ∀ σ : Type, AnyPen σ → Run σ α} {k k' : ∀ σ : Type, AnyPen σ → α → Run σ β}
    (hm : Pre m m') (hk : ∀ a, Pre (fun σ (P : AnyPen σ) => k σ P a) (fun σ (P : AnyPen σ) => k' σ P a)) :
    Pre (fun σ (P : AnyPen σ) => andThen (m σ P) (k σ P)) (fun σ (P : AnyPen σ) => andThen (m' σ P) (k' σ P)) := by
  refine ⟨free_andThen hm.free fun a => (hk a).free, free_andThen hm.free' fun a => (hk a).free', fun a a' => ?_⟩
  obtain ⟨h1, h2⟩ := hm.rest a a'
  rw [recorded_andThen fun a => (hk a).free, recorded_andThen fun a => (hk a).free']
  rcases hr : recorded m a with ⟨⟨b, cs⟩, x | v⟩
  · rw [hr] at h1
    refine ⟨?_, fun _ hv => nomatch hv⟩
    rcases hr' : recorded m' a' with ⟨⟨b', cs'⟩, x' | v'⟩
    · rw [hr'] at h1; exact h1
    · rw [hr'] at h1; exact h1.trans (List.prefix_append _ _)
  · rw [hr] at h1 h2
    obtain ⟨h3, h4⟩ := h2 v rfl
    rcases hr' : recorded m' a' with ⟨⟨b', cs'⟩, r'⟩
    rw [hr'] at h3 h4
    dsimp only at h3 h4
    subst h3 h4
    obtain ⟨h5, h6⟩ := (hk v).rest b b'
    dsimp only
    exact ⟨(List.prefix_append_right_inj _).2 h5, fun w hw => ⟨(h6 w hw).1, by rw [(h6 w hw).2]⟩⟩

theorem pre_if {α : Type} (p : Prop) [Decidable p] {m m' n n' : ∀ σ : Type, AnyPen σ → Run σ α} (h : Pre m n) (h' : Pre m' n') :
    Pre (fun σ (P : AnyPen σ) => if p then m σ P else m' σ P) (fun σ (P : AnyPen σ) => if p then n σ P else n' σ P) := by
  by_cases hp : p
  · simpa only [if_pos hp] using h
  · simpa only [if_neg hp] using h'

theorem pre_points1 : ∀ ps : List MPoint, Pre (fun σ (P : AnyPen σ) => points1 P ps) (fun σ (P : AnyPen σ) => points1 P ps)
  | [] => pre_done ()
  | _ :: ps => pre_andThen (pre_say _ rfl) (fun _ => pre_points1 ps)

theorem pre_contour1 (E : Env) (e : Elem) : Pre (fun σ (P : AnyPen σ) => contour1 E P true e) (fun σ (P : AnyPen σ) => contour1 E P false e) :=
  pre_andThen (pre_refuse _) fun _ => pre_andThen (pre_say _ rfl) fun _ => pre_andThen (pre_pure (massage_relax E 1 e.children)) fun ps =>
    pre_andThen (pre_points1 ps) fun _ => pre_say _ rfl

theorem pre_componentHead (E : Env) (fv : Nat) (e : Elem) :
    Pre (fun σ (_ : AnyPen σ) => componentHead E true fv e) (fun σ (_ : AnyPen σ) => componentHead E false fv e) :=
  pre_andThen (pre_refuse _) fun _ => pre_andThen (pre_refuse _) fun _ => pre_andThen (pre_refuse _) fun _ => pre_pure (relaxes_refl _)

theorem pre_item1 (E : Env) (hasPen : Bool) (e : Elem) : Pre (fun σ (P : AnyPen σ) => item1 E P true hasPen e) (fun σ (P : AnyPen σ) => item1 E P false hasPen e) := by
  refine pre_if _ (pre_andThen (pre_pure (contourAnchor1_relax E e)) fun a => ?_)
    (pre_if _ (pre_if _ (pre_andThen (pre_andThen (pre_componentHead E 1 e) fun _ => pre_say _ rfl) fun _ => pre_done _) (pre_done _)) (pre_fail _ (free_fail _)))
  cases a with
  | some a => exact pre_done _
  | none => exact pre_if _ (pre_andThen (pre_contour1 E e) fun _ => pre_done _) (pre_done _)

theorem pre_outline1 (E : Env) (hasPen : Bool) : ∀ es : List Elem, Pre (fun σ (P : AnyPen σ) => outline1 E P true hasPen es) (fun σ (P : AnyPen σ) => outline1 E P false hasPen es)
  | [] => pre_done _
  | e :: es => pre_andThen (pre_item1 E hasPen e) fun _ => pre_andThen (pre_outline1 E hasPen es) fun _ => pre_done _

theorem pre_points2 : ∀ (ids : List Str) (ps : List MPoint), Pre (fun σ (P : AnyPen σ) => points2 P true ids ps) (fun σ (P : AnyPen σ) => points2 P false ids ps)
  | _, [] => pre_done _
  | ids, p :: ps => pre_andThen (pre_pure (readIdentifier_relax ids p.identifier)) fun ids => pre_andThen (pre_offer _ _ rfl) fun _ => pre_points2 ids ps

theorem pre_contour2 (E : Env) (ids : List Str) (e : Elem) : Pre (fun σ (P : AnyPen σ) => contour2 E P true ids e) (fun σ (P : AnyPen σ) => contour2 E P false ids e) :=
  pre_andThen (pre_refuse _) fun _ => pre_andThen (pre_pure (readIdentifier_relax ids _)) fun ids => pre_andThen (pre_offer _ _ rfl) fun _ =>
    pre_andThen (pre_pure (massage_relax E 2 e.children)) fun ps => pre_andThen (pre_points2 ids ps) fun _ => pre_andThen (pre_say _ rfl) fun _ => pre_done _

theorem pre_item2 (E : Env) (ids : List Str) (e : Elem) : Pre (fun σ (P : AnyPen σ) => item2 E P true ids e) (fun σ (P : AnyPen σ) => item2 E P false ids e) :=
  pre_if _ (pre_contour2 E ids e) (pre_if _ (pre_andThen (pre_componentHead E 2 e) fun _ => pre_andThen (pre_pure (readIdentifier_relax ids _)) fun _ =>
    pre_andThen (pre_offer _ _ rfl) fun _ => pre_done _) (pre_fail _ (free_fail _)))

theorem pre_outline2 (E : Env) : ∀ (ids : List Str) (es : List Elem), Pre (fun σ (P : AnyPen σ) => outline2 E P true ids es) (fun σ (P : AnyPen σ) => outline2 E P false ids es)
  | _, [] => pre_done _
  | ids, e :: es => pre_andThen (pre_item2 E ids e) fun ids => pre_outline2 E ids es

/-- The same arguments, with and without validation. -/
abbrev Setting.checked (S : Setting) : Setting := { S with validate := true }
abbrev Setting.unchecked (S : Setting) : Setting := { S with validate := false }

theorem pre_once (l : Locals) (tag : Str) : Pre (fun σ (_ : AnyPen σ) => once true l tag) (fun σ (_ : AnyPen σ) => once false l tag) :=
  pre_andThen (pre_refuse _) fun _ => pre_done _

theorem pre_outlineElem (S : Setting) (l : Locals) (e : Elem) :
    Pre (fun σ (P : AnyPen σ) => outlineElem S.checked P l e) (fun σ (P : AnyPen σ) => outlineElem S.unchecked P l e) :=
  pre_andThen (pre_once _ _) fun l => pre_andThen (pre_refuse _) fun _ =>
    pre_if _ (pre_andThen (pre_outline1 _ _ _) fun _ => pre_andThen (pre_if _ (pre_andThen (pre_refuse _) fun _ => pre_set _ _ _) (pre_done _)) fun _ => pre_done _)
      (pre_if _ (pre_andThen (pre_outline2 _ l.identifiers _) fun _ => pre_done _) (pre_done _))

theorem pre_child (S : Setting) (l : Locals) (e : Elem) : Pre (fun σ (P : AnyPen σ) => child S.checked P l e) (fun σ (P : AnyPen σ) => child S.unchecked P l e) := by
  refine pre_if _ (pre_outlineElem S l e) (pre_if _ (pre_done _) (pre_if _ ?_ (pre_if _ ?_ (pre_if _ ?_ (pre_if _ ?_
    (pre_if _ ?_ (pre_if _ ?_ (pre_if _ ?_ (pre_fail _ (free_fail _))))))))))
  · exact pre_andThen (pre_once _ _) fun _ => pre_andThen (pre_pure (relaxes_refl _)) fun _ => pre_andThen (pre_set _ _ _) fun _ =>
      pre_andThen (pre_pure (relaxes_refl _)) fun _ => pre_andThen (pre_set _ _ _) fun _ => pre_done _
  · exact pre_andThen (pre_pure (relaxes_refl _)) fun _ => pre_done _
  · exact pre_andThen (pre_once _ _) fun _ => pre_andThen (pre_pure (relaxes_refl _)) fun _ => pre_andThen (pre_set _ _ _) fun _ => pre_done _
  · exact pre_andThen (pre_once _ _) fun _ => pre_andThen (pre_pure (readLib_relax _ _)) fun _ => pre_andThen (pre_set _ _ _) fun _ => pre_done _
  · exact pre_andThen (pre_refuse _) fun _ => pre_andThen (pre_pure (relaxes_refl _)) fun _ => pre_done _
  · exact pre_andThen (pre_refuse _) fun _ => pre_andThen (pre_pure (relaxes_refl _)) fun _ => pre_done _
  · exact pre_andThen (pre_once _ _) fun _ => pre_andThen (pre_refuse _) fun _ => pre_andThen (pre_pure (readImage_relax _ _)) fun _ => pre_andThen (pre_set _ _ _) fun _ => pre_done _

theorem pre_childrenLoop (S : Setting) : ∀ (l : Locals) (es : List Elem), Pre (fun σ (P : AnyPen σ) => childrenLoop S.checked P l es) (fun σ (P : AnyPen σ) => childrenLoop S.unchecked P l es)
  | _, [] => pre_done _
  | l, e :: es => pre_andThen (pre_child S l e) fun l => pre_childrenLoop S l es

theorem pre_listEnd (S : Setting) (ids : List Str) (n : Str) (l : List PyVal) (v : Bool × List Str) :
    Pre (fun σ (_ : AnyPen σ) => listEnd S.checked ids n l v) (fun σ (_ : AnyPen σ) => listEnd S.unchecked ids n l v) :=
  pre_if _ (pre_done _) (pre_andThen (pre_refuse _) fun _ => pre_andThen (pre_set _ _ _) fun _ => pre_done _)

theorem pre_finish (S : Setting) (l : Locals) : Pre (fun σ (_ : AnyPen σ) => finish S.checked l) (fun σ (_ : AnyPen σ) => finish S.unchecked l) :=
  pre_andThen (pre_if _ (pre_done _) (pre_set _ _ _)) fun _ => pre_andThen (pre_listEnd S _ _ _ _) fun _ => pre_andThen (pre_listEnd S _ _ _ _) fun _ => pre_done _

theorem pre_nameStart (S : Setting) (tree : Elem) : Pre (fun σ (_ : AnyPen σ) => nameStart S.checked tree) (fun σ (_ : AnyPen σ) => nameStart S.unchecked tree) := by
  unfold nameStart
  split
  · exact pre_if _ (pre_set _ _ _) (pre_done _)
  · exact pre_refuse true

theorem pre_readFormat (S : Setting) (tree : Elem) : Pre (fun σ (P : AnyPen σ) => readFormat S.checked P tree) (fun σ (P : AnyPen σ) => readFormat S.unchecked P tree) :=
  pre_andThen (pre_nameStart S tree) fun _ => pre_andThen (pre_childrenLoop S _ _) fun l => pre_finish S l

theorem pre_readOnto (E : Env) (accepts : Str → Bool) (hasObj hasPen : Bool) (formatVersions : List Int) (tree : Elem) :
    Pre (fun σ (P : AnyPen σ) => readOnto E P accepts true hasObj hasPen formatVersions tree)
      (fun σ (P : AnyPen σ) => readOnto E P accepts false hasObj hasPen formatVersions tree) := by
  have hf := free_readOnto E accepts false hasObj hasPen formatVersions tree
  unfold readOnto at hf ⊢
  by_cases h1 : tree.tag ≠ c!"glyph"
  · simp only [if_pos h1] at hf ⊢; exact pre_fail _ hf
  · simp only [if_neg h1] at hf ⊢
    refine pre_if _ (pre_fail _ (free_fail _)) ?_
    cases hg : Dict.get? tree.attrib c!"format" with
    | none => exact pre_fail _ (free_fail _)
    | some s =>
      dsimp only
      cases hi : pyInt s with
      | none => exact pre_fail _ (free_fail _)
      | some v =>
        dsimp only
        by_cases hv : v ∈ formatVersions
        · simp only [hv, decide_true, Bool.not_true, Bool.and_false, Bool.false_eq_true, if_false]
          exact pre_if _ (pre_readFormat ⟨E, accepts, true, hasObj, hasPen, 1⟩ tree) (pre_if _ (pre_readFormat ⟨E, accepts, true, hasObj, hasPen, 2⟩ tree) (pre_fail _ (free_fail _)))
        · simp only [hv, decide_false, Bool.not_false, Bool.and_true, if_true]
          refine pre_fail _ ?_
          simp only [Bool.false_eq_true, if_false]
          exact free_if _ (free_readFormat _ tree) (free_if _ (free_readFormat _ tree) (free_fail _))

/-! ### objects that do not take every attribute -/

theorem kept_set (accepts : Str → Bool) (n : Str) (v : PyVal) : ∀ a : Dict Str PyVal,
    kept accepts (Dict.set a n v) = if accepts n then Dict.set (kept accepts a) n v else kept accepts a
  | [] => by
    by_cases h : accepts n = true
    · simp [kept, Dict.set, h]
    · simp [kept, Dict.set, h]
  | (k, w) :: a => by
    have ih := kept_set accepts n v a
    unfold kept at ih ⊢
    by_cases hk : k = n
    · subst hk
      by_cases h : accepts k = true <;> simp [Dict.set, h]
    · by_cases h : accepts n = true <;> by_cases h' : accepts k = true <;> simp [Dict.set, hk, h, h', ih] <;> simpa [h] using ih

/-- The same, but for the attributes that are not taken. -/
def Filtered {σ α : Type} (accepts : Str → Bool) (m m' : Run σ α) : Prop :=
  ∀ a s, m' ⟨kept accepts a, s⟩ = (⟨kept accepts (m ⟨a, s⟩).1.attrs, (m ⟨a, s⟩).1.pen⟩, (m ⟨a, s⟩).2)

/-- Nothing is done to the attributes. -/
def Still {σ α : Type} (m : Run σ α) : Prop := ∀ a s, m ⟨a, s⟩ = (⟨a, (m ⟨[], s⟩).1.pen⟩, (m ⟨[], s⟩).2)

theorem Still.filtered {σ α : Type} {m : Run σ α} (h : Still m) (accepts : Str → Bool) : Filtered accepts m m := by
  intro a s
  rw [h (kept accepts a) s, h a s]

theorem still_pure {σ α : Type} (r : Except Exc α) : Still (σ := σ) (pure_ r) := fun _ _ => rfl
theorem still_done {σ α : Type} (a : α) : Still (σ := σ) (done a) := fun _ _ => rfl
theorem still_fail {σ α : Type} (x : Exc) : Still (σ := σ) (fail (α := α) x) := fun _ _ => rfl
theorem still_refuse {σ : Type} (b : Bool) : Still (σ := σ) (refuse b) := by cases b <;> exact fun _ _ => rfl
theorem still_say {σ : Type} (P : AnyPen σ) (c : Sent) : Still (say P c) := by
  intro a s; unfold say; dsimp only; rcases P s c with ⟨s', _ | x⟩ <;> rfl
theorem still_offer {σ : Type} (P : AnyPen σ) (c d : Sent) : Still (offer P c d) := by
  intro a s; unfold offer; dsimp only; rcases P s c with ⟨s', _ | x⟩
  · rfl
  · dsimp only
    split <;> first | rfl | (simp only [say]; rcases P s' d with ⟨s'', _ | y⟩ <;> rfl)

theorem still_andThen {σ α β : Type} {m : Run σ α} {k : α → Run σ β} (hm : Still m) (hk : ∀ a, Still (k a)) : Still (andThen m k) := by
  intro a s
  unfold andThen
  rw [hm a s, hm [] s]
  rcases m ⟨[], s⟩ with ⟨f, x | v⟩
  · rfl
  · exact hk v a f.pen

theorem filtered_andThen {σ α β : Type} {accepts : Str → Bool} {m m' : Run σ α} {k k' : α → Run σ β} (hm : Filtered accepts m m')
    (hk : ∀ a, Filtered accepts (k a) (k' a)) : Filtered accepts (andThen m k) (andThen m' k') := by
  intro a s
  unfold andThen
  rw [hm a s]
  rcases m ⟨a, s⟩ with ⟨f, x | v⟩
  · rfl
  · exact hk v f.attrs f.pen

theorem still_if {σ α : Type} (p : Prop) [Decidable p] {m n : Run σ α} (h : Still m) (h' : Still n) : Still (if p then m else n) := by
  by_cases hp : p
  · simpa only [if_pos hp] using h
  · simpa only [if_neg hp] using h'

theorem filtered_if {σ α : Type} {accepts : Str → Bool} (p : Prop) [Decidable p] {m m' n n' : Run σ α} (h : Filtered accepts m m') (h' : Filtered accepts n n') :
    Filtered accepts (if p then m else n) (if p then m' else n') := by
  by_cases hp : p
  · simpa only [if_pos hp] using h
  · simpa only [if_neg hp] using h'

theorem filtered_set {σ : Type} (accepts : Str → Bool) (n : Str) (v : PyVal) : Filtered (σ := σ) accepts (setattr (fun _ => true) n v) (setattr accepts n v) := by
  intro a s
  unfold setattr
  by_cases h : accepts n = true
  · simp [h, kept_set]
  · simp [h, kept_set]

end Verif.GlifPen
