import Verif.Spec.GlifPen
/-! Lemmas about reading onto a pen. -/
namespace Verif.GlifPen
open Verif Verif.Validators Verif.Glif Verif.Spec.GlifPen

/-! ### what arrives at a pen -/

theorem drawOn_append {σ : Type} (P : AnyPen σ) : ∀ (cs ds : List Sent) (s : σ),
    drawOn P s (cs ++ ds) = match drawOn P s cs with
      | (s, some x) => (s, some x)
      | (s, none) => drawOn P s ds
  | [], ds, s => rfl
  | c :: cs, ds, s => by
    rw [List.cons_append, drawOn, drawOn]
    rcases deliver P s c with ⟨s', _ | x⟩
    · exact drawOn_append P cs ds s'
    · rfl

theorem deliver_record (s : List Sent) (c : Sent) : deliver record s c = (s ++ [c], none) := rfl

theorem drawOn_record : ∀ (cs s : List Sent), drawOn record s cs = (s ++ cs, none)
  | [], s => by simp [drawOn]
  | c :: cs, s => by rw [drawOn, deliver_record]; dsimp only; rw [drawOn_record cs]; simp

/-- The effects on any pen are those of the calls that a recording pen keeps. -/
def Free {α : Type} (m : ∀ σ : Type, AnyPen σ → Run σ α) : Prop :=
  ∀ (σ : Type) (P : AnyPen σ) (f : Effects σ),
    (m σ P f).1.pen = (drawOn P f.pen (m _ record ⟨f.attrs, []⟩).1.pen).1 ∧
    (m σ P f).2 = (match (drawOn P f.pen (m _ record ⟨f.attrs, []⟩).1.pen).2 with
      | some x => .error x
      | none => (m _ record ⟨f.attrs, []⟩).2) ∧
    ((drawOn P f.pen (m _ record ⟨f.attrs, []⟩).1.pen).2 = none → (m σ P f).1.attrs = (m _ record ⟨f.attrs, []⟩).1.attrs)

theorem Free.on_record {α : Type} {m : ∀ σ : Type, AnyPen σ → Run σ α} (h : Free m) (a : Dict Str PyVal) (cs : List Sent) :
    m _ record ⟨a, cs⟩ = (⟨(m _ record ⟨a, []⟩).1.attrs, cs ++ (m _ record ⟨a, []⟩).1.pen⟩, (m _ record ⟨a, []⟩).2) := by
  obtain ⟨h1, h2, h3⟩ := h _ record ⟨a, cs⟩
  rw [drawOn_record] at h1 h2 h3
  have h3 := h3 rfl
  dsimp only at h1 h2 h3
  rw [← h1, ← h2, ← h3]

theorem free_pure {α : Type} (r : Except Exc α) : Free fun σ (_ : AnyPen σ) => pure_ r := fun _ _ _ => ⟨rfl, rfl, fun _ => rfl⟩
theorem free_done {α : Type} (a : α) : Free fun σ (_ : AnyPen σ) => done a := fun _ _ _ => ⟨rfl, rfl, fun _ => rfl⟩
theorem free_fail {α : Type} (x : Exc) : Free fun σ (_ : AnyPen σ) => fail (α := α) x := fun _ _ _ => ⟨rfl, rfl, fun _ => rfl⟩

theorem free_refuse (b : Bool) : Free fun σ (_ : AnyPen σ) => refuse b := by
  cases b
  · exact free_done ()
  · exact free_fail _

theorem free_set (accepts : Str → Bool) (n : Str) (v : PyVal) : Free fun σ (_ : AnyPen σ) => setattr accepts n v := by
  intro σ P f
  by_cases h : accepts n = true <;> simp [setattr, h, drawOn]

theorem free_say (c : Sent) (hc : withoutKeyword c = none) : Free fun σ (P : AnyPen σ) => say P c := by
  intro σ P f
  have hd : drawOn P f.pen [c] = P f.pen c := by
    rw [drawOn, deliver, hc]
    rcases P f.pen c with ⟨s, _ | x⟩
    · rfl
    · cases x <;> rfl
  have ht : (say record c ⟨f.attrs, []⟩ : Effects (List Sent) × Except Exc Unit) = (⟨f.attrs, [c]⟩, .ok ()) := rfl
  dsimp only
  rw [ht]
  dsimp only
  rw [hd, say]
  rcases P f.pen c with ⟨s, _ | x⟩
  · exact ⟨rfl, rfl, fun _ => rfl⟩
  · exact ⟨rfl, rfl, fun h => by cases h⟩

theorem free_offer (new old : Sent) (hc : withoutKeyword new = some old) : Free fun σ (P : AnyPen σ) => offer P new old := by
  intro σ P f
  have hd : drawOn P f.pen [new] = match P f.pen new with
      | (s, none) => (s, none)
      | (s, some x) => if x = .typeError then P s old else (s, some x) := by
    rw [drawOn, deliver, hc]
    rcases P f.pen new with ⟨s, _ | x⟩
    · rfl
    · cases x <;> (try rfl)
      dsimp only
      rw [if_pos rfl]
      rcases P s old with ⟨s', _ | x⟩ <;> rfl
  have ht : (offer record new old ⟨f.attrs, []⟩ : Effects (List Sent) × Except Exc Unit) = (⟨f.attrs, [new]⟩, .ok ()) := rfl
  dsimp only
  rw [ht]
  dsimp only
  rw [hd, offer]
  rcases P f.pen new with ⟨s, _ | x⟩
  · exact ⟨rfl, rfl, fun _ => rfl⟩
  · dsimp only
    by_cases hx : x = .typeError
    · rw [if_pos hx, if_pos hx, say]
      dsimp only
      rcases P s old with ⟨s', _ | x⟩
      · exact ⟨rfl, rfl, fun _ => rfl⟩
      · exact ⟨rfl, rfl, fun h => by cases h⟩
    · rw [if_neg hx, if_neg hx]
      exact ⟨rfl, rfl, fun h => by cases h⟩

theorem free_andThen {α β : Type} {m : ∀ σ : Type, AnyPen σ → Run σ α} {k : ∀ σ : Type, AnyPen σ → α → Run σ β}
    (hm : Free m) (hk : ∀ a, Free fun σ (P : AnyPen σ) => k σ P a) : Free fun σ (P : AnyPen σ) => andThen (m σ P) (k σ P) := by
  intro σ P f
  obtain ⟨h1, h2, h3⟩ := hm σ P f
  dsimp only
  simp only [andThen]
  rcases ht : m _ record ⟨f.attrs, []⟩ with ⟨⟨a, cs⟩, r⟩
  rw [ht] at h1 h2 h3
  rcases hp : m σ P f with ⟨⟨a', s'⟩, r'⟩
  rw [hp] at h1 h2 h3
  dsimp only at h1 h2 h3
  rcases r with x | v
  · dsimp only
    rcases hd : drawOn P f.pen cs with ⟨s, _ | y⟩
    · rw [hd] at h1 h2 h3
      dsimp only at h1 h2
      subst h1 h2
      exact ⟨rfl, rfl, fun h => h3 h⟩
    · rw [hd] at h1 h2 h3
      dsimp only at h1 h2
      subst h1 h2
      exact ⟨rfl, rfl, fun h => by cases h⟩
  · dsimp only
    have hr := (hk v).on_record a cs
    rw [hr]
    dsimp only
    rw [drawOn_append]
    rcases hd : drawOn P f.pen cs with ⟨s, _ | y⟩
    · rw [hd] at h1 h2 h3
      dsimp only at h1 h2 h3
      have h3 := h3 rfl
      subst h1 h2 h3
      dsimp only
      exact hk v σ P ⟨a', s'⟩
    · rw [hd] at h1 h2 h3
      dsimp only at h1 h2
      subst h1 h2
      exact ⟨rfl, rfl, fun h => by cases h⟩

theorem free_if {α : Type} (p : Prop) [Decidable p] {m m' : ∀ σ : Type, AnyPen σ → Run σ α} (h : Free m) (h' : Free m') :
    Free fun σ (P : AnyPen σ) => if p then m σ P else m' σ P := by
  by_cases hp : p
  · simpa only [if_pos hp] using h
  · simpa only [if_neg hp] using h'


/-! ### the reader -/

theorem free_points1 : ∀ ps : List MPoint, Free fun σ (P : AnyPen σ) => points1 P ps
  | [] => free_done ()
  | _ :: ps => free_andThen (free_say _ rfl) fun _ => free_points1 ps

theorem free_contour1 (E : Env) (validate : Bool) (e : Elem) : Free fun σ (P : AnyPen σ) => contour1 E P validate e :=
  free_andThen (free_refuse _) fun _ => free_andThen (free_say _ rfl) fun _ => free_andThen (free_pure _) fun ps =>
    free_andThen (free_points1 ps) fun _ => free_say _ rfl

theorem free_componentHead (E : Env) (validate : Bool) (fv : Nat) (e : Elem) : Free fun σ (_ : AnyPen σ) => componentHead E validate fv e :=
  free_andThen (free_refuse _) fun _ => free_andThen (free_refuse _) fun _ => free_andThen (free_refuse _) fun _ => free_pure _

theorem free_component1 (E : Env) (validate : Bool) (e : Elem) : Free fun σ (P : AnyPen σ) => component1 E P validate e :=
  free_andThen (free_componentHead E validate 1 e) fun _ => free_say _ rfl

theorem free_item1 (E : Env) (validate hasPen : Bool) (e : Elem) : Free fun σ (P : AnyPen σ) => item1 E P validate hasPen e := by
  refine free_if _ (free_andThen (free_pure _) fun a => ?_) (free_if _ (free_if _ (free_andThen (free_component1 E validate e) fun _ => free_done _) (free_done _)) (free_fail _))
  cases a with
  | none => exact free_if _ (free_andThen (free_contour1 E validate e) fun _ => free_done _) (free_done _)
  | some a => exact free_done _

theorem free_outline1 (E : Env) (validate hasPen : Bool) : ∀ es : List Elem, Free fun σ (P : AnyPen σ) => outline1 E P validate hasPen es
  | [] => free_done _
  | e :: es => free_andThen (free_item1 E validate hasPen e) fun _ => free_andThen (free_outline1 E validate hasPen es) fun _ => free_done _

theorem free_points2 (validate : Bool) : ∀ (ids : List Str) (ps : List MPoint), Free fun σ (P : AnyPen σ) => points2 P validate ids ps
  | _, [] => free_done _
  | _, _ :: ps => free_andThen (free_pure _) fun ids => free_andThen (free_offer _ _ rfl) fun _ => free_points2 validate ids ps

theorem free_contour2 (E : Env) (validate : Bool) (ids : List Str) (e : Elem) : Free fun σ (P : AnyPen σ) => contour2 E P validate ids e :=
  free_andThen (free_refuse _) fun _ => free_andThen (free_pure _) fun ids => free_andThen (free_offer _ _ rfl) fun _ =>
    free_andThen (free_pure _) fun ps => free_andThen (free_points2 validate ids ps) fun _ => free_andThen (free_say _ rfl) fun _ => free_done _

theorem free_component2 (E : Env) (validate : Bool) (ids : List Str) (e : Elem) : Free fun σ (P : AnyPen σ) => component2 E P validate ids e :=
  free_andThen (free_componentHead E validate 2 e) fun _ => free_andThen (free_pure _) fun _ => free_andThen (free_offer _ _ rfl) fun _ => free_done _

theorem free_item2 (E : Env) (validate : Bool) (ids : List Str) (e : Elem) : Free fun σ (P : AnyPen σ) => item2 E P validate ids e :=
  free_if _ (free_contour2 E validate ids e) (free_if _ (free_component2 E validate ids e) (free_fail _))

theorem free_outline2 (E : Env) (validate : Bool) : ∀ (ids : List Str) (es : List Elem), Free fun σ (P : AnyPen σ) => outline2 E P validate ids es
  | _, [] => free_done _
  | ids, e :: es => free_andThen (free_item2 E validate ids e) fun ids => free_outline2 E validate ids es

theorem free_once (validate : Bool) (l : Locals) (tag : Str) : Free fun σ (_ : AnyPen σ) => once validate l tag :=
  free_andThen (free_refuse _) fun _ => free_done _

theorem free_anchorsEnd1 (S : Setting) (anchors : List PyVal) : Free fun σ (_ : AnyPen σ) => anchorsEnd1 S anchors :=
  free_if _ (free_andThen (free_refuse _) fun _ => free_set _ _ _) (free_done _)

theorem free_outlineElem (S : Setting) (l : Locals) (e : Elem) : Free fun σ (P : AnyPen σ) => outlineElem S P l e :=
  free_andThen (free_once _ _ _) fun l => free_andThen (free_refuse _) fun _ =>
    free_if _ (free_andThen (free_outline1 _ _ _ _) fun as => free_andThen (free_anchorsEnd1 S as) fun _ => free_done _)
      (free_if _ (free_andThen (free_outline2 _ _ l.identifiers _) fun _ => free_done _) (free_done _))

theorem free_advanceElem (S : Setting) (l : Locals) (e : Elem) : Free fun σ (_ : AnyPen σ) => advanceElem S l e :=
  free_andThen (free_once _ _ _) fun _ => free_andThen (free_pure _) fun _ => free_andThen (free_set _ _ _) fun _ =>
    free_andThen (free_pure _) fun _ => free_andThen (free_set _ _ _) fun _ => free_done _

theorem free_child (S : Setting) (l : Locals) (e : Elem) : Free fun σ (P : AnyPen σ) => child S P l e := by
  refine free_if _ (free_outlineElem S l e) (free_if _ (free_done _) (free_if _ (free_advanceElem S l e) (free_if _ ?_ (free_if _ ?_ (free_if _ ?_
    (free_if _ ?_ (free_if _ ?_ (free_if _ ?_ (free_fail _)))))))))
  · exact free_andThen (free_pure _) fun _ => free_done _
  · exact free_andThen (free_once _ _ _) fun _ => free_andThen (free_pure _) fun _ => free_andThen (free_set _ _ _) fun _ => free_done _
  · exact free_andThen (free_once _ _ _) fun _ => free_andThen (free_pure _) fun _ => free_andThen (free_set _ _ _) fun _ => free_done _
  · exact free_andThen (free_refuse _) fun _ => free_andThen (free_pure _) fun _ => free_done _
  · exact free_andThen (free_refuse _) fun _ => free_andThen (free_pure _) fun _ => free_done _
  · exact free_andThen (free_once _ _ _) fun _ => free_andThen (free_refuse _) fun _ => free_andThen (free_pure _) fun _ => free_andThen (free_set _ _ _) fun _ => free_done _

theorem free_childrenLoop (S : Setting) : ∀ (l : Locals) (es : List Elem), Free fun σ (P : AnyPen σ) => childrenLoop S P l es
  | _, [] => free_done _
  | l, e :: es => free_andThen (free_child S l e) fun l => free_childrenLoop S l es

theorem free_listEnd (S : Setting) (ids : List Str) (n : Str) (l : List PyVal) (v : Bool × List Str) : Free fun σ (_ : AnyPen σ) => listEnd S ids n l v :=
  free_if _ (free_done _) (free_andThen (free_refuse _) fun _ => free_andThen (free_set _ _ _) fun _ => free_done _)

theorem free_finish (S : Setting) (l : Locals) : Free fun σ (_ : AnyPen σ) => finish S l :=
  free_andThen (free_if _ (free_done _) (free_set _ _ _)) fun _ => free_andThen (free_listEnd S _ _ _ _) fun _ => free_andThen (free_listEnd S _ _ _ _) fun _ => free_done _

theorem free_nameStart (S : Setting) (tree : Elem) : Free fun σ (_ : AnyPen σ) => nameStart S tree := by
  unfold nameStart
  split
  · exact free_if _ (free_set _ _ _) (free_done _)
  · exact free_refuse _

theorem free_readFormat (S : Setting) (tree : Elem) : Free fun σ (P : AnyPen σ) => readFormat S P tree :=
  free_andThen (free_nameStart S tree) fun _ => free_andThen (free_childrenLoop S _ _) fun l => free_finish S l

theorem free_readOnto (E : Env) (accepts : Str → Bool) (validate hasObj hasPen : Bool) (formatVersions : List Int) (tree : Elem) :
    Free fun σ (P : AnyPen σ) => readOnto E P accepts validate hasObj hasPen formatVersions tree := by
  unfold readOnto
  refine free_if _ (free_fail _) (free_if _ (free_fail _) ?_)
  cases Dict.get? tree.attrib c!"format" with
  | none => exact free_fail _
  | some s =>
    dsimp only
    cases pyInt s with
    | none => exact free_fail _
    | some v => exact free_if _ (free_fail _) (free_if _ (free_readFormat _ tree) (free_if _ (free_readFormat _ tree) (free_fail _)))

end Verif.GlifPen
