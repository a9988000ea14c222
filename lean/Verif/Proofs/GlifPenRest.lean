import Verif.Proofs.GlifPenMore
/-! Lemmas about glyph objects that refuse attributes, and about the agreement with reading for a pen that keeps everything. -/
namespace Verif.GlifPen
open Verif Verif.Validators Verif.Glif Verif.Spec.GlifPen Verif.Spec.Relax

/-! ### objects that do not take every attribute -/

theorem still_points1 {σ : Type} (P : AnyPen σ) : ∀ ps : List MPoint, Still (points1 P ps)
  | [] => still_done ()
  | _ :: ps => still_andThen (still_say _ _) fun _ => still_points1 P ps

theorem still_contour1 {σ : Type} (E : Env) (P : AnyPen σ) (validate : Bool) (e : Elem) : Still (contour1 E P validate e) :=
  still_andThen (still_refuse _) fun _ => still_andThen (still_say _ _) fun _ => still_andThen (still_pure _) fun ps =>
    still_andThen (still_points1 P ps) fun _ => still_say _ _

theorem still_componentHead {σ : Type} (E : Env) (validate : Bool) (fv : Nat) (e : Elem) : Still (σ := σ) (componentHead E validate fv e) :=
  still_andThen (still_refuse _) fun _ => still_andThen (still_refuse _) fun _ => still_andThen (still_refuse _) fun _ => still_pure _

theorem still_item1 {σ : Type} (E : Env) (P : AnyPen σ) (validate hasPen : Bool) (e : Elem) : Still (item1 E P validate hasPen e) := by
  refine still_if _ (still_andThen (still_pure _) fun a => ?_)
    (still_if _ (still_if _ (still_andThen (still_andThen (still_componentHead E validate 1 e) fun _ => still_say _ _) fun _ => still_done _) (still_done _)) (still_fail _))
  cases a with
  | some a => exact still_done _
  | none => exact still_if _ (still_andThen (still_contour1 E P validate e) fun _ => still_done _) (still_done _)

theorem still_outline1 {σ : Type} (E : Env) (P : AnyPen σ) (validate hasPen : Bool) : ∀ es : List Elem, Still (outline1 E P validate hasPen es)
  | [] => still_done _
  | e :: es => still_andThen (still_item1 E P validate hasPen e) fun _ => still_andThen (still_outline1 E P validate hasPen es) fun _ => still_done _

theorem still_points2 {σ : Type} (P : AnyPen σ) (validate : Bool) : ∀ (ids : List Str) (ps : List MPoint), Still (points2 P validate ids ps)
  | _, [] => still_done _
  | _, _ :: ps => still_andThen (still_pure _) fun ids => still_andThen (still_offer _ _ _) fun _ => still_points2 P validate ids ps

theorem still_contour2 {σ : Type} (E : Env) (P : AnyPen σ) (validate : Bool) (ids : List Str) (e : Elem) : Still (contour2 E P validate ids e) :=
  still_andThen (still_refuse _) fun _ => still_andThen (still_pure _) fun ids => still_andThen (still_offer _ _ _) fun _ =>
    still_andThen (still_pure _) fun ps => still_andThen (still_points2 P validate ids ps) fun _ => still_andThen (still_say _ _) fun _ => still_done _

theorem still_item2 {σ : Type} (E : Env) (P : AnyPen σ) (validate : Bool) (ids : List Str) (e : Elem) : Still (item2 E P validate ids e) :=
  still_if _ (still_contour2 E P validate ids e) (still_if _ (still_andThen (still_componentHead E validate 2 e) fun _ => still_andThen (still_pure _) fun _ =>
    still_andThen (still_offer _ _ _) fun _ => still_done _) (still_fail _))

theorem still_outline2 {σ : Type} (E : Env) (P : AnyPen σ) (validate : Bool) : ∀ (ids : List Str) (es : List Elem), Still (outline2 E P validate ids es)
  | _, [] => still_done _
  | ids, e :: es => still_andThen (still_item2 E P validate ids e) fun ids => still_outline2 E P validate ids es

theorem still_once {σ : Type} (validate : Bool) (l : Locals) (tag : Str) : Still (σ := σ) (once validate l tag) :=
  still_andThen (still_refuse _) fun _ => still_done _

/-- The same arguments with an object that takes every attribute. -/
abbrev Setting.all (S : Setting) : Setting := { S with accepts := fun _ => true }

theorem filtered_outlineElem {σ : Type} (S : Setting) (P : AnyPen σ) (l : Locals) (e : Elem) : Filtered S.accepts (outlineElem S.all P l e) (outlineElem S P l e) :=
  filtered_andThen ((still_once _ _ _).filtered _) fun l => filtered_andThen ((still_refuse _).filtered _) fun _ =>
    filtered_if _ (filtered_andThen ((still_outline1 _ _ _ _ _).filtered _) fun _ =>
        filtered_andThen (filtered_if _ (filtered_andThen ((still_refuse _).filtered _) fun _ => filtered_set _ _ _) ((still_done _).filtered _)) fun _ => (still_done _).filtered _)
      (filtered_if _ (filtered_andThen ((still_outline2 _ _ _ l.identifiers _).filtered _) fun _ => (still_done _).filtered _) ((still_done _).filtered _))

theorem filtered_child {σ : Type} (S : Setting) (P : AnyPen σ) (l : Locals) (e : Elem) : Filtered S.accepts (child S.all P l e) (child S P l e) := by
  refine filtered_if _ (filtered_outlineElem S P l e) (filtered_if _ ((still_done _).filtered _) (filtered_if _ ?_ (filtered_if _ ?_ (filtered_if _ ?_ (filtered_if _ ?_
    (filtered_if _ ?_ (filtered_if _ ?_ (filtered_if _ ?_ ((still_fail _).filtered _)))))))))
  · exact filtered_andThen ((still_once _ _ _).filtered _) fun _ => filtered_andThen ((still_pure _).filtered _) fun _ => filtered_andThen (filtered_set _ _ _) fun _ =>
      filtered_andThen ((still_pure _).filtered _) fun _ => filtered_andThen (filtered_set _ _ _) fun _ => (still_done _).filtered _
  · exact filtered_andThen ((still_pure _).filtered _) fun _ => (still_done _).filtered _
  · exact filtered_andThen ((still_once _ _ _).filtered _) fun _ => filtered_andThen ((still_pure _).filtered _) fun _ => filtered_andThen (filtered_set _ _ _) fun _ => (still_done _).filtered _
  · exact filtered_andThen ((still_once _ _ _).filtered _) fun _ => filtered_andThen ((still_pure _).filtered _) fun _ => filtered_andThen (filtered_set _ _ _) fun _ => (still_done _).filtered _
  · exact filtered_andThen ((still_refuse _).filtered _) fun _ => filtered_andThen ((still_pure _).filtered _) fun _ => (still_done _).filtered _
  · exact filtered_andThen ((still_refuse _).filtered _) fun _ => filtered_andThen ((still_pure _).filtered _) fun _ => (still_done _).filtered _
  · exact filtered_andThen ((still_once _ _ _).filtered _) fun _ => filtered_andThen ((still_refuse _).filtered _) fun _ => filtered_andThen ((still_pure _).filtered _) fun _ =>
      filtered_andThen (filtered_set _ _ _) fun _ => (still_done _).filtered _

theorem filtered_childrenLoop {σ : Type} (S : Setting) (P : AnyPen σ) : ∀ (l : Locals) (es : List Elem), Filtered S.accepts (childrenLoop S.all P l es) (childrenLoop S P l es)
  | _, [] => (still_done _).filtered _
  | l, e :: es => filtered_andThen (filtered_child S P l e) fun l => filtered_childrenLoop S P l es

theorem filtered_listEnd {σ : Type} (S : Setting) (ids : List Str) (n : Str) (l : List PyVal) (v : Bool × List Str) :
    Filtered (σ := σ) S.accepts (listEnd S.all ids n l v) (listEnd S ids n l v) :=
  filtered_if _ ((still_done _).filtered _) (filtered_andThen ((still_refuse _).filtered _) fun _ => filtered_andThen (filtered_set _ _ _) fun _ => (still_done _).filtered _)

theorem filtered_readFormat {σ : Type} (S : Setting) (P : AnyPen σ) (tree : Elem) : Filtered S.accepts (readFormat S.all P tree) (readFormat S P tree) := by
  refine filtered_andThen ?_ fun _ => filtered_andThen (filtered_childrenLoop S P _ _) fun l =>
    filtered_andThen (filtered_if _ ((still_done _).filtered _) (filtered_set _ _ _)) fun _ =>
    filtered_andThen (filtered_listEnd S _ _ _ _) fun _ => filtered_andThen (filtered_listEnd S _ _ _ _) fun _ => (still_done _).filtered _
  unfold nameStart
  split
  · exact filtered_if _ (filtered_set _ _ _) ((still_done _).filtered _)
  · exact (still_refuse _).filtered _

theorem filtered_readOnto {σ : Type} (E : Env) (P : AnyPen σ) (accepts : Str → Bool) (validate hasObj hasPen : Bool) (formatVersions : List Int) (tree : Elem) :
    Filtered accepts (readOnto E P (fun _ => true) validate hasObj hasPen formatVersions tree) (readOnto E P accepts validate hasObj hasPen formatVersions tree) := by
  unfold readOnto
  refine filtered_if _ ((still_fail _).filtered _) (filtered_if _ ((still_fail _).filtered _) ?_)
  cases Dict.get? tree.attrib c!"format" with
  | none => exact (still_fail _).filtered _
  | some s =>
    dsimp only
    cases pyInt s with
    | none => exact (still_fail _).filtered _
    | some v =>
      exact filtered_if _ ((still_fail _).filtered _) (filtered_if _ (filtered_readFormat ⟨E, accepts, validate, hasObj, hasPen, 1⟩ P tree)
        (filtered_if _ (filtered_readFormat ⟨E, accepts, validate, hasObj, hasPen, 2⟩ P tree) ((still_fail _).filtered _)))

/-! ### agreement with reading for a pen that keeps everything -/

/-- Effects and local variables together. -/
def gather (f : Effects (List Sent)) (l : Locals) : Collected := ⟨f.attrs, f.pen.map asCall, l.identifiers, l.unicodes, l.guidelines, l.anchors, l.seen⟩

/-- The result as one value. -/
def summary (r : Effects (List Sent) × Except Exc Locals) : Except Exc Collected := r.2.map (gather r.1)

theorem agree_once (validate : Bool) (l : Locals) (tag : Str) (f : Effects (List Sent)) :
    (gather f l).once validate tag = summary (once validate l tag f) := by
  unfold Collected.once once andThen refuse
  show (if (validate && decide (tag ∈ l.seen)) = true then _ else _) = _
  by_cases h : (validate && decide (tag ∈ l.seen)) = true
  · rw [if_pos h, if_pos h]; rfl
  · rw [if_neg h, if_neg h]; rfl

theorem agree_outline1 (E : Env) (validate hasObj hasPen : Bool) (fv : Nat) (l : Locals) (f : Effects (List Sent)) (e : Elem) :
    (gather f l).outline1 E validate hasObj hasPen e = summary (andThen (outline1 E record validate hasPen e.children)
      (fun anchors => andThen (anchorsEnd1 ⟨E, fun _ => true, validate, hasObj, hasPen, fv⟩ anchors) fun _ => done l) f) := by
  obtain ⟨ss, h1, h2, _⟩ := outline1_record E validate hasPen f.attrs e.children f.pen
  unfold Collected.outline1 andThen
  rw [show f = ⟨f.attrs, f.pen⟩ from rfl, h1]
  rcases hr : readOutline1 E validate hasPen e.children with x | ⟨as, cs⟩
  · rfl
  · obtain ⟨h3, _⟩ := h2 _ hr
    dsimp only at h3
    subst h3
    simp only [Except.map, anchorsEnd1]
    by_cases hb : (hasObj && !as.isEmpty) = true
    · rw [if_pos hb, if_pos hb]
      unfold andThen refuse
      by_cases hc : (validate && !(anchorsValidator E.F [] (.list as)).1) = true
      · rw [if_pos hc, if_pos hc]; rfl
      · rw [if_neg hc, if_neg hc]
        simp [done, setattr, summary, gather, Except.map, Collected.setAttr]
    · rw [if_neg hb, if_neg hb]
      simp [done, summary, gather, Except.map]

theorem agree_outline2 (E : Env) (validate : Bool) (l : Locals) (f : Effects (List Sent)) (e : Elem) :
    (gather f l).outline2 E validate true e = summary (andThen (outline2 E record validate l.identifiers e.children)
      (fun ids => done { l with identifiers := ids }) f) := by
  obtain ⟨ss, h1, h2, _⟩ := outline2_record E validate f.attrs e.children l.identifiers f.pen
  unfold Collected.outline2 andThen
  rw [show f = ⟨f.attrs, f.pen⟩ from rfl, h1, if_pos rfl]
  show (match readOutline2 E validate l.identifiers e.children with | .error x => _ | .ok (calls, ids) => _) = _
  rcases hr : readOutline2 E validate l.identifiers e.children with x | ⟨cs, ids⟩
  · rfl
  · obtain ⟨h3, _⟩ := h2 _ hr
    dsimp only at h3
    subst h3
    simp [done, summary, gather, Except.map]

theorem agree_child (E : Env) (validate hasObj hasPen : Bool) (fv : Nat) (l : Locals) (f : Effects (List Sent)) (e : Elem) :
    readChild E validate hasObj hasPen fv (gather f l) e = summary (child ⟨E, fun _ => true, validate, hasObj, hasPen, fv⟩ record l e f) := by
  unfold readChild child
  by_cases h1 : e.tag = c!"outline"
  · rw [if_pos h1, if_pos h1]
    unfold Collected.outline outlineElem
    rw [agree_once, andThen, summary]
    dsimp only
    rcases once validate l c!"outline" f with ⟨f', x | l'⟩
    · rfl
    dsimp only [Except.map]
    rw [andThen, refuse]
    by_cases hb : (validate && !outlineOk e) = true
    · rw [if_pos hb, if_pos hb]; rfl
    rw [if_neg hb, if_neg hb]
    by_cases hf : fv = 1
    · rw [if_pos hf, if_pos hf]
      exact agree_outline1 E validate hasObj hasPen fv l' f' e
    · rw [if_neg hf, if_neg hf]
      by_cases hp : hasPen = true
      · subst hp; rw [if_pos rfl]; exact agree_outline2 E validate l' f' e
      · rw [if_neg hp]; unfold Collected.outline2; rw [if_neg hp]; rfl
  rw [if_neg h1, if_neg h1]
  by_cases h2 : (!hasObj) = true
  · rw [if_pos h2, if_pos h2]; rfl
  rw [if_neg h2, if_neg h2]
  by_cases h3 : e.tag = c!"advance"
  · rw [if_pos h3, if_pos h3]
    unfold Collected.advance advanceElem
    rw [agree_once, andThen, summary]
    dsimp only
    rcases once validate l c!"advance" f with ⟨f', x | l'⟩
    · rfl
    dsimp only [Except.map]
    unfold readAdvance andThen pure_
    dsimp only
    rcases numberOr E.F (.int 0) (Dict.get? e.attrib c!"width") with x | w
    · rfl
    · rcases numberOr E.F (.int 0) (Dict.get? e.attrib c!"height") with x | h
      · rfl
      · rfl
  rw [if_neg h3, if_neg h3]
  by_cases h4 : e.tag = c!"unicode"
  · rw [if_pos h4, if_pos h4]
    unfold Collected.unicode unicodeElem andThen pure_
    rcases readHex e with x | i
    · rfl
    show Except.ok (if i ∈ l.unicodes then gather f l else _) = summary (done (if i ∈ l.unicodes then l else _) f)
    by_cases hi : i ∈ l.unicodes
    · rw [if_pos hi, if_pos hi]; rfl
    · rw [if_neg hi, if_neg hi]; rfl
  rw [if_neg h4, if_neg h4]
  by_cases h5 : e.tag = c!"note"
  · rw [if_pos h5, if_pos h5]
    unfold Collected.note noteElem
    rw [agree_once, andThen, summary]
    dsimp only
    rcases once validate l c!"note" f with ⟨f', x | l'⟩
    · rfl
    dsimp only [Except.map]
    unfold andThen pure_
    rcases readNote e with x | t <;> rfl
  rw [if_neg h5, if_neg h5]
  by_cases h6 : e.tag = c!"lib"
  · rw [if_pos h6, if_pos h6]
    unfold Collected.lib libElem
    rw [agree_once, andThen, summary]
    dsimp only
    rcases once validate l c!"lib" f with ⟨f', x | l'⟩
    · rfl
    dsimp only [Except.map]
    unfold andThen pure_
    dsimp only
    rcases readLib E validate e with x | t <;> rfl
  rw [if_neg h6, if_neg h6]
  by_cases h7 : fv ≠ 1 ∧ e.tag = c!"guideline"
  · rw [if_pos h7, if_pos h7]
    unfold Collected.guideline guidelineElem andThen refuse pure_
    dsimp only
    by_cases hb : (validate && !e.children.isEmpty) = true
    · rw [if_pos hb, if_pos hb]; rfl
    rw [if_neg hb, if_neg hb]
    rcases readEntry E.F [c!"x", c!"y", c!"angle"] e.attrib with x | t <;> rfl
  rw [if_neg h7, if_neg h7]
  by_cases h8 : fv ≠ 1 ∧ e.tag = c!"anchor"
  · rw [if_pos h8, if_pos h8]
    unfold Collected.anchor anchorElem andThen refuse pure_
    dsimp only
    by_cases hb : (validate && !e.children.isEmpty) = true
    · rw [if_pos hb, if_pos hb]; rfl
    rw [if_neg hb, if_neg hb]
    rcases readEntry E.F [c!"x", c!"y"] e.attrib with x | t <;> rfl
  rw [if_neg h8, if_neg h8]
  by_cases h9 : fv ≠ 1 ∧ e.tag = c!"image"
  · rw [if_pos h9, if_pos h9]
    unfold Collected.image imageElem
    rw [agree_once, andThen, summary]
    dsimp only
    rcases once validate l c!"image" f with ⟨f', x | l'⟩
    · rfl
    dsimp only [Except.map]
    unfold andThen refuse pure_
    dsimp only
    by_cases hb : (validate && !e.children.isEmpty) = true
    · rw [if_pos hb, if_pos hb]; rfl
    rw [if_neg hb, if_neg hb]
    rcases readImage E validate e with x | t <;> rfl
  rw [if_neg h9, if_neg h9]
  rfl

theorem agree_children (E : Env) (validate hasObj hasPen : Bool) (fv : Nat) : ∀ (es : List Elem) (l : Locals) (f : Effects (List Sent)),
    readChildren E validate hasObj hasPen fv (gather f l) es = summary (childrenLoop ⟨E, fun _ => true, validate, hasObj, hasPen, fv⟩ record l es f)
  | [], _, _ => rfl
  | e :: es, l, f => by
    rw [readChildren, agree_child, childrenLoop, andThen, summary]
    rcases child ⟨E, fun _ => true, validate, hasObj, hasPen, fv⟩ record l e f with ⟨f', x | l'⟩
    · rfl
    · exact agree_children E validate hasObj hasPen fv es l' f'

/-- The result as the attributes and the calls. -/
def outcome {α : Type} (r : Effects (List Sent) × Except Exc α) : Except Exc (Dict Str PyVal × List Call) := r.2.map fun _ => (r.1.attrs, r.1.pen.map asCall)

theorem agree_finish (E : Env) (validate hasObj hasPen : Bool) (fv : Nat) (l : Locals) (f : Effects (List Sent)) :
    (match (gather f l).finish E validate with | .error x => .error x | .ok s => .ok (s.attrs, s.calls)) =
      outcome (finish ⟨E, fun _ => true, validate, hasObj, hasPen, fv⟩ l f) := by
  unfold Collected.finish finish andThen
  have hu : (if l.unicodes.isEmpty then done () else setattr (fun _ => true) c!"unicodes" (.list (l.unicodes.map fun i => .int i)) : Run (List Sent) Unit) f =
      (if l.unicodes.isEmpty then f else ⟨Dict.set f.attrs c!"unicodes" (.list (l.unicodes.map fun i => .int i)), f.pen⟩, .ok ()) := by
    by_cases h : l.unicodes.isEmpty = true
    · rw [if_pos h, if_pos h]; rfl
    · rw [if_neg h, if_neg h]; rfl
  have hs : (if (gather f l).unicodes.isEmpty then gather f l else (gather f l).setAttr c!"unicodes" (.list ((gather f l).unicodes.map fun i => .int i))) =
      gather (if l.unicodes.isEmpty then f else ⟨Dict.set f.attrs c!"unicodes" (.list (l.unicodes.map fun i => .int i)), f.pen⟩) l := by
    show (if l.unicodes.isEmpty then _ else _) = _
    by_cases h : l.unicodes.isEmpty = true
    · rw [if_pos h, if_pos h]
    · rw [if_neg h, if_neg h]; rfl
  rw [hu, hs]
  dsimp only
  generalize (if l.unicodes.isEmpty then f else ⟨Dict.set f.attrs c!"unicodes" (.list (l.unicodes.map fun i => .int i)), f.pen⟩ : Effects (List Sent)) = f'
  have hl : ∀ (f : Effects (List Sent)) (l : Locals) (n : Str) (ls : List PyVal) (v : Bool × List Str),
      (gather f l).setList validate n ls v = summary (andThen (listEnd ⟨E, fun _ => true, validate, hasObj, hasPen, fv⟩ l.identifiers n ls v) (fun ids => done { l with identifiers := ids }) f) := by
    intro f l n ls v
    unfold Collected.setList listEnd
    by_cases h : ls.isEmpty = true
    · rw [if_pos h, if_pos h]; rfl
    · rw [if_neg h, if_neg h]
      unfold andThen refuse
      by_cases hv : (validate && !v.1) = true
      · rw [if_pos hv]; dsimp only; rw [if_pos hv]; rfl
      · rw [if_neg hv]; dsimp only; rw [if_neg hv]; rfl
  rw [show (gather f' l).guidelines = l.guidelines from rfl, show (gather f' l).identifiers = l.identifiers from rfl, hl, andThen]
  rcases listEnd ⟨E, fun _ => true, validate, hasObj, hasPen, fv⟩ l.identifiers c!"guidelines" l.guidelines (guidelinesValidator E.F l.identifiers (.list l.guidelines)) f' with ⟨f2, x | ids⟩
  · rfl
  · dsimp only [done, summary, Except.map]
    rw [show (gather f2 { l with identifiers := ids }).anchors = l.anchors from rfl, show (gather f2 { l with identifiers := ids }).identifiers = ids from rfl, hl, andThen]
    dsimp only
    rcases listEnd ⟨E, fun _ => true, validate, hasObj, hasPen, fv⟩ ids c!"anchors" l.anchors (anchorsValidator E.F ids (.list l.anchors)) f2 with ⟨f3, x | ids'⟩
    · rfl
    · rfl

theorem agree_format (E : Env) (validate hasObj hasPen : Bool) (fv : Nat) (tree : Elem) :
    Glif.readFormat E validate hasObj hasPen fv tree = outcome (readFormat ⟨E, fun _ => true, validate, hasObj, hasPen, fv⟩ record tree ⟨[], []⟩) := by
  have hn : ∀ f : Effects (List Sent), f.pen = [] →
      (match readChildren E validate hasObj hasPen fv ⟨f.attrs, [], [], [], [], [], []⟩ tree.children with
        | .error x => .error x
        | .ok s => match s.finish E validate with | .error x => .error x | .ok s => .ok (s.attrs, s.calls)) =
      outcome (andThen (childrenLoop ⟨E, fun _ => true, validate, hasObj, hasPen, fv⟩ record ⟨[], [], [], [], []⟩ tree.children)
        (fun l => finish ⟨E, fun _ => true, validate, hasObj, hasPen, fv⟩ l) f) := by
    rintro ⟨a, cs⟩ rfl
    have h := agree_children E validate hasObj hasPen fv tree.children ⟨[], [], [], [], []⟩ ⟨a, []⟩
    change readChildren E validate hasObj hasPen fv ⟨a, [], [], [], [], [], []⟩ tree.children = _ at h
    rw [h]
    unfold andThen summary
    rcases childrenLoop ⟨E, fun _ => true, validate, hasObj, hasPen, fv⟩ record ⟨[], [], [], [], []⟩ tree.children ⟨a, []⟩ with ⟨f', x | l⟩
    · rfl
    · exact agree_finish E validate hasObj hasPen fv l f'
  unfold Glif.readFormat readFormat readName nameStart
  rw [andThen]
  cases hg : Dict.get? tree.attrib c!"name" with
  | none =>
    dsimp only
    cases validate with
    | true => rfl
    | false => exact hn ⟨[], []⟩ rfl
  | some s =>
    cases s with
    | nil =>
      dsimp only
      cases validate with
      | true => rfl
      | false => exact hn ⟨[], []⟩ rfl
    | cons c cs =>
      cases hasObj with
      | true => exact hn ⟨[(c!"name", .str (c :: cs))], []⟩ rfl
      | false => exact hn ⟨[], []⟩ rfl

theorem agree_tree (E : Env) (validate hasObj hasPen : Bool) (formatVersions : List Int) (tree : Elem) :
    readGlyphTree E validate hasObj hasPen formatVersions tree = outcome (readOnto E record (fun _ => true) validate hasObj hasPen formatVersions tree ⟨[], []⟩) := by
  unfold readGlyphTree readOnto
  by_cases h1 : tree.tag ≠ c!"glyph"
  · rw [if_pos h1, if_pos h1]; rfl
  rw [if_neg h1, if_neg h1]
  by_cases h2 : (!textBlank tree.text) = true
  · rw [if_pos h2, if_pos h2]; rfl
  rw [if_neg h2, if_neg h2]
  cases Dict.get? tree.attrib c!"format" with
  | none => rfl
  | some s =>
    dsimp only
    cases pyInt s with
    | none => rfl
    | some v =>
      dsimp only
      by_cases h3 : (validate && !decide (v ∈ formatVersions)) = true
      · rw [if_pos h3, if_pos h3]; rfl
      rw [if_neg h3, if_neg h3]
      by_cases h4 : v = 1
      · rw [if_pos h4, if_pos h4]; exact agree_format E validate hasObj hasPen 1 tree
      rw [if_neg h4, if_neg h4]
      by_cases h5 : v = 2
      · rw [if_pos h5, if_pos h5]; exact agree_format E validate hasObj hasPen 2 tree
      rw [if_neg h5, if_neg h5]; rfl

/-! ### pens of two kinds -/

theorem drawOn_modern {σ : Type} {P : AnyPen σ} (h : Modern P) : ∀ (cs : List Sent) (s : σ), drawOn P s cs = (after P s cs, none)
  | [], _ => rfl
  | c :: cs, s => by
    have hc := h s c
    rw [drawOn, deliver]
    rcases hp : P s c with ⟨s', x⟩
    rw [hp] at hc
    dsimp only at hc
    subst hc
    dsimp only
    rw [drawOn_modern h cs s', after, after, List.foldl_cons, hp]

theorem withoutKeyword_again {c d : Sent} (h : withoutKeyword c = some d) : withoutKeyword d = none := by
  unfold withoutKeyword at h
  split at h <;> first | (injection h with h; subst h; rfl) | cases h

theorem drawOn_legacy {σ : Type} {P : AnyPen σ} (h : Legacy P) : ∀ (cs : List Sent) (s : σ), drawOn P s cs = (after P s (cs.map plain), none)
  | [], _ => rfl
  | c :: cs, s => by
    have hd : deliver P s c = ((P s (plain c)).1, none) := by
      have hc := h s c
      unfold deliver
      cases hw : withoutKeyword c with
      | none =>
        have hk : hasKeyword c = false := by rw [hasKeyword, hw]; rfl
        have hpl : plain c = c := by rw [plain, hw]; rfl
        rw [hk] at hc
        rw [hpl]
        simp only [Bool.false_eq_true, if_false] at hc
        rcases hp : P s c with ⟨s', x⟩
        rw [hp] at hc
        dsimp only at hc
        subst hc
        rfl
      | some d =>
        have hk : hasKeyword c = true := by rw [hasKeyword, hw]; rfl
        have hpl : plain c = d := by rw [plain, hw]; rfl
        have hd : hasKeyword d = false := by rw [hasKeyword, withoutKeyword_again hw]; rfl
        rw [hk] at hc
        rw [hpl]
        simp only [if_true] at hc
        rw [hc]
        show P s d = ((P s d).1, none)
        have hc' := h s d
        rw [hd] at hc'
        simp only [Bool.false_eq_true, if_false] at hc'
        rcases hp : P s d with ⟨s', x⟩
        rw [hp] at hc'
        exact congrArg (Prod.mk s') hc'
    rw [drawOn, hd]
    dsimp only
    rw [drawOn_legacy h cs _]
    rfl

/-! ### reading without a pen, and without a glyph object -/

theorem silent_outline1 (E : Env) (validate : Bool) : ∀ es : List Elem, Silent fun σ (P : AnyPen σ) => outline1 E P validate false es
  | [] => silent_done _
  | e :: es => by
    refine silent_andThen ?_ fun _ => silent_andThen (silent_outline1 E validate es) fun _ => silent_done _
    refine silent_if _ (silent_andThen (silent_pure _) fun a => ?_) (silent_if _ (silent_done _) (silent_fail _))
    cases a with
    | some a => exact silent_done _
    | none => exact silent_done _

theorem silent_child (S : Setting) (hp : S.hasPen = false) (l : Locals) (e : Elem) : Silent fun σ (P : AnyPen σ) => child S P l e := by
  refine silent_if _ ?_ (silent_if _ (silent_done _) (silent_if _ (silent_advanceElem S l e) (silent_if _ ?_ (silent_if _ ?_ (silent_if _ ?_
    (silent_if _ ?_ (silent_if _ ?_ (silent_if _ ?_ (silent_fail _)))))))))
  · refine silent_andThen (silent_once _ _ _) fun l => silent_andThen (silent_refuse _) fun _ => silent_if _ (silent_andThen ?_ fun as =>
      silent_andThen (silent_anchorsEnd1 S as) fun _ => silent_done _) ?_
    · rw [hp]; exact silent_outline1 S.E S.validate e.children
    · rw [hp]; exact silent_done l
  · exact silent_andThen (silent_pure _) fun _ => silent_done _
  · exact silent_andThen (silent_once _ _ _) fun _ => silent_andThen (silent_pure _) fun _ => silent_andThen (silent_set _ _ _) fun _ => silent_done _
  · exact silent_andThen (silent_once _ _ _) fun _ => silent_andThen (silent_pure _) fun _ => silent_andThen (silent_set _ _ _) fun _ => silent_done _
  · exact silent_andThen (silent_refuse _) fun _ => silent_andThen (silent_pure _) fun _ => silent_done _
  · exact silent_andThen (silent_refuse _) fun _ => silent_andThen (silent_pure _) fun _ => silent_done _
  · exact silent_andThen (silent_once _ _ _) fun _ => silent_andThen (silent_refuse _) fun _ => silent_andThen (silent_pure _) fun _ => silent_andThen (silent_set _ _ _) fun _ => silent_done _

theorem silent_childrenLoop (S : Setting) (hp : S.hasPen = false) : ∀ (l : Locals) (es : List Elem), Silent fun σ (P : AnyPen σ) => childrenLoop S P l es
  | _, [] => silent_done _
  | l, e :: es => silent_andThen (silent_child S hp l e) fun l => silent_childrenLoop S hp l es

theorem silent_readOnto (E : Env) (accepts : Str → Bool) (validate hasObj : Bool) (formatVersions : List Int) (tree : Elem) :
    Silent fun σ (P : AnyPen σ) => readOnto E P accepts validate hasObj false formatVersions tree := by
  have hf : ∀ S : Setting, S.hasPen = false → Silent fun σ (P : AnyPen σ) => readFormat S P tree := fun S hp =>
    silent_andThen (silent_nameStart S tree) fun _ => silent_andThen (silent_childrenLoop S hp _ _) fun l => silent_finish S l
  unfold readOnto
  refine silent_if _ (silent_fail _) (silent_if _ (silent_fail _) ?_)
  cases Dict.get? tree.attrib c!"format" with
  | none => exact silent_fail _
  | some s =>
    dsimp only
    cases pyInt s with
    | none => exact silent_fail _
    | some v => exact silent_if _ (silent_fail _) (silent_if _ (hf _ rfl) (silent_if _ (hf _ rfl) (silent_fail _)))

/-- Nothing is done to the attributes, and the value is of a kind. -/
def StillTo {σ α : Type} (Q : α → Prop) (m : Run σ α) : Prop := Still m ∧ ∀ f v, (m f).2 = .ok v → Q v

theorem stillTo_any {σ α : Type} {m : Run σ α} (h : Still m) : StillTo (fun _ => True) m := ⟨h, fun _ _ _ => trivial⟩
theorem stillTo_done {σ α : Type} {Q : α → Prop} {a : α} (h : Q a) : StillTo (σ := σ) Q (done a) := ⟨still_done a, fun _ _ hv => by cases hv; exact h⟩
theorem stillTo_fail {σ α : Type} {Q : α → Prop} (x : Exc) : StillTo (σ := σ) Q (fail x) := ⟨still_fail x, fun _ _ hv => nomatch hv⟩

theorem stillTo_andThen {σ α β : Type} {Q : α → Prop} {R : β → Prop} {m : Run σ α} {k : α → Run σ β} (hm : StillTo Q m) (hk : ∀ a, Q a → StillTo R (k a)) :
    StillTo R (andThen m k) := by
  constructor
  · intro a s
    unfold andThen
    rw [hm.1 a s, hm.1 [] s]
    rcases hr : m ⟨[], s⟩ with ⟨f, x | v⟩
    · rfl
    · exact (hk v (hm.2 ⟨[], s⟩ v (by rw [hr]))).1 a f.pen
  · intro f v hv
    unfold andThen at hv
    rcases hr : m f with ⟨f', x | w⟩
    · rw [hr] at hv; cases hv
    · rw [hr] at hv; exact (hk w (hm.2 f w (by rw [hr]))).2 f' v hv

theorem stillTo_if {σ α : Type} {Q : α → Prop} (p : Prop) [Decidable p] {m n : Run σ α} (h : StillTo Q m) (h' : StillTo Q n) : StillTo Q (if p then m else n) := by
  by_cases hp : p
  · simpa only [if_pos hp] using h
  · simpa only [if_neg hp] using h'

/-- Nothing has been collected for the end. -/
def Locals.Bare (l : Locals) : Prop := l.unicodes = [] ∧ l.guidelines = [] ∧ l.anchors = []

theorem bare_child {σ : Type} (S : Setting) (ho : S.hasObj = false) (P : AnyPen σ) (l : Locals) (hl : l.Bare) (e : Elem) : StillTo Locals.Bare (child S P l e) := by
  refine stillTo_if _ ?_ ?_
  · refine stillTo_andThen (Q := Locals.Bare) (stillTo_andThen (stillTo_any (still_refuse _)) fun _ _ => stillTo_done hl) fun l hl =>
      stillTo_andThen (stillTo_any (still_refuse _)) fun _ _ => stillTo_if _ (stillTo_andThen (stillTo_any (still_outline1 _ _ _ _ _)) fun as _ =>
        stillTo_andThen (stillTo_any ?_) fun _ _ => stillTo_done hl)
        (stillTo_if _ (stillTo_andThen (stillTo_any (still_outline2 _ _ _ _ _)) fun _ _ => stillTo_done hl) (stillTo_done hl))
    unfold anchorsEnd1
    rw [ho]
    exact still_done ()
  · rw [if_pos (by rw [ho]; rfl)]
    exact stillTo_done hl

theorem bare_childrenLoop {σ : Type} (S : Setting) (ho : S.hasObj = false) (P : AnyPen σ) : ∀ (es : List Elem) (l : Locals), l.Bare → StillTo Locals.Bare (childrenLoop S P l es)
  | [], _, hl => stillTo_done hl
  | e :: es, l, hl => stillTo_andThen (bare_child S ho P l hl e) fun l hl => bare_childrenLoop S ho P es l hl

theorem still_readOnto {σ : Type} (E : Env) (P : AnyPen σ) (accepts : Str → Bool) (validate hasPen : Bool) (formatVersions : List Int) (tree : Elem) :
    Still (readOnto E P accepts validate false hasPen formatVersions tree) := by
  have hf : ∀ S : Setting, S.hasObj = false → Still (readFormat S P tree) := by
    intro S ho
    refine (stillTo_andThen (R := fun _ => True) (stillTo_any ?_) fun _ _ => stillTo_andThen (bare_childrenLoop S ho P _ _ ⟨rfl, rfl, rfl⟩) fun l hl => stillTo_any ?_).1
    · unfold nameStart
      split
      · rw [ho]; exact still_done ()
      · exact still_refuse _
    · obtain ⟨h1, h2, h3⟩ := hl
      unfold finish listEnd
      rw [h1, h2, h3]
      exact still_andThen (still_done _) fun _ => still_andThen (still_done _) fun _ => still_andThen (still_done _) fun _ => still_done _
  unfold readOnto
  refine still_if _ (still_fail _) (still_if _ (still_fail _) ?_)
  cases Dict.get? tree.attrib c!"format" with
  | none => exact still_fail _
  | some s =>
    dsimp only
    cases pyInt s with
    | none => exact still_fail _
    | some v => exact still_if _ (still_fail _) (still_if _ (hf _ rfl) (still_if _ (hf _ rfl) (still_fail _)))

end Verif.GlifPen
