import Verif.Model.Draw
import Verif.Spec.Draw
import Verif.Proofs.PointPens
namespace Verif.PointPens
open Verif Verif.Spec.PointPens Verif.Spec.Draw Verif.Spec.Glif

variable {P K C : Type}

/-- A point with the name of its type. -/
def named (p : Point P K) : P × Option Str := (p.pt, p.seg.map stName)

theorem isChain_of_splits {α : Type} {R : α → α → Prop} : ∀ (l : List α), (∀ u x y v, l = u ++ x :: y :: v → R x y) → l.IsChain R
  | [], _ => by simp
  | [a], _ => by simp
  | a :: b :: l, h => by
    rw [List.isChain_cons_cons]
    exact ⟨h [] a b l rfl, isChain_of_splits (b :: l) fun u x y v he => h (a :: u) x y v (by rw [he]; rfl)⟩

/-- No line after an off-curve point, going round. -/
def Cyc (l : List (Option Str)) : Prop := ∀ a b, l = a ++ some c!"line" :: b → ∀ s, b ++ a ≠ s ++ [none]

theorem cyc_rotate {x y : List (Option Str)} (h : Cyc (x ++ y)) : Cyc (y ++ x) := by
  intro a b he s
  rcases List.append_eq_append_iff.1 he with ⟨c, h1, h2⟩ | ⟨c, h1, h2⟩
  · subst h1
    have := h c (b ++ y) (by rw [h2]; simp) s
    rwa [List.append_assoc] at this
  · cases c with
    | nil =>
      simp only [List.append_nil] at h1
      subst h1
      have h2 : x = some c!"line" :: b := by simpa using h2.symm
      have := h [] (b ++ y) (by rw [h2]; rfl) s
      simpa using this
    | cons d c =>
      rw [List.cons_append] at h2
      injection h2 with h3 h4
      subst h1
      have := h (x ++ a) c (by rw [h3]; simp) s
      rw [h4]
      simpa using this

theorem stName_line {t : ST} (ht : t = .move ∨ t = .line ∨ t = .curve ∨ t = .qcurve) : stName t = c!"line" ↔ t = .line := by
  rcases ht with rfl | rfl | rfl | rfl <;> simp [stName] <;> decide

theorem linesAlone_of_cyc {l : List (Point P K)} (h : Cyc (l.map fun p => p.seg.map stName)) : LinesAlone l := by
  apply isChain_of_splits
  rintro u x y v rfl hy hx
  refine h (u.map (fun p => p.seg.map stName) ++ [none]) (v.map fun p => p.seg.map stName) ?_ (v.map (fun p => p.seg.map stName) ++ u.map fun p => p.seg.map stName) ?_
  · simp [hx, hy, stName]
  · simp

theorem paint_group [DecidableEq P] : ∀ (r : List (Point P K)) (cur : List (SegPoint P K)) (a : P), DrawableTypes r → LinesAlone r →
    (∀ p ∈ r.head?, p.seg = some .line → cur = []) → (r = [] → cur = []) → (∀ p ∈ r.getLast?, p.seg ≠ none) →
    ∃ l b, Segs a (cur.map (·.pt)) (r.map named) l ∧ (∀ q ∈ r.getLast?, b = q.pt) ∧ (r = [] → b = a) ∧
      ∀ s l0 (evs : List (SEvent P C)), paint (.path s a l0) ((group (cur.map some) (r.map Point.item)).flatMap oneCall ++ evs) = paint (.path s b (l0 ++ l)) evs
  | [], cur, a, _, _, _, hn, _ => by
    rw [hn rfl]
    exact ⟨[], a, .nil a, by simp, fun _ => rfl, fun s l0 evs => by simp [group]⟩
  | p :: r, cur, a, ht, hl, hh, _, he => by
    have hl' : LinesAlone r := by unfold LinesAlone at hl ⊢; exact hl.tail
    have ht' : DrawableTypes r := fun q hq => ht q (List.mem_cons_of_mem _ hq)
    rcases hp : p.seg with _ | t
    · have hr : r ≠ [] := by
        rintro rfl
        exact he p (by simp) hp
      have hlast : (p :: r).getLast? = r.getLast? := by
        obtain ⟨x, xs, rfl⟩ := List.exists_cons_of_ne_nil hr
        rfl
      rw [hlast] at he
      obtain ⟨l, b, h1, h2, -, h4⟩ := paint_group r (cur ++ [p.toSeg]) a ht' hl' (by
        intro q hq hqt
        exfalso
        obtain ⟨x, xs, rfl⟩ := List.exists_cons_of_ne_nil hr
        simp only [List.head?_cons, Option.mem_def, Option.some.injEq] at hq
        subst hq
        unfold LinesAlone at hl
        rw [List.isChain_cons_cons] at hl
        exact hl.1 hqt hp) (fun h => absurd h hr) he
      refine ⟨l, b, ?_, by rw [hlast]; exact h2, by simp, ?_⟩
      · rw [List.map_cons, named, hp]
        refine .off ?_
        simpa [Point.toSeg] using h1
      · intro s l0 evs
        rw [List.map_cons, Point.item, hp, group]
        have := h4 s l0 evs
        rwa [List.map_append] at this
    · obtain ⟨l, b, h1, h2, h3, h4⟩ := paint_group r [] p.pt ht' hl' (by simp) (by simp) (by
        intro q hq
        obtain ⟨x, xs, rfl⟩ := List.exists_cons_of_ne_nil (l := r) (by rintro rfl; simp at hq)
        exact he q hq)
      have hb : ∀ q ∈ (p :: r).getLast?, b = q.pt := by
        intro q hq
        cases r with
        | nil =>
          simp only [List.getLast?_singleton, Option.mem_def, Option.some.injEq] at hq
          rw [h3 rfl, hq]
        | cons x xs => exact h2 q hq
      have hcoord : ∀ l : List (SegPoint P K), l.filterMap (fun x => Option.map (·.pt) (some x)) = l.map (·.pt) := by
        intro l; induction l with
        | nil => rfl
        | cons x l ih => simp
      have hall : ∀ l : List P, allSome (l.map some) = some l := by
        intro l; induction l with
        | nil => rfl
        | cons x l ih => simp [allSome, ih]
      have ht0 := ht p (by simp)
      rw [hp] at ht0
      rcases (by simpa using ht0 : t = .line ∨ t = .curve ∨ t = .qcurve) with rfl | rfl | rfl
      · have hc := hh p (by simp) hp
        subst hc
        refine ⟨.line a p.pt :: l, b, ?_, hb, by simp, ?_⟩
        · rw [List.map_cons, named, hp]; exact .line h1
        · intro s l0 evs
          rw [List.map_cons, Point.item, hp, group]
          have := h4 s (l0 ++ [.line a p.pt]) evs
          simp only [List.map_nil] at this
          simp only [List.map_nil, List.nil_append, List.flatMap_cons, oneCall, List.filterMap_cons, List.filterMap_nil, List.map_cons,
            List.cons_append, paint, Option.map_some, Point.toSeg, this, List.append_assoc]
      · refine ⟨.curve a (cur.map (·.pt)) p.pt :: l, b, ?_, hb, by simp, ?_⟩
        · rw [List.map_cons, named, hp]; exact .curve h1
        · intro s l0 evs
          rw [List.map_cons, Point.item, hp, group]
          have := h4 s (l0 ++ [.curve a (cur.map (·.pt)) p.pt]) evs
          simp only [List.map_nil] at this
          have hco : (cur.map some ++ [some p.toSeg]).filterMap (fun x => x.map (·.pt)) = cur.map (·.pt) ++ [p.pt] := by
            simp [List.filterMap_append, List.filterMap_map, Point.toSeg]
          simp only [List.flatMap_cons, oneCall, hco, List.cons_append, List.nil_append, paint, List.getLast?_concat, List.dropLast_concat, this,
            List.append_assoc]
      · refine ⟨.qcurve a (cur.map (·.pt)) p.pt :: l, b, ?_, hb, by simp, ?_⟩
        · rw [List.map_cons, named, hp]; exact .qcurve h1
        · intro s l0 evs
          rw [List.map_cons, Point.item, hp, group]
          have := h4 s (l0 ++ [.qcurve a (cur.map (·.pt)) p.pt]) evs
          simp only [List.map_nil] at this
          have hco : (cur.map some ++ [some p.toSeg]).map coord = (cur.map (·.pt)).map some ++ [some p.pt] := by
            simp [coord, Point.toSeg]
          simp only [List.flatMap_cons, oneCall, hco, List.cons_append, List.nil_append, paint, List.getLast?_concat, List.dropLast_concat, hall, this,
            List.append_assoc]

theorem group_snoc (m : List (Option (SegPoint P K) × Option ST)) : ∀ (l : List (Option (SegPoint P K) × Option ST)) (cur : List (Option (SegPoint P K))),
    (l = [] → cur = []) → (∀ x ∈ l.getLast?, x.2 ≠ none) → group cur (l ++ m) = group cur l ++ group [] m
  | [], cur, h, _ => by rw [h rfl]; rfl
  | (x, none) :: l, cur, _, he => by
    have hl : l ≠ [] := by rintro rfl; exact he (x, none) (by simp) rfl
    rw [List.cons_append, group, group]
    refine group_snoc m l _ (fun h => absurd h hl) ?_
    obtain ⟨y, ys, rfl⟩ := List.exists_cons_of_ne_nil hl
    exact he
  | (x, some t) :: l, cur, _, he => by
    rw [List.cons_append, group, group, group_snoc m l [] (fun _ => rfl) ?_]
    · rfl
    · intro y hy
      obtain ⟨z, zs, rfl⟩ := List.exists_cons_of_ne_nil (l := l) (by rintro rfl; simp at hy)
      exact he y hy

theorem flush_closed (implied : Bool) {segs : List (Segment P K)} {x : SegPoint P K} {evs : List (SEvent P C)} (hm : ∀ s ∈ segs, s.1 ≠ .move)
    (hx : (segs.getLast?.bind fun s => s.2.getLast?) = some (some x)) (he : segmentCalls true implied segs = .ok evs) :
    flushSegments implied segs = .ok (.moveTo x.pt :: (evs ++ [.closePath])) := by
  unfold flushSegments
  split
  · simp at hx
  · next h => exact absurd rfl (hm _ List.mem_cons_self)
  · rw [hx, he]; simp

theorem drawable_of_types {L : List (Point P K)} (hg : ∀ t, some t ∈ (L.map fun p => p.seg.map stName) → t = c!"move" ∨ t = c!"line" ∨ t = c!"curve" ∨ t = c!"qcurve")
    (hk : ∀ p ∈ L, ∀ s, p.seg ≠ some (.other s)) (hm : ∀ p ∈ L, p.seg ≠ some .move) : DrawableTypes L := by
  intro p hp
  rcases h : p.seg with _ | t
  · exact .inl rfl
  · have h1 := hk p hp
    have h2 := hm p hp
    rw [h] at h1 h2
    cases t <;> simp_all

theorem no_move_after {L : List (Option Str)} (hg : GoodContour L) {a b : List (Option Str)} {x : Option Str} (h : L = a ++ x :: b) : some c!"move" ∉ b := by
  intro hm
  obtain ⟨u, v, rfl⟩ := List.append_of_mem hm
  have := hg.move (a ++ x :: u) v (by rw [h]; simp)
  simp at this

theorem first_on (L : List (Point P K)) : (∀ p ∈ L, p.seg = none) ∨ ∃ pre q post, L = pre ++ q :: post ∧ q.seg ≠ none ∧ ∀ p ∈ pre, p.seg = none := by
  induction L with
  | nil => exact .inl (by simp)
  | cons p L ih =>
    by_cases hp : p.seg = none
    · rcases ih with ih | ⟨pre, q, post, rfl, hq, hpre⟩
      · left; intro x hx; rcases List.mem_cons.1 hx with rfl | hx
        · exact hp
        · exact ih x hx
      · refine .inr ⟨p :: pre, q, post, rfl, hq, ?_⟩
        intro x hx; rcases List.mem_cons.1 hx with rfl | hx
        · exact hp
        · exact hpre x hx
    · exact .inr ⟨[], p, L, rfl, hp, by simp⟩

theorem getLast?_items {l : List (Point P K)} (h : ∀ p ∈ l.getLast?, p.seg ≠ none) : ∀ x ∈ (l.map Point.item).getLast?, x.2 ≠ none := by
  intro x hx
  rw [List.getLast?_map] at hx
  obtain ⟨p, hp, rfl⟩ := Option.map_eq_some_iff.1 hx
  exact h p hp

theorem group_last (x : Option (SegPoint P K)) (t : ST) : ∀ (l : List (Option (SegPoint P K) × Option ST)) (cur : List (Option (SegPoint P K))),
    ∃ init offs, group cur (l ++ [(x, some t)]) = init ++ [(t, offs ++ [x])]
  | [], cur => ⟨[], cur, by simp [group]⟩
  | (y, none) :: l, cur => by
    rw [List.cons_append, group]
    exact group_last x t l _
  | (y, some t') :: l, cur => by
    obtain ⟨init, offs, h⟩ := group_last x t l []
    exact ⟨_ :: init, offs, by rw [List.cons_append, group, h]; rfl⟩

theorem segs_snoc_line {a b : P} {offs : List P} {r : List (P × Option Str)} {l : List (Seg P)} (q : P) (h : Segs a offs r l) (hb : ∀ x ∈ r.getLast?, b = x.1) (hn : r = [] → b = a) :
    Segs a offs (r ++ [(q, some c!"line")]) (l ++ [.line b q]) := by
  induction h with
  | nil a => rw [hn rfl]; exact .line (.nil q)
  | @off a offs p r l h ih =>
    refine .off (ih ?_ ?_)
    · intro x hx
      obtain ⟨y, ys, rfl⟩ := List.exists_cons_of_ne_nil (l := r) (by rintro rfl; simp at hx)
      exact hb x hx
    · rintro rfl
      generalize ho : offs ++ [p] = o at h
      cases h
      simp at ho
  | @line a p r l h ih => 
    refine .line (ih ?_ ?_)
    · intro x hx
      obtain ⟨y, ys, rfl⟩ := List.exists_cons_of_ne_nil (l := r) (by rintro rfl; simp at hx)
      exact hb x hx
    · rintro rfl; exact hb _ rfl
  | @curve a p offs r l h ih => 
    refine .curve (ih ?_ ?_)
    · intro x hx
      obtain ⟨y, ys, rfl⟩ := List.exists_cons_of_ne_nil (l := r) (by rintro rfl; simp at hx)
      exact hb x hx
    · rintro rfl; exact hb _ rfl
  | @qcurve a p offs r l h ih => 
    refine .qcurve (ih ?_ ?_)
    · intro x hx
      obtain ⟨y, ys, rfl⟩ := List.exists_cons_of_ne_nil (l := r) (by rintro rfl; simp at hx)
      exact hb x hx
    · rintro rfl; exact hb _ rfl

theorem contour_drawn [DecidableEq P] (L : List (Point P K)) (hL : L ≠ []) (hg : GoodContour (L.map fun p => p.seg.map stName))
    (hk : ∀ p ∈ L, ∀ s, p.seg ≠ some (.other s)) :
    ∃ (evs : List (SEvent P C)) (p q : Spec.Draw.Path P), toSegments false L = .ok evs ∧ IsPath (L.map named) p ∧ SamePath p q ∧
      ∀ r, paint .idle (evs ++ r) = (paint .idle r).map (.inl q :: ·) := by
  obtain ⟨p, rest, rfl⟩ := List.exists_cons_of_ne_nil hL
  by_cases h2 : rest = []
  · subst h2
    refine ⟨[.moveTo p.pt, .endPath], .open p.pt [], .open p.pt [], rfl, .dot _ _, .refl _, fun r => rfl⟩
  have hlen : 2 ≤ (p :: rest).length := by
    obtain ⟨x, xs, rfl⟩ := List.exists_cons_of_ne_nil h2
    simp
  have hcyc : Cyc ((p :: rest).map fun p => p.seg.map stName) := fun a b he => hg.line a b _ he (.inr rfl)
  by_cases hp : p.seg = some .move
  · have hnm : ∀ x ∈ rest, x.seg ≠ some .move := by
      intro x hx hm
      refine no_move_after hg (a := []) (x := some c!"move") (b := rest.map fun p => p.seg.map stName) (by simp [hp, stName]) ?_
      exact List.mem_map.2 ⟨x, hx, by rw [hm]; rfl⟩
    have hd : DrawableTypes rest := drawable_of_types (fun t ht => hg.types t (by simp only [List.map_cons, List.mem_cons]; exact .inr ht))
      (fun x hx => hk x (List.mem_cons_of_mem _ hx)) hnm
    have hl : LinesAlone rest := by
      have := linesAlone_of_cyc hcyc
      unfold LinesAlone at this ⊢
      exact this.tail
    have hend : ∀ x ∈ rest.getLast?, x.seg ≠ none := by
      intro x hx hn
      have h1 := hg.line [] (rest.map fun p => p.seg.map stName) c!"move" (by simp [hp, stName]) (.inl rfl)
      obtain ⟨ys, hys⟩ := List.getLast?_eq_some_iff.1 hx
      refine h1 (ys.map fun p => p.seg.map stName) ?_
      rw [hys]; simp [hn]
    obtain ⟨l, b, hs, -, -, hpaint⟩ := paint_group (C := C) rest [] p.pt hd hl (by simp) (by simp) hend
    have hgood := group_good rest [] (by simp) hl (by simp) hd
    have hcalls := segmentCalls_all (C := C) false false _ hgood (.inr (.inl rfl))
    refine ⟨.moveTo p.pt :: ((group [] (rest.map Point.item)).flatMap oneCall ++ [.endPath]), .open p.pt l, .open p.pt l, ?_, ?_, .refl _, ?_⟩
    · rw [toSegments, segmentsOf_open p rest hp]
      simp only [flushSegments, hcalls]
      rfl
    · rw [List.map_cons, named, hp]
      exact .open (by simpa using h2) hs
    · intro r
      have := hpaint p.pt [] (.endPath :: r)
      simp only [List.map_nil] at this
      simp only [List.cons_append, paint, List.append_assoc, List.nil_append, this]
  · have hm0 : ∀ x ∈ p :: rest, x.seg ≠ some .move := by
      intro x hx hm
      rcases List.mem_cons.1 hx with rfl | hx
      · exact hp hm
      · refine no_move_after hg (a := []) (x := p.seg.map stName) (b := rest.map fun p => p.seg.map stName) rfl ?_
        exact List.mem_map.2 ⟨x, hx, by rw [hm]; rfl⟩
    rcases first_on (p :: rest) with hoff | ⟨pre, q, post, hsplit, hq, hpre⟩
    · have hall : ∀ l : List (Point P K), allSome (l.map fun p => some p.pt) = some (l.map (·.pt)) := by
        intro l; induction l with
        | nil => rfl
        | cons x l ih => simp [allSome, ih]
      refine ⟨[.qCurveTo ((p :: rest).map (fun p => some p.pt) ++ [none]), .closePath], .loop (((p :: rest).map named).map Prod.fst),
        .loop (((p :: rest).map named).map Prod.fst), ?_, .loop (by rw [List.length_map]; exact hlen) ?_, .refl _, ?_⟩
      · rw [toSegments, segmentsOf_off _ hoff hlen]
        simp only [flushSegments, List.getLast?_singleton, Option.bind_some, List.getLast?_concat, segmentCalls, segmentCall]
        simp [coord, Point.toSeg]
      · intro x hx
        obtain ⟨y, hy, rfl⟩ := List.mem_map.1 hx
        simp [named, hoff y hy]
      · intro r
        simp only [List.cons_append, List.nil_append, paint, List.getLast?_concat, List.dropLast_concat, hall, List.map_map]
        rfl
    · rw [hsplit] at hg hk hlen hcyc hm0 ⊢
      have hhead : ∀ x ∈ (pre ++ q :: post).head?, x.seg ≠ some .move := fun x hx => hm0 x (List.mem_of_mem_head? hx)
      have hseg := segmentsOf_closed pre post q hq hpre hhead hlen
      have hmem : ∀ x ∈ post ++ pre ++ [q], x ∈ pre ++ q :: post := by
        intro x hx
        simp only [List.mem_append, List.mem_cons] at hx ⊢
        tauto
      have hd0 : DrawableTypes (pre ++ q :: post) := drawable_of_types hg.types hk hm0
      have hd : DrawableTypes (post ++ pre ++ [q]) := fun x hx => hd0 x (hmem x hx)
      have hl : LinesAlone (post ++ pre ++ [q]) := by
        apply linesAlone_of_cyc
        have : Cyc ((post.map fun p => p.seg.map stName) ++ ((pre ++ [q]).map fun p => p.seg.map stName)) := by
          apply cyc_rotate
          rw [← List.map_append, List.append_assoc]
          exact hcyc
        rw [← List.map_append, ← List.append_assoc] at this
        exact this
      have hgood := group_good (post ++ pre ++ [q]) [] (by simp) hl (by simp) hd
      have hnomove : ∀ s ∈ group [] ((post ++ pre ++ [q]).map Point.item), s.1 ≠ .move := by
        intro s hs hm
        have := (hgood s hs).2.2.1
        rw [hm] at this
        simp at this
      obtain ⟨t, hqt⟩ := Option.ne_none_iff_exists'.1 hq
      have htm : stName t ≠ c!"move" := by
        have h1 := hm0 q (by simp)
        have h2 := hk q (by simp)
        rw [hqt] at h1 h2
        cases t <;> simp_all [stName]
      have hne : post ++ pre ≠ [] := by
        intro h
        have := congrArg List.length h
        simp only [List.length_append, List.length_nil, List.length_cons] at this hlen
        omega
      have hispath : ∀ l, Segs q.pt [] ((post ++ pre ++ [q]).map named) l → IsPath ((pre ++ q :: post).map named) (.closed q.pt l) := by
        intro l hs
        rw [List.map_append, List.map_cons]
        have hn : named q = (q.pt, some (stName t)) := by rw [named, hqt]; rfl
        rw [hn]
        refine .closed ?_ htm ?_ ?_
        · intro x hx
          obtain ⟨y, hy, rfl⟩ := List.mem_map.1 hx
          simp [named, hpre y hy]
        · rw [← List.map_append]; simpa using hne
        · simpa [hn] using hs
      by_cases hline : t = .line
      · subst hline
        have hinit : ∀ x ∈ (post ++ pre).getLast?, x.seg ≠ none := by
          intro x hx hn
          obtain ⟨ys, hys⟩ := List.getLast?_eq_some_iff.1 hx
          unfold LinesAlone at hl
          rw [hys, List.append_assoc, List.isChain_append] at hl
          exact (List.isChain_cons_cons.1 hl.2.1).1 hqt hn
        have hd1 : DrawableTypes (post ++ pre) := fun x hx => hd x (List.mem_append_left _ hx)
        have hl1 : LinesAlone (post ++ pre) := by
          unfold LinesAlone at hl ⊢
          exact (List.isChain_append.1 hl).1
        have hgood1 := group_good (post ++ pre) [] (by simp) hl1 (by simp) hd1
        obtain ⟨l, b, hs, hb, hb', hpaint⟩ := paint_group (C := C) (post ++ pre) [] q.pt hd1 hl1 (by simp) (by simp) hinit
        have hgr : group [] ((post ++ pre ++ [q]).map Point.item) = group [] ((post ++ pre).map Point.item) ++ [(.line, [some q.toSeg])] := by
          rw [List.map_append, group_snoc _ _ _ (fun _ => rfl) (getLast?_items hinit)]
          simp [Point.item, hqt, group]
        have hcalls := segmentCalls_noClosing (C := C) (group [] ((post ++ pre).map Point.item)) q.toSeg hgood1
        rw [← hgr] at hcalls
        have hflush := flush_closed false hnomove (x := q.toSeg) (by rw [hgr]; simp) hcalls
        refine ⟨_, .closed q.pt (l ++ [.line b q.pt]), .closed q.pt (if b = q.pt then l else l ++ [.line b q.pt]),
          by rw [toSegments, hseg]; exact hflush, hispath _ ?_, ?_, ?_⟩
        · have hn : [q].map named = [(q.pt, some c!"line")] := by simp [named, hqt, stName]
          rw [List.map_append, hn]
          refine segs_snoc_line q.pt hs ?_ (fun h => hb' (by simpa using h))
          intro x hx
          rw [List.getLast?_map] at hx
          obtain ⟨y, hy, rfl⟩ := Option.map_eq_some_iff.1 hx
          exact hb y hy
        · split
          · next h => rw [h]; exact .closing _ _
          · exact .refl _
        · intro r
          have := hpaint q.pt [] (.closePath :: r)
          simp only [List.map_nil] at this
          simp only [Point.toSeg, List.cons_append, paint, List.append_assoc, List.nil_append, this]
      · have hend : ∀ x ∈ (post ++ pre ++ [q]).getLast?, x.seg ≠ none := by simp [hq]
        obtain ⟨l, b, hs, hb, -, hpaint⟩ := paint_group (C := C) (post ++ pre ++ [q]) [] q.pt hd hl (by simp) (by simp) hend
        have hbq : b = q.pt := hb q (by simp)
        subst hbq
        obtain ⟨init, offs, hgr⟩ := group_last (some q.toSeg) t ((post ++ pre).map Point.item) ([] : List (Option (SegPoint P K)))
        have hgr : group [] ((post ++ pre ++ [q]).map Point.item) = init ++ [(t, offs ++ [some q.toSeg])] := by
          rw [← hgr]; simp [Point.item, hqt]
        have hcalls := segmentCalls_all (C := C) true false _ hgood (.inr (.inr (by rw [hgr]; simpa using hline)))
        have hflush := flush_closed false hnomove (x := q.toSeg) (by rw [hgr]; simp) hcalls
        refine ⟨_, .closed q.pt l, .closed q.pt l, by rw [toSegments, hseg]; exact hflush, hispath _ hs, .refl _, ?_⟩
        intro r
        have := hpaint q.pt [] (.closePath :: r)
        simp only [List.map_nil] at this
        have h0 : paint (C := C) .idle (.moveTo q.toSeg.pt :: ((group [] ((post ++ pre ++ [q]).map Point.item)).flatMap oneCall ++ [.closePath]) ++ r) =
            paint (.path q.pt q.pt []) ((group [] ((post ++ pre ++ [q]).map Point.item)).flatMap oneCall ++ .closePath :: r) := by
          simp only [List.cons_append, paint, List.append_assoc (bs := [SEvent.closePath])]
          rfl
        rw [h0, this]
        simp [paint]

theorem runSeg_points (pre pts : List (Point P K)) :
    runPen (segmentPenStep (C := C) false) (some pre) (pts.map .addPoint) = .ok (some (pre ++ pts), []) := by
  induction pts generalizing pre with
  | nil => simp [runPen]
  | cons p pts ih =>
    simp only [List.map_cons, runPen, segmentPenStep]
    rw [ih]
    simp

theorem runSeg_contour (i : Option Str) (pts : List (Point P K)) {evs : List (SEvent P C)} (h : toSegments false pts = .ok evs) :
    runPen (segmentPenStep false) none (.beginPath i :: (pts.map .addPoint ++ [.endPath])) = .ok (none, evs) := by
  rw [runPen]
  simp only [segmentPenStep]
  rw [runPen_append _ _ _ _ _ _ (runSeg_points [] pts)]
  simp [runPen, segmentPenStep, h]

end Verif.PointPens

namespace Verif.GlyphSet
open Verif Verif.PointPens Verif.Spec.Draw Verif.Spec.Glif

/-- The point a call adds. -/
def penPoint (p : Pt) : Point PyVal PyVal := ⟨p.pt, segmentTypeOf p.segmentType, decide (p.smooth = .bool true), strArg p.name, p.identifier⟩

theorem penPoint_type {p : Pt} (h : (p.segmentType = .none ∧ p.smooth = .bool false) ∨ ∃ t b, p.segmentType = .str t ∧ t ≠ c!"offcurve" ∧ p.smooth = .bool b) :
    (penPoint p).seg.map stName = fileType p.segmentType := by
  rcases h with ⟨h, -⟩ | ⟨t, b, h, ht, -⟩
  · simp [penPoint, segmentTypeOf, fileType, h]
  · simp only [penPoint, segmentTypeOf, fileType, h, if_neg ht, Option.map_some, Option.some.injEq]
    split
    · next h => exact h.symm
    split
    · next h => exact h.symm
    split
    · next h => exact h.symm
    split
    · next h => exact h.symm
    · rfl

theorem item_drawn (it : Item) (hg : GoodItem it) : ∃ evs, runPen (segmentPenStep false) none (it.calls.map penEvent) = .ok (none, evs) ∧
    ((Visible it = false ∧ evs = []) ∨ (Visible it = true ∧ ∃ x, Drawn it x ∧ ∀ r, paint .idle (evs ++ r) = (paint .idle r).map (x :: ·))) := by
  cases it with
  | component g t i =>
    refine ⟨[.addComponent (g, t)], rfl, .inr ⟨rfl, _, .component g t i, fun r => rfl⟩⟩
  | contour i ps =>
    have hcalls : (Item.contour i ps).calls.map penEvent = .beginPath (strArg i) :: ((ps.map penPoint).map .addPoint ++ [.endPath]) := by
      simp [Item.calls, penEvent, Function.comp_def, Pt.call, penPoint]
    rw [hcalls]
    by_cases hps : ps = []
    · subst hps
      exact ⟨[], runSeg_contour _ _ rfl, .inl ⟨rfl, rfl⟩⟩
    · obtain ⟨hgc, hpt⟩ := hg
      have htypes : (ps.map penPoint).map (fun p => p.seg.map stName) = ps.map fun p => fileType p.segmentType := by
        rw [List.map_map]
        exact List.map_congr_left fun p hp => penPoint_type (hpt p hp)
      have hnamed : (ps.map penPoint).map named = ps.map fun p => (p.pt, fileType p.segmentType) := by
        rw [List.map_map]
        exact List.map_congr_left fun p hp => by simp only [Function.comp, named, penPoint_type (hpt p hp)]; rfl
      obtain ⟨evs, p, q, h1, h2, h3, h4⟩ := contour_drawn (C := PyVal × PyVal) (ps.map penPoint) (by simpa using hps) (by rw [htypes]; exact hgc) (by
        intro x hx s hs
        obtain ⟨y, hy, rfl⟩ := List.mem_map.1 hx
        have h5 := penPoint_type (hpt y hy)
        rw [hs] at h5
        have h6 := hgc.types s (List.mem_map.2 ⟨y, hy, h5.symm⟩)
        have h7 : segmentTypeOf y.segmentType = some (.other s) := hs
        rcases hpt y hy with ⟨h8, -⟩ | ⟨t, b, h8, -, -⟩
        · rw [h8] at h7; cases h7
        · rw [h8] at h5 h7
          have : t = s := by
            simp only [fileType] at h5
            split at h5
            · cases h5
            · simpa [stName] using h5.symm
          subst this
          rcases h6 with rfl | rfl | rfl | rfl <;> simp [segmentTypeOf] at h7)
      rw [hnamed] at h2
      refine ⟨evs, runSeg_contour _ _ h1, .inr ⟨?_, .inl q, .contour h2 h3, h4⟩⟩
      obtain ⟨x, xs, rfl⟩ := List.exists_cons_of_ne_nil hps
      rfl

theorem drawing_drawn : ∀ (d : List Item), (∀ it ∈ d, GoodItem it) → ∃ evs items, runPen (segmentPenStep false) none ((drawing d).map penEvent) = .ok (none, evs) ∧
    paint .idle evs = some items ∧ List.Forall₂ Drawn (d.filter Visible) items
  | [], _ => ⟨[], [], rfl, rfl, .nil⟩
  | it :: d, h => by
    obtain ⟨e1, h1, h2⟩ := item_drawn it (h it (by simp))
    obtain ⟨e2, items, h3, h4, h5⟩ := drawing_drawn d fun x hx => h x (List.mem_cons_of_mem _ hx)
    have hrun : runPen (segmentPenStep false) none ((drawing (it :: d)).map penEvent) = .ok (none, e1 ++ e2) := by
      rw [drawing, List.flatMap_cons, List.map_append, runPen_append _ _ _ _ _ _ h1]
      rw [drawing] at h3
      rw [h3]
    rcases h2 with ⟨hv, rfl⟩ | ⟨hv, x, hx, hp⟩
    · refine ⟨_, items, hrun, h4, ?_⟩
      rw [List.filter_cons_of_neg (by simp [hv])]
      exact h5
    · refine ⟨_, x :: items, hrun, by rw [hp, h4]; rfl, ?_⟩
      rw [List.filter_cons_of_pos hv]
      exact .cons hx h5

end Verif.GlyphSet

namespace Verif.PointPens
open Verif Verif.Spec.PointPens Verif.Spec.Draw Verif.Spec.Glif

variable {P : Type}

theorem segs_unique {a : P} {offs : List P} {l : List (P × Option Str)} {s t : List (Seg P)} (hs : Segs a offs l s) (ht : Segs a offs l t) : s = t := by
  induction hs generalizing t with
  | nil a => cases ht; rfl
  | off _ ih => cases ht with | off h => exact ih h
  | line _ ih => cases ht with | line h => rw [ih h]
  | curve _ ih => cases ht with | curve h => rw [ih h]
  | qcurve _ ih => cases ht with | qcurve h => rw [ih h]

theorem split_on {x : P × Option Str} {y : P × Option Str} : ∀ {u v u' v' : List (P × Option Str)}, (∀ z ∈ u, z.2 = none) → (∀ z ∈ u', z.2 = none) → x.2 ≠ none → y.2 ≠ none →
    u ++ x :: v = u' ++ y :: v' → u = u' ∧ x = y ∧ v = v'
  | [], v, [], v', _, _, _, _, h => by simp at h; exact ⟨rfl, h.1, h.2⟩
  | [], v, b :: u', v', _, hu', hx, _, h => by
    simp at h
    exact absurd (by rw [h.1]; exact hu' b (by simp)) hx
  | b :: u, v, [], v', hu, _, _, hy, h => by
    simp at h
    exact absurd (by rw [← h.1]; exact hu b (by simp)) hy
  | b :: u, v, c :: u', v', hu, hu', hx, hy, h => by
    simp at h
    obtain ⟨h1, h2, h3⟩ := split_on (fun z hz => hu z (by simp [hz])) (fun z hz => hu' z (by simp [hz])) hx hy h.2
    exact ⟨by rw [h.1, h1], h2, h3⟩

theorem isPath_unique {l : List (P × Option Str)} {p q : Spec.Draw.Path P} (hp : IsPath l p) (hq : IsPath l q) : p = q := by
  cases hp with
  | dot a t =>
    generalize hl : [(a, t)] = l at hq
    cases hq with
    | dot b u => cases hl; rfl
    | «open» hr _ => cases hl; exact absurd rfl hr
    | @closed pre post b u segs hpre ht hne _ =>
      cases pre with
      | nil => simp at hl; simp [← hl.2] at hne
      | cons x pre => simp at hl
    | loop h _ => subst hl; simp at h
  | @«open» a r segs hr hs =>
    generalize hl : (a, some c!"move") :: r = l at hq
    cases hq with
    | dot b u => cases hl; exact absurd rfl hr
    | «open» hr' hs' => cases hl; rw [segs_unique hs hs']
    | @closed pre post b u segs hpre ht hne _ =>
      cases pre with
      | nil => simp at hl; exact absurd hl.1.2.symm ht
      | cons x pre =>
        simp at hl
        have := hpre x (by simp)
        rw [← hl.1] at this; cases this
    | loop h h' =>
      subst hl
      have := h' _ List.mem_cons_self
      cases this
  | @closed pre post a t segs hpre ht hne hs =>
    generalize hl : pre ++ (a, some t) :: post = l at hq
    cases hq with
    | dot b u =>
      cases pre with
      | nil => simp at hl; simp [hl.2] at hne
      | cons x pre => simp at hl
    | «open» hr' hs' =>
      cases pre with
      | nil => simp at hl; exact absurd hl.1.2 ht
      | cons x pre =>
        simp at hl
        have := hpre x (by simp)
        rw [hl.1] at this; cases this
    | @closed pre' post' b u segs hpre' ht' hne' hs' =>
      obtain ⟨rfl, he, rfl⟩ := split_on hpre hpre' (by simp) (by simp) hl
      cases he
      rw [segs_unique hs hs']
    | loop h h' =>
      subst hl
      have := h' (a, some t) (by simp)
      cases this
  | loop h h' =>
    cases hq with
    | dot b u => simp at h
    | «open» hr' hs' => exact nomatch h' _ List.mem_cons_self
    | @closed pre' post' b u segs hpre' ht' hne' hs' => exact nomatch h' (b, some u) (by simp)
    | loop => rfl

end Verif.PointPens
