import Verif.Proofs.UfoData
import Verif.Props.KerningReader
import Verif.Props.Converters
/-! Lemmas about loading groups and kerning of a UFO 1 or 2 and saving them again. -/
namespace Verif.Ufo
open Verif Verif.FS Verif.IO Verif.Kerning Verif.Converters Verif.Validators Verif.FontInfo Verif.Spec.Ufo Verif.Spec.Plist Verif.Spec.Validators
open Verif.Spec.Converters Verif.Props

/-- While the files do not change, what a reader returns comes from one conversion. -/
theorem run_view (conv : PyVal → PyVal → Except Exc (Converted PyVal)) {K G : PyVal} {r : Converted PyVal} (hr : conv K G = .ok r) :
    ∀ (cs : List KerningReader.Call), (∀ c ∈ cs, c.kerningFile = .ok K ∧ c.groupsFile = .ok G) →
      ∀ o ∈ KerningReader.run conv none cs, ∀ ret, o.2 = .ok ret → ret = view r o.1.kind
  | [], _, o, ho, _, _ => by simp [KerningReader.run] at ho
  | c :: cs, hcs, o, ho, ret, hret => by
    obtain ⟨hk, hg⟩ := hcs c (by simp)
    have ih := run_view conv hr cs fun c hc => hcs c (List.mem_cons_of_mem _ hc)
    by_cases hv : (c.validate && (KerningReader.checkedGroups G).isNone) = true
    · have hstep : KerningReader.step conv none c = (.error .ufoLibError, none) := by
        simp only [KerningReader.step, KerningReader.upConvert, hg]; rw [if_pos hv]
      simp only [KerningReader.run, hstep, List.mem_cons] at ho
      rcases ho with rfl | ho
      · cases hret
      · exact ih o ho ret hret
    · have hstep : KerningReader.step conv none c = (KerningReader.deliver c ⟨K, G, some r⟩, some ⟨K, G, some r⟩) := by
        simp only [KerningReader.step, KerningReader.upConvert, hg, hk, hr]; rw [if_neg hv]
      simp only [KerningReader.run, hstep, List.mem_cons] at ho
      rcases ho with rfl | ho
      · exact deliver_ok (k0 := K) (g0 := G) hret
      · exact deliver_ok (run_cached conv _ cs o ho ret hret).2

/-- Only setting the maps changes the map of the writer. -/
theorem run_renameMap (E : FontInfo.Env) (L : Casing) : ∀ (ops : List Op) (w : World), Layered w.1 → (∀ op ∈ ops, ∀ a b, op ≠ .maps a b) →
    (run E L w ops).1.renameMap = w.1.renameMap
  | [], _, _, _ => rfl
  | op :: ops, w, hl, h => by
    obtain ⟨-, h1, h2, -⟩ := step_spec E L w hl op
    exact (run_renameMap E L ops _ h2 fun o ho => h o (List.mem_cons_of_mem _ ho)).trans (h1 (h op (by simp)))

theorem wf_remapGroups (m : Dict Str Str) (g : Dict Str (List Str)) : (remapGroups m g).WF := by
  have h1 : ∀ (l : List (Str × List Str)) (r : Dict Str (List Str)), r.WF →
      (l.foldl (fun (r : Dict Str (List Str)) e => if m.has e.1 then r else r.set e.1 e.2) r).WF := by
    intro l
    induction l with
    | nil => exact fun r hr => hr
    | cons e l ih =>
      intro r hr
      rw [List.foldl_cons]
      refine ih _ ?_
      split
      · exact hr
      · exact Dict.wf_set hr _ _
  have h2 : ∀ (l : List (Str × List Str)) (r : Dict Str (List Str)), r.WF →
      (l.foldl (fun (r : Dict Str (List Str)) e => match m.get? e.1 with | none => r | some name => r.set name e.2) r).WF := by
    intro l
    induction l with
    | nil => exact fun r hr => hr
    | cons e l ih =>
      intro r hr
      rw [List.foldl_cons]
      refine ih _ ?_
      split
      · exact hr
      · exact Dict.wf_set hr _ _
  exact h2 _ _ (h1 _ _ Dict.wf_nil)

/-- The state in which the groups or the kerning are written. -/
theorem session_maps {E : FontInfo.Env} {L : Casing} {hp : Bool} {fs fs' : FS} {version : Int} {creator : PyVal} {w : Writer}
    (h : openWriter E.F hp fs version creator true = (fs', .ok w)) (hv : version < 3) (pre mid : List Op) (s1 s2 : Dict Str Str)
    (hmid : ∀ op ∈ mid, ∀ a b, op ≠ .maps a b) :
    (run E L (w, fs') (pre ++ .maps s1 s2 :: mid)).1.renameMap = some (flipMaps s1 s2) ∧
    (run E L (w, fs') (pre ++ .maps s1 s2 :: mid)).1.version < 3 ∧ (run E L (w, fs') (pre ++ .maps s1 s2 :: mid)).1.havePrevious = hp ∧
    Layered (run E L (w, fs') (pre ++ .maps s1 s2 :: mid)).1 ∧ (run E L (w, fs') (pre ++ .maps s1 s2 :: mid)).2.canon = fs'.canon := by
  obtain ⟨s, l, a⟩ := run_spec E L (pre ++ .maps s1 s2 :: mid) (w, fs') (openWriter_layered h)
  obtain ⟨t, k, -⟩ := run_spec E L pre (w, fs') (openWriter_layered h)
  have hver : w.version = version := (openWriter_ok h).2.2.2.1
  refine ⟨?_, ?_, s.previous.trans (openWriter_ok h).2.2.2.2.1, l, a.canon⟩
  · rw [run_append]
    show (run E L (step E L (run E L (w, fs') pre) (.maps s1 s2)).1 mid).1.renameMap = _
    rw [run_renameMap E L mid _ (step_spec E L _ k (.maps s1 s2)).2.2.1 hmid]
    show (setMaps (run E L (w, fs') pre) s1 s2).1.renameMap = _
    unfold setMaps
    rw [if_neg]
    have := t.version
    dsimp only at this
    omega
  · have := s.version
    dsimp only at this
    omega

/-- What `writeGroups` leaves in the file, in every format version. -/
theorem groups_written {E : FontInfo.Env} (hF : E.F.Lawful) {L : Casing} {w : World} (hl : Layered w.1) (post : List Op) {g d : Dict Str (List Str)} {validate : Bool}
    (hd : groupsToWrite w.1 g = d) (hwf : Dict.WF d) (ht : ∀ e ∈ d, FileText e.1 ∧ ∀ m ∈ e.2, FileText m)
    (hok : (step E L w (.groups g validate)).2 = .ok ()) (hpost : ∀ op ∈ post, Spares w.2.canon groupsName op)
    (hnew : w.1.havePrevious = true ∨ d ≠ [] ∨ w.2.exists [groupsName] = false) :
    ∃ g', getPlist E.F (run E L w (.groups g validate :: post)).2 [groupsName] (some (.dict [])) = .ok (groupsVal g') ∧ g'.Perm d := by
  obtain ⟨s2, -, l2, a2⟩ := step_spec E L w hl (.groups g validate)
  have hn := run_node? E L (step E L w (.groups g validate)).1 l2 post (c := groupsName) (by rw [a2.canon]; exact hpost) []
  show ∃ g', getPlist E.F (run E L (step E L w (.groups g validate)).1 post).2 [groupsName] (some (.dict [])) = _ ∧ _
  rw [getPlist_congr hn]
  simp only [step] at hok ⊢
  unfold writeGroups at hok ⊢
  rw [hd] at hok ⊢
  by_cases hv : (validate && !groupsValidator (groupsVal g)) = true
  · rw [if_pos hv] at hok; cases hok
  · rw [if_neg hv] at hok ⊢
    have hnew' : w.1.havePrevious = true ∨ (d.isEmpty) = false ∨ w.2.node? [groupsName] = none := by
      rcases hnew with e | e | e
      · exact .inl e
      · refine .inr (.inl ?_)
        rw [Bool.eq_false_iff, ne_eq, List.isEmpty_iff]
        exact e
      · exact .inr (.inr (node?_of_not_exists e))
    rcases writeOrRemove_ok E.F hF (fun _ => storable_groups hwf ht) hok hnew' (some (.dict [])) with ⟨-, x, hx, hs⟩ | ⟨he, hx⟩
    · obtain ⟨g', rfl, hg'⟩ := stored_groups hwf hs
      exact ⟨g', hx, hg'⟩
    · rw [List.isEmpty_iff] at he
      subst he
      exact ⟨[], getPlist_none hx _, .refl _⟩

/-- What `writeKerning` leaves in the file, in every format version. -/
theorem kerning_written {E : FontInfo.Env} (hF : E.F.Lawful) {L : Casing} {w : World} (hl : Layered w.1) (post : List Op) {k : Dict (Str × Str) PyVal}
    {d : Dict Str (Dict Str PyVal)} {validate : Bool} (hd : kerningToWrite w.1 k = d) (hwf : WFKerning d)
    (ht : ∀ r ∈ d, FileText r.1 ∧ ∀ e ∈ r.2, FileText e.1 ∧ Representable FileText e.2 ∧ IsNum e.2)
    (hok : (step E L w (.kerning k validate)).2 = .ok ()) (hpost : ∀ op ∈ post, Spares w.2.canon kerningName op)
    (hnew : w.1.havePrevious = true ∨ d ≠ [] ∨ w.2.exists [kerningName] = false) :
    ∃ k', getPlist E.F (run E L w (.kerning k validate :: post)).2 [kerningName] (some (.dict [])) = .ok (kerningVal k') ∧ WFKerning k' ∧
      ∀ a b, pairValue k' a b = pairValue d a b := by
  obtain ⟨s2, -, l2, a2⟩ := step_spec E L w hl (.kerning k validate)
  have hn := run_node? E L (step E L w (.kerning k validate)).1 l2 post (c := kerningName) (by rw [a2.canon]; exact hpost) []
  show ∃ g', getPlist E.F (run E L (step E L w (.kerning k validate)).1 post).2 [kerningName] (some (.dict [])) = _ ∧ _
  rw [getPlist_congr hn]
  simp only [step] at hok ⊢
  unfold writeKerning at hok ⊢
  rw [hd] at hok ⊢
  have hst : Storable (kerningVal d) := by
    refine storable_kerning hwf fun r hr => ⟨(ht r hr).1, fun e he => ?_⟩
    obtain ⟨t2, t3, t4⟩ := (ht r hr).2 e he
    refine ⟨t2, t3, ?_⟩
    rcases t4 with ⟨i, h | ⟨h, -⟩ | ⟨h, -⟩⟩ | ⟨f, h⟩ <;> rw [h] <;> trivial
  split at hok
  · cases hok
  · rename_i hv
    rw [if_neg hv]
    have hnew' : w.1.havePrevious = true ∨ (d.isEmpty) = false ∨ w.2.node? [kerningName] = none := by
      rcases hnew with e | e | e
      · exact .inl e
      · refine .inr (.inl ?_)
        rw [Bool.eq_false_iff, ne_eq, List.isEmpty_iff]
        exact e
      · exact .inr (.inr (node?_of_not_exists e))
    rcases writeOrRemove_ok E.F hF (fun _ => hst) hok hnew' (some (.dict [])) with ⟨-, x, hx, hs⟩ | ⟨he, hx⟩
    · obtain ⟨k', rfl, hwf', -, hpairs⟩ := stored_kerning hwf (fun r hr e he => ((ht r hr).2 e he).2.2) hs
      exact ⟨k', hx, hwf', hpairs⟩
    · rw [List.isEmpty_iff] at he
      subst he
      exact ⟨[], getPlist_none hx _, ⟨Dict.wf_nil, by simp⟩, fun _ _ => rfl⟩

end Verif.Ufo
