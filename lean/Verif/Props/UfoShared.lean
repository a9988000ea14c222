import Verif.Proofs.UfoShared
import Verif.Props.UfoFont
import Verif.Props.UfoVersion
/-! Several programs at work on one UFO: C101. -/
namespace Verif.Props
open Verif Verif.FS Verif.IO Verif.Ufo Verif.Spec.Ufo

/-! ### C101 -/

/-- The start of a schedule. -/
theorem joint_start (E : FontInfo.Env) (L : Casing) (S : Nat → Str → Prop) (s : Shared) (hwf : Dict.WF s.fs.nodes)
    (hl : ∀ u ∈ s.users, Dict.WF u.writer.layers ∧ LayerDirs u.writer.layers) (sched : List (Nat × FontCall))
    (hk : ∀ (i : Nat) u, s.users[i]? = some u → KeepsTo E L (S i) (u.on s.fs) (callsOf i sched)) :
    Joint E L S s.fs.canon s (fun i => match s.users[i]? with | some u => u.on s.fs | none => ⟨⟨0, [], false, false, none⟩, s.fs, []⟩) sched := by
  refine ⟨rfl, hwf, fun i u hu => ?_, fun i u hu => ?_, fun i u hu => ?_, fun i u hu => ?_, fun i u hu => ?_⟩
  all_goals try rw [hu]
  · rfl
  · exact ⟨(hl u (List.mem_of_getElem? hu)).1, (hl u (List.mem_of_getElem? hu)).2⟩
  · exact Alike.refl _ _ _
  · exact hwf
  · exact hk i u hu

/-- Programs that share a UFO, each with a writer of its own, and that keep to different entries of the root directory: however their calls are interleaved, each program
ends in the same state as if it had run alone, each of its calls ended in the same way, and its entries hold the same. -/
theorem C101_alone (E : FontInfo.Env) (L : Casing) (S : Nat → Str → Prop) (s : Shared) (hS : Divided s.fs.canon S) (hwf : Dict.WF s.fs.nodes)
    (hl : ∀ u ∈ s.users, Dict.WF u.writer.layers ∧ LayerDirs u.writer.layers) (sched : List (Nat × FontCall))
    (hk : ∀ (i : Nat) u, s.users[i]? = some u → KeepsTo E L (S i) (u.on s.fs) (callsOf i sched)) (i : Nat) (u : User) (hu : s.users[i]? = some u) :
    let alone := (u.on s.fs).run E L (callsOf i sched)
    (s.run E L sched).users[i]? = some ⟨alone.writer, alone.sets⟩ ∧ s.outcomes E L i sched = (u.on s.fs).results E L (callsOf i sched) ∧
      ∀ e p, S i e → (s.run E L sched).fs.node? (e :: p) = alone.fs.node? (e :: p) := by
  obtain ⟨h1, h2⟩ := joint_run E L hS sched (joint_start E L S s hwf hl sched hk)
  have h3 := h2 i u hu
  have hsome := users_run E L sched s i
  rw [hu, Option.isSome_some, Option.isSome_iff_exists] at hsome
  obtain ⟨u', hu'⟩ := hsome
  have h4 := h1.same i u' hu'
  have h5 := h1.shares i u' hu'
  simp only [hu] at h3 h4 h5
  refine ⟨?_, h3, fun e p he => h5.node _ (paths_cons he)⟩
  rw [hu', h4]
  rfl

/-- What is in no program's part of the UFO is as before. -/
theorem C101_rest (E : FontInfo.Env) (L : Casing) (S : Nat → Str → Prop) (s : Shared) (hS : Divided s.fs.canon S) (hwf : Dict.WF s.fs.nodes)
    (hl : ∀ u ∈ s.users, Dict.WF u.writer.layers ∧ LayerDirs u.writer.layers) (sched : List (Nat × FontCall))
    (hk : ∀ (i : Nat) u, s.users[i]? = some u → KeepsTo E L (S i) (u.on s.fs) (callsOf i sched)) (e : Str) (he : ∀ i, i < s.users.length → ¬ S i e) (p : Path) :
    (s.run E L sched).fs.node? (e :: p) = s.fs.node? (e :: p) :=
  joint_rest E L hS sched (joint_start E L S s hwf hl sched hk) e he p

/-- So the result does not depend on the schedule: two schedules with the same calls of each program leave the programs in the same states and the same UFO, and the calls end in the same way. -/
theorem C101_schedule (E : FontInfo.Env) (L : Casing) (S : Nat → Str → Prop) (s : Shared) (hS : Divided s.fs.canon S) (hwf : Dict.WF s.fs.nodes)
    (hl : ∀ u ∈ s.users, Dict.WF u.writer.layers ∧ LayerDirs u.writer.layers) (sched sched' : List (Nat × FontCall)) (hsame : ∀ i, callsOf i sched = callsOf i sched')
    (hk : ∀ (i : Nat) u, s.users[i]? = some u → KeepsTo E L (S i) (u.on s.fs) (callsOf i sched)) :
    (s.run E L sched).users = (s.run E L sched').users ∧ (∀ q, (s.run E L sched).fs.node? q = (s.run E L sched').fs.node? q) ∧
      ∀ i, i < s.users.length → s.outcomes E L i sched = s.outcomes E L i sched' := by
  have hk' : ∀ (i : Nat) u, s.users[i]? = some u → KeepsTo E L (S i) (u.on s.fs) (callsOf i sched') := fun i u hu => hsame i ▸ hk i u hu
  refine ⟨List.ext_getElem? fun i => ?_, fun q => ?_, fun i hi => ?_⟩
  · have h1 := users_run E L sched s i
    have h2 := users_run E L sched' s i
    cases hu : s.users[i]? with
    | none =>
      rw [hu] at h1 h2
      rw [Option.isSome_none, Option.isSome_eq_false_iff, Option.isNone_iff_eq_none] at h1 h2
      rw [h1, h2]
    | some u =>
      have a := (C101_alone E L S s hS hwf hl sched hk i u hu).1
      have b := (C101_alone E L S s hS hwf hl sched' hk' i u hu).1
      rw [a, b, hsame i]
  · cases q with
    | nil => rfl
    | cons e p =>
      by_cases he : ∃ i, i < s.users.length ∧ S i e
      · obtain ⟨i, hi, he⟩ := he
        have hu : s.users[i]? = some s.users[i] := List.getElem?_eq_getElem hi
        rw [(C101_alone E L S s hS hwf hl sched hk i _ hu).2.2 e p he, (C101_alone E L S s hS hwf hl sched' hk' i _ hu).2.2 e p he, hsame i]
      · have he' : ∀ i, i < s.users.length → ¬ S i e := fun i hi h => he ⟨i, hi, h⟩
        rw [C101_rest E L S s hS hwf hl sched hk e he', C101_rest E L S s hS hwf hl sched' hk' e he']
  · have hu : s.users[i]? = some s.users[i] := List.getElem?_eq_getElem hi
    rw [(C101_alone E L S s hS hwf hl sched hk i _ hu).2.1, (C101_alone E L S s hS hwf hl sched' hk' i _ hu).2.1, hsame i]

/-- For programs that only make calls on their writers it is enough that each call concerns entries of its program. -/
theorem C101_calls (E : FontInfo.Env) (L : Casing) (S : Nat → Str → Prop) (s : Shared) (hS : Divided s.fs.canon S) (hwf : Dict.WF s.fs.nodes)
    (hl : ∀ u ∈ s.users, Dict.WF u.writer.layers ∧ LayerDirs u.writer.layers) (sched : List (Nat × Op)) (hc : ∀ i op, (i, op) ∈ sched → ∀ e, Concerns op e → S i e)
    (i : Nat) (u : User) (hu : s.users[i]? = some u) (e : Str) (p : Path) (he : S i e) :
    (s.run E L (sched.map fun x => (x.1, .ufo x.2))).fs.node? (e :: p) = (run E L (u.writer, s.fs) (sched.filterMap fun x => if x.1 = i then some x.2 else none)).2.node? (e :: p) := by
  have hk : ∀ (i : Nat) u, s.users[i]? = some u → KeepsTo E L (S i) (u.on s.fs) (callsOf i (sched.map fun x => (x.1, .ufo x.2))) := by
    intro i u hu
    rw [callsOf_ufo]
    have := hl u (List.mem_of_getElem? hu)
    refine keepsTo_ops E L _ ⟨this.1, this.2⟩ fun op hop e he => ?_
    obtain ⟨⟨j, o⟩, hj, ho⟩ := List.mem_filterMap.1 hop
    dsimp only at ho
    split at ho
    · rename_i hji
      cases ho
      subst hji
      exact hc _ _ hj e he
    · cases ho
  rw [(C101_alone E L S s hS hwf hl _ hk i u hu).2.2 e p he, callsOf_ufo]
  exact congrArg (fun w : World => w.2.node? (e :: p)) (font_run_ops E L _ (u.on s.fs))

/-- A UFO with two layers, and two programs that have opened it. -/
def shared101 : Shared :=
  let w : Writer := { version := 3, layers := [(c!"fg", c!"glyphs"), (c!"bg", c!"glyphs.bg")], havePrevious := true, validate := true, renameMap := none }
  { users := [⟨w, []⟩, ⟨w, []⟩], fs := { canon := id, nodes := [([c!"glyphs"], .dir), ([c!"glyphs.bg"], .dir)], log := [] } }

/-- Each of the two programs works on one of the layers. -/
def layer101 (i : Nat) (n : Str) (d : Bytes) : List (Nat × FontCall) :=
  [(i, .getGlyphSet (some (if i = 0 then c!"fg" else c!"bg")) (i = 0) true), (i, .set 0 (.glyphs (put51 n d))), (i, .set 0 (.glyphs .save))]

/-- Two programs that keep to the directories of two layers. -/
example : let S : Nat → Str → Prop := fun i e => (i = 0 ∧ e = c!"glyphs") ∨ (i = 1 ∧ e = c!"glyphs.bg")
    Divided shared101.fs.canon S ∧ Dict.WF shared101.fs.nodes ∧ (∀ u ∈ shared101.users, Dict.WF u.writer.layers ∧ LayerDirs u.writer.layers) ∧
      ∀ (i : Nat) u, shared101.users[i]? = some u → KeepsTo env57 asciiCasing (S i) (u.on shared101.fs) (callsOf i (layer101 0 c!"x" [1] ++ layer101 1 c!"x" [2])) := by
  have hdir : ∀ (f : Font) (c : FontCall) (d : Str), (f.sets[0]?).map GlyphSet.GlyphSet.dir = some [d] → ∀ c' e, About f (.set 0 c') e → e = d := by
    rintro f c d h c' e ⟨gs, hgs, hd⟩
    rw [hgs] at h
    have h : gs.dir = [d] := Option.some.inj h
    rw [h] at hd
    rcases hd with hd | hd
    · cases hd
    · cases hd; rfl
  refine ⟨⟨?_, ?_⟩, by unfold Dict.WF; decide +kernel, ?_, ?_⟩
  · rintro i j a b hij (⟨rfl, rfl⟩ | ⟨rfl, rfl⟩) (⟨rfl, rfl⟩ | ⟨rfl, rfl⟩)
    · exact absurd rfl hij
    · decide
    · decide
    · exact absurd rfl hij
  · rintro i a b (rfl : a = b) h; exact h
  · intro u hu
    simp only [shared101, List.mem_cons, List.not_mem_nil, or_false, or_self] at hu
    subst hu
    refine ⟨by unfold Dict.WF; decide +kernel, ?_⟩
    intro n d h
    have := Dict.mem_of_get? h
    simp only [List.mem_cons, List.not_mem_nil, or_false, Prod.mk.injEq] at this
    rcases this with ⟨-, rfl⟩ | ⟨-, rfl⟩
    · exact .inl rfl
    · exact .inr ⟨c!"bg", rfl⟩
  · intro i u hu
    rcases i with _ | _ | i
    · cases hu
      refine ⟨fun e he => .inl ⟨rfl, he⟩, fun e he => .inl ⟨rfl, hdir _ (.set 0 (.glyphs .save)) _ ?_ _ e he⟩, fun e he => .inl ⟨rfl, hdir _ (.set 0 (.glyphs .save)) _ ?_ _ e he⟩, trivial⟩ <;> decide +kernel
    · cases hu
      refine ⟨fun e he => .inr ⟨rfl, he⟩, fun e he => .inr ⟨rfl, hdir _ (.set 0 (.glyphs .save)) _ ?_ _ e he⟩, fun e he => .inr ⟨rfl, hdir _ (.set 0 (.glyphs .save)) _ ?_ _ e he⟩, trivial⟩ <;> decide +kernel
    · simp [shared101] at hu

/-- Calls of one program concern only the information on the font and its groups, those of the other one only the features. -/
example (info : Str → Option PyVal) (g : Dict Str (List Str)) (s : Str) :
    ∀ i op, (i, op) ∈ [(0, Op.info info true), (1, .features s), (0, .groups g true), (1, .features [])] →
      ∀ e, Concerns op e → (i = 0 ∧ (e = c!"fontinfo.plist" ∨ e = c!"groups.plist")) ∨ (i = 1 ∧ e = c!"features.fea") := by
  intro i op h e he
  simp only [List.mem_cons, Prod.mk.injEq, List.not_mem_nil, or_false] at h
  rcases h with ⟨rfl, rfl⟩ | ⟨rfl, rfl⟩ | ⟨rfl, rfl⟩ | ⟨rfl, rfl⟩ <;> cases he <;> simp

/-- Different parts are needed: of two programs that each add a layer and write the table of the layers, the one that writes first loses its layer, although its own calls all succeed. -/
theorem C101_needed : let sched : List (Nat × FontCall) := [(0, .getGlyphSet (some c!"a") false true), (1, .getGlyphSet (some c!"b") false true), (0, .ufo (.layerContents none true)), (1, .ufo (.layerContents none true))]
    let s := shared101.run env57 asciiCasing sched
    (getLayerNames fractionCodec s.fs 3 true).toOption = some [c!"fg", c!"bg", c!"b"] ∧ (shared101.outcomes env57 asciiCasing 0 sched).map Except.toOption = [some (), some ()] ∧
      (getLayerNames fractionCodec (shared101.run env57 asciiCasing (sched.take 3)).fs 3 true).toOption = some [c!"fg", c!"bg", c!"a"] := by decide +kernel

/-- So it is with two glyph sets for one layer: the glyph of the program that writes the contents first is not in the layer. -/
theorem C101_needed_glyphs : let sched : List (Nat × FontCall) := [(0, .getGlyphSet (some c!"fg") true true), (1, .getGlyphSet (some c!"fg") true true),
      (0, .set 0 (.glyphs (put51 c!"x" [1]))), (1, .set 0 (.glyphs (put51 c!"y" [2]))), (0, .set 0 (.glyphs .save)), (1, .set 0 (.glyphs .save))]
    let s := shared101.run env57 asciiCasing sched
    ((GlyphSet.openGlyphSet fractionCodec s.fs [c!"glyphs"] 3 true).toOption.map fun gs => Dict.keys gs.contents) = some [c!"y"] ∧
      (shared101.outcomes env57 asciiCasing 0 sched).map Except.toOption = [some (), some (), some ()] := by decide +kernel

end Verif.Props
