import Verif.Proofs.ExpatWhole
/-! Files that were cut off: bytes, documents, handler calls. -/
namespace Verif.Cut
open Verif Verif.Spec.Xml Verif.Expat

theorem utf8Decode_append (r : Bytes) : ∀ {a : Bytes} {t : Str}, utf8Decode a = some t → utf8Decode (a ++ r) = (utf8Decode r).map (t ++ ·) := by
  intro a
  have key : ∀ (c : Char) (o : Option Str) (o' : Option Str) {t : Str}, (∀ {t : Str}, o = some t → o' = (utf8Decode r).map (t ++ ·)) →
      o.map (c :: ·) = some t → o'.map (c :: ·) = (utf8Decode r).map (t ++ ·) := by
    intro c o o' t ih h
    cases o with
    | none => cases h
    | some x =>
      cases h
      rw [ih rfl]
      cases utf8Decode r <;> rfl
  fun_induction utf8Decode a with
  | case1 =>
    intro t h
    cases h
    rw [List.nil_append]
    cases utf8Decode r <;> rfl
  | case2 a s h1 ih =>
    intro t h
    rw [List.cons_append, utf8Decode.eq_def]
    dsimp only
    rw [if_pos h1]
    exact key _ _ _ ih h
  | case3 => intro t h; cases h
  | case4 a h1 b s h2 h3 ih =>
    intro t h
    rw [List.cons_append, List.cons_append, utf8Decode.eq_def]
    dsimp only
    rw [if_neg h1, if_pos h2, if_pos h3]
    exact key _ _ _ ih h
  | case5 => intro t h; cases h
  | case6 => intro t h; cases h
  | case7 a h1 b h2 c s h3 n ih =>
    intro t h
    rw [List.cons_append, List.cons_append, List.cons_append, utf8Decode.eq_def]
    dsimp only
    rw [if_neg h1, if_neg h2, if_pos h3, if_pos ih]
    exact key _ _ _ (by assumption) h
  | case8 => intro t h; cases h
  | case9 => intro t h; cases h
  | case10 a h1 b h2 c h3 d s n ih =>
    intro t h
    rw [List.cons_append, List.cons_append, List.cons_append, List.cons_append, utf8Decode.eq_def]
    dsimp only
    rw [if_neg h1, if_neg h2, if_neg h3, if_pos ih]
    exact key _ _ _ (by assumption) h
  | case11 => intro t h; cases h

theorem utf8Decode_prefix {a b : Bytes} {t s : Str} (h : a <+: b) (ht : utf8Decode a = some t) (hs : utf8Decode b = some s) : t <+: s := by
  obtain ⟨r, rfl⟩ := h
  rw [utf8Decode_append r ht] at hs
  cases hr : utf8Decode r with
  | none => rw [hr] at hs; cases hs
  | some x => rw [hr] at hs; cases hs; exact List.prefix_append _ _

theorem utf8Decode_nil : ∀ {b : Bytes}, utf8Decode b = some [] → b = []
  | [], _ => rfl
  | a :: r, h => by
    have none_ne : ∀ (c : Char) (o : Option Str), o.map (c :: ·) ≠ some [] := by intro c o; cases o <;> simp
    rw [utf8Decode.eq_def] at h
    dsimp only at h
    repeat' split at h
    all_goals first
      | exact absurd h (none_ne _ _)
      | cases h

/-- The first character of text. -/
theorem first {b : Bytes} {c : Char} {s : Str} (h : utf8Decode b = some (c :: s)) :
    ∃ x rest, b = x ++ rest ∧ utf8Decode x = some [c] ∧ utf8Decode rest = some s ∧ x.length ≤ 4 ∧ ∀ m < x.length, 0 < m → utf8Decode (x.take m) = none := by
  have inv : ∀ (d : Char) (o : Option Str), o.map (d :: ·) = some (c :: s) → d = c ∧ o = some s := by
    intro d o h
    cases o with
    | none => cases h
    | some y => simp only [Option.map_some, Option.some.injEq, List.cons.injEq] at h; exact ⟨h.1, by rw [h.2]⟩
  rw [utf8Decode.eq_def] at h
  dsimp only at h
  split at h
  · cases h
  · next a r =>
    split at h
    · next h1 =>
      obtain ⟨rfl, h2⟩ := inv _ _ h
      refine ⟨[a], r, rfl, ?_, h2, by simp, fun m hm h0 => by simp at hm; omega⟩
      simp [utf8Decode, h1]
    · next h1 =>
      split at h
      · cases h
      · next b r =>
        split at h
        · next h2 =>
          split at h
          · next h3 =>
            obtain ⟨rfl, h4⟩ := inv _ _ h
            refine ⟨[a, b], r, rfl, ?_, h4, by simp, fun m hm h0 => ?_⟩
            · rw [utf8Decode.eq_def]; dsimp only; rw [if_neg h1, if_pos h2, if_pos h3]; rfl
            · obtain rfl : m = 1 := by simp at hm; omega
              rw [show [a, b].take 1 = [a] from rfl, utf8Decode.eq_def]; dsimp only; rw [if_neg h1]
          · cases h
        · next h2 =>
          split at h
          · cases h
          · next c' r =>
            split at h
            · next h3 =>
              split at h
              · next h4 =>
                obtain ⟨rfl, h5⟩ := inv _ _ h
                refine ⟨[a, b, c'], r, rfl, ?_, h5, by simp, fun m hm h0 => ?_⟩
                · rw [utf8Decode.eq_def]; dsimp only; rw [if_neg h1, if_neg h2, if_pos h3, if_pos h4]; rfl
                · obtain rfl | rfl : m = 1 ∨ m = 2 := by simp at hm; omega
                  · rw [show [a, b, c'].take 1 = [a] from rfl, utf8Decode.eq_def]; dsimp only; rw [if_neg h1]
                  · rw [show [a, b, c'].take 2 = [a, b] from rfl, utf8Decode.eq_def]; dsimp only; rw [if_neg h1, if_neg h2]
              · cases h
            · next h3 =>
              split at h
              · cases h
              · next d r =>
                split at h
                · next h4 =>
                  obtain ⟨rfl, h5⟩ := inv _ _ h
                  refine ⟨[a, b, c', d], r, rfl, ?_, h5, by simp, fun m hm h0 => ?_⟩
                  · rw [utf8Decode.eq_def]; dsimp only; rw [if_neg h1, if_neg h2, if_neg h3, if_pos h4]; rfl
                  · obtain rfl | rfl | rfl : m = 1 ∨ m = 2 ∨ m = 3 := by simp at hm; omega
                    · rw [show [a, b, c', d].take 1 = [a] from rfl, utf8Decode.eq_def]; dsimp only; rw [if_neg h1]
                    · rw [show [a, b, c', d].take 2 = [a, b] from rfl, utf8Decode.eq_def]; dsimp only; rw [if_neg h1, if_neg h2]
                    · rw [show [a, b, c', d].take 3 = [a, b, c'] from rfl, utf8Decode.eq_def]; dsimp only; rw [if_neg h1, if_neg h2, if_neg h3]
                · cases h

/-- `firstChar` tries one byte after the other. -/
theorem firstChar_def (b : Bytes) : firstChar b =
    match utf8Decode (b.take 1) with
    | some [c] => some (c, b.drop 1)
    | _ => match utf8Decode (b.take 2) with
      | some [c] => some (c, b.drop 2)
      | _ => match utf8Decode (b.take 3) with
        | some [c] => some (c, b.drop 3)
        | _ => match utf8Decode (b.take 4) with
          | some [c] => some (c, b.drop 4)
          | _ => none := by
  unfold firstChar
  generalize utf8Decode (b.take 1) = a1
  generalize utf8Decode (b.take 2) = a2
  generalize utf8Decode (b.take 3) = a3
  generalize utf8Decode (b.take 4) = a4
  rcases a1 with _ | _ | ⟨c1, _ | _⟩ <;> rcases a2 with _ | _ | ⟨c2, _ | _⟩ <;> rcases a3 with _ | _ | ⟨c3, _ | _⟩ <;> rcases a4 with _ | _ | ⟨c4, _ | _⟩ <;> rfl

theorem firstChar_whole {x rest : Bytes} {c : Char} (h : utf8Decode x = some [c]) (hl : x.length ≤ 4) (hm : ∀ m < x.length, 0 < m → utf8Decode (x.take m) = none) :
    firstChar (x ++ rest) = some (c, rest) := by
  have h0 : x ≠ [] := by rintro rfl; cases h
  have ht : ∀ m ≤ x.length, (x ++ rest).take m = x.take m := fun m hm => List.take_append_of_le_length hm
  have hx : ∀ k, x.length = k → (x ++ rest).take k = x ∧ (x ++ rest).drop k = rest := by rintro k rfl; simp
  have h1 : 0 < x.length := List.length_pos_iff.2 h0
  rw [firstChar_def]
  by_cases e1 : x.length = 1
  · rw [(hx 1 e1).1, h, (hx 1 e1).2]
  · rw [ht 1 (by omega), hm 1 (by omega) (by omega)]
    dsimp only
    by_cases e2 : x.length = 2
    · rw [(hx 2 e2).1, h, (hx 2 e2).2]
    · rw [ht 2 (by omega), hm 2 (by omega) (by omega)]
      dsimp only
      by_cases e3 : x.length = 3
      · rw [(hx 3 e3).1, h, (hx 3 e3).2]
      · rw [ht 3 (by omega), hm 3 (by omega) (by omega)]
        dsimp only
        have e4 : x.length = 4 := by omega
        rw [(hx 4 e4).1, h, (hx 4 e4).2]

theorem firstChar_part {x p : Bytes} (hp : p <+: x) (hlt : p.length < x.length) (hm : ∀ m < x.length, 0 < m → utf8Decode (x.take m) = none) : firstChar p = none := by
  have e : ∀ m, p.take m = x.take (min m p.length) := fun m => by
    rw [List.prefix_iff_eq_take.1 hp, List.take_take]
    congr 1
    simp
    omega
  have hd : ∀ m, 0 < m → ∀ c, utf8Decode (p.take m) ≠ some [c] := by
    intro m h0 c
    by_cases hp0 : p.length = 0
    · rw [List.length_eq_zero_iff.1 hp0]; simp [utf8Decode]
    · rw [e, hm _ (by omega) (by omega)]; simp
  rw [firstChar_def]
  repeat' split
  all_goals first
    | rfl
    | (next h => exact absurd h (hd _ (by omega) _))

theorem decode_both : ∀ (n : Nat) {b : Bytes} {s : Str}, utf8Decode b = some s → b.length ≤ n → ∀ {p : Bytes}, p <+: b → ∀ m, p.length ≤ m →
    (decodeSome m p).1 <+: s ∧ (decodeSome m p).2.length < 4 ∧ (p = b → decodeSome m p = (s, [])) := by
  intro n
  induction n with
  | zero =>
    intro b s h hn p hp m hm
    have : b = [] := List.length_eq_zero_iff.1 (by omega)
    subst this
    cases h
    have : p = [] := List.prefix_nil.1 hp
    subst this
    cases m with
    | zero => exact ⟨List.nil_prefix, by simp [decodeSome], fun _ => rfl⟩
    | succ m => exact ⟨by simp [decodeSome, firstChar, utf8Decode], by simp [decodeSome, firstChar, utf8Decode], fun _ => by simp [decodeSome, firstChar, utf8Decode]⟩
  | succ n ih =>
    intro b s h hn p hp m hm
    cases m with
    | zero =>
      have : p = [] := List.length_eq_zero_iff.1 (by omega)
      subst this
      refine ⟨List.nil_prefix, by simp [decodeSome], fun e => ?_⟩
      subst e
      cases h
      rfl
    | succ m =>
      cases s with
      | nil =>
        have := utf8Decode_nil h
        subst this
        have : p = [] := List.prefix_nil.1 hp
        subst this
        exact ⟨by simp [decodeSome, firstChar, utf8Decode], by simp [decodeSome, firstChar, utf8Decode], fun _ => by simp [decodeSome, firstChar, utf8Decode]⟩
      | cons c s =>
        obtain ⟨x, rest, rfl, h1, h2, h3, h4⟩ := first h
        have hx : 0 < x.length := List.length_pos_iff.2 (by rintro rfl; cases h1)
        by_cases hlt : p.length < x.length
        · have hpx : p <+: x := List.prefix_of_prefix_length_le hp (List.prefix_append _ _) (by omega)
          rw [decodeSome, firstChar_part hpx hlt h4]
          refine ⟨List.nil_prefix, by dsimp only; omega, fun e => ?_⟩
          subst e
          simp at hlt
          omega
        · obtain ⟨q, rfl⟩ : x <+: p := List.prefix_of_prefix_length_le (List.prefix_append _ _) hp (by omega)
          rw [List.prefix_append_right_inj] at hp
          simp only [List.length_append] at hn hm
          obtain ⟨i1, i2, i3⟩ := ih h2 (by omega) hp m (by omega)
          rw [decodeSome, firstChar_whole h1 h3 h4]
          refine ⟨List.cons_prefix_cons.2 ⟨rfl, i1⟩, i2, fun e => ?_⟩
          dsimp only
          rw [i3 (List.append_cancel_left e)]

/-- What expat reports of a document, and of a part at its start. -/
theorem parseBytes_tree {b : Bytes} {t : Elem} (h : GlyphSet.glifTree b = .ok t) : parseBytes b = (sax t, .whole) ∧
    ∀ p, p <+: b → (parseBytes p).2 ≠ .bad ∧ (parseBytes p).1 <+: sax t := by
  rw [GlyphSet.glifTree] at h
  cases hs : utf8Decode b with
  | none => rw [hs] at h; cases h
  | some s =>
    rw [hs] at h
    dsimp only at h
    cases hx : Spec.Xml.parse s with
    | none => rw [hx] at h; cases h
    | some e =>
      rw [hx] at h
      cases h
      constructor
      · rw [parseBytes, (decode_both _ hs (Nat.le_refl _) List.prefix_rfl _ (Nat.le_refl _)).2.2 rfl]
        dsimp only
        rw [parse_whole hx, if_neg (by simp)]
      · intro p hp
        obtain ⟨h1, h2, -⟩ := decode_both _ hs (Nat.le_refl _) hp p.length (Nat.le_refl _)
        have := parse_online h1 (by rw [parse_whole hx]; simp)
        rw [parse_whole hx] at this
        rw [parseBytes]
        dsimp only
        rw [if_neg (by omega)]
        exact this

theorem tree_prefix {p b : Bytes} {e e' : Elem} (hp : p <+: b) (h : GlyphSet.glifTree p = .ok e) (h' : GlyphSet.glifTree b = .ok e') : e = e' := by
  unfold GlyphSet.glifTree at h h'
  cases hs : utf8Decode p with
  | none => rw [hs] at h; cases h
  | some s =>
    rw [hs] at h
    cases hs' : utf8Decode b with
    | none => rw [hs'] at h'; cases h'
    | some s' =>
      rw [hs'] at h'
      dsimp only at h h'
      cases hx : Spec.Xml.parse s with
      | none => rw [hx] at h; cases h
      | some x =>
        rw [hx] at h
        cases hx' : Spec.Xml.parse s' with
        | none => rw [hx'] at h'; cases h'
        | some x' =>
          rw [hx'] at h'
          cases h; cases h'
          exact parse_prefix (utf8Decode_prefix hp hs hs') hx hx'

theorem load_prefix {F : FloatCodec} {p b : Bytes} {v v' : PyVal} (hp : p <+: b) (h : IO.loadBytes F p = .ok v) (h' : IO.loadBytes F b = .ok v') : v = v' := by
  unfold IO.loadBytes at h h'
  cases hs : utf8Decode p with
  | none => rw [hs] at h; cases h
  | some s =>
    rw [hs] at h
    cases hs' : utf8Decode b with
    | none => rw [hs'] at h'; cases h'
    | some s' =>
      rw [hs'] at h'
      dsimp only [Plist.loads] at h h'
      cases hx : Spec.Xml.parse s with
      | none => rw [hx] at h; cases h
      | some x =>
        rw [hx] at h
        cases hx' : Spec.Xml.parse s' with
        | none => rw [hx'] at h'; cases h'
        | some x' =>
          rw [hx'] at h'
          have := parse_prefix (utf8Decode_prefix hp hs hs') hx hx'
          subst this
          rw [h] at h'
          cases h'
          rfl

/-! ### handler calls -/

theorem tags_append : ∀ (a b : List Sax), tags (a ++ b) = tags a ++ tags b
  | [], _ => rfl
  | .start _ _ :: a, b => by rw [List.cons_append, tags, tags, tags_append a b]; rfl
  | .chr _ :: a, b => by rw [List.cons_append, tags, tags, tags_append a b]
  | .stop _ :: a, b => by rw [List.cons_append, tags, tags, tags_append a b]; rfl

theorem tags_chars : ∀ (s : Str), tags (chars s) = []
  | [] => rfl
  | _ :: s => tags_chars s

mutual
theorem tags_sax : ∀ (e : Elem), tags (sax e) = Glif.events e
  | .mk tag attrib text tail children => by
    rw [sax, Glif.events, List.cons_append, List.cons_append, tags, tags_append, tags_append, tags_chars, List.nil_append, tags_saxList children]
    rfl
theorem tags_saxList : ∀ (c : List Elem), tags (saxList c) = Glif.eventsList c
  | [] => rfl
  | e :: es => by rw [saxList, Glif.eventsList, tags_append, tags_append, tags_chars, List.append_nil, tags_sax e, tags_saxList es]
end

theorem run_stop {σ : Type} (f : Glif.Fetcher σ) (stack : List Str) (s : σ) (n : Str) (es : List Glif.Event) : f.run stack s (.stop n :: es) =
    if f.stopAt = some n then .ok s
    else match stack with
      | [] => .error .indexError
      | other :: rest => if other = n then f.run rest s es else .error .assertionError := by rw [Glif.Fetcher.run.eq_def]; rfl

theorem runText_run {σ : Type} (f : Glif.Fetcher σ) {ending : Ending} (h : ending ≠ .bad) : ∀ (es : List Glif.Event) (stack : List Str) (s : σ),
    f.runText ending stack s es = f.run stack s es
  | [], stack, s => by rw [Glif.Fetcher.runText, Glif.Fetcher.run, if_neg h]
  | .start n a :: es, stack, s => by
    rw [Glif.Fetcher.runText, Glif.Fetcher.run]
    rcases f.onStart stack s n a with ⟨s', _ | _⟩
    · exact runText_run f h es _ _
    · rfl
  | .stop n :: es, stack, s => by
    rw [Glif.Fetcher.runText.eq_def, run_stop]
    dsimp only
    split
    · rfl
    · cases stack with
      | nil => rfl
      | cons o r =>
        dsimp only
        split
        · exact runText_run f h es _ _
        · rfl

/-- Runs over the first handler calls: what follows does not matter any more, or the state satisfies what every call preserves. -/
theorem run_prefix {σ : Type} (f : Glif.Fetcher σ) (R : σ → σ → Prop) (hr : ∀ s, R s s) (ht : ∀ a b c, R a b → R b c → R a c) (hit : ∀ s a, R s (f.hit s a).1)
    {l' : List Glif.Event} {y : σ} : ∀ (l : List Glif.Event) (stack : List Str) (s : σ), f.run stack s (l ++ l') = .ok y → ∃ x, f.run stack s l = .ok x ∧ R s x ∧ R x y
  | [], stack, s, h => by
    refine ⟨s, rfl, hr s, ?_⟩
    clear run_prefix
    rw [List.nil_append] at h
    induction l' generalizing stack s with
    | nil => cases h; exact hr _
    | cons e l' ih =>
      cases e with
      | start n a =>
        rw [Glif.Fetcher.run] at h
        have hR : R s (f.onStart stack s n a).1 := by
          rw [Glif.Fetcher.onStart]
          split
          · exact hit s a
          · exact hr s
        rcases hz : f.onStart stack s n a with ⟨s', _ | _⟩
        · rw [hz] at h hR; exact ht _ _ _ hR (ih _ _ h)
        · rw [hz] at h hR; cases h; exact hR
      | stop n =>
        rw [run_stop] at h
        split at h
        · cases h; exact hr _
        · cases stack with
          | nil => cases h
          | cons o r =>
            dsimp only at h
            split at h
            · exact ih _ _ h
            · cases h
  | .start n a :: l, stack, s, h => by
    rw [List.cons_append, Glif.Fetcher.run] at h
    rw [Glif.Fetcher.run]
    have hR : R s (f.onStart stack s n a).1 := by
      rw [Glif.Fetcher.onStart]
      split
      · exact hit s a
      · exact hr s
    rcases hz : f.onStart stack s n a with ⟨s', _ | _⟩
    · rw [hz] at h hR
      obtain ⟨x, h1, h2, h3⟩ := run_prefix f R hr ht hit l _ _ h
      exact ⟨x, h1, ht _ _ _ hR h2, h3⟩
    · rw [hz] at h hR; cases h; exact ⟨_, rfl, hR, hr _⟩
  | .stop n :: l, stack, s, h => by
    rw [List.cons_append, run_stop] at h
    rw [run_stop]
    split at h
    · next hs => cases h; rw [if_pos hs]; exact ⟨_, rfl, hr _, hr _⟩
    · next hs =>
      rw [if_neg hs]
      cases stack with
      | nil => cases h
      | cons o r =>
        dsimp only at h ⊢
        split at h
        · next e =>
          rw [if_pos e]
          exact run_prefix f R hr ht hit l _ _ h
        · cases h

/-- The first call that sets a name of an image file ends the run. -/
theorem image_prefix {l' : List Glif.Event} {y : Option Str} : ∀ (l : List Glif.Event) (stack : List Str), Glif.imageFetcher.run stack none (l ++ l') = .ok y →
    ∃ x, Glif.imageFetcher.run stack none l = .ok x ∧ (x = none ∨ x = y)
  | [], stack, h => ⟨none, rfl, .inl rfl⟩
  | .start n a :: l, stack, h => by
    rw [List.cons_append, Glif.Fetcher.run] at h
    rw [Glif.Fetcher.run]
    rcases hz : Glif.imageFetcher.onStart stack none n a with ⟨s', _ | _⟩
    · rw [hz] at h
      have : s' = none := by
        rw [Glif.Fetcher.onStart] at hz
        split at hz
        · simp [Glif.imageFetcher] at hz
        · cases hz; rfl
      subst this
      exact image_prefix l _ h
    · rw [hz] at h; cases h; exact ⟨_, rfl, .inr rfl⟩
  | .stop n :: l, stack, h => by
    rw [List.cons_append, run_stop, if_neg (by simp [Glif.imageFetcher])] at h
    rw [run_stop, if_neg (by simp [Glif.imageFetcher])]
    cases stack with
    | nil => cases h
    | cons o r =>
      dsimp only at h ⊢
      split at h
      · next e => rw [if_pos e]; exact image_prefix l _ h
      · cases h

/-- On whole documents the handlers are called as for the tree. -/
theorem fetch_whole {σ : Type} (f : Glif.Fetcher σ) (s : σ) {b : Bytes} {t : Elem} (h : GlyphSet.glifTree b = .ok t) : f.fetch s b = f.run [] s (Glif.events t) := by
  rw [Glif.Fetcher.fetch, (parseBytes_tree h).1, runText_run f (by simp), tags_sax]

theorem fetch_part {σ : Type} (f : Glif.Fetcher σ) (s : σ) {p b : Bytes} {t : Elem} (hp : p <+: b) (h : GlyphSet.glifTree b = .ok t) :
    ∃ l l', f.fetch s p = f.run [] s l ∧ Glif.events t = l ++ l' := by
  obtain ⟨h1, u, hu⟩ := (parseBytes_tree h).2 p hp
  exact ⟨tags (parseBytes p).1, tags u, runText_run f h1 _ _ _, by rw [← tags_sax, ← hu, tags_append]⟩

theorem unicodes_part {p b : Bytes} {t : Elem} (hp : p <+: b) (h : GlyphSet.glifTree b = .ok t) {y : List Int} (hy : Glif.fetchUnicodes t = .ok y) :
    ∃ x, Glif.fetchUnicodesOf p = .ok x ∧ x <+: y := by
  obtain ⟨l, l', h1, h2⟩ := fetch_part Glif.unicodesFetcher [] hp h
  rw [Glif.fetchUnicodes, h2] at hy
  obtain ⟨x, h3, -, h4⟩ := run_prefix Glif.unicodesFetcher (fun a b => a <+: b) (fun _ => List.prefix_rfl) (fun _ _ _ h h' => h.trans h') (fun s a => by
    simp only [Glif.unicodesFetcher]
    repeat' split
    all_goals first
      | exact List.prefix_rfl
      | exact List.prefix_append _ _) l [] [] hy
  exact ⟨x, h1.trans h3, h4⟩

theorem components_part {p b : Bytes} {t : Elem} (hp : p <+: b) (h : GlyphSet.glifTree b = .ok t) {y : List Str} (hy : Glif.fetchComponentBases t = .ok y) :
    ∃ x, Glif.fetchComponentBasesOf p = .ok x ∧ x <+: y := by
  obtain ⟨l, l', h1, h2⟩ := fetch_part Glif.componentsFetcher [] hp h
  rw [Glif.fetchComponentBases, h2] at hy
  obtain ⟨x, h3, -, h4⟩ := run_prefix Glif.componentsFetcher (fun a b => a <+: b) (fun _ => List.prefix_rfl) (fun _ _ _ h h' => h.trans h') (fun s a => by
    simp only [Glif.componentsFetcher]
    repeat' split
    all_goals first
      | exact List.prefix_rfl
      | exact List.prefix_append _ _) l [] [] hy
  exact ⟨x, h1.trans h3, h4⟩

theorem image_part {p b : Bytes} {t : Elem} (hp : p <+: b) (h : GlyphSet.glifTree b = .ok t) {y : Option Str} (hy : Glif.fetchImageFileName t = .ok y) :
    ∃ x, Glif.fetchImageFileNameOf p = .ok x ∧ (x = none ∨ x = y) := by
  obtain ⟨l, l', h1, h2⟩ := fetch_part Glif.imageFetcher none hp h
  rw [Glif.fetchImageFileName, h2] at hy
  obtain ⟨x, h3, h4⟩ := image_prefix l [] hy
  exact ⟨x, h1.trans h3, h4⟩

end Verif.Cut
