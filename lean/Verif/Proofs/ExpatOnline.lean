import Verif.Model.Expat
/-! What expat reports of the beginning of a text is the beginning of what it reports of the text. -/
namespace Verif.Expat
open Verif Verif.Spec.Xml

theorem isPrefixOf_append {p s : Str} (h : p.isPrefixOf s = true) (t : Str) : p.isPrefixOf (s ++ t) = true := by
  rw [List.isPrefixOf_iff_prefix] at h ⊢
  exact h.trans (List.prefix_append _ _)

theorem isPrefixOf_long {p s : Str} (h : p.length ≤ s.length) (t : Str) : p.isPrefixOf (s ++ t) = p.isPrefixOf s := by
  rw [Bool.eq_iff_iff, List.isPrefixOf_iff_prefix, List.isPrefixOf_iff_prefix]
  constructor
  · intro hp
    exact List.prefix_of_prefix_length_le hp (List.prefix_append _ _) h
  · intro hp
    exact hp.trans (List.prefix_append _ _)

/-- A text that does not begin with `p` but does when it goes on is a part of `p`. -/
theorem isPrefixOf_grow {p s t : Str} (h : p.isPrefixOf s = false) (h' : p.isPrefixOf (s ++ t) = true) : begins p s = true := by
  by_cases hl : p.length ≤ s.length
  · rw [isPrefixOf_long hl, h] at h'
    cases h'
  · unfold begins
    rw [List.isPrefixOf_iff_prefix] at h'
    rw [Bool.and_eq_true, List.isPrefixOf_iff_prefix, decide_eq_true_iff]
    exact ⟨List.prefix_of_prefix_length_le (List.prefix_append _ _) h' (by omega), by omega⟩

theorem splitAtFirst_length {p : Str} : ∀ {s a r : Str}, splitAtFirst p s = some (a, r) → s.length = a.length + p.length + r.length := by
  intro s
  induction s with
  | nil => intro a r h; cases h
  | cons c s ih =>
    intro a r h
    rw [splitAtFirst] at h
    split at h
    · next hp =>
      cases h
      have := (List.isPrefixOf_iff_prefix.1 hp).length_le
      simp only [List.length_drop, List.length_cons, List.length_nil] at *
      omega
    · cases hs : splitAtFirst p s with
      | none => rw [hs] at h; cases h
      | some x =>
        rw [hs] at h
        cases h
        have := ih hs
        simp only [List.length_cons] at *
        omega

theorem splitAtFirst_append {p : Str} (t : Str) : ∀ {s a r : Str}, splitAtFirst p s = some (a, r) → splitAtFirst p (s ++ t) = some (a, r ++ t) := by
  intro s
  induction s with
  | nil => intro a r h; cases h
  | cons c s ih =>
    intro a r h
    have hl := splitAtFirst_length h
    rw [splitAtFirst] at h
    rw [List.cons_append, splitAtFirst, ← List.cons_append, isPrefixOf_long (by omega)]
    split at h
    · next hp =>
      cases h
      rw [if_pos hp, List.drop_append_of_le_length (by rw [hl]; simp)]
    · next hp =>
      rw [if_neg hp]
      cases hs : splitAtFirst p s with
      | none => rw [hs] at h; cases h
      | some x =>
        rw [hs] at h
        cases h
        rw [ih hs]
        rfl

theorem tagEnd_append (t : Str) : ∀ {s : Str} {q : Option Char} {a r : Str}, tagEnd q s = some (a, r) → tagEnd q (s ++ t) = some (a, r ++ t) := by
  intro s
  induction s with
  | nil => intro q a r h; cases q <;> cases h
  | cons c s ih =>
    intro q a r h
    cases q with
    | none =>
      rw [tagEnd] at h
      rw [List.cons_append, tagEnd]
      split at h
      · next hc => cases h; rw [if_pos hc]
      · next hc =>
        rw [if_neg hc]
        cases hs : tagEnd (if c = '"' ∨ c = '\'' then some c else none) s with
        | none => rw [hs] at h; cases h
        | some x => rw [hs] at h; cases h; rw [ih hs]; rfl
    | some q =>
      rw [tagEnd] at h
      rw [List.cons_append, tagEnd]
      cases hs : tagEnd (if c = q then none else some q) s with
      | none => rw [hs] at h; cases h
      | some x => rw [hs] at h; cases h; rw [ih hs]; rfl

/-- A piece is the same when the text goes on, once it is complete or known to be bad. -/
def Online {α : Type} (P : Str → Piece α) (s t : Str) : Prop :=
  match P s with
  | .more => True
  | .bad => P (s ++ t) = .bad
  | .done a r => P (s ++ t) = .done a (r ++ t)

theorem startTag_online (s t : Str) : Online startTag s t := by
  unfold Online startTag
  cases h : tagEnd none s with
  | none => trivial
  | some x =>
    obtain ⟨tok, rest⟩ := x
    rw [tagEnd_append t h]
    dsimp only
    split
    · rename_i hb
      split at hb <;> first | (cases hb; done) | skip
      split at hb <;> cases hb
    · rename_i hb
      split at hb
      · next hc => rw [if_pos hc]
      · next hc =>
        rw [if_neg hc]
        split at hb
        · cases hb
        · rfl
    · rename_i hb
      split at hb
      · cases hb
      · next hc =>
        rw [if_neg hc]
        split at hb
        · cases hb; rfl
        · cases hb

theorem endTag_online (name s t : Str) : Online (endTag name) s t := by
  unfold Online endTag
  cases h : splitAtFirst c!">" s with
  | none => trivial
  | some x =>
    obtain ⟨body, rest⟩ := x
    rw [splitAtFirst_append t h]
    dsimp only
    split
    · rename_i hb; split at hb <;> cases hb
    · rename_i hb
      split at hb
      · cases hb
      · next hc => rw [if_neg hc]
    · rename_i hb
      split at hb
      · next hc => cases hb; rw [if_pos hc]
      · cases hb

theorem dropComment_online {s : Str} {body : Str} {c : Char} {rest : Str} (t : Str) (h : splitAtFirst c!"--" s = some (body, c :: rest)) :
    dropComment (s ++ t) = (dropComment s).map (· ++ t) := by
  unfold dropComment
  rw [h, splitAtFirst_append t h]
  dsimp only [List.cons_append]
  split <;> rfl

theorem dropInstruction_online {s : Str} {x : Str × Str} (t : Str) (h : splitAtFirst c!"?>" s = some x) : dropInstruction (s ++ t) = (dropInstruction s).map (· ++ t) := by
  obtain ⟨body, rest⟩ := x
  unfold dropInstruction
  rw [h, splitAtFirst_append t h]
  dsimp only
  split <;> rfl

theorem takeCdata_online {s : Str} {x : Str × Str} (t : Str) (h : splitAtFirst c!"]]>" s = some x) : takeCdata (s ++ t) = (takeCdata s).map fun x => (x.1, x.2 ++ t) := by
  obtain ⟨body, rest⟩ := x
  unfold takeCdata
  rw [h, splitAtFirst_append t h]
  dsimp only
  split <;> rfl

theorem drop_of_prefix {p s : Str} (h : p.isPrefixOf s = true) (t : Str) : (s ++ t).drop p.length = s.drop p.length ++ t :=
  List.drop_append_of_le_length (List.isPrefixOf_iff_prefix.1 h).length_le

theorem isPrefixOf_false {p s : Str} (h : p.isPrefixOf s = false) (hb : begins p s = false) (t : Str) : p.isPrefixOf (s ++ t) = false := by
  cases h' : p.isPrefixOf (s ++ t) with
  | false => rfl
  | true => rw [isPrefixOf_grow h h'] at hb; cases hb

/-- Only complete markup is parsed. -/
theorem openMarkup_none {s : Str} (h : openMarkup s = true) : parseMarkup s = none := by
  unfold openMarkup at h
  unfold parseMarkup
  split at h
  · next h1 =>
    rw [if_pos h1]
    unfold dropComment
    split at h
    · cases h
    · next hn =>
      split
      · next body c rest he => exact absurd he (hn body c rest)
      · rfl
  · next h1 =>
    rw [if_neg h1]
    split at h
    · next h2 =>
      rw [if_pos h2]
      unfold dropInstruction
      rw [Option.isNone_iff_eq_none] at h
      rw [h]; rfl
    · next h2 =>
      rw [if_neg h2]
      split at h
      · next h3 =>
        rw [if_pos h3]
        unfold takeCdata
        rw [Option.isNone_iff_eq_none] at h
        rw [h]
      · next h3 => rw [if_neg h3]

theorem begins_isPrefix {p s : Str} (h : begins p s = true) : s.isPrefixOf p = true := by
  unfold begins at h
  rw [Bool.and_eq_true] at h
  exact h.1

/-- Markup that is not open is parsed in the same way when the text goes on. -/
theorem parseMarkup_online {s : Str} (h : openMarkup s = false) (hm : isMarkup s = true) (t : Str) :
    parseMarkup (s ++ t) = (parseMarkup s).map (fun x => (x.1, x.2 ++ t)) ∧ openMarkup (s ++ t) = false := by
  unfold openMarkup at h
  unfold parseMarkup openMarkup
  split at h
  · next h1 =>
    rw [if_pos h1, if_pos (isPrefixOf_append h1 t), if_pos (isPrefixOf_append h1 t)]
    have hd : (s ++ t).drop 4 = s.drop 4 ++ t := drop_of_prefix h1 t
    rw [hd]
    split at h
    · next body c rest he =>
      rw [dropComment_online t he, splitAtFirst_append t he]
      refine ⟨?_, rfl⟩
      cases dropComment (s.drop 4) <;> rfl
    · cases h
  · next h1 =>
    rw [Bool.not_eq_true] at h1
    split at h
    · next h2 =>
      have h1' : (c!"<!--").isPrefixOf (s ++ t) = false := by
        obtain ⟨r, rfl⟩ := List.isPrefixOf_iff_prefix.1 h2
        rfl
      rw [if_neg (by rw [h1']; simp), if_pos (isPrefixOf_append h2 t), if_neg (by rw [h1]; simp), if_pos h2, if_neg (by rw [h1']; simp), if_pos (isPrefixOf_append h2 t)]
      have hd : (s ++ t).drop 2 = s.drop 2 ++ t := drop_of_prefix h2 t
      rw [hd]
      cases he : splitAtFirst c!"?>" (s.drop 2) with
      | none => rw [he] at h; cases h
      | some x =>
        rw [dropInstruction_online t he, splitAtFirst_append t he]
        refine ⟨?_, rfl⟩
        cases dropInstruction (s.drop 2) <;> rfl
    · next h2 =>
      rw [Bool.not_eq_true] at h2
      split at h
      · next h3 =>
        have hs : (c!"<!--").isPrefixOf (s ++ t) = false ∧ (c!"<?").isPrefixOf (s ++ t) = false := by
          obtain ⟨r, rfl⟩ := List.isPrefixOf_iff_prefix.1 h3
          exact ⟨rfl, rfl⟩
        rw [if_neg (by rw [hs.1]; simp), if_neg (by rw [hs.2]; simp), if_pos (isPrefixOf_append h3 t), if_neg (by rw [h1]; simp), if_neg (by rw [h2]; simp), if_pos h3,
          if_neg (by rw [hs.1]; simp), if_neg (by rw [hs.2]; simp), if_pos (isPrefixOf_append h3 t)]
        have hd : (s ++ t).drop 9 = s.drop 9 ++ t := drop_of_prefix h3 t
        rw [hd]
        cases he : splitAtFirst c!"]]>" (s.drop 9) with
        | none => rw [he] at h; cases h
        | some x =>
          rw [takeCdata_online t he, splitAtFirst_append t he]
          exact ⟨rfl, rfl⟩
      · next h3 =>
        rw [Bool.not_eq_true] at h3
        rw [Bool.or_eq_false_iff] at h
        have f1 : (c!"<!--").isPrefixOf (s ++ t) = false := isPrefixOf_false h1 (by
          cases hb : begins c!"<!--" s with
          | false => rfl
          | true => rw [begins_isPrefix hb] at h; exact h.1) t
        have f3 : (c!"<![CDATA[").isPrefixOf (s ++ t) = false := isPrefixOf_false h3 (by
          cases hb : begins c!"<![CDATA[" s with
          | false => rfl
          | true => rw [begins_isPrefix hb] at h; exact h.2) t
        have f2 : (c!"<?").isPrefixOf (s ++ t) = false := by
          rw [isPrefixOf_long ?_, h2]
          unfold isMarkup at hm
          rcases s with _ | ⟨a, _ | ⟨b, s⟩⟩
          · cases hm
          · simp at hm
          · simp
        rw [if_neg (by rw [f1]; simp), if_neg (by rw [f2]; simp), if_neg (by rw [f3]; simp), if_neg (by rw [h1]; simp), if_neg (by rw [h2]; simp), if_neg (by rw [h3]; simp),
          if_neg (by rw [f1]; simp), if_neg (by rw [f2]; simp), if_neg (by rw [f3]; simp)]
        refine ⟨rfl, ?_⟩
        rw [Bool.or_eq_false_iff]
        have key : ∀ p : Str, s.isPrefixOf p = false → (s ++ t).isPrefixOf p = false := by
          intro p hp
          cases hq : (s ++ t).isPrefixOf p with
          | false => rfl
          | true =>
            rw [List.isPrefixOf_iff_prefix] at hq
            rw [List.isPrefixOf_iff_prefix.2 ((List.prefix_append s t).trans hq)] at hp
            cases hp
        exact ⟨key _ h.1, key _ h.2⟩

theorem markup_online {s : Str} (hm : isMarkup s = true) (t : Str) : Online markup s t := by
  unfold Online markup
  cases ho : openMarkup s with
  | true => rw [openMarkup_none ho]; simp
  | false =>
    obtain ⟨h1, h2⟩ := parseMarkup_online ho hm t
    rw [h1, h2]
    cases parseMarkup s with
    | none => simp
    | some x => rfl

theorem dropWhile_append_ne {p : Char → Bool} : ∀ {s : Str}, s.dropWhile p ≠ [] → ∀ t, (s ++ t).dropWhile p = s.dropWhile p ++ t ∧ (s ++ t).takeWhile p = s.takeWhile p := by
  intro s
  induction s with
  | nil => intro h; exact absurd rfl h
  | cons c s ih =>
    intro h t
    rw [List.cons_append, List.dropWhile_cons, List.dropWhile_cons, List.takeWhile_cons, List.takeWhile_cons]
    split
    · next hc =>
      rw [List.dropWhile_cons, if_pos hc] at h
      obtain ⟨h1, h2⟩ := ih h t
      exact ⟨h1, by rw [h2]⟩
    · exact ⟨rfl, rfl⟩

theorem isMarkup_of {s : Str} (h : ((c!"<!--").isPrefixOf s || (c!"<?").isPrefixOf s) = true) : isMarkup s = true := by
  rw [Bool.or_eq_true] at h
  rcases h with h | h <;> (obtain ⟨r, rfl⟩ := List.isPrefixOf_iff_prefix.1 h; rfl)

theorem misc_online (t : Str) : ∀ (n m : Nat) (s : Str), n ≤ m →
    match misc n s with
    | .more => True
    | .bad => misc m (s ++ t) = .bad
    | .done _ r => r = [] ∨ misc m (s ++ t) = .done () (r ++ t) := by
  intro n
  induction n with
  | zero => intro m s _; exact trivial
  | succ n ih =>
    intro m s hm
    obtain ⟨m, rfl⟩ : ∃ k, m = k + 1 := ⟨m - 1, by omega⟩
    rw [misc]
    by_cases h0 : s.dropWhile ws = []
    · rw [if_pos h0]; exact .inl rfl
    rw [if_neg h0]
    obtain ⟨hd, -⟩ := dropWhile_append_ne h0 t
    cases hb : begins c!"<!--" (s.dropWhile ws) with
    | true => simp
    | false =>
      rw [if_neg (by simp)]
      have hne : s.dropWhile ws ++ t ≠ [] := by simp [h0]
      have hb' : begins c!"<!--" (s.dropWhile ws ++ t) = false := by
        cases hq : begins c!"<!--" (s.dropWhile ws ++ t) with
        | false => rfl
        | true =>
          unfold begins at hq hb
          rw [Bool.and_eq_true, List.isPrefixOf_iff_prefix, decide_eq_true_iff] at hq
          rw [List.isPrefixOf_iff_prefix.2 ((List.prefix_append _ _).trans hq.1), Bool.true_and, decide_eq_false_iff_not] at hb
          have := hq.2
          rw [List.length_append] at this
          omega
      rw [misc, hd, if_neg hne, hb', if_neg (show ¬ false = true by simp)]
      by_cases hp : ((c!"<!--").isPrefixOf (s.dropWhile ws) || (c!"<?").isPrefixOf (s.dropWhile ws)) = true
      · have hp' : ((c!"<!--").isPrefixOf (s.dropWhile ws ++ t) || (c!"<?").isPrefixOf (s.dropWhile ws ++ t)) = true := by
          rw [Bool.or_eq_true] at hp ⊢
          exact hp.imp (isPrefixOf_append · t) (isPrefixOf_append · t)
        rw [if_pos hp, if_pos hp']
        have hon := markup_online (isMarkup_of hp) t
        unfold Online at hon
        cases hk : markup (s.dropWhile ws) with
        | more => trivial
        | bad =>
          rw [hk] at hon
          dsimp only at hon ⊢
          rw [hon]
        | done d rest =>
          rw [hk] at hon
          dsimp only at hon ⊢
          rw [hon]
          exact ih m rest (by omega)
      · rw [if_neg hp]
        rw [Bool.not_eq_true, Bool.or_eq_false_iff] at hp
        have f1 := isPrefixOf_false hp.1 hb t
        have f2 : (c!"<?").isPrefixOf (s.dropWhile ws ++ t) = false := by
          refine isPrefixOf_false hp.2 ?_ t
          cases hq : begins c!"<?" (s.dropWhile ws) with
          | false => rfl
          | true =>
            unfold begins at hq
            rw [Bool.and_eq_true, List.isPrefixOf_iff_prefix, decide_eq_true_iff] at hq
            obtain ⟨hq1, hq2⟩ := hq
            rcases hs : s.dropWhile ws with _ | ⟨a, _ | ⟨b, r⟩⟩
            · exact absurd hs h0
            · rw [hs] at hq1 hb
              have : a = '<' := by simpa using hq1
              subst this
              revert hb; decide
            · rw [hs] at hq2; simp only [List.length_cons, List.length_nil] at hq2; omega
        rw [f1, f2]
        exact .inr rfl

/-- The reports of the beginning of a text and those of the text. -/
def Grows (x y : List Sax × Ending) : Prop := y.2 ≠ .bad → x.2 ≠ .bad ∧ x.1 <+: y.1

theorem grows_more (y : List Sax × Ending) : Grows ([], .more) y := fun _ => ⟨by simp, List.nil_prefix⟩

theorem grows_bad (x : List Sax × Ending) (l : List Sax) : Grows x (l, .bad) := fun h => absurd rfl h

theorem grows_report {x y : List Sax × Ending} (h : Grows x y) (l : List Sax) : Grows (report l x) (report l y) := by
  intro hy
  obtain ⟨h1, h2⟩ := h hy
  exact ⟨h1, (List.prefix_append_right_inj l).2 h2⟩

theorem grows_part (l l' : List Sax) (x : List Sax × Ending) : Grows (l, .more) (report (l ++ l') x) := by
  intro _
  refine ⟨by simp, ?_⟩
  rw [report, List.append_assoc]
  exact List.prefix_append _ _

theorem take_append_two {s : Str} (h : ¬ s.length < 2) (t : Str) : (s ++ t).take 2 = s.take 2 ∧ (s ++ t).drop 2 = s.drop 2 ++ t := by
  rw [List.take_append_of_le_length (by omega), List.drop_append_of_le_length (by omega)]
  exact ⟨rfl, rfl⟩

theorem content_online (t : Str) : ∀ (n m : Nat) (stack : List Str) (s : Str), n ≤ m → Grows (content n stack s) (content m stack (s ++ t)) := by
  intro n
  induction n with
  | zero => intro m stack s _; rw [content]; exact grows_more _
  | succ n ih =>
    intro m stack s hm
    obtain ⟨m, rfl⟩ : ∃ k, m = k + 1 := ⟨m - 1, by omega⟩
    cases stack with
    | nil =>
      rw [content, content]
      have := misc_online t (n + 1) (m + 1) s hm
      cases hk : misc (n + 1) s with
      | more => exact grows_more _
      | bad =>
        rw [hk] at this
        dsimp only at this
        rw [this]
        exact grows_bad _ _
      | done u r =>
        rw [hk] at this
        dsimp only at this
        cases r with
        | nil => exact fun _ => ⟨by simp, List.nil_prefix⟩
        | cons c r =>
          rcases this with h | h
          · cases h
          · rw [h]; exact grows_bad _ _
    | cons name stack =>
      rw [content, content]
      by_cases hl : (s.dropWhile (· ≠ '<')).length < 2
      · rw [if_pos hl]; exact grows_more _
      obtain ⟨hd, ht⟩ := dropWhile_append_ne (p := (· ≠ '<')) (s := s) (by intro e; rw [e] at hl; simp at hl) t
      rw [if_neg hl, if_neg (by rw [hd, List.length_append]; omega), hd, ht]
      obtain ⟨h2, h3⟩ := take_append_two hl t
      cases parseText (s.takeWhile (· ≠ '<')) with
      | none => exact grows_bad _ _
      | some tx =>
        dsimp only
        have him : isMarkup (s.dropWhile (· ≠ '<') ++ t) = isMarkup (s.dropWhile (· ≠ '<')) := by unfold isMarkup; rw [h2]
        rw [h2, h3, him]
        generalize s.dropWhile (· ≠ '<') = r at *
        split
        · have hon := endTag_online name (r.drop 2) t
          unfold Online at hon
          cases hk : endTag name (r.drop 2) with
          | more =>
            dsimp only
            cases endTag name (r.drop 2 ++ t) with
            | bad => exact grows_bad _ _
            | more => exact fun _ => ⟨by simp, List.prefix_refl _⟩
            | done u rest => exact grows_part _ _ _
          | bad => rw [hk] at hon; dsimp only at hon ⊢; rw [hon]; exact grows_bad _ _
          | done u rest => rw [hk] at hon; dsimp only at hon ⊢; rw [hon]; exact grows_report (ih m stack rest (by omega)) _
        · split
          · next hmk =>
            have hon := markup_online hmk t
            unfold Online at hon
            cases hk : markup r with
            | more =>
              dsimp only
              cases markup (r ++ t) with
              | bad => exact grows_bad _ _
              | more => exact fun _ => ⟨by simp, List.prefix_refl _⟩
              | done d rest =>
                dsimp only
                unfold chars
                rw [List.map_append]
                exact grows_part _ _ _
            | bad => rw [hk] at hon; dsimp only at hon ⊢; rw [hon]; exact grows_bad _ _
            | done u rest => rw [hk] at hon; dsimp only at hon ⊢; rw [hon]; exact grows_report (ih m _ rest (by omega)) _
          · have hon := startTag_online r t
            unfold Online at hon
            cases hk : startTag r with
            | more =>
              dsimp only
              cases startTag (r ++ t) with
              | bad => exact grows_bad _ _
              | more => exact fun _ => ⟨by simp, List.prefix_refl _⟩
              | done d rest =>
                obtain ⟨tag, l, _ | _⟩ := d <;> exact grows_part _ _ _
            | bad => rw [hk] at hon; dsimp only at hon ⊢; rw [hon]; exact grows_bad _ _
            | done u rest =>
              rw [hk] at hon
              dsimp only at hon
              obtain ⟨tag, l, _ | _⟩ := u <;> dsimp only <;> rw [hon] <;> exact grows_report (ih m _ rest (by omega)) _

theorem root_online (s t : Str) : Grows (root s) (root (s ++ t)) := by
  have hon := startTag_online s t
  unfold Online at hon
  unfold root
  cases hk : startTag s with
  | more => exact grows_more _
  | bad => rw [hk] at hon; dsimp only at hon ⊢; rw [hon]; exact grows_bad _ _
  | done u rest =>
    rw [hk] at hon
    dsimp only at hon
    obtain ⟨tag, l, _ | _⟩ := u <;> dsimp only <;> rw [hon] <;> exact grows_report (content_online t _ _ _ rest (by simp)) _

theorem dropThrough_append {p : Str} (t : Str) : ∀ {s r : Str}, dropThrough p s = some r → dropThrough p (s ++ t) = some (r ++ t) ∧ p.length ≤ s.length := by
  intro s
  induction s with
  | nil => intro r h; cases h
  | cons c s ih =>
    intro r h
    rw [dropThrough] at h
    rw [List.cons_append, dropThrough, ← List.cons_append]
    split at h
    · next hp =>
      cases h
      rw [if_pos (isPrefixOf_append hp t), drop_of_prefix hp]
      exact ⟨rfl, (List.isPrefixOf_iff_prefix.1 hp).length_le⟩
    · next hp =>
      obtain ⟨h1, h2⟩ := ih h
      rw [isPrefixOf_long (by simp; omega), if_neg hp]
      exact ⟨h1, by simp; omega⟩

theorem doctype_online (s t : Str) : Online doctype s t := by
  unfold Online doctype
  cases hb : begins c!"<!DOCTYPE " s with
  | true => trivial
  | false =>
    rw [if_neg (by simp)]
    unfold dropDoctype
    have hb' : begins c!"<!DOCTYPE " (s ++ t) = false := by
      cases hq : begins c!"<!DOCTYPE " (s ++ t) with
      | false => rfl
      | true =>
        unfold begins at hq hb
        rw [Bool.and_eq_true, List.isPrefixOf_iff_prefix, decide_eq_true_iff] at hq
        rw [List.isPrefixOf_iff_prefix.2 ((List.prefix_append _ _).trans hq.1), Bool.true_and, decide_eq_false_iff_not] at hb
        have := hq.2
        rw [List.length_append] at this
        omega
    rw [hb']
    cases hd : (c!"<!DOCTYPE ").isPrefixOf s with
    | true =>
      rw [if_pos rfl, isPrefixOf_append hd t]
      cases h' : dropThrough c!">" s with
      | none => trivial
      | some r => dsimp only; rw [if_pos rfl, (dropThrough_append t h').1]; rfl
    | false =>
      rw [isPrefixOf_false hd hb t]
      rfl

theorem declared_append {l : List (Str × Str)} {r : Str} (h : declared l r = false) (t : Str) : declared l (r ++ t) = false := by
  cases hq : declared l (r ++ t) with
  | false => rfl
  | true =>
    refine absurd (?_ : declared l r = true) (by rw [h]; simp)
    unfold declared at hq ⊢
    rw [Bool.and_eq_true, Bool.and_eq_true] at hq ⊢
    obtain ⟨⟨h1, h2⟩, h3⟩ := hq
    refine ⟨⟨h1, h2⟩, ?_⟩
    rw [List.all_eq_true] at h3 ⊢
    intro p hp
    have := h3 p hp
    rw [Bool.or_eq_true] at this ⊢
    refine this.imp id fun h => ?_
    rw [Bool.and_eq_true, List.all_append, Bool.and_eq_true] at h
    rw [Bool.and_eq_true]
    exact ⟨h.1, h.2.1⟩

/-- The declaration: complete or bad is settled, except that text after it may not be ASCII. -/
theorem decl_online (s t : Str) :
    match decl s with
    | .more => True
    | .bad => decl (s ++ t) = .bad
    | .done _ r => decl (s ++ t) = .bad ∨ decl (s ++ t) = .done () (r ++ t) := by
  unfold decl
  cases hs : s.isPrefixOf c!"<?xml" with
  | true => trivial
  | false =>
    rw [if_neg (by simp)]
    have hs' : (s ++ t).isPrefixOf c!"<?xml" = false := by
      cases hq : (s ++ t).isPrefixOf c!"<?xml" with
      | false => rfl
      | true =>
        rw [List.isPrefixOf_iff_prefix] at hq
        rw [List.isPrefixOf_iff_prefix.2 ((List.prefix_append s t).trans hq)] at hs
        cases hs
    rw [hs', if_neg (show ¬ false = true by simp)]
    have hx : (c!"<?xml").isPrefixOf (s ++ t) = (c!"<?xml").isPrefixOf s := by
      cases hp : (c!"<?xml").isPrefixOf s with
      | true => exact isPrefixOf_append hp t
      | false =>
        refine isPrefixOf_false hp ?_ t
        unfold begins
        rw [hs]; rfl
    by_cases hc : ((c!"<?xml").isPrefixOf s && (s.drop 5).head?.any ws) = true
    · have hc0 := hc
      rw [Bool.and_eq_true] at hc0
      have hd : (s ++ t).drop 5 = s.drop 5 ++ t := drop_of_prefix hc0.1 t
      have hh : (s.drop 5 ++ t).head?.any ws = (s.drop 5).head?.any ws := by
        rcases hk : s.drop 5 with _ | ⟨a, r⟩
        · rw [hk] at hc0; exact absurd hc0.2 (by simp)
        · rfl
      rw [hx, hd, hh, if_pos hc, if_pos hc]
      cases hsp : splitAtFirst c!"?>" (s.drop 5) with
      | none => trivial
      | some x =>
        obtain ⟨body, rest⟩ := x
        rw [splitAtFirst_append t hsp]
        dsimp only
        generalize parseAttrs (List.length body + 1) (body ++ ['>']) = z
        rcases z with _ | ⟨l, _ | _, _ | ⟨a, r⟩⟩ <;> try rfl
        dsimp only
        cases hdc : declared l rest with
        | false =>
          rw [declared_append hdc t]
          rfl
        | true =>
          rw [if_pos rfl]
          cases hdc : declared l (rest ++ t) with
          | true => exact .inr rfl
          | false => exact .inl rfl
    · have hc' : ¬ ((c!"<?xml").isPrefixOf (s ++ t) && ((s ++ t).drop 5).head?.any ws) = true := by
        intro h
        apply hc
        rw [hx] at h
        rw [Bool.and_eq_true] at h ⊢
        refine ⟨h.1, ?_⟩
        have hd : (s ++ t).drop 5 = s.drop 5 ++ t := drop_of_prefix h.1 t
        rw [hd] at h
        obtain ⟨r, rfl⟩ := List.isPrefixOf_iff_prefix.1 h.1
        cases r with
        | nil => exact absurd hs (by decide)
        | cons a r => exact h.2
      rw [if_neg hc, if_neg hc']
      exact .inr rfl

theorem document_online (s t : Str) : Grows (document s) (document (s ++ t)) := by
  unfold document
  have h := decl_online s t
  cases h1 : decl s with
  | more => exact grows_more _
  | bad => rw [h1] at h; dsimp only at h; rw [h]; exact grows_bad _ _
  | done u r =>
    rw [h1] at h
    dsimp only at h
    rcases h with h | h
    · rw [h]; exact grows_bad _ _
    rw [h]
    rw [andThen, andThen]
    have key : ∀ (k : Str → List Sax × Ending) (r : Str), (∀ s, Grows (k s) (k (s ++ t))) →
        Grows (andThenMore (misc (r.length + 1) r) k) (andThenMore (misc ((r ++ t).length + 1) (r ++ t)) k) := by
      intro k r hk
      have h := misc_online t (r.length + 1) ((r ++ t).length + 1) r (by simp)
      cases h2 : misc (r.length + 1) r with
      | more => exact grows_more _
      | bad => rw [h2] at h; dsimp only at h; rw [h]; exact grows_bad _ _
      | done u r2 =>
        rw [h2] at h
        dsimp only at h
        cases r2 with
        | nil => exact grows_more _
        | cons c r2 =>
          rcases h with h | h
          · cases h
          · rw [h]; exact hk (c :: r2)
    refine key _ r fun r => ?_
    have h := doctype_online r t
    unfold Online at h
    cases h3 : doctype r with
    | more => exact grows_more _
    | bad => rw [h3] at h; dsimp only at h; rw [h]; exact grows_bad _ _
    | done u r2 =>
      rw [h3] at h
      dsimp only at h
      rw [h]
      exact key _ r2 fun s => root_online s t

theorem normNl_prefix : ∀ (b : Bool) (s t : Str), ∃ u, normNl b (s ++ t) = normNl b s ++ u := by
  intro b s
  induction s generalizing b with
  | nil => exact fun t => ⟨normNl b t, rfl⟩
  | cons c s ih =>
    intro t
    rw [List.cons_append, normNl, normNl]
    split
    · obtain ⟨u, hu⟩ := ih true t
      exact ⟨u, by rw [hu]; rfl⟩
    · split
      · exact ih false t
      · obtain ⟨u, hu⟩ := ih false t
        exact ⟨u, by rw [hu]; rfl⟩

theorem parse_online {s t : Str} (h : s <+: t) : Grows (parse s) (parse t) := by
  obtain ⟨u, rfl⟩ := h
  obtain ⟨v, hv⟩ := normNl_prefix false s u
  unfold parse
  rw [hv]
  cases hs : normNl false s with
  | nil =>
    have : document (dropMark []) = ([], .more) := by decide
    rw [this]
    exact grows_more _
  | cons c r =>
    have : dropMark (c :: r ++ v) = dropMark (c :: r) ++ v := by
      rw [List.cons_append, dropMark, dropMark]
      split <;> rfl
    rw [this]
    exact document_online _ _

end Verif.Expat
