import Verif.Proofs.ExpatOnline
import Verif.Proofs.Xml
/-! What expat reports of a whole document. -/
namespace Verif.Expat
open Verif Verif.Spec.Xml
open Verif.Xml (takeWhile_append_stop isName_ne_nil nameStart_not_ws isName_chars)

mutual
/-- The reports of an element, without its tail. -/
def sax : Elem → List Sax
  | .mk tag attrib text _ children => .start tag attrib :: chars (textStr text) ++ saxList children ++ [.stop tag]
/-- The reports of elements with their tails. -/
def saxList : List Elem → List Sax
  | [] => []
  | e :: es => sax e ++ chars (textStr e.tail) ++ saxList es
end

theorem takeWhile_all {p : Char → Bool} : ∀ {a : Str}, (∀ c ∈ a, p c = true) → a.takeWhile p = a ∧ a.dropWhile p = []
  | [], _ => ⟨rfl, rfl⟩
  | c :: a, h => by
    obtain ⟨h1, h2⟩ := takeWhile_all (a := a) fun x hx => h x (by simp [hx])
    rw [List.takeWhile_cons, List.dropWhile_cons, if_pos (h c (by simp)), if_pos (h c (by simp)), h1, h2]
    exact ⟨rfl, rfl⟩

theorem while_split (p : Char → Bool) (s : Str) : s = s.takeWhile p ++ s.dropWhile p ∧ (∀ c ∈ s.takeWhile p, p c = true) ∧ ∀ c ∈ (s.dropWhile p).head?, p c = false := by
  refine ⟨List.takeWhile_append_dropWhile.symm, fun c hc => ?_, fun c hc => ?_⟩
  · induction s with
    | nil => cases hc
    | cons x s ih =>
      rw [List.takeWhile_cons] at hc
      split at hc
      · rcases List.mem_cons.1 hc with rfl | hc
        · assumption
        · exact ih hc
      · cases hc
  · induction s with
    | nil => cases hc
    | cons x s ih =>
      rw [List.dropWhile_cons] at hc
      split at hc
      · exact ih hc
      · next hx =>
        rw [Bool.not_eq_true] at hx
        cases hc
        exact hx

/-- The forms of what is parsed as attributes and the end of a start tag. -/
inductive AttrForm (n : Nat) (s : Str) : List (Str × Str) → Bool → Str → Prop
  | close (w rest) (hw : ∀ c ∈ w, ws c = true) (hs : s = w ++ '>' :: rest) : AttrForm n s [] false rest
  | empty (w rest) (hw : ∀ c ∈ w, ws c = true) (hs : s = w ++ '/' :: '>' :: rest) : AttrForm n s [] true rest
  | attr (w name w2 w3 : Str) (q : Char) (v x tail : Str) (l b rest) (hw : ∀ c ∈ w, ws c = true) (hne : w ≠ []) (hn : isName name = true) (h2 : ∀ c ∈ w2, ws c = true)
      (h3 : ∀ c ∈ w3, ws c = true) (hq : q = '"' ∨ q = '\'') (hv : q ∉ v) (hx : parseAttr v = some x) (hl : name ∉ l.map Prod.fst)
      (ht : parseAttrs n tail = some (l, b, rest)) (hs : s = w ++ (name ++ (w2 ++ '=' :: (w3 ++ q :: (v ++ q :: tail))))) : AttrForm n s ((name, x) :: l) b rest

theorem parseAttrs_form {n : Nat} {s rest : Str} {l : List (Str × Str)} {b : Bool} (h : parseAttrs (n + 1) s = some (l, b, rest)) : AttrForm n s l b rest := by
  obtain ⟨e1, w1, n1⟩ := while_split ws s
  rw [parseAttrs] at h
  split at h
  · cases h
  next c r hd =>
  rw [hd] at e1
  split at h
  · next hc =>
    cases h; subst hc
    exact .close _ _ w1 e1
  split at h
  · next hc =>
    split at h
    · next hr =>
      cases h; subst hc
      rcases r with _ | ⟨a, r⟩
      · cases hr
      · cases hr
        exact .empty _ _ w1 e1
    · cases h
  split at h
  · cases h
  next hh =>
  simp only at h
  split at h
  · cases h
  next hn =>
  split at h
  · cases h
  next heq =>
  split at h
  · cases h
  next q r' hq =>
  split at h
  · cases h
  next hqq =>
  split at h
  next v x tail hv hdq =>
    split at h
    · next l' b' rest' ht =>
      split at h
      · cases h
      next hl =>
      cases h
      rw [Bool.not_eq_true, Bool.not_eq_false'] at hn
      rw [ne_eq, Decidable.not_not] at heq
      obtain ⟨e2, w2, n2⟩ := while_split nameChar (c :: r)
      obtain ⟨e3, w3, n3⟩ := while_split ws ((c :: r).dropWhile nameChar)
      rcases h4 : ((c :: r).dropWhile nameChar).dropWhile ws with _ | ⟨a, after⟩
      · rw [h4] at heq; cases heq
      rw [h4] at heq hq e3
      cases heq
      rw [List.drop_one, List.tail_cons] at hq
      obtain ⟨e4, w4, n4⟩ := while_split ws after
      rw [hq] at e4
      obtain ⟨e5, w5, n5⟩ := while_split (fun x => decide (x ≠ q)) r'
      rw [hdq] at e5 n5
      have hx : x = q := by
        have := n5 x (by simp)
        simpa using this
      subst hx
      refine .attr (s.takeWhile ws) ((c :: r).takeWhile nameChar) (((c :: r).dropWhile nameChar).takeWhile ws) (after.takeWhile ws) x (r'.takeWhile (· ≠ x)) v tail l' b rest w1
        (fun e => hh ?_) hn w3 w4 (by
          rcases Classical.em (x = '"') with h | h
          · exact .inl h
          · rcases Classical.em (x = '\'') with h' | h'
            · exact .inr h'
            · exact absurd ⟨h, h'⟩ hqq) (fun hm => by simpa using w5 x hm) hv hl ht ?_
      · rw [e1, e]; rfl
      · conv => lhs; rw [e1, e2, e3, e4, e5]
    · cases h
  · cases h

theorem parseAttrs_attr {w name w2 w3 : Str} {q : Char} {v x : Str} (hw : ∀ c ∈ w, ws c = true) (hne : w ≠ []) (hn : isName name = true) (h2 : ∀ c ∈ w2, ws c = true)
    (h3 : ∀ c ∈ w3, ws c = true) (hq : q = '"' ∨ q = '\'') (hv : q ∉ v) (hx : parseAttr v = some x) (m : Nat) (tail : Str) :
    parseAttrs (m + 1) (w ++ (name ++ (w2 ++ '=' :: (w3 ++ q :: (v ++ q :: tail))))) =
      match parseAttrs m tail with
      | some (l, b, rest) => if name ∈ l.map Prod.fst then none else some ((name, x) :: l, b, rest)
      | none => none := by
  obtain ⟨c, k, rfl⟩ : ∃ c k, name = c :: k := List.exists_cons_of_ne_nil (isName_ne_nil hn)
  have hst : nameStart c = true := by simp only [isName, Bool.and_eq_true] at hn; exact hn.1
  obtain ⟨hws, hgt, hsl, hsp⟩ := nameStart_not_ws hst
  have hqw : ws q = false := by rcases hq with rfl | rfl <;> decide
  obtain ⟨a0, w0, rfl⟩ := List.exists_cons_of_ne_nil hne
  have e1 := (takeWhile_append_stop (p := ws) (x := c) (r := k ++ (w2 ++ '=' :: (w3 ++ q :: (v ++ q :: tail)))) hw hws).2
  have hnc : ∀ (w2 : Str), (∀ c ∈ w2, ws c = true) → ∀ r, ∃ y z, w2 ++ '=' :: r = y :: z ∧ nameChar y = false := by
    intro w2 h2 r
    cases w2 with
    | nil => exact ⟨'=', r, rfl, by decide⟩
    | cons a w2 =>
      refine ⟨a, w2 ++ '=' :: r, rfl, ?_⟩
      have := h2 a (by simp)
      simp only [ws, Bool.or_eq_true, decide_eq_true_eq] at this
      rcases this with ((rfl | rfl) | rfl) | rfl <;> decide
  obtain ⟨y, z, hyz, hy⟩ := hnc w2 h2 (w3 ++ q :: (v ++ q :: tail))
  have e2 := takeWhile_append_stop (p := nameChar) (x := y) (r := z) (isName_chars hn) hy
  have e3 := (takeWhile_append_stop (p := ws) (x := '=') (r := w3 ++ q :: (v ++ q :: tail)) h2 (by decide)).2
  have e4 := (takeWhile_append_stop (p := ws) (x := q) (r := v ++ q :: tail) h3 hqw).2
  have e5 := takeWhile_append_stop (p := fun x => decide (x ≠ q)) (a := v) (x := q) (r := tail) (fun y hy => by
    rw [decide_eq_true_iff]; rintro rfl; exact hv hy) (by simp)
  rw [parseAttrs]
  rw [List.cons_append] at e2 ⊢
  rw [List.cons_append] at e1
  rw [List.cons_append, e1]
  simp only
  rw [if_neg hgt, if_neg hsl, if_neg (by
    intro e
    rw [List.head?_cons] at e
    injection e with e
    subst e
    rw [hw a0 (by simp)] at hws
    cases hws)]
  rw [hyz, e2.1, e2.2, ← hyz, e3, hn]
  simp only [Bool.not_true, Bool.false_eq_true, if_false, List.head?_cons, ne_eq, not_true_eq_false, List.drop_succ_cons, List.drop_zero]
  rw [e4]
  simp only
  rw [if_neg (by rcases hq with rfl | rfl <;> simp)]
  simp only [ne_eq] at e5
  rw [e5.1, e5.2, hx]
  dsimp only
  cases parseAttrs m tail <;> rfl

theorem tagEnd_plain : ∀ {a : Str}, (∀ c ∈ a, c ≠ '>' ∧ c ≠ '"' ∧ c ≠ '\'') → ∀ r, tagEnd none (a ++ r) = (tagEnd none r).map fun x => (a ++ x.1, x.2)
  | [], _, r => by rw [List.nil_append]; cases tagEnd none r <;> rfl
  | c :: a, h, r => by
    obtain ⟨h1, h2, h3⟩ := h c (by simp)
    rw [List.cons_append, tagEnd, if_neg h1, if_neg (by simp [h2, h3]), tagEnd_plain (a := a) (fun x hx => h x (by simp [hx]))]
    cases tagEnd none r <;> rfl

theorem tagEnd_quoted {q : Char} : ∀ {v : Str}, q ∉ v → ∀ r, tagEnd (some q) (v ++ q :: r) = (tagEnd none r).map fun x => (v ++ q :: x.1, x.2)
  | [], _, r => by rw [List.nil_append, tagEnd, if_pos rfl]; rfl
  | c :: v, h, r => by
    rw [List.mem_cons, not_or] at h
    rw [List.cons_append, tagEnd, if_neg (fun e => h.1 e.symm), tagEnd_quoted h.2]
    cases tagEnd none r <;> rfl

theorem plain_ws {c : Char} (h : ws c = true) : c ≠ '>' ∧ c ≠ '"' ∧ c ≠ '\'' := by
  simp only [ws, Bool.or_eq_true, decide_eq_true_eq] at h
  rcases h with ((rfl | rfl) | rfl) | rfl <;> decide

theorem plain_name {c : Char} (h : nameChar c = true) : c ≠ '>' ∧ c ≠ '"' ∧ c ≠ '\'' :=
  ⟨by rintro rfl; exact absurd h (by decide), by rintro rfl; exact absurd h (by decide), by rintro rfl; exact absurd h (by decide)⟩

/-- Attributes are parsed from a token that ends with the first `>` outside quotes. -/
theorem attrs_token : ∀ {n : Nat} {s rest : Str} {l : List (Str × Str)} {b : Bool}, parseAttrs n s = some (l, b, rest) →
    ∃ tok, s = tok ++ rest ∧ tok ≠ [] ∧ (∀ m, tok.length ≤ m → parseAttrs m tok = some (l, b, [])) ∧ ∀ u, tagEnd none (tok ++ u) = some (tok, u) := by
  intro n
  induction n with
  | zero => intro s rest l b h; cases h
  | succ n ih =>
    intro s rest l b h
    cases parseAttrs_form h with
    | close w _ hw hs =>
      refine ⟨w ++ ['>'], by rw [hs, List.append_assoc]; rfl, by simp, fun m hm => ?_, fun u => ?_⟩
      · obtain ⟨m, rfl⟩ : ∃ k, m = k + 1 := ⟨m - 1, by simp at hm; omega⟩
        rw [parseAttrs, (takeWhile_append_stop (p := ws) (x := '>') (r := []) hw (by decide)).2]
        rfl
      · rw [List.append_assoc, tagEnd_plain (fun c hc => plain_ws (hw c hc))]
        rfl
    | empty w _ hw hs =>
      refine ⟨w ++ ['/', '>'], by rw [hs, List.append_assoc]; rfl, by simp, fun m hm => ?_, fun u => ?_⟩
      · obtain ⟨m, rfl⟩ : ∃ k, m = k + 1 := ⟨m - 1, by simp at hm; omega⟩
        rw [parseAttrs, (takeWhile_append_stop (p := ws) (x := '/') (r := ['>']) hw (by decide)).2]
        rfl
      · rw [List.append_assoc, tagEnd_plain (fun c hc => plain_ws (hw c hc))]
        rfl
    | attr w name w2 w3 q v x tail l' _ _ hw hne hn h2 h3 hq hv hx hl ht hs =>
      obtain ⟨tok, t1, t2, t3, t4⟩ := ih ht
      refine ⟨w ++ (name ++ (w2 ++ '=' :: (w3 ++ q :: (v ++ q :: tok)))), by rw [hs, t1]; simp, by simp, fun m hm => ?_, fun u => ?_⟩
      · obtain ⟨m, rfl⟩ : ∃ k, m = k + 1 := ⟨m - 1, by simp at hm; omega⟩
        rw [parseAttrs_attr hw hne hn h2 h3 hq hv hx, t3 m (by simp at hm; omega)]
        dsimp only
        rw [if_neg hl]
      · have e : w ++ (name ++ (w2 ++ '=' :: (w3 ++ q :: (v ++ q :: tok)))) ++ u = w ++ (name ++ (w2 ++ (['='] ++ (w3 ++ q :: (v ++ q :: (tok ++ u)))))) := by simp
        rw [e, tagEnd_plain (fun c hc => plain_ws (hw c hc)), tagEnd_plain (fun c hc => plain_name (isName_chars hn c hc)), tagEnd_plain (fun c hc => plain_ws (h2 c hc)),
          tagEnd_plain (a := ['=']) (by simp), tagEnd_plain (fun c hc => plain_ws (h3 c hc)), tagEnd, if_neg (by rcases hq with rfl | rfl <;> decide),
          if_pos hq, tagEnd_quoted hv, t4]
        simp

theorem splitAtFirst_at {c : Char} : ∀ {a : Str}, c ∉ a → ∀ r, splitAtFirst [c] (a ++ c :: r) = some (a, r)
  | [], _, r => by simp [splitAtFirst, List.isPrefixOf]
  | x :: a, h, r => by
    rw [List.mem_cons, not_or] at h
    rw [List.cons_append, splitAtFirst, if_neg (by simp [List.isPrefixOf]; exact h.1), splitAtFirst_at h.2]
    rfl

theorem dropWhile_length (p : Char → Bool) (s : Str) : (s.dropWhile p).length ≤ s.length := (List.dropWhile_sublist _).length_le

/-- An end tag. -/
theorem endTag_whole {name r rest : Str} (hr : r.takeWhile nameChar = name) (h : (r.dropWhile nameChar).dropWhile ws = '>' :: rest) :
    endTag name r = .done () rest ∧ rest.length < r.length := by
  obtain ⟨w, hw, hd⟩ : ∃ w, (∀ c ∈ w, ws c = true) ∧ r.dropWhile nameChar = w ++ '>' :: rest :=
    ⟨(r.dropWhile nameChar).takeWhile ws, fun c hc => List.mem_takeWhile_imp hc, by rw [← h, List.takeWhile_append_dropWhile]⟩
  have e : r = (name ++ w) ++ '>' :: rest := by
    rw [List.append_assoc, ← hd, ← hr, List.takeWhile_append_dropWhile]
  have hn : ∀ c ∈ name, nameChar c = true := fun c hc => by rw [← hr] at hc; exact List.mem_takeWhile_imp hc
  have hmem : '>' ∉ name ++ w := by
    intro hm
    rcases List.mem_append.1 hm with hm | hm
    · exact (plain_name (hn _ hm)).1 rfl
    · exact (plain_ws (hw _ hm)).1 rfl
  have htd : (name ++ w).takeWhile nameChar = name ∧ (name ++ w).dropWhile nameChar = w := by
    cases w with
    | nil => rw [List.append_nil]; exact takeWhile_all hn
    | cons a w =>
      have ha : nameChar a = false := by
        have := hw a (by simp)
        simp only [ws, Bool.or_eq_true, decide_eq_true_eq] at this
        rcases this with ((rfl | rfl) | rfl) | rfl <;> decide
      exact takeWhile_append_stop hn ha
  refine ⟨?_, by rw [e]; simp; omega⟩
  rw [endTag, e, splitAtFirst_at hmem]
  dsimp only
  rw [htd.1, htd.2, if_pos ⟨rfl, List.all_eq_true.2 hw⟩]

/-- A start tag. -/
theorem startTag_whole {n : Nat} {r rest : Str} {l : List (Str × Str)} {b : Bool} (hn : isName (r.takeWhile nameChar) = true)
    (h : parseAttrs n (r.dropWhile nameChar) = some (l, b, rest)) :
    startTag ('<' :: r) = .done (r.takeWhile nameChar, l, b) rest ∧ rest.length + 2 ≤ ('<' :: r).length := by
  obtain ⟨tok, h1, h2, h3, h4⟩ := attrs_token h
  have hc := isName_chars hn
  have e : r = r.takeWhile nameChar ++ (tok ++ rest) := by rw [← h1, List.takeWhile_append_dropWhile]
  have htd : (r.takeWhile nameChar ++ tok).takeWhile nameChar = r.takeWhile nameChar ∧ (r.takeWhile nameChar ++ tok).dropWhile nameChar = tok := by
    cases tok with
    | nil => exact absurd rfl h2
    | cons a tok =>
      have ha : nameChar a = false := by
        have := List.head?_dropWhile_not nameChar r
        rw [h1] at this
        simpa using this
      exact takeWhile_append_stop hc ha
  have ht : tagEnd none ('<' :: r) = some ('<' :: (r.takeWhile nameChar ++ tok), rest) := by
    conv_lhs => rw [e]
    rw [show '<' :: (r.takeWhile nameChar ++ (tok ++ rest)) = ['<'] ++ (r.takeWhile nameChar ++ (tok ++ rest)) from rfl, tagEnd_plain (by simp),
      tagEnd_plain (fun c h => plain_name (hc c h)), h4]
    rfl
  constructor
  · rw [startTag, ht]
    dsimp only
    rw [List.drop_succ_cons, List.drop_zero, htd.1, htd.2, hn, if_neg (by simp), h3 _ (by simp; omega)]
  · have : 0 < tok.length := List.length_pos_iff.2 h2
    have e2 := congrArg List.length e
    simp only [List.length_append, List.length_cons] at e2 ⊢
    omega

theorem parseMarkup_length {s d rest : Str} (h : parseMarkup s = some (d, rest)) : rest.length < s.length := by
  have hp : ∀ {p s : Str}, p.isPrefixOf s = true → p.length ≤ s.length := fun h => (List.isPrefixOf_iff_prefix.1 h).length_le
  unfold parseMarkup at h
  split at h
  · next h1 =>
    have := hp h1
    unfold dropComment at h
    split at h
    · next e =>
      have := splitAtFirst_length e
      split at h
      · cases h
        simp at *
        omega
      · cases h
    · cases h
  · split at h
    · next h1 =>
      have := hp h1
      unfold dropInstruction at h
      split at h
      · next e =>
        have := splitAtFirst_length e
        split at h
        · cases h
          simp at *
          omega
        · cases h
      · cases h
    · split at h
      · next h1 =>
        have := hp h1
        unfold takeCdata at h
        split at h
        · next e =>
          have := splitAtFirst_length e
          split at h
          · cases h
            simp at *
            omega
          · cases h
        · cases h
      · cases h

theorem markup_whole {s d rest : Str} (h : parseMarkup s = some (d, rest)) : markup s = .done d rest := by rw [markup, h]

theorem textStr_asText (s : Str) : textStr (asText s) = s := by cases s <;> rfl

theorem sax_withTail (t : Option Text) (e : Elem) : sax (withTail t e) = sax e ∧ (withTail t e).tail = t := by
  cases e; exact ⟨rfl, rfl⟩

theorem report_report (a b : List Sax) (x : List Sax × Ending) : report a (report b x) = report (a ++ b) x := by
  simp [report]

theorem chars_append (a b : Str) : chars (a ++ b) = chars a ++ chars b := List.map_append ..

theorem whole_both : ∀ (n : Nat),
    (∀ {s rest : Str} {e : Elem}, parseElem n s = some (e, rest) → ∃ tag l b r, startTag s = .done (tag, l, b) r ∧ r.length + 2 ≤ s.length ∧
      (∃ c s', s = '<' :: c :: s' ∧ nameStart c = true) ∧
      (b = true → r = rest ∧ sax e = [.start tag l, .stop tag]) ∧
      (b = false → ∃ x, sax e = .start tag l :: x ∧ ∃ k, k + rest.length ≤ r.length ∧ ∀ f st, content (k + f) (tag :: st) r = report x (content f st rest))) ∧
    (∀ {name s rest : Str} {t : Option Text} {es : List Elem}, parseContent n name s = some (t, es, rest) →
      ∃ k, k + rest.length ≤ s.length ∧ ∀ f st, content (k + f) (name :: st) s = report (chars (textStr t) ++ saxList es ++ [.stop name]) (content f st rest)) := by
  intro n
  induction n with
  | zero => exact ⟨fun h => by simp [parseElem] at h, fun h => by simp [parseContent] at h⟩
  | succ n ih =>
    obtain ⟨ihE, ihC⟩ := ih
    constructor
    · intro s rest e h
      rw [parseElem.eq_def] at h
      dsimp only at h
      split at h
      · cases h
      · next c r =>
        split at h
        · cases h
        · next hc =>
          rw [not_not] at hc
          subst hc
          split at h
          · cases h
          · next hn =>
            have hn : isName (r.takeWhile nameChar) = true := by simpa using hn
            have hst : ∃ c s', '<' :: r = '<' :: c :: s' ∧ nameStart c = true := by
              cases r with
              | nil => simp [isName] at hn
              | cons c r =>
                refine ⟨c, r, rfl, ?_⟩
                rw [List.takeWhile_cons] at hn
                split at hn
                · simp only [isName, Bool.and_eq_true] at hn; exact hn.1
                · simp [isName] at hn
            split at h
            · cases h
            · next l r1 hp =>
              cases h
              obtain ⟨h1, h2⟩ := startTag_whole hn hp
              exact ⟨_, _, _, _, h1, h2, hst, fun _ => ⟨rfl, by simp [sax, saxList, textStr, chars]⟩, fun h => nomatch h⟩
            · next l r1 hp =>
              obtain ⟨h1, h2⟩ := startTag_whole hn hp
              split at h
              · cases h
              · next t es r2 hc =>
                cases h
                obtain ⟨k, hk, hK⟩ := ihC hc
                exact ⟨_, _, _, _, h1, h2, hst, (fun h => nomatch h), fun _ => ⟨_, by rw [sax]; simp only [List.cons_append], k, hk, hK⟩⟩
    · intro name s rest t es h
      have hl := dropWhile_length (· ≠ '<') s
      rw [parseContent] at h
      split at h
      · cases h
      · next x hx =>
        split at h
        · next h2 =>
          have hlen : ¬ (s.dropWhile (· ≠ '<')).length < 2 := by
            have := congrArg List.length h2
            rw [List.length_take] at this
            have h9 : min 2 (s.dropWhile (· ≠ '<')).length = 2 := this
            omega
          dsimp only at h
          split at h
          · cases h
          · next hname =>
            rw [not_not] at hname
            split at h
            · cases h
            · next c r hr =>
              split at h
              · next hc =>
                subst hc
                cases h
                obtain ⟨h3, h4⟩ := endTag_whole hname hr
                refine ⟨1, ?_, fun f st => ?_⟩
                · rw [List.length_drop] at h4; omega
                · rw [Nat.add_comm, content, if_neg hlen, hx]
                  dsimp only
                  rw [if_pos h2, h3, textStr_asText]
                  simp [saxList]
              · cases h
        · next h2 =>
          split at h
          · next hm =>
            split at h
            · cases h
            · next d r hp =>
              have hpl := parseMarkup_length hp
              split at h
              · cases h
              · next y es' r' hc =>
                cases h
                obtain ⟨k, hk, hK⟩ := ihC hc
                have hlen : ¬ (s.dropWhile (· ≠ '<')).length < 2 := by
                  intro hlt
                  rw [isMarkup] at hm
                  rw [List.take_of_length_le (by omega)] at hm
                  simp only [Bool.or_eq_true, decide_eq_true_eq] at hm
                  rcases hm with hm | hm <;> rw [hm] at hlt <;> simp at hlt
                refine ⟨k + 1, by omega, fun f st => ?_⟩
                rw [Nat.add_right_comm, content, if_neg hlen, hx]
                dsimp only
                rw [if_neg h2, if_pos hm, markup_whole hp]
                dsimp only
                rw [hK, report_report, textStr_asText]
                simp [chars_append]
          · next hm =>
            split at h
            · cases h
            · next e r hp =>
              split at h
              · cases h
              · next tl es' r' hc =>
                cases h
                obtain ⟨k, hk, hK⟩ := ihC hc
                obtain ⟨tag, l, b, r1, h3, h4, h5, h6, h7⟩ := ihE hp
                have hlen : ¬ (s.dropWhile (· ≠ '<')).length < 2 := by omega
                cases b with
                | true =>
                  obtain ⟨rfl, h8⟩ := h6 rfl
                  refine ⟨k + 1, by omega, fun f st => ?_⟩
                  rw [Nat.add_right_comm, content, if_neg hlen, hx]
                  dsimp only
                  rw [if_neg h2, if_neg hm, h3]
                  dsimp only
                  rw [hK, report_report, textStr_asText, saxList, (sax_withTail tl e).1, (sax_withTail tl e).2, h8]
                  simp
                | false =>
                  obtain ⟨y, h8, k2, hk2, hK2⟩ := h7 rfl
                  refine ⟨k2 + k + 1, by omega, fun f st => ?_⟩
                  rw [Nat.add_right_comm, content, if_neg hlen, hx]
                  dsimp only
                  rw [if_neg h2, if_neg hm, h3]
                  dsimp only
                  rw [Nat.add_assoc, hK2, hK, report_report, report_report, textStr_asText, saxList, (sax_withTail tl e).1, (sax_withTail tl e).2, h8]
                  simp

theorem misc_whole : ∀ (n m : Nat) {s r : Str}, s.length ≤ n → s.length < m → dropMisc n s = some r → (r = [] ∨ begins c!"<!--" r = false) → misc m s = .done () r := by
  intro n
  induction n with
  | zero =>
    intro m s r hn hm h hr
    obtain ⟨m, rfl⟩ : ∃ k, m = k + 1 := ⟨m - 1, by omega⟩
    have : s = [] := List.eq_nil_of_length_eq_zero (by omega)
    subst this
    cases h
    rfl
  | succ n ih =>
    intro m s r hn hm h hr
    obtain ⟨m, rfl⟩ : ∃ k, m = k + 1 := ⟨m - 1, by omega⟩
    have hl := dropWhile_length ws s
    rw [dropMisc] at h
    rw [misc]
    split at h
    · next h1 =>
      split at h
      · cases h
      · next d rest hp =>
        have hpl := parseMarkup_length hp
        rw [if_neg (by intro e; rw [e] at hpl; simp at hpl), if_neg (by
          intro hb
          rw [begins, Bool.and_eq_true, decide_eq_true_eq] at hb
          rw [Bool.or_eq_true] at h1
          have h3 := hb.2
          rcases h1 with h1 | h1
          · exact absurd (List.isPrefixOf_iff_prefix.1 h1).length_le (by simpa using h3)
          · obtain ⟨u, hu⟩ := List.isPrefixOf_iff_prefix.1 h1
            rw [← hu] at hb
            simp [List.isPrefixOf] at hb), if_pos h1, markup_whole hp]
        exact ih m (by omega) (by omega) h hr
    · next h1 =>
      cases h
      split
      · next h2 => rw [h2]
      · next h2 =>
        rw [if_neg (show ¬ begins c!"<!--" (s.dropWhile ws) = true by rcases hr with hr | hr; exact absurd hr h2; rw [hr]; simp)]

theorem root_whole {s : Str} {e : Elem} (h : parseRoot s = some e) : root s = (sax e, .whole) ∧ ∃ c r, s = '<' :: c :: r ∧ nameStart c = true := by
  rw [parseRoot] at h
  split at h
  · cases h
  · next e' rest hp =>
    split at h
    · next hd =>
      cases h
      obtain ⟨tag, l, b, r, h1, h2, h3, h4, h5⟩ := (whole_both _).1 hp
      refine ⟨?_, h3⟩
      have hend : ∀ f, rest.length < f → content f [] rest = ([], .whole) := by
        intro f hf
        obtain ⟨f, rfl⟩ : ∃ k, f = k + 1 := ⟨f - 1, by omega⟩
        rw [content, misc_whole rest.length (f + 1) (Nat.le_refl _) hf hd (.inl rfl)]
      rw [root, h1]
      cases b with
      | true =>
        obtain ⟨rfl, h6⟩ := h4 rfl
        dsimp only
        rw [hend _ (by omega), h6]
        rfl
      | false =>
        obtain ⟨x, h6, k, hk, hK⟩ := h5 rfl
        dsimp only
        obtain ⟨f, hf⟩ : ∃ f, r.length + 1 = k + f := ⟨r.length + 1 - k, by omega⟩
        rw [hf, hK, hend _ (by omega), report_report, h6]
        simp [report]
    · cases h

/-- What follows the XML declaration. -/
def afterDecl (s : Str) : Option Elem := (dropMisc s.length s).bind fun s => (dropDoctype s).bind fun s => (dropMisc s.length s).bind parseRoot

/-- What follows the first white space. -/
def afterMisc (s : Str) : Option Elem := (dropDoctype s).bind fun s => (dropMisc s.length s).bind parseRoot

theorem prefix_take {p s : Str} (h : s.isPrefixOf p = true) : ∃ k, k ≤ p.length ∧ s = p.take k :=
  ⟨s.length, (List.isPrefixOf_iff_prefix.1 h).length_le, (List.prefix_iff_eq_take.1 (List.isPrefixOf_iff_prefix.1 h))⟩

theorem begins_take {p s : Str} (h : begins p s = true) : ∃ k, k < p.length ∧ s = p.take k := by
  rw [begins, Bool.and_eq_true, decide_eq_true_eq] at h
  exact ⟨s.length, h.2, (List.prefix_iff_eq_take.1 (List.isPrefixOf_iff_prefix.1 h.1))⟩

theorem not_doctype : ∀ k < 10, (afterMisc ((c!"<!DOCTYPE ").take k)).isNone = true := by decide

theorem not_comment : ∀ k < 4, (afterMisc ((c!"<!--").take k)).isNone = true := by decide

theorem not_decl : ∀ k < 6, ((dropDecl ((c!"<?xml").take k)).bind afterDecl).isNone = true := by decide

theorem parse_whole {s : Str} {e : Elem} (h : Spec.Xml.parse s = some e) : parse s = (sax e, .whole) := by
  rw [Spec.Xml.parse] at h
  rw [parse]
  generalize dropMark (normNl false s) = s at h ⊢
  have hd : (dropDecl s).bind afterDecl = some e := h
  obtain ⟨s1, h1, h2⟩ := Option.bind_eq_some_iff.1 h
  obtain ⟨s2, h3, h4⟩ := Option.bind_eq_some_iff.1 h2
  have hm : afterMisc s2 = some e := h4
  obtain ⟨s3, h5, h6⟩ := Option.bind_eq_some_iff.1 h4
  obtain ⟨s4, h7, h8⟩ := Option.bind_eq_some_iff.1 h6
  obtain ⟨h9, c, r, h10, h11⟩ := root_whole h8
  have e1 : decl s = .done () s1 := by
    rw [decl, if_neg (by
      intro hp
      obtain ⟨k, hk, rfl⟩ := prefix_take hp
      have := not_decl k (by simp at hk; omega)
      rw [hd] at this
      cases this)]
    rw [dropDecl] at h1
    split at h1
    · next hc =>
      rw [if_pos hc]
      split at h1
      · next body rest hs =>
        rw [hs]
        dsimp only
        split at h1
        · next l ha =>
          rw [ha]
          dsimp only
          split at h1
          · next hdcl => cases h1; rw [if_pos hdcl]
          · cases h1
        · cases h1
      · cases h1
    · next hc =>
      rw [if_neg hc]
      cases h1
      rfl
  have e2 : misc (s1.length + 1) s1 = .done () s2 := by
    refine misc_whole _ _ (Nat.le_refl _) (Nat.lt_succ_self _) h3 (.inr ?_)
    by_contra hb
    rw [Bool.not_eq_false] at hb
    obtain ⟨k, hk, rfl⟩ := begins_take hb
    have := not_comment k (by simpa using hk)
    rw [hm] at this
    cases this
  have e3 : doctype s2 = .done () s3 := by
    rw [doctype, if_neg (by
      intro hb
      obtain ⟨k, hk, rfl⟩ := begins_take hb
      have := not_doctype k (by simpa using hk)
      rw [hm] at this
      cases this), h5]
  have e4 : misc (s3.length + 1) s3 = .done () s4 := by
    refine misc_whole _ _ (Nat.le_refl _) (Nat.lt_succ_self _) h7 (.inr ?_)
    by_contra hb
    rw [Bool.not_eq_false] at hb
    obtain ⟨k, hk, hs⟩ := begins_take hb
    rw [h10] at hs
    have hk : k < 4 := by simpa using hk
    match k, hk with
    | 0, _ => cases hs
    | 1, _ => cases hs
    | 2, _ => cases hs; exact absurd h11 (by decide)
    | 3, _ => cases hs; exact absurd h11 (by decide)
  have e5 : ∃ c r, s2 = c :: r := by
    cases s2 with
    | nil => have := not_comment 0 (by omega); rw [List.take_zero, hm] at this; cases this
    | cons c r => exact ⟨c, r, rfl⟩
  obtain ⟨c', r', rfl⟩ := e5
  rw [document, e1]
  dsimp only [andThen]
  rw [e2]
  dsimp only [andThenMore]
  rw [e3]
  dsimp only
  rw [e4, h10]
  dsimp only
  rw [← h10, h9]

/-! ### Reports determine the tree -/

/-- Reports that do not start with a character. -/
def Tagged (l : List Sax) : Prop := ∀ c l', l ≠ .chr c :: l'

theorem chars_split : ∀ {a b : Str} {x y : List Sax}, Tagged x → Tagged y → chars a ++ x = chars b ++ y → a = b ∧ x = y
  | [], [], _, _, _, _, h => ⟨rfl, h⟩
  | [], c :: b, _, _, hx, _, h => absurd h (hx _ _)
  | c :: a, [], _, _, _, hy, h => absurd h.symm (hy _ _)
  | c :: a, d :: b, x, y, hx, hy, h => by
    simp only [chars, List.map_cons, List.cons_append, List.cons.injEq, Sax.chr.injEq] at h
    obtain ⟨h1, h2⟩ := chars_split hx hy (a := a) (b := b) h.2
    exact ⟨by rw [h.1, h1], h2⟩

theorem tagged_stop (n : Str) (l : List Sax) : Tagged (.stop n :: l) := fun _ _ h => nomatch h

theorem tagged_saxList (c : List Elem) (n : Str) (l : List Sax) : Tagged (saxList c ++ .stop n :: l) := by
  cases c with
  | nil => exact tagged_stop n l
  | cons e es =>
    cases e
    rw [saxList, sax]
    exact fun _ _ h => nomatch h

mutual
theorem sax_inj : ∀ (e e' : Elem) {u v : List Sax}, plain e = e → plain e' = e' → sax e ++ u = sax e' ++ v → withTail none e = withTail none e' ∧ u = v
  | .mk tag attrib text tail children, .mk tag' attrib' text' tail' children', u, v, he, he', h => by
    simp only [plain, Elem.mk.injEq, true_and] at he he'
    simp only [sax, List.cons_append, List.append_assoc, List.cons.injEq, Sax.start.injEq, List.nil_append] at h
    obtain ⟨h1, h2⟩ := chars_split (tagged_saxList _ _ _) (tagged_saxList _ _ _) h.2
    obtain ⟨h3, h4⟩ := saxList_inj children children' he.2.2 he'.2.2 h2
    refine ⟨?_, h4⟩
    rw [withTail, withTail, h.1.1, h.1.2, h3, ← he.1, ← he'.1, h1]
theorem saxList_inj : ∀ (c c' : List Elem) {n n' : Str} {u v : List Sax}, plainList c = c → plainList c' = c' → saxList c ++ .stop n :: u = saxList c' ++ .stop n' :: v →
    c = c' ∧ u = v
  | [], [], _, _, _, _, _, _, h => by
    simp only [saxList, List.nil_append, List.cons.injEq] at h
    exact ⟨rfl, h.2⟩
  | [], .mk _ _ _ _ _ :: _, _, _, _, _, _, _, h => by simp [saxList, sax] at h
  | .mk _ _ _ _ _ :: _, [], _, _, _, _, _, _, h => by simp [saxList, sax] at h
  | e :: es, e' :: es', n, n', u, v, he, he', h => by
    simp only [plainList, List.cons.injEq] at he he'
    simp only [saxList, List.append_assoc] at h
    obtain ⟨h1, h2⟩ := sax_inj e e' he.1 he'.1 h
    obtain ⟨h3, h4⟩ := chars_split (tagged_saxList _ _ _) (tagged_saxList _ _ _) h2
    obtain ⟨h5, h6⟩ := saxList_inj es es' he.2 he'.2 h4
    refine ⟨?_, h6⟩
    rw [h5]
    congr 1
    cases e; cases e'
    simp only [plain, Elem.mk.injEq, true_and] at he he'
    simp only [withTail, Elem.mk.injEq, true_and] at h1
    simp only [Elem.tail] at h3
    rw [Elem.mk.injEq]
    exact ⟨h1.1, h1.2.1, h1.2.2.1, by rw [← he.1.2.1, ← he'.1.2.1, h3], h1.2.2.2⟩
end

theorem asText_asText (s : Str) : asText (textStr (asText s)) = asText s := by rw [textStr_asText]

theorem plain_withTail {t : Option Text} {e : Elem} (ht : asText (textStr t) = t) (he : plain e = e) : plain (withTail t e) = withTail t e := by
  cases e
  simp only [plain, Elem.mk.injEq, true_and] at he
  simp only [withTail, plain, ht, he.1, he.2.2]

theorem parsed_both : ∀ (n : Nat),
    (∀ {s rest : Str} {e : Elem}, parseElem n s = some (e, rest) → plain e = e ∧ withTail none e = e) ∧
    (∀ {name s rest : Str} {t : Option Text} {es : List Elem}, parseContent n name s = some (t, es, rest) → asText (textStr t) = t ∧ plainList es = es) := by
  intro n
  induction n with
  | zero => exact ⟨fun h => by simp [parseElem] at h, fun h => by simp [parseContent] at h⟩
  | succ n ih =>
    obtain ⟨ihE, ihC⟩ := ih
    constructor
    · intro s rest e h
      rw [parseElem.eq_def] at h
      dsimp only at h
      repeat' split at h
      all_goals first
        | (cases h; done)
        | (cases h; exact ⟨rfl, rfl⟩)
        | (next hc => cases h; obtain ⟨h1, h2⟩ := ihC hc; exact ⟨by simp only [plain, h1, h2]; rfl, rfl⟩)
    · intro name s rest t es h
      rw [parseContent] at h
      repeat' split at h
      all_goals first
        | (cases h; done)
        | (dsimp only at h; repeat' split at h
           all_goals first
             | (cases h; done)
             | (cases h; exact ⟨asText_asText _, rfl⟩))
        | (next hc => cases h; exact ⟨asText_asText _, (ihC hc).2⟩)
        | (next he _ _ _ _ hc => cases h; exact ⟨asText_asText _, by rw [plainList, plain_withTail (ihC hc).1 (ihE he).1, (ihC hc).2]⟩)

theorem parse_plain {s : Str} {e : Elem} (h : Spec.Xml.parse s = some e) : plain e = e ∧ withTail none e = e := by
  rw [Spec.Xml.parse] at h
  obtain ⟨s1, h1, h2⟩ := Option.bind_eq_some_iff.1 h
  obtain ⟨s2, h3, h4⟩ := Option.bind_eq_some_iff.1 h2
  obtain ⟨s3, h5, h6⟩ := Option.bind_eq_some_iff.1 h4
  obtain ⟨s4, h7, h8⟩ := Option.bind_eq_some_iff.1 h6
  rw [parseRoot] at h8
  split at h8
  · cases h8
  · next hp =>
    split at h8
    · cases h8; exact (parsed_both _).1 hp
    · cases h8

/-- A document that begins like another one says the same. -/
theorem parse_prefix {s t : Str} {e e' : Elem} (hp : s <+: t) (h : Spec.Xml.parse s = some e) (h' : Spec.Xml.parse t = some e') : e = e' := by
  obtain ⟨-, u, hu⟩ := parse_online hp (by rw [parse_whole h']; simp)
  rw [parse_whole h, parse_whole h'] at hu
  obtain ⟨h1, h2⟩ := parse_plain h
  obtain ⟨h3, h4⟩ := parse_plain h'
  rw [← h2, ← h4]
  exact (sax_inj e e' (u := u) (v := []) h1 h3 (by simpa using hu)).1

end Verif.Expat
