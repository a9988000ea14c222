import Verif.Py.Hex
import Verif.Proofs.Num
/-! `int("%04X" % i, 16) == i`. -/
namespace Verif

theorem hexVal_hexDigit {n : Nat} (h : n < 16) : hexVal (hexDigit n) = some n := by
  revert n
  decide

theorem hexDigit_graph {n : Nat} (h : n < 16) : isGraph (hexDigit n) = true ∧ hexDigit n ≠ '-' ∧ hexDigit n ≠ '+' ∧ hexDigit n ≠ 'x' ∧ hexDigit n ≠ 'X' := by
  revert n
  decide

/-- Text of hexadecimal digits only. -/
def HexText (s : Str) : Prop := ∀ c ∈ s, ∃ n, n < 16 ∧ c = hexDigit n

theorem hexUnderscore_append (s : Str) (hs : HexText s) : ∀ (prev : Bool) (acc : Nat) (t : Str),
    hexUnderscore prev acc (s ++ t) = hexUnderscore (prev || !s.isEmpty) (s.foldl (fun a c => a * 16 + (hexVal c).getD 0) acc) t := by
  induction s with
  | nil => intro prev acc t; simp
  | cons c s ih =>
    intro prev acc t
    obtain ⟨n, hn, rfl⟩ := hs c List.mem_cons_self
    rw [List.cons_append, hexUnderscore, hexVal_hexDigit hn]
    simp only
    rw [ih (fun c hc => hs c (List.mem_cons_of_mem _ hc))]
    simp [hexVal_hexDigit hn]

theorem natHexAux_spec (fuel n : Nat) (h : n < fuel) :
    HexText (natHexAux fuel n) ∧ (natHexAux fuel n).foldl (fun a c => a * 16 + (hexVal c).getD 0) 0 = n ∧ natHexAux fuel n ≠ [] := by
  induction fuel generalizing n with
  | zero => omega
  | succ fuel ih =>
    unfold natHexAux
    split
    · next hn =>
      refine ⟨?_, by simp [hexVal_hexDigit hn], by simp⟩
      intro c hc
      rw [List.mem_singleton] at hc
      exact ⟨n, hn, hc⟩
    · next hn =>
      obtain ⟨h1, h2, h3⟩ := ih (n / 16) (by omega)
      have hm : n % 16 < 16 := Nat.mod_lt _ (by omega)
      refine ⟨?_, ?_, by simp⟩
      · intro c hc
        rcases List.mem_append.1 hc with hc | hc
        · exact h1 c hc
        · rw [List.mem_singleton] at hc
          exact ⟨_, hm, hc⟩
      · rw [List.foldl_append, h2]
        simp only [List.foldl_cons, List.foldl_nil, hexVal_hexDigit hm, Option.getD_some]
        omega

theorem zfill_hex (w n : Nat) : HexText (zfill w (natHex n)) ∧ hexBody (zfill w (natHex n)) = some n := by
  obtain ⟨h1, h2, h3⟩ := natHexAux_spec (n + 1) n (by omega)
  have hz : HexText (zfill w (natHex n)) := by
    intro c hc
    rw [zfill] at hc
    rcases List.mem_append.1 hc with hc | hc
    · exact ⟨0, by omega, by rw [(List.mem_replicate.1 hc).2]; rfl⟩
    · exact h1 c hc
  refine ⟨hz, ?_⟩
  have hb : hexBody (zfill w (natHex n)) = hexUnderscore false 0 (zfill w (natHex n)) := by
    have hx : ∀ ds, zfill w (natHex n) ≠ '0' :: 'x' :: ds ∧ zfill w (natHex n) ≠ '0' :: 'X' :: ds := by
      intro ds
      constructor
      all_goals
        intro he
        obtain ⟨m, hm, hc⟩ := hz _ (by rw [he]; exact List.mem_cons_of_mem _ List.mem_cons_self)
        have := hexDigit_graph hm
        simp [← hc] at this
    unfold hexBody
    split
    · next he => exact absurd he (hx _).1
    · next he => exact absurd he (hx _).2
    · next he => exact absurd he (hx _).1
    · next he => exact absurd he (hx _).2
    · rfl
  rw [hb]
  have := hexUnderscore_append _ hz false 0 []
  rw [List.append_nil] at this
  rw [this]
  have hne : (zfill w (natHex n)).isEmpty = false := by
    rw [List.isEmpty_eq_false_iff]
    exact zfill_ne_nil h3
  rw [hne]
  simp only [Bool.not_false, Bool.or_true, hexUnderscore, if_true]
  rw [zfill, List.foldl_append]
  have hzero : ∀ k, (List.replicate k '0').foldl (fun a c => a * 16 + (hexVal c).getD 0) 0 = 0 := by
    intro k
    induction k with
    | zero => rfl
    | succ k ih => rw [List.replicate_succ, List.foldl_cons]; exact ih
  rw [hzero]
  exact congrArg some h2

theorem hexText_strip {s : Str} (h : HexText s) : strip s = s := by
  apply strip_graph
  intro c hc
  obtain ⟨n, hn, rfl⟩ := h c hc
  exact (hexDigit_graph hn).1

theorem hex4_graph (i : Int) : ∀ c ∈ hex4 i, isGraph c = true := by
  intro c hc
  cases i with
  | ofNat n =>
    obtain ⟨m, hm, rfl⟩ := (zfill_hex 4 n).1 c hc
    exact (hexDigit_graph hm).1
  | negSucc n =>
    rw [hex4] at hc
    rcases List.mem_cons.1 hc with rfl | hc
    · decide
    · obtain ⟨m, hm, rfl⟩ := (zfill_hex 3 (n + 1)).1 c hc
      exact (hexDigit_graph hm).1

/-- Unicode values survive. -/
theorem pyInt16_hex4 (i : Int) : pyInt16 (hex4 i) = some i := by
  unfold pyInt16
  rw [strip_graph (hex4_graph i)]
  cases i with
  | ofNat n =>
    obtain ⟨h1, h2⟩ := zfill_hex 4 n
    rw [hex4]
    split
    · next ds he =>
      obtain ⟨m, hm, hc⟩ := h1 '-' (by rw [he]; exact List.mem_cons_self)
      exact absurd hc.symm (hexDigit_graph hm).2.1
    · next ds he =>
      obtain ⟨m, hm, hc⟩ := h1 '+' (by rw [he]; exact List.mem_cons_self)
      exact absurd hc.symm (hexDigit_graph hm).2.2.1
    · rw [h2]; rfl
  | negSucc n =>
    simp only [hex4]
    rw [(zfill_hex 3 (n + 1)).2]
    rfl

end Verif
