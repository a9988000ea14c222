import Verif.Py.Str
/-! UTF-8, as used for every text file of a UFO (`encoding="utf-8"` in etree.py and plistlib.py). -/
namespace Verif

/-- Python `bytes`. -/
abbrev Bytes := List UInt8

/-- `s.encode("utf-8")`. Python strings that hold lone surrogates, which cannot be encoded, are not modelled
(`Str` has no surrogates). -/
def utf8 (s : Str) : Bytes := s.flatMap String.utf8EncodeChar

/-- A continuation byte. -/
def isCont (b : UInt8) : Bool := 128 ≤ b.toNat && b.toNat < 192

/-- `b.decode("utf-8")`; `none` when the bytes are not UTF-8: table 3-7 of the Unicode standard (no overlong forms, no surrogates,
nothing above U+10FFFF). -/
def utf8Decode : Bytes → Option Str
  | [] => some []
  | a :: r =>
    if a.toNat < 128 then (utf8Decode r).map (Char.ofNat a.toNat :: ·)
    else match r with
      | [] => none
      | b :: r =>
        if a.toNat < 224 then
          if 194 ≤ a.toNat && isCont b then (utf8Decode r).map (Char.ofNat ((a.toNat - 192) * 64 + (b.toNat - 128)) :: ·) else none
        else match r with
          | [] => none
          | c :: r =>
            if a.toNat < 240 then
              let n := (a.toNat - 224) * 4096 + (b.toNat - 128) * 64 + (c.toNat - 128)
              if isCont b && isCont c && 0x800 ≤ n && !(0xD800 ≤ n && n < 0xE000) then (utf8Decode r).map (Char.ofNat n :: ·) else none
            else match r with
              | [] => none
              | d :: r =>
                let n := (a.toNat - 240) * 262144 + (b.toNat - 128) * 4096 + (c.toNat - 128) * 64 + (d.toNat - 128)
                if isCont b && isCont c && isCont d && 0x10000 ≤ n && n < 0x110000 then (utf8Decode r).map (Char.ofNat n :: ·) else none

theorem utf8Decode_char (c : Char) (r : Bytes) : utf8Decode (String.utf8EncodeChar c ++ r) = (utf8Decode r).map (c :: ·) := by
  have hc : Char.ofNat c.val.toNat = c := Char.ofNat_toNat c
  have hv := c.valid
  have hv' : c.val.toNat < 0xD800 ∨ 0xDFFF < c.val.toNat ∧ c.val.toNat < 0x110000 := hv
  unfold String.utf8EncodeChar
  generalize c.val.toNat = v at *
  simp only
  split
  · simp only [List.cons_append, List.nil_append]
    rw [utf8Decode.eq_def]; dsimp only
    have : (UInt8.ofNat v).toNat = v := by simp; omega
    rw [this, if_pos (by omega), hc]
  · split
    · simp only [List.cons_append, List.nil_append]
      rw [utf8Decode.eq_def]; dsimp only
      have h1 : (UInt8.ofNat (v / 64 % 32 + 192)).toNat = v / 64 + 192 := by simp; omega
      have h2 : (UInt8.ofNat (v % 64 + 128)).toNat = v % 64 + 128 := by simp; omega
      simp only [h1, h2, isCont]
      rw [if_neg (by omega), if_pos (by omega), if_pos (by simp; omega)]
      rw [show (v / 64 + 192 - 192) * 64 + (v % 64 + 128 - 128) = v by omega, hc]
    · split
      · simp only [List.cons_append, List.nil_append]
        rw [utf8Decode.eq_def]; dsimp only
        have h1 : (UInt8.ofNat (v / 4096 % 16 + 224)).toNat = v / 4096 + 224 := by simp; omega
        have h2 : (UInt8.ofNat (v / 64 % 64 + 128)).toNat = v / 64 % 64 + 128 := by simp; omega
        have h3 : (UInt8.ofNat (v % 64 + 128)).toNat = v % 64 + 128 := by simp; omega
        simp only [h1, h2, h3, isCont]
        have e : (v / 4096 + 224 - 224) * 4096 + (v / 64 % 64 + 128 - 128) * 64 + (v % 64 + 128 - 128) = v := by omega
        rw [if_neg (by omega), if_neg (by omega), if_pos (by omega), e, if_pos, hc]
        simp; omega
      · simp only [List.cons_append, List.nil_append]
        rw [utf8Decode.eq_def]; dsimp only
        have h1 : (UInt8.ofNat (v / 262144 % 8 + 240)).toNat = v / 262144 + 240 := by simp; omega
        have h2 : (UInt8.ofNat (v / 4096 % 64 + 128)).toNat = v / 4096 % 64 + 128 := by simp; omega
        have h3 : (UInt8.ofNat (v / 64 % 64 + 128)).toNat = v / 64 % 64 + 128 := by simp; omega
        have h4 : (UInt8.ofNat (v % 64 + 128)).toNat = v % 64 + 128 := by simp; omega
        simp only [h1, h2, h3, h4, isCont]
        have e : (v / 262144 + 240 - 240) * 262144 + (v / 4096 % 64 + 128 - 128) * 4096 + (v / 64 % 64 + 128 - 128) * 64 + (v % 64 + 128 - 128) = v := by omega
        rw [if_neg (by omega), if_neg (by omega), if_neg (by omega), e, if_pos, hc]
        simp; omega

theorem utf8Decode_utf8 (s : Str) : utf8Decode (utf8 s) = some s := by
  induction s with
  | nil => rfl
  | cons c s ih =>
    have : utf8 (c :: s) = String.utf8EncodeChar c ++ utf8 s := rfl
    rw [this, utf8Decode_char, ih]
    rfl

theorem utf8_injective : Function.Injective utf8 := fun a b h => by
  have := utf8Decode_utf8 a
  rw [h, utf8Decode_utf8 b] at this
  exact (Option.some.inj this).symm

end Verif
