import Verif.Go.Basic

/-! How Go decodes UTF-8 (Go package unicode/utf8, trusted). -/

namespace GoMetrics

/-- The tables `first` and `acceptRanges` of utf8.go, for first bytes that are not ASCII: the number of bytes, and the bounds for the second one. -/
def utf8First (b : UInt8) : Option (Nat × UInt8 × UInt8) :=
  if b < 0xC2 then none
  else if b < 0xE0 then some (2, 0x80, 0xBF)
  else if b = 0xE0 then some (3, 0xA0, 0xBF)
  else if b = 0xED then some (3, 0x80, 0x9F)
  else if b < 0xF0 then some (3, 0x80, 0xBF)
  else if b = 0xF0 then some (4, 0x90, 0xBF)
  else if b < 0xF4 then some (4, 0x80, 0xBF)
  else if b = 0xF4 then some (4, 0x80, 0x8F)
  else none

/-- `utf8.RuneError` with size 1: what is not UTF-8. -/
def runeError : Nat × Nat := (0xFFFD, 1)

/-- `utf8.DecodeRune` of a text that is not empty: the rune and the number of its bytes. Masks and shifts are written as arithmetic. -/
def decodeRune : Str → Nat × Nat
  | [] => (0xFFFD, 0)
  | b0 :: t =>
    if b0 < 0x80 then (b0.toNat, 1)
    else match utf8First b0, t with
      | some (n, lo, hi), b1 :: t =>
        if b1 < lo || hi < b1 then runeError
        else if n = 2 then (b0.toNat % 32 * 64 + b1.toNat % 64, 2)
        else match t with
          | b2 :: t =>
            if b2 < 0x80 || 0xBF < b2 then runeError
            else if n = 3 then (b0.toNat % 16 * 4096 + b1.toNat % 64 * 64 + b2.toNat % 64, 3)
            else match t with
              | b3 :: _ =>
                if b3 < 0x80 || 0xBF < b3 then runeError
                else (b0.toNat % 8 * 262144 + b1.toNat % 64 * 4096 + b2.toNat % 64 * 64 + b3.toNat % 64, 4)
              | [] => runeError
          | [] => runeError
      | _, _ => runeError

-- Tests of the definition: a, é, €, 😀, a surrogate, a continuation byte.
example : decodeRune [97, 98] = (97, 1) ∧ decodeRune [0xC3, 0xA9, 97] = (0xE9, 2) ∧ decodeRune [0xE2, 0x82, 0xAC] = (0x20AC, 3) ∧ decodeRune [0xF0, 0x9F, 0x98, 0x80] = (0x1F600, 4) ∧
    decodeRune [0xED, 0xA0, 0x80] = runeError ∧ decodeRune [0x80] = runeError := by decide +kernel

end GoMetrics
