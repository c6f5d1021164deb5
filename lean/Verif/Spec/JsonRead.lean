import Verif.Go.Fmt
import Mathlib.Data.Rat.Defs
import Mathlib.Algebra.Order.Field.Rat

/-! JSON as in RFC 8259, read by a small parser, with strings as lists of Unicode scalar values, numbers as rationals, and UTF-8 as in RFC 3629. -/

namespace GoMetrics.Spec
open GoMetrics

/-! ### UTF-8 -/

/-- The Unicode scalar values. -/
def Scalar (c : Nat) : Prop := c < 0xD800 ∨ (0xE000 ≤ c ∧ c < 0x110000)
instance (c : Nat) : Decidable (Scalar c) := inferInstanceAs (Decidable (_ ∨ _))

/-- The encoding of a scalar value in one to four bytes. -/
def utf8 (c : Nat) : Str :=
  if c < 0x80 then [UInt8.ofNat c]
  else if c < 0x800 then [UInt8.ofNat (0xC0 + c / 64), UInt8.ofNat (0x80 + c % 64)]
  else if c < 0x10000 then [UInt8.ofNat (0xE0 + c / 4096), UInt8.ofNat (0x80 + c / 64 % 64), UInt8.ofNat (0x80 + c % 64)]
  else [UInt8.ofNat (0xF0 + c / 262144), UInt8.ofNat (0x80 + c / 4096 % 64), UInt8.ofNat (0x80 + c / 64 % 64), UInt8.ofNat (0x80 + c % 64)]

/-- The text of a list of scalar values. -/
def utf8Text (cs : List Nat) : Str := (cs.map utf8).flatten

/-- The bits of the first `k` bytes of a text that can belong to a scalar value. -/
def payload (k : Nat) : Str → Nat
  | [] => 0
  | b :: s => (s.take (k - 1)).foldl (fun n b => n * 64 + b.toNat % 64) (if k = 1 then b.toNat else b.toNat % 2 ^ (7 - k))

/-- The text starts with the encoding of the scalar value in its first `k` bytes. -/
def startsWith (s : Str) (k : Nat) : Bool := decide (Scalar (payload k s)) && utf8 (payload k s) == s.take k

/-- The first character of a text, and the rest. -/
def readChar (s : Str) : Option (Nat × Str) :=
  if startsWith s 1 then some (payload 1 s, s.drop 1)
  else if startsWith s 2 then some (payload 2 s, s.drop 2)
  else if startsWith s 3 then some (payload 3 s, s.drop 3)
  else if startsWith s 4 then some (payload 4 s, s.drop 4)
  else none

/-- The characters of a text; a byte with which no character starts counts as U+FFFD, the replacement character. -/
def charsFuel : Nat → Str → List Nat
  | 0, _ => []
  | _, [] => []
  | n + 1, b :: s =>
    match readChar (b :: s) with
    | some (c, r) => c :: charsFuel n r
    | none => 0xFFFD :: charsFuel n s
def chars (s : Str) : List Nat := charsFuel s.length s

/-! ### JSON -/

/-- A JSON value. -/
inductive Json where
  | null
  | bool (b : Bool)
  | num (q : ℚ)
  | str (s : List Nat)
  | arr (l : List Json)
  | obj (l : List (List Nat × Json))

/-- White space. -/
def skipWs (s : Str) : Str := s.dropWhile fun b => b == 32 || b == 9 || b == 10 || b == 13

def isDec (b : UInt8) : Bool := 48 ≤ b && b ≤ 57

def decValue (s : Str) : Nat := s.foldl (fun n b => 10 * n + (b.toNat - 48)) 0

/-- One or more digits. -/
def someDigits (s : Str) : Option (Str × Str) :=
  let ds := s.takeWhile isDec
  if ds = [] then none else some (ds, s.dropWhile isDec)

/-- The integer part: `0`, or digits that do not start with it. -/
def readIntPart (s : Str) : Option (Nat × Str) := do
  let (ds, r) ← someDigits s
  if ds.head? = some 48 ∧ ds ≠ [48] then none else return (decValue ds, r)

/-- The fraction, if there is a point. -/
def readFrac : Str → Option (ℚ × Str)
  | 46 :: s => do
    let (ds, r) ← someDigits s
    return ((decValue ds : ℚ) / 10 ^ ds.length, r)
  | s => some (0, s)

/-- The exponent, if there is one. -/
def readExp : Str → Option (Int × Str)
  | b :: s =>
    if b = 101 ∨ b = 69 then
      match s with
      | 43 :: s => do let (ds, r) ← someDigits s; return ((decValue ds : Int), r)
      | 45 :: s => do let (ds, r) ← someDigits s; return (-(decValue ds : Int), r)
      | s => do let (ds, r) ← someDigits s; return ((decValue ds : Int), r)
    else some (0, b :: s)
  | [] => some (0, [])

/-- A number without sign. -/
def readUnsigned (s : Str) : Option (ℚ × Str) := do
  let (n, s) ← readIntPart s
  let (f, s) ← readFrac s
  let (e, s) ← readExp s
  return (((n : ℚ) + f) * 10 ^ e, s)

/-- A number. -/
def readNum : Str → Option (ℚ × Str)
  | 45 :: s => do let (q, s) ← readUnsigned s; return (-q, s)
  | s => readUnsigned s

def hexValue (b : UInt8) : Option Nat :=
  if 48 ≤ b ∧ b ≤ 57 then some (b.toNat - 48) else if 97 ≤ b ∧ b ≤ 102 then some (b.toNat - 87) else if 65 ≤ b ∧ b ≤ 70 then some (b.toNat - 55) else none

/-- Four hexadecimal digits. -/
def readHex4 : Str → Option (Nat × Str)
  | a :: b :: c :: d :: s => do return ((← hexValue a) * 4096 + (← hexValue b) * 256 + (← hexValue c) * 16 + (← hexValue d), s)
  | _ => none

/-- What follows a backslash. Characters above U+FFFF are written as two surrogates; a surrogate alone is not a character. -/
def readEscape : Str → Option (Nat × Str)
  | 34 :: s => some (34, s)
  | 92 :: s => some (92, s)
  | 47 :: s => some (47, s)
  | 98 :: s => some (8, s)
  | 102 :: s => some (12, s)
  | 110 :: s => some (10, s)
  | 114 :: s => some (13, s)
  | 116 :: s => some (9, s)
  | 117 :: s => do
    let (c, s) ← readHex4 s
    if c < 0xD800 ∨ 0xE000 ≤ c then return (c, s)
    else if c < 0xDC00 then
      match s with
      | 92 :: 117 :: s => do
        let (d, s) ← readHex4 s
        if 0xDC00 ≤ d ∧ d < 0xE000 then return (0x10000 + (c - 0xD800) * 1024 + (d - 0xDC00), s) else none
      | _ => none
    else none
  | _ => none

/-- The rest of a string after the opening quotation mark. Control characters must be escaped, and everything must be UTF-8. -/
def readChars : Nat → Str → Option (List Nat × Str)
  | 0, _ => none
  | _, [] => none
  | n + 1, b :: s =>
    if b = 34 then some ([], s)
    else if b = 92 then do
      let (c, s) ← readEscape s
      let (cs, s) ← readChars n s
      return (c :: cs, s)
    else if b < 32 then none
    else do
      let (c, s) ← readChar (b :: s)
      let (cs, s) ← readChars n s
      return (c :: cs, s)

mutual
/-- A value. The number bounds the depth of the recursion. -/
def readValue : Nat → Str → Option (Json × Str)
  | 0, _ => none
  | n + 1, s =>
    match skipWs s with
    | 123 :: s =>
      match skipWs s with
      | 125 :: s => some (.obj [], s)
      | s => do let (l, s) ← readMembers n s; return (.obj l, s)
    | 91 :: s =>
      match skipWs s with
      | 93 :: s => some (.arr [], s)
      | s => do let (l, s) ← readElements n s; return (.arr l, s)
    | 34 :: s => do let (cs, s) ← readChars s.length s; return (.str cs, s)
    | 110 :: 117 :: 108 :: 108 :: s => some (.null, s)
    | 116 :: 114 :: 117 :: 101 :: s => some (.bool true, s)
    | 102 :: 97 :: 108 :: 115 :: 101 :: s => some (.bool false, s)
    | s => do let (q, s) ← readNum s; return (.num q, s)
/-- The members of an object and the closing brace. -/
def readMembers : Nat → Str → Option (List (List Nat × Json) × Str)
  | 0, _ => none
  | n + 1, s =>
    match skipWs s with
    | 34 :: s => do
      let (k, s) ← readChars s.length s
      match skipWs s with
      | 58 :: s => do
        let (v, s) ← readValue n s
        match skipWs s with
        | 44 :: s => do let (l, s) ← readMembers n s; return ((k, v) :: l, s)
        | 125 :: s => return ([(k, v)], s)
        | _ => none
      | _ => none
    | _ => none
/-- The elements of an array and the closing bracket. -/
def readElements : Nat → Str → Option (List Json × Str)
  | 0, _ => none
  | n + 1, s => do
    let (v, s) ← readValue n s
    match skipWs s with
    | 44 :: s => do let (l, s) ← readElements n s; return (v :: l, s)
    | 93 :: s => return ([v], s)
    | _ => none
end

/-- The value of a JSON text. -/
def readJson (s : Str) : Option Json :=
  match readValue s.length s with
  | some (v, r) => if skipWs r = [] then some v else none
  | none => none

/-- The members of an object with the given key. -/
def Json.member (k : List Nat) : Json → List Json
  | .obj l => (l.filter fun m => m.1 == k).map Prod.snd
  | _ => []

/-- What may follow a value: nothing that could continue a number. -/
def Delim (rest : Str) : Prop := ∀ b t, rest = b :: t → isDec b = false ∧ b ≠ 46 ∧ b ≠ 101 ∧ b ≠ 69
/-- Wherever it stands in a JSON text, the text is read as the value. -/
def ReadAs (text : Str) (j : Json) : Prop := ∀ n rest, Delim rest → text.length ≤ n → readValue n (text ++ rest) = some (j, rest)

-- Tests of the definitions.
example : chars (utf8Text [97, 0xE9, 0x20AC, 0x1F600]) = [97, 0xE9, 0x20AC, 0x1F600] ∧ chars [0xFF, 97, 0xC3] = [0xFFFD, 97, 0xFFFD] ∧ chars [0xED, 0xA0, 0x80] = [0xFFFD, 0xFFFD, 0xFFFD] := by decide +kernel
example : readNum (bytes "-12.5e-1,") = some (-5 / 4, bytes ",") ∧ readNum (bytes "01") = none ∧ readNum (bytes "1.") = none ∧ readNum (bytes "NaN") = none := by decide +kernel
example : readChars 40 (bytes "a\\u00e9\\ud83d\\ude00\\n\"x") = some ([97, 0xE9, 0x1F600, 10], bytes "x") ∧ readChars 40 (bytes "\\x01\"") = none ∧ readChars 40 [10, 34] = none := by decide +kernel

end GoMetrics.Spec
