import Verif.Go.Basic

/-! `fmt.Fprintf`/`Sprintf`/`log.Logger.Printf` as far as the exporters use them (Go package `fmt`, trusted). Format strings are parsed; how a
number is turned into digits is not modelled: a formatted number stays a piece of output of its own. -/

namespace GoMetrics

/-- The bytes of a string of the program text. -/
def bytes (s : String) : Str := s.toUTF8.data.toList

/-- Formatted output: a byte of text; a formatted value, with the directive after its `%` (`9d`, `12.2f`, `v`); fmt's complaints about a
directive without argument, an argument without directive, and an unfinished directive. -/
inductive Piece (V : Type) where
  | byte (b : UInt8)
  | val (directive : Str) (v : V)
  | missing (directive : Str)
  | extra
  | noVerb
  deriving DecidableEq

/-- Arguments of `Printf`: a string or a value of another type. -/
inductive FmtArg (V : Type) where
  | str (s : Str)
  | val (v : V)

def textOf {V : Type} (s : Str) : List (Piece V) := s.map .byte

/-- Flags, width and precision of a directive: digits and the period. -/
def inDirective (b : UInt8) : Bool := b == 46 || (48 ≤ b && b ≤ 57)

/-- The scan of a format string; the first argument is the directive being read (the bytes after its `%`). -/
def format {V : Type} : Option Str → Str → List (FmtArg V) → List (Piece V)
  | none, [], [] => []
  | none, [], _ :: _ => [.extra]
  | none, b :: f, as => if b == 37 then format (some []) f as else .byte b :: format none f as
  | some _, [], _ => [.noVerb]
  | some d, b :: f, as =>
    if inDirective b then format (some (d ++ [b])) f as
    else if b == 37 then .byte 37 :: format none f as
    else match as with
      | [] => .missing (d ++ [b]) :: format none f []
      | .str s :: as => textOf s ++ format none f as
      | .val v :: as => .val (d ++ [b]) v :: format none f as

/-- `fmt.Sprintf(f, as...)`. -/
def sprintf {V : Type} (f : String) (as : List (FmtArg V)) : List (Piece V) := format none (bytes f) as

end GoMetrics
