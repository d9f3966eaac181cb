/-!
# Times as text

`Utils::ToString_us` and `Utils::ToString_s_ms_us` (r_code/code_utils.cpp) write the durations and times of
decompiled code; `Compiler::duration` and `Compiler::timestamp_s_ms_us` (r_comp/compiler.cpp) read them.
A stream is the list of the characters that remain. Numbers are integers, with the ranges of `int64` and
`uint64` explicit; `none` from a writer is undefined behaviour, `none` from a reader is `false`.
-/
namespace Verif.TimeText

def digitChar (n : Nat) : Char := Char.ofNat (48 + n)
def isDigit (c : Char) : Bool := decide (48 ≤ c.toNat ∧ c.toNat ≤ 57)

/-- `std::to_string` of a `uint64`. -/
def dec (n : Nat) : List Char :=
  if h : n < 10 then [digitChar n] else dec (n / 10) ++ [digitChar (n % 10)]
termination_by n
decreasing_by omega

/-- `abs` of an `int64`: undefined for the least value. -/
def abs64 (d : Int) : Option Nat :=
  if -9223372036854775808 < d ∧ d < 9223372036854775808 then some d.natAbs else none

def sign (d : Int) : List Char := if d < 0 then ['-'] else []

/-- r_code/code_utils.cpp:174-189 `Utils::ToString_us`. -/
def toStringUs (d : Int) : Option (List Char) :=
  (abs64 d).map fun us =>
    if us % 1000 ≠ 0 then sign d ++ (dec us ++ "us".toList)
    else if us / 1000 % 1000 ≠ 0 then sign d ++ (dec (us / 1000) ++ "ms".toList)
    else sign d ++ (dec (us / 1000 / 1000) ++ "s".toList)

/-- r_code/code_utils.cpp:148-166 `Utils::ToString_s_ms_us`. The difference of the times is an `int64`. -/
def toStringSMsUs (t ref : Int) : Option (List Char) :=
  (abs64 (t - ref)).map fun a =>
    sign (t - ref) ++ (dec (a / 1000 / 1000) ++ ("s:".toList ++ (dec (a / 1000 % 1000) ++ ("ms:".toList ++
      (dec (a % 1000) ++ "us".toList)))))

/-! ## Reading -/

/-- r_comp/compiler.cpp:631-646 `match_symbol(symbol, false)`: what follows the symbol. -/
def matchSymbol : List Char → List Char → Option (List Char)
  | [], s => some s
  | _ :: _, [] => none
  | c :: cs, x :: xs => if x = c then matchSymbol cs xs else none

def isSpace (c : Char) : Bool := c = ' ' || (decide (9 ≤ c.toNat ∧ c.toNat ≤ 13))

/-- The digits at the front and what follows. -/
def spanDigits (s : List Char) : List Char × List Char :=
  (s.takeWhile isDigit, s.dropWhile isDigit)

def value (ds : List Char) : Nat := ds.foldl (fun v c => 10 * v + (c.toNat - 48)) 0

/-- An optional sign. -/
def signOf : List Char → Bool × List Char
  | '-' :: s => (true, s)
  | '+' :: s => (false, s)
  | s => (false, s)

/-- The magnitude of a number and its sign; `none` without digits, or when the end of the stream is
reached (`fail() || eof()`). -/
def readDec (s : List Char) : Option (Bool × Nat × List Char) :=
  let (neg, s) := signOf (s.dropWhile isSpace)
  let (ds, rest) := spanDigits s
  if ds = [] ∨ rest = [] then none else some (neg, value ds, rest)

def signed (neg : Bool) (n : Nat) : Int := if neg then -(n : Int) else n

/-- `stream >> std::dec >> int64`. -/
def readInt64 (s : List Char) : Option (Int × List Char) :=
  (readDec s).bind fun (neg, n, rest) =>
    if -9223372036854775808 ≤ signed neg n ∧ signed neg n < 9223372036854775808 then
      some (signed neg n, rest)
    else none

/-- The value of a `uint64` with a sign. -/
def wrap (neg : Bool) (n : Nat) : Nat :=
  if neg then (18446744073709551616 - n) % 18446744073709551616 else n

/-- `stream >> std::dec >> uint64`: a sign is accepted and wraps around. -/
def readUInt64 (s : List Char) : Option (Nat × List Char) :=
  (readDec s).bind fun (neg, n, rest) =>
    if n < 18446744073709551616 then
      some (wrap neg n, rest)
    else none

/-- Multiplication of `int64`: `none` on overflow. -/
def mul64 (a b : Int) : Option Int :=
  if -9223372036854775808 ≤ a * b ∧ a * b < 9223372036854775808 then some (a * b) else none

/-- r_comp/compiler.cpp:1276-1309 `Compiler::duration`. -/
def readDuration (s : List Char) : Option (Int × List Char) :=
  if (matchSymbol "0x".toList s).isSome then none
  else
    (readInt64 s).bind fun (v, rest) =>
      match matchSymbol "us".toList rest with
      | some rest => some (v, rest)
      | none =>
        match matchSymbol "ms".toList rest with
        | some rest => (mul64 v 1000).map fun v => (v, rest)
        | none =>
          match matchSymbol "s".toList rest with
          | some rest =>
            if (matchSymbol ":".toList rest).isSome then none
            else (mul64 v 1000000).map fun v => (v, rest)
          | none => none

/-- A `uint64` as `int64`. -/
def toInt64 (n : Nat) : Int :=
  if n % 18446744073709551616 < 9223372036854775808 then (n % 18446744073709551616 : Nat)
  else (n % 18446744073709551616 : Nat) - 18446744073709551616

/-- r_comp/compiler.cpp:1311-1363 `Compiler::timestamp_s_ms_us`. -/
def readTimestamp (s : List Char) : Option (Int × List Char) :=
  if (matchSymbol "0x".toList s).isSome then none
  else
    let neg := (matchSymbol "-".toList s).isSome
    let s := (matchSymbol "-".toList s).getD s
    (readUInt64 s).bind fun (sec, s) =>
    (matchSymbol "s:".toList s).bind fun s =>
    (readUInt64 s).bind fun (ms, s) =>
    (matchSymbol "ms:".toList s).bind fun s =>
    (readUInt64 s).bind fun (us, s) =>
    (matchSymbol "us".toList s).map fun s =>
      let ts := toInt64 (sec * 1000000 + ms * 1000 + us)
      (if neg then -ts else ts, s)

end Verif.TimeText
